import Verif.Verify
import Verif.Props.Norms
import Verif.Props.Files
import Verif.Props.Linear
import Verif.Props.Vector3
import Verif.Props.Transforms4
/-!
# C53: the verification routines report zero exactly when file and transform agree
-/
namespace Verif.Props
open Verif

theorem bindOk {α β : Type} {x : Res α} {f : α → Res β} {y : β} (h : x.bind f = .ok y) : ∃ a, x = .ok a ∧ f a = .ok y := by
  cases x with
  | ok a => exact ⟨a, rfl, h⟩
  | error e => cases h

theorem init_inv {l : List ℂ} {n m : Int} {c : ScalarCoefs ℂ} (h : ScalarCoefs.init (.arr l) n m = .ok c) :
    c = ⟨l, n, m⟩ ∧ m ≤ n ∧ ncFormula n m = l.length := by
  unfold ScalarCoefs.init at h
  split at h
  · cases h
  · simp only at h
    split at h
    · cases h
    · next h1 h2 => exact ⟨by cases h; rfl, by omega, not_not.mp h2⟩

theorem spht_shape {b : Backend} {p : SPatt ℂ} {n m : Int} {s : ScalarCoefs ℂ} (h : spht b p (some n) (some m) = .ok s) (h0 : 0 ≤ m) :
    s.WellFormed ∧ s.nmax = n ∧ s.mmax = m := by
  unfold spht at h
  obtain ⟨nm, h1, h⟩ := bindOk h
  obtain ⟨rfl⟩ : nm = (n, m) := by
    unfold sphtArgs at h1
    cases h1; rfl
  obtain ⟨_, _, h⟩ := bindOk h
  obtain ⟨_, _, h⟩ := bindOk h
  obtain ⟨_, _, h⟩ := bindOk h
  obtain ⟨_, _, h⟩ := bindOk h
  obtain ⟨_, _, h⟩ := bindOk h
  obtain ⟨_, _, h⟩ := bindOk h
  obtain ⟨rfl, k1, k2⟩ := init_inv h
  exact ⟨ScalarCoefs.wf_iff.1 ⟨h0, k1, k2.symm⟩, rfl, rfl⟩

theorem zip_sub_zero {v w : List ℂ} (hl : v.length = w.length) : (∀ x ∈ List.zipWith (· - ·) v w, x = 0) ↔ w = v := by
  constructor
  · intro h
    symm
    apply List.ext_getElem hl
    intro i h1 h2
    have := h (v[i] - w[i]) (by
      rw [List.mem_iff_getElem]
      exact ⟨i, by simp [h1, h2], by simp⟩)
    exact sub_eq_zero.mp this
  · rintro rfl x hx
    obtain ⟨i, hi, rfl⟩ := List.getElem_of_mem hx
    simp

theorem sc_vec_ext {c s : ScalarCoefs ℂ} (hn : s.nmax = c.nmax) (hm : s.mmax = c.mmax) : s.vec = c.vec ↔ s = c := by
  cases c; cases s
  simp only at hn hm
  subst hn hm
  simp

theorem sub_scalar {c s : ScalarCoefs ℂ} (hc : c.WellFormed) (hs : s.WellFormed) (hn : s.nmax = c.nmax) (hm : s.mmax = c.mmax) :
    c.opLeft .sub (.obj s) = .ok ⟨List.zipWith (· - ·) c.vec s.vec, c.nmax, c.mmax⟩ ∧
    (⟨List.zipWith (· - ·) c.vec s.vec, c.nmax, c.mmax⟩ : ScalarCoefs ℂ).WellFormed ∧
    ((∀ x ∈ List.zipWith (· - ·) c.vec s.vec, x = 0) ↔ s = c) := by
  have hl : c.vec.length = s.vec.length := by rw [hc.3, hs.3, hn, hm]
  have hw : (⟨List.zipWith (· - ·) c.vec s.vec, c.nmax, c.mmax⟩ : ScalarCoefs ℂ).WellFormed :=
    ⟨hc.1, hc.2, by simp only [List.length_zipWith, ← hl, min_self]; exact hc.3⟩
  refine ⟨?_, hw, ?_⟩
  · unfold ScalarCoefs.opLeft
    simp only
    rw [if_pos hl]
    exact ScalarCoefs.init_wf hc.1 hc.2 hw.wf.len.symm
  · rw [zip_sub_zero hl, sc_vec_ext hn hm]

/-- C53 (`verify_spht`): an exception of `spht` on the loaded pattern is passed on; otherwise a report comes back, its first
entry is the root of the sum of squared differences, its second the largest difference, and each of them is 0 exactly when the
loaded coefficients are what `spht` computes. -/
theorem c53_spht (F : FloatText) (b : Backend) (pf cf : Text) (p : SPatt ℂ) (c : ScalarCoefs ℂ) (hp : loadPatt F pf = .ok p)
    (hc : loadCoef F cf = .ok c) (hw : c.WellFormed) :
    (∀ e, spht b p (some c.nmax) (some c.mmax) = .error e → verifySpht F b pf cf = .error e) ∧
    ∀ s, spht b p (some c.nmax) (some c.mmax) = .ok s →
      ∃ r, verifySpht F b pf cf = .ok r ∧ 0 ≤ r.l2 ∧ 0 ≤ r.linf ∧ (r.l2 = 0 ↔ s = c) ∧ (r.linf = 0 ↔ s = c) ∧
        r.l2 ^ 2 = ((List.zipWith (fun x y => ‖x - y‖ ^ 2) c.vec s.vec).sum) ∧
        (∀ n m x y, IsMode c.nmax c.mmax n m → readMap c n m = some x → readMap s n m = some y → ‖x - y‖ ≤ r.linf) ∧
        r.l2Ref = l2SC c ∧ linfSC c = .ok r.linfRef := by
  constructor
  · intro e he
    unfold verifySpht
    rw [hp, hc]; simp only [Except.bind_ok]; rw [he]; rfl
  · intro s hs
    obtain ⟨ws, hn, hm⟩ := spht_shape hs hw.1
    obtain ⟨e1, w1, z1⟩ := sub_scalar hw ws hn hm
    obtain ⟨a, ha, ⟨n, m, x, -, -, hax⟩, hle⟩ := c55_linf_scalar _ w1
    obtain ⟨r, hr, -⟩ := c55_linf_scalar _ hw
    refine ⟨⟨l2SC ⟨List.zipWith (· - ·) c.vec s.vec, c.nmax, c.mmax⟩, a, l2SC c, r⟩, ?_, n2_nonneg _, by rw [hax]; exact norm_nonneg x, ?_, ?_, ?_, ?_, rfl, hr⟩
    · unfold verifySpht
      rw [hp, hc]; simp only [Except.bind_ok]; rw [hs]; simp only [Except.bind_ok]
      rw [e1]; simp only [Except.bind_ok]
      rw [ha, hr]; rfl
    · rw [← z1]; exact n2_eq_zero
    · rw [← z1]; exact npMax_norm_zero ha
    · simp only [l2SC]
      rw [Real.sq_sqrt (sum_sq_nonneg _), List.map_zipWith]
    · intro n m x y hnm hx hy
      refine hle n m (x - y) hnm ?_
      rw [readMap_eq hw.wf] at hx
      rw [readMap_eq ws.wf] at hy
      rw [readMap_eq w1.wf]
      unfold ScalarCoefs.absMap at *
      rw [hn, hm] at hy
      rw [if_pos hnm] at *
      simp only
      rw [List.getElem?_zipWith, hx, hy]

theorem arr_zip_sub {A B : Arr2 ℂ} (hr : B.rows = A.rows) (hc : B.cols = A.cols) :
    (∀ x ∈ (A.zip (fun x y => x - y) B).toList, x = 0) ↔ B = A := by
  constructor
  · intro h
    refine Arr2.ext' hr hc fun i j hi hj => ?_
    have := h (A.at' i j - B.at' i j) (toList_mem.mpr ⟨i, j, by simpa [← hr] using hi, by simpa [← hc] using hj, by
      rw [Arr2.at'_zip _ _ _ (by omega) (by omega)]⟩)
    exact (sub_eq_zero.mp this).symm
  · rintro rfl x hx
    obtain ⟨i, j, hi, hj, rfl⟩ := toList_mem.mp hx
    rw [Arr2.at'_zip _ B _ hi hj, sub_self]

/-- C53 (`verify_ispht`): with `D` the loaded pattern (continued to the double sphere) and `E` what `ispht` computes on its
grid, both norms in the report are 0 exactly when `E = D`. -/
theorem c53_ispht (F : FloatText) (b : Backend) (pf cf : Text) (D : Arr2 ℂ) (c : ScalarCoefs ℂ) (hp : loadPatt F pf = .ok ⟨.arr D⟩)
    (hc : loadCoef F cf = .ok c) (hw : c.WellFormed) (he : D.rows % 2 = 0) :
    (∀ e, ispht b c (some ((D.rows / 2 + 1 : ℕ) : ℤ)) (some (D.cols : ℤ)) = .error e → verifyIspht F b pf cf = .error e) ∧
    (c.nmax + 2 ≤ ((D.rows / 2 + 1 : ℕ) : ℤ) → 2 * c.mmax + 2 ≤ (D.cols : ℤ) → D.cols % 2 = 0 →
      ∃ E r, ispht b c (some ((D.rows / 2 + 1 : ℕ) : ℤ)) (some (D.cols : ℤ)) = .ok ⟨.arr E⟩ ∧ verifyIspht F b pf cf = .ok r ∧
        (r.l2 = 0 ↔ E = D) ∧ (r.linf = 0 ↔ E = D) ∧
        r.l2 ^ 2 = ∑ i ∈ Finset.range D.rows, ∑ j ∈ Finset.range D.cols, ‖D.at' i j - E.at' i j‖ ^ 2 ∧
        (∀ i j, i < D.rows → j < D.cols → ‖D.at' i j - E.at' i j‖ ≤ r.linf) ∧
        SPatt.l2 ⟨.arr D⟩ = .ok r.l2Ref ∧ SPatt.linf ⟨.arr D⟩ = .ok r.linfRef) := by
  have e1 : SPatt.nrows (⟨.arr D⟩ : SPatt ℂ) = .ok (D.rows / 2 + 1) := rfl
  have e2 : SPatt.ncols (⟨.arr D⟩ : SPatt ℂ) = .ok D.cols := rfl
  constructor
  · intro e he
    unfold verifyIspht
    rw [hp, hc]; simp only [Except.bind_ok]
    rw [e1, e2]; simp only [Except.bind_ok]; rw [he]; rfl
  · intro h1 h2 h3
    obtain ⟨E, hE, r1, r2, -⟩ := ispht_main b c hw.wf (some ((D.rows / 2 + 1 : ℕ) : ℤ)) (some (D.cols : ℤ)) (D.rows / 2 + 1) D.cols rfl rfl h1 h2 h3
    have h0 := hw.1
    have h4 := hw.2
    have r1' : E.rows = D.rows := by omega
    have o : SPatt.opLeft .sub ⟨.arr D⟩ (.obj ⟨.arr E⟩) = .ok ⟨.arr (D.zip (fun x y => x - y) E)⟩ := by
      simp only [SPatt.opLeft, SPatt.dsphere, Except.bind_ok, r1', r2, and_self, if_true, SPatt.init]
      rfl
    obtain ⟨a', ha', -, hle⟩ := (c56_linf_scalar (D.zip (fun x y => x - y) E)).1 ⟨by simp only [Arr2.rows_zip]; omega, by simp only [Arr2.cols_zip]; omega⟩
    obtain ⟨r', hr', -⟩ := (c56_linf_scalar D).1 ⟨by omega, by omega⟩
    refine ⟨E, ⟨l2Arr (D.zip (fun x y => x - y) E), a', l2Arr D, r'⟩, hE, ?_, ?_, ?_, ?_, ?_, rfl, hr'⟩
    · unfold verifyIspht
      rw [hp, hc]; simp only [Except.bind_ok]
      rw [e1, e2]; simp only [Except.bind_ok]; rw [hE]; simp only [Except.bind_ok]
      rw [o]; simp only [Except.bind_ok]
      rw [ha', hr']; rfl
    · rw [← arr_zip_sub r1' r2]; exact n2_eq_zero
    · rw [← arr_zip_sub r1' r2]; exact npMax_norm_zero ha'
    · simp only [l2Arr]
      rw [Real.sq_sqrt (sum_sq_nonneg _), toList_sum]
      refine Finset.sum_congr rfl fun i hi => Finset.sum_congr rfl fun j hj => ?_
      rw [Arr2.at'_zip _ _ _ (Finset.mem_range.mp hi) (Finset.mem_range.mp hj)]
    · intro i j hi hj
      have := hle i j hi hj
      rwa [Arr2.at'_zip _ _ _ hi hj] at this

theorem unflat_flat {B : Arr2 ℂ} {r k : ℕ} (hr : r = B.rows) (hk : k = B.cols) : unflat r k B.flat = B := by
  subst hr hk
  refine Arr2.ext' rfl rfl fun i j hi hj => ?_
  unfold unflat
  have hi' : i < B.rows := hi
  have hj' : j < B.cols := hj
  rw [Arr2.at'_ofFn hi' hj', Arr2.rd_flat _ hi' hj']

/-- C53 (`verify_fdata`): the returned number is the largest difference between the loaded Fourier data and the Fourier
coefficients of the loaded set (computed by the C routine, here compared with the Python routine), 0 exactly when they agree. -/
theorem c53_fdata (F : FloatText) (J : Nat → CJunk) (ff cf : Text) (A : Arr2 ℂ) (c : ScalarCoefs ℂ) (ha : loadFdata F ff = .ok A)
    (hc : loadCoef F cf = .ok c) (hw : c.WellFormed) (h1 : c.nmax + 1 ≤ (A.rows : ℤ)) (h2 : 2 * c.mmax + 2 ≤ (A.cols : ℤ)) :
    ∃ B v, scToFc c.vec c.nmax c.mmax (A.rows : ℤ) (A.cols : ℤ) = .ok B ∧ B.rows = A.rows ∧ B.cols = A.cols ∧
      verifyFdata F J ff cf = .ok v ∧ (v = 0 ↔ B = A) ∧ (∃ i j, i < A.rows ∧ j < A.cols ∧ v = ‖A.at' i j - B.at' i j‖) ∧
      ∀ i j, i < A.rows → j < A.cols → ‖A.at' i j - B.at' i j‖ ≤ v := by
  have h0 := hw.1
  have h4 := hw.2
  obtain ⟨n, hn⟩ := Int.eq_ofNat_of_zero_le (le_trans h0 h4)
  obtain ⟨m, hm⟩ := Int.eq_ofNat_of_zero_le h0
  obtain ⟨B, hB, r1, r2, hC⟩ := c28_sc_to_fc c.vec n m A.rows A.cols (by omega) (by omega) (by omega)
    (by rw [← hn, ← hm]; exact hw.wf.len) (J 0)
  obtain ⟨v, hv, ⟨i, j, hi, hj, hij⟩, hle⟩ := (c56_linf_scalar (A.zip (fun x y => x - y) B)).1 ⟨by simp only [Arr2.rows_zip]; omega, by simp only [Arr2.cols_zip]; omega⟩
  refine ⟨B, v, by rw [hn, hm]; exact hB, r1, r2, ?_, ?_, ⟨i, j, hi, hj, ?_⟩, ?_⟩
  · unfold verifyFdata
    rw [hc, ha]; simp only [Except.bind_ok]
    have : (Backend.c J).scToFc 0 c.vec c.nmax c.mmax (A.rows : ℤ) (A.cols : ℤ) = .ok B := by
      unfold Backend.scToFc npZeros2
      rw [if_neg (by omega)]
      simp only [Except.bind_ok, Int.toNat_natCast, Arr2.rows_ofFn, Arr2.cols_ofFn]
      rw [hn, hm, hC]
      simp only [Except.bind_ok]
      rw [unflat_flat r1.symm r2.symm]
    rw [this]; simp only [Except.bind_ok]
    exact hv
  · rw [← arr_zip_sub r1 r2]; exact npMax_norm_zero hv
  · rw [hij, Arr2.at'_zip _ A _ hi hj]
  · intro i j hi hj
    have := hle i j hi hj
    rwa [Arr2.at'_zip _ _ _ hi hj] at this

theorem vinit_inv {l k : List ℂ} {n m : Int} {c : VectorCoefs ℂ} (h : VectorCoefs.init (.arr l) (.arr k) n m = .ok c) (h0 : 0 ≤ m) :
    c = ⟨⟨l.set 0 0, n, m⟩, ⟨k.set 0 0, n, m⟩, n, m⟩ ∧ m ≤ n ∧ ncFormula n m = l.length ∧ ncFormula n m = k.length := by
  have h' := h
  unfold VectorCoefs.init at h
  simp only at h
  split at h
  · cases h
  split at h
  · cases h
  split at h
  · cases h
  next h1 h2 h3 =>
    have k1 : ncFormula n m = l.length := not_not.mp h3
    have k2 : ncFormula n m = k.length := by rw [k1, not_not.mp h1]
    rw [vinit_wf h0 (by omega) k1 k2] at h'
    cases h'
    exact ⟨rfl, by omega, k1, k2⟩

theorem wf_set0 {l : List ℂ} {n m : Int} (h0 : 0 ≤ m) (h1 : m ≤ n) (h2 : ncFormula n m = l.length) :
    (⟨l.set 0 0, n, m⟩ : ScalarCoefs ℂ).WellFormed := ScalarCoefs.wf_iff.1 ⟨h0, h1, by simpa using h2.symm⟩

/-- The value at index 0 is 0. -/
def Mono0 (c : ScalarCoefs ℂ) : Prop := c.vec[0]? = some 0

theorem mono_set {l : List ℂ} {n m : Int} (h0 : 0 ≤ m) (h1 : m ≤ n) (h2 : ncFormula n m = l.length) :
    Mono0 ⟨l.set 0 0, n, m⟩ := by
  have := vec_ne_nil _ (wf_set0 h0 h1 h2)
  unfold Mono0
  cases l with
  | nil => exact absurd rfl this
  | cons x xs => rfl

theorem set0_of_mono {l : List ℂ} (h : l[0]? = some 0) : l.set 0 0 = l := by
  cases l with
  | nil => rfl
  | cons x xs => simp at h; subst h; rfl

theorem windowed_keep {c d : ScalarCoefs ℂ} (hc : c.WellFormed) (h0 : Mono0 c) {w : List ℂ} (hw : (w.length : Int) = c.nmax + 1)
    (h : c.windowed w = .ok d) : d.WellFormed ∧ d.nmax = c.nmax ∧ d.mmax = c.mmax ∧ Mono0 d := by
  obtain ⟨e, dw, d1, d2, dv⟩ := ScalarCoefs.window_eq hc.wf hw
  have hd : d = (c.window w).st := by
    unfold ScalarCoefs.windowed at h
    simp only [e] at h
    cases h; rfl
  subst hd
  refine ⟨ScalarCoefs.wf_iff.1 dw, d1, d2, ?_⟩
  have hm : IsMode c.nmax c.mmax 0 0 := isMode_iff.mpr ⟨le_refl _, le_trans hc.1 hc.2, by simp, by simpa using hc.1⟩
  have := dv 0 0 hm
  have hm' := hm
  rw [← d1, ← d2] at hm'
  unfold ScalarCoefs.absMap at this
  rw [if_pos hm, if_pos hm'] at this
  have s0 : ∀ n : Int, slot n 0 0 = 0 := fun n => by simp [slot, ord, seg]
  rw [s0, s0, h0] at this
  have hw0 : 0 < w.length := by have := hc.1; have := hc.2; omega
  simp only [Int.toNat_zero] at this
  rw [List.getElem?_eq_getElem hw0] at this
  unfold Mono0
  rw [this]; simp

theorem vspht_shape {b : Backend} {p : TPatt ℂ} {n m : Int} {s : VectorCoefs ℂ} (h : vspht b p (some n) (some m) = .ok s) (h0 : 0 ≤ m) :
    s.WellFormed ∧ s.nmax = n ∧ s.mmax = m ∧ Mono0 s.scoef1 ∧ Mono0 s.scoef2 := by
  unfold vspht at h
  obtain ⟨nm, h1, h⟩ := bindOk h
  obtain ⟨rfl⟩ : nm = (n, m) := by
    unfold sphtArgs at h1
    cases h1; rfl
  obtain ⟨_, _, h⟩ := bindOk h
  obtain ⟨_, _, h⟩ := bindOk h
  obtain ⟨_, _, h⟩ := bindOk h
  obtain ⟨_, _, h⟩ := bindOk h
  obtain ⟨_, _, h⟩ := bindOk h
  obtain ⟨_, _, h⟩ := bindOk h
  obtain ⟨_, _, h⟩ := bindOk h
  obtain ⟨vc, hv, h⟩ := bindOk h
  obtain ⟨w, hw, h⟩ := bindOk h
  obtain ⟨s1, hs1, h⟩ := bindOk h
  obtain ⟨s2, hs2, h⟩ := bindOk h
  obtain ⟨rfl, k1, k2, k3⟩ := vinit_inv hv h0
  obtain ⟨n', rfl⟩ := Int.eq_ofNat_of_zero_le (le_trans h0 k1)
  obtain ⟨w', e', lw, -⟩ := nvec_spec n'
  rw [hw] at e'
  cases e'
  obtain ⟨a1, a2, a3, a4⟩ := windowed_keep (wf_set0 h0 k1 k2) (mono_set h0 k1 k2) (by simp only; omega) hs1
  obtain ⟨b1, b2, b3, b4⟩ := windowed_keep (wf_set0 h0 k1 k3) (mono_set h0 k1 k3) (by simp only; omega) hs2
  cases h
  exact ⟨⟨a1, b1, a2, b2, a3, b3⟩, rfl, rfl, a4, b4⟩

theorem vc_ext {c s : VectorCoefs ℂ} (hn : s.nmax = c.nmax) (hm : s.mmax = c.mmax) :
    (s.scoef1 = c.scoef1 ∧ s.scoef2 = c.scoef2) ↔ s = c := by
  cases c; cases s
  simp only at hn hm
  subst hn hm
  simp

theorem zip_mono {v w : List ℂ} (hv : v[0]? = some 0) (hw : w[0]? = some 0) :
    (List.zipWith (· - ·) v w).set 0 0 = List.zipWith (· - ·) v w := by
  apply set0_of_mono
  rw [List.getElem?_zipWith, hv, hw]
  simp

theorem sub_vector {c s : VectorCoefs ℂ} (hc : c.WellFormed) (hs : s.WellFormed) (hn : s.nmax = c.nmax) (hm : s.mmax = c.mmax)
    (c1 : Mono0 c.scoef1) (c2 : Mono0 c.scoef2) (s1 : Mono0 s.scoef1) (s2 : Mono0 s.scoef2) :
    ∃ d, c.opLeft .sub (.obj s) = .ok d ∧ d.WellFormed ∧ ((∀ x ∈ d.scoef1.vec, x = 0) ↔ s.scoef1 = c.scoef1) ∧
      ((∀ x ∈ d.scoef2.vec, x = 0) ↔ s.scoef2 = c.scoef2) ∧ d.scoef1.vec = List.zipWith (· - ·) c.scoef1.vec s.scoef1.vec ∧
      d.scoef2.vec = List.zipWith (· - ·) c.scoef2.vec s.scoef2.vec := by
  have l1 : c.scoef1.vec.length = s.scoef1.vec.length := by rw [hc.wf1.3, hs.wf1.3, hc.n1, hc.m1, hs.n1, hs.m1, hn, hm]
  have l2 : c.scoef2.vec.length = s.scoef2.vec.length := by rw [hc.wf2.3, hs.wf2.3, hc.n2, hc.m2, hs.n2, hs.m2, hn, hm]
  have h0 : 0 ≤ c.mmax := by rw [← hc.m1]; exact hc.wf1.1
  have h1 : c.mmax ≤ c.nmax := by rw [← hc.m1, ← hc.n1]; exact hc.wf1.2
  have k1 : ncFormula c.nmax c.mmax = (List.zipWith (· - ·) c.scoef1.vec s.scoef1.vec).length := by
    have := hc.wf1.wf.len
    rw [hc.n1, hc.m1] at this
    rw [← this]; simp [l1]
  have k2 : ncFormula c.nmax c.mmax = (List.zipWith (· - ·) c.scoef2.vec s.scoef2.vec).length := by
    have := hc.wf2.wf.len
    rw [hc.n2, hc.m2] at this
    rw [← this]; simp [l2]
  refine ⟨⟨⟨List.zipWith (· - ·) c.scoef1.vec s.scoef1.vec, c.nmax, c.mmax⟩, ⟨List.zipWith (· - ·) c.scoef2.vec s.scoef2.vec, c.nmax, c.mmax⟩, c.nmax, c.mmax⟩,
    ?_, vwf_of_lists h0 h1 k1 k2, ?_, ?_, rfl, rfl⟩
  · unfold VectorCoefs.opLeft
    simp only [if_true]
    rw [ScalarCoefs.bcast_eq _ l1, ScalarCoefs.bcast_eq _ l2]
    simp only [Except.bind_ok]
    have := vinit_wf h0 h1 k1 k2
    rw [zip_mono c1 s1, zip_mono c2 s2] at this
    exact this
  · rw [zip_sub_zero l1, sc_vec_ext (by rw [hs.n1, hc.n1, hn]) (by rw [hs.m1, hc.m1, hm])]
  · rw [zip_sub_zero l2, sc_vec_ext (by rw [hs.n2, hc.n2, hn]) (by rw [hs.m2, hc.m2, hm])]

/-- C53 (`verify_vspht`): with `v` the vector set built from the two loaded sets, an exception of `vspht` is passed on; otherwise
the second entry (and the numerator of the fourth) is 0 exactly when `vspht` computes `v`.  The first entry is 0 as soon as the
FIRST components agree (`L2_coef` of vector sets ignores the second component). -/
theorem c53_vspht_partial (F : FloatText) (b : Backend) (pf1 pf2 cf1 cf2 : Text) (p : TPatt ℂ) (c1 c2 : ScalarCoefs ℂ) (v : VectorCoefs ℂ)
    (hp : loadVpatt F pf1 pf2 = .ok p) (h1 : loadCoef F cf1 = .ok c1) (h2 : loadCoef F cf2 = .ok c2)
    (hv : VectorCoefs.init (.arr c1.vec) (.arr c2.vec) c1.nmax c1.mmax = .ok v) (h0 : 0 ≤ c1.mmax) :
    (∀ e, vspht b p (some c1.nmax) (some c1.mmax) = .error e → verifyVspht F b pf1 pf2 cf1 cf2 = .error e) ∧
    ∀ s, vspht b p (some c1.nmax) (some c1.mmax) = .ok s →
      ∃ r, verifyVspht F b pf1 pf2 cf1 cf2 = .ok r ∧ (r.linf = 0 ↔ s = v) ∧ (r.l2 = 0 ↔ s.scoef1 = v.scoef1) ∧
        r.l2Ref = l2VC v ∧ linfVC v = .ok r.linfRef := by
  have hld : (VectorCoefs.init (.arr c1.vec) (.arr c2.vec) c1.nmax c1.mmax) = .ok v := hv
  constructor
  · intro e he
    unfold verifyVspht
    rw [hp, h1]; simp only [Except.bind_ok]; rw [h2]; simp only [Except.bind_ok]; rw [hv]; simp only [Except.bind_ok]; rw [he]; rfl
  · intro s hs
    obtain ⟨ws, hn, hm, m1, m2⟩ := vspht_shape hs h0
    obtain ⟨rfl, k1, k2, k3⟩ := vinit_inv hv h0
    have wv := vwf_of_lists (v1 := c1.vec.set 0 (0 : ℂ)) (v2 := c2.vec.set 0 0) h0 k1 (by simpa using k2) (by simpa using k3)
    obtain ⟨d, e1, wd, z1, z2, -, -⟩ := sub_vector wv ws hn hm (mono_set h0 k1 k2) (mono_set h0 k1 k3) m1 m2
    obtain ⟨-, -, a, -, -, ha, -, -, hz⟩ := c55_linf_vector d wd
    obtain ⟨-, -, r, -, -, hr, -, -, -⟩ := c55_linf_vector _ wv
    refine ⟨⟨l2VC d, a, _, r⟩, ?_, ?_, ?_, rfl, hr⟩
    · unfold verifyVspht
      rw [hp, h1]; simp only [Except.bind_ok]; rw [h2]; simp only [Except.bind_ok]; rw [hv]; simp only [Except.bind_ok]
      rw [hs]; simp only [Except.bind_ok]
      rw [e1]; simp only [Except.bind_ok]
      rw [ha, hr]; rfl
    · rw [← vc_ext hn hm, ← z1, ← z2]; exact hz
    · rw [← z1, ← n2_eq_zero]
      have : l2VC d = Real.sqrt (n2 d.scoef1.vec ^ 2 + n2 d.scoef1.vec ^ 2) := rfl
      simp only
      rw [this, Real.sqrt_eq_zero (by positivity)]
      constructor
      · intro h; nlinarith [sq_nonneg (n2 d.scoef1.vec)]
      · intro h; rw [h]; norm_num

/-- C53 (`verify_vispht`): both norms are 0 exactly when `vispht` computes the loaded transverse pattern. -/
theorem c53_vispht (F : FloatText) (b : Backend) (pf1 pf2 cf1 cf2 : Text) (p : TPatt ℂ) (c1 c2 : ScalarCoefs ℂ) (v : VectorCoefs ℂ)
    (hp : loadVpatt F pf1 pf2 = .ok p) (h1 : loadCoef F cf1 = .ok c1) (h2 : loadCoef F cf2 = .ok c2)
    (hv : VectorCoefs.init (.arr c1.vec) (.arr c2.vec) c1.nmax c1.mmax = .ok v) (h0 : 0 ≤ c1.mmax)
    (hr : p.pd.rows = p.td.rows) (hc : p.pd.cols = p.td.cols) (he : p.td.rows % 2 = 0) :
    (∀ e, vispht b v (some (p.nrows : ℤ)) (some (p.ncols : ℤ)) = .error e → verifyVispht F b pf1 pf2 cf1 cf2 = .error e) ∧
    (c1.nmax + 2 ≤ (p.nrows : ℤ) → 2 * c1.mmax + 2 ≤ (p.ncols : ℤ) → p.ncols % 2 = 0 →
      ∃ q r, vispht b v (some (p.nrows : ℤ)) (some (p.ncols : ℤ)) = .ok q ∧ verifyVispht F b pf1 pf2 cf1 cf2 = .ok r ∧
        (r.l2 = 0 ↔ q = p) ∧ (r.linf = 0 ↔ q = p) ∧ r.l2Ref = p.l2 ∧ p.linf = .ok r.linfRef) := by
  constructor
  · intro e he
    unfold verifyVispht
    rw [hp, h1]; simp only [Except.bind_ok]; rw [h2]; simp only [Except.bind_ok]; rw [hv]; simp only [Except.bind_ok]; rw [he]; rfl
  · intro g1 g2 g3
    obtain ⟨rfl, k1, k2, k3⟩ := vinit_inv hv h0
    have wv := vwf_of_lists (v1 := c1.vec.set 0 (0 : ℂ)) (v2 := c2.vec.set 0 0) h0 k1 (by simpa using k2) (by simpa using k3)
    obtain ⟨q, hq, t1, t2, t3, t4, -⟩ := vispht_main b _ wv (some (p.nrows : ℤ)) (some (p.ncols : ℤ)) p.nrows p.ncols rfl rfl g1 g2 g3
    have en : p.nrows = p.td.rows / 2 + 1 := rfl
    have ec : p.ncols = p.td.cols := rfl
    rw [en] at t1 t3 g1
    rw [ec] at t2 t4 g2
    have u1 : q.td.rows = p.td.rows := by omega
    have u3 : q.pd.rows = p.pd.rows := by omega
    have u4 : q.pd.cols = p.pd.cols := by omega
    have o : p.opLeft .sub (.obj q) = .ok ⟨p.td.zip (fun x y => x - y) q.td, p.pd.zip (fun x y => x - y) q.pd⟩ := by
      unfold TPatt.opLeft TPatt.init
      simp [u1, t2, hr, hc]
      exact ⟨rfl, rfl⟩
    obtain ⟨a, ha, -⟩ := (c56_linf_scalar (p.td.zip (fun x y => x - y) q.td)).1 ⟨by simp only [Arr2.rows_zip]; omega, by simp only [Arr2.cols_zip]; omega⟩
    obtain ⟨b', hb, -⟩ := (c56_linf_scalar (p.pd.zip (fun x y => x - y) q.pd)).1 ⟨by simp only [Arr2.rows_zip]; omega, by simp only [Arr2.cols_zip]; omega⟩
    obtain ⟨-, -, w, hw, -, -, z1, z2⟩ := c56_transverse ⟨p.td.zip (fun x y => x - y) q.td, p.pd.zip (fun x y => x - y) q.pd⟩ a b' ha hb
    obtain ⟨a2, ha2, -⟩ := (c56_linf_scalar p.td).1 ⟨by omega, by omega⟩
    obtain ⟨b2, hb2, -⟩ := (c56_linf_scalar p.pd).1 ⟨by omega, by omega⟩
    obtain ⟨-, -, w2, hw2, -⟩ := c56_transverse p a2 b2 ha2 hb2
    have eqp : (∀ x ∈ (p.td.zip (fun x y => x - y) q.td).toList, x = 0) ∧ (∀ x ∈ (p.pd.zip (fun x y => x - y) q.pd).toList, x = 0) ↔ q = p := by
      rw [arr_zip_sub u1 t2, arr_zip_sub u3 u4]
      cases p; cases q; simp
    refine ⟨q, ⟨_, w, _, w2⟩, hq, ?_, z2.trans eqp, z1.trans eqp, rfl, hw2⟩
    unfold verifyVispht
    rw [hp, h1]; simp only [Except.bind_ok]; rw [h2]; simp only [Except.bind_ok]; rw [hv]; simp only [Except.bind_ok]
    rw [hq]; simp only [Except.bind_ok]
    rw [o]; simp only [Except.bind_ok]
    rw [hw, hw2]; rfl

/-- C53, end to end: save a coefficient set and the pattern `ispht` computes from it; whenever the numbers written survive
the file format, `verify_spht` and `verify_ispht` on the two files report 0 (either back end for each step). -/
theorem c53_self_consistent (F : FloatText) (b b' : Backend) (c : ScalarCoefs ℂ) (hc : c.WellFormed) (nr nc : ℤ)
    (h1 : c.nmax + 2 ≤ nr) (h2 : 2 * c.mmax + 2 ≤ nc) (h3 : nc % 2 = 0) (hsz : nr ≤ 2 ^ 28) (hv : ∀ v ∈ c.vec, F.RoundTripsC v)
    (hD : ∀ D, ispht b c (some nr) (some nc) = .ok ⟨.arr D⟩ → ∀ i j, i < D.rows → j < D.cols → F.RoundTripsC (D.at' i j)) :
    ∃ p cf pf r r', ispht b c (some nr) (some nc) = .ok p ∧ saveCoef F c = .ok cf ∧ savePatt F p = .ok pf ∧
      verifySpht F b' pf cf = .ok r ∧ r.l2 = 0 ∧ r.linf = 0 ∧ verifyIspht F b pf cf = .ok r' ∧ r'.l2 = 0 ∧ r'.linf = 0 := by
  have h0 := hc.1
  have h4 := hc.2
  obtain ⟨⟨ds⟩, D, e, hds, d1, d2, d3, -⟩ := c37_ispht b c hc nr nc h1 h2 h3
  obtain rfl : ds = .arr D := by
    cases ds with
    | arr A => simp only [SPatt.dsphere] at hds; cases hds; rfl
    | exc => cases hds
  obtain ⟨p', e', es⟩ := c32_round_trip b b' c hc nr nc h1 h2 h3 hsz
  rw [e] at e'
  cases e'
  obtain ⟨cf, s1, l1⟩ := c42_coef_round_trip F c hc hv
  obtain ⟨pf, s2, l2⟩ := c43_patt_round_trip F D (by omega) (by omega) (by omega) d3 (hD D e)
  obtain ⟨r, hr, -, -, z1, z2, -⟩ := (c53_spht F b' pf cf ⟨.arr D⟩ c l2 l1 hc).2 c es
  have k1 : ((D.rows / 2 + 1 : ℕ) : ℤ) = nr := by omega
  obtain ⟨E, r', hE, hr', z3, z4, -⟩ := (c53_ispht F b pf cf D c l2 l1 hc (by omega)).2 (by omega) (by omega) (by omega)
  rw [k1, d2, e] at hE
  cases hE
  exact ⟨_, cf, pf, r, r', e, s1, s2, hr, z1.2 rfl, z2.2 rfl, hr', z3.2 rfl, z4.2 rfl⟩

/-- The zero transverse pattern has zero coefficients. -/
theorem vspht_zero (b : Backend) (Z : Arr2 ℂ) (hz : ∀ i j, Z.at' i j = 0) (hR : Z.rows % 2 = 0) (hR0 : 0 < Z.rows) (hsz : Z.rows ≤ 2 ^ 29)
    (n m : ℤ) (h0 : 0 ≤ m) (h1 : m ≤ n) (h2 : n ≤ ((Z.rows / 2 + 1 : ℕ) : ℤ) - 2) (h3 : 2 * m < Z.cols) (h4 : Z.cols % 2 = 0) :
    ∃ c, vspht b ⟨Z, Z⟩ (some n) (some m) = .ok c ∧ c.WellFormed ∧ c.nmax = n ∧ c.mmax = m ∧
      ∀ k l, IsMode n m k l → c.scoef1.cf k l = 0 ∧ c.scoef2.cf k l = 0 := by
  obtain ⟨s, c, d, r, e1, e2, e3, e4, e5⟩ := c34_vspht b ⟨Z, Z⟩ ⟨Z, Z⟩ hR hR0 hsz rfl rfl rfl rfl rfl rfl n m h0 h1 h2 h3 h4 0 0
  rw [combT_eq 0 0 ⟨Z, Z⟩ ⟨Z, Z⟩ rfl rfl rfl rfl rfl rfl] at e1
  have hl : linArr 0 0 Z Z = Z := Arr2.ext' rfl rfl fun i j hi hj => by
    rw [linArr_at 0 0 Z Z rfl rfl hi hj, hz]; ring
  simp only [hl] at e1
  cases e1
  rw [e2] at e3 e4
  cases e3; cases e4
  obtain ⟨w, hn, hm, -, -⟩ := vspht_shape e2 h0
  obtain ⟨r, e6, -, -, -, hv⟩ := combV_spec 0 0 c c w w rfl rfl
  rw [e5] at e6
  cases e6
  refine ⟨c, e2, w, hn, hm, fun k l hkl => ?_⟩
  have := hv k l (by rw [hn, hm]; exact hkl)
  rw [this.1, this.2]
  simp

/-- C53 counterexample: for the zero pattern, first coefficient file all zero and a 1 in the second file, `verify_vspht`
reports L2 error 0 although the second component is wrong (the other norm notices). -/
theorem c53_vspht_counterexample (b : Backend) :
    ∃ pf1 pf2 cf1 cf2 r, verifyVspht floatText b pf1 pf2 cf1 cf2 = .ok r ∧ r.l2 = 0 ∧ r.linf ≠ 0 := by
  let Z : Arr2 ℂ := Arr2.ofFn 4 2 fun _ _ => 0
  have hz : ∀ i j, Z.at' i j = 0 := by
    intro i j
    unfold Arr2.at'
    split <;> rfl
  have dz : IsDoubleC 0 := ⟨⟨0, 0, by norm_num, by norm_num, by norm_num, by simp⟩, ⟨0, 0, by norm_num, by norm_num, by norm_num, by simp⟩⟩
  have d1 : IsDoubleC 1 := ⟨⟨1, 0, by norm_num, by norm_num, by norm_num, by simp⟩, ⟨0, 0, by norm_num, by norm_num, by norm_num, by simp⟩⟩
  have sym : DSym (-1) Z := by intro n m _ _; rw [hz, hz]; simp
  obtain ⟨pf1, pf2, -, -, lp⟩ := c43_vpatt_round_trip floatText ⟨Z, Z⟩ rfl rfl (by decide) (by decide) (by decide) sym sym
    (fun i j _ _ => by rw [hz]; exact dz.roundTrips) (fun i j _ _ => by rw [hz]; exact dz.roundTrips)
  obtain ⟨cf1, -, l1⟩ := c42_doubles ⟨[0, 0], 1, 0⟩ (ScalarCoefs.wf_iff.1 ⟨by decide, by decide, rfl⟩) (by
    intro v hv; simp at hv; subst hv; exact dz)
  obtain ⟨cf2, -, l2⟩ := c42_doubles ⟨[0, 1], 1, 0⟩ (ScalarCoefs.wf_iff.1 ⟨by decide, by decide, rfl⟩) (by
    intro v hv; simp at hv; rcases hv with rfl | rfl; exacts [dz, d1])
  obtain ⟨s, es, ws, hn, hm, hs⟩ := vspht_zero b Z hz (by decide) (by decide) (by decide) 1 0 (by decide) (by decide) (by decide) (by decide) (by decide)
  have hv : VectorCoefs.init (.arr [0, 0]) (.arr [0, 1]) 1 0 = .ok (⟨⟨[0, 0], 1, 0⟩, ⟨[0, 1], 1, 0⟩, 1, 0⟩ : VectorCoefs ℂ) :=
    vinit_wf (by decide) (by decide) rfl rfl
  obtain ⟨r, hr, z1, z2, -⟩ := (c53_vspht_partial floatText b pf1 pf2 cf1 cf2 _ _ _ _ lp l1 l2 hv (by decide)).2 s es
  refine ⟨pf1, pf2, cf1, cf2, r, hr, z2.2 ?_, fun h => ?_⟩
  · refine ScalarCoefs.ext_modes ws.wf1.wf ⟨by decide, by decide, rfl⟩ (by rw [ws.n1, hn]) (by rw [ws.m1, hm]) fun k l hkl => ?_
    rw [ws.n1, ws.m1, hn, hm] at hkl
    rw [absMap_cf ws.wf1.wf (by rw [ws.n1, ws.m1, hn, hm]; exact hkl), (hs k l hkl).1, absMap_cf ⟨by decide, by decide, rfl⟩ hkl, cf_get hkl]
    have := slot_lt hkl
    congr 1
    generalize slot 1 k l = j
    match j with
    | 0 => rfl
    | 1 => rfl
    | j + 2 => rfl
  · have := z1.1 h
    have h1 := (hs 1 0 (by decide)).2
    rw [this, cf_get (by decide)] at h1
    have e : slot 1 1 0 = 1 := by decide
    rw [e] at h1
    simp at h1

/-- The hypotheses of C53 are met by real files: the constant pattern 1 on a 3-by-2 grid and a set with coefficients 0, 1. -/
example (b : Backend) : ∃ pf cf p c s, loadPatt floatText pf = .ok p ∧ loadCoef floatText cf = .ok c ∧ c.WellFormed ∧
    spht b p (some c.nmax) (some c.mmax) = .ok s := by
  let D : Arr2 ℂ := Arr2.ofFn 4 2 fun _ _ => 1
  have d0 : IsDoubleC 0 := ⟨⟨0, 0, by norm_num, by norm_num, by norm_num, by simp⟩, ⟨0, 0, by norm_num, by norm_num, by norm_num, by simp⟩⟩
  have d1 : IsDoubleC 1 := ⟨⟨1, 0, by norm_num, by norm_num, by norm_num, by simp⟩, ⟨0, 0, by norm_num, by norm_num, by norm_num, by simp⟩⟩
  have hD : ∀ i j, i < D.rows → j < D.cols → D.at' i j = 1 := fun i j hi hj => Arr2.at'_ofFn hi hj
  have hw : (⟨[0, 1], 1, 0⟩ : ScalarCoefs ℂ).WellFormed := ScalarCoefs.wf_iff.1 ⟨by decide, by decide, rfl⟩
  obtain ⟨pf, -, lp⟩ := c43_doubles D (by decide) (by decide) (by decide)
    (fun n m hn hm => by
      rw [hD n m hn hm, hD _ _ (Nat.mod_lt _ (by decide)) (Nat.mod_lt _ (by decide))]; simp)
    (fun i j hi hj => by rw [hD i j hi hj]; exact d1)
  obtain ⟨cf, -, lc⟩ := c42_doubles ⟨[0, 1], 1, 0⟩ hw (by
    intro v hv; simp at hv; rcases hv with rfl | rfl; exacts [d0, d1])
  obtain ⟨s, hs, -⟩ := c35_accepts b D (by decide) (by decide) (by decide) 1 0 (by decide) (by decide) (by decide) (by decide) (by decide)
  exact ⟨pf, cf, _, _, s, lp, lc, hw, hs⟩

end Verif.Props
