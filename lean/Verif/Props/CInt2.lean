import Verif.Props.CInt
import Verif.Props.Vector3
import Verif.Props.Transforms4
/-!
# C89: the 32-bit `int`s of csphi.c
-/
namespace Verif.Props
open Verif
namespace XI

theorem bindv {α β : Type} {x : Res α} {f g : α → Res β} (h : ∀ a, x = .ok a → f a = g a) : x.bind f = x.bind g := by
  cases hx : x with
  | error => rfl
  | ok a => exact h a hx

theorem nc_seg (n m : ℕ) (h : m ≤ n) : ncFormula n m = ((seg (n + 1) (2 * m + 1) : ℕ) : ℤ) := by
  have e := ncFormula_eq (nmax := n) (mmax := m) (by omega) (by omega)
  rw [e, show ((n : ℤ) + 1).toNat = n + 1 by omega, Int.toNat_natCast]

theorem xBackendFcToSc_eq (J : ℕ → CJunk) (call : ℕ) (G : Arr2 ℂ) (n m : ℕ) (hM : m ≤ n) (hr : n + 2 ≤ G.rows) (hc : 2 * m + 1 ≤ G.cols)
    (h : G.rows * G.cols ≤ 2 ^ 31) (hsz : G.rows + n ≤ 2 ^ 30) : xBackendFcToSc J call G n m = (Backend.c J).fcToSc call G n m := by
  unfold xBackendFcToSc Backend.fcToSc
  refine bindv fun sc hsc => ?_
  have hlen : sc.length = seg (n + 1) (2 * m + 1) := by
    rw [nc_seg n m hM] at hsc
    unfold npFull at hsc
    rw [if_neg (by omega)] at hsc
    cases hsc
    simp
  have hc1 : G.cols < 2 ^ 31 := by
    have : 2 * G.cols ≤ G.rows * G.cols := Nat.mul_le_mul_right _ (by omega)
    omega
  have hseg : seg (n + 1) (2 * m + 1) < 2 ^ 31 := by
    have h1 := seg_le (n + 1) (2 * m + 1)
    have h2 : (n + 1) * (2 * m + 1) ≤ (n + 1) * G.cols := Nat.mul_le_mul_left _ hc
    have h3 : (n + 1 + 1) * G.cols ≤ G.rows * G.cols := Nat.mul_le_mul_right _ hr
    rw [Nat.add_mul (n + 1) 1 G.cols, Nat.one_mul] at h3
    omega
  rw [cks_bind (by rw [hlen]; ints)]
  exact xFcToSc_eq G.flat G.rows G.cols sc n m (J call) hM hr hc h hsz

theorem xBackendScToFc_eq (J : ℕ → CJunk) (call : ℕ) (vec : List ℂ) (n m r c : ℕ) (hM : m ≤ n) (hr2 : 2 ≤ r) (hr : n + 1 ≤ r) (hr' : r ≤ 2 ^ 30)
    (hc : 2 * m + 2 ≤ c) (h : r * c ≤ 2 ^ 31) (hl : vec.length = seg (n + 1) (2 * m + 1)) :
    xBackendScToFc J call vec n m r c = (Backend.c J).scToFc call vec n m r c := by
  unfold xBackendScToFc Backend.scToFc
  refine bindv fun z hz => ?_
  have hz' : z.rows = r ∧ z.cols = c := by
    unfold npZeros2 at hz
    rw [if_neg (by omega)] at hz
    cases hz
    exact ⟨by simp, by simp⟩
  have hc1 : c < 2 ^ 31 := by
    have : 2 * c ≤ r * c := Nat.mul_le_mul_right _ (by omega)
    omega
  have hseg : seg (n + 1) (2 * m + 1) < 2 ^ 31 := by
    have h1 := seg_le (n + 1) (2 * m + 1)
    have h2 : (n + 1) * (2 * m + 1 + 1) ≤ r * c := Nat.mul_le_mul hr hc
    rw [Nat.mul_add (n + 1) (2 * m + 1) 1] at h2
    omega
  rw [hz'.1, hz'.2, cks_bind (by rw [hl]; ints), xScToFc_eq z.flat r c vec n m (J call) hM hr2 hr hr' hc h]

theorem guards_inv {R C : ℕ} {n m : ℤ} {u : Unit} (h : sphtGuards (.ok R) (.ok C) n m = .ok u) :
    m ≤ n ∧ n ≤ (R : ℤ) - 2 ∧ 2 * m < C ∧ C % 2 = 0 := by
  by_contra hne
  obtain ⟨msg, e⟩ := guards_reject R C n m (by omega)
  rw [e] at h; cases h

theorem dphi_shape {t a : Arr2 ℂ} (h : dphiFc t = .ok a) : a.rows = t.rows ∧ a.cols = t.cols := by
  unfold dphiFc at h
  split at h
  · cases h
  · cases h; exact ⟨rfl, rfl⟩

theorem sinLdot_shape {t p a : Arr2 ℂ} (h : sinLdotFc t p = .ok a) : a.rows = t.rows ∧ a.cols = t.cols := by
  unfold sinLdotFc at h
  obtain ⟨t', h1, h⟩ := (res_bind_ok _ _ _).mp h
  obtain ⟨p', h2, h⟩ := (res_bind_ok _ _ _).mp h
  obtain ⟨p'', h3, h⟩ := (res_bind_ok _ _ _).mp h
  cases h
  exact ⟨(dphi_shape h1).1, (dphi_shape h1).2⟩

theorem half_le {r k : ℕ} (hk : 2 ≤ k) (h : r * k ≤ 2 ^ 31) : r ≤ 2 ^ 30 := by
  have := Nat.mul_le_mul_left r hk
  omega

end XI
open XI

/-- C89: `spht` through the C extension with 32-bit `int`s returns exactly what the Python version returns, whenever the padded pattern has at most 2^31 samples. -/
theorem c89_spht (J : ℕ → CJunk) (D : Arr2 ℂ) (hR : D.rows % 2 = 0) (hR0 : 0 < D.rows) (hsz : D.rows ≤ 2 ^ 29)
    (h31 : (D.rows + 2) * D.cols ≤ 2 ^ 31) (n m : ℤ) (h0 : 0 ≤ m) :
    xSpht J ⟨.arr D⟩ (some n) (some m) = spht .py ⟨.arr D⟩ (some n) (some m) := by
  rw [← c28_spht J D hR hR0 hsz n m h0]
  unfold xSpht spht
  have e1 : SPatt.nrows (⟨.arr D⟩ : SPatt ℂ) = .ok (D.rows / 2 + 1) := rfl
  have e2 : SPatt.ncols (⟨.arr D⟩ : SPatt ℂ) = .ok D.cols := rfl
  have e3 : SPatt.dsphere (⟨.arr D⟩ : SPatt ℂ) = .ok D := rfl
  have e4 : sphtArgs (.ok (D.rows / 2 + 1)) (.ok D.cols) (some n) (some m) = .ok (n, m) := rfl
  rw [e1, e2, e3, e4]
  simp only [Except.bind_ok]
  refine bindv fun _ hg => ?_
  have hg := guards_inv hg
  obtain ⟨n, rfl⟩ := Int.eq_ofNat_of_zero_le (show 0 ≤ n by omega)
  obtain ⟨m, rfl⟩ := Int.eq_ofNat_of_zero_le h0
  obtain ⟨E, eE, hEr, hEc, hEv⟩ := extFourier_spec D hR hR0 (by omega)
  obtain ⟨G, eG, hGr, hGc, -⟩ := sinFc_spec E (D.rows / 2) (by omega) (by omega) (fhat D) hEv (fhat_outer D) (by omega)
  rw [eE]
  simp only [Except.bind_ok]
  rw [eG]
  simp only [Except.bind_ok]
  refine bindc fun _ => ?_
  rw [xBackendFcToSc_eq J 0 G n m (by omega) (by omega) (by omega) (by rw [hGr, hGc, hEr, hEc]; exact h31) (by omega)]

/-- C89: `vspht`. -/
theorem c89_vspht (J : ℕ → CJunk) (T P : Arr2 ℂ) (hr : P.rows = T.rows) (hc : P.cols = T.cols) (hR : T.rows % 2 = 0) (hR0 : 0 < T.rows) (hsz : T.rows ≤ 2 ^ 29)
    (h31 : (T.rows + 2) * T.cols ≤ 2 ^ 31) (n m : ℤ) (h0 : 0 ≤ m) :
    xVspht J ⟨T, P⟩ (some n) (some m) = vspht .py ⟨T, P⟩ (some n) (some m) := by
  rw [← c28_vspht J T P hr hc hR hR0 hsz n m h0]
  unfold xVspht vspht
  have e1 : TPatt.nrows (⟨T, P⟩ : TPatt ℂ) = T.rows / 2 + 1 := rfl
  have e2 : TPatt.ncols (⟨T, P⟩ : TPatt ℂ) = T.cols := rfl
  have e4 : sphtArgs (.ok (T.rows / 2 + 1)) (.ok T.cols) (some n) (some m) = .ok (n, m) := rfl
  rw [e1, e2, e4]
  simp only [Except.bind_ok]
  refine bindv fun _ hg => ?_
  have hg := guards_inv hg
  obtain ⟨n, rfl⟩ := Int.eq_ofNat_of_zero_le (show 0 ≤ n by omega)
  obtain ⟨m, rfl⟩ := Int.eq_ofNat_of_zero_le h0
  obtain ⟨E, eE, hEr, hEc, -⟩ := extFourier_spec T hR hR0 (by omega)
  obtain ⟨F, eF, hFr, hFc, -⟩ := extFourier_spec P (by omega) (by omega) (by omega)
  unfold vspht.extFourier'
  rw [eE, if_pos ⟨hr.symm, hc.symm⟩, eF]
  simp only [Except.bind_ok]
  refine bindv fun l1 hl1 => bindv fun l2 hl2 => ?_
  obtain ⟨a1, a2⟩ := sinLdot_shape hl1
  obtain ⟨b1, b2⟩ := sinLdot_shape hl2
  simp only [Arr2.rows_map, Arr2.cols_map] at b1 b2
  rw [xBackendFcToSc_eq J 0 l1 n m (by omega) (by omega) (by omega) (by rw [a1, a2, hEr, hEc]; exact h31) (by omega),
    xBackendFcToSc_eq J 1 l2 n m (by omega) (by omega) (by omega) (by rw [b1, b2, hFr, hFc, hr, hc]; exact h31) (by omega)]

/-- C89: `ispht`. -/
theorem c89_ispht (J : ℕ → CJunk) (c : ScalarCoefs ℂ) (hc : c.WellFormed) (nr nc : ℤ) (hx : ¬ (c.nmax = 0 ∧ nr = 1))
    (h31 : (2 * nr - 2) * nc ≤ 2 ^ 31) :
    xIspht J c (some nr) (some nc) = ispht .py c (some nr) (some nc) := by
  rw [← c28_ispht J c hc nr nc hx]
  have hw := hc.wf
  have h0 : 0 ≤ c.nmax := le_trans hw.m0 hw.mn
  have hm0 := hw.m0
  have hmn := hw.mn
  unfold xIspht ispht
  simp only [Option.getD_some]
  refine bindv fun _ hg => ?_
  have : c.nmax < nr ∧ 2 * c.mmax + 2 ≤ nc := by
    unfold isphtGuards at hg
    split at hg
    · cases hg
    split at hg
    · cases hg
    omega
  obtain ⟨n, hn⟩ := Int.eq_ofNat_of_zero_le h0
  obtain ⟨m, hm⟩ := Int.eq_ofNat_of_zero_le hm0
  obtain ⟨r, hr⟩ := Int.eq_ofNat_of_zero_le (show 0 ≤ 2 * nr - 2 by omega)
  obtain ⟨k, hk⟩ := Int.eq_ofNat_of_zero_le (show 0 ≤ nc by omega)
  have hlen : c.vec.length = seg (n + 1) (2 * m + 1) := by
    have := hw.len
    rw [hn, hm, nc_seg n m (by omega)] at this
    exact_mod_cast this
  rw [hr, hk] at h31
  have h31 : r * k ≤ 2 ^ 31 := by exact_mod_cast h31
  rw [hn, hm, hr, hk, xBackendScToFc_eq J 0 c.vec n m r k (by omega) (by omega) (by omega) (half_le (by omega) h31) (by omega) h31 hlen]

/-- C89: `vispht`. -/
theorem c89_vispht (J : ℕ → CJunk) (c : VectorCoefs ℂ) (hc : c.WellFormed) (nr nc : ℤ)
    (h31 : (2 * nr - 2) * nc ≤ 2 ^ 31) :
    xVispht J c (some nr) (some nc) = vispht .py c (some nr) (some nc) := by
  rw [← c28_vispht J c hc nr nc]
  obtain ⟨n, m, hn, hm, hmn⟩ := vlimits hc
  unfold xVispht vispht
  simp only [Option.getD_some]
  refine bindv fun _ hg => ?_
  have : c.nmax + 2 ≤ nr ∧ 2 * c.mmax + 2 ≤ nc := by
    unfold visphtGuards at hg
    split at hg
    · cases hg
    split at hg
    · cases hg
    omega
  obtain ⟨r, hr⟩ := Int.eq_ofNat_of_zero_le (show 0 ≤ 2 * nr - 2 by omega)
  obtain ⟨k, hk⟩ := Int.eq_ofNat_of_zero_le (show 0 ≤ nc by omega)
  rw [hr, hk] at h31
  have h31 : r * k ≤ 2 ^ 31 := by exact_mod_cast h31
  obtain ⟨w, ew, hwl, hwv⟩ := nvec_spec n
  have n1 := hc.n1; have n2 := hc.n2; have m1 := hc.m1; have m2 := hc.m2
  obtain ⟨d1, ed1, dw1, d11, d12, -⟩ := windowed_spec hc.wf1.wf (n1.trans hn) hwl hwv
  obtain ⟨d2, ed2, dw2, d21, d22, -⟩ := windowed_spec hc.wf2.wf (n2.trans hn) hwl hwv
  rw [hn, ew, scopy_wf hc.wf1.wf, scopy_wf hc.wf2.wf]
  simp only [Except.bind_ok]
  rw [ed1, ed2]
  simp only [Except.bind_ok]
  have l1 : d1.vec.length = seg (n + 1) (2 * m + 1) := by
    have := dw1.len
    rw [d11, d12, n1, m1, hn, hm, nc_seg n m hmn] at this
    exact_mod_cast this
  have l2 : d2.vec.length = seg (n + 1) (2 * m + 1) := by
    have := dw2.len
    rw [d21, d22, n2, m2, hn, hm, nc_seg n m hmn] at this
    exact_mod_cast this
  rw [d11, d12, n1, m1, hn, hm, hr, hk]
  rw [xBackendScToFc_eq J 0 d1.vec n m r k hmn (by omega) (by omega) (half_le (by omega) h31) (by omega) h31 l1,
    xBackendScToFc_eq J 1 d2.vec n m r k hmn (by omega) (by omega) (half_le (by omega) h31) (by omega) h31 l2]

end Verif.Props
