import Verif.FloatSynth
import Verif.Props.FloatYnm
import Verif.Props.FloatYnm3
import Verif.CSphiS
import Verif.CoefsLemmas
import Verif.VecTrans
/-!
# Both backends synthesise the same doubles
-/
namespace Verif.Props
open Verif Finset
variable {rnd : ℝ → ℝ}

/-- Rounding as long as nothing overflows: a rounded value is a value, and rounding treats `x` and `-x` alike at every magnitude. -/
structure NoOverflow (rnd : ℝ → ℝ) : Prop extends IsRounding rnd where
  idem : ∀ x, rnd (rnd x) = rnd x
  neg : ∀ x, rnd (-x) = -rnd x

/-- `1j ** m` is the exact unit for `|m| ≤ K`. -/
def PowExactTo (K : ℕ) (jp : Int → FC rnd) : Prop := ∀ m : Int, |m| ≤ K → jp m = ⟨(Complex.I ^ m).re, (Complex.I ^ m).im⟩

/-- `1j ** m` is the exact unit for `|m| ≤ 100`, where CPython multiplies repeatedly (beyond, it uses polar coordinates). -/
def PowExact (jp : Int → FC rnd) : Prop := PowExactTo 100 jp

/-- `1j ** m` is close to the exact unit for `|m| ≤ K`, as CPython's polar coordinates give it. -/
def PowNear (K : ℕ) (jp : Int → FC rnd) : Prop := ∀ m : Int, |m| ≤ K → ‖(⟨(jp m).re, (jp m).im⟩ : ℂ) - Complex.I ^ m‖ ≤ ((|m| : ℤ) + 4) * 2 ^ (-50 : ℤ)

theorem PowExactTo.near {K : ℕ} {jp : Int → FC rnd} (h : PowExactTo K jp) : PowNear K jp := fun m hm => by
  rw [h m hm, show (⟨(Complex.I ^ m).re, (Complex.I ^ m).im⟩ : ℂ) = Complex.I ^ m from rfl, sub_self, norm_zero]
  have : (0 : ℝ) ≤ ((|m| : ℤ) : ℝ) := by exact_mod_cast abs_nonneg m
  positivity

/-- What the theorems about the accuracy of doubles need of `1j ** m`: with the Python routines it must be accurate up to the largest order in use;
the C extension does not compute powers, it permutes and negates the components, so nothing is needed there. -/
def PowOK (b : Backend) (M : ℕ) (jp : Int → FC rnd) : Prop := b = .py → PowNear M jp

theorem PowExact.ok {jp : Int → FC rnd} (h : PowExact jp) (b : Backend) {M : ℕ} (hM : M ≤ 100) : PowOK b M jp :=
  fun _ => PowExactTo.near fun m hm => h m (by exact_mod_cast hm.trans (by exact_mod_cast hM))

/-- `1j ** m` for the analysis of both backends: accurate, and exact where the two backends are compared. -/
def PowFor (b : Backend) (M : ℕ) (jp : Int → FC rnd) : Prop := PowNear M jp ∧ (b ≠ .py → PowExactTo M jp)

theorem PowExactTo.for {jp : Int → FC rnd} {b : Backend} {M : ℕ} (h : PowExactTo M jp) : PowFor b M jp := ⟨h.near, fun _ => h⟩

theorem PowNear.for {jp : Int → FC rnd} {M : ℕ} (h : PowNear M jp) : PowFor .py M jp := ⟨h, fun e => absurd rfl e⟩

theorem PowOK.c (J : ℕ → CJunk) (M : ℕ) (jp : Int → FC rnd) : PowOK (.c J) M jp := fun h => by cases h

namespace FS

theorem rnd0 (h : NoOverflow rnd) : rnd 0 = 0 := by
  have := h.neg 0
  rw [neg_zero] at this
  linarith

theorem acc_eq (h : NoOverflow rnd) (t v : FC rnd) (x : ℝ) : (⟨rnd (t.re + rnd (v.re * x)), rnd (t.im + rnd (v.im * x))⟩ : FC rnd) = t + v * ⟨x, 0⟩ := by
  show _ = (⟨rnd (t.re + rnd (rnd (v.re * x) - rnd (v.im * 0))), rnd (t.im + rnd (rnd (v.re * 0) + rnd (v.im * x)))⟩ : FC rnd)
  rw [mul_zero, mul_zero, rnd0 h, sub_zero, zero_add, h.idem, h.idem]

theorem sym_eq (h : NoOverflow rnd) (t : FC rnd) (s : ℝ) : (⟨rnd (s * t.re), rnd (s * t.im)⟩ : FC rnd) = (⟨s, 0⟩ : FC rnd) * t := by
  show _ = (⟨rnd (rnd (s * t.re) - rnd (0 * t.im)), rnd (rnd (s * t.im) + rnd (0 * t.re))⟩ : FC rnd)
  rw [zero_mul, zero_mul, rnd0 h, sub_zero, add_zero, h.idem, h.idem]

theorem rot_eq (h : NoOverflow rnd) {K : ℕ} {jp : Int → FC rnd} (hj : PowExactTo K jp) (m : Int) (hm : |m| ≤ K) (t : FC rnd) : Fl.cMulIPow rnd m t = t * jp m := by
  have e := cMulIPow_eq m 1
  rw [mul_one] at e
  rw [hj m hm]
  unfold Fl.cMulIPow
  unfold cMulIPow at e
  show _ = (⟨rnd (rnd (t.re * (Complex.I ^ m).re) - rnd (t.im * (Complex.I ^ m).im)), rnd (rnd (t.re * (Complex.I ^ m).im) + rnd (t.im * (Complex.I ^ m).re))⟩ : FC rnd)
  rw [← e]
  split
  · simp only [Complex.one_re, Complex.one_im, mul_zero, mul_one, rnd0 h, zero_sub, add_zero, h.idem]
    rw [← h.neg, h.idem]
    congr 2 <;> ring
  · simp only [Complex.one_re, Complex.one_im, mul_zero, mul_one, rnd0 h, sub_zero, zero_add, h.idem]
    congr 2 <;> ring

/-- Entry `i` of the table `ynunm` returns. -/
noncomputable def yF (rnd : ℝ → ℝ) (nmax : ℕ) (m : ℤ) (n i : ℕ) : ℝ :=
  match Fl.ynunm rnd n m ((nmax + 1 : ℕ) : ℤ) with
  | .ok y => rd y i
  | .error _ => 0

/-- The running sum after `k` terms. -/
noncomputable def partF (v : ℤ → ℕ → FC rnd) (nmax : ℕ) (m : ℤ) (i : ℕ) : ℕ → FC rnd
  | 0 => 0
  | k + 1 => partF v nmax m i k + v m (m.natAbs + k) * ⟨yF rnd nmax m (m.natAbs + k) i, 0⟩

/-- Fourier coefficient `i` of column `m` before the symmetry loop. -/
noncomputable def GF (jp : Int → FC rnd) (v : ℤ → ℕ → FC rnd) (nmax : ℕ) (m : ℤ) (i : ℕ) : FC rnd :=
  if i < nmax + 1 then partF v nmax m i (nmax + 1 - m.natAbs) * jp m else 0

/-- The entry the symmetry loop leaves at position `i` of a column of length `r`. -/
noncomputable def entryF (jp : Int → FC rnd) (v : ℤ → ℕ → FC rnd) (nmax : ℕ) (m : ℤ) (r i : ℕ) : FC rnd :=
  if r - (if r % 2 = 0 then r / 2 - 1 else (r - 1) / 2) ≤ i then (⟨(-1) ^ m, 0⟩ : FC rnd) * GF jp v nmax m (r - i) else GF jp v nmax m i

/-- The coefficient of mode `(n, m)` in the vector. -/
def cfF (spvec : List (FC rnd)) (nmax : ℕ) (m : ℤ) (n : ℕ) : FC rnd := rd spvec (seg (nmax + 1) (ord m) + (n - m.natAbs))

theorem yF_eq {nmax : ℕ} {m : ℤ} {n : ℕ} {y : List ℝ} (h : Fl.ynunm rnd n m ((nmax + 1 : ℕ) : ℤ) = .ok y) (i : ℕ) : yF rnd nmax m n i = rd y i := by
  unfold yF; rw [h]

theorem ynunm_ok (n : ℕ) (m : ℤ) (nmax : ℕ) (hm : m.natAbs ≤ n) (hL : n ≤ nmax) :
    ∃ y, Fl.ynunm rnd n m ((nmax : ℤ) + 1) = .ok y ∧ y.length = nmax + 1 ∧ ∀ i, yF rnd nmax m n i = rd y i := by
  obtain ⟨y, e, l, -⟩ := ynunm_top (rnd := rnd) n m (nmax + 1) (by rw [Int.abs_eq_natAbs]; omega) (by omega)
  exact ⟨y, by exact_mod_cast e, l, yF_eq e⟩

theorem fcvecMSc_spec (jp : Int → FC rnd) (vec : List (FC rnd)) (v : ℤ → ℕ → FC rnd) (m : ℤ) (nmax r : ℕ) (hr : nmax + 1 ≤ r) (hm : m.natAbs ≤ nmax)
    (hl : vec.length = nmax - m.natAbs + 1) (hv : ∀ n, m.natAbs ≤ n → n ≤ nmax → rd vec (n - m.natAbs) = v m n) :
    ∃ F, Fl.fcvecMSc rnd jp vec m nmax r = .ok F ∧ F.length = r ∧ ∀ i, i < r → rd F i = entryF jp v nmax m r i := by
  unfold Fl.fcvecMSc
  unfold npFull
  rw [if_neg (by omega)]
  simp only [Except.bind_ok, Int.toNat_natCast]
  have habs : |m| = (m.natAbs : ℤ) := Int.abs_eq_natAbs m
  rw [habs]
  obtain ⟨F, eF, hF⟩ := forM'_range_inv (a := (m.natAbs : ℤ)) (b := (nmax : ℤ) + 1) (by omega)
    (List.replicate r (0 : FC rnd)) (Fl.fcvecBody rnd vec m nmax)
    (fun k F => F.length = r ∧ ∀ i, i < r → rd F i = if i < nmax + 1 then partF v nmax m i (k.toNat - m.natAbs) else 0)
    ⟨by simp, fun i hi => by
      rw [rd_replicate_zero]
      split
      · rw [Int.toNat_natCast, Nat.sub_self]; rfl
      · rfl⟩
    (by
      intro k F h1 h2 ⟨fl, fr⟩
      obtain ⟨n, rfl⟩ := Int.eq_ofNat_of_zero_le (show 0 ≤ k by omega)
      unfold Fl.fcvecBody
      obtain ⟨y, ey, yl, yv⟩ := ynunm_ok (rnd := rnd) n m nmax (by omega) (by omega)
      rw [ey]
      simp only [Except.bind_ok]
      have habs' : (n : ℤ) - |m| = ((n - m.natAbs : ℕ) : ℤ) := by rw [habs]; omega
      rw [habs', getIdx_rd (by omega) (by omega)]
      simp only [Except.bind_ok, Int.toNat_natCast]
      unfold addPrefix
      have hk : clampIdx F.length ((nmax : ℤ) + 1) = nmax + 1 := by
        rw [clampIdx_of_le (by omega) (by omega)]; omega
      simp only [hk]
      rw [if_pos (by simp [yl])]
      refine ⟨_, rfl, by simpa using fl, fun i hi => ?_⟩
      rw [rd_tab (by omega)]
      have e2 : ((n : ℤ) + 1).toNat - m.natAbs = (n - m.natAbs) + 1 := by omega
      rw [e2]
      have ih := fr i hi
      rw [Int.toNat_natCast] at ih
      by_cases hin : i < nmax + 1
      · rw [if_pos hin] at ih
        rw [if_pos hin, if_pos hin, ih, rd_map _ _ _ (by omega), hv n (by omega) (by omega)]
        conv_rhs => unfold partF
        rw [show m.natAbs + (n - m.natAbs) = n by omega, yv i]
      · rw [if_neg hin] at ih
        rw [if_neg hin, if_neg hin, ih])
  rw [eF]
  simp only [Except.bind_ok]
  have hk : clampIdx r ((nmax : ℤ) + 1) = nmax + 1 := by
    rw [clampIdx_of_le (by omega) (by omega)]; omega
  simp only [length_tab, hF.1, hk]
  refine ⟨_, rfl, by simp, fun i hi => ?_⟩
  have hG : ∀ i, i < r → rd (tab r fun i => if i < nmax + 1 then rd F i * jp m else rd F i) i = GF jp v nmax m i := by
    intro i hi
    rw [rd_tab hi]
    have := hF.2 i hi
    rw [show ((nmax : ℤ) + 1).toNat = nmax + 1 by omega] at this
    unfold GF
    by_cases h : i < nmax + 1
    · rw [if_pos h] at this; rw [if_pos h, if_pos h, this]
    · rw [if_neg h] at this; rw [if_neg h, if_neg h, this]
  rw [rd_tab hi]
  unfold entryF
  by_cases hc : r - (if r % 2 = 0 then r / 2 - 1 else (r - 1) / 2) ≤ i
  · rw [if_pos hc, if_pos hc, hG _ (by split at hc <;> omega)]
  · rw [if_neg hc, if_neg hc, hG _ hi]

/-- What `sc_to_fc` produces. -/
structure IsSynthF (jp : Int → FC rnd) (spvec : List (FC rnd)) (nmax mmax r c : ℕ) (A : Arr2 (FC rnd)) : Prop where
  rows : A.rows = r
  cols : A.cols = c
  val : ∀ (m : ℤ) (i : ℕ), m.natAbs ≤ mmax → i < r →
    A.at' i (m % c).toNat = entryF jp (cfF spvec nmax) nmax m r i
  zero : ∀ i j : ℕ, mmax < j → j + mmax < c → A.at' i j = 0

theorem scToFcCol_spec (jp : Int → FC rnd) (spvec : List (FC rnd)) (nmax mmax r c : ℕ) (hM : mmax ≤ nmax) (hr : nmax + 1 ≤ r) (hc : 2 * mmax < c)
    (hl : spvec.length = seg (nmax + 1) (2 * mmax + 1)) (A : Arr2 (FC rnd)) (hA : A.rows = r) (hA' : A.cols = c) (m : ℤ)
    (hm : m.natAbs ≤ mmax) :
    Fl.scToFcCol rnd jp spvec nmax mmax r A m = .ok (Arr2.ofFn r c fun i j =>
      if j = (m % c).toNat then entryF jp (cfF spvec nmax) nmax m r i else A.at' i j) := by
  unfold Fl.scToFcCol
  have habs : |m| = (m.natAbs : ℤ) := Int.abs_eq_natAbs m
  have em := mindx_eq (m := m) (nmax := nmax) (mmax := mmax) (by unfold iabs; omega) (by omega)
  rw [em]
  simp only [Except.bind_ok]
  rw [show ((nmax : ℤ) + 1).toNat = nmax + 1 by omega]
  have hb : seg (nmax + 1) (ord m) + (nmax - m.natAbs + 1) ≤ spvec.length := by
    rw [hl]
    have h1 : ord m + 1 ≤ 2 * mmax + 1 := by have := ord_le m; omega
    have h2 := seg_mono (nmax + 1) h1
    have h3 : (ord m + 1) / 2 = m.natAbs := (natAbs_eq_ord m).symm
    rw [seg_succ, h3] at h2
    omega
  have hlen : (getSlice spvec (seg (nmax + 1) (ord m) : ℤ) ((seg (nmax + 1) (ord m) : ℤ) + nmax - |m| + 1)).length
      = nmax - m.natAbs + 1 := by
    rw [habs, length_getSlice (by omega) (by omega) (by omega)]; omega
  obtain ⟨F, eF, fl, fr⟩ := fcvecMSc_spec jp (getSlice spvec (seg (nmax + 1) (ord m) : ℤ) ((seg (nmax + 1) (ord m) : ℤ) + nmax - |m| + 1))
    (cfF spvec nmax) m nmax r hr (by omega) hlen (by
      intro n h1 h2
      rw [habs, rd_getSlice (by omega) (by omega) (by omega) _ (by omega)]
      rfl)
  rw [eF]
  simp only [Except.bind_ok]
  unfold setColumn
  rw [if_neg (by omega), if_neg (by omega)]
  have hw : Arr2.wrap A.cols m = (m % c).toNat := by
    rw [hA', wrap_mod (by omega) (by omega)]; unfold Arr2.wrap; split <;> rfl
  rw [hw, hA, hA']
  congr 1
  refine Arr2.ext' rfl rfl fun i j hi hj => ?_
  simp only [Arr2.rows_ofFn, Arr2.cols_ofFn] at hi hj
  rw [Arr2.at'_ofFn hi hj, Arr2.at'_ofFn hi hj, if_pos fl, fr i hi]

theorem scToFc_spec (jp : Int → FC rnd) (spvec : List (FC rnd)) (nmax mmax r c : ℕ) (hM : mmax ≤ nmax) (hr : nmax + 1 ≤ r)
    (hc : 2 * mmax + 2 ≤ c) (hl : spvec.length = seg (nmax + 1) (2 * mmax + 1)) :
    ∃ A, Fl.scToFc rnd jp spvec nmax mmax r c = .ok A ∧ IsSynthF jp spvec nmax mmax r c A := by
  unfold Fl.scToFc npZeros2
  rw [if_neg (by omega)]
  simp only [Except.bind_ok, Int.toNat_natCast]
  have hh : halfTrunc c = ((c / 2 : ℕ) : ℤ) := by unfold halfTrunc; rw [Int.tdiv_eq_ediv_of_nonneg (by omega)]; rfl
  rw [hh]
  obtain ⟨A, eA, hi⟩ := forM'_range_inv (a := 0) (b := ((c / 2 : ℕ) : ℤ)) (by omega)
    (Arr2.ofFn r c (fun _ _ => (0 : FC rnd))) (Fl.scToFcBody rnd jp spvec nmax mmax r)
    (fun k A => A.rows = r ∧ A.cols = c ∧
      (∀ (m : ℤ) (i : ℕ), m.natAbs ≤ mmax → i < r → A.at' i (m % c).toNat =
        if -k ≤ m ∧ m < k then entryF jp (cfF spvec nmax) nmax m r i else 0) ∧
      ∀ i j : ℕ, mmax < j → j + mmax < c → A.at' i j = 0)
    ⟨rfl, rfl, fun m i hm hi => by
      rw [Arr2.at'_ofFn hi (slot_lt' (by omega) _), if_neg (by omega)],
      fun i j h1 h2 => by
        by_cases h : i < r
        · rw [Arr2.at'_ofFn h (by omega)]
        · rw [Arr2.at'_of_not]; simp only [Arr2.rows_ofFn]; omega⟩
    (by
      intro k A h1 h2 ⟨ar, ac, av, az⟩
      unfold Fl.scToFcBody
      have hz : ∀ (B : Arr2 (FC rnd)) (m : ℤ), m.natAbs ≤ mmax → (∀ i j : ℕ, mmax < j → j + mmax < c → B.at' i j = 0) →
          ∀ i j : ℕ, mmax < j → j + mmax < c → (Arr2.ofFn r c fun i j =>
            if j = (m % c).toNat then entryF jp (cfF spvec nmax) nmax m r i else B.at' i j).at' i j = 0 := by
        intro B m hm hB i j h1 h2
        by_cases h : i < r
        · rw [Arr2.at'_ofFn h (by omega), if_neg, hB i j h1 h2]
          rw [wrap_mod (by omega) (by omega)]; split <;> omega
        · rw [Arr2.at'_of_not]; simp only [Arr2.rows_ofFn]; omega
      by_cases hk : k < mmax
      · rw [if_pos hk, scToFcCol_spec jp spvec nmax mmax r c hM hr (by omega) hl A ar ac k (by omega)]
        simp only [Except.bind_ok]
        rw [scToFcCol_spec jp spvec nmax mmax r c hM hr (by omega) hl _ rfl rfl (-(k + 1)) (by omega)]
        simp only [Except.bind_ok]
        rw [if_neg (by omega)]
        refine ⟨_, rfl, rfl, rfl, fun m i hm hi => ?_, ?_⟩
        · rw [Arr2.at'_ofFn hi (slot_lt' (by omega) _), Arr2.at'_ofFn hi (slot_lt' (by omega) _)]
          by_cases e1 : m = -(k + 1)
          · subst e1; rw [if_pos rfl, if_pos (by omega)]
          · rw [if_neg (fun h => e1 (slotcol_inj (by omega : 2 * mmax < c) hm (by omega) h))]
            by_cases e2 : m = k
            · subst e2; rw [if_pos rfl, if_pos (by omega)]
            · rw [if_neg (fun h => e2 (slotcol_inj (by omega : 2 * mmax < c) hm (by omega) h)), av m i hm hi]
              by_cases h3 : -k ≤ m ∧ m < k
              · rw [if_pos h3, if_pos (by omega)]
              · rw [if_neg h3, if_neg (by omega)]
        · exact hz _ _ (by omega) (hz _ _ (by omega) az)
      · rw [if_neg hk]
        simp only [Except.bind_ok]
        by_cases hk2 : k = mmax
        · rw [if_pos hk2, scToFcCol_spec jp spvec nmax mmax r c hM hr (by omega) hl A ar ac k (by omega)]
          refine ⟨_, rfl, rfl, rfl, fun m i hm hi => ?_, ?_⟩
          · rw [Arr2.at'_ofFn hi (slot_lt' (by omega) _)]
            by_cases e2 : m = k
            · subst e2; rw [if_pos rfl, if_pos (by omega)]
            · rw [if_neg (fun h => e2 (slotcol_inj (by omega : 2 * mmax < c) hm (by omega) h)), av m i hm hi]
              by_cases h3 : -k ≤ m ∧ m < k
              · rw [if_pos h3, if_pos (by omega)]
              · rw [if_neg h3, if_neg (by omega)]
          · exact hz _ _ (by omega) az
        · rw [if_neg hk2]
          refine ⟨_, rfl, ar, ac, fun m i hm hi => ?_, az⟩
          rw [av m i hm hi]
          by_cases h3 : -k ≤ m ∧ m < k
          · rw [if_pos h3, if_pos (by omega)]
          · rw [if_neg h3, if_neg (by omega)])
  refine ⟨A, eA, hi.1, hi.2.1, fun m i hm h => ?_, hi.2.2.2⟩
  rw [hi.2.2.1 m i hm h, if_pos (by omega)]

theorem cFcvecAcc_spec (hrd : NoOverflow rnd) (sc : List (FC rnd)) (off : ℕ) (m : ℤ) (nmax r c M : ℕ) (hr : nmax + 1 ≤ r) (hMc : M < c) (n : ℕ) (hn : m.natAbs ≤ n) (hn2 : n ≤ nmax)
    (hb : nmax ≤ 2 ^ 20)
    (hsc : off + (n - m.natAbs) < sc.length) (X : ℕ → ℕ → FC rnd) (F : List (FC rnd)) (hF : FlatIs r c X F) (y : List ℝ) (hy : y.length = nmax + 1) :
    ∃ F' y', Fl.cFcvecAcc rnd sc off m nmax c M ((nmax : Int) + 1) (F, y) n = .ok (F', y') ∧ y'.length = nmax + 1 ∧
      FlatIs r c (fun i j => if j = M ∧ i < nmax + 1 then X i j + rd sc (off + (n - m.natAbs)) * ⟨yF rnd nmax m n i, 0⟩ else X i j) F' := by
  unfold Fl.cFcvecAcc
  have h1 := c87_backends hrd.toIsRounding n m y (nmax + 1) (by omega) hy (by omega)
  obtain ⟨y', ey, yl, yv⟩ := ynunm_ok (rnd := rnd) n m nmax hn hn2
  push_cast at h1
  rw [ey] at h1
  simp only
  rw [h1]
  simp only [Except.bind_ok]
  have habs : |m| = (m.natAbs : ℤ) := Int.abs_eq_natAbs m
  have hp : (off : Int) + ((n : Int) - |m|) = ((off + (n - m.natAbs) : ℕ) : Int) := by rw [habs]; omega
  rw [hp]
  obtain ⟨F', e, hF'⟩ := forM'_range_inv (a := 0) (b := (nmax : Int) + 1) (by omega) F
    (fun F k => (cGet F (k * (c : Int) + M)).bind fun t =>
      (cGet sc ((off + (n - m.natAbs) : ℕ) : Int)).bind fun v =>
      (cGet y' k).bind fun yk =>
      cSet F (k * (c : Int) + M) ⟨rnd (t.re + rnd (v.re * yk)), rnd (t.im + rnd (v.im * yk))⟩)
    (fun k F => FlatIs r c (fun i j => if j = M ∧ (i : ℤ) < k then X i j + rd sc (off + (n - m.natAbs)) * ⟨yF rnd nmax m n i, 0⟩ else X i j) F)
    (hF.congr fun i j _ _ => by rw [if_neg (by omega)])
    (by
      intro k F h1 h2 hF
      obtain ⟨k, rfl⟩ := Int.eq_ofNat_of_zero_le h1
      have ep : (k : ℤ) * (c : ℤ) + M = ((c * k + M : ℕ) : ℤ) := by push_cast; ring
      rw [hF.get (i := k) (j := M) (by omega) hMc ep, cGet_ok hsc, cGet_ok (by omega)]
      simp only [Except.bind_ok]
      rw [if_neg (by omega), acc_eq hrd]
      obtain ⟨F', e, hF'⟩ := hF.set (i := k) (j := M) (by omega) hMc (X k M + rd sc (off + (n - m.natAbs)) * (⟨rd y' k, 0⟩ : FC rnd)) ep
      refine ⟨F', e, hF'.congr fun i j hi hj => ?_⟩
      by_cases e1 : i = k ∧ j = M
      · obtain ⟨rfl, rfl⟩ := e1
        rw [if_pos ⟨rfl, rfl⟩, if_pos ⟨rfl, by omega⟩, yv]
      · rw [if_neg e1]
        by_cases e2 : j = M ∧ (i : ℤ) < k
        · rw [if_pos e2, if_pos (by omega)]
        · rw [if_neg e2, if_neg (by omega)])
  rw [e]
  refine ⟨_, _, rfl, yl, hF'.congr fun i j hi hj => ?_⟩
  by_cases e1 : j = M ∧ i < nmax + 1
  · rw [if_pos (by omega), if_pos e1]
  · rw [if_neg (by omega), if_neg e1]

theorem cFcvecMSc_spec (hrd : NoOverflow rnd) {K : ℕ} {jp : Int → FC rnd} (hj : PowExactTo K jp) (sc : List (FC rnd)) (v : ℤ → ℕ → FC rnd) (off : ℕ) (m : ℤ) (nmax r c M : ℕ) (hr : nmax + 1 ≤ r) (hMc : M < c) (hm : m.natAbs ≤ nmax)
    (hm' : m.natAbs ≤ K) (hb : nmax ≤ 2 ^ 20)
    (hsc : off + (nmax - m.natAbs) < sc.length) (hv : ∀ n, m.natAbs ≤ n → n ≤ nmax → rd sc (off + (n - m.natAbs)) = v m n)
    (X : ℕ → ℕ → FC rnd) (hX : ∀ i, i < r → X i M = 0) (F : List (FC rnd)) (hF : FlatIs r c X F) (y : List ℝ) (hy : y.length = nmax + 1) :
    ∃ F' y', Fl.cFcvecMSc rnd sc off m nmax r c M ((nmax : Int) + 1) (F, y) = .ok (F', y') ∧ y'.length = nmax + 1 ∧
      FlatIs r c (fun i j => if j = M then entryF jp v nmax m r i else X i j) F' := by
  unfold Fl.cFcvecMSc
  have habs : |m| = (m.natAbs : ℤ) := Int.abs_eq_natAbs m
  rw [habs]
  obtain ⟨⟨F1, y1⟩, e1, hy1, hF1⟩ := forM'_range_inv (a := (m.natAbs : ℤ)) (b := (nmax : Int) + 1) (by omega) (F, y)
    (Fl.cFcvecAcc rnd sc off m nmax c M ((nmax : Int) + 1))
    (fun k st => st.2.length = nmax + 1 ∧ FlatIs r c (fun i j => if j = M then (if i < nmax + 1 then partF v nmax m i (k.toNat - m.natAbs) else 0) else X i j) st.1)
    ⟨hy, hF.congr fun i j hi _ => by
      by_cases e : j = M
      · subst e; rw [if_pos rfl, hX i hi, Int.toNat_natCast, Nat.sub_self]; split <;> rfl
      · rw [if_neg e]⟩
    (by
      rintro k ⟨F, y⟩ h1 h2 ⟨yl, hF⟩
      obtain ⟨n, rfl⟩ := Int.eq_ofNat_of_zero_le (show 0 ≤ k by omega)
      obtain ⟨F', y', e, yl', hF'⟩ := cFcvecAcc_spec hrd sc off m nmax r c M hr hMc n (by omega) (by omega) hb (by omega) _ F hF y yl
      refine ⟨_, e, yl', hF'.congr fun i j _ _ => ?_⟩
      by_cases e : j = M
      · rw [if_pos e, if_pos e]
        by_cases hi : i < nmax + 1
        · rw [if_pos ⟨e, hi⟩, if_pos hi, if_pos hi, hv n (by omega) (by omega), show ((n : ℤ) + 1).toNat - m.natAbs = (n - m.natAbs) + 1 by omega, Int.toNat_natCast]
          conv_rhs => unfold partF
          rw [show m.natAbs + (n - m.natAbs) = n by omega]
        · rw [if_neg (fun h => hi h.2), if_neg hi, if_neg hi]
      · rw [if_neg e, if_neg (fun h => e h.1), if_neg e])
  rw [e1]
  simp only [Except.bind_ok]
  rw [show ((nmax : ℤ) + 1).toNat - m.natAbs = nmax + 1 - m.natAbs by omega] at hF1
  obtain ⟨F2, e2, hF2⟩ := forM'_range_inv (a := 0) (b := (nmax : Int) + 1) (by omega) F1
    (fun F k => (cGet F (k * (c : Int) + M)).bind fun t => cSet F (k * (c : Int) + M) (Fl.cMulIPow rnd m t))
    (fun k F => FlatIs r c (fun i j => if j = M then (if (i : ℤ) < k then GF jp v nmax m i else (if i < nmax + 1 then partF v nmax m i (nmax + 1 - m.natAbs) else 0)) else X i j) F)
    (hF1.congr fun i j _ _ => by
      by_cases e : j = M
      · rw [if_pos e, if_pos e, if_neg (show ¬ ((i : ℤ) < 0) by omega)]
      · rw [if_neg e, if_neg e])
    (by
      intro k F h1 h2 hF
      obtain ⟨k, rfl⟩ := Int.eq_ofNat_of_zero_le h1
      have ep : (k : ℤ) * (c : ℤ) + M = ((c * k + M : ℕ) : ℤ) := by push_cast; ring
      rw [hF.get (i := k) (j := M) (by omega) hMc ep]
      simp only [Except.bind_ok, if_true]
      rw [if_neg (by omega), if_pos (by omega), rot_eq hrd hj m (by rw [habs]; omega)]
      obtain ⟨F', e, hF'⟩ := hF.set (i := k) (j := M) (by omega) hMc (partF v nmax m k (nmax + 1 - m.natAbs) * jp m) ep
      refine ⟨F', e, hF'.congr fun i j hi hj => ?_⟩
      by_cases e1 : i = k ∧ j = M
      · obtain ⟨rfl, rfl⟩ := e1
        rw [if_pos ⟨rfl, rfl⟩, if_pos rfl, if_pos (by omega)]
        unfold GF
        rw [if_pos (by omega)]
      · rw [if_neg e1]
        by_cases e2 : j = M
        · rw [if_pos e2, if_pos e2]
          by_cases e3 : (i : ℤ) < k
          · rw [if_pos e3, if_pos (by omega)]
          · rw [if_neg e3, if_neg (show ¬ ((i : ℤ) < (k : ℤ) + 1) by omega)]
        · rw [if_neg e2, if_neg e2])
  rw [e2]
  simp only [Except.bind_ok]
  have hF2' : FlatIs r c (fun i j => if j = M then GF jp v nmax m i else X i j) F2 := hF2.congr fun i j _ _ => by
    by_cases e : j = M
    · rw [if_pos e, if_pos e]
      by_cases e3 : (i : ℤ) < (nmax : ℤ) + 1
      · rw [if_pos e3]
      · rw [if_neg e3, if_neg (by omega)]
        unfold GF
        rw [if_neg (by omega)]
    · rw [if_neg e, if_neg e]
  obtain ⟨H, hH⟩ : ∃ H : ℕ, H = (if r % 2 = 0 then r / 2 - 1 else (r - 1) / 2) := ⟨_, rfl⟩
  have hHc : (if (r : ℤ).tmod 2 = 0 then (r : ℤ).tdiv 2 - 1 else ((r : ℤ) - 1).tdiv 2) = (H : ℤ) := by
    rw [Int.tmod_eq_emod_of_nonneg (by omega), Int.tdiv_eq_ediv_of_nonneg (by omega), Int.tdiv_eq_ediv_of_nonneg (by omega), hH]
    split <;> split <;> omega
  have hHr : 2 * H + 1 ≤ r := by rw [hH]; split <;> omega
  rw [hHc]
  obtain ⟨F3, e3, hF3⟩ := forM'_range_inv (a := 0) (b := (H : Int)) (by omega) F2
    (fun F k => (cGet F ((c : Int) * (k + 1) + M)).bind fun t =>
      cSet F ((c : Int) * ((r : Int) - 1 - k) + M) ⟨rnd ((-1 : ℝ) ^ m * t.re), rnd ((-1 : ℝ) ^ m * t.im)⟩)
    (fun k F => FlatIs r c (fun i j => if j = M then (if (r : ℤ) - k ≤ i then (⟨(-1) ^ m, 0⟩ : FC rnd) * GF jp v nmax m (r - i) else GF jp v nmax m i) else X i j) F)
    (hF2'.congr fun i j hi _ => by
      by_cases e : j = M
      · rw [if_pos e, if_pos e, if_neg (by omega)]
      · rw [if_neg e, if_neg e])
    (by
      intro k F h1 h2 hF
      obtain ⟨k, rfl⟩ := Int.eq_ofNat_of_zero_le h1
      rw [hF.get (i := k + 1) (j := M) (by omega) hMc (by push_cast; ring)]
      simp only [Except.bind_ok, if_true]
      rw [if_neg (by omega)]
      rw [sym_eq hrd]
      obtain ⟨F', e, hF'⟩ := hF.set (i := r - 1 - k) (j := M) (by omega) hMc ((⟨(-1) ^ m, 0⟩ : FC rnd) * GF jp v nmax m (k + 1)) (p := (c : Int) * ((r : Int) - 1 - k) + M) (by
        rw [show (r : Int) - 1 - k = ((r - 1 - k : ℕ) : ℤ) by omega]; push_cast; ring)
      refine ⟨F', e, hF'.congr fun i j hi hj => ?_⟩
      by_cases e1 : i = r - 1 - k ∧ j = M
      · obtain ⟨rfl, rfl⟩ := e1
        rw [if_pos ⟨rfl, rfl⟩, if_pos rfl, if_pos (by omega)]
        congr 2; omega
      · rw [if_neg e1]
        by_cases e2 : j = M
        · rw [if_pos e2, if_pos e2]
          by_cases e3 : (r : ℤ) - k ≤ i
          · rw [if_pos e3, if_pos (by omega)]
          · rw [if_neg e3, if_neg (by omega)]
        · rw [if_neg e2, if_neg e2])
  rw [e3]
  refine ⟨_, _, rfl, hy1, hF3.congr fun i j hi hj => ?_⟩
  unfold entryF
  rw [← hH]
  by_cases e : j = M
  · rw [if_pos e, if_pos e]
    by_cases e3 : (r : ℤ) - H ≤ i
    · rw [if_pos e3, if_pos (by omega)]
    · rw [if_neg e3, if_neg (by omega)]
  · rw [if_neg e, if_neg e]

theorem cScToFc_spec (hrd : NoOverflow rnd) {K : ℕ} {jp : Int → FC rnd} (hj : PowExactTo K jp) (spvec : List (FC rnd)) (nmax mmax r c : ℕ) (hM : mmax ≤ nmax) (hM' : mmax ≤ K) (hb : nmax ≤ 2 ^ 20) (hr : nmax + 1 ≤ r)
    (hc : 2 * mmax + 2 ≤ c) (hl : spvec.length = seg (nmax + 1) (2 * mmax + 1)) (J : CJunk) (fd : List (FC rnd))
    (hfd : FlatIs r c (fun _ _ => 0) fd) :
    ∃ F, Fl.cScToFc rnd fd r c spvec nmax mmax J = .ok F ∧ IsSynthF jp spvec nmax mmax r c (Arr2.ofFn r c fun i j => rd F (c * i + j)) ∧
      F.length = r * c := by
  unfold Fl.cScToFc
  have mal : ∀ {α : Type} (n : ℕ) (j : ℕ → α), cMalloc (n : ℤ) j = .ok (tab n j) := by
    intro α n j; unfold cMalloc; rw [if_neg (by omega), Int.toNat_natCast]
  have m2 := fun (j : ℕ → ℝ) => mal (nmax + 1) j
  have m3 := fun (j : ℕ → ℤ) => mal (2 * mmax + 1) j
  push_cast at m2 m3
  rw [m2, m3]
  simp only [Except.bind_ok]
  have m4 := cMemset0_ok (tab (2 * mmax + 1) J.i) (2 * mmax + 1) (by simp)
  push_cast at m4
  rw [m4]
  simp only [Except.bind_ok]
  obtain ⟨inds, ei, il, iv⟩ := cInds_spec nmax mmax hM (tab (2 * mmax + 1) fun _ => 0) (by simp)
  rw [ei]
  simp only [Except.bind_ok]
  have blk : ∀ (m : ℤ) (M : ℤ) (X : ℕ → ℕ → FC rnd) (F : List (FC rnd)) (y : List ℝ), m.natAbs ≤ mmax → M = ((m % c).toNat : ℤ) → FlatIs r c X F → y.length = nmax + 1 →
      (∀ i, i < r → X i (m % c).toNat = 0) →
      ∃ F' y', Fl.cFcvecMSc rnd spvec (seg (nmax + 1) (ord m) : ℕ) m nmax r c M ((nmax : Int) + 1) (F, y) = .ok (F', y') ∧ y'.length = nmax + 1 ∧
        FlatIs r c (fun i j => if j = (m % c).toNat then entryF jp (cfF spvec nmax) nmax m r i else X i j) F' := by
    intro m M X F y hm hMM hF hy hX
    subst hMM
    have h4 : seg (nmax + 1) (ord m + 1) ≤ seg (nmax + 1) (2 * mmax + 1) := seg_mono _ (by have := ord_le m; omega)
    rw [seg_succ, ← natAbs_eq_ord m] at h4
    exact cFcvecMSc_spec hrd hj spvec (cfF spvec nmax) (seg (nmax + 1) (ord m)) m nmax r c (m % c).toNat hr (slot_lt' (by omega) _) (by omega) (by omega) hb (by omega)
      (fun n _ _ => rfl) X hX F hF y hy
  have hh : (c : ℤ).tdiv 2 = ((c / 2 : ℕ) : ℤ) := by rw [Int.tdiv_eq_ediv_of_nonneg (by omega)]; rfl
  rw [hh]
  obtain ⟨⟨F, y⟩, eA, -, hi⟩ := forM'_range_inv (a := 0) (b := ((c / 2 : ℕ) : ℤ) + 1) (by omega) (fd, tab (nmax + 1) J.r)
    (fun st k =>
    if k < (mmax : ℤ) then
      (cGet inds (2 * k)).bind fun o1 =>
      (Fl.cFcvecMSc rnd spvec o1 k nmax r c k ((nmax : ℤ) + 1) st).bind fun st =>
      (cGet inds (2 * (k + 1) - 1)).bind fun o2 =>
      Fl.cFcvecMSc rnd spvec o2 (-(k + 1)) nmax r c ((c : ℤ) - 1 - k) ((nmax : ℤ) + 1) st
    else if k = (mmax : ℤ) then
      (cGet inds (2 * k)).bind fun o =>
      Fl.cFcvecMSc rnd spvec o k nmax r c k ((nmax : ℤ) + 1) st
    else .ok st)
    (fun k st => st.2.length = nmax + 1 ∧ ∃ X, FlatIs r c X st.1 ∧
      (∀ (m : ℤ) (i : ℕ), m.natAbs ≤ mmax → i < r → X i (m % c).toNat =
        if -k ≤ m ∧ m < k then entryF jp (cfF spvec nmax) nmax m r i else 0) ∧
      ∀ i j : ℕ, mmax < j → j + mmax < c → X i j = 0)
    ⟨by simp, _, hfd, fun m i hm hi => by rw [if_neg (by omega)], fun i j h1 h2 => rfl⟩
    (by
      rintro k ⟨F, y⟩ h1 h2 ⟨yl, X, hF, av, az⟩
      have hz : ∀ (m : ℤ) (X : ℕ → ℕ → FC rnd), m.natAbs ≤ mmax → (∀ i j : ℕ, mmax < j → j + mmax < c → X i j = 0) →
          ∀ i j : ℕ, mmax < j → j + mmax < c → (if j = (m % c).toNat then entryF jp (cfF spvec nmax) nmax m r i else X i j) = 0 := by
        intro m X hm hB i j h1 h2
        rw [if_neg, hB i j h1 h2]
        rw [wrap_mod (by omega) (by omega)]; split <;> omega
      have o2 : ord k = 2 * k.toNat := by unfold ord; split_ifs <;> omega
      have o1 : ord (-(k + 1)) = 2 * (k + 1).toNat - 1 := by unfold ord; rw [if_neg (by omega), if_pos (by omega)]; omega
      by_cases hk : k < mmax
      · rw [if_pos hk]
        rw [cGet_at (j := 2 * k.toNat) (by omega) (by omega), iv _ (by omega), ← o2]
        simp only [Except.bind_ok]
        obtain ⟨F1, y1, e1, yl1, hF1⟩ := blk k k X F y (by omega) (by rw [wrap_mod (by omega) (by omega)]; split <;> omega) hF yl (fun i hi => by
          rw [av k i (by omega) hi, if_neg (by omega)])
        rw [e1]
        simp only [Except.bind_ok]
        rw [cGet_at (j := 2 * (k + 1).toNat - 1) (by omega) (by omega), iv _ (by omega), ← o1]
        simp only [Except.bind_ok]
        obtain ⟨F2, y2, e2, yl2, hF2⟩ := blk (-(k + 1)) ((c : ℤ) - 1 - k) _ F1 y1 (by omega) (by rw [wrap_mod (by omega) (by omega)]; split <;> omega) hF1 yl1 (fun i hi => by
          rw [if_neg (fun h => absurd (slotcol_inj (m := -(k + 1)) (m' := k) (by omega : 2 * mmax < c) (by omega) (by omega) h) (by omega)), av _ i (by omega) hi, if_neg (by omega)])
        refine ⟨_, e2, yl2, _, hF2, fun m i hm hi => ?_, hz _ _ (by omega) (hz _ _ (by omega) az)⟩
        by_cases e1 : m = -(k + 1)
        · subst e1; rw [if_pos rfl, if_pos (by omega)]
        · rw [if_neg (fun h => e1 (slotcol_inj (by omega : 2 * mmax < c) hm (by omega) h))]
          by_cases e2 : m = k
          · subst e2; rw [if_pos rfl, if_pos (by omega)]
          · rw [if_neg (fun h => e2 (slotcol_inj (by omega : 2 * mmax < c) hm (by omega) h)), av m i hm hi]
            by_cases h3 : -k ≤ m ∧ m < k
            · rw [if_pos h3, if_pos (by omega)]
            · rw [if_neg h3, if_neg (by omega)]
      · rw [if_neg hk]
        by_cases hk2 : k = mmax
        · rw [if_pos hk2]
          rw [cGet_at (j := 2 * k.toNat) (by omega) (by omega), iv _ (by omega), ← o2]
          simp only [Except.bind_ok]
          obtain ⟨F1, y1, e1, yl1, hF1⟩ := blk k k X F y (by omega) (by rw [wrap_mod (by omega) (by omega)]; split <;> omega) hF yl (fun i hi => by
            rw [av k i (by omega) hi, if_neg (by omega)])
          refine ⟨_, e1, yl1, _, hF1, fun m i hm hi => ?_, hz _ _ (by omega) az⟩
          by_cases e2 : m = k
          · subst e2; rw [if_pos rfl, if_pos (by omega)]
          · rw [if_neg (fun h => e2 (slotcol_inj (by omega : 2 * mmax < c) hm (by omega) h)), av m i hm hi]
            by_cases h3 : -k ≤ m ∧ m < k
            · rw [if_pos h3, if_pos (by omega)]
            · rw [if_neg h3, if_neg (by omega)]
        · rw [if_neg hk2]
          refine ⟨_, rfl, yl, X, hF, fun m i hm hi => ?_, az⟩
          rw [av m i hm hi]
          by_cases h3 : -k ≤ m ∧ m < k
          · rw [if_pos h3, if_pos (by omega)]
          · rw [if_neg h3, if_neg (by omega)])
  rw [eA]
  obtain ⟨X, hX, hv, hz⟩ := hi
  refine ⟨F, rfl, ⟨rfl, rfl, fun m i hm h => ?_, fun i j h1 h2 => ?_⟩, hX.1⟩
  · rw [Arr2.at'_ofFn h (slot_lt' (by omega) _), hX.2 _ _ h (slot_lt' (by omega) _), hv m i hm h, if_pos (by omega)]
  · by_cases h : i < r
    · rw [Arr2.at'_ofFn h (by omega), hX.2 _ _ h (by omega), hz i j h1 h2]
    · rw [Arr2.at'_of_not]; simp only [Arr2.rows_ofFn]; omega

theorem IsSynthF.ext {jp : Int → FC rnd} {spvec : List (FC rnd)} {nmax mmax r c : ℕ} {A B : Arr2 (FC rnd)} (hA : IsSynthF jp spvec nmax mmax r c A) (hB : IsSynthF jp spvec nmax mmax r c B) : A = B := by
  refine Arr2.ext' (by rw [hA.rows, hB.rows]) (by rw [hA.cols, hB.cols]) fun i j hi hj => ?_
  rw [hA.rows] at hi
  rw [hA.cols] at hj
  by_cases h1 : j ≤ mmax
  · have e : ((j : ℤ) % c).toNat = j := by rw [wrap_mod (by omega) (by omega), if_neg (by omega)]; omega
    have := hA.val j i (by omega) hi
    rw [e] at this
    have h' := hB.val j i (by omega) hi
    rw [e] at h'
    rw [this, h']
  · by_cases h2 : j + mmax < c
    · rw [hA.zero i j (by omega) h2, hB.zero i j (by omega) h2]
    · have e : (((j : ℤ) - c) % c).toNat = j := by rw [wrap_mod (by omega) (by omega), if_pos (by omega)]; omega
      have := hA.val ((j : ℤ) - c) i (by omega) hi
      rw [e] at this
      have h' := hB.val ((j : ℤ) - c) i (by omega) hi
      rw [e] at h'
      rw [this, h']

end FS

/-- From the same coefficients both implementations of `sc_to_fc` compute the same doubles, bit for bit, in every entry of the array. -/
theorem FS.sc_to_fc_eq (hrd : NoOverflow rnd) {K : ℕ} {jp : Int → FC rnd} (hj : PowExactTo K jp) (call : ℕ) (J : ℕ → CJunk) (vec : List (FC rnd)) (nmax mmax r c : ℕ)
    (hM : mmax ≤ nmax) (hM' : mmax ≤ K) (hb : nmax ≤ 2 ^ 20) (hr : nmax + 1 ≤ r) (hc : 2 * mmax + 2 ≤ c) (hl : vec.length = seg (nmax + 1) (2 * mmax + 1)) :
    ∃ A, Fl.backendScToFc rnd jp .py call vec nmax mmax r c = .ok A ∧ A.rows = r ∧ A.cols = c ∧ Fl.backendScToFc rnd jp (.c J) call vec nmax mmax r c = .ok A := by
  obtain ⟨A, eA, hA⟩ := FS.scToFc_spec jp vec nmax mmax r c hM hr hc hl
  refine ⟨A, eA, hA.rows, hA.cols, ?_⟩
  unfold Fl.backendScToFc npZeros2
  simp only
  rw [if_neg (by omega)]
  simp only [Except.bind_ok, Int.toNat_natCast, Arr2.rows_ofFn, Arr2.cols_ofFn]
  obtain ⟨F, e', hF, -⟩ := FS.cScToFc_spec hrd hj vec nmax mmax r c hM hM' hb hr hc hl (J call) (Arr2.ofFn r c fun _ _ => (0 : FC rnd)).flat
    ⟨by rw [Arr2.length_flat]; rfl, fun i j hi hj => by
      rw [show c * i + j = (Arr2.ofFn r c fun _ _ => (0 : FC rnd)).cols * i + j from rfl, Arr2.rd_flat _ hi hj, Arr2.at'_ofFn hi hj]⟩
  rw [e']
  simp only [Except.bind_ok]
  rw [hA.ext hF]
  rfl

/-- C88: from the same coefficients both implementations of `sc_to_fc` compute the same doubles, bit for bit, in every entry of the array. -/
theorem c88_sc_to_fc (hrd : NoOverflow rnd) {jp : Int → FC rnd} (hj : PowExact jp) (call : ℕ) (J : ℕ → CJunk) (vec : List (FC rnd)) (nmax mmax r c : ℕ)
    (hM : mmax ≤ nmax) (hM' : mmax ≤ 100) (hb : nmax ≤ 2 ^ 20) (hr : nmax + 1 ≤ r) (hc : 2 * mmax + 2 ≤ c) (hl : vec.length = seg (nmax + 1) (2 * mmax + 1)) :
    ∃ A, Fl.backendScToFc rnd jp .py call vec nmax mmax r c = .ok A ∧ A.rows = r ∧ A.cols = c ∧ Fl.backendScToFc rnd jp (.c J) call vec nmax mmax r c = .ok A :=
  FS.sc_to_fc_eq hrd hj call J vec nmax mmax r c hM hM' hb hr hc hl

theorem FS.py_eq_c (hrd : NoOverflow rnd) {K : ℕ} {jp : Int → FC rnd} (hj : PowExactTo K jp) (J : ℕ → CJunk) (call : ℕ) (c : ScalarCoefs (FC rnd)) (hc : c.WF)
    (hM' : c.mmax ≤ K) (hb : c.nmax ≤ 2 ^ 20) (dn nc : Int) (hdn : c.nmax + 1 ≤ dn) (hnc : 2 * c.mmax + 2 ≤ nc) :
    Fl.backendScToFc rnd jp (.c J) call c.vec c.nmax c.mmax dn nc = Fl.backendScToFc rnd jp .py call c.vec c.nmax c.mmax dn nc := by
  have hc0 := hc.m0
  have hcn := hc.mn
  obtain ⟨A, e1, -, -, e2⟩ := FS.sc_to_fc_eq hrd hj call J c.vec c.nmax.toNat c.mmax.toNat dn.toNat nc.toNat (by omega) (by omega) (by omega) (by omega) (by omega) (by
    have := hc.len
    rw [ncFormula_eq (nmax := c.nmax) (mmax := c.mmax) (by omega) (by omega), show (c.nmax + 1).toNat = c.nmax.toNat + 1 by omega] at this
    exact_mod_cast this)
  rw [show ((c.nmax.toNat : ℕ) : ℤ) = c.nmax by omega, show ((c.mmax.toNat : ℕ) : ℤ) = c.mmax by omega,
    show ((dn.toNat : ℕ) : ℤ) = dn by omega, show ((nc.toNat : ℕ) : ℤ) = nc by omega] at e1 e2
  rw [e1, e2]

/-- C88: `ispht` gives bit-identical patterns (or the same error) with and without the C extension, whatever NumPy does after `sc_to_fc`. -/
theorem c88_ispht (hrd : NoOverflow rnd) {jp : Int → FC rnd} (hj : PowExact jp) (post : Arr2 (FC rnd) → Int → Int → Res (Arr2 (FC rnd))) (J : ℕ → CJunk)
    (c : ScalarCoefs (FC rnd)) (hwf : c.WellFormed) (hM' : c.mmax ≤ 100) (hb : c.nmax ≤ 2 ^ 20) (nrows ncols : Option Int)
    (hn : c.nmax = 0 → nrows ≠ some 1) :
    Fl.ispht rnd jp post (.c J) c nrows ncols = Fl.ispht rnd jp post .py c nrows ncols := by
  have hc := hwf.wf
  unfold Fl.ispht
  simp only
  cases e : isphtGuards c.nmax c.mmax (nrows.getD (c.nmax + 2)) (ncols.getD (2 * c.mmax + 2)) with
  | error => rfl
  | ok u =>
    simp only [Except.bind_ok]
    have g : c.nmax < nrows.getD (c.nmax + 2) ∧ 2 * c.mmax + 2 ≤ ncols.getD (2 * c.mmax + 2) := by
      unfold isphtGuards at e
      split_ifs at e
      omega
    have hc0 := hc.m0
    have hcn := hc.mn
    have hn' : c.nmax = 0 → nrows.getD (c.nmax + 2) ≠ 1 := by
      intro h0 h
      cases hq : nrows with
      | none => rw [hq] at h; simp only [Option.getD_none] at h; omega
      | some q => rw [hq] at h; simp only [Option.getD_some] at h; exact hn h0 (by rw [hq, h])
    generalize nrows.getD (c.nmax + 2) = nr at *
    generalize ncols.getD (2 * c.mmax + 2) = nc at *
    have hdn : c.nmax + 1 ≤ 2 * nr - 2 := by omega
    rw [FS.py_eq_c hrd hj J 0 c hc hM' hb _ _ hdn g.2]

/-- C88: `vispht` gives bit-identical patterns (or the same error) with and without the C extension, whatever NumPy does after `sc_to_fc`. -/
theorem c88_vispht (hrd : NoOverflow rnd) {jp : Int → FC rnd} (hj : PowExact jp) (post : Arr2 (FC rnd) → Arr2 (FC rnd) → Int → Int → Res (TPatt (FC rnd))) (J : ℕ → CJunk)
    (c : VectorCoefs (FC rnd)) (hwf : c.WellFormed) (hM' : c.mmax ≤ 100) (hb : c.nmax ≤ 2 ^ 20) (nrows ncols : Option Int) :
    Fl.vispht rnd jp post (.c J) c nrows ncols = Fl.vispht rnd jp post .py c nrows ncols := by
  have h1 := hwf.wf1.wf
  have h2 := hwf.wf2.wf
  unfold Fl.vispht
  simp only
  cases e : visphtGuards c.nmax c.mmax (nrows.getD (c.nmax + 2)) (ncols.getD (2 * c.mmax + 2)) with
  | error => rfl
  | ok u =>
    simp only [Except.bind_ok]
    have g : c.nmax + 2 ≤ nrows.getD (c.nmax + 2) ∧ 2 * c.mmax + 2 ≤ ncols.getD (2 * c.mmax + 2) := by
      unfold visphtGuards at e
      split_ifs at e
      omega
    have hn0 : 0 ≤ c.nmax := by have := h1.m0; have := h1.mn; have := hwf.n1; omega
    obtain ⟨w, ew, lw⟩ : ∃ w, Fl.nvec rnd c.nmax = .ok w ∧ (w.length : ℤ) = c.nmax + 1 := by
      unfold Fl.nvec npFull
      rw [if_neg (by omega)]
      simp only [Except.bind_ok]
      obtain ⟨w, e, h⟩ := forM'_ok (fun v : List (FC rnd) => (v.length : ℤ) = c.nmax + 1)
        (fun v n => setIdx v n ⟨rnd (1 / rnd (Real.sqrt (rnd (Fl.ofInt rnd n * rnd (Fl.ofInt rnd n + 1))))), 0⟩) (pyRange 1 (c.nmax + 1))
        (List.replicate (c.nmax + 1).toNat 0) (by simp; omega) (by
          intro n hn v hv
          have := mem_pyRange.mp hn
          rw [setIdx_of_lt (by omega) (by omega)]
          exact ⟨_, rfl, by rw [List.length_set]; exact hv⟩)
      exact ⟨w, e, h⟩
    rw [ew, scopy_wf h1, scopy_wf h2]
    simp only [Except.bind_ok]
    obtain ⟨ea, wa, na, ma, -⟩ := ScalarCoefs.window_eq h1 (w := w) (by have := hwf.n1; omega)
    obtain ⟨eb, wb, nb, mb, -⟩ := ScalarCoefs.window_eq h2 (w := w) (by have := hwf.n2; omega)
    unfold ScalarCoefs.windowed
    simp only [ea, eb, Except.bind_ok]
    have n1 := hwf.n1
    have n2 := hwf.n2
    have m1 := hwf.m1
    have m2 := hwf.m2
    have k1 := FS.py_eq_c hrd hj J 0 (c.scoef1.window w).st wa (by omega) (by omega) (2 * nrows.getD (c.nmax + 2) - 2) (ncols.getD (2 * c.mmax + 2)) (by omega) (by omega)
    have k2 := FS.py_eq_c hrd hj J 1 (c.scoef2.window w).st wb (by omega) (by omega) (2 * nrows.getD (c.nmax + 2) - 2) (ncols.getD (2 * c.mmax + 2)) (by omega) (by omega)
    rw [k1, ← k2, na, nb, ma, mb, n1, n2, m1, m2]

/-- C88: a rounding with these properties exists (so the hypotheses can be met): the nearest double, saturating. -/
theorem noOverflow_exists : ∃ rnd : ℝ → ℝ, NoOverflow rnd := by
  obtain ⟨g, hg⟩ := isRounding_exists
  have hb : ∀ x, |x| ≤ 2 ^ 1023 → |g x| ≤ 2 ^ 1023 := fun x hx => by
    have hd : IsDouble ((2 : ℝ) ^ 1023) := ⟨2 ^ 52, 971, by norm_num, by norm_num, by norm_num, by
      rw [show ((2 ^ 52 : ℤ) : ℝ) = (2 : ℝ) ^ (52 : ℤ) by norm_num, ← zpow_add₀ (by norm_num : (2 : ℝ) ≠ 0), ← zpow_natCast]; rfl⟩
    have h1 := rnd_le_double hg hx hd (le_trans (le_abs_self x) hx)
    have h2 := rnd_le_double hg (x := -x) (by rwa [abs_neg]) hd (le_trans (neg_le_abs x) hx)
    rw [hg.odd x hx] at h2
    exact abs_le.mpr ⟨neg_le.mp h2, h1⟩
  refine ⟨fun x => if |x| ≤ 2 ^ 1023 then g x else x, ⟨?_, ?_, ?_⟩, ?_, ?_⟩
  · intro x hx; simp only [if_pos hx]; exact hg.double x hx
  · intro x hx; simp only [if_pos hx]; exact hg.nearest x hx
  · intro x hx; simp only [abs_neg, if_pos hx]; exact hg.odd x hx
  · intro x
    by_cases hx : |x| ≤ 2 ^ 1023
    · simp only [if_pos hx, if_pos (hb x hx)]
      exact rnd_double hg (hg.double x hx) (hb x hx)
    · simp only [if_neg hx]
  · intro x
    by_cases hx : |x| ≤ 2 ^ 1023
    · simp only [abs_neg, if_pos hx]; exact hg.odd x hx
    · simp only [abs_neg, if_neg hx]

/-- C88: a coefficient set with seven distinct modes meets the hypotheses. -/
theorem c88_example : ∃ (rnd : ℝ → ℝ) (jp : Int → FC rnd) (c : ScalarCoefs (FC rnd)), NoOverflow rnd ∧ PowExact jp ∧ c.WellFormed ∧ c.nmax = 2 ∧ c.mmax = 1 ∧
    c.mmax ≤ 100 ∧ c.nmax ≤ 2 ^ 20 ∧ c.absMap 2 (-1) = some ⟨4, 1⟩ := by
  obtain ⟨rnd, h⟩ := noOverflow_exists
  have hw : (ScalarCoefs.mk (α := FC rnd) [⟨0, 1⟩, ⟨1, 1⟩, ⟨2, 1⟩, ⟨3, 1⟩, ⟨4, 1⟩, ⟨5, 1⟩, ⟨6, 1⟩] 2 1).WF := ⟨by norm_num, by norm_num, rfl⟩
  refine ⟨rnd, fun m => ⟨(Complex.I ^ m).re, (Complex.I ^ m).im⟩, _, h, fun m _ => rfl, ScalarCoefs.wf_iff.mp hw, rfl, rfl, by norm_num, by norm_num, ?_⟩
  rfl

end Verif.Props
