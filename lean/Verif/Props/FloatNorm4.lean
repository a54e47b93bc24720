import Verif.Props.FloatNorm3
import Verif.Props.FloatYnm
/-!
# Property C111: which norms can be used to test for equality, and examples
-/
namespace Verif.Props
open Verif
variable {rnd : ℝ → ℝ}

namespace FN

theorem sub_zero_iff (hr : IsRounding rnd) {x y : ℝ} (hx : IsDouble x) (hy : IsDouble y) (bx : |x| < 2 ^ 500) (by' : |y| < 2 ^ 500) :
    rnd (x - y) = 0 ↔ x = y := by
  constructor
  · intro h
    have hb : |x - y| ≤ 2 ^ (1022 : ℤ) := by
      have h1 : |x - y| ≤ 2 * 2 ^ 500 := by
        have := abs_sub x y
        linarith
      refine le_trans h1 ?_
      rw [← zpow_natCast, ← zpow_one_add₀ (by norm_num)]
      exact zpow_le_zpow_right₀ (by norm_num) (by norm_num)
    have := sub_rel hr hx hy hb
    rw [h, zero_sub, abs_neg] at this
    have h0 : |x - y| = 0 := by
      have a := abs_nonneg (x - y)
      have u1 := uu_lt
      clear bx by' hb
      nlinarith
    have := abs_eq_zero.mp h0
    linarith
  · rintro rfl
    rw [sub_self, rnd_zero hr]

theorem fc_sub_zero_iff (hr : IsRounding rnd) {a b : FC rnd} (ha : Moderate a) (hb : Moderate b) : a - b = 0 ↔ a = b := by
  rw [fc_sub]
  constructor
  · intro h
    have h1 := (sub_zero_iff hr ha.1 hb.1 ha.2.2.1 hb.2.2.1).mp (congrArg FC.re h)
    have h2 := (sub_zero_iff hr ha.2.1 hb.2.1 ha.2.2.2 hb.2.2.2).mp (congrArg FC.im h)
    ext
    · exact h1
    · exact h2
  · rintro rfl
    rw [sub_self, sub_self, rnd_zero hr]; rfl

/-- The computed difference is made of doubles. -/
theorem sub_dbl (hr : IsRounding rnd) {a b : FC rnd} (ha : Moderate a) (hb : Moderate b) :
    IsDouble (a - b).re ∧ IsDouble (a - b).im ∧ |(a - b).re| ≤ 2 ^ 1000 ∧ |(a - b).im| ≤ 2 ^ 1000 := by
  have key : ∀ {x y : ℝ}, IsDouble x → IsDouble y → |x| < 2 ^ 500 → |y| < 2 ^ 500 → IsDouble (rnd (x - y)) ∧ |rnd (x - y)| ≤ 2 ^ 1000 := by
    intro x y dx dy hx hy
    have h1 : |x - y| ≤ 2 * 2 ^ 500 := by
      have := abs_sub x y
      linarith
    have h2 : |x - y| ≤ 2 ^ 1023 := le_trans h1 big'
    have h3 : |x - y| ≤ 2 ^ (1022 : ℤ) := by
      refine le_trans h1 ?_
      rw [← zpow_natCast, ← zpow_one_add₀ (by norm_num)]
      exact zpow_le_zpow_right₀ (by norm_num) (by norm_num)
    refine ⟨hr.double _ h2, ?_⟩
    have h4 := sub_rel hr dx dy h3
    have h5 : |rnd (x - y)| ≤ 2 * |x - y| := by
      have := abs_sub_abs_le_abs_sub (rnd (x - y)) (x - y)
      have a := abs_nonneg (x - y)
      have u1 := uu_lt
      clear hx hy h1 h2 h3
      nlinarith
    refine le_trans h5 (le_trans (mul_le_mul_of_nonneg_left h1 (by norm_num)) ?_)
    rw [← pow_succ', ← pow_succ']
    exact pow_le_pow_right₀ (by norm_num) (by norm_num)
  obtain ⟨a1, a2⟩ := key ha.1 hb.1 ha.2.2.1 hb.2.2.1
  obtain ⟨b1, b2⟩ := key ha.2.1 hb.2.1 ha.2.2.2 hb.2.2.2
  exact ⟨a1, b1, a2, b2⟩

theorem max_zero_iff {h : FC rnd → ℝ} (hh : IsHypotGe rnd h) {l : List (FC rnd)} (hne : l ≠ [])
    (hl : ∀ z ∈ l, IsDouble z.re ∧ IsDouble z.im ∧ |z.re| ≤ 2 ^ 1000 ∧ |z.im| ≤ 2 ^ 1000) :
    ∃ v, npMax (l.map h) = .ok v ∧ (v = 0 ↔ ∀ z ∈ l, z = 0) := by
  obtain ⟨v, e, hm, hx⟩ := npMax_spec (l := l.map h) (by simpa using hne)
  refine ⟨v, e, ?_⟩
  constructor
  · intro hv z hz
    have h1 := hx (h z) (List.mem_map_of_mem hz)
    rw [hv] at h1
    obtain ⟨d1, d2, b1, b2⟩ := hl z hz
    obtain ⟨g1, g2⟩ := hh.ge z d1 d2 b1 b2
    ext
    · exact abs_nonpos_iff.mp (le_trans g1 h1)
    · exact abs_nonpos_iff.mp (le_trans g2 h1)
  · intro hz
    obtain ⟨z, h1, rfl⟩ := List.mem_map.mp hm
    rw [hz z h1, hh.zero]

theorem fcAbs_hypot : IsHypotGe rnd (fcAbs (rnd := rnd)) :=
  { zero := fcAbs_zero
    close := fun w _ _ => by unfold fcAbs; simp
    ge := fun z _ _ _ _ => ⟨Real.abs_le_sqrt (by nlinarith [sq_nonneg z.im]), Real.abs_le_sqrt (by nlinarith [sq_nonneg z.re])⟩ }

theorem isSquare_exact : IsSquare fun x => x ^ 2 := ⟨by norm_num, fun x _ _ => by rw [sub_self, abs_zero]; positivity⟩

theorem npSum_ne {l : List ℝ} {s : ℝ} (h : NpSum rnd l s) : l ≠ [] := by
  induction h with
  | one x => simp
  | add _ _ i1 _ => intro e; exact i1 (List.append_eq_nil_iff.mp e).1
  | perm hp _ ih => intro e; rw [e] at hp; exact ih hp.eq_nil

/-- Far below the smallest double everything rounds to 0. -/
theorem rnd_tiny (hr : IsRounding rnd) {x : ℝ} (hx : |x| < 2 ^ (-1075 : ℤ)) : rnd x = 0 := by
  have hb : |x| ≤ 2 ^ 1023 := by
    refine le_trans hx.le ?_
    rw [← zpow_natCast]
    exact zpow_le_zpow_right₀ (by norm_num) (by norm_num)
  have h := hr.nearest x hb 0 isDouble_zero
  rw [sub_zero] at h
  obtain ⟨m, e, _, e1, _, hm⟩ := hr.double x hb
  have h2 : |rnd x| < 2 ^ (-1074 : ℤ) := by
    have h3 : |rnd x| ≤ |x| + |x| := by
      have := abs_sub_abs_le_abs_sub (rnd x) x
      rw [abs_sub_comm] at this
      clear hx hb
      linarith
    have : (2 : ℝ) ^ (-1074 : ℤ) = 2 ^ (-1075 : ℤ) + 2 ^ (-1075 : ℤ) := by
      rw [← two_mul, ← zpow_one_add₀ (by norm_num)]; norm_num
    rw [this]
    exact lt_of_le_of_lt h3 (add_lt_add hx hx)
  rw [hm, abs_mul, abs_of_pos (show (0 : ℝ) < 2 ^ e by positivity)] at h2
  have h4 : |(m : ℝ)| < 1 := by
    have h5 : |(m : ℝ)| * 2 ^ e < 1 * 2 ^ e := by
      rw [one_mul]
      exact lt_of_lt_of_le h2 (zpow_le_zpow_right₀ (by norm_num) e1)
    exact lt_of_mul_lt_mul_right h5 (by positivity)
  have : m = 0 := by
    have : |m| < 1 := by exact_mod_cast h4
    exact Int.abs_lt_one_iff.mp this
  rw [hm, this]; simp

end FN

open FN

/-- C111, equality test for coefficient sets: `LInf_coef(c - d)` is 0 exactly when `c` and `d` hold the same values, however small their
difference. -/
theorem c111_linf_zero (hr : IsRounding rnd) (h : FC rnd → ℝ) (hh : IsHypotGe rnd h) (c d : ScalarCoefs (FC rnd)) (hc : c.WellFormed) (hd : d.WellFormed)
    (hn : c.nmax = d.nmax) (hm : c.mmax = d.mmax) (mc : ModerateSet c) (md : ModerateSet d) :
    ∃ diff v, c.opLeft .sub (.obj d) = .ok diff ∧ floatLInfSC h diff = .ok v ∧ (v = 0 ↔ ∀ n m, IsMode c.nmax c.mmax n m → readMap c n m = readMap d n m) := by
  have hlen : c.vec.length = d.vec.length := by
    have h1 := hc.wf.len
    have h2 := hd.wf.len
    rw [hn, hm] at h1
    omega
  have e : c.opLeft .sub (.obj d) = .ok ⟨List.zipWith (· - ·) c.vec d.vec, c.nmax, c.mmax⟩ := by
    unfold ScalarCoefs.opLeft
    simp only [hn, hm, if_true, hlen]
    rw [← hn, ← hm]
    exact init_of_wf hc _ (by rw [List.length_zipWith]; omega)
  have hne : List.zipWith (· - ·) c.vec d.vec ≠ [] := by
    intro e
    have := congrArg List.length e
    rw [List.length_zipWith, List.length_nil] at this
    have h1 := hc.wf.len
    unfold ncFormula at h1
    have h2 := hc.wf.m0
    have h3 := hc.wf.mn
    have h4 : c.vec.length = 0 := by omega
    rw [h4] at h1
    push_cast at h1
    nlinarith [mul_nonneg h2 (sub_nonneg.mpr h3)]
  obtain ⟨v, ev, hv⟩ := max_zero_iff hh hne (by
    intro z hz
    obtain ⟨i, hi, rfl⟩ := List.mem_iff_getElem.mp hz
    rw [List.length_zipWith] at hi
    rw [List.getElem_zipWith]
    exact sub_dbl hr (mc _ (List.getElem_mem _)) (md _ (List.getElem_mem _)))
  refine ⟨_, v, e, ev, ?_⟩
  rw [hv]
  have hpt : (∀ z ∈ List.zipWith (· - ·) c.vec d.vec, z = 0) ↔ c.vec = d.vec := by
    constructor
    · intro hz
      refine List.ext_getElem hlen fun i h1 h2 => ?_
      refine (fc_sub_zero_iff hr (mc _ (List.getElem_mem _)) (md _ (List.getElem_mem _))).mp ?_
      refine hz _ (List.mem_iff_getElem.mpr ⟨i, by rw [List.length_zipWith]; omega, by rw [List.getElem_zipWith]⟩)
    · intro e z hz
      rw [e, List.zipWith_self] at hz
      obtain ⟨w, _, rfl⟩ := List.mem_map.mp hz
      exact fc_sub_self hr w
  rw [hpt]
  constructor
  · intro e n m _
    have : c = d := by
      cases c; cases d
      simp only at e hn hm
      subst e hn hm
      rfl
    rw [this]
  · intro hr'
    refine congrArg ScalarCoefs.vec (ScalarCoefs.ext_modes hc.wf hd.wf hn hm fun n m hmode => ?_)
    rw [← readMap_eq hc.wf, ← readMap_eq hd.wf]
    exact hr' n m hmode

/-- C111, equality test for patterns: `LInf_patt(p - q)` is 0 exactly when the samples agree. -/
theorem c111_linf_patt_zero (hr : IsRounding rnd) (h : FC rnd → ℝ) (hh : IsHypotGe rnd h) (p q : SPatt (FC rnd)) (A B : Arr2 (FC rnd))
    (hA : p.dsphere = .ok A) (hB : q.dsphere = .ok B) (hrows : A.rows = B.rows) (hcols : A.cols = B.cols) (hne : 0 < A.rows ∧ 0 < A.cols)
    (hm : ∀ i j, i < A.rows → j < A.cols → Moderate (A.at' i j) ∧ Moderate (B.at' i j)) :
    ∃ diff v, p.opLeft .sub (.obj q) = .ok diff ∧ floatLInfPatt h diff = .ok v ∧ (v = 0 ↔ ∀ i j, i < A.rows → j < A.cols → A.at' i j = B.at' i j) := by
  have e : p.opLeft .sub (.obj q) = .ok ⟨.arr (A.zip (· - ·) B)⟩ := by
    unfold SPatt.opLeft
    simp only [hA, hB]
    show (if A.rows = B.rows ∧ A.cols = B.cols then _ else _) = _
    rw [if_pos ⟨hrows, hcols⟩]
    rfl
  have hat : ∀ i j, i < A.rows → j < A.cols → (A.zip (· - ·) B).at' i j = A.at' i j - B.at' i j := fun i j hi hj => Arr2.at'_ofFn hi hj
  obtain ⟨v, ev, hv⟩ := max_zero_iff hh (l := (A.zip (· - ·) B).toList) (by
    intro e
    have := congrArg List.length e
    rw [length_toList, List.length_nil] at this
    have := Nat.mul_pos hne.1 hne.2
    simp only [Arr2.rows_zip, Arr2.cols_zip] at *
    omega) (by
    intro z hz
    obtain ⟨i, j, hi, hj, rfl⟩ := (mem_toList _).mp hz
    rw [hat i j hi hj]
    exact sub_dbl hr (hm i j hi hj).1 (hm i j hi hj).2)
  refine ⟨_, v, e, ev, ?_⟩
  rw [hv]
  constructor
  · intro hz i j hi hj
    refine (fc_sub_zero_iff hr (hm i j hi hj).1 (hm i j hi hj).2).mp ?_
    rw [← hat i j hi hj]
    exact hz _ ((mem_toList _).mpr ⟨i, j, hi, hj, rfl⟩)
  · intro he z hz
    obtain ⟨i, j, hi, hj, rfl⟩ := (mem_toList _).mp hz
    rw [hat i j hi hj, he i j hi hj]
    exact fc_sub_self hr _

/-- C111: `L2_coef` is no such test.  With any rounding and an exact `hypot`, two sets that differ in the value of mode `(0, 0)` (`2^-600` and 0)
have `L2_coef(c - d)` equal to 0: the square underflows. -/
theorem c111_l2_underflow (hr : IsRounding rnd) : ∃ c d diff : ScalarCoefs (FC rnd), c.WellFormed ∧ d.WellFormed ∧ ModerateSet c ∧ ModerateSet d ∧
    readMap c 0 0 ≠ readMap d 0 0 ∧ c.opLeft .sub (.obj d) = .ok diff ∧ FloatL2 rnd fcAbs diff 0 ∧ ∀ s, FloatL2 rnd fcAbs diff s → s = 0 := by
  let z : FC rnd := ⟨2 ^ (-600 : ℤ), 0⟩
  have hdz : IsDouble ((2 : ℝ) ^ (-600 : ℤ)) := isDouble_pow _ (by norm_num) (by norm_num)
  have hz : Moderate z := by
    refine ⟨hdz, isDouble_zero, ?_, ?_⟩
    · show |(2 : ℝ) ^ (-600 : ℤ)| < 2 ^ 500
      rw [abs_of_pos (by positivity), ← zpow_natCast]
      exact zpow_lt_zpow_right₀ (by norm_num) (by norm_num)
    · show |(0 : ℝ)| < 2 ^ 500
      rw [abs_zero]; positivity
  have h0 : Moderate (0 : FC rnd) := by
    refine ⟨isDouble_zero, isDouble_zero, ?_, ?_⟩ <;>
    · show |(0 : ℝ)| < 2 ^ 500
      rw [abs_zero]; positivity
  have wf : ∀ x : FC rnd, (⟨[x], 0, 0⟩ : ScalarCoefs (FC rnd)).WF := fun x => ⟨by norm_num, by norm_num, by simp [ncFormula]⟩
  have hsub : z - 0 = z := fc_sub_zero hr hz
  have hsq : sqAbs rnd fcAbs z = 0 := by
    unfold sqAbs
    have : fcAbs z = 2 ^ (-600 : ℤ) := by
      unfold fcAbs
      show Real.sqrt (((2 : ℝ) ^ (-600 : ℤ)) ^ 2 + 0 ^ 2) = _
      rw [zero_pow (by norm_num), add_zero, Real.sqrt_sq (by positivity)]
    rw [this, ← zpow_add₀ (by norm_num)]
    apply rnd_tiny hr
    rw [abs_of_pos (by positivity)]
    exact zpow_lt_zpow_right₀ (by norm_num) (by norm_num)
  have all : ∀ s p : ℝ, ∀ l, NpSum rnd l p → l = [0] → p = 0 := by
    intro s p l hp
    induction hp with
    | one x => intro e; simpa using e
    | @add l l' s s' h1 h2 i1 i2 =>
      intro e
      have n1 : l ≠ [] := by rintro rfl; exact npSum_ne h1 rfl
      have n2 : l' ≠ [] := by rintro rfl; exact npSum_ne h2 rfl
      have := congrArg List.length e
      rw [List.length_append] at this
      have a := List.length_pos_iff.mpr n1
      have b := List.length_pos_iff.mpr n2
      simp at this
      omega
    | perm hp _ ih =>
      intro e
      rw [e] at hp
      exact ih (List.perm_singleton.mp hp)
  refine ⟨⟨[z], 0, 0⟩, ⟨[0], 0, 0⟩, ⟨[z], 0, 0⟩, ScalarCoefs.wf_iff.mp (wf z), ScalarCoefs.wf_iff.mp (wf 0), ?_, ?_, ?_, ?_, ?_, ?_⟩
  · intro x hx
    rw [List.mem_singleton.mp hx]; exact hz
  · intro x hx
    rw [List.mem_singleton.mp hx]; exact h0
  · have hm : IsMode 0 0 0 0 := by rw [isMode_iff]; omega
    rw [readMap_eq (wf z), readMap_eq (wf 0), ScalarCoefs.absMap_mode (wf z) hm, ScalarCoefs.absMap_mode (wf 0) hm]
    intro e
    have e' : z = 0 := by simpa using e
    have : (2 : ℝ) ^ (-600 : ℤ) = 0 := congrArg FC.re e'
    exact absurd this (by positivity)
  · unfold ScalarCoefs.opLeft
    simp only [List.zipWith_cons_cons, List.zipWith_nil_right, Op.eval, hsub]
    exact init_of_wf (c := ⟨[z], 0, 0⟩) (ScalarCoefs.wf_iff.mp (wf z)) [z] rfl
  · refine ⟨0, ?_, by rw [Real.sqrt_zero, rnd_zero hr]⟩
    show NpSum rnd [sqAbs rnd fcAbs z] 0
    rw [hsq]
    exact NpSum.one 0
  · rintro s ⟨p, hp, rfl⟩
    have : p = 0 := all 0 p _ hp (by show [sqAbs rnd fcAbs z] = [0]; rw [hsq])
    rw [this, Real.sqrt_zero, rnd_zero hr]

/-- Not vacuous: with some rounding and the exact `hypot` and square, two sets of four values that differ in one of them meet the hypotheses of
`c111_compare`, and a 2 by 2 pattern and a vector set meet those of the other theorems. -/
theorem c111_example : ∃ (rnd : ℝ → ℝ) (h : FC rnd → ℝ) (sq : ℝ → ℝ) (c d : ScalarCoefs (FC rnd)) (q : ℝ) (v : VectorCoefs (FC rnd)) (p : SPatt (FC rnd)) (A : Arr2 (FC rnd))
    (s t s' t' : ℝ), IsRounding rnd ∧ IsHypotGe rnd h ∧ IsSquare sq ∧ c.WellFormed ∧ d.WellFormed ∧ c.vec.length = 4 ∧ d.vec.length = 4 ∧ c.vec ≠ d.vec ∧
    (∀ z ∈ c.vec, InRange z ∧ Dbl z) ∧ (∀ z ∈ d.vec, Dbl z) ∧
    (∀ i (h1 : i < c.vec.length) (h2 : i < d.vec.length), Apart c.vec[i] d.vec[i]) ∧ FloatCompare rnd h c d q ∧
    v.scoef1 = c ∧ FloatL2VC rnd sq h v s ∧ floatLInfVC sq h v = .ok t ∧ IsPeak c.vec 2 ∧
    p.dsphere = .ok A ∧ A.rows = 2 ∧ A.cols = 2 ∧ (∀ i j, i < A.rows → j < A.cols → InRange (A.at' i j)) ∧ FloatL2Patt rnd h p s' ∧ floatLInfPatt h p = .ok t' := by
  obtain ⟨rnd, hr⟩ := isRounding_exists
  let k : ℕ → FC rnd := fun n => ⟨n, 0⟩
  have ka : ∀ n : ℕ, fcAbs (k n) = n := by
    intro n
    unfold fcAbs
    show Real.sqrt ((n : ℝ) ^ 2 + 0 ^ 2) = n
    rw [zero_pow (by norm_num), add_zero, Real.sqrt_sq (by positivity)]
  have kd : ∀ n : ℕ, n < 4 → Dbl (k n) := by
    intro n hn
    refine ⟨?_, isDouble_zero⟩
    have := isDouble_int (z := (n : ℤ)) (by rw [abs_of_nonneg (by positivity)]; omega)
    simpa [k] using this
  have kr : ∀ n : ℕ, 0 < n → n < 4 → InRange (k n) := by
    intro n h0 hn
    right
    rw [ka]
    have h1 : (1 : ℝ) ≤ n := by exact_mod_cast h0
    have h2 : (n : ℝ) ≤ 2 ^ (2 : ℤ) := by
      have : (n : ℝ) ≤ 4 := by exact_mod_cast hn.le
      refine le_trans this (by norm_num)
    exact ⟨le_trans (zpow_le_one_of_nonpos₀ (by norm_num) (by norm_num)) h1, le_trans h2 (zpow_le_zpow_right₀ (by norm_num) (by norm_num))⟩
  have ri : ∀ n : ℕ, n < 100 → rnd n = n := by
    intro n hn
    have := isDouble_int (z := (n : ℤ)) (by rw [abs_of_nonneg (by positivity)]; omega)
    refine rnd_double hr (by simpa using this) ?_
    rw [abs_of_nonneg (by positivity)]
    have : (n : ℝ) ≤ 2 ^ 7 := by
      have : (n : ℝ) ≤ 100 := by exact_mod_cast hn.le
      linarith
    exact le_trans this (pow_le_pow_right₀ (by norm_num) (by norm_num))
  have ex : ∀ l : List ℝ, l ≠ [] → ∃ s, NpSum rnd l s := by
    intro l
    induction l with
    | nil => intro h; exact absurd rfl h
    | cons a l ih =>
      intro _
      by_cases hl : l = []
      · rw [hl]; exact ⟨a, NpSum.one a⟩
      · obtain ⟨s, hs⟩ := ih hl
        exact ⟨_, NpSum.add (l := [a]) (NpSum.one a) hs⟩
  let c : ScalarCoefs (FC rnd) := ⟨[k 1, k 2, k 2, k 1], 1, 1⟩
  let d : ScalarCoefs (FC rnd) := ⟨[k 1, k 2, k 1, k 1], 1, 1⟩
  have wf : ∀ a b e f : FC rnd, (⟨[a, b, e, f], 1, 1⟩ : ScalarCoefs (FC rnd)).WellFormed := fun a b e f =>
    ScalarCoefs.wf_iff.mp ⟨by norm_num, by norm_num, by simp [ncFormula]⟩
  let A : Arr2 (FC rnd) := Arr2.ofFn 2 2 fun _ _ => k 2
  have hA : ∀ i j, i < 2 → j < 2 → A.at' i j = k 2 := fun i j hi hj => Arr2.at'_ofFn hi hj
  obtain ⟨num, hnum⟩ := ex ((List.zipWith (· - ·) c.vec d.vec).map fcAbs) (by simp [c, d])
  obtain ⟨w, hw⟩ := ex (c.vec.map (sqAbs rnd fcAbs)) (by simp [c])
  obtain ⟨w', hw'⟩ := ex (A.toList.map (sqAbs rnd fcAbs)) (by
    intro e
    have := congrArg List.length e
    rw [List.length_map, length_toList, List.length_nil] at this
    simp [A] at this)
  obtain ⟨t, ht, _⟩ := npMax_spec (l := c.vec.map fcAbs) (by simp [c])
  obtain ⟨t', ht', _⟩ := npMax_spec (l := A.toList.map fcAbs) (by
    intro e
    have := congrArg List.length e
    rw [List.length_map, length_toList, List.length_nil] at this
    simp [A] at this)
  have hden : NpSum rnd (c.vec.map fcAbs) 6 := by
    have e : c.vec.map fcAbs = [((1 : ℕ) : ℝ), ((2 : ℕ) : ℝ)] ++ [((2 : ℕ) : ℝ), ((1 : ℕ) : ℝ)] := by simp [c, ka]
    rw [e]
    have e3 : rnd (((1 : ℕ) : ℝ) + ((2 : ℕ) : ℝ)) = 3 := by
      have := ri 3 (by norm_num)
      norm_num at this ⊢
      exact this
    have e3' : rnd (((2 : ℕ) : ℝ) + ((1 : ℕ) : ℝ)) = 3 := by rw [add_comm]; exact e3
    have e6 : rnd (3 + 3) = 6 := by
      have := ri 6 (by norm_num)
      norm_num at this ⊢
      exact this
    have := NpSum.add (NpSum.add (rnd := rnd) (l := [_]) (NpSum.one ((1 : ℕ) : ℝ)) (NpSum.one ((2 : ℕ) : ℝ)))
      (NpSum.add (l := [_]) (NpSum.one ((2 : ℕ) : ℝ)) (NpSum.one ((1 : ℕ) : ℝ)))
    rw [e3, e3', e6] at this
    exact this
  refine ⟨rnd, fcAbs, fun x => x ^ 2, c, d, rnd (num / 6), ⟨c, c, 1, 1⟩, ⟨.arr A⟩, A, floatComb rnd (fun x => x ^ 2) (rnd (Real.sqrt w)) (rnd (Real.sqrt w)),
    floatComb rnd (fun x => x ^ 2) t t, rnd (Real.sqrt w'), t', hr, fcAbs_hypot, isSquare_exact, wf _ _ _ _, wf _ _ _ _, rfl, rfl, ?_, ?_, ?_, ?_, ?_, rfl,
    ?_, ?_, ?_, rfl, rfl, rfl, ?_, ?_, ?_⟩
  · intro e
    have h1 : k 2 = k 1 := by
      have := congrArg (fun l => l[2]?) e
      simpa [c, d] using this
    have : ((2 : ℕ) : ℝ) = ((1 : ℕ) : ℝ) := congrArg FC.re h1
    norm_num at this
  · intro z hz
    have : z = k 1 ∨ z = k 2 := by
      have : z = k 1 ∨ z = k 2 ∨ z = k 2 ∨ z = k 1 := by simpa [c] using hz
      tauto
    rcases this with rfl | rfl
    · exact ⟨kr 1 (by norm_num) (by norm_num), kd 1 (by norm_num)⟩
    · exact ⟨kr 2 (by norm_num) (by norm_num), kd 2 (by norm_num)⟩
  · intro z hz
    have : z = k 1 ∨ z = k 2 := by
      have : z = k 1 ∨ z = k 2 ∨ z = k 1 ∨ z = k 1 := by simpa [d] using hz
      tauto
    rcases this with rfl | rfl
    · exact kd 1 (by norm_num)
    · exact kd 2 (by norm_num)
  · have same : ∀ x : FC rnd, Apart x x := fun x => Or.inl (by unfold fcDist; simp)
    have other : Apart (k 2) (k 1) := by
      right
      have : fcDist (k 2) (k 1) = 1 := by
        unfold fcDist
        show Real.sqrt ((((2 : ℕ) : ℝ) - ((1 : ℕ) : ℝ)) ^ 2 + ((0 : ℝ) - 0) ^ 2) = 1
        norm_num
      rw [this]
      exact ⟨zpow_le_one_of_nonpos₀ (by norm_num) (by norm_num), one_le_zpow₀ (by norm_num) (by norm_num)⟩
    intro i h1 h2
    have : i < 4 := h1
    interval_cases i
    · exact same _
    · exact same _
    · exact other
    · exact same _
  · refine ⟨_, num, 6, ?_, hnum, hden, by norm_num, rfl⟩
    unfold bcast
    rw [if_pos (show c.vec.length = d.vec.length from rfl)]
  · exact ⟨_, _, ⟨w, hw, rfl⟩, ⟨w, hw, rfl⟩, rfl⟩
  · unfold floatLInfVC
    simp only
    rw [ht]
    rfl
  · refine ⟨⟨k 2, by simp [c], by rw [ka]; norm_num⟩, ?_⟩
    intro z hz
    have : z = k 1 ∨ z = k 2 := by
      have : z = k 1 ∨ z = k 2 ∨ z = k 2 ∨ z = k 1 := by simpa [c] using hz
      tauto
    rcases this with rfl | rfl <;> rw [ka] <;> norm_num
  · intro i j hi hj
    rw [hA i j hi hj]
    exact kr 2 (by norm_num) (by norm_num)
  · exact ⟨A, rfl, w', hw', rfl⟩
  · exact ht'

end Verif.Props
