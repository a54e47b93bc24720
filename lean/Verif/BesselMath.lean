import Mathlib.Analysis.SpecialFunctions.Trigonometric.Deriv
import Mathlib.Analysis.Calculus.Deriv.MeanValue
import Mathlib.Analysis.SpecialFunctions.Trigonometric.Bounds
import Mathlib.Analysis.SpecificLimits.Basic
import Mathlib.Tactic.Linarith
import Mathlib.Tactic.FieldSimp
import Mathlib.Tactic.Ring
import Mathlib.Tactic.Positivity
import Mathlib.Tactic.LinearCombination
/-!
# The spherical Bessel functions (specification side)

`sphJ n x`, `sphY' n x`: closed forms for `n = 0, 1` and the three-term recurrence.  `sphJ_abs_le` is the classical
bound `|j_n(x)| ≤ x^n / (2n+1)!!`; `contFrac_tail` bounds the truncation error of the continued fraction for `j_M/j_{M-1}`.
-/
namespace Verif
open Real Filter

/-- Spherical Bessel function of the first kind. -/
noncomputable def sphJ : ℕ → ℝ → ℝ
  | 0, x => sin x / x
  | 1, x => sin x / x ^ 2 - cos x / x
  | n + 2, x => (2 * (n + 1 : ℕ) + 1) / x * sphJ (n + 1) x - sphJ n x

/-- Spherical Bessel function of the second kind. -/
noncomputable def sphN : ℕ → ℝ → ℝ
  | 0, x => -cos x / x
  | 1, x => -cos x / x ^ 2 - sin x / x
  | n + 2, x => (2 * (n + 1 : ℕ) + 1) / x * sphN (n + 1) x - sphN n x

/-- `x^(n+1) j_n(x)` as an entire function. -/
noncomputable def sphF : ℕ → ℝ → ℝ
  | 0, x => sin x
  | 1, x => sin x - x * cos x
  | n + 2, x => (2 * (n + 1 : ℕ) + 1) * sphF (n + 1) x - x ^ 2 * sphF n x

theorem sphF_eq (n : ℕ) {x : ℝ} (hx : x ≠ 0) : sphF n x = x ^ (n + 1) * sphJ n x := by
  induction n using Nat.twoStepInduction with
  | zero => simp only [sphF, sphJ]; field_simp; ring
  | one => simp only [sphF, sphJ]; field_simp; ring
  | more n h1 h2 => simp only [sphF, sphJ, h1, h2]; field_simp; ring

theorem sphF_zero (n : ℕ) : sphF n 0 = 0 := by
  induction n using Nat.twoStepInduction with
  | zero => simp [sphF]
  | one => simp [sphF]
  | more n h1 h2 => simp [sphF, h2]

theorem sphF_hasDerivAt_zero (x : ℝ) : HasDerivAt (sphF 0) (cos x) x := by
  have : sphF 0 = sin := by funext y; rfl
  rw [this]; exact hasDerivAt_sin x

theorem sphF_hasDerivAt (n : ℕ) (x : ℝ) : HasDerivAt (sphF (n + 1)) (x * sphF n x) x := by
  have one : ∀ x, HasDerivAt (sphF 1) (x * sphF 0 x) x := by
    intro x
    have h := (hasDerivAt_sin x).sub ((hasDerivAt_id x).mul (hasDerivAt_cos x))
    have e : sphF 1 = (sin - id * cos) := by funext y; simp [sphF]
    rw [e]
    refine h.congr_deriv ?_
    simp [sphF]
  induction n using Nat.twoStepInduction generalizing x with
  | zero => exact one x
  | one =>
    have h := ((one x).const_mul (2 * (0 + 1 : ℕ) + 1 : ℝ)).sub ((hasDerivAt_pow 2 x).mul (sphF_hasDerivAt_zero x))
    have e : sphF 2 = ((fun y => (2 * (0 + 1 : ℕ) + 1 : ℝ) * sphF 1 y) - (fun y => y ^ 2) * sphF 0) := by funext y; simp [sphF]
    rw [e]
    refine h.congr_deriv ?_
    simp [sphF]; ring
  | more n h1 h2 =>
    have h := ((h2 x).const_mul (2 * (n + 2 : ℕ) + 1 : ℝ)).sub ((hasDerivAt_pow 2 x).mul (h1 x))
    have e : sphF (n + 3) = ((fun y => (2 * (n + 2 : ℕ) + 1 : ℝ) * sphF (n + 2) y) - (fun y => y ^ 2) * sphF (n + 1)) := by
      funext y; rfl
    rw [e]
    refine h.congr_deriv ?_
    have r : sphF (n + 2) x = (2 * (n + 1 : ℕ) + 1) * sphF (n + 1) x - x ^ 2 * sphF n x := rfl
    rw [r]
    push_cast
    ring

/-- `1 * 3 * ... * (2n+1)`. -/
noncomputable def oddFact : ℕ → ℝ
  | 0 => 1
  | n + 1 => (2 * n + 3) * oddFact n

theorem oddFact_pos (n : ℕ) : 0 < oddFact n := by
  induction n with
  | zero => simp [oddFact]
  | succ n ih => unfold oddFact; positivity

theorem oddFact_ge (n : ℕ) : 1 ≤ oddFact n := by
  induction n with
  | zero => simp [oddFact]
  | succ n ih => unfold oddFact; nlinarith [(Nat.cast_nonneg n : (0 : ℝ) ≤ n)]

theorem sphF_le (n : ℕ) : ∀ x : ℝ, 0 ≤ x → |sphF n x| ≤ x ^ (2 * n + 1) / oddFact n := by
  induction n with
  | zero => intro x hx; simp only [sphF, oddFact]; simpa [abs_of_nonneg hx] using abs_sin_le_abs (x := x)
  | succ n ih =>
    intro x hx
    set g : ℝ → ℝ := fun y => y ^ (2 * (n + 1) + 1) / oddFact (n + 1) with hg
    have hgd : ∀ y, HasDerivAt g (y * (y ^ (2 * n + 1) / oddFact n)) y := by
      intro y
      refine ((hasDerivAt_pow (2 * (n + 1) + 1) y).div_const _).congr_deriv ?_
      have := oddFact_pos n
      simp only [oddFact]
      push_cast
      have h3 : (2 * (n : ℝ) + 3) ≠ 0 := by positivity
      rw [show 2 * (n + 1) = 2 * n + 2 by omega]
      field_simp
      ring
    have hfd := sphF_hasDerivAt n
    have key : ∀ (s : ℝ), |s| = 1 → s * sphF (n + 1) x ≤ g x := by
      intro s hs
      have hmono : MonotoneOn (fun y => g y - s * sphF (n + 1) y) (Set.Icc 0 x) := by
        refine monotoneOn_of_deriv_nonneg (convex_Icc 0 x) ?_ ?_ ?_
        · exact fun y _ => ((hgd y).sub ((hfd y).const_mul s)).continuousAt.continuousWithinAt
        · exact fun y _ => ((hgd y).sub ((hfd y).const_mul s)).differentiableAt.differentiableWithinAt
        · intro y hy
          rw [interior_Icc] at hy
          have hdd : deriv (fun y => g y - s * sphF (n + 1) y) y = _ := ((hgd y).sub ((hfd y).const_mul s)).deriv
          rw [hdd]
          have h1 := ih y hy.1.le
          have h2 : s * sphF n y ≤ y ^ (2 * n + 1) / oddFact n := by
            refine le_trans (le_abs_self _) ?_
            rw [abs_mul, hs, one_mul]; exact h1
          have := mul_le_mul_of_nonneg_left h2 hy.1.le
          nlinarith
      have := hmono (Set.left_mem_Icc.2 hx) (Set.right_mem_Icc.2 hx) hx
      simp only [sphF_zero, hg] at this
      simp at this
      simpa [hg] using this
    rw [abs_le]
    constructor
    · have := key (-1) (by simp); simp only [hg] at this; linarith
    · have := key 1 (by simp); simp only [hg] at this; linarith

/-- `|j_n(x)| ≤ x^n / (1·3···(2n+1))` for `x > 0`. -/
theorem sphJ_abs_le (n : ℕ) {x : ℝ} (hx : 0 < x) : |sphJ n x| ≤ x ^ n / oddFact n := by
  have h := sphF_le n x hx.le
  rw [sphF_eq n hx.ne', abs_mul, abs_of_pos (by positivity), show 2 * n + 1 = (n + 1) + n by ring, pow_add x (n + 1) n, mul_div_assoc] at h
  exact le_of_mul_le_mul_left h (by positivity)

theorem sphJ_succ (n : ℕ) (hn : 1 ≤ n) {x : ℝ} : sphJ (n + 1) x = (2 * (n : ℝ) + 1) / x * sphJ n x - sphJ (n - 1) x := by
  obtain ⟨k, rfl⟩ : ∃ k, n = k + 1 := ⟨n - 1, by omega⟩
  simp [sphJ]

theorem sphN_succ (n : ℕ) (hn : 1 ≤ n) {x : ℝ} : sphN (n + 1) x = (2 * (n : ℝ) + 1) / x * sphN n x - sphN (n - 1) x := by
  obtain ⟨k, rfl⟩ : ∃ k, n = k + 1 := ⟨n - 1, by omega⟩
  simp [sphN]

/-- The cross product of the exact functions. -/
theorem sph_cross (n : ℕ) {x : ℝ} (hx : x ≠ 0) : sphJ (n + 1) x * sphN n x - sphJ n x * sphN (n + 1) x = 1 / x ^ 2 := by
  induction n with
  | zero =>
    simp only [sphJ, sphN]
    field_simp
    have := sin_sq_add_cos_sq x
    linear_combination x * this
  | succ n ih =>
    rw [← ih, sphJ_succ (n + 1) (by omega), sphN_succ (n + 1) (by omega)]
    simp only [Nat.add_sub_cancel]
    ring

/-! ### The continued fraction -/

/-- `(2n+1)/x`. -/
noncomputable def sbB (x : ℝ) (n : ℕ) : ℝ := (2 * (n : ℝ) + 1) / x

/-- Denominators of the convergents of `1/(b_M - 1/(b_{M+1} - ...))`. -/
noncomputable def cfQ (x : ℝ) (M : ℕ) : ℕ → ℝ
  | 0 => 1
  | 1 => sbB x M
  | k + 2 => sbB x (M + k + 1) * cfQ x M (k + 1) - cfQ x M k

/-- Numerators of the convergents. -/
noncomputable def cfP (x : ℝ) (M : ℕ) : ℕ → ℝ
  | 0 => 0
  | 1 => 1
  | k + 2 => sbB x (M + k + 1) * cfP x M (k + 1) - cfP x M k

theorem cf_det (x : ℝ) (M k : ℕ) : cfP x M (k + 1) * cfQ x M k - cfP x M k * cfQ x M (k + 1) = 1 := by
  induction k with
  | zero => simp [cfP, cfQ]
  | succ k ih =>
    rw [← ih]; simp only [cfP, cfQ]; ring

/-- The exact functions and the convergents. -/
theorem cf_sphJ (x : ℝ) (M : ℕ) (hM : 1 ≤ M) (k : ℕ) :
    sphJ M x * cfQ x M k - sphJ (M - 1) x * cfP x M k = sphJ (M + k) x := by
  induction k using Nat.twoStepInduction with
  | zero => simp [cfP, cfQ]
  | one => rw [sphJ_succ M hM]; simp [cfP, cfQ, sbB]; ring
  | more k h1 h2 =>
    have := sphJ_succ (M + (k + 1)) (by omega) (x := x)
    rw [show M + (k + 1) - 1 = M + k by omega] at this
    rw [show M + (k + 2) = M + (k + 1) + 1 by ring, this, ← h1, ← h2]
    simp only [cfP, cfQ, sbB]
    push_cast; ring

section
variable {x : ℝ} {M : ℕ} (hx : 0 < x) (hM : x ≤ M + 1 / 2)
include hx hM

theorem sbB_ge (k : ℕ) : 2 + 2 * (k : ℝ) / x ≤ sbB x (M + k) := by
  unfold sbB
  rw [show (2 : ℝ) + 2 * k / x = (2 * x + 2 * k) / x by field_simp, div_le_div_iff_of_pos_right hx]
  push_cast; linarith

theorem sbB_ge2 (k : ℕ) : 2 ≤ sbB x (M + k) := by
  have := sbB_ge hx hM k
  have : 0 ≤ 2 * (k : ℝ) / x := by positivity
  linarith

theorem cfQ_inc (k : ℕ) : 1 ≤ cfQ x M k ∧ 1 ≤ cfQ x M (k + 1) - cfQ x M k ∧
    2 * (k : ℝ) / x * cfQ x M k ≤ cfQ x M (k + 1) - cfQ x M k ∧
    cfQ x M (k + 1) - cfQ x M k ≤ cfQ x M (k + 2) - cfQ x M (k + 1) := by
  induction k with
  | zero =>
    have h0 := sbB_ge2 hx hM 0
    have h1 := sbB_ge2 hx hM 1
    simp only [cfQ, Nat.add_zero] at *
    refine ⟨le_refl _, by linarith, by simp; linarith, ?_⟩
    nlinarith
  | succ k ih =>
    obtain ⟨i1, i2, i3, i4⟩ := ih
    have hb := sbB_ge hx hM (k + 1)
    have hb' := sbB_ge2 hx hM (k + 2)
    have e2 : cfQ x M (k + 2) = sbB x (M + (k + 1)) * cfQ x M (k + 1) - cfQ x M k := rfl
    have e3 : cfQ x M (k + 1 + 2) = sbB x (M + (k + 2)) * cfQ x M (k + 2) - cfQ x M (k + 1) := rfl
    have j1 : 1 ≤ cfQ x M (k + 1) := by linarith
    refine ⟨j1, by show 1 ≤ cfQ x M (k + 2) - cfQ x M (k + 1); linarith, ?_, ?_⟩
    · show _ ≤ cfQ x M (k + 2) - cfQ x M (k + 1)
      rw [e2]
      have := mul_le_mul_of_nonneg_right hb (show 0 ≤ cfQ x M (k + 1) by linarith)
      push_cast at this ⊢
      nlinarith
    · show cfQ x M (k + 2) - cfQ x M (k + 1) ≤ cfQ x M (k + 1 + 2) - cfQ x M (k + 2)
      rw [e3]
      have : 0 ≤ cfQ x M (k + 2) := by linarith
      nlinarith

theorem cfQ_ge (k : ℕ) : (k : ℝ) + 1 ≤ cfQ x M k := by
  induction k with
  | zero => simp [cfQ]
  | succ k ih => have := (cfQ_inc hx hM k).2.1; push_cast; linarith

theorem cfQ_pos (k : ℕ) : 0 < cfQ x M k := by
  have := (cfQ_inc hx hM k).1; linarith

theorem cfQ_step_mono (k l : ℕ) (h : k ≤ l) : cfQ x M (k + 1) - cfQ x M k ≤ cfQ x M (l + 1) - cfQ x M l := by
  induction l, h using Nat.le_induction with
  | base => exact le_refl _
  | succ l _ ih => exact ih.trans (cfQ_inc hx hM l).2.2.2

theorem cf_conv_step (k : ℕ) : cfP x M (k + 1) / cfQ x M (k + 1) - cfP x M k / cfQ x M k = 1 / (cfQ x M k * cfQ x M (k + 1)) := by
  have h1 := (cfQ_pos hx hM k).ne'
  have h2 := (cfQ_pos hx hM (k + 1)).ne'
  have := cf_det x M k
  field_simp
  linarith

/-- Convergents from index `k` on differ by at most `1/(d_k Q_k)`, `d_k` the increment of the denominators. -/
theorem cf_conv_diff (k l : ℕ) (h : k ≤ l) :
    0 ≤ cfP x M l / cfQ x M l - cfP x M k / cfQ x M k ∧
    cfP x M l / cfQ x M l - cfP x M k / cfQ x M k ≤ (1 / cfQ x M k - 1 / cfQ x M l) / (cfQ x M (k + 1) - cfQ x M k) := by
  induction l, h using Nat.le_induction with
  | base => simp
  | succ l h ih =>
    have hs := cf_conv_step hx hM l
    have p1 := cfQ_pos hx hM l
    have p2 := cfQ_pos hx hM (l + 1)
    have d0 : 0 < cfQ x M (k + 1) - cfQ x M k := by have := (cfQ_inc hx hM k).2.1; linarith
    have hd := cfQ_step_mono hx hM k l h
    have hpos : 0 < 1 / (cfQ x M l * cfQ x M (l + 1)) := by positivity
    refine ⟨by linarith [ih.1], ?_⟩
    have h3 : 1 / (cfQ x M l * cfQ x M (l + 1)) ≤ (1 / cfQ x M l - 1 / cfQ x M (l + 1)) / (cfQ x M (k + 1) - cfQ x M k) := by
      rw [le_div_iff₀ d0, div_sub_div _ _ p1.ne' p2.ne', div_mul_eq_mul_div, div_le_div_iff_of_pos_right (by positivity)]
      linarith
    have e : (1 / cfQ x M k - 1 / cfQ x M (l + 1)) / (cfQ x M (k + 1) - cfQ x M k) =
      (1 / cfQ x M k - 1 / cfQ x M l) / (cfQ x M (k + 1) - cfQ x M k) +
      (1 / cfQ x M l - 1 / cfQ x M (l + 1)) / (cfQ x M (k + 1) - cfQ x M k) := by
      rw [← add_div]; congr 1; ring
    rw [e]
    linarith [ih.2]

omit hM in
theorem sphJ_bounded : ∃ C, ∀ n, |sphJ n x| ≤ C := by
  -- `x^n / (2n+1)!!` is summable-like: bounded by `exp x`
  refine ⟨Real.exp x, fun n => (sphJ_abs_le n hx).trans ?_⟩
  have h1 : x ^ n / (n.factorial : ℝ) ≤ Real.exp x := Real.pow_div_factorial_le_exp x hx.le n
  refine le_trans ?_ h1
  refine div_le_div_of_nonneg_left (by positivity) (by positivity) ?_
  clear h1
  induction n with
  | zero => simp [oddFact]
  | succ n ih =>
    rw [Nat.factorial_succ]
    unfold oddFact
    push_cast
    have := oddFact_pos n
    exact mul_le_mul (by linarith [(Nat.cast_nonneg n : (0:ℝ) ≤ n)]) ih (by positivity) (by positivity)

/-- Truncation error of the continued fraction. -/
theorem contFrac_tail (h1 : 1 ≤ M) (k : ℕ) :
    |sphJ M x - cfP x M (k + 1) / cfQ x M (k + 1) * sphJ (M - 1) x| ≤
      1 / (cfQ x M k * cfQ x M (k + 1)) * (x / 2) * |sphJ (M - 1) x| := by
  obtain ⟨C, hC⟩ := sphJ_bounded hx
  set J := sphJ (M - 1) x
  have d0 : 0 < cfQ x M (k + 2) - cfQ x M (k + 1) := by have := (cfQ_inc hx hM (k + 1)).2.1; show 0 < cfQ x M (k + 1 + 1) - _; linarith
  have pk := cfQ_pos hx hM k
  have pk1 := cfQ_pos hx hM (k + 1)
  have tail : 1 / cfQ x M (k + 1) / (cfQ x M (k + 2) - cfQ x M (k + 1)) ≤ 1 / (cfQ x M k * cfQ x M (k + 1)) * (x / 2) := by
    have hd := (cfQ_inc hx hM (k + 1)).2.2.1
    have hq : cfQ x M k ≤ cfQ x M (k + 1) := by linarith [(cfQ_inc hx hM k).2.1]
    have hk : 2 / x * cfQ x M k ≤ cfQ x M (k + 2) - cfQ x M (k + 1) := by
      refine le_trans ?_ hd
      push_cast
      have : 2 / x ≤ 2 * ((k : ℝ) + 1) / x := by
        rw [div_le_div_iff_of_pos_right hx]; linarith [(Nat.cast_nonneg k : (0:ℝ) ≤ k)]
      exact mul_le_mul this hq pk.le (by positivity)
    rw [div_div, div_mul_eq_mul_div, one_mul, div_le_div_iff₀ (by positivity) (by positivity)]
    have : cfQ x M k ≤ x / 2 * (cfQ x M (k + 2) - cfQ x M (k + 1)) := by
      have h := mul_le_mul_of_nonneg_left hk (show 0 ≤ x / 2 by positivity)
      have e : x / 2 * (2 / x * cfQ x M k) = cfQ x M k := by field_simp
      linarith
    nlinarith
  have bound : ∀ l : ℕ, k + 1 ≤ l → |sphJ M x - cfP x M (k + 1) / cfQ x M (k + 1) * J| ≤
      1 / (cfQ x M k * cfQ x M (k + 1)) * (x / 2) * |J| + C * (1 / ((l : ℝ) + 1)) := by
    intro l hl
    have pl := cfQ_pos hx hM l
    have hJ := cf_sphJ x M h1 l
    have e : sphJ M x - cfP x M (k + 1) / cfQ x M (k + 1) * J =
        (cfP x M l / cfQ x M l - cfP x M (k + 1) / cfQ x M (k + 1)) * J + sphJ (M + l) x / cfQ x M l := by
      rw [← hJ]; field_simp; ring
    have hd := cf_conv_diff hx hM (k + 1) l hl
    rw [e]
    refine (abs_add_le _ _).trans (add_le_add ?_ ?_)
    · rw [abs_mul, abs_of_nonneg hd.1]
      refine mul_le_mul_of_nonneg_right (le_trans hd.2 (le_trans ?_ tail)) (abs_nonneg _)
      rw [div_le_div_iff_of_pos_right d0]
      have : 0 < 1 / cfQ x M l := by positivity
      linarith
    · rw [abs_div, abs_of_pos pl, div_eq_mul_one_div]
      have hl1 := cfQ_ge hx hM l
      refine mul_le_mul (hC _) ?_ (by positivity) ((abs_nonneg _).trans (hC 0))
      exact one_div_le_one_div_of_le (by positivity) hl1
  have hlim : Tendsto (fun l : ℕ => 1 / (cfQ x M k * cfQ x M (k + 1)) * (x / 2) * |J| + C * (1 / ((l : ℝ) + 1))) atTop
      (nhds (1 / (cfQ x M k * cfQ x M (k + 1)) * (x / 2) * |J| + C * 0)) :=
    tendsto_const_nhds.add (tendsto_const_nhds.mul tendsto_one_div_add_atTop_nhds_zero_nat)
  rw [mul_zero, add_zero] at hlim
  exact ge_of_tendsto hlim (eventually_atTop.2 ⟨k + 1, bound⟩)

end

end Verif
