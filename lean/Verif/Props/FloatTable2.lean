import Verif.Props.FloatTable
import Verif.Props.Harmonics
import Verif.Math.Addition
import Mathlib.MeasureTheory.Integral.IntervalIntegral.Basic
/-!
# Property C92, continued: size of the exact entries, and the rounding error of one step
-/
namespace Verif.Props
open Verif Finset
variable {rnd : ℝ → ℝ}

theorem thetaPart_le (n : ℕ) (m : ℤ) (hm : m.natAbs ≤ n) (θ : ℝ) : |thetaPart n m θ| ≤ Real.sqrt ((2 * n + 1) / (4 * Real.pi)) := by
  apply Real.abs_le_sqrt
  rw [← sum_thetaPart_sq n θ]
  exact single_le_sum (f := fun m => thetaPart n m θ ^ 2) (fun i _ => sq_nonneg _) (mem_Icc.mpr (by omega))

/-- The Fourier coefficients of a harmonic are bounded by its maximum. -/
theorem ycoef_le (n : ℕ) (m : ℤ) (hm : m.natAbs ≤ n) (j : ℤ) : ‖ycoef n m j‖ ≤ Real.sqrt ((2 * n + 1) / (4 * Real.pi)) := by
  have hpi := Real.pi_pos
  by_cases hj : (n : ℤ) < |j|
  · rw [ycoef_support n m j hj]; simp
  have hj' : j ∈ Icc (-(n : ℤ)) n := by rw [mem_Icc, ← abs_le]; omega
  have hi : ∀ θ : ℝ, (thetaPart n m θ : ℂ) * Complex.exp ((-j : ℤ) * (θ * Complex.I)) =
      ∑ k ∈ Icc (-(n : ℤ)) n, Complex.I ^ m * ycoef n m k * Complex.exp ((k - j : ℤ) * (θ * Complex.I)) := by
    intro θ
    rw [thetaPart_eq_sum n m θ (Icc (-(n : ℤ)) n) (by
      intro k hk
      rw [mem_Icc, ← abs_le] at hk; omega), mul_assoc, sum_mul, mul_sum]
    refine sum_congr rfl fun k _ => ?_
    rw [mul_assoc, mul_assoc, ← Complex.exp_add]
    congr 3
    push_cast; ring
  have hint : ∫ θ in (0 : ℝ)..(2 * Real.pi), (thetaPart n m θ : ℂ) * Complex.exp ((-j : ℤ) * (θ * Complex.I)) =
      Complex.I ^ m * ycoef n m j * (2 * Real.pi) := by
    simp only [hi]
    rw [intervalIntegral.integral_finsetSum (fun k _ => Continuous.intervalIntegrable (by fun_prop) _ _)]
    simp only [intervalIntegral.integral_const_mul, integral_azimuth]
    rw [sum_eq_single j]
    · simp
    · intro b _ hb; rw [if_neg (by omega), mul_zero]
    · intro h; exact absurd hj' h
  have hn := intervalIntegral.norm_integral_le_of_norm_le_const (a := (0 : ℝ)) (b := 2 * Real.pi)
    (f := fun θ : ℝ => (thetaPart n m θ : ℂ) * Complex.exp ((-j : ℤ) * (θ * Complex.I))) (C := Real.sqrt ((2 * n + 1) / (4 * Real.pi)))
    (fun θ _ => by
      rw [norm_mul, Complex.norm_real, show ((-j : ℤ) : ℂ) * ((θ : ℂ) * Complex.I) = ((-(j : ℝ) * θ : ℝ) : ℂ) * Complex.I by push_cast; ring,
        Complex.norm_exp_ofReal_mul_I, mul_one]
      exact thetaPart_le n m hm θ)
  rw [hint, norm_mul, norm_mul, norm_zpow, Complex.norm_I, one_zpow, one_mul, sub_zero, abs_of_pos (by positivity)] at hn
  have e : ‖(2 * Real.pi : ℂ)‖ = 2 * Real.pi := by
    rw [norm_mul, Complex.norm_real]; simp [abs_of_pos hpi]
  rw [e] at hn
  exact le_of_mul_le_mul_right hn (by positivity)

/-- An operation whose error is that of a correctly rounded one, everywhere. -/
def Err (f : ℝ → ℝ) : Prop := ∀ x, |f x - x| ≤ uu * |x| + tiny / 2

theorem uu_small : uu ≤ 1 / 100 := by unfold uu; norm_num

theorem Err.abs_le {f : ℝ → ℝ} (hf : Err f) (x : ℝ) : |f x| ≤ (1 + uu) * |x| + tiny / 2 := by
  have h := hf x
  have : |f x| ≤ |f x - x| + |x| := by simpa using abs_add_le (f x - x) x
  linarith

/-- Rounding error of the step of the recursion. -/
theorem step_err {f : ℝ → ℝ} (hf : Err f) (A B p : ℝ) (hp : 1 ≤ p) :
    |p * f (f (f A - f B) / p) - (A - B)| ≤ 4 * uu * (|A| + |B|) + (p / 2 + 2) * tiny := by
  have u0 := uu_pos
  have u1 := uu_small
  have t0 := tiny_pos
  have hA := hf A
  have hB := hf B
  have hA' := hf.abs_le A
  have hB' := hf.abs_le B
  set a := f A
  set b := f B
  have hd := hf (a - b)
  have hd' := hf.abs_le (a - b)
  have hab : |a - b| ≤ |a| + |b| := abs_sub _ _
  set d := f (a - b)
  have hr := hf (d / p)
  set r := f (d / p)
  rw [abs_div, abs_of_pos (by linarith : 0 < p)] at hr
  have h1 : |p * r - d| ≤ uu * |d| + p * (tiny / 2) := by
    have : p * r - d = p * (r - d / p) := by field_simp
    rw [this, abs_mul, abs_of_pos (by linarith : 0 < p)]
    refine (mul_le_mul_of_nonneg_left hr (by linarith)).trans (le_of_eq ?_)
    field_simp
  have e : p * r - (A - B) = (p * r - d) + ((d - (a - b)) + ((a - A) + -(b - B))) := by ring
  have h2 : |p * r - (A - B)| ≤ |p * r - d| + (|d - (a - b)| + (|a - A| + |b - B|)) := by
    rw [e]
    refine (abs_add_le _ _).trans (add_le_add le_rfl ((abs_add_le _ _).trans (add_le_add le_rfl ((abs_add_le _ _).trans ?_))))
    rw [abs_neg]
  have A0 := abs_nonneg A
  have B0 := abs_nonneg B
  have k1 : |a - b| ≤ 101 / 100 * (|A| + |B|) + tiny := by nlinarith
  have k2 : |d| ≤ 103 / 100 * (|A| + |B|) + 2 * tiny := by nlinarith [abs_nonneg (a - b)]
  have k3 : uu * |d| ≤ uu * (103 / 100 * (|A| + |B|) + 2 * tiny) := mul_le_mul_of_nonneg_left k2 u0.le
  have k4 : uu * |a - b| ≤ uu * (101 / 100 * (|A| + |B|) + tiny) := mul_le_mul_of_nonneg_left k1 u0.le
  have k5 : uu * tiny ≤ 1 / 100 * tiny := mul_le_mul_of_nonneg_right u1 t0.le
  have k6 : 0 ≤ uu * (|A| + |B|) := by positivity
  nlinarith

/-- Rounding error of the first step of the recursion. -/
theorem step_err1 {f : ℝ → ℝ} (hf : Err f) (A p : ℝ) (hp : 1 ≤ p) : |p * f (f A / p) - A| ≤ 4 * uu * |A| + (p / 2 + 2) * tiny := by
  have u0 := uu_pos
  have u1 := uu_small
  have t0 := tiny_pos
  have hA := hf A
  have hA' := hf.abs_le A
  set a := f A
  have hr := hf (a / p)
  set r := f (a / p)
  rw [abs_div, abs_of_pos (by linarith : 0 < p)] at hr
  have h1 : |p * r - a| ≤ uu * |a| + p * (tiny / 2) := by
    have : p * r - a = p * (r - a / p) := by field_simp
    rw [this, abs_mul, abs_of_pos (by linarith : 0 < p)]
    refine (mul_le_mul_of_nonneg_left hr (by linarith)).trans (le_of_eq ?_)
    field_simp
  have h2 : |p * r - A| ≤ |p * r - a| + |a - A| := by
    rw [show p * r - A = (p * r - a) + (a - A) by ring]; exact abs_add_le _ _
  have A0 := abs_nonneg A
  have k2 : |a| ≤ 101 / 100 * |A| + tiny := by nlinarith
  have k3 : uu * |a| ≤ uu * (101 / 100 * |A| + tiny) := mul_le_mul_of_nonneg_left k2 u0.le
  have k5 : uu * tiny ≤ 1 / 100 * tiny := mul_le_mul_of_nonneg_right u1 t0.le
  have k6 : 0 ≤ uu * |A| := by positivity
  nlinarith

/-- `rnd` where the arguments are not too large, exact elsewhere. -/
noncomputable def clip (rnd : ℝ → ℝ) (x : ℝ) : ℝ := by
  classical
  exact if |x| ≤ 2 ^ (1022 : ℤ) then rnd x else x

theorem clip_eq {x : ℝ} (h : |x| ≤ 2 ^ (1022 : ℤ)) : clip rnd x = rnd x := by
  unfold clip; rw [if_pos h]

theorem clip_err (hr : IsRounding rnd) : Err (clip rnd) := by
  intro x
  unfold clip
  split
  · rename_i h; exact rnd_err hr h
  · rw [sub_self, abs_zero]
    have := mul_nonneg uu_pos.le (abs_nonneg x)
    linarith [tiny_pos]

theorem bInt_pp (n i : ℕ) : ((bInt n ((n : ℤ) - 2 * i) : ℤ) : ℝ) = Tab.pp n i := by
  unfold bInt Tab.pp; push_cast; ring

theorem bInt_qq (n i : ℕ) : ((bInt n ((n : ℤ) - 2 * (i + 1) + 1) : ℤ) : ℝ) = Tab.qq n (i + 1) := by
  unfold bInt Tab.qq; push_cast; ring

theorem leadInt_eq (n i : ℕ) (m : ℤ) : ((leadInt n m ((n : ℤ) - 2 * (i + 1)) : ℤ) : ℝ) = Tab.qq n (i + 1) + Tab.pp n i - 4 * (m : ℝ) ^ 2 := by
  unfold leadInt bInt Tab.pp Tab.qq; push_cast; ring

/-- The defects of the rounded recursion. -/
noncomputable def defect (n : ℕ) (s : ℝ) (w : ℕ → ℝ) : ℕ → ℝ
  | 0 => 0
  | 1 => Tab.pp n 1 * w 1 - (Tab.qq n 1 + Tab.pp n 0 - s) * w 0
  | i + 2 => Tab.pp n (i + 2) * w (i + 2) - ((Tab.qq n (i + 2) + Tab.pp n (i + 1) - s) * w (i + 1) - Tab.qq n (i + 1) * w i)

theorem rec_defect (n : ℕ) (s : ℝ) (w : ℕ → ℝ) (N : ℕ) : Tab.Rec (Tab.pp n) (Tab.qq n) s N (defect n s w) w :=
  ⟨fun _ => by simp only [defect]; ring, fun i _ => by simp only [defect]; ring⟩

theorem pp_ge {n i : ℕ} (h1 : 1 ≤ i) (h : 2 * i ≤ n) : 1 ≤ Tab.pp n i := by
  have a : (1 : ℝ) ≤ i := by exact_mod_cast h1
  have b : 2 * (i : ℝ) ≤ n := by exact_mod_cast h
  unfold Tab.pp; nlinarith

theorem pp_le {n i : ℕ} (hn : n ≤ 1000) (h : 2 * i ≤ n) : Tab.pp n i ≤ 2 ^ 20 := by
  have a : (0 : ℝ) ≤ i := by positivity
  have b : 2 * (i : ℝ) ≤ n := by exact_mod_cast h
  have c : (n : ℝ) ≤ 1000 := by exact_mod_cast hn
  unfold Tab.pp
  have : 2 * (i : ℝ) * (2 * n - 2 * i + 1) ≤ 500 * 2 * 1001 := by nlinarith
  norm_num at this ⊢; linarith

theorem qq_nonneg {n i : ℕ} (h : 2 * i + 2 ≤ n) : 0 ≤ Tab.qq n (i + 1) := by
  have b : 2 * (i : ℝ) + 2 ≤ n := by exact_mod_cast h
  have a : (0 : ℝ) ≤ i := by positivity
  unfold Tab.qq; push_cast; nlinarith

/-- The defects are those of at most four roundings of each term, plus underflow. -/
theorem defect_le {f : ℝ → ℝ} (hf : Err f) (n : ℕ) (m : ℤ) (hn : n ≤ 1000) (top : ℝ) : ∀ i < n / 2,
    |defect n (4 * (m : ℝ) ^ 2) (wseq f n m top) (i + 1)| ≤
      4 * uu * Tab.terms (Tab.pp n) (Tab.qq n) (4 * (m : ℝ) ^ 2) (wseq f n m top) i + 2 ^ 20 * tiny := by
  intro i hi
  have t0 := tiny_pos
  have hp1 : 1 ≤ Tab.pp n (i + 1) := pp_ge (by omega) (by omega)
  have hp2 : Tab.pp n (i + 1) ≤ 2 ^ 20 := pp_le hn (by omega)
  have fin : (Tab.pp n (i + 1) / 2 + 2) * tiny ≤ 2 ^ 20 * tiny := by
    refine mul_le_mul_of_nonneg_right ?_ t0.le
    norm_num at hp2 ⊢; linarith
  rcases i with _ | i
  · have e : wseq f n m top 1 = f (f ((Tab.qq n 1 + Tab.pp n 0 - 4 * (m : ℝ) ^ 2) * wseq f n m top 0) / Tab.pp n 1) := by
      rw [← bInt_pp n 1, ← leadInt_eq n 0]
      simp only [wseq]
      norm_num
    have := step_err1 hf ((Tab.qq n 1 + Tab.pp n 0 - 4 * (m : ℝ) ^ 2) * wseq f n m top 0) (Tab.pp n 1) hp1
    rw [← e, abs_mul] at this
    simp only [defect, Tab.terms, zero_add] at *
    linarith
  · have e : wseq f n m top (i + 2) = f (f (f ((Tab.qq n (i + 2) + Tab.pp n (i + 1) - 4 * (m : ℝ) ^ 2) * wseq f n m top (i + 1)) -
        f (Tab.qq n (i + 1) * wseq f n m top i)) / Tab.pp n (i + 2)) := by
      rw [← bInt_pp n (i + 2), ← leadInt_eq n (i + 1), ← bInt_qq n i]
      simp only [wseq]
      push_cast
      simp only [show (n : ℤ) - 2 * (i + 1) + 1 = n - 2 * (i + 2) + 3 by ring, show ((i : ℤ) + 1 + 1) = i + 2 by ring]
    have := step_err hf ((Tab.qq n (i + 2) + Tab.pp n (i + 1) - 4 * (m : ℝ) ^ 2) * wseq f n m top (i + 1)) (Tab.qq n (i + 1) * wseq f n m top i)
      (Tab.pp n (i + 2)) hp1
    rw [← e, abs_mul, abs_mul, abs_of_nonneg (qq_nonneg (n := n) (i := i) (by omega))] at this
    simp only [defect, Tab.terms] at *
    linarith

end Verif.Props
