import Verif.Props.FloatBes7
import Mathlib.Analysis.SpecialFunctions.Trigonometric.Bounds
/-!
# `sbesselj` in doubles: the starting values
-/
namespace Verif.Props
open Verif
variable {rnd : ℝ → ℝ}

/-- Accuracy of the library functions at the argument of a call (`u = 2^-53`). -/
structure BesLibOk (lib : Fl.BesLib) (x : ℝ) : Prop where
  cos : |lib.cos x - Real.cos x| ≤ 8 * 2 ^ (-53 : ℤ) * |Real.cos x|
  sin : |lib.sin x - Real.sin x| ≤ 8 * 2 ^ (-53 : ℤ) * |Real.sin x|
  sq : |lib.sq x - x ^ 2| ≤ 2 * 2 ^ (-53 : ℤ) * x ^ 2

namespace FB

theorem tiny_small : tiny ≤ uu / 10 ^ 10 := by
  have h : tiny ≤ 2 ^ (-200 : ℤ) := by unfold tiny; exact zpow_le_zpow_right₀ (by norm_num) (by norm_num)
  refine h.trans ?_
  rw [uu_val]
  norm_num

theorem rnd_any (hr : IsRounding rnd) {y : ℝ} (h : |y| ≤ 10 ^ 75) : |rnd y - y| ≤ uu * |y| + tiny / 2 := by
  refine rnd_err hr (h.trans ?_)
  calc (10 : ℝ) ^ 75 ≤ 2 ^ (250 : ℤ) := by norm_num
    _ ≤ 2 ^ (1022 : ℤ) := zpow_le_zpow_right₀ (by norm_num) (by norm_num)

/-- Rounding a value near a number of absolute value at most one. -/
theorem rnd_one (hr : IsRounding rnd) {y Y c : ℝ} (h : |y - Y| ≤ c * uu) (hc : c ≤ 100) (hY : |Y| ≤ 1) : |rnd y - Y| ≤ (c + 11 / 10) * uu := by
  have u0 := uu_pos
  have u1 := uu_lt
  have t := tiny_small
  have cu : c * uu ≤ 1 / 100 := by
    calc c * uu ≤ 100 * (12 / 10 ^ 17) := mul_le_mul hc u1 u0.le (by norm_num)
      _ ≤ 1 / 100 := by norm_num
  have ya : |y| ≤ 101 / 100 := by
    have := abs_sub_abs_le_abs_sub y Y
    linarith
  have h1 := rnd_any hr (y := y) (ya.trans (by norm_num))
  have h2 : uu * |y| ≤ uu * (101 / 100) := mul_le_mul_of_nonneg_left ya u0.le
  have h3 : |rnd y - Y| ≤ |rnd y - y| + |y - Y| := by
    rw [show rnd y - Y = (rnd y - y) + (y - Y) by ring]; exact abs_add_le _ _
  norm_num at t
  linarith

theorem div_rel {a A b B α β : ℝ} (α0 : 0 ≤ α) (α1 : α ≤ 100) (β0 : 0 ≤ β) (β1 : β ≤ 100) (hB : B ≠ 0) (ha : |a - A| ≤ α * uu * |A|) (hb : |b - B| ≤ β * uu * |B|) :
    b ≠ 0 ∧ |a / b - A / B| ≤ (α + β + 1 / 100) * uu * |A / B| := by
  have u0 := uu_pos
  have u1 := uu_lt
  have Bp := abs_pos.2 hB
  have βu : β * uu ≤ 1 / 10 ^ 10 := by
    calc β * uu ≤ 100 * (12 / 10 ^ 17) := mul_le_mul β1 u1 u0.le (by norm_num)
      _ ≤ 1 / 10 ^ 10 := by norm_num
  have lo : (1 - 1 / 10 ^ 10) * |B| ≤ |b| := by
    have := abs_sub_abs_le_abs_sub B b
    rw [abs_sub_comm] at this
    have h2 : β * uu * |B| ≤ 1 / 10 ^ 10 * |B| := mul_le_mul_of_nonneg_right βu Bp.le
    linarith
  have bp : 0 < |b| := lt_of_lt_of_le (by positivity) lo
  have bn : b ≠ 0 := abs_pos.1 bp
  refine ⟨bn, ?_⟩
  have e : a / b - A / B = ((a - A) * B - A * (b - B)) / (b * B) := by field_simp; ring
  have n : |(a - A) * B - A * (b - B)| ≤ (α + β) * uu * |A| * |B| := by
    refine (abs_sub _ _).trans ?_
    rw [abs_mul, abs_mul]
    have h1 : |a - A| * |B| ≤ α * uu * |A| * |B| := mul_le_mul_of_nonneg_right ha Bp.le
    have h2 : |A| * |b - B| ≤ |A| * (β * uu * |B|) := mul_le_mul_of_nonneg_left hb (abs_nonneg _)
    linarith
  rw [e, abs_div, abs_mul, abs_div, div_le_iff₀ (by positivity)]
  have k : α + β ≤ (α + β + 1 / 100) * (1 - 1 / 10 ^ 10) := by norm_num; linarith
  calc _ ≤ (α + β) * uu * |A| * |B| := n
    _ ≤ (α + β + 1 / 100) * (1 - 1 / 10 ^ 10) * uu * |A| * |B| := by
      refine mul_le_mul_of_nonneg_right (mul_le_mul_of_nonneg_right (mul_le_mul_of_nonneg_right k u0.le) (abs_nonneg _)) Bp.le
    _ = (α + β + 1 / 100) * uu * |A| * ((1 - 1 / 10 ^ 10) * |B|) := by ring
    _ ≤ (α + β + 1 / 100) * uu * |A| * |b| := mul_le_mul_of_nonneg_left lo (by positivity)
    _ = _ := by field_simp

section
variable {lib : Fl.BesLib} {x : ℝ} (hl : BesLibOk lib x) (hr : IsRounding rnd)
include hl

theorem lib_quot (hx : x ≠ 0) : lib.sq x ≠ 0 ∧ |lib.sin x / x - Real.sin x / x| ≤ (8 + 1 / 100) * uu * |Real.sin x / x| ∧
    |lib.sin x / lib.sq x - Real.sin x / x ^ 2| ≤ (10 + 1 / 100) * uu * |Real.sin x / x ^ 2| ∧ |lib.cos x / x - Real.cos x / x| ≤ (8 + 1 / 100) * uu * |Real.cos x / x| := by
  have hs : |lib.sin x - Real.sin x| ≤ 8 * uu * |Real.sin x| := hl.sin
  have hc : |lib.cos x - Real.cos x| ≤ 8 * uu * |Real.cos x| := hl.cos
  have hq : |lib.sq x - x ^ 2| ≤ 2 * uu * |x ^ 2| := by rw [abs_of_nonneg (sq_nonneg x)]; exact hl.sq
  have h0 : |x - x| ≤ 0 * uu * |x| := by simp
  have a := div_rel (by norm_num) (by norm_num) (by norm_num) (by norm_num) hx hs h0
  have b := div_rel (by norm_num) (by norm_num) (by norm_num) (by norm_num) (pow_ne_zero 2 hx) hs hq
  have c := div_rel (by norm_num) (by norm_num) (by norm_num) (by norm_num) hx hc h0
  refine ⟨b.1, ?_, ?_, ?_⟩
  · simpa using a.2
  · refine b.2.trans (le_of_eq ?_); norm_num
  · simpa using c.2

include hr

/-- `j_0` and `j_1` for arguments beyond `3/2`. -/
theorem start_large (hx : 3 / 2 < |x|) : |rnd (lib.sin x / x) - sphJ 0 x| ≤ 10 * uu ∧
    |rnd (rnd (lib.sin x / lib.sq x) - rnd (lib.cos x / x)) - sphJ 1 x| ≤ 20 * uu := by
  have u0 := uu_pos
  have xp : 0 < |x| := by linarith
  have xn : x ≠ 0 := abs_pos.1 xp
  obtain ⟨_, a, b, c⟩ := lib_quot hl xn
  have A : |Real.sin x / x| ≤ 2 / 3 := by
    rw [abs_div, div_le_iff₀ xp]
    have := Real.abs_sin_le_one x
    linarith
  have C : |Real.cos x / x| ≤ 2 / 3 := by
    rw [abs_div, div_le_iff₀ xp]
    have := Real.abs_cos_le_one x
    linarith
  have B : |Real.sin x / x ^ 2| ≤ 4 / 9 := by
    rw [abs_div, abs_pow, div_le_iff₀ (by positivity)]
    have := Real.abs_sin_le_one x
    nlinarith
  have e0 : sphJ 0 x = Real.sin x / x := by simp [sphJ]
  have e1 : sphJ 1 x = Real.sin x / x ^ 2 - Real.cos x / x := by simp [sphJ]
  have j1 : |sphJ 1 x| ≤ 1 := by
    rcases le_total 0 x with h | h
    · exact sphJ_le_one (lt_of_le_of_ne h xn.symm) 1
    · have := sphJ_le_one (show 0 < -x by
        have := lt_of_le_of_ne h xn
        linarith) 1
      rw [sphJ_neg, abs_mul] at this
      simpa using this
  have a1 := rnd_one hr (a.trans (show _ ≤ (6 : ℝ) * uu by nlinarith)) (by norm_num) (A.trans (by norm_num))
  have b1 := rnd_one hr (b.trans (show _ ≤ (5 : ℝ) * uu by nlinarith)) (by norm_num) (B.trans (by norm_num))
  have c1 := rnd_one hr (c.trans (show _ ≤ (6 : ℝ) * uu by nlinarith)) (by norm_num) (C.trans (by norm_num))
  refine ⟨by rw [e0]; linarith, ?_⟩
  have d : |(rnd (lib.sin x / lib.sq x) - rnd (lib.cos x / x)) - sphJ 1 x| ≤ 15 * uu := by
    rw [e1, show rnd (lib.sin x / lib.sq x) - rnd (lib.cos x / x) - (Real.sin x / x ^ 2 - Real.cos x / x) =
      (rnd (lib.sin x / lib.sq x) - Real.sin x / x ^ 2) - (rnd (lib.cos x / x) - Real.cos x / x) by ring]
    have := abs_sub (rnd (lib.sin x / lib.sq x) - Real.sin x / x ^ 2) (rnd (lib.cos x / x) - Real.cos x / x)
    linarith
  have := rnd_one hr d (by norm_num) j1
  linarith

/-- `j_0` for small arguments, and the test of `sbesselj` takes it. -/
theorem start_small (hx : |x| ≤ 3 / 2) (hx0 : 1 / 2 ^ 46 ≤ |x|) : |rnd (lib.sin x / x) - sphJ 0 x| ≤ 10 * uu * |sphJ 0 x| ∧
    |rnd (lib.sin x / x)| ≥ |rnd (rnd (lib.sin x / lib.sq x) - rnd (lib.cos x / x))| ∧ 5 / 8 ≤ |sphJ 0 x| := by
  have u0 := uu_pos
  have u1 := uu_lt
  have xp : 0 < |x| := lt_of_lt_of_le (by norm_num) hx0
  have xn : x ≠ 0 := abs_pos.1 xp
  obtain ⟨_, a, b, c⟩ := lib_quot hl xn
  have e0 : sphJ 0 x = Real.sin x / x := by simp [sphJ]
  have e1 : sphJ 1 x = Real.sin x / x ^ 2 - Real.cos x / x := by simp [sphJ]
  have par : ∀ n, |sphJ n x| = |sphJ n (|x|)| := by
    intro n
    rcases le_total 0 x with h | h
    · rw [abs_of_nonneg h]
    · rw [abs_of_nonpos h, sphJ_neg, abs_mul, abs_pow, abs_neg, abs_one, one_pow, one_mul]
  have e0' : sphJ 0 (|x|) = Real.sin |x| / |x| := by simp [sphJ]
  have s58 : 5 / 8 ≤ Real.sin |x| / |x| := by
    rw [le_div_iff₀ xp]
    have := Real.sin_ge_sub_cube xp.le
    have x2 : |x| ^ 2 ≤ 9 / 4 := by
      calc |x| ^ 2 ≤ (3 / 2) ^ 2 := pow_le_pow_left₀ xp.le hx 2
        _ = 9 / 4 := by norm_num
    have x3 : |x| ^ 3 ≤ 9 / 4 * |x| := by
      rw [pow_succ]
      exact mul_le_mul_of_nonneg_right x2 xp.le
    linarith
  have j0 : 5 / 8 ≤ |sphJ 0 x| := by rw [par, e0']; exact s58.trans (le_abs_self _)
  have j0' : |sphJ 0 x| ≤ 1 := by rw [par]; exact sphJ_le_one xp 0
  rw [← e0] at a
  have A1 := rel_rnd' hr (e := 8 + 1 / 100) a (by norm_num) (by norm_num) (le_trans (by norm_num) j0) (j0'.trans (by norm_num))
  have A2 : |rnd (lib.sin x / x) - sphJ 0 x| ≤ 10 * uu * |sphJ 0 x| :=
    A1.trans (mul_le_mul_of_nonneg_right (mul_le_mul_of_nonneg_right (by norm_num) u0.le) (abs_nonneg _))
  refine ⟨A2, ?_, j0⟩
  have r1 : |sphJ 1 x| ≤ 5 / 7 * |sphJ 0 x| := by
    have p := (sbRho_pos xp (n := 1) (le_refl _) (by push_cast; linarith)).2
    have m := sbRho_mul xp (n := 1) (le_refl _) (by push_cast; linarith)
    have rc := sbRho_rec xp (n := 1) (le_refl _) (by push_cast; linarith)
    have G := (sbG_bounds xp (n := 2) (by norm_num) (by push_cast; linarith)).2
    have B1 : 2 ≤ sbB |x| 1 := by unfold sbB; rw [le_div_iff₀ xp]; push_cast; linarith
    have B2 : 10 / 3 ≤ sbB |x| 2 := by unfold sbB; rw [le_div_iff₀ xp]; push_cast; linarith
    have p2 := (sbRho_pos xp (n := 2) (by norm_num) (by push_cast; linarith)).2
    have r2 : sbRho |x| 2 ≤ 3 / 5 := by nlinarith
    have r1 : sbRho |x| 1 ≤ 5 / 7 := by
      have h3 : 7 / 5 ≤ sbB |x| 1 - sbRho |x| (1 + 1) := by
        show 7 / 5 ≤ sbB |x| 1 - sbRho |x| 2
        linarith
      nlinarith
    rw [par, par, m, abs_mul, abs_of_pos p]
    exact mul_le_mul_of_nonneg_right r1 (abs_nonneg _)
  -- the error of `j1`
  have x1 : |Real.sin x / x ^ 2| ≤ 1 / |x| := by
    have : |Real.sin x / x ^ 2| = |sphJ 0 x| / |x| := by rw [e0, ← abs_div]; congr 1; field_simp
    rw [this]
    exact div_le_div_of_nonneg_right j0' xp.le
  have x2 : |Real.cos x / x| ≤ 1 / |x| := by
    rw [abs_div]
    exact div_le_div_of_nonneg_right (Real.abs_cos_le_one x) xp.le
  have ux : uu * (1 / |x|) ≤ 1 / 128 := by
    rw [mul_one_div, div_le_iff₀ xp, uu_val]
    calc (1 : ℝ) / 2 ^ 53 = 1 / 128 * (1 / 2 ^ 46) := by norm_num
      _ ≤ _ := mul_le_mul_of_nonneg_left hx0 (by norm_num)
  have xi : 1 / |x| ≤ 10 ^ 20 := by
    rw [div_le_iff₀ xp]
    calc (1 : ℝ) ≤ 10 ^ 20 * (1 / 2 ^ 46) := by norm_num
      _ ≤ _ := mul_le_mul_of_nonneg_left hx0 (by norm_num)
  have xi0 : 2 / 3 ≤ 1 / |x| := by rw [le_div_iff₀ xp]; linarith
  have ti := tiny_small
  have tp := tiny_pos
  have gen : ∀ y Y : ℝ, |y - Y| ≤ (10 + 1 / 100) * uu * |Y| → |Y| ≤ 1 / |x| → |rnd y - Y| ≤ (11 + 3 / 100) * (uu * (1 / |x|)) := by
    intro y Y h hY
    have h1 : |y - Y| ≤ (10 + 1 / 100) * (uu * (1 / |x|)) := by
      refine h.trans ?_
      rw [mul_assoc]
      exact mul_le_mul_of_nonneg_left (mul_le_mul_of_nonneg_left hY u0.le) (by norm_num)
    have ya : |y| ≤ 1 / |x| + 1 / 10 := by
      have := abs_sub_abs_le_abs_sub y Y
      linarith
    have h2 := rnd_any hr (y := y) (ya.trans (by
      have : (10 : ℝ) ^ 20 + 1 / 10 ≤ 10 ^ 75 := by norm_num
      linarith))
    have h3 : |rnd y - Y| ≤ |rnd y - y| + |y - Y| := by
      rw [show rnd y - Y = (rnd y - y) + (y - Y) by ring]; exact abs_add_le _ _
    have ya2 : |y| ≤ (1 + 1 / 100) * (1 / |x|) := by
      have := abs_sub_abs_le_abs_sub y Y
      have h4 : uu * (1 / |x|) ≤ 1 / 10 ^ 10 * (1 / |x|) := mul_le_mul_of_nonneg_right (u1.trans (by norm_num)) (by linarith)
      have : (10 + 1 / 100 : ℝ) * (1 / 10 ^ 10 * (1 / |x|)) ≤ 1 / 100 * (1 / |x|) := by
        rw [← mul_assoc]
        exact mul_le_mul_of_nonneg_right (by norm_num) (by linarith)
      linarith
    have h5 : uu * |y| ≤ (1 + 1 / 100) * (uu * (1 / |x|)) := by
      calc uu * |y| ≤ uu * ((1 + 1 / 100) * (1 / |x|)) := mul_le_mul_of_nonneg_left ya2 u0.le
        _ = _ := by ring
    have h6 : tiny ≤ 1 / 100 * (uu * (1 / |x|)) := by
      have : uu * (2 / 3) ≤ uu * (1 / |x|) := mul_le_mul_of_nonneg_left xi0 u0.le
      norm_num at ti
      linarith
    linarith
  have b1 := gen _ _ b x1
  have c1 := gen _ _ (c.trans (mul_le_mul_of_nonneg_right (mul_le_mul_of_nonneg_right (by norm_num) u0.le) (abs_nonneg _))) x2
  have d : |(rnd (lib.sin x / lib.sq x) - rnd (lib.cos x / x)) - sphJ 1 x| ≤ 223 / 10 / 128 := by
    rw [e1, show rnd (lib.sin x / lib.sq x) - rnd (lib.cos x / x) - (Real.sin x / x ^ 2 - Real.cos x / x) =
      (rnd (lib.sin x / lib.sq x) - Real.sin x / x ^ 2) - (rnd (lib.cos x / x) - Real.cos x / x) by ring]
    have := abs_sub (rnd (lib.sin x / lib.sq x) - Real.sin x / x ^ 2) (rnd (lib.cos x / x) - Real.cos x / x)
    linarith
  have dy : |rnd (lib.sin x / lib.sq x) - rnd (lib.cos x / x)| ≤ 5 / 7 * |sphJ 0 x| + 223 / 10 / 128 := by
    have := abs_sub_abs_le_abs_sub (rnd (lib.sin x / lib.sq x) - rnd (lib.cos x / x)) (sphJ 1 x)
    linarith
  have fin := rnd_any hr (y := rnd (lib.sin x / lib.sq x) - rnd (lib.cos x / x)) (by
    have : |rnd (lib.sin x / lib.sq x) - rnd (lib.cos x / x)| ≤ 10 := by linarith
    exact this.trans (by norm_num))
  generalize rnd (lib.sin x / lib.sq x) - rnd (lib.cos x / x) = y at *
  have f1 := abs_sub_abs_le_abs_sub (rnd y) y
  have f2 := abs_sub_abs_le_abs_sub (sphJ 0 x) (rnd (lib.sin x / x))
  rw [abs_sub_comm] at f2
  have f3 : uu * |y| ≤ 1 / 10 ^ 10 * 10 := mul_le_mul (u1.trans (by norm_num)) (by linarith) (abs_nonneg _) (by norm_num)
  have f4 : 10 * uu * |sphJ 0 x| ≤ 1 / 10 ^ 10 * 1 := mul_le_mul (by linarith [show (10 * (12 / 10 ^ 17) : ℝ) ≤ 1 / 10 ^ 10 by norm_num]) j0' (abs_nonneg _) (by norm_num)
  have f5 : tiny ≤ 1 / 10 ^ 10 := by
    have : uu / 10 ^ 10 ≤ 1 / 10 ^ 10 := div_le_div_of_nonneg_right (u1.trans (by norm_num)) (by norm_num)
    linarith
  norm_num at f3 f4 f5 dy
  show |rnd y| ≤ |rnd (lib.sin x / x)|
  linarith

end
end FB
end Verif.Props
