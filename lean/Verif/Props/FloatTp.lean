import Verif.FloatTp
import Verif.Props.FloatPow
import Verif.Props.FloatKiss6
import Verif.Props.HarmTp
/-!
# Property C129: `sph_harmonic_tp` in double precision
-/
namespace Verif.Props
open Verif Finset

variable {rnd : ℝ → ℝ}

/-- `np.exp` of an imaginary number is accurate to two units in the last place or so. -/
def CexpOK (cexp : FC rnd → FC rnd) : Prop := ∀ x : ℝ, |x| ≤ 4000 → ‖(⟨(cexp ⟨0, x⟩).re, (cexp ⟨0, x⟩).im⟩ : ℂ) - Complex.exp (x * Complex.I)‖ ≤ 2 ^ (-51 : ℤ)

namespace TP
open FS

theorem num_small {x : ℝ} (h : |x| ≤ 10 ^ 30) : |x| ≤ 2 ^ (1022 : ℤ) :=
  h.trans (le_trans (by norm_num : (10 : ℝ) ^ 30 ≤ 2 ^ (100 : ℤ)) (zpow_le_zpow_right₀ (by norm_num) (by norm_num)))

theorem err (hr : IsRounding rnd) {x : ℝ} (h : |x| ≤ 10 ^ 30) : |rnd x - x| ≤ uu * |x| + tiny / 2 := rnd_err hr (num_small h)

/-- A point of `np.linspace`. -/
theorem lin_err (hr : IsRounding rnd) {b β : ℝ} {num i : ℕ} (hn : num ≤ 2 ^ 50) (hi : i < num) (hb : |b - β| ≤ 60 * uu) (hβ0 : 0 ≤ β) (hβ : β ≤ 7) :
    |rd (Fl.linspace rnd b num) i - (if num = 1 then 0 else (i : ℝ) * (β / ((num : ℝ) - 1)))| ≤ 85 * uu := by
  have u0 := uu_pos
  have u1 := uu_le16
  have t0 := tiny_pos
  have t1 : tiny ≤ uu / 10 ^ 20 := by
    unfold tiny uu
    calc (2 : ℝ) ^ (-1074 : ℤ) ≤ 2 ^ (-53 + -70 : ℤ) := zpow_le_zpow_right₀ (by norm_num) (by norm_num)
      _ = 2 ^ (-53 : ℤ) * 2 ^ (-70 : ℤ) := zpow_add₀ (by norm_num) _ _
      _ ≤ 2 ^ (-53 : ℤ) * (1 / 10 ^ 20) := mul_le_mul_of_nonneg_left (by norm_num) (by positivity)
      _ = _ := by ring
  unfold Fl.linspace
  rw [rd_tab hi]
  by_cases h1 : num = 1
  · rw [if_pos h1, if_pos h1, sub_zero, abs_zero]; positivity
  rw [if_neg h1, if_neg h1]
  have hN : (1 : ℝ) ≤ (num : ℝ) - 1 := by
    have : (2 : ℝ) ≤ num := by exact_mod_cast (show 2 ≤ num by omega)
    linarith
  have hN' : (num : ℝ) - 1 ≤ 2 ^ 50 := by
    have : (num : ℝ) ≤ 2 ^ 50 := by exact_mod_cast hn
    linarith
  have hiN : (i : ℝ) ≤ (num : ℝ) - 1 := by
    have : ((i : ℝ) + 1) ≤ num := by exact_mod_cast (show i + 1 ≤ num by omega)
    linarith
  have i0 : (0 : ℝ) ≤ i := by positivity
  have hb' := abs_le.1 hb
  have hbs : |b| ≤ 8 := by rw [abs_le]; constructor <;> linarith
  split
  · rename_i h2
    have : (i : ℝ) = (num : ℝ) - 1 := by rw [← h2]; push_cast; ring
    rw [this, mul_div_cancel₀ _ (by linarith)]
    linarith
  rename_i h2
  have e1 : Fl.ofInt rnd ((num : ℤ) - 1) = (num : ℝ) - 1 := by
    rw [ofInt_eq hr (by rw [abs_lt]; omega)]; push_cast; ring
  have e2 : Fl.ofInt rnd (i : ℤ) = (i : ℝ) := by
    rw [ofInt_eq hr (by rw [abs_lt]; omega)]; push_cast; ring
  rw [e1, e2]
  generalize (num : ℝ) - 1 = K at *
  generalize (i : ℝ) = x at *
  have hq : |b / K| ≤ 8 := by
    rw [abs_div, abs_of_pos (by linarith : 0 < K), div_le_iff₀ (by linarith)]
    nlinarith
  have hx1 : 0 ≤ x / K ∧ x / K ≤ 1 := ⟨by positivity, by rw [div_le_one (by linarith)]; exact hiN⟩
  have hxb : |x * (β / K) - x / K * b| ≤ 60 * uu := by
    rw [show x * (β / K) - x / K * b = (x / K) * (β - b) by ring, abs_mul, abs_of_nonneg hx1.1, abs_sub_comm]
    calc x / K * |b - β| ≤ 1 * (60 * uu) := mul_le_mul hx1.2 hb (abs_nonneg _) (by norm_num)
      _ = _ := by ring
  have hxb' : |x / K * b| ≤ 8 := by
    rw [abs_mul, abs_of_nonneg hx1.1]
    calc x / K * |b| ≤ 1 * 8 := mul_le_mul hx1.2 hbs (abs_nonneg _) (by norm_num)
      _ = _ := by ring
  suffices h : ∀ y : ℝ, |y - x / K * b| ≤ 10 * uu → |rnd y - x * (β / K)| ≤ 85 * uu by
    split
    · refine h _ ?_
      have e3 := err hr (x := x / K) (by rw [abs_of_nonneg hx1.1]; linarith)
      rw [abs_of_nonneg hx1.1] at e3
      rw [← sub_mul, abs_mul]
      calc |rnd (x / K) - x / K| * |b| ≤ (1.1 * uu) * 8 := mul_le_mul (by nlinarith) hbs (abs_nonneg _) (by positivity)
        _ ≤ _ := by linarith
    · refine h _ ?_
      have e3 := err hr (x := b / K) (hq.trans (by norm_num))
      have e4 : |x * rnd (b / K) - x / K * b| ≤ x * (uu * (|b| / K) + tiny / 2) := by
        rw [show x * rnd (b / K) - x / K * b = x * (rnd (b / K) - b / K) by ring, abs_mul, abs_of_nonneg i0]
        refine mul_le_mul_of_nonneg_left ?_ i0
        rwa [abs_div, abs_of_pos (by linarith : 0 < K)] at e3
      refine e4.trans ?_
      have e5 : x * (uu * (|b| / K) + tiny / 2) = uu * (x / K * |b|) + x * tiny / 2 := by ring
      rw [e5]
      rw [abs_mul, abs_of_nonneg hx1.1] at hxb'
      have e6 : x * tiny ≤ 2 ^ 50 * (uu / 10 ^ 20) := mul_le_mul (by linarith) t1 t0.le (by norm_num)
      have := mul_le_mul_of_nonneg_left hxb' u0.le
      linarith
  intro y hy
  have hy' : |y| ≤ 9 := by
    have := abs_add_le (y - x / K * b) (x / K * b)
    rw [sub_add_cancel] at this
    linarith
  have e3 := err hr (hy'.trans (by norm_num : (9 : ℝ) ≤ 10 ^ 30))
  have e4 := abs_sub_le (rnd y) y (x * (β / K))
  have e5 := abs_sub_le y (x / K * b) (x * (β / K))
  rw [abs_sub_comm (x / K * b)] at e5
  have := mul_le_mul_of_nonneg_left hy' u0.le
  linarith

theorem pi_err (hr : IsRounding rnd) : |rnd Real.pi - Real.pi| ≤ 3.2 * uu := by
  have p0 := Real.pi_pos
  have p1 := Real.pi_lt_d2
  have := err hr (x := Real.pi) (by rw [abs_of_pos p0]; linarith)
  rw [abs_of_pos p0] at this
  have u0 := uu_pos
  have t1 := FK.tiny_le_uu
  nlinarith

theorem phi_err (hr : IsRounding rnd) {nc : ℕ} (h1 : 1 ≤ nc) (h2 : nc ≤ 50) : |Fl.phiMax rnd nc - (2 * Real.pi - 2 * Real.pi / nc)| ≤ 60 * uu := by
  have u0 := uu_pos
  have u1 := uu_le16
  have t1 := FK.tiny_le_uu
  have t0 := tiny_pos
  have p0 := Real.pi_pos
  have p1 := Real.pi_lt_d2
  have ep := abs_le.1 (pi_err hr)
  have hc : (1 : ℝ) ≤ nc := by exact_mod_cast h1
  have e2 : Fl.ofInt rnd (nc : ℤ) = (nc : ℝ) := by
    rw [ofInt_eq hr (by rw [abs_lt]; omega)]; push_cast; ring
  unfold Fl.phiMax
  rw [e2]
  have a0 : |2 * rnd Real.pi| ≤ 7 := by rw [abs_le]; constructor <;> linarith
  have a1 := err hr (a0.trans (by norm_num : (7 : ℝ) ≤ 10 ^ 30))
  have a2 : |rnd (2 * rnd Real.pi) - 2 * Real.pi| ≤ 14 * uu := by
    have := abs_sub_le (rnd (2 * rnd Real.pi)) (2 * rnd Real.pi) (2 * Real.pi)
    have h := mul_le_mul_of_nonneg_left a0 u0.le
    have : |2 * rnd Real.pi - 2 * Real.pi| ≤ 6.4 * uu := by rw [abs_le]; constructor <;> linarith
    linarith
  generalize rnd (2 * rnd Real.pi) = w at *
  have aw := abs_le.1 a2
  have w1 : |w| ≤ 7 := by rw [abs_le]; constructor <;> linarith
  have b0 : |w / nc| ≤ 7 := by
    rw [abs_div, abs_of_pos (by linarith : (0 : ℝ) < nc), div_le_iff₀ (by linarith)]
    nlinarith
  have b1 := err hr (b0.trans (by norm_num : (7 : ℝ) ≤ 10 ^ 30))
  have b2 : |w / nc - 2 * Real.pi / nc| ≤ 14 * uu := by
    rw [← sub_div, abs_div, abs_of_pos (by linarith : (0 : ℝ) < nc), div_le_iff₀ (by linarith)]
    nlinarith
  have h := mul_le_mul_of_nonneg_left b0 u0.le
  have b3 := abs_sub_le (rnd (w / nc)) (w / nc) (2 * Real.pi / nc)
  have b4 : |(w - rnd (w / nc)) - (2 * Real.pi - 2 * Real.pi / nc)| ≤ 36 * uu := by
    rw [show (w - rnd (w / nc)) - (2 * Real.pi - 2 * Real.pi / nc) = (w - 2 * Real.pi) - (rnd (w / nc) - 2 * Real.pi / nc) by ring]
    refine (abs_sub _ _).trans ?_
    linarith
  have c0 : |w - rnd (w / nc)| ≤ 15 := by
    refine (abs_sub _ _).trans ?_
    have := abs_add_le (rnd (w / nc) - w / nc) (w / nc)
    rw [sub_add_cancel] at this
    linarith
  have c1 := err hr (c0.trans (by norm_num : (15 : ℝ) ≤ 10 ^ 30))
  have c2 := abs_sub_le (rnd (w - rnd (w / nc))) (w - rnd (w / nc)) (2 * Real.pi - 2 * Real.pi / nc)
  have h' := mul_le_mul_of_nonneg_left c0 u0.le
  linarith

theorem phase_eq (hrd : NoOverflow rnd) {k : ℤ} (hk : |k| ≤ 1000) (x : ℝ) : Fl.phase rnd k x = ⟨0, rnd (k * x)⟩ := by
  have hr := hrd.toIsRounding
  have z := rnd_zero hr
  have e : Fl.ofInt rnd k = k := ofInt_eq hr (by
    refine lt_of_le_of_lt hk (by norm_num))
  have e' : rnd (k : ℝ) = k := e
  unfold Fl.phase
  rw [e]
  have h1 : (⟨0, 1⟩ : FC rnd) * ⟨(k : ℝ), 0⟩ = ⟨0, k⟩ := by
    refine FC.ext ?_ ?_
    · show rnd (rnd (0 * (k : ℝ)) - rnd (1 * 0)) = 0
      rw [zero_mul, mul_zero, z, sub_zero, z]
    · show rnd (rnd (0 * 0) + rnd (1 * (k : ℝ))) = k
      rw [zero_mul, one_mul, z, zero_add, hrd.idem, e']
  rw [h1]
  refine FC.ext ?_ ?_
  · show rnd (rnd (0 * x) - rnd (k * 0)) = 0
    rw [zero_mul, mul_zero, z, sub_zero, z]
  · show rnd (rnd (0 * 0) + rnd (k * x)) = rnd (k * x)
    rw [zero_mul, z, zero_add, hrd.idem]

/-- The factor `exp(1j * k * x)`. -/
theorem exp_err (hrd : NoOverflow rnd) {cexp : FC rnd → FC rnd} (he : CexpOK cexp) {k : ℤ} {n : ℕ} (hk : |k| ≤ n) (hn : n ≤ 500) {x ξ : ℝ} (hx : |x - ξ| ≤ 85 * uu) (hξ : |ξ| ≤ 7) :
    ‖val (cexp (Fl.phase rnd k x)) - Complex.exp (k * (ξ * Complex.I))‖ ≤ 97 * ((n : ℝ) + 1) * uu := by
  have hr := hrd.toIsRounding
  have u0 := uu_pos
  have u1 := uu_le16
  have t1 := FK.tiny_le_uu
  have t0 := tiny_pos
  have hk' : |(k : ℝ)| ≤ n := by exact_mod_cast hk
  have hn' : (n : ℝ) ≤ 500 := by exact_mod_cast hn
  have n0 : (0 : ℝ) ≤ n := by positivity
  rw [phase_eq hrd (by omega)]
  have x1 : |x| ≤ 7.1 := by
    have := abs_add_le (x - ξ) ξ
    rw [sub_add_cancel] at this
    linarith
  have a0 : |(k : ℝ) * x| ≤ n * 7.1 := by
    rw [abs_mul]; exact mul_le_mul hk' x1 (abs_nonneg _) n0
  have a1 := err hr (x := (k : ℝ) * x) (a0.trans (by linarith))
  have a2 : |(k : ℝ) * x - k * ξ| ≤ n * (85 * uu) := by
    rw [← mul_sub, abs_mul]; exact mul_le_mul hk' hx (abs_nonneg _) n0
  have a3 := abs_sub_le (rnd (k * x)) (k * x) (k * ξ)
  have a4 := mul_le_mul_of_nonneg_left a0 u0.le
  have nu : (0 : ℝ) ≤ n * uu := by positivity
  have a5 : |rnd (k * x) - k * ξ| ≤ (93 * n + 1) * uu := by nlinarith
  have a6 : |rnd (k * x)| ≤ 4000 := by
    have h1 := abs_add_le (rnd (k * x) - k * x) (k * x)
    rw [sub_add_cancel] at h1
    have : uu * ((n : ℝ) * 7.1) ≤ 1 := by
      calc uu * ((n : ℝ) * 7.1) ≤ (12 / 10 ^ 17) * (500 * 7.1) := mul_le_mul u1 (by linarith) (by positivity) (by norm_num)
        _ ≤ 1 := by norm_num
    linarith
  have b1 := he _ a6
  have b2 : ‖Complex.exp ((rnd (k * x) : ℝ) * Complex.I) - Complex.exp (k * (ξ * Complex.I))‖ ≤ |rnd (k * x) - k * ξ| := by
    have e : Complex.exp ((rnd (k * x) : ℝ) * Complex.I) - Complex.exp (k * (ξ * Complex.I)) =
        Complex.exp (k * (ξ * Complex.I)) * (Complex.exp (Complex.I * ((rnd (k * x) - k * ξ : ℝ) : ℂ)) - 1) := by
      rw [mul_sub, ← Complex.exp_add, mul_one]
      congr 2
      push_cast
      ring
    rw [e, norm_mul]
    have h1 : ‖Complex.exp (k * (ξ * Complex.I))‖ = 1 := by
      rw [show (k : ℂ) * (ξ * Complex.I) = ((k * ξ : ℝ) : ℂ) * Complex.I by push_cast; ring, Complex.norm_exp_ofReal_mul_I]
    rw [h1, one_mul]
    have := Real.norm_exp_I_mul_ofReal_sub_one_le (x := rnd (k * x) - k * ξ)
    rwa [Real.norm_eq_abs] at this
  have e51 : (2 : ℝ) ^ (-51 : ℤ) = 4 * uu := by unfold uu; norm_num
  rw [e51] at b1
  have b3 := norm_sub_le_norm_sub_add_norm_sub (val (cexp ⟨0, rnd (k * x)⟩)) (Complex.exp ((rnd (k * x) : ℝ) * Complex.I)) (Complex.exp (k * (ξ * Complex.I)))
  have b1' : ‖val (cexp ⟨0, rnd (k * x)⟩) - Complex.exp ((rnd (k * x) : ℝ) * Complex.I)‖ ≤ 4 * uu := b1
  linarith

/-- The coefficients `yvec`. -/
noncomputable def yv (rnd : ℝ → ℝ) (m : ℤ) (n : ℕ) (y : List ℝ) (k : ℕ) : ℝ := if k < n then rnd (rd y (n - k) * (-1) ^ m) else rd y (k - n)

theorem yvec_tab (n : ℕ) (m : ℤ) (y : List ℝ) (hl : y.length = n + 1) :
    (List.map (fun (y : ℝ) => rnd (y * (-1) ^ m)) (getSlice y 1 y.length)).reverse ++ y = tab (2 * n + 1) (yv rnd m n y) := by
  have hs : getSlice y 1 y.length = y.drop 1 := by
    unfold getSlice
    have e1 : clampIdx y.length (y.length : ℤ) = y.length := by unfold clampIdx; simp
    have e2 : clampIdx y.length 1 = 1 := by unfold clampIdx; simp; omega
    rw [e1, e2, List.take_length]
  rw [hs]
  refine list_ext_rd (by simp; omega) fun i hi => ?_
  have hi' : i < 2 * n + 1 := by simp at hi; omega
  rw [rd_tab hi']
  unfold yv
  by_cases hin : i < n
  · rw [if_pos hin]
    unfold rd
    rw [List.getD_eq_getElem?_getD, List.getElem?_append, if_pos (by simp; omega), List.getElem?_reverse (by simp; omega)]
    simp only [List.length_map, List.length_drop, hl, List.getElem?_map, List.getElem?_drop]
    rw [show 1 + (n + 1 - 1 - 1 - i) = n - i by omega]
    have hlt : n - i < y.length := by omega
    rw [List.getElem?_eq_getElem hlt, List.getD_eq_getElem?_getD, List.getElem?_eq_getElem hlt]
    rfl
  · rw [if_neg hin]
    unfold rd
    rw [List.getD_eq_getElem?_getD, List.getElem?_append, if_neg (by simp; omega)]
    simp only [List.length_reverse, List.length_map, List.length_drop, hl]
    rw [show i - (n + 1 - 1) = i - n by omega, List.getD_eq_getElem?_getD]

theorem neg_one_zpow (m : ℤ) : ((-1 : ℝ)) ^ m = (-1) ^ m.natAbs := by
  rcases Int.natAbs_eq m with h | h
  · conv_lhs => rw [h]
    rw [zpow_natCast]
  · conv_lhs => rw [h]
    rw [zpow_neg, zpow_natCast]
    rcases neg_one_pow_eq_or ℝ m.natAbs with h | h <;> rw [h] <;> norm_num

/-- The coefficients are accurate. -/
theorem yv_err (hr : IsRounding rnd) {n : ℕ} {m : ℤ} (hn : n ≤ 500) {out : List ℝ} {y : ℕ → ℝ}
    (h : ∀ i : ℕ, (y i : ℂ) = ycoef n m i ∧ |y i| ≤ rowMax n ∧ (i < n + 1 → |rd out i - y i| ≤ ((n : ℝ) + 3) ^ 3 * 2 ^ (-50 : ℤ) * rowMax n)) (k : ℕ) (hk : k < 2 * n + 1) :
    ‖((yv rnd m n out k : ℝ) : ℂ) - ycoef n m ((k : ℤ) - n)‖ ≤ (8 * ((n : ℝ) + 3) ^ 3 + 2) * uu * rowMax n ∧ ‖ycoef n m ((k : ℤ) - n)‖ ≤ rowMax n := by
  have u0 := uu_pos
  have u1 := uu_le16
  have t1 := FK.tiny_le_uu
  have t0 := tiny_pos
  have R1 := rowMax_ge n
  have R2 : rowMax n ≤ 16 := Props.rowMax_le (by omega)
  have e50 : (2 : ℝ) ^ (-50 : ℤ) = 8 * uu := by unfold uu; norm_num
  have n0 : (0 : ℝ) ≤ n := by positivity
  have hn' : (n : ℝ) ≤ 500 := by exact_mod_cast hn
  have hδ : ((n : ℝ) + 3) ^ 3 * (8 * uu) ≤ 1 / 1000 := by
    calc ((n : ℝ) + 3) ^ 3 * (8 * uu) ≤ 503 ^ 3 * (8 * (12 / 10 ^ 17)) := mul_le_mul (pow_le_pow_left₀ (by linarith) (by linarith) 3) (by linarith) (by positivity) (by positivity)
      _ ≤ _ := by norm_num
  unfold yv
  by_cases hin : k < n
  · rw [if_pos hin]
    obtain ⟨a, b, c⟩ := h (n - k)
    have c := c (by omega)
    rw [e50] at c
    have es : ycoef n m ((k : ℤ) - n) = ((y (n - k) * (-1) ^ m : ℝ) : ℂ) := by
      push_cast
      rw [a, show ((n - k : ℕ) : ℤ) = -((k : ℤ) - n) by omega, ycoef_symm]
      have h2 : ((-1 : ℂ)) ^ m = (-1) ^ m.natAbs := by
        have := congrArg (fun x : ℝ => (x : ℂ)) (neg_one_zpow m)
        push_cast at this
        exact this
      rw [h2]
      have h2 : ((-1 : ℂ)) ^ m.natAbs * (-1) ^ m.natAbs = 1 := by rw [← mul_pow]; simp
      linear_combination (-(ycoef n m ((k : ℤ) - n))) * h2
    have h1 : |(-1 : ℝ) ^ m| = 1 := by rw [neg_one_zpow, abs_pow, abs_neg, abs_one, one_pow]
    rw [es]
    rw [← Complex.ofReal_sub, Complex.norm_real, Complex.norm_real, Real.norm_eq_abs, Real.norm_eq_abs]
    constructor
    · have d1 : |rd out (n - k) * (-1) ^ m| ≤ 1.01 * rowMax n := by
        rw [abs_mul, h1, mul_one]
        have := abs_add_le (rd out (n - k) - y (n - k)) (y (n - k))
        rw [sub_add_cancel] at this
        have := mul_le_mul_of_nonneg_right hδ (by linarith : 0 ≤ rowMax n)
        linarith
      have d2 := err hr (d1.trans (by linarith))
      have d3 := abs_sub_le (rnd (rd out (n - k) * (-1) ^ m)) (rd out (n - k) * (-1) ^ m) (y (n - k) * (-1) ^ m)
      rw [← sub_mul, abs_mul _ ((-1 : ℝ) ^ m), h1, mul_one] at d3
      have d4 := mul_le_mul_of_nonneg_left d1 u0.le
      have d5 := mul_le_mul_of_nonneg_left R1 u0.le
      linarith
    · rw [abs_mul, h1, mul_one]; exact b
  · rw [if_neg hin]
    obtain ⟨a, b, c⟩ := h (k - n)
    have c := c (by omega)
    rw [e50] at c
    rw [show (k : ℤ) - n = ((k - n : ℕ) : ℤ) by omega, ← a, ← Complex.ofReal_sub, Complex.norm_real, Complex.norm_real, Real.norm_eq_abs, Real.norm_eq_abs]
    refine ⟨c.trans ?_, b⟩
    have : 0 ≤ uu * rowMax n := by positivity
    linarith

/-- The inner sum. -/
theorem sum_err (hr : IsRounding rnd) {sum : List (FC rnd) → FC rnd} (hs : SumOK sum) {n : ℕ} (hn : n ≤ 500) {y : ℕ → ℝ} {e : ℕ → FC rnd} {Y E : ℕ → ℂ}
    (hy : ∀ k, k < 2 * n + 1 → ‖(y k : ℂ) - Y k‖ ≤ (8 * ((n : ℝ) + 3) ^ 3 + 2) * uu * rowMax n ∧ ‖Y k‖ ≤ rowMax n)
    (he : ∀ k, k < 2 * n + 1 → ‖val (e k) - E k‖ ≤ 97 * ((n : ℝ) + 1) * uu ∧ ‖E k‖ = 1) :
    ‖val (sum (tab (2 * n + 1) fun k => (⟨y k, 0⟩ : FC rnd) * e k)) - ∑ k ∈ range (2 * n + 1), Y k * E k‖ ≤ (2 * n + 1) * rowMax n * (8 * ((n : ℝ) + 5) ^ 3) * uu := by
  have u0 := uu_pos
  have u1 := uu_le16
  have R1 := rowMax_ge n
  have R2 : rowMax n ≤ 16 := Props.rowMax_le (by omega)
  have n0 : (0 : ℝ) ≤ n := by positivity
  have hn' : (n : ℝ) ≤ 500 := by exact_mod_cast hn
  have tR : tiny ≤ uu * rowMax n / 1000 := by
    have := FA.tiny_Q (C := 1) (R := rowMax n) (by
      rw [show (1 : ℝ) = 2 ^ (0 : ℤ) by simp]
      exact zpow_le_zpow_right₀ (by norm_num) (by norm_num)) R1
    rwa [one_mul] at this
  have tR2 : tiny ≤ uu * rowMax n / 100 := by
    have : 0 ≤ uu * rowMax n := by positivity
    linarith
  have big : rowMax n ≤ 2 ^ (1000 : ℤ) := R2.trans (le_trans (by norm_num : (16 : ℝ) ≤ 2 ^ (4 : ℤ)) (zpow_le_zpow_right₀ (by norm_num) (by norm_num)))
  have big2 : 1.03 * rowMax n ≤ 2 ^ (1000 : ℤ) := (by linarith : 1.03 * rowMax n ≤ 32).trans (le_trans (by norm_num : (32 : ℝ) ≤ 2 ^ (5 : ℤ)) (zpow_le_zpow_right₀ (by norm_num) (by norm_num)))
  have c1 : (8 * ((n : ℝ) + 3) ^ 3 + 2) * uu ≤ 1 / 1000 := by
    calc (8 * ((n : ℝ) + 3) ^ 3 + 2) * uu ≤ (8 * 503 ^ 3 + 2) * (12 / 10 ^ 17) := mul_le_mul (by
          have := pow_le_pow_left₀ (by linarith : (0 : ℝ) ≤ (n : ℝ) + 3) (by linarith : (n : ℝ) + 3 ≤ 503) 3
          linarith) u1 u0.le (by positivity)
      _ ≤ _ := by norm_num
  have c2 : 97 * ((n : ℝ) + 1) * uu ≤ 1 / 1000 := by
    calc 97 * ((n : ℝ) + 1) * uu ≤ 97 * 501 * (12 / 10 ^ 17) := mul_le_mul (by linarith) u1 u0.le (by positivity)
      _ ≤ _ := by norm_num
  have nu : 0 ≤ (n : ℝ) * uu := by positivity
  -- one term
  have term : ∀ k, k < 2 * n + 1 → ‖val ((⟨y k, 0⟩ : FC rnd) * e k) - Y k * E k‖ ≤ rowMax n * ((8 * ((n : ℝ) + 3) ^ 3 + 2) * uu + (1.01 * (97 * ((n : ℝ) + 1) * uu) + 5.1 * uu)) ∧
      ‖val ((⟨y k, 0⟩ : FC rnd) * e k)‖ ≤ 1.03 * rowMax n := by
    intro k hk
    obtain ⟨h1, h2⟩ := hy k hk
    obtain ⟨h3, h4⟩ := he k hk
    have ev : val (⟨y k, 0⟩ : FC rnd) = (y k : ℂ) := rfl
    have := near_mul hr (t := (⟨y k, 0⟩ : FC rnd)) (j := e k) (z := Y k) (w := E k) (E := (8 * ((n : ℝ) + 3) ^ 3 + 2) * uu * rowMax n) (by rw [ev]; exact h1) h2 h3 h4
      (by have := mul_le_mul_of_nonneg_right c1 (by linarith : 0 ≤ rowMax n); linarith) c2 tR2 big
    rw [mul_comm (E k)] at this
    have k1 : ‖val ((⟨y k, 0⟩ : FC rnd) * e k) - Y k * E k‖ ≤ rowMax n * ((8 * ((n : ℝ) + 3) ^ 3 + 2) * uu + (1.01 * (97 * ((n : ℝ) + 1) * uu) + 5.1 * uu)) := by
      refine this.trans (le_of_eq ?_); ring
    refine ⟨k1, ?_⟩
    have k2 : ‖Y k * E k‖ ≤ rowMax n := by rw [norm_mul, h4, mul_one]; exact h2
    have k3 := norm_add_le (val ((⟨y k, 0⟩ : FC rnd) * e k) - Y k * E k) (Y k * E k)
    rw [sub_add_cancel] at k3
    have k4 : rowMax n * ((8 * ((n : ℝ) + 3) ^ 3 + 2) * uu + (1.01 * (97 * ((n : ℝ) + 1) * uu) + 5.1 * uu)) ≤ rowMax n * (3 / 100) := by
      refine mul_le_mul_of_nonneg_left ?_ (by linarith)
      linarith
    linarith
  generalize ht : (fun k => (⟨y k, 0⟩ : FC rnd) * e k) = t at *
  have term' : ∀ k, k < 2 * n + 1 → ‖val (t k) - Y k * E k‖ ≤ rowMax n * ((8 * ((n : ℝ) + 3) ^ 3 + 2) * uu + (1.01 * (97 * ((n : ℝ) + 1) * uu) + 5.1 * uu)) ∧ ‖val (t k)‖ ≤ 1.03 * rowMax n := by
    intro k hk; rw [← ht]; exact term k hk
  clear term
  have tT : tiny ≤ uu * (1.03 * rowMax n) / 100 := by
    have : 0 ≤ uu * rowMax n := by positivity
    linarith
  obtain ⟨s1, s2⟩ := hs (tab (2 * n + 1) t) (by
    intro h
    have := congrArg List.length h
    simp at this)
  have sumof : ∀ g : FC rnd → ℝ, ((tab (2 * n + 1) t).map g).sum = ∑ k ∈ range (2 * n + 1), g (t k) := by
    intro g
    rw [← FA.sum_tab]
    unfold tab
    rw [List.map_map]
    rfl
  have comp : ∀ (g : FC rnd → ℝ) (s : ℝ), (∀ z, |g z| ≤ ‖val z‖) → NpSum rnd ((tab (2 * n + 1) t).map g) s →
      |s - ∑ k ∈ range (2 * n + 1), g (t k)| ≤ (2 * n + 1) ^ 2 * (2 * uu) * (1.03 * rowMax n) := by
    intro g s hg h
    obtain ⟨-, b, -⟩ := FA.npsum_err hr (T := 1.03 * rowMax n) (by linarith) tT big2 h (by
      intro x hx
      obtain ⟨z, hz, rfl⟩ := List.mem_map.mp hx
      unfold tab at hz
      obtain ⟨k, hk, rfl⟩ := List.mem_map.mp hz
      exact (hg _).trans (term' k (List.mem_range.mp hk)).2) (by simp; omega)
    rw [sumof] at b
    rw [List.length_map, length_tab] at b
    push_cast at b
    exact b
  have k1 := comp FC.re _ (fun z => Complex.abs_re_le_norm (val z)) s1
  have k2 := comp FC.im _ (fun z => Complex.abs_im_le_norm (val z)) s2
  have k3 : ‖val (sum (tab (2 * n + 1) t)) - ∑ k ∈ range (2 * n + 1), val (t k)‖ ≤ 2 * ((2 * n + 1) ^ 2 * (2 * uu) * (1.03 * rowMax n)) := by
    refine (Complex.norm_le_abs_re_add_abs_im _).trans ?_
    rw [Complex.sub_re, Complex.sub_im, Complex.re_sum, Complex.im_sum]
    have := add_le_add k1 k2
    rw [← two_mul] at this
    exact this
  have k4 : ‖∑ k ∈ range (2 * n + 1), val (t k) - ∑ k ∈ range (2 * n + 1), Y k * E k‖ ≤
      (2 * n + 1) * (rowMax n * ((8 * ((n : ℝ) + 3) ^ 3 + 2) * uu + (1.01 * (97 * ((n : ℝ) + 1) * uu) + 5.1 * uu))) := by
    rw [← sum_sub_distrib]
    refine (norm_sum_le _ _).trans ?_
    calc ∑ k ∈ range (2 * n + 1), ‖val (t k) - Y k * E k‖ ≤ ∑ _k ∈ range (2 * n + 1), rowMax n * ((8 * ((n : ℝ) + 3) ^ 3 + 2) * uu + (1.01 * (97 * ((n : ℝ) + 1) * uu) + 5.1 * uu)) :=
          sum_le_sum fun k hk => (term' k (mem_range.mp hk)).1
      _ = _ := by rw [sum_const, card_range, nsmul_eq_mul]; push_cast; ring
  have k5 := norm_sub_le_norm_sub_add_norm_sub (val (sum (tab (2 * n + 1) t))) (∑ k ∈ range (2 * n + 1), val (t k)) (∑ k ∈ range (2 * n + 1), Y k * E k)
  refine k5.trans ((add_le_add k3 k4).trans ?_)
  have Q0 : 0 ≤ (2 * (n : ℝ) + 1) * rowMax n * uu := by positivity
  have e1 : 2 * ((2 * (n : ℝ) + 1) ^ 2 * (2 * uu) * (1.03 * rowMax n)) + (2 * n + 1) * (rowMax n * ((8 * ((n : ℝ) + 3) ^ 3 + 2) * uu + (1.01 * (97 * ((n : ℝ) + 1) * uu) + 5.1 * uu))) =
      (2 * n + 1) * rowMax n * uu * (4.12 * (2 * n + 1) + (8 * ((n : ℝ) + 3) ^ 3 + 2 + (1.01 * (97 * ((n : ℝ) + 1)) + 5.1))) := by ring
  rw [e1, show (2 * (n : ℝ) + 1) * rowMax n * (8 * ((n : ℝ) + 5) ^ 3) * uu = (2 * n + 1) * rowMax n * uu * (8 * ((n : ℝ) + 5) ^ 3) by ring]
  refine mul_le_mul_of_nonneg_left ?_ Q0
  nlinarith [sq_nonneg (n : ℝ)]

/-- One sample. -/
theorem sample_err (hrd : NoOverflow rnd) (lm : Fl.Libm) (hl : LibmOK lm) {cexp : FC rnd → FC rnd} (he : CexpOK cexp) {sum : List (FC rnd) → FC rnd} (hs : SumOK sum) {n : ℕ} (hn : n ≤ 500)
    {m : ℤ} (hm : m.natAbs ≤ n) {out : List ℝ} {y : ℕ → ℝ}
    (h : ∀ i : ℕ, (y i : ℂ) = ycoef n m i ∧ |y i| ≤ rowMax n ∧ (i < n + 1 → |rd out i - y i| ≤ ((n : ℝ) + 3) ^ 3 * 2 ^ (-50 : ℤ) * rowMax n))
    {th ph θ φ : ℝ} (h1 : |th - θ| ≤ 85 * uu) (h2 : |θ| ≤ 7) (h3 : |ph - φ| ≤ 85 * uu) (h4 : |φ| ≤ 7) :
    ‖val (Fl.pow1j rnd lm m * cexp (Fl.phase rnd m ph) * sum (tab (2 * n + 1) fun k => (⟨yv rnd m n out k, 0⟩ : FC rnd) * cexp (Fl.phase rnd ((k : ℤ) - n) th))) - sphY n m θ φ‖ ≤
      (2 * n + 1) * ((n : ℝ) + 6) ^ 3 * 2 ^ (-50 : ℤ) * rowMax n := by
  have hr := hrd.toIsRounding
  have u0 := uu_pos
  have u1 := uu_le16
  have R1 := rowMax_ge n
  have R2 : rowMax n ≤ 16 := Props.rowMax_le (by omega)
  have n0 : (0 : ℝ) ≤ n := by positivity
  have hn' : (n : ℝ) ≤ 500 := by exact_mod_cast hn
  have hm' : |m| ≤ n := by rw [Int.abs_eq_natAbs]; omega
  have hm'' : ((|m| : ℤ) : ℝ) ≤ n := by exact_mod_cast hm'
  have one : ∀ (k : ℤ) (x : ℝ), ‖Complex.exp (k * (x * Complex.I))‖ = 1 := by
    intro k x
    rw [show (k : ℂ) * (x * Complex.I) = ((k * x : ℝ) : ℂ) * Complex.I by push_cast; ring, Complex.norm_exp_ofReal_mul_I]
  have a1 := sum_err hr hs hn (y := yv rnd m n out) (e := fun k => cexp (Fl.phase rnd ((k : ℤ) - n) th)) (Y := fun k => ycoef n m ((k : ℤ) - n))
    (E := fun k => Complex.exp ((((k : ℤ) - n : ℤ) : ℂ) * (θ * Complex.I))) (fun k hk => yv_err hr hn h k hk)
    (fun k hk => ⟨exp_err hrd he (by rw [abs_le]; omega) hn h1 h2, one _ _⟩)
  have a2 := (c105_pow hrd lm hl m).2 (by omega)
  have a3 := exp_err hrd he hm' hn h3 h4
  have e50 : (2 : ℝ) ^ (-50 : ℤ) = 8 * uu := by unfold uu; norm_num
  rw [e50] at a2 ⊢
  have t1 := FK.tiny_le_uu
  have nu : 0 ≤ (n : ℝ) * uu := by positivity
  have c2 : 97 * ((n : ℝ) + 1) * uu ≤ 1 / 100000 := by
    calc 97 * ((n : ℝ) + 1) * uu ≤ 97 * 501 * (12 / 10 ^ 17) := mul_le_mul (by linarith) u1 u0.le (by positivity)
      _ ≤ _ := by norm_num
  have nI : ‖Complex.I ^ m‖ = 1 := by rw [norm_zpow, Complex.norm_I, one_zpow]
  have b1 := near_mul hr (t := Fl.pow1j rnd lm m) (j := cexp (Fl.phase rnd m ph)) (z := Complex.I ^ m) (w := Complex.exp (m * (φ * Complex.I))) (E := (((n : ℝ) + 4) * (8 * uu))) (A := 1)
    (a2.trans (mul_le_mul_of_nonneg_right (by linarith) (by positivity))) (by rw [nI]) a3 (one _ _) (by linarith) (by linarith) (by linarith)
    (by rw [show (1 : ℝ) = 2 ^ (0 : ℤ) by simp]; exact zpow_le_zpow_right₀ (by norm_num) (by norm_num))
  have b2 : ‖val (Fl.pow1j rnd lm m * cexp (Fl.phase rnd m ph)) - Complex.exp (m * (φ * Complex.I)) * Complex.I ^ m‖ ≤ 107 * ((n : ℝ) + 4) * uu := by
    refine b1.trans ?_
    linarith
  have eV : ‖∑ k ∈ range (2 * n + 1), ycoef n m ((k : ℤ) - n) * Complex.exp ((((k : ℤ) - n : ℤ) : ℂ) * (θ * Complex.I))‖ ≤ (2 * n + 1) * rowMax n := by
    refine (norm_sum_le _ _).trans ?_
    calc ∑ k ∈ range (2 * n + 1), ‖ycoef n m ((k : ℤ) - n) * Complex.exp ((((k : ℤ) - n : ℤ) : ℂ) * (θ * Complex.I))‖ ≤ ∑ _k ∈ range (2 * n + 1), rowMax n :=
          sum_le_sum fun k hk => by
            rw [norm_mul, one, mul_one]
            exact (yv_err hr hn h k (mem_range.mp hk)).2
      _ = _ := by rw [sum_const, card_range, nsmul_eq_mul]; push_cast; ring
  have Q1 : 1 / 4 ≤ (2 * (n : ℝ) + 1) * rowMax n := by nlinarith
  have Q2 : (2 * (n : ℝ) + 1) * rowMax n ≤ 1001 * 16 := mul_le_mul (by linarith) R2 (by linarith) (by norm_num)
  have c3 : 8 * ((n : ℝ) + 5) ^ 3 * uu ≤ 1 / 1000 := by
    calc 8 * ((n : ℝ) + 5) ^ 3 * uu ≤ 8 * 505 ^ 3 * (12 / 10 ^ 17) := mul_le_mul (by
          have := pow_le_pow_left₀ (by linarith : (0 : ℝ) ≤ (n : ℝ) + 5) (by linarith : (n : ℝ) + 5 ≤ 505) 3
          linarith) u1 u0.le (by positivity)
      _ ≤ _ := by norm_num
  have c4 : 107 * ((n : ℝ) + 4) * uu ≤ 1 / 1000 := by
    calc 107 * ((n : ℝ) + 4) * uu ≤ 107 * 504 * (12 / 10 ^ 17) := mul_le_mul (by linarith) u1 u0.le (by positivity)
      _ ≤ _ := by norm_num
  rw [fc_mul_comm, ← tp_value n m hm, sum_tab, show Complex.I * (m : ℂ) * (φ : ℂ) = m * (φ * Complex.I) by ring, mul_comm (Complex.I ^ m)]
  have Q3 : 0 ≤ ((2 * (n : ℝ) + 1) * rowMax n) * (1 / 100 - 8 * ((n : ℝ) + 5) ^ 3 * uu) := mul_nonneg (by linarith) (by linarith)
  have fin := near_mul hr a1 eV b2 (by rw [norm_mul, one, nI, one_mul]) (by linarith) c4 (by
      have := mul_le_mul_of_nonneg_left Q1 u0.le
      linarith) (Q2.trans (le_trans (by norm_num : (1001 : ℝ) * 16 ≤ 2 ^ (20 : ℤ)) (zpow_le_zpow_right₀ (by norm_num) (by norm_num))))
  refine fin.trans ?_
  have P0 : 0 ≤ (2 * (n : ℝ) + 1) * rowMax n * uu := by positivity
  have e1 : (2 * (n : ℝ) + 1) * rowMax n * (8 * ((n : ℝ) + 5) ^ 3) * uu + (2 * n + 1) * rowMax n * (1.01 * (107 * ((n : ℝ) + 4) * uu) + 5.1 * uu) =
      (2 * (n : ℝ) + 1) * rowMax n * uu * (8 * ((n : ℝ) + 5) ^ 3 + (1.01 * (107 * ((n : ℝ) + 4)) + 5.1)) := by ring
  rw [e1, show (2 * (n : ℝ) + 1) * ((n : ℝ) + 6) ^ 3 * (8 * uu) * rowMax n = (2 * (n : ℝ) + 1) * rowMax n * uu * (8 * ((n : ℝ) + 6) ^ 3) by ring]
  refine mul_le_mul_of_nonneg_left ?_ P0
  nlinarith [sq_nonneg (n : ℝ)]

/-- The loops. -/
theorem loop (lm : Fl.Libm) (cexp : FC rnd → FC rnd) (sum : List (FC rnd) → FC rnd) (nrows ncols n : ℕ) (m : ℤ) (h1 : 1 ≤ ncols) (h2 : ncols ≤ 50) {out : List ℝ}
    (eo : Fl.ynunm rnd n m ((n + 1 : ℕ) : ℤ) = .ok out) (hl : out.length = n + 1) :
    ∃ A, Fl.sphHarmonicTp rnd lm cexp sum nrows ncols n m = .ok A ∧ A.rows = nrows ∧ A.cols = ncols ∧ ∀ i j : ℕ, i < nrows → j < ncols →
      A.at' i j = Fl.pow1j rnd lm m * cexp (Fl.phase rnd m (rd (Fl.linspace rnd (Fl.phiMax rnd ncols) 50) j)) *
        sum (tab (2 * n + 1) fun k => (⟨yv rnd m n out k, 0⟩ : FC rnd) * cexp (Fl.phase rnd ((k : ℤ) - n) (rd (Fl.linspace rnd (rnd Real.pi) nrows) i))) := by
  unfold Fl.sphHarmonicTp
  rw [show ((n : ℤ) + 1) = ((n + 1 : ℕ) : ℤ) by push_cast; rfl, eo]
  simp only [Except.bind_ok]
  rw [if_neg (by omega), if_neg (by omega), yvec_tab n m out hl]
  unfold npZeros2
  rw [if_neg (by omega)]
  simp only [Except.bind_ok, Int.toNat_natCast]
  have hp : ∀ th : ℝ, bcast (fun (y : ℝ) (e : FC rnd) => (⟨y, 0⟩ : FC rnd) * e) (tab (2 * n + 1) (yv rnd m n out)) (List.map (fun (v : ℤ) => cexp (Fl.phase rnd v th)) (pyRange (-(n : ℤ)) (n + 1 : ℕ))) =
      .ok (tab (2 * n + 1) fun k => (⟨yv rnd m n out k, 0⟩ : FC rnd) * cexp (Fl.phase rnd ((k : ℤ) - n) th)) := by
    intro th
    unfold bcast
    rw [if_pos (by simp [pyRange]; omega)]
    congr 1
    refine List.ext_getElem (by simp [pyRange]; omega) fun i h1 h2 => ?_
    simp only [tab, pyRange, List.getElem_zipWith, List.getElem_map, List.getElem_range]
    congr 3
    ring
  have hlen1 : (Fl.linspace rnd (rnd Real.pi) nrows).length = nrows := by unfold Fl.linspace; rw [length_tab]
  have hlen2 : (Fl.linspace rnd (Fl.phiMax rnd ncols) 50).length = 50 := by unfold Fl.linspace; rw [length_tab]
  simp only [hp]
  generalize Fl.linspace rnd (rnd Real.pi) nrows = th at *
  generalize Fl.linspace rnd (Fl.phiMax rnd ncols) 50 = ph at *
  obtain ⟨A, eA, a1, a2, a3⟩ := forM'_range_inv (a := 0) (b := (nrows : ℤ)) (by omega) (Arr2.ofFn nrows ncols fun _ _ => (0 : FC rnd))
    (fun out' nn =>
      (getIdx th nn).bind fun th =>
      forM' (pyRange 0 (ncols : ℤ)) out' fun out' mm =>
        Except.bind (Except.ok (tab (2 * n + 1) fun k => (⟨yv rnd m n out k, 0⟩ : FC rnd) * cexp (Fl.phase rnd ((k : ℤ) - n) th)) : Res (List (FC rnd))) fun prod =>
        (getIdx ph mm).bind fun ph =>
        .ok (Arr2.ofFn out'.rows out'.cols fun i j =>
          if (i : ℤ) = nn ∧ (j : ℤ) = mm then Fl.pow1j rnd lm m * cexp (Fl.phase rnd m ph) * sum prod
          else out'.at' i j))
    (fun nn A => A.rows = nrows ∧ A.cols = ncols ∧ ∀ i j : ℕ, i < nrows → j < ncols → (i : ℤ) < nn →
      A.at' i j = Fl.pow1j rnd lm m * cexp (Fl.phase rnd m (rd ph j)) * sum (tab (2 * n + 1) fun k => (⟨yv rnd m n out k, 0⟩ : FC rnd) * cexp (Fl.phase rnd ((k : ℤ) - n) (rd th i))))
    ⟨rfl, rfl, fun i j _ _ h => by omega⟩ (by
      rintro nn A k0 k1 ⟨q1, q2, q3⟩
      rw [getIdx_rd k0 (by omega)]
      simp only [Except.bind_ok]
      obtain ⟨B, eB, b1, b2, b3, b4⟩ := forM'_range_inv (a := 0) (b := (ncols : ℤ)) (by omega) A
        (fun out' mm =>
          (getIdx ph mm).bind fun ph =>
          .ok (Arr2.ofFn out'.rows out'.cols fun i j =>
            if (i : ℤ) = nn ∧ (j : ℤ) = mm then Fl.pow1j rnd lm m * cexp (Fl.phase rnd m ph) *
              sum (tab (2 * n + 1) fun k => (⟨yv rnd m n out k, 0⟩ : FC rnd) * cexp (Fl.phase rnd ((k : ℤ) - n) (rd th nn.toNat)))
            else out'.at' i j))
        (fun mm A => A.rows = nrows ∧ A.cols = ncols ∧
          (∀ i j : ℕ, i < nrows → j < ncols → (i : ℤ) < nn →
            A.at' i j = Fl.pow1j rnd lm m * cexp (Fl.phase rnd m (rd ph j)) * sum (tab (2 * n + 1) fun k => (⟨yv rnd m n out k, 0⟩ : FC rnd) * cexp (Fl.phase rnd ((k : ℤ) - n) (rd th i)))) ∧
          ∀ i j : ℕ, i < nrows → j < ncols → (i : ℤ) = nn → (j : ℤ) < mm →
            A.at' i j = Fl.pow1j rnd lm m * cexp (Fl.phase rnd m (rd ph j)) * sum (tab (2 * n + 1) fun k => (⟨yv rnd m n out k, 0⟩ : FC rnd) * cexp (Fl.phase rnd ((k : ℤ) - n) (rd th i))))
        ⟨q1, q2, q3, fun i j _ _ _ h => by omega⟩ (by
          rintro mm A' c0 c1 ⟨r1, r2, r3, r4⟩
          rw [getIdx_rd c0 (by omega)]
          simp only [Except.bind_ok]
          refine ⟨_, rfl, r1, r2, fun i j hi hj hlt => ?_, fun i j hi hj hin hjm => ?_⟩
          · rw [Arr2.at'_ofFn (by omega) (by omega), if_neg (by omega), r3 i j hi hj hlt]
          · rw [Arr2.at'_ofFn (by omega) (by omega)]
            by_cases hjj : (j : ℤ) = mm
            · rw [if_pos ⟨hin, hjj⟩, ← hin, ← hjj, Int.toNat_natCast, Int.toNat_natCast]
            · rw [if_neg (by omega), r4 i j hi hj hin (by omega)])
      refine ⟨B, eB, b1, b2, fun i j hi hj hlt => ?_⟩
      by_cases hin : (i : ℤ) = nn
      · exact b4 i j hi hj hin (by omega)
      · exact b3 i j hi hj (by omega))
  exact ⟨A, eA, a1, a2, fun i j hi hj => a3 i j hi hj (by omega)⟩

end TP

open TP FS in
/-- **C129.** In doubles, `sph_harmonic_tp(nrows, ncols, n, m)` returns, for `|m| ≤ n ≤ 500` and up to 50 columns (more raise IndexError, C40), an array every entry of which differs from the
spherical harmonic of the same grid point by at most `(2n+1) (n+6)^3 2^-50 sqrt((2n+1)/(4π))`; the grid is the one of `c40_actual`. -/
theorem c129_tp (hrd : NoOverflow rnd) (lm : Fl.Libm) (hl : LibmOK lm) (cexp : FC rnd → FC rnd) (he : CexpOK cexp) (sum : List (FC rnd) → FC rnd) (hs : SumOK sum)
    (nrows ncols n : ℕ) (m : ℤ) (hm : |m| ≤ n) (hn : n ≤ 500) (hr : nrows ≤ 2 ^ 50) (h1 : 1 ≤ ncols) (h2 : ncols ≤ 50) :
    ∃ A, Fl.sphHarmonicTp rnd lm cexp sum nrows ncols n m = .ok A ∧ A.rows = nrows ∧ A.cols = ncols ∧ ∀ i j : ℕ, i < nrows → j < ncols →
      ‖FS.val (A.at' i j) - sphY n m (tpTheta nrows i) (j * ((2 * Real.pi - 2 * Real.pi / ncols) / 49))‖ ≤
        (2 * n + 1) * ((n : ℝ) + 6) ^ 3 * 2 ^ (-50 : ℤ) * Real.sqrt ((2 * n + 1) / (4 * Real.pi)) := by
  have hr' := hrd.toIsRounding
  have hm' : m.natAbs ≤ n := by rw [Int.abs_eq_natAbs] at hm; omega
  obtain ⟨out, y, eo, -, lo, hy⟩ := FA.tab_err hr' (n := n) (L := n + 1) (m := m) (by omega) (by omega) hm'
  obtain ⟨A, eA, a1, a2, a3⟩ := loop lm cexp sum nrows ncols n m h1 h2 eo lo
  refine ⟨A, eA, a1, a2, fun i j hi hj => ?_⟩
  rw [a3 i j hi hj]
  have p0 := Real.pi_pos
  have p1 := Real.pi_lt_d2
  have u0 := uu_pos
  have hc : (1 : ℝ) ≤ ncols := by exact_mod_cast h1
  have hdiv : 0 ≤ 2 * Real.pi / ncols ∧ 2 * Real.pi / ncols ≤ 2 * Real.pi := ⟨by positivity, by rw [div_le_iff₀ (by linarith)]; nlinarith⟩
  have t := lin_err hr' (b := rnd Real.pi) (β := Real.pi) hr hi (by have := pi_err hr'; linarith) p0.le (by linarith)
  have f := lin_err hr' (b := Fl.phiMax rnd ncols) (β := 2 * Real.pi - 2 * Real.pi / ncols) (num := 50) (i := j) (by norm_num) (by omega) (phi_err hr' h1 h2) (by linarith) (by linarith)
  rw [if_neg (by norm_num)] at f
  have ef : (j : ℝ) * ((2 * Real.pi - 2 * Real.pi / ncols) / (((50 : ℕ) : ℝ) - 1)) = j * ((2 * Real.pi - 2 * Real.pi / ncols) / 49) := by norm_num
  rw [ef] at f
  have et : (if nrows = 1 then 0 else (i : ℝ) * (Real.pi / ((nrows : ℝ) - 1))) = tpTheta nrows i := by
    unfold tpTheta
    split
    · rfl
    · ring
  rw [et] at t
  refine sample_err hrd lm hl he hs hn hm' hy t ?_ f ?_
  · unfold tpTheta
    split
    · norm_num
    · rename_i hne
      have hN : (1 : ℝ) ≤ (nrows : ℝ) - 1 := by
        have : (2 : ℝ) ≤ nrows := by exact_mod_cast (show 2 ≤ nrows by omega)
        linarith
      have hiN : (i : ℝ) ≤ (nrows : ℝ) - 1 := by
        have : ((i : ℝ) + 1) ≤ nrows := by exact_mod_cast (show i + 1 ≤ nrows by omega)
        linarith
      rw [abs_of_nonneg (by positivity), div_le_iff₀ (by linarith)]
      have : Real.pi * i ≤ 7 * ((nrows : ℝ) - 1) := mul_le_mul (by linarith) hiN (by positivity) (by norm_num)
      linarith
  · have hj' : (j : ℝ) ≤ 49 := by exact_mod_cast (show j ≤ 49 by omega)
    have j0 : (0 : ℝ) ≤ j := by positivity
    rw [abs_of_nonneg (mul_nonneg j0 (by linarith))]
    have : (j : ℝ) * ((2 * Real.pi - 2 * Real.pi / ncols) / 49) ≤ 49 * (7 / 49) := mul_le_mul hj' (by linarith) (by linarith) (by norm_num)
    linarith

/-- **C129 (documented grid).** With 50 columns the grid is the documented one. -/
theorem c129_documented (hrd : NoOverflow rnd) (lm : Fl.Libm) (hl : LibmOK lm) (cexp : FC rnd → FC rnd) (he : CexpOK cexp) (sum : List (FC rnd) → FC rnd) (hs : SumOK sum)
    (nrows n : ℕ) (m : ℤ) (hm : |m| ≤ n) (hn : n ≤ 500) (hr : nrows ≤ 2 ^ 50) (hr2 : 2 ≤ nrows) :
    ∃ A, Fl.sphHarmonicTp rnd lm cexp sum nrows 50 n m = .ok A ∧ A.rows = nrows ∧ A.cols = 50 ∧ ∀ i j : ℕ, i < nrows → j < 50 →
      ‖FS.val (A.at' i j) - sphY n m (Real.pi * i / ((nrows : ℝ) - 1)) (2 * Real.pi * j / 50)‖ ≤
        (2 * n + 1) * ((n : ℝ) + 6) ^ 3 * 2 ^ (-50 : ℤ) * Real.sqrt ((2 * n + 1) / (4 * Real.pi)) := by
  obtain ⟨A, e, a1, a2, a3⟩ := c129_tp hrd lm hl cexp he sum hs nrows 50 n m hm hn hr (by norm_num) (by norm_num)
  refine ⟨A, e, a1, a2, fun i j hi hj => ?_⟩
  have := a3 i j hi hj
  unfold tpTheta at this
  rw [if_neg (by omega)] at this
  rwa [show (j : ℝ) * ((2 * Real.pi - 2 * Real.pi / ((50 : ℕ) : ℝ)) / 49) = 2 * Real.pi * j / 50 by push_cast; ring] at this

/-- The assumptions can be met. -/
theorem c129_example : ∃ (rnd : ℝ → ℝ) (lm : Fl.Libm) (cexp : FC rnd → FC rnd) (sum : List (FC rnd) → FC rnd), NoOverflow rnd ∧ LibmOK lm ∧ CexpOK cexp ∧ SumOK sum ∧
    ∃ A, Fl.sphHarmonicTp rnd lm cexp sum 7 50 3 (-2) = .ok A ∧ A.rows = 7 ∧ A.cols = 50 := by
  obtain ⟨rnd, lm, hrd, hl, -⟩ := c105_example
  have hr := hrd.toIsRounding
  have he : CexpOK (rnd := rnd) (fun z => ⟨Real.cos z.im, Real.sin z.im⟩) := by
    intro x _
    have e : (⟨Real.cos x, Real.sin x⟩ : ℂ) = Complex.exp (x * Complex.I) := by
      apply Complex.ext
      · rw [Complex.exp_ofReal_mul_I_re]
      · rw [Complex.exp_ofReal_mul_I_im]
    rw [e, sub_self, norm_zero]
    positivity
  obtain ⟨A, e, a1, a2, -⟩ := c129_tp hrd lm hl _ he _ (FA.goodLib_sum (rnd := rnd)) 7 50 3 (-2) (by norm_num) (by norm_num) (by norm_num) (by norm_num) (by norm_num)
  exact ⟨rnd, lm, _, _, hrd, hl, he, FA.goodLib_sum, A, e, a1, a2⟩

end Verif.Props
