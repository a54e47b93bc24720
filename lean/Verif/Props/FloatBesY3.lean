import Verif.Props.FloatBesY2
import Verif.Props.FloatBes13
/-!
# C103: a condition on the arguments, and the Hankel functions
-/
namespace Verif.Props
open Verif
variable {rnd : ℝ → ℝ}

namespace FB

theorem modF_le (n k : ℕ) : modF n k ≤ ((n : ℝ) * (n + 1)) ^ k := by
  induction k with
  | zero => simp [modF]
  | succ k ih =>
    by_cases h : n < k
    · rw [modF_nat n (k + 1) (by omega)]; positivity
    · have hk : (k : ℝ) ≤ n := by exact_mod_cast (not_lt.1 h)
      have k0 : (0 : ℝ) ≤ k := Nat.cast_nonneg k
      rw [modF, pow_succ]
      have h2 : ((n : ℝ) - k) * (n + 1 + k) ≤ n * (n + 1) := by nlinarith
      exact mul_le_mul ih h2 (mul_nonneg (by linarith) (by linarith)) (by positivity)

theorem modC_le (k : ℕ) : modC k ≤ 1 := by
  induction k with
  | zero => simp [modC]
  | succ k ih =>
    rw [modC]
    have : (2 * (k : ℝ) + 1) / (2 * k + 2) ≤ 1 := by rw [div_le_one (by positivity)]; linarith
    exact (mul_le_mul ih this (by positivity) (by norm_num)).trans (by norm_num)

/-- A bound of the modulus. -/
theorem sphM_bound {x : ℝ} (hx : x ≠ 0) (n : ℕ) {g : ℝ} (g1 : 1 ≤ g) (hg : n * (n + 1) ≤ g * x ^ 2) : x ^ 2 * (sphJ n x ^ 2 + sphN n x ^ 2) ≤ (n + 2) * g ^ n := by
  obtain ⟨a, _, _⟩ := modulus_eq hx n (n + 1) (le_refl _)
  have x2 : 0 < x ^ 2 := by positivity
  rw [a]
  unfold modM
  calc _ ≤ ∑ k ∈ Finset.range (n + 1 + 1), g ^ n := by
        refine Finset.sum_le_sum fun k hk => ?_
        have hk : k ≤ n + 1 := by have := Finset.mem_range.1 hk; omega
        rcases hk.eq_or_lt with h | h
        · rw [modF_nat n k (by omega)]
          simp only [mul_zero, zero_mul]
          positivity
        · have e : modF n k * (1 / x) ^ (2 * k) ≤ g ^ k := by
            rw [pow_mul, one_div, inv_pow, inv_pow, ← div_eq_mul_inv, div_le_iff₀ (by positivity), ← mul_pow]
            exact (modF_le n k).trans (pow_le_pow_left₀ (by positivity) hg k)
          have e0 : 0 ≤ modF n k * (1 / x) ^ (2 * k) := mul_nonneg (modF_nonneg n k) (by rw [pow_mul]; positivity)
          rw [mul_assoc]
          calc _ ≤ 1 * g ^ k := mul_le_mul (modC_le k) e e0 (by norm_num)
            _ ≤ g ^ n := by rw [one_mul]; exact pow_le_pow_right₀ g1 (by omega)
    _ = _ := by rw [Finset.sum_const, Finset.card_range, nsmul_eq_mul]; push_cast; ring

end FB

/-- **C103** with a condition on the arguments: up to order `|x|` nothing overflows. -/
theorem c103_oscillating (hr : IsRounding rnd) {lib : Fl.BesLib} {x : ℝ} {N : ℕ} (hl : BesLibOk lib x) (hx2 : |x| ≤ 2 ^ (900 : ℤ)) (h2 : 2 ≤ N) (hN : N ≤ 2 ^ 20) (hxN : N ≤ |x|) :
    ∃ out, Fl.sbessely rnd lib x N = .ok out ∧ out.length = N ∧
      ∀ n, n < N → |rd out n - sphN n x| ≤ (4 * n ^ 2 + 24 * n + 12) * 2 ^ (-53 : ℤ) * (√(n + 2) / |x|) := by
  have N2 : (2 : ℝ) ≤ N := by exact_mod_cast h2
  have xp : 0 < |x| := by linarith
  have hx : x ≠ 0 := abs_pos.1 xp
  have bound : ∀ n, n < N → √(sphJ n x ^ 2 + sphN n x ^ 2) ≤ √(n + 2) / |x| := by
    intro n hn
    have hnr : (n : ℝ) + 1 ≤ N := by exact_mod_cast hn
    have b := FB.sphM_bound hx n (g := 1) (le_refl _) (by
      rw [one_mul, ← sq_abs, sq]
      exact mul_le_mul (by linarith) (by linarith) (by positivity) xp.le)
    rw [one_pow, mul_one] at b
    rw [le_div_iff₀ xp]
    refine Real.le_sqrt_of_sq_le ?_
    rw [mul_pow, Real.sq_sqrt (by positivity), sq_abs]
    linarith
  obtain ⟨out, e, len, h⟩ := c103_sbessely hr hl hx hx2 h2 hN (by
    refine (bound (N - 1) (by omega)).trans ?_
    have : √(((N - 1 : ℕ) : ℝ) + 2) ≤ |x| * 2 := by
      rw [Real.sqrt_le_left (by positivity), Nat.cast_sub (by omega), Nat.cast_one]
      nlinarith
    rw [div_le_iff₀ xp]
    refine this.trans ?_
    have : (2 : ℝ) ≤ 2 ^ (1000 : ℤ) := by
      calc (2 : ℝ) = 2 ^ (1 : ℤ) := by norm_num
        _ ≤ _ := zpow_le_zpow_right₀ (by norm_num) (by norm_num)
    rw [mul_comm]
    exact mul_le_mul_of_nonneg_right this xp.le)
  exact ⟨out, e, len, fun n hn => (h n hn).trans (mul_le_mul_of_nonneg_left (bound n hn) (by positivity))⟩

/-- A non-trivial case: `x = 100`, `N = 50`. -/
example (hr : IsRounding rnd) : ∃ out, Fl.sbessely rnd ⟨Real.cos, Real.sin, fun t => t ^ 2⟩ 100 (50 : ℕ) = .ok out ∧ out.length = 50 :=
  let ⟨out, a, b, _⟩ := c103_oscillating hr (x := 100) (N := 50) (besLib_exact 100) (by
    rw [abs_of_pos (by norm_num)]
    calc (100 : ℝ) ≤ 2 ^ (7 : ℤ) := by norm_num
      _ ≤ _ := zpow_le_zpow_right₀ (by norm_num) (by norm_num)) (by norm_num) (by norm_num) (by rw [abs_of_pos (by norm_num)]; norm_num)
  ⟨out, a, b⟩

/-- A case beyond the turning point: `x = 1/2`, `N = 20`. -/
example (hr : IsRounding rnd) : ∃ out, Fl.sbessely rnd ⟨Real.cos, Real.sin, fun t => t ^ 2⟩ (1 / 2) (20 : ℕ) = .ok out ∧ out.length = 20 := by
  obtain ⟨out, a, b, _⟩ := c103_sbessely hr (x := 1 / 2) (N := 20) (besLib_exact _) (by norm_num) (by
    rw [abs_of_pos (by norm_num)]
    calc (1 / 2 : ℝ) ≤ 2 ^ (0 : ℤ) := by norm_num
      _ ≤ _ := zpow_le_zpow_right₀ (by norm_num) (by norm_num)) (by norm_num) (by norm_num) (by
    have b := FB.sphM_bound (x := 1 / 2) (by norm_num) (20 - 1) (g := 2 ^ 11) (by norm_num) (by norm_num)
    rw [Real.sqrt_le_left (by positivity)]
    have h : ((2 : ℝ) ^ (250 : ℤ)) ^ 2 ≤ (2 ^ (1000 : ℤ)) ^ 2 := pow_le_pow_left₀ (by positivity) (zpow_le_zpow_right₀ (by norm_num) (by norm_num)) 2
    refine le_trans ?_ h
    norm_num at b ⊢
    linarith)
  exact ⟨out, a, b⟩

/-- **C103** (Hankel functions): the real parts are the values of `sbesselj`, the imaginary parts `± y_n` within the bound. -/
theorem c103_hankel (hr : IsRounding rnd) {lib : Fl.BesLib} {x : ℝ} {N : ℕ} (hl : BesLibOk lib x) (hx : x ≠ 0) (hx2 : |x| ≤ 2 ^ (900 : ℤ)) (h2 : 2 ≤ N) (hN : N ≤ 2 ^ 20)
    (hM : √(sphJ (N - 1) x ^ 2 + sphN (N - 1) x ^ 2) ≤ 2 ^ (1000 : ℤ)) {j : List ℝ} (hj : Fl.sbesselj rnd lib x N = .ok j) (jl : j.length = N) :
    ∃ y h1 h2, Fl.sbessely rnd lib x N = .ok y ∧ Fl.sbesselh1 rnd lib x N = .ok h1 ∧ Fl.sbesselh2 rnd lib x N = .ok h2 ∧ h1.length = N ∧ h2.length = N ∧
      ∀ n, n < N → rd h1 n = (rd j n, rd y n) ∧ rd h2 n = (rd j n, -rd y n) ∧
        |(rd h1 n).2 - sphN n x| ≤ (4 * n ^ 2 + 24 * n + 12) * 2 ^ (-53 : ℤ) * √(sphJ n x ^ 2 + sphN n x ^ 2) := by
  obtain ⟨y, e, len, h⟩ := c103_sbessely hr hl hx hx2 h2 hN hM
  have hlen : j.length = y.length := by omega
  unfold Fl.sbesselh1 Fl.sbesselh2
  rw [hj, e]
  simp only [Except.bind_ok]
  unfold bcast
  rw [if_pos hlen, if_pos hlen]
  refine ⟨y, _, _, rfl, rfl, rfl, by simp; omega, by simp; omega, fun n hn => ?_⟩
  have g1 : n < j.length := by omega
  have g2 : n < y.length := by omega
  have r1 : rd (List.zipWith (fun a b : ℝ => (a, b)) j y) n = (rd j n, rd y n) := by
    simp only [rd, List.getD_eq_getElem?_getD, List.getElem?_zipWith, List.getElem?_eq_getElem g1, List.getElem?_eq_getElem g2]
    rfl
  refine ⟨r1, ?_, by rw [r1]; exact h n hn⟩
  simp only [rd, List.getD_eq_getElem?_getD, List.getElem?_zipWith, List.getElem?_eq_getElem g1, List.getElem?_eq_getElem g2]
  rfl

end Verif.Props
