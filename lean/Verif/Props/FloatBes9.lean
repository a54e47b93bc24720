import Verif.Props.FloatBes8
/-!
# `sbesselj` in doubles: the products of the ratios
-/
namespace Verif.Props
open Verif
variable {rnd : ℝ → ℝ}

namespace FB

theorem one_add_pow_le {a : ℝ} (a0 : 0 ≤ a) (k : ℕ) (hk : k * a ≤ 1 / 1000) : (1 + a) ^ k ≤ 1 + 101 / 100 * (k * a) := by
  induction k with
  | zero => simp
  | succ k ih =>
    push_cast at hk
    have k0 : 0 ≤ (k : ℝ) * a := by positivity
    have h := ih (by linarith)
    rw [pow_succ]
    push_cast
    calc (1 + a) ^ k * (1 + a) ≤ (1 + 101 / 100 * (k * a)) * (1 + a) := mul_le_mul_of_nonneg_right h (by linarith)
      _ ≤ _ := by nlinarith

theorem sphJ_sgn (n : ℕ) {x : ℝ} (hx : x ≠ 0) : sphJ n x = ((SignType.sign x : SignType) : ℝ) ^ n * sphJ n (|x|) := by
  rcases lt_or_gt_of_ne hx with h | h
  · rw [sign_neg h, abs_of_neg h, sphJ_neg]
    push_cast
    rw [← mul_assoc, ← mul_pow]
    norm_num
  · rw [sign_pos h, abs_of_pos h]; simp

/-- One product beyond the turning point. -/
theorem fwdA_step (hr : IsRounding rnd) {σ ρ r o J Jn η α f g s : ℝ} (sg : |σ| = 1) (ρ0 : 0 < ρ) (ρ1 : ρ ≤ 1) (η0 : 0 ≤ η) (η1 : η ≤ 1)
    (hα : (1 + η) * (1 + uu) ≤ 1 + α) (hr1 : |r - σ * ρ| ≤ η * ρ) (f0 : 0 ≤ f) (f1 : f ≤ 1) (g0 : 0 ≤ g) (g1 : g ≤ 1) (hJ : |J| ≤ 1) (hs : |s| = 1) (hJn : Jn = ρ * J)
    (ho : |o - s * J| ≤ f * |J| + g) :
    |rnd (r * o) - σ * s * Jn| ≤ ((1 + α) * (1 + f) - 1) * |Jn| + ((1 + α) * g + tiny / 2) := by
  have u0 := uu_pos
  have J0 := abs_nonneg J
  have ra : |r| ≤ (1 + η) * ρ := by
    have := abs_sub_abs_le_abs_sub r (σ * ρ)
    rw [abs_mul, sg, one_mul, abs_of_pos ρ0] at this
    linarith
  have oa : |o| ≤ (1 + f) * |J| + g := by
    have := abs_sub_abs_le_abs_sub o (s * J)
    rw [abs_mul, hs, one_mul] at this
    linarith
  have aJn : |Jn| = ρ * |J| := by rw [hJn, abs_mul, abs_of_pos ρ0]
  have pro : |r * o| ≤ (1 + η) * ρ * ((1 + f) * |J| + g) := by
    rw [abs_mul]
    exact mul_le_mul ra oa (abs_nonneg _) (by positivity)
  have pb : |r * o| ≤ 6 := by
    refine pro.trans ?_
    have h1 : (1 + η) * ρ ≤ 2 * 1 := mul_le_mul (by linarith) ρ1 ρ0.le (by norm_num)
    have h2 : (1 + f) * |J| ≤ 2 * 1 := mul_le_mul (by linarith) hJ J0 (by norm_num)
    calc (1 + η) * ρ * ((1 + f) * |J| + g) ≤ 2 * 1 * 3 := mul_le_mul h1 (by linarith) (by positivity) (by norm_num)
      _ = 6 := by norm_num
  have rn := rnd_any hr (y := r * o) (pb.trans (by norm_num))
  have ex : |r * o - σ * s * Jn| ≤ (1 + η) * ρ * (f * |J| + g) + η * ρ * |J| := by
    rw [hJn, show r * o - σ * s * (ρ * J) = r * (o - s * J) + (r - σ * ρ) * (s * J) by ring]
    refine (abs_add_le _ _).trans ?_
    rw [abs_mul, abs_mul (r - σ * ρ), abs_mul s, hs, one_mul]
    exact add_le_add (mul_le_mul ra ho (abs_nonneg _) (by positivity)) (mul_le_mul_of_nonneg_right hr1 J0)
  have tri : |rnd (r * o) - σ * s * Jn| ≤ |rnd (r * o) - r * o| + |r * o - σ * s * Jn| := by
    rw [show rnd (r * o) - σ * s * Jn = (rnd (r * o) - r * o) + (r * o - σ * s * Jn) by ring]; exact abs_add_le _ _
  have up : uu * |r * o| ≤ uu * ((1 + η) * ρ * ((1 + f) * |J| + g)) := mul_le_mul_of_nonneg_left pro u0.le
  have tot : |rnd (r * o) - σ * s * Jn| ≤ ((1 + η) * (1 + uu) * (1 + f) - 1) * (ρ * |J|) + ((1 + η) * (1 + uu) * (ρ * g) + tiny / 2) := by
    have e : uu * ((1 + η) * ρ * ((1 + f) * |J| + g)) + ((1 + η) * ρ * (f * |J| + g) + η * ρ * |J|) =
      ((1 + η) * (1 + uu) * (1 + f) - 1) * (ρ * |J|) + (1 + η) * (1 + uu) * (ρ * g) := by ring
    linarith
  rw [aJn]
  have h1 : ((1 + η) * (1 + uu) * (1 + f) - 1) * (ρ * |J|) ≤ ((1 + α) * (1 + f) - 1) * (ρ * |J|) := by
    refine mul_le_mul_of_nonneg_right ?_ (by positivity)
    have := mul_le_mul_of_nonneg_right hα (show 0 ≤ 1 + f by linarith)
    linarith
  have h2 : (1 + η) * (1 + uu) * (ρ * g) ≤ (1 + α) * g := by
    have : ρ * g ≤ g := by nlinarith
    exact mul_le_mul hα this (by positivity) (by nlinarith)
  linarith

set_option maxHeartbeats 1000000 in
/-- All products from row `n0` on. -/
theorem fwdA (hr : IsRounding rnd) {x F G : ℝ} {r o : ℕ → ℝ} {M n0 : ℕ} (hx : x ≠ 0) (hM2 : M ≤ 2 ^ 16) (hn0 : |x| ≤ (n0 : ℝ) + 3 / 2)
    (hρ : ∀ n, n0 < n → n ≤ M → |r n - SignType.sign x * sbRho |x| n| ≤ 57 * (M + 64) * uu * sbRho |x| n)
    (ho : ∀ n, n0 ≤ n → n < M → o (n + 1) = rnd (r (n + 1) * o n)) (F0 : 0 ≤ F) (F1 : F ≤ 1 / 100) (G0 : 0 ≤ G) (G1 : G ≤ 1 / 100)
    (h0 : |o n0 - sphJ n0 x| ≤ F * |sphJ n0 x| + G) :
    ∀ k, n0 + k ≤ M → |o (n0 + k) - sphJ (n0 + k) x| ≤ (F + 60 * (M + 64) * uu * k) * |sphJ (n0 + k) x| + (101 / 100 * G + k * tiny) := by
  have u0 := uu_pos
  have u1 := uu_lt
  have tp := tiny_pos
  have ts := tiny_small
  have xp : 0 < |x| := abs_pos.2 hx
  have M2 : (M : ℝ) ≤ 2 ^ 16 := by exact_mod_cast hM2
  have M0 : (0 : ℝ) ≤ M := Nat.cast_nonneg M
  have Mu : (M + 64 : ℝ) * uu ≤ 79 / 10 ^ 13 := by
    calc (M + 64 : ℝ) * uu ≤ (2 ^ 16 + 64) * (12 / 10 ^ 17) := mul_le_mul (by linarith) u1 u0.le (by norm_num)
      _ ≤ 79 / 10 ^ 13 := by norm_num
  have Mu0 : 0 ≤ (M + 64 : ℝ) * uu := by positivity
  set α := 58 * ((M + 64 : ℝ) * uu) with hα
  have α0 : 0 ≤ α := by positivity
  have αk : ∀ k : ℕ, k ≤ M → (k : ℝ) * α ≤ 1 / 1000 := by
    intro k hk
    have : (k : ℝ) ≤ 2 ^ 16 := by exact_mod_cast hk.trans hM2
    have a1 : α ≤ 58 * (79 / 10 ^ 13) := by rw [hα]; linarith
    calc (k : ℝ) * α ≤ 2 ^ 16 * (58 * (79 / 10 ^ 13)) := mul_le_mul this a1 α0 (by norm_num)
      _ ≤ 1 / 1000 := by norm_num
  have t1 : tiny ≤ 1 / 10 ^ 10 := by
    have : uu / 10 ^ 10 ≤ 1 / 10 ^ 10 := div_le_div_of_nonneg_right (u1.trans (by norm_num)) (by norm_num)
    linarith
  have kt : ∀ k : ℕ, k ≤ M → (k : ℝ) * (tiny / 2) ≤ 1 / 100 := by
    intro k hk
    have : (k : ℝ) ≤ 2 ^ 16 := by exact_mod_cast hk.trans hM2
    calc (k : ℝ) * (tiny / 2) ≤ 2 ^ 16 * (1 / 10 ^ 10) := mul_le_mul this (by linarith) (by linarith) (by norm_num)
      _ ≤ 1 / 100 := by norm_num
  have sg := sgn_abs hx
  have hJ : ∀ n, sphJ n x = ((SignType.sign x : SignType) : ℝ) ^ n * sphJ n (|x|) := fun n => sphJ_sgn n hx
  have aJ : ∀ n, |sphJ n x| = |sphJ n (|x|)| := fun n => by rw [hJ, abs_mul, abs_pow, sg, one_pow, one_mul]
  generalize ((SignType.sign x : SignType) : ℝ) = σ at *
  have key : ∀ k : ℕ, n0 + k ≤ M → |o (n0 + k) - σ ^ (n0 + k) * sphJ (n0 + k) (|x|)| ≤ ((1 + α) ^ k * (1 + F) - 1) * |sphJ (n0 + k) (|x|)| + (1 + α) ^ k * (G + k * (tiny / 2)) := by
    intro k
    induction k with
    | zero =>
      intro _
      rw [Nat.add_zero, pow_zero, Nat.cast_zero, zero_mul, add_zero, one_mul, one_mul, ← hJ, add_sub_cancel_left, ← aJ]
      exact h0
    | succ k ih =>
      intro hk
      have h := ih (by omega)
      have ck : (k : ℝ) * α ≤ 1 / 1000 := αk k (by omega)
      have c2 := one_add_pow_le α0 k ck
      have ckt := kt k (by omega)
      have pk : 1 ≤ (1 + α) ^ k := one_le_pow₀ (by linarith)
      have pk2 : (1 + α) ^ k ≤ 101 / 100 := by linarith
      have hc : |x| ≤ ((n0 + k + 1 : ℕ) : ℝ) + 1 / 2 := by
        push_cast
        linarith [(Nat.cast_nonneg k : (0 : ℝ) ≤ k)]
      have ρp := (sbRho_pos xp (n := n0 + k + 1) (by omega) hc).2
      have ρ1 := sbRho_le_one xp (n := n0 + k + 1) (by omega) hc
      have ρm := sbRho_mul xp (n := n0 + k + 1) (by omega) hc
      rw [Nat.add_sub_cancel] at ρm
      have st := fwdA_step hr (σ := σ) (s := σ ^ (n0 + k)) (η := 57 * (M + 64) * uu) (α := α) (o := o (n0 + k)) (f := (1 + α) ^ k * (1 + F) - 1) (g := (1 + α) ^ k * (G + k * (tiny / 2)))
        sg ρp ρ1 (by positivity) (by linarith) (by
          rw [hα]
          have : 57 * ((M + 64 : ℝ) * uu) * uu ≤ 1 * uu := mul_le_mul_of_nonneg_right (by linarith) u0.le
          have h2 : 64 * uu ≤ (M + 64 : ℝ) * uu := mul_le_mul_of_nonneg_right (by linarith) u0.le
          linarith) (hρ _ (by omega) (by omega)) (by nlinarith) (by nlinarith) (by positivity) (by nlinarith [mul_nonneg (Nat.cast_nonneg k : (0 : ℝ) ≤ k) tp.le]) (sphJ_le_one xp _)
        (by rw [abs_pow, sg, one_pow]) ρm h
      rw [← add_assoc, ho (n0 + k) (by omega) (by omega)]
      rw [show σ * σ ^ (n0 + k) = σ ^ (n0 + k + 1) by rw [pow_succ]; ring] at st
      refine st.trans ?_
      have e1 : (1 + α) * (1 + ((1 + α) ^ k * (1 + F) - 1)) - 1 = (1 + α) ^ (k + 1) * (1 + F) - 1 := by rw [pow_succ]; ring
      have p1 : 1 ≤ (1 + α) ^ (k + 1) := one_le_pow₀ (by linarith)
      have e2 : (1 + α) * ((1 + α) ^ k * (G + k * (tiny / 2))) + tiny / 2 ≤ (1 + α) ^ (k + 1) * (G + ((k + 1 : ℕ) : ℝ) * (tiny / 2)) := by
        push_cast
        rw [show (1 + α) * ((1 + α) ^ k * (G + k * (tiny / 2))) = (1 + α) ^ (k + 1) * (G + k * (tiny / 2)) by rw [pow_succ]; ring]
        nlinarith
      rw [e1]
      linarith
  intro k hk
  have h := key k hk
  rw [← hJ, ← aJ] at h
  refine h.trans ?_
  have ck : (k : ℝ) * α ≤ 1 / 1000 := αk k (by omega)
  have c2 := one_add_pow_le α0 k ck
  have kα0 : 0 ≤ (k : ℝ) * α := by positivity
  have e1 : (1 + α) ^ k * (1 + F) - 1 ≤ F + 60 * (M + 64) * uu * k := by
    have h2 : (1 + α) ^ k * (1 + F) ≤ (1 + 101 / 100 * (k * α)) * (1 + F) := mul_le_mul_of_nonneg_right c2 (by linarith)
    have h3 : (1 + 101 / 100 * (k * α)) * (1 + F) ≤ 1 + F + 10201 / 10000 * (k * α) := by nlinarith
    have h4 : 10201 / 10000 * (k * α) ≤ 60 * (M + 64) * uu * k := by
      rw [hα]
      have : 0 ≤ (k : ℝ) * ((M + 64 : ℝ) * uu) := by positivity
      linarith
    linarith
  have e2 : (1 + α) ^ k * (G + k * (tiny / 2)) ≤ 101 / 100 * G + k * tiny := by
    have h2 : (1 + α) ^ k ≤ 101 / 100 := by linarith
    have kt0 : 0 ≤ (k : ℝ) * tiny := by positivity
    have : (1 + α) ^ k * (G + k * (tiny / 2)) ≤ 101 / 100 * (G + k * (tiny / 2)) := mul_le_mul_of_nonneg_right h2 (by positivity)
    linarith
  exact add_le_add (mul_le_mul_of_nonneg_right e1 (abs_nonneg _)) e2

/-- Products below the turning point: relative to the sequence of the computed ratios. -/
theorem fwdB (hr : IsRounding rnd) {σ c : ℝ} {r o P : ℕ → ℝ} {n1 b : ℕ} (sg2 : σ * σ = 1) (hn1 : n1 ≤ 2 ^ 17) (c0 : 1 / 2 ≤ |c|) (c1 : |c| ≤ 2)
    (hP : ∀ n, P (n + 1) = σ * r (n + 1) * P n) (Plo : ∀ n, n < n1 → 1 / 10 ^ 33 ≤ |P n|) (Phi : ∀ n, n < n1 → |P n| ≤ 2)
    (ho : ∀ n, b ≤ n → n + 1 < n1 → o (n + 1) = rnd (r (n + 1) * o n)) (hb : o b = c * (σ ^ b * P b)) :
    ∀ k, b + k < n1 → |o (b + k) - c * (σ ^ (b + k) * P (b + k))| ≤ 101 / 100 * k * uu * |c * (σ ^ (b + k) * P (b + k))| := by
  have sg : |σ| = 1 := by
    have : |σ| * |σ| = 1 := by rw [← abs_mul, sg2, abs_one]
    nlinarith [abs_nonneg σ]
  intro k
  induction k with
  | zero => intro _; rw [Nat.add_zero, ← hb]; simp
  | succ k ih =>
    intro hk
    have h := ih (by omega)
    rw [← add_assoc, ho (b + k) (by omega) (by omega)]
    have e : c * (σ ^ (b + k + 1) * P (b + k + 1)) = r (b + k + 1) * (c * (σ ^ (b + k) * P (b + k))) := by
      rw [hP, pow_succ]
      linear_combination (r (b + k + 1) * c * σ ^ (b + k) * P (b + k)) * sg2
    have ab : |c * (σ ^ (b + k + 1) * P (b + k + 1))| = |c| * |P (b + k + 1)| := by rw [abs_mul, abs_mul, abs_pow, sg, one_pow, one_mul]
    have kr : (k : ℝ) ≤ 2 ^ 17 := by exact_mod_cast (show k ≤ 2 ^ 17 by omega)
    have := rel_rnd' hr (y := r (b + k + 1) * o (b + k)) (Y := c * (σ ^ (b + k + 1) * P (b + k + 1))) (e := 101 / 100 * k) (by
      rw [e, ← mul_sub, abs_mul, abs_mul (r (b + k + 1))]
      calc _ ≤ |r (b + k + 1)| * (101 / 100 * k * uu * |c * (σ ^ (b + k) * P (b + k))|) := mul_le_mul_of_nonneg_left h (abs_nonneg _)
        _ = _ := by ring) (by positivity) (by linarith) (by
      rw [ab]
      calc (1 : ℝ) / 10 ^ 70 ≤ 1 / 2 * (1 / 10 ^ 33) := by norm_num
        _ ≤ _ := mul_le_mul c0 (Plo _ (by omega)) (by norm_num) (abs_nonneg _)) (by
      rw [ab]
      calc |c| * |P (b + k + 1)| ≤ 2 * 2 := mul_le_mul c1 (Phi _ (by omega)) (abs_nonneg _) (by norm_num)
        _ ≤ 10 ^ 70 := by norm_num)
    refine this.trans (mul_le_mul_of_nonneg_right (mul_le_mul_of_nonneg_right ?_ uu_pos.le) (abs_nonneg _))
    push_cast
    linarith

end FB
end Verif.Props
