import Verif.FloatAnal
import Verif.Props.FloatSynth3
/-!
# Rounding errors of the sums of `bnm_vec_fc` and `bnm_fc`
-/
namespace Verif.Props
open Verif Finset

variable {rnd : ℝ → ℝ}

namespace FA

theorem uu_le : uu ≤ 1 / 10 ^ 9 := by
  unfold uu
  calc (2 : ℝ) ^ (-53 : ℤ) ≤ 2 ^ (-30 : ℤ) := zpow_le_zpow_right₀ (by norm_num) (by norm_num)
    _ ≤ 1 / 10 ^ 9 := by norm_num

theorem tiny_Q {C R : ℝ} (hC : 2 ^ (-900 : ℤ) ≤ C) (hR : 1 / 4 ≤ R) : tiny ≤ uu * (C * R) / 1000 := FS.tiny_Q hC hR

/-- Every order of summation has an error of at most the square of the number of terms, in units of `2^-52` times the largest term. -/
theorem npsum_err (hr : IsRounding rnd) {T : ℝ} (hT0 : 0 ≤ T) (ht : tiny ≤ uu * T / 100) (hT : T ≤ 2 ^ (1000 : ℤ)) {l : List ℝ} {s : ℝ} (h : NpSum rnd l s)
    (hl : ∀ x ∈ l, |x| ≤ T) (hn : l.length ≤ 1001) :
    1 ≤ l.length ∧ |s - l.sum| ≤ (l.length : ℝ) ^ 2 * (2 * uu) * T ∧ |l.sum| ≤ l.length * T := by
  have re : ∀ x, |x| ≤ 4000 * T → |rnd x - x| ≤ uu * |x| + tiny / 2 := by
    intro x hx
    refine rnd_err hr (hx.trans ?_)
    rw [show (1022 : ℤ) = 22 + 1000 by norm_num, zpow_add₀ (by norm_num)]
    exact mul_le_mul (by norm_num) hT hT0 (by positivity)
  clear hT
  have u0 := uu_pos
  have u1 := uu_le
  have t0 := tiny_pos
  induction h with
  | one x =>
    have := hl x (by simp)
    refine ⟨by simp, ?_, by simpa using this⟩
    simp only [List.sum_cons, List.sum_nil, add_zero, sub_self, abs_zero]
    positivity
  | @add l l' s s' h1 h2 ih1 ih2 =>
    rw [List.length_append] at hn
    obtain ⟨a1, a2, a3⟩ := ih1 (fun x hx => hl x (List.mem_append_left _ hx)) (by omega)
    obtain ⟨b1, b2, b3⟩ := ih2 (fun x hx => hl x (List.mem_append_right _ hx)) (by omega)
    have c1 : (1 : ℝ) ≤ l.length := by exact_mod_cast a1
    have c2 : (1 : ℝ) ≤ l'.length := by exact_mod_cast b1
    have c3 : (l.length : ℝ) + l'.length ≤ 1001 := by exact_mod_cast hn
    rw [List.length_append, List.sum_append]
    push_cast
    generalize (l.length : ℝ) = a at *
    generalize (l'.length : ℝ) = b at *
    generalize l.sum = x at *
    generalize l'.sum = y at *
    have e : a ^ 2 * (2 * uu) * T + b ^ 2 * (2 * uu) * T ≤ (a + b) * T / 100 := by
      have : (a ^ 2 + b ^ 2) * (2 * uu) ≤ (a + b) / 100 := by
        have h3 : a ^ 2 + b ^ 2 ≤ (a + b) * 1001 := by nlinarith
        have h4 : (a ^ 2 + b ^ 2) * (2 * uu) ≤ ((a + b) * 1001) * (2 * (1 / 10 ^ 9)) := mul_le_mul h3 (by linarith) (by positivity) (by positivity)
        linarith
      have := mul_le_mul_of_nonneg_right this hT0
      linarith
    have hxy : |x + y| ≤ (a + b) * T := (abs_add_le x y).trans (by linarith)
    have hss : |s + s' - (x + y)| ≤ a ^ 2 * (2 * uu) * T + b ^ 2 * (2 * uu) * T := by
      rw [show s + s' - (x + y) = (s - x) + (s' - y) by ring]
      exact (abs_add_le _ _).trans (by linarith)
    have hmag : |s + s'| ≤ (a + b) * T * 1.01 := by
      have : |s + s'| ≤ |s + s' - (x + y)| + |x + y| := by
        have := abs_add_le (s + s' - (x + y)) (x + y)
        rwa [sub_add_cancel] at this
      linarith
    have hre := re (s + s') (by
      have : (a + b) * T ≤ 1001 * T := mul_le_mul_of_nonneg_right c3 hT0
      linarith)
    refine ⟨by omega, ?_, hxy⟩
    have h6 : |rnd (s + s') - (x + y)| ≤ |rnd (s + s') - (s + s')| + |s + s' - (x + y)| := abs_sub_le _ _ _
    have h7 : uu * |s + s'| ≤ uu * ((a + b) * T * 1.01) := mul_le_mul_of_nonneg_left hmag u0.le
    have h8 : a + b ≤ 2 * (a * b) := by nlinarith
    have h9 : (a + b) * (uu * T) ≤ 2 * (a * b) * (uu * T) := mul_le_mul_of_nonneg_right h8 (by positivity)
    have h10 : uu * T ≤ (a + b) * (uu * T) := le_mul_of_one_le_left (by positivity) (by linarith)
    have h11 : (a + b) ^ 2 * (2 * uu) * T = a ^ 2 * (2 * uu) * T + b ^ 2 * (2 * uu) * T + 2 * (2 * (a * b) * (uu * T)) := by ring
    have h12 : 0 ≤ (a + b) * (uu * T) := by positivity
    have h13 : uu * ((a + b) * T * 1.01) = 1.01 * ((a + b) * (uu * T)) := by ring
    linarith
  | @perm l l' s hp h1 ih =>
    obtain ⟨a1, a2, a3⟩ := ih (fun x hx => hl x (hp.mem_iff.mp hx)) (by rw [hp.length_eq]; exact hn)
    rw [← hp.length_eq, ← hp.sum_eq]
    exact ⟨a1, a2, a3⟩

/-- One rounded product with an inexact factor. -/
theorem prod_err (hr : IsRounding rnd) {h yh y C R δ : ℝ} (hC0 : 0 ≤ C) (hR0 : 0 ≤ R) (hδ0 : 0 ≤ δ) (hδ : δ ≤ 1 / 100)
    (ht : tiny ≤ uu * (C * R) / 1000) (hQ1 : C * R ≤ 2 ^ (1000 : ℤ)) (hh : |h| ≤ C / 2) (hy : |y| ≤ R) (hyh : |yh - y| ≤ δ * R) :
    |rnd (h * yh) - h * y| ≤ C * R / 2 * (δ + 1.02 * uu) ∧ |rnd (h * yh)| ≤ C * R / 2 * 1.02 ∧ |h * y| ≤ C * R / 2 := by
  have Q0 : 0 ≤ C * R := by positivity
  have re : ∀ x, |x| ≤ 4000 * (C * R) → |rnd x - x| ≤ uu * |x| + tiny / 2 := by
    intro x hx
    refine rnd_err hr (hx.trans ?_)
    rw [show (1022 : ℤ) = 22 + 1000 by norm_num, zpow_add₀ (by norm_num)]
    exact mul_le_mul (by norm_num) hQ1 Q0 (by positivity)
  clear hQ1
  have u0 := uu_pos
  have u1 := uu_le
  have h1 : |h * y| ≤ C * R / 2 := by
    rw [abs_mul]
    exact (mul_le_mul hh hy (abs_nonneg _) (by linarith)).trans (by linarith)
  have h2 : |h * yh - h * y| ≤ C * R / 2 * δ := by
    rw [← mul_sub, abs_mul]
    exact (mul_le_mul hh hyh (abs_nonneg _) (by linarith)).trans (le_of_eq (by ring))
  have h3 : |h * yh| ≤ C * R / 2 * (1 + δ) := by
    have := abs_add_le (h * yh - h * y) (h * y)
    rw [sub_add_cancel] at this
    linarith
  have h3' : |h * yh| ≤ C * R / 2 * 1.01 := h3.trans (by nlinarith)
  have h4 := re (h * yh) (by linarith)
  have h5 : uu * |h * yh| ≤ uu * (C * R / 2 * 1.01) := mul_le_mul_of_nonneg_left h3' u0.le
  have h6 : |rnd (h * yh) - h * y| ≤ |rnd (h * yh) - h * yh| + |h * yh - h * y| := abs_sub_le _ _ _
  have h8 : 0 ≤ uu * (C * R) := by positivity
  have h7 : |rnd (h * yh) - h * y| ≤ C * R / 2 * (δ + 1.02 * uu) := by nlinarith
  refine ⟨h7, ?_, h1⟩
  have h9 := abs_add_le (rnd (h * yh) - h * y) (h * y)
  rw [sub_add_cancel] at h9
  have h10 : C * R / 2 * (δ + 1.02 * uu) ≤ C * R / 2 * 0.02 := mul_le_mul_of_nonneg_left (by linarith) (by linarith)
  linarith

/-- The final combination `rnd (first + rnd (2 * s))` of `bnm_vec_fc`, one component. -/
theorem py_num (hr : IsRounding rnd) {P X p s Q δ n : ℝ} (Q0 : 0 ≤ Q) (hQ1 : Q ≤ 2 ^ (1000 : ℤ)) (ht : tiny ≤ uu * Q / 1000) (hδ0 : 0 ≤ δ) (hδ : δ ≤ 1 / 100)
    (n1 : 1 ≤ n) (n2 : n ≤ 1000) (hp : |p - P| ≤ Q / 2 * (δ + 1.02 * uu)) (hP : |P| ≤ Q / 2) (hX : |X| ≤ n * Q / 2)
    (hs : |s - X| ≤ n * Q / 2 * (δ + 1.02 * uu) + n ^ 2 * (1.02 * uu) * Q) :
    |rnd (p + rnd (2 * s)) - (P + 2 * X)| ≤ (n + 1) * Q * (δ + 4 * (n + 1) * uu) := by
  have re : ∀ x, |x| ≤ 4000 * Q → |rnd x - x| ≤ uu * |x| + tiny / 2 := by
    intro x hx
    refine rnd_err hr (hx.trans ?_)
    rw [show (1022 : ℤ) = 22 + 1000 by norm_num, zpow_add₀ (by norm_num)]
    exact mul_le_mul (by norm_num) hQ1 Q0 (by positivity)
  clear hQ1
  have u0 := uu_pos
  have u1 := uu_le
  have nQ : 0 ≤ n * Q := by positivity
  have nQb : n * Q ≤ 1000 * Q := mul_le_mul_of_nonneg_right n2 Q0
  have U : 0 ≤ uu * Q := by positivity
  have nU : 0 ≤ n * (uu * Q) := by positivity
  have nnU : 0 ≤ n ^ 2 * (uu * Q) := by positivity
  have Qu : uu * Q ≤ Q / 10 ^ 9 := by nlinarith
  have nQu : n * (uu * Q) ≤ n * Q / 10 ^ 9 := by nlinarith
  have nnQu : n ^ 2 * (uu * Q) ≤ n * Q / 10 ^ 6 := by
    have : n ^ 2 * (uu * Q) ≤ (1000 * n) * (Q / 10 ^ 9) := mul_le_mul (by nlinarith) Qu U (by positivity)
    linarith
  have dQ : δ * Q ≤ Q / 100 := by nlinarith
  have dQ0 : 0 ≤ δ * Q := by positivity
  have ndQ : n * (δ * Q) ≤ n * Q / 100 := by nlinarith
  have ndQ0 : 0 ≤ n * (δ * Q) := by positivity
  have e1 : n * Q / 2 * (δ + 1.02 * uu) + n ^ 2 * (1.02 * uu) * Q = n * (δ * Q) / 2 + 0.51 * (n * (uu * Q)) + 1.02 * (n ^ 2 * (uu * Q)) := by ring
  have e2 : Q / 2 * (δ + 1.02 * uu) = δ * Q / 2 + 0.51 * (uu * Q) := by ring
  rw [e1] at hs
  rw [e2] at hp
  have s1 : |s| ≤ n * Q / 2 * 1.02 := by
    have := abs_add_le (s - X) X
    rw [sub_add_cancel] at this
    linarith
  have a2 : |2 * s| = 2 * |s| := by rw [abs_mul, abs_of_pos (by norm_num : (0 : ℝ) < 2)]
  have r1 := re (2 * s) (by rw [a2]; linarith)
  rw [a2] at r1
  have r1' : uu * (2 * |s|) ≤ 1.02 * (n * (uu * Q)) := by
    have := mul_le_mul_of_nonneg_left s1 u0.le
    linarith
  have r2 : |rnd (2 * s) - 2 * X| ≤ 2 * |s - X| + 1.02 * (n * (uu * Q)) + tiny / 2 := by
    have h1 := abs_sub_le (rnd (2 * s)) (2 * s) (2 * X)
    rw [show 2 * s - 2 * X = 2 * (s - X) by ring, abs_mul 2 (s - X), abs_of_pos (by norm_num : (0 : ℝ) < 2)] at h1
    linarith
  have PX : |P + 2 * X| ≤ (n + 1) * Q := by
    have := abs_add_le P (2 * X)
    rw [abs_mul, abs_of_pos (by norm_num : (0 : ℝ) < 2)] at this
    linarith
  have q1 : |p + rnd (2 * s) - (P + 2 * X)| ≤ δ * Q / 2 + 0.51 * (uu * Q) + (n * (δ * Q) + 1.02 * (n * (uu * Q)) + 2.04 * (n ^ 2 * (uu * Q))) + 1.02 * (n * (uu * Q)) + tiny / 2 := by
    rw [show p + rnd (2 * s) - (P + 2 * X) = (p - P) + (rnd (2 * s) - 2 * X) by ring]
    refine (abs_add_le _ _).trans ?_
    linarith
  have q2 : |p + rnd (2 * s)| ≤ (n + 1) * Q * 1.02 := by
    have := abs_add_le (p + rnd (2 * s) - (P + 2 * X)) (P + 2 * X)
    rw [sub_add_cancel] at this
    linarith
  have r3 := re (p + rnd (2 * s)) (by linarith)
  have r3' : uu * |p + rnd (2 * s)| ≤ 1.02 * (n * (uu * Q)) + 1.02 * (uu * Q) := by
    have := mul_le_mul_of_nonneg_left q2 u0.le
    linarith
  have f := abs_sub_le (rnd (p + rnd (2 * s))) (p + rnd (2 * s)) (P + 2 * X)
  have g : (n + 1) * Q * (δ + 4 * (n + 1) * uu) = n * (δ * Q) + δ * Q + 4 * (n ^ 2 * (uu * Q)) + 8 * (n * (uu * Q)) + 4 * (uu * Q) := by ring
  rw [g]
  linarith

open FS in
theorem mul_def (a b : FC rnd) : a * b = ⟨rnd (rnd (a.re * b.re) - rnd (a.im * b.im)), rnd (rnd (a.re * b.im) + rnd (a.im * b.re))⟩ := rfl
theorem add_def (a b : FC rnd) : a + b = ⟨rnd (a.re + b.re), rnd (a.im + b.im)⟩ := rfl
theorem two_def : (2 : FC rnd) = ⟨2, 0⟩ := rfl

theorem rnd_two (hr : IsRounding rnd) : rnd 2 = 2 :=
  rnd_double hr (by simpa using isDouble_pow 1 (by norm_num) (by norm_num)) (by
    rw [abs_of_pos (by norm_num)]
    calc (2 : ℝ) = 2 ^ 1 := by norm_num
      _ ≤ _ := pow_le_pow_right₀ (by norm_num) (by norm_num))

theorem I_zpow_cases (k : ℤ) : Complex.I ^ k = 1 ∨ Complex.I ^ k = -1 ∨ Complex.I ^ k = Complex.I ∨ Complex.I ^ k = -Complex.I := by
  have h4 : Complex.I ^ (4 : ℤ) = 1 := by exact_mod_cast Complex.I_pow_four
  have e : Complex.I ^ k = Complex.I ^ (k % 4) := by
    conv_lhs => rw [← Int.mul_ediv_add_emod k 4]
    rw [zpow_add₀ Complex.I_ne_zero, zpow_mul, h4, one_zpow, one_mul]
  rw [e]
  have h0 := Int.emod_nonneg k (by norm_num : (4 : ℤ) ≠ 0)
  have h1 := Int.emod_lt_of_pos k (by norm_num : (0 : ℤ) < 4)
  generalize k % 4 = j at h0 h1
  interval_cases j
  · left; simp
  · right; right; left; simp
  · right; left; exact_mod_cast Complex.I_sq
  · right; right; right; exact_mod_cast Complex.I_pow_three

theorem fc_mul_comm (a b : FC rnd) : a * b = b * a := by
  rw [mul_def, mul_def]
  simp only [mul_comm, add_comm]

theorem real_step (hr : IsRounding rnd) {x e b Q : ℝ} (he : |x - e| ≤ b * (uu * Q)) (hb : b ≤ 10 ^ 10) {A : ℝ} (hA : |e| ≤ A * Q) (hA0 : 0 ≤ A) (hA1 : A ≤ 4000) (hQ : 0 ≤ Q)
    (hQ1 : Q ≤ 2 ^ (1000 : ℤ)) (ht : tiny ≤ uu * Q / 1000) : |rnd x - e| ≤ (b + 1.01 * A + 0.01) * (uu * Q) := by
  have u0 := uu_pos
  have u1 := FS.uu_le16
  have b1 : b * (uu * Q) ≤ 1 / 10 ^ 5 * Q := by
    rw [← mul_assoc]
    refine mul_le_mul_of_nonneg_right ?_ hQ
    calc b * uu ≤ 10 ^ 10 * (12 / 10 ^ 17) := mul_le_mul hb u1 u0.le (by norm_num)
      _ ≤ _ := by norm_num
  have hx : |x| ≤ A * Q + 1 / 10 ^ 5 * Q := by
    have := abs_add_le (x - e) e
    rw [sub_add_cancel] at this
    linarith
  have := rnd_err hr (x := x) (hx.trans (by
    have : A * Q ≤ 4000 * Q := mul_le_mul_of_nonneg_right hA1 hQ
    have h2 : A * Q + 1 / 10 ^ 5 * Q ≤ 4001 * Q := by linarith
    refine h2.trans ?_
    rw [show (1022 : ℤ) = 22 + 1000 by norm_num, zpow_add₀ (by norm_num)]
    exact mul_le_mul (by norm_num) hQ1 hQ (by positivity)))
  have h3 := abs_sub_le (rnd x) x e
  have h4 : uu * |x| ≤ uu * (A * Q + 1 / 10 ^ 5 * Q) := mul_le_mul_of_nonneg_left hx u0.le
  have h5 : 0 ≤ uu * Q := by positivity
  have h6 : uu * (A * Q + 1 / 10 ^ 5 * Q) = (A + 1 / 10 ^ 5) * (uu * Q) := by ring
  have h7 : 0 ≤ A * (uu * Q) := by positivity
  clear hQ1
  linarith

/-- `1j ** (-m) * h0 * y0` with an inexact power. -/
theorem first_near (hrd : NoOverflow rnd) {j h0 : FC rnd} {w : ℂ} {η C R y : ℝ} (hj : ‖FS.val j - w‖ ≤ η) (hw : ‖w‖ = 1) (hη : η ≤ 1 / 1000) (h1 : |h0.re| ≤ C / 2) (h2 : |h0.im| ≤ C / 2)
    (hC : 2 ^ (-900 : ℤ) ≤ C) (hC' : C ≤ 2 ^ (900 : ℤ)) (hR : 1 / 4 ≤ R) (hR' : R ≤ 16) (hy : |y| ≤ 1.01 * R) :
    ‖FS.val (j * h0 * ⟨y, 0⟩) - w * (FS.val h0 * (y : ℂ))‖ ≤ C * R * (1.03 * η + 10.5 * uu) ∧ ‖FS.val h0 * (y : ℂ)‖ ≤ 1.01 * (C * R) := by
  have hr := hrd.toIsRounding
  have C0 : 0 < C := lt_of_lt_of_le (by positivity) hC
  have u0 := uu_pos
  have u1 := FS.uu_le16
  have e0 : 0 ≤ η := (norm_nonneg _).trans hj
  have nh : ‖FS.val h0‖ ≤ C := by
    refine (Complex.norm_le_abs_re_add_abs_im _).trans ?_
    have : |(FS.val h0).re| = |h0.re| := rfl
    have : |(FS.val h0).im| = |h0.im| := rfl
    linarith
  have tC : tiny ≤ uu * C / 100 := by
    have := FS.tiny_Q hC (R := 1) (by norm_num)
    have : 0 ≤ uu * C := by positivity
    linarith
  have tQ := FS.tiny_Q hC hR
  have hb : C ≤ 2 ^ (1000 : ℤ) := hC'.trans (zpow_le_zpow_right₀ (by norm_num) (by norm_num))
  have k1 := FS.near_mul hr (t := h0) (j := j) (z := FS.val h0) (w := w) (E := 0) (A := C) (η := η) (by simp) nh hj hw (by positivity) hη tC hb
  rw [fc_mul_comm] at k1
  have ny : ‖FS.val (⟨y, 0⟩ : FC rnd)‖ = |y| := by
    rw [show FS.val (⟨y, 0⟩ : FC rnd) = ((y : ℝ) : ℂ) from rfl, Complex.norm_real, Real.norm_eq_abs]
  have nj : ‖FS.val (j * h0)‖ ≤ 1.02 * C := by
    have a := norm_add_le (FS.val (j * h0) - w * FS.val h0) (w * FS.val h0)
    rw [sub_add_cancel, norm_mul w, hw, one_mul] at a
    have : C * (1.01 * η + 5.1 * uu) ≤ C * 0.0102 := mul_le_mul_of_nonneg_left (by linarith) C0.le
    linarith
  have Q0 : 0 ≤ C * R := mul_nonneg C0.le (by linarith)
  have hQb : 1.04 * (C * R) ≤ 2 ^ (1018 : ℤ) := by
    calc 1.04 * (C * R) ≤ 1.04 * (2 ^ (900 : ℤ) * 16) := by gcongr
      _ = 16.64 * 2 ^ (900 : ℤ) := by ring
      _ ≤ 2 ^ (118 : ℤ) * 2 ^ (900 : ℤ) := mul_le_mul_of_nonneg_right (by norm_num) (by positivity)
      _ = 2 ^ (1018 : ℤ) := by rw [← zpow_add₀ (by norm_num)]; norm_num
  have k2 := FS.mul_err hr (a := j * h0) (b := ⟨y, 0⟩) (C := 1.04 * (C * R)) (by positivity) (by
      have : 0 ≤ uu * (C * R) := by positivity
      linarith) hQb (by
    rw [ny]
    refine (mul_le_mul nj hy (abs_nonneg _) (by positivity)).trans ?_
    linarith)
  have ey : FS.val (⟨y, 0⟩ : FC rnd) = ((y : ℝ) : ℂ) := rfl
  rw [ey] at k2
  constructor
  · rw [show FS.val (j * h0 * ⟨y, 0⟩) - w * (FS.val h0 * (y : ℂ)) = (FS.val (j * h0 * ⟨y, 0⟩) - FS.val (j * h0) * (y : ℂ)) + (FS.val (j * h0) - w * FS.val h0) * (y : ℂ) by ring]
    refine (norm_add_le _ _).trans ?_
    rw [norm_mul _ (y : ℂ), Complex.norm_real, Real.norm_eq_abs]
    have k3 : ‖FS.val (j * h0) - w * FS.val h0‖ * |y| ≤ (0 + C * (1.01 * η + 5.1 * uu)) * (1.01 * R) := mul_le_mul k1 hy (abs_nonneg _) (by positivity)
    have e : (0 + C * (1.01 * η + 5.1 * uu)) * (1.01 * R) = C * R * (1.0201 * η + 5.151 * uu) := by ring
    have f1 : 0 ≤ C * R * η := by positivity
    have f2 : 0 ≤ C * R * uu := by positivity
    clear hC hC' hb hQb
    linarith
  · rw [norm_mul, Complex.norm_real, Real.norm_eq_abs]
    refine (mul_le_mul nh hy (abs_nonneg _) C0.le).trans (le_of_eq (by ring))

/-- The product of the first degree, against the exact rotation of the rounded product. -/
theorem first_eq (hrd : NoOverflow rnd) {K : ℕ} {jp : Int → FC rnd} (hj : PowNear K jp) {m : Int} (hm : |m| ≤ K) (hm0 : |m| ≤ 1000) {h0 : FC rnd} {C R y : ℝ} (h1 : |h0.re| ≤ C / 2) (h2 : |h0.im| ≤ C / 2)
    (hC : 2 ^ (-900 : ℤ) ≤ C) (hC' : C ≤ 2 ^ (900 : ℤ)) (hR : 1 / 4 ≤ R) (hR' : R ≤ 16) (hy : |y| ≤ 1.01 * R) :
    ‖FS.val (jp (-m) * h0 * ⟨y, 0⟩) - Complex.I ^ (-m) * FS.val (⟨rnd (h0.re * y), rnd (h0.im * y)⟩ : FC rnd)‖ ≤ 2 * (C * R * (1.6 * (((|m| : ℤ) + 4) * 2 ^ (-50 : ℤ)) + 32 * uu)) := by
  have hr := hrd.toIsRounding
  have p := hj (-m) (by rwa [abs_neg])
  rw [abs_neg] at p
  have hm0' : ((|m| : ℤ) : ℝ) ≤ 1000 := by exact_mod_cast hm0
  have mm0 : (0 : ℝ) ≤ ((|m| : ℤ) : ℝ) := by exact_mod_cast abs_nonneg m
  have hη : (((|m| : ℤ) : ℝ) + 4) * 2 ^ (-50 : ℤ) ≤ 1 / 1000 := by
    refine (mul_le_mul_of_nonneg_right (show ((|m| : ℤ) : ℝ) + 4 ≤ 1004 by linarith) (by positivity)).trans ?_
    norm_num
  have e0 : 0 ≤ (((|m| : ℤ) : ℝ) + 4) * 2 ^ (-50 : ℤ) := by positivity
  have nw : ‖Complex.I ^ (-m)‖ = 1 := by rw [norm_zpow, Complex.norm_I, one_zpow]
  generalize (((|m| : ℤ) : ℝ) + 4) * 2 ^ (-50 : ℤ) = η at *
  obtain ⟨k1, -⟩ := first_near hrd (j := jp (-m)) (w := Complex.I ^ (-m)) (h0 := h0) p nw hη h1 h2 hC hC' hR hR' hy
  generalize Complex.I ^ (-m) = w at *
  have C0 : 0 < C := lt_of_lt_of_le (by positivity) hC
  have u0 := uu_pos
  have Q0 : 0 ≤ C * R := mul_nonneg C0.le (by linarith)
  have tQ := FS.tiny_Q hC hR
  have hQb : C * R ≤ 2 ^ (1000 : ℤ) := by
    calc C * R ≤ 2 ^ (900 : ℤ) * 16 := by gcongr
      _ ≤ 2 ^ (900 : ℤ) * 2 ^ (100 : ℤ) := mul_le_mul_of_nonneg_left (by norm_num) (by positivity)
      _ = 2 ^ (1000 : ℤ) := by rw [← zpow_add₀ (by norm_num)]; norm_num
  have comp : ∀ a : ℝ, |a| ≤ C / 2 → |rnd (a * y) - a * y| ≤ 0.6 * (uu * (C * R)) := by
    intro a ha
    have := real_step hr (x := a * y) (e := a * y) (b := 0) (A := 0.505) (Q := C * R) (by simp) (by norm_num) (by
      rw [abs_mul]
      refine (mul_le_mul ha hy (abs_nonneg _) (by positivity)).trans (le_of_eq (by ring))) (by norm_num) (by norm_num) Q0 hQb tQ
    refine this.trans (mul_le_mul_of_nonneg_right (by norm_num) (by positivity))
  have k2 : ‖FS.val (⟨rnd (h0.re * y), rnd (h0.im * y)⟩ : FC rnd) - FS.val h0 * (y : ℂ)‖ ≤ 1.2 * (uu * (C * R)) := by
    refine (Complex.norm_le_abs_re_add_abs_im _).trans ?_
    rw [Complex.sub_re, Complex.sub_im, Complex.re_mul_ofReal, Complex.im_mul_ofReal]
    have := comp _ h1
    have := comp _ h2
    show |rnd (h0.re * y) - h0.re * y| + |rnd (h0.im * y) - h0.im * y| ≤ _
    clear hQb hC hC'
    linarith
  rw [show FS.val (jp (-m) * h0 * ⟨y, 0⟩) - w * FS.val (⟨rnd (h0.re * y), rnd (h0.im * y)⟩ : FC rnd) = (FS.val (jp (-m) * h0 * ⟨y, 0⟩) - w * (FS.val h0 * (y : ℂ))) -
    w * (FS.val (⟨rnd (h0.re * y), rnd (h0.im * y)⟩ : FC rnd) - FS.val h0 * (y : ℂ)) by ring]
  refine (norm_sub_le _ _).trans ?_
  rw [norm_mul w, nw, one_mul]
  have f1 : 0 ≤ C * R * η := by positivity
  have f2 : 0 ≤ C * R * uu := by positivity
  clear hQb hC hC'
  linarith

/-- The two terms that `bnm_vec_fc` adds, against the exact rotation of the rounded sum. -/
theorem pair_eq (hrd : NoOverflow rnd) {K : ℕ} {jp : Int → FC rnd} (hj : PowNear K jp) {m : Int} (hm : |m| ≤ K) (hm0 : |m| ≤ 1000) {h0 : FC rnd} {C R y : ℝ} (h1 : |h0.re| ≤ C / 2) (h2 : |h0.im| ≤ C / 2)
    (hC : 2 ^ (-900 : ℤ) ≤ C) (hC' : C ≤ 2 ^ (900 : ℤ)) (hR : 1 / 4 ≤ R) (hR' : R ≤ 16) (hy : |y| ≤ 1.01 * R) {s : FC rnd} {n : ℕ} (n1 : 1 ≤ n) (n2 : n ≤ 1000)
    (hs1 : |s.re| ≤ 0.53 * (n * (C * R))) (hs2 : |s.im| ≤ 0.53 * (n * (C * R))) :
    ‖FS.val (jp (-m) * h0 * ⟨y, 0⟩ + jp (-m) * 2 * s) -
      Complex.I ^ (-m) * FS.val (⟨rnd (rnd (h0.re * y) + rnd (2 * s.re)), rnd (rnd (h0.im * y) + rnd (2 * s.im))⟩ : FC rnd)‖ ≤
      2 * ((n + 1) * (C * R) * (1.6 * (((|m| : ℤ) + 4) * 2 ^ (-50 : ℤ)) + 32 * uu)) := by
  have hr := hrd.toIsRounding
  have p := hj (-m) (by rwa [abs_neg])
  rw [abs_neg] at p
  have hm0' : ((|m| : ℤ) : ℝ) ≤ 1000 := by exact_mod_cast hm0
  have mm0 : (0 : ℝ) ≤ ((|m| : ℤ) : ℝ) := by exact_mod_cast abs_nonneg m
  have hη : (((|m| : ℤ) : ℝ) + 4) * 2 ^ (-50 : ℤ) ≤ 1 / 1000 := by
    refine (mul_le_mul_of_nonneg_right (show ((|m| : ℤ) : ℝ) + 4 ≤ 1004 by linarith) (by positivity)).trans ?_
    norm_num
  have e0 : 0 ≤ (((|m| : ℤ) : ℝ) + 4) * 2 ^ (-50 : ℤ) := by positivity
  have nw : ‖Complex.I ^ (-m)‖ = 1 := by rw [norm_zpow, Complex.norm_I, one_zpow]
  generalize (((|m| : ℤ) : ℝ) + 4) * 2 ^ (-50 : ℤ) = η at *
  obtain ⟨k1, k1'⟩ := first_near hrd (j := jp (-m)) (w := Complex.I ^ (-m)) (h0 := h0) p nw hη h1 h2 hC hC' hR hR' hy
  have p' : ‖FS.val (jp (-m)) - Complex.I ^ (-m)‖ ≤ η := p
  generalize Complex.I ^ (-m) = w at *
  generalize jp (-m) = j at *
  have C0 : 0 < C := lt_of_lt_of_le (by positivity) hC
  have u0 := uu_pos
  have u1 := FS.uu_le16
  have Q0 : 0 < C * R := mul_pos C0 (by linarith)
  have tQ := FS.tiny_Q hC hR
  have hQb : C * R ≤ 2 ^ (950 : ℤ) := by
    calc C * R ≤ 2 ^ (900 : ℤ) * 16 := by gcongr
      _ ≤ 2 ^ (900 : ℤ) * 2 ^ (50 : ℤ) := mul_le_mul_of_nonneg_left (by norm_num) (by positivity)
      _ = 2 ^ (950 : ℤ) := by rw [← zpow_add₀ (by norm_num)]; norm_num
  have hQb' : C * R ≤ 2 ^ (1000 : ℤ) := hQb.trans (zpow_le_zpow_right₀ (by norm_num) (by norm_num))
  generalize C * R = Q at *
  clear hC hC' hR hR'
  have nr1 : (1 : ℝ) ≤ n := by exact_mod_cast n1
  have nr2 : (n : ℝ) ≤ 1000 := by exact_mod_cast n2
  have nQ : Q ≤ n * Q := le_mul_of_one_le_left Q0.le nr1
  have nQ' : n * Q ≤ 1000 * Q := mul_le_mul_of_nonneg_right nr2 Q0.le
  have bigQ : 4000 * Q ≤ 2 ^ (1000 : ℤ) := by
    calc 4000 * Q ≤ 2 ^ (50 : ℤ) * 2 ^ (950 : ℤ) := mul_le_mul (by norm_num) hQb Q0.le (by positivity)
      _ = 2 ^ (1000 : ℤ) := by rw [← zpow_add₀ (by norm_num)]; norm_num
  -- the doubled power
  have v2 : FS.val (2 : FC rnd) = 2 := by rw [two_def]; apply Complex.ext <;> simp [FS.val]
  have k3 := FS.near_mul hr (t := (2 : FC rnd)) (j := j) (z := 2) (w := w) (E := 0) (A := 2) (η := η) (by rw [v2]; simp) (by simp) p' nw (by norm_num) hη
    (by unfold tiny uu
        rw [show (2 : ℝ) ^ (-1074 : ℤ) = 2 ^ (-53 : ℤ) * 2 ^ (-1021 : ℤ) by rw [← zpow_add₀ (by norm_num)]; norm_num, mul_div_assoc]
        refine mul_le_mul_of_nonneg_left ?_ (by positivity)
        exact (zpow_le_zpow_right₀ (by norm_num) (show (-1021 : ℤ) ≤ -10 by norm_num)).trans (by norm_num))
    (le_trans (by norm_num : (2 : ℝ) ≤ 2 ^ (1 : ℤ)) (zpow_le_zpow_right₀ (by norm_num) (by norm_num)))
  rw [fc_mul_comm, show w * 2 = 2 * w by ring] at k3
  have nj : ‖FS.val (j * 2)‖ ≤ 2.03 := by
    have a := norm_add_le (FS.val (j * 2) - 2 * w) (2 * w)
    rw [sub_add_cancel, norm_mul (2 : ℂ), nw, mul_one, Complex.norm_ofNat] at a
    linarith
  have ns : ‖FS.val s‖ ≤ 1.06 * (n * Q) := by
    refine (Complex.norm_le_abs_re_add_abs_im _).trans ?_
    show |s.re| + |s.im| ≤ _
    linarith
  have uQ : 0 ≤ uu * Q := by positivity
  have uQn : uu * Q ≤ uu * (n * Q) := mul_le_mul_of_nonneg_left nQ u0.le
  have k4 := FS.mul_err hr (a := j * 2) (b := s) (C := 2.2 * (n * Q)) (by positivity) (by
      rw [show uu * (2.2 * (n * Q)) = 2.2 * (uu * (n * Q)) by ring]
      linarith) ((by linarith : 2.2 * (n * Q) ≤ 4000 * Q).trans (bigQ.trans (zpow_le_zpow_right₀ (by norm_num) (by norm_num)))) (by
    refine (mul_le_mul nj ns (norm_nonneg _) (by norm_num)).trans ?_
    have : 0 ≤ n * Q := by positivity
    linarith)
  have k5 : ‖FS.val (j * 2 * s) - w * (2 * FS.val s)‖ ≤ n * Q * (2.15 * η + 22 * uu) := by
    rw [show FS.val (j * 2 * s) - w * (2 * FS.val s) = (FS.val (j * 2 * s) - FS.val (j * 2) * FS.val s) + (FS.val (j * 2) - 2 * w) * FS.val s by ring]
    refine (norm_add_le _ _).trans ?_
    rw [norm_mul (FS.val (j * 2) - 2 * w)]
    have := mul_le_mul k3 ns (norm_nonneg _) (by positivity)
    have e : (0 + 2 * (1.01 * η + 5.1 * uu)) * (1.06 * (n * Q)) = n * Q * (2.1412 * η + 10.812 * uu) := by ring
    have f1 : 0 ≤ n * Q * η := by positivity
    have f2 : 0 ≤ n * Q * uu := by positivity
    linarith
  -- rounding the sum, component by component
  have nw2 : ‖w * (FS.val h0 * (y : ℂ))‖ ≤ 1.01 * Q := by rw [norm_mul, nw, one_mul]; exact k1'
  have nw3 : ‖w * (2 * FS.val s)‖ ≤ 2.12 * (n * Q) := by
    rw [norm_mul, nw, one_mul, norm_mul, Complex.norm_ofNat]
    linarith
  have k6 : ‖FS.val (j * h0 * ⟨y, 0⟩) + FS.val (j * 2 * s)‖ ≤ 3.2 * (n * Q) := by
    have a := norm_add_le (FS.val (j * h0 * ⟨y, 0⟩) - w * (FS.val h0 * (y : ℂ))) (w * (FS.val h0 * (y : ℂ)))
    have b := norm_add_le (FS.val (j * 2 * s) - w * (2 * FS.val s)) (w * (2 * FS.val s))
    rw [sub_add_cancel] at a b
    refine (norm_add_le _ _).trans ?_
    have f1 : Q * (1.03 * η + 10.5 * uu) ≤ Q * 0.01 := mul_le_mul_of_nonneg_left (by linarith) Q0.le
    have f2 : n * Q * (2.15 * η + 22 * uu) ≤ n * Q * 0.01 := mul_le_mul_of_nonneg_left (by linarith) (by positivity)
    linarith
  have k7 : ‖FS.val (j * h0 * ⟨y, 0⟩ + j * 2 * s) - (FS.val (j * h0 * ⟨y, 0⟩) + FS.val (j * 2 * s))‖ ≤ 6.5 * (uu * (n * Q)) := by
    have hb : ∀ x : ℝ, |x| ≤ 3.2 * (n * Q) → |rnd x - x| ≤ 3.25 * (uu * (n * Q)) := by
      intro x hx
      have := rnd_err hr (x := x) (hx.trans ((by linarith : 3.2 * (n * Q) ≤ 4000 * Q).trans (bigQ.trans (zpow_le_zpow_right₀ (by norm_num) (by norm_num)))))
      have h3 : uu * |x| ≤ uu * (3.2 * (n * Q)) := mul_le_mul_of_nonneg_left hx u0.le
      rw [show uu * (3.2 * (n * Q)) = 3.2 * (uu * (n * Q)) by ring] at h3
      linarith
    refine (Complex.norm_le_abs_re_add_abs_im _).trans ?_
    have a := hb _ ((Complex.abs_re_le_norm _).trans k6)
    have b := hb _ ((Complex.abs_im_le_norm _).trans k6)
    rw [Complex.sub_re, Complex.sub_im]
    rw [Complex.add_re] at a ⊢
    rw [Complex.add_im] at b ⊢
    have e1 : (FS.val (j * h0 * ⟨y, 0⟩ + j * 2 * s)).re = rnd ((FS.val (j * h0 * ⟨y, 0⟩)).re + (FS.val (j * 2 * s)).re) := by rw [add_def]; rfl
    have e2 : (FS.val (j * h0 * ⟨y, 0⟩ + j * 2 * s)).im = rnd ((FS.val (j * h0 * ⟨y, 0⟩)).im + (FS.val (j * 2 * s)).im) := by rw [add_def]; rfl
    rw [e1, e2]
    linarith
  -- the other side
  have comp : ∀ a b : ℝ, |a| ≤ C / 2 → |a * y| ≤ 1.01 * Q → |b| ≤ 0.53 * (n * Q) → |rnd (rnd (a * y) + rnd (2 * b)) - (a * y + 2 * b)| ≤ 5.4 * (uu * (n * Q)) := by
    intro a b _ ha hb
    have tn : tiny ≤ uu * (n * Q) / 1000 := by linarith
    have bn : n * Q ≤ 2 ^ (1000 : ℤ) := (by linarith : n * Q ≤ 4000 * Q).trans bigQ
    have s1 := real_step hr (x := a * y) (e := a * y) (b := 0) (A := 1.01) (Q := n * Q) (by simp) (by norm_num) (by linarith) (by norm_num) (by norm_num) (by positivity) bn tn
    have s2 := real_step hr (x := 2 * b) (e := 2 * b) (b := 0) (A := 1.06) (Q := n * Q) (by simp) (by norm_num) (by
      rw [abs_mul, abs_two]; linarith) (by norm_num) (by norm_num) (by positivity) bn tn
    have s3 : |rnd (a * y) + rnd (2 * b) - (a * y + 2 * b)| ≤ 2.15 * (uu * (n * Q)) := by
      rw [show rnd (a * y) + rnd (2 * b) - (a * y + 2 * b) = (rnd (a * y) - a * y) + (rnd (2 * b) - 2 * b) by ring]
      refine (abs_add_le _ _).trans ?_
      have : 0 ≤ uu * (n * Q) := by positivity
      linarith
    have s4 := real_step hr (A := 2.07) (Q := n * Q) s3 (by norm_num) (by
      refine (abs_add_le _ _).trans ?_
      rw [abs_mul 2, abs_two]
      linarith) (by norm_num) (by norm_num) (by positivity) bn tn
    refine s4.trans (mul_le_mul_of_nonneg_right (by norm_num) (by positivity))
  have hay : ∀ a : ℝ, |a| ≤ ‖FS.val h0‖ → |a * y| ≤ 1.01 * Q := by
    intro a ha
    refine le_trans ?_ k1'
    rw [abs_mul, norm_mul, Complex.norm_real, Real.norm_eq_abs]
    exact mul_le_mul_of_nonneg_right ha (abs_nonneg _)
  have k8 : ‖FS.val (⟨rnd (rnd (h0.re * y) + rnd (2 * s.re)), rnd (rnd (h0.im * y) + rnd (2 * s.im))⟩ : FC rnd) - (FS.val h0 * (y : ℂ) + 2 * FS.val s)‖ ≤ 10.8 * (uu * (n * Q)) := by
    refine (Complex.norm_le_abs_re_add_abs_im _).trans ?_
    have a := comp h0.re s.re h1 (hay h0.re (Complex.abs_re_le_norm (FS.val h0))) hs1
    have b := comp h0.im s.im h2 (hay h0.im (Complex.abs_im_le_norm (FS.val h0))) hs2
    rw [show (2 : ℂ) = ((2 : ℝ) : ℂ) by norm_num, Complex.sub_re, Complex.sub_im, Complex.add_re, Complex.add_im, Complex.re_mul_ofReal, Complex.im_mul_ofReal, Complex.re_ofReal_mul, Complex.im_ofReal_mul]
    show |rnd (rnd (h0.re * y) + rnd (2 * s.re)) - (h0.re * y + 2 * s.re)| + |rnd (rnd (h0.im * y) + rnd (2 * s.im)) - (h0.im * y + 2 * s.im)| ≤ _
    linarith
  generalize FS.val (⟨rnd (rnd (h0.re * y) + rnd (2 * s.re)), rnd (rnd (h0.im * y) + rnd (2 * s.im))⟩ : FC rnd) = G at *
  generalize FS.val (j * h0 * ⟨y, 0⟩ + j * 2 * s) = Z at *
  generalize FS.val (j * h0 * ⟨y, 0⟩) = A at *
  generalize FS.val (j * 2 * s) = B at *
  rw [show Z - w * G = (Z - (A + B)) + (A - w * (FS.val h0 * (y : ℂ))) + (B - w * (2 * FS.val s)) - w * (G - (FS.val h0 * (y : ℂ) + 2 * FS.val s)) by ring]
  refine (norm_sub_le _ _).trans ?_
  rw [norm_mul w, nw, one_mul]
  refine (add_le_add ((norm_add_le _ _).trans (add_le_add (norm_add_le _ _) le_rfl)) le_rfl).trans ?_
  have f1 : 0 ≤ Q * η := by positivity
  have f2 : 0 ≤ n * Q * η := by positivity
  have f3 : 0 ≤ n * Q * uu := by positivity
  clear hQb hQb' bigQ
  linarith

/-- The table of degree `n`, from either backend. -/
theorem tab_err (hr : IsRounding rnd) {n L : ℕ} {m : ℤ} (hn : n ≤ 1000) (hL : n < L) (hm : m.natAbs ≤ n) :
    ∃ (out : List ℝ) (y : ℕ → ℝ), Fl.ynunm rnd n m L = .ok out ∧ (∀ y : List ℝ, y.length = L → Fl.cYnunm rnd n m y L = .ok out) ∧ out.length = L ∧
      ∀ i : ℕ, (y i : ℂ) = ycoef n m i ∧ |y i| ≤ FS.rowMax n ∧ (i < L → |rd out i - y i| ≤ ((n : ℝ) + 3) ^ 3 * 2 ^ (-50 : ℤ) * FS.rowMax n) := by
  obtain ⟨out, ex, e1, ec, e2, l1, l2, h⟩ := c92_table hr n m L (by rw [Int.abs_eq_natAbs]; omega) (by omega) (by omega)
  obtain ⟨ex', e3, -, h3⟩ := ynunm_spec n m L hm (by omega)
  have : ex' = ex := by rw [e2] at e3; exact (Except.ok.inj e3).symm
  subst this
  refine ⟨out, fun i => ex'.getD i 0, e1, ec, l1, fun i => ⟨h3 i, ?_, fun hi => ?_⟩⟩
  · have := ycoef_le n m hm i
    rw [← h3 i, Complex.norm_real] at this
    exact this
  · exact (h i (rd out i) (ex'.getD i 0) (by unfold rd; simp [l1, hi]) (by simp [l2, hi])).2.1

/-- What `bnm_vec_fc` should compute from `h`. -/
noncomputable def tgt (h : List (FC rnd)) (m : ℤ) (n : ℕ) : ℂ :=
  Complex.I ^ (-m) * (FS.val (rd h 0) * ycoef n m 0 + 2 * ∑ i ∈ range n, FS.val (rd h (i + 1)) * ycoef n m (i + 1 : ℕ))

/-- Two component errors give the error of the coefficient. -/
theorem comb_err {n : ℕ} (hn : n ≤ 1000) {C : ℝ} (hC : 0 ≤ C) {z : FC rnd} {m : ℤ} {h : List (FC rnd)} {y : ℕ → ℝ} (hy : ∀ i : ℕ, (y i : ℂ) = ycoef n m i) {a b : ℝ}
    (hz : ‖FS.val z - Complex.I ^ (-m) * FS.val (⟨a, b⟩ : FC rnd)‖ ≤ 2 * (((n : ℝ) + 1) * (C * FS.rowMax n) * (1.6 * ((n + 4) * 2 ^ (-50 : ℤ)) + 32 * uu)))
    (ha : |a - ((rd h 0).re * y 0 + 2 * ∑ i ∈ range n, (rd h (i + 1)).re * y (i + 1))| ≤
      ((n : ℝ) + 1) * (C * FS.rowMax n) * (((n : ℝ) + 3) ^ 3 * 2 ^ (-50 : ℤ) + 4 * ((n : ℝ) + 1) * uu))
    (hb : |b - ((rd h 0).im * y 0 + 2 * ∑ i ∈ range n, (rd h (i + 1)).im * y (i + 1))| ≤
      ((n : ℝ) + 1) * (C * FS.rowMax n) * (((n : ℝ) + 3) ^ 3 * 2 ^ (-50 : ℤ) + 4 * ((n : ℝ) + 1) * uu)) :
    ‖FS.val z - tgt h m n‖ ≤ FS.coefErr n C := by
  have hR := FS.rowMax_ge n
  have hQ : 0 ≤ C * FS.rowMax n := mul_nonneg hC (by linarith)
  obtain ⟨-, -, n2⟩ := FS.err_num n hn (n + 1) le_rfl hQ
  push_cast at n2
  unfold tgt
  have es : FS.val (rd h 0) * ycoef n m 0 + 2 * ∑ i ∈ range n, FS.val (rd h (i + 1)) * ycoef n m (i + 1 : ℕ) =
      ⟨(rd h 0).re * y 0 + 2 * ∑ i ∈ range n, (rd h (i + 1)).re * y (i + 1), (rd h 0).im * y 0 + 2 * ∑ i ∈ range n, (rd h (i + 1)).im * y (i + 1)⟩ := by
    have y0 : ycoef n m 0 = (y 0 : ℂ) := by rw [hy 0]; rfl
    rw [y0]
    have e : ∀ i ∈ range n, FS.val (rd h (i + 1)) * ycoef n m (i + 1 : ℕ) = FS.val (rd h (i + 1)) * (y (i + 1) : ℂ) := fun i _ => by rw [hy]
    rw [sum_congr rfl e, show (2 : ℂ) = ((2 : ℝ) : ℂ) by norm_num]
    apply Complex.ext
    · rw [Complex.add_re, Complex.re_mul_ofReal, Complex.re_ofReal_mul, Complex.re_sum]
      simp only [Complex.re_mul_ofReal]; rfl
    · rw [Complex.add_im, Complex.im_mul_ofReal, Complex.im_ofReal_mul, Complex.im_sum]
      simp only [Complex.im_mul_ofReal]; rfl
  rw [es]
  have hd := Complex.norm_le_abs_re_add_abs_im (FS.val (⟨a, b⟩ : FC rnd) -
    (⟨(rd h 0).re * y 0 + 2 * ∑ i ∈ range n, (rd h (i + 1)).re * y (i + 1), (rd h 0).im * y 0 + 2 * ∑ i ∈ range n, (rd h (i + 1)).im * y (i + 1)⟩ : ℂ))
  rw [Complex.sub_re, Complex.sub_im] at hd
  replace hd := hd.trans (add_le_add ha hb)
  generalize (⟨(rd h 0).re * y 0 + 2 * ∑ i ∈ range n, (rd h (i + 1)).re * y (i + 1), (rd h 0).im * y 0 + 2 * ∑ i ∈ range n, (rd h (i + 1)).im * y (i + 1)⟩ : ℂ) = T at hd ⊢
  rw [show FS.val z - Complex.I ^ (-m) * T = (FS.val z - Complex.I ^ (-m) * FS.val (⟨a, b⟩ : FC rnd)) + Complex.I ^ (-m) * (FS.val (⟨a, b⟩ : FC rnd) - T) by ring]
  refine (norm_add_le _ _).trans ?_
  rw [norm_mul (Complex.I ^ (-m)), norm_zpow, Complex.norm_I, one_zpow, one_mul, FS.coefErr_eq]
  rw [mul_add (((n : ℝ) + 1) * (C * FS.rowMax n)) (((n : ℝ) + 3) ^ 3 * 2 ^ (-50 : ℤ) + 4 * ((n : ℝ) + 1) * uu)] at n2
  have := add_le_add hz hd
  refine this.trans ?_
  generalize ((n : ℝ) + 1) * (C * FS.rowMax n) * (((n : ℝ) + 3) ^ 3 * 2 ^ (-50 : ℤ) + 4 * ((n : ℝ) + 1) * uu) = X at n2 ⊢
  generalize ((n : ℝ) + 1) * (C * FS.rowMax n) * (1.6 * ((n + 4) * 2 ^ (-50 : ℤ)) + 32 * uu) = Y at n2 ⊢
  generalize ((n : ℝ) + 1) * ((n : ℝ) + 4) ^ 3 * 2 ^ (-50 : ℤ) * (C * FS.rowMax n) = Z at n2 ⊢
  linarith

end FA
end Verif.Props
