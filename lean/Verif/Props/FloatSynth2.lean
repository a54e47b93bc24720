import Verif.Props.FloatTable3
import Verif.Props.FloatSynth
import Verif.Props.Rotation
/-!
# Property C93: synthesis in double precision is accurate
-/
namespace Verif.Props
open Verif Finset
variable {rnd : ℝ → ℝ}

namespace FS

/-- One step of an accumulated sum of products. -/
theorem acc_step (hr : IsRounding rnd) {S T v yh y C R δ D Q k K : ℝ} (hQ : Q = C * R) (hC0 : 0 ≤ C) (hR0 : 0 ≤ R) (hδ0 : 0 ≤ δ) (hδ : δ ≤ 1 / 100)
    (hD : D = δ + 4 * K * uu) (hD1 : D ≤ 1 / 100) (hk0 : 0 ≤ k) (hk : k + 1 ≤ K) (hK : K ≤ 1001) (ht : tiny ≤ uu * Q / 100) (hQ1 : Q ≤ 2 ^ (1000 : ℤ))
    (hT : |T| ≤ k * Q) (hS : |S - T| ≤ k * Q * D) (hv : |v| ≤ C) (hy : |y| ≤ R) (hyh : |yh - y| ≤ δ * R) :
    |rnd (S + rnd (v * yh)) - (T + v * y)| ≤ (k + 1) * Q * D ∧ |T + v * y| ≤ (k + 1) * Q := by
  have u0 := uu_pos
  have u1 := uu_small
  have t0 := tiny_pos
  have Q0 : 0 ≤ Q := by rw [hQ]; positivity
  have bigQ : 3000 * Q ≤ 2 ^ (1022 : ℤ) := by
    refine (mul_le_mul_of_nonneg_left hQ1 (by norm_num)).trans ?_
    rw [show (1022 : ℤ) = 22 + 1000 by norm_num, zpow_add₀ (by norm_num)]
    exact mul_le_mul_of_nonneg_right (by norm_num) (by positivity)
  clear hQ1
  have r' : ∀ x : ℝ, |x| ≤ 3000 * Q → |rnd x - x| ≤ uu * |x| + tiny / 2 := fun x hx => rnd_err hr (hx.trans bigQ)
  clear bigQ
  have hvy : |v * y| ≤ Q := by rw [abs_mul, hQ]; exact mul_le_mul hv hy (abs_nonneg _) hC0
  have hd : |v * yh - v * y| ≤ δ * Q := by
    rw [← mul_sub, abs_mul, hQ, show δ * (C * R) = C * (δ * R) by ring]
    exact mul_le_mul hv hyh (abs_nonneg _) hC0
  have hδQ : δ * Q ≤ 1 / 100 * Q := mul_le_mul_of_nonneg_right hδ Q0
  have hP : |v * yh| ≤ 101 / 100 * Q := by
    have : |v * yh| ≤ |v * yh - v * y| + |v * y| := by simpa using abs_add_le (v * yh - v * y) (v * y)
    linarith
  have hp := r' (v * yh) (hP.trans (by linarith))
  set p := rnd (v * yh)
  have uQ : uu * Q ≤ 1 / 100 * Q := mul_le_mul_of_nonneg_right u1 Q0
  have uP : uu * |v * yh| ≤ uu * (101 / 100 * Q) := mul_le_mul_of_nonneg_left hP u0.le
  have hp' : |p| ≤ 103 / 100 * Q := by
    have : |p| ≤ |p - v * yh| + |v * yh| := by simpa using abs_add_le (p - v * yh) (v * yh)
    linarith
  have kQ : 0 ≤ k * Q := mul_nonneg hk0 Q0
  have hkD : k * Q * D ≤ k * Q * (1 / 100) := mul_le_mul_of_nonneg_left hD1 kQ
  have hSp : |S + p| ≤ 103 / 100 * ((k + 1) * Q) := by
    have h1 : |S| ≤ |S - T| + |T| := by simpa using abs_add_le (S - T) T
    have h2 := abs_add_le S p
    linarith
  have kK : (k + 1) * Q ≤ K * Q := mul_le_mul_of_nonneg_right hk Q0
  have KQ : K * Q ≤ 1001 * Q := mul_le_mul_of_nonneg_right hK Q0
  have he := r' (S + p) (hSp.trans (by linarith))
  have hT' : |T + v * y| ≤ (k + 1) * Q := (abs_add_le _ _).trans (by linarith)
  refine ⟨?_, hT'⟩
  have uS : uu * |S + p| ≤ uu * (103 / 100 * (K * Q)) := mul_le_mul_of_nonneg_left (hSp.trans (by linarith)) u0.le
  have e : rnd (S + p) - (T + v * y) = (rnd (S + p) - (S + p)) + ((S - T) + ((p - v * yh) + (v * yh - v * y))) := by ring
  have h3 : |rnd (S + p) - (T + v * y)| ≤ |rnd (S + p) - (S + p)| + (|S - T| + (|p - v * yh| + |v * yh - v * y|)) := by
    rw [e]
    exact (abs_add_le _ _).trans (add_le_add le_rfl ((abs_add_le _ _).trans (add_le_add le_rfl (abs_add_le _ _))))
  have K1 : uu * Q ≤ uu * (K * Q) := mul_le_mul_of_nonneg_left (by linarith) u0.le
  have fin : (k + 1) * Q * D = k * Q * D + δ * Q + 4 * (uu * (K * Q)) := by rw [hD]; ring
  rw [fin]
  linarith

/-- Accumulated sums of products. -/
theorem acc_sum (hr : IsRounding rnd) {v yh y S : ℕ → ℝ} {C R δ : ℝ} {K : ℕ} (hC : 2 ^ (-900 : ℤ) ≤ C) (hC' : C ≤ 2 ^ (900 : ℤ)) (hR : 1 / 4 ≤ R) (hR' : R ≤ 16)
    (hδ0 : 0 ≤ δ) (hD1 : δ + 4 * K * uu ≤ 1 / 100) (hK : K ≤ 1001) (S0 : S 0 = 0) (hS : ∀ k < K, S (k + 1) = rnd (S k + rnd (v k * yh k)))
    (hv : ∀ k < K, |v k| ≤ C) (hy : ∀ k < K, |y k| ≤ R) (hyh : ∀ k < K, |yh k - y k| ≤ δ * R) :
    |S K - ∑ t ∈ range K, v t * y t| ≤ K * (C * R) * (δ + 4 * K * uu) := by
  have C0 : 0 < C := lt_of_lt_of_le (by positivity) hC
  have t1 : tiny ≤ uu * (C * R) / 100 := by
    have h1 : (2 : ℝ) ^ (-900 : ℤ) * (1 / 4) ≤ C * R := mul_le_mul hC hR (by norm_num) C0.le
    have h2 : tiny ≤ uu * (2 ^ (-900 : ℤ) * (1 / 4)) / 100 := by
      have : uu * (2 ^ (-900 : ℤ) * (1 / 4)) / 100 ≥ 2 ^ (-1000 : ℤ) := by
        unfold uu
        have e : (2 : ℝ) ^ (-1000 : ℤ) = 2 ^ (-53 : ℤ) * 2 ^ (-900 : ℤ) * 2 ^ (-47 : ℤ) := by
          rw [← zpow_add₀ (by norm_num), ← zpow_add₀ (by norm_num)]; norm_num
        rw [e]
        have h : (0 : ℝ) < 2 ^ (-53 : ℤ) * 2 ^ (-900 : ℤ) := by positivity
        have h' : (2 : ℝ) ^ (-47 : ℤ) ≤ 1 / 400 := by norm_num
        generalize (2 : ℝ) ^ (-47 : ℤ) = z at *
        generalize (2 : ℝ) ^ (-53 : ℤ) = a at *
        generalize (2 : ℝ) ^ (-900 : ℤ) = b at *
        nlinarith
      refine le_trans ?_ this
      exact zpow_le_zpow_right₀ (by norm_num) (by norm_num)
    refine h2.trans ?_
    have := mul_le_mul_of_nonneg_left h1 uu_pos.le
    linarith
  have t2 : C * R ≤ 2 ^ (1000 : ℤ) := by
    have h1 : C * R ≤ 2 ^ (900 : ℤ) * 16 := mul_le_mul hC' hR' (by linarith) (by positivity)
    refine h1.trans ?_
    rw [show (16 : ℝ) = 2 ^ (4 : ℤ) by norm_num, ← zpow_add₀ (by norm_num)]
    exact zpow_le_zpow_right₀ (by norm_num) (by norm_num)
  have K0 : (0 : ℝ) ≤ K := by positivity
  have u0 := uu_pos
  have key : ∀ k ≤ K, |S k - ∑ t ∈ range k, v t * y t| ≤ k * (C * R) * (δ + 4 * K * uu) ∧ |∑ t ∈ range k, v t * y t| ≤ k * (C * R) := by
    intro k
    induction k with
    | zero => intro _; simp [S0]
    | succ k ih =>
      intro hk
      obtain ⟨i1, i2⟩ := ih (by omega)
      rw [sum_range_succ, hS k (by omega)]
      have hk' : (k : ℝ) + 1 ≤ K := by exact_mod_cast hk
      have := acc_step hr (S := S k) (T := ∑ t ∈ range k, v t * y t) (v := v k) (yh := yh k) (y := y k) (C := C) (R := R) (δ := δ) (Q := C * R) (k := k) (K := K)
        rfl C0.le (by linarith) hδ0 (by nlinarith) rfl hD1 (by positivity) hk' (by exact_mod_cast hK) t1 t2 i2 i1 (hv k (by omega)) (hy k (by omega)) (hyh k (by omega))
      push_cast
      exact this
  exact (key K le_rfl).1

/-- Entry `i` of a table row of degree `n ≤ N`. -/
theorem row_err (hr : IsRounding rnd) {N n : ℕ} {m : ℤ} (hN : N ≤ 1000) (hn : n ≤ N) (hm : m.natAbs ≤ n) (i : ℕ) :
    ∃ y : ℝ, (y : ℂ) = ycoef n m i ∧ |y| ≤ Real.sqrt ((2 * N + 1) / (4 * Real.pi)) ∧
      |yF rnd N m n i - y| ≤ ((N : ℝ) + 3) ^ 3 * 2 ^ (-50 : ℤ) * Real.sqrt ((2 * N + 1) / (4 * Real.pi)) := by
  obtain ⟨out, ex, e1, -, e2, l1, l2, h⟩ := c92_table hr n m (N + 1) (by rw [Int.abs_eq_natAbs]; omega) (by omega) (by omega)
  obtain ⟨ex', e3, -, h3⟩ := ynunm_spec n m (N + 1) hm (by omega)
  have : ex' = ex := by rw [e2] at e3; exact (Except.ok.inj e3).symm
  subst this
  have hnN : (n : ℝ) ≤ N := by exact_mod_cast hn
  have n0 : (0 : ℝ) ≤ n := by positivity
  have mono : Real.sqrt ((2 * n + 1) / (4 * Real.pi)) ≤ Real.sqrt ((2 * N + 1) / (4 * Real.pi)) :=
    Real.sqrt_le_sqrt (div_le_div_of_nonneg_right (by linarith) (by positivity))
  refine ⟨ex'.getD i 0, h3 i, ?_, ?_⟩
  · have := ycoef_le n m hm i
    rw [← h3 i, Complex.norm_real] at this
    exact this.trans mono
  · rw [yF_eq e1 i]
    by_cases hi : i < N + 1
    · have := (h i (rd out i) (ex'.getD i 0) (by unfold rd; simp [l1, hi]) (by simp [l2, hi])).2.1
      refine this.trans (mul_le_mul (mul_le_mul_of_nonneg_right ?_ (by positivity)) mono (Real.sqrt_nonneg _) (by positivity))
      exact pow_le_pow_left₀ (by positivity) (by linarith) 3
    · have z1 : rd out i = 0 := by unfold rd; simp [l1, hi]
      have z2 : ex'.getD i 0 = 0 := by simp [l2, hi]
      rw [z1, z2, sub_zero, abs_zero]
      positivity

/-- The number a pair of doubles stands for. -/
def val (z : FC rnd) : ℂ := ⟨z.re, z.im⟩

theorem val_zero : val (0 : FC rnd) = 0 := rfl

theorem uu_le16 : uu ≤ 12 / 10 ^ 17 := by
  unfold uu
  rw [show (2 : ℝ) ^ (-53 : ℤ) = 1 / 2 ^ 53 by rw [zpow_neg]; norm_num]
  norm_num

theorem four_le {x : ℝ} {i j : ℤ} (h : x ≤ 2 ^ i) (hij : i + 2 ≤ j) : 4 * x ≤ 2 ^ j := by
  calc 4 * x ≤ 2 ^ (2 : ℤ) * 2 ^ i := by
        rw [show (2 : ℝ) ^ (2 : ℤ) = 4 by norm_num]
        exact mul_le_mul_of_nonneg_left h (by norm_num)
    _ = 2 ^ (i + 2) := by rw [← zpow_add₀ (by norm_num), add_comm]
    _ ≤ 2 ^ j := zpow_le_zpow_right₀ (by norm_num) hij

/-- Rounded complex product. -/
theorem mul_err (hr : IsRounding rnd) {a b : FC rnd} {C : ℝ} (hC0 : 0 ≤ C) (ht : tiny ≤ uu * C / 100) (hC : C ≤ 2 ^ (1018 : ℤ)) (h : ‖val a‖ * ‖val b‖ ≤ C) :
    ‖val (a * b) - val a * val b‖ ≤ 5 * uu * C := by
  have u0 := uu_pos
  have u1 := uu_le16
  have t0 := tiny_pos
  have cs : ∀ x y z w : ℝ, Real.sqrt (x ^ 2 + y ^ 2) * Real.sqrt (z ^ 2 + w ^ 2) ≤ C → |x * z| + |y * w| ≤ C := by
    intro x y z w h
    refine le_trans ?_ h
    rw [← Real.sqrt_mul (by positivity)]
    apply Real.le_sqrt_of_sq_le
    rw [abs_mul, abs_mul]
    have e1 := sq_abs x
    have e2 := sq_abs y
    have e3 := sq_abs z
    have e4 := sq_abs w
    nlinarith [sq_nonneg (|x| * |w| - |y| * |z|)]
  have na : ‖val a‖ = Real.sqrt (a.re ^ 2 + a.im ^ 2) := by rw [Complex.norm_eq_sqrt_sq_add_sq]; rfl
  have nb : ‖val b‖ = Real.sqrt (b.re ^ 2 + b.im ^ 2) := by rw [Complex.norm_eq_sqrt_sq_add_sq]; rfl
  rw [na, nb] at h
  have c1 := cs a.re a.im b.re b.im h
  have c2 := cs a.re a.im b.im b.re (by rw [add_comm (b.im ^ 2)]; exact h)
  have big : C ≤ 2 ^ (1022 : ℤ) := hC.trans (zpow_le_zpow_right₀ (by norm_num) (by norm_num))
  have big2 : 4 * C ≤ 2 ^ (1022 : ℤ) := four_le hC (by norm_num)
  clear hC
  have key : ∀ x y : ℝ, |x| + |y| ≤ C → ∀ s : ℝ, (s = 1 ∨ s = -1) → |rnd (rnd x + s * rnd y) - (x + s * y)| ≤ 5 / 2 * uu * C := by
    intro x y hxy s hs
    have ax := abs_nonneg x
    have ay := abs_nonneg y
    have hs1 : |s| = 1 := by rcases hs with rfl | rfl <;> simp
    have e1 := rnd_err hr (x := x) (by linarith)
    have e2 := rnd_err hr (x := y) (by linarith)
    have hd : |rnd x + s * rnd y - (x + s * y)| ≤ 11 / 10 * uu * C := by
      have : rnd x + s * rnd y - (x + s * y) = (rnd x - x) + s * (rnd y - y) := by ring
      rw [this]
      refine (abs_add_le _ _).trans ?_
      rw [abs_mul, hs1, one_mul]
      nlinarith
    have hxs : |x + s * y| ≤ C := by
      refine (abs_add_le _ _).trans ?_
      rw [abs_mul, hs1, one_mul]; exact hxy
    have hz : |rnd x + s * rnd y| ≤ 11 / 10 * C := by
      have : rnd x + s * rnd y = (rnd x + s * rnd y - (x + s * y)) + (x + s * y) := by ring
      rw [this]
      refine (abs_add_le _ _).trans ?_
      nlinarith
    have e3 := rnd_err hr (x := rnd x + s * rnd y) (le_trans (hz.trans (mul_le_mul_of_nonneg_right (by norm_num) hC0)) big2)
    have : rnd (rnd x + s * rnd y) - (x + s * y) = (rnd (rnd x + s * rnd y) - (rnd x + s * rnd y)) + (rnd x + s * rnd y - (x + s * y)) := by ring
    rw [this]
    refine (abs_add_le _ _).trans ?_
    have : uu * |rnd x + s * rnd y| ≤ uu * (11 / 10 * C) := mul_le_mul_of_nonneg_left hz u0.le
    nlinarith
  refine (Complex.norm_le_abs_re_add_abs_im _).trans ?_
  have k1 := key _ _ c1 (-1) (Or.inr rfl)
  have k2 := key _ _ c2 1 (Or.inl rfl)
  have e1 : (val (a * b) - val a * val b).re = rnd (rnd (a.re * b.re) + -1 * rnd (a.im * b.im)) - (a.re * b.re + -1 * (a.im * b.im)) := by
    rw [Complex.sub_re, Complex.mul_re, neg_one_mul, neg_one_mul, ← sub_eq_add_neg, ← sub_eq_add_neg]; rfl
  have e2 : (val (a * b) - val a * val b).im = rnd (rnd (a.re * b.im) + 1 * rnd (a.im * b.re)) - (a.re * b.im + 1 * (a.im * b.re)) := by
    rw [Complex.sub_im, Complex.mul_im, one_mul, one_mul]; rfl
  rw [e1, e2]
  linarith

/-- Rounded product of two approximate complex numbers, the second close to a number of modulus 1. -/
theorem near_mul (hr : IsRounding rnd) {t j : FC rnd} {z w : ℂ} {E A η : ℝ} (h1 : ‖val t - z‖ ≤ E) (h2 : ‖z‖ ≤ A) (h3 : ‖val j - w‖ ≤ η) (hw : ‖w‖ = 1) (hE : E ≤ A / 100)
    (hη : η ≤ 1 / 1000) (ht : tiny ≤ uu * A / 100) (hA : A ≤ 2 ^ (1000 : ℤ)) : ‖val (t * j) - w * z‖ ≤ E + A * (1.01 * η + 5.1 * uu) := by
  have A0 : 0 ≤ A := (norm_nonneg _).trans h2
  have u0 := uu_pos
  have e0 : 0 ≤ η := (norm_nonneg _).trans h3
  have a1 : ‖val t‖ ≤ 1.01 * A := by
    have := norm_add_le (val t - z) z
    rw [sub_add_cancel] at this
    linarith
  have a2 : ‖val j‖ ≤ 1.001 := by
    have := norm_add_le (val j - w) w
    rw [sub_add_cancel, hw] at this
    linarith
  have a3 : ‖val t‖ * ‖val j‖ ≤ 1.02 * A := by
    refine (mul_le_mul a1 a2 (norm_nonneg _) (by positivity)).trans ?_
    linarith
  have b1 := mul_err hr (a := t) (b := j) (C := 1.02 * A) (by positivity) (ht.trans (by
      have : 0 ≤ uu * A := by positivity
      linarith)) (by
    calc 1.02 * A ≤ 4 * 2 ^ (1000 : ℤ) := mul_le_mul (by norm_num) hA A0 (by norm_num)
      _ ≤ 2 ^ (1018 : ℤ) := four_le le_rfl (by norm_num)) a3
  have b2 : ‖val t * (val j - w)‖ ≤ 1.01 * A * η := by
    rw [norm_mul]; exact mul_le_mul a1 h3 (norm_nonneg _) (by positivity)
  have b3 : ‖w * (val t - z)‖ ≤ E := by rw [norm_mul, hw, one_mul]; exact h1
  rw [show val (t * j) - w * z = (val (t * j) - val t * val j) + val t * (val j - w) + w * (val t - z) by ring]
  refine (norm_add_le _ _).trans ((add_le_add (norm_add_le _ _) le_rfl).trans ?_)
  clear hA ht
  linarith

/-- The largest value of a harmonic of degree `N`. -/
noncomputable def rowMax (N : ℕ) : ℝ := Real.sqrt ((2 * N + 1) / (4 * Real.pi))

/-- Bound on the error of one synthesised Fourier coefficient. -/
noncomputable def coefErr (N : ℕ) (C : ℝ) : ℝ := ((N : ℝ) + 1) * ((N : ℝ) + 4) ^ 3 * 2 ^ (-49 : ℤ) * C * rowMax N

theorem rowMax_ge (N : ℕ) : 1 / 4 ≤ rowMax N := by
  unfold rowMax
  apply Real.le_sqrt_of_sq_le
  rw [le_div_iff₀ (by positivity)]
  have := Real.pi_lt_four
  have : (0 : ℝ) ≤ N := by positivity
  linarith

theorem part_step (hrd : NoOverflow rnd) (v : ℤ → ℕ → FC rnd) (N : ℕ) (m : ℤ) (i k : ℕ) : partF v N m i (k + 1) =
    ⟨rnd ((partF v N m i k).re + rnd ((v m (m.natAbs + k)).re * yF rnd N m (m.natAbs + k) i)),
      rnd ((partF v N m i k).im + rnd ((v m (m.natAbs + k)).im * yF rnd N m (m.natAbs + k) i))⟩ := by
  rw [partF, acc_eq hrd]

theorem sum_Icc_shift (a N : ℕ) (h : a ≤ N) (f : ℕ → ℂ) : ∑ n ∈ Icc a N, f n = ∑ t ∈ range (N + 1 - a), f (a + t) := by
  have e : Icc a N = Ico a (N + 1) := by ext x; simp only [mem_Icc, mem_Ico]; omega
  rw [e, Finset.sum_Ico_eq_sum_range]

theorem err_num (N : ℕ) (hN : N ≤ 1000) (K : ℕ) (hK : K ≤ N + 1) {Q : ℝ} (hQ : 0 ≤ Q) :
    ((N : ℝ) + 3) ^ 3 * 2 ^ (-50 : ℤ) + 4 * K * uu ≤ 1 / 100 ∧
      K * Q * (((N : ℝ) + 3) ^ 3 * 2 ^ (-50 : ℤ) + 4 * K * uu) ≤ ((N : ℝ) + 1) * ((N : ℝ) + 4) ^ 3 * 2 ^ (-50 : ℤ) * Q ∧
      K * Q * (((N : ℝ) + 3) ^ 3 * 2 ^ (-50 : ℤ) + 4 * K * uu + (1.6 * ((N + 4) * 2 ^ (-50 : ℤ)) + 32 * uu)) ≤ ((N : ℝ) + 1) * ((N : ℝ) + 4) ^ 3 * 2 ^ (-50 : ℤ) * Q := by
  have n0 : (0 : ℝ) ≤ N := by positivity
  have n1 : (N : ℝ) ≤ 1000 := by exact_mod_cast hN
  have k1 : (K : ℝ) ≤ N + 1 := by exact_mod_cast hK
  have k0 : (0 : ℝ) ≤ K := by positivity
  have u5 : (2 : ℝ) ^ (-50 : ℤ) = 8 * uu := by unfold uu; norm_num
  have u0 := uu_pos
  have h1 : ((N : ℝ) + 3) ^ 3 * 2 ^ (-50 : ℤ) + 4 * K * uu ≤ ((N : ℝ) + 4) ^ 3 * 2 ^ (-50 : ℤ) := by
    rw [u5]
    have : ((N : ℝ) + 3) ^ 3 * 8 + 4 * K ≤ ((N : ℝ) + 4) ^ 3 * 8 := by nlinarith [sq_nonneg (N : ℝ)]
    nlinarith
  have h2 : K * Q ≤ ((N : ℝ) + 1) * Q := mul_le_mul_of_nonneg_right k1 hQ
  have h3 : ((N : ℝ) + 3) ^ 3 * 2 ^ (-50 : ℤ) + 4 * K * uu + (1.6 * ((N + 4) * 2 ^ (-50 : ℤ)) + 32 * uu) ≤ ((N : ℝ) + 4) ^ 3 * 2 ^ (-50 : ℤ) := by
    rw [u5]
    have : ((N : ℝ) + 3) ^ 3 * 8 + 4 * K + (12.8 * (N + 4) + 32) ≤ ((N : ℝ) + 4) ^ 3 * 8 := by nlinarith [sq_nonneg (N : ℝ)]
    nlinarith
  refine ⟨h1.trans ?_, ?_, (mul_le_mul h2 h3 (by positivity) (by positivity)).trans (le_of_eq (by ring))⟩
  · have : ((N : ℝ) + 4) ^ 3 ≤ 1004 ^ 3 := pow_le_pow_left₀ (by positivity) (by linarith) 3
    refine (mul_le_mul_of_nonneg_right this (by positivity)).trans ?_
    norm_num
  · refine (mul_le_mul h2 h1 (by positivity) (by positivity)).trans (le_of_eq (by ring))

/-- The accumulated Fourier coefficient, before it is rotated. -/
theorem part_err2 (hrd : NoOverflow rnd) {N : ℕ} (hN : N ≤ 1000) {C : ℝ} (hC : 2 ^ (-900 : ℤ) ≤ C) (hC' : C ≤ 2 ^ (900 : ℤ)) (v : ℤ → ℕ → FC rnd) {m : ℤ}
    (hm : m.natAbs ≤ N) (hv : ∀ n, m.natAbs ≤ n → n ≤ N → |(v m n).re| ≤ C ∧ |(v m n).im| ≤ C) (i : ℕ) :
    ‖val (partF v N m i (N + 1 - m.natAbs)) - ∑ n ∈ Icc m.natAbs N, val (v m n) * ycoef n m i‖ ≤
        2 * ((N + 1 - m.natAbs : ℕ) * (C * rowMax N) * (((N : ℝ) + 3) ^ 3 * 2 ^ (-50 : ℤ) + 4 * (N + 1 - m.natAbs : ℕ) * uu)) ∧
      ‖∑ n ∈ Icc m.natAbs N, val (v m n) * ycoef n m i‖ ≤ 2 * ((N + 1 - m.natAbs : ℕ) * (C * rowMax N)) := by
  have hr := hrd.toIsRounding
  have hex : ∀ t, ∃ y : ℝ, t < N + 1 - m.natAbs → (y : ℂ) = ycoef (m.natAbs + t) m i ∧ |y| ≤ rowMax N ∧
      |yF rnd N m (m.natAbs + t) i - y| ≤ ((N : ℝ) + 3) ^ 3 * 2 ^ (-50 : ℤ) * rowMax N := by
    intro t
    by_cases ht : t < N + 1 - m.natAbs
    · obtain ⟨y, h⟩ := row_err hr (m := m) hN (n := m.natAbs + t) (by omega) (by omega) i
      exact ⟨y, fun _ => h⟩
    · exact ⟨0, fun h => absurd h ht⟩
  choose y hy using hex
  have C0 : 0 ≤ C := le_trans (by positivity) hC
  have hR := rowMax_ge N
  have hQ : 0 ≤ C * rowMax N := mul_nonneg C0 (by linarith)
  obtain ⟨n1, -, -⟩ := err_num N hN (N + 1 - m.natAbs) (by omega) hQ
  have are := acc_sum hr (v := fun t => (v m (m.natAbs + t)).re) (yh := fun t => yF rnd N m (m.natAbs + t) i) (y := y)
    (S := fun k => (partF v N m i k).re) hC hC' hR (rowMax_le hN) (by positivity) n1 (by omega) rfl
    (fun k _ => by rw [part_step hrd]) (fun t ht => (hv _ (by omega) (by omega)).1) (fun t ht => (hy t ht).2.1) (fun t ht => (hy t ht).2.2)
  have aim := acc_sum hr (v := fun t => (v m (m.natAbs + t)).im) (yh := fun t => yF rnd N m (m.natAbs + t) i) (y := y)
    (S := fun k => (partF v N m i k).im) hC hC' hR (rowMax_le hN) (by positivity) n1 (by omega) rfl
    (fun k _ => by rw [part_step hrd]) (fun t ht => (hv _ (by omega) (by omega)).2) (fun t ht => (hy t ht).2.1) (fun t ht => (hy t ht).2.2)
  have es : ∑ n ∈ Icc m.natAbs N, val (v m n) * ycoef n m i =
      ⟨∑ t ∈ range (N + 1 - m.natAbs), (v m (m.natAbs + t)).re * y t, ∑ t ∈ range (N + 1 - m.natAbs), (v m (m.natAbs + t)).im * y t⟩ := by
    rw [sum_Icc_shift _ _ hm]
    apply Complex.ext
    · rw [Complex.re_sum]
      refine sum_congr rfl fun t ht => ?_
      rw [← (hy t (mem_range.mp ht)).1, Complex.re_mul_ofReal]; rfl
    · rw [Complex.im_sum]
      refine sum_congr rfl fun t ht => ?_
      rw [← (hy t (mem_range.mp ht)).1, Complex.im_mul_ofReal]; rfl
  rw [es]
  have bs : ∀ f : ℕ → ℝ, (∀ t, t < N + 1 - m.natAbs → |f t| ≤ C) → |∑ t ∈ range (N + 1 - m.natAbs), f t * y t| ≤ (N + 1 - m.natAbs : ℕ) * (C * rowMax N) := by
    intro f hf
    refine (abs_sum_le_sum_abs _ _).trans ?_
    calc ∑ t ∈ range (N + 1 - m.natAbs), |f t * y t| ≤ ∑ _t ∈ range (N + 1 - m.natAbs), C * rowMax N := sum_le_sum fun t ht => by
          rw [abs_mul]
          exact mul_le_mul (hf t (mem_range.mp ht)) (hy t (mem_range.mp ht)).2.1 (abs_nonneg _) C0
      _ = _ := by rw [sum_const, card_range, nsmul_eq_mul]
  refine ⟨(Complex.norm_le_abs_re_add_abs_im _).trans ?_, (Complex.norm_le_abs_re_add_abs_im _).trans ?_⟩
  · rw [Complex.sub_re, Complex.sub_im, two_mul]
    exact add_le_add are aim
  · rw [two_mul]
    exact add_le_add (bs _ fun t ht => (hv _ (by omega) (by omega)).1) (bs _ fun t ht => (hv _ (by omega) (by omega)).2)

theorem coefErr_eq (N : ℕ) (C : ℝ) : coefErr N C = 2 * (((N : ℝ) + 1) * ((N : ℝ) + 4) ^ 3 * 2 ^ (-50 : ℤ) * (C * rowMax N)) := by
  unfold coefErr
  rw [show (2 : ℝ) ^ (-49 : ℤ) = 2 * 2 ^ (-50 : ℤ) by norm_num]; ring

theorem coefErr_nonneg (N : ℕ) {C : ℝ} (hC : 0 ≤ C) : 0 ≤ coefErr N C := by
  have := rowMax_ge N
  unfold coefErr
  have : 0 ≤ rowMax N := by linarith
  positivity

theorem tiny_Q {C R : ℝ} (hC : 2 ^ (-900 : ℤ) ≤ C) (hR : 1 / 4 ≤ R) : tiny ≤ uu * (C * R) / 1000 := by
  have C0 : 0 < C := lt_of_lt_of_le (by positivity) hC
  have h1 : (2 : ℝ) ^ (-900 : ℤ) * (1 / 4) ≤ C * R := mul_le_mul hC hR (by norm_num) C0.le
  have u0 := uu_pos
  have h2 : uu * (2 ^ (-900 : ℤ) * (1 / 4)) ≤ uu * (C * R) := mul_le_mul_of_nonneg_left h1 u0.le
  have h3 : uu * ((2 : ℝ) ^ (-900 : ℤ) * (1 / 4)) = 2 ^ (-955 : ℤ) := by
    unfold uu
    rw [show (1 / 4 : ℝ) = 2 ^ (-2 : ℤ) by norm_num, ← zpow_add₀ (by norm_num), ← zpow_add₀ (by norm_num)]
    norm_num
  have h4 : tiny ≤ (2 : ℝ) ^ (-955 : ℤ) / 1000 := by
    rw [le_div_iff₀ (by norm_num)]
    unfold tiny
    calc (2 : ℝ) ^ (-1074 : ℤ) * 1000 ≤ 2 ^ (-1074 : ℤ) * 2 ^ (10 : ℤ) := mul_le_mul_of_nonneg_left (by norm_num) (by positivity)
      _ = 2 ^ (-1064 : ℤ) := by rw [← zpow_add₀ (by norm_num)]; norm_num
      _ ≤ _ := zpow_le_zpow_right₀ (by norm_num) (by norm_num)
  rw [h3] at h2
  linarith

/-- A pair of doubles. -/
def Fix (z : FC rnd) : Prop := rnd z.re = z.re ∧ rnd z.im = z.im

theorem part_fix (hrd : NoOverflow rnd) (v : ℤ → ℕ → FC rnd) (N : ℕ) (m : ℤ) (i k : ℕ) : Fix (partF v N m i k) := by
  cases k with
  | zero => exact ⟨rnd0 hrd, rnd0 hrd⟩
  | succ k => rw [part_step hrd]; exact ⟨hrd.idem _, hrd.idem _⟩

theorem unit_mul (hrd : NoOverflow rnd) {s x : ℝ} (hs : s * s = 1) (hx : rnd x = x) : rnd (s * x) = s * x := by
  rcases mul_self_eq_one_iff.mp hs with h | h
  · rw [h, one_mul, hx]
  · rw [h, neg_one_mul, hrd.neg, hx]

theorem val_rot (hrd : NoOverflow rnd) {K : ℕ} {jp : Int → FC rnd} (hj : PowExactTo K jp) {m : Int} (hm : |m| ≤ K) {t : FC rnd} (ht : Fix t) :
    val (t * jp m) = Complex.I ^ m * val t ∧ Fix (t * jp m) := by
  rw [← rot_eq hrd hj m hm, ← cMulIPow_eq]
  have q : ∀ e, cPowNegOne e * cPowNegOne e = 1 := cPow_sq
  have q' : ∀ e, -cPowNegOne e * -cPowNegOne e = 1 := fun e => by rw [neg_mul_neg]; exact q e
  unfold Fl.cMulIPow cMulIPow val Fix
  split
  · exact ⟨by simp only [unit_mul hrd (q _) ht.1, unit_mul hrd (q' _) ht.2], hrd.idem _, hrd.idem _⟩
  · exact ⟨by simp only [unit_mul hrd (q _) ht.1, unit_mul hrd (q _) ht.2], hrd.idem _, hrd.idem _⟩

theorem negpow_sq (m : ℤ) : ((-1 : ℝ) ^ m) * (-1) ^ m = 1 := cPow_sq m

theorem val_sym (hrd : NoOverflow rnd) (m : ℤ) {t : FC rnd} (ht : Fix t) : val ((⟨(-1) ^ m, 0⟩ : FC rnd) * t) = (-1) ^ m * val t := by
  rw [← sym_eq hrd]
  unfold val
  simp only [unit_mul hrd (negpow_sq m) ht.1, unit_mul hrd (negpow_sq m) ht.2]
  have : ((-1 : ℂ) ^ m) = (((-1 : ℝ) ^ m : ℝ) : ℂ) := by push_cast; rfl
  rw [this]
  generalize (-1 : ℝ) ^ m = z
  apply Complex.ext <;> simp

/-- Fourier coefficient `j` of column `m`, before the symmetry loop. -/
theorem GF_err (hrd : NoOverflow rnd) {K : ℕ} {jp : Int → FC rnd} (hj : PowNear K jp) {N : ℕ} (hN : N ≤ 1000) {C : ℝ} (hC : 2 ^ (-900 : ℤ) ≤ C) (hC' : C ≤ 2 ^ (900 : ℤ))
    (v : ℤ → ℕ → FC rnd) {m : ℤ} (hm : m.natAbs ≤ N) (hm' : |m| ≤ K) (hv : ∀ n, m.natAbs ≤ n → n ≤ N → |(v m n).re| ≤ C ∧ |(v m n).im| ≤ C) (j : ℕ) :
    ‖val (GF jp v N m j) - Gval (fun m n => val (v m n)) N m j‖ ≤ (if j ≤ N then coefErr N C else 0) ∧ Fix (GF jp v N m j) := by
  have hr := hrd.toIsRounding
  unfold GF
  by_cases h : j < N + 1
  · rw [if_pos h, if_pos (by omega)]
    refine ⟨?_, hrd.idem _, hrd.idem _⟩
    unfold Gval
    obtain ⟨p1, p2⟩ := part_err2 hrd hN hC hC' v hm hv j
    have C0 : 0 < C := lt_of_lt_of_le (by positivity) hC
    have hR := rowMax_ge N
    have hR' : rowMax N ≤ 16 := rowMax_le hN
    have hQ : 0 < C * rowMax N := mul_pos C0 (by linarith)
    obtain ⟨k, hk⟩ : ∃ k : ℕ, k = N + 1 - m.natAbs := ⟨_, rfl⟩
    rw [← hk] at p1 p2 ⊢
    obtain ⟨n1, -, n3⟩ := err_num N hN k (by omega) hQ.le
    have k1 : (1 : ℝ) ≤ k := by exact_mod_cast (show 1 ≤ k by omega)
    have k2 : (k : ℝ) ≤ 1001 := by exact_mod_cast (show k ≤ 1001 by omega)
    have n0 : (0 : ℝ) ≤ N := by positivity
    have n1000 : (N : ℝ) ≤ 1000 := by exact_mod_cast hN
    have hmN : ((|m| : ℤ) : ℝ) ≤ N := by exact_mod_cast (show |m| ≤ N by rw [Int.abs_eq_natAbs]; omega)
    have hm0 : (0 : ℝ) ≤ ((|m| : ℤ) : ℝ) := by exact_mod_cast abs_nonneg m
    have u0 := uu_pos
    have A1 : C * rowMax N ≤ 2 * (k * (C * rowMax N)) := by
      have : 1 * (C * rowMax N) ≤ k * (C * rowMax N) := mul_le_mul_of_nonneg_right k1 hQ.le
      linarith
    have p3 := hj m hm'
    have key := near_mul hr (t := partF v N m j k) (j := jp m) (w := Complex.I ^ m) p1 p2 p3 (by rw [norm_zpow, Complex.norm_I, one_zpow])
      (by
        have : k * (C * rowMax N) * (((N : ℝ) + 3) ^ 3 * 2 ^ (-50 : ℤ) + 4 * k * uu) ≤ k * (C * rowMax N) * (1 / 100) := mul_le_mul_of_nonneg_left n1 (by positivity)
        linarith)
      (by
        refine (mul_le_mul_of_nonneg_right (show ((|m| : ℤ) : ℝ) + 4 ≤ 1004 by linarith) (by positivity)).trans ?_
        norm_num)
      (by
        have t : tiny ≤ uu * (C * rowMax N) / 1000 := tiny_Q hC hR
        have : uu * (C * rowMax N) ≤ uu * (2 * (k * (C * rowMax N))) := mul_le_mul_of_nonneg_left A1 u0.le
        have : 0 ≤ uu * (C * rowMax N) := by positivity
        linarith)
      (by
        calc 2 * (k * (C * rowMax N)) ≤ 2 * (1001 * (2 ^ (900 : ℤ) * 16)) := by gcongr
          _ = 32032 * 2 ^ (900 : ℤ) := by ring
          _ ≤ 2 ^ (100 : ℤ) * 2 ^ (900 : ℤ) := mul_le_mul_of_nonneg_right (by norm_num) (by positivity)
          _ = 2 ^ (1000 : ℤ) := by rw [← zpow_add₀ (by norm_num)]; norm_num)
    refine key.trans ?_
    rw [coefErr_eq]
    have e5 : 0 < (2 : ℝ) ^ (-50 : ℤ) := by positivity
    generalize (2 : ℝ) ^ (-50 : ℤ) = q at *
    have b1 : 1.01 * ((((|m| : ℤ) : ℝ) + 4) * q) + 5.1 * uu ≤ 1.6 * ((N + 4) * q) + 32 * uu := by
      have : (((|m| : ℤ) : ℝ) + 4) * q ≤ (N + 4) * q := mul_le_mul_of_nonneg_right (by linarith) e5.le
      have : 0 ≤ ((N : ℝ) + 4) * q := by positivity
      linarith
    have b2 := mul_le_mul_of_nonneg_left b1 (show 0 ≤ 2 * (k * (C * rowMax N)) by positivity)
    clear hC hC'
    linarith
  · rw [if_neg h, if_neg (by omega)]
    refine ⟨?_, rnd0 hrd, rnd0 hrd⟩
    unfold Gval
    rw [sum_eq_zero (fun n hn => by
      have := mem_Icc.mp hn
      rw [ycoef_support n m j (by rw [lt_abs]; left; omega), mul_zero]), mul_zero, val_zero, sub_zero, norm_zero]

/-- An entry of a column of length `r`. -/
theorem entry_err (hrd : NoOverflow rnd) {K : ℕ} {jp : Int → FC rnd} (hj : PowNear K jp) {N : ℕ} (hN : N ≤ 1000) {C : ℝ} (hC : 2 ^ (-900 : ℤ) ≤ C) (hC' : C ≤ 2 ^ (900 : ℤ))
    (v : ℤ → ℕ → FC rnd) {m : ℤ} (hm : m.natAbs ≤ N) (hm' : |m| ≤ K) (hv : ∀ n, m.natAbs ≤ n → n ≤ N → |(v m n).re| ≤ C ∧ |(v m n).im| ≤ C) (r i : ℕ) (hi : i < r) :
    ‖val (entryF jp v N m r i) - colEntry (Gval (fun m n => val (v m n)) N m) r i‖ ≤ if i ≤ N ∨ r - i ≤ N then coefErr N C else 0 := by
  have E0 : 0 ≤ coefErr N C := coefErr_nonneg N (le_trans (by positivity) hC)
  unfold entryF colEntry
  generalize r - (if r % 2 = 0 then r / 2 - 1 else (r - 1) / 2) = a
  by_cases h : a ≤ i
  · rw [if_pos h, if_pos h]
    have g := GF_err hrd hj hN hC hC' v hm hm' hv (r - i)
    have e : Gval (fun m n => val (v m n)) N m ((i : ℤ) - r) = (-1) ^ m * Gval (fun m n => val (v m n)) N m ((r - i : ℕ) : ℤ) := by
      rw [← Gval_symm]; congr 1; omega
    rw [val_sym hrd m g.2, e, ← mul_sub, norm_mul, norm_zpow, norm_neg, norm_one, one_zpow, one_mul]
    refine g.1.trans ?_
    by_cases h2 : r - i ≤ N
    · rw [if_pos h2, if_pos (Or.inr h2)]
    · rw [if_neg h2]; split_ifs <;> simp [E0]
  · rw [if_neg h, if_neg h]
    have g := GF_err hrd hj hN hC hC' v hm hm' hv i
    refine g.1.trans ?_
    by_cases h2 : i ≤ N
    · rw [if_pos h2, if_pos (Or.inl h2)]
    · rw [if_neg h2]; split_ifs <;> simp [E0]

end FS
end Verif.Props
