import Verif.BesselEnd
import Verif.BesselSum
/-!
# Exact facts about spherical Bessel functions used for the floating-point analysis

Ratios `j_n / j_{n-1}` beyond the turning point, the bound `(2n+1) j_n² ≤ 1`, a lower bound of `max(|j_0|, |j_1|)`.
-/
namespace Verif
open Real Filter Topology

/-- `j_n / j_{n-1}`. -/
noncomputable def sbRho (x : ℝ) (n : ℕ) : ℝ := sphJ n x / sphJ (n - 1) x

section
variable {x : ℝ} (hx : 0 < x)
include hx

theorem sbB_pos (n : ℕ) : 0 < sbB x n := by unfold sbB; positivity

/-- Beyond the turning point the ratio exists and is positive. -/
theorem sbRho_pos {n : ℕ} (h1 : 1 ≤ n) (hn : x ≤ n + 1 / 2) : sphJ (n - 1) x ≠ 0 ∧ 0 < sbRho x n := by
  set J := sphJ (n - 1) x with hJ
  have lim : Tendsto (fun k : ℕ => 1 / ((k : ℝ) + 1) * (x / 2) * |J|) atTop (𝓝 0) := by
    have := tendsto_one_div_add_atTop_nhds_zero_nat (𝕜 := ℝ)
    have h := (this.mul_const (x / 2)).mul_const |J|
    simpa using h
  have tail : ∀ k : ℕ, |sphJ n x - cfP x n (k + 1) / cfQ x n (k + 1) * J| ≤ 1 / ((k : ℝ) + 1) * (x / 2) * |J| := by
    intro k
    refine (contFrac_tail hx hn h1 k).trans ?_
    have q0 := cfQ_ge hx hn k
    have q1 := cfQ_ge hx hn (k + 1)
    refine mul_le_mul_of_nonneg_right (mul_le_mul_of_nonneg_right ?_ (by positivity)) (abs_nonneg _)
    refine one_div_le_one_div_of_le (by positivity) ?_
    push_cast at q1
    nlinarith
  have ne : J ≠ 0 := by
    intro h0
    have e : sphJ n x = 0 := by
      have h := tail 0
      rw [h0] at h
      simp at h
      exact h
    have c := sph_cross (n - 1) hx.ne'
    rw [show n - 1 + 1 = n by omega, e, ← hJ, h0] at c
    simp at c
    exact hx.ne' (by simpa using c.symm)
  refine ⟨ne, ?_⟩
  have ge : 1 / sbB x n ≤ sbRho x n := by
    have h : Tendsto (fun k : ℕ => 1 / ((k : ℝ) + 1) * (x / 2)) atTop (𝓝 0) := by
      have := tendsto_one_div_add_atTop_nhds_zero_nat (𝕜 := ℝ)
      simpa using this.mul_const (x / 2)
    have h2 : Tendsto (fun k : ℕ => 1 / sbB x n - 1 / ((k : ℝ) + 1) * (x / 2)) atTop (𝓝 (1 / sbB x n)) := by
      simpa using h.const_sub (1 / sbB x n)
    refine le_of_tendsto' h2 fun k => ?_
    have t := tail k
    have p : cfP x n (k + 1) / cfQ x n (k + 1) ≥ 1 / sbB x n := cfP_ge (s := 1) hx hn (by simp) k
    have e : sphJ n x = sbRho x n * J := by unfold sbRho; rw [← hJ]; field_simp
    rw [e, ← sub_mul, abs_mul] at t
    have t2 := le_of_mul_le_mul_right t (abs_pos.2 ne)
    have := (abs_le.1 t2).1
    linarith
  have := sbB_pos hx n
  have : 0 < 1 / sbB x n := by positivity
  linarith

theorem sbRho_mul {n : ℕ} (h1 : 1 ≤ n) (hn : x ≤ n + 1 / 2) : sphJ n x = sbRho x n * sphJ (n - 1) x := by
  have := (sbRho_pos hx h1 hn).1
  unfold sbRho; field_simp

theorem sbRho_rec {n : ℕ} (h1 : 1 ≤ n) (hn : x ≤ n + 1 / 2) : sbRho x n * (sbB x n - sbRho x (n + 1)) = 1 := by
  have a := sbRho_mul hx h1 hn
  have b := sbRho_mul hx (n := n + 1) (by omega) (by push_cast; linarith)
  have c := sphJ_succ n h1 (x := x)
  have ne := (sbRho_pos hx h1 hn).1
  rw [Nat.add_sub_cancel] at b
  have : sphJ (n - 1) x * (sbRho x n * (sbB x n - sbRho x (n + 1))) = sphJ (n - 1) x * 1 := by
    rw [mul_one]
    calc _ = sbB x n * (sbRho x n * sphJ (n - 1) x) - sbRho x (n + 1) * (sbRho x n * sphJ (n - 1) x) := by ring
      _ = sbB x n * sphJ n x - sphJ (n + 1) x := by rw [← a, ← b]
      _ = _ := by rw [c]; unfold sbB; ring
  exact mul_left_cancel₀ ne this

theorem sbRho_le_one {n : ℕ} (h1 : 1 ≤ n) (hn : x ≤ n + 1 / 2) : sbRho x n ≤ 1 := by
  by_contra hc
  rw [not_le] at hc
  have big : ∀ k, 1 < sbRho x (n + k) := by
    intro k
    induction k with
    | zero => exact hc
    | succ k ih =>
      have r := sbRho_rec hx (n := n + k) (by omega) (by push_cast; linarith [(Nat.cast_nonneg k : (0:ℝ) ≤ k)])
      have b := sbB_ge2 hx hn k
      have : sbB x (n + k) - sbRho x (n + k + 1) < 1 := by
        by_contra h
        rw [not_lt] at h
        nlinarith
      rw [show n + (k + 1) = n + k + 1 by ring]
      linarith
  have inc : ∀ k, |sphJ (n - 1) x| ≤ |sphJ (n - 1 + k) x| := by
    intro k
    induction k with
    | zero => exact le_refl _
    | succ k ih =>
      have m := sbRho_mul hx (n := n + k) (by omega) (by push_cast; linarith [(Nat.cast_nonneg k : (0:ℝ) ≤ k)])
      rw [show n + k = n - 1 + (k + 1) by omega, show n - 1 + (k + 1) - 1 = n - 1 + k by omega] at m
      have b := big k
      rw [show n + k = n - 1 + (k + 1) by omega] at b
      rw [m, abs_mul, abs_of_pos (by linarith : 0 < sbRho x (n - 1 + (k + 1)))]
      nlinarith [abs_nonneg (sphJ (n - 1 + k) x)]
  have t := (sphJ_tendsto hx.ne').abs
  rw [abs_zero] at t
  have t2 : Tendsto (fun k => |sphJ (n - 1 + k) x|) atTop (𝓝 0) := by
    have := (tendsto_add_atTop_iff_nat (f := fun k => |sphJ k x|) (n - 1)).2 t
    simpa [add_comm] using this
  have := ge_of_tendsto' t2 inc
  exact (sbRho_pos hx h1 hn).1 (abs_nonpos_iff.1 this)

/-- `Σ (2n+1) j_n(x)^2 ≤ 1`. -/
theorem sphS_le_one (n : ℕ) : sphS n x ≤ 1 := by
  have lim : Tendsto (fun N : ℕ => 1 + x ^ (2 * N) / (N.factorial : ℝ)) atTop (𝓝 1) := by
    have h := FloorSemiring.tendsto_pow_div_factorial_atTop (x ^ 2)
    have : Tendsto (fun N : ℕ => 1 + (x ^ 2) ^ N / (N.factorial : ℝ)) atTop (𝓝 (1 + 0)) := h.const_add 1
    simpa [pow_mul] using this
  refine ge_of_tendsto lim ?_
  filter_upwards [eventually_ge_atTop (n + 1)] with N hN
  have h := sphS_near_one N (by omega) hx.ne'
  rw [abs_of_pos hx] at h
  have fo : ∀ m : ℕ, (m.factorial : ℝ) ≤ oddFact m := by
    intro m
    induction m with
    | zero => simp [oddFact]
    | succ m ih =>
      rw [Nat.factorial_succ]
      unfold oddFact
      push_cast
      exact mul_le_mul (by linarith [(Nat.cast_nonneg m : (0:ℝ) ≤ m)]) ih (by positivity) (by positivity)
  have h2 : x ^ (2 * N) / (oddFact N * oddFact (N - 1)) ≤ x ^ (2 * N) / (N.factorial : ℝ) := by
    refine div_le_div_of_nonneg_left (by positivity) (by positivity) ?_
    have := fo N
    have := oddFact_ge (N - 1)
    have := oddFact_pos N
    nlinarith
  have h3 : sphS n x ≤ sphS N x := by
    unfold sphS
    exact Finset.sum_le_sum_of_subset_of_nonneg (fun i hi => Finset.mem_range.2 (by have := Finset.mem_range.1 hi; omega)) (fun i _ _ => by positivity)
  have := (abs_le.1 h).2
  linarith

/-- `(2n+1) j_n(x)^2 ≤ 1`. -/
theorem sphJ_sq_le (n : ℕ) : (2 * (n : ℝ) + 1) * sphJ n x ^ 2 ≤ 1 := by
  refine le_trans ?_ (sphS_le_one hx (n + 1))
  unfold sphS
  exact Finset.single_le_sum (f := fun n : ℕ => (2 * (n : ℝ) + 1) * sphJ n x ^ 2) (fun i _ => by positivity) (Finset.mem_range.2 (by omega))

theorem sphJ_le_one (n : ℕ) : |sphJ n x| ≤ 1 := by
  have := sphJ_sq_le hx n
  rw [← sq_le_one_iff_abs_le_one]
  nlinarith [sq_nonneg (sphJ n x), (Nat.cast_nonneg n : (0:ℝ) ≤ n)]

/-- `j_0` and `j_1` are not both small. -/
theorem sphJ01_lower : 1 / (3 * (1 + x)) ≤ max |sphJ 0 x| |sphJ 1 x| := by
  have key : (1 / (3 * (1 + x))) ^ 2 * 2 ≤ sphJ 0 x ^ 2 + sphJ 1 x ^ 2 := by
    have e : (sphJ 0 x ^ 2 + sphJ 1 x ^ 2) * (x ^ 2) ^ 2 = x ^ 2 * sin x ^ 2 + (sin x - x * cos x) ^ 2 := by
      simp only [sphJ]; field_simp
    have sc := sin_sq_add_cos_sq x
    -- quadratic form with determinant 1: x² sin² + (sin - x cos)² ≥ x⁴/(1+2x²)
    have q : x ^ 4 ≤ (x ^ 2 * sin x ^ 2 + (sin x - x * cos x) ^ 2) * (1 + 2 * x ^ 2) := by
      have : (x ^ 2 * sin x ^ 2 + (sin x - x * cos x) ^ 2) * (1 + 2 * x ^ 2) - x ^ 4 =
          ((1 + x ^ 2) * sin x - x * cos x) ^ 2 + (x ^ 2 * cos x - x * sin x) ^ 2 := by
        linear_combination (x ^ 4) * sc
      nlinarith [sq_nonneg ((1 + x ^ 2) * sin x - x * cos x), sq_nonneg (x ^ 2 * cos x - x * sin x)]
    have p4 : 0 < (x ^ 2) ^ 2 := by positivity
    have h1 : (1 / (3 * (1 + x))) ^ 2 * 2 * (1 + 2 * x ^ 2) ≤ 1 := by
      rw [div_pow, one_pow, div_mul_eq_mul_div, div_mul_eq_mul_div, div_le_one (by positivity)]
      nlinarith
    have h2 : (1 / (3 * (1 + x))) ^ 2 * 2 * (1 + 2 * x ^ 2) * (x ^ 2) ^ 2 ≤ (sphJ 0 x ^ 2 + sphJ 1 x ^ 2) * (x ^ 2) ^ 2 * (1 + 2 * x ^ 2) := by
      rw [e]
      nlinarith
    have p5 : 0 < (x ^ 2) ^ 2 * (1 + 2 * x ^ 2) := by positivity
    refine le_of_mul_le_mul_right (a := (x ^ 2) ^ 2 * (1 + 2 * x ^ 2)) ?_ p5
    nlinarith
  by_contra h
  rw [not_le, max_lt_iff] at h
  have p : 0 < 1 / (3 * (1 + x)) := by positivity
  have a := sq_lt_sq' (by linarith [neg_abs_le (sphJ 0 x), h.1]) (lt_of_le_of_lt (le_abs_self _) h.1)
  have b := sq_lt_sq' (by linarith [neg_abs_le (sphJ 1 x), h.2]) (lt_of_le_of_lt (le_abs_self _) h.2)
  linarith

/-- `(2n+1)/x · j_n/j_{n-1}`, between 1 and 2. -/
theorem sbG_bounds {n : ℕ} (h1 : 1 ≤ n) (hn : x ≤ n + 1 / 2) : 1 ≤ sbB x n * sbRho x n ∧ sbB x n * sbRho x n ≤ 2 := by
  have r := sbRho_rec hx h1 hn
  have p := (sbRho_pos hx h1 hn).2
  have p2 := (sbRho_pos hx (n := n + 1) (by omega) (by push_cast; linarith)).2
  have l2 := sbRho_le_one hx (n := n + 1) (by omega) (by push_cast; linarith)
  have l1 := sbRho_le_one hx h1 hn
  constructor <;> nlinarith

theorem sbG_rec {n : ℕ} (h1 : 1 ≤ n) (hn : x ≤ n + 1 / 2) :
    sbB x n * sbRho x n * (1 - x ^ 2 / (4 * ((n : ℝ) + 1) ^ 2 - 1) * (sbB x (n + 1) * sbRho x (n + 1))) = 1 := by
  have r := sbRho_rec hx h1 hn
  have e : x ^ 2 / (4 * ((n : ℝ) + 1) ^ 2 - 1) * (sbB x (n + 1) * sbRho x (n + 1)) * sbB x n = sbRho x (n + 1) := by
    have h4 : (4 * ((n : ℝ) + 1) ^ 2 - 1) = (2 * (n : ℝ) + 1) * (2 * (n : ℝ) + 3) := by ring
    rw [h4]
    unfold sbB
    push_cast
    field_simp
    ring
  calc _ = sbRho x n * (sbB x n - x ^ 2 / (4 * ((n : ℝ) + 1) ^ 2 - 1) * (sbB x (n + 1) * sbRho x (n + 1)) * sbB x n) := by ring
    _ = _ := by rw [e]; exact r

end
end Verif
