import Verif.BesselRun
import Mathlib.Topology.Algebra.Order.Floor
/-!
# The `while` loop of `sbesselj` ends (or divides by zero) for every argument that is not a zero of `j_{N-1}` or `j_{N-2}`
-/
namespace Verif
open Real Filter Topology

theorem sphJ_abs_le' (n : ℕ) {x : ℝ} (hx : x ≠ 0) : |sphJ n x| ≤ |x| ^ n / (n.factorial : ℝ) := by
  have h1 : ∀ y : ℝ, 0 < y → |sphJ n y| ≤ y ^ n / (n.factorial : ℝ) := by
    intro y hy
    refine (sphJ_abs_le n hy).trans (div_le_div_of_nonneg_left (by positivity) (by positivity) ?_)
    induction n with
    | zero => simp [oddFact]
    | succ n ih =>
      rw [Nat.factorial_succ]
      unfold oddFact
      push_cast
      exact mul_le_mul (by linarith [(Nat.cast_nonneg n : (0:ℝ) ≤ n)]) ih (by positivity) (by positivity)
  rcases lt_or_gt_of_ne hx with h | h
  · have := h1 (-x) (by linarith)
    rw [sphJ_neg, abs_mul, abs_pow, abs_neg, abs_one, one_pow, one_mul] at this
    rwa [abs_of_neg h]
  · rw [abs_of_pos h]; exact h1 x h

theorem sphJ_tendsto {x : ℝ} (hx : x ≠ 0) : Tendsto (fun n => sphJ n x) atTop (𝓝 0) := by
  refine squeeze_zero_norm (fun n => ?_) (FloorSemiring.tendsto_pow_div_factorial_atTop |x|)
  rw [Real.norm_eq_abs]
  exact sphJ_abs_le' n hx

theorem cf_cross (x : ℝ) (M : ℕ) (hM : 1 ≤ M) (k : ℕ) :
    sphJ (M + k) x * cfQ x M (k + 1) - sphJ (M + (k + 1)) x * cfQ x M k = sphJ (M - 1) x := by
  rw [← cf_sphJ x M hM k, ← cf_sphJ x M hM (k + 1)]
  have := cf_det x M k
  linear_combination sphJ (M - 1) x * this

theorem sbB_large {x : ℝ} (hx : x ≠ 0) : ∃ k0 : ℕ, ∀ n, k0 ≤ n → 2 ≤ |sbB x n| := by
  obtain ⟨k0, hk⟩ := exists_nat_gt |x|
  refine ⟨k0, fun n hn => ?_⟩
  unfold sbB
  have : (k0 : ℝ) ≤ n := by exact_mod_cast hn
  have hp : 0 < |x| := abs_pos.mpr hx
  rw [abs_div, le_div_iff₀ hp, abs_of_pos (show (0 : ℝ) < 2 * (n : ℝ) + 1 by positivity)]
  linarith

/-- The denominators grow without bound. -/
theorem cfQ_tendsto {x : ℝ} (hx : x ≠ 0) (M : ℕ) (hM : 1 ≤ M) (hJ : sphJ (M - 1) x ≠ 0) (A : ℝ) :
    ∃ K, ∀ k, K ≤ k → A ≤ |cfQ x M k| := by
  obtain ⟨k0, hk0⟩ := sbB_large hx
  have hrec : ∀ k, k0 ≤ k → 2 * |cfQ x M (k + 1)| - |cfQ x M k| ≤ |cfQ x M (k + 2)| := by
    intro k hk
    have e : cfQ x M (k + 2) = sbB x (M + k + 1) * cfQ x M (k + 1) - cfQ x M k := rfl
    have h1 := abs_sub_abs_le_abs_sub (sbB x (M + k + 1) * cfQ x M (k + 1)) (cfQ x M k)
    rw [← e, abs_mul] at h1
    have h2 := mul_le_mul_of_nonneg_right (hk0 (M + k + 1) (by omega)) (abs_nonneg (cfQ x M (k + 1)))
    linarith
  have hinc : ∃ k1, k0 ≤ k1 ∧ |cfQ x M k1| < |cfQ x M (k1 + 1)| := by
    by_contra hcon
    push Not at hcon
    have hb : ∀ k, k0 ≤ k → |cfQ x M k| ≤ |cfQ x M k0| := by
      intro k hk
      induction k, hk using Nat.le_induction with
      | base => exact le_refl _
      | succ k hk ih => exact (hcon k hk).trans ih
    have ht := (sphJ_tendsto hx)
    have h1 : Tendsto (fun k => |sphJ (M + k) x| * |cfQ x M k0| + |sphJ (M + (k + 1)) x| * |cfQ x M k0|) atTop (𝓝 0) := by
      have a1 : Tendsto (fun k => |sphJ (M + k) x|) atTop (𝓝 0) := by
        have := (ht.comp (tendsto_add_atTop_nat M)).abs
        rw [abs_zero] at this
        refine this.congr fun k => ?_
        simp only [Function.comp]
        rw [add_comm]
      have a2 : Tendsto (fun k => |sphJ (M + (k + 1)) x|) atTop (𝓝 0) := a1.comp (tendsto_add_atTop_nat 1)
      have := (a1.mul_const |cfQ x M k0|).add (a2.mul_const |cfQ x M k0|)
      simpa using this
    have h2 := h1.eventually (gt_mem_nhds (abs_pos.mpr hJ))
    obtain ⟨k, hk, hk'⟩ := (h2.and (eventually_ge_atTop k0)).exists
    have h3 := cf_cross x M hM k
    have h4 : |sphJ (M - 1) x| ≤ |sphJ (M + k) x| * |cfQ x M k0| + |sphJ (M + (k + 1)) x| * |cfQ x M k0| := by
      rw [← h3]
      refine (abs_sub _ _).trans ?_
      rw [abs_mul, abs_mul]
      exact add_le_add (mul_le_mul_of_nonneg_left (hb _ (by omega)) (abs_nonneg _)) (mul_le_mul_of_nonneg_left (hb _ hk') (abs_nonneg _))
    linarith
  obtain ⟨k1, hk1, hlt⟩ := hinc
  set δ := |cfQ x M (k1 + 1)| - |cfQ x M k1| with hδ
  have hδ0 : 0 < δ := by linarith
  have grow : ∀ j : ℕ, δ ≤ |cfQ x M (k1 + j + 1)| - |cfQ x M (k1 + j)| := by
    intro j
    induction j with
    | zero => exact le_refl _
    | succ j ih =>
      have := hrec (k1 + j) (by omega)
      show δ ≤ |cfQ x M (k1 + j + 2)| - |cfQ x M (k1 + j + 1)|
      linarith
  have lin : ∀ j : ℕ, δ * j ≤ |cfQ x M (k1 + j)| := by
    intro j
    induction j with
    | zero => simp
    | succ j ih =>
      have := grow j
      push_cast
      show _ ≤ |cfQ x M (k1 + j + 1)|
      linarith
  obtain ⟨j0, hj0⟩ := exists_nat_gt (A / δ)
  refine ⟨k1 + j0, fun k hk => ?_⟩
  obtain ⟨j, rfl⟩ : ∃ j, k = k1 + j := ⟨k - k1, by omega⟩
  refine le_trans ?_ (lin j)
  have h5 : (j0 : ℝ) ≤ j := by exact_mod_cast (by omega : j0 ≤ j)
  have h6 : A / δ ≤ j := by linarith
  rw [div_le_iff₀ hδ0] at h6
  linarith

/-- The stopping test is met eventually. -/
theorem stop_exists {x : ℝ} (hx : x ≠ 0) (M : ℕ) (hM : 1 ≤ M) (hJ : sphJ (M - 1) x ≠ 0) (hJ' : sphJ M x ≠ 0) :
    ∃ k, |1 / (cfQ x M k * cfQ x M (k + 1)) / (cfP x M (k + 1) / cfQ x M (k + 1))| ≤ 1e-20 := by
  obtain ⟨C, hC⟩ : ∃ C, ∀ n, |sphJ n x| ≤ C := by
    refine ⟨Real.exp |x|, fun n => (sphJ_abs_le' n hx).trans (Real.pow_div_factorial_le_exp _ (abs_nonneg _) n)⟩
  obtain ⟨K1, h1⟩ := cfQ_tendsto hx M hM hJ 1
  obtain ⟨K2, h2⟩ := cfQ_tendsto hx M hM hJ ((1e20 * |sphJ (M - 1) x| + C) / |sphJ M x|)
  refine ⟨max K1 K2, ?_⟩
  set k := max K1 K2 with hk
  have a1 := h1 k (le_max_left _ _)
  have a2 := h2 (k + 1) (le_trans (le_max_right _ _) (Nat.le_succ _))
  have a3 := h1 (k + 1) (le_trans (le_max_left _ _) (Nat.le_succ _))
  have q0 : cfQ x M k ≠ 0 := by intro h; rw [h, abs_zero] at a1; linarith
  have q1 : cfQ x M (k + 1) ≠ 0 := by intro h; rw [h, abs_zero] at a3; linarith
  have hp : 1e20 ≤ |cfP x M (k + 1)| := by
    have e := cf_sphJ x M hM (k + 1)
    have hJp : 0 < |sphJ (M - 1) x| := abs_pos.mpr hJ
    have hJp' : 0 < |sphJ M x| := abs_pos.mpr hJ'
    rw [div_le_iff₀ hJp'] at a2
    have e2 : sphJ (M - 1) x * cfP x M (k + 1) = sphJ M x * cfQ x M (k + 1) - sphJ (M + (k + 1)) x := by linarith
    have e3 : |sphJ (M - 1) x| * |cfP x M (k + 1)| = |sphJ M x * cfQ x M (k + 1) - sphJ (M + (k + 1)) x| := by rw [← abs_mul, e2]
    have e4 := abs_sub_abs_le_abs_sub (sphJ M x * cfQ x M (k + 1)) (sphJ (M + (k + 1)) x)
    rw [← e3, abs_mul] at e4
    have e5 := hC (M + (k + 1))
    have e6 : 1e20 * |sphJ (M - 1) x| ≤ |cfP x M (k + 1)| * |sphJ (M - 1) x| := by linarith
    exact le_of_mul_le_mul_right e6 hJp
  have p0 : cfP x M (k + 1) ≠ 0 := by intro h; rw [h, abs_zero] at hp; norm_num at hp
  have e : 1 / (cfQ x M k * cfQ x M (k + 1)) / (cfP x M (k + 1) / cfQ x M (k + 1)) = 1 / (cfQ x M k * cfP x M (k + 1)) := by
    field_simp
  rw [e, abs_div, abs_one, abs_mul]
  have h3 : 1e20 ≤ |cfQ x M k| * |cfP x M (k + 1)| := le_trans hp (le_mul_of_one_le_left (abs_nonneg _) a1)
  calc 1 / (|cfQ x M k| * |cfP x M (k + 1)|) ≤ 1 / 1e20 := one_div_le_one_div_of_le (by norm_num) h3
    _ = 1e-20 := by norm_num

/-- The loop from the state after `k` steps, up to a step `k + d` at which the stopping test is met. -/
theorem sbjLoop_total {x : ℝ} (hx : x ≠ 0) (M d k : ℕ)
    (q0 : cfQ x M k ≠ 0) (q1 : cfQ x M (k + 1) ≠ 0)
    (h2 : |1 / (cfQ x M (k + d) * cfQ x M (k + d + 1)) / (cfP x M (k + d + 1) / cfQ x M (k + d + 1))| ≤ 1e-20) :
    (∃ w, sbjLoop (x ^ 2) (sbB x (M + k) * cfQ x M k / cfQ x M (k + 1)) (1 / (cfQ x M k * cfQ x M (k + 1)))
      (cfP x M (k + 1) / cfQ x M (k + 1)) ((M : Int) + k) = some (.ok w)) ∨
    ∃ m, sbjLoop (x ^ 2) (sbB x (M + k) * cfQ x M k / cfQ x M (k + 1)) (1 / (cfQ x M k * cfQ x M (k + 1)))
      (cfP x M (k + 1) / cfQ x M (k + 1)) ((M : Int) + k) = some (.error ⟨.zeroDivisionError, m⟩) := by
  induction d generalizing k with
  | zero =>
    rw [Nat.add_zero] at h2
    by_cases hw : cfP x M (k + 1) / cfQ x M (k + 1) = 0
    · right; rw [sbjLoop, if_pos hw]; exact ⟨_, rfl⟩
    · left; rw [sbjLoop, if_neg hw, if_neg (not_lt.2 h2)]; exact ⟨_, rfl⟩
  | succ d ih =>
    by_cases hw : cfP x M (k + 1) / cfQ x M (k + 1) = 0
    · right; rw [sbjLoop, if_pos hw]; exact ⟨_, rfl⟩
    · by_cases hst : |1 / (cfQ x M k * cfQ x M (k + 1)) / (cfP x M (k + 1) / cfQ x M (k + 1))| > 1e-20
      · have hbn : ∀ n, sbB x n ≠ 0 := by
          intro n; unfold sbB
          exact div_ne_zero (by positivity) hx
        have hb1 := hbn (M + (k + 1))
        have hb2 := hbn (M + k)
        have e2 : cfQ x M (k + 2) = sbB x (M + (k + 1)) * cfQ x M (k + 1) - cfQ x M k := rfl
        have hden : 1 - x ^ 2 * (sbB x (M + k) * cfQ x M k / cfQ x M (k + 1)) / (4.0 * (((M : Int) + k + 1 : Int) : ℝ) ^ 2 - 1.0) =
            cfQ x M (k + 2) / (sbB x (M + (k + 1)) * cfQ x M (k + 1)) := by
          have e4 : (4.0 * (((M : Int) + k + 1 : Int) : ℝ) ^ 2 - 1.0) = x ^ 2 * (sbB x (M + k) * sbB x (M + (k + 1))) := by
            unfold sbB; push_cast; field_simp; norm_num; ring
          rw [e4, e2]
          field_simp
        by_cases q2 : cfQ x M (k + 2) = 0
        · right
          rw [sbjLoop, if_neg hw, if_pos hst, hden, q2, zero_div, if_pos rfl]
          exact ⟨_, rfl⟩
        · have i := ih (k + 1) q1 q2 (by rw [show k + 1 + d = k + (d + 1) by ring]; exact h2)
          have hstep : sbjLoop (x ^ 2) (sbB x (M + k) * cfQ x M k / cfQ x M (k + 1)) (1 / (cfQ x M k * cfQ x M (k + 1)))
              (cfP x M (k + 1) / cfQ x M (k + 1)) ((M : Int) + k) =
              sbjLoop (x ^ 2) (sbB x (M + (k + 1)) * cfQ x M (k + 1) / cfQ x M (k + 1 + 1)) (1 / (cfQ x M (k + 1) * cfQ x M (k + 1 + 1)))
                (cfP x M (k + 1 + 1) / cfQ x M (k + 1 + 1)) ((M : Int) + ((k + 1 : ℕ) : Int)) := by
            rw [sbjLoop, if_neg hw, if_pos hst, hden, if_neg (div_ne_zero q2 (mul_ne_zero hb1 q1))]
            simp only
            have q2' : cfQ x M (k + 1 + 1) ≠ 0 := q2
            have eu : 1 / (cfQ x M (k + 2) / (sbB x (M + (k + 1)) * cfQ x M (k + 1))) = sbB x (M + (k + 1)) * cfQ x M (k + 1) / cfQ x M (k + 1 + 1) := by
              show _ = _ / cfQ x M (k + 2)
              field_simp
            have ev : 1 / (cfQ x M k * cfQ x M (k + 1)) * (sbB x (M + (k + 1)) * cfQ x M (k + 1) / cfQ x M (k + 1 + 1) - 1) =
                1 / (cfQ x M (k + 1) * cfQ x M (k + 1 + 1)) := by
              have e3 : sbB x (M + (k + 1)) * cfQ x M (k + 1) = cfQ x M (k + 1 + 1) + cfQ x M k := by
                show _ = cfQ x M (k + 2) + _; rw [e2]; ring
              rw [e3]
              field_simp
              ring
            have ew : cfP x M (k + 1) / cfQ x M (k + 1) + 1 / (cfQ x M (k + 1) * cfQ x M (k + 1 + 1)) =
                cfP x M (k + 1 + 1) / cfQ x M (k + 1 + 1) := by
              have := cf_det x M (k + 1)
              field_simp
              linarith
            rw [eu, ev, ew, show (M : Int) + k + 1 = (M : Int) + ((k + 1 : ℕ) : Int) by push_cast; ring]
          rw [hstep]
          exact i
      · left; rw [sbjLoop, if_neg hw, if_neg hst]; exact ⟨_, rfl⟩

/-- The `while` loop of `sbesselj` ends or divides by zero. -/
theorem sbjLoop_ends_or {x : ℝ} (hx : x ≠ 0) (M : ℕ) (hM : 1 ≤ M) (hJ : sphJ (M - 1) x ≠ 0) (hJ' : sphJ M x ≠ 0) :
    (∃ w, sbjLoop (x ^ 2) 1 (x / (2.0 * ((M : Int) : ℝ) + 1.0)) (x / (2.0 * ((M : Int) : ℝ) + 1.0)) M = some (.ok w)) ∨
    ∃ m, sbjLoop (x ^ 2) 1 (x / (2.0 * ((M : Int) : ℝ) + 1.0)) (x / (2.0 * ((M : Int) : ℝ) + 1.0)) M = some (.error ⟨.zeroDivisionError, m⟩) := by
  obtain ⟨k, hk⟩ := stop_exists hx M hM hJ hJ'
  have hb : sbB x M ≠ 0 := by unfold sbB; exact div_ne_zero (by positivity) hx
  have h := sbjLoop_total hx M k 0 (by simp [cfQ]) (by simpa [cfQ] using hb) (by simpa using hk)
  simp only [cfQ, cfP, mul_one, one_mul, div_self hb, Nat.cast_zero, add_zero] at h
  have e : x / (2.0 * ((M : Int) : ℝ) + 1.0) = 1 / sbB x M := by
    unfold sbB; push_cast; rw [one_div_div]; norm_num
  rw [e]
  exact h

end Verif
