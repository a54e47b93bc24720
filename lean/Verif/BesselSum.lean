import Verif.BesselRun
import Mathlib.Analysis.SpecialFunctions.Trigonometric.Sinc
/-!
# `Σ (2n+1) j_n(x)^2 = 1` (the identity behind `sbesselj_sum`), with the remainder after `N` terms
-/
namespace Verif
open Real Filter Topology Finset

theorem sphJ_deriv_zero {x : ℝ} (hx : x ≠ 0) : HasDerivAt (sphJ 0) (-sphJ 1 x) x := by
  have h := (hasDerivAt_sin x).div (hasDerivAt_id x) hx
  have e : sphJ 0 = (sin / id) := by funext y; simp [sphJ]
  rw [e]
  refine h.congr_deriv ?_
  simp only [sphJ, id]
  field_simp
  ring

theorem sphJ_deriv_succ (n : ℕ) {x : ℝ} (hx : x ≠ 0) :
    HasDerivAt (sphJ (n + 1)) (sphJ n x - (n + 2 : ℝ) / x * sphJ (n + 1) x) x := by
  have hp : HasDerivAt (fun y : ℝ => y ^ (n + 2)) ((n + 2 : ℕ) * x ^ (n + 1)) x := by
    simpa using hasDerivAt_pow (n + 2) x
  have h := (sphF_hasDerivAt n x).div hp (pow_ne_zero _ hx)
  have e : sphJ (n + 1) =ᶠ[𝓝 x] (sphF (n + 1) / fun y : ℝ => y ^ (n + 2)) := by
    filter_upwards [isOpen_ne.mem_nhds hx] with y hy
    simp only [Pi.div_apply]
    rw [sphF_eq (n + 1) hy, show n + 1 + 1 = n + 2 by ring, mul_div_cancel_left₀ _ (pow_ne_zero _ hy)]
  refine (h.congr_of_eventuallyEq e).congr_deriv ?_
  rw [sphF_eq (n + 1) hx, sphF_eq n hx]
  push_cast
  field_simp
  ring

/-- `(2n+1) j_n' = n j_{n-1} - (n+1) j_{n+1}`. -/
theorem sphJ_deriv (n : ℕ) {x : ℝ} (hx : x ≠ 0) :
    ∃ d, HasDerivAt (sphJ n) d x ∧ (2 * (n : ℝ) + 1) * d = n * sphJ (n - 1) x - (n + 1) * sphJ (n + 1) x := by
  cases n with
  | zero => exact ⟨_, sphJ_deriv_zero hx, by simp⟩
  | succ n =>
    refine ⟨_, sphJ_deriv_succ n hx, ?_⟩
    have h := sphJ_succ (n + 1) (by omega) (x := x)
    simp only [Nat.add_sub_cancel] at h ⊢
    rw [h]
    push_cast
    field_simp
    ring

/-- The partial sum. -/
noncomputable def sphS (N : ℕ) (x : ℝ) : ℝ := ∑ n ∈ range N, (2 * (n : ℝ) + 1) * sphJ n x ^ 2

theorem sphS_deriv (N : ℕ) {x : ℝ} (hx : x ≠ 0) : HasDerivAt (sphS N) (-(2 * N * sphJ N x * sphJ (N - 1) x)) x := by
  induction N with
  | zero =>
    have e : sphS 0 = fun _ => (0 : ℝ) := by funext y; simp [sphS]
    rw [e]
    refine (hasDerivAt_const x (0 : ℝ)).congr_deriv ?_
    simp
  | succ N ih =>
    obtain ⟨d, hd, he⟩ := sphJ_deriv N hx
    have e : sphS (N + 1) = fun y => sphS N y + (2 * (N : ℝ) + 1) * sphJ N y ^ 2 := by
      funext y; simp [sphS, sum_range_succ]
    rw [e]
    refine (ih.add ((hd.pow 2).const_mul (2 * (N : ℝ) + 1))).congr_deriv ?_
    simp only [Nat.add_sub_cancel]
    push_cast
    have : (2 * (N : ℝ) + 1) * (2 * sphJ N x ^ (2 - 1) * d) = 2 * sphJ N x * ((2 * (N : ℝ) + 1) * d) := by
      simp; ring
    rw [this, he]
    ring

theorem sphJ_zero_limit (n : ℕ) (hn : 1 ≤ n) : Tendsto (sphJ n) (𝓝[>] 0) (𝓝 0) := by
  have h : Tendsto (fun x : ℝ => x ^ n / oddFact n) (𝓝[>] 0) (𝓝 0) := by
    have : Tendsto (fun x : ℝ => x ^ n / oddFact n) (𝓝 0) (𝓝 ((0 : ℝ) ^ n / oddFact n)) :=
      ((continuous_id.pow n).div_const _).tendsto 0
    rw [zero_pow (by omega), zero_div] at this
    exact this.mono_left nhdsWithin_le_nhds
  refine squeeze_zero_norm' ?_ h
  filter_upwards [self_mem_nhdsWithin] with x hx
  exact sphJ_abs_le n hx

theorem sphJ0_limit : Tendsto (sphJ 0) (𝓝[>] 0) (𝓝 1) := by
  have h : Tendsto sinc (𝓝 0) (𝓝 1) := by
    have := continuous_sinc.tendsto 0
    rwa [sinc_zero] at this
  refine (h.mono_left nhdsWithin_le_nhds).congr' ?_
  filter_upwards [self_mem_nhdsWithin] with x hx
  rw [sinc_of_ne_zero (ne_of_gt hx)]
  rfl

theorem sphS_limit (N : ℕ) (hN : 1 ≤ N) : Tendsto (sphS N) (𝓝[>] 0) (𝓝 1) := by
  induction N, hN using Nat.le_induction with
  | base =>
    have e : sphS 1 = fun x => sphJ 0 x ^ 2 := by funext x; simp [sphS]
    rw [e]
    simpa using sphJ0_limit.pow 2
  | succ N hN ih =>
    have e : sphS (N + 1) = fun y => sphS N y + (2 * (N : ℝ) + 1) * sphJ N y ^ 2 := by
      funext y; simp [sphS, sum_range_succ]
    rw [e]
    simpa using ih.add (((sphJ_zero_limit N hN).pow 2).const_mul (2 * (N : ℝ) + 1))

/-- **The sum and its remainder**: `|Σ_{n<N} (2n+1) j_n(x)^2 - 1| ≤ |x|^(2N) / (1·3···(2N+1) · 1·3···(2N-1))`. -/
theorem sphS_near_one (N : ℕ) (hN : 1 ≤ N) {x : ℝ} (hx : x ≠ 0) :
    |sphS N x - 1| ≤ |x| ^ (2 * N) / (oddFact N * oddFact (N - 1)) := by
  have par : ∀ y : ℝ, sphS N (-y) = sphS N y := by
    intro y
    unfold sphS
    refine sum_congr rfl fun n _ => ?_
    rw [sphJ_neg, mul_pow, ← pow_mul, mul_comm n 2, pow_mul]
    simp
  have pos : ∀ x : ℝ, 0 < x → |sphS N x - 1| ≤ x ^ (2 * N) / (oddFact N * oddFact (N - 1)) := by
    intro x hx
    have o1 := oddFact_pos N
    have o2 := oddFact_pos (N - 1)
    set g : ℝ → ℝ := fun y => y ^ (2 * N) / (oddFact N * oddFact (N - 1)) with hg
    have hgd : ∀ y, HasDerivAt g (2 * N * (y ^ (2 * N - 1) / (oddFact N * oddFact (N - 1)))) y := by
      intro y
      refine ((hasDerivAt_pow (2 * N) y).div_const _).congr_deriv ?_
      push_cast; ring
    have hg0 : Tendsto g (𝓝[>] 0) (𝓝 0) := by
      have : Tendsto g (𝓝 0) (𝓝 (g 0)) := (hgd 0).continuousAt
      have e : g 0 = 0 := by simp only [hg]; rw [zero_pow (by omega), zero_div]
      rw [e] at this
      exact this.mono_left nhdsWithin_le_nhds
    have key : ∀ s : ℝ, |s| = 1 → 0 ≤ g x + s * (sphS N x - 1) := by
      intro s hs
      have hmono : MonotoneOn (fun y => g y + s * (sphS N y - 1)) (Set.Ioi 0) := by
        have hd : ∀ y ∈ Set.Ioi (0 : ℝ), HasDerivAt (fun y => g y + s * (sphS N y - 1))
            (2 * N * (y ^ (2 * N - 1) / (oddFact N * oddFact (N - 1))) + s * (-(2 * N * sphJ N y * sphJ (N - 1) y))) y := fun y hy =>
          (hgd y).add (((sphS_deriv N (ne_of_gt hy)).sub_const 1).const_mul s)
        refine monotoneOn_of_deriv_nonneg (convex_Ioi 0) ?_ ?_ ?_
        · exact fun y hy => (hd y hy).continuousAt.continuousWithinAt
        · exact fun y hy => (hd y (interior_subset hy)).differentiableAt.differentiableWithinAt
        · intro y hy
          rw [interior_Ioi] at hy
          rw [(hd y hy).deriv]
          have b1 := sphJ_abs_le N (Set.mem_Ioi.1 hy)
          have b2 := sphJ_abs_le (N - 1) (Set.mem_Ioi.1 hy)
          have hy' : 0 < y := hy
          have b3 : |sphJ N y * sphJ (N - 1) y| ≤ y ^ (2 * N - 1) / (oddFact N * oddFact (N - 1)) := by
            rw [abs_mul]
            refine (mul_le_mul b1 b2 (abs_nonneg _) (by positivity)).trans (le_of_eq ?_)
            rw [div_mul_div_comm, ← pow_add, show N + (N - 1) = 2 * N - 1 by omega]
          have b4 : s * (sphJ N y * sphJ (N - 1) y) ≤ y ^ (2 * N - 1) / (oddFact N * oddFact (N - 1)) := by
            refine (le_abs_self _).trans ?_
            rw [abs_mul, hs, one_mul]; exact b3
          have b5 := mul_le_mul_of_nonneg_left b4 (show (0 : ℝ) ≤ 2 * N by positivity)
          nlinarith
      have hlim : Tendsto (fun y => g y + s * (sphS N y - 1)) (𝓝[>] 0) (𝓝 0) := by
        simpa using hg0.add (((sphS_limit N hN).sub_const 1).const_mul s)
      refine le_of_tendsto hlim ?_
      filter_upwards [Ioo_mem_nhdsGT hx] with y hy
      exact hmono hy.1 hx hy.2.le
    have k1 := key 1 (by simp)
    have k2 := key (-1) (by simp)
    rw [abs_le]
    constructor <;> simp only [hg] at k1 k2 <;> linarith
  rcases lt_or_gt_of_ne hx with h | h
  · have := pos (-x) (by linarith)
    rw [par] at this
    rwa [abs_of_neg h]
  · rw [abs_of_pos h]; exact pos x h

end Verif
