import Verif.Props.BestApproxV
import Verif.Props.Product2
/-!
# C143: analysis of an arbitrary function is near-best
-/
namespace Verif.Props
open Verif Finset Rot

namespace BA

/-- The pattern built from the samples of a function on the sphere holds only its samples, each at a place that does not depend on the function. -/
theorem double_samples (nr nc : ℕ) (h1 : 2 ≤ nr) (h2 : 2 ≤ nc) (h3 : nc % 2 = 0) (F : (Fin 3 → ℝ) → ℂ) :
    ∃ D, SPatt.init (.arr (sampleGrid nr nc F)) false = .ok ⟨.arr D⟩ ∧ D.rows = 2 * nr - 2 ∧ D.cols = nc ∧ DSym 1 D ∧
      ∀ n m, n < D.rows → m < D.cols → D.at' n m = F (pt (Real.pi * (if n < nr then n else 2 * nr - 2 - n : ℕ) / ((nr : ℝ) - 1))
        (2 * Real.pi * (if n < nr then m else (m + nc / 2) % nc : ℕ) / nc)) := by
  obtain ⟨D, hD, e, r, c, s⟩ := init_pattern (sampleGrid nr nc F) h1
  obtain ⟨D', hD', -, -, g1, g2, g3⟩ := continue_spec (sampleGrid nr nc F) 1 h1
  rw [hD] at hD'
  cases hD'
  have hv : ∀ i j, i < nr → j < nc → (sampleGrid nr nc F).at' i j = F (pt (Real.pi * i / ((nr : ℝ) - 1)) (2 * Real.pi * j / nc)) := fun i j hi hj => by
    unfold sampleGrid
    rw [Arr2.at'_ofFn hi hj]
  have hnr : ((nr : ℝ) - 1) ≠ 0 := by
    have : (2 : ℝ) ≤ nr := by exact_mod_cast h1
    intro h; linarith
  have pole : ∀ i j k, i = 0 ∨ i = nr - 1 → j < nc → k < nc → (sampleGrid nr nc F).at' i j = (sampleGrid nr nc F).at' i k := by
    intro i j k hi hj hk
    rw [hv i j (by omega) hj, hv i k (by omega) hk]
    congr 1
    have hs : Real.sin (Real.pi * i / ((nr : ℝ) - 1)) = 0 := by
      rcases hi with rfl | rfl
      · simp
      · rw [Nat.cast_sub (by omega), Nat.cast_one, mul_div_assoc, div_self hnr, mul_one, Real.sin_pi]
    unfold pt
    rw [hs]
    simp
  refine ⟨D, e, r, c, s h3, fun n m hn hm => ?_⟩
  replace r : D.rows = 2 * nr - 2 := r
  replace c : D.cols = nc := c
  rw [c] at hm
  rw [r] at hn
  have hmod : (m + nc / 2) % nc < nc := Nat.mod_lt _ (by omega)
  by_cases h : n < nr
  · rw [if_pos h, if_pos h, ← hv n m h hm]
    by_cases hp : n = 0 ∨ n = nr - 1
    · rw [g2 n m hp hm]
      change dsCell (1 * (sampleGrid nr nc F).at' n ((m + nc / 2) % nc)) _ = _
      rw [pole n ((m + nc / 2) % nc) m hp hmod hm, one_mul]
      unfold dsCell
      split
      · rename_i h0
        have := mul_self_eq_zero.mp h0
        rw [this]; simp
      · ring
    · exact g1 n m (by omega) (by change n < nr - 1; omega)
  · rw [if_neg h, if_neg h, g3 n m (by change nr ≤ n; omega) hn hm, one_mul]
    exact hv _ _ (by change 2 * nr - 2 - n < nr; omega) hmod

end BA

/-- C143: whatever function on the sphere was sampled, band-limited or not, continuous or not: the coefficients `spht` returns, and the samples `ispht` gives on any other grid, are nearly as good as
those of the best uniform approximation of degree `N` and order `M`; the factor is `1 + (N + 1) sqrt(π/2)`. -/
theorem c143_near_best (b b' : Backend) (N M : ℤ) (h0 : 0 ≤ M) (hMN : M ≤ N) (F : (Fin 3 → ℝ) → ℂ) (nr nc : ℕ) (h1 : N + 2 ≤ nr) (h2 : 2 * M + 2 ≤ nc) (h3 : nc % 2 = 0) (hsz : nr ≤ 2 ^ 28) :
    ∃ p c, SPatt.init (.arr (sampleGrid nr nc F)) false = .ok p ∧ spht b p (some N) (some M) = .ok c ∧ c.WellFormed ∧ c.nmax = N ∧ c.mmax = M ∧
      ∀ (v : ℤ → ℤ → ℂ) (ε : ℝ), (∀ θ φ, ‖F (pt θ φ) - shSeries N M v θ φ‖ ≤ ε) →
        ∑ q ∈ modes N M, ‖c.cf q.1 q.2 - v q.1 q.2‖ ^ 2 ≤ 2 * Real.pi ^ 2 * ε ^ 2 ∧
        ∀ nr' nc' : ℕ, N + 2 ≤ nr' → 2 * M + 2 ≤ nc' → nc' % 2 = 0 → ∃ q B, ispht b' c (some nr') (some nc') = .ok q ∧ q.array = .ok B ∧ B.rows = nr' ∧ B.cols = nc' ∧
          ∀ i j, i < nr' → j < nc' → ‖B.at' i j - F (pt (Real.pi * i / ((nr' : ℝ) - 1)) (2 * Real.pi * j / nc'))‖ ≤ (1 + (N + 1) * Real.sqrt (Real.pi / 2)) * ε := by
  obtain ⟨D, e1, r1, r2, s1, v1⟩ := BA.double_samples nr nc (by omega) (by omega) h3 F
  obtain ⟨c, f1, f2, f3, f4⟩ := c35_accepts b D (by omega) (by omega) (by norm_num at hsz ⊢; omega) N M h0 hMN (by omega) (by omega) (by omega)
  refine ⟨_, c, e1, f1, f4, f2, f3, fun v ε hε => ?_⟩
  have hpi := Real.pi_pos
  have he0 : 0 ≤ ε := (norm_nonneg _).trans (hε 0 0)
  have hF : ∀ θ φ, (fun x => ∑ p ∈ modes N M, v p.1 p.2 * Rot.Yv p.1.toNat p.2 x) (pt θ φ) = shSeries N M v θ φ := fun θ φ => by
    unfold shSeries; simp only [Rot.Yv_pt]
  have hε' : ∀ θ φ, ‖F (pt θ φ) - ∑ p ∈ modes N M, v p.1 p.2 * Rot.Yv p.1.toNat p.2 (pt θ φ)‖ ≤ ε := fun θ φ => by
    have t := hε θ φ
    rw [← hF] at t
    exact t
  obtain ⟨p', d, a1, a2, a3, a4, a5, a6⟩ := c90_sampled b N M h0 hMN v (fun x => ∑ p ∈ modes N M, v p.1 p.2 * Rot.Yv p.1.toNat p.2 x) hF nr nc h1 h2 h3 hsz
  obtain ⟨E, k1, k2, k3, k4, k5⟩ := BA.double_samples nr nc (by omega) (by omega) h3 (fun x => ∑ p ∈ modes N M, v p.1 p.2 * Rot.Yv p.1.toNat p.2 x)
  rw [a1] at k1
  cases k1
  obtain ⟨d', g1, x, y, hx, hy, hsum, -⟩ := c75_stable b b D E (by omega) (by omega) (by norm_num at hsz ⊢; omega) (by omega) (by omega) s1 k4 N M h0 c f1
  rw [a2] at g1
  cases g1
  have hrows : (0 : ℝ) < D.rows := by exact_mod_cast (show 0 < D.rows by omega)
  have hcols : (0 : ℝ) < D.cols := by exact_mod_cast (show 0 < D.cols by omega)
  have hS : ∑ i ∈ range D.rows, ∑ j ∈ range D.cols, ‖D.at' i j - E.at' i j‖ ^ 2 ≤ D.rows * D.cols * ε ^ 2 := by
    refine (sum_le_sum fun i hi => sum_le_sum fun j hj => ?_ : _ ≤ ∑ i ∈ range D.rows, ∑ j ∈ range D.cols, ε ^ 2).trans (by simp [mul_assoc])
    have hi' := mem_range.mp hi
    have hj' := mem_range.mp hj
    rw [v1 i j hi' hj', k5 i j (by omega) (by omega)]
    exact pow_le_pow_left₀ (norm_nonneg _) (hε' _ _) 2
  have hc : ∑ q ∈ modes N M, ‖c.cf q.1 q.2 - v q.1 q.2‖ ^ 2 ≤ 2 * Real.pi ^ 2 * ε ^ 2 := by
    calc ∑ q ∈ modes N M, ‖c.cf q.1 q.2 - v q.1 q.2‖ ^ 2 = ∑ q ∈ modes N M, ‖x q.1 q.2 - y q.1 q.2‖ ^ 2 := by
          refine sum_congr rfl fun q hq => ?_
          have hq' := mem_modes.mp hq
          rw [hx.cf f4 (by rw [f2, f3]; exact hq')]
          have e := (hy q.1 q.2 (by rw [a4, a5]; exact hq')).symm.trans (a6 q.1 q.2 (by rw [a4, a5]; exact hq'))
          rw [Option.some.inj e]
      _ ≤ _ := hsum
      _ ≤ 2 * Real.pi ^ 2 * (D.rows * D.cols * ε ^ 2) / (D.rows * D.cols) := by gcongr
      _ = _ := by field_simp
  refine ⟨hc, fun nr' nc' q1 q2 q3 => ?_⟩
  obtain ⟨q, w1, w2⟩ := ispht_samples b' c f4 c.cf (hasCoefs_cf f4) nr' nc' (by omega) (by omega) q3
  refine ⟨q, _, w1, w2, rfl, rfl, fun i j hi hj => ?_⟩
  unfold sampleAngles
  rw [Arr2.at'_ofFn hi hj, f2, f3]
  generalize Real.pi * (i : ℝ) / ((nr' : ℝ) - 1) = θ
  generalize 2 * Real.pi * (j : ℝ) / (nc' : ℝ) = φ
  obtain ⟨n, rfl⟩ := Int.eq_ofNat_of_zero_le (show 0 ≤ N by omega)
  obtain ⟨m, rfl⟩ := Int.eq_ofNat_of_zero_le h0
  have hsub : shSeries n m c.cf θ φ - shSeries n m v θ φ = shSeries n m (fun k l => c.cf k l - v k l) θ φ := by
    unfold shSeries
    rw [← sum_sub_distrib]
    exact sum_congr rfl fun p _ => by ring
  have hb := shSeries_bound n m (by omega) (fun k l => c.cf k l - v k l) θ φ
  rw [← hsub] at hb
  have hb2 : ‖shSeries n m c.cf θ φ - shSeries n m v θ φ‖ ≤ (n + 1) * Real.sqrt (Real.pi / 2) * ε := by
    refine le_of_sq_le_sq ?_ (by positivity)
    calc _ ≤ _ := hb
      _ ≤ ((n : ℝ) + 1) ^ 2 / (4 * Real.pi) * (2 * Real.pi ^ 2 * ε ^ 2) := by gcongr
      _ = _ := by
        rw [mul_pow, mul_pow, Real.sq_sqrt (by positivity)]
        field_simp
        ring
  calc ‖shSeries n m c.cf θ φ - F (pt θ φ)‖ ≤ ‖shSeries n m c.cf θ φ - shSeries n m v θ φ‖ + ‖shSeries n m v θ φ - F (pt θ φ)‖ := norm_sub_le_norm_sub_add_norm_sub _ _ _
    _ ≤ (n + 1) * Real.sqrt (Real.pi / 2) * ε + ε := add_le_add hb2 (by rw [norm_sub_rev]; exact hε θ φ)
    _ = _ := by push_cast; ring

/-- Not vacuous: the indicator function of a hemisphere is not continuous and not band-limited; the constant 1/2 is within 1/2 of it, so its analysis to degree 1 stays within
`(1 + 2 sqrt(π/2)) / 2` of it on every grid. -/
theorem c143_example : (∀ θ φ : ℝ, ‖(if 0 < pt θ φ 2 then (1 : ℂ) else 0) - shSeries 1 1 (fun n _ => if n = 0 then ((Real.sqrt (4 * Real.pi) / 2 : ℝ) : ℂ) else 0) θ φ‖ ≤ 1 / 2) ∧
    ∃ p c, SPatt.init (.arr (sampleGrid 5 6 fun x => if 0 < x 2 then (1 : ℂ) else 0)) false = .ok p ∧ spht .py p (some 1) (some 1) = .ok c ∧
      ∀ nr nc : ℕ, 3 ≤ nr → 4 ≤ nc → nc % 2 = 0 → ∃ q B, ispht .py c (some nr) (some nc) = .ok q ∧ q.array = .ok B ∧ B.rows = nr ∧ B.cols = nc ∧
        ∀ i j, i < nr → j < nc → ‖B.at' i j - (if 0 < Real.cos (Real.pi * i / ((nr : ℝ) - 1)) then 1 else 0)‖ ≤ (1 + 2 * Real.sqrt (Real.pi / 2)) / 2 := by
  have hs : ∀ θ φ : ℝ, shSeries 1 1 (fun n _ => if n = 0 then ((Real.sqrt (4 * Real.pi) / 2 : ℝ) : ℂ) else 0) θ φ = 1 / 2 := by
    intro θ φ
    have ho : modes 1 1 = {((0 : ℤ), (0 : ℤ)), (1, 0), (1, -1), (1, 1)} := by decide
    have hp : Real.sqrt (4 * Real.pi) ≠ 0 := by have := Real.pi_pos; positivity
    unfold shSeries
    rw [ho, sum_insert (by decide), sum_insert (by decide), sum_insert (by decide), sum_singleton]
    simp only [one_ne_zero, if_false, zero_mul, add_zero, if_true]
    rw [show (0 : ℤ).toNat = 0 from rfl, sphY_mean, ← Complex.ofReal_mul]
    rw [show Real.sqrt (4 * Real.pi) / 2 * (1 / Real.sqrt (4 * Real.pi)) = 1 / 2 by field_simp]
    norm_num
  have hb : ∀ θ φ : ℝ, ‖(if 0 < pt θ φ 2 then (1 : ℂ) else 0) - shSeries 1 1 (fun n _ => if n = 0 then ((Real.sqrt (4 * Real.pi) / 2 : ℝ) : ℂ) else 0) θ φ‖ ≤ 1 / 2 := by
    intro θ φ
    rw [hs]
    split <;> norm_num
  obtain ⟨p, c, e1, e2, -, -, -, h⟩ := c143_near_best .py .py 1 1 (by norm_num) (by norm_num) (fun x => if 0 < x 2 then (1 : ℂ) else 0) 5 6 (by norm_num) (by norm_num) (by norm_num) (by norm_num)
  refine ⟨hb, p, c, e1, e2, fun nr nc h1 h2 h3 => ?_⟩
  obtain ⟨q, B, f1, f2, f3, f4, f5⟩ := (h _ _ hb).2 nr nc (by omega) (by omega) h3
  refine ⟨q, B, f1, f2, f3, f4, fun i j hi hj => (f5 i j hi hj).trans (le_of_eq ?_)⟩
  push_cast; ring

end Verif.Props
