import Verif.Props.NearBest
import Verif.Props.RotationV
/-!
# C144: analysis of an arbitrary tangential field is near-best
-/
namespace Verif.Props
open Verif Finset
open Verif.Rot (pt thHat phHat)

namespace BA

/-- The double sphere built from samples that change sign when a pole is passed holds only these samples and their negatives, each at a place that does not depend on the function. -/
theorem double_anti (nr nc : ℕ) (h1 : 2 ≤ nr) (h2 : 2 ≤ nc) (h3 : nc % 2 = 0) (g : ℝ → ℝ → ℂ) (hg : ∀ θ φ, Real.sin θ = 0 → g θ (φ + Real.pi) = -g θ φ) :
    ∃ D, continueSphere (sampleAngles nr nc g) (-1) = .ok D ∧ D.rows = 2 * nr - 2 ∧ D.cols = nc ∧ DSym (-1) D ∧
      ∀ n m, n < D.rows → m < D.cols → D.at' n m = (if n < nr then 1 else -1) * g (Real.pi * (if n < nr then n else 2 * nr - 2 - n : ℕ) / ((nr : ℝ) - 1))
        (2 * Real.pi * (if n < nr then m else (m + nc / 2) % nc : ℕ) / nc) := by
  obtain ⟨D, hD, r, c, g1, g2, g3⟩ := continue_spec (sampleAngles nr nc g) (-1) h1
  replace r : D.rows = 2 * nr - 2 := r
  replace c : D.cols = nc := c
  obtain ⟨z, hz, -⟩ := continue_ok (sampleAngles nr nc g) (-1 : ℂ) h1
  have hs : DSym (-1) D := by
    rw [hD] at hz
    cases hz
    exact (c20_symmetric (vcat (sampleAngles nr nc g) z) (-1) (Or.inr rfl) h3).2.2
  have hv : ∀ i j, i < nr → j < nc → (sampleAngles nr nc g).at' i j = g (Real.pi * i / ((nr : ℝ) - 1)) (2 * Real.pi * j / nc) := fun i j hi hj => by
    unfold sampleAngles
    rw [Arr2.at'_ofFn hi hj]
  have hnr : ((nr : ℝ) - 1) ≠ 0 := by
    have : (2 : ℝ) ≤ nr := by exact_mod_cast h1
    intro h; linarith
  have hnc : (nc : ℝ) ≠ 0 := by exact_mod_cast (show nc ≠ 0 by omega)
  have hhalf : ((nc / 2 : ℕ) : ℝ) = nc / 2 := by
    have : nc = 2 * (nc / 2) := by omega
    have e : (nc : ℝ) = 2 * ((nc / 2 : ℕ) : ℝ) := by exact_mod_cast this
    linarith
  have pole : ∀ i j, i = 0 ∨ i = nr - 1 → j < nc → (sampleAngles nr nc g).at' i ((j + nc / 2) % nc) = -(sampleAngles nr nc g).at' i j := by
    intro i j hi hj
    have hm : (j + nc / 2) % nc < nc := Nat.mod_lt _ (by omega)
    rw [hv i j (by omega) hj, hv i _ (by omega) hm]
    have hsn : Real.sin (Real.pi * i / ((nr : ℝ) - 1)) = 0 := by
      rcases hi with rfl | rfl
      · simp
      · rw [Nat.cast_sub (by omega), Nat.cast_one, mul_div_assoc, div_self hnr, mul_one, Real.sin_pi]
    by_cases hj' : j < nc / 2
    · rw [Nat.mod_eq_of_lt (by omega), ← hg _ _ hsn]
      congr 1
      push_cast [hhalf]
      field_simp
    · have e : (j + nc / 2) % nc = j - nc / 2 := by
        rw [show j + nc / 2 = (j - nc / 2) + nc by omega, Nat.add_mod_right, Nat.mod_eq_of_lt (by omega)]
      have q := hg _ (2 * Real.pi * ((j - nc / 2 : ℕ) : ℝ) / nc) hsn
      rw [e, eq_neg_iff_add_eq_zero, add_comm, ← eq_neg_iff_add_eq_zero, ← q]
      congr 1
      rw [Nat.cast_sub (by omega), hhalf]
      field_simp
      ring
  refine ⟨D, hD, r, c, hs, fun n m hn hm => ?_⟩
  rw [c] at hm
  rw [r] at hn
  have hmod : (m + nc / 2) % nc < nc := Nat.mod_lt _ (by omega)
  by_cases h : n < nr
  · rw [if_pos h, if_pos h, if_pos h, one_mul, ← hv n m h hm]
    by_cases hp : n = 0 ∨ n = nr - 1
    · rw [g2 n m hp hm]
      change dsCell (-1 * (sampleAngles nr nc g).at' n ((m + nc / 2) % nc)) _ = _
      rw [pole n m hp hm, neg_one_mul, neg_neg]
      unfold dsCell
      split
      · rename_i h0
        have := mul_self_eq_zero.mp h0
        rw [this]; simp
      · ring
    · exact g1 n m (by omega) (by change n < nr - 1; omega)
  · rw [if_neg h, if_neg h, if_neg h, g3 n m (by change nr ≤ n; omega) hn hm]
    congr 1
    exact hv _ _ (by change 2 * nr - 2 - n < nr; omega) hmod

theorem anti_theta (E : (Fin 3 → ℝ) → Fin 3 → ℂ) (θ φ : ℝ) (h : Real.sin θ = 0) :
    along (E (pt θ (φ + Real.pi))) (thHat θ (φ + Real.pi)) = -along (E (pt θ φ)) (thHat θ φ) := by
  have e : pt θ (φ + Real.pi) = pt θ φ := by unfold Rot.pt; rw [h]; simp
  rw [e]
  unfold along Rot.thHat
  rw [Real.cos_add_pi, Real.sin_add_pi, h]
  simp only [Fin.sum_univ_three, Matrix.cons_val]
  push_cast; ring

theorem anti_phi (E : (Fin 3 → ℝ) → Fin 3 → ℂ) (θ φ : ℝ) (h : Real.sin θ = 0) :
    along (E (pt θ (φ + Real.pi))) (phHat (φ + Real.pi)) = -along (E (pt θ φ)) (phHat φ) := by
  have e : pt θ (φ + Real.pi) = pt θ φ := by unfold Rot.pt; rw [h]; simp
  rw [e]
  unfold along Rot.phHat
  rw [Real.cos_add_pi, Real.sin_add_pi]
  simp only [Fin.sum_univ_three, Matrix.cons_val]
  push_cast; ring

theorem sampleTheta_eq (nr nc : ℕ) (E : (Fin 3 → ℝ) → Fin 3 → ℂ) : sampleTheta nr nc E = sampleAngles nr nc fun θ φ => along (E (pt θ φ)) (thHat θ φ) := rfl
theorem samplePhi_eq (nr nc : ℕ) (E : (Fin 3 → ℝ) → Fin 3 → ℂ) : samplePhi nr nc E = sampleAngles nr nc fun θ φ => along (E (pt θ φ)) (phHat φ) := rfl

/-- The pattern of the samples of a field. -/
theorem double_field (nr nc : ℕ) (h1 : 2 ≤ nr) (h2 : 2 ≤ nc) (h3 : nc % 2 = 0) (E : (Fin 3 → ℝ) → Fin 3 → ℂ) :
    ∃ T P, TPatt.init (.arr (sampleTheta nr nc E)) (.arr (samplePhi nr nc E)) false = .ok ⟨T, P⟩ ∧ T.rows = 2 * nr - 2 ∧ T.cols = nc ∧ P.rows = 2 * nr - 2 ∧ P.cols = nc ∧
      DSym (-1) T ∧ DSym (-1) P ∧ ∀ n m, n < T.rows → m < T.cols → ∃ θ φ : ℝ, ∃ s : ℂ, ‖s‖ = 1 ∧ s = (if n < nr then 1 else -1) ∧
        θ = Real.pi * (if n < nr then n else 2 * nr - 2 - n : ℕ) / ((nr : ℝ) - 1) ∧ φ = 2 * Real.pi * (if n < nr then m else (m + nc / 2) % nc : ℕ) / nc ∧
        T.at' n m = s * along (E (pt θ φ)) (thHat θ φ) ∧ P.at' n m = s * along (E (pt θ φ)) (phHat φ) := by
  obtain ⟨T, t1, t2, t3, t4, t5⟩ := double_anti nr nc h1 h2 h3 (fun θ φ => along (E (pt θ φ)) (thHat θ φ)) (fun θ φ h => anti_theta E θ φ h)
  obtain ⟨P, p1, p2, p3, p4, p5⟩ := double_anti nr nc h1 h2 h3 (fun θ φ => along (E (pt θ φ)) (phHat φ)) (fun θ φ h => anti_phi E θ φ h)
  refine ⟨T, P, ?_, t2, t3, p2, p3, t4, p4, fun n m hn hm => ⟨_, _, _, ?_, rfl, rfl, rfl, t5 n m hn hm, p5 n m (by omega) (by omega)⟩⟩
  · unfold TPatt.init
    simp only []
    rw [if_neg (by rw [not_not]; exact ⟨rfl, rfl⟩), sampleTheta_eq, samplePhi_eq, t1, p1]
    rfl
  · split <;> simp

/-- Triangle inequality for pairs. -/
theorem pair_triangle {a b c d : ℂ} {s t : ℝ} (hs : 0 ≤ s) (ht : 0 ≤ t) (h1 : ‖a‖ ^ 2 + ‖b‖ ^ 2 ≤ s ^ 2) (h2 : ‖c‖ ^ 2 + ‖d‖ ^ 2 ≤ t ^ 2) :
    ‖a + c‖ ^ 2 + ‖b + d‖ ^ 2 ≤ (s + t) ^ 2 := by
  have e1 := norm_add_le a c
  have e2 := norm_add_le b d
  have f1 : ‖a + c‖ ^ 2 ≤ (‖a‖ + ‖c‖) ^ 2 := pow_le_pow_left₀ (norm_nonneg _) e1 2
  have f2 : ‖b + d‖ ^ 2 ≤ (‖b‖ + ‖d‖) ^ 2 := pow_le_pow_left₀ (norm_nonneg _) e2 2
  have k : ‖a‖ * ‖c‖ + ‖b‖ * ‖d‖ ≤ s * t := by
    refine le_of_sq_le_sq ?_ (by positivity)
    have : (‖a‖ ^ 2 + ‖b‖ ^ 2) * (‖c‖ ^ 2 + ‖d‖ ^ 2) ≤ s ^ 2 * t ^ 2 := mul_le_mul h1 h2 (by positivity) (by positivity)
    nlinarith [sq_nonneg (‖a‖ * ‖d‖ - ‖b‖ * ‖c‖)]
  nlinarith

end BA

/-- C144: whatever tangential field was sampled, band-limited or not, continuous or not: the coefficients `vspht` returns, and the samples `vispht` gives on any other grid, are nearly as good as
those of the best uniform approximation of degree `N` and order `M`; the factor is `1 + sqrt(N (N + 2) π/2)`. -/
theorem c144_near_best (b b' : Backend) (N M : ℤ) (h0 : 0 ≤ M) (hMN : M ≤ N) (F : (Fin 3 → ℝ) → Fin 3 → ℂ) (nr nc : ℕ) (h1 : N + 2 ≤ nr) (h2 : 2 * M + 2 ≤ nc) (h3 : nc % 2 = 0)
    (hsz : nr ≤ 2 ^ 28) :
    ∃ p c, TPatt.init (.arr (sampleTheta nr nc F)) (.arr (samplePhi nr nc F)) false = .ok p ∧ vspht b p (some N) (some M) = .ok c ∧ c.WellFormed ∧ c.nmax = N ∧ c.mmax = M ∧
      ∀ (v w : ℤ → ℤ → ℂ) (G : (Fin 3 → ℝ) → Fin 3 → ℂ) (ε : ℝ), FieldCoefs N M v w G → 0 ≤ ε →
        (∀ θ φ, ‖along (F (pt θ φ)) (thHat θ φ) - along (G (pt θ φ)) (thHat θ φ)‖ ^ 2 + ‖along (F (pt θ φ)) (phHat φ) - along (G (pt θ φ)) (phHat φ)‖ ^ 2 ≤ ε ^ 2) →
        ∑ q ∈ modes N M with q.1 ≠ 0, (‖c.scoef1.cf q.1 q.2 - v q.1 q.2‖ ^ 2 + ‖c.scoef2.cf q.1 q.2 - w q.1 q.2‖ ^ 2) ≤ 2 * Real.pi ^ 2 * ε ^ 2 ∧
        ∀ nr' nc' : ℕ, N + 2 ≤ nr' → 2 * M + 2 ≤ nc' → nc' % 2 = 0 → ∃ q, vispht b' c (some nr') (some nc') = .ok q ∧ q.theta.rows = nr' ∧ q.theta.cols = nc' ∧
          ∀ i j, i < nr' → j < nc' → ‖q.theta.at' i j - (sampleTheta nr' nc' F).at' i j‖ ^ 2 + ‖q.phi.at' i j - (samplePhi nr' nc' F).at' i j‖ ^ 2 ≤
            ((1 + Real.sqrt (N * (N + 2) * (Real.pi / 2))) * ε) ^ 2 := by
  obtain ⟨T, P, e1, r1, r2, r3, r4, s1, s2, v1⟩ := BA.double_field nr nc (by omega) (by omega) h3 F
  obtain ⟨c, f1, f2, f3, f4⟩ := c35_vspht_accepts b T P (by omega) (by omega) (by omega) (by omega) (by norm_num at hsz ⊢; omega) N M h0 hMN (by omega) (by omega) (by omega)
  refine ⟨_, c, e1, f1, f4, f2, f3, fun v w G ε hG he0 hε => ?_⟩
  have hpi := Real.pi_pos
  obtain ⟨p', d, a1, a2, a3, a4, a5, a6⟩ := vspht_samples b N M h0 hMN v w _ _ hG nr nc h1 h2 h3 hsz
  obtain ⟨T', P', k1, k2, k3, k4, k5, k6, k7, k8⟩ := BA.double_field nr nc (by omega) (by omega) h3 G
  rw [BA.sampleTheta_eq, BA.samplePhi_eq, a1] at k1
  cases k1
  obtain ⟨d', g1, x, y, x', y', hx, hy, hsum, -⟩ := c77_stable b b T P T' P' (by omega) (by omega) (by omega) (by omega) (by omega) (by omega) (by omega) (by omega)
    (by norm_num at hsz ⊢; omega) s1 s2 k6 k7 N M h0 c f1
  rw [a2] at g1
  cases g1
  have hrows : (0 : ℝ) < T.rows := by exact_mod_cast (show 0 < T.rows by omega)
  have hcols : (0 : ℝ) < T.cols := by exact_mod_cast (show 0 < T.cols by omega)
  have hS : ∑ i ∈ range T.rows, ∑ j ∈ range T.cols, (‖T.at' i j - T'.at' i j‖ ^ 2 + ‖P.at' i j - P'.at' i j‖ ^ 2) ≤ T.rows * T.cols * ε ^ 2 := by
    refine (sum_le_sum fun i hi => sum_le_sum fun j hj => ?_ : _ ≤ ∑ i ∈ range T.rows, ∑ j ∈ range T.cols, ε ^ 2).trans (by simp [mul_assoc])
    have hi' := mem_range.mp hi
    have hj' := mem_range.mp hj
    obtain ⟨θ, φ, s, u0, u1, u2, u3, u4, u5⟩ := v1 i j hi' hj'
    obtain ⟨θ', φ', s', -, w1, w2, w3, w4, w5⟩ := k8 i j (by omega) (by omega)
    rw [← u1] at w1
    rw [← u2] at w2
    rw [← u3] at w3
    subst w1 w2 w3
    rw [u4, u5, w4, w5, ← mul_sub, ← mul_sub, norm_mul, norm_mul, u0, one_mul, one_mul]
    exact hε _ _
  have hc : ∑ q ∈ modes N M with q.1 ≠ 0, (‖c.scoef1.cf q.1 q.2 - v q.1 q.2‖ ^ 2 + ‖c.scoef2.cf q.1 q.2 - w q.1 q.2‖ ^ 2) ≤ 2 * Real.pi ^ 2 * ε ^ 2 := by
    calc _ = ∑ q ∈ modes N M with q.1 ≠ 0, (‖x q.1 q.2 - x' q.1 q.2‖ ^ 2 + ‖y q.1 q.2 - y' q.1 q.2‖ ^ 2) := by
          refine sum_congr rfl fun q hq => ?_
          obtain ⟨hq1, hq2⟩ := mem_filter.mp hq
          have hq' := mem_modes.mp hq1
          obtain ⟨c1, c2⟩ := hx.cf f4 (by rw [f2, f3]; exact hq') hq2
          have e := (hy q.1 q.2 (by rw [a4, a5]; exact hq') hq2).symm.trans (a6 q.1 q.2 (by rw [a4, a5]; exact hq') hq2)
          obtain ⟨i1, i2⟩ := Prod.mk.inj (Option.some.inj e)
          rw [c1, c2, i1, i2]
      _ ≤ _ := hsum
      _ ≤ 2 * Real.pi ^ 2 * (T.rows * T.cols * ε ^ 2) / (T.rows * T.cols) := by gcongr
      _ = _ := by field_simp
  refine ⟨hc, fun nr' nc' q1 q2 q3 => ?_⟩
  obtain ⟨q, q', w1, w2, w3, w4, w5, w6, w7⟩ := c78_stable b' b' c d f4 a3 (by omega) (by omega) _ _ v w (hasCoefsV_cf f4) a6 nr' nc' (by omega) (by omega) (by omega)
  obtain ⟨q'', z1, z2, z3⟩ := vispht_samples b' d a3 v w a6 _ _ (by rw [a4, a5]; exact hG) nr' nc' (by omega) (by omega) q3
  rw [w2] at z1
  cases z1
  refine ⟨q, w1, by exact_mod_cast w3, by exact_mod_cast w4, fun i j hi hj => ?_⟩
  have hb := w7 i j (by omega) (by omega)
  rw [z2, z3, f2, f3] at hb
  obtain ⟨n, rfl⟩ := Int.eq_ofNat_of_zero_le (show 0 ≤ N by omega)
  have hb2 : ‖q.theta.at' i j - (sampleTheta nr' nc' G).at' i j‖ ^ 2 + ‖q.phi.at' i j - (samplePhi nr' nc' G).at' i j‖ ^ 2 ≤ (Real.sqrt (n * (n + 2) * (Real.pi / 2)) * ε) ^ 2 := by
    rw [BA.sampleTheta_eq, BA.samplePhi_eq]
    calc _ ≤ _ := hb
      _ ≤ (n : ℝ) * (n + 2) / (4 * Real.pi) * (2 * Real.pi ^ 2 * ε ^ 2) := by push_cast; gcongr
      _ = _ := by
        rw [mul_pow, Real.sq_sqrt (by positivity)]
        field_simp
        ring
  have hg : ‖(sampleTheta nr' nc' G).at' i j - (sampleTheta nr' nc' F).at' i j‖ ^ 2 + ‖(samplePhi nr' nc' G).at' i j - (samplePhi nr' nc' F).at' i j‖ ^ 2 ≤ ε ^ 2 := by
    unfold sampleTheta samplePhi
    rw [Arr2.at'_ofFn hi hj, Arr2.at'_ofFn hi hj, Arr2.at'_ofFn hi hj, Arr2.at'_ofFn hi hj, norm_sub_rev, norm_sub_rev (along _ (phHat _))]
    exact hε _ _
  have := BA.pair_triangle (by positivity) he0 hb2 hg
  rw [sub_add_sub_cancel, sub_add_sub_cancel] at this
  refine this.trans (le_of_eq ?_)
  push_cast; ring

/-- Not vacuous: a band-limited field, changed on the upper hemisphere only by a quarter of the field turning about the axis; the result jumps across the equator. -/
theorem c144_example : ∃ (v w : ℤ → ℤ → ℂ) (G F : (Fin 3 → ℝ) → Fin 3 → ℂ), v 1 0 = 2 ∧ w 1 1 = Complex.I ∧ FieldCoefs 1 1 v w G ∧
    (∀ x, F x = if 0 < x 2 then fun i => G x i + ![-((x 1 / 4 : ℝ) : ℂ), ((x 0 / 4 : ℝ) : ℂ), 0] i else G x) ∧
    (∀ θ φ, ‖along (F (pt θ φ)) (thHat θ φ) - along (G (pt θ φ)) (thHat θ φ)‖ ^ 2 + ‖along (F (pt θ φ)) (phHat φ) - along (G (pt θ φ)) (phHat φ)‖ ^ 2 ≤ (1 / 4) ^ 2) ∧
    ∃ p c q, TPatt.init (.arr (sampleTheta 5 6 F)) (.arr (samplePhi 5 6 F)) false = .ok p ∧ vspht .py p (some 1) (some 1) = .ok c ∧ vispht .py c (some (9 : ℕ)) (some (8 : ℕ)) = .ok q ∧
      ∀ i j, i < 9 → j < 8 → ‖q.theta.at' i j - (sampleTheta 9 8 F).at' i j‖ ^ 2 + ‖q.phi.at' i j - (samplePhi 9 8 F).at' i j‖ ^ 2 ≤ ((1 + Real.sqrt (1 * (1 + 2) * (Real.pi / 2))) * (1 / 4)) ^ 2 := by
  obtain ⟨G, hG⟩ := field_exists 1 (fun n m => if n = 1 ∧ m = 0 then 2 else 0) (fun n m => if n = 1 ∧ m = 1 then Complex.I else 0)
  have hb : ∀ θ φ : ℝ, ‖along ((fun x : Fin 3 → ℝ => if 0 < x 2 then fun i => G x i + ![-((x 1 / 4 : ℝ) : ℂ), ((x 0 / 4 : ℝ) : ℂ), 0] i else G x) (pt θ φ)) (thHat θ φ) - along (G (pt θ φ)) (thHat θ φ)‖ ^ 2 +
      ‖along ((fun x : Fin 3 → ℝ => if 0 < x 2 then fun i => G x i + ![-((x 1 / 4 : ℝ) : ℂ), ((x 0 / 4 : ℝ) : ℂ), 0] i else G x) (pt θ φ)) (phHat φ) - along (G (pt θ φ)) (phHat φ)‖ ^ 2 ≤ (1 / 4) ^ 2 := by
    intro θ φ
    simp only
    split
    · have e1 : along (fun i => G (pt θ φ) i + ![-((pt θ φ 1 / 4 : ℝ) : ℂ), ((pt θ φ 0 / 4 : ℝ) : ℂ), 0] i) (thHat θ φ) - along (G (pt θ φ)) (thHat θ φ) = 0 := by
        generalize G (pt θ φ) = g
        unfold along Rot.thHat Rot.pt
        simp only [Fin.sum_univ_three, Matrix.cons_val]
        push_cast; ring
      have e2 : along (fun i => G (pt θ φ) i + ![-((pt θ φ 1 / 4 : ℝ) : ℂ), ((pt θ φ 0 / 4 : ℝ) : ℂ), 0] i) (phHat φ) - along (G (pt θ φ)) (phHat φ) = ((Real.sin θ / 4 : ℝ) : ℂ) := by
        generalize G (pt θ φ) = g
        have h := Complex.sin_sq_add_cos_sq (φ : ℂ)
        unfold along Rot.phHat Rot.pt
        simp only [Fin.sum_univ_three, Matrix.cons_val]
        push_cast
        linear_combination (Complex.sin θ / 4) * h
      rw [e1, e2, Complex.norm_real, Real.norm_eq_abs, sq_abs]
      have := Real.sin_sq_le_one θ
      norm_num
      linarith
    · norm_num
  obtain ⟨p, c, e1, e2, -, -, -, h⟩ := c144_near_best .py .py 1 1 (by norm_num) (by norm_num) (fun x : Fin 3 → ℝ => if 0 < x 2 then fun i => G x i + ![-((x 1 / 4 : ℝ) : ℂ), ((x 0 / 4 : ℝ) : ℂ), 0] i else G x)
    5 6 (by norm_num) (by norm_num) (by norm_num) (by norm_num)
  obtain ⟨q, f1, -, -, f2⟩ := (h _ _ G (1 / 4) (by exact_mod_cast hG) (by norm_num) hb).2 9 8 (by norm_num) (by norm_num) (by norm_num)
  refine ⟨fun n m => if n = 1 ∧ m = 0 then 2 else 0, fun n m => if n = 1 ∧ m = 1 then Complex.I else 0, G, _, by simp, by simp, by exact_mod_cast hG, fun x => rfl, hb, p, c, q, e1, e2, f1, fun i j hi hj => (f2 i j hi hj).trans (le_of_eq ?_)⟩
  push_cast; ring

end Verif.Props
