import Verif.Props.Product
/-!
# Property C114: power patterns

`mag2` of a synthesised pattern, scalar or transverse, is band limited by twice the limits of the coefficient set; its mean gives the total power.
-/
namespace Verif.Props
open Verif Finset

/-- The Hermitian product of two tangential fields at a point. -/
noncomputable def fieldDot (Eθ Eφ Fθ Fφ : ℝ → ℝ → ℂ) (θ φ : ℝ) : ℂ :=
  Eθ θ φ * (starRingEnd ℂ) (Fθ θ φ) + Eφ θ φ * (starRingEnd ℂ) (Fφ θ φ)

theorem vphase_conj (p q : ℤ × ℤ) (φ : ℝ) : vphase p φ * (starRingEnd ℂ) (vphase q φ) =
    1 / (rootDeg p.1 * rootDeg q.1) * Complex.exp (((p.2 - q.2 : ℤ) : ℂ) * (φ * Complex.I)) := by
  unfold vphase rootDeg
  rw [map_div₀, Complex.conj_ofReal, conj_exp_int, div_mul_div_comm, ← Complex.exp_add, div_mul_eq_mul_div, one_mul]
  congr 2
  push_cast; ring

/-- The Hermitian product of two expansions, in closed form. -/
theorem fieldDot_closed {N M N' M' : ℤ} {v w v' w' : ℤ → ℤ → ℂ} {Eθ Eφ Fθ Fφ : ℝ → ℝ → ℂ} (hE : JacksonField N M v w Eθ Eφ)
    (hF : JacksonField N' M' v' w' Fθ Fφ) (θ φ : ℝ) : fieldDot Eθ Eφ Fθ Fφ θ φ =
      ∑ p ∈ modes N M with p.1 ≠ 0, ∑ q ∈ modes N' M' with q.1 ≠ 0,
        ((v p.1 p.2 * (starRingEnd ℂ) (v' q.1 q.2) + w p.1 p.2 * (starRingEnd ℂ) (w' q.1 q.2)) / (rootDeg p.1 * rootDeg q.1) *
          (((tPart p.1.toNat p.2 θ * tPart q.1.toNat q.2 θ + hPart p.1.toNat p.2 θ * hPart q.1.toNat q.2 θ : ℝ) : ℂ) *
            Complex.exp (((p.2 - q.2 : ℤ) : ℂ) * (φ * Complex.I))) +
        (v p.1 p.2 * (starRingEnd ℂ) (w' q.1 q.2) + w p.1 p.2 * (starRingEnd ℂ) (v' q.1 q.2)) / (rootDeg p.1 * rootDeg q.1) *
          (((hPart p.1.toNat p.2 θ * tPart q.1.toNat q.2 θ + tPart p.1.toNat p.2 θ * hPart q.1.toNat q.2 θ : ℝ) : ℂ) *
            Complex.exp (((p.2 - q.2 : ℤ) : ℂ) * (φ * Complex.I)))) := by
  unfold fieldDot
  rw [(jackson_closed hE θ φ).1, (jackson_closed hE θ φ).2, (jackson_closed hF θ φ).1, (jackson_closed hF θ φ).2, map_sum, map_sum, sum_mul_sum, sum_mul_sum,
    ← sum_add_distrib]
  refine sum_congr rfl fun p _ => ?_
  rw [← sum_add_distrib]
  refine sum_congr rfl fun q _ => ?_
  have h := vphase_conj p q φ
  simp only [map_mul, map_sub, map_neg, Complex.conj_ofReal, Complex.conj_I]
  push_cast at h ⊢
  set A := vphase p φ
  set B := (starRingEnd ℂ) (vphase q φ)
  set V := (starRingEnd ℂ) (v' q.1 q.2)
  set W := (starRingEnd ℂ) (w' q.1 q.2)
  set t := (tPart p.1.toNat p.2 θ : ℂ)
  set k := (hPart p.1.toNat p.2 θ : ℂ)
  set t' := (tPart q.1.toNat q.2 θ : ℂ)
  set k' := (hPart q.1.toNat q.2 θ : ℂ)
  linear_combination ((v p.1 p.2 * V + w p.1 p.2 * W) * (t * t' + k * k') + (v p.1 p.2 * W + w p.1 p.2 * V) * (k * t' + t * k')) * h -
    (v p.1 p.2 * t + w p.1 p.2 * k) * (V * t' + W * k') * A * B * Complex.I_mul_I

theorem band_span {N M : ℤ} (l : ℤ) (K : ℕ) (P : Polynomial ℝ) (hP : DegLE P (K - l.natAbs)) (hK : l.natAbs ≤ K) (h1 : (K : ℤ) ≤ N) (h2 : (l.natAbs : ℤ) ≤ M)
    (g : ℝ → ℝ) (hg : ∀ θ, g θ = Real.sin θ ^ l.natAbs * P.eval (Real.cos θ)) :
    BandLimited N M fun θ φ => ((g θ : ℝ) : ℂ) * Complex.exp ((l : ℂ) * (φ * Complex.I)) := by
  obtain ⟨a, ha⟩ := theta_span l K P (DegLE.nat (d := K - l.natAbs) (hP.mono (by omega))) hK
  have e : ∀ θ φ : ℝ, ((g θ : ℝ) : ℂ) * Complex.exp ((l : ℂ) * (φ * Complex.I)) = ∑ k ∈ Icc l.natAbs K, (a k : ℂ) * sphY k l θ φ := fun θ φ => by
    rw [hg, ha]
    push_cast
    rw [sum_mul]
    unfold sphY
    exact sum_congr rfl fun k _ => by ring
  refine band_congr e (band_sum _ _ fun k hk => band_mul _ (band_one k l ?_))
  rw [mem_Icc] at hk
  rw [isMode_iff]
  omega

/-- The Hermitian product of two band-limited fields is band limited, and the limits add. -/
theorem band_fieldDot {N M N' M' : ℤ} {v w v' w' : ℤ → ℤ → ℂ} {Eθ Eφ Fθ Fφ : ℝ → ℝ → ℂ} (hE : JacksonField N M v w Eθ Eφ)
    (hF : JacksonField N' M' v' w' Fθ Fφ) : BandLimited (N + N') (M + M') (fieldDot Eθ Eφ Fθ Fφ) := by
  classical
  refine band_congr (fieldDot_closed hE hF) (band_sum _ _ fun p hp => band_sum _ _ fun q hq => ?_)
  have h1 := mem_modes.mp (mem_filter.mp hp).1
  have h2 := mem_modes.mp (mem_filter.mp hq).1
  rw [isMode_iff] at h1 h2
  obtain ⟨P, Q, hP, hQ, hv⟩ := vec_poly p.1.toNat q.1.toNat p.2 q.2 (by omega) (by omega)
  refine band_add (band_mul _ ?_) (band_mul _ ?_)
  · exact band_span (p.2 - q.2) (p.1.toNat + q.1.toNat) P (hP.mono (by push_cast; omega)) (by omega) (by omega) (by omega) _ fun θ => (hv θ).1
  · exact band_span (p.2 - q.2) (p.1.toNat + q.1.toNat) Q (hQ.mono (by push_cast; omega)) (by omega) (by omega) (by omega) _ fun θ => (hv θ).2

/-! ## The total power -/

theorem sphInt_separate (g : ℝ → ℝ) (j : ℤ) : sphInt (fun θ φ => ((g θ : ℝ) : ℂ) * Complex.exp ((j : ℂ) * (φ * Complex.I))) =
    (if j = 0 then (2 * Real.pi : ℂ) else 0) * ((∫ θ in (0 : ℝ)..Real.pi, g θ * Real.sin θ : ℝ) : ℂ) := by
  unfold sphInt
  have e : ∀ φ θ : ℝ, ((g θ : ℝ) : ℂ) * Complex.exp ((j : ℂ) * (φ * Complex.I)) * Real.sin θ =
      Complex.exp ((j : ℂ) * (φ * Complex.I)) * ((g θ * Real.sin θ : ℝ) : ℂ) := fun φ θ => by push_cast; ring
  simp only [e, intervalIntegral.integral_const_mul, intervalIntegral.integral_mul_const]
  rw [integral_azimuth, intervalIntegral.integral_ofReal]

/-- Parseval's equation for tangential fields. -/
theorem fieldDot_integral {N M : ℤ} {v w v' w' : ℤ → ℤ → ℂ} {Eθ Eφ Fθ Fφ : ℝ → ℝ → ℂ} (hE : JacksonField N M v w Eθ Eφ)
    (hF : JacksonField N M v' w' Fθ Fφ) : sphInt (fieldDot Eθ Eφ Fθ Fφ) =
      ∑ p ∈ modes N M with p.1 ≠ 0, (v p.1 p.2 * (starRingEnd ℂ) (v' p.1 p.2) + w p.1 p.2 * (starRingEnd ℂ) (w' p.1 p.2)) := by
  have hh := fieldDot_closed hE hF
  have e : fieldDot Eθ Eφ Fθ Fφ = fun θ φ => fieldDot Eθ Eφ Fθ Fφ θ φ := rfl
  rw [e]
  simp only [hh]
  have c1 : ∀ (n : ℕ) (m : ℤ), Continuous (tPart n m) := continuous_tPart
  have c2 : ∀ (n : ℕ) (m : ℤ), Continuous (hPart n m) := continuous_hPart
  have cT : ∀ p q : ℤ × ℤ, Continuous fun x : ℝ × ℝ => ((tPart p.1.toNat p.2 x.2 * tPart q.1.toNat q.2 x.2 + hPart p.1.toNat p.2 x.2 * hPart q.1.toNat q.2 x.2 : ℝ) : ℂ) *
      Complex.exp (((p.2 - q.2 : ℤ) : ℂ) * (x.1 * Complex.I)) := fun p q => by
    have a1 := c1 p.1.toNat p.2
    have a2 := c1 q.1.toNat q.2
    have a3 := c2 p.1.toNat p.2
    have a4 := c2 q.1.toNat q.2
    fun_prop
  have cH : ∀ p q : ℤ × ℤ, Continuous fun x : ℝ × ℝ => ((hPart p.1.toNat p.2 x.2 * tPart q.1.toNat q.2 x.2 + tPart p.1.toNat p.2 x.2 * hPart q.1.toNat q.2 x.2 : ℝ) : ℂ) *
      Complex.exp (((p.2 - q.2 : ℤ) : ℂ) * (x.1 * Complex.I)) := fun p q => by
    have a1 := c1 p.1.toNat p.2
    have a2 := c1 q.1.toNat q.2
    have a3 := c2 p.1.toNat p.2
    have a4 := c2 q.1.toNat q.2
    fun_prop
  rw [sphInt_sum _ _ fun p _ => continuous_finsetSum _ fun q _ => ((continuous_const.mul (cT p q)).add (continuous_const.mul (cH p q)))]
  refine sum_congr rfl fun p hp => ?_
  rw [sphInt_sum _ _ fun q _ => ((continuous_const.mul (cT p q)).add (continuous_const.mul (cH p q)))]
  have hp0 := (mem_filter.mp hp).2
  have hpm := mem_modes.mp (mem_filter.mp hp).1
  have key : ∀ q : ℤ × ℤ, q ∈ modes N M → q.1 ≠ 0 → sphInt (fun θ φ =>
      (v p.1 p.2 * (starRingEnd ℂ) (v' q.1 q.2) + w p.1 p.2 * (starRingEnd ℂ) (w' q.1 q.2)) / (rootDeg p.1 * rootDeg q.1) *
          (((tPart p.1.toNat p.2 θ * tPart q.1.toNat q.2 θ + hPart p.1.toNat p.2 θ * hPart q.1.toNat q.2 θ : ℝ) : ℂ) *
            Complex.exp (((p.2 - q.2 : ℤ) : ℂ) * (φ * Complex.I))) +
        (v p.1 p.2 * (starRingEnd ℂ) (w' q.1 q.2) + w p.1 p.2 * (starRingEnd ℂ) (v' q.1 q.2)) / (rootDeg p.1 * rootDeg q.1) *
          (((hPart p.1.toNat p.2 θ * tPart q.1.toNat q.2 θ + tPart p.1.toNat p.2 θ * hPart q.1.toNat q.2 θ : ℝ) : ℂ) *
            Complex.exp (((p.2 - q.2 : ℤ) : ℂ) * (φ * Complex.I)))) =
      if p = q then v p.1 p.2 * (starRingEnd ℂ) (v' q.1 q.2) + w p.1 p.2 * (starRingEnd ℂ) (w' q.1 q.2) else 0 := by
    intro q hq hq0
    have hqm := mem_modes.mp hq
    have two : ∀ A B : ℝ → ℝ → ℂ, (Continuous fun x : ℝ × ℝ => A x.2 x.1) → (Continuous fun x : ℝ × ℝ => B x.2 x.1) →
        sphInt (fun θ φ => A θ φ + B θ φ) = sphInt A + sphInt B := fun A B hA hB => by
      have := sphInt_sum (Finset.univ : Finset (Fin 2)) ![A, B] (by intro i _; fin_cases i; exacts [hA, hB])
      simpa [Fin.sum_univ_two] using this
    rw [two _ _ (continuous_const.mul (cT p q)) (continuous_const.mul (cH p q)), sphInt_const_mul, sphInt_const_mul,
      sphInt_separate (fun θ => tPart p.1.toNat p.2 θ * tPart q.1.toNat q.2 θ + hPart p.1.toNat p.2 θ * hPart q.1.toNat q.2 θ),
      sphInt_separate (fun θ => hPart p.1.toNat p.2 θ * tPart q.1.toNat q.2 θ + tPart p.1.toNat p.2 θ * hPart q.1.toNat q.2 θ)]
    rw [isMode_iff] at hpm hqm
    by_cases hm : p.2 = q.2
    · rw [if_pos (by omega), ← hm, vec_cross, vec_ortho _ _ _ (by omega) (by omega)]
      by_cases hn : p.1 = q.1
      · have hpq : p = q := Prod.ext hn hm
        subst hpq
        rw [if_pos rfl, if_pos rfl, rootDeg_sq hpm.1]
        have hpi : (Real.pi : ℂ) ≠ 0 := by exact_mod_cast Real.pi_ne_zero
        have hc : ((p.1 : ℤ) : ℂ) = (p.1.toNat : ℂ) := by exact_mod_cast (Int.toNat_of_nonneg hpm.1).symm
        have a1 : (p.1.toNat : ℂ) ≠ 0 := by exact_mod_cast (show p.1.toNat ≠ 0 by omega)
        have a2 : (p.1.toNat : ℂ) + 1 ≠ 0 := by exact_mod_cast (show p.1.toNat + 1 ≠ 0 by omega)
        rw [hc]
        push_cast
        field_simp
        ring
      · rw [if_neg (by omega), if_neg (fun k => hn (congrArg Prod.fst k))]
        simp
    · rw [if_neg (by omega), if_neg (fun k => hm (congrArg Prod.snd k))]
      simp
  rw [sum_congr rfl fun q hq => key q (mem_filter.mp hq).1 (mem_filter.mp hq).2, sum_ite_eq, if_pos hp]

theorem sphY_mean (θ φ : ℝ) : sphY 0 0 θ φ = ((1 / Real.sqrt (4 * Real.pi) : ℝ) : ℂ) := by
  unfold sphY thetaPart normSH
  simp [legendre, rodU]

theorem root4pi : ((1 / Real.sqrt (4 * Real.pi) : ℝ) : ℂ) * ((Real.sqrt (4 * Real.pi) : ℝ) : ℂ) = 1 := by
  have : (Real.sqrt (4 * Real.pi)) ≠ 0 := by have := Real.pi_pos; positivity
  rw [← Complex.ofReal_mul, one_div, inv_mul_cancel₀ this, Complex.ofReal_one]

/-- `p.mag2` as complex samples, as `ScalarPatternUniform` takes them. -/
noncomputable def powerSamples (A : Arr2 ℝ) : Arr2 ℂ := A.map fun x : ℝ => (x : ℂ)

/-- C114 (scalar): the samples `mag2(p)` of a synthesised pattern make a pattern that `spht` with twice the limits analyses exactly; its mean coefficient
times `sqrt(4π)` is the power of the coefficient set. -/
theorem c114_scalar (b b₁ b₃ : Backend) (c : ScalarCoefs ℂ) (hc : c.WellFormed) (v : ℤ → ℤ → ℂ) (hv : HasCoefs c v) (nr nc : ℕ)
    (h1 : 2 * c.nmax + 2 ≤ nr) (h2 : 4 * c.mmax + 2 ≤ nc) (h3 : nc % 2 = 0) (hsz : nr ≤ 2 ^ 28) :
    ∃ p A r e x, ispht b₁ c (some nr) (some nc) = .ok p ∧ p.mag2 = .ok A ∧ SPatt.init (.arr (powerSamples A)) false = .ok r ∧
      r.array = .ok (powerSamples A) ∧ spht b r (some (2 * c.nmax)) (some (2 * c.mmax)) = .ok e ∧ e.WellFormed ∧
      (∀ n m, IsMode (2 * c.nmax) (2 * c.mmax) n m → readMap e n m = some (sphInt fun θ φ =>
        ((‖shSeries c.nmax c.mmax v θ φ‖ ^ 2 : ℝ) : ℂ) * (starRingEnd ℂ) (sphY n.toNat m θ φ))) ∧
      readMap e 0 0 = some x ∧ x * (Real.sqrt (4 * Real.pi) : ℝ) = (c.power (fun z : ℂ => ‖z‖) : ℝ) ∧
      ispht b₃ e (some nr) (some nc) = .ok r := by
  have c0 := hc.wf.m0
  have c1 := hc.wf.mn
  obtain ⟨p, p1, p2⟩ := ispht_samples b₁ c hc v hv nr nc (by omega) (by omega) h3
  set f := shSeries c.nmax c.mmax v with hf
  have hb : BandLimited (2 * c.nmax) (2 * c.mmax) fun θ φ => ((‖f θ φ‖ ^ 2 : ℝ) : ℂ) := by
    have k1 : BandLimited c.nmax c.mmax f := ⟨v, fun _ _ => rfl⟩
    have := band_product k1 (band_conj k1)
    rw [← two_mul, ← two_mul] at this
    refine band_congr (fun θ φ => ?_) this
    rw [Complex.mul_conj, Complex.normSq_eq_norm_sq]
  obtain ⟨r, e, r1, r2, r3, r4, r5, r6, r7, r8⟩ := band_round_trip b b₃ _ _ (by omega) (by omega) _ hb nr nc (by omega) (by omega) h3 hsz
  have hA : powerSamples ((sampleAngles nr nc f).map fun x => ‖x‖ ^ 2) = sampleAngles nr nc fun θ φ => ((‖f θ φ‖ ^ 2 : ℝ) : ℂ) := rfl
  have hm : p.mag2 = .ok ((sampleAngles nr nc f).map fun x => ‖x‖ ^ 2) := by unfold SPatt.mag2; rw [p2]; rfl
  have h00 := r7 0 0 (by rw [isMode_iff]; omega)
  refine ⟨p, _, r, e, _, p1, hm, by rw [hA]; exact r1, by rw [hA]; exact r2, r3, r4, r7, h00, ?_, r8⟩
  rw [c39_parseval c hc v hv]
  simp only [Int.toNat_zero, sphY_mean, Complex.conj_ofReal, mul_comm _ (((1 / Real.sqrt (4 * Real.pi) : ℝ) : ℂ))]
  rw [sphInt_const_mul]
  linear_combination (sphInt fun θ φ => ((‖f θ φ‖ ^ 2 : ℝ) : ℂ)) * root4pi

/-- C114 (transverse): the samples `mag2(p) = |Eθ|² + |Eφ|²` of a synthesised transverse pattern make a scalar pattern that `spht` with twice the limits analyses
exactly; its mean coefficient times `sqrt(4π)` is the sum of the squared moduli of the coefficients. -/
theorem c114_transverse (b b₁ b₃ : Backend) (c : VectorCoefs ℂ) (hc : c.WellFormed) (v w : ℤ → ℤ → ℂ) (hv : HasCoefsV c v w) (nr nc : ℕ)
    (h1 : 2 * c.nmax + 2 ≤ nr) (h2 : 4 * c.mmax + 2 ≤ nc) (h3 : nc % 2 = 0) (hsz : nr ≤ 2 ^ 28) :
    ∃ p r e x Eθ Eφ, vispht b₁ c (some nr) (some nc) = .ok p ∧ JacksonField c.nmax c.mmax v w Eθ Eφ ∧
      p.theta = sampleAngles nr nc Eθ ∧ p.phi = sampleAngles nr nc Eφ ∧
      SPatt.init (.arr (powerSamples p.mag2)) false = .ok r ∧ r.array = .ok (powerSamples p.mag2) ∧
      spht b r (some (2 * c.nmax)) (some (2 * c.mmax)) = .ok e ∧ e.WellFormed ∧
      (∀ n m, IsMode (2 * c.nmax) (2 * c.mmax) n m → readMap e n m = some (sphInt fun θ φ =>
        ((‖Eθ θ φ‖ ^ 2 + ‖Eφ θ φ‖ ^ 2 : ℝ) : ℂ) * (starRingEnd ℂ) (sphY n.toNat m θ φ))) ∧
      readMap e 0 0 = some x ∧
      x * (Real.sqrt (4 * Real.pi) : ℝ) = ((∑ q ∈ modes c.nmax c.mmax with q.1 ≠ 0, (‖v q.1 q.2‖ ^ 2 + ‖w q.1 q.2‖ ^ 2) : ℝ) : ℂ) ∧
      ispht b₃ e (some nr) (some nc) = .ok r := by
  obtain ⟨n, m, hn, hm, hmn⟩ := vlimits hc
  obtain ⟨-, Eθ, Eφ, -, hJ, -⟩ := c50_vispht b₁ c hc v w hv nr nc (by omega) (by omega) (by omega)
  obtain ⟨p, p1, p2, p3⟩ := vispht_samples b₁ c hc v w hv Eθ Eφ hJ nr nc (by omega) (by omega) h3
  have hdot : ∀ θ φ, ((‖Eθ θ φ‖ ^ 2 + ‖Eφ θ φ‖ ^ 2 : ℝ) : ℂ) = fieldDot Eθ Eφ Eθ Eφ θ φ := fun θ φ => by
    unfold fieldDot
    rw [Complex.mul_conj, Complex.mul_conj, Complex.normSq_eq_norm_sq, Complex.normSq_eq_norm_sq]
    push_cast; rfl
  have hb : BandLimited (2 * c.nmax) (2 * c.mmax) fun θ φ => ((‖Eθ θ φ‖ ^ 2 + ‖Eφ θ φ‖ ^ 2 : ℝ) : ℂ) := by
    have := band_fieldDot hJ hJ
    rw [← two_mul, ← two_mul] at this
    exact band_congr hdot this
  obtain ⟨r, e, r1, r2, r3, r4, r5, r6, r7, r8⟩ := band_round_trip b b₃ _ _ (by omega) (by omega) _ hb nr nc (by omega) (by omega) h3 hsz
  have hA : powerSamples p.mag2 = sampleAngles nr nc fun θ φ => ((‖Eθ θ φ‖ ^ 2 + ‖Eφ θ φ‖ ^ 2 : ℝ) : ℂ) := by
    unfold TPatt.mag2
    rw [p2, p3]
    refine Arr2.ext' rfl rfl fun i j hi hj => ?_
    replace hi : i < nr := hi
    replace hj : j < nc := hj
    unfold powerSamples Arr2.zip sampleAngles
    rw [Arr2.at'_map _ _ (by exact hi) (by exact hj), Arr2.at'_ofFn (by exact hi) (by exact hj), Arr2.at'_ofFn hi hj, Arr2.at'_ofFn hi hj, Arr2.at'_ofFn hi hj]
  have h00 := r7 0 0 (by rw [isMode_iff]; omega)
  refine ⟨p, r, e, _, Eθ, Eφ, p1, hJ, p2, p3, by rw [hA]; exact r1, by rw [hA]; exact r2, r3, r4, r7, h00, ?_, r8⟩
  simp only [Int.toNat_zero, sphY_mean, Complex.conj_ofReal, mul_comm _ (((1 / Real.sqrt (4 * Real.pi) : ℝ) : ℂ)), hdot]
  rw [sphInt_const_mul]
  have hi := fieldDot_integral hJ hJ
  rw [hi]
  simp only [Complex.mul_conj, Complex.normSq_eq_norm_sq]
  rw [mul_right_comm, root4pi, one_mul]
  push_cast
  rfl

end Verif.Props
