import Verif.Props.RotationV
/-!
# Property C112: calculus on the sphere with the transforms

What users compute with coefficient sets: gradients, curls, divergences and Laplacians of band-limited fields, and the solutions of the
Poisson and heat equations.  The differential operators are specified by their equations in the angles, multiplied by powers of
`sin θ`; at the poles the values are the limits (continuity).
-/
namespace Verif.Props
open Verif Finset

/-- The samples of a function of the two angles on the grid of a pattern with `nr` rows and `nc` columns. -/
noncomputable def sampleAngles (nr nc : ℕ) (f : ℝ → ℝ → ℂ) : Arr2 ℂ :=
  Arr2.ofFn nr nc fun i j => f (Real.pi * i / ((nr : ℝ) - 1)) (2 * Real.pi * j / nc)

/-- `Gθ, Gφ` are the components `∂f/∂θ` and `(1/sin θ) ∂f/∂φ` of the surface gradient of `f`. -/
structure SurfaceGradient (f Gθ Gφ : ℝ → ℝ → ℂ) : Prop where
  contθ : Continuous fun x : ℝ × ℝ => Gθ x.1 x.2
  contφ : Continuous fun x : ℝ × ℝ => Gφ x.1 x.2
  eqθ : ∀ θ φ : ℝ, Gθ θ φ = deriv (fun θ => f θ φ) θ
  eqφ : ∀ θ φ : ℝ, Real.sin θ * Gφ θ φ = deriv (fun φ => f θ φ) φ

/-- `L = (1/sin θ) ∂/∂θ (sin θ ∂f/∂θ) + (1/sin² θ) ∂²f/∂φ²`: the surface Laplacian of `f`. -/
structure SurfaceLaplacian (f L : ℝ → ℝ → ℂ) : Prop where
  cont : Continuous fun x : ℝ × ℝ => L x.1 x.2
  eq : ∀ θ φ : ℝ, Real.sin θ ^ 2 * L θ φ =
    Real.sin θ * deriv (fun t : ℝ => Real.sin t * deriv (fun t => f t φ) t) θ + deriv (fun u => deriv (fun u => f θ u) u) φ

/-- `D = (1/sin θ) (∂/∂θ (sin θ Eθ) + ∂Eφ/∂φ)`: the surface divergence of `(Eθ, Eφ)`. -/
structure SurfaceDivergence (Eθ Eφ D : ℝ → ℝ → ℂ) : Prop where
  cont : Continuous fun x : ℝ × ℝ => D x.1 x.2
  eq : ∀ θ φ : ℝ, Real.sin θ * D θ φ = deriv (fun t : ℝ => Real.sin t * Eθ t φ) θ + deriv (fun u => Eφ θ u) φ

/-- `R = (1/sin θ) (∂/∂θ (sin θ Eφ) - ∂Eθ/∂φ)`: the radial component of the curl of `(Eθ, Eφ)`. -/
structure RadialCurl (Eθ Eφ R : ℝ → ℝ → ℂ) : Prop where
  cont : Continuous fun x : ℝ × ℝ => R x.1 x.2
  eq : ∀ θ φ : ℝ, Real.sin θ * R θ φ = deriv (fun t : ℝ => Real.sin t * Eφ t φ) θ - deriv (fun u => Eθ θ u) φ

/-- `sqrt(n(n+1))`. -/
noncomputable def rootDeg (n : ℤ) : ℂ := ((Real.sqrt ((n : ℝ) * (n + 1)) : ℝ) : ℂ)

theorem rootDeg_sq {n : ℤ} (h : 0 ≤ n) : rootDeg n * rootDeg n = n * (n + 1) := by
  unfold rootDeg
  have : (0 : ℝ) ≤ n := by exact_mod_cast h
  rw [← Complex.ofReal_mul, Real.mul_self_sqrt (by positivity)]
  push_cast; ring

theorem rootDeg_ne {n : ℤ} (h : 0 ≤ n) (h0 : n ≠ 0) : rootDeg n ≠ 0 := by
  intro e
  have := rootDeg_sq h
  rw [e, zero_mul] at this
  have h1 : n * (n + 1) = 0 := by exact_mod_cast this.symm
  rcases mul_eq_zero.mp h1 with h2 | h2 <;> omega

/-! ## Derivatives of the series -/

theorem series_dphi (N M : ℤ) (v : ℤ → ℤ → ℂ) (θ φ : ℝ) :
    HasDerivAt (fun φ : ℝ => shSeries N M v θ φ) (∑ p ∈ modes N M, Complex.I * p.2 * v p.1 p.2 * sphY p.1.toNat p.2 θ φ) φ := by
  unfold shSeries
  refine HasDerivAt.fun_sum fun p _ => ?_
  unfold sphY
  have h : HasDerivAt (fun φ : ℝ => (p.2 : ℂ) * ((φ : ℂ) * Complex.I)) ((p.2 : ℂ) * (1 * Complex.I)) φ :=
    ((Complex.ofRealCLM.hasDerivAt (x := φ)).mul_const Complex.I).const_mul _
  exact (((h.cexp).const_mul (thetaPart p.1.toNat p.2 θ : ℂ)).const_mul (v p.1 p.2)).congr_deriv (by ring)

theorem series_dtheta (N M : ℤ) (v : ℤ → ℤ → ℂ) (θ φ : ℝ) :
    HasDerivAt (fun θ : ℝ => shSeries N M v θ φ) (∑ p ∈ modes N M, v p.1 p.2 * ((tPart p.1.toNat p.2 θ : ℂ) * Complex.exp (p.2 * (φ * Complex.I)))) θ := by
  unfold shSeries
  refine HasDerivAt.fun_sum fun p _ => HasDerivAt.const_mul _ ?_
  unfold sphY
  exact ((hasDerivAt_thetaR p.1.toNat p.2 θ).ofReal_comp).mul_const _

theorem series_sin_dtheta (N M : ℤ) (v : ℤ → ℤ → ℂ) (θ φ : ℝ) :
    HasDerivAt (fun t : ℝ => (Real.sin t : ℂ) * ∑ p ∈ modes N M, v p.1 p.2 * ((tPart p.1.toNat p.2 t : ℂ) * Complex.exp (p.2 * (φ * Complex.I))))
      (∑ p ∈ modes N M, v p.1 p.2 * (((p.2 * hPart p.1.toNat p.2 θ - p.1.toNat * (p.1.toNat + 1) * (Real.sin θ * thetaPart p.1.toNat p.2 θ) : ℝ) : ℂ) *
        Complex.exp (p.2 * (φ * Complex.I)))) θ := by
  have e : (fun t : ℝ => (Real.sin t : ℂ) * ∑ p ∈ modes N M, v p.1 p.2 * ((tPart p.1.toNat p.2 t : ℂ) * Complex.exp (p.2 * (φ * Complex.I)))) =
      fun t : ℝ => ∑ p ∈ modes N M, v p.1 p.2 * (((Real.sin t * tPart p.1.toNat p.2 t : ℝ) : ℂ) * Complex.exp (p.2 * (φ * Complex.I))) := by
    funext t
    rw [mul_sum]
    refine sum_congr rfl fun p _ => ?_
    push_cast; ring
  rw [e]
  refine HasDerivAt.fun_sum fun p _ => HasDerivAt.const_mul _ ?_
  exact ((hasDerivAt_sin_tPart p.1.toNat p.2 θ).ofReal_comp).mul_const _

theorem continuous_series (N M : ℤ) (v : ℤ → ℤ → ℂ) : Continuous fun x : ℝ × ℝ => shSeries N M v x.1 x.2 := by
  unfold shSeries
  refine continuous_finsetSum _ fun p _ => ?_
  unfold sphY
  have := continuous_thetaR p.1.toNat p.2
  fun_prop

theorem eq_of_sin {f g : ℝ → ℝ → ℂ} (hf : Continuous fun x : ℝ × ℝ => f x.1 x.2) (hg : Continuous fun x : ℝ × ℝ => g x.1 x.2) (k : ℕ)
    (h : ∀ θ φ : ℝ, (Real.sin θ : ℂ) ^ k * f θ φ = (Real.sin θ : ℂ) ^ k * g θ φ) (θ φ : ℝ) : f θ φ = g θ φ := by
  have cf : Continuous fun θ => f θ φ := hf.comp (by fun_prop : Continuous fun θ : ℝ => (θ, φ))
  have cg : Continuous fun θ => g θ φ := hg.comp (by fun_prop : Continuous fun θ : ℝ => (θ, φ))
  refine congrFun (Continuous.ext_on dense_sin cf cg fun θ hθ => ?_) θ
  have hne : (Real.sin θ : ℂ) ^ k ≠ 0 := pow_ne_zero _ (by exact_mod_cast hθ)
  exact mul_left_cancel₀ hne (h θ φ)

/-- The series with coefficients `-n(n+1) v` is the Laplacian of the series with coefficients `v`. -/
theorem series_laplacian (N M : ℤ) (v : ℤ → ℤ → ℂ) :
    SurfaceLaplacian (shSeries N M v) (shSeries N M fun n m => -(n * (n + 1)) * v n m) := by
  refine ⟨continuous_series _ _ _, fun θ φ => ?_⟩
  have hs : ∀ (k : ℕ) (l : ℤ) (θ : ℝ), (Real.sin θ : ℂ) * (hPart k l θ : ℂ) = l * (thetaPart k l θ : ℂ) := fun k l θ => by exact_mod_cast sin_hPart k l θ
  have e1 : (fun t : ℝ => (Real.sin t : ℂ) * deriv (fun t => shSeries N M v t φ) t) =
      fun t : ℝ => (Real.sin t : ℂ) * ∑ p ∈ modes N M, v p.1 p.2 * ((tPart p.1.toNat p.2 t : ℂ) * Complex.exp (p.2 * (φ * Complex.I))) :=
    funext fun t => by rw [(series_dtheta N M v t φ).deriv]
  have e2 : (fun u : ℝ => deriv (fun u => shSeries N M v θ u) u) = fun u : ℝ => shSeries N M (fun n m => Complex.I * m * v n m) θ u :=
    funext fun u => by rw [(series_dphi N M v θ u).deriv]; rfl
  rw [e1, e2, (series_sin_dtheta N M v θ φ).deriv, (series_dphi N M _ θ φ).deriv]
  unfold shSeries
  rw [mul_sum, mul_sum, ← sum_add_distrib]
  refine sum_congr rfl fun p hp => ?_
  have hc : ((p.1 : ℤ) : ℂ) = (p.1.toNat : ℂ) := by exact_mod_cast (Int.toNat_of_nonneg (mem_modes.mp hp).1).symm
  beta_reduce
  rw [hc]
  unfold sphY
  push_cast
  have := hs p.1.toNat p.2 θ
  push_cast at this
  linear_combination (-(v p.1 p.2) * p.2 * Complex.exp (p.2 * (φ * Complex.I))) * this -
    (p.2 ^ 2 * v p.1 p.2 * (thetaPart p.1.toNat p.2 θ : ℂ) * Complex.exp (p.2 * (φ * Complex.I))) * Complex.I_mul_I

theorem laplacian_unique {f L L' : ℝ → ℝ → ℂ} (h : SurfaceLaplacian f L) (h' : SurfaceLaplacian f L') : L = L' :=
  funext fun θ => funext fun φ => eq_of_sin h.cont h'.cont 2 (fun θ φ => by
    have a := h.eq θ φ
    have b := h'.eq θ φ
    push_cast at a b ⊢
    rw [a, b]) θ φ

/-! ## Gradient, divergence and curl in Jackson's components -/

theorem potential_series (N M : ℤ) (v : ℤ → ℤ → ℂ) (s : ℂ) (θ φ : ℝ) :
    potential N M (fun n m => s * rootDeg n * v n m) θ φ = s * shSeries N M (fun n m => if n = 0 then 0 else v n m) θ φ := by
  unfold potential shSeries
  rw [sum_filter, mul_sum]
  refine sum_congr rfl fun p hp => ?_
  by_cases h0 : p.1 = 0
  · simp [h0]
  · beta_reduce
    rw [if_pos h0, if_neg h0]
    have hr := rootDeg_ne (mem_modes.mp hp).1 h0
    unfold rootDeg at hr ⊢
    field_simp

theorem zero_deg {N M : ℤ} {p : ℤ × ℤ} (hp : p ∈ modes N M) (h : p.1 = 0) : p.2 = 0 := by
  have := mem_modes.mp hp
  rw [isMode_iff] at this
  omega

theorem tPart_zero (θ : ℝ) : tPart 0 0 θ = 0 := by
  unfold tPart legD
  simp [legendre, rodU]

/-- The derivatives do not see the constant mode. -/
theorem series_dphi_tail (N M : ℤ) (v : ℤ → ℤ → ℂ) (θ φ : ℝ) :
    deriv (fun φ : ℝ => shSeries N M (fun n m => if n = 0 then 0 else v n m) θ φ) φ = deriv (fun φ : ℝ => shSeries N M v θ φ) φ := by
  rw [(series_dphi N M _ θ φ).deriv, (series_dphi N M v θ φ).deriv]
  refine sum_congr rfl fun p hp => ?_
  by_cases h0 : p.1 = 0
  · rw [zero_deg hp h0]; simp
  · rw [if_neg h0]

theorem series_dtheta_tail (N M : ℤ) (v : ℤ → ℤ → ℂ) (θ φ : ℝ) :
    deriv (fun θ : ℝ => shSeries N M (fun n m => if n = 0 then 0 else v n m) θ φ) θ = deriv (fun θ : ℝ => shSeries N M v θ φ) θ := by
  rw [(series_dtheta N M _ θ φ).deriv, (series_dtheta N M v θ φ).deriv]
  refine sum_congr rfl fun p hp => ?_
  by_cases h0 : p.1 = 0
  · rw [zero_deg hp h0, h0]; simp [tPart_zero]
  · rw [if_neg h0]

theorem potential_zero (N M : ℤ) (θ φ : ℝ) : potential N M (fun _ _ => 0) θ φ = 0 := by
  unfold potential; simp

/-- The gradient of the series is the tangential field with coefficients `(0, -sqrt(n(n+1)) v)`. -/
theorem gradient_field {N M : ℤ} {v : ℤ → ℤ → ℂ} {Gθ Gφ : ℝ → ℝ → ℂ} (h : SurfaceGradient (shSeries N M v) Gθ Gφ) :
    JacksonField N M (fun _ _ => 0) (fun n m => -(rootDeg n * v n m)) Gθ Gφ := by
  have e : (fun n m => -(rootDeg n * v n m)) = fun n m => -1 * rootDeg n * v n m := by funext n m; ring
  refine ⟨h.contθ, h.contφ, fun θ φ => ?_, fun θ φ => ?_⟩
  · rw [e, h.eqθ]
    simp only [potential_zero, potential_series, deriv_const, mul_zero, zero_sub, deriv_const_mul_field, series_dtheta_tail]
    ring
  · rw [e, h.eqφ]
    simp only [potential_zero, potential_series, deriv_const, mul_zero, zero_sub, deriv_const_mul_field, series_dphi_tail]
    ring

/-- The gradient turned by a right angle, `r × ∇f`, has the coefficients `(i sqrt(n(n+1)) v, 0)`. -/
theorem curl_field {N M : ℤ} {v : ℤ → ℤ → ℂ} {Gθ Gφ : ℝ → ℝ → ℂ} (h : SurfaceGradient (shSeries N M v) Gθ Gφ) :
    JacksonField N M (fun n m => Complex.I * rootDeg n * v n m) (fun _ _ => 0) (fun θ φ => -Gφ θ φ) Gθ := by
  refine ⟨h.contφ.neg, h.contθ, fun θ φ => ?_, fun θ φ => ?_⟩
  · have := h.eqφ θ φ
    simp only [potential_zero, potential_series, deriv_const, mul_zero, sub_zero, deriv_const_mul_field, series_dphi_tail]
    rw [← this]
    linear_combination -(Real.sin θ * Gφ θ φ : ℂ) * Complex.I_mul_I
  · rw [h.eqθ]
    simp only [potential_zero, potential_series, deriv_const, mul_zero, sub_zero, deriv_const_mul_field, series_dtheta_tail]
    linear_combination (Real.sin θ * deriv (fun θ => shSeries N M v θ φ) θ : ℂ) * Complex.I_mul_I

theorem vphase_deriv (p : ℤ × ℤ) (φ : ℝ) : HasDerivAt (fun u : ℝ => vphase p u) (Complex.I * p.2 * vphase p φ) φ := by
  unfold vphase
  have h : HasDerivAt (fun φ : ℝ => (p.2 : ℂ) * ((φ : ℂ) * Complex.I)) ((p.2 : ℂ) * (1 * Complex.I)) φ :=
    ((Complex.ofRealCLM.hasDerivAt (x := φ)).mul_const Complex.I).const_mul _
  exact ((h.cexp).div_const _).congr_deriv (by ring)

/-- Divergence and radial curl of a tangential field with coefficients `(v, w)`. -/
theorem series_divergence {N M : ℤ} {v w : ℤ → ℤ → ℂ} {Eθ Eφ : ℝ → ℝ → ℂ} (h : JacksonField N M v w Eθ Eφ) :
    SurfaceDivergence Eθ Eφ (shSeries N M fun n m => rootDeg n * w n m) := by
  have hs : ∀ (k : ℕ) (l : ℤ) (θ : ℝ), (Real.sin θ : ℂ) * (hPart k l θ : ℂ) = l * (thetaPart k l θ : ℂ) := fun k l θ => by exact_mod_cast sin_hPart k l θ
  refine ⟨continuous_series _ _ _, fun θ φ => Eq.symm ?_⟩
  have e1 : (fun t : ℝ => (Real.sin t : ℂ) * Eθ t φ) = fun t : ℝ => ∑ p ∈ modes N M with p.1 ≠ 0,
      (-(v p.1 p.2 * (p.2 * (thetaPart p.1.toNat p.2 t : ℂ))) - w p.1 p.2 * ((Real.sin t * tPart p.1.toNat p.2 t : ℝ) : ℂ)) * vphase p φ := by
    funext t
    rw [(jackson_closed h t φ).1, mul_sum]
    refine sum_congr rfl fun p _ => ?_
    have := hs p.1.toNat p.2 t
    push_cast at this ⊢
    linear_combination (-(v p.1 p.2) * vphase p φ) * this
  have d1 : HasDerivAt (fun t : ℝ => (Real.sin t : ℂ) * Eθ t φ) (∑ p ∈ modes N M with p.1 ≠ 0,
      (-(v p.1 p.2 * (p.2 * (tPart p.1.toNat p.2 θ : ℂ))) -
        w p.1 p.2 * ((p.2 * hPart p.1.toNat p.2 θ - p.1.toNat * (p.1.toNat + 1) * (Real.sin θ * thetaPart p.1.toNat p.2 θ) : ℝ) : ℂ)) * vphase p φ) θ := by
    rw [e1]
    refine HasDerivAt.fun_sum fun p _ => HasDerivAt.mul_const ?_ _
    exact (((hasDerivAt_thetaR p.1.toNat p.2 θ).ofReal_comp.const_mul (p.2 : ℂ)).const_mul _).neg.sub
      ((hasDerivAt_sin_tPart p.1.toNat p.2 θ).ofReal_comp.const_mul _)
  have d2 : HasDerivAt (fun u : ℝ => Eφ θ u) (∑ p ∈ modes N M with p.1 ≠ 0,
      (-(Complex.I * v p.1 p.2 * tPart p.1.toNat p.2 θ) - Complex.I * w p.1 p.2 * hPart p.1.toNat p.2 θ) * (Complex.I * p.2 * vphase p φ)) φ := by
    have e2 : (fun u : ℝ => Eφ θ u) = fun u : ℝ => ∑ p ∈ modes N M with p.1 ≠ 0,
        (-(Complex.I * v p.1 p.2 * tPart p.1.toNat p.2 θ) - Complex.I * w p.1 p.2 * hPart p.1.toNat p.2 θ) * vphase p u := funext fun u => (jackson_closed h θ u).2
    rw [e2]
    exact HasDerivAt.fun_sum fun p _ => HasDerivAt.const_mul _ (vphase_deriv p φ)
  rw [d1.deriv, d2.deriv, ← sum_add_distrib]
  unfold shSeries
  rw [mul_sum, sum_filter]
  refine sum_congr rfl fun p hp => ?_
  have hn := (mem_modes.mp hp).1
  have hc : ((p.1 : ℤ) : ℂ) = (p.1.toNat : ℂ) := by exact_mod_cast (Int.toNat_of_nonneg hn).symm
  by_cases h0 : p.1 = 0
  · rw [if_neg (by simpa using h0), h0]; unfold rootDeg; simp
  · rw [if_pos h0]
    have hv : vphase p φ * rootDeg p.1 = Complex.exp (p.2 * (φ * Complex.I)) := by
      have := rootDeg_ne hn h0
      unfold vphase
      unfold rootDeg at this ⊢
      exact div_mul_cancel₀ _ this
    have hr := rootDeg_sq hn
    beta_reduce
    unfold sphY
    rw [← hv]
    push_cast
    rw [hc] at hr
    linear_combination (-(w p.1 p.2) * Complex.sin θ * (thetaPart p.1.toNat p.2 θ : ℂ) * vphase p φ) * hr -
      (v p.1 p.2 * tPart p.1.toNat p.2 θ + w p.1 p.2 * hPart p.1.toNat p.2 θ : ℂ) * p.2 * vphase p φ * Complex.I_mul_I

theorem series_radial_curl {N M : ℤ} {v w : ℤ → ℤ → ℂ} {Eθ Eφ : ℝ → ℝ → ℂ} (h : JacksonField N M v w Eθ Eφ) :
    RadialCurl Eθ Eφ (shSeries N M fun n m => Complex.I * rootDeg n * v n m) := by
  have hs : ∀ (k : ℕ) (l : ℤ) (θ : ℝ), (Real.sin θ : ℂ) * (hPart k l θ : ℂ) = l * (thetaPart k l θ : ℂ) := fun k l θ => by exact_mod_cast sin_hPart k l θ
  refine ⟨continuous_series _ _ _, fun θ φ => Eq.symm ?_⟩
  have e1 : (fun t : ℝ => (Real.sin t : ℂ) * Eφ t φ) = fun t : ℝ => ∑ p ∈ modes N M with p.1 ≠ 0,
      (-(Complex.I * v p.1 p.2 * ((Real.sin t * tPart p.1.toNat p.2 t : ℝ) : ℂ)) - Complex.I * w p.1 p.2 * (p.2 * (thetaPart p.1.toNat p.2 t : ℂ))) * vphase p φ := by
    funext t
    rw [(jackson_closed h t φ).2, mul_sum]
    refine sum_congr rfl fun p _ => ?_
    have := hs p.1.toNat p.2 t
    push_cast at this ⊢
    linear_combination (-Complex.I * (w p.1 p.2) * vphase p φ) * this
  have d1 : HasDerivAt (fun t : ℝ => (Real.sin t : ℂ) * Eφ t φ) (∑ p ∈ modes N M with p.1 ≠ 0,
      (-(Complex.I * v p.1 p.2 * ((p.2 * hPart p.1.toNat p.2 θ - p.1.toNat * (p.1.toNat + 1) * (Real.sin θ * thetaPart p.1.toNat p.2 θ) : ℝ) : ℂ)) -
        Complex.I * w p.1 p.2 * (p.2 * (tPart p.1.toNat p.2 θ : ℂ))) * vphase p φ) θ := by
    rw [e1]
    refine HasDerivAt.fun_sum fun p _ => HasDerivAt.mul_const ?_ _
    exact ((hasDerivAt_sin_tPart p.1.toNat p.2 θ).ofReal_comp.const_mul _).neg.sub
      (((hasDerivAt_thetaR p.1.toNat p.2 θ).ofReal_comp.const_mul (p.2 : ℂ)).const_mul _)
  have d2 : HasDerivAt (fun u : ℝ => Eθ θ u) (∑ p ∈ modes N M with p.1 ≠ 0,
      (-(v p.1 p.2 * hPart p.1.toNat p.2 θ) - w p.1 p.2 * tPart p.1.toNat p.2 θ) * (Complex.I * p.2 * vphase p φ)) φ := by
    have e2 : (fun u : ℝ => Eθ θ u) = fun u : ℝ => ∑ p ∈ modes N M with p.1 ≠ 0,
        (-(v p.1 p.2 * hPart p.1.toNat p.2 θ) - w p.1 p.2 * tPart p.1.toNat p.2 θ) * vphase p u := funext fun u => (jackson_closed h θ u).1
    rw [e2]
    exact HasDerivAt.fun_sum fun p _ => HasDerivAt.const_mul _ (vphase_deriv p φ)
  rw [d1.deriv, d2.deriv, ← sum_sub_distrib]
  unfold shSeries
  rw [mul_sum, sum_filter]
  refine sum_congr rfl fun p hp => ?_
  have hn := (mem_modes.mp hp).1
  have hc : ((p.1 : ℤ) : ℂ) = (p.1.toNat : ℂ) := by exact_mod_cast (Int.toNat_of_nonneg hn).symm
  by_cases h0 : p.1 = 0
  · rw [if_neg (by simpa using h0), h0]; unfold rootDeg; simp
  · rw [if_pos h0]
    have hv : vphase p φ * rootDeg p.1 = Complex.exp (p.2 * (φ * Complex.I)) := by
      have := rootDeg_ne hn h0
      unfold vphase
      unfold rootDeg at this ⊢
      exact div_mul_cancel₀ _ this
    have hr := rootDeg_sq hn
    beta_reduce
    unfold sphY
    rw [← hv]
    push_cast
    rw [hc] at hr
    linear_combination (-Complex.I * (v p.1 p.2) * Complex.sin θ * (thetaPart p.1.toNat p.2 θ : ℂ) * vphase p φ) * hr

theorem divergence_series {N M : ℤ} {v w : ℤ → ℤ → ℂ} {Eθ Eφ D : ℝ → ℝ → ℂ} (h : JacksonField N M v w Eθ Eφ) (hD : SurfaceDivergence Eθ Eφ D) :
    D = shSeries N M fun n m => rootDeg n * w n m :=
  funext fun θ => funext fun φ => eq_of_sin hD.cont (continuous_series _ _ _) 1 (fun θ φ => by
    rw [pow_one, hD.eq, (series_divergence h).eq]) θ φ

theorem radial_curl_series {N M : ℤ} {v w : ℤ → ℤ → ℂ} {Eθ Eφ R : ℝ → ℝ → ℂ} (h : JacksonField N M v w Eθ Eφ) (hR : RadialCurl Eθ Eφ R) :
    R = shSeries N M fun n m => Complex.I * rootDeg n * v n m :=
  funext fun θ => funext fun φ => eq_of_sin hR.cont (continuous_series _ _ _) 1 (fun θ φ => by
    rw [pow_one, hR.eq, (series_radial_curl h).eq]) θ φ

end Verif.Props
