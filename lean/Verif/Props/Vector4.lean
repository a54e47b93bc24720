import Verif.Props.Vector3
import Verif.Props.Transforms2
import Mathlib.MeasureTheory.Integral.IntervalIntegral.IntegrationByParts
import Mathlib.Analysis.Calculus.ContDiff.Polynomial
/-!
# Property C51: `vspht` projects on the vector harmonics
-/
namespace Verif.Props
open Verif Finset

theorem az_poly (H : ℕ) (q : ℤ → ℝ → ℂ) (hq : ∀ l, Continuous (q l)) (m : ℤ) :
    (∫ φ in (0 : ℝ)..(2 * Real.pi), ∫ θ in (0 : ℝ)..Real.pi, ∑ l ∈ Ioo (-(H : ℤ)) H, Complex.exp ((l - m : ℤ) * (φ * Complex.I)) * q l θ) =
      if m ∈ Ioo (-(H : ℤ)) H then 2 * Real.pi * ∫ θ in (0 : ℝ)..Real.pi, q m θ else 0 := by
  have e2 : ∀ φ : ℝ, (∫ θ in (0 : ℝ)..Real.pi, ∑ l ∈ Ioo (-(H : ℤ)) H, Complex.exp ((l - m : ℤ) * (φ * Complex.I)) * q l θ) =
      ∑ l ∈ Ioo (-(H : ℤ)) H, Complex.exp ((l - m : ℤ) * (φ * Complex.I)) * ∫ θ in (0 : ℝ)..Real.pi, q l θ := by
    intro φ
    rw [intervalIntegral.integral_finsetSum]
    · exact sum_congr rfl fun l _ => intervalIntegral.integral_const_mul _ _
    · intro l _
      apply Continuous.intervalIntegrable
      have := hq l
      fun_prop
  simp only [e2]
  rw [intervalIntegral.integral_finsetSum]
  · have e3 : ∀ l ∈ Ioo (-(H : ℤ)) H, (∫ φ in (0 : ℝ)..(2 * Real.pi), Complex.exp ((l - m : ℤ) * (φ * Complex.I)) *
        ∫ θ in (0 : ℝ)..Real.pi, q l θ) = if l = m then 2 * Real.pi * ∫ θ in (0 : ℝ)..Real.pi, q m θ else 0 := by
      intro l _
      rw [intervalIntegral.integral_mul_const, integral_azimuth]
      by_cases hl : l = m
      · subst hl; simp
      · rw [if_neg (by omega), if_neg hl, zero_mul]
    rw [sum_congr rfl e3, sum_ite_eq']
  · intro l _
    apply Continuous.intervalIntegrable
    fun_prop

theorem contDiff_thetaPart (n : ℕ) (m : ℤ) : ContDiff ℝ ⊤ fun θ : ℝ => thetaPart n m θ := by
  unfold thetaPart
  refine ContDiff.mul contDiff_const (ContDiff.mul (Real.contDiff_sin.pow _) ?_)
  have := (Polynomial.contDiff_aeval (𝕜 := ℝ) (Polynomial.derivative^[m.natAbs] (legendre n)) ⊤).comp Real.contDiff_cos
  simpa [Function.comp_def, Polynomial.aeval_def, Polynomial.eval₂_id] using this

theorem hasDerivAt_thetaPart (n : ℕ) (m : ℤ) (θ : ℝ) :
    HasDerivAt (fun θ : ℝ => (thetaPart n m θ : ℂ)) ((deriv (fun θ => thetaPart n m θ) θ : ℝ) : ℂ) θ :=
  (((contDiff_thetaPart n m).differentiable (by simp)) θ).hasDerivAt.ofReal_comp

theorem continuous_deriv_thetaPart (n : ℕ) (m : ℤ) : Continuous fun θ : ℝ => ((deriv (fun θ => thetaPart n m θ) θ : ℝ) : ℂ) :=
  Complex.continuous_ofReal.comp ((contDiff_thetaPart n m).continuous_deriv (by simp))

theorem sphY_dtheta (n : ℕ) (m : ℤ) (θ φ : ℝ) :
    deriv (fun θ => sphY n m θ φ) θ = ((deriv (fun θ => thetaPart n m θ) θ : ℝ) : ℂ) * Complex.exp (m * (φ * Complex.I)) := by
  unfold sphY
  exact ((hasDerivAt_thetaPart n m θ).mul_const _).deriv

theorem sphY_dphi (n : ℕ) (m : ℤ) (θ φ : ℝ) : deriv (fun φ => sphY n m θ φ) φ = Complex.I * m * sphY n m θ φ := by
  unfold sphY
  have h : HasDerivAt (fun θ : ℝ => (m : ℂ) * ((θ : ℂ) * Complex.I)) ((m : ℂ) * (1 * Complex.I)) φ :=
    ((Complex.ofRealCLM.hasDerivAt (x := φ)).mul_const Complex.I).const_mul _
  rw [((h.cexp).const_mul (thetaPart n m θ : ℂ)).deriv]
  ring

/-- Frequencies below the limit: `sldot` on the Fourier side is `-m T - i d/dθ (sin θ P)`. -/
theorem trigSum_sldot (M : ℕ) (t p : ℤ → ℂ) (m : ℤ) (ht : ∀ ν : ℤ, (M : ℤ) ≤ |ν| → t ν = 0) (hp : ∀ ν : ℤ, (M : ℤ) ≤ |ν| → p ν = 0) (θ : ℝ) :
    ∃ d : ℂ, HasDerivAt (fun θ : ℝ => Real.sin θ * trigSum M p θ) d θ ∧
      trigSum (M + 1) (sldot m t p) θ = -(m * trigSum M t θ) - Complex.I * d := by
  have e : (fun θ : ℝ => (Real.sin θ : ℂ) * trigSum M p θ) = fun θ : ℝ => trigSum (M + 1) (fun ν => (p (ν - 1) - p (ν + 1)) / (2 * Complex.I)) θ := by
    funext θ; rw [trigSum_sin M p hp]
  rw [e]
  refine ⟨_, hasDerivAt_trigSum (M + 1) _ θ, ?_⟩
  have e1 : trigSum M t θ = trigSum (M + 1) t θ := by
    unfold trigSum
    refine sum_subset (fun ν hν => ?_) fun ν _ hν => ?_
    · rw [mem_Ioo] at *; omega
    · rw [ht ν (by rw [mem_Ioo, not_and_or] at hν; rw [le_abs]; omega), zero_mul]
  rw [e1]
  unfold trigSum sldot
  simp only [mul_sum, ← sum_neg_distrib, ← sum_sub_distrib]
  refine sum_congr rfl fun ν _ => ?_
  linear_combination ((ν * ((p (ν - 1) - p (ν + 1)) / (2 * Complex.I)) * Complex.exp (ν * (θ * Complex.I)))) * Complex.I_mul_I

theorem sldot_integral (M : ℕ) (t p : ℤ → ℂ) (m : ℤ) (n : ℕ) (ht : ∀ ν : ℤ, (M : ℤ) ≤ |ν| → t ν = 0) (hp : ∀ ν : ℤ, (M : ℤ) ≤ |ν| → p ν = 0)
    (st : ∀ ν, t (-ν) = -1 * (-1) ^ m * t ν) (sp : ∀ ν, p (-ν) = -1 * (-1) ^ m * p ν) :
    bF (M + 1) (sldot m t p) m n = 2 * Real.pi * ∫ θ in (0 : ℝ)..Real.pi,
      (trigSum M t θ * (-(m * (thetaPart n m θ : ℂ))) + trigSum M p θ * (Complex.I * ((deriv (fun θ => thetaPart n m θ) θ : ℝ) : ℂ)) * Real.sin θ) := by
  have hct := continuous_thetaPart n m
  have hcd := continuous_deriv_thetaPart n m
  have c1 := continuous_trigSum M t
  have c2 := continuous_trigSum M p
  have c3 := continuous_trigSum (M + 1) (sldot m t p)
  unfold bF
  rw [proj_integral]
  · congr 1
    choose d hd hs using trigSum_sldot M t p m ht hp
    have hdc : Continuous d := by
      have : d = fun θ => Complex.I * (trigSum (M + 1) (sldot m t p) θ + m * trigSum M t θ) := by
        funext θ; rw [hs θ]; linear_combination (d θ) * Complex.I_mul_I
      rw [this]; fun_prop
    have hparts := intervalIntegral.integral_mul_deriv_eq_deriv_mul (a := 0) (b := Real.pi)
      (u := fun θ : ℝ => (Real.sin θ : ℂ) * trigSum M p θ) (u' := d) (v := fun θ : ℝ => (thetaPart n m θ : ℂ))
      (v' := fun θ : ℝ => ((deriv (fun θ => thetaPart n m θ) θ : ℝ) : ℂ)) (fun θ _ => hd θ) (fun θ _ => hasDerivAt_thetaPart n m θ)
      (hdc.intervalIntegrable _ _) (hcd.intervalIntegrable _ _)
    simp only [Real.sin_pi, Real.sin_zero, Complex.ofReal_zero, zero_mul, sub_zero, zero_sub] at hparts
    have e1 : ∀ θ : ℝ, trigSum (M + 1) (sldot m t p) θ * (thetaPart n m θ : ℂ) =
        trigSum M t θ * (-(m * (thetaPart n m θ : ℂ))) + (-Complex.I) * (d θ * (thetaPart n m θ : ℂ)) := by
      intro θ; rw [hs θ]; ring
    have e2 : ∀ θ : ℝ, trigSum M t θ * (-(m * (thetaPart n m θ : ℂ))) + trigSum M p θ * (Complex.I * ((deriv (fun θ => thetaPart n m θ) θ : ℝ) : ℂ)) * Real.sin θ =
        trigSum M t θ * (-(m * (thetaPart n m θ : ℂ))) + Complex.I * ((Real.sin θ : ℂ) * trigSum M p θ * ((deriv (fun θ => thetaPart n m θ) θ : ℝ) : ℂ)) := by
      intro θ; ring
    simp only [e1, e2]
    rw [intervalIntegral.integral_add (by apply Continuous.intervalIntegrable; fun_prop) (by apply Continuous.intervalIntegrable; fun_prop),
      intervalIntegral.integral_add (by apply Continuous.intervalIntegrable; fun_prop) (by apply Continuous.intervalIntegrable; fun_prop),
      intervalIntegral.integral_const_mul, intervalIntegral.integral_const_mul, hparts]
    ring
  · intro ν _
    unfold sldot
    rw [st, show -ν - 1 = -(ν + 1) by ring, show -ν + 1 = -(ν - 1) by ring, sp, sp]
    push_cast
    ring

/-- Projection of the field `(Eθ, Eφ)` on Jackson's `X_nm = L Y_nm / sqrt(n(n+1))`:
`∫∫ (Eθ conj(X_θ) + Eφ conj(X_φ)) sin θ dθ dφ` with `sin θ X_θ = i ∂Y/∂φ / sqrt(n(n+1))`, `X_φ = -i ∂Y/∂θ / sqrt(n(n+1))`. -/
noncomputable def projX (Eθ Eφ : ℝ → ℝ → ℂ) (n : ℕ) (m : ℤ) : ℂ :=
  (∫ φ in (0 : ℝ)..(2 * Real.pi), ∫ θ in (0 : ℝ)..Real.pi,
    (Eθ θ φ * (starRingEnd ℂ) (Complex.I * deriv (fun φ => sphY n m θ φ) φ) +
      Eφ θ φ * (starRingEnd ℂ) (-Complex.I * deriv (fun θ => sphY n m θ φ) θ) * Real.sin θ)) / (Real.sqrt (n * (n + 1)) : ℂ)

/-- Projection on `i r̂ × X_nm`, whose components are `-∂Y/∂θ` and `-(1/sin θ) ∂Y/∂φ`, over `sqrt(n(n+1))`. -/
noncomputable def projRX (Eθ Eφ : ℝ → ℝ → ℂ) (n : ℕ) (m : ℤ) : ℂ :=
  (∫ φ in (0 : ℝ)..(2 * Real.pi), ∫ θ in (0 : ℝ)..Real.pi,
    (Eθ θ φ * (starRingEnd ℂ) (-deriv (fun θ => sphY n m θ φ) θ) * Real.sin θ +
      Eφ θ φ * (starRingEnd ℂ) (-deriv (fun φ => sphY n m θ φ) φ))) / (Real.sqrt (n * (n + 1)) : ℂ)

theorem interpolant_eq (D : Arr2 ℂ) (θ φ : ℝ) : interpolant D θ φ =
    ∑ l ∈ Ioo (-((D.cols / 2 : ℕ) : ℤ)) (D.cols / 2 : ℕ), trigSum (D.rows / 2) (fhat D l) θ * Complex.exp (l * (φ * Complex.I)) := by
  unfold interpolant trigPoly trigSum
  refine sum_congr rfl fun l _ => ?_
  rw [sum_mul]
  refine sum_congr rfl fun ν hν => ?_
  rw [mem_Ioo] at hν
  unfold fhat
  rw [if_pos (by rw [abs_lt]; exact hν)]

/-- The two-dimensional integral reduced to the azimuthal component. -/
theorem proj_reduce (T P : Arr2 ℂ) (hr : P.rows = T.rows) (hc : P.cols = T.cols) (m : ℤ) (hm : m ∈ Ioo (-((T.cols / 2 : ℕ) : ℤ)) (T.cols / 2 : ℕ))
    (A B : ℝ → ℂ) (hA : Continuous A) (hB : Continuous B) :
    (∫ φ in (0 : ℝ)..(2 * Real.pi), ∫ θ in (0 : ℝ)..Real.pi, (interpolant T θ φ * (A θ * Complex.exp (-(m * (φ * Complex.I)))) +
      interpolant P θ φ * (B θ * Complex.exp (-(m * (φ * Complex.I)))))) =
    2 * Real.pi * ∫ θ in (0 : ℝ)..Real.pi, (trigSum (T.rows / 2) (fhat T m) θ * A θ + trigSum (T.rows / 2) (fhat P m) θ * B θ) := by
  have e : ∀ φ θ : ℝ, interpolant T θ φ * (A θ * Complex.exp (-(m * (φ * Complex.I)))) + interpolant P θ φ * (B θ * Complex.exp (-(m * (φ * Complex.I)))) =
      ∑ l ∈ Ioo (-((T.cols / 2 : ℕ) : ℤ)) (T.cols / 2 : ℕ), Complex.exp ((l - m : ℤ) * (φ * Complex.I)) *
        (trigSum (T.rows / 2) (fhat T l) θ * A θ + trigSum (T.rows / 2) (fhat P l) θ * B θ) := by
    intro φ θ
    rw [interpolant_eq, interpolant_eq, hr, hc, sum_mul, sum_mul, ← sum_add_distrib]
    refine sum_congr rfl fun l _ => ?_
    rw [show ((l - m : ℤ) : ℂ) * (φ * Complex.I) = l * (φ * Complex.I) + -(m * (φ * Complex.I)) by push_cast; ring, Complex.exp_add]
    ring
  simp only [e]
  rw [az_poly (T.cols / 2) (fun l θ => trigSum (T.rows / 2) (fhat T l) θ * A θ + trigSum (T.rows / 2) (fhat P l) θ * B θ) (fun l => by
    have c1 := continuous_trigSum (T.rows / 2) (fhat T l)
    have c2 := continuous_trigSum (T.rows / 2) (fhat P l)
    fun_prop), if_pos hm]

theorem conj_exp_phi (m : ℤ) (φ : ℝ) : (starRingEnd ℂ) (Complex.exp (m * (φ * Complex.I))) = Complex.exp (-(m * (φ * Complex.I))) := by
  rw [← Complex.exp_conj]
  simp only [map_mul, Complex.conj_ofReal, Complex.conj_I, map_intCast]
  congr 1; ring

theorem conj_dphi (n : ℕ) (m : ℤ) (θ φ : ℝ) : (starRingEnd ℂ) (deriv (fun φ => sphY n m θ φ) φ) =
    -Complex.I * m * ((thetaPart n m θ : ℂ) * Complex.exp (-(m * (φ * Complex.I)))) := by
  rw [sphY_dphi, map_mul, map_mul, Complex.conj_I]
  unfold sphY
  rw [map_mul, Complex.conj_ofReal, conj_exp_phi, map_intCast]

theorem conj_dtheta (n : ℕ) (m : ℤ) (θ φ : ℝ) : (starRingEnd ℂ) (deriv (fun θ => sphY n m θ φ) θ) =
    ((deriv (fun θ => thetaPart n m θ) θ : ℝ) : ℂ) * Complex.exp (-(m * (φ * Complex.I))) := by
  rw [sphY_dtheta, map_mul, Complex.conj_ofReal, conj_exp_phi]

theorem wdeg_div (k : ℤ) (h : 0 ≤ k) (h0 : k ≠ 0) (x : ℂ) : wdeg k.toNat * x = x / (Real.sqrt ((k.toNat : ℝ) * ((k.toNat : ℝ) + 1)) : ℂ) := by
  unfold wdeg
  rw [if_neg (by omega)]
  push_cast
  ring

/-- C51: for antisymmetric (that is, tangential) double-sphere data `vspht` returns the projections of the band-limited interpolant
on the two families of vector harmonics. -/
theorem c51_projection (b : Backend) (T P : Arr2 ℂ) (hr : P.rows = T.rows) (hc : P.cols = T.cols) (hR : T.rows % 2 = 0) (hR0 : 0 < T.rows)
    (hsz : T.rows ≤ 2 ^ 29) (hT : DSym (-1) T) (hP : DSym (-1) P) (n m : ℤ) (h0 : 0 ≤ m) (c : VectorCoefs ℂ)
    (h : vspht b ⟨T, P⟩ (some n) (some m) = .ok c) :
    c.nmax = n ∧ c.mmax = m ∧ ∀ k l : ℤ, IsMode n m k l → k ≠ 0 →
      readMapV c k l = some (projX (interpolant T) (interpolant P) k.toNat l, projRX (interpolant T) (interpolant P) k.toNat l) := by
  have hnr : ¬ (m > n ∨ n > ((T.rows / 2 + 1 : ℕ) : ℤ) - 2 ∨ 2 * m ≥ T.cols ∨ T.cols % 2 = 1) := fun hcon => by
    obtain ⟨msg, e⟩ := c35_vspht_rejects b T P n m hcon
    rw [h] at e; cases e
  obtain ⟨n', rfl⟩ := Int.eq_ofNat_of_zero_le (show 0 ≤ n by omega)
  obtain ⟨m', rfl⟩ := Int.eq_ofNat_of_zero_le h0
  obtain ⟨d, e, e1, e2, hw, hv⟩ := vspht_main b T P hR hR0 (by omega) hr hc (some (n' : ℤ)) (some (m' : ℤ)) n' m' rfl (by omega) (by omega) (by omega)
    (by unfold Backend.SizeOK; cases b <;> simp only
        norm_num at hsz ⊢; omega)
  rw [h] at e
  cases e
  refine ⟨e1, e2, fun k l hk hk0 => ?_⟩
  obtain ⟨v1, v2⟩ := hv k l hk
  have hkc : IsMode c.nmax c.mmax k l := by rw [e1, e2]; exact hk
  rw [hasCoefsV_cf hw k l hkc hk0, v1, v2]
  have hlI : l ∈ Ioo (-((T.cols / 2 : ℕ) : ℤ)) (T.cols / 2 : ℕ) := by
    obtain ⟨-, -, -, g⟩ := hk
    rw [abs_le] at g
    rw [mem_Ioo]; omega
  have zT : ∀ ν : ℤ, ((T.rows / 2 : ℕ) : ℤ) ≤ |ν| → fhat T l ν = 0 := fun ν hν => fhat_outer T l ν hν
  have zP : ∀ ν : ℤ, ((T.rows / 2 : ℕ) : ℤ) ≤ |ν| → fhat P l ν = 0 := fun ν hν => fhat_outer P l ν (by rw [hr]; exact hν)
  have sT : ∀ ν, fhat T l (-ν) = -1 * (-1) ^ l * fhat T l ν := fun ν => fhat_symm T (-1) hT (by omega) ν l
  have sP : ∀ ν, fhat P l (-ν) = -1 * (-1) ^ l * fhat P l ν := fun ν => fhat_symm P (-1) hP (by omega) ν l
  have hct := continuous_thetaPart k.toNat l
  have hcd := continuous_deriv_thetaPart k.toNat l
  congr 1
  refine Prod.ext ?_ ?_
  · simp only
    rw [sldot_integral (T.rows / 2) _ _ l k.toNat zT zP sT sP, wdeg_div k hk.1 hk0]
    unfold projX
    congr 1
    have := proj_reduce T P hr hc l hlI (fun θ => -(l * (thetaPart k.toNat l θ : ℂ)))
      (fun θ => (Complex.I * ((deriv (fun θ => thetaPart k.toNat l θ) θ : ℝ) : ℂ)) * Real.sin θ) (by fun_prop) (by fun_prop)
    have e3 : ∀ θ : ℝ, trigSum (T.rows / 2) (fhat T l) θ * (-(l * (thetaPart k.toNat l θ : ℂ))) +
        trigSum (T.rows / 2) (fhat P l) θ * (Complex.I * ((deriv (fun θ => thetaPart k.toNat l θ) θ : ℝ) : ℂ)) * Real.sin θ =
        trigSum (T.rows / 2) (fhat T l) θ * (-(l * (thetaPart k.toNat l θ : ℂ))) +
        trigSum (T.rows / 2) (fhat P l) θ * (Complex.I * ((deriv (fun θ => thetaPart k.toNat l θ) θ : ℝ) : ℂ) * Real.sin θ) := fun θ => by ring
    simp only [e3]
    rw [← this]
    refine intervalIntegral.integral_congr fun φ _ => intervalIntegral.integral_congr fun θ _ => ?_
    simp only [map_mul, map_neg, conj_dphi, conj_dtheta, Complex.conj_I]
    linear_combination (-(interpolant T θ φ * l * (thetaPart k.toNat l θ : ℂ) * Complex.exp (-(l * (φ * Complex.I))))) * Complex.I_mul_I
  · simp only
    rw [sldot_integral (T.rows / 2) _ _ l k.toNat (fun ν hν => by rw [zP ν hν, mul_zero]) (fun ν hν => by rw [zT ν hν, mul_zero])
      (fun ν => by rw [sP]; ring) (fun ν => by rw [sT]; ring), wdeg_div k hk.1 hk0]
    unfold projRX
    congr 1
    have := proj_reduce T P hr hc l hlI (fun θ => -((deriv (fun θ => thetaPart k.toNat l θ) θ : ℝ) : ℂ) * Real.sin θ)
      (fun θ => Complex.I * (l * (thetaPart k.toNat l θ : ℂ))) (by fun_prop) (by fun_prop)
    have e3 : ∀ θ : ℝ, trigSum (T.rows / 2) (fun ν => -Complex.I * fhat P l ν) θ * (-(l * (thetaPart k.toNat l θ : ℂ))) +
        trigSum (T.rows / 2) (fun ν => Complex.I * fhat T l ν) θ * (Complex.I * ((deriv (fun θ => thetaPart k.toNat l θ) θ : ℝ) : ℂ)) * Real.sin θ =
        trigSum (T.rows / 2) (fhat T l) θ * (-((deriv (fun θ => thetaPart k.toNat l θ) θ : ℝ) : ℂ) * Real.sin θ) +
        trigSum (T.rows / 2) (fhat P l) θ * (Complex.I * (l * (thetaPart k.toNat l θ : ℂ))) := by
      intro θ
      have a1 : trigSum (T.rows / 2) (fun ν => -Complex.I * fhat P l ν) θ = -Complex.I * trigSum (T.rows / 2) (fhat P l) θ := by
        unfold trigSum; rw [mul_sum]; exact sum_congr rfl fun _ _ => by ring
      have a2 : trigSum (T.rows / 2) (fun ν => Complex.I * fhat T l ν) θ = Complex.I * trigSum (T.rows / 2) (fhat T l) θ := by
        unfold trigSum; rw [mul_sum]; exact sum_congr rfl fun _ _ => by ring
      rw [a1, a2]
      linear_combination (trigSum (T.rows / 2) (fhat T l) θ * ((deriv (fun θ => thetaPart k.toNat l θ) θ : ℝ) : ℂ) * Real.sin θ) * Complex.I_mul_I
    simp only [e3]
    rw [← this]
    refine intervalIntegral.integral_congr fun φ _ => intervalIntegral.integral_congr fun θ _ => ?_
    simp only [map_neg, conj_dphi, conj_dtheta]
    ring

/-- Witness: synthesised data meets the hypotheses, and `vspht` accepts it. -/
example : ∃ T P : Arr2 ℂ, P.rows = T.rows ∧ P.cols = T.cols ∧ T.rows = 8 ∧ T.cols = 6 ∧ DSym (-1) T ∧ DSym (-1) P ∧
    ∃ c, vspht .py ⟨T, P⟩ (some 2) (some 1) = .ok c ∧ readMapV c 1 0 = some (2, 1) := by
  obtain ⟨p, e, e1, e2, e3, e4, s1, s2, -⟩ := c37_vispht .py vcsample vcsample_wf 5 6 (by decide) (by decide) (by decide)
  obtain ⟨q, e', h'⟩ := c33_round_trip .py .py vcsample vcsample_wf (head_monopole vcsample_wf.wf1.wf rfl)
    (head_monopole vcsample_wf.wf2.wf rfl) 5 6 (by decide) (by decide) (by decide) (by decide)
  rw [e] at e'
  cases e'
  exact ⟨p.td, p.pd, by omega, by omega, by omega, by omega, s1, s2, vcsample, h', rfl⟩

/-- C38 for `vspht`: asking for fewer modes only truncates; no symmetry is assumed. -/
theorem c38_vspht (b b' : Backend) (T P : Arr2 ℂ) (hr : P.rows = T.rows) (hc : P.cols = T.cols) (hR : T.rows % 2 = 0) (hR0 : 0 < T.rows)
    (hsz : T.rows ≤ 2 ^ 29) (n m n' m' : ℤ) (c c' : VectorCoefs ℂ) (hm : 0 ≤ m) (hm' : 0 ≤ m')
    (h : vspht b ⟨T, P⟩ (some n) (some m) = .ok c) (h' : vspht b' ⟨T, P⟩ (some n') (some m') = .ok c')
    (k l : ℤ) (h1 : IsMode n m k l) (h2 : IsMode n' m' k l) : readMapV c k l = readMapV c' k l := by
  have key : ∀ (b : Backend) (n m : ℤ) (c : VectorCoefs ℂ), 0 ≤ m → vspht b ⟨T, P⟩ (some n) (some m) = .ok c → IsMode n m k l →
      readMapV c k l = if k = 0 then none else some (wdeg k.toNat * bF (T.rows / 2 + 1) (sldot l (fhat T l) (fhat P l)) l k.toNat,
        wdeg k.toNat * bF (T.rows / 2 + 1) (sldot l (fun ν => -Complex.I * fhat P l ν) (fun ν => Complex.I * fhat T l ν)) l k.toNat) := by
    intro b n m c hm h hk
    have hnr : ¬ (m > n ∨ n > ((T.rows / 2 + 1 : ℕ) : ℤ) - 2 ∨ 2 * m ≥ T.cols ∨ T.cols % 2 = 1) := fun hcon => by
      obtain ⟨msg, e⟩ := c35_vspht_rejects b T P n m hcon
      rw [h] at e; cases e
    obtain ⟨n', rfl⟩ := Int.eq_ofNat_of_zero_le (show 0 ≤ n by omega)
    obtain ⟨m', rfl⟩ := Int.eq_ofNat_of_zero_le hm
    obtain ⟨d, e, e1, e2, hw, hv⟩ := vspht_main b T P hR hR0 (by omega) hr hc (some (n' : ℤ)) (some (m' : ℤ)) n' m' rfl (by omega) (by omega) (by omega)
      (by unfold Backend.SizeOK; cases b <;> simp only
          norm_num at hsz ⊢; omega)
    rw [h] at e
    cases e
    have hkc : IsMode c.nmax c.mmax k l := by rw [e1, e2]; exact hk
    by_cases hk0 : k = 0
    · rw [if_pos hk0, readMapV_eq hw, if_pos hk0]
    · obtain ⟨v1, v2⟩ := hv k l hk
      rw [if_neg hk0, hasCoefsV_cf hw k l hkc hk0, v1, v2]
  rw [key b n m c hm h h1, key b' n' m' c' hm' h' h2]

/-- Witness: two accepted pairs of limits with common modes. -/
example : ∃ p : TPatt ℂ, p.td.rows = 8 ∧ ∃ c c', vspht .py p (some 2) (some 1) = .ok c ∧ vspht .py p (some 1) (some 0) = .ok c' ∧ IsMode 2 1 1 0 ∧ IsMode 1 0 1 0 := by
  obtain ⟨p, e, e1, e2, e3, e4, s1, s2, -⟩ := c37_vispht .py vcsample vcsample_wf 5 6 (by decide) (by decide) (by decide)
  obtain ⟨c, f, -⟩ := c35_vspht_accepts .py p.td p.pd (by omega) (by omega) (by omega) (by omega) (by norm_num; omega) 2 1 (by omega) (by omega) (by omega) (by omega) (by omega)
  obtain ⟨c', f', -⟩ := c35_vspht_accepts .py p.td p.pd (by omega) (by omega) (by omega) (by omega) (by norm_num; omega) 1 0 (by omega) (by omega) (by omega) (by omega) (by omega)
  exact ⟨p, by omega, c, c', f, f', by decide, by decide⟩

end Verif.Props
