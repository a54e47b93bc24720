import Verif.Props.Symmetry2
/-!
# Properties C72-C74: symmetries of the vector analysis transform
-/
namespace Verif.Props
open Verif Finset

/-! ## The pattern built from single-sphere samples -/

theorem init_transverse (T P : Arr2 ℂ) (hr : 2 ≤ T.rows) (h1 : P.rows = T.rows) (h2 : P.cols = T.cols) :
    ∃ D E, continueSphere T (-1) = .ok D ∧ continueSphere P (-1) = .ok E ∧ TPatt.init (.arr T) (.arr P) false = .ok ⟨D, E⟩ ∧
      D.rows = 2 * T.rows - 2 ∧ D.cols = T.cols ∧ E.rows = 2 * T.rows - 2 ∧ E.cols = T.cols ∧
      (T.cols % 2 = 0 → DSym (-1) D ∧ DSym (-1) E) := by
  obtain ⟨D, hD, r, c, -⟩ := continue_spec T (-1) hr
  obtain ⟨E, hE, r', c', -⟩ := continue_spec P (-1) (by omega)
  refine ⟨D, E, hD, hE, ?_, r, c, by omega, by omega, fun he => ⟨?_, ?_⟩⟩
  · unfold TPatt.init
    simp only [hD, hE]
    rw [if_neg (by rw [h1, h2]; simp)]
    rfl
  · obtain ⟨z, hz, -⟩ := continue_ok T (-1 : ℂ) hr
    rw [hD] at hz
    cases hz
    exact (c20_symmetric (vcat T z) (-1) (Or.inr rfl) he).2.2
  · obtain ⟨z, hz, -⟩ := continue_ok P (-1 : ℂ) (by omega)
    rw [hE] at hz
    cases hz
    exact (c20_symmetric (vcat P z) (-1) (Or.inr rfl) (show P.cols % 2 = 0 by omega)).2.2

theorem vspht_value (b : Backend) (T P : Arr2 ℂ) (hr : P.rows = T.rows) (hc : P.cols = T.cols) (hR : T.rows % 2 = 0) (hR0 : 0 < T.rows)
    (hsz : T.rows ≤ 2 ^ 29) (n m : ℤ) (h0 : 0 ≤ m) (hnr : ¬ (m > n ∨ n > ((T.rows / 2 + 1 : ℕ) : ℤ) - 2 ∨ 2 * m ≥ T.cols ∨ T.cols % 2 = 1)) :
    ∃ c, vspht b ⟨T, P⟩ (some n) (some m) = .ok c ∧ c.nmax = n ∧ c.mmax = m ∧ c.WellFormed ∧
      ∀ k l : ℤ, IsMode n m k l → k ≠ 0 → readMapV c k l = some
        (wdeg k.toNat * bF (T.rows / 2 + 1) (sldot l (fhat T l) (fhat P l)) l k.toNat,
         wdeg k.toNat * bF (T.rows / 2 + 1) (sldot l (fun ν => -Complex.I * fhat P l ν) (fun ν => Complex.I * fhat T l ν)) l k.toNat) := by
  obtain ⟨n', rfl⟩ := Int.eq_ofNat_of_zero_le (show 0 ≤ n by omega)
  obtain ⟨m', rfl⟩ := Int.eq_ofNat_of_zero_le h0
  obtain ⟨d, e, e1, e2, hw, hv⟩ := vspht_main b T P hR hR0 (by omega) hr hc (some (n' : ℤ)) (some (m' : ℤ)) n' m' rfl (by omega) (by omega) (by omega)
    (by unfold Backend.SizeOK; cases b <;> simp only
        norm_num at hsz ⊢; omega)
  refine ⟨d, e, e1, e2, hw, fun k l hk hk0 => ?_⟩
  rw [hasCoefsV_cf hw k l (by rw [e1, e2]; exact hk) hk0, (hv k l hk).1, (hv k l hk).2]

theorem vspht_ok_args {b : Backend} {T P : Arr2 ℂ} {n m : ℤ} {c : VectorCoefs ℂ} (h : vspht b ⟨T, P⟩ (some n) (some m) = .ok c) :
    ¬ (m > n ∨ n > ((T.rows / 2 + 1 : ℕ) : ℤ) - 2 ∨ 2 * m ≥ T.cols ∨ T.cols % 2 = 1) := fun hc => by
  obtain ⟨msg, e⟩ := c35_vspht_rejects b T P n m hc
  rw [h] at e; cases e

theorem sldot_mul (a : ℂ) (m : ℤ) (t p : ℤ → ℂ) (ν : ℤ) : sldot m (fun ν => a * t ν) (fun ν => a * p ν) ν = a * sldot m t p ν := by
  unfold sldot; ring

/-! ## C72: rotation about the z axis -/

/-- C72: rotating both components by `s` columns multiplies both coefficients of mode `(n, m)` by `exp(-2πi m s / ncols)`. -/
theorem c72_rotation (b b' : Backend) (T P : Arr2 ℂ) (hr : 2 ≤ T.rows) (h1 : P.rows = T.rows) (h2 : P.cols = T.cols) (hsz : T.rows ≤ 2 ^ 28)
    (s : ℕ) (hs : s ≤ T.cols) (p : TPatt ℂ) (hp : TPatt.init (.arr T) (.arr P) false = .ok p) (n m : ℤ) (h0 : 0 ≤ m) (c : VectorCoefs ℂ)
    (h : vspht b p (some n) (some m) = .ok c) :
    ∃ p' c', TPatt.init (.arr (rollCols s T)) (.arr (rollCols s P)) false = .ok p' ∧ vspht b' p' (some n) (some m) = .ok c' ∧
      c'.nmax = n ∧ c'.mmax = m ∧ c'.WellFormed ∧ ∀ k l : ℤ, IsMode n m k l → k ≠ 0 →
        readMapV c' k l = (readMapV c k l).map fun x : ℂ × ℂ =>
          (Complex.exp (-(2 * Real.pi * Complex.I * l * s / T.cols)) * x.1, Complex.exp (-(2 * Real.pi * Complex.I * l * s / T.cols)) * x.2) := by
  obtain ⟨D, E, hD, hE, hi, r1, c1, r2, c2, -⟩ := init_transverse T P hr h1 h2
  rw [hi] at hp; cases hp
  have hnr := vspht_ok_args h
  have hc0 : 0 < D.cols := by omega
  obtain ⟨d, e, -, -, -, hv⟩ := vspht_value b D E (by omega) (by omega) (by omega) (by omega) (by omega) n m h0 hnr
  rw [h] at e; cases e
  obtain ⟨d, e', n', m', w', hv'⟩ := vspht_value b' (rollCols s D) (rollCols s E) (show E.rows = D.rows by omega) (show E.cols = D.cols by omega)
    (show D.rows % 2 = 0 by omega) (show 0 < D.rows by omega) (show D.rows ≤ 2 ^ 29 by omega) n m h0 hnr
  obtain ⟨D', E', hD', hE', hi', -⟩ := init_transverse (rollCols s T) (rollCols s P) hr h1 h2
  rw [continue_roll T D (-1) s hr hD] at hD'
  rw [continue_roll P E (-1) s (by omega) hE] at hE'
  cases hD'; cases hE'
  refine ⟨_, d, hi', e', n', m', w', fun k l hk hk0 => ?_⟩
  rw [hv k l hk hk0, hv' k l hk hk0, Option.map_some]
  have hroot : root D.cols (-(s * l)) = Complex.exp (-(2 * Real.pi * Complex.I * l * s / T.cols)) := by
    unfold root
    congr 1
    rw [c1]; push_cast; ring
  have f1 : ∀ ν, fhat (rollCols s D) l ν = root D.cols (-(s * l)) * fhat D l ν := fun ν => fhat_roll D s (by omega) hc0 l ν
  have f2 : ∀ ν, fhat (rollCols s E) l ν = root D.cols (-(s * l)) * fhat E l ν := fun ν => by
    rw [fhat_roll E s (by omega) (by omega) l ν, c1, c2]
  rw [show (rollCols s D).rows = D.rows from rfl, ← hroot]
  congr 1
  refine Prod.ext ?_ ?_
  · have : sldot l (fhat (rollCols s D) l) (fhat (rollCols s E) l) = fun ν => root D.cols (-(s * l)) * sldot l (fhat D l) (fhat E l) ν := by
      funext ν
      rw [← sldot_mul, funext f1, funext f2]
    simp only
    rw [this, bF_mul]; ring
  · have : sldot l (fun ν => -Complex.I * fhat (rollCols s E) l ν) (fun ν => Complex.I * fhat (rollCols s D) l ν) =
        fun ν => root D.cols (-(s * l)) * sldot l (fun ν => -Complex.I * fhat E l ν) (fun ν => Complex.I * fhat D l ν) ν := by
      funext ν
      rw [← sldot_mul]
      simp only [f1, f2, mul_left_comm]
    simp only
    rw [this, bF_mul]; ring

/-! ## C73: duality (a quarter turn of the field about the radial direction) -/

theorem dftc_neg (D : Arr2 ℂ) (ν m : ℤ) : dftc (negArr D) ν m = -dftc D ν m := by
  unfold dftc
  rw [show (negArr D).rows = D.rows from rfl, show (negArr D).cols = D.cols from rfl, ← neg_div, ← sum_neg_distrib]
  congr 1
  refine sum_congr rfl fun i _ => ?_
  rw [← sum_neg_distrib]
  refine sum_congr rfl fun j _ => ?_
  rw [negArr_at]; ring

theorem fhat_neg (D : Arr2 ℂ) (m ν : ℤ) : fhat (negArr D) m ν = -fhat D m ν := by
  unfold fhat
  rw [dftc_neg]
  change (if |ν| < ((D.rows / 2 : ℕ) : ℤ) then _ else _) = _
  split <;> simp

/-- C73: replacing the field `E` by `r̂ × E`, that is `(Eθ, Eφ)` by `(-Eφ, Eθ)`, exchanges the two families of coefficients and
multiplies them by `-i`. -/
theorem c73_duality (b b' : Backend) (T P : Arr2 ℂ) (hr : 2 ≤ T.rows) (h1 : P.rows = T.rows) (h2 : P.cols = T.cols) (hsz : T.rows ≤ 2 ^ 28)
    (p : TPatt ℂ) (hp : TPatt.init (.arr T) (.arr P) false = .ok p) (n m : ℤ) (h0 : 0 ≤ m) (c : VectorCoefs ℂ)
    (h : vspht b p (some n) (some m) = .ok c) :
    ∃ p' c', TPatt.init (.arr (negArr P)) (.arr T) false = .ok p' ∧ vspht b' p' (some n) (some m) = .ok c' ∧
      c'.nmax = n ∧ c'.mmax = m ∧ c'.WellFormed ∧ ∀ k l : ℤ, IsMode n m k l → k ≠ 0 →
        readMapV c' k l = (readMapV c k l).map fun x : ℂ × ℂ => (-Complex.I * x.2, -Complex.I * x.1) := by
  obtain ⟨D, E, hD, hE, hi, r1, c1, r2, c2, -⟩ := init_transverse T P hr h1 h2
  rw [hi] at hp; cases hp
  have hnr := vspht_ok_args h
  obtain ⟨d, e, -, -, -, hv⟩ := vspht_value b D E (by omega) (by omega) (by omega) (by omega) (by omega) n m h0 hnr
  rw [h] at e; cases e
  obtain ⟨d, e', n', m', w', hv'⟩ := vspht_value b' (negArr E) D (show D.rows = E.rows by omega) (show D.cols = E.cols by omega)
    (show E.rows % 2 = 0 by omega) (show 0 < E.rows by omega) (show E.rows ≤ 2 ^ 29 by omega) n m h0
    (by rw [show (negArr E).rows = D.rows from (by change E.rows = D.rows; omega), show (negArr E).cols = D.cols from (by change E.cols = D.cols; omega)]; exact hnr)
  obtain ⟨D', E', hD', hE', hi', -⟩ := init_transverse (negArr P) T (show 2 ≤ P.rows by omega) h1.symm h2.symm
  rw [continue_neg P E (-1) (by omega) hE] at hD'
  rw [hD] at hE'
  cases hD'; cases hE'
  refine ⟨_, d, hi', e', n', m', w', fun k l hk hk0 => ?_⟩
  rw [hv k l hk hk0, hv' k l hk hk0, Option.map_some, show (negArr E).rows = D.rows from (by change E.rows = D.rows; omega)]
  have q := Complex.I_mul_I
  congr 1
  refine Prod.ext ?_ ?_
  · have : sldot l (fhat (negArr E) l) (fhat D l) =
        fun ν => -Complex.I * sldot l (fun ν => -Complex.I * fhat E l ν) (fun ν => Complex.I * fhat D l ν) ν := by
      funext ν
      rw [← sldot_mul]
      congr 1
      · funext ν; rw [fhat_neg]; linear_combination (-fhat E l ν) * q
      · funext ν; linear_combination (fhat D l ν) * q
    simp only
    rw [this, bF_mul]; ring
  · have : sldot l (fun ν => -Complex.I * fhat D l ν) (fun ν => Complex.I * fhat (negArr E) l ν) =
        fun ν => -Complex.I * sldot l (fhat D l) (fhat E l) ν := by
      funext ν
      rw [← sldot_mul]
      congr 1
      funext ν; rw [fhat_neg]; ring
    simp only
    rw [this, bF_mul]; ring

/-! ## C74: conjugation and reflection -/

theorem sphY_dphi_neg (n : ℕ) (m : ℤ) (θ φ : ℝ) : deriv (fun φ => sphY n m θ φ) φ =
    (-1) ^ m.natAbs * (starRingEnd ℂ) (deriv (fun φ => sphY n (-m) θ φ) φ) := by
  rw [sphY_dphi, sphY_dphi, map_mul, map_mul, sphY_conj, Complex.conj_I, map_intCast, neg_neg, Int.natAbs_neg]
  have h1 : ((-1 : ℂ)) ^ m.natAbs * (-1) ^ m.natAbs = 1 := by rw [← mul_pow]; simp
  push_cast
  linear_combination (-(Complex.I * m * sphY n m θ φ)) * h1

theorem sphY_dtheta_neg (n : ℕ) (m : ℤ) (θ φ : ℝ) : deriv (fun θ => sphY n m θ φ) θ =
    (-1) ^ m.natAbs * (starRingEnd ℂ) (deriv (fun θ => sphY n (-m) θ φ) θ) := by
  have e : (fun θ => thetaPart n (-m) θ) = fun θ => (-1) ^ m.natAbs * thetaPart n m θ := funext fun θ => thetaPart_neg n m θ
  rw [sphY_dtheta, conj_dtheta, e, deriv_const_mul_field]
  have h1 : ((-1 : ℂ)) ^ m.natAbs * (-1) ^ m.natAbs = 1 := by rw [← mul_pow]; simp
  push_cast
  rw [neg_mul, neg_neg]
  linear_combination (-(((deriv (fun θ => thetaPart n m θ) θ : ℝ) : ℂ) * Complex.exp (m * (φ * Complex.I)))) * h1

theorem projX_conj (Eθ Eφ : ℝ → ℝ → ℂ) (n : ℕ) (m : ℤ) :
    projX (fun θ φ => (starRingEnd ℂ) (Eθ θ φ)) (fun θ φ => (starRingEnd ℂ) (Eφ θ φ)) n m =
      -((-1) ^ m.natAbs * (starRingEnd ℂ) (projX Eθ Eφ n (-m))) := by
  unfold projX
  rw [map_div₀, Complex.conj_ofReal, ← mul_div_assoc, ← neg_div, ← intervalIntegral_conj, ← intervalIntegral.integral_const_mul, ← intervalIntegral.integral_neg]
  congr 2
  funext φ
  rw [← intervalIntegral_conj, ← intervalIntegral.integral_const_mul, ← intervalIntegral.integral_neg]
  congr 1
  funext θ
  rw [sphY_dphi_neg n m, sphY_dtheta_neg n m]
  simp only [map_add, map_mul, map_neg, Complex.conj_conj, Complex.conj_I, Complex.conj_ofReal, map_pow, map_one]
  ring

theorem projRX_conj (Eθ Eφ : ℝ → ℝ → ℂ) (n : ℕ) (m : ℤ) :
    projRX (fun θ φ => (starRingEnd ℂ) (Eθ θ φ)) (fun θ φ => (starRingEnd ℂ) (Eφ θ φ)) n m =
      (-1) ^ m.natAbs * (starRingEnd ℂ) (projRX Eθ Eφ n (-m)) := by
  unfold projRX
  rw [map_div₀, Complex.conj_ofReal, ← mul_div_assoc, ← intervalIntegral_conj, ← intervalIntegral.integral_const_mul]
  congr 2
  funext φ
  rw [← intervalIntegral_conj, ← intervalIntegral.integral_const_mul]
  congr 1
  funext θ
  rw [sphY_dphi_neg n m, sphY_dtheta_neg n m]
  simp only [map_add, map_mul, map_neg, Complex.conj_conj, Complex.conj_ofReal, map_pow, map_one]
  ring

/-- C74, conjugation: the coefficients of the conjugate field. -/
theorem c74_conjugate (b b' : Backend) (T P : Arr2 ℂ) (hr : 2 ≤ T.rows) (h1 : P.rows = T.rows) (h2 : P.cols = T.cols) (hsz : T.rows ≤ 2 ^ 28)
    (p : TPatt ℂ) (hp : TPatt.init (.arr T) (.arr P) false = .ok p) (n m : ℤ) (h0 : 0 ≤ m) (c : VectorCoefs ℂ)
    (h : vspht b p (some n) (some m) = .ok c) :
    ∃ p' c', TPatt.init (.arr (conjArr T)) (.arr (conjArr P)) false = .ok p' ∧ vspht b' p' (some n) (some m) = .ok c' ∧
      c'.nmax = n ∧ c'.mmax = m ∧ c'.WellFormed ∧ ∀ k l : ℤ, IsMode n m k l → k ≠ 0 →
        readMapV c' k l = (readMapV c k (-l)).map fun x : ℂ × ℂ =>
          (-((-1) ^ l.natAbs * (starRingEnd ℂ) x.1), (-1) ^ l.natAbs * (starRingEnd ℂ) x.2) := by
  obtain ⟨D, E, hD, hE, hi, r1, c1, r2, c2, hsym⟩ := init_transverse T P hr h1 h2
  rw [hi] at hp; cases hp
  have hnr := vspht_ok_args h
  obtain ⟨sD, sE⟩ := hsym (by omega)
  have cj : (starRingEnd ℂ) (-1) = -1 := by rw [map_neg, map_one]
  obtain ⟨d, e', n', m', w', -⟩ := vspht_value b' (conjArr D) (conjArr E) (show E.rows = D.rows by omega) (show E.cols = D.cols by omega)
    (show D.rows % 2 = 0 by omega) (show 0 < D.rows by omega) (show D.rows ≤ 2 ^ 29 by omega) n m h0 hnr
  obtain ⟨D', E', hD', hE', hi', -⟩ := init_transverse (conjArr T) (conjArr P) hr h1 h2
  rw [continue_conj T D (-1) cj hr hD] at hD'
  rw [continue_conj P E (-1) cj (by omega) hE] at hE'
  cases hD'; cases hE'
  refine ⟨_, d, hi', e', n', m', w', fun k l hk hk0 => ?_⟩
  obtain ⟨-, -, v1⟩ := c51_projection b D E (by omega) (by omega) (by omega) (by omega) (by omega) sD sE n m h0 c h
  obtain ⟨-, -, v2⟩ := c51_projection b' (conjArr D) (conjArr E) (show E.rows = D.rows by omega) (show E.cols = D.cols by omega)
    (show D.rows % 2 = 0 by omega) (show 0 < D.rows by omega) (show D.rows ≤ 2 ^ 29 by omega) (dsym_conj cj sD) (dsym_conj cj sE) n m h0 d e'
  rw [v1 k (-l) (isMode_neg hk) hk0, v2 k l hk hk0, Option.map_some]
  have f : ∀ D : Arr2 ℂ, interpolant (conjArr D) = fun θ φ => (starRingEnd ℂ) (interpolant D θ φ) := fun D =>
    funext fun θ => funext fun φ => interpolant_conj D θ φ
  rw [f, f, projX_conj, projRX_conj]

theorem thetaPart_deriv_reflect (n : ℕ) (m : ℤ) (θ : ℝ) :
    deriv (fun θ => thetaPart n m θ) (Real.pi - θ) = -((-1) ^ (n + m.natAbs) * deriv (fun θ => thetaPart n m θ) θ) := by
  have h1 : ((-1 : ℝ)) ^ (n + m.natAbs) * (-1) ^ (n + m.natAbs) = 1 := by rw [← mul_pow]; simp
  have e : (fun θ => thetaPart n m θ) = fun θ => (-1) ^ (n + m.natAbs) * thetaPart n m (Real.pi - θ) := funext fun θ => by
    rw [thetaPart_reflect, ← mul_assoc, h1, one_mul]
  conv_rhs => rw [e]
  rw [deriv_const_mul_field, deriv_comp_const_sub (f := fun θ => thetaPart n m θ) (a := Real.pi)]
  linear_combination (-deriv (fun θ => thetaPart n m θ) (Real.pi - θ)) * h1

theorem sphY_dtheta_reflect (n : ℕ) (m : ℤ) (θ φ : ℝ) :
    deriv (fun θ => sphY n m θ φ) (Real.pi - θ) = -((-1) ^ (n + m.natAbs) * deriv (fun θ => sphY n m θ φ) θ) := by
  rw [sphY_dtheta, sphY_dtheta, thetaPart_deriv_reflect]
  push_cast; ring

theorem sphY_dphi_reflect (n : ℕ) (m : ℤ) (θ φ : ℝ) :
    deriv (fun φ => sphY n m (Real.pi - θ) φ) φ = (-1) ^ (n + m.natAbs) * deriv (fun φ => sphY n m θ φ) φ := by
  rw [sphY_dphi, sphY_dphi, sphY_reflect]; ring

theorem integral_reflect (F : ℝ → ℂ) : ∫ θ in (0 : ℝ)..Real.pi, F (Real.pi - θ) = ∫ θ in (0 : ℝ)..Real.pi, F θ := by
  have := intervalIntegral.integral_comp_sub_left (a := 0) (b := Real.pi) F Real.pi
  rw [sub_self, sub_zero] at this
  exact this

theorem projX_reflect (Eθ Eφ : ℝ → ℝ → ℂ) (n : ℕ) (m : ℤ) :
    projX (fun θ φ => -Eθ (Real.pi - θ) φ) (fun θ φ => Eφ (Real.pi - θ) φ) n m = -((-1) ^ (n + m.natAbs) * projX Eθ Eφ n m) := by
  unfold projX
  rw [← mul_div_assoc, ← neg_div, ← intervalIntegral.integral_const_mul, ← intervalIntegral.integral_neg]
  congr 2
  funext φ
  rw [← intervalIntegral.integral_const_mul, ← intervalIntegral.integral_neg, ← integral_reflect]
  congr 1
  funext θ
  beta_reduce
  rw [sub_sub_cancel, sphY_dtheta_reflect, sphY_dphi_reflect, Real.sin_pi_sub]
  simp only [map_mul, map_neg, map_pow, map_one]
  ring

theorem projRX_reflect (Eθ Eφ : ℝ → ℝ → ℂ) (n : ℕ) (m : ℤ) :
    projRX (fun θ φ => -Eθ (Real.pi - θ) φ) (fun θ φ => Eφ (Real.pi - θ) φ) n m = (-1) ^ (n + m.natAbs) * projRX Eθ Eφ n m := by
  unfold projRX
  rw [← mul_div_assoc, ← intervalIntegral.integral_const_mul]
  congr 2
  funext φ
  rw [← intervalIntegral.integral_const_mul, ← integral_reflect]
  congr 1
  funext θ
  beta_reduce
  rw [sub_sub_cancel, sphY_dtheta_reflect, sphY_dphi_reflect, Real.sin_pi_sub]
  simp only [map_mul, map_neg, map_pow, map_one]
  ring

theorem interpolant_neg (D : Arr2 ℂ) (θ φ : ℝ) : interpolant (negArr D) θ φ = -interpolant D θ φ := by
  unfold interpolant trigPoly
  rw [show (negArr D).rows = D.rows from rfl, show (negArr D).cols = D.cols from rfl, ← sum_neg_distrib]
  refine sum_congr rfl fun m _ => ?_
  rw [← sum_neg_distrib]
  refine sum_congr rfl fun ν _ => ?_
  rw [dftc_neg]; ring

theorem dsym_neg {D : Arr2 ℂ} {sym : ℂ} (h : DSym sym D) : DSym sym (negArr D) := by
  intro i j hi hj
  rw [negArr_at, negArr_at, h i j hi hj]
  change -(sym * D.at' ((D.rows - i) % D.rows) ((j + D.cols / 2) % D.cols)) = sym * -D.at' ((D.rows - i) % D.rows) ((j + D.cols / 2) % D.cols)
  ring

/-- C74, reflection of the field in the equatorial plane: `Eθ` changes sign, both components move to the mirrored row. -/
theorem c74_reflection (b b' : Backend) (T P : Arr2 ℂ) (hr : 2 ≤ T.rows) (h1 : P.rows = T.rows) (h2 : P.cols = T.cols) (hsz : T.rows ≤ 2 ^ 28)
    (p : TPatt ℂ) (hp : TPatt.init (.arr T) (.arr P) false = .ok p) (n m : ℤ) (h0 : 0 ≤ m) (c : VectorCoefs ℂ)
    (h : vspht b p (some n) (some m) = .ok c) :
    ∃ p' c', TPatt.init (.arr (negArr (flipRows T))) (.arr (flipRows P)) false = .ok p' ∧ vspht b' p' (some n) (some m) = .ok c' ∧
      c'.nmax = n ∧ c'.mmax = m ∧ c'.WellFormed ∧ ∀ k l : ℤ, IsMode n m k l → k ≠ 0 →
        readMapV c' k l = (readMapV c k l).map fun x : ℂ × ℂ =>
          (-((-1) ^ (k.toNat + l.natAbs) * x.1), (-1) ^ (k.toNat + l.natAbs) * x.2) := by
  obtain ⟨D, E, hD, hE, hi, r1, c1, r2, c2, hsym⟩ := init_transverse T P hr h1 h2
  rw [hi] at hp; cases hp
  have hnr := vspht_ok_args h
  obtain ⟨sD, sE⟩ := hsym (by omega)
  obtain ⟨d, e', n', m', w', -⟩ := vspht_value b' (negArr (flipD D)) (flipD E) (show E.rows = D.rows by omega) (show E.cols = D.cols by omega)
    (show D.rows % 2 = 0 by omega) (show 0 < D.rows by omega) (show D.rows ≤ 2 ^ 29 by omega) n m h0 hnr
  obtain ⟨D', E', hD', hE', hi', -, -, -, -, hs'⟩ := init_transverse (negArr (flipRows T)) (flipRows P) hr h1 h2
  rw [continue_neg (flipRows T) (flipD D) (-1) hr (continue_flip T D (-1) hr hD)] at hD'
  rw [continue_flip P E (-1) (by omega) hE] at hE'
  cases hD'; cases hE'
  obtain ⟨sD', sE'⟩ := hs' (show T.cols % 2 = 0 by omega)
  refine ⟨_, d, hi', e', n', m', w', fun k l hk hk0 => ?_⟩
  obtain ⟨-, -, v1⟩ := c51_projection b D E (by omega) (by omega) (by omega) (by omega) (by omega) sD sE n m h0 c h
  obtain ⟨-, -, v2⟩ := c51_projection b' (negArr (flipD D)) (flipD E) (show E.rows = D.rows by omega) (show E.cols = D.cols by omega)
    (show D.rows % 2 = 0 by omega) (show 0 < D.rows by omega) (show D.rows ≤ 2 ^ 29 by omega) sD' sE' n m h0 d e'
  rw [v1 k l hk hk0, v2 k l hk hk0, Option.map_some]
  have f1 : interpolant (negArr (flipD D)) = fun θ φ => -interpolant D (Real.pi - θ) φ := funext fun θ => funext fun φ => by
    rw [interpolant_neg, interpolant_flip D (T.rows - 1) (by omega) (by omega)]
  have f2 : interpolant (flipD E) = fun θ φ => interpolant E (Real.pi - θ) φ := funext fun θ => funext fun φ =>
    interpolant_flip E (T.rows - 1) (by omega) (by omega) θ φ
  rw [f1, f2, projX_reflect, projRX_reflect]

/-! ## Real fields -/

/-- C74, real fields: the coefficients of `m` and `-m` determine each other. -/
theorem c74_real (b : Backend) (T P : Arr2 ℂ) (hr : 2 ≤ T.rows) (h1 : P.rows = T.rows) (h2 : P.cols = T.cols) (hsz : T.rows ≤ 2 ^ 28)
    (rT : ∀ i j, (T.at' i j).im = 0) (rP : ∀ i j, (P.at' i j).im = 0)
    (p : TPatt ℂ) (hp : TPatt.init (.arr T) (.arr P) false = .ok p) (n m : ℤ) (h0 : 0 ≤ m) (c : VectorCoefs ℂ)
    (h : vspht b p (some n) (some m) = .ok c) (k l : ℤ) (hk : IsMode n m k l) (hk0 : k ≠ 0) :
    readMapV c k l = (readMapV c k (-l)).map fun x : ℂ × ℂ =>
      (-((-1) ^ l.natAbs * (starRingEnd ℂ) x.1), (-1) ^ l.natAbs * (starRingEnd ℂ) x.2) := by
  obtain ⟨p', c', e1, e2, -, -, -, e⟩ := c74_conjugate b b T P hr h1 h2 hsz p hp n m h0 c h
  have f : ∀ A : Arr2 ℂ, (∀ i j, (A.at' i j).im = 0) → conjArr A = A := fun A hA => Arr2.ext' rfl rfl fun i j _ _ => by
    rw [conjArr_at]; exact Complex.conj_eq_iff_im.mpr (hA i j)
  rw [f T rT, f P rP, hp] at e1; cases e1
  rw [h] at e2; cases e2
  exact e k l hk hk0

/-- C70, synthesis: coefficients with `c[n,-m] = (-1)^m conj c[n,m]` synthesise to real samples. -/
theorem c70_real_synthesis (b : Backend) (c : ScalarCoefs ℂ) (hc : c.WellFormed)
    (hs : ∀ n m, IsMode c.nmax c.mmax n m → readMap c n (-m) = (readMap c n m).map fun x : ℂ => (-1) ^ m.natAbs * (starRingEnd ℂ) x)
    (nr nc : ℤ) (h1 : c.nmax + 2 ≤ nr) (h2 : 2 * c.mmax + 2 ≤ nc) (h3 : nc % 2 = 0) :
    ∃ p A, ispht b c (some nr) (some nc) = .ok p ∧ p.array = .ok A ∧ A.rows = nr ∧ A.cols = nc ∧ ∀ i j, (A.at' i j).im = 0 := by
  have hv := hasCoefs_cf hc
  obtain ⟨p, A, e1, e2, e3, e4, e5⟩ := c30_ispht b c hc c.cf hv nr nc h1 h2 h3
  refine ⟨p, A, e1, e2, e3, e4, fun i j => ?_⟩
  by_cases hij : i < A.rows ∧ j < A.cols
  swap
  · rw [Arr2.at'_of_not A hij]; rfl
  rw [e5 i j hij.1 hij.2, ← Complex.conj_eq_iff_im]
  unfold shSeries
  rw [map_sum]
  refine sum_nbij' (fun p => (p.1, -p.2)) (fun p => (p.1, -p.2)) ?_ ?_ ?_ ?_ ?_
  · intro q hq; exact mem_modes.mpr (isMode_neg (mem_modes.mp hq))
  · intro q hq; exact mem_modes.mpr (isMode_neg (mem_modes.mp hq))
  · intro q _; simp
  · intro q _; simp
  · intro q hq
    have hm := mem_modes.mp hq
    have g := hs q.1 q.2 hm
    rw [hv _ _ hm, hv _ _ (isMode_neg hm), Option.map_some, Option.some.injEq] at g
    simp only
    rw [map_mul, sphY_conj, g]
    ring

/-! ## Concrete cases -/

/-- A 3 by 4 array of samples with real and imaginary parts. -/
noncomputable def gsample : Arr2 ℂ := Arr2.ofFn 3 4 fun i j => (i : ℂ) + j * Complex.I + 1
/-- Its real part. -/
noncomputable def rsample : Arr2 ℂ := Arr2.ofFn 3 4 fun i j => ((i + j + 1 : ℕ) : ℂ)

theorem rsample_real (i j : ℕ) : (rsample.at' i j).im = 0 := by
  by_cases h : i < 3 ∧ j < 4
  · unfold rsample; rw [Arr2.at'_ofFn h.1 h.2]; exact Complex.natCast_im _
  · rw [Arr2.at'_of_not rsample h]; rfl

theorem spht_accepts_sample (b : Backend) (A : Arr2 ℂ) (h1 : A.rows = 3) (h2 : A.cols = 4) :
    ∃ p c, SPatt.init (.arr A) false = .ok p ∧ spht b p (some 1) (some 1) = .ok c := by
  obtain ⟨D, -, e, r, c, -⟩ := init_pattern A (by omega)
  obtain ⟨c', e', -⟩ := spht_value b D (by omega) (by omega) (by norm_num; omega) 1 1 (by omega) (by omega)
  exact ⟨_, c', e, e'⟩

theorem vspht_accepts_sample (b : Backend) (T P : Arr2 ℂ) (h1 : T.rows = 3) (h2 : T.cols = 4) (h3 : P.rows = 3) (h4 : P.cols = 4) :
    ∃ p c, TPatt.init (.arr T) (.arr P) false = .ok p ∧ vspht b p (some 1) (some 1) = .ok c := by
  obtain ⟨D, E, -, -, e, r, c, r', c', -⟩ := init_transverse T P (by omega) (by omega) (by omega)
  obtain ⟨c', e', -⟩ := vspht_value b D E (by omega) (by omega) (by omega) (by omega) (by norm_num; omega) 1 1 (by omega) (by omega)
  exact ⟨_, c', e, e'⟩

/-- C69-C71 hypotheses: a 3 by 4 complex pattern, accepted with `nmax = mmax = 1`; the rotation, reflection and conjugate are different arrays. -/
example (b : Backend) : 2 ≤ gsample.rows ∧ gsample.rows ≤ 2 ^ 28 ∧ 1 ≤ gsample.cols ∧
    (∃ p c, SPatt.init (.arr gsample) false = .ok p ∧ spht b p (some 1) (some 1) = .ok c) ∧ IsMode 1 1 1 (-1) ∧
    rollCols 1 gsample ≠ gsample ∧ flipRows gsample ≠ gsample ∧ conjArr gsample ≠ gsample := by
  refine ⟨by decide, by decide, by decide, spht_accepts_sample b gsample rfl rfl, by decide, fun h => ?_, fun h => ?_, fun h => ?_⟩
  · have := congrArg (fun A : Arr2 ℂ => A.at' 0 0) h
    beta_reduce at this
    rw [rollCols_at (by decide) (by decide)] at this
    unfold gsample at this
    rw [show (0 + ((Arr2.ofFn 3 4 fun i j => (i : ℂ) + j * Complex.I + 1).cols - 1)) % (Arr2.ofFn 3 4 fun i j => (i : ℂ) + j * Complex.I + 1).cols = 3 from rfl,
      Arr2.at'_ofFn (by decide) (by decide), Arr2.at'_ofFn (by decide) (by decide)] at this
    have := congrArg Complex.im this
    norm_num at this
  · have := congrArg (fun A : Arr2 ℂ => A.at' 0 0) h
    beta_reduce at this
    rw [flipRows_at (by decide) (by decide)] at this
    unfold gsample at this
    rw [show (Arr2.ofFn 3 4 fun i j => (i : ℂ) + j * Complex.I + 1).rows - 1 - 0 = 2 from rfl,
      Arr2.at'_ofFn (by decide) (by decide), Arr2.at'_ofFn (by decide) (by decide)] at this
    have := congrArg Complex.re this
    norm_num at this
  · have := congrArg (fun A : Arr2 ℂ => A.at' 0 1) h
    beta_reduce at this
    rw [conjArr_at] at this
    unfold gsample at this
    rw [Arr2.at'_ofFn (by decide) (by decide)] at this
    have := congrArg Complex.im this
    norm_num at this

/-- C70 (real patterns) hypotheses. -/
example (b : Backend) : 2 ≤ rsample.rows ∧ (∀ i j, (rsample.at' i j).im = 0) ∧
    (∃ p c, SPatt.init (.arr rsample) false = .ok p ∧ spht b p (some 1) (some 1) = .ok c) :=
  ⟨by decide, rsample_real, spht_accepts_sample b rsample rfl rfl⟩

/-- C72-C74 hypotheses. -/
example (b : Backend) : 2 ≤ gsample.rows ∧ rsample.rows = gsample.rows ∧ rsample.cols = gsample.cols ∧ gsample ≠ negArr rsample ∧
    (∃ p c, TPatt.init (.arr gsample) (.arr rsample) false = .ok p ∧ vspht b p (some 1) (some 1) = .ok c) ∧
    (∃ p c, TPatt.init (.arr rsample) (.arr rsample) false = .ok p ∧ vspht b p (some 1) (some 1) = .ok c) := by
  refine ⟨by decide, rfl, rfl, fun h => ?_, vspht_accepts_sample b _ _ rfl rfl rfl rfl, vspht_accepts_sample b _ _ rfl rfl rfl rfl⟩
  have := congrArg (fun A : Arr2 ℂ => A.at' 0 0) h
  beta_reduce at this
  rw [negArr_at] at this
  unfold gsample rsample at this
  rw [Arr2.at'_ofFn (by decide) (by decide), Arr2.at'_ofFn (by decide) (by decide)] at this
  have := congrArg Complex.re this
  norm_num at this

/-- C70 (synthesis) hypotheses: the coefficients of the real pattern have the symmetry. -/
example (b b' : Backend) : ∃ c : ScalarCoefs ℂ, c.WellFormed ∧ c.nmax = 1 ∧ c.mmax = 1 ∧
    (∀ n m, IsMode c.nmax c.mmax n m → readMap c n (-m) = (readMap c n m).map fun x : ℂ => (-1) ^ m.natAbs * (starRingEnd ℂ) x) ∧
    ∃ p, ispht b' c (some 3) (some 4) = .ok p := by
  obtain ⟨D, -, e, r, c, -⟩ := init_pattern rsample (by decide)
  obtain ⟨c', e', n', m', w', -⟩ := spht_value b D (by rw [r]; decide) (by rw [r]; decide) (by rw [r]; decide) 1 1 (by omega) (by rw [r, c]; decide)
  have hsym : ∀ n m, IsMode c'.nmax c'.mmax n m → readMap c' n (-m) = (readMap c' n m).map fun x : ℂ => (-1) ^ m.natAbs * (starRingEnd ℂ) x := by
    intro n m hm
    rw [n', m'] at hm
    have := c70_real b rsample (by decide) (by decide) rsample_real _ e 1 1 (by omega) c' e' n (-m) (isMode_neg hm)
    rwa [neg_neg, Int.natAbs_neg] at this
  obtain ⟨p, A, e1, -⟩ := c70_real_synthesis b' c' w' hsym 3 4 (by omega) (by omega) (by decide)
  exact ⟨c', w', n', m', hsym, p, e1⟩

end Verif.Props
