import Verif.Math.Rotation
/-!
# Directional derivatives of the spherical harmonics under rotations
-/
namespace Verif.Rot
open Polynomial Finset

/-- The unit vectors in the directions of increasing `θ` and `φ`. -/
noncomputable def thHat (θ φ : ℝ) : Fin 3 → ℝ := ![Real.cos θ * Real.cos φ, Real.cos θ * Real.sin φ, -Real.sin θ]
noncomputable def phHat (φ : ℝ) : Fin 3 → ℝ := ![-Real.sin φ, Real.cos φ, 0]

/-- The derivative of `Y_nm` at `x` in the direction `t`. -/
noncomputable def dYv (n : ℕ) (m : ℤ) (x t : Fin 3 → ℝ) : ℂ :=
  (tconst n m : ℂ) * (m.natAbs * (if 0 ≤ m then (x 0 : ℂ) + x 1 * Complex.I else (x 0 : ℂ) - x 1 * Complex.I) ^ (m.natAbs - 1) *
    (if 0 ≤ m then (t 0 : ℂ) + t 1 * Complex.I else (t 0 : ℂ) - t 1 * Complex.I) * ((legD n m.natAbs).eval (x 2) : ℝ) +
    (if 0 ≤ m then (x 0 : ℂ) + x 1 * Complex.I else (x 0 : ℂ) - x 1 * Complex.I) ^ m.natAbs * (((legD n (m.natAbs + 1)).eval (x 2) : ℝ) * t 2))

theorem dYv_add (n : ℕ) (m : ℤ) (x s t : Fin 3 → ℝ) (a b : ℝ) : dYv n m x (a • s + b • t) = a * dYv n m x s + b * dYv n m x t := by
  unfold dYv
  simp only [Pi.add_apply, Pi.smul_apply, smul_eq_mul]
  split <;> push_cast <;> ring

theorem dYv_smul (n : ℕ) (m : ℤ) (x t : Fin 3 → ℝ) (a : ℝ) : dYv n m x (a • t) = a * dYv n m x t := by
  have := dYv_add n m x t 0 a 0
  simpa using this

theorem hasDerivAt_curve (n : ℕ) (m : ℤ) (γ γ' : Fin 3 → ℝ → ℝ) (s : ℝ) (h : ∀ i, HasDerivAt (γ i) (γ' i s) s) :
    HasDerivAt (fun s => Yv n m fun i => γ i s) (dYv n m (fun i => γ i s) fun i => γ' i s) s := by
  have hz : HasDerivAt (fun s => (legD n m.natAbs).eval (γ 2 s)) ((legD n (m.natAbs + 1)).eval (γ 2 s) * γ' 2 s) s := by
    have h' := ((legD n m.natAbs).hasDerivAt (γ 2 s)).comp s (h 2)
    rw [derivative_legD] at h'; exact h'
  unfold Yv dYv
  split
  · have hw : HasDerivAt (fun s => (γ 0 s : ℂ) + γ 1 s * Complex.I) ((γ' 0 s : ℂ) + γ' 1 s * Complex.I) s :=
      (h 0).ofReal_comp.add ((h 1).ofReal_comp.mul_const _)
    refine (((hw.fun_pow m.natAbs).mul hz.ofReal_comp).const_mul _).congr_deriv ?_
    push_cast; ring
  · have hw : HasDerivAt (fun s => (γ 0 s : ℂ) - γ 1 s * Complex.I) ((γ' 0 s : ℂ) - γ' 1 s * Complex.I) s :=
      (h 0).ofReal_comp.sub ((h 1).ofReal_comp.mul_const _)
    refine (((hw.fun_pow m.natAbs).mul hz.ofReal_comp).const_mul _).congr_deriv ?_
    push_cast; ring

/-- The matrix of `Q` also acts on tangential derivatives. -/
theorem dYv_rotate {n : ℕ} {Q : Matrix (Fin 3) (Fin 3) ℝ} {W : ℤ → ℤ → ℂ}
    (hW : ∀ v, Unit3 v → ∀ m ∈ Icc (-(n : ℤ)) n, Yv n m (Q.mulVec v) = ∑ k ∈ Icc (-(n : ℤ)) n, W m k * Yv n k v)
    (x t : Fin 3 → ℝ) (hx : Unit3 x) (ht : Unit3 t) (hxt : x ⬝ᵥ t = 0) (m : ℤ) (hm : m ∈ Icc (-(n : ℤ)) n) :
    dYv n m (Q.mulVec x) (Q.mulVec t) = ∑ k ∈ Icc (-(n : ℤ)) n, W m k * dYv n k x t := by
  -- the great circle through x in the direction t
  let γ : Fin 3 → ℝ → ℝ := fun i s => x i * Real.cos s + t i * Real.sin s
  let γ' : Fin 3 → ℝ → ℝ := fun i s => x i * -Real.sin s + t i * Real.cos s
  have hγ : ∀ i s, HasDerivAt (γ i) (γ' i s) s := fun i s =>
    ((Real.hasDerivAt_cos s).const_mul (x i)).add ((Real.hasDerivAt_sin s).const_mul (t i))
  have hu : ∀ s, Unit3 fun i => γ i s := by
    intro s
    rw [unit3_iff] at hx ht ⊢
    have h1 := Real.sin_sq_add_cos_sq s
    unfold dotProduct at *
    rw [Fin.sum_univ_three] at *
    simp only [γ]
    linear_combination Real.cos s ^ 2 * hx + Real.sin s ^ 2 * ht + 2 * Real.cos s * Real.sin s * hxt + h1
  have hγ2 : ∀ i s, HasDerivAt (fun s => (Q.mulVec fun i => γ i s) i) ((Q.mulVec fun i => γ' i s) i) s := by
    intro i s
    unfold Matrix.mulVec dotProduct
    exact HasDerivAt.fun_sum fun j _ => (hγ j s).const_mul _
  have d1 := hasDerivAt_curve n m (fun i s => (Q.mulVec fun i => γ i s) i) (fun i s => (Q.mulVec fun i => γ' i s) i) 0 (fun i => hγ2 i 0)
  have d2 : HasDerivAt (fun s => ∑ k ∈ Icc (-(n : ℤ)) n, W m k * Yv n k fun i => γ i s)
      (∑ k ∈ Icc (-(n : ℤ)) n, W m k * dYv n k (fun i => γ i 0) fun i => γ' i 0) 0 :=
    HasDerivAt.fun_sum fun k _ => (hasDerivAt_curve n k γ γ' 0 fun i => hγ i 0).const_mul _
  have e : (fun s => Yv n m fun i => (Q.mulVec fun i => γ i s) i) = fun s => ∑ k ∈ Icc (-(n : ℤ)) n, W m k * Yv n k fun i => γ i s :=
    funext fun s => hW _ (hu s) m hm
  rw [e] at d1
  have h3 := d1.unique d2
  have g0 : (fun i => γ i 0) = x := by funext i; simp [γ]
  have g1 : (fun i => γ' i 0) = t := by funext i; simp [γ']
  simp only [g0, g1] at h3
  exact h3

/-- Vector product. -/
def crs (s t : Fin 3 → ℝ) : Fin 3 → ℝ := ![s 1 * t 2 - s 2 * t 1, s 2 * t 0 - s 0 * t 2, s 0 * t 1 - s 1 * t 0]

theorem crs_mul (Q : Matrix (Fin 3) (Fin 3) ℝ) (s t : Fin 3 → ℝ) :
    Q.transpose.mulVec (crs (Q.mulVec s) (Q.mulVec t)) = Q.det • crs s t := by
  unfold crs
  funext i
  fin_cases i <;> simp [Matrix.mulVec, dotProduct, Fin.sum_univ_three, Matrix.det_fin_three] <;> ring

theorem crs_orth {Q : Matrix (Fin 3) (Fin 3) ℝ} (hQ : Orth Q) (s t : Fin 3 → ℝ) : crs (Q.mulVec s) (Q.mulVec t) = Q.det • Q.mulVec (crs s t) := by
  have h := congrArg Q.mulVec (crs_mul Q s t)
  have hQ' : Q * Q.transpose = 1 := mul_eq_one_comm.mp hQ
  rw [Matrix.mulVec_mulVec, hQ', Matrix.one_mulVec, Matrix.mulVec_smul] at h
  exact h

theorem crs_unit (s t : Fin 3 → ℝ) (hs : Unit3 s) (ht : Unit3 t) (h : t ⬝ᵥ s = 0) : Unit3 (crs s t) ∧ t ⬝ᵥ crs s t = 0 := by
  unfold Unit3 at *
  unfold dotProduct at *
  rw [Fin.sum_univ_three] at *
  unfold crs
  simp only [Matrix.cons_val_zero, Matrix.cons_val_one, Matrix.cons_val]
  constructor
  · linear_combination (t 0 ^ 2 + t 1 ^ 2 + t 2 ^ 2) * hs + ht - (t 0 * s 0 + t 1 * s 1 + t 2 * s 2) * h
  · ring

theorem thHat_unit (θ φ : ℝ) : Unit3 (thHat θ φ) ∧ pt θ φ ⬝ᵥ thHat θ φ = 0 := by
  unfold Unit3 thHat pt dotProduct
  rw [Fin.sum_univ_three]
  simp only [Matrix.cons_val_zero, Matrix.cons_val_one, Matrix.cons_val]
  have h1 := Real.sin_sq_add_cos_sq θ
  have h2 := Real.sin_sq_add_cos_sq φ
  constructor
  · linear_combination Real.cos θ ^ 2 * h2 + h1
  · linear_combination Real.sin θ * Real.cos θ * h2

theorem phHat_unit (θ φ : ℝ) : Unit3 (phHat φ) ∧ pt θ φ ⬝ᵥ phHat φ = 0 := by
  unfold Unit3 phHat pt dotProduct
  rw [Fin.sum_univ_three]
  simp only [Matrix.cons_val_zero, Matrix.cons_val_one, Matrix.cons_val]
  have h2 := Real.sin_sq_add_cos_sq φ
  constructor
  · linear_combination h2
  · ring

theorem crs_thHat (θ φ : ℝ) : crs (thHat θ φ) (pt θ φ) = -phHat φ := by
  unfold crs thHat phHat pt
  have h1 := Real.sin_sq_add_cos_sq θ
  funext i
  fin_cases i <;> simp
  · linear_combination Real.sin φ * h1
  · linear_combination -Real.cos φ * h1
  · ring

theorem crs_phHat (θ φ : ℝ) : crs (phHat φ) (pt θ φ) = thHat θ φ := by
  unfold crs thHat phHat pt
  have h1 := Real.sin_sq_add_cos_sq φ
  funext i
  fin_cases i <;> simp
  · ring
  · ring
  · linear_combination -Real.sin θ * h1

/-- A tangent vector is a combination of the two unit vectors. -/
theorem tangent (θ φ : ℝ) (t : Fin 3 → ℝ) (h : pt θ φ ⬝ᵥ t = 0) : ∃ a b : ℝ, t = a • thHat θ φ + b • phHat φ := by
  refine ⟨t ⬝ᵥ thHat θ φ, t ⬝ᵥ phHat φ, ?_⟩
  have h1 := Real.sin_sq_add_cos_sq θ
  have h2 := Real.sin_sq_add_cos_sq φ
  unfold thHat phHat pt dotProduct at *
  rw [Fin.sum_univ_three] at h
  simp only [Fin.sum_univ_three, Matrix.cons_val_zero, Matrix.cons_val_one, Matrix.cons_val] at *
  funext i
  fin_cases i <;> simp
  · linear_combination (Real.sin θ * Real.cos φ) * h - t 0 * h2 - (t 0 * Real.cos φ ^ 2 + t 1 * Real.sin φ * Real.cos φ) * h1
  · linear_combination (Real.sin θ * Real.sin φ) * h - t 1 * h2 - (t 0 * Real.cos φ * Real.sin φ + t 1 * Real.sin φ ^ 2) * h1
  · linear_combination Real.cos θ * h - t 2 * h1

theorem exp_phase (m : ℤ) (φ : ℝ) : Complex.exp (m * (φ * Complex.I)) =
    (if 0 ≤ m then Complex.cos φ + Complex.sin φ * Complex.I else Complex.cos φ - Complex.sin φ * Complex.I) ^ m.natAbs := by
  have e : (m : ℂ) * (φ * Complex.I) = (m.natAbs : ℕ) * (((if 0 ≤ m then φ else -φ : ℝ) : ℂ) * Complex.I) := by
    split
    · next h => rw [show (m : ℂ) = ((m.natAbs : ℤ) : ℂ) by rw [Int.natAbs_of_nonneg h]]; simp
    · next h =>
      rw [show (m : ℂ) = ((-(m.natAbs : ℤ) : ℤ) : ℂ) by rw [show -(m.natAbs : ℤ) = m by omega], Int.cast_neg, Int.cast_natCast]; push_cast; ring
  rw [e, Complex.exp_nat_mul, Complex.exp_mul_I]
  split
  · rfl
  · push_cast; rw [Complex.cos_neg, Complex.sin_neg]; congr 1; ring

theorem dYv_th (n : ℕ) (m : ℤ) (θ φ : ℝ) : dYv n m (pt θ φ) (thHat θ φ) = (tPart n m θ : ℂ) * Complex.exp (m * (φ * Complex.I)) := by
  have h := hasDerivAt_curve n m (fun i θ => pt θ φ i) (fun i θ => thHat θ φ i) θ (fun i => by
    fin_cases i
    · exact (Real.hasDerivAt_sin θ).mul_const _
    · exact (Real.hasDerivAt_sin θ).mul_const _
    · exact Real.hasDerivAt_cos θ)
  have e : (fun s => Yv n m fun i => pt s φ i) = fun s => (thetaPart n m s : ℂ) * Complex.exp (m * (φ * Complex.I)) :=
    funext fun s => Yv_pt n m s φ
  rw [e] at h
  exact h.unique ((hasDerivAt_thetaR n m θ).ofReal_comp.mul_const _)

theorem dYv_ph (n : ℕ) (m : ℤ) (θ φ : ℝ) : dYv n m (pt θ φ) (phHat φ) = Complex.I * (hPart n m θ : ℂ) * Complex.exp (m * (φ * Complex.I)) := by
  rw [exp_phase]
  unfold dYv hPart pt phHat
  simp only [Matrix.cons_val_zero, Matrix.cons_val_one, Matrix.cons_val]
  have hI := Complex.I_sq
  rcases Nat.eq_zero_or_pos m.natAbs with h0 | h0
  · rw [Int.natAbs_eq_zero] at h0; subst h0; simp
  obtain ⟨k, hk⟩ : ∃ k, m.natAbs = k + 1 := ⟨m.natAbs - 1, by omega⟩
  rw [hk, Nat.add_sub_cancel, pow_succ, pow_succ]
  split
  · next h =>
    push_cast
    rw [show (m : ℂ) = ((k + 1 : ℕ) : ℂ) by rw [show m = ((k + 1 : ℕ) : ℤ) by omega]; simp]
    push_cast
    rw [show (Complex.sin θ * Complex.cos φ + Complex.sin θ * Complex.sin φ * Complex.I) = Complex.sin θ * (Complex.cos φ + Complex.sin φ * Complex.I) by ring, mul_pow]
    linear_combination ((tconst n m : ℂ) * (k + 1) * Complex.sin θ ^ k * (Complex.cos φ + Complex.sin φ * Complex.I) ^ k * ((legD n (k + 1)).eval (Real.cos θ) : ℝ) * -Complex.sin φ) * hI
  · next h =>
    push_cast
    rw [show (m : ℂ) = -((k + 1 : ℕ) : ℂ) by rw [show m = -((k + 1 : ℕ) : ℤ) by omega]; push_cast; ring]
    push_cast
    rw [show (Complex.sin θ * Complex.cos φ - Complex.sin θ * Complex.sin φ * Complex.I) = Complex.sin θ * (Complex.cos φ - Complex.sin φ * Complex.I) by ring, mul_pow]
    linear_combination ((tconst n m : ℂ) * (k + 1) * Complex.sin θ ^ k * (Complex.cos φ - Complex.sin φ * Complex.I) ^ k * ((legD n (k + 1)).eval (Real.cos θ) : ℝ) * -Complex.sin φ) * hI

end Verif.Rot
