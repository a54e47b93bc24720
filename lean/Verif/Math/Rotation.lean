import Verif.Math.Addition
import Verif.Math.VecHarm
import Mathlib.Analysis.Normed.Algebra.MatrixExponential
import Mathlib.Analysis.SpecialFunctions.Exponential
import Mathlib.Analysis.Matrix.Normed
import Mathlib.Analysis.SpecialFunctions.Complex.Arg
import Mathlib.Tactic.LinearCombination
/-!
# Spherical harmonics under rotations and reflections

`Y_nm(Qv) = Σ_m' D_mm' Y_nm'(v)` with a unitary matrix `D`, for every orthogonal 3x3 matrix `Q`.
-/
namespace Verif.Rot
open Polynomial Finset

/-- The point of the unit sphere with colatitude `θ` and longitude `φ`. -/
noncomputable def pt (θ φ : ℝ) : Fin 3 → ℝ := ![Real.sin θ * Real.cos φ, Real.sin θ * Real.sin φ, Real.cos θ]

/-- `Y_nm` as a function of the Cartesian coordinates of the point. -/
noncomputable def Yv (n : ℕ) (m : ℤ) (v : Fin 3 → ℝ) : ℂ :=
  (tconst n m : ℂ) * ((if 0 ≤ m then (v 0 : ℂ) + v 1 * Complex.I else (v 0 : ℂ) - v 1 * Complex.I) ^ m.natAbs * ((legD n m.natAbs).eval (v 2) : ℝ))

theorem Yv_pt (n : ℕ) (m : ℤ) (θ φ : ℝ) : Yv n m (pt θ φ) = sphY n m θ φ := by
  unfold Yv sphY pt
  rw [thetaPart_eq]
  have e : (m : ℂ) * (φ * Complex.I) = (m.natAbs : ℕ) * (((if 0 ≤ m then φ else -φ : ℝ) : ℂ) * Complex.I) := by
    split
    · next h => rw [show (m : ℂ) = ((m.natAbs : ℤ) : ℂ) by rw [Int.natAbs_of_nonneg h]]; simp
    · next h =>
      rw [show (m : ℂ) = ((-(m.natAbs : ℤ) : ℤ) : ℂ) by rw [show -(m.natAbs : ℤ) = m by omega], Int.cast_neg, Int.cast_natCast]; push_cast; ring
  rw [e, Complex.exp_nat_mul, Complex.exp_mul_I]
  simp only [Matrix.cons_val_zero, Matrix.cons_val_one, Matrix.cons_val]
  split
  · push_cast
    rw [show (Complex.sin θ * Complex.cos φ + Complex.sin θ * Complex.sin φ * Complex.I) = Complex.sin θ * (Complex.cos φ + Complex.sin φ * Complex.I) by ring, mul_pow]
    ring
  · push_cast
    rw [Complex.cos_neg, Complex.sin_neg, show (Complex.sin θ * Complex.cos φ - Complex.sin θ * Complex.sin φ * Complex.I) = Complex.sin θ * (Complex.cos φ + -Complex.sin φ * Complex.I) by ring, mul_pow]
    ring

/-- Rotation about the y-axis by the angle `β`. -/
noncomputable def Ry (β : ℝ) : Matrix (Fin 3) (Fin 3) ℝ := !![Real.cos β, 0, -Real.sin β; 0, 1, 0; Real.sin β, 0, Real.cos β]

noncomputable def rX (v : Fin 3 → ℝ) (β : ℝ) : ℝ := v 0 * Real.cos β - v 2 * Real.sin β
noncomputable def rZ (v : Fin 3 → ℝ) (β : ℝ) : ℝ := v 0 * Real.sin β + v 2 * Real.cos β

theorem hasDerivAt_rX (v : Fin 3 → ℝ) (β : ℝ) : HasDerivAt (rX v) (-rZ v β) β := by
  have h := ((Real.hasDerivAt_cos β).const_mul (v 0)).sub ((Real.hasDerivAt_sin β).const_mul (v 2))
  refine h.congr_deriv ?_
  unfold rZ; ring

theorem hasDerivAt_rZ (v : Fin 3 → ℝ) (β : ℝ) : HasDerivAt (rZ v) (rX v β) β := by
  have h := ((Real.hasDerivAt_sin β).const_mul (v 0)).add ((Real.hasDerivAt_cos β).const_mul (v 2))
  refine h.congr_deriv ?_
  unfold rX; ring

noncomputable def rW (σ : ℝ) (v : Fin 3 → ℝ) (β : ℝ) : ℂ := (rX v β : ℂ) + σ * v 1 * Complex.I

/-- `Y` without its constant. -/
noncomputable def rU (n m : ℕ) (σ : ℝ) (v : Fin 3 → ℝ) (β : ℝ) : ℂ := rW σ v β ^ m * ((legD n m).eval (rZ v β) : ℝ)

theorem hasDerivAt_rU (n m : ℕ) (σ : ℝ) (v : Fin 3 → ℝ) (β : ℝ) : HasDerivAt (rU n m σ v)
    (m * rW σ v β ^ (m - 1) * (-rZ v β) * ((legD n m).eval (rZ v β) : ℝ) + rW σ v β ^ m * (rX v β * ((legD n (m + 1)).eval (rZ v β) : ℝ))) β := by
  have h1 : HasDerivAt (rW σ v) (((-rZ v β : ℝ) : ℂ)) β := ((hasDerivAt_rX v β).ofReal_comp).add_const _
  have h2 : HasDerivAt (fun β => (legD n m).eval (rZ v β)) ((legD n (m + 1)).eval (rZ v β) * rX v β) β := by
    have h := ((legD n m).hasDerivAt (rZ v β)).comp β (hasDerivAt_rZ v β)
    rw [derivative_legD] at h; exact h
  refine ((h1.pow m).mul h2.ofReal_comp).congr_deriv ?_
  simp only [Pi.pow_apply]
  push_cast; ring

theorem rW_mul (σ : ℝ) (hσ : σ ^ 2 = 1) (v : Fin 3 → ℝ) (hv : v 0 ^ 2 + v 1 ^ 2 + v 2 ^ 2 = 1) (β : ℝ) :
    rW σ v β * rW (-σ) v β = 1 - (rZ v β : ℂ) ^ 2 := by
  have h : rX v β ^ 2 + v 1 ^ 2 = 1 - rZ v β ^ 2 := by
    unfold rX rZ; linear_combination hv + (v 0 ^ 2 + v 2 ^ 2) * (Real.sin_sq_add_cos_sq β - 0) - (v 0 ^ 2 + v 2 ^ 2)
  have h' : (rX v β : ℂ) ^ 2 + (v 1 : ℂ) ^ 2 = 1 - (rZ v β : ℂ) ^ 2 := by exact_mod_cast h
  have hs : (σ : ℂ) ^ 2 = 1 := by exact_mod_cast hσ
  unfold rW
  push_cast
  linear_combination h' + (v 1 : ℂ) ^ 2 * hs - (σ : ℂ) ^ 2 * (v 1 : ℂ) ^ 2 * Complex.I_sq

theorem rW_add (σ : ℝ) (v : Fin 3 → ℝ) (β : ℝ) : rW σ v β + rW (-σ) v β = 2 * rX v β := by
  unfold rW; push_cast; ring

theorem ode_eval (n m : ℕ) (z : ℝ) : (1 - (z : ℂ) ^ 2) * ((legD n (m + 2)).eval z : ℝ) - 2 * ((m : ℂ) + 1) * z * ((legD n (m + 1)).eval z : ℝ)
      + ((n : ℂ) - m) * (n + m + 1) * ((legD n m).eval z : ℝ) = 0 := by
  have ode := congrArg (fun p : ℝ[X] => p.eval z) (legD_ode n m)
  simp only [eval_add, eval_sub, eval_mul, eval_pow, eval_one, eval_X, eval_C, eval_zero] at ode
  exact_mod_cast ode

theorem hasDerivAt_rU_zero (n : ℕ) (v : Fin 3 → ℝ) (β : ℝ) (σ : ℝ) :
    HasDerivAt (rU n 0 σ v) (1 / 2 * rU n 1 1 v β + 1 / 2 * rU n 1 (-1) v β) β := by
  refine (hasDerivAt_rU n 0 σ v β).congr_deriv ?_
  have := rW_add 1 v β
  unfold rU
  simp only [pow_zero, pow_one, Nat.cast_zero, zero_mul, one_mul, zero_add]
  linear_combination (-(1 / 2) * ((legD n 1).eval (rZ v β) : ℝ) : ℂ) * this

theorem hasDerivAt_rU_succ (n m : ℕ) (σ : ℝ) (hσ : σ ^ 2 = 1) (v : Fin 3 → ℝ) (hv : v 0 ^ 2 + v 1 ^ 2 + v 2 ^ 2 = 1) (β : ℝ) :
    HasDerivAt (rU n (m + 1) σ v) (1 / 2 * rU n (m + 2) σ v β - 1 / 2 * (((n : ℂ) - m) * (n + m + 1)) * rU n m σ v β) β := by
  refine (hasDerivAt_rU n (m + 1) σ v β).congr_deriv ?_
  have h1 := rW_add σ v β
  have h2 := rW_mul σ hσ v hv β
  have h3 := ode_eval n m (rZ v β)
  unfold rU
  rw [Nat.add_sub_cancel]
  push_cast
  rw [show m + 1 + 1 = m + 2 by rfl, pow_succ (rW σ v β) (m + 1), pow_succ (rW σ v β) m]
  generalize rW σ v β ^ m = W at *
  generalize rW σ v β = w at *
  generalize rW (-σ) v β = w' at *
  generalize ((eval (rZ v β) (legD n (m + 2)) : ℝ) : ℂ) = p2 at *
  generalize ((eval (rZ v β) (legD n (m + 1)) : ℝ) : ℂ) = p1 at *
  generalize ((eval (rZ v β) (legD n m) : ℝ) : ℂ) = p0 at *
  linear_combination (-(1 / 2) * W * w * p2) * h1 + (1 / 2 * W * p2) * h2 + (1 / 2 * W) * h3

/-- `½ sqrt((n-m)(n+m+1))`. -/
noncomputable def sco (n : ℕ) (m : ℤ) : ℝ := 1 / 2 * Real.sqrt (((n : ℝ) - m) * (n + m + 1))

theorem sco_neg (n : ℕ) (m : ℤ) : sco n (-m - 1) = sco n m := by
  unfold sco; push_cast; congr 2; ring

theorem normSH_succ (n m : ℕ) (h : m + 1 ≤ n) : normSH n (m + 1) * (2 * sco n m) = normSH n m := by
  unfold normSH sco
  rw [← wfac, ← wfac, ← wfac_succ n m h, show (2 : ℝ) * (1 / 2 * √(((n : ℝ) - ((m : ℕ) : ℤ)) * (n + ((m : ℕ) : ℤ) + 1))) = √(((n : ℝ) - ((m : ℕ) : ℤ)) * (n + ((m : ℕ) : ℤ) + 1)) by ring]
  have hp : (0 : ℝ) ≤ (2 * n + 1) / (4 * Real.pi) * wfac n (m + 1) := by unfold wfac; positivity
  rw [← Real.sqrt_mul hp]
  congr 1
  push_cast
  ring

theorem Yv_Ry (n : ℕ) (m : ℤ) (v : Fin 3 → ℝ) (β : ℝ) :
    Yv n m ((Ry β).mulVec v) = (tconst n m : ℂ) * rU n m.natAbs (if 0 ≤ m then 1 else -1) v β := by
  unfold Yv rU rW rX rZ Ry
  simp only [Matrix.mulVec, dotProduct, Fin.sum_univ_three, Matrix.of_apply, Matrix.cons_val_zero, Matrix.cons_val_one, Matrix.cons_val]
  rw [show Real.cos β * v 0 + 0 * v 1 + -Real.sin β * v 2 = v 0 * Real.cos β - v 2 * Real.sin β by ring,
    show 0 * v 0 + 1 * v 1 + 0 * v 2 = v 1 by ring,
    show Real.sin β * v 0 + 0 * v 1 + Real.cos β * v 2 = v 0 * Real.sin β + v 2 * Real.cos β by ring]
  split
  · push_cast; ring
  · push_cast; ring

theorem rU_top (n m : ℕ) (h : n < m) (σ : ℝ) (v : Fin 3 → ℝ) (β : ℝ) : rU n m σ v β = 0 := by
  unfold rU; rw [Trig.legD_eq_zero n m h]; simp

theorem tconst_nat (n k : ℕ) : tconst n (k : ℤ) = (-1) ^ k * normSH n k := by
  unfold tconst; rw [if_pos (Int.natCast_nonneg k), Int.natAbs_natCast]

theorem tconst_negS (n k : ℕ) : tconst n (-((k + 1 : ℕ) : ℤ)) = normSH n (k + 1) := by
  unfold tconst; rw [if_neg (by omega), Int.natAbs_neg, Int.natAbs_natCast, one_mul]

theorem sco_sq (n k : ℕ) (h : k ≤ n) : 4 * sco n k ^ 2 = ((n : ℝ) - k) * (n + k + 1) := by
  unfold sco
  rw [mul_pow, Real.sq_sqrt]
  · push_cast; ring
  · have : (k : ℝ) ≤ n := by exact_mod_cast h
    push_cast
    exact mul_nonneg (by linarith) (by positivity)

/-- The product that occurs with the neighbour below. -/
theorem normSH_mul_sq (n k : ℕ) (h : k + 1 ≤ n) : normSH n (k + 1) * (((n : ℝ) - k) * (n + k + 1)) = 2 * sco n k * normSH n k := by
  rw [← sco_sq n k (by omega), ← normSH_succ n k h]; ring

/-- The neighbour above. -/
theorem normSH_up (n k : ℕ) (h : k ≤ n) (σ : ℝ) (v : Fin 3 → ℝ) (β : ℝ) :
    (normSH n k : ℂ) * rU n (k + 1) σ v β = 2 * sco n k * (normSH n (k + 1) * rU n (k + 1) σ v β) := by
  rcases Nat.lt_or_ge n (k + 1) with h1 | h1
  · rw [rU_top n (k + 1) h1]; simp
  · rw [← normSH_succ n k h1]; push_cast; ring

/-- Rotating the point about the y-axis changes the harmonics of degree `n` by the ladder matrix. -/
theorem hasDerivAt_Yv (n : ℕ) (m : ℤ) (hm : m.natAbs ≤ n) (v : Fin 3 → ℝ) (hv : v 0 ^ 2 + v 1 ^ 2 + v 2 ^ 2 = 1) (β : ℝ) :
    HasDerivAt (fun β => Yv n m ((Ry β).mulVec v))
      (-(sco n m : ℂ) * Yv n (m + 1) ((Ry β).mulVec v) + sco n (m - 1) * Yv n (m - 1) ((Ry β).mulVec v)) β := by
  simp only [Yv_Ry]
  rcases lt_trichotomy m 0 with h | rfl | h
  · obtain ⟨k, rfl⟩ : ∃ k : ℕ, m = -((k + 1 : ℕ) : ℤ) := ⟨m.natAbs - 1, by omega⟩
    have hk : k + 1 ≤ n := by omega
    refine ((hasDerivAt_rU_succ n k (-1) (by norm_num) v hv β).const_mul _ |>.congr_deriv ?_ : _) |> fun h => by
      rw [if_neg (show ¬ 0 ≤ -((k + 1 : ℕ) : ℤ) by omega), Int.natAbs_neg, Int.natAbs_natCast]; exact h
    have e1 : -((k + 1 : ℕ) : ℤ) + 1 = -(k : ℤ) := by push_cast; ring
    have e2 : -((k + 1 : ℕ) : ℤ) - 1 = -((k + 1 + 1 : ℕ) : ℤ) := by push_cast; ring
    rw [e1, e2, if_neg (show ¬ 0 ≤ -((k + 1 + 1 : ℕ) : ℤ) by omega), tconst_negS, tconst_negS, Int.natAbs_neg, Int.natAbs_neg, Int.natAbs_natCast, Int.natAbs_natCast,
      show sco n (-((k + 1 : ℕ) : ℤ)) = sco n k by rw [← sco_neg n k]; congr 1; push_cast; ring,
      show sco n (-((k + 1 + 1 : ℕ) : ℤ)) = sco n ((k + 1 : ℕ) : ℤ) by rw [← sco_neg n ((k + 1 : ℕ) : ℤ)]; congr 1]
    have hz : (tconst n (-(k : ℤ)) : ℂ) * rU n k (if 0 ≤ -(k : ℤ) then 1 else -1) v β = normSH n k * rU n k (-1) v β := by
      cases k with
      | zero => simp [rU, tconst]
      | succ j => rw [tconst_negS, if_neg (by omega)]
    have h1 := normSH_mul_sq n k hk
    have h1' : (normSH n (k + 1) : ℂ) * (((n : ℂ) - k) * (n + k + 1)) = 2 * sco n k * normSH n k := by exact_mod_cast h1
    have h2 := normSH_up n (k + 1) hk (-1) v β
    linear_combination (1 / 2) * h2 - (1 / 2) * rU n k (-1) v β * h1' + (sco n k : ℂ) * hz
  · rw [if_pos le_rfl, if_pos (show (0 : ℤ) ≤ 0 + 1 by norm_num), if_neg (show ¬ (0 : ℤ) ≤ 0 - 1 by norm_num),
      show (0 : ℤ) + 1 = ((1 : ℕ) : ℤ) by rfl, show (0 : ℤ) - 1 = -((0 + 1 : ℕ) : ℤ) by rfl, tconst_nat, tconst_negS]
    refine (hasDerivAt_rU_zero n v β 1).const_mul _ |>.congr_deriv ?_
    have e0 : sco n (-((0 + 1 : ℕ) : ℤ)) = sco n 0 := by rw [← sco_neg n 0]; congr 1
    have e3 : tconst n 0 = normSH n 0 := by unfold tconst; simp
    rw [e0, e3]
    have h2 := normSH_up n 0 (Nat.zero_le _) 1 v β
    have h3 := normSH_up n 0 (Nat.zero_le _) (-1) v β
    simp only [Int.natAbs_neg, Int.natAbs_natCast, zero_add, Nat.cast_zero] at h2 h3 ⊢
    push_cast
    linear_combination (1 / 2) * h2 + (1 / 2) * h3
  · obtain ⟨k, rfl⟩ : ∃ k : ℕ, m = ((k + 1 : ℕ) : ℤ) := ⟨m.natAbs - 1, by omega⟩
    have hk : k + 1 ≤ n := by omega
    rw [if_pos (show 0 ≤ ((k + 1 : ℕ) : ℤ) by omega)]
    have e1 : ((k + 1 : ℕ) : ℤ) + 1 = ((k + 1 + 1 : ℕ) : ℤ) := by push_cast; ring
    have e2 : ((k + 1 : ℕ) : ℤ) - 1 = ((k : ℕ) : ℤ) := by push_cast; ring
    rw [e1, e2, if_pos (show 0 ≤ ((k + 1 + 1 : ℕ) : ℤ) by omega), if_pos (show 0 ≤ ((k : ℕ) : ℤ) by omega), tconst_nat, tconst_nat, tconst_nat,
      Int.natAbs_natCast, Int.natAbs_natCast, Int.natAbs_natCast]
    refine (hasDerivAt_rU_succ n k 1 (by norm_num) v hv β).const_mul _ |>.congr_deriv ?_
    have h1 := normSH_mul_sq n k hk
    have h1' : (normSH n (k + 1) : ℂ) * (((n : ℂ) - k) * (n + k + 1)) = 2 * sco n k * normSH n k := by exact_mod_cast h1
    have h2 := normSH_up n (k + 1) hk 1 v β
    push_cast
    rw [pow_succ, pow_succ]
    push_cast at h2
    linear_combination (-(1 / 2) * (-1) ^ k) * h2 + (1 / 2) * (-1) ^ k * rU n k 1 v β * h1'

section Ode
open scoped Matrix.Norms.Operator
variable {ι : Type} [Fintype ι] [DecidableEq ι]

theorem hasDerivAt_entry {F : ℝ → Matrix ι ι ℂ} {F' : Matrix ι ι ℂ} {t : ℝ} (h : HasDerivAt F F' t) (i j : ι) :
    HasDerivAt (fun t => F t i j) (F' i j) t := by
  have := (LinearMap.toContinuousLinearMap (Matrix.entryLinearMap ℝ ℂ i j)).hasFDerivAt.comp_hasDerivAt t h
  exact this

/-- A linear differential equation with a skew-Hermitian matrix is solved by a unitary matrix. -/
theorem ode_unitary (A : Matrix ι ι ℂ) (hA : A.conjTranspose = -A) (β : ℝ) :
    ∃ D : Matrix ι ι ℂ, D.conjTranspose * D = 1 ∧
      ∀ y : ℝ → ι → ℂ, (∀ t i, HasDerivAt (fun t => y t i) (A.mulVec (y t) i) t) → y β = D.mulVec (y 0) := by
  have hcomm : ∀ t : ℝ, NormedSpace.exp (t • -A) * NormedSpace.exp (t • A) = 1 := by
    intro t
    rw [← Matrix.exp_add_of_commute _ _ ?_, smul_neg, neg_add_cancel, NormedSpace.exp_zero]
    rw [smul_neg]; exact (Commute.refl _).neg_left
  have hcomm' : ∀ t : ℝ, NormedSpace.exp (t • A) * NormedSpace.exp (t • -A) = 1 := by
    intro t
    rw [← Matrix.exp_add_of_commute _ _ ?_, smul_neg, add_neg_cancel, NormedSpace.exp_zero]
    rw [smul_neg]; exact (Commute.refl _).neg_right
  refine ⟨NormedSpace.exp (β • A), ?_, ?_⟩
  · rw [← Matrix.exp_conjTranspose, Matrix.conjTranspose_smul, hA, star_trivial]
    exact hcomm β
  · intro y hy
    have hP : ∀ t : ℝ, HasDerivAt (fun u : ℝ => NormedSpace.exp (u • -A)) (NormedSpace.exp (t • -A) * -A) t :=
      fun t => hasDerivAt_exp_smul_const (-A) t
    have hconst : ∀ i, ∀ t, (NormedSpace.exp (t • -A)).mulVec (y t) i = y 0 i := by
      intro i
      have hd : ∀ t, HasDerivAt (fun t => (NormedSpace.exp (t • -A)).mulVec (y t) i) 0 t := by
        intro t
        have h1 : HasDerivAt (fun t => ∑ j, NormedSpace.exp (t • -A) i j * y t j)
            (∑ j, ((NormedSpace.exp (t • -A) * -A) i j * y t j + NormedSpace.exp (t • -A) i j * A.mulVec (y t) j)) t :=
          HasDerivAt.fun_sum fun j _ => (hasDerivAt_entry (hP t) i j).mul (hy t j)
        refine h1.congr_deriv ?_
        rw [Finset.sum_add_distrib]
        change ((NormedSpace.exp (t • -A) * -A).mulVec (y t)) i + ((NormedSpace.exp (t • -A)).mulVec (A.mulVec (y t))) i = 0
        rw [Matrix.mulVec_mulVec, Matrix.mul_neg, Matrix.neg_mulVec]
        simp
      intro t
      have := is_const_of_deriv_eq_zero (fun t => (hd t).differentiableAt) (fun t => (hd t).deriv) t 0
      rw [this]
      simp [NormedSpace.exp_zero]
    have h2 : (NormedSpace.exp (β • -A)).mulVec (y β) = y 0 := funext fun i => hconst i β
    rw [← h2, Matrix.mulVec_mulVec, hcomm', Matrix.one_mulVec]

end Ode

/-! ## All orthogonal matrices -/

/-- The orders of degree `n`. -/
abbrev Ords (n : ℕ) : Type := {m : ℤ // m ∈ Icc (-(n : ℤ)) n}

def Unit3 (v : Fin 3 → ℝ) : Prop := v 0 ^ 2 + v 1 ^ 2 + v 2 ^ 2 = 1

def Orth (Q : Matrix (Fin 3) (Fin 3) ℝ) : Prop := Q.transpose * Q = 1

/-- The harmonics of degree `n` at `Qv` are a unitary combination of those at `v`. -/
def Rotates (n : ℕ) (Q : Matrix (Fin 3) (Fin 3) ℝ) : Prop :=
  ∃ D : Matrix (Ords n) (Ords n) ℂ, D.conjTranspose * D = 1 ∧
    ∀ v, Unit3 v → ∀ m : Ords n, Yv n m (Q.mulVec v) = ∑ m', D m m' * Yv n m' v

theorem unit3_iff (v : Fin 3 → ℝ) : Unit3 v ↔ v ⬝ᵥ v = 1 := by
  unfold Unit3 dotProduct; rw [Fin.sum_univ_three]; constructor <;> intro h <;> linear_combination h

theorem Orth.unit {Q : Matrix (Fin 3) (Fin 3) ℝ} (hQ : Orth Q) {v : Fin 3 → ℝ} (hv : Unit3 v) : Unit3 (Q.mulVec v) := by
  rw [unit3_iff] at hv ⊢
  rw [Matrix.dotProduct_mulVec, Matrix.vecMul_mulVec, hQ, Matrix.vecMul_one, hv]

theorem Orth.mul {Q P : Matrix (Fin 3) (Fin 3) ℝ} (hQ : Orth Q) (hP : Orth P) : Orth (Q * P) := by
  unfold Orth at *
  rw [Matrix.transpose_mul, Matrix.mul_assoc, ← Matrix.mul_assoc Q.transpose, hQ, Matrix.one_mul, hP]

theorem Orth.transpose {Q : Matrix (Fin 3) (Fin 3) ℝ} (hQ : Orth Q) : Orth Q.transpose := by
  unfold Orth at *
  rw [Matrix.transpose_transpose]; exact mul_eq_one_comm.mp hQ

theorem Rotates.mul {n : ℕ} {Q P : Matrix (Fin 3) (Fin 3) ℝ} (hQ : Rotates n Q) (hP : Rotates n P) (oP : Orth P) : Rotates n (Q * P) := by
  obtain ⟨D, hD, h⟩ := hQ
  obtain ⟨E, hE, h'⟩ := hP
  refine ⟨D * E, ?_, fun v hv m => ?_⟩
  · rw [Matrix.conjTranspose_mul, Matrix.mul_assoc, ← Matrix.mul_assoc D.conjTranspose, hD, Matrix.one_mul, hE]
  · rw [← Matrix.mulVec_mulVec, h _ (oP.unit hv) m]
    simp only [h' v hv, Matrix.mul_apply, Finset.mul_sum, Finset.sum_mul]
    rw [Finset.sum_comm]
    exact Finset.sum_congr rfl fun _ _ => Finset.sum_congr rfl fun _ _ => by ring

theorem sum_ords (n : ℕ) (f : ℤ → ℂ) : ∑ m : Ords n, f m = ∑ m ∈ Icc (-(n : ℤ)) n, f m :=
  Finset.sum_coe_sort (Icc (-(n : ℤ)) n) f

/-- The ladder matrix. -/
noncomputable def lad (n : ℕ) : Matrix (Ords n) (Ords n) ℂ := Matrix.of fun m m' =>
  (if m'.1 = m.1 + 1 then -(sco n m : ℂ) else 0) + if m'.1 = m.1 - 1 then (sco n m' : ℂ) else 0

theorem lad_apply (n : ℕ) (m m' : Ords n) : lad n m m' =
    (if m'.1 = m.1 + 1 then -(sco n m : ℂ) else 0) + if m'.1 = m.1 - 1 then (sco n m' : ℂ) else 0 := rfl

theorem lad_skew (n : ℕ) : (lad n).conjTranspose = -lad n := by
  ext m m'
  simp only [Matrix.conjTranspose_apply, Matrix.neg_apply, lad_apply]
  rcases eq_or_ne m'.1 (m.1 + 1) with h | h
  · rw [if_neg (show ¬ m.1 = m'.1 + 1 by omega), if_pos (show m.1 = m'.1 - 1 by omega), if_pos h, if_neg (show ¬ m'.1 = m.1 - 1 by omega)]
    simp
  · rw [if_neg h, if_neg (show ¬ m.1 = m'.1 - 1 by omega)]
    rcases eq_or_ne m'.1 (m.1 - 1) with h' | h'
    · rw [if_pos (show m.1 = m'.1 + 1 by omega), if_pos h']; simp
    · rw [if_neg (show ¬ m.1 = m'.1 + 1 by omega), if_neg h']; simp

theorem sum_ite_ord (n : ℕ) (k : ℤ) (f : ℤ → ℂ) (h : ¬ k ∈ Icc (-(n : ℤ)) n → f k = 0) :
    ∑ m : Ords n, (if m.1 = k then f m else 0) = f k := by
  rw [sum_ords n (fun m => if m = k then f m else 0), Finset.sum_ite_eq' (Icc (-(n : ℤ)) n) k f]
  split
  · rfl
  · next hk => rw [h hk]

theorem sco_top (n : ℕ) : sco n n = 0 := by unfold sco; simp

theorem sco_bot (n : ℕ) : sco n (-(n : ℤ) - 1) = 0 := by rw [sco_neg, sco_top]

theorem rotates_Ry (n : ℕ) (β : ℝ) : Rotates n (Ry β) := by
  obtain ⟨D, hD, h⟩ := ode_unitary (lad n) (lad_skew n) β
  refine ⟨D, hD, fun v hv m => ?_⟩
  have h0 : (Ry 0).mulVec v = v := by
    have : Ry 0 = 1 := by unfold Ry; ext i j; fin_cases i <;> fin_cases j <;> simp
    rw [this, Matrix.one_mulVec]
  have := h (fun t (m : Ords n) => Yv n m ((Ry t).mulVec v)) (fun t i => by
    have hi := i.2; rw [Finset.mem_Icc] at hi
    refine (hasDerivAt_Yv n i (by omega) v hv t).congr_deriv ?_
    show _ = ∑ j : Ords n, lad n i j * Yv n j ((Ry t).mulVec v)
    simp only [lad_apply, add_mul, ite_mul, zero_mul, Finset.sum_add_distrib]
    rw [sum_ite_ord n (i.1 + 1) (fun k => -(sco n i : ℂ) * Yv n k ((Ry t).mulVec v)), sum_ite_ord n (i.1 - 1) (fun k => (sco n k : ℂ) * Yv n k ((Ry t).mulVec v))]
    · intro hk
      rw [Finset.mem_Icc] at hk
      rw [show i.1 - 1 = -(n : ℤ) - 1 by omega, sco_bot]; simp
    · intro hk
      rw [Finset.mem_Icc] at hk
      rw [show i.1 = (n : ℤ) by omega, sco_top]; simp)
  have := congrFun this m
  simp only [h0] at this
  exact this

/-- Rotation about the z-axis by the angle `α`. -/
noncomputable def Rz (α : ℝ) : Matrix (Fin 3) (Fin 3) ℝ := !![Real.cos α, -Real.sin α, 0; Real.sin α, Real.cos α, 0; 0, 0, 1]

/-- Reflection in the plane `y = 0`. -/
def Sy : Matrix (Fin 3) (Fin 3) ℝ := !![1, 0, 0; 0, -1, 0; 0, 0, 1]

theorem orth_Rz (α : ℝ) : Orth (Rz α) := by
  have h := Real.sin_sq_add_cos_sq α
  unfold Orth Rz
  ext i j
  fin_cases i <;> fin_cases j <;> simp [Matrix.mul_apply, Fin.sum_univ_three] <;> first | ring1 | linear_combination h

theorem orth_Ry (α : ℝ) : Orth (Ry α) := by
  have h := Real.sin_sq_add_cos_sq α
  unfold Orth Ry
  ext i j
  fin_cases i <;> fin_cases j <;> simp [Matrix.mul_apply, Fin.sum_univ_three] <;> first | ring1 | linear_combination h

theorem orth_Sy : Orth Sy := by
  unfold Orth Sy
  ext i j
  fin_cases i <;> fin_cases j <;> simp [Matrix.mul_apply, Fin.sum_univ_three]

theorem Yv_Rz (n : ℕ) (m : ℤ) (α : ℝ) (v : Fin 3 → ℝ) : Yv n m ((Rz α).mulVec v) = Complex.exp (m * (α * Complex.I)) * Yv n m v := by
  have e : (m : ℂ) * (α * Complex.I) = (m.natAbs : ℕ) * (((if 0 ≤ m then α else -α : ℝ) : ℂ) * Complex.I) := by
    split
    · next h => rw [show (m : ℂ) = ((m.natAbs : ℤ) : ℂ) by rw [Int.natAbs_of_nonneg h]]; simp
    · next h =>
      rw [show (m : ℂ) = ((-(m.natAbs : ℤ) : ℤ) : ℂ) by rw [show -(m.natAbs : ℤ) = m by omega], Int.cast_neg, Int.cast_natCast]; push_cast; ring
  rw [e, Complex.exp_nat_mul, Complex.exp_mul_I]
  unfold Yv Rz
  simp only [Matrix.mulVec, dotProduct, Fin.sum_univ_three, Matrix.of_apply, Matrix.cons_val_zero, Matrix.cons_val_one, Matrix.cons_val]
  rw [show Real.cos α * v 0 + -Real.sin α * v 1 + 0 * v 2 = Real.cos α * v 0 - Real.sin α * v 1 by ring,
    show Real.sin α * v 0 + Real.cos α * v 1 + 0 * v 2 = Real.sin α * v 0 + Real.cos α * v 1 by ring,
    show 0 * v 0 + 0 * v 1 + 1 * v 2 = v 2 by ring]
  have hI := Complex.I_sq
  split
  · push_cast
    rw [show Complex.cos α * v 0 - Complex.sin α * v 1 + (Complex.sin α * v 0 + Complex.cos α * v 1) * Complex.I =
      (Complex.cos α + Complex.sin α * Complex.I) * (v 0 + v 1 * Complex.I) by linear_combination (-Complex.sin α * v 1) * hI, mul_pow]
    ring
  · push_cast
    rw [Complex.cos_neg, Complex.sin_neg, show Complex.cos α * v 0 - Complex.sin α * v 1 - (Complex.sin α * v 0 + Complex.cos α * v 1) * Complex.I =
      (Complex.cos α + -Complex.sin α * Complex.I) * (v 0 - v 1 * Complex.I) by linear_combination (-Complex.sin α * v 1) * hI, mul_pow]
    ring

theorem rotates_Rz (n : ℕ) (α : ℝ) : Rotates n (Rz α) := by
  refine ⟨Matrix.diagonal fun m => Complex.exp (m.1 * (α * Complex.I)), ?_, fun v _ m => ?_⟩
  · rw [Matrix.diagonal_conjTranspose, Matrix.diagonal_mul_diagonal, ← Matrix.diagonal_one]
    congr 1
    funext m
    simp only [Pi.star_apply]
    rw [Complex.star_def, ← Complex.exp_conj, ← Complex.exp_add]
    simp
  · rw [Yv_Rz, Finset.sum_eq_single m]
    · rw [Matrix.diagonal_apply_eq]
    · intro b _ hb; rw [Matrix.diagonal_apply_ne' _ hb, zero_mul]
    · intro h; exact absurd (Finset.mem_univ _) h

theorem tconst_flip (n : ℕ) (m : ℤ) : tconst n m = (-1) ^ m.natAbs * tconst n (-m) := by
  unfold tconst
  rw [Int.natAbs_neg]
  have h1 : ((-1 : ℝ) ^ m.natAbs) * (-1) ^ m.natAbs = 1 := by rw [← mul_pow]; simp
  rcases lt_trichotomy m 0 with h | rfl | h
  · rw [if_neg (by omega), if_pos (by omega), one_mul, ← mul_assoc, h1, one_mul]
  · simp
  · rw [if_pos (by omega), if_neg (by omega), one_mul]

theorem Yv_Sy (n : ℕ) (m : ℤ) (v : Fin 3 → ℝ) : Yv n m (Sy.mulVec v) = (-1) ^ m.natAbs * Yv n (-m) v := by
  unfold Yv Sy
  simp only [Matrix.mulVec, dotProduct, Fin.sum_univ_three, Matrix.of_apply, Matrix.cons_val_zero, Matrix.cons_val_one, Matrix.cons_val]
  rw [show 1 * v 0 + 0 * v 1 + 0 * v 2 = v 0 by ring, show 0 * v 0 + -1 * v 1 + 0 * v 2 = -v 1 by ring,
    show 0 * v 0 + 0 * v 1 + 1 * v 2 = v 2 by ring, tconst_flip, Int.natAbs_neg]
  rcases lt_trichotomy m 0 with h | rfl | h
  · rw [if_neg (by omega), if_pos (by omega)]; push_cast; ring
  · simp
  · rw [if_pos (by omega), if_neg (by omega)]; push_cast; ring

theorem rotates_Sy (n : ℕ) : Rotates n Sy := by
  have hmem : ∀ m : Ords n, -m.1 ∈ Icc (-(n : ℤ)) n := by
    intro m; have := m.2; rw [Finset.mem_Icc] at this ⊢; omega
  have hs : ∀ k : ℕ, star ((-1 : ℂ) ^ k) * (-1) ^ k = 1 := by
    intro k; rw [star_pow, ← mul_pow]; simp
  refine ⟨Matrix.of fun m m' => if m'.1 = -m.1 then (-1) ^ m.1.natAbs else 0, ?_, fun v _ m => ?_⟩
  · ext m m'
    rw [Matrix.mul_apply, Finset.sum_eq_single (⟨-m.1, hmem m⟩ : Ords n)]
    · simp only [Matrix.conjTranspose_apply, Matrix.of_apply, neg_neg, if_true, Matrix.one_apply]
      by_cases h : m = m'
      · subst h; rw [if_pos rfl, if_pos rfl]; exact hs _
      · rw [if_neg (fun e => h (Subtype.ext e.symm)), if_neg h, mul_zero]
    · intro b _ hb
      simp only [Matrix.conjTranspose_apply, Matrix.of_apply]
      rw [if_neg (fun e => hb (Subtype.ext (by show b.1 = -m.1; omega)))]; simp
    · intro h; exact absurd (Finset.mem_univ _) h
  · rw [Yv_Sy, Finset.sum_eq_single (⟨-m.1, hmem m⟩ : Ords n)]
    · simp only [Matrix.of_apply, if_true]
    · intro b _ hb
      simp only [Matrix.of_apply]
      rw [if_neg (fun e => hb (Subtype.ext e)), zero_mul]
    · intro h; exact absurd (Finset.mem_univ _) h

/-- Unit vectors of the plane. -/
theorem circle_angle (a b : ℝ) (h : a ^ 2 + b ^ 2 = 1) : ∃ γ : ℝ, a = Real.cos γ ∧ b = Real.sin γ := by
  refine ⟨Complex.arg ⟨a, b⟩, ?_, ?_⟩
  · have hn : ‖(⟨a, b⟩ : ℂ)‖ = 1 := by rw [Complex.norm_def, Complex.normSq_mk, show a * a + b * b = 1 by linarith, Real.sqrt_one]
    rw [Complex.cos_arg (by intro h0; rw [h0] at hn; simp at hn), hn, div_one]
  · have hn : ‖(⟨a, b⟩ : ℂ)‖ = 1 := by rw [Complex.norm_def, Complex.normSq_mk, show a * a + b * b = 1 by linarith, Real.sqrt_one]
    rw [Complex.sin_arg, hn, div_one]

/-- Unit vectors of space. -/
theorem sphere_angles (v : Fin 3 → ℝ) (h : Unit3 v) : ∃ θ φ : ℝ, v = pt θ φ := by
  unfold Unit3 at h
  obtain ⟨θ, h1, h2⟩ := circle_angle (v 2) (Real.sqrt (v 0 ^ 2 + v 1 ^ 2)) (by rw [Real.sq_sqrt (by positivity)]; linarith)
  have hs : Real.sin θ ^ 2 = v 0 ^ 2 + v 1 ^ 2 := by rw [← h2, Real.sq_sqrt (by positivity)]
  rcases eq_or_ne (Real.sin θ) 0 with h0 | h0
  · rw [h0] at hs
    refine ⟨θ, 0, ?_⟩
    have a0 : v 0 = 0 := by nlinarith [sq_nonneg (v 0), sq_nonneg (v 1)]
    have a1 : v 1 = 0 := by nlinarith [sq_nonneg (v 0), sq_nonneg (v 1)]
    funext i; fin_cases i <;> simp [pt, h0, a0, a1, h1]
  · obtain ⟨φ, p1, p2⟩ := circle_angle (v 0 / Real.sin θ) (v 1 / Real.sin θ) (by
      rw [div_pow, div_pow, ← add_div, hs, div_self]; rw [← hs]; positivity)
    refine ⟨θ, φ, ?_⟩
    funext i; fin_cases i
    · simp only [pt, ← p1]; simp; field_simp
    · simp only [pt, ← p2]; simp; field_simp
    · simp [pt, h1]

/-- Euler angles. -/
theorem euler (Q : Matrix (Fin 3) (Fin 3) ℝ) (hQ : Orth Q) :
    ∃ α β γ : ℝ, Q = Rz α * Ry β * Rz γ ∨ Q = Rz α * Ry β * Rz γ * Sy := by
  have hcol : Unit3 (Q.mulVec ![0, 0, 1]) := hQ.unit (by simp [Unit3])
  obtain ⟨θ, φ, hv⟩ := sphere_angles _ hcol
  -- undo the two rotations
  have oK : Orth (Rz φ * Ry (-θ)) := (orth_Rz _).mul (orth_Ry _)
  have hK : (Rz φ * Ry (-θ)).mulVec ![0, 0, 1] = pt θ φ := by
    unfold Rz Ry pt
    funext i
    fin_cases i <;> simp [Matrix.mulVec, dotProduct, Fin.sum_univ_three, Matrix.mul_apply] <;> ring
  obtain ⟨P, hP⟩ : ∃ P, P = (Rz φ * Ry (-θ)).transpose * Q := ⟨_, rfl⟩
  have oP : Orth P := by rw [hP]; exact oK.transpose.mul hQ
  have hQP : Q = Rz φ * Ry (-θ) * P := by
    rw [hP, ← Matrix.mul_assoc, mul_eq_one_comm.mp oK, Matrix.one_mul]
  have h3 : P.mulVec ![0, 0, 1] = ![0, 0, 1] := by
    rw [hP, ← Matrix.mulVec_mulVec, hv, ← hK, Matrix.mulVec_mulVec, oK, Matrix.one_mulVec]
  -- the third column of P is e_z
  have c0 : P 0 2 = 0 := by have := congrFun h3 0; simpa [Matrix.mulVec, dotProduct, Fin.sum_univ_three] using this
  have c1 : P 1 2 = 0 := by have := congrFun h3 1; simpa [Matrix.mulVec, dotProduct, Fin.sum_univ_three] using this
  have c2 : P 2 2 = 1 := by have := congrFun h3 2; simpa [Matrix.mulVec, dotProduct, Fin.sum_univ_three] using this
  have ent : ∀ i j, P 0 i * P 0 j + P 1 i * P 1 j + P 2 i * P 2 j = (1 : Matrix (Fin 3) (Fin 3) ℝ) i j := by
    intro i j
    have := congrFun (congrFun oP i) j
    rw [← this]
    simp [Matrix.mul_apply, Fin.sum_univ_three]
  have r0 : P 2 0 = 0 := by have := ent 0 2; simpa [c0, c1, c2] using this
  have r1 : P 2 1 = 0 := by have := ent 1 2; simpa [c0, c1, c2] using this
  have e00 : P 0 0 ^ 2 + P 1 0 ^ 2 = 1 := by have := ent 0 0; simp [r0] at this; linarith
  have e11 : P 0 1 ^ 2 + P 1 1 ^ 2 = 1 := by have := ent 1 1; simp [r1] at this; linarith
  have e01 : P 0 0 * P 0 1 + P 1 0 * P 1 1 = 0 := by have := ent 0 1; simp [r0, r1] at this; linarith
  obtain ⟨γ, g0, g1⟩ := circle_angle (P 0 0) (P 1 0) e00
  -- the second column is ± (-sin γ, cos γ)
  have hd : (P 0 0 * P 1 1 - P 1 0 * P 0 1) ^ 2 = 1 := by
    linear_combination (P 0 1 ^ 2 + P 1 1 ^ 2) * e00 + e11 - (P 0 0 * P 0 1 + P 1 0 * P 1 1) * e01
  have h01 : P 0 1 = -(P 0 0 * P 1 1 - P 1 0 * P 0 1) * P 1 0 := by linear_combination P 0 0 * e01 - P 0 1 * e00
  have h11 : P 1 1 = (P 0 0 * P 1 1 - P 1 0 * P 0 1) * P 0 0 := by linear_combination P 1 0 * e01 - P 1 1 * e00
  have hpm : P 0 0 * P 1 1 - P 1 0 * P 0 1 = 1 ∨ P 0 0 * P 1 1 - P 1 0 * P 0 1 = -1 := by
    have h0 : (P 0 0 * P 1 1 - P 1 0 * P 0 1 - 1) * (P 0 0 * P 1 1 - P 1 0 * P 0 1 + 1) = 0 := by linear_combination hd
    rcases mul_eq_zero.mp h0 with h0 | h0
    · left; linarith
    · right; linarith
  refine ⟨φ, -θ, γ, ?_⟩
  rcases hpm with h | h
  · left
    rw [hQP]
    congr 1
    rw [h, neg_one_mul] at h01; rw [h, one_mul] at h11
    ext i j
    fin_cases i <;> fin_cases j <;> simp [Rz, c0, c1, c2, r0, r1, g0, g1, h01, h11]
  · right
    rw [hQP, Matrix.mul_assoc _ (Rz γ) Sy]
    congr 1
    rw [h, neg_neg, one_mul] at h01; rw [h, neg_one_mul] at h11
    ext i j
    fin_cases i <;> fin_cases j <;> simp [Rz, Sy, Matrix.mul_apply, Fin.sum_univ_three, c0, c1, c2, r0, r1, g0, g1, h01, h11]

/-- Every orthogonal matrix acts on the harmonics of each degree by a unitary matrix. -/
theorem rotates_orth (n : ℕ) (Q : Matrix (Fin 3) (Fin 3) ℝ) (hQ : Orth Q) : Rotates n Q := by
  obtain ⟨α, β, γ, h | h⟩ := euler Q hQ
  · rw [h]
    exact ((rotates_Rz n α).mul (rotates_Ry n β) (orth_Ry β)).mul (rotates_Rz n γ) (orth_Rz γ)
  · rw [h]
    exact (((rotates_Rz n α).mul (rotates_Ry n β) (orth_Ry β)).mul (rotates_Rz n γ) (orth_Rz γ)).mul (rotates_Sy n) orth_Sy

/-- The matrix of `Q` on the harmonics of degree `n`, indexed by integers: unitary. -/
theorem wigner (n : ℕ) (Q : Matrix (Fin 3) (Fin 3) ℝ) (hQ : Orth Q) :
    ∃ W : ℤ → ℤ → ℂ, (∀ v, Unit3 v → ∀ m ∈ Icc (-(n : ℤ)) n, Yv n m (Q.mulVec v) = ∑ k ∈ Icc (-(n : ℤ)) n, W m k * Yv n k v) ∧
      ∀ m ∈ Icc (-(n : ℤ)) n, ∀ k ∈ Icc (-(n : ℤ)) n, ∑ l ∈ Icc (-(n : ℤ)) n, W m l * (starRingEnd ℂ) (W k l) = if m = k then 1 else 0 := by
  obtain ⟨D, hD, h⟩ := rotates_orth n Q hQ
  obtain ⟨W, hW⟩ : ∃ W : ℤ → ℤ → ℂ, ∀ m k : Ords n, W m k = D m k := by
    refine ⟨fun m k => if h : m ∈ Icc (-(n : ℤ)) n ∧ k ∈ Icc (-(n : ℤ)) n then D ⟨m, h.1⟩ ⟨k, h.2⟩ else 0, fun m k => ?_⟩
    simp only
    rw [dif_pos ⟨m.2, k.2⟩]
  refine ⟨W, fun v hv m hm => ?_, fun m hm k hk => ?_⟩
  · rw [← sum_ords n (fun k => W m k * Yv n k v), h v hv ⟨m, hm⟩]
    exact Finset.sum_congr rfl fun k _ => by rw [← hW]
  · rw [← sum_ords n (fun l => W m l * (starRingEnd ℂ) (W k l))]
    have hD' : D * D.conjTranspose = 1 := mul_eq_one_comm.mp hD
    have := congrFun (congrFun hD' ⟨m, hm⟩) ⟨k, hk⟩
    rw [Matrix.mul_apply, Matrix.one_apply] at this
    simp only [Subtype.mk.injEq] at this
    rw [← this]
    refine Finset.sum_congr rfl fun l _ => ?_
    rw [Matrix.conjTranspose_apply, ← hW ⟨m, hm⟩ l, ← hW ⟨k, hk⟩ l, Complex.star_def]

/-- A unitary change of the coefficients keeps their power. -/
theorem power_unitary (s : Finset ℤ) (W : ℤ → ℤ → ℂ)
    (hW : ∀ m ∈ s, ∀ k ∈ s, ∑ l ∈ s, W m l * (starRingEnd ℂ) (W k l) = if m = k then 1 else 0) (a : ℤ → ℂ) :
    ∑ l ∈ s, ‖∑ m ∈ s, a m * W m l‖ ^ 2 = ∑ m ∈ s, ‖a m‖ ^ 2 := by
  have hn : ∀ z : ℂ, ((‖z‖ ^ 2 : ℝ) : ℂ) = z * (starRingEnd ℂ) z := by
    intro z; rw [Complex.mul_conj, Complex.normSq_eq_norm_sq]
  have key : ((∑ l ∈ s, ‖∑ m ∈ s, a m * W m l‖ ^ 2 : ℝ) : ℂ) = ((∑ m ∈ s, ‖a m‖ ^ 2 : ℝ) : ℂ) := by
    rw [Complex.ofReal_sum, Complex.ofReal_sum]
    simp only [hn, map_sum, map_mul, Finset.sum_mul_sum]
    have e : ∀ m ∈ s, ∑ l ∈ s, ∑ k ∈ s, a m * W m l * ((starRingEnd ℂ) (a k) * (starRingEnd ℂ) (W k l)) = a m * (starRingEnd ℂ) (a m) := by
      intro m hm
      rw [Finset.sum_comm]
      have e2 : ∀ k ∈ s, ∑ l ∈ s, a m * W m l * ((starRingEnd ℂ) (a k) * (starRingEnd ℂ) (W k l)) =
          if m = k then a m * (starRingEnd ℂ) (a k) else 0 := by
        intro k hk
        have := hW m hm k hk
        rw [show (if m = k then a m * (starRingEnd ℂ) (a k) else 0) = a m * (starRingEnd ℂ) (a k) * (if m = k then 1 else 0) by split <;> simp, ← this, Finset.mul_sum]
        exact Finset.sum_congr rfl fun l _ => by ring
      rw [Finset.sum_congr rfl e2, Finset.sum_ite_eq s m, if_pos hm]
    rw [Finset.sum_comm]
    exact Finset.sum_congr rfl e
  exact_mod_cast key

end Verif.Rot
