import Verif.Props.Symmetry
/-!
# Properties C71, C72: reflection in the equator; symmetries of the vector transform
-/
namespace Verif.Props
open Verif Finset Polynomial

/-! ## Parity of the harmonics -/

/-- `p(-x) = (-1)^k p(x)`. -/
def HasParity (k : ℕ) (p : ℝ[X]) : Prop := p.comp (-X) = C ((-1) ^ k) * p

theorem parity_derivative {k : ℕ} {p : ℝ[X]} (h : HasParity k p) : HasParity (k + 1) (derivative p) := by
  unfold HasParity at *
  have := congrArg derivative h
  rw [derivative_comp, derivative_neg, derivative_X, derivative_mul, derivative_C, zero_mul, zero_add] at this
  have e : (derivative p).comp (-X) = -(C ((-1) ^ k) * derivative p) := by rw [← this]; ring
  rw [e, pow_succ]
  simp

theorem parity_iterate {k : ℕ} {p : ℝ[X]} (h : HasParity k p) (j : ℕ) : HasParity (k + j) (derivative^[j] p) := by
  induction j with
  | zero => exact h
  | succ j ih => rw [Function.iterate_succ_apply']; exact parity_derivative ih

theorem parity_legendre (n : ℕ) : HasParity n (legendre n) := by
  have h0 : HasParity 0 (rodU n) := by
    unfold HasParity rodU
    simp
  have h1 := parity_iterate h0 n
  rw [zero_add] at h1
  unfold HasParity legendre at *
  rw [mul_comp, C_comp, h1]
  ring

theorem thetaPart_reflect (n : ℕ) (m : ℤ) (θ : ℝ) : thetaPart n m (Real.pi - θ) = (-1) ^ (n + m.natAbs) * thetaPart n m θ := by
  unfold thetaPart
  rw [Real.sin_pi_sub, Real.cos_pi_sub]
  have h := parity_iterate (parity_legendre n) m.natAbs
  unfold HasParity at h
  have := congrArg (eval (Real.cos θ)) h
  rw [eval_comp, eval_neg, eval_X, eval_mul, eval_C] at this
  rw [this]
  ring

theorem sphY_reflect (n : ℕ) (m : ℤ) (θ φ : ℝ) : sphY n m (Real.pi - θ) φ = (-1) ^ (n + m.natAbs) * sphY n m θ φ := by
  unfold sphY
  rw [thetaPart_reflect]
  push_cast
  ring

/-! ## Reflection on the Fourier side -/

theorem root_half (M : ℕ) (hM : 0 < M) (ν : ℤ) : root (2 * M) (-(M * ν)) = Complex.exp (((-ν : ℤ) : ℂ) * (Real.pi * Complex.I)) := by
  unfold root
  congr 1
  have : (M : ℂ) ≠ 0 := by exact_mod_cast hM.ne'
  push_cast
  field_simp

theorem dftc_flip (D : Arr2 ℂ) (M : ℕ) (hM : D.rows = 2 * M) (h0 : 0 < M) (ν m : ℤ) :
    dftc (flipD D) ν m = Complex.exp (((-ν : ℤ) : ℂ) * (Real.pi * Complex.I)) * dftc D (-ν) m := by
  unfold dftc
  rw [show (flipD D).rows = D.rows from rfl, show (flipD D).cols = D.cols from rfl, ← mul_div_assoc, mul_sum]
  congr 1
  have hinv : ∀ i, i < D.rows → (D.rows / 2 + (D.rows - (D.rows / 2 + (D.rows - i)) % D.rows)) % D.rows = i := by
    intro i hi
    by_cases h : i ≤ M
    · have e : (D.rows / 2 + (D.rows - i)) % D.rows = M - i := by
        rw [show D.rows / 2 + (D.rows - i) = M - i + D.rows by omega, Nat.add_mod_right, Nat.mod_eq_of_lt (by omega)]
      rw [e, show D.rows / 2 + (D.rows - (M - i)) = i + D.rows by omega, Nat.add_mod_right, Nat.mod_eq_of_lt hi]
    · have e : (D.rows / 2 + (D.rows - i)) % D.rows = 3 * M - i := by
        rw [show D.rows / 2 + (D.rows - i) = 3 * M - i by omega, Nat.mod_eq_of_lt (by omega)]
      rw [e, show D.rows / 2 + (D.rows - (3 * M - i)) = i by omega, Nat.mod_eq_of_lt hi]
  refine sum_nbij' (fun i => (D.rows / 2 + (D.rows - i)) % D.rows) (fun i => (D.rows / 2 + (D.rows - i)) % D.rows) ?_ ?_ ?_ ?_ ?_
  · intro i _; exact mem_range.mpr (Nat.mod_lt _ (by omega))
  · intro i _; exact mem_range.mpr (Nat.mod_lt _ (by omega))
  · intro i hi; exact hinv i (mem_range.mp hi)
  · intro i hi; exact hinv i (mem_range.mp hi)
  · intro i hi
    rw [mem_range] at hi
    rw [mul_sum]
    refine sum_congr rfl fun j hj => ?_
    rw [mem_range] at hj
    rw [flipD_at hi hj]
    have : root D.rows (-((((D.rows / 2 + (D.rows - i)) % D.rows : ℕ) : ℤ) * -ν)) = root D.rows (-(i * ν)) * root D.rows (M * ν) := by
      rw [← root_add, Int.natCast_mod, mul_comm, root_mul_emod]
      rw [show -(-ν * ((D.rows / 2 + (D.rows - i) : ℕ) : ℤ)) = -(i * ν) + M * ν + D.rows * ν by
        rw [show D.rows / 2 = M by omega]; push_cast [Nat.cast_sub (show i ≤ D.rows by omega)]; ring, root_add_mul]
    have h1 : root D.rows (-(M * ν)) * root D.rows (M * ν) = 1 := by rw [← root_add, neg_add_cancel, root_zero]
    rw [this, ← root_half M h0, ← hM]
    linear_combination (-(D.at' ((D.rows / 2 + (D.rows - i)) % D.rows) j * root D.rows (-(i * ν)) * root D.cols (-(j * m)))) * h1

theorem interpolant_flip (D : Arr2 ℂ) (M : ℕ) (hM : D.rows = 2 * M) (h0 : 0 < M) (θ φ : ℝ) :
    interpolant (flipD D) θ φ = interpolant D (Real.pi - θ) φ := by
  unfold interpolant trigPoly
  rw [show (flipD D).rows = D.rows from rfl, show (flipD D).cols = D.cols from rfl]
  refine sum_congr rfl fun m _ => ?_
  rw [← sum_Ioo_neg (D.rows / 2)]
  refine sum_congr rfl fun ν _ => ?_
  rw [dftc_flip D M hM h0, neg_neg]
  rw [show (ν : ℂ) * (((Real.pi - θ : ℝ) : ℂ) * Complex.I) = ν * (Real.pi * Complex.I) + ((-ν : ℤ) : ℂ) * (θ * Complex.I) by push_cast; ring,
    Complex.exp_add]
  ring

theorem sphInt_reflect (F : ℝ → ℝ → ℂ) : sphInt (fun θ φ => F (Real.pi - θ) φ) = sphInt F := by
  unfold sphInt
  congr 1
  funext φ
  have := intervalIntegral.integral_comp_sub_left (a := 0) (b := Real.pi) (fun θ => F θ φ * Real.sin θ) Real.pi
  rw [sub_self, sub_zero] at this
  rw [← this]
  congr 1
  funext θ
  rw [Real.sin_pi_sub]

/-- C71: reversing the order of the rows (reflection in the equatorial plane) multiplies `c[n,m]` by `(-1)^(n+m)`. -/
theorem c71_reflection (b b' : Backend) (A : Arr2 ℂ) (hr : 2 ≤ A.rows) (hsz : A.rows ≤ 2 ^ 28)
    (p : SPatt ℂ) (hp : SPatt.init (.arr A) false = .ok p) (n m : ℤ) (h0 : 0 ≤ m) (c : ScalarCoefs ℂ)
    (h : spht b p (some n) (some m) = .ok c) :
    ∃ p' c', SPatt.init (.arr (flipRows A)) false = .ok p' ∧ spht b' p' (some n) (some m) = .ok c' ∧ c'.nmax = n ∧ c'.mmax = m ∧
      c'.WellFormed ∧ ∀ k l : ℤ, IsMode n m k l →
        readMap c' k l = (readMap c k l).map fun x : ℂ => (-1) ^ (k.toNat + l.natAbs) * x := by
  obtain ⟨D, hD, hi, r1, c1, hsym⟩ := init_pattern A hr
  rw [hi] at hp; cases hp
  have hnr := spht_ok_args h
  obtain ⟨E, hE, hi', -, -, hsym'⟩ := init_pattern (flipRows A) hr
  rw [continue_flip A D 1 hr hD] at hE
  cases hE
  have hs := hsym (by omega)
  have hs' := hsym' (show A.cols % 2 = 0 by omega)
  obtain ⟨d, e', n', m', w', -⟩ := spht_value b' (flipD D) (show D.rows % 2 = 0 by omega) (show 0 < D.rows by omega)
    (show D.rows ≤ 2 ^ 29 by omega) n m h0 hnr
  refine ⟨_, d, hi', e', n', m', w', fun k l hk => ?_⟩
  obtain ⟨-, -, v1⟩ := c31_projection b D (by omega) (by omega) (by omega) hs n m h0 c h
  obtain ⟨-, -, v2⟩ := c31_projection b' (flipD D) (show D.rows % 2 = 0 by omega) (show 0 < D.rows by omega)
    (show D.rows ≤ 2 ^ 29 by omega) hs' n m h0 d e'
  rw [v1 k l hk, v2 k l hk, Option.map_some]
  congr 1
  rw [← sphInt_const_mul, ← sphInt_reflect]
  congr 1
  funext θ φ
  rw [interpolant_flip D (A.rows - 1) (by omega) (by omega), sub_sub_cancel, sphY_reflect, map_mul, map_pow, map_neg, map_one]
  ring

/-- C71, the antipodal map: reversing the rows and rotating by half a turn multiplies `c[n,m]` by `(-1)^n`. -/
theorem c71_antipodal (b b' : Backend) (A : Arr2 ℂ) (hr : 2 ≤ A.rows) (hsz : A.rows ≤ 2 ^ 28)
    (p : SPatt ℂ) (hp : SPatt.init (.arr A) false = .ok p) (n m : ℤ) (h0 : 0 ≤ m) (c : ScalarCoefs ℂ)
    (h : spht b p (some n) (some m) = .ok c) :
    ∃ p' c', SPatt.init (.arr (rollCols (A.cols / 2) (flipRows A))) false = .ok p' ∧ spht b' p' (some n) (some m) = .ok c' ∧
      c'.nmax = n ∧ c'.mmax = m ∧ c'.WellFormed ∧ ∀ k l : ℤ, IsMode n m k l →
        readMap c' k l = (readMap c k l).map fun x : ℂ => (-1) ^ k.toNat * x := by
  obtain ⟨D, hD, hi, r1, c1, -⟩ := init_pattern A hr
  have hp' := hp
  rw [hi] at hp'; cases hp'
  have hnr := spht_ok_args h
  obtain ⟨p1, q1, e1, e2, -, -, -, e3⟩ := c71_reflection b b A hr hsz _ hp n m h0 c h
  obtain ⟨p2, q2, f1, f2, f3, f4, f5, f6⟩ := c69_rotation b b' (flipRows A) hr hsz (A.cols / 2) (Nat.div_le_self _ _) p1 e1 n m h0 q1 e2
  refine ⟨p2, q2, f1, f2, f3, f4, f5, fun k l hk => ?_⟩
  rw [f6 k l hk, e3 k l hk, Option.map_map]
  congr 1
  funext x
  rw [Function.comp_apply]
  have hc0 : (A.cols : ℂ) = 2 * ((A.cols / 2 : ℕ) : ℂ) := by
    have : A.cols = 2 * (A.cols / 2) := by omega
    exact_mod_cast this
  have hh : ((A.cols / 2 : ℕ) : ℂ) ≠ 0 := by
    have : A.cols / 2 ≠ 0 := by omega
    exact_mod_cast this
  have e : Complex.exp (-(2 * Real.pi * Complex.I * l * (A.cols / 2 : ℕ) / ((flipRows A).cols : ℂ))) = (-1) ^ l.natAbs := by
    rw [show ((flipRows A).cols : ℂ) = 2 * ((A.cols / 2 : ℕ) : ℂ) from hc0,
      show -(2 * Real.pi * Complex.I * l * (A.cols / 2 : ℕ) / (2 * ((A.cols / 2 : ℕ) : ℂ))) = ((-l : ℤ) : ℂ) * (Real.pi * Complex.I) by
        push_cast [-Nat.cast_div_charZero]; field_simp,
      exp_pi_int, ← neg_one_zpow_natAbs, Int.natAbs_neg]
  rw [e, ← mul_assoc, ← pow_add, show l.natAbs + (k.toNat + l.natAbs) = k.toNat + 2 * l.natAbs by ring, pow_add, pow_mul]
  norm_num

end Verif.Props
