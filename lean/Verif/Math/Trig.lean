import Mathlib.Algebra.Polynomial.Laurent
import Mathlib.Algebra.Polynomial.AlgebraMap
import Mathlib.Algebra.Polynomial.Derivative
import Mathlib.Analysis.SpecialFunctions.Trigonometric.Basic
import Mathlib.Analysis.SpecialFunctions.Complex.Circle
import Mathlib.Tactic.Ring
import Mathlib.Tactic.Linarith
import Mathlib.Tactic.LinearCombination
import Mathlib.Tactic.FieldSimp
/-!
# Trigonometric polynomials as Laurent polynomials in `e^{iθ}`
-/
namespace Verif
open LaurentPolynomial Polynomial

/-- Trigonometric polynomials `∑ a_k e^{ikθ}`, `T k` standing for `e^{ikθ}`. -/
abbrev Trig := LaurentPolynomial ℂ

namespace Trig

/-- `-i d/dθ`: multiplies the `k`-th coefficient by `k`. -/
noncomputable def del (f : Trig) : Trig :=
  AddMonoidAlgebra.ofCoeff (Finsupp.onFinset f.coeff.support (fun k => (k : ℂ) * f.coeff k)
    (by intro k h; rw [Finsupp.mem_support_iff]; intro h0; exact h (by rw [h0, mul_zero])))

@[simp] theorem coeff_del (f : Trig) (k : ℤ) : (del f).coeff k = (k : ℂ) * f.coeff k := rfl

theorem del_add (f g : Trig) : del (f + g) = del f + del g := by
  ext k; simp [mul_add]

theorem del_zero : del 0 = 0 := by ext k; simp

theorem coeff_CT (a : ℂ) (n k : ℤ) : (LaurentPolynomial.C a * T n : Trig).coeff k = if n = k then a else 0 := by
  rw [← single_eq_C_mul_T, AddMonoidAlgebra.coeff_single, Finsupp.single_apply]

theorem del_CT (a : ℂ) (n : ℤ) : del (LaurentPolynomial.C a * T n) = LaurentPolynomial.C ((n : ℂ) * a) * T n := by
  ext k
  rw [coeff_del, coeff_CT, coeff_CT]
  split
  · rename_i h; rw [h]
  · simp

theorem del_mul (f g : Trig) : del (f * g) = del f * g + f * del g := by
  induction f using LaurentPolynomial.induction_on' with
  | add p q hp hq => rw [add_mul, del_add, hp, hq, del_add]; ring
  | C_mul_T n a =>
    induction g using LaurentPolynomial.induction_on' with
    | add p q hp hq => rw [mul_add, del_add, hp, hq, del_add]; ring
    | C_mul_T m b =>
      have e : (LaurentPolynomial.C a * T n * (LaurentPolynomial.C b * T m) : Trig) =
          LaurentPolynomial.C (a * b) * T (n + m) := by
        rw [T_add, map_mul]; ring
      rw [e, del_CT, del_CT, del_CT, T_add]
      push_cast
      simp only [map_mul, map_add]
      ring

theorem del_C (a : ℂ) : del (LaurentPolynomial.C a) = 0 := by
  have := del_CT a 0
  simpa using this

theorem del_algebraMap (r : ℝ) : del (algebraMap ℝ Trig r) = 0 := by
  have : (algebraMap ℝ Trig r) = LaurentPolynomial.C (r : ℂ) := rfl
  rw [this, del_C]

theorem del_pow_succ (f : Trig) (n : ℕ) : del (f ^ (n + 1)) = ((n : Trig) + 1) * f ^ n * del f := by
  induction n with
  | zero => simp
  | succ n ih => rw [pow_succ, del_mul, ih, pow_succ f n]; push_cast; ring

/-- `cos θ`. -/
noncomputable def lc : Trig := LaurentPolynomial.C (1 / 2) * T 1 + LaurentPolynomial.C (1 / 2) * T (-1)

/-- `sin θ`. -/
noncomputable def ls : Trig :=
  LaurentPolynomial.C (-Complex.I / 2) * T 1 + LaurentPolynomial.C (Complex.I / 2) * T (-1)

/-- The constant `i`. -/
noncomputable def li : Trig := LaurentPolynomial.C Complex.I

theorem li_sq : li * li = -1 := by
  unfold li; rw [← map_mul, Complex.I_mul_I, map_neg, map_one]

theorem del_lc : del lc = li * ls := by
  unfold lc ls li
  rw [del_add, del_CT, del_CT, mul_add, ← mul_assoc, ← mul_assoc, ← map_mul, ← map_mul]
  have e1 : Complex.I * (-Complex.I / 2) = ((1 : ℤ) : ℂ) * (1 / 2) := by
    rw [mul_div_assoc', mul_neg, Complex.I_mul_I]; norm_num
  have e2 : Complex.I * (Complex.I / 2) = ((-1 : ℤ) : ℂ) * (1 / 2) := by
    rw [mul_div_assoc', Complex.I_mul_I]; norm_num
  rw [e1, e2]

theorem del_ls : del ls = -(li * lc) := by
  unfold lc ls li
  rw [del_add, del_CT, del_CT, mul_add, ← mul_assoc, ← mul_assoc, ← map_mul, neg_add, ← neg_mul, ← map_neg,
    ← neg_mul]
  congr 1
  · congr 2; push_cast; ring
  · rw [← neg_mul, ← map_neg]; congr 2; push_cast; ring

theorem lc_sq_add_ls_sq : lc ^ 2 + ls ^ 2 = 1 := by
  have hT : (T 1 * T (-1) : Trig) = 1 := by rw [← T_add]; simp
  have h4 : (LaurentPolynomial.C (1/2) : Trig) * LaurentPolynomial.C (1/2) * 4 = 1 := by
    have : (4 : Trig) = LaurentPolynomial.C 4 := (map_ofNat _ 4).symm
    rw [this, ← map_mul, ← map_mul]; norm_num
  have hls : ls = -(li * LaurentPolynomial.C (1/2)) * T 1 + li * LaurentPolynomial.C (1/2) * T (-1) := by
    unfold ls li
    rw [← map_mul, ← map_neg]
    congr 3 <;> ring
  rw [hls]
  unfold lc
  linear_combination
    ((LaurentPolynomial.C (1/2)) ^ 2 * (T 1 - T (-1)) ^ 2) * li_sq + 4 * (LaurentPolynomial.C (1/2)) ^ 2 * hT + h4

/-- `del` of a polynomial in `cos θ`. -/
theorem del_aeval_lc (p : ℝ[X]) : del (aeval lc p) = aeval lc (derivative p) * (li * ls) := by
  induction p using Polynomial.induction_on' with
  | add p q hp hq => simp only [map_add, del_add, hp, hq]; ring
  | monomial n a =>
    rw [aeval_monomial, derivative_monomial, aeval_monomial, del_mul, del_algebraMap, zero_mul, zero_add]
    cases n with
    | zero => simp [pow_zero, show del (1 : Trig) = 0 by simpa using del_C 1]
    | succ n =>
      rw [del_pow_succ, del_lc]
      simp only [map_mul, map_natCast, Nat.add_sub_cancel, Nat.cast_add, Nat.cast_one, map_add, map_one]
      ring

/-! ### Evaluation -/

/-- `e^{iθ}` as a unit. -/
noncomputable def expUnit (θ : ℝ) : ℂˣ := Units.mk0 (Complex.exp (θ * Complex.I)) (Complex.exp_ne_zero _)

/-- Value of a trigonometric polynomial at `θ`. -/
noncomputable def ev (θ : ℝ) : Trig →+* ℂ := LaurentPolynomial.eval₂ (RingHom.id ℂ) (expUnit θ)

theorem ev_CT (θ : ℝ) (a : ℂ) (n : ℤ) :
    ev θ (LaurentPolynomial.C a * T n) = a * Complex.exp (n * (θ * Complex.I)) := by
  unfold ev
  rw [LaurentPolynomial.eval₂_C_mul_T]
  simp only [RingHom.id_apply]
  rw [Units.val_zpow_eq_zpow_val]
  unfold expUnit
  rw [Units.val_mk0, ← Complex.exp_int_mul]

theorem ev_C (θ : ℝ) (a : ℂ) : ev θ (LaurentPolynomial.C a) = a := by
  have := ev_CT θ a 0
  simpa using this

theorem ev_lc (θ : ℝ) : ev θ lc = (Real.cos θ : ℂ) := by
  unfold lc
  rw [map_add, ev_CT, ev_CT, Complex.ofReal_cos, Complex.cos]
  push_cast
  ring_nf

theorem ev_ls (θ : ℝ) : ev θ ls = (Real.sin θ : ℂ) := by
  unfold ls
  rw [map_add, ev_CT, ev_CT, Complex.ofReal_sin, Complex.sin]
  push_cast
  ring_nf

theorem ev_aeval (θ : ℝ) (p : ℝ[X]) (f : Trig) (x : ℝ) (h : ev θ f = (x : ℂ)) :
    ev θ (aeval f p) = ((p.eval x : ℝ) : ℂ) := by
  induction p using Polynomial.induction_on' with
  | add p q hp hq => simp [hp, hq]
  | monomial n a =>
    rw [aeval_monomial, map_mul, map_pow, h]
    have : (algebraMap ℝ Trig a) = LaurentPolynomial.C (a : ℂ) := rfl
    rw [this, ev_C]
    simp

/-- Evaluation as a finite Fourier sum over any window containing the support. -/
theorem ev_eq_sum (θ : ℝ) (f : Trig) (s : Finset ℤ) (hs : ∀ k, k ∉ s → f.coeff k = 0) :
    ev θ f = ∑ k ∈ s, f.coeff k * Complex.exp (k * (θ * Complex.I)) := by
  have h1 : f = ∑ k ∈ s, LaurentPolynomial.C (f.coeff k) * T k := by
    ext k
    rw [AddMonoidAlgebra.coeff_sum, Finset.sum_apply']
    simp only [coeff_CT]
    rw [Finset.sum_ite_eq']
    split
    · rfl
    · rename_i h; exact hs k h
  conv_lhs => rw [h1]
  rw [map_sum]
  exact Finset.sum_congr rfl fun k _ => ev_CT θ _ _

/-! ### Degree and leading coefficient -/

/-- All coefficients above `n` vanish and the coefficient of `e^{inθ}` is `a`. -/
def Lead (f : Trig) (n : ℤ) (a : ℂ) : Prop := (∀ k, n < k → f.coeff k = 0) ∧ f.coeff n = a

theorem coeff_mul_CT (f : Trig) (a : ℂ) (n k : ℤ) :
    (f * (LaurentPolynomial.C a * T n)).coeff k = f.coeff (k - n) * a := by
  induction f using LaurentPolynomial.induction_on' with
  | add p q hp hq => rw [add_mul, AddMonoidAlgebra.coeff_add, Finsupp.add_apply, hp, hq,
      AddMonoidAlgebra.coeff_add, Finsupp.add_apply, add_mul]
  | C_mul_T m b =>
    have e : (LaurentPolynomial.C b * T m * (LaurentPolynomial.C a * T n) : Trig) =
        LaurentPolynomial.C (b * a) * T (m + n) := by
      rw [T_add, map_mul]; ring
    rw [e, coeff_CT, coeff_CT]
    by_cases h : m + n = k
    · rw [if_pos h, if_pos (by omega)]
    · rw [if_neg h, if_neg (by omega), zero_mul]

theorem Lead.mul_lc {f : Trig} {n : ℤ} {a : ℂ} (h : Lead f n a) : Lead (f * lc) (n + 1) (a * (1 / 2)) := by
  have e : ∀ k, (f * lc).coeff k = f.coeff (k - 1) * (1 / 2) + f.coeff (k + 1) * (1 / 2) := by
    intro k
    unfold lc
    rw [mul_add, AddMonoidAlgebra.coeff_add, Finsupp.add_apply, coeff_mul_CT, coeff_mul_CT, sub_neg_eq_add]
  constructor
  · intro k hk
    rw [e, h.1 _ (by omega), h.1 _ (by omega)]; ring
  · rw [e, h.1 (n + 1 + 1) (by omega), show n + 1 - 1 = n by ring, h.2]; ring

theorem Lead.mul_ls {f : Trig} {n : ℤ} {a : ℂ} (h : Lead f n a) :
    Lead (f * ls) (n + 1) (a * (-Complex.I / 2)) := by
  have e : ∀ k, (f * ls).coeff k = f.coeff (k - 1) * (-Complex.I / 2) + f.coeff (k + 1) * (Complex.I / 2) := by
    intro k
    unfold ls
    rw [mul_add, AddMonoidAlgebra.coeff_add, Finsupp.add_apply, coeff_mul_CT, coeff_mul_CT, sub_neg_eq_add]
  constructor
  · intro k hk
    rw [e, h.1 _ (by omega), h.1 _ (by omega)]; ring
  · rw [e, h.1 (n + 1 + 1) (by omega), show n + 1 - 1 = n by ring, h.2]; ring

theorem lead_C (a : ℂ) : Lead (LaurentPolynomial.C a) 0 a := by
  constructor
  · intro k hk
    rw [LaurentPolynomial.C_apply, if_neg (by omega)]
  · rw [LaurentPolynomial.C_apply, if_pos rfl]

theorem Lead.add_lower {f g : Trig} {n k : ℤ} {a b : ℂ} (h : Lead f n a) (hg : Lead g k b) (hk : k < n) :
    Lead (f + g) n a := by
  constructor
  · intro j hj
    rw [AddMonoidAlgebra.coeff_add, Finsupp.add_apply, h.1 j hj, hg.1 j (by omega), add_zero]
  · rw [AddMonoidAlgebra.coeff_add, Finsupp.add_apply, h.2, hg.1 n hk, add_zero]

theorem Lead.mono {f : Trig} {n k : ℤ} {a : ℂ} (h : Lead f n a) (hk : n < k) : Lead f k 0 :=
  ⟨fun j hj => h.1 j (by omega), h.1 k hk⟩

theorem lead_lc_pow (a : ℂ) (j : ℕ) : Lead (LaurentPolynomial.C a * lc ^ j) j (a * (1 / 2) ^ j) := by
  induction j with
  | zero => simpa using lead_C a
  | succ j ih =>
    have := ih.mul_lc
    rw [mul_assoc, ← pow_succ] at this
    rw [show ((j + 1 : ℕ) : ℤ) = (j : ℤ) + 1 by push_cast; rfl, pow_succ (1 / 2 : ℂ), ← mul_assoc]
    exact this

theorem Lead.add {f g : Trig} {n : ℤ} {a b : ℂ} (h : Lead f n a) (hg : Lead g n b) : Lead (f + g) n (a + b) := by
  constructor
  · intro j hj
    rw [AddMonoidAlgebra.coeff_add, Finsupp.add_apply, h.1 j hj, hg.1 j hj, add_zero]
  · rw [AddMonoidAlgebra.coeff_add, Finsupp.add_apply, h.2, hg.2]

theorem lead_sum {ι : Type} (s : Finset ι) (f : ι → Trig) (n : ℤ) (a : ι → ℂ)
    (h : ∀ i ∈ s, Lead (f i) n (a i)) : Lead (∑ i ∈ s, f i) n (∑ i ∈ s, a i) := by
  classical
  induction s using Finset.induction with
  | empty => simp only [Finset.sum_empty]; exact ⟨fun k _ => by simp, by simp⟩
  | insert i s hi ih =>
    rw [Finset.sum_insert hi, Finset.sum_insert hi]
    exact (h i (by simp)).add (ih fun j hj => h j (by simp [hj]))

/-- Leading coefficient of a polynomial of degree `≤ d` in `cos θ`. -/
theorem lead_aeval_lc (p : ℝ[X]) (d : ℕ) (hd : p.natDegree ≤ d) :
    Lead (aeval lc p) d ((p.coeff d : ℂ) * (1 / 2) ^ d) := by
  rw [aeval_eq_sum_range' (show p.natDegree < d + 1 by omega)]
  have hh : ∀ i ∈ Finset.range (d + 1), Lead (p.coeff i • lc ^ i) d
      (if i = d then (p.coeff d : ℂ) * (1 / 2) ^ d else 0) := by
    intro i hi
    have e : p.coeff i • lc ^ i = LaurentPolynomial.C (p.coeff i : ℂ) * lc ^ i := by
      rw [Algebra.smul_def]; rfl
    rw [e]
    split
    · rename_i h; subst h; exact lead_lc_pow _ _
    · rename_i h
      have : i < d + 1 := Finset.mem_range.mp hi
      exact (lead_lc_pow _ _).mono (by omega)
  have := lead_sum (Finset.range (d + 1)) (fun i => p.coeff i • lc ^ i) d _ hh
  rw [Finset.sum_ite_eq', if_pos (by simp)] at this
  exact this

theorem Lead.mul_ls_pow {f : Trig} {n : ℤ} {a : ℂ} (h : Lead f n a) (j : ℕ) :
    Lead (f * ls ^ j) (n + j) (a * (-Complex.I / 2) ^ j) := by
  induction j with
  | zero => simpa using h
  | succ j ih =>
    have := ih.mul_ls
    rw [mul_assoc, ← pow_succ] at this
    rw [show n + ((j + 1 : ℕ) : ℤ) = n + (j : ℤ) + 1 by push_cast; ring, pow_succ (-Complex.I / 2 : ℂ), ← mul_assoc]
    exact this

/-! ### Reflection `θ ↦ -θ` -/

theorem invert_lc : invert lc = lc := by
  unfold lc; simp only [map_add, map_mul, invert_C, invert_T, neg_neg]; ring

theorem invert_ls : invert ls = -ls := by
  unfold ls; simp only [map_add, map_mul, invert_C, invert_T, neg_neg]
  have : LaurentPolynomial.C (-Complex.I / 2) = -(LaurentPolynomial.C (Complex.I / 2) : Trig) := by
    rw [← map_neg]; congr 1; ring
  rw [this]; ring

theorem invert_aeval_lc (p : ℝ[X]) : invert (aeval lc p) = aeval lc p := by
  induction p using Polynomial.induction_on' with
  | add p q hp hq => simp only [map_add, hp, hq]
  | monomial n a =>
    rw [aeval_monomial, map_mul, map_pow, invert_lc]
    have : (algebraMap ℝ Trig a) = LaurentPolynomial.C (a : ℂ) := rfl
    rw [this, invert_C]

end Trig
end Verif
