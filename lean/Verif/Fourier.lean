import Verif.Arr2
import Mathlib.Analysis.SpecialFunctions.Trigonometric.Basic
import Mathlib.Analysis.SpecialFunctions.Complex.Circle
import Mathlib.Algebra.BigOperators.Intervals
/-!
# NumPy FFTs and 1-D tabulation

`np.fft.fft/ifft/fft2/ifft2` are modelled by their documented defining sums (trusted: NumPy).
These definitions model the NumPy runtime, not a file of /repo.
-/
namespace Verif
open Finset

/-- The array `[f 0, ..., f (n-1)]`. -/
def tab {α : Type} (n : Nat) (f : Nat → α) : List α := (List.range n).map f

/-- Entry `i` of a 1-D array (0 outside). -/
def rd {α : Type} [Zero α] (l : List α) (i : Nat) : α := l.getD i 0

@[simp] theorem length_tab {α : Type} (n : Nat) (f : Nat → α) : (tab n f).length = n := by simp [tab]

theorem rd_tab {α : Type} [Zero α] {n : Nat} {f : Nat → α} {i : Nat} (h : i < n) : rd (tab n f) i = f i := by
  simp [rd, tab, h]

theorem rd_out {α : Type} [Zero α] {l : List α} {i : Nat} (h : l.length ≤ i) : rd l i = 0 := by
  simp [rd, h]

theorem list_ext_rd {α : Type} [Zero α] {l l' : List α} (h : l.length = l'.length)
    (h' : ∀ i, i < l.length → rd l i = rd l' i) : l = l' := by
  apply List.ext_getElem h
  intro i h1 h2
  have := h' i h1
  simpa [rd, h1, h2] using this

theorem eq_tab_rd {α : Type} [Zero α] (l : List α) : l = tab l.length (rd l) :=
  list_ext_rd (by simp) fun i hi => by rw [rd_tab hi]

/-- `exp(2πi jk / n)`. -/
noncomputable def root (n : Nat) (j : Int) : ℂ := Complex.exp (2 * Real.pi * Complex.I * j / n)

/-- `np.fft.fft` of a 1-D array; an empty array raises ValueError. -/
noncomputable def npFft (l : List ℂ) : Res (List ℂ) :=
  if l.length = 0 then .error ⟨.valueError, "Invalid number of FFT data points (0)"⟩
  else .ok (tab l.length fun k => ∑ j ∈ range l.length, rd l j * root l.length (-(j * k : Int)))

/-- `np.fft.ifft` of a 1-D array. -/
noncomputable def npIfft (l : List ℂ) : Res (List ℂ) :=
  if l.length = 0 then .error ⟨.valueError, "Invalid number of FFT data points (0)"⟩
  else .ok (tab l.length fun k => (∑ j ∈ range l.length, rd l j * root l.length (j * k : Int)) / l.length)

/-- `np.fft.fft2` of a 2-D array; an axis of length 0 raises ValueError. -/
noncomputable def npFft2 (A : Arr2 ℂ) : Res (Arr2 ℂ) :=
  if A.rows = 0 ∨ A.cols = 0 then .error ⟨.valueError, "Invalid number of FFT data points (0)"⟩
  else .ok (Arr2.ofFn A.rows A.cols fun k l =>
    ∑ i ∈ range A.rows, ∑ j ∈ range A.cols,
      A.at' i j * root A.rows (-(i * k : Int)) * root A.cols (-(j * l : Int)))

/-- `np.fft.ifft2` of a 2-D array. -/
noncomputable def npIfft2 (A : Arr2 ℂ) : Res (Arr2 ℂ) :=
  if A.rows = 0 ∨ A.cols = 0 then .error ⟨.valueError, "Invalid number of FFT data points (0)"⟩
  else .ok (Arr2.ofFn A.rows A.cols fun i j =>
    (∑ k ∈ range A.rows, ∑ l ∈ range A.cols,
      A.at' k l * root A.rows (i * k : Int) * root A.cols (j * l : Int)) / (A.rows * A.cols))

/-! ### Roots of unity -/

theorem root_add (n : Nat) (a b : Int) : root n (a + b) = root n a * root n b := by
  unfold root; rw [← Complex.exp_add]; congr 1; push_cast; ring

theorem root_zero (n : Nat) : root n 0 = 1 := by simp [root]

theorem root_ne_zero (n : Nat) (a : Int) : root n a ≠ 0 := Complex.exp_ne_zero _

theorem root_neg (n : Nat) (a : Int) : root n (-a) = (root n a)⁻¹ := by
  have := root_add n a (-a)
  rw [add_neg_cancel, root_zero] at this
  exact (eq_inv_of_mul_eq_one_right this.symm)

theorem root_self (n : Nat) : root n n = 1 := by
  by_cases h : n = 0
  · subst h; simp [root]
  · unfold root
    have : (n : ℂ) ≠ 0 := by exact_mod_cast h
    rw [show (2 * (Real.pi : ℂ) * Complex.I * ((n : Int) : ℂ) / n) = 2 * Real.pi * Complex.I by
      push_cast; field_simp]
    exact Complex.exp_two_pi_mul_I

theorem root_mul (n : Nat) (a b : Int) : root n (a * b) = root n a ^ b := by
  unfold root
  rw [← Complex.exp_int_mul]; congr 1; push_cast; ring

theorem root_mul_self (n : Nat) (b : Int) : root n (n * b) = 1 := by
  rw [root_mul, root_self, one_zpow]

theorem root_add_mul (n : Nat) (a b : Int) : root n (a + n * b) = root n a := by
  rw [root_add, root_mul_self, mul_one]

theorem root_emod (n : Nat) (a : Int) : root n (a % n) = root n a := by
  conv_rhs => rw [← Int.emod_add_mul_ediv a n]
  rw [root_add_mul]

theorem root_eq_one_iff {n : Nat} (hn : 0 < n) (a : Int) : root n a = 1 ↔ (n : Int) ∣ a := by
  unfold root
  rw [Complex.exp_eq_one_iff]
  have hn' : (n : ℂ) ≠ 0 := by exact_mod_cast hn.ne'
  constructor
  · rintro ⟨k, hk⟩
    refine ⟨k, ?_⟩
    have hpi : (2 * (Real.pi : ℂ) * Complex.I) ≠ 0 := Complex.two_pi_I_ne_zero
    have : (a : ℂ) = n * k := by
      field_simp at hk
      have h2 : (2 * (Real.pi : ℂ) * Complex.I) * a = (2 * (Real.pi : ℂ) * Complex.I) * (n * k) := by
        linear_combination (2 * (Real.pi : ℂ) * Complex.I) * hk
      exact mul_left_cancel₀ hpi h2
    exact_mod_cast this
  · rintro ⟨k, rfl⟩
    exact ⟨k, by push_cast; field_simp⟩

/-- Orthogonality of the discrete exponentials. -/
theorem sum_root {n : Nat} (hn : 0 < n) (a : Int) :
    ∑ j ∈ range n, root n (a * j) = if (n : Int) ∣ a then (n : ℂ) else 0 := by
  have h1 : ∀ j ∈ range n, root n (a * j) = root n a ^ j := by
    intro j _; rw [root_mul, zpow_natCast]
  rw [sum_congr rfl h1]
  split
  · rename_i h
    rw [(root_eq_one_iff hn a).mpr h]; simp
  · rename_i h
    have hne : root n a ≠ 1 := fun h0 => h ((root_eq_one_iff hn a).mp h0)
    have := geom_sum_mul (root n a) n
    rw [← zpow_natCast, ← root_mul, mul_comm a, root_mul_self, sub_self] at this
    rcases mul_eq_zero.mp this with h0 | h0
    · exact h0
    · exact absurd (sub_eq_zero.mp h0) hne

end Verif
