import Verif.Pattern
import Verif.Spec
import Mathlib.Tactic.Ring
import Mathlib.Tactic.Linarith
import Mathlib.Tactic.NormNum
import Mathlib.Tactic.FieldSimp
import Mathlib.Tactic.LinearCombination
import Mathlib.Algebra.CharZero.Defs
/-!
# Properties C12 (patterns), C18 (patterns), C20 - C24: patterns
-/
namespace Verif.Props
open Verif
set_option linter.unusedSectionVars false

/-! ## Specification vocabulary -/

/-- Double-sphere symmetry of an array with sign `sym` (+1 scalar, -1 transverse): the sample at colatitude
index `n`, azimuth index `m` equals `sym` times the sample at `-n`, half a turn away. -/
def DSym {α : Type} [Zero α] [Mul α] (sym : α) (D : Arr2 α) : Prop :=
  ∀ n m : Nat, n < D.rows → m < D.cols →
    D.at' n m = sym * D.at' ((D.rows - n) % D.rows) ((m + D.cols / 2) % D.cols)

/-! ## Structure of `double_sphere` and `continue_sphere` (any element arithmetic) -/

section
variable {α : Type} [Zero α] [One α] [Neg α] [Add α] [Sub α] [Mul α] [Div α] [OfNat α 2] [DecidableEq α]

theorem refl_row {R n : Nat} (h : n < R) : (R - (R - n) % R) % R = n := by
  rcases Nat.eq_zero_or_pos n with rfl | hn
  · simp
  · rw [Nat.mod_eq_of_lt (show R - n < R by omega), show R - (R - n) = n by omega, Nat.mod_eq_of_lt h]

theorem refl_col {C m : Nat} (h : m < C) (he : C % 2 = 0) :
    ((m + C / 2) % C + C / 2) % C = m := by
  have e : C = 2 * (C / 2) := by omega
  by_cases hm : m + C / 2 < C
  · rw [Nat.mod_eq_of_lt hm, show m + C / 2 + C / 2 = m + C by omega, Nat.add_mod_right,
      Nat.mod_eq_of_lt h]
  · have e1 : (m + C / 2) % C = m + C / 2 - C := by
      rw [Nat.mod_eq_sub_mod (by omega), Nat.mod_eq_of_lt (by omega)]
    rw [e1, show m + C / 2 - C + C / 2 = m by omega, Nat.mod_eq_of_lt h]

theorem at'_doubleSphere (d : Arr2 α) (sym : α) {n m : Nat} (hn : n < d.rows) (hm : m < d.cols) :
    (doubleSphere d sym).at' n m =
      dsCell (sym * d.at' ((d.rows - n) % d.rows) ((m + d.cols / 2) % d.cols)) (d.at' n m) := by
  unfold doubleSphere
  rw [Arr2.at'_ofFn hn hm, Nat.add_comm m]

theorem continue_ok (d : Arr2 α) (sym : α) (hr : 2 ≤ d.rows) :
    ∃ z : Arr2 α, continueSphere d sym = .ok (doubleSphere (vcat d z) sym) ∧ z.rows = d.rows - 2 ∧
      ∀ i j, z.at' i j = 0 := by
  refine ⟨Arr2.ofFn (d.rows - 2) d.cols (fun _ _ => 0), ?_, rfl, ?_⟩
  · unfold continueSphere npFull2
    rw [if_neg (by omega)]
    simp only [Except.bind_ok]
    congr 4
    omega
  · intro i j
    by_cases h : i < d.rows - 2 ∧ j < d.cols
    · rw [Arr2.at'_ofFn h.1 h.2]
    · exact Arr2.at'_of_not _ h

theorem at'_vcat_left (A B : Arr2 α) {i j : Nat} (hi : i < A.rows) : (vcat A B).at' i j = A.at' i j := by
  by_cases hj : j < A.cols
  · unfold vcat; rw [Arr2.at'_ofFn (by omega) hj, if_pos hi]
  · rw [Arr2.at'_of_not (vcat A B) (by intro h; exact hj h.2), Arr2.at'_of_not A (by intro h; exact hj h.2)]

theorem at'_vcat_right (A B : Arr2 α) (hB : ∀ i j, B.at' i j = 0) {i j : Nat} (hi : A.rows ≤ i) :
    (vcat A B).at' i j = 0 := by
  by_cases h : i < (vcat A B).rows ∧ j < (vcat A B).cols
  · have h1 : i < A.rows + B.rows := h.1
    have h2 : j < A.cols := h.2
    unfold vcat; rw [Arr2.at'_ofFn h1 h2, if_neg (by omega), hB]
  · exact Arr2.at'_of_not _ h

/-- What `continue_sphere` stores, whatever the element arithmetic. -/
theorem continue_spec_gen (d : Arr2 α) (sym : α) (hr : 2 ≤ d.rows) :
    ∃ D : Arr2 α, continueSphere d sym = .ok D ∧ D.rows = 2 * d.rows - 2 ∧ D.cols = d.cols ∧
      (∀ n m, 0 < n → n < d.rows - 1 → m < d.cols → D.at' n m = dsCell (sym * 0) (d.at' n m)) ∧
      (∀ n m, n = 0 ∨ n = d.rows - 1 → m < d.cols →
        D.at' n m = dsCell (sym * d.at' n ((m + d.cols / 2) % d.cols)) (d.at' n m)) ∧
      (∀ n m, d.rows ≤ n → n < 2 * d.rows - 2 → m < d.cols →
        D.at' n m = dsCell (sym * d.at' (2 * d.rows - 2 - n) ((m + d.cols / 2) % d.cols)) 0) := by
  obtain ⟨z, hz, hzr, hz0⟩ := continue_ok d sym hr
  have hR : (vcat d z).rows = 2 * d.rows - 2 := by unfold vcat; simp [hzr]; omega
  have hC : (vcat d z).cols = d.cols := rfl
  refine ⟨_, hz, hR, hC, ?_, ?_, ?_⟩
  · intro n m h0 h1 hm
    rw [at'_doubleSphere _ _ (by rw [hR]; omega) (by rw [hC]; exact hm), hR, hC,
        Nat.mod_eq_of_lt (show 2 * d.rows - 2 - n < 2 * d.rows - 2 by omega),
        at'_vcat_right d z hz0 (by omega), at'_vcat_left d z (by omega)]
  · intro n m h0 hm
    have e : (2 * d.rows - 2 - n) % (2 * d.rows - 2) = n := by
      rcases h0 with rfl | rfl
      · simp
      · rw [show 2 * d.rows - 2 - (d.rows - 1) = d.rows - 1 by omega, Nat.mod_eq_of_lt (by omega)]
    rw [at'_doubleSphere _ _ (by rw [hR]; omega) (by rw [hC]; exact hm), hR, hC, e,
        at'_vcat_left d z (by omega), at'_vcat_left d z (by omega)]
  · intro n m h0 h1 hm
    rw [at'_doubleSphere _ _ (by rw [hR]; omega) (by rw [hC]; exact hm), hR, hC,
        Nat.mod_eq_of_lt (show 2 * d.rows - 2 - n < 2 * d.rows - 2 by omega),
        at'_vcat_right d z hz0 (show d.rows ≤ n by omega), at'_vcat_left d z (by omega)]

end

section
variable {α : Type} [Field α] [DecidableEq α]

/-! ## C20 -/

/-- **C20 (symmetry)**: `double_sphere` returns data of the same shape with double-sphere symmetry, for every
array with an even number of columns and either sign. -/
theorem c20_symmetric (d : Arr2 α) (sym : α) (hs : sym = 1 ∨ sym = -1) (he : d.cols % 2 = 0) :
    (doubleSphere d sym).rows = d.rows ∧ (doubleSphere d sym).cols = d.cols ∧
    DSym sym (doubleSphere d sym) := by
  refine ⟨rfl, rfl, ?_⟩
  intro n m hn hm
  replace hn : n < d.rows := hn
  replace hm : m < d.cols := hm
  have h1 : (d.rows - n) % d.rows < d.rows := Nat.mod_lt _ (by omega)
  have h2 : (m + d.cols / 2) % d.cols < d.cols := Nat.mod_lt _ (by omega)
  rw [at'_doubleSphere d sym hn hm]
  change _ = sym * (doubleSphere d sym).at' ((d.rows - n) % d.rows) ((m + d.cols / 2) % d.cols)
  rw [at'_doubleSphere d sym h1 h2, refl_row hn, refl_col hm he]
  generalize d.at' n m = t
  generalize d.at' _ _ = s
  have hss : sym * sym = 1 := by rcases hs with h | h <;> simp [h]
  have hs0 : sym ≠ 0 := by rintro rfl; simp at hss
  unfold dsCell
  by_cases hz : s * t = 0
  · rw [if_pos (by rw [mul_assoc, hz, mul_zero]), if_pos (by rw [mul_assoc, mul_comm t s, hz, mul_zero])]
    linear_combination (-t) * hss
  · rw [if_neg (by rw [mul_assoc]; exact mul_ne_zero hs0 hz),
      if_neg (by rw [mul_assoc, mul_comm t s]; exact mul_ne_zero hs0 hz)]
    linear_combination (-t / 2) * hss

/-- Symmetric data is a fixed point of `double_sphere` (any number of columns). -/
theorem doubleSphere_of_dsym [CharZero α] (d : Arr2 α) (sym : α) (h : DSym sym d) :
    doubleSphere d sym = d := by
  refine Arr2.ext' (A := doubleSphere d sym) (B := d) rfl rfl ?_
  intro n m hn hm
  replace hn : n < d.rows := hn
  replace hm : m < d.cols := hm
  rw [at'_doubleSphere d sym hn hm, ← h n m hn hm]
  unfold dsCell
  have h2 : (2 : α) ≠ 0 := two_ne_zero
  split
  · rename_i hz
    have : d.at' n m = 0 := by simpa using hz
    simp [this]
  · field_simp; ring

/-- **C20 (idempotence)**: applying `double_sphere` twice is the same as applying it once. -/
theorem c20_idempotent [CharZero α] (d : Arr2 α) (sym : α) (hs : sym = 1 ∨ sym = -1)
    (he : d.cols % 2 = 0) :
    doubleSphere (doubleSphere d sym) sym = doubleSphere d sym :=
  doubleSphere_of_dsym _ _ (c20_symmetric d sym hs he).2.2

end

/-- The evenness hypothesis of C20 cannot be dropped. -/
theorem c20_odd_columns_counterexample : ∃ d : Arr2 ℚ, d.cols % 2 = 1 ∧ ¬ DSym 1 (doubleSphere d 1) := by
  refine ⟨Arr2.ofFn 2 3 (fun i j => if i = 0 ∧ j = 0 then 1 else 0), rfl, ?_⟩
  intro h
  have := h 0 0 (by decide) (by decide)
  revert this
  decide +kernel

/-- A concrete array (asymmetric pole rows). -/
def psample : Arr2 ℚ := Arr2.ofFn 4 4 (fun i j => (i : ℚ) * 10 + j + 1)

example : psample.cols % 2 = 0 ∧ (doubleSphere psample 1).at' 0 0 = 2 ∧ psample.at' 0 0 = 1 := by
  decide +kernel

section
variable {α : Type} [Field α] [DecidableEq α]

/-! ## C21 -/

/-- What `continue_sphere` stores in the rows of the user's array. -/
theorem continue_spec (d : Arr2 α) (sym : α) (hr : 2 ≤ d.rows) :
    ∃ D : Arr2 α, continueSphere d sym = .ok D ∧ D.rows = 2 * d.rows - 2 ∧ D.cols = d.cols ∧
      (∀ n m, 0 < n → n < d.rows - 1 → D.at' n m = d.at' n m) ∧
      (∀ n m, n = 0 ∨ n = d.rows - 1 → m < d.cols →
        D.at' n m = dsCell (sym * d.at' n ((m + d.cols / 2) % d.cols)) (d.at' n m)) ∧
      (∀ n m, d.rows ≤ n → n < 2 * d.rows - 2 → m < d.cols →
        D.at' n m = sym * d.at' (2 * d.rows - 2 - n) ((m + d.cols / 2) % d.cols)) := by
  obtain ⟨D, hD, hR, hC, h1, h2, h3⟩ := continue_spec_gen d sym hr
  refine ⟨D, hD, hR, hC, ?_, h2, ?_⟩
  · intro n m h0 hn
    by_cases hm : m < d.cols
    · rw [h1 n m h0 hn hm]
      unfold dsCell; simp
    · rw [Arr2.at'_of_not, Arr2.at'_of_not]
      · intro h; exact hm h.2
      · intro h; exact hm (hC ▸ h.2)
  · intro n m h0 hn hm
    rw [h3 n m h0 hn hm]
    unfold dsCell; simp

/-- A pole row is stored unchanged iff it has the pole symmetry. -/
theorem pole_row [CharZero α] (d : Arr2 α) (sym : α) (hs : sym = 1 ∨ sym = -1) (he : d.cols % 2 = 0)
    (n : Nat) :
    (∀ m, m < d.cols → dsCell (sym * d.at' n ((m + d.cols / 2) % d.cols)) (d.at' n m) = d.at' n m) ↔
    (∀ m, m < d.cols → d.at' n m = sym * d.at' n ((m + d.cols / 2) % d.cols)) := by
  have hss : sym * sym = 1 := by rcases hs with h | h <;> simp [h]
  have hs0 : sym ≠ 0 := by rintro rfl; simp at hss
  have h2 : (2 : α) ≠ 0 := two_ne_zero
  constructor
  · intro h m hm
    have h1 := h m hm
    have hm' : (m + d.cols / 2) % d.cols < d.cols := Nat.mod_lt _ (by omega)
    have h3 := h _ hm'
    rw [refl_col hm he] at h3
    revert h1 h3
    generalize d.at' n m = t
    generalize d.at' n _ = s
    unfold dsCell
    by_cases hz : s * t = 0
    · rw [if_pos (by rw [mul_assoc, hz, mul_zero]), if_pos (by rw [mul_assoc, mul_comm t s, hz, mul_zero])]
      intro h1 h3
      have e1 : sym * s = 0 := by linear_combination h1
      have e2 : sym * t = 0 := by linear_combination h3
      have : t = 0 := (mul_eq_zero.mp e2).resolve_left hs0
      rw [e1, this]
    · rw [if_neg (by rw [mul_assoc]; exact mul_ne_zero hs0 hz)]
      intro h1 _
      field_simp at h1
      linear_combination -h1
  · intro h m hm
    rw [← h m hm]
    unfold dsCell
    split
    · rename_i hz
      have : d.at' n m = 0 := by simpa using hz
      simp [this]
    · field_simp; ring

/-- **C21 (scalar patterns)**: a pattern built from an array with at least two rows reports the shape of the
array and returns every sample off the poles unchanged; for an even number of columns a pole row is
returned unchanged iff it has the pole symmetry. -/
theorem c21_scalar [CharZero α] (d : Arr2 α) (hr : 2 ≤ d.rows) :
    ∃ p : SPatt α, SPatt.init (.arr d) false = .ok p ∧ p.nrows = .ok d.rows ∧ p.ncols = .ok d.cols ∧
    ∃ A, p.array = .ok A ∧ A.rows = d.rows ∧ A.cols = d.cols ∧
      (∀ n m, 0 < n → n < d.rows - 1 → m < d.cols → A.at' n m = d.at' n m) ∧
      (d.cols % 2 = 0 → ∀ n, n = 0 ∨ n = d.rows - 1 →
        ((∀ m, m < d.cols → A.at' n m = d.at' n m) ↔
         (∀ m, m < d.cols → d.at' n m = d.at' n ((m + d.cols / 2) % d.cols)))) := by
  obtain ⟨D, hD, hR, hC, hin, hpole, _⟩ := continue_spec d 1 hr
  have hA : ∀ i j, i < d.rows → j < d.cols → (D.takeRows (D.rows / 2 + 1)).at' i j = D.at' i j := by
    intro i j hi hj
    unfold Arr2.takeRows
    rw [Arr2.at'_ofFn (by omega) (by omega)]
  refine ⟨⟨.arr D⟩, by unfold SPatt.init; simp only [hD]; rfl, ?_, ?_, _, rfl, ?_, ?_, ?_, ?_⟩
  · unfold SPatt.nrows SPatt.dsphere; simp only [Except.bind_ok]; congr 1; omega
  · unfold SPatt.ncols SPatt.dsphere; simp only [Except.bind_ok]; rw [hC]
  · show min (D.rows / 2 + 1) D.rows = d.rows; omega
  · exact hC
  · intro n m h0 h1 hm
    rw [hA n m (by omega) hm, hin n m h0 h1]
  · intro he n hn
    rw [show (∀ m, m < d.cols → (D.takeRows (D.rows / 2 + 1)).at' n m = d.at' n m) ↔
        (∀ m, m < d.cols → dsCell (1 * d.at' n ((m + d.cols / 2) % d.cols)) (d.at' n m) = d.at' n m) from
      forall_congr' fun m => forall_congr' fun hm => by
        rw [hA n m (by omega) hm, hpole n m hn hm]]
    rw [pole_row d 1 (.inl rfl) he n]
    simp

/-- **C21 (transverse patterns)**: the same for both components, with sign -1 at the poles; arrays of different
shape are rejected. -/
theorem c21_transverse [CharZero α] (t f : Arr2 α) :
    (¬ (t.rows = f.rows ∧ t.cols = f.cols) →
      Res.Raises (TPatt.init (.arr t) (.arr f) false) .valueError) ∧
    (t.rows = f.rows → t.cols = f.cols → 2 ≤ t.rows →
    ∃ p : TPatt α, TPatt.init (.arr t) (.arr f) false = .ok p ∧ p.nrows = t.rows ∧ p.ncols = t.cols ∧
    ∀ x ∈ [(p.theta, t), (p.phi, f)], x.1.rows = t.rows ∧ x.1.cols = t.cols ∧
      (∀ n m, 0 < n → n < t.rows - 1 → m < t.cols → x.1.at' n m = x.2.at' n m) ∧
      (t.cols % 2 = 0 → ∀ n, n = 0 ∨ n = t.rows - 1 →
        ((∀ m, m < t.cols → x.1.at' n m = x.2.at' n m) ↔
         (∀ m, m < t.cols → x.2.at' n m = -x.2.at' n ((m + t.cols / 2) % t.cols))))) := by
  refine ⟨fun h => ⟨_, by unfold TPatt.init; simp only [if_pos h]; rfl⟩, ?_⟩
  intro hr hc h2
  obtain ⟨D, hD, hR, hC, hin, hpole, _⟩ := continue_spec t (-1) h2
  obtain ⟨E, hE, hR', hC', hin', hpole', _⟩ := continue_spec f (-1) (by omega)
  refine ⟨⟨D, E⟩, ?_, ?_, hC, ?_⟩
  · unfold TPatt.init; simp only [hr, hc, hD, hE]; rfl
  · unfold TPatt.nrows; simp only; omega
  · intro x hx
    have key : ∀ (A B d : Arr2 α), d.rows = t.rows → d.cols = t.cols → A.rows = 2 * d.rows - 2 →
        A.cols = d.cols →
        (∀ n m, 0 < n → n < d.rows - 1 → A.at' n m = d.at' n m) →
        (∀ n m, n = 0 ∨ n = d.rows - 1 → m < d.cols →
          A.at' n m = dsCell (-1 * d.at' n ((m + d.cols / 2) % d.cols)) (d.at' n m)) →
        B = A.takeRows (D.rows / 2 + 1) →
        B.rows = t.rows ∧ B.cols = t.cols ∧
        (∀ n m, 0 < n → n < t.rows - 1 → m < t.cols → B.at' n m = d.at' n m) ∧
        (t.cols % 2 = 0 → ∀ n, n = 0 ∨ n = t.rows - 1 →
        ((∀ m, m < t.cols → B.at' n m = d.at' n m) ↔
         (∀ m, m < t.cols → d.at' n m = -d.at' n ((m + t.cols / 2) % t.cols)))) := by
      intro A B d e1 e2 e3 e4 e5 e6 e7
      have hB : ∀ i j, i < t.rows → j < t.cols → B.at' i j = A.at' i j := by
        intro i j hi hj
        rw [e7]
        unfold Arr2.takeRows
        rw [Arr2.at'_ofFn (by omega) (by omega)]
      refine ⟨?_, ?_, ?_, ?_⟩
      · rw [e7]; show min (D.rows / 2 + 1) A.rows = t.rows; omega
      · rw [e7]; show A.cols = t.cols; omega
      · intro n m h0 h1 hm; rw [hB n m (by omega) hm, e5 n m h0 (by omega)]
      · intro he n hn
        rw [← e2] at *
        rw [show (∀ m, m < d.cols → B.at' n m = d.at' n m) ↔
            (∀ m, m < d.cols → dsCell (-1 * d.at' n ((m + d.cols / 2) % d.cols)) (d.at' n m) = d.at' n m) from
          forall_congr' fun m => forall_congr' fun hm => by
            rw [hB n m (by omega) hm, e6 n m (by omega) hm]]
        rw [pole_row d (-1) (.inr rfl) he n]
        simp
    simp only [List.mem_cons, List.not_mem_nil, or_false] at hx
    rcases hx with rfl | rfl
    · exact key D _ t rfl rfl hR hC hin hpole rfl
    · exact key E _ f hr.symm hc.symm hR' hC' hin' hpole' rfl

/-- The stored double sphere of a pattern built from user samples has the symmetry the transforms need. -/
theorem c21_stored_symmetric (d : Arr2 α) (sym : α) (hs : sym = 1 ∨ sym = -1) (hr : 2 ≤ d.rows)
    (he : d.cols % 2 = 0) :
    ∃ D, continueSphere d sym = .ok D ∧ D.rows = 2 * d.rows - 2 ∧ D.cols = d.cols ∧ DSym sym D := by
  obtain ⟨z, hz, hzr, hz0⟩ := continue_ok d sym hr
  refine ⟨_, hz, ?_, rfl, (c20_symmetric (vcat d z) sym hs he).2.2⟩
  show (vcat d z).rows = _
  unfold vcat; simp [hzr]; omega

end

example : 2 ≤ psample.rows ∧ psample.cols % 2 = 0 := by decide
example : ∃ p A, SPatt.init (.arr psample) false = .ok p ∧ p.array = .ok A ∧ A.at' 1 2 = 13 ∧ A.at' 0 0 = 2 := by
  refine ⟨_, _, rfl, rfl, ?_, ?_⟩ <;> decide +kernel


/-! ## C22 -/

theorem svStep_ge (sv : ℝ) (s t : ℂ) : sv ≤ svStep sv s t := by
  unfold svStep
  split
  · split
    · assumption
    · exact le_refl _
  · split
    · split
      · assumption
      · exact le_refl _
    · exact le_refl _

/-- The relative deviation of one sample from its mirror image, as `single_val` measures it. -/
noncomputable def relDev (s t : ℂ) : ℝ := if s ≠ 0 then ‖(s - t) / s‖ else if t ≠ 0 then 1 else 0

theorem relDev_eq_zero {s t : ℂ} : relDev s t = 0 ↔ s = t := by
  unfold relDev
  by_cases hs : s = 0
  · subst hs
    by_cases ht : t = 0
    · simp [ht]
    · simp [ht, Ne.symm ht]
  · rw [if_pos hs, norm_eq_zero, div_eq_zero_iff]
    simp [hs, sub_eq_zero]

theorem relDev_nonneg (s t : ℂ) : 0 ≤ relDev s t := by
  unfold relDev; split
  · exact norm_nonneg _
  · split <;> norm_num

theorem svStep_eq_max {sv : ℝ} (h : 0 ≤ sv) (s t : ℂ) : svStep sv s t = max sv (relDev s t) := by
  unfold svStep relDev
  split
  · split
    · rw [max_eq_right]; assumption
    · rw [max_eq_left]; linarith
  · split
    · split
      · rw [max_eq_right]; assumption
      · rw [max_eq_left]; linarith
    · rw [max_eq_left h]

theorem foldl_max_spec {ι : Type} (l : List ι) (f : ℝ → ι → ℝ) (g : ι → ℝ)
    (hf : ∀ sv i, i ∈ l → 0 ≤ sv → sv ≤ f sv i ∧ (∀ b, f sv i ≤ b ↔ sv ≤ b ∧ g i ≤ b)) :
    ∀ sv, 0 ≤ sv → sv ≤ l.foldl f sv ∧ ∀ b, l.foldl f sv ≤ b ↔ sv ≤ b ∧ ∀ i ∈ l, g i ≤ b := by
  induction l with
  | nil => intro sv _; simp
  | cons x xs ih =>
    intro sv h
    obtain ⟨h1, h2⟩ := hf sv x (by simp) h
    obtain ⟨h3, h4⟩ := ih (fun sv i hi => hf sv i (by simp [hi])) (f sv x) (le_trans h h1)
    refine ⟨le_trans h1 h3, fun b => ?_⟩
    rw [List.foldl_cons, h4, h2]
    simp [and_assoc]

/-- `single_val`'s loop computes the least upper bound (at least 0) of the relative deviations. -/
theorem svLoop_le (A : Arr2 ℂ) (sym : ℂ) (b : ℝ) :
    svLoop A sym ≤ b ↔ 0 ≤ b ∧ ∀ n m, n < A.rows → m < A.cols →
      relDev (sym * A.at' ((A.rows - n) % A.rows) ((m + A.cols / 2) % A.cols)) (A.at' n m) ≤ b := by
  -- inner loops
  have inner : ∀ n sv, 0 ≤ sv →
      sv ≤ (List.range A.cols).foldl (fun sv m =>
        svStep sv (sym * A.at' ((A.rows - n) % A.rows) ((A.cols / 2 + m) % A.cols)) (A.at' n m)) sv ∧
      ∀ b, (List.range A.cols).foldl (fun sv m =>
        svStep sv (sym * A.at' ((A.rows - n) % A.rows) ((A.cols / 2 + m) % A.cols)) (A.at' n m)) sv ≤ b ↔
        sv ≤ b ∧ ∀ m ∈ List.range A.cols,
          relDev (sym * A.at' ((A.rows - n) % A.rows) ((A.cols / 2 + m) % A.cols)) (A.at' n m) ≤ b := by
    intro n
    apply foldl_max_spec
    intro sv m _ h
    rw [svStep_eq_max h]
    exact ⟨le_max_left _ _, fun b => max_le_iff⟩
  unfold svLoop
  -- outer loop: characterise by the inner bounds
  have outer : ∀ (l : List Nat) sv, 0 ≤ sv →
      ∀ b, l.foldl (fun sv n => (List.range A.cols).foldl (fun sv m =>
        svStep sv (sym * A.at' ((A.rows - n) % A.rows) ((A.cols / 2 + m) % A.cols)) (A.at' n m)) sv) sv ≤ b ↔
        sv ≤ b ∧ ∀ n ∈ l, ∀ m ∈ List.range A.cols,
          relDev (sym * A.at' ((A.rows - n) % A.rows) ((A.cols / 2 + m) % A.cols)) (A.at' n m) ≤ b := by
    intro l
    induction l with
    | nil => intro sv _ b; simp
    | cons x xs ih =>
      intro sv h b
      rw [List.foldl_cons, ih _ (le_trans h (inner x sv h).1), (inner x sv h).2]
      simp [and_assoc]
  rw [outer _ 0 (le_refl _)]
  simp only [List.mem_range, Nat.add_comm (A.cols / 2)]
  constructor
  · rintro ⟨h0, h⟩; exact ⟨h0, fun n m hn hm => h n hn m hm⟩
  · rintro ⟨h0, h⟩; exact ⟨h0, fun n hn m hm => h n m hn hm⟩

theorem svLoop_nonneg (A : Arr2 ℂ) (sym : ℂ) : 0 ≤ svLoop A sym :=
  ((svLoop_le A sym _).mp le_rfl).1

theorem svLoop_eq_zero (A : Arr2 ℂ) (sym : ℂ) : svLoop A sym = 0 ↔ DSym sym A := by
  rw [show svLoop A sym = 0 ↔ svLoop A sym ≤ 0 from
    ⟨le_of_eq, fun h => le_antisymm h (svLoop_nonneg A sym)⟩, svLoop_le]
  simp only [le_refl, true_and]
  unfold DSym
  refine forall_congr' fun n => forall_congr' fun m => forall_congr' fun _ => forall_congr' fun _ => ?_
  rw [show ∀ x : ℝ, x ≤ 0 ↔ x ≤ 0 from fun _ => Iff.rfl]
  constructor
  · intro h; exact (relDev_eq_zero.mp (le_antisymm h (relDev_nonneg _ _))).symm
  · intro h; exact le_of_eq (relDev_eq_zero.mpr h.symm)

/-- **C22 (scalar patterns)**: `single_val` is 0 iff the stored data is exactly symmetric; then
`is_symmetric` is `True`; `single_val` is the largest relative deviation of a sample from its mirror image (the
least upper bound, at least 0), and `is_symmetric` is `True` exactly when it is below 1e-14. -/
theorem c22_scalar (A : Arr2 ℂ) :
    (SPatt.singleVal ⟨.arr A⟩ = .ok 0 ↔ DSym 1 A) ∧
    (DSym 1 A → SPatt.isSymmetric ⟨.arr A⟩ = .ok true) ∧
    (∃ v, SPatt.singleVal ⟨.arr A⟩ = .ok v ∧
      (SPatt.isSymmetric ⟨.arr A⟩ = .ok true ↔ v < 1e-14) ∧
      ∀ b, v ≤ b ↔ 0 ≤ b ∧ ∀ n m, n < A.rows → m < A.cols →
        relDev (A.at' ((A.rows - n) % A.rows) ((m + A.cols / 2) % A.cols)) (A.at' n m) ≤ b) := by
  have e : SPatt.singleVal ⟨.arr A⟩ = .ok (svLoop A 1) := rfl
  have e' : SPatt.isSymmetric ⟨.arr A⟩ = .ok true ↔ svLoop A 1 < 1e-14 := by
    show (Except.ok (decide _) : Res Bool) = .ok true ↔ _
    rw [Except.ok.injEq, decide_eq_true_iff]
  refine ⟨?_, ?_, _, e, e', ?_⟩
  · rw [e, Except.ok.injEq]; exact svLoop_eq_zero A 1
  · intro h
    rw [e', (svLoop_eq_zero A 1).mpr h]; norm_num
  · intro b
    have := svLoop_le A 1 b
    simpa using this

/-- **C22 (transverse patterns, partial)**: the first component of `single_val` is 0 iff the theta data is
exactly antisymmetric, and `is_symmetric` is `True` for antisymmetric patterns.  Missing: the second
component does not look at the phi data at all (`c22_counterexample`). -/
theorem c22_transverse_partial (p : TPatt ℂ) :
    (p.singleVal.1 = 0 ↔ DSym (-1) p.td) ∧
    (DSym (-1) p.td → DSym (-1) p.pd → p.isSymmetric = true) := by
  refine ⟨svLoop_eq_zero _ _, fun h _ => ?_⟩
  unfold TPatt.isSymmetric TPatt.singleVal
  simp only [(svLoop_eq_zero p.td (-1)).mpr h]
  norm_num

/-- **C22 (transverse patterns, what the code does)**: both values of `single_val` are the largest relative deviation of
the theta data from antisymmetry, and `is_symmetric` is `True` exactly when it is below 1e-13. -/
theorem c22_transverse_actual (p : TPatt ℂ) :
    ∃ v, p.singleVal = (v, v) ∧ (p.isSymmetric = true ↔ v < 1e-13) ∧
      ∀ b, v ≤ b ↔ 0 ≤ b ∧ ∀ n m, n < p.td.rows → m < p.td.cols →
        relDev (-p.td.at' ((p.td.rows - n) % p.td.rows) ((m + p.td.cols / 2) % p.td.cols)) (p.td.at' n m) ≤ b := by
  refine ⟨_, rfl, ?_, ?_⟩
  · show (decide (svLoop p.td (-1) < 1e-13) && decide (svLoop p.td (-1) < 1e-13)) = true ↔ _
    simp
  · intro b
    have := svLoop_le p.td (-1) b
    simpa using this

/-- **C22 fails for transverse patterns**: a pattern with a grossly asymmetric phi component is reported as
symmetric, with `single_val = (0, 0)`. -/
theorem c22_counterexample : ∃ p : TPatt ℂ, p.td.rows = p.pd.rows ∧ p.td.cols = p.pd.cols ∧
    ¬ DSym (-1) p.pd ∧ p.singleVal = (0, 0) ∧ p.isSymmetric = true := by
  have h0 : DSym (-1 : ℂ) (Arr2.ofFn 2 2 (fun _ _ => (0 : ℂ))) := by
    intro n m hn hm
    have e : ∀ i j, (Arr2.ofFn 2 2 (fun _ _ => (0 : ℂ))).at' i j = 0 := by
      intro i j; unfold Arr2.at' Arr2.ofFn; split <;> rfl
    rw [e, e]; simp
  have hz := (svLoop_eq_zero _ _).mpr h0
  refine ⟨⟨Arr2.ofFn 2 2 (fun _ _ => 0), Arr2.ofFn 2 2 (fun _ _ => 1)⟩, rfl, rfl, ?_, ?_, ?_⟩
  · intro h
    have := h 0 0 (by decide) (by decide)
    rw [Arr2.at'_ofFn (by decide) (by decide), Arr2.at'_ofFn (by decide) (by decide)] at this
    norm_num at this
  · unfold TPatt.singleVal; simp only [hz]
  · unfold TPatt.isSymmetric TPatt.singleVal; simp only [hz]; norm_num

example : DSym (1 : ℂ) (Arr2.ofFn 4 6 (fun _ _ => 2)) := by
  intro n m hn hm
  have hn' : n < 4 := hn
  have hm' : m < 6 := hm
  rw [Arr2.at'_ofFn hn' hm']
  show 2 = 1 * (Arr2.ofFn 4 6 (fun _ _ => (2 : ℂ))).at' ((4 - n) % 4) ((m + 3) % 6)
  rw [Arr2.at'_ofFn (Nat.mod_lt _ (by decide)) (Nat.mod_lt _ (by decide))]; simp

/-! ## C23 -/
section
variable {α : Type} [Field α] [DecidableEq α]

/-- Reflection of a symmetric array through an elementwise operation. -/
theorem dsym_zip {sym1 sym2 sym3 : α} (f : α → α → α) (A B : Arr2 α) (hA : DSym sym1 A) (hB : DSym sym2 B)
    (hr : A.rows = B.rows) (hc : A.cols = B.cols)
    (hf : ∀ x y, f (sym1 * x) (sym2 * y) = sym3 * f x y) : DSym sym3 (A.zip f B) := by
  intro n m hn hm
  replace hn : n < A.rows := hn
  replace hm : m < A.cols := hm
  have h1 : (A.rows - n) % A.rows < A.rows := Nat.mod_lt _ (by omega)
  have h2 : (m + A.cols / 2) % A.cols < A.cols := Nat.mod_lt _ (by omega)
  show _ = sym3 * (A.zip f B).at' ((A.rows - n) % A.rows) ((m + A.cols / 2) % A.cols)
  rw [Arr2.at'_zip f A B hn hm, Arr2.at'_zip f A B h1 h2, hA n m hn hm, hB n m (by omega) (by omega),
    ← hr, ← hc, hf]

theorem dsym_map {sym1 sym3 : α} (f : α → α) (A : Arr2 α) (hA : DSym sym1 A)
    (hf : ∀ x, f (sym1 * x) = sym3 * f x) : DSym sym3 (A.map f) := by
  intro n m hn hm
  replace hn : n < A.rows := hn
  replace hm : m < A.cols := hm
  have h1 : (A.rows - n) % A.rows < A.rows := Nat.mod_lt _ (by omega)
  have h2 : (m + A.cols / 2) % A.cols < A.cols := Nat.mod_lt _ (by omega)
  show _ = sym3 * (A.map f).at' ((A.rows - n) % A.rows) ((m + A.cols / 2) % A.cols)
  rw [Arr2.at'_map f A hn hm, Arr2.at'_map f A h1 h2, hA n m hn hm, hf]

/-- **C23 (scalar patterns)**: for symmetric patterns `p op q`, `p op x` (`x ≠ 0` for division) and `x op p`
are symmetric, keep the shape and are pointwise the operator applied to the samples; patterns of
different shape are rejected with ValueError and other operands with TypeError. -/
theorem c23_scalar (op : Op) (A : Arr2 α) (hA : DSym 1 A) :
    (∀ B, DSym 1 B → B.rows = A.rows → B.cols = A.cols →
      ∃ D, SPatt.opLeft op ⟨.arr A⟩ (.obj ⟨.arr B⟩) = .ok ⟨.arr D⟩ ∧ D.rows = A.rows ∧ D.cols = A.cols ∧
        DSym 1 D ∧ ∀ n m, n < A.rows → m < A.cols → D.at' n m = specOp op (A.at' n m) (B.at' n m)) ∧
    (∀ x : α, (op = .div → x ≠ 0) →
      ∃ D, SPatt.opLeft op ⟨.arr A⟩ (.num x) = .ok ⟨.arr D⟩ ∧ D.rows = A.rows ∧ D.cols = A.cols ∧
        DSym 1 D ∧ ∀ n m, n < A.rows → m < A.cols → D.at' n m = specOp op (A.at' n m) x) ∧
    (∀ x : α,
      ∃ D, SPatt.opRight op ⟨.arr A⟩ (.num x) = .ok ⟨.arr D⟩ ∧ D.rows = A.rows ∧ D.cols = A.cols ∧
        DSym 1 D ∧ ∀ n m, n < A.rows → m < A.cols → D.at' n m = specOp op x (A.at' n m)) ∧
    (∀ B, ¬ (B.rows = A.rows ∧ B.cols = A.cols) →
      Res.Raises (SPatt.opLeft op ⟨.arr A⟩ (.obj ⟨.arr B⟩)) .valueError) ∧
    Res.Raises (SPatt.opLeft op ⟨.arr A⟩ .other) .typeError := by
  simp only [← eval_specOp]
  refine ⟨?_, ?_, ?_, ?_, ⟨_, rfl⟩⟩
  · intro B hB hr hc
    refine ⟨A.zip op.eval B, ?_, rfl, rfl, ?_, ?_⟩
    · unfold SPatt.opLeft SPatt.dsphere
      simp [hr, hc, SPatt.init]
    · exact dsym_zip op.eval A B hA hB hr.symm hc.symm (by simp)
    · intro n m hn hm; exact Arr2.at'_zip _ _ _ hn hm
  · intro x hx
    refine ⟨A.map (fun y => op.eval y x), ?_, rfl, rfl, ?_, ?_⟩
    · unfold SPatt.opLeft SPatt.dsphere pOpNum
      simp only [Except.bind_ok]
      rw [if_neg (by rintro ⟨h1, h2⟩; exact hx h1 h2)]; rfl
    · exact dsym_map _ A hA (by simp)
    · intro n m hn hm; exact Arr2.at'_map _ _ hn hm
  · intro x
    refine ⟨A.map (fun y => op.eval x y), rfl, rfl, rfl, ?_, ?_⟩
    · exact dsym_map _ A hA (by simp)
    · intro n m hn hm; exact Arr2.at'_map _ _ hn hm
  · intro B hB
    refine ⟨"SP_sz_msmtch", ?_⟩
    · unfold SPatt.opLeft SPatt.dsphere
      simp only [Except.bind_ok]
      rw [if_neg (by rintro ⟨h1, h2⟩; exact hB ⟨h1.symm, h2.symm⟩)]; rfl

/-- **C23 (transverse patterns, partial)**: sums and differences of antisymmetric patterns and products and
quotients with numbers are antisymmetric, keep the shape and are pointwise.  Missing: products and
quotients of two transverse patterns and sums with numbers, for which the claim is false
(`c23_counterexample`); `c23_transverse_pointwise` still gives their samples. -/
theorem c23_transverse_partial (p q : TPatt α) (h1 : DSym (-1) p.td) (h2 : DSym (-1) p.pd)
    (h3 : DSym (-1) q.td) (h4 : DSym (-1) q.pd)
    (s : p.pd.rows = p.td.rows ∧ p.pd.cols = p.td.cols ∧ q.td.rows = p.td.rows ∧ q.td.cols = p.td.cols ∧
      q.pd.rows = p.td.rows ∧ q.pd.cols = p.td.cols) :
    (∀ op, op = .add ∨ op = .sub → ∃ r, p.opLeft op (.obj q) = .ok r ∧ DSym (-1) r.td ∧ DSym (-1) r.pd) ∧
    (∀ op (x : α), op = .mul ∨ op = .div ∧ x ≠ 0 →
      ∃ r, p.opLeft op (.num x) = .ok r ∧ DSym (-1) r.td ∧ DSym (-1) r.pd) ∧
    (∀ op (x : α), op = .mul ∨ op = .div →
      ∃ r, p.opRight op (.num x) = .ok r ∧ DSym (-1) r.td ∧ DSym (-1) r.pd) := by
  obtain ⟨s1, s2, s3, s4, s5, s6⟩ := s
  refine ⟨?_, ?_, ?_⟩
  · intro op hop
    refine ⟨⟨p.td.zip op.eval q.td, p.pd.zip op.eval q.pd⟩, ?_, ?_, ?_⟩
    · unfold TPatt.opLeft TPatt.init
      simp [s1, s2, s3, s4]
    · exact dsym_zip _ _ _ h1 h3 s3.symm s4.symm (by rcases hop with rfl | rfl <;> simp [Op.eval] <;> intros <;> ring)
    · exact dsym_zip _ _ _ h2 h4 (by omega) (by omega)
        (by rcases hop with rfl | rfl <;> simp [Op.eval] <;> intros <;> ring)
  · intro op x hop
    refine ⟨⟨p.td.map (fun y => op.eval y x), p.pd.map (fun y => op.eval y x)⟩, ?_, ?_, ?_⟩
    · unfold TPatt.opLeft TPatt.init pOpNum
      have : ¬ (op = .div ∧ x = 0) := by rcases hop with rfl | ⟨_, h⟩ <;> simp_all
      simp [this, s1, s2]
    · exact dsym_map _ _ h1 (by rcases hop with rfl | ⟨rfl, _⟩ <;> simp [Op.eval] <;> intros <;> ring)
    · exact dsym_map _ _ h2 (by rcases hop with rfl | ⟨rfl, _⟩ <;> simp [Op.eval] <;> intros <;> ring)
  · intro op x hop
    refine ⟨⟨p.td.map (fun y => op.eval x y), p.pd.map (fun y => op.eval x y)⟩, ?_, ?_, ?_⟩
    · unfold TPatt.opRight TPatt.init pOpNumR
      simp [s1, s2]
    · exact dsym_map _ _ h1 (by
        rcases hop with rfl | rfl <;> simp [Op.eval, div_neg])
    · exact dsym_map _ _ h2 (by
        rcases hop with rfl | rfl <;> simp [Op.eval, div_neg])

/-- **C23 (transverse, samples)**: every operator acts pointwise on both components. -/
theorem c23_transverse_pointwise (op : Op) (p q : TPatt α)
    (s : p.pd.rows = p.td.rows ∧ p.pd.cols = p.td.cols ∧ q.td.rows = p.td.rows ∧ q.td.cols = p.td.cols ∧
      q.pd.rows = p.td.rows ∧ q.pd.cols = p.td.cols) :
    (∃ r, p.opLeft op (.obj q) = .ok r ∧ r.td.rows = p.td.rows ∧ r.td.cols = p.td.cols ∧
      r.pd.rows = p.td.rows ∧ r.pd.cols = p.td.cols ∧ ∀ n m, n < p.td.rows → m < p.td.cols →
        r.td.at' n m = specOp op (p.td.at' n m) (q.td.at' n m) ∧
        r.pd.at' n m = specOp op (p.pd.at' n m) (q.pd.at' n m)) ∧
    (∀ x : α, (op = .div → x ≠ 0) →
      ∃ r, p.opLeft op (.num x) = .ok r ∧ r.td.rows = p.td.rows ∧ r.td.cols = p.td.cols ∧
      r.pd.rows = p.td.rows ∧ r.pd.cols = p.td.cols ∧ ∀ n m, n < p.td.rows → m < p.td.cols →
        r.td.at' n m = specOp op (p.td.at' n m) x ∧ r.pd.at' n m = specOp op (p.pd.at' n m) x) ∧
    (∀ x : α,
      ∃ r, p.opRight op (.num x) = .ok r ∧ r.td.rows = p.td.rows ∧ r.td.cols = p.td.cols ∧
      r.pd.rows = p.td.rows ∧ r.pd.cols = p.td.cols ∧ ∀ n m, n < p.td.rows → m < p.td.cols →
        r.td.at' n m = specOp op x (p.td.at' n m) ∧ r.pd.at' n m = specOp op x (p.pd.at' n m)) ∧
    (∀ q' : TPatt α, ¬ (q'.td.rows = p.td.rows ∧ q'.td.cols = p.td.cols) →
      Res.Raises (p.opLeft op (.obj q')) .valueError) ∧
    Res.Raises (p.opLeft op .other) .typeError := by
  simp only [← eval_specOp]
  obtain ⟨s1, s2, s3, s4, s5, s6⟩ := s
  refine ⟨?_, ?_, ?_, ?_, ⟨_, rfl⟩⟩
  · refine ⟨⟨p.td.zip op.eval q.td, p.pd.zip op.eval q.pd⟩, ?_, rfl, rfl, s1, s2, ?_⟩
    · unfold TPatt.opLeft TPatt.init
      simp [s1, s2, s3, s4]
    · intro n m hn hm
      exact ⟨Arr2.at'_zip _ _ _ hn hm, Arr2.at'_zip _ _ _ (by omega) (by omega)⟩
  · intro x hx
    refine ⟨⟨p.td.map (fun y => op.eval y x), p.pd.map (fun y => op.eval y x)⟩, ?_, rfl, rfl, s1, s2, ?_⟩
    · unfold TPatt.opLeft TPatt.init pOpNum
      have : ¬ (op = .div ∧ x = 0) := by rintro ⟨h1, h2⟩; exact hx h1 h2
      simp [this, s1, s2]
    · intro n m hn hm
      exact ⟨Arr2.at'_map _ _ hn hm, Arr2.at'_map _ _ (by omega) (by omega)⟩
  · intro x
    refine ⟨⟨p.td.map (fun y => op.eval x y), p.pd.map (fun y => op.eval x y)⟩, ?_, rfl, rfl, s1, s2, ?_⟩
    · unfold TPatt.opRight TPatt.init pOpNumR
      simp [s1, s2]
    · intro n m hn hm
      exact ⟨Arr2.at'_map _ _ hn hm, Arr2.at'_map _ _ (by omega) (by omega)⟩
  · intro q' h
    refine ⟨"VP_sz_msmtch", ?_⟩
    unfold TPatt.opLeft
    simp only
    rw [if_neg (by rintro ⟨h1, h2⟩; exact h ⟨h1.symm, h2.symm⟩)]; rfl

end

/-- An antisymmetric 2x2 array. -/
def asample : Arr2 ℚ := Arr2.ofFn 2 2 (fun _ j => if j = 0 then 1 else -1)

theorem asample_dsym : DSym (-1) asample := by
  intro n m hn hm
  replace hn : n < 2 := hn
  replace hm : m < 2 := hm
  have : (n = 0 ∨ n = 1) ∧ (m = 0 ∨ m = 1) := by omega
  obtain ⟨rfl | rfl, rfl | rfl⟩ := this <;> decide +kernel

/-- **C23 fails for transverse patterns**: the product of two antisymmetric patterns, and an antisymmetric
pattern plus a number, are not antisymmetric. -/
theorem c23_counterexample : ∃ p r r' : TPatt ℚ, DSym (-1) p.td ∧ DSym (-1) p.pd ∧
    p.opLeft .mul (.obj p) = .ok r ∧ ¬ DSym (-1) r.td ∧
    p.opLeft .add (.num 1) = .ok r' ∧ ¬ DSym (-1) r'.td := by
  refine ⟨⟨asample, asample⟩, _, _, asample_dsym, asample_dsym, rfl, ?_, rfl, ?_⟩
  · intro h
    have := h 0 0 (by decide) (by decide)
    revert this; decide +kernel
  · intro h
    have := h 0 0 (by decide) (by decide)
    revert this; decide +kernel

/-! ## C24 -/
section
variable {α : Type} [Field α] [DecidableEq α]

/-- The rejections common to the pattern factories. -/
theorem c24_reject (x : α) (f g : Nat → Nat → α) (nrows ncols pt : Int) :
    (ncols % 2 = 1 → Res.Raises (pattFactory x nrows ncols pt) .valueError ∧
      Res.Raises (randomPatt f g nrows ncols pt) .valueError) ∧
    (ncols % 2 ≠ 1 → pt ≠ 0 → pt ≠ 1 → Res.Raises (pattFactory x nrows ncols pt) .typeError ∧
      Res.Raises (randomPatt f g nrows ncols pt) .typeError) := by
  constructor
  · intro h
    exact ⟨⟨"ncols_even", by unfold pattFactory; rw [if_pos h]; rfl⟩,
      ⟨"ncols_even", by unfold randomPatt; rw [if_pos h]; rfl⟩⟩
  · intro h h0 h1
    exact ⟨⟨"ukn_patt_t", by unfold pattFactory; rw [if_neg h, if_neg h0, if_neg h1]; rfl⟩,
      ⟨"ukn_patt_t", by unfold randomPatt; rw [if_neg h, if_neg h0, if_neg h1]; rfl⟩⟩

theorem dsym_const (r c : Nat) (x : α) : DSym 1 (Arr2.ofFn r c (fun _ _ => x)) := by
  intro n m hn hm
  replace hn : n < r := hn
  replace hm : m < c := hm
  rw [Arr2.at'_ofFn hn hm]
  show _ = 1 * (Arr2.ofFn r c (fun _ _ => x)).at' ((r - n) % r) ((m + c / 2) % c)
  rw [Arr2.at'_ofFn (Nat.mod_lt _ (by omega)) (Nat.mod_lt _ (by omega)), one_mul]

theorem dsym_zero (r c : Nat) : DSym (-1) (Arr2.ofFn r c (fun _ _ => (0 : α))) := by
  intro n m hn hm
  replace hn : n < r := hn
  replace hm : m < c := hm
  rw [Arr2.at'_ofFn hn hm]
  show _ = -1 * (Arr2.ofFn r c (fun _ _ => (0 : α))).at' ((r - n) % r) ((m + c / 2) % c)
  rw [Arr2.at'_ofFn (Nat.mod_lt _ (by omega)) (Nat.mod_lt _ (by omega)), mul_zero]

/-- **C24 (scalar factories)**: for `nrows ≥ 2` and even `ncols ≥ 0` the zero/one factories return a pattern of
the requested shape, all samples equal to the fill value, with exact symmetry; the random factory returns
a symmetric pattern of the requested shape whatever the random samples are. -/
theorem c24_scalar (x : α) (f g : Nat → Nat → α) (nrows ncols : Nat) (hr : 2 ≤ nrows) (hc : ncols % 2 = 0) :
    (∃ A, pattFactory x nrows ncols 0 = .ok (.inl ⟨.arr A⟩) ∧ DSym 1 A ∧
      SPatt.nrows ⟨.arr A⟩ = .ok nrows ∧ SPatt.ncols ⟨.arr A⟩ = .ok ncols ∧
      ∀ n m, n < A.rows → m < A.cols → A.at' n m = x) ∧
    (∃ A, randomPatt f g nrows ncols 0 = .ok (.inl ⟨.arr A⟩) ∧ DSym 1 A ∧
      SPatt.nrows ⟨.arr A⟩ = .ok nrows ∧ SPatt.ncols ⟨.arr A⟩ = .ok ncols) := by
  constructor
  · refine ⟨Arr2.ofFn (2 * (nrows : Int) - 2).toNat (ncols : Int).toNat (fun _ _ => x), ?_, dsym_const _ _ x, ?_, ?_, ?_⟩
    · unfold pattFactory npFull2
      rw [if_neg (by omega), if_pos rfl, if_neg (by omega)]; rfl
    · unfold SPatt.nrows SPatt.dsphere
      simp only [Except.bind_ok, Arr2.rows_ofFn]; congr 1; omega
    · unfold SPatt.ncols SPatt.dsphere
      simp
    · intro n m hn hm; exact Arr2.at'_ofFn hn hm
  · obtain ⟨D, h1, h2, h3, h4⟩ := c21_stored_symmetric
      (Arr2.ofFn (nrows : Int).toNat (ncols : Int).toNat f) (1 : α) (.inl rfl) (by simpa using hr) (by simpa using hc)
    refine ⟨D, ?_, h4, ?_, ?_⟩
    · unfold randomPatt randomArr
      rw [if_neg (by omega), if_pos rfl, if_neg (by omega)]
      simp only [Except.bind_ok]
      unfold SPatt.init
      simp only [h1]; rfl
    · unfold SPatt.nrows SPatt.dsphere
      simp only [Except.bind_ok, h2, Arr2.rows_ofFn]; congr 1; omega
    · unfold SPatt.ncols SPatt.dsphere
      simp [h3]

/-- **C24 (vector factories, partial)**: `zeros_patt_uniform` and `random_patt_uniform` of vector type return
an antisymmetric pattern of the requested shape.  Missing: `ones_patt_uniform`, whose result is not
antisymmetric (`c24_counterexample`). -/
theorem c24_vector_partial (f g : Nat → Nat → α) (nrows ncols : Nat) (hr : 2 ≤ nrows) (hc : ncols % 2 = 0) :
    (∃ p, pattFactory (0 : α) nrows ncols 1 = .ok (.inr p) ∧ DSym (-1) p.td ∧ DSym (-1) p.pd ∧
      p.nrows = nrows ∧ p.ncols = ncols) ∧
    (∃ p, randomPatt f g nrows ncols 1 = .ok (.inr p) ∧ DSym (-1) p.td ∧ DSym (-1) p.pd ∧
      p.nrows = nrows ∧ p.ncols = ncols) := by
  constructor
  · refine ⟨⟨Arr2.ofFn (2 * (nrows : Int) - 2).toNat (ncols : Int).toNat (fun _ _ => 0),
      Arr2.ofFn (2 * (nrows : Int) - 2).toNat (ncols : Int).toNat (fun _ _ => 0)⟩, ?_, dsym_zero _ _, dsym_zero _ _, ?_, ?_⟩
    · unfold pattFactory npFull2
      rw [if_neg (by omega), if_neg (by decide), if_pos rfl, if_neg (by omega)]
      simp [TPatt.init]
    · unfold TPatt.nrows
      simp only [Arr2.rows_ofFn]; omega
    · simp [TPatt.ncols]
  · obtain ⟨D, h1, h2, h3, h4⟩ := c21_stored_symmetric
      (Arr2.ofFn (nrows : Int).toNat (ncols : Int).toNat f) (-1 : α) (.inr rfl) (by simpa using hr) (by simpa using hc)
    obtain ⟨E, h1', h2', h3', h4'⟩ := c21_stored_symmetric
      (Arr2.ofFn (nrows : Int).toNat (ncols : Int).toNat g) (-1 : α) (.inr rfl) (by simpa using hr) (by simpa using hc)
    refine ⟨⟨D, E⟩, ?_, h4, h4', ?_, ?_⟩
    · unfold randomPatt randomArr
      rw [if_neg (by omega), if_neg (by decide), if_pos rfl, if_neg (by omega), if_neg (by omega)]
      simp only [Except.bind_ok]
      unfold TPatt.init
      simp only [Arr2.rows_ofFn, Arr2.cols_ofFn, and_self, not_true, if_false, h1, h1']; rfl
    · unfold TPatt.nrows
      simp only [h2, Arr2.rows_ofFn]; omega
    · simp [TPatt.ncols, h3]

end

/-- **C24 fails for `ones_patt_uniform` of vector type**: the result is not antisymmetric, for any size. -/
theorem c24_counterexample : ∃ p : TPatt ℚ, pattFactory (1 : ℚ) 3 4 1 = .ok (.inr p) ∧ ¬ DSym (-1) p.td := by
  refine ⟨⟨Arr2.ofFn 4 4 (fun _ _ => 1), Arr2.ofFn 4 4 (fun _ _ => 1)⟩, rfl, ?_⟩
  intro h
  have := h 0 0 (by decide) (by decide)
  revert this; decide +kernel

example : 2 ≤ 3 ∧ 4 % 2 = 0 := by decide

/-! ## C12 (patterns) -/
section
variable {α : Type} [Field α] [DecidableEq α]

/-- **C12 (patterns) fails**: dividing a scalar pattern by the number 0 raises nothing and produces a broken
object (its shape, samples, ... raise AttributeError); dividing a transverse pattern raises
AttributeError.  Neither raises ZeroDivisionError. -/
theorem c12_patterns_counterexample (A : Arr2 α) (p : TPatt α) :
    (∃ q, SPatt.opLeft .div ⟨.arr A⟩ (.num 0) = .ok q ∧ Res.Raises q.nrows .attributeError ∧
      Res.Raises q.array .attributeError) ∧
    Res.Raises (p.opLeft .div (.num 0)) .attributeError ∧
    ¬ Res.Raises (SPatt.opLeft .div ⟨.arr A⟩ (.num 0)) .zeroDivisionError := by
  refine ⟨⟨⟨.exc⟩, ?_, ⟨_, rfl⟩, ⟨_, rfl⟩⟩, ⟨"no attribute 'shape'", ?_⟩, ?_⟩
  · unfold SPatt.opLeft SPatt.dsphere pOpNum; simp [SPatt.init]
  · unfold TPatt.opLeft pOpNum; simp [TPatt.init]
  · rintro ⟨k, h⟩
    unfold SPatt.opLeft SPatt.dsphere pOpNum at h
    simp [SPatt.init] at h

end

/-! ## C18 (patterns) -/

/-- **C18 (patterns)**: `mag2` is the squared magnitude of every sample, `mag` the magnitude, and
`mag² = mag2`, for scalar and transverse patterns. -/
theorem c18_mag_patterns (A : Arr2 ℂ) (p : TPatt ℂ) (hp : p.pd.rows = p.td.rows ∧ p.pd.cols = p.td.cols) :
    (∃ S M M2, SPatt.array ⟨.arr A⟩ = .ok S ∧ SPatt.mag ⟨.arr A⟩ = .ok M ∧ SPatt.mag2 ⟨.arr A⟩ = .ok M2 ∧
      M.rows = S.rows ∧ M.cols = S.cols ∧ M2.rows = S.rows ∧ M2.cols = S.cols ∧
      ∀ n m, n < S.rows → m < S.cols → M2.at' n m = ‖S.at' n m‖ ^ 2 ∧ M.at' n m ^ 2 = M2.at' n m) ∧
    (p.mag2.rows = p.theta.rows ∧ p.mag2.cols = p.theta.cols ∧
      p.mag.rows = p.theta.rows ∧ p.mag.cols = p.theta.cols ∧
      ∀ n m, n < p.theta.rows → m < p.theta.cols →
        p.mag2.at' n m = ‖p.theta.at' n m‖ ^ 2 + ‖p.phi.at' n m‖ ^ 2 ∧ p.mag.at' n m ^ 2 = p.mag2.at' n m) := by
  constructor
  · refine ⟨_, _, _, rfl, rfl, rfl, rfl, rfl, rfl, rfl, ?_⟩
    intro n m hn hm
    rw [Arr2.at'_map _ _ hn hm, Arr2.at'_map _ _ hn hm]
    exact ⟨rfl, rfl⟩
  · refine ⟨rfl, rfl, rfl, rfl, ?_⟩
    intro n m hn hm
    have e : p.mag2.at' n m = ‖p.theta.at' n m‖ ^ 2 + ‖p.phi.at' n m‖ ^ 2 := by
      unfold TPatt.mag2; rw [Arr2.at'_zip _ _ _ hn hm]
    refine ⟨e, ?_⟩
    unfold TPatt.mag
    rw [Arr2.at'_map Real.sqrt p.mag2 hn hm, Real.sq_sqrt (by rw [e]; positivity)]

end Verif.Props
