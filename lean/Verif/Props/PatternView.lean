import Verif.PatternView
import Verif.Props.Patterns
/-!
# Property C81: in-place edits of a pattern's samples
-/
namespace Verif.Props
open Verif
set_option linter.unusedSectionVars false

section
variable {α : Type} [Field α] [DecidableEq α]

/-- The edit keeps the part of the old samples the code would need to mirror: samples off the poles unchanged, pole
rows with the pole symmetry. -/
def EditKeeps (sym : α) (A B : Arr2 α) : Prop :=
  (∀ n m, 0 < n → n < A.rows - 1 → m < A.cols → B.at' n m = A.at' n m) ∧
  (∀ n m, n = 0 ∨ n = A.rows - 1 → m < A.cols → B.at' n m = sym * B.at' n ((m + A.cols / 2) % A.cols))

theorem overwrite_spec (D B : Arr2 α) (h2 : 2 ≤ D.rows) (hr : B.rows = D.rows / 2 + 1) (hc : B.cols = D.cols) :
    ∃ E, D.overwriteRows (D.rows / 2 + 1) B = .ok E ∧ E.rows = D.rows ∧ E.cols = D.cols ∧
      (∀ n m, n < D.rows / 2 + 1 → m < D.cols → E.at' n m = B.at' n m) ∧
      (∀ n m, D.rows / 2 + 1 ≤ n → n < D.rows → m < D.cols → E.at' n m = D.at' n m) := by
  have hm : min (D.rows / 2 + 1) D.rows = D.rows / 2 + 1 := by omega
  refine ⟨Arr2.ofFn D.rows D.cols fun i j => if i < D.rows / 2 + 1 then B.at' i j else D.at' i j, ?_, rfl, rfl, ?_, ?_⟩
  · unfold Arr2.overwriteRows
    simp only [hm]
    rw [if_pos ⟨hr, hc⟩]
  · intro n m hn hm'
    rw [Arr2.at'_ofFn (by omega) hm', if_pos hn]
  · intro n m hn hn' hm'
    rw [Arr2.at'_ofFn hn' hm', if_neg (by omega)]

theorem takeRows_at (D : Arr2 α) {n m : Nat} (k : Nat) (hn : n < k) (hn' : n < D.rows) (hm : m < D.cols) :
    (D.takeRows k).at' n m = D.at' n m := by
  unfold Arr2.takeRows
  rw [Arr2.at'_ofFn (by omega) hm]

/-- Core of C81 on the stored array. -/
theorem overwrite_iff [CharZero α] (sym : α) (hs : sym = 1 ∨ sym = -1) (D B E : Arr2 α) (hD : DSym sym D) (h2 : 2 ≤ D.rows)
    (he : D.rows % 2 = 0) (hce : D.cols % 2 = 0) (hr : B.rows = D.rows / 2 + 1) (hc : B.cols = D.cols)
    (hE : D.overwriteRows (D.rows / 2 + 1) B = .ok E) :
    E.takeRows (E.rows / 2 + 1) = B ∧
    (DSym sym E ↔ EditKeeps sym (D.takeRows (D.rows / 2 + 1)) B) ∧
    (continueSphere B sym = .ok E ↔ EditKeeps sym (D.takeRows (D.rows / 2 + 1)) B) := by
  obtain ⟨E', hE', er, ec, e1, e2⟩ := overwrite_spec D B h2 hr hc
  obtain rfl : E' = E := by rw [hE'] at hE; exact Except.ok.inj hE
  have hAr : (D.takeRows (D.rows / 2 + 1)).rows = D.rows / 2 + 1 := by
    show min (D.rows / 2 + 1) D.rows = _; omega
  have hAc : (D.takeRows (D.rows / 2 + 1)).cols = D.cols := rfl
  have hsym : DSym sym E' ↔ EditKeeps sym (D.takeRows (D.rows / 2 + 1)) B := by
    constructor
    · intro h
      refine ⟨fun n m a b c => ?_, fun n m a c => ?_⟩
      · rw [hAr] at b
        rw [hAc] at c
        rw [takeRows_at D _ (by omega) (by omega) c, ← e1 n m (by omega) c, h n m (by omega) (by omega), hD n m (by omega) c,
          er, ec, Nat.mod_eq_of_lt (show D.rows - n < D.rows by omega),
          e2 _ _ (by omega) (by omega) (Nat.mod_lt _ (by omega))]
      · rw [hAr] at a
        rw [hAc] at c ⊢
        have hn : n < D.rows / 2 + 1 := by omega
        have hn' : (D.rows - n) % D.rows = n := by
          rcases a with rfl | rfl
          · simp
          · rw [Nat.mod_eq_of_lt (by omega)]; omega
        have := h n m (by omega) (by omega)
        rw [er, ec, hn', e1 n m hn c, e1 n _ hn (Nat.mod_lt _ (by omega))] at this
        exact this
    · rintro ⟨k1, k2⟩ n m hn hm
      have hss : sym * sym = 1 := by rcases hs with h | h <;> simp [h]
      rw [er] at hn ⊢
      rw [ec] at hm ⊢
      rw [hAr, hAc] at k1 k2
      have hm' : (m + D.cols / 2) % D.cols < D.cols := Nat.mod_lt _ (by omega)
      have k1' : ∀ n m, 0 < n → n < D.rows / 2 → m < D.cols → B.at' n m = D.at' n m := by
        intro n m a b c
        rw [k1 n m a (by omega) c, takeRows_at D _ (by omega) (by omega) c]
      by_cases h0 : n = 0
      · subst h0
        rw [e1 0 m (by omega) hm]
        simp only [Nat.sub_zero, Nat.mod_self]
        rw [e1 0 _ (by omega) hm']
        exact k2 0 m (Or.inl rfl) hm
      · rw [Nat.mod_eq_of_lt (show D.rows - n < D.rows by omega)]
        rcases lt_trichotomy n (D.rows / 2) with a | a | a
        · rw [e1 n m (by omega) hm, e2 _ _ (by omega) (by omega) hm', k1' n m (by omega) a hm, hD n m hn hm,
            Nat.mod_eq_of_lt (show D.rows - n < D.rows by omega)]
        · rw [show D.rows - n = n by omega, e1 n m (by omega) hm, e1 n _ (by omega) hm']
          exact k2 n m (Or.inr (by omega)) hm
        · rw [e2 n m (by omega) hn hm, e1 _ _ (by omega) hm', k1' _ _ (by omega) (by omega) hm', hD n m hn hm,
            Nat.mod_eq_of_lt (show D.rows - n < D.rows by omega)]
  refine ⟨?_, hsym, ?_⟩
  · refine Arr2.ext' (by show min (E'.rows / 2 + 1) E'.rows = _; omega) (by rw [hc, ← ec]; rfl) fun n m hn hm => ?_
    have hn : n < min (E'.rows / 2 + 1) E'.rows := hn
    have hm : m < E'.cols := hm
    rw [takeRows_at E' _ (by omega) (by omega) hm, e1 n m (by omega) (by omega)]
  · rw [← hsym]
    constructor
    · intro h
      obtain ⟨F, f1, _, _, f4⟩ := c21_stored_symmetric B sym hs (by omega) (by omega)
      rw [f1] at h
      rw [← Except.ok.inj h]; exact f4
    · intro h
      obtain ⟨F, f1, fr, fc, f2, f3, f4⟩ := continue_spec B sym (by omega)
      rw [f1]
      congr 1
      obtain ⟨k1, k2⟩ := hsym.mp h
      rw [hAr, hAc] at k1 k2
      refine Arr2.ext' (by omega) (by omega) fun n m hn hm => ?_
      have hm' : (m + D.cols / 2) % D.cols < D.cols := Nat.mod_lt _ (by omega)
      by_cases hp : n = 0 ∨ n = B.rows - 1
      · rw [f3 n m hp (by omega), e1 n m (by omega) (by omega)]
        refine (pole_row B sym hs (by omega) n).mpr ?_ m (by omega)
        intro m hm
        rw [hc] at hm ⊢
        exact k2 n m (by omega) hm
      · by_cases hl : n < B.rows
        · rw [f2 n m (by omega) (by omega), e1 n m (by omega) (by omega)]
        · rw [f4 n m (by omega) (by omega) (by omega), h n m (by omega) (by omega), er, ec, hc,
            Nat.mod_eq_of_lt (show D.rows - n < D.rows by omega), e1 _ _ (by omega) hm', hr]
          congr 2; omega

/-- A symmetric double sphere is the one made from its own samples. -/
theorem continue_take [CharZero α] (sym : α) (hs : sym = 1 ∨ sym = -1) (D : Arr2 α) (hD : DSym sym D) (h2 : 2 ≤ D.rows)
    (he : D.rows % 2 = 0) (hce : D.cols % 2 = 0) : continueSphere (D.takeRows (D.rows / 2 + 1)) sym = .ok D := by
  have hr : (D.takeRows (D.rows / 2 + 1)).rows = D.rows / 2 + 1 := by
    show min (D.rows / 2 + 1) D.rows = _; omega
  obtain ⟨E, hE, er, ec, e1, e2⟩ := overwrite_spec D (D.takeRows (D.rows / 2 + 1)) h2 hr rfl
  have hED : E = D := Arr2.ext' er ec fun n m hn hm => by
    rw [er] at hn; rw [ec] at hm
    by_cases h : n < D.rows / 2 + 1
    · rw [e1 n m h hm, takeRows_at D _ h hn hm]
    · exact e2 n m (by omega) hn hm
  subst hED
  have := overwrite_iff sym hs E _ E hD h2 he hce hr rfl hE
  exact this.2.2.mpr (this.2.1.mp hD)

/-- C81, what an in-place edit does (scalar patterns with the double-sphere symmetry): the pattern then shows exactly the edited
samples; it is the pattern one would construct from those samples, and it still has the symmetry the transforms need,
exactly when the edit left every sample off the poles as it was (and kept the pole rows symmetric). -/
theorem c81_scalar_iff [CharZero α] (D B : Arr2 α) (hD : DSym 1 D) (h2 : 2 ≤ D.rows)
    (he : D.rows % 2 = 0) (hce : D.cols % 2 = 0) (hr : B.rows = D.rows / 2 + 1) (hc : B.cols = D.cols) :
    ∃ (A : Arr2 α) (q : SPatt α) (E : Arr2 α), SPatt.array ⟨.arr D⟩ = .ok A ∧ SPatt.assign ⟨.arr D⟩ B = .ok q ∧ q.ds = .arr E ∧
      q.array = .ok B ∧
      (DSym 1 E ↔ EditKeeps 1 A B) ∧ (SPatt.init (.arr B) false = .ok q ↔ EditKeeps 1 A B) := by
  obtain ⟨E, hE, _⟩ := overwrite_spec D B h2 hr hc
  obtain ⟨a, b, c⟩ := overwrite_iff 1 (Or.inl rfl) D B E hD h2 he hce hr hc hE
  refine ⟨_, ⟨.arr E⟩, E, rfl, ?_, rfl, ?_, b, ?_⟩
  · unfold SPatt.assign SPatt.dsphere
    simp only [Except.bind_ok, hE]
  · unfold SPatt.array SPatt.dsphere
    simp only [Except.bind_ok, a]
  · rw [← c]
    change Except.bind (continueSphere B 1) (fun d => (Except.ok ⟨PBuf.arr d⟩ : Res (SPatt α))) = _ ↔ _
    constructor
    · intro h
      cases h' : continueSphere B 1 with
      | error e => rw [h'] at h; simp [Except.bind] at h
      | ok F => rw [h'] at h; simp only [Except.bind_ok, Except.ok.injEq, SPatt.mk.injEq, PBuf.arr.injEq] at h; rw [h]
    · intro h
      simp only [h, Except.bind_ok]

/-- C81, transverse patterns: the same for in-place edits of `theta` and of `phi`. -/
theorem c81_transverse_iff [CharZero α] (p : TPatt α) (B : Arr2 α) (h1 : DSym (-1) p.td) (h1' : DSym (-1) p.pd)
    (hrp : p.pd.rows = p.td.rows) (hcp : p.pd.cols = p.td.cols) (h2 : 2 ≤ p.td.rows)
    (he : p.td.rows % 2 = 0) (hce : p.td.cols % 2 = 0) (hr : B.rows = p.nrows) (hc : B.cols = p.ncols) :
    (∃ q : TPatt α, p.assignTheta B = .ok q ∧ q.theta = B ∧ q.pd = p.pd ∧ (DSym (-1) q.td ↔ EditKeeps (-1) p.theta B) ∧
      (TPatt.init (.arr B) (.arr p.phi) false = .ok q ↔ EditKeeps (-1) p.theta B)) ∧
    (∃ q : TPatt α, p.assignPhi B = .ok q ∧ q.phi = B ∧ q.td = p.td ∧ (DSym (-1) q.pd ↔ EditKeeps (-1) p.phi B) ∧
      (TPatt.init (.arr p.theta) (.arr B) false = .ok q ↔ EditKeeps (-1) p.phi B)) := by
  unfold TPatt.nrows at hr
  unfold TPatt.ncols at hc
  have key : ∀ T P : Arr2 α, ∀ q : TPatt α, TPatt.init (.arr T) (.arr P) false = .ok q →
      continueSphere T (-1) = .ok q.td ∧ continueSphere P (-1) = .ok q.pd := by
    intro T P q h
    unfold TPatt.init at h
    simp only at h
    split at h
    · cases h
    · cases h3 : continueSphere T (-1) with
      | error e => rw [h3] at h; simp [Except.bind] at h
      | ok t =>
        cases h4 : continueSphere P (-1) with
        | error e => rw [h3, h4] at h; simp [Except.bind] at h
        | ok f =>
          rw [h3, h4] at h
          simp only [Except.bind_ok, Except.ok.injEq] at h
          subst h; exact ⟨rfl, rfl⟩
  have key' : ∀ T P : Arr2 α, ∀ q : TPatt α, T.rows = P.rows → T.cols = P.cols → continueSphere T (-1) = .ok q.td →
      continueSphere P (-1) = .ok q.pd → TPatt.init (.arr T) (.arr P) false = .ok q := by
    intro T P q e1 e2 e3 e4
    unfold TPatt.init
    simp only
    rw [if_neg (by simp [e1, e2]), e3, e4]
    rfl
  have hnr : min p.nrows p.td.rows = p.nrows := by unfold TPatt.nrows; omega
  have htr : p.theta.rows = p.nrows := hnr
  have hpr : p.phi.rows = p.nrows := by show min p.nrows p.pd.rows = _; rw [hrp]; exact hnr
  constructor
  · obtain ⟨E, hE, er, ec, _⟩ := overwrite_spec p.td B h2 hr hc
    obtain ⟨a, b, c⟩ := overwrite_iff (-1) (Or.inr rfl) p.td B E h1 h2 he hce hr hc hE
    refine ⟨⟨E, p.pd⟩, ?_, a, rfl, b,
      ⟨fun h => c.mp (key _ _ _ h).1, fun h => key' _ _ ⟨E, p.pd⟩ (hr.trans hpr.symm) (hc.trans hcp.symm) (c.mpr h) ?_⟩⟩
    rotate_left
    · have := continue_take (-1) (Or.inr rfl) p.pd h1' (by omega) (by omega) (by omega)
      rw [hrp] at this; exact this
    unfold TPatt.assignTheta TPatt.nrows
    simp only [hE, Except.bind_ok]
  · rw [← hrp] at h2 he hr
    rw [← hcp] at hce hc
    obtain ⟨E, hE, er, ec, _⟩ := overwrite_spec p.pd B h2 hr hc
    obtain ⟨a, b, c⟩ := overwrite_iff (-1) (Or.inr rfl) p.pd B E h1' h2 he hce hr hc hE
    have hn : p.nrows = p.pd.rows / 2 + 1 := by unfold TPatt.nrows; rw [hrp]
    refine ⟨⟨p.td, E⟩, ?_, ?_, rfl, ?_, ?_⟩
    · unfold TPatt.assignPhi
      simp only [hn, hE, Except.bind_ok]
    · show E.takeRows (p.td.rows / 2 + 1) = B
      rw [← hrp, ← er]; exact a
    · unfold TPatt.phi; rw [hn]; exact b
    constructor
    · intro h
      unfold TPatt.phi; rw [hn]; exact c.mp (key _ _ _ h).2
    · intro h
      unfold TPatt.phi at h
      rw [hn] at h
      refine key' _ _ ⟨p.td, E⟩ (htr.trans (hn.trans hr.symm)) (hcp.symm.trans hc.symm) ?_ (c.mpr h)
      exact continue_take (-1) (Or.inr rfl) p.td h1 (by omega) (by omega) (by omega)

/-- C81, one element: `p.cdata[i, j] = x` changes that sample and nothing else; an index out of range raises
IndexError.  The result has the double-sphere symmetry only if nothing was changed. -/
theorem c81_poke [CharZero α] (D : Arr2 α) (hD : DSym 1 D) (h2 : 2 ≤ D.rows)
    (he : D.rows % 2 = 0) (hce : D.cols % 2 = 0) (i j : Int) (x : α) :
    ((-(D.rows / 2 + 1 : Int) ≤ i ∧ i < (D.rows / 2 + 1 : Int) ∧ -(D.cols : Int) ≤ j ∧ j < D.cols) →
      ∃ (A B E : Arr2 α) (i' j' : Nat), (i' : Int) = (if i < 0 then i + (D.rows / 2 + 1) else i) ∧
        (j' : Int) = (if j < 0 then j + D.cols else j) ∧
        SPatt.array ⟨.arr D⟩ = .ok A ∧ SPatt.poke ⟨.arr D⟩ i j x = .ok ⟨.arr E⟩ ∧ SPatt.array ⟨.arr E⟩ = .ok B ∧
        B.rows = A.rows ∧ B.cols = A.cols ∧ i' < A.rows ∧ j' < A.cols ∧
        (∀ n m, n < A.rows → m < A.cols → B.at' n m = if n = i' ∧ m = j' then x else A.at' n m) ∧
        (DSym 1 E ↔ x = A.at' i' j')) ∧
    (¬ (-(D.rows / 2 + 1 : Int) ≤ i ∧ i < (D.rows / 2 + 1 : Int) ∧ -(D.cols : Int) ≤ j ∧ j < D.cols) →
      (SPatt.poke ⟨.arr D⟩ i j x).Raises .indexError) := by
  have hm : min (D.rows / 2 + 1) D.rows = D.rows / 2 + 1 := by omega
  constructor
  · intro h
    set E : Arr2 α := ⟨D.rows, D.cols, fun r c => if r.val = Arr2.wrap (D.rows / 2 + 1) i ∧ c.val = Arr2.wrap D.cols j then x
      else D.get r c⟩ with hE
    have hi' : Arr2.wrap (D.rows / 2 + 1) i < D.rows / 2 + 1 := by unfold Arr2.wrap; split <;> omega
    have hj' : Arr2.wrap D.cols j < D.cols := by unfold Arr2.wrap; split <;> omega
    have hEat : ∀ n m, n < D.rows → m < D.cols → E.at' n m =
        if n = Arr2.wrap (D.rows / 2 + 1) i ∧ m = Arr2.wrap D.cols j then x else D.at' n m := by
      intro n m hn hm
      rw [Arr2.at'_of_lt E hn hm, Arr2.at'_of_lt D hn hm]
    refine ⟨_, _, E, Arr2.wrap (D.rows / 2 + 1) i, Arr2.wrap D.cols j, ?_, ?_, rfl, ?_, rfl, rfl, rfl, ?_, hj', ?_, ?_⟩
    · unfold Arr2.wrap; split <;> omega
    · unfold Arr2.wrap; split <;> omega
    · unfold SPatt.poke SPatt.dsphere Arr2.pokeRows
      simp only [Except.bind_ok, hm]
      rw [if_pos (by push_cast; omega)]
      rfl
    · show _ < min (D.rows / 2 + 1) D.rows; omega
    · intro n m hn hm'
      have hn : n < min (D.rows / 2 + 1) D.rows := hn
      have hm' : m < D.cols := hm'
      rw [takeRows_at D _ (by omega) (by omega) hm']
      have : (E.takeRows (E.rows / 2 + 1)).at' n m = E.at' n m :=
        takeRows_at E _ (show n < D.rows / 2 + 1 by omega) (show n < D.rows by omega) hm'
      rw [this, hEat n m (by omega) hm']
    · rw [takeRows_at D _ (by omega) (by omega) hj']
      generalize Arr2.wrap (D.rows / 2 + 1) i = i' at *
      generalize Arr2.wrap D.cols j = j' at *
      have hmm : (j' + D.cols / 2) % D.cols < D.cols := Nat.mod_lt _ (by omega)
      have hne : (j' + D.cols / 2) % D.cols ≠ j' := by
        intro e
        by_cases hh : j' + D.cols / 2 < D.cols
        · rw [Nat.mod_eq_of_lt hh] at e; omega
        · rw [Nat.mod_eq_sub_mod (by omega), Nat.mod_eq_of_lt (by omega)] at e; omega
      constructor
      · intro hs
        have := hs i' j' (show i' < D.rows by omega) hj'
        rw [hEat i' j' (by omega) hj', if_pos ⟨rfl, rfl⟩] at this
        rw [this, hD i' j' (by omega) hj']
        congr 1
        show E.at' ((D.rows - i') % D.rows) ((j' + D.cols / 2) % D.cols) = _
        rw [hEat _ _ (Nat.mod_lt _ (by omega)) hmm, if_neg (fun h => hne h.2)]
      · intro hx
        have : E = D := Arr2.ext' rfl rfl fun n m hn hm => by
          rw [hEat n m hn hm]
          split
          · rename_i e; rw [e.1, e.2, hx]
          · rfl
        rw [this]; exact hD
  · intro h
    unfold SPatt.poke SPatt.dsphere Arr2.pokeRows
    simp only [Except.bind_ok, hm]
    rw [if_neg (by push_cast; omega)]
    exact ⟨_, rfl⟩

end

/-- C81 fails: on a pattern built from a 3 x 4 array, `p.cdata[1, 2] = 100` gives a pattern that shows the new sample but is not
symmetric and is not the pattern built from the samples it shows. -/
theorem c81_counterexample : ∃ (p q r : SPatt ℚ) (D B : Arr2 ℚ), SPatt.init (.arr (Arr2.ofFn 3 4 fun i _ => (i : ℚ))) false = .ok p ∧
    p.poke 1 2 100 = .ok q ∧ q.ds = .arr D ∧ q.array = .ok B ∧ B.at' 1 2 = 100 ∧ ¬ DSym 1 D ∧
    SPatt.init (.arr B) false = .ok r ∧ r ≠ q := by
  refine ⟨_, _, _, _, _, rfl, rfl, rfl, rfl, ?_, ?_, rfl, ?_⟩
  · decide +kernel
  · intro h
    have := h 1 2 (by decide +kernel) (by decide +kernel)
    revert this
    decide +kernel
  · intro h
    have h' := congrArg (fun p : SPatt ℚ => match p.ds with | .arr A => A.at' 3 0 | .exc => 0) h
    revert h'
    decide +kernel

/-- A concrete pattern and a concrete edit meeting the hypotheses of `c81_scalar_iff`, in which the edit is kept. -/
example : ∃ D B : Arr2 ℚ, continueSphere (Arr2.ofFn 3 4 fun i j => if i = 1 then (i + j : ℚ) else 0) 1 = .ok D ∧ DSym 1 D ∧ 2 ≤ D.rows ∧
    D.rows % 2 = 0 ∧ D.cols % 2 = 0 ∧ B.rows = D.rows / 2 + 1 ∧ B.cols = D.cols ∧
    EditKeeps 1 (D.takeRows (D.rows / 2 + 1)) B ∧ B.at' 0 0 ≠ D.at' 0 0 := by
  obtain ⟨D, h1, h2, h3, h4⟩ := c21_stored_symmetric (Arr2.ofFn 3 4 fun i j => if i = 1 then (i + j : ℚ) else 0) 1 (Or.inl rfl)
    (by decide) (by decide)
  refine ⟨D, Arr2.ofFn 3 4 fun i j => if i = 1 then (i + j : ℚ) else 5, h1, h4, ?_, ?_, ?_, ?_, ?_, ?_, ?_⟩
  · rw [h2]; decide
  · rw [h2]; decide
  · rw [h3]; decide
  · rw [h2]; decide
  · rw [h3]; rfl
  · cases h1
    constructor
    · intro n m a b c
      obtain rfl : n = 1 := by change n < 3 - 1 at b; omega
      change m < 4 at c
      have : m = 0 ∨ m = 1 ∨ m = 2 ∨ m = 3 := by omega
      rcases this with rfl | rfl | rfl | rfl <;> decide +kernel
    · intro n m a c
      change n = 0 ∨ n = 3 - 1 at a
      change m < 4 at c
      have : m = 0 ∨ m = 1 ∨ m = 2 ∨ m = 3 := by omega
      rcases a with rfl | rfl <;> rcases this with rfl | rfl | rfl | rfl <;> decide +kernel
  · cases h1; decide +kernel

end Verif.Props
