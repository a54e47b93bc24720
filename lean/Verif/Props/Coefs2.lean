import Verif.CoefsLemmas3
import Verif.Props.Coefs1
import Mathlib.Tactic.NormNum
import Mathlib.Tactic.Positivity
import Mathlib.Algebra.Order.BigOperators.Group.List
import Mathlib.Data.Rat.Defs
/-!
# Properties C04, C09 - C15, C17 - C19: construction, arithmetic, spectra, vector sets, norms, printing
-/
namespace Verif.Props
variable {α : Type}
set_option linter.unusedSectionVars false

/-! ## C04 -/

theorem ncFormula_neg_of_mmax_neg {nmax mmax : Int} (h0 : 0 ≤ nmax) (h1 : mmax < 0) :
    ncFormula nmax mmax < 0 := by
  unfold ncFormula
  obtain ⟨k, rfl⟩ : ∃ k : Int, mmax = -1 - k := ⟨-1 - mmax, by ring⟩
  have hk : 0 ≤ k := by omega
  have : nmax + 1 + (-1 - k) * (2 * (nmax + 1) - (-1 - k) - 1)
      = -(nmax + 1) - 2 * k * (nmax + 1) - k * (k + 1) := by ring
  simp only [this]
  have a : 0 ≤ 2 * k * (nmax + 1) := by positivity
  have b : 0 ≤ k * (k + 1) := by positivity
  omega

/-- **C04 (partial: `nmax ≥ 0`).** The constructor succeeds iff `0 ≤ mmax ≤ nmax` and the vector has one
entry per mode, and raises ValueError otherwise.  Missing: `nmax < 0`, where the claim is false
(`c04_counterexample`). -/
theorem c04_constructor_partial (vec : List α) (nmax mmax : Int) (h : 0 ≤ nmax) :
    ((0 ≤ mmax ∧ mmax ≤ nmax ∧ vec.length = (modes nmax mmax).card) →
      ScalarCoefs.init (.arr vec) nmax mmax = .ok ⟨vec, nmax, mmax⟩) ∧
    (¬ (0 ≤ mmax ∧ mmax ≤ nmax ∧ vec.length = (modes nmax mmax).card) →
      Res.Raises (ScalarCoefs.init (.arr vec) nmax mmax) .valueError) := by
  constructor
  · rintro ⟨h0, h1, h2⟩
    exact ScalarCoefs.init_wf h0 h1 (by rw [← modes_card' h0 h1, h2])
  · intro hn
    unfold ScalarCoefs.init
    by_cases h1 : mmax > nmax
    · rw [if_pos h1]; exact ⟨_, rfl⟩
    · rw [if_neg h1]
      simp only
      rw [if_pos]
      · exact ⟨_, rfl⟩
      · intro e
        by_cases h0 : 0 ≤ mmax
        · apply hn
          refine ⟨h0, by omega, ?_⟩
          rw [← modes_card' h0 (by omega)] at e
          exact_mod_cast e.symm
        · have := ncFormula_neg_of_mmax_neg h (by omega : mmax < 0)
          omega

/-- **C04 fails for negative limits**: the constructor accepts `nmax = mmax = -2` with one value, and
`nmax = mmax = -1` with none. -/
theorem c04_counterexample :
    ScalarCoefs.init (.arr [(5 : Int)]) (-2) (-2) = .ok ⟨[5], -2, -2⟩ ∧
    ScalarCoefs.init (.arr ([] : List Int)) (-1) (-1) = .ok ⟨[], -1, -1⟩ := by decide

/-- **C04 (factories).** `zeros_coefs`/`ones_coefs` with `0 ≤ mmax ≤ nmax` return a well-formed set of the
requested limits with the constant at every mode; `mmax > nmax` raises ValueError and an unknown
type TypeError. -/
theorem c04_factory_scalar [Zero α] (x : α) (nmax mmax : Int) (h0 : 0 ≤ mmax) (h1 : mmax ≤ nmax) :
    ∃ c, coefFactory x nmax mmax 0 = .ok (.inl c) ∧ c.WellFormed ∧ c.nmax = nmax ∧ c.mmax = mmax ∧
      ∀ n m, IsMode nmax mmax n m → readMap c n m = some x := by
  have hl : lFormula nmax mmax = (modes nmax mmax).card := by rw [lFormula_eq, modes_card' h0 h1]
  have hi : ScalarCoefs.init (.arr (List.replicate (modes nmax mmax).card x)) nmax mmax
      = .ok ⟨List.replicate (modes nmax mmax).card x, nmax, mmax⟩ :=
    ScalarCoefs.init_wf h0 h1 (by rw [List.length_replicate, modes_card' h0 h1])
  have hw : (ScalarCoefs.mk (List.replicate (modes nmax mmax).card x) nmax mmax).WellFormed :=
    ⟨h0, h1, by simp⟩
  refine ⟨⟨List.replicate (modes nmax mmax).card x, nmax, mmax⟩, ?_, hw, rfl, rfl, ?_⟩
  · unfold coefFactory fullCoefs
    rw [if_neg (by omega), if_pos rfl, if_neg (by omega), hl, ScalarCoefs.npFull_of_nonneg (by omega)]
    simp only [Except.bind_ok, Int.toNat_natCast, hi]
  · intro n m hm
    rw [readMap_eq hw.wf, ScalarCoefs.absMap_mode hw.wf hm]
    simp

theorem c04_factory_reject [Zero α] (x : α) (nmax mmax t : Int) :
    (mmax > nmax → Res.Raises (coefFactory x nmax mmax t) .valueError) ∧
    (mmax ≤ nmax → t ≠ 0 → t ≠ 1 → Res.Raises (coefFactory x nmax mmax t) .typeError) := by
  unfold coefFactory
  constructor
  · intro h; rw [if_pos h]; exact ⟨_, rfl⟩
  · intro h h0 h1; rw [if_neg (by omega), if_neg h0, if_neg h1]; exact ⟨_, rfl⟩

example : (0 : Int) ≤ 2 ∧ ([1, 2, 3, 4, 5, 6, 7] : List Int).length = (modes 2 1).card := by decide
example : ∃ c, coefFactory (1 : Int) 3 2 0 = .ok (.inl c) := by exact ⟨⟨_, _, _⟩, rfl⟩

/-! ## C09 -/

section Arith
variable [Add α] [Sub α] [Mul α] [Div α] [Zero α] [DecidableEq α]

theorem init_map_wf {β : Type} {a : ScalarCoefs α} (ha : a.WF) (f : α → β) :
    ScalarCoefs.init (.arr (a.vec.map f)) a.nmax a.mmax = .ok ⟨a.vec.map f, a.nmax, a.mmax⟩ :=
  ScalarCoefs.init_wf ha.m0 ha.mn (by rw [← ha.len]; simp)

theorem absMap_map {β : Type} {a : ScalarCoefs α} (f : α → β) (n m : Int) :
    (ScalarCoefs.mk (a.vec.map f) a.nmax a.mmax).absMap n m = (a.absMap n m).map f := by
  unfold ScalarCoefs.absMap
  simp only
  split
  · rw [List.getElem?_map]
  · rfl

theorem map_wf {β : Type} {a : ScalarCoefs α} (ha : a.WF) (f : α → β) :
    (ScalarCoefs.mk (a.vec.map f) a.nmax a.mmax).WF := ⟨ha.m0, ha.mn, by simpa using ha.len⟩

/-- **C09 (two coefficient sets).** For equal limits `a op b` is mode-wise, with the same limits. -/
theorem c09_arith_sets (op : Op) (a b : ScalarCoefs α) (ha : a.WellFormed) (hb : b.WellFormed)
    (hn : a.nmax = b.nmax) (hm : a.mmax = b.mmax) :
    ∃ r, a.opLeft op (.obj b) = .ok r ∧ r.WellFormed ∧ r.nmax = a.nmax ∧ r.mmax = a.mmax ∧
      ∀ n m x y, readMap a n m = some x → readMap b n m = some y → readMap r n m = some (specOp op x y) := by
  simp only [← eval_specOp]
  have hl : a.vec.length = b.vec.length := by rw [ha.length_eq, hb.length_eq, hn, hm]
  have hw : (ScalarCoefs.mk (List.zipWith op.eval a.vec b.vec) a.nmax a.mmax).WF :=
    ⟨ha.1, ha.2, by rw [← ha.wf.len]; simp [hl]⟩
  refine ⟨⟨List.zipWith op.eval a.vec b.vec, a.nmax, a.mmax⟩, ?_, ScalarCoefs.wf_iff.mp hw, rfl, rfl, ?_⟩
  · unfold ScalarCoefs.opLeft
    simp only
    rw [if_pos hl, ScalarCoefs.init_wf ha.1 ha.2 hw.len.symm]
  · intro n m x y hx hy
    rw [readMap_eq ha.wf] at hx
    rw [readMap_eq hb.wf] at hy
    rw [readMap_eq hw]
    unfold ScalarCoefs.absMap at *
    rw [hn, hm] at *
    split at hx
    · rename_i hmode
      rw [if_pos hmode] at hy
      simp only
      rw [if_pos hmode, List.getElem?_zipWith, hx, hy]
    · cases hx

/-- **C09 (number on the right).** `c op x` is mode-wise for every number `x` (nonzero for division). -/
theorem c09_arith_number (op : Op) (a : ScalarCoefs α) (ha : a.WellFormed) (x : α)
    (hx : op = .div → x ≠ 0) :
    ∃ r, a.opLeft op (.num x) = .ok r ∧ r.WellFormed ∧ r.nmax = a.nmax ∧ r.mmax = a.mmax ∧
      ∀ n m, readMap r n m = (readMap a n m).map (fun v => specOp op v x) := by
  simp only [← eval_specOp]
  have hw := map_wf ha.wf (fun v => op.eval v x)
  refine ⟨⟨a.vec.map (fun v => op.eval v x), a.nmax, a.mmax⟩, ?_, ScalarCoefs.wf_iff.mp hw, rfl, rfl, ?_⟩
  · unfold ScalarCoefs.opLeft opNum
    simp only
    rw [if_neg (fun h => hx h.1 h.2), init_map_wf ha.wf]
  · intro n m
    rw [readMap_eq hw, absMap_map, readMap_eq ha.wf]

/-- **C09 (number on the left).** `x op c` is mode-wise. -/
theorem c09_arith_number_left (op : Op) (a : ScalarCoefs α) (ha : a.WellFormed) (x : α) :
    ∃ r, a.opRight op (.num x) = .ok r ∧ r.WellFormed ∧ r.nmax = a.nmax ∧ r.mmax = a.mmax ∧
      ∀ n m, readMap r n m = (readMap a n m).map (fun v => specOp op x v) := by
  simp only [← eval_specOp]
  have hw := map_wf ha.wf (fun v => op.eval x v)
  refine ⟨⟨a.vec.map (fun v => op.eval x v), a.nmax, a.mmax⟩, ?_, ScalarCoefs.wf_iff.mp hw, rfl, rfl, ?_⟩
  · unfold ScalarCoefs.opRight opNumR
    simp only
    rw [init_map_wf ha.wf]
  · intro n m
    rw [readMap_eq hw, absMap_map, readMap_eq ha.wf]

/-- Operands of any other kind raise TypeError. -/
theorem c09_other (op : Op) (a : ScalarCoefs α) :
    Res.Raises (a.opLeft op .other) .typeError ∧ Res.Raises (a.opRight op .other) .typeError :=
  ⟨⟨_, rfl⟩, ⟨_, rfl⟩⟩

/-! ## C10 -/

/-- **C10 (partial).** Sets of different size are rejected with ValueError; so in particular sets that
differ in exactly one of `nmax`, `mmax`.  Missing: different shapes of equal size, where the claim is
false (`c10_counterexample`). -/
theorem c10_mismatch_partial (op : Op) (a b : ScalarCoefs α) (ha : a.WellFormed) (hb : b.WellFormed)
    (h : (modes a.nmax a.mmax).card ≠ (modes b.nmax b.mmax).card ∨
      (a.nmax = b.nmax ∧ a.mmax ≠ b.mmax) ∨ (a.nmax ≠ b.nmax ∧ a.mmax = b.mmax)) :
    Res.Raises (a.opLeft op (.obj b)) .valueError := by
  have key : a.vec.length ≠ b.vec.length := by
    intro hl
    have hlz : ncFormula a.nmax a.mmax = ncFormula b.nmax b.mmax := by
      rw [← ha.wf.len, ← hb.wf.len, hl]
    have h1 := ha.1; have h2 := ha.2; have h3 := hb.1; have h4 := hb.2
    rcases h with h | ⟨e, h⟩ | ⟨h, e⟩
    · rw [ha.length_eq, hb.length_eq] at hl; exact h hl
    · unfold ncFormula at hlz
      rw [e] at hlz h2
      have : (a.mmax - b.mmax) * (2 * (b.nmax + 1) - 1 - a.mmax - b.mmax) = 0 := by linarith
      rcases Int.mul_eq_zero.mp this with g | g <;> omega
    · unfold ncFormula at hlz
      rw [e] at hlz
      have : (a.nmax - b.nmax) * (1 + 2 * b.mmax) = 0 := by linarith
      rcases Int.mul_eq_zero.mp this with g | g <;> omega
  unfold ScalarCoefs.opLeft
  simp only
  rw [if_neg key]
  exact ⟨_, rfl⟩

end Arith

/-- **C10 fails**: shapes (3,0) and (1,1) both have 4 modes, so `a + b` silently combines unrelated
modes and returns a set of shape (3,0). -/
theorem c10_counterexample : ∃ a b : ScalarCoefs Int, a.WellFormed ∧ b.WellFormed ∧
    (a.nmax, a.mmax) ≠ (b.nmax, b.mmax) ∧
    a.opLeft .add (.obj b) = .ok ⟨[11, 22, 33, 44], 3, 0⟩ :=
  ⟨⟨[1, 2, 3, 4], 3, 0⟩, ⟨[10, 20, 30, 40], 1, 1⟩, ⟨by decide, by decide, by decide⟩,
    ⟨by decide, by decide, by decide⟩, by decide, by decide⟩

/-- A second sample with the shape of `sample`. -/
def sample' : ScalarCoefs Int := ⟨[1, 2, 3, 4, 5, 6, 7], 2, 1⟩
example : sample'.WellFormed ∧ sample.nmax = sample'.nmax ∧ sample.mmax = sample'.mmax :=
  ⟨⟨by decide, by decide, by decide⟩, by decide, by decide⟩
example : (modes sample.nmax sample.mmax).card ≠ (modes 3 3).card := by decide

/-! ## C11, C15: vector sets -/

section Vec
variable [Add α] [Sub α] [Mul α] [Div α] [Zero α] [DecidableEq α]

/-- Successful construction: limits are equal, heads are zero, lengths match. -/
theorem vinit_ok {v1 v2 : List α} {nmax mmax : Int} {c : VectorCoefs α}
    (h : VectorCoefs.init (.arr v1) (.arr v2) nmax mmax = .ok c) :
    v1.length = v2.length ∧ mmax ≤ nmax ∧ ncFormula nmax mmax = v1.length ∧ v1 ≠ [] ∧
    c = ⟨⟨v1.set 0 0, nmax, mmax⟩, ⟨v2.set 0 0, nmax, mmax⟩, nmax, mmax⟩ := by
  unfold VectorCoefs.init at h
  simp only at h
  by_cases h1 : v1.length ≠ v2.length
  · rw [if_pos h1] at h; cases h
  rw [if_neg h1] at h
  by_cases h2 : mmax > nmax
  · rw [if_pos h2] at h; cases h
  rw [if_neg h2] at h
  by_cases h3 : ncFormula nmax mmax ≠ v1.length
  · rw [if_pos h3] at h; cases h
  rw [if_neg h3] at h
  have h1' : v1.length = v2.length := by omega
  have h3' : ncFormula nmax mmax = v1.length := by omega
  have hne : 0 < v1.length := by
    by_contra hz
    have e : setIdx v1 0 (0 : α) = .error ⟨.indexError, "index"⟩ := by
      have hv : v1 = [] := List.length_eq_zero_iff.mp (by omega)
      subst hv; rfl
    rw [e] at h; cases h
  rw [setIdx_of_lt (by omega) (by omega), setIdx_of_lt (by omega) (by omega)] at h
  simp only [Except.bind_ok, Int.toNat_zero] at h
  have i1 : ScalarCoefs.init (.arr (v1.set 0 (0 : α))) nmax mmax = .ok ⟨v1.set 0 0, nmax, mmax⟩ := by
    unfold ScalarCoefs.init; rw [if_neg (by omega)]; simp [h3']
  have i2 : ScalarCoefs.init (.arr (v2.set 0 (0 : α))) nmax mmax = .ok ⟨v2.set 0 0, nmax, mmax⟩ := by
    unfold ScalarCoefs.init; rw [if_neg (by omega)]; simp [h3', h1']
  rw [i1, i2] at h
  simp only [Except.bind_ok, Except.ok.injEq] at h
  exact ⟨h1', by omega, h3', by intro e; simp [e] at hne, h.symm⟩

theorem vinit_exc_left {v : Buf α} {nmax mmax : Int} :
    VectorCoefs.init .exc v nmax mmax = .error ⟨.attributeError, "no attribute 'shape'"⟩ := by
  unfold VectorCoefs.init; cases v <;> rfl

theorem vinit_wf {v1 v2 : List α} {nmax mmax : Int} (h0 : 0 ≤ mmax) (h1 : mmax ≤ nmax)
    (l1 : ncFormula nmax mmax = v1.length) (l2 : ncFormula nmax mmax = v2.length) :
    VectorCoefs.init (.arr v1) (.arr v2) nmax mmax =
      .ok ⟨⟨v1.set 0 0, nmax, mmax⟩, ⟨v2.set 0 0, nmax, mmax⟩, nmax, mmax⟩ := by
  have hpos : 0 < v1.length := by
    have h3 : IsMode nmax mmax 0 0 := by rw [isMode_iff]; omega
    have := slot_lt h3
    rw [ncFormula_eq h0 h1] at l1
    omega
  unfold VectorCoefs.init
  simp only
  rw [if_neg (by omega), if_neg (by omega), if_neg (by omega), setIdx_of_lt (by omega) (by omega),
    setIdx_of_lt (by omega) (by omega)]
  simp only [Except.bind_ok, Int.toNat_zero]
  rw [ScalarCoefs.init_wf h0 h1 (by simpa using l1), ScalarCoefs.init_wf h0 h1 (by simpa using l2)]
  rfl

/-- The value `vc[n, m]`, a pair, as a partial function of the mode. -/
def readMapV (c : VectorCoefs α) (n m : Int) : Option (α × α) :=
  match c.getitem [.int n, .int m] with
  | .ok (.nums a b) => some (a, b)
  | _ => none

theorem readMapV_eq {c : VectorCoefs α} (h : c.WellFormed) (n m : Int) :
    readMapV c n m = if n = 0 then none else
      (c.scoef1.absMap n m).bind fun a => (c.scoef2.absMap n m).map fun b => (a, b) := by
  unfold readMapV VectorCoefs.getitem
  simp only
  by_cases hn : n = 0
  · rw [if_pos hn, if_pos hn]
  · rw [if_neg hn, if_neg hn]
    by_cases hm : IsMode c.nmax c.mmax n m
    · have hm1 : IsMode c.scoef1.nmax c.scoef1.mmax n m := by rw [h.n1, h.m1]; exact hm
      have hm2 : IsMode c.scoef2.nmax c.scoef2.mmax n m := by rw [h.n2, h.m2]; exact hm
      rw [ScalarCoefs.getNM_eq h.wf1.wf hm1, ScalarCoefs.getNM_eq h.wf2.wf hm2,
        ScalarCoefs.absMap_mode h.wf1.wf hm1, ScalarCoefs.absMap_mode h.wf2.wf hm2]
      rfl
    · have hm1 : ¬ IsMode c.scoef1.nmax c.scoef1.mmax n m := by rw [h.n1, h.m1]; exact hm
      obtain ⟨k, hk⟩ := ScalarCoefs.getNM_error hm1
      rw [hk]
      unfold ScalarCoefs.absMap
      rw [if_neg hm1]
      rfl

theorem vwf_of_lists {v1 v2 : List α} {nmax mmax : Int} (h0 : 0 ≤ mmax) (h1 : mmax ≤ nmax)
    (l1 : ncFormula nmax mmax = v1.length) (l2 : ncFormula nmax mmax = v2.length) :
    (VectorCoefs.mk (⟨v1, nmax, mmax⟩ : ScalarCoefs α) ⟨v2, nmax, mmax⟩ nmax mmax).WellFormed :=
  ⟨ScalarCoefs.wf_iff.mp ⟨h0, h1, l1.symm⟩, ScalarCoefs.wf_iff.mp ⟨h0, h1, l2.symm⟩, rfl, rfl, rfl, rfl⟩

theorem slot_ne_zero {nmax n m : Int} (hn : 0 < n) (hm : (m.natAbs : Int) ≤ n) (hN : n ≤ nmax) :
    slot nmax n m ≠ 0 := by
  intro h
  have h1 : IsMode nmax nmax n m := by rw [isMode_iff]; omega
  have h2 : IsMode nmax nmax 0 0 := by rw [isMode_iff]; omega
  have h3 : slot nmax 0 0 = 0 := by simp [slot, ord, seg]
  have := slot_inj h1 h2 (by rw [h, h3])
  omega

/-- **C11 (equal shapes).** `a op b` on vector sets with equal limits is mode-wise on both components. -/
theorem c11_arith_modewise (op : Op) (a b : VectorCoefs α) (ha : a.WellFormed) (hb : b.WellFormed)
    (hn : a.nmax = b.nmax) (hm : a.mmax = b.mmax) :
    ∃ r, a.opLeft op (.obj b) = .ok r ∧ r.WellFormed ∧ r.nmax = a.nmax ∧ r.mmax = a.mmax ∧
      ∀ n m x1 x2 y1 y2, readMapV a n m = some (x1, x2) → readMapV b n m = some (y1, y2) →
        readMapV r n m = some (specOp op x1 y1, specOp op x2 y2) := by
  simp only [← eval_specOp]
  have h0 : 0 ≤ a.mmax := by rw [← ha.m1]; exact ha.wf1.1
  have h1 : a.mmax ≤ a.nmax := by rw [← ha.m1, ← ha.n1]; exact ha.wf1.2
  have la1 := ha.wf1.wf.len; have la2 := ha.wf2.wf.len
  have lb1 := hb.wf1.wf.len; have lb2 := hb.wf2.wf.len
  rw [ha.n1, ha.m1] at la1; rw [ha.n2, ha.m2] at la2
  rw [hb.n1, hb.m1, ← hn, ← hm] at lb1; rw [hb.n2, hb.m2, ← hn, ← hm] at lb2
  have e1 : a.scoef1.vec.length = b.scoef1.vec.length := by omega
  have e2 : a.scoef2.vec.length = b.scoef2.vec.length := by omega
  have k1 : ncFormula a.nmax a.mmax = (List.zipWith op.eval a.scoef1.vec b.scoef1.vec).length := by
    simp [e1]; omega
  have k2 : ncFormula a.nmax a.mmax = (List.zipWith op.eval a.scoef2.vec b.scoef2.vec).length := by
    simp [e2]; omega
  have hr := vwf_of_lists (α := α) (v1 := (List.zipWith op.eval a.scoef1.vec b.scoef1.vec).set 0 0)
    (v2 := (List.zipWith op.eval a.scoef2.vec b.scoef2.vec).set 0 0) h0 h1 (by simpa using k1) (by simpa using k2)
  refine ⟨_, ?_, hr, rfl, rfl, ?_⟩
  · unfold VectorCoefs.opLeft
    simp only [if_true]
    rw [ScalarCoefs.bcast_eq _ e1, ScalarCoefs.bcast_eq _ e2]
    simp only [Except.bind_ok]
    rw [vinit_wf h0 h1 k1 k2]
  · intro n m x1 x2 y1 y2 hx hy
    rw [readMapV_eq ha] at hx
    rw [readMapV_eq hb] at hy
    rw [readMapV_eq hr]
    by_cases hz : n = 0
    · rw [if_pos hz] at hx; cases hx
    rw [if_neg hz] at hx hy ⊢
    unfold ScalarCoefs.absMap at *
    simp only at *
    rw [ha.n1, ha.m1, ha.n2, ha.m2] at hx
    rw [hb.n1, hb.m1, hb.n2, hb.m2, ← hn, ← hm] at hy
    by_cases hmode : IsMode a.nmax a.mmax n m
    · rw [if_pos hmode, if_pos hmode] at hx hy ⊢
      have hmode' := isMode_iff.mp hmode
      have hs := slot_ne_zero (nmax := a.nmax) (n := n) (m := m) (by omega) (by omega) (by omega)
      obtain ⟨p1, hp1, hp2⟩ := Option.bind_eq_some_iff.mp hx
      obtain ⟨p2, hp3, hp4⟩ := Option.map_eq_some_iff.mp hp2
      obtain ⟨q1, hq1, hq2⟩ := Option.bind_eq_some_iff.mp hy
      obtain ⟨q2, hq3, hq4⟩ := Option.map_eq_some_iff.mp hq2
      cases hp4; cases hq4
      rw [List.getElem?_set_ne (Ne.symm hs), List.getElem?_set_ne (Ne.symm hs), List.getElem?_zipWith,
        List.getElem?_zipWith, hp1, hp3, hq1, hq3]
      rfl
    · rw [if_neg hmode] at hx; cases hx

/-- **C11 (rejection, partial).** Sets of different size are rejected with ValueError unless the right
operand has the single-mode shape (0,0).  Missing: right operand (0,0), and different shapes of equal
size; both are accepted by the code (`c11_counterexample`). -/
theorem c11_mismatch_partial (op : Op) (a b : VectorCoefs α) (ha : a.WellFormed) (hb : b.WellFormed)
    (h : (modes a.nmax a.mmax).card ≠ (modes b.nmax b.mmax).card)
    (h1 : (modes b.nmax b.mmax).card ≠ 1) :
    Res.Raises (a.opLeft op (.obj b)) .valueError := by
  have la1 := ha.wf1.length_eq; have la2 := ha.wf2.length_eq
  have lb1 := hb.wf1.length_eq; have lb2 := hb.wf2.length_eq
  have wa := ha.wf1.wf
  rw [ha.n1, ha.m1] at la1; rw [ha.n2, ha.m2] at la2
  rw [hb.n1, hb.m1] at lb1; rw [hb.n2, hb.m2] at lb2
  have h0' : 0 ≤ a.mmax := by rw [← ha.m1]; exact ha.wf1.1
  have h1' : a.mmax ≤ a.nmax := by rw [← ha.m1, ← ha.n1]; exact ha.wf1.2
  have hnc := modes_card' h0' h1'
  unfold VectorCoefs.opLeft
  simp only [if_true]
  by_cases hone : a.scoef1.vec.length = 1
  · -- left operand has one entry: broadcasting succeeds, the constructor rejects the length
    obtain ⟨x1, hx1⟩ := List.length_eq_one_iff.mp hone
    obtain ⟨x2, hx2⟩ := List.length_eq_one_iff.mp (show a.scoef2.vec.length = 1 by omega)
    have b1 : bcast op.eval a.scoef1.vec b.scoef1.vec = .ok (b.scoef1.vec.map (op.eval x1)) := by
      unfold bcast; rw [if_neg (by omega), hx1]
    have b2 : bcast op.eval a.scoef2.vec b.scoef2.vec = .ok (b.scoef2.vec.map (op.eval x2)) := by
      unfold bcast; rw [if_neg (by omega), hx2]
    rw [b1, b2]
    simp only [Except.bind_ok]
    unfold VectorCoefs.init
    simp only [List.length_map]
    rw [if_neg (by omega), if_neg (by omega), if_pos (by omega)]
    exact ⟨_, rfl⟩
  · have b1 : bcast op.eval a.scoef1.vec b.scoef1.vec = .error ⟨.valueError, "broadcast"⟩ := by
      have hbl : b.scoef1.vec.length ≠ 1 := by omega
      have hab : a.scoef1.vec.length ≠ b.scoef1.vec.length := by omega
      revert hone hbl hab
      generalize a.scoef1.vec = l1
      generalize b.scoef1.vec = l2
      intro hone hbl hab
      unfold bcast
      rw [if_neg hab]
      rcases l1 with _ | ⟨x, _ | ⟨x', l1⟩⟩ <;> rcases l2 with _ | ⟨y, _ | ⟨y', l2⟩⟩ <;>
        first | rfl | exact absurd rfl hone | exact absurd rfl hbl
    rw [b1]
    exact ⟨_, rfl⟩

end Vec

/-- **C11 fails**: adding a (0,0) vector set to a (1,1) one is silently broadcast. -/
theorem c11_counterexample : ∃ a b : VectorCoefs Int, a.WellFormed ∧ b.WellFormed ∧
    (a.nmax, a.mmax) ≠ (b.nmax, b.mmax) ∧ ∃ r, a.opLeft .add (.obj b) = .ok r :=
  ⟨⟨⟨[0, 2, 3, 4], 1, 1⟩, ⟨[0, 2, 3, 4], 1, 1⟩, 1, 1⟩, ⟨⟨[0], 0, 0⟩, ⟨[0], 0, 0⟩, 0, 0⟩,
    ⟨⟨by decide, by decide, by decide⟩, ⟨by decide, by decide, by decide⟩, rfl, rfl, rfl, rfl⟩,
    ⟨⟨by decide, by decide, by decide⟩, ⟨by decide, by decide, by decide⟩, rfl, rfl, rfl, rfl⟩,
    by decide, _, rfl⟩

/-- A vector sample. -/
def vsample : VectorCoefs Int := ⟨⟨[0, 2, 3, 4], 1, 1⟩, ⟨[0, 5, 6, 7], 1, 1⟩, 1, 1⟩
theorem vsample_wf : vsample.WellFormed :=
  ⟨⟨by decide, by decide, by decide⟩, ⟨by decide, by decide, by decide⟩, rfl, rfl, rfl, rfl⟩
example : (modes vsample.nmax vsample.mmax).card ≠ (modes 2 2).card ∧ (modes 2 2).card ≠ 1 := by decide
example : readMapV vsample 1 0 = some (2, 5) := by decide

/-! ## C15 -/

section C15
variable [Add α] [Sub α] [Mul α] [Div α] [Zero α] [DecidableEq α]

/-- The vector coefficient sets a user can obtain: by the constructor, assignment, arithmetic (any
operator, either side, any operand), truncation and copying. -/
inductive Reach : VectorCoefs α → Prop
  | make {v1 v2 : Buf α} {nmax mmax : Int} {c : VectorCoefs α}
      (h : VectorCoefs.init v1 v2 nmax mmax = .ok c) : Reach c
  | assign {c : VectorCoefs α} (arg : List Arg) (val : VectorCoefs.ValV α) (h : Reach c) :
      Reach (c.setitem arg val).st
  | opLeft {c r : VectorCoefs α} (op : Op) (o : Operand α (VectorCoefs α)) (h : Reach c)
      (e : c.opLeft op o = .ok r) : Reach r
  | opRight {c r : VectorCoefs α} (op : Op) (o : Operand α (VectorCoefs α)) (h : Reach c)
      (e : c.opRight op o = .ok r) : Reach r
  | trunc {c r : VectorCoefs α} (k : Int) (h : Reach c)
      (e : c.getitem [.upto k, .all] = .ok (.coefs r)) : Reach r
  | copy {c r : VectorCoefs α} (h : Reach c) (e : c.copy = .ok r) : Reach r

/-- Invariant used for C15. -/
structure VInv (c : VectorCoefs α) : Prop where
  z1 : c.scoef1.vec.head? = some 0
  z2 : c.scoef2.vec.head? = some 0
  n1 : c.scoef1.nmax = c.nmax
  n2 : c.scoef2.nmax = c.nmax
  m1 : c.scoef1.mmax = c.mmax
  m2 : c.scoef2.mmax = c.mmax
  wf : c.nmax < 0 ∨ (c.scoef1.WF ∧ c.scoef2.WF)

theorem vinv_init {v1 v2 : Buf α} {nmax mmax : Int} {c : VectorCoefs α}
    (h : VectorCoefs.init v1 v2 nmax mmax = .ok c) : VInv c := by
  cases v1 with
  | exc => rw [vinit_exc_left] at h; cases h
  | arr v1 => cases v2 with
    | exc => unfold VectorCoefs.init at h; cases h
    | arr v2 =>
      obtain ⟨hl, hmn, hnc, hne, rfl⟩ := vinit_ok h
      have hne2 : v2 ≠ [] := by intro e; rw [e] at hl; simp at hl; exact hne hl
      refine ⟨?_, ?_, rfl, rfl, rfl, rfl, ?_⟩
      · cases v1 with
        | nil => exact absurd rfl hne
        | cons x xs => rfl
      · cases v2 with
        | nil => exact absurd rfl hne2
        | cons x xs => rfl
      · by_cases hn : nmax < 0
        · exact .inl hn
        · right
          have hm : 0 ≤ mmax := by
            by_contra hm
            have := ncFormula_neg_of_mmax_neg (by omega : 0 ≤ nmax) (by omega : mmax < 0)
            omega
          exact ⟨⟨hm, hmn, by simpa using hnc.symm⟩, ⟨hm, hmn, by simp; omega⟩⟩

theorem setNM_keep {c : ScalarCoefs α} (hw : c.nmax < 0 ∨ c.WF) {n m : Int} (hn : n ≠ 0) (v : Val α) :
    (c.setNM n m v).st.vec.head? = c.vec.head? ∧ (c.setNM n m v).st.nmax = c.nmax ∧
    (c.setNM n m v).st.mmax = c.mmax ∧ (c.WF → (c.setNM n m v).st.WF) := by
  by_cases hm : IsMode c.nmax c.mmax n m
  · have hm' := isMode_iff.mp hm
    rcases hw with hw | hw
    · omega
    · have hwf := ScalarCoefs.setNM_wf hw (n := n) (m := m) (val := v)
      refine ⟨?_, hwf.2.1, hwf.2.2, fun _ => hwf.1⟩
      cases v with
      | num x =>
        rw [ScalarCoefs.setNM_eq hw hm]
        have hs := slot_ne_zero (nmax := c.nmax) (n := n) (m := m) (by omega) (by omega) (by omega)
        simp only [List.head?_eq_getElem?]
        rw [List.getElem?_set_ne hs]
      | seq x =>
        unfold ScalarCoefs.setNM
        rw [if_neg (by omega), if_neg (by unfold iabs; omega), mindx_eq (by unfold iabs; omega) hw.mn]
  · obtain ⟨k, hk⟩ := ScalarCoefs.setNM_error (c := c) hm v
    rw [hk]; exact ⟨rfl, rfl, rfl, id⟩

theorem vinv_setNM {c : VectorCoefs α} (h : VInv c) (n m : Int) (a b : Val α) :
    VInv (c.setNM n m a b).st := by
  unfold VectorCoefs.setNM
  by_cases hn : n = 0
  · rw [if_pos hn]; exact h
  · rw [if_neg hn]
    have w1 : c.scoef1.nmax < 0 ∨ c.scoef1.WF := by
      rcases h.wf with w | w
      · left; rw [h.n1]; exact w
      · right; exact w.1
    have w2 : c.scoef2.nmax < 0 ∨ c.scoef2.WF := by
      rcases h.wf with w | w
      · left; rw [h.n2]; exact w
      · right; exact w.2
    have k1 := setNM_keep w1 (m := m) hn a
    have k2 := setNM_keep w2 (m := m) hn b
    simp only
    split
    · refine ⟨by simpa [k1.1] using h.z1, h.z2, by simpa [k1.2.1] using h.n1, h.n2,
        by simpa [k1.2.2.1] using h.m1, h.m2, ?_⟩
      rcases h.wf with w | w
      · exact .inl w
      · exact .inr ⟨k1.2.2.2 w.1, w.2⟩
    · refine ⟨by simpa [k1.1] using h.z1, by simpa [k2.1] using h.z2, by simpa [k1.2.1] using h.n1,
        by simpa [k2.2.1] using h.n2, by simpa [k1.2.2.1] using h.m1, by simpa [k2.2.2.1] using h.m2, ?_⟩
      rcases h.wf with w | w
      · exact .inl w
      · exact .inr ⟨k1.2.2.2 w.1, k2.2.2.2 w.2⟩

theorem vinv_set {c : VectorCoefs α} (h : VInv c) (arg : List Arg) (val : VectorCoefs.ValV α) :
    VInv (c.setitem arg val).st := by
  unfold VectorCoefs.setitem
  split
  · split
    · split
      · exact h
      · split <;> exact h
      · exact vinv_setNM h _ _ _ _
      · exact h
    · exact h
  · exact h

theorem vinv_reach {c : VectorCoefs α} (h : Reach c) : VInv c := by
  induction h with
  | make h => exact vinv_init h
  | assign arg val _ ih => exact vinv_set ih arg val
  | opLeft op o _ e _ =>
    unfold VectorCoefs.opLeft at e
    cases o with
    | obj d =>
      simp only [if_true] at e
      revert e
      generalize bcast op.eval _ d.scoef1.vec = p
      generalize bcast op.eval _ d.scoef2.vec = q
      cases p with
      | error _ => intro e; cases e
      | ok a => cases q with
        | error _ => intro e; cases e
        | ok b => intro e; simp only [Except.bind_ok] at e; exact vinv_init e
    | num b => exact vinv_init e
    | other => cases e
  | opRight op o _ e _ =>
    unfold VectorCoefs.opRight at e
    cases o with
    | obj d => cases e
    | num b => exact vinv_init e
    | other => cases e
  | @trunc c r k _ e _ =>
    have e' : (c.trunc k).bind (fun d => (.ok (.coefs d) : Res (VectorCoefs.GotV α))) = .ok (.coefs r) := e
    unfold VectorCoefs.trunc at e'
    by_cases hk : k > c.nmax
    · rw [if_pos hk] at e'; cases e'
    · rw [if_neg hk] at e'
      simp only at e'
      revert e'
      generalize c.scoef1.trunc k = p
      generalize c.scoef2.trunc k = q
      cases p with
      | error _ => intro e; cases e
      | ok a => cases q with
        | error _ => intro e; cases e
        | ok b =>
          simp only [Except.bind_ok]
          generalize hI : VectorCoefs.init (.arr a.vec) (.arr b.vec) k
            (if k > c.mmax then c.mmax else k) = I
          cases I with
          | error _ => intro e; cases e
          | ok d => intro e; cases e; exact vinv_init hI
  | copy _ e _ => exact vinv_init e

/-- **C15.** In every reachable vector coefficient set the (0,0) entries of both components are 0 (they
are the first entries of the two vectors, by C01), reads of the column `m = 0` show 0 there, and reading
or writing any mode with `n = 0` raises AttributeError (a rejected write changes nothing). -/
theorem c15_no_monopole {c : VectorCoefs α} (h : Reach c) :
    c.scoef1.vec.head? = some 0 ∧ c.scoef2.vec.head? = some 0 ∧
    (0 ≤ c.nmax → readMap c.scoef1 0 0 = some 0 ∧ readMap c.scoef2 0 0 = some 0) ∧
    (∀ a : Arg, Res.Raises (c.getitem [.int 0, a]) .attributeError) ∧
    (∀ (a : Arg) (val : VectorCoefs.ValV α), ∃ msg,
      c.setitem [.int 0, a] val = ⟨c, some ⟨.attributeError, msg⟩⟩) := by
  have hi := vinv_reach h
  refine ⟨hi.z1, hi.z2, ?_, ?_, ?_⟩
  · intro hn
    rcases hi.wf with w | ⟨w1, w2⟩
    · omega
    · rw [readMap_eq w1, readMap_eq w2]
      have hs : ∀ N, slot N 0 0 = 0 := by intro N; simp [slot, ord, seg]
      unfold ScalarCoefs.absMap
      have := w1.m0
      have := w2.m0
      rw [if_pos (by rw [isMode_iff, hi.n1]; omega), if_pos (by rw [isMode_iff, hi.n2]; omega), hs, hs,
        ← List.head?_eq_getElem?, ← List.head?_eq_getElem?]
      exact ⟨hi.z1, hi.z2⟩
  · intro a
    cases a with
    | int m => exact ⟨_, rfl⟩
    | slice x y z => exact ⟨_, rfl⟩
    | other => exact ⟨_, rfl⟩
  · intro a val
    cases val with
    | other => exact ⟨_, rfl⟩
    | tup vs =>
      unfold VectorCoefs.setitem
      match vs with
      | [] => exact ⟨_, rfl⟩
      | [_] => exact ⟨_, rfl⟩
      | [u, v] => cases a <;> exact ⟨_, rfl⟩
      | _ :: _ :: _ :: _ => exact ⟨_, rfl⟩

end C15

example : Reach (α := Int) (⟨⟨[0, 2, 3, 4], 1, 1⟩, ⟨[0, 5, 6, 7], 1, 1⟩, 1, 1⟩ : VectorCoefs Int) :=
  .make (v1 := .arr [9, 2, 3, 4]) (v2 := .arr [8, 5, 6, 7]) (nmax := 1) (mmax := 1) (by rfl)

/-! ## C13, C14 -/

/-- **C13.** `angular_power_spectrum()[n]` is the sum of `|c[n,m]|²` over the orders of degree `n`, and the
spectrum sums to `power()`.  (`absf` is the absolute value, in any commutative semiring; exact sums.) -/
theorem c13_power {R : Type} [CommSemiring R] [Zero α] (absf : α → R) (c : ScalarCoefs α) (hc : c.WellFormed) :
    ∃ s, c.angularPowerSpectrum absf = .ok s ∧ (s.length : Int) = c.nmax + 1 ∧
    (∀ n (hn : n < s.length), s[n] = ∑ m ∈ Finset.Icc (-(min (n : Int) c.mmax)) (min (n : Int) c.mmax),
      ((readMap c n m).elim 0 (fun x => absf x ^ 2))) ∧
    s.sum = c.power absf ∧
    c.power absf = ∑ p ∈ modes c.nmax c.mmax, (readMap c p.1 p.2).elim 0 (fun x => absf x ^ 2) := by
  obtain ⟨s, e, hl, hs, hp⟩ := ScalarCoefs.angular_eq absf hc.wf
  refine ⟨s, e, hl, ?_, hp, ?_⟩
  · intro n hn
    rw [hs n hn]
    exact Finset.sum_congr rfl (fun m _ => by rw [readMap_eq hc.wf])
  · unfold ScalarCoefs.power
    rw [ScalarCoefs.sum_vec hc.wf]
    exact Finset.sum_congr rfl (fun p _ => by rw [readMap_eq hc.wf])

example : sample'.angularPowerSpectrum (fun x => x) = .ok [1, 4 + 16 + 36, 9 + 25 + 49] ∧
    sample'.power (fun x => x) = 140 := by decide

/-- **C14.** The 2-D representation has shape `(nmax+1, 2*mmax+1)`, `c[n,m]` at `[n, mmax+m]` for every mode
and 0 in every other cell. -/
theorem c14_array2d [Zero α] (c : ScalarCoefs α) (hc : c.WellFormed) :
    ∃ A, c.array2d = .ok A ∧ (A.rows : Int) = c.nmax + 1 ∧ (A.cols : Int) = 2 * c.mmax + 1 ∧
    ∀ n m : Int, 0 ≤ n → n ≤ c.nmax → -c.mmax ≤ m → m ≤ c.mmax →
      A.at' n.toNat (c.mmax + m).toNat = (readMap c n m).getD 0 := by
  obtain ⟨A, e, hr, hcc, hv⟩ := ScalarCoefs.array2d_eq hc.wf
  refine ⟨A, e, hr, hcc, ?_⟩
  intro n m a b d f
  rw [hv n m a b d f, readMap_eq hc.wf]

/-! ## C17, C18: norms and magnitudes -/

theorem sum_sq_eq_zero (l : List ℂ) : (l.map (fun x => ‖x‖ ^ 2)).sum = 0 ↔ ∀ x ∈ l, x = 0 := by
  induction l with
  | nil => simp
  | cons x xs ih =>
    have hx : 0 ≤ ‖x‖ ^ 2 := by positivity
    have hxs : 0 ≤ (xs.map (fun x => ‖x‖ ^ 2)).sum := List.sum_nonneg (by
      intro y hy
      obtain ⟨z, _, rfl⟩ := List.mem_map.mp hy
      positivity)
    simp only [List.map_cons, List.sum_cons, List.mem_cons, forall_eq_or_imp]
    constructor
    · intro h
      have h1 : ‖x‖ ^ 2 = 0 := by linarith
      have h2 : (xs.map (fun x => ‖x‖ ^ 2)).sum = 0 := by linarith
      exact ⟨by simpa using h1, ih.mp h2⟩
    · rintro ⟨rfl, h⟩
      rw [ih.mpr h]; simp

theorem sum_sq_nonneg (l : List ℂ) : 0 ≤ (l.map (fun x => ‖x‖ ^ 2)).sum :=
  List.sum_nonneg (by
    intro y hy
    obtain ⟨z, _, rfl⟩ := List.mem_map.mp hy
    positivity)

/-- **C17 (partial: scalar sets).** `L2_coef(c)²` is the sum of the squared magnitudes over all modes, and
`L2_coef(c) = 0` only if every coefficient is 0.  Missing: vector sets, where it is false
(`c17_counterexample`). -/
theorem c17_l2_scalar_partial (c : ScalarCoefs ℂ) (hc : c.WellFormed) :
    (l2SC c) ^ 2 = ∑ p ∈ modes c.nmax c.mmax, (readMap c p.1 p.2).elim 0 (fun x => ‖x‖ ^ 2) ∧
    (l2SC c = 0 ↔ ∀ n m, IsMode c.nmax c.mmax n m → readMap c n m = some 0) := by
  constructor
  · unfold l2SC
    rw [Real.sq_sqrt (sum_sq_nonneg _), ScalarCoefs.sum_vec hc.wf]
    exact Finset.sum_congr rfl (fun p _ => by rw [readMap_eq hc.wf])
  · unfold l2SC
    rw [Real.sqrt_eq_zero (sum_sq_nonneg _), sum_sq_eq_zero]
    constructor
    · intro h n m hm
      rw [readMap_eq hc.wf, ScalarCoefs.absMap_mode hc.wf hm, h _ (List.getElem_mem _)]
    · intro h x hx
      obtain ⟨j, hj, rfl⟩ := List.getElem_of_mem hx
      obtain ⟨n, m, hm, rfl⟩ := slot_surj hc.1 hc.2 (by rw [← hc.wf.len']; exact hj)
      have := h n m hm
      rw [readMap_eq hc.wf, ScalarCoefs.absMap_mode hc.wf hm] at this
      exact Option.some.inj this

/-- What `L2_coef` computes for vector sets: twice the power of the *first* component. -/
theorem c17_l2_vector_actual (c : VectorCoefs ℂ) :
    (l2VC c) ^ 2 = 2 * (c.scoef1.vec.map (fun x => ‖x‖ ^ 2)).sum := by
  unfold l2VC
  simp only
  have h := sum_sq_nonneg c.scoef1.vec
  rw [Real.sq_sqrt (by positivity), Real.sq_sqrt h]; ring

/-- **C17 fails for vector sets**: the second component is ignored, so a nonzero set has norm 0. -/
theorem c17_counterexample : ∃ c : VectorCoefs ℂ, c.WellFormed ∧ l2VC c = 0 ∧ readMapV c 1 0 = some (0, 5) := by
  have hw : (VectorCoefs.mk (⟨[0, 0, 0, 0], 1, 1⟩ : ScalarCoefs ℂ) ⟨[0, 5, 0, 0], 1, 1⟩ 1 1).WellFormed :=
    ⟨⟨by decide, by decide, rfl⟩, ⟨by decide, by decide, rfl⟩, rfl, rfl, rfl, rfl⟩
  refine ⟨_, hw, ?_, ?_⟩
  · simp [l2VC]
  · rfl

/-- **C18 (partial: vector sets and `mag`/`abs` of scalar sets).** `mag2` of a vector set is mode-wise
`|x|²+|y|²`, `mag` its square root, and `mag`/`abs` of a scalar set is mode-wise `|x|`. Patterns are in
`Props/Pattern.lean`.  Missing: `mag2(ScalarCoefs)`, where it is false (`c18_counterexample`). -/
theorem c18_mag_coefs_partial :
    (∀ c : ScalarCoefs ℂ, c.WellFormed → ∃ d, absSC c = .ok d ∧ d.WellFormed ∧ d.nmax = c.nmax ∧
      d.mmax = c.mmax ∧ ∀ n m, readMap d n m = (readMap c n m).map (fun x => ‖x‖)) ∧
    (∀ c : VectorCoefs ℂ, c.WellFormed → ∃ d e, mag2VC c = .ok d ∧ magVC c = .ok e ∧ d.WellFormed ∧ e.WellFormed ∧
      d.nmax = c.nmax ∧ d.mmax = c.mmax ∧ e.nmax = c.nmax ∧ e.mmax = c.mmax ∧
      ∀ n m x y, readMapV c n m = some (x, y) →
        readMap d n m = some (‖x‖ ^ 2 + ‖y‖ ^ 2) ∧ readMap e n m = some (Real.sqrt (‖x‖ ^ 2 + ‖y‖ ^ 2))) := by
  constructor
  · intro c hc
    have hw := map_wf hc.wf (fun x => ‖x‖)
    refine ⟨_, init_map_wf hc.wf _, ScalarCoefs.wf_iff.mp hw, rfl, rfl, ?_⟩
    intro n m
    rw [readMap_eq hw, absMap_map, readMap_eq hc.wf]
  · intro c hc
    have h0 : 0 ≤ c.mmax := by rw [← hc.m1]; exact hc.wf1.1
    have h1 : c.mmax ≤ c.nmax := by rw [← hc.m1, ← hc.n1]; exact hc.wf1.2
    have l1 := hc.wf1.wf.len; have l2 := hc.wf2.wf.len
    rw [hc.n1, hc.m1] at l1; rw [hc.n2, hc.m2] at l2
    have e : c.scoef1.vec.length = c.scoef2.vec.length := by omega
    set v := List.zipWith (fun a b : ℝ => a + b) (c.scoef1.vec.map (fun x => ‖x‖ ^ 2))
      (c.scoef2.vec.map (fun x => ‖x‖ ^ 2)) with hv
    have lv : (v.length : Int) = ncFormula c.nmax c.mmax := by rw [hv]; simp [e]; omega
    have hd : (ScalarCoefs.mk v c.nmax c.mmax).WF := ⟨h0, h1, lv⟩
    have he : (ScalarCoefs.mk (v.map Real.sqrt) c.nmax c.mmax).WF := ⟨h0, h1, by simpa using lv⟩
    have e2 : mag2VC c = .ok ⟨v, c.nmax, c.mmax⟩ := by
      unfold mag2VC
      rw [ScalarCoefs.bcast_eq _ (by simpa using e)]
      simp only [Except.bind_ok]
      exact ScalarCoefs.init_wf h0 h1 lv.symm
    refine ⟨_, ⟨v.map Real.sqrt, c.nmax, c.mmax⟩, e2, ?_, ScalarCoefs.wf_iff.mp hd, ScalarCoefs.wf_iff.mp he,
      rfl, rfl, rfl, rfl, ?_⟩
    · unfold magVC
      rw [e2]
      simp only [Except.bind_ok]
      exact ScalarCoefs.init_wf h0 h1 (by simpa using lv.symm)
    · intro n m x y hxy
      rw [readMapV_eq hc] at hxy
      rw [readMap_eq hd, readMap_eq he]
      by_cases hz : n = 0
      · rw [if_pos hz] at hxy; cases hxy
      rw [if_neg hz] at hxy
      unfold ScalarCoefs.absMap at *
      rw [hc.n1, hc.m1, hc.n2, hc.m2] at hxy
      by_cases hmode : IsMode c.nmax c.mmax n m
      · simp only [if_pos hmode] at hxy ⊢
        obtain ⟨p1, hp1, hp2⟩ := Option.bind_eq_some_iff.mp hxy
        obtain ⟨p2, hp3, hp4⟩ := Option.map_eq_some_iff.mp hp2
        cases hp4
        rw [List.getElem?_map, hv, List.getElem?_zipWith, List.getElem?_map, List.getElem?_map, hp1, hp3]
        exact ⟨rfl, rfl⟩
      · rw [if_neg hmode] at hxy; cases hxy

/-- **C18 fails for scalar sets**: `mag2` returns `|x|`, not `|x|²`. -/
theorem c18_counterexample : ∃ c : ScalarCoefs ℂ, c.WellFormed ∧ readMap c 0 0 = some 3 ∧
    ∃ d, mag2SC c = .ok d ∧ readMap d 0 0 = some 3 ∧ (3 : ℝ) ≠ ‖(3 : ℂ)‖ ^ 2 := by
  refine ⟨⟨[3], 0, 0⟩, ⟨by decide, by decide, rfl⟩, rfl, ⟨[3], 0, 0⟩, ?_, rfl, ?_⟩
  · unfold mag2SC
    have : ([3] : List ℂ).map (fun x => ‖x‖) = [3] := by simp
    rw [this]; rfl
  · norm_num

/-! ## C19 -/

/-- **C19.** For every `c` with `nmax ≥ 2`, the printed cell of mode `(n,m)`, `0 ≤ n ≤ 2`, `|m| ≤ n` (row
`2-n`, position `m+n`) is the centred representation of `c[n,m]` if `|m| ≤ mmax` and blank otherwise. -/
theorem c19_pretty [Zero α] (rep : α → String) (center : String → String) (c : ScalarCoefs α)
    (hc : c.WellFormed) (h2 : 2 ≤ c.nmax) :
    ∃ rows, prettyCoefs rep center c = .ok rows ∧
      ∀ n m : Int, 0 ≤ n → n ≤ 2 → |m| ≤ n →
        (rows[(2 - n).toNat]?.bind fun r => r[(m + n).toNat]?) =
          some (center ((readMap c n m).elim "" rep)) := by
  obtain ⟨d, e, hd, hn, hm, hv⟩ := ScalarCoefs.trunc_eq hc.wf (N := 2) (by omega) h2
  have h0 := hd.m0
  have hlen := hd.len'
  have hmm : d.mmax = 0 ∨ d.mmax = 1 ∨ d.mmax = 2 := by omega
  have hseg : seg 3 1 = 3 ∧ seg 3 3 = 7 ∧ seg 3 5 = 9 := by decide
  have hle : d.vec.length ≤ 9 := by
    rw [hn] at hlen
    rcases hmm with q | q | q <;> rw [q] at hlen <;> simp at hlen <;> omega
  set sa := d.vec.map rep ++ List.replicate (9 - d.vec.length) "" with hsa
  have hsl : sa.length = 9 := by rw [hsa]; simp; omega
  have hcell : ∀ j, j < 9 → ((sa.take 9).map center).getD j "" = center (((d.vec[j]?).map rep).getD "") := by
    intro j hj
    rw [List.getD_eq_getElem?_getD, List.getElem?_map, List.getElem?_take, if_pos hj, hsa,
      List.getElem?_append]
    simp only [List.length_map, List.getElem?_map, List.getElem?_replicate]
    split
    · rename_i hlt
      rw [List.getElem?_eq_getElem hlt]; rfl
    · rw [if_pos (by omega), List.getElem?_eq_none (by omega)]; rfl
  refine ⟨_, by
    unfold prettyCoefs prettyCells
    rw [e]
    simp only [Except.bind_ok, List.length_map]
    rfl, ?_⟩
  intro n m hn0 hn2 hm'
  rw [Int.abs_eq_natAbs] at hm'
  have key : ∀ j, slot 2 n m = j → j < 9 →
      center (((d.vec[j]?).map rep).getD "") = center ((readMap c n m).elim "" rep) := by
    intro j hj hj9
    rw [readMap_eq hc.wf]
    by_cases hmode : IsMode 2 (min 2 c.mmax) n m
    · rw [← hv n m hmode]
      unfold ScalarCoefs.absMap
      rw [hn, hm, if_pos hmode, hj]
      cases d.vec[j]? <;> rfl
    · have e1 : c.absMap n m = none := by
        unfold ScalarCoefs.absMap
        rw [if_neg]; rw [isMode_iff] at *; omega
      have e2 : d.vec[j]? = none := by
        apply List.getElem?_eq_none
        rw [hlen, hn, ← hj]
        -- the slot of a mode outside the limits lies beyond the stored blocks
        rw [isMode_iff] at hmode
        have ho : 2 * d.mmax.toNat + 1 ≤ ord m := by
          unfold ord; split <;> (try split) <;> omega
        exact le_trans (seg_mono _ ho) (Nat.le_add_right _ _)
      rw [e1, e2]; rfl
  have hcases : (n = 0 ∧ m = 0) ∨ (n = 1 ∧ (m = -1 ∨ m = 0 ∨ m = 1)) ∨
      (n = 2 ∧ (m = -2 ∨ m = -1 ∨ m = 0 ∨ m = 1 ∨ m = 2)) := by omega
  rcases hcases with ⟨rfl, rfl⟩ | ⟨rfl, rfl | rfl | rfl⟩ | ⟨rfl, rfl | rfl | rfl | rfl | rfl⟩
  · rw [← key 0 (by decide) (by decide), ← hcell 0 (by decide)]; rfl
  · rw [← key 3 (by decide) (by decide), ← hcell 3 (by decide)]; rfl
  · rw [← key 1 (by decide) (by decide), ← hcell 1 (by decide)]; rfl
  · rw [← key 5 (by decide) (by decide), ← hcell 5 (by decide)]; rfl
  · rw [← key 7 (by decide) (by decide), ← hcell 7 (by decide)]; rfl
  · rw [← key 4 (by decide) (by decide), ← hcell 4 (by decide)]; rfl
  · rw [← key 2 (by decide) (by decide), ← hcell 2 (by decide)]; rfl
  · rw [← key 6 (by decide) (by decide), ← hcell 6 (by decide)]; rfl
  · rw [← key 8 (by decide) (by decide), ← hcell 8 (by decide)]; rfl

example : prettyCoefs (fun x : Int => toString x) id sample =
    .ok [["", "14", "12", "16", ""], ["13", "11", "15"], ["10"]] := by decide

/-! ### C12 division by the number zero (coefficient sets) -/
section
variable [Add α] [Sub α] [Mul α] [Div α] [Zero α] [DecidableEq α]

/-- **C12 (coefficient sets, part that holds)**: dividing a coefficient set by the number 0 raises
and produces no object.  What fails is the exception class: `TypeError` for scalar sets,
`AttributeError` for vector sets, because `__truediv__` *returns* a `ZeroDivisionError` object. -/
theorem c12_coefs_partial (a : ScalarCoefs α) (ha : a.WellFormed) (v : VectorCoefs α) :
    Res.Raises (a.opLeft .div (.num 0)) .typeError ∧
    Res.Raises (v.opLeft .div (.num 0)) .attributeError := by
  constructor
  · refine ⟨"object has no len()", ?_⟩
    unfold ScalarCoefs.opLeft opNum ScalarCoefs.init
    have := ha.mmax_le
    simp; omega
  · exact ⟨"no attribute 'shape'", by
      unfold VectorCoefs.opLeft opNum; simp [VectorCoefs.init]⟩

/-- **C12 (coefficient sets) fails as stated**: the exception is never `ZeroDivisionError`. -/
theorem c12_coefs_counterexample (a : ScalarCoefs α) (ha : a.WellFormed) (v : VectorCoefs α) :
    ¬ Res.Raises (a.opLeft .div (.num 0)) .zeroDivisionError ∧
    ¬ Res.Raises (v.opLeft .div (.num 0)) .zeroDivisionError := by
  obtain ⟨⟨k1, h1⟩, k2, h2⟩ := c12_coefs_partial a ha v
  constructor
  · rintro ⟨k, h⟩; rw [h1] at h; cases h
  · rintro ⟨k, h⟩; rw [h2] at h; cases h
end

end Verif.Props
