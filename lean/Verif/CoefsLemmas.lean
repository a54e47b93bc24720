import Verif.Spec
import Mathlib.Tactic.Ring
import Mathlib.Tactic.Linarith
import Mathlib.Data.Int.Cast.Lemmas
/-!
# Layout lemmas for the coefficient vector (helper lemmas, not property statements)
-/
namespace Verif

/-- Start of the `o`-th column block (order of blocks: m = 0, -1, 1, -2, 2, ...). -/
def seg (N : Nat) : Nat → Nat
  | 0 => 0
  | o + 1 => seg N o + (N - (o + 1) / 2)

theorem seg_succ (N o : Nat) : seg N (o + 1) = seg N o + (N - (o + 1) / 2) := rfl

/-- Position of column `m` in the block order. -/
def ord (m : Int) : Nat := if m > 0 then 2 * m.natAbs else if m < 0 then 2 * m.natAbs - 1 else 0

/-- Inverse of `ord`. -/
def unord (o : Nat) : Int := if o % 2 = 0 then ((o / 2 : Nat) : Int) else -(((o + 1) / 2 : Nat) : Int)

theorem ord_unord (o : Nat) : ord (unord o) = o := by
  unfold ord unord; split <;> split <;> (try split) <;> omega

theorem unord_ord (m : Int) : unord (ord m) = m := by
  unfold ord unord; split <;> split <;> (try split) <;> omega

theorem natAbs_unord (o : Nat) : (unord o).natAbs = (o + 1) / 2 := by
  unfold unord; split <;> omega

theorem natAbs_eq_ord (m : Int) : m.natAbs = (ord m + 1) / 2 := by
  rw [← natAbs_unord, unord_ord]

theorem ord_le (m : Int) : ord m ≤ 2 * m.natAbs := by
  unfold ord; split <;> (try split) <;> omega

theorem ord_inj {a b : Int} (h : ord a = ord b) : a = b := by
  rw [← unord_ord a, h, unord_ord]

theorem seg_mono (N : Nat) {a b : Nat} (h : a ≤ b) : seg N a ≤ seg N b := by
  induction h with
  | refl => exact Nat.le_refl _
  | step _ ih => exact Nat.le_trans ih (by simp [seg])

theorem seg_fold (N k : Nat) (hk : k + 1 ≤ N + 1) :
    (pyRange 1 ((k : Int) + 1)).foldl (fun (s : Int × Int) i => (s.1 + 2 * ((N : Int) - i), i + 1))
      ((N : Int), 1) = ((seg N (2 * k + 1) : Int), (k : Int) + 1) := by
  induction k with
  | zero => simp [pyRange_nil, seg]
  | succ k ih =>
    have e : (((k + 1 : Nat) : Int) + 1) = ((k : Int) + 1) + 1 := by push_cast; ring
    rw [e, pyRange_succ (by omega), List.foldl_append, ih (by omega)]
    simp only [List.foldl_cons, List.foldl_nil]
    have e2 : 2 * (k + 1) + 1 = (2 * k + 1) + 1 + 1 := by ring
    have s1 := seg_succ N (2 * k + 1)
    have s2 := seg_succ N (2 * k + 1 + 1)
    rw [e2, Prod.mk.injEq]
    constructor <;> push_cast <;> omega

theorem mindx_eq {m nmax mmax : Int} (h1 : iabs m ≤ mmax) (h2 : mmax ≤ nmax) :
    mindx m nmax mmax = .ok (seg (nmax + 1).toNat (ord m) : Int) := by
  unfold iabs at h1
  unfold mindx iabs
  rw [if_neg (by omega)]
  by_cases hm : m = 0
  · subst hm; simp [ord, seg]
  · rw [if_pos hm]
    obtain ⟨N, hN⟩ : ∃ N : Nat, nmax + 1 = N := ⟨(nmax + 1).toNat, by omega⟩
    obtain ⟨k, hk⟩ : ∃ k : Nat, m.natAbs = k + 1 := ⟨m.natAbs - 1, by omega⟩
    have e1 : ((m.natAbs : Nat) : Int) = (k : Int) + 1 := by omega
    have hf := seg_fold N k (by omega)
    simp only [e1, hN, hf, Int.toNat_natCast]
    by_cases hpos : m > 0
    · have : ord m = (2 * k + 1) + 1 := by unfold ord; split <;> omega
      rw [if_pos hpos, this, seg_succ N (2 * k + 1)]
      congr 1
      omega
    · have : ord m = 2 * k + 1 := by unfold ord; split <;> (try split) <;> omega
      rw [if_neg hpos, this]

theorem mindx_error {m nmax mmax : Int} (h1 : iabs m > mmax) :
    ∃ e, mindx m nmax mmax = .error e := by
  unfold mindx; rw [if_pos h1]; exact ⟨_, rfl⟩

theorem ncFormula_eq {nmax mmax : Int} (h0 : 0 ≤ mmax) (h : mmax ≤ nmax) :
    ncFormula nmax mmax = (seg (nmax + 1).toNat (2 * mmax.toNat + 1) : Int) := by
  obtain ⟨N, hN⟩ : ∃ N : Nat, nmax = N - 1 ∧ 1 ≤ N := ⟨(nmax + 1).toNat, by omega, by omega⟩
  obtain ⟨rfl, hN1⟩ := hN
  obtain ⟨k, rfl⟩ : ∃ k : Nat, mmax = k := ⟨mmax.toNat, by omega⟩
  simp only [Int.toNat_natCast, sub_add_cancel]
  clear h0
  unfold ncFormula
  induction k with
  | zero => simp [seg]
  | succ k ih =>
    have ih := ih (by omega)
    have e2 : 2 * (k + 1) + 1 = (2 * k + 1) + 1 + 1 := by ring
    have h3 : (2 * k + 1 + 1) / 2 = k + 1 := by omega
    have h4 : (2 * k + 1 + 1 + 1) / 2 = k + 1 := by omega
    rw [e2, seg_succ, seg_succ N (2 * k + 1), h3, h4]
    have h5 : ((N - (k + 1) : Nat) : Int) = (N : Int) - k - 1 := by omega
    push_cast [h5]
    rw [← ih]; push_cast; ring

theorem lFormula_eq (nmax mmax : Int) : lFormula nmax mmax = ncFormula nmax mmax := by
  unfold lFormula ncFormula; ring

/-- The slot of mode `(n, m)` in a coefficient vector with largest degree `nmax`. -/
def slot (nmax n m : Int) : Nat := seg (nmax + 1).toNat (ord m) + (n.toNat - m.natAbs)

theorem isMode_iff {nmax mmax n m : Int} :
    IsMode nmax mmax n m ↔ 0 ≤ n ∧ n ≤ nmax ∧ (m.natAbs : Int) ≤ n ∧ (m.natAbs : Int) ≤ mmax := by
  simp only [IsMode, Int.abs_eq_natAbs]

theorem slot_lt_seg {nmax n m : Int} (hn : n ≤ nmax) (hm : (m.natAbs : Int) ≤ n) :
    slot nmax n m < seg (nmax + 1).toNat (ord m + 1) := by
  unfold slot
  rw [seg_succ, ← natAbs_eq_ord]
  omega

theorem slot_lt {nmax mmax n m : Int} (h : IsMode nmax mmax n m) :
    slot nmax n m < seg (nmax + 1).toNat (2 * mmax.toNat + 1) := by
  rw [isMode_iff] at h
  have h1 := slot_lt_seg h.2.1 h.2.2.1
  have h2 : ord m + 1 ≤ 2 * mmax.toNat + 1 := by have := ord_le m; omega
  exact lt_of_lt_of_le h1 (seg_mono _ h2)

theorem slot_inj {nmax mmax n m n' m' : Int} (h : IsMode nmax mmax n m)
    (h' : IsMode nmax mmax n' m') (e : slot nmax n m = slot nmax n' m') : n = n' ∧ m = m' := by
  rw [isMode_iff] at h h'
  have a := slot_lt_seg h.2.1 h.2.2.1
  have a' := slot_lt_seg h'.2.1 h'.2.2.1
  have key : ord m = ord m' := by
    rcases Nat.lt_trichotomy (ord m) (ord m') with hlt | heq | hgt
    · exfalso
      have := seg_mono (nmax + 1).toNat (show ord m + 1 ≤ ord m' from hlt)
      have h3 : seg (nmax + 1).toNat (ord m') ≤ slot nmax n' m' := Nat.le_add_right _ _
      omega
    · exact heq
    · exfalso
      have := seg_mono (nmax + 1).toNat (show ord m' + 1 ≤ ord m from hgt)
      have h3 : seg (nmax + 1).toNat (ord m) ≤ slot nmax n m := Nat.le_add_right _ _
      omega
  have hm := ord_inj key
  subst hm
  refine ⟨?_, rfl⟩
  unfold slot at e
  omega

theorem seg_find (N : Nat) {K j : Nat} (h : j < seg N K) :
    ∃ o, o < K ∧ seg N o ≤ j ∧ j < seg N (o + 1) := by
  induction K with
  | zero => simp [seg] at h
  | succ K ih =>
    by_cases hj : j < seg N K
    · obtain ⟨o, h1, h2⟩ := ih hj; exact ⟨o, by omega, h2⟩
    · exact ⟨K, by omega, by omega, h⟩

theorem slot_surj {nmax mmax : Int} (h0 : 0 ≤ mmax) (h1 : mmax ≤ nmax) {j : Nat}
    (hj : j < seg (nmax + 1).toNat (2 * mmax.toNat + 1)) :
    ∃ n m, IsMode nmax mmax n m ∧ slot nmax n m = j := by
  obtain ⟨o, h2, h3, h4⟩ := seg_find _ hj
  rw [seg_succ] at h4
  have ha := natAbs_unord o
  refine ⟨((unord o).natAbs + (j - seg (nmax + 1).toNat o) : Nat), unord o, ?_, ?_⟩
  · rw [isMode_iff]; omega
  · unfold slot; rw [ord_unord]; omega

theorem mem_modes {nmax mmax : Int} {p : Int × Int} :
    p ∈ modes nmax mmax ↔ IsMode nmax mmax p.1 p.2 := by
  simp only [modes, Finset.mem_filter, Finset.mem_product, Finset.mem_Icc, IsMode, Int.abs_eq_natAbs]
  omega

theorem modes_card {nmax mmax : Int} (h0 : 0 ≤ mmax) (h1 : mmax ≤ nmax) :
    (modes nmax mmax).card = seg (nmax + 1).toNat (2 * mmax.toNat + 1) := by
  rw [← Finset.card_range (seg (nmax + 1).toNat (2 * mmax.toNat + 1))]
  refine Finset.card_bij (fun p _ => slot nmax p.1 p.2) ?_ ?_ ?_
  · intro p hp; exact Finset.mem_range.mpr (slot_lt (mem_modes.mp hp))
  · intro p hp q hq e
    have := slot_inj (mem_modes.mp hp) (mem_modes.mp hq) e
    exact Prod.ext this.1 this.2
  · intro j hj
    obtain ⟨n, m, h, e⟩ := slot_surj h0 h1 (Finset.mem_range.mp hj)
    exact ⟨(n, m), mem_modes.mpr h, e⟩

theorem modes_card' {nmax mmax : Int} (h0 : 0 ≤ mmax) (h1 : mmax ≤ nmax) :
    ((modes nmax mmax).card : Int) = ncFormula nmax mmax := by
  rw [modes_card h0 h1, ncFormula_eq h0 h1]

/-! ### Well-formed coefficient sets -/

/-- Representation invariant of a well-formed coefficient set. -/
structure ScalarCoefs.WF {α : Type} (c : ScalarCoefs α) : Prop where
  m0 : 0 ≤ c.mmax
  mn : c.mmax ≤ c.nmax
  len : (c.vec.length : Int) = ncFormula c.nmax c.mmax

namespace ScalarCoefs
variable {α : Type} {c : ScalarCoefs α}

theorem wf_iff : c.WF ↔ c.WellFormed := by
  constructor
  · intro h
    refine ⟨h.m0, h.mn, ?_⟩
    have := h.len; rw [← modes_card' h.m0 h.mn] at this; exact_mod_cast this
  · intro h
    refine ⟨h.1, h.2, ?_⟩
    rw [← modes_card' h.1 h.2, h.length_eq]

theorem WellFormed.wf (h : c.WellFormed) : c.WF := wf_iff.mpr h

theorem WF.len' (h : c.WF) : c.vec.length = seg (c.nmax + 1).toNat (2 * c.mmax.toNat + 1) := by
  have := h.len; rw [ncFormula_eq h.m0 h.mn] at this; exact_mod_cast this

theorem WF.slot_lt (h : c.WF) {n m : Int} (hm : IsMode c.nmax c.mmax n m) :
    slot c.nmax n m < c.vec.length := by
  rw [h.len']; exact Verif.slot_lt hm

theorem init_wf {l : List α} {nmax mmax : Int} (_h0 : 0 ≤ mmax) (h1 : mmax ≤ nmax)
    (h2 : ncFormula nmax mmax = l.length) :
    ScalarCoefs.init (.arr l) nmax mmax = .ok ⟨l, nmax, mmax⟩ := by
  unfold ScalarCoefs.init
  rw [if_neg (by omega)]
  simp [h2]

theorem getNM_eq (h : c.WF) {n m : Int} (hm : IsMode c.nmax c.mmax n m) :
    c.getNM n m = .ok (c.vec[slot c.nmax n m]'(h.slot_lt hm)) := by
  have hs := h.slot_lt hm
  have hm' := isMode_iff.mp hm
  unfold getNM
  rw [if_neg (by omega), if_neg (by unfold iabs; omega),
    mindx_eq (by unfold iabs; omega) h.mn]
  simp only [Except.bind_ok]
  have e : (seg (c.nmax + 1).toNat (ord m) : Int) + n - iabs m = (slot c.nmax n m : Int) := by
    unfold slot iabs; omega
  rw [e, getIdx_of_lt (by omega) (by omega)]
  simp

theorem getNM_error {n m : Int} (hm : ¬ IsMode c.nmax c.mmax n m) :
    ∃ k, c.getNM n m = .error (raise .attributeError k) := by
  rw [isMode_iff] at hm
  unfold getNM iabs
  by_cases h1 : n < 0 ∨ n > c.nmax
  · rw [if_pos h1]; exact ⟨_, rfl⟩
  · rw [if_neg h1, if_pos (by omega)]; exact ⟨_, rfl⟩

theorem setNM_eq (h : c.WF) {n m : Int} (hm : IsMode c.nmax c.mmax n m) (v : α) :
    c.setNM n m (.num v) = ⟨{ c with vec := c.vec.set (slot c.nmax n m) v }, none⟩ := by
  have hs := h.slot_lt hm
  have hm' := isMode_iff.mp hm
  unfold setNM
  rw [if_neg (by omega), if_neg (by unfold iabs; omega),
    mindx_eq (by unfold iabs; omega) h.mn]
  have e : (seg (c.nmax + 1).toNat (ord m) : Int) + n - iabs m = (slot c.nmax n m : Int) := by
    unfold slot iabs; omega
  simp only [e, setIdx_of_lt (l := c.vec) (i := (slot c.nmax n m : Int)) (v := v) (by omega) (by omega)]
  simp

theorem setNM_error {n m : Int} (hm : ¬ IsMode c.nmax c.mmax n m) (v : Val α) :
    ∃ k, c.setNM n m v = ⟨c, some (raise .attributeError k)⟩ := by
  rw [isMode_iff] at hm
  unfold setNM iabs
  by_cases h1 : n < 0 ∨ n > c.nmax
  · rw [if_pos h1]; exact ⟨_, rfl⟩
  · rw [if_neg h1, if_pos (by omega)]; exact ⟨_, rfl⟩

/-- The abstraction: value stored at a mode (`none` outside the mode set). -/
def absMap (c : ScalarCoefs α) (n m : Int) : Option α :=
  if IsMode c.nmax c.mmax n m then c.vec[slot c.nmax n m]? else none

theorem getNM_abs (h : c.WF) {n m : Int} {v : α} :
    c.getNM n m = .ok v ↔ c.absMap n m = some v := by
  unfold absMap
  by_cases hm : IsMode c.nmax c.mmax n m
  · rw [getNM_eq h hm, if_pos hm, List.getElem?_eq_getElem (h.slot_lt hm)]
    simp
  · obtain ⟨k, hk⟩ := getNM_error hm
    rw [hk, if_neg hm]; simp

theorem WF.of_set (h : c.WF) (l : List α) (hl : l.length = c.vec.length) :
    (ScalarCoefs.mk l c.nmax c.mmax).WF := ⟨h.m0, h.mn, by simpa [hl] using h.len⟩

theorem absMap_mode (h : c.WF) {n m : Int} (hm : IsMode c.nmax c.mmax n m) :
    c.absMap n m = some (c.vec[slot c.nmax n m]'(h.slot_lt hm)) := by
  unfold absMap; rw [if_pos hm, List.getElem?_eq_getElem (h.slot_lt hm)]

/-- Two well-formed sets with the same limits and the same value at every mode are equal. -/
theorem ext_modes {d : ScalarCoefs α} (hc : c.WF) (hd : d.WF) (hn : c.nmax = d.nmax)
    (hm : c.mmax = d.mmax)
    (h : ∀ n m, IsMode c.nmax c.mmax n m → c.absMap n m = d.absMap n m) : c = d := by
  have hl : c.vec.length = d.vec.length := by rw [hc.len', hd.len', hn, hm]
  obtain ⟨v, a, b⟩ := c
  obtain ⟨w, a', b'⟩ := d
  simp only at hn hm
  subst hn hm
  congr 1
  apply List.ext_getElem hl
  intro j h1 h2
  obtain ⟨n, m, hmode, rfl⟩ := slot_surj hc.m0 hc.mn (by rw [← hc.len']; exact h1)
  have := h n m hmode
  rw [absMap_mode hc hmode, absMap_mode hd hmode] at this
  simpa using this

/-! ### Slices of the vector -/

theorem slot_add {nmax m : Int} (k : Nat) :
    slot nmax ((m.natAbs : Int) + k) m = seg (nmax + 1).toNat (ord m) + k := by
  unfold slot; omega

theorem slot_self {nmax n m : Int} (h : (m.natAbs : Int) ≤ n) :
    slot nmax n m = seg (nmax + 1).toNat (ord m) + (n - m.natAbs).toNat := by
  unfold slot; omega

theorem col_le (h : c.WF) {m : Int} (hm : iabs m ≤ c.mmax) :
    seg (c.nmax + 1).toNat (ord m) + (c.nmax - m.natAbs + 1).toNat ≤ c.vec.length := by
  have h1 := h.mn
  unfold iabs at hm
  have h3 : IsMode c.nmax c.mmax c.nmax m := by rw [isMode_iff]; omega
  have h2 := h.slot_lt h3
  rw [slot_self (by omega)] at h2
  omega

theorem getCol_eq (h : c.WF) {m : Int} (hm : iabs m ≤ c.mmax) :
    c.getCol m = .ok ((c.vec.take (seg (c.nmax + 1).toNat (ord m) + (c.nmax - m.natAbs + 1).toNat)).drop
      (seg (c.nmax + 1).toNat (ord m))) := by
  have h1 := h.mn
  have h2 := col_le h hm
  have hm' := hm
  unfold iabs at hm'
  unfold getCol
  rw [if_neg (by omega), mindx_eq hm h1]
  simp only [Except.bind_ok]
  have e : (seg (c.nmax + 1).toNat (ord m) : Int) + c.nmax - iabs m + 1
      = ((seg (c.nmax + 1).toNat (ord m) + (c.nmax - m.natAbs + 1).toNat : Nat) : Int) := by
    unfold iabs; omega
  rw [e, getSlice_of_le (by omega) (by omega) (by omega)]
  simp only [Int.toNat_natCast]

theorem getCol_error {m : Int} (hm : iabs m > c.mmax) :
    c.getCol m = .error (raise .attributeError "m_out_bound") := by
  unfold getCol; rw [if_pos hm]

/-- Overwrite of a block. -/
def splice (l : List α) (s : Nat) (v : List α) : List α := l.take s ++ v ++ l.drop (s + v.length)

theorem length_splice {l v : List α} {s : Nat} (h : s + v.length ≤ l.length) :
    (splice l s v).length = l.length := by
  simp only [splice, List.length_append, List.length_take, List.length_drop]; omega

theorem getElem?_splice {l v : List α} {s : Nat} (h : s + v.length ≤ l.length) (j : Nat) :
    (splice l s v)[j]? = if s ≤ j ∧ j < s + v.length then v[j - s]? else l[j]? := by
  simp only [splice, List.getElem?_append, List.length_append, List.length_take,
    List.getElem?_take, List.getElem?_drop]
  have e1 : min s l.length = s := by omega
  simp only [e1]
  split
  · split
    · rw [if_neg (by omega)]
    · rw [if_pos (by omega)]
  · rw [if_neg (by omega)]; congr 1; omega

theorem setCol_eq (h : c.WF) {m : Int} (hm : iabs m ≤ c.mmax) {v : List α}
    (hv : (v.length : Int) = c.nmax - m.natAbs + 1) :
    c.setCol m (.seq v) = ⟨{ c with vec := splice c.vec (seg (c.nmax + 1).toNat (ord m)) v }, none⟩ := by
  have h1 := h.mn
  have h2 := col_le h hm
  have hm' := hm
  unfold iabs at hm'
  unfold setCol
  rw [if_neg (by omega), mindx_eq hm h1]
  simp only
  have e : (seg (c.nmax + 1).toNat (ord m) : Int) + c.nmax - iabs m + 1
      = ((seg (c.nmax + 1).toNat (ord m) + v.length : Nat) : Int) := by
    unfold iabs; omega
  rw [e, if_neg, setSlice_of_le (by omega) (by omega) (by omega) (by omega)]
  · simp only [Int.toNat_natCast]; rfl
  · rw [length_getSlice (by omega) (by omega) (by omega)]; omega

theorem setCol_error (h : c.WF) {m : Int} {val : Val α}
    (hv : ¬ (iabs m ≤ c.mmax ∧ ∃ v, val = .seq v ∧ (v.length : Int) = c.nmax - m.natAbs + 1)) :
    ∃ e, c.setCol m val = ⟨c, some e⟩ ∧ (e.cls = .attributeError ∨ ∃ x, val = .num x) := by
  have h1 := h.mn
  by_cases hm : iabs m ≤ c.mmax
  · have h2 := col_le h hm
    have hm' := hm
    unfold iabs at hm'
    unfold setCol
    rw [if_neg (by omega), mindx_eq hm h1]
    cases val with
    | num x => exact ⟨_, rfl, .inr ⟨x, rfl⟩⟩
    | seq v =>
      simp only
      have e : (seg (c.nmax + 1).toNat (ord m) : Int) + c.nmax - iabs m + 1
          = ((seg (c.nmax + 1).toNat (ord m) + (c.nmax - m.natAbs + 1).toNat : Nat) : Int) := by
        unfold iabs; omega
      rw [e, if_pos]
      · exact ⟨_, rfl, .inl rfl⟩
      · rw [length_getSlice (by omega) (by omega) (by omega)]
        intro hl
        exact hv ⟨hm, v, rfl, by omega⟩
  · unfold setCol
    rw [if_pos (by omega)]
    exact ⟨_, rfl, .inl rfl⟩

theorem slot_in_col {nmax mmax n m m' : Int} (h : IsMode nmax mmax n m) (hm' : (m'.natAbs : Int) ≤ mmax)
    (_hmn : mmax ≤ nmax) :
    (seg (nmax + 1).toNat (ord m') ≤ slot nmax n m ∧
      slot nmax n m < seg (nmax + 1).toNat (ord m') + (nmax - m'.natAbs + 1).toNat) ↔ m = m' := by
  constructor
  · rintro ⟨h1, h2⟩
    have hk : IsMode nmax mmax ((m'.natAbs : Int) + (slot nmax n m - seg (nmax + 1).toNat (ord m') : Nat)) m' := by
      rw [isMode_iff]; omega
    exact (slot_inj h hk (by rw [slot_add]; omega)).2
  · rintro rfl
    rw [isMode_iff] at h
    rw [slot_self h.2.2.1]; omega

/-- Value stored at every mode after a column assignment. -/
theorem absMap_setCol (h : c.WF) {m : Int} (hm : iabs m ≤ c.mmax) {v : List α}
    (hv : (v.length : Int) = c.nmax - m.natAbs + 1) (n' m' : Int) (hmode : IsMode c.nmax c.mmax n' m') :
    (c.setCol m (.seq v)).st.absMap n' m' =
      if m' = m then v[(n' - m.natAbs).toNat]? else c.absMap n' m' := by
  have h2 := col_le h hm
  rw [setCol_eq h hm hv]
  unfold absMap
  simp only
  rw [if_pos hmode, if_pos hmode, getElem?_splice (by omega)]
  have key := slot_in_col hmode (m' := m) (by unfold iabs at hm; exact hm) h.mn
  have e : (c.nmax - m.natAbs + 1).toNat = v.length := by omega
  rw [e] at key
  rw [isMode_iff] at hmode
  by_cases hmm : m' = m
  · rw [if_pos (key.mpr hmm), if_pos hmm]
    subst hmm
    congr 1
    rw [slot_self hmode.2.2.1]; omega
  · rw [if_neg (fun hh => hmm (key.mp hh)), if_neg hmm]

theorem setCol_wf (h : c.WF) {m : Int} {val : Val α} : (c.setCol m val).st.WF ∧
    (c.setCol m val).st.nmax = c.nmax ∧ (c.setCol m val).st.mmax = c.mmax := by
  by_cases hv : iabs m ≤ c.mmax ∧ ∃ v, val = .seq v ∧ (v.length : Int) = c.nmax - m.natAbs + 1
  · obtain ⟨hm, v, rfl, hv⟩ := hv
    rw [setCol_eq h hm hv]
    have := col_le h hm
    exact ⟨h.of_set _ (length_splice (by omega)), rfl, rfl⟩
  · obtain ⟨e, he, _⟩ := setCol_error h hv
    rw [he]; exact ⟨h, rfl, rfl⟩

theorem setNM_wf (h : c.WF) {n m : Int} {val : Val α} : (c.setNM n m val).st.WF ∧
    (c.setNM n m val).st.nmax = c.nmax ∧ (c.setNM n m val).st.mmax = c.mmax := by
  by_cases hm : IsMode c.nmax c.mmax n m
  · cases val with
    | num v => rw [setNM_eq h hm]; exact ⟨h.of_set _ (by simp), rfl, rfl⟩
    | seq v =>
      have hm' := isMode_iff.mp hm
      unfold setNM
      rw [if_neg (by omega), if_neg (by unfold iabs; omega), mindx_eq (by unfold iabs; omega) h.mn]
      exact ⟨h, rfl, rfl⟩
  · obtain ⟨k, hk⟩ := setNM_error hm val
    rw [hk]; exact ⟨h, rfl, rfl⟩

theorem absMap_setNM (h : c.WF) {n m : Int} (hm : IsMode c.nmax c.mmax n m) (v : α) (n' m' : Int) :
    (c.setNM n m (.num v)).st.absMap n' m' =
      if n' = n ∧ m' = m then some v else c.absMap n' m' := by
  rw [setNM_eq h hm]
  unfold absMap
  simp only
  by_cases hmode : IsMode c.nmax c.mmax n' m'
  · rw [if_pos hmode, if_pos hmode, List.getElem?_set]
    by_cases e : n' = n ∧ m' = m
    · obtain ⟨rfl, rfl⟩ := e
      simp [h.slot_lt hm]
    · rw [if_neg e, if_neg]
      intro hh
      exact e (slot_inj hmode hm hh.symm)
  · rw [if_neg hmode, if_neg hmode, if_neg]
    rintro ⟨rfl, rfl⟩; exact hmode hm

end ScalarCoefs
end Verif
