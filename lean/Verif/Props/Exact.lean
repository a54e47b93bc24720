import Verif.Props.Coefs3
/-!
# What the code does where a property fails (C04, C10, C11, C18)

For the properties the code does not have in full, the exact behaviour over the whole quantifier: when the call succeeds, what it
returns then, and which exception it raises otherwise.
-/
namespace Verif.Props
open Verif
variable {α : Type}

/-! ## C04: constructors and factories, all integers including negative ones -/

/-- **C04, actual behaviour of `ScalarCoefs(vec, nmax, mmax)`** for all integers: it succeeds iff `mmax ≤ nmax` and the length is
`(nmax+1) + mmax (2 nmax - mmax + 1)` (the number of modes when `0 ≤ mmax`, but not otherwise), and raises ValueError otherwise. -/
theorem c04_actual (vec : List α) (nmax mmax : Int) :
    ((mmax ≤ nmax ∧ (vec.length : Int) = (nmax + 1) + mmax * (2 * nmax - mmax + 1)) →
      ScalarCoefs.init (.arr vec) nmax mmax = .ok ⟨vec, nmax, mmax⟩) ∧
    (¬ (mmax ≤ nmax ∧ (vec.length : Int) = (nmax + 1) + mmax * (2 * nmax - mmax + 1)) →
      Res.Raises (ScalarCoefs.init (.arr vec) nmax mmax) .valueError) := by
  have e : ncFormula nmax mmax = (nmax + 1) + mmax * (2 * nmax - mmax + 1) := by unfold ncFormula; ring
  unfold ScalarCoefs.init
  rw [← e]
  constructor
  · rintro ⟨h1, h2⟩
    rw [if_neg (by omega)]; simp [h2]
  · intro h
    by_cases h1 : mmax > nmax
    · rw [if_pos h1]; exact ⟨_, rfl⟩
    · rw [if_neg h1]; simp only
      rw [if_pos (by omega)]; exact ⟨_, rfl⟩

/-- With `mmax < 0 ≤ nmax` no vector is accepted; the wrongly accepted limits all have `nmax < 0`. -/
theorem c04_accepted_negative (vec : List α) (nmax mmax : Int) (c : ScalarCoefs α)
    (h : ScalarCoefs.init (.arr vec) nmax mmax = .ok c) : c.WellFormed ∨ nmax < 0 ∧ mmax < 0 := by
  by_cases hn : 0 ≤ nmax
  · left
    obtain ⟨k1, k2⟩ := c04_constructor_partial vec nmax mmax hn
    by_cases hh : 0 ≤ mmax ∧ mmax ≤ nmax ∧ vec.length = (modes nmax mmax).card
    · rw [k1 hh] at h; cases h; exact ⟨hh.1, hh.2.1, hh.2.2⟩
    · obtain ⟨k, e⟩ := k2 hh; rw [e] at h; cases h
  · right
    have := (c04_actual vec nmax mmax).2
    by_cases hh : mmax ≤ nmax
    · omega
    · obtain ⟨k, e⟩ := this (fun g => hh g.1); rw [e] at h; cases h

section Zero
variable [Add α] [Sub α] [Mul α] [Div α] [Zero α] [DecidableEq α]

/-- **C04 (VectorCoefs).** With `0 ≤ mmax ≤ nmax` the constructor succeeds iff both vectors have one entry per mode. The result
then holds the two vectors at all modes with `n ≥ 1`, and no monopoles; otherwise ValueError is raised. -/
theorem c04_vector_constructor (v1 v2 : List α) (nmax mmax : Int) (hn : 0 ≤ nmax) :
    ((0 ≤ mmax ∧ mmax ≤ nmax ∧ v1.length = (modes nmax mmax).card ∧ v2.length = (modes nmax mmax).card) →
      ∃ c, VectorCoefs.init (.arr v1) (.arr v2) nmax mmax = .ok c ∧ c.WellFormed ∧ c.nmax = nmax ∧ c.mmax = mmax ∧
        readMap c.scoef1 0 0 = some 0 ∧ readMap c.scoef2 0 0 = some 0 ∧
        ∀ n m, n ≠ 0 → readMap c.scoef1 n m = readMap ⟨v1, nmax, mmax⟩ n m ∧ readMap c.scoef2 n m = readMap ⟨v2, nmax, mmax⟩ n m) ∧
    (¬ (0 ≤ mmax ∧ mmax ≤ nmax ∧ v1.length = (modes nmax mmax).card ∧ v2.length = (modes nmax mmax).card) →
      Res.Raises (VectorCoefs.init (.arr v1) (.arr v2) nmax mmax) .valueError) := by
  constructor
  · rintro ⟨h0, h1, l1, l2⟩
    have k1 : ncFormula nmax mmax = v1.length := by rw [← modes_card' h0 h1, l1]
    have k2 : ncFormula nmax mmax = v2.length := by rw [← modes_card' h0 h1, l2]
    refine ⟨_, vinit_wf h0 h1 k1 k2, ⟨⟨h0, h1, by simpa using l1⟩, ⟨h0, h1, by simpa using l2⟩, rfl, rfl, rfl, rfl⟩, rfl, rfl, ?_⟩
    have w : ∀ v : List α, v.length = (modes nmax mmax).card → (ScalarCoefs.mk v nmax mmax).WellFormed := fun v hv => ⟨h0, h1, hv⟩
    have hm0 : IsMode nmax mmax 0 0 := by rw [isMode_iff]; omega
    have z : ∀ v : List α, v.length = (modes nmax mmax).card → readMap (ScalarCoefs.mk (v.set 0 0) nmax mmax) 0 0 = some 0 := by
      intro v hv
      have hw := w (v.set 0 0) (by simpa using hv)
      rw [readMap_eq hw.wf, ScalarCoefs.absMap]
      simp only
      rw [if_pos hm0]
      have hs : slot nmax 0 0 = 0 := rfl
      have hlt := slot_lt hm0
      rw [← modes_card h0 h1, ← hv, hs] at hlt
      rw [hs, List.getElem?_set_self hlt]
    have r : ∀ v : List α, v.length = (modes nmax mmax).card → ∀ n m, n ≠ 0 →
        readMap (ScalarCoefs.mk (v.set 0 0) nmax mmax) n m = readMap ⟨v, nmax, mmax⟩ n m := by
      intro v hv n m hne
      rw [readMap_eq (w (v.set 0 0) (by simpa using hv)).wf, readMap_eq (w v hv).wf, ScalarCoefs.absMap, ScalarCoefs.absMap]
      simp only
      by_cases hm : IsMode nmax mmax n m
      · rw [if_pos hm, if_pos hm]
        have hm' := isMode_iff.mp hm
        have hs := slot_ne_zero (nmax := nmax) (n := n) (m := m) (by omega) (by omega) (by omega)
        rw [List.getElem?_set_ne (Ne.symm hs)]
      · rw [if_neg hm, if_neg hm]
    exact ⟨z v1 l1, z v2 l2, fun n m hne => ⟨r v1 l1 n m hne, r v2 l2 n m hne⟩⟩
  · intro h
    unfold VectorCoefs.init
    simp only
    by_cases h1 : v1.length ≠ v2.length
    · rw [if_pos h1]; exact ⟨_, rfl⟩
    rw [if_neg h1]
    by_cases h2 : mmax > nmax
    · rw [if_pos h2]; exact ⟨_, rfl⟩
    rw [if_neg h2, if_pos]
    · exact ⟨_, rfl⟩
    · intro e
      by_cases h0 : 0 ≤ mmax
      · rw [← modes_card' h0 (by omega)] at e
        exact h ⟨h0, by omega, by omega, by omega⟩
      · have := ncFormula_neg_of_mmax_neg hn (by omega : mmax < 0)
        omega

/-- **C04 (vector factories).** `zeros_coefs`/`ones_coefs` of type vector: the constant at every mode with `n ≥ 1` of both components,
no monopoles. -/
theorem c04_factory_vector (x : α) (nmax mmax : Int) (h0 : 0 ≤ mmax) (h1 : mmax ≤ nmax) :
    ∃ c, coefFactory x nmax mmax 1 = .ok (.inr c) ∧ c.WellFormed ∧ c.nmax = nmax ∧ c.mmax = mmax ∧
      readMap c.scoef1 0 0 = some 0 ∧ readMap c.scoef2 0 0 = some 0 ∧
      ∀ n m, IsMode nmax mmax n m → n ≠ 0 → readMapV c n m = some (x, x) := by
  have hl : lFormula nmax mmax = (modes nmax mmax).card := by rw [lFormula_eq, modes_card' h0 h1]
  obtain ⟨c, e, hw, c1, c2, z1, z2, hr⟩ := (c04_vector_constructor (List.replicate (modes nmax mmax).card x)
    (List.replicate (modes nmax mmax).card x) nmax mmax (by omega)).1 ⟨h0, h1, by simp, by simp⟩
  refine ⟨c, ?_, hw, c1, c2, z1, z2, ?_⟩
  · unfold coefFactory fullVCoefs
    rw [if_neg (by omega), if_neg (by omega), if_pos rfl, if_neg (by omega), hl, ScalarCoefs.npFull_of_nonneg (by omega)]
    simp only [Except.bind_ok, Int.toNat_natCast, e]
  · intro n m hm hne
    obtain ⟨r1, r2⟩ := hr n m hne
    have hw' : (ScalarCoefs.mk (List.replicate (modes nmax mmax).card x) nmax mmax).WellFormed := ⟨h0, h1, by simp⟩
    have hx : readMap (ScalarCoefs.mk (List.replicate (modes nmax mmax).card x) nmax mmax) n m = some x := by
      rw [readMap_eq hw'.wf, ScalarCoefs.absMap_mode hw'.wf hm]; simp
    rw [hx] at r1 r2
    rw [readMap_eq hw.wf1.wf] at r1
    rw [readMap_eq hw.wf2.wf] at r2
    rw [readMapV_eq hw, if_neg hne, r1, r2]; rfl

end Zero

example : ∃ c, VectorCoefs.init (.arr [(9 : Int), 2, 3, 4]) (.arr [9, 5, 6, 7]) 1 1 = .ok c ∧ c.scoef1.vec = [0, 2, 3, 4] := ⟨_, rfl, rfl⟩
example : (4 : ℕ) = (modes 1 1).card := by decide

/-! ## C10, C11: operators on sets of different shapes -/

section Arith
variable [Add α] [Sub α] [Mul α] [Div α] [Zero α] [DecidableEq α]

/-- **C10, actual behaviour**: `a op b` raises ValueError iff the two sets have different numbers of modes; otherwise the result has the
limits of `a` and combines the two coefficient lists position by position. -/
theorem c10_actual (op : Op) (a b : ScalarCoefs α) (ha : a.WellFormed) (hb : b.WellFormed) :
    ((modes a.nmax a.mmax).card ≠ (modes b.nmax b.mmax).card → Res.Raises (a.opLeft op (.obj b)) .valueError) ∧
    ((modes a.nmax a.mmax).card = (modes b.nmax b.mmax).card →
      ∃ r, a.opLeft op (.obj b) = .ok r ∧ r.WellFormed ∧ r.nmax = a.nmax ∧ r.mmax = a.mmax ∧
        ∀ (i : ℕ) x y, a.vec[i]? = some x → b.vec[i]? = some y → r.vec[i]? = some (specOp op x y)) := by
  rw [← ha.length_eq, ← hb.length_eq]
  unfold ScalarCoefs.opLeft
  simp only
  constructor
  · intro h; rw [if_neg h]; exact ⟨_, rfl⟩
  · intro h
    rw [if_pos h]
    have hl : (List.zipWith op.eval a.vec b.vec).length = (modes a.nmax a.mmax).card := by simp [← h, ha.length_eq]
    refine ⟨_, ScalarCoefs.init_wf ha.1 ha.2 (by rw [← modes_card' ha.1 ha.2, hl]), ⟨ha.1, ha.2, hl⟩, rfl, rfl, fun i x y hx hy => ?_⟩
    rw [List.getElem?_zipWith, hx, hy, ← eval_specOp]

/-- **C11, actual behaviour**: `a op b` for vector sets raises ValueError iff the numbers of modes differ and `b` is not a (0,0) set.
With a (0,0) set on the right (whose only entries are the zero monopoles of C04) every coefficient of `a` is combined with that entry. -/
theorem c11_actual (op : Op) (a b : VectorCoefs α) (ha : a.WellFormed) (hb : b.WellFormed) :
    ((modes a.nmax a.mmax).card ≠ (modes b.nmax b.mmax).card → (b.nmax ≠ 0 ∨ b.mmax ≠ 0) → Res.Raises (a.opLeft op (.obj b)) .valueError) ∧
    ((modes a.nmax a.mmax).card = (modes b.nmax b.mmax).card →
      ∃ r, a.opLeft op (.obj b) = .ok r ∧ r.WellFormed ∧ r.nmax = a.nmax ∧ r.mmax = a.mmax ∧
        ∀ i : ℕ, i ≠ 0 → ∀ x y z w, a.scoef1.vec[i]? = some x → b.scoef1.vec[i]? = some y → a.scoef2.vec[i]? = some z → b.scoef2.vec[i]? = some w →
          r.scoef1.vec[i]? = some (specOp op x y) ∧ r.scoef2.vec[i]? = some (specOp op z w)) ∧
    (b.nmax = 0 → b.mmax = 0 → ∀ u1 u2, readMap b.scoef1 0 0 = some u1 → readMap b.scoef2 0 0 = some u2 →
      ∃ r, a.opLeft op (.obj b) = .ok r ∧ r.WellFormed ∧ r.nmax = a.nmax ∧ r.mmax = a.mmax ∧
        ∀ n m x y, readMapV a n m = some (x, y) → readMapV r n m = some (specOp op x u1, specOp op y u2)) := by
  have h0 : 0 ≤ a.mmax := by rw [← ha.m1]; exact ha.wf1.1
  have h1 : a.mmax ≤ a.nmax := by rw [← ha.m1, ← ha.n1]; exact ha.wf1.2
  have h0' : 0 ≤ b.mmax := by rw [← hb.m1]; exact hb.wf1.1
  have h1' : b.mmax ≤ b.nmax := by rw [← hb.m1, ← hb.n1]; exact hb.wf1.2
  have la1 := ha.wf1.length_eq; have la2 := ha.wf2.length_eq
  have lb1 := hb.wf1.length_eq; have lb2 := hb.wf2.length_eq
  rw [ha.n1, ha.m1] at la1; rw [ha.n2, ha.m2] at la2
  rw [hb.n1, hb.m1] at lb1; rw [hb.n2, hb.m2] at lb2
  refine ⟨fun h hne => c11_mismatch_partial op a b ha hb h ?_, fun h => ?_, fun hn hm u1 u2 hu1 hu2 => ?_⟩
  · have e := modes_card' h0' h1'
    intro e1
    rw [e1] at e
    unfold ncFormula at e
    push_cast at e
    have h2 : 0 ≤ b.mmax * (2 * (b.nmax + 1) - b.mmax - 1) := mul_nonneg h0' (by omega)
    omega
  · have e1 : a.scoef1.vec.length = b.scoef1.vec.length := by omega
    have e2 : a.scoef2.vec.length = b.scoef2.vec.length := by omega
    have hc := modes_card' h0 h1
    have k1 : ncFormula a.nmax a.mmax = (List.zipWith op.eval a.scoef1.vec b.scoef1.vec).length := by
      rw [List.length_zipWith, ← e1]; omega
    have k2 : ncFormula a.nmax a.mmax = (List.zipWith op.eval a.scoef2.vec b.scoef2.vec).length := by
      rw [List.length_zipWith, ← e2]; omega
    have hr := vwf_of_lists (α := α) (v1 := (List.zipWith op.eval a.scoef1.vec b.scoef1.vec).set 0 0)
      (v2 := (List.zipWith op.eval a.scoef2.vec b.scoef2.vec).set 0 0) h0 h1 (by simpa using k1) (by simpa using k2)
    refine ⟨_, ?_, hr, rfl, rfl, ?_⟩
    · unfold VectorCoefs.opLeft
      simp only [if_true]
      rw [ScalarCoefs.bcast_eq _ e1, ScalarCoefs.bcast_eq _ e2]
      simp only [Except.bind_ok]
      rw [vinit_wf h0 h1 k1 k2]
    · intro i hi x y z w hx hy hz hw
      rw [List.getElem?_set_ne (Ne.symm hi), List.getElem?_set_ne (Ne.symm hi), List.getElem?_zipWith, List.getElem?_zipWith,
        hx, hy, hz, hw, ← eval_specOp]
      exact ⟨rfl, rfl⟩
  · have hbc : (modes b.nmax b.mmax).card = 1 := by
      have e := modes_card' h0' h1'
      rw [hn, hm] at e ⊢
      unfold ncFormula at e
      push_cast at e
      omega
    obtain ⟨y1, hy1⟩ := List.length_eq_one_iff.mp (show b.scoef1.vec.length = 1 by omega)
    obtain ⟨y2, hy2⟩ := List.length_eq_one_iff.mp (show b.scoef2.vec.length = 1 by omega)
    have q : ∀ (s : ScalarCoefs α) (u y : α), s.WellFormed → s.vec = [y] → readMap s 0 0 = some u → u = y := by
      intro s u y hs hv hr
      rw [readMap_eq hs.wf] at hr
      unfold ScalarCoefs.absMap at hr
      split at hr
      · have hs0 : slot s.nmax 0 0 = 0 := rfl
        rw [hs0, hv] at hr
        simpa using hr.symm
      · cases hr
    have qu1 := q _ _ _ hb.wf1 hy1 hu1
    have qu2 := q _ _ _ hb.wf2 hy2 hu2
    subst qu1 qu2
    have bc : ∀ (l : List α) (y : α), l ≠ [] → bcast op.eval l [y] = .ok (l.map fun x => op.eval x y) := by
      intro l y hl
      unfold bcast
      rcases l with _ | ⟨x, _ | ⟨x', l⟩⟩
      · exact absurd rfl hl
      · rfl
      · rfl
    have hc := modes_card' h0 h1
    have hpos : 0 < (modes a.nmax a.mmax).card := Finset.card_pos.mpr ⟨(0, 0), mem_modes.mpr (by rw [isMode_iff]; simp only; omega)⟩
    have ne1 : a.scoef1.vec ≠ [] := by intro e; rw [e] at la1; simp at la1; omega
    have ne2 : a.scoef2.vec ≠ [] := by intro e; rw [e] at la2; simp at la2; omega
    have k1 : ncFormula a.nmax a.mmax = (a.scoef1.vec.map fun x => op.eval x u1).length := by rw [List.length_map]; omega
    have k2 : ncFormula a.nmax a.mmax = (a.scoef2.vec.map fun x => op.eval x u2).length := by rw [List.length_map]; omega
    have hr := vwf_of_lists (α := α) (v1 := (a.scoef1.vec.map fun x => op.eval x u1).set 0 0)
      (v2 := (a.scoef2.vec.map fun x => op.eval x u2).set 0 0) h0 h1 (by simpa using k1) (by simpa using k2)
    refine ⟨_, ?_, hr, rfl, rfl, ?_⟩
    · unfold VectorCoefs.opLeft
      simp only [if_true]
      rw [hy1, hy2, bc _ _ ne1, bc _ _ ne2]
      simp only [Except.bind_ok]
      rw [vinit_wf h0 h1 k1 k2]
    · intro n m x y hx
      rw [readMapV_eq ha] at hx
      rw [readMapV_eq hr]
      by_cases hz : n = 0
      · rw [if_pos hz] at hx; cases hx
      rw [if_neg hz] at hx ⊢
      unfold ScalarCoefs.absMap at *
      simp only at *
      rw [ha.n1, ha.m1, ha.n2, ha.m2] at hx
      by_cases hmode : IsMode a.nmax a.mmax n m
      · rw [if_pos hmode, if_pos hmode] at hx ⊢
        have hmode' := isMode_iff.mp hmode
        have hs := slot_ne_zero (nmax := a.nmax) (n := n) (m := m) (by omega) (by omega) (by omega)
        obtain ⟨p1, hp1, hp2⟩ := Option.bind_eq_some_iff.mp hx
        obtain ⟨p2, hp3, hp4⟩ := Option.map_eq_some_iff.mp hp2
        cases hp4
        rw [List.getElem?_set_ne (Ne.symm hs), List.getElem?_set_ne (Ne.symm hs), List.getElem?_map, List.getElem?_map, hp1, hp3,
          ← eval_specOp]
        rfl
      · rw [if_neg hmode] at hx; cases hx

end Arith

example : (modes 3 0).card = (modes 1 1).card ∧ (modes 2 1).card ≠ (modes 1 1).card := by decide

/-! ## C18 -/

/-- **C18, actual behaviour of `mag2` on a scalar set**: it returns exactly what `mag` and `abs` return, the magnitudes. -/
theorem c18_mag2_actual (c : ScalarCoefs ℂ) (hc : c.WellFormed) :
    mag2SC c = absSC c ∧ ∃ d, mag2SC c = .ok d ∧ d.WellFormed ∧ d.nmax = c.nmax ∧ d.mmax = c.mmax ∧
      ∀ n m, readMap d n m = (readMap c n m).map (fun x => ‖x‖) :=
  ⟨rfl, c18_mag_coefs_partial.1 c hc⟩

end Verif.Props
