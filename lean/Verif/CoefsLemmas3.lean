import Verif.CoefsLemmas2
import Verif.CoefsFn
import Mathlib.Algebra.BigOperators.Group.Finset.Basic
import Mathlib.Algebra.BigOperators.Group.Finset.Sigma
import Mathlib.Algebra.BigOperators.Fin
/-!
# Regrouping of the slots, 2-D representation (helper lemmas)
-/
namespace Verif
namespace ScalarCoefs
variable {α : Type} {c : ScalarCoefs α}

/-- Sum over the vector = sum over the modes. -/
theorem sum_vec {R : Type} [AddCommMonoid R] (h : c.WF) (f : α → R) :
    (c.vec.map f).sum = ∑ p ∈ modes c.nmax c.mmax, (c.absMap p.1 p.2).elim 0 f := by
  have e : (c.vec.map f).sum = ∑ i : Fin c.vec.length, f c.vec[i] := by
    rw [← List.sum_ofFn]
    congr 1
    apply List.ext_getElem (by simp)
    intro i h1 h2; simp
  rw [e]
  symm
  refine Finset.sum_bij' (i := fun p hp => (⟨slot c.nmax p.1 p.2, h.slot_lt (mem_modes.mp hp)⟩ : Fin _))
    (j := fun i _ => (Classical.choose (slot_surj h.m0 h.mn (by rw [← h.len']; exact i.isLt)),
      Classical.choose (Classical.choose_spec (slot_surj h.m0 h.mn (by rw [← h.len']; exact i.isLt)))))
    ?_ ?_ ?_ ?_ ?_
  · intro p hp; exact Finset.mem_univ _
  · intro i _
    have := Classical.choose_spec (Classical.choose_spec (slot_surj h.m0 h.mn (by rw [← h.len']; exact i.isLt)))
    exact mem_modes.mpr this.1
  · intro p hp
    have hp' := mem_modes.mp hp
    have := Classical.choose_spec (Classical.choose_spec (slot_surj h.m0 h.mn (j := slot c.nmax p.1 p.2)
      (Verif.slot_lt hp')))
    have k := slot_inj this.1 hp' this.2
    exact Prod.ext k.1 k.2
  · intro i _
    have := Classical.choose_spec (Classical.choose_spec (slot_surj h.m0 h.mn (by rw [← h.len']; exact i.isLt)))
    exact Fin.ext this.2
  · intro p hp
    rw [absMap_mode h (mem_modes.mp hp)]
    rfl

theorem sum_modes {R : Type} [AddCommMonoid R] {nmax mmax : Int} (f : Int → Int → R) :
    ∑ p ∈ modes nmax mmax, f p.1 p.2 =
      ∑ n ∈ Finset.Icc 0 nmax, ∑ m ∈ Finset.Icc (-(min n mmax)) (min n mmax), f n m := by
  rw [Finset.sum_sigma']
  refine Finset.sum_bij' (i := fun p _ => ⟨p.1, p.2⟩) (j := fun q _ => (q.1, q.2)) ?_ ?_ ?_ ?_ ?_
  · intro p hp
    have := mem_modes.mp hp
    rw [isMode_iff] at this
    simp only [Finset.mem_sigma, Finset.mem_Icc]; omega
  · intro q hq
    simp only [Finset.mem_sigma, Finset.mem_Icc] at hq
    apply mem_modes.mpr
    rw [isMode_iff]; omega
  · intros; rfl
  · intros; rfl
  · intros; rfl

/-- Sum over `xrange(a, b)` as a finset sum. -/
theorem sum_pyRange {R : Type} [AddCommMonoid R] (a b : Int) (f : Int → R) :
    ((pyRange a (b + 1)).map f).sum = ∑ m ∈ Finset.Icc a b, f m := by
  by_cases h : a ≤ b + 1
  · obtain ⟨k, hk⟩ : ∃ k : Nat, b = a + k - 1 := ⟨(b + 1 - a).toNat, by omega⟩
    subst hk
    clear h
    induction k with
    | zero => simp [pyRange_nil]
    | succ k ih =>
      have e1 : a + ((k + 1 : Nat) : Int) - 1 + 1 = (a + k - 1 + 1) + 1 := by push_cast; ring
      rw [e1, pyRange_succ (by omega), List.map_append, List.sum_append, ih]
      have e2 : Finset.Icc a (a + ((k + 1 : Nat) : Int) - 1) =
          insert (a + (k : Int)) (Finset.Icc a (a + k - 1)) := by
        ext x; simp only [Finset.mem_Icc, Finset.mem_insert]; omega
      rw [e2, Finset.sum_insert (by simp)]
      simp only [List.map_cons, List.map_nil, List.sum_cons, List.sum_nil, add_zero]
      rw [add_comm]
      congr 2; omega
  · rw [pyRange_nil (by omega), Finset.Icc_eq_empty (by omega)]; rfl

theorem row_sum {R : Type} [AddCommMonoid R] (h : c.WF) {n : Int} (hn : 0 ≤ n ∧ n ≤ c.nmax) (f : α → R)
    {l : List α} (hl : mapM' (pyRange (-(min n c.mmax)) (min n c.mmax + 1)) (fun m => c.getNM n m) = .ok l) :
    (l.map f).sum = ∑ m ∈ Finset.Icc (-(min n c.mmax)) (min n c.mmax), (c.absMap n m).elim 0 f := by
  rw [← sum_pyRange]
  congr 1
  obtain ⟨ys, e, hlen, hk⟩ := mapM'_spec (pyRange (-(min n c.mmax)) (min n c.mmax + 1))
    (fun m => c.getNM n m) (by
      intro m hm
      rw [mem_pyRange] at hm
      exact ⟨_, getNM_eq h (by rw [isMode_iff]; omega)⟩)
  rw [e] at hl
  cases hl
  apply List.ext_getElem (by simp [hlen])
  intro i h1 h2
  simp only [List.length_map] at h1 h2
  have := hk i h2 h1
  rw [getNM_abs h] at this
  simp [this]

theorem reshapeM_eq (h : c.WF) : ∃ lst, c.reshapeM = .ok lst ∧ (lst.length : Int) = c.nmax + 1 ∧
    ∀ n (hn : n < lst.length),
      mapM' (pyRange (-(min (n : Int) c.mmax)) (min (n : Int) c.mmax + 1)) (fun m => c.getNM n m) = .ok lst[n] := by
  unfold reshapeM
  have h0 := h.m0
  have h1 := h.mn
  obtain ⟨ys, e, hlen, hk⟩ := mapM'_spec (pyRange 0 (c.nmax + 1)) (fun n =>
    mapM' (pyRange (-(c.rowHalf n)) (c.rowHalf n + 1)) (fun m => c.getNM n m)) (by
      intro n hn
      rw [mem_pyRange] at hn
      obtain ⟨ys, e, _⟩ := mapM'_spec (pyRange (-(c.rowHalf n)) (c.rowHalf n + 1))
        (fun m => c.getNM n m) (by
          intro m hm
          rw [mem_pyRange, rowHalf_eq] at hm
          exact ⟨_, getNM_eq h (by rw [isMode_iff]; omega)⟩)
      exact ⟨ys, e⟩)
  rw [length_pyRange] at hlen
  refine ⟨ys, e, by omega, ?_⟩
  intro n hn
  have := hk n (by rw [length_pyRange]; omega) hn
  rw [getElem_pyRange] at this
  simp only [rowHalf_eq, zero_add] at this
  exact this

theorem list_sum_getElem {R : Type} [AddCommMonoid R] (l : List R) (N : Int) (hl : (l.length : Int) = N + 1)
    (f : Int → R) (hf : ∀ n (h : n < l.length), l[n] = f n) :
    l.sum = ∑ n ∈ Finset.Icc 0 N, f n := by
  rw [← sum_pyRange]
  congr 1
  apply List.ext_getElem (by simp [length_pyRange]; omega)
  intro i h1 h2
  simp [hf i h1, getElem_pyRange]

theorem angular_eq {R : Type} [CommSemiring R] (absf : α → R) (h : c.WF) :
    ∃ s, c.angularPowerSpectrum absf = .ok s ∧ (s.length : Int) = c.nmax + 1 ∧
    (∀ n (hn : n < s.length), s[n] = ∑ m ∈ Finset.Icc (-(min (n : Int) c.mmax)) (min (n : Int) c.mmax),
      (c.absMap n m).elim 0 (fun x => absf x ^ 2)) ∧
    s.sum = c.power absf := by
  obtain ⟨lst, e, hl, hk⟩ := reshapeM_eq h
  have hs : ∀ n (hn : n < lst.length), ((lst[n]).map (fun x => absf x ^ 2)).sum =
      ∑ m ∈ Finset.Icc (-(min (n : Int) c.mmax)) (min (n : Int) c.mmax),
      (c.absMap n m).elim 0 (fun x => absf x ^ 2) := by
    intro n hn
    exact row_sum h (by omega) _ (hk n hn)
  refine ⟨_, by unfold angularPowerSpectrum; rw [e]; rfl, by simpa using hl, ?_, ?_⟩
  · intro n hn
    simp only [List.length_map] at hn
    rw [List.getElem_map]
    exact hs n hn
  · unfold power
    rw [sum_vec h, sum_modes (f := fun n m => (c.absMap n m).elim 0 (fun x => absf x ^ 2))]
    apply list_sum_getElem
    · simpa using hl
    · intro n hn
      simp only [List.length_map] at hn
      rw [List.getElem_map]
      exact hs n hn

/-! ### `_array_2d_repr` -/

theorem reshapeN_eq (h : c.WF) : ∃ lst, c.reshapeN = .ok lst ∧
    (lst.length : Int) = 2 * c.mmax + 1 ∧
    ∀ m : Int, iabs m ≤ c.mmax → ∃ l, lst[ord m]? = some l ∧ c.getCol m = .ok l := by
  have h0 := h.m0
  unfold reshapeN
  rw [getCol_eq h (m := 0) (by unfold iabs; omega)]
  simp only [Except.bind_ok]
  obtain ⟨s, e, hi⟩ := forM'_range_inv (a := 1) (b := c.mmax + 1) (by omega)
    [List.drop (seg (c.nmax + 1).toNat (ord 0))
      (List.take (seg (c.nmax + 1).toNat (ord 0) + (c.nmax - ↑(Int.natAbs 0) + 1).toNat) c.vec)]
    (fun lst m => (c.getCol (-m)).bind fun a => (c.getCol m).bind fun b => .ok (lst ++ [a, b]))
    (fun k lst => (lst.length : Int) = 2 * k - 1 ∧
      ∀ m : Int, iabs m < k → ∃ l, lst[ord m]? = some l ∧ c.getCol m = .ok l)
    ⟨by simp, by
      intro m hm
      have : m = 0 := by unfold iabs at hm; omega
      subst this
      refine ⟨_, ?_, getCol_eq h (m := 0) (by unfold iabs; omega)⟩
      simp [ord]⟩
    (by
      rintro k lst hk1 hk2 ⟨hl, hv⟩
      rw [getCol_eq h (m := -k) (by unfold iabs; omega), getCol_eq h (m := k) (by unfold iabs; omega)]
      simp only [Except.bind_ok]
      refine ⟨_, rfl, by simp; omega, ?_⟩
      intro m hm
      by_cases hlt : iabs m < k
      · obtain ⟨l, a, b⟩ := hv m hlt
        refine ⟨l, ?_, b⟩
        rw [List.getElem?_append_left]
        · exact a
        · exact (List.getElem?_eq_some_iff.mp a).1
      · have hmk : m = k ∨ m = -k := by unfold iabs at *; omega
        rcases hmk with rfl | rfl
        · refine ⟨_, ?_, getCol_eq h (by unfold iabs; omega)⟩
          have hord : ord m = lst.length + 1 := by unfold ord; split <;> (try split) <;> omega
          rw [hord, List.getElem?_append_right (by omega)]
          simp
        · refine ⟨_, ?_, getCol_eq h (by unfold iabs; omega)⟩
          have hord : ord (-k) = lst.length := by unfold ord; split <;> (try split) <;> omega
          rw [hord, List.getElem?_append_right (by omega)]
          simp)
  refine ⟨s, e, by omega, ?_⟩
  intro m hm
  exact hi.2 m (by unfold iabs at *; omega)

theorem setColSlice_eq [Zero α] {A : Arr2 α} {lo hi col : Int} {v : List α}
    (h0 : 0 ≤ lo) (h1 : lo ≤ hi) (h2 : hi ≤ A.rows) (c0 : 0 ≤ col) (c1 : col < A.cols)
    (hv : (v.length : Int) = hi - lo) :
    setColSlice A lo hi col v = .ok (Arr2.ofFn A.rows A.cols (fun i k =>
      if k = col.toNat ∧ lo.toNat ≤ i ∧ i < hi.toNat then v.getD (i - lo.toNat) 0 else A.at' i k)) := by
  unfold setColSlice
  have ew : Arr2.wrap A.cols col = col.toNat := by unfold Arr2.wrap; rw [if_neg (by omega)]
  rw [clampIdx_of_le h0 (by omega), clampIdx_of_le (by omega) h2, ew]
  have e : max lo.toNat hi.toNat = hi.toNat := by omega
  simp only [e]
  rw [if_neg (by omega), if_pos (by omega)]

theorem array2d_eq [Zero α] (h : c.WF) : ∃ A, c.array2d = .ok A ∧
    (A.rows : Int) = c.nmax + 1 ∧ (A.cols : Int) = 2 * c.mmax + 1 ∧
    ∀ n m : Int, 0 ≤ n → n ≤ c.nmax → -c.mmax ≤ m → m ≤ c.mmax →
      A.at' n.toNat (c.mmax + m).toNat = (c.absMap n m).getD 0 := by
  have h0 := h.m0
  have h1 := h.mn
  obtain ⟨lst, e, hlen, hcol⟩ := reshapeN_eq h
  unfold array2d
  rw [if_neg (by omega), e]
  simp only [Except.bind_ok]
  have colVal : ∀ (m : Int), iabs m ≤ c.mmax → ((lst.getD (ord m) []).length : Int) = c.nmax - m.natAbs + 1 ∧
      ∀ n : Int, (m.natAbs : Int) ≤ n → n ≤ c.nmax →
        (lst.getD (ord m) []).getD (n - m.natAbs).toNat 0 = (c.absMap n m).getD 0 := by
    intro m hm
    obtain ⟨l, hl, hg⟩ := hcol m hm
    have hcl := col_le h hm
    have hm' := hm
    unfold iabs at hm'
    rw [getCol_eq h hm] at hg
    cases hg
    rw [List.getD_eq_getElem?_getD, hl]
    constructor
    · simp only [Option.getD_some, List.length_drop, List.length_take]; omega
    · intro n hn1 hn2
      have hmode : IsMode c.nmax c.mmax n m := by rw [isMode_iff]; omega
      simp only [Option.getD_some, List.getD_eq_getElem?_getD, List.getElem?_drop, List.getElem?_take]
      unfold absMap
      rw [if_pos hmode, if_pos (by omega), slot_self hn1]
  have eord0 : ord 0 = 0 := by simp [ord]
  have k0 := colVal 0 (by unfold iabs; omega)
  rw [eord0] at k0
  rw [setColSlice_eq (by omega) (by omega) (by simp) h0 (by simp; omega) (by simpa using k0.1)]
  simp only [Except.bind_ok, Arr2.rows_ofFn, Arr2.cols_ofFn]
  obtain ⟨A, eA, hr, hc, hv⟩ := forM'_range_inv (a := 1) (b := c.mmax + 1) (by omega)
    (Arr2.ofFn (c.nmax + 1).toNat (2 * c.mmax + 1).toNat fun i k =>
      if k = c.mmax.toNat ∧ Int.toNat 0 ≤ i ∧ i < (c.nmax + 1).toNat then
        (lst.getD 0 []).getD (i - Int.toNat 0) 0
      else (Arr2.ofFn (c.nmax + 1).toNat (2 * c.mmax + 1).toNat fun _ _ => (0 : α)).at' i k)
    (fun A m => (setColSlice A m (c.nmax + 1) (c.mmax - m) (lst.getD (2 * m - 1).toNat [])).bind fun A' =>
      setColSlice A' m (c.nmax + 1) (c.mmax + m) (lst.getD (2 * m).toNat []))
    (fun k A => A.rows = (c.nmax + 1).toNat ∧ A.cols = (2 * c.mmax + 1).toNat ∧
      ∀ n m : Int, 0 ≤ n → n ≤ c.nmax → -c.mmax ≤ m → m ≤ c.mmax →
        A.at' n.toNat (c.mmax + m).toNat = if iabs m < k then (c.absMap n m).getD 0 else 0)
    ⟨rfl, rfl, by
      intro n m hn0 hn1 hm0 hm1
      rw [Arr2.at'_ofFn (by omega) (by omega)]
      by_cases hz : m = 0
      · subst hz
        rw [if_pos (by omega), if_pos (by unfold iabs; omega)]
        have := k0.2 n (by omega) hn1
        simp only [Int.toNat_zero, Nat.sub_zero]
        simpa using this
      · rw [if_neg (by omega), if_neg (by unfold iabs; omega), Arr2.at'_ofFn (by omega) (by omega)]⟩
    (by
      rintro k A hk1 hk2 ⟨hr, hc, hv⟩
      have kn := colVal (-k) (by unfold iabs; omega)
      have kp := colVal k (by unfold iabs; omega)
      have on : ord (-k) = (2 * k - 1).toNat := by unfold ord; split <;> (try split) <;> omega
      have op : ord k = (2 * k).toNat := by unfold ord; split <;> (try split) <;> omega
      rw [on] at kn
      rw [op] at kp
      rw [setColSlice_eq (by omega) (by omega) (by omega) (by omega) (by omega) (by rw [kn.1]; omega)]
      simp only [Except.bind_ok]
      rw [setColSlice_eq (by omega) (by omega) (by simp [hr]) (by omega) (by simp [hc]; omega)
        (by rw [kp.1]; omega)]
      refine ⟨_, rfl, hr, hc, ?_⟩
      intro n m hn0 hn1 hm0 hm1
      rw [Arr2.at'_ofFn (by simp; omega) (by simp; omega), Arr2.at'_ofFn (by omega) (by omega)]
      have hout : ∀ m : Int, (m.natAbs : Int) > n → c.absMap n m = none := by
        intro m hm
        unfold absMap
        rw [if_neg]; rw [isMode_iff]; omega
      by_cases p : m = k
      · subst p
        by_cases q : m ≤ n
        · rw [if_pos (by omega), if_pos (by unfold iabs; omega)]
          have := kp.2 n (by omega) hn1
          rw [← this]; congr 1; omega
        · rw [if_neg (by omega), if_neg (by omega), hv n m hn0 hn1 hm0 hm1, if_neg (by unfold iabs; omega),
            if_pos (by unfold iabs; omega), hout m (by omega)]
          rfl
      · rw [if_neg (by omega)]
        by_cases p' : m = -k
        · subst p'
          by_cases q : k ≤ n
          · rw [if_pos (by omega), if_pos (by unfold iabs; omega)]
            have := kn.2 n (by omega) hn1
            rw [← this]; congr 1; omega
          · rw [if_neg (by omega), hv n (-k) hn0 hn1 hm0 hm1, if_neg (by unfold iabs; omega),
              if_pos (by unfold iabs; omega), hout (-k) (by omega)]
            rfl
        · rw [if_neg (by omega), hv n m hn0 hn1 hm0 hm1]
          by_cases r : iabs m < k
          · rw [if_pos r, if_pos (by omega)]
          · rw [if_neg r, if_neg (by unfold iabs at *; omega)])
  refine ⟨A, eA, by omega, by omega, ?_⟩
  intro n m hn0 hn1 hm0 hm1
  rw [hv n m hn0 hn1 hm0 hm1, if_pos (by unfold iabs; omega)]

end ScalarCoefs
end Verif
