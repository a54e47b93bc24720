import Verif.CoefsLemmas
/-!
# Rows, truncation, windows, regrouping (helper lemmas)
-/
namespace Verif

theorem mapM'_spec {ι β : Type} (xs : List ι) (body : ι → Res β)
    (h : ∀ x ∈ xs, ∃ y, body x = .ok y) :
    ∃ ys, mapM' xs body = .ok ys ∧ ys.length = xs.length ∧
      ∀ k (h1 : k < xs.length) (h2 : k < ys.length), body xs[k] = .ok ys[k] := by
  induction xs with
  | nil => exact ⟨[], rfl, rfl, by simp⟩
  | cons x xs ih =>
    obtain ⟨y, hy⟩ := h x (by simp)
    obtain ⟨ys, e, hl, hk⟩ := ih (fun z hz => h z (by simp [hz]))
    refine ⟨y :: ys, by simp [mapM', hy, e], by simp [hl], ?_⟩
    intro k h1 h2
    cases k with
    | zero => simpa using hy
    | succ k => simpa using hk k (by simpa using h1) (by simpa using h2)

/-- Loop invariant rule for effectful loops over `xrange(a, b)`. -/
theorem Eff.forEach_append {σ ι : Type} (xs ys : List ι) (s : σ) (body : σ → ι → Eff σ) :
    Eff.forEach (xs ++ ys) s body = (Eff.forEach xs s body).andThen (fun s' => Eff.forEach ys s' body) := by
  induction xs generalizing s with
  | nil => rfl
  | cons x xs ih =>
    simp only [List.cons_append, Eff.forEach]
    cases hb : body s x with
    | mk st err =>
      cases err with
      | none => simpa [Eff.andThen] using ih st
      | some e => simp [Eff.andThen]

theorem Eff.forEach_range_inv {σ : Type} {a b : Int} (hab : a ≤ b) (s : σ) (body : σ → Int → Eff σ)
    (Inv : Int → σ → Prop) (h0 : Inv a s)
    (hstep : ∀ i s, a ≤ i → i < b → Inv i s → (body s i).err = none ∧ Inv (i + 1) (body s i).st) :
    (Eff.forEach (pyRange a b) s body).err = none ∧ Inv b (Eff.forEach (pyRange a b) s body).st := by
  obtain ⟨n, rfl⟩ : ∃ n : Nat, b = a + n := ⟨(b - a).toNat, by omega⟩
  clear hab
  induction n with
  | zero => simpa [pyRange_nil, Eff.forEach] using h0
  | succ n ih =>
    obtain ⟨e1, i1⟩ := ih (fun i s h1 h2 h3 => hstep i s h1 (by omega) h3)
    have h2 := hstep (a + n) _ (by omega) (by omega) i1
    have : a + ((n + 1 : Nat) : Int) = (a + n) + 1 := by omega
    rw [this, pyRange_succ (by omega), Eff.forEach_append]
    simp only [Eff.andThen, e1, Eff.forEach, h2.1]
    exact ⟨trivial, h2.2⟩

namespace ScalarCoefs
variable {α : Type} {c : ScalarCoefs α}

theorem rowHalf_eq {n : Int} : c.rowHalf n = min n c.mmax := by
  unfold rowHalf; split <;> omega

theorem getRow_eq (h : c.WF) {n : Int} (hn : 0 ≤ n ∧ n ≤ c.nmax) :
    ∃ l, c.getRow n = .ok l ∧ (l.length : Int) = 2 * min n c.mmax + 1 ∧
      ∀ k (hk : k < l.length), c.getNM n (-(min n c.mmax) + k) = .ok l[k] := by
  unfold getRow
  rw [if_neg (by omega), rowHalf_eq]
  have h0 := h.m0
  obtain ⟨ys, e, hl, hk⟩ := mapM'_spec (pyRange (-(min n c.mmax)) (min n c.mmax + 1))
    (fun m => c.getNM n m) (by
      intro m hm
      rw [mem_pyRange] at hm
      exact ⟨_, getNM_eq h (by rw [isMode_iff]; omega)⟩)
  rw [length_pyRange] at hl
  refine ⟨ys, e, by omega, ?_⟩
  intro k hk'
  have := hk k (by rw [length_pyRange]; omega) hk'
  rw [getElem_pyRange] at this
  exact this

theorem getRow_error {n : Int} (hn : ¬ (0 ≤ n ∧ n ≤ c.nmax)) :
    c.getRow n = .error (raise .attributeError "m_out_bound") := by
  unfold getRow; rw [if_pos (by omega)]

theorem setRow_error {n : Int} {val : Val α}
    (hv : ¬ ((0 ≤ n ∧ n ≤ c.nmax) ∧ ∃ v, val = .seq v ∧ (v.length : Int) = 2 * n + 1)) :
    ∃ e, c.setRow n val = ⟨c, some e⟩ ∧ (e.cls = .attributeError ∨ ∃ x, val = .num x) := by
  unfold setRow
  by_cases hn : 0 ≤ n ∧ n ≤ c.nmax
  · rw [if_neg (by omega)]
    cases val with
    | num x => exact ⟨_, rfl, .inr ⟨x, rfl⟩⟩
    | seq v =>
      simp only
      rw [if_pos]
      · exact ⟨_, rfl, .inl rfl⟩
      · intro hl; exact hv ⟨hn, v, rfl, hl⟩
  · rw [if_pos (by omega)]; exact ⟨_, rfl, .inl rfl⟩

theorem setRow_eq (h : c.WF) {n : Int} (hn : 0 ≤ n ∧ n ≤ c.nmax) {v : List α}
    (hv : (v.length : Int) = 2 * n + 1) :
    (c.setRow n (.seq v)).err = none ∧ (c.setRow n (.seq v)).st.WF ∧
    (c.setRow n (.seq v)).st.nmax = c.nmax ∧ (c.setRow n (.seq v)).st.mmax = c.mmax ∧
    ∀ n' m', IsMode c.nmax c.mmax n' m' → (c.setRow n (.seq v)).st.absMap n' m' =
      if n' = n then v[(m' + min n c.mmax).toNat]? else c.absMap n' m' := by
  have h0 := h.m0
  unfold setRow
  rw [if_neg (by omega)]
  simp only
  rw [if_neg (by omega), rowHalf_eq]
  have key := Eff.forEach_range_inv (a := 0) (b := 2 * min n c.mmax + 1) (by omega) c
    (fun c' k => match getIdx v k with
          | .error e => ⟨c', some e⟩
          | .ok x => c'.setNM n (k - min n c.mmax) (.num x))
    (fun k c' => c'.WF ∧ c'.nmax = c.nmax ∧ c'.mmax = c.mmax ∧
      ∀ n' m', IsMode c.nmax c.mmax n' m' → c'.absMap n' m' =
        if n' = n ∧ m' + min n c.mmax < k then v[(m' + min n c.mmax).toNat]? else c.absMap n' m')
    ⟨h, rfl, rfl, by
      intro n' m' hm
      rw [isMode_iff] at hm
      rw [if_neg (by omega)]⟩
    (by
      rintro k c' hk0 hk1 ⟨hw, e1, e2, ih⟩
      rw [getIdx_of_lt hk0 (by omega)]
      simp only
      have hm : IsMode c'.nmax c'.mmax n (k - min n c.mmax) := by rw [isMode_iff, e1, e2]; omega
      have hwf := setNM_wf hw (n := n) (m := k - min n c.mmax) (val := .num (v[k.toNat]'(by omega)))
      refine ⟨by rw [setNM_eq hw hm], hwf.1, by rw [hwf.2.1, e1], by rw [hwf.2.2, e2], ?_⟩
      intro n' m' hm'
      rw [absMap_setNM hw hm, ih n' m' hm']
      rw [isMode_iff] at hm'
      by_cases hc : n' = n ∧ m' = k - min n c.mmax
      · obtain ⟨rfl, rfl⟩ := hc
        rw [if_pos ⟨rfl, rfl⟩, if_pos (by omega)]
        have : k - min n' c.mmax + min n' c.mmax = k := by omega
        rw [this, List.getElem?_eq_getElem (by omega)]
      · rw [if_neg hc]
        by_cases hd : n' = n ∧ m' + min n c.mmax < k
        · rw [if_pos hd, if_pos (by omega)]
        · rw [if_neg hd, if_neg (by omega)])
  refine ⟨key.1, key.2.1, key.2.2.1, key.2.2.2.1, ?_⟩
  intro n' m' hm
  refine (key.2.2.2.2 n' m' hm).trans ?_
  rw [isMode_iff] at hm
  by_cases hn' : n' = n
  · rw [if_pos (by omega), if_pos hn']
  · rw [if_neg (by omega), if_neg hn']

theorem setRow_wf (h : c.WF) {n : Int} {val : Val α} : (c.setRow n val).st.WF ∧
    (c.setRow n val).st.nmax = c.nmax ∧ (c.setRow n val).st.mmax = c.mmax := by
  by_cases hv : (0 ≤ n ∧ n ≤ c.nmax) ∧ ∃ v, val = .seq v ∧ (v.length : Int) = 2 * n + 1
  · obtain ⟨hn, v, rfl, hv⟩ := hv
    have := setRow_eq h hn hv
    exact ⟨this.2.1, this.2.2.1, this.2.2.2.1⟩
  · obtain ⟨e, he, _⟩ := setRow_error hv
    rw [he]; exact ⟨h, rfl, rfl⟩

theorem setitem_wf (h : c.WF) {arg : List Arg} {val : Val α} : (c.setitem arg val).st.WF ∧
    (c.setitem arg val).st.nmax = c.nmax ∧ (c.setitem arg val).st.mmax = c.mmax := by
  unfold setitem
  split
  · split
    · exact setCol_wf h
    · exact ⟨h, rfl, rfl⟩
  · split
    · exact setRow_wf h
    · exact ⟨h, rfl, rfl⟩
  · exact setNM_wf h
  · exact ⟨h, rfl, rfl⟩
  · exact ⟨h, rfl, rfl⟩

/-! ### Truncation -/

theorem npFull_of_nonneg {α : Type} {n : Int} {x : α} (h : 0 ≤ n) :
    npFull n x = .ok (List.replicate n.toNat x) := by
  unfold npFull; rw [if_neg (by omega)]

theorem truncBlock_eq (h : c.WF) {N M m : Int} {v : List α} (hN : N ≤ c.nmax) (hM : M ≤ N)
    (hMc : M ≤ c.mmax) (hm : iabs m ≤ M) (hv : v.length = seg (N + 1).toNat (2 * M.toNat + 1)) :
    ∃ w, c.truncBlock N M v m = .ok w ∧ w.length = v.length ∧
      ∀ n' m', IsMode N M n' m' → w[slot N n' m']? =
        if m' = m then c.vec[slot c.nmax n' m']? else v[slot N n' m']? := by
  have hm0 := hm
  unfold iabs at hm0
  have hc := col_le h (m := m) (by omega)
  have hl : seg (N + 1).toNat (ord m) + (N - m.natAbs + 1).toNat ≤ v.length := by
    have h3 : IsMode N M N m := by rw [isMode_iff]; omega
    have h2 := Verif.slot_lt h3
    rw [slot_self (by omega)] at h2
    omega
  unfold truncBlock
  rw [mindx_eq (by omega) h.mn, mindx_eq hm hM]
  simp only [Except.bind_ok]
  have e1 : (seg (c.nmax + 1).toNat (ord m) : Int) + (N - iabs m + 1)
      = ((seg (c.nmax + 1).toNat (ord m) + (N - m.natAbs + 1).toNat : Nat) : Int) := by
    unfold iabs; omega
  have e2 : (seg (N + 1).toNat (ord m) : Int) + (N - iabs m + 1)
      = ((seg (N + 1).toNat (ord m) + (N - m.natAbs + 1).toNat : Nat) : Int) := by
    unfold iabs; omega
  rw [e1, e2]
  have hlen : (getSlice c.vec (seg (c.nmax + 1).toNat (ord m) : Int)
      ((seg (c.nmax + 1).toNat (ord m) + (N - m.natAbs + 1).toNat : Nat) : Int)).length
      = (N - m.natAbs + 1).toNat := by
    rw [length_getSlice (by omega) (by omega) (by omega)]; omega
  rw [setSlice_of_le (by omega) (by omega) (by omega) (by omega)]
  refine ⟨_, rfl, ?_, ?_⟩
  · simp only [List.length_append, List.length_take, List.length_drop, hlen, Int.toNat_natCast]; omega
  · intro n' m' hmode
    have hsp : List.take ((seg (N + 1).toNat (ord m) : Int)).toNat v ++
        getSlice c.vec (seg (c.nmax + 1).toNat (ord m) : Int)
          ((seg (c.nmax + 1).toNat (ord m) + (N - m.natAbs + 1).toNat : Nat) : Int) ++
        List.drop (((seg (N + 1).toNat (ord m) + (N - m.natAbs + 1).toNat : Nat) : Int)).toNat v
        = splice v (seg (N + 1).toNat (ord m)) (getSlice c.vec (seg (c.nmax + 1).toNat (ord m) : Int)
          ((seg (c.nmax + 1).toNat (ord m) + (N - m.natAbs + 1).toNat : Nat) : Int)) := by
      unfold splice
      rw [hlen]
      simp only [Int.toNat_natCast]
    rw [hsp, getElem?_splice (by omega), hlen]
    have key := slot_in_col hmode (m' := m) hm0 hM
    by_cases hmm : m' = m
    · rw [if_pos (key.mpr hmm), if_pos hmm]
      subst hmm
      rw [isMode_iff] at hmode
      rw [getSlice_of_le (by omega) (by omega) (by omega)]
      simp only [Int.toNat_natCast, List.getElem?_drop, List.getElem?_take]
      rw [slot_self hmode.2.2.1, slot_self hmode.2.2.1, if_pos (by omega)]
      congr 1; omega
    · rw [if_neg (fun hh => hmm (key.mp hh)), if_neg hmm]

theorem trunc_eq [Zero α] (h : c.WF) {N : Int} (h0 : 0 ≤ N) (hN : N ≤ c.nmax) :
    ∃ d, c.trunc N = .ok d ∧ d.WF ∧ d.nmax = N ∧ d.mmax = min N c.mmax ∧
      ∀ n m, IsMode N (min N c.mmax) n m → d.absMap n m = c.absMap n m := by
  have hm0 := h.m0
  have hmn := h.mn
  unfold trunc
  rw [if_neg (by omega)]
  have e : (if N > c.mmax then c.mmax else N) = min N c.mmax := by split <;> omega
  simp only [e]
  generalize hM : min N c.mmax = M
  have hM0 : 0 ≤ M := by omega
  have hMN : M ≤ N := by omega
  have hMc : M ≤ c.mmax := by omega
  rw [ncFormula_eq hM0 hMN, npFull_of_nonneg (by omega)]
  simp only [Except.bind_ok, Int.toNat_natCast]
  generalize hL : seg (N + 1).toNat (2 * M.toNat + 1) = L
  have hLN : (N + 1).toNat ≤ L := by
    have := seg_mono (N + 1).toNat (show 1 ≤ 2 * M.toNat + 1 by omega)
    have e1 : seg (N + 1).toNat 1 = (N + 1).toNat := by simp [seg]
    omega
  have hc0 := col_le h (m := 0) (by unfold iabs; omega)
  have hs0 : ∀ K, seg K (ord 0) = 0 := by intro K; simp [ord, seg]
  simp only [hs0] at hc0
  -- first block
  have e1 : N + 1 = (((N + 1).toNat : Nat) : Int) := by omega
  have hlen : (getSlice c.vec 0 (N + 1)).length = (N + 1).toNat := by
    rw [length_getSlice (by omega) (by omega) (by omega)]; omega
  rw [setSlice_of_le (by omega) (by omega) (by simp; omega) (by omega)]
  simp only [Except.bind_ok]
  set v1 := List.take (0 : Int).toNat (List.replicate L (0 : α)) ++ getSlice c.vec 0 (N + 1) ++
    List.drop (N + 1).toNat (List.replicate L (0 : α)) with hv1
  have hv1len : v1.length = L := by
    rw [hv1]; simp [hlen]; omega
  have hv1val : ∀ n' m', IsMode N M n' m' → iabs m' < 1 → v1[slot N n' m']? = c.vec[slot c.nmax n' m']? := by
    intro n' m' hmode hz
    have hmz : m' = 0 := by unfold iabs at hz; omega
    subst hmz
    rw [isMode_iff] at hmode
    rw [slot_self hmode.2.2.1, slot_self hmode.2.2.1, hs0, hs0]
    rw [hv1, getSlice_of_le (by omega) (by omega) (by omega)]
    simp only [Int.toNat_zero, List.take_zero, List.nil_append, List.drop_zero]
    rw [List.getElem?_append_left (by simp; omega), List.getElem?_take, if_pos (by simp; omega)]
  obtain ⟨w, ew, hwl, hwv⟩ := forM'_range_inv (a := 1) (b := M + 1) (by omega) v1
    (fun v m => (c.truncBlock N M v (-m)).bind fun v' => c.truncBlock N M v' m)
    (fun k v => v.length = L ∧ ∀ n' m', IsMode N M n' m' → iabs m' < k →
      v[slot N n' m']? = c.vec[slot c.nmax n' m']?)
    ⟨hv1len, hv1val⟩
    (by
      rintro k v hk1 hk2 ⟨hvl, hvv⟩
      obtain ⟨w1, ew1, hw1l, hw1v⟩ := truncBlock_eq h (m := -k) hN hMN hMc (by unfold iabs; omega)
        (v := v) (by omega)
      obtain ⟨w2, ew2, hw2l, hw2v⟩ := truncBlock_eq h (m := k) hN hMN hMc (by unfold iabs; omega)
        (v := w1) (by omega)
      refine ⟨w2, by simp [ew1, ew2], by omega, ?_⟩
      intro n' m' hmode hlt
      rw [hw2v n' m' hmode, hw1v n' m' hmode]
      by_cases a : m' = k
      · rw [if_pos a]
      · rw [if_neg a]
        by_cases b : m' = -k
        · rw [if_pos b]
        · rw [if_neg b]; exact hvv n' m' hmode (by unfold iabs at *; omega))
  rw [ew]
  simp only [Except.bind_ok]
  have hlenw : ncFormula N M = w.length := by rw [ncFormula_eq hM0 hMN, hwl, hL]
  rw [init_wf hM0 hMN hlenw]
  refine ⟨_, rfl, ⟨hM0, hMN, hlenw.symm⟩, rfl, rfl, ?_⟩
  intro n m hmode
  have hmode' : IsMode c.nmax c.mmax n m := by rw [isMode_iff] at *; omega
  unfold absMap
  simp only
  rw [if_pos hmode, if_pos hmode', hwv n m hmode (by rw [isMode_iff] at hmode; unfold iabs; omega)]

theorem trunc_error [Zero α] {N : Int} (hN : c.nmax < N) :
    c.trunc N = .error (raise .attributeError "n_out_bound") := by
  unfold trunc; rw [if_pos (by omega)]

/-! ### Window -/

theorem bcast_eq {α β γ : Type} (f : α → β → γ) {a : List α} {b : List β} (h : a.length = b.length) :
    bcast f a b = .ok (List.zipWith f a b) := by
  unfold bcast; rw [if_pos h]

theorem windowCol_eq [Mul α] (h : c.WF) {m : Int} (hm : iabs m ≤ c.mmax) {w : List α}
    (hw : (w.length : Int) = c.nmax - m.natAbs + 1) :
    (c.windowCol m w).err = none ∧ (c.windowCol m w).st.WF ∧ (c.windowCol m w).st.nmax = c.nmax ∧
    (c.windowCol m w).st.mmax = c.mmax ∧
    ∀ n' m', IsMode c.nmax c.mmax n' m' → (c.windowCol m w).st.absMap n' m' =
      if m' = m then Option.map₂ (· * ·) (c.absMap n' m') w[(n' - m.natAbs).toNat]? else c.absMap n' m' := by
  have hc := col_le h hm
  unfold windowCol
  rw [getCol_eq h hm]
  simp only
  rw [bcast_eq _ (by simp only [List.length_drop, List.length_take]; omega)]
  simp only
  have hlen : ∀ (a b : List α), a.length = b.length → (List.zipWith (· * ·) a b).length = b.length := by
    intro a b hab; simp [hab]
  have hv := hlen ((c.vec.take (seg (c.nmax + 1).toNat (ord m) + (c.nmax - m.natAbs + 1).toNat)).drop
      (seg (c.nmax + 1).toNat (ord m))) w (by simp only [List.length_drop, List.length_take]; omega)
  have hwf := setCol_wf h (m := m) (val := .seq (List.zipWith (· * ·)
    ((c.vec.take (seg (c.nmax + 1).toNat (ord m) + (c.nmax - m.natAbs + 1).toNat)).drop
      (seg (c.nmax + 1).toNat (ord m))) w))
  refine ⟨by rw [setCol_eq h hm (by omega)], hwf.1, hwf.2.1, hwf.2.2, ?_⟩
  intro n' m' hmode
  rw [absMap_setCol h hm (by omega) n' m' hmode]
  by_cases e : m' = m
  · rw [if_pos e, if_pos e]
    subst e
    unfold absMap
    rw [if_pos hmode]
    rw [isMode_iff] at hmode
    rw [List.getElem?_zipWith, List.getElem?_drop, List.getElem?_take, if_pos (by omega),
      slot_self hmode.2.2.1]
    cases c.vec[seg (c.nmax + 1).toNat (ord m') + (n' - ↑m'.natAbs).toNat]? <;>
      cases w[(n' - ↑m'.natAbs).toNat]? <;> rfl
  · rw [if_neg e, if_neg e]

theorem window_eq [Mul α] (h : c.WF) {w : List α} (hw : (w.length : Int) = c.nmax + 1) :
    (c.window w).err = none ∧ (c.window w).st.WF ∧ (c.window w).st.nmax = c.nmax ∧
    (c.window w).st.mmax = c.mmax ∧
    ∀ n' m', IsMode c.nmax c.mmax n' m' → (c.window w).st.absMap n' m' =
      Option.map₂ (· * ·) (c.absMap n' m') w[n'.toNat]? := by
  have h0 := h.m0
  have hmn := h.mn
  unfold window
  have k0 := windowCol_eq h (m := 0) (by unfold iabs; omega) (w := w) (by omega)
  unfold Eff.andThen
  rw [k0.1]
  simp only
  set c0 := (c.windowCol 0 w).st with hc0
  have hsl : ∀ (m : Int), 0 ≤ m → m ≤ c.nmax →
      ((getSlice w m w.length).length : Int) = c.nmax - m + 1 ∧
      ∀ j : Nat, (getSlice w m w.length)[j]? = w[m.toNat + j]? := by
    intro m a b
    constructor
    · rw [length_getSlice a (by omega) (by omega)]; omega
    · intro j; rw [getSlice_of_le a (by omega) (by omega)]; simp
  have key := Eff.forEach_range_inv (a := 1) (b := c.mmax + 1) (by omega) c0
    (fun c' m => (c'.windowCol (-m) (getSlice w m w.length)).andThen fun c'' =>
      c''.windowCol m (getSlice w m w.length))
    (fun k c' => c'.WF ∧ c'.nmax = c.nmax ∧ c'.mmax = c.mmax ∧
      ∀ n' m', IsMode c.nmax c.mmax n' m' → c'.absMap n' m' =
        if iabs m' < k then Option.map₂ (· * ·) (c.absMap n' m') w[n'.toNat]? else c.absMap n' m')
    ⟨k0.2.1, k0.2.2.1, k0.2.2.2.1, by
      intro n' m' hm
      rw [k0.2.2.2.2 n' m' hm]
      by_cases e : m' = 0
      · subst e; rw [if_pos rfl, if_pos (by unfold iabs; omega)]
        simp
      · rw [if_neg e, if_neg (by unfold iabs; omega)]⟩
    (by
      rintro k c' hk1 hk2 ⟨hwf, e1, e2, ih⟩
      obtain ⟨hl, hg⟩ := hsl k (by omega) (by omega)
      have a := windowCol_eq hwf (m := -k) (by unfold iabs; omega) (w := getSlice w k w.length) (by omega)
      have b := windowCol_eq a.2.1 (m := k) (by unfold iabs; omega) (w := getSlice w k w.length) (by omega)
      unfold Eff.andThen
      rw [a.1]
      simp only
      refine ⟨b.1, b.2.1, by rw [b.2.2.1, a.2.2.1, e1], by rw [b.2.2.2.1, a.2.2.2.1, e2], ?_⟩
      intro n' m' hm
      have hm' := isMode_iff.mp hm
      rw [b.2.2.2.2 n' m' (by rw [a.2.2.1, a.2.2.2.1, e1, e2]; exact hm),
        a.2.2.2.2 n' m' (by rw [e1, e2]; exact hm), ih n' m' hm, hg, hg]
      by_cases p : m' = k
      · rw [if_pos p, if_neg (by omega), if_neg (by unfold iabs; omega), if_pos (by unfold iabs; omega)]
        congr 2; omega
      · rw [if_neg p]
        by_cases q : m' = -k
        · rw [if_pos q, if_neg (by unfold iabs; omega), if_pos (by unfold iabs; omega)]
          congr 2; omega
        · rw [if_neg q]
          by_cases r : iabs m' < k
          · rw [if_pos r, if_pos (by omega)]
          · rw [if_neg r, if_neg (by unfold iabs at *; omega)])
  refine ⟨key.1, key.2.1, key.2.2.1, key.2.2.2.1, ?_⟩
  intro n' m' hm
  refine (key.2.2.2.2 n' m' hm).trans ?_
  rw [if_pos]
  rw [isMode_iff] at hm; unfold iabs; omega

end ScalarCoefs
end Verif
