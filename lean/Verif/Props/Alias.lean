import Verif.Alias
import Verif.Props.Coefs1
import Mathlib.Data.Complex.Basic
import Mathlib.Tactic.LinearCombination
/-!
# C79, C80: columns are live views; passing a set's own column back to it
-/
namespace Verif.Props
open Verif
variable {α : Type}

/-! ### Facts about views (helpers) -/

theorem filterMap_range' (l : List α) : ∀ (n a : Nat), a + n ≤ l.length →
    (List.range' a n).filterMap (fun i => l[i]?) = (l.drop a).take n
  | 0, _, _ => by simp
  | n + 1, a, h => by
    rw [List.range'_succ, List.filterMap_cons_some (List.getElem?_eq_getElem (by omega)),
      filterMap_range' l n (a + 1) (by omega), List.drop_eq_getElem_cons (i := a) (by omega)]
    rfl

theorem slice_range (L a b : Nat) (hb : b ≤ L) : ((List.range L).take b).drop a = List.range' a (b - a) := by
  apply List.ext_getElem
  · simp; omega
  · intro i h1 h2
    simp

theorem read_block (l : List α) (a b : Nat) (_hab : a ≤ b) (hb : b ≤ l.length) :
    View.read (List.range' a (b - a)) l = (l.take b).drop a := by
  unfold View.read
  rw [filterMap_range' l _ _ (by omega), List.take_drop]
  congr 2; omega

/-- The positions of column `m`. -/
theorem colView_eq {c : ScalarCoefs α} (h : c.WF) {m : Int} (hm : iabs m ≤ c.mmax) :
    c.colView m = .ok (List.range' (seg (c.nmax + 1).toNat (ord m)) (c.nmax - m.natAbs + 1).toNat) := by
  have h1 := h.mn
  have h2 := ScalarCoefs.col_le h hm
  have hm' := hm
  unfold iabs at hm'
  unfold ScalarCoefs.colView
  rw [if_neg (by omega), mindx_eq hm h1]
  simp only [Except.bind_ok]
  have e : (seg (c.nmax + 1).toNat (ord m) : Int) + c.nmax - iabs m + 1
      = ((seg (c.nmax + 1).toNat (ord m) + (c.nmax - m.natAbs + 1).toNat : Nat) : Int) := by
    unfold iabs; omega
  rw [e, getSlice_of_le (by omega) (by omega) (by rw [List.length_range]; exact_mod_cast h2)]
  simp only [Int.toNat_natCast]
  rw [slice_range _ _ _ h2]
  congr 2; omega

theorem colView_read {c d : ScalarCoefs α} (hc : c.WF) (hd : d.WF) (hn : d.nmax = c.nmax) (hM : d.mmax = c.mmax) {m : Int}
    {v : View} (hv : c.colView m = .ok v) : iabs m ≤ c.mmax ∧ d.getCol m = .ok (v.read d.vec) := by
  by_cases hm : iabs m ≤ c.mmax
  · refine ⟨hm, ?_⟩
    rw [colView_eq hc hm] at hv
    cases hv
    rw [ScalarCoefs.getCol_eq hd (by omega), hn]
    have h2 := ScalarCoefs.col_le hd (m := m) (by omega)
    rw [hn] at h2
    rw [← read_block d.vec _ _ (by omega) h2]
    congr 2
    congr 1; omega
  · unfold ScalarCoefs.colView at hv
    rw [if_pos (by omega)] at hv; cases hv

/-! ## C79 -/

/-- C79, reading: a column obtained from a set (`v = c[:, m]`) goes on showing the column of that set in whatever state the
set is later (`d`). -/
theorem c79_read [Zero α] (c d : ScalarCoefs α) (hc : c.WellFormed) (hd : d.WellFormed) (hn : d.nmax = c.nmax)
    (hM : d.mmax = c.mmax) (m : Int) (v : View) (hv : c.colView m = .ok v) :
    d.getitem [.all, .int m] = .ok (.arr (v.read d.vec)) := by
  rw [getitem_col, (colView_read hc.wf hd.wf hn hM hv).2]; rfl

/-- C79, writing: `v[k] = x` through the column is the assignment `c[|m| + k, m] = x` (a negative `k` counts from the end of the
column), and raises IndexError, changing nothing, outside the column. -/
theorem c79_write (c d : ScalarCoefs α) (hc : c.WellFormed) (hd : d.WellFormed) (hn : d.nmax = c.nmax)
    (hM : d.mmax = c.mmax) (m : Int) (v : View) (hv : c.colView m = .ok v) (k : Int) (x : α) :
    (0 ≤ k ∧ k ≤ c.nmax - |m| → d.pokeView v k x = d.setitem [.int (|m| + k), .int m] (.num x)) ∧
    (-(c.nmax - |m| + 1) ≤ k ∧ k < 0 → d.pokeView v k x = d.setitem [.int (c.nmax + 1 + k), .int m] (.num x)) ∧
    (¬ (-(c.nmax - |m| + 1) ≤ k ∧ k ≤ c.nmax - |m|) → ∃ msg, d.pokeView v k x = ⟨d, some ⟨.indexError, msg⟩⟩) := by
  have hm := (colView_read hc.wf hd.wf hn hM hv).1
  rw [colView_eq hc.wf hm] at hv
  cases hv
  have hmm := hc.mmax_le
  rw [Int.abs_eq_natAbs]
  have key : ∀ j : Nat, (j : Int) ≤ c.nmax - m.natAbs →
      (⟨{ d with vec := d.vec.set (seg (c.nmax + 1).toNat (ord m) + j) x }, none⟩ : Eff (ScalarCoefs α))
        = d.setitem [.int (m.natAbs + j), .int m] (.num x) := by
    intro j hj
    unfold iabs at hm
    rw [setitem_nm, ScalarCoefs.setNM_eq hd.wf (by rw [isMode_iff, hn, hM]; omega), ScalarCoefs.slot_add, hn]
  have hlen : (List.range' (seg (c.nmax + 1).toNat (ord m)) (c.nmax - m.natAbs + 1).toNat).length
      = (c.nmax - m.natAbs + 1).toNat := by simp
  unfold iabs at hm
  refine ⟨fun hk => ?_, fun hk => ?_, fun hk => ?_⟩
  · obtain ⟨j, rfl⟩ : ∃ j : Nat, k = j := ⟨k.toNat, by omega⟩
    unfold ScalarCoefs.pokeView View.write
    rw [getIdx_of_lt (by omega) (by rw [hlen]; omega)]
    simp only [Except.bind_ok, List.getElem_range', Int.toNat_natCast, Nat.one_mul]
    exact key j (by omega)
  · obtain ⟨j, hj⟩ : ∃ j : Nat, (j : Int) = c.nmax - m.natAbs + 1 + k := ⟨(c.nmax - m.natAbs + 1 + k).toNat, by omega⟩
    unfold ScalarCoefs.pokeView View.write getIdx
    rw [hlen]
    simp only
    rw [if_pos hk.2, if_neg (by omega), List.getElem?_eq_getElem (by rw [hlen]; omega)]
    simp only [Except.bind_ok, List.getElem_range', Nat.one_mul]
    have e : (k + ((c.nmax - m.natAbs + 1).toNat : Int)).toNat = j := by omega
    rw [e, key j (by omega)]
    congr 3; omega
  · unfold ScalarCoefs.pokeView View.write getIdx
    rw [hlen]
    simp only
    refine ⟨"index", ?_⟩
    by_cases hk0 : k < 0
    · rw [if_pos hk0, if_pos (by omega)]; rfl
    · rw [if_neg hk0, if_neg hk0, List.getElem?_eq_none (by rw [hlen]; omega)]; rfl

/-! ### Histories -/

/-- A statement of a program that uses one coefficient set and columns taken from it. -/
inductive VStmt (α : Type) where
  /-- `v = c[:, m]` -/
  | view (m : Int)
  /-- `c[arg] = val` -/
  | set (arg : List Arg) (val : Val α)
  /-- `c[arg] = v_i` -/
  | setFrom (arg : List Arg) (i : Nat)
  /-- `c.window(w)` -/
  | window (w : List α)
  /-- `c.window(v_i)` -/
  | windowBy (i : Nat)
  /-- `v_i[k] = x` -/
  | poke (i : Nat) (k : Int) (x : α)

/-- State of such a program: the set, and the columns taken so far, each with its `m`. -/
structure VState (α : Type) where
  c : ScalarCoefs α
  views : List (Int × View)

/-- Execution of one statement (exceptions are caught, the state reached is kept). -/
def VStmt.run [Mul α] (s : VState α) : VStmt α → VState α
  | .view m => match s.c.colView m with
    | .ok v => ⟨s.c, s.views ++ [(m, v)]⟩
    | .error _ => s
  | .set arg val => ⟨(s.c.setitem arg val).st, s.views⟩
  | .setFrom arg i => match s.views[i]? with
    | some p => ⟨(s.c.setitemView arg p.2).st, s.views⟩
    | none => s
  | .window w => ⟨(s.c.window w).st, s.views⟩
  | .windowBy i => match s.views[i]? with
    | some p => ⟨(s.c.windowView p.2).st, s.views⟩
    | none => s
  | .poke i k x => match s.views[i]? with
    | some p => ⟨(s.c.pokeView p.2 k x).st, s.views⟩
    | none => s

theorem forEach_st {σ ι : Type} (P : σ → Prop) (xs : List ι) (s : σ) (body : σ → ι → Eff σ) (h0 : P s)
    (hb : ∀ s i, P s → P (body s i).st) : P (Eff.forEach xs s body).st := by
  induction xs generalizing s with
  | nil => exact h0
  | cons x xs ih =>
    unfold Eff.forEach Eff.andThen
    have := hb s x h0
    cases h : (body s x).err with
    | none => exact ih _ this
    | some e => simpa using this

theorem andThen_st {σ : Type} (P : σ → Prop) (e : Eff σ) (f : σ → Eff σ) (h0 : P e.st) (hf : ∀ s, P s → P (f s).st) :
    P (e.andThen f).st := by
  unfold Eff.andThen
  cases e.err with
  | none => exact hf _ h0
  | some _ => exact h0

/-- Same limits, well-formed. -/
def Keeps (c d : ScalarCoefs α) : Prop := d.WF ∧ d.nmax = c.nmax ∧ d.mmax = c.mmax

theorem keeps_setNM {c d : ScalarCoefs α} (h : Keeps c d) (n m : Int) (v : Val α) : Keeps c (d.setNM n m v).st := by
  obtain ⟨a, b, e⟩ := ScalarCoefs.setNM_wf h.1 (n := n) (m := m) (val := v)
  exact ⟨a, b.trans h.2.1, e.trans h.2.2⟩

theorem keeps_setitem {c d : ScalarCoefs α} (h : Keeps c d) (arg : List Arg) (v : Val α) : Keeps c (d.setitem arg v).st := by
  obtain ⟨a, b, e⟩ := ScalarCoefs.setitem_wf h.1 (arg := arg) (val := v)
  exact ⟨a, b.trans h.2.1, e.trans h.2.2⟩

theorem keeps_setCol {c d : ScalarCoefs α} (h : Keeps c d) (m : Int) (v : Val α) : Keeps c (d.setCol m v).st := by
  obtain ⟨a, b, e⟩ := ScalarCoefs.setCol_wf h.1 (m := m) (val := v)
  exact ⟨a, b.trans h.2.1, e.trans h.2.2⟩

theorem keeps_windowCol [Mul α] {c d : ScalarCoefs α} (h : Keeps c d) (m : Int) (w : List α) : Keeps c (d.windowCol m w).st := by
  unfold ScalarCoefs.windowCol
  split
  · exact h
  · split
    · exact h
    · exact keeps_setCol h _ _

theorem keeps_window [Mul α] {c d : ScalarCoefs α} (h : Keeps c d) (w : List α) : Keeps c (d.window w).st := by
  unfold ScalarCoefs.window
  refine andThen_st (Keeps c) _ _ (keeps_windowCol h _ _) fun s hs => ?_
  refine forEach_st (Keeps c) _ _ _ hs fun s i hs => ?_
  exact andThen_st (Keeps c) _ _ (keeps_windowCol hs _ _) fun s hs => keeps_windowCol hs _ _

theorem keeps_windowView [Mul α] {c d : ScalarCoefs α} (h : Keeps c d) (v : View) : Keeps c (d.windowView v).st := by
  unfold ScalarCoefs.windowView
  refine andThen_st (Keeps c) _ _ (keeps_windowCol h _ _) fun s hs => ?_
  refine forEach_st (Keeps c) _ _ _ hs fun s i hs => ?_
  exact andThen_st (Keeps c) _ _ (keeps_windowCol hs _ _) fun s hs => keeps_windowCol hs _ _

theorem keeps_setRowView {c d : ScalarCoefs α} (h : Keeps c d) (n : Int) (v : View) : Keeps c (d.setRowView n v).st := by
  unfold ScalarCoefs.setRowView
  split
  · exact h
  · split
    · exact h
    · refine forEach_st (Keeps c) _ _ _ h fun s k hs => ?_
      split
      · exact hs
      · exact keeps_setNM hs _ _ _

theorem keeps_setitemView {c d : ScalarCoefs α} (h : Keeps c d) (arg : List Arg) (v : View) :
    Keeps c (d.setitemView arg v).st := by
  unfold ScalarCoefs.setitemView
  split
  · exact keeps_setRowView h _ _
  · exact keeps_setitem h _ _

theorem keeps_pokeView {c d : ScalarCoefs α} (h : Keeps c d) (v : View) (k : Int) (x : α) :
    Keeps c (d.pokeView v k x).st := by
  unfold ScalarCoefs.pokeView View.write
  cases getIdx v k with
  | error e => exact h
  | ok i => exact ⟨h.1.of_set _ (by simp), h.2⟩

/-- C79, histories: after **any** program that takes columns of a set, assigns to the set, windows it, writes through the
columns and passes the columns back to the set, the set still has its limits and size and every column taken at any
time shows the current column of the set. -/
theorem c79_history [Zero α] [Mul α] (c : ScalarCoefs α) (hc : c.WellFormed) (prog : List (VStmt α)) :
    let s := prog.foldl VStmt.run ⟨c, []⟩
    s.c.WellFormed ∧ s.c.nmax = c.nmax ∧ s.c.mmax = c.mmax ∧
    ∀ p ∈ s.views, s.c.getitem [.all, .int p.1] = .ok (.arr (p.2.read s.c.vec)) := by
  have key : ∀ (prog : List (VStmt α)) (s : VState α), Keeps c s.c →
      (∀ p ∈ s.views, c.colView p.1 = .ok p.2) →
      Keeps c (prog.foldl VStmt.run s).c ∧ ∀ p ∈ (prog.foldl VStmt.run s).views, c.colView p.1 = .ok p.2 := by
    intro prog
    induction prog with
    | nil => exact fun s h1 h2 => ⟨h1, h2⟩
    | cons st prog ih =>
      intro s h1 h2
      refine ih _ ?_ ?_
      · cases st with
        | view m => simp only [VStmt.run]; split <;> exact h1
        | set arg val => exact keeps_setitem h1 _ _
        | setFrom arg i => simp only [VStmt.run]; split; exacts [keeps_setitemView h1 _ _, h1]
        | window w => exact keeps_window h1 _
        | windowBy i => simp only [VStmt.run]; split; exacts [keeps_windowView h1 _, h1]
        | poke i k x => simp only [VStmt.run]; split; exacts [keeps_pokeView h1 _ _ _, h1]
      · cases st with
        | view m =>
          simp only [VStmt.run]
          cases hv : s.c.colView m with
          | error e => exact h2
          | ok v =>
            intro p hp
            rcases List.mem_append.mp hp with hp | hp
            · exact h2 p hp
            · rw [List.mem_singleton] at hp
              subst hp
              have hm := (colView_read h1.1 hc.wf h1.2.1.symm h1.2.2.symm hv).1
              rw [h1.2.2] at hm
              rw [colView_eq h1.1 (by rw [h1.2.2]; exact hm)] at hv
              rw [colView_eq hc.wf hm]
              rw [h1.2.1] at hv
              exact hv
        | set arg val => exact h2
        | setFrom arg i => simp only [VStmt.run]; split <;> exact h2
        | window w => exact h2
        | windowBy i => simp only [VStmt.run]; split <;> exact h2
        | poke i k x => simp only [VStmt.run]; split <;> exact h2
  obtain ⟨h1, h2⟩ := key prog ⟨c, []⟩ ⟨hc.wf, rfl, rfl⟩ (by simp)
  refine ⟨ScalarCoefs.wf_iff.mp h1.1, h1.2.1, h1.2.2, fun p hp => ?_⟩
  exact c79_read c _ hc (ScalarCoefs.wf_iff.mp h1.1) h1.2.1 h1.2.2 p.1 p.2 (h2 p hp)

/-! ## C80 -/

theorem keeps_read {c d : ScalarCoefs α} (hc : c.WF) (hd : Keeps c d) {m : Int} {v : View} (hv : c.colView m = .ok v) :
    ((v.read d.vec).length : Int) = c.nmax - m.natAbs + 1 ∧
    ∀ j : Nat, (j : Int) ≤ c.nmax - m.natAbs → (v.read d.vec)[j]? = d.absMap (m.natAbs + j) m := by
  obtain ⟨hm, hcol⟩ := colView_read hc hd.1 hd.2.1 hd.2.2 hv
  have hmn := hc.mn
  have hm' := hm
  unfold iabs at hm'
  rw [ScalarCoefs.getCol_eq hd.1 (by rw [hd.2.2]; exact hm), hd.2.1] at hcol
  have hle := ScalarCoefs.col_le hd.1 (m := m) (by rw [hd.2.2]; exact hm)
  rw [hd.2.1] at hle
  have e := Except.ok.inj hcol
  rw [← e]
  constructor
  · simp only [List.length_drop, List.length_take]; omega
  · intro j hj
    rw [List.getElem?_drop, List.getElem?_take, if_pos (by omega)]
    unfold ScalarCoefs.absMap
    rw [if_pos (by rw [isMode_iff, hd.2.1, hd.2.2]; omega), ScalarCoefs.slot_add, hd.2.1]

/-- Which entry of the column ends up in position `j` of the row: `j` itself, unless that entry has been overwritten by the
same assignment before it is read. -/
def rowSource (n m mm j : Int) : Int := if j = n - |m| ∧ m + mm < j then m + mm else j

theorem setRowView_eq {c : ScalarCoefs α} (hc : c.WF) {m : Int} {v : View} (hv : c.colView m = .ok v) {n : Int}
    (hn : 0 ≤ n ∧ n ≤ c.nmax) (hl : c.nmax - m.natAbs + 1 = 2 * n + 1) :
    (c.setRowView n v).err = none ∧ Keeps c (c.setRowView n v).st ∧
    ∀ n' m', IsMode c.nmax c.mmax n' m' → (c.setRowView n v).st.absMap n' m' =
      if n' = n then (v.read c.vec)[(rowSource n m (min n c.mmax) (m' + min n c.mmax)).toNat]? else c.absMap n' m' := by
  have h0 := hc.m0
  have hk0 : Keeps c c := ⟨hc, rfl, rfl⟩
  obtain ⟨r1, r2⟩ := keeps_read hc hk0 hv
  have hm := (colView_read hc hc rfl rfl hv).1
  unfold iabs at hm
  unfold ScalarCoefs.setRowView
  rw [if_neg (by omega), if_neg (by omega), ScalarCoefs.rowHalf_eq]
  have key := Eff.forEach_range_inv (a := 0) (b := 2 * min n c.mmax + 1) (by omega) c
    (fun c' k => match getIdx (v.read c'.vec) k with
          | .error e => ⟨c', some e⟩
          | .ok x => c'.setNM n (k - min n c.mmax) (.num x))
    (fun k c' => Keeps c c' ∧
      ∀ n' m', IsMode c.nmax c.mmax n' m' → c'.absMap n' m' =
        if n' = n ∧ m' + min n c.mmax < k then (v.read c.vec)[(rowSource n m (min n c.mmax) (m' + min n c.mmax)).toNat]?
        else c.absMap n' m')
    ⟨hk0, by
      intro n' m' hm
      rw [isMode_iff] at hm
      rw [if_neg (by omega)]⟩
    (by
      rintro k c' hk0 hk1 ⟨hw, ih⟩
      obtain ⟨s1, s2⟩ := keeps_read hc hw hv
      have hlt : k.toNat < (v.read c'.vec).length := by omega
      rw [getIdx_of_lt hk0 (by omega)]
      simp only
      have hmode : IsMode c'.nmax c'.mmax n (k - min n c.mmax) := by rw [isMode_iff, hw.2.1, hw.2.2]; omega
      have hval : some (v.read c'.vec)[k.toNat] = (v.read c.vec)[(rowSource n m (min n c.mmax) k).toNat]? := by
        rw [← List.getElem?_eq_getElem hlt, s2 k.toNat (by omega), ih _ _ (by rw [isMode_iff]; omega)]
        unfold rowSource
        rw [Int.abs_eq_natAbs]
        by_cases hz : k = n - m.natAbs ∧ m + min n c.mmax < k
        · rw [if_pos ⟨by omega, by omega⟩, if_neg (by omega), if_pos hz]
        · rw [if_neg (by omega), if_neg hz, r2 k.toNat (by omega)]
      refine ⟨by rw [ScalarCoefs.setNM_eq hw.1 hmode], keeps_setNM hw _ _ _, ?_⟩
      intro n' m' hm'
      rw [ScalarCoefs.absMap_setNM hw.1 hmode, ih n' m' hm']
      by_cases hcs : n' = n ∧ m' = k - min n c.mmax
      · obtain ⟨rfl, rfl⟩ := hcs
        rw [if_pos ⟨rfl, rfl⟩, if_pos (by omega), hval]
        congr 3; omega
      · rw [if_neg hcs]
        by_cases hd : n' = n ∧ m' + min n c.mmax < k
        · rw [if_pos hd, if_pos (by omega)]
        · rw [if_neg hd, if_neg (by omega)])
  refine ⟨key.1, key.2.1, ?_⟩
  intro n' m' hm
  refine (key.2.2 n' m' hm).trans ?_
  rw [isMode_iff] at hm
  by_cases hn' : n' = n
  · rw [if_pos (by omega), if_pos hn']
  · rw [if_neg (by omega), if_neg hn']

theorem setRowView_reject {c : ScalarCoefs α} (hc : c.WF) {m : Int} {v : View} (hv : c.colView m = .ok v) {n : Int}
    (h : ¬ ((0 ≤ n ∧ n ≤ c.nmax) ∧ c.nmax - m.natAbs + 1 = 2 * n + 1)) :
    c.setRowView n v = c.setRow n (.seq (v.read c.vec)) := by
  obtain ⟨r1, _⟩ := keeps_read hc ⟨hc, rfl, rfl⟩ hv
  unfold ScalarCoefs.setRowView ScalarCoefs.setRow
  by_cases hn : n > c.nmax ∨ n < 0
  · rw [if_pos hn, if_pos hn]
  · rw [if_neg hn, if_neg hn]
    simp only
    rw [if_pos (by omega), if_pos (by omega)]

/-- C80, exact behaviour of `c[n, :] = c[:, m]` when it is accepted: position `j` of the row (order `m' = j - min(n, mmax)`)
receives entry `j` of the column, except that entry `n - |m|` (which is `c[n, m]` itself) is replaced by entry `m + min(n, mmax)` when
it is read after `c[n, m]` was overwritten. -/
theorem c80_row_actual [Zero α] (c : ScalarCoefs α) (hc : c.WellFormed) (m : Int) (v : View) (hv : c.colView m = .ok v)
    (n : Int) (hn : 0 ≤ n ∧ n ≤ c.nmax) (hl : c.nmax - |m| + 1 = 2 * n + 1) :
    (c.setitemView [.int n, .all] v).err = none ∧
    ∀ n' m', IsMode c.nmax c.mmax n' m' → readMap (c.setitemView [.int n, .all] v).st n' m' =
      if n' = n then (v.read c.vec)[(rowSource n m (min n c.mmax) (m' + min n c.mmax)).toNat]? else readMap c n' m' := by
  rw [Int.abs_eq_natAbs] at hl
  obtain ⟨a, b, d⟩ := setRowView_eq hc.wf hv hn hl
  refine ⟨a, fun n' m' hm => ?_⟩
  rw [readMap_eq hc.wf, readMap_eq (c := (c.setitemView [.int n, .all] v).st) b.1]
  exact d n' m' hm

/-- C80, rows (`n ≤ mmax`): `c[n, :] = c[:, m]` is the assignment of a copy of the column, whether it is accepted or rejected,
although row and column overlap and the loop reads the array it writes.  Missing: rows with `n > mmax` (false,
`c80_row_counterexample`) and `window` (false, `c80_window_counterexample`). -/
theorem c80_row_partial [Zero α] (c : ScalarCoefs α) (hc : c.WellFormed) (m : Int) (v : View) (hv : c.colView m = .ok v)
    (n : Int) (hnm : n ≤ c.mmax) :
    c.setitemView [.int n, .all] v = c.setitem [.int n, .all] (.seq (v.read c.vec)) := by
  change c.setRowView n v = c.setRow n (.seq (v.read c.vec))
  by_cases h : (0 ≤ n ∧ n ≤ c.nmax) ∧ c.nmax - m.natAbs + 1 = 2 * n + 1
  · obtain ⟨hn, hl⟩ := h
    obtain ⟨r1, _⟩ := keeps_read hc.wf ⟨hc.wf, rfl, rfl⟩ hv
    obtain ⟨a, b, d⟩ := setRowView_eq hc.wf hv hn hl
    obtain ⟨a', b', n2, m2, d'⟩ := ScalarCoefs.setRow_eq hc.wf hn (v := v.read c.vec) (by omega)
    have hst : (c.setRowView n v).st = (c.setRow n (.seq (v.read c.vec))).st := by
      refine ScalarCoefs.ext_modes b.1 b' (by rw [b.2.1, n2]) (by rw [b.2.2, m2]) fun n' m' hm => ?_
      rw [b.2.1, b.2.2] at hm
      rw [d n' m' hm, d' n' m' hm]
      have e : rowSource n m (min n c.mmax) (m' + min n c.mmax) = m' + min n c.mmax := by
        unfold rowSource
        rw [Int.abs_eq_natAbs, if_neg]
        rw [isMode_iff] at hm
        omega
      rw [e]
    cases h1 : c.setRowView n v with
    | mk s1 e1 =>
      cases h2 : c.setRow n (.seq (v.read c.vec)) with
      | mk s2 e2 =>
        rw [h1] at hst a; rw [h2] at hst a'
        simp only at hst a a'
        rw [hst, a, a']
  · exact setRowView_reject hc.wf hv h

/-- `c[3, :] = c[:, -1]` with `nmax = 7`, `mmax = 2` stores `c[2, -1]` at `(3, 0)`; the same assignment from a copy stores
`c[3, -1]`. -/
theorem c80_row_counterexample : ∃ (c : ScalarCoefs Int) (v : View), c.WellFormed ∧ c.colView (-1) = .ok v ∧
    readMap (c.setitemView [.int 3, .all] v).st 3 0 = readMap c 2 (-1) ∧
    readMap (c.setitem [.int 3, .all] (.seq (v.read c.vec))).st 3 0 = readMap c 3 (-1) ∧
    readMap c 2 (-1) ≠ readMap c 3 (-1) := by
  refine ⟨⟨(List.range 34).map (fun i => (i : Int)), 7, 2⟩, _, ⟨by decide, by decide, by decide⟩, rfl, ?_, ?_, ?_⟩ <;> decide

/-- C80, columns: `c[:, k] = c[:, m]` copies the column when both have the same length (`|k| = |m|`), and otherwise raises AttributeError and
changes nothing. -/
theorem c80_col [Zero α] (c : ScalarCoefs α) (hc : c.WellFormed) (m : Int) (v : View) (hv : c.colView m = .ok v) (k : Int) :
    (|k| = |m| → (c.setitemView [.all, .int k] v).err = none ∧
      ∀ n' m', IsMode c.nmax c.mmax n' m' → readMap (c.setitemView [.all, .int k] v).st n' m' = readMap c n' (if m' = k then m else m')) ∧
    (|k| ≠ |m| → ∃ msg, c.setitemView [.all, .int k] v = ⟨c, some ⟨.attributeError, msg⟩⟩) := by
  have hs : c.setitemView [.all, .int k] v = c.setCol k (.seq (v.read c.vec)) := rfl
  rw [hs, Int.abs_eq_natAbs, Int.abs_eq_natAbs]
  obtain ⟨hm, -⟩ := colView_read hc.wf hc.wf rfl rfl hv
  obtain ⟨r1, r2⟩ := keeps_read hc.wf ⟨hc.wf, rfl, rfl⟩ hv
  constructor
  · intro hk
    have hk' : iabs k ≤ c.mmax := by unfold iabs at hm ⊢; omega
    refine ⟨by rw [ScalarCoefs.setCol_eq hc.wf hk' (by omega)], fun n' m' hmo => ?_⟩
    rw [readMap_eq (ScalarCoefs.setCol_wf hc.wf).1, readMap_eq hc.wf, ScalarCoefs.absMap_setCol hc.wf hk' (by omega) n' m' hmo]
    split
    · rename_i e
      subst e
      have hmo := isMode_iff.mp hmo
      rw [r2 _ (by omega)]
      congr 1
      omega
    · rfl
  · intro hk
    obtain ⟨e, he, h | ⟨x, hx⟩⟩ := ScalarCoefs.setCol_error hc.wf (m := k) (val := .seq (v.read c.vec)) (by
      rintro ⟨-, l, hl, hl'⟩
      cases hl
      omega)
    · obtain ⟨cls, msg⟩ := e
      simp only at h
      subst h
      exact ⟨msg, he⟩
    · cases hx

theorem windowView_eq [Mul α] {c : ScalarCoefs α} (h : c.WF) {v : View} (hv : c.colView 0 = .ok v) :
    (c.windowView v).err = none ∧ Keeps c (c.windowView v).st ∧
    ∀ n' m', IsMode c.nmax c.mmax n' m' → (c.windowView v).st.absMap n' m' =
      if m' = 0 then Option.map₂ (· * ·) (c.absMap n' 0) (c.absMap n' 0)
      else Option.map₂ (· * ·) (c.absMap n' m') (Option.map₂ (· * ·) (c.absMap n' 0) (c.absMap n' 0)) := by
  have h0 := h.m0
  have hmn := h.mn
  have hk0 : Keeps c c := ⟨h, rfl, rfl⟩
  obtain ⟨r1, r2⟩ := keeps_read h hk0 hv
  simp only [Int.natAbs_zero, Int.ofNat_zero, Int.natCast_zero, sub_zero, zero_add] at r1 r2
  unfold ScalarCoefs.windowView
  have k0 := ScalarCoefs.windowCol_eq h (m := 0) (by unfold iabs; omega) (w := v.read c.vec) (by omega)
  unfold Eff.andThen
  rw [k0.1]
  simp only
  set c0 := (c.windowCol 0 (v.read c.vec)).st with hc0
  have hq : ∀ n' m', IsMode c.nmax c.mmax n' m' → c0.absMap n' m' =
      if m' = 0 then Option.map₂ (· * ·) (c.absMap n' 0) (c.absMap n' 0) else c.absMap n' m' := by
    intro n' m' hm
    rw [k0.2.2.2.2 n' m' hm]
    by_cases e : m' = 0
    · subst e
      rw [if_pos rfl, if_pos rfl]
      rw [isMode_iff] at hm
      obtain ⟨j, rfl⟩ : ∃ j : Nat, n' = j := ⟨n'.toNat, by omega⟩
      have : ((j : Int) - ((0 : Int).natAbs : Int)).toNat = j := by simp
      rw [this, r2 j (by omega)]
    · rw [if_neg e, if_neg e]
  have key := Eff.forEach_range_inv (a := 1) (b := c.mmax + 1) (by omega) c0
    (fun c' m => (c'.windowCol (-m) (getSlice (v.read c'.vec) m (v.read c'.vec).length)).andThen fun c'' =>
      c''.windowCol m (getSlice (v.read c''.vec) m (v.read c''.vec).length))
    (fun k c' => Keeps c c' ∧
      ∀ n' m', IsMode c.nmax c.mmax n' m' → c'.absMap n' m' =
        if m' = 0 then Option.map₂ (· * ·) (c.absMap n' 0) (c.absMap n' 0)
        else if iabs m' < k then Option.map₂ (· * ·) (c.absMap n' m') (Option.map₂ (· * ·) (c.absMap n' 0) (c.absMap n' 0))
        else c.absMap n' m')
    ⟨⟨k0.2.1, k0.2.2.1, k0.2.2.2.1⟩, by
      intro n' m' hm
      rw [hq n' m' hm]
      by_cases e : m' = 0
      · rw [if_pos e, if_pos e]
      · rw [if_neg e, if_neg e, if_neg (by unfold iabs; omega)]⟩
    (by
      rintro k c' hk1 hk2 ⟨hwf, ih⟩
      -- the window read from the array in a state with the same column 0
      have hsl : ∀ d : ScalarCoefs α, Keeps c d → (∀ n', IsMode c.nmax c.mmax n' 0 → d.absMap n' 0 = c'.absMap n' 0) →
          ((getSlice (v.read d.vec) k (v.read d.vec).length).length : Int) = c.nmax - k + 1 ∧
          ∀ n', k ≤ n' → n' ≤ c.nmax → (getSlice (v.read d.vec) k (v.read d.vec).length)[(n' - k).toNat]? =
            Option.map₂ (· * ·) (c.absMap n' 0) (c.absMap n' 0) := by
        intro d hd hcol
        obtain ⟨s1, s2⟩ := keeps_read h hd hv
        simp only [Int.natAbs_zero, Int.natCast_zero, sub_zero, zero_add] at s1 s2
        constructor
        · rw [length_getSlice (by omega) (by omega) (by omega)]; omega
        · intro n' a b
          rw [getSlice_of_le (by omega) (by omega) (by omega)]
          have hm0 : IsMode c.nmax c.mmax n' 0 := by rw [isMode_iff]; omega
          have e1 : k.toNat + (n' - k).toNat = n'.toNat := by omega
          rw [List.getElem?_drop, List.getElem?_take, if_pos (by omega), e1, s2 n'.toNat (by omega),
            show ((n'.toNat : Nat) : Int) = n' by omega, hcol n' hm0, ih n' 0 hm0, if_pos rfl]
      obtain ⟨a1, a2⟩ := hsl c' hwf fun _ _ => rfl
      have a := ScalarCoefs.windowCol_eq hwf.1 (m := -k) (by rw [hwf.2.2]; unfold iabs; omega)
        (w := getSlice (v.read c'.vec) k (v.read c'.vec).length) (by rw [hwf.2.1]; omega)
      have hwf2 : Keeps c (c'.windowCol (-k) (getSlice (v.read c'.vec) k (v.read c'.vec).length)).st :=
        keeps_windowCol hwf _ _
      obtain ⟨b1, b2⟩ := hsl _ hwf2 (by
        intro n' hm
        rw [a.2.2.2.2 n' 0 (by rw [hwf.2.1, hwf.2.2]; exact hm), if_neg (by omega)])
      set c'' := (c'.windowCol (-k) (getSlice (v.read c'.vec) k (v.read c'.vec).length)).st with hc''
      have b := ScalarCoefs.windowCol_eq hwf2.1 (m := k) (by rw [hwf2.2.2]; unfold iabs; omega)
        (w := getSlice (v.read c''.vec) k (v.read c''.vec).length) (by rw [hwf2.2.1]; omega)
      unfold Eff.andThen
      rw [a.1]
      simp only
      refine ⟨b.1, keeps_windowCol hwf2 _ _, ?_⟩
      intro n' m' hm
      have hm' := isMode_iff.mp hm
      rw [b.2.2.2.2 n' m' (by rw [hwf2.2.1, hwf2.2.2]; exact hm),
        a.2.2.2.2 n' m' (by rw [hwf.2.1, hwf.2.2]; exact hm), ih n' m' hm]
      by_cases p : m' = k
      · rw [if_pos p, if_neg (by omega), if_neg (by omega), if_neg (by unfold iabs; omega), if_neg (by omega),
          if_pos (by unfold iabs; omega), show ((k.natAbs : Nat) : Int) = k by omega, b2 n' (by omega) (by omega)]
      · rw [if_neg p]
        by_cases q : m' = -k
        · rw [if_pos q, if_neg (by omega), if_neg (by unfold iabs; omega), if_neg (by omega),
            if_pos (by unfold iabs; omega), show (((-k).natAbs : Nat) : Int) = k by omega, a2 n' (by omega) (by omega)]
        · rw [if_neg q]
          by_cases z : m' = 0
          · rw [if_pos z, if_pos z]
          · rw [if_neg z, if_neg z]
            by_cases r : iabs m' < k
            · rw [if_pos r, if_pos (by omega)]
            · rw [if_neg r, if_neg (by unfold iabs at *; omega)])
  refine ⟨key.1, key.2.1, ?_⟩
  intro n' m' hm
  refine (key.2.2 n' m' hm).trans ?_
  rw [isMode_iff] at hm
  by_cases z : m' = 0
  · rw [if_pos z, if_pos z]
  · rw [if_neg z, if_neg z, if_pos (by unfold iabs; omega)]

/-- C80, exact behaviour of `c.window(c[:, 0])`: the column `m = 0` is squared, and every other `c[n, m]` is multiplied by
`c[n, 0]` **squared** (the documented effect, obtained with a copy of the column, is a multiplication by `c[n, 0]`). -/
theorem c80_window_actual (c : ScalarCoefs ℂ) (hc : c.WellFormed) (v : View) (hv : c.colView 0 = .ok v) :
    (c.windowView v).err = none ∧
    ∀ n m x y, readMap c n m = some x → readMap c n 0 = some y →
      readMap (c.windowView v).st n m = some (if m = 0 then y * y else x * (y * y)) ∧
      readMap (c.window (v.read c.vec)).st n m = some (x * y) := by
  obtain ⟨a, b, d⟩ := windowView_eq hc.wf hv
  obtain ⟨r1, r2⟩ := keeps_read hc.wf ⟨hc.wf, rfl, rfl⟩ hv
  simp only [Int.natAbs_zero, Int.natCast_zero, sub_zero, zero_add] at r1 r2
  obtain ⟨_, w2, w3, w4, w5⟩ := ScalarCoefs.window_eq hc.wf (w := v.read c.vec) (by omega)
  refine ⟨a, fun n m x y hx hy => ?_⟩
  rw [readMap_eq hc.wf] at hx hy
  have hm : IsMode c.nmax c.mmax n m := by
    by_contra hm
    rw [ScalarCoefs.absMap, if_neg hm] at hx; cases hx
  have hm' := isMode_iff.mp hm
  rw [readMap_eq b.1, readMap_eq w2, d n m hm, w5 n m hm, r2 n.toNat (by omega), show ((n.toNat : Nat) : Int) = n by omega, hx, hy]
  refine ⟨?_, rfl⟩
  split <;> rfl

/-- C80 for `window`: `c.window(c[:, 0])` agrees with `c.window` of a copy exactly when `c[n, m] c[n, 0]^2 = c[n, m] c[n, 0]`
for every mode off the column `m = 0`. -/
theorem c80_window_iff (c : ScalarCoefs ℂ) (hc : c.WellFormed) (v : View) (hv : c.colView 0 = .ok v) :
    (∀ n m, readMap (c.windowView v).st n m = readMap (c.window (v.read c.vec)).st n m) ↔
    ∀ n m x y, m ≠ 0 → readMap c n m = some x → readMap c n 0 = some y → x = 0 ∨ y = 0 ∨ y = 1 := by
  obtain ⟨_, hw⟩ := c80_window_actual c hc v hv
  obtain ⟨_, b, _⟩ := windowView_eq hc.wf hv
  obtain ⟨r1, _⟩ := keeps_read hc.wf ⟨hc.wf, rfl, rfl⟩ hv
  simp only [Int.natAbs_zero, Int.natCast_zero, sub_zero] at r1
  obtain ⟨_, w2, w3, w4, _⟩ := ScalarCoefs.window_eq hc.wf (w := v.read c.vec) (by omega)
  constructor
  · intro h n m x y hm hx hy
    obtain ⟨e1, e2⟩ := hw n m x y hx hy
    have := h n m
    rw [e1, e2, if_neg hm] at this
    have e := Option.some.inj this
    have : x * (y * (y - 1)) = 0 := by linear_combination e
    rcases mul_eq_zero.mp this with h1 | h1
    · exact .inl h1
    · rcases mul_eq_zero.mp h1 with h2 | h2
      · exact .inr (.inl h2)
      · exact .inr (.inr (by linear_combination h2))
  · intro h n m
    by_cases hm : IsMode c.nmax c.mmax n m
    · have hm' := isMode_iff.mp hm
      have hm0 : IsMode c.nmax c.mmax n 0 := by rw [isMode_iff]; omega
      have hx : ∃ x, readMap c n m = some x := ⟨_, by rw [readMap_eq hc.wf, ScalarCoefs.absMap_mode hc.wf hm]⟩
      have hy : ∃ y, readMap c n 0 = some y := ⟨_, by rw [readMap_eq hc.wf, ScalarCoefs.absMap_mode hc.wf hm0]⟩
      obtain ⟨x, hx⟩ := hx
      obtain ⟨y, hy⟩ := hy
      obtain ⟨e1, e2⟩ := hw n m x y hx hy
      rw [e1, e2]
      by_cases z : m = 0
      · subst z
        rw [hx] at hy
        cases hy
        rw [if_pos rfl]
      · rw [if_neg z]
        rcases h n m x y z hx hy with q | q | q <;> rw [q] <;> simp
    · rw [readMap_eq b.1, readMap_eq w2]
      unfold ScalarCoefs.absMap
      rw [b.2.1, b.2.2, w3, w4, if_neg hm, if_neg hm]

/-- `c.window(c[:, 0])` with `c` all 2, `nmax = mmax = 1`: `c[1, 1]` becomes 8, not 4. -/
theorem c80_window_counterexample : ∃ (c : ScalarCoefs Int) (v : View), c.WellFormed ∧ c.colView 0 = .ok v ∧
    readMap (c.windowView v).st 1 1 = some 8 ∧ readMap (c.window (v.read c.vec)).st 1 1 = some 4 := by
  refine ⟨⟨[2, 2, 2, 2], 1, 1⟩, _, ⟨by decide, by decide, by decide⟩, rfl, ?_, ?_⟩ <;> decide

/-! ### The hypotheses are met -/

example : (⟨[1, 2, 3, 4, 5, 6, 7], 2, 1⟩ : ScalarCoefs Int).colView (-1) = .ok [3, 4] ∧
    ((⟨[1, 2, 3, 4, 5, 6, 7], 2, 1⟩ : ScalarCoefs Int).setitemView [.all, .int 1] [3, 4]).st.vec = [1, 2, 3, 4, 5, 4, 5] := ⟨rfl, by decide⟩


/-- A program with views: `v = c[:, 0]; v[1] = 9; c[0, 0] = 7; c.window(v); u = c[:, 1]`. -/
def viewDemo : VState Int :=
  List.foldl VStmt.run ⟨⟨[1, 2, 3, 4], 1, 1⟩, []⟩
    [.view 0, .poke 0 1 9, .set [.int 0, .int 0] (.num 7), .windowBy 0, .view 1]

/-- Both columns taken show the set at the end. -/
example : viewDemo.views.map (fun p => (p.1, p.2.read viewDemo.c.vec)) = [(0, [49, 81]), (1, [324])] := by decide

/-- An accepted self-assignment with overlap: `c[1, :] = c[:, 0]` for `nmax = 2`, `mmax = 1`. -/
example : ∃ v, (⟨[1, 2, 3, 4, 5, 6, 7], 2, 1⟩ : ScalarCoefs Int).colView 0 = .ok v ∧
    ((⟨[1, 2, 3, 4, 5, 6, 7], 2, 1⟩ : ScalarCoefs Int).setitemView [.int 1, .all] v).st.vec = [1, 2, 3, 1, 5, 3, 7] :=
  ⟨_, rfl, by decide⟩

end Verif.Props
