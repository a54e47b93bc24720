import Verif.CoefsLemmas2
/-!
# Properties C01 - C08: storage, reading, writing, slicing, windowing of `ScalarCoefs`

All statements are for an arbitrary element type `α` (so also for IEEE doubles).
-/
namespace Verif.Props
variable {α : Type}

/-- A sample object used to show that hypotheses are satisfiable: `nmax = 2`, `mmax = 1`, 7 modes. -/
def sample : ScalarCoefs Int := ⟨[10, 11, 12, 13, 14, 15, 16], 2, 1⟩

theorem sample_wf : sample.WellFormed := ⟨by decide, by decide, by decide⟩

/-- What `c[n, m]` returns, as a partial function of the mode. -/
def readMap [Zero α] (c : ScalarCoefs α) (n m : Int) : Option α :=
  match c.getitem [.int n, .int m] with
  | .ok (.num v) => some v
  | _ => none

theorem getitem_nm [Zero α] (c : ScalarCoefs α) (n m : Int) :
    c.getitem [.int n, .int m] = (c.getNM n m).bind fun v => .ok (.num v) := rfl
theorem getitem_col [Zero α] (c : ScalarCoefs α) (m : Int) :
    c.getitem [.all, .int m] = (c.getCol m).bind fun v => .ok (.arr v) := rfl
theorem getitem_row [Zero α] (c : ScalarCoefs α) (n : Int) :
    c.getitem [.int n, .all] = (c.getRow n).bind fun v => .ok (.arr v) := rfl
theorem getitem_trunc [Zero α] (c : ScalarCoefs α) (k : Int) :
    c.getitem [.upto k, .all] = (c.trunc k).bind fun v => .ok (.coefs v) := rfl
theorem setitem_nm (c : ScalarCoefs α) (n m : Int) (v : Val α) :
    c.setitem [.int n, .int m] v = c.setNM n m v := rfl

theorem readMap_eq [Zero α] {c : ScalarCoefs α} (h : c.WF) (n m : Int) :
    readMap c n m = c.absMap n m := by
  unfold readMap ScalarCoefs.getitem
  by_cases hm : IsMode c.nmax c.mmax n m
  · simp only [ScalarCoefs.getNM_eq h hm, ScalarCoefs.absMap_mode h hm, Except.bind_ok]
  · obtain ⟨k, hk⟩ := ScalarCoefs.getNM_error (c := c) hm
    simp only [hk, Except.bind_error, ScalarCoefs.absMap, if_neg hm]

/-! ## C01 -/

/-- **C01.** For all limits there is one bijection between modes and vector positions (independent of
the contents and of the element type) such that `c[n,m]` reads and `c[n,m] = v` writes exactly the
position of `(n,m)`; hence `c.size` is the number of modes. -/
theorem c01_slots (nmax mmax : Int) (h0 : 0 ≤ mmax) (h1 : mmax ≤ nmax) :
    ∃ e : {p : Int × Int // IsMode nmax mmax p.1 p.2} ≃ Fin (modes nmax mmax).card,
      ∀ (α : Type) [Zero α] (c : ScalarCoefs α) (hc : c.WellFormed) (hn : c.nmax = nmax)
        (hm : c.mmax = mmax) (p : {p : Int × Int // IsMode nmax mmax p.1 p.2}),
        c.getitem [.int p.1.1, .int p.1.2] = .ok (.num (c.vec[(e p).val]'(by
          rw [hc.length_eq, hn, hm]; exact (e p).isLt))) ∧
        ∀ v : α, c.setitem [.int p.1.1, .int p.1.2] (.num v) =
          ⟨{ c with vec := c.vec.set (e p).val v }, none⟩ := by
  have hcard := modes_card h0 h1
  refine ⟨Equiv.ofBijective
    (fun p => ⟨slot nmax p.1.1 p.1.2, by rw [hcard]; exact slot_lt p.2⟩) ⟨?_, ?_⟩, ?_⟩
  · intro p q hpq
    have := slot_inj p.2 q.2 (by simpa using hpq)
    exact Subtype.ext (Prod.ext this.1 this.2)
  · intro j
    obtain ⟨n, m, hm, e⟩ := slot_surj h0 h1 (j := j.val) (by rw [← hcard]; exact j.isLt)
    exact ⟨⟨(n, m), hm⟩, Fin.ext e⟩
  · intro α _ c hc hn hm p
    subst hn hm
    have hw := hc.wf
    constructor
    · unfold ScalarCoefs.getitem
      simp only [ScalarCoefs.getNM_eq hw p.2, Except.bind_ok]
      rfl
    · intro v
      unfold ScalarCoefs.setitem
      simp only [ScalarCoefs.setNM_eq hw p.2]
      rfl

/-- **C01 (size).** `c.size` is the number of modes. -/
theorem c01_size (c : ScalarCoefs α) (hc : c.WellFormed) :
    c.size = .ok ((modes c.nmax c.mmax).card : Int) := by
  unfold ScalarCoefs.size
  rw [← modes_card' hc.1 hc.2, hc.length_eq]
  simp

example : (0 : Int) ≤ 1 ∧ (1 : Int) ≤ 2 ∧ (modes 2 1).card = 7 := by decide
example : sample.size = .ok 7 := by decide

/-! ## C02 -/

/-- The history semantics of the specification: the last *valid* write to `(n, m)` wins. -/
def lastWrite (nmax mmax : Int) (n m : Int) : List (Int × Int × α) → Option α → Option α
  | [], v0 => v0
  | (n', m', v) :: ws, v0 =>
    lastWrite nmax mmax n m ws (if n' = n ∧ m' = m ∧ IsMode nmax mmax n' m' then some v else v0)

/-- Run a history of assignments `c[n,m] = v`, ignoring the exceptions of rejected ones. -/
def runWrites (c : ScalarCoefs α) (ws : List (Int × Int × α)) : ScalarCoefs α :=
  ws.foldl (fun c w => (c.setitem [.int w.1, .int w.2.1] (.num w.2.2)).st) c

/-- **C02.** After any history of assignments (valid or rejected), every read returns the last value
successfully assigned to that mode, or the initial one; `nmax`, `mmax`, well-formedness (hence size)
are preserved. -/
theorem c02_history [Zero α] (c : ScalarCoefs α) (hc : c.WellFormed) (ws : List (Int × Int × α)) :
    (runWrites c ws).WellFormed ∧ (runWrites c ws).nmax = c.nmax ∧ (runWrites c ws).mmax = c.mmax ∧
    ∀ n m, readMap (runWrites c ws) n m = lastWrite c.nmax c.mmax n m ws (readMap c n m) := by
  induction ws generalizing c with
  | nil => exact ⟨hc, rfl, rfl, fun n m => rfl⟩
  | cons w ws ih =>
    obtain ⟨n0, m0, v⟩ := w
    have hw := hc.wf
    have hs := ScalarCoefs.setNM_wf hw (n := n0) (m := m0) (val := .num v)
    have e : runWrites c ((n0, m0, v) :: ws) = runWrites (c.setNM n0 m0 (.num v)).st ws := rfl
    obtain ⟨a, b, d, f⟩ := ih (c.setNM n0 m0 (.num v)).st (ScalarCoefs.wf_iff.mp hs.1)
    rw [e]
    refine ⟨a, by rw [b, hs.2.1], by rw [d, hs.2.2], ?_⟩
    intro n m
    rw [f n m, hs.2.1, hs.2.2]
    change _ = lastWrite c.nmax c.mmax n m ws
      (if n0 = n ∧ m0 = m ∧ IsMode c.nmax c.mmax n0 m0 then some v else readMap c n m)
    congr 1
    rw [readMap_eq hs.1, readMap_eq hw]
    by_cases hm : IsMode c.nmax c.mmax n0 m0
    · rw [ScalarCoefs.absMap_setNM hw hm]
      by_cases q : n0 = n ∧ m0 = m
      · rw [if_pos ⟨q.1.symm, q.2.symm⟩, if_pos ⟨q.1, q.2, hm⟩]
      · rw [if_neg (fun hh => q ⟨hh.1.symm, hh.2.symm⟩), if_neg (fun hh => q ⟨hh.1, hh.2.1⟩)]
    · obtain ⟨k, hk⟩ := ScalarCoefs.setNM_error (c := c) hm (.num v)
      rw [hk, if_neg (fun hh => hm hh.2.2)]

/-- One mutation of a coefficient set: any indexed assignment, or a window. -/
inductive Mut (α : Type) where
  | set (arg : List Arg) (val : Val α)
  | window (w : List α)

/-- The code's effect of a mutation (the exception of a rejected one is dropped). -/
def Mut.run [Mul α] (c : ScalarCoefs α) : Mut α → ScalarCoefs α
  | .set arg val => (c.setitem arg val).st
  | .window w => (c.window w).st

/-- The specification of `c[arg] = val` on the map from modes to values: single mode, column, row;
anything else changes nothing. -/
def specSet (nmax mmax : Int) (f : Int → Int → Option α) (arg : List Arg) (val : Val α) (n' m' : Int) :
    Option α :=
  match arg, val with
  | [.int n, .int m], .num v =>
      if n' = n ∧ m' = m ∧ IsMode nmax mmax n m then some v else f n' m'
  | [.slice .none .none .none, .int m], .seq v =>
      if m' = m ∧ IsMode nmax mmax n' m' ∧ (v.length : Int) = nmax - |m| + 1
      then v[(n' - |m|).toNat]? else f n' m'
  | [.int n, .slice .none .none .none], .seq v =>
      if n' = n ∧ IsMode nmax mmax n' m' ∧ (v.length : Int) = 2 * n + 1
      then v[(m' + min n mmax).toNat]? else f n' m'
  | _, _ => f n' m'

/-- The specification: effect of a mutation on the map from modes to values. -/
def Mut.spec [Mul α] (nmax mmax : Int) (f : Int → Int → Option α) : Mut α → Int → Int → Option α
  | .set arg val => specSet nmax mmax f arg val
  | .window w => fun n' m' => Option.map₂ (· * ·) (f n' m') w[n'.toNat]?

/-- A window of the wrong length is outside the contract of `window`. -/
def Mut.Valid (nmax : Int) : Mut α → Prop
  | .window w => (w.length : Int) = nmax + 1
  | _ => True

/-- **C02 (all mutators).** Refinement: after any history of arbitrary indexed assignments (single mode,
column, row, or malformed) and windows of the documented length, the object is the map obtained by
applying the specification of each mutation in order. -/
theorem c02_refinement [Zero α] [Mul α] (c : ScalarCoefs α) (hc : c.WellFormed) (ops : List (Mut α))
    (hv : ∀ o ∈ ops, o.Valid c.nmax) :
    (ops.foldl Mut.run c).WellFormed ∧ (ops.foldl Mut.run c).nmax = c.nmax ∧
    (ops.foldl Mut.run c).mmax = c.mmax ∧
    readMap (ops.foldl Mut.run c) = ops.foldl (Mut.spec c.nmax c.mmax) (readMap c) := by
  induction ops generalizing c with
  | nil => exact ⟨hc, rfl, rfl, rfl⟩
  | cons o ops ih =>
    have hw := hc.wf
    have step : (o.run c).WF ∧ (o.run c).nmax = c.nmax ∧ (o.run c).mmax = c.mmax ∧
        readMap (o.run c) = o.spec c.nmax c.mmax (readMap c) := by
      have hread : readMap c = c.absMap := by funext n m; exact readMap_eq hw n m
      cases o with
      | window w =>
        have hvw : (w.length : Int) = c.nmax + 1 := hv (.window w) (by simp)
        have k := ScalarCoefs.window_eq hw hvw
        refine ⟨k.2.1, k.2.2.1, k.2.2.2.1, ?_⟩
        funext n m
        rw [show Mut.run c (.window w) = (c.window w).st from rfl, readMap_eq k.2.1, hread]
        simp only [Mut.spec]
        by_cases hm : IsMode c.nmax c.mmax n m
        · exact k.2.2.2.2 n m hm
        · have e1 : (c.window w).st.absMap n m = none := by
            unfold ScalarCoefs.absMap
            rw [k.2.2.1, k.2.2.2.1, if_neg hm]
          have e2 : c.absMap n m = none := by unfold ScalarCoefs.absMap; rw [if_neg hm]
          rw [e2]; exact e1
      | set arg val =>
        have hs := ScalarCoefs.setitem_wf hw (arg := arg) (val := val)
        refine ⟨hs.1, hs.2.1, hs.2.2, ?_⟩
        funext n' m'
        rw [show Mut.run c (.set arg val) = (c.setitem arg val).st from rfl, readMap_eq hs.1, hread]
        have hnone : ¬ IsMode c.nmax c.mmax n' m' →
            (c.setitem arg val).st.absMap n' m' = none ∧ c.absMap n' m' = none := by
          intro hm
          unfold ScalarCoefs.absMap
          rw [hs.2.1, hs.2.2, if_neg hm, if_neg hm]; exact ⟨rfl, rfl⟩
        change _ = specSet c.nmax c.mmax c.absMap arg val n' m'
        unfold specSet
        split
        · -- single mode
          rename_i n m v
          simp only [ScalarCoefs.setitem]
          by_cases hm : IsMode c.nmax c.mmax n m
          · rw [ScalarCoefs.absMap_setNM hw hm]
            simp only [hm, and_true]
          · obtain ⟨k, hk⟩ := ScalarCoefs.setNM_error (c := c) hm (.num v)
            rw [hk, if_neg (fun hh => hm hh.2.2)]
        · -- column
          rename_i m v
          have e : (c.setitem [.slice .none .none .none, .int m] (.seq v)) = c.setCol m (.seq v) := rfl
          rw [e] at hnone ⊢
          by_cases hmode : IsMode c.nmax c.mmax n' m'
          · by_cases hv : iabs m ≤ c.mmax ∧ (v.length : Int) = c.nmax - m.natAbs + 1
            · rw [ScalarCoefs.absMap_setCol hw hv.1 hv.2 n' m' hmode]
              simp only [hmode, true_and, Int.abs_eq_natAbs, hv.2, and_true]
            · obtain ⟨er, he, _⟩ := ScalarCoefs.setCol_error hw (m := m) (val := .seq v) (by
                rintro ⟨a, w, b, d⟩; cases b; exact hv ⟨a, d⟩)
              rw [he, if_neg]
              rintro ⟨rfl, -, hl⟩
              rw [isMode_iff] at hmode
              rw [Int.abs_eq_natAbs] at hl
              exact hv ⟨hmode.2.2.2, hl⟩
          · rw [(hnone hmode).1, (hnone hmode).2, if_neg (fun hh => hmode hh.2.1)]
        · -- row
          rename_i n v
          have e : (c.setitem [.int n, .slice .none .none .none] (.seq v)) = c.setRow n (.seq v) := rfl
          rw [e] at hnone ⊢
          by_cases hmode : IsMode c.nmax c.mmax n' m'
          · by_cases hv : (0 ≤ n ∧ n ≤ c.nmax) ∧ (v.length : Int) = 2 * n + 1
            · rw [(ScalarCoefs.setRow_eq hw hv.1 hv.2).2.2.2.2 n' m' hmode]
              simp only [hmode, true_and, hv.2, and_true]
            · obtain ⟨er, he, _⟩ := ScalarCoefs.setRow_error (c := c) (n := n) (val := .seq v) (by
                rintro ⟨a, w, b, d⟩; cases b; exact hv ⟨a, d⟩)
              rw [he, if_neg]
              rintro ⟨rfl, -, hl⟩
              rw [isMode_iff] at hmode
              exact hv ⟨⟨hmode.1, hmode.2.1⟩, hl⟩
          · rw [(hnone hmode).1, (hnone hmode).2, if_neg (fun hh => hmode hh.2.1)]
        · -- everything else leaves the object unchanged
          rename_i h1 h2 h3
          have key : (c.setitem arg val).st = c := by
            unfold ScalarCoefs.setitem
            split
            · split
              · rename_i hs
                obtain ⟨rfl, rfl, rfl⟩ := hs
                cases val with
                | seq v => exact (h2 _ _ rfl rfl).elim
                | num x =>
                  obtain ⟨er, he, _⟩ := ScalarCoefs.setCol_error hw (m := ‹Int›) (val := .num x) (by
                    rintro ⟨_, w, b, _⟩; cases b)
                  rw [he]
              · rfl
            · split
              · rename_i hs
                obtain ⟨rfl, rfl, rfl⟩ := hs
                cases val with
                | seq v => exact (h3 _ _ rfl rfl).elim
                | num x =>
                  obtain ⟨er, he, _⟩ := ScalarCoefs.setRow_error (c := c) (n := ‹Int›) (val := .num x) (by
                    rintro ⟨_, w, b, _⟩; cases b)
                  rw [he]
              · rfl
            · rename_i n m
              cases val with
              | num v => exact (h1 _ _ _ rfl rfl).elim
              | seq v =>
                by_cases hm : IsMode c.nmax c.mmax n m
                · have hm' := isMode_iff.mp hm
                  unfold ScalarCoefs.setNM
                  rw [if_neg (by omega), if_neg (by unfold iabs; omega),
                    mindx_eq (by unfold iabs; omega) hw.mn]
                · obtain ⟨k, hk⟩ := ScalarCoefs.setNM_error (c := c) hm (.seq v)
                  rw [hk]
            · rfl
            · rfl
          rw [key]
    obtain ⟨s1, s2, s3, s4⟩ := step
    obtain ⟨a, b, d, f⟩ := ih (o.run c) (ScalarCoefs.wf_iff.mp s1)
      (fun o' ho' => by rw [s2]; exact hv o' (by simp [ho']))
    refine ⟨a, by rw [List.foldl_cons, b, s2], by rw [List.foldl_cons, d, s3], ?_⟩
    rw [List.foldl_cons, f, s2, s3, s4]
    rfl

example : readMap (runWrites sample [(1, 0, 5), (1, 2, 7), (1, 0, 9), (2, -1, 4)]) 1 0 = some 9 ∧
    readMap (runWrites sample [(1, 0, 5), (1, 2, 7), (1, 0, 9), (2, -1, 4)]) 2 1 = some 16 := by decide
example : Mut.Valid (α := Int) sample.nmax (.window [1, 2, 3]) := by unfold Mut.Valid; decide

/-! ## C03 -/

/-- **C03 (read).** `c[n,m]` returns a number exactly on the modes, and raises AttributeError otherwise. -/
theorem c03_read [Zero α] (c : ScalarCoefs α) (hc : c.WellFormed) (n m : Int) :
    (IsMode c.nmax c.mmax n m → ∃ v, c.getitem [.int n, .int m] = .ok (.num v)) ∧
    (¬ IsMode c.nmax c.mmax n m → Res.Raises (c.getitem [.int n, .int m]) .attributeError) := by
  constructor
  · intro h
    exact ⟨_, by rw [getitem_nm, ScalarCoefs.getNM_eq hc.wf h]; rfl⟩
  · intro h
    obtain ⟨k, hk⟩ := ScalarCoefs.getNM_error (c := c) h
    exact ⟨k, by rw [getitem_nm, hk]; rfl⟩

/-- **C03 (write).** `c[n,m] = v` succeeds exactly on the modes; otherwise it raises AttributeError and
leaves the object unchanged. -/
theorem c03_write (c : ScalarCoefs α) (hc : c.WellFormed) (n m : Int) (v : α) :
    (IsMode c.nmax c.mmax n m → (c.setitem [.int n, .int m] (.num v)).err = none) ∧
    (¬ IsMode c.nmax c.mmax n m → ∃ msg, c.setitem [.int n, .int m] (.num v) =
      ⟨c, some ⟨.attributeError, msg⟩⟩) := by
  constructor
  · intro h; rw [setitem_nm, ScalarCoefs.setNM_eq hc.wf h]
  · intro h
    obtain ⟨k, hk⟩ := ScalarCoefs.setNM_error (c := c) h (.num v)
    exact ⟨k, by rw [setitem_nm, hk]; rfl⟩

example : IsMode 2 1 2 (-1) ∧ ¬ IsMode 2 1 2 2 ∧ ¬ IsMode 2 1 (-1) 0 := by decide

/-! ## C05 -/

/-- **C05 (read).** `c[:,m]` lists `c[|m|,m], ..., c[nmax,m]`. -/
theorem c05_read [Zero α] (c : ScalarCoefs α) (hc : c.WellFormed) (m : Int) (hm : |m| ≤ c.mmax) :
    ∃ l : List α, c.getitem [.all, .int m] = .ok (.arr l) ∧ (l.length : Int) = c.nmax - |m| + 1 ∧
      ∀ k (h : k < l.length), c.getitem [.int (|m| + k), .int m] = .ok (.num l[k]) := by
  have hw := hc.wf
  rw [Int.abs_eq_natAbs] at hm
  have hcl := ScalarCoefs.col_le hw (m := m) hm
  have hmn := hc.mmax_le
  refine ⟨_, by rw [getitem_col, ScalarCoefs.getCol_eq hw (m := m) hm]; rfl, ?_, ?_⟩
  · rw [Int.abs_eq_natAbs]; simp only [List.length_drop, List.length_take]; omega
  · intro k hk
    have hk' := hk
    simp only [List.length_drop, List.length_take] at hk'
    rw [Int.abs_eq_natAbs]
    have hmode : IsMode c.nmax c.mmax ((m.natAbs : Int) + k) m := by rw [isMode_iff]; omega
    simp only [getitem_nm, ScalarCoefs.getNM_eq hw hmode, Except.bind_ok, ScalarCoefs.slot_add, List.getElem_drop,
      List.getElem_take]

/-- **C05 (write).** `c[:,m] = v` with `len(v) = nmax-|m|+1` sets exactly the modes of column `m`. -/
theorem c05_write [Zero α] (c : ScalarCoefs α) (hc : c.WellFormed) (m : Int) (hm : |m| ≤ c.mmax)
    (v : List α) (hv : (v.length : Int) = c.nmax - |m| + 1) :
    ∃ d, c.setitem [.all, .int m] (.seq v) = ⟨d, none⟩ ∧ d.WellFormed ∧ d.nmax = c.nmax ∧
      d.mmax = c.mmax ∧ ∀ n' m', IsMode c.nmax c.mmax n' m' →
        readMap d n' m' = if m' = m then v[(n' - |m|).toNat]? else readMap c n' m' := by
  have hw := hc.wf
  rw [Int.abs_eq_natAbs] at hm hv
  have e : c.setitem [.all, .int m] (.seq v) = c.setCol m (.seq v) := rfl
  have hwf := ScalarCoefs.setCol_wf hw (m := m) (val := .seq v)
  refine ⟨(c.setCol m (.seq v)).st, ?_, ScalarCoefs.wf_iff.mp hwf.1, hwf.2.1, hwf.2.2, ?_⟩
  · rw [e, ScalarCoefs.setCol_eq hw hm hv]
  · intro n' m' hmode
    rw [readMap_eq hwf.1, readMap_eq hw, ScalarCoefs.absMap_setCol hw hm hv n' m' hmode,
      Int.abs_eq_natAbs]

/-- **C05 (rejection).** A wrong length or an out-of-range `m` raises AttributeError, changing nothing;
reading an out-of-range column raises AttributeError too. -/
theorem c05_reject [Zero α] (c : ScalarCoefs α) (hc : c.WellFormed) (m : Int) (v : List α) :
    (¬ (|m| ≤ c.mmax ∧ (v.length : Int) = c.nmax - |m| + 1) →
      ∃ msg, c.setitem [.all, .int m] (.seq v) = ⟨c, some ⟨.attributeError, msg⟩⟩) ∧
    (¬ |m| ≤ c.mmax → Res.Raises (c.getitem [.all, .int m]) .attributeError) := by
  rw [Int.abs_eq_natAbs]
  constructor
  · intro h
    obtain ⟨e, he, hcls⟩ := ScalarCoefs.setCol_error hc.wf (m := m) (val := .seq v) (by
      rintro ⟨a, w, b, d⟩; cases b; exact h ⟨a, d⟩)
    rcases hcls with hcls | ⟨x, hx⟩
    · refine ⟨e.msg, ?_⟩
      rw [← hcls]; exact he
    · cases hx
  · intro h
    refine ⟨"m_out_bound", ?_⟩
    rw [getitem_col, ScalarCoefs.getCol_error (by unfold iabs; omega)]
    rfl

example : |(-1 : Int)| ≤ sample.mmax ∧ (([3, 4] : List Int).length : Int) = sample.nmax - |(-1 : Int)| + 1 := by
  decide

/-! ## C06 -/

/-- **C06 (read).** `c[n,:]` lists `c[n,-k], ..., c[n,k]`, `k = min(n, mmax)`; out-of-range rows raise
AttributeError. -/
theorem c06_read [Zero α] (c : ScalarCoefs α) (hc : c.WellFormed) (n : Int) :
    (0 ≤ n ∧ n ≤ c.nmax → ∃ l : List α, c.getitem [.int n, .all] = .ok (.arr l) ∧
      (l.length : Int) = 2 * min n c.mmax + 1 ∧
      ∀ k (h : k < l.length), c.getitem [.int n, .int (-(min n c.mmax) + k)] = .ok (.num l[k])) ∧
    (¬ (0 ≤ n ∧ n ≤ c.nmax) → Res.Raises (c.getitem [.int n, .all]) .attributeError) := by
  constructor
  · intro hn
    obtain ⟨l, e, hl, hk⟩ := ScalarCoefs.getRow_eq hc.wf hn
    refine ⟨l, by rw [getitem_row, e]; rfl, hl, ?_⟩
    intro k h
    rw [getitem_nm, hk k h]; rfl
  · intro hn
    exact ⟨"m_out_bound", by rw [getitem_row, ScalarCoefs.getRow_error hn]; rfl⟩

/-- **C06 (write, partial).** For rows with `n ≤ mmax` assigning a list of the length of `c[n,:]` stores
it mode by mode.  Missing: rows with `n > mmax` (see `c06_counterexample`; the code demands `2n+1`
values there although the row has only `2*mmax+1`). -/
theorem c06_write_partial [Zero α] (c : ScalarCoefs α) (hc : c.WellFormed) (n : Int) (hn : 0 ≤ n)
    (hnm : n ≤ c.mmax) (v : List α) (hv : (v.length : Int) = 2 * min n c.mmax + 1) :
    ∃ d, c.setitem [.int n, .all] (.seq v) = ⟨d, none⟩ ∧ d.WellFormed ∧ d.nmax = c.nmax ∧
      d.mmax = c.mmax ∧ ∀ n' m', IsMode c.nmax c.mmax n' m' →
        readMap d n' m' = if n' = n then v[(m' + min n c.mmax).toNat]? else readMap c n' m' := by
  have hw := hc.wf
  have hmn := hc.mmax_le
  have k := ScalarCoefs.setRow_eq hw (n := n) (by omega) (v := v) (by omega)
  have e : c.setitem [.int n, .all] (.seq v) = c.setRow n (.seq v) := rfl
  refine ⟨(c.setRow n (.seq v)).st, ?_, ScalarCoefs.wf_iff.mp k.2.1, k.2.2.1, k.2.2.2.1, ?_⟩
  · rw [e]
    cases hh : c.setRow n (.seq v) with
    | mk st err => have := k.1; rw [hh] at this; simp only at this; subst this; rfl
  · intro n' m' hmode
    rw [readMap_eq k.2.1, readMap_eq hw, k.2.2.2.2 n' m' hmode]

/-- What the code does on every row, including `n > mmax`: exactly the lists of length `2n+1` are
accepted; the first `2*min(n,mmax)+1` entries are stored and the rest is ignored. -/
theorem c06_write_actual [Zero α] (c : ScalarCoefs α) (hc : c.WellFormed) (n : Int) (v : List α) :
    (0 ≤ n ∧ n ≤ c.nmax ∧ (v.length : Int) = 2 * n + 1 →
      (c.setitem [.int n, .all] (.seq v)).err = none ∧
      ∀ n' m', IsMode c.nmax c.mmax n' m' → readMap (c.setitem [.int n, .all] (.seq v)).st n' m' =
        if n' = n then v[(m' + min n c.mmax).toNat]? else readMap c n' m') ∧
    (¬ (0 ≤ n ∧ n ≤ c.nmax ∧ (v.length : Int) = 2 * n + 1) →
      ∃ msg, c.setitem [.int n, .all] (.seq v) = ⟨c, some ⟨.attributeError, msg⟩⟩) := by
  have hw := hc.wf
  have e : c.setitem [.int n, .all] (.seq v) = c.setRow n (.seq v) := rfl
  constructor
  · rintro ⟨h1, h2, h3⟩
    have k := ScalarCoefs.setRow_eq hw ⟨h1, h2⟩ h3
    refine ⟨by rw [e]; exact k.1, ?_⟩
    intro n' m' hmode
    rw [e, readMap_eq k.2.1, readMap_eq hw, k.2.2.2.2 n' m' hmode]
  · intro h
    obtain ⟨er, he, hcls⟩ := ScalarCoefs.setRow_error (c := c) (n := n) (val := .seq v) (by
      rintro ⟨a, w, b, d⟩; cases b; exact h ⟨a.1, a.2, d⟩)
    rcases hcls with hcls | ⟨x, hx⟩
    · exact ⟨er.msg, by rw [← hcls]; exact he⟩
    · cases hx

/-- **C06 fails for `n > mmax`**: writing back exactly what was read raises AttributeError. -/
theorem c06_counterexample : ∃ (c : ScalarCoefs Int) (n : Int) (l : List Int), c.WellFormed ∧
    c.getitem [.int n, .all] = .ok (.arr l) ∧
    (c.setitem [.int n, .all] (.seq l)).err = some ⟨.attributeError, "dim_no_mtch"⟩ :=
  ⟨sample, 2, [14, 12, 16], sample_wf, by decide, by decide⟩

example : (0 : Int) ≤ 1 ∧ 1 ≤ sample.mmax ∧
    (([3, 4, 5] : List Int).length : Int) = 2 * min 1 sample.mmax + 1 := by decide

/-! ## C07 -/

/-- **C07.** `c[0:k,:]` for `0 ≤ k ≤ nmax` is well formed with limits `(k, min k mmax)` and the same value
at each of its modes; for `k > nmax` it raises AttributeError.  (`c` is not modified: the model function
returns a new object; freshness of its buffer is part of C16.) -/
theorem c07_truncation [Zero α] (c : ScalarCoefs α) (hc : c.WellFormed) (k : Int) :
    (0 ≤ k ∧ k ≤ c.nmax → ∃ d : ScalarCoefs α, c.getitem [.upto k, .all] = .ok (.coefs d) ∧
      d.WellFormed ∧ d.nmax = k ∧ d.mmax = min k c.mmax ∧
      ∀ n m, IsMode k (min k c.mmax) n m → readMap d n m = readMap c n m) ∧
    (k > c.nmax → Res.Raises (c.getitem [.upto k, .all]) .attributeError) := by
  constructor
  · rintro ⟨h0, h1⟩
    obtain ⟨d, e, hd, hn, hm, hv⟩ := ScalarCoefs.trunc_eq hc.wf h0 h1
    refine ⟨d, by rw [getitem_trunc, e]; rfl, ScalarCoefs.wf_iff.mp hd,
      hn, hm, ?_⟩
    intro n m hmode
    rw [readMap_eq hd, readMap_eq hc.wf, hv n m hmode]
  · intro h
    exact ⟨"n_out_bound", by
      rw [getitem_trunc, ScalarCoefs.trunc_error h]; rfl⟩

example : sample.getitem [.upto 1, .all] = .ok (.coefs ⟨[10, 11, 13, 15], 1, 1⟩) := by decide

/-! ## C08 -/

/-- **C08.** `c.window(vec)` with `len(vec) = nmax+1` multiplies every `c[n,m]` by `vec[n]`, keeps the
limits and never raises. -/
theorem c08_window [Zero α] [Mul α] (c : ScalarCoefs α) (hc : c.WellFormed) (w : List α)
    (hw : (w.length : Int) = c.nmax + 1) :
    ∃ d, c.window w = ⟨d, none⟩ ∧ d.WellFormed ∧ d.nmax = c.nmax ∧ d.mmax = c.mmax ∧
      ∀ n m v, readMap c n m = some v → ∃ x, w[n.toNat]? = some x ∧ readMap d n m = some (v * x) := by
  have k := ScalarCoefs.window_eq hc.wf hw
  refine ⟨(c.window w).st, ?_, ScalarCoefs.wf_iff.mp k.2.1, k.2.2.1, k.2.2.2.1, ?_⟩
  · cases hh : c.window w with
    | mk st err => have := k.1; rw [hh] at this; simp only at this; subst this; rfl
  · intro n m v hv
    rw [readMap_eq hc.wf] at hv
    have hmode : IsMode c.nmax c.mmax n m := by
      unfold ScalarCoefs.absMap at hv
      split at hv
      · assumption
      · cases hv
    have hm' := isMode_iff.mp hmode
    have hx : n.toNat < w.length := by omega
    refine ⟨w[n.toNat], List.getElem?_eq_getElem hx, ?_⟩
    rw [readMap_eq k.2.1, k.2.2.2.2 n m hmode, hv, List.getElem?_eq_getElem hx]
    rfl

example : (([1, 2, 3] : List Int).length : Int) = sample.nmax + 1 ∧ readMap sample 2 (-1) = some 14 ∧
    readMap (sample.window [1, 2, 3]).st 2 (-1) = some 42 := by decide

end Verif.Props
