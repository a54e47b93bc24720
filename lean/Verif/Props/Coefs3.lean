import Verif.Props.Coefs2
/-!
# C58-C61: index forms, vector sets as maps, vector arithmetic with numbers, copies
-/
namespace Verif.Props
open Verif
variable {α : Type}

/-! ## Specification -/

/-- The index expressions a coefficient set can be read with: `c[n, m]`, `c[:, m]`, `c[n, :]`, `c[0:k, :]`. -/
def ReadForm (arg : List Arg) : Prop :=
  (∃ n m, arg = [.int n, .int m]) ∨ (∃ m, arg = [.slice .none .none .none, .int m]) ∨
  (∃ n, arg = [.int n, .slice .none .none .none]) ∨
  (∃ k, arg = [.slice (.int 0) (.int k) .none, .slice .none .none .none])

/-- The index expressions a scalar set can be assigned with: `c[n, m]`, `c[:, m]`, `c[n, :]`. -/
def WriteForm (arg : List Arg) : Prop :=
  (∃ n m, arg = [.int n, .int m]) ∨ (∃ m, arg = [.slice .none .none .none, .int m]) ∨
  (∃ n, arg = [.int n, .slice .none .none .none])

/-! ## C58 -/

/-- **C58 (scalar, reading).** Every other index expression is rejected with AttributeError. -/
theorem c58_read [Zero α] (c : ScalarCoefs α) (arg : List Arg) (h : ¬ ReadForm arg) :
    Res.Raises (c.getitem arg) .attributeError := by
  unfold ReadForm at h
  unfold ScalarCoefs.getitem
  split
  · split
    · next h' => obtain ⟨rfl, rfl, rfl⟩ := h'; exact absurd (Or.inr (Or.inl ⟨_, rfl⟩)) h
    · exact ⟨_, rfl⟩
  · split
    · next h' => obtain ⟨rfl, rfl, rfl⟩ := h'; exact absurd (Or.inr (Or.inr (Or.inl ⟨_, rfl⟩))) h
    · exact ⟨_, rfl⟩
  · exact absurd (Or.inl ⟨_, _, rfl⟩) h
  · split
    · split
      · next h' => obtain ⟨rfl, rfl, rfl, rfl, rfl⟩ := h'; exact absurd (Or.inr (Or.inr (Or.inr ⟨_, rfl⟩))) h
      · exact ⟨_, rfl⟩
    · exact ⟨_, rfl⟩
  · exact ⟨_, rfl⟩
  · exact ⟨_, rfl⟩

/-- **C58 (scalar, writing).** Every other index expression is rejected with AttributeError, whatever the value, and the set
is left as it was. -/
theorem c58_write (c : ScalarCoefs α) (arg : List Arg) (val : Val α) (h : ¬ WriteForm arg) :
    ∃ msg, c.setitem arg val = ⟨c, some ⟨.attributeError, msg⟩⟩ := by
  unfold WriteForm at h
  unfold ScalarCoefs.setitem
  split
  · split
    · next h' => obtain ⟨rfl, rfl, rfl⟩ := h'; exact absurd (Or.inr (Or.inl ⟨_, rfl⟩)) h
    · exact ⟨_, rfl⟩
  · split
    · next h' => obtain ⟨rfl, rfl, rfl⟩ := h'; exact absurd (Or.inr (Or.inr ⟨_, rfl⟩)) h
    · exact ⟨_, rfl⟩
  · exact absurd (Or.inl ⟨_, _, rfl⟩) h
  · exact ⟨_, rfl⟩
  · exact ⟨_, rfl⟩

section Vector
variable [Add α] [Sub α] [Mul α] [Div α] [Zero α] [DecidableEq α]

/-- **C58 (vector, reading).** -/
theorem c58_vector_read (c : VectorCoefs α) (arg : List Arg) (h : ¬ ReadForm arg) :
    Res.Raises (c.getitem arg) .attributeError := by
  unfold ReadForm at h
  unfold VectorCoefs.getitem
  split
  · split
    · next h' => obtain ⟨rfl, rfl, rfl⟩ := h'; exact absurd (Or.inr (Or.inl ⟨_, rfl⟩)) h
    · exact ⟨_, rfl⟩
  · split
    · exact ⟨_, rfl⟩
    · split
      · next h' => obtain ⟨rfl, rfl, rfl⟩ := h'; exact absurd (Or.inr (Or.inr (Or.inl ⟨_, rfl⟩))) h
      · exact ⟨_, rfl⟩
  · exact absurd (Or.inl ⟨_, _, rfl⟩) h
  · split
    · split
      · next h' => obtain ⟨rfl, rfl, rfl, rfl, rfl⟩ := h'; exact absurd (Or.inr (Or.inr (Or.inr ⟨_, rfl⟩))) h
      · exact ⟨_, rfl⟩
    · exact ⟨_, rfl⟩
  · exact ⟨_, rfl⟩
  · exact ⟨_, rfl⟩

/-- **C58 (vector, writing).** Only `vc[n, m] = (x, y)` can succeed: any other index expression, and any value that is not a
2-tuple, is rejected with AttributeError and the set is left as it was. -/
theorem c58_vector_write (c : VectorCoefs α) (arg : List Arg) (val : VectorCoefs.ValV α)
    (h : ¬ ((∃ n m, arg = [.int n, .int m]) ∧ ∃ x y, val = .tup [x, y])) :
    ∃ msg, c.setitem arg val = ⟨c, some ⟨.attributeError, msg⟩⟩ := by
  unfold VectorCoefs.setitem
  split
  · split
    · split
      · exact ⟨_, rfl⟩
      · split <;> exact ⟨_, rfl⟩
      · exact absurd ⟨⟨_, _, rfl⟩, _, _, rfl⟩ h
      · exact ⟨_, rfl⟩
    · exact ⟨_, rfl⟩
  · exact ⟨_, rfl⟩

/-- The rejected forms are not all there is: `c[1:3, :]` is one of them, `c[0:3, :]` is not. -/
example : ¬ ReadForm [.slice (.int 1) (.int 3) .none, .slice .none .none .none] ∧
    ReadForm [.slice (.int 0) (.int 3) .none, .slice .none .none .none] := by
  constructor
  · rintro (⟨n, m, h⟩ | ⟨m, h⟩ | ⟨n, h⟩ | ⟨k, h⟩) <;> simp at h
  · exact Or.inr (Or.inr (Or.inr ⟨3, rfl⟩))

/-! ## C59 -/

theorem readMapV_mode {c : VectorCoefs α} (h : c.WellFormed) (n m : Int) :
    (readMapV c n m).isSome ↔ n ≠ 0 ∧ IsMode c.nmax c.mmax n m := by
  rw [readMapV_eq h]
  by_cases hn : n = 0
  · simp [hn]
  · rw [if_neg hn]
    by_cases hm : IsMode c.nmax c.mmax n m
    · rw [ScalarCoefs.absMap_mode h.wf1.wf (by rw [h.n1, h.m1]; exact hm), ScalarCoefs.absMap_mode h.wf2.wf (by rw [h.n2, h.m2]; exact hm)]
      simp [hn, hm]
    · unfold ScalarCoefs.absMap
      rw [if_neg (by rw [h.n1, h.m1]; exact hm)]
      simp [hm]

/-- **C59 (reading).** `vc[n, m]` is a pair exactly for the modes with `n ≥ 1`; otherwise AttributeError.  The pair consists of
the values of the two component sets. -/
theorem c59_read (c : VectorCoefs α) (hc : c.WellFormed) (n m : Int) :
    (n ≠ 0 ∧ IsMode c.nmax c.mmax n m → ∃ x y, c.getitem [.int n, .int m] = .ok (.nums x y) ∧
      readMap c.scoef1 n m = some x ∧ readMap c.scoef2 n m = some y) ∧
    (¬ (n ≠ 0 ∧ IsMode c.nmax c.mmax n m) → Res.Raises (c.getitem [.int n, .int m]) .attributeError) := by
  constructor
  · rintro ⟨hn, hm⟩
    have h1 : IsMode c.scoef1.nmax c.scoef1.mmax n m := by rw [hc.n1, hc.m1]; exact hm
    have h2 : IsMode c.scoef2.nmax c.scoef2.mmax n m := by rw [hc.n2, hc.m2]; exact hm
    refine ⟨_, _, ?_, by rw [readMap_eq hc.wf1.wf, ScalarCoefs.absMap_mode hc.wf1.wf h1], by rw [readMap_eq hc.wf2.wf, ScalarCoefs.absMap_mode hc.wf2.wf h2]⟩
    show (if n = 0 then _ else _) = _
    rw [if_neg hn, ScalarCoefs.getNM_eq hc.wf1.wf h1, ScalarCoefs.getNM_eq hc.wf2.wf h2]
    rfl
  · intro h
    show Res.Raises (if n = 0 then _ else _) _
    by_cases hn : n = 0
    · rw [if_pos hn]; exact ⟨_, rfl⟩
    · rw [if_neg hn]
      obtain ⟨k, hk⟩ := ScalarCoefs.getNM_error (c := c.scoef1) (n := n) (m := m) (by rw [hc.n1, hc.m1]; exact fun hm => h ⟨hn, hm⟩)
      rw [hk]; exact ⟨_, rfl⟩

/-- **C59 (writing).** `vc[n, m] = (x, y)` for a mode with `n ≥ 1` changes that pair and nothing else; otherwise it raises
AttributeError and changes nothing. -/
theorem c59_write (c : VectorCoefs α) (hc : c.WellFormed) (n m : Int) (x y : α) :
    (n ≠ 0 ∧ IsMode c.nmax c.mmax n m → ∃ d, c.setitem [.int n, .int m] (.tup [.num x, .num y]) = ⟨d, none⟩ ∧
      d.WellFormed ∧ d.nmax = c.nmax ∧ d.mmax = c.mmax ∧
      (∀ n' m', readMapV d n' m' = if n' = n ∧ m' = m then some (x, y) else readMapV c n' m') ∧
      readMap d.scoef1 0 0 = readMap c.scoef1 0 0 ∧ readMap d.scoef2 0 0 = readMap c.scoef2 0 0) ∧
    (¬ (n ≠ 0 ∧ IsMode c.nmax c.mmax n m) → ∃ msg, c.setitem [.int n, .int m] (.tup [.num x, .num y]) =
      ⟨c, some ⟨.attributeError, msg⟩⟩) := by
  constructor
  · rintro ⟨hn, hm⟩
    have h1 : IsMode c.scoef1.nmax c.scoef1.mmax n m := by rw [hc.n1, hc.m1]; exact hm
    have h2 : IsMode c.scoef2.nmax c.scoef2.mmax n m := by rw [hc.n2, hc.m2]; exact hm
    have a1 := ScalarCoefs.absMap_setNM hc.wf1.wf h1 x
    have a2 := ScalarCoefs.absMap_setNM hc.wf2.wf h2 y
    have e1 := ScalarCoefs.setNM_eq hc.wf1.wf h1 x
    have e2 := ScalarCoefs.setNM_eq hc.wf2.wf h2 y
    obtain ⟨w1, p1, q1⟩ := ScalarCoefs.setNM_wf hc.wf1.wf (n := n) (m := m) (val := .num x)
    obtain ⟨w2, p2, q2⟩ := ScalarCoefs.setNM_wf hc.wf2.wf (n := n) (m := m) (val := .num y)
    set s1 := (c.scoef1.setNM n m (.num x)).st with hs1
    set s2 := (c.scoef2.setNM n m (.num y)).st with hs2
    have wd : (VectorCoefs.mk s1 s2 c.nmax c.mmax).WellFormed :=
      ⟨ScalarCoefs.wf_iff.1 w1, ScalarCoefs.wf_iff.1 w2, by rw [p1, hc.n1], by rw [p2, hc.n2], by rw [q1, hc.m1], by rw [q2, hc.m2]⟩
    have z : ¬ ((0 : Int) = n ∧ (0 : Int) = m) := fun h => hn h.1.symm
    refine ⟨⟨s1, s2, c.nmax, c.mmax⟩, ?_, wd, rfl, rfl, fun n' m' => ?_, ?_, ?_⟩
    · show c.setNM n m (.num x) (.num y) = _
      unfold VectorCoefs.setNM
      rw [if_neg hn]
      simp only [e1, e2, hs1, hs2]
    · rw [readMapV_eq wd, readMapV_eq hc]
      simp only
      rw [a1 n' m', a2 n' m']
      by_cases h : n' = n ∧ m' = m
      · obtain ⟨rfl, rfl⟩ := h
        simp [hn]
      · rw [if_neg h, if_neg h, if_neg h]
    · rw [readMap_eq wd.wf1.wf, readMap_eq hc.wf1.wf]
      simp only
      rw [a1, if_neg z]
    · rw [readMap_eq wd.wf2.wf, readMap_eq hc.wf2.wf]
      simp only
      rw [a2, if_neg z]
  · intro h
    show ∃ msg, c.setNM n m (.num x) (.num y) = _
    unfold VectorCoefs.setNM
    by_cases hn : n = 0
    · rw [if_pos hn]; exact ⟨_, rfl⟩
    · rw [if_neg hn]
      obtain ⟨k, hk⟩ := ScalarCoefs.setNM_error (c := c.scoef1) (n := n) (m := m) (by rw [hc.n1, hc.m1]; exact fun hm => h ⟨hn, hm⟩) (.num x)
      simp only [hk]
      exact ⟨k, rfl⟩

/-- The last valid assignment to the mode `(n, m)` of a vector set wins. -/
def lastWriteV (nmax mmax n m : Int) : List (Int × Int × α × α) → Option (α × α) → Option (α × α)
  | [], v0 => v0
  | (n', m', x, y) :: ws, v0 =>
    lastWriteV nmax mmax n m ws (if n' = n ∧ m' = m ∧ n' ≠ 0 ∧ IsMode nmax mmax n' m' then some (x, y) else v0)

/-- Run a history of assignments `vc[n, m] = (x, y)`, ignoring the exceptions of rejected ones. -/
def runWritesV (c : VectorCoefs α) (ws : List (Int × Int × α × α)) : VectorCoefs α :=
  ws.foldl (fun c w => (c.setitem [.int w.1, .int w.2.1] (.tup [.num w.2.2.1, .num w.2.2.2])).st) c

/-- **C59 (histories).** After any sequence of assignments, valid or rejected, `vc[n, m]` is the last pair successfully assigned to
that mode, or the initial one; the limits stay and the `(0, 0)` entries are untouched. -/
theorem c59_history (c : VectorCoefs α) (hc : c.WellFormed) (ws : List (Int × Int × α × α)) :
    (runWritesV c ws).WellFormed ∧ (runWritesV c ws).nmax = c.nmax ∧ (runWritesV c ws).mmax = c.mmax ∧
    (∀ n m, readMapV (runWritesV c ws) n m = lastWriteV c.nmax c.mmax n m ws (readMapV c n m)) ∧
    readMap (runWritesV c ws).scoef1 0 0 = readMap c.scoef1 0 0 ∧ readMap (runWritesV c ws).scoef2 0 0 = readMap c.scoef2 0 0 := by
  induction ws generalizing c with
  | nil => exact ⟨hc, rfl, rfl, fun _ _ => rfl, rfl, rfl⟩
  | cons w ws ih =>
    obtain ⟨n0, m0, x, y⟩ := w
    obtain ⟨hok, herr⟩ := c59_write c hc n0 m0 x y
    have e : runWritesV c ((n0, m0, x, y) :: ws) = runWritesV (c.setitem [.int n0, .int m0] (.tup [.num x, .num y])).st ws := rfl
    rw [e]
    by_cases h : n0 ≠ 0 ∧ IsMode c.nmax c.mmax n0 m0
    · obtain ⟨d, hd, wd, dn, dm, dv, d1, d2⟩ := hok h
      rw [hd]
      obtain ⟨a1, a2, a3, a4, a5, a6⟩ := ih d wd
      refine ⟨a1, by rw [a2, dn], by rw [a3, dm], fun n m => ?_, by rw [a5, d1], by rw [a6, d2]⟩
      simp only
      rw [a4 n m, dn, dm, dv]
      simp only [lastWriteV]
      congr 1
      by_cases q : n = n0 ∧ m = m0
      · rw [if_pos q, if_pos ⟨q.1.symm, q.2.symm, h.1, h.2⟩]
      · rw [if_neg q, if_neg fun hh => q ⟨hh.1.symm, hh.2.1.symm⟩]
    · obtain ⟨msg, hm⟩ := herr h
      rw [hm]
      obtain ⟨a1, a2, a3, a4, a5, a6⟩ := ih c hc
      refine ⟨a1, a2, a3, fun n m => ?_, a5, a6⟩
      simp only
      rw [a4 n m]
      simp only [lastWriteV]
      congr 1
      rw [if_neg fun hh => h hh.2.2]

example : (lastWriteV 2 1 1 0 [(1, 0, (2 : Int), 3), (0, 0, 7, 7), (1, 0, 4, 5), (2, 2, 9, 9)] none) = some (4, 5) := by decide

/-- **C59 (columns).** `vc[:, m]` is the pair of the columns of the two components (starting at `n = |m|`). -/
theorem c59_column (c : VectorCoefs α) (hc : c.WellFormed) (m : Int) :
    (|m| ≤ c.mmax → ∃ u v : List α, c.getitem [.all, .int m] = .ok (.arrs u v) ∧ (u.length : Int) = c.nmax - |m| + 1 ∧
      (v.length : Int) = c.nmax - |m| + 1 ∧ ∀ n, IsMode c.nmax c.mmax n m →
        readMap c.scoef1 n m = u[(n - |m|).toNat]? ∧ readMap c.scoef2 n m = v[(n - |m|).toNat]?) ∧
    (¬ |m| ≤ c.mmax → Res.Raises (c.getitem [.all, .int m]) .attributeError) := by
  have habs : (m.natAbs : Int) = |m| := Int.natCast_natAbs m
  have i1 : iabs m = |m| := habs
  constructor
  · intro hm
    obtain ⟨u, eu, lu, hu⟩ := c05_read c.scoef1 hc.wf1 m (by rw [hc.m1]; exact hm)
    obtain ⟨v, ev, lv, hv⟩ := c05_read c.scoef2 hc.wf2 m (by rw [hc.m2]; exact hm)
    have key : ∀ (d : ScalarCoefs α) (w : List α), d.nmax = c.nmax → (w.length : Int) = d.nmax - |m| + 1 →
        (∀ k (h : k < w.length), d.getitem [.int (|m| + k), .int m] = .ok (.num w[k])) → ∀ n, IsMode c.nmax c.mmax n m →
        readMap d n m = w[(n - |m|).toNat]? := by
      intro d w hd lw hw n hnm
      have hnm' := isMode_iff.mp hnm
      have hk : (n - |m|).toNat < w.length := by omega
      have := hw _ hk
      rw [show |m| + (((n - |m|).toNat : ℕ) : Int) = n by omega] at this
      unfold readMap
      rw [this, List.getElem?_eq_getElem hk]
    rw [getitem_col] at eu ev
    refine ⟨u, v, ?_, by rw [lu, hc.n1], by rw [lv, hc.n2], fun n hn => ⟨key _ u hc.n1 lu hu n hn, key _ v hc.n2 lv hv n hn⟩⟩
    show ((c.scoef1.getCol m).bind fun u => (c.scoef2.getCol m).bind fun v => .ok (VectorCoefs.GotV.arrs u v)) = _
    cases h1 : c.scoef1.getCol m with
    | error e => rw [h1] at eu; cases eu
    | ok u' =>
      rw [h1] at eu
      cases eu
      cases h2 : c.scoef2.getCol m with
      | error e => rw [h2] at ev; cases ev
      | ok v' => rw [h2] at ev; cases ev; rfl
  · intro hm
    show Res.Raises ((c.scoef1.getCol m).bind fun u => (c.scoef2.getCol m).bind fun v => .ok (VectorCoefs.GotV.arrs u v)) _
    rw [ScalarCoefs.getCol_error (by rw [hc.m1, i1]; omega)]
    exact ⟨_, rfl⟩

/-- **C59 (rows).** `vc[n, :]`, `n ≥ 1`, is the pair of the rows of the two components (from `-min(n, mmax)`). -/
theorem c59_row (c : VectorCoefs α) (hc : c.WellFormed) (n : Int) :
    (0 < n ∧ n ≤ c.nmax → ∃ u v : List α, c.getitem [.int n, .all] = .ok (.arrs u v) ∧ (u.length : Int) = 2 * min n c.mmax + 1 ∧
      (v.length : Int) = 2 * min n c.mmax + 1 ∧ ∀ m, IsMode c.nmax c.mmax n m →
        readMap c.scoef1 n m = u[(m + min n c.mmax).toNat]? ∧ readMap c.scoef2 n m = v[(m + min n c.mmax).toNat]?) ∧
    (¬ (0 < n ∧ n ≤ c.nmax) → Res.Raises (c.getitem [.int n, .all]) .attributeError) := by
  constructor
  · rintro ⟨hn, hN⟩
    obtain ⟨u, eu, lu, hu⟩ := (c06_read c.scoef1 hc.wf1 n).1 ⟨by omega, by rw [hc.n1]; exact hN⟩
    obtain ⟨v, ev, lv, hv⟩ := (c06_read c.scoef2 hc.wf2 n).1 ⟨by omega, by rw [hc.n2]; exact hN⟩
    have key : ∀ (d : ScalarCoefs α) (w : List α), d.mmax = c.mmax → (w.length : Int) = 2 * min n d.mmax + 1 →
        (∀ k (h : k < w.length), d.getitem [.int n, .int (-(min n d.mmax) + k)] = .ok (.num w[k])) → ∀ m, IsMode c.nmax c.mmax n m →
        readMap d n m = w[(m + min n c.mmax).toNat]? := by
      intro d w hd lw hw m hnm
      have hnm' := isMode_iff.mp hnm
      rw [hd] at lw hw
      have hk : (m + min n c.mmax).toNat < w.length := by omega
      have := hw _ hk
      rw [show -(min n c.mmax) + (((m + min n c.mmax).toNat : ℕ) : Int) = m by omega] at this
      unfold readMap
      rw [this, List.getElem?_eq_getElem hk]
    refine ⟨u, v, ?_, by rw [lu, hc.m1], by rw [lv, hc.m2], fun m hm => ⟨key _ u hc.m1 lu hu m hm, key _ v hc.m2 lv hv m hm⟩⟩
    show (if n = 0 then _ else (c.scoef1.getRow n).bind fun u => (c.scoef2.getRow n).bind fun v => .ok (VectorCoefs.GotV.arrs u v)) = _
    rw [if_neg (by omega)]
    replace eu : ((c.scoef1.getRow n).bind fun l => .ok (.arr l)) = .ok (Got.arr u) := eu
    replace ev : ((c.scoef2.getRow n).bind fun l => .ok (.arr l)) = .ok (Got.arr v) := ev
    cases h1 : c.scoef1.getRow n with
    | error e => rw [h1] at eu; cases eu
    | ok u' =>
      rw [h1] at eu
      cases eu
      cases h2 : c.scoef2.getRow n with
      | error e => rw [h2] at ev; cases ev
      | ok v' => rw [h2] at ev; cases ev; rfl
  · intro h
    show Res.Raises (if n = 0 then _ else (c.scoef1.getRow n).bind fun u => (c.scoef2.getRow n).bind fun v => .ok (VectorCoefs.GotV.arrs u v)) _
    by_cases hn : n = 0
    · rw [if_pos hn]; exact ⟨_, rfl⟩
    · rw [if_neg hn, ScalarCoefs.getRow_error (by rw [hc.n1]; omega)]
      exact ⟨_, rfl⟩

/-- **C59 (truncation).** `vc[0:k, :]` keeps exactly the modes up to degree `k`. -/
theorem c59_truncation (c : VectorCoefs α) (hc : c.WellFormed) (k : Int) :
    (0 ≤ k ∧ k ≤ c.nmax → ∃ d, c.getitem [.upto k, .all] = .ok (.coefs d) ∧ d.WellFormed ∧ d.nmax = k ∧ d.mmax = min k c.mmax ∧
      ∀ n m, IsMode k (min k c.mmax) n m → readMapV d n m = readMapV c n m) ∧
    (k > c.nmax → Res.Raises (c.getitem [.upto k, .all]) .attributeError) := by
  constructor
  · rintro ⟨h0, hk⟩
    obtain ⟨a, ea, wa, na, ma, va⟩ := ScalarCoefs.trunc_eq hc.wf1.wf h0 (by rw [hc.n1]; exact hk)
    obtain ⟨b, eb, wb, nb, mb, vb⟩ := ScalarCoefs.trunc_eq hc.wf2.wf h0 (by rw [hc.n2]; exact hk)
    rw [hc.m1] at ma va
    rw [hc.m2] at mb vb
    have m0 : 0 ≤ min k c.mmax := by rw [← ma]; exact wa.m0
    have la : ncFormula k (min k c.mmax) = a.vec.length := by have := wa.len; rw [na, ma] at this; exact this.symm
    have lb : ncFormula k (min k c.mmax) = b.vec.length := by have := wb.len; rw [nb, mb] at this; exact this.symm
    have wd := vwf_of_lists (v1 := a.vec.set 0 0) (v2 := b.vec.set 0 0) m0 (min_le_left _ _) (by simpa using la) (by simpa using lb)
    refine ⟨_, ?_, wd, rfl, rfl, fun n m hm => ?_⟩
    · show (c.trunc k).bind _ = _
      unfold VectorCoefs.trunc
      rw [if_neg (by omega), ea, eb]
      simp only [Except.bind_ok]
      rw [show (if k > c.mmax then c.mmax else k) = min k c.mmax by split <;> omega, vinit_wf m0 (min_le_left _ _) la lb]
      rfl
    · rw [readMapV_eq wd, readMapV_eq hc, ← va n m hm, ← vb n m hm]
      by_cases hn : n = 0
      · rw [if_pos hn, if_pos hn]
      · rw [if_neg hn, if_neg hn]
        have hm' := isMode_iff.mp hm
        have hs := slot_ne_zero (nmax := k) (n := n) (m := m) (by omega) (by omega) (by omega)
        unfold ScalarCoefs.absMap
        simp only
        simp only [na, ma, nb, mb, if_pos hm]
        rw [List.getElem?_set_ne (Ne.symm hs), List.getElem?_set_ne (Ne.symm hs)]
  · intro h
    show Res.Raises ((c.trunc k).bind _) _
    unfold VectorCoefs.trunc
    rw [if_pos h]
    exact ⟨_, rfl⟩

/-! ## C60 -/

theorem vec_arith {c : VectorCoefs α} (hc : c.WellFormed) (f : α → α) :
    ∃ r, VectorCoefs.init (.arr (c.scoef1.vec.map f)) (.arr (c.scoef2.vec.map f)) c.nmax c.mmax = .ok r ∧ r.WellFormed ∧
      r.nmax = c.nmax ∧ r.mmax = c.mmax ∧ ∀ n m, readMapV r n m = (readMapV c n m).map (fun p : α × α => (f p.1, f p.2)) := by
  have l1 := hc.wf1.wf.len
  have l2 := hc.wf2.wf.len
  have m0 := hc.wf1.wf.m0
  have mn := hc.wf1.wf.mn
  rw [hc.n1, hc.m1] at l1 mn
  rw [hc.n2, hc.m2] at l2
  rw [hc.m1] at m0
  have wd := vwf_of_lists (v1 := (c.scoef1.vec.map f).set 0 0) (v2 := (c.scoef2.vec.map f).set 0 0) m0 mn (by simpa using l1.symm) (by simpa using l2.symm)
  refine ⟨_, vinit_wf m0 mn (by simpa using l1.symm) (by simpa using l2.symm), wd, rfl, rfl, fun n m => ?_⟩
  rw [readMapV_eq wd, readMapV_eq hc]
  by_cases hn : n = 0
  · rw [if_pos hn, if_pos hn]; rfl
  · rw [if_neg hn, if_neg hn]
    unfold ScalarCoefs.absMap
    simp only
    rw [hc.n1, hc.m1, hc.n2, hc.m2]
    by_cases hm : IsMode c.nmax c.mmax n m
    · have hm' := isMode_iff.mp hm
      have hs := slot_ne_zero (nmax := c.nmax) (n := n) (m := m) (by omega) (by omega) (by omega)
      rw [if_pos hm, if_pos hm, if_pos hm, if_pos hm, List.getElem?_set_ne (Ne.symm hs), List.getElem?_set_ne (Ne.symm hs),
        List.getElem?_map, List.getElem?_map]
      cases c.scoef1.vec[slot c.nmax n m]? <;> cases c.scoef2.vec[slot c.nmax n m]? <;> rfl
    · simp only [if_neg hm, Option.bind_none, Option.map_none]

/-- **C60 (number on the right).** `vc op x` (with `x ≠ 0` for division) applies the operator to both values of every mode with
`n ≥ 1` and keeps the limits. -/
theorem c60_number (op : Op) (c : VectorCoefs α) (hc : c.WellFormed) (x : α) (hx : op = .div → x ≠ 0) :
    ∃ r, c.opLeft op (.num x) = .ok r ∧ r.WellFormed ∧ r.nmax = c.nmax ∧ r.mmax = c.mmax ∧
      ∀ n m, readMapV r n m = (readMapV c n m).map (fun p : α × α => (specOp op p.1 x, specOp op p.2 x)) := by
  simp only [← eval_specOp]
  obtain ⟨r, e, h⟩ := vec_arith hc (fun v => op.eval v x)
  refine ⟨r, ?_, h⟩
  unfold VectorCoefs.opLeft opNum
  simp only
  rw [if_neg (fun h => hx h.1 h.2), if_neg (fun h => hx h.1 h.2)]
  exact e

/-- **C60 (number on the left).** -/
theorem c60_number_left (op : Op) (c : VectorCoefs α) (hc : c.WellFormed) (x : α) :
    ∃ r, c.opRight op (.num x) = .ok r ∧ r.WellFormed ∧ r.nmax = c.nmax ∧ r.mmax = c.mmax ∧
      ∀ n m, readMapV r n m = (readMapV c n m).map (fun p : α × α => (specOp op x p.1, specOp op x p.2)) := by
  simp only [← eval_specOp]
  obtain ⟨r, e, h⟩ := vec_arith hc (fun v => op.eval x v)
  exact ⟨r, e, h⟩

/-- **C60 (anything else).** Other operands raise TypeError. -/
theorem c60_other (op : Op) (c : VectorCoefs α) : Res.Raises (c.opLeft op .other) .typeError ∧
    Res.Raises (c.opRight op .other) .typeError ∧ ∀ d, Res.Raises (c.opRight op (.obj d)) .typeError :=
  ⟨⟨_, rfl⟩, ⟨_, rfl⟩, fun _ => ⟨_, rfl⟩⟩

/-! ## C61 -/

/-- **C61 (vector).** `copy()` of a vector set whose (0,0) entries are 0 (all reachable ones, C15) equals the set; `size` is the number of
modes. -/
theorem c61_vector (c : VectorCoefs α) (hc : c.WellFormed) (z1 : readMap c.scoef1 0 0 = some 0) (z2 : readMap c.scoef2 0 0 = some 0) :
    c.copy = .ok c ∧ c.size = .ok ((modes c.nmax c.mmax).card : Int) := by
  have l1 := hc.wf1.wf.len
  have l2 := hc.wf2.wf.len
  have m0 := hc.wf1.wf.m0
  have mn := hc.wf1.wf.mn
  rw [hc.n1, hc.m1] at l1 mn
  rw [hc.n2, hc.m2] at l2
  rw [hc.m1] at m0
  have hs : ∀ d : ScalarCoefs α, d.WellFormed → readMap d 0 0 = some 0 → d.vec.set 0 0 = d.vec := by
    intro d hd hz
    have hm : IsMode d.nmax d.mmax 0 0 := isMode_iff.mpr ⟨le_refl _, le_trans hd.1 hd.2, by simp, by simpa using hd.1⟩
    rw [readMap_eq hd.wf] at hz
    unfold ScalarCoefs.absMap at hz
    rw [if_pos hm, show slot d.nmax 0 0 = 0 by simp [slot, ord, seg]] at hz
    cases h : d.vec with
    | nil => rfl
    | cons x xs => rw [h] at hz; simp at hz; subst hz; rfl
  constructor
  · unfold VectorCoefs.copy
    rw [vinit_wf m0 mn l1.symm l2.symm, hs _ hc.wf1 z1, hs _ hc.wf2 z2]
    rcases c with ⟨⟨v1, n1, m1⟩, ⟨v2, n2, m2⟩, n, m⟩
    have := hc.n1; have := hc.n2; have := hc.m1; have := hc.m2
    simp only at *
    subst n1 n2 m1 m2
    rfl
  · unfold VectorCoefs.size
    simp only
    rw [if_pos ⟨l1.symm, l2.symm⟩, ← l1, hc.wf1.length_eq, hc.n1, hc.m1]

end Vector

/-- **C61 (scalar).** `copy()` of a set equals the set; `size` is the number of modes. -/
theorem c61_scalar (c : ScalarCoefs α) (hc : c.WellFormed) : c.copy = .ok c ∧ c.size = .ok ((modes c.nmax c.mmax).card : Int) := by
  have l := hc.wf.len
  constructor
  · exact ScalarCoefs.init_wf hc.1 hc.2 l.symm
  · unfold ScalarCoefs.size
    simp only
    rw [if_pos l.symm, ← l, hc.length_eq]

/-- A vector set with two nonzero modes satisfying the hypotheses above, and one write. -/
example : (VectorCoefs.mk (⟨[0, 1, 2, 3], 1, 1⟩ : ScalarCoefs ℚ) ⟨[0, 4, 5, 6], 1, 1⟩ 1 1).WellFormed ∧
    (VectorCoefs.mk (⟨[0, 1, 2, 3], 1, 1⟩ : ScalarCoefs ℚ) ⟨[0, 4, 5, 6], 1, 1⟩ 1 1).setitem [.int 1, .int (-1)] (.tup [.num 7, .num 8]) =
      ⟨VectorCoefs.mk ⟨[0, 1, 7, 3], 1, 1⟩ ⟨[0, 4, 8, 6], 1, 1⟩ 1 1, none⟩ :=
  ⟨vwf_of_lists (by decide) (by decide) rfl rfl, by rfl⟩

end Verif.Props
