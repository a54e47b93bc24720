/-!
# Python / NumPy primitives used by the model

Semantics of the Python and NumPy constructs that the modelled code relies on.  These definitions
model the language/runtime, not a file of /repo; each says which construct it stands for.
Everything here is core Lean, computable, and polymorphic in the element type.
-/
namespace Verif

/-- Python exception classes raised by the modelled code (or by NumPy on its behalf). -/
inductive Exc where
  | valueError | typeError | attributeError | indexError | zeroDivisionError
  | notImplementedError | importError | exception
  /-- Not a Python exception: undefined behaviour of the C extension (access outside an array, ...). -/
  | undefinedBehaviour
  /-- Not a Python exception: the call never returns. -/
  | nonTermination
  deriving DecidableEq, Repr

/-- A raised exception: its class and a tag (for spherepy's own errors the key in `err_msg`,
spherepy/spherepy.py 72-118; for NumPy errors a short name). -/
structure PyErr where
  cls : Exc
  msg : String
  deriving DecidableEq, Repr

/-- Result of a Python call: a value or a raised exception. -/
abbrev Res (α : Type) := Except PyErr α

/-- Did the call raise an exception of class `k`?.
    Notation for the theorems; classes as raised in spherepy.py 194-207 etc. -/
def Res.Raises {α : Type} (r : Res α) (k : Exc) : Prop := ∃ msg, r = .error ⟨k, msg⟩

/-- Did the call raise some exception?.
    Notation for the theorems. -/
def Res.Fails {α : Type} (r : Res α) : Prop := ∃ e, r = .error e

/-- `a[i]` for a 1-D array and an `int` index: negative indices count from the end,
out of range raises `IndexError`.
    NumPy runtime; used e.g. at spherepy.py 500, pysphi.py 75-97. -/
def getIdx {α : Type} (l : List α) (i : Int) : Res α :=
  let j : Int := if i < 0 then i + l.length else i
  if j < 0 then .error ⟨.indexError, "index"⟩
  else match l[j.toNat]? with
    | some v => .ok v
    | none => .error ⟨.indexError, "index"⟩

/-- `a[i] = v` for a 1-D array and an `int` index.
    NumPy runtime; used e.g. at spherepy.py 434, 654-655. -/
def setIdx {α : Type} (l : List α) (i : Int) (v : α) : Res (List α) :=
  let j : Int := if i < 0 then i + l.length else i
  if j < 0 then .error ⟨.indexError, "index"⟩
  else if j.toNat < l.length then .ok (l.set j.toNat v)
  else .error ⟨.indexError, "index"⟩

/-- Normalisation of one slice bound: negative bounds count from the end, then clamp to `[0,len]`.
    Python runtime; slices at spherepy.py 264-269, 389-393, 458. -/
def clampIdx (len : Nat) (i : Int) : Nat :=
  if i < 0 then (i + len).toNat else min i.toNat len

/-- `a[lo:hi]` (step 1).
    NumPy runtime; slices at spherepy.py 389-393, 458, 524-534. -/
def getSlice {α : Type} (l : List α) (lo hi : Int) : List α :=
  (l.take (clampIdx l.length hi)).drop (clampIdx l.length lo)

/-- `a[lo:hi] = v` (step 1) for NumPy arrays: same length, or `v` of length 1 is broadcast,
otherwise `ValueError`. -/
def setSlice {α : Type} (l : List α) (lo hi : Int) (v : List α) : Res (List α) :=
  let a := clampIdx l.length lo
  let b := max a (clampIdx l.length hi)
  if v.length = b - a then .ok (l.take a ++ v ++ l.drop b)
  else match v with
    | [x] => .ok (l.take a ++ List.replicate (b - a) x ++ l.drop b)
    | _ => .error ⟨.valueError, "broadcast"⟩

/-- `np.zeros(n)` / `np.ones(n)` / any constant fill: a negative dimension raises `ValueError`.
    NumPy runtime; used at spherepy.py 1413-1467, pysphi.py 78, 140, 157, 180. -/
def npFull {α : Type} (n : Int) (x : α) : Res (List α) :=
  if n < 0 then .error ⟨.valueError, "negative dimensions"⟩ else .ok (List.replicate n.toNat x)

/-- NumPy elementwise binary operation on two 1-D arrays with broadcasting of length-1 operands. -/
def bcast {α β γ : Type} (f : α → β → γ) (a : List α) (b : List β) : Res (List γ) :=
  if a.length = b.length then .ok (List.zipWith f a b)
  else match a, b with
    | [x], b => .ok (b.map (f x))
    | a, [y] => .ok (a.map (fun x => f x y))
    | _, _ => .error ⟨.valueError, "broadcast"⟩

/-- `xrange(a, b)` (step 1).
    Python runtime; loops at spherepy.py 267, 324, 415, 480, pysphi.py 67. -/
def pyRange (a b : Int) : List Int := (List.range (b - a).toNat).map (fun (k : Nat) => a + (k : Int))

/-- Run a loop body over a list, threading a state; an exception aborts the loop.
    Python runtime (`for` statement), e.g. spherepy.py 525-533. -/
def forM' {σ ι : Type} (xs : List ι) (s : σ) (body : σ → ι → Res σ) : Res σ :=
  match xs with
  | [] => .ok s
  | x :: xs => (body s x).bind (fun s' => forM' xs s' body)

/-- Collect the results of a loop body that appends one value per iteration.
    Python runtime (`for` statement), e.g. spherepy.py 345-354, 480-484. -/
def mapM' {ι β : Type} (xs : List ι) (body : ι → Res β) : Res (List β) :=
  match xs with
  | [] => .ok []
  | x :: xs => (body x).bind (fun y => (mapM' xs body).bind (fun ys => .ok (y :: ys)))

/-! ### Basic facts -/

@[simp] theorem Except.bind_ok {ε α β : Type} (a : α) (f : α → Except ε β) :
    (Except.ok a : Except ε α).bind f = f a := rfl
@[simp] theorem Except.bind_error {ε α β : Type} (e : ε) (f : α → Except ε β) :
    (Except.error e : Except ε α).bind f = .error e := rfl

theorem clampIdx_of_le {len : Nat} {i : Int} (h0 : 0 ≤ i) (h1 : i ≤ len) :
    clampIdx len i = i.toNat := by
  unfold clampIdx; split <;> omega

theorem getIdx_of_lt {α : Type} {l : List α} {i : Int} (h0 : 0 ≤ i) (h1 : i < l.length) :
    getIdx l i = .ok (l[i.toNat]'(by omega)) := by
  unfold getIdx
  have h2 : i.toNat < l.length := by omega
  simp only [show ¬ i < 0 by omega, if_false, List.getElem?_eq_getElem h2]

theorem setIdx_of_lt {α : Type} {l : List α} {i : Int} {v : α} (h0 : 0 ≤ i) (h1 : i < l.length) :
    setIdx l i v = .ok (l.set i.toNat v) := by
  unfold setIdx
  have h2 : i.toNat < l.length := by omega
  simp only [show ¬ i < 0 by omega, if_false, h2, if_true]

theorem getSlice_of_le {α : Type} {l : List α} {a b : Int} (h0 : 0 ≤ a) (h1 : a ≤ b)
    (h2 : b ≤ l.length) : getSlice l a b = (l.take b.toNat).drop a.toNat := by
  unfold getSlice
  rw [clampIdx_of_le (by omega) h2, clampIdx_of_le h0 (by omega)]

theorem length_getSlice {α : Type} {l : List α} {a b : Int} (h0 : 0 ≤ a) (h1 : a ≤ b)
    (h2 : b ≤ l.length) : (getSlice l a b).length = (b - a).toNat := by
  rw [getSlice_of_le h0 h1 h2]; simp only [List.length_drop, List.length_take]; omega

theorem setSlice_of_le {α : Type} {l v : List α} {a b : Int} (h0 : 0 ≤ a) (h1 : a ≤ b)
    (h2 : b ≤ l.length) (hv : (v.length : Int) = b - a) :
    setSlice l a b v = .ok (l.take a.toNat ++ v ++ l.drop b.toNat) := by
  unfold setSlice
  rw [clampIdx_of_le (by omega) h2, clampIdx_of_le h0 (by omega)]
  have e : max a.toNat b.toNat = b.toNat := by omega
  simp only [e]
  rw [if_pos (by omega)]

theorem mem_pyRange {a b x : Int} : x ∈ pyRange a b ↔ a ≤ x ∧ x < b := by
  simp only [pyRange, List.mem_map, List.mem_range]
  constructor
  · rintro ⟨k, hk, rfl⟩; omega
  · rintro ⟨h1, h2⟩; exact ⟨(x - a).toNat, by omega, by omega⟩

theorem length_pyRange {a b : Int} : (pyRange a b).length = (b - a).toNat := by
  simp [pyRange]

theorem pyRange_nil {a b : Int} (h : b ≤ a) : pyRange a b = [] := by
  have : (b - a).toNat = 0 := by omega
  simp [pyRange, this]

theorem pyRange_succ {a b : Int} (h : a ≤ b) : pyRange a (b + 1) = pyRange a b ++ [b] := by
  have e : (b + 1 - a).toNat = (b - a).toNat + 1 := by omega
  simp only [pyRange, e, List.range_succ, List.map_append, List.map_cons, List.map_nil]
  congr 2; omega

theorem getElem_pyRange {a b : Int} {k : Nat} (h : k < (pyRange a b).length) :
    (pyRange a b)[k] = a + k := by
  simp [pyRange]

theorem forM'_append {σ ι : Type} (xs ys : List ι) (s : σ) (body : σ → ι → Res σ) :
    forM' (xs ++ ys) s body = (forM' xs s body).bind (fun s' => forM' ys s' body) := by
  induction xs generalizing s with
  | nil => rfl
  | cons x xs ih =>
    simp only [List.cons_append, forM']
    cases body s x with
    | error e => rfl
    | ok s' => simpa using ih s'

/-- Loop invariant rule for `for i in xrange(a, b)`. -/
theorem forM'_range_inv {σ : Type} {a b : Int} (hab : a ≤ b) (s : σ) (body : σ → Int → Res σ)
    (Inv : Int → σ → Prop) (h0 : Inv a s)
    (hstep : ∀ i s, a ≤ i → i < b → Inv i s → ∃ s', body s i = .ok s' ∧ Inv (i + 1) s') :
    ∃ s', forM' (pyRange a b) s body = .ok s' ∧ Inv b s' := by
  obtain ⟨n, rfl⟩ : ∃ n : Nat, b = a + n := ⟨(b - a).toNat, by omega⟩
  clear hab
  induction n with
  | zero => exact ⟨s, by simp [pyRange_nil, forM'], by simpa using h0⟩
  | succ n ih =>
    obtain ⟨s1, e1, i1⟩ := ih (fun i s h1 h2 h3 => hstep i s h1 (by omega) h3)
    obtain ⟨s2, e2, i2⟩ := hstep (a + n) s1 (by omega) (by omega) i1
    refine ⟨s2, ?_, ?_⟩
    · have : a + ((n + 1 : Nat) : Int) = (a + n) + 1 := by omega
      rw [this, pyRange_succ (by omega), forM'_append, e1]
      simp [forM', e2]
    · have : a + ((n + 1 : Nat) : Int) = (a + n) + 1 := by omega
      rw [this]; exact i2

theorem mapM'_ok {ι β : Type} (xs : List ι) (body : ι → Res β) (g : ι → β)
    (h : ∀ x ∈ xs, body x = .ok (g x)) : mapM' xs body = .ok (xs.map g) := by
  induction xs with
  | nil => rfl
  | cons x xs ih =>
    have h1 := h x (by simp)
    have h2 := ih (fun y hy => h y (by simp [hy]))
    simp [mapM', h1, h2]

end Verif
