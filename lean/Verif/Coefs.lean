import Verif.Arr2
/-!
# `ScalarCoefs` and `VectorCoefs` (spherepy/spherepy.py 138-914) and `pysphi.mindx`

Value-level model: a mutating method returns the new object together with the exception it raised,
if any (`Eff`), so that partial updates before an exception are represented.  Aliasing of the
underlying NumPy buffers is modelled in `Heap.lean`.
-/
namespace Verif

/-- Outcome of a mutating call: the object afterwards and the exception raised, if any.
    Mutators: spherepy.py 245-269, 371-437, 717-749. -/
structure Eff (σ : Type) where
  st : σ
  err : Option PyErr
  deriving Repr

/-- Sequencing of statements: stop at the first exception, keep the state reached.
    Python runtime (statement sequence); bodies at spherepy.py 371-437. -/
def Eff.andThen {σ : Type} (e : Eff σ) (f : σ → Eff σ) : Eff σ :=
  match e.err with
  | none => f e.st
  | some _ => e

/-- `for x in xs: body`.
    Python runtime (`for` statement), spherepy.py 267, 415-420. -/
def Eff.forEach {σ ι : Type} (xs : List ι) (s : σ) (body : σ → ι → Eff σ) : Eff σ :=
  match xs with
  | [] => ⟨s, none⟩
  | x :: xs => (body s x).andThen (fun s' => Eff.forEach xs s' body)

/-- A field of a Python `slice` object as the code inspects it: `None`, an `int`, something else. -/
inductive SF where
  | none | int (i : Int) | other
  deriving DecidableEq, Repr

/-- One element of the index tuple passed to `__getitem__`/`__setitem__`.
    spherepy.py 371-374, 439-442, 717-720, 751-754: ints, slices, anything else. -/
inductive Arg where
  | int (i : Int)
  | slice (start stop step : SF)
  | other
  deriving DecidableEq, Repr

/-- The index `:`.
    spherepy.py 379, 401, 448, 468, 760, 774. -/
def Arg.all : Arg := .slice .none .none .none
/-- The index `0:k`.
    spherepy.py 502-540, 790-812. -/
def Arg.upto (k : Int) : Arg := .slice (.int 0) (.int k) .none

/-- A value on the right of an indexed assignment: a number or a sequence of numbers.
    spherepy.py 371-437. -/
inductive Val (α : Type) where
  | num (v : α)
  | seq (vs : List α)
  deriving Repr

/-- What is handed to the constructors as coefficient data: an array, or the exception *object*
that `__truediv__` returns (not raises) on division by the number 0 (spherepy.py 618-626). -/
inductive Buf (α : Type) where
  | arr (l : List α)
  | exc
  deriving Repr

/-- `err_msg[key]` raised with class `k` (spherepy.py 72-118). -/
def raise (k : Exc) (key : String) : PyErr := ⟨k, key⟩

/-- `np.abs(m)` for a Python int. -/
def iabs (m : Int) : Int := m.natAbs

/-- `pysphi.mindx`, spherepy/pysphi.py 205-225.  The loop over `xrange(1, |m|)` carries `(ind, ii)`. -/
def mindx (m nmax mmax : Int) : Res Int :=
  let NN := nmax + 1
  if iabs m > mmax then .error ⟨.exception, "|m| cannot be larger than mmax"⟩
  else if m ≠ 0 then
    let (ind, ii) := (pyRange 1 (iabs m)).foldl
      (fun (s : Int × Int) i => (s.1 + 2 * (NN - i), i + 1)) (NN, 1)
    .ok (if m > 0 then ind + NN - ii else ind)
  else .ok 0

/-- The expression `N + mmax * (2 * N - mmax - 1)` with `N = nmax + 1` (spherepy.py 199-200, 229-230). -/
def ncFormula (nmax mmax : Int) : Int :=
  let N := nmax + 1
  N + mmax * (2 * N - mmax - 1)

/-- `ScalarCoefs` object state, spherepy.py 204-206 (`_vec`, `_nmax`, `_mmax`). -/
structure ScalarCoefs (α : Type) where
  vec : List α
  nmax : Int
  mmax : Int
  deriving Repr, DecidableEq

/-- What `ScalarCoefs.__getitem__` can return.
    spherepy.py 439-540. -/
inductive Got (α : Type) where
  | num (v : α)
  | arr (l : List α)
  | coefs (c : ScalarCoefs α)
  deriving Repr, DecidableEq

namespace ScalarCoefs
variable {α : Type}

/-- `ScalarCoefs.__init__`, spherepy.py 194-206. `len()` of an exception object raises TypeError. -/
def init (vec : Buf α) (nmax mmax : Int) : Res (ScalarCoefs α) :=
  if mmax > nmax then .error (raise .valueError "nmax_g_mmax")
  else match vec with
    | .exc => .error ⟨.typeError, "object has no len()"⟩
    | .arr l =>
      if ncFormula nmax mmax ≠ l.length then .error (raise .valueError "scoef_size")
      else .ok ⟨l, nmax, mmax⟩

/-- `ScalarCoefs.size`, spherepy.py 218-232 (`assert` failure = `exception`). -/
def size (c : ScalarCoefs α) : Res Int :=
  let NC := ncFormula c.nmax c.mmax
  if NC = c.vec.length then .ok NC else .error ⟨.exception, "assert"⟩

/-- `copy`, spherepy.py 234-243 (value level; freshness of the buffer is in `Heap.lean`). -/
def copy (c : ScalarCoefs α) : Res (ScalarCoefs α) := init (.arr c.vec) c.nmax c.mmax

/-- `c[n, m]`, spherepy.py 484-497. -/
def getNM (c : ScalarCoefs α) (n m : Int) : Res α :=
  if n < 0 ∨ n > c.nmax then .error (raise .attributeError "n_out_bound")
  else if iabs m > n ∨ iabs m > c.mmax then .error (raise .attributeError "m_out_bound")
  else (mindx m c.nmax c.mmax).bind fun i => getIdx c.vec (i + n - iabs m)

/-- `c[:, m]`, spherepy.py 444-462. -/
def getCol (c : ScalarCoefs α) (m : Int) : Res (List α) :=
  if iabs m > c.mmax then .error (raise .attributeError "m_out_bound")
  else (mindx m c.nmax c.mmax).bind fun s =>
    .ok (getSlice c.vec s (s + c.nmax - iabs m + 1))

/-- Number of orders on either side of 0 in row `n`: `if n <= mmax: nn = n else: nn = mmax`
(spherepy.py 346-349, 411-414, 474-477). -/
def rowHalf (c : ScalarCoefs α) (n : Int) : Int := if n ≤ c.mmax then n else c.mmax

/-- `c[n, :]`, spherepy.py 464-482 (note the code's error key). -/
def getRow (c : ScalarCoefs α) (n : Int) : Res (List α) :=
  if n > c.nmax ∨ n < 0 then .error (raise .attributeError "m_out_bound")
  else mapM' (pyRange (-(c.rowHalf n)) (c.rowHalf n + 1)) (fun m => c.getNM n m)

/-- The block copies of `c[0:k, :]` for one sign of `m`, spherepy.py 522-531. -/
def truncBlock (c : ScalarCoefs α) (newN newM : Int) (vec : List α) (m : Int) : Res (List α) :=
  (mindx m c.nmax c.mmax).bind fun idx =>
  (mindx m newN newM).bind fun nidx =>
  let ln := newN - iabs m + 1
  setSlice vec nidx (nidx + ln) (getSlice c.vec idx (idx + ln))

/-- `c[0:stop, :]`, spherepy.py 499-534. -/
def trunc [Zero α] (c : ScalarCoefs α) (stop : Int) : Res (ScalarCoefs α) :=
  if stop > c.nmax then .error (raise .attributeError "n_out_bound")
  else
    let newN := stop
    let newM := if newN > c.mmax then c.mmax else newN
    (npFull (ncFormula newN newM) (0 : α)).bind fun vec0 =>
    (setSlice vec0 0 (newN + 1) (getSlice c.vec 0 (newN + 1))).bind fun vec1 =>
    (forM' (pyRange 1 (newM + 1)) vec1 (fun v m =>
      (c.truncBlock newN newM v (-m)).bind fun v' => c.truncBlock newN newM v' m)).bind fun vec2 =>
    init (.arr vec2) newN newM

/-- `ScalarCoefs.__getitem__`, spherepy.py 439-540. -/
def getitem [Zero α] (c : ScalarCoefs α) (arg : List Arg) : Res (Got α) :=
  match arg with
  | [.slice a b s, .int m] =>
    if a = .none ∧ s = .none ∧ b = .none then (c.getCol m).bind fun l => .ok (.arr l)
    else .error (raise .attributeError "slice_noper")
  | [.int n, .slice a b s] =>
    if a = .none ∧ s = .none ∧ b = .none then (c.getRow n).bind fun l => .ok (.arr l)
    else .error (raise .attributeError "slice_noper")
  | [.int n, .int m] => (c.getNM n m).bind fun v => .ok (.num v)
  | [.slice a b s, .slice a' b' s'] =>
    match b with
    | .int stop =>
      if a' = .none ∧ s' = .none ∧ b' = .none ∧ a = .int 0 ∧ s = .none then
        (c.trunc stop).bind fun d => .ok (.coefs d)
      else .error (raise .attributeError "idx_no_rec")
    | _ => .error (raise .attributeError "idx_no_rec")
  | [_, _] => .error (raise .attributeError "idx_no_rec")
  | _ => .error (raise .attributeError "tuple_2_el")

/-- `c[n, m] = val`, spherepy.py 421-434.  Assigning a sequence to one element is a NumPy error
(modelled as ValueError). -/
def setNM (c : ScalarCoefs α) (n m : Int) (val : Val α) : Eff (ScalarCoefs α) :=
  if n < 0 ∨ n > c.nmax then ⟨c, some (raise .attributeError "n_out_bound")⟩
  else if iabs m > n ∨ iabs m > c.mmax then ⟨c, some (raise .attributeError "m_out_bound")⟩
  else match mindx m c.nmax c.mmax with
    | .error e => ⟨c, some e⟩
    | .ok i => match val with
      | .seq _ => ⟨c, some ⟨.valueError, "setting an array element with a sequence"⟩⟩
      | .num v => match setIdx c.vec (i + n - iabs m) v with
        | .error e => ⟨c, some e⟩
        | .ok l => ⟨{ c with vec := l }, none⟩

/-- `c[:, m] = val`, spherepy.py 375-396. -/
def setCol (c : ScalarCoefs α) (m : Int) (val : Val α) : Eff (ScalarCoefs α) :=
  if iabs m > c.mmax then ⟨c, some (raise .attributeError "m_out_bound")⟩
  else match mindx m c.nmax c.mmax with
    | .error e => ⟨c, some e⟩
    | .ok s =>
      let e := s + c.nmax - iabs m + 1
      match val with
      | .num _ => ⟨c, some ⟨.typeError, "object has no len()"⟩⟩
      | .seq v =>
        if v.length ≠ (getSlice c.vec s e).length then
          ⟨c, some (raise .attributeError "dim_no_mtch")⟩
        else match setSlice c.vec s e v with
          | .error e => ⟨c, some e⟩
          | .ok l => ⟨{ c with vec := l }, none⟩

/-- `c[n, :] = val`, spherepy.py 398-419; `enumerate(xrange(-nn, nn+1))` pairs `k` with `m = k - nn`. -/
def setRow (c : ScalarCoefs α) (n : Int) (val : Val α) : Eff (ScalarCoefs α) :=
  if n > c.nmax ∨ n < 0 then ⟨c, some (raise .attributeError "n_out_bound")⟩
  else match val with
    | .num _ => ⟨c, some ⟨.typeError, "object has no len()"⟩⟩
    | .seq v =>
      if (v.length : Int) ≠ 2 * n + 1 then ⟨c, some (raise .attributeError "dim_no_mtch")⟩
      else
        let nn := c.rowHalf n
        Eff.forEach (pyRange 0 (2 * nn + 1)) c (fun c' k =>
          match getIdx v k with
          | .error e => ⟨c', some e⟩
          | .ok x => c'.setNM n (k - nn) (.num x))

/-- `ScalarCoefs.__setitem__`, spherepy.py 371-437. -/
def setitem (c : ScalarCoefs α) (arg : List Arg) (val : Val α) : Eff (ScalarCoefs α) :=
  match arg with
  | [.slice a b s, .int m] =>
    if a = .none ∧ s = .none ∧ b = .none then c.setCol m val
    else ⟨c, some (raise .attributeError "slice_noper")⟩
  | [.int n, .slice a b s] =>
    if a = .none ∧ s = .none ∧ b = .none then c.setRow n val
    else ⟨c, some (raise .attributeError "slice_noper")⟩
  | [.int n, .int m] => c.setNM n m val
  | [_, _] => ⟨c, some (raise .attributeError "idx_no_rec")⟩
  | _ => ⟨c, some (raise .attributeError "tuple_2_el")⟩

/-- One statement `self[:, m] = self[:, m] * w` of `window`, spherepy.py 266-269. -/
def windowCol [Mul α] (c : ScalarCoefs α) (m : Int) (w : List α) : Eff (ScalarCoefs α) :=
  match c.getCol m with
  | .error e => ⟨c, some e⟩
  | .ok col => match bcast (· * ·) col w with
    | .error e => ⟨c, some e⟩
    | .ok v => c.setCol m (.seq v)

/-- `window`, spherepy.py 245-269. -/
def window [Mul α] (c : ScalarCoefs α) (w : List α) : Eff (ScalarCoefs α) :=
  (c.windowCol 0 w).andThen fun c0 =>
  Eff.forEach (pyRange 1 (c.mmax + 1)) c0 (fun c' m =>
    (c'.windowCol (-m) (getSlice w m w.length)).andThen fun c'' =>
    c''.windowCol m (getSlice w m w.length))

/-- `_reshape_n_vecs`, spherepy.py 330-339. -/
def reshapeN (c : ScalarCoefs α) : Res (List (List α)) :=
  (c.getCol 0).bind fun l0 =>
  forM' (pyRange 1 (c.mmax + 1)) [l0] (fun lst m =>
    (c.getCol (-m)).bind fun a => (c.getCol m).bind fun b => .ok (lst ++ [a, b]))

/-- `_reshape_m_vecs`, spherepy.py 341-354. -/
def reshapeM (c : ScalarCoefs α) : Res (List (List α)) :=
  mapM' (pyRange 0 (c.nmax + 1)) (fun n =>
    mapM' (pyRange (-(c.rowHalf n)) (c.rowHalf n + 1)) (fun m => c.getNM n m))

/-- `A[lo:hi, col] = v` on a 2-D array (used by `_array_2d_repr`).
    NumPy runtime; spherepy.py 320-327. -/
def setColSlice [Zero α] (A : Arr2 α) (lo hi col : Int) (v : List α) : Res (Arr2 α) :=
  let a := clampIdx A.rows lo
  let b := max a (clampIdx A.rows hi)
  let j := Arr2.wrap A.cols col
  if ¬ (j < A.cols ∧ -(A.cols : Int) ≤ col) then .error ⟨.indexError, "index"⟩
  else if v.length = b - a then
    .ok (Arr2.ofFn A.rows A.cols (fun i k =>
      if k = j ∧ a ≤ i ∧ i < b then v.getD (i - a) 0 else A.at' i k))
  else match v with
    | [x] => .ok (Arr2.ofFn A.rows A.cols (fun i k =>
        if k = j ∧ a ≤ i ∧ i < b then x else A.at' i k))
    | _ => .error ⟨.valueError, "broadcast"⟩

/-- `_array_2d_repr`, spherepy.py 314-328. -/
def array2d [Zero α] (c : ScalarCoefs α) : Res (Arr2 α) :=
  if c.nmax + 1 < 0 ∨ 2 * c.mmax + 1 < 0 then .error ⟨.valueError, "negative dimensions"⟩
  else
    let A0 := Arr2.ofFn (c.nmax + 1).toNat (2 * c.mmax + 1).toNat (fun _ _ => (0 : α))
    c.reshapeN.bind fun lst =>
    (setColSlice A0 0 (c.nmax + 1) c.mmax (lst.getD 0 [])).bind fun A1 =>
    forM' (pyRange 1 (c.mmax + 1)) A1 (fun A m =>
      (setColSlice A m (c.nmax + 1) (c.mmax - m) (lst.getD (2 * m - 1).toNat [])).bind fun A' =>
      setColSlice A' m (c.nmax + 1) (c.mmax + m) (lst.getD (2 * m).toNat []))

end ScalarCoefs

/-- The four arithmetic operators overloaded by the classes.
    spherepy.py 576-635, 856-915, 1107-1166, 1307-1366. -/
inductive Op where
  | add | sub | mul | div
  deriving DecidableEq, Repr

/-- Meaning of an operator on elements.
    spherepy.py 576-635. -/
def Op.eval {α : Type} [Add α] [Sub α] [Mul α] [Div α] : Op → α → α → α
  | .add => (· + ·)
  | .sub => (· - ·)
  | .mul => (· * ·)
  | .div => (· / ·)

/-- Second operand of an overloaded operator: an object of the same class, a `numbers.Number`, or
anything else.
    spherepy.py 542-574, 816-854, 1073-1105, 1269-1305. -/
inductive Operand (α C : Type) where
  | obj (c : C)
  | num (x : α)
  | other

section Arith
variable {α : Type} [Add α] [Sub α] [Mul α] [Div α] [Zero α] [DecidableEq α]

/-- Body of the left operators applied to an array and a number (`a op b`): spherepy.py 576-626.
Division by the number 0 *returns* a `ZeroDivisionError` object. -/
def opNum (op : Op) (a : List α) (b : α) : Buf α :=
  if op = .div ∧ b = 0 then .exc else .arr (a.map (fun x => op.eval x b))

/-- Body of the right operators (`b op a` with `b` a number): spherepy.py 580-634; the test
`isinstance(a, numbers.Number)` is on the array and is always false. -/
def opNumR (op : Op) (a : List α) (b : α) : Buf α := .arr (a.map (fun x => op.eval b x))

/-- Left operators of `ScalarCoefs`: `_scalar_coef_op_left`, spherepy.py 542-562, with the bodies 576-626. -/
def ScalarCoefs.opLeft (op : Op) (c : ScalarCoefs α) (o : Operand α (ScalarCoefs α)) :
    Res (ScalarCoefs α) :=
  match o with
  | .obj d =>
    if c.vec.length = d.vec.length then
      ScalarCoefs.init (.arr (List.zipWith op.eval c.vec d.vec)) c.nmax c.mmax
    else .error (raise .valueError "SC_sz_msmtch")
  | .num b => ScalarCoefs.init (opNum op c.vec b) c.nmax c.mmax
  | .other => .error (raise .typeError "no_combi_SC")

/-- Right operators of `ScalarCoefs`: `_scalar_coef_op_right`, spherepy.py 564-574. -/
def ScalarCoefs.opRight (op : Op) (c : ScalarCoefs α) (o : Operand α (ScalarCoefs α)) :
    Res (ScalarCoefs α) :=
  match o with
  | .num b => ScalarCoefs.init (opNumR op c.vec b) c.nmax c.mmax
  | _ => .error (raise .typeError "no_combi_SC")

/-- `VectorCoefs` object state, spherepy.py 657-660. -/
structure VectorCoefs (α : Type) where
  scoef1 : ScalarCoefs α
  scoef2 : ScalarCoefs α
  nmax : Int
  mmax : Int
  deriving Repr, DecidableEq

namespace VectorCoefs

/-- `VectorCoefs.__init__`, spherepy.py 640-660. `.shape` of an exception object raises AttributeError. -/
def init {α : Type} [Zero α] (vec1 vec2 : Buf α) (nmax mmax : Int) : Res (VectorCoefs α) :=
  match vec1, vec2 with
  | .arr l1, .arr l2 =>
    if l1.length ≠ l2.length then .error (raise .valueError "vec1_s_vec2")
    else if mmax > nmax then .error (raise .valueError "nmax_g_mmax")
    else if ncFormula nmax mmax ≠ l1.length then .error (raise .valueError "vcoef_size")
    else (setIdx l1 0 0).bind fun l1' => (setIdx l2 0 0).bind fun l2' =>
      (ScalarCoefs.init (.arr l1') nmax mmax).bind fun s1 =>
      (ScalarCoefs.init (.arr l2') nmax mmax).bind fun s2 =>
      .ok ⟨s1, s2, nmax, mmax⟩
  | _, _ => .error ⟨.attributeError, "no attribute 'shape'"⟩

/-- `VectorCoefs.size`, spherepy.py 672-679. -/
def size (c : VectorCoefs α) : Res Int :=
  let NC := ncFormula c.nmax c.mmax
  if NC = c.scoef1.vec.length ∧ NC = c.scoef2.vec.length then .ok NC
  else .error ⟨.exception, "assert"⟩

/-- `copy`, spherepy.py 681-691. -/
def copy (c : VectorCoefs α) : Res (VectorCoefs α) :=
  init (.arr c.scoef1.vec) (.arr c.scoef2.vec) c.nmax c.mmax

/-- What `VectorCoefs.__getitem__` returns.
    spherepy.py 751-814. -/
inductive GotV (α : Type) where
  | nums (a b : α)
  | arrs (a b : List α)
  | coefs (c : VectorCoefs α)
  deriving Repr, DecidableEq

/-- The right-hand side of `vc[...] = val`: a list/tuple of values or something else.
    spherepy.py 717-749. -/
inductive ValV (α : Type) where
  | tup (vs : List (Val α))
  | other
  deriving Repr

/-- `vc[n, m] = (a, b)`: spherepy.py 736-746.  The `except IndexError` clause swallows IndexErrors. -/
def setNM (c : VectorCoefs α) (n m : Int) (a b : Val α) : Eff (VectorCoefs α) :=
  if n = 0 then ⟨c, some (raise .attributeError "no_v0_mode")⟩
  else
    let r1 := c.scoef1.setNM n m a
    match r1.err with
    | some e => ⟨{ c with scoef1 := r1.st }, if e.cls = .indexError then none else some e⟩
    | none =>
      let r2 := c.scoef2.setNM n m b
      ⟨{ c with scoef1 := r1.st, scoef2 := r2.st },
        match r2.err with
        | some e => if e.cls = .indexError then none else some e
        | none => none⟩

/-- `VectorCoefs.__setitem__`, spherepy.py 717-749. -/
def setitem (c : VectorCoefs α) (arg : List Arg) (val : ValV α) : Eff (VectorCoefs α) :=
  match arg with
  | [x, y] =>
    match val with
    | .tup [a, b] =>
      match x, y with
      | .slice .., .int _ => ⟨c, some (raise .attributeError "set_sc1")⟩
      | .int n, .slice .. =>
        if n = 0 then ⟨c, some (raise .attributeError "no_v0_mode")⟩
        else ⟨c, some (raise .attributeError "set_sc2")⟩
      | .int n, .int m => c.setNM n m a b
      | _, _ => ⟨c, some (raise .attributeError "idx_no_rec")⟩
    | _ => ⟨c, some (raise .attributeError "val_2tuple")⟩
  | _ => ⟨c, some (raise .attributeError "tuple_2_el")⟩

/-- `vc[0:stop, :]`, spherepy.py 790-809. -/
def trunc (c : VectorCoefs α) (stop : Int) : Res (VectorCoefs α) :=
  if stop > c.nmax then .error (raise .attributeError "n_out_bound")
  else
    let newM := if stop > c.mmax then c.mmax else stop
    (c.scoef1.trunc stop).bind fun a => (c.scoef2.trunc stop).bind fun b =>
    init (.arr a.vec) (.arr b.vec) stop newM

/-- `VectorCoefs.__getitem__`, spherepy.py 751-814. -/
def getitem (c : VectorCoefs α) (arg : List Arg) : Res (GotV α) :=
  match arg with
  | [.slice a b s, .int m] =>
    if a = .none ∧ s = .none ∧ b = .none then
      (c.scoef1.getCol m).bind fun u => (c.scoef2.getCol m).bind fun v => .ok (.arrs u v)
    else .error (raise .attributeError "slice_noper")
  | [.int n, .slice a b s] =>
    if n = 0 then .error (raise .attributeError "no_v0_mode")
    else if a = .none ∧ s = .none ∧ b = .none then
      (c.scoef1.getRow n).bind fun u => (c.scoef2.getRow n).bind fun v => .ok (.arrs u v)
    else .error (raise .attributeError "slice_noper")
  | [.int n, .int m] =>
    if n = 0 then .error (raise .attributeError "no_v0_mode")
    else (c.scoef1.getNM n m).bind fun u => (c.scoef2.getNM n m).bind fun v => .ok (.nums u v)
  | [.slice a b s, .slice a' b' s'] =>
    match b with
    | .int stop =>
      if a' = .none ∧ s' = .none ∧ b' = .none ∧ a = .int 0 ∧ s = .none then
        (c.trunc stop).bind fun d => .ok (.coefs d)
      else .error (raise .attributeError "idx_no_rec")
    | _ => .error (raise .attributeError "idx_no_rec")
  | [_, _] => .error (raise .attributeError "idx_no_rec")
  | _ => .error (raise .attributeError "tuple_2_el")

/-- Left operators of `VectorCoefs`: `_vector_coef_op_left`, spherepy.py 816-841.  The length test
compares `vcoef` with itself, so mismatches reach NumPy broadcasting. -/
def opLeft (op : Op) (c : VectorCoefs α) (o : Operand α (VectorCoefs α)) : Res (VectorCoefs α) :=
  match o with
  | .obj d =>
    if d.scoef1.vec.length = d.scoef1.vec.length then
      (bcast op.eval c.scoef1.vec d.scoef1.vec).bind fun a =>
      (bcast op.eval c.scoef2.vec d.scoef2.vec).bind fun b =>
      init (.arr a) (.arr b) c.nmax c.mmax
    else .error (raise .valueError "VC_sz_msmtch")
  | .num b => init (opNum op c.scoef1.vec b) (opNum op c.scoef2.vec b) c.nmax c.mmax
  | .other => .error (raise .typeError "no_combi_VC")

/-- Right operators of `VectorCoefs`: `_vector_coef_op_right`, spherepy.py 843-854. -/
def opRight (op : Op) (c : VectorCoefs α) (o : Operand α (VectorCoefs α)) : Res (VectorCoefs α) :=
  match o with
  | .num b => init (opNumR op c.scoef1.vec b) (opNumR op c.scoef2.vec b) c.nmax c.mmax
  | _ => .error (raise .typeError "no_combi_VC")

end VectorCoefs
end Arith

/-- The expression `(nmax + 1) + mmax * (2 * nmax - mmax + 1)` of the factories and file routines
(spherepy.py 1411, file.py 87). -/
def lFormula (nmax mmax : Int) : Int := (nmax + 1) + mmax * (2 * nmax - mmax + 1)

/-- Scalar branch of `zeros_coefs` / `ones_coefs`: spherepy.py 1407-1414, 1454-1461, with fill `x`. -/
def fullCoefs {α : Type} (x : α) (nmax mmax : Int) : Res (ScalarCoefs α) :=
  if mmax > nmax then .error (raise .valueError "nmax_g_mmax")
  else (npFull (lFormula nmax mmax) x).bind fun v => ScalarCoefs.init (.arr v) nmax mmax

/-- Vector branch of `zeros_coefs` / `ones_coefs`: spherepy.py 1415-1420, 1462-1468.
(`vec[0] = 0` is done by `ones_coefs` and again by the constructor.) -/
def fullVCoefs {α : Type} [Zero α] (x : α) (nmax mmax : Int) : Res (VectorCoefs α) :=
  if mmax > nmax then .error (raise .valueError "nmax_g_mmax")
  else (npFull (lFormula nmax mmax) x).bind fun v => VectorCoefs.init (.arr v) (.arr v) nmax mmax

end Verif
