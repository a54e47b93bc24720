import Verif.SpecHeap
/-!
# Threads

`Heap.lean` runs a call to completion.  Here the same calls are sequences of single array accesses, so that several threads can be
interleaved at every access (Python may switch threads between any two byte codes; a NumPy or C call that holds the global
interpreter lock is one access).  The definitions below are those of `Heap.lean` with `HM` replaced by `TP`; `ThreadRun.lean` proves
that run without interruption they are the same functions.  Simplification: one access reads or writes a whole array; `lift`
(computation on values already read) takes no step.
-/
namespace Verif.Thr
open Verif

/-- A computation as a tree of array accesses: done, allocate an array and continue with its address, read an array (`none`: no such
address), overwrite an array.
    Python/NumPy runtime; the accesses of spherepy.py 194-2139 and ops.py 68-180 below. -/
inductive TP (α : Type) where
  | ret (r : Res α)
  | alloc (c : Cell) (k : Nat → TP α)
  | read (a : Nat) (k : Option Cell → TP α)
  | write (a : Nat) (c : Cell) (k : TP α)

/-- Continue with the result, also when it is an exception (`try`/`except`); Python runtime. -/
def TP.bindR {α β : Type} : TP α → (Res α → TP β) → TP β
  | .ret r, f => f r
  | .alloc c k, f => .alloc c fun a => (k a).bindR f
  | .read a k, f => .read a fun x => (k x).bindR f
  | .write a c k, f => .write a c (k.bindR f)

/-- What follows a call inside a function: its body, or the exception passed on; Python runtime. -/
def TP.onOk {α β : Type} (f : α → TP β) : Res α → TP β
  | .ok a => f a
  | .error e => .ret (.error e)

/-- Sequencing of calls: stop at the first exception.
    Python runtime. -/
instance : Monad TP where
  pure a := .ret (.ok a)
  bind x f := x.bindR (TP.onOk f)

/-- A call that touches no array.
    Python runtime. -/
def TP.lift {α : Type} (r : Res α) : TP α := .ret r

/-- Create an array; NumPy runtime. -/
def alloc (c : Cell) : TP Nat := .alloc c fun a => .ret (.ok a)

/-- The content of a cell as a 1-D array; NumPy runtime. -/
def asVec : Option Cell → Res (List ℂ)
  | some (.vec l) => .ok l
  | _ => .error ⟨.exception, "not a 1-D array"⟩

/-- The content of a cell as a 2-D array; NumPy runtime. -/
def asMat : Option Cell → Res (Arr2 ℂ)
  | some (.mat A) => .ok A
  | _ => .error ⟨.exception, "not a 2-D array"⟩

/-- Content of a 1-D array; NumPy runtime. -/
def readV (a : Nat) : TP (List ℂ) := .read a fun x => .ret (asVec x)

/-- Content of a 2-D array; NumPy runtime. -/
def readM (a : Nat) : TP (Arr2 ℂ) := .read a fun x => .ret (asMat x)

/-- Overwrite the content of an array in place; NumPy runtime. -/
def writeC (a : Nat) (c : Cell) : TP Unit := .write a c (.ret (.ok ()))

/-- `ScalarCoefs(vec, nmax, mmax)`, spherepy.py 194-206: stores the caller's array, no copy. -/
def hInitS (a : Nat) (nmax mmax : Int) : TP SRef := do
  let l ← readV a
  let _ ← TP.lift (ScalarCoefs.init (.arr l) nmax mmax)
  pure ⟨a, nmax, mmax⟩

/-- `VectorCoefs(vec1, vec2, nmax, mmax)`, spherepy.py 640-660: clears entry 0 of the caller's arrays and stores them. -/
noncomputable def hInitV (a1 a2 : Nat) (nmax mmax : Int) : TP VRef := do
  let l1 ← readV a1
  let l2 ← readV a2
  if l1.length ≠ l2.length then TP.lift (.error (raise .valueError "vec1_s_vec2"))
  else if mmax > nmax then TP.lift (.error (raise .valueError "nmax_g_mmax"))
  else if ncFormula nmax mmax ≠ l1.length then TP.lift (.error (raise .valueError "vcoef_size"))
  else
    let l1' ← TP.lift (setIdx l1 0 0)
    writeC a1 (.vec l1')
    let l2 ← readV a2
    let l2' ← TP.lift (setIdx l2 0 0)
    writeC a2 (.vec l2')
    let s1 ← hInitS a1 nmax mmax
    let s2 ← hInitS a2 nmax mmax
    pure ⟨s1, s2, nmax, mmax⟩

/-- A coefficient object made from a freshly computed array (or from the exception object of a division by 0):
spherepy.py 549-557, 569-571. -/
def hNewS (b : Buf ℂ) (nmax mmax : Int) : TP SRef :=
  match b with
  | .arr l => do
    let a ← alloc (.vec l)
    hInitS a nmax mmax
  | .exc => TP.lift ((ScalarCoefs.init (α := ℂ) .exc nmax mmax).bind fun _ => .error ⟨.typeError, "object has no len()"⟩)

/-- The same for vector coefficients: spherepy.py 822-838, 848-851. -/
noncomputable def hNewV (b1 b2 : Buf ℂ) (nmax mmax : Int) : TP VRef :=
  match b1, b2 with
  | .arr l1, .arr l2 => do
    let a1 ← alloc (.vec l1)
    let a2 ← alloc (.vec l2)
    hInitV a1 a2 nmax mmax
  | _, _ => TP.lift (.error ⟨.attributeError, "no attribute 'shape'"⟩)

/-- The value an object currently denotes.
    Observation used in statements; spherepy.py 194-207 (`self._vec`). -/
def sRead (o : SRef) : TP (ScalarCoefs ℂ) := do
  let l ← readV o.buf
  pure ⟨l, o.nmax, o.mmax⟩

/-! ### Operations on coefficient objects -/

/-- `c.copy()`, spherepy.py 234-243: `np.copy`. -/
def sCopy (o : SRef) : TP SRef := do
  let l ← readV o.buf
  let a ← alloc (.vec l)
  hInitS a o.nmax o.mmax

/-- `vc.copy()`, spherepy.py 681-691. -/
noncomputable def vCopy (o : VRef) : TP VRef := do
  let l1 ← readV o.s1.buf
  let a1 ← alloc (.vec l1)
  let l2 ← readV o.s2.buf
  let a2 ← alloc (.vec l2)
  hInitV a1 a2 o.nmax o.mmax

/-- `a op b` for two `ScalarCoefs`, spherepy.py 545-553. -/
noncomputable def sOpObj (op : Op) (o p : SRef) : TP SRef := do
  let l ← readV o.buf
  let k ← readV p.buf
  if l.length = k.length then hNewS (.arr (List.zipWith op.eval l k)) o.nmax o.mmax
  else TP.lift (.error (raise .valueError "SC_sz_msmtch"))

/-- `c op x`, spherepy.py 554-557. -/
noncomputable def sOpNum (op : Op) (o : SRef) (x : ℂ) : TP SRef := do
  let l ← readV o.buf
  hNewS (Verif.opNum op l x) o.nmax o.mmax

/-- `x op c`, spherepy.py 567-571. -/
noncomputable def sNumOp (op : Op) (o : SRef) (x : ℂ) : TP SRef := do
  let l ← readV o.buf
  hNewS (opNumR op l x) o.nmax o.mmax

/-- `a op b` for two `VectorCoefs`, spherepy.py 820-828. -/
noncomputable def vOpObj (op : Op) (o p : VRef) : TP VRef := do
  let l1 ← readV o.s1.buf
  let k1 ← readV p.s1.buf
  let r1 ← TP.lift (bcast op.eval l1 k1)
  let l2 ← readV o.s2.buf
  let k2 ← readV p.s2.buf
  let r2 ← TP.lift (bcast op.eval l2 k2)
  hNewV (.arr r1) (.arr r2) o.nmax o.mmax

/-- `vc op x`, spherepy.py 833-837. -/
noncomputable def vOpNum (op : Op) (o : VRef) (x : ℂ) : TP VRef := do
  let l1 ← readV o.s1.buf
  let l2 ← readV o.s2.buf
  hNewV (Verif.opNum op l1 x) (Verif.opNum op l2 x) o.nmax o.mmax

/-- `x op vc`, spherepy.py 847-851. -/
noncomputable def vNumOp (op : Op) (o : VRef) (x : ℂ) : TP VRef := do
  let l1 ← readV o.s1.buf
  let l2 ← readV o.s2.buf
  hNewV (opNumR op l1 x) (opNumR op l2 x) o.nmax o.mmax

/-- `c[0:k, :]`, spherepy.py 499-534: a new `np.zeros` array filled by slice assignments; the buffer computation is
`ScalarCoefs.trunc`. -/
noncomputable def sTrunc (o : SRef) (k : Int) : TP SRef := do
  let c ← sRead o
  let d ← TP.lift (c.trunc k)
  let a ← alloc (.vec d.vec)
  hInitS a d.nmax d.mmax

/-- `vc[0:k, :]`, spherepy.py 790-809. -/
noncomputable def vTrunc (o : VRef) (k : Int) : TP VRef :=
  if k > o.nmax then TP.lift (.error (raise .attributeError "n_out_bound"))
  else do
    let newM := if k > o.mmax then o.mmax else k
    let s1 ← sTrunc o.s1 k
    let s2 ← sTrunc o.s2 k
    hInitV s1.buf s2.buf k newM

/-- An in-place update of a `ScalarCoefs` object: `c[...] = val`, spherepy.py 371-437, and `c.window(w)`, 245-269.  Only the
content of its own `_vec` changes (`_nmax`, `_mmax` are never assigned outside the constructor). -/
def sUpdate (o : SRef) (f : ScalarCoefs ℂ → Eff (ScalarCoefs ℂ)) : TP Unit := do
  let c ← sRead o
  let e := f c
  writeC o.buf (.vec e.st.vec)
  match e.err with
  | none => pure ()
  | some x => TP.lift (.error x)

/-- `vc[...] = val`, spherepy.py 717-749: in-place updates of the two components. -/
noncomputable def vSetitem (o : VRef) (arg : List Arg) (val : VectorCoefs.ValV ℂ) : TP Unit := do
  let c1 ← sRead o.s1
  let c2 ← sRead o.s2
  let e := VectorCoefs.setitem ⟨c1, c2, o.nmax, o.mmax⟩ arg val
  writeC o.s1.buf (.vec e.st.scoef1.vec)
  writeC o.s2.buf (.vec e.st.scoef2.vec)
  match e.err with
  | none => pure ()
  | some x => TP.lift (.error x)

/-- `zeros_coefs`, `ones_coefs`, `random_coefs`, scalar branch, spherepy.py 1408-1414, 1455-1461, 1505-1512: one new array;
the entries are an arbitrary function. -/
noncomputable def hFactoryS (f : Nat → ℂ) (nmax mmax : Int) : TP SRef :=
  if mmax > nmax then TP.lift (.error (raise .valueError "nmax_g_mmax"))
  else if lFormula nmax mmax < 0 then TP.lift (.error ⟨.valueError, "negative dimensions"⟩)
  else do
    let a ← alloc (.vec (tab (lFormula nmax mmax).toNat f))
    hInitS a nmax mmax

/-- Vector branch, spherepy.py 1415-1419, 1462-1467, 1513-1521: two new arrays. -/
noncomputable def hFactoryV (f g : Nat → ℂ) (nmax mmax : Int) : TP VRef :=
  if mmax > nmax then TP.lift (.error (raise .valueError "nmax_g_mmax"))
  else if lFormula nmax mmax < 0 then TP.lift (.error ⟨.valueError, "negative dimensions"⟩)
  else do
    let a1 ← alloc (.vec (tab (lFormula nmax mmax).toNat f))
    let a2 ← alloc (.vec (tab (lFormula nmax mmax).toNat g))
    hInitV a1 a2 nmax mmax

/-! ### Patterns -/

/-- The value a scalar pattern currently denotes.
    Observation used in statements; spherepy.py 990-995 (`self._dsphere`). -/
def pRead (p : PRef) : TP (SPatt ℂ) :=
  match p with
  | .arr a => do
    let A ← readM a
    pure ⟨.arr A⟩
  | .exc => pure ⟨.exc⟩

/-- The value a transverse pattern currently denotes.
    Observation used in statements; spherepy.py 1173-1183. -/
def tRead (p : TRef) : TP (TPatt ℂ) := do
  let T ← readM p.td
  let P ← readM p.pd
  pure ⟨T, P⟩

/-- A scalar pattern around a freshly computed array (`doublesphere=True`), spherepy.py 990-995. -/
def hNewP (b : PBuf ℂ) : TP PRef :=
  match b with
  | .arr A => do
    let a ← alloc (.mat A)
    pure (.arr a)
  | .exc => pure .exc

/-- A transverse pattern around freshly computed arrays (`doublesphere=True`), spherepy.py 1173-1183: the shapes are
compared. -/
noncomputable def hNewT (b1 b2 : PBuf ℂ) : TP TRef :=
  match b1, b2 with
  | .arr T, .arr P => do
    let t ← alloc (.mat T)
    let p ← alloc (.mat P)
    let _ ← TP.lift (TPatt.init (.arr T) (.arr P) true)
    pure ⟨t, p⟩
  | _, _ => TP.lift (.error ⟨.attributeError, "no attribute 'shape'"⟩)

/-- `ScalarPatternUniform(cdata)`, spherepy.py 990-993: `continue_sphere` returns a new array (1741-1782). -/
noncomputable def hMkP (A : Arr2 ℂ) : TP PRef := do
  let D ← TP.lift (continueSphere A 1)
  hNewP (.arr D)

/-- `TransversePatternUniform(tcdata, pcdata)`, spherepy.py 1173-1180. -/
noncomputable def hMkT (T P : Arr2 ℂ) : TP TRef :=
  if ¬ (T.rows = P.rows ∧ T.cols = P.cols) then TP.lift (.error (raise .valueError "shape_tc_pc"))
  else do
    let t ← TP.lift (continueSphere T (-1))
    let a ← alloc (.mat t)
    let p ← TP.lift (continueSphere P (-1))
    let b ← alloc (.mat p)
    pure ⟨a, b⟩

/-- `p op q` for scalar patterns, spherepy.py 1077-1086: new array. -/
noncomputable def pOpObj (op : Op) (p q : PRef) : TP PRef := do
  let P ← pRead p
  let Q ← pRead q
  let A ← TP.lift P.dsphere
  let B ← TP.lift Q.dsphere
  if A.rows = B.rows ∧ A.cols = B.cols then hNewP (.arr (A.zip op.eval B))
  else TP.lift (.error (raise .valueError "SP_sz_msmtch"))

/-- `p op x`, spherepy.py 1088-1090. -/
noncomputable def pOpNum (op : Op) (p : PRef) (x : ℂ) : TP PRef := do
  let P ← pRead p
  let A ← TP.lift P.dsphere
  hNewP (Verif.pOpNum op A x)

/-- `x op p`, spherepy.py 1095-1105. -/
noncomputable def pNumOp (op : Op) (p : PRef) (x : ℂ) : TP PRef := do
  let P ← pRead p
  let A ← TP.lift P.dsphere
  hNewP (pOpNumR op A x)

/-- `p op q` for transverse patterns, spherepy.py 1273-1285. -/
noncomputable def tOpObj (op : Op) (p q : TRef) : TP TRef := do
  let P ← tRead p
  let Q ← tRead q
  if P.td.rows = Q.td.rows ∧ P.td.cols = Q.td.cols then
    hNewT (.arr (P.td.zip op.eval Q.td)) (.arr (P.pd.zip op.eval Q.pd))
  else TP.lift (.error (raise .valueError "VP_sz_msmtch"))

/-- `p op x`, spherepy.py 1287-1290. -/
noncomputable def tOpNum (op : Op) (p : TRef) (x : ℂ) : TP TRef := do
  let P ← tRead p
  hNewT (Verif.pOpNum op P.td x) (Verif.pOpNum op P.pd x)

/-- `x op p`, spherepy.py 1294-1305. -/
noncomputable def tNumOp (op : Op) (p : TRef) (x : ℂ) : TP TRef := do
  let P ← tRead p
  hNewT (pOpNumR op P.td x) (pOpNumR op P.pd x)

/-! ### Operators on Fourier data, in place (ops.py) -/

/-- An in-place operator: the array is overwritten with `f` of its content.  (When the code raises half-way the model leaves
the array unchanged.).
    NumPy runtime; in-place operators at ops.py 66, 90-91, spherepy.py 1741-1749. -/
def hApply (f : Arr2 ℂ → Res (Arr2 ℂ)) (a : Nat) : TP Unit := do
  let A ← readM a
  let B ← TP.lift (f A)
  writeC a (.mat B)

/-- `pad_rows_fdata(fdata, fdata_extended)`, ops.py 68-81. -/
def hPadRows (a e : Nat) : TP Unit := do
  let A ← readM a
  let E ← readM e
  let B ← TP.lift (padRows A E.rows)
  writeC e (.mat B)

/-- `sinLdot_fc(tfdata, pfdata)`, ops.py 159-168: both arguments are overwritten, the result is a new array. -/
noncomputable def hSinLdot (t p : Nat) : TP Nat := do
  hApply dphiFc t
  hApply sinFc p
  hApply dthetaFc p
  let T ← readM t
  let P ← readM p
  alloc (.mat (T.zip (fun a b => Complex.I * (a - b)) P))

/-- `L_fc(fdata)`, ops.py 170-180: `np.copy`, then the argument is overwritten; two new arrays are returned. -/
noncomputable def hLFc (f : Nat) : TP (Nat × Nat) := do
  let F ← readM f
  let fd ← alloc (.mat F)
  hApply dphiFc f
  hApply divsinFc f
  hApply dthetaFc fd
  let A ← readM f
  let r1 ← alloc (.mat (A.map fun x => Complex.I * x))
  let B ← readM fd
  let r2 ← alloc (.mat (B.map fun x => -Complex.I * x))
  pure (r1, r2)

/-! ### Transforms -/

/-- `csphi.fc_to_sc` writes into a new `np.zeros` array, `pysphi.fc_to_sc` returns a new array (spherepy.py 1889-1898,
1943-1952); both only read `fdata`. -/
noncomputable def hFcToSc (b : Backend) (call : Nat) (f : Nat) (nmax mmax : Int) : TP Nat := do
  let F ← readM f
  let sc ← TP.lift (b.fcToSc call F nmax mmax)
  alloc (.vec sc)

/-- `csphi.sc_to_fc` / `pysphi.sc_to_fc` (spherepy.py 2066-2074, 2113-2129): only read the coefficients, new array. -/
noncomputable def hScToFc (b : Backend) (call : Nat) (vec : Nat) (nmax mmax dn nc : Int) : TP Nat := do
  let l ← readV vec
  let F ← TP.lift (b.scToFc call l nmax mmax dn nc)
  alloc (.mat F)

/-- `fft2(ds)/(dnrows*ncols)` (a new array), `fix_even_row_data_fc` on it, `np.zeros([dnrows+2, ncols])`,
`pad_rows_fdata`: spherepy.py 1880-1886, 1925-1935. Returns the extended array. -/
noncomputable def hExtFourier (ds : Nat) : TP Nat := do
  let D ← readM ds
  let F ← TP.lift (npFft2 D)
  let f ← alloc (.mat (F.map fun x => x / (((D.rows * D.cols : Nat) : ℝ) : ℂ)))
  hApply fixEvenRow f
  let e ← alloc (.mat (Arr2.ofFn (D.rows + 2) D.cols fun _ _ => 0))
  hPadRows f e
  pure e

/-- `spht(ssphere, nmax, mmax)`, spherepy.py 1831-1900. -/
noncomputable def hSpht (b : Backend) (p : PRef) (nmax mmax : Option Int) : TP SRef := do
  let P ← pRead p
  let nm ← TP.lift (sphtArgs P.nrows P.ncols nmax mmax)
  let _ ← TP.lift (sphtGuards P.nrows P.ncols nm.1 nm.2)
  match p with
  | .exc => TP.lift (.error ⟨.attributeError, "no attribute 'shape'"⟩)
  | .arr ds => do
    let e ← hExtFourier ds
    hApply sinFc e
    let _ ← TP.lift (npFull (ncFormula nm.1 nm.2) (0 : ℂ))
    let sc ← hFcToSc b 0 e nm.1 nm.2
    hInitS sc nm.1 nm.2

/-- `ispht(scoefs, nrows, ncols)`, spherepy.py 2020-2079. -/
noncomputable def hIspht (b : Backend) (c : SRef) (nrows ncols : Option Int) : TP PRef := do
  let nr := nrows.getD (c.nmax + 2)
  let nc := ncols.getD (2 * c.mmax + 2)
  let _ ← TP.lift (isphtGuards c.nmax c.mmax nr nc)
  let dn := 2 * nr - 2
  let f ← hScToFc b 0 c.buf c.nmax c.mmax dn nc
  let F ← readM f
  let D ← TP.lift (invFourier F dn nc)
  hNewP (.arr D)

/-- `vspht(vsphere, nmax, mmax)`, spherepy.py 1902-1966. `np.copy` is taken before `sinLdot_fc` overwrites its arguments;
`-1j * ptmp` and `1j * ftmp` are new arrays. -/
noncomputable def hVspht (b : Backend) (p : TRef) (nmax mmax : Option Int) : TP VRef := do
  let P ← tRead p
  let nm ← TP.lift (sphtArgs (.ok P.nrows) (.ok P.ncols) nmax mmax)
  let _ ← TP.lift (sphtGuards (.ok P.nrows) (.ok P.ncols) nm.1 nm.2)
  let fe ← hExtFourier p.td
  if ¬ (P.td.rows = P.pd.rows ∧ P.td.cols = P.pd.cols) then TP.lift (.error ⟨.valueError, "broadcast"⟩)
  else do
    let pe ← hExtFourier p.pd
    let F ← readM fe
    let ftmp ← alloc (.mat F)
    let Q ← readM pe
    let ptmp ← alloc (.mat Q)
    let l1 ← hSinLdot fe pe
    let PT ← readM ptmp
    let a ← alloc (.mat (PT.map fun x => -Complex.I * x))
    let FT ← readM ftmp
    let c ← alloc (.mat (FT.map fun x => Complex.I * x))
    let l2 ← hSinLdot a c
    let sc1 ← hFcToSc b 0 l1 nm.1 nm.2
    let sc2 ← hFcToSc b 1 l2 nm.1 nm.2
    let vc ← hInitV sc1 sc2 nm.1 nm.2
    let w ← TP.lift (nvec nm.1)
    sUpdate vc.s1 fun c => c.window w
    sUpdate vc.s2 fun c => c.window w
    pure vc

/-- `vispht(vcoefs, nrows, ncols)`, spherepy.py 2081-2139. The coefficient sets are copied before they are windowed. -/
noncomputable def hVispht (b : Backend) (c : VRef) (nrows ncols : Option Int) : TP TRef := do
  let nr := nrows.getD (c.nmax + 2)
  let nc := ncols.getD (2 * c.mmax + 2)
  let _ ← TP.lift (visphtGuards c.nmax c.mmax nr nc)
  let dn := 2 * nr - 2
  let w ← TP.lift (nvec c.nmax)
  let s1 ← sCopy c.s1
  let s2 ← sCopy c.s2
  sUpdate s1 fun c => c.window w
  sUpdate s2 fun c => c.window w
  let f1 ← hScToFc b 0 s1.buf s1.nmax s1.mmax dn nc
  let f2 ← (match b with
    | .py => hScToFc b 1 s2.buf s2.nmax s2.mmax dn nc
    | .c _ => hScToFc b 1 s2.buf s1.nmax s1.mmax dn nc)
  let l1 ← hLFc f1
  let l2 ← hLFc f2
  let A ← readM l1.1
  let B ← readM l2.2
  let ft ← alloc (.mat (A.zip (fun a b => a - Complex.I * b) B))
  let C ← readM l1.2
  let D ← readM l2.1
  let fp ← alloc (.mat (C.zip (fun a b => a + Complex.I * b) D))
  let FT ← readM ft
  let DT ← TP.lift (invFourier FT dn nc)
  let FP ← readM fp
  let DP ← TP.lift (invFourier FP dn nc)
  hNewT (.arr DT) (.arr DP)

/-! ### Statements and programs (the client of SpecHeap.lean) -/

/-- Give the result of a constructor its type.
    Client side: as `SpecHeap.asObj`. -/
def asObj {α : Type} (f : α → SpecHeap.Obj) (x : TP α) : TP SpecHeap.Obj := do
  let a ← x
  pure (f a)

/-- A creating statement: the calls as in `SpecHeap.mkHeap` (spherepy.py 194-2139). -/
noncomputable def tMk (b : Backend) (env : List SpecHeap.Obj) : SpecHeap.Mk → TP SpecHeap.Obj
  | .coefs f n m => asObj .sc (hFactoryS f n m)
  | .vcoefs f g n m => asObj .vc (hFactoryV f g n m)
  | .patt A => asObj .sp (hMkP A)
  | .tpatt T P => asObj .tp (hMkT T P)
  | .copy i => match env[i]? with
    | some (.sc o) => asObj .sc (sCopy o)
    | some (.vc o) => asObj .vc (vCopy o)
    | _ => TP.lift (.error SpecHeap.noSuch)
  | .opObj op i j => match env[i]?, env[j]? with
    | some (.sc o), some (.sc p) => asObj .sc (sOpObj op o p)
    | some (.vc o), some (.vc p) => asObj .vc (vOpObj op o p)
    | some (.sp o), some (.sp p) => asObj .sp (pOpObj op o p)
    | some (.tp o), some (.tp p) => asObj .tp (tOpObj op o p)
    | _, _ => TP.lift (.error SpecHeap.noSuch)
  | .opNum op i x => match env[i]? with
    | some (.sc o) => asObj .sc (sOpNum op o x)
    | some (.vc o) => asObj .vc (vOpNum op o x)
    | some (.sp o) => asObj .sp (pOpNum op o x)
    | some (.tp o) => asObj .tp (tOpNum op o x)
    | none => TP.lift (.error SpecHeap.noSuch)
  | .numOp op i x => match env[i]? with
    | some (.sc o) => asObj .sc (sNumOp op o x)
    | some (.vc o) => asObj .vc (vNumOp op o x)
    | some (.sp o) => asObj .sp (pNumOp op o x)
    | some (.tp o) => asObj .tp (tNumOp op o x)
    | none => TP.lift (.error SpecHeap.noSuch)
  | .trunc i k => match env[i]? with
    | some (.sc o) => asObj .sc (sTrunc o k)
    | some (.vc o) => asObj .vc (vTrunc o k)
    | _ => TP.lift (.error SpecHeap.noSuch)
  | .spht i n m => match env[i]? with
    | some (.sp o) => asObj .sc (hSpht b o n m)
    | some (.tp o) => asObj .vc (hVspht b o n m)
    | _ => TP.lift (.error SpecHeap.noSuch)
  | .ispht i r c => match env[i]? with
    | some (.sc o) => asObj .sp (hIspht b o r c)
    | some (.vc o) => asObj .tp (hVispht b o r c)
    | _ => TP.lift (.error SpecHeap.noSuch)

/-- A changing statement: as in `SpecHeap.mutHeap` (spherepy.py 245-269, 371-437, 717-749). -/
noncomputable def tMut : SpecHeap.Mut → SpecHeap.Obj → TP Unit
  | .set arg v, .sc o => sUpdate o fun c => c.setitem arg v
  | .setV arg v, .vc o => vSetitem o arg v
  | .window w, .sc o => sUpdate o fun c => c.window w
  | .setComp first arg v, .vc o => sUpdate (if first then o.s1 else o.s2) fun c => c.setitem arg v
  | .windowComp first w, .vc o => sUpdate (if first then o.s1 else o.s2) fun c => c.window w
  | .poke f, .sp (.arr a) => do
    let A ← readM a
    writeC a (.mat (f A))
  | .pokeT first f, .tp o => do
    let A ← readM (if first then o.td else o.pd)
    writeC (if first then o.td else o.pd) (.mat (f A))
  | _, _ => TP.lift (.error SpecHeap.noSuch)

/-- A whole thread: the remaining statements, from the exceptions caught and the variables so far.  `b k` is what statement number `k`
(as many as there are log entries) finds in the global `use_cext` - any thread may set it at any time, a transform reads it once
(spherepy.py 1895, 1945, 2068, 2113) - together with the uninitialised memory the C code gets in that call.
    Client side: as `SpecHeap.stepHeap`, an exception is caught and the thread goes on. -/
noncomputable def tProg (b : Nat → Backend) : List SpecHeap.Stmt → List (Option PyErr) → List SpecHeap.Obj →
    TP (List (Option PyErr) × List SpecHeap.Obj)
  | [], log, env => .ret (.ok (log, env))
  | .mk m :: rest, log, env => (tMk (b log.length) env m).bindR fun r => match r with
    | .ok o => tProg b rest (log ++ [none]) (env ++ [o])
    | .error e => tProg b rest (log ++ [some e]) env
  | .chg i m :: rest, log, env => match env[i]? with
    | none => tProg b rest (log ++ [some SpecHeap.noSuch]) env
    | some o => (tMut m o).bindR fun r => match r with
      | .ok _ => tProg b rest (log ++ [none]) env
      | .error e => tProg b rest (log ++ [some e]) env

/-! ### Interleaved execution -/

/-- The whole process: one memory, one remaining computation per thread (`ι` are the thread names).
    Python runtime (threads share the heap). -/
structure Pool (ι α : Type) where
  heap : Heap
  thr : ι → TP α

/-- Thread `i` makes one array access; a finished thread does nothing.
    Python runtime (thread switch between accesses). -/
def Pool.step {ι α : Type} [DecidableEq ι] (s : Pool ι α) (i : ι) : Pool ι α :=
  match s.thr i with
  | .ret _ => s
  | .alloc c k => ⟨s.heap ++ [c], Function.update s.thr i (k s.heap.length)⟩
  | .read a k => ⟨s.heap, Function.update s.thr i (k s.heap[a]?)⟩
  | .write a c k => ⟨s.heap.set a c, Function.update s.thr i k⟩

/-- Run a schedule: the names of the threads in the order in which they make their accesses.
    Python runtime. -/
def Pool.exec {ι α : Type} [DecidableEq ι] (s : Pool ι α) (sched : List ι) : Pool ι α := sched.foldl Pool.step s

end Verif.Thr
