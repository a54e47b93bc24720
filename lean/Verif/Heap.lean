import Verif.Transforms
/-!
# Buffers and sharing

NumPy arrays are mutable and shared by reference; the other model files work with values.  Here arrays are cells of a heap,
objects hold addresses, and every function says which arrays it allocates, reads and writes (spherepy.py, ops.py).
-/
namespace Verif

/-- A NumPy array in memory (1-D or 2-D, complex128); NumPy runtime. -/
inductive Cell where
  | vec (l : List ℂ)
  | mat (A : Arr2 ℂ)

/-- Memory: the address of an array is its position.  Arrays are never freed.
    NumPy runtime (array buffers). -/
abbrev Heap := List Cell

/-- A call that may allocate and write arrays: result (or exception) and the memory afterwards, also after an exception.
    Python runtime. -/
def HM (α : Type) := Heap → Res α × Heap

/-- Sequencing of calls: stop at the first exception, keep the memory reached.
    Python runtime. -/
instance : Monad HM where
  pure a := fun h => (.ok a, h)
  bind x f := fun h => match x h with
    | (.ok a, h') => f a h'
    | (.error e, h') => (.error e, h')

/-- A call that touches no array.
    Python runtime. -/
def HM.lift {α : Type} (r : Res α) : HM α := fun h => (r, h)

/-- Create an array (`np.zeros`, `np.copy`, the result of an arithmetic expression, ...); NumPy runtime. -/
def alloc (c : Cell) : HM Nat := fun h => (.ok h.length, h ++ [c])

/-- Content of a 1-D array; NumPy runtime. -/
def readV (a : Nat) : HM (List ℂ) := fun h => match h[a]? with
  | some (.vec l) => (.ok l, h)
  | _ => (.error ⟨.exception, "not a 1-D array"⟩, h)

/-- Content of a 2-D array; NumPy runtime. -/
def readM (a : Nat) : HM (Arr2 ℂ) := fun h => match h[a]? with
  | some (.mat A) => (.ok A, h)
  | _ => (.error ⟨.exception, "not a 2-D array"⟩, h)

/-- Overwrite the content of an array in place; NumPy runtime. -/
def writeC (a : Nat) (c : Cell) : HM Unit := fun h => (.ok (), h.set a c)

/-! ### Objects -/

/-- A `ScalarCoefs` object: the address of `_vec`, and `_nmax`, `_mmax` (spherepy.py 204-206). -/
structure SRef where
  buf : Nat
  nmax : Int
  mmax : Int

/-- A `VectorCoefs` object (spherepy.py 657-660). -/
structure VRef where
  s1 : SRef
  s2 : SRef
  nmax : Int
  mmax : Int

/-- `ScalarCoefs(vec, nmax, mmax)`, spherepy.py 194-206: stores the caller's array, no copy. -/
def hInitS (a : Nat) (nmax mmax : Int) : HM SRef := do
  let l ← readV a
  let _ ← HM.lift (ScalarCoefs.init (.arr l) nmax mmax)
  pure ⟨a, nmax, mmax⟩

/-- `VectorCoefs(vec1, vec2, nmax, mmax)`, spherepy.py 640-660: clears entry 0 of the caller's arrays and stores them. -/
noncomputable def hInitV (a1 a2 : Nat) (nmax mmax : Int) : HM VRef := do
  let l1 ← readV a1
  let l2 ← readV a2
  if l1.length ≠ l2.length then HM.lift (.error (raise .valueError "vec1_s_vec2"))
  else if mmax > nmax then HM.lift (.error (raise .valueError "nmax_g_mmax"))
  else if ncFormula nmax mmax ≠ l1.length then HM.lift (.error (raise .valueError "vcoef_size"))
  else
    let l1' ← HM.lift (setIdx l1 0 0)
    writeC a1 (.vec l1')
    let l2 ← readV a2
    let l2' ← HM.lift (setIdx l2 0 0)
    writeC a2 (.vec l2')
    let s1 ← hInitS a1 nmax mmax
    let s2 ← hInitS a2 nmax mmax
    pure ⟨s1, s2, nmax, mmax⟩

/-- A coefficient object made from a freshly computed array (or from the exception object of a division by 0):
spherepy.py 549-557, 569-571. -/
def hNewS (b : Buf ℂ) (nmax mmax : Int) : HM SRef :=
  match b with
  | .arr l => do
    let a ← alloc (.vec l)
    hInitS a nmax mmax
  | .exc => HM.lift ((ScalarCoefs.init (α := ℂ) .exc nmax mmax).bind fun _ => .error ⟨.typeError, "object has no len()"⟩)

/-- The same for vector coefficients: spherepy.py 822-838, 848-851. -/
noncomputable def hNewV (b1 b2 : Buf ℂ) (nmax mmax : Int) : HM VRef :=
  match b1, b2 with
  | .arr l1, .arr l2 => do
    let a1 ← alloc (.vec l1)
    let a2 ← alloc (.vec l2)
    hInitV a1 a2 nmax mmax
  | _, _ => HM.lift (.error ⟨.attributeError, "no attribute 'shape'"⟩)

/-- The value an object currently denotes.
    Observation used in statements; spherepy.py 194-207 (`self._vec`). -/
def SRef.read (o : SRef) : HM (ScalarCoefs ℂ) := do
  let l ← readV o.buf
  pure ⟨l, o.nmax, o.mmax⟩

/-! ### Operations on coefficient objects -/

/-- `c.copy()`, spherepy.py 234-243: `np.copy`. -/
def SRef.copy (o : SRef) : HM SRef := do
  let l ← readV o.buf
  let a ← alloc (.vec l)
  hInitS a o.nmax o.mmax

/-- `vc.copy()`, spherepy.py 681-691. -/
noncomputable def VRef.copy (o : VRef) : HM VRef := do
  let l1 ← readV o.s1.buf
  let a1 ← alloc (.vec l1)
  let l2 ← readV o.s2.buf
  let a2 ← alloc (.vec l2)
  hInitV a1 a2 o.nmax o.mmax

/-- `a op b` for two `ScalarCoefs`, spherepy.py 545-553. -/
noncomputable def SRef.opObj (op : Op) (o p : SRef) : HM SRef := do
  let l ← readV o.buf
  let k ← readV p.buf
  if l.length = k.length then hNewS (.arr (List.zipWith op.eval l k)) o.nmax o.mmax
  else HM.lift (.error (raise .valueError "SC_sz_msmtch"))

/-- `c op x`, spherepy.py 554-557. -/
noncomputable def SRef.opNum (op : Op) (o : SRef) (x : ℂ) : HM SRef := do
  let l ← readV o.buf
  hNewS (Verif.opNum op l x) o.nmax o.mmax

/-- `x op c`, spherepy.py 567-571. -/
noncomputable def SRef.numOp (op : Op) (o : SRef) (x : ℂ) : HM SRef := do
  let l ← readV o.buf
  hNewS (opNumR op l x) o.nmax o.mmax

/-- `a op b` for two `VectorCoefs`, spherepy.py 820-828. -/
noncomputable def VRef.opObj (op : Op) (o p : VRef) : HM VRef := do
  let l1 ← readV o.s1.buf
  let k1 ← readV p.s1.buf
  let r1 ← HM.lift (bcast op.eval l1 k1)
  let l2 ← readV o.s2.buf
  let k2 ← readV p.s2.buf
  let r2 ← HM.lift (bcast op.eval l2 k2)
  hNewV (.arr r1) (.arr r2) o.nmax o.mmax

/-- `vc op x`, spherepy.py 833-837. -/
noncomputable def VRef.opNum (op : Op) (o : VRef) (x : ℂ) : HM VRef := do
  let l1 ← readV o.s1.buf
  let l2 ← readV o.s2.buf
  hNewV (Verif.opNum op l1 x) (Verif.opNum op l2 x) o.nmax o.mmax

/-- `x op vc`, spherepy.py 847-851. -/
noncomputable def VRef.numOp (op : Op) (o : VRef) (x : ℂ) : HM VRef := do
  let l1 ← readV o.s1.buf
  let l2 ← readV o.s2.buf
  hNewV (opNumR op l1 x) (opNumR op l2 x) o.nmax o.mmax

/-- `c[0:k, :]`, spherepy.py 499-534: a new `np.zeros` array filled by slice assignments; the buffer computation is
`ScalarCoefs.trunc`. -/
noncomputable def SRef.trunc (o : SRef) (k : Int) : HM SRef := do
  let c ← o.read
  let d ← HM.lift (c.trunc k)
  let a ← alloc (.vec d.vec)
  hInitS a d.nmax d.mmax

/-- `vc[0:k, :]`, spherepy.py 790-809. -/
noncomputable def VRef.trunc (o : VRef) (k : Int) : HM VRef :=
  if k > o.nmax then HM.lift (.error (raise .attributeError "n_out_bound"))
  else do
    let newM := if k > o.mmax then o.mmax else k
    let s1 ← o.s1.trunc k
    let s2 ← o.s2.trunc k
    hInitV s1.buf s2.buf k newM

/-- An in-place update of a `ScalarCoefs` object: `c[...] = val`, spherepy.py 371-437, and `c.window(w)`, 245-269.  Only the
content of its own `_vec` changes (`_nmax`, `_mmax` are never assigned outside the constructor). -/
def SRef.update (o : SRef) (f : ScalarCoefs ℂ → Eff (ScalarCoefs ℂ)) : HM Unit := do
  let c ← o.read
  let e := f c
  writeC o.buf (.vec e.st.vec)
  match e.err with
  | none => pure ()
  | some x => HM.lift (.error x)

/-- `vc[...] = val`, spherepy.py 717-749: in-place updates of the two components. -/
noncomputable def VRef.setitem (o : VRef) (arg : List Arg) (val : VectorCoefs.ValV ℂ) : HM Unit := do
  let c1 ← o.s1.read
  let c2 ← o.s2.read
  let e := VectorCoefs.setitem ⟨c1, c2, o.nmax, o.mmax⟩ arg val
  writeC o.s1.buf (.vec e.st.scoef1.vec)
  writeC o.s2.buf (.vec e.st.scoef2.vec)
  match e.err with
  | none => pure ()
  | some x => HM.lift (.error x)

/-- `random_coefs`, scalar branch, at value level (spherepy.py 1505-1512): the samples are an arbitrary function. -/
noncomputable def genCoefs (f : Nat → ℂ) (nmax mmax : Int) : Res (ScalarCoefs ℂ) :=
  if mmax > nmax then .error (raise .valueError "nmax_g_mmax")
  else if lFormula nmax mmax < 0 then .error ⟨.valueError, "negative dimensions"⟩
  else ScalarCoefs.init (.arr (tab (lFormula nmax mmax).toNat f)) nmax mmax

/-- `random_coefs`, vector branch, at value level (spherepy.py 1513-1521; `vec[0] = 0` is repeated by the constructor). -/
noncomputable def genVCoefs (f g : Nat → ℂ) (nmax mmax : Int) : Res (VectorCoefs ℂ) :=
  if mmax > nmax then .error (raise .valueError "nmax_g_mmax")
  else if lFormula nmax mmax < 0 then .error ⟨.valueError, "negative dimensions"⟩
  else VectorCoefs.init (.arr (tab (lFormula nmax mmax).toNat f)) (.arr (tab (lFormula nmax mmax).toNat g)) nmax mmax

/-- `zeros_coefs`, `ones_coefs`, `random_coefs`, scalar branch, spherepy.py 1408-1414, 1455-1461, 1505-1512: one new array;
the entries are an arbitrary function. -/
noncomputable def hFactoryS (f : Nat → ℂ) (nmax mmax : Int) : HM SRef :=
  if mmax > nmax then HM.lift (.error (raise .valueError "nmax_g_mmax"))
  else if lFormula nmax mmax < 0 then HM.lift (.error ⟨.valueError, "negative dimensions"⟩)
  else do
    let a ← alloc (.vec (tab (lFormula nmax mmax).toNat f))
    hInitS a nmax mmax

/-- Vector branch, spherepy.py 1415-1419, 1462-1467, 1513-1521: two new arrays. -/
noncomputable def hFactoryV (f g : Nat → ℂ) (nmax mmax : Int) : HM VRef :=
  if mmax > nmax then HM.lift (.error (raise .valueError "nmax_g_mmax"))
  else if lFormula nmax mmax < 0 then HM.lift (.error ⟨.valueError, "negative dimensions"⟩)
  else do
    let a1 ← alloc (.vec (tab (lFormula nmax mmax).toNat f))
    let a2 ← alloc (.vec (tab (lFormula nmax mmax).toNat g))
    hInitV a1 a2 nmax mmax

/-! ### Patterns -/

/-- A `ScalarPatternUniform` object: the address of `_dsphere`, or the exception object that a division by the number 0
leaves there (spherepy.py 990-995). -/
inductive PRef where
  | arr (a : Nat)
  | exc

/-- A `TransversePatternUniform` object: the addresses of `_tdsphere` and `_pdsphere` (spherepy.py 1173-1183). -/
structure TRef where
  td : Nat
  pd : Nat

/-- The value a scalar pattern currently denotes.
    Observation used in statements; spherepy.py 990-995 (`self._dsphere`). -/
def PRef.read (p : PRef) : HM (SPatt ℂ) :=
  match p with
  | .arr a => do
    let A ← readM a
    pure ⟨.arr A⟩
  | .exc => pure ⟨.exc⟩

/-- The value a transverse pattern currently denotes.
    Observation used in statements; spherepy.py 1173-1183. -/
def TRef.read (p : TRef) : HM (TPatt ℂ) := do
  let T ← readM p.td
  let P ← readM p.pd
  pure ⟨T, P⟩

/-- A scalar pattern around a freshly computed array (`doublesphere=True`), spherepy.py 990-995. -/
def hNewP (b : PBuf ℂ) : HM PRef :=
  match b with
  | .arr A => do
    let a ← alloc (.mat A)
    pure (.arr a)
  | .exc => pure .exc

/-- A transverse pattern around freshly computed arrays (`doublesphere=True`), spherepy.py 1173-1183: the shapes are
compared. -/
noncomputable def hNewT (b1 b2 : PBuf ℂ) : HM TRef :=
  match b1, b2 with
  | .arr T, .arr P => do
    let t ← alloc (.mat T)
    let p ← alloc (.mat P)
    let _ ← HM.lift (TPatt.init (.arr T) (.arr P) true)
    pure ⟨t, p⟩
  | _, _ => HM.lift (.error ⟨.attributeError, "no attribute 'shape'"⟩)

/-- `ScalarPatternUniform(cdata)`, spherepy.py 990-993: `continue_sphere` returns a new array (1741-1782). -/
noncomputable def hMkP (A : Arr2 ℂ) : HM PRef := do
  let D ← HM.lift (continueSphere A 1)
  hNewP (.arr D)

/-- `TransversePatternUniform(tcdata, pcdata)`, spherepy.py 1173-1180. -/
noncomputable def hMkT (T P : Arr2 ℂ) : HM TRef :=
  if ¬ (T.rows = P.rows ∧ T.cols = P.cols) then HM.lift (.error (raise .valueError "shape_tc_pc"))
  else do
    let t ← HM.lift (continueSphere T (-1))
    let a ← alloc (.mat t)
    let p ← HM.lift (continueSphere P (-1))
    let b ← alloc (.mat p)
    pure ⟨a, b⟩

/-- `p op q` for scalar patterns, spherepy.py 1077-1086: new array. -/
noncomputable def PRef.opObj (op : Op) (p q : PRef) : HM PRef := do
  let P ← p.read
  let Q ← q.read
  let A ← HM.lift P.dsphere
  let B ← HM.lift Q.dsphere
  if A.rows = B.rows ∧ A.cols = B.cols then hNewP (.arr (A.zip op.eval B))
  else HM.lift (.error (raise .valueError "SP_sz_msmtch"))

/-- `p op x`, spherepy.py 1088-1090. -/
noncomputable def PRef.opNum (op : Op) (p : PRef) (x : ℂ) : HM PRef := do
  let P ← p.read
  let A ← HM.lift P.dsphere
  hNewP (pOpNum op A x)

/-- `x op p`, spherepy.py 1095-1105. -/
noncomputable def PRef.numOp (op : Op) (p : PRef) (x : ℂ) : HM PRef := do
  let P ← p.read
  let A ← HM.lift P.dsphere
  hNewP (pOpNumR op A x)

/-- `p op q` for transverse patterns, spherepy.py 1273-1285. -/
noncomputable def TRef.opObj (op : Op) (p q : TRef) : HM TRef := do
  let P ← p.read
  let Q ← q.read
  if P.td.rows = Q.td.rows ∧ P.td.cols = Q.td.cols then
    hNewT (.arr (P.td.zip op.eval Q.td)) (.arr (P.pd.zip op.eval Q.pd))
  else HM.lift (.error (raise .valueError "VP_sz_msmtch"))

/-- `p op x`, spherepy.py 1287-1290. -/
noncomputable def TRef.opNum (op : Op) (p : TRef) (x : ℂ) : HM TRef := do
  let P ← p.read
  hNewT (pOpNum op P.td x) (pOpNum op P.pd x)

/-- `x op p`, spherepy.py 1294-1305. -/
noncomputable def TRef.numOp (op : Op) (p : TRef) (x : ℂ) : HM TRef := do
  let P ← p.read
  hNewT (pOpNumR op P.td x) (pOpNumR op P.pd x)

/-! ### Operators on Fourier data, in place (ops.py) -/

/-- An in-place operator: the array is overwritten with `f` of its content.  (When the code raises half-way the model leaves
the array unchanged.).
    NumPy runtime; in-place operators at ops.py 66, 90-91, spherepy.py 1741-1749. -/
def hApply (f : Arr2 ℂ → Res (Arr2 ℂ)) (a : Nat) : HM Unit := do
  let A ← readM a
  let B ← HM.lift (f A)
  writeC a (.mat B)

/-- `pad_rows_fdata(fdata, fdata_extended)`, ops.py 68-81. -/
def hPadRows (a e : Nat) : HM Unit := do
  let A ← readM a
  let E ← readM e
  let B ← HM.lift (padRows A E.rows)
  writeC e (.mat B)

/-- `sinLdot_fc(tfdata, pfdata)`, ops.py 159-168: both arguments are overwritten, the result is a new array. -/
noncomputable def hSinLdot (t p : Nat) : HM Nat := do
  hApply dphiFc t
  hApply sinFc p
  hApply dthetaFc p
  let T ← readM t
  let P ← readM p
  alloc (.mat (T.zip (fun a b => Complex.I * (a - b)) P))

/-- `L_fc(fdata)`, ops.py 170-180: `np.copy`, then the argument is overwritten; two new arrays are returned. -/
noncomputable def hLFc (f : Nat) : HM (Nat × Nat) := do
  let F ← readM f
  let fd ← alloc (.mat F)
  hApply dphiFc f
  hApply divsinFc f
  hApply dthetaFc fd
  let A ← readM f
  let r1 ← alloc (.mat (A.map fun x => Complex.I * x))
  let B ← readM fd
  let r2 ← alloc (.mat (B.map fun x => -Complex.I * x))
  pure (r1, r2)

/-! ### Transforms -/

/-- `csphi.fc_to_sc` writes into a new `np.zeros` array, `pysphi.fc_to_sc` returns a new array (spherepy.py 1889-1898,
1943-1952); both only read `fdata`. -/
noncomputable def hFcToSc (b : Backend) (call : Nat) (f : Nat) (nmax mmax : Int) : HM Nat := do
  let F ← readM f
  let sc ← HM.lift (b.fcToSc call F nmax mmax)
  alloc (.vec sc)

/-- `csphi.sc_to_fc` / `pysphi.sc_to_fc` (spherepy.py 2066-2074, 2113-2129): only read the coefficients, new array. -/
noncomputable def hScToFc (b : Backend) (call : Nat) (vec : Nat) (nmax mmax dn nc : Int) : HM Nat := do
  let l ← readV vec
  let F ← HM.lift (b.scToFc call l nmax mmax dn nc)
  alloc (.mat F)

/-- `fft2(ds)/(dnrows*ncols)` (a new array), `fix_even_row_data_fc` on it, `np.zeros([dnrows+2, ncols])`,
`pad_rows_fdata`: spherepy.py 1880-1886, 1925-1935. Returns the extended array. -/
noncomputable def hExtFourier (ds : Nat) : HM Nat := do
  let D ← readM ds
  let F ← HM.lift (npFft2 D)
  let f ← alloc (.mat (F.map fun x => x / (((D.rows * D.cols : Nat) : ℝ) : ℂ)))
  hApply fixEvenRow f
  let e ← alloc (.mat (Arr2.ofFn (D.rows + 2) D.cols fun _ _ => 0))
  hPadRows f e
  pure e

/-- `spht(ssphere, nmax, mmax)`, spherepy.py 1831-1900. -/
noncomputable def hSpht (b : Backend) (p : PRef) (nmax mmax : Option Int) : HM SRef := do
  let P ← p.read
  let nm ← HM.lift (sphtArgs P.nrows P.ncols nmax mmax)
  let _ ← HM.lift (sphtGuards P.nrows P.ncols nm.1 nm.2)
  match p with
  | .exc => HM.lift (.error ⟨.attributeError, "no attribute 'shape'"⟩)
  | .arr ds => do
    let e ← hExtFourier ds
    hApply sinFc e
    let _ ← HM.lift (npFull (ncFormula nm.1 nm.2) (0 : ℂ))
    let sc ← hFcToSc b 0 e nm.1 nm.2
    hInitS sc nm.1 nm.2

/-- `ispht(scoefs, nrows, ncols)`, spherepy.py 2020-2079. -/
noncomputable def hIspht (b : Backend) (c : SRef) (nrows ncols : Option Int) : HM PRef := do
  let nr := nrows.getD (c.nmax + 2)
  let nc := ncols.getD (2 * c.mmax + 2)
  let _ ← HM.lift (isphtGuards c.nmax c.mmax nr nc)
  let dn := 2 * nr - 2
  let f ← hScToFc b 0 c.buf c.nmax c.mmax dn nc
  let F ← readM f
  let D ← HM.lift (invFourier F dn nc)
  hNewP (.arr D)

/-- `vspht(vsphere, nmax, mmax)`, spherepy.py 1902-1966. `np.copy` is taken before `sinLdot_fc` overwrites its arguments;
`-1j * ptmp` and `1j * ftmp` are new arrays. -/
noncomputable def hVspht (b : Backend) (p : TRef) (nmax mmax : Option Int) : HM VRef := do
  let P ← p.read
  let nm ← HM.lift (sphtArgs (.ok P.nrows) (.ok P.ncols) nmax mmax)
  let _ ← HM.lift (sphtGuards (.ok P.nrows) (.ok P.ncols) nm.1 nm.2)
  let fe ← hExtFourier p.td
  if ¬ (P.td.rows = P.pd.rows ∧ P.td.cols = P.pd.cols) then HM.lift (.error ⟨.valueError, "broadcast"⟩)
  else do
    let pe ← hExtFourier p.pd
    let F ← readM fe
    let ftmp ← alloc (.mat F)
    let Q ← readM pe
    let ptmp ← alloc (.mat Q)
    let l1 ← hSinLdot fe pe
    let PT ← readM ptmp
    let a ← alloc (.mat (PT.map fun x => -Complex.I * x))
    let FT ← readM ftmp
    let c ← alloc (.mat (FT.map fun x => Complex.I * x))
    let l2 ← hSinLdot a c
    let sc1 ← hFcToSc b 0 l1 nm.1 nm.2
    let sc2 ← hFcToSc b 1 l2 nm.1 nm.2
    let vc ← hInitV sc1 sc2 nm.1 nm.2
    let w ← HM.lift (nvec nm.1)
    vc.s1.update fun c => c.window w
    vc.s2.update fun c => c.window w
    pure vc

/-- `vispht(vcoefs, nrows, ncols)`, spherepy.py 2081-2139. The coefficient sets are copied before they are windowed. -/
noncomputable def hVispht (b : Backend) (c : VRef) (nrows ncols : Option Int) : HM TRef := do
  let nr := nrows.getD (c.nmax + 2)
  let nc := ncols.getD (2 * c.mmax + 2)
  let _ ← HM.lift (visphtGuards c.nmax c.mmax nr nc)
  let dn := 2 * nr - 2
  let w ← HM.lift (nvec c.nmax)
  let s1 ← c.s1.copy
  let s2 ← c.s2.copy
  s1.update fun c => c.window w
  s2.update fun c => c.window w
  let f1 ← hScToFc b 0 s1.buf s1.nmax s1.mmax dn nc
  let f2 ← (match b with
    | .py => hScToFc b 1 s2.buf s2.nmax s2.mmax dn nc
    | .c _ => hScToFc b 1 s2.buf s1.nmax s1.mmax dn nc)
  let l1 ← hLFc f1
  let l2 ← hLFc f2
  let A ← readM l1.1
  let B ← readM l2.2
  let ft ← alloc (.mat (A.zip (fun a b => a - Complex.I * b) B))
  let C ← readM l1.2
  let D ← readM l2.1
  let fp ← alloc (.mat (C.zip (fun a b => a + Complex.I * b) D))
  let FT ← readM ft
  let DT ← HM.lift (invFourier FT dn nc)
  let FP ← readM fp
  let DP ← HM.lift (invFourier FP dn nc)
  hNewT (.arr DT) (.arr DP)

end Verif
