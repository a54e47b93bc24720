import Verif.Coefs
import Mathlib.Algebra.Field.Defs
import Mathlib.Analysis.Complex.Norm
/-!
# Patterns (spherepy/spherepy.py 917-1366, 1525-1680, 1693-1737, 1741-1782, 2193-2219)

Value-level model of `ScalarPatternUniform`, `TransversePatternUniform`, their operators, the pattern
factories, `double_sphere`, `continue_sphere`, `mag2`, `mag`, `abs`, `L2_patt`, `LInf_patt`.

Simplification: the element arithmetic is a parameter (any type with the operations the code uses).  The
theorems instantiate it with exact field arithmetic, where NumPy's `x/0 = nan` with a warning is the
field's total division, and (Props/FloatSym) with rounded arithmetic on doubles.  Patterns hold 2-D arrays; the exception object that a division by the number 0
puts into a pattern is represented (`PBuf.exc`).
-/
namespace Verif

/-- What a pattern's `_dsphere` field can hold: a 2-D array, or the exception *object* returned by
`__truediv__` on division by the number 0 (spherepy.py 1149-1156). -/
inductive PBuf (α : Type) where
  | arr (A : Arr2 α)
  | exc

/-- `np.zeros((r, c))` / `np.ones((r, c))`: negative dimensions raise ValueError.
    NumPy runtime; spherepy.py 1564-1569, 1614-1619, 1746, 1769. -/
def npFull2 {α : Type} (r c : Int) (x : α) : Res (Arr2 α) :=
  if r < 0 ∨ c < 0 then .error ⟨.valueError, "negative dimensions"⟩
  else .ok (Arr2.ofFn r.toNat c.toNat (fun _ _ => x))

section
variable {α : Type} [Zero α] [One α] [Neg α] [Add α] [Sub α] [Mul α] [Div α] [OfNat α 2] [DecidableEq α]

/-- The cell computation of `double_sphere`, spherepy.py 1771-1780. -/
def dsCell (s t : α) : α := if s * t = 0 then s + t else (s + t) / 2

/-- `double_sphere(cdata, sym)`, spherepy.py 1751-1782.  The double loop writes every cell once, from
`cdata` only, so it is an array comprehension; `np.mod(nrows - n, nrows)`,
`np.mod(floor(ncols/2) + m, ncols)` have nonnegative arguments. -/
def doubleSphere (cdata : Arr2 α) (sym : α) : Arr2 α :=
  Arr2.ofFn cdata.rows cdata.cols (fun n m =>
    dsCell (sym * cdata.at' ((cdata.rows - n) % cdata.rows) ((cdata.cols / 2 + m) % cdata.cols))
      (cdata.at' n m))

/-- `np.concatenate([A, B])` along the rows.
    NumPy runtime; spherepy.py 1747. -/
def vcat (A B : Arr2 α) : Arr2 α :=
  Arr2.ofFn (A.rows + B.rows) A.cols (fun i j => if i < A.rows then A.at' i j else B.at' (i - A.rows) j)

/-- `continue_sphere(cdata, sym)`, spherepy.py 1741-1748. -/
def continueSphere (cdata : Arr2 α) (sym : α) : Res (Arr2 α) :=
  (npFull2 ((cdata.rows : Int) - 2) cdata.cols (0 : α)).bind fun zdata =>
  .ok (doubleSphere (vcat cdata zdata) sym)

/-! ### ScalarPatternUniform -/

/-- `ScalarPatternUniform` object state, spherepy.py 990-995. -/
structure SPatt (α : Type) where
  ds : PBuf α

/-- `ScalarPatternUniform.__init__`, spherepy.py 990-995. -/
def SPatt.init (cdata : PBuf α) (doublesphere : Bool) : Res (SPatt α) :=
  match doublesphere, cdata with
  | false, .arr A => (continueSphere A 1).bind fun d => .ok ⟨.arr d⟩
  | false, .exc => .error ⟨.attributeError, "no attribute 'shape'"⟩
  | true, d => .ok ⟨d⟩

/-- `self._dsphere` used as an array.
    spherepy.py 990-995, 1020-1024. -/
def SPatt.dsphere (p : SPatt α) : Res (Arr2 α) :=
  match p.ds with
  | .arr A => .ok A
  | .exc => .error ⟨.attributeError, "no attribute 'shape'"⟩

/-- `nrows`, spherepy.py 1001-1005. -/
def SPatt.nrows (p : SPatt α) : Res Nat := p.dsphere.bind fun A => .ok (A.rows / 2 + 1)

/-- `ncols`, spherepy.py 1007-1011. -/
def SPatt.ncols (p : SPatt α) : Res Nat := p.dsphere.bind fun A => .ok A.cols

/-- `array` / `cdata`, spherepy.py 1026-1036: `_dsphere[0:nrows, :]`. -/
def SPatt.array (p : SPatt α) : Res (Arr2 α) :=
  p.dsphere.bind fun A => .ok (A.takeRows (A.rows / 2 + 1))

/-- Left operators of patterns applied to an array and a number; division by the number 0 returns an
exception object (spherepy.py 1107-1156, 1307-1356). -/
def pOpNum (op : Op) (a : Arr2 α) (b : α) : PBuf α :=
  if op = .div ∧ b = 0 then .exc else .arr (a.map (fun x => op.eval x b))

/-- Right operators (`b op a`), spherepy.py 1111-1165, 1311-1365; the test `isinstance(a, Number)` looks at the
array and is always false. -/
def pOpNumR (op : Op) (a : Arr2 α) (b : α) : PBuf α := .arr (a.map (fun x => op.eval b x))

/-- Left operators of `ScalarPatternUniform`: `_scalar_pattern_uniform_op_left`, spherepy.py 1073-1093. -/
def SPatt.opLeft (op : Op) (p : SPatt α) (o : Operand α (SPatt α)) : Res (SPatt α) :=
  match o with
  | .obj q =>
    p.dsphere.bind fun A => q.dsphere.bind fun B =>
    if A.rows = B.rows ∧ A.cols = B.cols then SPatt.init (.arr (A.zip op.eval B)) true
    else .error (raise .valueError "SP_sz_msmtch")
  | .num b => p.dsphere.bind fun A => SPatt.init (pOpNum op A b) true
  | .other => .error (raise .typeError "no_combi_SP")

/-- Right operators of `ScalarPatternUniform`, spherepy.py 1095-1105. -/
def SPatt.opRight (op : Op) (p : SPatt α) (o : Operand α (SPatt α)) : Res (SPatt α) :=
  match o with
  | .num b => p.dsphere.bind fun A => SPatt.init (pOpNumR op A b) true
  | _ => .error (raise .typeError "no_combi_SP")

/-! ### TransversePatternUniform -/

/-- `TransversePatternUniform` object state, spherepy.py 1173-1183. -/
structure TPatt (α : Type) where
  td : Arr2 α
  pd : Arr2 α

/-- `TransversePatternUniform.__init__`, spherepy.py 1173-1183.  `.shape` of an exception object raises
AttributeError, so the fields always hold arrays. -/
def TPatt.init (tc pc : PBuf α) (doublesphere : Bool) : Res (TPatt α) :=
  match tc, pc with
  | .arr T, .arr P =>
    if ¬ (T.rows = P.rows ∧ T.cols = P.cols) then .error (raise .valueError "shape_tc_pc")
    else match doublesphere with
      | false => (continueSphere T (-1)).bind fun t => (continueSphere P (-1)).bind fun p => .ok ⟨t, p⟩
      | true => .ok ⟨T, P⟩
  | _, _ => .error ⟨.attributeError, "no attribute 'shape'"⟩

/-- `nrows`, spherepy.py 1189-1191. -/
def TPatt.nrows (p : TPatt α) : Nat := p.td.rows / 2 + 1
/-- `ncols`, spherepy.py 1193-1195. -/
def TPatt.ncols (p : TPatt α) : Nat := p.td.cols
/-- `theta`, spherepy.py 1210-1212. -/
def TPatt.theta (p : TPatt α) : Arr2 α := p.td.takeRows p.nrows
/-- `phi`, spherepy.py 1214-1216. -/
def TPatt.phi (p : TPatt α) : Arr2 α := p.pd.takeRows p.nrows

/-- Left operators of `TransversePatternUniform`, spherepy.py 1269-1292 (only the theta shapes are
compared). `zip` keeps the left shape. -/
def TPatt.opLeft (op : Op) (p : TPatt α) (o : Operand α (TPatt α)) : Res (TPatt α) :=
  match o with
  | .obj q =>
    if p.td.rows = q.td.rows ∧ p.td.cols = q.td.cols then
      TPatt.init (.arr (p.td.zip op.eval q.td)) (.arr (p.pd.zip op.eval q.pd)) true
    else .error (raise .valueError "VP_sz_msmtch")
  | .num b => TPatt.init (pOpNum op p.td b) (pOpNum op p.pd b) true
  | .other => .error (raise .typeError "no_combi_VP")

/-- Right operators of `TransversePatternUniform`, spherepy.py 1294-1305. -/
def TPatt.opRight (op : Op) (p : TPatt α) (o : Operand α (TPatt α)) : Res (TPatt α) :=
  match o with
  | .num b => TPatt.init (pOpNumR op p.td b) (pOpNumR op p.pd b) true
  | _ => .error (raise .typeError "no_combi_VP")

/-! ### Pattern factories -/

/-- `zeros_patt_uniform` / `ones_patt_uniform`, spherepy.py 1559-1573, 1609-1623, with fill value `x`;
`pt` is `patt_type` (0 = scalar, 1 = vector). -/
def pattFactory (x : α) (nrows ncols pt : Int) : Res (SPatt α ⊕ TPatt α) :=
  if ncols % 2 = 1 then .error (raise .valueError "ncols_even")
  else if pt = 0 then
    (npFull2 (2 * nrows - 2) ncols x).bind fun c =>
    (SPatt.init (.arr c) true).bind fun p => .ok (.inl p)
  else if pt = 1 then
    (npFull2 (2 * nrows - 2) ncols x).bind fun t => (npFull2 (2 * nrows - 2) ncols x).bind fun p =>
    (TPatt.init (.arr t) (.arr p) true).bind fun p => .ok (.inr p)
  else .error (raise .typeError "ukn_patt_t")

/-- `np.random.normal(...)` of `nrows*ncols` samples reshaped to `(nrows, ncols)`: the samples are an
arbitrary function; a negative size raises ValueError (for a positive product of two negative numbers
it is `reshape` that raises).
    NumPy runtime; spherepy.py 1665-1680. -/
def randomArr (nrows ncols : Int) (f : Nat → Nat → α) : Res (Arr2 α) :=
  if nrows < 0 ∨ ncols < 0 then .error ⟨.valueError, "negative dimensions"⟩
  else .ok (Arr2.ofFn nrows.toNat ncols.toNat f)

/-- `random_patt_uniform`, spherepy.py 1660-1680, for arbitrary random samples `f`, `g`. -/
def randomPatt (f g : Nat → Nat → α) (nrows ncols pt : Int) : Res (SPatt α ⊕ TPatt α) :=
  if ncols % 2 = 1 then .error (raise .valueError "ncols_even")
  else if pt = 0 then
    (randomArr nrows ncols f).bind fun c =>
    (SPatt.init (.arr c) false).bind fun p => .ok (.inl p)
  else if pt = 1 then
    (randomArr nrows ncols f).bind fun t => (randomArr nrows ncols g).bind fun p =>
    (TPatt.init (.arr t) (.arr p) false).bind fun p => .ok (.inr p)
  else .error (raise .typeError "ukn_patt_t")

end

/-! ### Symmetry measure and magnitudes (complex entries) -/

section
open Classical

/-- One update of the running maximum in `single_val` / `_sv`: spherepy.py 1062-1069, 1258-1265. -/
noncomputable def svStep (sv : ℝ) (s t : ℂ) : ℝ :=
  if s ≠ 0 then
    if ‖(s - t) / s‖ ≥ sv then ‖(s - t) / s‖ else sv
  else if t ≠ 0 then
    if 1 ≥ sv then 1 else sv
  else sv

/-- The double loop of `single_val` (sym = 1, spherepy.py 1052-1071) and `_sv` (sym = -1, 1246-1267). -/
noncomputable def svLoop (A : Arr2 ℂ) (sym : ℂ) : ℝ :=
  (List.range A.rows).foldl (fun sv n =>
    (List.range A.cols).foldl (fun sv m =>
      svStep sv (sym * A.at' ((A.rows - n) % A.rows) ((A.cols / 2 + m) % A.cols)) (A.at' n m)) sv) 0

/-- `ScalarPatternUniform.single_val`, spherepy.py 1047-1071. -/
noncomputable def SPatt.singleVal (p : SPatt ℂ) : Res ℝ := p.dsphere.bind fun A => .ok (svLoop A 1)

/-- `ScalarPatternUniform.is_symmetric`, spherepy.py 1038-1045. -/
noncomputable def SPatt.isSymmetric (p : SPatt ℂ) : Res Bool :=
  p.singleVal.bind fun v => .ok (decide (v < 1e-14))

/-- `TransversePatternUniform.single_val`, spherepy.py 1234-1243: note `_tdsphere` twice. -/
noncomputable def TPatt.singleVal (p : TPatt ℂ) : ℝ × ℝ := (svLoop p.td (-1), svLoop p.td (-1))

/-- `TransversePatternUniform.is_symmetric`, spherepy.py 1226-1232. -/
noncomputable def TPatt.isSymmetric (p : TPatt ℂ) : Bool :=
  decide (p.singleVal.1 < 1e-13) && decide (p.singleVal.2 < 1e-13)

/-- `abs(patt)`, spherepy.py 1701-1703 and `mag(patt)`, 1723-1725, for scalar patterns. -/
noncomputable def SPatt.mag (p : SPatt ℂ) : Res (Arr2 ℝ) := p.array.bind fun A => .ok (A.map (‖·‖))

/-- `mag2` of a scalar pattern, spherepy.py 1709-1711. -/
noncomputable def SPatt.mag2 (p : SPatt ℂ) : Res (Arr2 ℝ) :=
  p.array.bind fun A => .ok (A.map (fun x => ‖x‖ ^ 2))

/-- `mag2` of a transverse pattern, spherepy.py 1714-1715. -/
noncomputable def TPatt.mag2 (p : TPatt ℂ) : Arr2 ℝ :=
  p.theta.zip (fun a b => ‖a‖ ^ 2 + ‖b‖ ^ 2) p.phi

/-- `mag` of a transverse pattern, spherepy.py 1728-1729. -/
noncomputable def TPatt.mag (p : TPatt ℂ) : Arr2 ℝ := p.mag2.map Real.sqrt

/-- All entries of an array, row by row.
    NumPy runtime (reductions run over all entries), spherepy.py 2184-2218. -/
def Arr2.toList {α : Type} [Zero α] (A : Arr2 α) : List α :=
  (List.range A.rows).flatMap (fun i => (List.range A.cols).map (fun j => A.at' i j))

/-- `L2_patt` of a scalar pattern's array, spherepy.py 2195-2196. -/
noncomputable def l2Arr (A : Arr2 ℂ) : ℝ := Real.sqrt ((A.toList.map (fun x => ‖x‖ ^ 2)).sum)

/-- `L2_patt` (scalar), spherepy.py 2193-2196. -/
noncomputable def SPatt.l2 (p : SPatt ℂ) : Res ℝ := p.dsphere.bind fun A => .ok (l2Arr A)

/-- `L2_patt` (transverse), spherepy.py 2197-2200. -/
noncomputable def TPatt.l2 (p : TPatt ℂ) : ℝ := Real.sqrt (l2Arr p.td ^ 2 + l2Arr p.pd ^ 2)

/-- `np.max` of a list of reals: raises ValueError on an empty array.
    NumPy runtime; spherepy.py 2202-2218. -/
noncomputable def npMax (l : List ℝ) : Res ℝ :=
  match l with
  | [] => .error ⟨.valueError, "zero-size array to reduction operation"⟩
  | x :: xs => .ok (xs.foldl max x)

/-- `LInf_coef` (scalar), spherepy.py 2202-2205. -/
noncomputable def linfSC (c : ScalarCoefs ℂ) : Res ℝ := npMax (c.vec.map (‖·‖))

/-- `LInf_coef` (vector), spherepy.py 2206-2209. -/
noncomputable def linfVC (c : VectorCoefs ℂ) : Res ℝ :=
  (linfSC c.scoef1).bind fun a => (linfSC c.scoef2).bind fun b => .ok (Real.sqrt (a ^ 2 + b ^ 2))

/-- `LInf_patt` (scalar), spherepy.py 2211-2214. -/
noncomputable def SPatt.linf (p : SPatt ℂ) : Res ℝ := p.dsphere.bind fun A => npMax (A.toList.map (‖·‖))

/-- `LInf_patt` (transverse), spherepy.py 2215-2218. -/
noncomputable def TPatt.linf (p : TPatt ℂ) : Res ℝ :=
  (npMax (p.td.toList.map (‖·‖))).bind fun a => (npMax (p.pd.toList.map (‖·‖))).bind fun b =>
  .ok (Real.sqrt (a ^ 2 + b ^ 2))

end
end Verif
