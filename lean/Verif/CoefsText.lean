import Verif.CoefsFn
import Verif.File
import Verif.Pattern
/-!
# Text representations of coefficient sets, `random_coefs`, and the dispatch functions

`rep` is Python's `repr` of one coefficient; it is a parameter.
-/
namespace Verif

/-- `sep.join(parts)` (Python runtime). -/
def joinText (sep : Text) : List Text → Text
  | [] => []
  | [x] => x
  | x :: y :: xs => x ++ sep ++ joinText sep (y :: xs)

/-- `str(lst)` of a Python list: `[a, b, c]` (Python runtime). -/
def listText {α : Type} (rep : α → Text) (l : List α) : Text := '[' :: joinText (", ".toList) (l.map rep) ++ [']']

/-- The header of `ScalarCoefs.__str__`, spherepy.py 363-364. -/
def strHeader (nmax mmax : Int) : Text :=
  "ScalarCoefs(nmax = ".toList ++ fmtInt nmax ++ ", mmax = ".toList ++ fmtInt mmax ++ "):".toList

/-- `ScalarCoefs.__str__`, spherepy.py 361-369. -/
def ScalarCoefs.str {α : Type} (rep : α → Text) (c : ScalarCoefs α) : Res Text :=
  c.reshapeM.bind fun rs =>
  .ok (joinText ['\n'] (strHeader c.nmax c.mmax ::
    rs.mapIdx fun n x => "n = ".toList ++ fmtInt n ++ " :: ".toList ++ listText rep x))

/-- `ScalarCoefs.__repr__`, spherepy.py 356-359. -/
def ScalarCoefs.repr' {α : Type} (rep : α → Text) (c : ScalarCoefs α) : Res Text :=
  c.reshapeM.bind fun rs =>
  .ok ("ScalarCoefs((nmax = ".toList ++ fmtInt c.nmax ++ ", mmax = ".toList ++ fmtInt c.mmax ++ ") , ".toList ++
    listText (listText rep) rs ++ " )".toList)

/-- `VectorCoefs.__repr__`, spherepy.py 713-715 (`str(vc)` is the same text: there is no `__str__`). -/
def VectorCoefs.repr' {α : Type} (c : VectorCoefs α) : Text :=
  "VectorCoefs(nmax = ".toList ++ fmtInt c.nmax ++ ", mmax = ".toList ++ fmtInt c.mmax ++ ")".toList

/-- `VectorCoefs._reshape_m_vecs`, spherepy.py 707-711. -/
def VectorCoefs.reshapeM {α : Type} (c : VectorCoefs α) : Res (List (List α) × List (List α)) :=
  c.scoef1.reshapeM.bind fun a => c.scoef2.reshapeM.bind fun b => .ok (a, b)

/-- `VectorCoefs._reshape_n_vecs`, spherepy.py 701-705. -/
def VectorCoefs.reshapeN {α : Type} (c : VectorCoefs α) : Res (List (List α) × List (List α)) :=
  c.scoef1.reshapeN.bind fun a => c.scoef2.reshapeN.bind fun b => .ok (a, b)

/-- `VectorCoefs._array_2d_repr`, spherepy.py 693-699. -/
def VectorCoefs.array2d {α : Type} [Zero α] (c : VectorCoefs α) : Res (Arr2 α × Arr2 α) :=
  c.scoef1.array2d.bind fun a => c.scoef2.array2d.bind fun b => .ok (a, b)

/-- `_tiny_rep`, spherepy.py 1784-1788: `fmt` is `"{0:.2}".format`; outer parentheses are removed.  `sr[0]` of an empty string raises IndexError. -/
def tinyRep {α : Type} (fmt : α → Text) (x : α) : Res Text :=
  match fmt x with
  | [] => .error ⟨.indexError, "string index out of range"⟩
  | c :: cs => if c = '(' then .ok cs.dropLast else .ok (c :: cs)

/-! ## `random_coefs` -/

/-- `np.random.normal(mu, sigma, L)` (NumPy runtime): `z` is the stream of standard normal numbers still to be drawn;
the result is `mu + sigma * z_i` for the next `L` numbers.  A negative standard deviation or size raises ValueError. -/
noncomputable def npNormal (z : Nat → ℝ) (mu sigma : ℝ) (L : Int) : Res (List ℝ × (Nat → ℝ)) :=
  if sigma < 0 then .error ⟨.valueError, "scale < 0"⟩
  else if L < 0 then .error ⟨.valueError, "negative dimensions are not allowed"⟩
  else .ok ((List.range L.toNat).map (fun i => mu + sigma * z i), fun i => z (L.toNat + i))

/-- `np.random.normal(mu, sigma, L) + 1j * np.random.normal(mu, sigma, L)`, spherepy.py 1510-1511, 1515-1516, 1518-1519. -/
noncomputable def rndVec (z : Nat → ℝ) (mu sigma : ℝ) (L : Int) : Res (List ℂ × (Nat → ℝ)) :=
  (npNormal z mu sigma L).bind fun a => (npNormal a.2 mu sigma L).bind fun b =>
  .ok (List.zipWith (fun (x y : ℝ) => (x : ℂ) + Complex.I * y) a.1 b.1, b.2)

/-- `random_coefs(nmax, mmax, mu, sigma, coef_type)`, spherepy.py 1472-1523; `z` is the stream of random numbers. -/
noncomputable def randomCoefs (z : Nat → ℝ) (nmax mmax : Int) (mu sigma : ℝ) (coefType : Int) :
    Res (ScalarCoefs ℂ ⊕ VectorCoefs ℂ) :=
  if mmax > nmax then .error (raise .valueError "nmax_g_mmax")
  else if coefType = 0 then
    (rndVec z mu sigma (lFormula nmax mmax)).bind fun v =>
    (ScalarCoefs.init (.arr v.1) nmax mmax).bind fun c => .ok (.inl c)
  else if coefType = 1 then
    (rndVec z mu sigma (lFormula nmax mmax)).bind fun v1 =>
    (setIdx v1.1 0 0).bind fun vec1 =>
    (rndVec v1.2 mu sigma (lFormula nmax mmax)).bind fun v2 =>
    (setIdx v2.1 0 0).bind fun vec2 =>
    (VectorCoefs.init (.arr vec1) (.arr vec2) nmax mmax).bind fun c => .ok (.inr c)
  else .error (raise .typeError "ukn_coef_t")

/-! ## Dispatch on the type of the argument -/

/-- What can be passed to `array`, `abs`, `mag`, `mag2`: a pattern, a coefficient set, or anything else.
    spherepy.py 1692-1734. -/
inductive SObj where
  | spatt (p : SPatt ℂ)
  | tpatt (p : TPatt ℂ)
  | scoef (c : ScalarCoefs ℂ)
  | vcoef (c : VectorCoefs ℂ)
  | other

/-- What `array`, `abs`, `mag`, `mag2` return.
    spherepy.py 1692-1734. -/
inductive SRes where
  | arr (A : Arr2 ℂ)
  | pair (T P : Arr2 ℂ)
  | rarr (A : Arr2 ℝ)
  | coef (c : ScalarCoefs ℝ)

/-- `array(patt)`, spherepy.py 1692-1699; the `array` attributes are 1026-1028 and 1205-1208. -/
noncomputable def arrayFn : SObj → Res SRes
  | .spatt p => p.array.bind fun A => .ok (.arr A)
  | .tpatt p => .ok (.pair p.theta p.phi)
  | _ => .error (raise .typeError "uknown_typ")

/-- `abs(sobj)`, spherepy.py 1701-1707. -/
noncomputable def absFn : SObj → Res SRes
  | .spatt p => p.mag.bind fun A => .ok (.rarr A)
  | .scoef c => (absSC c).bind fun d => .ok (.coef d)
  | _ => .error (raise .typeError "uknown_typ")

/-- `mag2(sobj)`, spherepy.py 1709-1721. -/
noncomputable def mag2Fn : SObj → Res SRes
  | .spatt p => p.mag2.bind fun A => .ok (.rarr A)
  | .scoef c => (mag2SC c).bind fun d => .ok (.coef d)
  | .tpatt p => .ok (.rarr p.mag2)
  | .vcoef c => (mag2VC c).bind fun d => .ok (.coef d)
  | .other => .error (raise .typeError "uknown_typ")

/-- `mag(sobj)`, spherepy.py 1723-1734. -/
noncomputable def magFn : SObj → Res SRes
  | .spatt p => p.mag.bind fun A => .ok (.rarr A)
  | .scoef c => (absSC c).bind fun d => .ok (.coef d)
  | .tpatt p => .ok (.rarr p.mag)
  | .vcoef c => (magVC c).bind fun d => .ok (.coef d)
  | .other => .error (raise .typeError "uknown_typ")

/-- `zeros_patt_nonuniform`, `ones_patt_nonuniform`, `random_patt_nonuniform`, spherepy.py 1682-1689: not implemented. -/
def pattNonuniform {α : Type} : Res α := .error ⟨.notImplementedError, ""⟩

end Verif
