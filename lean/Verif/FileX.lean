import Verif.FloatText
/-!
# Files with infinities, NaN and signed zeros (spherepy/file.py)

The same functions as in File.lean, but on all IEEE binary64 values: what `save_coef` / `save_patt` write for an infinity, a NaN or
a negative zero, what `float()` makes of that text, and the expression `re + 1j * im` (file.py 115, 138, 156, 179, 204, 243, 245)
evaluated the way CPython evaluates it up to version 3.13: a `float` operand of a `complex` operation is first converted to a
`complex` with imaginary part `+0.0`, and a product is `(ac - bd) + (ad + bc)j` with four rounded products.  The rounding of a
finite result is the parameter `rnd`.  Simplifications as in File.lean; the sign and the payload of a NaN are not represented
(`"{:.16e}"` writes `nan` for all of them).
-/
namespace Verif

/-- IEEE binary64 values; `true` is a set sign bit.  `fin x` is meant for finite doubles `x ≠ 0` (`IE.WF`).
    CPython / NumPy runtime; the parts of the entries saved at file.py 67-68, 92-93 and loaded at 113-115, 202-204. -/
inductive IE where
  | nan
  | inf (neg : Bool)
  | zero (neg : Bool)
  | fin (x : ℝ)

/-- `0` is `+0.0` (what `np.zeros` holds).  NumPy runtime; file.py 104, 170. -/
instance : Zero IE := ⟨.zero false⟩

/-- The values that exist: `fin` holds a non-zero finite double.
    CPython / NumPy runtime (binary64). -/
def IE.WF : IE → Prop
  | .fin x => IsDouble x ∧ x ≠ 0
  | _ => True

namespace IE

open Classical in
/-- A finite result `r` (already rounded), with the sign to give it if it is zero; beyond the largest double: an infinity.
    CPython runtime (float arithmetic). -/
noncomputable def ofReal (neg : Bool) (r : ℝ) : IE :=
  if r = 0 then .zero neg else if 2 ^ 1024 ≤ |r| then .inf (decide (r < 0)) else .fin r

/-- `-x`, CPython runtime. -/
def neg : IE → IE
  | .nan => .nan
  | .inf s => .inf (!s)
  | .zero s => .zero (!s)
  | .fin x => .fin (-x)

open Classical in
/-- The sign bit.  CPython runtime. -/
noncomputable def sign : IE → Bool
  | .nan => false
  | .inf s => s
  | .zero s => s
  | .fin x => decide (x < 0)

open Classical in
/-- `x * y` on floats: IEEE 754.  CPython runtime; file.py 115, 204 (inside the complex product). -/
noncomputable def mul (rnd : ℝ → ℝ) (a b : IE) : IE :=
  match a, b with
  | .nan, _ => .nan
  | _, .nan => .nan
  | .inf _, .zero _ => .nan
  | .zero _, .inf _ => .nan
  | .inf _, _ => .inf (xor a.sign b.sign)
  | _, .inf _ => .inf (xor a.sign b.sign)
  | .zero _, _ => .zero (xor a.sign b.sign)
  | _, .zero _ => .zero (xor a.sign b.sign)
  | .fin x, .fin y => ofReal (xor a.sign b.sign) (rnd (x * y))

/-- `x + y` on floats: IEEE 754, round to nearest (an exact zero sum of non-zero numbers is `+0.0`).
    CPython runtime; file.py 115, 204. -/
noncomputable def add (rnd : ℝ → ℝ) (a b : IE) : IE :=
  match a, b with
  | .nan, _ => .nan
  | _, .nan => .nan
  | .inf s, .inf t => if s = t then .inf s else .nan
  | .inf s, _ => .inf s
  | _, .inf t => .inf t
  | .zero s, .zero t => .zero (s && t)
  | .zero _, .fin y => .fin y
  | .fin x, .zero _ => .fin x
  | .fin x, .fin y => ofReal false (rnd (x + y))

/-- `x - y` on floats.  CPython runtime. -/
noncomputable def sub (rnd : ℝ → ℝ) (a b : IE) : IE := add rnd a (neg b)

/-- `z + w` on complex numbers.  CPython runtime (`_Py_c_sum`); file.py 115, 204. -/
noncomputable def cadd (rnd : ℝ → ℝ) (z w : IE × IE) : IE × IE := (add rnd z.1 w.1, add rnd z.2 w.2)

/-- `z * w` on complex numbers.  CPython runtime (`_Py_c_prod` up to 3.13); file.py 115, 204. -/
noncomputable def cmul (rnd : ℝ → ℝ) (z w : IE × IE) : IE × IE :=
  (sub rnd (mul rnd z.1 w.1) (mul rnd z.2 w.2), add rnd (mul rnd z.1 w.2) (mul rnd z.2 w.1))

/-- `complex(x)` of a float operand.  CPython runtime (`to_complex`); file.py 115, 204. -/
def toC (x : IE) : IE × IE := (x, .zero false)

/-- `re + 1j * im` for two floats, file.py 115, 138, 156, 179, 204, 243, 245. -/
noncomputable def entry (rnd : ℝ → ℝ) (re im : IE) : IE × IE :=
  cadd rnd (toC re) (cmul rnd (.zero false, .fin 1) (toC im))

/-- `"{:.16e}".format(x)`, file.py 59, 85. -/
noncomputable def fmt : IE → Text
  | .nan => "nan".toList
  | .inf s => if s then "-inf".toList else "inf".toList
  | .zero s => if s then '-' :: fmtFloat 0 else fmtFloat 0
  | .fin x => fmtFloat x

/-- The non-numeric literals `float()` accepts (any case, optional sign).  Python runtime; file.py 113-114, 202-203. -/
def special (s : Text) : Option IE :=
  let u := s.map Char.toLower
  if u = "nan".toList ∨ u = "+nan".toList ∨ u = "-nan".toList then some .nan
  else if u = "inf".toList ∨ u = "+inf".toList ∨ u = "infinity".toList ∨ u = "+infinity".toList then some (.inf false)
  else if u = "-inf".toList ∨ u = "-infinity".toList then some (.inf true)
  else none

open Classical in
/-- The double nearest to the decimal value `v` written with or without a minus sign; from half a unit beyond the largest double
    on, an infinity.  Python runtime (`float`); file.py 113-114, 202-203. -/
noncomputable def ofDec (neg : Bool) (v : ℝ) : Option IE :=
  if (2 : ℝ) ^ 1024 - 2 ^ 970 ≤ |v| then some (.inf neg)
  else (toDouble v).map fun d => if d = 0 then .zero neg else .fin d

/-- `float(s)` of a stripped text; `none` is a ValueError.  Python runtime; file.py 113-114, 202-203, 238-239. -/
noncomputable def parse (s : Text) : Option IE :=
  match special s with
  | some x => some x
  | none => (parseDec s).bind (ofDec (s.head? = some '-'))

/-- `float(s)`.  Python runtime; file.py 113-114, 202-203, 220, 238-239. -/
noncomputable def pyFloat (s : Text) : Res IE :=
  match parse (strip s) with
  | some x => .ok x
  | none => .error ⟨.valueError, "could not convert string to float"⟩

end IE

/-- `save_coef(scoef, filename)`, file.py 71-93: the text written. -/
noncomputable def saveCoefX (c : ScalarCoefs (IE × IE)) : Res Text :=
  let L := (c.nmax + 1) + c.mmax * (2 * c.nmax - c.mmax + 1)
  forM' (pyRange 0 L) (fmtInt c.nmax ++ ',' :: fmtInt c.mmax ++ ['\n']) fun out n =>
    (getIdx c.vec n).bind fun v => .ok (out ++ (v.1.fmt ++ ',' :: v.2.fmt ++ ['\n']))

/-- The loop over the data lines of `load_coef`, file.py 200-204. -/
noncomputable def loadCoefLinesX (rnd : ℝ → ℝ) (lines : List Text) (vec : List (IE × IE)) : Res (List (IE × IE)) :=
  forM' lines.zipIdx vec fun vec ln =>
    let lst := splitChar ',' ln.1
    (getIdx lst 0).bind fun a => (IE.pyFloat a).bind fun re =>
    (getIdx lst 1).bind fun b => (IE.pyFloat b).bind fun im =>
    setIdx vec (ln.2 : Int) (IE.entry rnd re im)

/-- `load_coef(filename)`, file.py 183-206, of a file with this text (`np.zeros` holds `+0.0` in both parts). -/
noncomputable def loadCoefX (rnd : ℝ → ℝ) (text : Text) : Res (ScalarCoefs (IE × IE)) :=
  let lines := readlines text
  (getIdx lines 0).bind fun l0 =>
  let lst := splitChar ',' l0
  (getIdx lst 0).bind fun a => (pyInt a).bind fun nmax =>
  (getIdx lst 1).bind fun b => (pyInt b).bind fun mmax =>
  (npFull ((nmax + 1) + mmax * (2 * nmax - mmax + 1)) (IE.zero false, IE.zero false)).bind fun vec =>
  (loadCoefLinesX rnd (lines.drop 1) vec).bind fun vec =>
  ScalarCoefs.init (.arr vec) nmax mmax

/-- The text `save_patt` writes for the samples `ar = patt.array`, file.py 57-68. -/
noncomputable def saveArrX (ar : Arr2 (IE × IE)) : Text :=
  (List.range ar.rows).foldl (fun out (nr : Nat) => (List.range ar.cols).foldl (fun out (nc : Nat) =>
      out ++ (fmtInt (nr : Int) ++ ',' :: fmtInt (nc : Int) ++ ',' :: (ar.at' nr nc).1.fmt ++ ',' :: (ar.at' nr nc).2.fmt ++ ['\n']))
      out) (fmtInt (ar.rows : Int) ++ ',' :: fmtInt (ar.cols : Int) ++ ['\n'])

/-- `A[n, m] = v` with Python integer indices.  NumPy runtime; file.py 115, 179. -/
def setIdx2X (A : Arr2 (IE × IE)) (n m : Int) (v : IE × IE) : Res (Arr2 (IE × IE)) :=
  let i := if n < 0 then n + A.rows else n
  let j := if m < 0 then m + A.cols else m
  if i < 0 ∨ (A.rows : Int) ≤ i ∨ j < 0 ∨ (A.cols : Int) ≤ j then .error ⟨.indexError, "index"⟩
  else .ok (Arr2.ofFn A.rows A.cols fun a b => if (a : Int) = i ∧ (b : Int) = j then v else A.at' a b)

/-- `load_fdata(filename)`, file.py 161-181; also the common body of `load_patt` and `load_vpatt`, file.py 99-115, 123-157. -/
noncomputable def loadFdataX (rnd : ℝ → ℝ) (text : Text) : Res (Arr2 (IE × IE)) :=
  let lines := readlines text
  (getIdx lines 0).bind fun l0 =>
  let lst := splitChar ',' l0
  (getIdx lst 0).bind fun a => (pyInt a).bind fun r =>
  (getIdx lst 1).bind fun b => (pyInt b).bind fun c =>
  (npFull2 r c (IE.zero false, IE.zero false)).bind fun patt =>
  forM' (lines.drop 1) patt fun patt line =>
    let lst := splitChar ',' line
    (getIdx lst 0).bind fun a => (pyInt a).bind fun n =>
    (getIdx lst 1).bind fun b => (pyInt b).bind fun m =>
    (getIdx lst 2).bind fun c => (IE.pyFloat c).bind fun re =>
    (getIdx lst 3).bind fun d => (IE.pyFloat d).bind fun im =>
    setIdx2X patt n m (IE.entry rnd re im)

end Verif
