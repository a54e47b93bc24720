import Verif.Pattern
import Verif.Sphi
import Mathlib.Data.Nat.Digits.Lemmas
/-!
# Files (spherepy/file.py)

A text file is a list of characters.  Integer formatting and parsing, `str.split`, `str.strip`, `readlines` are defined
here; the conversion `float <-> text` (`"{:.16e}".format(x)`, `float(s)`) is a parameter `FloatText` (FloatText.lean gives the
concrete one for IEEE doubles).  Simplifications: universal-newline translation, `int()`'s underscores and Unicode digits, and
I/O errors are not modelled; `re + 1j * im` is the complex number with these parts.
-/
namespace Verif

/-- Text: a list of characters.
    Python runtime (str); file.py 61-67, 87-93. -/
abbrev Text := List Char

/-- `s.split(sep)` for a one-character separator (Python runtime). -/
def splitChar (sep : Char) : Text → List Text
  | [] => [[]]
  | c :: cs => if c = sep then [] :: splitChar sep cs else
      match splitChar sep cs with
      | [] => [[c]]
      | h :: t => (c :: h) :: t

/-- `f.readlines()` (Python runtime): lines keep their newline character. -/
def readlines : Text → List Text
  | [] => []
  | c :: cs => if c = '\n' then ['\n'] :: readlines cs else
      match readlines cs with
      | [] => [[c]]
      | l :: ls => (c :: l) :: ls

/-- ASCII white space removed by `strip()`, `int()`, `float()`.
    Python runtime; file.py 104-114, 233. -/
def isWS (c : Char) : Bool := c = ' ' || c = '\n' || c = '\t' || c = '\r'

/-- `s.strip()`.
    Python runtime; file.py 233. -/
def strip (s : Text) : Text := ((s.dropWhile isWS).reverse.dropWhile isWS).reverse

/-- Character of a decimal digit.
    Python runtime (formatting), file.py 64, 90. -/
def digitC (d : Nat) : Char := Char.ofNat (48 + d)

/-- Decimal text of a natural number.
    Python runtime (formatting), file.py 64, 90. -/
def fmtNat (n : Nat) : Text := if n = 0 then ['0'] else (Nat.digits 10 n).reverse.map digitC

/-- `"{0}".format(i)` for an int.
    Python runtime (formatting), file.py 64, 67, 90. -/
def fmtInt (i : Int) : Text := if i < 0 then '-' :: fmtNat i.natAbs else fmtNat i.toNat

/-- Value of a digit string.
    Python runtime (`int`), file.py 104, 111-112, 191-192. -/
def digitsVal (s : Text) : Nat := s.foldl (fun a c => 10 * a + (c.toNat - 48)) 0

/-- A non-empty string of ASCII digits.
    Python runtime (`int`), file.py 104, 111-112. -/
def parseNat (s : Text) : Option Nat :=
  if s = [] ∨ ¬ s.all (fun c => decide (48 ≤ c.toNat ∧ c.toNat ≤ 57)) then none else some (digitsVal s)

/-- `int(s)`: optional sign and digits after stripping; otherwise ValueError.
    Python runtime; file.py 104, 111-112, 191-192, 218-219. -/
def pyInt (s : Text) : Res Int :=
  let r := match strip s with
    | '-' :: t => (parseNat t).map (fun (n : Nat) => -(n : Int))
    | '+' :: t => (parseNat t).map (fun (n : Nat) => (n : Int))
    | t => (parseNat t).map (fun (n : Nat) => (n : Int))
  match r with
  | some i => .ok i
  | none => .error ⟨.valueError, "invalid literal for int()"⟩

/-- Float formatting `"{:.16e}"` and parsing (of stripped text).
    Python runtime; file.py 59, 85, 113-114, 202-203; the concrete instance is in FloatText.lean. -/
structure FloatText where
  fmt : ℝ → Text
  parse : Text → Option ℝ

/-- `float(s)`.
    Python runtime; file.py 113-114, 202-203, 220, 238-239. -/
def FloatText.pyFloat (F : FloatText) (s : Text) : Res ℝ :=
  match F.parse (strip s) with
  | some x => .ok x
  | none => .error ⟨.valueError, "could not convert string to float"⟩

/-- `A[n, m] = v` with Python integer indices. -/
def setIdx2 (A : Arr2 ℂ) (n m : Int) (v : ℂ) : Res (Arr2 ℂ) :=
  let i := if n < 0 then n + A.rows else n
  let j := if m < 0 then m + A.cols else m
  if i < 0 ∨ (A.rows : Int) ≤ i ∨ j < 0 ∨ (A.cols : Int) ≤ j then .error ⟨.indexError, "index"⟩
  else .ok (Arr2.ofFn A.rows A.cols fun a b => if (a : Int) = i ∧ (b : Int) = j then v else A.at' a b)

/-- `save_coef(scoef, filename)`, file.py 71-93: the text written. -/
noncomputable def saveCoef (F : FloatText) (c : ScalarCoefs ℂ) : Res Text :=
  let L := (c.nmax + 1) + c.mmax * (2 * c.nmax - c.mmax + 1)
  forM' (pyRange 0 L) (fmtInt c.nmax ++ ',' :: fmtInt c.mmax ++ ['\n']) fun out n =>
    (getIdx c.vec n).bind fun v => .ok (out ++ (F.fmt v.re ++ ',' :: F.fmt v.im ++ ['\n']))

/-- The loop over the data lines of `load_coef`, file.py 200-204; `enumerate` gives the line number. -/
noncomputable def loadCoefLines (F : FloatText) (lines : List Text) (vec : List ℂ) : Res (List ℂ) :=
  forM' lines.zipIdx vec fun vec ln =>
    let lst := splitChar ',' ln.1
    (getIdx lst 0).bind fun a => (F.pyFloat a).bind fun re =>
    (getIdx lst 1).bind fun b => (F.pyFloat b).bind fun im =>
    setIdx vec (ln.2 : Int) (⟨re, im⟩ : ℂ)

/-- `load_coef(filename)`, file.py 183-206, of a file with this text. -/
noncomputable def loadCoef (F : FloatText) (text : Text) : Res (ScalarCoefs ℂ) :=
  let lines := readlines text
  (getIdx lines 0).bind fun l0 =>
  let lst := splitChar ',' l0
  (getIdx lst 0).bind fun a => (pyInt a).bind fun nmax =>
  (getIdx lst 1).bind fun b => (pyInt b).bind fun mmax =>
  (npFull ((nmax + 1) + mmax * (2 * nmax - mmax + 1)) (0 : ℂ)).bind fun vec =>
  (loadCoefLines F (lines.drop 1) vec).bind fun vec =>
  ScalarCoefs.init (.arr vec) nmax mmax

/-- `save_patt(patt, filename)`, file.py 44-68: the text written. -/
noncomputable def savePatt (F : FloatText) (p : SPatt ℂ) : Res Text :=
  p.nrows.bind fun nrows => p.ncols.bind fun ncols => p.array.bind fun ar =>
  .ok ((List.range nrows).foldl (fun out (nr : Nat) => (List.range ncols).foldl (fun out (nc : Nat) =>
      out ++ (fmtInt (nr : Int) ++ ',' :: fmtInt (nc : Int) ++ ',' :: F.fmt (ar.at' nr nc).re ++ ',' :: F.fmt (ar.at' nr nc).im ++ ['\n']))
      out) (fmtInt (nrows : Int) ++ ',' :: fmtInt (ncols : Int) ++ ['\n']))

/-- The common body of `load_patt`, `load_vpatt`, `load_fdata`, file.py 99-115, 123-139, 141-157, 163-179. -/
noncomputable def loadArray (F : FloatText) (text : Text) : Res (Arr2 ℂ) :=
  let lines := readlines text
  (getIdx lines 0).bind fun l0 =>
  let lst := splitChar ',' l0
  (getIdx lst 0).bind fun a => (pyInt a).bind fun r =>
  (getIdx lst 1).bind fun b => (pyInt b).bind fun c =>
  (npZeros2 r c).bind fun patt =>
  forM' (lines.drop 1) patt fun patt line =>
    let lst := splitChar ',' line
    (getIdx lst 0).bind fun a => (pyInt a).bind fun n =>
    (getIdx lst 1).bind fun b => (pyInt b).bind fun m =>
    (getIdx lst 2).bind fun c => (F.pyFloat c).bind fun re =>
    (getIdx lst 3).bind fun d => (F.pyFloat d).bind fun im =>
    setIdx2 patt n m ⟨re, im⟩

/-- `load_patt(filename)`, file.py 96-117. -/
noncomputable def loadPatt (F : FloatText) (text : Text) : Res (SPatt ℂ) :=
  (loadArray F text).bind fun A => SPatt.init (.arr A) false

/-- `load_vpatt(filename1, filename2)`, file.py 119-159 (`doublesphere` defaults to False). -/
noncomputable def loadVpatt (F : FloatText) (text1 text2 : Text) : Res (TPatt ℂ) :=
  (loadArray F text1).bind fun A => (loadArray F text2).bind fun B => TPatt.init (.arr A) (.arr B) false

/-- `load_fdata(filename)`, file.py 161-181. -/
noncomputable def loadFdata (F : FloatText) (text : Text) : Res (Arr2 ℂ) := loadArray F text

/-- State of the `load_vcoef` line loop: both vectors, the counter, the flag `in_vec2`.
    file.py 224-249. -/
structure VcState where
  vec1 : List ℂ
  vec2 : List ℂ
  n : Int
  inVec2 : Bool

/-- One pass of the line loop of `load_vcoef`, file.py 231-246. -/
noncomputable def vcStep (F : FloatText) (s : VcState) (line : Text) : Res VcState :=
  if strip line = "break".toList then .ok { s with n := 0, inVec2 := true }
  else
    let lst := splitChar ',' line
    (getIdx lst 0).bind fun a => (F.pyFloat a).bind fun re =>
    (getIdx lst 1).bind fun b => (F.pyFloat b).bind fun im =>
    if s.inVec2 then (setIdx s.vec2 s.n ⟨re, im⟩).bind fun v => .ok { s with vec2 := v, n := s.n + 1 }
    else (setIdx s.vec1 s.n ⟨re, im⟩).bind fun v => .ok { s with vec1 := v, n := s.n + 1 }

/-- `load_vcoef(filename)`, file.py 208-248. -/
noncomputable def loadVcoef (F : FloatText) (text : Text) : Res (VectorCoefs ℂ × ℝ) :=
  let lines := readlines text
  (getIdx lines 0).bind fun l0 =>
  let lst := splitChar ',' l0
  (getIdx lst 0).bind fun a => (pyInt a).bind fun nmax =>
  (getIdx lst 1).bind fun b => (pyInt b).bind fun mmax =>
  (getIdx lst 2).bind fun c => (F.pyFloat c).bind fun directivity =>
  (npFull ((nmax + 1) + mmax * (2 * nmax - mmax + 1)) (0 : ℂ)).bind fun vec1 =>
  (npFull ((nmax + 1) + mmax * (2 * nmax - mmax + 1)) (0 : ℂ)).bind fun vec2 =>
  (forM' (lines.drop 1) ⟨vec1, vec2, 0, false⟩ (vcStep F)).bind fun s =>
  (VectorCoefs.init (.arr s.vec1) (.arr s.vec2) nmax mmax).bind fun v => .ok (v, directivity)

end Verif
