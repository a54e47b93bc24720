import Verif.Sphi
/-!
# Operators on Fourier data (spherepy/ops.py)

Each function mutates its argument in place; the model returns the new array.  Exact complex arithmetic.
-/
namespace Verif

/-- `A[i, :] = row` for a valid (nonnegative) row index.
    NumPy runtime; ops.py 66, 90-91, 113-119. -/
def Arr2.setRow {α : Type} [Zero α] (A : Arr2 α) (i : Nat) (row : Nat → α) : Arr2 α :=
  Arr2.ofFn A.rows A.cols fun r c => if r = i then row c else A.at' r c

/-- IndexError raised by NumPy for a row index out of range. -/
def rowIndexError {α : Type} : Res α := .error ⟨.indexError, "index"⟩

/-- `fix_even_row_data_fc`, ops.py 55-66: row `L/2` is zeroed when `L` is even (IndexError for 0 rows). -/
def fixEvenRow {α : Type} [Zero α] (f : Arr2 α) : Res (Arr2 α) :=
  if f.rows % 2 = 0 then
    if f.rows = 0 then rowIndexError else .ok (f.setRow (f.rows / 2) fun _ => 0)
  else .ok f

/-- `pad_rows_fdata(fdata, fdata_extended)`, ops.py 68-81, for `fdata_extended` with `Le` rows and as many columns
as `fdata` (its old content is overwritten).  `[-1:-M:-1]` are the last `M-1` rows when `M ≥ 1`; when `M = 0`
(`L ≤ 1`) it is `[-1:0:-1]`, i.e. `Le - 1` target rows and no source row: ValueError unless `Le ≤ 1`. -/
def padRows {α : Type} [Zero α] (f : Arr2 α) (Le : Nat) : Res (Arr2 α) :=
  if Le < f.rows then .error ⟨.exception, "Make sure fdata_extended has equal or more rows than fdata"⟩
  else
    let M := f.rows / 2
    if M = 0 ∧ 2 ≤ Le then .error ⟨.valueError, "broadcast"⟩
    else .ok (Arr2.ofFn Le f.cols fun i j =>
      if i < M then f.at' i j
      else if Le - (M - 1) ≤ i ∧ M ≠ 0 then f.at' (i + f.rows - Le) j
      else 0)

/-- `sin_fc`, ops.py 83-102.  `int(M-1)`, `int(M+1)` with `M = nrows/2`: IndexError for fewer than 3 rows.
`work1[i] = fdata[i-1]`, `work2[i] = fdata[i+1]` cyclically. -/
noncomputable def sinFc (f : Arr2 ℂ) : Res (Arr2 ℂ) :=
  if f.rows < 3 then rowIndexError
  else
    let f := f.setRow ((f.rows - 2) / 2) fun _ => 0
    let f := f.setRow ((f.rows + 2) / 2) fun _ => 0
    .ok (Arr2.ofFn f.rows f.cols fun i j =>
      1.0 / (2 * Complex.I) *
        (f.at' (if i = 0 then f.rows - 1 else i - 1) j - f.at' (if i = f.rows - 1 then 0 else i + 1) j))

/-- One pass of the loop of `divsin_fc`, ops.py 116-117: `g[k-1,:] = 2i fdata[k,:] + g[k+1,:]` (Python indices). -/
noncomputable def divsinStep (f g : Arr2 ℂ) (k : Int) : Arr2 ℂ :=
  g.setRow (Arr2.wrap g.rows (k - 1)) fun j =>
    2 * Complex.I * f.at' (Arr2.wrap f.rows k) j + g.at' (Arr2.wrap g.rows (k + 1)) j

/-- `divsin_fc`, ops.py 104-119.  For fewer than 2 rows `g[L2,:]` raises IndexError; in the loop
`-L2 < k ≤ L2`, so no index is out of range. -/
noncomputable def divsinFc (f : Arr2 ℂ) : Res (Arr2 ℂ) :=
  if f.rows < 2 then rowIndexError
  else
    let L : Int := f.rows / 2
    let L2 := L - 2
    let g := Arr2.ofFn f.rows f.cols fun _ _ => (0 : ℂ)
    let g := g.setRow (Arr2.wrap g.rows L2) fun j => 2 * Complex.I * f.at' (Arr2.wrap f.rows (L - 1)) j
    .ok ((pyRangeNeg L2 (-L2) 1).foldl (divsinStep f) g)

/-- The list `0..B-1, -B..-1` with `B = int(n/2)` used by the derivatives (ops.py 126-130, 146-150). -/
def freqList (n : Nat) (i : Nat) : Int := if i < n / 2 then i else (i : Int) - 2 * (n / 2 : Nat)

/-- `dtheta_fc`, ops.py 121-137: assigning the list of length `2*int(nrows/2)` to a column raises ValueError when
`nrows` is odd. -/
noncomputable def dthetaFc (f : Arr2 ℂ) : Res (Arr2 ℂ) :=
  if f.rows % 2 = 1 ∧ 0 < f.cols then .error ⟨.valueError, "broadcast"⟩
  else .ok (Arr2.ofFn f.rows f.cols fun i j => Complex.I * (freqList f.rows i : ℂ) * f.at' i j)

/-- `dphi_fc`, ops.py 140-157. -/
noncomputable def dphiFc (f : Arr2 ℂ) : Res (Arr2 ℂ) :=
  if f.cols % 2 = 1 ∧ 0 < f.rows then .error ⟨.valueError, "broadcast"⟩
  else .ok (Arr2.ofFn f.rows f.cols fun i j => Complex.I * (freqList f.cols j : ℂ) * f.at' i j)

/-- `sinLdot_fc(tfdata, pfdata)`, ops.py 159-168. -/
noncomputable def sinLdotFc (t p : Arr2 ℂ) : Res (Arr2 ℂ) :=
  (dphiFc t).bind fun t =>
  (sinFc p).bind fun p =>
  (dthetaFc p).bind fun p =>
  .ok (t.zip (fun a b => Complex.I * (a - b)) p)

/-- `L_fc(fdata)`, ops.py 170-180. -/
noncomputable def lFc (f : Arr2 ℂ) : Res (Arr2 ℂ × Arr2 ℂ) :=
  (dphiFc f).bind fun a =>
  (divsinFc a).bind fun a =>
  (dthetaFc f).bind fun b =>
  .ok (a.map (fun x => Complex.I * x), b.map (fun x => -Complex.I * x))

end Verif
