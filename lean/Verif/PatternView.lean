import Verif.Pattern
/-!
# In-place edits of a pattern through the arrays it hands out

`p.array`, `p.cdata` (spherepy.py 1026-1036) and `p.theta`, `p.phi` (1210-1216) return basic slices of the stored double
sphere, i.e. NumPy *views*: assigning into them writes into the stored array.  `Pattern.lean` models the values these
properties show; here the writes are modelled.
-/
namespace Verif
variable {α : Type}

/-- `A[0:k, :][i, j] = x`: one element written through the view of the first `k` rows (NumPy runtime: an index out of
range for the view raises IndexError, negative indices count from the end of the view; views made at spherepy.py 1030, 1036,
1212, 1216). -/
def Arr2.pokeRows (A : Arr2 α) (k : Nat) (i j : Int) (x : α) : Res (Arr2 α) :=
  let h := min k A.rows
  if -(h : Int) ≤ i ∧ i < h ∧ -(A.cols : Int) ≤ j ∧ j < A.cols then
    .ok ⟨A.rows, A.cols, fun r c => if r.val = Arr2.wrap h i ∧ c.val = Arr2.wrap A.cols j then x else A.get r c⟩
  else .error ⟨.indexError, "index out of bounds"⟩

/-- `A[0:k, :][:, :] = B`: all elements of the view written (NumPy runtime; views made at spherepy.py 1030, 1036, 1212, 1216).
Simplification: `B` has to have the shape of the view (no broadcasting); another shape raises ValueError. -/
def Arr2.overwriteRows [Zero α] (A : Arr2 α) (k : Nat) (B : Arr2 α) : Res (Arr2 α) :=
  let h := min k A.rows
  if B.rows = h ∧ B.cols = A.cols then
    .ok (Arr2.ofFn A.rows A.cols fun i j => if i < h then B.at' i j else A.at' i j)
  else .error ⟨.valueError, "could not broadcast"⟩

section
variable [Zero α]

/-- `p.cdata[i, j] = x` (also `p.array[i, j] = x`), spherepy.py 1026-1036. -/
def SPatt.poke [One α] [Neg α] [Add α] [Sub α] [Mul α] [Div α] [OfNat α 2] [DecidableEq α]
    (p : SPatt α) (i j : Int) (x : α) : Res (SPatt α) :=
  p.dsphere.bind fun A => (A.pokeRows (A.rows / 2 + 1) i j x).bind fun D => .ok ⟨.arr D⟩

/-- `p.cdata[:, :] = B`, and any other way to change the samples in place (`a = p.cdata; a *= 2`, ...) with `B` the samples
afterwards, spherepy.py 1026-1036. -/
def SPatt.assign [One α] [Neg α] [Add α] [Sub α] [Mul α] [Div α] [OfNat α 2] [DecidableEq α]
    (p : SPatt α) (B : Arr2 α) : Res (SPatt α) :=
  p.dsphere.bind fun A => (A.overwriteRows (A.rows / 2 + 1) B).bind fun D => .ok ⟨.arr D⟩

/-- `p.theta[:, :] = B`, spherepy.py 1209-1212. -/
def TPatt.assignTheta (p : TPatt α) (B : Arr2 α) : Res (TPatt α) :=
  (p.td.overwriteRows p.nrows B).bind fun D => .ok ⟨D, p.pd⟩

/-- `p.phi[:, :] = B`, spherepy.py 1213-1216. -/
def TPatt.assignPhi (p : TPatt α) (B : Arr2 α) : Res (TPatt α) :=
  (p.pd.overwriteRows p.nrows B).bind fun D => .ok ⟨p.td, D⟩

end
end Verif
