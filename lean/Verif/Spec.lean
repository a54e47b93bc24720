import Verif.Coefs
import Mathlib.Data.Int.Interval
import Mathlib.Data.Finset.Prod
import Mathlib.Algebra.Order.Group.Int
import Mathlib.Algebra.Order.Group.Unbundled.Abs
/-!
# Specification vocabulary

Small definitions in which the property theorems are stated.  They do not use the helpers of the
model: they only mention the mode set and the public state (`nmax`, `mmax`, the vector).
-/
namespace Verif

/-- `(n, m)` is a mode of a coefficient set with limits `nmax`, `mmax`. -/
def IsMode (nmax mmax n m : Int) : Prop :=
  0 ≤ n ∧ n ≤ nmax ∧ |m| ≤ n ∧ |m| ≤ mmax

instance (nmax mmax n m : Int) : Decidable (IsMode nmax mmax n m) := by
  unfold IsMode; infer_instance

/-- What the four operators mean on numbers. -/
def specOp {α : Type} [Add α] [Sub α] [Mul α] [Div α] (op : Op) (x y : α) : α :=
  match op with
  | .add => x + y
  | .sub => x - y
  | .mul => x * y
  | .div => x / y

theorem eval_specOp {α : Type} [Add α] [Sub α] [Mul α] [Div α] (op : Op) : (op.eval : α → α → α) = specOp op := by
  cases op <;> rfl

/-- The finite set of all modes. -/
def modes (nmax mmax : Int) : Finset (Int × Int) :=
  (Finset.Icc 0 nmax ×ˢ Finset.Icc (-mmax) mmax).filter (fun p => |p.2| ≤ p.1)

/-- A well-formed coefficient set: `0 ≤ mmax ≤ nmax` and one stored value per mode. -/
structure ScalarCoefs.WellFormed {α : Type} (c : ScalarCoefs α) : Prop where
  mmax_nonneg : 0 ≤ c.mmax
  mmax_le : c.mmax ≤ c.nmax
  length_eq : c.vec.length = (modes c.nmax c.mmax).card

/-- A well-formed vector coefficient set: two well-formed scalar sets with the object's limits. -/
structure VectorCoefs.WellFormed {α : Type} (c : VectorCoefs α) : Prop where
  wf1 : c.scoef1.WellFormed
  wf2 : c.scoef2.WellFormed
  n1 : c.scoef1.nmax = c.nmax
  n2 : c.scoef2.nmax = c.nmax
  m1 : c.scoef1.mmax = c.mmax
  m2 : c.scoef2.mmax = c.mmax

end Verif
