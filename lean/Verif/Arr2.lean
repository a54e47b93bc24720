import Verif.Py
/-!
# 2-D NumPy arrays

`Arr2 α` models a 2-D `numpy.ndarray`: a shape and one element per in-range position.  This models
the NumPy runtime, not a file of /repo.
-/
namespace Verif

/-- A 2-D array of shape `(rows, cols)`. -/
structure Arr2 (α : Type) where
  rows : Nat
  cols : Nat
  get : Fin rows → Fin cols → α

namespace Arr2
variable {α β γ : Type}

/-- Array comprehension: the array whose `[i,j]` entry is `f i j`. -/
def ofFn (r c : Nat) (f : Nat → Nat → α) : Arr2 α := ⟨r, c, fun i j => f i.val j.val⟩

/-- Read `A[i,j]`, natural-number indices; positions outside the array read as `0`.  The modelled
code only reads in-range positions through `at` (range facts are proved where it matters). -/
def at' [Zero α] (A : Arr2 α) (i j : Nat) : α :=
  if h : i < A.rows ∧ j < A.cols then A.get ⟨i, h.1⟩ ⟨j, h.2⟩ else 0

/-- Python integer index into an axis of length `n`: negative counts from the end. -/
def wrap (n : Nat) (i : Int) : Nat := if i < 0 then (i + n).toNat else i.toNat

/-- Elementwise unary operation. -/
def map (f : α → β) (A : Arr2 α) : Arr2 β := ⟨A.rows, A.cols, fun i j => f (A.get i j)⟩

/-- Elementwise binary operation on arrays of the same shape (`0` outside the common part; callers
check shapes first, as the code does). -/
def zip [Zero α] [Zero β] (f : α → β → γ) (A : Arr2 α) (B : Arr2 β) : Arr2 γ :=
  ofFn A.rows A.cols (fun i j => f (A.at' i j) (B.at' i j))

/-- `A[0:k, :]`. -/
def takeRows [Zero α] (A : Arr2 α) (k : Nat) : Arr2 α :=
  ofFn (min k A.rows) A.cols (fun i j => A.at' i j)

@[simp] theorem rows_ofFn (r c : Nat) (f : Nat → Nat → α) : (ofFn r c f).rows = r := rfl
@[simp] theorem cols_ofFn (r c : Nat) (f : Nat → Nat → α) : (ofFn r c f).cols = c := rfl
@[simp] theorem rows_map (f : α → β) (A : Arr2 α) : (A.map f).rows = A.rows := rfl
@[simp] theorem cols_map (f : α → β) (A : Arr2 α) : (A.map f).cols = A.cols := rfl
@[simp] theorem rows_zip [Zero α] [Zero β] (f : α → β → γ) (A : Arr2 α) (B : Arr2 β) :
    (A.zip f B).rows = A.rows := rfl
@[simp] theorem cols_zip [Zero α] [Zero β] (f : α → β → γ) (A : Arr2 α) (B : Arr2 β) :
    (A.zip f B).cols = A.cols := rfl

theorem at'_ofFn [Zero α] {r c : Nat} {f : Nat → Nat → α} {i j : Nat} (hi : i < r) (hj : j < c) :
    (ofFn r c f).at' i j = f i j := by
  simp [at', ofFn, hi, hj]

theorem at'_of_lt [Zero α] (A : Arr2 α) {i j : Nat} (hi : i < A.rows) (hj : j < A.cols) :
    A.at' i j = A.get ⟨i, hi⟩ ⟨j, hj⟩ := by
  simp [at', hi, hj]

theorem at'_of_not [Zero α] (A : Arr2 α) {i j : Nat} (h : ¬ (i < A.rows ∧ j < A.cols)) :
    A.at' i j = 0 := by
  unfold at'; rw [dif_neg h]

theorem at'_map [Zero α] [Zero β] (f : α → β) (A : Arr2 α) {i j : Nat} (hi : i < A.rows)
    (hj : j < A.cols) : (A.map f).at' i j = f (A.at' i j) := by
  rw [at'_of_lt _ hi hj, at'_of_lt (A.map f) hi hj]; rfl

theorem at'_zip [Zero α] [Zero β] [Zero γ] (f : α → β → γ) (A : Arr2 α) (B : Arr2 β) {i j : Nat}
    (hi : i < A.rows) (hj : j < A.cols) :
    (A.zip f B).at' i j = f (A.at' i j) (B.at' i j) := at'_ofFn hi hj

/-- Two arrays with the same shape and the same entries are equal. -/
theorem ext' [Zero α] {A B : Arr2 α} (hr : A.rows = B.rows) (hc : A.cols = B.cols)
    (h : ∀ i j, i < A.rows → j < A.cols → A.at' i j = B.at' i j) : A = B := by
  obtain ⟨r, c, f⟩ := A
  obtain ⟨r', c', g⟩ := B
  simp only at hr hc
  subst hr hc
  congr 1
  funext i j
  have := h i.val j.val i.isLt j.isLt
  rwa [at'_of_lt _ i.isLt j.isLt, at'_of_lt _ i.isLt j.isLt] at this

end Arr2
end Verif
