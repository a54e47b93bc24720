import Verif.Fourier
/-!
# C arrays

Bounds-checked access to C arrays: any access outside the allocated array is undefined behaviour, reported as such.
`int` is modelled by unbounded integers (32-bit overflow: see CInt.lean).  Models the C language, not a file of
/repo.
-/
namespace Verif

/-- Undefined behaviour. -/
def cUB {α : Type} : Res α := .error ⟨.undefinedBehaviour, "out of bounds"⟩

/-- `a[i]`. -/
def cGet {α : Type} (l : List α) (i : Int) : Res α :=
  if 0 ≤ i then match l[i.toNat]? with
    | some v => .ok v
    | none => cUB
  else cUB

/-- `a[i] = v`. -/
def cSet {α : Type} (l : List α) (i : Int) (v : α) : Res (List α) :=
  if 0 ≤ i ∧ i < l.length then .ok (l.set i.toNat v) else cUB

/-- `malloc(n * sizeof(...))`: the content is arbitrary (`junk`); a negative size is undefined behaviour at the first
use (malloc of a huge size returns NULL). -/
def cMalloc {α : Type} (n : Int) (junk : Nat → α) : Res (List α) :=
  if n < 0 then cUB else .ok (tab n.toNat junk)

/-- `memset(a, 0, n * sizeof(...))`. -/
def cMemset0 {α : Type} [Zero α] (l : List α) (n : Int) : Res (List α) :=
  if 0 ≤ n ∧ n ≤ l.length then .ok (tab l.length fun i => if (i : Int) < n then 0 else rd l i) else cUB

theorem cGet_ok {α : Type} [Zero α] {l : List α} {i : Nat} (h : i < l.length) : cGet l (i : Int) = .ok (rd l i) := by
  unfold cGet
  rw [if_pos (by omega)]
  simp [rd, h]

theorem cSet_ok {α : Type} {l : List α} {i : Nat} {v : α} (h : i < l.length) : cSet l (i : Int) v = .ok (l.set i v) := by
  unfold cSet
  rw [if_pos (by omega)]
  simp

theorem rd_set' {α : Type} [Zero α] (l : List α) (i j : ℕ) (v : α) (hi : i < l.length) :
    rd (l.set i v) j = if j = i then v else rd l j := by
  unfold rd
  by_cases h : j = i
  · subst h; simp [hi]
  · rw [if_neg h, List.getD_eq_getElem?_getD, List.getElem?_set_ne (by omega), ← List.getD_eq_getElem?_getD]

end Verif
