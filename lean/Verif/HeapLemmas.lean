import Verif.Heap
import Verif.CoefsLemmas
/-!
# Symbolic execution of the heap model

`Ref h r v R`: the run `r` (result and memory) started from a memory extending `h` left `h` itself untouched, raised exactly
the exception of the value-level computation `v`, or returned a result related to the value by `R`.
-/
namespace Verif

/-- See the file header. `t` is the memory allocated beyond `h`. -/
def Ref {α β : Type} (h : Heap) (r : Res α × Heap) (v : Res β) (R : α → β → List Cell → Prop) : Prop :=
  ∃ t, r.2 = h ++ t ∧ match r.1, v with
    | .ok a, .ok b => R a b t
    | .error e, .error e' => e = e'
    | _, _ => False

section
variable {α β γ δ : Type} {h t : Heap}

theorem hm_bind (x : HM α) (f : α → HM β) (h : Heap) : (x >>= f) h = match x h with
    | (.ok a, h') => f a h'
    | (.error e, h') => (.error e, h') := rfl

theorem hm_pure (a : α) (h : Heap) : (pure a : HM α) h = (.ok a, h) := rfl

theorem ref_pure {R : α → β → List Cell → Prop} {a : α} {b : β} (hR : R a b t) :
    Ref h ((pure a : HM α) (h ++ t)) (.ok b) R := ⟨t, rfl, hR⟩

theorem ref_error {R : α → β → List Cell → Prop} (e : PyErr) :
    Ref h ((HM.lift (.error e) : HM α) (h ++ t)) (.error e) R := ⟨t, rfl, rfl⟩

theorem ref_bind {x : HM α} {f : α → HM β} {H : Heap} {v : Res γ} {g : γ → Res δ}
    {R : α → γ → List Cell → Prop} {S : β → δ → List Cell → Prop}
    (h1 : Ref h (x H) v R) (h2 : ∀ a b t, R a b t → Ref h (f a (h ++ t)) (g b) S) :
    Ref h ((x >>= f) H) (v.bind g) S := by
  obtain ⟨t, e, hm⟩ := h1
  rw [hm_bind]
  rcases hx : x H with ⟨r, h'⟩
  rw [hx] at e hm
  simp only at e hm
  subst e
  cases r with
  | error e =>
    cases v with
    | error e' => simp only at hm; subst hm; exact ⟨t, rfl, rfl⟩
    | ok b => exact hm.elim
  | ok a =>
    cases v with
    | error e' => exact hm.elim
    | ok b => exact h2 a b t hm

theorem ref_lift {r : Res γ} {f : γ → HM β} {g : γ → Res δ} {S : β → δ → List Cell → Prop}
    (h2 : ∀ b, r = .ok b → Ref h (f b (h ++ t)) (g b) S) :
    Ref h ((HM.lift r >>= f) (h ++ t)) (r.bind g) S := by
  cases r with
  | error e => exact ⟨t, rfl, rfl⟩
  | ok b => exact h2 b rfl

theorem ref_eta {r : Res α × Heap} {v : Res β} {S : α → β → List Cell → Prop} (h1 : Ref h r (v.bind Except.ok) S) :
    Ref h r v S := by
  cases v <;> exact h1

theorem ref_mono {r : Res α × Heap} {v : Res β} {R S : α → β → List Cell → Prop}
    (h1 : Ref h r v R) (h2 : ∀ a b t, R a b t → S a b t) : Ref h r v S := by
  obtain ⟨t, e, hm⟩ := h1
  refine ⟨t, e, ?_⟩
  rcases r with ⟨r, h'⟩
  cases r <;> cases v <;> simp_all

/-! ### Reading and writing -/

theorem heap_new (h t : Heap) (k : Nat) : (h ++ t)[h.length + k]? = t[k]? := by
  rw [List.getElem?_append_right (by omega)]; congr 1; omega

theorem heap_old {a : Nat} {c : Cell} (h t : Heap) (e : h[a]? = some c) : (h ++ t)[a]? = some c := by
  have := (List.getElem?_eq_some_iff.mp e).1
  rw [List.getElem?_append_left this, e]

theorem heap_set (h t : Heap) (k : Nat) (c : Cell) : (h ++ t).set (h.length + k) c = h ++ t.set k c := by
  rw [List.set_append_right _ _ (by omega)]; congr 2; omega

theorem readV_bind {H : Heap} {a : Nat} {l : List ℂ} (f : List ℂ → HM β) (e : H[a]? = some (.vec l)) :
    (readV a >>= f) H = f l H := by
  simp only [hm_bind, readV, e]

theorem readM_bind {H : Heap} {a : Nat} {A : Arr2 ℂ} (f : Arr2 ℂ → HM β) (e : H[a]? = some (.mat A)) :
    (readM a >>= f) H = f A H := by
  simp only [hm_bind, readM, e]

theorem alloc_bind (c : Cell) (f : Nat → HM β) : (alloc c >>= f) (h ++ t) = f (h.length + t.length) (h ++ (t ++ [c])) := by
  simp only [hm_bind, alloc, List.length_append, List.append_assoc]

theorem write_bind (k : Nat) (c : Cell) (f : Unit → HM β) :
    (writeC (h.length + k) c >>= f) (h ++ t) = f () (h ++ t.set k c) := by
  simp only [hm_bind, writeC, heap_set]

theorem hm_assoc (x : HM α) (f : α → HM β) (g : β → HM γ) : (x >>= f) >>= g = x >>= fun a => f a >>= g := by
  funext H
  simp only [hm_bind]
  rcases x H with ⟨r, h'⟩
  cases r <;> rfl

/-- An in-place operator on an array allocated since `h`. -/
theorem ref_apply {op : Arr2 ℂ → Res (Arr2 ℂ)} {k : Nat} {A : Arr2 ℂ} {f : Unit → HM β} {g : Arr2 ℂ → Res δ}
    {S : β → δ → List Cell → Prop} (e : t[k]? = some (.mat A))
    (h2 : ∀ B, op A = .ok B → Ref h (f () (h ++ t.set k (.mat B))) (g B) S) :
    Ref h ((hApply op (h.length + k) >>= f) (h ++ t)) ((op A).bind g) S := by
  rw [hApply, hm_assoc, readM_bind (A := A) _ (by rw [heap_new, e]), hm_assoc]
  refine ref_lift fun B hB => ?_
  rw [write_bind]
  exact h2 B hB

/-! ### Constructors on new arrays -/

/-- A scalar set was created: its array lies beyond `h` and holds the value. -/
def NewS (h : Heap) (o : SRef) (c : ScalarCoefs ℂ) (t : List Cell) : Prop :=
  ∃ k, o.buf = h.length + k ∧ t[k]? = some (.vec c.vec) ∧ o.nmax = c.nmax ∧ o.mmax = c.mmax

/-- A vector set was created: two different arrays beyond `h`. -/
def NewV (h : Heap) (o : VRef) (c : VectorCoefs ℂ) (t : List Cell) : Prop :=
  ∃ k j, k ≠ j ∧ o.s1.buf = h.length + k ∧ o.s2.buf = h.length + j ∧
    t[k]? = some (.vec c.scoef1.vec) ∧ t[j]? = some (.vec c.scoef2.vec) ∧
    o.s1.nmax = c.scoef1.nmax ∧ o.s1.mmax = c.scoef1.mmax ∧ o.s2.nmax = c.scoef2.nmax ∧ o.s2.mmax = c.scoef2.mmax ∧
    o.nmax = c.nmax ∧ o.mmax = c.mmax

theorem scInit_ok {l : List ℂ} {n m : Int} {c : ScalarCoefs ℂ} (e : ScalarCoefs.init (.arr l) n m = .ok c) : c = ⟨l, n, m⟩ := by
  unfold ScalarCoefs.init at e
  split at e
  · cases e
  · simp only at e
    split at e
    · cases e
    · simpa using e.symm

theorem initS_new {k : Nat} {l : List ℂ} {n m : Int} (e : t[k]? = some (.vec l)) :
    Ref h (hInitS (h.length + k) n m (h ++ t)) (ScalarCoefs.init (.arr l) n m) (NewS h) := by
  rw [hInitS, readV_bind (l := l) _ (by rw [heap_new, e])]
  refine ref_eta (ref_lift fun b hb => ?_)
  rw [scInit_ok hb]
  exact ref_pure ⟨k, rfl, e, rfl, rfl⟩

theorem initV_new {k j : Nat} {l1 l2 : List ℂ} {n m : Int} (hkj : k ≠ j) (e1 : t[k]? = some (.vec l1))
    (e2 : t[j]? = some (.vec l2)) :
    Ref h (hInitV (h.length + k) (h.length + j) n m (h ++ t)) (VectorCoefs.init (.arr l1) (.arr l2) n m) (NewV h) := by
  have hk : k < t.length := (List.getElem?_eq_some_iff.mp e1).1
  have hj : j < t.length := (List.getElem?_eq_some_iff.mp e2).1
  rw [hInitV, readV_bind (l := l1) _ (by rw [heap_new, e1]), readV_bind (l := l2) _ (by rw [heap_new, e2])]
  unfold VectorCoefs.init
  simp only
  by_cases c1 : l1.length ≠ l2.length
  · rw [if_pos c1, if_pos c1]; exact ref_error _
  rw [if_neg c1, if_neg c1]
  by_cases c2 : m > n
  · rw [if_pos c2, if_pos c2]; exact ref_error _
  rw [if_neg c2, if_neg c2]
  by_cases c3 : ncFormula n m ≠ l1.length
  · rw [if_pos c3, if_pos c3]; exact ref_error _
  rw [if_neg c3, if_neg c3]
  refine ref_lift fun l1' h1 => ?_
  rw [write_bind, readV_bind (l := l2) _ (by rw [heap_new, List.getElem?_set_ne hkj, e2])]
  refine ref_lift fun l2' h2 => ?_
  rw [write_bind]
  have f1 : ((t.set k (.vec l1')).set j (.vec l2'))[k]? = some (.vec l1') := by
    rw [List.getElem?_set_ne (Ne.symm hkj), List.getElem?_set_self hk]
  have f2 : ((t.set k (.vec l1')).set j (.vec l2'))[j]? = some (.vec l2') := by
    rw [List.getElem?_set_self (by simpa using hj)]
  rw [hInitS, hm_assoc, readV_bind (l := l1') _ (by rw [heap_new, f1]), hm_assoc]
  refine ref_lift fun s1 hs1 => ?_
  rw [show ((pure (⟨h.length + k, n, m⟩ : SRef) : HM SRef) >>= fun s1 => hInitS (h.length + j) n m >>= fun s2 =>
      (pure (⟨s1, s2, n, m⟩ : VRef) : HM VRef)) = (hInitS (h.length + j) n m >>= fun s2 =>
      (pure (⟨⟨h.length + k, n, m⟩, s2, n, m⟩ : VRef) : HM VRef)) from rfl]
  rw [hInitS, hm_assoc, readV_bind (l := l2') _ (by rw [heap_new, f2]), hm_assoc]
  refine ref_lift fun s2 hs2 => ?_
  rw [scInit_ok hs1, scInit_ok hs2]
  exact ref_pure ⟨k, j, hkj, rfl, rfl, f1, f2, rfl, rfl, rfl, rfl, rfl, rfl⟩

theorem newS_ref (b : Buf ℂ) (n m : Int) : Ref h (hNewS b n m (h ++ t)) (ScalarCoefs.init b n m) (NewS h) := by
  cases b with
  | arr l =>
    rw [hNewS, alloc_bind]
    exact initS_new (by simp)
  | exc =>
    rw [hNewS]
    unfold ScalarCoefs.init
    by_cases hc : m > n
    · simp only [hc, if_true, Except.bind_error]; exact ref_error _
    · simp only [hc, if_false, Except.bind_error]; exact ref_error _

theorem newV_ref (b1 b2 : Buf ℂ) (n m : Int) : Ref h (hNewV b1 b2 n m (h ++ t)) (VectorCoefs.init b1 b2 n m) (NewV h) := by
  cases b1 with
  | exc => exact ref_error _
  | arr l1 =>
    cases b2 with
    | exc => exact ref_error _
    | arr l2 =>
      rw [hNewV, alloc_bind, alloc_bind]
      refine initV_new (by simp) (by simp) (by simp)

end
end Verif
