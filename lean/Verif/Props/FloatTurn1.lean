import Verif.Props.FloatSynth
import Verif.FloatFft2
import Verif.FloatKiss
/-!
# C127: quarter turns in double precision, part 1: the containers

Multiplication by `1j` is exact in doubles.  `turn` is that map; every piece of the model that only copies, adds and multiplies commutes with it.
-/
namespace Verif.Props
open Verif
variable {rnd : ℝ → ℝ}

/-- Multiplication by `1j`, exact. -/
def turn (z : FC rnd) : FC rnd := ⟨-z.im, z.re⟩

namespace TN

/-- The result of a call with the value transformed. -/
def rmap {α β : Type} (t : α → β) : Res α → Res β
  | .ok a => .ok (t a)
  | .error e => .error e

/-- `y` is `x` with the value transformed by `t` (the same exception if `x` raises one). -/
def Tr {α β : Type} (t : α → β) (x : Res α) (y : Res β) : Prop := y = rmap t x

section generic
variable {α β γ δ ι : Type}

theorem Tr.ok {t : α → β} (a : α) {b : β} (h : b = t a) : Tr t (.ok a) (.ok b) := by rw [h]; rfl
theorem Tr.err {t : α → β} (e : PyErr) : Tr t (.error e) (.error e) := rfl

theorem Tr.bind {t : α → β} {t' : γ → δ} {x : Res α} {y : Res β} {f : α → Res γ} {g : β → Res δ} (h : Tr t x y) (hf : ∀ a, Tr t' (f a) (g (t a))) :
    Tr t' (x.bind f) (y.bind g) := by
  unfold Tr at h
  subst h
  cases x with
  | error e => rfl
  | ok a => exact hf a

theorem Tr.same {t' : γ → δ} {x : Res α} {f : α → Res γ} {g : α → Res δ} (hf : ∀ a, Tr t' (f a) (g a)) : Tr t' (x.bind f) (x.bind g) := by
  cases x with
  | error e => rfl
  | ok a => exact hf a

theorem Tr.same' {t' : γ → δ} {x y : Res α} (hxy : x = y) {f : α → Res γ} {g : α → Res δ} (hf : ∀ a, Tr t' (f a) (g a)) : Tr t' (x.bind f) (y.bind g) := by
  rw [hxy]; exact Tr.same hf

theorem Tr.id {x : Res α} : Tr _root_.id x x := by cases x <;> rfl

theorem Tr.ite {t : α → β} {p q : Prop} [Decidable p] [Decidable q] (hpq : q ↔ p) {x x' : Res α} {y y' : Res β} (h1 : p → Tr t x y) (h2 : ¬p → Tr t x' y') :
    Tr t (if p then x else x') (if q then y else y') := by
  by_cases h : p
  · rw [if_pos h, if_pos (hpq.2 h)]; exact h1 h
  · rw [if_neg h, if_neg (fun hq => h (hpq.1 hq))]; exact h2 h

theorem Tr.for {t : α → β} {f : α → ι → Res α} {g : β → ι → Res β} : ∀ (xs : List ι), (∀ a, ∀ k ∈ xs, Tr t (f a k) (g (t a) k)) → ∀ a, Tr t (forM' xs a f) (forM' xs (t a) g)
  | [], _, a => Tr.ok a rfl
  | x :: xs, h, a => by
    unfold forM'
    exact Tr.bind (h a x (by simp)) fun b => Tr.for xs (fun a k hk => h a k (by simp [hk])) b

theorem Tr.forAll {t : α → β} {f : α → ι → Res α} {g : β → ι → Res β} (xs : List ι) (h : ∀ a k, Tr t (f a k) (g (t a) k)) (a : α) : Tr t (forM' xs a f) (forM' xs (t a) g) :=
  Tr.for xs (fun a k _ => h a k) a

theorem Tr.mapM {t : α → β} {f : ι → Res α} {g : ι → Res β} (h : ∀ k, Tr t (f k) (g k)) : ∀ xs : List ι, Tr (List.map t) (mapM' xs f) (mapM' xs g)
  | [] => Tr.ok [] rfl
  | x :: xs => by
    unfold mapM'
    exact Tr.bind (h x) fun b => Tr.bind (Tr.mapM h xs) fun c => Tr.ok _ rfl

theorem getIdx_tr (t : α → β) (l : List α) (i : Int) : Tr t (getIdx l i) (getIdx (l.map t) i) := by
  unfold getIdx
  simp only [List.length_map, List.getElem?_map]
  refine Tr.ite Iff.rfl (fun _ => Tr.err _) fun _ => ?_
  cases l[(if i < 0 then i + (l.length : Int) else i).toNat]? <;> rfl

theorem setIdx_tr (t : α → β) (l : List α) (i : Int) (v : α) : Tr (List.map t) (setIdx l i v) (setIdx (l.map t) i (t v)) := by
  unfold setIdx
  simp only [List.length_map]
  refine Tr.ite Iff.rfl (fun _ => Tr.err _) fun _ => Tr.ite Iff.rfl (fun _ => Tr.ok _ (by rw [List.map_set])) fun _ => Tr.err _

theorem cGet_tr (t : α → β) (l : List α) (i : Int) : Tr t (cGet l i) (cGet (l.map t) i) := by
  unfold cGet
  simp only [List.getElem?_map]
  refine Tr.ite Iff.rfl (fun _ => ?_) fun _ => Tr.err _
  cases l[i.toNat]? <;> rfl

theorem cSet_tr (t : α → β) (l : List α) (i : Int) (v : α) : Tr (List.map t) (cSet l i v) (cSet (l.map t) i (t v)) := by
  unfold cSet
  simp only [List.length_map]
  exact Tr.ite Iff.rfl (fun _ => Tr.ok _ (by rw [List.map_set])) fun _ => Tr.err _

theorem map_tab (t : α → β) (n : ℕ) (f : ℕ → α) : (tab n f).map t = tab n fun i => t (f i) := by simp [tab, List.map_map, Function.comp_def]

theorem cMalloc_tr (t : α → β) (n : Int) (J : ℕ → α) : Tr (List.map t) (cMalloc n J) (cMalloc n fun i => t (J i)) := by
  unfold cMalloc
  exact Tr.ite Iff.rfl (fun _ => Tr.err _) fun _ => Tr.ok _ (map_tab _ _ _).symm

theorem getSlice_map (t : α → β) (l : List α) (a b : Int) : getSlice (l.map t) a b = (getSlice l a b).map t := by
  simp [getSlice, List.map_take, List.map_drop]

theorem npFull_tr (t : α → β) (n : Int) (x : α) : Tr (List.map t) (npFull n x) (npFull n (t x)) := by
  unfold npFull
  exact Tr.ite Iff.rfl (fun _ => Tr.err _) fun _ => Tr.ok _ (by simp)

theorem zipWith_turn {f : α → γ → δ} {g : β → γ → ι} (t : α → β) (t' : δ → ι) (h : ∀ a b, g (t a) b = t' (f a b)) : ∀ (l : List α) (w : List γ),
    List.zipWith g (l.map t) w = (List.zipWith f l w).map t'
  | [], _ => by simp
  | _ :: _, [] => by simp
  | a :: l, b :: w => by simp [h, zipWith_turn t t' h l w]

theorem bcast_tr {f : α → γ → δ} {g : β → γ → ι} (t : α → β) (t' : δ → ι) (h : ∀ a b, g (t a) b = t' (f a b)) (l : List α) (w : List γ) :
    Tr (List.map t') (bcast f l w) (bcast g (l.map t) w) := by
  unfold bcast
  simp only [List.length_map]
  refine Tr.ite Iff.rfl (fun _ => Tr.ok _ (zipWith_turn t t' h l w)) fun hne => ?_
  match l, w with
  | [x], w => exact Tr.ok _ (by simp [h])
  | [], [y] => exact Tr.ok _ (by simp)
  | [], [] => simp at hne
  | [], _ :: _ :: _ => exact Tr.err _
  | a :: b :: l, [y] => exact Tr.ok _ (by simp [h])
  | _ :: _ :: _, [] => exact Tr.err _
  | _ :: _ :: _, _ :: _ :: _ => exact Tr.err _

variable [Zero α] [Zero β] [Zero γ]

theorem rd_map {t : α → β} (h0 : t 0 = 0) (l : List α) (i : ℕ) : rd (l.map t) i = t (rd l i) := by
  unfold rd
  rw [List.getD_eq_getElem?_getD, List.getD_eq_getElem?_getD, List.getElem?_map]
  cases l[i]? <;> simp [h0]

theorem at'_map {t : α → β} (h0 : t 0 = 0) (A : Arr2 α) (i j : ℕ) : (A.map t).at' i j = t (A.at' i j) := by
  by_cases h : i < A.rows ∧ j < A.cols
  · have h' : i < (A.map t).rows ∧ j < (A.map t).cols := h
    rw [Arr2.at', dif_pos h', Arr2.at', dif_pos h]; rfl
  · have h' : ¬ (i < (A.map t).rows ∧ j < (A.map t).cols) := h
    rw [Arr2.at', dif_neg h', Arr2.at', dif_neg h, h0]

omit [Zero α] [Zero β] in
theorem ofFn_map (t : α → β) (r c : ℕ) (f : ℕ → ℕ → α) : (Arr2.ofFn r c f).map t = Arr2.ofFn r c fun i j => t (f i j) := rfl

omit [Zero α] [Zero β] in
theorem map_mapA (t : α → β) (u : β → δ) (A : Arr2 α) : (A.map t).map u = A.map fun x => u (t x) := rfl

theorem cMemset0_tr {t : α → β} (h0 : t 0 = 0) (l : List α) (n : Int) : Tr (List.map t) (cMemset0 l n) (cMemset0 (l.map t) n) := by
  unfold cMemset0
  simp only [List.length_map]
  refine Tr.ite Iff.rfl (fun _ => Tr.ok _ ?_) fun _ => Tr.err _
  rw [map_tab]
  congr 1
  funext i
  rw [rd_map h0]
  split <;> simp [h0]

theorem setRow_map {t : α → β} (h0 : t 0 = 0) (A : Arr2 α) (i : ℕ) (r : ℕ → α) : (A.map t).setRow i (fun j => t (r j)) = (A.setRow i r).map t := by
  unfold Arr2.setRow
  rw [ofFn_map]
  simp only [Arr2.rows_map, Arr2.cols_map, at'_map h0]
  congr 1
  funext a b
  split <;> rfl

theorem fixEvenRow_tr {t : α → β} (h0 : t 0 = 0) (A : Arr2 α) : Tr (Arr2.map t) (fixEvenRow A) (fixEvenRow (A.map t)) := by
  unfold fixEvenRow
  simp only [Arr2.rows_map]
  refine Tr.ite Iff.rfl (fun _ => Tr.ite Iff.rfl (fun _ => Tr.err _) fun _ => Tr.ok _ ?_) fun _ => Tr.ok _ rfl
  rw [← setRow_map h0]
  simp only [h0]

theorem padRows_tr {t : α → β} (h0 : t 0 = 0) (A : Arr2 α) (L : ℕ) : Tr (Arr2.map t) (padRows A L) (padRows (A.map t) L) := by
  unfold padRows
  simp only [Arr2.rows_map, Arr2.cols_map]
  refine Tr.ite Iff.rfl (fun _ => Tr.err _) fun _ => Tr.ite Iff.rfl (fun _ => Tr.err _) fun _ => Tr.ok _ ?_
  rw [ofFn_map]
  simp only [at'_map h0]
  congr 1
  funext a b
  split
  · rfl
  · split
    · rfl
    · rw [h0]

theorem setColumn_tr {t : α → β} (h0 : t 0 = 0) (A : Arr2 α) (k : Int) (F : List α) : Tr (Arr2.map t) (setColumn A k F) (setColumn (A.map t) k (F.map t)) := by
  unfold setColumn
  simp only [Arr2.rows_map, Arr2.cols_map, List.length_map]
  refine Tr.ite Iff.rfl (fun _ => Tr.err _) fun _ => Tr.ite Iff.rfl (fun _ => Tr.err _) fun _ => Tr.ok _ ?_
  rw [ofFn_map]
  simp only [at'_map h0, rd_map h0]
  congr 1
  funext a b
  split <;> rfl

theorem npZeros2_tr {t : α → β} (h0 : t 0 = 0) (r c : Int) : Tr (Arr2.map t) (npZeros2 r c) (npZeros2 r c) := by
  unfold npZeros2
  refine Tr.ite Iff.rfl (fun _ => Tr.err _) fun _ => Tr.ok _ ?_
  rw [ofFn_map]
  simp only [h0]

theorem flat_map {t : α → β} (h0 : t 0 = 0) (A : Arr2 α) : (A.map t).flat = A.flat.map t := by
  unfold Arr2.flat
  rw [map_tab]
  simp only [Arr2.rows_map, Arr2.cols_map, at'_map h0]

theorem unflat_map {t : α → β} (h0 : t 0 = 0) (r c : ℕ) (l : List α) : unflat r c (l.map t) = (unflat r c l).map t := by
  unfold unflat
  rw [ofFn_map]
  simp only [rd_map h0]

theorem addPrefix_tr [Add α] [Add β] {t : α → β} (h0 : t 0 = 0) (ha : ∀ a b, t (a + b) = t a + t b) (F : List α) (K : Int) (v : List α) :
    Tr (List.map t) (addPrefix F K v) (addPrefix (F.map t) K (v.map t)) := by
  unfold addPrefix
  simp only [List.length_map]
  refine Tr.ite Iff.rfl (fun _ => Tr.ok _ ?_) fun _ => Tr.ite Iff.rfl (fun _ => Tr.ok _ ?_) fun _ => Tr.err _ <;>
  · rw [map_tab]
    simp only [rd_map h0]
    congr 1
    funext i
    split <;> simp [ha]

end generic

/-! ### Coefficient sets -/

/-- A coefficient set with every coefficient transformed. -/
def cmap {α β : Type} (t : α → β) (c : ScalarCoefs α) : ScalarCoefs β := ⟨c.vec.map t, c.nmax, c.mmax⟩
/-- A vector coefficient set with every coefficient transformed. -/
def vmap {α β : Type} (t : α → β) (c : VectorCoefs α) : VectorCoefs β := ⟨cmap t c.scoef1, cmap t c.scoef2, c.nmax, c.mmax⟩

section coefs
variable {α β : Type}

theorem init_tr (t : α → β) (l : List α) (n m : Int) : Tr (cmap t) (ScalarCoefs.init (.arr l) n m) (ScalarCoefs.init (.arr (l.map t)) n m) := by
  unfold ScalarCoefs.init
  simp only [List.length_map]
  exact Tr.ite Iff.rfl (fun _ => Tr.err _) fun _ => Tr.ite Iff.rfl (fun _ => Tr.err _) fun _ => Tr.ok _ rfl

theorem vinit_tr [Zero α] [Zero β] {t : α → β} (h0 : t 0 = 0) (l l' : List α) (n m : Int) :
    Tr (vmap t) (VectorCoefs.init (.arr l) (.arr l') n m) (VectorCoefs.init (.arr (l.map t)) (.arr (l'.map t)) n m) := by
  unfold VectorCoefs.init
  simp only [List.length_map]
  refine Tr.ite Iff.rfl (fun _ => Tr.err _) fun _ => Tr.ite Iff.rfl (fun _ => Tr.err _) fun _ => Tr.ite Iff.rfl (fun _ => Tr.err _) fun _ => ?_
  have z : ∀ l : List α, Tr (List.map t) (setIdx l 0 0) (setIdx (l.map t) 0 0) := fun l => by
    have := setIdx_tr t l 0 0
    rwa [h0] at this
  exact Tr.bind (z l) fun a => Tr.bind (z l') fun b => Tr.bind (init_tr t a n m) fun s1 => Tr.bind (init_tr t b n m) fun s2 => Tr.ok _ rfl

/-- An effect on a transformed set. -/
def ETr (t : α → β) (e : Eff (ScalarCoefs α)) (e' : Eff (ScalarCoefs β)) : Prop := e'.st = cmap t e.st ∧ e'.err = e.err

theorem ETr.andThen {t : α → β} {e : Eff (ScalarCoefs α)} {e' : Eff (ScalarCoefs β)} {f : ScalarCoefs α → Eff (ScalarCoefs α)} {g : ScalarCoefs β → Eff (ScalarCoefs β)}
    (h : ETr t e e') (hf : ∀ c, ETr t (f c) (g (cmap t c))) : ETr t (e.andThen f) (e'.andThen g) := by
  obtain ⟨h1, h2⟩ := h
  unfold Eff.andThen
  rw [h2]
  cases he : e.err with
  | none => simp only [h1]; exact hf _
  | some x => exact ⟨h1, h2⟩

theorem ETr.forEach {t : α → β} {ι : Type} {f : ScalarCoefs α → ι → Eff (ScalarCoefs α)} {g : ScalarCoefs β → ι → Eff (ScalarCoefs β)}
    (hf : ∀ c k, ETr t (f c k) (g (cmap t c) k)) : ∀ (xs : List ι) (c : ScalarCoefs α), ETr t (Eff.forEach xs c f) (Eff.forEach xs (cmap t c) g)
  | [], c => ⟨rfl, rfl⟩
  | x :: xs, c => by
    unfold Eff.forEach
    exact (hf c x).andThen fun c => ETr.forEach hf xs c

end coefs
end TN
end Verif.Props
