import Verif.CoefsText
import Verif.FileLemmas
import Verif.Props.Coefs2
import Verif.Props.Patterns
/-!
# Properties C67, C68: `random_coefs`, printing
-/
namespace Verif.Props
open Verif

/-! ## C68: printing -/

theorem splitChar_join (sep : Char) (x : Text) (xs : List Text) (h : ∀ t ∈ x :: xs, ∀ c ∈ t, c ≠ sep) :
    splitChar sep (joinText [sep] (x :: xs)) = x :: xs := by
  induction xs generalizing x with
  | nil => exact splitChar_none sep x (h x (by simp))
  | cons y ys ih =>
    change splitChar sep (x ++ [sep] ++ joinText [sep] (y :: ys)) = _
    rw [List.append_assoc, List.singleton_append, splitChar_sep sep x _ (h x (by simp)), ih y fun t ht => h t (List.mem_cons_of_mem _ ht)]

/-- Pieces of `a, b, c` split at the commas: every piece but the first starts with the blank. -/
theorem splitChar_comma (x : Text) (xs : List Text) (h : ∀ t ∈ x :: xs, ∀ c ∈ t, c ≠ ',') :
    splitChar ',' (joinText (", ".toList) (x :: xs)) = x :: xs.map (' ' :: ·) := by
  induction xs generalizing x with
  | nil => exact splitChar_none ',' x (h x (by simp))
  | cons y ys ih =>
    have e : joinText (", ".toList) (x :: y :: ys) = x ++ ',' :: (' ' :: joinText (", ".toList) (y :: ys)) := by
      change x ++ ", ".toList ++ joinText (", ".toList) (y :: ys) = _
      rw [List.append_assoc]; rfl
    rw [e, splitChar_sep ',' x _ (h x (by simp))]
    have := ih y fun t ht => h t (List.mem_cons_of_mem _ ht)
    rw [splitChar, if_neg (by decide), this]
    rfl

theorem joinText_comma_inj (x y : Text) (xs ys : List Text) (hx : ∀ t ∈ x :: xs, ∀ c ∈ t, c ≠ ',') (hy : ∀ t ∈ y :: ys, ∀ c ∈ t, c ≠ ',')
    (h : joinText (", ".toList) (x :: xs) = joinText (", ".toList) (y :: ys)) : x :: xs = y :: ys := by
  have := congrArg (splitChar ',') h
  rw [splitChar_comma x xs hx, splitChar_comma y ys hy] at this
  injection this with h1 h2
  rw [h1]
  congr 1
  exact List.map_injective_iff.mpr (fun a b e => by injection e) h2

theorem listText_inj {α : Type} (rep : α → Text) (hinj : Function.Injective rep) (hc : ∀ x, ∀ c ∈ rep x, c ≠ ',') (l k : List α)
    (hl : l ≠ []) (hk : k ≠ []) (h : listText rep l = listText rep k) : l = k := by
  unfold listText at h
  rw [List.cons_append, List.cons_append, List.cons.injEq] at h
  have := List.append_cancel_right h.2
  obtain ⟨a, l, rfl⟩ := List.exists_cons_of_ne_nil hl
  obtain ⟨b, k, rfl⟩ := List.exists_cons_of_ne_nil hk
  have := joinText_comma_inj (rep a) (rep b) (l.map rep) (k.map rep) (by
    intro t ht; rw [← List.map_cons, List.mem_map] at ht
    obtain ⟨x, -, rfl⟩ := ht; exact hc x) (by
    intro t ht; rw [← List.map_cons, List.mem_map] at ht
    obtain ⟨x, -, rfl⟩ := ht; exact hc x) this
  rw [← List.map_cons, ← List.map_cons] at this
  exact List.map_injective_iff.mpr hinj this

theorem fmtInt_inj {i j : Int} (h : fmtInt i = fmtInt j) : i = j := by
  have a := pyInt_fmt i
  rw [h, pyInt_fmt j] at a
  injection a with a
  exact a.symm

variable {α : Type} [Zero α]

/-- The values of degree `n`, in the order `m = -k .. k`, `k = min(n, mmax)`. -/
def rowVals (mmax : Int) (v : Int → Int → α) (n : Nat) : List α :=
  (List.range (2 * min n mmax.toNat + 1)).map fun (i : Nat) => v n ((i : Int) - ((min n mmax.toNat : Nat) : Int))

theorem reshapeM_vals (c : ScalarCoefs α) (hc : c.WellFormed) (v : Int → Int → α)
    (hv : ∀ n m, IsMode c.nmax c.mmax n m → readMap c n m = some (v n m)) :
    c.reshapeM = .ok ((List.range (c.nmax + 1).toNat).map (rowVals c.mmax v)) := by
  have hw := hc.wf
  have h0 := hw.m0
  have h1 := hw.mn
  obtain ⟨lst, e, hl, hk⟩ := ScalarCoefs.reshapeM_eq hw
  rw [e]
  congr 1
  refine List.ext_getElem (by simp; omega) fun n g1 g2 => ?_
  have := hk n g1
  rw [List.getElem_map, List.getElem_range]
  obtain ⟨ys, e', hlen, hy⟩ := mapM'_spec (pyRange (-(min (n : Int) c.mmax)) (min (n : Int) c.mmax + 1)) (fun m => c.getNM n m) (by
    intro m hm
    rw [mem_pyRange] at hm
    exact ⟨_, ScalarCoefs.getNM_eq hw (by rw [isMode_iff]; omega)⟩)
  rw [this] at e'
  cases e'
  rw [length_pyRange] at hlen
  unfold rowVals
  refine List.ext_getElem (by simp; omega) fun i i1 i2 => ?_
  have q := hy i (by rw [length_pyRange]; omega) i1
  rw [getElem_pyRange, ScalarCoefs.getNM_abs hw] at q
  have hm : IsMode c.nmax c.mmax (n : Int) (-(min (n : Int) c.mmax) + i) := by rw [isMode_iff]; omega
  have r := hv _ _ hm
  rw [readMap_eq hw, q] at r
  simp only [List.getElem_map, List.getElem_range]
  injection r with r
  rw [r]
  congr 1
  omega

/-- C68: the text of a scalar set.  Line 0 gives the limits, line `n + 1` lists the coefficients of degree `n`
from `m = -min(n, mmax)` to `m = min(n, mmax)`. -/
theorem c68_str (rep : α → Text) (c : ScalarCoefs α) (hc : c.WellFormed) (v : Int → Int → α)
    (hv : ∀ n m, IsMode c.nmax c.mmax n m → readMap c n m = some (v n m)) :
    c.str rep = .ok (joinText ['\n']
      (("ScalarCoefs(nmax = ".toList ++ fmtInt c.nmax ++ ", mmax = ".toList ++ fmtInt c.mmax ++ "):".toList) ::
        (List.range (c.nmax + 1).toNat).map fun (n : Nat) =>
          "n = ".toList ++ fmtInt n ++ " :: ".toList ++ ('[' :: joinText (", ".toList) ((rowVals c.mmax v n).map rep) ++ [']']))) := by
  unfold ScalarCoefs.str
  rw [reshapeM_vals c hc v hv]
  simp only [Except.bind_ok]
  congr 3
  refine List.ext_getElem (by simp) fun n g1 g2 => ?_
  simp only [List.getElem_mapIdx, List.getElem_map, List.getElem_range, listText]

/-- C68: `repr` of a scalar set. -/
theorem c68_repr (rep : α → Text) (c : ScalarCoefs α) (hc : c.WellFormed) (v : Int → Int → α)
    (hv : ∀ n m, IsMode c.nmax c.mmax n m → readMap c n m = some (v n m)) :
    c.repr' rep = .ok ("ScalarCoefs((nmax = ".toList ++ fmtInt c.nmax ++ ", mmax = ".toList ++ fmtInt c.mmax ++ ") , ".toList ++
      ('[' :: joinText (", ".toList) ((List.range (c.nmax + 1).toNat).map fun (n : Nat) =>
        '[' :: joinText (", ".toList) ((rowVals c.mmax v n).map rep) ++ [']']) ++ [']']) ++ " )".toList) := by
  unfold ScalarCoefs.repr'
  rw [reshapeM_vals c hc v hv]
  simp only [Except.bind_ok, listText, List.map_map]
  rfl

theorem strHeader_inj {a b n m : Int} (h : strHeader a b = strHeader n m) : a = n ∧ b = m := by
  unfold strHeader at h
  simp only [List.append_assoc] at h
  have h := List.append_cancel_left h
  have key : ∀ x y : Int, splitChar ',' (fmtInt x ++ (", mmax = ".toList ++ (fmtInt y ++ "):".toList))) =
      [fmtInt x, " mmax = ".toList ++ (fmtInt y ++ "):".toList)] := by
    intro x y
    have : ", mmax = ".toList = ',' :: " mmax = ".toList := rfl
    rw [this, List.cons_append, splitChar_sep ',' _ _ (fmtInt_noComma x), splitChar_none]
    intro c hc
    simp only [List.mem_append] at hc
    rcases hc with hc | hc | hc
    · rintro rfl; revert hc; decide
    · exact fmtInt_noComma y c hc
    · rintro rfl; revert hc; decide
  have h := congrArg (splitChar ',') h
  rw [key, key] at h
  injection h with h1 h2
  injection h2 with h2
  exact ⟨fmtInt_inj h1, fmtInt_inj (List.append_cancel_right (List.append_cancel_left h2))⟩

theorem strHeader_noNL (a b : Int) : ∀ c ∈ strHeader a b, c ≠ '\n' := by
  intro c hc
  unfold strHeader at hc
  simp only [List.mem_append] at hc
  rcases hc with (((hc | hc) | hc) | hc) | hc
  · rintro rfl; revert hc; decide
  · exact ne_newline_of_noWS (fmtInt_noWS a c hc)
  · rintro rfl; revert hc; decide
  · exact ne_newline_of_noWS (fmtInt_noWS b c hc)
  · rintro rfl; revert hc; decide

theorem joinText_mem (sep : Text) (l : List Text) (c : Char) (h : c ∈ joinText sep l) : c ∈ sep ∨ ∃ t ∈ l, c ∈ t := by
  induction l with
  | nil => exact absurd h (by simp [joinText])
  | cons x xs ih =>
    cases xs with
    | nil => exact Or.inr ⟨x, by simp, h⟩
    | cons y ys =>
      change c ∈ x ++ sep ++ joinText sep (y :: ys) at h
      simp only [List.mem_append] at h
      rcases h with (h | h) | h
      · exact Or.inr ⟨x, by simp, h⟩
      · exact Or.inl h
      · rcases ih h with g | ⟨t, ht, g⟩
        · exact Or.inl g
        · exact Or.inr ⟨t, List.mem_cons_of_mem _ ht, g⟩

/-- C68: two scalar sets with the same text are equal, if `repr` distinguishes coefficients and uses neither commas nor line breaks. -/
theorem c68_str_injective (rep : α → Text) (hinj : Function.Injective rep) (hrep : ∀ x, ∀ ch ∈ rep x, ch ≠ ',' ∧ ch ≠ '\n')
    (c d : ScalarCoefs α) (hc : c.WellFormed) (hd : d.WellFormed) (t : Text) (e1 : c.str rep = .ok t) (e2 : d.str rep = .ok t) : c = d := by
  have get : ∀ c : ScalarCoefs α, c.WellFormed → ∃ v : Int → Int → α, ∀ n m, IsMode c.nmax c.mmax n m → readMap c n m = some (v n m) := by
    intro c hc
    refine ⟨fun n m => (c.absMap n m).getD 0, fun n m hm => ?_⟩
    rw [readMap_eq hc.wf]; simp only [ScalarCoefs.absMap_mode hc.wf hm]; rfl
  obtain ⟨v, hv⟩ := get c hc
  obtain ⟨w, hw⟩ := get d hd
  unfold ScalarCoefs.str at e1 e2
  rw [reshapeM_vals c hc v hv] at e1
  rw [reshapeM_vals d hd w hw] at e2
  simp only [Except.bind_ok] at e1 e2
  injection e1 with e1
  injection e2 with e2
  have nl : ∀ (mm : Int) (u : Int → Int → α) (N : Nat), ∀ t ∈ ((List.range N).map (rowVals mm u)).mapIdx
      (fun (n : Nat) (x : List α) => "n = ".toList ++ fmtInt n ++ " :: ".toList ++ listText rep x), ∀ ch ∈ t, ch ≠ '\n' := by
    intro mm u N t ht ch hch
    rw [List.mem_mapIdx] at ht
    obtain ⟨i, hi, rfl⟩ := ht
    unfold listText at hch
    simp only [List.mem_append, List.mem_cons] at hch
    rcases hch with ((hch | hch) | hch) | ((hch | hch) | hch)
    · rintro rfl; revert hch; decide
    · exact ne_newline_of_noWS (fmtInt_noWS _ ch hch)
    · rintro rfl; revert hch; decide
    · subst hch; decide
    · rcases joinText_mem _ _ _ hch with g | ⟨t, ht, g⟩
      · rintro rfl; revert g; decide
      · rw [List.mem_map] at ht
        obtain ⟨x, -, rfl⟩ := ht
        exact (hrep x ch g).2
    · rcases hch with rfl | hch
      · decide
      · exact absurd hch (by simp)
  have hsplit := congrArg (splitChar '\n') (e1.trans e2.symm)
  rw [splitChar_join '\n' _ _ (by
      intro t ht
      rcases List.mem_cons.mp ht with rfl | ht
      · exact strHeader_noNL _ _
      · exact nl _ _ _ t ht),
    splitChar_join '\n' _ _ (by
      intro t ht
      rcases List.mem_cons.mp ht with rfl | ht
      · exact strHeader_noNL _ _
      · exact nl _ _ _ t ht)] at hsplit
  injection hsplit with hh hrows
  obtain ⟨hn, hm⟩ := strHeader_inj hh
  refine ScalarCoefs.ext_modes hc.wf hd.wf hn hm fun n m hnm => ?_
  rw [← readMap_eq hc.wf, ← readMap_eq hd.wf, hv n m hnm, hw n m (by rw [← hn, ← hm]; exact hnm)]
  rw [isMode_iff] at hnm
  have h0 := hc.wf.m0
  have hrow : rowVals c.mmax v n.toNat = rowVals d.mmax w n.toNat := by
    have := congrArg (fun l : List Text => l[n.toNat]?) hrows
    simp only [List.getElem?_mapIdx, List.getElem?_map, List.getElem?_range (show n.toNat < (c.nmax + 1).toNat by omega),
      List.getElem?_range (show n.toNat < (d.nmax + 1).toNat by omega), Option.map_some] at this
    injection this with this
    refine listText_inj rep hinj (fun x ch h => (hrep x ch h).1) _ _ ?_ ?_ (List.append_cancel_left this)
    · intro h; have := congrArg List.length h; unfold rowVals at this; simp at this
    · intro h; have := congrArg List.length h; unfold rowVals at this; simp at this
  have := congrArg (fun l : List α => l[(m + min n.toNat c.mmax.toNat).toNat]?) hrow
  unfold rowVals at this
  rw [← hm] at this
  simp only [List.getElem?_map, List.getElem?_range (show (m + (min n.toNat c.mmax.toNat : Nat)).toNat < 2 * min n.toNat c.mmax.toNat + 1 by omega),
    Option.map_some] at this
  injection this with this
  congr 1
  have a1 : ((n.toNat : Nat) : Int) = n := by omega
  have a2 : (((m + (min n.toNat c.mmax.toNat : Nat)).toNat : Nat) : Int) - (min n.toNat c.mmax.toNat : Nat) = m := by omega
  rw [a1, a2] at this
  exact this

/-- C68 does not extend to vector sets: their text shows the limits only. -/
theorem c68_vector_counterexample : ∃ c d : VectorCoefs Int, c.WellFormed ∧ d.WellFormed ∧ c.repr' = d.repr' ∧
    readMapV c 1 0 = some (2, 3) ∧ readMapV d 1 0 = some (5, 7) :=
  ⟨⟨⟨[0, 2], 1, 0⟩, ⟨[0, 3], 1, 0⟩, 1, 0⟩, ⟨⟨[0, 5], 1, 0⟩, ⟨[0, 7], 1, 0⟩, 1, 0⟩,
    ⟨⟨by decide, by decide, rfl⟩, ⟨by decide, by decide, rfl⟩, rfl, rfl, rfl, rfl⟩,
    ⟨⟨by decide, by decide, rfl⟩, ⟨by decide, by decide, rfl⟩, rfl, rfl, rfl, rfl⟩, rfl, rfl, rfl⟩

/-- C68, vector sets: what the text does determine. -/
theorem c68_vector_repr (c d : VectorCoefs α) : c.repr' = d.repr' ↔ c.nmax = d.nmax ∧ c.mmax = d.mmax := by
  refine ⟨fun h => ?_, fun ⟨h1, h2⟩ => by unfold VectorCoefs.repr'; rw [h1, h2]⟩
  unfold VectorCoefs.repr' at h
  simp only [List.append_assoc] at h
  have h := List.append_cancel_left h
  have key : ∀ x y : Int, splitChar ',' (fmtInt x ++ (", mmax = ".toList ++ (fmtInt y ++ ")".toList))) =
      [fmtInt x, " mmax = ".toList ++ (fmtInt y ++ ")".toList)] := by
    intro x y
    have : ", mmax = ".toList = ',' :: " mmax = ".toList := rfl
    rw [this, List.cons_append, splitChar_sep ',' _ _ (fmtInt_noComma x), splitChar_none]
    intro c hc
    simp only [List.mem_append] at hc
    rcases hc with hc | hc | hc
    · rintro rfl; revert hc; decide
    · exact fmtInt_noComma y c hc
    · rintro rfl; revert hc; decide
  have h := congrArg (splitChar ',') h
  rw [key, key] at h
  injection h with h1 h2
  injection h2 with h2
  exact ⟨fmtInt_inj h1, fmtInt_inj (List.append_cancel_right (List.append_cancel_left h2))⟩

/-- C14 for vector sets: both components have their 2-D representation. -/
theorem c14_vector {α : Type} [Field α] [DecidableEq α] (c : VectorCoefs α) (hc : c.WellFormed) :
    ∃ A B, c.array2d = .ok (A, B) ∧ (A.rows : Int) = c.nmax + 1 ∧ (A.cols : Int) = 2 * c.mmax + 1 ∧
      (B.rows : Int) = c.nmax + 1 ∧ (B.cols : Int) = 2 * c.mmax + 1 ∧
    (∀ n m x y, readMapV c n m = some (x, y) → A.at' n.toNat (c.mmax + m).toNat = x ∧ B.at' n.toNat (c.mmax + m).toNat = y) ∧
    (∀ n m : Int, 0 ≤ n → n ≤ c.nmax → -c.mmax ≤ m → m ≤ c.mmax → n < |m| →
      A.at' n.toNat (c.mmax + m).toNat = 0 ∧ B.at' n.toNat (c.mmax + m).toNat = 0) := by
  obtain ⟨A, e1, r1, k1, v1⟩ := c14_array2d c.scoef1 hc.wf1
  obtain ⟨B, e2, r2, k2, v2⟩ := c14_array2d c.scoef2 hc.wf2
  rw [hc.n1] at r1 v1
  rw [hc.m1] at k1 v1
  rw [hc.n2] at r2 v2
  rw [hc.m2] at k2 v2
  refine ⟨A, B, by unfold VectorCoefs.array2d; rw [e1, e2]; rfl, r1, k1, r2, k2, fun n m x y h => ?_, fun n m a b d f g => ?_⟩
  · have h' := h
    rw [readMapV_eq hc] at h'
    by_cases hn : n = 0
    · rw [if_pos hn] at h'; cases h'
    rw [if_neg hn] at h'
    by_cases hm : IsMode c.nmax c.mmax n m
    · have hm' := isMode_iff.mp hm
      rw [ScalarCoefs.absMap_mode hc.wf1.wf (by rw [hc.n1, hc.m1]; exact hm), ScalarCoefs.absMap_mode hc.wf2.wf (by rw [hc.n2, hc.m2]; exact hm)] at h'
      simp only [Option.bind_some, Option.map_some, Option.some.injEq, Prod.mk.injEq] at h'
      rw [v1 n m (by omega) (by omega) (by omega) (by omega), v2 n m (by omega) (by omega) (by omega) (by omega),
        readMap_eq hc.wf1.wf, readMap_eq hc.wf2.wf,
        ScalarCoefs.absMap_mode hc.wf1.wf (by rw [hc.n1, hc.m1]; exact hm), ScalarCoefs.absMap_mode hc.wf2.wf (by rw [hc.n2, hc.m2]; exact hm)]
      exact h'
    · have : c.scoef1.absMap n m = none := by
        unfold ScalarCoefs.absMap; rw [if_neg (by rw [hc.n1, hc.m1]; exact hm)]
      rw [this] at h'; cases h'
  · have hm : ¬ IsMode c.nmax c.mmax n m := by rw [isMode_iff]; rw [Int.abs_eq_natAbs] at g; omega
    rw [v1 n m a b d f, v2 n m a b d f, readMap_eq hc.wf1.wf, readMap_eq hc.wf2.wf]
    unfold ScalarCoefs.absMap
    rw [if_neg (by rw [hc.n1, hc.m1]; exact hm), if_neg (by rw [hc.n2, hc.m2]; exact hm)]
    exact ⟨rfl, rfl⟩

theorem bindAssoc {α β γ : Type} (x : Res α) (f : α → Res β) (g : β → Res γ) :
    (x.bind f).bind g = x.bind fun a => (f a).bind g := by cases x <;> rfl

/-- C68: the functions that dispatch on the type reject everything else with TypeError. -/
theorem c68_dispatch (o : SObj) :
    (Res.Raises (arrayFn o) .typeError ↔ (∀ p, o ≠ .spatt p) ∧ ∀ p, o ≠ .tpatt p) ∧
    (Res.Raises (absFn o) .typeError ↔ (∀ p, o ≠ .spatt p) ∧ ∀ c, o ≠ .scoef c) ∧
    (Res.Raises (magFn o) .typeError ↔ o = .other) ∧ (Res.Raises (mag2Fn o) .typeError ↔ o = .other) := by
  have init_no : ∀ (v : List ℝ) (n m : Int), ¬ Res.Raises ((ScalarCoefs.init (.arr v) n m).bind fun d => .ok (SRes.coef d)) .typeError := by
    rintro v n m ⟨msg, h⟩
    unfold ScalarCoefs.init at h
    split at h
    · cases h
    · simp only at h
      split at h <;> cases h
  have arr_no : ∀ (p : SPatt ℂ) (f : Arr2 ℂ → Res SRes) (_ : ∀ A, ∃ r, f A = .ok r), ¬ Res.Raises (p.array.bind f) .typeError := by
    rintro ⟨ds⟩ f hf ⟨msg, h⟩
    cases ds with
    | arr A =>
      obtain ⟨r, e⟩ := hf ((A.takeRows (A.rows / 2 + 1)))
      change f _ = _ at h
      rw [e] at h; cases h
    | exc => cases h
  have bc_no : ∀ (f : ℝ → ℝ → ℝ) (a b : List ℝ) (g : List ℝ → Res SRes), (∀ v, ¬ Res.Raises (g v) .typeError) →
      ¬ Res.Raises ((bcast f a b).bind g) .typeError := by
    rintro f a b g hg ⟨msg, h⟩
    cases e : bcast f a b with
    | ok v => rw [e] at h; exact hg v ⟨msg, h⟩
    | error x =>
      rw [e] at h
      change Except.error x = _ at h
      injection h with h
      subst h
      unfold bcast at e
      split at e
      · cases e
      · split at e <;> cases e
  cases o with
  | spatt p =>
    refine ⟨⟨fun h => absurd h (arr_no p _ fun A => ⟨_, rfl⟩), fun h => absurd rfl (h.1 p)⟩, ⟨fun h => ?_, fun h => absurd rfl (h.1 p)⟩,
      ⟨fun h => ?_, fun h => nomatch h⟩, ⟨fun h => ?_, fun h => nomatch h⟩⟩
    · unfold absFn SPatt.mag at h
      simp only [bindAssoc] at h
      exact absurd h (arr_no p _ fun A => ⟨_, rfl⟩)
    · unfold magFn SPatt.mag at h
      simp only [bindAssoc] at h
      exact absurd h (arr_no p _ fun A => ⟨_, rfl⟩)
    · unfold mag2Fn SPatt.mag2 at h
      simp only [bindAssoc] at h
      exact absurd h (arr_no p _ fun A => ⟨_, rfl⟩)
  | tpatt p =>
    have no : ∀ (x : SRes) , ¬ Res.Raises (.ok x : Res SRes) .typeError := fun x ⟨_, h⟩ => nomatch h
    refine ⟨⟨fun h => absurd h (no _), fun h => absurd rfl (h.2 p)⟩, ⟨fun _ => ⟨by simp, by simp⟩, fun _ => ⟨_, rfl⟩⟩,
      ⟨fun h => absurd h (no _), fun h => nomatch h⟩, ⟨fun h => absurd h (no _), fun h => nomatch h⟩⟩
  | scoef c =>
    refine ⟨⟨fun _ => ⟨by simp, by simp⟩, fun _ => ⟨_, rfl⟩⟩, ⟨fun h => absurd h (init_no _ _ _), fun h => absurd rfl (h.2 c)⟩,
      ⟨fun h => absurd h (init_no _ _ _), fun h => nomatch h⟩, ⟨fun h => absurd h (init_no _ _ _), fun h => nomatch h⟩⟩
  | vcoef c =>
    refine ⟨⟨fun _ => ⟨by simp, by simp⟩, fun _ => ⟨_, rfl⟩⟩, ⟨fun _ => ⟨by simp, by simp⟩, fun _ => ⟨_, rfl⟩⟩,
      ⟨fun h => ?_, fun h => nomatch h⟩, ⟨fun h => ?_, fun h => nomatch h⟩⟩
    · unfold magFn magVC mag2VC at h
      simp only [bindAssoc] at h
      refine absurd h (bc_no _ _ _ _ fun v => ?_)
      rintro ⟨msg, g⟩
      cases e : ScalarCoefs.init (.arr v) c.nmax c.mmax with
      | ok d => rw [e] at g; exact init_no _ _ _ ⟨msg, g⟩
      | error x => rw [e] at g; exact init_no v c.nmax c.mmax ⟨msg, by rw [e]; exact g⟩
    · unfold mag2Fn mag2VC at h
      simp only [bindAssoc] at h
      exact absurd h (bc_no _ _ _ _ fun v => init_no v _ _)
  | other => exact ⟨⟨fun _ => ⟨by simp, by simp⟩, fun _ => ⟨_, rfl⟩⟩, ⟨fun _ => ⟨by simp, by simp⟩, fun _ => ⟨_, rfl⟩⟩,
      ⟨fun _ => rfl, fun _ => ⟨_, rfl⟩⟩, ⟨fun _ => rfl, fun _ => ⟨_, rfl⟩⟩⟩

/-! ## C67: `random_coefs` -/

theorem rndVec_ok (z : Nat → ℝ) (mu sigma : ℝ) (L : Nat) (hs : 0 ≤ sigma) :
    rndVec z mu sigma L = .ok ((List.range L).map (fun (i : Nat) => ((mu + sigma * z i : ℝ) : ℂ) + Complex.I * ((mu + sigma * z (L + i) : ℝ) : ℂ)),
      fun i => z (L + (L + i))) := by
  unfold rndVec npNormal
  rw [if_neg (not_lt.mpr hs), if_neg (by omega)]
  simp only [Except.bind_ok, if_neg (not_lt.mpr hs), if_neg (show ¬ ((L : Int) < 0) by omega), Int.toNat_natCast]
  congr 2
  refine List.ext_getElem (by simp) fun i h1 h2 => by simp

/-- `idx` gives every mode its own position among the first `L` numbers, and uses all of them. -/
def OwnDraw (nmax mmax : Int) (idx : Int → Int → Nat) (L : Nat) : Prop :=
  (∀ n m, IsMode nmax mmax n m → idx n m < L) ∧
  (∀ n m n' m', IsMode nmax mmax n m → IsMode nmax mmax n' m' → idx n m = idx n' m' → n = n' ∧ m = m') ∧
  (∀ i, i < L → ∃ n m, IsMode nmax mmax n m ∧ idx n m = i)

theorem ownDraw_slot {nmax mmax : Int} (h0 : 0 ≤ mmax) (h1 : mmax ≤ nmax) :
    OwnDraw nmax mmax (slot nmax) (modes nmax mmax).card := by
  rw [modes_card h0 h1]
  exact ⟨fun n m h => slot_lt h, fun n m n' m' h h' e => slot_inj h h' e, fun i hi => slot_surj h0 h1 hi⟩

theorem lFormula_card {nmax mmax : Int} (h0 : 0 ≤ mmax) (h1 : mmax ≤ nmax) : lFormula nmax mmax = ((modes nmax mmax).card : Int) := by
  rw [modes_card' h0 h1, lFormula_eq]

/-- C67, scalar: the set has the requested limits, and the real and imaginary part of every coefficient come from their own random
number; all `2L` numbers drawn are used. -/
theorem c67_scalar (z : Nat → ℝ) (nmax mmax : Int) (mu sigma : ℝ) (h0 : 0 ≤ mmax) (h1 : mmax ≤ nmax) (hs : 0 ≤ sigma) :
    ∃ (c : ScalarCoefs ℂ) (idx : Int → Int → Nat), randomCoefs z nmax mmax mu sigma 0 = .ok (.inl c) ∧ c.WellFormed ∧ c.nmax = nmax ∧ c.mmax = mmax ∧
      OwnDraw nmax mmax idx (modes nmax mmax).card ∧
      ∀ n m, IsMode nmax mmax n m → readMap c n m = some ⟨mu + sigma * z (idx n m), mu + sigma * z ((modes nmax mmax).card + idx n m)⟩ := by
  set L := (modes nmax mmax).card with hL
  have hl := lFormula_card h0 h1
  rw [← hL] at hl
  set v : List ℂ := (List.range L).map (fun (i : Nat) => ((mu + sigma * z i : ℝ) : ℂ) + Complex.I * ((mu + sigma * z (L + i) : ℝ) : ℂ)) with hv
  have hw : (ScalarCoefs.mk v nmax mmax).WellFormed := ⟨h0, h1, by rw [hv]; simp [hL]⟩
  refine ⟨⟨v, nmax, mmax⟩, slot nmax, ?_, hw, rfl, rfl, ownDraw_slot h0 h1, fun n m hm => ?_⟩
  · unfold randomCoefs
    rw [if_neg (by omega), if_pos rfl, hl, rndVec_ok z mu sigma L hs]
    simp only [Except.bind_ok, ← hv]
    unfold ScalarCoefs.init
    rw [if_neg (by omega)]
    simp only
    rw [if_neg (by rw [← modes_card' h0 h1, hv]; simp [hL])]
    rfl
  · rw [readMap_eq hw.wf, ScalarCoefs.absMap_mode hw.wf hm]
    simp only [hv, List.getElem_map, List.getElem_range]
    congr 1
    apply Complex.ext <;> simp

/-- C67, vector: as for scalar sets, for both components (four runs of `L` numbers), and the monopole is zero. -/
theorem c67_vector (z : Nat → ℝ) (nmax mmax : Int) (mu sigma : ℝ) (h0 : 0 ≤ mmax) (h1 : mmax ≤ nmax) (hs : 0 ≤ sigma) :
    ∃ (c : VectorCoefs ℂ) (idx : Int → Int → Nat), randomCoefs z nmax mmax mu sigma 1 = .ok (.inr c) ∧ c.WellFormed ∧ c.nmax = nmax ∧ c.mmax = mmax ∧
      OwnDraw nmax mmax idx (modes nmax mmax).card ∧ readMap c.scoef1 0 0 = some 0 ∧ readMap c.scoef2 0 0 = some 0 ∧
      ∀ n m, IsMode nmax mmax n m → n ≠ 0 → readMapV c n m = some
        (⟨mu + sigma * z (idx n m), mu + sigma * z ((modes nmax mmax).card + idx n m)⟩,
         ⟨mu + sigma * z (2 * (modes nmax mmax).card + idx n m), mu + sigma * z (3 * (modes nmax mmax).card + idx n m)⟩) := by
  set L := (modes nmax mmax).card with hL
  have hl := lFormula_card h0 h1
  rw [← hL] at hl
  set v : List ℂ := (List.range L).map (fun (i : Nat) => ((mu + sigma * z i : ℝ) : ℂ) + Complex.I * ((mu + sigma * z (L + i) : ℝ) : ℂ)) with hv
  set u : List ℂ := (List.range L).map (fun (i : Nat) => ((mu + sigma * z (L + (L + i)) : ℝ) : ℂ) + Complex.I * ((mu + sigma * z (L + (L + (L + i))) : ℝ) : ℂ)) with hu
  have h00 : IsMode nmax mmax 0 0 := isMode_iff.mpr (by omega)
  have hpos : 0 < L := by have := slot_lt h00; rw [← modes_card h0 h1, ← hL] at this; omega
  have lv : v.length = L := by rw [hv]; simp
  have lu : u.length = L := by rw [hu]; simp
  have hset : ∀ w : List ℂ, w.length = L → setIdx w 0 0 = .ok (w.set 0 0) := by
    intro w hw
    unfold setIdx
    simp only [lt_self_iff_false, if_false, Int.toNat_zero]
    rw [if_pos (by omega)]
  have ss : ∀ w : List ℂ, (w.set 0 0).set 0 0 = w.set 0 0 := fun w => by simp
  have hw : ∀ w : List ℂ, w.length = L → (ScalarCoefs.mk (w.set 0 0) nmax mmax).WellFormed := fun w hw => ⟨h0, h1, by simp [hw, hL]⟩
  have s0 : slot nmax 0 0 = 0 := by rw [slot, ord]; simp [seg]
  refine ⟨⟨⟨v.set 0 0, nmax, mmax⟩, ⟨u.set 0 0, nmax, mmax⟩, nmax, mmax⟩, slot nmax, ?_, ⟨hw v lv, hw u lu, rfl, rfl, rfl, rfl⟩, rfl, rfl,
    ownDraw_slot h0 h1, ?_, ?_, fun n m hm hn => ?_⟩
  · unfold randomCoefs
    rw [if_neg (by omega), if_neg (by decide), if_pos rfl, hl, rndVec_ok z mu sigma L hs]
    simp only [Except.bind_ok, ← hv]
    rw [hset v lv]
    simp only [Except.bind_ok]
    rw [rndVec_ok _ mu sigma L hs]
    simp only [Except.bind_ok, ← hu]
    rw [hset u lu]
    simp only [Except.bind_ok]
    rw [vinit_wf h0 h1 (by rw [← modes_card' h0 h1]; simp [lv, hL]) (by rw [← modes_card' h0 h1]; simp [lu, hL]), ss, ss]
    rfl
  · rw [readMap_eq (hw v lv).wf, ScalarCoefs.absMap_mode (hw v lv).wf h00]
    simp [s0]
  · rw [readMap_eq (hw u lu).wf, ScalarCoefs.absMap_mode (hw u lu).wf h00]
    simp [s0]
  · have hne : slot nmax n m ≠ 0 := fun h => hn (slot_inj hm h00 (by rw [h, s0])).1
    have e : ∀ w : List ℂ, (hl : w.length = L) → (ScalarCoefs.mk (w.set 0 0) nmax mmax).absMap n m = w[slot nmax n m]? := by
      intro w hlw
      rw [ScalarCoefs.absMap_mode (hw w hlw).wf hm]
      have : slot nmax n m < w.length := by rw [hlw, hL, modes_card h0 h1]; exact slot_lt hm
      rw [List.getElem?_eq_getElem this]
      simp only
      rw [List.getElem_set_ne (Ne.symm hne)]
    have hlt : slot nmax n m < L := by rw [hL, modes_card h0 h1]; exact slot_lt hm
    rw [readMapV_eq ⟨hw v lv, hw u lu, rfl, rfl, rfl, rfl⟩, if_neg hn, e v lv, e u lu, hv, hu]
    simp only [List.getElem?_map, List.getElem?_range hlt, Option.map_some, Option.bind_some]
    congr 2
    · apply Complex.ext <;> simp
    · rw [show 2 * L + slot nmax n m = L + (L + slot nmax n m) by omega, show 3 * L + slot nmax n m = L + (L + (L + slot nmax n m)) by omega]
      apply Complex.ext <;> simp

/-- C67: what is rejected. -/
theorem c67_rejects (z : Nat → ℝ) (nmax mmax : Int) (mu sigma : ℝ) (t : Int) :
    (nmax < mmax → Res.Raises (randomCoefs z nmax mmax mu sigma t) .valueError) ∧
    (mmax ≤ nmax → t ≠ 0 → t ≠ 1 → Res.Raises (randomCoefs z nmax mmax mu sigma t) .typeError) ∧
    (mmax ≤ nmax → t = 0 ∨ t = 1 → sigma < 0 → Res.Raises (randomCoefs z nmax mmax mu sigma t) .valueError) := by
  refine ⟨fun h => ⟨"nmax_g_mmax", ?_⟩, fun h t0 t1 => ⟨"ukn_coef_t", ?_⟩, fun h ht hs => ⟨"scale < 0", ?_⟩⟩
  · unfold randomCoefs; rw [if_pos (by omega)]; rfl
  · unfold randomCoefs; rw [if_neg (by omega), if_neg t0, if_neg t1]; rfl
  · have : ∀ L, rndVec z mu sigma L = .error ⟨.valueError, "scale < 0"⟩ := fun L => by unfold rndVec npNormal; rw [if_pos hs]; rfl
    unfold randomCoefs
    rw [if_neg (by omega)]
    rcases ht with rfl | rfl
    · rw [if_pos rfl, this]; rfl
    · rw [if_neg (by decide), if_pos rfl, this]; rfl

/-- C67: with `sigma = 0` every coefficient is `mu + i mu`. -/
theorem c67_deterministic (z : Nat → ℝ) (nmax mmax : Int) (mu : ℝ) (h0 : 0 ≤ mmax) (h1 : mmax ≤ nmax) :
    ∃ c : ScalarCoefs ℂ, randomCoefs z nmax mmax mu 0 0 = .ok (.inl c) ∧ ∀ n m, IsMode nmax mmax n m → readMap c n m = some ⟨mu, mu⟩ := by
  obtain ⟨c, idx, e, -, -, -, -, hv⟩ := c67_scalar z nmax mmax mu 0 h0 h1 le_rfl
  exact ⟨c, e, fun n m hm => by rw [hv n m hm]; simp⟩

/-! ## Concrete cases -/

example : (0 : Int) ≤ 1 ∧ (1 : Int) ≤ 2 ∧ (0 : ℝ) ≤ 1 ∧ IsMode 2 1 2 (-1) := ⟨by decide, by decide, by norm_num, by decide⟩

/-- `str` of a set of integers with limits (1, 1). -/
example : (⟨[1, 2, 3, 4], 1, 1⟩ : ScalarCoefs Int).str fmtInt =
    .ok "ScalarCoefs(nmax = 1, mmax = 1):\nn = 0 :: [1]\nn = 1 :: [3, 2, 4]".toList := by decide +kernel

/-- The hypotheses of `c68_str_injective` hold for the decimal text of integers. -/
example : Function.Injective fmtInt ∧ (∀ x, ∀ ch ∈ fmtInt x, ch ≠ ',' ∧ ch ≠ '\n') ∧ (⟨[1, 2, 3, 4], 1, 1⟩ : ScalarCoefs Int).WellFormed :=
  ⟨fun _ _ h => fmtInt_inj h, fun x ch h => ⟨fmtInt_noComma x ch h, ne_newline_of_noWS (fmtInt_noWS x ch h)⟩, ⟨by decide, by decide, by decide⟩⟩

example : tinyRep (fun _ : Unit => "(1+2j)".toList) () = .ok "1+2j".toList ∧ tinyRep (fun _ : Unit => "1j".toList) () = .ok "1j".toList := by decide +kernel

/-- C68: what `array`, `abs`, `mag` and `mag2` return, sample by sample and mode by mode (`mag2` of a scalar set: C18). -/
theorem c68_values (D : Arr2 ℂ) (hD : 2 ≤ D.rows) (p : TPatt ℂ) (hp : 2 ≤ p.td.rows ∧ p.pd.rows = p.td.rows ∧ p.pd.cols = p.td.cols)
    (c : ScalarCoefs ℂ) (hc : c.WellFormed) (w : VectorCoefs ℂ) (hw : w.WellFormed) :
    (∃ A M M2, arrayFn (.spatt ⟨.arr D⟩) = .ok (.arr A) ∧ absFn (.spatt ⟨.arr D⟩) = .ok (.rarr M) ∧ magFn (.spatt ⟨.arr D⟩) = .ok (.rarr M) ∧
      mag2Fn (.spatt ⟨.arr D⟩) = .ok (.rarr M2) ∧ A.rows = D.rows / 2 + 1 ∧ A.cols = D.cols ∧ M.rows = A.rows ∧ M.cols = A.cols ∧ M2.rows = A.rows ∧
      M2.cols = A.cols ∧ ∀ i j, i < A.rows → j < A.cols → A.at' i j = D.at' i j ∧ M.at' i j = ‖D.at' i j‖ ∧ M2.at' i j = ‖D.at' i j‖ ^ 2) ∧
    (∃ T P M M2, arrayFn (.tpatt p) = .ok (.pair T P) ∧ magFn (.tpatt p) = .ok (.rarr M) ∧ mag2Fn (.tpatt p) = .ok (.rarr M2) ∧
      T.rows = p.td.rows / 2 + 1 ∧ T.cols = p.td.cols ∧ P.rows = T.rows ∧ P.cols = T.cols ∧ M.rows = T.rows ∧ M.cols = T.cols ∧ M2.rows = T.rows ∧
      M2.cols = T.cols ∧ ∀ i j, i < T.rows → j < T.cols → T.at' i j = p.td.at' i j ∧ P.at' i j = p.pd.at' i j ∧
        M2.at' i j = ‖p.td.at' i j‖ ^ 2 + ‖p.pd.at' i j‖ ^ 2 ∧ M.at' i j = Real.sqrt (‖p.td.at' i j‖ ^ 2 + ‖p.pd.at' i j‖ ^ 2)) ∧
    (∃ d, absFn (.scoef c) = .ok (.coef d) ∧ magFn (.scoef c) = .ok (.coef d) ∧ d.WellFormed ∧ d.nmax = c.nmax ∧ d.mmax = c.mmax ∧
      ∀ n m, readMap d n m = (readMap c n m).map (fun x => ‖x‖)) ∧
    (∃ d e, magFn (.vcoef w) = .ok (.coef e) ∧ mag2Fn (.vcoef w) = .ok (.coef d) ∧ d.WellFormed ∧ e.WellFormed ∧ d.nmax = w.nmax ∧ d.mmax = w.mmax ∧
      e.nmax = w.nmax ∧ e.mmax = w.mmax ∧ ∀ n m x y, readMapV w n m = some (x, y) →
        readMap d n m = some (‖x‖ ^ 2 + ‖y‖ ^ 2) ∧ readMap e n m = some (Real.sqrt (‖x‖ ^ 2 + ‖y‖ ^ 2))) := by
  have tk : ∀ (A : Arr2 ℂ), 2 ≤ A.rows → (A.takeRows (A.rows / 2 + 1)).rows = A.rows / 2 + 1 ∧ (A.takeRows (A.rows / 2 + 1)).cols = A.cols ∧
      ∀ i j, i < A.rows / 2 + 1 → j < A.cols → (A.takeRows (A.rows / 2 + 1)).at' i j = A.at' i j := by
    intro A hA
    have : min (A.rows / 2 + 1) A.rows = A.rows / 2 + 1 := by omega
    refine ⟨by unfold Arr2.takeRows; simp only [Arr2.rows_ofFn]; omega, by unfold Arr2.takeRows; simp only [Arr2.cols_ofFn], fun i j hi hj => ?_⟩
    unfold Arr2.takeRows
    rw [Arr2.at'_ofFn (by omega) hj]
  refine ⟨?_, ?_, ?_, ?_⟩
  · obtain ⟨t1, t2, t3⟩ := tk D hD
    refine ⟨D.takeRows (D.rows / 2 + 1), _, _, rfl, rfl, rfl, rfl, t1, t2, rfl, rfl, rfl, rfl, fun i j hi hj => ?_⟩
    have e := t3 i j (by omega) (by omega)
    refine ⟨e, ?_, ?_⟩
    · rw [Arr2.at'_map _ _ hi hj, e]
    · rw [Arr2.at'_map _ _ hi hj, e]
  · obtain ⟨t1, t2, t3⟩ := tk p.td hp.1
    obtain ⟨u1, u2, u3⟩ := tk p.pd (by omega)
    have ephi : p.phi = p.pd.takeRows (p.pd.rows / 2 + 1) := by unfold TPatt.phi TPatt.nrows; rw [hp.2.1]
    refine ⟨p.theta, p.phi, _, _, rfl, rfl, rfl, t1, t2, by rw [ephi, u1, show p.theta.rows = p.td.rows / 2 + 1 from t1, hp.2.1],
      by rw [ephi, u2, show p.theta.cols = p.td.cols from t2, hp.2.2], rfl, rfl, rfl, rfl, fun i j hi hj => ?_⟩
    have hi' : i < p.td.rows / 2 + 1 := by rw [← t1]; exact hi
    have hj' : j < p.td.cols := by rw [← t2]; exact hj
    have e1 : p.theta.at' i j = p.td.at' i j := t3 i j hi' hj'
    have e2 : p.phi.at' i j = p.pd.at' i j := by rw [ephi]; exact u3 i j (by omega) (by omega)
    have e3 : p.mag2.at' i j = ‖p.td.at' i j‖ ^ 2 + ‖p.pd.at' i j‖ ^ 2 := by
      unfold TPatt.mag2; rw [Arr2.at'_zip _ _ _ hi hj, e1, e2]
    refine ⟨e1, e2, e3, ?_⟩
    unfold TPatt.mag
    rw [Arr2.at'_map Real.sqrt p.mag2 hi hj, e3]
  · obtain ⟨d, e, h⟩ := c18_mag_coefs_partial.1 c hc
    exact ⟨d, by show (absSC c).bind _ = _; rw [e]; rfl, by show (absSC c).bind _ = _; rw [e]; rfl, h⟩
  · obtain ⟨d, e, h1, h2, h⟩ := c18_mag_coefs_partial.2 w hw
    exact ⟨d, e, by show (magVC w).bind _ = _; rw [h2]; rfl, by show (mag2VC w).bind _ = _; rw [h1]; rfl, h⟩

/-- C68: the lists of columns and of rows of a vector set are those of its two components (`_reshape_n_vecs`, `_reshape_m_vecs`). -/
theorem c68_reshape (w : VectorCoefs α) (hw : w.WellFormed) :
    (∃ A B, w.reshapeN = .ok (A, B) ∧ (A.length : Int) = 2 * w.mmax + 1 ∧ (B.length : Int) = 2 * w.mmax + 1 ∧
      ∀ m : Int, -w.mmax ≤ m → m ≤ w.mmax → ∀ k : Nat, (k : Int) = (if m = 0 then 0 else if m < 0 then -2 * m - 1 else 2 * m) →
        ∃ a b, A[k]? = some a ∧ B[k]? = some b ∧ w.scoef1.getCol m = .ok a ∧ w.scoef2.getCol m = .ok b) ∧
    (∀ v1 v2 : Int → Int → α, (∀ n m, IsMode w.nmax w.mmax n m → readMap w.scoef1 n m = some (v1 n m) ∧ readMap w.scoef2 n m = some (v2 n m)) →
      w.reshapeM = .ok ((List.range (w.nmax + 1).toNat).map (rowVals w.mmax v1), (List.range (w.nmax + 1).toNat).map (rowVals w.mmax v2))) := by
  constructor
  · obtain ⟨A, e1, l1, h1⟩ := ScalarCoefs.reshapeN_eq hw.wf1.wf
    obtain ⟨B, e2, l2, h2⟩ := ScalarCoefs.reshapeN_eq hw.wf2.wf
    rw [hw.m1] at l1 h1
    rw [hw.m2] at l2 h2
    refine ⟨A, B, by unfold VectorCoefs.reshapeN; rw [e1, e2]; rfl, l1, l2, fun m hm hm' k hk => ?_⟩
    have ho : ord m = k := by unfold ord; split_ifs at hk ⊢ <;> omega
    obtain ⟨a, ha, ha'⟩ := h1 m (by unfold iabs; omega)
    obtain ⟨b, hb, hb'⟩ := h2 m (by unfold iabs; omega)
    rw [ho] at ha hb
    exact ⟨a, b, ha, hb, ha', hb'⟩
  · intro v1 v2 hv
    have r1 := reshapeM_vals w.scoef1 hw.wf1 v1 (fun n m hm => by rw [hw.n1, hw.m1] at hm; exact (hv n m hm).1)
    have r2 := reshapeM_vals w.scoef2 hw.wf2 v2 (fun n m hm => by rw [hw.n2, hw.m2] at hm; exact (hv n m hm).2)
    unfold VectorCoefs.reshapeM
    rw [r1, r2, hw.n1, hw.n2, hw.m1, hw.m2]
    rfl

end Verif.Props
