import Verif.Props.Files
import Mathlib.Data.List.Forall2
/-!
# C126: reading pattern files

`load_fdata`, `load_patt` and `load_vpatt` read lines `n,m,re,im` in any order.  This file says what the array is for every list of readable lines, and which files are rejected.
-/
namespace Verif.Props
open Verif

/-- A data line `n,m,re,im` (more fields may follow). -/
def IsCell (F : FloatText) (line : Text) (x : ℤ × ℤ × ℂ) : Prop :=
  ∃ a b c d rest, splitChar ',' line = a :: b :: c :: d :: rest ∧ pyInt a = .ok x.1 ∧ pyInt b = .ok x.2.1 ∧ F.pyFloat c = .ok x.2.2.re ∧ F.pyFloat d = .ok x.2.2.im

/-- The position of a line is inside the announced shape; as everywhere in Python, negative indices count from the end. -/
def CellInside (r c : ℕ) (x : ℤ × ℤ × ℂ) : Prop := -(r : ℤ) ≤ x.1 ∧ x.1 < r ∧ -(c : ℤ) ≤ x.2.1 ∧ x.2.1 < c

/-- A line addresses row `i`, column `j`. -/
def CellAt (r c : ℕ) (x : ℤ × ℤ × ℂ) (i j : ℕ) : Prop := (x.1 = i ∨ x.1 = (i : ℤ) - r) ∧ (x.2.1 = j ∨ x.2.1 = (j : ℤ) - c)

/-- At each position the value of the last line that addresses it; elsewhere 0. -/
def ShowsCells (r c : ℕ) (cells : List (ℤ × ℤ × ℂ)) (A : Arr2 ℂ) : Prop :=
  A.rows = r ∧ A.cols = c ∧ ∀ i j, i < r → j < c →
    (∀ pre x post, cells = pre ++ x :: post → CellAt r c x i j → (∀ y ∈ post, ¬ CellAt r c y i j) → A.at' i j = x.2.2) ∧
    ((∀ x ∈ cells, ¬ CellAt r c x i j) → A.at' i j = 0)

namespace FP2

theorem step {F : FloatText} {line : Text} {x : ℤ × ℤ × ℂ} (h : IsCell F line x) (P : Arr2 ℂ) : cellStep F P line = setIdx2 P x.1 x.2.1 x.2.2 := by
  obtain ⟨a, b, c, d, rest, hs, p1, p2, p3, p4⟩ := h
  unfold cellStep
  simp only [hs, getIdx_cons0, getIdx_cons1, getIdx_cons2, getIdx_cons3, Except.bind_ok, p1, p2, p3, p4]

theorem set_ok (P : Arr2 ℂ) (x : ℤ × ℤ × ℂ) (h : CellInside P.rows P.cols x) : ∃ Q, setIdx2 P x.1 x.2.1 x.2.2 = .ok Q ∧ Q.rows = P.rows ∧ Q.cols = P.cols ∧
    ∀ i j, i < P.rows → j < P.cols → (CellAt P.rows P.cols x i j → Q.at' i j = x.2.2) ∧ (¬ CellAt P.rows P.cols x i j → Q.at' i j = P.at' i j) := by
  obtain ⟨h1, h2, h3, h4⟩ := h
  unfold setIdx2
  simp only
  rw [if_neg (by split <;> split <;> omega)]
  refine ⟨_, rfl, rfl, rfl, fun i j hi hj => ?_⟩
  rw [Arr2.at'_ofFn hi hj]
  unfold CellAt
  constructor
  · intro hc
    rw [if_pos (by constructor <;> split <;> omega)]
  · intro hc
    rw [if_neg]
    rintro ⟨e1, e2⟩
    refine hc ⟨?_, ?_⟩
    · by_cases hn : x.1 < 0
      · rw [if_pos hn] at e1; right; omega
      · rw [if_neg hn] at e1; left; omega
    · by_cases hn : x.2.1 < 0
      · rw [if_pos hn] at e2; right; omega
      · rw [if_neg hn] at e2; left; omega

theorem set_error (P : Arr2 ℂ) (x : ℤ × ℤ × ℂ) (h : ¬ CellInside P.rows P.cols x) : setIdx2 P x.1 x.2.1 x.2.2 = .error ⟨.indexError, "index"⟩ := by
  unfold setIdx2
  simp only
  rw [if_pos]
  unfold CellInside at h
  split <;> split <;> omega

theorem loop (F : FloatText) (r c : ℕ) (lines : List Text) (cells : List (ℤ × ℤ × ℂ)) (h : List.Forall₂ (IsCell F) lines cells) : ∀ P : Arr2 ℂ, P.rows = r → P.cols = c →
    ((∀ x ∈ cells, CellInside r c x) → ∃ A, forM' lines P (cellStep F) = .ok A ∧ A.rows = r ∧ A.cols = c ∧ ∀ i j, i < r → j < c →
      (∀ pre x post, cells = pre ++ x :: post → CellAt r c x i j → (∀ y ∈ post, ¬ CellAt r c y i j) → A.at' i j = x.2.2) ∧
      ((∀ x ∈ cells, ¬ CellAt r c x i j) → A.at' i j = P.at' i j)) ∧
    ((∃ x ∈ cells, ¬ CellInside r c x) → forM' lines P (cellStep F) = .error ⟨.indexError, "index"⟩) := by
  induction h with
  | nil =>
    intro P hr hc
    exact ⟨fun _ => ⟨P, rfl, hr, hc, fun i j _ _ => ⟨fun pre x post e => by simp at e, fun _ => rfl⟩⟩, fun ⟨x, hx, _⟩ => by simp at hx⟩
  | @cons line x lines cells hx _ ih =>
    intro P hr hc
    by_cases hin : CellInside r c x
    · obtain ⟨Q, e, q1, q2, q3⟩ := set_ok P x (by rw [hr, hc]; exact hin)
      rw [hr, hc] at q3
      rw [hr] at q1
      rw [hc] at q2
      have est : forM' (line :: lines) P (cellStep F) = forM' lines Q (cellStep F) := by
        rw [forM', step hx P, e]
        rfl
      rw [est]
      refine ⟨fun hall => ?_, fun ⟨y, hy, hny⟩ => (ih Q q1 q2).2 ?_⟩
      · obtain ⟨A, eA, a1, a2, a3⟩ := (ih Q q1 q2).1 fun y hy => hall y (List.mem_cons_of_mem _ hy)
        refine ⟨A, eA, a1, a2, fun i j hi hj => ⟨fun pre y post ey hy hpost => ?_, fun hno => ?_⟩⟩
        · cases pre with
          | nil =>
            simp only [List.nil_append, List.cons.injEq] at ey
            obtain ⟨rfl, rfl⟩ := ey
            rw [(a3 i j hi hj).2 hpost, (q3 i j hi hj).1 hy]
          | cons z pre =>
            simp only [List.cons_append, List.cons.injEq] at ey
            exact (a3 i j hi hj).1 pre y post ey.2 hy hpost
        · rw [(a3 i j hi hj).2 fun y hy => hno y (List.mem_cons_of_mem _ hy), (q3 i j hi hj).2 (hno x (List.mem_cons_self ..))]
      · rcases List.mem_cons.1 hy with rfl | hy
        · exact absurd hin hny
        · exact ⟨y, hy, hny⟩
    · refine ⟨fun hall => absurd (hall x (List.mem_cons_self ..)) hin, fun _ => ?_⟩
      rw [forM', step hx P, set_error P x (by rw [hr, hc]; exact hin)]
      rfl

theorem load (F : FloatText) (text hd : Text) (lines : List Text) (r c : ℕ) (hr : readlines text = hd :: lines) (hh : IsHeader hd r c) :
    loadFdata F text = forM' lines (Arr2.ofFn r c fun _ _ => (0 : ℂ)) (cellStep F) := by
  obtain ⟨s, t, rest, hs, p1, p2⟩ := hh
  have hz : npZeros2 (r : Int) (c : Int) = .ok (Arr2.ofFn r c fun _ _ => (0 : ℂ)) := by
    unfold npZeros2
    rw [if_neg (by omega)]; rfl
  unfold loadFdata loadArray
  simp only [hr, getIdx_cons0, getIdx_cons1, Except.bind_ok, hs, p1, p2, List.drop_one, List.tail_cons, hz]
  rfl

theorem shows_unique {r c : ℕ} {cells cells' : List (ℤ × ℤ × ℂ)} (hp : cells'.Perm cells)
    (hd : ∀ i j, i < r → j < c → ∀ x ∈ cells, ∀ y ∈ cells, CellAt r c x i j → CellAt r c y i j → x.2.2 = y.2.2) {A B : Arr2 ℂ} (hA : ShowsCells r c cells A) (hB : ShowsCells r c cells' B) : A = B := by
  obtain ⟨a1, a2, a3⟩ := hA
  obtain ⟨b1, b2, b3⟩ := hB
  have last : ∀ (l : List (ℤ × ℤ × ℂ)) (i j : ℕ), (∀ x ∈ l, ¬ CellAt r c x i j) ∨ ∃ pre x post, l = pre ++ x :: post ∧ CellAt r c x i j ∧ ∀ y ∈ post, ¬ CellAt r c y i j := by
    intro l i j
    induction l with
    | nil => left; simp
    | cons z l ih =>
      rcases ih with h | ⟨pre, x, post, e, h1, h2⟩
      · by_cases hz : CellAt r c z i j
        · exact .inr ⟨[], z, l, rfl, hz, h⟩
        · left
          intro x hx
          rcases List.mem_cons.1 hx with rfl | hx
          · exact hz
          · exact h x hx
      · exact .inr ⟨z :: pre, x, post, by rw [e]; rfl, h1, h2⟩
  refine Arr2.ext' (by rw [a1, b1]) (by rw [a2, b2]) fun i j hi hj => ?_
  rw [a1] at hi
  rw [a2] at hj
  rcases last cells i j with h | ⟨pre, x, post, e, h1, h2⟩
  · rw [(a3 i j hi hj).2 h, (b3 i j hi hj).2 fun y hy => h y (hp.mem_iff.1 hy)]
  · rcases last cells' i j with h | ⟨pre', x', post', e', h1', h2'⟩
    · exact absurd h1 (h x (hp.mem_iff.2 (by rw [e]; simp)))
    · rw [(a3 i j hi hj).1 pre x post e h1 h2, (b3 i j hi hj).1 pre' x' post' e' h1' h2']
      exact hd i j hi hj x (by rw [e]; simp) x' (hp.mem_iff.1 (by rw [e']; simp)) h1 h1'

end FP2

/-- C126, contents: if every line addresses a position inside the announced shape, `load_fdata` returns at each position the value of the last line that addresses it and 0
where there is none; if some line addresses a position outside, it raises IndexError. -/
theorem c126_read (F : FloatText) (text hd : Text) (lines : List Text) (r c : ℕ) (cells : List (ℤ × ℤ × ℂ)) (hr : readlines text = hd :: lines) (hh : IsHeader hd r c)
    (h : List.Forall₂ (IsCell F) lines cells) :
    ((∀ x ∈ cells, CellInside r c x) → ∃ A, loadFdata F text = .ok A ∧ ShowsCells r c cells A) ∧
    ((∃ x ∈ cells, ¬ CellInside r c x) → (loadFdata F text).Raises .indexError) := by
  rw [FP2.load F text hd lines r c hr hh]
  obtain ⟨h1, h2⟩ := FP2.loop F r c lines cells h (Arr2.ofFn r c fun _ _ => 0) rfl rfl
  refine ⟨fun hin => ?_, fun hout => ⟨_, h2 hout⟩⟩
  obtain ⟨A, e, a1, a2, a3⟩ := h1 hin
  refine ⟨A, e, a1, a2, fun i j hi hj => ⟨(a3 i j hi hj).1, fun hno => ?_⟩⟩
  rw [(a3 i j hi hj).2 hno, Arr2.at'_ofFn hi hj]

/-- C126, rejections are shared: `load_patt` and `load_vpatt` raise IndexError whenever one of their files addresses a position outside its announced shape. -/
theorem c126_outside (F : FloatText) (text text' hd : Text) (lines : List Text) (r c : ℕ) (cells : List (ℤ × ℤ × ℂ)) (hr : readlines text = hd :: lines) (hh : IsHeader hd r c)
    (h : List.Forall₂ (IsCell F) lines cells) (hout : ∃ x ∈ cells, ¬ CellInside r c x) :
    (loadPatt F text).Raises .indexError ∧ (loadVpatt F text text').Raises .indexError ∧
      (∀ A, loadFdata F text' = .ok A → (loadVpatt F text' text).Raises .indexError) := by
  obtain ⟨s, e⟩ := (c126_read F text hd lines r c cells hr hh h).2 hout
  unfold loadFdata at e
  refine ⟨⟨s, ?_⟩, ⟨s, ?_⟩, fun A hA => ⟨s, ?_⟩⟩
  · unfold loadPatt; rw [e]; rfl
  · unfold loadVpatt; rw [e]; rfl
  · unfold loadFdata at hA
    unfold loadVpatt; rw [hA, e]; rfl

/-- C126, order: if no two lines give different values for the same position, the data lines may come in any order: all three loaders return the same. -/
theorem c126_order (F : FloatText) (text text' other hd hd' : Text) (lines lines' : List Text) (r c : ℕ) (cells : List (ℤ × ℤ × ℂ))
    (hr : readlines text = hd :: lines) (hr' : readlines text' = hd' :: lines') (hh : IsHeader hd r c) (hh' : IsHeader hd' r c) (hp : lines'.Perm lines)
    (h : List.Forall₂ (IsCell F) lines cells) (hin : ∀ x ∈ cells, CellInside r c x)
    (hsame : ∀ i j, i < r → j < c → ∀ x ∈ cells, ∀ y ∈ cells, CellAt r c x i j → CellAt r c y i j → x.2.2 = y.2.2) :
    loadFdata F text' = loadFdata F text ∧ loadPatt F text' = loadPatt F text ∧ loadVpatt F text' other = loadVpatt F text other ∧ loadVpatt F other text' = loadVpatt F other text := by
  obtain ⟨cells', hc', hpc⟩ := List.perm_comp_forall₂ hp h
  obtain ⟨A, eA, sA⟩ := (c126_read F text hd lines r c cells hr hh h).1 hin
  obtain ⟨B, eB, sB⟩ := (c126_read F text' hd' lines' r c cells' hr' hh' hc').1 fun x hx => hin x (hpc.mem_iff.1 hx)
  have e : A = B := FP2.shows_unique hpc hsame sA sB
  have e2 : loadArray F text' = loadArray F text := by
    have := eA.trans (e ▸ eB.symm)
    unfold loadFdata at this
    exact this.symm
  unfold loadFdata loadPatt loadVpatt
  rw [e2]
  exact ⟨rfl, rfl, rfl, rfl⟩

/-- C126, shapes: `load_vpatt` of two readable files of different shapes raises ValueError; of equal shapes (2 rows or more) it succeeds and keeps the shape and all interior rows. -/
theorem c126_vpatt (F : FloatText) (text text' : Text) (A B : Arr2 ℂ) (hA : loadFdata F text = .ok A) (hB : loadFdata F text' = .ok B) :
    (¬ (A.rows = B.rows ∧ A.cols = B.cols) → (loadVpatt F text text').Raises .valueError) ∧
    (A.rows = B.rows → A.cols = B.cols → 2 ≤ A.rows → ∃ p, loadVpatt F text text' = .ok p ∧ p.nrows = A.rows ∧ p.ncols = A.cols ∧
      ∀ n m, 0 < n → n < A.rows - 1 → m < A.cols → p.theta.at' n m = A.at' n m ∧ p.phi.at' n m = B.at' n m) := by
  unfold loadFdata at hA hB
  have e : loadVpatt F text text' = TPatt.init (.arr A) (.arr B) false := by
    unfold loadVpatt
    rw [hA, hB]
    rfl
  rw [e]
  obtain ⟨h1, h2⟩ := c21_transverse A B
  refine ⟨h1, fun hr hc h2r => ?_⟩
  obtain ⟨p, ep, pr, pc, hx⟩ := h2 hr hc h2r
  refine ⟨p, ep, pr, pc, fun n m hn hn' hm => ⟨?_, ?_⟩⟩
  · exact (hx (p.theta, A) (by simp)).2.2.1 n m hn hn' hm
  · exact (hx (p.phi, B) (by simp)).2.2.1 n m hn hn' hm

/-- Two concrete files with the same lines in different order; one line uses negative indices, and one position is missing. -/
example : ∃ A, loadFdata intText "2,2\n0,1,3,4\n-1,-2,5,6\n1,1,7,8\n".toList = .ok A ∧ A.at' 0 0 = 0 ∧ A.at' 0 1 = ⟨3, 4⟩ ∧ A.at' 1 0 = ⟨5, 6⟩ ∧ A.at' 1 1 = ⟨7, 8⟩ ∧
    loadFdata intText "2,2\n1,1,7,8\n0,1,3,4\n-1,-2,5,6\n".toList = .ok A := by
  have p : ∀ (s : Text) (i : ℤ), pyInt (strip s) = .ok i → intText.pyFloat s = .ok (i : ℝ) := fun s i h => by
    unfold FloatText.pyFloat intText
    simp only [h]
  have e : ∀ (s a b c d : Text) (n m i j : ℤ), splitChar ',' s = [a, b, c, d] → pyInt a = .ok n → pyInt b = .ok m → pyInt (strip c) = .ok i → pyInt (strip d) = .ok j →
      IsCell intText s (n, m, ⟨(i : ℝ), (j : ℝ)⟩) := fun s a b c d n m i j h1 h2 h3 h4 h5 => ⟨a, b, c, d, [], h1, h2, h3, p c i h4, p d j h5⟩
  have hf : List.Forall₂ (IsCell intText) ["0,1,3,4\n".toList, "-1,-2,5,6\n".toList, "1,1,7,8\n".toList]
      [(0, 1, ⟨((3 : ℤ) : ℝ), ((4 : ℤ) : ℝ)⟩), (-1, -2, ⟨((5 : ℤ) : ℝ), ((6 : ℤ) : ℝ)⟩), (1, 1, ⟨((7 : ℤ) : ℝ), ((8 : ℤ) : ℝ)⟩)] :=
    .cons (e _ ['0'] ['1'] ['3'] ['4', '\n'] 0 1 3 4 (by decide) (by decide) (by decide) (by decide) (by decide))
      (.cons (e _ ['-', '1'] ['-', '2'] ['5'] ['6', '\n'] (-1) (-2) 5 6 (by decide) (by decide) (by decide) (by decide) (by decide))
        (.cons (e _ ['1'] ['1'] ['7'] ['8', '\n'] 1 1 7 8 (by decide) (by decide) (by decide) (by decide) (by decide)) .nil))
  have hin : ∀ x ∈ [((0 : ℤ), (1 : ℤ), (⟨((3 : ℤ) : ℝ), ((4 : ℤ) : ℝ)⟩ : ℂ)), (-1, -2, ⟨((5 : ℤ) : ℝ), ((6 : ℤ) : ℝ)⟩), (1, 1, ⟨((7 : ℤ) : ℝ), ((8 : ℤ) : ℝ)⟩)], CellInside 2 2 x := by
    intro x hx
    simp only [List.mem_cons, List.not_mem_nil, or_false] at hx
    rcases hx with rfl | rfl | rfl <;> unfold CellInside <;> norm_num
  have hh : IsHeader "2,2\n".toList ((2 : ℕ) : ℤ) ((2 : ℕ) : ℤ) := ⟨['2'], ['2', '\n'], [], by decide, by decide, by decide⟩
  obtain ⟨A, eA, a1, a2, a3⟩ := (c126_read intText "2,2\n0,1,3,4\n-1,-2,5,6\n1,1,7,8\n".toList _ _ 2 2 _ (by decide) hh hf).1 hin
  have ho := (c126_order intText "2,2\n0,1,3,4\n-1,-2,5,6\n1,1,7,8\n".toList "2,2\n1,1,7,8\n0,1,3,4\n-1,-2,5,6\n".toList [] "2,2\n".toList "2,2\n".toList
    _ ["1,1,7,8\n".toList, "0,1,3,4\n".toList, "-1,-2,5,6\n".toList] 2 2 _ (by decide) (by decide) hh hh (by decide) hf hin (by
      intro i j hi hj x hx y hy
      simp only [List.mem_cons, List.not_mem_nil, or_false] at hx hy
      rcases hx with rfl | rfl | rfl <;> rcases hy with rfl | rfl | rfl <;> first | exact fun _ _ => rfl | (rintro ⟨k1, k2⟩ ⟨k3, k4⟩; exfalso; simp only at k1 k2 k3 k4; omega))).1
  refine ⟨A, eA, ?_, ?_, ?_, ?_, ho.trans eA⟩
  · refine (a3 0 0 (by decide) (by decide)).2 fun x hx => ?_
    simp only [List.mem_cons, List.not_mem_nil, or_false] at hx
    rcases hx with rfl | rfl | rfl <;> unfold CellAt <;> norm_num
  · rw [(a3 0 1 (by decide) (by decide)).1 [] _ _ rfl (by unfold CellAt; norm_num) (by simp [CellAt])]
    simp
  · rw [(a3 1 0 (by decide) (by decide)).1 [(0, 1, ⟨((3 : ℤ) : ℝ), ((4 : ℤ) : ℝ)⟩)] _ _ rfl (by unfold CellAt; norm_num) (by simp [CellAt])]
    simp
  · rw [(a3 1 1 (by decide) (by decide)).1 [(0, 1, ⟨((3 : ℤ) : ℝ), ((4 : ℤ) : ℝ)⟩), (-1, -2, ⟨((5 : ℤ) : ℝ), ((6 : ℤ) : ℝ)⟩)] _ _ rfl (by unfold CellAt; norm_num) (by simp)]
    simp

end Verif.Props
