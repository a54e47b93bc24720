import Verif.Props.Files
/-!
# C125: malformed vector coefficient files

`load_vcoef` reads a header, data lines for the first family, a line `break` and data lines for the second family.  This file says what it does with any
number of data lines and any number of `break` lines.
-/
namespace Verif.Props
open Verif

/-- The entries of `base` with the first ones replaced by `ws`. -/
def overlay (base ws : List ℂ) : List ℂ := ws ++ base.drop ws.length

/-- A line `break` followed by data lines with the values `ws`. -/
def IsBlock (F : FloatText) (b : Text × List Text) (ws : List ℂ) : Prop := strip b.1 = "break".toList ∧ List.Forall₂ (IsEntry F) b.2 ws

/-- A header `nmax,mmax,directivity`. -/
def IsVHeader (F : FloatText) (hd : Text) (nmax mmax : Int) (dir : ℝ) : Prop :=
  ∃ s t u rest, splitChar ',' hd = s :: t :: u :: rest ∧ pyInt s = .ok nmax ∧ pyInt t = .ok mmax ∧ F.pyFloat u = .ok dir

namespace FV2

theorem set_step (v : List ℂ) (n : ℕ) (x : ℂ) : (n < v.length → setIdx v (n : Int) x = .ok (v.set n x)) ∧ (v.length ≤ n → setIdx v (n : Int) x = .error ⟨.indexError, "index"⟩) := by
  refine ⟨fun h => by rw [setIdx_of_lt (by omega) (by omega), Int.toNat_natCast], fun h => ?_⟩
  unfold setIdx
  simp only [show ¬ ((n : Int) < 0) by omega, if_false]
  rw [if_neg (by omega)]

theorem take_set {v : List ℂ} {n : ℕ} (x : ℂ) (vs : List ℂ) (h : n < v.length) :
    (v.set n x).take (n + 1) ++ vs ++ (v.set n x).drop (n + 1 + vs.length) = v.take n ++ (x :: vs) ++ v.drop (n + (x :: vs).length) := by
  rw [List.take_succ, List.take_set_of_le (le_refl n), List.getElem?_set_self h, List.drop_set_of_lt (by omega)]
  simp only [Option.toList_some, List.append_assoc, List.cons_append, List.nil_append, List.length_cons]
  rw [show n + 1 + vs.length = n + (vs.length + 1) by omega]

theorem block1 (F : FloatText) (lines : List Text) (vs : List ℂ) (h : List.Forall₂ (IsEntry F) lines vs) : ∀ (v1 v2 : List ℂ) (n : ℕ), n ≤ v1.length →
    forM' lines ⟨v1, v2, n, false⟩ (vcStep F) = if n + vs.length ≤ v1.length then .ok ⟨v1.take n ++ vs ++ v1.drop (n + vs.length), v2, (n + vs.length : ℕ), false⟩ else .error ⟨.indexError, "index"⟩ := by
  induction h with
  | nil =>
    intro v1 v2 n h1
    simp only [forM', List.length_nil, Nat.add_zero, if_pos h1, List.append_nil, List.take_append_drop]
  | @cons line v lines vs he _ ih =>
    intro v1 v2 n h1
    have hnb := isEntry_not_break he
    obtain ⟨s, t, rest, hs, p1, p2⟩ := he
    have hn : ((n : ℕ) : ℤ) + 1 = ((n + 1 : ℕ) : ℤ) := by push_cast; rfl
    have est : vcStep F ⟨v1, v2, n, false⟩ line = (setIdx v1 (n : Int) v).bind fun v' => .ok ⟨v', v2, ((n + 1 : ℕ) : ℤ), false⟩ := by
      unfold vcStep
      rw [if_neg hnb]
      simp only [hs, getIdx_cons0, getIdx_cons1, Except.bind_ok, p1, p2, Bool.false_eq_true, if_false, hn]
    unfold forM'
    rw [est]
    by_cases hlt : n < v1.length
    · rw [(set_step v1 n v).1 hlt]
      simp only [Except.bind_ok]
      rw [ih (v1.set n v) v2 (n + 1) (by rw [List.length_set]; omega), List.length_set, take_set v vs hlt]
      simp only [List.length_cons, show n + 1 + vs.length = n + (vs.length + 1) by omega]
    · rw [(set_step v1 n v).2 (by omega), if_neg (by rw [List.length_cons]; omega)]
      rfl

theorem block2 (F : FloatText) (lines : List Text) (vs : List ℂ) (h : List.Forall₂ (IsEntry F) lines vs) : ∀ (v1 v2 : List ℂ) (n : ℕ), n ≤ v2.length →
    forM' lines ⟨v1, v2, n, true⟩ (vcStep F) = if n + vs.length ≤ v2.length then .ok ⟨v1, v2.take n ++ vs ++ v2.drop (n + vs.length), (n + vs.length : ℕ), true⟩ else .error ⟨.indexError, "index"⟩ := by
  induction h with
  | nil =>
    intro v1 v2 n h1
    simp only [forM', List.length_nil, Nat.add_zero, if_pos h1, List.append_nil, List.take_append_drop]
  | @cons line v lines vs he _ ih =>
    intro v1 v2 n h1
    have hnb := isEntry_not_break he
    obtain ⟨s, t, rest, hs, p1, p2⟩ := he
    have hn : ((n : ℕ) : ℤ) + 1 = ((n + 1 : ℕ) : ℤ) := by push_cast; rfl
    have est : vcStep F ⟨v1, v2, n, true⟩ line = (setIdx v2 (n : Int) v).bind fun v' => .ok ⟨v1, v', ((n + 1 : ℕ) : ℤ), true⟩ := by
      unfold vcStep
      rw [if_neg hnb]
      simp only [hs, getIdx_cons0, getIdx_cons1, Except.bind_ok, p1, p2, if_true, hn]
    unfold forM'
    rw [est]
    by_cases hlt : n < v2.length
    · rw [(set_step v2 n v).1 hlt]
      simp only [Except.bind_ok]
      rw [ih v1 (v2.set n v) (n + 1) (by rw [List.length_set]; omega), List.length_set, take_set v vs hlt]
      simp only [List.length_cons, show n + 1 + vs.length = n + (vs.length + 1) by omega]
    · rw [(set_step v2 n v).2 (by omega), if_neg (by rw [List.length_cons]; omega)]
      rfl

theorem blocks (F : FloatText) (L : ℕ) (bs : List (Text × List Text)) (wss : List (List ℂ)) (h : List.Forall₂ (IsBlock F) bs wss) : ∀ (v1 v2 : List ℂ) (n : ℤ) (f : Bool), v2.length = L →
    forM' (bs.map fun b => b.1 :: b.2).flatten ⟨v1, v2, n, f⟩ (vcStep F) = (if ∀ ws ∈ wss, ws.length ≤ L then
      .ok ⟨v1, wss.foldl overlay v2, if wss = [] then n else ((wss.getLastD []).length : ℤ), if wss = [] then f else true⟩ else .error ⟨.indexError, "index"⟩) := by
  induction h with
  | nil => intro v1 v2 n f _; simp [forM']
  | @cons b ws bs wss hb _ ih =>
    intro v1 v2 n f hL
    obtain ⟨brk, lines⟩ := b
    obtain ⟨hb1, hb2⟩ := hb
    have est : vcStep F ⟨v1, v2, n, f⟩ brk = .ok ⟨v1, v2, ((0 : ℕ) : ℤ), true⟩ := by
      unfold vcStep
      rw [if_pos hb1]
      rfl
    rw [List.map_cons, List.flatten_cons, List.cons_append]
    unfold forM'
    rw [est]
    simp only [Except.bind_ok]
    rw [forM'_append, block2 F lines ws hb2 v1 v2 0 (by omega)]
    simp only [Nat.zero_add, List.take_zero, List.nil_append]
    by_cases hle : ws.length ≤ v2.length
    · rw [if_pos hle]
      simp only [Except.bind_ok]
      rw [ih v1 (ws ++ v2.drop ws.length) ws.length true (by rw [List.length_append, List.length_drop]; omega)]
      have hiff : (∀ x ∈ ws :: wss, x.length ≤ L) ↔ ∀ x ∈ wss, x.length ≤ L := by
        rw [List.forall_mem_cons]
        exact ⟨fun h => h.2, fun h => ⟨by omega, h⟩⟩
      simp only [hiff]
      split
      · cases wss with
        | nil => simp [overlay]
        | cons a l => simp [overlay]
      · rfl
    · rw [if_neg hle, if_neg (fun h => hle (hL ▸ h ws (List.mem_cons_self ..)))]
      rfl

theorem fold_length (L : ℕ) : ∀ (wss : List (List ℂ)) (v : List ℂ), v.length = L → (∀ ws ∈ wss, ws.length ≤ L) → (wss.foldl overlay v).length = L
  | [], v, h, _ => h
  | ws :: wss, v, h, hw => by
    rw [List.foldl_cons]
    refine fold_length L wss _ ?_ fun x hx => hw x (List.mem_cons_of_mem _ hx)
    have := hw ws (List.mem_cons_self ..)
    unfold overlay
    rw [List.length_append, List.length_drop]
    omega

end FV2

/-- C125, exact behaviour: `load_vcoef` of a file with data lines `vs` and then any number of blocks (a line `break` and data lines).  If no block has more lines than there are
modes, the file is accepted: the first family is `vs` filled up with zeros; in the second every block overwrites the first entries of what the previous blocks left, starting from
zeros; `(0,0)` is set to 0.  Otherwise IndexError. -/
theorem c125_actual (F : FloatText) (text hd : Text) (lines : List Text) (bs : List (Text × List Text)) (nmax mmax : Int) (dir : ℝ) (vs : List ℂ) (wss : List (List ℂ))
    (h0 : 0 ≤ mmax) (hmn : mmax ≤ nmax) (hr : readlines text = hd :: (lines ++ (bs.map fun b => b.1 :: b.2).flatten)) (hh : IsVHeader F hd nmax mmax dir)
    (h1 : List.Forall₂ (IsEntry F) lines vs) (h2 : List.Forall₂ (IsBlock F) bs wss) (L : ℕ) (hL : L = (modes nmax mmax).card) :
    loadVcoef F text = if vs.length ≤ L ∧ ∀ ws ∈ wss, ws.length ≤ L then
        .ok (⟨⟨(overlay (List.replicate L 0) vs).set 0 0, nmax, mmax⟩, ⟨(wss.foldl overlay (List.replicate L 0)).set 0 0, nmax, mmax⟩, nmax, mmax⟩, dir)
      else .error ⟨.indexError, "index"⟩ := by
  obtain ⟨s, t, u, rest, hs, hp1, hp2, hp3⟩ := hh
  have hcard : lCount nmax mmax = (L : Int) := by rw [lCount_card h0 hmn, hL]
  have hf : ncFormula nmax mmax = (L : Int) := by rw [hL, modes_card h0 hmn, ncFormula_eq h0 hmn]
  have hpos : 0 < L := by
    have : ncFormula nmax mmax = (nmax + 1) + mmax * (2 * nmax - mmax + 1) := by unfold ncFormula; ring
    have h2 : 0 ≤ mmax * (2 * nmax - mmax + 1) := mul_nonneg h0 (by omega)
    omega
  have hn : npFull ((nmax + 1) + mmax * (2 * nmax - mmax + 1)) (0 : ℂ) = .ok (List.replicate L 0) := by
    unfold npFull
    have : (nmax + 1) + mmax * (2 * nmax - mmax + 1) = (L : Int) := hcard
    rw [this, if_neg (by omega), Int.toNat_natCast]
  have zl : (List.replicate L (0 : ℂ)).length = L := List.length_replicate
  unfold loadVcoef
  simp only [hr, getIdx_cons0, getIdx_cons1, getIdx_cons2, Except.bind_ok, hs, hp1, hp2, hp3, List.drop_one, List.tail_cons, hn]
  have a1 := FV2.block1 F lines vs h1 (List.replicate L 0) (List.replicate L 0) 0 (by omega)
  simp only [Nat.zero_add, List.take_zero, List.nil_append, zl] at a1
  rw [forM'_append, show (0 : ℤ) = ((0 : ℕ) : ℤ) from rfl, a1]
  by_cases c1 : vs.length ≤ L
  swap
  · rw [if_neg c1, if_neg (fun h => c1 h.1)]
    rfl
  rw [if_pos c1]
  simp only [Except.bind_ok]
  rw [FV2.blocks F L bs wss h2 _ _ _ _ zl]
  by_cases c2 : ∀ ws ∈ wss, ws.length ≤ L
  swap
  · rw [if_neg c2, if_neg (fun h => c2 h.2)]
    rfl
  rw [if_pos c2]
  rw [if_pos (show vs.length ≤ L ∧ ∀ ws ∈ wss, ws.length ≤ L from ⟨c1, c2⟩)]
  simp only [Except.bind_ok]
  have v1 : (vs ++ (List.replicate L (0 : ℂ)).drop vs.length).length = L := by rw [List.length_append, List.length_drop, zl]; omega
  have v2 := FV2.fold_length L wss _ zl c2
  have hinit : ∀ l : List ℂ, l.length = L → ScalarCoefs.init (.arr l) nmax mmax = .ok ⟨l, nmax, mmax⟩ := by
    intro l hl
    unfold ScalarCoefs.init
    rw [if_neg (by omega)]
    simp only
    rw [if_neg (by rw [hf, hl]; simp)]
  have hset : ∀ l : List ℂ, l.length = L → setIdx l 0 0 = .ok (l.set 0 0) := fun l hl => by
    rw [setIdx_of_lt (by omega) (by omega)]; rfl
  unfold VectorCoefs.init
  simp only
  rw [if_neg (by rw [v1, v2]; simp), if_neg (by omega), if_neg (by rw [hf, v1]; simp), hset _ v1, hset _ v2]
  simp only [Except.bind_ok]
  rw [hinit _ (by rw [List.length_set, v1]), hinit _ (by rw [List.length_set, v2])]
  rfl

/-- C125, the half that holds: if a block has more data lines than announced, the file is rejected. -/
theorem c125_too_many_partial (F : FloatText) (text hd : Text) (lines : List Text) (bs : List (Text × List Text)) (nmax mmax : Int) (dir : ℝ) (vs : List ℂ) (wss : List (List ℂ))
    (h0 : 0 ≤ mmax) (hmn : mmax ≤ nmax) (hr : readlines text = hd :: (lines ++ (bs.map fun b => b.1 :: b.2).flatten)) (hh : IsVHeader F hd nmax mmax dir)
    (h1 : List.Forall₂ (IsEntry F) lines vs) (h2 : List.Forall₂ (IsBlock F) bs wss)
    (h : (modes nmax mmax).card < lines.length ∨ ∃ b ∈ bs, (modes nmax mmax).card < b.2.length) : (loadVcoef F text).Raises .indexError := by
  rw [c125_actual F text hd lines bs nmax mmax dir vs wss h0 hmn hr hh h1 h2 _ rfl, if_neg]
  · exact ⟨_, rfl⟩
  rintro ⟨c1, c2⟩
  rcases h with h | ⟨b, hb, h⟩
  · rw [h1.length_eq] at h
    omega
  · obtain ⟨i, hi, rfl⟩ := List.getElem_of_mem hb
    have hi' : i < wss.length := by rw [← h2.length_eq]; exact hi
    have e := (List.forall₂_iff_get.mp h2).2 i hi hi'
    have e2 := e.2.length_eq
    simp only [List.get_eq_getElem] at e2
    have := c2 wss[i] (List.getElem_mem hi')
    omega

/-- C125, violated: a file without the line `break` and with at most as many data lines as there are modes is accepted, and the second family is silently zero. -/
theorem c125_no_break_counterexample (F : FloatText) (text hd : Text) (lines : List Text) (nmax mmax : Int) (dir : ℝ) (vs : List ℂ) (h0 : 0 ≤ mmax) (hmn : mmax ≤ nmax)
    (hr : readlines text = hd :: lines) (hh : IsVHeader F hd nmax mmax dir) (h1 : List.Forall₂ (IsEntry F) lines vs) (hl : lines.length ≤ (modes nmax mmax).card) :
    ∃ c : VectorCoefs ℂ, loadVcoef F text = .ok (c, dir) ∧ c.nmax = nmax ∧ c.mmax = mmax ∧ c.scoef2.vec = List.replicate (modes nmax mmax).card 0 := by
  have e := c125_actual F text hd lines [] nmax mmax dir vs [] h0 hmn (by simpa using hr) hh h1 .nil _ rfl
  rw [if_pos ⟨by rw [← h1.length_eq]; exact hl, by simp⟩] at e
  refine ⟨_, e, rfl, rfl, ?_⟩
  simp only [List.foldl_nil]
  rcases (modes nmax mmax).card with _ | k
  · rfl
  · rw [List.replicate_succ, List.set_cons_zero]

/-- C125, violated: a file cut off after any of its lines is accepted; what is missing is silently zero. -/
theorem c125_truncated_counterexample (F : FloatText) (text hd brk : Text) (l1 l2 : List Text) (nmax mmax : Int) (dir : ℝ) (vs ws : List ℂ) (h0 : 0 ≤ mmax) (hmn : mmax ≤ nmax)
    (hh : IsVHeader F hd nmax mmax dir) (hb : strip brk = "break".toList) (e1 : List.Forall₂ (IsEntry F) l1 vs) (e2 : List.Forall₂ (IsEntry F) l2 ws) (L : ℕ) (hL : L = (modes nmax mmax).card)
    (n1 : l1.length = L) (n2 : l2.length = L) (k : ℕ) (hk : k ≤ 2 * L + 1) (hr : readlines text = (hd :: (l1 ++ brk :: l2)).take (k + 1)) :
    loadVcoef F text = .ok (⟨⟨(overlay (List.replicate L 0) (vs.take k)).set 0 0, nmax, mmax⟩, ⟨(overlay (List.replicate L 0) (ws.take (k - L - 1))).set 0 0, nmax, mmax⟩, nmax, mmax⟩, dir) := by
  rw [List.take_succ_cons] at hr
  have vl : vs.length = L := by rw [← e1.length_eq, n1]
  by_cases hkL : k ≤ L
  · rw [List.take_append_of_le_length (by omega)] at hr
    have := c125_actual F text hd (l1.take k) [] nmax mmax dir (vs.take k) [] h0 hmn (by simpa using hr) hh (List.forall₂_take k e1) .nil L hL
    rw [if_pos ⟨by rw [List.length_take]; omega, by simp⟩] at this
    rw [this]
    have z : k - L - 1 = 0 := by omega
    simp [z, overlay]
  · obtain ⟨j, rfl⟩ : ∃ j, k = L + 1 + j := ⟨k - L - 1, by omega⟩
    rw [List.take_append, List.take_of_length_le (by omega), show L + 1 + j - l1.length = j + 1 by omega, List.take_succ_cons] at hr
    have := c125_actual F text hd l1 [(brk, l2.take j)] nmax mmax dir vs [ws.take j] h0 hmn (by simpa using hr) hh e1 (.cons ⟨hb, List.forall₂_take j e2⟩ .nil) L hL
    have wl : ws.length = L := by rw [← e2.length_eq, n2]
    rw [if_pos ⟨by omega, by simp [wl]⟩] at this
    rw [this, show L + 1 + j - L - 1 = j by omega, List.take_of_length_le (show vs.length ≤ L + 1 + j by omega)]
    rfl

/-- A concrete file: one data line is missing in the first block, and there are two `break` lines.  It is accepted. -/
example : loadVcoef intText "1,0,2\n3,4\nbreak\n5,6\n7,8\nbreak\n9,10\n".toList = .ok (⟨⟨[0, 0], 1, 0⟩, ⟨[0, ⟨7, 8⟩], 1, 0⟩, 1, 0⟩, 2) := by
  have p : ∀ (s : Text) (i : ℤ), pyInt (strip s) = .ok i → intText.pyFloat s = .ok (i : ℝ) := fun s i h => by
    unfold FloatText.pyFloat intText
    simp only [h]
  have e : ∀ (s : Text) (a b : Text) (i j : ℤ), splitChar ',' s = [a, b] → pyInt (strip a) = .ok i → pyInt (strip b) = .ok j → IsEntry intText s ⟨(i : ℝ), (j : ℝ)⟩ :=
    fun s a b i j h1 h2 h3 => ⟨a, b, [], h1, p a i h2, p b j h3⟩
  have hh : IsVHeader intText "1,0,2\n".toList 1 0 ((2 : ℤ) : ℝ) := ⟨['1'], ['0'], ['2', '\n'], [], by decide, by decide, by decide, p _ 2 (by decide)⟩
  have h := c125_actual intText "1,0,2\n3,4\nbreak\n5,6\n7,8\nbreak\n9,10\n".toList "1,0,2\n".toList ["3,4\n".toList]
    [("break\n".toList, ["5,6\n".toList, "7,8\n".toList]), ("break\n".toList, ["9,10\n".toList])] 1 0 ((2 : ℤ) : ℝ) [⟨((3 : ℤ) : ℝ), ((4 : ℤ) : ℝ)⟩]
    [[⟨((5 : ℤ) : ℝ), ((6 : ℤ) : ℝ)⟩, ⟨((7 : ℤ) : ℝ), ((8 : ℤ) : ℝ)⟩], [⟨((9 : ℤ) : ℝ), ((10 : ℤ) : ℝ)⟩]] (by decide) (by decide) (by decide) hh
    (.cons (e _ ['3'] ['4', '\n'] 3 4 (by decide) (by decide) (by decide)) .nil)
    (.cons ⟨by decide, .cons (e _ ['5'] ['6', '\n'] 5 6 (by decide) (by decide) (by decide)) (.cons (e _ ['7'] ['8', '\n'] 7 8 (by decide) (by decide) (by decide)) .nil)⟩
      (.cons ⟨by decide, .cons (e _ ['9'] ['1', '0', '\n'] 9 10 (by decide) (by decide) (by decide)) .nil⟩ .nil)) 2
    (by rw [modes_card (by decide) (by decide)]; decide)
  rw [h, if_pos (by simp)]
  simp [overlay, List.replicate]

end Verif.Props
