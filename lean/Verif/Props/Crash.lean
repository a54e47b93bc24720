import Verif.Props.Files
import Verif.Props.Coefs1
/-!
# Property C121: a save interrupted at any byte

`save_coef` and `save_patt` open the file for writing (which empties it) and append the text piece by piece; an interrupted call leaves some
prefix of the text.  What do `load_coef` and `load_fdata` make of it?
-/
namespace Verif.Props
open Verif

/-- The contents a file may have after a call that replaces `old` by `new` was interrupted: nothing happened yet, or the file was emptied and
some first part of the new text was written (characters reach the file in order). -/
inductive Interrupted (old new : Text) : Text → Prop
  | before : Interrupted old new old
  | during (k : ℕ) : Interrupted old new (new.take k)

namespace CR

/-- Where a text made of lines is cut. -/
theorem take_lines (ls : List Text) (k : ℕ) : ∃ i part, i ≤ ls.length ∧
    ((ls.map fun l => l ++ ['\n']).flatten).take k = ((ls.take i).map fun l => l ++ ['\n']).flatten ++ part ∧
    (part = [] ∨ ∃ l r, ls[i]? = some l ∧ part = l.take r ∧ part ≠ []) := by
  induction ls generalizing k with
  | nil => exact ⟨0, [], le_rfl, by simp, Or.inl rfl⟩
  | cons l ls ih =>
    by_cases h : k ≤ l.length
    · refine ⟨0, l.take k, by simp, ?_, ?_⟩
      · simp only [List.map_cons, List.flatten_cons, List.take_zero, List.map_nil, List.flatten_nil, List.nil_append, List.append_assoc]
        rw [List.take_append_of_le_length h]
      · by_cases h0 : l.take k = []
        · exact Or.inl h0
        · exact Or.inr ⟨l, k, by simp, rfl, h0⟩
    · obtain ⟨i, part, hi, e, hp⟩ := ih (k - (l.length + 1))
      refine ⟨i + 1, part, by simpa using hi, ?_, by simpa using hp⟩
      simp only [List.map_cons, List.flatten_cons, List.take_succ_cons]
      rw [List.take_append, List.take_of_length_le (by simp; omega), show (l ++ ['\n']).length = l.length + 1 by simp, e]
      simp only [List.append_assoc]

theorem readlines_part (s : Text) (h : ∀ c ∈ s, c ≠ '\n') (h0 : s ≠ []) : readlines s = [s] := by
  induction s with
  | nil => exact absurd rfl h0
  | cons c s ih =>
    unfold readlines
    rw [if_neg (h c List.mem_cons_self)]
    by_cases hs : s = []
    · subst hs; rfl
    · rw [ih (fun c hc => h c (List.mem_cons_of_mem _ hc)) hs]

/-- A field cut short has lost its comma or is cut after it. -/
theorem take_comma (a b : Text) (r : ℕ) : (∃ s, (a ++ ',' :: b).take r = s ∧ s = a.take r) ∨ ∃ r', (a ++ ',' :: b).take r = a ++ ',' :: b.take r' := by
  by_cases h : r ≤ a.length
  · exact Or.inl ⟨_, rfl, List.take_append_of_le_length h⟩
  · refine Or.inr ⟨r - a.length - 1, ?_⟩
    rw [List.take_append, List.take_of_length_le (by omega), show r - a.length = (r - a.length - 1) + 1 by omega, List.take_succ_cons]
    rfl

theorem digitsVal_mono (s t : Text) : digitsVal s ≤ digitsVal (s ++ t) := by
  induction t using List.reverseRecOn with
  | nil => simp
  | append_singleton t c ih => rw [← List.append_assoc, digitsVal_append]; omega

/-- `int()` of the first digits of a natural number: an error or a number that is not larger. -/
theorem pyInt_prefix (n : ℕ) (r : ℕ) :
    (pyInt ((fmtInt (n : Int)).take r)).Raises .valueError ∨ ∃ m : ℕ, m ≤ n ∧ pyInt ((fmtInt (n : Int)).take r) = .ok (m : Int) := by
  have e0 : fmtInt (n : Int) = fmtNat n := by unfold fmtInt; rw [if_neg (by omega)]; simp
  rw [e0]
  have hws : ∀ c ∈ (fmtNat n).take r, isWS c = false := fun c hc => by
    have := fmtInt_noWS (n : Int) c (by rw [e0]; exact List.mem_of_mem_take hc)
    exact this
  have hst := strip_noWS _ hws
  by_cases hnil : (fmtNat n).take r = []
  · left
    rw [hnil]
    exact ⟨_, by unfold pyInt; rfl⟩
  · right
    have hdig : ∀ c ∈ (fmtNat n).take r, ∃ d, d < 10 ∧ c = digitC d := fun c hc => fmtNat_digit n c (List.mem_of_mem_take hc)
    have hp : parseNat ((fmtNat n).take r) = some (digitsVal ((fmtNat n).take r)) := by
      unfold parseNat
      rw [if_neg]
      rintro (h | h)
      · exact hnil h
      · apply h
        rw [List.all_eq_true]
        intro c hc
        obtain ⟨d, hd, rfl⟩ := hdig c hc
        rw [digitC_toNat hd]; simp; omega
    have hn : digitsVal (fmtNat n) = n := by
      have := parseNat_fmtNat n
      unfold parseNat at this
      split at this
      · exact absurd this (by simp)
      · exact Option.some.inj this
    refine ⟨digitsVal ((fmtNat n).take r), ?_, ?_⟩
    · conv_rhs => rw [← hn, ← List.take_append_drop r (fmtNat n)]
      exact digitsVal_mono _ _
    · unfold pyInt
      rw [hst]
      cases e : (fmtNat n).take r with
      | nil => exact absurd e hnil
      | cons c t =>
        obtain ⟨d, hd, rfl⟩ := hdig c (by rw [e]; exact List.mem_cons_self)
        rw [e] at hp
        have h1 : digitC d ≠ '-' := by interval_cases d <;> decide
        have h2 : digitC d ≠ '+' := by interval_cases d <;> decide
        split
        · next t' he => simp at he; exact absurd he.1 h1
        · next t' he => simp at he; exact absurd he.1 h2
        · next => rw [hp]; rfl

theorem pyInt_err (s : Text) : (pyInt s).Raises .valueError ∨ ∃ i, pyInt s = .ok i := by
  unfold pyInt
  simp only
  split
  · next i _ => exact Or.inr ⟨i, rfl⟩
  · exact Or.inl ⟨_, rfl⟩

theorem pyFloat_err (F : FloatText) (s : Text) : (F.pyFloat s).Raises .valueError ∨ ∃ x, F.pyFloat s = .ok x := by
  unfold FloatText.pyFloat
  split
  · next x _ => exact Or.inr ⟨x, rfl⟩
  · exact Or.inl ⟨_, rfl⟩

/-- Some reported error. -/
def Bad {α : Type} (r : Res α) : Prop := r.Raises .indexError ∨ r.Raises .valueError

theorem bad_bind {α β : Type} {r : Res α} (f : α → Res β) (h : Bad r) : Bad (r.bind f) := by
  rcases h with ⟨m, rfl⟩ | ⟨m, rfl⟩
  · exact Or.inl ⟨m, rfl⟩
  · exact Or.inr ⟨m, rfl⟩

theorem getIdx_one_single (s : Text) : Bad (getIdx [s] 1) := Or.inl ⟨_, rfl⟩

/-- The loop body of `load_coef`. -/
noncomputable def coefStep (F : FloatText) (vec : List ℂ) (ln : Text × ℕ) : Res (List ℂ) :=
    let lst := splitChar ',' ln.1
    (getIdx lst 0).bind fun a => (F.pyFloat a).bind fun re =>
    (getIdx lst 1).bind fun b => (F.pyFloat b).bind fun im =>
    setIdx vec (ln.2 : Int) (⟨re, im⟩ : ℂ)

/-- A cut data line: an error, or an entry with the saved real part. -/
theorem cut_entry (F : FloatText) {v : ℂ} (hv : F.RoundTripsC v) (r : ℕ) :
    (∀ vec n, Bad (coefStep F vec ((entryText F v).take r, n))) ∨ ∃ y, IsEntry F ((entryText F v).take r) ⟨v.re, y⟩ := by
  rcases take_comma (F.fmt v.re) (F.fmt v.im) r with ⟨s, e, hs⟩ | ⟨r', e⟩
  · left
    intro vec n
    unfold coefStep entryText
    have hc : ∀ c ∈ s, c ≠ ',' := fun c hc => (hv.1.2 c (List.mem_of_mem_take (by rw [hs] at hc; exact hc))).1
    simp only
    rw [e, splitChar_none _ _ hc]
    simp only [getIdx_cons0, Except.bind_ok]
    rcases pyFloat_err F s with h | ⟨x, h⟩
    · exact bad_bind _ (Or.inr h)
    · rw [h]
      simp only [Except.bind_ok]
      exact bad_bind _ (getIdx_one_single s)
  · have hc : ∀ c ∈ (F.fmt v.im).take r', c ≠ ',' := fun c hc => (hv.2.2 c (List.mem_of_mem_take hc)).1
    have hsp : splitChar ',' ((entryText F v).take r) = [F.fmt v.re, (F.fmt v.im).take r'] := by
      unfold entryText
      rw [e, splitChar_sep _ _ _ (fun c hc => (hv.1.2 c hc).1), splitChar_none _ _ hc]
    rcases pyFloat_err F ((F.fmt v.im).take r') with h | ⟨y, h⟩
    · left
      intro vec n
      unfold coefStep
      simp only
      rw [hsp]
      simp only [getIdx_cons0, getIdx_cons1, Except.bind_ok, FloatText.pyFloat_fmt hv.1]
      exact bad_bind _ (Or.inr h)
    · right
      exact ⟨y, _, _, [], hsp, FloatText.pyFloat_fmt hv.1, h⟩

/-- A cut header line: an error, or a header announcing at most the saved second limit. -/
theorem cut_header (a b : ℕ) (r : ℕ) :
    ((∀ s t rest, splitChar ',' ((headText a b).take r) = s :: t :: rest → (pyInt t).Raises .valueError)) ∨
      ∃ m : ℕ, m ≤ b ∧ IsHeader ((headText a b).take r) a m := by
  rcases take_comma (fmtInt (a : Int)) (fmtInt (b : Int)) r with ⟨s, e, hs⟩ | ⟨r', e⟩
  · left
    have hc : ∀ c ∈ s, c ≠ ',' := fun c hc => fmtInt_noComma _ c (List.mem_of_mem_take (by rw [hs] at hc; exact hc))
    intro s' t rest h
    unfold headText at h
    rw [e, splitChar_none _ _ hc] at h
    simp at h
  · have hc : ∀ c ∈ (fmtInt (b : Int)).take r', c ≠ ',' := fun c hc => fmtInt_noComma _ c (List.mem_of_mem_take hc)
    have hsp : splitChar ',' ((headText a b).take r) = [fmtInt (a : Int), (fmtInt (b : Int)).take r'] := by
      unfold headText
      rw [e, splitChar_sep _ _ _ (fmtInt_noComma _), splitChar_none _ _ hc]
    rcases pyInt_prefix b r' with h | ⟨m, hm, h⟩
    · left
      intro s t rest hst
      rw [hsp] at hst
      simp at hst
      rw [← hst.2.1]
      exact h
    · exact Or.inr ⟨m, hm, _, _, [], hsp, pyInt_fmt _, h⟩

theorem load_bad_header (F : FloatText) {text hd : Text} {lines : List Text} (hr : readlines text = hd :: lines)
    (h : ∀ s t rest, splitChar ',' hd = s :: t :: rest → (pyInt t).Raises .valueError) : Bad (loadCoef F text) := by
  unfold loadCoef
  simp only [hr, getIdx_cons0, Except.bind_ok]
  cases e : splitChar ',' hd with
  | nil => exact absurd e (splitChar_ne_nil _ _)
  | cons s t =>
    simp only [getIdx_cons0, Except.bind_ok]
    rcases pyInt_err s with h1 | ⟨i, h1⟩
    · exact bad_bind _ (Or.inr h1)
    · rw [h1]
      simp only [Except.bind_ok]
      cases t with
      | nil => exact bad_bind _ (getIdx_one_single s)
      | cons t rest =>
        simp only [getIdx_cons1, Except.bind_ok]
        exact bad_bind _ (Or.inr (h s t rest e))

theorem load_bad_line (F : FloatText) {text hd bad : Text} {lines : List Text} {nmax mmax : Int} {vs : List ℂ} (h0 : 0 ≤ mmax) (h1 : mmax ≤ nmax)
    (hr : readlines text = hd :: (lines ++ [bad])) (hh : IsHeader hd nmax mmax) (h : List.Forall₂ (IsEntry F) lines vs)
    (hb : ∀ vec n, Bad (coefStep F vec (bad, n))) : Bad (loadCoef F text) := by
  obtain ⟨s, t, rest, hs, e1, e2⟩ := hh
  unfold loadCoef
  simp only [hr, getIdx_cons0, Except.bind_ok, hs, getIdx_cons1, e1, e2, List.drop_one, List.tail_cons]
  have hL : 0 ≤ lCount nmax mmax := by rw [lCount_card h0 h1]; omega
  have hn : npFull ((nmax + 1) + mmax * (2 * nmax - mmax + 1)) (0 : ℂ) = .ok (List.replicate (lCount nmax mmax).toNat 0) := by
    unfold npFull
    rw [if_neg (by unfold lCount at hL; omega)]; rfl
  rw [hn]
  simp only [Except.bind_ok]
  refine bad_bind _ ?_
  have e := loadCoefLines_eq F (lCount nmax mmax).toNat lines vs h [] (by simp)
  simp only [List.length_nil, List.nil_append, Nat.sub_zero, Nat.zero_add] at e
  unfold loadCoefLines
  rw [List.zipIdx_append, forM'_append, e]
  split
  · simp only [Except.bind_ok, List.zipIdx_cons, List.zipIdx_nil, forM']
    exact bad_bind _ (hb _ _)
  · exact bad_bind _ (Or.inl ⟨_, rfl⟩)

theorem count_lines (ls : List Text) (h : ∀ l ∈ ls, ∀ c ∈ l, c ≠ '\n') : ((ls.map fun l => l ++ ['\n']).flatten).count '\n' = ls.length := by
  induction ls with
  | nil => rfl
  | cons l ls ih =>
    simp only [List.map_cons, List.flatten_cons, List.count_append, List.length_cons]
    rw [ih fun l hl => h l (List.mem_cons_of_mem _ hl), List.count_eq_zero.2 fun hm => h l List.mem_cons_self _ hm rfl]
    simp; omega

end CR

/-- **C121, exact behaviour**: for every well-formed set and every place `k` at which writing its file may stop, `load_coef` of what is there
reports an error (IndexError or ValueError) or returns
* cut in the first line: a set of zeros with the same degree limit and an order limit that is not larger;
* cut after `i` complete data lines: the first `i` coefficients as saved, then possibly one with the saved real part and some imaginary part, and
  zeros. -/
theorem c121_coef_actual (F : FloatText) (c : ScalarCoefs ℂ) (hc : c.WellFormed) (hv : ∀ v ∈ c.vec, F.RoundTripsC v) :
    ∃ text, saveCoef F c = .ok text ∧ ∀ k : ℕ,
      (loadCoef F (text.take k)).Raises .indexError ∨ (loadCoef F (text.take k)).Raises .valueError ∨
      ('\n' ∉ text.take k ∧ ∃ m, 0 ≤ m ∧ m ≤ c.mmax ∧
        loadCoef F (text.take k) = .ok ⟨List.replicate (modes c.nmax m).card 0, c.nmax, m⟩) ∨
      ∃ i, (text.take k).count '\n' = i + 1 ∧
        (loadCoef F (text.take k) = .ok ⟨c.vec.take i ++ List.replicate (c.vec.length - i) 0, c.nmax, c.mmax⟩ ∨
          ∃ v y, c.vec[i]? = some v ∧
            loadCoef F (text.take k) = .ok ⟨c.vec.take i ++ ⟨v.re, y⟩ :: List.replicate (c.vec.length - i - 1) 0, c.nmax, c.mmax⟩) := by
  have hw := ScalarCoefs.wf_iff.2 hc
  refine ⟨_, saveCoef_eq F c hw, fun k => ?_⟩
  have hnl : ∀ l ∈ headText c.nmax c.mmax :: c.vec.map (entryText F), ∀ ch ∈ l, ch ≠ '\n' := by
    intro l hl
    rcases List.mem_cons.1 hl with rfl | hl
    · exact headText_noNL _ _
    · obtain ⟨v, hv', rfl⟩ := List.mem_map.1 hl
      exact entryText_noNL (hv v hv')
  have etext : (headText c.nmax c.mmax ++ ['\n']) ++ (c.vec.map fun v => entryText F v ++ ['\n']).flatten =
      ((headText c.nmax c.mmax :: c.vec.map (entryText F)).map fun l => l ++ ['\n']).flatten := by
    simp [Function.comp_def]
  obtain ⟨i, part, hi, e, hp⟩ := CR.take_lines (headText c.nmax c.mmax :: c.vec.map (entryText F)) k
  rw [etext, e]
  have hpnl : ∀ ch ∈ part, ch ≠ '\n' := by
    rcases hp with rfl | ⟨l, r, hl, rfl, -⟩
    · intro ch h; exact absurd h (by simp)
    · intro ch h
      exact hnl l (List.mem_of_getElem? hl) ch (List.mem_of_mem_take h)
  have hlines := readlines_flatten ((headText c.nmax c.mmax :: c.vec.map (entryText F)).take i)
    (fun l hl => hnl l (List.mem_of_mem_take hl)) part
  have hn0 : 0 ≤ c.nmax := le_trans hc.1 hc.2
  obtain ⟨a, ha⟩ := Int.eq_ofNat_of_zero_le hn0
  obtain ⟨b, hb⟩ := Int.eq_ofNat_of_zero_le hc.1
  cases i with
  | zero =>
    simp only [List.take_zero, List.map_nil, List.flatten_nil, List.nil_append] at hlines ⊢
    rcases hp with rfl | ⟨l, r, hl, rfl, hne⟩
    · left
      exact ⟨_, by unfold loadCoef; rfl⟩
    · simp only [List.getElem?_cons_zero, Option.some.injEq] at hl
      subst hl
      have hread := CR.readlines_part _ hpnl hne
      rcases CR.cut_header a b r with h | ⟨m, hm, h⟩
      · rw [← ha, ← hb] at h
        rcases CR.load_bad_header F hread h with h | h
        · exact Or.inl h
        · exact Or.inr (Or.inl h)
      · rw [← ha, ← hb] at h
        refine Or.inr (Or.inr (Or.inl ⟨fun hmem => hpnl _ hmem rfl, m, by omega, by omega, ?_⟩))
        rw [c44_actual F _ _ [] c.nmax m [] (by omega) (by have := hc.2; omega) hread h .nil, if_pos (by simp)]
        simp
  | succ i =>
    refine (or_iff_not_imp_left.2 fun hx => or_iff_not_imp_left.2 fun hy => Or.inr ⟨i, ?_, ?_⟩)
    · rw [List.count_append, CR.count_lines _ fun l hl => hnl l (List.mem_of_mem_take hl), List.length_take,
        List.count_eq_zero.2 fun hm => hpnl _ hm rfl]
      simp only [List.length_cons, List.length_map] at hi ⊢
      omega
    · have hi' : i ≤ c.vec.length := by simpa using hi
      have hv' : ∀ v ∈ c.vec.take i, F.RoundTripsC v := fun v h => hv v (List.mem_of_mem_take h)
      have hlen : (c.vec.take i).length = i := by rw [List.length_take]; omega
      have hcard : (modes c.nmax c.mmax).card = c.vec.length := hc.3.symm
      have hdata : ((headText c.nmax c.mmax :: c.vec.map (entryText F)).take (i + 1)).map (fun l => l ++ ['\n']) =
          (headText c.nmax c.mmax ++ ['\n']) :: (c.vec.take i).map fun v => entryText F v ++ ['\n'] := by
        simp [List.take_succ_cons, ← List.map_take, Function.comp_def]
      rw [hdata] at hlines hx hy ⊢
      rcases hp with rfl | ⟨l, r, hl, rfl, hne⟩
      · left
        simp only [readlines, List.append_nil] at hlines ⊢
        rw [c44_actual F _ _ _ c.nmax c.mmax (c.vec.take i) hc.1 hc.2 hlines (headText_isHeader _ _) (forall2_entries F _ hv')]
        simp only [List.length_map, hlen, hcard]
        rw [if_pos hi']
      · right
        simp only [List.getElem?_cons_succ, List.getElem?_map, Option.map_eq_some_iff] at hl
        obtain ⟨v, hvi, rfl⟩ := hl
        have hlt : i < c.vec.length := by
          by_contra hge
          rw [List.getElem?_eq_none (by omega)] at hvi
          exact absurd hvi (by simp)
        have hvr := hv v (List.mem_of_getElem? hvi)
        rw [CR.readlines_part _ hpnl hne, List.cons_append] at hlines
        rcases CR.cut_entry F hvr r with h | ⟨y, h⟩
        · exfalso
          rcases CR.load_bad_line F hc.1 hc.2 hlines (headText_isHeader _ _) (forall2_entries F _ hv') h with h | h
          · exact hx h
          · exact hy h
        · refine ⟨v, y, hvi, ?_⟩
          have hall : List.Forall₂ (IsEntry F) (((c.vec.take i).map fun v => entryText F v ++ ['\n']) ++ [(entryText F v).take r]) (c.vec.take i ++ [⟨v.re, y⟩]) :=
            List.rel_append (forall2_entries F _ hv') (.cons h .nil)
          rw [c44_actual F _ _ _ c.nmax c.mmax _ hc.1 hc.2 hlines (headText_isHeader _ _) hall]
          simp only [List.length_append, List.length_map, hlen, hcard, List.length_singleton]
          rw [if_pos (by omega)]
          simp [Nat.sub_sub]

/-- **C121 for the user**: whatever was in the file before and wherever `save_coef` was interrupted, if `load_coef` succeeds then it returns the
old contents, or a set with the new degree limit and at most the new order limit in which every coefficient, with the exception of one mode at most,
is the saved one or 0. -/
theorem c121_modes_partial (F : FloatText) (c : ScalarCoefs ℂ) (hc : c.WellFormed) (hv : ∀ v ∈ c.vec, F.RoundTripsC v) (text old file : Text)
    (hs : saveCoef F c = .ok text) (hf : Interrupted old text file) (d : ScalarCoefs ℂ) (hd : loadCoef F file = .ok d) :
    file = old ∨ (d.WellFormed ∧ d.nmax = c.nmax ∧ d.mmax ≤ c.mmax ∧ ∃ n₀ m₀ : Int, ∀ n m, IsMode d.nmax d.mmax n m → (n, m) ≠ (n₀, m₀) →
      readMap d n m = readMap c n m ∨ readMap d n m = some 0) := by
  obtain ⟨text', e, h⟩ := c121_coef_actual F c hc hv
  rw [hs] at e
  obtain rfl := Except.ok.inj e
  cases hf with
  | before => exact Or.inl rfl
  | during k =>
    right
    have hw := ScalarCoefs.wf_iff.2 hc
    rcases h k with ⟨m, h⟩ | ⟨m, h⟩ | ⟨-, m, m0, m1, h⟩ | ⟨i, -, h | ⟨v, y, hvi, h⟩⟩
    · rw [h] at hd; exact absurd hd (by simp)
    · rw [h] at hd; exact absurd hd (by simp)
    · rw [h] at hd
      obtain rfl := Except.ok.inj hd
      have hwd : (⟨List.replicate (modes c.nmax m).card 0, c.nmax, m⟩ : ScalarCoefs ℂ).WellFormed := ⟨m0, m1.trans hc.2, by simp⟩
      refine ⟨hwd, rfl, m1, 0, 0, fun n k hm _ => Or.inr ?_⟩
      rw [readMap_eq (ScalarCoefs.wf_iff.2 hwd), ScalarCoefs.absMap_mode (ScalarCoefs.wf_iff.2 hwd) hm]
      simp
    · rw [h] at hd
      obtain rfl := Except.ok.inj hd
      have hwd : (⟨c.vec.take i ++ List.replicate (c.vec.length - i) 0, c.nmax, c.mmax⟩ : ScalarCoefs ℂ).WellFormed :=
        ⟨hc.1, hc.2, by simp only [List.length_append, List.length_take, List.length_replicate]; rw [← hc.3]; omega⟩
      refine ⟨hwd, rfl, le_rfl, 0, 0, fun n k hm _ => ?_⟩
      rw [readMap_eq (ScalarCoefs.wf_iff.2 hwd), ScalarCoefs.absMap_mode (ScalarCoefs.wf_iff.2 hwd) hm, readMap_eq hw, ScalarCoefs.absMap_mode hw hm]
      simp only
      by_cases hj : slot c.nmax n k < (c.vec.take i).length
      · left
        rw [List.getElem_append_left hj, List.getElem_take]
      · right
        rw [List.getElem_append_right (by omega)]
        simp
    · rw [h] at hd
      obtain rfl := Except.ok.inj hd
      have hlt : i < c.vec.length := by
        by_contra hge
        rw [List.getElem?_eq_none (by omega)] at hvi
        exact absurd hvi (by simp)
      have hwd : (⟨c.vec.take i ++ ⟨v.re, y⟩ :: List.replicate (c.vec.length - i - 1) 0, c.nmax, c.mmax⟩ : ScalarCoefs ℂ).WellFormed :=
        ⟨hc.1, hc.2, by simp only [List.length_append, List.length_take, List.length_cons, List.length_replicate]; rw [← hc.3]; omega⟩
      obtain ⟨n₀, m₀, hm₀, h₀⟩ := slot_surj hc.1 hc.2 (j := i) (by rw [← hw.len']; exact hlt)
      refine ⟨hwd, rfl, le_rfl, n₀, m₀, fun n k hm hne => ?_⟩
      rw [readMap_eq (ScalarCoefs.wf_iff.2 hwd), ScalarCoefs.absMap_mode (ScalarCoefs.wf_iff.2 hwd) hm, readMap_eq hw, ScalarCoefs.absMap_mode hw hm]
      simp only
      have hsl : slot c.nmax n k ≠ i := fun he => by
        obtain ⟨h1, h2⟩ := slot_inj hm hm₀ (he.trans h₀.symm)
        exact hne (by rw [h1, h2])
      have hlen : (c.vec.take i).length = i := by rw [List.length_take]; omega
      by_cases hj : slot c.nmax n k < (c.vec.take i).length
      · left
        rw [List.getElem_append_left hj, List.getElem_take]
      · right
        rw [List.getElem_append_right (by omega), List.getElem_cons]
        rw [dif_neg (by omega)]
        simp

/-! ### A wrong value -/

namespace CR

/-- `float()` of one digit, with or without a minus sign. -/
theorem parse_digit (d : ℕ) (hd : d < 10) : floatText.pyFloat [digitC d] = .ok (d : ℝ) ∧ floatText.pyFloat ['-', digitC d] = .ok (-(d : ℝ)) := by
  have dd : ∀ z : ℝ, IsDouble z → toDouble z = some z := fun z hz => toDouble_of_near hz fun w hw hne => by
    rw [sub_self, abs_zero]; exact abs_pos.2 (sub_ne_zero.2 (Ne.symm hne))
  have hD : ∀ j : ℤ, |j| < 10 → IsDouble (j : ℝ) := fun j hj => ⟨j, 0, by omega, by norm_num, by norm_num, by simp⟩
  have hw : isWS (digitC d) = false := by interval_cases d <;> rfl
  have hu : parseUDec [digitC d] = some (d : ℝ) := by
    unfold parseUDec
    rw [splitChar_none _ _ (by intro c hc; simp at hc; subst hc; interval_cases d <;> decide)]
    simp only
    unfold parseMant
    rw [splitChar_none _ _ (by intro c hc; simp at hc; subst hc; interval_cases d <;> decide)]
    simp only
    have : parseNat [digitC d] = some d := by interval_cases d <;> rfl
    rw [this]; simp
  constructor
  · unfold FloatText.pyFloat
    rw [strip_noWS _ (by intro c hc; simp at hc; subst hc; exact hw)]
    have e : floatText.parse [digitC d] = some (d : ℝ) := by
      show (parseDec [digitC d]).bind toDouble = _
      have h1 : digitC d ≠ '-' := by interval_cases d <;> decide
      have h2 : digitC d ≠ '+' := by interval_cases d <;> decide
      have : parseDec [digitC d] = some (d : ℝ) := by
        unfold parseDec
        split
        · next t he => simp at he; exact absurd he.1 h1
        · next t he => simp at he; exact absurd he.1 h2
        · exact hu
      rw [this]
      exact dd _ (by have := hD (d : ℤ) (by rw [abs_of_nonneg] <;> omega); simpa using this)
    rw [e]
  · unfold FloatText.pyFloat
    rw [strip_noWS _ (by intro c hc; simp at hc; rcases hc with rfl | rfl; · rfl
                         · exact hw)]
    have e : floatText.parse ['-', digitC d] = some (-(d : ℝ)) := by
      show (parseDec ['-', digitC d]).bind toDouble = _
      have : parseDec ['-', digitC d] = some (-(d : ℝ)) := by
        unfold parseDec
        simp only [hu, Option.map_some]
      rw [this]
      exact dd _ (by have := hD (-(d : ℤ)) (by rw [abs_neg, abs_of_nonneg] <;> omega); simpa using this)
    rw [e]

/-- The first printed digit. -/
theorem first_digit {n : ℕ} (hn : n ≠ 0) : ∃ d t, 0 < d ∧ d < 10 ∧ fmtNat n = digitC d :: t := by
  have hne : Nat.digits 10 n ≠ [] := by rw [Ne, Nat.digits_eq_nil_iff_eq_zero]; exact hn
  have e : (Nat.digits 10 n).reverse = (Nat.digits 10 n).getLast hne :: (Nat.digits 10 n).dropLast.reverse := by
    conv_lhs => rw [← List.dropLast_append_getLast hne]
    simp
  refine ⟨(Nat.digits 10 n).getLast hne, (Nat.digits 10 n).dropLast.reverse.map digitC, Nat.pos_of_ne_zero (Nat.getLast_digit_ne_zero 10 hn),
    Nat.digits_lt_base (by norm_num) (List.getLast_mem hne), ?_⟩
  unfold fmtNat
  rw [if_neg hn, e]
  rfl

/-- A number printed and cut after its first digit is read as that digit. -/
theorem cut_number {x : ℝ} (hx : x ≠ 0) : ∃ r y, 0 < r ∧ r ≤ (fmtFloat x).length ∧ floatText.pyFloat ((fmtFloat x).take r) = .ok y ∧ y ≠ 0 ∧ |y| < 10 := by
  obtain ⟨h1, -, -⟩ := sci17_spec hx
  obtain ⟨d, t, d0, d1, e⟩ := first_digit (n := (sci17 x).1) (fun h => by rw [h] at h1; norm_num at h1)
  have hy : ((d : ℝ)) ≠ 0 ∧ |(d : ℝ)| < 10 := ⟨by exact_mod_cast d0.ne', by rw [abs_of_nonneg (by positivity)]; exact_mod_cast d1⟩
  unfold fmtFloat
  rw [if_neg hx, e]
  by_cases hneg : x < 0
  · rw [if_pos hneg]
    refine ⟨2, -(d : ℝ), by norm_num, by simp [pointText], ?_, neg_ne_zero.2 hy.1, by rw [abs_neg]; exact hy.2⟩
    have : (((['-'] ++ pointText (digitC d :: t)) ++ 'e' :: expText (sci17 x).2)).take 2 = ['-', digitC d] := by simp [pointText]
    rw [this]
    exact (parse_digit d d1).2
  · rw [if_neg hneg]
    refine ⟨1, (d : ℝ), by norm_num, by simp [pointText], ?_, hy.1, hy.2⟩
    have : ((([] ++ pointText (digitC d :: t)) ++ 'e' :: expText (sci17 x).2)).take 1 = [digitC d] := by simp [pointText]
    rw [this]
    exact (parse_digit d d1).1

end CR

/-- **C121, a wrong value does appear**: in the file of any set of doubles, at any coefficient with an imaginary part of modulus 10 or more, there is a
place where an interruption makes `load_coef` return, without an error, an imaginary part that is neither the saved one nor 0. -/
theorem c121_wrong_value_counterexample (c : ScalarCoefs ℂ) (hc : c.WellFormed) (hv : ∀ v ∈ c.vec, IsDoubleC v) (i : ℕ) (v : ℂ) (hi : c.vec[i]? = some v)
    (h10 : 10 ≤ |v.im|) :
    ∃ text k y, saveCoef floatText c = .ok text ∧ y ≠ v.im ∧ y ≠ 0 ∧
      loadCoef floatText (text.take k) = .ok ⟨c.vec.take i ++ ⟨v.re, y⟩ :: List.replicate (c.vec.length - i - 1) 0, c.nmax, c.mmax⟩ := by
  have hw := ScalarCoefs.wf_iff.2 hc
  have hvr : ∀ v ∈ c.vec, floatText.RoundTripsC v := fun v h => (hv v h).roundTrips
  have hlt : i < c.vec.length := by
    by_contra hge
    rw [List.getElem?_eq_none (by omega)] at hi
    exact absurd hi (by simp)
  have hvm := List.mem_of_getElem? hi
  have hx : v.im ≠ 0 := by intro h; rw [h, abs_zero] at h10; norm_num at h10
  obtain ⟨r, y, r0, r1, hp, y0, y1⟩ := CR.cut_number hx
  have hlen : (c.vec.take i).length = i := by rw [List.length_take]; omega
  have hcard : (modes c.nmax c.mmax).card = c.vec.length := hc.3.symm
  -- the text up to the cut
  have hsplit : c.vec = c.vec.take i ++ v :: c.vec.drop (i + 1) := by
    have e := List.getElem?_eq_getElem hlt
    rw [hi] at e
    obtain rfl := Option.some.inj e
    rw [← List.drop_eq_getElem_cons hlt, List.take_append_drop]
  obtain ⟨pre, hpre⟩ : ∃ pre, pre = (headText c.nmax c.mmax ++ ['\n']) ++ ((c.vec.take i).map fun v => entryText floatText v ++ ['\n']).flatten := ⟨_, rfl⟩
  obtain ⟨post, hpost⟩ : ∃ post, (headText c.nmax c.mmax ++ ['\n']) ++ (c.vec.map fun v => entryText floatText v ++ ['\n']).flatten =
      pre ++ ((fmtFloat v.re ++ ',' :: fmtFloat v.im) ++ post) := by
    refine ⟨'\n' :: ((c.vec.drop (i + 1)).map fun v => entryText floatText v ++ ['\n']).flatten, ?_⟩
    conv_lhs => rw [hsplit]
    rw [hpre]
    simp [entryText, floatText, -List.map_take, -List.map_drop]
  have htake : ((headText c.nmax c.mmax ++ ['\n']) ++ (c.vec.map fun v => entryText floatText v ++ ['\n']).flatten).take
      (pre.length + ((fmtFloat v.re).length + (r + 1))) = pre ++ (fmtFloat v.re ++ ',' :: (fmtFloat v.im).take r) := by
    rw [hpost, List.take_length_add_append, List.append_assoc, List.take_length_add_append, List.cons_append, List.take_succ_cons,
      List.take_append_of_le_length r1]
  refine ⟨_, pre.length + ((fmtFloat v.re).length + (r + 1)), y, saveCoef_eq floatText c hw, ?_, y0, ?_⟩
  · rintro rfl
    exact absurd y1 (not_lt.2 h10)
  · rw [htake]
    have hre := hvr v hvm
    have hnl : ∀ ch ∈ fmtFloat v.re ++ ',' :: (fmtFloat v.im).take r, ch ≠ '\n' := by
      intro ch hch
      rcases List.mem_append.1 hch with h | h
      · exact ne_newline_of_noWS (hre.1.2 ch h).2
      · rcases List.mem_cons.1 h with rfl | h
        · decide
        · exact ne_newline_of_noWS (hre.2.2 ch (List.mem_of_mem_take h)).2
    have hlines := readlines_flatten (headText c.nmax c.mmax :: (c.vec.take i).map (entryText floatText)) (by
      intro l hl
      rcases List.mem_cons.1 hl with rfl | hl
      · exact headText_noNL _ _
      · obtain ⟨w, hw', rfl⟩ := List.mem_map.1 hl
        exact entryText_noNL (hvr w (List.mem_of_mem_take hw'))) (fmtFloat v.re ++ ',' :: (fmtFloat v.im).take r)
    rw [CR.readlines_part _ hnl (by simp)] at hlines
    have epre : ((headText c.nmax c.mmax :: (c.vec.take i).map (entryText floatText)).map fun l => l ++ ['\n']).flatten = pre := by
      rw [hpre]; simp [Function.comp_def, -List.map_take]
    rw [epre] at hlines
    simp only [List.map_cons, List.map_map, List.cons_append, Function.comp_def] at hlines
    have hentry : IsEntry floatText (fmtFloat v.re ++ ',' :: (fmtFloat v.im).take r) ⟨v.re, y⟩ := by
      refine ⟨fmtFloat v.re, (fmtFloat v.im).take r, [], ?_, FloatText.pyFloat_fmt hre.1, hp⟩
      rw [splitChar_sep ',' (fmtFloat v.re) _ (fun c hc => (hre.1.2 c hc).1), splitChar_none ',' ((fmtFloat v.im).take r) fun c hc => (hre.2.2 c (List.mem_of_mem_take hc)).1]
    have hv' : ∀ v ∈ c.vec.take i, floatText.RoundTripsC v := fun v h => hvr v (List.mem_of_mem_take h)
    rw [c44_actual floatText _ _ _ c.nmax c.mmax (c.vec.take i ++ [⟨v.re, y⟩]) hc.1 hc.2 hlines (headText_isHeader _ _)
      (List.rel_append (forall2_entries floatText _ hv') (.cons hentry .nil))]
    simp only [List.length_append, List.length_map, hlen, hcard, List.length_singleton]
    rw [if_pos (by omega)]
    simp [Nat.sub_sub]

/-! ### Sample files -/

namespace CR

theorem cells_eq (r c : ℕ) : cells r c = (List.range (r * c)).map fun t => (t / c, t % c) := by
  induction r with
  | zero => simp [cells]
  | succ r ih =>
    have e : cells (r + 1) c = cells r c ++ (List.range c).map fun j => (r, j) := by simp [cells, List.range_succ]
    rw [e, ih, Nat.succ_mul, List.range_add, List.map_append, List.map_map]
    congr 1
    refine List.map_congr_left fun j hj => ?_
    have hj' := List.mem_range.1 hj
    simp only [Function.comp_apply, Prod.mk.injEq]
    constructor
    · rw [Nat.mul_comm, Nat.mul_add_div (by omega), Nat.div_eq_of_lt hj', Nat.add_zero]
    · rw [Nat.mul_comm, Nat.mul_add_mod, Nat.mod_eq_of_lt hj']

theorem mem_take_cells {r c n i j : ℕ} (hi : i < r) (hj : j < c) : (i, j) ∈ (cells r c).take n ↔ i * c + j < n := by
  have hlt : i * c + j < r * c := by
    calc i * c + j < i * c + c := by omega
      _ = (i + 1) * c := by ring
      _ ≤ r * c := Nat.mul_le_mul_right c hi
  rw [cells_eq, ← List.map_take, List.take_range, List.mem_map]
  constructor
  · rintro ⟨t, ht, e⟩
    simp only [Prod.mk.injEq] at e
    have := Nat.div_add_mod t c
    rw [e.1, e.2] at this
    have h2 := List.mem_range.1 ht
    rw [Nat.mul_comm] at this
    omega
  · intro h
    refine ⟨i * c + j, List.mem_range.2 (by omega), ?_⟩
    simp only [Prod.mk.injEq]
    constructor
    · rw [Nat.mul_comm, Nat.mul_add_div (by omega), Nat.div_eq_of_lt hj, Nat.add_zero]
    · rw [Nat.mul_comm, Nat.mul_add_mod, Nat.mod_eq_of_lt hj]

theorem getElem?_cells {r c t : ℕ} {p : ℕ × ℕ} (h : (cells r c)[t]? = some p) : p.1 < r ∧ p.2 < c ∧ p.1 * c + p.2 = t := by
  have hm := mem_cells.1 (show (p.1, p.2) ∈ cells r c from List.mem_of_getElem? h)
  refine ⟨hm.1, hm.2, ?_⟩
  rw [cells_eq, List.getElem?_map] at h
  cases e : (List.range (r * c))[t]? with
  | none => rw [e] at h; simp at h
  | some s =>
    rw [e] at h
    simp only [Option.map_some, Option.some.injEq] at h
    have hs : s = t := by
      rw [List.getElem?_eq_some_iff] at e
      obtain ⟨_, e⟩ := e
      simpa using e.symm
    subst hs
    rw [← h]
    simp only
    rw [Nat.mul_comm]
    exact Nat.div_add_mod s c

/-- A cut sample line: an error, or the right cell gets the saved real part. -/
theorem cut_cell (F : FloatText) {v : ℂ} (hv : F.RoundTripsC v) (i j r : ℕ) :
    (∀ P, Bad (cellStep F P ((cellText F i j v).take r))) ∨ ∃ y, ∀ P, cellStep F P ((cellText F i j v).take r) = setIdx2 P i j ⟨v.re, y⟩ := by
  have hre : ∀ c ∈ F.fmt v.re, c ≠ ',' := fun c hc => (hv.1.2 c hc).1
  have him : ∀ c ∈ F.fmt v.im, c ≠ ',' := fun c hc => (hv.2.2 c hc).1
  have e0 : cellText F i j v = fmtInt (i : Int) ++ ',' :: (fmtInt (j : Int) ++ ',' :: (F.fmt v.re ++ ',' :: F.fmt v.im)) := by
    simp [cellText]
  rw [e0]
  rcases take_comma (fmtInt (i : Int)) (fmtInt (j : Int) ++ ',' :: (F.fmt v.re ++ ',' :: F.fmt v.im)) r with ⟨s, e, hs⟩ | ⟨r1, e⟩
  · left
    intro P
    have hc : ∀ c ∈ s, c ≠ ',' := fun c hc => fmtInt_noComma _ c (List.mem_of_mem_take (by rw [hs] at hc; exact hc))
    unfold cellStep
    rw [e, splitChar_none _ _ hc]
    simp only [getIdx_cons0, Except.bind_ok]
    rcases pyInt_err s with h | ⟨x, h⟩
    · exact bad_bind _ (Or.inr h)
    · rw [h]; simp only [Except.bind_ok]
      exact bad_bind _ (Or.inl ⟨_, rfl⟩)
  · rw [e]
    rcases take_comma (fmtInt (j : Int)) (F.fmt v.re ++ ',' :: F.fmt v.im) r1 with ⟨s, e, hs⟩ | ⟨r2, e⟩
    · left
      intro P
      have hc : ∀ c ∈ s, c ≠ ',' := fun c hc => fmtInt_noComma _ c (List.mem_of_mem_take (by rw [hs] at hc; exact hc))
      unfold cellStep
      rw [e, splitChar_sep _ _ _ (fmtInt_noComma _), splitChar_none _ _ hc]
      simp only [getIdx_cons0, getIdx_cons1, Except.bind_ok, pyInt_fmt]
      rcases pyInt_err s with h | ⟨x, h⟩
      · exact bad_bind _ (Or.inr h)
      · rw [h]; simp only [Except.bind_ok]
        exact bad_bind _ (Or.inl ⟨_, rfl⟩)
    · rw [e]
      rcases take_comma (F.fmt v.re) (F.fmt v.im) r2 with ⟨s, e, hs⟩ | ⟨r3, e⟩
      · left
        intro P
        have hc : ∀ c ∈ s, c ≠ ',' := fun c hc => hre c (List.mem_of_mem_take (by rw [hs] at hc; exact hc))
        unfold cellStep
        rw [e, splitChar_sep _ _ _ (fmtInt_noComma _), splitChar_sep _ _ _ (fmtInt_noComma _), splitChar_none _ _ hc]
        simp only [getIdx_cons0, getIdx_cons1, getIdx_cons2, Except.bind_ok, pyInt_fmt]
        rcases pyFloat_err F s with h | ⟨x, h⟩
        · exact bad_bind _ (Or.inr h)
        · rw [h]; simp only [Except.bind_ok]
          exact bad_bind _ (Or.inl ⟨_, rfl⟩)
      · have hc : ∀ c ∈ (F.fmt v.im).take r3, c ≠ ',' := fun c hc => him c (List.mem_of_mem_take hc)
        have hsp : splitChar ',' (fmtInt (i : Int) ++ ',' :: (fmtInt (j : Int) ++ ',' :: (F.fmt v.re ++ ',' :: F.fmt v.im).take r2)) =
            [fmtInt (i : Int), fmtInt (j : Int), F.fmt v.re, (F.fmt v.im).take r3] := by
          rw [e, splitChar_sep _ _ _ (fmtInt_noComma _), splitChar_sep _ _ _ (fmtInt_noComma _), splitChar_sep _ _ _ hre, splitChar_none _ _ hc]
        rcases pyFloat_err F ((F.fmt v.im).take r3) with h | ⟨y, h⟩
        · left
          intro P
          unfold cellStep
          rw [hsp]
          simp only [getIdx_cons0, getIdx_cons1, getIdx_cons2, getIdx_cons3, Except.bind_ok, pyInt_fmt, FloatText.pyFloat_fmt hv.1]
          exact bad_bind _ (Or.inr h)
        · right
          refine ⟨y, fun P => ?_⟩
          unfold cellStep
          rw [hsp]
          simp only [getIdx_cons0, getIdx_cons1, getIdx_cons2, getIdx_cons3, Except.bind_ok, pyInt_fmt, FloatText.pyFloat_fmt hv.1, h]

theorem array_bad_header (F : FloatText) {text hd : Text} {lines : List Text} (hr : readlines text = hd :: lines)
    (h : ∀ s t rest, splitChar ',' hd = s :: t :: rest → (pyInt t).Raises .valueError) : Bad (loadArray F text) := by
  unfold loadArray
  simp only [hr, getIdx_cons0, Except.bind_ok]
  cases e : splitChar ',' hd with
  | nil => exact absurd e (splitChar_ne_nil _ _)
  | cons s t =>
    simp only [getIdx_cons0, Except.bind_ok]
    rcases pyInt_err s with h1 | ⟨i, h1⟩
    · exact bad_bind _ (Or.inr h1)
    · rw [h1]
      simp only [Except.bind_ok]
      cases t with
      | nil => exact bad_bind _ (getIdx_one_single s)
      | cons t rest =>
        simp only [getIdx_cons1, Except.bind_ok]
        exact bad_bind _ (Or.inr (h s t rest e))

theorem array_lines (F : FloatText) {text hd : Text} {lines : List Text} {r c : ℕ} (hr : readlines text = hd :: lines) (hh : IsHeader hd r c) :
    loadArray F text = forM' lines (Arr2.ofFn r c fun _ _ => (0 : ℂ)) (cellStep F) := by
  obtain ⟨s, t, rest, hs, e1, e2⟩ := hh
  unfold loadArray
  simp only [hr, getIdx_cons0, Except.bind_ok, hs, getIdx_cons1, e1, e2, List.drop_one, List.tail_cons]
  have hz : npZeros2 (r : Int) (c : Int) = .ok (Arr2.ofFn r c fun _ _ => (0 : ℂ)) := by
    unfold npZeros2
    rw [if_neg (by omega)]; rfl
  rw [hz]
  rfl

end CR

/-- **C121 for sample files**: `load_fdata` (which `load_patt` and `load_vpatt` start with) of a file whose writing by `save_patt` stopped at any place
reports an error or returns: cut in the first line, zeros with the same number of rows and at most as many columns; cut after `i` complete data lines,
an array of the right shape whose samples before number `i` (row by row) are the saved ones, whose sample number `i` is 0 or has the saved real part, and
whose later samples are 0. -/
theorem c121_samples_actual (F : FloatText) (p : SPatt ℂ) (A : Arr2 ℂ) (h1 : p.nrows = .ok A.rows) (h2 : p.ncols = .ok A.cols) (h3 : p.array = .ok A)
    (hv : ∀ i j, i < A.rows → j < A.cols → F.RoundTripsC (A.at' i j)) :
    ∃ text, savePatt F p = .ok text ∧ ∀ k : ℕ,
      (loadFdata F (text.take k)).Raises .indexError ∨ (loadFdata F (text.take k)).Raises .valueError ∨
      ('\n' ∉ text.take k ∧ ∃ m, m ≤ A.cols ∧ loadFdata F (text.take k) = .ok (Arr2.ofFn A.rows m fun _ _ => 0)) ∨
      ∃ i B, (text.take k).count '\n' = i + 1 ∧ loadFdata F (text.take k) = .ok B ∧ B.rows = A.rows ∧ B.cols = A.cols ∧
        ∀ a b, a < A.rows → b < A.cols →
          (a * A.cols + b < i → B.at' a b = A.at' a b) ∧ (a * A.cols + b = i → B.at' a b = 0 ∨ (B.at' a b).re = (A.at' a b).re) ∧
          (i < a * A.cols + b → B.at' a b = 0) := by
  refine ⟨_, savePatt_eq F A p h1 h2 h3, fun k => ?_⟩
  obtain ⟨g, hg⟩ : ∃ g : ℕ × ℕ → Text, g = fun ij => cellText F ij.1 ij.2 (A.at' ij.1 ij.2) := ⟨_, rfl⟩
  have hnl : ∀ l ∈ headText A.rows A.cols :: (cells A.rows A.cols).map g, ∀ ch ∈ l, ch ≠ '\n' := by
    intro l hl
    rcases List.mem_cons.1 hl with rfl | hl
    · exact headText_noNL _ _
    · obtain ⟨⟨i, j⟩, hij, rfl⟩ := List.mem_map.1 hl
      rw [mem_cells] at hij
      rw [hg]
      exact cellText_noNL (hv i j hij.1 hij.2)
  have etext : (headText A.rows A.cols ++ ['\n']) ++ ((cells A.rows A.cols).map fun ij => cellText F ij.1 ij.2 (A.at' ij.1 ij.2) ++ ['\n']).flatten =
      ((headText A.rows A.cols :: (cells A.rows A.cols).map g).map fun l => l ++ ['\n']).flatten := by
    simp [Function.comp_def, hg]
  obtain ⟨i, part, hi, e, hp⟩ := CR.take_lines (headText A.rows A.cols :: (cells A.rows A.cols).map g) k
  rw [etext, e]
  have hpnl : ∀ ch ∈ part, ch ≠ '\n' := by
    rcases hp with rfl | ⟨l, r, hl, rfl, -⟩
    · intro ch h; exact absurd h (by simp)
    · intro ch h
      exact hnl l (List.mem_of_getElem? hl) ch (List.mem_of_mem_take h)
  have hlines := readlines_flatten ((headText A.rows A.cols :: (cells A.rows A.cols).map g).take i)
    (fun l hl => hnl l (List.mem_of_mem_take hl)) part
  unfold loadFdata
  cases i with
  | zero =>
    simp only [List.take_zero, List.map_nil, List.flatten_nil, List.nil_append] at hlines ⊢
    rcases hp with rfl | ⟨l, r, hl, rfl, hne⟩
    · left
      exact ⟨_, by unfold loadArray; rfl⟩
    · simp only [List.getElem?_cons_zero, Option.some.injEq] at hl
      subst hl
      have hread := CR.readlines_part _ hpnl hne
      rcases CR.cut_header A.rows A.cols r with h | ⟨m, hm, h⟩
      · rcases CR.array_bad_header F hread h with h | h
        · exact Or.inl h
        · exact Or.inr (Or.inl h)
      · refine Or.inr (Or.inr (Or.inl ⟨fun hmem => hpnl _ hmem rfl, m, hm, ?_⟩))
        rw [CR.array_lines F hread h]; rfl
  | succ i =>
    refine (or_iff_not_imp_left.2 fun hx => or_iff_not_imp_left.2 fun hy => Or.inr ?_)
    have hcount : (((((headText A.rows A.cols :: (cells A.rows A.cols).map g).take (i + 1)).map fun l => l ++ ['\n']).flatten) ++ part).count '\n' = i + 1 := by
      rw [List.count_append, CR.count_lines _ fun l hl => hnl l (List.mem_of_mem_take hl), List.length_take,
        List.count_eq_zero.2 fun hm => hpnl _ hm rfl]
      simp only [List.length_cons, List.length_map] at hi ⊢
      omega
    have hdata : ((headText A.rows A.cols :: (cells A.rows A.cols).map g).take (i + 1)).map (fun l => l ++ ['\n']) =
        (headText A.rows A.cols ++ ['\n']) :: ((cells A.rows A.cols).take i).map fun ij => cellText F ij.1 ij.2 (A.at' ij.1 ij.2) ++ ['\n'] := by
      simp [List.take_succ_cons, ← List.map_take, Function.comp_def, hg]
    obtain ⟨P, eP, P1, P2, P3⟩ := cells_loop F A ((cells A.rows A.cols).take i) (fun ij h => mem_cells.1 (List.mem_of_mem_take h))
      (fun ij h => hv ij.1 ij.2 (mem_cells.1 (List.mem_of_mem_take h)).1 (mem_cells.1 (List.mem_of_mem_take h)).2)
      (Arr2.ofFn A.rows A.cols fun _ _ => 0) rfl rfl
    have PV : ∀ a b, a < A.rows → b < A.cols → (a * A.cols + b < i → P.at' a b = A.at' a b) ∧ (i ≤ a * A.cols + b → P.at' a b = 0) := by
      intro a b ha hb
      rw [P3 a b ha hb]
      constructor
      · intro h; rw [if_pos ((CR.mem_take_cells ha hb).2 h)]
      · intro h; rw [if_neg fun hm => absurd ((CR.mem_take_cells ha hb).1 hm) (by omega), Arr2.at'_ofFn ha hb]
    rcases hp with rfl | ⟨l, r, hl, rfl, hne⟩
    · refine ⟨i, P, hcount, ?_, P1, P2, fun a b ha hb => ⟨(PV a b ha hb).1, fun h => Or.inl ((PV a b ha hb).2 h.ge), fun h => (PV a b ha hb).2 h.le⟩⟩
      rw [hdata] at hlines ⊢
      simp only [readlines, List.append_nil] at hlines ⊢
      rw [CR.array_lines F hlines (headText_isHeader _ _)]
      exact eP
    · simp only [List.getElem?_cons_succ, List.getElem?_map, Option.map_eq_some_iff] at hl
      obtain ⟨⟨a₀, b₀⟩, hc, rfl⟩ := hl
      obtain ⟨a0, b0, hpos⟩ := CR.getElem?_cells hc
      simp only at a0 b0 hpos
      rw [CR.readlines_part _ hpnl hne, hdata, List.cons_append] at hlines
      rw [hdata] at hx hy hcount ⊢
      rw [CR.array_lines F hlines (headText_isHeader _ _), forM'_append, eP] at hx hy ⊢
      simp only [Except.bind_ok, forM'] at hx hy ⊢
      rw [hg] at hx hy ⊢
      simp only at hx hy ⊢
      rcases CR.cut_cell F (hv a₀ b₀ a0 b0) a₀ b₀ r with h | ⟨y, h⟩
      · exfalso
        rcases CR.bad_bind (fun s => Except.ok s) (h P) with h | h
        · exact hx h
        · exact hy h
      · rw [h P, setIdx2_nat P a₀ b₀ _ (by omega) (by omega)]
        refine ⟨i, _, by rw [hg] at hcount; exact hcount, rfl, P1, P2, fun a b ha hb => ?_⟩
        rw [Arr2.at'_ofFn (by omega) (by omega)]
        refine ⟨fun hlt => ?_, fun heq => ?_, fun hgt => ?_⟩
        · rw [if_neg (by rintro ⟨rfl, rfl⟩; omega)]
          exact (PV a b ha hb).1 hlt
        · by_cases hab : a = a₀ ∧ b = b₀
          · rw [if_pos hab, hab.1, hab.2]; exact Or.inr rfl
          · rw [if_neg hab]; exact Or.inl ((PV a b ha hb).2 heq.ge)
        · rw [if_neg (by rintro ⟨rfl, rfl⟩; omega)]
          exact (PV a b ha hb).2 hgt.le

/-! ### Concrete cases -/

/-- The set with the coefficients `1 + 15i`, `2`, `3i`, `4` and limits `(1, 1)`. -/
noncomputable def crashSet : ScalarCoefs ℂ := ⟨[⟨1, 15⟩, ⟨2, 0⟩, ⟨0, 3⟩, ⟨4, 0⟩], 1, 1⟩

theorem crashSet_wf : crashSet.WellFormed := ⟨by decide, by decide, by unfold crashSet; decide⟩

theorem crashSet_doubles : ∀ v ∈ crashSet.vec, IsDoubleC v := by
  have h : ∀ j : ℤ, |j| < 2 ^ 53 → IsDouble (j : ℝ) := fun j hj => ⟨j, 0, hj, by norm_num, by norm_num, by simp⟩
  have h0 := h 0 (by norm_num); have h1 := h 1 (by norm_num); have h2 := h 2 (by norm_num); have h3 := h 3 (by norm_num)
  have h4 := h 4 (by norm_num); have h15 := h 15 (by norm_num)
  norm_num at h0 h1 h2 h3 h4 h15
  intro v hv
  simp only [crashSet, List.mem_cons, List.not_mem_nil, or_false] at hv
  rcases hv with rfl | rfl | rfl | rfl
  · exact ⟨h1, h15⟩
  · exact ⟨h2, h0⟩
  · exact ⟨h0, h3⟩
  · exact ⟨h4, h0⟩

/-- The hypotheses of the theorems hold for this set; a cut file of it is read with a wrong first coefficient. -/
example : ∃ text k y, saveCoef floatText crashSet = .ok text ∧ y ≠ 15 ∧ y ≠ 0 ∧ loadCoef floatText (text.take k) = .ok ⟨[⟨1, y⟩, 0, 0, 0], 1, 1⟩ := by
  obtain ⟨text, k, y, h1, h2, h3, h4⟩ := c121_wrong_value_counterexample crashSet crashSet_wf crashSet_doubles 0 ⟨1, 15⟩ rfl (by norm_num)
  exact ⟨text, k, y, h1, h2, h3, h4⟩

/-- The hypotheses of `c121_samples_actual` hold for the pattern of ones with 4 rows in memory and 2 columns. -/
example : ∃ (p : SPatt ℂ) (A : Arr2 ℂ), p.nrows = .ok A.rows ∧ p.ncols = .ok A.cols ∧ p.array = .ok A ∧ A.rows = 3 ∧ A.cols = 2 ∧
    ∀ i j, i < A.rows → j < A.cols → floatText.RoundTripsC (A.at' i j) := by
  refine ⟨⟨.arr (Arr2.ofFn 4 2 fun _ _ => 1)⟩, (Arr2.ofFn 4 2 fun _ _ => (1 : ℂ)).takeRows 3, rfl, rfl, rfl, rfl, rfl, fun i j hi hj => ?_⟩
  have e : ((Arr2.ofFn 4 2 fun _ _ => (1 : ℂ)).takeRows 3).at' i j = 1 := by
    have hi' : i < 3 := hi
    have hj' : j < 2 := hj
    unfold Arr2.takeRows
    rw [Arr2.at'_ofFn (by show i < min 3 4; omega) (by show j < 2; omega), Arr2.at'_ofFn (by omega) (by omega)]
  rw [e]
  have h : ∀ j : ℤ, |j| < 2 ^ 53 → IsDouble (j : ℝ) := fun j hj => ⟨j, 0, hj, by norm_num, by norm_num, by simp⟩
  have h0 := h 0 (by norm_num); have h1 := h 1 (by norm_num)
  exact IsDoubleC.roundTrips ⟨by simpa using h1, by simpa using h0⟩

end Verif.Props
