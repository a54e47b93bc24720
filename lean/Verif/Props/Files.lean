import Verif.FileLemmas
import Verif.FloatText
import Verif.CoefsLemmas2
import Verif.Props.Patterns
/-!
# Properties C42, C43, C44, C52: files
-/
namespace Verif.Props
open Verif

/-! ### Text of a saved coefficient set -/

/-- The text of one data line (without the newline). -/
def entryText (F : FloatText) (v : ℂ) : Text := F.fmt v.re ++ ',' :: F.fmt v.im

theorem entryText_noNL {F : FloatText} {v : ℂ} (h : F.RoundTripsC v) : ∀ c ∈ entryText F v, c ≠ '\n' := by
  intro c hc
  rcases List.mem_append.1 hc with h1 | h1
  · exact ne_newline_of_noWS (h.1.2 c h1).2
  · rcases List.mem_cons.1 h1 with rfl | h1
    · decide
    · exact ne_newline_of_noWS (h.2.2 c h1).2

theorem entryText_isEntry {F : FloatText} {v : ℂ} (h : F.RoundTripsC v) : IsEntry F (entryText F v ++ ['\n']) v := by
  refine ⟨F.fmt v.re, F.fmt v.im ++ ['\n'], [], ?_, FloatText.pyFloat_fmt h.1, FloatText.pyFloat_fmt_nl h.2⟩
  unfold entryText
  rw [List.append_assoc, List.cons_append, splitChar_sep _ _ _ (fun c hc => (h.1.2 c hc).1), splitChar_none]
  intro c hc
  rcases List.mem_append.1 hc with h1 | h1
  · exact (h.2.2 c h1).1
  · simp at h1; subst h1; decide

/-- The text of a header line (without the newline). -/
def headText (a b : Int) : Text := fmtInt a ++ ',' :: fmtInt b

theorem headText_noNL (a b : Int) : ∀ c ∈ headText a b, c ≠ '\n' := by
  intro c hc
  rcases List.mem_append.1 hc with h1 | h1
  · exact ne_newline_of_noWS (fmtInt_noWS _ c h1)
  · rcases List.mem_cons.1 h1 with rfl | h1
    · decide
    · exact ne_newline_of_noWS (fmtInt_noWS _ c h1)

theorem headText_split (a b : Int) : splitChar ',' (headText a b ++ ['\n']) = [fmtInt a, fmtInt b ++ ['\n']] := by
  unfold headText
  rw [List.append_assoc, List.cons_append, splitChar_sep _ _ _ (fmtInt_noComma a), splitChar_none]
  intro c hc
  rcases List.mem_append.1 hc with h1 | h1
  · exact fmtInt_noComma _ c h1
  · simp at h1; subst h1; decide

theorem headText_isHeader (a b : Int) : IsHeader (headText a b ++ ['\n']) a b :=
  ⟨_, _, [], headText_split a b, pyInt_fmt a, pyInt_fmt_nl b⟩

theorem saveCoef_eq (F : FloatText) (c : ScalarCoefs ℂ) (hc : c.WF) :
    saveCoef F c = .ok ((headText c.nmax c.mmax ++ ['\n']) ++ (c.vec.map fun v => entryText F v ++ ['\n']).flatten) := by
  unfold saveCoef
  have hL : (c.nmax + 1) + c.mmax * (2 * c.nmax - c.mmax + 1) = (c.vec.length : Int) := by
    rw [hc.len, ← lFormula_eq]; rfl
  simp only [hL]
  obtain ⟨t, e, ht⟩ := forM'_range_inv (a := 0) (b := (c.vec.length : Int)) (by omega) (fmtInt c.nmax ++ ',' :: fmtInt c.mmax ++ ['\n'])
    (fun out n => (getIdx c.vec n).bind fun v => .ok (out ++ (F.fmt v.re ++ ',' :: F.fmt v.im ++ ['\n'])))
    (fun k out => out = (headText c.nmax c.mmax ++ ['\n']) ++ ((c.vec.take k.toNat).map fun v => entryText F v ++ ['\n']).flatten)
    (by simp [headText])
    (by
      intro i s h1 h2 hs
      obtain ⟨k, rfl⟩ := Int.eq_ofNat_of_zero_le h1
      rw [getIdx_of_lt h1 h2]
      refine ⟨_, rfl, ?_⟩
      have hk : k < c.vec.length := by omega
      have e1 : ((k : Int) + 1).toNat = k + 1 := by omega
      rw [hs, e1, List.take_succ_eq_append_getElem hk, List.map_append, List.flatten_append, List.append_assoc]
      simp [entryText, -List.map_take])
  rw [e, ht]
  simp

/-- The lines of a saved coefficient file. -/
theorem saved_lines (F : FloatText) (c : ScalarCoefs ℂ) (hv : ∀ v ∈ c.vec, F.RoundTripsC v) :
    readlines ((headText c.nmax c.mmax ++ ['\n']) ++ (c.vec.map fun v => entryText F v ++ ['\n']).flatten) =
      (headText c.nmax c.mmax ++ ['\n']) :: c.vec.map fun v => entryText F v ++ ['\n'] := by
  have h := readlines_flatten (headText c.nmax c.mmax :: c.vec.map (entryText F)) (by
    intro l hl
    rcases List.mem_cons.1 hl with rfl | hl
    · exact headText_noNL _ _
    · obtain ⟨v, hv', rfl⟩ := List.mem_map.1 hl
      exact entryText_noNL (hv v hv')) []
  simpa [readlines, Function.comp_def] using h

theorem forall2_entries (F : FloatText) (l : List ℂ) (hv : ∀ v ∈ l, F.RoundTripsC v) :
    List.Forall₂ (IsEntry F) (l.map fun v => entryText F v ++ ['\n']) l := by
  induction l with
  | nil => exact .nil
  | cons v l ih =>
    exact .cons (entryText_isEntry (hv v List.mem_cons_self)) (ih fun v' h' => hv v' (List.mem_cons_of_mem _ h'))

theorem lCount_card {nmax mmax : Int} (h0 : 0 ≤ mmax) (h1 : mmax ≤ nmax) : lCount nmax mmax = ((modes nmax mmax).card : Int) := by
  rw [modes_card h0 h1, ← ncFormula_eq h0 h1, ← lFormula_eq]; rfl

/-- **C42**: a saved coefficient set loads back unchanged, for every well-formed set all of whose real and imaginary parts
survive number formatting. -/
theorem c42_coef_round_trip (F : FloatText) (c : ScalarCoefs ℂ) (hc : c.WellFormed) (hv : ∀ v ∈ c.vec, F.RoundTripsC v) :
    ∃ text, saveCoef F c = .ok text ∧ loadCoef F text = .ok c := by
  have hw := ScalarCoefs.wf_iff.2 hc
  refine ⟨_, saveCoef_eq F c hw, ?_⟩
  have hL : lCount c.nmax c.mmax = (c.vec.length : Int) := by rw [lCount_card hc.1 hc.2, hc.3]
  rw [loadCoef_eq F _ _ _ _ _ c.vec (saved_lines F c hv) (headText_isHeader _ _) (forall2_entries F c.vec hv) (by omega)]
  rw [hL]
  simp only [Int.toNat_natCast, le_refl, if_true, Nat.sub_self, List.replicate_zero, List.append_nil]
  unfold ScalarCoefs.init
  rw [if_neg (by have := hc.2; omega)]
  simp only
  rw [if_neg (by rw [hw.len]; simp)]

/-- **C44, exact behaviour**: a file with a well-formed header and well-formed data lines (first two fields numbers) is
rejected (IndexError) iff it has more data lines than modes; with fewer lines the missing modes are 0. -/
theorem c44_actual (F : FloatText) (text hd : Text) (lines : List Text) (nmax mmax : Int) (vs : List ℂ) (h0 : 0 ≤ mmax)
    (h1 : mmax ≤ nmax) (hr : readlines text = hd :: lines) (hh : IsHeader hd nmax mmax) (h : List.Forall₂ (IsEntry F) lines vs) :
    loadCoef F text = if lines.length ≤ (modes nmax mmax).card then
        .ok ⟨vs ++ List.replicate ((modes nmax mmax).card - lines.length) 0, nmax, mmax⟩
      else .error ⟨.indexError, "index"⟩ := by
  rw [loadCoef_eq F _ _ _ _ _ vs hr hh h (by rw [lCount_card h0 h1]; omega), lCount_card h0 h1, Int.toNat_natCast, h.length_eq]
  split
  · next hle =>
    unfold ScalarCoefs.init
    rw [if_neg (by omega)]
    simp only
    rw [if_neg]
    have e : ncFormula nmax mmax = ((modes nmax mmax).card : Int) := by rw [modes_card h0 h1, ncFormula_eq h0 h1]
    rw [e]
    simp; omega
  · rfl

/-- **C44, the half that holds**: too many data lines are rejected. -/
theorem c44_too_many_partial (F : FloatText) (text hd : Text) (lines : List Text) (nmax mmax : Int) (vs : List ℂ) (h0 : 0 ≤ mmax)
    (h1 : mmax ≤ nmax) (hr : readlines text = hd :: lines) (hh : IsHeader hd nmax mmax) (h : List.Forall₂ (IsEntry F) lines vs)
    (hl : (modes nmax mmax).card < lines.length) : (loadCoef F text).Raises .indexError := by
  rw [c44_actual F text hd lines nmax mmax vs h0 h1 hr hh h, if_neg (by omega)]
  exact ⟨_, rfl⟩

/-- **C44 is false for short files**: a file saved by `save_coef` and truncated after any number `k` of data lines (an
interrupted write) loads without error, the missing modes silently 0. -/
theorem c44_truncated_counterexample (F : FloatText) (c : ScalarCoefs ℂ) (hc : c.WellFormed) (hv : ∀ v ∈ c.vec, F.RoundTripsC v)
    (k : ℕ) (hk : k ≤ (modes c.nmax c.mmax).card) :
    ∃ text, saveCoef F c = .ok text ∧ (readlines text).length = (modes c.nmax c.mmax).card + 1 ∧
      loadCoef F ((readlines text).take (k + 1)).flatten =
        .ok ⟨c.vec.take k ++ List.replicate ((modes c.nmax c.mmax).card - k) 0, c.nmax, c.mmax⟩ := by
  have hw := ScalarCoefs.wf_iff.2 hc
  refine ⟨_, saveCoef_eq F c hw, ?_, ?_⟩
  · rw [saved_lines F c hv]; simp [hc.3]
  have hv' : ∀ v ∈ c.vec.take k, F.RoundTripsC v := fun v h => hv v (List.mem_of_mem_take h)
  have hlen : (c.vec.take k).length = k := by rw [List.length_take, hc.3]; omega
  have e := saved_lines F ⟨c.vec.take k, c.nmax, c.mmax⟩ hv'
  simp only at e
  have e2 : ((readlines ((headText c.nmax c.mmax ++ ['\n']) ++ (c.vec.map fun v => entryText F v ++ ['\n']).flatten)).take (k + 1)).flatten =
      (headText c.nmax c.mmax ++ ['\n']) ++ ((c.vec.take k).map fun v => entryText F v ++ ['\n']).flatten := by
    rw [saved_lines F c hv, List.take_succ_cons, List.flatten_cons, List.map_take]
  rw [e2, c44_actual F _ _ _ _ _ (c.vec.take k) hc.1 hc.2 e (headText_isHeader _ _) (forall2_entries F _ hv')]
  simp only [List.length_map, hlen]
  rw [if_pos hk]

/-! ### Patterns -/

/-- The text of one line of a pattern file (without the newline). -/
def cellText (F : FloatText) (i j : Nat) (v : ℂ) : Text :=
  fmtInt (i : Int) ++ ',' :: fmtInt (j : Int) ++ ',' :: F.fmt v.re ++ ',' :: F.fmt v.im

theorem cellText_noNL {F : FloatText} {i j : Nat} {v : ℂ} (h : F.RoundTripsC v) : ∀ c ∈ cellText F i j v, c ≠ '\n' := by
  intro c hc
  simp only [cellText, List.mem_append, List.mem_cons, List.append_assoc, List.cons_append] at hc
  rcases hc with h1 | rfl | h1 | rfl | h1 | rfl | h1
  · exact ne_newline_of_noWS (fmtInt_noWS _ c h1)
  · decide
  · exact ne_newline_of_noWS (fmtInt_noWS _ c h1)
  · decide
  · exact ne_newline_of_noWS (h.1.2 c h1).2
  · decide
  · exact ne_newline_of_noWS (h.2.2 c h1).2

theorem cellText_split {F : FloatText} {i j : Nat} {v : ℂ} (h : F.RoundTripsC v) :
    splitChar ',' (cellText F i j v ++ ['\n']) = [fmtInt i, fmtInt j, F.fmt v.re, F.fmt v.im ++ ['\n']] := by
  unfold cellText
  simp only [List.append_assoc, List.cons_append]
  rw [splitChar_sep _ _ _ (fmtInt_noComma _), splitChar_sep _ _ _ (fmtInt_noComma _), splitChar_sep _ _ _ (fun c hc => (h.1.2 c hc).1),
    splitChar_none]
  intro c hc
  rcases List.mem_append.1 hc with h1 | h1
  · exact (h.2.2 c h1).1
  · simp at h1; subst h1; decide

/-- The cells in the order in which they are written. -/
def cells (r c : Nat) : List (Nat × Nat) := (List.range r).flatMap fun i => (List.range c).map fun j => (i, j)

theorem mem_cells {r c i j : Nat} : (i, j) ∈ cells r c ↔ i < r ∧ j < c := by
  simp [cells]

theorem foldl_append {ι : Type} (l : List ι) (f : ι → Text) (s : Text) : l.foldl (fun out i => out ++ f i) s = s ++ (l.map f).flatten := by
  induction l generalizing s with
  | nil => simp
  | cons x l ih => simp [ih]

theorem savePatt_eq (F : FloatText) (A : Arr2 ℂ) (p : SPatt ℂ) (h1 : p.nrows = .ok A.rows) (h2 : p.ncols = .ok A.cols)
    (h3 : p.array = .ok A) :
    savePatt F p = .ok ((headText A.rows A.cols ++ ['\n']) ++
      ((cells A.rows A.cols).map fun ij => cellText F ij.1 ij.2 (A.at' ij.1 ij.2) ++ ['\n']).flatten) := by
  unfold savePatt
  rw [h1, h2, h3]
  simp only [Except.bind_ok]
  congr 1
  have e : ∀ (nr : Nat) (out : Text), (List.range A.cols).foldl (fun out (nc : Nat) =>
      out ++ (fmtInt (nr : Int) ++ ',' :: fmtInt (nc : Int) ++ ',' :: F.fmt (A.at' nr nc).re ++ ',' :: F.fmt (A.at' nr nc).im ++ ['\n'])) out =
      out ++ ((List.range A.cols).map fun nc => cellText F nr nc (A.at' nr nc) ++ ['\n']).flatten := by
    intro nr out
    rw [foldl_append]; rfl
  simp only [e]
  rw [foldl_append]
  congr 1
  unfold cells
  induction (List.range A.rows) with
  | nil => rfl
  | cons i l ih =>
    simp only [List.map_cons, List.flatten_cons, List.flatMap_cons, List.map_append, List.flatten_append, ih, List.map_map, Function.comp_def]

theorem setIdx2_nat (A : Arr2 ℂ) (i j : Nat) (v : ℂ) (hi : i < A.rows) (hj : j < A.cols) :
    setIdx2 A i j v = .ok (Arr2.ofFn A.rows A.cols fun a b => if a = i ∧ b = j then v else A.at' a b) := by
  unfold setIdx2
  simp only [show ¬ ((i : Int) < 0) by omega, show ¬ ((j : Int) < 0) by omega, if_false, false_or]
  rw [if_neg (by omega)]
  simp only [Nat.cast_inj]

/-- The body of the line loop. -/
noncomputable def cellStep (F : FloatText) (patt : Arr2 ℂ) (line : Text) : Res (Arr2 ℂ) :=
    let lst := splitChar ',' line
    (getIdx lst 0).bind fun a => (pyInt a).bind fun n =>
    (getIdx lst 1).bind fun b => (pyInt b).bind fun m =>
    (getIdx lst 2).bind fun c => (F.pyFloat c).bind fun re =>
    (getIdx lst 3).bind fun d => (F.pyFloat d).bind fun im =>
    setIdx2 patt n m ⟨re, im⟩

theorem cells_loop (F : FloatText) (A : Arr2 ℂ) (l : List (Nat × Nat)) (hl : ∀ ij ∈ l, ij.1 < A.rows ∧ ij.2 < A.cols)
    (hv : ∀ ij ∈ l, F.RoundTripsC (A.at' ij.1 ij.2)) (P : Arr2 ℂ) (hr : P.rows = A.rows) (hc : P.cols = A.cols) :
    ∃ P', forM' (l.map fun ij => cellText F ij.1 ij.2 (A.at' ij.1 ij.2) ++ ['\n']) P (cellStep F) = .ok P' ∧
      P'.rows = A.rows ∧ P'.cols = A.cols ∧
      ∀ i j, i < A.rows → j < A.cols → P'.at' i j = if (i, j) ∈ l then A.at' i j else P.at' i j := by
  induction l generalizing P with
  | nil => exact ⟨P, rfl, hr, hc, fun i j _ _ => by simp⟩
  | cons x l ih =>
    obtain ⟨a, b⟩ := x
    have hab := hl (a, b) List.mem_cons_self
    have hva := hv (a, b) List.mem_cons_self
    simp only at hab hva
    have hstep : cellStep F P (cellText F a b (A.at' a b) ++ ['\n']) =
        .ok (Arr2.ofFn P.rows P.cols fun i j => if i = a ∧ j = b then A.at' a b else P.at' i j) := by
      unfold cellStep
      rw [cellText_split hva]
      simp only [getIdx_cons0, getIdx_cons1, getIdx_cons2, getIdx_cons3, Except.bind_ok, pyInt_fmt, FloatText.pyFloat_fmt hva.1,
        FloatText.pyFloat_fmt_nl hva.2]
      rw [setIdx2_nat P a b _ (by omega) (by omega)]
    obtain ⟨P', e, h1, h2, h3⟩ := ih (fun ij h => hl ij (List.mem_cons_of_mem _ h)) (fun ij h => hv ij (List.mem_cons_of_mem _ h))
      (Arr2.ofFn P.rows P.cols fun i j => if i = a ∧ j = b then A.at' a b else P.at' i j) hr hc
    refine ⟨P', ?_, h1, h2, fun i j hi hj => ?_⟩
    · simp only [List.map_cons, forM', hstep, Except.bind_ok]; exact e
    · rw [h3 i j hi hj, Arr2.at'_ofFn (by omega) (by omega)]
      by_cases hx : (i, j) ∈ l
      · simp [hx]
      · by_cases hy : i = a ∧ j = b
        · rw [hy.1, hy.2]; simp
        · have : (i, j) ≠ (a, b) := fun h => hy (by simpa using h)
          simp [hx, hy]

/-- `loadArray` of the text written for the array `A`. -/
theorem loadArray_eq (F : FloatText) (A : Arr2 ℂ) (hv : ∀ i j, i < A.rows → j < A.cols → F.RoundTripsC (A.at' i j)) :
    loadArray F ((headText A.rows A.cols ++ ['\n']) ++
      ((cells A.rows A.cols).map fun ij => cellText F ij.1 ij.2 (A.at' ij.1 ij.2) ++ ['\n']).flatten) = .ok A := by
  have hlines := readlines_flatten (headText A.rows A.cols :: (cells A.rows A.cols).map fun ij => cellText F ij.1 ij.2 (A.at' ij.1 ij.2)) (by
    intro l hl
    rcases List.mem_cons.1 hl with rfl | hl
    · exact headText_noNL _ _
    · obtain ⟨⟨i, j⟩, hij, rfl⟩ := List.mem_map.1 hl
      rw [mem_cells] at hij
      exact cellText_noNL (hv i j hij.1 hij.2)) []
  simp only [readlines, List.append_nil, List.map_cons, List.map_map, Function.comp_def, List.flatten_cons] at hlines
  unfold loadArray
  rw [hlines]
  simp only [getIdx_cons0, Except.bind_ok, headText_split, getIdx_cons1, pyInt_fmt, pyInt_fmt_nl, List.drop_one, List.tail_cons]
  have hz : npZeros2 (A.rows : Int) (A.cols : Int) = .ok (Arr2.ofFn A.rows A.cols fun _ _ => (0 : ℂ)) := by
    unfold npZeros2
    rw [if_neg (by omega)]; rfl
  rw [hz]
  simp only [Except.bind_ok]
  obtain ⟨P', e, h1, h2, h3⟩ := cells_loop F A (cells A.rows A.cols) (fun ij h => mem_cells.1 h)
    (fun ij h => hv ij.1 ij.2 (mem_cells.1 h).1 (mem_cells.1 h).2) (Arr2.ofFn A.rows A.cols fun _ _ => 0) rfl rfl
  refine Eq.trans e ?_
  congr 1
  refine Arr2.ext' h1 h2 fun i j hi hj => ?_
  rw [h1] at hi
  rw [h2] at hj
  rw [h3 i j hi hj, if_pos (mem_cells.2 ⟨hi, hj⟩)]

/-- `continue_sphere` undoes the restriction of a symmetric double sphere to the user's rows. -/
theorem continue_takeRows (D : Arr2 ℂ) (sym : ℂ) (hs : sym = 1 ∨ sym = -1) (hr : 2 ≤ D.rows) (he : D.rows % 2 = 0) (hc : D.cols % 2 = 0)
    (hsym : DSym sym D) : continueSphere (D.takeRows (D.rows / 2 + 1)) sym = .ok D := by
  set d := D.takeRows (D.rows / 2 + 1) with hd
  have dr : d.rows = D.rows / 2 + 1 := by rw [hd]; show min _ _ = _; omega
  have dc : d.cols = D.cols := rfl
  have dv : ∀ i j, i < d.rows → j < D.cols → d.at' i j = D.at' i j := fun i j hi hj => by
    rw [hd]; exact Arr2.at'_ofFn (by rw [dr] at hi; omega) hj
  obtain ⟨E, e, er, ec, h1, h2, h3⟩ := continue_spec d sym (by omega)
  rw [e]
  congr 1
  refine Arr2.ext' (by omega) (by omega) fun i j hi hj => ?_
  rw [ec, dc] at hj
  rw [er] at hi
  have hcol : (j + D.cols / 2) % D.cols < D.cols := Nat.mod_lt _ (by omega)
  by_cases hp : i = 0 ∨ i = d.rows - 1
  · have hpole := (pole_row d sym hs (by rw [dc]; exact hc) i).2 (by
      intro m hm
      rw [dc] at hm ⊢
      have hcm : (m + D.cols / 2) % D.cols < D.cols := Nat.mod_lt _ (by omega)
      rw [dv i m (by omega) hm, dv i _ (by omega) hcm]
      have := hsym i m (by omega) hm
      have ei : (D.rows - i) % D.rows = i := by
        rcases hp with rfl | hp
        · simp
        · have hx : D.rows - i = i := by omega
          rw [hx, Nat.mod_eq_of_lt (by omega)]
      rwa [ei] at this) j (by rw [dc]; exact hj)
    rw [h2 i j hp (by rw [dc]; exact hj), hpole, dv i j (by omega) hj]
  · by_cases hlt : i < d.rows
    · rw [h1 i j (by omega) (by omega), dv i j hlt hj]
    · rw [h3 i j (by omega) (by omega) (by rw [dc]; exact hj), dc, dv _ _ (by omega) hcol]
      have := hsym i j (by omega) hj
      rw [this, Nat.mod_eq_of_lt (show D.rows - i < D.rows by omega), show 2 * d.rows - 2 - i = D.rows - i by omega]

/-- **C43**: a saved pattern loads back unchanged, for every symmetric pattern with at least two rows, an even number of
columns and samples that survive number formatting. -/
theorem c43_patt_round_trip (F : FloatText) (D : Arr2 ℂ) (hr : 2 ≤ D.rows) (he : D.rows % 2 = 0) (hc : D.cols % 2 = 0)
    (hsym : DSym 1 D) (hv : ∀ i j, i < D.rows → j < D.cols → F.RoundTripsC (D.at' i j)) :
    ∃ text, savePatt F ⟨.arr D⟩ = .ok text ∧ loadPatt F text = .ok ⟨.arr D⟩ := by
  have hrow : (D.takeRows (D.rows / 2 + 1)).rows = D.rows / 2 + 1 := by show min _ _ = _; omega
  refine ⟨_, savePatt_eq F (D.takeRows (D.rows / 2 + 1)) ⟨.arr D⟩ (by rw [hrow]; rfl) rfl rfl, ?_⟩
  unfold loadPatt
  rw [loadArray_eq F _ (fun i j hi hj => by
    have e : (D.takeRows (D.rows / 2 + 1)).at' i j = D.at' i j := Arr2.at'_ofFn hi hj
    rw [e]
    exact hv i j (by omega) hj)]
  simp only [Except.bind_ok, SPatt.init, continue_takeRows D 1 (Or.inl rfl) hr he hc hsym]

/-- **C43, exact**: without the symmetry, what comes back is the pattern built afresh from the visible samples
(`continue_sphere` is applied on loading). -/
theorem c43_actual (F : FloatText) (D : Arr2 ℂ) (hr : 2 ≤ D.rows) (hv : ∀ i j, i < D.rows → j < D.cols → F.RoundTripsC (D.at' i j)) :
    ∃ text A, savePatt F ⟨.arr D⟩ = .ok text ∧ SPatt.array ⟨.arr D⟩ = .ok A ∧ loadFdata F text = .ok A ∧
      loadPatt F text = SPatt.init (.arr A) false := by
  have hrow : (D.takeRows (D.rows / 2 + 1)).rows = D.rows / 2 + 1 := by show min _ _ = _; omega
  have hl := loadArray_eq F (D.takeRows (D.rows / 2 + 1)) (fun i j hi hj => by
    have e : (D.takeRows (D.rows / 2 + 1)).at' i j = D.at' i j := Arr2.at'_ofFn hi hj
    rw [e]
    exact hv i j (by omega) hj)
  refine ⟨_, D.takeRows (D.rows / 2 + 1), savePatt_eq F (D.takeRows (D.rows / 2 + 1)) ⟨.arr D⟩ (by rw [hrow]; rfl) rfl rfl, rfl, hl, ?_⟩
  unfold loadPatt
  rw [hl]; rfl

/-- **C43 for transverse patterns**: saving the two components (as scalar patterns holding the component's double sphere)
and loading them with `load_vpatt` gives the pattern back. -/
theorem c43_vpatt_round_trip (F : FloatText) (t : TPatt ℂ) (hrr : t.td.rows = t.pd.rows) (hcc : t.td.cols = t.pd.cols)
    (hr : 2 ≤ t.td.rows) (he : t.td.rows % 2 = 0) (hc : t.td.cols % 2 = 0) (hs1 : DSym (-1) t.td) (hs2 : DSym (-1) t.pd)
    (hv1 : ∀ i j, i < t.td.rows → j < t.td.cols → F.RoundTripsC (t.td.at' i j))
    (hv2 : ∀ i j, i < t.pd.rows → j < t.pd.cols → F.RoundTripsC (t.pd.at' i j)) :
    ∃ text1 text2, savePatt F ⟨.arr t.td⟩ = .ok text1 ∧ savePatt F ⟨.arr t.pd⟩ = .ok text2 ∧ loadVpatt F text1 text2 = .ok t := by
  obtain ⟨text1, A, s1, a1, f1, -⟩ := c43_actual F t.td hr hv1
  obtain ⟨text2, B, s2, a2, f2, -⟩ := c43_actual F t.pd (by omega) hv2
  refine ⟨text1, text2, s1, s2, ?_⟩
  unfold loadFdata at f1 f2
  have eA : A = t.td.takeRows (t.td.rows / 2 + 1) := by
    simp only [SPatt.array, SPatt.dsphere, Except.bind_ok, Except.ok.injEq] at a1; exact a1.symm
  have eB : B = t.pd.takeRows (t.pd.rows / 2 + 1) := by
    simp only [SPatt.array, SPatt.dsphere, Except.bind_ok, Except.ok.injEq] at a2; exact a2.symm
  unfold loadVpatt
  rw [f1, f2]
  simp only [Except.bind_ok, TPatt.init]
  rw [if_neg]
  · rw [eA, eB, continue_takeRows t.td (-1) (Or.inr rfl) hr he hc hs1,
      continue_takeRows t.pd (-1) (Or.inr rfl) (by omega) (by omega) (by omega) hs2]
    rfl
  · rw [eA, eB]
    intro h
    apply h
    exact ⟨by show min _ _ = min _ _; rw [hrr], hcc⟩

/-! ### load_vcoef -/

theorem mem_strip {s : Text} {c : Char} (h : c ∈ s) (hc : isWS c = false) : c ∈ strip s := by
  have key : ∀ t : Text, c ∈ t → c ∈ t.dropWhile isWS := by
    intro t
    induction t with
    | nil => simp
    | cons d t ih =>
      intro ht
      by_cases hd : isWS d = true
      · rw [List.dropWhile_cons_of_pos hd]
        rcases List.mem_cons.1 ht with rfl | ht
        · rw [hc] at hd; simp at hd
        · exact ih ht
      · rw [List.dropWhile_cons_of_neg hd]; exact ht
  unfold strip
  rw [List.mem_reverse]
  exact key _ (List.mem_reverse.2 (key _ h))

theorem isEntry_not_break {F : FloatText} {line : Text} {v : ℂ} (h : IsEntry F line v) : strip line ≠ "break".toList := by
  obtain ⟨s, t, rest, hs, -, -⟩ := h
  intro hb
  have hcomma : ',' ∈ line := by
    by_contra hn
    rw [splitChar_none ',' line (fun c hc e => hn (e ▸ hc))] at hs
    simp at hs
  have := mem_strip hcomma rfl
  rw [hb] at this
  revert this; decide

theorem vcStep_first (F : FloatText) (L : Nat) (lines : List Text) (vs : List ℂ) (h : List.Forall₂ (IsEntry F) lines vs)
    (pre : List ℂ) (w : List ℂ) (hle : pre.length + vs.length ≤ L) :
    forM' lines ⟨pre ++ List.replicate (L - pre.length) 0, w, pre.length, false⟩ (vcStep F) =
      .ok ⟨pre ++ vs ++ List.replicate (L - (pre.length + vs.length)) 0, w, (pre.length + vs.length : Nat), false⟩ := by
  induction h generalizing pre with
  | nil => simp [forM']
  | @cons line v lines vs he _ ih =>
    have hnb := isEntry_not_break he
    obtain ⟨s, t, rest, hs, h1, h2⟩ := he
    simp only [List.length_cons] at hle
    have hset : setIdx (pre ++ List.replicate (L - pre.length) (0 : ℂ)) (pre.length : Int) (⟨v.re, v.im⟩ : ℂ) =
        .ok ((pre ++ [v]) ++ List.replicate (L - (pre ++ [v]).length) 0) := by
      rw [setIdx_of_lt (by omega) (by simp; omega)]
      congr 1
      rw [Int.toNat_natCast, List.set_append_right _ _ (le_refl _), Nat.sub_self]
      obtain ⟨k, hk⟩ : ∃ k, L - pre.length = k + 1 := ⟨L - pre.length - 1, by omega⟩
      rw [hk, List.replicate_succ, List.set_cons_zero]
      simp
      omega
    have e := ih (pre ++ [v]) (by simp; omega)
    unfold forM'
    have est : vcStep F ⟨pre ++ List.replicate (L - pre.length) 0, w, pre.length, false⟩ line =
        .ok ⟨(pre ++ [v]) ++ List.replicate (L - (pre ++ [v]).length) 0, w, ((pre ++ [v]).length : Nat), false⟩ := by
      unfold vcStep
      rw [if_neg hnb]
      simp only [hs, getIdx_cons0, getIdx_cons1, Except.bind_ok, h1, h2, Bool.false_eq_true, if_false]
      rw [hset]
      simp
    rw [est]
    simp only [Except.bind_ok]
    rw [e]
    simp only [List.length_append, List.length_cons, List.length_nil]
    congr 2
    · rw [show L - (pre.length + (0 + 1) + vs.length) = L - (pre.length + (vs.length + 1)) by omega]; simp
    · push_cast; ring

theorem vcStep_second (F : FloatText) (L : Nat) (lines : List Text) (vs : List ℂ) (h : List.Forall₂ (IsEntry F) lines vs)
    (pre : List ℂ) (w : List ℂ) (hle : pre.length + vs.length ≤ L) :
    forM' lines ⟨w, pre ++ List.replicate (L - pre.length) 0, pre.length, true⟩ (vcStep F) =
      .ok ⟨w, pre ++ vs ++ List.replicate (L - (pre.length + vs.length)) 0, (pre.length + vs.length : Nat), true⟩ := by
  induction h generalizing pre with
  | nil => simp [forM']
  | @cons line v lines vs he _ ih =>
    have hnb := isEntry_not_break he
    obtain ⟨s, t, rest, hs, h1, h2⟩ := he
    simp only [List.length_cons] at hle
    have hset : setIdx (pre ++ List.replicate (L - pre.length) (0 : ℂ)) (pre.length : Int) (⟨v.re, v.im⟩ : ℂ) =
        .ok ((pre ++ [v]) ++ List.replicate (L - (pre ++ [v]).length) 0) := by
      rw [setIdx_of_lt (by omega) (by simp; omega)]
      congr 1
      rw [Int.toNat_natCast, List.set_append_right _ _ (le_refl _), Nat.sub_self]
      obtain ⟨k, hk⟩ : ∃ k, L - pre.length = k + 1 := ⟨L - pre.length - 1, by omega⟩
      rw [hk, List.replicate_succ, List.set_cons_zero]
      simp
      omega
    have e := ih (pre ++ [v]) (by simp; omega)
    unfold forM'
    have est : vcStep F ⟨w, pre ++ List.replicate (L - pre.length) 0, pre.length, true⟩ line =
        .ok ⟨w, (pre ++ [v]) ++ List.replicate (L - (pre ++ [v]).length) 0, ((pre ++ [v]).length : Nat), true⟩ := by
      unfold vcStep
      rw [if_neg hnb]
      simp only [hs, getIdx_cons0, getIdx_cons1, Except.bind_ok, h1, h2, if_true]
      rw [hset]
      simp
    rw [est]
    simp only [Except.bind_ok]
    rw [e]
    simp only [List.length_append, List.length_cons, List.length_nil]
    congr 2
    · rw [show L - (pre.length + (0 + 1) + vs.length) = L - (pre.length + (vs.length + 1)) by omega]; simp
    · push_cast; ring

/-- **C52**: `load_vcoef` of a file with a header `nmax,mmax,directivity`, one data line per mode for the first component, a
line `break`, and one data line per mode for the second returns exactly these two lists of coefficients - except the
monopole `(0,0)`, which is set to 0 - and the directivity. -/
theorem c52_load_vcoef (F : FloatText) (text hd brk : Text) (l1 l2 : List Text) (nmax mmax : Int) (dir : ℝ) (vs1 vs2 : List ℂ)
    (h0 : 0 ≤ mmax) (hmn : mmax ≤ nmax) (hr : readlines text = hd :: (l1 ++ brk :: l2))
    (hh : ∃ s t u rest, splitChar ',' hd = s :: t :: u :: rest ∧ pyInt s = .ok nmax ∧ pyInt t = .ok mmax ∧ F.pyFloat u = .ok dir)
    (hb : strip brk = "break".toList) (e1 : List.Forall₂ (IsEntry F) l1 vs1) (e2 : List.Forall₂ (IsEntry F) l2 vs2)
    (n1 : l1.length = (modes nmax mmax).card) (n2 : l2.length = (modes nmax mmax).card) :
    loadVcoef F text = .ok (⟨⟨vs1.set 0 0, nmax, mmax⟩, ⟨vs2.set 0 0, nmax, mmax⟩, nmax, mmax⟩, dir) := by
  obtain ⟨s, t, u, rest, hs, hp1, hp2, hp3⟩ := hh
  have hcard : lCount nmax mmax = ((modes nmax mmax).card : Int) := lCount_card h0 hmn
  have hf : ncFormula nmax mmax = ((modes nmax mmax).card : Int) := by rw [modes_card h0 hmn, ncFormula_eq h0 hmn]
  have hpos : 0 < (modes nmax mmax).card := by
    have : ncFormula nmax mmax = (nmax + 1) + mmax * (2 * nmax - mmax + 1) := by unfold ncFormula; ring
    have h2 : 0 ≤ mmax * (2 * nmax - mmax + 1) := mul_nonneg h0 (by omega)
    omega
  have hn : npFull ((nmax + 1) + mmax * (2 * nmax - mmax + 1)) (0 : ℂ) = .ok (List.replicate (modes nmax mmax).card 0) := by
    unfold npFull
    have : (nmax + 1) + mmax * (2 * nmax - mmax + 1) = ((modes nmax mmax).card : Int) := hcard
    rw [this, if_neg (by omega), Int.toNat_natCast]
  set L := (modes nmax mmax).card with hLdef
  have v1 : vs1.length = L := by rw [← e1.length_eq, n1]
  have v2 : vs2.length = L := by rw [← e2.length_eq, n2]
  unfold loadVcoef
  simp only [hr, getIdx_cons0, getIdx_cons1, getIdx_cons2, Except.bind_ok, hs, hp1, hp2, hp3, List.drop_one, List.tail_cons, hn]
  have a1 := vcStep_first F L l1 vs1 e1 [] (List.replicate L 0) (by simp [v1])
  have a2 := vcStep_second F L l2 vs2 e2 [] vs1 (by simp [v2])
  simp only [List.length_nil, List.nil_append, Nat.sub_zero, Nat.zero_add, v1, v2, Nat.sub_self, List.replicate_zero, List.append_nil, Nat.cast_zero] at a1 a2
  rw [forM'_append, a1]
  simp only [Except.bind_ok]
  have hbr : vcStep F ⟨vs1, List.replicate L 0, (L : Int), false⟩ brk = .ok ⟨vs1, List.replicate L 0, 0, true⟩ := by
    unfold vcStep; rw [if_pos hb]
  unfold forM'
  rw [hbr]
  simp only [Except.bind_ok]
  rw [a2]
  simp only [Except.bind_ok]
  have hinit : ∀ l : List ℂ, l.length = L → ScalarCoefs.init (.arr l) nmax mmax = .ok ⟨l, nmax, mmax⟩ := by
    intro l hl
    unfold ScalarCoefs.init
    rw [if_neg (by omega)]
    simp only
    rw [if_neg (by rw [hf, hl]; simp)]
  have hset : ∀ l : List ℂ, l.length = L → setIdx l 0 0 = .ok (l.set 0 0) := fun l hl => by
    rw [setIdx_of_lt (by omega) (by omega)]; rfl
  unfold VectorCoefs.init
  simp only
  rw [if_neg (by rw [v1, v2]; simp), if_neg (by omega), if_neg (by rw [hf, v1]; simp), hset _ v1, hset _ v2]
  simp only [Except.bind_ok]
  rw [hinit _ (by simp [v1]), hinit _ (by simp [v2])]
  rfl

/-! ### With the actual number format -/

/-- A complex number both of whose parts are finite doubles. -/
def IsDoubleC (v : ℂ) : Prop := IsDouble v.re ∧ IsDouble v.im

theorem IsDoubleC.roundTrips {v : ℂ} (h : IsDoubleC v) : floatText.RoundTripsC v :=
  ⟨floatText_roundTrips h.1, floatText_roundTrips h.2⟩

/-- **C42 for complex128 data**: with `{:.16e}` and correctly rounded `float()`, every well-formed set of finite complex
doubles is loaded back unchanged. -/
theorem c42_doubles (c : ScalarCoefs ℂ) (hc : c.WellFormed) (hv : ∀ v ∈ c.vec, IsDoubleC v) :
    ∃ text, saveCoef floatText c = .ok text ∧ loadCoef floatText text = .ok c :=
  c42_coef_round_trip floatText c hc fun v h => (hv v h).roundTrips

/-- **C43 for complex128 data**. -/
theorem c43_doubles (D : Arr2 ℂ) (hr : 2 ≤ D.rows) (he : D.rows % 2 = 0) (hc : D.cols % 2 = 0)
    (hsym : DSym 1 D) (hv : ∀ i j, i < D.rows → j < D.cols → IsDoubleC (D.at' i j)) :
    ∃ text, savePatt floatText ⟨.arr D⟩ = .ok text ∧ loadPatt floatText text = .ok ⟨.arr D⟩ :=
  c43_patt_round_trip floatText D hr he hc hsym fun i j hi hj => (hv i j hi hj).roundTrips

/-- A non-integral concrete instance of C42 with the actual number format: `0.5 + 2^-1074 i` and `-1/8`. -/
example : ∃ text, saveCoef floatText ⟨[⟨1 / 2, (2 : ℝ) ^ (-1074 : ℤ)⟩, ⟨-1 / 8, 0⟩], 1, 0⟩ = .ok text ∧
    loadCoef floatText text = .ok ⟨[⟨1 / 2, (2 : ℝ) ^ (-1074 : ℤ)⟩, ⟨-1 / 8, 0⟩], 1, 0⟩ := by
  refine c42_doubles _ (ScalarCoefs.wf_iff.1 ⟨by decide, by decide, rfl⟩) ?_
  intro v hv
  simp only [List.mem_cons, List.not_mem_nil, or_false] at hv
  rcases hv with rfl | rfl
  · exact ⟨⟨1, -1, by norm_num, by norm_num, by norm_num, by norm_num⟩, ⟨1, -1074, by norm_num, by norm_num, by norm_num, by simp⟩⟩
  · exact ⟨⟨-1, -3, by norm_num, by norm_num, by norm_num, by norm_num⟩, ⟨0, 0, by norm_num, by norm_num, by norm_num, by simp⟩⟩

end Verif.Props

/-! ### The hypotheses are met -/

namespace Verif.Props
open Verif

/-- A number format under which integers round-trip (for the examples; the real one is in FloatText.lean). -/
noncomputable def intText : FloatText where
  fmt x := fmtInt ⌊x⌋
  parse s := match pyInt s with
    | .ok i => some (i : ℝ)
    | .error _ => none

theorem intText_roundTrips (i : ℤ) : intText.RoundTrips (i : ℝ) := by
  refine ⟨?_, ?_⟩
  · simp only [intText, Int.floor_intCast]
    rw [pyInt_fmt]
  · intro c hc
    simp only [intText, Int.floor_intCast] at hc
    exact ⟨fmtInt_noComma _ c hc, fmtInt_noWS _ c hc⟩

/-- C42 applies to a concrete set with four distinct modes. -/
example : ∃ text, saveCoef intText ⟨[⟨1, 2⟩, ⟨3, -4⟩, ⟨5, 0⟩, ⟨-6, 7⟩], 1, 1⟩ = .ok text ∧
    loadCoef intText text = .ok ⟨[⟨1, 2⟩, ⟨3, -4⟩, ⟨5, 0⟩, ⟨-6, 7⟩], 1, 1⟩ := by
  refine c42_coef_round_trip intText _ (ScalarCoefs.wf_iff.1 ⟨by decide, by decide, rfl⟩) ?_
  have h : ∀ a b : ℤ, intText.RoundTripsC ⟨(a : ℝ), (b : ℝ)⟩ := fun a b => ⟨intText_roundTrips a, intText_roundTrips b⟩
  intro v hv
  simp only [List.mem_cons, List.not_mem_nil, or_false] at hv
  rcases hv with rfl | rfl | rfl | rfl
  · exact_mod_cast h 1 2
  · exact_mod_cast h 3 (-4)
  · exact_mod_cast h 5 0
  · exact_mod_cast h (-6) 7

/-- C43 applies to a concrete symmetric double sphere (the constant pattern 3 on 3 x 4 samples). -/
example : ∃ text, savePatt intText ⟨.arr (Arr2.ofFn 4 4 fun _ _ => 3)⟩ = .ok text ∧
    loadPatt intText text = .ok ⟨.arr (Arr2.ofFn 4 4 fun _ _ => 3)⟩ := by
  refine c43_patt_round_trip intText _ (by decide) rfl rfl ?_ ?_
  · intro n m hn hm
    have h1 : n < 4 := hn
    have h2 : m < 4 := hm
    have h3 : (4 - n) % 4 < 4 := Nat.mod_lt _ (by omega)
    have h4 : (m + 4 / 2) % 4 < 4 := Nat.mod_lt _ (by omega)
    have e : ∀ a b, a < 4 → b < 4 → (Arr2.ofFn 4 4 fun _ _ => (3 : ℂ)).at' a b = 3 := fun a b ha hb => Arr2.at'_ofFn ha hb
    rw [e n m h1 h2, Arr2.rows_ofFn, Arr2.cols_ofFn, e _ _ h3 h4]
    ring
  · intro i j hi hj
    have e : (Arr2.ofFn 4 4 fun _ _ => (3 : ℂ)).at' i j = 3 := Arr2.at'_ofFn hi hj
    rw [e]
    have h : intText.RoundTripsC ⟨((3 : ℤ) : ℝ), ((0 : ℤ) : ℝ)⟩ := ⟨intText_roundTrips 3, intText_roundTrips 0⟩
    have e : (3 : ℂ) = ⟨((3 : ℤ) : ℝ), ((0 : ℤ) : ℝ)⟩ := by apply Complex.ext <;> simp
    rw [e]; exact h

end Verif.Props
