import Verif.File
/-!
# Lemmas about the text layer of the file model
-/
namespace Verif

theorem readlines_line (l rest : Text) (h : ∀ c ∈ l, c ≠ '\n') :
    readlines (l ++ '\n' :: rest) = (l ++ ['\n']) :: readlines rest := by
  induction l with
  | nil => simp [readlines]
  | cons c l ih =>
    have h1 := ih (fun c hc => h c (List.mem_cons_of_mem _ hc))
    simp only [List.cons_append, readlines]
    rw [if_neg (h c List.mem_cons_self), h1]

theorem readlines_flatten (ls : List Text) (h : ∀ l ∈ ls, ∀ c ∈ l, c ≠ '\n') (rest : Text) :
    readlines ((ls.map (fun l => l ++ ['\n'])).flatten ++ rest) = ls.map (fun l => l ++ ['\n']) ++ readlines rest := by
  induction ls with
  | nil => simp
  | cons l ls ih =>
    simp only [List.map_cons, List.flatten_cons, List.append_assoc, List.cons_append, List.nil_append]
    rw [readlines_line l _ (h l List.mem_cons_self), ih (fun l' hl' => h l' (List.mem_cons_of_mem _ hl'))]

theorem splitChar_ne_nil (sep : Char) (s : Text) : splitChar sep s ≠ [] := by
  cases s with
  | nil => simp [splitChar]
  | cons c s =>
    unfold splitChar
    split
    · simp
    · split <;> simp

theorem splitChar_none (sep : Char) (s : Text) (h : ∀ c ∈ s, c ≠ sep) : splitChar sep s = [s] := by
  induction s with
  | nil => rfl
  | cons c s ih =>
    unfold splitChar
    rw [if_neg (h c List.mem_cons_self), ih (fun c hc => h c (List.mem_cons_of_mem _ hc))]

theorem splitChar_sep (sep : Char) (a rest : Text) (h : ∀ c ∈ a, c ≠ sep) :
    splitChar sep (a ++ sep :: rest) = a :: splitChar sep rest := by
  induction a with
  | nil => simp [splitChar]
  | cons c s ih =>
    simp only [List.cons_append]
    rw [splitChar, if_neg (h c List.mem_cons_self), ih (fun c hc => h c (List.mem_cons_of_mem _ hc))]

theorem strip_noWS (s : Text) (h : ∀ c ∈ s, isWS c = false) : strip s = s := by
  unfold strip
  have h1 : ∀ t : Text, (∀ c ∈ t, isWS c = false) → t.dropWhile isWS = t := by
    intro t ht
    cases t with
    | nil => rfl
    | cons c t => simp [List.dropWhile, ht c List.mem_cons_self]
  rw [h1 s h, h1 s.reverse (by simpa using h), List.reverse_reverse]

theorem strip_newline (s : Text) (h : ∀ c ∈ s, isWS c = false) : strip (s ++ ['\n']) = s := by
  have h1 : ∀ t : Text, (∀ c ∈ t, isWS c = false) → t.dropWhile isWS = t := by
    intro t ht
    cases t with
    | nil => rfl
    | cons c t => simp [List.dropWhile, ht c List.mem_cons_self]
  unfold strip
  cases s with
  | nil => decide
  | cons c s =>
    have e : (c :: s ++ ['\n']).dropWhile isWS = c :: s ++ ['\n'] := by
      simp [List.dropWhile, h c List.mem_cons_self]
    rw [e]
    simp only [List.reverse_append, List.reverse_cons, List.reverse_nil, List.nil_append, List.singleton_append]
    rw [List.dropWhile_cons_of_pos (by decide), h1 _ (fun c' hc' => h c' (by simp at hc' ⊢; tauto))]
    simp

/-! ### Integers -/

theorem digitC_toNat {d : Nat} (h : d < 10) : (digitC d).toNat = 48 + d := by
  interval_cases d <;> rfl

theorem fmtNat_digit (n : Nat) (c : Char) (h : c ∈ fmtNat n) : ∃ d, d < 10 ∧ c = digitC d := by
  unfold fmtNat at h
  split at h
  · exact ⟨0, by omega, (by simpa using h : c = '0')⟩
  · simp only [List.mem_map, List.mem_reverse] at h
    obtain ⟨d, hd, rfl⟩ := h
    exact ⟨d, Nat.digits_lt_base (by omega) hd, rfl⟩

theorem fmtNat_ne_nil (n : Nat) : fmtNat n ≠ [] := by
  unfold fmtNat
  split
  · simp
  · next h => simp [Nat.digits_eq_nil_iff_eq_zero, h]

theorem digitsVal_append (s : Text) (c : Char) : digitsVal (s ++ [c]) = 10 * digitsVal s + (c.toNat - 48) := by
  simp [digitsVal, List.foldl_append]

theorem digitsVal_map (l : List Nat) (h : ∀ d ∈ l, d < 10) : digitsVal (l.reverse.map digitC) = Nat.ofDigits 10 l := by
  induction l with
  | nil => rfl
  | cons d l ih =>
    simp only [List.reverse_cons, List.map_append, List.map_cons, List.map_nil]
    rw [digitsVal_append, ih (fun d hd => h d (List.mem_cons_of_mem _ hd)), digitC_toNat (h d List.mem_cons_self), Nat.ofDigits_cons]
    omega

theorem parseNat_fmtNat (n : Nat) : parseNat (fmtNat n) = some n := by
  unfold parseNat
  rw [if_neg]
  · congr 1
    unfold fmtNat
    split
    · next h => subst h; rfl
    · rw [digitsVal_map _ (fun d hd => Nat.digits_lt_base (by omega) hd), Nat.ofDigits_digits]
  · intro h
    rcases h with h | h
    · exact fmtNat_ne_nil n h
    · apply h
      rw [List.all_eq_true]
      intro c hc
      obtain ⟨d, hd, rfl⟩ := fmtNat_digit n c hc
      rw [digitC_toNat hd]
      simp; omega

/-- Characters of an integer literal. -/
theorem fmtInt_chars (i : Int) (c : Char) (h : c ∈ fmtInt i) : c = '-' ∨ ∃ d, d < 10 ∧ c = digitC d := by
  unfold fmtInt at h
  split at h
  · rcases List.mem_cons.1 h with h | h
    · exact Or.inl h
    · exact Or.inr (fmtNat_digit _ c h)
  · exact Or.inr (fmtNat_digit _ c h)

theorem fmtInt_noWS (i : Int) : ∀ c ∈ fmtInt i, isWS c = false := by
  intro c h
  rcases fmtInt_chars i c h with rfl | ⟨d, hd, rfl⟩
  · rfl
  · interval_cases d <;> rfl

theorem fmtInt_noComma (i : Int) : ∀ c ∈ fmtInt i, c ≠ ',' := by
  intro c h
  rcases fmtInt_chars i c h with rfl | ⟨d, hd, rfl⟩
  · decide
  · interval_cases d <;> decide

theorem ne_newline_of_noWS {c : Char} (h : isWS c = false) : c ≠ '\n' := by
  rintro rfl; simp [isWS] at h

theorem pyInt_of_strip {s : Text} {i : Int} (h : strip s = fmtInt i) : pyInt s = .ok i := by
  unfold pyInt
  rw [h]
  unfold fmtInt
  by_cases hi : i < 0
  · rw [if_pos hi]
    simp only [parseNat_fmtNat, Option.map_some]
    congr 1; omega
  · rw [if_neg hi]
    cases e : fmtNat i.toNat with
    | nil => exact absurd e (fmtNat_ne_nil _)
    | cons c t =>
      obtain ⟨d, hd, rfl⟩ := fmtNat_digit i.toNat c (by rw [e]; exact List.mem_cons_self)
      have hp := parseNat_fmtNat i.toNat
      rw [e] at hp
      have h1 : digitC d ≠ '-' := by interval_cases d <;> decide
      have h2 : digitC d ≠ '+' := by interval_cases d <;> decide
      split
      · next t' he => simp at he; exact absurd he.1 h1
      · next t' he => simp at he; exact absurd he.1 h2
      · rw [hp]
        simp only [Option.map_some]
        congr 1; omega

theorem pyInt_fmt (i : Int) : pyInt (fmtInt i) = .ok i := pyInt_of_strip (strip_noWS _ (fmtInt_noWS i))
theorem pyInt_fmt_nl (i : Int) : pyInt (fmtInt i ++ ['\n']) = .ok i := pyInt_of_strip (strip_newline _ (fmtInt_noWS i))

/-! ### Floats -/

/-- `x` survives `float("{:.16e}".format(x))`, and its text has no comma and no white space. -/
def FloatText.RoundTrips (F : FloatText) (x : ℝ) : Prop :=
  F.parse (F.fmt x) = some x ∧ ∀ c ∈ F.fmt x, c ≠ ',' ∧ isWS c = false

theorem FloatText.pyFloat_fmt {F : FloatText} {x : ℝ} (h : F.RoundTrips x) : F.pyFloat (F.fmt x) = .ok x := by
  unfold FloatText.pyFloat
  rw [strip_noWS _ (fun c hc => (h.2 c hc).2), h.1]

theorem FloatText.pyFloat_fmt_nl {F : FloatText} {x : ℝ} (h : F.RoundTrips x) : F.pyFloat (F.fmt x ++ ['\n']) = .ok x := by
  unfold FloatText.pyFloat
  rw [strip_newline _ (fun c hc => (h.2 c hc).2), h.1]

/-- Both parts of a complex number round-trip. -/
def FloatText.RoundTripsC (F : FloatText) (v : ℂ) : Prop := F.RoundTrips v.re ∧ F.RoundTrips v.im

/-! ### load_coef -/

/-- A header line announcing `(nmax, mmax)`: at least two comma-separated fields, the first two parse as these integers. -/
def IsHeader (line : Text) (a b : Int) : Prop :=
  ∃ s t rest, splitChar ',' line = s :: t :: rest ∧ pyInt s = .ok a ∧ pyInt t = .ok b

/-- A data line holding the complex number `v`. -/
def IsEntry (F : FloatText) (line : Text) (v : ℂ) : Prop :=
  ∃ s t rest, splitChar ',' line = s :: t :: rest ∧ F.pyFloat s = .ok v.re ∧ F.pyFloat t = .ok v.im

theorem getIdx_cons0 {α : Type} (a : α) (l : List α) : getIdx (a :: l) 0 = .ok a := rfl
theorem getIdx_cons1 {α : Type} (a b : α) (l : List α) : getIdx (a :: b :: l) 1 = .ok b := rfl
theorem getIdx_cons2 {α : Type} (a b c : α) (l : List α) : getIdx (a :: b :: c :: l) 2 = .ok c := rfl
theorem getIdx_cons3 {α : Type} (a b c d : α) (l : List α) : getIdx (a :: b :: c :: d :: l) 3 = .ok d := rfl

theorem loadCoefLines_eq (F : FloatText) (L : Nat) (lines : List Text) (vs : List ℂ) (h : List.Forall₂ (IsEntry F) lines vs)
    (pre : List ℂ) (hpre : pre.length ≤ L) :
    forM' (lines.zipIdx pre.length) (pre ++ List.replicate (L - pre.length) 0) (fun vec ln =>
      let lst := splitChar ',' ln.1
      (getIdx lst 0).bind fun a => (F.pyFloat a).bind fun re =>
      (getIdx lst 1).bind fun b => (F.pyFloat b).bind fun im =>
      setIdx vec (ln.2 : Int) (⟨re, im⟩ : ℂ)) =
    if pre.length + vs.length ≤ L then .ok (pre ++ vs ++ List.replicate (L - (pre.length + vs.length)) 0)
    else .error ⟨.indexError, "index"⟩ := by
  induction h generalizing pre with
  | nil => simp [forM', hpre]
  | @cons line v lines vs he _ ih =>
    obtain ⟨s, t, rest, hs, h1, h2⟩ := he
    simp only [List.zipIdx_cons, forM', hs, getIdx_cons0, getIdx_cons1, Except.bind_ok, h1, h2]
    by_cases hlt : pre.length < L
    · have hset : setIdx (pre ++ List.replicate (L - pre.length) (0 : ℂ)) (pre.length : Int) (⟨v.re, v.im⟩ : ℂ) =
          .ok ((pre ++ [v]) ++ List.replicate (L - (pre ++ [v]).length) 0) := by
        rw [setIdx_of_lt (by omega) (by simp; omega)]
        congr 1
        rw [Int.toNat_natCast, List.set_append_right _ _ (le_refl _), Nat.sub_self]
        obtain ⟨k, hk⟩ : ∃ k, L - pre.length = k + 1 := ⟨L - pre.length - 1, by omega⟩
        rw [hk, List.replicate_succ, List.set_cons_zero]
        simp
        omega
      rw [hset]
      simp only [Except.bind_ok]
      have e := ih (pre ++ [v]) (by simp; omega)
      rw [show (pre ++ [v]).length = pre.length + 1 by simp] at e ⊢
      rw [e]
      simp only [List.length_cons]
      by_cases hc : pre.length + 1 + vs.length ≤ L
      · rw [if_pos hc, if_pos (by omega)]
        simp; congr 1; omega
      · rw [if_neg hc, if_neg (by omega)]
    · have hlen : pre.length = L := by omega
      rw [if_neg (by simp; omega)]
      have : setIdx (pre ++ List.replicate (L - pre.length) (0 : ℂ)) (pre.length : Int) (⟨v.re, v.im⟩ : ℂ) = .error ⟨.indexError, "index"⟩ := by
        unfold setIdx
        simp only [show ¬ ((pre.length : Int) < 0) by omega, if_false]
        rw [if_neg (by simp; omega)]
      rw [this]; rfl

/-- Number of modes announced by a header. -/
def lCount (nmax mmax : Int) : Int := (nmax + 1) + mmax * (2 * nmax - mmax + 1)

theorem loadCoef_eq (F : FloatText) (text hd : Text) (lines : List Text) (nmax mmax : Int) (vs : List ℂ)
    (hr : readlines text = hd :: lines) (hh : IsHeader hd nmax mmax) (h : List.Forall₂ (IsEntry F) lines vs)
    (h0 : 0 ≤ lCount nmax mmax) :
    loadCoef F text = if vs.length ≤ (lCount nmax mmax).toNat then
        ScalarCoefs.init (.arr (vs ++ List.replicate ((lCount nmax mmax).toNat - vs.length) 0)) nmax mmax
      else .error ⟨.indexError, "index"⟩ := by
  obtain ⟨s, t, rest, hs, h1, h2⟩ := hh
  unfold loadCoef
  simp only [hr, getIdx_cons0, Except.bind_ok, hs, getIdx_cons1, h1, h2, List.drop_one, List.tail_cons]
  have hn : npFull ((nmax + 1) + mmax * (2 * nmax - mmax + 1)) (0 : ℂ) = .ok (List.replicate (lCount nmax mmax).toNat 0) := by
    unfold npFull
    rw [if_neg (by unfold lCount at h0; omega)]; rfl
  rw [hn]
  simp only [Except.bind_ok]
  have e := loadCoefLines_eq F (lCount nmax mmax).toNat lines vs h [] (by simp)
  simp only [List.length_nil, List.nil_append, Nat.sub_zero, Nat.zero_add] at e
  unfold loadCoefLines
  rw [e]
  split <;> simp

end Verif
