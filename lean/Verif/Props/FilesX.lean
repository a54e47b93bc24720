import Verif.FileX
import Verif.Props.Files
/-!
# Property C119: files with infinities, NaN and signed zeros
-/
namespace Verif.Props
open Verif

/-! ### The number format -/

/-- The characters of a formatted finite number. -/
theorem fmtFloat_chars (x : ℝ) : ∀ c ∈ fmtFloat x, c = '-' ∨ c = '+' ∨ c = '.' ∨ c = 'e' ∨ ∃ d, d < 10 ∧ c = digitC d := by
  intro c hc
  unfold fmtFloat at hc
  split at hc
  · rcases List.mem_append.1 hc with h | h
    · rcases pointText_mem _ c h with h | rfl
      · have := List.eq_of_mem_replicate h
        subst this
        exact Or.inr (Or.inr (Or.inr (Or.inr ⟨0, by omega, rfl⟩)))
      · simp
    · rcases List.mem_cons.1 h with rfl | h
      · simp
      · rcases expText_chars _ c h with h | h | h
        · exact Or.inl h
        · exact Or.inr (Or.inl h)
        · exact Or.inr (Or.inr (Or.inr (Or.inr h)))
  · rcases List.mem_append.1 hc with h | h
    · rcases List.mem_append.1 h with h | h
      · split at h
        · simp at h; exact Or.inl h
        · simp at h
      · rcases pointText_mem _ c h with h | rfl
        · exact Or.inr (Or.inr (Or.inr (Or.inr (fmtNat_digit _ c h))))
        · simp
    · rcases List.mem_cons.1 h with rfl | h
      · simp
      · rcases expText_chars _ c h with h | h | h
        · exact Or.inl h
        · exact Or.inr (Or.inl h)
        · exact Or.inr (Or.inr (Or.inr (Or.inr h)))

/-- The decimal written for a non-zero number, and its distance from the number. -/
theorem parseDec_fmtFloat {x : ℝ} (h0 : x ≠ 0) :
    ∃ u, parseDec (fmtFloat x) = some u ∧ |u - x| ≤ 1 / 2 * (10 : ℝ) ^ (-16 : ℤ) * |x| := by
  obtain ⟨s1, s2, s3⟩ := sci17_spec h0
  set D := (sci17 x).1 with hD
  set k := (sci17 x).2 with hk
  have hlen : (fmtNat D).length = 17 := by
    unfold fmtNat
    rw [if_neg (by omega)]
    simp only [List.length_map, List.length_reverse]
    rw [Nat.length_digits 10 D (by norm_num) (by omega)]
    have : Nat.log 10 D = 16 := (Nat.log_eq_iff (by left; omega)).2 ⟨s1, s2⟩
    omega
  have hp := parseUDec_point (fmtNat D) D k (fun c hc => fmtNat_digit D c hc) (parseNat_fmtNat D)
  rw [hlen] at hp
  norm_num at hp
  set v := (D : ℝ) * (10 : ℝ) ^ (k - 16) with hv
  refine ⟨if x < 0 then -v else v, ?_, ?_⟩
  · unfold fmtFloat
    rw [if_neg h0]
    by_cases hneg : x < 0
    · rw [if_pos hneg, if_pos hneg]
      show (parseUDec (pointText (fmtNat D) ++ 'e' :: expText k)).map (fun (v : ℝ) => -v) = some (-v)
      rw [hp]; rfl
    · rw [if_neg hneg, if_neg hneg]
      simp only [List.nil_append]
      rw [← hp]
      cases e : fmtNat D with
      | nil => exact absurd e (fmtNat_ne_nil D)
      | cons a s =>
        obtain ⟨d, hd, rfl⟩ := fmtNat_digit D a (by rw [e]; exact List.mem_cons_self)
        unfold parseDec pointText
        have h1 : digitC d ≠ '-' := by interval_cases d <;> decide
        have h2 : digitC d ≠ '+' := by interval_cases d <;> decide
        split
        · next t he => simp at he; exact absurd he.1 h1
        · next t he => simp at he; exact absurd he.1 h2
        · rfl
  · refine le_trans (le_of_eq ?_) s3
    by_cases hneg : x < 0
    · rw [if_pos hneg, abs_of_neg hneg, ← abs_neg]; congr 1; ring
    · rw [if_neg hneg, abs_of_nonneg (not_lt.1 hneg)]

theorem isDouble_abs_le {x : ℝ} (h : IsDouble x) : |x| ≤ (2 : ℝ) ^ 1024 - 2 ^ 971 := by
  obtain ⟨m, e, hm, -, he, rfl⟩ := h
  rw [abs_mul, abs_of_pos (show (0 : ℝ) < 2 ^ e by positivity)]
  have h1 : |(m : ℝ)| ≤ 2 ^ 53 - 1 := by
    have : |m| ≤ 2 ^ 53 - 1 := by omega
    exact_mod_cast this
  have h2 : (2 : ℝ) ^ e ≤ 2 ^ 971 := by
    rw [← zpow_natCast]
    exact zpow_le_zpow_right₀ (by norm_num) (by exact_mod_cast he)
  refine le_trans (mul_le_mul h1 h2 (by positivity) (by norm_num)) (le_of_eq ?_)
  rw [sub_mul, ← pow_add]; norm_num

theorem special_none {s : Text} (h : ∀ c ∈ s, c.toLower ≠ 'n') : IE.special s = none := by
  have hn : 'n' ∉ s.map Char.toLower := by
    intro hc
    obtain ⟨c, hc, e⟩ := List.mem_map.1 hc
    exact h c hc e
  have key : ∀ t : Text, 'n' ∈ t → s.map Char.toLower ≠ t := fun t ht e => hn (e ▸ ht)
  unfold IE.special
  simp only [key "nan".toList (by decide), key "+nan".toList (by decide), key "-nan".toList (by decide), key "inf".toList (by decide),
    key "+inf".toList (by decide), key "infinity".toList (by decide), key "+infinity".toList (by decide), key "-inf".toList (by decide),
    key "-infinity".toList (by decide), or_self, if_false]

theorem number_chars {c : Char} (h : c = '-' ∨ c = '+' ∨ c = '.' ∨ c = 'e' ∨ ∃ d, d < 10 ∧ c = digitC d) :
    c.toLower ≠ 'n' ∧ c ≠ ',' ∧ isWS c = false := by
  rcases h with rfl | rfl | rfl | rfl | ⟨d, hd, rfl⟩
  · decide
  · decide
  · decide
  · decide
  · interval_cases d <;> decide

/-- The text of a value has no comma and no white space. -/
theorem IE.fmt_chars (x : IE) : ∀ c ∈ x.fmt, c ≠ ',' ∧ isWS c = false := by
  intro c hc
  cases x with
  | nan => revert c; decide
  | inf s => cases s <;> (revert c; decide)
  | zero s =>
    cases s
    · exact (number_chars (fmtFloat_chars 0 c hc)).2
    · rcases List.mem_cons.1 hc with rfl | hc
      · decide
      · exact (number_chars (fmtFloat_chars 0 c hc)).2
  | fin x => exact (number_chars (fmtFloat_chars x c hc)).2

theorem parse_zero (s : Text) (hs : ∀ c ∈ s, c.toLower ≠ 'n') (v : ℝ) (hv : v = 0) (h : parseDec s = some v) :
    IE.parse s = some (.zero (s.head? = some '-')) := by
  subst hv
  unfold IE.parse
  rw [special_none hs, h]
  simp only [Option.bind_some]
  unfold IE.ofDec
  have hz : IsDouble 0 := ⟨0, 0, by norm_num, by norm_num, by norm_num, by simp⟩
  rw [if_neg (by rw [abs_zero, not_le, sub_pos]; exact pow_lt_pow_right₀ (by norm_num) (by norm_num)),
    toDouble_of_near hz fun d hd hne => by simpa using hne]
  simp

/-- **Every binary64 value survives** `float("{:.16e}".format(x))`, with the sign of a zero. -/
theorem IE.parse_fmt {x : IE} (hx : x.WF) : IE.parse x.fmt = some x := by
  cases x with
  | nan => rfl
  | inf s => cases s <;> rfl
  | zero s =>
    have e : parseDec (fmtFloat 0) = some 0 := by
      unfold fmtFloat
      rw [if_pos rfl]
      have hp := parseUDec_point (List.replicate 17 '0') 0 0 (fun c hc => ⟨0, by omega, List.eq_of_mem_replicate hc⟩) (by decide)
      have hd : parseDec (pointText (List.replicate 17 '0') ++ 'e' :: expText 0) = parseUDec (pointText (List.replicate 17 '0') ++ 'e' :: expText 0) := rfl
      rw [hd, hp]; simp
    have hh : (fmtFloat 0) = '0' :: (fmtFloat 0).tail := by unfold fmtFloat; rw [if_pos rfl]; rfl
    have hu : parseUDec (fmtFloat 0) = some 0 := by
      rw [hh] at e ⊢
      exact e
    cases s
    · show IE.parse (fmtFloat 0) = _
      rw [parse_zero (fmtFloat 0) (fun c hc => (number_chars (fmtFloat_chars 0 c hc)).1) 0 rfl e, hh]
      simp
    · show IE.parse ('-' :: fmtFloat 0) = _
      rw [parse_zero ('-' :: fmtFloat 0) ?_ (-0) (by simp) ?_]
      · simp
      · intro c hc
        rcases List.mem_cons.1 hc with rfl | hc
        · decide
        · exact (number_chars (fmtFloat_chars 0 c hc)).1
      · show (parseUDec (fmtFloat 0)).map (fun (v : ℝ) => -v) = _
        rw [hu]; rfl
  | fin x =>
    obtain ⟨hd, h0⟩ := hx
    obtain ⟨u, hu, hu2⟩ := parseDec_fmtFloat h0
    have h := (floatText_roundTrips hd).1
    have h' : (parseDec (fmtFloat x)).bind toDouble = some x := h
    rw [hu] at h'
    simp only [Option.bind_some] at h'
    show IE.parse (fmtFloat x) = _
    unfold IE.parse
    rw [special_none fun c hc => (number_chars (fmtFloat_chars x c hc)).1, hu]
    simp only [Option.bind_some]
    unfold IE.ofDec
    rw [if_neg, h']
    · simp [h0]
    · rw [not_le]
      have h1 : |u| ≤ |x| + 1 / 2 * (10 : ℝ) ^ (-16 : ℤ) * |x| := by
        have := abs_sub_abs_le_abs_sub u x
        linarith
      have h2 := isDouble_abs_le hd
      have h3 : (1 / 2 * (10 : ℝ) ^ (-16 : ℤ)) * |x| ≤ (1 / 2 * (10 : ℝ) ^ (-16 : ℤ)) * 2 ^ 1024 := by
        exact mul_le_mul_of_nonneg_left (le_trans h2 (sub_le_self _ (by positivity))) (by positivity)
      have h4 : (2 : ℝ) ^ 1024 = 2 ^ 54 * 2 ^ 970 := by rw [← pow_add]
      have h5 : (2 : ℝ) ^ 971 = 2 * 2 ^ 970 := by rw [← pow_succ']
      have h6 : (0 : ℝ) < 2 ^ 970 := by positivity
      rw [h4] at h2 h3 ⊢
      rw [h5] at h2
      generalize (2 : ℝ) ^ 970 = P at *
      have h7 : (1 / 2 * (10 : ℝ) ^ (-16 : ℤ)) * (2 ^ 54 * P) = (1 / 2 * (10 : ℝ) ^ (-16 : ℤ) * 2 ^ 54) * P := by ring
      have h8 : (1 / 2 * (10 : ℝ) ^ (-16 : ℤ) * 2 ^ 54) < 1 := by norm_num
      have h9 := mul_lt_mul_of_pos_right h8 h6
      rw [h7] at h3
      refine lt_of_le_of_lt (le_trans h1 (add_le_add h2 h3)) ?_
      refine lt_of_lt_of_le (add_lt_add_right h9 _) ?_
      clear h1 h2 h3 h4 h5 h7 h8 h9 hu2 h'
      linarith

theorem pyFloatX_fmt {x : IE} (h : x.WF) : IE.pyFloat x.fmt = .ok x := by
  unfold IE.pyFloat
  rw [strip_noWS _ (fun c hc => (IE.fmt_chars x c hc).2), IE.parse_fmt h]

theorem pyFloatX_fmt_nl {x : IE} (h : x.WF) : IE.pyFloat (x.fmt ++ ['\n']) = .ok x := by
  unfold IE.pyFloat
  rw [strip_newline _ (fun c hc => (IE.fmt_chars x c hc).2), IE.parse_fmt h]

/-! ### `re + 1j * im` -/

/-- A rounding that leaves doubles alone. -/
def KeepsDoubles (rnd : ℝ → ℝ) : Prop := ∀ x, IsDouble x → rnd x = x

/-- The sign bit of a value (set for `-0.0`). -/
def signBit : IE → Prop
  | .nan => False
  | .inf s => s = true
  | .zero s => s = true
  | .fin x => x < 0

/-- An infinity or a NaN. -/
def NotFinite : IE → Prop
  | .nan => True
  | .inf _ => True
  | _ => False

open Classical in
/-- What becomes of the entry `re + i im` of a saved file.  The imaginary part: a negative zero becomes a positive zero, anything
else stays.  The real part: NaN as soon as the imaginary part is an infinity or a NaN; otherwise unchanged, except that a negative
zero becomes a positive one unless the imaginary part has its sign bit set. -/
noncomputable def reread (v : IE × IE) : IE × IE :=
  (if NotFinite v.2 then .nan else if v.1 = .zero true ∧ ¬ signBit v.2 then .zero false else v.1,
   if v.2 = .zero true then .zero false else v.2)

theorem entry_eq {rnd : ℝ → ℝ} (hr : KeepsDoubles rnd) (v : IE × IE) (h1 : v.1.WF) (h2 : v.2.WF) :
    IE.entry rnd v.1 v.2 = reread v := by
  obtain ⟨re, im⟩ := v
  unfold reread IE.entry IE.cadd IE.cmul IE.toC IE.sub
  simp only at h1 h2 ⊢
  have one : ∀ x, IsDouble x → x ≠ 0 → IE.ofReal (xor (decide ((1 : ℝ) < 0)) (decide (x < 0))) (rnd (1 * x)) = .fin x := by
    intro x hx h0
    rw [one_mul, hr x hx]
    unfold IE.ofReal
    have hb := isDouble_abs_le hx
    have h971 : (0 : ℝ) < 2 ^ 971 := by positivity
    rw [if_neg h0, if_neg (by rw [not_le]; exact lt_of_le_of_lt hb (sub_lt_self _ h971))]
  have hn : decide ((1 : ℝ) < 0) = false := by simp
  cases im with
  | nan => cases re <;> simp [IE.mul, IE.add, IE.neg, NotFinite]
  | inf s => cases re <;> simp [IE.mul, IE.add, IE.neg, NotFinite, IE.sign, hn]
  | zero s => cases re <;> cases s <;> simp [IE.mul, IE.add, IE.neg, NotFinite, IE.sign, signBit]
  | fin x =>
    have e := one x h2.1 h2.2
    cases re with
    | nan => simp [IE.mul, IE.add, NotFinite, IE.sign] at e ⊢; rw [e]
    | inf s => simp [IE.mul, IE.add, IE.neg, NotFinite, IE.sign] at e ⊢; rw [e]
    | zero s => 
      by_cases hx : x < 0 <;> cases s <;> simp [IE.mul, IE.add, IE.neg, NotFinite, IE.sign, signBit, hx] at e ⊢ <;> rw [e] 
    | fin y => simp [IE.mul, IE.add, IE.neg, NotFinite, IE.sign] at e ⊢; rw [e]

/-! ### Coefficient files -/

/-- All the values in a list of complex numbers are binary64 values. -/
def WFC (v : IE × IE) : Prop := v.1.WF ∧ v.2.WF

/-- The text of one data line (without the newline). -/
noncomputable def entryTextX (v : IE × IE) : Text := v.1.fmt ++ ',' :: v.2.fmt

theorem entryTextX_noNL (v : IE × IE) : ∀ c ∈ entryTextX v, c ≠ '\n' := by
  intro c hc
  rcases List.mem_append.1 hc with h1 | h1
  · exact ne_newline_of_noWS (IE.fmt_chars _ c h1).2
  · rcases List.mem_cons.1 h1 with rfl | h1
    · decide
    · exact ne_newline_of_noWS (IE.fmt_chars _ c h1).2

theorem entryTextX_split (v : IE × IE) : splitChar ',' (entryTextX v ++ ['\n']) = [v.1.fmt, v.2.fmt ++ ['\n']] := by
  unfold entryTextX
  rw [List.append_assoc, List.cons_append, splitChar_sep _ _ _ (fun c hc => (IE.fmt_chars _ c hc).1), splitChar_none]
  intro c hc
  rcases List.mem_append.1 hc with h1 | h1
  · exact (IE.fmt_chars _ c h1).1
  · simp at h1; subst h1; decide

theorem saveCoefX_eq (c : ScalarCoefs (IE × IE)) (hc : c.WF) :
    saveCoefX c = .ok ((headText c.nmax c.mmax ++ ['\n']) ++ (c.vec.map fun v => entryTextX v ++ ['\n']).flatten) := by
  unfold saveCoefX
  have hL : (c.nmax + 1) + c.mmax * (2 * c.nmax - c.mmax + 1) = (c.vec.length : Int) := by
    rw [hc.len, ← lFormula_eq]; rfl
  simp only [hL]
  obtain ⟨t, e, ht⟩ := forM'_range_inv (a := 0) (b := (c.vec.length : Int)) (by omega) (fmtInt c.nmax ++ ',' :: fmtInt c.mmax ++ ['\n'])
    (fun out n => (getIdx c.vec n).bind fun v => .ok (out ++ (v.1.fmt ++ ',' :: v.2.fmt ++ ['\n'])))
    (fun k out => out = (headText c.nmax c.mmax ++ ['\n']) ++ ((c.vec.take k.toNat).map fun v => entryTextX v ++ ['\n']).flatten)
    (by simp [headText])
    (by
      intro i s h1 h2 hs
      obtain ⟨k, rfl⟩ := Int.eq_ofNat_of_zero_le h1
      rw [getIdx_of_lt h1 h2]
      refine ⟨_, rfl, ?_⟩
      have hk : k < c.vec.length := by omega
      have e1 : ((k : Int) + 1).toNat = k + 1 := by omega
      rw [hs, e1, List.take_succ_eq_append_getElem hk, List.map_append, List.flatten_append, List.append_assoc]
      simp [entryTextX, -List.map_take])
  rw [e, ht]
  simp

theorem loadLinesX (rnd : ℝ → ℝ) (hr : KeepsDoubles rnd) (vs : List (IE × IE)) (hv : ∀ v ∈ vs, WFC v) (pre post : List (IE × IE))
    (hp : post.length = vs.length) :
    forM' ((vs.map fun v => entryTextX v ++ ['\n']).zipIdx pre.length) (pre ++ post) (fun vec ln =>
      let lst := splitChar ',' ln.1
      (getIdx lst 0).bind fun a => (IE.pyFloat a).bind fun re =>
      (getIdx lst 1).bind fun b => (IE.pyFloat b).bind fun im =>
      setIdx vec (ln.2 : Int) (IE.entry rnd re im)) = .ok (pre ++ vs.map reread) := by
  induction vs generalizing pre post with
  | nil =>
    have : post = [] := List.length_eq_zero_iff.1 hp
    subst this
    simp [forM']
  | cons v vs ih =>
    cases post with
    | nil => simp at hp
    | cons p post =>
      have hw := hv v List.mem_cons_self
      simp only [List.map_cons, List.zipIdx_cons, forM', entryTextX_split, getIdx_cons0, getIdx_cons1, Except.bind_ok,
        pyFloatX_fmt hw.1, pyFloatX_fmt_nl hw.2, entry_eq hr v hw.1 hw.2]
      have hset : setIdx (pre ++ p :: post) (pre.length : Int) (reread v) = .ok ((pre ++ [reread v]) ++ post) := by
        rw [setIdx_of_lt (by omega) (by simp)]
        congr 1
        rw [Int.toNat_natCast, List.set_append_right _ _ (le_refl _), Nat.sub_self, List.set_cons_zero]
        simp
      rw [hset]
      simp only [Except.bind_ok]
      have e := ih (fun w h => hv w (List.mem_cons_of_mem _ h)) (pre ++ [reread v]) post (by simpa using hp)
      rw [show (pre ++ [reread v]).length = pre.length + 1 by simp] at e
      rw [e]
      simp

/-- **C119, exact behaviour**: a coefficient set of any binary64 values - infinities, NaN and negative zeros included - is always
saved and loaded without error, and each coefficient comes back as `reread` of it. -/
theorem c119_coef_actual (rnd : ℝ → ℝ) (hr : KeepsDoubles rnd) (c : ScalarCoefs (IE × IE)) (hc : c.WellFormed)
    (hv : ∀ v ∈ c.vec, WFC v) :
    ∃ text, saveCoefX c = .ok text ∧ loadCoefX rnd text = .ok ⟨c.vec.map reread, c.nmax, c.mmax⟩ := by
  have hw := ScalarCoefs.wf_iff.2 hc
  refine ⟨_, saveCoefX_eq c hw, ?_⟩
  have hL : lCount c.nmax c.mmax = (c.vec.length : Int) := by rw [lCount_card hc.1 hc.2, hc.3]
  have hlines : readlines ((headText c.nmax c.mmax ++ ['\n']) ++ (c.vec.map fun v => entryTextX v ++ ['\n']).flatten) =
      (headText c.nmax c.mmax ++ ['\n']) :: c.vec.map fun v => entryTextX v ++ ['\n'] := by
    have h := readlines_flatten (headText c.nmax c.mmax :: c.vec.map entryTextX) (by
      intro l hl
      rcases List.mem_cons.1 hl with rfl | hl
      · exact headText_noNL _ _
      · obtain ⟨v, -, rfl⟩ := List.mem_map.1 hl
        exact entryTextX_noNL v) []
    simpa [readlines, Function.comp_def] using h
  unfold loadCoefX
  simp only [hlines, getIdx_cons0, Except.bind_ok, headText_split, getIdx_cons1, pyInt_fmt, pyInt_fmt_nl, List.drop_one, List.tail_cons]
  have hn : npFull ((c.nmax + 1) + c.mmax * (2 * c.nmax - c.mmax + 1)) (IE.zero false, IE.zero false) =
      .ok (List.replicate c.vec.length (IE.zero false, IE.zero false)) := by
    unfold npFull
    unfold lCount at hL
    rw [hL, if_neg (by omega), Int.toNat_natCast]
  rw [hn]
  simp only [Except.bind_ok]
  have e := loadLinesX rnd hr c.vec hv [] (List.replicate c.vec.length (IE.zero false, IE.zero false)) (by simp)
  simp only [List.length_nil, List.nil_append] at e
  unfold loadCoefLinesX
  rw [e]
  simp only [Except.bind_ok]
  unfold ScalarCoefs.init
  rw [if_neg (by have := hc.2; omega)]
  simp only
  rw [if_neg (by rw [List.length_map, hw.len]; simp)]

/-- When an entry comes back unchanged. -/
theorem reread_eq_iff (v : IE × IE) :
    reread v = v ↔ v.2 ≠ .zero true ∧ (NotFinite v.2 → v.1 = .nan) ∧ (v.1 = .zero true → signBit v.2) := by
  obtain ⟨re, im⟩ := v
  unfold reread
  simp only [Prod.mk.injEq]
  constructor
  · rintro ⟨h1, h2⟩
    refine ⟨?_, ?_, ?_⟩
    · rintro rfl
      simp at h2
    · intro h
      rw [if_pos h] at h1
      exact h1.symm
    · rintro rfl
      by_contra hs
      by_cases hf : NotFinite im
      · rw [if_pos hf] at h1; simp at h1
      · rw [if_neg hf, if_pos ⟨rfl, hs⟩] at h1; simp at h1
  · rintro ⟨h1, h2, h3⟩
    refine ⟨?_, if_neg h1⟩
    by_cases hf : NotFinite im
    · rw [if_pos hf, h2 hf]
    · rw [if_neg hf, if_neg (fun h => h.2 (h3 h.1))]

/-- **C119, exactly when the set comes back unchanged**: no imaginary part is a negative zero, no infinite or NaN imaginary part
stands beside a real part other than NaN, and a negative zero as real part only stands beside a negative imaginary part. -/
theorem c119_coef_iff (rnd : ℝ → ℝ) (hr : KeepsDoubles rnd) (c : ScalarCoefs (IE × IE)) (hc : c.WellFormed)
    (hv : ∀ v ∈ c.vec, WFC v) :
    (∃ text, saveCoefX c = .ok text ∧ loadCoefX rnd text = .ok c) ↔
      ∀ v ∈ c.vec, v.2 ≠ .zero true ∧ (NotFinite v.2 → v.1 = .nan) ∧ (v.1 = .zero true → signBit v.2) := by
  obtain ⟨text, hs, hl⟩ := c119_coef_actual rnd hr c hc hv
  constructor
  · rintro ⟨text', hs', hl'⟩ v hvm
    rw [hs] at hs'
    obtain rfl := Except.ok.inj hs'
    rw [hl] at hl'
    have h := congrArg ScalarCoefs.vec (Except.ok.inj hl')
    simp only at h
    rw [← reread_eq_iff]
    obtain ⟨i, hi, rfl⟩ := List.getElem_of_mem hvm
    have h2 : (c.vec.map reread)[i]'(by simpa using hi) = c.vec[i] := by simp only [h]
    rwa [List.getElem_map] at h2
  · intro h
    refine ⟨text, hs, ?_⟩
    rw [hl]
    have : c.vec.map reread = c.vec := by
      conv_rhs => rw [← List.map_id c.vec]
      exact List.map_congr_left fun v hvm => (reread_eq_iff v).2 (h v hvm)
    rw [this]

/-- **C119, the part that holds**: a set of finite values comes back with every value equal (`==`), that is up to the sign of
zeros; the imaginary parts of all sets, infinities and NaN included, come back likewise. -/
theorem c119_coef_partial (rnd : ℝ → ℝ) (hr : KeepsDoubles rnd) (c : ScalarCoefs (IE × IE)) (hc : c.WellFormed)
    (hv : ∀ v ∈ c.vec, WFC v) :
    ∃ text d, saveCoefX c = .ok text ∧ loadCoefX rnd text = .ok d ∧ d.nmax = c.nmax ∧ d.mmax = c.mmax ∧
      List.Forall₂ (fun v w => (v.2 = w.2 ∨ ∃ s t, v.2 = .zero s ∧ w.2 = .zero t) ∧
        (¬ NotFinite v.2 → v.1 = w.1 ∨ ∃ s t, v.1 = .zero s ∧ w.1 = .zero t)) c.vec d.vec := by
  obtain ⟨text, hs, hl⟩ := c119_coef_actual rnd hr c hc hv
  refine ⟨text, _, hs, hl, rfl, rfl, ?_⟩
  simp only
  rw [List.forall₂_map_right_iff, List.forall₂_same]
  rintro ⟨re, im⟩ -
  unfold reread
  refine ⟨?_, ?_⟩
  · simp only
    by_cases h : im = .zero true
    · exact Or.inr ⟨true, false, h, by rw [if_pos h]⟩
    · rw [if_neg h]; exact Or.inl rfl
  · intro h
    simp only at h ⊢
    rw [if_neg h]
    by_cases h2 : re = .zero true ∧ ¬ signBit im
    · exact Or.inr ⟨true, false, h2.1, by rw [if_pos h2]⟩
    · rw [if_neg h2]; exact Or.inl rfl

/-- **C119 is false in general**: a coefficient `1 + inf i` is loaded back as `nan + inf i`, silently, whatever the size of the set and
whatever mode it belongs to. -/
theorem c119_infinite_counterexample (rnd : ℝ → ℝ) (hr : KeepsDoubles rnd) (c : ScalarCoefs (IE × IE)) (hc : c.WellFormed)
    (hv : ∀ v ∈ c.vec, WFC v) (i : Nat) (hi : i < c.vec.length) (x : ℝ) (s : Bool) (h : c.vec[i] = (.fin x, .inf s)) :
    ∃ text d, saveCoefX c = .ok text ∧ loadCoefX rnd text = .ok d ∧ d.vec[i]? = some (.nan, .inf s) := by
  obtain ⟨text, hs, hl⟩ := c119_coef_actual rnd hr c hc hv
  refine ⟨text, _, hs, hl, ?_⟩
  simp only [List.getElem?_map, List.getElem?_eq_getElem hi, h, Option.map_some]
  simp [reread, NotFinite]

/-- Saving and loading twice settles an entry: a third time changes nothing more. -/
theorem c119_settles (v : IE × IE) : reread (reread (reread v)) = reread (reread v) := by
  rw [reread_eq_iff]
  obtain ⟨re, im⟩ := v
  have him : (reread (re, im)).2 ≠ .zero true := by
    unfold reread
    simp only
    by_cases h : im = .zero true
    · rw [if_pos h]; simp
    · rw [if_neg h]; exact h
  generalize reread (re, im) = w at *
  obtain ⟨re, im⟩ := w
  simp only at him
  unfold reread
  simp only
  rw [if_neg him]
  refine ⟨him, fun h => by rw [if_pos h], ?_⟩
  by_cases hf : NotFinite im
  · rw [if_pos hf]; intro h; simp at h
  · rw [if_neg hf]
    by_cases h2 : re = .zero true ∧ ¬ signBit im
    · rw [if_pos h2]; intro h; simp at h
    · rw [if_neg h2]
      intro h
      by_contra hs
      exact h2 ⟨h, hs⟩

/-- One round is not enough: `-0.0 - 0.0i` is loaded as `-0.0 + 0.0i`, and that, saved and loaded, as `0.0 + 0.0i`. -/
theorem c119_twice_counterexample :
    reread (.zero true, .zero true) = (.zero true, .zero false) ∧ reread (.zero true, .zero false) = (.zero false, .zero false) := by
  constructor <;> simp [reread, NotFinite, signBit]

/-! ### Sample files -/

theorem savedX_cells (A : Arr2 (IE × IE)) :
    saveArrX A = (headText A.rows A.cols ++ ['\n']) ++ ((cells A.rows A.cols).map fun ij =>
      (fmtInt (ij.1 : Int) ++ ',' :: fmtInt (ij.2 : Int) ++ ',' :: entryTextX (A.at' ij.1 ij.2)) ++ ['\n']).flatten := by
  unfold saveArrX
  have e : ∀ (nr : Nat) (out : Text), (List.range A.cols).foldl (fun out (nc : Nat) =>
      out ++ (fmtInt (nr : Int) ++ ',' :: fmtInt (nc : Int) ++ ',' :: (A.at' nr nc).1.fmt ++ ',' :: (A.at' nr nc).2.fmt ++ ['\n'])) out =
      out ++ ((List.range A.cols).map fun (nc : Nat) =>
        (fmtInt (nr : Int) ++ ',' :: fmtInt (nc : Int) ++ ',' :: entryTextX (A.at' nr nc)) ++ ['\n']).flatten := by
    intro nr out
    rw [foldl_append]
    simp [entryTextX]
  simp only [e]
  rw [foldl_append]
  congr 1
  unfold cells
  induction (List.range A.rows) with
  | nil => rfl
  | cons i l ih =>
    simp only [List.map_cons, List.flatten_cons, List.flatMap_cons, List.map_append, List.flatten_append, ih, List.map_map, Function.comp_def]

theorem cellTextX_split (i j : Nat) (v : IE × IE) :
    splitChar ',' ((fmtInt (i : Int) ++ ',' :: fmtInt (j : Int) ++ ',' :: entryTextX v) ++ ['\n']) =
      [fmtInt i, fmtInt j, v.1.fmt, v.2.fmt ++ ['\n']] := by
  simp only [List.append_assoc, List.cons_append]
  rw [splitChar_sep _ _ _ (fmtInt_noComma _), splitChar_sep _ _ _ (fmtInt_noComma _), entryTextX_split]

theorem setIdx2X_nat (A : Arr2 (IE × IE)) (i j : Nat) (v : IE × IE) (hi : i < A.rows) (hj : j < A.cols) :
    setIdx2X A i j v = .ok (Arr2.ofFn A.rows A.cols fun a b => if a = i ∧ b = j then v else A.at' a b) := by
  unfold setIdx2X
  simp only [show ¬ ((i : Int) < 0) by omega, show ¬ ((j : Int) < 0) by omega, if_false, false_or]
  rw [if_neg (by omega)]
  simp only [Nat.cast_inj]

/-- The body of the line loop. -/
noncomputable def cellStepX (rnd : ℝ → ℝ) (patt : Arr2 (IE × IE)) (line : Text) : Res (Arr2 (IE × IE)) :=
    let lst := splitChar ',' line
    (getIdx lst 0).bind fun a => (pyInt a).bind fun n =>
    (getIdx lst 1).bind fun b => (pyInt b).bind fun m =>
    (getIdx lst 2).bind fun c => (IE.pyFloat c).bind fun re =>
    (getIdx lst 3).bind fun d => (IE.pyFloat d).bind fun im =>
    setIdx2X patt n m (IE.entry rnd re im)

theorem cellsX_loop (rnd : ℝ → ℝ) (hr : KeepsDoubles rnd) (A : Arr2 (IE × IE)) (l : List (Nat × Nat))
    (hl : ∀ ij ∈ l, ij.1 < A.rows ∧ ij.2 < A.cols) (hv : ∀ ij ∈ l, WFC (A.at' ij.1 ij.2)) (P : Arr2 (IE × IE)) (hrr : P.rows = A.rows)
    (hc : P.cols = A.cols) :
    ∃ P', forM' (l.map fun ij => (fmtInt (ij.1 : Int) ++ ',' :: fmtInt (ij.2 : Int) ++ ',' :: entryTextX (A.at' ij.1 ij.2)) ++ ['\n']) P
        (cellStepX rnd) = .ok P' ∧ P'.rows = A.rows ∧ P'.cols = A.cols ∧
      ∀ i j, i < A.rows → j < A.cols → P'.at' i j = if (i, j) ∈ l then reread (A.at' i j) else P.at' i j := by
  induction l generalizing P with
  | nil => exact ⟨P, rfl, hrr, hc, fun i j _ _ => by simp⟩
  | cons x l ih =>
    obtain ⟨a, b⟩ := x
    have hab := hl (a, b) List.mem_cons_self
    have hva := hv (a, b) List.mem_cons_self
    simp only at hab hva
    have hstep : cellStepX rnd P ((fmtInt (a : Int) ++ ',' :: fmtInt (b : Int) ++ ',' :: entryTextX (A.at' a b)) ++ ['\n']) =
        .ok (Arr2.ofFn P.rows P.cols fun i j => if i = a ∧ j = b then reread (A.at' a b) else P.at' i j) := by
      unfold cellStepX
      rw [cellTextX_split]
      simp only [getIdx_cons0, getIdx_cons1, getIdx_cons2, getIdx_cons3, Except.bind_ok, pyInt_fmt, pyFloatX_fmt hva.1,
        pyFloatX_fmt_nl hva.2, entry_eq hr _ hva.1 hva.2]
      rw [setIdx2X_nat P a b _ (by omega) (by omega)]
    obtain ⟨P', e, h1, h2, h3⟩ := ih (fun ij h => hl ij (List.mem_cons_of_mem _ h)) (fun ij h => hv ij (List.mem_cons_of_mem _ h))
      (Arr2.ofFn P.rows P.cols fun i j => if i = a ∧ j = b then reread (A.at' a b) else P.at' i j) hrr hc
    refine ⟨P', ?_, h1, h2, fun i j hi hj => ?_⟩
    · simp only [List.map_cons, forM', hstep, Except.bind_ok]; exact e
    · rw [h3 i j hi hj, Arr2.at'_ofFn (by omega) (by omega)]
      by_cases hx : (i, j) ∈ l
      · simp [hx]
      · by_cases hy : i = a ∧ j = b
        · rw [hy.1, hy.2]; simp
        · have : (i, j) ≠ (a, b) := fun h => hy (by simpa using h)
          simp [hx, hy]

/-- **C119 for sample files, exact behaviour**: `load_fdata` of the text `save_patt` writes for an array of samples gives an array of the
same shape, each sample being `reread` of the saved one. -/
theorem c119_samples_actual (rnd : ℝ → ℝ) (hr : KeepsDoubles rnd) (A : Arr2 (IE × IE))
    (hv : ∀ i j, i < A.rows → j < A.cols → WFC (A.at' i j)) :
    ∃ B, loadFdataX rnd (saveArrX A) = .ok B ∧ B.rows = A.rows ∧ B.cols = A.cols ∧
      ∀ i j, i < A.rows → j < A.cols → B.at' i j = reread (A.at' i j) := by
  have hlines := readlines_flatten (headText A.rows A.cols :: (cells A.rows A.cols).map fun ij =>
      fmtInt (ij.1 : Int) ++ ',' :: fmtInt (ij.2 : Int) ++ ',' :: entryTextX (A.at' ij.1 ij.2)) (by
    intro l hl
    rcases List.mem_cons.1 hl with rfl | hl
    · exact headText_noNL _ _
    · obtain ⟨⟨i, j⟩, hij, rfl⟩ := List.mem_map.1 hl
      intro c hc
      simp only [List.mem_append, List.mem_cons, List.append_assoc, List.cons_append] at hc
      rcases hc with h1 | rfl | h1 | rfl | h1
      · exact ne_newline_of_noWS (fmtInt_noWS _ c h1)
      · decide
      · exact ne_newline_of_noWS (fmtInt_noWS _ c h1)
      · decide
      · exact entryTextX_noNL _ c h1) []
  simp only [readlines, List.append_nil, List.map_cons, List.map_map, Function.comp_def, List.flatten_cons] at hlines
  rw [savedX_cells]
  unfold loadFdataX
  rw [hlines]
  simp only [getIdx_cons0, Except.bind_ok, headText_split, getIdx_cons1, pyInt_fmt, pyInt_fmt_nl, List.drop_one, List.tail_cons]
  have hz : npFull2 (A.rows : Int) (A.cols : Int) (IE.zero false, IE.zero false) =
      .ok (Arr2.ofFn A.rows A.cols fun _ _ => (IE.zero false, IE.zero false)) := by
    unfold npFull2
    rw [if_neg (by omega)]; rfl
  rw [hz]
  simp only [Except.bind_ok]
  obtain ⟨P', e, h1, h2, h3⟩ := cellsX_loop rnd hr A (cells A.rows A.cols) (fun ij h => mem_cells.1 h)
    (fun ij h => hv ij.1 ij.2 (mem_cells.1 h).1 (mem_cells.1 h).2) (Arr2.ofFn A.rows A.cols fun _ _ => (IE.zero false, IE.zero false)) rfl rfl
  refine ⟨P', e, h1, h2, fun i j hi hj => ?_⟩
  rw [h3 i j hi hj, if_pos (mem_cells.2 ⟨hi, hj⟩)]

/-! ### The hypotheses are met -/

/-- Rounding to the nearest double keeps doubles. -/
theorem keepsDoubles_nearest : KeepsDoubles fun x => (toDouble x).getD x := by
  intro x hx
  have : toDouble x = some x := toDouble_of_near hx fun d _ hne => by
    rw [sub_self, abs_zero]
    exact abs_pos.2 (sub_ne_zero.2 (Ne.symm hne))
  simp only [this, Option.getD_some]

/-- A set with a half, an infinity, a NaN and two negative zeros: what comes back. -/
example : ∃ text, saveCoefX ⟨[(.fin (1 / 2), .inf true), (.inf false, .fin (-1 / 8)), (.nan, .nan), (.zero true, .zero true)], 1, 1⟩ = .ok text ∧
    loadCoefX (fun x => (toDouble x).getD x) text =
      .ok ⟨[(.nan, .inf true), (.inf false, .fin (-1 / 8)), (.nan, .nan), (.zero true, .zero false)], 1, 1⟩ := by
  have d1 : IsDouble (1 / 2) := ⟨1, -1, by norm_num, by norm_num, by norm_num, by norm_num⟩
  have d2 : IsDouble (-1 / 8) := ⟨-1, -3, by norm_num, by norm_num, by norm_num, by norm_num⟩
  obtain ⟨text, h1, h2⟩ := c119_coef_actual _ keepsDoubles_nearest
    ⟨[(.fin (1 / 2), .inf true), (.inf false, .fin (-1 / 8)), (.nan, .nan), (.zero true, .zero true)], 1, 1⟩
    (ScalarCoefs.wf_iff.1 ⟨by decide, by decide, rfl⟩) (by
      intro v hv
      simp only [List.mem_cons, List.not_mem_nil, or_false] at hv
      rcases hv with rfl | rfl | rfl | rfl
      · exact ⟨⟨d1, by norm_num⟩, trivial⟩
      · exact ⟨trivial, ⟨d2, by norm_num⟩⟩
      · exact ⟨trivial, trivial⟩
      · exact ⟨trivial, trivial⟩)
  refine ⟨text, h1, ?_⟩
  rw [h2]
  simp [reread, NotFinite, signBit]

end Verif.Props
