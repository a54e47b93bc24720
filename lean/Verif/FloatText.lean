import Verif.FileLemmas
import Mathlib.Data.Int.Log
import Mathlib.Algebra.Order.Round
import Mathlib.Tactic.LinearCombination
/-!
# `"{:.16e}".format(x)` and `float(s)` for IEEE doubles

The number format used by spherepy/file.py 59, 85 (`{:.16e}`) and `float()` (file.py 113-114, 202-203, 238-239), with CPython's
correctly rounded conversions.  Simplifications: the sign of zero is lost (values are real numbers); `float()` is defined on the
grammar `[+-]digits[.digits][e[+-]digits]` only; a decimal exactly half-way between two doubles is not given a value; infinities
and NaN are not modelled.
-/
namespace Verif

/-- Finite IEEE-754 binary64 values (the parts of the complex128 entries, file.py 104-105, 196). -/
def IsDouble (x : ℝ) : Prop := ∃ m e : ℤ, |m| < 2 ^ 53 ∧ -1074 ≤ e ∧ e ≤ 971 ∧ x = (m : ℝ) * (2 : ℝ) ^ e

/-- Round to the nearest integer, ties to even (`y ≥ 0`): CPython's rounding in `{:.16e}` (file.py 59, 85). -/
noncomputable def roundEven (y : ℝ) : Nat :=
  if y - ⌊y⌋₊ < 1 / 2 then ⌊y⌋₊
  else if 1 / 2 < y - ⌊y⌋₊ then ⌊y⌋₊ + 1
  else if ⌊y⌋₊ % 2 = 0 then ⌊y⌋₊ else ⌊y⌋₊ + 1

/-- The 17 significant digits (as an integer) and the decimal exponent printed by `{:.16e}` for `x ≠ 0` (file.py 59, 85). -/
noncomputable def sci17 (x : ℝ) : Nat × Int :=
  let k := Int.log 10 |x|
  let D := roundEven (|x| / (10 : ℝ) ^ (k - 16))
  if D = 10 ^ 17 then (10 ^ 16, k + 1) else (D, k)

/-- Exponent text of `{:.16e}` (file.py 59, 85): sign and at least two digits. -/
def expText (k : Int) : Text :=
  (if k < 0 then '-' else '+') :: (if k.natAbs < 10 then '0' :: fmtNat k.natAbs else fmtNat k.natAbs)

/-- Insert the decimal point after the first digit, as `{:.16e}` does (file.py 59, 85). -/
def pointText : Text → Text
  | [] => []
  | c :: cs => c :: '.' :: cs

/-- `"{:.16e}".format(x)` (file.py 59, 67-68, 85, 92-93). -/
noncomputable def fmtFloat (x : ℝ) : Text :=
  if x = 0 then pointText (List.replicate 17 '0') ++ 'e' :: expText 0
  else (if x < 0 then ['-'] else []) ++ pointText (fmtNat (sci17 x).1) ++ 'e' :: expText (sci17 x).2

/-- Value of `digits[.digits]` times `10^e`, part of `float(s)` (file.py 113-114, 202-203). -/
noncomputable def parseMant (s : Text) (e : Int) : Option ℝ :=
  match splitChar '.' s with
  | [ip] => (parseNat ip).map fun (n : Nat) => (n : ℝ) * (10 : ℝ) ^ e
  | [ip, fp] => (parseNat (ip ++ fp)).map fun (n : Nat) => (n : ℝ) * (10 : ℝ) ^ (e - fp.length)
  | _ => none

/-- Exact value of an unsigned decimal literal, part of `float(s)` (file.py 113-114, 202-203). -/
noncomputable def parseUDec (s : Text) : Option ℝ :=
  match splitChar 'e' s with
  | [mant] => parseMant mant 0
  | [mant, ex] => match pyInt ex with
    | .ok e => parseMant mant e
    | .error _ => none
  | _ => none

/-- Exact value of a decimal literal, part of `float(s)` (file.py 113-114, 202-203). -/
noncomputable def parseDec (s : Text) : Option ℝ :=
  match s with
  | '-' :: t => (parseUDec t).map fun (v : ℝ) => -v
  | '+' :: t => parseUDec t
  | t => parseUDec t

open Classical in
/-- The nearest double: the rounding in `float(s)` (file.py 113-114, 202-203, 238-239). -/
noncomputable def toDouble (v : ℝ) : Option ℝ :=
  if h : ∃ d, IsDouble d ∧ ∀ d', IsDouble d' → d' ≠ d → |v - d| < |v - d'| then some h.choose else none

/-- The concrete number format of save_patt/save_coef/load_* (file.py 59, 85, 113-114, 202-203, 238-239). -/
noncomputable def floatText : FloatText where
  fmt := fmtFloat
  parse s := (parseDec s).bind toDouble

/-! ### Round trip -/

theorem roundEven_err {y : ℝ} (hy : 0 ≤ y) : |y - roundEven y| ≤ 1 / 2 := by
  have h1 := Nat.floor_le hy
  have h2 := Nat.lt_floor_add_one y
  unfold roundEven
  rw [abs_le]
  split
  · constructor <;> linarith
  · split
    · push_cast; constructor <;> linarith
    · split
      · constructor <;> linarith
      · push_cast; constructor <;> linarith

theorem roundEven_ge {y : ℝ} {n : Nat} (h : (n : ℝ) ≤ y) : n ≤ roundEven y := by
  have h1 : n ≤ ⌊y⌋₊ := Nat.le_floor h
  unfold roundEven
  split
  · exact h1
  · split
    · omega
    · split <;> omega

theorem roundEven_le {y : ℝ} {n : Nat} (h0 : 0 ≤ y) (h : y < (n : ℝ)) : roundEven y ≤ n := by
  have h1 : ⌊y⌋₊ < n := (Nat.floor_lt h0).2 h
  unfold roundEven
  split
  · omega
  · split
    · omega
    · split <;> omega

/-- Distinct doubles are relatively more than `10^-16` apart. -/
theorem double_gap {x d : ℝ} (hx : IsDouble x) (hd : IsDouble d) (hne : d ≠ x) : |x| < 10 ^ 16 * |x - d| := by
  obtain ⟨m, e, hm, -, -, rfl⟩ := hx
  obtain ⟨m', e', hm', -, -, rfl⟩ := hd
  have h2 : (0 : ℝ) < 2 := by norm_num
  -- common exponent
  obtain ⟨a, b, f, ha, hb, hab⟩ : ∃ (a b f : ℤ), (m : ℝ) * 2 ^ e = a * 2 ^ f ∧ (m' : ℝ) * 2 ^ e' = b * 2 ^ f ∧ (|a| < 2 ^ 53 ∨ |b| < 2 ^ 53) := by
    rcases le_total e e' with h | h
    · obtain ⟨k, hk⟩ := Int.eq_ofNat_of_zero_le (show 0 ≤ e' - e by omega)
      refine ⟨m, m' * 2 ^ k, e, rfl, ?_, Or.inl hm⟩
      have : e' = k + e := by omega
      rw [this, zpow_add₀ h2.ne']
      push_cast
      rw [zpow_natCast]; ring
    · obtain ⟨k, hk⟩ := Int.eq_ofNat_of_zero_le (show 0 ≤ e - e' by omega)
      refine ⟨m * 2 ^ k, m', e', ?_, rfl, Or.inr hm'⟩
      have : e = k + e' := by omega
      rw [this, zpow_add₀ h2.ne']
      push_cast
      rw [zpow_natCast]; ring
  rw [ha, hb] at hne ⊢
  have hf : (0 : ℝ) < 2 ^ f := zpow_pos h2 f
  have hne' : a ≠ b := by rintro rfl; exact hne rfl
  rw [← sub_mul, abs_mul, abs_mul, abs_of_pos hf, ← mul_assoc]
  refine mul_lt_mul_of_pos_right ?_ hf
  have key : |a| < 10 ^ 16 * |a - b| := by
    have h1 : 1 ≤ |a - b| := Int.one_le_abs (sub_ne_zero.2 hne')
    have h3 : |a| ≤ |a - b| + |b| := by
      have := abs_add_le (a - b) b
      simpa using this
    rcases hab with h | h
    · norm_num at h ⊢; omega
    · norm_num at h ⊢; omega
  have : ((|a| : ℤ) : ℝ) < ((10 ^ 16 * |a - b| : ℤ) : ℝ) := by exact_mod_cast key
  push_cast at this
  norm_num at this ⊢
  exact this

theorem toDouble_of_near {x v : ℝ} (hx : IsDouble x) (h : ∀ d, IsDouble d → d ≠ x → |v - x| < |v - d|) : toDouble v = some x := by
  unfold toDouble
  have hex : ∃ d, IsDouble d ∧ ∀ d', IsDouble d' → d' ≠ d → |v - d| < |v - d'| := ⟨x, hx, h⟩
  rw [dif_pos hex]
  congr 1
  by_contra hne
  have h1 := hex.choose_spec.2 x hx (Ne.symm hne)
  have h2 := h _ hex.choose_spec.1 hne
  linarith

/-- What the printed digits of `x` denote. -/
theorem sci17_spec {x : ℝ} (hx : x ≠ 0) :
    10 ^ 16 ≤ (sci17 x).1 ∧ (sci17 x).1 < 10 ^ 17 ∧
      |((sci17 x).1 : ℝ) * (10 : ℝ) ^ ((sci17 x).2 - 16) - (|x|)| ≤ 1 / 2 * (10 : ℝ) ^ (-16 : ℤ) * |x| := by
  set k := Int.log 10 |x| with hk
  have hxp : 0 < |x| := abs_pos.2 hx
  have ten : (0 : ℝ) < 10 := by norm_num
  have l1 : ((10 : ℕ) : ℝ) ^ k ≤ |x| := Int.zpow_log_le_self (by norm_num) hxp
  have l2 : |x| < ((10 : ℕ) : ℝ) ^ (k + 1) := Int.lt_zpow_succ_log_self (by norm_num) |x|
  push_cast at l1 l2
  have hp : (0 : ℝ) < 10 ^ (k - 16) := zpow_pos ten _
  have e16 : (10 : ℝ) ^ k = 10 ^ 16 * 10 ^ (k - 16) := by
    rw [show k = (k - 16) + 16 by ring, zpow_add₀ ten.ne']
    simp only [add_sub_cancel_right]
    norm_num
    ring
  have e17 : (10 : ℝ) ^ (k + 1) = 10 ^ 17 * 10 ^ (k - 16) := by
    rw [zpow_add₀ ten.ne', e16]; norm_num; ring
  set y := |x| / (10 : ℝ) ^ (k - 16) with hy
  have y1 : ((10 ^ 16 : ℕ) : ℝ) ≤ y := by
    rw [hy, le_div_iff₀ hp]; push_cast; norm_num at e16 ⊢; linarith
  have y2 : y < ((10 ^ 17 : ℕ) : ℝ) := by
    rw [hy, div_lt_iff₀ hp]; push_cast; norm_num at e17 ⊢; linarith
  have y0 : 0 ≤ y := by positivity
  have r1 := roundEven_ge y1
  have r2 := roundEven_le y0 y2
  have re := roundEven_err y0
  have hval : |(roundEven y : ℝ) * (10 : ℝ) ^ (k - 16) - (|x|)| ≤ 1 / 2 * (10 : ℝ) ^ (-16 : ℤ) * |x| := by
    have hyx : |x| = y * 10 ^ (k - 16) := by rw [hy]; field_simp
    have e1 : (roundEven y : ℝ) * (10 : ℝ) ^ (k - 16) - |x| = (roundEven y - y) * 10 ^ (k - 16) := by rw [hyx]; ring
    rw [e1, abs_mul, abs_of_pos hp, abs_sub_comm]
    have e2 : (10 : ℝ) ^ (k - 16) ≤ (10 : ℝ) ^ (-16 : ℤ) * |x| := by
      have := mul_le_mul_of_nonneg_left l1 (show (0 : ℝ) ≤ (10 : ℝ) ^ (-16 : ℤ) by positivity)
      rw [← zpow_add₀ ten.ne', show -16 + k = k - 16 by ring] at this
      exact this
    calc |y - roundEven y| * 10 ^ (k - 16) ≤ 1 / 2 * ((10 : ℝ) ^ (-16 : ℤ) * |x|) :=
          mul_le_mul re e2 hp.le (by norm_num)
      _ = _ := by ring
  unfold sci17
  simp only [← hk, ← hy]
  split
  · next h =>
    refine ⟨le_refl _, by norm_num, ?_⟩
    have e3 : (((10 ^ 16 : ℕ) : ℕ) : ℝ) * (10 : ℝ) ^ (k + 1 - 16) = (roundEven y : ℝ) * 10 ^ (k - 16) := by
      rw [h, show k + 1 - 16 = (k - 16) + 1 by ring, zpow_add₀ ten.ne']
      push_cast
      norm_num
      ring
    simp only [e3]
    exact hval
  · next h => exact ⟨r1, by omega, hval⟩

theorem fmtNat_no (n : Nat) (c : Char) (hc : ∀ d, d < 10 → digitC d ≠ c) : ∀ a ∈ fmtNat n, a ≠ c := by
  intro a ha
  obtain ⟨d, hd, rfl⟩ := fmtNat_digit n a ha
  exact hc d hd

theorem pyInt_exp (k : Int) : pyInt (expText k) = .ok k := by
  have hd0 : ∀ n : Nat, n < 10 → fmtNat n = [digitC n] := by
    intro n hn
    unfold fmtNat
    split
    · next h => subst h; rfl
    · next h => rw [Nat.digits_of_lt 10 n h hn]; rfl
  set t : Text := (if k.natAbs < 10 then '0' :: fmtNat k.natAbs else fmtNat k.natAbs) with ht
  have htp : parseNat t = some k.natAbs := by
    rw [ht]
    split
    · next h =>
      rw [hd0 _ h]
      unfold parseNat
      have h3 := digitC_toNat h
      have hz : ('0' : Char).toNat = 48 := rfl
      rw [if_neg]
      · simp [digitsVal, h3, hz]
      · simp [h3, hz]
        omega
    · exact parseNat_fmtNat _
  have hws : ∀ c ∈ expText k, isWS c = false := by
    intro c hc
    unfold expText at hc
    rcases List.mem_cons.1 hc with rfl | hc
    · split <;> rfl
    · have hdig : ∀ c ∈ fmtNat k.natAbs, isWS c = false := by
        intro c hc
        obtain ⟨d, hd, rfl⟩ := fmtNat_digit _ c hc
        interval_cases d <;> rfl
      split at hc
      · rcases List.mem_cons.1 hc with rfl | hc
        · rfl
        · exact hdig c hc
      · exact hdig c hc
  unfold pyInt
  rw [strip_noWS _ hws]
  unfold expText
  rw [← ht]
  by_cases hk : k < 0
  · rw [if_pos hk]
    simp only [htp, Option.map_some]
    congr 1; omega
  · rw [if_neg hk]
    simp only [htp, Option.map_some]
    congr 1; omega

theorem expText_chars (k : Int) (c : Char) (hc : c ∈ expText k) : c = '-' ∨ c = '+' ∨ ∃ d, d < 10 ∧ c = digitC d := by
  unfold expText at hc
  rcases List.mem_cons.1 hc with rfl | hc
  · split
    · exact Or.inl rfl
    · exact Or.inr (Or.inl rfl)
  · right; right
    split at hc
    · rcases List.mem_cons.1 hc with rfl | hc
      · exact ⟨0, by omega, rfl⟩
      · exact fmtNat_digit _ c hc
    · exact fmtNat_digit _ c hc

/-- Characters of a digit string with a decimal point. -/
theorem pointText_mem (s : Text) (c : Char) (h : c ∈ pointText s) : c ∈ s ∨ c = '.' := by
  cases s with
  | nil => simp [pointText] at h
  | cons a s => simp [pointText] at h ⊢; tauto

/-- Parsing `d.ddd…e±kk` (all digits, `L + 1` of them). -/
theorem parseUDec_point (s : Text) (n : Nat) (k : Int) (hs : ∀ c ∈ s, ∃ d, d < 10 ∧ c = digitC d) (hn : parseNat s = some n) :
    parseUDec (pointText s ++ 'e' :: expText k) = some ((n : ℝ) * (10 : ℝ) ^ (k - ((s.length : Int) - 1))) := by
  cases s with
  | nil => simp [parseNat] at hn
  | cons a s =>
    have hdig : ∀ c ∈ a :: s, c ≠ 'e' ∧ c ≠ '.' := by
      intro c hc
      obtain ⟨d, hd, rfl⟩ := hs c hc
      constructor <;> (interval_cases d <;> decide)
    unfold parseUDec
    rw [splitChar_sep, splitChar_none]
    · simp only [pyInt_exp]
      unfold parseMant pointText
      have e : splitChar '.' (a :: '.' :: s) = [[a], s] := by
        have := splitChar_sep '.' [a] s (by intro c hc; simp at hc; subst hc; exact (hdig _ List.mem_cons_self).2)
        simp only [List.singleton_append] at this
        rw [this, splitChar_none _ _ (fun c hc => (hdig c (List.mem_cons_of_mem _ hc)).2)]
      rw [e]
      simp only [List.singleton_append, hn, Option.map_some, List.length_cons]
      congr 3
      push_cast; ring
    · intro c hc
      rcases expText_chars k c hc with rfl | rfl | ⟨d, hd, rfl⟩
      · decide
      · decide
      · interval_cases d <;> decide
    · intro c hc
      rcases pointText_mem _ c hc with h | rfl
      · exact (hdig c h).1
      · decide

/-- **Every finite double survives** `float("{:.16e}".format(x))`, and its text has no comma and no white space. -/
theorem floatText_roundTrips {x : ℝ} (hx : IsDouble x) : floatText.RoundTrips x := by
  have hchars : ∀ c ∈ fmtFloat x, c ≠ ',' ∧ isWS c = false := by
    have ok : ∀ c : Char, (c = '-' ∨ c = '+' ∨ c = '.' ∨ c = 'e' ∨ ∃ d, d < 10 ∧ c = digitC d) → c ≠ ',' ∧ isWS c = false := by
      rintro c (rfl | rfl | rfl | rfl | ⟨d, hd, rfl⟩)
      · decide
      · decide
      · decide
      · decide
      · interval_cases d <;> decide
    intro c hc
    apply ok
    unfold fmtFloat at hc
    split at hc
    · rcases List.mem_append.1 hc with h | h
      · rcases pointText_mem _ c h with h | rfl
        · have := List.eq_of_mem_replicate h
          subst this
          exact Or.inr (Or.inr (Or.inr (Or.inr ⟨0, by omega, rfl⟩)))
        · simp
      · rcases List.mem_cons.1 h with rfl | h
        · simp
        · rcases expText_chars _ c h with h | h | h
          · exact Or.inl h
          · exact Or.inr (Or.inl h)
          · exact Or.inr (Or.inr (Or.inr (Or.inr h)))
    · rcases List.mem_append.1 hc with h | h
      · rcases List.mem_append.1 h with h | h
        · split at h
          · simp at h; exact Or.inl h
          · simp at h
        · rcases pointText_mem _ c h with h | rfl
          · exact Or.inr (Or.inr (Or.inr (Or.inr (fmtNat_digit _ c h))))
          · simp
      · rcases List.mem_cons.1 h with rfl | h
        · simp
        · rcases expText_chars _ c h with h | h | h
          · exact Or.inl h
          · exact Or.inr (Or.inl h)
          · exact Or.inr (Or.inr (Or.inr (Or.inr h)))
  refine ⟨?_, hchars⟩
  show (parseDec (fmtFloat x)).bind toDouble = some x
  by_cases h0 : x = 0
  · subst h0
    have e : parseDec (fmtFloat 0) = some 0 := by
      unfold fmtFloat
      rw [if_pos rfl]
      have hp := parseUDec_point (List.replicate 17 '0') 0 0 (fun c hc => ⟨0, by omega, List.eq_of_mem_replicate hc⟩) (by decide)
      have hd : parseDec (pointText (List.replicate 17 '0') ++ 'e' :: expText 0) = parseUDec (pointText (List.replicate 17 '0') ++ 'e' :: expText 0) := rfl
      rw [hd, hp]; simp
    rw [e]
    refine toDouble_of_near hx fun d hd hne => ?_
    simpa using hne
  · obtain ⟨s1, s2, s3⟩ := sci17_spec h0
    set D := (sci17 x).1 with hD
    set k := (sci17 x).2 with hk
    have hlen : (fmtNat D).length = 17 := by
      unfold fmtNat
      rw [if_neg (by omega)]
      simp only [List.length_map, List.length_reverse]
      rw [Nat.length_digits 10 D (by norm_num) (by omega)]
      have : Nat.log 10 D = 16 := (Nat.log_eq_iff (by left; omega)).2 ⟨s1, s2⟩
      omega
    have hp := parseUDec_point (fmtNat D) D k (fun c hc => fmtNat_digit D c hc) (parseNat_fmtNat D)
    rw [hlen] at hp
    norm_num at hp
    set v := (D : ℝ) * (10 : ℝ) ^ (k - 16) with hv
    have hdec : parseDec (fmtFloat x) = some (if x < 0 then -v else v) := by
      unfold fmtFloat
      rw [if_neg h0]
      by_cases hneg : x < 0
      · rw [if_pos hneg, if_pos hneg]
        show (parseUDec (pointText (fmtNat D) ++ 'e' :: expText k)).map (fun (v : ℝ) => -v) = some (-v)
        rw [hp]; rfl
      · rw [if_neg hneg, if_neg hneg]
        simp only [List.nil_append]
        rw [← hp]
        cases e : fmtNat D with
        | nil => exact absurd e (fmtNat_ne_nil D)
        | cons a s =>
          obtain ⟨d, hd, rfl⟩ := fmtNat_digit D a (by rw [e]; exact List.mem_cons_self)
          unfold parseDec pointText
          have h1 : digitC d ≠ '-' := by interval_cases d <;> decide
          have h2 : digitC d ≠ '+' := by interval_cases d <;> decide
          split
          · next t he => simp at he; exact absurd he.1 h1
          · next t he => simp at he; exact absurd he.1 h2
          · rfl
    rw [hdec]
    show toDouble _ = some x
    have herr : |(if x < 0 then -v else v) - x| ≤ 1 / 2 * (10 : ℝ) ^ (-16 : ℤ) * |x| := by
      refine le_trans (le_of_eq ?_) s3
      by_cases hneg : x < 0
      · rw [if_pos hneg, abs_of_neg hneg, ← abs_neg]; congr 1; ring
      · rw [if_neg hneg, abs_of_nonneg (not_lt.1 hneg)]
    refine toDouble_of_near hx fun d hd hne => ?_
    set u := (if x < 0 then -v else v)
    have hg := double_gap hx hd hne
    have h4 : 1 / 2 * (10 : ℝ) ^ (-16 : ℤ) * |x| < 1 / 2 * |x - d| := by
      have : (10 : ℝ) ^ (-16 : ℤ) * |x| < |x - d| := by
        have := mul_lt_mul_of_pos_left hg (show (0 : ℝ) < (10 : ℝ) ^ (-16 : ℤ) by positivity)
        rw [← mul_assoc] at this
        norm_num at this ⊢
        linarith
      linarith
    have h5 : |x - d| ≤ |u - x| + |u - d| := by
      have := abs_sub_le x u d
      rw [abs_sub_comm x u] at this
      exact this
    linarith

end Verif
