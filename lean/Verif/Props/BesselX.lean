import Verif.BesselX
import Verif.Props.FloatBes13
import Verif.Props.FilesX
import Verif.Props.FloatBesY1
/-!
# Property C120: `sbessely` beyond the double range
-/
namespace Verif.Props
open Verif
variable {rnd : ℝ → ℝ}

/-- IEEE round-to-nearest with unbounded exponent: in addition to `IsRounding`, doubles are kept, a result below `2^1024` is a double and the
relative error of large values is at most `2^-53` (values of `2^1024` or more become infinities in `IE.ofReal`). -/
structure IEEERound (rnd : ℝ → ℝ) : Prop extends IsRounding rnd where
  keeps : KeepsDoubles rnd
  range : ∀ x, |rnd x| < 2 ^ 1024 → IsDouble (rnd x)
  large : ∀ x, (2 : ℝ) ^ (1022 : ℤ) ≤ |x| → |rnd x - x| ≤ uu * |x|

namespace FX

/-- Finite: not an infinity, not a NaN. -/
theorem finite_cases {y : IE} (h : ¬ NotFinite y) : (∃ s, y = .zero s) ∨ ∃ v, y = .fin v := by
  cases y with
  | nan => exact (h trivial).elim
  | inf s => exact (h trivial).elim
  | zero s => exact Or.inl ⟨s, rfl⟩
  | fin v => exact Or.inr ⟨v, rfl⟩

theorem ofReal_cases (s : Bool) (r : ℝ) : (∃ t, IE.ofReal s r = .zero t) ∨ (∃ t, IE.ofReal s r = .inf t) ∨ ∃ v, IE.ofReal s r = .fin v := by
  unfold IE.ofReal
  by_cases h : r = 0
  · rw [if_pos h]; exact Or.inl ⟨_, rfl⟩
  · rw [if_neg h]
    by_cases h2 : 2 ^ 1024 ≤ |r|
    · rw [if_pos h2]; exact Or.inr (Or.inl ⟨_, rfl⟩)
    · rw [if_neg h2]; exact Or.inr (Or.inr ⟨_, rfl⟩)

/-- A product of finite values is not NaN. -/
theorem mul_finite {a b : IE} (ha : ¬ NotFinite a) (hb : ¬ NotFinite b) : IE.mul rnd a b ≠ .nan := by
  rcases finite_cases ha with ⟨s, rfl⟩ | ⟨v, rfl⟩ <;> rcases finite_cases hb with ⟨t, rfl⟩ | ⟨w, rfl⟩
  · simp [IE.mul]
  · simp [IE.mul]
  · simp [IE.mul]
  · simp only [IE.mul]
    rcases ofReal_cases (xor (IE.fin v).sign (IE.fin w).sign) (rnd (v * w)) with ⟨t, e⟩ | ⟨t, e⟩ | ⟨t, e⟩ <;> rw [e] <;> simp

theorem sub_finite {a b : IE} (ha : a ≠ .nan) (hb : ¬ NotFinite b) : IE.sub rnd a b ≠ .nan := by
  unfold IE.sub
  rcases finite_cases hb with ⟨t, rfl⟩ | ⟨w, rfl⟩
  · cases a with
    | nan => exact (ha rfl).elim
    | inf s => simp [IE.add, IE.neg]
    | zero s => simp [IE.add, IE.neg]
    | fin v => simp [IE.add, IE.neg]
  · cases a with
    | nan => exact (ha rfl).elim
    | inf s => simp [IE.add, IE.neg]
    | zero s => simp [IE.add, IE.neg]
    | fin v =>
      simp only [IE.add, IE.neg]
      rcases ofReal_cases false (rnd (v + -w)) with ⟨t, e⟩ | ⟨t, e⟩ | ⟨t, e⟩ <;> rw [e] <;> simp

/-- A three-term recurrence with non-zero factors of one sign: after the first value that is not finite come one more infinity and then only NaN. -/
theorem recurrence {c : ℕ → ℝ} {Y : ℕ → IE} {M : ℕ} (h0 : ∀ n, n < M → c n ≠ 0) (hs : ∀ n m, n < M → m < M → (c n < 0 ↔ c m < 0))
    (hY : ∀ n, n < M → Y (n + 2) = IE.sub rnd (IE.mul rnd (.fin (c n)) (Y (n + 1))) (Y n)) {k : ℕ} (hk : k < M)
    (hf : ∀ j, j < k + 2 → ¬ NotFinite (Y j)) (hn : NotFinite (Y (k + 2))) :
    (∃ s, Y (k + 2) = .inf s) ∧ (k + 1 < M → ∃ s, Y (k + 3) = .inf s) ∧ ∀ j, k + 4 ≤ j → j < M + 2 → Y j = .nan := by
  have e1 := hY k hk
  have ha : Y (k + 2) ≠ .nan := by
    rw [e1]
    exact sub_finite (mul_finite (fun h => h) (hf (k + 1) (by omega))) (hf k (by omega))
  obtain ⟨s, es⟩ : ∃ s, Y (k + 2) = .inf s := by
    cases h : Y (k + 2) with
    | nan => exact (ha h).elim
    | inf s => exact ⟨s, rfl⟩
    | zero s => rw [h] at hn; exact hn.elim
    | fin v => rw [h] at hn; exact hn.elim
  have step1 : k + 1 < M → Y (k + 3) = .inf (xor (decide (c (k + 1) < 0)) s) := by
    intro hM
    rw [hY (k + 1) hM, show k + 1 + 1 = k + 2 by ring, es]
    rcases finite_cases (hf (k + 1) (by omega)) with ⟨t, e⟩ | ⟨w, e⟩ <;> rw [e] <;> simp [IE.mul, IE.sub, IE.add, IE.neg, IE.sign]
  refine ⟨⟨s, es⟩, fun h => ⟨_, step1 h⟩, ?_⟩
  intro j hj hjM
  induction j, hj using Nat.le_induction with
  | base =>
    have hM : k + 1 < M := by omega
    rw [show k + 4 = (k + 2) + 2 by ring, hY (k + 2) (by omega), show k + 2 + 1 = k + 3 by ring, step1 hM, es]
    have := hs (k + 1) (k + 2) (by omega) (by omega)
    by_cases hc : c (k + 2) < 0
    · have hc' := this.2 hc
      cases s <;> simp [IE.mul, IE.sub, IE.add, IE.neg, IE.sign, hc, hc']
    · have hc' : ¬ c (k + 1) < 0 := fun h => hc (this.1 h)
      cases s <;> simp [IE.mul, IE.sub, IE.add, IE.neg, IE.sign, hc, hc']
  | succ j hj ih =>
    have e := ih (by omega)
    obtain ⟨i, rfl⟩ : ∃ i, j = i + 1 := ⟨j - 1, by omega⟩
    rw [show i + 1 + 1 = i + 2 by ring, hY i (by omega), e]
    simp [IE.mul, IE.sub, IE.add]

/-- The values of `sbessely`. -/
noncomputable def Y (rnd : ℝ → ℝ) (lib : Fl.BesLib) (x : ℝ) : ℕ → IE
  | 0 => IE.div rnd (IE.neg (IE.lit (lib.cos x))) (IE.lit x)
  | 1 => IE.sub rnd (IE.div rnd (IE.neg (IE.lit (lib.cos x))) (IE.lit (lib.sq x))) (IE.div rnd (IE.lit (lib.sin x)) (IE.lit x))
  | n + 2 => IE.sub rnd (IE.mul rnd (.fin (rnd ((2 * ((n + 1 : ℕ) : ℝ) + 1) / x))) (Y rnd lib x (n + 1))) (Y rnd lib x n)

theorem lit_fin {x : ℝ} (h0 : x ≠ 0) (h : |x| < 2 ^ 1024) : IE.lit x = .fin x := by
  unfold IE.lit IE.ofReal
  rw [if_neg h0, if_neg (not_le.2 h)]

theorem ofReal_fin {s : Bool} {x : ℝ} (h0 : x ≠ 0) (h : |x| < 2 ^ 1024) : IE.ofReal s x = .fin x := by
  unfold IE.ofReal
  rw [if_neg h0, if_neg (not_le.2 h)]

theorem p1024 : (2 : ℝ) ^ (1022 : ℤ) * 4 = 2 ^ 1024 := by
  rw [← zpow_natCast (2 : ℝ) 1024, show ((1024 : ℕ) : ℤ) = 1022 + 2 by norm_num, zpow_add₀ (by norm_num)]; norm_num

theorem p60 : (2 : ℝ) ^ 60 ≤ 2 ^ (1022 : ℤ) := by
  rw [← zpow_natCast]; exact zpow_le_zpow_right₀ (by norm_num) (by norm_num)

/-- The rounded factor `(2n - 1)/x`. -/
theorem factor (hr : IsRounding rnd) {x : ℝ} (x1 : (2 : ℝ) ^ (-500 : ℤ) ≤ |x|) (x2 : |x| ≤ 2 ^ (500 : ℤ)) {n : ℕ} (hn : n ≤ 2 ^ 20) :
    rnd ((2 * ((n + 1 : ℕ) : ℝ) + 1) / x) ≠ 0 ∧ |rnd ((2 * ((n + 1 : ℕ) : ℝ) + 1) / x)| < 2 ^ 1024 ∧
      (rnd ((2 * ((n + 1 : ℕ) : ℝ) + 1) / x) < 0 ↔ x < 0) ∧
      14 / 5 ≤ |rnd ((2 * ((n + 1 : ℕ) : ℝ) + 1) / x)| * |x| := by
  have hx : x ≠ 0 := by rintro rfl; rw [abs_zero] at x1; exact absurd x1 (not_le.2 (by positivity))
  have hxp : 0 < |x| := abs_pos.2 hx
  have n2 : (2 * ((n + 1 : ℕ) : ℝ) + 1) ≤ 2 ^ (22 : ℤ) := by
    have : (n : ℝ) ≤ 1048576 := by exact_mod_cast hn
    rw [show (2 : ℝ) ^ (22 : ℤ) = 4194304 by norm_num]
    push_cast; linarith
  have key : ∀ z : ℝ, (2 : ℝ) ^ (-500 : ℤ) ≤ z → z ≤ 2 ^ (500 : ℤ) → (2 * ((n + 1 : ℕ) : ℝ) + 1) / z * (1 - uu) ≤ rnd ((2 * ((n + 1 : ℕ) : ℝ) + 1) / z) ∧
      rnd ((2 * ((n + 1 : ℕ) : ℝ) + 1) / z) ≤ 2 * 2 ^ (1022 : ℤ) ∧ 3 ≤ (2 * ((n + 1 : ℕ) : ℝ) + 1) / z * z := by
    intro z z1 z2
    have zp : 0 < z := lt_of_lt_of_le (by positivity) z1
    have n1 : (3 : ℝ) ≤ 2 * ((n + 1 : ℕ) : ℝ) + 1 := by push_cast; have : (0 : ℝ) ≤ n := Nat.cast_nonneg n; linarith
    have b1 : (2 : ℝ) ^ (-1022 : ℤ) ≤ (2 * ((n + 1 : ℕ) : ℝ) + 1) / z := by
      rw [le_div_iff₀ zp]
      calc (2 : ℝ) ^ (-1022 : ℤ) * z ≤ 2 ^ (-1022 : ℤ) * 2 ^ (500 : ℤ) := mul_le_mul_of_nonneg_left z2 (by positivity)
        _ = 2 ^ (-522 : ℤ) := by rw [← zpow_add₀ (by norm_num)]; norm_num
        _ ≤ 2 ^ (0 : ℤ) := zpow_le_zpow_right₀ (by norm_num) (by norm_num)
        _ ≤ _ := by rw [zpow_zero]; linarith
    have b2 : (2 * ((n + 1 : ℕ) : ℝ) + 1) / z ≤ 2 ^ (1022 : ℤ) := by
      rw [div_le_iff₀ zp]
      calc _ ≤ (2 : ℝ) ^ (22 : ℤ) := n2
        _ ≤ 2 ^ (522 : ℤ) := zpow_le_zpow_right₀ (by norm_num) (by norm_num)
        _ = 2 ^ (1022 : ℤ) * 2 ^ (-500 : ℤ) := by rw [← zpow_add₀ (by norm_num)]; norm_num
        _ ≤ _ := mul_le_mul_of_nonneg_left z1 (by positivity)
    have h := abs_le.1 (rnd_rel hr b1 b2)
    have hu := Verif.Props.uu_lt
    have h0 : 0 ≤ (2 * ((n + 1 : ℕ) : ℝ) + 1) / z := le_trans (by positivity) b1
    have hz : (2 * ((n + 1 : ℕ) : ℝ) + 1) / z * z = 2 * ((n + 1 : ℕ) : ℝ) + 1 := div_mul_cancel₀ _ zp.ne'
    generalize (2 : ℝ) ^ (1022 : ℤ) = P at *
    generalize (2 * ((n + 1 : ℕ) : ℝ) + 1) / z = q at *
    refine ⟨by linarith [h.1], ?_, by rw [hz]; exact n1⟩
    have : uu * q ≤ 1 * q := mul_le_mul_of_nonneg_right (by linarith) h0
    linarith [h.2]
  have fin : ∀ z : ℝ, (2 : ℝ) ^ (-500 : ℤ) ≤ z → z ≤ 2 ^ (500 : ℤ) → 0 < rnd ((2 * ((n + 1 : ℕ) : ℝ) + 1) / z) ∧
      rnd ((2 * ((n + 1 : ℕ) : ℝ) + 1) / z) < 2 ^ 1024 ∧ 14 / 5 ≤ rnd ((2 * ((n + 1 : ℕ) : ℝ) + 1) / z) * z := by
    intro z z1 z2
    obtain ⟨k1, k2, k3⟩ := key z z1 z2
    have zp : 0 < z := lt_of_lt_of_le (by positivity) z1
    have hu := Verif.Props.uu_lt
    have h0 : 0 < (2 * ((n + 1 : ℕ) : ℝ) + 1) / z := by positivity
    refine ⟨lt_of_lt_of_le (mul_pos h0 (by linarith)) k1, lt_of_le_of_lt k2 ?_, ?_⟩
    · rw [← p1024]
      have : (0 : ℝ) < 2 ^ (1022 : ℤ) := by positivity
      generalize (2 : ℝ) ^ (1022 : ℤ) = P at *
      linarith
    · have := mul_le_mul_of_nonneg_right k1 zp.le
      generalize (2 * ((n + 1 : ℕ) : ℝ) + 1) / z = q at *
      have e : q * (1 - uu) * z = (q * z) * (1 - uu) := by ring
      rw [e] at this
      have hu2 := FB.uu_lt
      have h3 : 3 * (1 - uu) ≤ q * z * (1 - uu) := mul_le_mul_of_nonneg_right k3 (by linarith)
      linarith
  rcases lt_or_gt_of_ne hx with h | h
  · rw [abs_of_neg h] at x1 x2
    obtain ⟨f1, f2, f3⟩ := fin (-x) x1 x2
    have eo : rnd ((2 * ((n + 1 : ℕ) : ℝ) + 1) / -x) = -rnd ((2 * ((n + 1 : ℕ) : ℝ) + 1) / x) := by
      rw [div_neg]
      refine hr.odd _ ?_
      have : |(2 * ((n + 1 : ℕ) : ℝ) + 1) / x| ≤ 2 ^ 1023 := by
        rw [abs_div, abs_of_pos (by positivity : (0 : ℝ) < 2 * ((n + 1 : ℕ) : ℝ) + 1), abs_of_neg h, div_le_iff₀ (by linarith)]
        calc _ ≤ (2 : ℝ) ^ (22 : ℤ) := n2
          _ ≤ 2 ^ (523 : ℤ) := zpow_le_zpow_right₀ (by norm_num) (by norm_num)
          _ = 2 ^ (1023 : ℤ) * 2 ^ (-500 : ℤ) := by rw [← zpow_add₀ (by norm_num)]; norm_num
          _ = 2 ^ 1023 * 2 ^ (-500 : ℤ) := by rw [← zpow_natCast (2 : ℝ) 1023]; norm_num
          _ ≤ _ := mul_le_mul_of_nonneg_left x1 (by positivity)
      exact this
    rw [eo] at f1 f2 f3
    refine ⟨by intro e; rw [e] at f1; simp at f1, ?_, ⟨fun _ => h, fun _ => by linarith⟩, ?_⟩
    · rw [abs_of_neg (by linarith)]; exact f2
    · rw [abs_of_neg (by linarith), abs_of_neg h]; exact f3
  · rw [abs_of_pos h] at x1 x2
    obtain ⟨f1, f2, f3⟩ := fin x x1 x2
    refine ⟨f1.ne', by rw [abs_of_pos f1]; exact f2, ⟨fun h' => absurd h' (not_lt.2 f1.le), fun h' => absurd h' (not_lt.2 h.le)⟩, ?_⟩
    rw [abs_of_pos f1, abs_of_pos h]; exact f3

theorem sby_struct (hr : IsRounding rnd) (lib : Fl.BesLib) {x : ℝ} {N : ℕ} (h2 : 2 ≤ N) (hN : N ≤ 2 ^ 20) (x1 : (2 : ℝ) ^ (-500 : ℤ) ≤ |x|)
    (x2 : |x| ≤ 2 ^ (500 : ℤ)) :
    ∃ out, FlX.sbessely rnd lib x N = .ok out ∧ out.length = N ∧ ∀ n, n < N → rd out n = Y rnd lib x n := by
  have hx : x ≠ 0 := by rintro rfl; rw [abs_zero] at x1; exact absurd x1 (not_le.2 (by positivity))
  have xb : |x| < 2 ^ 1024 := by
    refine lt_of_le_of_lt x2 ?_
    rw [← zpow_natCast]; exact zpow_lt_zpow_right₀ (by norm_num) (by norm_num)
  have gI : ∀ (l : List IE) (i : ℕ), i < l.length → getIdx l (i : Int) = .ok (rd l i) := fun l i h1 => by
    rw [getIdx_of_lt (by omega) (by omega)]
    simp [rd, h1]
  have sI : ∀ (l : List IE) (i : ℕ) (v : IE), i < l.length → setIdx l (i : Int) v = .ok (l.set i v) := fun l i v h1 => by
    rw [setIdx_of_lt (by omega) (by omega)]; rfl
  have fac : ∀ n : ℕ, n ≤ 2 ^ 20 → IE.div rnd (IE.sub rnd (IE.mul rnd (IE.lit 2) (IE.lit (Fl.ofInt rnd ((n + 2 : ℕ) : ℤ)))) (IE.lit 1)) (IE.lit x) =
      .fin (rnd ((2 * ((n + 1 : ℕ) : ℝ) + 1) / x)) := by
    intro n hn
    have hn2 : (n : ℤ) ≤ 2 ^ 20 := by exact_mod_cast hn
    have hn3 : (n : ℝ) ≤ 1048576 := by exact_mod_cast hn
    have n0 : (0 : ℝ) ≤ n := Nat.cast_nonneg n
    have big : (2 : ℝ) ^ 60 < 2 ^ 1024 := pow_lt_pow_right₀ (by norm_num) (by norm_num)
    have sm : ∀ y : ℝ, 1 ≤ y → y ≤ 4194304 → y ≠ 0 ∧ |y| < 2 ^ 1024 := fun y y1 y2 =>
      ⟨by linarith, by rw [abs_of_nonneg (by linarith)]; refine lt_of_le_of_lt y2 (lt_trans ?_ big); norm_num⟩
    have e0 : Fl.ofInt rnd ((n + 2 : ℕ) : ℤ) = (n : ℝ) + 2 := by
      rw [ofInt_eq hr (by rw [abs_lt]; push_cast; omega)]; push_cast; ring
    have e1 : rnd (2 * ((n : ℝ) + 2)) = 2 * n + 4 := by
      rw [rnd_int hr (2 * (n + 2)) (by push_cast; ring) (by rw [abs_lt]; omega)]; push_cast; ring
    have e2 : rnd (2 * (n : ℝ) + 4 + -1) = 2 * ((n + 1 : ℕ) : ℝ) + 1 := by
      rw [rnd_int hr (2 * n + 3) (by push_cast; ring) (by rw [abs_lt]; omega)]; push_cast; ring
    have f := factor hr x1 x2 hn
    rw [e0, lit_fin (sm 2 (by norm_num) (by norm_num)).1 (sm 2 (by norm_num) (by norm_num)).2,
      lit_fin (sm _ (by linarith) (by linarith)).1 (sm ((n : ℝ) + 2) (by linarith) (by linarith)).2,
      lit_fin (sm 1 (by norm_num) (by norm_num)).1 (sm 1 (by norm_num) (by norm_num)).2, lit_fin hx xb]
    simp only [IE.mul]
    rw [e1, ofReal_fin (sm _ (by linarith) (by linarith)).1 (sm (2 * (n : ℝ) + 4) (by linarith) (by linarith)).2]
    simp only [IE.sub, IE.neg, IE.add]
    have m1 := sm (2 * ((n + 1 : ℕ) : ℝ) + 1) (by push_cast; linarith) (by push_cast; linarith)
    rw [e2, ofReal_fin m1.1 m1.2]
    simp only [IE.div]
    rw [ofReal_fin f.1 f.2.1]
  unfold FlX.sbessely
  rw [ScalarCoefs.npFull_of_nonneg (by omega)]
  simp only [Except.bind_ok, Int.toNat_natCast, if_neg hx]
  have s0 := sI (List.replicate N (IE.zero false)) 0 (Y rnd lib x 0) (by simp; omega)
  simp only [Nat.cast_zero, Y] at s0
  rw [s0]
  simp only [Except.bind_ok]
  have s1 := sI ((List.replicate N (IE.zero false)).set 0 (Y rnd lib x 0)) 1 (Y rnd lib x 1) (by simp; omega)
  simp only [Nat.cast_one, Y] at s1
  rw [s1]
  simp only [Except.bind_ok]
  obtain ⟨out, e, h1, h2⟩ := forM'_range_inv (a := 2) (b := (N : Int)) (by omega)
    (((List.replicate N (IE.zero false)).set 0 (Y rnd lib x 0)).set 1 (Y rnd lib x 1))
    (fun out n => (getIdx out (n - 1)).bind fun a => (getIdx out (n - 2)).bind fun b =>
      setIdx out n (IE.sub rnd (IE.mul rnd (IE.div rnd (IE.sub rnd (IE.mul rnd (IE.lit 2) (IE.lit (Fl.ofInt rnd n))) (IE.lit 1)) (IE.lit x)) a) b))
    (fun k out => out.length = N ∧ ∀ n : ℕ, (n : Int) < k → rd out n = Y rnd lib x n)
    ⟨by simp, fun n hn => by
      rw [rd_set _ _ _ _ (by simp; omega), rd_set _ _ _ _ (by simp; omega)]
      have : n = 0 ∨ n = 1 := by omega
      rcases this with rfl | rfl <;> simp⟩
    (by
      rintro i out h1 h2 ⟨hl, hv⟩
      obtain ⟨n, rfl⟩ : ∃ n : ℕ, i = ((n + 2 : ℕ) : Int) := ⟨(i - 2).toNat, by omega⟩
      beta_reduce
      rw [fac n (by omega), show ((n + 2 : ℕ) : Int) - 1 = ((n + 1 : ℕ) : Int) by push_cast; ring, show ((n + 2 : ℕ) : Int) - 2 = (n : Int) by push_cast; ring,
        gI _ _ (by omega), gI _ _ (by omega)]
      simp only [Except.bind_ok]
      rw [sI _ _ _ (by omega)]
      refine ⟨_, rfl, by simp [hl], fun j hj => ?_⟩
      rw [rd_set _ _ _ _ (by omega)]
      split
      · next h =>
        subst h
        rw [hv _ (by push_cast; omega), hv _ (by push_cast; omega), Y]
      · next h => exact hv j (by push_cast at hj ⊢; omega))
  simp only [Y] at e
  exact ⟨out, e, h1, fun n hn => h2 n (by omega)⟩

/-! ### Finite values -/

/-- `a` is a finite value equal to `r`. -/
def Is (a : IE) (r : ℝ) : Prop := (r = 0 ∧ ∃ s, a = .zero s) ∨ (r ≠ 0 ∧ a = .fin r)

theorem Is.finite {a : IE} {r : ℝ} (h : Is a r) : ¬ NotFinite a := by
  rcases h with ⟨-, s, rfl⟩ | ⟨-, rfl⟩ <;> exact fun h => h

theorem is_ofReal {s : Bool} {r : ℝ} (h : ¬ NotFinite (IE.ofReal s r)) : Is (IE.ofReal s r) r ∧ |r| < 2 ^ 1024 := by
  unfold IE.ofReal at h ⊢
  by_cases h0 : r = 0
  · rw [if_pos h0]; exact ⟨Or.inl ⟨h0, s, rfl⟩, by rw [h0, abs_zero]; positivity⟩
  · rw [if_neg h0] at h ⊢
    by_cases h2 : 2 ^ 1024 ≤ |r|
    · rw [if_pos h2] at h; exact (h trivial).elim
    · rw [if_neg h2]; exact ⟨Or.inr ⟨h0, rfl⟩, not_le.1 h2⟩

theorem finite_ofReal {s : Bool} {r : ℝ} (h : |r| < 2 ^ 1024) : ¬ NotFinite (IE.ofReal s r) := by
  unfold IE.ofReal
  by_cases h0 : r = 0
  · rw [if_pos h0]; exact fun h => h
  · rw [if_neg h0, if_neg (not_le.2 h)]; exact fun h => h

theorem is_neg {a : IE} {r : ℝ} (h : Is a r) : Is (IE.neg a) (-r) := by
  rcases h with ⟨h, s, rfl⟩ | ⟨h, rfl⟩
  · exact Or.inl ⟨by simp [h], _, rfl⟩
  · exact Or.inr ⟨by simpa using h, rfl⟩

theorem is_mul (hz : rnd 0 = 0) {a b : IE} {r t : ℝ} (ha : Is a r) (hb : Is b t) (h : ¬ NotFinite (IE.mul rnd a b)) :
    Is (IE.mul rnd a b) (rnd (r * t)) ∧ |rnd (r * t)| < 2 ^ 1024 := by
  rcases ha with ⟨h1, s, rfl⟩ | ⟨h1, rfl⟩ <;> rcases hb with ⟨h2, s', rfl⟩ | ⟨h2, rfl⟩
  · simp only [IE.mul, h1, zero_mul, hz, abs_zero]; exact ⟨Or.inl ⟨rfl, _, rfl⟩, by positivity⟩
  · simp only [IE.mul, h1, zero_mul, hz, abs_zero]; exact ⟨Or.inl ⟨rfl, _, rfl⟩, by positivity⟩
  · simp only [IE.mul, h2, mul_zero, hz, abs_zero]; exact ⟨Or.inl ⟨rfl, _, rfl⟩, by positivity⟩
  · simp only [IE.mul] at h ⊢; exact is_ofReal h

theorem is_div (hz : rnd 0 = 0) {a : IE} {r t : ℝ} (ha : Is a r) (h : ¬ NotFinite (IE.div rnd a (.fin t))) :
    Is (IE.div rnd a (.fin t)) (rnd (r / t)) ∧ |rnd (r / t)| < 2 ^ 1024 := by
  rcases ha with ⟨h1, s, rfl⟩ | ⟨h1, rfl⟩
  · simp only [IE.div, h1, zero_div, hz, abs_zero]; exact ⟨Or.inl ⟨rfl, _, rfl⟩, by positivity⟩
  · simp only [IE.div] at h ⊢; exact is_ofReal h

theorem finite_div {a : IE} {r t : ℝ} (ha : Is a r) (h : |rnd (r / t)| < 2 ^ 1024) : ¬ NotFinite (IE.div rnd a (.fin t)) := by
  rcases ha with ⟨h1, s, rfl⟩ | ⟨h1, rfl⟩
  · simp only [IE.div]; exact fun h => h
  · simp only [IE.div]; exact finite_ofReal h

theorem finite_sub {a b : IE} {r t : ℝ} (ha : Is a r) (hb : Is b t) (h : |rnd (r - t)| < 2 ^ 1024) : ¬ NotFinite (IE.sub rnd a b) := by
  rcases ha with ⟨h1, s, rfl⟩ | ⟨h1, rfl⟩ <;> rcases hb with ⟨h2, s', rfl⟩ | ⟨h2, rfl⟩
  · simp only [IE.sub, IE.neg, IE.add]; exact fun h => h
  · simp only [IE.sub, IE.neg, IE.add]; exact fun h => h
  · simp only [IE.sub, IE.neg, IE.add]; exact fun h => h
  · simp only [IE.sub, IE.neg, IE.add, ← sub_eq_add_neg]; exact finite_ofReal h

theorem is_sub (hk : KeepsDoubles rnd) {a b : IE} {r t : ℝ} (ha : Is a r) (hb : Is b t) (hr : IsDouble r) (ht : IsDouble t)
    (h : ¬ NotFinite (IE.sub rnd a b)) : Is (IE.sub rnd a b) (rnd (r - t)) ∧ |rnd (r - t)| < 2 ^ 1024 := by
  have z : IsDouble 0 := ⟨0, 0, by norm_num, by norm_num, by norm_num, by simp⟩
  have bd : ∀ y, IsDouble y → |y| < 2 ^ 1024 := fun y hy => lt_of_le_of_lt (isDouble_abs_le hy) (sub_lt_self _ (by positivity))
  rcases ha with ⟨h1, s, rfl⟩ | ⟨h1, rfl⟩ <;> rcases hb with ⟨h2, s', rfl⟩ | ⟨h2, rfl⟩
  · simp only [IE.sub, IE.neg, IE.add, h1, h2, sub_zero, hk 0 z, abs_zero]
    exact ⟨Or.inl ⟨rfl, _, rfl⟩, by positivity⟩
  · simp only [IE.sub, IE.neg, IE.add, h1, zero_sub]
    rw [hk _ (isDouble_neg ht)]
    exact ⟨Or.inr ⟨by simpa using h2, rfl⟩, bd _ (isDouble_neg ht)⟩
  · simp only [IE.sub, IE.neg, IE.add, h2, sub_zero]
    rw [hk _ hr]
    exact ⟨Or.inr ⟨h1, rfl⟩, bd _ hr⟩
  · simp only [IE.sub, IE.neg, IE.add, ← sub_eq_add_neg] at h ⊢; exact is_ofReal h

theorem sub_notFinite {a b : IE} (ha : NotFinite a) (hb : ¬ NotFinite b) : NotFinite (IE.sub rnd a b) := by
  unfold IE.sub
  rcases finite_cases hb with ⟨t, rfl⟩ | ⟨w, rfl⟩ <;> cases a <;> simp_all [IE.add, IE.neg, NotFinite]

/-- As long as the values are finite they are those of the model without infinities. -/
theorem agree (hr : IEEERound rnd) (lib : Fl.BesLib) {x : ℝ} (x1 : (2 : ℝ) ^ (-500 : ℤ) ≤ |x|) (x2 : |x| ≤ 2 ^ (500 : ℤ))
    (s0 : Is (Y rnd lib x 0) (FB.fY rnd lib x 0)) (s1 : Is (Y rnd lib x 1) (FB.fY rnd lib x 1)) (d0 : IsDouble (FB.fY rnd lib x 0))
    (d1 : IsDouble (FB.fY rnd lib x 1)) (n : ℕ) (hn : n ≤ 2 ^ 20) (hf : ∀ j, j ≤ n → ¬ NotFinite (Y rnd lib x j)) :
    Is (Y rnd lib x n) (FB.fY rnd lib x n) ∧ IsDouble (FB.fY rnd lib x n) := by
  induction n using Nat.strong_induction_on with
  | _ n ih =>
    match n, ih, hf, hn with
    | 0, _, _, _ => exact ⟨s0, d0⟩
    | 1, _, _, _ => exact ⟨s1, d1⟩
    | n + 2, ih, hf, hn =>
      obtain ⟨a1, a2⟩ := ih (n + 1) (by omega) (by omega) (fun j hj => hf j (by omega))
      obtain ⟨b1, b2⟩ := ih n (by omega) (by omega) (fun j hj => hf j (by omega))
      have hfn := hf (n + 2) le_rfl
      rw [Y] at hfn ⊢
      rw [FB.fY]
      have f := factor hr.toIsRounding x1 x2 (show n ≤ 2 ^ 20 by omega)
      have hm : ¬ NotFinite (IE.mul rnd (.fin (rnd ((2 * ((n + 1 : ℕ) : ℝ) + 1) / x))) (Y rnd lib x (n + 1))) := fun h =>
        hfn (sub_notFinite h b1.finite)
      obtain ⟨m1, m2⟩ := is_mul (rnd_zero hr.toIsRounding) (Or.inr ⟨f.1, rfl⟩) a1 hm
      obtain ⟨q1, q2⟩ := is_sub hr.keeps m1 b1 (hr.range _ m2) b2 hfn
      exact ⟨q1, hr.range _ q2⟩

/-! ### The first two values -/

theorem modest (hr : IEEERound rnd) {y : ℝ} (h : |y| ≤ 2 ^ (1010 : ℤ)) : |rnd y| ≤ 2 * |y| ∧ |rnd y| < 2 ^ 1024 ∧ IsDouble (rnd y) := by
  have b1 : (2 : ℝ) ^ (1010 : ℤ) ≤ 2 ^ 1023 := by
    rw [← zpow_natCast (2 : ℝ) 1023]; exact zpow_le_zpow_right₀ (by norm_num) (by norm_num)
  have h1 := rnd_le hr.toIsRounding (h.trans b1)
  have h2 : |rnd y| < 2 ^ 1024 := by
    refine lt_of_le_of_lt (h1.trans (mul_le_mul_of_nonneg_left h (by norm_num))) ?_
    rw [← zpow_natCast (2 : ℝ) 1024, show (2 : ℝ) * 2 ^ (1010 : ℤ) = 2 ^ (1011 : ℤ) by rw [show (1011 : ℤ) = 1 + 1010 by norm_num, zpow_add₀ (by norm_num)]; norm_num]
    exact zpow_lt_zpow_right₀ (by norm_num) (by norm_num)
  exact ⟨h1, h2, hr.range _ h2⟩

theorem lib_bounds {lib : Fl.BesLib} {x : ℝ} (hl : BesLibOk lib x) :
    |lib.cos x| ≤ 2 ∧ |lib.sin x| ≤ 2 ∧ x ^ 2 / 2 ≤ lib.sq x ∧ lib.sq x ≤ 2 * x ^ 2 := by
  have u : (2 : ℝ) ^ (-53 : ℤ) ≤ 1 / 1000 := by rw [zpow_neg]; norm_num
  have u0 : (0 : ℝ) < 2 ^ (-53 : ℤ) := by positivity
  have h1 := hl.cos
  have h2 := hl.sin
  have h3 := abs_le.1 hl.sq
  have c1 := Real.abs_cos_le_one x
  have c2 := Real.abs_sin_le_one x
  generalize (2 : ℝ) ^ (-53 : ℤ) = e at *
  have k : ∀ a b : ℝ, |b| ≤ 1 → |a - b| ≤ 8 * e * |b| → |a| ≤ 2 := by
    intro a b hb h
    have t := abs_sub_abs_le_abs_sub a b
    have : 8 * e * |b| ≤ 8 * e * 1 := mul_le_mul_of_nonneg_left hb (by linarith)
    linarith
  have x0 : 0 ≤ x ^ 2 := sq_nonneg x
  have : 2 * e * x ^ 2 ≤ 1 / 2 * x ^ 2 := mul_le_mul_of_nonneg_right (by linarith) x0
  exact ⟨k _ _ c1 h1, k _ _ c2 h2, by linarith [h3.1], by linarith [h3.2]⟩

theorem aux32 {P : ℝ} (h : 0 < P) : 4 * P ≤ P * 32 := by linarith
theorem aux4 {P : ℝ} (h : 0 < P) : P ≤ 4 * P := by linarith
theorem aux22 {P a b A B c : ℝ} (h1 : a ≤ 2 * A) (h2 : b ≤ 2 * B) (h3 : A ≤ P) (h4 : B ≤ P) (h5 : c ≤ a + b) : c ≤ 4 * P := by linarith

theorem start (hr : IEEERound rnd) {lib : Fl.BesLib} {x : ℝ} (hl : BesLibOk lib x) (x1 : (2 : ℝ) ^ (-500 : ℤ) ≤ |x|) (x2 : |x| ≤ 2 ^ (500 : ℤ)) :
    Is (Y rnd lib x 0) (FB.fY rnd lib x 0) ∧ Is (Y rnd lib x 1) (FB.fY rnd lib x 1) ∧ IsDouble (FB.fY rnd lib x 0) ∧ IsDouble (FB.fY rnd lib x 1) := by
  have hx : x ≠ 0 := by rintro rfl; rw [abs_zero] at x1; exact absurd x1 (not_le.2 (by positivity))
  have hxp := abs_pos.2 hx
  obtain ⟨c1, c2, c3, c4⟩ := lib_bounds hl
  have two : (2 : ℝ) < 2 ^ 1024 := by
    calc (2 : ℝ) = 2 ^ 1 := by norm_num
      _ < 2 ^ 1024 := pow_lt_pow_right₀ (by norm_num) (by norm_num)
  have xb : |x| < 2 ^ 1024 := by
    refine lt_of_le_of_lt x2 ?_
    rw [← zpow_natCast]; exact zpow_lt_zpow_right₀ (by norm_num) (by norm_num)
  have x3 : (2 : ℝ) ^ (-1000 : ℤ) ≤ x ^ 2 := by
    rw [← sq_abs, show (-1000 : ℤ) = -500 + -500 by norm_num, zpow_add₀ (by norm_num), sq]
    exact mul_le_mul x1 x1 (by positivity) hxp.le
  have x4 : x ^ 2 ≤ (2 : ℝ) ^ (1000 : ℤ) := by
    rw [← sq_abs, show (1000 : ℤ) = 500 + 500 by norm_num, zpow_add₀ (by norm_num), sq]
    exact mul_le_mul x2 x2 hxp.le (by positivity)
  have s0 : 0 < lib.sq x := lt_of_lt_of_le (by positivity) c3
  have sb : |lib.sq x| < 2 ^ 1024 := by
    rw [abs_of_pos s0]
    refine lt_of_le_of_lt (c4.trans (mul_le_mul_of_nonneg_left x4 (by norm_num))) ?_
    rw [← zpow_natCast (2 : ℝ) 1024, show (2 : ℝ) * 2 ^ (1000 : ℤ) = 2 ^ (1001 : ℤ) by rw [show (1001 : ℤ) = 1 + 1000 by norm_num, zpow_add₀ (by norm_num)]; norm_num]
    exact zpow_lt_zpow_right₀ (by norm_num) (by norm_num)
  have isC := is_neg (is_ofReal (s := false) (finite_ofReal (lt_of_le_of_lt c1 two))).1
  have isD := (is_ofReal (s := false) (finite_ofReal (lt_of_le_of_lt c2 two))).1
  have q1 : ∀ a : ℝ, |a| ≤ 2 → |a / x| ≤ 2 ^ (600 : ℤ) := by
    intro a ha
    rw [abs_div, div_le_iff₀ hxp]
    calc |a| ≤ 2 := ha
      _ ≤ 2 ^ (100 : ℤ) := by norm_num
      _ = 2 ^ (600 : ℤ) * 2 ^ (-500 : ℤ) := by rw [← zpow_add₀ (by norm_num)]; norm_num
      _ ≤ _ := mul_le_mul_of_nonneg_left x1 (by positivity)
  have q2 : |-lib.cos x / lib.sq x| ≤ 2 ^ (1005 : ℤ) := by
    rw [abs_div, abs_neg, abs_of_pos s0, div_le_iff₀ s0]
    calc |lib.cos x| ≤ 2 := c1
      _ ≤ 2 ^ (5 : ℤ) / 2 := by norm_num
      _ = 2 ^ (1005 : ℤ) * (2 ^ (-1000 : ℤ) / 2) := by rw [← mul_div_assoc, ← zpow_add₀ (by norm_num)]; norm_num
      _ ≤ _ := mul_le_mul_of_nonneg_left (le_trans (by linarith) c3) (by positivity)
  have b600 : (2 : ℝ) ^ (600 : ℤ) ≤ 2 ^ (1005 : ℤ) := zpow_le_zpow_right₀ (by norm_num) (by norm_num)
  have b1010 : (2 : ℝ) ^ (1005 : ℤ) * 32 = 2 ^ (1010 : ℤ) := by
    rw [show (1010 : ℤ) = 1005 + 5 by norm_num, zpow_add₀ (by norm_num)]; norm_num
  have bp : (0 : ℝ) < 2 ^ (1005 : ℤ) := by positivity
  have le1010 : ∀ y : ℝ, |y| ≤ 4 * 2 ^ (1005 : ℤ) → |y| ≤ 2 ^ (1010 : ℤ) := fun y hy => by
    rw [← b1010]; exact hy.trans (aux32 bp)
  have m0 := modest hr (le1010 _ (((q1 (-lib.cos x) (by rwa [abs_neg])).trans b600).trans (aux4 bp)))
  have mc := modest hr (le1010 _ (q2.trans (aux4 bp)))
  have md := modest hr (le1010 _ (((q1 (lib.sin x) c2).trans b600).trans (aux4 bp)))
  have mm := modest hr (y := rnd (-lib.cos x / lib.sq x) - rnd (lib.sin x / x)) (le1010 _
    (aux22 mc.1 md.1 q2 ((q1 (lib.sin x) c2).trans b600) (abs_sub _ _)))
  have z := rnd_zero hr.toIsRounding
  refine ⟨?_, ?_, m0.2.2, mm.2.2⟩
  · simp only [Y, FB.fY]
    rw [lit_fin hx xb]
    exact (is_div z isC (finite_div isC m0.2.1)).1
  · simp only [Y, FB.fY]
    rw [lit_fin hx xb, lit_fin s0.ne' sb]
    have i1 := (is_div z isC (finite_div isC mc.2.1)).1
    have i2 := (is_div z isD (finite_div isD md.2.1)).1
    exact (is_sub hr.keeps i1 i2 mc.2.2 md.2.2 (finite_sub i1 i2 mm.2.1)).1

/-! ### Growth -/

theorem rel (hr : IEEERound rnd) {z : ℝ} (h : (2 : ℝ) ^ (-1022 : ℤ) ≤ |z|) : |rnd z - z| ≤ uu * |z| := by
  by_cases hb : |z| ≤ 2 ^ (1022 : ℤ)
  · rcases le_total 0 z with h0 | h0
    · rw [abs_of_nonneg h0] at h hb ⊢
      exact rnd_rel hr.toIsRounding h hb
    · rw [abs_of_nonpos h0] at h hb ⊢
      have e := rnd_rel hr.toIsRounding h hb
      have big : (2 : ℝ) ^ (1022 : ℤ) ≤ 2 ^ 1023 := by
        rw [← zpow_natCast (2 : ℝ) 1023]; exact zpow_le_zpow_right₀ (by norm_num) (by norm_num)
      rw [hr.odd z (by rw [abs_of_nonpos h0]; exact hb.trans big)] at e
      rw [← abs_neg]
      rw [show -(rnd z - z) = -rnd z - -z by ring]
      exact e
  · exact hr.large z (not_le.1 hb).le

theorem lower (hr : IEEERound rnd) {z : ℝ} (h : 1 / 4 ≤ |z|) : 999 / 1000 * |z| ≤ |rnd z| := by
  have b : (2 : ℝ) ^ (-1022 : ℤ) ≤ 1 / 4 := by
    rw [show (1 / 4 : ℝ) = 2 ^ (-2 : ℤ) by norm_num]; exact zpow_le_zpow_right₀ (by norm_num) (by norm_num)
  have e := rel hr (b.trans h)
  have u : uu ≤ 1 / 1000 := FB.uu_lt.trans (by norm_num)
  have t := abs_sub_abs_le_abs_sub z (rnd z)
  rw [abs_sub_comm] at t
  have : uu * |z| ≤ 1 / 1000 * |z| := mul_le_mul_of_nonneg_right u (abs_nonneg z)
  linarith

theorem grow_step (hr : IEEERound rnd) {c a b : ℝ} (hc : 14 / 5 ≤ |c|) (ha : 2 / 5 ≤ |a|) (hb : |b| ≤ 21 / 20 * |a|) :
    3 / 2 * |a| ≤ |rnd (rnd (c * a) - b)| := by
  have h1 : 14 / 5 * |a| ≤ |c * a| := by rw [abs_mul]; exact mul_le_mul_of_nonneg_right hc (abs_nonneg a)
  have h2 := lower hr (z := c * a) (by linarith)
  have h3 := abs_sub_abs_le_abs_sub (rnd (c * a)) b
  have h4 : 17 / 10 * |a| ≤ |rnd (c * a) - b| := by linarith
  have h5 := lower hr (z := rnd (c * a) - b) (by linarith)
  linarith

/-- The first two values of `sbessely` for `|x| ≤ 1`. -/
theorem start_big (hr : IEEERound rnd) {lib : Fl.BesLib} {x : ℝ} (hl : BesLibOk lib x) (x1 : (2 : ℝ) ^ (-500 : ℤ) ≤ |x|) (x2 : |x| ≤ 1) :
    2 / 5 ≤ |FB.fY rnd lib x 1| ∧ |FB.fY rnd lib x 0| ≤ 21 / 20 * |FB.fY rnd lib x 1| := by
  have hx : x ≠ 0 := by rintro rfl; rw [abs_zero] at x1; exact absurd x1 (not_le.2 (by positivity))
  have hxp := abs_pos.2 hx
  have u8 : 8 * (2 : ℝ) ^ (-53 : ℤ) ≤ 1 / 1000 := by rw [zpow_neg]; norm_num
  have u2 : 2 * (2 : ℝ) ^ (-53 : ℤ) ≤ 1 / 1000 := by rw [zpow_neg]; norm_num
  have dc := hl.cos.trans (mul_le_mul_of_nonneg_right u8 (abs_nonneg _))
  have ds := hl.sin.trans (mul_le_mul_of_nonneg_right u8 (abs_nonneg _))
  have dq := hl.sq.trans (mul_le_mul_of_nonneg_right u2 (sq_nonneg x))
  clear u8 u2
  have xs : 0 < x ^ 2 := by positivity
  have xs1 : x ^ 2 ≤ 1 := by rw [← sq_abs]; exact pow_le_one₀ hxp.le x2
  have xs2 : x ^ 2 ≤ |x| := by
    rw [← sq_abs, sq]; exact mul_le_of_le_one_left hxp.le x2
  have hcos : 1 / 2 ≤ Real.cos x := le_trans (by linarith) (Real.one_sub_sq_div_two_le_cos (x := x))
  have hC : 49 / 100 ≤ lib.cos x := by
    have h := (abs_le.1 dc).1
    rw [abs_of_pos (by linarith : 0 < Real.cos x)] at h
    linarith
  have hC2 : lib.cos x ≤ 2 := (le_abs_self _).trans (lib_bounds hl).1
  obtain ⟨-, c2, s1, s2⟩ := lib_bounds hl
  have s3 : lib.sq x ≤ 1001 / 1000 * x ^ 2 := by
    have h := (abs_le.1 dq).2
    linarith
  have s0 : 0 < lib.sq x := lt_of_lt_of_le (by linarith) s1
  -- the sine term
  have hD : 0 ≤ lib.sin x / x := by
    have h := abs_le.1 ds
    rcases lt_or_gt_of_ne hx with hneg | hpos
    · have hs : Real.sin x < 0 := Real.sin_neg_of_neg_of_neg_pi_lt hneg (by
        have := neg_abs_le x
        have := Real.pi_gt_three
        linarith)
      rw [abs_of_neg hs] at h
      exact div_nonneg_of_nonpos (by linarith [h.2]) hneg.le
    · have hs : 0 < Real.sin x := Real.sin_pos_of_pos_of_lt_pi hpos (by
        have := le_abs_self x
        have := Real.pi_gt_three
        linarith)
      rw [abs_of_pos hs] at h
      exact div_nonneg (by linarith [h.1]) hpos.le
  have hDb : |lib.sin x / x| ≤ 2 ^ 1023 := by
    rw [abs_div, div_le_iff₀ hxp]
    calc |lib.sin x| ≤ 2 := c2
      _ ≤ 2 ^ (523 : ℤ) := by
        calc (2 : ℝ) = 2 ^ (1 : ℤ) := by norm_num
          _ ≤ 2 ^ (523 : ℤ) := zpow_le_zpow_right₀ (by norm_num) (by norm_num)
      _ = 2 ^ (1023 : ℤ) * 2 ^ (-500 : ℤ) := by rw [← zpow_add₀ (by norm_num)]; norm_num
      _ = 2 ^ 1023 * 2 ^ (-500 : ℤ) := by rw [← zpow_natCast (2 : ℝ) 1023]; norm_num
      _ ≤ _ := mul_le_mul_of_nonneg_left x1 (by positivity)
  have r2 : 0 ≤ rnd (lib.sin x / x) := rnd_ge_double hr.toIsRounding hDb isDouble_zero hD
  -- the cosine terms
  set q := lib.cos x / x ^ 2 with hq
  have q0 : 49 / 100 ≤ q := by rw [hq, le_div_iff₀ xs]; nlinarith
  have t1 : 998 / 1000 * q ≤ lib.cos x / lib.sq x := by
    rw [le_div_iff₀ s0, hq]
    have e : 998 / 1000 * (lib.cos x / x ^ 2) * (1001 / 1000 * x ^ 2) = (998 / 1000 * (1001 / 1000)) * lib.cos x := by field_simp
    calc _ ≤ 998 / 1000 * (lib.cos x / x ^ 2) * (1001 / 1000 * x ^ 2) := mul_le_mul_of_nonneg_left s3 (by positivity)
      _ = _ := e
      _ ≤ _ := by linarith
  have b : (2 : ℝ) ^ (-1022 : ℤ) ≤ 1 / 4 := by
    rw [show (1 / 4 : ℝ) = 2 ^ (-2 : ℤ) by norm_num]; exact zpow_le_zpow_right₀ (by norm_num) (by norm_num)
  have uu1 : uu ≤ 1 / 1000 := FB.uu_lt.trans (by norm_num)
  have r1 : rnd (-lib.cos x / lib.sq x) ≤ -(997 / 1000 * q) := by
    set w := lib.cos x / lib.sq x with hw
    have e : -lib.cos x / lib.sq x = -w := by rw [hw, neg_div]
    rw [e]
    have hh := (abs_le.1 (rel hr (z := -w) (by rw [abs_neg, abs_of_pos (by linarith)]; linarith))).2
    rw [abs_neg, abs_of_pos (by linarith : 0 < w)] at hh
    have : uu * w ≤ 1 / 1000 * w := mul_le_mul_of_nonneg_right uu1 (by linarith)
    clear_value w
    linarith
  have y1 : 995 / 1000 * q ≤ |FB.fY rnd lib x 1| := by
    simp only [FB.fY]
    have hz : 997 / 1000 * q ≤ |rnd (-lib.cos x / lib.sq x) - rnd (lib.sin x / x)| := by
      rw [abs_of_nonpos (by linarith)]; linarith
    have := lower hr (z := rnd (-lib.cos x / lib.sq x) - rnd (lib.sin x / x)) (by linarith)
    linarith
  have y0 : |FB.fY rnd lib x 0| ≤ 1001 / 1000 * q := by
    simp only [FB.fY]
    have hq' : |-lib.cos x / x| ≤ q := by
      rw [abs_div, abs_neg, abs_of_pos (by linarith), hq]
      exact div_le_div_of_nonneg_left (by linarith) xs xs2
    have hq2 : 1 / 4 ≤ |-lib.cos x / x| := by
      rw [abs_div, abs_neg, abs_of_pos (by linarith), le_div_iff₀ hxp]; linarith
    have e := rel hr (b.trans hq2)
    have t := abs_sub_abs_le_abs_sub (rnd (-lib.cos x / x)) (-lib.cos x / x)
    have : uu * |-lib.cos x / x| ≤ 1 / 1000 * |-lib.cos x / x| := mul_le_mul_of_nonneg_right uu1 (abs_nonneg _)
    linarith
  constructor <;> linarith

theorem grow (hr : IEEERound rnd) {lib : Fl.BesLib} {x : ℝ} (hl : BesLibOk lib x) (x1 : (2 : ℝ) ^ (-500 : ℤ) ≤ |x|) (x2 : |x| ≤ 1) (n : ℕ)
    (hn : n ≤ 2 ^ 20) :
    2 / 5 * (3 / 2) ^ n ≤ |FB.fY rnd lib x (n + 1)| ∧ |FB.fY rnd lib x n| ≤ 21 / 20 * |FB.fY rnd lib x (n + 1)| := by
  induction n with
  | zero => have := start_big hr hl x1 x2; simpa using this
  | succ n ih =>
    obtain ⟨h1, h2⟩ := ih (by omega)
    have hp : (1 : ℝ) ≤ (3 / 2) ^ n := one_le_pow₀ (by norm_num)
    have x3 : |x| ≤ 2 ^ (500 : ℤ) := x2.trans (one_le_zpow₀ (by norm_num) (by norm_num))
    have f := (factor hr.toIsRounding x1 x3 (show n ≤ 2 ^ 20 by omega)).2.2.2
    have fc : 14 / 5 ≤ |rnd ((2 * ((n + 1 : ℕ) : ℝ) + 1) / x)| := f.trans (mul_le_of_le_one_right (abs_nonneg _) x2)
    have g := grow_step hr fc (show 2 / 5 ≤ |FB.fY rnd lib x (n + 1)| by linarith) h2
    rw [show FB.fY rnd lib x (n + 1 + 1) = rnd (rnd (rnd ((2 * ((n + 1 : ℕ) : ℝ) + 1) / x) * FB.fY rnd lib x (n + 1)) - FB.fY rnd lib x n) by rw [FB.fY]]
    constructor
    · rw [pow_succ]; linarith
    · have := abs_nonneg (FB.fY rnd lib x (n + 1)); linarith

end FX
end Verif.Props

namespace Verif.Props
open Verif
variable {rnd : ℝ → ℝ}

namespace FX

theorem wf_ofReal (hr : IEEERound rnd) (s : Bool) (z : ℝ) : (IE.ofReal s (rnd z)).WF := by
  unfold IE.ofReal
  by_cases h0 : rnd z = 0
  · rw [if_pos h0]; trivial
  · rw [if_neg h0]
    by_cases h2 : 2 ^ 1024 ≤ |rnd z|
    · rw [if_pos h2]; trivial
    · rw [if_neg h2]; exact ⟨hr.range _ (not_le.1 h2), h0⟩

theorem wf_mul (hr : IEEERound rnd) (a b : IE) : (IE.mul rnd a b).WF := by
  cases a <;> cases b <;> simp only [IE.mul] <;> first | trivial | exact wf_ofReal hr _ _

theorem wf_div (hr : IEEERound rnd) (a b : IE) : (IE.div rnd a b).WF := by
  cases a <;> cases b <;> simp only [IE.div] <;> first | trivial | exact wf_ofReal hr _ _

theorem wf_sub (hr : IEEERound rnd) {a b : IE} (ha : a.WF) (hb : b.WF) : (IE.sub rnd a b).WF := by
  cases a <;> cases b <;> simp only [IE.sub, IE.neg, IE.add] <;>
    first | trivial | exact wf_ofReal hr _ _ | exact ha | exact ⟨isDouble_neg hb.1, neg_ne_zero.2 hb.2⟩ | (split <;> trivial)

theorem wf_Y (hr : IEEERound rnd) (lib : Fl.BesLib) (x : ℝ) (n : ℕ) : (Y rnd lib x n).WF := by
  induction n using Nat.strong_induction_on with
  | _ n ih =>
    match n, ih with
    | 0, _ => simp only [Y]; exact wf_div hr _ _
    | 1, _ => simp only [Y]; exact wf_sub hr (wf_div hr _ _) (wf_div hr _ _)
    | n + 2, ih => rw [Y]; exact wf_sub hr (wf_mul hr _ _) (ih n (by omega))

theorem aux_big {A B C : ℝ} (p : 0 < A) (e4 : A ≤ B) (e6 : 10 < C) : A * 4 < 2 / 5 * (B * C) := by
  have : B * 10 < B * C := mul_lt_mul_of_pos_left e6 (by linarith)
  linarith

theorem big1800 : (2 : ℝ) ^ 1024 < 2 / 5 * (3 / 2) ^ 1800 := by
  have e1 : ((3 / 2 : ℝ)) ^ 1800 = ((3 / 2) ^ 12) ^ 146 * ((3 / 2) ^ 12) ^ 4 := by rw [← pow_add, ← pow_mul]
  have e2 : (2 : ℝ) ^ 1024 = (2 ^ 7) ^ 146 * 4 := by rw [← pow_mul, show (4 : ℝ) = 2 ^ 2 by norm_num, ← pow_add]
  have e3 : ((2 : ℝ) ^ 7) ≤ (3 / 2) ^ 12 := by norm_num
  rw [e1, e2]
  exact aux_big (by positivity) (pow_le_pow_left₀ (by positivity) e3 _) (by norm_num)

theorem getElem?_rd {l : List IE} {i : ℕ} (h : i < l.length) : l[i]? = some (rd l i) := by
  simp [rd, h]

end FX

/-- **C120, the values before the first overflow**: `sbessely(x, N)` (`2^-500 ≤ |x| ≤ 2^500`) always returns `N` binary64 values, and as long as
all values so far are finite they are the ones of the model without infinities (whose accuracy is C103). -/
theorem c120_finite (hr : IEEERound rnd) {lib : Fl.BesLib} {x : ℝ} (hl : BesLibOk lib x) {N : ℕ} (h2 : 2 ≤ N) (hN : N ≤ 2 ^ 20)
    (x1 : (2 : ℝ) ^ (-500 : ℤ) ≤ |x|) (x2 : |x| ≤ 2 ^ (500 : ℤ)) :
    ∃ out ref, FlX.sbessely rnd lib x N = .ok out ∧ Fl.sbessely rnd lib x N = .ok ref ∧ out.length = N ∧ ref.length = N ∧
      ∀ n, n < N → (∀ j, j ≤ n → ∀ v, out[j]? = some v → ¬ NotFinite v) →
        ∃ y, ref[n]? = some y ∧ (out[n]? = some (.fin y) ∨ y = 0 ∧ ∃ s, out[n]? = some (.zero s)) := by
  have hx : x ≠ 0 := by rintro rfl; rw [abs_zero] at x1; exact absurd x1 (not_le.2 (by positivity))
  obtain ⟨-, -, c3, -⟩ := FX.lib_bounds hl
  have s0 : lib.sq x ≠ 0 := (lt_of_lt_of_le (by positivity) c3).ne'
  obtain ⟨out, e1, l1, v1⟩ := FX.sby_struct hr.toIsRounding lib h2 hN x1 x2
  obtain ⟨ref, e2, l2, v2⟩ := FB.sby_struct hr.toIsRounding lib h2 hN hx s0
  refine ⟨out, ref, e1, e2, l1, l2, fun n hn hf => ⟨FB.fY rnd lib x n, ?_, ?_⟩⟩
  · have : n < ref.length := by omega
    have e := v2 n hn
    simp only [rd, List.getD_eq_getElem?_getD, List.getElem?_eq_getElem this, Option.getD_some] at e
    rw [List.getElem?_eq_getElem this, e]
  · obtain ⟨a, b, c, d⟩ := FX.start hr hl x1 x2
    have h := (FX.agree hr lib x1 x2 a b c d n (by omega) fun j hj => hf j hj _ (by rw [FX.getElem?_rd (by omega), v1 j (by omega)])).1
    rw [FX.getElem?_rd (by omega), v1 n hn]
    rcases h with ⟨h1, s, h2⟩ | ⟨-, h2⟩
    · exact Or.inr ⟨h1, s, by rw [h2]⟩
    · exact Or.inl (by rw [h2])

/-- **C120**: if `sbessely(x, N)` contains a value that is not finite, then the first such value, at index `k`, is an infinity, so is the next, and
every value from index `k + 2` on is NaN - for every `x` with `2^-500 ≤ |x| ≤ 2^500` and every `N`. -/
theorem c120_after_overflow (hr : IEEERound rnd) {lib : Fl.BesLib} {x : ℝ} (hl : BesLibOk lib x) {N : ℕ} (h2 : 2 ≤ N) (hN : N ≤ 2 ^ 20)
    (x1 : (2 : ℝ) ^ (-500 : ℤ) ≤ |x|) (x2 : |x| ≤ 2 ^ (500 : ℤ)) :
    ∃ out, FlX.sbessely rnd lib x N = .ok out ∧ out.length = N ∧ ((∀ v ∈ out, ¬ NotFinite v) ∨
      ∃ k, k < N ∧ (∀ j, j < k → ∀ v, out[j]? = some v → ¬ NotFinite v) ∧ (∃ s, out[k]? = some (.inf s)) ∧
        (k + 1 < N → ∃ s, out[k + 1]? = some (.inf s)) ∧ ∀ j, k + 2 ≤ j → j < N → out[j]? = some .nan) := by
  classical
  obtain ⟨out, e1, l1, v1⟩ := FX.sby_struct hr.toIsRounding lib h2 hN x1 x2
  refine ⟨out, e1, l1, ?_⟩
  obtain ⟨a, b, -, -⟩ := FX.start hr hl x1 x2
  by_cases hall : ∃ k, k < N ∧ NotFinite (FX.Y rnd lib x k)
  · right
    have hk := Nat.find_spec hall
    have hmin : ∀ j, j < Nat.find hall → ¬ NotFinite (FX.Y rnd lib x j) := fun j hj h => Nat.find_min hall hj ⟨by omega, h⟩
    generalize Nat.find hall = k at hk hmin
    have hk2 : 2 ≤ k := by
      by_contra hlt
      have : k = 0 ∨ k = 1 := by omega
      rcases this with rfl | rfl
      · exact a.finite hk.2
      · exact b.finite hk.2
    obtain ⟨i, rfl⟩ : ∃ i, k = i + 2 := ⟨k - 2, by omega⟩
    obtain ⟨r1, r2, r3⟩ := FX.recurrence (rnd := rnd) (c := fun n => rnd ((2 * ((n + 1 : ℕ) : ℝ) + 1) / x)) (Y := FX.Y rnd lib x) (M := N - 2)
      (fun n hn => (FX.factor hr.toIsRounding x1 x2 (by omega)).1)
      (fun n m hn hm => (FX.factor hr.toIsRounding x1 x2 (n := n) (by omega)).2.2.1.trans (FX.factor hr.toIsRounding x1 x2 (n := m) (by omega)).2.2.1.symm)
      (fun n hn => by rw [FX.Y]) (k := i) (by omega) hmin hk.2
    have get : ∀ j, j < N → out[j]? = some (FX.Y rnd lib x j) := fun j hj => by rw [FX.getElem?_rd (by omega), v1 j hj]
    refine ⟨i + 2, hk.1, fun j hj v hv => ?_, ?_, fun h => ?_, fun j hj hjN => ?_⟩
    · rw [get j (by omega)] at hv
      obtain rfl := Option.some.inj hv
      exact hmin j hj
    · obtain ⟨s, hs⟩ := r1
      exact ⟨s, by rw [get _ hk.1, hs]⟩
    · obtain ⟨s, hs⟩ := r2 (by omega)
      exact ⟨s, by rw [get _ h]; exact congrArg some hs⟩
    · rw [get j hjN, r3 j (by omega) (by omega)]
  · left
    intro v hv
    obtain ⟨j, hj, rfl⟩ := List.getElem_of_mem hv
    have e := v1 j (by omega)
    simp only [rd, List.getD_eq_getElem?_getD, List.getElem?_eq_getElem hj, Option.getD_some] at e
    rw [e]
    exact fun h => hall ⟨j, by omega, h⟩

/-- **C120, it does happen**: for every `x` with `2^-500 ≤ |x| ≤ 1`, every value of `sbessely(x, N)` from index 1803 on is NaN, although the
spherical Bessel function is a real number there. -/
theorem c120_overflows (hr : IEEERound rnd) {lib : Fl.BesLib} {x : ℝ} (hl : BesLibOk lib x) {N : ℕ} (h2 : 2 ≤ N) (hN : N ≤ 2 ^ 20)
    (x1 : (2 : ℝ) ^ (-500 : ℤ) ≤ |x|) (x2 : |x| ≤ 1) :
    ∃ out, FlX.sbessely rnd lib x N = .ok out ∧ ∀ j, 1803 ≤ j → j < N → out[j]? = some .nan := by
  have x3 : |x| ≤ 2 ^ (500 : ℤ) := x2.trans (one_le_zpow₀ (by norm_num) (by norm_num))
  obtain ⟨out, e, l, h⟩ := c120_after_overflow hr hl h2 hN x1 x3
  refine ⟨out, e, fun j hj hjN => ?_⟩
  obtain ⟨out', e1, l1, v1⟩ := FX.sby_struct hr.toIsRounding lib h2 hN x1 x3
  rw [e] at e1
  obtain rfl := Except.ok.inj e1
  have get : ∀ j, j < N → out[j]? = some (FX.Y rnd lib x j) := fun j hj => by rw [FX.getElem?_rd (by omega), v1 j hj]
  have inf : ¬ ∀ j, j ≤ 1801 → ¬ NotFinite (FX.Y rnd lib x j) := by
    intro hf
    obtain ⟨a, b, c, d⟩ := FX.start hr hl x1 x3
    have hd := (FX.agree hr lib x1 x3 a b c d 1801 (by norm_num) hf).2
    have hg := (FX.grow hr hl x1 x2 1800 (by norm_num)).1
    have hb := isDouble_abs_le hd
    have h1 := FX.big1800
    have h971 : (0 : ℝ) < 2 ^ 971 := by positivity
    exact absurd (lt_of_lt_of_le h1 (hg.trans hb)) (not_lt.2 (sub_lt_self _ h971).le)
  push Not at inf
  obtain ⟨i, hi, hif⟩ := inf
  rcases h with h | ⟨k, hk, hk1, -, -, hk2⟩
  · exact absurd hif (h _ (List.mem_of_getElem? (get i (by omega))))
  · have : k ≤ i := by
      by_contra hlt
      exact hk1 i (by omega) _ (get i (by omega)) hif
    exact hk2 j (by omega) hjN

/-- **C120 for the Hankel functions**: where `sbessely` has overflowed, `sbesselh1` and `sbesselh2` also lose the value of `sbesselj`: their real part
is NaN; where it is finite they hold `j_n` and `±y_n`. -/
theorem c120_hankel (hr : IEEERound rnd) {lib : Fl.BesLib} {x : ℝ} {N : ℕ} (h2 : 2 ≤ N) (hN : N ≤ 2 ^ 20)
    (x1 : (2 : ℝ) ^ (-500 : ℤ) ≤ |x|) (x2 : |x| ≤ 2 ^ (500 : ℤ)) {jn : List ℝ} (hj : Fl.sbesselj rnd lib x N = .ok jn) (hjl : jn.length = N) :
    ∃ yn h1 h2, FlX.sbessely rnd lib x N = .ok yn ∧ FlX.sbesselh1 rnd lib x N = .ok h1 ∧ FlX.sbesselh2 rnd lib x N = .ok h2 ∧
      ∀ n, n < N → ∃ j y p q, jn[n]? = some j ∧ yn[n]? = some y ∧ h1[n]? = some p ∧ h2[n]? = some q ∧
        (NotFinite y → p.1 = .nan ∧ q.1 = .nan ∧ p.2 = y ∧ q.2 = IE.neg y) ∧
        (∀ v, y = .fin v → p = (IE.lit j, .fin v) ∧ q = (IE.lit j, .fin (-v))) := by
  obtain ⟨yn, e1, l1, v1⟩ := FX.sby_struct hr.toIsRounding lib h2 hN x1 x2
  have hlen : (jn.map IE.lit).length = yn.length := by simp [hjl, l1]
  refine ⟨yn, List.zipWith (FlX.hankel1 rnd) (jn.map IE.lit) yn, List.zipWith (FlX.hankel2 rnd) (jn.map IE.lit) yn, e1, ?_, ?_, ?_⟩
  · unfold FlX.sbesselh1
    rw [hj, e1]
    simp only [Except.bind_ok, bcast]
    rw [if_pos hlen]
  · unfold FlX.sbesselh2
    rw [hj, e1]
    simp only [Except.bind_ok, bcast]
    rw [if_pos hlen]
  · intro n hn
    have ny : n < yn.length := by omega
    have nj : n < jn.length := by omega
    have ey : yn[n]? = some (FX.Y rnd lib x n) := by rw [FX.getElem?_rd ny, v1 n hn]
    refine ⟨jn[n], FX.Y rnd lib x n, FlX.hankel1 rnd (IE.lit jn[n]) (FX.Y rnd lib x n), FlX.hankel2 rnd (IE.lit jn[n]) (FX.Y rnd lib x n),
      List.getElem?_eq_getElem nj, ey, ?_, ?_, ?_, ?_⟩
    · rw [List.getElem?_zipWith, ey, List.getElem?_map, List.getElem?_eq_getElem nj]; rfl
    · rw [List.getElem?_zipWith, ey, List.getElem?_map, List.getElem?_eq_getElem nj]; rfl
    · intro hf
      generalize FX.Y rnd lib x n = y at hf
      have hn1 : decide ((1 : ℝ) < 0) = false := by simp
      cases y with
      | nan =>
        refine ⟨?_, ?_, ?_, ?_⟩ <;> cases IE.lit jn[n] <;> simp [FlX.hankel1, FlX.hankel2, IE.cadd, IE.cmul, IE.toC, IE.mul, IE.add, IE.sub, IE.neg]
      | inf s =>
        refine ⟨?_, ?_, ?_, ?_⟩ <;> cases IE.lit jn[n] <;>
          simp [FlX.hankel1, FlX.hankel2, IE.cadd, IE.cmul, IE.toC, IE.mul, IE.add, IE.sub, IE.neg, IE.sign, hn1]
      | zero s => exact hf.elim
      | fin v => exact hf.elim
    · intro v hv
      have hw := FX.wf_Y hr lib x n
      rw [hv] at hw ⊢
      have e := FX.ofReal_fin (s := (xor (decide ((1 : ℝ) < 0)) (decide (v < 0)))) hw.2
        (lt_of_le_of_lt (isDouble_abs_le hw.1) (sub_lt_self _ (by positivity)))
      have e' : rnd v = v := hr.keeps v hw.1
      have hl : IE.lit jn[n] = .zero false ∨ (∃ s, IE.lit jn[n] = .inf s) ∨ ∃ w, IE.lit jn[n] = .fin w := by
        unfold IE.lit IE.ofReal
        by_cases h0 : jn[n] = 0
        · rw [if_pos h0]; exact Or.inl rfl
        · rw [if_neg h0]
          by_cases h2 : 2 ^ 1024 ≤ |jn[n]|
          · rw [if_pos h2]; exact Or.inr (Or.inl ⟨_, rfl⟩)
          · rw [if_neg h2]; exact Or.inr (Or.inr ⟨_, rfl⟩)
      have hn1 : decide ((1 : ℝ) < 0) = false := by simp
      rw [hn1] at e
      rcases hl with h | ⟨s, h⟩ | ⟨w, h⟩ <;> rw [h] <;>
        simp [FlX.hankel1, FlX.hankel2, IE.cadd, IE.cmul, IE.toC, IE.mul, IE.add, IE.sub, IE.neg, IE.sign, e', hn1] at e ⊢ <;> rw [e] <;> simp

/-! ### The hypotheses are met -/

namespace FX

theorem double_scale_down {x : ℝ} (h : IsDouble x) (hx : (2 : ℝ) ^ 1023 < |x|) : IsDouble (x / 2 ^ 1000) := by
  obtain ⟨m, e, hm, h0, h1, rfl⟩ := h
  have he : 970 ≤ e := by
    by_contra hlt
    rw [abs_mul, abs_of_pos (show (0 : ℝ) < 2 ^ e by positivity)] at hx
    have a1 : |(m : ℝ)| ≤ 2 ^ 53 := by exact_mod_cast hm.le
    have a2 : (2 : ℝ) ^ e ≤ 2 ^ (970 : ℤ) := zpow_le_zpow_right₀ (by norm_num) (by omega)
    have a3 : |(m : ℝ)| * 2 ^ e ≤ 2 ^ 53 * 2 ^ (970 : ℤ) := mul_le_mul a1 a2 (by positivity) (by positivity)
    have a4 : (2 : ℝ) ^ 53 * 2 ^ (970 : ℤ) = 2 ^ 1023 := by
      rw [← zpow_natCast (2 : ℝ) 53, ← zpow_add₀ (by norm_num), ← zpow_natCast (2 : ℝ) 1023]; norm_num
    rw [a4] at a3
    exact absurd hx (not_lt.2 a3)
  refine ⟨m, e - 1000, hm, by omega, by omega, ?_⟩
  rw [zpow_sub₀ (by norm_num), mul_div_assoc, show (2 : ℝ) ^ (1000 : ℤ) = 2 ^ 1000 by rw [← zpow_natCast]; norm_num]

theorem double_scale_up {d : ℝ} (h : IsDouble d) (hd : |d * 2 ^ 1000| < 2 ^ 1024) : IsDouble (d * 2 ^ 1000) := by
  obtain ⟨m, e, hm, h0, h1, rfl⟩ := h
  have e1 : ∀ f : ℤ, (2 : ℝ) ^ f * 2 ^ 1000 = 2 ^ (f + 1000) := fun f => by
    rw [zpow_add₀ (by norm_num), show (2 : ℝ) ^ (1000 : ℤ) = 2 ^ 1000 by rw [← zpow_natCast]; norm_num]
  by_cases he : e + 1000 ≤ 971
  · exact ⟨m, e + 1000, hm, by omega, he, by rw [mul_assoc, e1]⟩
  · obtain ⟨k, hk⟩ := Int.eq_ofNat_of_zero_le (show 0 ≤ e + 29 by omega)
    have e2 : (m : ℝ) * 2 ^ e * 2 ^ 1000 = ((m * 2 ^ k : ℤ) : ℝ) * 2 ^ (971 : ℤ) := by
      rw [mul_assoc, e1, show e + 1000 = k + 971 by omega, zpow_add₀ (by norm_num)]
      push_cast
      rw [zpow_natCast]; ring
    refine ⟨m * 2 ^ k, 971, ?_, by norm_num, le_rfl, e2⟩
    rw [e2, abs_mul, abs_of_pos (show (0 : ℝ) < 2 ^ (971 : ℤ) by positivity)] at hd
    have e3 : (2 : ℝ) ^ 1024 = 2 ^ 53 * 2 ^ (971 : ℤ) := by
      rw [← zpow_natCast (2 : ℝ) 53, ← zpow_add₀ (by norm_num), ← zpow_natCast (2 : ℝ) 1024]; norm_num
    rw [e3] at hd
    have := lt_of_mul_lt_mul_right hd (by positivity)
    exact_mod_cast this

theorem rel1023 {f : ℝ → ℝ} (hf : IsRounding f) {x : ℝ} (h0 : (2 : ℝ) ^ (1022 : ℤ) ≤ |x|) (h1 : |x| ≤ 2 ^ 1023) : |f x - x| ≤ uu * |x| := by
  have two : (2 : ℝ) ^ (1022 : ℤ) * 2 = 2 ^ 1023 := by
    rw [← zpow_natCast (2 : ℝ) 1023, show ((1023 : ℕ) : ℤ) = 1022 + 1 by norm_num, zpow_add₀ (by norm_num)]; norm_num
  have a2 : |x / 2| = |x| / 2 := by rw [abs_div]; norm_num
  have hb : |x / 2| ≤ 2 ^ (1022 : ℤ) := by
    rw [a2, div_le_iff₀ (by norm_num), two]
    exact h1
  have big : (2 : ℝ) ^ (1022 : ℤ) ≤ 2 ^ 1023 := by
    rw [← two]
    exact le_mul_of_one_le_right (by positivity) (by norm_num)
  have lowb : (2 : ℝ) ^ (-1022 : ℤ) ≤ |x / 2| := by
    rw [a2]
    have t : (2 : ℝ) ^ (-1022 : ℤ) ≤ 2 ^ (1021 : ℤ) := zpow_le_zpow_right₀ (by norm_num) (by norm_num)
    have t2 : (2 : ℝ) ^ (1022 : ℤ) = 2 ^ (1021 : ℤ) * 2 := by rw [show (1022 : ℤ) = 1021 + 1 by norm_num, zpow_add₀ (by norm_num)]; norm_num
    refine t.trans ?_
    rw [t2] at h0
    generalize (2 : ℝ) ^ (1021 : ℤ) = P at *
    linarith
  have e : |f (x / 2) - x / 2| ≤ uu * |x / 2| := by
    rcases le_total 0 (x / 2) with g | g
    · rw [abs_of_nonneg g] at hb lowb ⊢
      exact rnd_rel hf lowb hb
    · rw [abs_of_nonpos g] at hb lowb ⊢
      have e := rnd_rel hf lowb hb
      rw [hf.odd _ (by rw [abs_of_nonpos g]; exact hb.trans big)] at e
      rw [← abs_neg, show -(f (x / 2) - x / 2) = -f (x / 2) - -(x / 2) by ring]
      exact e
  -- twice the rounded half is a double
  have hd : IsDouble (f (x / 2)) := hf.double _ (hb.trans big)
  have hle : |f (x / 2)| ≤ 2 ^ (1022 : ℤ) := by
    have pd : IsDouble ((2 : ℝ) ^ (1022 : ℤ)) := ⟨2 ^ 51, 971, by norm_num, by norm_num, by norm_num, by
      rw [show ((2 ^ 51 : ℤ) : ℝ) = (2 : ℝ) ^ (51 : ℤ) by norm_num, ← zpow_add₀ (by norm_num)]; norm_num⟩
    have u1 := rnd_le_double hf (hb.trans big) pd ((le_abs_self _).trans hb)
    have u2 := rnd_le_double hf (x := -(x / 2)) (by rw [abs_neg]; exact hb.trans big) pd ((neg_le_abs _).trans hb)
    rw [hf.odd _ (hb.trans big)] at u2
    exact abs_le'.2 ⟨u1, u2⟩
  have hd2 : IsDouble (2 * f (x / 2)) := by
    obtain ⟨m, e, hm, k0, k1, hfe⟩ := hd
    by_cases he : e + 1 ≤ 971
    · refine ⟨m, e + 1, hm, by omega, he, ?_⟩
      rw [hfe, zpow_add₀ (by norm_num)]; norm_num; ring
    · have he' : e = 971 := by omega
      subst he'
      refine ⟨2 * m, 971, ?_, by norm_num, le_rfl, by rw [hfe]; push_cast; ring⟩
      rw [hfe, abs_mul, abs_of_pos (show (0 : ℝ) < 2 ^ (971 : ℤ) by positivity), show (1022 : ℤ) = 51 + 971 by norm_num, zpow_add₀ (by norm_num)] at hle
      have := le_of_mul_le_mul_right hle (by positivity)
      have h3 : |m| ≤ 2 ^ 51 := by exact_mod_cast this
      rw [abs_mul, abs_two]
      norm_num at h3 ⊢
      omega
  have h := hf.nearest x h1 _ hd2
  rw [abs_sub_comm] at h
  refine h.trans ?_
  rw [abs_sub_comm, show 2 * f (x / 2) - x = 2 * (f (x / 2) - x / 2) by ring, abs_mul, abs_two]
  rw [a2] at e
  linarith

end FX

/-- There is such a rounding. -/
theorem ieeeRound_exists : ∃ rnd : ℝ → ℝ, IEEERound rnd := by
  classical
  obtain ⟨f, hf⟩ := isRounding_exists
  have p2000 : (2 : ℝ) ^ 2023 = 2 ^ 1023 * 2 ^ 1000 := by rw [← pow_add]
  have k0 : (0 : ℝ) < 2 ^ 1000 := by positivity
  have scaled : ∀ x : ℝ, |x| ≤ 2 ^ 2023 → |x / 2 ^ 1000| ≤ 2 ^ 1023 := fun x hx => by
    rw [abs_div, abs_of_pos k0, div_le_iff₀ k0, ← p2000]; exact hx
  let g : ℝ → ℝ := fun x => if |x| ≤ 2 ^ 1023 then f x else if |x| ≤ 2 ^ 2023 then f (x / 2 ^ 1000) * 2 ^ 1000 else x
  have g1 : ∀ x, |x| ≤ 2 ^ 1023 → g x = f x := fun x h => if_pos h
  have g2 : ∀ x, ¬ |x| ≤ 2 ^ 1023 → |x| ≤ 2 ^ 2023 → g x = f (x / 2 ^ 1000) * 2 ^ 1000 := fun x h h' => by
    show (if _ then _ else _) = _
    rw [if_neg h, if_pos h']
  have g3 : ∀ x, ¬ |x| ≤ 2 ^ 1023 → ¬ |x| ≤ 2 ^ 2023 → g x = x := fun x h h' => by
    show (if _ then _ else _) = _
    rw [if_neg h, if_neg h']
  have b3 : (2 : ℝ) ^ 1024 ≤ 2 ^ 2023 := pow_le_pow_right₀ (by norm_num) (by norm_num)
  refine ⟨g, ⟨⟨fun x h => ?_, fun x h => ?_, fun x h => ?_⟩, fun x h => ?_, fun x h => ?_, fun x h => ?_⟩⟩
  · rw [g1 x h]; exact hf.double x h
  · rw [g1 x h]; exact hf.nearest x h
  · rw [g1 x h, g1 (-x) (by rwa [abs_neg])]; exact hf.odd x h
  · by_cases hb : |x| ≤ 2 ^ 1023
    · rw [g1 x hb]; exact rnd_double hf h hb
    · have hx : |x| ≤ 2 ^ 2023 := ((isDouble_abs_le h).trans (sub_le_self _ (by positivity))).trans b3
      rw [g2 x hb hx, rnd_double hf (FX.double_scale_down h (not_le.1 hb)) (scaled x hx)]
      exact div_mul_cancel₀ _ k0.ne'
  · by_cases hb : |x| ≤ 2 ^ 1023
    · rw [g1 x hb]; exact hf.double x hb
    · by_cases hb2 : |x| ≤ 2 ^ 2023
      · rw [g2 x hb hb2] at h ⊢
        exact FX.double_scale_up (hf.double _ (scaled x hb2)) h
      · rw [g3 x hb hb2] at h
        exact absurd (h.le.trans b3) hb2
  · by_cases hb : |x| ≤ 2 ^ 1023
    · rw [g1 x hb]; exact FX.rel1023 hf h hb
    · by_cases hb2 : |x| ≤ 2 ^ 2023
      · rw [g2 x hb hb2]
        have hs := scaled x hb2
        have e : |f (x / 2 ^ 1000) - x / 2 ^ 1000| ≤ uu * |x / 2 ^ 1000| := by
          by_cases hc : (2 : ℝ) ^ (1022 : ℤ) ≤ |x / 2 ^ 1000|
          · exact FX.rel1023 hf hc hs
          · have hc' := (not_le.1 hc).le
            have lowb : (2 : ℝ) ^ (-1022 : ℤ) ≤ |x / 2 ^ 1000| := by
              rw [abs_div, abs_of_pos k0, le_div_iff₀ k0]
              refine le_trans ?_ (not_le.1 hb).le
              have : (2 : ℝ) ^ (-1022 : ℤ) ≤ 1 := zpow_le_one_of_nonpos₀ (by norm_num) (by norm_num)
              refine (mul_le_mul_of_nonneg_right this k0.le).trans ?_
              rw [one_mul]
              exact pow_le_pow_right₀ (by norm_num) (by norm_num)
            rcases le_total 0 (x / 2 ^ 1000) with s | s
            · rw [abs_of_nonneg s] at hc' lowb ⊢
              exact rnd_rel hf lowb hc'
            · rw [abs_of_nonpos s] at hc' lowb ⊢
              have e := rnd_rel hf lowb hc'
              rw [hf.odd _ hs] at e
              rw [← abs_neg, show -(f (x / 2 ^ 1000) - x / 2 ^ 1000) = -f (x / 2 ^ 1000) - -(x / 2 ^ 1000) by ring]
              exact e
        have e2 : f (x / 2 ^ 1000) * 2 ^ 1000 - x = (f (x / 2 ^ 1000) - x / 2 ^ 1000) * 2 ^ 1000 := by
          rw [sub_mul, div_mul_cancel₀ _ k0.ne']
        rw [e2, abs_mul, abs_of_pos k0]
        refine (mul_le_mul_of_nonneg_right e k0.le).trans (le_of_eq ?_)
        rw [abs_div, abs_of_pos k0, mul_assoc, div_mul_cancel₀ _ k0.ne']
      · rw [g3 x hb hb2, sub_self, abs_zero]
        exact mul_nonneg uu_pos.le (abs_nonneg x)

/-- `sbessely(1, 2000)` with exact library functions: NaN at the end. -/
example : ∃ rnd : ℝ → ℝ, IEEERound rnd ∧ ∃ out, FlX.sbessely rnd ⟨Real.cos, Real.sin, fun x => x ^ 2⟩ 1 (2000 : ℕ) = .ok out ∧
    out[1999]? = some .nan := by
  obtain ⟨rnd, hr⟩ := ieeeRound_exists
  have hl : BesLibOk ⟨Real.cos, Real.sin, fun x => x ^ 2⟩ 1 :=
    ⟨by simp only [sub_self, abs_zero]; positivity, by simp only [sub_self, abs_zero]; positivity, by simp only [sub_self, abs_zero]; positivity⟩
  obtain ⟨out, h1, h2⟩ := c120_overflows hr hl (N := 2000) (by norm_num) (by norm_num)
    (by rw [abs_one]; exact zpow_le_one_of_nonpos₀ (by norm_num) (by norm_num)) (by rw [abs_one])
  exact ⟨rnd, hr, out, h1, h2 1999 (by norm_num) (by norm_num)⟩

/-- `sbesselh1(1, 2000)`: the real part of the last value, which should be `j_1999(1)`, is NaN. -/
example : ∃ rnd : ℝ → ℝ, IEEERound rnd ∧ ∃ out, FlX.sbesselh1 rnd ⟨Real.cos, Real.sin, fun x => x ^ 2⟩ 1 (2000 : ℕ) = .ok out ∧
    ∃ p, out[1999]? = some p ∧ p.1 = .nan := by
  obtain ⟨rnd, hr⟩ := ieeeRound_exists
  have hl : BesLibOk ⟨Real.cos, Real.sin, fun x => x ^ 2⟩ 1 :=
    ⟨by simp only [sub_self, abs_zero]; positivity, by simp only [sub_self, abs_zero]; positivity, by simp only [sub_self, abs_zero]; positivity⟩
  have x1 : (2 : ℝ) ^ (-500 : ℤ) ≤ |1| := by rw [abs_one]; exact zpow_le_one_of_nonpos₀ (by norm_num) (by norm_num)
  obtain ⟨out, h1, h2⟩ := c120_overflows hr hl (N := 2000) (by norm_num) (by norm_num) x1 (by rw [abs_one])
  obtain ⟨jn, j1, j2, -⟩ := c102_small hr.toIsRounding hl (N := 2000)
    (by rw [abs_one]; exact zpow_le_one_of_nonpos₀ (by norm_num) (by norm_num)) (by norm_num) (by norm_num) (by norm_num)
  obtain ⟨yn, g1, g2, e1, e2, -, e4⟩ := c120_hankel hr (N := 2000) (by norm_num) (by norm_num) x1
    (by rw [abs_one]; exact one_le_zpow₀ (by norm_num) (by norm_num)) j1 j2
  rw [h1] at e1
  obtain rfl := Except.ok.inj e1
  obtain ⟨j, y, p, q, -, hy, hp, -, hn, -⟩ := e4 1999 (by norm_num)
  rw [h2 1999 (by norm_num) (by norm_num)] at hy
  obtain rfl := Option.some.inj hy
  exact ⟨rnd, hr, g1, e2, p, hp, (hn trivial).1⟩

end Verif.Props
