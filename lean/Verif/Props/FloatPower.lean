import Verif.FloatSum
import Verif.Props.FloatSym
import Verif.Props.Coefs2
import Mathlib.Analysis.SpecialFunctions.Exp
import Mathlib.Algebra.Order.Archimedean.Real.Basic
/-!
# Property C85: accuracy of `power`, `angular_power_spectrum` and `L2_coef` in double precision
-/
namespace Verif.Props
open Verif
variable {rnd : ℝ → ℝ}

/-- Half a unit in the last place, relative. -/
noncomputable def uu : ℝ := 2 ^ (-53 : ℤ)

theorem uu_pos : 0 < uu := by unfold uu; positivity
theorem uu_lt : uu < 1 / 8 := by
  unfold uu
  calc (2 : ℝ) ^ (-53 : ℤ) < 2 ^ (-3 : ℤ) := zpow_lt_zpow_right₀ (by norm_num) (by norm_num)
    _ = 1 / 8 := by norm_num

/-- The relative error of one rounding. -/
theorem rnd_rel (hr : IsRounding rnd) {x : ℝ} (h0 : (2 : ℝ) ^ (-1022 : ℤ) ≤ x) (h1 : x ≤ 2 ^ (1022 : ℤ)) : |rnd x - x| ≤ uu * x := by
  have hx : 0 < x := lt_of_lt_of_le (by positivity) h0
  obtain ⟨k, hk1, hk2⟩ := exists_mem_Ico_zpow hx (one_lt_two : (1 : ℝ) < 2)
  have k0 : -1022 ≤ k := by
    by_contra h
    have : (2 : ℝ) ^ (k + 1) ≤ 2 ^ (-1022 : ℤ) := zpow_le_zpow_right₀ (by norm_num) (by omega)
    linarith
  have k1 : k ≤ 1022 := by
    by_contra h
    have : (2 : ℝ) ^ (1022 : ℤ) < 2 ^ k := zpow_lt_zpow_right₀ (by norm_num) (by omega)
    linarith
  have hb : |x| ≤ 2 ^ 1023 := by
    rw [abs_of_pos hx]
    refine le_trans h1 ?_
    rw [← zpow_natCast]
    exact zpow_le_zpow_right₀ (by norm_num) (by norm_num)
  set q : ℝ := x / 2 ^ (k - 52) with hq
  have hp : (0 : ℝ) < 2 ^ (k - 52) := by positivity
  have q1 : (2 : ℝ) ^ (52 : ℤ) ≤ q := by
    rw [hq, le_div_iff₀ hp, ← zpow_add₀ (by norm_num)]
    rwa [show (52 : ℤ) + (k - 52) = k by ring]
  have q2 : q < (2 : ℝ) ^ (53 : ℤ) := by
    rw [hq, div_lt_iff₀ hp, ← zpow_add₀ (by norm_num)]
    rwa [show (53 : ℤ) + (k - 52) = k + 1 by ring]
  have hm := abs_sub_round q
  have hm2 : round q ≤ 2 ^ 53 := by
    have : (round q : ℝ) < 2 ^ 53 + 1 := by
      have := (abs_le.mp hm).1
      have e : (2 : ℝ) ^ (53 : ℤ) = 2 ^ 53 := by norm_cast
      rw [e] at q2
      linarith
    have : (round q) < 2 ^ 53 + 1 := by exact_mod_cast this
    omega
  have hm1 : 0 ≤ round q := by
    rw [round_eq]
    apply Int.floor_nonneg.mpr
    have : (0 : ℝ) < 2 ^ (52 : ℤ) := by positivity
    linarith
  have hd : IsDouble ((round q : ℝ) * 2 ^ (k - 52)) := by
    by_cases e : round q = 2 ^ 53
    · refine ⟨2 ^ 52, k - 51, by norm_num, by omega, by omega, ?_⟩
      rw [e, show k - 51 = (k - 52) + 1 by ring, zpow_add₀ (by norm_num)]
      push_cast
      ring
    · exact ⟨round q, k - 52, by rw [abs_of_nonneg hm1]; omega, by omega, by omega, rfl⟩
  have h := hr.nearest x hb _ hd
  have hxq : x = q * 2 ^ (k - 52) := by rw [hq]; field_simp
  rw [abs_sub_comm]
  refine le_trans h ?_
  calc |x - (round q : ℝ) * 2 ^ (k - 52)| = |q - round q| * 2 ^ (k - 52) := by
        rw [hxq, ← sub_mul, abs_mul, abs_of_pos hp]
    _ ≤ 1 / 2 * 2 ^ (k - 52) := mul_le_mul_of_nonneg_right hm hp.le
    _ = uu * 2 ^ k := by
        unfold uu
        rw [show k - 52 = k + (-52) by ring, zpow_add₀ (by norm_num), show (-53 : ℤ) = -52 - 1 by norm_num, zpow_sub₀ (by norm_num)]
        ring
    _ ≤ uu * x := mul_le_mul_of_nonneg_left hk1 uu_pos.le

/-- Rounding does not cross a double. -/
theorem rnd_ge_double (hr : IsRounding rnd) {x d : ℝ} (hx : |x| ≤ 2 ^ 1023) (hd : IsDouble d) (h : d ≤ x) : d ≤ rnd x := by
  have := hr.nearest x hx d hd
  by_contra hc
  rw [abs_of_nonneg (show 0 ≤ x - d by linarith), abs_of_pos (show 0 < x - rnd x by linarith)] at this
  linarith

/-- Zero, or large enough for relative error bounds. -/
def Sizable (x : ℝ) : Prop := x = 0 ∨ (2 : ℝ) ^ (-1010 : ℤ) ≤ x

theorem sizable_nonneg {x : ℝ} (h : Sizable x) : 0 ≤ x := by
  rcases h with rfl | h
  · exact le_rfl
  · exact le_trans (by positivity) h

theorem sizable_rnd (hr : IsRounding rnd) {x : ℝ} (h : Sizable x) (h1 : x ≤ 2 ^ (1022 : ℤ)) :
    Sizable (rnd x) ∧ (1 - uu) * x ≤ rnd x ∧ rnd x ≤ (1 + uu) * x := by
  rcases h with rfl | h
  · rw [rnd_zero hr]; simp [Sizable]
  · have hx : 0 ≤ x := le_trans (by positivity) h
    have hb : |x| ≤ 2 ^ 1023 := by
      rw [abs_of_nonneg hx]
      refine le_trans h1 ?_
      rw [← zpow_natCast]
      exact zpow_le_zpow_right₀ (by norm_num) (by norm_num)
    have h2 := rnd_rel hr (le_trans (zpow_le_zpow_right₀ (by norm_num) (by norm_num)) h) h1
    rw [abs_le] at h2
    refine ⟨Or.inr (rnd_ge_double hr hb (isDouble_pow _ (by norm_num) (by norm_num)) h), ?_, ?_⟩ <;> nlinarith [h2.1, h2.2]

/-- Any order of summation of non-negative numbers has a relative error of at most `(1 ± u)^(N-1)`. -/
theorem npSum_bound (hr : IsRounding rnd) {l : List ℝ} {s : ℝ} (h : NpSum rnd l s) :
    (∀ x ∈ l, Sizable x) → l.sum * (1 + uu) ^ l.length ≤ 2 ^ (1022 : ℤ) →
    1 ≤ l.length ∧ Sizable s ∧ (1 - uu) ^ (l.length - 1) * l.sum ≤ s ∧ s ≤ (1 + uu) ^ (l.length - 1) * l.sum := by
  have u0 := uu_pos
  have u1 := uu_lt
  induction h with
  | one x => intro h1 _; simpa using h1 x (by simp)
  | @add l l' s s' _ _ ih ih' =>
    intro h1 h2
    have n1 : 0 ≤ l.sum := List.sum_nonneg fun x hx => sizable_nonneg (h1 x (by simp [hx]))
    have n2 : 0 ≤ l'.sum := List.sum_nonneg fun x hx => sizable_nonneg (h1 x (by simp [hx]))
    have p1 : ∀ k : ℕ, (1 : ℝ) ≤ (1 + uu) ^ k := fun k => one_le_pow₀ (by linarith)
    have mono : ∀ a b : ℕ, a ≤ b → (1 + uu) ^ a ≤ (1 + uu) ^ b := fun a b hab => pow_le_pow_right₀ (by linarith) hab
    have anti : ∀ a b : ℕ, a ≤ b → (1 - uu) ^ b ≤ (1 - uu) ^ a := fun a b hab =>
      pow_le_pow_of_le_one (by linarith) (by linarith) hab
    rw [List.sum_append, List.length_append] at h2
    have b1 : l.sum * (1 + uu) ^ l.length ≤ 2 ^ (1022 : ℤ) := by
      refine le_trans ?_ h2
      exact mul_le_mul (by linarith) (mono _ _ (by omega)) (by positivity) (by linarith)
    have b2 : l'.sum * (1 + uu) ^ l'.length ≤ 2 ^ (1022 : ℤ) := by
      refine le_trans ?_ h2
      exact mul_le_mul (by linarith) (mono _ _ (by omega)) (by positivity) (by linarith)
    obtain ⟨a1, a2, a3, a4⟩ := ih (fun x hx => h1 x (by simp [hx])) b1
    obtain ⟨c1, c2, c3, c4⟩ := ih' (fun x hx => h1 x (by simp [hx])) b2
    have hs : Sizable (s + s') := by
      rcases a2 with rfl | a2
      · rw [zero_add]; exact c2
      · exact Or.inr (by linarith [sizable_nonneg c2])
    set N := l.length + l'.length with hN
    have e4 : s ≤ (1 + uu) ^ (N - 2) * l.sum := le_trans a4 (mul_le_mul_of_nonneg_right (mono _ _ (by omega)) n1)
    have e4' : s' ≤ (1 + uu) ^ (N - 2) * l'.sum := le_trans c4 (mul_le_mul_of_nonneg_right (mono _ _ (by omega)) n2)
    have e3 : (1 - uu) ^ (N - 2) * l.sum ≤ s := le_trans (mul_le_mul_of_nonneg_right (anti _ _ (by omega)) n1) a3
    have e3' : (1 - uu) ^ (N - 2) * l'.sum ≤ s' := le_trans (mul_le_mul_of_nonneg_right (anti _ _ (by omega)) n2) c3
    have hub : s + s' ≤ (1 + uu) ^ (N - 2) * (l.sum + l'.sum) := by linarith
    have hlb : (1 - uu) ^ (N - 2) * (l.sum + l'.sum) ≤ s + s' := by linarith
    obtain ⟨f1, f2, f3⟩ := sizable_rnd hr hs (le_trans hub (le_trans (by
      rw [mul_comm]; exact mul_le_mul_of_nonneg_left (mono _ _ (by omega)) (by linarith)) h2))
    rw [List.sum_append, List.length_append, ← hN]
    have e : N - 1 = (N - 2) + 1 := by omega
    refine ⟨by omega, f1, ?_, ?_⟩
    · rw [e, pow_succ]
      refine le_trans ?_ f2
      have := mul_le_mul_of_nonneg_left hlb (show 0 ≤ 1 - uu by linarith)
      linarith
    · rw [e, pow_succ]
      refine le_trans f3 ?_
      have := mul_le_mul_of_nonneg_left hub (show 0 ≤ 1 + uu by linarith)
      linarith
  | perm hp _ ih =>
    intro h1 h2
    rw [← hp.sum_eq, ← hp.length_eq] at *
    exact ih (fun x hx => h1 x (hp.mem_iff.mp hx)) h2

/-- The exact magnitude of a `complex128`. -/
noncomputable def fcAbs (z : FC rnd) : ℝ := Real.sqrt (z.re ^ 2 + z.im ^ 2)

/-- Zero, or of a magnitude between `2^-500` and `2^400`. -/
def InRange (z : FC rnd) : Prop := z = 0 ∨ ((2 : ℝ) ^ (-500 : ℤ) ≤ fcAbs z ∧ fcAbs z ≤ 2 ^ (400 : ℤ))

theorem fcAbs_zero : fcAbs (0 : FC rnd) = 0 := by unfold fcAbs; simp [fc_zero_re, fc_zero_im]

theorem pow_upper {K : ℕ} (hK : (K : ℝ) * uu ≤ 1 / 2) : (1 + uu) ^ K ≤ 1 + 2 * (K * uu) := by
  have u0 := uu_pos
  have h1 : (1 + uu) ^ K ≤ Real.exp (K * uu) := by
    rw [Real.exp_nat_mul]
    exact pow_le_pow_left₀ (by linarith) (by linarith [Real.add_one_le_exp uu]) K
  have h2 : 1 - K * uu ≤ Real.exp (-(K * uu)) := Real.one_sub_le_exp_neg _
  have hx : 0 ≤ (K : ℝ) * uu := by positivity
  have h3 : Real.exp (K * uu) * (1 - K * uu) ≤ 1 := by
    calc Real.exp (K * uu) * (1 - K * uu) ≤ Real.exp (K * uu) * Real.exp (-(K * uu)) :=
          mul_le_mul_of_nonneg_left h2 (Real.exp_pos _).le
      _ = 1 := by rw [← Real.exp_add]; simp
  have h4 : Real.exp (K * uu) ≤ 1 + 2 * (K * uu) := by
    by_contra hc
    push Not at hc
    have : (1 + 2 * (K * uu)) * (1 - K * uu) < Real.exp (K * uu) * (1 - K * uu) :=
      mul_lt_mul_of_pos_right hc (by linarith)
    nlinarith
  linarith

theorem pow_lower (K : ℕ) : 1 - K * uu ≤ (1 - uu) ^ K := by
  have := one_add_mul_le_pow (a := -uu) (by linarith [uu_lt]) K
  rw [← sub_eq_add_neg] at this
  linarith

theorem two_uu : (2 : ℝ) ^ (-52 : ℤ) = 2 * uu := by
  unfold uu
  rw [show (-52 : ℤ) = 1 + -53 by norm_num, zpow_add₀ (by norm_num)]
  norm_num

theorem sqAbs_bound (hr : IsRounding rnd) {h : FC rnd → ℝ} (hh : IsHypot rnd h) {z : FC rnd} (hz : InRange z) :
    Sizable (sqAbs rnd h z) ∧ (1 - uu) ^ 7 * fcAbs z ^ 2 ≤ sqAbs rnd h z ∧ sqAbs rnd h z ≤ (1 + uu) ^ 7 * fcAbs z ^ 2 := by
  have u0 := uu_pos
  have u1 := uu_lt
  rcases hz with rfl | ⟨h1, h2⟩
  · unfold sqAbs
    rw [hh.zero, mul_zero, rnd_zero hr, fcAbs_zero]
    simp [Sizable]
  · have hc := hh.close z h1 (le_trans h2 (zpow_le_zpow_right₀ (by norm_num) (by norm_num)))
    change |h z - fcAbs z| ≤ _ * fcAbs z at hc
    rw [two_uu] at hc
    set A := fcAbs z with hA
    set H := h z with hH
    have hA0 : 0 < A := lt_of_lt_of_le (by positivity) h1
    rw [abs_le] at hc
    have l1 : (1 - 2 * uu) * A ≤ H := by linarith [hc.1]
    have l2 : H ≤ (1 + 2 * uu) * A := by linarith [hc.2]
    have hl0 : 0 ≤ (1 - 2 * uu) * A := mul_nonneg (by linarith) hA0.le
    have q1 : (1 - 2 * uu) ^ 2 * A ^ 2 ≤ H * H := by
      calc (1 - 2 * uu) ^ 2 * A ^ 2 = ((1 - 2 * uu) * A) * ((1 - 2 * uu) * A) := by ring
        _ ≤ H * H := mul_le_mul l1 l1 hl0 (le_trans hl0 l1)
    have q2 : H * H ≤ (1 + 2 * uu) ^ 2 * A ^ 2 := by
      calc H * H ≤ ((1 + 2 * uu) * A) * ((1 + 2 * uu) * A) := mul_le_mul l2 l2 (le_trans hl0 l1) (le_trans (le_trans hl0 l1) l2)
        _ = _ := by ring
    have a1 : (2 : ℝ) ^ (-1000 : ℤ) ≤ A ^ 2 := by
      calc (2 : ℝ) ^ (-1000 : ℤ) = ((2 : ℝ) ^ (-500 : ℤ)) ^ 2 := by rw [← zpow_natCast, ← zpow_mul]; norm_num
        _ ≤ A ^ 2 := pow_le_pow_left₀ (by positivity) h1 2
    have a2 : A ^ 2 ≤ (2 : ℝ) ^ (800 : ℤ) := by
      calc A ^ 2 ≤ ((2 : ℝ) ^ (400 : ℤ)) ^ 2 := pow_le_pow_left₀ hA0.le h2 2
        _ = (2 : ℝ) ^ (800 : ℤ) := by rw [← zpow_natCast, ← zpow_mul]; norm_num
    have hs : Sizable (H * H) := by
      right
      refine le_trans ?_ q1
      have : (2 : ℝ) ^ (-1010 : ℤ) ≤ 2 ^ (-1 : ℤ) * 2 ^ (-1000 : ℤ) := by
        rw [← zpow_add₀ (by norm_num)]
        exact zpow_le_zpow_right₀ (by norm_num) (by norm_num)
      refine le_trans this ?_
      refine mul_le_mul ?_ a1 (by positivity) (by positivity)
      norm_num
      nlinarith
    have hu : H * H ≤ 2 ^ (1022 : ℤ) := by
      refine le_trans q2 ?_
      have : (2 : ℝ) ^ (2 : ℤ) * 2 ^ (800 : ℤ) ≤ 2 ^ (1022 : ℤ) := by
        rw [← zpow_add₀ (by norm_num)]
        exact zpow_le_zpow_right₀ (by norm_num) (by norm_num)
      refine le_trans ?_ this
      refine mul_le_mul ?_ a2 (by positivity) (by positivity)
      norm_num
      nlinarith
    obtain ⟨f1, f2, f3⟩ := sizable_rnd hr hs hu
    have hA2 : 0 ≤ A ^ 2 := by positivity
    refine ⟨f1, ?_, ?_⟩
    · refine le_trans ?_ f2
      have e1 : (1 - uu) ^ 3 ≤ 1 - 2 * uu := by nlinarith [pow_pos u0 3]
      have e2 : (1 - uu) ^ 6 ≤ (1 - 2 * uu) ^ 2 := by
        calc (1 - uu) ^ 6 = ((1 - uu) ^ 3) ^ 2 := by ring
          _ ≤ _ := pow_le_pow_left₀ (pow_nonneg (by linarith) 3) e1 2
      calc (1 - uu) ^ 7 * A ^ 2 = (1 - uu) * ((1 - uu) ^ 6 * A ^ 2) := by ring
        _ ≤ (1 - uu) * (H * H) := mul_le_mul_of_nonneg_left (le_trans (mul_le_mul_of_nonneg_right e2 hA2) q1) (by linarith)
    · refine le_trans f3 ?_
      have e1 : 1 + 2 * uu ≤ (1 + uu) ^ 3 := by nlinarith [pow_pos u0 3, pow_pos u0 2]
      have e2 : (1 + 2 * uu) ^ 2 ≤ (1 + uu) ^ 6 := by
        calc (1 + 2 * uu) ^ 2 ≤ ((1 + uu) ^ 3) ^ 2 := pow_le_pow_left₀ (by linarith) e1 2
          _ = _ := by ring
      calc (1 + uu) * (H * H) ≤ (1 + uu) * ((1 + uu) ^ 6 * A ^ 2) :=
            mul_le_mul_of_nonneg_left (le_trans q2 (mul_le_mul_of_nonneg_right e2 hA2)) (by linarith)
        _ = (1 + uu) ^ 7 * A ^ 2 := by ring

/-- The sum of squared magnitudes of a list, computed in doubles in any order. -/
theorem sum_sq_bound (hr : IsRounding rnd) {h : FC rnd → ℝ} (hh : IsHypot rnd h) (l : List (FC rnd)) (hl : ∀ z ∈ l, InRange z)
    (hN : l.length ≤ 2 ^ 50) {s : ℝ} (hs : NpSum rnd (l.map (sqAbs rnd h)) s) :
    0 ≤ s ∧ Sizable s ∧ s ≤ 2 ^ (1022 : ℤ) ∧
    |s - (l.map fun z => fcAbs z ^ 2).sum| ≤ (l.length + 6) * 2 ^ (-52 : ℤ) * (l.map fun z => fcAbs z ^ 2).sum := by
  have u0 := uu_pos
  have u1 := uu_lt
  set S := (l.map fun z => fcAbs z ^ 2).sum with hS
  have hS0 : 0 ≤ S := List.sum_nonneg (by
    intro x hx
    obtain ⟨z, _, rfl⟩ := List.mem_map.mp hx
    positivity)
  have hsum : (1 - uu) ^ 7 * S ≤ (l.map (sqAbs rnd h)).sum ∧ (l.map (sqAbs rnd h)).sum ≤ (1 + uu) ^ 7 * S := by
    rw [hS, ← List.sum_map_mul_left, ← List.sum_map_mul_left]
    exact ⟨List.sum_le_sum fun z hz => (sqAbs_bound hr hh (hl z hz)).2.1, List.sum_le_sum fun z hz => (sqAbs_bound hr hh (hl z hz)).2.2⟩
  have hSb : S ≤ 2 ^ (850 : ℤ) := by
    have : S ≤ (l.map fun _ => (2 : ℝ) ^ (800 : ℤ)).sum := by
      rw [hS]
      refine List.sum_le_sum fun z hz => ?_
      rcases hl z hz with rfl | ⟨_, h2⟩
      · rw [fcAbs_zero]; simp
      · calc fcAbs z ^ 2 ≤ ((2 : ℝ) ^ (400 : ℤ)) ^ 2 := pow_le_pow_left₀ (Real.sqrt_nonneg _) h2 2
          _ = (2 : ℝ) ^ (800 : ℤ) := by rw [← zpow_natCast, ← zpow_mul]; norm_num
    refine le_trans this ?_
    rw [List.map_const', List.sum_replicate, nsmul_eq_mul]
    calc (l.length : ℝ) * 2 ^ (800 : ℤ) ≤ 2 ^ (50 : ℤ) * 2 ^ (800 : ℤ) := by
          refine mul_le_mul_of_nonneg_right ?_ (by positivity)
          have : ((l.length : ℕ) : ℝ) ≤ ((2 ^ 50 : ℕ) : ℝ) := by exact_mod_cast hN
          refine le_trans this (le_of_eq (by norm_num))
      _ = 2 ^ (850 : ℤ) := by rw [← zpow_add₀ (by norm_num)]; norm_num
  have hNu : ((l.length + 7 : ℕ) : ℝ) * uu ≤ 1 / 4 := by
    have h1 : ((l.length + 7 : ℕ) : ℝ) ≤ 2 ^ (51 : ℤ) := by
      have : ((l.length + 7 : ℕ) : ℝ) ≤ ((2 ^ 51 : ℕ) : ℝ) := by
        have : l.length + 7 ≤ 2 ^ 51 := by omega
        exact_mod_cast this
      refine le_trans this (le_of_eq (by norm_num))
    calc ((l.length + 7 : ℕ) : ℝ) * uu ≤ 2 ^ (51 : ℤ) * uu := mul_le_mul_of_nonneg_right h1 u0.le
      _ = 1 / 4 := by unfold uu; rw [← zpow_add₀ (by norm_num)]; norm_num
  have hp2 : (1 + uu) ^ (l.length + 7) ≤ 2 := by
    have := pow_upper (K := l.length + 7) (by linarith)
    linarith
  have hb : (l.map (sqAbs rnd h)).sum * (1 + uu) ^ (l.map (sqAbs rnd h)).length ≤ 2 ^ (1022 : ℤ) := by
    rw [List.length_map]
    calc (l.map (sqAbs rnd h)).sum * (1 + uu) ^ l.length ≤ (1 + uu) ^ 7 * S * (1 + uu) ^ l.length :=
          mul_le_mul_of_nonneg_right hsum.2 (by positivity)
      _ = (1 + uu) ^ (l.length + 7) * S := by rw [pow_add]; ring
      _ ≤ 2 * 2 ^ (850 : ℤ) := mul_le_mul hp2 hSb hS0 (by norm_num)
      _ ≤ 2 ^ (1022 : ℤ) := by
          rw [← zpow_one_add₀ (by norm_num)]
          exact zpow_le_zpow_right₀ (by norm_num) (by norm_num)
  obtain ⟨n1, hsz, k1, k2⟩ := npSum_bound hr hs (by
    intro x hx
    obtain ⟨z, hz, rfl⟩ := List.mem_map.mp hx
    exact (sqAbs_bound hr hh (hl z hz)).1) hb
  rw [List.length_map] at n1 k1 k2
  have g1 : (1 - uu) ^ (l.length + 6) * S ≤ s := by
    refine le_trans ?_ k1
    calc (1 - uu) ^ (l.length + 6) * S = (1 - uu) ^ (l.length - 1) * ((1 - uu) ^ 7 * S) := by
          rw [← mul_assoc, ← pow_add]; congr 2; omega
      _ ≤ _ := mul_le_mul_of_nonneg_left hsum.1 (pow_nonneg (by linarith) _)
  have g2 : s ≤ (1 + uu) ^ (l.length + 6) * S := by
    refine le_trans k2 ?_
    calc (1 + uu) ^ (l.length - 1) * (l.map (sqAbs rnd h)).sum ≤ (1 + uu) ^ (l.length - 1) * ((1 + uu) ^ 7 * S) :=
          mul_le_mul_of_nonneg_left hsum.2 (by positivity)
      _ = (1 + uu) ^ (l.length + 6) * S := by rw [← mul_assoc, ← pow_add]; congr 2; omega
  have hK : ((l.length + 6 : ℕ) : ℝ) * uu ≤ 1 / 2 := by
    push_cast at hNu ⊢
    nlinarith
  have w1 := pow_upper hK
  have w2 := pow_lower (l.length + 6)
  refine ⟨sizable_nonneg hsz, hsz, ?_, ?_⟩
  · refine le_trans g2 ?_
    calc (1 + uu) ^ (l.length + 6) * S ≤ 2 * 2 ^ (850 : ℤ) :=
          mul_le_mul (le_trans (pow_le_pow_right₀ (by linarith) (by omega)) hp2) hSb hS0 (by norm_num)
      _ ≤ 2 ^ (1022 : ℤ) := by
          rw [← zpow_one_add₀ (by norm_num)]
          exact zpow_le_zpow_right₀ (by norm_num) (by norm_num)
  · rw [two_uu, abs_le]
    push_cast at w1 w2
    have e1 : (1 - ((l.length : ℝ) + 6) * uu) * S ≤ s := le_trans (mul_le_mul_of_nonneg_right w2 hS0) g1
    have e2 : s ≤ (1 + 2 * (((l.length : ℝ) + 6) * uu)) * S := le_trans g2 (mul_le_mul_of_nonneg_right w1 hS0)
    have e3 : 0 ≤ ((l.length : ℝ) + 6) * uu * S := by positivity
    constructor <;> nlinarith

/-- C85, `power()`: for a set of at most `2^50` values, each 0 or of a magnitude between `2^-500` and `2^400`, the double that `power()` returns is
off by at most `(N + 6) 2^-52` relative, in whatever order NumPy adds. -/
theorem c85_power (hr : IsRounding rnd) (h : FC rnd → ℝ) (hh : IsHypot rnd h) (c : ScalarCoefs (FC rnd))
    (hl : ∀ z ∈ c.vec, InRange z) (hN : c.vec.length ≤ 2 ^ 50) (s : ℝ) (hs : FloatPower rnd h c s) :
    |s - c.power fcAbs| ≤ (c.vec.length + 6) * 2 ^ (-52 : ℤ) * c.power fcAbs :=
  (sum_sq_bound hr hh c.vec hl hN hs).2.2.2

/-- C85, `L2_coef`: the same with one more rounding. -/
theorem c85_l2 (hr : IsRounding rnd) (h : FC rnd → ℝ) (hh : IsHypot rnd h) (c : ScalarCoefs (FC rnd))
    (hl : ∀ z ∈ c.vec, InRange z) (hN : c.vec.length ≤ 2 ^ 50) (s : ℝ) (hs : FloatL2 rnd h c s) :
    |s - Real.sqrt (c.power fcAbs)| ≤ (c.vec.length + 8) * 2 ^ (-52 : ℤ) * Real.sqrt (c.power fcAbs) := by
  obtain ⟨p, hp, rfl⟩ := hs
  obtain ⟨p0, psz, pb, hd⟩ := sum_sq_bound hr hh c.vec hl hN hp
  change |p - c.power fcAbs| ≤ (c.vec.length + 6) * 2 ^ (-52 : ℤ) * c.power fcAbs at hd
  have hS0 : 0 ≤ c.power fcAbs := List.sum_nonneg (by
    intro x hx
    obtain ⟨z, _, rfl⟩ := List.mem_map.mp hx
    positivity)
  set S := c.power fcAbs with hS
  set K : ℝ := (c.vec.length + 6) * 2 ^ (-52 : ℤ) with hKd
  have u0 := uu_pos
  have hK0 : 0 ≤ K := by positivity
  have hK1 : K ≤ 1 := by
    have : (c.vec.length : ℝ) ≤ 2 ^ 50 := by exact_mod_cast hN
    rw [hKd, zpow_neg, ← div_eq_mul_inv, div_le_one (by positivity)]
    have e : (2 : ℝ) ^ (52 : ℤ) = 4 * 2 ^ 50 := by norm_num
    rw [e]
    have : (6 : ℝ) ≤ 2 ^ 50 := by norm_num
    linarith
  -- the square root of the sum
  have h1 : |Real.sqrt p - Real.sqrt S| ≤ K * Real.sqrt S := by
    rcases hS0.eq_or_lt with e | e
    · rw [← e] at hd ⊢
      rw [mul_zero, sub_zero] at hd
      rw [abs_nonpos_iff.mp hd]; simp
    · have hsq : 0 < Real.sqrt S := Real.sqrt_pos.mpr e
      have e1 : (Real.sqrt p - Real.sqrt S) * (Real.sqrt p + Real.sqrt S) = p - S := by
        have a := Real.mul_self_sqrt p0
        have b := Real.mul_self_sqrt hS0
        nlinarith
      have e2 : |Real.sqrt p - Real.sqrt S| * (Real.sqrt p + Real.sqrt S) ≤ K * S := by
        rw [← abs_of_nonneg (add_nonneg (Real.sqrt_nonneg p) (Real.sqrt_nonneg S)), ← abs_mul, e1]; exact hd
      have e3 : |Real.sqrt p - Real.sqrt S| * Real.sqrt S ≤ K * Real.sqrt S * Real.sqrt S := by
        rw [mul_assoc, Real.mul_self_sqrt hS0]
        refine le_trans ?_ e2
        exact mul_le_mul_of_nonneg_left (by linarith [Real.sqrt_nonneg p]) (abs_nonneg _)
      exact le_of_mul_le_mul_right e3 hsq
  have hsz : Sizable (Real.sqrt p) := by
    rcases psz with e | e
    · left; rw [e, Real.sqrt_zero]
    · right
      apply Real.le_sqrt_of_sq_le
      refine le_trans ?_ e
      rw [← zpow_natCast, ← zpow_mul]
      exact zpow_le_zpow_right₀ (by norm_num) (by norm_num)
  have hb : Real.sqrt p ≤ 2 ^ (1022 : ℤ) := by
    apply Real.sqrt_le_iff.mpr
    refine ⟨by positivity, le_trans pb ?_⟩
    rw [← zpow_natCast, ← zpow_mul]
    exact zpow_le_zpow_right₀ (by norm_num) (by norm_num)
  obtain ⟨_, r1, r2⟩ := sizable_rnd hr hsz hb
  have h2 : |rnd (Real.sqrt p) - Real.sqrt p| ≤ uu * Real.sqrt p := by
    rw [abs_le]; constructor <;> linarith
  have h3 : Real.sqrt p ≤ 2 * Real.sqrt S := by
    have := (abs_le.mp h1).2
    have : K * Real.sqrt S ≤ 1 * Real.sqrt S := mul_le_mul_of_nonneg_right hK1 (Real.sqrt_nonneg _)
    linarith
  have h4 : |rnd (Real.sqrt p) - Real.sqrt S| ≤ uu * Real.sqrt p + K * Real.sqrt S := by
    calc |rnd (Real.sqrt p) - Real.sqrt S| = |(rnd (Real.sqrt p) - Real.sqrt p) + (Real.sqrt p - Real.sqrt S)| := by ring_nf
      _ ≤ _ := le_trans (abs_add_le _ _) (add_le_add h2 h1)
  refine le_trans h4 ?_
  have h5 : uu * Real.sqrt p ≤ uu * (2 * Real.sqrt S) := mul_le_mul_of_nonneg_left h3 u0.le
  have h6 : (2 : ℝ) ^ (-52 : ℤ) = 2 * uu := two_uu
  have : 0 ≤ uu * Real.sqrt S := mul_nonneg u0.le (Real.sqrt_nonneg _)
  rw [hKd, h6]
  nlinarith

/-- C85, `angular_power_spectrum()`: entry `n` is off from the exact sum of `|c[n,m]|²` by at most `(2 min(n, mmax) + 7) 2^-52` relative. -/
theorem c85_spectrum (hr : IsRounding rnd) (h : FC rnd → ℝ) (hh : IsHypot rnd h) (c : ScalarCoefs (FC rnd)) (hc : c.WellFormed)
    (hl : ∀ z ∈ c.vec, InRange z) (hN : c.vec.length ≤ 2 ^ 50) (s : List ℝ) (hs : FloatSpectrum rnd h c s) :
    (s.length : ℤ) = c.nmax + 1 ∧ ∀ n (hn : n < s.length), ∀ E : ℝ,
      E = ∑ m ∈ Finset.Icc (-(min (n : Int) c.mmax)) (min (n : Int) c.mmax), ((readMap c n m).elim 0 (fun x => fcAbs x ^ 2)) →
      |s[n] - E| ≤ (2 * (min (n : ℤ) c.mmax : ℤ) + 7 : ℝ) * 2 ^ (-52 : ℤ) * E := by
  obtain ⟨lst, e, hlen, hk⟩ := hs
  obtain ⟨lst', e', hl', hk'⟩ := ScalarCoefs.reshapeM_eq hc.wf
  rw [e] at e'; cases e'
  refine ⟨by omega, fun n hn E hE => ?_⟩
  have hn' : n < lst.length := by omega
  have hw := hc.wf
  have hm0 := hw.m0
  have hmn := hw.mn
  have hnn : 0 ≤ (n : ℤ) ∧ (n : ℤ) ≤ c.nmax := by omega
  have hrow := hk' n hn'
  obtain ⟨ys, e1, hlen1, hk1⟩ := mapM'_spec (pyRange (-(min (n : ℤ) c.mmax)) (min (n : ℤ) c.mmax + 1)) (fun m => c.getNM n m) (by
    intro m hm
    rw [mem_pyRange] at hm
    exact ⟨_, ScalarCoefs.getNM_eq hw (by rw [isMode_iff]; omega)⟩)
  have hE' : E = (lst[n].map fun z => fcAbs z ^ 2).sum := by
    rw [ScalarCoefs.row_sum hw hnn (fun z => fcAbs z ^ 2) hrow, hE]
    exact Finset.sum_congr rfl fun m _ => by rw [readMap_eq hw]
  have hsum := hk n hn hn'
  rw [e1] at hrow
  have ey : ys = lst[n] := by injection hrow
  rw [← ey] at hsum hE'
  have hl1 : (ys.length : ℤ) = 2 * min (n : ℤ) c.mmax + 1 := by
    rw [hlen1, length_pyRange]; omega
  have hmem : ∀ z ∈ ys, InRange z := by
    intro z hz
    obtain ⟨k, hk, rfl⟩ := List.mem_iff_getElem.mp hz
    have hk2 : k < (pyRange (-(min (n : ℤ) c.mmax)) (min (n : ℤ) c.mmax + 1)).length := by omega
    have hm : (pyRange (-(min (n : ℤ) c.mmax)) (min (n : ℤ) c.mmax + 1))[k] ∈ pyRange (-(min (n : ℤ) c.mmax)) (min (n : ℤ) c.mmax + 1) :=
      List.getElem_mem _
    rw [mem_pyRange] at hm
    have g := hk1 k hk2 hk
    rw [ScalarCoefs.getNM_eq hw (by rw [isMode_iff]; omega)] at g
    injection g with g
    rw [← g]
    exact hl _ (List.getElem_mem _)
  have hshort : ys.length ≤ 2 ^ 50 := by
    have a : (ys.length : ℤ) ≤ c.vec.length := by
      rw [hw.len, hl1]
      unfold ncFormula
      have : min (n : ℤ) c.mmax ≤ c.mmax := min_le_right _ _
      nlinarith [mul_nonneg hm0 (sub_nonneg.mpr hmn), mul_nonneg hm0 hm0]
    omega
  have := (sum_sq_bound hr hh ys hmem hshort hsum).2.2.2
  rw [hE']
  have e2 : (2 * (min (n : ℤ) c.mmax : ℤ) + 7 : ℝ) = (ys.length : ℝ) + 6 := by
    have : ((ys.length : ℤ) : ℝ) = ((2 * min (n : ℤ) c.mmax + 1 : ℤ) : ℝ) := by rw [hl1]
    push_cast at this ⊢
    rw [this]; ring
  rw [e2]
  exact this

/-- Not vacuous: a rounding, an exact `hypot`, a set with values in range and a summation order exist. -/
example : ∃ (rnd : ℝ → ℝ) (_ : IsRounding rnd) (h : FC rnd → ℝ) (_ : IsHypot rnd h) (c : ScalarCoefs (FC rnd)) (s : ℝ),
    c.WellFormed ∧ c.vec.length = 4 ∧ (∀ z ∈ c.vec, InRange z) ∧ (∃ z ∈ c.vec, z ≠ 0) ∧ FloatPower rnd h c s := by
  obtain ⟨rnd, hr⟩ := isRounding_exists
  let z : FC rnd := ⟨1, 0⟩
  have hz : Real.sqrt (z.re ^ 2 + z.im ^ 2) = 1 := by simp [z]
  let q := sqAbs rnd fcAbs
  refine ⟨rnd, hr, fcAbs, ⟨fcAbs_zero, fun w _ _ => by unfold fcAbs; simp⟩, ⟨[0, z, z, 0], 1, 1⟩,
    rnd (rnd (q 0 + q z) + rnd (q z + q 0)), ?_, rfl, ?_, ?_, ?_⟩
  · exact ScalarCoefs.wf_iff.mp ⟨by norm_num, by norm_num, by simp [ncFormula]⟩
  · intro w hw
    have : w = 0 ∨ w = z := by
      have : w = 0 ∨ w = z ∨ w = 0 := by simpa using hw
      tauto
    rcases this with rfl | rfl
    · exact Or.inl rfl
    · right
      unfold fcAbs; rw [hz]
      exact ⟨zpow_le_one_of_nonpos₀ (by norm_num) (by norm_num), one_le_zpow₀ (by norm_num) (by norm_num)⟩
  · exact ⟨z, by simp, fun e => one_ne_zero (congrArg FC.re e)⟩
  · exact NpSum.add (l := [_, _]) (NpSum.add (l := [_]) (NpSum.one _) (NpSum.one _)) (NpSum.add (l := [_]) (NpSum.one _) (NpSum.one _))

end Verif.Props
