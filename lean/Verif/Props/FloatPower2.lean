import Verif.Props.FloatPower
/-!
# C135 without the lower bound on the values: sums of squares in doubles with gradual underflow
-/
namespace Verif

/-- C's `hypot` also below the range of `IsHypot`: a small argument has a small, non-negative result (`np.abs`, spherepy.py 292, 311, 2187). -/
structure IsHypotAll (rnd : ℝ → ℝ) (h : FC rnd → ℝ) : Prop extends IsHypot rnd h where
  small : ∀ z : FC rnd, Real.sqrt (z.re ^ 2 + z.im ^ 2) ≤ (2 : ℝ) ^ (-500 : ℤ) → 0 ≤ h z ∧ h z ≤ 2 ^ (-499 : ℤ)

end Verif

namespace Verif.Props
open Verif Finset

variable {rnd : ℝ → ℝ}

namespace PW

/-- Anything below this may be lost in one rounding. -/
noncomputable def eta : ℝ := (2 : ℝ) ^ (-1022 : ℤ)

theorem eta_pos : 0 < eta := by unfold eta; positivity

theorem big_le {x : ℝ} (h0 : 0 ≤ x) (h1 : x ≤ 2 ^ (1022 : ℤ)) : |x| ≤ 2 ^ 1023 := by
  rw [abs_of_nonneg h0]
  refine le_trans h1 ?_
  rw [← zpow_natCast]
  exact zpow_le_zpow_right₀ (by norm_num) (by norm_num)

theorem rnd_any (hr : IsRounding rnd) {x : ℝ} (h0 : 0 ≤ x) (h1 : x ≤ 2 ^ (1022 : ℤ)) :
    0 ≤ rnd x ∧ (1 - uu) * x - eta ≤ rnd x ∧ rnd x ≤ (1 + uu) * x + eta := by
  have u0 := uu_pos
  have e0 := eta_pos
  have z := rnd_zero hr
  have d0 : IsDouble 0 := by
    rw [← z]
    exact hr.double 0 (by rw [abs_zero]; positivity)
  refine ⟨rnd_ge_double hr (big_le h0 h1) d0 h0, ?_⟩
  rcases le_or_gt eta x with h | h
  · have := abs_le.mp (rnd_rel hr h h1)
    constructor <;> nlinarith [this.1, this.2]
  · have q := hr.nearest x (big_le h0 h1) 0 d0
    rw [sub_zero, abs_of_nonneg h0] at q
    have := abs_le.mp q
    have : 0 ≤ uu * x := by positivity
    constructor <;> nlinarith

theorem npSum_any (hr : IsRounding rnd) {l : List ℝ} {s : ℝ} (h : NpSum rnd l s) :
    (∀ x ∈ l, 0 ≤ x) → (l.sum + l.length * eta) * (1 + uu) ^ l.length ≤ 2 ^ (1022 : ℤ) →
    1 ≤ l.length ∧ 0 ≤ s ∧ (1 - uu) ^ (l.length - 1) * l.sum - (l.length - 1 : ℝ) * eta ≤ s ∧ s + eta ≤ (1 + uu) ^ (l.length - 1) * (l.sum + l.length * eta) := by
  have u0 := uu_pos
  have u1 := uu_lt
  have e0 := eta_pos
  induction h with
  | one x => intro h1 _; simpa using h1 x (by simp)
  | @add l l' s s' _ _ ih ih' =>
    intro h1 h2
    have n1 : 0 ≤ l.sum := List.sum_nonneg fun x hx => (h1 x (by simp [hx]))
    have n2 : 0 ≤ l'.sum := List.sum_nonneg fun x hx => (h1 x (by simp [hx]))
    have mono : ∀ a b : ℕ, a ≤ b → (1 + uu) ^ a ≤ (1 + uu) ^ b := fun a b hab => pow_le_pow_right₀ (by linarith) hab
    have anti : ∀ a b : ℕ, a ≤ b → (1 - uu) ^ b ≤ (1 - uu) ^ a := fun a b hab =>
      pow_le_pow_of_le_one (by linarith) (by linarith) hab
    rw [List.sum_append, List.length_append] at h2
    push_cast at h2
    have k1 : 0 ≤ (l.length : ℝ) * eta := by positivity
    have k2 : 0 ≤ (l'.length : ℝ) * eta := by positivity
    have b1 : (l.sum + l.length * eta) * (1 + uu) ^ l.length ≤ 2 ^ (1022 : ℤ) := by
      refine le_trans ?_ h2
      exact mul_le_mul (by linarith) (mono _ _ (by omega)) (by positivity) (by linarith)
    have b2 : (l'.sum + l'.length * eta) * (1 + uu) ^ l'.length ≤ 2 ^ (1022 : ℤ) := by
      refine le_trans ?_ h2
      exact mul_le_mul (by linarith) (mono _ _ (by omega)) (by positivity) (by linarith)
    obtain ⟨a1, a2, a3, a4⟩ := ih (fun x hx => h1 x (by simp [hx])) b1
    obtain ⟨c1, c2, c3, c4⟩ := ih' (fun x hx => h1 x (by simp [hx])) b2
    have e4 := le_trans a4 (mul_le_mul_of_nonneg_right (mono _ (l.length + l'.length - 2) (by omega)) (by linarith))
    have e4' := le_trans c4 (mul_le_mul_of_nonneg_right (mono _ (l.length + l'.length - 2) (by omega)) (by linarith))
    have e3 := le_trans (sub_le_sub_right (mul_le_mul_of_nonneg_right (anti _ (l.length + l'.length - 2) (by omega)) n1) _) a3
    have e3' := le_trans (sub_le_sub_right (mul_le_mul_of_nonneg_right (anti _ (l.length + l'.length - 2) (by omega)) n2) _) c3
    rw [List.sum_append, List.length_append]
    have e : l.length + l'.length - 1 = (l.length + l'.length - 2) + 1 := by omega
    rw [e, pow_succ, pow_succ]
    push_cast
    have hP := mono (l.length + l'.length - 2) (l.length + l'.length) (by omega)
    have P0 : 0 ≤ (1 + uu) ^ (l.length + l'.length - 2) := by positivity
    generalize (1 + uu) ^ (l.length + l'.length - 2) = P at *
    generalize (1 - uu) ^ (l.length + l'.length - 2) = Q at *
    have hub : s + s' ≤ 2 ^ (1022 : ℤ) := by
      have := mul_le_mul_of_nonneg_left hP (show 0 ≤ l.sum + l'.sum + (l.length + l'.length) * eta by linarith)
      linarith
    obtain ⟨f1, f2, f3⟩ := rnd_any hr (add_nonneg a2 c2) hub
    have l1 : (1 : ℝ) ≤ l.length := by exact_mod_cast a1
    have l2 : (1 : ℝ) ≤ l'.length := by exact_mod_cast c1
    refine ⟨by omega, f1, ?_, ?_⟩
    · have q := mul_le_mul_of_nonneg_left (add_le_add e3 e3') (show 0 ≤ 1 - uu by linarith)
      have r : 0 ≤ uu * ((l.length + l'.length - 2 : ℝ) * eta) := mul_nonneg u0.le (mul_nonneg (by linarith) e0.le)
      linarith
    · have q := mul_le_mul_of_nonneg_left (add_le_add e4 e4') (show 0 ≤ 1 + uu by linarith)
      have r : 0 ≤ uu * eta := by positivity
      linarith
  | perm hp _ ih =>
    intro h1 h2
    rw [← hp.sum_eq, ← hp.length_eq] at *
    exact ih (fun x hx => h1 x (hp.mem_iff.mp hx)) h2

theorem sqAbs_any (hr : IsRounding rnd) {h : FC rnd → ℝ} (hh : IsHypotAll rnd h) {z : FC rnd} (hz : fcAbs z ≤ 2 ^ (400 : ℤ)) :
    0 ≤ sqAbs rnd h z ∧ (1 - uu) ^ 7 * fcAbs z ^ 2 - 2 ^ (-997 : ℤ) ≤ sqAbs rnd h z ∧ sqAbs rnd h z ≤ (1 + uu) ^ 7 * fcAbs z ^ 2 + 2 ^ (-997 : ℤ) := by
  have u0 := uu_pos
  have u1 := uu_lt
  have t0 : (0 : ℝ) < 2 ^ (-997 : ℤ) := by positivity
  rcases le_or_gt ((2 : ℝ) ^ (-500 : ℤ)) (fcAbs z) with hlo | hlo
  · obtain ⟨a, b, c⟩ := sqAbs_bound hr hh.toIsHypot (Or.inr ⟨hlo, hz⟩)
    exact ⟨sizable_nonneg a, by linarith, by linarith⟩
  · obtain ⟨a, b⟩ := hh.small z hlo.le
    have A0 : 0 ≤ fcAbs z := Real.sqrt_nonneg _
    have A2 : fcAbs z ^ 2 ≤ 2 ^ (-1000 : ℤ) := by
      calc fcAbs z ^ 2 ≤ ((2 : ℝ) ^ (-500 : ℤ)) ^ 2 := pow_le_pow_left₀ A0 hlo.le 2
        _ = _ := by rw [← zpow_natCast, ← zpow_mul]; norm_num
    have A3 : 0 ≤ fcAbs z ^ 2 := by positivity
    have H2 : h z * h z ≤ 2 ^ (-998 : ℤ) := by
      calc h z * h z ≤ (2 : ℝ) ^ (-499 : ℤ) * 2 ^ (-499 : ℤ) := mul_le_mul b b a (by positivity)
        _ = _ := by rw [← zpow_add₀ (by norm_num)]; norm_num
    have H0 : 0 ≤ h z * h z := mul_nonneg a a
    obtain ⟨f1, f2, f3⟩ := rnd_any hr H0 (H2.trans (zpow_le_zpow_right₀ (by norm_num) (by norm_num)))
    have e1 : (2 : ℝ) ^ (-997 : ℤ) = 2 * 2 ^ (-998 : ℤ) := by rw [← zpow_one_add₀ (by norm_num)]; norm_num
    have e2 : (2 : ℝ) ^ (-998 : ℤ) = 4 * 2 ^ (-1000 : ℤ) := by
      rw [show (4 : ℝ) = 2 ^ (2 : ℤ) by norm_num, ← zpow_add₀ (by norm_num)]; norm_num
    have e3 : eta ≤ 2 ^ (-1000 : ℤ) := zpow_le_zpow_right₀ (by norm_num) (by norm_num)
    have p1 : (1 - uu) ^ 7 ≤ 1 := pow_le_one₀ (by linarith) (by linarith)
    have p2 : 0 ≤ (1 + uu) ^ 7 := by positivity
    have T0 : (0 : ℝ) < 2 ^ (-1000 : ℤ) := by positivity
    unfold sqAbs
    clear hlo hz b
    generalize (2 : ℝ) ^ (-997 : ℤ) = t1 at *
    generalize (2 : ℝ) ^ (-998 : ℤ) = t2 at *
    generalize (2 : ℝ) ^ (-1000 : ℤ) = t3 at *
    refine ⟨f1, ?_, ?_⟩
    · have : (1 - uu) ^ 7 * fcAbs z ^ 2 ≤ 1 * fcAbs z ^ 2 := mul_le_mul_of_nonneg_right p1 A3
      linarith
    · have : 0 ≤ (1 + uu) ^ 7 * fcAbs z ^ 2 := by positivity
      refine f3.trans ?_
      have : (1 + uu) * (h z * h z) ≤ (1 + 1 / 8) * t2 := mul_le_mul (by linarith) H2 H0 (by norm_num)
      linarith

/-- The sum of squared magnitudes of a list, computed in doubles in any order, with no lower bound on the magnitudes. -/
theorem sum_sq_any (hr : IsRounding rnd) {h : FC rnd → ℝ} (hh : IsHypotAll rnd h) (l : List (FC rnd)) (hl : ∀ z ∈ l, fcAbs z ≤ 2 ^ (400 : ℤ))
    (hN : l.length ≤ 2 ^ 50) {s : ℝ} (hs : NpSum rnd (l.map (sqAbs rnd h)) s) :
    |s - (l.map fun z => fcAbs z ^ 2).sum| ≤ (l.length + 6) * 2 ^ (-52 : ℤ) * (l.map fun z => fcAbs z ^ 2).sum + l.length * 2 ^ (-990 : ℤ) := by
  have u0 := uu_pos
  have u1 := uu_lt
  have e0 := eta_pos
  set S := (l.map fun z => fcAbs z ^ 2).sum with hS
  have hS0 : 0 ≤ S := List.sum_nonneg (by
    intro x hx
    obtain ⟨z, _, rfl⟩ := List.mem_map.mp hx
    positivity)
  have L0 : (0 : ℝ) ≤ l.length := by positivity
  have L1 : (l.length : ℝ) ≤ 2 ^ (50 : ℤ) := by
    have : ((l.length : ℕ) : ℝ) ≤ ((2 ^ 50 : ℕ) : ℝ) := by exact_mod_cast hN
    refine le_trans this (le_of_eq (by norm_num))
  have hsum : (1 - uu) ^ 7 * S - l.length * 2 ^ (-997 : ℤ) ≤ (l.map (sqAbs rnd h)).sum ∧ (l.map (sqAbs rnd h)).sum ≤ (1 + uu) ^ 7 * S + l.length * 2 ^ (-997 : ℤ) := by
    rw [hS]
    clear hs hS hS0 hN L0 L1 S
    induction l with
    | nil => simp
    | cons z t ih =>
      obtain ⟨i1, i2⟩ := ih (fun w hw => hl w (by simp [hw]))
      obtain ⟨-, j1, j2⟩ := sqAbs_any hr hh (hl z (by simp))
      simp only [List.map_cons, List.sum_cons, List.length_cons]
      push_cast
      constructor <;> linarith
  have hSb : S ≤ 2 ^ (850 : ℤ) := by
    have : S ≤ (l.map fun _ => (2 : ℝ) ^ (800 : ℤ)).sum := by
      rw [hS]
      refine List.sum_le_sum fun z hz => ?_
      calc fcAbs z ^ 2 ≤ ((2 : ℝ) ^ (400 : ℤ)) ^ 2 := pow_le_pow_left₀ (Real.sqrt_nonneg _) (hl z hz) 2
          _ = (2 : ℝ) ^ (800 : ℤ) := by rw [← zpow_natCast, ← zpow_mul]; norm_num
    refine le_trans this ?_
    rw [List.map_const', List.sum_replicate, nsmul_eq_mul]
    calc (l.length : ℝ) * 2 ^ (800 : ℤ) ≤ 2 ^ (50 : ℤ) * 2 ^ (800 : ℤ) := mul_le_mul_of_nonneg_right L1 (by positivity)
      _ = 2 ^ (850 : ℤ) := by rw [← zpow_add₀ (by norm_num)]; norm_num
  have hNu : ((l.length + 7 : ℕ) : ℝ) * uu ≤ 1 / 4 := by
    have h1 : ((l.length + 7 : ℕ) : ℝ) ≤ 2 ^ (51 : ℤ) := by
      have : ((l.length + 7 : ℕ) : ℝ) ≤ ((2 ^ 51 : ℕ) : ℝ) := by
        have : l.length + 7 ≤ 2 ^ 51 := by omega
        exact_mod_cast this
      refine le_trans this (le_of_eq (by norm_num))
    calc ((l.length + 7 : ℕ) : ℝ) * uu ≤ 2 ^ (51 : ℤ) * uu := mul_le_mul_of_nonneg_right h1 u0.le
      _ = 1 / 4 := by unfold uu; rw [← zpow_add₀ (by norm_num)]; norm_num
  have hp2 : (1 + uu) ^ (l.length + 7) ≤ 2 := by
    have := pow_upper (K := l.length + 7) (by linarith)
    linarith
  have hpl : (1 + uu) ^ l.length ≤ 2 := (pow_le_pow_right₀ (by linarith) (by omega)).trans hp2
  have he : eta ≤ 2 ^ (-997 : ℤ) := zpow_le_zpow_right₀ (by norm_num) (by norm_num)
  have t0 : (0 : ℝ) < 2 ^ (-997 : ℤ) := by positivity
  -- the lost amounts together
  have hL : (l.length : ℝ) * 2 ^ (-997 : ℤ) + l.length * eta ≤ 2 * (l.length * 2 ^ (-997 : ℤ)) := by
    have := mul_le_mul_of_nonneg_left he L0
    linarith
  have hD : (l.length : ℝ) * 2 ^ (-997 : ℤ) ≤ 1 := by
    calc (l.length : ℝ) * 2 ^ (-997 : ℤ) ≤ 2 ^ (50 : ℤ) * 2 ^ (-997 : ℤ) := mul_le_mul_of_nonneg_right L1 t0.le
      _ = 2 ^ (-947 : ℤ) := by rw [← zpow_add₀ (by norm_num)]; norm_num
      _ ≤ 1 := zpow_le_one_of_nonpos₀ (by norm_num) (by norm_num)
  have D0 : 0 ≤ (l.length : ℝ) * 2 ^ (-997 : ℤ) := by positivity
  have hT : (l.length : ℝ) * 2 ^ (-990 : ℤ) = 128 * (l.length * 2 ^ (-997 : ℤ)) := by
    rw [show (2 : ℝ) ^ (-990 : ℤ) = 2 ^ (7 : ℤ) * 2 ^ (-997 : ℤ) by rw [← zpow_add₀ (by norm_num)]; norm_num]
    rw [show (2 : ℝ) ^ (7 : ℤ) = 128 by norm_num]
    ring
  have E0 : 0 ≤ (l.length : ℝ) * eta := mul_nonneg L0 e0.le
  rw [hT]
  generalize (l.length : ℝ) * 2 ^ (-997 : ℤ) = D at *
  have hU : (l.map (sqAbs rnd h)).sum + l.length * eta ≤ (1 + uu) ^ 7 * S + 2 * D := by
    obtain ⟨-, q⟩ := hsum
    clear hl hN hT hs
    generalize (l.map (sqAbs rnd h)).sum = y at *
    generalize (1 + uu) ^ 7 * S = x at *
    linarith
  have B4 : 2 * (2 : ℝ) ^ (850 : ℤ) + 2 * 2 ^ (850 : ℤ) ≤ 2 ^ (1022 : ℤ) := by
    calc 2 * (2 : ℝ) ^ (850 : ℤ) + 2 * 2 ^ (850 : ℤ) = 2 ^ (852 : ℤ) := by
          rw [show (852 : ℤ) = 2 + 850 by norm_num, zpow_add₀ (by norm_num), show (2 : ℝ) ^ (2 : ℤ) = 4 by norm_num]
          ring
      _ ≤ 2 ^ (1022 : ℤ) := zpow_le_zpow_right₀ (by norm_num) (by norm_num)
  have B2 : (2 : ℝ) ≤ 2 ^ (850 : ℤ) := by
    have : (2 : ℝ) ^ (1 : ℤ) ≤ 2 ^ (850 : ℤ) := zpow_le_zpow_right₀ (by norm_num) (by norm_num)
    rwa [zpow_one] at this
  clear he t0 hT L1
  generalize (2 : ℝ) ^ (850 : ℤ) = B at *
  have hb : ((l.map (sqAbs rnd h)).sum + (l.map (sqAbs rnd h)).length * eta) * (1 + uu) ^ (l.map (sqAbs rnd h)).length ≤ 2 ^ (1022 : ℤ) := by
    rw [List.length_map]
    calc ((l.map (sqAbs rnd h)).sum + l.length * eta) * (1 + uu) ^ l.length ≤ ((1 + uu) ^ 7 * S + 2 * D) * (1 + uu) ^ l.length :=
          mul_le_mul_of_nonneg_right hU (by positivity)
      _ = (1 + uu) ^ (l.length + 7) * S + 2 * D * (1 + uu) ^ l.length := by rw [pow_add]; ring
      _ ≤ 2 * B + 2 * 1 * 2 := add_le_add (mul_le_mul hp2 hSb hS0 (by norm_num)) (mul_le_mul (by linarith) hpl (by positivity) (by norm_num))
      _ ≤ 2 * B + 2 * B := by linarith
      _ ≤ 2 ^ (1022 : ℤ) := B4
  obtain ⟨n1, s0, k1, k2⟩ := npSum_any hr hs (by
    intro x hx
    obtain ⟨z, hz, rfl⟩ := List.mem_map.mp hx
    exact (sqAbs_any hr hh (hl z hz)).1) hb
  rw [List.length_map] at n1 k1 k2
  clear B4 hl hN hs hb
  have hp1 : (1 + uu) ^ (l.length - 1) ≤ 2 := (pow_le_pow_right₀ (by linarith) (by omega)).trans hp2
  have P0 : 0 ≤ (1 + uu) ^ (l.length - 1) := by positivity
  have Q0 : 0 ≤ (1 - uu) ^ (l.length - 1) := pow_nonneg (by linarith) _
  have Q1 : (1 - uu) ^ (l.length - 1) ≤ 1 := pow_le_one₀ (by linarith) (by linarith)
  have g1 : (1 - uu) ^ (l.length + 6) * S - 2 * D ≤ s := by
    have a : (1 - uu) ^ (l.length + 6) * S = (1 - uu) ^ (l.length - 1) * ((1 - uu) ^ 7 * S) := by
      rw [← mul_assoc, ← pow_add]; congr 2; omega
    have b := mul_le_mul_of_nonneg_left hsum.1 Q0
    have c := mul_le_mul_of_nonneg_right Q1 D0
    rw [a]
    linarith
  have g2 : s ≤ (1 + uu) ^ (l.length + 6) * S + 4 * D := by
    have a : (1 + uu) ^ (l.length + 6) * S = (1 + uu) ^ (l.length - 1) * ((1 + uu) ^ 7 * S) := by
      rw [← mul_assoc, ← pow_add]; congr 2; omega
    have b := mul_le_mul_of_nonneg_left hU P0
    have c := mul_le_mul_of_nonneg_right hp1 D0
    rw [a]
    linarith
  have hK : ((l.length + 6 : ℕ) : ℝ) * uu ≤ 1 / 2 := by
    push_cast at hNu ⊢
    nlinarith
  have w1 := pow_upper hK
  have w2 := pow_lower (l.length + 6)
  rw [two_uu, abs_le]
  push_cast at w1 w2
  have e1 := mul_le_mul_of_nonneg_right w2 hS0
  have e2 := mul_le_mul_of_nonneg_right w1 hS0
  have e3 : 0 ≤ ((l.length : ℝ) + 6) * uu * S := by positivity
  constructor <;> linarith

theorem spectrum_any (hr : IsRounding rnd) (h : FC rnd → ℝ) (hh : IsHypotAll rnd h) (c : ScalarCoefs (FC rnd)) (hc : c.WellFormed)
    (hl : ∀ z ∈ c.vec, fcAbs z ≤ 2 ^ (400 : ℤ)) (hN : c.vec.length ≤ 2 ^ 50) (s : List ℝ) (hs : FloatSpectrum rnd h c s) :
    (s.length : ℤ) = c.nmax + 1 ∧ ∀ n (hn : n < s.length), ∀ E : ℝ,
      E = ∑ m ∈ Finset.Icc (-(min (n : Int) c.mmax)) (min (n : Int) c.mmax), ((readMap c n m).elim 0 (fun x => fcAbs x ^ 2)) →
      |s[n] - E| ≤ (2 * (min (n : ℤ) c.mmax : ℤ) + 7 : ℝ) * 2 ^ (-52 : ℤ) * E + (2 * (min (n : ℤ) c.mmax : ℤ) + 1 : ℝ) * 2 ^ (-990 : ℤ) := by
  obtain ⟨lst, e, hlen, hk⟩ := hs
  obtain ⟨lst', e', hl', hk'⟩ := ScalarCoefs.reshapeM_eq hc.wf
  rw [e] at e'; cases e'
  refine ⟨by omega, fun n hn E hE => ?_⟩
  have hn' : n < lst.length := by omega
  have hw := hc.wf
  have hm0 := hw.m0
  have hmn := hw.mn
  have hnn : 0 ≤ (n : ℤ) ∧ (n : ℤ) ≤ c.nmax := by omega
  have hrow := hk' n hn'
  obtain ⟨ys, e1, hlen1, hk1⟩ := mapM'_spec (pyRange (-(min (n : ℤ) c.mmax)) (min (n : ℤ) c.mmax + 1)) (fun m => c.getNM n m) (by
    intro m hm
    rw [mem_pyRange] at hm
    exact ⟨_, ScalarCoefs.getNM_eq hw (by rw [isMode_iff]; omega)⟩)
  have hE' : E = (lst[n].map fun z => fcAbs z ^ 2).sum := by
    rw [ScalarCoefs.row_sum hw hnn (fun z => fcAbs z ^ 2) hrow, hE]
    exact Finset.sum_congr rfl fun m _ => by rw [readMap_eq hw]
  have hsum := hk n hn hn'
  rw [e1] at hrow
  have ey : ys = lst[n] := by injection hrow
  rw [← ey] at hsum hE'
  have hl1 : (ys.length : ℤ) = 2 * min (n : ℤ) c.mmax + 1 := by
    rw [hlen1, length_pyRange]; omega
  have hmem : ∀ z ∈ ys, fcAbs z ≤ 2 ^ (400 : ℤ) := by
    intro z hz
    obtain ⟨k, hk, rfl⟩ := List.mem_iff_getElem.mp hz
    have hk2 : k < (pyRange (-(min (n : ℤ) c.mmax)) (min (n : ℤ) c.mmax + 1)).length := by omega
    have hm : (pyRange (-(min (n : ℤ) c.mmax)) (min (n : ℤ) c.mmax + 1))[k] ∈ pyRange (-(min (n : ℤ) c.mmax)) (min (n : ℤ) c.mmax + 1) :=
      List.getElem_mem _
    rw [mem_pyRange] at hm
    have g := hk1 k hk2 hk
    rw [ScalarCoefs.getNM_eq hw (by rw [isMode_iff]; omega)] at g
    injection g with g
    rw [← g]
    exact hl _ (List.getElem_mem _)
  have hshort : ys.length ≤ 2 ^ 50 := by
    have a : (ys.length : ℤ) ≤ c.vec.length := by
      rw [hw.len, hl1]
      unfold ncFormula
      have : min (n : ℤ) c.mmax ≤ c.mmax := min_le_right _ _
      nlinarith [mul_nonneg hm0 (sub_nonneg.mpr hmn), mul_nonneg hm0 hm0]
    omega
  have := sum_sq_any hr hh ys hmem hshort hsum
  rw [hE']
  have e2 : (2 * (min (n : ℤ) c.mmax : ℤ) + 7 : ℝ) = (ys.length : ℝ) + 6 := by
    have : ((ys.length : ℤ) : ℝ) = ((2 * min (n : ℤ) c.mmax + 1 : ℤ) : ℝ) := by rw [hl1]
    push_cast at this ⊢
    rw [this]; ring
  have e3 : (2 * (min (n : ℤ) c.mmax : ℤ) + 1 : ℝ) = (ys.length : ℝ) := by
    have : ((ys.length : ℤ) : ℝ) = ((2 * min (n : ℤ) c.mmax + 1 : ℤ) : ℝ) := by rw [hl1]
    push_cast at this ⊢
    rw [this]
  rw [e2, e3]
  exact this

end PW

end Verif.Props
