import Verif.FloatNorm
import Verif.Props.FloatPower
import Verif.Props.FloatOps
import Verif.Props.Norms
/-!
# Property C111: norms and comparisons in double precision
-/
namespace Verif.Props
open Verif
variable {rnd : ℝ → ℝ}

namespace FN

/-- 0, or of a size in which squares neither overflow nor underflow. -/
def Rng (x : ℝ) : Prop := x = 0 ∨ ((2 : ℝ) ^ (-502 : ℤ) ≤ x ∧ x ≤ 2 ^ (500 : ℤ))

theorem Rng.nonneg {x : ℝ} (h : Rng x) : 0 ≤ x := by
  rcases h with rfl | ⟨h, _⟩
  · exact le_rfl
  · exact le_trans (by positivity) h

theorem sq_rng {sq : ℝ → ℝ} (hs : IsSquare sq) {x : ℝ} (hx : Rng x) :
    Sizable (sq x) ∧ sq x ≤ 2 ^ (1001 : ℤ) ∧ (1 - 2 * uu) * x ^ 2 ≤ sq x ∧ sq x ≤ (1 + 2 * uu) * x ^ 2 := by
  have u0 := uu_pos
  have u1 := uu_lt
  rcases hx with rfl | ⟨h1, h2⟩
  · rw [hs.zero]
    refine ⟨Or.inl rfl, by positivity, by simp, by simp⟩
  · have hc := hs.close x (le_trans (zpow_le_zpow_right₀ (by norm_num) (by norm_num)) h1) (le_trans h2 (zpow_le_zpow_right₀ (by norm_num) (by norm_num)))
    rw [two_uu, abs_le] at hc
    have hx0 : 0 < x := lt_of_lt_of_le (by positivity) h1
    have a1 : (2 : ℝ) ^ (-1004 : ℤ) ≤ x ^ 2 := by
      calc (2 : ℝ) ^ (-1004 : ℤ) = ((2 : ℝ) ^ (-502 : ℤ)) ^ 2 := by rw [← zpow_natCast, ← zpow_mul]; norm_num
        _ ≤ x ^ 2 := pow_le_pow_left₀ (by positivity) h1 2
    have a2 : x ^ 2 ≤ (2 : ℝ) ^ (1000 : ℤ) := by
      calc x ^ 2 ≤ ((2 : ℝ) ^ (500 : ℤ)) ^ 2 := pow_le_pow_left₀ hx0.le h2 2
        _ = (2 : ℝ) ^ (1000 : ℤ) := by rw [← zpow_natCast, ← zpow_mul]; norm_num
    have l1 : (1 - 2 * uu) * x ^ 2 ≤ sq x := by linarith [hc.1]
    have l2 : sq x ≤ (1 + 2 * uu) * x ^ 2 := by linarith [hc.2]
    refine ⟨Or.inr (le_trans ?_ l1), le_trans l2 ?_, l1, l2⟩
    · have : (2 : ℝ) ^ (-1010 : ℤ) ≤ 2 ^ (-1 : ℤ) * 2 ^ (-1004 : ℤ) := by
        rw [← zpow_add₀ (by norm_num)]
        exact zpow_le_zpow_right₀ (by norm_num) (by norm_num)
      refine le_trans this (mul_le_mul ?_ a1 (by positivity) (by linarith))
      norm_num
      linarith
    · have : (2 : ℝ) ^ (1 : ℤ) * 2 ^ (1000 : ℤ) ≤ 2 ^ (1001 : ℤ) := by
        rw [← zpow_add₀ (by norm_num)]
        exact zpow_le_zpow_right₀ (by norm_num) (by norm_num)
      refine le_trans (mul_le_mul ?_ a2 (by positivity) (by positivity)) this
      norm_num
      linarith

theorem poly_up {u K : ℝ} (u0 : 0 < u) (u1 : u < 1 / 8) (hK0 : 0 ≤ K) (hK1 : K ≤ 1 / 2) : (1 + u) ^ 3 * (1 + K) ≤ 1 + K + 8 * u := by
  have h1 : (1 + u) ^ 3 ≤ 1 + 4 * u := by nlinarith [pow_pos u0 3, pow_pos u0 2]
  have h2 := mul_le_mul_of_nonneg_right h1 (show 0 ≤ 1 + K by linarith)
  have h3 : u * K ≤ u * (1 / 2) := mul_le_mul_of_nonneg_left hK1 u0.le
  linarith

theorem poly_lo {u K : ℝ} (u0 : 0 < u) (u1 : u < 1 / 8) (hK0 : 0 ≤ K) (hK1 : K ≤ 1 / 2) : 1 - K - 8 * u ≤ (1 - u) ^ 3 * (1 - K) := by
  have h1 : 1 - 3 * u ≤ (1 - u) ^ 3 := by nlinarith [pow_pos u0 3, pow_pos u0 2]
  have h2 := mul_le_mul_of_nonneg_right h1 (show 0 ≤ 1 - K by linarith)
  have h3 : 0 ≤ u * K := by positivity
  linarith

theorem poly_up4 {u : ℝ} (u0 : 0 < u) : (1 + u) * (1 + 2 * u) ≤ (1 + u) ^ 4 := by
  nlinarith [pow_pos u0 3, pow_pos u0 2, pow_pos u0 4]

theorem poly_lo4 {u : ℝ} (u0 : 0 < u) (u1 : u < 1 / 8) : (1 - u) ^ 4 ≤ (1 - u) * (1 - 2 * u) := by
  nlinarith [pow_pos u0 3, pow_pos u0 2, pow_pos u0 4]

/-- `np.sqrt(l1 ** 2 + l2 ** 2)` in doubles. -/
theorem comb_bound (hr : IsRounding rnd) {sq : ℝ → ℝ} (hs : IsSquare sq) {l1 l2 E1 E2 K : ℝ} (h1 : Rng l1) (h2 : Rng l2)
    (hE1 : 0 ≤ E1) (hE2 : 0 ≤ E2) (hK0 : 0 ≤ K) (hK1 : K ≤ 1 / 2) (d1 : |l1 - E1| ≤ K * E1) (d2 : |l2 - E2| ≤ K * E2) :
    |floatComb rnd sq l1 l2 - Real.sqrt (E1 ^ 2 + E2 ^ 2)| ≤ (K + 4 * 2 ^ (-52 : ℤ)) * Real.sqrt (E1 ^ 2 + E2 ^ 2) := by
  have u0 := uu_pos
  have u1 := uu_lt
  obtain ⟨s1, b1, q1, q1'⟩ := sq_rng hs h1
  obtain ⟨s2, b2, q2, q2'⟩ := sq_rng hs h2
  rw [abs_le] at d1 d2
  set E := Real.sqrt (E1 ^ 2 + E2 ^ 2) with hE
  have hE0 : 0 ≤ E := Real.sqrt_nonneg _
  have hEE : E ^ 2 = E1 ^ 2 + E2 ^ 2 := Real.sq_sqrt (by positivity)
  have up : ∀ {l e : ℝ}, 0 ≤ l → 0 ≤ e → l - e ≤ K * e → l ^ 2 ≤ (1 + K) ^ 2 * e ^ 2 := by
    intro l e hl he h
    rw [← mul_pow]
    exact pow_le_pow_left₀ hl (by linarith) 2
  have lo : ∀ {l e : ℝ}, 0 ≤ l → 0 ≤ e → -(K * e) ≤ l - e → (1 - K) ^ 2 * e ^ 2 ≤ l ^ 2 := by
    intro l e hl he h
    rw [← mul_pow]
    exact pow_le_pow_left₀ (mul_nonneg (by linarith) he) (by linarith) 2
  have hss : Sizable (sq l1 + sq l2) := by
    rcases s1 with e | e
    · rw [e, zero_add]; exact s2
    · exact Or.inr (by linarith [sizable_nonneg s2])
  have hsb : sq l1 + sq l2 ≤ 2 ^ (1002 : ℤ) := by
    have : (2 : ℝ) ^ (1002 : ℤ) = 2 ^ (1001 : ℤ) + 2 ^ (1001 : ℤ) := by
      rw [← two_mul, ← zpow_one_add₀ (by norm_num)]; norm_num
    rw [this]; exact add_le_add b1 b2
  obtain ⟨t1, t2, t3⟩ := sizable_rnd hr hss (le_trans hsb (zpow_le_zpow_right₀ (by norm_num) (by norm_num)))
  set P := rnd (sq l1 + sq l2) with hP
  have hP0 : 0 ≤ P := sizable_nonneg t1
  have hPu : P ≤ ((1 + uu) ^ 2 * (1 + K) * E) ^ 2 := by
    have e1 : sq l1 + sq l2 ≤ (1 + 2 * uu) * ((1 + K) ^ 2 * E ^ 2) := by
      have := up h1.nonneg hE1 d1.2
      have := up h2.nonneg hE2 d2.2
      rw [hEE]
      nlinarith
    have e2 : (1 + uu) * (1 + 2 * uu) ≤ (1 + uu) ^ 4 := poly_up4 u0
    calc P ≤ (1 + uu) * ((1 + 2 * uu) * ((1 + K) ^ 2 * E ^ 2)) := le_trans t3 (mul_le_mul_of_nonneg_left e1 (by linarith))
      _ = (1 + uu) * (1 + 2 * uu) * ((1 + K) ^ 2 * E ^ 2) := by ring
      _ ≤ (1 + uu) ^ 4 * ((1 + K) ^ 2 * E ^ 2) := mul_le_mul_of_nonneg_right e2 (by positivity)
      _ = _ := by ring
  have hPl : ((1 - uu) ^ 2 * (1 - K) * E) ^ 2 ≤ P := by
    have e1 : (1 - 2 * uu) * ((1 - K) ^ 2 * E ^ 2) ≤ sq l1 + sq l2 := by
      have := lo h1.nonneg hE1 d1.1
      have := lo h2.nonneg hE2 d2.1
      rw [hEE]
      nlinarith
    have e2 : (1 - uu) ^ 4 ≤ (1 - uu) * (1 - 2 * uu) := poly_lo4 u0 u1
    calc ((1 - uu) ^ 2 * (1 - K) * E) ^ 2 = (1 - uu) ^ 4 * ((1 - K) ^ 2 * E ^ 2) := by ring
      _ ≤ (1 - uu) * (1 - 2 * uu) * ((1 - K) ^ 2 * E ^ 2) := mul_le_mul_of_nonneg_right e2 (by positivity)
      _ = (1 - uu) * ((1 - 2 * uu) * ((1 - K) ^ 2 * E ^ 2)) := by ring
      _ ≤ P := le_trans (mul_le_mul_of_nonneg_left e1 (by linarith)) t2
  have hru : Real.sqrt P ≤ (1 + uu) ^ 2 * (1 + K) * E := Real.sqrt_le_iff.mpr ⟨by positivity, hPu⟩
  have hrl : (1 - uu) ^ 2 * (1 - K) * E ≤ Real.sqrt P := Real.le_sqrt_of_sq_le hPl
  have hsz : Sizable (Real.sqrt P) := by
    rcases t1 with e | e
    · left; rw [e, Real.sqrt_zero]
    · right
      apply Real.le_sqrt_of_sq_le
      refine le_trans ?_ e
      rw [← zpow_natCast, ← zpow_mul]
      exact zpow_le_zpow_right₀ (by norm_num) (by norm_num)
  have hb : Real.sqrt P ≤ 2 ^ (1022 : ℤ) := by
    apply Real.sqrt_le_iff.mpr
    refine ⟨by positivity, ?_⟩
    have : P ≤ 2 * 2 ^ (1002 : ℤ) := le_trans t3 (mul_le_mul (by linarith) hsb (sizable_nonneg hss) (by norm_num))
    refine le_trans this ?_
    rw [← zpow_natCast, ← zpow_mul, ← zpow_one_add₀ (by norm_num)]
    exact zpow_le_zpow_right₀ (by norm_num) (by norm_num)
  obtain ⟨_, r1, r2⟩ := sizable_rnd hr hsz hb
  have f2 : rnd (Real.sqrt P) ≤ (1 + uu) ^ 3 * (1 + K) * E := by
    refine le_trans r2 (le_trans (mul_le_mul_of_nonneg_left hru (by linarith)) (le_of_eq (by ring)))
  have f1 : (1 - uu) ^ 3 * (1 - K) * E ≤ rnd (Real.sqrt P) := by
    refine le_trans (le_of_eq (by ring)) (le_trans (mul_le_mul_of_nonneg_left hrl (show 0 ≤ 1 - uu by linarith)) r1)
  have g2 := mul_le_mul_of_nonneg_right (poly_up u0 u1 hK0 hK1) hE0
  have g1 := mul_le_mul_of_nonneg_right (poly_lo u0 u1 hK0 hK1) hE0
  clear_value E
  clear hPu hPl hru hrl hsz hb r1 r2 t2 t3 hsb b1 b2 t1 hss
  unfold floatComb
  rw [← hP, two_uu, abs_le]
  constructor
  · refine le_trans ?_ (sub_le_sub_right (le_trans g1 f1) E)
    linarith
  · refine le_trans (sub_le_sub_right (le_trans f2 g2) E) ?_
    linarith

/-- The sum of the squared magnitudes. -/
noncomputable def ssq (l : List (FC rnd)) : ℝ := (l.map fun z => fcAbs z ^ 2).sum

theorem ssq_nonneg (l : List (FC rnd)) : 0 ≤ ssq l := List.sum_nonneg (by
  intro x hx
  obtain ⟨z, _, rfl⟩ := List.mem_map.mp hx
  positivity)

theorem ssq_lower {l : List (FC rnd)} (hl : ∀ z ∈ l, InRange z) : ssq l = 0 ∨ (2 : ℝ) ^ (-1000 : ℤ) ≤ ssq l := by
  induction l with
  | nil => left; simp [ssq]
  | cons a l ih =>
    have e : ssq (a :: l) = fcAbs a ^ 2 + ssq l := by simp [ssq]
    rcases hl a (by simp) with h | ⟨h, _⟩
    · rw [e, h, fcAbs_zero]
      simpa using ih fun z hz => hl z (by simp [hz])
    · right
      rw [e]
      have : (2 : ℝ) ^ (-1000 : ℤ) ≤ fcAbs a ^ 2 := by
        calc (2 : ℝ) ^ (-1000 : ℤ) = ((2 : ℝ) ^ (-500 : ℤ)) ^ 2 := by rw [← zpow_natCast, ← zpow_mul]; norm_num
          _ ≤ fcAbs a ^ 2 := pow_le_pow_left₀ (by positivity) h 2
      exact le_trans this (le_add_of_nonneg_right (ssq_nonneg _))

theorem ssq_upper {l : List (FC rnd)} (hl : ∀ z ∈ l, InRange z) (hN : l.length ≤ 2 ^ 50) : ssq l ≤ 2 ^ (850 : ℤ) := by
  have : ssq l ≤ (l.map fun _ => (2 : ℝ) ^ (800 : ℤ)).sum := by
    unfold ssq
    refine List.sum_le_sum fun z hz => ?_
    rcases hl z hz with rfl | ⟨_, h2⟩
    · rw [fcAbs_zero]; simp
    · calc fcAbs z ^ 2 ≤ ((2 : ℝ) ^ (400 : ℤ)) ^ 2 := pow_le_pow_left₀ (Real.sqrt_nonneg _) h2 2
        _ = (2 : ℝ) ^ (800 : ℤ) := by rw [← zpow_natCast, ← zpow_mul]; norm_num
  refine le_trans this ?_
  rw [List.map_const', List.sum_replicate, nsmul_eq_mul]
  calc (l.length : ℝ) * 2 ^ (800 : ℤ) ≤ 2 ^ (50 : ℤ) * 2 ^ (800 : ℤ) := by
        refine mul_le_mul_of_nonneg_right ?_ (by positivity)
        have : ((l.length : ℕ) : ℝ) ≤ ((2 ^ 50 : ℕ) : ℝ) := by exact_mod_cast hN
        refine le_trans this (le_of_eq (by norm_num))
    _ = 2 ^ (850 : ℤ) := by rw [← zpow_add₀ (by norm_num)]; norm_num

theorem small_err {N : ℕ} (hN : N ≤ 2 ^ 50) : ((N : ℝ) + 8) * 2 ^ (-52 : ℤ) ≤ 1 / 2 := by
  have : (N : ℝ) ≤ 2 ^ 50 := by exact_mod_cast hN
  rw [zpow_neg, ← div_eq_mul_inv, div_le_iff₀ (by positivity)]
  have e : (2 : ℝ) ^ (52 : ℤ) = 4 * 2 ^ 50 := by norm_num
  rw [e]
  have : (8 : ℝ) ≤ 2 ^ 50 := by norm_num
  linarith

theorem l2_list (hr : IsRounding rnd) {h : FC rnd → ℝ} (hh : IsHypot rnd h) {l : List (FC rnd)}
    (hl : ∀ z ∈ l, InRange z) (hN : l.length ≤ 2 ^ 50) {s : ℝ} (hs : FloatL2List rnd h l s) :
    Rng s ∧ |s - Real.sqrt (ssq l)| ≤ (l.length + 8) * 2 ^ (-52 : ℤ) * Real.sqrt (ssq l) := by
  have hd : |s - Real.sqrt (ssq l)| ≤ (l.length + 8) * 2 ^ (-52 : ℤ) * Real.sqrt (ssq l) :=
    c85_l2 hr h hh ⟨l, 0, 0⟩ hl hN s hs
  refine ⟨?_, hd⟩
  have hK := mul_le_mul_of_nonneg_right (small_err hN) (Real.sqrt_nonneg (ssq l))
  have hd' := abs_le.mp (le_trans hd hK)
  rcases ssq_lower hl with e | e
  · left
    rw [e, Real.sqrt_zero] at hd
    simpa using hd
  · right
    have h1 : (2 : ℝ) ^ (-500 : ℤ) ≤ Real.sqrt (ssq l) := by
      apply Real.le_sqrt_of_sq_le
      refine le_trans (le_of_eq ?_) e
      rw [← zpow_natCast, ← zpow_mul]; norm_num
    have h2 : Real.sqrt (ssq l) ≤ 2 ^ (425 : ℤ) := by
      apply Real.sqrt_le_iff.mpr
      refine ⟨by positivity, le_trans (ssq_upper hl hN) (le_of_eq ?_)⟩
      rw [← zpow_natCast, ← zpow_mul]; norm_num
    constructor
    · have : (2 : ℝ) ^ (-502 : ℤ) ≤ 1 / 2 * 2 ^ (-500 : ℤ) := by
        rw [show (1 / 2 : ℝ) = 2 ^ (-1 : ℤ) by norm_num, ← zpow_add₀ (by norm_num)]
        exact zpow_le_zpow_right₀ (by norm_num) (by norm_num)
      refine le_trans this ?_
      linarith [hd'.1]
    · have : 2 * (2 : ℝ) ^ (425 : ℤ) ≤ 2 ^ (500 : ℤ) := by
        rw [← zpow_one_add₀ (by norm_num)]
        exact zpow_le_zpow_right₀ (by norm_num) (by norm_num)
      refine le_trans ?_ this
      have h3 : s ≤ 2 * Real.sqrt (ssq l) := by
        have := hd'.2
        have := Real.sqrt_nonneg (ssq l)
        clear h1 h2 e hK hd
        linarith
      exact le_trans h3 (mul_le_mul_of_nonneg_left h2 (by norm_num))

theorem comb_l2 (hr : IsRounding rnd) {sq : ℝ → ℝ} (hq : IsSquare sq) {h : FC rnd → ℝ} (hh : IsHypot rnd h) {a b : List (FC rnd)}
    (ha : ∀ z ∈ a, InRange z) (hb : ∀ z ∈ b, InRange z) (N : ℕ) (hNa : a.length ≤ N) (hNb : b.length ≤ N) (hN : N ≤ 2 ^ 50) {s t : ℝ}
    (hs : FloatL2List rnd h a s) (ht : FloatL2List rnd h b t) :
    |floatComb rnd sq s t - Real.sqrt (ssq a + ssq b)| ≤ (N + 12) * 2 ^ (-52 : ℤ) * Real.sqrt (ssq a + ssq b) := by
  obtain ⟨r1, e1⟩ := l2_list hr hh ha (le_trans hNa hN) hs
  obtain ⟨r2, e2⟩ := l2_list hr hh hb (le_trans hNb hN) ht
  have up : ∀ {n : ℕ} {x : ℝ}, n ≤ N → 0 ≤ x → ((n : ℝ) + 8) * 2 ^ (-52 : ℤ) * x ≤ ((N : ℝ) + 8) * 2 ^ (-52 : ℤ) * x := by
    intro n x hn hx
    have : (n : ℝ) ≤ N := by exact_mod_cast hn
    exact mul_le_mul_of_nonneg_right (mul_le_mul_of_nonneg_right (by linarith) (by positivity)) hx
  have := comb_bound hr hq r1 r2 (Real.sqrt_nonneg _) (Real.sqrt_nonneg _) (by positivity) (small_err hN)
    (le_trans e1 (up hNa (Real.sqrt_nonneg _))) (le_trans e2 (up hNb (Real.sqrt_nonneg _)))
  rw [Real.sq_sqrt (ssq_nonneg _), Real.sq_sqrt (ssq_nonneg _)] at this
  refine le_trans this (le_of_eq ?_)
  ring

end FN

end Verif.Props
