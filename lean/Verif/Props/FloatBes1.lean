import Verif.FloatBessel
import Verif.BesselRatio
import Verif.Props.FloatTable
/-!
# `sbesselj` in doubles: the `while` loop
-/
namespace Verif.Props
open Verif
variable {rnd : ℝ → ℝ}

namespace FB

theorem uu_val : uu = 1 / 2 ^ 53 := by unfold uu; rw [zpow_neg]; norm_num

theorem uu_lt : uu ≤ 12 / 10 ^ 17 := by rw [uu_val]; norm_num

/-- One rounding of a value of ordinary size. -/
theorem rr (hr : IsRounding rnd) {y : ℝ} (h0 : 1 / 10 ^ 75 ≤ |y|) (h1 : |y| ≤ 10 ^ 75) : |rnd y - y| ≤ uu * |y| := by
  have b0 : (2 : ℝ) ^ (-1022 : ℤ) ≤ 1 / 10 ^ 75 := by
    calc (2 : ℝ) ^ (-1022 : ℤ) ≤ 2 ^ (-250 : ℤ) := zpow_le_zpow_right₀ (by norm_num) (by norm_num)
      _ ≤ 1 / 10 ^ 75 := by norm_num
  have b1 : (10 : ℝ) ^ 75 ≤ 2 ^ (1022 : ℤ) := by
    calc (10 : ℝ) ^ 75 ≤ 2 ^ (250 : ℤ) := by norm_num
      _ ≤ 2 ^ (1022 : ℤ) := zpow_le_zpow_right₀ (by norm_num) (by norm_num)
  have b2 : (10 : ℝ) ^ 75 ≤ 2 ^ 1023 := by
    calc (10 : ℝ) ^ 75 ≤ 2 ^ 250 := by norm_num
      _ ≤ 2 ^ 1023 := pow_le_pow_right₀ (by norm_num) (by norm_num)
  rcases le_total 0 y with hy | hy
  · rw [abs_of_nonneg hy] at *
    exact rnd_rel hr (b0.trans h0) (h1.trans b1)
  · rw [abs_of_nonpos hy] at *
    have h := rnd_rel hr (x := -y) (b0.trans h0) (h1.trans b1)
    rw [hr.odd y (by rw [abs_of_nonpos hy]; exact h1.trans b2)] at h
    rw [← abs_neg, show -(rnd y - y) = -rnd y - -y by ring]
    exact h

theorem rr0 (hr : IsRounding rnd) {y : ℝ} (h0 : y = 0 ∨ 1 / 10 ^ 75 ≤ |y|) (h1 : |y| ≤ 10 ^ 75) : |rnd y - y| ≤ uu * |y| := by
  rcases h0 with h0 | h0
  · rw [h0, rnd_zero hr]; simp
  · exact rr hr h0 h1

theorem big10 {y : ℝ} (h : |y| ≤ 10 ^ 75) : |y| ≤ 2 ^ 1023 := h.trans (by
    calc (10 : ℝ) ^ 75 ≤ 2 ^ 250 := by norm_num
      _ ≤ 2 ^ 1023 := pow_le_pow_right₀ (by norm_num) (by norm_num))

/-- Rounding adds one unit to a relative error. -/
theorem rel_rnd (hr : IsRounding rnd) {y Y e : ℝ} (h : |y - Y| ≤ e * uu * |Y|) (he0 : 0 ≤ e) (he : e ≤ 10 ^ 10) (h0 : 1 / 10 ^ 70 ≤ |Y|) (h1 : |Y| ≤ 10 ^ 70) :
    |rnd y - Y| ≤ (e + 1 + (e + 1) / 10 ^ 5) * uu * |Y| := by
  have u0 := uu_pos
  have u1 := uu_lt
  have p : 0 < |Y| := lt_of_lt_of_le (by norm_num) h0
  have eu : e * uu ≤ 1 / 10 ^ 5 := by nlinarith
  have a1 : |y| ≤ |Y| + e * uu * |Y| := by
    have := abs_sub_abs_le_abs_sub y Y
    linarith
  have a2 : |Y| - e * uu * |Y| ≤ |y| := by
    have := abs_sub_abs_le_abs_sub Y y
    rw [abs_sub_comm] at this
    linarith
  have l1 : |Y| / 2 ≤ |y| := by nlinarith
  have l2 : |y| ≤ 2 * |Y| := by nlinarith
  have c1 : (1 : ℝ) / 10 ^ 75 ≤ 1 / 10 ^ 70 / 2 := by norm_num
  have c2 : (2 : ℝ) * 10 ^ 70 ≤ 10 ^ 75 := by norm_num
  have h2 := rr hr (y := y) (by linarith) (by linarith)
  have h3 : |rnd y - Y| ≤ |rnd y - y| + |y - Y| := by
    rw [show rnd y - Y = (rnd y - y) + (y - Y) by ring]; exact abs_add_le _ _
  have h4 : uu * |y| ≤ uu * (|Y| + e * uu * |Y|) := mul_le_mul_of_nonneg_left a1 u0.le
  have h5 : uu * (e * uu * |Y|) ≤ uu * (1 / 10 ^ 5 * |Y|) := mul_le_mul_of_nonneg_left (mul_le_mul_of_nonneg_right eu p.le) u0.le
  have h6 : 0 ≤ e * (uu * |Y|) := by positivity
  have h7 : 0 ≤ uu * |Y| := by positivity
  nlinarith

theorem rel_rnd' (hr : IsRounding rnd) {y Y e : ℝ} (h : |y - Y| ≤ e * uu * |Y|) (he0 : 0 ≤ e) (he : e ≤ 10 ^ 10) (h0 : 1 / 10 ^ 70 ≤ |Y|) (h1 : |Y| ≤ 10 ^ 70) :
    |rnd y - Y| ≤ (e + 1 + 1 / 10 ^ 5) * uu * |Y| := by
  have u0 := uu_pos
  have u1 := uu_lt
  have p : 0 < |Y| := lt_of_lt_of_le (by norm_num) h0
  have eu : e * uu ≤ 1 / 10 ^ 5 := by nlinarith
  have a1 : |y| ≤ |Y| + e * uu * |Y| := by
    have := abs_sub_abs_le_abs_sub y Y
    linarith
  have a2 : |Y| - e * uu * |Y| ≤ |y| := by
    have := abs_sub_abs_le_abs_sub Y y
    rw [abs_sub_comm] at this
    linarith
  have l1 : |Y| / 2 ≤ |y| := by nlinarith
  have l2 : |y| ≤ 2 * |Y| := by nlinarith
  have c1 : (1 : ℝ) / 10 ^ 75 ≤ 1 / 10 ^ 70 / 2 := by norm_num
  have c2 : (2 : ℝ) * 10 ^ 70 ≤ 10 ^ 75 := by norm_num
  have h2 := rr hr (y := y) (by linarith) (by linarith)
  have h3 : |rnd y - Y| ≤ |rnd y - y| + |y - Y| := by
    rw [show rnd y - Y = (rnd y - y) + (y - Y) by ring]; exact abs_add_le _ _
  have h4 : uu * |y| ≤ uu * (|Y| + e * uu * |Y|) := mul_le_mul_of_nonneg_left a1 u0.le
  have h5 : uu * (e * uu * |Y|) ≤ uu * (1 / 10 ^ 5 * |Y|) := mul_le_mul_of_nonneg_left (mul_le_mul_of_nonneg_right eu p.le) u0.le
  calc |rnd y - Y| ≤ uu * (|Y| + e * uu * |Y|) + e * uu * |Y| := by linarith
    _ = uu * |Y| + uu * (e * uu * |Y|) + e * uu * |Y| := by ring
    _ ≤ uu * |Y| + uu * (1 / 10 ^ 5 * |Y|) + e * uu * |Y| := by linarith
    _ = (e + 1 + 1 / 10 ^ 5) * uu * |Y| := by ring

theorem isD1 : IsDouble 1 := by simpa using isDouble_pow 0 (by norm_num) (by norm_num)

theorem isD_double (hr : IsRounding rnd) {y : ℝ} (h1 : |y| ≤ 10 ^ 75) : IsDouble (rnd y) := hr.double y (big10 h1)

theorem rnd_dbl (hr : IsRounding rnd) {y : ℝ} (hd : IsDouble y) (h1 : |y| ≤ 10 ^ 75) : rnd y = y := rnd_double hr hd (big10 h1)

/-- The exact integers of the loop: `4 n^2 - 1`. -/
theorem fourn (hr : IsRounding rnd) {n : ℕ} (hn : n ≤ 2 ^ 20) : rnd (rnd (4 * Fl.ofInt rnd ((n : Int) ^ 2)) - 1) = 4 * (n : ℝ) ^ 2 - 1 := by
  have hn2 : (n : ℤ) ≤ 2 ^ 20 := by exact_mod_cast hn
  have hn0 : (0 : ℤ) ≤ n := by positivity
  have e : (n : ℤ) ^ 2 ≤ (2 ^ 20) ^ 2 := pow_le_pow_left₀ hn0 hn2 2
  have e0 : 0 ≤ (n : ℤ) ^ 2 := by positivity
  rw [ofInt_eq hr (by rw [abs_of_nonneg e0]; omega)]
  have h1 : rnd (4 * (((n : ℤ) ^ 2 : ℤ) : ℝ)) = ((4 * (n : ℤ) ^ 2 : ℤ) : ℝ) := rnd_int hr _ (by push_cast; ring) (by rw [abs_of_nonneg (by omega)]; omega)
  have h2 : rnd (((4 * (n : ℤ) ^ 2 : ℤ) : ℝ) - 1) = ((4 * (n : ℤ) ^ 2 - 1 : ℤ) : ℝ) := rnd_int hr _ (by push_cast; ring) (by rw [abs_lt]; constructor <;> omega)
  rw [h1, h2]
  push_cast; ring

theorem odd_int (hr : IsRounding rnd) {n : ℕ} (hn : n ≤ 2 ^ 20) : rnd (rnd (2 * Fl.ofInt rnd (n : Int)) + 1) = 2 * (n : ℝ) + 1 := by
  have hn2 : (n : ℤ) ≤ 2 ^ 20 := by exact_mod_cast hn
  have hn0 : (0 : ℤ) ≤ n := by positivity
  rw [ofInt_eq hr (by rw [abs_of_nonneg hn0]; omega)]
  have h1 : rnd (2 * ((n : ℤ) : ℝ)) = ((2 * (n : ℤ) : ℤ) : ℝ) := rnd_int hr _ (by push_cast; ring) (by rw [abs_of_nonneg (by omega)]; omega)
  have h2 : rnd (((2 * (n : ℤ) : ℤ) : ℝ) + 1) = ((2 * (n : ℤ) + 1 : ℤ) : ℝ) := rnd_int hr _ (by push_cast; ring) (by rw [abs_lt]; constructor <;> omega)
  rw [h1, h2]
  push_cast; ring

/-- `u - 1` is exact for `1 ≤ u ≤ 2`, and zero or at least `2^-52`. -/
theorem sub_one (hr : IsRounding rnd) {u : ℝ} (hu : IsDouble u) (h1 : 1 ≤ u) (h2 : u ≤ 2) : rnd (u - 1) = u - 1 ∧ (u - 1 = 0 ∨ 1 / 10 ^ 20 ≤ u - 1) := by
  obtain ⟨m, e, hm, he0, he1, rfl⟩ := hu
  have m0 : (0 : ℝ) < m := by
    by_contra h
    rw [not_lt] at h
    have : (m : ℝ) * 2 ^ e ≤ 0 := mul_nonpos_of_nonpos_of_nonneg h (by positivity)
    linarith
  have mz : 0 < m := by exact_mod_cast m0
  have hmr : (m : ℝ) < 2 ^ 53 := by
    have : m < 2 ^ 53 := lt_of_le_of_lt (le_abs_self m) hm
    exact_mod_cast this
  have e53 : -53 < e := by
    by_contra h
    rw [not_lt] at h
    have : (2 : ℝ) ^ e ≤ 2 ^ (-53 : ℤ) := zpow_le_zpow_right₀ (by norm_num) h
    have h3 : (m : ℝ) * 2 ^ e < 2 ^ 53 * 2 ^ (-53 : ℤ) := by
      calc (m : ℝ) * 2 ^ e ≤ m * 2 ^ (-53 : ℤ) := mul_le_mul_of_nonneg_left this m0.le
        _ < _ := mul_lt_mul_of_pos_right hmr (by positivity)
    norm_num at h3 h1
    linarith
  obtain ⟨k, hk⟩ : ∃ k : ℕ, e = -52 + k := ⟨(e + 52).toNat, by omega⟩
  have eq : (m : ℝ) * 2 ^ e - 1 = ((m * 2 ^ k - 2 ^ 52 : ℤ) : ℝ) * 2 ^ (-52 : ℤ) := by
    rw [hk, zpow_add₀ (by norm_num)]
    push_cast
    rw [zpow_natCast, sub_mul]
    norm_num
    ring
  have hz0 : 0 ≤ m * 2 ^ k - 2 ^ 52 := by
    by_contra h
    rw [not_le] at h
    have : (m : ℝ) * 2 ^ e - 1 < 0 := by
      rw [eq]
      exact mul_neg_of_neg_of_pos (by exact_mod_cast h) (by positivity)
    linarith
  have hz1 : m * 2 ^ k - 2 ^ 52 ≤ 2 ^ 52 := by
    by_contra h
    rw [not_le] at h
    have h' : (2 : ℝ) ^ 52 < ((m * 2 ^ k - 2 ^ 52 : ℤ) : ℝ) := by exact_mod_cast h
    have : 1 < (m : ℝ) * 2 ^ e - 1 := by
      rw [eq]
      calc (1 : ℝ) = 2 ^ 52 * 2 ^ (-52 : ℤ) := by norm_num
        _ < _ := mul_lt_mul_of_pos_right h' (by positivity)
    linarith
  refine ⟨?_, ?_⟩
  · refine rnd_dbl hr ⟨m * 2 ^ k - 2 ^ 52, -52, by rw [abs_of_nonneg hz0]; omega, by norm_num, by norm_num, eq⟩ ?_
    rw [abs_le]; constructor <;> norm_num <;> linarith
  · rw [eq]
    rcases hz0.eq_or_lt with h | h
    · left; rw [← h]; simp
    · right
      have : (1 : ℝ) ≤ ((m * 2 ^ k - 2 ^ 52 : ℤ) : ℝ) := by exact_mod_cast h
      calc (1 : ℝ) / 10 ^ 20 ≤ 1 * 2 ^ (-52 : ℤ) := by norm_num
        _ ≤ _ := mul_le_mul_of_nonneg_right this (by positivity)

/-- Elementary bounds of `t = x^2/(4n^2-1)`. -/
theorem t_bounds {x : ℝ} {M n : ℕ} (hx0 : 1 / 10 ^ 20 ≤ |x|) (hM1 : 1 ≤ M) (hM : |x| ≤ M + 1 / 2) (hn : M + 1 ≤ n) (hn2 : n ≤ 2 ^ 20) :
    1 / 10 ^ 60 ≤ x ^ 2 / (4 * (n : ℝ) ^ 2 - 1) ∧ x ^ 2 / (4 * (n : ℝ) ^ 2 - 1) ≤ 1 / 4 - 1 / (2 * (2 * (n : ℝ) + 1)) ∧ 1 / (4 * (n : ℝ)) + 12 * uu ≤ 1 / (2 * (n : ℝ) + 1) ∧
      (2 * M ≤ n → x ^ 2 / (4 * (n : ℝ) ^ 2 - 1) ≤ 3 / 20) := by
  have u0 := uu_pos
  have u1 := uu_lt
  have hM1r : (1 : ℝ) ≤ M := by exact_mod_cast hM1
  have hnr : (M : ℝ) + 1 ≤ n := by exact_mod_cast hn
  have hn2r : (n : ℝ) ≤ 2 ^ 20 := by exact_mod_cast hn2
  have xa : 0 < |x| := lt_of_lt_of_le (by norm_num) hx0
  have xsq : x ^ 2 = |x| ^ 2 := (sq_abs x).symm
  have D0 : 0 < 4 * (n : ℝ) ^ 2 - 1 := by nlinarith
  have x2 : x ^ 2 ≤ (n - 1 / 2) ^ 2 := by rw [xsq]; exact pow_le_pow_left₀ xa.le (by linarith) 2
  have p : 0 < 2 * (n : ℝ) + 1 := by linarith
  have p' : 0 < 2 * (n : ℝ) - 1 := by linarith
  refine ⟨?_, ?_, ?_, fun h2 => ?_⟩
  · rw [le_div_iff₀ D0, xsq]
    calc (1 : ℝ) / 10 ^ 60 * (4 * (n : ℝ) ^ 2 - 1) ≤ 1 / 10 ^ 60 * 10 ^ 13 := mul_le_mul_of_nonneg_left (by nlinarith) (by norm_num)
      _ ≤ (1 / 10 ^ 20) ^ 2 := by norm_num
      _ ≤ _ := pow_le_pow_left₀ (by norm_num) hx0 2
  · rw [div_le_iff₀ D0]
    have e : (1 / 4 - 1 / (2 * (2 * (n : ℝ) + 1))) * (4 * (n : ℝ) ^ 2 - 1) = (n - 1 / 2) ^ 2 := by field_simp; ring
    rw [e]; exact x2
  · have q : 0 < (n : ℝ) := by linarith
    have : 1 / (2 * (n : ℝ) + 1) - 1 / (4 * (n : ℝ)) = (2 * n - 1) / (4 * n * (2 * n + 1)) := by field_simp; ring
    have h2 : 12 * uu ≤ (2 * (n : ℝ) - 1) / (4 * n * (2 * n + 1)) := by
      rw [le_div_iff₀ (by positivity)]
      have : 4 * (n : ℝ) * (2 * n + 1) ≤ 10 ^ 14 * (2 * n - 1) := by nlinarith
      nlinarith
    linarith
  · have h2r : 2 * (M : ℝ) ≤ n := by exact_mod_cast h2
    rw [div_le_iff₀ D0]
    have : x ^ 2 ≤ (M + 1 / 2 : ℝ) ^ 2 := by rw [xsq]; exact pow_le_pow_left₀ xa.le hM 2
    nlinarith

/-- The divisor of the loop. -/
theorem den_err (hr : IsRounding rnd) {x z u t : ℝ} {n : ℕ} (hn1 : 1 ≤ n) (hn2 : n ≤ 2 ^ 20) (ht : t = x ^ 2 / (4 * (n : ℝ) ^ 2 - 1)) (t0 : 1 / 10 ^ 60 ≤ t) (t1 : t ≤ 1 / 4)
    (hz : |z - x ^ 2| ≤ 2 * uu * x ^ 2) (hu1 : 1 ≤ u) (hu2 : u ≤ 2) :
    |Fl.sbjDen rnd z u n - (1 - t * u)| ≤ 7 / 2 * uu ∧ Fl.sbjDen rnd z u n ≤ 1 := by
  have u0 := uu_pos
  have u1 := uu_lt
  have hn1r : (1 : ℝ) ≤ n := by exact_mod_cast hn1
  have hn2r : (n : ℝ) ≤ 2 ^ 20 := by exact_mod_cast hn2
  have D0 : 3 ≤ 4 * (n : ℝ) ^ 2 - 1 := by nlinarith
  have Dle : 4 * (n : ℝ) ^ 2 - 1 ≤ 10 ^ 13 := by nlinarith
  unfold Fl.sbjDen
  rw [fourn hr hn2]
  generalize 4 * (n : ℝ) ^ 2 - 1 = D at *
  have Dp : 0 < D := by linarith
  have tD : t * D = x ^ 2 := by rw [ht]; field_simp
  have tp : 0 < t := lt_of_lt_of_le (by norm_num) t0
  have up : 0 < u := by linarith
  have zu : |rnd (z * u) - x ^ 2 * u| ≤ (2 + 1 + (2 + 1) / 10 ^ 5) * uu * |x ^ 2 * u| := by
    have e : |x ^ 2 * u| = t * D * u := by rw [← tD, abs_of_pos (by positivity)]
    refine rel_rnd hr ?_ (by norm_num) (by norm_num) ?_ ?_
    · rw [← sub_mul, abs_mul, abs_mul, abs_of_pos up, abs_of_nonneg (sq_nonneg x), ← mul_assoc]
      exact mul_le_mul_of_nonneg_right hz up.le
    · rw [e]
      calc (1 : ℝ) / 10 ^ 70 ≤ 1 / 10 ^ 60 * 1 * 1 := by norm_num
        _ ≤ t * D * u := mul_le_mul (mul_le_mul t0 (by linarith) (by norm_num) tp.le) hu1 (by norm_num) (by positivity)
    · rw [e]
      calc t * D * u ≤ 1 / 4 * 10 ^ 13 * 2 := mul_le_mul (mul_le_mul t1 Dle Dp.le (by norm_num)) hu2 up.le (by norm_num)
        _ ≤ 10 ^ 70 := by norm_num
  set zr := rnd (z * u)
  have tup : 0 < t * u := by positivity
  have tu2 : t * u ≤ 1 / 2 := by nlinarith
  have q : |rnd (zr / D) - t * u| ≤ (31 / 10 + 1 + (31 / 10 + 1) / 10 ^ 5) * uu * |t * u| := by
    refine rel_rnd hr ?_ (by norm_num) (by norm_num) ?_ ?_
    · have e : t * u = x ^ 2 * u / D := by rw [← tD]; field_simp
      rw [e, ← sub_div, abs_div, abs_div, abs_of_pos Dp, ← mul_div_assoc]
      refine div_le_div_of_nonneg_right (zu.trans ?_) Dp.le
      exact mul_le_mul_of_nonneg_right (mul_le_mul_of_nonneg_right (by norm_num) u0.le) (abs_nonneg _)
    · rw [abs_of_pos tup]
      calc (1 : ℝ) / 10 ^ 70 ≤ 1 / 10 ^ 60 * 1 := by norm_num
        _ ≤ t * u := mul_le_mul t0 hu1 (by norm_num) tp.le
    · rw [abs_of_pos tup]
      exact tu2.trans (by norm_num)
  set qh := rnd (zr / D)
  rw [abs_of_pos tup] at q
  have q' := abs_le.1 q
  have hs : (31 / 10 + 1 + (31 / 10 + 1) / 10 ^ 5 : ℝ) * uu * (t * u) ≤ 5 * uu * (t * u) := mul_le_mul_of_nonneg_right (mul_le_mul_of_nonneg_right (by norm_num) u0.le) tup.le
  have hs2 : (31 / 10 + 1 + (31 / 10 + 1) / 10 ^ 5 : ℝ) * uu * (t * u) ≤ 5 / 2 * uu := by nlinarith
  have q0 : 0 ≤ qh := by nlinarith
  have qhi : qh ≤ 51 / 100 := by nlinarith
  have ab : |1 - qh| = 1 - qh := abs_of_pos (by linarith)
  have big : |1 - qh| ≤ 10 ^ 75 := by rw [ab]; linarith [show (1 : ℝ) ≤ 10 ^ 75 by norm_num]
  have d1 := rr hr (y := 1 - qh) (by rw [ab]; linarith [show (1 : ℝ) / 10 ^ 75 ≤ 1 / 10 by norm_num]) big
  have dle : rnd (1 - qh) ≤ 1 := rnd_le_double hr (big10 big) isD1 (by linarith)
  rw [ab] at d1
  have d1' := abs_le.1 d1
  have w : uu * (1 - qh) ≤ uu := by nlinarith
  exact ⟨by rw [abs_le]; constructor <;> linarith, dle⟩

/-- One evaluation of `u` in the loop. -/
theorem den_step (hr : IsRounding rnd) {x z u : ℝ} {M n : ℕ} (hx0 : 1 / 10 ^ 20 ≤ |x|) (hM1 : 1 ≤ M) (hM : |x| ≤ M + 1 / 2) (hn : M + 1 ≤ n) (hn2 : n ≤ 2 ^ 20)
    (hz : |z - x ^ 2| ≤ 2 * uu * x ^ 2) (hu1 : 1 ≤ u) (hu2 : u ≤ 2) :
    0 < Fl.sbjDen rnd z u n ∧ IsDouble (rnd (1 / Fl.sbjDen rnd z u n)) ∧ 1 ≤ rnd (1 / Fl.sbjDen rnd z u n) ∧
      |1 / rnd (1 / Fl.sbjDen rnd z u n) - (1 - x ^ 2 / (4 * (n : ℝ) ^ 2 - 1) * u)| ≤ 5 * uu ∧
      1 / 2 + 1 / (4 * (n : ℝ)) ≤ 1 / rnd (1 / Fl.sbjDen rnd z u n) ∧ x ^ 2 / (4 * (n : ℝ) ^ 2 - 1) + 5 * uu ≤ 1 / 4 ∧
      (2 * M ≤ n → 20 / 29 ≤ 1 / rnd (1 / Fl.sbjDen rnd z u n)) := by
  have u0 := uu_pos
  have u1 := uu_lt
  have hnp : (0 : ℝ) < n := by exact_mod_cast (show 0 < n by omega)
  obtain ⟨t0, tb, inv1, t20⟩ := t_bounds hx0 hM1 hM hn hn2
  have i2 : 0 < 1 / (4 * (n : ℝ)) := by positivity
  have e2 : 1 / (2 * (2 * (n : ℝ) + 1)) * 2 = 1 / (2 * (n : ℝ) + 1) := by field_simp
  have i3 : 0 < 1 / (2 * (2 * (n : ℝ) + 1)) := by positivity
  generalize ht : x ^ 2 / (4 * (n : ℝ) ^ 2 - 1) = t at *
  have tp : 0 < t := lt_of_lt_of_le (by norm_num) t0
  obtain ⟨d1, dle⟩ := den_err hr (by omega) hn2 ht.symm t0 (by linarith) hz hu1 hu2
  generalize Fl.sbjDen rnd z u n = d at *
  clear t0
  have tu : t * u ≤ 1 / 2 - 1 / (2 * (n : ℝ) + 1) := by nlinarith
  have d1' := abs_le.1 d1
  have dlo : 49 / 100 ≤ d := by nlinarith
  have dp : 0 < d := by linarith
  have dinv : 1 ≤ 1 / d := by rw [le_div_iff₀ dp]; linarith
  have dinv2 : 1 / d ≤ 3 := by rw [div_le_iff₀ dp]; linarith
  have ab : |1 / d| = 1 / d := abs_of_pos (by positivity)
  have b10 : |1 / d| ≤ 10 ^ 75 := by rw [ab]; exact dinv2.trans (by norm_num)
  have un := rr hr (y := 1 / d) (by rw [ab]; exact le_trans (by norm_num) dinv) b10
  rw [ab] at un
  have ug : 1 ≤ rnd (1 / d) := rnd_ge_double hr (big10 b10) isD1 dinv
  have dbl := isD_double hr b10
  clear b10
  have key : |1 / rnd (1 / d) - d| ≤ uu := by
    generalize rnd (1 / d) = v at *
    have vp : 0 < v := by linarith
    have e : 1 / v - d = (1 / d - v) * d / v := by field_simp
    rw [e, abs_div, abs_mul, abs_of_pos dp, abs_of_pos vp, div_le_iff₀ vp, abs_sub_comm]
    have : |v - 1 / d| * d ≤ uu := by
      calc |v - 1 / d| * d ≤ uu * (1 / d) * d := mul_le_mul_of_nonneg_right un dp.le
        _ = uu := by field_simp
    nlinarith
  have k' := abs_le.1 key
  refine ⟨dp, dbl, ug, by rw [abs_le]; constructor <;> linarith, by linarith, by linarith, fun h2 => ?_⟩
  have tt := t20 h2
  have : t * u ≤ 3 / 10 := by nlinarith
  linarith

end FB
end Verif.Props
