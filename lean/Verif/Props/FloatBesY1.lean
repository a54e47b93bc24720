import Verif.BesselModulus
import Verif.Props.FloatBes8
import Mathlib.Analysis.Complex.Norm
/-!
# `sbessely` in doubles
-/
namespace Verif.Props
open Verif
variable {rnd : ℝ → ℝ}

namespace FB

/-- The values of `sbessely`. -/
noncomputable def fY (rnd : ℝ → ℝ) (lib : Fl.BesLib) (x : ℝ) : ℕ → ℝ
  | 0 => rnd (-lib.cos x / x)
  | 1 => rnd (rnd (-lib.cos x / lib.sq x) - rnd (lib.sin x / x))
  | n + 2 => rnd (rnd (rnd ((2 * ((n + 1 : ℕ) : ℝ) + 1) / x) * fY rnd lib x (n + 1)) - fY rnd lib x n)

theorem odd_int' (hr : IsRounding rnd) {n : ℕ} (hn : n ≤ 2 ^ 20) : rnd (rnd (2 * Fl.ofInt rnd ((n + 2 : ℕ) : ℤ)) - 1) = 2 * ((n + 1 : ℕ) : ℝ) + 1 := by
  have hn2 : (n : ℤ) ≤ 2 ^ 20 := by exact_mod_cast hn
  rw [ofInt_eq hr (by rw [abs_lt]; push_cast; omega)]
  rw [rnd_int hr (x := 2 * (((n + 2 : ℕ) : ℤ) : ℝ)) (2 * (n + 2)) (by push_cast; ring) (by rw [abs_lt]; omega), rnd_int hr (2 * (n + 2) - 1) (by push_cast; ring) (by rw [abs_lt]; omega)]
  push_cast; ring

theorem sby_struct (hr : IsRounding rnd) (lib : Fl.BesLib) {x : ℝ} {N : ℕ} (h2 : 2 ≤ N) (hN : N ≤ 2 ^ 20) (hx : x ≠ 0) (hz : lib.sq x ≠ 0) :
    ∃ out, Fl.sbessely rnd lib x N = .ok out ∧ out.length = N ∧ ∀ n, n < N → rd out n = fY rnd lib x n := by
  unfold Fl.sbessely
  rw [ScalarCoefs.npFull_of_nonneg (by omega)]
  simp only [Except.bind_ok, Int.toNat_natCast, Fl.npDiv, if_neg hx, if_neg hz]
  have s0 := setIdxR (l := List.replicate N (0 : ℝ)) 0 (rnd (-lib.cos x / x)) (by simp; omega)
  simp only [Nat.cast_zero] at s0
  rw [s0]
  simp only [Except.bind_ok]
  have s1 := setIdxR (l := (List.replicate N (0 : ℝ)).set 0 (rnd (-lib.cos x / x))) 1 (rnd (rnd (-lib.cos x / lib.sq x) - rnd (lib.sin x / x))) (by simp; omega)
  simp only [Nat.cast_one] at s1
  rw [s1]
  simp only [Except.bind_ok]
  obtain ⟨out, e, h1, h2⟩ := forM'_range_inv (a := 2) (b := (N : Int)) (by omega)
    (((List.replicate N (0 : ℝ)).set 0 (rnd (-lib.cos x / x))).set 1 (rnd (rnd (-lib.cos x / lib.sq x) - rnd (lib.sin x / x))))
    (fun out n => (getIdx out (n - 1)).bind fun a => (getIdx out (n - 2)).bind fun b =>
      setIdx out n (rnd (rnd (rnd (rnd (rnd (2 * Fl.ofInt rnd n) - 1) / x) * a) - b)))
    (fun k out => out.length = N ∧ ∀ n : ℕ, (n : Int) < k → rd out n = fY rnd lib x n)
    ⟨by simp, fun n hn => by
      rw [rd_set _ _ _ _ (by simp; omega), rd_set _ _ _ _ (by simp; omega)]
      have : n = 0 ∨ n = 1 := by omega
      rcases this with rfl | rfl <;> simp [fY]⟩
    (by
      rintro i out h1 h2 ⟨hl, hv⟩
      obtain ⟨n, rfl⟩ : ∃ n : ℕ, i = ((n + 2 : ℕ) : Int) := ⟨(i - 2).toNat, by omega⟩
      rw [odd_int' hr (by omega), show ((n + 2 : ℕ) : Int) - 1 = ((n + 1 : ℕ) : Int) by push_cast; ring, show ((n + 2 : ℕ) : Int) - 2 = (n : Int) by push_cast; ring,
        getIdxR _ (by omega), getIdxR _ (by omega)]
      simp only [Except.bind_ok]
      rw [setIdxR _ _ (by omega)]
      refine ⟨_, rfl, by simp [hl], fun j hj => ?_⟩
      rw [rd_set _ _ _ _ (by omega)]
      split
      · next h =>
        subst h
        rw [hv _ (by push_cast; omega), hv _ (by push_cast; omega), fY]
      · next h => exact hv j (by push_cast at hj ⊢; omega))
  exact ⟨out, e, h1, fun n hn => h2 n (by omega)⟩

/-- The modulus. -/
noncomputable def sphM (n : ℕ) (x : ℝ) : ℝ := √(sphJ n x ^ 2 + sphN n x ^ 2)

/-- The spherical Hankel function. -/
noncomputable def sphH (n : ℕ) (x : ℝ) : ℂ := ⟨sphJ n x, sphN n x⟩

theorem norm_sphH (n : ℕ) (x : ℝ) : ‖sphH n x‖ = sphM n x := by
  rw [Complex.norm_def, Complex.normSq_apply]; unfold sphM sphH; congr 1; ring

theorem sphM_mono {x : ℝ} (hx : x ≠ 0) (n : ℕ) : sphM n x ≤ sphM (n + 1) x := Real.sqrt_le_sqrt (modulus_mono hx n)

theorem sphM_le {x : ℝ} (hx : x ≠ 0) {n m : ℕ} (h : n ≤ m) : sphM n x ≤ sphM m x := monotone_nat_of_le_succ (sphM_mono hx) h

theorem sphM_zero {x : ℝ} (hx : x ≠ 0) : sphM 0 x = 1 / |x| := by
  unfold sphM
  have : sphJ 0 x ^ 2 + sphN 0 x ^ 2 = (1 / |x|) ^ 2 := by
    simp only [sphJ, sphN, div_pow, sq_abs, neg_sq]
    rw [← add_div, Real.sin_sq_add_cos_sq, one_pow]
  rw [this, Real.sqrt_sq (by positivity)]

theorem sphM_one {x : ℝ} (hx : x ≠ 0) : |Real.cos x / x ^ 2| + |Real.sin x / x| ≤ sphM 1 x := by
  unfold sphM
  refine Real.le_sqrt_of_sq_le ?_
  have e : sphJ 1 x ^ 2 + sphN 1 x ^ 2 = (Real.sin x ^ 2 + Real.cos x ^ 2) * (1 / x ^ 2 * (1 / x ^ 2) + 1 / x ^ 2) := by
    simp only [sphJ, sphN]
    field_simp
    ring
  rw [e, abs_div, abs_div, abs_of_pos (show 0 < x ^ 2 by positivity), Real.sin_sq_add_cos_sq, one_mul]
  have sc := Real.sin_sq_add_cos_sq x
  rw [← sq_abs (Real.sin x), ← sq_abs (Real.cos x)] at sc
  have xp := abs_pos.2 hx
  have x2 : x ^ 2 = |x| ^ 2 := (sq_abs x).symm
  rw [x2]
  generalize |Real.sin x| = s at *
  generalize |Real.cos x| = c at *
  generalize |x| = X at *
  have h : 1 / X ^ 2 * (1 / X ^ 2) + 1 / X ^ 2 - (c / X ^ 2 + s / X) ^ 2 = (s / X ^ 2 - c / X) ^ 2 := by
    field_simp
    linear_combination (-(1 + X ^ 2)) * sc
  have := sq_nonneg (s / X ^ 2 - c / X)
  linarith

theorem sphH_succ (n : ℕ) (h : 1 ≤ n) (x : ℝ) : sphH (n + 1) x = (((2 * (n : ℝ) + 1) / x : ℝ) : ℂ) * sphH n x - sphH (n - 1) x := by
  unfold sphH
  apply Complex.ext
  · simp [sphJ_succ n h]
  · simp [sphN_succ n h]

/-- One step of the recurrence. -/
theorem y_step (hr : IsRounding rnd) {B Y Z m S X : ℝ} (hX : 0 < X) (hX2 : X ≤ 2 ^ (900 : ℤ)) (hB : 1 / X ≤ |B|) (hB2 : |B| ≤ 2 ^ (1022 : ℤ)) (m0 : 0 ≤ m) (hS : |B| * m ≤ 2 * S) (S1 : 1 / X ≤ S) (S2 : S ≤ 2 ^ (1000 : ℤ))
    (hY : |Y| ≤ 101 / 100 * m) (hZ : |Z| ≤ 101 / 100 * S) : |rnd (rnd (rnd B * Y) - Z) - (B * Y - Z)| ≤ 8 * uu * S := by
  have u0 := uu_pos
  have u1 := uu_lt
  have t0 := tiny_pos
  have Xi : 0 < 1 / X := by positivity
  have S0 : 0 < S := lt_of_lt_of_le Xi S1
  have tX : tiny ≤ uu / 100 * (1 / X) := by
    have h : (2 : ℝ) ^ (-900 : ℤ) ≤ 1 / X := by
      rw [zpow_neg, ← one_div]
      exact one_div_le_one_div_of_le hX hX2
    have h2 : tiny ≤ uu / 100 * 2 ^ (-900 : ℤ) := by
      unfold tiny uu
      calc (2 : ℝ) ^ (-1074 : ℤ) ≤ 2 ^ ((-53) + (-7) + (-900) : ℤ) := zpow_le_zpow_right₀ (by norm_num) (by norm_num)
        _ = 2 ^ (-53 : ℤ) * 2 ^ (-7 : ℤ) * 2 ^ (-900 : ℤ) := by rw [zpow_add₀ (by norm_num), zpow_add₀ (by norm_num)]
        _ ≤ 2 ^ (-53 : ℤ) / 100 * 2 ^ (-900 : ℤ) := by
          refine mul_le_mul_of_nonneg_right ?_ (by positivity)
          rw [div_eq_mul_inv]
          exact mul_le_mul_of_nonneg_left (by norm_num) (by positivity)
    exact h2.trans (mul_le_mul_of_nonneg_left h (by positivity))
  have tS : tiny ≤ uu / 100 * S := tX.trans (mul_le_mul_of_nonneg_left S1 (by positivity))
  have big : 10 * S ≤ 2 ^ (1022 : ℤ) := by
    calc 10 * S ≤ 2 ^ (22 : ℤ) * 2 ^ (1000 : ℤ) := mul_le_mul (by norm_num) S2 S0.le (by positivity)
      _ = 2 ^ (1022 : ℤ) := by rw [← zpow_add₀ (by norm_num)]; norm_num
  have b1 := rnd_err hr hB2
  have b2 : |rnd B - B| ≤ 102 / 100 * uu * |B| := by
    have : uu / 100 * (1 / X) ≤ uu / 100 * |B| := mul_le_mul_of_nonneg_left hB (by positivity)
    linarith
  have BY : |B| * |Y| ≤ 202 / 100 * S := by
    have : |B| * |Y| ≤ |B| * (101 / 100 * m) := mul_le_mul_of_nonneg_left hY (abs_nonneg _)
    linarith
  have e1 : |rnd B * Y - B * Y| ≤ 207 / 100 * uu * S := by
    rw [← sub_mul, abs_mul]
    have h1 : |rnd B - B| * |Y| ≤ 102 / 100 * uu * |B| * |Y| := mul_le_mul_of_nonneg_right b2 (abs_nonneg _)
    have h2 : 102 / 100 * uu * (|B| * |Y|) ≤ 102 / 100 * uu * (202 / 100 * S) := mul_le_mul_of_nonneg_left BY (by positivity)
    have := mul_pos u0 S0
    linarith
  have uS : uu * S ≤ 1 / 1000 * S := mul_le_mul_of_nonneg_right (u1.trans (by norm_num)) S0.le
  have uS0 := mul_pos u0 S0
  have bY : |rnd B * Y| ≤ 203 / 100 * S := by
    have := abs_sub_abs_le_abs_sub (rnd B * Y) (B * Y)
    rw [abs_mul B] at this
    linarith
  have c1 := rnd_err hr (x := rnd B * Y) ((bY.trans (by linarith : 203 / 100 * S ≤ 10 * S)).trans big)
  have c2 : |rnd (rnd B * Y) - rnd B * Y| ≤ 204 / 100 * uu * S := by
    have : uu * |rnd B * Y| ≤ uu * (203 / 100 * S) := mul_le_mul_of_nonneg_left bY u0.le
    linarith
  have c3 : |rnd (rnd B * Y) - Z| ≤ 305 / 100 * S := by
    have h1 := abs_sub (rnd (rnd B * Y)) Z
    have h2 := abs_sub_abs_le_abs_sub (rnd (rnd B * Y)) (rnd B * Y)
    linarith
  have d1 := rnd_err hr (x := rnd (rnd B * Y) - Z) ((c3.trans (by linarith : 305 / 100 * S ≤ 10 * S)).trans big)
  have d2 : uu * |rnd (rnd B * Y) - Z| ≤ uu * (305 / 100 * S) := mul_le_mul_of_nonneg_left c3 u0.le
  have tot : |rnd (rnd (rnd B * Y) - Z) - (B * Y - Z)| ≤ |rnd (rnd (rnd B * Y) - Z) - (rnd (rnd B * Y) - Z)| + |rnd (rnd B * Y) - rnd B * Y| + |rnd B * Y - B * Y| := by
    rw [show rnd (rnd (rnd B * Y) - Z) - (B * Y - Z) = (rnd (rnd (rnd B * Y) - Z) - (rnd (rnd B * Y) - Z)) + (rnd (rnd B * Y) - rnd B * Y) + (rnd B * Y - B * Y) by ring]
    exact abs_add_three _ _ _
  linarith

end FB
end Verif.Props
