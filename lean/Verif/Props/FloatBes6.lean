import Verif.Props.FloatBes5
import Verif.BesselEnergy
/-!
# `sbesselj` in doubles: the downward recurrence below the turning point
-/
namespace Verif.Props
open Verif
variable {rnd : ℝ → ℝ}

namespace FB

theorem dbl_mult {y : ℝ} (hy : IsDouble y) (h : 1 / 2 ^ 16 ≤ |y|) : ∃ z : ℤ, y = z * (1 / 2 ^ 68) := by
  obtain ⟨m, e, hm, he0, he1, rfl⟩ := hy
  have hmr : |(m : ℝ)| < 2 ^ 53 := by
    have : ((|m| : ℤ) : ℝ) < 2 ^ 53 := by exact_mod_cast hm
    rwa [Int.cast_abs] at this
  have e68 : -69 < e := by
    by_contra hc
    rw [not_lt] at hc
    have h2 : (2 : ℝ) ^ e ≤ 2 ^ (-69 : ℤ) := zpow_le_zpow_right₀ (by norm_num) hc
    have h3 : |(m : ℝ) * 2 ^ e| < 2 ^ 53 * 2 ^ (-69 : ℤ) := by
      rw [abs_mul, abs_of_pos (show (0 : ℝ) < 2 ^ e by positivity)]
      calc |(m : ℝ)| * 2 ^ e ≤ |(m : ℝ)| * 2 ^ (-69 : ℤ) := mul_le_mul_of_nonneg_left h2 (abs_nonneg _)
        _ < _ := mul_lt_mul_of_pos_right hmr (by positivity)
    have h4 : (2 : ℝ) ^ 53 * 2 ^ (-69 : ℤ) = 1 / 2 ^ 16 := by norm_num
    rw [h4] at h3
    exact absurd h3 (not_lt.2 h)
  obtain ⟨k, hk⟩ : ∃ k : ℕ, e = -68 + k := ⟨(e + 68).toNat, by omega⟩
  refine ⟨m * 2 ^ k, ?_⟩
  rw [hk, zpow_add₀ (by norm_num)]
  push_cast
  rw [zpow_natCast]
  norm_num
  ring

/-- Two different doubles, one of ordinary size, are not too close. -/
theorem dbl_gap {a b : ℝ} (ha : IsDouble a) (hb : IsDouble b) (h : 1 / 2 ^ 15 ≤ |a|) (ne : a ≠ b) : 1 / 2 ^ 68 ≤ |a - b| := by
  by_cases h2 : 1 / 2 ^ 16 ≤ |b|
  · obtain ⟨z, hz⟩ := dbl_mult ha (le_trans (by norm_num) h)
    obtain ⟨w, hw⟩ := dbl_mult hb h2
    have zw : z - w ≠ 0 := by
      intro hc
      exact ne (by rw [hz, hw, show z = w by omega])
    have : (1 : ℝ) ≤ |((z - w : ℤ) : ℝ)| := by
      rw [← Int.cast_abs]
      exact_mod_cast Int.one_le_abs zw
    rw [hz, hw, ← sub_mul, abs_mul, ← Int.cast_sub, abs_of_pos (show (0 : ℝ) < 1 / 2 ^ 68 by positivity)]
    nlinarith
  · rw [not_le] at h2
    have := abs_sub_abs_le_abs_sub a b
    have c : (1 : ℝ) / 2 ^ 68 ≤ 1 / 2 ^ 15 - 1 / 2 ^ 16 := by norm_num
    linarith

/-- One row below the turning point, when the divisor is not zero. -/
theorem phaseB_step (hr : IsRounding rnd) {x : ℝ} {r : ℕ → ℝ} {n : ℕ} (hX : |x| ≤ 2 ^ 16 + 1) (h1 : 1 ≤ n) (hn : (n : ℝ) + 1 / 2 < |x|)
    (hd : IsDouble (r (n + 1))) (hb : |r (n + 1)| ≤ 2 ^ (77 : ℤ)) (hD : dD rnd x r n ≠ 0) :
    IsDouble (rnd (1 / dD rnd x r n)) ∧ |rnd (1 / dD rnd x r n)| ≤ 2 ^ (77 : ℤ) ∧ rnd (1 / dD rnd x r n) ≠ 0 ∧
      |1 / rnd (1 / dD rnd x r n) - ((2 * (n : ℝ) + 1) / x - r (n + 1))| ≤ uu * (7 + 3 * |r (n + 1)|) := by
  have u0 := uu_pos
  have u1 := uu_lt
  have hnr : (1 : ℝ) ≤ n := by exact_mod_cast h1
  have xp : 0 < |x| := by linarith
  unfold dD at hD ⊢
  have aA : |(2 * (n : ℝ) + 1) / x| = (2 * n + 1) / |x| := by rw [abs_div, abs_of_pos (by linarith)]
  have A1 : 1 / 2 ^ 15 ≤ |(2 * (n : ℝ) + 1) / x| := by
    rw [aA, le_div_iff₀ xp]
    linarith
  have A2 : |(2 * (n : ℝ) + 1) / x| ≤ 2 := by
    rw [aA, div_le_iff₀ xp]; linarith
  generalize (2 * (n : ℝ) + 1) / x = a at *
  generalize r (n + 1) = b at *
  have c77 : (2 : ℝ) ^ (77 : ℤ) ≤ 10 ^ 24 := by norm_num
  have ra := rr hr (y := a) (le_trans (by norm_num) A1) (A2.trans (by norm_num))
  have da := isD_double hr (y := a) (A2.trans (by norm_num))
  have a15 : 1 / 2 ^ 15 ≤ |rnd a| := by
    have := rnd_abs_ge hr (y := a) (e := -15) (by norm_num) (by norm_num) (le_trans (by norm_num) A1) (A2.trans (by norm_num))
    exact le_trans (by norm_num) this
  have a1 : |rnd a| ≤ 2 := by
    have := rnd_abs_le hr (y := a) (e := 1) (by norm_num) (by norm_num) (A2.trans (by norm_num))
    exact this.trans (by norm_num)
  generalize rnd a = â at *
  have yne : â - b ≠ 0 := by
    intro h0
    rw [h0, rnd_zero hr] at hD
    exact hD rfl
  have ylo : 1 / 2 ^ 68 ≤ |â - b| := dbl_gap da hd a15 (by intro h; exact yne (by rw [h, sub_self]))
  have yhi : |â - b| ≤ 2 + |b| := by
    have := abs_sub â b
    linarith
  have yhi2 : |â - b| ≤ 2 ^ (78 : ℤ) := by
    have : (2 : ℝ) + 2 ^ (77 : ℤ) ≤ 2 ^ (78 : ℤ) := by norm_num
    linarith
  have c78 : (2 : ℝ) ^ (78 : ℤ) ≤ 10 ^ 25 := by norm_num
  have rd1 := rr hr (y := â - b) (le_trans (by norm_num) ylo) ((yhi2.trans c78).trans (by norm_num))
  have Dlo : (2 : ℝ) ^ (-68 : ℤ) ≤ |rnd (â - b)| := rnd_abs_ge hr (by norm_num) (by norm_num) (le_trans (by norm_num) ylo) ((yhi2.trans c78).trans (by norm_num))
  have Dhi : |rnd (â - b)| ≤ 2 ^ (78 : ℤ) := rnd_abs_le hr (by norm_num) (by norm_num) yhi2
  have yv : |(â - b) - (a - b)| ≤ uu * 2 := by
    rw [show (â - b) - (a - b) = â - a by ring]
    exact ra.trans (mul_le_mul_of_nonneg_left A2 u0.le)
  clear hb yhi2 da hd a15 A1
  generalize â - b = y at *
  generalize rnd y = D at *
  have Dp : 0 < |D| := lt_of_lt_of_le (by positivity) Dlo
  have Dn : D ≠ 0 := abs_pos.1 Dp
  have iD : |1 / D| = 1 / |D| := by rw [abs_div, abs_one]
  have ihi : |1 / D| ≤ 2 ^ (68 : ℤ) := by
    rw [iD, div_le_iff₀ Dp]
    calc (1 : ℝ) = 2 ^ (68 : ℤ) * 2 ^ (-68 : ℤ) := by norm_num
      _ ≤ _ := mul_le_mul_of_nonneg_left Dlo (by positivity)
  have ilo : 1 / 10 ^ 30 ≤ |1 / D| := by
    rw [iD, le_div_iff₀ Dp]
    calc 1 / 10 ^ 30 * |D| ≤ 1 / 10 ^ 30 * 10 ^ 25 := mul_le_mul_of_nonneg_left (Dhi.trans c78) (by norm_num)
      _ ≤ 1 := by norm_num
  have c68 : (2 : ℝ) ^ (68 : ℤ) ≤ 10 ^ 21 := by norm_num
  have rr1 := rr hr (y := 1 / D) (le_trans (by norm_num) ilo) ((ihi.trans c68).trans (by norm_num))
  have hi := rnd_abs_le hr (y := 1 / D) (by norm_num) (by norm_num) ihi
  obtain ⟨rn, inv⟩ := inv_rel (d := rnd (1 / D)) (Y := 1 / D) (c := 1) (by positivity) (by norm_num) (by norm_num) (by rw [one_mul]; exact rr1)
  rw [one_div_one_div] at inv
  refine ⟨isD_double hr ((ihi.trans c68).trans (by norm_num)), hi.trans (by norm_num), rn, ?_⟩
  have t : |1 / rnd (1 / D) - (a - b)| ≤ |1 / rnd (1 / D) - D| + (|D - y| + |y - (a - b)|) := by
    rw [show 1 / rnd (1 / D) - (a - b) = (1 / rnd (1 / D) - D) + ((D - y) + (y - (a - b))) by ring]
    exact (abs_add_le _ _).trans (add_le_add le_rfl (abs_add_le _ _))
  have Dy : |D| ≤ |y| + uu * |y| := by
    have := abs_sub_abs_le_abs_sub D y
    linarith
  have b0 := abs_nonneg b
  have y0 := abs_nonneg y
  have uy : uu * |y| ≤ uu * (2 + |b|) := mul_le_mul_of_nonneg_left yhi u0.le
  have uy' : uu * |y| ≤ 1 / 100 * |y| := mul_le_mul_of_nonneg_right (u1.trans (by norm_num)) y0
  have uD : uu * |D| ≤ uu * (101 / 100 * (2 + |b|)) := mul_le_mul_of_nonneg_left (by linarith) u0.le
  have ub : 0 ≤ uu * |b| := mul_nonneg u0.le b0
  have e1 : (1 + 1 / 4 : ℝ) * uu * |D| = 5 / 4 * (uu * |D|) := by ring
  rw [e1] at inv
  linarith

end FB
end Verif.Props
