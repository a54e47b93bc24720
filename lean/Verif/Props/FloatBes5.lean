import Verif.Props.FloatBes4
/-!
# `sbesselj` in doubles: the downward recurrence beyond the turning point
-/
namespace Verif.Props
open Verif
variable {rnd : ℝ → ℝ}

namespace FB

theorem inv_rel {d Y c : ℝ} (hY : Y ≠ 0) (c0 : 0 ≤ c) (c1 : c ≤ 2 * 10 ^ 7) (h : |d - Y| ≤ c * uu * |Y|) : d ≠ 0 ∧ |1 / d - 1 / Y| ≤ (c + 1 / 4) * uu * |1 / Y| := by
  have u0 := uu_pos
  have u1 := uu_lt
  have p := abs_pos.2 hY
  have cu : c * uu ≤ 1 / 10 ^ 8 := by
    calc c * uu ≤ (2 * 10 ^ 7) * (12 / 10 ^ 17) := mul_le_mul c1 u1 u0.le (by norm_num)
      _ ≤ 1 / 10 ^ 8 := by norm_num
  have lo : (1 - c * uu) * |Y| ≤ |d| := by
    have := abs_sub_abs_le_abs_sub Y d
    rw [abs_sub_comm] at this
    linarith
  have dpos : 0 < |d| := lt_of_lt_of_le (mul_pos (by linarith) p) lo
  have dn : d ≠ 0 := abs_pos.1 dpos
  refine ⟨dn, ?_⟩
  have e : 1 / d - 1 / Y = (Y - d) / (d * Y) := by field_simp
  rw [e, abs_div, abs_mul, abs_div, abs_one, abs_sub_comm, div_le_iff₀ (by positivity)]
  have c2 : c * (c * uu) ≤ 1 / 5 := by
    calc c * (c * uu) ≤ (2 * 10 ^ 7) * (1 / 10 ^ 8) := mul_le_mul c1 cu (by positivity) (by norm_num)
      _ ≤ 1 / 5 := by norm_num
  have k : c ≤ (c + 1 / 4) * (1 - c * uu) := by nlinarith
  calc |d - Y| ≤ c * uu * |Y| := h
    _ ≤ (c + 1 / 4) * (1 - c * uu) * uu * |Y| := mul_le_mul_of_nonneg_right (mul_le_mul_of_nonneg_right k u0.le) p.le
    _ = (c + 1 / 4) * uu * ((1 - c * uu) * |Y|) := by ring
    _ ≤ (c + 1 / 4) * uu * |d| := mul_le_mul_of_nonneg_left lo (by positivity)
    _ = (c + 1 / 4) * uu * (1 / |Y|) * (|d| * |Y|) := by field_simp

/-- The exact ratios as the code sees them (with the sign of the argument). -/
theorem sgn_abs {x : ℝ} (hx : x ≠ 0) : |((SignType.sign x : SignType) : ℝ)| = 1 := by
  rcases lt_or_gt_of_ne hx with h | h
  · rw [sign_neg h]; simp
  · rw [sign_pos h]; simp

theorem sgn_sq {x : ℝ} (hx : x ≠ 0) : ((SignType.sign x : SignType) : ℝ) * ((SignType.sign x : SignType) : ℝ) = 1 := by
  rcases lt_or_gt_of_ne hx with h | h
  · rw [sign_neg h]; simp
  · rw [sign_pos h]; simp

theorem div_sgn {x : ℝ} (hx : x ≠ 0) (a : ℝ) : a / x = ((SignType.sign x : SignType) : ℝ) * (a / |x|) := by
  rcases lt_or_gt_of_ne hx with h | h
  · rw [sign_neg h, abs_of_neg h]; simp [div_neg]
  · rw [sign_pos h, abs_of_pos h]; simp

/-- One row beyond the turning point: the divisor is not zero and the relative error grows by five units. -/
theorem phaseA_step (hr : IsRounding rnd) {x e : ℝ} {r : ℕ → ℝ} {n : ℕ} (hx0 : 1 / 10 ^ 20 ≤ |x|) (h1 : 1 ≤ n) (hn : |x| ≤ n + 1 / 2) (hn2 : n ≤ 2 ^ 16) (e0 : 0 ≤ e) (e1 : e ≤ 10 ^ 7)
    (h : |r (n + 1) - SignType.sign x * sbRho |x| (n + 1)| ≤ e * uu * sbRho |x| (n + 1)) :
    dD rnd x r n ≠ 0 ∧ IsDouble (rnd (1 / dD rnd x r n)) ∧ |rnd (1 / dD rnd x r n) - SignType.sign x * sbRho |x| n| ≤ (e + 5) * uu * sbRho |x| n := by
  have u0 := uu_pos
  have u1 := uu_lt
  have xp : 0 < |x| := lt_of_lt_of_le (by norm_num) hx0
  have xn : x ≠ 0 := abs_pos.1 xp
  have hnr : (1 : ℝ) ≤ n := by exact_mod_cast h1
  have hn2r : (n : ℝ) ≤ 2 ^ 16 := by exact_mod_cast hn2
  have rc := sbRho_rec xp h1 hn
  have p := (sbRho_pos xp h1 hn).2
  have p' := (sbRho_pos xp (n := n + 1) (by omega) (by push_cast; linarith)).2
  have l := sbRho_le_one xp h1 hn
  have l' := sbRho_le_one xp (n := n + 1) (by omega) (by push_cast; linarith)
  have G := (sbG_bounds xp h1 hn).2
  have ha : (2 * (n : ℝ) + 1) / x = SignType.sign x * sbB |x| n := by rw [div_sgn xn]; rfl
  have B1 : 1 ≤ sbB |x| n := by
    unfold sbB
    rw [le_div_iff₀ xp]; linarith
  have B2 : sbB |x| n ≤ 10 ^ 26 := by
    unfold sbB
    rw [div_le_iff₀ xp]
    calc 2 * (n : ℝ) + 1 ≤ 10 ^ 26 * (1 / 10 ^ 20) := by norm_num; linarith
      _ ≤ 10 ^ 26 * |x| := mul_le_mul_of_nonneg_left hx0 (by norm_num)
  unfold dD
  rw [ha]
  have sg := sgn_abs xn
  have sg2 := sgn_sq xn
  clear ha hx0
  generalize ((SignType.sign x : SignType) : ℝ) = σ at *
  generalize sbB |x| n = B at *
  generalize sbRho |x| n = ρ at *
  generalize sbRho |x| (n + 1) = ρ' at *
  have aB : |σ * B| = B := by rw [abs_mul, sg, one_mul, abs_of_nonneg (by linarith)]
  have r1 := rr hr (y := σ * B) (by rw [aB]; exact le_trans (by norm_num) B1) (by rw [aB]; exact B2.trans (by norm_num))
  rw [aB] at r1
  have Yv : σ * B - σ * ρ' = σ * (1 / ρ) := by
    have : B - ρ' = 1 / ρ := by field_simp; linarith
    rw [← mul_sub, this]
  have aY : |σ * (1 / ρ)| = 1 / ρ := by rw [abs_mul, sg, one_mul, abs_of_pos (by positivity)]
  have i1 : 1 ≤ 1 / ρ := by rw [le_div_iff₀ p]; linarith
  have i2 : 1 / ρ ≤ 10 ^ 26 := by
    have : B - ρ' = 1 / ρ := by field_simp; linarith
    rw [← this]; linarith
  have y1 : |(rnd (σ * B) - r (n + 1)) - σ * (1 / ρ)| ≤ (e + 2) * uu * |σ * (1 / ρ)| := by
    rw [aY, ← Yv, show rnd (σ * B) - r (n + 1) - (σ * B - σ * ρ') = (rnd (σ * B) - σ * B) + -(r (n + 1) - σ * ρ') by ring]
    refine (abs_add_le _ _).trans ?_
    rw [abs_neg]
    have a : uu * B ≤ uu * (2 * (1 / ρ)) := by
      refine mul_le_mul_of_nonneg_left ?_ u0.le
      rw [mul_one_div, le_div_iff₀ p]; exact G
    have b : e * uu * ρ' ≤ e * uu * (1 / ρ) := mul_le_mul_of_nonneg_left (by linarith) (by positivity)
    linarith
  have d1 := rel_rnd' hr y1 (by linarith) (by linarith) (by rw [aY]; exact le_trans (by norm_num) i1) (by rw [aY]; exact i2.trans (by norm_num))
  obtain ⟨dn, d2⟩ := inv_rel (by rw [← abs_pos, aY]; positivity) (by linarith) (by linarith) d1
  have inv : 1 / (σ * (1 / ρ)) = σ * ρ := by
    have : σ ≠ 0 := by rintro rfl; simp at sg2
    field_simp
    nlinarith
  rw [inv] at d2
  have aρ : |σ * ρ| = ρ := by rw [abs_mul, sg, one_mul, abs_of_pos p]
  have ρlo : 1 / 10 ^ 26 ≤ ρ := by
    rw [div_le_iff₀ p] at i2
    rw [div_le_iff₀ (by norm_num)]; linarith
  have d3 := rel_rnd' hr d2 (by linarith) (by linarith) (by rw [aρ]; exact le_trans (by norm_num) ρlo) (by rw [aρ]; exact l.trans (by norm_num))
  rw [aρ] at d3 d2
  refine ⟨dn, isD_double hr ?_, ?_⟩
  · have a := abs_sub_abs_le_abs_sub (1 / rnd (rnd (σ * B) - r (n + 1))) (σ * ρ)
    have b : (e + 2 + 1 + 1 / 10 ^ 5 + 1 / 4) * uu * ρ ≤ (2 * 10 ^ 7) * (12 / 10 ^ 17) * 1 := mul_le_mul (mul_le_mul (by linarith) u1 u0.le (by norm_num)) l p.le (by norm_num)
    have c : ((2 * 10 ^ 7) * (12 / 10 ^ 17) * 1 : ℝ) ≤ 1 := by norm_num
    rw [aρ] at a
    have f : |1 / rnd (rnd (σ * B) - r (n + 1))| ≤ 2 := by linarith
    exact f.trans (by norm_num)
  refine d3.trans (mul_le_mul_of_nonneg_right (mul_le_mul_of_nonneg_right ?_ u0.le) p.le)
  linarith

/-- All rows beyond the turning point. -/
theorem phaseA (hr : IsRounding rnd) {x : ℝ} {r : ℕ → ℝ} {M n : ℕ} (hx0 : 1 / 10 ^ 20 ≤ |x|) (h1 : 1 ≤ n) (hn : |x| ≤ n + 1 / 2) (hM2 : M ≤ 2 ^ 16) (hnM : n ≤ M)
    (hw : |r M - SignType.sign x * sbRho |x| M| ≤ 52 * (M + 64) * uu * sbRho |x| M)
    (hs : ∀ j, n ≤ j → j < M → r j = rnd (1 / dD rnd x r j)) :
    |r n - SignType.sign x * sbRho |x| n| ≤ 57 * (M + 64) * uu * sbRho |x| n := by
  have u0 := uu_pos
  have xp : 0 < |x| := lt_of_lt_of_le (by norm_num) hx0
  have M2 : (M : ℝ) ≤ 2 ^ 16 := by exact_mod_cast hM2
  have key : ∀ d m, m + d = M → n ≤ m → |r m - SignType.sign x * sbRho |x| m| ≤ (52 * (M + 64) + 5 * d) * uu * sbRho |x| m := by
    intro d
    induction d with
    | zero =>
      intro m hm _
      rw [Nat.add_zero] at hm
      rw [hm, Nat.cast_zero, mul_zero, add_zero]
      exact hw
    | succ d ih =>
      intro m hm hnm
      have hd := ih (m + 1) (by omega) (by omega)
      have dM : (d : ℝ) ≤ M := by exact_mod_cast (show d ≤ M by omega)
      have hmr : (n : ℝ) ≤ m := by exact_mod_cast hnm
      have st := phaseA_step hr hx0 (by omega) (by linarith) (by omega) (by positivity) (by linarith) hd
      rw [hs m hnm (by omega)]
      refine st.2.2.trans (le_of_eq ?_)
      push_cast
      ring
  have h := key (M - n) n (by omega) (le_refl _)
  refine h.trans (mul_le_mul_of_nonneg_right (mul_le_mul_of_nonneg_right ?_ u0.le) (sbRho_pos xp h1 hn).2.le)
  have : ((M - n : ℕ) : ℝ) ≤ M := by exact_mod_cast (Nat.sub_le M n)
  linarith

end FB
end Verif.Props
