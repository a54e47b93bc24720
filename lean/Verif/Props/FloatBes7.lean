import Verif.Props.FloatBes6
/-!
# `sbesselj` in doubles: the computed ratios define a sequence close to the spherical Bessel functions
-/
namespace Verif.Props
open Verif
variable {rnd : ℝ → ℝ}

namespace FB

/-- The turning point. -/
theorem turning {X : ℝ} {M : ℕ} (hX : 3 / 2 < X) (hM : X ≤ M + 1 / 2) : ∃ n1 : ℕ, 2 ≤ n1 ∧ n1 ≤ M ∧ (n1 : ℝ) - 1 / 2 < X ∧ X ≤ n1 + 1 / 2 := by
  refine ⟨⌈X - 1 / 2⌉₊, ?_, ?_, ?_, ?_⟩
  · have : 1 < ⌈X - 1 / 2⌉₊ := by rw [Nat.lt_ceil]; push_cast; linarith
    omega
  · rw [Nat.ceil_le]; linarith
  · have := Nat.ceil_lt_add_one (show 0 ≤ X - 1 / 2 by linarith)
    linarith
  · have := Nat.le_ceil (X - 1 / 2)
    linarith

/-- Rows below the turning point are doubles of moderate size and not zero. -/
theorem phaseB_all (hr : IsRounding rnd) {x : ℝ} {r : ℕ → ℝ} {n1 : ℕ} (hX : |x| ≤ 2 ^ 16 + 1) (hlo : (n1 : ℝ) - 1 / 2 < |x|)
    (hd : IsDouble (r n1)) (hb : |r n1| ≤ 2 ^ (77 : ℤ)) (hs : ∀ n, 1 ≤ n → n < n1 → dD rnd x r n ≠ 0 ∧ r n = rnd (1 / dD rnd x r n)) :
    ∀ d n, n + d = n1 → 1 ≤ n → IsDouble (r n) ∧ |r n| ≤ 2 ^ (77 : ℤ) ∧
      (n < n1 → r n ≠ 0 ∧ |1 / r n - ((2 * (n : ℝ) + 1) / x - r (n + 1))| ≤ uu * (7 + 3 * |r (n + 1)|)) := by
  intro d
  induction d with
  | zero =>
    intro n hn h1
    rw [show n = n1 by omega]
    exact ⟨hd, hb, fun h => absurd h (lt_irrefl _)⟩
  | succ d ih =>
    intro n hn h1
    obtain ⟨a, b, _⟩ := ih (n + 1) (by omega) (by omega)
    obtain ⟨s1, s2⟩ := hs n h1 (by omega)
    have hnr : (n : ℝ) + 1 ≤ n1 := by exact_mod_cast (show n + 1 ≤ n1 by omega)
    obtain ⟨c1, c2, c3, c4⟩ := phaseB_step hr hX h1 (by linarith) a b s1
    rw [← s2] at c1 c2 c3 c4
    exact ⟨c1, c2, fun _ => ⟨c3, c4⟩⟩

/-- The computed ratios below the turning point. -/
theorem phaseB (hr : IsRounding rnd) {x : ℝ} {r : ℕ → ℝ} {M n1 : ℕ} (hX : 3 / 2 < |x|) (hM2 : M ≤ 2 ^ 16) (h2 : 2 ≤ n1) (hnM : n1 ≤ M) (hlo : (n1 : ℝ) - 1 / 2 < |x|) (hhi : |x| ≤ n1 + 1 / 2)
    (hd : IsDouble (r n1)) (hr1 : |r n1 - SignType.sign x * sbRho |x| n1| ≤ 57 * (M + 64) * uu * sbRho |x| n1)
    (hs : ∀ n, 1 ≤ n → n < n1 → dD rnd x r n ≠ 0 ∧ r n = rnd (1 / dD rnd x r n)) :
    ∃ P : ℕ → ℝ, (∀ n, P (n + 1) = SignType.sign x * r (n + 1) * P n) ∧ P (n1 - 1) = sphJ (n1 - 1) (|x|) ∧
      (∀ n, n ≤ n1 → |P n - sphJ n (|x|)| ≤ 90 * (M + 64) * uu) ∧ ∀ n, n < n1 → 1 / 10 ^ 33 ≤ |P n| := by
  have u0 := uu_pos
  have u1 := uu_lt
  have xp : 0 < |x| := by linarith
  have xn : x ≠ 0 := abs_pos.1 xp
  have M2 : (M : ℝ) ≤ 2 ^ 16 := by exact_mod_cast hM2
  have M0 : (0 : ℝ) ≤ M := Nat.cast_nonneg M
  have n1M : (n1 : ℝ) ≤ M := by exact_mod_cast hnM
  have X2 : |x| ≤ 2 ^ 16 + 1 := by linarith
  have sg := sgn_abs xn
  have sg2 := sgn_sq xn
  have Mu : (M + 64 : ℝ) * uu ≤ 79 / 10 ^ 13 := by
    calc (M + 64 : ℝ) * uu ≤ (2 ^ 16 + 64) * (12 / 10 ^ 17) := mul_le_mul (by linarith) u1 u0.le (by norm_num)
      _ ≤ 79 / 10 ^ 13 := by norm_num
  have Mu0 : 0 ≤ (M + 64 : ℝ) * uu := by positivity
  have ρp := (sbRho_pos xp (n := n1) (by omega) hhi).2
  have ρ1 := sbRho_le_one xp (n := n1) (by omega) hhi
  have ρm := sbRho_mul xp (n := n1) (by omega) hhi
  have jn := (sbRho_pos xp (n := n1) (by omega) hhi).1
  have ρd : ∀ n : ℕ, (2 * (n : ℝ) + 1) / x = SignType.sign x * sbB |x| n := fun n => by rw [div_sgn xn]; rfl
  generalize ((SignType.sign x : SignType) : ℝ) = σ at *
  have hb : |r n1| ≤ 2 ^ (77 : ℤ) := by
    have a := abs_sub_abs_le_abs_sub (r n1) (σ * sbRho |x| n1)
    rw [abs_mul, sg, one_mul, abs_of_pos ρp] at a
    have b : 57 * ((M : ℝ) + 64) * uu * sbRho |x| n1 ≤ 1 * 1 := mul_le_mul (by linarith) ρ1 ρp.le (by norm_num)
    have c : |r n1| ≤ 2 := by linarith
    exact c.trans (by norm_num)
  have all := fun n (h1 : 1 ≤ n) (h : n ≤ n1) => phaseB_all hr X2 hlo hd hb hs (n1 - n) n (by omega) h1
  set Pr : ℕ → ℝ := fun n => ∏ i ∈ Finset.range n, (σ * r (i + 1)) with hPr
  have σn : σ ≠ 0 := by rintro rfl; simp at sg
  have Pn : Pr (n1 - 1) ≠ 0 := by
    rw [hPr]
    refine Finset.prod_ne_zero_iff.2 fun i hi => ?_
    have hi' := Finset.mem_range.1 hi
    exact mul_ne_zero σn ((all (i + 1) (by omega) (by omega)).2.2 (by omega)).1
  set P : ℕ → ℝ := fun n => sphJ (n1 - 1) (|x|) / Pr (n1 - 1) * Pr n with hP
  have Psucc : ∀ n, P (n + 1) = σ * r (n + 1) * P n := by
    intro n
    rw [hP]
    simp only [hPr, Finset.prod_range_succ]
    ring
  have Ptop : P (n1 - 1) = sphJ (n1 - 1) (|x|) := by
    rw [hP]
    field_simp
  clear_value P
  clear hP
  have rec1 : ∀ n, 1 ≤ n → n < n1 → |P (n - 1) - (sbB |x| n * P n - P (n + 1))| ≤ uu * (7 * |P n| + 3 * |P (n + 1)|) := by
    intro n a b
    obtain ⟨rn, h⟩ := (all n a b.le).2.2 b
    have p1 := Psucc (n - 1)
    rw [show n - 1 + 1 = n by omega] at p1
    have p2 := Psucc n
    have e1 : P (n - 1) = σ * (1 / r n) * P n := by
      rw [p1]
      calc P (n - 1) = (σ * σ) * P (n - 1) := by rw [sg2, one_mul]
        _ = _ := by field_simp
    have e2 : P (n - 1) - (sbB |x| n * P n - P (n + 1)) = σ * (1 / r n - ((2 * (n : ℝ) + 1) / x - r (n + 1))) * P n := by
      rw [e1, p2, ρd]
      linear_combination (sbB |x| n * P n) * sg2
    have e3 : |P (n + 1)| = |r (n + 1)| * |P n| := by rw [p2, abs_mul, abs_mul, sg, one_mul]
    rw [e2, abs_mul, abs_mul, sg, one_mul, e3]
    calc _ ≤ uu * (7 + 3 * |r (n + 1)|) * |P n| := mul_le_mul_of_nonneg_right h (abs_nonneg _)
      _ = _ := by ring
  have tot : 57 * ((M : ℝ) + 64) * uu + 33 * uu * |x| ≤ 90 * (M + 64) * uu := by
    have : uu * |x| ≤ uu * (M + 64) := mul_le_mul_of_nonneg_left (by linarith) u0.le
    linarith
  have Ptop1 : |P n1 - sphJ n1 (|x|)| ≤ 57 * (M + 64) * uu * |sphJ n1 (|x|)| := by
    have p := Psucc (n1 - 1)
    rw [show n1 - 1 + 1 = n1 by omega, Ptop] at p
    rw [p, ρm]
    rw [show σ * r n1 * sphJ (n1 - 1) (|x|) - sbRho |x| n1 * sphJ (n1 - 1) (|x|) = σ * (r n1 - σ * sbRho |x| n1) * sphJ (n1 - 1) (|x|) by
      linear_combination (sbRho |x| n1 * sphJ (n1 - 1) (|x|)) * sg2]
    rw [abs_mul, abs_mul, sg, one_mul, abs_mul, abs_of_pos ρp, ← mul_assoc]
    exact mul_le_mul_of_nonneg_right hr1 (abs_nonneg _)
  have bound : ∀ n, n ≤ n1 → |P n - sphJ n (|x|)| ≤ 90 * (M + 64) * uu := fun n hn =>
    (energy_bound xp h2 hlo hhi (by positivity) u0.le (tot.trans (by linarith)) Ptop Ptop1 rec1 n hn).trans tot
  refine ⟨P, Psucc, Ptop, bound, ?_⟩
  have n1r : (2 : ℝ) ≤ n1 := by exact_mod_cast h2
  have jl : ∀ n : ℕ, n + 2 ≤ n1 → 9 / 10 ^ 9 ≤ max |sphJ n (|x|)| |sphJ (n + 1) (|x|)| := by
    intro n hn
    have hnr : (n : ℝ) + 2 ≤ n1 := by exact_mod_cast hn
    refine le_trans ?_ (sphJ_lower xp n (by linarith))
    have sq : √|x| ≤ 257 := by
      rw [Real.sqrt_le_left (by norm_num)]
      linarith
    have sp : 0 < √|x| := Real.sqrt_pos.2 xp
    rw [le_div_iff₀ (by positivity)]
    have : 6 * (1 + |x|) * √|x| ≤ 6 * (1 + (2 ^ 16 + 1)) * 257 := mul_le_mul (by linarith) sq sp.le (by norm_num)
    calc 9 / 10 ^ 9 * (6 * (1 + |x|) * √|x|) ≤ 9 / 10 ^ 9 * (6 * (1 + (2 ^ 16 + 1)) * 257) := mul_le_mul_of_nonneg_left this (by norm_num)
      _ ≤ 1 := by norm_num
  have eps : 90 * ((M : ℝ) + 64) * uu ≤ 1 / 10 ^ 9 := by
    have : (90 : ℝ) * (79 / 10 ^ 13) ≤ 1 / 10 ^ 9 := by norm_num
    linarith
  intro n hn
  by_cases hl : n + 2 ≤ n1
  · have m := jl n hl
    have b1 := bound n (by omega)
    have b2 := bound (n + 1) (by omega)
    rcases le_max_iff.1 m with m | m
    · have := abs_sub_abs_le_abs_sub (sphJ n (|x|)) (P n)
      rw [abs_sub_comm] at this
      have c : (1 : ℝ) / 10 ^ 33 ≤ 9 / 10 ^ 9 - 1 / 10 ^ 9 := by norm_num
      linarith
    · have := abs_sub_abs_le_abs_sub (sphJ (n + 1) (|x|)) (P (n + 1))
      rw [abs_sub_comm] at this
      have h8 : 8 / 10 ^ 9 ≤ |P (n + 1)| := by
        have c : (8 : ℝ) / 10 ^ 9 ≤ 9 / 10 ^ 9 - 1 / 10 ^ 9 := by norm_num
        linarith
      rw [Psucc, abs_mul, abs_mul, sg, one_mul] at h8
      have rb := (all (n + 1) (by omega) (by omega)).2.1
      have c77 : (2 : ℝ) ^ (77 : ℤ) ≤ 10 ^ 24 := by norm_num
      have : |r (n + 1)| * |P n| ≤ 10 ^ 24 * |P n| := mul_le_mul_of_nonneg_right (rb.trans c77) (abs_nonneg _)
      have h9 : 8 / 10 ^ 9 ≤ 10 ^ 24 * |P n| := h8.trans this
      rw [div_le_iff₀ (by norm_num)]
      rw [div_le_iff₀ (by norm_num)] at h9
      calc (1 : ℝ) ≤ 8 := by norm_num
        _ ≤ 10 ^ 24 * |P n| * 10 ^ 9 := h9
        _ = |P n| * 10 ^ 33 := by ring
  · rw [show n = n1 - 1 by omega, Ptop]
    have m := jl (n1 - 2) (by omega)
    rw [show n1 - 2 + 1 = n1 - 1 by omega] at m
    have c : (1 : ℝ) / 10 ^ 33 ≤ 9 / 10 ^ 9 / 3 := by norm_num
    refine c.trans ?_
    rcases le_max_iff.1 m with m | m
    · have hj := sphJ_succ (n1 - 1) (by omega) (x := |x|)
      rw [show n1 - 1 + 1 = n1 by omega, show n1 - 1 - 1 = n1 - 2 by omega] at hj
      have hj2 : sphJ (n1 - 2) (|x|) = sbB |x| (n1 - 1) * sphJ (n1 - 1) (|x|) - sphJ n1 (|x|) := by rw [hj]; unfold sbB; ring
      have t := abs_sub (sbB |x| (n1 - 1) * sphJ (n1 - 1) (|x|)) (sphJ n1 (|x|))
      rw [← hj2, abs_mul, ρm, abs_mul, abs_of_pos ρp, abs_of_pos (sbB_pos xp _)] at t
      have B2 : sbB |x| (n1 - 1) ≤ 2 := by
        have := sbB_two xp (n1 - 1)
        rw [Nat.cast_sub (by omega), Nat.cast_one] at this
        have h3 : 0 ≤ 2 * (|x| - ((n1 : ℝ) - 1) - 1 / 2) / |x| := div_nonneg (by linarith) xp.le
        linarith
      have z := abs_nonneg (sphJ (n1 - 1) (|x|))
      have s1 : sbB |x| (n1 - 1) * |sphJ (n1 - 1) (|x|)| ≤ 2 * |sphJ (n1 - 1) (|x|)| := mul_le_mul_of_nonneg_right B2 z
      have s2 : sbRho |x| n1 * |sphJ (n1 - 1) (|x|)| ≤ 1 * |sphJ (n1 - 1) (|x|)| := mul_le_mul_of_nonneg_right ρ1 z
      linarith
    · have := abs_nonneg (sphJ (n1 - 1) (|x|))
      linarith

end FB
end Verif.Props
