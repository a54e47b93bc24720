import Verif.Props.FloatBes10
/-!
# C102: when `sbesselj` divides by zero
-/
namespace Verif.Props
open Verif
variable {rnd : ℝ → ℝ}

namespace FB

theorem two_big : (2 : ℝ) ≤ 2 ^ 1023 := le_self_pow₀ (by norm_num) (by norm_num)

/-- Rows between a zero divisor and the turning point. -/
theorem phaseB_above (hr : IsRounding rnd) {x : ℝ} {r : ℕ → ℝ} {n1 k : ℕ} (hX : |x| ≤ 2 ^ 16 + 1) (hlo : (n1 : ℝ) - 1 / 2 < |x|)
    (hd : IsDouble (r n1)) (hb : |r n1| ≤ 2 ^ (77 : ℤ)) (hs : ∀ n, k < n → n < n1 → dD rnd x r n ≠ 0 ∧ r n = rnd (1 / dD rnd x r n)) :
    ∀ d n, n + d = n1 → k < n → IsDouble (r n) ∧ |r n| ≤ 2 ^ (77 : ℤ) ∧
      (n < n1 → r n ≠ 0 ∧ |1 / r n - ((2 * (n : ℝ) + 1) / x - r (n + 1))| ≤ uu * (7 + 3 * |r (n + 1)|)) := by
  intro d
  induction d with
  | zero =>
    intro n hn h1
    rw [show n = n1 by omega]
    exact ⟨hd, hb, fun h => absurd h (lt_irrefl _)⟩
  | succ d ih =>
    intro n hn h1
    obtain ⟨a, b, _⟩ := ih (n + 1) (by omega) (by omega)
    obtain ⟨s1, s2⟩ := hs n h1 (by omega)
    have hnr : (n : ℝ) + 1 ≤ n1 := by exact_mod_cast (show n + 1 ≤ n1 by omega)
    obtain ⟨c1, c2, c3, c4⟩ := phaseB_step hr hX (by omega) (by linarith) a b s1
    rw [← s2] at c1 c2 c3 c4
    exact ⟨c1, c2, fun _ => ⟨c3, c4⟩⟩

/-- The sequence of the computed ratios, counted down from the turning point, zero below the zero divisor, then the exact recurrence. -/
noncomputable def zQ (X σ : ℝ) (r : ℕ → ℝ) (n1 k : ℕ) : ℕ → ℝ × ℝ
  | 0 => (sphJ (n1 - 1) X, σ * r n1 * sphJ (n1 - 1) X)
  | d + 1 =>
    let q := zQ X σ r n1 k d
    let n := n1 - 1 - d
    (if k < n then σ * (1 / r n) * q.1 else if n = k then 0 else sbB X n * q.1 - q.2, q.1)

/-- A zero divisor at row `k` means that `j_{k-1}` is small. -/
theorem zero_small (hr : IsRounding rnd) {x : ℝ} {r : ℕ → ℝ} {M n1 k : ℕ} (hX : 3 / 2 < |x|) (hM2 : M ≤ 2 ^ 16) (h2 : 2 ≤ n1) (hnM : n1 ≤ M) (hlo : (n1 : ℝ) - 1 / 2 < |x|) (hhi : |x| ≤ n1 + 1 / 2)
    (hd : IsDouble (r n1)) (hr1 : |r n1 - SignType.sign x * sbRho |x| n1| ≤ 57 * (M + 64) * uu * sbRho |x| n1)
    (hk1 : 1 ≤ k) (hk : k < n1) (hs : ∀ n, k < n → n < n1 → dD rnd x r n ≠ 0 ∧ r n = rnd (1 / dD rnd x r n)) (hz : dD rnd x r k = 0) :
    |sphJ (k - 1) x| ≤ 90 * (M + 64) * uu := by
  have u0 := uu_pos
  have u1 := uu_lt
  have xp : 0 < |x| := by linarith
  have xn : x ≠ 0 := abs_pos.1 xp
  have M2 : (M : ℝ) ≤ 2 ^ 16 := by exact_mod_cast hM2
  have M0 : (0 : ℝ) ≤ M := Nat.cast_nonneg M
  have n1M : (n1 : ℝ) ≤ M := by exact_mod_cast hnM
  have X2 : |x| ≤ 2 ^ 16 + 1 := by linarith
  have sg := sgn_abs xn
  have sg2 := sgn_sq xn
  have Mu : (M + 64 : ℝ) * uu ≤ 79 / 10 ^ 13 := by
    calc (M + 64 : ℝ) * uu ≤ (2 ^ 16 + 64) * (12 / 10 ^ 17) := mul_le_mul (by linarith) u1 u0.le (by norm_num)
      _ ≤ 79 / 10 ^ 13 := by norm_num
  have Mu0 : 0 ≤ (M + 64 : ℝ) * uu := by positivity
  have ρp := (sbRho_pos xp (n := n1) (by omega) hhi).2
  have ρ1 := sbRho_le_one xp (n := n1) (by omega) hhi
  have ρm := sbRho_mul xp (n := n1) (by omega) hhi
  have ρd : ∀ n : ℕ, (2 * (n : ℝ) + 1) / x = SignType.sign x * sbB |x| n := fun n => by rw [div_sgn xn]; rfl
  have aJ : |sphJ (k - 1) x| = |sphJ (k - 1) (|x|)| := by rw [sphJ_sgn _ xn, abs_mul, abs_pow, sg, one_pow, one_mul]
  rw [aJ]
  generalize ((SignType.sign x : SignType) : ℝ) = σ at *
  have hb : |r n1| ≤ 2 ^ (77 : ℤ) := by
    have a := abs_sub_abs_le_abs_sub (r n1) (σ * sbRho |x| n1)
    rw [abs_mul, sg, one_mul, abs_of_pos ρp] at a
    have b : 57 * ((M : ℝ) + 64) * uu * sbRho |x| n1 ≤ 1 * 1 := mul_le_mul (by linarith) ρ1 ρp.le (by norm_num)
    have c : |r n1| ≤ 2 := by linarith
    exact c.trans (by norm_num)
  have all := fun n (h1 : k < n) (h : n ≤ n1) => phaseB_above hr X2 hlo hd hb hs (n1 - n) n (by omega) h1
  have σn : σ ≠ 0 := by rintro rfl; simp at sg
  obtain ⟨P, Ptop, Ptop1, Pst⟩ : ∃ P : ℕ → ℝ, P (n1 - 1) = sphJ (n1 - 1) (|x|) ∧ P n1 = σ * r n1 * P (n1 - 1) ∧
      ∀ n, 1 ≤ n → n < n1 → P (n - 1) = if k < n then σ * (1 / r n) * P n else if n = k then 0 else sbB |x| n * P n - P (n + 1) := by
    refine ⟨fun n => (zQ |x| σ r n1 k (n1 - n)).2, ?_, ?_, ?_⟩
    · simp only [show n1 - (n1 - 1) = 0 + 1 by omega, zQ]
    · simp only [show n1 - (n1 - 1) = 0 + 1 by omega, Nat.sub_self, zQ]
    · intro n a b
      obtain ⟨d, hd⟩ : ∃ d, n1 - 1 - n = d := ⟨_, rfl⟩
      simp only [show n1 - (n - 1) = d + 1 + 1 by omega, show n1 - n = d + 1 by omega, show n1 - (n + 1) = d by omega]
      conv_lhs => rw [zQ]
      simp only []
      conv_lhs => rw [zQ]
      simp only [show n1 - 1 - d = n by omega]
      have : (zQ |x| σ r n1 k (d + 1)).2 = (zQ |x| σ r n1 k d).1 := by rw [zQ]
      rw [this]
  have Pup : ∀ n, k ≤ n → n < n1 → P (n + 1) = σ * r (n + 1) * P n := by
    intro n a b
    rcases (show n + 1 ≤ n1 from b).eq_or_lt with h | h
    · have := Ptop1
      rw [show n = n1 - 1 by omega, show n1 - 1 + 1 = n1 by omega]
      exact this
    · have p := Pst (n + 1) (by omega) h
      rw [if_pos (by omega), Nat.add_sub_cancel] at p
      have rn := ((all (n + 1) (by omega) h.le).2.2 h).1
      rw [p]
      calc P (n + 1) = (σ * σ) * P (n + 1) := by rw [sg2, one_mul]
        _ = _ := by field_simp
  have rec1 : ∀ n, 1 ≤ n → n < n1 → |P (n - 1) - (sbB |x| n * P n - P (n + 1))| ≤ uu * (7 * |P n| + 3 * |P (n + 1)|) := by
    intro n a b
    have p1 := Pst n a b
    by_cases c : k < n
    · rw [if_pos c] at p1
      obtain ⟨rn, h⟩ := (all n c b.le).2.2 b
      have p2 := Pup n c.le b
      have e2 : P (n - 1) - (sbB |x| n * P n - P (n + 1)) = σ * (1 / r n - ((2 * (n : ℝ) + 1) / x - r (n + 1))) * P n := by
        rw [p1, p2, ρd]
        linear_combination (sbB |x| n * P n) * sg2
      have e3 : |P (n + 1)| = |r (n + 1)| * |P n| := by rw [p2, abs_mul, abs_mul, sg, one_mul]
      rw [e2, abs_mul, abs_mul, sg, one_mul, e3]
      calc _ ≤ uu * (7 + 3 * |r (n + 1)|) * |P n| := mul_le_mul_of_nonneg_right h (abs_nonneg _)
        _ = _ := by ring
    · rw [if_neg c] at p1
      by_cases c2 : n = k
      · subst c2
        rw [if_pos rfl] at p1
        have p2 := Pup n (le_refl _) b
        have hnr : (n : ℝ) + 1 ≤ n1 := by exact_mod_cast (show n + 1 ≤ n1 by omega)
        have n0 : (0 : ℝ) ≤ n := Nat.cast_nonneg n
        have B2 : sbB |x| n ≤ 2 := by
          unfold sbB
          rw [div_le_iff₀ xp]; linarith
        have Bp := sbB_pos xp n
        have aA : |(2 * (n : ℝ) + 1) / x| ≤ 2 := by rw [ρd, abs_mul, sg, one_mul, abs_of_pos Bp]; exact B2
        have D : IsDouble (rnd ((2 * (n : ℝ) + 1) / x)) := hr.double _ (aA.trans two_big)
        have Q : rnd ((2 * (n : ℝ) + 1) / x) = r (n + 1) := by
          unfold dD at hz
          by_contra ne
          have A1 : 1 / 2 ^ 15 ≤ |rnd ((2 * (n : ℝ) + 1) / x)| := by
            have nn : (1 : ℝ) ≤ n := by exact_mod_cast a
            have h1 : 1 / 2 ^ 15 ≤ |(2 * (n : ℝ) + 1) / x| := by
              rw [abs_div, abs_of_pos (show 0 < 2 * (n : ℝ) + 1 by linarith), le_div_iff₀ xp]
              linarith
            have e15 : (2 : ℝ) ^ (-15 : ℤ) = 1 / 2 ^ 15 := by norm_num
            have := rnd_abs_ge hr (e := -15) (y := (2 * (n : ℝ) + 1) / x) (by norm_num) (by norm_num) (by rw [e15]; exact h1) (aA.trans (by norm_num))
            rw [e15] at this
            exact this
          have g := dbl_gap D (all (n + 1) (by omega) b).1 A1 ne
          have : rnd (rnd ((2 * (n : ℝ) + 1) / x) - r (n + 1)) ≠ 0 := by
            have bb := (all (n + 1) (by omega) b).2.1
            refine rnd_ne_zero hr ((le_trans ?_ g)) ?_
            · calc (2 : ℝ) ^ (-1000 : ℤ) ≤ 2 ^ (-68 : ℤ) := zpow_le_zpow_right₀ (by norm_num) (by norm_num)
                _ = 1 / 2 ^ 68 := by norm_num
            · have t1 := abs_sub (rnd ((2 * (n : ℝ) + 1) / x)) (r (n + 1))
              have t2 := rnd_le hr (x := (2 * (n : ℝ) + 1) / x) (aA.trans two_big)
              have c77 : (2 : ℝ) ^ (77 : ℤ) + 4 ≤ 2 ^ 100 := by norm_num
              have c100 : (2 : ℝ) ^ 100 ≤ 2 ^ 1023 := pow_le_pow_right₀ (by norm_num) (by norm_num)
              refine le_trans ?_ c100
              linarith
          exact this hz
        have ap : |rnd ((2 * (n : ℝ) + 1) / x) - (2 * (n : ℝ) + 1) / x| ≤ 7 * uu := by
          have := rnd_any hr (y := (2 * (n : ℝ) + 1) / x) (aA.trans (by norm_num))
          have h2 : uu * |(2 * (n : ℝ) + 1) / x| ≤ uu * 2 := mul_le_mul_of_nonneg_left aA u0.le
          have t := tiny_small
          norm_num at t
          linarith
        rw [Q, ρd] at ap
        have e2 : P (n - 1) - (sbB |x| n * P n - P (n + 1)) = σ * (r (n + 1) - σ * sbB |x| n) * P n := by
          rw [p1, p2]
          linear_combination (sbB |x| n * P n) * sg2
        rw [e2, abs_mul, abs_mul, sg, one_mul]
        have := mul_le_mul_of_nonneg_right ap (abs_nonneg (P n))
        have z := mul_nonneg u0.le (abs_nonneg (P (n + 1)))
        linarith
      · rw [if_neg c2] at p1
        rw [p1, sub_self, abs_zero]
        positivity
  have tot : 57 * ((M : ℝ) + 64) * uu + 33 * uu * |x| ≤ 90 * (M + 64) * uu := by
    have : uu * |x| ≤ uu * (M + 64) := mul_le_mul_of_nonneg_left (by linarith) u0.le
    linarith
  have PtopB : |P n1 - sphJ n1 (|x|)| ≤ 57 * (M + 64) * uu * |sphJ n1 (|x|)| := by
    rw [Ptop1, Ptop, ρm]
    rw [show σ * r n1 * sphJ (n1 - 1) (|x|) - sbRho |x| n1 * sphJ (n1 - 1) (|x|) = σ * (r n1 - σ * sbRho |x| n1) * sphJ (n1 - 1) (|x|) by
      linear_combination (sbRho |x| n1 * sphJ (n1 - 1) (|x|)) * sg2]
    rw [abs_mul, abs_mul, sg, one_mul, abs_mul, abs_of_pos ρp, ← mul_assoc]
    exact mul_le_mul_of_nonneg_right hr1 (abs_nonneg _)
  have fin := (energy_bound xp h2 hlo hhi (by positivity) u0.le (tot.trans (by linarith)) Ptop PtopB rec1 (k - 1) (by omega)).trans tot
  have pk := Pst k hk1 hk
  rw [if_neg (lt_irrefl _), if_pos rfl] at pk
  rw [pk, zero_sub, abs_neg] at fin
  exact fin

end FB
end Verif.Props
