import Verif.Props.FloatBes13
/-!
# C102: `sbesselj(np.sqrt(15), 2)`

Generated by tools/gen_bes_pole.py.  For `|x| > N - 1/2` the partial sums `w` of the loop of sbessel.py 82-86 can be huge before they settle.  At the double nearest
to `√15` the first denominator `1 - x²/15` is about `2^-51`, the sum passes through `10^15`, and what is left of it afterwards carries an error of about one
half, for every rounding to nearest (no operation meets a tie).
-/
namespace Verif.Props
open Verif
variable {rnd : ℝ → ℝ}

namespace FB

theorem rnd_neg_of (hr : IsRounding rnd) {y a : ℝ} (hy : |y| ≤ 2 ^ 1023) (h : rnd (-y) = a) : rnd y = -a := by
  rw [hr.odd y hy] at h
  linarith

theorem lit_small {y : ℝ} {m k : ℕ} (h2 : m < 2 ^ 53) (h : |-y * 2 ^ k - m| < 1 / 2) : |y| ≤ 2 ^ 1023 := by
  have k1 : (1 : ℝ) ≤ 2 ^ k := one_le_pow₀ (by norm_num)
  have h2r : (m : ℝ) < 2 ^ 53 := by exact_mod_cast h2
  have h3 : |-y * 2 ^ k| ≤ 2 ^ 54 := by
    have := abs_sub_abs_le_abs_sub (-y * 2 ^ k) m
    rw [abs_of_nonneg (show (0 : ℝ) ≤ m by positivity)] at this
    have h3 : (2 : ℝ) ^ 53 + 1 ≤ 2 ^ 54 := by norm_num
    linarith
  rw [abs_mul, abs_neg, abs_of_nonneg (by linarith : (0 : ℝ) ≤ 2 ^ k)] at h3
  refine le_trans (le_trans (le_mul_of_one_le_right (abs_nonneg _) k1) h3) ?_
  exact pow_le_pow_right₀ (by norm_num) (by norm_num)

theorem rnd_nlit (hr : IsRounding rnd) {y : ℝ} (m k : ℕ) (h1 : 2 ^ 52 < m) (h2 : m < 2 ^ 53) (hk : k ≤ 1000) (h : |-y * 2 ^ k - m| < 1 / 2) : rnd y = -(m / 2 ^ k) :=
  rnd_neg_of hr (lit_small h2 h) (rnd_lit hr m k h1 h2 hk h)

theorem rnd_nlit' (hr : IsRounding rnd) {y : ℝ} (m k : ℕ) (h1 : 2 ^ 52 ≤ m) (h2 : m < 2 ^ 53) (hk : k ≤ 1000) (h : |-y * 2 ^ k - m| < 1 / 4) : rnd y = -(m / 2 ^ k) :=
  rnd_neg_of hr (lit_small h2 (h.trans (by norm_num))) (rnd_lit' hr m k h1 h2 hk h)

theorem rnd_blit (hr : IsRounding rnd) {y : ℝ} (m k : ℕ) (h1 : 2 ^ 52 < m) (h2 : m < 2 ^ 53) (hk : k ≤ 500) (h : |y / 2 ^ k - m| < 1 / 2) : rnd y = m * 2 ^ k := by
  have := rnd_lit_aux hr (y := y) m (-k) h1.le h2 (by omega) (by omega) (by rw [zpow_neg, zpow_natCast, ← div_eq_mul_inv]; exact h) (Or.inl h1)
  rw [this, zpow_neg, zpow_natCast, div_inv_eq_mul]

theorem rnd_nblit (hr : IsRounding rnd) {y : ℝ} (m k : ℕ) (h1 : 2 ^ 52 < m) (h2 : m < 2 ^ 53) (hk : k ≤ 500) (h : |-y / 2 ^ k - m| < 1 / 2) : rnd y = -(m * 2 ^ k) := by
  refine rnd_neg_of hr ?_ (rnd_blit hr m k h1 h2 hk h)
  have h2r : (m : ℝ) < 2 ^ 53 := by exact_mod_cast h2
  have h3 : |-y / 2 ^ k| ≤ 2 ^ 54 := by
    have := abs_sub_abs_le_abs_sub (-y / 2 ^ k) m
    rw [abs_of_nonneg (show (0 : ℝ) ≤ m by positivity)] at this
    have h3 : (2 : ℝ) ^ 53 + 1 ≤ 2 ^ 54 := by norm_num
    linarith
  rw [abs_div, abs_neg, abs_of_nonneg (by positivity : (0 : ℝ) ≤ 2 ^ k), div_le_iff₀ (by positivity), ← pow_add] at h3
  exact le_trans h3 (pow_le_pow_right₀ (by norm_num) (by omega))

/-- One pass of the loop, with its roundings given. -/
theorem pstep (hr : IsRounding rnd) {z u v w q a b den u' t v' w' : ℝ} (n : ℕ) (hn : n + 1 ≤ 2 ^ 16) (hq : rnd (v / w) = q) (hw : w ≠ 0) (hq1 : 2 / 10 ^ 20 < |q|)
    (ha : rnd (z * u) = a) (hb : rnd (a / (4 * (n : ℝ) ^ 2 - 1)) = b) (hden : rnd (1 - b) = den) (hd0 : den ≠ 0) (hu : rnd (1 / den) = u') (ht : rnd (u' - 1) = t)
    (hv : rnd (v * t) = v') (hw' : rnd (w + v') = w') : Fl.sbjLoop rnd z u v w (((n : ℕ) : ℤ) - 1) = Fl.sbjLoop rnd z u' v' w' n := by
  have dn : Fl.sbjDen rnd z u ((n : ℤ) - 1 + 1) = den := by
    rw [show (n : ℤ) - 1 + 1 = n by ring]
    unfold Fl.sbjDen
    rw [four_sq hr n (by omega), ha, hb, hden]
  rw [Fl.sbjLoop]
  simp only []
  rw [if_neg hw, hq, thr_lo hr, if_pos, dn, if_neg hd0, hu, ht, hv, hw', show (n : ℤ) - 1 + 1 = n by ring]
  refine lt_trans ?_ hq1
  norm_num

theorem pstep2 (hr : IsRounding rnd) : Fl.sbjLoop rnd (8444249301319683 / 2 ^ 49 : ℝ) 1 (5814122118263954 / 2 ^ 52 : ℝ) (5814122118263954 / 2 ^ 52 : ℝ) 1 = Fl.sbjLoop rnd (8444249301319683 / 2 ^ 49 : ℝ) (-(4503599627370496 / 2 ^ 1 : ℝ)) (-(5814122118263957 / 2 ^ 1 : ℝ)) (-(5814122118263954 / 2 ^ 1 : ℝ)) 2 :=
  pstep hr 2 (by norm_num)
    (rnd_lit' hr (y := (5814122118263954 / 2 ^ 52 : ℝ) / (5814122118263954 / 2 ^ 52 : ℝ)) 4503599627370496 52 (by norm_num) (by norm_num) (by norm_num) (by rw [abs_lt]; constructor <;> norm_num))
    (by norm_num) (by rw [lt_abs]; left; norm_num)
    (rnd_lit hr (y := (8444249301319683 / 2 ^ 49 : ℝ) * 1) 8444249301319683 49 (by norm_num) (by norm_num) (by norm_num) (by rw [abs_lt]; constructor <;> norm_num))
    (rnd_lit hr (y := (8444249301319683 / 2 ^ 49 : ℝ) / (4 * (2 : ℕ) ^ 2 - 1)) 4503599627370498 52 (by norm_num) (by norm_num) (by norm_num) (by rw [abs_lt]; constructor <;> norm_num))
    (rnd_nlit' hr (y := 1 - (4503599627370498 / 2 ^ 52 : ℝ)) 4503599627370496 103 (by norm_num) (by norm_num) (by norm_num) (by rw [abs_lt]; constructor <;> norm_num))
    (by norm_num)
    (rnd_nlit' hr (y := 1 / (-(4503599627370496 / 2 ^ 103 : ℝ))) 4503599627370496 1 (by norm_num) (by norm_num) (by norm_num) (by rw [abs_lt]; constructor <;> norm_num))
    (rnd_nlit hr (y := (-(4503599627370496 / 2 ^ 1 : ℝ)) - 1) 4503599627370498 1 (by norm_num) (by norm_num) (by norm_num) (by rw [abs_lt]; constructor <;> norm_num))
    (rnd_nlit hr (y := (5814122118263954 / 2 ^ 52 : ℝ) * (-(4503599627370498 / 2 ^ 1 : ℝ))) 5814122118263957 1 (by norm_num) (by norm_num) (by norm_num) (by rw [abs_lt]; constructor <;> norm_num))
    (rnd_nlit hr (y := (5814122118263954 / 2 ^ 52 : ℝ) + (-(5814122118263957 / 2 ^ 1 : ℝ))) 5814122118263954 1 (by norm_num) (by norm_num) (by norm_num) (by rw [abs_lt]; constructor <;> norm_num))

theorem pstep3 (hr : IsRounding rnd) : Fl.sbjLoop rnd (8444249301319683 / 2 ^ 49 : ℝ) (-(4503599627370496 / 2 ^ 1 : ℝ)) (-(5814122118263957 / 2 ^ 1 : ℝ)) (-(5814122118263954 / 2 ^ 1 : ℝ)) 2 = Fl.sbjLoop rnd (8444249301319683 / 2 ^ 49 : ℝ) (5254199565265571 / 2 ^ 102 : ℝ) (5814122118263951 / 2 ^ 1 : ℝ) (-(6755399441055744 / 2 ^ 52 : ℝ)) 3 :=
  pstep hr 3 (by norm_num)
    (rnd_lit hr (y := (-(5814122118263957 / 2 ^ 1 : ℝ)) / (-(5814122118263954 / 2 ^ 1 : ℝ))) 4503599627370498 52 (by norm_num) (by norm_num) (by norm_num) (by rw [abs_lt]; constructor <;> norm_num))
    (by norm_num) (by rw [lt_abs]; left; norm_num)
    (rnd_nblit hr (y := (8444249301319683 / 2 ^ 49 : ℝ) * (-(4503599627370496 / 2 ^ 1 : ℝ))) 8444249301319683 2 (by norm_num) (by norm_num) (by norm_num) (by rw [abs_lt]; constructor <;> norm_num))
    (rnd_nlit hr (y := (-(8444249301319683 * 2 ^ 2 : ℝ)) / (4 * (3 : ℕ) ^ 2 - 1)) 7720456504063710 3 (by norm_num) (by norm_num) (by norm_num) (by rw [abs_lt]; constructor <;> norm_num))
    (rnd_lit hr (y := 1 - (-(7720456504063710 / 2 ^ 3 : ℝ))) 7720456504063718 3 (by norm_num) (by norm_num) (by norm_num) (by rw [abs_lt]; constructor <;> norm_num))
    (by norm_num)
    (rnd_lit hr (y := 1 / (7720456504063718 / 2 ^ 3 : ℝ)) 5254199565265571 102 (by norm_num) (by norm_num) (by norm_num) (by rw [abs_lt]; constructor <;> norm_num))
    (rnd_nlit hr (y := (5254199565265571 / 2 ^ 102 : ℝ) - 1) 9007199254740983 53 (by norm_num) (by norm_num) (by norm_num) (by rw [abs_lt]; constructor <;> norm_num))
    (rnd_lit hr (y := (-(5814122118263957 / 2 ^ 1 : ℝ)) * (-(9007199254740983 / 2 ^ 53 : ℝ))) 5814122118263951 1 (by norm_num) (by norm_num) (by norm_num) (by rw [abs_lt]; constructor <;> norm_num))
    (rnd_nlit hr (y := (-(5814122118263954 / 2 ^ 1 : ℝ)) + (5814122118263951 / 2 ^ 1 : ℝ)) 6755399441055744 52 (by norm_num) (by norm_num) (by norm_num) (by rw [abs_lt]; constructor <;> norm_num))

theorem pstep4 (hr : IsRounding rnd) : Fl.sbjLoop rnd (8444249301319683 / 2 ^ 49 : ℝ) (5254199565265571 / 2 ^ 102 : ℝ) (5814122118263951 / 2 ^ 1 : ℝ) (-(6755399441055744 / 2 ^ 52 : ℝ)) 3 = Fl.sbjLoop rnd (8444249301319683 / 2 ^ 49 : ℝ) (4503599627370497 / 2 ^ 52 : ℝ) (5814122118263951 / 2 ^ 53 : ℝ) (-(7696676763847537 / 2 ^ 53 : ℝ)) 4 :=
  pstep hr 4 (by norm_num)
    (rnd_nlit hr (y := (5814122118263951 / 2 ^ 1 : ℝ) / (-(6755399441055744 / 2 ^ 52 : ℝ))) 7752162824351935 2 (by norm_num) (by norm_num) (by norm_num) (by rw [abs_lt]; constructor <;> norm_num))
    (by norm_num) (by rw [lt_abs]; right; norm_num)
    (rnd_lit hr (y := (8444249301319683 / 2 ^ 49 : ℝ) * (5254199565265571 / 2 ^ 102 : ℝ)) 4925812092436475 98 (by norm_num) (by norm_num) (by norm_num) (by rw [abs_lt]; constructor <;> norm_num))
    (rnd_lit hr (y := (4925812092436475 / 2 ^ 98 : ℝ) / (4 * (4 : ℕ) ^ 2 - 1)) 5003999585967213 104 (by norm_num) (by norm_num) (by norm_num) (by rw [abs_lt]; constructor <;> norm_num))
    (rnd_lit hr (y := 1 - (5003999585967213 / 2 ^ 104 : ℝ)) 9007199254740990 53 (by norm_num) (by norm_num) (by norm_num) (by rw [abs_lt]; constructor <;> norm_num))
    (by norm_num)
    (rnd_lit hr (y := 1 / (9007199254740990 / 2 ^ 53 : ℝ)) 4503599627370497 52 (by norm_num) (by norm_num) (by norm_num) (by rw [abs_lt]; constructor <;> norm_num))
    (rnd_lit' hr (y := (4503599627370497 / 2 ^ 52 : ℝ) - 1) 4503599627370496 104 (by norm_num) (by norm_num) (by norm_num) (by rw [abs_lt]; constructor <;> norm_num))
    (rnd_lit hr (y := (5814122118263951 / 2 ^ 1 : ℝ) * (4503599627370496 / 2 ^ 104 : ℝ)) 5814122118263951 53 (by norm_num) (by norm_num) (by norm_num) (by rw [abs_lt]; constructor <;> norm_num))
    (rnd_nlit hr (y := (-(6755399441055744 / 2 ^ 52 : ℝ)) + (5814122118263951 / 2 ^ 53 : ℝ)) 7696676763847537 53 (by norm_num) (by norm_num) (by norm_num) (by rw [abs_lt]; constructor <;> norm_num))

theorem pstep5 (hr : IsRounding rnd) : Fl.sbjLoop rnd (8444249301319683 / 2 ^ 49 : ℝ) (4503599627370497 / 2 ^ 52 : ℝ) (5814122118263951 / 2 ^ 53 : ℝ) (-(7696676763847537 / 2 ^ 53 : ℝ)) 4 = Fl.sbjLoop rnd (8444249301319683 / 2 ^ 49 : ℝ) (5307813846543799 / 2 ^ 52 : ℝ) (8305888740377074 / 2 ^ 56 : ℝ) (-(6658440671300403 / 2 ^ 53 : ℝ)) 5 :=
  pstep hr 5 (by norm_num)
    (rnd_nlit hr (y := (5814122118263951 / 2 ^ 53 : ℝ) / (-(7696676763847537 / 2 ^ 53 : ℝ))) 6804099745566183 53 (by norm_num) (by norm_num) (by norm_num) (by rw [abs_lt]; constructor <;> norm_num))
    (by norm_num) (by rw [lt_abs]; right; norm_num)
    (rnd_lit hr (y := (8444249301319683 / 2 ^ 49 : ℝ) * (4503599627370497 / 2 ^ 52 : ℝ)) 8444249301319685 49 (by norm_num) (by norm_num) (by norm_num) (by rw [abs_lt]; constructor <;> norm_num))
    (rnd_lit hr (y := (8444249301319685 / 2 ^ 49 : ℝ) / (4 * (5 : ℕ) ^ 2 - 1)) 5458908639236968 55 (by norm_num) (by norm_num) (by norm_num) (by rw [abs_lt]; constructor <;> norm_num))
    (rnd_lit hr (y := 1 - (5458908639236968 / 2 ^ 55 : ℝ)) 7642472094931750 53 (by norm_num) (by norm_num) (by norm_num) (by rw [abs_lt]; constructor <;> norm_num))
    (by norm_num)
    (rnd_lit hr (y := 1 / (7642472094931750 / 2 ^ 53 : ℝ)) 5307813846543799 52 (by norm_num) (by norm_num) (by norm_num) (by rw [abs_lt]; constructor <;> norm_num))
    (rnd_lit hr (y := (5307813846543799 / 2 ^ 52 : ℝ) - 1) 6433713753386424 55 (by norm_num) (by norm_num) (by norm_num) (by rw [abs_lt]; constructor <;> norm_num))
    (rnd_lit hr (y := (5814122118263951 / 2 ^ 53 : ℝ) * (6433713753386424 / 2 ^ 55 : ℝ)) 8305888740377074 56 (by norm_num) (by norm_num) (by norm_num) (by rw [abs_lt]; constructor <;> norm_num))
    (rnd_nlit hr (y := (-(7696676763847537 / 2 ^ 53 : ℝ)) + (8305888740377074 / 2 ^ 56 : ℝ)) 6658440671300403 53 (by norm_num) (by norm_num) (by norm_num) (by rw [abs_lt]; constructor <;> norm_num))

theorem pstep6 (hr : IsRounding rnd) : Fl.sbjLoop rnd (8444249301319683 / 2 ^ 49 : ℝ) (5307813846543799 / 2 ^ 52 : ℝ) (8305888740377074 / 2 ^ 56 : ℝ) (-(6658440671300403 / 2 ^ 53 : ℝ)) 5 = Fl.sbjLoop rnd (8444249301319683 / 2 ^ 49 : ℝ) (5138903650040315 / 2 ^ 52 : ℝ) (4686708380150072 / 2 ^ 58 : ℝ) (-(6511981034420713 / 2 ^ 53 : ℝ)) 6 :=
  pstep hr 6 (by norm_num)
    (rnd_nlit hr (y := (8305888740377074 / 2 ^ 56 : ℝ) / (-(6658440671300403 / 2 ^ 53 : ℝ))) 5617891527872917 55 (by norm_num) (by norm_num) (by norm_num) (by rw [abs_lt]; constructor <;> norm_num))
    (by norm_num) (by rw [lt_abs]; right; norm_num)
    (rnd_lit hr (y := (8444249301319683 / 2 ^ 49 : ℝ) * (5307813846543799 / 2 ^ 52 : ℝ)) 4976075481134813 48 (by norm_num) (by norm_num) (by norm_num) (by rw [abs_lt]; constructor <;> norm_num))
    (rnd_lit hr (y := (4976075481134813 / 2 ^ 48 : ℝ) / (4 * (6 : ℕ) ^ 2 - 1)) 8908219043150434 56 (by norm_num) (by norm_num) (by norm_num) (by rw [abs_lt]; constructor <;> norm_num))
    (rnd_lit hr (y := 1 - (8908219043150434 / 2 ^ 56 : ℝ)) 7893671874347188 53 (by norm_num) (by norm_num) (by norm_num) (by rw [abs_lt]; constructor <;> norm_num))
    (by norm_num)
    (rnd_lit hr (y := 1 / (7893671874347188 / 2 ^ 53 : ℝ)) 5138903650040315 52 (by norm_num) (by norm_num) (by norm_num) (by rw [abs_lt]; constructor <;> norm_num))
    (rnd_lit hr (y := (5138903650040315 / 2 ^ 52 : ℝ) - 1) 5082432181358552 55 (by norm_num) (by norm_num) (by norm_num) (by rw [abs_lt]; constructor <;> norm_num))
    (rnd_lit hr (y := (8305888740377074 / 2 ^ 56 : ℝ) * (5082432181358552 / 2 ^ 55 : ℝ)) 4686708380150072 58 (by norm_num) (by norm_num) (by norm_num) (by rw [abs_lt]; constructor <;> norm_num))
    (rnd_nlit hr (y := (-(6658440671300403 / 2 ^ 53 : ℝ)) + (4686708380150072 / 2 ^ 58 : ℝ)) 6511981034420713 53 (by norm_num) (by norm_num) (by norm_num) (by rw [abs_lt]; constructor <;> norm_num))

theorem pstep7 (hr : IsRounding rnd) : Fl.sbjLoop rnd (8444249301319683 / 2 ^ 49 : ℝ) (5138903650040315 / 2 ^ 52 : ℝ) (4686708380150072 / 2 ^ 58 : ℝ) (-(6511981034420713 / 2 ^ 53 : ℝ)) 6 = Fl.sbjLoop rnd (8444249301319683 / 2 ^ 49 : ℝ) (4936935673990338 / 2 ^ 52 : ℝ) (7215276131639981 / 2 ^ 62 : ℝ) (-(6497888698226104 / 2 ^ 53 : ℝ)) 7 :=
  pstep hr 7 (by norm_num)
    (rnd_nlit hr (y := (4686708380150072 / 2 ^ 58 : ℝ) / (-(6511981034420713 / 2 ^ 53 : ℝ))) 6482530585660917 58 (by norm_num) (by norm_num) (by norm_num) (by rw [abs_lt]; constructor <;> norm_num))
    (by norm_num) (by rw [lt_abs]; right; norm_num)
    (rnd_lit hr (y := (8444249301319683 / 2 ^ 49 : ℝ) * (5138903650040315 / 2 ^ 52 : ℝ)) 4817722171912797 48 (by norm_num) (by norm_num) (by norm_num) (by rw [abs_lt]; constructor <;> norm_num))
    (rnd_lit hr (y := (4817722171912797 / 2 ^ 48 : ℝ) / (4 * (7 : ℕ) ^ 2 - 1)) 6324804492357313 56 (by norm_num) (by norm_num) (by norm_num) (by rw [abs_lt]; constructor <;> norm_num))
    (rnd_lit hr (y := 1 - (6324804492357313 / 2 ^ 56 : ℝ)) 8216598693196328 53 (by norm_num) (by norm_num) (by norm_num) (by rw [abs_lt]; constructor <;> norm_num))
    (by norm_num)
    (rnd_lit hr (y := 1 / (8216598693196328 / 2 ^ 53 : ℝ)) 4936935673990338 52 (by norm_num) (by norm_num) (by norm_num) (by rw [abs_lt]; constructor <;> norm_num))
    (rnd_lit hr (y := (4936935673990338 / 2 ^ 52 : ℝ) - 1) 6933376745917472 56 (by norm_num) (by norm_num) (by norm_num) (by rw [abs_lt]; constructor <;> norm_num))
    (rnd_lit hr (y := (4686708380150072 / 2 ^ 58 : ℝ) * (6933376745917472 / 2 ^ 56 : ℝ)) 7215276131639981 62 (by norm_num) (by norm_num) (by norm_num) (by rw [abs_lt]; constructor <;> norm_num))
    (rnd_nlit hr (y := (-(6511981034420713 / 2 ^ 53 : ℝ)) + (7215276131639981 / 2 ^ 62 : ℝ)) 6497888698226104 53 (by norm_num) (by norm_num) (by norm_num) (by rw [abs_lt]; constructor <;> norm_num))

theorem pstep8 (hr : IsRounding rnd) : Fl.sbjLoop rnd (8444249301319683 / 2 ^ 49 : ℝ) (4936935673990338 / 2 ^ 52 : ℝ) (7215276131639981 / 2 ^ 62 : ℝ) (-(6497888698226104 / 2 ^ 53 : ℝ)) 7 = Fl.sbjLoop rnd (8444249301319683 / 2 ^ 49 : ℝ) (4814024925799880 / 2 ^ 52 : ℝ) (7957383184073139 / 2 ^ 66 : ℝ) (-(6496917337974142 / 2 ^ 53 : ℝ)) 8 :=
  pstep hr 8 (by norm_num)
    (rnd_nlit hr (y := (7215276131639981 / 2 ^ 62 : ℝ) / (-(6497888698226104 / 2 ^ 53 : ℝ))) 5000811249152355 61 (by norm_num) (by norm_num) (by norm_num) (by rw [abs_lt]; constructor <;> norm_num))
    (by norm_num) (by rw [lt_abs]; right; norm_num)
    (rnd_lit hr (y := (8444249301319683 / 2 ^ 49 : ℝ) * (4936935673990338 / 2 ^ 52 : ℝ)) 4628377194365944 48 (by norm_num) (by norm_num) (by norm_num) (by rw [abs_lt]; constructor <;> norm_num))
    (rnd_lit hr (y := (4628377194365944 / 2 ^ 48 : ℝ) / (4 * (8 : ℕ) ^ 2 - 1)) 4646527693167379 56 (by norm_num) (by norm_num) (by norm_num) (by rw [abs_lt]; constructor <;> norm_num))
    (rnd_lit hr (y := 1 - (4646527693167379 / 2 ^ 56 : ℝ)) 8426383293095070 53 (by norm_num) (by norm_num) (by norm_num) (by rw [abs_lt]; constructor <;> norm_num))
    (by norm_num)
    (rnd_lit hr (y := 1 / (8426383293095070 / 2 ^ 53 : ℝ)) 4814024925799880 52 (by norm_num) (by norm_num) (by norm_num) (by rw [abs_lt]; constructor <;> norm_num))
    (rnd_lit hr (y := (4814024925799880 / 2 ^ 52 : ℝ) - 1) 4966804774870144 56 (by norm_num) (by norm_num) (by norm_num) (by rw [abs_lt]; constructor <;> norm_num))
    (rnd_lit hr (y := (7215276131639981 / 2 ^ 62 : ℝ) * (4966804774870144 / 2 ^ 56 : ℝ)) 7957383184073139 66 (by norm_num) (by norm_num) (by norm_num) (by rw [abs_lt]; constructor <;> norm_num))
    (rnd_nlit hr (y := (-(6497888698226104 / 2 ^ 53 : ℝ)) + (7957383184073139 / 2 ^ 66 : ℝ)) 6496917337974142 53 (by norm_num) (by norm_num) (by norm_num) (by rw [abs_lt]; constructor <;> norm_num))

theorem pstep9 (hr : IsRounding rnd) : Fl.sbjLoop rnd (8444249301319683 / 2 ^ 49 : ℝ) (4814024925799880 / 2 ^ 52 : ℝ) (7957383184073139 / 2 ^ 66 : ℝ) (-(6496917337974142 / 2 ^ 53 : ℝ)) 8 = Fl.sbjLoop rnd (8444249301319683 / 2 ^ 49 : ℝ) (4738838565868614 / 2 ^ 52 : ℝ) (6650276324095257 / 2 ^ 70 : ℝ) (-(6496866600392324 / 2 ^ 53 : ℝ)) 9 :=
  pstep hr 9 (by norm_num)
    (rnd_nlit hr (y := (7957383184073139 / 2 ^ 66 : ℝ) / (-(6496917337974142 / 2 ^ 53 : ℝ))) 5515980283937341 65 (by norm_num) (by norm_num) (by norm_num) (by rw [abs_lt]; constructor <;> norm_num))
    (by norm_num) (by rw [lt_abs]; right; norm_num)
    (rnd_lit hr (y := (8444249301319683 / 2 ^ 49 : ℝ) * (4814024925799880 / 2 ^ 52 : ℝ)) 4513148367937389 48 (by norm_num) (by norm_num) (by norm_num) (by rw [abs_lt]; constructor <;> norm_num))
    (rnd_lit hr (y := (4513148367937389 / 2 ^ 48 : ℝ) / (4 * (9 : ℕ) ^ 2 - 1)) 7153968929981248 57 (by norm_num) (by norm_num) (by norm_num) (by rw [abs_lt]; constructor <;> norm_num))
    (rnd_lit hr (y := 1 - (7153968929981248 / 2 ^ 57 : ℝ)) 8560076196617164 53 (by norm_num) (by norm_num) (by norm_num) (by rw [abs_lt]; constructor <;> norm_num))
    (by norm_num)
    (rnd_lit hr (y := 1 / (8560076196617164 / 2 ^ 53 : ℝ)) 4738838565868614 52 (by norm_num) (by norm_num) (by norm_num) (by rw [abs_lt]; constructor <;> norm_num))
    (rnd_lit hr (y := (4738838565868614 / 2 ^ 52 : ℝ) - 1) 7527646031939776 57 (by norm_num) (by norm_num) (by norm_num) (by rw [abs_lt]; constructor <;> norm_num))
    (rnd_lit hr (y := (7957383184073139 / 2 ^ 66 : ℝ) * (7527646031939776 / 2 ^ 57 : ℝ)) 6650276324095257 70 (by norm_num) (by norm_num) (by norm_num) (by rw [abs_lt]; constructor <;> norm_num))
    (rnd_nlit hr (y := (-(6496917337974142 / 2 ^ 53 : ℝ)) + (6650276324095257 / 2 ^ 70 : ℝ)) 6496866600392324 53 (by norm_num) (by norm_num) (by norm_num) (by rw [abs_lt]; constructor <;> norm_num))

theorem pstep10 (hr : IsRounding rnd) : Fl.sbjLoop rnd (8444249301319683 / 2 ^ 49 : ℝ) (4738838565868614 / 2 ^ 52 : ℝ) (6650276324095257 / 2 ^ 70 : ℝ) (-(6496866600392324 / 2 ^ 53 : ℝ)) 9 = Fl.sbjLoop rnd (8444249301319683 / 2 ^ 49 : ℝ) (4689088976224602 / 2 ^ 52 : ℝ) (8764938464312215 / 2 ^ 75 : ℝ) (-(6496864510668149 / 2 ^ 53 : ℝ)) 10 :=
  pstep hr 10 (by norm_num)
    (rnd_nlit hr (y := (6650276324095257 / 2 ^ 70 : ℝ) / (-(6496866600392324 / 2 ^ 53 : ℝ))) 4609942579596392 69 (by norm_num) (by norm_num) (by norm_num) (by rw [abs_lt]; constructor <;> norm_num))
    (by norm_num) (by rw [lt_abs]; right; norm_num)
    (rnd_lit hr (y := (8444249301319683 / 2 ^ 49 : ℝ) * (4738838565868614 / 2 ^ 52 : ℝ)) 8885322311003654 49 (by norm_num) (by norm_num) (by norm_num) (by rw [abs_lt]; constructor <;> norm_num))
    (rnd_lit hr (y := (8885322311003654 / 2 ^ 49 : ℝ) / (4 * (10 : ℕ) ^ 2 - 1)) 5700858425105101 57 (by norm_num) (by norm_num) (by norm_num) (by rw [abs_lt]; constructor <;> norm_num))
    (rnd_lit hr (y := 1 - (5700858425105101 / 2 ^ 57 : ℝ)) 8650895603171923 53 (by norm_num) (by norm_num) (by norm_num) (by rw [abs_lt]; constructor <;> norm_num))
    (by norm_num)
    (rnd_lit hr (y := 1 / (8650895603171923 / 2 ^ 53 : ℝ)) 4689088976224602 52 (by norm_num) (by norm_num) (by norm_num) (by rw [abs_lt]; constructor <;> norm_num))
    (rnd_lit hr (y := (4689088976224602 / 2 ^ 52 : ℝ) - 1) 5935659163331392 57 (by norm_num) (by norm_num) (by norm_num) (by rw [abs_lt]; constructor <;> norm_num))
    (rnd_lit hr (y := (6650276324095257 / 2 ^ 70 : ℝ) * (5935659163331392 / 2 ^ 57 : ℝ)) 8764938464312215 75 (by norm_num) (by norm_num) (by norm_num) (by rw [abs_lt]; constructor <;> norm_num))
    (rnd_nlit hr (y := (-(6496866600392324 / 2 ^ 53 : ℝ)) + (8764938464312215 / 2 ^ 75 : ℝ)) 6496864510668149 53 (by norm_num) (by norm_num) (by norm_num) (by rw [abs_lt]; constructor <;> norm_num))

theorem pstep11 (hr : IsRounding rnd) : Fl.sbjLoop rnd (8444249301319683 / 2 ^ 49 : ℝ) (4689088976224602 / 2 ^ 52 : ℝ) (8764938464312215 / 2 ^ 75 : ℝ) (-(6496864510668149 / 2 ^ 53 : ℝ)) 10 = Fl.sbjLoop rnd (8444249301319683 / 2 ^ 49 : ℝ) (4654089601509040 / 2 ^ 52 : ℝ) (4686154976313172 / 2 ^ 79 : ℝ) (-(6496864440838998 / 2 ^ 53 : ℝ)) 11 :=
  pstep hr 11 (by norm_num)
    (rnd_nlit hr (y := (8764938464312215 / 2 ^ 75 : ℝ) / (-(6496864510668149 / 2 ^ 53 : ℝ))) 6075819118127533 74 (by norm_num) (by norm_num) (by norm_num) (by rw [abs_lt]; constructor <;> norm_num))
    (by norm_num) (by rw [lt_abs]; right; norm_num)
    (rnd_lit hr (y := (8444249301319683 / 2 ^ 49 : ℝ) * (4689088976224602 / 2 ^ 52 : ℝ)) 8792041830421132 49 (by norm_num) (by norm_num) (by norm_num) (by rw [abs_lt]; constructor <;> norm_num))
    (rnd_lit hr (y := (8792041830421132 / 2 ^ 49 : ℝ) / (4 * (11 : ℕ) ^ 2 - 1)) 4659964199974761 57 (by norm_num) (by norm_num) (by norm_num) (by rw [abs_lt]; constructor <;> norm_num))
    (rnd_lit hr (y := 1 - (4659964199974761 / 2 ^ 57 : ℝ)) 8715951492242569 53 (by norm_num) (by norm_num) (by norm_num) (by rw [abs_lt]; constructor <;> norm_num))
    (by norm_num)
    (rnd_lit hr (y := 1 / (8715951492242569 / 2 ^ 53 : ℝ)) 4654089601509040 52 (by norm_num) (by norm_num) (by norm_num) (by rw [abs_lt]; constructor <;> norm_num))
    (rnd_lit hr (y := (4654089601509040 / 2 ^ 52 : ℝ) - 1) 4815679172433408 57 (by norm_num) (by norm_num) (by norm_num) (by rw [abs_lt]; constructor <;> norm_num))
    (rnd_lit hr (y := (8764938464312215 / 2 ^ 75 : ℝ) * (4815679172433408 / 2 ^ 57 : ℝ)) 4686154976313172 79 (by norm_num) (by norm_num) (by norm_num) (by rw [abs_lt]; constructor <;> norm_num))
    (rnd_nlit hr (y := (-(6496864510668149 / 2 ^ 53 : ℝ)) + (4686154976313172 / 2 ^ 79 : ℝ)) 6496864440838998 53 (by norm_num) (by norm_num) (by norm_num) (by rw [abs_lt]; constructor <;> norm_num))

theorem pstep12 (hr : IsRounding rnd) : Fl.sbjLoop rnd (8444249301319683 / 2 ^ 49 : ℝ) (4654089601509040 / 2 ^ 52 : ℝ) (4686154976313172 / 2 ^ 79 : ℝ) (-(6496864440838998 / 2 ^ 53 : ℝ)) 11 = Fl.sbjLoop rnd (8444249301319683 / 2 ^ 49 : ℝ) (4628374422335579 / 2 ^ 52 : ℝ) (8309286078316510 / 2 ^ 85 : ℝ) (-(6496864438904342 / 2 ^ 53 : ℝ)) 12 :=
  pstep hr 12 (by norm_num)
    (rnd_nlit hr (y := (4686154976313172 / 2 ^ 79 : ℝ) / (-(6496864440838998 / 2 ^ 53 : ℝ))) 6496846593400362 79 (by norm_num) (by norm_num) (by norm_num) (by rw [abs_lt]; constructor <;> norm_num))
    (by norm_num) (by rw [lt_abs]; right; norm_num)
    (rnd_lit hr (y := (8444249301319683 / 2 ^ 49 : ℝ) * (4654089601509040 / 2 ^ 52 : ℝ)) 8726418002829453 49 (by norm_num) (by norm_num) (by norm_num) (by rw [abs_lt]; constructor <;> norm_num))
    (rnd_lit hr (y := (8726418002829453 / 2 ^ 49 : ℝ) / (4 * (12 : ℕ) ^ 2 - 1)) 7770306117302052 58 (by norm_num) (by norm_num) (by norm_num) (by rw [abs_lt]; constructor <;> norm_num))
    (rnd_lit hr (y := 1 - (7770306117302052 / 2 ^ 58 : ℝ)) 8764377188575303 53 (by norm_num) (by norm_num) (by norm_num) (by rw [abs_lt]; constructor <;> norm_num))
    (by norm_num)
    (rnd_lit hr (y := 1 / (8764377188575303 / 2 ^ 53 : ℝ)) 4628374422335579 52 (by norm_num) (by norm_num) (by norm_num) (by rw [abs_lt]; constructor <;> norm_num))
    (rnd_lit hr (y := (4628374422335579 / 2 ^ 52 : ℝ) - 1) 7985586877765312 58 (by norm_num) (by norm_num) (by norm_num) (by rw [abs_lt]; constructor <;> norm_num))
    (rnd_lit hr (y := (4686154976313172 / 2 ^ 79 : ℝ) * (7985586877765312 / 2 ^ 58 : ℝ)) 8309286078316510 85 (by norm_num) (by norm_num) (by norm_num) (by rw [abs_lt]; constructor <;> norm_num))
    (rnd_nlit hr (y := (-(6496864440838998 / 2 ^ 53 : ℝ)) + (8309286078316510 / 2 ^ 85 : ℝ)) 6496864438904342 53 (by norm_num) (by norm_num) (by norm_num) (by rw [abs_lt]; constructor <;> norm_num))

theorem pstep13 (hr : IsRounding rnd) : Fl.sbjLoop rnd (8444249301319683 / 2 ^ 49 : ℝ) (4628374422335579 / 2 ^ 52 : ℝ) (8309286078316510 / 2 ^ 85 : ℝ) (-(6496864438904342 / 2 ^ 53 : ℝ)) 12 = Fl.sbjLoop rnd (8444249301319683 / 2 ^ 49 : ℝ) (4608856232292695 / 2 ^ 52 : ℝ) (6214458223971698 / 2 ^ 90 : ℝ) (-(6496864438859126 / 2 ^ 53 : ℝ)) 13 :=
  pstep hr 13 (by norm_num)
    (rnd_nlit hr (y := (8309286078316510 / 2 ^ 85 : ℝ) / (-(6496864438904342 / 2 ^ 53 : ℝ))) 5759962830982515 84 (by norm_num) (by norm_num) (by norm_num) (by rw [abs_lt]; constructor <;> norm_num))
    (by norm_num) (by rw [lt_abs]; right; norm_num)
    (rnd_lit hr (y := (8444249301319683 / 2 ^ 49 : ℝ) * (4628374422335579 / 2 ^ 52 : ℝ)) 8678202041879214 49 (by norm_num) (by norm_num) (by norm_num) (by rw [abs_lt]; constructor <;> norm_num))
    (rnd_lit hr (y := (8678202041879214 / 2 ^ 49 : ℝ) / (4 * (13 : ℕ) ^ 2 - 1)) 6582576956210604 58 (by norm_num) (by norm_num) (by norm_num) (by rw [abs_lt]; constructor <;> norm_num))
    (rnd_lit hr (y := 1 - (6582576956210604 / 2 ^ 58 : ℝ)) 8801493724859411 53 (by norm_num) (by norm_num) (by norm_num) (by rw [abs_lt]; constructor <;> norm_num))
    (by norm_num)
    (rnd_lit hr (y := 1 / (8801493724859411 / 2 ^ 53 : ℝ)) 4608856232292695 52 (by norm_num) (by norm_num) (by norm_num) (by rw [abs_lt]; constructor <;> norm_num))
    (rnd_lit hr (y := (4608856232292695 / 2 ^ 52 : ℝ) - 1) 6736422715020736 58 (by norm_num) (by norm_num) (by norm_num) (by rw [abs_lt]; constructor <;> norm_num))
    (rnd_lit hr (y := (8309286078316510 / 2 ^ 85 : ℝ) * (6736422715020736 / 2 ^ 58 : ℝ)) 6214458223971698 90 (by norm_num) (by norm_num) (by norm_num) (by rw [abs_lt]; constructor <;> norm_num))
    (rnd_nlit hr (y := (-(6496864438904342 / 2 ^ 53 : ℝ)) + (6214458223971698 / 2 ^ 90 : ℝ)) 6496864438859126 53 (by norm_num) (by norm_num) (by norm_num) (by rw [abs_lt]; constructor <;> norm_num))

theorem pstep14 (hr : IsRounding rnd) : Fl.sbjLoop rnd (8444249301319683 / 2 ^ 49 : ℝ) (4608856232292695 / 2 ^ 52 : ℝ) (6214458223971698 / 2 ^ 90 : ℝ) (-(6496864438859126 / 2 ^ 53 : ℝ)) 13 = Fl.sbjLoop rnd (8444249301319683 / 2 ^ 49 : ℝ) (4593657460055098 / 2 ^ 52 : ℝ) (7953256030076149 / 2 ^ 96 : ℝ) (-(6496864438858222 / 2 ^ 53 : ℝ)) 14 :=
  pstep hr 14 (by norm_num)
    (rnd_nlit hr (y := (6214458223971698 / 2 ^ 90 : ℝ) / (-(6496864438859126 / 2 ^ 53 : ℝ))) 8615673608453235 90 (by norm_num) (by norm_num) (by norm_num) (by rw [abs_lt]; constructor <;> norm_num))
    (by norm_num) (by rw [lt_abs]; right; norm_num)
    (rnd_lit hr (y := (8444249301319683 / 2 ^ 49 : ℝ) * (4608856232292695 / 2 ^ 52 : ℝ)) 8641605435548806 49 (by norm_num) (by norm_num) (by norm_num) (by rw [abs_lt]; constructor <;> norm_num))
    (rnd_lit hr (y := (8641605435548806 / 2 ^ 49 : ℝ) / (4 * (14 : ℕ) ^ 2 - 1)) 5650704959132808 58 (by norm_num) (by norm_num) (by norm_num) (by rw [abs_lt]; constructor <;> norm_num))
    (rnd_lit hr (y := 1 - (5650704959132808 / 2 ^ 58 : ℝ)) 8830614724768092 53 (by norm_num) (by norm_num) (by norm_num) (by rw [abs_lt]; constructor <;> norm_num))
    (by norm_num)
    (rnd_lit hr (y := 1 / (8830614724768092 / 2 ^ 53 : ℝ)) 4593657460055098 52 (by norm_num) (by norm_num) (by norm_num) (by rw [abs_lt]; constructor <;> norm_num))
    (rnd_lit hr (y := (4593657460055098 / 2 ^ 52 : ℝ) - 1) 5763701291814528 58 (by norm_num) (by norm_num) (by norm_num) (by rw [abs_lt]; constructor <;> norm_num))
    (rnd_lit hr (y := (6214458223971698 / 2 ^ 90 : ℝ) * (5763701291814528 / 2 ^ 58 : ℝ)) 7953256030076149 96 (by norm_num) (by norm_num) (by norm_num) (by rw [abs_lt]; constructor <;> norm_num))
    (rnd_nlit hr (y := (-(6496864438859126 / 2 ^ 53 : ℝ)) + (7953256030076149 / 2 ^ 96 : ℝ)) 6496864438858222 53 (by norm_num) (by norm_num) (by norm_num) (by rw [abs_lt]; constructor <;> norm_num))

theorem pstep15 (hr : IsRounding rnd) : Fl.sbjLoop rnd (8444249301319683 / 2 ^ 49 : ℝ) (4593657460055098 / 2 ^ 52 : ℝ) (7953256030076149 / 2 ^ 96 : ℝ) (-(6496864438858222 / 2 ^ 53 : ℝ)) 14 = Fl.sbjLoop rnd (8444249301319683 / 2 ^ 49 : ℝ) (4581572761039696 / 2 ^ 52 : ℝ) (8812723642940036 / 2 ^ 102 : ℝ) (-(6496864438858206 / 2 ^ 53 : ℝ)) 15 :=
  pstep hr 15 (by norm_num)
    (rnd_nlit hr (y := (7953256030076149 / 2 ^ 96 : ℝ) / (-(6496864438858222 / 2 ^ 53 : ℝ))) 5513164270321131 95 (by norm_num) (by norm_num) (by norm_num) (by rw [abs_lt]; constructor <;> norm_num))
    (by norm_num) (by rw [lt_abs]; right; norm_num)
    (rnd_lit hr (y := (8444249301319683 / 2 ^ 49 : ℝ) * (4593657460055098 / 2 ^ 52 : ℝ)) 8613107737603312 49 (by norm_num) (by norm_num) (by norm_num) (by rw [abs_lt]; constructor <;> norm_num))
    (rnd_lit hr (y := (8613107737603312 / 2 ^ 49 : ℝ) / (4 * (15 : ℕ) ^ 2 - 1)) 4905351681482643 58 (by norm_num) (by norm_num) (by norm_num) (by rw [abs_lt]; constructor <;> norm_num))
    (rnd_lit hr (y := 1 - (4905351681482643 / 2 ^ 58 : ℝ)) 8853907014694659 53 (by norm_num) (by norm_num) (by norm_num) (by rw [abs_lt]; constructor <;> norm_num))
    (by norm_num)
    (rnd_lit hr (y := 1 / (8853907014694659 / 2 ^ 53 : ℝ)) 4581572761039696 52 (by norm_num) (by norm_num) (by norm_num) (by rw [abs_lt]; constructor <;> norm_num))
    (rnd_lit hr (y := (4581572761039696 / 2 ^ 52 : ℝ) - 1) 4990280554828800 58 (by norm_num) (by norm_num) (by norm_num) (by rw [abs_lt]; constructor <;> norm_num))
    (rnd_lit hr (y := (7953256030076149 / 2 ^ 96 : ℝ) * (4990280554828800 / 2 ^ 58 : ℝ)) 8812723642940036 102 (by norm_num) (by norm_num) (by norm_num) (by rw [abs_lt]; constructor <;> norm_num))
    (rnd_nlit hr (y := (-(6496864438858222 / 2 ^ 53 : ℝ)) + (8812723642940036 / 2 ^ 102 : ℝ)) 6496864438858206 53 (by norm_num) (by norm_num) (by norm_num) (by rw [abs_lt]; constructor <;> norm_num))

theorem pstep16 (hr : IsRounding rnd) : Fl.sbjLoop rnd (8444249301319683 / 2 ^ 49 : ℝ) (4581572761039696 / 2 ^ 52 : ℝ) (8812723642940036 / 2 ^ 102 : ℝ) (-(6496864438858206 / 2 ^ 53 : ℝ)) 15 = Fl.sbjLoop rnd (8444249301319683 / 2 ^ 49 : ℝ) (4571795363514082 / 2 ^ 52 : ℝ) (8540584080098493 / 2 ^ 108 : ℝ) (-(6496864438858206 / 2 ^ 53 : ℝ)) 16 :=
  pstep hr 16 (by norm_num)
    (rnd_nlit hr (y := (8812723642940036 / 2 ^ 102 : ℝ) / (-(6496864438858206 / 2 ^ 53 : ℝ))) 6108943673979299 101 (by norm_num) (by norm_num) (by norm_num) (by rw [abs_lt]; constructor <;> norm_num))
    (by norm_num) (by rw [lt_abs]; right; norm_num)
    (rnd_lit hr (y := (8444249301319683 / 2 ^ 49 : ℝ) * (4581572761039696 / 2 ^ 52 : ℝ)) 8590448926949433 49 (by norm_num) (by norm_num) (by norm_num) (by rw [abs_lt]; constructor <;> norm_num))
    (rnd_lit hr (y := (8590448926949433 / 2 ^ 49 : ℝ) / (4 * (16 : ℕ) ^ 2 - 1)) 8598846237728465 59 (by norm_num) (by norm_num) (by norm_num) (by rw [abs_lt]; constructor <;> norm_num))
    (rnd_lit hr (y := 1 - (8598846237728465 / 2 ^ 59 : ℝ)) 8872842282276485 53 (by norm_num) (by norm_num) (by norm_num) (by rw [abs_lt]; constructor <;> norm_num))
    (by norm_num)
    (rnd_lit hr (y := 1 / (8872842282276485 / 2 ^ 53 : ℝ)) 4571795363514082 52 (by norm_num) (by norm_num) (by norm_num) (by rw [abs_lt]; constructor <;> norm_num))
    (rnd_lit hr (y := (4571795363514082 / 2 ^ 52 : ℝ) - 1) 8729054226379008 59 (by norm_num) (by norm_num) (by norm_num) (by rw [abs_lt]; constructor <;> norm_num))
    (rnd_lit hr (y := (8812723642940036 / 2 ^ 102 : ℝ) * (8729054226379008 / 2 ^ 59 : ℝ)) 8540584080098493 108 (by norm_num) (by norm_num) (by norm_num) (by rw [abs_lt]; constructor <;> norm_num))
    (rnd_nlit hr (y := (-(6496864438858206 / 2 ^ 53 : ℝ)) + (8540584080098493 / 2 ^ 108 : ℝ)) 6496864438858206 53 (by norm_num) (by norm_num) (by norm_num) (by rw [abs_lt]; constructor <;> norm_num))

theorem pstep17 (hr : IsRounding rnd) : Fl.sbjLoop rnd (8444249301319683 / 2 ^ 49 : ℝ) (4571795363514082 / 2 ^ 52 : ℝ) (8540584080098493 / 2 ^ 108 : ℝ) (-(6496864438858206 / 2 ^ 53 : ℝ)) 16 = Fl.sbjLoop rnd (8444249301319683 / 2 ^ 49 : ℝ) (4563766817435051 / 2 ^ 52 : ℝ) (7302431663583756 / 2 ^ 114 : ℝ) (-(6496864438858206 / 2 ^ 53 : ℝ)) 17 :=
  pstep hr 17 (by norm_num)
    (rnd_nlit hr (y := (8540584080098493 / 2 ^ 108 : ℝ) / (-(6496864438858206 / 2 ^ 53 : ℝ))) 5920297651680373 107 (by norm_num) (by norm_num) (by norm_num) (by rw [abs_lt]; constructor <;> norm_num))
    (by norm_num) (by rw [lt_abs]; right; norm_num)
    (rnd_lit hr (y := (8444249301319683 / 2 ^ 49 : ℝ) * (4571795363514082 / 2 ^ 52 : ℝ)) 8572116306588907 49 (by norm_num) (by norm_num) (by norm_num) (by rw [abs_lt]; constructor <;> norm_num))
    (rnd_lit hr (y := (8572116306588907 / 2 ^ 49 : ℝ) / (4 * (17 : ℕ) ^ 2 - 1)) 7599867617270165 59 (by norm_num) (by norm_num) (by norm_num) (by rw [abs_lt]; constructor <;> norm_num))
    (rnd_lit hr (y := 1 - (7599867617270165 / 2 ^ 59 : ℝ)) 8888451323221146 53 (by norm_num) (by norm_num) (by norm_num) (by rw [abs_lt]; constructor <;> norm_num))
    (by norm_num)
    (rnd_lit hr (y := 1 / (8888451323221146 / 2 ^ 53 : ℝ)) 4563766817435051 52 (by norm_num) (by norm_num) (by norm_num) (by rw [abs_lt]; constructor <;> norm_num))
    (rnd_lit hr (y := (4563766817435051 / 2 ^ 52 : ℝ) - 1) 7701400328263040 59 (by norm_num) (by norm_num) (by norm_num) (by rw [abs_lt]; constructor <;> norm_num))
    (rnd_lit hr (y := (8540584080098493 / 2 ^ 108 : ℝ) * (7701400328263040 / 2 ^ 59 : ℝ)) 7302431663583756 114 (by norm_num) (by norm_num) (by norm_num) (by rw [abs_lt]; constructor <;> norm_num))
    (rnd_nlit hr (y := (-(6496864438858206 / 2 ^ 53 : ℝ)) + (7302431663583756 / 2 ^ 114 : ℝ)) 6496864438858206 53 (by norm_num) (by norm_num) (by norm_num) (by rw [abs_lt]; constructor <;> norm_num))

theorem pstep18 (hr : IsRounding rnd) : Fl.sbjLoop rnd (8444249301319683 / 2 ^ 49 : ℝ) (4563766817435051 / 2 ^ 52 : ℝ) (7302431663583756 / 2 ^ 114 : ℝ) (-(6496864438858206 / 2 ^ 53 : ℝ)) 17 = Fl.sbjLoop rnd (8444249301319683 / 2 ^ 49 : ℝ) (4557089644167667 / 2 ^ 52 : ℝ) (5550862061131859 / 2 ^ 120 : ℝ) (-(6496864438858206 / 2 ^ 53 : ℝ)) 18 :=
  pstep hr 18 (by norm_num)
    (rnd_nlit hr (y := (7302431663583756 / 2 ^ 114 : ℝ) / (-(6496864438858206 / 2 ^ 53 : ℝ))) 5062015504327514 113 (by norm_num) (by norm_num) (by norm_num) (by rw [abs_lt]; constructor <;> norm_num))
    (by norm_num) (by rw [lt_abs]; right; norm_num)
    (rnd_lit hr (y := (8444249301319683 / 2 ^ 49 : ℝ) * (4563766817435051 / 2 ^ 52 : ℝ)) 8557062782690724 49 (by norm_num) (by norm_num) (by norm_num) (by rw [abs_lt]; constructor <;> norm_num))
    (rnd_lit hr (y := (8557062782690724 / 2 ^ 49 : ℝ) / (4 * (18 : ℕ) ^ 2 - 1)) 6766356980289808 59 (by norm_num) (by norm_num) (by norm_num) (by rw [abs_lt]; constructor <;> norm_num))
    (rnd_lit hr (y := 1 - (6766356980289808 / 2 ^ 59 : ℝ)) 8901474926923964 53 (by norm_num) (by norm_num) (by norm_num) (by rw [abs_lt]; constructor <;> norm_num))
    (by norm_num)
    (rnd_lit hr (y := 1 / (8901474926923964 / 2 ^ 53 : ℝ)) 4557089644167667 52 (by norm_num) (by norm_num) (by norm_num) (by rw [abs_lt]; constructor <;> norm_num))
    (rnd_lit hr (y := (4557089644167667 / 2 ^ 52 : ℝ) - 1) 6846722150037888 59 (by norm_num) (by norm_num) (by norm_num) (by rw [abs_lt]; constructor <;> norm_num))
    (rnd_lit hr (y := (7302431663583756 / 2 ^ 114 : ℝ) * (6846722150037888 / 2 ^ 59 : ℝ)) 5550862061131859 120 (by norm_num) (by norm_num) (by norm_num) (by rw [abs_lt]; constructor <;> norm_num))
    (rnd_nlit hr (y := (-(6496864438858206 / 2 ^ 53 : ℝ)) + (5550862061131859 / 2 ^ 120 : ℝ)) 6496864438858206 53 (by norm_num) (by norm_num) (by norm_num) (by rw [abs_lt]; constructor <;> norm_num))

theorem pend (hr : IsRounding rnd) : Fl.sbjLoop rnd (8444249301319683 / 2 ^ 49 : ℝ) (4557089644167667 / 2 ^ 52 : ℝ) (5550862061131859 / 2 ^ 120 : ℝ) (-(6496864438858206 / 2 ^ 53 : ℝ)) 18 = some (.ok (-(6496864438858206 / 2 ^ 53 : ℝ))) := by
  have hq := rnd_nlit hr (y := (5550862061131859 / 2 ^ 120 : ℝ) / (-(6496864438858206 / 2 ^ 53 : ℝ))) 7695669363386593 120 (by norm_num) (by norm_num) (by norm_num) (by rw [abs_lt]; constructor <;> norm_num)
  rw [Fl.sbjLoop, if_neg (by norm_num), hq, thr_lo hr, if_neg]
  rw [not_lt, abs_le]; constructor <;> norm_num

theorem ploop (hr : IsRounding rnd) : Fl.sbjLoop rnd (8444249301319683 / 2 ^ 49 : ℝ) 1 (5814122118263954 / 2 ^ 52 : ℝ) (5814122118263954 / 2 ^ 52 : ℝ) 1 = some (.ok (-(6496864438858206 / 2 ^ 53 : ℝ))) := by
  refine (pstep2 hr).trans ?_
  refine (pstep3 hr).trans ?_
  refine (pstep4 hr).trans ?_
  refine (pstep5 hr).trans ?_
  refine (pstep6 hr).trans ?_
  refine (pstep7 hr).trans ?_
  refine (pstep8 hr).trans ?_
  refine (pstep9 hr).trans ?_
  refine (pstep10 hr).trans ?_
  refine (pstep11 hr).trans ?_
  refine (pstep12 hr).trans ?_
  refine (pstep13 hr).trans ?_
  refine (pstep14 hr).trans ?_
  refine (pstep15 hr).trans ?_
  refine (pstep16 hr).trans ?_
  refine (pstep17 hr).trans ?_
  refine (pstep18 hr).trans ?_
  exact pend hr

/-- The double `3.8729833462074175`, next above the one nearest to `√15`. -/
noncomputable def xp15 : ℝ := 8721183177395931 / 2 ^ 51

theorem xp15_bounds : 3872983346 / 10 ^ 9 ≤ xp15 ∧ xp15 ≤ 3872983347 / 10 ^ 9 := by unfold xp15; constructor <;> norm_num

/-- `x = 5π/4 - δ` with `δ ≈ 0.054`. -/
theorem xp15_trig : -(6680 / 10000) ≤ Real.sin xp15 ∧ Real.sin xp15 ≤ -(6678 / 10000) ∧ -(7444 / 10000) ≤ Real.cos xp15 ∧ Real.cos xp15 ≤ -(7442 / 10000) := by
  obtain ⟨x1, x2⟩ := xp15_bounds
  have p1 := Real.pi_gt_d6
  have p2 := Real.pi_lt_d6
  obtain ⟨d, hd⟩ : ∃ d, d = Real.pi / 4 - (xp15 - Real.pi) := ⟨_, rfl⟩
  have d1 : 5400 / 100000 ≤ d := by rw [hd]; linarith
  have d2 : d ≤ 5402 / 100000 := by rw [hd]; linarith
  have es : Real.sin xp15 = -(Real.sqrt 2 / 2 * (Real.cos d - Real.sin d)) := by
    rw [show xp15 = (Real.pi / 4 - d) + Real.pi by rw [hd]; ring, Real.sin_add_pi, Real.sin_sub, Real.sin_pi_div_four, Real.cos_pi_div_four]; ring
  have ec : Real.cos xp15 = -(Real.sqrt 2 / 2 * (Real.cos d + Real.sin d)) := by
    rw [show xp15 = (Real.pi / 4 - d) + Real.pi by rw [hd]; ring, Real.cos_add_pi, Real.cos_sub, Real.sin_pi_div_four, Real.cos_pi_div_four]; ring
  clear hd
  have r1 : 14142 / 10000 ≤ Real.sqrt 2 := by apply Real.le_sqrt_of_sq_le; norm_num
  have r2 : Real.sqrt 2 ≤ 14143 / 10000 := by apply Real.sqrt_le_iff.mpr; constructor <;> norm_num
  have c1 := Real.one_sub_sq_div_two_le_cos (x := d)
  have c2 := (abs_le.mp (Real.cos_bound (x := d) (by rw [abs_of_nonneg (by linarith)]; linarith))).2
  rw [abs_of_nonneg (show 0 ≤ d by linarith)] at c2
  have s1 := Real.sin_gt_sub_cube (x := d) (by linarith)
  have s2 := Real.sin_lt (x := d) (by linarith)
  have q1 : d ^ 2 ≤ (5402 / 100000) ^ 2 := pow_le_pow_left₀ (by linarith) d2 2
  have q1' : (5400 / 100000) ^ 2 ≤ d ^ 2 := pow_le_pow_left₀ (by norm_num) d1 2
  have q2 : d ^ 3 ≤ (5402 / 100000) ^ 3 := pow_le_pow_left₀ (by linarith) d2 3
  have q4 : d ^ 4 ≤ (5402 / 100000) ^ 4 := pow_le_pow_left₀ (by linarith) d2 4
  norm_num at q1 q1' q2 q4
  have C1 : 99854 / 100000 ≤ Real.cos d := by linarith
  have C2 : Real.cos d ≤ 99855 / 100000 := by linarith
  have S1 : 5397 / 100000 ≤ Real.sin d := by linarith
  have S2 : Real.sin d ≤ 5402 / 100000 := by linarith
  rw [es, ec]
  have A1 : 94452 / 100000 ≤ Real.cos d - Real.sin d := by linarith
  have A2 : Real.cos d - Real.sin d ≤ 94458 / 100000 := by linarith
  have B1 : 105251 / 100000 ≤ Real.cos d + Real.sin d := by linarith
  have B2 : Real.cos d + Real.sin d ≤ 105257 / 100000 := by linarith
  have R1 : 7071 / 10000 ≤ Real.sqrt 2 / 2 := by linarith
  have R2 : Real.sqrt 2 / 2 ≤ 70715 / 100000 := by linarith
  have e1 := mul_le_mul R1 A1 (by norm_num) (by linarith)
  have e2 := mul_le_mul R2 A2 (by linarith) (by norm_num)
  have e3 := mul_le_mul R1 B1 (by norm_num) (by linarith)
  have e4 := mul_le_mul R2 B2 (by linarith) (by norm_num)
  refine ⟨?_, ?_, ?_, ?_⟩ <;> linarith

theorem rnd_near (hr : IsRounding rnd) {y a : ℝ} (hy : |y - a| ≤ 1 / 10 ^ 6) (ha : |a| ≤ 10) : |rnd y - a| ≤ 2 / 10 ^ 6 := by
  have h1 : |y| ≤ 11 := by
    have := abs_sub_abs_le_abs_sub y a
    linarith
  have h2 := rnd_err hr (x := y) (h1.trans (by
    have : (2 : ℝ) ^ (4 : ℤ) ≤ 2 ^ (1022 : ℤ) := zpow_le_zpow_right₀ (by norm_num) (by norm_num)
    refine le_trans ?_ this
    norm_num))
  have h3 := tiny_small
  have h4 : uu ≤ 1 / 10 ^ 10 := by unfold uu; norm_num
  have h5 : uu * |y| ≤ 1 / 10 ^ 10 * 11 := mul_le_mul h4 h1 (abs_nonneg _) (by norm_num)
  have e : rnd y - a = (rnd y - y) + (y - a) := by ring
  rw [e]
  refine (abs_add_le _ _).trans ?_
  linarith

theorem pfinal (hr : IsRounding rnd) {y j : ℝ} (h1 : -(17249 / 100000) ≤ y) (h2 : y ≤ 0) (hj : 14761 / 100000 ≤ j) :
    rnd ((-(6496864438858206 / 2 ^ 53 : ℝ)) * y) ≤ j - 1 / 50 := by
  have hw : (6496864438858206 / 2 ^ 53 : ℝ) ≤ 72130 / 100000 := by norm_num
  have hw' : (0 : ℝ) ≤ (6496864438858206 / 2 ^ 53 : ℝ) := by norm_num
  generalize (6496864438858206 / 2 ^ 53 : ℝ) = g at hw hw' ⊢
  have m1 : g * (-y) ≤ 72130 / 100000 * (17249 / 100000) := mul_le_mul hw (by linarith) (by linarith) (by norm_num)
  have m0 : 0 ≤ g * (-y) := mul_nonneg hw' (by linarith)
  have r4 := rnd_near hr (y := -g * y) (a := -g * y) (by simp) (by rw [abs_le]; constructor <;> linarith)
  obtain ⟨_, r4b⟩ := abs_le.mp r4
  linarith

/-- The call at `xp15`, for every rounding, when `x ** 2` is correctly rounded and `sin` and `cos` are accurate. -/
theorem pcall (hr : IsRounding rnd) (lib : Fl.BesLib) (hl : BesLibOk lib xp15) (hsq : lib.sq xp15 = rnd (xp15 ^ 2)) :
    ∃ out, Fl.sbesselj rnd lib xp15 2 = .ok out ∧ out.length = 2 ∧ 1 / 5 - 6 / 100 ≤ sphJ 1 xp15 ∧ sphJ 1 xp15 ≤ 1 / 5 - 4 / 100 ∧ rd out 1 ≤ sphJ 1 xp15 - 1 / 50 := by
  obtain ⟨x1, x2⟩ := xp15_bounds
  obtain ⟨s1, s2, c1, c2⟩ := xp15_trig
  have hz : rnd (xp15 ^ 2) = (8444249301319683 / 2 ^ 49 : ℝ) := by
    have := rnd_lit hr (y := xp15 ^ 2) 8444249301319683 49 (by norm_num) (by norm_num) (by norm_num) (by rw [abs_lt]; unfold xp15; constructor <;> norm_num)
    rw [this]; norm_num
  have hv : rnd (xp15 / rnd (rnd (2 * Fl.ofInt rnd ((1 : ℕ) : ℤ)) + 1)) = (5814122118263954 / 2 ^ 52 : ℝ) := by
    rw [odd_int hr (by norm_num)]
    have := rnd_lit hr (y := xp15 / (2 * (1 : ℕ) + 1)) 5814122118263954 52 (by norm_num) (by norm_num) (by norm_num) (by rw [abs_lt]; unfold xp15; constructor <;> norm_num)
    rw [this]; norm_num
  have x0 : xp15 ≠ 0 := by linarith
  have hlp := ploop hr
  rw [← hv, ← hz, ← hsq] at hlp
  have s := sbj_struct hr lib (x := xp15) (M := 1) (by norm_num) (by norm_num) x0 (by rw [hsq, hz]; norm_num) hlp
  rw [show ((1 : ℕ) : ℤ) + 1 = 2 by norm_num] at s
  rcases s with ⟨r, out, e, len, rM, _, o0, o1, _⟩ | ⟨_, _, n, h1, h2, _⟩
  swap
  · omega
  have ls := hl.sin
  have lc := hl.cos
  have u8 : (8 : ℝ) * 2 ^ (-53 : ℤ) ≤ 1 / 10 ^ 10 := by rw [zpow_neg]; norm_num
  have ls' : |lib.sin xp15 - Real.sin xp15| ≤ 1 / 10 ^ 10 := by
    refine ls.trans ((mul_le_mul u8 (Real.abs_sin_le_one _) (abs_nonneg _) (by norm_num)).trans ?_); norm_num
  have lc' : |lib.cos xp15 - Real.cos xp15| ≤ 1 / 10 ^ 10 := by
    refine lc.trans ((mul_le_mul u8 (Real.abs_cos_le_one _) (abs_nonneg _) (by norm_num)).trans ?_); norm_num
  obtain ⟨ls1, ls2⟩ := abs_le.mp ls'
  obtain ⟨lc1, lc2⟩ := abs_le.mp lc'
  have xpos : 0 < xp15 := by linarith
  have zp1 : (14999999 / 10 ^ 6 : ℝ) ≤ lib.sq xp15 := by rw [hsq, hz]; norm_num
  have zp2 : lib.sq xp15 ≤ (15000001 / 10 ^ 6 : ℝ) := by rw [hsq, hz]; norm_num
  have zpos : 0 < lib.sq xp15 := by linarith
  have ej : sphJ 1 xp15 = Real.sin xp15 / xp15 ^ 2 - Real.cos xp15 / xp15 := rfl
  -- the quotients
  have w1 : (14999999 / 10 ^ 6 : ℝ) ≤ xp15 ^ 2 := by unfold xp15; norm_num
  have w2 : xp15 ^ 2 ≤ (15000001 / 10 ^ 6 : ℝ) := by unfold xp15; norm_num
  have wpos : 0 < xp15 ^ 2 := by linarith
  have q0a : -(17248 / 100000) ≤ Real.sin xp15 / xp15 := by rw [le_div_iff₀ xpos]; linarith
  have q0b : Real.sin xp15 / xp15 ≤ -(17242 / 100000) := by rw [div_le_iff₀ xpos]; linarith
  have q1a : -(4454 / 100000) ≤ Real.sin xp15 / xp15 ^ 2 := by rw [le_div_iff₀ wpos]; linarith
  have q1b : Real.sin xp15 / xp15 ^ 2 ≤ -(4451 / 100000) := by rw [div_le_iff₀ wpos]; linarith
  have q2a : -(19221 / 100000) ≤ Real.cos xp15 / xp15 := by rw [le_div_iff₀ xpos]; linarith
  have q2b : Real.cos xp15 / xp15 ≤ -(19215 / 100000) := by rw [div_le_iff₀ xpos]; linarith
  have t0 : |lib.sin xp15 / xp15 - Real.sin xp15 / xp15| ≤ 1 / 10 ^ 6 := by
    rw [← sub_div, abs_div, abs_of_pos xpos, div_le_iff₀ xpos]; linarith
  have r0 := rnd_near hr t0 (by rw [abs_le]; constructor <;> linarith)
  have v1a : -(4458 / 100000) ≤ lib.sin xp15 / lib.sq xp15 := by rw [le_div_iff₀ zpos]; linarith
  have v1b : lib.sin xp15 / lib.sq xp15 ≤ -(4447 / 100000) := by rw [div_le_iff₀ zpos]; linarith
  have r1 := rnd_near hr (y := lib.sin xp15 / lib.sq xp15) (a := lib.sin xp15 / lib.sq xp15) (by simp) (by rw [abs_le]; constructor <;> linarith)
  have t2 : |lib.cos xp15 / xp15 - Real.cos xp15 / xp15| ≤ 1 / 10 ^ 6 := by
    rw [← sub_div, abs_div, abs_of_pos xpos, div_le_iff₀ xpos]; linarith
  have r2 := rnd_near hr t2 (by rw [abs_le]; constructor <;> linarith)
  obtain ⟨r0a, r0b⟩ := abs_le.mp r0
  obtain ⟨r1a, r1b⟩ := abs_le.mp r1
  obtain ⟨r2a, r2b⟩ := abs_le.mp r2
  have r3 := rnd_near hr (y := rnd (lib.sin xp15 / lib.sq xp15) - rnd (lib.cos xp15 / xp15)) (a := rnd (lib.sin xp15 / lib.sq xp15) - rnd (lib.cos xp15 / xp15)) (by simp)
    (by rw [abs_le]; constructor <;> linarith)
  obtain ⟨r3a, r3b⟩ := abs_le.mp r3
  have cond : |rnd (rnd (lib.sin xp15 / lib.sq xp15) - rnd (lib.cos xp15 / xp15))| ≤ |rnd (lib.sin xp15 / xp15)| := by
    rw [abs_of_nonneg (by linarith), abs_of_nonpos (by linarith)]
    linarith
  rw [if_pos cond, rM] at o1
  rw [ej]
  refine ⟨out, e, len, by linarith, by linarith, ?_⟩
  rw [o1]
  have hy1 : -(17249 / 100000) ≤ rnd (lib.sin xp15 / xp15) := by linarith
  have hy2 : rnd (lib.sin xp15 / xp15) ≤ 0 := by linarith
  have hj : 14761 / 100000 ≤ Real.sin xp15 / xp15 ^ 2 - Real.cos xp15 / xp15 := by linarith
  exact pfinal hr hy1 hy2 hj

end FB

/-- **C102** (counterexample beyond `|x| = N - 1/2`): `sbesselj(3.8729833462074175, 2)` returns a `j_1` that is too small by more than `0.02`, a seventh of its
value, for every rounding to nearest, with `x ** 2` correctly rounded and `sin`, `cos` accurate to a few units in the last place. -/
theorem c102_beyond (hr : IsRounding rnd) (lib : Fl.BesLib) (hl : BesLibOk lib (8721183177395931 / 2 ^ 51 : ℝ))
    (hsq : lib.sq (8721183177395931 / 2 ^ 51 : ℝ) = rnd ((8721183177395931 / 2 ^ 51 : ℝ) ^ 2)) :
    ∃ out, Fl.sbesselj rnd lib (8721183177395931 / 2 ^ 51 : ℝ) 2 = .ok out ∧ out.length = 2 ∧ sphJ 1 (8721183177395931 / 2 ^ 51 : ℝ) ≤ 16 / 100 ∧
      rd out 1 ≤ sphJ 1 (8721183177395931 / 2 ^ 51 : ℝ) - 1 / 50 := by
  obtain ⟨out, e, l, _, b, c⟩ := FB.pcall hr lib hl hsq
  refine ⟨out, e, l, b.trans (by norm_num), c⟩

/-- The hypotheses of `c102_beyond` are met: an exact `sin` and `cos` and a correctly rounded square. -/
theorem c102_beyond_lib (hr : IsRounding rnd) : BesLibOk ⟨Real.cos, Real.sin, fun t => rnd (t ^ 2)⟩ (8721183177395931 / 2 ^ 51 : ℝ) where
  cos := by simp only [sub_self, abs_zero]; positivity
  sin := by simp only [sub_self, abs_zero]; positivity
  sq := by
    have := FB.rnd_lit hr (y := ((8721183177395931 / 2 ^ 51 : ℝ)) ^ 2) 8444249301319683 49 (by norm_num) (by norm_num) (by norm_num) (by rw [abs_lt]; constructor <;> norm_num)
    show |rnd _ - _| ≤ _
    rw [this, zpow_neg, abs_le]; constructor <;> norm_num

end Verif.Props
