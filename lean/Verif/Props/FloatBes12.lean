import Verif.Props.FloatBes10
/-!
# C102: an exact zero divisor in `sbesselj`

Generated by tools/gen_bes_zero.py.  At the double `x = 5.76345919689455` (a zero of `j_2`) the call `sbesselj(x, 7)` computes the same double for `7 / x` and
`out[4]`, so sbessel.py 96 divides by zero, for every rounding to nearest (no operation meets a tie).
-/
namespace Verif.Props
open Verif
variable {rnd : ℝ → ℝ}

namespace FB

theorem rnd_lit_aux (hr : IsRounding rnd) {y : ℝ} (m : ℕ) (k : ℤ) (h1 : 2 ^ 52 ≤ m) (h2 : m < 2 ^ 53) (hk0 : -500 ≤ k) (hk : k ≤ 1000) (h : |y * 2 ^ k - m| < 1 / 2)
    (h' : 2 ^ 52 < m ∨ |y * 2 ^ k - m| < 1 / 4) : rnd y = m / 2 ^ k := by
  have pk : (0 : ℝ) < 2 ^ k := by positivity
  have h2r : (m : ℝ) < 2 ^ 53 := by exact_mod_cast h2
  have h1r : (2 : ℝ) ^ 52 ≤ m := by exact_mod_cast h1
  have dm : IsDouble ((m : ℝ) / 2 ^ k) := by
    refine ⟨m, -k, ?_, by omega, by omega, ?_⟩
    · rw [abs_of_nonneg (by positivity)]; exact_mod_cast h2
    · rw [zpow_neg]; push_cast; rfl
  have yb : |y| ≤ 2 ^ 1023 := by
    have t : |y * 2 ^ k| ≤ 2 ^ 54 := by
      have := abs_sub_abs_le_abs_sub (y * 2 ^ k) m
      rw [abs_of_nonneg (show (0 : ℝ) ≤ m by positivity)] at this
      have h3 : (2 : ℝ) ^ 53 + 1 ≤ 2 ^ 54 := by norm_num
      linarith
    rw [abs_mul, abs_of_pos pk] at t
    have e : |y| = |y| * 2 ^ k * 2 ^ (-k) := by rw [mul_assoc, ← zpow_add₀ (by norm_num), add_neg_cancel, zpow_zero, mul_one]
    rw [e]
    calc |y| * 2 ^ k * 2 ^ (-k) ≤ 2 ^ 54 * 2 ^ (500 : ℤ) := mul_le_mul t (zpow_le_zpow_right₀ (by norm_num) (by omega)) (by positivity) (by positivity)
      _ = 2 ^ 554 := by rw [show (500 : ℤ) = ((500 : ℕ) : ℤ) by rfl, zpow_natCast, ← pow_add]
      _ ≤ 2 ^ 1023 := pow_le_pow_right₀ (by norm_num) (by norm_num)
  have near := hr.nearest y yb _ dm
  have dd := hr.double y yb
  generalize rnd y = d at near dd
  clear hr yb
  obtain ⟨a, e, ha, he0, he1, rfl⟩ := dd
  have har : |(a : ℝ)| < 2 ^ 53 := by
    have : ((|a| : ℤ) : ℝ) < 2 ^ 53 := by exact_mod_cast ha
    rwa [Int.cast_abs] at this
  have near' : |y * 2 ^ k - a * 2 ^ e * 2 ^ k| ≤ |y * 2 ^ k - m| := by
    rw [← sub_mul, abs_mul, abs_of_pos pk]
    calc |y - a * 2 ^ e| * 2 ^ k ≤ |y - m / 2 ^ k| * 2 ^ k := mul_le_mul_of_nonneg_right near pk.le
      _ = |y * 2 ^ k - m| := by
        rw [← abs_of_pos pk, ← abs_mul, abs_of_pos pk, sub_mul, div_mul_cancel₀ _ pk.ne']
  have tot : |(a : ℝ) * 2 ^ e * 2 ^ k - m| ≤ |y * 2 ^ k - a * 2 ^ e * 2 ^ k| + |y * 2 ^ k - m| := by
    rw [show (a : ℝ) * 2 ^ e * 2 ^ k - m = -(y * 2 ^ k - a * 2 ^ e * 2 ^ k) + (y * 2 ^ k - m) by ring]
    exact (abs_add_le _ _).trans (by rw [abs_neg])
  have t1 : |(a : ℝ) * 2 ^ e * 2 ^ k - m| < 1 := by linarith
  have e2 : (a : ℝ) * 2 ^ e * 2 ^ k = a * 2 ^ (e + k) := by rw [zpow_add₀ (by norm_num)]; ring
  rw [e2] at t1 tot near'
  -- a multiple of one half, of one unless `m` is a power of two
  have big : ∀ j : ℤ, e + k ≤ j → (a : ℝ) * 2 ^ (e + k) < 2 ^ 53 * 2 ^ j := fun j hj => by
    calc (a : ℝ) * 2 ^ (e + k) ≤ |(a : ℝ)| * 2 ^ (e + k) := mul_le_mul_of_nonneg_right (le_abs_self _) (by positivity)
      _ ≤ |(a : ℝ)| * 2 ^ j := mul_le_mul_of_nonneg_left (zpow_le_zpow_right₀ (by norm_num) hj) (abs_nonneg _)
      _ < _ := mul_lt_mul_of_pos_right har (by positivity)
  have hm := (abs_lt.1 t1).1
  suffices hs : (a : ℝ) * 2 ^ (e + k) = m by
    rw [eq_div_iff pk.ne', e2, hs]
  rcases h' with h' | h'
  · have h3r : (2 : ℝ) ^ 52 + 1 ≤ m := by exact_mod_cast h'
    have ek : 0 ≤ e + k := by
      by_contra hc
      have := big (-1) (by omega)
      have h4 : (2 : ℝ) ^ 53 * 2 ^ (-1 : ℤ) = 2 ^ 52 := by norm_num
      linarith
    obtain ⟨j, hj⟩ : ∃ j : ℕ, e + k = j := ⟨(e + k).toNat, by omega⟩
    rw [hj, zpow_natCast] at t1 ⊢
    have : |((a * 2 ^ j - m : ℤ) : ℝ)| < 1 := by push_cast; exact t1
    have : |(a * 2 ^ j - m : ℤ)| < 1 := by rw [← Int.cast_abs] at this; exact_mod_cast this
    have := Int.abs_lt_one_iff.1 this
    have : a * 2 ^ j = m := by omega
    exact_mod_cast this
  · have ek : -1 ≤ e + k := by
      by_contra hc
      have := big (-2) (by omega)
      have h4 : (2 : ℝ) ^ 53 * 2 ^ (-2 : ℤ) + 1 ≤ 2 ^ 52 := by norm_num
      linarith
    obtain ⟨j, hj⟩ : ∃ j : ℕ, e + k = -1 + j := ⟨(e + k + 1).toNat, by omega⟩
    have t2 : |(a : ℝ) * 2 ^ (e + k) - m| < 1 / 2 := by linarith
    have e3 : (a : ℝ) * 2 ^ (e + k) = (a * 2 ^ j) / 2 := by
      rw [hj, zpow_add₀ (by norm_num), zpow_natCast]
      norm_num
      ring
    rw [e3] at t2 ⊢
    have : |((a * 2 ^ j - 2 * m : ℤ) : ℝ)| < 1 := by
      push_cast
      rw [show (a : ℝ) * 2 ^ j - 2 * m = 2 * (a * 2 ^ j / 2 - m) by ring, abs_mul, abs_of_pos (by norm_num : (0 : ℝ) < 2)]
      linarith
    have : |(a * 2 ^ j - 2 * m : ℤ)| < 1 := by rw [← Int.cast_abs] at this; exact_mod_cast this
    have := Int.abs_lt_one_iff.1 this
    have : a * 2 ^ j = 2 * m := by omega
    have : (a : ℝ) * 2 ^ j = 2 * m := by exact_mod_cast this
    linarith

/-- The nearest double is `m / 2^k`. -/
theorem rnd_lit (hr : IsRounding rnd) {y : ℝ} (m k : ℕ) (h1 : 2 ^ 52 < m) (h2 : m < 2 ^ 53) (hk : k ≤ 1000) (h : |y * 2 ^ k - m| < 1 / 2) : rnd y = m / 2 ^ k := by
  have := rnd_lit_aux hr (y := y) m k h1.le h2 (by omega) (by omega) (by rw [zpow_natCast]; exact h) (Or.inl h1)
  rwa [zpow_natCast] at this

/-- The nearest double is a power of two. -/
theorem rnd_lit' (hr : IsRounding rnd) {y : ℝ} (m k : ℕ) (h1 : 2 ^ 52 ≤ m) (h2 : m < 2 ^ 53) (hk : k ≤ 1000) (h : |y * 2 ^ k - m| < 1 / 4) : rnd y = m / 2 ^ k := by
  have := rnd_lit_aux hr (y := y) m k h1 h2 (by omega) (by omega) (by rw [zpow_natCast]; exact h.trans (by norm_num)) (Or.inr (by rw [zpow_natCast]; exact h))
  rwa [zpow_natCast] at this

theorem thr_lo (hr : IsRounding rnd) : rnd (1 / 10 ^ 20) = (6646139978924579 / 2 ^ 119 : ℝ) := by
  have := rnd_lit hr (y := 1 / 10 ^ 20) 6646139978924579 119 (by norm_num) (by norm_num) (by norm_num) (by rw [abs_lt]; constructor <;> norm_num)
  rw [this]; norm_num

theorem four_sq (hr : IsRounding rnd) (n : ℕ) (hn : n ≤ 2 ^ 16) : rnd (rnd (4 * Fl.ofInt rnd ((n : ℤ) ^ 2)) - 1) = 4 * (n : ℝ) ^ 2 - 1 := by
  have hn2 : (n : ℤ) ^ 2 ≤ (2 ^ 16) ^ 2 := pow_le_pow_left₀ (by positivity) (by exact_mod_cast hn) 2
  have h0 : 0 ≤ (n : ℤ) ^ 2 := by positivity
  generalize hq : (n : ℤ) ^ 2 = q at hn2 h0
  have hqr : ((n : ℝ)) ^ 2 = q := by exact_mod_cast hq
  rw [hqr, ofInt_eq hr (by rw [abs_of_nonneg h0]; omega)]
  rw [rnd_int hr (x := 4 * (q : ℝ)) (4 * q) (by push_cast; ring) (by rw [abs_lt]; omega), rnd_int hr (4 * q - 1) (by push_cast; ring) (by rw [abs_lt]; omega)]
  push_cast; ring

theorem zstep (hr : IsRounding rnd) {z u v w q a b den u' t v' w' : ℝ} (n : ℕ) (hn : n + 1 ≤ 2 ^ 16) (hq : rnd (v / w) = q) (hw : w ≠ 0) (hq1 : 2 / 10 ^ 20 < q)
    (ha : rnd (z * u) = a) (hb : rnd (a / (4 * (n : ℝ) ^ 2 - 1)) = b) (hden : rnd (1 - b) = den) (hd0 : den ≠ 0) (hu : rnd (1 / den) = u') (ht : rnd (u' - 1) = t)
    (hv : rnd (v * t) = v') (hw' : rnd (w + v') = w') : Fl.sbjLoop rnd z u v w (((n : ℕ) : ℤ) - 1) = Fl.sbjLoop rnd z u' v' w' n := by
  have dn : Fl.sbjDen rnd z u ((n : ℤ) - 1 + 1) = den := by
    rw [show (n : ℤ) - 1 + 1 = n by ring]
    unfold Fl.sbjDen
    rw [four_sq hr n (by omega), ha, hb, hden]
  rw [Fl.sbjLoop]
  simp only []
  rw [if_neg hw, hq, thr_lo hr, if_pos, dn, if_neg hd0, hu, ht, hv, hw', show (n : ℤ) - 1 + 1 = n by ring]
  rw [abs_of_pos (lt_trans (by norm_num) hq1)]
  refine lt_trans ?_ hq1
  norm_num

theorem zstep7 (hr : IsRounding rnd) : Fl.sbjLoop rnd (4674942159352896 / 2 ^ 47 : ℝ) 1 (7986557751230570 / 2 ^ 54 : ℝ) (7986557751230570 / 2 ^ 54 : ℝ) 6 = Fl.sbjLoop rnd (4674942159352896 / 2 ^ 47 : ℝ) (5428286252202762 / 2 ^ 52 : ℝ) (6559253701089112 / 2 ^ 56 : ℝ) (4813185588251424 / 2 ^ 53 : ℝ) 7 :=
  zstep hr 7 (by norm_num)
    (rnd_lit' hr (y := (7986557751230570 / 2 ^ 54 : ℝ) / (7986557751230570 / 2 ^ 54 : ℝ)) 4503599627370496 52 (by norm_num) (by norm_num) (by norm_num) (by rw [abs_lt]; constructor <;> norm_num))
    (by norm_num) (by norm_num)
    (rnd_lit hr (y := (4674942159352896 / 2 ^ 47 : ℝ) * 1) 4674942159352896 47 (by norm_num) (by norm_num) (by norm_num) (by rw [abs_lt]; constructor <;> norm_num))
    (rnd_lit hr (y := (4674942159352896 / 2 ^ 47 : ℝ) / (4 * 7 ^ 2 - 1)) 6137359963047904 55 (by norm_num) (by norm_num) (by norm_num) (by rw [abs_lt]; constructor <;> norm_num))
    (rnd_lit hr (y := 1 - (6137359963047904 / 2 ^ 55 : ℝ)) 7472859263979016 53 (by norm_num) (by norm_num) (by norm_num) (by rw [abs_lt]; constructor <;> norm_num))
    (by norm_num)
    (rnd_lit hr (y := 1 / (7472859263979016 / 2 ^ 53 : ℝ)) 5428286252202762 52 (by norm_num) (by norm_num) (by norm_num) (by rw [abs_lt]; constructor <;> norm_num))
    (rnd_lit hr (y := (5428286252202762 / 2 ^ 52 : ℝ) - 1) 7397492998658128 55 (by norm_num) (by norm_num) (by norm_num) (by rw [abs_lt]; constructor <;> norm_num))
    (rnd_lit hr (y := (7986557751230570 / 2 ^ 54 : ℝ) * (7397492998658128 / 2 ^ 55 : ℝ)) 6559253701089112 56 (by norm_num) (by norm_num) (by norm_num) (by rw [abs_lt]; constructor <;> norm_num))
    (rnd_lit hr (y := (7986557751230570 / 2 ^ 54 : ℝ) + (6559253701089112 / 2 ^ 56 : ℝ)) 4813185588251424 53 (by norm_num) (by norm_num) (by norm_num) (by rw [abs_lt]; constructor <;> norm_num))

theorem zstep8 (hr : IsRounding rnd) : Fl.sbjLoop rnd (4674942159352896 / 2 ^ 47 : ℝ) (5428286252202762 / 2 ^ 52 : ℝ) (6559253701089112 / 2 ^ 56 : ℝ) (4813185588251424 / 2 ^ 53 : ℝ) 7 = Fl.sbjLoop rnd (4674942159352896 / 2 ^ 47 : ℝ) (5342416082101582 / 2 ^ 52 : ℝ) (4886766489446369 / 2 ^ 58 : ℝ) (4965897041046623 / 2 ^ 53 : ℝ) 8 :=
  zstep hr 8 (by norm_num)
    (rnd_lit hr (y := (6559253701089112 / 2 ^ 56 : ℝ) / (4813185588251424 / 2 ^ 53 : ℝ)) 6137359963047906 55 (by norm_num) (by norm_num) (by norm_num) (by rw [abs_lt]; constructor <;> norm_num))
    (by norm_num) (by norm_num)
    (rnd_lit hr (y := (4674942159352896 / 2 ^ 47 : ℝ) * (5428286252202762 / 2 ^ 52 : ℝ)) 5634809120071620 47 (by norm_num) (by norm_num) (by norm_num) (by rw [abs_lt]; constructor <;> norm_num))
    (rnd_lit hr (y := (5634809120071620 / 2 ^ 47 : ℝ) / (4 * 8 ^ 2 - 1)) 5656906410738568 55 (by norm_num) (by norm_num) (by norm_num) (by rw [abs_lt]; constructor <;> norm_num))
    (rnd_lit hr (y := 1 - (5656906410738568 / 2 ^ 55 : ℝ)) 7592972652056350 53 (by norm_num) (by norm_num) (by norm_num) (by rw [abs_lt]; constructor <;> norm_num))
    (by norm_num)
    (rnd_lit hr (y := 1 / (7592972652056350 / 2 ^ 53 : ℝ)) 5342416082101582 52 (by norm_num) (by norm_num) (by norm_num) (by rw [abs_lt]; constructor <;> norm_num))
    (rnd_lit hr (y := (5342416082101582 / 2 ^ 52 : ℝ) - 1) 6710531637848688 55 (by norm_num) (by norm_num) (by norm_num) (by rw [abs_lt]; constructor <;> norm_num))
    (rnd_lit hr (y := (6559253701089112 / 2 ^ 56 : ℝ) * (6710531637848688 / 2 ^ 55 : ℝ)) 4886766489446369 58 (by norm_num) (by norm_num) (by norm_num) (by rw [abs_lt]; constructor <;> norm_num))
    (rnd_lit hr (y := (4813185588251424 / 2 ^ 53 : ℝ) + (4886766489446369 / 2 ^ 58 : ℝ)) 4965897041046623 53 (by norm_num) (by norm_num) (by norm_num) (by rw [abs_lt]; constructor <;> norm_num))

theorem zstep9 (hr : IsRounding rnd) : Fl.sbjLoop rnd (4674942159352896 / 2 ^ 47 : ℝ) (5342416082101582 / 2 ^ 52 : ℝ) (4886766489446369 / 2 ^ 58 : ℝ) (4965897041046623 / 2 ^ 53 : ℝ) 8 = Fl.sbjLoop rnd (4674942159352896 / 2 ^ 47 : ℝ) (5129355046370717 / 2 ^ 52 : ℝ) (5431958193752976 / 2 ^ 61 : ℝ) (4987115627740971 / 2 ^ 53 : ℝ) 9 :=
  zstep hr 9 (by norm_num)
    (rnd_lit hr (y := (4886766489446369 / 2 ^ 58 : ℝ) / (4965897041046623 / 2 ^ 53 : ℝ)) 8863671380620825 58 (by norm_num) (by norm_num) (by norm_num) (by rw [abs_lt]; constructor <;> norm_num))
    (by norm_num) (by norm_num)
    (rnd_lit hr (y := (4674942159352896 / 2 ^ 47 : ℝ) * (5342416082101582 / 2 ^ 52 : ℝ)) 5545671960543254 47 (by norm_num) (by norm_num) (by norm_num) (by rw [abs_lt]; constructor <;> norm_num))
    (rnd_lit hr (y := (5545671960543254 / 2 ^ 47 : ℝ) / (4 * 9 ^ 2 - 1)) 8790662674297666 56 (by norm_num) (by norm_num) (by norm_num) (by rw [abs_lt]; constructor <;> norm_num))
    (rnd_lit hr (y := 1 - (8790662674297666 / 2 ^ 56 : ℝ)) 7908366420453784 53 (by norm_num) (by norm_num) (by norm_num) (by rw [abs_lt]; constructor <;> norm_num))
    (by norm_num)
    (rnd_lit hr (y := 1 / (7908366420453784 / 2 ^ 53 : ℝ)) 5129355046370717 52 (by norm_num) (by norm_num) (by norm_num) (by rw [abs_lt]; constructor <;> norm_num))
    (rnd_lit hr (y := (5129355046370717 / 2 ^ 52 : ℝ) - 1) 5006043352001768 55 (by norm_num) (by norm_num) (by norm_num) (by rw [abs_lt]; constructor <;> norm_num))
    (rnd_lit hr (y := (4886766489446369 / 2 ^ 58 : ℝ) * (5006043352001768 / 2 ^ 55 : ℝ)) 5431958193752976 61 (by norm_num) (by norm_num) (by norm_num) (by rw [abs_lt]; constructor <;> norm_num))
    (rnd_lit hr (y := (4965897041046623 / 2 ^ 53 : ℝ) + (5431958193752976 / 2 ^ 61 : ℝ)) 4987115627740971 53 (by norm_num) (by norm_num) (by norm_num) (by rw [abs_lt]; constructor <;> norm_num))

theorem zstep10 (hr : IsRounding rnd) : Fl.sbjLoop rnd (4674942159352896 / 2 ^ 47 : ℝ) (5129355046370717 / 2 ^ 52 : ℝ) (5431958193752976 / 2 ^ 61 : ℝ) (4987115627740971 / 2 ^ 53 : ℝ) 9 = Fl.sbjLoop rnd (4674942159352896 / 2 ^ 47 : ℝ) (4975359507161192 / 2 ^ 52 : ℝ) (4552056410945564 / 2 ^ 64 : ℝ) (4989338311535378 / 2 ^ 53 : ℝ) 10 :=
  zstep hr 10 (by norm_num)
    (rnd_lit hr (y := (5431958193752976 / 2 ^ 61 : ℝ) / (4987115627740971 / 2 ^ 53 : ℝ)) 4905313356121093 60 (by norm_num) (by norm_num) (by norm_num) (by rw [abs_lt]; constructor <;> norm_num))
    (by norm_num) (by norm_num)
    (rnd_lit hr (y := (4674942159352896 / 2 ^ 47 : ℝ) * (5129355046370717 / 2 ^ 52 : ℝ)) 5324504871799361 47 (by norm_num) (by norm_num) (by norm_num) (by rw [abs_lt]; constructor <;> norm_num))
    (rnd_lit hr (y := (5324504871799361 / 2 ^ 47 : ℝ) / (4 * 10 ^ 2 - 1)) 6832447354288904 56 (by norm_num) (by norm_num) (by norm_num) (by rw [abs_lt]; constructor <;> norm_num))
    (rnd_lit hr (y := 1 - (6832447354288904 / 2 ^ 56 : ℝ)) 8153143335454879 53 (by norm_num) (by norm_num) (by norm_num) (by rw [abs_lt]; constructor <;> norm_num))
    (by norm_num)
    (rnd_lit hr (y := 1 / (8153143335454879 / 2 ^ 53 : ℝ)) 4975359507161192 52 (by norm_num) (by norm_num) (by norm_num) (by rw [abs_lt]; constructor <;> norm_num))
    (rnd_lit hr (y := (4975359507161192 / 2 ^ 52 : ℝ) - 1) 7548158076651136 56 (by norm_num) (by norm_num) (by norm_num) (by rw [abs_lt]; constructor <;> norm_num))
    (rnd_lit hr (y := (5431958193752976 / 2 ^ 61 : ℝ) * (7548158076651136 / 2 ^ 56 : ℝ)) 4552056410945564 64 (by norm_num) (by norm_num) (by norm_num) (by rw [abs_lt]; constructor <;> norm_num))
    (rnd_lit hr (y := (4987115627740971 / 2 ^ 53 : ℝ) + (4552056410945564 / 2 ^ 64 : ℝ)) 4989338311535378 53 (by norm_num) (by norm_num) (by norm_num) (by rw [abs_lt]; constructor <;> norm_num))

theorem zstep11 (hr : IsRounding rnd) : Fl.sbjLoop rnd (4674942159352896 / 2 ^ 47 : ℝ) (4975359507161192 / 2 ^ 52 : ℝ) (4552056410945564 / 2 ^ 64 : ℝ) (4989338311535378 / 2 ^ 53 : ℝ) 10 = Fl.sbjLoop rnd (4674942159352896 / 2 ^ 47 : ℝ) (4873905973014767 / 2 ^ 52 : ℝ) (5988650907453873 / 2 ^ 68 : ℝ) (4989521070657310 / 2 ^ 53 : ℝ) 11 :=
  zstep hr 11 (by norm_num)
    (rnd_lit hr (y := (4552056410945564 / 2 ^ 64 : ℝ) / (4989338311535378 / 2 ^ 53 : ℝ)) 8217778902146734 64 (by norm_num) (by norm_num) (by norm_num) (by rw [abs_lt]; constructor <;> norm_num))
    (by norm_num) (by norm_num)
    (rnd_lit hr (y := (4674942159352896 / 2 ^ 47 : ℝ) * (4975359507161192 / 2 ^ 52 : ℝ)) 5164650466841248 47 (by norm_num) (by norm_num) (by norm_num) (by rw [abs_lt]; constructor <;> norm_num))
    (rnd_lit hr (y := (5164650466841248 / 2 ^ 47 : ℝ) / (4 * 11 ^ 2 - 1)) 5474743352013911 56 (by norm_num) (by norm_num) (by norm_num) (by rw [abs_lt]; constructor <;> norm_num))
    (rnd_lit hr (y := 1 - (5474743352013911 / 2 ^ 56 : ℝ)) 8322856335739253 53 (by norm_num) (by norm_num) (by norm_num) (by rw [abs_lt]; constructor <;> norm_num))
    (by norm_num)
    (rnd_lit hr (y := 1 / (8322856335739253 / 2 ^ 53 : ℝ)) 4873905973014767 52 (by norm_num) (by norm_num) (by norm_num) (by rw [abs_lt]; constructor <;> norm_num))
    (rnd_lit hr (y := (4873905973014767 / 2 ^ 52 : ℝ) - 1) 5924901530308336 56 (by norm_num) (by norm_num) (by norm_num) (by rw [abs_lt]; constructor <;> norm_num))
    (rnd_lit hr (y := (4552056410945564 / 2 ^ 64 : ℝ) * (5924901530308336 / 2 ^ 56 : ℝ)) 5988650907453873 68 (by norm_num) (by norm_num) (by norm_num) (by rw [abs_lt]; constructor <;> norm_num))
    (rnd_lit hr (y := (4989338311535378 / 2 ^ 53 : ℝ) + (5988650907453873 / 2 ^ 68 : ℝ)) 4989521070657310 53 (by norm_num) (by norm_num) (by norm_num) (by rw [abs_lt]; constructor <;> norm_num))

theorem zstep12 (hr : IsRounding rnd) : Fl.sbjLoop rnd (4674942159352896 / 2 ^ 47 : ℝ) (4873905973014767 / 2 ^ 52 : ℝ) (5988650907453873 / 2 ^ 68 : ℝ) (4989521070657310 / 2 ^ 53 : ℝ) 11 = Fl.sbjLoop rnd (4674942159352896 / 2 ^ 47 : ℝ) (4803939876331491 / 2 ^ 52 : ℝ) (6390027722905191 / 2 ^ 72 : ℝ) (4989533258667951 / 2 ^ 53 : ℝ) 12 :=
  zstep hr 12 (by norm_num)
    (rnd_lit hr (y := (5988650907453873 / 2 ^ 68 : ℝ) / (4989521070657310 / 2 ^ 53 : ℝ)) 5405425814086843 67 (by norm_num) (by norm_num) (by norm_num) (by rw [abs_lt]; constructor <;> norm_num))
    (by norm_num) (by norm_num)
    (rnd_lit hr (y := (4674942159352896 / 2 ^ 47 : ℝ) * (4873905973014767 / 2 ^ 52 : ℝ)) 5059337063510723 47 (by norm_num) (by norm_num) (by norm_num) (by rw [abs_lt]; constructor <;> norm_num))
    (rnd_lit hr (y := (5059337063510723 / 2 ^ 47 : ℝ) / (4 * 12 ^ 2 - 1)) 4505009698291287 56 (by norm_num) (by norm_num) (by norm_num) (by rw [abs_lt]; constructor <;> norm_num))
    (rnd_lit hr (y := 1 - (4505009698291287 / 2 ^ 56 : ℝ)) 8444073042454581 53 (by norm_num) (by norm_num) (by norm_num) (by rw [abs_lt]; constructor <;> norm_num))
    (by norm_num)
    (rnd_lit hr (y := 1 / (8444073042454581 / 2 ^ 53 : ℝ)) 4803939876331491 52 (by norm_num) (by norm_num) (by norm_num) (by rw [abs_lt]; constructor <;> norm_num))
    (rnd_lit hr (y := (4803939876331491 / 2 ^ 52 : ℝ) - 1) 4805443983375920 56 (by norm_num) (by norm_num) (by norm_num) (by rw [abs_lt]; constructor <;> norm_num))
    (rnd_lit hr (y := (5988650907453873 / 2 ^ 68 : ℝ) * (4805443983375920 / 2 ^ 56 : ℝ)) 6390027722905191 72 (by norm_num) (by norm_num) (by norm_num) (by rw [abs_lt]; constructor <;> norm_num))
    (rnd_lit hr (y := (4989521070657310 / 2 ^ 53 : ℝ) + (6390027722905191 / 2 ^ 72 : ℝ)) 4989533258667951 53 (by norm_num) (by norm_num) (by norm_num) (by rw [abs_lt]; constructor <;> norm_num))

theorem zstep13 (hr : IsRounding rnd) : Fl.sbjLoop rnd (4674942159352896 / 2 ^ 47 : ℝ) (4803939876331491 / 2 ^ 52 : ℝ) (6390027722905191 / 2 ^ 72 : ℝ) (4989533258667951 / 2 ^ 53 : ℝ) 12 = Fl.sbjLoop rnd (4674942159352896 / 2 ^ 47 : ℝ) (4753103768097552 / 2 ^ 52 : ℝ) (5664227757853006 / 2 ^ 76 : ℝ) (4989533933896518 / 2 ^ 53 : ℝ) 13 :=
  zstep hr 13 (by norm_num)
    (rnd_lit hr (y := (6390027722905191 / 2 ^ 72 : ℝ) / (4989533258667951 / 2 ^ 53 : ℝ)) 5767699097259012 71 (by norm_num) (by norm_num) (by norm_num) (by rw [abs_lt]; constructor <;> norm_num))
    (by norm_num) (by norm_num)
    (rnd_lit hr (y := (4674942159352896 / 2 ^ 47 : ℝ) * (4803939876331491 / 2 ^ 52 : ℝ)) 4986709058764888 47 (by norm_num) (by norm_num) (by norm_num) (by rw [abs_lt]; constructor <;> norm_num))
    (rnd_lit hr (y := (4986709058764888 / 2 ^ 47 : ℝ) / (4 * 13 ^ 2 - 1)) 7565022335074437 57 (by norm_num) (by norm_num) (by norm_num) (by rw [abs_lt]; constructor <;> norm_num))
    (rnd_lit hr (y := 1 - (7565022335074437 / 2 ^ 57 : ℝ)) 8534385358798840 53 (by norm_num) (by norm_num) (by norm_num) (by rw [abs_lt]; constructor <;> norm_num))
    (by norm_num)
    (rnd_lit hr (y := 1 / (8534385358798840 / 2 ^ 53 : ℝ)) 4753103768097552 52 (by norm_num) (by norm_num) (by norm_num) (by rw [abs_lt]; constructor <;> norm_num))
    (rnd_lit hr (y := (4753103768097552 / 2 ^ 52 : ℝ) - 1) 7984132503265792 57 (by norm_num) (by norm_num) (by norm_num) (by rw [abs_lt]; constructor <;> norm_num))
    (rnd_lit hr (y := (6390027722905191 / 2 ^ 72 : ℝ) * (7984132503265792 / 2 ^ 57 : ℝ)) 5664227757853006 76 (by norm_num) (by norm_num) (by norm_num) (by rw [abs_lt]; constructor <;> norm_num))
    (rnd_lit hr (y := (4989533258667951 / 2 ^ 53 : ℝ) + (5664227757853006 / 2 ^ 76 : ℝ)) 4989533933896518 53 (by norm_num) (by norm_num) (by norm_num) (by rw [abs_lt]; constructor <;> norm_num))

theorem zstep14 (hr : IsRounding rnd) : Fl.sbjLoop rnd (4674942159352896 / 2 ^ 47 : ℝ) (4753103768097552 / 2 ^ 52 : ℝ) (5664227757853006 / 2 ^ 76 : ℝ) (4989533933896518 / 2 ^ 53 : ℝ) 13 = Fl.sbjLoop rnd (4674942159352896 / 2 ^ 47 : ℝ) (4714693521520484 / 2 ^ 52 : ℝ) (8495845056853897 / 2 ^ 81 : ℝ) (4989533965546007 / 2 ^ 53 : ℝ) 14 :=
  zstep hr 14 (by norm_num)
    (rnd_lit hr (y := (5664227757853006 / 2 ^ 76 : ℝ) / (4989533933896518 / 2 ^ 53 : ℝ)) 5112584533459048 75 (by norm_num) (by norm_num) (by norm_num) (by rw [abs_lt]; constructor <;> norm_num))
    (by norm_num) (by norm_num)
    (rnd_lit hr (y := (4674942159352896 / 2 ^ 47 : ℝ) * (4753103768097552 / 2 ^ 52 : ℝ)) 4933938855979560 47 (by norm_num) (by norm_num) (by norm_num) (by rw [abs_lt]; constructor <;> norm_num))
    (rnd_lit hr (y := (4933938855979560 / 2 ^ 47 : ℝ) / (4 * 14 ^ 2 - 1)) 6452558606032017 57 (by norm_num) (by norm_num) (by norm_num) (by rw [abs_lt]; constructor <;> norm_num))
    (rnd_lit hr (y := 1 - (6452558606032017 / 2 ^ 57 : ℝ)) 8603914341863991 53 (by norm_num) (by norm_num) (by norm_num) (by rw [abs_lt]; constructor <;> norm_num))
    (by norm_num)
    (rnd_lit hr (y := 1 / (8603914341863991 / 2 ^ 53 : ℝ)) 4714693521520484 52 (by norm_num) (by norm_num) (by norm_num) (by rw [abs_lt]; constructor <;> norm_num))
    (rnd_lit hr (y := (4714693521520484 / 2 ^ 52 : ℝ) - 1) 6755004612799616 57 (by norm_num) (by norm_num) (by norm_num) (by rw [abs_lt]; constructor <;> norm_num))
    (rnd_lit hr (y := (5664227757853006 / 2 ^ 76 : ℝ) * (6755004612799616 / 2 ^ 57 : ℝ)) 8495845056853897 81 (by norm_num) (by norm_num) (by norm_num) (by rw [abs_lt]; constructor <;> norm_num))
    (rnd_lit hr (y := (4989533933896518 / 2 ^ 53 : ℝ) + (8495845056853897 / 2 ^ 81 : ℝ)) 4989533965546007 53 (by norm_num) (by norm_num) (by norm_num) (by rw [abs_lt]; constructor <;> norm_num))

theorem zstep15 (hr : IsRounding rnd) : Fl.sbjLoop rnd (4674942159352896 / 2 ^ 47 : ℝ) (4714693521520484 / 2 ^ 52 : ℝ) (8495845056853897 / 2 ^ 81 : ℝ) (4989533965546007 / 2 ^ 53 : ℝ) 14 = Fl.sbjLoop rnd (4674942159352896 / 2 ^ 47 : ℝ) (4684814069103106 / 2 ^ 52 : ℝ) (5469650755516871 / 2 ^ 85 : ℝ) (4989533966819509 / 2 ^ 53 : ℝ) 15 :=
  zstep hr 15 (by norm_num)
    (rnd_lit hr (y := (8495845056853897 / 2 ^ 81 : ℝ) / (4989533965546007 / 2 ^ 53 : ℝ)) 7668428533897687 80 (by norm_num) (by norm_num) (by norm_num) (by rw [abs_lt]; constructor <;> norm_num))
    (by norm_num) (by norm_num)
    (rnd_lit hr (y := (4674942159352896 / 2 ^ 47 : ℝ) * (4714693521520484 / 2 ^ 52 : ℝ)) 4894067265267328 47 (by norm_num) (by norm_num) (by norm_num) (by rw [abs_lt]; constructor <;> norm_num))
    (rnd_lit hr (y := (4894067265267328 / 2 ^ 47 : ℝ) / (4 * 15 ^ 2 - 1)) 5574554927290038 57 (by norm_num) (by norm_num) (by norm_num) (by rw [abs_lt]; constructor <;> norm_num))
    (rnd_lit hr (y := 1 - (5574554927290038 / 2 ^ 57 : ℝ)) 8658789571785365 53 (by norm_num) (by norm_num) (by norm_num) (by rw [abs_lt]; constructor <;> norm_num))
    (by norm_num)
    (rnd_lit hr (y := 1 / (8658789571785365 / 2 ^ 53 : ℝ)) 4684814069103106 52 (by norm_num) (by norm_num) (by norm_num) (by rw [abs_lt]; constructor <;> norm_num))
    (rnd_lit hr (y := (4684814069103106 / 2 ^ 52 : ℝ) - 1) 5798862135443520 57 (by norm_num) (by norm_num) (by norm_num) (by rw [abs_lt]; constructor <;> norm_num))
    (rnd_lit hr (y := (8495845056853897 / 2 ^ 81 : ℝ) * (5798862135443520 / 2 ^ 57 : ℝ)) 5469650755516871 85 (by norm_num) (by norm_num) (by norm_num) (by rw [abs_lt]; constructor <;> norm_num))
    (rnd_lit hr (y := (4989533965546007 / 2 ^ 53 : ℝ) + (5469650755516871 / 2 ^ 85 : ℝ)) 4989533966819509 53 (by norm_num) (by norm_num) (by norm_num) (by rw [abs_lt]; constructor <;> norm_num))

theorem zstep16 (hr : IsRounding rnd) : Fl.sbjLoop rnd (4674942159352896 / 2 ^ 47 : ℝ) (4684814069103106 / 2 ^ 52 : ℝ) (5469650755516871 / 2 ^ 85 : ℝ) (4989533966819509 / 2 ^ 53 : ℝ) 15 = Fl.sbjLoop rnd (4674942159352896 / 2 ^ 47 : ℝ) (4661036292301107 / 2 ^ 52 : ℝ) (6118650995885651 / 2 ^ 90 : ℝ) (4989533966864028 / 2 ^ 53 : ℝ) 16 :=
  zstep hr 16 (by norm_num)
    (rnd_lit hr (y := (5469650755516871 / 2 ^ 85 : ℝ) / (4989533966819509 / 2 ^ 53 : ℝ)) 4936957493065125 84 (by norm_num) (by norm_num) (by norm_num) (by rw [abs_lt]; constructor <;> norm_num))
    (by norm_num) (by norm_num)
    (rnd_lit hr (y := (4674942159352896 / 2 ^ 47 : ℝ) * (4684814069103106 / 2 ^ 52 : ℝ)) 4863051028620658 47 (by norm_num) (by norm_num) (by norm_num) (by rw [abs_lt]; constructor <;> norm_num))
    (rnd_lit hr (y := (4863051028620658 / 2 ^ 47 : ℝ) / (4 * 16 ^ 2 - 1)) 4867804744191157 57 (by norm_num) (by norm_num) (by norm_num) (by rw [abs_lt]; constructor <;> norm_num))
    (rnd_lit hr (y := 1 - (4867804744191157 / 2 ^ 57 : ℝ)) 8702961458229045 53 (by norm_num) (by norm_num) (by norm_num) (by rw [abs_lt]; constructor <;> norm_num))
    (by norm_num)
    (rnd_lit hr (y := 1 / (8702961458229045 / 2 ^ 53 : ℝ)) 4661036292301107 52 (by norm_num) (by norm_num) (by norm_num) (by rw [abs_lt]; constructor <;> norm_num))
    (rnd_lit hr (y := (4661036292301107 / 2 ^ 52 : ℝ) - 1) 5037973277779552 57 (by norm_num) (by norm_num) (by norm_num) (by rw [abs_lt]; constructor <;> norm_num))
    (rnd_lit hr (y := (5469650755516871 / 2 ^ 85 : ℝ) * (5037973277779552 / 2 ^ 57 : ℝ)) 6118650995885651 90 (by norm_num) (by norm_num) (by norm_num) (by rw [abs_lt]; constructor <;> norm_num))
    (rnd_lit hr (y := (4989533966819509 / 2 ^ 53 : ℝ) + (6118650995885651 / 2 ^ 90 : ℝ)) 4989533966864028 53 (by norm_num) (by norm_num) (by norm_num) (by rw [abs_lt]; constructor <;> norm_num))

theorem zstep17 (hr : IsRounding rnd) : Fl.sbjLoop rnd (4674942159352896 / 2 ^ 47 : ℝ) (4661036292301107 / 2 ^ 52 : ℝ) (6118650995885651 / 2 ^ 90 : ℝ) (4989533966864028 / 2 ^ 53 : ℝ) 16 = Fl.sbjLoop rnd (4674942159352896 / 2 ^ 47 : ℝ) (4641762084482154 / 2 ^ 52 : ℝ) (6006699889839629 / 2 ^ 95 : ℝ) (4989533966865394 / 2 ^ 53 : ℝ) 17 :=
  zstep hr 17 (by norm_num)
    (rnd_lit hr (y := (6118650995885651 / 2 ^ 90 : ℝ) / (4989533966864028 / 2 ^ 53 : ℝ)) 5522751128278204 89 (by norm_num) (by norm_num) (by norm_num) (by rw [abs_lt]; constructor <;> norm_num))
    (by norm_num) (by norm_num)
    (rnd_lit hr (y := (4674942159352896 / 2 ^ 47 : ℝ) * (4661036292301107 / 2 ^ 52 : ℝ)) 4838368610016709 47 (by norm_num) (by norm_num) (by norm_num) (by rw [abs_lt]; constructor <;> norm_num))
    (rnd_lit hr (y := (4838368610016709 / 2 ^ 47 : ℝ) / (4 * 17 ^ 2 - 1)) 8579202522349974 58 (by norm_num) (by norm_num) (by norm_num) (by rw [abs_lt]; constructor <;> norm_num))
    (rnd_lit hr (y := 1 - (8579202522349974 / 2 ^ 58 : ℝ)) 8739099175917555 53 (by norm_num) (by norm_num) (by norm_num) (by rw [abs_lt]; constructor <;> norm_num))
    (by norm_num)
    (rnd_lit hr (y := 1 / (8739099175917555 / 2 ^ 53 : ℝ)) 4641762084482154 52 (by norm_num) (by norm_num) (by norm_num) (by rw [abs_lt]; constructor <;> norm_num))
    (rnd_lit hr (y := (4641762084482154 / 2 ^ 52 : ℝ) - 1) 8842397255146112 58 (by norm_num) (by norm_num) (by norm_num) (by rw [abs_lt]; constructor <;> norm_num))
    (rnd_lit hr (y := (6118650995885651 / 2 ^ 90 : ℝ) * (8842397255146112 / 2 ^ 58 : ℝ)) 6006699889839629 95 (by norm_num) (by norm_num) (by norm_num) (by rw [abs_lt]; constructor <;> norm_num))
    (rnd_lit hr (y := (4989533966864028 / 2 ^ 53 : ℝ) + (6006699889839629 / 2 ^ 95 : ℝ)) 4989533966865394 53 (by norm_num) (by norm_num) (by norm_num) (by rw [abs_lt]; constructor <;> norm_num))

theorem zstep18 (hr : IsRounding rnd) : Fl.sbjLoop rnd (4674942159352896 / 2 ^ 47 : ℝ) (4641762084482154 / 2 ^ 52 : ℝ) (6006699889839629 / 2 ^ 95 : ℝ) (4989533966865394 / 2 ^ 53 : ℝ) 17 = Fl.sbjLoop rnd (4674942159352896 / 2 ^ 47 : ℝ) (4625896598265757 / 2 ^ 52 : ℝ) (5219655474805653 / 2 ^ 100 : ℝ) (4989533966865431 / 2 ^ 53 : ℝ) 18 :=
  zstep hr 18 (by norm_num)
    (rnd_lit hr (y := (6006699889839629 / 2 ^ 95 : ℝ) / (4989533966865394 / 2 ^ 53 : ℝ)) 5421703021816095 94 (by norm_num) (by norm_num) (by norm_num) (by rw [abs_lt]; constructor <;> norm_num))
    (by norm_num) (by norm_num)
    (rnd_lit hr (y := (4674942159352896 / 2 ^ 47 : ℝ) * (4641762084482154 / 2 ^ 52 : ℝ)) 4818361101761903 47 (by norm_num) (by norm_num) (by norm_num) (by rw [abs_lt]; constructor <;> norm_num))
    (rnd_lit hr (y := (4818361101761903 / 2 ^ 47 : ℝ) / (4 * 18 ^ 2 - 1)) 7620079950894500 58 (by norm_num) (by norm_num) (by norm_num) (by rw [abs_lt]; constructor <;> norm_num))
    (rnd_lit hr (y := 1 - (7620079950894500 / 2 ^ 58 : ℝ)) 8769071756275539 53 (by norm_num) (by norm_num) (by norm_num) (by rw [abs_lt]; constructor <;> norm_num))
    (by norm_num)
    (rnd_lit hr (y := 1 / (8769071756275539 / 2 ^ 53 : ℝ)) 4625896598265757 52 (by norm_num) (by norm_num) (by norm_num) (by rw [abs_lt]; constructor <;> norm_num))
    (rnd_lit hr (y := (4625896598265757 / 2 ^ 52 : ℝ) - 1) 7827006137296704 58 (by norm_num) (by norm_num) (by norm_num) (by rw [abs_lt]; constructor <;> norm_num))
    (rnd_lit hr (y := (6006699889839629 / 2 ^ 95 : ℝ) * (7827006137296704 / 2 ^ 58 : ℝ)) 5219655474805653 100 (by norm_num) (by norm_num) (by norm_num) (by rw [abs_lt]; constructor <;> norm_num))
    (rnd_lit hr (y := (4989533966865394 / 2 ^ 53 : ℝ) + (5219655474805653 / 2 ^ 100 : ℝ)) 4989533966865431 53 (by norm_num) (by norm_num) (by norm_num) (by rw [abs_lt]; constructor <;> norm_num))

theorem zstep19 (hr : IsRounding rnd) : Fl.sbjLoop rnd (4674942159352896 / 2 ^ 47 : ℝ) (4625896598265757 / 2 ^ 52 : ℝ) (5219655474805653 / 2 ^ 100 : ℝ) (4989533966865431 / 2 ^ 53 : ℝ) 18 = Fl.sbjLoop rnd (4674942159352896 / 2 ^ 47 : ℝ) (4612665331314310 / 2 ^ 52 : ℝ) (8090032092466419 / 2 ^ 106 : ℝ) (4989533966865432 / 2 ^ 53 : ℝ) 19 :=
  zstep hr 19 (by norm_num)
    (rnd_lit hr (y := (5219655474805653 / 2 ^ 100 : ℝ) / (4989533966865431 / 2 ^ 53 : ℝ)) 4711309434396943 99 (by norm_num) (by norm_num) (by norm_num) (by rw [abs_lt]; constructor <;> norm_num))
    (by norm_num) (by norm_num)
    (rnd_lit hr (y := (4674942159352896 / 2 ^ 47 : ℝ) * (4625896598265757 / 2 ^ 52 : ℝ)) 4801892002257387 47 (by norm_num) (by norm_num) (by norm_num) (by rw [abs_lt]; constructor <;> norm_num))
    (rnd_lit hr (y := (4801892002257387 / 2 ^ 47 : ℝ) / (4 * 19 ^ 2 - 1)) 6815159265851094 58 (by norm_num) (by norm_num) (by norm_num) (by rw [abs_lt]; constructor <;> norm_num))
    (rnd_lit hr (y := 1 - (6815159265851094 / 2 ^ 58 : ℝ)) 8794225527683145 53 (by norm_num) (by norm_num) (by norm_num) (by rw [abs_lt]; constructor <;> norm_num))
    (by norm_num)
    (rnd_lit hr (y := 1 / (8794225527683145 / 2 ^ 53 : ℝ)) 4612665331314310 52 (by norm_num) (by norm_num) (by norm_num) (by rw [abs_lt]; constructor <;> norm_num))
    (rnd_lit hr (y := (4612665331314310 / 2 ^ 52 : ℝ) - 1) 6980205052404096 58 (by norm_num) (by norm_num) (by norm_num) (by rw [abs_lt]; constructor <;> norm_num))
    (rnd_lit hr (y := (5219655474805653 / 2 ^ 100 : ℝ) * (6980205052404096 / 2 ^ 58 : ℝ)) 8090032092466419 106 (by norm_num) (by norm_num) (by norm_num) (by rw [abs_lt]; constructor <;> norm_num))
    (rnd_lit hr (y := (4989533966865431 / 2 ^ 53 : ℝ) + (8090032092466419 / 2 ^ 106 : ℝ)) 4989533966865432 53 (by norm_num) (by norm_num) (by norm_num) (by rw [abs_lt]; constructor <;> norm_num))

theorem zstep20 (hr : IsRounding rnd) : Fl.sbjLoop rnd (4674942159352896 / 2 ^ 47 : ℝ) (4612665331314310 / 2 ^ 52 : ℝ) (8090032092466419 / 2 ^ 106 : ℝ) (4989533966865432 / 2 ^ 53 : ℝ) 19 = Fl.sbjLoop rnd (4674942159352896 / 2 ^ 47 : ℝ) (4601505812367579 / 2 ^ 52 : ℝ) (5627954484149851 / 2 ^ 111 : ℝ) (4989533966865432 / 2 ^ 53 : ℝ) 20 :=
  zstep hr 20 (by norm_num)
    (rnd_lit hr (y := (8090032092466419 / 2 ^ 106 : ℝ) / (4989533966865432 / 2 ^ 53 : ℝ)) 7302137987034522 105 (by norm_num) (by norm_num) (by norm_num) (by rw [abs_lt]; constructor <;> norm_num))
    (by norm_num) (by norm_num)
    (rnd_lit hr (y := (4674942159352896 / 2 ^ 47 : ℝ) * (4612665331314310 / 2 ^ 52 : ℝ)) 4788157342693724 47 (by norm_num) (by norm_num) (by norm_num) (by rw [abs_lt]; constructor <;> norm_num))
    (rnd_lit hr (y := (4788157342693724 / 2 ^ 47 : ℝ) / (4 * 20 ^ 2 - 1)) 6132674320098028 58 (by norm_num) (by norm_num) (by norm_num) (by rw [abs_lt]; constructor <;> norm_num))
    (rnd_lit hr (y := 1 - (6132674320098028 / 2 ^ 58 : ℝ)) 8815553182237929 53 (by norm_num) (by norm_num) (by norm_num) (by rw [abs_lt]; constructor <;> norm_num))
    (by norm_num)
    (rnd_lit hr (y := 1 / (8815553182237929 / 2 ^ 53 : ℝ)) 4601505812367579 52 (by norm_num) (by norm_num) (by norm_num) (by rw [abs_lt]; constructor <;> norm_num))
    (rnd_lit hr (y := (4601505812367579 / 2 ^ 52 : ℝ) - 1) 6265995839813312 58 (by norm_num) (by norm_num) (by norm_num) (by rw [abs_lt]; constructor <;> norm_num))
    (rnd_lit hr (y := (8090032092466419 / 2 ^ 106 : ℝ) * (6265995839813312 / 2 ^ 58 : ℝ)) 5627954484149851 111 (by norm_num) (by norm_num) (by norm_num) (by rw [abs_lt]; constructor <;> norm_num))
    (rnd_lit hr (y := (4989533966865432 / 2 ^ 53 : ℝ) + (5627954484149851 / 2 ^ 111 : ℝ)) 4989533966865432 53 (by norm_num) (by norm_num) (by norm_num) (by rw [abs_lt]; constructor <;> norm_num))

theorem zstep21 (hr : IsRounding rnd) : Fl.sbjLoop rnd (4674942159352896 / 2 ^ 47 : ℝ) (4601505812367579 / 2 ^ 52 : ℝ) (5627954484149851 / 2 ^ 111 : ℝ) (4989533966865432 / 2 ^ 53 : ℝ) 20 = Fl.sbjLoop rnd (4674942159352896 / 2 ^ 47 : ℝ) (4592000439489809 / 2 ^ 52 : ℝ) (7070123998707005 / 2 ^ 117 : ℝ) (4989533966865432 / 2 ^ 53 : ℝ) 21 :=
  zstep hr 21 (by norm_num)
    (rnd_lit hr (y := (5627954484149851 / 2 ^ 111 : ℝ) / (4989533966865432 / 2 ^ 53 : ℝ)) 5079843906463773 110 (by norm_num) (by norm_num) (by norm_num) (by rw [abs_lt]; constructor <;> norm_num))
    (by norm_num) (by norm_num)
    (rnd_lit hr (y := (4674942159352896 / 2 ^ 47 : ℝ) * (4601505812367579 / 2 ^ 52 : ℝ)) 4776573252206393 47 (by norm_num) (by norm_num) (by norm_num) (by rw [abs_lt]; constructor <;> norm_num))
    (rnd_lit hr (y := (4776573252206393 / 2 ^ 47 : ℝ) / (4 * 21 ^ 2 - 1)) 5548736256675379 58 (by norm_num) (by norm_num) (by norm_num) (by rw [abs_lt]; constructor <;> norm_num))
    (rnd_lit hr (y := 1 - (5548736256675379 / 2 ^ 58 : ℝ)) 8833801246719886 53 (by norm_num) (by norm_num) (by norm_num) (by rw [abs_lt]; constructor <;> norm_num))
    (by norm_num)
    (rnd_lit hr (y := 1 / (8833801246719886 / 2 ^ 53 : ℝ)) 4592000439489809 52 (by norm_num) (by norm_num) (by norm_num) (by rw [abs_lt]; constructor <;> norm_num))
    (rnd_lit hr (y := (4592000439489809 / 2 ^ 52 : ℝ) - 1) 5657651975636032 58 (by norm_num) (by norm_num) (by norm_num) (by rw [abs_lt]; constructor <;> norm_num))
    (rnd_lit hr (y := (5627954484149851 / 2 ^ 111 : ℝ) * (5657651975636032 / 2 ^ 58 : ℝ)) 7070123998707005 117 (by norm_num) (by norm_num) (by norm_num) (by rw [abs_lt]; constructor <;> norm_num))
    (rnd_lit hr (y := (4989533966865432 / 2 ^ 53 : ℝ) + (7070123998707005 / 2 ^ 117 : ℝ)) 4989533966865432 53 (by norm_num) (by norm_num) (by norm_num) (by rw [abs_lt]; constructor <;> norm_num))

theorem zstep22 (hr : IsRounding rnd) : Fl.sbjLoop rnd (4674942159352896 / 2 ^ 47 : ℝ) (4592000439489809 / 2 ^ 52 : ℝ) (7070123998707005 / 2 ^ 117 : ℝ) (4989533966865432 / 2 ^ 53 : ℝ) 21 = Fl.sbjLoop rnd (4674942159352896 / 2 ^ 47 : ℝ) (4583833255993002 / 2 ^ 52 : ℝ) (8061273650061550 / 2 ^ 123 : ℝ) (4989533966865432 / 2 ^ 53 : ℝ) 22 :=
  zstep hr 22 (by norm_num)
    (rnd_lit hr (y := (7070123998707005 / 2 ^ 117 : ℝ) / (4989533966865432 / 2 ^ 53 : ℝ)) 6381559483809567 116 (by norm_num) (by norm_num) (by norm_num) (by rw [abs_lt]; constructor <;> norm_num))
    (by norm_num) (by norm_num)
    (rnd_lit hr (y := (4674942159352896 / 2 ^ 47 : ℝ) * (4592000439489809 / 2 ^ 52 : ℝ)) 4766706240908011 47 (by norm_num) (by norm_num) (by norm_num) (by rw [abs_lt]; constructor <;> norm_num))
    (rnd_lit hr (y := (4766706240908011 / 2 ^ 47 : ℝ) / (4 * 22 ^ 2 - 1)) 5045072031720727 58 (by norm_num) (by norm_num) (by norm_num) (by rw [abs_lt]; constructor <;> norm_num))
    (rnd_lit hr (y := 1 - (5045072031720727 / 2 ^ 58 : ℝ)) 8849540753749719 53 (by norm_num) (by norm_num) (by norm_num) (by rw [abs_lt]; constructor <;> norm_num))
    (by norm_num)
    (rnd_lit hr (y := 1 / (8849540753749719 / 2 ^ 53 : ℝ)) 4583833255993002 52 (by norm_num) (by norm_num) (by norm_num) (by rw [abs_lt]; constructor <;> norm_num))
    (rnd_lit hr (y := (4583833255993002 / 2 ^ 52 : ℝ) - 1) 5134952231840384 58 (by norm_num) (by norm_num) (by norm_num) (by rw [abs_lt]; constructor <;> norm_num))
    (rnd_lit hr (y := (7070123998707005 / 2 ^ 117 : ℝ) * (5134952231840384 / 2 ^ 58 : ℝ)) 8061273650061550 123 (by norm_num) (by norm_num) (by norm_num) (by rw [abs_lt]; constructor <;> norm_num))
    (rnd_lit hr (y := (4989533966865432 / 2 ^ 53 : ℝ) + (8061273650061550 / 2 ^ 123 : ℝ)) 4989533966865432 53 (by norm_num) (by norm_num) (by norm_num) (by rw [abs_lt]; constructor <;> norm_num))

theorem zend (hr : IsRounding rnd) : Fl.sbjLoop rnd (4674942159352896 / 2 ^ 47 : ℝ) (4583833255993002 / 2 ^ 52 : ℝ) (8061273650061550 / 2 ^ 123 : ℝ) (4989533966865432 / 2 ^ 53 : ℝ) 22 = some (.ok (4989533966865432 / 2 ^ 53 : ℝ)) := by
  have hq : rnd ((8061273650061550 / 2 ^ 123 : ℝ) / (4989533966865432 / 2 ^ 53 : ℝ)) = (7276180350237495 / 2 ^ 122 : ℝ) := by
    have := rnd_lit hr (y := (8061273650061550 / 2 ^ 123 : ℝ) / (4989533966865432 / 2 ^ 53 : ℝ)) 7276180350237495 122 (by norm_num) (by norm_num) (by norm_num) (by rw [abs_lt]; constructor <;> norm_num)
    rw [this]; norm_num
  rw [Fl.sbjLoop, if_neg (by norm_num), hq, thr_lo hr, if_neg (by rw [abs_of_pos (by norm_num)]; norm_num)]

/-- The double `5.76345919689455`. -/
noncomputable def xz : ℝ := 6489078172874838 / 2 ^ 50

theorem zloop (hr : IsRounding rnd) : Fl.sbjLoop rnd (4674942159352896 / 2 ^ 47 : ℝ) 1 (7986557751230570 / 2 ^ 54 : ℝ) (7986557751230570 / 2 ^ 54 : ℝ) 6 = some (.ok (4989533966865432 / 2 ^ 53 : ℝ)) := by
  refine (zstep7 hr).trans ?_
  refine (zstep8 hr).trans ?_
  refine (zstep9 hr).trans ?_
  refine (zstep10 hr).trans ?_
  refine (zstep11 hr).trans ?_
  refine (zstep12 hr).trans ?_
  refine (zstep13 hr).trans ?_
  refine (zstep14 hr).trans ?_
  refine (zstep15 hr).trans ?_
  refine (zstep16 hr).trans ?_
  refine (zstep17 hr).trans ?_
  refine (zstep18 hr).trans ?_
  refine (zstep19 hr).trans ?_
  refine (zstep20 hr).trans ?_
  refine (zstep21 hr).trans ?_
  refine (zstep22 hr).trans ?_
  exact zend hr

/-- The call at `xz`, for every rounding, when `x ** 2` is correctly rounded. -/
theorem zcall (hr : IsRounding rnd) (lib : Fl.BesLib) (hsq : lib.sq xz = rnd (xz ^ 2)) : Fl.sbesselj rnd lib xz 7 = .error ⟨.exception, "infinite"⟩ := by
  have hz : rnd (xz ^ 2) = (4674942159352896 / 2 ^ 47 : ℝ) := by
    have := rnd_lit hr (y := xz ^ 2) 4674942159352896 47 (by norm_num) (by norm_num) (by norm_num) (by rw [abs_lt]; unfold xz; constructor <;> norm_num)
    rw [this]; norm_num
  have hv : rnd (xz / rnd (rnd (2 * Fl.ofInt rnd ((6 : ℕ) : ℤ)) + 1)) = (7986557751230570 / 2 ^ 54 : ℝ) := by
    rw [odd_int hr (by norm_num)]
    have := rnd_lit hr (y := xz / (2 * (6 : ℕ) + 1)) 7986557751230570 54 (by norm_num) (by norm_num) (by norm_num) (by rw [abs_lt]; unfold xz; constructor <;> norm_num)
    rw [this]; norm_num
  have x0 : xz ≠ 0 := by unfold xz; norm_num
  have hl := zloop hr
  rw [← hv, ← hz, ← hsq] at hl
  have s := sbj_struct hr lib (x := xz) (M := 6) (by norm_num) (by norm_num) x0 (by rw [hsq, hz]; norm_num) hl
  rw [show ((6 : ℕ) : ℤ) + 1 = 7 by norm_num] at s
  rcases s with ⟨r, out, _, _, rM, hs, _⟩ | ⟨e, _⟩
  swap
  · exact e
  exfalso
  have h5 : r 5 = (6649212507522238 / 2 ^ 53 : ℝ) := by
    have e1 : dD rnd xz r 5 = (6100695256981554 / 2 ^ 52 : ℝ) := by
      unfold dD
      rw [rM]
      have a : rnd ((2 * ((5 : ℕ) : ℝ) + 1) / xz) = (8595462240414270 / 2 ^ 52 : ℝ) := by
        have := rnd_lit hr (y := (2 * 5 + 1) / (6489078172874838 / 2 ^ 50 : ℝ)) 8595462240414270 52 (by norm_num) (by norm_num) (by norm_num) (by rw [abs_lt]; constructor <;> norm_num)
        unfold xz
        push_cast
        rw [this]; norm_num
      rw [a]
      have := rnd_lit hr (y := (8595462240414270 / 2 ^ 52 : ℝ) - (4989533966865432 / 2 ^ 53 : ℝ)) 6100695256981554 52 (by norm_num) (by norm_num) (by norm_num) (by rw [abs_lt]; constructor <;> norm_num)
      rw [this]; norm_num
    rw [(hs 5 (by norm_num) (by norm_num)).2, e1]
    have := rnd_lit hr (y := 1 / (6100695256981554 / 2 ^ 52 : ℝ)) 6649212507522238 53 (by norm_num) (by norm_num) (by norm_num) (by rw [abs_lt]; constructor <;> norm_num)
    rw [this]; norm_num
  have h4 : r 4 = (5469839607536354 / 2 ^ 52 : ℝ) := by
    have e1 : dD rnd xz r 4 = (7416089340428386 / 2 ^ 53 : ℝ) := by
      unfold dD
      rw [h5]
      have a : rnd ((2 * ((4 : ℕ) : ℝ) + 1) / xz) = (7032650923975312 / 2 ^ 52 : ℝ) := by
        have := rnd_lit hr (y := (2 * 4 + 1) / (6489078172874838 / 2 ^ 50 : ℝ)) 7032650923975312 52 (by norm_num) (by norm_num) (by norm_num) (by rw [abs_lt]; constructor <;> norm_num)
        unfold xz
        push_cast
        rw [this]; norm_num
      rw [a]
      have := rnd_lit hr (y := (7032650923975312 / 2 ^ 52 : ℝ) - (6649212507522238 / 2 ^ 53 : ℝ)) 7416089340428386 53 (by norm_num) (by norm_num) (by norm_num) (by rw [abs_lt]; constructor <;> norm_num)
      rw [this]; norm_num
    rw [(hs 4 (by norm_num) (by norm_num)).2, e1]
    have := rnd_lit hr (y := 1 / (7416089340428386 / 2 ^ 53 : ℝ)) 5469839607536354 52 (by norm_num) (by norm_num) (by norm_num) (by rw [abs_lt]; constructor <;> norm_num)
    rw [this]; norm_num
  refine (hs 3 (by norm_num) (by norm_num)).1 ?_
  unfold dD
  rw [h4]
  have a : rnd ((2 * ((3 : ℕ) : ℝ) + 1) / xz) = (5469839607536354 / 2 ^ 52 : ℝ) := by
    have := rnd_lit hr (y := (2 * 3 + 1) / (6489078172874838 / 2 ^ 50 : ℝ)) 5469839607536354 52 (by norm_num) (by norm_num) (by norm_num) (by rw [abs_lt]; constructor <;> norm_num)
    unfold xz
    push_cast
    rw [this]; norm_num
  rw [a, sub_self, rnd_zero hr]

end FB
end Verif.Props
