import Verif.FloatArith
import Verif.Props.Patterns
/-!
# Property C65: symmetrisation in floating point
-/
namespace Verif.Props
open Verif

variable {rnd : ℝ → ℝ}

/-- A finite complex128 whose parts are below `2^500` in magnitude (no operation of `double_sphere` overflows). -/
def Moderate (x : FC rnd) : Prop := IsDouble x.re ∧ IsDouble x.im ∧ |x.re| < 2 ^ 500 ∧ |x.im| < 2 ^ 500

/-- Zero or at least `2^-500` in magnitude. -/
def NotTiny (x : ℝ) : Prop := x = 0 ∨ (2 : ℝ) ^ (-500 : ℤ) ≤ |x|

theorem isDouble_zero : IsDouble 0 := ⟨0, 0, by norm_num, by norm_num, by norm_num, by norm_num⟩
theorem isDouble_pow (e : ℤ) (h0 : -1074 ≤ e) (h1 : e ≤ 971) : IsDouble ((2 : ℝ) ^ e) :=
  ⟨1, e, by norm_num, h0, h1, by norm_num⟩
theorem isDouble_neg {x : ℝ} (h : IsDouble x) : IsDouble (-x) := by
  obtain ⟨m, e, h1, h2, h3, rfl⟩ := h
  exact ⟨-m, e, by rwa [abs_neg], h2, h3, by push_cast; ring⟩

/-- A double is rounded to itself. -/
theorem rnd_double (hr : IsRounding rnd) {x : ℝ} (hx : IsDouble x) (hb : |x| ≤ 2 ^ 1023) : rnd x = x := by
  have h := hr.nearest x hb x hx
  rw [sub_self, abs_zero] at h
  have := abs_nonpos_iff.mp h
  linarith

theorem rnd_zero (hr : IsRounding rnd) : rnd 0 = 0 := rnd_double hr isDouble_zero (by rw [abs_zero]; positivity)

theorem big : (2 : ℝ) ^ 500 ≤ 2 ^ 1023 := pow_le_pow_right₀ (by norm_num) (by norm_num)
theorem big' : (2 : ℝ) * 2 ^ 500 ≤ 2 ^ 1023 := by
  rw [← pow_succ']; exact pow_le_pow_right₀ (by norm_num) (by norm_num)

theorem diff_bound {a b A B : ℝ} (h1 : |a| < A) (h2 : |b| < A) (h : 2 * A ≤ B) : |a - b| ≤ B :=
  le_trans (abs_sub _ _) (by linarith)

/-- Rounding at most doubles the magnitude. -/
theorem rnd_le (hr : IsRounding rnd) {x : ℝ} (hb : |x| ≤ 2 ^ 1023) : |rnd x| ≤ 2 * |x| := by
  have h := hr.nearest x hb 0 isDouble_zero
  rw [sub_zero] at h
  have h2 : |rnd x| ≤ |x| + |x - rnd x| := by
    have := abs_sub x (x - rnd x)
    rwa [sub_sub_cancel] at this
  linarith

theorem rnd_mod (hr : IsRounding rnd) {x : ℝ} (hx : IsDouble x) (hb : |x| < 2 ^ 500) : rnd x = x :=
  rnd_double hr hx (le_trans hb.le big)

theorem isDouble_two_mul {x : ℝ} (hx : IsDouble x) (hb : |x| < 2 ^ 500) : IsDouble (2 * x) := by
  obtain ⟨m, e, h1, h2, h3, rfl⟩ := hx
  by_cases hm : m = 0
  · subst hm; simpa using isDouble_zero
  · refine ⟨m, e + 1, h1, by omega, ?_, ?_⟩
    · by_contra hcon
      have he : 971 ≤ e := by omega
      have h4 : (1 : ℝ) ≤ |(m : ℝ)| := by
        have : (1 : ℤ) ≤ |m| := Int.one_le_abs hm
        exact_mod_cast this
      have h5 : (2 : ℝ) ^ (500 : ℤ) ≤ (2 : ℝ) ^ e := zpow_le_zpow_right₀ (by norm_num) (by omega)
      have h6 : |(m : ℝ) * (2 : ℝ) ^ e| = |(m : ℝ)| * (2 : ℝ) ^ e := by rw [abs_mul, abs_of_pos (a := (2 : ℝ) ^ e) (by positivity)]
      rw [h6] at hb
      have h7 : (2 : ℝ) ^ e ≤ |(m : ℝ)| * (2 : ℝ) ^ e := le_mul_of_one_le_left (by positivity) h4
      have h8 : (2 : ℝ) ^ (500 : ℤ) = (2 : ℝ) ^ (500 : ℕ) := zpow_natCast 2 500
      rw [h8] at h5
      linarith
    · rw [zpow_add₀ (by norm_num)]; ring

/-- A number of magnitude at least `2^-1000` stays so. -/
theorem rnd_ge (hr : IsRounding rnd) {z : ℝ} (h0 : (2 : ℝ) ^ (-1000 : ℤ) ≤ |z|) (h1 : |z| ≤ 2 ^ 1023) :
    (2 : ℝ) ^ (-1000 : ℤ) ≤ |rnd z| := by
  have hp : (0 : ℝ) < (2 : ℝ) ^ (-1000 : ℤ) := by positivity
  have hd := isDouble_pow (-1000) (by norm_num) (by norm_num)
  have a := hr.nearest z h1 _ hd
  have b := hr.nearest z h1 _ (isDouble_neg hd)
  generalize (2 : ℝ) ^ (-1000 : ℤ) = w at *
  rcases le_total 0 z with hz | hz
  · rw [abs_of_nonneg hz] at h0
    rw [abs_of_nonneg (by linarith : 0 ≤ z - w)] at a
    have := (abs_le.mp a).2
    exact le_trans (by linarith) (le_abs_self _)
  · rw [abs_of_nonpos hz] at h0
    rw [abs_of_nonpos (by linarith : z - -w ≤ 0)] at b
    have := (abs_le.mp b).1
    exact le_trans (by linarith) (neg_le_abs _)

theorem rnd_ne_zero (hr : IsRounding rnd) {z : ℝ} (h0 : (2 : ℝ) ^ (-1000 : ℤ) ≤ |z|) (h1 : |z| ≤ 2 ^ 1023) : rnd z ≠ 0 := by
  intro h
  have := rnd_ge hr h0 h1
  rw [h, abs_zero] at this
  exact absurd this (not_le.mpr (by positivity))

/-! ### The arithmetic of `double_sphere` -/

theorem fc_zero_re : (0 : FC rnd).re = 0 := rfl
theorem fc_zero_im : (0 : FC rnd).im = 0 := rfl
theorem fc_add (a b : FC rnd) : a + b = ⟨rnd (a.re + b.re), rnd (a.im + b.im)⟩ := rfl
theorem fc_mul (a b : FC rnd) :
    a * b = ⟨rnd (rnd (a.re * b.re) - rnd (a.im * b.im)), rnd (rnd (a.re * b.im) + rnd (a.im * b.re))⟩ := rfl

theorem fc_eq_zero (a : FC rnd) : a = 0 ↔ a.re = 0 ∧ a.im = 0 := by
  constructor
  · rintro rfl; exact ⟨rfl, rfl⟩
  · rintro ⟨h1, h2⟩; exact FC.ext h1 h2

/-- The sign argument of `double_sphere`. -/
theorem fc_sign_mul (hr : IsRounding rnd) {ε : ℝ} (hε : ε = 1 ∨ ε = -1) {x : FC rnd} (hx : Moderate x) :
    (⟨ε, 0⟩ : FC rnd) * x = ⟨ε * x.re, ε * x.im⟩ := by
  obtain ⟨d1, d2, b1, b2⟩ := hx
  have k1 : IsDouble (ε * x.re) ∧ |ε * x.re| < 2 ^ 500 := by
    rcases hε with rfl | rfl
    · simpa using ⟨d1, b1⟩
    · rw [neg_one_mul, abs_neg]; exact ⟨isDouble_neg d1, b1⟩
  have k2 : IsDouble (ε * x.im) ∧ |ε * x.im| < 2 ^ 500 := by
    rcases hε with rfl | rfl
    · simpa using ⟨d2, b2⟩
    · rw [neg_one_mul, abs_neg]; exact ⟨isDouble_neg d2, b2⟩
  rw [fc_mul]
  simp only [zero_mul, rnd_zero hr, sub_zero, add_zero]
  rw [rnd_mod hr k1.1 k1.2, rnd_mod hr k1.1 k1.2, rnd_mod hr k2.1 k2.2, rnd_mod hr k2.1 k2.2]

theorem fc_zero_mul (hr : IsRounding rnd) (x : FC rnd) : 0 * x = 0 := by
  rw [fc_mul, fc_zero_re, fc_zero_im]
  simp only [zero_mul, rnd_zero hr, sub_zero, add_zero]
  rfl
theorem fc_mul_zero (hr : IsRounding rnd) (x : FC rnd) : x * 0 = 0 := by
  rw [fc_mul, fc_zero_re, fc_zero_im]
  simp only [mul_zero, rnd_zero hr, sub_zero, add_zero]
  rfl

theorem fc_mul_comm (a b : FC rnd) : a * b = b * a := by
  rw [fc_mul, fc_mul]
  ext
  · show rnd _ = rnd _
    rw [mul_comm b.re, mul_comm b.im a.im]
  · show rnd _ = rnd _
    rw [mul_comm b.re, mul_comm b.im a.re, add_comm]

theorem fc_add_comm (a b : FC rnd) : a + b = b + a := by
  rw [fc_add, fc_add, add_comm a.re, add_comm a.im]

theorem rnd_half (hr : IsRounding rnd) : rnd (1 / 2) = 1 / 2 := by
  have h := isDouble_pow (-1) (by norm_num) (by norm_num)
  have e : (2 : ℝ) ^ (-1 : ℤ) = 1 / 2 := by norm_num
  rw [e] at h
  exact rnd_mod hr h (by rw [abs_of_pos (by norm_num)]; exact lt_of_lt_of_le (by norm_num : (1 : ℝ) / 2 < 1) (one_le_pow₀ (by norm_num)))

theorem rnd_two (hr : IsRounding rnd) : rnd 2 = 2 := by
  have h := isDouble_pow 1 (by norm_num) (by norm_num)
  have e : (2 : ℝ) ^ (1 : ℤ) = 2 := by norm_num
  rw [e] at h
  exact rnd_double hr h (by
    rw [abs_of_pos (by norm_num)]
    calc (2 : ℝ) = 2 ^ 1 := by norm_num
      _ ≤ 2 ^ 1023 := pow_le_pow_right₀ (by norm_num) (by norm_num))

/-- `x / 2` for parts that are doubles. -/
theorem fc_div_two (hr : IsRounding rnd) (x : FC rnd) (h1 : rnd x.re = x.re) (h2 : rnd x.im = x.im) :
    x / 2 = ⟨rnd (x.re * (1 / 2)), rnd (x.im * (1 / 2))⟩ := by
  show (if |(0 : ℝ)| ≤ |(2 : ℝ)| then _ else _) = _
  rw [if_pos (by norm_num)]
  simp only [show (2 : FC rnd).re = 2 from rfl, show (2 : FC rnd).im = 0 from rfl, zero_div, rnd_zero hr, mul_zero, add_zero,
    sub_zero, rnd_two hr, rnd_half hr, h1, h2]

/-- Negating both arguments negates the result. -/
theorem dsCell_neg (hr : IsRounding rnd) {s t : FC rnd} (hs : Moderate s) (ht : Moderate t) :
    dsCell (⟨-s.re, -s.im⟩ : FC rnd) t = ⟨-(dsCell (⟨-t.re, -t.im⟩ : FC rnd) s).re, -(dsCell (⟨-t.re, -t.im⟩ : FC rnd) s).im⟩ := by
  obtain ⟨s1, s2, s3, s4⟩ := hs
  obtain ⟨t1, t2, t3, t4⟩ := ht
  have B := big'
  have kr : |t.re - s.re| ≤ 2 ^ 1023 := diff_bound t3 s3 B
  have ki : |t.im - s.im| ≤ 2 ^ 1023 := diff_bound t4 s4 B
  have hz : ((⟨-s.re, -s.im⟩ : FC rnd) * t = 0) ↔ ((⟨-t.re, -t.im⟩ : FC rnd) * s = 0) := by
    have e : (⟨-s.re, -s.im⟩ : FC rnd) * t = (⟨-t.re, -t.im⟩ : FC rnd) * s := by
      rw [fc_mul, fc_mul]
      ext
      · show rnd _ = rnd _
        rw [show -s.re * t.re = -t.re * s.re by ring, show -s.im * t.im = -t.im * s.im by ring]
      · show rnd _ = rnd _
        rw [show -s.re * t.im = -t.im * s.re by ring, show -s.im * t.re = -t.re * s.im by ring, add_comm]
    rw [e]
  have a1 : rnd (-s.re + t.re) = -rnd (-t.re + s.re) := by
    rw [show -t.re + s.re = -(t.re - s.re) by ring, hr.odd _ kr, neg_neg]; congr 1; ring
  have a2 : rnd (-s.im + t.im) = -rnd (-t.im + s.im) := by
    rw [show -t.im + s.im = -(t.im - s.im) by ring, hr.odd _ ki, neg_neg]; congr 1; ring
  unfold dsCell
  by_cases h : (⟨-t.re, -t.im⟩ : FC rnd) * s = 0
  · rw [if_pos (hz.mpr h), if_pos h, fc_add, fc_add, a1, a2]
  · have kr' : |-t.re + s.re| ≤ 2 ^ 1023 := by rw [show -t.re + s.re = -(t.re - s.re) by ring, abs_neg]; exact kr
    have ki' : |-t.im + s.im| ≤ 2 ^ 1023 := by rw [show -t.im + s.im = -(t.im - s.im) by ring, abs_neg]; exact ki
    have c := fun x (hx : |x| ≤ (2 : ℝ) ^ 1023) => rnd_double hr (hr.double x hx)
    have half : ∀ a b : ℝ, |a| < 2 ^ 500 → |b| < 2 ^ 500 → |rnd (-a + b)| ≤ 2 ^ 1023 ∧ |rnd (-a + b) * (1 / 2)| ≤ 2 ^ 1023 := by
      intro a b ha hb
      have e : |-a + b| ≤ 2 * 2 ^ 500 := by rw [show -a + b = b - a by ring]; exact diff_bound hb ha le_rfl
      have e1 := rnd_le hr (le_trans e B)
      have e2 : (2 : ℝ) * (2 * 2 ^ 500) ≤ 2 ^ 1023 := by
        rw [← pow_succ', ← pow_succ']; exact pow_le_pow_right₀ (by norm_num) (by norm_num)
      have e3 : |rnd (-a + b)| ≤ 2 ^ 1023 := le_trans e1 (le_trans (mul_le_mul_of_nonneg_left e (by norm_num)) e2)
      refine ⟨e3, ?_⟩
      rw [abs_mul, abs_of_pos (by norm_num : (0 : ℝ) < 1 / 2)]
      exact le_trans (mul_le_of_le_one_right (abs_nonneg _) (by norm_num)) e3
    obtain ⟨r1, r2⟩ := half t.re s.re t3 s3
    obtain ⟨i1, i2⟩ := half t.im s.im t4 s4
    have q1 := c _ kr' r1
    have q2 := c _ ki' i1
    rw [if_neg (fun hh => h (hz.mp hh)), if_neg h]
    have e1 : (⟨-s.re, -s.im⟩ : FC rnd) + t = ⟨-rnd (-t.re + s.re), -rnd (-t.im + s.im)⟩ := by rw [fc_add, a1, a2]
    have e2 : (⟨-t.re, -t.im⟩ : FC rnd) + s = ⟨rnd (-t.re + s.re), rnd (-t.im + s.im)⟩ := fc_add _ _
    rw [e1, e2, fc_div_two hr _ (by show rnd (-_) = -_; rw [hr.odd _ r1, q1]) (by show rnd (-_) = -_; rw [hr.odd _ i1, q2]),
      fc_div_two hr _ q1 q2]
    ext
    · show rnd (-_ * _) = -rnd _
      rw [neg_mul, hr.odd _ r2]
    · show rnd (-_ * _) = -rnd _
      rw [neg_mul, hr.odd _ i2]

theorem dsCell_comm (s t : FC rnd) : dsCell s t = dsCell t s := by
  unfold dsCell
  rw [fc_mul_comm s t, fc_add_comm s t]

/-- **C65 (symmetry)**: in double arithmetic `double_sphere` returns data with *exact* double-sphere symmetry, for every array of
moderate doubles with an even number of columns and either sign. -/
theorem c65_symmetric (hr : IsRounding rnd) (d : Arr2 (FC rnd)) (ε : ℝ) (hε : ε = 1 ∨ ε = -1) (he : d.cols % 2 = 0)
    (hd : ∀ n m, n < d.rows → m < d.cols → Moderate (d.at' n m)) :
    (doubleSphere d ⟨ε, 0⟩).rows = d.rows ∧ (doubleSphere d ⟨ε, 0⟩).cols = d.cols ∧
    ∀ n m, n < d.rows → m < d.cols →
      ((doubleSphere d ⟨ε, 0⟩).at' n m).re =
        ε * ((doubleSphere d ⟨ε, 0⟩).at' ((d.rows - n) % d.rows) ((m + d.cols / 2) % d.cols)).re ∧
      ((doubleSphere d ⟨ε, 0⟩).at' n m).im =
        ε * ((doubleSphere d ⟨ε, 0⟩).at' ((d.rows - n) % d.rows) ((m + d.cols / 2) % d.cols)).im := by
  refine ⟨rfl, rfl, ?_⟩
  intro n m hn hm
  have h1 : (d.rows - n) % d.rows < d.rows := Nat.mod_lt _ (by omega)
  have h2 : (m + d.cols / 2) % d.cols < d.cols := Nat.mod_lt _ (by omega)
  have ht := hd n m hn hm
  have hs := hd _ _ h1 h2
  rw [at'_doubleSphere d _ hn hm, at'_doubleSphere d _ h1 h2, refl_row hn, refl_col hm he, fc_sign_mul hr hε ht,
    fc_sign_mul hr hε hs]
  revert ht hs
  generalize d.at' n m = t
  generalize d.at' _ _ = s
  intro ht hs
  rcases hε with rfl | rfl
  · simp only [one_mul]
    rw [dsCell_comm]
    exact ⟨rfl, rfl⟩
  · simp only [neg_one_mul]
    rw [dsCell_neg hr hs ht]
    exact ⟨rfl, rfl⟩

theorem dsCell_zero_left (hr : IsRounding rnd) {t : FC rnd} (ht : Moderate t) : dsCell 0 t = t := by
  unfold dsCell
  rw [if_pos (fc_zero_mul hr t), fc_add, fc_zero_re, fc_zero_im, zero_add, zero_add, rnd_mod hr ht.1 ht.2.2.1,
    rnd_mod hr ht.2.1 ht.2.2.2]

theorem mul_ge {a b : ℝ} (ha : (2 : ℝ) ^ (-500 : ℤ) ≤ |a|) (hb : (2 : ℝ) ^ (-500 : ℤ) ≤ |b|) : (2 : ℝ) ^ (-1000 : ℤ) ≤ |a * b| := by
  rw [abs_mul]
  have h : (2 : ℝ) ^ (-1000 : ℤ) = (2 : ℝ) ^ (-500 : ℤ) * (2 : ℝ) ^ (-500 : ℤ) := by
    rw [← zpow_add₀ (by norm_num)]
    norm_num
  rw [h]
  exact mul_le_mul ha hb (by positivity) (abs_nonneg _)

theorem mul_le {a b : ℝ} (ha : |a| < 2 ^ 500) (hb : |b| < 2 ^ 500) : |a * b| ≤ 2 ^ 1000 := by
  rw [abs_mul, show (2 : ℝ) ^ 1000 = 2 ^ 500 * 2 ^ 500 by rw [← pow_add]]
  exact mul_le_mul ha.le hb.le (abs_nonneg _) (by positivity)

/-- The square of a moderate, not tiny, non-zero value is not rounded to zero. -/
theorem sq_ne_zero (hr : IsRounding rnd) {t : FC rnd} (ht : Moderate t) (h1 : NotTiny t.re) (h2 : NotTiny t.im) (h0 : t ≠ 0) :
    t * t ≠ 0 := by
  obtain ⟨t1, t2, t3, t4⟩ := ht
  have B0 : (2 : ℝ) ^ 1000 ≤ 2 ^ 1023 := pow_le_pow_right₀ (by norm_num) (by norm_num)
  have B1 : (2 : ℝ) * 2 ^ 1000 ≤ 2 ^ 1023 := by rw [← pow_succ']; exact pow_le_pow_right₀ (by norm_num) (by norm_num)
  intro h
  rw [fc_mul, fc_eq_zero] at h
  obtain ⟨hre, him⟩ := h
  simp only at hre him
  have fixp : ∀ x y : ℝ, |x| < 2 ^ 500 → |y| < 2 ^ 500 → rnd (rnd (x * y)) = rnd (x * y) := by
    intro x y hx hy
    have hb := mul_le hx hy
    exact rnd_double hr (hr.double _ (le_trans hb B0))
      (le_trans (rnd_le hr (le_trans hb B0)) (le_trans (mul_le_mul_of_nonneg_left hb (by norm_num)) B1))
  rcases h1 with h1 | h1
  · rcases h2 with h2 | h2
    · exact h0 (FC.ext h1 h2)
    · rw [h1, zero_mul, rnd_zero hr, zero_sub, hr.odd _ (le_trans (rnd_le hr (le_trans (mul_le t4 t4) B0))
        (le_trans (mul_le_mul_of_nonneg_left (mul_le t4 t4) (by norm_num)) B1)), fixp _ _ t4 t4, neg_eq_zero] at hre
      exact rnd_ne_zero hr (mul_ge h2 h2) (le_trans (mul_le t4 t4) B0) hre
  · rcases h2 with h2 | h2
    · rw [h2, zero_mul, rnd_zero hr, sub_zero, fixp _ _ t3 t3] at hre
      exact rnd_ne_zero hr (mul_ge h1 h1) (le_trans (mul_le t3 t3) B0) hre
    · rw [mul_comm t.im t.re, ← two_mul] at him
      have n0 := rnd_ge hr (mul_ge h1 h2) (le_trans (mul_le t3 t4) B0)
      have n1 := rnd_le hr (le_trans (mul_le t3 t4) B0)
      refine rnd_ne_zero hr ?_ ?_ him
      · rw [abs_mul, abs_of_pos (by norm_num : (0 : ℝ) < 2)]
        have := abs_nonneg (rnd (t.re * t.im))
        exact le_trans n0 (by rw [two_mul]; exact le_add_of_nonneg_left this)
      · rw [abs_mul, abs_of_pos (by norm_num : (0 : ℝ) < 2)]
        refine le_trans (mul_le_mul_of_nonneg_left (le_trans n1 (mul_le_mul_of_nonneg_left (mul_le t3 t4) (by norm_num))) (by norm_num)) ?_
        rw [← pow_succ', ← pow_succ']; exact pow_le_pow_right₀ (by norm_num) (by norm_num)

/-- Averaging two equal moderate values that are not tiny gives that value. -/
theorem dsCell_self (hr : IsRounding rnd) {t : FC rnd} (ht : Moderate t) (h1 : NotTiny t.re) (h2 : NotTiny t.im) :
    dsCell t t = t := by
  by_cases h0 : t = 0
  · subst h0; exact dsCell_zero_left hr ht
  · unfold dsCell
    rw [if_neg (sq_ne_zero hr ht h1 h2 h0)]
    obtain ⟨t1, t2, t3, t4⟩ := ht
    have fixp : ∀ x : ℝ, IsDouble x → |x| < 2 ^ 500 → rnd (x + x) = x + x := by
      intro x hx hb
      rw [← two_mul]
      refine rnd_double hr (isDouble_two_mul hx hb) ?_
      rw [abs_mul, abs_of_pos (by norm_num : (0 : ℝ) < 2)]
      exact le_trans (mul_le_mul_of_nonneg_left hb.le (by norm_num)) big'
    rw [fc_add, fixp _ t1 t3, fixp _ t2 t4, fc_div_two hr _ (fixp _ t1 t3) (fixp _ t2 t4)]
    ext
    · show rnd ((t.re + t.re) * (1 / 2)) = t.re
      rw [show (t.re + t.re) * (1 / 2) = t.re by ring, rnd_mod hr t1 t3]
    · show rnd ((t.im + t.im) * (1 / 2)) = t.im
      rw [show (t.im + t.im) * (1 / 2) = t.im by ring, rnd_mod hr t2 t4]

/-- What the pattern constructors store, in double arithmetic. -/
theorem continue_float (hr : IsRounding rnd) (d : Arr2 (FC rnd)) (ε : ℝ) (hε : ε = 1 ∨ ε = -1) (h2 : 2 ≤ d.rows)
    (hd : ∀ n m, n < d.rows → m < d.cols → Moderate (d.at' n m)) :
    ∃ D, continueSphere d ⟨ε, 0⟩ = .ok D ∧ D.rows = 2 * d.rows - 2 ∧ D.cols = d.cols ∧
      (∀ n m, 0 < n → n < d.rows - 1 → m < d.cols → D.at' n m = d.at' n m) ∧
      (∀ n m, n = 0 ∨ n = d.rows - 1 → m < d.cols → NotTiny (d.at' n m).re → NotTiny (d.at' n m).im →
        (d.at' n m).re = ε * (d.at' n ((m + d.cols / 2) % d.cols)).re →
        (d.at' n m).im = ε * (d.at' n ((m + d.cols / 2) % d.cols)).im → D.at' n m = d.at' n m) ∧
      (∀ n m, d.rows ≤ n → n < 2 * d.rows - 2 → m < d.cols →
        (D.at' n m).re = ε * (d.at' (2 * d.rows - 2 - n) ((m + d.cols / 2) % d.cols)).re ∧
        (D.at' n m).im = ε * (d.at' (2 * d.rows - 2 - n) ((m + d.cols / 2) % d.cols)).im) := by
  obtain ⟨D, hD, hR, hC, a1, a2, a3⟩ := continue_spec_gen d (⟨ε, 0⟩ : FC rnd) h2
  refine ⟨D, hD, hR, hC, ?_, ?_, ?_⟩
  · intro n m h0 hn hm
    rw [a1 n m h0 hn hm, fc_mul_zero hr, dsCell_zero_left hr (hd n m (by omega) hm)]
  · intro n m hn hm k1 k2 e1 e2
    have h3 : (m + d.cols / 2) % d.cols < d.cols := Nat.mod_lt _ (by omega)
    have hrow : n < d.rows := by omega
    rw [a2 n m hn hm, fc_sign_mul hr hε (hd n _ hrow h3)]
    rw [show (⟨ε * (d.at' n ((m + d.cols / 2) % d.cols)).re, ε * (d.at' n ((m + d.cols / 2) % d.cols)).im⟩ : FC rnd) = d.at' n m from
      FC.ext e1.symm e2.symm]
    exact dsCell_self hr (hd n m hrow hm) k1 k2
  · intro n m hn hn' hm
    have h3 : (m + d.cols / 2) % d.cols < d.cols := Nat.mod_lt _ (by omega)
    have hh := hd (2 * d.rows - 2 - n) _ (by omega) h3
    rw [a3 n m hn hn' hm, fc_sign_mul hr hε hh, dsCell_comm, dsCell_zero_left hr]
    · exact ⟨rfl, rfl⟩
    · rcases hε with rfl | rfl
      · simpa [Moderate] using hh
      · simp only [neg_one_mul, Moderate, abs_neg]
        exact ⟨isDouble_neg hh.1, isDouble_neg hh.2.1, hh.2.2.1, hh.2.2.2⟩

/-- **C65 (samples)**: in double arithmetic a scalar pattern built from moderate doubles returns every sample off the poles
bit for bit; at the poles it does so for symmetric samples whose parts are zero or at least `2^-500`. -/
theorem c65_scalar (hr : IsRounding rnd) (d : Arr2 (FC rnd)) (h2 : 2 ≤ d.rows)
    (hd : ∀ n m, n < d.rows → m < d.cols → Moderate (d.at' n m)) :
    ∃ p A, SPatt.init (.arr d) false = .ok p ∧ p.array = .ok A ∧ A.rows = d.rows ∧ A.cols = d.cols ∧
      (∀ n m, 0 < n → n < d.rows - 1 → m < d.cols → A.at' n m = d.at' n m) ∧
      (∀ n m, n = 0 ∨ n = d.rows - 1 → m < d.cols → NotTiny (d.at' n m).re → NotTiny (d.at' n m).im →
        d.at' n m = d.at' n ((m + d.cols / 2) % d.cols) → A.at' n m = d.at' n m) := by
  obtain ⟨D, hD, hR, hC, a1, a2, _⟩ := continue_float hr d 1 (.inl rfl) h2 hd
  have hA : ∀ i j, i < d.rows → j < d.cols → (D.takeRows (D.rows / 2 + 1)).at' i j = D.at' i j := by
    intro i j hi hj
    unfold Arr2.takeRows
    rw [Arr2.at'_ofFn (by omega) (by omega)]
  refine ⟨⟨.arr D⟩, _, ?_, rfl, ?_, ?_, ?_, ?_⟩
  · unfold SPatt.init
    show (continueSphere d ⟨1, 0⟩).bind _ = _
    rw [hD]; rfl
  · show min (D.rows / 2 + 1) D.rows = d.rows; omega
  · exact hC
  · intro n m h0 h1 hm
    rw [hA n m (by omega) hm, a1 n m h0 h1 hm]
  · intro n m hn hm k1 k2 e
    rw [hA n m (by omega) hm, a2 n m hn hm k1 k2 (by rw [one_mul, ← e]) (by rw [one_mul, ← e])]

/-- **C65 (samples)**, transverse patterns: the same for both components, with antisymmetric samples at the poles. -/
theorem c65_transverse (hr : IsRounding rnd) (t f : Arr2 (FC rnd)) (h2 : 2 ≤ t.rows) (hrow : t.rows = f.rows) (hcol : t.cols = f.cols)
    (ht : ∀ n m, n < t.rows → m < t.cols → Moderate (t.at' n m)) (hf : ∀ n m, n < t.rows → m < t.cols → Moderate (f.at' n m)) :
    ∃ p, TPatt.init (.arr t) (.arr f) false = .ok p ∧ p.nrows = t.rows ∧ p.ncols = t.cols ∧
    ∀ x ∈ [(p.theta, t), (p.phi, f)], x.1.rows = t.rows ∧ x.1.cols = t.cols ∧
      (∀ n m, 0 < n → n < t.rows - 1 → m < t.cols → x.1.at' n m = x.2.at' n m) ∧
      (∀ n m, n = 0 ∨ n = t.rows - 1 → m < t.cols → NotTiny (x.2.at' n m).re → NotTiny (x.2.at' n m).im →
        (x.2.at' n m).re = -(x.2.at' n ((m + t.cols / 2) % t.cols)).re →
        (x.2.at' n m).im = -(x.2.at' n ((m + t.cols / 2) % t.cols)).im → x.1.at' n m = x.2.at' n m) := by
  obtain ⟨D, hD, hR, hC, a1, a2, _⟩ := continue_float hr t (-1) (.inr rfl) h2 ht
  obtain ⟨E, hE, hR', hC', b1, b2, _⟩ := continue_float hr f (-1) (.inr rfl) (by omega) (by rw [← hrow, ← hcol]; exact hf)
  have hneg : (-1 : FC rnd) = ⟨-1, 0⟩ := FC.ext rfl (by show -(0 : ℝ) = 0; rw [neg_zero])
  refine ⟨⟨D, E⟩, ?_, ?_, hC, ?_⟩
  · unfold TPatt.init
    simp only [hneg, hD, hE, hrow, hcol]; rfl
  · unfold TPatt.nrows; simp only; omega
  · intro x hx
    have key : ∀ (A B d : Arr2 (FC rnd)), d.rows = t.rows → d.cols = t.cols → A.rows = 2 * d.rows - 2 → A.cols = d.cols →
        (∀ n m, 0 < n → n < d.rows - 1 → m < d.cols → A.at' n m = d.at' n m) →
        (∀ n m, n = 0 ∨ n = d.rows - 1 → m < d.cols → NotTiny (d.at' n m).re → NotTiny (d.at' n m).im →
          (d.at' n m).re = -1 * (d.at' n ((m + d.cols / 2) % d.cols)).re →
          (d.at' n m).im = -1 * (d.at' n ((m + d.cols / 2) % d.cols)).im → A.at' n m = d.at' n m) →
        B = A.takeRows (D.rows / 2 + 1) →
        B.rows = t.rows ∧ B.cols = t.cols ∧
        (∀ n m, 0 < n → n < t.rows - 1 → m < t.cols → B.at' n m = d.at' n m) ∧
        (∀ n m, n = 0 ∨ n = t.rows - 1 → m < t.cols → NotTiny (d.at' n m).re → NotTiny (d.at' n m).im →
          (d.at' n m).re = -(d.at' n ((m + t.cols / 2) % t.cols)).re →
          (d.at' n m).im = -(d.at' n ((m + t.cols / 2) % t.cols)).im → B.at' n m = d.at' n m) := by
      intro A B d e1 e2 e3 e4 e5 e6 e7
      have hB : ∀ i j, i < t.rows → j < t.cols → B.at' i j = A.at' i j := by
        intro i j hi hj
        rw [e7]
        unfold Arr2.takeRows
        rw [Arr2.at'_ofFn (by omega) (by omega)]
      refine ⟨?_, ?_, ?_, ?_⟩
      · rw [e7]; show min (D.rows / 2 + 1) A.rows = t.rows; omega
      · rw [e7]; show A.cols = t.cols; omega
      · intro n m h0 h1 hm; rw [hB n m (by omega) hm, e5 n m h0 (by omega) (by omega)]
      · intro n m hn hm k1 k2 q1 q2
        rw [hB n m (by omega) hm, e6 n m (by omega) (by omega) k1 k2 (by rw [neg_one_mul, e2]; exact q1) (by rw [neg_one_mul, e2]; exact q2)]
    simp only [List.mem_cons, List.not_mem_nil, or_false] at hx
    rcases hx with rfl | rfl
    · exact key D _ t rfl rfl hR hC a1 a2 rfl
    · exact key E _ f hrow.symm hcol.symm hR' hC' b1 b2 rfl

/-! ### Tiny samples -/

/-- `2^-1200` underflows to zero. -/
theorem rnd_underflow (hr : IsRounding rnd) : rnd ((2 : ℝ) ^ (-1200 : ℤ)) = 0 := by
  have hp : (0 : ℝ) < (2 : ℝ) ^ (-1200 : ℤ) := by positivity
  have hb : |(2 : ℝ) ^ (-1200 : ℤ)| ≤ 2 ^ 1023 := by
    rw [abs_of_pos hp]
    exact le_trans (zpow_le_one_of_nonpos₀ (by norm_num) (by norm_num)) (one_le_pow₀ (by norm_num))
  obtain ⟨m, e, h1, h2, h3, h4⟩ := hr.double _ hb
  have h := rnd_le hr hb
  by_contra hne
  have hm : m ≠ 0 := by rintro rfl; apply hne; rw [h4]; simp
  have h5 : (1 : ℝ) ≤ |(m : ℝ)| := by
    have : (1 : ℤ) ≤ |m| := Int.one_le_abs hm
    exact_mod_cast this
  have h6 : (2 : ℝ) ^ (-1074 : ℤ) ≤ (2 : ℝ) ^ e := zpow_le_zpow_right₀ (by norm_num) h2
  rw [h4, abs_mul, abs_of_pos (a := (2 : ℝ) ^ e) (by positivity), abs_of_pos hp] at h
  have h7 : (2 : ℝ) * (2 : ℝ) ^ (-1200 : ℤ) = (2 : ℝ) ^ (-1199 : ℤ) := by
    rw [← zpow_one_add₀ (by norm_num)]; norm_num
  rw [h7] at h
  have h8 : (2 : ℝ) ^ e ≤ |(m : ℝ)| * (2 : ℝ) ^ e := le_mul_of_one_le_left (by positivity) h5
  have h9 : (2 : ℝ) ^ (-1199 : ℤ) < (2 : ℝ) ^ (-1074 : ℤ) := zpow_lt_zpow_right₀ (by norm_num) (by norm_num)
  exact absurd (le_trans h6 (le_trans h8 h)) (not_le.mpr h9)

/-- The bound `2^-500` matters: the constant 2-by-2 array `2^-600` (symmetric, ordinary doubles) comes back from
`ScalarPatternUniform` with its pole samples doubled, because `s * t == 0` underflows.  This holds for every rounding. -/
theorem c65_tiny_counterexample (hr : IsRounding rnd) :
    ∃ (d : Arr2 (FC rnd)) (p : SPatt (FC rnd)) (A : Arr2 (FC rnd)), d.rows = 2 ∧ d.cols = 2 ∧
      (∀ n m, n < 2 → m < 2 → Moderate (d.at' n m) ∧ d.at' n m = ⟨(2 : ℝ) ^ (-600 : ℤ), 0⟩) ∧
      SPatt.init (.arr d) false = .ok p ∧ p.array = .ok A ∧ A.at' 0 0 = ⟨(2 : ℝ) ^ (-599 : ℤ), 0⟩ := by
  have hM : Moderate (⟨(2 : ℝ) ^ (-600 : ℤ), 0⟩ : FC rnd) := by
    refine ⟨isDouble_pow _ (by norm_num) (by norm_num), isDouble_zero, ?_, ?_⟩
    · show |(2 : ℝ) ^ (-600 : ℤ)| < _
      rw [abs_of_pos (by positivity)]
      exact lt_of_lt_of_le (zpow_lt_one_of_neg₀ (by norm_num) (by norm_num)) (one_le_pow₀ (by norm_num))
    · show |(0 : ℝ)| < _
      rw [abs_zero]; positivity
  let d : Arr2 (FC rnd) := Arr2.ofFn 2 2 (fun _ _ => ⟨(2 : ℝ) ^ (-600 : ℤ), 0⟩)
  have hd : ∀ n m, n < 2 → m < 2 → d.at' n m = ⟨(2 : ℝ) ^ (-600 : ℤ), 0⟩ := fun n m hn hm => Arr2.at'_ofFn hn hm
  obtain ⟨D, hD, hR, hC, _, a2, _⟩ := continue_spec_gen d (⟨1, 0⟩ : FC rnd) (le_refl 2)
  refine ⟨d, ⟨.arr D⟩, D.takeRows (D.rows / 2 + 1), rfl, rfl, fun n m hn hm => ⟨by rw [hd n m hn hm]; exact hM, hd n m hn hm⟩, ?_, rfl, ?_⟩
  · unfold SPatt.init
    show (continueSphere d ⟨1, 0⟩).bind _ = _
    rw [hD]; rfl
  · have hR' : D.rows = 2 := hR
    have hC' : D.cols = 2 := hC
    have e : (D.takeRows (D.rows / 2 + 1)).at' 0 0 = D.at' 0 0 := by
      unfold Arr2.takeRows
      rw [Arr2.at'_ofFn (by omega) (by omega)]
    rw [e, a2 0 0 (.inl rfl) (show 0 < 2 by norm_num), hd 0 0 (by norm_num) (by norm_num),
      show (0 + d.cols / 2) % d.cols = 1 by rw [show d.cols = 2 from rfl], hd 0 1 (by norm_num) (by norm_num),
      fc_sign_mul hr (.inl rfl) hM]
    simp only [one_mul]
    unfold dsCell
    have hz : (⟨(2 : ℝ) ^ (-600 : ℤ), 0⟩ : FC rnd) * ⟨(2 : ℝ) ^ (-600 : ℤ), 0⟩ = 0 := by
      rw [fc_mul]
      have e2 : (2 : ℝ) ^ (-600 : ℤ) * (2 : ℝ) ^ (-600 : ℤ) = (2 : ℝ) ^ (-1200 : ℤ) := by
        rw [← zpow_add₀ (by norm_num)]; norm_num
      simp only [e2, rnd_underflow hr, mul_zero, zero_mul, rnd_zero hr, sub_zero, add_zero]
      rfl
    have e3 : (2 : ℝ) ^ (-600 : ℤ) + (2 : ℝ) ^ (-600 : ℤ) = (2 : ℝ) ^ (-599 : ℤ) := by
      rw [← two_mul, ← zpow_one_add₀ (by norm_num)]; norm_num
    rw [if_pos hz, fc_add]
    simp only [e3, add_zero, rnd_zero hr]
    congr 1
    refine rnd_mod hr (isDouble_pow _ (by norm_num) (by norm_num)) ?_
    rw [abs_of_pos (by positivity)]
    exact lt_of_lt_of_le (zpow_lt_one_of_neg₀ (by norm_num) (by norm_num)) (one_le_pow₀ (by norm_num))

/-! ### Non-vacuity: rounding to nearest exists -/

theorem doubles_finite : {x : ℝ | IsDouble x}.Finite := by
  have h : {x : ℝ | IsDouble x} ⊆ (fun q : ℤ × ℤ => (q.1 : ℝ) * (2 : ℝ) ^ q.2) '' (Set.Ioo (-(2 ^ 53)) (2 ^ 53) ×ˢ Set.Icc (-1074) 971) := by
    rintro x ⟨m, e, h1, h2, h3, rfl⟩
    exact ⟨(m, e), ⟨⟨(abs_lt.mp h1).1, (abs_lt.mp h1).2⟩, h2, h3⟩, rfl⟩
  exact ((Set.finite_Ioo _ _).prod (Set.finite_Icc _ _)).image _ |>.subset h

/-- There is a rounding to nearest. -/
theorem isRounding_exists : ∃ rnd : ℝ → ℝ, IsRounding rnd := by
  have ex : ∀ x : ℝ, ∃ d, IsDouble d ∧ ∀ d', IsDouble d' → |x - d| ≤ |x - d'| := fun x =>
    Set.exists_min_image {x : ℝ | IsDouble x} (fun d => |x - d|) doubles_finite ⟨0, isDouble_zero⟩
  choose f hf1 hf2 using ex
  have f0 : f 0 = 0 := by
    have := hf2 0 0 isDouble_zero
    simpa using this
  refine ⟨fun x => if 0 ≤ x then f x else -f (-x), ?_, ?_, ?_⟩
  · intro x _
    split
    · exact hf1 x
    · exact isDouble_neg (hf1 _)
  · intro x _ d hd
    split
    · exact hf2 x d hd
    · have := hf2 (-x) (-d) (isDouble_neg hd)
      rw [show -x - f (-x) = -(x - -f (-x)) by ring, abs_neg, show -x - -d = -(x - d) by ring, abs_neg] at this
      exact this
  · intro x _
    rcases lt_trichotomy x 0 with h | h | h
    · rw [if_pos (by linarith), if_neg (by linarith), neg_neg]
    · subst h; simp [f0]
    · rw [if_neg (by linarith), if_pos h.le, neg_neg]

/-- Non-vacuity: an array of moderate doubles that are not tiny, with a rounding. -/
example : ∃ (rnd : ℝ → ℝ) (d : Arr2 (FC rnd)), IsRounding rnd ∧ d.rows = 3 ∧ d.cols = 4 ∧
    ∀ n m, n < d.rows → m < d.cols → Moderate (d.at' n m) ∧ NotTiny (d.at' n m).re ∧ NotTiny (d.at' n m).im := by
  obtain ⟨rnd, hr⟩ := isRounding_exists
  refine ⟨rnd, Arr2.ofFn 3 4 (fun _ _ => ⟨2 ^ (3 : ℤ), 0⟩), hr, rfl, rfl, ?_⟩
  intro n m hn hm
  rw [Arr2.at'_ofFn (show n < 3 from hn) (show m < 4 from hm)]
  refine ⟨⟨isDouble_pow _ (by norm_num) (by norm_num), isDouble_zero, ?_, ?_⟩, .inr ?_, .inl rfl⟩
  · show |(2 : ℝ) ^ (3 : ℤ)| < _
    rw [abs_of_pos (by positivity), show ((2 : ℝ) ^ (3 : ℤ)) = 2 ^ 3 by norm_num]
    exact pow_lt_pow_right₀ (by norm_num) (by norm_num)
  · show |(0 : ℝ)| < _
    rw [abs_zero]; positivity
  · show _ ≤ |(2 : ℝ) ^ (3 : ℤ)|
    rw [abs_of_pos (by positivity)]
    exact zpow_le_zpow_right₀ (by norm_num) (by norm_num)

end Verif.Props
