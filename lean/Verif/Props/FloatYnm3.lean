import Verif.Props.FloatYnm2
/-!
# Property C86, continued: from degree 1079 on `ynnm` is wrong by large factors
-/
namespace Verif.Props
open Verif
variable {rnd : ℝ → ℝ}

/-- The smallest positive double. -/
noncomputable def tiny : ℝ := 2 ^ (-1074 : ℤ)

theorem tiny_pos : 0 < tiny := by unfold tiny; positivity

theorem isDouble_tiny : IsDouble tiny := isDouble_pow _ (by norm_num) (by norm_num)

theorem tiny_le {d : ℝ} (hd : IsDouble d) (h : 0 < d) : tiny ≤ d := by
  obtain ⟨a, e, _, he, _, rfl⟩ := hd
  have hp : (0 : ℝ) < 2 ^ e := by positivity
  have ha : 0 < a := by
    have := (mul_pos_iff_of_pos_right hp).mp h
    exact_mod_cast this
  have h1 : (1 : ℝ) ≤ a := by exact_mod_cast ha
  calc tiny ≤ 2 ^ e := zpow_le_zpow_right₀ (by norm_num) he
    _ = 1 * 2 ^ e := (one_mul _).symm
    _ ≤ a * 2 ^ e := mul_le_mul_of_nonneg_right h1 hp.le

/-- More than half of the smallest double rounds up to at least the smallest double. -/
theorem rnd_ge_tiny (hr : IsRounding rnd) {x : ℝ} (hx : |x| ≤ 2 ^ 1023) (h : tiny / 2 < x) : tiny ≤ rnd x := by
  by_cases h1 : tiny ≤ x
  · exact rnd_ge_double hr hx isDouble_tiny h1
  · have h2 := hr.nearest x hx tiny isDouble_tiny
    apply tiny_le (hr.double x hx)
    rw [abs_of_neg (show x - tiny < 0 by linarith)] at h2
    have := (abs_le.mp h2).2
    linarith

/-- Rounding never loses more than half a unit of the smallest double plus half a unit in the last place. -/
theorem rnd_lower (hr : IsRounding rnd) {x : ℝ} (h0 : 0 ≤ x) (h1 : x ≤ 2 ^ (1022 : ℤ)) : (1 - uu) * x - tiny / 2 ≤ rnd x := by
  have t0 := tiny_pos
  have u0 := uu_pos
  by_cases hx : (2 : ℝ) ^ (-1022 : ℤ) ≤ x
  · have := (abs_le.mp (rnd_rel hr hx h1)).1
    linarith
  · rw [not_le] at hx
    have hb : |x| ≤ 2 ^ 1023 := by
      rw [abs_of_nonneg h0]
      refine le_trans hx.le ?_
      refine le_trans (zpow_le_one_of_nonpos₀ (by norm_num) (by norm_num)) (one_le_pow₀ (by norm_num))
    -- the nearest multiple of tiny
    set z : ℤ := round (x / tiny) with hz
    have hd : |x / tiny - z| ≤ 1 / 2 := abs_sub_round _
    have hq : x / tiny < 2 ^ 52 := by
      rw [div_lt_iff₀ t0]
      refine lt_of_lt_of_le hx (le_of_eq ?_)
      unfold tiny
      rw [show (2 : ℝ) ^ 52 = 2 ^ (52 : ℤ) by norm_num, ← zpow_add₀ (by norm_num)]; norm_num
    have hq0 : 0 ≤ x / tiny := div_nonneg h0 t0.le
    have hzd : IsDouble (z * tiny) := by
      refine ⟨z, -1074, ?_, by norm_num, by norm_num, rfl⟩
      have h := abs_le.mp hd
      have z1 : (z : ℝ) < 2 ^ 53 := by norm_num at hq ⊢; linarith
      have z2 : (-(2 ^ 53) : ℝ) < z := by norm_num; linarith
      rw [abs_lt]
      constructor
      · exact_mod_cast z2
      · exact_mod_cast z1
    have hn := hr.nearest x hb _ hzd
    have : |x - z * tiny| ≤ tiny / 2 := by
      have e : x - z * tiny = (x / tiny - z) * tiny := by field_simp
      rw [e, abs_mul, abs_of_pos t0]
      calc |x / tiny - z| * tiny ≤ 1 / 2 * tiny := mul_le_mul_of_nonneg_right hd t0.le
        _ = tiny / 2 := by ring
    have h3 := (abs_le.mp (le_trans hn this)).2
    nlinarith

/-- Rounding a product with a factor at most 1 does not increase a double. -/
theorem rnd_le_double (hr : IsRounding rnd) {x d : ℝ} (hx : |x| ≤ 2 ^ 1023) (hd : IsDouble d) (h : x ≤ d) : rnd x ≤ d := by
  have := rnd_ge_double hr (x := -x) (d := -d) (by rwa [abs_neg]) (isDouble_neg hd) (by linarith)
  rw [hr.odd x hx] at this
  linarith

/-- The factors of the first loop exceed 1/2, and not by too little. -/
theorem fac1_gt (hr : IsRounding rnd) {t : ℕ} (ht : t < 2000) : 1 / 2 < Fl.fac1 rnd ((t + 1 : ℕ) : ℤ) ∧ Fl.fac1 rnd ((t + 1 : ℕ) : ℤ) ≤ 1 := by
  have t0 : (0 : ℝ) ≤ t := by positivity
  have t1 : (t : ℝ) + 1 ≤ 2000 := by exact_mod_cast ht
  have b1 : (1 : ℝ) ≤ 2 ^ 1023 := one_le_pow₀ (by norm_num)
  rw [(fac1_arg hr (k := ((t + 1 : ℕ) : ℤ)) (by omega)).1]
  push_cast
  set q : ℝ := (2 * ((t : ℝ) + 1) + 1) / (8 * ((t : ℝ) + 1)) with hq
  have q1 : (1 : ℝ) / 4 + 1 / 16384 ≤ q := by
    rw [hq, le_div_iff₀ (by positivity)]; linarith
  have q2 : q ≤ 1 := by rw [hq, div_le_one (by positivity)]; linarith
  have qa : |q| ≤ 2 ^ 1023 := by rw [abs_of_nonneg (by linarith)]; exact le_trans q2 b1
  have d1 : IsDouble ((1 : ℝ) / 4 + 1 / 16384) := ⟨4097, -14, by norm_num, by norm_num, by norm_num, by norm_num⟩
  have d2 : IsDouble (1 : ℝ) := ⟨1, 0, by norm_num, by norm_num, by norm_num, by norm_num⟩
  have d3 : IsDouble ((1 : ℝ) / 2 + 1 / 32768) := ⟨16385, -15, by norm_num, by norm_num, by norm_num, by norm_num⟩
  have r1 := rnd_ge_double hr qa d1 q1
  have r2 := rnd_le_double hr qa d2 q2
  have s1 : (1 : ℝ) / 2 + 1 / 32768 ≤ Real.sqrt (rnd q) := by
    apply Real.le_sqrt_of_sq_le
    refine le_trans ?_ r1
    norm_num
  have s2 : Real.sqrt (rnd q) ≤ 1 := by
    apply Real.sqrt_le_iff.mpr
    constructor <;> linarith
  have sa : |Real.sqrt (rnd q)| ≤ 2 ^ 1023 := by rw [abs_of_nonneg (by linarith)]; exact le_trans s2 b1
  have r3 := rnd_ge_double hr sa d3 s1
  exact ⟨by linarith, rnd_le_double hr sa d2 s2⟩

/-- The running product of the first loop. -/
noncomputable def run1 (rnd : ℝ → ℝ) (n : ℕ) : ℝ := (List.range n).foldl (fun o t => rnd (o * Fl.fac1 rnd ((t + 1 : ℕ) : ℤ))) (Fl.a rnd)

theorem run1_succ (n : ℕ) : run1 rnd (n + 1) = rnd (run1 rnd n * Fl.fac1 rnd ((n + 1 : ℕ) : ℤ)) := by
  unfold run1
  rw [List.range_succ, List.foldl_append]; rfl

/-- It never falls below the smallest double, and never increases. -/
theorem run1_inv (hr : IsRounding rnd) (n : ℕ) (hn : n ≤ 2000) : IsDouble (run1 rnd n) ∧ tiny ≤ run1 rnd n ∧ run1 rnd n ≤ 1 := by
  have b1 : (1 : ℝ) ≤ 2 ^ 1023 := one_le_pow₀ (by norm_num)
  have t0 := tiny_pos
  induction n with
  | zero =>
    change IsDouble (Fl.a rnd) ∧ tiny ≤ Fl.a rnd ∧ Fl.a rnd ≤ 1
    have h := a_near hr
    obtain ⟨h1, h2⟩ := h.bounds (by norm_num)
    obtain ⟨a1, a2⟩ := a_bounds
    refine ⟨?_, ?_, by linarith⟩
    · obtain ⟨x, e, hx⟩ := a_arg hr
      rw [e]
      refine hr.double _ ?_
      rw [abs_of_pos hx.pos]
      exact le_trans (by linarith [(hx.bounds (by norm_num)).2]) b1
    · have : tiny ≤ 2 ^ (-3 : ℤ) := zpow_le_zpow_right₀ (by norm_num) (by norm_num)
      norm_num at this
      linarith
  | succ n ih =>
    obtain ⟨i1, i2, i3⟩ := ih (by omega)
    obtain ⟨g1, g2⟩ := fac1_gt hr (t := n) (by omega)
    have hp : 0 < run1 rnd n := lt_of_lt_of_le t0 i2
    have hle : run1 rnd n * Fl.fac1 rnd ((n + 1 : ℕ) : ℤ) ≤ run1 rnd n := mul_le_of_le_one_right hp.le g2
    have hpos : 0 < run1 rnd n * Fl.fac1 rnd ((n + 1 : ℕ) : ℤ) := mul_pos hp (by linarith)
    have hb : |run1 rnd n * Fl.fac1 rnd ((n + 1 : ℕ) : ℤ)| ≤ 2 ^ 1023 := by
      rw [abs_of_pos hpos]; exact le_trans hle (le_trans i3 b1)
    rw [run1_succ]
    refine ⟨hr.double _ hb, rnd_ge_tiny hr hb ?_, le_trans (rnd_le_double hr hb i1 hle) i3⟩
    nlinarith

theorem run1_anti (hr : IsRounding rnd) (n : ℕ) (h1 : 1000 ≤ n) (h2 : n ≤ 2000) : run1 rnd n ≤ run1 rnd 1000 := by
  induction n with
  | zero => omega
  | succ n ih =>
    by_cases h : n + 1 = 1000
    · rw [h]
    · refine le_trans ?_ (ih (by omega) (by omega))
      obtain ⟨i1, i2, i3⟩ := run1_inv hr n (by omega)
      obtain ⟨g1, g2⟩ := fac1_gt hr (t := n) (by omega)
      have hp : 0 < run1 rnd n := lt_of_lt_of_le tiny_pos i2
      have hle : run1 rnd n * Fl.fac1 rnd ((n + 1 : ℕ) : ℤ) ≤ run1 rnd n := mul_le_of_le_one_right hp.le g2
      rw [run1_succ]
      refine rnd_le_double hr ?_ i1 hle
      rw [abs_of_pos (mul_pos hp (by linarith))]
      exact le_trans hle (le_trans i3 (one_le_pow₀ (by norm_num)))

/-- The exact value after the first loop is small. -/
theorem prod_f1_pow (n : ℕ) : (∏ t ∈ Finset.range n, f1 t) ^ 4 ≤ (1 / 16) ^ n * (2 * n + 1) := by
  induction n with
  | zero => simp
  | succ n ih =>
    rw [Finset.prod_range_succ, mul_pow]
    have n0 : (0 : ℝ) ≤ n := by positivity
    have e : f1 n ^ 4 = ((2 * ((n : ℝ) + 1) + 1) / (8 * ((n : ℝ) + 1))) ^ 2 := by
      rw [show f1 n ^ 4 = (f1 n ^ 2) ^ 2 by ring]
      unfold f1
      rw [Real.sq_sqrt (by positivity)]
    have k : (2 * (n : ℝ) + 1) * f1 n ^ 4 ≤ (1 / 16) * (2 * ((n : ℝ) + 1) + 1) := by
      rw [e, div_pow, mul_div_assoc', div_le_iff₀ (by positivity)]
      nlinarith [mul_nonneg n0 n0]
    calc (∏ t ∈ Finset.range n, f1 t) ^ 4 * f1 n ^ 4 ≤ (1 / 16) ^ n * (2 * n + 1) * f1 n ^ 4 :=
          mul_le_mul_of_nonneg_right ih (by positivity)
      _ = (1 / 16) ^ n * ((2 * n + 1) * f1 n ^ 4) := by ring
      _ ≤ (1 / 16) ^ n * ((1 / 16) * (2 * ((n : ℝ) + 1) + 1)) := mul_le_mul_of_nonneg_left k (by positivity)
      _ = (1 / 16) ^ (n + 1) * (2 * ((n + 1 : ℕ) : ℝ) + 1) := by rw [pow_succ]; push_cast; ring

theorem start_le (n : ℕ) (hn : n ≤ 2000) : 1 / Real.sqrt (4 * Real.pi) * ∏ t ∈ Finset.range n, f1 t ≤ 4 * (1 / 2) ^ n := by
  have h := prod_f1_pow n
  have p0 : 0 ≤ ∏ t ∈ Finset.range n, f1 t := Finset.prod_nonneg fun t _ => Real.sqrt_nonneg _
  have hn' : (n : ℝ) ≤ 2000 := by exact_mod_cast hn
  have h8 : ∏ t ∈ Finset.range n, f1 t ≤ 8 * (1 / 2) ^ n := by
    refine le_of_pow_le_pow_left₀ (n := 4) (by norm_num) (by positivity) (le_trans h ?_)
    rw [mul_pow, ← pow_mul, mul_comm n 4, pow_mul]
    have h16 : (0 : ℝ) ≤ (1 / 16) ^ n := by positivity
    rw [show ((1 : ℝ) / 2) ^ 4 = 1 / 16 by norm_num, mul_comm]
    exact mul_le_mul_of_nonneg_right (by linarith) h16
  obtain ⟨a1, a2⟩ := a_bounds
  have q : (0 : ℝ) ≤ (1 / 2) ^ n := by positivity
  calc 1 / Real.sqrt (4 * Real.pi) * ∏ t ∈ Finset.range n, f1 t ≤ 1 / 3 * (8 * (1 / 2) ^ n) := mul_le_mul a2 h8 p0 (by norm_num)
    _ ≤ 4 * (1 / 2) ^ n := by linarith

/-- An upper bound that is far from overflow for everything that follows. -/
noncomputable def T : ℝ := 2 ^ (-997 : ℤ)

theorem run1_le (hr : IsRounding rnd) (n : ℕ) (h1 : 1000 ≤ n) (h2 : n ≤ 2000) : run1 rnd n ≤ T := by
  refine le_trans (run1_anti hr n h1 h2) ?_
  have h := (loop1_near hr 1000 le_rfl).bounds (by norm_num)
  refine le_trans h.2 ?_
  have := start_le 1000 (by norm_num)
  refine le_trans (mul_le_mul_of_nonneg_left this zero_le_two) (le_of_eq ?_)
  unfold T
  rw [one_div_pow, show (-997 : ℤ) = 3 - 1000 by norm_num, zpow_sub₀ (by norm_num), show (1000 : ℤ) = ((1000 : ℕ) : ℤ) by norm_num, zpow_natCast]
  ring

/-- The running product of the second loop. -/
noncomputable def run2 (rnd : ℝ → ℝ) (n : ℕ) (o : ℝ) (i : ℕ) : ℝ :=
  (List.range i).foldl (fun o t => rnd (o * Fl.fac2 rnd n ((n : ℤ) - 1 - (t : ℕ)))) o

theorem run2_succ (n : ℕ) (o : ℝ) (i : ℕ) : run2 rnd n o (i + 1) = rnd (run2 rnd n o i * Fl.fac2 rnd n ((n : ℤ) - 1 - (i : ℕ))) := by
  unfold run2
  rw [List.range_succ, List.foldl_append]; rfl

theorem f2_ge {n i : ℕ} (h : i < n) : 1 ≤ f2 n i := by
  have : (i : ℝ) + 1 ≤ n := by exact_mod_cast h
  apply Real.le_sqrt_of_sq_le
  rw [one_pow, le_div_iff₀ (by positivity)]; linarith

theorem prod_ge_ten (n i : ℕ) (hn : 1079 ≤ n) (hi : i ≤ 20) : (10 : ℝ) ^ i ≤ ∏ t ∈ Finset.range i, f2 n t := by
  have : (10 : ℝ) ^ i = ∏ t ∈ Finset.range i, (10 : ℝ) := by simp
  rw [this]
  refine Finset.prod_le_prod (fun _ _ => by norm_num) fun t ht => ?_
  rw [Finset.mem_range] at ht
  have h1 : (t : ℝ) + 1 ≤ 20 := by exact_mod_cast (show t + 1 ≤ 20 by omega)
  have h2 : (1079 : ℝ) ≤ n := by exact_mod_cast hn
  apply Real.le_sqrt_of_sq_le
  rw [le_div_iff₀ (by positivity)]; linarith

theorem small_mul {x : ℝ} (h0 : 0 ≤ x) {i n : ℕ} (h : x ≤ T * 4 ^ i * 2 ^ n) (hb : 2 * i + n ≤ 2019) : x ≤ (2 : ℝ) ^ (1022 : ℤ) ∧ |x| ≤ 2 ^ 1023 := by
  have e : T * 4 ^ i * 2 ^ n = (2 : ℝ) ^ (2 * (i : ℤ) + n - 997) := by
    unfold T
    rw [show (4 : ℝ) = 2 ^ 2 by norm_num, ← pow_mul, ← zpow_natCast, ← zpow_natCast, ← zpow_add₀ (by norm_num), ← zpow_add₀ (by norm_num)]
    congr 1; push_cast; ring
  rw [e] at h
  have h1 : x ≤ (2 : ℝ) ^ (1022 : ℤ) := le_trans h (zpow_le_zpow_right₀ (by norm_num) (by omega))
  refine ⟨h1, ?_⟩
  rw [abs_of_nonneg h0]
  refine le_trans h1 ?_
  rw [← zpow_natCast]
  exact zpow_le_zpow_right₀ (by norm_num) (by norm_num)

theorem T_pos : 0 < T := by unfold T; positivity

/-- What one pass can lose. -/
theorem first_key (i : ℕ) (hi : i + 1 ≤ 20) {Q : ℝ} (hten : (10 : ℝ) ^ (i + 1) ≤ Q) :
    (1 + ((1 : ℝ) / 2) ^ (i + 1)) / 2 * Q ≤ (1 - uu) ^ 3 * ((1 + (1 / 2) ^ i) / 2) * Q - 1 / 2 := by
  have u0 := uu_pos
  have k3 : 1 - 3 * uu ≤ (1 - uu) ^ 3 := by have := pow_lower 3; push_cast at this; linarith
  have c0 : (0 : ℝ) < (1 / 2) ^ i := by positivity
  have c1 : ((1 : ℝ) / 2) ^ i ≤ 1 := pow_le_one₀ (by norm_num) (by norm_num)
  have hten' : 10 * (10 : ℝ) ^ i ≤ Q := by rw [pow_succ] at hten; linarith
  have hQ : 0 ≤ Q := le_trans (by positivity) hten'
  have hu : 3 * uu ≤ 1 / 10 * (1 / 2) ^ i := by
    have : ((1 : ℝ) / 2) ^ 20 ≤ (1 / 2) ^ i := pow_le_pow_of_le_one (by norm_num) (by norm_num) (by omega)
    have hu' : 3 * uu ≤ 1 / 10 * (1 / 2) ^ 20 := by unfold uu; norm_num
    linarith
  have hone : (1 : ℝ) ≤ (1 / 2) ^ i * 10 ^ i := by rw [← mul_pow]; exact one_le_pow₀ (by norm_num)
  have a3 : ((1 : ℝ) / 2) ^ (i + 1) = (1 / 2) ^ i / 2 := by rw [pow_succ]; ring
  rw [a3]
  set d : ℝ := (1 / 2) ^ i with hd
  have hinv : (1 : ℝ) ≤ d / 10 * Q := by
    have := mul_le_mul_of_nonneg_left hten' c0.le
    linarith
  have a1 : (1 - 3 * uu) * ((1 + d) / 2) ≤ (1 - uu) ^ 3 * ((1 + d) / 2) := mul_le_mul_of_nonneg_right k3 (by linarith)
  have a2 : (1 + d) / 2 - 3 * uu ≤ (1 - 3 * uu) * ((1 + d) / 2) := by nlinarith
  have a4 : (1 + d / 2) / 2 + 1 / 10 * d ≤ (1 - uu) ^ 3 * ((1 + d) / 2) := by linarith
  have a5 := mul_le_mul_of_nonneg_right a4 hQ
  rw [add_mul] at a5
  linarith

/-- The first twenty passes, in which the running product may still be subnormal. -/
theorem run2_first (hr : IsRounding rnd) (n : ℕ) (hn : 1079 ≤ n) (hn' : n ≤ 1900) (o : ℝ) (ho : tiny ≤ o) (ho' : o ≤ T) (i : ℕ) (hi : i ≤ 20) :
    (1 + (1 / 2) ^ i) / 2 * tiny * (∏ t ∈ Finset.range i, f2 n t) ≤ run2 rnd n o i ∧
      run2 rnd n o i ≤ T * 4 ^ i * ∏ t ∈ Finset.range i, f2 n t := by
  have t0 := tiny_pos
  have u0 := uu_pos
  induction i with
  | zero =>
    change _ ≤ o ∧ o ≤ _
    constructor
    · simpa using ho
    · simpa using ho'
  | succ i ih =>
    obtain ⟨i1, i2⟩ := ih (by omega)
    have hg := fac2_near hr (n := n) (t := i) (by omega) (by omega)
    obtain ⟨g1, g2⟩ := hg.bounds (by norm_num)
    set g := Fl.fac2 rnd n ((n : ℤ) - 1 - (i : ℕ)) with hgd
    have hP0 : 1 ≤ ∏ t ∈ Finset.range i, f2 n t := (prod_f2_bounds n i (by omega)).1
    have hP1 := prod_f2_bounds n (i + 1) (by omega)
    have hten := prod_ge_ten n (i + 1) hn hi
    rw [run2_succ, ← hgd]
    rw [Finset.prod_range_succ] at hP1 hten ⊢
    set P := ∏ t ∈ Finset.range i, f2 n t with hPd
    have hf := f2_ge (n := n) (i := i) (by omega)
    set f := f2 n i with hfd
    set w := run2 rnd n o i with hwd
    have c0 : (0 : ℝ) < (1 / 2) ^ i := by positivity
    have c1 : ((1 : ℝ) / 2) ^ i ≤ 1 := pow_le_one₀ (by norm_num) (by norm_num)
    have w0 : 0 < w := lt_of_lt_of_le (mul_pos (mul_pos (by linarith) t0) (by linarith)) i1
    have gp : 0 < g := by linarith
    have hx0 : 0 ≤ w * g := (mul_pos w0 gp).le
    have hxu : w * g ≤ 2 * (T * 4 ^ i * (P * f)) := by
      calc w * g ≤ (T * 4 ^ i * P) * (2 * f) := mul_le_mul i2 g2 gp.le (le_trans w0.le i2)
        _ = 2 * (T * 4 ^ i * (P * f)) := by ring
    have hT4 : 0 ≤ T * 4 ^ i := mul_nonneg T_pos.le (by positivity)
    have hxs : w * g ≤ T * 4 ^ (i + 1) * 2 ^ n := by
      calc w * g ≤ 2 * (T * 4 ^ i * (P * f)) := hxu
        _ ≤ 2 * (T * 4 ^ i * 2 ^ n) := mul_le_mul_of_nonneg_left (mul_le_mul_of_nonneg_left hP1.2 hT4) zero_le_two
        _ ≤ 4 * (T * 4 ^ i * 2 ^ n) := mul_le_mul_of_nonneg_right (by norm_num) (mul_nonneg hT4 (by positivity))
        _ = T * 4 ^ (i + 1) * 2 ^ n := by ring
    obtain ⟨b1, b2⟩ := small_mul hx0 hxs (by omega)
    constructor
    · have hl := rnd_lower hr hx0 b1
      refine le_trans ?_ hl
      have hgl : (1 - uu) ^ 2 * f ≤ g := hg.2.1
      have hwg : (1 - uu) ^ 2 * ((1 + (1 / 2) ^ i) / 2 * tiny * (P * f)) ≤ w * g := by
        calc (1 - uu) ^ 2 * ((1 + (1 / 2) ^ i) / 2 * tiny * (P * f)) = ((1 + (1 / 2) ^ i) / 2 * tiny * P) * ((1 - uu) ^ 2 * f) := by ring
          _ ≤ w * g := mul_le_mul i1 hgl (mul_nonneg (sq_nonneg _) (by linarith)) w0.le
      have h3 : (1 - uu) * ((1 - uu) ^ 2 * ((1 + (1 / 2) ^ i) / 2 * tiny * (P * f))) ≤ (1 - uu) * (w * g) :=
        mul_le_mul_of_nonneg_left hwg omu_pos.le
      refine le_trans ?_ (sub_le_sub_right h3 _)
      have hPf : 0 < P * f := by nlinarith
      have key := first_key i hi hten
      have := mul_le_mul_of_nonneg_left key t0.le
      calc (1 + ((1 : ℝ) / 2) ^ (i + 1)) / 2 * tiny * (P * f) = tiny * ((1 + (1 / 2) ^ (i + 1)) / 2 * (P * f)) := by ring
        _ ≤ tiny * ((1 - uu) ^ 3 * ((1 + (1 / 2) ^ i) / 2) * (P * f) - 1 / 2) := this
        _ = (1 - uu) * ((1 - uu) ^ 2 * ((1 + (1 / 2) ^ i) / 2 * tiny * (P * f))) - tiny / 2 := by ring
    · have := rnd_le hr b2
      rw [abs_of_nonneg hx0] at this
      refine le_trans (le_abs_self _) (le_trans this ?_)
      calc 2 * (w * g) ≤ 2 * (2 * (T * 4 ^ i * (P * f))) := mul_le_mul_of_nonneg_left hxu zero_le_two
        _ = T * 4 ^ (i + 1) * (P * f) := by ring

/-- All passes. -/
theorem run2_all (hr : IsRounding rnd) (n : ℕ) (hn : 1079 ≤ n) (hn' : n ≤ 1900) (o : ℝ) (ho : tiny ≤ o) (ho' : o ≤ T) (N : ℕ) (hN : N ≤ n) :
    tiny / 4 * (∏ t ∈ Finset.range N, f2 n t) ≤ run2 rnd n o N := by
  have t0 := tiny_pos
  by_cases h20 : N ≤ 20
  · refine le_trans ?_ (run2_first hr n hn hn' o ho ho' N h20).1
    have := (prod_f2_bounds n N hN).1
    have c0 : (0 : ℝ) < (1 / 2) ^ N := by positivity
    refine mul_le_mul_of_nonneg_right ?_ (by linarith)
    nlinarith
  · obtain ⟨M, rfl⟩ : ∃ M, N = 20 + M := ⟨N - 20, by omega⟩
    obtain ⟨l1, l2⟩ := run2_first hr n hn hn' o ho ho' 20 le_rfl
    have hten := prod_ge_ten n 20 hn le_rfl
    set P := ∏ t ∈ Finset.range 20, f2 n t with hP
    set w := run2 rnd n o 20 with hw
    have e : run2 rnd n o (20 + M) = (List.range M).foldl (fun o t => rnd (o * Fl.fac2 rnd n ((n : ℤ) - 1 - ((20 + t : ℕ) : ℕ)))) w := by
      rw [hw]
      unfold run2
      rw [List.range_add, List.foldl_append, List.foldl_map]
    have P0 : 0 < P := lt_of_lt_of_le (by positivity) hten
    have wlow : tiny / 2 * P ≤ w := by
      refine le_trans ?_ l1
      refine mul_le_mul_of_nonneg_right ?_ P0.le
      have : (0 : ℝ) < (1 / 2) ^ 20 := by positivity
      nlinarith
    have w0 : 0 < w := lt_of_lt_of_le (mul_pos (by linarith) P0) wlow
    have hsplit : ∀ i, ∏ t ∈ Finset.range (20 + i), f2 n t = P * ∏ t ∈ Finset.range i, f2 n (20 + t) := fun i => Finset.prod_range_add _ _ _
    have h1 : ∀ i ≤ M, 1 ≤ ∏ t ∈ Finset.range i, f2 n (20 + t) := fun i hi => by
      calc (1 : ℝ) = ∏ t ∈ Finset.range i, (1 : ℝ) := by simp
        _ ≤ _ := Finset.prod_le_prod (fun _ _ => by norm_num) fun t ht => f2_ge (by rw [Finset.mem_range] at ht; omega)
    have h := near_fold hr M (fun t => f2 n (20 + t)) (fun t => Fl.fac2 rnd n ((n : ℤ) - 1 - ((20 + t : ℕ) : ℕ))) w w 0 (near_refl w0)
      (fun t ht => fac2_near hr (by omega) (by omega)) (fun i hi => by
        constructor
        · refine le_trans (le_trans ?_ wlow) (le_mul_of_one_le_right w0.le (h1 i hi))
          refine le_trans ?_ (mul_le_mul_of_nonneg_left hten (by linarith))
          have e1 : (2 : ℝ) ^ (54 : ℤ) ≤ 10 ^ 20 := by norm_num
          refine le_trans (le_of_eq ?_) (mul_le_mul_of_nonneg_left e1 (by linarith))
          unfold Blo tiny
          rw [div_eq_mul_inv, ← zpow_sub_one₀ (by norm_num), ← zpow_add₀ (by norm_num)]; norm_num
        · calc w * ∏ t ∈ Finset.range i, f2 n (20 + t) ≤ (T * 4 ^ 20 * P) * ∏ t ∈ Finset.range i, f2 n (20 + t) :=
                mul_le_mul_of_nonneg_right l2 (le_trans zero_le_one (h1 i hi))
            _ = T * 4 ^ 20 * ∏ t ∈ Finset.range (20 + i), f2 n t := by rw [hsplit]; ring
            _ ≤ T * 4 ^ 20 * 2 ^ n := mul_le_mul_of_nonneg_left (prod_f2_bounds n (20 + i) (by omega)).2 (mul_nonneg T_pos.le (by positivity))
            _ = (2 : ℝ) ^ (2 * 20 + (n : ℤ) - 997) := by
                unfold T
                rw [show (4 : ℝ) = 2 ^ 2 by norm_num, ← pow_mul, ← zpow_natCast, ← zpow_natCast, ← zpow_add₀ (by norm_num), ← zpow_add₀ (by norm_num)]
                congr 1; push_cast; ring
            _ ≤ Bhi := zpow_le_zpow_right₀ (by norm_num) (by omega)) (by omega)
    rw [← e] at h
    have hb := (h.bounds (by omega)).1
    refine le_trans ?_ hb
    rw [hsplit]
    have hM := h1 M le_rfl
    have := mul_le_mul_of_nonneg_right wlow (le_trans zero_le_one hM)
    linarith

/-- C86, failure at high degree: from degree 1079 to 1900 the value both backends use is too large by a factor of at least `2^(n-1078)`, for every
order `m`: the first loop gets stuck at the smallest double. -/
theorem c86_counterexample (hr : IsRounding rnd) (n : ℕ) (m : ℤ) (hm : |m| ≤ n) (hn : 1079 ≤ n) (hn' : n ≤ 1900) :
    0 < Verif.ynnm n m ∧ (2 : ℝ) ^ (n - 1078) * Verif.ynnm n m ≤ Fl.ynnm rnd n m := by
  have hm' : m.natAbs ≤ n := by rw [Int.abs_eq_natAbs] at hm; omega
  rw [ynnm_prod n m hm', fl_ynnm n m hm']
  change _ ∧ _ ≤ run2 rnd n (run1 rnd n) (n - m.natAbs)
  have h := run2_all hr n hn hn' (run1 rnd n) (run1_inv hr n (by omega)).2.1 (run1_le hr n (by omega) (by omega)) (n - m.natAbs) (by omega)
  have h1 := (prod_f2_bounds n (n - m.natAbs) (by omega)).1
  have hs := start_le n (by omega)
  obtain ⟨a1, _⟩ := a_bounds
  have hp : 0 < ∏ t ∈ Finset.range n, f1 t := lt_of_lt_of_le (by positivity) (prod_f1_bounds n).1
  refine ⟨mul_pos (mul_pos (by linarith) hp) (by linarith), le_trans ?_ h⟩
  rw [← mul_assoc]
  refine mul_le_mul_of_nonneg_right ?_ (by linarith)
  refine le_trans (mul_le_mul_of_nonneg_left hs (by positivity)) (le_of_eq ?_)
  unfold tiny
  rw [one_div_pow, ← zpow_natCast, ← zpow_natCast, Nat.cast_sub (by omega), zpow_sub₀ (by norm_num)]
  have e : (2 : ℝ) ^ (-1074 : ℤ) = 16 / 2 ^ (((1078 : ℕ)) : ℤ) := by
    rw [show (16 : ℝ) = 2 ^ (4 : ℤ) by norm_num, ← zpow_sub₀ (by norm_num)]; norm_num
  rw [e]
  have : (2 : ℝ) ^ (n : ℤ) ≠ 0 := by positivity
  field_simp
  norm_num

theorem forM'_ok {σ ι : Type} (P : σ → Prop) (f : σ → ι → Res σ) (xs : List ι) (s : σ) (hP : P s)
    (h : ∀ x ∈ xs, ∀ s, P s → ∃ s', f s x = .ok s' ∧ P s') : ∃ s', forM' xs s f = .ok s' ∧ P s' := by
  induction xs generalizing s with
  | nil => exact ⟨s, rfl, hP⟩
  | cons x xs ih =>
    obtain ⟨s', e, hs'⟩ := h x (by simp) s hP
    obtain ⟨s'', e', h''⟩ := ih s' hs' fun y hy => h y (by simp [hy])
    refine ⟨s'', ?_, h''⟩
    unfold forM'
    rw [e]
    exact e'

/-- `ynunm` returns an array of the requested length whose entry `n` is `ynnm(n, m)`. -/
theorem ynunm_top (n : ℕ) (m : ℤ) (L : ℕ) (hm : |m| ≤ n) (hL : n < L) :
    ∃ out, Fl.ynunm rnd n m L = .ok out ∧ out.length = L ∧ out[n]? = some (Fl.ynnm rnd n m) := by
  unfold Fl.ynunm npFull
  rw [if_neg (by omega)]
  simp only [Except.bind_ok]
  rw [if_pos hm, setIdx_of_lt (by omega) (by simp; omega)]
  simp only [Except.bind_ok]
  set y1 := (List.replicate (L : ℤ).toNat (0 : ℝ)).set (n : ℤ).toNat (Fl.ynnm rnd n m) with hy
  have l1 : y1.length = L := by simp [y1]
  have g1 : y1[n]? = some (Fl.ynnm rnd n m) := by simp [y1, hL]
  by_cases hk : (n : ℤ) - 2 ≥ 0
  · rw [if_pos hk, getIdx_of_lt (by omega) (by omega)]
    simp only [Except.bind_ok]
    rw [setIdx_of_lt (by omega) (by omega)]
    simp only [Except.bind_ok]
    have := forM'_ok (fun y : List ℝ => y.length = L ∧ y[n]? = some (Fl.ynnm rnd n m)) (Fl.ynunmStep rnd n m) (pyRangeNeg ((n : ℤ) - 4) (-1) 2)
      (y1.set ((n : ℤ) - 2).toNat (rnd (rnd (rnd (Fl.tmp rnd n (n - 2) 1 2 + Fl.tmp2 rnd n m (n - 2)) *
        y1[((n : ℤ) - 2 + 2).toNat]'(by omega)) / Fl.tmp4 rnd n (n - 2)))) ⟨by rw [List.length_set, l1], by
          rw [List.getElem?_set_ne (by omega), g1]⟩ (by
      intro k hk' y ⟨hy1, hy2⟩
      have hkr : 0 ≤ k ∧ k ≤ (n : Int) - 4 := by
        unfold pyRangeNeg at hk'
        simp only [List.mem_map, List.mem_range] at hk'
        obtain ⟨j, hj, rfl⟩ := hk'
        omega
      unfold Fl.ynunmStep
      rw [getIdx_of_lt (by omega) (by omega), getIdx_of_lt (by omega) (by omega)]
      simp only [Except.bind_ok]
      rw [setIdx_of_lt (by omega) (by omega)]
      refine ⟨_, rfl, by rw [List.length_set, hy1], ?_⟩
      rw [List.getElem?_set_ne (by omega), hy2])
    obtain ⟨out, e, h1, h2⟩ := this
    exact ⟨out, e, h1, h2⟩
  · rw [if_neg hk]
    exact ⟨y1, rfl, l1, g1⟩

theorem exact_top (n : ℕ) (m : ℤ) (L : ℕ) (hm : |m| ≤ n) (hL : n < L) :
    ∃ out, Verif.ynunm n m L = .ok out ∧ out.length = L ∧ out[n]? = some (Verif.ynnm n m) := by
  have hm' : m.natAbs ≤ n := by rw [Int.abs_eq_natAbs] at hm; omega
  obtain ⟨y, e, hl, h⟩ := ynunm_spec n m L hm' hL
  refine ⟨y, e, hl, ?_⟩
  have h1 := h n
  rw [ycoef_lead n m hm'] at h1
  have h2 := Complex.ofReal_inj.mp h1
  rw [← h2, List.getElem?_eq_getElem (by omega)]
  simp [hl, hL]

/-- C86, what a caller of `ynunm` sees: the entry of degree `n` is accurate up to degree 1000 and too large by a factor of at least `2^(n-1078)` from
degree 1079 to 1900. -/
theorem c86_table (hr : IsRounding rnd) (n : ℕ) (m : ℤ) (L : ℕ) (hm : |m| ≤ n) (hL : n < L) :
    ∃ out exact, Fl.ynunm rnd n m L = .ok out ∧ Verif.ynunm n m L = .ok exact ∧ out.length = L ∧ ∃ x y, out[n]? = some x ∧ exact[n]? = some y ∧ 0 < y ∧
      (n ≤ 1000 → |x - y| ≤ (6 * n + 5) * 2 ^ (-52 : ℤ) * y) ∧ (1079 ≤ n → n ≤ 1900 → 2 ^ (n - 1078) * y ≤ x) := by
  obtain ⟨out, e, h1, h2⟩ := ynunm_top (rnd := rnd) n m L hm hL
  obtain ⟨ex, e', h3, h4⟩ := exact_top n m L hm hL
  refine ⟨out, ex, e, e', h1, _, _, h2, h4, ?_, fun h => c86_accurate_partial hr n m hm h, fun h h' => (c86_counterexample hr n m hm h h').2⟩
  have hm' : m.natAbs ≤ n := by rw [Int.abs_eq_natAbs] at hm; omega
  rw [ynnm_prod n m hm']
  have hp : 0 < ∏ t ∈ Finset.range n, f1 t := lt_of_lt_of_le (by positivity) (prod_f1_bounds n).1
  have h1 := (prod_f2_bounds n (n - m.natAbs) (by omega)).1
  exact mul_pos (mul_pos (by linarith [a_bounds.1]) hp) (by linarith)

/-- Not vacuous. -/
example : ∃ rnd : ℝ → ℝ, IsRounding rnd ∧ |Fl.ynnm rnd 100 7 - Verif.ynnm 100 7| ≤ 605 * 2 ^ (-52 : ℤ) * Verif.ynnm 100 7 ∧
    2 ^ 22 * Verif.ynnm 1100 0 ≤ Fl.ynnm rnd 1100 0 := by
  obtain ⟨rnd, hr⟩ := isRounding_exists
  refine ⟨rnd, hr, ?_, (c86_counterexample hr 1100 0 (by norm_num) (by norm_num) (by norm_num)).2⟩
  have := c86_accurate_partial hr 100 7 (by norm_num) (by norm_num)
  norm_num at this ⊢
  exact this

end Verif.Props
