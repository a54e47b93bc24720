import Verif.Props.FloatTable
/-!
# Property C86, continued: how the accuracy of `ynnm` is lost from degree 1001 on
-/
namespace Verif.Props
open Verif
variable {rnd : ℝ → ℝ}

/-- What the rounding of subnormal numbers can contribute to a running product with factors `f`, in units of the smallest double. -/
noncomputable def lost (E : ℝ) (f : ℕ → ℝ) : ℕ → ℝ
  | 0 => E
  | i + 1 => lost E f i * f i + 1 / 2

theorem lost_nonneg {E : ℝ} (hE : 0 ≤ E) {f : ℕ → ℝ} {N : ℕ} (hf : ∀ i < N, 0 ≤ f i) (i : ℕ) (hi : i ≤ N) : 0 ≤ lost E f i := by
  induction i with
  | zero => exact hE
  | succ i ih =>
    have := mul_nonneg (ih (by omega)) (hf i (by omega))
    unfold lost
    linarith

/-- A running product of rounded factors, subnormal numbers included. -/
theorem loose_fold (hr : IsRounding rnd) (N : ℕ) (f g : ℕ → ℝ) (o O E : ℝ) (j : ℕ) (hO : 0 < O) (hE : 0 ≤ E) (ho : 0 ≤ o)
    (h1 : (1 - uu) ^ j * O - E * tiny ≤ o) (h2 : o ≤ (1 + uu) ^ j * (O + E * tiny)) (hg : ∀ i < N, Near 2 (g i) (f i))
    (hb : ∀ i < N, O * (∏ t ∈ Finset.range i, f t) + lost E f i * tiny ≤ 2 ^ 1000) (hf : ∀ i < N, f i ≤ 2 ^ 10)
    (hN : j + 3 * N ≤ 2 ^ 20) (i : ℕ) (hi : i ≤ N) :
    0 ≤ (List.range i).foldl (fun o i => rnd (o * g i)) o ∧
    (1 - uu) ^ (j + 3 * i) * (O * ∏ t ∈ Finset.range i, f t) - lost E f i * tiny ≤ (List.range i).foldl (fun o i => rnd (o * g i)) o ∧
      (List.range i).foldl (fun o i => rnd (o * g i)) o ≤ (1 + uu) ^ (j + 3 * i) * (O * (∏ t ∈ Finset.range i, f t) + lost E f i * tiny) := by
  have t0 := tiny_pos
  have f0 : ∀ i < N, 0 < f i := fun i hi => (hg i hi).1
  induction i with
  | zero => exact ⟨by simpa using ho, by simpa [lost] using h1, by simpa [lost] using h2⟩
  | succ i ih =>
    obtain ⟨i0, i1, i2⟩ := ih (by omega)
    have hgi := hg i (by omega)
    have hbi := hb i (by omega)
    have hfi := hf i (by omega)
    have hl := lost_nonneg hE (fun i hi => (f0 i hi).le) i (by omega : i ≤ N)
    have hP : 0 < O * ∏ t ∈ Finset.range i, f t := mul_pos hO (Finset.prod_pos fun t ht => f0 t (by rw [Finset.mem_range] at ht; omega))
    rw [List.range_succ, List.foldl_append, Finset.prod_range_succ, ← mul_assoc O]
    set w := (List.range i).foldl (fun o i => rnd (o * g i)) o with hw
    set X := O * ∏ t ∈ Finset.range i, f t with hX
    set L := lost E f i with hL
    have eL : lost E f (i + 1) = L * f i + 1 / 2 := rfl
    rw [eL]
    change 0 ≤ rnd (w * g i) ∧ _ ≤ rnd (w * g i) ∧ rnd (w * g i) ≤ _
    have gp := hgi.pos
    have fp := f0 i (by omega)
    obtain ⟨p1, p2⟩ := near_pow_bounds (j := j + 3 * i) (by omega)
    obtain ⟨b1, b2⟩ := hgi.bounds (by norm_num)
    have x0 : 0 ≤ w * g i := mul_nonneg i0 gp.le
    have xb : w * g i ≤ 2 ^ (1022 : ℤ) := by
      have hXL : 0 ≤ X + L * tiny := add_nonneg hP.le (mul_nonneg hl t0.le)
      have : w ≤ 2 * 2 ^ 1000 := le_trans i2 (mul_le_mul p2 hbi hXL (by norm_num))
      have h3 : w * g i ≤ (2 * 2 ^ 1000) * (2 * 2 ^ 10) := mul_le_mul this (by linarith) gp.le (by positivity)
      refine le_trans h3 ?_
      rw [show ((2 : ℝ) * 2 ^ 1000) * (2 * 2 ^ 10) = 2 ^ 1012 by rw [← pow_succ', ← pow_succ', ← pow_add], ← zpow_natCast]
      exact zpow_le_zpow_right₀ (by norm_num) (by norm_num)
    have he := rnd_err hr (x := w * g i) (by rw [abs_of_nonneg x0]; exact xb)
    rw [abs_of_nonneg x0] at he
    obtain ⟨e1, e2⟩ := abs_le.mp he
    have u0 := uu_pos
    have u1 := omu_pos
    have rn : 0 ≤ rnd (w * g i) := by
      refine rnd_ge_double hr ?_ ⟨0, 0, by norm_num, by norm_num, by norm_num, by norm_num⟩ x0
      rw [abs_of_nonneg x0]
      refine le_trans xb ?_
      rw [← zpow_natCast]; exact zpow_le_zpow_right₀ (by norm_num) (by norm_num)
    refine ⟨rn, ?_, ?_⟩
    · have h3 : (1 - uu) * (w * g i) - tiny / 2 ≤ rnd (w * g i) := by linarith
      have h4 : (1 - uu) ^ 3 * (w * f i) ≤ (1 - uu) * (w * g i) := by
        have := mul_le_mul_of_nonneg_left hgi.2.1 (mul_nonneg u1.le i0)
        calc (1 - uu) ^ 3 * (w * f i) = (1 - uu) * w * ((1 - uu) ^ 2 * f i) := by ring
          _ ≤ (1 - uu) * w * g i := this
          _ = _ := by ring
      have h5 : (1 - uu) ^ 3 * (((1 - uu) ^ (j + 3 * i) * X - L * tiny) * f i) ≤ (1 - uu) ^ 3 * (w * f i) :=
        mul_le_mul_of_nonneg_left (mul_le_mul_of_nonneg_right i1 fp.le) (by positivity)
      have h6 : (1 - uu) ^ 3 * (L * tiny * f i) ≤ L * tiny * f i :=
        mul_le_of_le_one_left (mul_nonneg (mul_nonneg hl t0.le) fp.le) (pow_le_one₀ u1.le (by linarith))
      have h7 : (1 - uu) ^ (j + 3 * (i + 1)) * (X * f i) = (1 - uu) ^ 3 * ((1 - uu) ^ (j + 3 * i) * X * f i) := by
        rw [show j + 3 * (i + 1) = 3 + (j + 3 * i) by ring, pow_add (1 - uu)]; ring
      rw [h7]
      refine le_trans ?_ h3
      refine le_trans ?_ (sub_le_sub_right (le_trans h5 h4) _)
      rw [sub_mul, mul_sub]
      linarith
    · have h3 : rnd (w * g i) ≤ (1 + uu) * (w * g i) + tiny / 2 := by linarith
      have h4 : (1 + uu) * (w * g i) ≤ (1 + uu) ^ 3 * (w * f i) := by
        have := mul_le_mul_of_nonneg_left hgi.2.2 (mul_nonneg opu_pos.le i0)
        calc (1 + uu) * (w * g i) = (1 + uu) * w * g i := by ring
          _ ≤ (1 + uu) * w * ((1 + uu) ^ 2 * f i) := this
          _ = _ := by ring
      have h5 : (1 + uu) ^ 3 * (w * f i) ≤ (1 + uu) ^ 3 * ((1 + uu) ^ (j + 3 * i) * (X + L * tiny) * f i) :=
        mul_le_mul_of_nonneg_left (mul_le_mul_of_nonneg_right i2 fp.le) (by positivity)
      have h6 : tiny / 2 ≤ (1 + uu) ^ (j + 3 * (i + 1)) * (tiny / 2) :=
        le_mul_of_one_le_left (by linarith) (one_le_pow₀ (by linarith))
      have h7 : (1 + uu) ^ (j + 3 * (i + 1)) * ((X + L * tiny) * f i) = (1 + uu) ^ 3 * ((1 + uu) ^ (j + 3 * i) * (X + L * tiny) * f i) := by
        rw [show j + 3 * (i + 1) = 3 + (j + 3 * i) by ring, pow_add (1 + uu)]; ring
      refine le_trans h3 ?_
      refine le_trans (add_le_add (le_trans h4 h5) h6) (le_of_eq ?_)
      rw [← h7]; ring

theorem f1_le (t : ℕ) : f1 t ≤ 2 / 3 := by
  have t0 : (0 : ℝ) ≤ t := by positivity
  apply Real.sqrt_le_iff.mpr
  refine ⟨by norm_num, ?_⟩
  rw [div_le_iff₀ (by positivity)]; linarith

/-- In the first loop the loss stays below one and a half of the smallest double. -/
theorem lost_one (i : ℕ) : lost 0 f1 i ≤ 3 / 2 := by
  induction i with
  | zero => unfold lost; norm_num
  | succ i ih =>
    have h0 : 0 ≤ lost 0 f1 i := lost_nonneg le_rfl (N := i) (fun t _ => Real.sqrt_nonneg _) i le_rfl
    have := mul_le_mul ih (f1_le i) (Real.sqrt_nonneg _) (by norm_num)
    unfold lost
    linarith

theorem prod_two (n i : ℕ) (h2 : 2 ≤ i) (hi : i ≤ n) : (n : ℝ) ≤ ∏ t ∈ Finset.range i, f2 n t := by
  induction i, h2 using Nat.le_induction with
  | base =>
    rw [prod_f2 n 2 hi]
    apply Real.le_sqrt_of_sq_le
    have hc : ((2 * n).choose 2 : ℝ) = n * (2 * n - 1) := by
      rw [Nat.cast_choose_two]; push_cast; ring
    have : (2 : ℝ) ≤ n := by exact_mod_cast hi
    rw [hc]; nlinarith
  | succ i h ih =>
    rw [Finset.prod_range_succ]
    have h1 := ih (by omega)
    have h2 := f2_ge (n := n) (i := i) (by omega)
    have h0 : (0 : ℝ) ≤ ∏ t ∈ Finset.range i, f2 n t := le_trans (by positivity) h1
    exact le_trans h1 (le_mul_of_one_le_right h0 h2)

/-- In the second loop it grows with the product, up to one more of the smallest double in all. -/
theorem lost_two (n : ℕ) (E : ℝ) (hE : 0 ≤ E) (i : ℕ) (hi : i ≤ n) : lost E (f2 n) i ≤ (E + 1) * ∏ t ∈ Finset.range i, f2 n t := by
  have key : ∀ i, i + 1 ≤ n → lost E (f2 n) (i + 1) ≤ (E + 1 / 2 * (1 + (i : ℝ) / n)) * ∏ t ∈ Finset.range (i + 1), f2 n t := by
    intro i
    induction i with
    | zero =>
      intro h
      have h1 := f2_ge (n := n) (i := 0) (by omega)
      simp only [lost, Nat.cast_zero, zero_div, add_zero, mul_one, zero_add, Finset.prod_range_one]
      nlinarith
    | succ i ih =>
      intro h
      have h1 := ih (by omega)
      have hf := f2_ge (n := n) (i := i + 1) (by omega)
      have hp := prod_two n (i + 1 + 1) (by omega) h
      have np : (0 : ℝ) < n := by exact_mod_cast (show 0 < n by omega)
      rw [Finset.prod_range_succ] at hp ⊢
      have e : lost E (f2 n) (i + 1 + 1) = lost E (f2 n) (i + 1) * f2 n (i + 1) + 1 / 2 := rfl
      rw [e]
      set P := ∏ t ∈ Finset.range (i + 1), f2 n t
      have h2 := mul_le_mul_of_nonneg_right h1 (le_trans zero_le_one hf)
      have h3 : (1 : ℝ) ≤ 1 / n * (P * f2 n (i + 1)) := by rw [div_mul_eq_mul_div, one_mul, le_div_iff₀ np]; linarith
      have h4 : (E + 1 / 2 * (1 + ((i + 1 : ℕ) : ℝ) / n)) * (P * f2 n (i + 1)) =
          (E + 1 / 2 * (1 + (i : ℝ) / n)) * P * f2 n (i + 1) + 1 / 2 * (1 / n * (P * f2 n (i + 1))) := by push_cast; ring
      rw [h4]
      linarith
  rcases i with _ | i
  · simp [lost]
  · refine le_trans (key i hi) ?_
    have np : (0 : ℝ) < n := by exact_mod_cast (show 0 < n by omega)
    have : (i : ℝ) / n ≤ 1 := by rw [div_le_one np]; exact_mod_cast (show i ≤ n by omega)
    refine mul_le_mul_of_nonneg_right (by linarith) ?_
    exact le_trans zero_le_one (prod_f2_bounds n (i + 1) hi).1

theorem prod_f1_low (n : ℕ) : (1 / 16) ^ n * ((n : ℝ) + 1) ≤ (∏ t ∈ Finset.range n, f1 t) ^ 4 := by
  induction n with
  | zero => simp
  | succ n ih =>
    rw [Finset.prod_range_succ, mul_pow]
    have n0 : (0 : ℝ) ≤ n := by positivity
    have e : f1 n ^ 4 = ((2 * ((n : ℝ) + 1) + 1) / (8 * ((n : ℝ) + 1))) ^ 2 := by
      rw [show f1 n ^ 4 = (f1 n ^ 2) ^ 2 by ring]
      unfold f1
      rw [Real.sq_sqrt (by positivity)]
    have k : (1 / 16) * ((n : ℝ) + 1 + 1) ≤ ((n : ℝ) + 1) * f1 n ^ 4 := by
      rw [e, div_pow, mul_div_assoc', le_div_iff₀ (by positivity)]
      nlinarith [mul_nonneg n0 n0]
    calc (1 / 16) ^ (n + 1) * (((n + 1 : ℕ) : ℝ) + 1) = (1 / 16) ^ n * ((1 / 16) * ((n : ℝ) + 1 + 1)) := by rw [pow_succ]; push_cast; ring
      _ ≤ (1 / 16) ^ n * (((n : ℝ) + 1) * f1 n ^ 4) := mul_le_mul_of_nonneg_left k (by positivity)
      _ = (1 / 16) ^ n * ((n : ℝ) + 1) * f1 n ^ 4 := by ring
      _ ≤ _ := mul_le_mul_of_nonneg_right ih (by positivity)

theorem start_ge (n : ℕ) (hn : 1001 ≤ n) : 11 / 8 * (1 / 2) ^ n ≤ 1 / Real.sqrt (4 * Real.pi) * ∏ t ∈ Finset.range n, f1 t := by
  have h := prod_f1_low n
  have p0 : 0 ≤ ∏ t ∈ Finset.range n, f1 t := Finset.prod_nonneg fun t _ => Real.sqrt_nonneg _
  have hn' : (1001 : ℝ) ≤ n := by exact_mod_cast hn
  have h8 : 11 / 2 * (1 / 2) ^ n ≤ ∏ t ∈ Finset.range n, f1 t := by
    refine le_of_pow_le_pow_left₀ (n := 4) (by norm_num) p0 (le_trans ?_ h)
    rw [mul_pow, ← pow_mul, mul_comm n 4, pow_mul]
    have h16 : (0 : ℝ) ≤ (1 / 16) ^ n := by positivity
    rw [show ((1 : ℝ) / 2) ^ 4 = 1 / 16 by norm_num, mul_comm]
    refine mul_le_mul_of_nonneg_left ?_ h16
    norm_num; linarith
  obtain ⟨a1, a2⟩ := a_bounds
  have q : (0 : ℝ) ≤ (1 / 2) ^ n := by positivity
  calc 11 / 8 * (1 / 2 : ℝ) ^ n = 1 / 4 * (11 / 2 * (1 / 2) ^ n) := by ring
    _ ≤ _ := mul_le_mul a1 h8 (by positivity) (by linarith)

theorem f2_le {n i : ℕ} (hn : n ≤ 1900) (h : i < n) : f2 n i ≤ 2 ^ 10 := by
  have h1 : (n : ℝ) ≤ 1900 := by exact_mod_cast hn
  have h2 : (0 : ℝ) ≤ i := by positivity
  apply Real.sqrt_le_iff.mpr
  refine ⟨by norm_num, ?_⟩
  rw [div_le_iff₀ (by positivity)]
  norm_num
  linarith

/-- C86, from degree 1001 on: besides the relative error `(6n + 5) 2^-52` the value carries an error of at most `2^(n-1073)` of itself, from the
subnormal numbers of the first loop. -/
theorem c86_degraded (hr : IsRounding rnd) (n : ℕ) (m : ℤ) (hm : |m| ≤ n) (hn : 1001 ≤ n) (hn' : n ≤ 1900) :
    |Fl.ynnm rnd n m - Verif.ynnm n m| ≤ ((6 * n + 5) * 2 ^ (-52 : ℤ) + 2 ^ ((n : ℤ) - 1073)) * Verif.ynnm n m := by
  have hm' : m.natAbs ≤ n := by rw [Int.abs_eq_natAbs] at hm; omega
  have t0 := tiny_pos
  have tl : tiny ≤ 1 / 2 := by
    have : tiny ≤ 2 ^ (-1 : ℤ) := zpow_le_zpow_right₀ (by norm_num) (by norm_num)
    norm_num at this ⊢; exact this
  obtain ⟨a1, a2⟩ := a_bounds
  have an := a_near hr
  have big : (4 : ℝ) ≤ 2 ^ 1000 := by
    calc (4 : ℝ) = 2 ^ 2 := by norm_num
      _ ≤ 2 ^ 1000 := pow_le_pow_right₀ (by norm_num) (by norm_num)
  have L1 := loose_fold hr n f1 (fun t => Fl.fac1 rnd ((t + 1 : ℕ) : ℤ)) (Fl.a rnd) (1 / Real.sqrt (4 * Real.pi)) 0 5 (by linarith) le_rfl an.pos.le
    (by simpa using an.2.1) (by simpa using an.2.2) (fun t ht => fac1_near hr (by omega)) (fun i hi => by
      have := lost_one i
      have p := (prod_f1_bounds i).2
      have p0 : 0 ≤ ∏ t ∈ Finset.range i, f1 t := Finset.prod_nonneg fun t _ => Real.sqrt_nonneg _
      refine le_trans ?_ big
      have h1 := mul_le_mul a2 p p0 (by norm_num)
      have h2 := mul_le_mul this tl t0.le (by norm_num)
      linarith) (fun i _ => le_trans (f1_le i) (by norm_num)) (by omega) n le_rfl
  obtain ⟨s0, s1, s2⟩ := L1
  set o := (List.range n).foldl (fun o i => rnd (o * Fl.fac1 rnd ((i + 1 : ℕ) : ℤ))) (Fl.a rnd) with ho
  have hp : 0 < ∏ t ∈ Finset.range n, f1 t := lt_of_lt_of_le (by positivity) (prod_f1_bounds n).1
  have hO : 0 < 1 / Real.sqrt (4 * Real.pi) * ∏ t ∈ Finset.range n, f1 t := mul_pos (by linarith) hp
  have hlow := start_ge n hn
  have hup := start_le n (by omega)
  set O := 1 / Real.sqrt (4 * Real.pi) * ∏ t ∈ Finset.range n, f1 t with hOd
  have hE := lost_one n
  have hE0 : 0 ≤ lost 0 f1 n := lost_nonneg le_rfl (N := n) (fun t _ => Real.sqrt_nonneg _) n le_rfl
  set E := lost 0 f1 n with hEd
  have hpow : ((1 : ℝ) / 2) ^ n * 2 ^ n = 1 := by rw [← mul_pow]; norm_num
  have L2 := loose_fold hr (n - m.natAbs) (f2 n) (fun t => Fl.fac2 rnd n ((n : ℤ) - 1 - (t : ℕ))) o O E (5 + 3 * n) hO hE0 s0 s1 s2
    (fun t ht => fac2_near hr (by omega) (by omega)) (fun i hi => by
      have p := prod_f2_bounds n i (by omega)
      have l := lost_two n E hE0 i (by omega)
      have p0 : (0 : ℝ) ≤ ∏ t ∈ Finset.range i, f2 n t := le_trans zero_le_one p.1
      have h1 : O * ∏ t ∈ Finset.range i, f2 n t ≤ 4 := by
        calc O * ∏ t ∈ Finset.range i, f2 n t ≤ 4 * (1 / 2) ^ n * 2 ^ n := mul_le_mul hup p.2 p0 (by positivity)
          _ = 4 * ((1 / 2) ^ n * 2 ^ n) := by ring
          _ = 4 := by rw [hpow, mul_one]
      have h2 : lost E (f2 n) i * tiny ≤ 2 ^ 999 := by
        have h3 : lost E (f2 n) i ≤ 2 ^ 2 * 2 ^ 1900 := by
          refine le_trans l (mul_le_mul (by linarith) (le_trans p.2 (pow_le_pow_right₀ (by norm_num) hn')) p0 (by norm_num))
        calc lost E (f2 n) i * tiny ≤ 2 ^ 2 * 2 ^ 1900 * tiny := mul_le_mul_of_nonneg_right h3 t0.le
          _ = 2 ^ (828 : ℤ) := by
            unfold tiny
            rw [← pow_add, ← zpow_natCast, ← zpow_add₀ (by norm_num)]; norm_num
          _ ≤ 2 ^ (999 : ℤ) := zpow_le_zpow_right₀ (by norm_num) (by norm_num)
          _ = 2 ^ 999 := by rw [← zpow_natCast]; rfl
      have h4 : (4 : ℝ) ≤ 2 ^ 999 := by
        calc (4 : ℝ) = 2 ^ 2 := by norm_num
          _ ≤ 2 ^ 999 := pow_le_pow_right₀ (by norm_num) (by norm_num)
      have h5 : (2 : ℝ) ^ 1000 = 2 * 2 ^ 999 := by rw [← pow_succ']
      rw [h5, two_mul]
      exact add_le_add (le_trans h1 h4) h2) (fun i hi => f2_le hn' (by omega)) (by omega) (n - m.natAbs) le_rfl
  obtain ⟨_, r1, r2⟩ := L2
  have l := lost_two n E hE0 (n - m.natAbs) (by omega)
  have p1 := (prod_f2_bounds n (n - m.natAbs) (by omega)).1
  have e0 := ynnm_prod n m hm'
  have e1 := fl_ynnm (rnd := rnd) n m hm'
  rw [← hOd] at e0
  rw [← ho] at e1
  rw [← e1, ← e0] at r1 r2
  set P := ∏ t ∈ Finset.range (n - m.natAbs), f2 n t with hPd
  set Y := Verif.ynnm n m with hY
  set F := Fl.ynnm rnd n m with hF
  set W := lost E (f2 n) (n - m.natAbs) * tiny with hW
  have hY0 : 0 < Y := by rw [e0]; exact mul_pos hO (by linarith)
  have hl0 : 0 ≤ lost E (f2 n) (n - m.natAbs) := lost_nonneg hE0 (N := n - m.natAbs) (fun t _ => Real.sqrt_nonneg _) _ le_rfl
  have hW0 : 0 ≤ W := mul_nonneg hl0 t0.le
  -- the loss, relative to the exact value
  have hWY : 11 / 10 * W ≤ 2 ^ ((n : ℤ) - 1073) * Y := by
    have h1 : W ≤ 5 / 2 * P * tiny := by
      refine mul_le_mul_of_nonneg_right (le_trans l ?_) t0.le
      exact mul_le_mul_of_nonneg_right (by linarith) (by linarith)
    have h2 : 11 / 8 * (1 / 2) ^ n * P ≤ Y := by rw [e0]; exact mul_le_mul_of_nonneg_right hlow (by linarith)
    have h3 : (2 : ℝ) ^ ((n : ℤ) - 1073) * (11 / 8 * (1 / 2) ^ n * P) = 11 / 4 * P * tiny := by
      have e : (2 : ℝ) ^ ((n : ℤ) - 1073) = 2 ^ n * (2 * tiny) := by
        unfold tiny
        rw [show (n : ℤ) - 1073 = n + (1 + -1074) by ring, zpow_add₀ (by norm_num), zpow_add₀ (by norm_num), zpow_natCast, zpow_one]
      rw [e]
      calc (2 : ℝ) ^ n * (2 * tiny) * (11 / 8 * (1 / 2) ^ n * P) = ((1 / 2) ^ n * 2 ^ n) * (11 / 4 * P * tiny) := by ring
        _ = _ := by rw [hpow, one_mul]
    have h4 := mul_le_mul_of_nonneg_left h2 (show (0 : ℝ) ≤ 2 ^ ((n : ℤ) - 1073) by positivity)
    rw [h3] at h4
    refine le_trans ?_ h4
    linarith
  clear hlow hup l hpow big
  clear_value W Y F
  generalize (2 : ℝ) ^ ((n : ℤ) - 1073) = q at *
  have hK : 5 + 3 * n + 3 * (n - m.natAbs) ≤ 6 * n + 5 := by omega
  have u0 := uu_pos
  have k1 := pow_lower (6 * n + 5)
  have kk : ((6 * n + 5 : ℕ) : ℝ) * uu ≤ 1 / 20 := by
    have : ((6 * n + 5 : ℕ) : ℝ) ≤ 12000 := by
      have : 6 * n + 5 ≤ 12000 := by omega
      exact_mod_cast this
    calc ((6 * n + 5 : ℕ) : ℝ) * uu ≤ 12000 * uu := mul_le_mul_of_nonneg_right this uu_pos.le
      _ ≤ 1 / 20 := by unfold uu; norm_num
  have k2 := pow_upper (K := 6 * n + 5) (by linarith)
  have r1' : (1 - ((6 * n + 5 : ℕ) : ℝ) * uu) * Y - W ≤ F := by
    refine le_trans (sub_le_sub_right (mul_le_mul_of_nonneg_right (le_trans k1 ?_) hY0.le) _) r1
    exact pow_le_pow_of_le_one omu_pos.le (by linarith) hK
  have r2' : F ≤ (1 + 2 * (((6 * n + 5 : ℕ) : ℝ) * uu)) * (Y + W) := by
    refine le_trans r2 (mul_le_mul_of_nonneg_right (le_trans ?_ k2) (by linarith))
    exact pow_le_pow_right₀ (by linarith) hK
  rw [two_uu, show (6 * (n : ℝ) + 5) * (2 * uu) = 2 * (((6 * n + 5 : ℕ) : ℝ) * uu) by push_cast; ring]
  have d0 : 0 ≤ ((6 * n + 5 : ℕ) : ℝ) * uu := mul_nonneg (by positivity) u0.le
  generalize ((6 * n + 5 : ℕ) : ℝ) * uu = d at *
  have m1 : d * W ≤ 1 / 20 * W := mul_le_mul_of_nonneg_right kk hW0
  have m2 : 0 ≤ d * Y := mul_nonneg d0 hY0.le
  rw [abs_le]
  constructor <;> nlinarith

/-- C86, what a caller of `ynunm` sees at degrees 1001 to 1900. -/
theorem c86_table_high (hr : IsRounding rnd) (n : ℕ) (m : ℤ) (L : ℕ) (hm : |m| ≤ n) (hL : n < L) (hn : 1001 ≤ n) (hn' : n ≤ 1900) :
    ∃ out exact x y, Fl.ynunm rnd n m L = .ok out ∧ Verif.ynunm n m L = .ok exact ∧ out[n]? = some x ∧ exact[n]? = some y ∧ 0 < y ∧
      |x - y| ≤ ((6 * n + 5) * 2 ^ (-52 : ℤ) + 2 ^ ((n : ℤ) - 1073)) * y := by
  obtain ⟨out, e, h1, h2⟩ := ynunm_top (rnd := rnd) n m L hm hL
  obtain ⟨ex, e', h3, h4⟩ := exact_top n m L hm hL
  refine ⟨out, ex, _, _, e, e', h2, h4, ?_, c86_degraded hr n m hm hn hn'⟩
  have hm' : m.natAbs ≤ n := by rw [Int.abs_eq_natAbs] at hm; omega
  rw [ynnm_prod n m hm']
  have hp : 0 < ∏ t ∈ Finset.range n, f1 t := lt_of_lt_of_le (by positivity) (prod_f1_bounds n).1
  have h1 := (prod_f2_bounds n (n - m.natAbs) (by omega)).1
  exact mul_pos (mul_pos (by linarith [a_bounds.1]) hp) (by linarith)

/-- Not vacuous: one part in `2^21` at degree 1052, no better than a quarter at degree 1071. -/
example : ∃ rnd : ℝ → ℝ, IsRounding rnd ∧ |Fl.ynnm rnd 1052 7 - Verif.ynnm 1052 7| ≤ (6317 * 2 ^ (-52 : ℤ) + 2 ^ (-21 : ℤ)) * Verif.ynnm 1052 7 := by
  obtain ⟨rnd, hr⟩ := isRounding_exists
  refine ⟨rnd, hr, ?_⟩
  have := c86_degraded hr 1052 7 (by norm_num) (by norm_num) (by norm_num)
  norm_num at this ⊢
  exact this

end Verif.Props
