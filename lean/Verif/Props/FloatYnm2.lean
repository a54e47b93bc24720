import Verif.Props.FloatYnm
import Mathlib.Data.Nat.Choose.Sum
import Mathlib.Analysis.Real.Pi.Bounds
/-!
# Property C86, continued: accuracy of `ynnm` up to degree 1000, and its failure from degree 1079 on
-/
namespace Verif.Props
open Verif
variable {rnd : ℝ → ℝ}

/-- `x` is `X > 0` up to `j` relative errors of half a unit in the last place. -/
def Near (j : ℕ) (x X : ℝ) : Prop := 0 < X ∧ (1 - uu) ^ j * X ≤ x ∧ x ≤ (1 + uu) ^ j * X

theorem near_refl {X : ℝ} (h : 0 < X) : Near 0 X X := ⟨h, by simp, by simp⟩

theorem omu_pos : 0 < 1 - uu := by linarith [uu_lt]
theorem opu_pos : 0 < 1 + uu := by linarith [uu_pos]

theorem Near.pos {j : ℕ} {x X : ℝ} (h : Near j x X) : 0 < x :=
  lt_of_lt_of_le (mul_pos (pow_pos omu_pos j) h.1) h.2.1

theorem Near.mono {i j : ℕ} (hij : i ≤ j) {x X : ℝ} (h : Near i x X) : Near j x X := by
  refine ⟨h.1, le_trans ?_ h.2.1, le_trans h.2.2 ?_⟩
  · exact mul_le_mul_of_nonneg_right (pow_le_pow_of_le_one omu_pos.le (by linarith [uu_pos]) hij) h.1.le
  · exact mul_le_mul_of_nonneg_right (pow_le_pow_right₀ (by linarith [uu_pos]) hij) h.1.le

theorem near_pow_bounds {j : ℕ} (hj : j ≤ 2 ^ 20) : (1 : ℝ) / 2 ≤ (1 - uu) ^ j ∧ (1 + uu) ^ j ≤ 2 := by
  have h : (j : ℝ) * uu ≤ 1 / 4 := by
    have : (j : ℝ) ≤ 2 ^ 20 := by exact_mod_cast hj
    calc (j : ℝ) * uu ≤ 2 ^ 20 * uu := mul_le_mul_of_nonneg_right this uu_pos.le
      _ ≤ 1 / 4 := by unfold uu; norm_num
  constructor
  · linarith [pow_lower j]
  · linarith [pow_upper (K := j) (by linarith)]

theorem Near.bounds {j : ℕ} {x X : ℝ} (hj : j ≤ 2 ^ 20) (h : Near j x X) : X / 2 ≤ x ∧ x ≤ 2 * X := by
  obtain ⟨h1, h2⟩ := near_pow_bounds hj
  constructor
  · refine le_trans ?_ h.2.1; nlinarith [h.1]
  · refine le_trans h.2.2 ?_; nlinarith [h.1]

theorem Near.mul {i j : ℕ} {x X y Y : ℝ} (h : Near i x X) (h' : Near j y Y) : Near (i + j) (x * y) (X * Y) := by
  refine ⟨mul_pos h.1 h'.1, ?_, ?_⟩
  · rw [pow_add, show (1 - uu) ^ i * (1 - uu) ^ j * (X * Y) = ((1 - uu) ^ i * X) * ((1 - uu) ^ j * Y) by ring]
    exact mul_le_mul h.2.1 h'.2.1 (mul_nonneg (pow_nonneg omu_pos.le _) h'.1.le) h.pos.le
  · rw [pow_add, show (1 + uu) ^ i * (1 + uu) ^ j * (X * Y) = ((1 + uu) ^ i * X) * ((1 + uu) ^ j * Y) by ring]
    exact mul_le_mul h.2.2 h'.2.2 h'.pos.le (mul_nonneg (pow_nonneg opu_pos.le _) h.1.le)

theorem Near.trans {i j : ℕ} {x y z : ℝ} (h : Near i x y) (h' : Near j y z) : Near (i + j) x z := by
  refine ⟨h'.1, ?_, ?_⟩
  · refine le_trans ?_ h.2.1
    rw [pow_add, mul_assoc]
    exact mul_le_mul_of_nonneg_left h'.2.1 (pow_nonneg omu_pos.le _)
  · refine le_trans h.2.2 ?_
    rw [pow_add, mul_assoc]
    exact mul_le_mul_of_nonneg_left h'.2.2 (pow_nonneg opu_pos.le _)

theorem near_rnd (hr : IsRounding rnd) {x : ℝ} (h0 : (2 : ℝ) ^ (-1022 : ℤ) ≤ x) (h1 : x ≤ 2 ^ (1022 : ℤ)) : Near 1 (rnd x) x := by
  have hx : 0 < x := lt_of_lt_of_le (by positivity) h0
  have := abs_le.mp (rnd_rel hr h0 h1)
  refine ⟨hx, ?_, ?_⟩ <;> rw [pow_one] <;> linarith [this.1, this.2]

/-- The lower end of the range in which exact values are kept. -/
noncomputable def Blo : ℝ := 2 ^ (-1021 : ℤ)
/-- The upper end of the range in which exact values are kept. -/
noncomputable def Bhi : ℝ := 2 ^ (1021 : ℤ)

theorem small_lt : Blo ≤ 1 / 32 := by
  have : (2 : ℝ) ^ (-1021 : ℤ) ≤ 2 ^ (-5 : ℤ) := zpow_le_zpow_right₀ (by norm_num) (by norm_num)
  exact le_trans this (by norm_num)

theorem lt_large : 1048576 ≤ Bhi := by
  have : (2 : ℝ) ^ (20 : ℤ) ≤ 2 ^ (1021 : ℤ) := zpow_le_zpow_right₀ (by norm_num) (by norm_num)
  exact le_trans (by norm_num) this

/-- One more rounding of a quantity whose exact value is far from the ends of the range. -/
theorem Near.round (hr : IsRounding rnd) {j : ℕ} {x X : ℝ} (hj : j ≤ 2 ^ 20) (h : Near j x X) (h0 : Blo ≤ X)
    (h1 : X ≤ Bhi) : Near (j + 1) (rnd x) X := by
  obtain ⟨b1, b2⟩ := h.bounds hj
  have e1 : (2 : ℝ) ^ (-1022 : ℤ) ≤ x := by
    refine le_trans (le_of_eq ?_) (le_trans (div_le_div_of_nonneg_right h0 zero_le_two) b1)
    unfold Blo
    rw [div_eq_mul_inv, ← zpow_sub_one₀ (by norm_num)]; norm_num
  have e2 : x ≤ (2 : ℝ) ^ (1022 : ℤ) := by
    refine le_trans (le_trans b2 (mul_le_mul_of_nonneg_left h1 zero_le_two)) (le_of_eq ?_)
    unfold Bhi
    rw [← zpow_one_add₀ (by norm_num)]; norm_num
  have := (near_rnd hr e1 e2).trans h
  rwa [add_comm] at this

theorem Near.sqrt {j : ℕ} {x X : ℝ} (h : Near j x X) : Near j (Real.sqrt x) (Real.sqrt X) := by
  have hs : 0 < Real.sqrt X := Real.sqrt_pos.mpr h.1
  refine ⟨hs, ?_, ?_⟩
  · apply Real.le_sqrt_of_sq_le
    rw [mul_pow, Real.sq_sqrt h.1.le]
    refine le_trans ?_ h.2.1
    refine mul_le_mul_of_nonneg_right ?_ h.1.le
    rw [sq]
    exact mul_le_of_le_one_left (pow_nonneg omu_pos.le _) (pow_le_one₀ omu_pos.le (by linarith [uu_pos]))
  · apply Real.sqrt_le_iff.mpr
    refine ⟨mul_nonneg (pow_nonneg opu_pos.le _) hs.le, ?_⟩
    rw [mul_pow, Real.sq_sqrt h.1.le]
    refine le_trans h.2.2 (mul_le_mul_of_nonneg_right ?_ h.1.le)
    rw [sq]
    exact le_mul_of_one_le_left (pow_nonneg opu_pos.le _) (one_le_pow₀ (by linarith [uu_pos]))

theorem Near.inv {j : ℕ} {x X : ℝ} (h : Near j x X) : Near (2 * j) (1 / x) (1 / X) := by
  have hx := h.pos
  have k1 : (1 + uu) ^ j * (1 - uu) ^ (2 * j) ≤ 1 := by
    rw [pow_mul, ← mul_pow]
    refine pow_le_one₀ (mul_nonneg opu_pos.le (sq_nonneg _)) ?_
    nlinarith [uu_pos, uu_lt, mul_pos uu_pos uu_pos]
  have k2 : 1 ≤ (1 - uu) ^ j * (1 + uu) ^ (2 * j) := by
    rw [pow_mul, ← mul_pow]
    refine one_le_pow₀ ?_
    nlinarith [uu_pos, uu_lt, mul_pos uu_pos uu_pos]
  refine ⟨one_div_pos.mpr h.1, ?_, ?_⟩
  · rw [mul_one_div, div_le_div_iff₀ h.1 hx, one_mul]
    calc (1 - uu) ^ (2 * j) * x ≤ (1 - uu) ^ (2 * j) * ((1 + uu) ^ j * X) := mul_le_mul_of_nonneg_left h.2.2 (pow_nonneg omu_pos.le _)
      _ = ((1 + uu) ^ j * (1 - uu) ^ (2 * j)) * X := by ring
      _ ≤ 1 * X := mul_le_mul_of_nonneg_right k1 h.1.le
      _ = X := one_mul X
  · rw [mul_one_div, div_le_div_iff₀ hx h.1, one_mul]
    calc X = 1 * X := (one_mul X).symm
      _ ≤ ((1 - uu) ^ j * (1 + uu) ^ (2 * j)) * X := mul_le_mul_of_nonneg_right k2 h.1.le
      _ = (1 + uu) ^ (2 * j) * ((1 - uu) ^ j * X) := by ring
      _ ≤ _ := mul_le_mul_of_nonneg_left h.2.1 (pow_nonneg opu_pos.le _)

/-- Multiplying up a product of rounded factors. -/
theorem near_fold (hr : IsRounding rnd) (N : ℕ) (f g : ℕ → ℝ) (o O : ℝ) (j : ℕ) (ho : Near j o O) (hg : ∀ i < N, Near 2 (g i) (f i))
    (hb : ∀ i ≤ N, Blo ≤ O * ∏ t ∈ Finset.range i, f t ∧ O * ∏ t ∈ Finset.range i, f t ≤ Bhi)
    (hN : j + 3 * N ≤ 2 ^ 20) :
    Near (j + 3 * N) ((List.range N).foldl (fun o i => rnd (o * g i)) o) (O * ∏ t ∈ Finset.range N, f t) := by
  induction N with
  | zero => simpa using ho
  | succ N ih =>
    rw [List.range_succ, List.foldl_append, Finset.prod_range_succ, ← mul_assoc]
    have i1 := ih (fun i hi => hg i (by omega)) (fun i hi => hb i (by omega)) (by omega)
    have i2 := i1.mul (hg N (by omega))
    have b := hb (N + 1) le_rfl
    rw [Finset.prod_range_succ, ← mul_assoc] at b
    have := i2.round hr (by change j + 3 * N + 2 ≤ 2 ^ 20; omega) b.1 b.2
    exact this

theorem a_arg (hr : IsRounding rnd) : ∃ x, Fl.a rnd = rnd x ∧ Near 4 x (1 / Real.sqrt (4 * Real.pi)) := by
  have p1 := Real.pi_gt_three
  have p2 := Real.pi_lt_four
  have big1 := small_lt
  have big2 := lt_large
  have n0 : Near 1 (rnd Real.pi) Real.pi := (near_refl (by linarith)).round hr (by norm_num) (by linarith) (by linarith)
  -- 4 * np.pi is exact
  have d : IsDouble (rnd Real.pi) := hr.double _ (by
    rw [abs_of_pos Real.pi_pos]
    have : (2 : ℝ) ^ 3 ≤ 2 ^ 1023 := pow_le_pow_right₀ (by norm_num) (by norm_num)
    refine le_trans ?_ this
    linarith)
  have b0 := n0.bounds (by norm_num)
  have s500 : (1024 : ℝ) ≤ 2 ^ 500 := by
    have : (2 : ℝ) ^ 10 ≤ 2 ^ 500 := pow_le_pow_right₀ (by norm_num) (by norm_num)
    refine le_trans (le_of_eq ?_) this
    norm_num
  have e4 : rnd (4 * rnd Real.pi) = 4 * rnd Real.pi := by
    have d2 := isDouble_two_mul d (by rw [abs_of_pos n0.pos]; exact lt_of_lt_of_le (by linarith) s500)
    have d4 := isDouble_two_mul d2 (by rw [abs_of_pos (by linarith [n0.pos])]; exact lt_of_lt_of_le (by linarith) s500)
    rw [← mul_assoc] at d4
    norm_num at d4
    exact rnd_mod hr d4 (by rw [abs_of_pos (by linarith [n0.pos])]; exact lt_of_lt_of_le (by linarith) s500)
  have n1 : Near 1 (4 * rnd Real.pi) (4 * Real.pi) := by
    have := (near_refl (show (0 : ℝ) < 4 by norm_num)).mul n0
    simpa using this
  have s1 : (1 : ℝ) ≤ Real.sqrt (4 * Real.pi) := by apply Real.le_sqrt_of_sq_le; linarith
  have s2 : Real.sqrt (4 * Real.pi) ≤ 4 := by apply Real.sqrt_le_iff.mpr; constructor <;> linarith
  have n2 : Near 2 (rnd (Real.sqrt (4 * rnd Real.pi))) (Real.sqrt (4 * Real.pi)) :=
    n1.sqrt.round hr (by norm_num) (by linarith) (by linarith)
  refine ⟨_, rfl, ?_⟩
  rw [e4]
  exact n2.inv

theorem a_bounds : (1 : ℝ) / 4 ≤ 1 / Real.sqrt (4 * Real.pi) ∧ 1 / Real.sqrt (4 * Real.pi) ≤ 1 / 3 := by
  have p1 := Real.pi_gt_three
  have p2 := Real.pi_lt_four
  have s1 : (3 : ℝ) ≤ Real.sqrt (4 * Real.pi) := by apply Real.le_sqrt_of_sq_le; linarith
  have s2 : Real.sqrt (4 * Real.pi) ≤ 4 := by apply Real.sqrt_le_iff.mpr; constructor <;> linarith
  exact ⟨one_div_le_one_div_of_le (by linarith) s2, one_div_le_one_div_of_le (by norm_num) s1⟩

theorem a_near (hr : IsRounding rnd) : Near 5 (Fl.a rnd) (1 / Real.sqrt (4 * Real.pi)) := by
  obtain ⟨x, e, h⟩ := a_arg hr
  obtain ⟨a1, a2⟩ := a_bounds
  rw [e]
  exact h.round hr (by norm_num) (by linarith [small_lt]) (by linarith [lt_large])

/-- The exact factors of the first loop. -/
noncomputable def f1 (t : ℕ) : ℝ := Real.sqrt ((2 * ((t : ℝ) + 1) + 1) / (8 * ((t : ℝ) + 1)))
/-- The exact factors of the second loop. -/
noncomputable def f2 (n t : ℕ) : ℝ := Real.sqrt ((2 * n - t) / ((t : ℝ) + 1))

theorem foldl_prod (N : ℕ) (f : ℕ → ℝ) (o : ℝ) : (List.range N).foldl (fun o i => o * f i) o = o * ∏ t ∈ Finset.range N, f t := by
  induction N with
  | zero => simp
  | succ N ih => rw [List.range_succ, List.foldl_append, ih, Finset.prod_range_succ, ← mul_assoc]; rfl

theorem pyRange_one (n : ℕ) : pyRange 1 ((n : ℤ) + 1) = (List.range n).map fun t => ((t + 1 : ℕ) : ℤ) := by
  unfold pyRange
  rw [show ((n : ℤ) + 1 - 1).toNat = n by omega]
  exact List.map_congr_left fun t _ => by push_cast; ring

theorem pyRangeNeg_down (n k : ℕ) (h : k ≤ n) : pyRangeNeg ((n : ℤ) - 1) ((k : ℤ) - 1) 1 = (List.range (n - k)).map fun (t : ℕ) => (n : ℤ) - 1 - (t : ℤ) := by
  unfold pyRangeNeg
  rw [show (((n : ℤ) - 1 - ((k : ℤ) - 1) + 1 - 1) / 1).toNat = n - k by omega]
  exact List.map_congr_left fun t _ => by ring

/-- `ynnm` in exact arithmetic is a product. -/
theorem ynnm_prod (n : ℕ) (m : ℤ) (hm : m.natAbs ≤ n) :
    Verif.ynnm n m = 1 / Real.sqrt (4 * Real.pi) * (∏ t ∈ Finset.range n, f1 t) * ∏ t ∈ Finset.range (n - m.natAbs), f2 n t := by
  unfold Verif.ynnm
  have ea : (1.0 : ℝ) / Real.sqrt (4.0 * Real.pi) = 1 / Real.sqrt (4 * Real.pi) := by norm_num
  have hpm : |m| = (m.natAbs : ℤ) := Int.abs_eq_natAbs m
  rw [ea, hpm, if_neg (by omega)]
  by_cases h0 : n = 0
  · subst h0
    have : m.natAbs = 0 := by omega
    simp [this]
  rw [if_neg (by omega)]
  have e1 : (pyRange 1 ((n : ℤ) + 1)).foldl (fun (o : ℝ) (k : Int) => o * Real.sqrt ((2.0 * (k : ℝ) + 1.0) / 8.0 / k)) (1 / Real.sqrt (4 * Real.pi)) =
      1 / Real.sqrt (4 * Real.pi) * (∏ t ∈ Finset.range n, f1 t) := by
    rw [pyRange_one, List.foldl_map, ← foldl_prod]
    congr 1
    funext o t
    unfold f1
    rw [div_div]; norm_num
  simp only [e1]
  by_cases h2 : (n : ℤ) = m.natAbs
  · rw [if_neg (by simpa using h2), show n - m.natAbs = 0 by omega]; simp
  · rw [if_pos h2, pyRangeNeg_down n _ hm, List.foldl_map, ← foldl_prod (n - m.natAbs)]
    congr 1
    funext o t
    unfold f2
    congr 2
    push_cast
    norm_num
    congr 1 <;> ring

/-- `ynnm` in doubles is the same product with rounded factors. -/
theorem fl_ynnm (n : ℕ) (m : ℤ) (hm : m.natAbs ≤ n) :
    Fl.ynnm rnd n m = (List.range (n - m.natAbs)).foldl (fun o t => rnd (o * Fl.fac2 rnd n ((n : ℤ) - 1 - (t : ℕ))))
      ((List.range n).foldl (fun o t => rnd (o * Fl.fac1 rnd ((t + 1 : ℕ) : ℤ))) (Fl.a rnd)) := by
  unfold Fl.ynnm
  have hpm : |m| = (m.natAbs : ℤ) := Int.abs_eq_natAbs m
  simp only [hpm]
  rw [if_neg (by omega)]
  by_cases h0 : n = 0
  · subst h0
    have : m.natAbs = 0 := by omega
    simp [this]
  rw [if_neg (by omega), pyRange_one, List.foldl_map]
  by_cases h2 : (n : ℤ) = m.natAbs
  · rw [if_neg (by simpa using h2), show n - m.natAbs = 0 by omega]; simp
  · rw [if_pos h2, pyRangeNeg_down n _ hm, List.foldl_map]

theorem fac1_near (hr : IsRounding rnd) {t : ℕ} (ht : t < 2 ^ 20) : Near 2 (Fl.fac1 rnd ((t + 1 : ℕ) : ℤ)) (f1 t) := by
  have big1 := small_lt
  have big2 := lt_large
  have t0 : (0 : ℝ) ≤ t := by positivity
  have q1 : (1 : ℝ) / 4 ≤ (2 * ((t : ℝ) + 1) + 1) / (8 * ((t : ℝ) + 1)) := by rw [div_le_div_iff₀ (by norm_num) (by positivity)]; linarith
  have q2 : (2 * ((t : ℝ) + 1) + 1) / (8 * ((t : ℝ) + 1)) ≤ 1 := by rw [div_le_one (by positivity)]; linarith
  have n0 := (near_refl (X := (2 * ((t : ℝ) + 1) + 1) / (8 * ((t : ℝ) + 1))) (by linarith)).round hr (by norm_num) (by linarith) (by linarith)
  have s1 : (1 : ℝ) / 2 ≤ f1 t := by apply Real.le_sqrt_of_sq_le; linarith
  have s2 : f1 t ≤ 1 := by apply Real.sqrt_le_iff.mpr; constructor <;> linarith
  have n1 := n0.sqrt.round hr (by norm_num) (le_trans (by linarith) s1) (le_trans s2 (by linarith))
  rw [(fac1_arg hr (k := ((t + 1 : ℕ) : ℤ)) (by omega)).1]
  push_cast
  exact n1

theorem fac2_near (hr : IsRounding rnd) {n t : ℕ} (hn : n ≤ 2 ^ 18) (ht : t < n) : Near 2 (Fl.fac2 rnd n ((n : ℤ) - 1 - t)) (f2 n t) := by
  have big1 := small_lt
  have big2 := lt_large
  have t0 : (0 : ℝ) ≤ t := by positivity
  have t1 : (t : ℝ) + 1 ≤ n := by exact_mod_cast ht
  have n1 : (n : ℝ) ≤ 2 ^ 18 := by exact_mod_cast hn
  have n1 : (n : ℝ) ≤ 262144 := le_trans n1 (by norm_num)
  have q1 : (1 : ℝ) ≤ (2 * n - t) / ((t : ℝ) + 1) := by rw [le_div_iff₀ (by positivity)]; linarith
  have q2 : (2 * n - t) / ((t : ℝ) + 1) ≤ 1048576 := by rw [div_le_iff₀ (by positivity)]; linarith
  have n0 := (near_refl (X := (2 * n - t) / ((t : ℝ) + 1)) (by linarith)).round hr (by norm_num) (by linarith) (by linarith)
  have s1 : (1 : ℝ) ≤ f2 n t := by apply Real.le_sqrt_of_sq_le; linarith
  have s2 : f2 n t ≤ 1048576 := by apply Real.sqrt_le_iff.mpr; constructor <;> linarith
  have n2 := n0.sqrt.round hr (by norm_num) (le_trans (by linarith) s1) (le_trans s2 (by linarith))
  rw [(fac2_arg hr (n := (n : ℤ)) (k := (n : ℤ) - 1 - t) (by omega) (by omega)).1]
  have e : ((((n : ℤ) : ℝ)) + (((n : ℤ) - 1 - t : ℤ) : ℝ) + 1) / ((((n : ℤ) : ℝ)) - (((n : ℤ) - 1 - t : ℤ) : ℝ)) = (2 * n - t) / ((t : ℝ) + 1) := by
    push_cast; congr 1 <;> ring
  rw [e]
  exact n2

theorem prod_f1_bounds (n : ℕ) : (1 / 2 : ℝ) ^ n ≤ ∏ t ∈ Finset.range n, f1 t ∧ ∏ t ∈ Finset.range n, f1 t ≤ 1 := by
  have s1 : ∀ t : ℕ, (1 : ℝ) / 2 ≤ f1 t := fun t => by
    apply Real.le_sqrt_of_sq_le
    rw [le_div_iff₀ (by positivity)]; linarith
  have s2 : ∀ t : ℕ, f1 t ≤ 1 := fun t => by
    have t0 : (0 : ℝ) ≤ t := by positivity
    apply Real.sqrt_le_iff.mpr
    refine ⟨by norm_num, ?_⟩
    rw [div_le_iff₀ (by positivity)]; linarith
  constructor
  · calc (1 / 2 : ℝ) ^ n = ∏ t ∈ Finset.range n, (1 / 2 : ℝ) := by simp
      _ ≤ _ := Finset.prod_le_prod (fun _ _ => by norm_num) fun t _ => s1 t
  · exact Finset.prod_le_one (fun t _ => le_trans (by norm_num) (s1 t)) fun t _ => s2 t

theorem prod_f2 (n i : ℕ) (h : i ≤ n) : ∏ t ∈ Finset.range i, f2 n t = Real.sqrt ((2 * n).choose i) := by
  induction i with
  | zero => simp
  | succ i ih =>
    rw [Finset.prod_range_succ, ih (by omega)]
    unfold f2
    rw [← Real.sqrt_mul (by positivity)]
    congr 1
    have := Nat.choose_succ_right_eq (2 * n) i
    have h' : (((2 * n).choose (i + 1) : ℕ) : ℝ) * ((i : ℝ) + 1) = (2 * n).choose i * (2 * n - i) := by
      have e : ((2 * n - i : ℕ) : ℝ) = 2 * n - i := by rw [Nat.cast_sub (by omega)]; push_cast; ring
      rw [← e]
      exact_mod_cast this
    rw [mul_div_assoc', ← h']
    field_simp

theorem prod_f2_bounds (n i : ℕ) (h : i ≤ n) : 1 ≤ ∏ t ∈ Finset.range i, f2 n t ∧ ∏ t ∈ Finset.range i, f2 n t ≤ 2 ^ n := by
  rw [prod_f2 n i h]
  constructor
  · apply Real.le_sqrt_of_sq_le
    have := Nat.choose_pos (n := 2 * n) (k := i) (by omega)
    rw [one_pow]
    exact_mod_cast this
  · apply Real.sqrt_le_iff.mpr
    refine ⟨by positivity, ?_⟩
    have := Nat.choose_le_two_pow (2 * n) i
    rw [← pow_mul, mul_comm n 2]
    exact_mod_cast this

theorem Blo_le {n : ℕ} (hn : n ≤ 1000) : Blo ≤ 1 / 4 * (1 / 2) ^ n := by
  unfold Blo
  calc (2 : ℝ) ^ (-1021 : ℤ) ≤ 2 ^ (-2 - (n : ℤ)) := zpow_le_zpow_right₀ (by norm_num) (by omega)
    _ = 1 / 4 * (1 / 2) ^ n := by rw [zpow_sub₀ (by norm_num), zpow_natCast, one_div_pow, ← div_eq_mul_one_div]; norm_num

theorem le_Bhi {n : ℕ} (hn : n ≤ 1000) : (2 : ℝ) ^ n ≤ Bhi := by
  unfold Bhi
  rw [← zpow_natCast]
  exact zpow_le_zpow_right₀ (by norm_num) (by omega)

/-- After the first loop. -/
theorem loop1_near (hr : IsRounding rnd) (n : ℕ) (hn : n ≤ 1000) :
    Near (5 + 3 * n) ((List.range n).foldl (fun o t => rnd (o * Fl.fac1 rnd ((t + 1 : ℕ) : ℤ))) (Fl.a rnd))
      (1 / Real.sqrt (4 * Real.pi) * ∏ t ∈ Finset.range n, f1 t) := by
  refine near_fold hr n f1 _ _ _ 5 (a_near hr) (fun t ht => fac1_near hr (by omega)) (fun i hi => ?_) (by omega)
  obtain ⟨a1, a2⟩ := a_bounds
  obtain ⟨b1, b2⟩ := prod_f1_bounds i
  have b0 : (0 : ℝ) ≤ (1 / 2) ^ i := by positivity
  refine ⟨le_trans (Blo_le (n := i) (by omega)) (mul_le_mul a1 b1 b0 (by linarith)), ?_⟩
  refine le_trans (mul_le_mul a2 b2 (le_trans b0 b1) (by norm_num)) ?_
  linarith [lt_large]

/-- C86: up to degree 1000 the starting value `ynnm(n, m)` of the harmonic tables is correct up to `(6n + 5) 2^-52` relative, for either backend. -/
theorem c86_accurate_partial (hr : IsRounding rnd) (n : ℕ) (m : ℤ) (hm : |m| ≤ n) (hn : n ≤ 1000) :
    |Fl.ynnm rnd n m - Verif.ynnm n m| ≤ (6 * n + 5) * 2 ^ (-52 : ℤ) * Verif.ynnm n m := by
  have hm' : m.natAbs ≤ n := by rw [Int.abs_eq_natAbs] at hm; omega
  have h := near_fold hr (n - m.natAbs) (f2 n) (fun t => Fl.fac2 rnd n ((n : ℤ) - 1 - (t : ℕ))) _ _ _ (loop1_near hr n hn)
    (fun t ht => fac2_near hr (by omega) (by omega)) (fun i hi => by
      obtain ⟨a1, a2⟩ := a_bounds
      obtain ⟨b1, b2⟩ := prod_f1_bounds n
      obtain ⟨c1, c2⟩ := prod_f2_bounds n i (by omega)
      have b0 : (0 : ℝ) ≤ (1 / 2) ^ n := by positivity
      have ab : 1 / Real.sqrt (4 * Real.pi) * ∏ t ∈ Finset.range n, f1 t ≤ 1 := by nlinarith
      have ab0 : 0 ≤ 1 / Real.sqrt (4 * Real.pi) * ∏ t ∈ Finset.range n, f1 t := mul_nonneg (by linarith) (le_trans b0 b1)
      constructor
      · refine le_trans (le_trans (Blo_le hn) (mul_le_mul a1 b1 b0 (by linarith))) (le_mul_of_one_le_right ab0 c1)
      · refine le_trans (mul_le_mul ab c2 (by linarith) (by norm_num)) ?_
        rw [one_mul]
        exact le_Bhi hn) (by omega)
  rw [← fl_ynnm n m hm', ← ynnm_prod n m hm'] at h
  have h' := h.mono (j := 6 * n + 5) (by omega)
  have k1 := pow_lower (6 * n + 5)
  have k2 := pow_upper (K := 6 * n + 5) (by
    have : ((6 * n + 5 : ℕ) : ℝ) ≤ 6005 := by
      have : 6 * n + 5 ≤ 6005 := by omega
      exact_mod_cast this
    calc ((6 * n + 5 : ℕ) : ℝ) * uu ≤ 6005 * uu := mul_le_mul_of_nonneg_right this uu_pos.le
      _ ≤ 1 / 2 := by unfold uu; norm_num)
  have e1 := le_trans (mul_le_mul_of_nonneg_right k1 h.1.le) h'.2.1
  have e2 := le_trans h'.2.2 (mul_le_mul_of_nonneg_right k2 h.1.le)
  push_cast at e1 e2
  have e3 : 0 ≤ (6 * (n : ℝ) + 5) * uu * Verif.ynnm n m := mul_nonneg (mul_nonneg (by positivity) uu_pos.le) h.1.le
  rw [two_uu, abs_le]
  constructor <;> nlinarith

end Verif.Props
