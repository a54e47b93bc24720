import Verif.Props.FloatAnal
/-!
# `bnm_vec_fc`, `bnm_fc` and `fc_to_sc` in doubles
-/
namespace Verif.Props
open Verif Finset

variable {rnd : ℝ → ℝ}

/-- `np.sum` of a non-empty complex array adds the real parts and the imaginary parts, each in some order. -/
def SumOK (sum : List (FC rnd) → FC rnd) : Prop :=
  ∀ l, l ≠ [] → NpSum rnd (l.map FC.re) (sum l).re ∧ NpSum rnd (l.map FC.im) (sum l).im

namespace FA

/-- What is needed of the result of the convolution. -/
structure HOK (h : List (FC rnd)) (N : ℕ) (C : ℝ) : Prop where
  len : h.length = N + 1
  fix : ∀ i, i ≤ N → FS.Fix (rd h i)
  bd : ∀ i, i ≤ N → |(rd h i).re| ≤ C / 2 ∧ |(rd h i).im| ≤ C / 2

theorem rowQ {n : ℕ} (hn : n ≤ 1000) {C : ℝ} (hC : 2 ^ (-900 : ℤ) ≤ C) (hC' : C ≤ 2 ^ (900 : ℤ)) :
    0 ≤ C ∧ 0 ≤ FS.rowMax n ∧ 0 ≤ C * FS.rowMax n ∧ C * FS.rowMax n ≤ 2 ^ (1000 : ℤ) ∧ tiny ≤ uu * (C * FS.rowMax n) / 1000 := by
  have C0 : 0 ≤ C := le_trans (by positivity) hC
  have hR := FS.rowMax_ge n
  have hR' := rowMax_le (n := n) hn
  refine ⟨C0, by linarith, mul_nonneg C0 (by linarith), ?_, tiny_Q hC hR⟩
  calc C * FS.rowMax n ≤ 2 ^ (900 : ℤ) * 16 := mul_le_mul hC' hR' (by linarith) (by positivity)
    _ ≤ 2 ^ (900 : ℤ) * 2 ^ (100 : ℤ) := mul_le_mul_of_nonneg_left (by norm_num) (by positivity)
    _ = 2 ^ (1000 : ℤ) := by rw [← zpow_add₀ (by norm_num)]; norm_num

theorem sum_tab (n : ℕ) (f : ℕ → ℝ) : (tab n f).sum = ∑ i ∈ range n, f i := by
  induction n with
  | zero => simp [tab]
  | succ n ih =>
    rw [sum_range_succ, ← ih]
    unfold tab
    rw [List.range_succ, List.map_append, List.sum_append]
    simp

/-- One component of the sum of `bnm_vec_fc`. -/
theorem py_comp (hr : IsRounding rnd) {n : ℕ} (hn : n ≤ 1000) (hn1 : 1 ≤ n) {C : ℝ} (hC : 2 ^ (-900 : ℤ) ≤ C) (hC' : C ≤ 2 ^ (900 : ℤ)) {h yh y : ℕ → ℝ} {s : ℝ}
    (hs : NpSum rnd (tab n fun k => rnd (h (k + 1) * yh (k + 1))) s) (hh : ∀ i, i ≤ n → |h i| ≤ C / 2) (hy : ∀ i, |y i| ≤ FS.rowMax n)
    (hyh : ∀ i, i ≤ n → |yh i - y i| ≤ ((n : ℝ) + 3) ^ 3 * 2 ^ (-50 : ℤ) * FS.rowMax n) :
    |rnd (rnd (h 0 * yh 0) + rnd (2 * s)) - (h 0 * y 0 + 2 * ∑ i ∈ range n, h (i + 1) * y (i + 1))| ≤
      ((n : ℝ) + 1) * (C * FS.rowMax n) * (((n : ℝ) + 3) ^ 3 * 2 ^ (-50 : ℤ) + 4 * ((n : ℝ) + 1) * uu) := by
  obtain ⟨C0, R0, Q0, Q1, t1⟩ := rowQ hn hC hC'
  obtain ⟨d1, -⟩ := FS.err_num n hn (n + 1) le_rfl Q0
  push_cast at d1
  have u0 := uu_pos
  have n0 : (0 : ℝ) ≤ n := by positivity
  have hδ : ((n : ℝ) + 3) ^ 3 * 2 ^ (-50 : ℤ) ≤ 1 / 100 := by
    have : 0 ≤ 4 * ((n : ℝ) + 1) * uu := by positivity
    linarith
  have hδ0 : 0 ≤ ((n : ℝ) + 3) ^ 3 * 2 ^ (-50 : ℤ) := by positivity
  generalize ((n : ℝ) + 3) ^ 3 * 2 ^ (-50 : ℤ) = δ at hyh d1 hδ hδ0 ⊢
  have pe := fun i (hi : i ≤ n) => prod_err hr C0 R0 hδ0 hδ t1 Q1 (hh i hi) (hy i) (hyh i hi)
  obtain ⟨p1, -, p3⟩ := pe 0 (by omega)
  have T0 : 0 ≤ C * FS.rowMax n / 2 * 1.02 := by positivity
  have tT : tiny ≤ uu * (C * FS.rowMax n / 2 * 1.02) / 100 := by
    have : 0 ≤ uu * (C * FS.rowMax n) := by positivity
    linarith
  have T1 : C * FS.rowMax n / 2 * 1.02 ≤ 2 ^ (1000 : ℤ) := by
    refine le_trans ?_ Q1
    linarith
  obtain ⟨-, s1, -⟩ := npsum_err hr T0 tT T1 hs (by
    intro x hx
    unfold tab at hx
    obtain ⟨k, hk, rfl⟩ := List.mem_map.mp hx
    have := List.mem_range.mp hk
    exact (pe (k + 1) (by omega)).2.1) (by simp; omega)
  rw [sum_tab, length_tab] at s1
  refine py_num hr Q0 Q1 t1 hδ0 hδ (by exact_mod_cast hn1) (by exact_mod_cast hn) p1 p3 ?_ ?_
  · refine (abs_sum_le_sum_abs _ _).trans ?_
    calc ∑ i ∈ range n, |h (i + 1) * y (i + 1)| ≤ ∑ _i ∈ range n, C * FS.rowMax n / 2 := sum_le_sum fun i hi => (pe (i + 1) (by have := mem_range.mp hi; omega)).2.2
      _ = n * (C * FS.rowMax n) / 2 := by rw [sum_const, card_range, nsmul_eq_mul]; ring
  · have h2 : |∑ i ∈ range n, rnd (h (i + 1) * yh (i + 1)) - ∑ i ∈ range n, h (i + 1) * y (i + 1)| ≤ n * (C * FS.rowMax n) / 2 * (δ + 1.02 * uu) := by
      rw [← sum_sub_distrib]
      refine (abs_sum_le_sum_abs _ _).trans ?_
      calc ∑ i ∈ range n, |rnd (h (i + 1) * yh (i + 1)) - h (i + 1) * y (i + 1)| ≤ ∑ _i ∈ range n, C * FS.rowMax n / 2 * (δ + 1.02 * uu) :=
            sum_le_sum fun i hi => (pe (i + 1) (by have := mem_range.mp hi; omega)).1
        _ = _ := by rw [sum_const, card_range, nsmul_eq_mul]; ring
    have h3 := abs_sub_le s (∑ i ∈ range n, rnd (h (i + 1) * yh (i + 1))) (∑ i ∈ range n, h (i + 1) * y (i + 1))
    have h4 : (n : ℝ) ^ 2 * (2 * uu) * (C * FS.rowMax n / 2 * 1.02) = n ^ 2 * (1.02 * uu) * (C * FS.rowMax n) := by ring
    rw [h4] at s1
    linarith

/-- The first degree: only one product. -/
theorem zero_comp (hr : IsRounding rnd) {C : ℝ} (hC : 2 ^ (-900 : ℤ) ≤ C) (hC' : C ≤ 2 ^ (900 : ℤ)) {h yh y : ℝ} (hh : |h| ≤ C / 2) (hy : |y| ≤ FS.rowMax 0)
    (hyh : |yh - y| ≤ (((0 : ℕ) : ℝ) + 3) ^ 3 * 2 ^ (-50 : ℤ) * FS.rowMax 0) :
    |rnd (h * yh) - h * y| ≤ (((0 : ℕ) : ℝ) + 1) * (C * FS.rowMax 0) * ((((0 : ℕ) : ℝ) + 3) ^ 3 * 2 ^ (-50 : ℤ) + 4 * (((0 : ℕ) : ℝ) + 1) * uu) := by
  obtain ⟨C0, R0, Q0, Q1, t1⟩ := rowQ (n := 0) (by norm_num) hC hC'
  have hδ : (((0 : ℕ) : ℝ) + 3) ^ 3 * 2 ^ (-50 : ℤ) ≤ 1 / 100 := by norm_num
  have hδ0 : 0 ≤ (((0 : ℕ) : ℝ) + 3) ^ 3 * 2 ^ (-50 : ℤ) := by positivity
  have u0 := uu_pos
  generalize (((0 : ℕ) : ℝ) + 3) ^ 3 * 2 ^ (-50 : ℤ) = δ at hyh hδ hδ0 ⊢
  refine (prod_err hr C0 R0 hδ0 hδ t1 Q1 hh hy hyh).1.trans ?_
  have a : 0 ≤ δ * (C * FS.rowMax 0) := by positivity
  have b : 0 ≤ uu * (C * FS.rowMax 0) := by positivity
  push_cast
  linarith

/-- The size of one component of the sum of `bnm_vec_fc`. -/
theorem py_size (hr : IsRounding rnd) {n : ℕ} (hn : n ≤ 1000) (hn1 : 1 ≤ n) {C : ℝ} (hC : 2 ^ (-900 : ℤ) ≤ C) (hC' : C ≤ 2 ^ (900 : ℤ)) {h yh y : ℕ → ℝ} {s : ℝ}
    (hs : NpSum rnd (tab n fun k => rnd (h (k + 1) * yh (k + 1))) s) (hh : ∀ i, i ≤ n → |h i| ≤ C / 2) (hy : ∀ i, |y i| ≤ FS.rowMax n)
    (hyh : ∀ i, i ≤ n → |yh i - y i| ≤ ((n : ℝ) + 3) ^ 3 * 2 ^ (-50 : ℤ) * FS.rowMax n) :
    |s| ≤ 0.53 * (n * (C * FS.rowMax n)) := by
  obtain ⟨C0, R0, Q0, Q1, t1⟩ := rowQ hn hC hC'
  obtain ⟨d1, -⟩ := FS.err_num n hn (n + 1) le_rfl Q0
  push_cast at d1
  have u0 := uu_pos
  have n0 : (0 : ℝ) ≤ n := by positivity
  have hδ : ((n : ℝ) + 3) ^ 3 * 2 ^ (-50 : ℤ) ≤ 1 / 100 := by
    have : 0 ≤ 4 * ((n : ℝ) + 1) * uu := by positivity
    linarith
  have hδ0 : 0 ≤ ((n : ℝ) + 3) ^ 3 * 2 ^ (-50 : ℤ) := by positivity
  generalize ((n : ℝ) + 3) ^ 3 * 2 ^ (-50 : ℤ) = δ at hyh d1 hδ hδ0
  have pe := fun i (hi : i ≤ n) => prod_err hr C0 R0 hδ0 hδ t1 Q1 (hh i hi) (hy i) (hyh i hi)
  have T0 : 0 ≤ C * FS.rowMax n / 2 * 1.02 := by positivity
  have tT : tiny ≤ uu * (C * FS.rowMax n / 2 * 1.02) / 100 := by
    have : 0 ≤ uu * (C * FS.rowMax n) := by positivity
    linarith
  have T1 : C * FS.rowMax n / 2 * 1.02 ≤ 2 ^ (1000 : ℤ) := by
    refine le_trans ?_ Q1
    linarith
  obtain ⟨-, s1, s2⟩ := npsum_err hr T0 tT T1 hs (by
    intro x hx
    unfold tab at hx
    obtain ⟨k, hk, rfl⟩ := List.mem_map.mp hx
    have := List.mem_range.mp hk
    exact (pe (k + 1) (by omega)).2.1) (by simp; omega)
  rw [length_tab] at s1 s2
  have s3 := abs_add_le (s - (tab n fun k => rnd (h (k + 1) * yh (k + 1))).sum) (tab n fun k => rnd (h (k + 1) * yh (k + 1))).sum
  rw [sub_add_cancel] at s3
  have nu : (n : ℝ) * uu ≤ 1 / 1000 := by
    have n1 : (n : ℝ) ≤ 1000 := by exact_mod_cast hn
    have := mul_le_mul n1 FS.uu_le16 u0.le (by norm_num)
    linarith
  have e : (n : ℝ) ^ 2 * (2 * uu) * (C * FS.rowMax n / 2 * 1.02) = n * uu * (1.02 * (n * (C * FS.rowMax n))) := by ring
  have nQ : 0 ≤ n * (C * FS.rowMax n) := by positivity
  have := mul_le_mul_of_nonneg_right nu (show 0 ≤ 1.02 * (n * (C * FS.rowMax n)) by linarith)
  rw [e] at s1
  clear Q1 T1 hC hC'
  linarith

/-- The loop body of `bnm_vec_fc`. -/
theorem py_body (hrd : NoOverflow rnd) (lib : Fl.NumLib rnd) {K : ℕ} (hj : PowNear K lib.jp) (hsum : SumOK lib.sum) {N : ℕ} (hN : N ≤ 1000) {C : ℝ} (hC : 2 ^ (-900 : ℤ) ≤ C)
    (hC' : C ≤ 2 ^ (900 : ℤ)) {h : List (FC rnd)} (hh : HOK h N C) {m : ℤ} (hm : |m| ≤ K) (out : List (FC rnd)) (n : ℕ) (hn : m.natAbs ≤ n) (hn2 : n ≤ N)
    (ho : out.length = N - m.natAbs + 1) :
    ∃ z, Fl.bnmBody rnd lib h m out n = .ok (out.set (n - m.natAbs) z) ∧ ‖FS.val z - tgt h m n‖ ≤ FS.coefErr n C := by
  have hr := hrd.toIsRounding
  obtain ⟨y, yr, ey, -, yl, yv⟩ := tab_err hr (n := n) (L := n + 1) (m := m) (by omega) (by omega) hn
  have ey' : Fl.ynunm rnd (n : ℤ) m ((n : ℤ) + 1) = .ok y := by exact_mod_cast ey
  have habs : (n : ℤ) - |m| = ((n - m.natAbs : ℕ) : ℤ) := by rw [Int.abs_eq_natAbs]; omega
  have hl := hh.len
  have C0 : 0 ≤ C := le_trans (by positivity) hC
  have hm1 : |m| ≤ n := by rw [Int.abs_eq_natAbs]; omega
  have hm1' : ((|m| : ℤ) : ℝ) ≤ n := by exact_mod_cast hm1
  have hy0 : |rd y 0| ≤ 1.01 * FS.rowMax n := by
    obtain ⟨-, a, b⟩ := yv 0
    have c := abs_add_le (rd y 0 - yr 0) (yr 0)
    rw [sub_add_cancel] at c
    have hR := FS.rowMax_ge n
    obtain ⟨d1, -⟩ := FS.err_num n (by omega) (n + 1) le_rfl C0
    have : 0 ≤ 4 * ((n + 1 : ℕ) : ℝ) * uu := by have := uu_pos; positivity
    have := (b (by omega)).trans (mul_le_mul_of_nonneg_right (show ((n : ℝ) + 3) ^ 3 * 2 ^ (-50 : ℤ) ≤ 1 / 100 by linarith) (by linarith))
    linarith
  unfold Fl.bnmBody
  rw [ey', habs]
  simp only [Except.bind_ok]
  rw [getIdx_rd (l := h) (i := 0) (by omega) (by omega), getIdx_rd (l := y) (i := 0) (by omega) (by omega)]
  simp only [Except.bind_ok]
  rw [setIdx_of_lt (by omega) (by omega)]
  simp only [Except.bind_ok, Int.toNat_natCast, Int.toNat_zero]
  by_cases hz : n = 0
  · subst hz
    rw [if_neg (by simp)]
    refine ⟨_, rfl, comb_err (by omega) C0 (fun i => (yv i).1) ((first_eq hrd hj hm (by rw [Int.abs_eq_natAbs]; omega) (hh.bd 0 (by omega)).1 (hh.bd 0 (by omega)).2 hC hC' (FS.rowMax_ge 0) (rowMax_le (n := 0) (by omega)) hy0).trans ?_) ?_ ?_⟩
    · rw [Nat.cast_zero, zero_add, one_mul]
      have Q0 : 0 ≤ C * FS.rowMax 0 := (rowQ (n := 0) (by omega) hC hC').2.2.1
      rw [Nat.cast_zero] at hm1'
      gcongr
    · rw [range_zero, sum_empty, mul_zero, add_zero]
      exact zero_comp hr hC hC' (hh.bd 0 (by omega)).1 (yv 0).2.1 ((yv 0).2.2 (by omega))
    · rw [range_zero, sum_empty, mul_zero, add_zero]
      exact zero_comp hr hC hC' (hh.bd 0 (by omega)).2 (yv 0).2.1 ((yv 0).2.2 (by omega))
  · rw [if_pos (by exact_mod_cast hz)]
    rw [ScalarCoefs.bcast_eq _ (by
      rw [length_getSlice (by omega) (by omega) (by omega), length_getSlice (by omega) (by omega) (by omega)])]
    simp only [Except.bind_ok]
    rw [getIdx_rd (by omega) (by rw [List.length_set]; omega)]
    simp only [Except.bind_ok, Int.toNat_natCast]
    rw [setIdx_of_lt (by omega) (by rw [List.length_set]; omega)]
    rw [Int.toNat_natCast, List.set_set, rd_set _ _ _ _ (by omega), if_pos rfl]
    have hp : List.zipWith (fun (a : FC rnd) (b : ℝ) => a * (⟨b, 0⟩ : FC rnd)) (getSlice h 1 (n + 1)) (getSlice y 1 (n + 1)) =
        tab n fun k => (⟨rnd ((rd h (k + 1)).re * rd y (k + 1)), rnd ((rd h (k + 1)).im * rd y (k + 1))⟩ : FC rnd) := by
      have hlen : (List.zipWith (fun (a : FC rnd) (b : ℝ) => a * (⟨b, 0⟩ : FC rnd)) (getSlice h 1 (n + 1)) (getSlice y 1 (n + 1))).length = n := by
        rw [List.length_zipWith, length_getSlice (by omega) (by omega) (by omega), length_getSlice (by omega) (by omega) (by omega)]
        omega
      refine list_ext_rd (by rw [hlen, length_tab]) fun k hk => ?_
      rw [hlen] at hk
      rw [rd_tab hk]
      have e1 : rd (getSlice h 1 (n + 1)) k = rd h (k + 1) := by
        rw [rd_getSlice (by omega) (by omega) (by omega) k (by omega)]
        congr 1; omega
      have e2 : rd (getSlice y 1 (n + 1)) k = rd y (k + 1) := by
        rw [rd_getSlice (by omega) (by omega) (by omega) k (by omega)]
        congr 1; omega
      have l1 : k < (getSlice h 1 ((n : ℤ) + 1)).length := by
        rw [length_getSlice (by omega) (by omega) (by omega)]; omega
      have l2 : k < (getSlice y 1 ((n : ℤ) + 1)).length := by
        rw [length_getSlice (by omega) (by omega) (by omega)]; omega
      have e3 : rd (List.zipWith (fun (a : FC rnd) (b : ℝ) => a * (⟨b, 0⟩ : FC rnd)) (getSlice h 1 (n + 1)) (getSlice y 1 (n + 1))) k =
          rd (getSlice h 1 (n + 1)) k * ⟨rd (getSlice y 1 (n + 1)) k, 0⟩ := by
        simp [rd, l1, l2]
      rw [e3, e1, e2, mul_def]
      simp only [mul_zero, FS.rnd0 hrd, sub_zero, zero_add, hrd.idem]
    rw [hp]
    have hs := hsum (tab n fun k => (⟨rnd ((rd h (k + 1)).re * rd y (k + 1)), rnd ((rd h (k + 1)).im * rd y (k + 1))⟩ : FC rnd)) (by
      intro e; have := congrArg List.length e; simp at this; omega)
    generalize lib.sum (tab n fun k => (⟨rnd ((rd h (k + 1)).re * rd y (k + 1)), rnd ((rd h (k + 1)).im * rd y (k + 1))⟩ : FC rnd)) = s at hs
    unfold tab at hs
    rw [List.map_map, List.map_map] at hs
    refine ⟨_, rfl, comb_err (by omega) C0 (fun i => (yv i).1) ((pair_eq hrd (n := n) hj hm (by rw [Int.abs_eq_natAbs]; omega) (hh.bd 0 (by omega)).1 (hh.bd 0 (by omega)).2 hC hC' (FS.rowMax_ge n) (rowMax_le (by omega)) hy0 (by omega) (by omega) ?_ ?_).trans ?_) ?_ ?_⟩
    · exact py_size hr (by omega) (by omega) hC hC' (h := fun i => (rd h i).re) (yh := fun i => rd y i) hs.1 (fun i hi => (hh.bd i (by omega)).1) (fun i => (yv i).2.1)
        (fun i hi => (yv i).2.2 (by omega))
    · exact py_size hr (by omega) (by omega) hC hC' (h := fun i => (rd h i).im) (yh := fun i => rd y i) hs.2 (fun i hi => (hh.bd i (by omega)).2) (fun i => (yv i).2.1)
        (fun i hi => (yv i).2.2 (by omega))
    · have Q0 : 0 ≤ C * FS.rowMax n := (rowQ (n := n) (by omega) hC hC').2.2.1
      have u0 := uu_pos
      gcongr
    · exact py_comp hr (by omega) (by omega) hC hC' (h := fun i => (rd h i).re) (yh := fun i => rd y i) hs.1 (fun i hi => (hh.bd i (by omega)).1) (fun i => (yv i).2.1)
        (fun i hi => (yv i).2.2 (by omega))
    · exact py_comp hr (by omega) (by omega) hC hC' (h := fun i => (rd h i).im) (yh := fun i => rd y i) hs.2 (fun i hi => (hh.bd i (by omega)).2) (fun i => (yv i).2.1)
        (fun i hi => (yv i).2.2 (by omega))

end FA
end Verif.Props
