import Verif.Bessel
import Verif.BesselMath
import Verif.SphiB
import Verif.CoefsLemmas2
/-!
# Evaluation of the Bessel routines of the model
-/
namespace Verif
open Classical

theorem getIdxR {l : List ℝ} (i : ℕ) (h1 : i < l.length) : getIdx l (i : Int) = .ok (rd l i) := by
  rw [getIdx_of_lt (by omega) (by omega)]
  simp [rd, h1]

theorem setIdxR {l : List ℝ} (i : ℕ) (v : ℝ) (h1 : i < l.length) : setIdx l (i : Int) v = .ok (l.set i v) := by
  rw [setIdx_of_lt (by omega) (by omega)]; rfl

theorem setIdx_short {l : List ℝ} (i : ℕ) (v : ℝ) (h1 : l.length ≤ i) : setIdx l (i : Int) v = .error ⟨.indexError, "index"⟩ := by
  unfold setIdx
  simp only [show ¬ ((i : Int) < 0) by omega, if_false]
  rw [if_neg (by omega)]

theorem getIdx_short {l : List ℝ} (i : ℕ) (h1 : l.length ≤ i) : getIdx l (i : Int) = .error ⟨.indexError, "index"⟩ := by
  unfold getIdx
  simp only [show ¬ ((i : Int) < 0) by omega, if_false]
  simp [h1]

theorem forM'_map {σ ι κ : Type} (g : κ → ι) (xs : List κ) (s : σ) (body : σ → ι → Res σ) :
    forM' (xs.map g) s body = forM' xs s (fun s k => body s (g k)) := by
  induction xs generalizing s with
  | nil => rfl
  | cons x xs ih =>
    simp only [List.map_cons, forM']
    congr 1
    funext s'
    exact ih s'

theorem pyRangeNeg_one (a : Int) : pyRangeNeg a 0 1 = (pyRange 0 a).map (fun k => a - k) := by
  unfold pyRangeNeg pyRange
  rw [List.map_map]
  have : (a - 0 + 1 - 1) / 1 = a - 0 := by simp
  rw [this]
  apply List.map_congr_left
  intro k _
  simp

/-- `sbessely` returns the exact functions. -/
theorem sbessely_eq (x : ℝ) (N : ℕ) (hN : 2 ≤ N) :
    ∃ out, sbessely x N = .ok out ∧ out.length = N ∧ ∀ n, n < N → rd out n = sphN n x := by
  unfold sbessely
  rw [ScalarCoefs.npFull_of_nonneg (by omega)]
  simp only [Except.bind_ok, Int.toNat_natCast]
  have s0 := setIdxR (l := List.replicate N (0 : ℝ)) 0 (-Real.cos x / x) (by simp; omega)
  simp only [Nat.cast_zero] at s0
  rw [s0]
  simp only [Except.bind_ok]
  have s1 := setIdxR (l := (List.replicate N (0 : ℝ)).set 0 (-Real.cos x / x)) 1 (-Real.cos x / x ^ 2 - Real.sin x / x) (by simp; omega)
  simp only [Nat.cast_one] at s1
  rw [s1]
  simp only [Except.bind_ok]
  obtain ⟨out, e, h1, h2⟩ := forM'_range_inv (a := 2) (b := (N : Int)) (by omega)
    (((List.replicate N (0 : ℝ)).set 0 (-Real.cos x / x)).set 1 (-Real.cos x / x ^ 2 - Real.sin x / x))
    (fun out n => (getIdx out (n - 1)).bind fun a => (getIdx out (n - 2)).bind fun b =>
      setIdx out n ((2.0 * (n : ℝ) - 1.0) / x * a - b))
    (fun k out => out.length = N ∧ ∀ n : ℕ, (n : Int) < k → rd out n = sphN n x)
    ⟨by simp, fun n hn => by
      rw [rd_set _ _ _ _ (by simp; omega), rd_set _ _ _ _ (by simp; omega)]
      have : n = 0 ∨ n = 1 := by omega
      rcases this with rfl | rfl <;> simp [sphN]⟩
    (by
      rintro i out h1 h2 ⟨hl, hv⟩
      obtain ⟨n, rfl⟩ : ∃ n : ℕ, i = ((n + 2 : ℕ) : Int) := ⟨(i - 2).toNat, by omega⟩
      rw [show ((n + 2 : ℕ) : Int) - 1 = ((n + 1 : ℕ) : Int) by push_cast; ring, show ((n + 2 : ℕ) : Int) - 2 = (n : Int) by push_cast; ring,
        getIdxR _ (by omega), getIdxR _ (by omega)]
      simp only [Except.bind_ok]
      rw [setIdxR _ _ (by omega)]
      refine ⟨_, rfl, by simp [hl], fun j hj => ?_⟩
      rw [rd_set _ _ _ _ (by omega)]
      split
      · next h =>
        subst h
        rw [hv _ (by push_cast; omega), hv _ (by push_cast; omega)]
        simp only [sphN]
        push_cast
        norm_num
        left; congr 1; ring
      · next h => exact hv j (by push_cast at hj ⊢; omega))
  exact ⟨out, e, h1, fun n hn => h2 n (by omega)⟩

/-! ### sbesselj -/

/-- The value of `sbesselj` once the `while` loop has ended. -/
theorem sbesselj_of_loop (x : ℝ) (M : ℕ) (hM : 1 ≤ M) (w : ℝ)
    (hw : sbjLoop (x ^ 2) 1 (x / (2.0 * (((M : ℕ) : Int) : ℝ) + 1.0)) (x / (2.0 * (((M : ℕ) : Int) : ℝ) + 1.0)) M = some (.ok w)) :
    ∃ (r : ℕ → ℝ) (out : List ℝ), sbesselj x ((M : Int) + 1) = .ok out ∧ out.length = M + 1 ∧ r M = w ∧
      (∀ n, 1 ≤ n → n < M → r n = 1 / (sbB x n - r (n + 1))) ∧ rd out 0 = Real.sin x / x ∧
      rd out 1 = (if |Real.sin x / x| ≥ |Real.sin x / x ^ 2 - Real.cos x / x| then r 1 * (Real.sin x / x)
        else Real.sin x / x ^ 2 - Real.cos x / x) ∧
      ∀ n, 1 ≤ n → n < M → rd out (n + 1) = r (n + 1) * rd out n := by
  unfold sbesselj
  simp only [show (M : Int) + 1 - 1 = M by ring]
  rw [ScalarCoefs.npFull_of_nonneg (by omega)]
  simp only [Except.bind_ok, show ((M : Int) + 1).toNat = M + 1 by omega]
  have s0 := setIdxR (l := List.replicate (M + 1) (0 : ℝ)) 0 (Real.sin x / x) (by simp)
  simp only [Nat.cast_zero] at s0
  rw [s0]
  simp only [Except.bind_ok]
  rw [hw]
  simp only [orDiverge, Except.bind_ok, id]
  rw [setIdxR _ _ (by simp)]
  simp only [Except.bind_ok]
  set a0 := ((List.replicate (M + 1) (0 : ℝ)).set 0 (Real.sin x / x)).set M w with ha0
  have l0 : a0.length = M + 1 := by simp [ha0]
  have v00 : rd a0 0 = Real.sin x / x := by
    rw [ha0, rd_set _ _ _ _ (by simp), if_neg (by omega), rd_set _ _ _ _ (by simp), if_pos rfl]
  have v0M : rd a0 M = w := by rw [ha0, rd_set _ _ _ _ (by simp), if_pos rfl]
  rw [pyRangeNeg_one, forM'_map]
  obtain ⟨a1, e1, l1, v10, v1M, h1⟩ := forM'_range_inv (a := 0) (b := (M : Int) - 1) (by omega) a0
    (fun out k => (getIdx out ((M : Int) - 1 - k + 1)).bind fun o =>
      setIdx out ((M : Int) - 1 - k) (1.0 / ((2.0 * (((M : Int) - 1 - k : Int) : ℝ) + 1.0) / x - o)))
    (fun k a => a.length = M + 1 ∧ rd a 0 = Real.sin x / x ∧ rd a M = w ∧
      ∀ n : ℕ, (M : Int) - k ≤ n → n < M → rd a n = 1 / (sbB x n - rd a (n + 1)))
    ⟨l0, v00, v0M, fun n h1 h2 => by omega⟩
    (by
      rintro k a hk1 hk2 ⟨hl, h0, hm, hv⟩
      obtain ⟨n, hn⟩ : ∃ n : ℕ, (M : Int) - 1 - k = (n : Int) := ⟨((M : Int) - 1 - k).toNat, by omega⟩
      rw [hn, show (n : Int) + 1 = ((n + 1 : ℕ) : Int) by push_cast; ring, getIdxR _ (by omega)]
      simp only [Except.bind_ok]
      rw [setIdxR _ _ (by omega)]
      refine ⟨_, rfl, by simp [hl], ?_, ?_, fun j hj1 hj2 => ?_⟩
      · rw [rd_set _ _ _ _ (by omega), if_neg (by omega)]; exact h0
      · rw [rd_set _ _ _ _ (by omega), if_neg (by omega)]; exact hm
      · rw [rd_set _ _ _ _ (by omega), rd_set _ _ _ _ (by omega), if_neg (show ¬ j + 1 = n by omega)]
        split
        · next h => subst h; unfold sbB; norm_num
        · next h => exact hv j (by omega) hj2)
  rw [e1]
  simp only [Except.bind_ok]
  have g0 := getIdxR (l := a1) 0 (by omega)
  simp only [Nat.cast_zero] at g0
  rw [g0, v10]
  simp only [Except.bind_ok]
  have g1 := getIdxR (l := a1) 1 (by omega)
  simp only [Nat.cast_one] at g1
  have hs1 : ∀ v, setIdx a1 1 v = .ok (a1.set 1 v) := fun v => by
    have := setIdxR (l := a1) 1 v (by omega)
    simpa using this
  set p1 := (if |Real.sin x / x| ≥ |Real.sin x / x ^ 2 - Real.cos x / x| then rd a1 1 * (Real.sin x / x)
        else Real.sin x / x ^ 2 - Real.cos x / x) with hp1
  have hif : (if |Real.sin x / x| ≥ |Real.sin x / x ^ 2 - Real.cos x / x| then (getIdx a1 1).bind fun o1 => setIdx a1 1 (o1 * (Real.sin x / x))
      else setIdx a1 1 (Real.sin x / x ^ 2 - Real.cos x / x)) = .ok (a1.set 1 p1) := by
    rw [hp1]
    split
    · rw [g1]; simp only [Except.bind_ok]; rw [hs1]
    · rw [hs1]
  rw [hif]
  simp only [Except.bind_ok]
  obtain ⟨out, e2, l2, h20, h21, h2, h3⟩ := forM'_range_inv (a := 1) (b := (M : Int)) (by omega) (a1.set 1 p1)
    (fun out n => (getIdx out (n + 1)).bind fun a => (getIdx out n).bind fun b => setIdx out (n + 1) (a * b))
    (fun k a => a.length = M + 1 ∧ rd a 0 = Real.sin x / x ∧ rd a 1 = p1 ∧
      (∀ n : ℕ, 1 ≤ n → (n : Int) < k → rd a (n + 1) = rd a1 (n + 1) * rd a n) ∧ ∀ n : ℕ, k < n → rd a n = rd a1 n)
    ⟨by simp [l1], by rw [rd_set _ _ _ _ (by omega), if_neg (by omega)]; exact v10, by rw [rd_set _ _ _ _ (by omega), if_pos rfl],
      fun n h1 h2 => by omega, fun n h => by rw [rd_set _ _ _ _ (by omega), if_neg (by omega)]⟩
    (by
      rintro k a hk1 hk2 ⟨hl, h0, hm, hv, ho⟩
      obtain ⟨n, rfl⟩ : ∃ n : ℕ, k = (n : Int) := ⟨k.toNat, by omega⟩
      rw [show (n : Int) + 1 = ((n + 1 : ℕ) : Int) by push_cast; ring, getIdxR _ (by omega), getIdxR _ (by omega)]
      simp only [Except.bind_ok]
      rw [setIdxR _ _ (by omega)]
      refine ⟨_, rfl, by simp [hl], ?_, ?_, fun j hj1 hj2 => ?_, fun j hj => ?_⟩
      · rw [rd_set _ _ _ _ (by omega), if_neg (by omega)]; exact h0
      · rw [rd_set _ _ _ _ (by omega), if_neg (by omega)]; exact hm
      · rw [rd_set _ _ _ _ (by omega), rd_set _ _ _ _ (by omega), if_neg (show ¬ j = n + 1 by omega)]
        split
        · next h =>
          have : j = n := by omega
          subst this
          rw [ho _ (by push_cast; omega)]
        · next h => exact hv j hj1 (by omega)
      · rw [rd_set _ _ _ _ (by omega), if_neg (by omega)]; exact ho j (by omega))
  exact ⟨rd a1, out, e2, l2, v1M, fun n h h' => h1 n (by omega) h', h20, h21, fun n h h' => h2 n h (by omega)⟩

/-- If `sbesselj` returns, the loop returned. -/
theorem loop_of_sbesselj (x : ℝ) (N : Int) (out : List ℝ) (h : sbesselj x N = .ok out) :
    ∃ w, sbjLoop (x ^ 2) 1 (x / (2.0 * (((N - 1 : Int)) : ℝ) + 1.0)) (x / (2.0 * (((N - 1 : Int)) : ℝ) + 1.0)) (N - 1) = some (.ok w) := by
  unfold sbesselj at h
  simp only at h
  cases e1 : npFull N (0 : ℝ) with
  | error e => rw [e1] at h; simp at h
  | ok a =>
    rw [e1] at h
    simp only [Except.bind_ok] at h
    cases e2 : setIdx a 0 (Real.sin x / x) with
    | error e => rw [e2] at h; simp at h
    | ok b =>
      rw [e2] at h
      simp only [Except.bind_ok] at h
      generalize sbjLoop (x ^ 2) 1 (x / (2.0 * (((N - 1 : Int)) : ℝ) + 1.0)) (x / (2.0 * (((N - 1 : Int)) : ℝ) + 1.0)) (N - 1) = L at h ⊢
      rcases L with _ | (e | w)
      · simp [orDiverge] at h
      · simp [orDiverge] at h
      · exact ⟨w, rfl⟩

section
variable {x s : ℝ} {M : ℕ} (hx : 0 < x) (hM : x ≤ M + 1 / 2) (hs : |s| = 1)
include hx hM hs

theorem cfP_ge (k : ℕ) : 1 / sbB x M ≤ cfP x M (k + 1) / cfQ x M (k + 1) := by
  have := (cf_conv_diff hx hM 1 (k + 1) (by omega)).1
  have e : cfP x M 1 / cfQ x M 1 = 1 / sbB x M := rfl
  rw [e] at this
  linarith

theorem sbjLoop_run (d k : ℕ)
    (h1 : ∀ j, k ≤ j → j < k + d → 1e-20 < |s / (cfQ x M j * cfQ x M (j + 1)) / (s * (cfP x M (j + 1) / cfQ x M (j + 1)))|)
    (h2 : |s / (cfQ x M (k + d) * cfQ x M (k + d + 1)) / (s * (cfP x M (k + d + 1) / cfQ x M (k + d + 1)))| ≤ 1e-20) :
    sbjLoop (x ^ 2) (sbB x (M + k) * cfQ x M k / cfQ x M (k + 1)) (s / (cfQ x M k * cfQ x M (k + 1)))
      (s * (cfP x M (k + 1) / cfQ x M (k + 1))) ((M : Int) + k) = some (.ok (s * (cfP x M (k + d + 1) / cfQ x M (k + d + 1)))) := by
  have hs0 : s ≠ 0 := by rintro rfl; simp at hs
  have hb0 : 0 < 1 / sbB x M := by have := sbB_ge2 hx hM 0; simp at this; positivity
  have hw0 : ∀ k, s * (cfP x M (k + 1) / cfQ x M (k + 1)) ≠ 0 := fun k =>
    mul_ne_zero hs0 (ne_of_gt (lt_of_lt_of_le hb0 (cfP_ge hx hM hs k)))
  induction d generalizing k with
  | zero =>
    rw [Nat.add_zero] at h2 ⊢
    rw [sbjLoop, if_neg (hw0 k), if_neg (not_lt.2 h2)]
  | succ d ih =>
    have q0 := cfQ_pos hx hM k
    have q1 := cfQ_pos hx hM (k + 1)
    have q2 := cfQ_pos hx hM (k + 2)
    have hb := sbB_ge2 hx hM (k + 1)
    have hden : 1 - x ^ 2 * (sbB x (M + k) * cfQ x M k / cfQ x M (k + 1)) / (4.0 * (((M : Int) + k + 1 : Int) : ℝ) ^ 2 - 1.0) =
        cfQ x M (k + 2) / (sbB x (M + (k + 1)) * cfQ x M (k + 1)) := by
      have e2 : cfQ x M (k + 2) = sbB x (M + (k + 1)) * cfQ x M (k + 1) - cfQ x M k := rfl
      have e4 : (4.0 * (((M : Int) + k + 1 : Int) : ℝ) ^ 2 - 1.0) = x ^ 2 * (sbB x (M + k) * sbB x (M + (k + 1))) := by
        unfold sbB; push_cast; field_simp; norm_num; ring
      have hb1 : 0 < sbB x (M + (k + 1)) := by linarith
      have hb2 : 0 < sbB x (M + k) := by have := sbB_ge2 hx hM k; linarith
      rw [e4, e2]
      field_simp
    have hb1 : 0 < sbB x (M + (k + 1)) := by linarith
    rw [sbjLoop, if_neg (hw0 k), if_pos (h1 k (le_refl _) (by omega)), hden]
    rw [if_neg (by positivity)]
    simp only
    have i := ih (k + 1) (fun j h3 h4 => h1 j (by omega) (by omega)) (by
      rw [show k + 1 + d = k + (d + 1) by ring]; exact h2)
    have eu : 1 / (cfQ x M (k + 2) / (sbB x (M + (k + 1)) * cfQ x M (k + 1))) = sbB x (M + (k + 1)) * cfQ x M (k + 1) / cfQ x M (k + 1 + 1) := by
      show _ = _ / cfQ x M (k + 2)
      field_simp
    have ev : s / (cfQ x M k * cfQ x M (k + 1)) * (sbB x (M + (k + 1)) * cfQ x M (k + 1) / cfQ x M (k + 1 + 1) - 1) =
        s / (cfQ x M (k + 1) * cfQ x M (k + 1 + 1)) := by
      have e2 : cfQ x M (k + 1 + 1) = sbB x (M + (k + 1)) * cfQ x M (k + 1) - cfQ x M k := rfl
      have e3 : sbB x (M + (k + 1)) * cfQ x M (k + 1) = cfQ x M (k + 1 + 1) + cfQ x M k := by rw [e2]; ring
      rw [e3]
      have : 0 < cfQ x M (k + 1 + 1) := q2
      field_simp
      ring
    have ew : s * (cfP x M (k + 1) / cfQ x M (k + 1)) + s / (cfQ x M (k + 1) * cfQ x M (k + 1 + 1)) =
        s * (cfP x M (k + 1 + 1) / cfQ x M (k + 1 + 1)) := by
      have := cf_conv_step hx hM (k + 1)
      rw [div_eq_mul_one_div s, ← this]; ring
    rw [eu, ev, ew]
    rw [show (M : Int) + k + 1 = (M : Int) + ((k + 1 : ℕ) : Int) by push_cast; ring, i]
    rw [show k + 1 + d = k + (d + 1) by ring]

/-- The `while` loop ends. -/
theorem sbjLoop_ends : ∃ k : ℕ, sbjLoop (x ^ 2) 1 (s * (x / (2.0 * (((M : ℕ) : Int) : ℝ) + 1.0))) (s * (x / (2.0 * (((M : ℕ) : Int) : ℝ) + 1.0))) M =
      some (.ok (s * (cfP x M (k + 1) / cfQ x M (k + 1)))) ∧
      1 / (cfQ x M k * cfQ x M (k + 1)) ≤ 1e-20 * (cfP x M (k + 1) / cfQ x M (k + 1)) := by
  have hs0 : s ≠ 0 := by rintro rfl; simp at hs
  have hb2 := sbB_ge2 hx hM 0
  simp only [Nat.add_zero] at hb2
  have hbp : 0 < sbB x M := by linarith
  have hb0 : 0 < 1 / sbB x M := by positivity
  have habs : ∀ j, |s / (cfQ x M j * cfQ x M (j + 1)) / (s * (cfP x M (j + 1) / cfQ x M (j + 1)))| =
      1 / (cfQ x M j * cfQ x M (j + 1)) / (cfP x M (j + 1) / cfQ x M (j + 1)) := by
    intro j
    have q0 := cfQ_pos hx hM j
    have q1 := cfQ_pos hx hM (j + 1)
    have hp := lt_of_lt_of_le hb0 (cfP_ge hx hM hs j)
    rw [abs_div, abs_div, abs_mul s, hs, one_mul, abs_of_pos (show 0 < cfQ x M j * cfQ x M (j + 1) by positivity), abs_of_pos hp]
  have hex : ∃ k, |s / (cfQ x M k * cfQ x M (k + 1)) / (s * (cfP x M (k + 1) / cfQ x M (k + 1)))| ≤ 1e-20 := by
    obtain ⟨n, hn⟩ := exists_nat_gt (sbB x M * 1e20)
    refine ⟨n, ?_⟩
    rw [habs]
    have hp := cfP_ge hx hM hs n
    have hp' := lt_of_lt_of_le hb0 hp
    rw [div_le_iff₀ hp']
    have q0 := cfQ_ge hx hM n
    have q1 := (cfQ_inc hx hM (n + 1)).1
    have hq : sbB x M * 1e20 ≤ cfQ x M n * cfQ x M (n + 1) := by nlinarith
    have h3 : 1 / (cfQ x M n * cfQ x M (n + 1)) ≤ 1 / (sbB x M * 1e20) := one_div_le_one_div_of_le (by positivity) hq
    have h4 : 1 / (sbB x M * 1e20) = 1e-20 * (1 / sbB x M) := by field_simp; norm_num
    rw [h4] at h3
    refine h3.trans ?_
    exact mul_le_mul_of_nonneg_left hp (by norm_num)
  refine ⟨Nat.find hex, ?_, ?_⟩
  · have h := sbjLoop_run hx hM hs (Nat.find hex) 0 (fun j _ hj => by
      have := Nat.find_min hex (show j < Nat.find hex by omega)
      push Not at this; exact this) (by simpa using Nat.find_spec hex)
    simp only [Nat.zero_add, Nat.add_zero] at h
    simp only [cfQ, cfP] at h ⊢
    simp only [mul_one, one_mul, div_self hbp.ne', Nat.cast_zero, add_zero] at h
    have e : x / (2.0 * (((M : ℕ) : Int) : ℝ) + 1.0) = 1 / sbB x M := by
      unfold sbB; push_cast; rw [one_div_div]; norm_num
    rw [e]
    rw [div_eq_mul_one_div s] at h
    exact h
  · have h := Nat.find_spec hex
    rw [habs] at h
    rwa [div_le_iff₀ (lt_of_lt_of_le hb0 (cfP_ge hx hM hs _))] at h

end

theorem sphJ_neg (n : ℕ) (x : ℝ) : sphJ n (-x) = (-1) ^ n * sphJ n x := by
  induction n using Nat.twoStepInduction with
  | zero => simp [sphJ]
  | one => simp [sphJ]; ring
  | more n h1 h2 => simp only [sphJ, h1, h2, div_neg]; ring

end Verif
