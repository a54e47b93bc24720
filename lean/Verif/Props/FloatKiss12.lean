import Verif.Props.FloatKiss11
import Verif.Props.FloatVec8
/-!
# The convolution of the C extension in doubles: set-up, accuracy, independence of fresh memory
-/
namespace Verif.Props
open Verif Finset

variable {rnd : ℝ → ℝ}

namespace FK

/-- The length the convolution pads to. -/
theorem findQ_len (S : ℕ) (hS : 2 ≤ S) : ∃ Q : ℕ, cFindQ S = some (Q : Int) ∧ S ≤ Q ∧ Q < 2 * S ∧ ∀ t : ℕ, t.Prime → t ∣ Q → t ≤ 5 := by
  obtain ⟨Q, h1, h2, h3, h4⟩ := findQ_loopEq.least (by simp) S (by omega)
  refine ⟨Q, by unfold cFindQ; exact h1, h2, ?_, fun t ht hd => ?_⟩
  · by_contra hc
    have hlt := Nat.lt_pow_succ_log_self (b := 2) (by norm_num) (S - 1)
    have hle := Nat.pow_log_le_self 2 (x := S - 1) (by omega)
    rw [pow_succ] at hlt
    exact h4 (2 ^ (Nat.log 2 (S - 1) + 1)) (by rw [pow_succ]; omega) (by rw [pow_succ]; omega) (smooth_pow_two (by simp) _)
  · have := h3 t ht hd
    simp at this
    omega

/-- What `fc_to_sc` prepares before its loops, for every content of fresh memory, with the facts the accuracy of `hkm_fc` rests on. -/
structure Ready (lm : Fl.LibM) (R N Q : ℕ) (t' ss : List (FC rnd)) (fw bw : Fl.KissCfg rnd) (s : List ℂ) : Prop where
  find : cFindQ ((R : Int) + N) = some (Q : Int)
  ge : R + N ≤ Q
  lt : Q < 2 * (R + N)
  sdata : ∀ t : List (FC rnd), t.length = Q → Fl.cSData rnd t Q R N = .ok t'
  afw : Fl.kissAlloc rnd lm Q false = .ok fw
  abw : Fl.kissAlloc rnd lm Q true = .ok bw
  fft : ∀ junk, Fl.kissFft rnd fw t' junk = .ok ss
  len : ss.length = Q
  fok : FOK fw false Q (950 * Nat.log 2 Q * uu)
  bok : FOK bw true Q (950 * Nat.log 2 Q * uu)
  kern : KernTable R N Q s
  sum : ∑ i ∈ range Q, ‖rd s i‖ ≤ 3 * (1 + Real.log Q)
  acc : ∀ k, k < Q → ‖FS.val (rd ss k) - ∑ j ∈ range Q, rd s j * twd false Q ((j * k : ℕ) : ℤ)‖ ≤ 1.03 * (3 * (1 + Real.log Q) * (950 * Nat.log 2 Q * uu))

theorem ready (hr : IsRounding rnd) {lm : Fl.LibM} (hl : LibMWithin lm) (R N : ℕ) (hR : R % 2 = 0) (hR0 : 0 < R) (hS : R + N ≤ 2 ^ 29) :
    ∃ Q t' ss fw bw s, Ready (rnd := rnd) lm R N Q t' ss fw bw s := by
  obtain ⟨Q, h1, h2, h3, h5⟩ := findQ_len (R + N) (by omega)
  have hQ2 : 2 ≤ Q := by omega
  have hQ31 : Q ≤ 2 ^ 31 := by omega
  obtain ⟨s, t', hk, e, tl, kt⟩ := sdata_err hr R N Q hR hR0 h2 hQ31 (tab Q fun _ => (0 : FC rnd)) (by simp)
  obtain ⟨fw, ef, hf⟩ := alloc_fok hr hl Q false hQ2 hQ31 h5
  obtain ⟨bw, eb, hb⟩ := alloc_fok hr hl Q true hQ2 hQ31 h5
  have u0 := uu_pos
  have u1 := uu_le16
  obtain ⟨κ, hκ⟩ : ∃ κ : ℝ, κ = 950 * Nat.log 2 Q * uu := ⟨_, rfl⟩
  have hκ1 : 950 * uu ≤ κ := by
    have : (1 : ℝ) ≤ Nat.log 2 Q := by exact_mod_cast Nat.log_pos (by norm_num) hQ2
    rw [hκ]
    exact mul_le_mul_of_nonneg_right (by linarith) u0.le
  have hκ2 : κ ≤ 1 / 100 := by rw [hκ]; exact l1_uu (by omega)
  obtain ⟨σ, hσ⟩ : ∃ σ : ℝ, σ = 3 * (1 + Real.log Q) := ⟨_, rfl⟩
  have σ1 : 3 ≤ σ := by
    have : 0 ≤ Real.log Q := Real.log_natCast_nonneg Q
    rw [hσ]; linarith
  have hsn : ∀ i, ‖rd s i‖ = |(rd s i).im| := fun i => by
    have := (kt.2 i).1
    rw [← Complex.re_add_im (rd s i), this]
    simp
  have hd : ∀ i, ‖FS.val (rd t' i) - rd s i‖ ≤ 2 * uu * ‖rd s i‖ := fun i => by
    obtain ⟨a1, a2, a3, a4, a5⟩ := kt.2 i
    have : FS.val (rd t' i) - rd s i = (((rd t' i).im - (rd s i).im : ℝ) : ℂ) * Complex.I := by
      apply Complex.ext
      · simp [FS.val, a1, a2]
      · simp [FS.val]
    rw [this, norm_mul, Complex.norm_I, mul_one, Complex.norm_real, Real.norm_eq_abs, hsn]
    exact a5
  have hsum : ∑ i ∈ range Q, ‖rd s i‖ ≤ σ := by
    refine (sum_le_sum fun i _ => ?_).trans ((kb_sum (R / 2) Q (by omega) (by omega)).trans hσ.ge)
    rw [hsn]
    exact (kt.2 i).2.2.2.1
  have s1 : ∀ i, ‖rd s i‖ ≤ 1 := fun i => by rw [hsn]; exact (kt.2 i).2.2.1
  have htn : ∀ i, ‖FS.val (rd t' i)‖ ≤ (1 + 2 * uu) * ‖rd s i‖ := fun i => by
    have := norm_add_le (FS.val (rd t' i) - rd s i) (rd s i)
    rw [sub_add_cancel] at this
    linarith [hd i]
  have z1 : (2 : ℝ) ^ (-900 : ℤ) ≤ 2 ^ (-60 : ℤ) := zpow_le_zpow_right₀ (by norm_num) (by norm_num)
  have z2 : (2 : ℝ) ^ (-60 : ℤ) ≤ 1 / 10 ^ 18 := by norm_num
  obtain ⟨ss, e2, l2, v2⟩ := hf.fft t' tl (fun i => (1 + 2 * uu) * ‖rd s i‖ + 2 ^ (-60 : ℤ))
    (fun i => z1.trans (le_add_of_nonneg_left (by positivity)))
    (fun i => by
      have h : (1 + 2 * uu) * ‖rd s i‖ ≤ (1 + 2 * uu) * 1 := mul_le_mul_of_nonneg_left (s1 i) (by linarith)
      have : (4 : ℝ) ≤ 2 ^ (900 : ℤ) := (by norm_num : (4 : ℝ) ≤ 2 ^ (2 : ℤ)).trans (zpow_le_zpow_right₀ (by norm_num) (by norm_num))
      refine le_trans ?_ this
      clear this z1
      have hu : uu ≤ 1 / 100 := u1.trans (by norm_num)
      refine (add_le_add h z2).trans ?_
      linarith)
    (fun i _ => (htn i).trans (le_add_of_nonneg_right (by positivity))) (fun _ => 0)
  rw [← hκ] at v2
  refine ⟨Q, t', ss, fw, bw, s, by exact_mod_cast h1, h2, h3, fun t ht => ?_, ef, eb, fun junk => ?_, l2, hf, hb, hk, hsum.trans hσ.le, ?_⟩
  · rw [← e]
    unfold Fl.cSData
    rw [cMemset0_ok t Q ht, cMemset0_ok _ Q (by simp)]
  · exact c99_fresh lm Q false (by omega) fw ef t' tl _ junk ss e2
  · intro k hk
    rw [← hκ, ← hσ]
    have a1 := v2 k hk
    have a2 : ‖∑ j ∈ range Q, FS.val (rd t' j) * twd false Q ((j * k : ℕ) : ℤ) - ∑ j ∈ range Q, rd s j * twd false Q ((j * k : ℕ) : ℤ)‖ ≤ 2 * uu * σ := by
      rw [← sum_sub_distrib, sum_congr rfl fun p _ => (sub_mul _ _ _).symm]
      refine (sum_tw_w (fun j _ => hd j) (fun j => twd_norm _ _ _)).trans ?_
      rw [← mul_sum]
      exact mul_le_mul_of_nonneg_left hsum (by linarith)
    have a3 := norm_add_le (FS.val (rd ss k) - ∑ j ∈ range Q, FS.val (rd t' j) * twd false Q ((j * k : ℕ) : ℤ))
      (∑ j ∈ range Q, FS.val (rd t' j) * twd false Q ((j * k : ℕ) : ℤ) - ∑ j ∈ range Q, rd s j * twd false Q ((j * k : ℕ) : ℤ))
    rw [sub_add_sub_cancel] at a3
    have a4 : ∑ j ∈ range Q, ((1 + 2 * uu) * ‖rd s j‖ + 2 ^ (-60 : ℤ)) ≤ 1.01 * σ := by
      rw [sum_add_distrib, ← mul_sum, sum_const, card_range, nsmul_eq_mul]
      have q1 : (Q : ℝ) ≤ 2 ^ 31 := by exact_mod_cast hQ31
      have q2 : (Q : ℝ) * 2 ^ (-60 : ℤ) ≤ 2 ^ 31 * (1 / 10 ^ 18) := mul_le_mul q1 z2 (by positivity) (by positivity)
      have q3 : (1 + 2 * uu) * ∑ j ∈ range Q, ‖rd s j‖ ≤ (1 + 1 / 1000) * σ := mul_le_mul (by linarith) hsum (sum_nonneg fun _ _ => norm_nonneg _) (by norm_num)
      clear z1
      linarith
    have a5 : (∑ j ∈ range Q, ((1 + 2 * uu) * ‖rd s j‖ + 2 ^ (-60 : ℤ))) * κ ≤ 1.01 * σ * κ := mul_le_mul_of_nonneg_right a4 (by linarith)
    have a7 : 0 ≤ σ * uu := mul_nonneg (by linarith) u0.le
    have a6 : σ * (950 * uu) ≤ σ * κ := mul_le_mul_of_nonneg_left hκ1 (by linarith)
    have a8 := a3.trans (add_le_add (a1.trans a5) a2)
    refine a8.trans ?_
    clear a8 a5 a4 a3 a2 a1 z1 z2
    have a9 : 1.01 * σ * κ = 1.01 * (σ * κ) := by ring
    have a10 : 2 * uu * σ = 2 * (σ * uu) := by ring
    rw [a9, a10]
    linarith

end FK
end Verif.Props
