import Verif.FloatPyConv
import Verif.Props.FloatKiss15
/-!
# The fast convolution of pysphi.py in doubles
-/
namespace Verif.Props
open Verif Finset

variable {rnd : ℝ → ℝ}

/-- What is assumed of NumPy's one-dimensional FFTs on arrays of `Q` entries: every entry of the result is within `κ` times the sum of the
moduli of the inputs (divided by `Q` for the inverse) of the exact transform, up to an allowance for underflow.  Nothing is assumed about inputs of
modulus beyond `2^900`. -/
structure Fft1Within (np : Fl.Fft1 rnd) (κ : ℝ) (Q : ℕ) : Prop where
  fft : ∀ x : List (FC rnd), x.length = Q → (∀ j, j < Q → ‖FS.val (rd x j)‖ ≤ 2 ^ (900 : ℤ)) →
    ∃ y y', np.fft x = .ok y ∧ npFft (x.map FS.val) = .ok y' ∧ y.length = Q ∧
      ∀ k, k < Q → ‖FS.val (rd y k) - rd y' k‖ ≤ κ * (∑ j ∈ range Q, ‖FS.val (rd x j)‖ + Q * 2 ^ (-900 : ℤ))
  ifft : ∀ x : List (FC rnd), x.length = Q → (∀ j, j < Q → ‖FS.val (rd x j)‖ ≤ 2 ^ (900 : ℤ)) →
    ∃ y y', np.ifft x = .ok y ∧ npIfft (x.map FS.val) = .ok y' ∧ y.length = Q ∧
      ∀ k, k < Q → ‖FS.val (rd y k) - rd y' k‖ ≤ κ * (∑ j ∈ range Q, ‖FS.val (rd x j)‖ + Q * 2 ^ (-900 : ℤ)) / Q

namespace FP
open FK

theorem pyFourPi_err (hr : IsRounding rnd) : |Fl.pyFourPi rnd - 4 * Real.pi| ≤ 26 * uu := by
  have u0 := uu_pos
  have u1 := uu_le16
  have p1 := Real.pi_gt_d20
  have p2 := Real.pi_lt_d20
  have e2 := rnd_step hr (x := Real.pi) (y := Real.pi) (e := 0) (b := 3.1416) (by simp) (by rw [abs_of_pos (by linarith)]; linarith) (by norm_num) (by norm_num)
  have e3 : |4 * rnd Real.pi - 4 * Real.pi| ≤ 12.6 * uu := by
    rw [← mul_sub, abs_mul, abs_of_pos (by norm_num : (0 : ℝ) < 4)]
    have : (0 * (1 + uu) + 3.1416 + 1 / 1000) * uu ≤ 3.15 * uu := mul_le_mul_of_nonneg_right (by linarith) u0.le
    linarith
  have e4 := rnd_step hr (b := 12.5664) e3 (by rw [abs_of_pos (by linarith)]; linarith) (by norm_num) (by norm_num)
  unfold Fl.pyFourPi
  exact e4.trans (mul_le_mul_of_nonneg_right (by linarith) u0.le)

theorem cpDiv_eq (hr : IsRounding rnd) {k : ℤ} (hk : k ≠ 0) (hk2 : |k| ≤ 2 ^ 40) : Fl.cpDiv rnd ⟨0, -1⟩ ⟨(k : ℝ), 0⟩ = ⟨0, rnd (-1 / (k : ℝ))⟩ := by
  have z := rnd_zero hr
  have e1 : rnd (k : ℝ) = k := rnd_int hr k rfl (lt_of_le_of_lt hk2 (by norm_num))
  have e2 : rnd (-1 : ℝ) = ((-1 : ℤ) : ℝ) := rnd_int hr (-1) (by norm_num) (by norm_num)
  unfold Fl.cpDiv
  rw [if_pos (by simp)]
  simp only [zero_div, z, mul_zero, zero_mul, add_zero, sub_zero, e1, e2]
  push_cast
  rfl

theorem setIdx_wrap' {α : Type} {l : List α} {i : Int} (v : α) (h1 : -(l.length : ℤ) ≤ i) (h2 : i < l.length) :
    setIdx l i v = .ok (l.set (i % l.length).toNat v) := by
  rw [wrap_mod h1 h2]
  unfold setIdx
  by_cases h : i < 0
  · simp only [if_pos h]
    rw [if_neg (by omega), if_pos (by omega)]
  · simp only [if_neg h]
    rw [if_pos (by omega)]

theorem kt_set (hr : IsRounding rnd) {mm Q : ℕ} {k : ℤ} (hk : k ≠ 0) (hk2 : |k| ≤ 2 ^ 40) (i : Int) (hi : k = i + mm) (hi1 : -(Q : ℤ) ≤ i) (hi2 : i < Q)
    (s : List ℂ) (t : List (FC rnd)) (h : KT mm Q s t) (hs : s.length = Q) :
    SimR (fun s t => KT mm Q s t ∧ s.length = Q) (setIdx s i (-Complex.I / k)) (setIdx t i (Fl.cpDiv rnd ⟨0, -1⟩ ⟨(k : ℝ), 0⟩)) := by
  intro s' hs'
  have ht : t.length = Q := by rw [← h.1, hs]
  rw [setIdx_wrap' _ (by omega) (by omega), hs] at hs'
  cases hs'
  rw [setIdx_wrap' _ (by omega) (by omega), ht, cpDiv_eq hr hk hk2]
  have hj : (i % (Q : ℤ)).toNat < Q := slot_lt' (by omega) _
  refine ⟨_, rfl, ⟨by simpa using h.1, fun j => ?_⟩, by simpa using hs⟩
  rw [rd_set' _ _ _ _ (by omega), rd_set' _ _ _ _ (by omega)]
  split
  · next hij =>
    have hv : -Complex.I / (k : ℂ) = ⟨0, -1 / (k : ℝ)⟩ := by
      rw [show ((k : ℂ)) = ((k : ℝ) : ℂ) by push_cast; rfl]
      apply Complex.ext
      · rw [Complex.div_ofReal_re]; simp
      · rw [Complex.div_ofReal_im]; simp
    rw [hv]
    refine ⟨rfl, rfl, (rnd_inv hr hk hk2).1, ?_, (rnd_inv hr hk hk2).2⟩
    simp only
    rw [abs_div, abs_neg, abs_one]
    unfold kb
    rw [wrap_mod hi1 hi2] at hij
    by_cases hneg : i < 0
    · rw [if_pos hneg] at hij
      have : ((j + mm : ℕ) : ℝ) - Q = (k : ℝ) := by
        have e : ((j + mm : ℕ) : ℤ) - Q = k := by push_cast; omega
        exact_mod_cast e
      rw [this]
      exact le_add_of_nonneg_left (by positivity)
    · rw [if_neg hneg] at hij
      have : ((j + mm : ℕ) : ℝ) = (k : ℝ) := by
        have e : ((j + mm : ℕ) : ℤ) = k := by push_cast; omega
        exact_mod_cast e
      rw [this]
      exact le_add_of_nonneg_right (by positivity)
  · exact h.2 j

/-- `s_data` in doubles. -/
theorem sdata_err (hr : IsRounding rnd) (L1 Nmax Q : ℕ) (hL : L1 % 2 = 0) (hL0 : 0 < L1) (hQ : L1 + Nmax ≤ Q) (hQ31 : Q ≤ 2 ^ 31) :
    ∃ s t', KernTable L1 Nmax Q s ∧ Fl.sData rnd L1 Nmax Q = .ok t' ∧ t'.length = Q ∧ KT (L1 / 2) Q s t' := by
  obtain ⟨s', e, hk⟩ := sData_spec L1 Nmax Q hL hL0 hQ
  have hsim : SimR (fun s t => KT (rnd := rnd) (L1 / 2) Q s t ∧ s.length = Q) (sData L1 Nmax Q) (Fl.sData rnd L1 Nmax Q) := by
    unfold sData Fl.sData npFull
    rw [if_neg (by omega), if_neg (by omega), if_neg (by omega), if_neg (by omega)]
    simp only [Except.bind_ok, Int.toNat_natCast]
    have h0 : KT (L1 / 2) Q (List.replicate Q (0 : ℂ)) (List.replicate Q (0 : FC rnd)) := by
      refine ⟨by simp, fun i => ?_⟩
      rw [rd_replicate_zero, rd_replicate_zero]
      exact ke_zero
    refine SimR.forL _ (fun k hk a b h => ?_) _ _ ⟨h0, by simp⟩
    have hk' := mem_pyRange.mp hk
    split_ifs with hc
    · exact kt_set hr (by rintro rfl; simp at hc) (by rw [abs_le]; constructor <;> omega) _ (by push_cast; omega) (by omega) (by omega) a b h.1 h.2
    · intro x hx; cases hx; exact ⟨b, rfl, h⟩
  obtain ⟨t', et, hkt, -⟩ := hsim s' e
  exact ⟨s', t', hk, et, by rw [← hkt.1, hk.1], hkt⟩

/-- The last operation of `hkm_fc`. -/
theorem finish (hr : IsRounding rnd) {a : FC rnd} {g : ℂ} {T κ : ℝ} (hT : 2 ^ (-900 : ℤ) ≤ T) (hT' : T ≤ 2 ^ (990 : ℤ)) (hκ : 175 * uu ≤ κ) (hκ' : κ ≤ 1 / 100)
    (ha : ‖FS.val a - g‖ ≤ 3.12 * (T * κ)) (hg : ‖g‖ ≤ T) :
    ‖FS.val ((⟨Fl.pyFourPi rnd, 0⟩ : FC rnd) * a) - 4 * Real.pi * g‖ ≤ 40 * (T * κ) := by
  have u0 := uu_pos
  have u1 := uu_le16
  have hp := pyFourPi_err hr
  have p1 := Real.pi_gt_d20
  have p2 := Real.pi_lt_d20
  have T0 : 0 < T := lt_of_lt_of_le (by positivity) hT
  have hfp : |Fl.pyFourPi rnd| ≤ 12.567 := by
    have := abs_add_le (Fl.pyFourPi rnd - 4 * Real.pi) (4 * Real.pi)
    rw [sub_add_cancel, abs_of_pos (a := 4 * Real.pi) (by linarith)] at this
    linarith
  have tq : tiny ≤ uu * (T * (1 / 4)) / 1000 := FA.tiny_Q hT le_rfl
  have hTκ : T * κ ≤ T * (1 / 100) := mul_le_mul_of_nonneg_left hκ' T0.le
  have hva : ‖FS.val a‖ ≤ 1.04 * T := by
    have := norm_add_le (FS.val a - g) g
    rw [sub_add_cancel] at this
    clear hT hT'
    linarith
  have v4 : FS.val (⟨Fl.pyFourPi rnd, 0⟩ : FC rnd) = ((Fl.pyFourPi rnd : ℝ) : ℂ) := rfl
  have hz : ‖FS.val (⟨Fl.pyFourPi rnd, 0⟩ : FC rnd)‖ * ‖FS.val a‖ ≤ 13.2 * T := by
    rw [v4, Complex.norm_real, Real.norm_eq_abs]
    calc _ ≤ 12.567 * (1.04 * T) := mul_le_mul hfp hva (norm_nonneg _) (by norm_num)
      _ ≤ 13.2 * T := by clear hT hT'; nlinarith
  have uT : 0 < uu * T := mul_pos u0 T0
  have e1 := mul_err hr (a := (⟨Fl.pyFourPi rnd, 0⟩ : FC rnd)) (b := a) (C := 13.2 * T) (by positivity) (by clear hT hT'; nlinarith)
    (le_trans (by clear hT hT'; linarith : 13.2 * T ≤ 4 * (4 * T)) (four_le (four_le (j := 992) hT' (by norm_num)) (by norm_num))) hz
  clear hT hT'
  rw [v4] at e1
  have e2 : ‖((Fl.pyFourPi rnd : ℝ) : ℂ) * FS.val a - 4 * Real.pi * g‖ ≤ 12.567 * (3.12 * (T * κ)) + 26 * uu * T := by
    have : ((Fl.pyFourPi rnd : ℝ) : ℂ) * FS.val a - 4 * Real.pi * g =
        ((Fl.pyFourPi rnd : ℝ) : ℂ) * (FS.val a - g) + ((Fl.pyFourPi rnd - 4 * Real.pi : ℝ) : ℂ) * g := by push_cast; ring
    rw [this]
    refine (norm_add_le _ _).trans (add_le_add ?_ ?_)
    · rw [norm_mul, Complex.norm_real, Real.norm_eq_abs]
      exact mul_le_mul hfp ha (norm_nonneg _) (by norm_num)
    · rw [norm_mul, Complex.norm_real, Real.norm_eq_abs]
      exact mul_le_mul hp hg (norm_nonneg _) (by positivity)
  have e5 := norm_add_le (FS.val ((⟨Fl.pyFourPi rnd, 0⟩ : FC rnd) * a) - ((Fl.pyFourPi rnd : ℝ) : ℂ) * FS.val a) (((Fl.pyFourPi rnd : ℝ) : ℂ) * FS.val a - 4 * Real.pi * g)
  rw [sub_add_sub_cancel] at e5
  refine e5.trans ((add_le_add e1 e2).trans ?_)
  have e7 : T * (175 * uu) ≤ T * κ := mul_le_mul_of_nonneg_left hκ T0.le
  nlinarith

end FP
end Verif.Props
