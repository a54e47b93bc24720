import Verif.Props.FloatKiss9
import Verif.Props.FloatKissL1
import Verif.Props.FloatVec1
/-!
# The fast convolution of the C extension in doubles
-/
namespace Verif.Props
open Verif Finset

variable {rnd : ℝ → ℝ}

namespace FK

theorem fourPi_err (hr : IsRounding rnd) : |Fl.fourPi rnd - 4 * Real.pi| ≤ 26 * uu := by
  have u0 := uu_pos
  have u1 := uu_le16
  have p1 := Real.pi_gt_d20
  have p2 := Real.pi_lt_d20
  have hu : 1 / 10 ^ 19 ≤ uu / 1000 := by
    unfold uu
    rw [show (2 : ℝ) ^ (-53 : ℤ) = 1 / 2 ^ 53 by rw [zpow_neg]; norm_num]
    norm_num
  obtain ⟨L, hL⟩ : ∃ L : ℝ, L = 314159265358979323846 / 10 ^ 20 := ⟨_, rfl⟩
  have l1 : 3.14159265358979323846 ≤ L := by rw [hL]; norm_num
  have l2 : L ≤ 3.14159265358979323846 := by rw [hL]; norm_num
  have e1 : |L - Real.pi| ≤ 1 / 1000 * uu := by
    rw [abs_le]; constructor <;> linarith
  have e2 := rnd_step hr (b := 3.1416) e1 (by rw [abs_of_pos (by linarith)]; linarith) (by norm_num) (by norm_num)
  have e3 : |4 * rnd L - 4 * Real.pi| ≤ 12.6 * uu := by
    rw [← mul_sub, abs_mul, abs_of_pos (by norm_num : (0 : ℝ) < 4)]
    have : (1 / 1000 * (1 + uu) + 3.1416 + 1 / 1000) * uu ≤ 3.15 * uu := mul_le_mul_of_nonneg_right (by linarith) u0.le
    linarith
  have e4 := rnd_step hr (b := 12.5664) e3 (by rw [abs_of_pos (by linarith)]; linarith) (by norm_num) (by norm_num)
  unfold Fl.fourPi
  rw [← hL]
  exact e4.trans (mul_le_mul_of_nonneg_right (by linarith) u0.le)

/-- The last two operations of `hkm_fc`. -/
theorem finish (hr : IsRounding rnd) {a : FC rnd} {g : ℂ} {T κ : ℝ} {Q : ℕ} (hQ : 1 ≤ Q) (hT : 2 ^ (-900 : ℤ) ≤ T / Q) (hT' : T ≤ 2 ^ (990 : ℤ)) (hκ : 175 * uu ≤ κ) (hκ' : κ ≤ 1 / 100)
    (ha : ‖FS.val a - g‖ ≤ 3.11 * (T * κ)) (hg : ‖g‖ ≤ T) :
    ‖FS.val (⟨rnd (rnd (Fl.fourPi rnd * a.re) / ((Q : ℤ) : ℝ)), rnd (rnd (Fl.fourPi rnd * a.im) / ((Q : ℤ) : ℝ))⟩ : FC rnd) - 4 * Real.pi * (g / Q)‖ ≤ 40 * (T / Q * κ) := by
  have u0 := uu_pos
  have u1 := uu_le16
  have hp := fourPi_err hr
  have p1 := Real.pi_gt_d20
  have p2 := Real.pi_lt_d20
  have q1 : (1 : ℝ) ≤ Q := by exact_mod_cast hQ
  have q0 : (0 : ℝ) < Q := by linarith
  have TQ0 : 0 < T / Q := lt_of_lt_of_le (by positivity) hT
  have T0 : 0 < T := by
    have := mul_pos TQ0 q0
    rwa [div_mul_cancel₀ _ q0.ne'] at this
  have hTT : T / Q ≤ T := div_le_self T0.le q1
  have hfp : |Fl.fourPi rnd| ≤ 12.567 := by
    have := abs_add_le (Fl.fourPi rnd - 4 * Real.pi) (4 * Real.pi)
    rw [sub_add_cancel, abs_of_pos (a := 4 * Real.pi) (by linarith)] at this
    linarith
  have tq : tiny ≤ uu * (T / Q * (1 / 4)) / 1000 := FA.tiny_Q hT le_rfl
  have hTκ : T * κ ≤ T * (1 / 100) := mul_le_mul_of_nonneg_left hκ' T0.le
  have hva : ‖FS.val a‖ ≤ 1.04 * T := by
    have := norm_add_le (FS.val a - g) g
    rw [sub_add_cancel] at this
    linarith
  -- first product
  have hz : ‖((Fl.fourPi rnd : ℝ) : ℂ) * FS.val a‖ ≤ 13.2 * T := by
    rw [norm_mul, Complex.norm_real, Real.norm_eq_abs]
    calc _ ≤ 12.567 * (1.04 * T) := mul_le_mul hfp hva (norm_nonneg _) (by norm_num)
      _ ≤ 13.2 * T := by nlinarith
  have e1 := FV.cr_err hr (a := (⟨rnd (Fl.fourPi rnd * a.re), rnd (Fl.fourPi rnd * a.im)⟩ : FC rnd)) (z := ((Fl.fourPi rnd : ℝ) : ℂ) * FS.val a) (B := 13.2 * T)
    (by positivity) (by nlinarith) (le_trans (by linarith : 13.2 * T ≤ 4 * (4 * T)) (four_le (four_le (j := 992) hT' (by norm_num)) (by norm_num)))
    (by rw [Complex.re_ofReal_mul]; rfl) (by rw [Complex.im_ofReal_mul]; rfl) hz
  have e2 : ‖((Fl.fourPi rnd : ℝ) : ℂ) * FS.val a - ((4 * Real.pi : ℝ) : ℂ) * g‖ ≤ 12.567 * (3.11 * (T * κ)) + 26 * uu * T := by
    have : ((Fl.fourPi rnd : ℝ) : ℂ) * FS.val a - ((4 * Real.pi : ℝ) : ℂ) * g =
        ((Fl.fourPi rnd : ℝ) : ℂ) * (FS.val a - g) + ((Fl.fourPi rnd - 4 * Real.pi : ℝ) : ℂ) * g := by push_cast; ring
    rw [this]
    refine (norm_add_le _ _).trans (add_le_add ?_ ?_)
    · rw [norm_mul, Complex.norm_real, Real.norm_eq_abs]
      exact mul_le_mul hfp ha (norm_nonneg _) (by norm_num)
    · rw [norm_mul, Complex.norm_real, Real.norm_eq_abs]
      exact mul_le_mul hp hg (norm_nonneg _) (by positivity)
  obtain ⟨b, hb⟩ : ∃ b : FC rnd, b = ⟨rnd (Fl.fourPi rnd * a.re), rnd (Fl.fourPi rnd * a.im)⟩ := ⟨_, rfl⟩
  rw [← hb] at e1
  have hbr : rnd (Fl.fourPi rnd * a.re) = b.re := by rw [hb]
  have hbi : rnd (Fl.fourPi rnd * a.im) = b.im := by rw [hb]
  rw [hbr, hbi]
  have uT : 0 < uu * T := mul_pos u0 T0
  have uTs : uu * T ≤ 1 / 10 ^ 6 * T := mul_le_mul_of_nonneg_right (by linarith) T0.le
  have hbn : ‖FS.val b‖ ≤ 13.3 * T := by
    have := norm_add_le (FS.val b - ((Fl.fourPi rnd : ℝ) : ℂ) * FS.val a) (((Fl.fourPi rnd : ℝ) : ℂ) * FS.val a)
    rw [sub_add_cancel] at this
    linarith
  -- quotient
  have hz2 : ‖((1 / Q : ℝ) : ℂ) * FS.val b‖ ≤ 13.3 * (T / Q) := by
    rw [norm_mul, Complex.norm_real, Real.norm_eq_abs, abs_of_pos (by positivity)]
    have : (1 / (Q : ℝ)) * ‖FS.val b‖ ≤ 1 / Q * (13.3 * T) := mul_le_mul_of_nonneg_left hbn (by positivity)
    refine this.trans (le_of_eq ?_)
    ring
  have e3 := FV.cr_err hr (a := (⟨rnd (b.re / ((Q : ℤ) : ℝ)), rnd (b.im / ((Q : ℤ) : ℝ))⟩ : FC rnd)) (z := ((1 / Q : ℝ) : ℂ) * FS.val b) (B := 13.3 * (T / Q))
    (by positivity) (by linarith [mul_pos u0 TQ0]) (le_trans (by linarith : 13.3 * (T / Q) ≤ 4 * (4 * T)) (four_le (four_le (j := 992) hT' (by norm_num)) (by norm_num)))
    (by rw [Complex.re_ofReal_mul]; simp only [Int.cast_natCast]; congr 1; rw [one_div, inv_mul_eq_div]; rfl)
    (by rw [Complex.im_ofReal_mul]; simp only [Int.cast_natCast]; congr 1; rw [one_div, inv_mul_eq_div]; rfl) hz2
  have e4 : ‖((1 / Q : ℝ) : ℂ) * FS.val b - 4 * Real.pi * (g / Q)‖ ≤ (3 * uu * (13.2 * T) + (12.567 * (3.11 * (T * κ)) + 26 * uu * T)) / Q := by
    have : ((1 / Q : ℝ) : ℂ) * FS.val b - 4 * Real.pi * (g / Q) = ((1 / Q : ℝ) : ℂ) * ((FS.val b - ((Fl.fourPi rnd : ℝ) : ℂ) * FS.val a) +
        (((Fl.fourPi rnd : ℝ) : ℂ) * FS.val a - ((4 * Real.pi : ℝ) : ℂ) * g)) := by push_cast; ring
    rw [this, norm_mul, Complex.norm_real, Real.norm_eq_abs, abs_of_pos (by positivity), one_div, inv_mul_eq_div]
    exact div_le_div_of_nonneg_right ((norm_add_le _ _).trans (add_le_add e1 e2)) q0.le
  have e5 := norm_add_le (FS.val (⟨rnd (b.re / ((Q : ℤ) : ℝ)), rnd (b.im / ((Q : ℤ) : ℝ))⟩ : FC rnd) - ((1 / Q : ℝ) : ℂ) * FS.val b)
    (((1 / Q : ℝ) : ℂ) * FS.val b - 4 * Real.pi * (g / Q))
  rw [sub_add_sub_cancel] at e5
  refine e5.trans ?_
  have e6 : (3 * uu * (13.2 * T) + (12.567 * (3.11 * (T * κ)) + 26 * uu * T)) / Q = 3 * uu * (13.2 * (T / Q)) + (12.567 * (3.11 * (T / Q * κ)) + 26 * uu * (T / Q)) := by
    ring
  rw [e6] at e4
  have e7 : T / Q * (175 * uu) ≤ T / Q * κ := mul_le_mul_of_nonneg_left hκ TQ0.le
  nlinarith

/-- A configuration on which `kiss_fft` is accurate to `κ` relative to the sum of weights bounding the inputs. -/
structure FOK (cfg : Fl.KissCfg rnd) (inv : Bool) (Q : ℕ) (κ : ℝ) : Prop where
  fft : ∀ (buf : List (FC rnd)), buf.length = Q → ∀ w : ℕ → ℝ, (∀ i, 2 ^ (-900 : ℤ) ≤ w i) → (∀ i, w i ≤ 2 ^ (900 : ℤ)) →
    (∀ i, i < Q → ‖FS.val (rd buf i)‖ ≤ w i) → ∀ junk : ℕ → FC rnd,
    ∃ out, Fl.kissFft rnd cfg buf junk = .ok out ∧ out.length = Q ∧ ∀ k, k < Q →
      ‖FS.val (rd out k) - ∑ j ∈ range Q, FS.val (rd buf j) * twd inv Q ((j * k : ℕ) : ℤ)‖ ≤ (∑ j ∈ range Q, w j) * κ

theorem FOK.unif {cfg : Fl.KissCfg rnd} {inv : Bool} {Q : ℕ} {κ : ℝ} (h : FOK cfg inv Q κ) (buf : List (FC rnd)) (hb : buf.length = Q) (X : ℝ) (hX : 2 ^ (-900 : ℤ) ≤ X)
    (hX' : X ≤ 2 ^ (900 : ℤ)) (hbuf : ∀ i, i < Q → ‖FS.val (rd buf i)‖ ≤ X) (junk : ℕ → FC rnd) :
    ∃ out, Fl.kissFft rnd cfg buf junk = .ok out ∧ out.length = Q ∧ ∀ k, k < Q →
      ‖FS.val (rd out k) - ∑ j ∈ range Q, FS.val (rd buf j) * twd inv Q ((j * k : ℕ) : ℤ)‖ ≤ Q * X * κ := by
  have := h.fft buf hb (fun _ => X) (fun _ => hX) (fun _ => hX') hbuf junk
  rwa [sum_const, card_range, nsmul_eq_mul] at this

theorem alloc_fok (hr : IsRounding rnd) {lm : Fl.LibM} (hl : LibMWithin lm) (Q : ℕ) (inv : Bool) (hQ : 2 ≤ Q) (hQ2 : Q ≤ 2 ^ 31) (h5 : ∀ t : ℕ, t.Prime → t ∣ Q → t ≤ 5) :
    ∃ cfg, Fl.kissAlloc rnd lm Q inv = .ok cfg ∧ FOK cfg inv Q (950 * Nat.log 2 Q * uu) := by
  obtain ⟨cfg, e, h⟩ := fft_all_l1 hr hl Q inv hQ hQ2 h5
  exact ⟨cfg, e, ⟨h⟩⟩

end FK
end Verif.Props
