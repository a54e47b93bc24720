import Verif.Props.FloatAnal3
import Verif.Props.Transforms5
/-!
# `spht` in doubles: the Fourier array and the convolution
-/
namespace Verif.Props
open Verif Finset

variable {rnd : ℝ → ℝ}

/-- What is assumed of `np.fft.fft2(ds) / (dnrows * ncols)`: every entry is within `δ` of the exact one. -/
def Fft2Within (fft : Arr2 (FC rnd) → Res (Arr2 (FC rnd))) (δ : ℝ) (D : Arr2 (FC rnd)) : Prop :=
  ∃ f f', fft D = .ok f ∧ npFft2 (D.map FS.val) = .ok f' ∧ f.rows = f'.rows ∧ f.cols = f'.cols ∧
    ∀ i j, i < f.rows → j < f.cols → ‖FS.val (f.at' i j) - f'.at' i j / ((D.rows * D.cols : ℕ) : ℂ)‖ ≤ δ

/-- The exact convolution: the first lines of `bnm_vec_fc`, pysphi.py 173-176, without rounding. -/
noncomputable def convExact (A : Arr2 ℂ) (Nmax m : Int) : Res (List ℂ) :=
  (orDiverge (smallestPrimeFactor (A.rows + Nmax))).bind fun Q =>
  (sData A.rows Nmax Q).bind fun s =>
  hkmFc A Nmax m s

/-- What is assumed of the fast convolution on the array `G`: it returns doubles within `δ` of the exact values. -/
def ConvWithin (conv : Arr2 (FC rnd) → Int → Int → Res (List (FC rnd))) (δ : ℝ) (G : Arr2 (FC rnd)) (N m : Int) : Prop :=
  ∃ h h', conv G N m = .ok h ∧ convExact (G.map FS.val) N m = .ok h' ∧ h.length = h'.length ∧
    ∀ i, i < h.length → (rnd (rd h i).re = (rd h i).re ∧ rnd (rd h i).im = (rd h i).im) ∧ ‖FS.val (rd h i) - rd h' i‖ ≤ δ

namespace FA

/-- The source row of row `i` of the extended array of `R + 2` rows after `sin_fc` has zeroed two rows. -/
def sel (R i : ℕ) : Option ℕ :=
  if i = R / 2 ∨ i = R / 2 + 2 then none else if i < R / 2 then some i else if R + 2 - (R / 2 - 1) ≤ i then some (i - 2) else none

/-- The shuffled array. -/
def Zof {α : Type} [Zero α] (R C : ℕ) (f : Arr2 α) : Arr2 α :=
  Arr2.ofFn (R + 2) C fun i j => match sel R i with
    | some k => f.at' k j
    | none => 0

theorem arr_ext_ofFn {α : Type} [Zero α] {r c : ℕ} {f g : ℕ → ℕ → α} (h : ∀ i j, i < r → j < c → f i j = g i j) : Arr2.ofFn r c f = Arr2.ofFn r c g := by
  refine Arr2.ext' rfl rfl fun i j hi hj => ?_
  rw [Arr2.rows_ofFn] at hi
  rw [Arr2.cols_ofFn] at hj
  rw [Arr2.at'_ofFn hi hj, Arr2.at'_ofFn hi hj, h i j hi hj]

/-- `fix_even_row_data_fc`, `pad_rows_fdata` and the zeroing of `sin_fc`. -/
theorem shuffle {α : Type} [Zero α] (f : Arr2 α) (R C : ℕ) (hr : f.rows = R) (hc : f.cols = C) (hR : R % 2 = 0) (hR0 : 2 ≤ R) :
    ∃ E, ((fixEvenRow f).bind fun f => padRows f (R + 2)) = .ok E ∧ E.rows = R + 2 ∧ E.cols = C ∧
      (E.setRow ((E.rows - 2) / 2) fun _ => 0).setRow (((E.setRow ((E.rows - 2) / 2) fun _ => 0).rows + 2) / 2) (fun _ => 0) = Zof R C f := by
  subst hr hc
  unfold fixEvenRow
  rw [if_pos hR, if_neg (by omega)]
  simp only [Except.bind_ok]
  unfold padRows
  have e1 : (f.setRow (f.rows / 2) fun _ => 0).rows = f.rows := rfl
  have e2 : (f.setRow (f.rows / 2) fun _ => 0).cols = f.cols := rfl
  rw [e1, if_neg (by omega), if_neg (by omega), e2]
  refine ⟨_, rfl, rfl, rfl, ?_⟩
  unfold Zof
  rw [show ∀ (A : Arr2 α) i g, A.setRow i g = Arr2.ofFn A.rows A.cols fun r c => if r = i then g c else A.at' r c from fun _ _ _ => rfl]
  simp only [Arr2.setRow, Arr2.rows_ofFn, Arr2.cols_ofFn]
  refine arr_ext_ofFn fun i j hi hj => ?_
  rw [Arr2.at'_ofFn hi hj, Arr2.at'_ofFn hi hj]
  unfold sel
  by_cases a1 : i = (f.rows + 2 + 2) / 2
  · rw [if_pos a1, if_pos (show i = f.rows / 2 ∨ i = f.rows / 2 + 2 by omega)]
  by_cases a2 : i = (f.rows + 2 - 2) / 2
  · rw [if_neg a1, if_pos a2, if_pos (show i = f.rows / 2 ∨ i = f.rows / 2 + 2 by omega)]
  rw [if_neg a1, if_neg a2, if_neg (show ¬ (i = f.rows / 2 ∨ i = f.rows / 2 + 2) by omega)]
  by_cases a3 : i < f.rows / 2
  · rw [if_pos a3, if_pos a3, Arr2.at'_ofFn (by omega) hj, if_neg (show ¬ (_ = f.rows / 2) by omega)]
  rw [if_neg a3, if_neg a3]
  by_cases a4 : f.rows + 2 - (f.rows / 2 - 1) ≤ i
  · rw [if_pos ⟨a4, by omega⟩, if_pos a4, Arr2.at'_ofFn (by omega) hj, if_neg (show ¬ (_ = f.rows / 2) by omega)]
    simp only
    congr 1; omega
  · rw [if_neg (show ¬ (f.rows + 2 - (f.rows / 2 - 1) ≤ i ∧ f.rows / 2 ≠ 0) by omega), if_neg a4]

/-- `1.0 / (2 * 1j)`. -/
theorem half_i (hrd : NoOverflow rnd) : (1 : FC rnd) / ((2 : FC rnd) * ⟨0, 1⟩) = ⟨0, -(1 / 2)⟩ := by
  have r0 := FS.rnd0 hrd
  have r2 := rnd_two hrd.toIsRounding
  have b1 : (1 : ℝ) ≤ 2 ^ 1023 := one_le_pow₀ (by norm_num)
  have r1 : rnd 1 = 1 := rnd_double hrd.toIsRounding (by simpa using isDouble_pow 0 (by norm_num) (by norm_num)) (by rw [abs_one]; exact b1)
  have rh : rnd (1 / 2) = 1 / 2 := rnd_double hrd.toIsRounding (by
    have := isDouble_pow (-1) (by norm_num) (by norm_num)
    rwa [show (2 : ℝ) ^ (-1 : ℤ) = 1 / 2 by norm_num] at this) (by rw [abs_of_pos (by norm_num)]; exact le_trans (by norm_num : (1 : ℝ) / 2 ≤ 1) b1)
  have e : (2 : FC rnd) * ⟨0, 1⟩ = ⟨0, 2⟩ := by
    rw [two_def, mul_def]
    simp only [mul_zero, zero_mul, mul_one, r0, r2, sub_zero, add_zero]
  rw [e]
  show (if |(2 : ℝ)| ≤ |(0 : ℝ)| then _ else _) = _
  rw [if_neg (by norm_num)]
  show (⟨rnd (rnd (rnd (1 * rnd (0 / 2)) + 0) * rnd (1 / rnd (2 + rnd (0 * rnd (0 / 2))))), rnd (rnd (rnd (0 * rnd (0 / 2)) - 1) * rnd (1 / rnd (2 + rnd (0 * rnd (0 / 2)))))⟩ : FC rnd) = _
  simp only [zero_div, r0, mul_zero, add_zero, zero_mul, zero_sub, hrd.neg, r1, r2, rh, neg_mul, one_mul]

/-- One entry of `sin_fc`. -/
theorem sin_entry (hrd : NoOverflow rnd) (a b : FC rnd) :
    (1 : FC rnd) / ((2 : FC rnd) * ⟨0, 1⟩) * (a - b) = ⟨rnd (rnd (a.im - b.im) / 2), -rnd (rnd (a.re - b.re) / 2)⟩ := by
  have r0 := FS.rnd0 hrd
  rw [half_i hrd, mul_def]
  show (⟨rnd (rnd (0 * rnd (a.re - b.re)) - rnd (-(1 / 2) * rnd (a.im - b.im))), rnd (rnd (0 * rnd (a.im - b.im)) + rnd (-(1 / 2) * rnd (a.re - b.re)))⟩ : FC rnd) = _
  simp only [zero_mul, r0, zero_sub, zero_add, neg_mul, hrd.neg, neg_neg, hrd.idem]
  rw [show ∀ x : ℝ, 1 / 2 * x = x / 2 from fun x => by ring, show ∀ x : ℝ, 1 / 2 * x = x / 2 from fun x => by ring]

theorem half_err (hr : IsRounding rnd) {x B : ℝ} (hB0 : 0 ≤ B) (ht : tiny ≤ uu * B / 100) (hB : B ≤ 2 ^ (1000 : ℤ)) (hx : |x| ≤ 2 * B) :
    |rnd (rnd x / 2) - x / 2| ≤ 3 * uu * B := by
  have re : ∀ x, |x| ≤ 4000 * B → |rnd x - x| ≤ uu * |x| + tiny / 2 := by
    intro x hx
    refine rnd_err hr (hx.trans ?_)
    rw [show (1022 : ℤ) = 22 + 1000 by norm_num, zpow_add₀ (by norm_num)]
    exact mul_le_mul (by norm_num) hB hB0 (by positivity)
  clear hB
  have u0 := uu_pos
  have u1 := uu_le
  have uB : 0 ≤ uu * B := by positivity
  have uB' : uu * B ≤ B / 10 ^ 9 := by nlinarith
  have a1 := re x (by linarith)
  have a2 : uu * |x| ≤ uu * (2 * B) := mul_le_mul_of_nonneg_left hx u0.le
  have a3 : |rnd x| ≤ 2.1 * B := by
    have := abs_add_le (rnd x - x) x
    rw [sub_add_cancel] at this
    linarith
  have e : |rnd x / 2| = |rnd x| / 2 := by rw [abs_div, abs_of_pos (by norm_num : (0 : ℝ) < 2)]
  have a4 := re (rnd x / 2) (by rw [e]; linarith)
  rw [e] at a4
  have a5 : uu * (|rnd x| / 2) ≤ uu * (1.05 * B) := mul_le_mul_of_nonneg_left (by linarith) u0.le
  have a6 := abs_sub_le (rnd (rnd x / 2)) (rnd x / 2) (x / 2)
  have e2 : |rnd x / 2 - x / 2| = |rnd x - x| / 2 := by rw [← sub_div, abs_div, abs_of_pos (by norm_num : (0 : ℝ) < 2)]
  rw [e2] at a6
  linarith

/-- `sin_fc` in doubles against the exact one, one entry. -/
theorem sin_err (hrd : NoOverflow rnd) {a b : FC rnd} {a' b' : ℂ} {B δ : ℝ} (hB0 : 0 ≤ B) (ht : tiny ≤ uu * B / 100) (hB : B ≤ 2 ^ (1000 : ℤ))
    (ha : ‖FS.val a‖ ≤ B) (hb : ‖FS.val b‖ ≤ B) (h1 : ‖FS.val a - a'‖ ≤ δ) (h2 : ‖FS.val b - b'‖ ≤ δ) :
    ‖FS.val ((1 : FC rnd) / ((2 : FC rnd) * ⟨0, 1⟩) * (a - b)) - 1.0 / (2 * Complex.I) * (a' - b')‖ ≤ δ + 6 * uu * B := by
  have hr := hrd.toIsRounding
  rw [sin_entry hrd]
  have c1 : |a.re| ≤ B := (Complex.abs_re_le_norm (FS.val a)).trans ha
  have c2 : |a.im| ≤ B := (Complex.abs_im_le_norm (FS.val a)).trans ha
  have c3 : |b.re| ≤ B := (Complex.abs_re_le_norm (FS.val b)).trans hb
  have c4 : |b.im| ≤ B := (Complex.abs_im_le_norm (FS.val b)).trans hb
  have d1 := half_err hr hB0 ht hB (x := a.im - b.im) ((abs_sub _ _).trans (by linarith))
  have d2 := half_err hr hB0 ht hB (x := a.re - b.re) ((abs_sub _ _).trans (by linarith))
  have hc : ∀ z : ℂ, 1.0 / (2 * Complex.I) * z = -(Complex.I / 2) * z := by
    intro z
    have : (1.0 : ℂ) / (2 * Complex.I) = -(Complex.I / 2) := by
      rw [show (1.0 : ℂ) = 1 by norm_num, div_eq_iff (by simp [Complex.I_ne_zero])]
      have := Complex.I_mul_I
      linear_combination this
    rw [this]
  have e : -(Complex.I / 2) * (FS.val a - FS.val b) = ⟨(a.im - b.im) / 2, -((a.re - b.re) / 2)⟩ := by
    apply Complex.ext <;> simp [FS.val] <;> ring
  rw [hc]
  have s1 : ‖FS.val (⟨rnd (rnd (a.im - b.im) / 2), -rnd (rnd (a.re - b.re) / 2)⟩ : FC rnd) - -(Complex.I / 2) * (FS.val a - FS.val b)‖ ≤ 6 * uu * B := by
    rw [e]
    refine (Complex.norm_le_abs_re_add_abs_im _).trans ?_
    rw [Complex.sub_re, Complex.sub_im]
    show |rnd (rnd (a.im - b.im) / 2) - (a.im - b.im) / 2| + |-rnd (rnd (a.re - b.re) / 2) - -((a.re - b.re) / 2)| ≤ _
    rw [show -rnd (rnd (a.re - b.re) / 2) - -((a.re - b.re) / 2) = -(rnd (rnd (a.re - b.re) / 2) - (a.re - b.re) / 2) by ring, abs_neg]
    linarith
  have s2 : ‖-(Complex.I / 2) * (FS.val a - FS.val b) - -(Complex.I / 2) * (a' - b')‖ ≤ δ := by
    rw [← mul_sub, norm_mul, norm_neg, norm_div, Complex.norm_I, Complex.norm_ofNat, show FS.val a - FS.val b - (a' - b') = (FS.val a - a') - (FS.val b - b') by ring]
    have := norm_sub_le (FS.val a - a') (FS.val b - b')
    linarith
  have := norm_sub_le_norm_sub_add_norm_sub (FS.val (⟨rnd (rnd (a.im - b.im) / 2), -rnd (rnd (a.re - b.re) / 2)⟩ : FC rnd)) (-(Complex.I / 2) * (FS.val a - FS.val b)) (-(Complex.I / 2) * (a' - b'))
  linarith

end FA
end Verif.Props
