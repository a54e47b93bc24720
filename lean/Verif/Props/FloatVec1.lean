import Verif.FloatVec
import Verif.Props.FloatAnal4
/-!
# Rounding errors of the vector operators

One entry at a time: products with `i q`, the recursion of `divsin_fc`.
-/
namespace Verif.Props
open Verif Finset

variable {rnd : ℝ → ℝ}

namespace FV

/-- The entry of an array at frequencies `ν` (row) and `m` (column), indices taken modulo the shape. -/
def fA {α : Type} [Zero α] (A : Arr2 α) (m ν : ℤ) : α := A.at' (ν % A.rows).toNat (m % A.cols).toNat

section generic
variable {α β γ : Type} [Zero α] [Zero β] [Zero γ]

theorem fA_ofFn (r c : ℕ) (X : ℕ → ℕ → α) (hr : 0 < r) (hc : 0 < c) (m ν : ℤ) : fA (Arr2.ofFn r c X) m ν = X (ν % r).toNat (m % c).toNat := by
  unfold fA
  exact Arr2.at'_ofFn (slot_lt' hr ν) (slot_lt' hc m)

theorem fA_map (A : Arr2 α) (g : α → β) (hr : 0 < A.rows) (hc : 0 < A.cols) (m ν : ℤ) : fA (A.map g) m ν = g (fA A m ν) := by
  unfold fA
  exact Arr2.at'_map _ _ (slot_lt' hr ν) (slot_lt' hc m)

theorem fA_zip (A : Arr2 α) (B : Arr2 β) (g : α → β → γ) (hr : 0 < A.rows) (hc : 0 < A.cols) (h1 : B.rows = A.rows) (h2 : B.cols = A.cols) (m ν : ℤ) :
    fA (A.zip g B) m ν = g (fA A m ν) (fA B m ν) := by
  unfold Arr2.zip
  rw [fA_ofFn _ _ _ hr hc]
  unfold fA
  rw [h1, h2]

theorem fA_setRow (A : Arr2 α) (R C : ℕ) (hR : A.rows = R) (hC : A.cols = C) (i : ℕ) (row : ℕ → α) (hr : 0 < R) (hc : 0 < C) (m ν : ℤ) :
    fA (A.setRow i row) m ν = if (ν % R).toNat = i then row (m % C).toNat else fA A m ν := by
  subst hR hC
  unfold Arr2.setRow
  rw [fA_ofFn _ _ _ hr hc]
  rfl

end generic

theorem norm_val_le (z : FC rnd) {B : ℝ} (h1 : |z.re| ≤ B) (h2 : |z.im| ≤ B) : ‖FS.val z‖ ≤ 2 * B := by
  refine (Complex.norm_le_abs_re_add_abs_im _).trans ?_
  have e1 : (FS.val z).re = z.re := rfl
  have e2 : (FS.val z).im = z.im := rfl
  rw [e1, e2]; linarith

/-- Rounding both components of a complex number. -/
theorem cr_err (hr : IsRounding rnd) {a : FC rnd} {z : ℂ} {B : ℝ} (hB0 : 0 ≤ B) (ht : tiny ≤ uu * B / 100) (hB : B ≤ 2 ^ (1020 : ℤ))
    (h1 : a.re = rnd z.re) (h2 : a.im = rnd z.im) (hz : ‖z‖ ≤ B) : ‖FS.val a - z‖ ≤ 3 * uu * B := by
  have big : B ≤ 2 ^ (1022 : ℤ) := hB.trans (zpow_le_zpow_right₀ (by norm_num) (by norm_num))
  have x1 := (Complex.abs_re_le_norm z).trans hz
  have x2 := (Complex.abs_im_le_norm z).trans hz
  have a1 := rnd_err hr (x1.trans big)
  have a2 := rnd_err hr (x2.trans big)
  have u0 := uu_pos
  have b1 := mul_le_mul_of_nonneg_left x1 u0.le
  have b2 := mul_le_mul_of_nonneg_left x2 u0.le
  have uB : 0 ≤ uu * B := by positivity
  refine (Complex.norm_le_abs_re_add_abs_im _).trans ?_
  have e1 : (FS.val a - z).re = rnd z.re - z.re := by rw [← h1]; rfl
  have e2 : (FS.val a - z).im = rnd z.im - z.im := by rw [← h2]; rfl
  rw [e1, e2]
  clear big hB
  linarith

theorem iq_eq (hrd : NoOverflow rnd) {q : ℝ} (hq : rnd q = q) : (⟨0, 1⟩ : FC rnd) * ⟨q, 0⟩ = ⟨0, q⟩ := by
  have r0 := FS.rnd0 hrd
  show (⟨rnd (rnd (0 * q) - rnd (1 * 0)), rnd (rnd (0 * 0) + rnd (1 * q))⟩ : FC rnd) = _
  simp only [zero_mul, mul_zero, one_mul, r0, sub_zero, zero_add, hq]

theorem im_mul (hrd : NoOverflow rnd) (q : ℝ) (x : FC rnd) : (⟨0, q⟩ : FC rnd) * x = ⟨-rnd (q * x.im), rnd (q * x.re)⟩ := by
  have r0 := FS.rnd0 hrd
  show (⟨rnd (rnd (0 * x.re) - rnd (q * x.im)), rnd (rnd (0 * x.im) + rnd (q * x.re))⟩ : FC rnd) = _
  simp only [zero_mul, r0, zero_sub, zero_add, hrd.neg, hrd.idem]

theorem two_i (hrd : NoOverflow rnd) : (2 : FC rnd) * ⟨0, 1⟩ = ⟨0, 2⟩ := by
  have r0 := FS.rnd0 hrd
  have r2 := FA.rnd_two hrd.toIsRounding
  show (⟨rnd (rnd (2 * 0) - rnd (0 * 1)), rnd (rnd (2 * 1) + rnd (0 * 0))⟩ : FC rnd) = _
  simp only [mul_zero, zero_mul, mul_one, r0, sub_zero, add_zero, r2]

theorem im_mul_fix (hrd : NoOverflow rnd) (q : ℝ) (x : FC rnd) : FS.Fix ((⟨0, q⟩ : FC rnd) * x) := by
  rw [im_mul hrd]
  exact ⟨by rw [hrd.neg, hrd.idem], hrd.idem _⟩

theorem im_mul_zero (hrd : NoOverflow rnd) (q : ℝ) : (⟨0, q⟩ : FC rnd) * 0 = 0 := by
  rw [im_mul hrd]
  show (⟨-rnd (q * 0), rnd (q * 0)⟩ : FC rnd) = ⟨0, 0⟩
  rw [mul_zero, FS.rnd0 hrd, neg_zero]

/-- Multiplication by `i` and by `-i` is exact. -/
theorem val_i (hrd : NoOverflow rnd) {x : FC rnd} (hx : FS.Fix x) : FS.val ((⟨0, 1⟩ : FC rnd) * x) = Complex.I * FS.val x ∧ FS.Fix ((⟨0, 1⟩ : FC rnd) * x) := by
  refine ⟨?_, im_mul_fix hrd _ _⟩
  rw [im_mul hrd, one_mul, one_mul, hx.1, hx.2]
  apply Complex.ext <;> simp [FS.val]

theorem val_negi (hrd : NoOverflow rnd) {x : FC rnd} (hx : FS.Fix x) : FS.val ((⟨0, -1⟩ : FC rnd) * x) = -Complex.I * FS.val x ∧ FS.Fix ((⟨0, -1⟩ : FC rnd) * x) := by
  refine ⟨?_, im_mul_fix hrd _ _⟩
  rw [im_mul hrd, neg_one_mul, neg_one_mul, hrd.neg, hrd.neg, hx.1, hx.2]
  apply Complex.ext <;> simp [FS.val]

/-- A product with `i q`. -/
theorem im_err (hrd : NoOverflow rnd) {q : ℝ} {x : FC rnd} {z : ℂ} {Γ E Q : ℝ} (hQ : |q| ≤ Q) (hE : E ≤ Γ / 100) (ht : tiny ≤ uu * Γ / 1000) (hG0 : 0 ≤ Γ) (hQ1 : 1 ≤ Q)
    (hB : Q * Γ ≤ 2 ^ (1000 : ℤ)) (hz : ‖z‖ ≤ Γ) (hx : ‖FS.val x - z‖ ≤ E) :
    ‖FS.val ((⟨0, q⟩ : FC rnd) * x) - Complex.I * q * z‖ ≤ Q * (E + 4 * uu * Γ) := by
  have u0 := uu_pos
  have E0 : 0 ≤ E := (norm_nonneg _).trans hx
  have hx' : ‖FS.val x‖ ≤ 1.01 * Γ := by
    have := norm_add_le (FS.val x - z) z
    rw [sub_add_cancel] at this
    linarith
  have nq : ∀ w : ℂ, ‖Complex.I * q * w‖ = |q| * ‖w‖ := fun w => by
    rw [norm_mul, norm_mul, Complex.norm_I, one_mul, Complex.norm_real, Real.norm_eq_abs]
  have hb : ‖Complex.I * q * FS.val x‖ ≤ 1.01 * (Q * Γ) := by
    rw [nq]
    calc |q| * ‖FS.val x‖ ≤ Q * (1.01 * Γ) := mul_le_mul hQ hx' (norm_nonneg _) (by linarith)
      _ = _ := by ring
  have QG : Γ ≤ Q * Γ := le_mul_of_one_le_left hG0 hQ1
  have uQ : uu * Γ ≤ uu * (Q * Γ) := mul_le_mul_of_nonneg_left QG u0.le
  have h1 := cr_err hrd.toIsRounding (a := (⟨0, q⟩ : FC rnd) * x) (z := Complex.I * q * FS.val x) (B := 1.01 * (Q * Γ)) (by positivity)
    (by rw [show uu * (1.01 * (Q * Γ)) / 100 = 1.01 * (uu * (Q * Γ)) / 100 by ring]
        have : 0 ≤ uu * (Q * Γ) := by positivity
        have : 0 ≤ uu * Γ := by positivity
        linarith)
    (by calc (1.01 : ℝ) * (Q * Γ) ≤ 2 ^ (20 : ℤ) * 2 ^ (1000 : ℤ) := mul_le_mul (by norm_num) hB (by positivity) (by positivity)
          _ = 2 ^ (1020 : ℤ) := by rw [← zpow_add₀ (by norm_num)]; norm_num)
    (by rw [im_mul hrd]; simp [FS.val, hrd.neg]) (by rw [im_mul hrd]; simp [FS.val]) hb
  have h2 : ‖Complex.I * q * FS.val x - Complex.I * q * z‖ ≤ Q * E := by
    rw [← mul_sub, nq]
    exact mul_le_mul hQ hx (norm_nonneg _) (by linarith)
  have h3 := norm_sub_le_norm_sub_add_norm_sub (FS.val ((⟨0, q⟩ : FC rnd) * x)) (Complex.I * q * FS.val x) (Complex.I * q * z)
  have uQ0 : 0 ≤ uu * (Q * Γ) := by positivity
  calc _ ≤ _ := h3
    _ ≤ 3 * uu * (1.01 * (Q * Γ)) + Q * E := add_le_add h1 h2
    _ ≤ _ := by nlinarith

/-- Rounded addition. -/
theorem add_err (hr : IsRounding rnd) {a b : FC rnd} {B : ℝ} (hB0 : 0 ≤ B) (ht : tiny ≤ uu * B / 100) (hB : B ≤ 2 ^ (1020 : ℤ)) (h : ‖FS.val a + FS.val b‖ ≤ B) :
    ‖FS.val (a + b) - (FS.val a + FS.val b)‖ ≤ 3 * uu * B := cr_err hr hB0 ht hB rfl rfl h

theorem sub_err (hr : IsRounding rnd) {a b : FC rnd} {B : ℝ} (hB0 : 0 ≤ B) (ht : tiny ≤ uu * B / 100) (hB : B ≤ 2 ^ (1020 : ℤ)) (h : ‖FS.val a - FS.val b‖ ≤ B) :
    ‖FS.val (a - b) - (FS.val a - FS.val b)‖ ≤ 3 * uu * B := cr_err hr hB0 ht hB rfl rfl h

theorem add_fix (hrd : NoOverflow rnd) (a b : FC rnd) : FS.Fix (a + b) := ⟨hrd.idem _, hrd.idem _⟩
theorem sub_fix (hrd : NoOverflow rnd) (a b : FC rnd) : FS.Fix (a - b) := ⟨hrd.idem _, hrd.idem _⟩

theorem zero_add_fix {a : FC rnd} (ha : FS.Fix a) : (0 : FC rnd) + a = a := by
  show (⟨rnd (0 + a.re), rnd (0 + a.im)⟩ : FC rnd) = a
  rw [zero_add, zero_add, ha.1, ha.2]

/-- The error one step of the recursion of `divsin_fc` may add. -/
noncomputable def stepErr (A ea K : ℝ) : ℝ := 2 * ea + 20 * uu * K * A

/-- One step of the recursion of `divsin_fc`. -/
theorem step_err (hrd : NoOverflow rnd) {x g : FC rnd} {a h : ℂ} {A ea K : ℝ} {c : ℕ} (hK : (c : ℝ) + 1 ≤ K) (hK' : K ≤ 10 ^ 4) (hA : 0 ≤ A) (ht : tiny ≤ uu * A / 1000)
    (hA' : K * A ≤ 2 ^ (1000 : ℤ)) (hea : ea ≤ A / 100) (ha : ‖a‖ ≤ A) (hx : ‖FS.val x - a‖ ≤ ea) (hg : ‖FS.val g - h‖ ≤ c * stepErr A ea K) (hh : ‖h‖ ≤ c * (2 * A)) :
    ‖FS.val ((2 : FC rnd) * ⟨0, 1⟩ * x + g) - (2 * Complex.I * a + h)‖ ≤ (c + 1) * stepErr A ea K ∧ ‖2 * Complex.I * a + h‖ ≤ (c + 1) * (2 * A) := by
  have u0 := uu_pos
  have u1 := FA.uu_le
  have ea0 : 0 ≤ ea := (norm_nonneg _).trans hx
  have c0 : (0 : ℝ) ≤ c := Nat.cast_nonneg c
  have K0 : 0 ≤ K := by linarith
  have uA : 0 ≤ uu * A := by positivity
  have cA : 0 ≤ c * A := by positivity
  have KA : A ≤ K * A := le_mul_of_one_le_left hA (by linarith)
  have cKA : (c + 1) * A ≤ K * A := mul_le_mul_of_nonneg_right hK hA
  have uKA0 : 0 ≤ uu * (K * A) := by positivity
  have e1 : stepErr A ea K = 2 * ea + 20 * (uu * (K * A)) := by unfold stepErr; ring
  have e0 : 0 ≤ stepErr A ea K := by rw [e1]; positivity
  have uK : uu * K ≤ 1 / 10 ^ 5 := by
    calc uu * K ≤ 1 / 10 ^ 9 * 10 ^ 4 := mul_le_mul u1 hK' K0 (by norm_num)
      _ = _ := by norm_num
  have eA : stepErr A ea K ≤ A / 10 := by
    rw [e1]
    have : uu * (K * A) ≤ 1 / 10 ^ 5 * A := by rw [← mul_assoc]; exact mul_le_mul_of_nonneg_right uK hA
    linarith
  have n2 : ∀ w : ℂ, ‖2 * Complex.I * w‖ = 2 * ‖w‖ := fun w => by
    rw [norm_mul, norm_mul, Complex.norm_I, mul_one, Complex.norm_ofNat]
  rw [two_i hrd]
  set y : FC rnd := (⟨0, 2⟩ : FC rnd) * x with hy
  have hx' : ‖FS.val x‖ ≤ 1.01 * A := by
    have := norm_add_le (FS.val x - a) a
    rw [sub_add_cancel] at this
    linarith
  have big20 : ∀ t : ℝ, 0 ≤ t → t ≤ 2 ^ (20 : ℤ) * (K * A) → t ≤ 2 ^ (1020 : ℤ) := by
    intro t _ h
    refine h.trans ?_
    rw [show (1020 : ℤ) = 20 + 1000 by norm_num, zpow_add₀ (by norm_num)]
    exact mul_le_mul_of_nonneg_left hA' (by positivity)
  clear hA'
  have hy1 : ‖FS.val y - 2 * Complex.I * FS.val x‖ ≤ 3 * uu * (2.02 * A) := by
    refine cr_err hrd.toIsRounding (by positivity) ?_ (big20 _ (by positivity) ?_) ?_ ?_ ?_
    · rw [show uu * (2.02 * A) / 100 = 2.02 * (uu * A) / 100 by ring]; linarith
    · have : (2 : ℝ) ^ (20 : ℤ) = 1048576 := by norm_num
      rw [this]; linarith
    · rw [hy, im_mul hrd]; simp [FS.val, hrd.neg]
    · rw [hy, im_mul hrd]; simp [FS.val]
    · rw [n2]; linarith
  have hy2 : ‖FS.val y - 2 * Complex.I * a‖ ≤ 2 * ea + 7 * (uu * A) := by
    have h1 := norm_sub_le_norm_sub_add_norm_sub (FS.val y) (2 * Complex.I * FS.val x) (2 * Complex.I * a)
    rw [← mul_sub, n2] at h1
    linarith
  have hya : ‖2 * Complex.I * a‖ ≤ 2 * A := by rw [n2]; linarith
  have hsum : ‖2 * Complex.I * a + h‖ ≤ (c + 1) * (2 * A) := by
    refine (norm_add_le _ _).trans ?_
    linarith
  refine ⟨?_, hsum⟩
  have ce : c * stepErr A ea K ≤ c * (A / 10) := mul_le_mul_of_nonneg_left eA c0
  have uA1 : uu * A ≤ A / 10 ^ 9 := by
    have := mul_le_mul_of_nonneg_right u1 hA
    linarith
  have d1 : ‖FS.val y + FS.val g - (2 * Complex.I * a + h)‖ ≤ (2 * ea + 7 * (uu * A)) + c * stepErr A ea K := by
    rw [show FS.val y + FS.val g - (2 * Complex.I * a + h) = (FS.val y - 2 * Complex.I * a) + (FS.val g - h) by ring]
    exact (norm_add_le _ _).trans (add_le_add hy2 hg)
  have d2 : ‖FS.val y + FS.val g‖ ≤ 3 * (K * A) := by
    have := norm_add_le (FS.val y + FS.val g - (2 * Complex.I * a + h)) (2 * Complex.I * a + h)
    rw [sub_add_cancel] at this
    linarith
  have d3 := add_err hrd.toIsRounding (a := y) (b := g) (B := 3 * (K * A)) (by positivity)
    (by
      have : uu * A ≤ uu * (K * A) := mul_le_mul_of_nonneg_left KA u0.le
      rw [show uu * (3 * (K * A)) / 100 = 3 * (uu * (K * A)) / 100 by ring]; linarith)
    (big20 _ (by positivity) (by
      have : (2 : ℝ) ^ (20 : ℤ) = 1048576 := by norm_num
      have : 0 ≤ K * A := by positivity
      linarith)) d2
  have d4 := norm_sub_le_norm_sub_add_norm_sub (FS.val (y + g)) (FS.val y + FS.val g) (2 * Complex.I * a + h)
  have uAK : uu * A ≤ uu * (K * A) := mul_le_mul_of_nonneg_left KA u0.le
  have : 3 * uu * (3 * (K * A)) = 9 * (uu * (K * A)) := by ring
  rw [this] at d3
  rw [e1] at *
  linarith

end FV
end Verif.Props
