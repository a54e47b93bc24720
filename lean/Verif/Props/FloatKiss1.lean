import Verif.FloatKiss
import Verif.KissDft
import Verif.Props.FloatVec1
/-!
# kiss_fft in doubles: error of one butterfly
-/
namespace Verif.Props
open Verif Finset

variable {rnd : ℝ → ℝ}

namespace FK

theorem uu_le16 : uu ≤ 12 / 10 ^ 17 := FS.uu_le16

theorem four_le {x : ℝ} {i j : ℤ} (h : x ≤ 2 ^ i) (hij : i + 2 ≤ j) : 4 * x ≤ 2 ^ j := FS.four_le h hij

/-- Rounded complex product. -/
theorem mul_err (hr : IsRounding rnd) {a b : FC rnd} {C : ℝ} (hC0 : 0 ≤ C) (ht : tiny ≤ uu * C / 100) (hC : C ≤ 2 ^ (1018 : ℤ)) (h : ‖FS.val a‖ * ‖FS.val b‖ ≤ C) :
    ‖FS.val (a * b) - FS.val a * FS.val b‖ ≤ 5 * uu * C :=
  FS.mul_err hr hC0 ht hC h

/-- `a` approximates `z` (relative to the scale `B`): the error is at most `e` units, the size at most `M`. -/
structure Ap (B : ℝ) (a : FC rnd) (z : ℂ) (M e : ℝ) : Prop where
  err : ‖FS.val a - z‖ ≤ e * (uu * B)
  bd : ‖z‖ ≤ M * B

/-- The scale is in the middle of the exponent range. -/
structure Scale (B P : ℝ) : Prop where
  pos : 0 < B
  tiny : Verif.Props.tiny ≤ uu * B / 1000
  big : P * B ≤ 2 ^ (1000 : ℤ)

theorem round (hr : IsRounding rnd) {B P : ℝ} (hs : Scale B P) {a : FC rnd} {z z' : ℂ} {M e : ℝ} (hM : 1 / 2 ≤ M) (hMP : M ≤ P) (he0 : 0 ≤ e) (he : e ≤ 10 ^ 12 * M)
    (h1 : a.re = rnd z'.re) (h2 : a.im = rnd z'.im) (hz' : ‖z' - z‖ ≤ e * (uu * B)) (hz : ‖z‖ ≤ M * B) : Ap B a z M (e + 4 * M) := by
  have u0 := uu_pos
  have u1 := uu_le16
  have b0 := hs.pos
  have t1 := hs.tiny
  have MB : M * B ≤ 2 ^ (1000 : ℤ) := (mul_le_mul_of_nonneg_right hMP b0.le).trans hs.big
  have hsm : e * (uu * B) ≤ 1 / 100 * (M * B) := by
    have : e * uu ≤ 10 ^ 12 * M * (12 / 10 ^ 17) := mul_le_mul he u1 u0.le (by nlinarith)
    have : e * uu * B ≤ 10 ^ 12 * M * (12 / 10 ^ 17) * B := mul_le_mul_of_nonneg_right this b0.le
    nlinarith [mul_pos (show (0:ℝ) < M by linarith) b0]
  have hn : ‖z'‖ ≤ 101 / 100 * (M * B) := by
    have := norm_add_le (z' - z) z
    rw [sub_add_cancel] at this
    linarith
  have u2 : 0 < uu * B := by positivity
  have MB0 : 0 < M * B := mul_pos (by linarith) b0
  have hb2 : 101 / 100 * (M * B) ≤ 2 ^ (1020 : ℤ) := le_trans (mul_le_mul_of_nonneg_right (by norm_num) MB0.le) (four_le MB (by norm_num))
  have := FV.cr_err hr (a := a) (z := z') (B := 101 / 100 * (M * B)) (by positivity) (by nlinarith) hb2 h1 h2 hn
  refine ⟨?_, hz⟩
  have e1 : FS.val a - z = (FS.val a - z') + (z' - z) := by ring
  rw [e1]
  refine (norm_add_le _ _).trans ?_
  clear hb2 MB
  nlinarith [mul_pos (show (0:ℝ) < M by linarith) u2]

variable {B P : ℝ} {a b w : FC rnd} {z y w₀ : ℂ} {M N e f : ℝ}

theorem Ap.add (hr : IsRounding rnd) (hs : Scale B P) (ha : Ap B a z M e) (hb : Ap B b y N f) (hM : 1 / 2 ≤ M) (hN : 1 / 2 ≤ N) (hP : M + N ≤ P)
    (he0 : 0 ≤ e) (hf0 : 0 ≤ f) (he : e ≤ 10 ^ 12 * M) (hf : f ≤ 10 ^ 12 * N) : Ap B (a + b) (z + y) (M + N) (e + f + 4 * (M + N)) := by
  refine round hr hs (z' := FS.val a + FS.val b) (by linarith) hP (by linarith) (by linarith) rfl rfl ?_ ?_
  · have : FS.val a + FS.val b - (z + y) = (FS.val a - z) + (FS.val b - y) := by ring
    rw [this]
    refine (norm_add_le _ _).trans ?_
    rw [add_mul]
    exact add_le_add ha.err hb.err
  · refine (norm_add_le _ _).trans ?_
    rw [add_mul]
    exact add_le_add ha.bd hb.bd

theorem Ap.sub (hr : IsRounding rnd) (hs : Scale B P) (ha : Ap B a z M e) (hb : Ap B b y N f) (hM : 1 / 2 ≤ M) (hN : 1 / 2 ≤ N) (hP : M + N ≤ P)
    (he0 : 0 ≤ e) (hf0 : 0 ≤ f) (he : e ≤ 10 ^ 12 * M) (hf : f ≤ 10 ^ 12 * N) : Ap B (a - b) (z - y) (M + N) (e + f + 4 * (M + N)) := by
  refine round hr hs (z' := FS.val a - FS.val b) (by linarith) hP (by linarith) (by linarith) rfl rfl ?_ ?_
  · have : FS.val a - FS.val b - (z - y) = (FS.val a - z) - (FS.val b - y) := by ring
    rw [this]
    refine (norm_sub_le _ _).trans ?_
    rw [add_mul]
    exact add_le_add ha.err hb.err
  · refine (norm_sub_le _ _).trans ?_
    rw [add_mul]
    exact add_le_add ha.bd hb.bd

/-- `a + i b` computed componentwise. -/
theorem Ap.addI (hr : IsRounding rnd) (hs : Scale B P) (ha : Ap B a z M e) (hb : Ap B b y N f) (hM : 1 / 2 ≤ M) (hN : 1 / 2 ≤ N) (hP : M + N ≤ P)
    (he0 : 0 ≤ e) (hf0 : 0 ≤ f) (he : e ≤ 10 ^ 12 * M) (hf : f ≤ 10 ^ 12 * N) :
    Ap B (⟨rnd (a.re - b.im), rnd (a.im + b.re)⟩ : FC rnd) (z + Complex.I * y) (M + N) (e + f + 4 * (M + N)) := by
  refine round hr hs (z' := FS.val a + Complex.I * FS.val b) (by linarith) hP (by linarith) (by linarith) ?_ ?_ ?_ ?_
  · show rnd _ = rnd _
    congr 1
    simp [FS.val]; ring
  · show rnd _ = rnd _
    congr 1
    simp [FS.val]
  · have : FS.val a + Complex.I * FS.val b - (z + Complex.I * y) = (FS.val a - z) + Complex.I * (FS.val b - y) := by ring
    rw [this]
    refine (norm_add_le _ _).trans ?_
    rw [add_mul, norm_mul, Complex.norm_I, one_mul]
    exact add_le_add ha.err hb.err
  · refine (norm_add_le _ _).trans ?_
    rw [add_mul, norm_mul, Complex.norm_I, one_mul]
    exact add_le_add ha.bd hb.bd

/-- `a - i b` computed componentwise. -/
theorem Ap.subI (hr : IsRounding rnd) (hs : Scale B P) (ha : Ap B a z M e) (hb : Ap B b y N f) (hM : 1 / 2 ≤ M) (hN : 1 / 2 ≤ N) (hP : M + N ≤ P)
    (he0 : 0 ≤ e) (hf0 : 0 ≤ f) (he : e ≤ 10 ^ 12 * M) (hf : f ≤ 10 ^ 12 * N) :
    Ap B (⟨rnd (a.re + b.im), rnd (a.im - b.re)⟩ : FC rnd) (z - Complex.I * y) (M + N) (e + f + 4 * (M + N)) := by
  refine round hr hs (z' := FS.val a - Complex.I * FS.val b) (by linarith) hP (by linarith) (by linarith) ?_ ?_ ?_ ?_
  · show rnd _ = rnd _
    congr 1
    simp [FS.val]
  · show rnd _ = rnd _
    congr 1
    simp [FS.val]
  · have : FS.val a - Complex.I * FS.val b - (z - Complex.I * y) = (FS.val a - z) - Complex.I * (FS.val b - y) := by ring
    rw [this]
    refine (norm_sub_le _ _).trans ?_
    rw [add_mul, norm_mul, Complex.norm_I, one_mul]
    exact add_le_add ha.err hb.err
  · refine (norm_sub_le _ _).trans ?_
    rw [add_mul, norm_mul, Complex.norm_I, one_mul]
    exact add_le_add ha.bd hb.bd

/-- `32 u M` and `32 u e` in units. -/
theorem tw_slack (hs : Scale B P) (hM : 1 / 2 ≤ M) (he0 : 0 ≤ e) (he : e ≤ 10 ^ 12 * M) {X Y : ℝ} (hX : X ≤ e * (uu * B)) (hY : Y ≤ 1 + 32 * uu) (hX0 : 0 ≤ X) (hY0 : 0 ≤ Y) :
    X * Y ≤ (e + M / 100) * (uu * B) := by
  have u0 := uu_pos
  have u1 := uu_le16
  have b0 := hs.pos
  have u2 : 0 < uu * B := by positivity
  have h1 : X * Y ≤ e * (uu * B) * (1 + 32 * uu) := mul_le_mul hX hY hY0 (by positivity)
  have h2 : e * (32 * uu) ≤ M / 100 := by
    have : e * uu ≤ 10 ^ 12 * M * (12 / 10 ^ 17) := mul_le_mul he u1 u0.le (by nlinarith)
    nlinarith
  have h3 : e * (32 * uu) * (uu * B) ≤ M / 100 * (uu * B) := mul_le_mul_of_nonneg_right h2 u2.le
  nlinarith

/-- Product with a twiddle factor. -/
theorem Ap.mul (hr : IsRounding rnd) (hs : Scale B P) (ha : Ap B a z M e) (hw : ‖FS.val w - w₀‖ ≤ 32 * uu) (hw0 : ‖w₀‖ ≤ 1) (hM : 1 / 2 ≤ M) (hP : M ≤ P)
    (he0 : 0 ≤ e) (he : e ≤ 10 ^ 12 * M) : Ap B (a * w) (z * w₀) M (e + 40 * M) := by
  have u0 := uu_pos
  have u1 := uu_le16
  have b0 := hs.pos
  have t1 := hs.tiny
  have MB : M * B ≤ 2 ^ (1000 : ℤ) := (mul_le_mul_of_nonneg_right hP b0.le).trans hs.big
  have u2 : 0 < uu * B := by positivity
  have MB0 : 0 < M * B := mul_pos (by linarith) b0
  have hwn : ‖FS.val w‖ ≤ 1 + 32 * uu := by
    have := norm_add_le (FS.val w - w₀) w₀
    rw [sub_add_cancel] at this
    linarith
  have hsm : e * (uu * B) ≤ 1 / 100 * (M * B) := by
    have : e * uu ≤ 10 ^ 12 * M * (12 / 10 ^ 17) := mul_le_mul he u1 u0.le (by nlinarith)
    have : e * uu * B ≤ 10 ^ 12 * M * (12 / 10 ^ 17) * B := mul_le_mul_of_nonneg_right this b0.le
    nlinarith
  have han : ‖FS.val a‖ ≤ 101 / 100 * (M * B) := by
    have := norm_add_le (FS.val a - z) z
    rw [sub_add_cancel] at this
    linarith [ha.err, ha.bd]
  have hpr : ‖FS.val a‖ * ‖FS.val w‖ ≤ 102 / 100 * (M * B) := by
    have : ‖FS.val a‖ * ‖FS.val w‖ ≤ 101 / 100 * (M * B) * (1 + 32 * uu) := mul_le_mul han hwn (norm_nonneg _) (by positivity)
    nlinarith
  have hb2 : 102 / 100 * (M * B) ≤ 2 ^ (1018 : ℤ) := le_trans (mul_le_mul_of_nonneg_right (by norm_num) MB0.le) (four_le MB (by norm_num))
  have m1 := mul_err hr (a := a) (b := w) (C := 102 / 100 * (M * B)) (by positivity) (by clear hb2 MB; nlinarith) hb2 hpr
  clear hb2 MB
  have m2 : ‖FS.val a - z‖ * ‖FS.val w‖ ≤ (e + M / 100) * (uu * B) := tw_slack hs hM he0 he ha.err hwn (norm_nonneg _) (norm_nonneg _)
  have m3 : ‖z‖ * ‖FS.val w - w₀‖ ≤ M * B * (32 * uu) := mul_le_mul ha.bd hw (norm_nonneg _) (by positivity)
  refine ⟨?_, ?_⟩
  · have : FS.val (a * w) - z * w₀ = (FS.val (a * w) - FS.val a * FS.val w) + ((FS.val a - z) * FS.val w + z * (FS.val w - w₀)) := by ring
    rw [this]
    refine (norm_add_le _ _).trans ?_
    have n1 := norm_add_le ((FS.val a - z) * FS.val w) (z * (FS.val w - w₀))
    rw [norm_mul, norm_mul] at n1
    nlinarith [mul_pos (show (0:ℝ) < M by linarith) u2]
  · rw [norm_mul]
    calc ‖z‖ * ‖w₀‖ ≤ M * B * 1 := mul_le_mul ha.bd hw0 (norm_nonneg _) MB0.le
      _ = _ := mul_one _

/-- Product with the real or imaginary part of a twiddle factor. -/
theorem Ap.scal (hr : IsRounding rnd) (hs : Scale B P) (ha : Ap B a z M e) {c c₀ : ℝ} (hc : |c - c₀| ≤ 32 * uu) (hc0 : |c₀| ≤ 1) (hM : 1 / 2 ≤ M) (hP : M ≤ P)
    (he0 : 0 ≤ e) (he : e ≤ 10 ^ 9 * M) : Ap B (⟨rnd (a.re * c), rnd (a.im * c)⟩ : FC rnd) (z * c₀) M (e + 40 * M) := by
  have u0 := uu_pos
  have u1 := uu_le16
  have b0 := hs.pos
  have u2 : 0 < uu * B := by positivity
  have MB0 : 0 < M * B := mul_pos (by linarith) b0
  have hcn : |c| ≤ 1 + 32 * uu := by
    have := abs_add_le (c - c₀) c₀
    rw [sub_add_cancel] at this
    linarith
  have m2 : ‖FS.val a - z‖ * |c| ≤ (e + M / 100) * (uu * B) := tw_slack hs hM he0 (by linarith) ha.err hcn (norm_nonneg _) (abs_nonneg _)
  have m3 : ‖z‖ * |c - c₀| ≤ M * B * (32 * uu) := mul_le_mul ha.bd hc (abs_nonneg _) (by positivity)
  have := round hr hs (a := (⟨rnd (a.re * c), rnd (a.im * c)⟩ : FC rnd)) (z := z * c₀) (z' := FS.val a * c) (M := M) (e := e + 33 * M) hM hP (by linarith) (by linarith)
    (by show rnd _ = rnd _; congr 1; simp [FS.val]) (by show rnd _ = rnd _; congr 1; simp [FS.val])
    (by
      have : FS.val a * c - z * c₀ = (FS.val a - z) * c + z * ((c - c₀ : ℝ) : ℂ) := by push_cast; ring
      rw [this]
      have n1 := norm_add_le ((FS.val a - z) * c) (z * ((c - c₀ : ℝ) : ℂ))
      rw [norm_mul, norm_mul, Complex.norm_real, Complex.norm_real, Real.norm_eq_abs, Real.norm_eq_abs] at n1
      nlinarith [mul_pos (show (0:ℝ) < M by linarith) u2])
    (by
      rw [norm_mul, Complex.norm_real, Real.norm_eq_abs]
      calc ‖z‖ * |c₀| ≤ M * B * 1 := mul_le_mul ha.bd hc0 (abs_nonneg _) MB0.le
        _ = _ := mul_one _)
  refine ⟨this.err.trans ?_, this.bd⟩
  exact mul_le_mul_of_nonneg_right (by linarith) u2.le

theorem Ap.self (hx : ‖FS.val a‖ ≤ B) : Ap B a (FS.val a) 1 0 := ⟨by simp, by simpa using hx⟩

theorem Ap.half (hr : IsRounding rnd) (hs : Scale B P) (ha : Ap B a z M e) (hM : 1 ≤ M) (hP : M ≤ P) (he0 : 0 ≤ e) (he : e ≤ 10 ^ 12 * M) :
    Ap B (⟨rnd (a.re * 0.5), rnd (a.im * 0.5)⟩ : FC rnd) (z / 2) (M / 2) (e / 2 + 2 * M) := by
  have b0 := hs.pos
  have u0 := uu_pos
  have := round hr hs (a := (⟨rnd (a.re * 0.5), rnd (a.im * 0.5)⟩ : FC rnd)) (z := z / 2) (z' := FS.val a / 2) (M := M / 2) (e := e / 2) (by linarith) (by linarith) (by linarith) (by linarith)
    (by show rnd _ = rnd _; congr 1; simp [FS.val]; ring) (by show rnd _ = rnd _; congr 1; simp [FS.val]; ring)
    (by
      rw [← sub_div, norm_div]
      have := ha.err
      rw [show ‖(2 : ℂ)‖ = 2 by simp]
      linarith)
    (by
      rw [norm_div, show ‖(2 : ℂ)‖ = 2 by simp]
      have := ha.bd
      linarith)
  have e1 : e / 2 + 4 * (M / 2) = e / 2 + 2 * M := by ring
  rw [e1] at this
  exact this

end FK
end Verif.Props
