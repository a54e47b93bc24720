import Verif.Props.FloatKiss1
/-!
# kiss_fft in doubles: the four special butterflies
-/
namespace Verif.Props
open Verif Finset

variable {rnd : ℝ → ℝ}

namespace FK

theorem Ap.weak {B : ℝ} {a : FC rnd} {z : ℂ} {M e e' : ℝ} (h : Ap B a z M e) (hB : 0 < B) (he : e ≤ e') : ‖FS.val a - z‖ ≤ e' * (uu * B) :=
  h.err.trans (mul_le_mul_of_nonneg_right he (mul_pos uu_pos hB).le)

variable {B P : ℝ}

/-- The error allowed to one iteration of the butterfly of radix `p`, in units of `2^-53 B`. -/
noncomputable def cost (p : ℝ) : ℝ := p * (160 + 4 * p)

theorem out2 (hr : IsRounding rnd) (hs : Scale B P) (hP : 9 ≤ P) {f a w : FC rnd} {w₀ : ℂ} (hf : ‖FS.val f‖ ≤ B) (ha : ‖FS.val a‖ ≤ B)
    (hw : ‖FS.val w - w₀‖ ≤ 32 * uu) (hw0 : ‖w₀‖ ≤ 1) :
    ‖FS.val (f - a * w) - (FS.val f - FS.val a * w₀)‖ ≤ cost 2 * (uu * B) ∧ ‖FS.val (f + a * w) - (FS.val f + FS.val a * w₀)‖ ≤ cost 2 * (uu * B) := by
  have p := Ap.mul hr hs (Ap.self ha) hw hw0 (by norm_num) (by linarith) (by norm_num) (by norm_num)
  have q := Ap.self hf
  exact ⟨(q.sub hr hs p (by norm_num) (by norm_num) (by linarith) (by norm_num) (by norm_num) (by norm_num) (by norm_num)).weak hs.pos (by unfold cost; norm_num),
    (q.add hr hs p (by norm_num) (by norm_num) (by linarith) (by norm_num) (by norm_num) (by norm_num) (by norm_num)).weak hs.pos (by unfold cost; norm_num)⟩

theorem out4 (hr : IsRounding rnd) (hs : Scale B P) (hP : 9 ≤ P) (inv : Bool) {f a1 w1 a2 w2 a3 w3 : FC rnd} {v1 v2 v3 : ℂ} (hf : ‖FS.val f‖ ≤ B) (h1 : ‖FS.val a1‖ ≤ B)
    (h2 : ‖FS.val a2‖ ≤ B) (h3 : ‖FS.val a3‖ ≤ B) (hw1 : ‖FS.val w1 - v1‖ ≤ 32 * uu) (hv1 : ‖v1‖ ≤ 1) (hw2 : ‖FS.val w2 - v2‖ ≤ 32 * uu) (hv2 : ‖v2‖ ≤ 1)
    (hw3 : ‖FS.val w3 - v3‖ ≤ 32 * uu) (hv3 : ‖v3‖ ≤ 1) :
    ‖FS.val (Fl.kfOut4 rnd inv f a1 w1 a2 w2 a3 w3).1 - (FS.val f + FS.val a2 * v2 + (FS.val a1 * v1 + FS.val a3 * v3))‖ ≤ cost 4 * (uu * B) ∧
    ‖FS.val (Fl.kfOut4 rnd inv f a1 w1 a2 w2 a3 w3).2.1 -
      (FS.val f - FS.val a2 * v2 + (if inv then Complex.I else -Complex.I) * (FS.val a1 * v1 - FS.val a3 * v3))‖ ≤ cost 4 * (uu * B) ∧
    ‖FS.val (Fl.kfOut4 rnd inv f a1 w1 a2 w2 a3 w3).2.2.1 - (FS.val f + FS.val a2 * v2 - (FS.val a1 * v1 + FS.val a3 * v3))‖ ≤ cost 4 * (uu * B) ∧
    ‖FS.val (Fl.kfOut4 rnd inv f a1 w1 a2 w2 a3 w3).2.2.2 -
      (FS.val f - FS.val a2 * v2 - (if inv then Complex.I else -Complex.I) * (FS.val a1 * v1 - FS.val a3 * v3))‖ ≤ cost 4 * (uu * B) := by
  have s0 := Ap.mul hr hs (Ap.self h1) hw1 hv1 (by norm_num) (by linarith) (by norm_num) (by norm_num)
  have s1 := Ap.mul hr hs (Ap.self h2) hw2 hv2 (by norm_num) (by linarith) (by norm_num) (by norm_num)
  have s2 := Ap.mul hr hs (Ap.self h3) hw3 hv3 (by norm_num) (by linarith) (by norm_num) (by norm_num)
  have s5 := (Ap.self hf).sub hr hs s1 (by norm_num) (by norm_num) (by linarith) (by norm_num) (by norm_num) (by norm_num) (by norm_num)
  have f' := (Ap.self hf).add hr hs s1 (by norm_num) (by norm_num) (by linarith) (by norm_num) (by norm_num) (by norm_num) (by norm_num)
  have s3 := s0.add hr hs s2 (by norm_num) (by norm_num) (by linarith) (by norm_num) (by norm_num) (by norm_num) (by norm_num)
  have s4 := s0.sub hr hs s2 (by norm_num) (by norm_num) (by linarith) (by norm_num) (by norm_num) (by norm_num) (by norm_num)
  have o2 := f'.sub hr hs s3 (by norm_num) (by norm_num) (by linarith) (by norm_num) (by norm_num) (by norm_num) (by norm_num)
  have o0 := f'.add hr hs s3 (by norm_num) (by norm_num) (by linarith) (by norm_num) (by norm_num) (by norm_num) (by norm_num)
  have oa := s5.addI hr hs s4 (by norm_num) (by norm_num) (by linarith) (by norm_num) (by norm_num) (by norm_num) (by norm_num)
  have ob := s5.subI hr hs s4 (by norm_num) (by norm_num) (by linarith) (by norm_num) (by norm_num) (by norm_num) (by norm_num)
  have c1 := o0.weak hs.pos (e' := cost 4) (by unfold cost; norm_num)
  have c2 := o2.weak hs.pos (e' := cost 4) (by unfold cost; norm_num)
  have c3 := oa.weak hs.pos (e' := cost 4) (by unfold cost; norm_num)
  have c4 := ob.weak hs.pos (e' := cost 4) (by unfold cost; norm_num)
  cases inv
  · simp only [Bool.false_eq_true, if_false, neg_mul, sub_neg_eq_add, ← sub_eq_add_neg]
    exact ⟨c1, c4, c2, c3⟩
  · simp only [if_true]
    exact ⟨c1, c3, c2, c4⟩

theorem out3 (hr : IsRounding rnd) (hs : Scale B P) (hP : 9 ≤ P) {f a1 w1 a2 w2 ep : FC rnd} {v1 v2 ep₀ : ℂ} (hf : ‖FS.val f‖ ≤ B) (h1 : ‖FS.val a1‖ ≤ B)
    (h2 : ‖FS.val a2‖ ≤ B) (hw1 : ‖FS.val w1 - v1‖ ≤ 32 * uu) (hv1 : ‖v1‖ ≤ 1) (hw2 : ‖FS.val w2 - v2‖ ≤ 32 * uu) (hv2 : ‖v2‖ ≤ 1)
    (he : ‖FS.val ep - ep₀‖ ≤ 32 * uu) (he0 : ‖ep₀‖ ≤ 1) :
    ‖FS.val (Fl.kfOut3 rnd ep f a1 w1 a2 w2).1 - (FS.val f + (FS.val a1 * v1 + FS.val a2 * v2))‖ ≤ cost 3 * (uu * B) ∧
    ‖FS.val (Fl.kfOut3 rnd ep f a1 w1 a2 w2).2.1 -
      (FS.val f - (FS.val a1 * v1 + FS.val a2 * v2) / 2 + Complex.I * ((FS.val a1 * v1 - FS.val a2 * v2) * ep₀.im))‖ ≤ cost 3 * (uu * B) ∧
    ‖FS.val (Fl.kfOut3 rnd ep f a1 w1 a2 w2).2.2 -
      (FS.val f - (FS.val a1 * v1 + FS.val a2 * v2) / 2 - Complex.I * ((FS.val a1 * v1 - FS.val a2 * v2) * ep₀.im))‖ ≤ cost 3 * (uu * B) := by
  have hi : |ep.im - ep₀.im| ≤ 32 * uu := (Complex.abs_im_le_norm (FS.val ep - ep₀)).trans he
  have hi0 : |ep₀.im| ≤ 1 := (Complex.abs_im_le_norm _).trans he0
  have s1 := Ap.mul hr hs (Ap.self h1) hw1 hv1 (by norm_num) (by linarith) (by norm_num) (by norm_num)
  have s2 := Ap.mul hr hs (Ap.self h2) hw2 hv2 (by norm_num) (by linarith) (by norm_num) (by norm_num)
  have s3 := s1.add hr hs s2 (by norm_num) (by norm_num) (by linarith) (by norm_num) (by norm_num) (by norm_num) (by norm_num)
  have s0 := s1.sub hr hs s2 (by norm_num) (by norm_num) (by linarith) (by norm_num) (by norm_num) (by norm_num) (by norm_num)
  have hh := s3.half hr hs (by norm_num) (by linarith) (by norm_num) (by norm_num)
  have fm := (Ap.self hf).sub hr hs hh (by norm_num) (by norm_num) (by linarith) (by norm_num) (by norm_num) (by norm_num) (by norm_num)
  have s0' := s0.scal hr hs hi hi0 (by norm_num) (by linarith) (by norm_num) (by norm_num)
  have o0 := (Ap.self hf).add hr hs s3 (by norm_num) (by norm_num) (by linarith) (by norm_num) (by norm_num) (by norm_num) (by norm_num)
  have o1 := fm.addI hr hs s0' (by norm_num) (by norm_num) (by linarith) (by norm_num) (by norm_num) (by norm_num) (by norm_num)
  have o2 := fm.subI hr hs s0' (by norm_num) (by norm_num) (by linarith) (by norm_num) (by norm_num) (by norm_num) (by norm_num)
  exact ⟨o0.weak hs.pos (e' := cost 3) (by unfold cost; norm_num), o1.weak hs.pos (e' := cost 3) (by unfold cost; norm_num),
    o2.weak hs.pos (e' := cost 3) (by unfold cost; norm_num)⟩

variable {a b w : FC rnd} {z y : ℂ} {M N e f : ℝ}

/-- `-i (a + b)` computed componentwise. -/
theorem Ap.negIadd (hr : IsRounding rnd) (hs : Scale B P) (ha : Ap B a z M e) (hb : Ap B b y N f) (hM : 1 / 2 ≤ M) (hN : 1 / 2 ≤ N) (hP : M + N ≤ P)
    (he0 : 0 ≤ e) (hf0 : 0 ≤ f) (he : e ≤ 10 ^ 12 * M) (hf : f ≤ 10 ^ 12 * N) :
    Ap B (⟨rnd (a.im + b.im), rnd (-a.re - b.re)⟩ : FC rnd) (-Complex.I * (z + y)) (M + N) (e + f + 4 * (M + N)) := by
  refine round hr hs (z' := -Complex.I * (FS.val a + FS.val b)) (by linarith) hP (by linarith) (by linarith) ?_ ?_ ?_ ?_
  · show rnd _ = rnd _
    congr 1
    simp [FS.val]
  · show rnd _ = rnd _
    congr 1
    simp [FS.val]; ring
  · have : -Complex.I * (FS.val a + FS.val b) - -Complex.I * (z + y) = -Complex.I * ((FS.val a - z) + (FS.val b - y)) := by ring
    rw [this, norm_mul, norm_neg, Complex.norm_I, one_mul]
    refine (norm_add_le _ _).trans ?_
    rw [add_mul]
    exact add_le_add ha.err hb.err
  · rw [norm_mul, norm_neg, Complex.norm_I, one_mul]
    refine (norm_add_le _ _).trans ?_
    rw [add_mul]
    exact add_le_add ha.bd hb.bd

/-- `i (a - b)` computed componentwise. -/
theorem Ap.Isub (hr : IsRounding rnd) (hs : Scale B P) (ha : Ap B a z M e) (hb : Ap B b y N f) (hM : 1 / 2 ≤ M) (hN : 1 / 2 ≤ N) (hP : M + N ≤ P)
    (he0 : 0 ≤ e) (hf0 : 0 ≤ f) (he : e ≤ 10 ^ 12 * M) (hf : f ≤ 10 ^ 12 * N) :
    Ap B (⟨rnd (-a.im + b.im), rnd (a.re - b.re)⟩ : FC rnd) (Complex.I * (z - y)) (M + N) (e + f + 4 * (M + N)) := by
  refine round hr hs (z' := Complex.I * (FS.val a - FS.val b)) (by linarith) hP (by linarith) (by linarith) ?_ ?_ ?_ ?_
  · show rnd _ = rnd _
    congr 1
    simp [FS.val]; ring
  · show rnd _ = rnd _
    congr 1
    simp [FS.val]
  · have : Complex.I * (FS.val a - FS.val b) - Complex.I * (z - y) = Complex.I * ((FS.val a - z) - (FS.val b - y)) := by ring
    rw [this, norm_mul, Complex.norm_I, one_mul]
    refine (norm_sub_le _ _).trans ?_
    rw [add_mul]
    exact add_le_add ha.err hb.err
  · rw [norm_mul, Complex.norm_I, one_mul]
    refine (norm_sub_le _ _).trans ?_
    rw [add_mul]
    exact add_le_add ha.bd hb.bd

theorem out5 (hr : IsRounding rnd) (hs : Scale B P) (hP : 9 ≤ P) {f a1 w1 a2 w2 a3 w3 a4 w4 ya yb : FC rnd} {v1 v2 v3 v4 ya₀ yb₀ : ℂ} (hf : ‖FS.val f‖ ≤ B)
    (h1 : ‖FS.val a1‖ ≤ B) (h2 : ‖FS.val a2‖ ≤ B) (h3 : ‖FS.val a3‖ ≤ B) (h4 : ‖FS.val a4‖ ≤ B) (hw1 : ‖FS.val w1 - v1‖ ≤ 32 * uu) (hv1 : ‖v1‖ ≤ 1)
    (hw2 : ‖FS.val w2 - v2‖ ≤ 32 * uu) (hv2 : ‖v2‖ ≤ 1) (hw3 : ‖FS.val w3 - v3‖ ≤ 32 * uu) (hv3 : ‖v3‖ ≤ 1) (hw4 : ‖FS.val w4 - v4‖ ≤ 32 * uu) (hv4 : ‖v4‖ ≤ 1)
    (ha : ‖FS.val ya - ya₀‖ ≤ 32 * uu) (ha0 : ‖ya₀‖ ≤ 1) (hb : ‖FS.val yb - yb₀‖ ≤ 32 * uu) (hb0 : ‖yb₀‖ ≤ 1) :
    let s1 := FS.val a1 * v1
    let s2 := FS.val a2 * v2
    let s3 := FS.val a3 * v3
    let s4 := FS.val a4 * v4
    let s5 := FS.val f + (s1 + s4) * ya₀.re + (s2 + s3) * yb₀.re
    let s6 := -Complex.I * ((s1 - s4) * ya₀.im + (s2 - s3) * yb₀.im)
    let s11 := FS.val f + (s1 + s4) * yb₀.re + (s2 + s3) * ya₀.re
    let s12 := Complex.I * ((s1 - s4) * yb₀.im - (s2 - s3) * ya₀.im)
    let o := Fl.kfOut5 rnd ya yb f a1 w1 a2 w2 a3 w3 a4 w4
    ‖FS.val o.1 - (FS.val f + ((s1 + s4) + (s2 + s3)))‖ ≤ cost 5 * (uu * B) ∧
    ‖FS.val o.2.1 - (s5 - s6)‖ ≤ cost 5 * (uu * B) ∧ ‖FS.val o.2.2.1 - (s11 + s12)‖ ≤ cost 5 * (uu * B) ∧
    ‖FS.val o.2.2.2.1 - (s11 - s12)‖ ≤ cost 5 * (uu * B) ∧ ‖FS.val o.2.2.2.2 - (s5 + s6)‖ ≤ cost 5 * (uu * B) := by
  have har : |ya.re - ya₀.re| ≤ 32 * uu := (Complex.abs_re_le_norm (FS.val ya - ya₀)).trans ha
  have har0 : |ya₀.re| ≤ 1 := (Complex.abs_re_le_norm _).trans ha0
  have hai : |ya.im - ya₀.im| ≤ 32 * uu := (Complex.abs_im_le_norm (FS.val ya - ya₀)).trans ha
  have hai0 : |ya₀.im| ≤ 1 := (Complex.abs_im_le_norm _).trans ha0
  have hbr : |yb.re - yb₀.re| ≤ 32 * uu := (Complex.abs_re_le_norm (FS.val yb - yb₀)).trans hb
  have hbr0 : |yb₀.re| ≤ 1 := (Complex.abs_re_le_norm _).trans hb0
  have hbi : |yb.im - yb₀.im| ≤ 32 * uu := (Complex.abs_im_le_norm (FS.val yb - yb₀)).trans hb
  have hbi0 : |yb₀.im| ≤ 1 := (Complex.abs_im_le_norm _).trans hb0
  have s1 := Ap.mul hr hs (Ap.self h1) hw1 hv1 (by norm_num) (by linarith) (by norm_num) (by norm_num)
  have s2 := Ap.mul hr hs (Ap.self h2) hw2 hv2 (by norm_num) (by linarith) (by norm_num) (by norm_num)
  have s3 := Ap.mul hr hs (Ap.self h3) hw3 hv3 (by norm_num) (by linarith) (by norm_num) (by norm_num)
  have s4 := Ap.mul hr hs (Ap.self h4) hw4 hv4 (by norm_num) (by linarith) (by norm_num) (by norm_num)
  have s7 := s1.add hr hs s4 (by norm_num) (by norm_num) (by linarith) (by norm_num) (by norm_num) (by norm_num) (by norm_num)
  have s10 := s1.sub hr hs s4 (by norm_num) (by norm_num) (by linarith) (by norm_num) (by norm_num) (by norm_num) (by norm_num)
  have s8 := s2.add hr hs s3 (by norm_num) (by norm_num) (by linarith) (by norm_num) (by norm_num) (by norm_num) (by norm_num)
  have s9 := s2.sub hr hs s3 (by norm_num) (by norm_num) (by linarith) (by norm_num) (by norm_num) (by norm_num) (by norm_num)
  have t78 := s7.add hr hs s8 (by norm_num) (by norm_num) (by linarith) (by norm_num) (by norm_num) (by norm_num) (by norm_num)
  have o0 := (Ap.self hf).add hr hs t78 (by norm_num) (by norm_num) (by linarith) (by norm_num) (by norm_num) (by norm_num) (by norm_num)
  have s7a := s7.scal hr hs har har0 (by norm_num) (by linarith) (by norm_num) (by norm_num)
  have s8b := s8.scal hr hs hbr hbr0 (by norm_num) (by linarith) (by norm_num) (by norm_num)
  have s7b := s7.scal hr hs hbr hbr0 (by norm_num) (by linarith) (by norm_num) (by norm_num)
  have s8a := s8.scal hr hs har har0 (by norm_num) (by linarith) (by norm_num) (by norm_num)
  have s5 := ((Ap.self hf).add hr hs s7a (by norm_num) (by norm_num) (by linarith) (by norm_num) (by norm_num) (by norm_num) (by norm_num)).add hr hs s8b
    (by norm_num) (by norm_num) (by linarith) (by norm_num) (by norm_num) (by norm_num) (by norm_num)
  have s11 := ((Ap.self hf).add hr hs s7b (by norm_num) (by norm_num) (by linarith) (by norm_num) (by norm_num) (by norm_num) (by norm_num)).add hr hs s8a
    (by norm_num) (by norm_num) (by linarith) (by norm_num) (by norm_num) (by norm_num) (by norm_num)
  have s10a := s10.scal hr hs hai hai0 (by norm_num) (by linarith) (by norm_num) (by norm_num)
  have s9b := s9.scal hr hs hbi hbi0 (by norm_num) (by linarith) (by norm_num) (by norm_num)
  have s10b := s10.scal hr hs hbi hbi0 (by norm_num) (by linarith) (by norm_num) (by norm_num)
  have s9a := s9.scal hr hs hai hai0 (by norm_num) (by linarith) (by norm_num) (by norm_num)
  have s6 := s10a.negIadd hr hs s9b (by norm_num) (by norm_num) (by linarith) (by norm_num) (by norm_num) (by norm_num) (by norm_num)
  have s12 := s10b.Isub hr hs s9a (by norm_num) (by norm_num) (by linarith) (by norm_num) (by norm_num) (by norm_num) (by norm_num)
  have o1 := s5.sub hr hs s6 (by norm_num) (by norm_num) (by linarith) (by norm_num) (by norm_num) (by norm_num) (by norm_num)
  have o4 := s5.add hr hs s6 (by norm_num) (by norm_num) (by linarith) (by norm_num) (by norm_num) (by norm_num) (by norm_num)
  have o2 := s11.add hr hs s12 (by norm_num) (by norm_num) (by linarith) (by norm_num) (by norm_num) (by norm_num) (by norm_num)
  have o3 := s11.sub hr hs s12 (by norm_num) (by norm_num) (by linarith) (by norm_num) (by norm_num) (by norm_num) (by norm_num)
  exact ⟨o0.weak hs.pos (e' := cost 5) (by unfold cost; norm_num), o1.weak hs.pos (e' := cost 5) (by unfold cost; norm_num),
    o2.weak hs.pos (e' := cost 5) (by unfold cost; norm_num), o3.weak hs.pos (e' := cost 5) (by unfold cost; norm_num),
    o4.weak hs.pos (e' := cost 5) (by unfold cost; norm_num)⟩

/-- Partial sums of the generic butterfly: `q` terms. -/
theorem genSum (hr : IsRounding rnd) (hs : Scale B P) {p : ℕ} (hp : (p : ℝ) ≤ P) (hp31 : p ≤ 2 ^ 31) {q : ℕ} (hq1 : 1 ≤ q) (hq : q < p) {s x w : FC rnd} {S w₀ : ℂ}
    (h : Ap B s S q (40 * q + 4 * q * q)) (hx : ‖FS.val x‖ ≤ B) (hw : ‖FS.val w - w₀‖ ≤ 32 * uu) (hw0 : ‖w₀‖ ≤ 1) :
    Ap B (s + x * w) (S + FS.val x * w₀) ((q + 1 : ℕ) : ℝ) (40 * ((q + 1 : ℕ) : ℝ) + 4 * ((q + 1 : ℕ) : ℝ) * ((q + 1 : ℕ) : ℝ)) := by
  have hq0 : (1 : ℝ) ≤ q := by exact_mod_cast hq1
  have hqp : (q : ℝ) + 1 ≤ p := by exact_mod_cast hq
  have hq31 : (p : ℝ) ≤ 2 ^ 31 := by exact_mod_cast hp31
  have t := Ap.mul hr hs (Ap.self hx) hw hw0 (by norm_num) (by linarith) (by norm_num) (by norm_num)
  have := h.add hr hs t (by linarith) (by norm_num) (by linarith) (by positivity) (by norm_num) (by nlinarith) (by norm_num)
  have e1 : ((q + 1 : ℕ) : ℝ) = q + 1 := by push_cast; ring
  rw [e1]
  exact ⟨this.err.trans (mul_le_mul_of_nonneg_right (by nlinarith) (mul_pos uu_pos hs.pos).le), this.bd⟩

end FK
end Verif.Props
