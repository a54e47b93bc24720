import Verif.Props.FloatFft3
/-!
# The pattern constructors in doubles, against the exact ones
-/
namespace Verif.Props
open Verif Finset
variable {rnd : ℝ → ℝ}

/-- A double whose parts are zero or at least `2^-500` in magnitude, so that a product of two of them does not underflow. -/
def PoleOK (x : FC rnd) : Prop := NotTiny x.re ∧ NotTiny x.im

namespace FU

theorem sub_zero_cases (hr : IsRounding rnd) {A B : ℝ} (hA : A = 0 ∨ (2 : ℝ) ^ (-1000 : ℤ) ≤ |A|) (hB : B = 0 ∨ (2 : ℝ) ^ (-1000 : ℤ) ≤ |B|) (hb : |A - B| ≤ 2 ^ 1023) (h : rnd (A - B) = 0) :
    0 < A * B ∨ (A = 0 ∧ B = 0) := by
  have p : (0 : ℝ) < (2 : ℝ) ^ (-1000 : ℤ) := by positivity
  have key : ¬(2 : ℝ) ^ (-1000 : ℤ) ≤ |A - B| := fun h0 => rnd_ne_zero hr h0 hb h
  generalize (2 : ℝ) ^ (-1000 : ℤ) = w at *
  rcases hA with rfl | hA
  · rcases hB with rfl | hB
    · exact .inr ⟨rfl, rfl⟩
    · rw [zero_sub, abs_neg] at key
      exact absurd hB key
  · rcases hB with rfl | hB
    · rw [sub_zero] at key
      exact absurd hA key
    · left
      by_contra hc
      apply key
      rcases le_total 0 A with h1 | h1 <;> rcases le_total 0 B with h2 | h2
      · rw [abs_of_nonneg h1] at hA
        rw [abs_of_nonneg h2] at hB
        exact absurd (mul_pos (by linarith) (by linarith)) hc
      · rw [abs_of_nonneg h1] at hA
        rw [abs_of_nonneg (by linarith)]
        linarith
      · rw [abs_of_nonneg h2] at hB
        rw [abs_of_nonpos (by linarith)]
        linarith
      · rw [abs_of_nonpos h1] at hA
        rw [abs_of_nonpos h2] at hB
        exact absurd (mul_pos_of_neg_of_neg (by linarith) (by linarith)) hc

/-- A rounded product of two numbers that are not tiny: zero exactly when the product is, otherwise of the same sign. -/
theorem prod_sign (hr : IsRounding rnd) {x y : ℝ} (hx : NotTiny x) (hy : NotTiny y) (bx : |x| < 2 ^ 500) (by' : |y| < 2 ^ 500) :
    (rnd (x * y) = 0 ∨ (2 : ℝ) ^ (-1000 : ℤ) ≤ |rnd (x * y)|) ∧ |rnd (x * y)| ≤ 2 ^ 1001 ∧ (x * y = 0 ∧ rnd (x * y) = 0 ∨ 0 < x * y ∧ 0 < rnd (x * y) ∨ x * y < 0 ∧ rnd (x * y) < 0) := by
  have e1 : |x * y| ≤ 2 ^ 1000 := by
    rw [abs_mul, show (2 : ℝ) ^ 1000 = 2 ^ 500 * 2 ^ 500 by rw [← pow_add]]
    exact mul_le_mul bx.le by'.le (abs_nonneg _) (by positivity)
  have e2 : |x * y| ≤ 2 ^ 1023 := e1.trans (pow_le_pow_right₀ (by norm_num) (by norm_num))
  have e3 : |rnd (x * y)| ≤ 2 ^ 1001 := (rnd_le hr e2).trans (by rw [pow_succ' (2 : ℝ) 1000]; exact mul_le_mul_of_nonneg_left e1 (by norm_num))
  rcases hx with rfl | hx
  · rw [zero_mul, rnd_zero hr] at *
    exact ⟨.inl rfl, e3, .inl ⟨rfl, rfl⟩⟩
  rcases hy with rfl | hy
  · rw [mul_zero, rnd_zero hr] at *
    exact ⟨.inl rfl, e3, .inl ⟨rfl, rfl⟩⟩
  have e4 : (2 : ℝ) ^ (-1000 : ℤ) ≤ |x * y| := by
    rw [abs_mul, show (-1000 : ℤ) = -500 + -500 by norm_num, zpow_add₀ (by norm_num)]
    exact mul_le_mul hx hy (by positivity) (abs_nonneg _)
  have p : (0 : ℝ) < (2 : ℝ) ^ (-1000 : ℤ) := by positivity
  have e5 := rnd_ge hr e4 e2
  refine ⟨.inr e5, e3, .inr ?_⟩
  have d := isDouble_pow (-1000) (by norm_num) (by norm_num)
  have a := hr.nearest _ e2 _ d
  have b := hr.nearest _ e2 _ (isDouble_neg d)
  clear e1 e2 e3 bx by' d hx hy
  generalize (2 : ℝ) ^ (-1000 : ℤ) = w at *
  generalize rnd (x * y) = r at *
  generalize x * y = z at *
  rcases le_total 0 z with h | h
  · left
    rw [abs_of_nonneg h] at e4
    rw [abs_of_nonneg (show 0 ≤ z - w by linarith)] at a
    have := (abs_le.mp a).2
    exact ⟨by linarith, by linarith⟩
  · right
    rw [abs_of_nonpos h] at e4
    rw [abs_of_nonpos (show z - -w ≤ 0 by linarith)] at b
    have := (abs_le.mp b).1
    exact ⟨by linarith, by linarith⟩

/-- The float test `s * t == 0` of `double_sphere` agrees with the exact one. -/
theorem mul_zero_iff (hr : IsRounding rnd) {s t : FC rnd} (hs : Moderate s) (ht : Moderate t) (ps : PoleOK s) (pt : PoleOK t) : s * t = 0 ↔ FS.val s * FS.val t = 0 := by
  have vz : ∀ x : FC rnd, FS.val x = 0 ↔ x = 0 := fun x => by
    rw [fc_eq_zero, Complex.ext_iff]; rfl
  rw [mul_eq_zero, vz, vz]
  constructor
  swap
  · rintro (rfl | rfl)
    · exact fc_zero_mul hr _
    · exact fc_mul_zero hr _
  intro h
  rw [fc_mul, fc_eq_zero] at h
  obtain ⟨hre, him⟩ := h
  simp only at hre him
  obtain ⟨s1, s2, s3, s4⟩ := hs
  obtain ⟨t1, t2, t3, t4⟩ := ht
  obtain ⟨a1, a2, a3⟩ := prod_sign hr ps.1 pt.1 s3 t3
  obtain ⟨b1, b2, b3⟩ := prod_sign hr ps.2 pt.2 s4 t4
  obtain ⟨c1, c2, c3⟩ := prod_sign hr ps.1 pt.2 s3 t4
  obtain ⟨d1, d2, d3⟩ := prod_sign hr ps.2 pt.1 s4 t3
  have big : (2 : ℝ) ^ 1001 + 2 ^ 1001 ≤ 2 ^ 1023 := by
    rw [← two_mul, ← pow_succ']; exact pow_le_pow_right₀ (by norm_num) (by norm_num)
  have k1 := sub_zero_cases hr a1 b1 ((abs_sub _ _).trans ((add_le_add a2 b2).trans big)) hre
  have k2 := sub_zero_cases hr (A := rnd (s.re * t.im)) (B := -rnd (s.im * t.re)) c1 (by rw [neg_eq_zero, abs_neg]; exact d1)
    (by rw [sub_neg_eq_add]; exact (abs_add_le _ _).trans ((add_le_add c2 d2).trans big)) (by rw [sub_neg_eq_add]; exact him)
  clear a1 b1 c1 d1 a2 b2 c2 d2 big s3 s4 t3 t4 hre him
  generalize rnd (s.re * t.re) = A at *
  generalize rnd (s.im * t.im) = B at *
  generalize rnd (s.re * t.im) = A' at *
  generalize rnd (s.im * t.re) = B' at *
  rw [fc_eq_zero, fc_eq_zero]
  generalize s.re = a at *
  generalize s.im = b at *
  generalize t.re = c at *
  generalize t.im = d at *
  have q1 : a * c * (b * d) = a * d * (b * c) := by ring
  have p1 : 0 < a * c * (b * d) ∨ (a * c = 0 ∧ b * d = 0) := by
    rcases k1 with k | ⟨rfl, rfl⟩
    · left
      rcases a3 with ⟨_, rfl⟩ | ⟨a3, a4⟩ | ⟨a3, a4⟩
      · rw [zero_mul] at k; exact absurd k (lt_irrefl _)
      · have : 0 < B := pos_of_mul_pos_right k a4.le
        rcases b3 with ⟨_, b4⟩ | ⟨b3, b4⟩ | ⟨b3, b4⟩
        · linarith
        · exact mul_pos a3 b3
        · linarith
      · have : B < 0 := neg_of_mul_pos_right k a4.le
        rcases b3 with ⟨_, b4⟩ | ⟨b3, b4⟩ | ⟨b3, b4⟩
        · linarith
        · linarith
        · exact mul_pos_of_neg_of_neg a3 b3
    · right
      constructor
      · rcases a3 with ⟨a3, _⟩ | ⟨a3, a4⟩ | ⟨a3, a4⟩
        · exact a3
        · exact absurd a4 (lt_irrefl _)
        · exact absurd a4 (lt_irrefl _)
      · rcases b3 with ⟨a3, _⟩ | ⟨a3, a4⟩ | ⟨a3, a4⟩
        · exact a3
        · exact absurd a4 (lt_irrefl _)
        · exact absurd a4 (lt_irrefl _)
  have p2 : a * d * (b * c) < 0 ∨ (a * d = 0 ∧ b * c = 0) := by
    rcases k2 with k | ⟨rfl, k⟩
    · left
      rcases c3 with ⟨_, rfl⟩ | ⟨a3, a4⟩ | ⟨a3, a4⟩
      · rw [zero_mul] at k; exact absurd k (lt_irrefl _)
      · have : 0 < -B' := pos_of_mul_pos_right k a4.le
        rcases d3 with ⟨_, b4⟩ | ⟨b3, b4⟩ | ⟨b3, b4⟩
        · linarith
        · linarith
        · exact mul_neg_of_pos_of_neg a3 b3
      · have : -B' < 0 := neg_of_mul_pos_right k a4.le
        rcases d3 with ⟨_, b4⟩ | ⟨b3, b4⟩ | ⟨b3, b4⟩
        · linarith
        · exact mul_neg_of_neg_of_pos a3 b3
        · linarith
    · right
      constructor
      · rcases c3 with ⟨a3, _⟩ | ⟨a3, a4⟩ | ⟨a3, a4⟩
        · exact a3
        · exact absurd a4 (lt_irrefl _)
        · exact absurd a4 (lt_irrefl _)
      · rcases d3 with ⟨a3, _⟩ | ⟨a3, a4⟩ | ⟨a3, a4⟩
        · exact a3
        · linarith
        · linarith
  have z : a * c = 0 ∧ b * d = 0 ∧ a * d = 0 ∧ b * c = 0 := by
    rcases p1 with p1 | ⟨p1, p1'⟩ <;> rcases p2 with p2 | ⟨p2, p2'⟩
    · linarith
    · rw [q1, p2, zero_mul] at p1; exact absurd p1 (lt_irrefl _)
    · rw [← q1, p1, zero_mul] at p2; exact absurd p2 (lt_irrefl _)
    · exact ⟨p1, p1', p2, p2'⟩
  obtain ⟨z1, z2, z3, z4⟩ := z
  by_cases ha : a = 0
  · by_cases hb : b = 0
    · exact .inl ⟨ha, hb⟩
    · exact .inr ⟨(mul_eq_zero.mp z4).resolve_left hb, (mul_eq_zero.mp z2).resolve_left hb⟩
  · exact .inr ⟨(mul_eq_zero.mp z1).resolve_left ha, (mul_eq_zero.mp z3).resolve_left ha⟩

/-- One cell of `double_sphere`, rounded against exact. -/
theorem dsCell_err (hrd : NoOverflow rnd) {s t : FC rnd} {C : ℝ} (hs : Moderate s) (ht : Moderate t) (ps : PoleOK s) (pt : PoleOK t) (hC : 2 ^ (-700 : ℤ) ≤ C)
    (bs : ‖FS.val s‖ ≤ C) (bt : ‖FS.val t‖ ≤ C) : ‖FS.val (dsCell s t) - dsCell (FS.val s) (FS.val t)‖ ≤ 5 * uu * C := by
  have hr := hrd.toIsRounding
  have u0 := uu_pos
  have u1 := FS.uu_le16
  have C0 : 0 < C := lt_of_lt_of_le (by positivity) hC
  have t2 : tiny ≤ uu * C / 100 := by
    have := mul_le_mul_of_nonneg_left hC u0.le
    rw [div_eq_mul_inv]
    refine le_trans ?_ (mul_le_mul this (show (2 : ℝ) ^ (-7 : ℤ) ≤ 100⁻¹ by norm_num) (by positivity) (by positivity))
    unfold tiny uu
    rw [← zpow_add₀ (by norm_num), ← zpow_add₀ (by norm_num)]
    exact zpow_le_zpow_right₀ (by norm_num) (by norm_num)
  have hz := mul_zero_iff hr hs ht ps pt
  by_cases h : s * t = 0
  · have h' := hz.mp h
    unfold dsCell
    rw [if_pos h, if_pos h', fc_add]
    have vz : ∀ x : FC rnd, FS.val x = 0 → x = 0 := fun x hx => by
      rw [fc_eq_zero]; exact ⟨congrArg Complex.re hx, congrArg Complex.im hx⟩
    have e : (⟨rnd (s.re + t.re), rnd (s.im + t.im)⟩ : FC rnd) = ⟨s.re + t.re, s.im + t.im⟩ := by
      rcases mul_eq_zero.mp h' with h0 | h0
      · rw [vz s h0, fc_zero_re, fc_zero_im, zero_add, zero_add, rnd_mod hr ht.1 ht.2.2.1, rnd_mod hr ht.2.1 ht.2.2.2]
      · rw [vz t h0, fc_zero_re, fc_zero_im, add_zero, add_zero, rnd_mod hr hs.1 hs.2.2.1, rnd_mod hr hs.2.1 hs.2.2.2]
    rw [e]
    have : FS.val (⟨s.re + t.re, s.im + t.im⟩ : FC rnd) - (FS.val s + FS.val t) = 0 := by
      apply Complex.ext <;> simp [FS.val]
    rw [this, norm_zero]
    positivity
  · have h' : ¬FS.val s * FS.val t = 0 := fun h0 => h (hz.mpr h0)
    unfold dsCell
    rw [if_neg h, if_neg h', fc_add, fc_div_two hr _ (hrd.idem _) (hrd.idem _)]
    have key : ∀ x y : ℝ, |x| ≤ C → |y| ≤ C → |x| < 2 ^ 500 → |y| < 2 ^ 500 → |rnd (rnd (x + y) * (1 / 2)) - (x + y) / 2| ≤ 2.1 * uu * C := by
      intro x y hx hy bx bY
      have l1 : |x + y| ≤ 2 * C := (abs_add_le _ _).trans (by linarith)
      have l3 : |x + y| ≤ 2 ^ (501 : ℤ) := by
        refine (abs_add_le _ _).trans ?_
        rw [show (501 : ℤ) = 500 + 1 by norm_num, zpow_add₀ (by norm_num), zpow_one, show (2 : ℝ) ^ (500 : ℤ) = 2 ^ 500 from zpow_natCast 2 500]
        generalize (2 : ℝ) ^ 500 = w at *
        linarith
      have l2 : |x + y| ≤ 2 ^ (1022 : ℤ) := l3.trans (zpow_le_zpow_right₀ (by norm_num) (by norm_num))
      have e1 := rnd_err hr l2
      have r2 : |rnd (x + y)| ≤ 2 * |x + y| := rnd_le hr (l3.trans (by rw [← zpow_natCast (2 : ℝ) 1023]; exact zpow_le_zpow_right₀ (by norm_num) (by norm_num)))
      have l4 : |rnd (x + y) * (1 / 2)| ≤ 2 ^ (1022 : ℤ) := by
        rw [abs_mul, abs_of_pos (show (0 : ℝ) < 1 / 2 by norm_num)]
        refine le_trans ?_ l2
        linarith
      have e2 := rnd_err hr l4
      have k1 := mul_le_mul_of_nonneg_left l1 u0.le
      have r1 : |rnd (x + y) * (1 / 2)| ≤ 1.01 * C := by
        rw [abs_mul, abs_of_pos (show (0 : ℝ) < 1 / 2 by norm_num)]
        have q := abs_add_le (rnd (x + y) - (x + y)) (x + y)
        rw [sub_add_cancel] at q
        have q2 : uu * C ≤ 0.001 * C := mul_le_mul_of_nonneg_right (by clear l2 l3 l4 e1 e2 hC bx bY; linarith) C0.le
        clear l2 l3 l4 e2 hC bx bY r2
        linarith
      have k2 := mul_le_mul_of_nonneg_left r1 u0.le
      have k3 := abs_add_le (rnd (rnd (x + y) * (1 / 2)) - rnd (x + y) * (1 / 2)) (rnd (x + y) * (1 / 2) - (x + y) / 2)
      rw [sub_add_sub_cancel] at k3
      have k4 : |rnd (x + y) * (1 / 2) - (x + y) / 2| = |rnd (x + y) - (x + y)| * (1 / 2) := by
        rw [show rnd (x + y) * (1 / 2) - (x + y) / 2 = (rnd (x + y) - (x + y)) * (1 / 2) by ring, abs_mul, abs_of_pos (show (0 : ℝ) < 1 / 2 by norm_num)]
      rw [k4] at k3
      have k5 : 0 < uu * C := by positivity
      clear l2 l3 l4 hC bx bY r2
      linarith
    have a := key _ _ ((Complex.abs_re_le_norm (FS.val s)).trans bs) ((Complex.abs_re_le_norm (FS.val t)).trans bt) hs.2.2.1 ht.2.2.1
    have b := key _ _ ((Complex.abs_im_le_norm (FS.val s)).trans bs) ((Complex.abs_im_le_norm (FS.val t)).trans bt) hs.2.2.2 ht.2.2.2
    refine (Complex.norm_le_abs_re_add_abs_im _).trans ?_
    have e : ∀ w : ℂ, (w / 2).re = w.re / 2 ∧ (w / 2).im = w.im / 2 := fun w => by
      rw [show (2 : ℂ) = ((2 : ℝ) : ℂ) by push_cast; rfl]
      exact ⟨Complex.div_ofReal_re _ _, Complex.div_ofReal_im _ _⟩
    rw [Complex.sub_re, Complex.sub_im, (e _).1, (e _).2, Complex.add_re, Complex.add_im]
    refine (add_le_add a b).trans ?_
    have k5 : 0 < uu * C := by positivity
    clear hC
    linarith

theorem dsCell_norm {s t : ℂ} {C : ℝ} (hs : ‖s‖ ≤ C) (ht : ‖t‖ ≤ C) : ‖dsCell s t‖ ≤ C := by
  unfold dsCell
  split_ifs with h
  · rcases mul_eq_zero.mp h with rfl | rfl
    · rwa [zero_add]
    · rwa [add_zero]
  · rw [norm_div, Complex.norm_ofNat, div_le_iff₀ (by norm_num)]
    exact (norm_add_le _ _).trans (by linarith)

/-- `continue_sphere` on doubles against `continue_sphere` on their exact values. -/
theorem continue_err (hrd : NoOverflow rnd) (A : Arr2 (FC rnd)) (ε : ℝ) (hε : ε = 1 ∨ ε = -1) (h2 : 2 ≤ A.rows) (hA : ∀ i j, i < A.rows → j < A.cols → Moderate (A.at' i j))
    (hp : ∀ i j, i = 0 ∨ i = A.rows - 1 → j < A.cols → PoleOK (A.at' i j)) {C : ℝ} (hC : 2 ^ (-700 : ℤ) ≤ C) (hb : ∀ i j, i < A.rows → j < A.cols → ‖FS.val (A.at' i j)‖ ≤ C) :
    ∃ D E, continueSphere A ⟨ε, 0⟩ = .ok D ∧ continueSphere (A.map FS.val) (ε : ℂ) = .ok E ∧ D.rows = 2 * A.rows - 2 ∧ D.cols = A.cols ∧ E.rows = 2 * A.rows - 2 ∧ E.cols = A.cols ∧
      ∀ i j, i < D.rows → j < D.cols → ‖FS.val (D.at' i j) - E.at' i j‖ ≤ 5 * uu * C ∧ ‖E.at' i j‖ ≤ C := by
  have hr := hrd.toIsRounding
  have u0 := uu_pos
  have C0 : 0 < C := lt_of_lt_of_le (by positivity) hC
  obtain ⟨D, e1, r1, c1, x1, x2, x3⟩ := continue_spec_gen A (⟨ε, 0⟩ : FC rnd) h2
  obtain ⟨E, e2, r2, c2, y1, y2, y3⟩ := continue_spec_gen (A.map FS.val) (ε : ℂ) h2
  refine ⟨D, E, e1, e2, r1, c1, r2, c2, fun i j hi hj => ?_⟩
  have hε' : ‖(ε : ℂ)‖ = 1 := by rcases hε with rfl | rfl <;> simp
  have m0 : Moderate (0 : FC rnd) := ⟨isDouble_zero, isDouble_zero, by rw [fc_zero_re, abs_zero]; positivity, by rw [fc_zero_im, abs_zero]; positivity⟩
  have mε : ∀ x : FC rnd, Moderate x → Moderate (⟨ε * x.re, ε * x.im⟩ : FC rnd) := by
    intro x hx
    rcases hε with rfl | rfl
    · simpa [Moderate] using hx
    · simp only [neg_one_mul, Moderate, abs_neg]
      exact ⟨isDouble_neg hx.1, isDouble_neg hx.2.1, hx.2.2.1, hx.2.2.2⟩
  have vε : ∀ x : FC rnd, FS.val (⟨ε * x.re, ε * x.im⟩ : FC rnd) = ε * FS.val x := by
    intro x
    apply Complex.ext <;> simp [FS.val]
  have bε : ∀ x : FC rnd, ‖FS.val x‖ ≤ C → ‖FS.val (⟨ε * x.re, ε * x.im⟩ : FC rnd)‖ ≤ C := fun x hx => by
    rw [vε, norm_mul, hε', one_mul]; exact hx
  have pε : ∀ x : FC rnd, PoleOK x → PoleOK (⟨ε * x.re, ε * x.im⟩ : FC rnd) := by
    intro x hx
    rcases hε with rfl | rfl
    · simpa [PoleOK] using hx
    · simp only [neg_one_mul, PoleOK, NotTiny, abs_neg, neg_eq_zero]
      exact hx
  have at' : ∀ i j, i < A.rows → j < A.cols → (A.map FS.val).at' i j = FS.val (A.at' i j) := fun i j hi hj => Arr2.at'_map _ _ hi hj
  have hcell : ∀ z : ℂ, dsCell 0 z = z ∧ dsCell z 0 = z := fun z => by
    unfold dsCell
    rw [if_pos (zero_mul _), if_pos (mul_zero _), zero_add, add_zero]
    exact ⟨rfl, rfl⟩
  by_cases hpole : i = 0 ∨ i = A.rows - 1
  · have hm : (j + A.cols / 2) % A.cols < A.cols := Nat.mod_lt _ (by omega)
    have hi' : i < A.rows := by omega
    rw [x2 i j hpole (by omega), y2 i j hpole (by show j < A.cols; omega), fc_sign_mul hr hε (hA i _ hi' hm)]
    rw [show (A.map FS.val).cols = A.cols from rfl, at' i _ hi' hm, at' i j hi' (by omega), ← vε]
    have k1 := bε _ (hb i _ hi' hm)
    have k2 := hb i j hi' (by omega)
    exact ⟨dsCell_err hrd (mε _ (hA i _ hi' hm)) (hA i j hi' (by omega)) (pε _ (hp i _ hpole hm)) (hp i j hpole (by omega)) hC k1 k2, dsCell_norm k1 k2⟩
  · by_cases hin : i < A.rows - 1
    · rw [x1 i j (by omega) hin (by omega), y1 i j (by omega) hin (by show j < A.cols; omega), fc_mul_zero hr, dsCell_zero_left hr (hA i j (by omega) (by omega)), mul_zero,
        (hcell _).1, at' i j (by omega) (by omega), sub_self, norm_zero]
      exact ⟨by positivity, hb i j (by omega) (by omega)⟩
    · have hm : (j + A.cols / 2) % A.cols < A.cols := Nat.mod_lt _ (by omega)
      have hlo : 2 * A.rows - 2 - i < A.rows := by omega
      have hh := hA (2 * A.rows - 2 - i) _ hlo hm
      rw [x3 i j (by omega) (by omega) (by omega), y3 i j (by show A.rows ≤ i; omega) (by show i < 2 * A.rows - 2; omega) (by show j < A.cols; omega), fc_sign_mul hr hε hh,
        dsCell_comm, dsCell_zero_left hr (mε _ hh), (hcell _).2]
      rw [show (A.map FS.val).cols = A.cols from rfl, show (A.map FS.val).rows = A.rows from rfl, at' _ _ hlo hm, vε, sub_self, norm_zero, norm_mul, hε', one_mul]
      exact ⟨by positivity, hb _ _ hlo hm⟩

end FU
end Verif.Props
