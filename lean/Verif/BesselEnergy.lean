import Verif.BesselRatio
/-!
# The recurrence of the spherical Bessel functions below the turning point

For `n + 1/2 < x` the quadratic form `e_n² + e_{n+1}² - (2n+1)/x · e_n e_{n+1}` is positive and controls a perturbed recurrence
`e_{n-1} = (2n+1)/x · e_n - e_{n+1} + δ_n` without exponential growth.
-/
namespace Verif
open Real

/-- The energy. -/
def qf (a e f : ℝ) : ℝ := e ^ 2 + f ^ 2 - a * e * f

theorem qf_swap (a e f : ℝ) : qf a (a * e - f) e = qf a e f := by unfold qf; ring

theorem qf_ge_left {a e f : ℝ} (a0 : 0 ≤ a) (a2 : a ≤ 2) : (2 - a) / 2 * e ^ 2 ≤ qf a e f := by
  have : qf a e f = (f - a * e / 2) ^ 2 + (2 - a) / 2 * ((2 + a) / 2) * e ^ 2 := by unfold qf; ring
  rw [this]
  have h : (2 - a) / 2 * 1 * e ^ 2 ≤ (2 - a) / 2 * ((2 + a) / 2) * e ^ 2 :=
    mul_le_mul_of_nonneg_right (mul_le_mul_of_nonneg_left (by linarith) (by linarith)) (sq_nonneg e)
  linarith [sq_nonneg (f - a * e / 2)]

theorem qf_comm (a e f : ℝ) : qf a e f = qf a f e := by unfold qf; ring

theorem qf_ge_right {a e f : ℝ} (a0 : 0 ≤ a) (a2 : a ≤ 2) : (2 - a) / 2 * f ^ 2 ≤ qf a e f := by
  rw [qf_comm]; exact qf_ge_left a0 a2

theorem qf_nonneg {a e f : ℝ} (a0 : 0 ≤ a) (a2 : a ≤ 2) : 0 ≤ qf a e f :=
  le_trans (mul_nonneg (by linarith) (sq_nonneg e)) (qf_ge_left a0 a2)

theorem qf_le {a e f : ℝ} (a0 : 0 ≤ a) (a2 : a ≤ 2) : qf a e f ≤ 2 * (e ^ 2 + f ^ 2) := by
  unfold qf
  nlinarith [sq_nonneg (e + f), sq_nonneg (e - f), mul_nonneg a0 (sq_nonneg (e + f)), mul_nonneg (by linarith : 0 ≤ 2 - a) (add_nonneg (sq_nonneg e) (sq_nonneg f))]

/-- A perturbation of one entry. -/
theorem qf_perturb {a e f d R : ℝ} (a0 : 0 ≤ a) (a2 : a ≤ 2) (R0 : 0 ≤ R) (h : qf a e f ≤ R ^ 2) : qf a (e + d) f ≤ (R + |d|) ^ 2 := by
  have h1 : (2 * e - a * f) ^ 2 ≤ (2 * R) ^ 2 := by
    have e1 : (2 * e - a * f) ^ 2 = 4 * qf a e f - (2 - a) * (2 + a) * f ^ 2 := by unfold qf; ring
    have : 0 ≤ (2 - a) * (2 + a) * f ^ 2 := by
      have := mul_nonneg (by linarith : 0 ≤ 2 - a) (by linarith : 0 ≤ 2 + a)
      positivity
    nlinarith
  have h2 : |2 * e - a * f| ≤ 2 * R := abs_le_of_sq_le_sq h1 (by linarith)
  have h3 : qf a (e + d) f = qf a e f + d * (2 * e - a * f) + d ^ 2 := by unfold qf; ring
  have h4 : d * (2 * e - a * f) ≤ |d| * (2 * R) := by
    calc d * (2 * e - a * f) ≤ |d * (2 * e - a * f)| := le_abs_self _
      _ = |d| * |2 * e - a * f| := abs_mul _ _
      _ ≤ _ := mul_le_mul_of_nonneg_left h2 (abs_nonneg _)
  have h5 : d ^ 2 = |d| ^ 2 := (sq_abs d).symm
  rw [h3]
  nlinarith

/-- A smaller coefficient. -/
theorem qf_mono {a b e f : ℝ} (h : b ≤ a) : (2 - a) * qf b e f ≤ (2 - b) * qf a e f := by
  have : (2 - b) * qf a e f - (2 - a) * qf b e f = (a - b) * (e - f) ^ 2 := by unfold qf; ring
  have h2 : 0 ≤ (a - b) * (e - f) ^ 2 := mul_nonneg (by linarith) (sq_nonneg _)
  linarith

section
variable {x : ℝ} (hx : 0 < x)
include hx

theorem sbB_two (n : ℕ) : 2 - sbB x n = 2 * (x - n - 1 / 2) / x := by unfold sbB; field_simp; ring

/-- One step down of the perturbed recurrence. -/
theorem energy_step {n : ℕ} (h1 : 1 ≤ n) (hs : 0 < x - n - 1 / 2) {e f g R κ : ℝ} (R0 : 0 ≤ R) (h : qf (sbB x n) f g ≤ (x - n - 1 / 2) * R ^ 2)
    (hd : |e - (sbB x n * f - g)| ≤ κ) :
    qf (sbB x (n - 1)) e f ≤ (x - (n - 1 : ℕ) - 1 / 2) * (R + κ / √(x - n - 1 / 2)) ^ 2 := by
  have c : ((n - 1 : ℕ) : ℝ) = n - 1 := by rw [Nat.cast_sub h1, Nat.cast_one]
  have a0 : 0 ≤ sbB x n := (sbB_pos hx n).le
  have b2 := sbB_two hx n
  have b2' := sbB_two hx (n - 1)
  rw [c] at b2' ⊢
  have k0 : 0 ≤ κ := (abs_nonneg _).trans hd
  set s := x - n - 1 / 2 with hs'
  have sq0 : 0 < √s := Real.sqrt_pos.2 hs
  have sqs : √s ^ 2 = s := Real.sq_sqrt hs.le
  have a2 : sbB x n ≤ 2 := by
    have : 0 ≤ 2 * s / x := by positivity
    linarith
  have q1 : qf (sbB x n) (sbB x n * f - g) f ≤ (√s * R) ^ 2 := by rw [qf_swap, mul_pow, sqs]; exact h
  have q2 := qf_perturb a0 a2 (mul_nonneg sq0.le R0) q1 (d := e - (sbB x n * f - g))
  rw [show sbB x n * f - g + (e - (sbB x n * f - g)) = e by ring] at q2
  have q3 : (√s * R + |e - (sbB x n * f - g)|) ^ 2 ≤ (√s * R + κ) ^ 2 := pow_le_pow_left₀ (by positivity) (by linarith) 2
  have q4 : (√s * R + κ) ^ 2 = s * (R + κ / √s) ^ 2 := by
    calc (√s * R + κ) ^ 2 = (√s * (R + κ / √s)) ^ 2 := by congr 1; field_simp
      _ = _ := by rw [mul_pow, sqs]
  have q5 := (q2.trans q3).trans_eq q4
  have mono := qf_mono (a := sbB x n) (b := sbB x (n - 1)) (e := e) (f := f) (by
    unfold sbB
    rw [c]
    exact div_le_div_of_nonneg_right (by linarith) hx.le)
  rw [b2, b2', show x - ((n : ℝ) - 1) - 1 / 2 = s + 1 by rw [hs']; ring] at mono
  rw [show x - ((n : ℝ) - 1) - 1 / 2 = s + 1 by rw [hs']; ring]
  have m2 : s * qf (sbB x (n - 1)) e f ≤ (s + 1) * qf (sbB x n) e f := by
    have := mul_le_mul_of_nonneg_left mono (show (0 : ℝ) ≤ x / 2 by positivity)
    have e1 : x / 2 * (2 * s / x * qf (sbB x (n - 1)) e f) = s * qf (sbB x (n - 1)) e f := by field_simp
    have e2 : x / 2 * (2 * (s + 1) / x * qf (sbB x n) e f) = (s + 1) * qf (sbB x n) e f := by field_simp
    rw [e1, e2] at this
    exact this
  have m3 : (s + 1) * qf (sbB x n) e f ≤ (s + 1) * (s * (R + κ / √s) ^ 2) := mul_le_mul_of_nonneg_left q5 (by linarith)
  refine le_of_mul_le_mul_left (a := s) ?_ hs
  calc s * qf (sbB x (n - 1)) e f ≤ (s + 1) * (s * (R + κ / √s) ^ 2) := m2.trans m3
    _ = _ := by ring

/-- The entries are bounded by the energy. -/
theorem energy_entries {n : ℕ} (hs : 0 < x - n - 1 / 2) {f g R : ℝ} (R0 : 0 ≤ R) (h : qf (sbB x n) f g ≤ (x - n - 1 / 2) * R ^ 2) :
    |f| ≤ √x * R ∧ |g| ≤ √x * R := by
  have b2 := sbB_two hx n
  have a0 : 0 ≤ sbB x n := (sbB_pos hx n).le
  set s := x - n - 1 / 2 with hs'
  have a2 : sbB x n ≤ 2 := by
    have : 0 ≤ 2 * s / x := by positivity
    linarith
  have gl := qf_ge_left (e := f) (f := g) a0 a2
  have gr := qf_ge_right (e := f) (f := g) a0 a2
  rw [b2] at gl gr
  have e2 : 2 * s / x / 2 = s / x := by ring
  rw [e2] at gl gr
  have sx : √x ^ 2 = x := Real.sq_sqrt hx.le
  have key : ∀ y : ℝ, s / x * y ^ 2 ≤ s * R ^ 2 → |y| ≤ √x * R := by
    intro y hy
    refine abs_le_of_sq_le_sq ?_ (by positivity)
    rw [mul_pow, sx]
    have : s * y ^ 2 ≤ s * (x * R ^ 2) := by
      have := mul_le_mul_of_nonneg_left hy hx.le
      have e1 : x * (s / x * y ^ 2) = s * y ^ 2 := by field_simp
      rw [e1] at this
      linarith
    exact le_of_mul_le_mul_left this hs
  exact ⟨key f (gl.trans h), key g (gr.trans h)⟩

/-- Below the turning point the errors of a perturbed downward recurrence stay bounded. -/
theorem energy_bound {n1 : ℕ} (h2 : 2 ≤ n1) (hlo : (n1 : ℝ) - 1 / 2 < x) (hhi : x ≤ n1 + 1 / 2) {P : ℕ → ℝ} {E v : ℝ} (E0 : 0 ≤ E) (v0 : 0 ≤ v) (sm : E + 33 * v * x ≤ 1 / 20)
    (hP : P (n1 - 1) = sphJ (n1 - 1) x) (hP1 : |P n1 - sphJ n1 x| ≤ E * |sphJ n1 x|)
    (hrec : ∀ n, 1 ≤ n → n < n1 → |P (n - 1) - (sbB x n * P n - P (n + 1))| ≤ v * (7 * |P n| + 3 * |P (n + 1)|)) :
    ∀ n, n ≤ n1 → |P n - sphJ n x| ≤ E + 33 * v * x := by
  have hn2 : (2 : ℝ) ≤ n1 := by exact_mod_cast h2
  have x1 : 1 ≤ x := by linarith
  have sx : √x ^ 2 = x := Real.sq_sqrt hx.le
  have sx1 : 1 ≤ √x := by rw [← Real.sqrt_one]; exact Real.sqrt_le_sqrt x1
  have sxx : √x ≤ x := by nlinarith
  have vx : 0 ≤ v * x := by positivity
  have j1 : |sphJ n1 x| ≤ 1 := sphJ_le_one hx n1
  -- size of `P` and of the perturbation
  have size : ∀ n, |P n - sphJ n x| ≤ E + 33 * v * x → |P n| ≤ 21 / 20 := by
    intro n h
    have := abs_sub_abs_le_abs_sub (P n) (sphJ n x)
    have := sphJ_le_one hx n
    linarith
  have pert : ∀ n, 1 ≤ n → n < n1 → |P n - sphJ n x| ≤ E + 33 * v * x → |P (n + 1) - sphJ (n + 1) x| ≤ E + 33 * v * x →
      |(P (n - 1) - sphJ (n - 1) x) - (sbB x n * (P n - sphJ n x) - (P (n + 1) - sphJ (n + 1) x))| ≤ 11 * v := by
    intro n a b c d
    have hj := sphJ_succ n a (x := x)
    have hj2 : sphJ (n - 1) x = sbB x n * sphJ n x - sphJ (n + 1) x := by rw [hj]; unfold sbB; ring
    rw [hj2, show P (n - 1) - (sbB x n * sphJ n x - sphJ (n + 1) x) - (sbB x n * (P n - sphJ n x) - (P (n + 1) - sphJ (n + 1) x)) = P (n - 1) - (sbB x n * P n - P (n + 1)) by ring]
    refine (hrec n a b).trans ?_
    have := size n c
    have := size (n + 1) d
    nlinarith
  have top : |P n1 - sphJ n1 x| ≤ E + 33 * v * x := by
    refine hP1.trans ?_
    nlinarith
  have top1 : |P (n1 - 1) - sphJ (n1 - 1) x| ≤ E + 33 * v * x := by rw [hP]; simp; linarith
  set E1 := |P n1 - sphJ n1 x| + 11 * v with hE1
  have E10 : 0 ≤ E1 := by positivity
  have sE1 : √x * E1 ≤ E + 11 * v * x := by
    have a : √x * |P n1 - sphJ n1 x| ≤ E := by
      have jj : (√x * |sphJ n1 x|) ^ 2 ≤ 1 := by
        rw [mul_pow, sx, sq_abs]
        have := sphJ_sq_le hx n1
        nlinarith [sq_nonneg (sphJ n1 x)]
      have jj2 : √x * |sphJ n1 x| ≤ 1 := by
        have : 0 ≤ √x * |sphJ n1 x| := by positivity
        nlinarith
      calc √x * |P n1 - sphJ n1 x| ≤ √x * (E * |sphJ n1 x|) := mul_le_mul_of_nonneg_left hP1 (by positivity)
        _ = E * (√x * |sphJ n1 x|) := by ring
        _ ≤ E * 1 := mul_le_mul_of_nonneg_left jj2 E0
        _ = E := mul_one _
    have b : √x * (11 * v) ≤ 11 * v * x := by nlinarith
    rw [hE1, mul_add]; linarith
  -- downward induction
  have key : ∀ d n, n + d = n1 - 2 → qf (sbB x n) (P n - sphJ n x) (P (n + 1) - sphJ (n + 1) x) ≤ (x - n - 1 / 2) * (E1 + 22 * v * √(x - n - 3 / 2)) ^ 2 ∧
      |P n - sphJ n x| ≤ E + 33 * v * x ∧ |P (n + 1) - sphJ (n + 1) x| ≤ E + 33 * v * x := by
    intro d
    have fin : ∀ n : ℕ, n ≤ n1 - 2 → qf (sbB x n) (P n - sphJ n x) (P (n + 1) - sphJ (n + 1) x) ≤ (x - n - 1 / 2) * (E1 + 22 * v * √(x - n - 3 / 2)) ^ 2 →
        |P n - sphJ n x| ≤ E + 33 * v * x ∧ |P (n + 1) - sphJ (n + 1) x| ≤ E + 33 * v * x := by
      intro n hn hq
      have hnr : (n : ℝ) ≤ n1 - 2 := by
        have : (n : ℝ) + 2 ≤ n1 := by exact_mod_cast (show n + 2 ≤ n1 by omega)
        linarith
      have n0 : (0 : ℝ) ≤ n := Nat.cast_nonneg n
      have R0 : 0 ≤ E1 + 22 * v * √(x - n - 3 / 2) := by positivity
      obtain ⟨a, b⟩ := energy_entries hx (by linarith) R0 hq
      have c : √x * (E1 + 22 * v * √(x - n - 3 / 2)) ≤ E + 33 * v * x := by
        have : √(x - n - 3 / 2) ≤ √x := Real.sqrt_le_sqrt (by linarith)
        have h3 : √x * √(x - n - 3 / 2) ≤ √x * √x := mul_le_mul_of_nonneg_left this (by positivity)
        have h4 : √x * √x = x := by rw [← sq, sx]
        rw [h4] at h3
        have h5 : v * (√x * √(x - n - 3 / 2)) ≤ v * x := mul_le_mul_of_nonneg_left h3 v0
        rw [mul_add, show √x * (22 * v * √(x - n - 3 / 2)) = 22 * (v * (√x * √(x - n - 3 / 2))) by ring]
        linarith
      exact ⟨a.trans c, b.trans c⟩
    induction d with
    | zero =>
      intro n hn
      have en : n = n1 - 2 := by omega
      have e1 : n + 1 = n1 - 1 := by omega
      have hnr : (n : ℝ) = n1 - 2 := by rw [en, Nat.cast_sub h2]; norm_num
      have hq : qf (sbB x n) (P n - sphJ n x) (P (n + 1) - sphJ (n + 1) x) ≤ (x - n - 1 / 2) * (E1 + 22 * v * √(x - n - 3 / 2)) ^ 2 := by
        have p := pert (n1 - 1) (by omega) (by omega) top1 (by rw [show n1 - 1 + 1 = n1 by omega]; exact top)
        rw [show n1 - 1 - 1 = n by omega, show n1 - 1 + 1 = n1 by omega, hP, sub_self, mul_zero, zero_sub] at p
        rw [e1, hP, sub_self]
        have a1 : |P n - sphJ n x| ≤ E1 := by
          have := abs_sub_abs_le_abs_sub (P n - sphJ n x) (-(P n1 - sphJ n1 x))
          rw [abs_neg] at this
          rw [hE1]
          linarith
        have e2 : qf (sbB x n) (P n - sphJ n x) 0 = |P n - sphJ n x| ^ 2 := by unfold qf; rw [sq_abs]; ring
        rw [e2]
        have R0 : 0 ≤ 22 * v * √(x - n - 3 / 2) := by positivity
        calc |P n - sphJ n x| ^ 2 ≤ (E1 + 22 * v * √(x - n - 3 / 2)) ^ 2 := pow_le_pow_left₀ (abs_nonneg _) (by linarith) 2
          _ = 1 * (E1 + 22 * v * √(x - n - 3 / 2)) ^ 2 := (one_mul _).symm
          _ ≤ _ := mul_le_mul_of_nonneg_right (by linarith) (sq_nonneg _)
      exact ⟨hq, fin n (by omega) hq⟩
    | succ d ih =>
      intro n hn
      obtain ⟨q, b1, b2⟩ := ih (n + 1) (by omega)
      have hnr : (n : ℝ) + 3 ≤ n1 := by exact_mod_cast (show n + 3 ≤ n1 by omega)
      have n0 : (0 : ℝ) ≤ n := Nat.cast_nonneg n
      have p := pert (n + 1) (by omega) (by omega) b1 b2
      rw [Nat.add_sub_cancel] at p
      have st := energy_step hx (n := n + 1) (by omega) (by push_cast; linarith) (by positivity) q p
      rw [Nat.add_sub_cancel] at st
      have hq : qf (sbB x n) (P n - sphJ n x) (P (n + 1) - sphJ (n + 1) x) ≤ (x - n - 1 / 2) * (E1 + 22 * v * √(x - n - 3 / 2)) ^ 2 := by
        refine st.trans (mul_le_mul_of_nonneg_left (pow_le_pow_left₀ (by positivity) ?_ 2) (by linarith))
        push_cast
        rw [show x - ((n : ℝ) + 1) - 1 / 2 = x - n - 3 / 2 by ring, show x - ((n : ℝ) + 1) - 3 / 2 = (x - n - 3 / 2) - 1 by ring]
        have s1 : 1 ≤ x - n - 3 / 2 := by linarith
        generalize x - (n : ℝ) - 3 / 2 = s at s1
        have sp : 0 < √s := Real.sqrt_pos.2 (by linarith)
        have sq1 : √s ^ 2 = s := Real.sq_sqrt (by linarith)
        have sq2 : √(s - 1) ^ 2 = s - 1 := Real.sq_sqrt (by linarith)
        have sm0 : 0 ≤ √(s - 1) := Real.sqrt_nonneg _
        have key : 1 / √s ≤ 2 * (√s - √(s - 1)) := by
          rw [div_le_iff₀ sp]
          nlinarith [sq_nonneg (√s - √(s - 1))]
        have h3 : 11 * v / √s ≤ 11 * v * (2 * (√s - √(s - 1))) := by
          rw [div_eq_mul_one_div]
          exact mul_le_mul_of_nonneg_left key (by positivity)
        linarith
      exact ⟨hq, fin n (by omega) hq⟩
  intro n hn
  by_cases h : n = n1
  · rw [h]; exact top
  · by_cases h' : n = n1 - 1
    · rw [h']; exact top1
    · exact (key (n1 - 2 - n) n (by omega)).2.1

/-- The energy of the exact functions at row `n` bounds `j_0` and `j_1`. -/
theorem energy_down (n : ℕ) (hs : 0 < x - n - 1 / 2) {R : ℝ} (R0 : 0 ≤ R) (h : qf (sbB x n) (sphJ n x) (sphJ (n + 1) x) ≤ (x - n - 1 / 2) * R ^ 2) :
    max |sphJ 0 x| |sphJ 1 x| ≤ √x * R := by
  induction n with
  | zero =>
    obtain ⟨a, b⟩ := energy_entries hx hs R0 h
    exact max_le a b
  | succ n ih =>
    push_cast at hs
    refine ih (by linarith) ?_
    have hj := sphJ_succ (n + 1) (by omega) (x := x)
    rw [Nat.add_sub_cancel] at hj
    have st := energy_step hx (n := n + 1) (e := sphJ n x) (κ := 0) (by omega) (by push_cast; linarith) R0 h (by
      rw [hj]
      have : sphJ n x - (sbB x (n + 1) * sphJ (n + 1) x - ((2 * ((n + 1 : ℕ) : ℝ) + 1) / x * sphJ (n + 1) x - sphJ n x)) = 0 := by unfold sbB; ring
      rw [this, abs_zero])
    rw [Nat.add_sub_cancel, zero_div, add_zero] at st
    exact st

/-- Two consecutive values below the turning point are not both small. -/
theorem sphJ_lower (n : ℕ) (hs : 1 ≤ x - n - 1 / 2) : 1 / (6 * (1 + x) * √x) ≤ max |sphJ n x| |sphJ (n + 1) x| := by
  have n0 : (0 : ℝ) ≤ n := Nat.cast_nonneg n
  set m := max |sphJ n x| |sphJ (n + 1) x| with hm
  have m0 : 0 ≤ m := (abs_nonneg _).trans (le_max_left _ _)
  have a0 : 0 ≤ sbB x n := (sbB_pos hx n).le
  have b2 := sbB_two hx n
  have a2 : sbB x n ≤ 2 := by
    have : 0 ≤ 2 * (x - n - 1 / 2) / x := div_nonneg (by linarith) hx.le
    linarith
  have q : qf (sbB x n) (sphJ n x) (sphJ (n + 1) x) ≤ (x - n - 1 / 2) * (2 * m) ^ 2 := by
    have h1 : sphJ n x ^ 2 ≤ m ^ 2 := by rw [← sq_abs]; exact pow_le_pow_left₀ (abs_nonneg _) (le_max_left _ _) 2
    have h2 : sphJ (n + 1) x ^ 2 ≤ m ^ 2 := by rw [← sq_abs]; exact pow_le_pow_left₀ (abs_nonneg _) (le_max_right _ _) 2
    have := qf_le (e := sphJ n x) (f := sphJ (n + 1) x) a0 a2
    nlinarith [sq_nonneg m]
  have h := (sphJ01_lower hx).trans (energy_down hx n (by linarith) (by linarith) q)
  have sp : 0 < √x := Real.sqrt_pos.2 hx
  rw [div_le_iff₀ (by positivity)] at h ⊢
  linarith

/-- Beyond the turning point `(n - n1 + 2) |j_n| ≤ 1`. -/
theorem sphJ_decay {n1 n : ℕ} (h1 : 1 ≤ n1) (hhi : x ≤ n1 + 1 / 2) (hn : n1 ≤ n + 1) : ((n : ℝ) - n1 + 2) * |sphJ n x| ≤ 1 := by
  have mono : ∀ k, n1 - 1 + k ≤ n → |sphJ n x| ≤ |sphJ (n - k) x| := by
    intro k
    induction k with
    | zero => intro _; simp
    | succ k ih =>
      intro hk
      refine (ih (by omega)).trans ?_
      have hc : (n1 : ℝ) ≤ ((n - k : ℕ) : ℝ) := by exact_mod_cast (show n1 ≤ n - k by omega)
      have m := sbRho_mul hx (n := n - k) (by omega) (by linarith)
      have p := (sbRho_pos hx (n := n - k) (by omega) (by linarith)).2
      have l := sbRho_le_one hx (n := n - k) (by omega) (by linarith)
      rw [m, abs_mul, abs_of_pos p, show n - k - 1 = n - (k + 1) by omega]
      nlinarith [abs_nonneg (sphJ (n - (k + 1)) x)]
  have low : ∀ k, n1 - 1 + k ≤ n → sphJ n x ^ 2 * (((n1 : ℝ) + k) ^ 2 - (n1 - 1) ^ 2) ≤ sphS (n1 - 1 + k + 1) x := by
    intro k
    have term : ∀ i, n1 - 1 ≤ i → i ≤ n → (2 * (i : ℝ) + 1) * sphJ n x ^ 2 ≤ (2 * (i : ℝ) + 1) * sphJ i x ^ 2 := by
      intro i hi hin
      have := mono (n - i) (by omega)
      rw [show n - (n - i) = i by omega] at this
      refine mul_le_mul_of_nonneg_left ?_ (by positivity)
      rw [← sq_abs (sphJ n x), ← sq_abs (sphJ i x)]
      exact pow_le_pow_left₀ (abs_nonneg _) this 2
    have suc : ∀ m, sphS (m + 1) x = sphS m x + (2 * (m : ℝ) + 1) * sphJ m x ^ 2 := fun m => by unfold sphS; rw [Finset.sum_range_succ]
    have c : ((n1 - 1 : ℕ) : ℝ) = n1 - 1 := by rw [Nat.cast_sub h1, Nat.cast_one]
    induction k with
    | zero =>
      intro hk
      have t := term (n1 - 1) (le_refl _) (by omega)
      have p : 0 ≤ sphS (n1 - 1) x := Finset.sum_nonneg fun i _ => by positivity
      rw [Nat.add_zero, suc, c] at *
      rw [Nat.cast_zero]
      nlinarith
    | succ k ih =>
      intro hk
      have h := ih (by omega)
      have t := term (n1 - 1 + (k + 1)) (by omega) (by omega)
      rw [show n1 - 1 + (k + 1) = n1 - 1 + k + 1 by omega] at t ⊢
      rw [suc]
      push_cast at t ⊢
      rw [c] at t ⊢
      nlinarith
  have h := (low (n + 1 - n1) (by omega)).trans (sphS_le_one hx _)
  have c : ((n + 1 - n1 : ℕ) : ℝ) = n + 1 - n1 := by rw [Nat.cast_sub hn]; push_cast; ring
  rw [c] at h
  have hnr : (n1 : ℝ) ≤ n + 1 := by exact_mod_cast hn
  have h1r : (1 : ℝ) ≤ n1 := by exact_mod_cast h1
  have e : (((n : ℝ) - n1 + 2) * |sphJ n x|) ^ 2 ≤ 1 := by
    rw [mul_pow, sq_abs]
    have : ((n : ℝ) - n1 + 2) ^ 2 ≤ ((n1 : ℝ) + (n + 1 - n1)) ^ 2 - (n1 - 1) ^ 2 := by nlinarith
    nlinarith [sq_nonneg (sphJ n x)]
  have p : 0 ≤ ((n : ℝ) - n1 + 2) * |sphJ n x| := mul_nonneg (by linarith) (abs_nonneg _)
  nlinarith

end
end Verif
