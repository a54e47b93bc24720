import Mathlib.Analysis.SpecialFunctions.Pow.Real
import Mathlib.Tactic.Linarith
import Mathlib.Tactic.FieldSimp
/-!
# Stability of the three-term recurrence behind the harmonic tables

The recurrence `p_{i+1} y_{i+1} = (q_{i+1} + p_i - s) y_i - q_i y_{i-1}` is run from `i = 0`.  With alternating signs, `z_i = (-1)^i y_i`, and
`Z_i = p_i z_i + q_i z_{i-1}` it is the first-order system `Sol` below; `η` collects the errors made in each step.  As long as `q_i ≤ s/4` the solution grows
and errors stay small relative to it; after that the quadratic form `egy` (a discrete Sonin function) shows that errors no longer grow.
-/
namespace Verif.Tab

/-- Interlacing coefficients. -/
structure Links (p q : ℕ → ℝ) (N : ℕ) : Prop where
  p0 : p 0 = 0
  pq : ∀ i < N, p i ≤ q (i + 1)
  qp : ∀ i < N, q (i + 1) ≤ p (i + 1)
  q0 : ∀ i < N, 0 < q (i + 1)

/-- `z` solves the recurrence with errors `η`. -/
structure Sol (p q : ℕ → ℝ) (s : ℝ) (N : ℕ) (η z Z : ℕ → ℝ) : Prop where
  z0 : Z 0 = 0
  up : ∀ i < N, Z (i + 1) = s * z i - Z i + η (i + 1)
  dn : ∀ i < N, p (i + 1) * z (i + 1) = Z (i + 1) - q (i + 1) * z i

variable {p q : ℕ → ℝ} {s : ℝ} {N : ℕ}

theorem Links.p_nonneg (h : Links p q N) (i : ℕ) (hi : i ≤ N) : 0 ≤ p i := by
  rcases Nat.eq_zero_or_pos i with rfl | h0
  · rw [h.p0]
  · obtain ⟨j, rfl⟩ : ∃ j, i = j + 1 := ⟨i - 1, by omega⟩
    exact (h.q0 j (by omega)).le.trans (h.qp j (by omega))

/-- The growing part. -/
theorem grow (h : Links p q N) (hs : 0 < s) {z Z : ℕ → ℝ} (hz : Sol p q s N (fun _ => 0) z Z) (h0 : 0 < z 0) (I : ℕ) (hI : I ≤ N)
    (hq : ∀ i < I, q (i + 1) ≤ s / 4) :
    (∀ i ≤ I, 0 < z i ∧ 0 ≤ Z i ∧ Z i ≤ 2 * (p i * z i)) ∧
      ∀ i < I, Z i ≤ Z (i + 1) ∧ s / 2 * z i ≤ Z (i + 1) ∧ Z i - p i * z i ≤ p (i + 1) * z (i + 1) := by
  have step : ∀ i < I, 0 < z i → 0 ≤ Z i → Z i ≤ 2 * (p i * z i) →
      (0 < z (i + 1) ∧ 0 ≤ Z (i + 1) ∧ Z (i + 1) ≤ 2 * (p (i + 1) * z (i + 1))) ∧
        (Z i ≤ Z (i + 1) ∧ s / 2 * z i ≤ Z (i + 1) ∧ Z i - p i * z i ≤ p (i + 1) * z (i + 1)) := by
    intro i hi a b c
    have e1 := hz.up i (by omega)
    have e2 := hz.dn i (by omega)
    have g1 := hq i hi
    have g2 := h.pq i (by omega)
    have g3 := h.qp i (by omega)
    have g4 := h.q0 i (by omega)
    simp only [add_zero] at e1
    have k1 : p i * z i ≤ s / 4 * z i := mul_le_mul_of_nonneg_right (by linarith) a.le
    have k2 : q (i + 1) * z i ≤ s / 4 * z i := mul_le_mul_of_nonneg_right g1 a.le
    have k3 : 0 < s / 2 * z i := by positivity
    have k4 : s / 2 * z i ≤ Z (i + 1) := by rw [e1]; linarith
    have k5 : Z (i + 1) ≤ 2 * (p (i + 1) * z (i + 1)) := by rw [e2]; linarith
    have k6 : 0 < p (i + 1) * z (i + 1) := by linarith
    refine ⟨⟨(mul_pos_iff_of_pos_left (by linarith)).mp k6, by linarith, k5⟩, by linarith, k4, by linarith⟩
  have all : ∀ i ≤ I, 0 < z i ∧ 0 ≤ Z i ∧ Z i ≤ 2 * (p i * z i) := by
    intro i
    induction i with
    | zero => intro _; rw [hz.z0, h.p0]; simp [h0]
    | succ i ih =>
      intro hi
      obtain ⟨a, b, c⟩ := ih (by omega)
      exact (step i (by omega) a b c).1
  refine ⟨all, fun i hi => ?_⟩
  obtain ⟨a, b, c⟩ := all i hi.le
  exact (step i hi a b c).2

/-- In the growing part errors stay small relative to the solution. -/
theorem grow_err (h : Links p q N) (hs : 0 < s) {z Z e E η : ℕ → ℝ} (hz : Sol p q s N (fun _ => 0) z Z) (he : Sol p q s N η e E) (h0 : 0 < z 0) (I : ℕ)
    (hI : I ≤ N) (hq : ∀ i < I, q (i + 1) ≤ s / 4) (a c : ℝ) (hc : 0 ≤ c) (ha : |e 0| ≤ a * z 0) (hac : a + c * (I * (I + 1) / 2) ≤ 1)
    (hη : ∀ i < I, (∀ j ≤ i, |e j| ≤ |z j|) → |η (i + 1)| ≤ c * (p (i + 1) * z (i + 1))) :
    ∀ i ≤ I, ∃ ε, e i = ε * z i ∧ |ε| ≤ a + c * (i * (i + 1) / 2) ∧ |E i - ε * Z i| ≤ i * c * (Z i - p i * z i) := by
  obtain ⟨g, g'⟩ := grow h hs hz h0 I hI hq
  intro i
  induction i using Nat.strong_induction_on with
  | _ i ih =>
    intro hi
    rcases Nat.eq_zero_or_pos i with rfl | hpos
    · refine ⟨e 0 / z 0, by field_simp, ?_, ?_⟩
      · rw [abs_div, abs_of_pos h0, div_le_iff₀ h0]; simpa using ha
      · rw [he.z0, hz.z0]; simp
    obtain ⟨k, rfl⟩ : ∃ k, i = k + 1 := ⟨i - 1, by omega⟩
    obtain ⟨ε, e1, e2, e3⟩ := ih k (by omega) (by omega)
    have small : ∀ j ≤ k, |e j| ≤ |z j| := by
      intro j hj
      obtain ⟨ε, f1, f2, -⟩ := ih j (by omega) (by omega)
      rw [f1, abs_mul]
      refine mul_le_of_le_one_left (abs_nonneg _) (f2.trans (le_trans ?_ hac))
      have hjI : (j : ℝ) ≤ I := by exact_mod_cast (by omega : j ≤ I)
      have : (j : ℝ) * (j + 1) ≤ I * (I + 1) := by nlinarith [(Nat.cast_nonneg j : (0 : ℝ) ≤ j)]
      nlinarith
    have hk := hη k (by omega) small
    have u1 := hz.up k (by omega)
    have u2 := hz.dn k (by omega)
    have v1 := he.up k (by omega)
    have v2 := he.dn k (by omega)
    simp only [add_zero] at u1
    obtain ⟨a1, a2, a3⟩ := g k (by omega)
    obtain ⟨b1, b2, b3⟩ := g (k + 1) (by omega)
    obtain ⟨c1, c2, c3⟩ := g' k (by omega)
    have hP : 0 < p (k + 1) * z (k + 1) := by nlinarith
    set P := p (k + 1) * z (k + 1) with hPdef
    set R := η (k + 1) - (E k - ε * Z k) with hR
    have hRb : |R| ≤ (k + 1) * c * P := by
      have : |R| ≤ |η (k + 1)| + |E k - ε * Z k| := abs_sub _ _
      have h2 : (k : ℝ) * c * (Z k - p k * z k) ≤ k * c * P := mul_le_mul_of_nonneg_left c3 (by positivity)
      linarith
    have hd : |R / P| ≤ (k + 1) * c := by rw [abs_div, abs_of_pos hP, div_le_iff₀ hP]; exact hRb
    have hPe : p (k + 1) * e (k + 1) = ε * P + R := by
      rw [u2, u1, v2, v1, hR, e1]; ring
    have hp : p (k + 1) ≠ 0 := by rintro h; rw [hPdef, h, zero_mul] at hP; exact lt_irrefl _ hP
    refine ⟨ε + R / P, ?_, ?_, ?_⟩
    · apply mul_left_cancel₀ hp
      rw [hPe, add_mul, mul_add, show p (k + 1) * (R / P * z (k + 1)) = R / P * P by rw [hPdef]; ring, div_mul_cancel₀ _ hP.ne', hPdef]
      ring
    · refine (abs_add_le _ _).trans ?_
      push_cast
      linarith
    · have : E (k + 1) - (ε + R / P) * Z (k + 1) = -(R / P) * (Z (k + 1) - P) := by
        have hE : E (k + 1) = ε * Z (k + 1) + R := by rw [v1, hR, u1, e1]; ring
        have hRP : R / P * P = R := div_mul_cancel₀ _ hP.ne'
        rw [hE]; linear_combination -hRP
      have hnn : 0 ≤ Z (k + 1) - P := by
        rw [u2]
        have := mul_nonneg (h.q0 k (by omega)).le a1.le
        linarith
      rw [this, abs_mul, abs_neg, abs_of_nonneg hnn]
      push_cast
      exact mul_le_mul_of_nonneg_right hd hnn

/-! ## The oscillating part -/

/-- The discrete Sonin function. -/
noncomputable def egy (s a e E : ℝ) : ℝ := (E - s * e / 2) ^ 2 / (a - s / 4) + s * e ^ 2

theorem egy_nonneg {a e E : ℝ} (hs : 0 ≤ s) (ha : s / 4 < a) : 0 ≤ egy s a e E := by
  unfold egy
  have : 0 < a - s / 4 := by linarith
  positivity

theorem egy_up {p q e E : ℝ} (hp : s / 4 < p) (hpq : p ≤ q) : egy s q e (s * e - E) ≤ egy s p e E := by
  unfold egy
  have h1 : 0 < p - s / 4 := by linarith
  have h2 : (s * e - E - s * e / 2) ^ 2 = (E - s * e / 2) ^ 2 := by ring
  rw [h2]
  have := div_le_div_of_nonneg_left (sq_nonneg (E - s * e / 2)) h1 (by linarith : p - s / 4 ≤ q - s / 4)
  linarith

theorem egy_eq {a e E : ℝ} (ha : s / 4 < a) (h0 : 0 < a) : egy s a e E = E ^ 2 / a + s * a * (e - E / (2 * a)) ^ 2 / (a - s / 4) := by
  unfold egy
  obtain ⟨x, rfl⟩ : ∃ x, s = 4 * (a - x) := ⟨a - s / 4, by ring⟩
  rw [show a - 4 * (a - x) / 4 = x by ring]
  have h1 : x ≠ 0 := by linarith
  field_simp
  ring

theorem egy_dn {p q e e' E : ℝ} (hs : 0 ≤ s) (hq : s / 4 < q) (hpq : q ≤ p) (he : p * e' = E - q * e) : egy s p e' E ≤ egy s q e E := by
  have q0 : 0 < q := by linarith
  have p0 : 0 < p := by linarith
  rw [egy_eq (by linarith) p0, egy_eq hq q0]
  have h2 : e' - E / (2 * p) = -(q / p) * (e - E / (2 * q)) := by
    have : e' = (E - q * e) / p := by rw [eq_div_iff p0.ne']; linarith
    rw [this]; field_simp; ring
  rw [h2, show s * p * (-(q / p) * (e - E / (2 * q))) ^ 2 = s * q * (e - E / (2 * q)) ^ 2 * (q / p) by field_simp]
  have h3 : E ^ 2 / p ≤ E ^ 2 / q := div_le_div_of_nonneg_left (sq_nonneg _) q0 hpq
  have h4 : s * q * (e - E / (2 * q)) ^ 2 * (q / p) ≤ s * q * (e - E / (2 * q)) ^ 2 :=
    mul_le_of_le_one_right (by positivity) ((div_le_one p0).mpr hpq)
  have h5 : s * q * (e - E / (2 * q)) ^ 2 * (q / p) / (p - s / 4) ≤ s * q * (e - E / (2 * q)) ^ 2 / (q - s / 4) :=
    div_le_div₀ (by positivity) h4 (by linarith) (by linarith)
  linarith

theorem sqrt_add_sq (x y d : ℝ) (hy : 0 ≤ y) : Real.sqrt ((x + d) ^ 2 + y) ≤ Real.sqrt (x ^ 2 + y) + |d| := by
  rw [Real.sqrt_le_left (by positivity)]
  have h1 : 0 ≤ x ^ 2 + y := by positivity
  have h2 := Real.sq_sqrt h1
  have h3 : |x| ≤ Real.sqrt (x ^ 2 + y) := Real.abs_le_sqrt (by linarith)
  have h4 : x * d ≤ |x| * |d| := by rw [← abs_mul]; exact le_abs_self _
  have h5 : |d| ^ 2 = d ^ 2 := sq_abs d
  nlinarith [mul_le_mul_of_nonneg_right h3 (abs_nonneg d)]

theorem egy_pert {a e E d : ℝ} (hs : 0 ≤ s) (ha : s / 4 < a) : Real.sqrt (egy s a e (E + d)) ≤ Real.sqrt (egy s a e E) + |d| / Real.sqrt (a - s / 4) := by
  have h1 : 0 < a - s / 4 := by linarith
  have h2 : ∀ E, egy s a e E = ((E - s * e / 2) ^ 2 + s * e ^ 2 * (a - s / 4)) / (a - s / 4) := fun E => by unfold egy; rw [add_div, mul_div_assoc _ (a - s / 4), div_self h1.ne', mul_one]
  rw [h2, h2, Real.sqrt_div' _ h1.le, Real.sqrt_div' _ h1.le, ← add_div]
  refine div_le_div_of_nonneg_right ?_ (Real.sqrt_nonneg _)
  rw [show E + d - s * e / 2 = (E - s * e / 2) + d by ring]
  exact sqrt_add_sq _ _ _ (by positivity)

theorem egy_val {a e E : ℝ} (ha : s / 4 < a) : Real.sqrt s * |e| ≤ Real.sqrt (egy s a e E) := by
  rw [← Real.sqrt_sq_eq_abs, ← Real.sqrt_mul' _ (sq_nonneg e)]
  apply Real.sqrt_le_sqrt
  unfold egy
  have h1 : 0 < a - s / 4 := by linarith
  have : 0 ≤ (E - s * e / 2) ^ 2 / (a - s / 4) := by positivity
  linarith

/-- In the oscillating part errors only add up. -/
theorem osc (h : Links p q N) (hs : 0 < s) {e E η : ℕ → ℝ} (he : Sol p q s N η e E) (I : ℕ) (hI : I < N) (hq : s / 4 < q (I + 1)) (C B : ℝ) (hB : 0 ≤ B)
    (hC : Real.sqrt (egy s (q (I + 1)) (e I) (E (I + 1))) ≤ C * Real.sqrt s) (Y : ℝ) (hY : C + B * N ≤ Y) (hold : ∀ i ≤ I, |e i| ≤ Y)
    (hη : ∀ i < N, I < i → (∀ j ≤ i, |e j| ≤ Y) → |η (i + 1)| ≤ B * Real.sqrt s * Real.sqrt (q (i + 1) - s / 4)) :
    ∀ i, I < i → i ≤ N → |e i| ≤ C + B * i := by
  have hss : 0 < Real.sqrt s := Real.sqrt_pos.mpr hs
  have hqi : ∀ i < N, I ≤ i → s / 4 < q (i + 1) := by
    intro i
    induction i with
    | zero => intro h1 h2; have : I = 0 := by omega
              subst this; exact hq
    | succ i ih =>
      intro h1 h2
      rcases Nat.lt_or_ge I (i + 1) with h3 | h3
      · exact lt_of_lt_of_le (ih (by omega) (by omega)) ((h.qp i (by omega)).trans (h.pq (i + 1) h1))
      · have : I = i + 1 := by omega
        subst this; exact hq
  have key : ∀ i, I < i → i ≤ N → Real.sqrt (egy s (p i) (e i) (E i)) ≤ (C + B * i) * Real.sqrt s ∧ |e i| ≤ C + B * i := by
    intro i
    induction i using Nat.strong_induction_on with
    | _ i ih =>
      intro h1 h2
      obtain ⟨k, rfl⟩ : ∃ k, i = k + 1 := ⟨i - 1, by omega⟩
      have hqk := hqi k (by omega) (by omega)
      have hqp := h.qp k (by omega)
      have main : Real.sqrt (egy s (p (k + 1)) (e (k + 1)) (E (k + 1))) ≤ (C + B * ((k + 1 : ℕ) : ℝ)) * Real.sqrt s := by
        refine (Real.sqrt_le_sqrt (egy_dn hs.le hqk hqp (he.dn k (by omega)))).trans ?_
        rcases Nat.lt_or_ge I k with h3 | h3
        · obtain ⟨i1, -⟩ := ih k (by omega) h3 (by omega)
          have hpk : s / 4 < p k := by
            obtain ⟨j, rfl⟩ : ∃ j, k = j + 1 := ⟨k - 1, by omega⟩
            exact lt_of_lt_of_le (hqi j (by omega) (by omega)) (h.qp j (by omega))
          have hsm : ∀ j ≤ k, |e j| ≤ Y := by
            intro j hj
            rcases Nat.lt_or_ge I j with h4 | h4
            · refine (ih j (by omega) h4 (by omega)).2.trans (le_trans ?_ hY)
              have : (j : ℝ) ≤ N := by exact_mod_cast (by omega : j ≤ N)
              nlinarith
            · exact hold j h4
          rw [he.up k (by omega)]
          refine (egy_pert hs.le hqk).trans ?_
          have j1 := Real.sqrt_le_sqrt (egy_up (s := s) (e := e k) (E := E k) hpk (h.pq k (by omega)))
          have hx : 0 < Real.sqrt (q (k + 1) - s / 4) := Real.sqrt_pos.mpr (by linarith)
          have j2 : |η (k + 1)| / Real.sqrt (q (k + 1) - s / 4) ≤ B * Real.sqrt s := by
            rw [div_le_iff₀ hx]; exact hη k (by omega) h3 hsm
          push_cast
          nlinarith
        · have : I = k := by omega
          subst this
          refine hC.trans (mul_le_mul_of_nonneg_right ?_ hss.le)
          have : 0 ≤ B * ((I + 1 : ℕ) : ℝ) := by positivity
          linarith
      refine ⟨main, ?_⟩
      have hv := egy_val (s := s) (a := p (k + 1)) (e := e (k + 1)) (E := E (k + 1)) (by linarith)
      have := hv.trans main
      rw [mul_comm] at this
      exact le_of_mul_le_mul_right this hss
  exact fun i h1 h2 => (key i h1 h2).2

end Verif.Tab
