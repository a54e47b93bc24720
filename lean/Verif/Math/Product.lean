import Verif.Math.VecHarm
import Verif.Math.Theta
/-!
# Products of spherical harmonics

The product of harmonics of degrees `n₁`, `n₂` is a combination of harmonics of degree at most `n₁ + n₂`.
-/
namespace Verif
open Polynomial Finset

theorem tconst_ne (n : ℕ) (m : ℤ) : tconst n m ≠ 0 := by
  unfold tconst normSH
  refine mul_ne_zero (by split_ifs <;> simp) ?_
  have := Real.pi_pos
  rw [Real.sqrt_ne_zero']
  positivity

/-- Every polynomial of degree `≤ D` is a combination of the `m`-th derivatives of the Legendre polynomials of degrees `m, ..., m + D`. -/
theorem leg_span (m : ℕ) : ∀ (D : ℕ) (P : ℝ[X]), P.natDegree ≤ D → ∃ a : ℕ → ℝ, P = ∑ k ∈ range (D + 1), C (a k) * legD (k + m) m := by
  have hl : ∀ k, (legD (k + m) m).coeff k ≠ 0 := fun k => by
    have := Trig.legD_lead (k + m) m (by omega)
    rw [Nat.add_sub_cancel] at this
    rw [this]
    positivity
  have hd : ∀ k, (legD (k + m) m).natDegree ≤ k := fun k => by
    have := Trig.legD_natDegree (k + m) m
    rwa [Nat.add_sub_cancel] at this
  intro D
  induction D with
  | zero =>
    intro P hP
    refine ⟨fun _ => P.coeff 0 / (legD (0 + m) m).coeff 0, ?_⟩
    rw [zero_add, sum_range_one]
    have h1 := eq_C_of_natDegree_le_zero hP
    have h2 := eq_C_of_natDegree_le_zero (hd 0)
    have h3 := hl 0
    set x := (legD (0 + m) m).coeff 0
    rw [h1, h2, ← C_mul, coeff_C_zero, div_mul_cancel₀ _ h3]
  | succ D ih =>
    intro P hP
    set x := (legD (D + 1 + m) m).coeff (D + 1) with hx
    have hx0 : x ≠ 0 := hl (D + 1)
    set y := P.coeff (D + 1) / x with hy
    have hQ : (P - C y * legD (D + 1 + m) m).natDegree ≤ D := by
      rw [natDegree_le_iff_coeff_eq_zero]
      intro k hk
      rw [coeff_sub, coeff_C_mul]
      rcases Nat.lt_or_ge (D + 1) k with h | h
      · rw [coeff_eq_zero_of_natDegree_lt (by omega), coeff_eq_zero_of_natDegree_lt (by have := hd (D + 1); omega)]; simp
      · have : k = D + 1 := by omega
        subst this
        rw [← hx, hy, div_mul_cancel₀ _ hx0, sub_self]
    obtain ⟨a, ha⟩ := ih _ hQ
    refine ⟨fun k => if k = D + 1 then y else a k, ?_⟩
    rw [sum_range_succ]
    beta_reduce
    rw [if_pos rfl]
    have : ∑ k ∈ range (D + 1), C (if k = D + 1 then y else a k) * legD (k + m) m = ∑ k ∈ range (D + 1), C (a k) * legD (k + m) m :=
      sum_congr rfl fun k hk => by rw [if_neg (by rw [mem_range] at hk; omega)]
    rw [this, ← ha]; ring

/-- `sin^|l| θ` times a polynomial in `cos θ` of degree `≤ K - |l|` is a combination of the θ-parts of order `l` and degree `≤ K`. -/
theorem theta_span (l : ℤ) (K : ℕ) (P : ℝ[X]) (hdeg : P.natDegree ≤ K - l.natAbs) (hK : l.natAbs ≤ K) :
    ∃ a : ℕ → ℝ, ∀ θ, Real.sin θ ^ l.natAbs * P.eval (Real.cos θ) = ∑ k ∈ Icc l.natAbs K, a k * thetaPart k l θ := by
  obtain ⟨a, ha⟩ := leg_span l.natAbs _ P hdeg
  refine ⟨fun k => a (k - l.natAbs) / tconst k l, fun θ => ?_⟩
  rw [ha, eval_finsetSum, mul_sum]
  refine sum_nbij' (fun k => k + l.natAbs) (fun k => k - l.natAbs) (fun k hk => ?_) (fun k hk => ?_) (fun k hk => ?_) (fun k hk => ?_) fun k hk => ?_
  · rw [mem_range] at hk; rw [mem_Icc]; omega
  · rw [mem_Icc] at hk; rw [mem_range]; omega
  · omega
  · rw [mem_Icc] at hk; omega
  · beta_reduce
    rw [thetaPart_eq, Nat.add_sub_cancel, eval_mul, eval_C]
    have := tconst_ne (k + l.natAbs) l
    field_simp

/-- `p = 0`, or the degree of `p` is at most `d`. -/
def DegLE (p : ℝ[X]) (d : ℤ) : Prop := p = 0 ∨ (p.natDegree : ℤ) ≤ d

theorem DegLE.add {p q : ℝ[X]} {d : ℤ} (hp : DegLE p d) (hq : DegLE q d) : DegLE (p + q) d := by
  rcases hp with rfl | hp
  · rwa [zero_add]
  · rcases hq with rfl | hq
    · rw [add_zero]; exact Or.inr hp
    · have := natDegree_add_le p q
      exact Or.inr (by omega)

theorem DegLE.mul {p q : ℝ[X]} {d e : ℤ} (hp : DegLE p d) (hq : DegLE q e) : DegLE (p * q) (d + e) := by
  rcases hp with rfl | hp
  · exact Or.inl (zero_mul _)
  · rcases hq with rfl | hq
    · exact Or.inl (mul_zero _)
    · have := natDegree_mul_le (p := p) (q := q)
      exact Or.inr (by omega)

theorem DegLE.mono {p : ℝ[X]} {d e : ℤ} (hp : DegLE p d) (h : d ≤ e) : DegLE p e := hp.imp_right fun k => k.trans h

theorem DegLE.const (a : ℝ) : DegLE (C a) 0 := Or.inr (by simp)

theorem DegLE.smul {p : ℝ[X]} {d : ℤ} (a : ℝ) (hp : DegLE p d) : DegLE (C a * p) d := by
  have := (DegLE.const a).mul hp
  rwa [zero_add] at this

theorem DegLE.sub {p q : ℝ[X]} {d : ℤ} (hp : DegLE p d) (hq : DegLE q d) : DegLE (p - q) d := by
  have := hp.add (hq.smul (-1))
  rwa [C_neg, C_1, neg_one_mul, ← sub_eq_add_neg] at this

theorem DegLE.x : DegLE X 1 := Or.inr (by simp)

theorem DegLE.s2 (j : ℕ) : DegLE ((1 - X ^ 2) ^ j) (2 * j) := by
  have d0 : ((1 - X ^ 2 : ℝ[X])).natDegree ≤ 2 := by compute_degree
  have d1 : ((1 - X ^ 2 : ℝ[X]) ^ j).natDegree ≤ j * 2 := natDegree_pow_le_of_le j d0
  exact Or.inr (by omega)

theorem DegLE.leg (n m : ℕ) : DegLE (legD n m) (n - m) := by
  rcases Nat.lt_or_ge n m with h | h
  · exact Or.inl (Trig.legD_eq_zero n m h)
  · have := Trig.legD_natDegree n m
    exact Or.inr (by omega)

theorem DegLE.nat {p : ℝ[X]} {d : ℕ} (h : DegLE p d) : p.natDegree ≤ d := by
  rcases h with rfl | h
  · simp
  · exact_mod_cast h

theorem sin_sq_eq (θ : ℝ) : 1 - Real.cos θ ^ 2 = Real.sin θ ^ 2 := by have := Real.sin_sq_add_cos_sq θ; linarith

/-- The product of two θ-parts. -/
theorem theta_product (n₁ n₂ : ℕ) (m₁ m₂ : ℤ) (h₁ : m₁.natAbs ≤ n₁) (h₂ : m₂.natAbs ≤ n₂) :
    ∃ a : ℕ → ℝ, ∀ θ, thetaPart n₁ m₁ θ * thetaPart n₂ m₂ θ =
      ∑ k ∈ Icc (m₁ + m₂).natAbs (n₁ + n₂), a k * thetaPart k (m₁ + m₂) θ := by
  obtain ⟨j, hj⟩ : ∃ j, m₁.natAbs + m₂.natAbs = (m₁ + m₂).natAbs + 2 * j := ⟨(m₁.natAbs + m₂.natAbs - (m₁ + m₂).natAbs) / 2, by omega⟩
  have hdeg : DegLE (C (tconst n₁ m₁ * tconst n₂ m₂) * ((1 - X ^ 2) ^ j * (legD n₁ m₁.natAbs * legD n₂ m₂.natAbs))) ((n₁ + n₂ - (m₁ + m₂).natAbs : ℕ) : ℤ) :=
    (((DegLE.s2 j).mul ((DegLE.leg _ _).mul (DegLE.leg _ _))).smul _).mono (by omega)
  obtain ⟨a, ha⟩ := theta_span (m₁ + m₂) (n₁ + n₂) _ hdeg.nat (by omega)
  refine ⟨a, fun θ => ?_⟩
  rw [← ha, thetaPart_eq, thetaPart_eq]
  simp only [eval_mul, eval_C, eval_pow, eval_sub, eval_one, eval_X]
  rw [sin_sq_eq, ← pow_mul]
  have : Real.sin θ ^ m₁.natAbs * Real.sin θ ^ m₂.natAbs = Real.sin θ ^ (m₁ + m₂).natAbs * Real.sin θ ^ (2 * j) := by rw [← pow_add, ← pow_add, hj]
  linear_combination (tconst n₁ m₁ * tconst n₂ m₂ * (legD n₁ m₁.natAbs).eval (Real.cos θ) * (legD n₂ m₂.natAbs).eval (Real.cos θ)) * this

/-- The two products of the parts of vector harmonics, orders `m₁` and `m₂`, as `sin^|m₁-m₂| θ` times a polynomial. -/
theorem vec_poly (n₁ n₂ : ℕ) (m₁ m₂ : ℤ) (h₁ : m₁.natAbs ≤ n₁) (h₂ : m₂.natAbs ≤ n₂) :
    ∃ P Q : ℝ[X], DegLE P (n₁ + n₂ - (m₁ - m₂).natAbs) ∧ DegLE Q (n₁ + n₂ - (m₁ - m₂).natAbs) ∧ ∀ θ,
      tPart n₁ m₁ θ * tPart n₂ m₂ θ + hPart n₁ m₁ θ * hPart n₂ m₂ θ = Real.sin θ ^ (m₁ - m₂).natAbs * P.eval (Real.cos θ) ∧
      hPart n₁ m₁ θ * tPart n₂ m₂ θ + tPart n₁ m₁ θ * hPart n₂ m₂ θ = Real.sin θ ^ (m₁ - m₂).natAbs * Q.eval (Real.cos θ) := by
  have s2 := DegLE.s2 1
  rw [pow_one] at s2
  unfold tPart hPart
  generalize tconst n₁ m₁ = τ₁
  generalize tconst n₂ m₂ = τ₂
  have L := DegLE.leg
  have Xd := DegLE.x
  rcases Nat.eq_zero_or_pos m₁.natAbs with a0 | a0
  · have e1 : m₁ = 0 := Int.natAbs_eq_zero.mp a0
    subst e1
    rcases Nat.eq_zero_or_pos m₂.natAbs with b0 | b0
    · have e2 : m₂ = 0 := Int.natAbs_eq_zero.mp b0
      subst e2
      refine ⟨C (τ₁ * τ₂) * ((1 - X ^ 2) * (legD n₁ 1 * legD n₂ 1)), 0, ((s2.mul ((L n₁ 1).mul (L n₂ 1))).smul _).mono (by simp; omega), Or.inl rfl, fun θ => ⟨?_, ?_⟩⟩
      · simp only [eval_mul, eval_C, eval_pow, eval_sub, eval_one, eval_X, sin_sq_eq]
        simp
        ring
      · simp
    · obtain ⟨b, hb⟩ := Nat.exists_eq_add_of_le' b0
      have hl : ((0 : ℤ) - m₂).natAbs = b + 1 := by omega
      rw [hl, hb]
      refine ⟨C (τ₁ * τ₂) * (legD n₁ 1 * ((1 - X ^ 2) * legD n₂ (b + 2) - C ((b : ℝ) + 1) * (X * legD n₂ (b + 1)))), C (-(τ₁ * τ₂ * m₂)) * (legD n₁ 1 * legD n₂ (b + 1)), ?_, ?_, fun θ => ⟨?_, ?_⟩⟩
      · exact ((L n₁ 1).mul (((s2.mul (L n₂ (b + 2))).mono (e := n₂ - b) (by push_cast; omega)).sub ((Xd.mul (L n₂ (b + 1))).smul _ |>.mono (by push_cast; omega)))).smul _ |>.mono
          (by push_cast; omega)
      · exact (((L n₁ 1).mul (L n₂ (b + 1))).smul _).mono (by push_cast; omega)
      · simp only [eval_mul, eval_C, eval_pow, eval_sub, eval_one, eval_X, sin_sq_eq]
        simp
        ring
      · simp only [eval_mul, eval_C, eval_pow, eval_sub, eval_one, eval_X, sin_sq_eq]
        simp
        ring
  · obtain ⟨a, ha⟩ := Nat.exists_eq_add_of_le' a0
    rcases Nat.eq_zero_or_pos m₂.natAbs with b0 | b0
    · have e2 : m₂ = 0 := Int.natAbs_eq_zero.mp b0
      subst e2
      have hl : (m₁ - (0 : ℤ)).natAbs = a + 1 := by omega
      rw [hl, ha]
      refine ⟨C (τ₁ * τ₂) * (legD n₂ 1 * ((1 - X ^ 2) * legD n₁ (a + 2) - C ((a : ℝ) + 1) * (X * legD n₁ (a + 1)))), C (-(τ₁ * τ₂ * m₁)) * (legD n₂ 1 * legD n₁ (a + 1)), ?_, ?_, fun θ => ⟨?_, ?_⟩⟩
      · exact ((L n₂ 1).mul (((s2.mul (L n₁ (a + 2))).mono (e := n₁ - a) (by push_cast; omega)).sub ((Xd.mul (L n₁ (a + 1))).smul _ |>.mono (by push_cast; omega)))).smul _ |>.mono
          (by push_cast; omega)
      · exact (((L n₂ 1).mul (L n₁ (a + 1))).smul _).mono (by push_cast; omega)
      · simp only [eval_mul, eval_C, eval_pow, eval_sub, eval_one, eval_X, sin_sq_eq]
        simp
        ring
      · simp only [eval_mul, eval_C, eval_pow, eval_sub, eval_one, eval_X, sin_sq_eq]
        simp
        ring
    · obtain ⟨b, hb⟩ := Nat.exists_eq_add_of_le' b0
      have dA : DegLE ((1 - X ^ 2) * legD n₁ (a + 2) - C ((a : ℝ) + 1) * (X * legD n₁ (a + 1))) (n₁ - a) :=
        ((s2.mul (L n₁ (a + 2))).mono (e := n₁ - a) (by push_cast; omega)).sub ((Xd.mul (L n₁ (a + 1))).smul _ |>.mono (by push_cast; omega))
      have dB : DegLE ((1 - X ^ 2) * legD n₂ (b + 2) - C ((b : ℝ) + 1) * (X * legD n₂ (b + 1))) (n₂ - b) :=
        ((s2.mul (L n₂ (b + 2))).mono (e := n₂ - b) (by push_cast; omega)).sub ((Xd.mul (L n₂ (b + 1))).smul _ |>.mono (by push_cast; omega))
      rcases lt_or_ge (m₁ * m₂) 0 with hs | hs
      · -- opposite signs
        have hsum : (m₁ - m₂).natAbs = a + b + 2 := by
          rcases lt_or_gt_of_ne (show m₁ ≠ 0 by omega) with h | h
          · have : 0 < m₂ := by nlinarith
            omega
          · have : m₂ < 0 := by nlinarith
            omega
        have hmm : (m₁ : ℝ) * m₂ = -(((a : ℝ) + 1) * (b + 1)) := by
          have : m₁ * m₂ = -((a + 1) * (b + 1) : ℤ) := by
            have h := Int.natAbs_mul m₁ m₂
            rw [ha, hb] at h
            have : m₁ * m₂ = -((m₁ * m₂).natAbs : ℤ) := by omega
            rw [this, h]; push_cast; ring
          exact_mod_cast this
        have hcr : (m₁ : ℝ) * (b + 1) + m₂ * (a + 1) = 0 := by
          have : m₁ * (b + 1) + m₂ * (a + 1) = 0 := by
            rcases lt_or_gt_of_ne (show m₁ ≠ 0 by omega) with h | h
            · have h' : 0 < m₂ := by nlinarith
              have i1 : m₁ = -(a + 1) := by omega
              have i2 : m₂ = b + 1 := by omega
              rw [i1, i2]; ring
            · have h' : m₂ < 0 := by nlinarith
              have i1 : m₁ = a + 1 := by omega
              have i2 : m₂ = -(b + 1) := by omega
              rw [i1, i2]; ring
          exact_mod_cast this
        rw [hsum, ha, hb]
        refine ⟨C (τ₁ * τ₂) * ((1 - X ^ 2) * (legD n₁ (a + 2) * legD n₂ (b + 2)) - C ((b : ℝ) + 1) * (X * (legD n₁ (a + 2) * legD n₂ (b + 1))) -
            C ((a : ℝ) + 1) * (X * (legD n₁ (a + 1) * legD n₂ (b + 2))) - C (((a : ℝ) + 1) * (b + 1)) * (legD n₁ (a + 1) * legD n₂ (b + 1))),
          C (-(τ₁ * τ₂)) * (C (m₁ : ℝ) * (legD n₁ (a + 1) * legD n₂ (b + 2)) + C (m₂ : ℝ) * (legD n₁ (a + 2) * legD n₂ (b + 1))), ?_, ?_, fun θ => ⟨?_, ?_⟩⟩
        · refine DegLE.smul _ (((DegLE.sub (DegLE.sub (DegLE.sub ?_ ?_) ?_) ?_)))
          · exact (s2.mul ((L n₁ (a + 2)).mul (L n₂ (b + 2)))).mono (by push_cast; omega)
          · exact ((Xd.mul ((L n₁ (a + 2)).mul (L n₂ (b + 1)))).smul _).mono (by push_cast; omega)
          · exact ((Xd.mul ((L n₁ (a + 1)).mul (L n₂ (b + 2)))).smul _).mono (by push_cast; omega)
          · exact (((L n₁ (a + 1)).mul (L n₂ (b + 1))).smul _).mono (by push_cast; omega)
        · refine DegLE.smul _ (DegLE.add ?_ ?_)
          · exact (((L n₁ (a + 1)).mul (L n₂ (b + 2))).smul _).mono (by push_cast; omega)
          · exact (((L n₁ (a + 2)).mul (L n₂ (b + 1))).smul _).mono (by push_cast; omega)
        · have hc := sin_sq_eq θ
          simp only [eval_mul, eval_C, eval_pow, eval_sub, eval_add, eval_one, eval_X, Nat.add_sub_cancel]
          push_cast
          set S := Real.sin θ
          set c := Real.cos θ
          set p1 := eval c (legD n₁ (a + 1))
          set p2 := eval c (legD n₂ (b + 1))
          have r1 : legD n₁ (a + 1 + 1) = legD n₁ (a + 2) := rfl
          have r2 : legD n₂ (b + 1 + 1) = legD n₂ (b + 2) := rfl
          rw [r1, r2]
          set q1 := eval c (legD n₁ (a + 2))
          set q2 := eval c (legD n₂ (b + 2))
          linear_combination (τ₁ * τ₂ * S ^ (a + b) * p1 * p2) * hmm - (τ₁ * τ₂ * S ^ (a + b) * p1 * p2 * ((a + 1) * (b + 1))) * hc -
            (τ₁ * τ₂ * S ^ (a + b + 2) * q1 * q2) * hc
        · simp only [eval_mul, eval_C, eval_pow, eval_sub, eval_add, eval_one, eval_X, Nat.add_sub_cancel]
          push_cast
          have r1 : legD n₁ (a + 1 + 1) = legD n₁ (a + 2) := rfl
          have r2 : legD n₂ (b + 1 + 1) = legD n₂ (b + 2) := rfl
          rw [r1, r2]
          linear_combination (τ₁ * τ₂ * Real.sin θ ^ (a + b) * Real.cos θ * eval (Real.cos θ) (legD n₁ (a + 1)) * eval (Real.cos θ) (legD n₂ (b + 1))) * hcr
      · -- equal signs
        obtain ⟨j, hj⟩ : ∃ j, a + b = (m₁ - m₂).natAbs + 2 * j := by
          refine ⟨(a + b - (m₁ - m₂).natAbs) / 2, ?_⟩
          have : (m₁ - m₂).natAbs ≤ a + b := by
            rcases lt_or_gt_of_ne (show m₁ ≠ 0 by omega) with h | h
            · have : m₂ ≤ 0 := by by_contra k; nlinarith
              omega
            · have : 0 ≤ m₂ := by by_contra k; nlinarith
              omega
          omega
        rw [ha, hb]
        refine ⟨C (τ₁ * τ₂) * ((1 - X ^ 2) ^ j * (((1 - X ^ 2) * legD n₁ (a + 2) - C ((a : ℝ) + 1) * (X * legD n₁ (a + 1))) *
            ((1 - X ^ 2) * legD n₂ (b + 2) - C ((b : ℝ) + 1) * (X * legD n₂ (b + 1))) + C ((m₁ : ℝ) * m₂) * (legD n₁ (a + 1) * legD n₂ (b + 1)))),
          C (-(τ₁ * τ₂)) * ((1 - X ^ 2) ^ j * (C (m₁ : ℝ) * (legD n₁ (a + 1) * ((1 - X ^ 2) * legD n₂ (b + 2) - C ((b : ℝ) + 1) * (X * legD n₂ (b + 1)))) +
            C (m₂ : ℝ) * (((1 - X ^ 2) * legD n₁ (a + 2) - C ((a : ℝ) + 1) * (X * legD n₁ (a + 1))) * legD n₂ (b + 1)))), ?_, ?_, fun θ => ⟨?_, ?_⟩⟩
        · exact (((DegLE.s2 j).mul ((dA.mul dB).add ((((L n₁ (a + 1)).mul (L n₂ (b + 1))).smul _).mono (by push_cast; omega)))).smul _).mono (by omega)
        · refine (((DegLE.s2 j).mul (DegLE.add (d := n₁ - a + (n₂ - b)) ?_ ?_)).smul _).mono (by omega)
          · exact (((L n₁ (a + 1)).mul dB).smul _).mono (by push_cast; omega)
          · exact ((dA.mul (L n₂ (b + 1))).smul _).mono (by push_cast; omega)
        · simp only [eval_mul, eval_C, eval_pow, eval_sub, eval_add, eval_one, eval_X, Nat.add_sub_cancel]
          rw [sin_sq_eq, ← pow_mul]
          push_cast
          have r1 : legD n₁ (a + 1 + 1) = legD n₁ (a + 2) := rfl
          have r2 : legD n₂ (b + 1 + 1) = legD n₂ (b + 2) := rfl
          rw [r1, r2]
          have hp : Real.sin θ ^ a * Real.sin θ ^ b = Real.sin θ ^ (m₁ - m₂).natAbs * Real.sin θ ^ (2 * j) := by rw [← pow_add, ← pow_add, hj]
          set S := Real.sin θ
          set c := Real.cos θ
          set p1 := eval c (legD n₁ (a + 1))
          set p2 := eval c (legD n₂ (b + 1))
          set q1 := eval c (legD n₁ (a + 2))
          set q2 := eval c (legD n₂ (b + 2))
          linear_combination (τ₁ * τ₂ * ((S ^ 2 * q1 - (a + 1) * (c * p1)) * (S ^ 2 * q2 - (b + 1) * (c * p2)) + m₁ * m₂ * (p1 * p2))) * hp
        · simp only [eval_mul, eval_C, eval_pow, eval_sub, eval_add, eval_one, eval_X, Nat.add_sub_cancel]
          rw [sin_sq_eq, ← pow_mul]
          push_cast
          have r1 : legD n₁ (a + 1 + 1) = legD n₁ (a + 2) := rfl
          have r2 : legD n₂ (b + 1 + 1) = legD n₂ (b + 2) := rfl
          rw [r1, r2]
          have hp : Real.sin θ ^ a * Real.sin θ ^ b = Real.sin θ ^ (m₁ - m₂).natAbs * Real.sin θ ^ (2 * j) := by rw [← pow_add, ← pow_add, hj]
          set S := Real.sin θ
          set c := Real.cos θ
          set p1 := eval c (legD n₁ (a + 1))
          set p2 := eval c (legD n₂ (b + 1))
          set q1 := eval c (legD n₁ (a + 2))
          set q2 := eval c (legD n₂ (b + 2))
          linear_combination (-(τ₁ * τ₂) * (m₁ * (p1 * (S ^ 2 * q2 - (b + 1) * (c * p2))) + m₂ * ((S ^ 2 * q1 - (a + 1) * (c * p1)) * p2))) * hp

/-- The product of two harmonics. -/
theorem sphY_product (n₁ n₂ : ℕ) (m₁ m₂ : ℤ) (h₁ : m₁.natAbs ≤ n₁) (h₂ : m₂.natAbs ≤ n₂) :
    ∃ a : ℕ → ℝ, ∀ θ φ, sphY n₁ m₁ θ φ * sphY n₂ m₂ θ φ = ∑ k ∈ Icc (m₁ + m₂).natAbs (n₁ + n₂), (a k : ℂ) * sphY k (m₁ + m₂) θ φ := by
  obtain ⟨a, ha⟩ := theta_product n₁ n₂ m₁ m₂ h₁ h₂
  refine ⟨a, fun θ φ => ?_⟩
  unfold sphY
  have h := congrArg (fun x : ℝ => (x : ℂ)) (ha θ)
  push_cast at h
  have he : Complex.exp (m₁ * (φ * Complex.I)) * Complex.exp (m₂ * (φ * Complex.I)) = Complex.exp (((m₁ + m₂ : ℤ) : ℂ) * (φ * Complex.I)) := by
    rw [← Complex.exp_add]; congr 1; push_cast; ring
  calc _ = ((thetaPart n₁ m₁ θ : ℂ) * (thetaPart n₂ m₂ θ : ℂ)) * (Complex.exp (m₁ * (φ * Complex.I)) * Complex.exp (m₂ * (φ * Complex.I))) := by ring
    _ = _ := by
      rw [h, he, sum_mul]
      exact sum_congr rfl fun k _ => by ring

end Verif
