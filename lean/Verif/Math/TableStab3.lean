import Verif.Math.TableStab2
/-!
# The table recurrence for order zero
-/
namespace Verif.Tab

theorem zonal_exact {p q : ℕ → ℝ} {N : ℕ} (L : Links p q N) {y : ℕ → ℝ} (hy : Rec p q 0 N (fun _ => 0) y) (y0 : 0 < y 0) :
    (∀ i < N, p (i + 1) * y (i + 1) = q (i + 1) * y i) ∧ ∀ i ≤ N, 0 < y i := by
  have h1 : ∀ i < N, p (i + 1) * y (i + 1) = q (i + 1) * y i := by
    intro i
    induction i with
    | zero => intro hi; have := hy.first hi; rw [L.p0] at this; simp only [zero_add]; linarith
    | succ i ih => intro hi; have := hy.next i hi; have := ih (by omega); linarith
  refine ⟨h1, fun i => ?_⟩
  induction i with
  | zero => intro _; exact y0
  | succ i ih =>
    intro hi
    have := h1 i (by omega)
    have hq := L.q0 i (by omega)
    have := mul_pos hq (ih (by omega))
    exact (mul_pos_iff_of_pos_left (lt_of_lt_of_le hq (L.qp i (by omega)))).mp (by linarith)

/-- Error bound for order 0: relative. -/
theorem main0 (n : ℕ) (κ τ a : ℝ) (hκ : 0 < κ) {y w η : ℕ → ℝ}
    (hy : Rec (pp n) (qq n) 0 (n / 2) (fun _ => 0) y) (hw : Rec (pp n) (qq n) 0 (n / 2) η w) (y0 : 0 < y 0)
    (ha : |w 0 - y 0| ≤ a * y 0) (hτ : τ ≤ κ * y 0)
    (hη : ∀ i < n / 2, |η (i + 1)| ≤ κ * terms (pp n) (qq n) 0 w i + τ)
    (hsm : a + 7 * κ * ((n / 2 : ℕ) * ((n / 2 : ℕ) + 1) / 2) ≤ 1) :
    ∀ i ≤ n / 2, |w i - y i| ≤ (a + 7 * κ * (i * (i + 1) / 2)) * y i := by
  have L := links n
  set N := n / 2 with hN
  obtain ⟨hpy, ypos⟩ := zonal_exact L hy y0
  set E : ℕ → ℝ := fun i => match i with | 0 => 0 | i + 1 => pp n (i + 1) * (w (i + 1) - y (i + 1)) - qq n (i + 1) * (w i - y i) with hE
  have hup : ∀ i < N, E (i + 1) = E i + η (i + 1) := by
    intro i hi
    rcases i with _ | i
    · have h1 := hw.first hi
      have h2 := hpy 0 hi
      rw [L.p0] at h1
      simp only [hE, zero_add] at *
      linarith
    · have h1 := hw.next i hi
      have h2 := hpy (i + 1) hi
      have h3 := hpy i (by omega)
      simp only [hE]
      have h2' : pp n (i + 2) * y (i + 2) = qq n (i + 2) * y (i + 1) := h2
      show pp n (i + 2) * (w (i + 2) - y (i + 2)) - qq n (i + 2) * (w (i + 1) - y (i + 1)) = _ + η (i + 2)
      linarith
  have y1 : ∀ i < N, y 0 ≤ pp n (i + 1) * y (i + 1) ∧ pp n i * y i ≤ pp n (i + 1) * y (i + 1) := by
    have mono : ∀ i < N, pp n i * y i ≤ pp n (i + 1) * y (i + 1) := fun i hi => by
      rw [hpy i hi]; exact mul_le_mul_of_nonneg_right (L.pq i hi) (ypos i hi.le).le
    intro i
    induction i with
    | zero =>
      intro hi
      refine ⟨?_, mono 0 hi⟩
      rw [hpy 0 hi]
      refine le_mul_of_one_le_left y0.le ?_
      have : (2 : ℝ) ≤ n := by exact_mod_cast (by omega : 2 ≤ n)
      unfold qq; push_cast; linarith
    | succ i ih => intro hi; exact ⟨(ih (by omega)).1.trans (mono (i + 1) hi), mono (i + 1) hi⟩
  have hN0 : (0 : ℝ) ≤ (N : ℕ) := Nat.cast_nonneg N
  have key : ∀ i ≤ N, |w i - y i| ≤ (a + 7 * κ * (i * (i + 1) / 2)) * y i ∧ |E i| ≤ i * (7 * κ) * (pp n i * y i) := by
    intro i
    induction i using Nat.strong_induction_on with
    | _ i ih =>
      intro hi
      rcases Nat.eq_zero_or_pos i with rfl | hpos
      · simp only [hE]; rw [L.p0]; simpa using ha
      obtain ⟨k, rfl⟩ : ∃ k, i = k + 1 := ⟨i - 1, by omega⟩
      have small : ∀ j ≤ k, |w j| ≤ 2 * y j := by
        intro j hj
        have h1 := (ih j (by omega) (by omega)).1
        have h2 : a + 7 * κ * ((j : ℝ) * (j + 1) / 2) ≤ 1 := by
          refine le_trans ?_ hsm
          have : (j : ℝ) ≤ N := by exact_mod_cast (by omega : j ≤ N)
          have : (j : ℝ) * (j + 1) ≤ N * (N + 1) := by nlinarith [(Nat.cast_nonneg j : (0 : ℝ) ≤ j)]
          nlinarith
        have h3 := mul_le_mul_of_nonneg_right h2 (ypos j (by omega)).le
        have h4 := abs_add_le (y j) (w j - y j)
        rw [abs_of_pos (ypos j (by omega))] at h4
        rw [show y j + (w j - y j) = w j by ring] at h4
        linarith
      obtain ⟨i1, i2⟩ := ih k (by omega) (by omega)
      have hk : k < N := by omega
      obtain ⟨m1, m2⟩ := y1 k hk
      set P := pp n (k + 1) * y (k + 1) with hP
      have hterm : terms (pp n) (qq n) 0 w k ≤ 6 * P := by
        have hab : ∀ x ≥ (0 : ℝ), |x - 0| = x := fun x hx => by rw [sub_zero, abs_of_nonneg hx]
        have hyk := small k le_rfl
        have hpk := L.p_nonneg k hk.le
        have hqk := L.q0 k hk
        have e1 : qq n (k + 1) * y k = P := (hpy k hk).symm
        rcases k with _ | k
        · simp only [terms, zero_add] at *
          rw [hab _ (by linarith), L.p0, add_zero]
          have := mul_le_mul_of_nonneg_left hyk hqk.le
          have : 0 ≤ P := by linarith
          linarith
        · simp only [terms]
          have e2 := hpy k (by omega)
          have h0 := L.q0 k (by omega)
          rw [hab _ (by show 0 ≤ qq n (k + 1 + 1) + pp n (k + 1); linarith)]
          have g1 := mul_le_mul_of_nonneg_left hyk (show 0 ≤ qq n (k + 2) + pp n (k + 1) by show 0 ≤ qq n (k + 1 + 1) + pp n (k + 1); linarith)
          have g2 := mul_le_mul_of_nonneg_left (small k (by omega)) h0.le
          have e1' : qq n (k + 2) * y (k + 1) = P := e1
          linarith
      have hη1 : |η (k + 1)| ≤ 7 * κ * P := by
        have := hη k hk
        have h2 := mul_le_mul_of_nonneg_left hterm hκ.le
        have h3 := mul_le_mul_of_nonneg_left m1 hκ.le
        linarith
      have hEk : |E (k + 1)| ≤ (k + 1) * (7 * κ) * P := by
        rw [hup k hk]
        refine (abs_add_le _ _).trans ?_
        have : (k : ℝ) * (7 * κ) * (pp n k * y k) ≤ k * (7 * κ) * P := mul_le_mul_of_nonneg_left m2 (by positivity)
        linarith
      refine ⟨?_, by push_cast; exact hEk⟩
      have hp0 : 0 < pp n (k + 1) := lt_of_lt_of_le (L.q0 k hk) (L.qp k hk)
      have e1 : pp n (k + 1) * (w (k + 1) - y (k + 1)) = qq n (k + 1) * (w k - y k) + E (k + 1) := by simp only [hE]; ring
      have e2 : pp n (k + 1) * |w (k + 1) - y (k + 1)| ≤ qq n (k + 1) * |w k - y k| + |E (k + 1)| := by
        rw [← abs_of_pos hp0, ← abs_mul, e1, ← abs_of_pos (L.q0 k hk), ← abs_mul, abs_of_pos (L.q0 k hk)]
        exact abs_add_le _ _
      have e3 := mul_le_mul_of_nonneg_left i1 (L.q0 k hk).le
      have e4 : qq n (k + 1) * y k = P := (hpy k hk).symm
      refine le_of_mul_le_mul_left ?_ hp0
      refine e2.trans ?_
      push_cast
      rw [show pp n (k + 1) * ((a + 7 * κ * (((k : ℝ) + 1) * ((k : ℝ) + 1 + 1) / 2)) * y (k + 1)) = (a + 7 * κ * ((k : ℝ) * (k + 1) / 2)) * P + (k + 1) * (7 * κ) * P by
        rw [hP]; ring]
      have : qq n (k + 1) * ((a + 7 * κ * ((k : ℝ) * (k + 1) / 2)) * y k) = (a + 7 * κ * ((k : ℝ) * (k + 1) / 2)) * P := by rw [← e4]; ring
      linarith
  exact fun i hi => (key i hi).1

end Verif.Tab
