import Verif.Props.FloatBes3
import Verif.BesselRun
/-!
# `sbesselj` in doubles: what the call computes
-/
namespace Verif.Props
open Verif
variable {rnd : ℝ → ℝ}

namespace FB

/-- A loop whose body either succeeds and keeps the invariant or raises `E`. -/
theorem forM'_range_err {σ : Type} {a b : Int} (hab : a ≤ b) (s : σ) (body : σ → Int → Res σ) (E : PyErr) (P : Prop)
    (Inv : Int → σ → Prop) (h0 : Inv a s)
    (hstep : ∀ i s, a ≤ i → i < b → Inv i s → (∃ s', body s i = .ok s' ∧ Inv (i + 1) s') ∨ (body s i = .error E ∧ P)) :
    (∃ s', forM' (pyRange a b) s body = .ok s' ∧ Inv b s') ∨ (forM' (pyRange a b) s body = .error E ∧ P) := by
  obtain ⟨n, rfl⟩ : ∃ n : Nat, b = a + n := ⟨(b - a).toNat, by omega⟩
  clear hab
  induction n with
  | zero => exact Or.inl ⟨s, by simp [pyRange_nil, forM'], by simpa using h0⟩
  | succ n ih =>
    have e : a + ((n + 1 : Nat) : Int) = (a + n) + 1 := by omega
    rw [e, pyRange_succ (by omega), forM'_append]
    rcases ih (fun i s h1 h2 h3 => hstep i s h1 (by omega) h3) with ⟨s1, e1, i1⟩ | ⟨e1, p⟩
    · rcases hstep (a + n) s1 (by omega) (by omega) i1 with ⟨s2, e2, i2⟩ | ⟨e2, p⟩
      · exact Or.inl ⟨s2, by rw [e1]; simp [forM', e2], i2⟩
      · exact Or.inr ⟨by rw [e1]; simp [forM', e2], p⟩
    · exact Or.inr ⟨by rw [e1]; rfl, p⟩

/-- The divisor at row `n` of the downward loop. -/
noncomputable def dD (rnd : ℝ → ℝ) (x : ℝ) (r : ℕ → ℝ) (n : ℕ) : ℝ := rnd (rnd ((2 * (n : ℝ) + 1) / x) - r (n + 1))

/-- What the call computes once the `while` loop has ended: an exact zero divisor, or the ratios and their products. -/
theorem sbj_struct (hr : IsRounding rnd) (lib : Fl.BesLib) {x w : ℝ} {M : ℕ} (hM1 : 1 ≤ M) (hM2 : M ≤ 2 ^ 16) (hx : x ≠ 0) (hz : lib.sq x ≠ 0)
    (hw : Fl.sbjLoop rnd (lib.sq x) 1 (rnd (x / rnd (rnd (2 * Fl.ofInt rnd (M : ℤ)) + 1))) (rnd (x / rnd (rnd (2 * Fl.ofInt rnd (M : ℤ)) + 1))) (M : ℤ) = some (.ok w)) :
    (∃ (r : ℕ → ℝ) (out : List ℝ), Fl.sbesselj rnd lib x ((M : ℤ) + 1) = .ok out ∧ out.length = M + 1 ∧ r M = w ∧
      (∀ n, 1 ≤ n → n < M → dD rnd x r n ≠ 0 ∧ r n = rnd (1 / dD rnd x r n)) ∧ rd out 0 = rnd (lib.sin x / x) ∧
      rd out 1 = (if |rnd (lib.sin x / x)| ≥ |rnd (rnd (lib.sin x / lib.sq x) - rnd (lib.cos x / x))| then rnd (r 1 * rnd (lib.sin x / x))
        else rnd (rnd (lib.sin x / lib.sq x) - rnd (lib.cos x / x))) ∧
      ∀ n, 1 ≤ n → n < M → rd out (n + 1) = rnd (r (n + 1) * rd out n)) ∨
    (Fl.sbesselj rnd lib x ((M : ℤ) + 1) = .error ⟨.exception, "infinite"⟩ ∧
      ∃ (r : ℕ → ℝ) (n : ℕ), 1 ≤ n ∧ n < M ∧ r M = w ∧ (∀ j, n < j → j < M → dD rnd x r j ≠ 0 ∧ r j = rnd (1 / dD rnd x r j)) ∧ dD rnd x r n = 0) := by
  unfold Fl.sbesselj
  simp only [show (M : Int) + 1 - 1 = M by ring]
  rw [ScalarCoefs.npFull_of_nonneg (by omega)]
  simp only [Except.bind_ok, show ((M : Int) + 1).toNat = M + 1 by omega, Fl.npDiv, if_neg hx, if_neg hz]
  have s0 := setIdxR (l := List.replicate (M + 1) (0 : ℝ)) 0 (rnd (lib.sin x / x)) (by simp)
  simp only [Nat.cast_zero] at s0
  rw [s0]
  simp only [Except.bind_ok]
  rw [hw]
  simp only [orDiverge, Except.bind_ok, id]
  rw [setIdxR _ _ (by simp)]
  simp only [Except.bind_ok]
  set j0 := rnd (lib.sin x / x) with hj0
  set j1 := rnd (rnd (lib.sin x / lib.sq x) - rnd (lib.cos x / x)) with hj1
  set a0 := ((List.replicate (M + 1) (0 : ℝ)).set 0 j0).set M w with ha0
  have l0 : a0.length = M + 1 := by simp [ha0]
  have v00 : rd a0 0 = j0 := by
    rw [ha0, rd_set _ _ _ _ (by simp), if_neg (by omega), rd_set _ _ _ _ (by simp), if_pos rfl]
  have v0M : rd a0 M = w := by rw [ha0, rd_set _ _ _ _ (by simp), if_pos rfl]
  rw [pyRangeNeg_one, forM'_map]
  rcases forM'_range_err (a := 0) (b := (M : Int) - 1) (by omega) a0
    (fun out k => (getIdx out ((M : Int) - 1 - k + 1)).bind fun o =>
      (if rnd (rnd (rnd (rnd (2 * Fl.ofInt rnd ((M : Int) - 1 - k)) + 1) / x) - o) = 0 then .error ⟨.exception, "infinite"⟩
        else .ok (rnd (1 / rnd (rnd (rnd (rnd (2 * Fl.ofInt rnd ((M : Int) - 1 - k)) + 1) / x) - o))) : Res ℝ).bind fun r =>
      setIdx out ((M : Int) - 1 - k) r)
    ⟨.exception, "infinite"⟩
    (∃ (r : ℕ → ℝ) (n : ℕ), 1 ≤ n ∧ n < M ∧ r M = w ∧ (∀ j, n < j → j < M → dD rnd x r j ≠ 0 ∧ r j = rnd (1 / dD rnd x r j)) ∧ dD rnd x r n = 0)
    (fun k a => a.length = M + 1 ∧ rd a 0 = j0 ∧ rd a M = w ∧
      ∀ n : ℕ, (M : Int) - k ≤ n → n < M → dD rnd x (rd a) n ≠ 0 ∧ rd a n = rnd (1 / dD rnd x (rd a) n))
    ⟨l0, v00, v0M, fun n h1 h2 => by omega⟩
    (by
      rintro k a hk1 hk2 ⟨hl, h0, hm, hv⟩
      obtain ⟨n, hn⟩ : ∃ n : ℕ, (M : Int) - 1 - k = (n : Int) := ⟨((M : Int) - 1 - k).toNat, by omega⟩
      rw [hn, show (n : Int) + 1 = ((n + 1 : ℕ) : Int) by push_cast; ring, getIdxR _ (by omega)]
      simp only [Except.bind_ok]
      rw [odd_int hr (by omega)]
      change (∃ s', ((if dD rnd x (rd a) n = 0 then .error ⟨.exception, "infinite"⟩ else .ok (rnd (1 / dD rnd x (rd a) n)) : Res ℝ).bind fun r => setIdx a n r) = .ok s' ∧ _) ∨
        ((if dD rnd x (rd a) n = 0 then .error ⟨.exception, "infinite"⟩ else .ok (rnd (1 / dD rnd x (rd a) n)) : Res ℝ).bind fun r => setIdx a n r) = .error ⟨.exception, "infinite"⟩ ∧ _
      by_cases hd : dD rnd x (rd a) n = 0
      · right
        rw [if_pos hd]
        exact ⟨rfl, rd a, n, by omega, by omega, hm, fun j h1 h2 => hv j (by omega) h2, hd⟩
      · left
        rw [if_neg hd]
        simp only [Except.bind_ok]
        rw [setIdxR _ _ (by omega)]
        refine ⟨_, rfl, by simp [hl], ?_, ?_, fun j hj1 hj2 => ?_⟩
        · rw [rd_set _ _ _ _ (by omega), if_neg (by omega)]; exact h0
        · rw [rd_set _ _ _ _ (by omega), if_neg (by omega)]; exact hm
        · have e : dD rnd x (rd (a.set n (rnd (1 / dD rnd x (rd a) n)))) j = dD rnd x (rd a) j := by
            unfold dD
            rw [rd_set _ _ _ _ (by omega), if_neg (show ¬ j + 1 = n by omega)]
          rw [e, rd_set _ _ _ _ (by omega)]
          split
          · next h => subst h; exact ⟨hd, rfl⟩
          · next h => exact hv j (by omega) hj2) with ⟨a1, e1, l1, v10, v1M, h1⟩ | ⟨e1, P⟩
  · left
    rw [e1]
    simp only [Except.bind_ok]
    have g0 := getIdxR (l := a1) 0 (by omega)
    simp only [Nat.cast_zero] at g0
    rw [g0, v10]
    simp only [Except.bind_ok]
    have g1 := getIdxR (l := a1) 1 (by omega)
    simp only [Nat.cast_one] at g1
    have hs1 : ∀ v, setIdx a1 1 v = .ok (a1.set 1 v) := fun v => by
      have := setIdxR (l := a1) 1 v (by omega)
      simpa using this
    set p1 := (if |j0| ≥ |j1| then rnd (rd a1 1 * j0) else j1) with hp1
    have hif : (if |j0| ≥ |j1| then (getIdx a1 1).bind fun o1 => setIdx a1 1 (rnd (o1 * j0)) else setIdx a1 1 j1) = .ok (a1.set 1 p1) := by
      rw [hp1]
      split
      · rw [g1]; simp only [Except.bind_ok]; rw [hs1]
      · rw [hs1]
    rw [hif]
    simp only [Except.bind_ok]
    obtain ⟨out, e2, l2, h20, h21, h2, h3⟩ := forM'_range_inv (a := 1) (b := (M : Int)) (by omega) (a1.set 1 p1)
      (fun out n => (getIdx out (n + 1)).bind fun a => (getIdx out n).bind fun b => setIdx out (n + 1) (rnd (a * b)))
      (fun k a => a.length = M + 1 ∧ rd a 0 = j0 ∧ rd a 1 = p1 ∧
        (∀ n : ℕ, 1 ≤ n → (n : Int) < k → rd a (n + 1) = rnd (rd a1 (n + 1) * rd a n)) ∧ ∀ n : ℕ, k < n → rd a n = rd a1 n)
      ⟨by simp [l1], by rw [rd_set _ _ _ _ (by omega), if_neg (by omega)]; exact v10, by rw [rd_set _ _ _ _ (by omega), if_pos rfl],
        fun n h1 h2 => by omega, fun n h => by rw [rd_set _ _ _ _ (by omega), if_neg (by omega)]⟩
      (by
        rintro k a hk1 hk2 ⟨hl, h0, hm, hv, ho⟩
        obtain ⟨n, rfl⟩ : ∃ n : ℕ, k = (n : Int) := ⟨k.toNat, by omega⟩
        rw [show (n : Int) + 1 = ((n + 1 : ℕ) : Int) by push_cast; ring, getIdxR _ (by omega), getIdxR _ (by omega)]
        simp only [Except.bind_ok]
        rw [setIdxR _ _ (by omega)]
        refine ⟨_, rfl, by simp [hl], ?_, ?_, fun j hj1 hj2 => ?_, fun j hj => ?_⟩
        · rw [rd_set _ _ _ _ (by omega), if_neg (by omega)]; exact h0
        · rw [rd_set _ _ _ _ (by omega), if_neg (by omega)]; exact hm
        · rw [rd_set _ _ _ _ (by omega), rd_set _ _ _ _ (by omega), if_neg (show ¬ j = n + 1 by omega)]
          split
          · next h =>
            have : j = n := by omega
            subst this
            rw [ho _ (by push_cast; omega)]
          · next h => exact hv j hj1 (by omega)
        · rw [rd_set _ _ _ _ (by omega), if_neg (by omega)]; exact ho j (by omega))
    exact ⟨rd a1, out, e2, l2, v1M, fun n h h' => h1 n (by omega) h', h20, h21, fun n h h' => h2 n h (by omega)⟩
  · right
    rw [e1]
    exact ⟨rfl, P⟩

end FB
end Verif.Props
