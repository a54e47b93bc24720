import Verif.Sphi
import Verif.SpecSH
import Verif.Math.Theta
/-!
# `ynnm` and `ynunm` compute Fourier coefficients of the spherical harmonics
-/
namespace Verif
open Polynomial Trig

/-- The Fourier coefficients of the θ-part of `Y_nm`, divided by `i^m`. -/
noncomputable def ycoef (n : ℕ) (m : ℤ) (k : ℤ) : ℂ :=
  (normSH n m.natAbs : ℂ) * Complex.I ^ m.natAbs * (Theta n m.natAbs).coeff k

/-! ### The starting value -/

theorem ynnm_fold1 (a : ℝ) (n : ℕ) :
    (pyRange 1 ((n : Int) + 1)).foldl
      (fun (o : ℝ) (k : Int) => o * Real.sqrt ((2.0 * (k : ℝ) + 1.0) / 8.0 / k)) a =
    a * Real.sqrt ((2 * n + 1).factorial / (16 ^ n * (n.factorial : ℝ) ^ 2)) := by
  induction n with
  | zero => simp [pyRange_nil]
  | succ n ih =>
    rw [show (((n + 1 : ℕ) : Int) + 1) = ((n : Int) + 1) + 1 by push_cast; ring, pyRange_succ (by omega),
      List.foldl_append, ih]
    simp only [List.foldl_cons, List.foldl_nil]
    rw [mul_assoc, ← Real.sqrt_mul (by positivity)]
    congr 2
    rw [show 2 * (n + 1) + 1 = (2 * n + 1) + 1 + 1 by ring, Nat.factorial_succ (2 * n + 1 + 1),
      Nat.factorial_succ (2 * n + 1), Nat.factorial_succ n]
    have : (n.factorial : ℝ) ≠ 0 := by exact_mod_cast (Nat.factorial_pos _).ne'
    push_cast
    have : (n : ℝ) + 1 ≠ 0 := by positivity
    norm_num
    field_simp
    ring

theorem ynnm_fold2 (a : ℝ) (n j : ℕ) (hj : j ≤ n) :
    ((List.range j).map (fun (k : Nat) => ((n : Int) - 1) - 1 * (k : Int))).foldl
      (fun (o : ℝ) (k : Int) => o * Real.sqrt ((((n : ℤ) : ℝ) + k + 1.0) / (((n : ℤ) : ℝ) - k))) a =
    a * Real.sqrt ((2 * n).factorial / ((2 * n - j).factorial * j.factorial)) := by
  induction j with
  | zero =>
    have : ((2 * n).factorial : ℝ) ≠ 0 := by exact_mod_cast (Nat.factorial_pos _).ne'
    simp [div_self this]
  | succ j ih =>
    rw [List.range_succ, List.map_append, List.foldl_append, ih (by omega)]
    simp only [List.map_cons, List.map_nil, List.foldl_cons, List.foldl_nil]
    rw [mul_assoc, ← Real.sqrt_mul (by positivity)]
    congr 2
    obtain ⟨r, hr⟩ : ∃ r, 2 * n = r + j + 1 := ⟨2 * n - j - 1, by omega⟩
    rw [show 2 * n - j = r + 1 by omega, show 2 * n - (j + 1) = r by omega, Nat.factorial_succ r,
      Nat.factorial_succ j]
    have h1 : (r.factorial : ℝ) ≠ 0 := by exact_mod_cast (Nat.factorial_pos _).ne'
    have h2 : (j.factorial : ℝ) ≠ 0 := by exact_mod_cast (Nat.factorial_pos _).ne'
    have h3 : (r : ℝ) + 1 ≠ 0 := by positivity
    have h4 : (j : ℝ) + 1 ≠ 0 := by positivity
    have hr' : (2 : ℝ) * n = r + j + 1 := by exact_mod_cast hr
    have e : (((n : ℤ) : ℝ) + (((n : ℤ) - 1 - 1 * (j : ℤ) : ℤ) : ℝ) + 1.0) /
        (((n : ℤ) : ℝ) - (((n : ℤ) - 1 - 1 * (j : ℤ) : ℤ) : ℝ)) = ((r : ℝ) + 1) / (j + 1) := by
      push_cast
      congr 1
      · norm_num; linarith
      · ring
    rw [e]
    push_cast
    field_simp

theorem ynnm_eq (n : ℕ) (m : ℤ) (h : m.natAbs ≤ n) :
    ynnm n m = normSH n m.natAbs *
      ((2 * n).factorial / (4 ^ n * n.factorial * (n - m.natAbs).factorial)) := by
  obtain ⟨p, hp⟩ : ∃ p, p = m.natAbs := ⟨_, rfl⟩
  rw [← hp] at h ⊢
  have habs : |m| = (p : Int) := by rw [hp, Int.abs_eq_natAbs]
  have hpi := Real.pi_pos
  have e : ynnm n m = 1 / Real.sqrt (4 * Real.pi) *
      Real.sqrt ((2 * n + 1).factorial / (16 ^ n * (n.factorial : ℝ) ^ 2)) *
      Real.sqrt ((2 * n).factorial / ((2 * n - (n - p)).factorial * (n - p).factorial)) := by
    unfold ynnm
    simp only [habs]
    rw [if_neg (by omega)]
    by_cases h0 : n = 0
    · subst h0
      have : p = 0 := by omega
      subst this
      norm_num
    · rw [if_neg (by omega), ynnm_fold1]
      split
      · rename_i h1
        have h1' := ynnm_fold2 (1 / Real.sqrt (4 * Real.pi) *
          Real.sqrt ((2 * n + 1).factorial / (16 ^ n * (n.factorial : ℝ) ^ 2))) n (n - p) (by omega)
        rw [← h1']
        unfold pyRangeNeg
        rw [show (((n : Int) - 1 - ((p : Int) - 1) + 1 - 1) / 1).toNat = n - p by omega]
        norm_num
      · rename_i h1
        have : p = n := by omega
        subst this
        have : ((2 * p).factorial : ℝ) ≠ 0 := by exact_mod_cast (Nat.factorial_pos _).ne'
        simp [div_self this]
        norm_num
  rw [e]
  refine (sq_eq_sq₀ (by positivity) (mul_nonneg (Real.sqrt_nonneg _) (by positivity))).mp ?_
  rw [mul_pow, mul_pow, div_pow, Real.sq_sqrt (by positivity), Real.sq_sqrt (by positivity),
    Real.sq_sqrt (by positivity), mul_pow, Real.sq_sqrt (by positivity)]
  rw [show 2 * n - (n - p) = n + p by omega, Nat.factorial_succ (2 * n)]
  have h1 : (n.factorial : ℝ) ≠ 0 := by exact_mod_cast (Nat.factorial_pos _).ne'
  have h2 : ((n - p).factorial : ℝ) ≠ 0 := by exact_mod_cast (Nat.factorial_pos _).ne'
  have h3 : ((n + p).factorial : ℝ) ≠ 0 := by exact_mod_cast (Nat.factorial_pos _).ne'
  rw [show (16 : ℝ) ^ n = 4 ^ n * 4 ^ n by rw [← mul_pow]; norm_num]
  push_cast
  field_simp

/-! ### The recursion -/

theorem ycoef_lead (n : ℕ) (m : ℤ) (h : m.natAbs ≤ n) : ycoef n m n = (ynnm n m : ℂ) := by
  unfold ycoef
  rw [(theta_lead n m.natAbs h).2, ynnm_eq n m h, mul_comm (_ : ℂ) ((-Complex.I) ^ m.natAbs)]
  have : Complex.I ^ m.natAbs * (-Complex.I) ^ m.natAbs = 1 := by
    rw [← mul_pow, mul_neg, Complex.I_mul_I, neg_neg, one_pow]
  push_cast
  linear_combination (normSH n m.natAbs : ℂ) *
    (((2 * n).factorial : ℂ) / (4 ^ n * n.factorial * (n - m.natAbs).factorial)) * this

theorem ycoef_rec (n : ℕ) (m : ℤ) (k : ℤ) :
    (((n : ℂ) - k) * (n + k + 1)) * ycoef n m k =
      (((n : ℂ) - k - 1) * (n + k + 2) + (((n : ℂ) - k - 2) * (n + k + 3) - 4 * (m : ℂ) ^ 2)) * ycoef n m (k + 2)
        - ((n : ℂ) - k - 3) * (n + k + 4) * ycoef n m (k + 4) := by
  have h := theta_rec n m.natAbs k
  have hm : ((m.natAbs : ℕ) : ℂ) ^ 2 = (m : ℂ) ^ 2 := by
    have hp0 := Int.natAbs_eq m
    generalize m.natAbs = p at hp0
    rcases hp0 with e | e <;> rw [e] <;> push_cast <;> ring
  rw [hm] at h
  unfold ycoef
  linear_combination ((normSH n m.natAbs : ℂ) * Complex.I ^ m.natAbs) * h

theorem ycoef_support (n : ℕ) (m k : ℤ) (h : (n : ℤ) < |k|) : ycoef n m k = 0 := by
  unfold ycoef; rw [theta_support _ _ _ h, mul_zero]

theorem ycoef_parity (n : ℕ) (m k : ℤ) (h : (n - k) % 2 = 1) : ycoef n m k = 0 := by
  unfold ycoef; rw [theta_parity _ _ _ h, mul_zero]

theorem ycoef_symm (n : ℕ) (m k : ℤ) : ycoef n m (-k) = (-1) ^ m.natAbs * ycoef n m k := by
  unfold ycoef; rw [theta_symm]; ring

theorem ycoef_neg (n : ℕ) (m k : ℤ) : ycoef n (-m) k = ycoef n m k := by
  unfold ycoef; rw [Int.natAbs_neg]

/-- The next coefficient down as the program computes it. -/
theorem ycoef_step (n : ℕ) (m k : ℤ) (h0 : 0 ≤ k) (h1 : k < n) (o2 o4 : ℝ) (e2 : (o2 : ℂ) = ycoef n m (k + 2))
    (e4 : (o4 : ℂ) = ycoef n m (k + 4)) :
    ((((((n : ℝ) - k - 1) * (n + k + 2) + (((n : ℝ) - k - 2) * (n + k + 3) - 4 * (m : ℝ) ^ 2)) * o2
        - ((n : ℝ) - k - 3) * (n + k + 4) * o4) / (((n : ℝ) - k) * (n + k + 1)) : ℝ) : ℂ) = ycoef n m k := by
  have h := ycoef_rec n m k
  rw [← e2, ← e4] at h
  have d1 : (n : ℂ) - k ≠ 0 := by
    intro h; have : (n : ℤ) - k = 0 := by exact_mod_cast h
    omega
  have d2 : (n : ℂ) + k + 1 ≠ 0 := by
    intro h; have : (n : ℤ) + k + 1 = 0 := by exact_mod_cast h
    omega
  push_cast
  rw [div_eq_iff (mul_ne_zero d1 d2), mul_comm (ycoef n m k), h]

/-- State of the array `out` when every index `≥ k` has been computed. -/
def YInv (n : ℕ) (m : ℤ) (L : ℕ) (k : ℤ) (out : List ℝ) : Prop :=
  out.length = L ∧ (∀ j : ℕ, j < L → k ≤ j → ((out.getD j 0 : ℝ) : ℂ) = ycoef n m j) ∧
    (∀ j : ℕ, (j : ℤ) < k → out.getD j 0 = 0)

theorem getIdx_getD {l : List ℝ} {i : Int} (h0 : 0 ≤ i) (h1 : i < l.length) :
    getIdx l i = .ok (l.getD i.toNat 0) := by
  rw [getIdx_of_lt h0 h1, List.getD_eq_getElem?_getD, List.getElem?_eq_getElem (by omega), Option.getD_some]

theorem YInv.set {n : ℕ} {m : ℤ} {L : ℕ} {k : ℤ} {out : List ℝ} (h : YInv n m L (k + 2) out) (v : ℝ)
    (h0 : 0 ≤ k) (hk : k < L) (hpar : (n - k) % 2 = 0) (hv : (v : ℂ) = ycoef n m k) :
    setIdx out k v = .ok (out.set k.toNat v) ∧ YInv n m L k (out.set k.toNat v) := by
  obtain ⟨hl, ha, hb⟩ := h
  refine ⟨setIdx_of_lt h0 (by omega), by simpa using hl, ?_, ?_⟩
  · intro j hj hkj
    by_cases e : j = k.toNat
    · subst e
      rw [List.getD_eq_getElem?_getD, List.getElem?_set_self (by omega), Option.getD_some, hv]
      congr 1; omega
    · rw [List.getD_eq_getElem?_getD, List.getElem?_set_ne (by omega), ← List.getD_eq_getElem?_getD]
      by_cases e1 : (j : ℤ) = k + 1
      · rw [hb j (by omega), ycoef_parity n m j (by omega)]; simp
      · exact ha j hj (by omega)
  · intro j hj
    rw [List.getD_eq_getElem?_getD, List.getElem?_set_ne (by omega), ← List.getD_eq_getElem?_getD]
    exact hb j (by omega)

theorem ynunm_loop (n : ℕ) (m : ℤ) (L : ℕ) (hL : n < L) (c : ℕ) (hc : 2 * c ≤ n) (hc1 : 1 ≤ c) (out : List ℝ)
    (h : YInv n m L (n - 2) out) :
    ∃ out', forM' ((List.range (c - 1)).map (fun (k : Nat) => ((n : Int) - 4) - 2 * (k : Int))) out (ynunmStep n m)
      = .ok out' ∧ YInv n m L (n - 2 * c) out' := by
  induction c with
  | zero => omega
  | succ c ih =>
    by_cases hc0 : c = 0
    · subst hc0
      exact ⟨out, rfl, by simpa using h⟩
    · obtain ⟨o1, e1, i1⟩ := ih (by omega) (by omega)
      rw [show c + 1 - 1 = (c - 1) + 1 by omega, List.range_succ, List.map_append, forM'_append, e1]
      simp only [List.map_cons, List.map_nil, Except.bind_ok, forM']
      have ek : ((n : Int) - 4) - 2 * ((c - 1 : ℕ) : Int) = (n : Int) - 2 * ((c + 1 : ℕ) : Int) := by omega
      rw [ek]
      obtain ⟨k, hk⟩ : ∃ k : ℤ, k = (n : Int) - 2 * ((c + 1 : ℕ) : Int) := ⟨_, rfl⟩
      rw [← hk]
      have i1' : YInv n m L (k + 2) o1 := by
        have : (n : ℤ) - 2 * (c : ℤ) = k + 2 := by push_cast at hk; omega
        rwa [this] at i1
      have hlen := i1'.1
      unfold ynunmStep
      simp only []
      rw [getIdx_getD (by push_cast at hk; omega) (by omega), getIdx_getD (by push_cast at hk; omega) (by omega)]
      simp only [Except.bind_ok]
      have v2 := i1'.2.1 (k + 2).toNat (by omega) (by omega)
      have v4 := i1'.2.1 (k + 4).toNat (by omega) (by omega)
      rw [show (((k + 2).toNat : ℕ) : ℤ) = k + 2 by omega] at v2
      rw [show (((k + 4).toNat : ℕ) : ℤ) = k + 4 by omega] at v4
      have st := ycoef_step n m k (by omega) (by omega) _ _ v2 v4
      obtain ⟨s1, s2⟩ := i1'.set _ (by omega) (by omega) (by push_cast at hk; omega) st
      refine ⟨_, ?_, s2⟩
      norm_num at s1 ⊢
      rw [s1]
      rfl

/-- `ynunm(n, m, L)` for `|m| ≤ n < L`. -/
theorem ynunm_spec (n : ℕ) (m : ℤ) (L : ℕ) (hm : m.natAbs ≤ n) (hL : n < L) :
    ∃ y, ynunm n m L = .ok y ∧ y.length = L ∧ ∀ j : ℕ, ((y.getD j 0 : ℝ) : ℂ) = ycoef n m j := by
  suffices hs : ∃ y, ynunm n m L = .ok y ∧ YInv n m L 0 y by
    obtain ⟨y, h1, h2, h3, h4⟩ := hs
    refine ⟨y, h1, h2, fun j => ?_⟩
    by_cases hj : j < L
    · exact h3 j hj (by omega)
    · rw [List.getD_eq_getElem?_getD, List.getElem?_eq_none (by omega), ycoef_support]
      · simp
      · rw [abs_of_nonneg] <;> omega
  have fin : ∀ (k : ℤ) (y : List ℝ), k ≤ 1 → (n - k) % 2 = 0 → YInv n m L k y → YInv n m L 0 y := by
    intro k y hk hp h
    refine ⟨h.1, fun j hj _ => ?_, fun j hj => by omega⟩
    by_cases e : k ≤ j
    · exact h.2.1 j hj e
    · rw [h.2.2 j (by omega), ycoef_parity n m j (by omega)]; simp
  unfold ynunm
  unfold npFull
  rw [if_neg (by omega)]
  simp only [Except.bind_ok, Int.toNat_natCast]
  rw [if_pos (by rw [Int.abs_eq_natAbs]; omega)]
  have i0 : YInv n m L ((n : ℤ) + 2) (List.replicate L 0) := by
    refine ⟨by simp, fun j hj hk => ?_, fun j hj => ?_⟩
    · rw [ycoef_support n m j (by rw [abs_of_nonneg] <;> omega)]
      simp [List.getD_eq_getElem?_getD, hj]
    · rw [List.getD_eq_getElem?_getD, List.getElem?_replicate]
      split <;> rfl
  obtain ⟨s1, i1⟩ := i0.set (ynnm n m) (by omega) (by omega) (by omega) (ycoef_lead n m hm).symm
  rw [s1]
  simp only [Except.bind_ok]
  by_cases h2 : (n : Int) - 2 ≥ 0
  · rw [if_pos h2, getIdx_getD (by omega) (by rw [i1.1]; omega)]
    simp only [Except.bind_ok]
    have v2 := i1.2.1 n (by omega) (by omega)
    have st := ycoef_step n m ((n : ℤ) - 2) (by omega) (by omega)
      (((List.replicate L (0 : ℝ)).set (n : ℤ).toNat (ynnm n m)).getD n 0) 0
      (by rw [v2]; congr 1; omega) (by rw [ycoef_support]; · simp
                                       · rw [abs_of_nonneg] <;> omega)
    obtain ⟨s2, i2⟩ := YInv.set (k := (n : ℤ) - 2) (by rwa [show (n : ℤ) - 2 + 2 = n by omega]) _ (by omega)
      (by omega) (by omega) st
    have e3 : pyRangeNeg ((n : Int) - 4) (-1) 2 =
        (List.range (n / 2 - 1)).map (fun (k : Nat) => ((n : Int) - 4) - 2 * (k : Int)) := by
      unfold pyRangeNeg
      rw [show (((n : Int) - 4 - (-1) + 2 - 1) / 2).toNat = n / 2 - 1 by omega]
    obtain ⟨y, ey, iy⟩ := ynunm_loop n m L hL (n / 2) (by omega) (by omega) _ i2
    refine ⟨y, ?_, fin _ _ (by omega) (by omega) iy⟩
    rw [e3]
    refine Eq.trans (congrArg (fun w => (setIdx ((List.replicate L (0 : ℝ)).set (n : ℤ).toNat (ynnm n m)) ((n : ℤ) - 2)
      w).bind _) (?_ : _ = _)) ((congrArg (fun r => Except.bind r _) s2).trans ey)
    rw [show ((n : ℤ) - 2 + 2).toNat = n by omega]
    push_cast
    norm_num
  · rw [if_neg h2]
    exact ⟨_, rfl, fin n _ (by omega) (by omega) i1⟩

/-- The θ-part of `Y_nm` as a finite Fourier sum. -/
theorem thetaPart_eq_sum (n : ℕ) (m : ℤ) (θ : ℝ) (s : Finset ℤ) (hs : ∀ k, k ∉ s → (n : ℤ) < |k|) :
    (thetaPart n m θ : ℂ) = Complex.I ^ m * ∑ k ∈ s, ycoef n m k * Complex.exp (k * (θ * Complex.I)) := by
  have h1 : ev θ (Theta n m.natAbs) = ((Real.sin θ ^ m.natAbs * (legD n m.natAbs).eval (Real.cos θ) : ℝ) : ℂ) := by
    unfold Theta
    rw [map_mul, map_pow, ev_ls, ev_aeval θ _ lc _ (ev_lc θ)]
    push_cast; rfl
  rw [ev_eq_sum θ _ s (fun k hk => theta_support n m.natAbs k (hs k hk))] at h1
  have hsgn : Complex.I ^ m * Complex.I ^ m.natAbs = ((if 0 ≤ m then (-1) ^ m.natAbs else 1 : ℝ) : ℂ) := by
    split
    · rename_i h
      obtain ⟨p, rfl⟩ := Int.eq_ofNat_of_zero_le h
      rw [Int.natAbs_natCast, zpow_natCast, ← mul_pow, Complex.I_mul_I]; push_cast; rfl
    · rename_i h
      obtain ⟨p, hp⟩ : ∃ p : ℕ, m = -p := ⟨m.natAbs, by omega⟩
      subst hp
      rw [Int.natAbs_neg, Int.natAbs_natCast, zpow_neg, zpow_natCast, inv_mul_cancel₀ (pow_ne_zero _ Complex.I_ne_zero)]
      norm_num
  unfold thetaPart ycoef
  have e : derivative^[m.natAbs] (legendre n) = legD n m.natAbs := rfl
  rw [e, Complex.ofReal_mul, ← h1, Complex.ofReal_mul, ← hsgn, Finset.mul_sum, Finset.mul_sum]
  refine Finset.sum_congr rfl fun k _ => ?_
  ring

end Verif
