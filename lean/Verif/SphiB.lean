import Verif.SphiH
/-!
# `bnm_vec_fc` and `fc_to_sc` in closed form
-/
namespace Verif
open Finset

/-- Closed form of one analysis coefficient. -/
noncomputable def bval (A : Arr2 ℂ) (m : ℤ) (n : ℕ) : ℂ :=
  Complex.I ^ (-m) * (hval A m 0 * ycoef n m 0 + 2 * ∑ k ∈ range n, hval A m (k + 1 : ℕ) * ycoef n m (k + 1 : ℕ))

theorem getIdx_rd {α : Type} [Zero α] {l : List α} {i : Int} (h0 : 0 ≤ i) (h1 : i < l.length) : getIdx l i = .ok (rd l i.toNat) := by
  rw [getIdx_of_lt h0 h1]
  have : i.toNat < l.length := by omega
  simp [rd, this]

theorem rd_getSlice {α : Type} [Zero α] {l : List α} {a b : ℤ} (h0 : 0 ≤ a) (h1 : a ≤ b) (h2 : b ≤ l.length) (i : ℕ)
    (hi : (i : ℤ) < b - a) : rd (getSlice l a b) i = rd l (a.toNat + i) := by
  rw [getSlice_of_le h0 h1 h2]
  simp only [rd, List.getD_eq_getElem?_getD, List.getElem?_drop]
  rw [List.getElem?_take_of_lt (by omega)]

theorem sum_eq_rd (l : List ℂ) : l.sum = ∑ i ∈ range l.length, rd l i := by
  induction l with
  | nil => simp
  | cons a l ih =>
    rw [List.sum_cons, List.length_cons, sum_range_succ', ih, add_comm]
    rfl

theorem bnmBody_spec (h : List ℂ) (A : Arr2 ℂ) (Nmax : ℕ) (m : ℤ) (hl : h.length = Nmax + 1)
    (hh : ∀ k : ℕ, k ≤ Nmax → rd h k = hval A m k) (out : List ℂ) (n : ℕ) (hn : m.natAbs ≤ n) (hn2 : n ≤ Nmax)
    (ho : out.length = Nmax - m.natAbs + 1) :
    bnmBody h m out n = .ok (out.set (n - m.natAbs) (bval A m n)) := by
  unfold bnmBody
  obtain ⟨y, ey, yl, yv⟩ := ynunm_spec n m (n + 1) hn (by omega)
  have ey' : ynunm (n : ℤ) m ((n : ℤ) + 1) = .ok y := by exact_mod_cast ey
  have habs : (n : ℤ) - |m| = ((n - m.natAbs : ℕ) : ℤ) := by rw [Int.abs_eq_natAbs]; omega
  rw [ey', habs]
  simp only [Except.bind_ok]
  rw [getIdx_rd (l := h) (i := 0) (by omega) (by omega), getIdx_getD (l := y) (i := 0) (by omega) (by omega)]
  simp only [Except.bind_ok]
  rw [setIdx_of_lt (by omega) (by omega)]
  simp only [Except.bind_ok, Int.toNat_natCast, Int.toNat_zero]
  have h0 : rd h 0 = hval A m 0 := by exact_mod_cast hh 0 (by omega)
  have y0 : ((y.getD 0 0 : ℝ) : ℂ) = ycoef n m 0 := yv 0
  by_cases hz : n = 0
  · subst hz
    rw [if_neg (by simp)]
    congr 2
    unfold bval
    rw [h0, y0]; simp; ring
  · rw [if_pos (by exact_mod_cast hz)]
    rw [ScalarCoefs.bcast_eq _ (by
      rw [length_getSlice (by omega) (by omega) (by omega), length_getSlice (by omega) (by omega) (by omega)])]
    simp only [Except.bind_ok]
    rw [getIdx_rd (by omega) (by rw [List.length_set]; omega)]
    simp only [Except.bind_ok, Int.toNat_natCast]
    rw [setIdx_of_lt (by omega) (by rw [List.length_set]; omega)]
    rw [Int.toNat_natCast, List.set_set, rd_set _ _ _ _ (by omega), if_pos rfl]
    congr 2
    unfold bval
    rw [h0, y0, sum_eq_rd]
    have hlen : (List.zipWith (fun (a : ℂ) (b : ℝ) => a * (b : ℂ)) (getSlice h 1 (n + 1)) (getSlice y 1 (n + 1))).length = n := by
      rw [List.length_zipWith, length_getSlice (by omega) (by omega) (by omega),
        length_getSlice (by omega) (by omega) (by omega)]
      omega
    rw [hlen]
    have hs : ∀ k ∈ range n, rd (List.zipWith (fun (a : ℂ) (b : ℝ) => a * (b : ℂ)) (getSlice h 1 (n + 1)) (getSlice y 1 (n + 1))) k
        = hval A m (k + 1 : ℕ) * ycoef n m (k + 1 : ℕ) := by
      intro k hk
      have hk' := mem_range.mp hk
      have e1 : rd (getSlice h 1 (n + 1)) k = hval A m (k + 1 : ℕ) := by
        rw [rd_getSlice (by omega) (by omega) (by omega) k (by omega), ← hh (k + 1) (by omega)]
        congr 1; omega
      have e2 : ((rd (getSlice y 1 (n + 1)) k : ℝ) : ℂ) = ycoef n m (k + 1 : ℕ) := by
        rw [rd_getSlice (by omega) (by omega) (by omega) k (by omega), ← yv (k + 1)]
        unfold rd
        congr 2; omega
      rw [← e1, ← e2]
      have l1 : k < (getSlice h 1 ((n : ℤ) + 1)).length := by
        rw [length_getSlice (by omega) (by omega) (by omega)]; omega
      have l2 : k < (getSlice y 1 ((n : ℤ) + 1)).length := by
        rw [length_getSlice (by omega) (by omega) (by omega)]; omega
      simp [rd, l1, l2]
    rw [sum_congr rfl hs]
    ring

theorem bnmVecFc_spec (A : Arr2 ℂ) (Nmax : ℕ) (m : ℤ) (hL : A.rows % 2 = 0) (hL0 : 0 < A.rows)
    (hm1 : -(A.cols : ℤ) ≤ m) (hm2 : m < A.cols) (hny : fAt A m (A.rows / 2) = 0) (hmN : m.natAbs ≤ Nmax) :
    ∃ o, bnmVecFc A Nmax m = .ok o ∧ o.length = Nmax - m.natAbs + 1 ∧
      ∀ n : ℕ, m.natAbs ≤ n → n ≤ Nmax → rd o (n - m.natAbs) = bval A m n := by
  unfold bnmVecFc
  obtain ⟨Q, eQ, hQ, -, -⟩ := spf_loopEq.least (by simp) (A.rows + Nmax) (by omega)
  have eQ' : smallestPrimeFactor ((A.rows : ℤ) + Nmax) = some (Q : ℤ) := by
    unfold smallestPrimeFactor; exact_mod_cast eQ
  rw [eQ']
  simp only [orDiverge, Except.bind_ok]
  obtain ⟨s, es, hs⟩ := sData_spec A.rows Nmax Q hL hL0 hQ
  rw [es]
  simp only [Except.bind_ok]
  obtain ⟨h, eh, hl, hh⟩ := hkmFc_spec A Nmax Q m s hL hL0 hQ hs hm1 hm2 hny
  rw [eh]
  simp only [Except.bind_ok]
  have habs : |m| = (m.natAbs : ℤ) := Int.abs_eq_natAbs m
  rw [habs]
  unfold npFull
  rw [if_neg (by omega)]
  simp only [Except.bind_ok]
  have hlen : ((Nmax : ℤ) - m.natAbs + 1).toNat = Nmax - m.natAbs + 1 := by omega
  rw [hlen]
  obtain ⟨o, eo, hi⟩ := forM'_range_inv (a := (m.natAbs : ℤ)) (b := (Nmax : ℤ) + 1) (by omega)
    (List.replicate (Nmax - m.natAbs + 1) (0 : ℂ)) (bnmBody h m)
    (fun v o => o.length = Nmax - m.natAbs + 1 ∧ ∀ n : ℕ, m.natAbs ≤ n → (n : ℤ) < v → rd o (n - m.natAbs) = bval A m n)
    ⟨by simp, fun n h1 h2 => by omega⟩
    (by
      intro i o h1 h2 ⟨hol, hor⟩
      obtain ⟨n, rfl⟩ := Int.eq_ofNat_of_zero_le (show 0 ≤ i by omega)
      have := bnmBody_spec h A Nmax m hl hh o n (by omega) (by omega) hol
      refine ⟨_, this, by simpa using hol, fun k hk1 hk2 => ?_⟩
      rw [rd_set _ _ _ _ (by omega)]
      by_cases hk : k = n
      · subst hk; rw [if_pos rfl]
      · rw [if_neg (by omega)]; exact hor k hk1 (by omega))
  exact ⟨o, eo, hi.1, fun n h1 h2 => hi.2 n h1 (by omega)⟩

end Verif
