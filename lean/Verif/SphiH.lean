import Verif.SphiQ
import Verif.SphiY
import Verif.CoefsLemmas2
import Mathlib.Data.Int.Interval
import Mathlib.Algebra.Order.Group.Int
/-!
# `s_data` and `hkm_fc`: FFT-based convolution
-/
namespace Verif
open Finset

/-- The kernel: `S(j) = -i/j` for odd `j`, else `0`. -/
noncomputable def Skern (j : ℤ) : ℂ := if j % 2 = 1 then -Complex.I / j else 0

/-- Cyclic convolution theorem for the DFT. -/
theorem cyc_conv {Q : ℕ} (hQ : 0 < Q) (a b : ℕ → ℂ) (k : ℕ) :
    (∑ p ∈ range Q, ((∑ n ∈ range Q, a n * root Q (-(n * p : Int))) * (∑ l ∈ range Q, b l * root Q (-(l * p : Int)))) *
      root Q (p * k : Int)) / Q = ∑ n ∈ range Q, a n * b ((((k : ℤ) - n) % Q).toNat) := by
  have hQ' : (Q : ℂ) ≠ 0 := by exact_mod_cast hQ.ne'
  rw [div_eq_iff hQ']
  have e1 : ∀ p ∈ range Q, ((∑ n ∈ range Q, a n * root Q (-(n * p : Int))) *
      (∑ l ∈ range Q, b l * root Q (-(l * p : Int)))) * root Q (p * k : Int) =
      ∑ n ∈ range Q, ∑ l ∈ range Q, a n * b l * root Q (((k : ℤ) - n - l) * p) := by
    intro p _
    rw [sum_mul_sum, sum_mul]
    refine sum_congr rfl fun n _ => ?_
    rw [sum_mul]
    refine sum_congr rfl fun l _ => ?_
    rw [show ((k : ℤ) - n - l) * p = -(n * p) + -(l * p) + p * k by ring, root_add, root_add]
    ring
  rw [sum_congr rfl e1, sum_comm, sum_mul]
  refine sum_congr rfl fun n _ => ?_
  rw [sum_comm]
  have e2 : ∀ l ∈ range Q, ∑ p ∈ range Q, a n * b l * root Q (((k : ℤ) - n - l) * p) =
      if l = (((k : ℤ) - n) % Q).toNat then a n * b l * Q else 0 := by
    intro l hl
    rw [← mul_sum, sum_root hQ]
    have hl' := mem_range.mp hl
    have hpos : 0 ≤ ((k : ℤ) - n) % Q := Int.emod_nonneg _ (by omega)
    have hlt : ((k : ℤ) - n) % Q < Q := Int.emod_lt_of_pos _ (by omega)
    by_cases h : l = (((k : ℤ) - n) % Q).toNat
    · rw [if_pos h, if_pos]
      have : (l : ℤ) = ((k : ℤ) - n) % Q := by omega
      rw [this]; exact Int.dvd_self_sub_emod
    · rw [if_neg h, if_neg, mul_zero]
      intro hd
      apply h
      have h1 : ((k : ℤ) - n) % Q = (l : ℤ) % Q := (Int.emod_eq_emod_iff_emod_sub_eq_zero).mpr
        (Int.emod_eq_zero_of_dvd hd)
      rw [Int.emod_eq_of_lt (by omega) (by omega : (l : ℤ) < Q)] at h1
      omega
  have hmem : (((k : ℤ) - n) % Q).toNat ∈ range Q := by
    have hlt : ((k : ℤ) - n) % Q < Q := Int.emod_lt_of_pos _ (by omega)
    have hpos : 0 ≤ ((k : ℤ) - n) % Q := Int.emod_nonneg _ (by omega)
    exact mem_range.mpr (by omega)
  rw [sum_congr rfl e2, sum_ite_eq', if_pos hmem]

/-- The slot of (possibly negative) index `j` in an array of length `Q`. -/
theorem wrap_mod {Q : ℕ} {j : ℤ} (h1 : -(Q : ℤ) ≤ j) (h2 : j < Q) : (j % Q).toNat = (if j < 0 then j + Q else j).toNat := by
  split
  · rw [← Int.add_emod_right, Int.emod_eq_of_lt (by omega) (by omega)]
  · rw [Int.emod_eq_of_lt (by omega) (by omega)]

/-- What `hkm_fc` needs from the kernel table. -/
def KernTable (L1 Nmax Q : ℕ) (s : List ℂ) : Prop :=
  s.length = Q ∧ ∀ j : ℤ, -(L1 : ℤ) < j → j < Nmax → rd s (j % Q).toNat = Skern (j + L1 / 2)

theorem setIdx_wrap {l : List ℂ} {i : Int} (v : ℂ) (h1 : -(l.length : ℤ) ≤ i) (h2 : i < l.length) :
    setIdx l i v = .ok (l.set (i % l.length).toNat v) := by
  rw [wrap_mod h1 h2]
  unfold setIdx
  by_cases h : i < 0
  · simp only [if_pos h]
    rw [if_neg (by omega), if_pos (by omega)]
  · simp only [if_neg h]
    rw [if_pos (by omega)]

theorem rd_set {α : Type} [Zero α] (l : List α) (i j : ℕ) (v : α) (hi : i < l.length) :
    rd (l.set i v) j = if j = i then v else rd l j := by
  unfold rd
  by_cases h : j = i
  · subst h; simp [hi]
  · rw [if_neg h, List.getD_eq_getElem?_getD, List.getElem?_set_ne (by omega), ← List.getD_eq_getElem?_getD]

theorem rd_replicate_zero {α : Type} [Zero α] (n i : ℕ) : rd (List.replicate n (0 : α)) i = 0 := by
  unfold rd
  rw [List.getD_eq_getElem?_getD, List.getElem?_replicate]
  split <;> rfl

/-- Distinct indices in a window of length `≤ Q` have distinct slots. -/
theorem slot_ne {Q : ℕ} {i j : ℤ} (hij : i ≠ j) (h : |i - j| < Q) : (i % Q).toNat ≠ (j % Q).toNat := by
  intro e
  have hQ : (0 : ℤ) < Q := lt_of_le_of_lt (abs_nonneg _) h
  have h1 : 0 ≤ i % Q := Int.emod_nonneg _ (by omega)
  have h2 : 0 ≤ j % Q := Int.emod_nonneg _ (by omega)
  have h3 : i % Q = j % Q := by omega
  have h4 : (Q : ℤ) ∣ i - j := Int.dvd_of_emod_eq_zero ((Int.emod_eq_emod_iff_emod_sub_eq_zero).mp h3)
  have := Int.eq_zero_of_abs_lt_dvd h4 h
  omega

theorem slot_lt' {Q : ℕ} (hQ : 0 < Q) (i : ℤ) : (i % Q).toNat < Q := by
  have h1 : 0 ≤ i % (Q : ℤ) := Int.emod_nonneg _ (by omega)
  have h2 : i % (Q : ℤ) < Q := Int.emod_lt_of_pos _ (by omega)
  omega

theorem sData_spec (L1 Nmax Q : ℕ) (hL : L1 % 2 = 0) (hL0 : 0 < L1) (hQ : L1 + Nmax ≤ Q) :
    ∃ s, sData L1 Nmax Q = .ok s ∧ KernTable L1 Nmax Q s := by
  unfold sData
  rw [if_neg (by omega)]
  unfold npFull
  rw [if_neg (by omega)]
  simp only [Except.bind_ok, Int.toNat_natCast]
  obtain ⟨s, e, hi⟩ := forM'_range_inv (a := -((L1 : ℤ) / 2)) (b := (L1 : ℤ) / 2 + Nmax + 1) (by omega)
    (List.replicate Q (0 : ℂ)) (fun s nu =>
      if nu % 2 = 1 then setIdx s (nu - (L1 : ℤ) / 2) (-Complex.I / nu) else .ok s)
    (fun v s => s.length = Q ∧ ∀ j : ℤ, -(L1 : ℤ) < j → j < Nmax →
      rd s (j % Q).toNat = if j + L1 / 2 < v then Skern (j + L1 / 2) else 0)
    ⟨by simp, fun j h1 h2 => by rw [rd_replicate_zero, if_neg (by omega)]⟩
    (by
      intro v s h1 h2 ⟨hl, hr⟩
      by_cases hv : v % 2 = 1
      · simp only [hv, if_true]
        rw [setIdx_wrap _ (by omega) (by omega), hl]
        refine ⟨_, rfl, by simpa using hl, fun j hj1 hj2 => ?_⟩
        rw [rd_set _ _ _ _ (by rw [hl]; exact slot_lt' (by omega) _)]
        by_cases hje : j = v - (L1 : ℤ) / 2
        · subst hje
          rw [if_pos rfl, if_pos (by omega), show v - (L1 : ℤ) / 2 + L1 / 2 = v by omega]
          unfold Skern
          rw [if_pos hv]
        · by_cases hlow : v = -((L1 : ℤ) / 2) ∨ v < L1 / 2 + Nmax
          · rw [if_neg (slot_ne hje (by rw [abs_lt]; omega)), hr j hj1 hj2]
            by_cases hb : j + L1 / 2 < v
            · rw [if_pos hb, if_pos (by omega)]
            · rw [if_neg hb, if_neg (by omega)]
          · rw [if_neg (slot_ne hje (by rw [abs_lt]; omega)), hr j hj1 hj2, if_pos (by omega), if_pos (by omega)]
      · simp only [hv, if_false]
        refine ⟨s, rfl, hl, fun j hj1 hj2 => ?_⟩
        rw [hr j hj1 hj2]
        by_cases hb : j + L1 / 2 < v
        · rw [if_pos hb, if_pos (by omega)]
        · rw [if_neg hb]
          by_cases hb2 : j + L1 / 2 < v + 1
          · rw [if_pos hb2]
            unfold Skern
            rw [if_neg (by omega)]
          · rw [if_neg hb2])
  refine ⟨s, e, hi.1, fun j h1 h2 => ?_⟩
  rw [hi.2 j h1 h2, if_pos (by omega)]

/-- Index arithmetic of the convolution: the shifted table and the shifted data give the linear convolution. -/
theorem conv_core (L1 Nmax Q : ℕ) (hL : L1 % 2 = 0) (hQ : L1 + Nmax ≤ Q) (s : List ℂ)
    (hs : KernTable L1 Nmax Q s) (f : ℤ → ℂ) (ff : ℕ → ℂ) (h0 : ff 0 = 0)
    (h1 : ∀ n : ℕ, 1 ≤ n → n < L1 → ff n = f ((n : ℤ) - L1 / 2)) (h2 : ∀ n : ℕ, L1 ≤ n → ff n = 0)
    (k : ℕ) (hk : k ≤ Nmax) :
    ∑ n ∈ range Q, ff n * rd s ((((k : ℤ) - n) % Q).toNat) =
      ∑ ν ∈ Ioo (-((L1 : ℤ) / 2)) ((L1 : ℤ) / 2), f ν * Skern (k - ν) := by
  symm
  refine sum_bij_ne_zero (fun ν _ _ => (ν + L1 / 2).toNat) ?_ ?_ ?_ ?_
  · intro ν hν _
    have := mem_Ioo.mp hν
    exact mem_range.mpr (by omega)
  · intro a ha _ b hb _ hab
    have := mem_Ioo.mp ha
    have := mem_Ioo.mp hb
    omega
  · intro n hn hne
    have hn' := mem_range.mp hn
    have hn0 : n ≠ 0 := by rintro rfl; rw [h0, zero_mul] at hne; exact hne rfl
    have hnL : n < L1 := by
      by_contra hc
      rw [h2 n (by omega), zero_mul] at hne; exact hne rfl
    refine ⟨(n : ℤ) - L1 / 2, mem_Ioo.mpr (by omega), ?_, by omega⟩
    rw [h1 n (by omega) hnL, hs.2 ((k : ℤ) - n) (by omega) (by omega)] at hne
    rwa [show (k : ℤ) - (n - L1 / 2) = k - n + L1 / 2 by ring]
  · intro ν hν _
    have hν' := mem_Ioo.mp hν
    have e : (((ν + L1 / 2).toNat : ℕ) : ℤ) = ν + L1 / 2 := by omega
    rw [h1 _ (by omega) (by omega), e, hs.2 _ (by omega) (by omega)]
    congr 2 <;> ring

/-- Row `ν` (taken modulo the number of rows) of column `m` (modulo the number of columns). -/
noncomputable def fAt (A : Arr2 ℂ) (m ν : ℤ) : ℂ := A.at' (ν % A.rows).toNat (m % A.cols).toNat

theorem colOf_ok (A : Arr2 ℂ) (m : ℤ) (h1 : -(A.cols : ℤ) ≤ m) (h2 : m < A.cols) :
    colOf A m = .ok (tab A.rows fun i => A.at' i (m % A.cols).toNat) := by
  unfold colOf
  rw [if_pos ⟨h1, h2⟩]
  congr 1
  have : Arr2.wrap A.cols m = (m % A.cols).toNat := by
    rw [wrap_mod h1 h2]; unfold Arr2.wrap; split <;> rfl
  rw [this]

/-- The exact linear convolution. -/
noncomputable def hval (A : Arr2 ℂ) (m : ℤ) (k : ℤ) : ℂ :=
  4 * Real.pi * ∑ ν ∈ Ioo (-((A.rows : ℤ) / 2)) ((A.rows : ℤ) / 2), fAt A m ν * Skern (k - ν)

theorem hkmFc_spec (A : Arr2 ℂ) (Nmax Q : ℕ) (m : ℤ) (s : List ℂ) (hL : A.rows % 2 = 0) (hL0 : 0 < A.rows)
    (hQ : A.rows + Nmax ≤ Q) (hs : KernTable A.rows Nmax Q s) (hm1 : -(A.cols : ℤ) ≤ m) (hm2 : m < A.cols)
    (hny : fAt A m (A.rows / 2) = 0) :
    ∃ h, hkmFc A Nmax m s = .ok h ∧ h.length = Nmax + 1 ∧ ∀ k : ℕ, k ≤ Nmax → rd h k = hval A m k := by
  unfold hkmFc
  rw [colOf_ok A m hm1 hm2]
  simp only [Except.bind_ok, length_tab, hs.1]
  rw [if_neg (by omega)]
  unfold npFft
  simp only [length_tab, hs.1]
  rw [if_neg (by omega), if_neg (by omega)]
  simp only [Except.bind_ok]
  rw [ScalarCoefs.bcast_eq _ (by simp)]
  simp only [Except.bind_ok]
  unfold npIfft
  rw [if_neg (by simp; omega)]
  simp only [Except.bind_ok]
  refine ⟨_, rfl, ?_, ?_⟩
  · rw [length_getSlice (by omega) (by omega) (by simp; omega)]; omega
  · intro k hk
    rw [getSlice_of_le (by omega) (by omega) (by simp; omega)]
    have hget : ∀ (l : List ℂ), k < l.length → rd (List.drop (0 : ℤ).toNat (List.take ((Nmax : ℤ) + 1).toNat l)) k = rd l k := by
      intro l hl
      simp only [Int.toNat_zero, List.drop_zero, rd, List.getD_eq_getElem?_getD]
      rw [List.getElem?_take_of_lt (by omega)]
    rw [hget _ (by simp; omega)]
    have hmap : ∀ (l : List ℂ) (g : ℂ → ℂ), k < l.length → rd (l.map g) k = g (rd l k) := by
      intro l g hl
      simp [rd, hl]
    rw [hmap _ _ (by simp; omega)]
    have hlen : (List.zipWith (fun x1 x2 : ℂ => x1 * x2)
        (tab Q fun k => ∑ j ∈ range Q, rd (tab Q fun n => if n < A.rows / 2 then rd (tab A.rows fun i => A.at' i (m % A.cols).toNat) (n + A.rows / 2) else if n < A.rows then rd (tab A.rows fun i => A.at' i (m % A.cols).toNat) (n - A.rows / 2) else 0) j * root Q (-(j * k : Int)))
        (tab Q fun k => ∑ j ∈ range Q, rd s j * root Q (-(j * k : Int)))).length = Q := by simp
    rw [hlen, rd_tab (by omega)]
    unfold hval
    congr 1
    rw [← conv_core A.rows Nmax Q hL hQ s hs (fAt A m)
      (fun n => if n < A.rows / 2 then A.at' (n + A.rows / 2) (m % A.cols).toNat else
        if n < A.rows then A.at' (n - A.rows / 2) (m % A.cols).toNat else 0) ?_ ?_ ?_ k hk]
    · rw [← cyc_conv (by omega : 0 < Q)]
      congr 1
      refine sum_congr rfl fun p hp => ?_
      have hp' := mem_range.mp hp
      have hz : ∀ (l l' : List ℂ), l.length = Q → l'.length = Q →
          rd (List.zipWith (fun x1 x2 : ℂ => x1 * x2) l l') p = rd l p * rd l' p := by
        intro l l' h1 h2
        simp [rd, List.getD_eq_getElem?_getD, h1, h2, hp']
      rw [hz _ _ (by simp) (by simp), rd_tab hp', rd_tab hp']
      congr 2
      refine sum_congr rfl fun n hn => ?_
      rw [rd_tab (mem_range.mp hn)]
      congr 1
      split
      · rw [rd_tab (by omega)]
      split
      · rw [rd_tab (by omega)]
      · rfl
    · rw [if_pos (by omega), zero_add]
      unfold fAt at hny
      rw [Int.emod_eq_of_lt (by omega) (by omega)] at hny
      rw [← hny]; congr 1
    · intro n hn1 hn2
      unfold fAt
      split
      · congr 1
        rw [← Int.add_emod_right, Int.emod_eq_of_lt (by omega) (by omega)]; omega
      · congr 1
        rw [Int.emod_eq_of_lt (by omega) (by omega)]; omega
    · intro n hn
      rw [if_neg (by omega), if_neg (by omega)]

end Verif
