import Verif.Transforms
import Verif.CSphiS
import Verif.SphiProj
/-!
# Fourier data of a pattern
-/
namespace Verif
open Finset

/-- Normalised 2-D DFT coefficient `(ν, m)` of an array. -/
noncomputable def dftc (D : Arr2 ℂ) (ν m : ℤ) : ℂ :=
  (∑ i ∈ range D.rows, ∑ j ∈ range D.cols, D.at' i j * root D.rows (-(i * ν)) * root D.cols (-(j * m))) / (D.rows * D.cols)

/-- The coefficients kept by the transforms: the θ-Nyquist frequency is dropped. -/
noncomputable def fhat (D : Arr2 ℂ) (m ν : ℤ) : ℂ := if |ν| < ((D.rows / 2 : ℕ) : ℤ) then dftc D ν m else 0

theorem root_mul_emod (n : ℕ) (i ν : ℤ) : root n (-(i * (ν % n))) = root n (-(i * ν)) := by
  conv_rhs => rw [← Int.emod_add_mul_ediv ν n]
  rw [show -(i * (ν % n + n * (ν / n))) = -(i * (ν % n)) + n * (-(i * (ν / n))) by ring, root_add_mul]

theorem dftc_emod (D : Arr2 ℂ) (ν m : ℤ) : dftc D (ν % D.rows) (m % D.cols) = dftc D ν m := by
  unfold dftc
  congr 1
  refine sum_congr rfl fun i _ => sum_congr rfl fun j _ => ?_
  rw [root_mul_emod, root_mul_emod]

theorem fhat_emod (D : Arr2 ℂ) (ν m : ℤ) : fhat D (m % D.cols) ν = fhat D m ν := by
  unfold fhat
  rw [← dftc_emod D ν (m % D.cols), Int.emod_emod, dftc_emod]

theorem fixEvenRow_ok (f : Arr2 ℂ) (R : ℕ) (h : f.rows = R) (hR : R % 2 = 0) (hR0 : 0 < R) :
    fixEvenRow f = .ok (Arr2.ofFn R f.cols fun r c => if r = R / 2 then 0 else f.at' r c) := by
  subst h
  unfold fixEvenRow
  rw [if_pos hR, if_neg (by omega)]
  rfl

theorem padRows_ok (f : Arr2 ℂ) (R C : ℕ) (h : f.rows = R) (hc : f.cols = C) (hR0 : 2 ≤ R) :
    padRows f (R + 2) = .ok (Arr2.ofFn (R + 2) C fun i j =>
      if i < R / 2 then f.at' i j else if R + 2 - (R / 2 - 1) ≤ i ∧ R / 2 ≠ 0 then f.at' (i + R - (R + 2)) j else 0) := by
  subst h hc
  unfold padRows
  rw [if_neg (by omega), if_neg (by omega)]

theorem extFourier_spec (D : Arr2 ℂ) (hR : D.rows % 2 = 0) (hR0 : 0 < D.rows) (hC : 0 < D.cols) :
    ∃ E, extFourier D = .ok E ∧ E.rows = D.rows + 2 ∧ E.cols = D.cols ∧
      ∀ m ν : ℤ, |ν| ≤ (D.rows / 2 : ℕ) + 1 → fAt E m ν = fhat D m ν := by
  unfold extFourier npFft2
  rw [if_neg (by omega)]
  simp only [Except.bind_ok]
  rw [fixEvenRow_ok _ D.rows (by rfl) hR hR0]
  simp only [Except.bind_ok]
  rw [padRows_ok _ D.rows D.cols (by rfl) (by rfl) (by omega)]
  refine ⟨_, rfl, rfl, rfl, fun m ν hν => ?_⟩
  rw [abs_le] at hν
  unfold fAt
  simp only [Arr2.rows_ofFn, Arr2.cols_ofFn]
  have hc : (m % (D.cols : ℤ)).toNat < D.cols := slot_lt' hC _
  have hcc : (((m % (D.cols : ℤ)).toNat : ℕ) : ℤ) = m % D.cols := Int.toNat_of_nonneg (Int.emod_nonneg _ (by omega))
  have hi : (ν % ((D.rows + 2 : ℕ) : ℤ)).toNat < D.rows + 2 := slot_lt' (by omega) _
  have hw := wrap_mod (Q := D.rows + 2) (j := ν) (by omega) (by omega)
  rw [Arr2.at'_ofFn hi hc]
  have hent : ∀ k : ℕ, k < D.rows → k ≠ D.rows / 2 → ∀ ν : ℤ, (k : ℤ) = ν % D.rows →
      (Arr2.ofFn D.rows D.cols fun r c => if r = D.rows / 2 then (0 : ℂ) else
        (Arr2.map (fun x => x / (((D.rows * D.cols : ℕ) : ℝ) : ℂ)) (Arr2.ofFn D.rows D.cols fun k l =>
          ∑ i ∈ range D.rows, ∑ j ∈ range D.cols, D.at' i j * root D.rows (-(i * k : ℤ)) * root D.cols (-(j * l : ℤ)))).at' r c).at' k (m % (D.cols : ℤ)).toNat
        = dftc D ν m := by
    intro k hk hne ν hν
    rw [Arr2.at'_ofFn hk hc, if_neg hne, Arr2.at'_map _ _ (by simpa using hk) (by simpa using hc), Arr2.at'_ofFn hk hc, ← dftc_emod D ν m, ← hν, ← hcc]
    unfold dftc
    push_cast
    rfl
  unfold fhat
  by_cases h1 : 0 ≤ ν ∧ ν < (D.rows / 2 : ℕ)
  · have e : (ν % ((D.rows + 2 : ℕ) : ℤ)).toNat = ν.toNat := by rw [hw, if_neg (by omega)]
    rw [e, if_pos (by omega), if_pos (by rw [abs_lt]; omega)]
    exact hent _ (by omega) (by omega) ν (by rw [Int.emod_eq_of_lt (by omega) (by omega)]; omega)
  · by_cases h2 : ν < 0 ∧ -(D.rows / 2 : ℕ) < ν
    · have e : (ν % ((D.rows + 2 : ℕ) : ℤ)).toNat = (ν + (D.rows + 2 : ℕ)).toNat := by rw [hw, if_pos (by omega)]
      rw [e, if_neg (by omega), if_pos (by omega), if_pos (by rw [abs_lt]; omega)]
      exact hent _ (by omega) (by omega) ν (by
        rw [← Int.add_emod_right, Int.emod_eq_of_lt (by omega) (by omega)]; omega)
    · have h3 : ¬ |ν| < ((D.rows / 2 : ℕ) : ℤ) := by rw [abs_lt]; omega
      rw [if_neg h3]
      by_cases h4 : 0 ≤ ν
      · have e : (ν % ((D.rows + 2 : ℕ) : ℤ)).toNat = ν.toNat := by rw [hw, if_neg (by omega)]
        rw [e, if_neg (by omega), if_neg (by omega)]
      · have e : (ν % ((D.rows + 2 : ℕ) : ℤ)).toNat = (ν + (D.rows + 2 : ℕ)).toNat := by rw [hw, if_pos (by omega)]
        rw [e, if_neg (by omega), if_neg (by omega)]

/-- `sin_fc` on data whose outer rows vanish: `g_ν = (f_{ν-1} - f_{ν+1}) / 2i`. -/
theorem sinFc_spec (E : Arr2 ℂ) (M : ℕ) (hE : E.rows = 2 * (M + 1)) (hM : 1 ≤ M) (f : ℤ → ℤ → ℂ)
    (hf : ∀ m ν : ℤ, |ν| ≤ M + 1 → fAt E m ν = f m ν) (h0 : ∀ m ν, (M : ℤ) ≤ |ν| → f m ν = 0) (hC : 0 < E.cols) :
    ∃ G, sinFc E = .ok G ∧ G.rows = E.rows ∧ G.cols = E.cols ∧
      ∀ m ν : ℤ, |ν| ≤ M + 1 → fAt G m ν = (f m (ν - 1) - f m (ν + 1)) / (2 * Complex.I) := by
  unfold sinFc
  rw [if_neg (by omega)]
  simp only [Arr2.setRow, Arr2.rows_ofFn, Arr2.cols_ofFn]
  refine ⟨_, rfl, rfl, rfl, fun m ν hν => ?_⟩
  rw [abs_le] at hν
  unfold fAt
  simp only [Arr2.rows_ofFn, Arr2.cols_ofFn]
  have hc : (m % (E.cols : ℤ)).toNat < E.cols := slot_lt' hC _
  have hi : (ν % (E.rows : ℤ)).toNat < E.rows := slot_lt' (by omega) _
  rw [Arr2.at'_ofFn hi hc]
  have hrow : ∀ (k : ℕ) (μ : ℤ), k < E.rows → (k : ℤ) = μ % E.rows → |μ| ≤ M + 2 →
      (Arr2.ofFn E.rows E.cols fun r c => if r = (E.rows + 2) / 2 then (0 : ℂ) else
        (Arr2.ofFn E.rows E.cols fun r c => if r = (E.rows - 2) / 2 then (0 : ℂ) else E.at' r c).at' r c).at' k (m % (E.cols : ℤ)).toNat
        = f m μ := by
    intro k μ hk hμ hμ2
    rw [abs_le] at hμ2
    rw [Arr2.at'_ofFn hk hc, Arr2.at'_ofFn hk hc]
    have hw := wrap_mod (Q := E.rows) (j := μ) (by omega) (by omega)
    have hkk : k = (μ % (E.rows : ℤ)).toNat := by omega
    rw [hw] at hkk
    by_cases e1 : k = (E.rows + 2) / 2
    · rw [if_pos e1, h0]
      rw [Int.abs_eq_natAbs]
      split at hkk <;> omega
    · rw [if_neg e1]
      by_cases e2 : k = (E.rows - 2) / 2
      · rw [if_pos e2, h0]
        rw [Int.abs_eq_natAbs]
        split at hkk <;> omega
      · rw [if_neg e2, ← hf m μ (by rw [abs_le]; split at hkk <;> omega)]
        unfold fAt
        congr 1
        omega
  have hw := wrap_mod (Q := E.rows) (j := ν) (by omega) (by omega)
  have hmod : ∀ (k : ℕ) (μ : ℤ), k < E.rows → -(E.rows : ℤ) ≤ μ → μ < E.rows → (k : ℤ) = (if μ < 0 then μ + E.rows else μ) → (k : ℤ) = μ % E.rows := by
    intro k μ h1 h2 h3 h4
    have hw := wrap_mod (Q := E.rows) (j := μ) h2 h3
    have : 0 ≤ μ % (E.rows : ℤ) := Int.emod_nonneg _ (by omega)
    split at h4 <;> rename_i hh <;> simp only [hh, if_true, if_false] at hw <;> omega
  rw [hrow _ (ν - 1) ?_ ?_ ?_, hrow _ (ν + 1) ?_ ?_ ?_]
  · rw [show (1.0 : ℂ) = 1 by norm_num]; ring
  · split <;> omega
  · by_cases hb : ν + 1 < E.rows
    · apply hmod
      · split <;> omega
      · omega
      · omega
      · rw [hw]; split_ifs <;> omega
    · exfalso; omega
  · rw [abs_le]; omega
  · split <;> omega
  · apply hmod
    · split <;> omega
    · omega
    · omega
    · rw [hw]; split_ifs <;> omega
  · rw [abs_le]; omega

end Verif
