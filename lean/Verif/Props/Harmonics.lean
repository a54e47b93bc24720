import Verif.SphiY
import Verif.SphiQ
import Verif.SphiH
import Verif.Math.Ortho
import Mathlib.Analysis.SpecialFunctions.Integrals.Basic
/-!
# Properties C25 - C27: the numerical kernels of pysphi.py
-/
namespace Verif.Props
open Verif Finset

/-! ## C25 -/

/-- C25 (Python): for `Q ≥ 1` the search terminates with the least number `≥ Q` with no prime factor above 7. -/
theorem c25_python (Q : ℕ) (hQ : 1 ≤ Q) :
    ∃ R : ℕ, smallestPrimeFactor Q = some (R : Int) ∧ Q ≤ R ∧ (∀ p, p.Prime → p ∣ R → p = 2 ∨ p = 3 ∨ p = 5 ∨ p = 7) ∧
      ∀ S, Q ≤ S → S < R → ∃ p, p.Prime ∧ p ∣ S ∧ 7 < p := by
  obtain ⟨R, h1, h2, h3, h4⟩ := spf_loopEq.least (by simp) Q hQ
  refine ⟨R, h1, h2, fun p hp hd => by simpa using h3 p hp hd, fun S hS hR => ?_⟩
  have := h4 S hS hR
  unfold SmoothOver at this
  push Not at this
  obtain ⟨p, hp, hd, hn⟩ := this
  refine ⟨p, hp, hd, ?_⟩
  simp only [List.mem_cons, List.not_mem_nil, or_false, not_or] at hn
  by_contra hlt
  have hle : p ≤ 7 := by omega
  interval_cases p <;> simp_all (config := { decide := true })

/-- Not in the property: for `Q ≤ 0` the search never returns. -/
theorem c25_python_diverges (Q : Int) (hQ : Q ≤ 0) : smallestPrimeFactor Q = none := spf_diverges Q hQ

/-- Witness: 11 -> 12. -/
example : smallestPrimeFactor 11 = some 12 := by
  obtain ⟨R, h1, h2, h3, h4⟩ := c25_python 11 (by omega)
  have h11 : R ≠ 11 := fun e => by
    have := h3 11 (by decide) (by rw [e]); omega
  have h12 : ¬ 12 < R := fun hlt => by
    obtain ⟨p, hp, hd, h7⟩ := h4 12 (by omega) hlt
    have : p ∣ 2 ^ 2 * 3 := by simpa using hd
    rcases (Nat.Prime.dvd_mul hp).mp this with h | h
    · have := (Nat.prime_dvd_prime_iff_eq hp Nat.prime_two).mp (hp.dvd_of_dvd_pow h); omega
    · have := (Nat.prime_dvd_prime_iff_eq hp Nat.prime_three).mp h; omega
  have : R = 12 := by omega
  rw [this] at h1; exact_mod_cast h1

/-! ## C26 -/

/-- The extension `y[-ν] = (-1)^m y[ν]` of an array to negative indices. -/
noncomputable def symExt (m : ℤ) (y : List ℝ) (ν : ℤ) : ℝ :=
  if 0 ≤ ν then y.getD ν.toNat 0 else (-1) ^ m.natAbs * y.getD (-ν).toNat 0

/-- C26: the array `ynunm(n, m, L)` holds the Fourier coefficients in `θ` of the spherical harmonic. -/
theorem c26_ynunm (n : ℕ) (m : ℤ) (L : ℕ) (hm : m.natAbs ≤ n) (hL : n < L) :
    ∃ y, ynunm n m L = .ok y ∧ y.length = L ∧ (∀ j, n < j → y.getD j 0 = 0) ∧ ∀ θ : ℝ,
      (thetaPart n m θ : ℂ) =
        Complex.I ^ m * ∑ ν ∈ Icc (-(n : ℤ)) n, (symExt m y ν : ℂ) * Complex.exp (ν * (θ * Complex.I)) := by
  obtain ⟨y, h1, h2, h3⟩ := ynunm_spec n m L hm hL
  refine ⟨y, h1, h2, fun j hj => ?_, fun θ => ?_⟩
  · have := h3 j
    rw [ycoef_support n m j (by simpa using hj)] at this
    exact_mod_cast this
  · rw [thetaPart_eq_sum n m θ (Icc (-(n : ℤ)) n) (by
      intro k hk
      rw [mem_Icc, not_and_or] at hk
      rw [lt_abs]; omega)]
    congr 1
    refine sum_congr rfl fun ν _ => ?_
    congr 1
    unfold symExt
    split
    · rename_i h
      rw [h3, Int.toNat_of_nonneg h]
    · rename_i h
      push_cast
      rw [h3, Int.toNat_of_nonneg (by omega), ycoef_symm, ← mul_assoc, ← mul_pow]
      simp

/-- Modes with `|m| > n` have no harmonic: the array is zero. -/
theorem c26_no_mode (n : ℕ) (m : ℤ) (L : ℕ) (hm : n < m.natAbs) : ynunm n m L = .ok (List.replicate L 0) := by
  unfold ynunm npFull
  rw [if_neg (by omega)]
  simp only [Except.bind_ok, Int.toNat_natCast]
  rw [if_neg (by rw [Int.abs_eq_natAbs]; omega)]

example : ∃ y, ynunm 3 (-2) 6 = .ok y ∧ y.length = 6 := by
  obtain ⟨y, h1, h2, -⟩ := c26_ynunm 3 (-2) 6 (by decide) (by omega); exact ⟨y, h1, h2⟩

/-- Integral over the unit sphere. -/
noncomputable def sphInt (F : ℝ → ℝ → ℂ) : ℂ :=
  ∫ φ in (0 : ℝ)..(2 * Real.pi), ∫ θ in (0 : ℝ)..Real.pi, F θ φ * Real.sin θ

theorem integral_azimuth (j : ℤ) :
    ∫ φ in (0 : ℝ)..(2 * Real.pi), Complex.exp (j * (φ * Complex.I)) = if j = 0 then (2 * Real.pi : ℂ) else 0 := by
  split
  · rename_i h; subst h; simp
  · rename_i h
    have hj' : (j : ℂ) ≠ 0 := by exact_mod_cast h
    have e : ∀ θ : ℝ, Complex.exp (j * (θ * Complex.I)) = Complex.exp ((j * Complex.I) * θ) := fun θ => by
      congr 1; ring
    simp only [e]
    rw [integral_exp_mul_complex (mul_ne_zero hj' Complex.I_ne_zero)]
    have : Complex.exp (↑j * Complex.I * ↑(2 * Real.pi)) = 1 := by
      rw [Complex.exp_eq_one_iff]; exact ⟨j, by push_cast; ring⟩
    rw [this]; simp

/-- The specification `sphY` used throughout is orthonormal over the sphere (so the harmonics of C26 are the
orthonormal ones). -/
theorem c26_orthonormal (n k : ℕ) (m l : ℤ) (hm : m.natAbs ≤ n) (hl : l.natAbs ≤ k) :
    sphInt (fun θ φ => sphY n m θ φ * (starRingEnd ℂ) (sphY k l θ φ)) = if n = k ∧ m = l then 1 else 0 := by
  unfold sphInt
  have e : ∀ φ θ : ℝ, sphY n m θ φ * (starRingEnd ℂ) (sphY k l θ φ) * Real.sin θ =
      Complex.exp ((m - l : ℤ) * (φ * Complex.I)) * ((thetaPart n m θ * thetaPart k l θ * Real.sin θ : ℝ) : ℂ) := by
    intro φ θ
    unfold sphY
    rw [map_mul, Complex.conj_ofReal, ← Complex.exp_conj]
    simp only [map_mul, Complex.conj_ofReal, Complex.conj_I, map_intCast]
    rw [show ((m - l : ℤ) : ℂ) * (φ * Complex.I) = m * (φ * Complex.I) + l * (φ * -Complex.I) by push_cast; ring,
      Complex.exp_add]
    push_cast; ring
  simp only [e]
  simp only [intervalIntegral.integral_const_mul, intervalIntegral.integral_mul_const]
  rw [integral_azimuth]
  by_cases h : m = l
  · subst h
    rw [if_pos (sub_self m), intervalIntegral.integral_ofReal, thetaPart_ortho n k m hm hl]
    have : (Real.pi : ℂ) ≠ 0 := by exact_mod_cast Real.pi_ne_zero
    by_cases hk : n = k
    · rw [if_pos hk, if_pos ⟨hk, rfl⟩]; push_cast; field_simp
    · rw [if_neg hk, if_neg (fun h => hk h.1)]; simp
  · rw [if_neg (by omega), zero_mul, if_neg (fun h' => h h'.2)]

/-! ## C27 -/

/-- The kernel `S(j) = -i/j` for odd `j`, `0` for even `j`. -/
noncomputable def kernelS (j : ℤ) : ℂ := if j % 2 = 1 then -Complex.I / j else 0

/-- C27: `s_data` followed by `hkm_fc` computes the exact (linear) convolution, for every FFT length
`Q ≥ nrows + Nmax`.  `f_ν` is `fdata[ν, m]` with NumPy's negative indices. -/
theorem c27_hkm (A : Arr2 ℂ) (Nmax Q : ℕ) (m : ℤ) (hL : A.rows % 2 = 0) (hL0 : 0 < A.rows)
    (hQ : A.rows + Nmax ≤ Q) (hm1 : -(A.cols : ℤ) ≤ m) (hm2 : m < A.cols)
    (hny : A.at' (A.rows / 2) (Arr2.wrap A.cols m) = 0) :
    ∃ s h, sData A.rows Nmax Q = .ok s ∧ hkmFc A Nmax m s = .ok h ∧ h.length = Nmax + 1 ∧
      ∀ k : ℕ, k ≤ Nmax → rd h k = 4 * Real.pi *
        ∑ ν ∈ Ioo (-((A.rows : ℤ) / 2)) ((A.rows : ℤ) / 2), A.at' (Arr2.wrap A.rows ν) (Arr2.wrap A.cols m) * kernelS (k - ν) := by
  obtain ⟨s, e, hs⟩ := sData_spec A.rows Nmax Q hL hL0 hQ
  have hw : ∀ {n : ℕ} {i : ℤ}, -(n : ℤ) ≤ i → i < n → Arr2.wrap n i = (i % n).toNat := by
    intro n i h1 h2
    rw [wrap_mod h1 h2]; unfold Arr2.wrap; split <;> rfl
  have hny' : fAt A m (A.rows / 2) = 0 := by
    unfold fAt
    rw [← hw hm1 hm2, ← hw (by omega) (by omega)]
    convert hny using 2
    unfold Arr2.wrap; split <;> omega
  obtain ⟨h, h1, h2, h3⟩ := hkmFc_spec A Nmax Q m s hL hL0 hQ hs hm1 hm2 hny'
  refine ⟨s, h, e, h1, h2, fun k hk => ?_⟩
  rw [h3 k hk]
  unfold hval
  congr 1
  refine sum_congr rfl fun ν hν => ?_
  rw [mem_Ioo] at hν
  unfold fAt
  rw [hw hm1 hm2, hw (by omega) (by omega)]
  rfl

/-- Witness: a 4x2 array with data in rows 0, 1, 3, Nmax = 2, Q = 7, m = -1. -/
example : ∃ s h, sData 4 2 7 = .ok s ∧
    hkmFc (Arr2.ofFn 4 2 fun i j => if i = 2 then 0 else (i + 3 * j + 1 : ℂ)) 2 (-1) s = .ok h := by
  obtain ⟨s, h, h1, h2, -⟩ := c27_hkm (Arr2.ofFn 4 2 fun i j => if i = 2 then 0 else (i + 3 * j + 1 : ℂ)) 2 7 (-1)
    (by simp) (by simp) (by simp) (by simp) (by simp) (by rw [Arr2.rows_ofFn, Arr2.cols_ofFn, Arr2.at'_ofFn (by omega) (by decide)]; simp)
  exact ⟨s, h, h1, h2⟩

end Verif.Props
