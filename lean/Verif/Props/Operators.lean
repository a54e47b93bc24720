import Verif.VecField
/-!
# Property C41: the Fourier-domain operators

An array of Fourier data stands for a function on the torus (`fourierFn`); row and column frequencies follow the NumPy
convention `0, 1, …, N/2-1, -N/2, …, -1`.
-/
namespace Verif.Props
open Verif Finset

/-- Frequency of index `i` in a transform of length `n` (`np.fft.fftfreq(n) * n`). -/
def freqOf (n i : ℕ) : ℤ := if 2 * i < n then i else (i : ℤ) - n

/-- The function on the torus with Fourier data `A`. -/
noncomputable def fourierFn (A : Arr2 ℂ) (θ φ : ℝ) : ℂ :=
  ∑ i ∈ range A.rows, ∑ j ∈ range A.cols,
    A.at' i j * Complex.exp (freqOf A.rows i * (θ * Complex.I)) * Complex.exp (freqOf A.cols j * (φ * Complex.I))

theorem freqList_freqOf (n i : ℕ) (hn : n % 2 = 0) : freqList n i = freqOf n i := by
  unfold freqList freqOf
  split <;> split <;> omega

theorem freqOf_mod (M : ℕ) (ν : ℤ) (h1 : -(M : ℤ) ≤ ν) (h2 : ν < M) : freqOf (2 * M) (ν % ((2 * M : ℕ) : ℤ)).toNat = ν := by
  rw [wrap_mod (by omega) (by omega)]
  unfold freqOf
  split <;> split <;> omega

theorem sum_range_freq (M : ℕ) (X : ℕ → ℂ) :
    ∑ i ∈ range (2 * M), X i = ∑ ν ∈ Ico (-(M : ℤ)) M, X (ν % ((2 * M : ℕ) : ℤ)).toNat := by
  symm
  refine sum_nbij' (fun ν => (ν % ((2 * M : ℕ) : ℤ)).toNat) (fun i => freqOf (2 * M) i) ?_ ?_ ?_ ?_ ?_
  · intro ν hν
    rw [mem_Ico] at hν
    exact mem_range.mpr (slot_lt' (by omega) ν)
  · intro i hi
    rw [mem_range] at hi
    rw [mem_Ico]; unfold freqOf; split <;> omega
  · intro ν hν
    rw [mem_Ico] at hν
    exact freqOf_mod M ν hν.1 hν.2
  · intro i hi
    rw [mem_range] at hi
    unfold freqOf
    split
    · rw [Int.emod_eq_of_lt (by omega) (by omega)]; omega
    · rw [show (i : ℤ) - (2 * M : ℕ) = i + (2 * M : ℕ) * (-1) by ring, Int.add_mul_emod_self_left, Int.emod_eq_of_lt (by omega) (by omega)]; omega
  · intro ν _; rfl

/-- `fourierFn` in terms of frequencies. -/
theorem fourierFn_eq (A : Arr2 ℂ) (M : ℕ) (hM : A.rows = 2 * M) (θ φ : ℝ) : fourierFn A θ φ =
    ∑ j ∈ range A.cols, (∑ ν ∈ Ico (-(M : ℤ)) M, fAt A j ν * Complex.exp (ν * (θ * Complex.I))) * Complex.exp (freqOf A.cols j * (φ * Complex.I)) := by
  unfold fourierFn
  rw [sum_comm]
  refine sum_congr rfl fun j hj => ?_
  rw [mem_range] at hj
  rw [← sum_mul]
  congr 1
  rw [hM, sum_range_freq]
  refine sum_congr rfl fun ν hν => ?_
  rw [mem_Ico] at hν
  rw [freqOf_mod M ν hν.1 hν.2]
  unfold fAt
  rw [hM, Int.emod_eq_of_lt (a := (j : ℤ)) (by omega) (by omega), Int.toNat_natCast]

theorem Ico_to_Ioo (M : ℕ) (F : ℤ → ℂ) (h : F (-(M : ℤ)) = 0) : ∑ ν ∈ Ico (-(M : ℤ)) M, F ν = ∑ ν ∈ Ioo (-(M : ℤ)) M, F ν := by
  symm
  refine sum_subset (fun ν hν => by rw [mem_Ioo] at hν; rw [mem_Ico]; omega) fun ν h1 h2 => ?_
  rw [mem_Ico] at h1
  rw [mem_Ioo] at h2
  rw [show ν = -(M : ℤ) by omega, h]

/-- C41: `dtheta_fc` is d/dθ (any array with an even number of rows). -/
theorem c41_dtheta (A : Arr2 ℂ) (hR : A.rows % 2 = 0) :
    ∃ B, dthetaFc A = .ok B ∧ B.rows = A.rows ∧ B.cols = A.cols ∧
      ∀ θ φ, HasDerivAt (fun θ => fourierFn A θ φ) (fourierFn B θ φ) θ := by
  refine ⟨Arr2.ofFn A.rows A.cols fun i j => Complex.I * (freqList A.rows i : ℂ) * A.at' i j, by unfold dthetaFc; rw [if_neg (by omega)], rfl, rfl, fun θ φ => ?_⟩
  unfold fourierFn
  simp only [Arr2.rows_ofFn, Arr2.cols_ofFn]
  refine HasDerivAt.fun_sum fun i hi => HasDerivAt.fun_sum fun j hj => ?_
  rw [mem_range] at hi hj
  have h : HasDerivAt (fun θ : ℝ => (freqOf A.rows i : ℂ) * ((θ : ℂ) * Complex.I)) ((freqOf A.rows i : ℂ) * (1 * Complex.I)) θ :=
    ((Complex.ofRealCLM.hasDerivAt (x := θ)).mul_const Complex.I).const_mul _
  refine (((h.cexp).const_mul (A.at' i j)).mul_const _).congr_deriv ?_
  rw [Arr2.at'_ofFn hi hj, freqList_freqOf _ _ hR]
  ring

/-- C41: `dphi_fc` is d/dφ (any array with an even number of columns). -/
theorem c41_dphi (A : Arr2 ℂ) (hC : A.cols % 2 = 0) :
    ∃ B, dphiFc A = .ok B ∧ B.rows = A.rows ∧ B.cols = A.cols ∧
      ∀ θ φ, HasDerivAt (fun φ => fourierFn A θ φ) (fourierFn B θ φ) φ := by
  refine ⟨Arr2.ofFn A.rows A.cols fun i j => Complex.I * (freqList A.cols j : ℂ) * A.at' i j, by unfold dphiFc; rw [if_neg (by omega)], rfl, rfl, fun θ φ => ?_⟩
  unfold fourierFn
  simp only [Arr2.rows_ofFn, Arr2.cols_ofFn]
  refine HasDerivAt.fun_sum fun i hi => HasDerivAt.fun_sum fun j hj => ?_
  rw [mem_range] at hi hj
  have h : HasDerivAt (fun θ : ℝ => (freqOf A.cols j : ℂ) * ((θ : ℂ) * Complex.I)) ((freqOf A.cols j : ℂ) * (1 * Complex.I)) φ :=
    ((Complex.ofRealCLM.hasDerivAt (x := φ)).mul_const Complex.I).const_mul _
  refine ((h.cexp).const_mul (A.at' i j * Complex.exp (freqOf A.rows i * (θ * Complex.I)))).congr_deriv ?_
  rw [Arr2.at'_ofFn hi hj, freqList_freqOf _ _ hC]
  ring

/-- The data is band-limited in θ: the rows of the frequencies `±(R/2-1)` and `R/2` are zero. -/
def ThetaBand (A : Arr2 ℂ) : Prop :=
  ∀ i j, i < A.rows → j < A.cols → (A.rows : ℤ) / 2 - 1 ≤ |freqOf A.rows i| → A.at' i j = 0

theorem ThetaBand.fAt {A : Arr2 ℂ} (h : ThetaBand A) (M : ℕ) (hM : A.rows = 2 * M) (hM1 : 1 ≤ M) (hc : 0 < A.cols) (m ν : ℤ) (h1 : (M : ℤ) - 1 ≤ |ν|) (h2 : |ν| ≤ M) :
    fAt A m ν = 0 := by
  unfold Verif.fAt
  refine h _ _ (slot_lt' (by omega) _) (slot_lt' hc _) ?_
  rw [hM]
  by_cases hν : ν = M
  · subst hν
    rw [Int.emod_eq_of_lt (by omega) (by omega), Int.toNat_natCast]
    unfold freqOf
    rw [if_neg (by omega), le_abs]; omega
  · rw [abs_le] at h2
    rw [freqOf_mod M ν (by omega) (by omega)]; omega

/-- C41: `sin_fc` multiplies by `sin θ`. -/
theorem c41_sin (A : Arr2 ℂ) (hR : A.rows % 2 = 0) (hR4 : 4 ≤ A.rows) (hb : ThetaBand A) :
    ∃ B, sinFc A = .ok B ∧ B.rows = A.rows ∧ B.cols = A.cols ∧ ∀ θ φ : ℝ, fourierFn B θ φ = Real.sin θ * fourierFn A θ φ := by
  by_cases hc : A.cols = 0
  · unfold sinFc
    rw [if_neg (by omega)]
    refine ⟨_, rfl, rfl, rfl, fun θ φ => ?_⟩
    unfold fourierFn
    simp [Arr2.setRow, hc]
  obtain ⟨M, hM⟩ : ∃ M, A.rows = 2 * (M + 1) := ⟨A.rows / 2 - 1, by omega⟩
  obtain ⟨B, e, b1, b2, hB⟩ := sinFc_spec A M hM (by omega) (fun m ν => if |ν| ≤ M + 1 then Verif.fAt A m ν else 0)
    (fun m ν hν => by rw [if_pos hν]) (fun m ν hν => by
      split
      · exact hb.fAt (M + 1) hM (by omega) (by omega) m ν (by push_cast; omega) (by push_cast; omega)
      · rfl) (by omega)
  refine ⟨B, e, b1, b2, fun θ φ => ?_⟩
  rw [fourierFn_eq B (M + 1) (by omega), fourierFn_eq A (M + 1) hM, b2, mul_sum]
  refine sum_congr rfl fun j _ => ?_
  have hz : ∀ ν : ℤ, (M : ℤ) ≤ |ν| → (if |ν| ≤ M + 1 then Verif.fAt A j ν else 0) = 0 := fun ν hν => by
    split
    · exact hb.fAt (M + 1) hM (by omega) (by omega) j ν (by push_cast; omega) (by push_cast; omega)
    · rfl
  have key := trigSum_sin M (fun ν => if |ν| ≤ M + 1 then Verif.fAt A j ν else 0) hz θ
  have e1 : ∑ ν ∈ Ico (-((M + 1 : ℕ) : ℤ)) (M + 1 : ℕ), Verif.fAt A j ν * Complex.exp (ν * (θ * Complex.I)) =
      trigSum M (fun ν => if |ν| ≤ M + 1 then Verif.fAt A j ν else 0) θ := by
    unfold trigSum
    symm
    have : ∀ ν ∈ Ico (-((M + 1 : ℕ) : ℤ)) (M + 1 : ℕ), Verif.fAt A j ν * Complex.exp (ν * (θ * Complex.I)) =
        (if |ν| ≤ M + 1 then Verif.fAt A j ν else 0) * Complex.exp (ν * (θ * Complex.I)) := by
      intro ν hν
      rw [mem_Ico] at hν
      rw [if_pos (by rw [abs_le]; omega)]
    rw [sum_congr rfl this]
    refine sum_subset (fun ν hν => by rw [mem_Ioo] at hν; rw [mem_Ico]; omega) fun ν _ h2 => ?_
    simp only
    rw [hz ν (by rw [mem_Ioo, not_and_or] at h2; rw [le_abs]; omega), zero_mul]
  have e2 : ∑ ν ∈ Ico (-((M + 1 : ℕ) : ℤ)) (M + 1 : ℕ), Verif.fAt B j ν * Complex.exp (ν * (θ * Complex.I)) =
      trigSum (M + 1) (fun ν => ((if |ν - 1| ≤ M + 1 then Verif.fAt A j (ν - 1) else 0) - (if |ν + 1| ≤ M + 1 then Verif.fAt A j (ν + 1) else 0)) / (2 * Complex.I)) θ := by
    unfold trigSum
    rw [Ico_to_Ioo (M + 1) fun ν => Verif.fAt B j ν * Complex.exp (ν * (θ * Complex.I))]
    · refine sum_congr rfl fun ν hν => ?_
      rw [mem_Ioo] at hν
      rw [hB j ν (by rw [abs_le]; omega)]
    · rw [hB j _ (by rw [abs_le]; omega), hz _ (by rw [le_abs]; omega), hz _ (by rw [le_abs]; omega)]
      simp
  rw [e1, e2, key]
  ring

/-- C41: `divsin_fc` undoes `sin_fc`. -/
theorem c41_divsin_sin (A : Arr2 ℂ) (hR : A.rows % 2 = 0) (hR4 : 4 ≤ A.rows) (hb : ThetaBand A) :
    ∃ B, sinFc A = .ok B ∧ divsinFc B = .ok A := by
  by_cases hc : A.cols = 0
  · obtain ⟨B, e, b1, b2, -⟩ := c41_sin A hR hR4 hb
    refine ⟨B, e, ?_⟩
    unfold divsinFc
    rw [if_neg (by omega)]
    simp only
    congr 1
    have inv : ∀ (l : List ℤ) (g : Arr2 ℂ), g.rows = A.rows → g.cols = A.cols →
        (l.foldl (divsinStep B) g).rows = A.rows ∧ (l.foldl (divsinStep B) g).cols = A.cols := by
      intro l
      induction l with
      | nil => exact fun g h1 h2 => ⟨h1, h2⟩
      | cons k l ih => exact fun g h1 h2 => ih _ h1 h2
    obtain ⟨i1, i2⟩ := inv (pyRangeNeg ((B.rows : ℤ) / 2 - 2) (-((B.rows : ℤ) / 2 - 2)) 1)
      (Arr2.setRow (Arr2.ofFn B.rows B.cols fun _ _ => (0 : ℂ)) (Arr2.wrap (Arr2.ofFn B.rows B.cols fun _ _ => (0 : ℂ)).rows ((B.rows : ℤ) / 2 - 2))
        fun j => 2 * Complex.I * B.at' (Arr2.wrap B.rows ((B.rows : ℤ) / 2 - 1)) j) b1 b2
    refine Arr2.ext' i1 i2 fun i j _ hj => ?_
    rw [i2, hc] at hj
    omega
  obtain ⟨M, hM⟩ : ∃ M, A.rows = 2 * (M + 1) := ⟨A.rows / 2 - 1, by omega⟩
  have hz : ∀ m ν : ℤ, (M : ℤ) ≤ |ν| → (if |ν| ≤ M + 1 then Verif.fAt A m ν else 0) = 0 := fun m ν hν => by
    split
    · exact hb.fAt (M + 1) hM (by omega) (by omega) m ν (by push_cast; omega) (by push_cast; omega)
    · rfl
  obtain ⟨B, e, b1, b2, hB⟩ := sinFc_spec A M hM (by omega) (fun m ν => if |ν| ≤ M + 1 then Verif.fAt A m ν else 0)
    (fun m ν hν => by rw [if_pos hν]) hz (by omega)
  have hI : (2 * Complex.I) ≠ 0 := mul_ne_zero two_ne_zero Complex.I_ne_zero
  obtain ⟨G, eG, g1, g2, hG⟩ := divsinFc_spec B (M + 1) (by omega) (by omega) (by omega)
    (fun m ν => if |ν| ≤ M + 1 then Verif.fAt A m ν else 0) (fun m ν hν => hz m ν (by push_cast at hν; omega))
    (fun m ν hν => by
      rw [hB m ν (by push_cast at hν; omega)]
      field_simp)
  refine ⟨B, e, ?_⟩
  rw [eG]
  congr 1
  refine Arr2.ext' (by omega) (by omega) fun i j hi hj => ?_
  have := hG j (freqOf A.rows i) (by rw [hM]; unfold freqOf; rw [abs_le]; split <;> push_cast <;> omega)
  rw [if_pos (by rw [hM]; unfold freqOf; rw [abs_le]; split <;> push_cast <;> omega)] at this
  have hidx : ∀ X : Arr2 ℂ, X.rows = A.rows → X.cols = A.cols → Verif.fAt X j (freqOf A.rows i) = X.at' i j := by
    intro X h1 h2
    unfold Verif.fAt
    rw [h1, h2, Int.emod_eq_of_lt (a := (j : ℤ)) (by omega) (by omega), Int.toNat_natCast]
    congr 1
    unfold freqOf
    split
    · rw [Int.emod_eq_of_lt (by omega) (by omega)]; omega
    · rw [show (i : ℤ) - A.rows = i + A.rows * (-1) by ring, Int.add_mul_emod_self_left, Int.emod_eq_of_lt (by omega) (by omega)]; omega
  rw [hidx G (by omega) (by omega), hidx A rfl rfl] at this
  exact this

/-- Trigonometric sums over the column frequencies vanish identically only if every coefficient does. -/
theorem cols_zero (C : ℕ) (a : ℕ → ℂ) (h : ∀ φ : ℝ, ∑ j ∈ range C, a j * Complex.exp (freqOf C j * (φ * Complex.I)) = 0) :
    ∀ j < C, a j = 0 := by
  intro j hj
  have hC : 0 < C := by omega
  have e : ∀ l k : ℕ, Complex.exp (freqOf C l * ((2 * Real.pi * k / C : ℝ) * Complex.I)) = root C (l * k) := by
    intro l k
    rw [← root_exp, mul_comm (k : ℤ)]
    unfold freqOf
    split
    · rfl
    · rw [show ((l : ℤ) - C) * k = l * k + C * (-(k : ℤ)) by ring, root_add_mul]
  have h2 : ∑ k ∈ range C, root C (-(j * k : ℤ)) * ∑ l ∈ range C, a l * Complex.exp (freqOf C l * ((2 * Real.pi * k / C : ℝ) * Complex.I)) = 0 :=
    sum_eq_zero fun k _ => by rw [h, mul_zero]
  simp only [e, mul_sum] at h2
  rw [sum_comm] at h2
  have h3 : ∀ l ∈ range C, ∑ k ∈ range C, root C (-(j * k : ℤ)) * (a l * root C (l * k)) = if l = j then a l * C else 0 := by
    intro l hl
    rw [mem_range] at hl
    have : ∀ k ∈ range C, root C (-(j * k : ℤ)) * (a l * root C (l * k)) = a l * root C (((l : ℤ) - j) * k) := by
      intro k _
      rw [show ((l : ℤ) - j) * k = l * k + -(j * k) by ring, root_add]; ring
    rw [sum_congr rfl this, ← mul_sum, sum_root hC]
    by_cases hlj : l = j
    · subst hlj; simp
    · rw [if_neg hlj, if_neg, mul_zero]
      intro hd
      have := Int.eq_zero_of_abs_lt_dvd hd (by rw [abs_lt]; omega)
      omega
  rw [sum_congr rfl h3, sum_ite_eq' (range C) j, if_pos (mem_range.mpr hj)] at h2
  exact (mul_eq_zero.mp h2).resolve_right (by exact_mod_cast (by omega : C ≠ 0))

/-- C41: `divsin_fc` divides by `sin θ` whenever the function vanishes at both poles (no Nyquist row). -/
theorem c41_divsin (B : Arr2 ℂ) (hR : B.rows % 2 = 0) (hR2 : 2 ≤ B.rows)
    (hnyq : ∀ j < B.cols, B.at' (B.rows / 2) j = 0)
    (h0 : ∀ φ, fourierFn B 0 φ = 0) (hπ : ∀ φ, fourierFn B Real.pi φ = 0) :
    ∃ G, divsinFc B = .ok G ∧ G.rows = B.rows ∧ G.cols = B.cols ∧ ThetaBand G ∧
      ∀ θ φ : ℝ, Real.sin θ * fourierFn G θ φ = fourierFn B θ φ := by
  obtain ⟨M, hM⟩ : ∃ M, B.rows = 2 * (M + 1) := ⟨B.rows / 2 - 1, by omega⟩
  by_cases hc : B.cols = 0
  · have inv : ∀ (l : List ℤ) (g : Arr2 ℂ), g.rows = B.rows → g.cols = B.cols →
        (l.foldl (divsinStep B) g).rows = B.rows ∧ (l.foldl (divsinStep B) g).cols = B.cols := by
      intro l
      induction l with
      | nil => exact fun g h1 h2 => ⟨h1, h2⟩
      | cons k l ih => exact fun g h1 h2 => ih _ h1 h2
    unfold divsinFc
    rw [if_neg (by omega)]
    obtain ⟨i1, i2⟩ := inv (pyRangeNeg ((B.rows : ℤ) / 2 - 2) (-((B.rows : ℤ) / 2 - 2)) 1)
      (Arr2.setRow (Arr2.ofFn B.rows B.cols fun _ _ => (0 : ℂ)) (Arr2.wrap (Arr2.ofFn B.rows B.cols fun _ _ => (0 : ℂ)).rows ((B.rows : ℤ) / 2 - 2))
        fun j => 2 * Complex.I * B.at' (Arr2.wrap B.rows ((B.rows : ℤ) / 2 - 1)) j) rfl rfl
    refine ⟨_, rfl, i1, i2, ?_, fun θ φ => ?_⟩
    · intro i j _ hj
      rw [i2, hc] at hj
      omega
    · unfold fourierFn
      rw [i2]
      simp [hc]
  have nyq : ∀ m : ℤ, fAt B m (-((M + 1 : ℕ) : ℤ)) = 0 := by
    intro m
    unfold fAt
    have e : ((-((M + 1 : ℕ) : ℤ)) % (B.rows : ℤ)).toNat = B.rows / 2 := by
      rw [show (-((M + 1 : ℕ) : ℤ)) = ((M + 1 : ℕ) : ℤ) + B.rows * (-1) by rw [hM]; push_cast; ring, Int.add_mul_emod_self_left,
        Int.emod_eq_of_lt (by omega) (by omega)]
      omega
    rw [e]
    exact hnyq _ (slot_lt' (by omega) _)
  set f : ℤ → ℤ → ℂ := fun m ν => fAt B m ν with hf
  have col : ∀ j < B.cols, ∀ θ : ℝ, ∑ ν ∈ Ico (-((M + 1 : ℕ) : ℤ)) (M + 1 : ℕ), f j ν * Complex.exp (ν * (θ * Complex.I)) =
      trigSum (M + 1) (f j) θ := by
    intro j _ θ
    rw [Ico_to_Ioo (M + 1) fun ν => f j ν * Complex.exp (ν * (θ * Complex.I))]
    · rfl
    · simp only [hf, nyq]; rw [zero_mul]
  have four : ∀ θ φ : ℝ, fourierFn B θ φ = ∑ j ∈ range B.cols, trigSum (M + 1) (f j) θ * Complex.exp (freqOf B.cols j * (φ * Complex.I)) := by
    intro θ φ
    rw [fourierFn_eq B (M + 1) hM]
    refine sum_congr rfl fun j hj => ?_
    rw [← col j (mem_range.mp hj) θ]
  have z0 : ∀ j < B.cols, trigSum (M + 1) (f j) 0 = 0 := cols_zero B.cols (fun j => trigSum (M + 1) (f j) 0) fun φ => by rw [← four]; exact h0 φ
  have zπ : ∀ j < B.cols, trigSum (M + 1) (f j) Real.pi = 0 :=
    cols_zero B.cols (fun j => trigSum (M + 1) (f j) Real.pi) fun φ => by rw [← four]; exact hπ φ
  have fper : ∀ m ν, f m ν = f ((m % B.cols).toNat : ℤ) ν := by
    intro m ν
    simp only [hf, fAt]
    rw [Int.toNat_of_nonneg (Int.emod_nonneg _ (by omega)), Int.emod_emod_of_dvd _ (dvd_refl _)]
  have par : ∀ m : ℤ, ∀ p : ℤ, ∑ k ∈ Ioo (-((M + 1 : ℕ) : ℤ)) (M + 1 : ℕ), (if (k - p) % 2 = 0 then f m k else 0) = 0 := by
    intro m p
    have hj := slot_lt' (by omega : 0 < B.cols) m
    have a1 := z0 _ hj
    have a2 := zπ _ hj
    unfold trigSum at a1 a2
    have b1 : ∑ k ∈ Ioo (-((M + 1 : ℕ) : ℤ)) (M + 1 : ℕ), f m k = 0 := by
      rw [← a1]
      refine sum_congr rfl fun k _ => ?_
      rw [← fper]; simp
    have b2 : ∑ k ∈ Ioo (-((M + 1 : ℕ) : ℤ)) (M + 1 : ℕ), f m k * (if k % 2 = 0 then 1 else -1) = 0 := by
      rw [← a2]
      refine sum_congr rfl fun k _ => ?_
      rw [← fper]
      congr 1
      rw [Complex.exp_int_mul, Complex.exp_pi_mul_I]
      split
      · rename_i hk
        rw [Even.neg_one_zpow (Int.even_iff.mpr hk)]
      · rw [Odd.neg_one_zpow (Int.odd_iff.mpr (by omega))]
    have : ∀ k ∈ Ioo (-((M + 1 : ℕ) : ℤ)) (M + 1 : ℕ), (if (k - p) % 2 = 0 then f m k else 0) =
        1 / 2 * f m k + (if p % 2 = 0 then 1 else -1) / 2 * (f m k * (if k % 2 = 0 then 1 else -1)) := by
      intro k _
      split <;> split <;> split <;> first | (exfalso; omega) | ring
    rw [sum_congr rfl this, sum_add_distrib, ← mul_sum, ← mul_sum, b1, b2]
    ring
  set h : ℤ → ℤ → ℂ := fun m ν => 2 * Complex.I * ∑ k ∈ Ioo (-((M + 1 : ℕ) : ℤ)) (M + 1 : ℕ), if ν < k ∧ (k - (ν + 1)) % 2 = 0 then f m k else 0 with hh
  have hsup : ∀ m ν : ℤ, ((M + 1 : ℕ) : ℤ) - 1 ≤ |ν| → h m ν = 0 := by
    intro m ν hν
    rw [le_abs] at hν
    simp only [hh]
    rcases hν with hν | hν
    · rw [sum_eq_zero, mul_zero]
      intro k hk
      rw [mem_Ioo] at hk
      rw [if_neg (by omega)]
    · refine mul_eq_zero_of_right _ (Eq.trans (sum_congr rfl fun k hk => ?_) (par m (ν + 1)))
      rw [mem_Ioo] at hk
      by_cases hp : (k - (ν + 1)) % 2 = 0
      · rw [if_pos ⟨by omega, hp⟩, if_pos hp]
      · rw [if_neg (fun h => hp h.2), if_neg hp]
  have hrec : ∀ m ν : ℤ, |ν| ≤ ((M + 1 : ℕ) : ℤ) - 1 → h m (ν - 1) - h m (ν + 1) = 2 * Complex.I * fAt B m ν := by
    intro m ν hν
    rw [abs_le] at hν
    simp only [hh]
    rw [← mul_sub, ← sum_sub_distrib]
    congr 1
    rw [sum_eq_single ν]
    · rw [if_pos (by constructor <;> omega), if_neg (by omega), sub_zero]
    · intro k _ hk
      by_cases hp : ν + 1 < k ∧ (k - (ν + 1 + 1)) % 2 = 0
      · rw [if_pos hp, if_pos (by constructor <;> omega), sub_self]
      · rw [if_neg hp, if_neg (by omega), sub_self]
    · intro hn
      exact absurd (mem_Ioo.mpr (by constructor <;> omega)) hn
  obtain ⟨G, eG, g1, g2, g3⟩ := divsinFc_spec B (M + 1) hM (by omega) (by omega) h hsup hrec
  refine ⟨G, eG, g1, g2, ?_, fun θ φ => ?_⟩
  · intro i j hi hj hij
    rw [g1] at hi hij
    rw [g2] at hj
    have e := g3 j (freqOf B.rows i) (by rw [hM]; unfold freqOf; rw [abs_le]; split <;> push_cast <;> omega)
    rw [hsup _ _ (by omega)] at e
    rw [← e]
    unfold fAt
    rw [g1, g2, Int.emod_eq_of_lt (a := (j : ℤ)) (by omega) (by omega), Int.toNat_natCast]
    congr 1
    unfold freqOf
    split
    · rw [Int.emod_eq_of_lt (by omega) (by omega)]; omega
    · rw [show (i : ℤ) - B.rows = i + B.rows * (-1) by ring, Int.add_mul_emod_self_left, Int.emod_eq_of_lt (by omega) (by omega)]; omega
  · rw [four, fourierFn_eq G (M + 1) (by omega), g2, mul_sum]
    refine sum_congr rfl fun j _ => ?_
    have key := trigSum_sin M (h j) (fun ν hν => hsup j ν (by push_cast; omega)) θ
    have e1 : ∑ ν ∈ Ico (-((M + 1 : ℕ) : ℤ)) (M + 1 : ℕ), fAt G j ν * Complex.exp (ν * (θ * Complex.I)) = trigSum M (h j) θ := by
      unfold trigSum
      symm
      have e : ∀ ν ∈ Ico (-((M + 1 : ℕ) : ℤ)) (M + 1 : ℕ), fAt G j ν * Complex.exp (ν * (θ * Complex.I)) = h j ν * Complex.exp (ν * (θ * Complex.I)) := by
        intro ν hν
        rw [g3 j ν (by rw [mem_Ico] at hν; rw [abs_le]; omega)]
      rw [sum_congr rfl e]
      refine sum_subset (fun ν hν => by rw [mem_Ioo] at hν; rw [mem_Ico]; omega) fun ν _ h2 => ?_
      rw [hsup j ν (by rw [mem_Ioo, not_and_or] at h2; rw [le_abs]; push_cast; omega), zero_mul]
    have e2 : trigSum (M + 1) (fun ν => (h j (ν - 1) - h j (ν + 1)) / (2 * Complex.I)) θ = trigSum (M + 1) (f j) θ := by
      unfold trigSum
      refine sum_congr rfl fun ν hν => ?_
      rw [mem_Ioo] at hν
      simp only
      rw [hrec j ν (by rw [abs_le]; omega), mul_div_cancel_left₀ _ (mul_ne_zero two_ne_zero Complex.I_ne_zero)]
    rw [e1, ← e2, key]
    ring

theorem fourierFn_map (A : Arr2 ℂ) (c : ℂ) (θ φ : ℝ) : fourierFn (A.map fun x => c * x) θ φ = c * fourierFn A θ φ := by
  unfold fourierFn
  rw [mul_sum]
  refine sum_congr rfl fun i hi => ?_
  rw [mul_sum]
  refine sum_congr rfl fun j hj => ?_
  have : (A.map fun x => c * x).at' i j = c * A.at' i j := Arr2.at'_map _ _ (mem_range.mp hi) (mem_range.mp hj)
  rw [this]
  simp only [show (A.map fun x => c * x).rows = A.rows from rfl, show (A.map fun x => c * x).cols = A.cols from rfl]
  ring

theorem fourierFn_zip (A B : Arr2 ℂ) (h1 : B.rows = A.rows) (h2 : B.cols = A.cols) (θ φ : ℝ) :
    fourierFn (A.zip (fun a b => Complex.I * (a - b)) B) θ φ = Complex.I * (fourierFn A θ φ - fourierFn B θ φ) := by
  unfold fourierFn
  simp only [show (A.zip (fun a b => Complex.I * (a - b)) B).rows = A.rows from rfl, show (A.zip (fun a b => Complex.I * (a - b)) B).cols = A.cols from rfl]
  rw [h1, h2, ← sum_sub_distrib, mul_sum]
  refine sum_congr rfl fun i hi => ?_
  rw [← sum_sub_distrib, mul_sum]
  refine sum_congr rfl fun j hj => ?_
  have : (A.zip (fun a b => Complex.I * (a - b)) B).at' i j = Complex.I * (A.at' i j - B.at' i j) := Arr2.at'_ofFn (mem_range.mp hi) (mem_range.mp hj)
  rw [this]
  ring

/-- C41: `sinLdot_fc(t, p)` is `i (∂t/∂φ - ∂(sin θ p)/∂θ)`. -/
theorem c41_sinLdot (T P : Arr2 ℂ) (hr : P.rows = T.rows) (hcol : P.cols = T.cols) (hR : P.rows % 2 = 0) (hR4 : 4 ≤ P.rows)
    (hC : T.cols % 2 = 0) (hb : ThetaBand P) :
    ∃ G, sinLdotFc T P = .ok G ∧ G.rows = T.rows ∧ G.cols = T.cols ∧ ∀ θ φ : ℝ, ∃ dt dp : ℂ,
      HasDerivAt (fun φ => fourierFn T θ φ) dt φ ∧ HasDerivAt (fun θ : ℝ => Real.sin θ * fourierFn P θ φ) dp θ ∧
      fourierFn G θ φ = Complex.I * (dt - dp) := by
  obtain ⟨t, et, t1, t2, t3⟩ := c41_dphi T hC
  obtain ⟨s, es, s1, s2, s3⟩ := c41_sin P hR hR4 hb
  obtain ⟨d, ed, d1, d2, d3⟩ := c41_dtheta s (by omega)
  refine ⟨t.zip (fun a b => Complex.I * (a - b)) d, ?_, t1, t2, fun θ φ => ⟨fourierFn t θ φ, fourierFn d θ φ, t3 θ φ, ?_, fourierFn_zip _ _ (by omega) (by omega) _ _⟩⟩
  · unfold sinLdotFc
    rw [et, es]
    simp only [Except.bind_ok]
    rw [ed]
    rfl
  · simpa only [s3] using d3 θ φ

/-- C41: `L_fc(f)` is the pair `(i/sin θ ∂f/∂φ, -i ∂f/∂θ)`. -/
theorem c41_L (F : Arr2 ℂ) (hR : F.rows % 2 = 0) (hR2 : 2 ≤ F.rows) (hC : F.cols % 2 = 0)
    (hnyq : ∀ j < F.cols, F.at' (F.rows / 2) j = 0)
    (h0 : ∀ φ φ', fourierFn F 0 φ = fourierFn F 0 φ') (hπ : ∀ φ φ', fourierFn F Real.pi φ = fourierFn F Real.pi φ') :
    ∃ G, lFc F = .ok G ∧ ∀ θ φ : ℝ, ∃ dφ dθ : ℂ,
      HasDerivAt (fun φ => fourierFn F θ φ) dφ φ ∧ HasDerivAt (fun θ => fourierFn F θ φ) dθ θ ∧
      Real.sin θ * fourierFn G.1 θ φ = Complex.I * dφ ∧ fourierFn G.2 θ φ = -Complex.I * dθ := by
  obtain ⟨a, ea, a1, a2, a3⟩ := c41_dphi F hC
  have const0 : ∀ θ : ℝ, (∀ φ φ', fourierFn F θ φ = fourierFn F θ φ') → ∀ φ, fourierFn a θ φ = 0 := by
    intro θ h φ
    have h1 := a3 θ φ
    rw [show (fun φ => fourierFn F θ φ) = fun _ => fourierFn F θ 0 from funext fun φ' => h φ' 0] at h1
    exact h1.unique (hasDerivAt_const φ _)
  have an : ∀ j < a.cols, a.at' (a.rows / 2) j = 0 := by
    intro j hj
    have : dphiFc F = .ok (Arr2.ofFn F.rows F.cols fun i j => Complex.I * (freqList F.cols j : ℂ) * F.at' i j) := by
      unfold dphiFc; rw [if_neg (by omega)]
    rw [ea] at this
    rw [Except.ok.inj this]
    rw [a2] at hj
    have h2 : (F.rows / 2) < F.rows := by omega
    have h3 := Arr2.at'_ofFn (r := F.rows) (c := F.cols) (f := fun i j => Complex.I * (freqList F.cols j : ℂ) * F.at' i j) h2 hj
    rw [hnyq j hj, mul_zero] at h3
    exact h3
  obtain ⟨d, ed, d1, d2, -, d3⟩ := c41_divsin a (by omega) (by omega) an (const0 0 h0) (const0 _ hπ)
  obtain ⟨b, eb, b1, b2, b3⟩ := c41_dtheta F hR
  refine ⟨(d.map fun x => Complex.I * x, b.map fun x => -Complex.I * x), ?_, fun θ φ => ⟨fourierFn a θ φ, fourierFn b θ φ, a3 θ φ, b3 θ φ, ?_, ?_⟩⟩
  · unfold lFc
    rw [ea]
    simp only [Except.bind_ok]
    rw [ed, eb]
    rfl
  · rw [fourierFn_map, ← d3]; ring
  · rw [fourierFn_map]

/-- C41: `fix_even_row_data_fc` zeroes the Nyquist row and nothing else. -/
theorem c41_fix (A : Arr2 ℂ) (hR : A.rows % 2 = 0) (hR2 : 2 ≤ A.rows) :
    ∃ B, fixEvenRow A = .ok B ∧ B.rows = A.rows ∧ B.cols = A.cols ∧
      ∀ i j, i < A.rows → j < A.cols → B.at' i j = if 2 * i = A.rows then 0 else A.at' i j := by
  unfold fixEvenRow
  rw [if_pos hR, if_neg (by omega)]
  refine ⟨_, rfl, rfl, rfl, fun i j hi hj => ?_⟩
  unfold Arr2.setRow
  rw [Arr2.at'_ofFn hi hj]
  split <;> split <;> first | rfl | omega

/-- C41: `pad_rows_fdata` does not change the function (no Nyquist row, more rows). -/
theorem c41_pad (A : Arr2 ℂ) (Le : ℕ) (hR : A.rows % 2 = 0) (hR2 : 2 ≤ A.rows) (hLe : A.rows ≤ Le) (hL2 : Le % 2 = 0)
    (hnyq : ∀ j < A.cols, A.at' (A.rows / 2) j = 0) :
    ∃ B, padRows A Le = .ok B ∧ B.rows = Le ∧ B.cols = A.cols ∧ ∀ θ φ, fourierFn B θ φ = fourierFn A θ φ := by
  unfold padRows
  rw [if_neg (by omega)]
  simp only
  rw [if_neg (by omega)]
  refine ⟨_, rfl, rfl, rfl, fun θ φ => ?_⟩
  unfold fourierFn
  simp only [Arr2.rows_ofFn, Arr2.cols_ofFn]
  rw [sum_comm, sum_comm (s := range A.rows)]
  refine sum_congr rfl fun j hj => ?_
  rw [← sum_mul, ← sum_mul]
  congr 1
  rw [mem_range] at hj
  obtain ⟨M, hM⟩ : ∃ M, A.rows = 2 * M := ⟨A.rows / 2, by omega⟩
  obtain ⟨K, hK⟩ : ∃ K, Le = 2 * M + 2 * K := ⟨(Le - 2 * M) / 2, by omega⟩
  have split3 : ∀ X : ℕ → ℂ, (∀ i, M ≤ i → i < M + 2 * K + 1 → X i = 0) →
      ∑ i ∈ range Le, X i = ∑ i ∈ range M, X i + ∑ i ∈ range (M - 1), X (M + 2 * K + 1 + i) := by
    intro X hX
    rw [show Le = (M + (2 * K + 1)) + (M - 1) by omega, sum_range_add, sum_range_add]
    rw [sum_eq_zero (s := range (2 * K + 1)) fun i hi => hX _ (by omega) (by rw [mem_range] at hi; omega), add_zero]
    rfl
  have split2 : ∀ X : ℕ → ℂ, X M = 0 → ∑ i ∈ range A.rows, X i = ∑ i ∈ range M, X i + ∑ i ∈ range (M - 1), X (M + 1 + i) := by
    intro X hX
    rw [show A.rows = (M + 1) + (M - 1) by omega, sum_range_add, sum_range_succ, hX, add_zero]
  rw [split3, split2]
  · congr 1
    · refine sum_congr rfl fun i hi => ?_
      rw [mem_range] at hi
      rw [Arr2.at'_ofFn (by omega) hj, if_pos (by omega)]
      unfold freqOf
      rw [if_pos (by omega), if_pos (by omega)]
    · refine sum_congr rfl fun i hi => ?_
      rw [mem_range] at hi
      rw [Arr2.at'_ofFn (by omega) hj, if_neg (by omega), if_pos (by omega)]
      unfold freqOf
      rw [if_neg (by omega), if_neg (by omega), show M + 2 * K + 1 + i + A.rows - Le = M + 1 + i by omega]
      rw [show ((M + 2 * K + 1 + i : ℕ) : ℤ) - Le = ((M + 1 + i : ℕ) : ℤ) - A.rows by push_cast [hK, hM]; ring]
  · have := hnyq j hj
    rw [show A.rows / 2 = M by omega] at this
    rw [this, zero_mul]
  · intro i h1 h2
    rw [Arr2.at'_ofFn (by omega) hj, if_neg (by omega), if_neg (by omega), zero_mul]

/-- Witness for `c41_sin`, `c41_divsin_sin`: data with every in-band entry nonzero. -/
example : let A : Arr2 ℂ := Arr2.ofFn 6 2 fun i j => if i = 0 ∨ i = 1 ∨ i = 5 then (i + 2 * j + 1 : ℂ) else 0
    A.rows % 2 = 0 ∧ 4 ≤ A.rows ∧ ThetaBand A ∧ A.at' 1 1 ≠ 0 := by
  refine ⟨rfl, by decide, fun i j hi hj hij => ?_, ?_⟩
  · change i < 6 at hi
    change j < 2 at hj
    change ((6 : ℕ) : ℤ) / 2 - 1 ≤ |freqOf 6 i| at hij
    rw [Arr2.at'_ofFn hi hj, if_neg]
    rintro (rfl | rfl | rfl) <;> revert hij <;> decide
  · rw [Arr2.at'_ofFn (by norm_num) (by norm_num)]
    norm_num

/-- Witness for `c41_divsin`: `sin θ` itself, one column. -/
example : let B : Arr2 ℂ := Arr2.ofFn 4 1 fun i _ => if i = 1 then 1 else if i = 3 then -1 else 0
    B.rows % 2 = 0 ∧ (∀ j < B.cols, B.at' (B.rows / 2) j = 0) ∧ (∀ φ, fourierFn B 0 φ = 0) ∧ ∀ φ, fourierFn B Real.pi φ = 0 := by
  have key : ∀ θ φ : ℝ, fourierFn (Arr2.ofFn 4 1 fun i _ => if i = 1 then (1 : ℂ) else if i = 3 then -1 else 0) θ φ =
      Complex.exp (θ * Complex.I) - Complex.exp (-(θ * Complex.I)) := by
    intro θ φ
    unfold fourierFn
    simp [sum_range_succ, Arr2.at'_ofFn, freqOf]
    ring
  refine ⟨rfl, fun j hj => ?_, fun φ => ?_, fun φ => ?_⟩
  · change j < 1 at hj
    exact Arr2.at'_ofFn (by norm_num) hj
  · rw [key]; simp
  · rw [key, Complex.exp_neg, Complex.exp_pi_mul_I]; norm_num

end Verif.Props
