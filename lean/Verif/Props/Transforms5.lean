import Verif.Props.Transforms4
/-!
# Property C36 continued: what `ispht` returns when `nrows = nmax + 1`
-/
namespace Verif.Props
open Verif Finset

/-- The leading Fourier coefficient of the θ-part of `Y_nm`, up to a power of `i`:
`sqrt((2n+1)/(4π) (n-|m|)!/(n+|m|)!) (2n)! / (4^n n! (n-|m|)!)`. -/
noncomputable def leadY (n : ℕ) (m : ℤ) : ℝ :=
  normSH n m.natAbs * ((2 * n).factorial / (4 ^ n * n.factorial * (n - m.natAbs).factorial))

theorem leadY_pos (n : ℕ) (m : ℤ) : 0 < leadY n m := by
  unfold leadY normSH
  have := Real.pi_pos
  positivity

theorem fAt_tight {spvec : List ℂ} {nmax mmax c : ℕ} {A : Arr2 ℂ} (h : IsSynth spvec nmax mmax (2 * nmax) c A)
    (h1 : 1 ≤ nmax) (hc : 2 * mmax + 2 ≤ c) (m ν : ℤ) (hν : -(nmax : ℤ) < ν) (hν' : ν ≤ nmax) (hm : 2 * m.natAbs ≤ c) :
    fAt A m ν = if m.natAbs ≤ mmax then Gval (cfOf spvec nmax) nmax m ν else 0 := by
  unfold Verif.fAt
  rw [h.rows, h.cols]
  split
  · rename_i hmm
    rw [h.val m _ hmm (slot_lt' (by omega) _), wrap_mod (by omega) (by omega)]
    unfold colEntry
    rw [if_pos (show 2 * nmax % 2 = 0 by omega)]
    by_cases hneg : ν < 0
    · rw [if_pos hneg, if_pos (by omega)]
      congr 1; omega
    · rw [if_neg hneg, if_neg (by omega)]
      congr 1; omega
  · rename_i hmm
    rw [wrap_mod (Q := c) (by omega) (by omega)]
    split
    · exact h.zero _ _ (by omega) (by omega)
    · exact h.zero _ _ (by omega) (by omega)

theorem Gval_low (v : ℤ → ℕ → ℂ) (n : ℕ) (m : ℤ) (h : m.natAbs ≤ n) :
    Gval v n m (-(n : ℤ)) = Complex.I ^ (-m) * (v m n * leadY n m) := by
  rw [Gval_symm]
  unfold Gval
  rw [sum_eq_single n]
  · rw [ycoef_lead n m h, ynnm_eq n m h, ← mul_assoc]
    unfold leadY
    congr 1
    rw [show (-1 : ℂ) = Complex.I ^ (-2 : ℤ) by
      rw [zpow_neg, show (2 : ℤ) = ((2 : ℕ) : ℤ) from rfl, zpow_natCast, Complex.I_sq]; norm_num, ← zpow_mul, ← zpow_add₀ Complex.I_ne_zero]
    congr 1; ring
  · intro k hk hne
    have := mem_Icc.mp hk
    rw [ycoef_support k m n (by rw [abs_of_nonneg (by omega)]; omega), mul_zero]
  · intro hn
    exact absurd (mem_Icc.mpr ⟨h, le_refl _⟩) hn

theorem root_nyq (n i : ℕ) (h : 1 ≤ n) : root (2 * n) (i * (-(n : ℤ))) = (-1) ^ i := by
  have hn : (n : ℂ) ≠ 0 := by exact_mod_cast (show n ≠ 0 by omega)
  have e : root (2 * n) (-(n : ℤ)) = -1 := by
    unfold root
    rw [show (2 * Real.pi * Complex.I * ((-(n : ℤ) : ℤ) : ℂ) / ((2 * n : ℕ) : ℂ)) = -(Real.pi * Complex.I) by
      push_cast; field_simp, Complex.exp_neg, Complex.exp_pi_mul_I]
    norm_num
  rw [mul_comm (i : ℤ), root_mul, zpow_natCast, e]

theorem synth_tight {c : ScalarCoefs ℂ} (h : c.WF) {nmax mmax k : ℕ} (hn : c.nmax = nmax) (hm : c.mmax = mmax)
    {A : Arr2 ℂ} (hA : IsSynth c.vec nmax mmax (2 * nmax) k A) (h1 : 1 ≤ nmax) (hmn : mmax ≤ nmax) (hc : 2 * mmax + 2 ≤ k) {i j : ℕ} :
    ∑ ν ∈ Ioc (-((2 * nmax - 1) / 2 : ℕ) - 1 : ℤ) ((2 * nmax / 2 : ℕ) : ℤ), ∑ m ∈ Ioc (-((k - 1) / 2 : ℕ) - 1 : ℤ) ((k / 2 : ℕ) : ℤ),
          fAt A m ν * root (2 * nmax) (i * ν) * root k (j * m) =
      (∑ p ∈ modes c.nmax c.mmax, c.cf p.1 p.2 * sphY p.1.toNat p.2 (2 * Real.pi * i / (2 * nmax : ℕ)) (2 * Real.pi * j / k)) -
        (-1) ^ i * ∑ m ∈ Icc (-(mmax : ℤ)) mmax, Complex.I ^ (-m) * (c.cf nmax m * leadY nmax m) * root k (j * m) := by
  set r := 2 * nmax with hr
  have hset : Ioc (-((r - 1) / 2 : ℕ) - 1 : ℤ) ((r / 2 : ℕ) : ℤ) = Ioc (-(nmax : ℤ)) nmax := by
    ext; simp only [mem_Ioc]; omega
  rw [hset, hn, hm, sum_modes nmax mmax (fun n m => c.cf n m * sphY n.toNat m (2 * Real.pi * i / r) (2 * Real.pi * j / k)), sum_comm,
    mul_sum, ← sum_sub_distrib]
  have e : ∀ m ∈ Ioc (-((k - 1) / 2 : ℕ) - 1 : ℤ) ((k / 2 : ℕ) : ℤ),
      ∑ ν ∈ Ioc (-(nmax : ℤ)) nmax, fAt A m ν * root r (i * ν) * root k (j * m) =
      if m ∈ Icc (-(mmax : ℤ)) mmax then (∑ n ∈ Icc m.natAbs nmax, c.cf n m * sphY n m (2 * Real.pi * i / r) (2 * Real.pi * j / k)) -
        (-1) ^ i * (Complex.I ^ (-m) * (c.cf nmax m * leadY nmax m) * root k (j * m)) else 0 := by
    intro m hmm
    rw [mem_Ioc] at hmm
    rw [← sum_mul]
    have hf : ∀ ν ∈ Ioc (-(nmax : ℤ)) nmax, fAt A m ν * root r (i * ν) =
        (if m.natAbs ≤ mmax then Gval (cfOf c.vec nmax) nmax m ν else 0) * root r (i * ν) := by
      intro ν hν
      rw [mem_Ioc] at hν
      rw [fAt_tight hA h1 hc m ν hν.1 hν.2 (by omega)]
    rw [sum_congr rfl hf]
    by_cases hmo : m.natAbs ≤ mmax
    · simp only [if_pos hmo]
      rw [if_pos (by rw [mem_Icc]; omega)]
      have hfull : ∑ ν ∈ Icc (-(nmax : ℤ)) nmax, Gval (cfOf c.vec nmax) nmax m ν * root r (i * ν) =
          ∑ n ∈ Icc m.natAbs nmax, cfOf c.vec nmax m n * (thetaPart n m (2 * Real.pi * i / r) : ℂ) := by
        simp only [root_exp]
        rw [Gval_sum _ _ _ _ _ (by
          intro k hk
          rw [mem_Icc, not_and_or] at hk
          rw [lt_abs]; omega)]
      have hsplit : ∑ ν ∈ Icc (-(nmax : ℤ)) nmax, Gval (cfOf c.vec nmax) nmax m ν * root r (i * ν) =
          Gval (cfOf c.vec nmax) nmax m (-(nmax : ℤ)) * root r (i * (-(nmax : ℤ))) +
          ∑ ν ∈ Ioc (-(nmax : ℤ)) nmax, Gval (cfOf c.vec nmax) nmax m ν * root r (i * ν) := by
        rw [Finset.Icc_eq_cons_Ioc (by omega), sum_cons]
      rw [Gval_low _ _ _ (by omega), hr, root_nyq _ _ h1, ← hr, hfull, cfOf_eq h hn hm (by omega) (le_refl _) hmo] at hsplit
      rw [eq_comm, sub_eq_iff_eq_add]
      have hsum : ∑ n ∈ Icc m.natAbs nmax, c.cf n m * sphY n m (2 * Real.pi * i / r) (2 * Real.pi * j / k) =
          (∑ n ∈ Icc m.natAbs nmax, cfOf c.vec nmax m n * (thetaPart n m (2 * Real.pi * i / r) : ℂ)) * root k (j * m) := by
        rw [sum_mul]
        refine sum_congr rfl fun n hnn => ?_
        have := mem_Icc.mp hnn
        rw [cfOf_eq h hn hm (by omega) (by omega) hmo, root_exp]
        unfold sphY
        push_cast
        ring
      rw [hsum, hsplit]
      ring
    · simp only [if_neg hmo]
      rw [if_neg (by rw [mem_Icc]; omega)]
      simp
  rw [sum_congr rfl e, ← sum_filter]
  refine sum_congr ?_ fun m _ => ?_
  · ext m
    rw [mem_filter, mem_Ioc, mem_Icc]; omega
  · congr 1

/-- C36, what is returned instead of an error: for `nrows = nmax + 1` the pattern of the series *minus* the highest
colatitude frequency of its top-degree part, alternating in sign from row to row. -/
theorem c36_actual (b : Backend) (c : ScalarCoefs ℂ) (hc : c.WellFormed) (v : ℤ → ℤ → ℂ) (hv : HasCoefs c v) (h1 : 1 ≤ c.nmax) (nc : ℤ)
    (h2 : 2 * c.mmax + 2 ≤ nc) (h3 : nc % 2 = 0) :
    ∃ p A, ispht b c (some (c.nmax + 1)) (some nc) = .ok p ∧ p.array = .ok A ∧ A.rows = c.nmax + 1 ∧ A.cols = nc ∧
      ∀ i j : ℕ, i < A.rows → j < A.cols →
        A.at' i j = shSeries c.nmax c.mmax v (Real.pi * i / c.nmax) (2 * Real.pi * j / nc) -
          (-1) ^ i * ∑ m ∈ Icc (-c.mmax) c.mmax, Complex.I ^ (-m) * (v c.nmax m * leadY c.nmax.toNat m) *
            Complex.exp (m * ((2 * Real.pi * j / nc : ℝ) * Complex.I)) := by
  have hw := hc.wf
  have hm0 := hw.m0
  have hmn := hw.mn
  obtain ⟨n, hn⟩ := Int.eq_ofNat_of_zero_le (show 0 ≤ c.nmax by omega)
  obtain ⟨m, hm⟩ := Int.eq_ofNat_of_zero_le hm0
  obtain ⟨k, rfl⟩ := Int.eq_ofNat_of_zero_le (show 0 ≤ nc by omega)
  have hlen : c.vec.length = seg (n + 1) (2 * m + 1) := by
    have := hw.len
    have e := ncFormula_eq (nmax := n) (mmax := m) (by omega) (by omega)
    rw [hn, hm, e, show ((n : ℤ) + 1).toNat = n + 1 by omega, Int.toNat_natCast] at this
    exact_mod_cast this
  obtain ⟨A, eA, hA⟩ := scToFc_backend b 0 c.vec n m (2 * n) k (by omega) (by omega) (by omega) hlen
  obtain ⟨D, eD, hDr, hDc, hDv, -⟩ := invFourier_spec A (2 * n) k hA.rows hA.cols (by omega) (by omega)
  have hrow : D.rows / 2 + 1 = n + 1 := by omega
  refine ⟨⟨.arr D⟩, D.takeRows (D.rows / 2 + 1), ?_, rfl, ?_, ?_, ?_⟩
  · unfold ispht
    simp only [Option.getD_some]
    rw [isphtGuards_ok _ _ _ _ (by omega) (by omega) (by omega)]
    simp only [Except.bind_ok]
    rw [hn, hm, show 2 * ((n : ℤ) + 1) - 2 = ((2 * n : ℕ) : ℤ) by omega, eA]
    simp only [Except.bind_ok]
    rw [eD]
    rfl
  · show ((min (D.rows / 2 + 1) D.rows : ℕ) : ℤ) = _
    omega
  · exact_mod_cast hDc
  · intro i j hi hj
    have hi' : i < min (D.rows / 2 + 1) D.rows := hi
    have hj' : j < D.cols := hj
    have hn0 : (n : ℝ) ≠ 0 := by exact_mod_cast (show n ≠ 0 by omega)
    unfold Arr2.takeRows
    rw [Arr2.at'_ofFn hi' hj', hDv i j (by omega) (by omega), synth_tight hw hn hm hA (by omega) (by omega) (by omega), hv.series hc]
    congr 1
    · congr 1
      rw [hn]; push_cast; field_simp
    · congr 1
      rw [hm]
      refine sum_congr rfl fun μ hμ => ?_
      rw [mem_Icc] at hμ
      have hmo : IsMode c.nmax c.mmax n μ := ⟨by omega, by omega, by rw [abs_le]; omega, by rw [abs_le]; omega⟩
      rw [hv.cf hc hmo, root_exp, hn]
      rfl

/-- C36: the pattern returned for `nrows = nmax + 1` is the series the coefficients describe exactly when the top-degree
coefficients all vanish. -/
theorem c36_correct_iff (b : Backend) (c : ScalarCoefs ℂ) (hc : c.WellFormed) (v : ℤ → ℤ → ℂ) (hv : HasCoefs c v) (h1 : 1 ≤ c.nmax) (nc : ℤ)
    (h2 : 2 * c.mmax + 2 ≤ nc) (h3 : nc % 2 = 0) :
    ∃ p A, ispht b c (some (c.nmax + 1)) (some nc) = .ok p ∧ p.array = .ok A ∧
      ((∀ i j : ℕ, i < A.rows → j < A.cols →
        A.at' i j = shSeries c.nmax c.mmax v (Real.pi * i / c.nmax) (2 * Real.pi * j / nc)) ↔
        ∀ m, |m| ≤ c.mmax → v c.nmax m = 0) := by
  obtain ⟨p, A, e, hA, hr, hk, hval⟩ := c36_actual b c hc v hv h1 nc h2 h3
  refine ⟨p, A, e, hA, ?_⟩
  have hm0 := hc.wf.m0
  constructor
  · intro h m hm
    rw [abs_le] at hm
    have hz : ∀ j ∈ range A.cols, ∑ m ∈ Icc (-c.mmax) c.mmax, Complex.I ^ (-m) * (v c.nmax m * leadY c.nmax.toNat m) * root A.cols (m * j) = 0 := by
      intro j hj
      have h1 := h 0 j (by omega) (mem_range.mp hj)
      rw [hval 0 j (by omega) (mem_range.mp hj), pow_zero, one_mul, sub_eq_self] at h1
      rw [← h1]
      refine sum_congr rfl fun μ _ => ?_
      rw [mul_comm μ, root_exp, ← hk]
      push_cast; rfl
    have hs : ∑ j ∈ range A.cols, root A.cols (-m * j) *
        ∑ μ ∈ Icc (-c.mmax) c.mmax, Complex.I ^ (-μ) * (v c.nmax μ * leadY c.nmax.toNat μ) * root A.cols (μ * j) = 0 :=
      sum_eq_zero fun j hj => by rw [hz j hj, mul_zero]
    simp only [mul_sum] at hs
    rw [sum_comm] at hs
    have hin : ∀ μ ∈ Icc (-c.mmax) c.mmax, ∑ j ∈ range A.cols, root A.cols (-m * j) *
        (Complex.I ^ (-μ) * (v c.nmax μ * leadY c.nmax.toNat μ) * root A.cols (μ * j)) =
        if μ = m then Complex.I ^ (-μ) * (v c.nmax μ * leadY c.nmax.toNat μ) * A.cols else 0 := by
      intro μ hμ
      rw [mem_Icc] at hμ
      have : ∀ j ∈ range A.cols, root A.cols (-m * j) *
        (Complex.I ^ (-μ) * (v c.nmax μ * leadY c.nmax.toNat μ) * root A.cols (μ * j)) =
        Complex.I ^ (-μ) * (v c.nmax μ * leadY c.nmax.toNat μ) * root A.cols ((μ - m) * j) := by
        intro j _
        rw [show (μ - m) * (j : ℤ) = -m * j + μ * j by ring, root_add]; ring
      rw [sum_congr rfl this, ← mul_sum, sum_root (by omega)]
      by_cases hμm : μ = m
      · rw [if_pos hμm, if_pos (by rw [hμm, sub_self]; exact dvd_zero _)]
      · rw [if_neg hμm, if_neg, mul_zero]
        intro hd
        have := Int.eq_zero_of_abs_lt_dvd hd (by rw [abs_lt]; omega)
        omega
    rw [sum_congr rfl hin, sum_ite_eq', if_pos (mem_Icc.mpr hm)] at hs
    have hk0 : (A.cols : ℂ) ≠ 0 := by exact_mod_cast (show A.cols ≠ 0 by omega)
    have hl : ((leadY c.nmax.toNat m : ℝ) : ℂ) ≠ 0 := by exact_mod_cast (leadY_pos _ _).ne'
    have hI := zpow_ne_zero m Complex.I_ne_zero
    simpa [hk0, hl, hI] using hs
  · intro h i j hi hj
    rw [hval i j hi hj, sum_eq_zero, mul_zero, sub_zero]
    intro μ hμ
    rw [mem_Icc] at hμ
    rw [h μ (abs_le.mpr hμ)]; simp

/-- The hypotheses of `c36_actual` and `c36_correct_iff` are met by the single harmonic `Y_10`, whose pattern is wrong. -/
example (b : Backend) : ∃ p A, ispht b ⟨[0, 1], 1, 0⟩ (some 2) (some 2) = .ok p ∧ p.array = .ok A ∧
    ¬ ∀ i j : ℕ, i < A.rows → j < A.cols → A.at' i j =
      shSeries 1 0 (fun n _ => if n = 1 then 1 else 0) (Real.pi * i / (1 : ℤ)) (2 * Real.pi * j / (2 : ℤ)) := by
  have hc : (⟨[0, 1], 1, 0⟩ : ScalarCoefs ℂ).WellFormed := by refine ⟨?_, ?_, ?_⟩ <;> first | (simp; done) | decide
  obtain ⟨p, A, e, hA, hiff⟩ := c36_correct_iff b ⟨[0, 1], 1, 0⟩ hc (fun n _ => if n = 1 then 1 else 0) (by
    intro n m hm
    obtain ⟨h0, h1, h2, h3⟩ := hm
    have hm0 : m = 0 := by simpa using h3
    subst hm0
    have h1' : n ≤ 1 := h1
    rcases (show n = 0 ∨ n = 1 by omega) with rfl | rfl <;> rfl) (by norm_num) 2 (by norm_num) (by norm_num)
  refine ⟨p, A, e, hA, fun h => ?_⟩
  have := hiff.mp h 0 (by simp)
  simp at this

end Verif.Props
