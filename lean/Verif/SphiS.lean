import Verif.SphiSeg
/-!
# `sc_to_fc` in closed form
-/
namespace Verif
open Finset

/-- Fourier coefficient `k` of column `m` synthesised from coefficients `v m n`. -/
noncomputable def Gval (v : ℤ → ℕ → ℂ) (nmax : ℕ) (m k : ℤ) : ℂ :=
  Complex.I ^ m * ∑ n ∈ Icc m.natAbs nmax, v m n * ycoef n m k

/-- The coefficient of mode `(n, m)` in the vector. -/
noncomputable def cfOf (spvec : List ℂ) (nmax : ℕ) (m : ℤ) (n : ℕ) : ℂ :=
  rd spvec (seg (nmax + 1) (ord m) + (n - m.natAbs))

theorem Gval_symm (v : ℤ → ℕ → ℂ) (nmax : ℕ) (m k : ℤ) : Gval v nmax m (-k) = (-1) ^ m * Gval v nmax m k := by
  unfold Gval
  have h : ((-1 : ℂ)) ^ m.natAbs = (-1) ^ m := by
    rcases Int.natAbs_eq m with h | h
    · conv_rhs => rw [h]
      rw [zpow_natCast]
    · conv_rhs => rw [h]
      rw [zpow_neg, zpow_natCast, ← inv_pow, inv_neg, inv_one]
  rw [mul_sum, mul_sum, mul_sum]
  refine sum_congr rfl fun n _ => ?_
  rw [ycoef_symm, h]; ring

theorem Gval_support (v : ℤ → ℕ → ℂ) (nmax : ℕ) (m k : ℤ) (h : (nmax : ℤ) < |k|) : Gval v nmax m k = 0 := by
  unfold Gval
  rw [sum_eq_zero, mul_zero]
  intro n hn
  have := mem_Icc.mp hn
  rw [ycoef_support n m k (by omega), mul_zero]

theorem rd_map {α β : Type} [Zero α] [Zero β] (g : α → β) (l : List α) (i : ℕ) (hi : i < l.length) : rd (l.map g) i = g (rd l i) := by
  simp [rd, hi]

/-- The entry the symmetry loop leaves at position `i` of a column of length `r`. -/
noncomputable def colEntry (G : ℤ → ℂ) (r i : ℕ) : ℂ :=
  if r - (if r % 2 = 0 then r / 2 - 1 else (r - 1) / 2) ≤ i then G ((i : ℤ) - r) else G i

theorem fcvecMSc_spec (vec : List ℂ) (v : ℤ → ℕ → ℂ) (m : ℤ) (nmax r : ℕ) (hr : nmax + 1 ≤ r) (hm : m.natAbs ≤ nmax)
    (hl : vec.length = nmax - m.natAbs + 1) (hv : ∀ n, m.natAbs ≤ n → n ≤ nmax → rd vec (n - m.natAbs) = v m n) :
    ∃ F, fcvecMSc vec m nmax r = .ok F ∧ F.length = r ∧ ∀ i, i < r → rd F i = colEntry (Gval v nmax m) r i := by
  unfold fcvecMSc
  unfold npFull
  rw [if_neg (by omega)]
  simp only [Except.bind_ok, Int.toNat_natCast]
  have habs : |m| = (m.natAbs : ℤ) := Int.abs_eq_natAbs m
  rw [habs]
  obtain ⟨F, eF, hF⟩ := forM'_range_inv (a := (m.natAbs : ℤ)) (b := (nmax : ℤ) + 1) (by omega)
    (List.replicate r (0 : ℂ)) (fcvecBody vec m nmax)
    (fun k F => F.length = r ∧ ∀ i, i < r → rd F i = ∑ n ∈ Ico m.natAbs k.toNat, v m n * ycoef n m i)
    ⟨by simp, fun i hi => by rw [rd_replicate_zero]; simp⟩
    (by
      intro k F h1 h2 ⟨fl, fr⟩
      obtain ⟨n, rfl⟩ := Int.eq_ofNat_of_zero_le (show 0 ≤ k by omega)
      unfold fcvecBody
      obtain ⟨y, ey, yl, yv⟩ := ynunm_spec n m (nmax + 1) (by omega) (by omega)
      have ey' : ynunm (n : ℤ) m ((nmax : ℤ) + 1) = .ok y := by exact_mod_cast ey
      rw [ey']
      simp only [Except.bind_ok]
      have habs' : (n : ℤ) - |m| = ((n - m.natAbs : ℕ) : ℤ) := by rw [habs]; omega
      rw [habs', getIdx_rd (by omega) (by omega)]
      simp only [Except.bind_ok, Int.toNat_natCast]
      unfold addPrefix
      have hk : clampIdx F.length ((nmax : ℤ) + 1) = nmax + 1 := by
        rw [clampIdx_of_le (by omega) (by omega)]; omega
      simp only [hk]
      rw [if_pos (by simp [yl])]
      refine ⟨_, rfl, by simpa using fl, fun i hi => ?_⟩
      rw [rd_tab (by omega)]
      have e2 : ((n : ℤ) + 1).toNat = n + 1 := by omega
      rw [e2, sum_Ico_succ_top (by omega)]
      have ih := fr i hi
      rw [Int.toNat_natCast] at ih
      split
      · rename_i hin
        rw [ih, rd_map _ _ _ (by omega)]
        congr 1
        rw [hv n (by omega) (by omega)]
        congr 1
        exact yv i
      · rename_i hin
        rw [ih, ycoef_support n m i (by rw [abs_of_nonneg (by omega)]; omega), mul_zero, add_zero])
  rw [eF]
  simp only [Except.bind_ok]
  have hk : clampIdx r ((nmax : ℤ) + 1) = nmax + 1 := by
    rw [clampIdx_of_le (by omega) (by omega)]; omega
  simp only [length_tab, hF.1, hk]
  refine ⟨_, rfl, by simp, fun i hi => ?_⟩
  have hG : ∀ i, i < r → rd (tab r fun i => if i < nmax + 1 then rd F i * Complex.I ^ m else rd F i) i = Gval v nmax m i := by
    intro i hi
    rw [rd_tab hi]
    have := hF.2 i hi
    rw [show ((nmax : ℤ) + 1).toNat = nmax + 1 by omega] at this
    unfold Gval
    have hI : Ico m.natAbs (nmax + 1) = Icc m.natAbs nmax := by ext x; simp only [mem_Ico, mem_Icc]; omega
    rw [this, hI]
    split
    · ring
    · rename_i hin
      rw [sum_eq_zero, mul_zero]
      intro n hn
      have := mem_Icc.mp hn
      rw [ycoef_support n m i (by rw [abs_of_nonneg (by omega)]; omega), mul_zero]
  rw [rd_tab hi]
  unfold colEntry
  by_cases hc : r - (if r % 2 = 0 then r / 2 - 1 else (r - 1) / 2) ≤ i
  · rw [if_pos hc, if_pos hc, hG _ (by split at hc <;> omega), ← Gval_symm]
    congr 1
    omega
  · rw [if_neg hc, if_neg hc, hG _ hi]

/-- What `sc_to_fc` produces. -/
structure IsSynth (spvec : List ℂ) (nmax mmax r c : ℕ) (A : Arr2 ℂ) : Prop where
  rows : A.rows = r
  cols : A.cols = c
  val : ∀ (m : ℤ) (i : ℕ), m.natAbs ≤ mmax → i < r →
    A.at' i (m % c).toNat = colEntry (Gval (cfOf spvec nmax) nmax m) r i
  zero : ∀ i j : ℕ, mmax < j → j + mmax < c → A.at' i j = 0

theorem slotcol_inj {c : ℕ} {m m' : ℤ} {M : ℕ} (hc : 2 * M < c) (h : m.natAbs ≤ M) (h' : m'.natAbs ≤ M)
    (e : (m % c).toNat = (m' % c).toNat) : m = m' := by
  by_contra hne
  refine slot_ne hne ?_ e
  rw [abs_lt]; omega

theorem scToFcCol_spec (spvec : List ℂ) (nmax mmax r c : ℕ) (hM : mmax ≤ nmax) (hr : nmax + 1 ≤ r) (hc : 2 * mmax < c)
    (hl : spvec.length = seg (nmax + 1) (2 * mmax + 1)) (A : Arr2 ℂ) (hA : A.rows = r) (hA' : A.cols = c) (m : ℤ)
    (hm : m.natAbs ≤ mmax) :
    scToFcCol spvec nmax mmax r A m = .ok (Arr2.ofFn r c fun i j =>
      if j = (m % c).toNat then colEntry (Gval (cfOf spvec nmax) nmax m) r i else A.at' i j) := by
  unfold scToFcCol
  have habs : |m| = (m.natAbs : ℤ) := Int.abs_eq_natAbs m
  have em := mindx_eq (m := m) (nmax := nmax) (mmax := mmax) (by unfold iabs; omega) (by omega)
  rw [em]
  simp only [Except.bind_ok]
  rw [show ((nmax : ℤ) + 1).toNat = nmax + 1 by omega]
  have hb : seg (nmax + 1) (ord m) + (nmax - m.natAbs + 1) ≤ spvec.length := by
    rw [hl]
    have h1 : ord m + 1 ≤ 2 * mmax + 1 := by have := ord_le m; omega
    have h2 := seg_mono (nmax + 1) h1
    have h3 : (ord m + 1) / 2 = m.natAbs := (natAbs_eq_ord m).symm
    rw [seg_succ, h3] at h2
    omega
  have hlen : (getSlice spvec (seg (nmax + 1) (ord m) : ℤ) ((seg (nmax + 1) (ord m) : ℤ) + nmax - |m| + 1)).length
      = nmax - m.natAbs + 1 := by
    rw [habs, length_getSlice (by omega) (by omega) (by omega)]; omega
  obtain ⟨F, eF, fl, fr⟩ := fcvecMSc_spec (getSlice spvec (seg (nmax + 1) (ord m) : ℤ) ((seg (nmax + 1) (ord m) : ℤ) + nmax - |m| + 1))
    (cfOf spvec nmax) m nmax r hr (by omega) hlen (by
      intro n h1 h2
      rw [habs, rd_getSlice (by omega) (by omega) (by omega) _ (by omega)]
      rfl)
  rw [eF]
  simp only [Except.bind_ok]
  unfold setColumn
  rw [if_neg (by omega), if_neg (by omega)]
  have hw : Arr2.wrap A.cols m = (m % c).toNat := by
    rw [hA', wrap_mod (by omega) (by omega)]; unfold Arr2.wrap; split <;> rfl
  rw [hw, hA, hA']
  congr 1
  refine Arr2.ext' rfl rfl fun i j hi hj => ?_
  simp only [Arr2.rows_ofFn, Arr2.cols_ofFn] at hi hj
  rw [Arr2.at'_ofFn hi hj, Arr2.at'_ofFn hi hj, if_pos fl, fr i hi]

theorem scToFc_spec (spvec : List ℂ) (nmax mmax r c : ℕ) (hM : mmax ≤ nmax) (hr : nmax + 1 ≤ r)
    (hc : 2 * mmax + 2 ≤ c) (hl : spvec.length = seg (nmax + 1) (2 * mmax + 1)) :
    ∃ A, scToFc spvec nmax mmax r c = .ok A ∧ IsSynth spvec nmax mmax r c A := by
  unfold scToFc npZeros2
  rw [if_neg (by omega)]
  simp only [Except.bind_ok, Int.toNat_natCast]
  have hh : halfTrunc c = ((c / 2 : ℕ) : ℤ) := by unfold halfTrunc; rw [Int.tdiv_eq_ediv_of_nonneg (by omega)]; rfl
  rw [hh]
  obtain ⟨A, eA, hi⟩ := forM'_range_inv (a := 0) (b := ((c / 2 : ℕ) : ℤ)) (by omega)
    (Arr2.ofFn r c (fun _ _ => (0 : ℂ))) (scToFcBody spvec nmax mmax r)
    (fun k A => A.rows = r ∧ A.cols = c ∧
      (∀ (m : ℤ) (i : ℕ), m.natAbs ≤ mmax → i < r → A.at' i (m % c).toNat =
        if -k ≤ m ∧ m < k then colEntry (Gval (cfOf spvec nmax) nmax m) r i else 0) ∧
      ∀ i j : ℕ, mmax < j → j + mmax < c → A.at' i j = 0)
    ⟨rfl, rfl, fun m i hm hi => by
      rw [Arr2.at'_ofFn hi (slot_lt' (by omega) _), if_neg (by omega)],
      fun i j h1 h2 => by
        by_cases h : i < r
        · rw [Arr2.at'_ofFn h (by omega)]
        · rw [Arr2.at'_of_not]; simp only [Arr2.rows_ofFn]; omega⟩
    (by
      intro k A h1 h2 ⟨ar, ac, av, az⟩
      unfold scToFcBody
      have hz : ∀ (B : Arr2 ℂ) (m : ℤ), m.natAbs ≤ mmax → (∀ i j : ℕ, mmax < j → j + mmax < c → B.at' i j = 0) →
          ∀ i j : ℕ, mmax < j → j + mmax < c → (Arr2.ofFn r c fun i j =>
            if j = (m % c).toNat then colEntry (Gval (cfOf spvec nmax) nmax m) r i else B.at' i j).at' i j = 0 := by
        intro B m hm hB i j h1 h2
        by_cases h : i < r
        · rw [Arr2.at'_ofFn h (by omega), if_neg, hB i j h1 h2]
          rw [wrap_mod (by omega) (by omega)]; split <;> omega
        · rw [Arr2.at'_of_not]; simp only [Arr2.rows_ofFn]; omega
      by_cases hk : k < mmax
      · rw [if_pos hk, scToFcCol_spec spvec nmax mmax r c hM hr (by omega) hl A ar ac k (by omega)]
        simp only [Except.bind_ok]
        rw [scToFcCol_spec spvec nmax mmax r c hM hr (by omega) hl _ rfl rfl (-(k + 1)) (by omega)]
        simp only [Except.bind_ok]
        rw [if_neg (by omega)]
        refine ⟨_, rfl, rfl, rfl, fun m i hm hi => ?_, ?_⟩
        · rw [Arr2.at'_ofFn hi (slot_lt' (by omega) _), Arr2.at'_ofFn hi (slot_lt' (by omega) _)]
          by_cases e1 : m = -(k + 1)
          · subst e1; rw [if_pos rfl, if_pos (by omega)]
          · rw [if_neg (fun h => e1 (slotcol_inj (by omega : 2 * mmax < c) hm (by omega) h))]
            by_cases e2 : m = k
            · subst e2; rw [if_pos rfl, if_pos (by omega)]
            · rw [if_neg (fun h => e2 (slotcol_inj (by omega : 2 * mmax < c) hm (by omega) h)), av m i hm hi]
              by_cases h3 : -k ≤ m ∧ m < k
              · rw [if_pos h3, if_pos (by omega)]
              · rw [if_neg h3, if_neg (by omega)]
        · exact hz _ _ (by omega) (hz _ _ (by omega) az)
      · rw [if_neg hk]
        simp only [Except.bind_ok]
        by_cases hk2 : k = mmax
        · rw [if_pos hk2, scToFcCol_spec spvec nmax mmax r c hM hr (by omega) hl A ar ac k (by omega)]
          refine ⟨_, rfl, rfl, rfl, fun m i hm hi => ?_, ?_⟩
          · rw [Arr2.at'_ofFn hi (slot_lt' (by omega) _)]
            by_cases e2 : m = k
            · subst e2; rw [if_pos rfl, if_pos (by omega)]
            · rw [if_neg (fun h => e2 (slotcol_inj (by omega : 2 * mmax < c) hm (by omega) h)), av m i hm hi]
              by_cases h3 : -k ≤ m ∧ m < k
              · rw [if_pos h3, if_pos (by omega)]
              · rw [if_neg h3, if_neg (by omega)]
          · exact hz _ _ (by omega) az
        · rw [if_neg hk2]
          refine ⟨_, rfl, ar, ac, fun m i hm hi => ?_, az⟩
          rw [av m i hm hi]
          by_cases h3 : -k ≤ m ∧ m < k
          · rw [if_pos h3, if_pos (by omega)]
          · rw [if_neg h3, if_neg (by omega)])
  refine ⟨A, eA, hi.1, hi.2.1, fun m i hm h => ?_, hi.2.2.2⟩
  rw [hi.2.2.1 m i hm h, if_pos (by omega)]

end Verif
