import Verif.Props.Transforms
/-!
# Property C40: `sph_harmonic_tp`
-/
namespace Verif.Props
open Verif Finset

theorem yvec_eq (n : ℕ) (m : ℤ) (y : List ℝ) (hl : y.length = n + 1) (hy : ∀ j : ℕ, ((y.getD j 0 : ℝ) : ℂ) = ycoef n m j) :
    (List.map (fun (y : ℝ) => (y : ℂ) * (-1) ^ m) (getSlice y 1 y.length)).reverse ++ List.map (fun (y : ℝ) => (y : ℂ)) y =
      tab (2 * n + 1) fun k => ycoef n m ((k : ℤ) - n) := by
  have hs : getSlice y 1 y.length = y.drop 1 := by
    unfold getSlice
    have e1 : clampIdx y.length (y.length : ℤ) = y.length := by unfold clampIdx; simp
    have e2 : clampIdx y.length 1 = 1 := by unfold clampIdx; simp; omega
    rw [e1, e2, List.take_length]
  have hg : ∀ j : ℕ, j < n + 1 → ((y[j]?.getD 0 : ℝ) : ℂ) = ycoef n m j := by
    intro j _
    rw [← hy j, List.getD_eq_getElem?_getD]
  rw [hs]
  refine list_ext_rd (by simp; omega) fun i hi => ?_
  have hi' : i < 2 * n + 1 := by simp at hi; omega
  rw [rd_tab hi']
  unfold rd
  rw [List.getD_eq_getElem?_getD, List.getElem?_append]
  by_cases hin : i < n
  · rw [if_pos (by simp; omega), List.getElem?_reverse (by simp; omega)]
    simp only [List.length_map, List.length_drop, hl, List.getElem?_map, List.getElem?_drop]
    have hlt : 1 + (n + 1 - 1 - 1 - i) < y.length := by omega
    have h1 := hg (1 + (n + 1 - 1 - 1 - i)) (by omega)
    rw [List.getElem?_eq_getElem hlt] at h1 ⊢
    simp only [Option.map_some, Option.getD_some] at h1 ⊢
    rw [h1, show ((1 + (n + 1 - 1 - 1 - i) : ℕ) : ℤ) = -((i : ℤ) - n) by omega, ycoef_symm]
    rw [← Int.natAbs_abs, Int.abs_eq_natAbs]
    have : ((-1 : ℂ)) ^ m = (-1) ^ m.natAbs := by
      rcases Int.natAbs_eq m with h | h
      · conv_lhs => rw [h]
        rw [zpow_natCast]
      · conv_lhs => rw [h]
        rw [zpow_neg, zpow_natCast]
        rcases neg_one_pow_eq_or ℂ m.natAbs with h | h <;> rw [h] <;> norm_num
    rw [this, Int.natAbs_natCast]
    have h2 : ((-1 : ℂ)) ^ m.natAbs * (-1) ^ m.natAbs = 1 := by rw [← mul_pow]; simp
    linear_combination (ycoef n m ((i : ℤ) - n)) * h2
  · rw [if_neg (by simp; omega)]
    simp only [List.length_reverse, List.length_map, List.length_drop, hl, List.getElem?_map]
    have hlt : i - (n + 1 - 1) < y.length := by omega
    have h1 := hg (i - (n + 1 - 1)) (by omega)
    rw [List.getElem?_eq_getElem hlt] at h1 ⊢
    simp only [Option.map_some, Option.getD_some] at h1 ⊢
    rw [h1, show ((i - (n + 1 - 1) : ℕ) : ℤ) = (i : ℤ) - n by omega]

theorem sum_tab (n : ℕ) (f : ℕ → ℂ) : (tab n f).sum = ∑ k ∈ range n, f k := by
  unfold tab
  rw [Finset.sum_range]
  rw [← List.sum_ofFn]
  congr 1
  exact List.ext_getElem (by simp) (by simp)

/-- The inner sum of `sph_harmonic_tp`. -/
theorem tp_sum (n : ℕ) (m : ℤ) (th : ℝ) :
    bcast (· * ·) (tab (2 * n + 1) fun k => ycoef n m ((k : ℤ) - n)) (List.map (fun (v : ℤ) => Complex.exp (Complex.I * (v : ℂ) * (th : ℂ))) (pyRange (-(n : ℤ)) (n + 1))) =
      .ok (tab (2 * n + 1) fun k => ycoef n m ((k : ℤ) - n) * Complex.exp ((((k : ℤ) - n : ℤ) : ℂ) * (th * Complex.I))) := by
  unfold bcast
  rw [if_pos (by simp [pyRange]; omega)]
  congr 1
  refine List.ext_getElem (by simp [pyRange]; omega) fun i h1 h2 => ?_
  simp only [tab, pyRange, List.getElem_zipWith, List.getElem_map, List.getElem_range]
  congr 2
  push_cast; ring

theorem tp_value (n : ℕ) (m : ℤ) (hm : m.natAbs ≤ n) (th ph : ℝ) :
    Complex.I ^ m * Complex.exp (Complex.I * (m : ℂ) * (ph : ℂ)) *
      (tab (2 * n + 1) fun k => ycoef n m ((k : ℤ) - n) * Complex.exp ((((k : ℤ) - n : ℤ) : ℂ) * (th * Complex.I))).sum = sphY n m th ph := by
  unfold sphY
  rw [sum_tab, thetaPart_eq_sum n m th (Icc (-(n : ℤ)) n) (by
      intro k hk
      rw [mem_Icc, not_and_or] at hk
      rw [lt_abs]; omega)]
  have e : ∑ ν ∈ Icc (-(n : ℤ)) n, ycoef n m ν * Complex.exp (ν * (th * Complex.I)) =
      ∑ k ∈ range (2 * n + 1), ycoef n m ((k : ℤ) - n) * Complex.exp ((((k : ℤ) - n : ℤ) : ℂ) * (th * Complex.I)) := by
    refine sum_nbij' (fun ν => (ν + n).toNat) (fun k => (k : ℤ) - n) ?_ ?_ ?_ ?_ ?_
    · intro ν h; rw [mem_Icc] at h; rw [mem_range]; omega
    · intro k h; rw [mem_range] at h; rw [mem_Icc]; omega
    · intro ν h; rw [mem_Icc] at h; omega
    · intro k h; simp
    · intro ν h
      rw [mem_Icc] at h
      rw [Int.toNat_of_nonneg (by omega)]
      simp
  rw [e, show Complex.I * (m : ℂ) * (ph : ℂ) = m * (ph * Complex.I) by ring]
  ring

theorem getIdx_linspace (a b : ℝ) (num : ℕ) (i : ℤ) (h0 : 0 ≤ i) (h1 : i < num) :
    getIdx (linspace a b num) i = .ok (if num = 1 then a else a + (i.toNat : ℝ) * ((b - a) / ((num : ℝ) - 1))) := by
  unfold getIdx
  simp only
  rw [if_neg (by omega), if_neg (by omega)]
  have : (linspace a b num)[i.toNat]? = some (if num = 1 then a else a + (i.toNat : ℝ) * ((b - a) / ((num : ℝ) - 1))) := by
    unfold linspace tab
    rw [List.getElem?_map, List.getElem?_range (by omega)]
    rfl
  rw [this]

/-- The value of `theta[i]` in `sph_harmonic_tp`. -/
noncomputable def tpTheta (nrows i : ℕ) : ℝ := if nrows = 1 then 0 else Real.pi * i / ((nrows : ℝ) - 1)

/-- C40, what the code computes for up to 50 columns: the phi grid always has the spacing of 50 points. -/
theorem c40_actual (nrows ncols n : ℕ) (m : ℤ) (hm : m.natAbs ≤ n) (h1 : 1 ≤ ncols) (h2 : ncols ≤ 50) :
    ∃ A, sphHarmonicTp nrows ncols n m = .ok A ∧ A.rows = nrows ∧ A.cols = ncols ∧ ∀ i j : ℕ, i < nrows → j < ncols →
      A.at' i j = sphY n m (tpTheta nrows i) (j * ((2 * Real.pi - 2 * Real.pi / ncols) / 49)) := by
  obtain ⟨y, ey, hl, hy⟩ := ynunm_spec n m (n + 1) hm (by omega)
  unfold sphHarmonicTp
  rw [show ((n : ℤ) + 1) = ((n + 1 : ℕ) : ℤ) by push_cast; rfl, ey]
  simp only [Except.bind_ok]
  rw [if_neg (by omega), if_neg (by omega), yvec_eq n m y hl hy]
  unfold npZeros2
  rw [if_neg (by omega)]
  simp only [Except.bind_ok, Int.toNat_natCast]
  obtain ⟨A, eA, a1, a2, a3⟩ := forM'_range_inv (a := 0) (b := (nrows : ℤ)) (by omega) (Arr2.ofFn nrows ncols fun _ _ => (0 : ℂ))
    (fun out nn =>
      (getIdx (linspace 0 Real.pi nrows) nn).bind fun th =>
      forM' (pyRange 0 (ncols : ℤ)) out fun out mm =>
        (bcast (· * ·) (tab (2 * n + 1) fun k => ycoef n m ((k : ℤ) - n)) (List.map (fun (v : ℤ) => Complex.exp (Complex.I * (v : ℂ) * (th : ℂ))) (pyRange (-(n : ℤ)) (n + 1 : ℕ)))).bind fun prod =>
        (getIdx (linspace 0 (2 * Real.pi - 2 * Real.pi / ((ncols : ℤ) : ℝ)) 50) mm).bind fun ph =>
        .ok (Arr2.ofFn out.rows out.cols fun i j =>
          if (i : ℤ) = nn ∧ (j : ℤ) = mm then Complex.I ^ m * Complex.exp (Complex.I * (m : ℂ) * (ph : ℂ)) * prod.sum
          else out.at' i j))
    (fun nn A => A.rows = nrows ∧ A.cols = ncols ∧ ∀ i j : ℕ, i < nrows → j < ncols → (i : ℤ) < nn →
      A.at' i j = sphY n m (tpTheta nrows i) (j * ((2 * Real.pi - 2 * Real.pi / ncols) / 49)))
    ⟨rfl, rfl, fun i j _ _ h => by omega⟩ (by
      rintro nn A k0 k1 ⟨q1, q2, q3⟩
      rw [getIdx_linspace _ _ _ _ k0 k1]
      simp only [Except.bind_ok]
      obtain ⟨B, eB, b1, b2, b3, b4⟩ := forM'_range_inv (a := 0) (b := (ncols : ℤ)) (by omega) A
        (fun out mm =>
          (bcast (· * ·) (tab (2 * n + 1) fun k => ycoef n m ((k : ℤ) - n)) (List.map (fun (v : ℤ) => Complex.exp (Complex.I * (v : ℂ) *
            ((if nrows = 1 then (0 : ℝ) else 0 + (nn.toNat : ℝ) * ((Real.pi - 0) / ((nrows : ℝ) - 1)) : ℝ) : ℂ))) (pyRange (-(n : ℤ)) (n + 1 : ℕ)))).bind fun prod =>
          (getIdx (linspace 0 (2 * Real.pi - 2 * Real.pi / ((ncols : ℤ) : ℝ)) 50) mm).bind fun ph =>
          .ok (Arr2.ofFn out.rows out.cols fun i j =>
            if (i : ℤ) = nn ∧ (j : ℤ) = mm then Complex.I ^ m * Complex.exp (Complex.I * (m : ℂ) * (ph : ℂ)) * prod.sum
            else out.at' i j))
        (fun mm A => A.rows = nrows ∧ A.cols = ncols ∧
          (∀ i j : ℕ, i < nrows → j < ncols → (i : ℤ) < nn →
            A.at' i j = sphY n m (tpTheta nrows i) (j * ((2 * Real.pi - 2 * Real.pi / ncols) / 49))) ∧
          ∀ i j : ℕ, i < nrows → j < ncols → (i : ℤ) = nn → (j : ℤ) < mm →
            A.at' i j = sphY n m (tpTheta nrows i) (j * ((2 * Real.pi - 2 * Real.pi / ncols) / 49)))
        ⟨q1, q2, q3, fun i j _ _ _ h => by omega⟩ (by
          rintro mm A' c0 c1 ⟨r1, r2, r3, r4⟩
          rw [show (((n + 1 : ℕ) : ℤ)) = (n : ℤ) + 1 by push_cast; rfl, tp_sum]
          simp only [Except.bind_ok]
          rw [getIdx_linspace _ _ _ _ c0 (by push_cast; omega)]
          simp only [Except.bind_ok]
          refine ⟨_, rfl, r1, r2, fun i j hi hj hlt => ?_, fun i j hi hj hin hjm => ?_⟩
          · rw [Arr2.at'_ofFn (by omega) (by omega), if_neg (by omega), r3 i j hi hj hlt]
          · rw [Arr2.at'_ofFn (by omega) (by omega)]
            by_cases hjj : (j : ℤ) = mm
            · rw [if_pos ⟨hin, hjj⟩, tp_value n m hm]
              congr 1
              · unfold tpTheta
                split
                · rfl
                · rw [← hin, Int.toNat_natCast]; ring
              · rw [if_neg (by norm_num), ← hjj, Int.toNat_natCast]
                push_cast
                ring
            · rw [if_neg (by omega), r4 i j hi hj hin (by omega)])
      refine ⟨B, eB, b1, b2, fun i j hi hj hlt => ?_⟩
      by_cases hin : (i : ℤ) = nn
      · exact b4 i j hi hj hin (by omega)
      · exact b3 i j hi hj (by omega))
  exact ⟨A, eA, a1, a2, fun i j hi hj => a3 i j hi hj (by omega)⟩

/-- C40 (partial): the documented grid is used when `ncols = 50`.  Missing: every other number of columns, where the claim is
false (`c40_counterexample`, `c40_too_many_columns`). -/
theorem c40_partial (nrows n : ℕ) (m : ℤ) (hm : m.natAbs ≤ n) (hr : 2 ≤ nrows) :
    ∃ A, sphHarmonicTp nrows 50 n m = .ok A ∧ A.rows = nrows ∧ A.cols = 50 ∧ ∀ i j : ℕ, i < nrows → j < 50 →
      A.at' i j = sphY n m (Real.pi * i / ((nrows : ℝ) - 1)) (2 * Real.pi * j / 50) := by
  obtain ⟨A, e, a1, a2, a3⟩ := c40_actual nrows 50 n m hm (by norm_num) (by norm_num)
  refine ⟨A, e, a1, a2, fun i j hi hj => ?_⟩
  rw [a3 i j hi hj]
  unfold tpTheta
  rw [if_neg (by omega)]
  congr 1
  push_cast
  ring

/-- C40 fails for more than 50 columns: IndexError. -/
theorem c40_too_many_columns (nrows ncols n : ℕ) (m : ℤ) (hm : m.natAbs ≤ n) (hr : 1 ≤ nrows) (hc : 50 < ncols) :
    Res.Raises (sphHarmonicTp nrows ncols n m) .indexError := by
  obtain ⟨y, ey, hl, hy⟩ := ynunm_spec n m (n + 1) hm (by omega)
  unfold sphHarmonicTp
  rw [show ((n : ℤ) + 1) = ((n + 1 : ℕ) : ℤ) by push_cast; rfl, ey]
  simp only [Except.bind_ok]
  rw [if_neg (by omega), if_neg (by omega), yvec_eq n m y hl hy]
  unfold npZeros2
  rw [if_neg (by omega)]
  simp only [Except.bind_ok, Int.toNat_natCast]
  -- the first row already fails
  have first : ∀ (l : List ℤ) (x : ℤ) (s : Arr2 ℂ) (body : Arr2 ℂ → ℤ → Res (Arr2 ℂ)), Res.Raises (body s x) .indexError →
      Res.Raises (forM' (x :: l) s body) .indexError := by
    rintro l x s body ⟨msg, h⟩
    unfold forM'
    rw [h]
    exact ⟨msg, rfl⟩
  have hrange : pyRange 0 (nrows : ℤ) = 0 :: pyRange 1 (nrows : ℤ) := by
    unfold pyRange
    rw [show ((nrows : ℤ) - 0).toNat = (nrows - 1) + 1 by omega, List.range_succ_eq_map]
    simp only [List.map_cons, List.map_map]
    congr 1
    rw [show ((nrows : ℤ) - 1).toNat = nrows - 1 by omega]
    refine List.map_congr_left fun k _ => ?_
    simp only [Function.comp]
    push_cast
    ring
  rw [hrange]
  refine first _ _ _ _ ?_
  rw [getIdx_linspace _ _ _ _ le_rfl (by omega)]
  simp only [Except.bind_ok]
  -- the inner loop reaches column 50
  have inner : ∀ (l : List ℤ) (s : Arr2 ℂ) (body : Arr2 ℂ → ℤ → Res (Arr2 ℂ)), (50 : ℤ) ∈ l →
      (∀ s x, x ∈ l → (∃ s', body s x = .ok s') ∨ Res.Raises (body s x) .indexError) → (∀ s, Res.Raises (body s 50) .indexError) →
      Res.Raises (forM' l s body) .indexError := by
    intro l
    induction l with
    | nil => intro s body h; cases h
    | cons x l ih =>
      intro s body hmem hb h50
      by_cases hx : x = 50
      · subst hx; exact first _ _ _ _ (h50 s)
      · rcases hb s x (List.mem_cons_self) with ⟨s', e⟩ | h
        · have := ih s' body (by rcases List.mem_cons.mp hmem with h | h; exacts [absurd h.symm hx, h])
            (fun s x hx => hb s x (List.mem_cons_of_mem _ hx)) h50
          unfold forM'
          rw [e]
          exact this
        · exact first _ _ _ _ h
  refine inner _ _ _ ?_ ?_ ?_
  · unfold pyRange
    rw [List.mem_map]
    exact ⟨50, List.mem_range.mpr (by omega), by norm_num⟩
  · intro s x hx
    rw [show (((n + 1 : ℕ) : ℤ)) = (n : ℤ) + 1 by push_cast; rfl, tp_sum]
    simp only [Except.bind_ok]
    unfold pyRange at hx
    rw [List.mem_map] at hx
    obtain ⟨k, -, rfl⟩ := hx
    by_cases hk : k < 50
    · left
      rw [getIdx_linspace _ _ _ _ (by omega) (by push_cast; omega)]
      exact ⟨_, rfl⟩
    · right
      unfold getIdx
      simp only
      rw [if_neg (by omega), if_neg (by omega), List.getElem?_eq_none (by simp [linspace]; omega)]
      exact ⟨_, rfl⟩
  · intro s
    rw [show (((n + 1 : ℕ) : ℤ)) = (n : ℤ) + 1 by push_cast; rfl, tp_sum]
    simp only [Except.bind_ok]
    unfold getIdx
    simp only
    rw [if_neg (by omega), if_neg (by omega), List.getElem?_eq_none (by simp [linspace])]
    exact ⟨_, rfl⟩

theorem legendre_one : Polynomial.derivative^[1] (legendre 1) = 1 := by
  unfold legendre rodU
  simp
  norm_num
  rw [show (2 : Polynomial ℝ) = Polynomial.C 2 from rfl, ← Polynomial.C_mul]
  norm_num

theorem thetaPart_ne : thetaPart 1 1 (Real.pi / 2) ≠ 0 := by
  unfold thetaPart
  rw [show (1 : ℤ).natAbs = 1 from rfl, legendre_one]
  have : normSH 1 1 ≠ 0 := by
    unfold normSH
    have := Real.pi_pos
    rw [Real.sqrt_ne_zero (by positivity)]
    positivity
  simp [this]

/-- C40 fails for every number of columns from 2 to 49: a sample of `Y_11` is wrong. -/
theorem c40_counterexample (N : ℕ) (h1 : 2 ≤ N) (h2 : N < 50) :
    ∃ A, sphHarmonicTp 3 N 1 1 = .ok A ∧ A.at' 1 1 ≠ sphY 1 1 (Real.pi / 2) (2 * Real.pi / N) := by
  obtain ⟨A, e, a1, a2, a3⟩ := c40_actual 3 N 1 1 (by decide) (by omega) (by omega)
  refine ⟨A, e, ?_⟩
  rw [a3 1 1 (by norm_num) (by omega)]
  have ht : tpTheta 3 1 = Real.pi / 2 := by unfold tpTheta; norm_num
  rw [ht]
  unfold sphY
  intro h
  have h := mul_left_cancel₀ (by exact_mod_cast thetaPart_ne) h
  have hre := congrArg Complex.re h
  simp only [Int.cast_one, one_mul, Nat.cast_one] at hre
  rw [Complex.exp_ofReal_mul_I_re, Complex.exp_ofReal_mul_I_re] at hre
  have hN : (2 : ℝ) ≤ N := by exact_mod_cast h1
  have hN' : (N : ℝ) < 50 := by exact_mod_cast h2
  have hp := Real.pi_pos
  have hq : 2 * Real.pi / N ≤ Real.pi := by rw [div_le_iff₀ (by linarith)]; nlinarith
  have hq0 : 0 ≤ 2 * Real.pi / N := by positivity
  have := Real.injOn_cos (by constructor <;> linarith) (by constructor <;> linarith) hre
  have hNe : (N : ℝ) ≠ 0 := by linarith
  field_simp at this
  nlinarith

end Verif.Props
