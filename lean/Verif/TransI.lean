import Verif.TransS
/-!
# The inverse scalar transform in closed form
-/
namespace Verif
open Finset

theorem scToFc_backend (b : Backend) (call : ℕ) (spvec : List ℂ) (nmax mmax r c : ℕ) (hM : mmax ≤ nmax) (hr : nmax + 1 ≤ r)
    (hc : 2 * mmax + 2 ≤ c) (hl : spvec.length = seg (nmax + 1) (2 * mmax + 1)) :
    ∃ A, b.scToFc call spvec nmax mmax r c = .ok A ∧ IsSynth spvec nmax mmax r c A := by
  cases b with
  | py => exact scToFc_spec spvec nmax mmax r c hM hr hc hl
  | c J =>
    unfold Backend.scToFc npZeros2
    rw [if_neg (by omega)]
    simp only [Except.bind_ok, Int.toNat_natCast, Arr2.rows_ofFn, Arr2.cols_ofFn]
    obtain ⟨F, e', hF, hlen⟩ := cScToFc_spec spvec nmax mmax r c hM hr hc hl (J call) (Arr2.ofFn r c fun _ _ => (0 : ℂ)).flat
      ⟨by rw [Arr2.length_flat]; rfl, fun i j hi hj => by
        rw [show c * i + j = (Arr2.ofFn r c fun _ _ => (0 : ℂ)).cols * i + j from rfl, Arr2.rd_flat _ hi hj, Arr2.at'_ofFn hi hj]⟩
    rw [e']
    refine ⟨_, rfl, ?_⟩
    exact hF

/-- A sum over array positions is a sum over signed frequencies. -/
theorem sum_range_wrap {β : Type} [AddCommMonoid β] (r : ℕ) (hr : 0 < r) (f : ℕ → β) :
    ∑ k ∈ range r, f k = ∑ ν ∈ Ioc (-((r - 1) / 2 : ℕ) - 1 : ℤ) ((r / 2 : ℕ) : ℤ), f (ν % r).toNat := by
  symm
  refine sum_nbij' (fun ν => (ν % r).toNat) (fun k => if k ≤ r / 2 then (k : ℤ) else k - r) ?_ ?_ ?_ ?_ ?_
  · intro ν _; exact mem_range.mpr (slot_lt' hr ν)
  · intro k hk
    rw [mem_range] at hk
    rw [mem_Ioc]; split <;> omega
  · intro ν hν
    rw [mem_Ioc] at hν
    rw [wrap_mod (by omega) (by omega)]
    split <;> split <;> omega
  · intro k hk
    rw [mem_range] at hk
    split
    · rw [Int.emod_eq_of_lt (by omega) (by omega)]; omega
    · rw [wrap_mod (by omega) (by omega)]; split <;> omega
  · intro ν _; rfl

theorem root_mul_emod' (n : ℕ) (i ν : ℤ) (hn : 0 < n) : root n (i * ((ν % n).toNat : ℕ)) = root n (i * ν) := by
  rw [Int.toNat_of_nonneg (Int.emod_nonneg _ (by omega))]
  conv_rhs => rw [← Int.emod_add_mul_ediv ν n]
  rw [show i * (ν % n + n * (ν / n)) = i * (ν % n) + n * (i * (ν / n)) by ring, root_add_mul]

/-- `ifft2(f) * rows * cols` in terms of signed frequencies. -/
theorem invFourier_spec (A : Arr2 ℂ) (r c : ℕ) (hA : A.rows = r) (hA' : A.cols = c) (hr : 0 < r) (hc : 0 < c) :
    ∃ D, invFourier A r c = .ok D ∧ D.rows = r ∧ D.cols = c ∧
      (∀ i j : ℕ, i < r → j < c → D.at' i j =
        ∑ ν ∈ Ioc (-((r - 1) / 2 : ℕ) - 1 : ℤ) ((r / 2 : ℕ) : ℤ), ∑ m ∈ Ioc (-((c - 1) / 2 : ℕ) - 1 : ℤ) ((c / 2 : ℕ) : ℤ),
          fAt A m ν * root r (i * ν) * root c (j * m)) ∧
      ∀ ν m : ℤ, dftc D ν m = fAt A m ν := by
  subst hA hA'
  have hr' : (A.rows : ℂ) ≠ 0 := by exact_mod_cast hr.ne'
  have hc' : (A.cols : ℂ) ≠ 0 := by exact_mod_cast hc.ne'
  unfold invFourier npIfft2
  rw [if_neg (by omega)]
  simp only [Except.bind_ok]
  have hval : ∀ i j : ℕ, i < A.rows → j < A.cols →
      (Arr2.map (fun x => x * ((A.rows : ℤ) : ℂ) * ((A.cols : ℤ) : ℂ)) (Arr2.ofFn A.rows A.cols fun i j =>
        (∑ k ∈ range A.rows, ∑ l ∈ range A.cols, A.at' k l * root A.rows (i * k : ℤ) * root A.cols (j * l : ℤ)) / (A.rows * A.cols))).at' i j
      = ∑ k ∈ range A.rows, ∑ l ∈ range A.cols, A.at' k l * root A.rows (i * k : ℤ) * root A.cols (j * l : ℤ) := by
    intro i j hi hj
    rw [Arr2.at'_map _ _ (by simpa using hi) (by simpa using hj), Arr2.at'_ofFn hi hj]
    push_cast
    field_simp
  refine ⟨_, rfl, rfl, rfl, fun i j hi hj => ?_, fun ν m => ?_⟩
  · rw [hval i j hi hj, sum_range_wrap _ hr]
    refine sum_congr rfl fun ν _ => ?_
    rw [sum_range_wrap _ hc]
    refine sum_congr rfl fun m _ => ?_
    rw [root_mul_emod' _ _ _ hr, root_mul_emod' _ _ _ hc]
    rfl
  · rw [← dftc_emod]
    unfold dftc
    simp only [Arr2.rows_map, Arr2.cols_map, Arr2.rows_ofFn, Arr2.cols_ofFn]
    have e : ∀ i ∈ range A.rows, ∀ j ∈ range A.cols,
        (Arr2.map (fun x => x * ((A.rows : ℤ) : ℂ) * ((A.cols : ℤ) : ℂ)) (Arr2.ofFn A.rows A.cols fun i j =>
        (∑ k ∈ range A.rows, ∑ l ∈ range A.cols, A.at' k l * root A.rows (i * k : ℤ) * root A.cols (j * l : ℤ)) / (A.rows * A.cols))).at' i j
          * root A.rows (-(i * (ν % A.rows))) * root A.cols (-(j * (m % A.cols))) =
        ∑ k ∈ range A.rows, ∑ l ∈ range A.cols, A.at' k l * root A.rows (((k : ℤ) - ν % A.rows) * i) * root A.cols (((l : ℤ) - m % A.cols) * j) := by
      intro i hi j hj
      rw [hval i j (mem_range.mp hi) (mem_range.mp hj), sum_mul, sum_mul]
      refine sum_congr rfl fun k _ => ?_
      rw [sum_mul, sum_mul]
      refine sum_congr rfl fun l _ => ?_
      rw [show ((k : ℤ) - ν % A.rows) * i = i * k + -(i * (ν % A.rows)) by ring, root_add,
        show ((l : ℤ) - m % A.cols) * j = j * l + -(j * (m % A.cols)) by ring, root_add]
      ring
    rw [sum_congr rfl fun i hi => sum_congr rfl fun j hj => e i hi j hj]
    have e2 : ∑ i ∈ range A.rows, ∑ j ∈ range A.cols, ∑ k ∈ range A.rows, ∑ l ∈ range A.cols,
          A.at' k l * root A.rows (((k : ℤ) - ν % A.rows) * i) * root A.cols (((l : ℤ) - m % A.cols) * j) =
        ∑ k ∈ range A.rows, ∑ l ∈ range A.cols, A.at' k l *
          ((∑ i ∈ range A.rows, root A.rows (((k : ℤ) - ν % A.rows) * i)) * ∑ j ∈ range A.cols, root A.cols (((l : ℤ) - m % A.cols) * j)) := by
      have s1 : ∀ i ∈ range A.rows, ∑ j ∈ range A.cols, ∑ k ∈ range A.rows, ∑ l ∈ range A.cols,
          A.at' k l * root A.rows (((k : ℤ) - ν % A.rows) * i) * root A.cols (((l : ℤ) - m % A.cols) * j) =
          ∑ k ∈ range A.rows, ∑ l ∈ range A.cols, A.at' k l * root A.rows (((k : ℤ) - ν % A.rows) * i) *
            ∑ j ∈ range A.cols, root A.cols (((l : ℤ) - m % A.cols) * j) := by
        intro i _
        rw [sum_comm]
        refine sum_congr rfl fun k _ => ?_
        rw [sum_comm]
        refine sum_congr rfl fun l _ => ?_
        rw [mul_sum]
      rw [sum_congr rfl s1, sum_comm]
      refine sum_congr rfl fun k _ => ?_
      rw [sum_comm]
      refine sum_congr rfl fun l _ => ?_
      rw [← sum_mul, ← mul_sum, mul_assoc]
    rw [e2]
    have hkey : ∀ (n : ℕ) (hn : 0 < n) (k : ℕ), k < n → ∀ μ : ℤ,
        (∑ i ∈ range n, root n (((k : ℤ) - μ % n) * i)) = if k = (μ % n).toNat then (n : ℂ) else 0 := by
      intro n hn k hk μ
      rw [sum_root hn]
      have h1 : 0 ≤ μ % (n : ℤ) := Int.emod_nonneg _ (by omega)
      have h2 : μ % (n : ℤ) < n := Int.emod_lt_of_pos _ (by omega)
      congr 1
      apply propext
      constructor
      · intro hd
        have : (k : ℤ) - μ % n = 0 := Int.eq_zero_of_abs_lt_dvd hd (by rw [abs_lt]; omega)
        omega
      · intro h
        rw [show (k : ℤ) - μ % n = 0 by omega]; exact dvd_zero _
    have e3 : ∀ k ∈ range A.rows, ∀ l ∈ range A.cols, A.at' k l *
          ((∑ i ∈ range A.rows, root A.rows (((k : ℤ) - ν % A.rows) * i)) * ∑ j ∈ range A.cols, root A.cols (((l : ℤ) - m % A.cols) * j)) =
        if k = (ν % A.rows).toNat then (if l = (m % A.cols).toNat then A.at' k l * (A.rows * A.cols) else 0) else 0 := by
      intro k hk l hl
      rw [hkey _ hr k (mem_range.mp hk), hkey _ hc l (mem_range.mp hl)]
      split <;> split <;> simp
    rw [sum_congr rfl fun k hk => sum_congr rfl fun l hl => e3 k hk l hl]
    have e4 : ∀ k ∈ range A.rows, (∑ l ∈ range A.cols,
        if k = (ν % A.rows).toNat then (if l = (m % A.cols).toNat then A.at' k l * ((A.rows : ℂ) * A.cols) else 0) else 0) =
        if k = (ν % A.rows).toNat then A.at' k (m % A.cols).toNat * (A.rows * A.cols) else 0 := by
      intro k _
      split
      · rw [sum_ite_eq', if_pos (mem_range.mpr (slot_lt' hc m))]
      · simp
    rw [sum_congr rfl e4, sum_ite_eq', if_pos (mem_range.mpr (slot_lt' hr ν))]
    unfold fAt
    field_simp

theorem IsSynth.fAt {spvec : List ℂ} {nmax mmax r c M : ℕ} {A : Arr2 ℂ} (h : IsSynth spvec nmax mmax r c A)
    (hr : r = 2 * M) (hM : nmax < M) (hc : 2 * mmax + 2 ≤ c) (m ν : ℤ) (hν : |ν| ≤ M) (hm : 2 * m.natAbs ≤ c) :
    fAt A m ν = if m.natAbs ≤ mmax then Gval (cfOf spvec nmax) nmax m ν else 0 := by
  rw [abs_le] at hν
  unfold Verif.fAt
  rw [h.rows, h.cols]
  split
  · rename_i hmm
    rw [h.val m _ hmm (slot_lt' (by omega) _), wrap_mod (by omega) (by omega)]
    unfold colEntry
    rw [if_pos (show r % 2 = 0 by omega)]
    by_cases hneg : ν < 0
    · rw [if_pos hneg]
      by_cases he : ν = -M
      · rw [if_neg (by omega), Gval_support _ _ _ _ (by rw [abs_of_nonneg (by omega)]; omega),
          Gval_support _ _ _ ν (by rw [abs_of_neg (by omega)]; omega)]
      · rw [if_pos (by omega)]
        congr 1; omega
    · rw [if_neg hneg, if_neg (by omega)]
      congr 1; omega
  · rename_i hmm
    rw [wrap_mod (Q := c) (by omega) (by omega)]
    split
    · exact h.zero _ _ (by omega) (by omega)
    · exact h.zero _ _ (by omega) (by omega)


/-- A sum over modes, order by order. -/
theorem sum_modes {β : Type} [AddCommMonoid β] (nmax mmax : ℕ) (F : ℤ → ℤ → β) :
    ∑ p ∈ modes nmax mmax, F p.1 p.2 = ∑ m ∈ Icc (-(mmax : ℤ)) mmax, ∑ n ∈ Icc m.natAbs nmax, F n m := by
  rw [sum_sigma']
  refine sum_bij' (fun p _ => ⟨p.2, p.1.toNat⟩) (fun q _ => ((q.2 : ℤ), q.1)) ?_ ?_ ?_ ?_ ?_
  · intro p hp
    obtain ⟨h0, h1, h2, h3⟩ := mem_modes.mp hp
    rw [Int.abs_eq_natAbs] at h2 h3
    simp only [mem_sigma, mem_Icc]; omega
  · rintro ⟨m, n⟩ hq
    simp only [mem_sigma, mem_Icc] at hq
    refine mem_modes.mpr ⟨?_, ?_, ?_, ?_⟩ <;> simp only [Int.abs_eq_natAbs] <;> omega
  · intro p hp
    obtain ⟨h0, h1, h2, h3⟩ := mem_modes.mp hp
    exact Prod.ext (by simp only; omega) rfl
  · rintro ⟨m, n⟩ hq
    simp
  · intro p hp
    obtain ⟨h0, h1, h2, h3⟩ := mem_modes.mp hp
    simp only
    rw [Int.toNat_of_nonneg h0]

theorem Gval_sum (v : ℤ → ℕ → ℂ) (nmax : ℕ) (m : ℤ) (θ : ℝ) (s : Finset ℤ) (hs : ∀ k, k ∉ s → (nmax : ℤ) < |k|) :
    ∑ ν ∈ s, Gval v nmax m ν * Complex.exp (ν * (θ * Complex.I)) = ∑ n ∈ Icc m.natAbs nmax, v m n * (thetaPart n m θ : ℂ) := by
  have e : ∀ n ∈ Icc m.natAbs nmax, v m n * (thetaPart n m θ : ℂ) =
      ∑ ν ∈ s, Complex.I ^ m * (v m n * ycoef n m ν) * Complex.exp (ν * (θ * Complex.I)) := by
    intro n hn
    have := mem_Icc.mp hn
    rw [thetaPart_eq_sum n m θ s (fun k hk => by have := hs k hk; omega), mul_sum, mul_sum]
    refine sum_congr rfl fun ν _ => ?_
    ring
  rw [sum_congr rfl e, sum_comm]
  refine sum_congr rfl fun ν _ => ?_
  unfold Gval
  rw [mul_sum, sum_mul]

theorem root_exp (r : ℕ) (i : ℕ) (ν : ℤ) : root r (i * ν) = Complex.exp (ν * ((2 * Real.pi * i / r : ℝ) * Complex.I)) := by
  unfold root; congr 1; push_cast; ring

/-- Coefficient `(n, m)` of a set (0 if there is none). -/
noncomputable def ScalarCoefs.cf (c : ScalarCoefs ℂ) (n m : ℤ) : ℂ := (c.absMap n m).getD 0

theorem cfOf_eq {c : ScalarCoefs ℂ} (h : c.WF) {nmax mmax : ℕ} (hn : c.nmax = nmax) (hm : c.mmax = mmax) {n : ℕ} {m : ℤ}
    (h1 : m.natAbs ≤ n) (h2 : n ≤ nmax) (h3 : m.natAbs ≤ mmax) : cfOf c.vec nmax m n = c.cf n m := by
  have hmo : IsMode c.nmax c.mmax n m := ⟨by omega, by omega, by rw [Int.abs_eq_natAbs]; omega, by rw [Int.abs_eq_natAbs]; omega⟩
  have hl := h.slot_lt hmo
  unfold ScalarCoefs.cf
  rw [ScalarCoefs.absMap_mode h hmo]
  unfold slot at hl ⊢
  simp only [hn, show ((nmax : ℤ) + 1).toNat = nmax + 1 by omega, Int.toNat_natCast] at hl ⊢
  unfold cfOf rd
  simp [hl]

/-- The synthesised double sphere. -/
theorem synth_value {c : ScalarCoefs ℂ} (h : c.WF) {nmax mmax r k M : ℕ} (hn : c.nmax = nmax) (hm : c.mmax = mmax)
    {A : Arr2 ℂ} (hA : IsSynth c.vec nmax mmax r k A) (hr : r = 2 * M) (hM : nmax < M) (hc : 2 * mmax + 2 ≤ k) {i j : ℕ} :
    ∑ ν ∈ Ioc (-((r - 1) / 2 : ℕ) - 1 : ℤ) ((r / 2 : ℕ) : ℤ), ∑ m ∈ Ioc (-((k - 1) / 2 : ℕ) - 1 : ℤ) ((k / 2 : ℕ) : ℤ),
          fAt A m ν * root r (i * ν) * root k (j * m) =
      ∑ p ∈ modes c.nmax c.mmax, c.cf p.1 p.2 * sphY p.1.toNat p.2 (2 * Real.pi * i / r) (2 * Real.pi * j / k) := by
  rw [hn, hm, sum_modes nmax mmax (fun n m => c.cf n m * sphY n.toNat m (2 * Real.pi * i / r) (2 * Real.pi * j / k)), sum_comm]
  have e : ∀ m ∈ Ioc (-((k - 1) / 2 : ℕ) - 1 : ℤ) ((k / 2 : ℕ) : ℤ),
      ∑ ν ∈ Ioc (-((r - 1) / 2 : ℕ) - 1 : ℤ) ((r / 2 : ℕ) : ℤ), fAt A m ν * root r (i * ν) * root k (j * m) =
      if m ∈ Icc (-(mmax : ℤ)) mmax then ∑ n ∈ Icc m.natAbs nmax, c.cf n m * sphY n m (2 * Real.pi * i / r) (2 * Real.pi * j / k) else 0 := by
    intro m hmm
    rw [mem_Ioc] at hmm
    rw [← sum_mul]
    have hf : ∀ ν ∈ Ioc (-((r - 1) / 2 : ℕ) - 1 : ℤ) ((r / 2 : ℕ) : ℤ), fAt A m ν * root r (i * ν) =
        (if m.natAbs ≤ mmax then Gval (cfOf c.vec nmax) nmax m ν else 0) * root r (i * ν) := by
      intro ν hν
      rw [mem_Ioc] at hν
      rw [hA.fAt hr hM hc m ν (by rw [abs_le]; omega) (by omega)]
    rw [sum_congr rfl hf]
    by_cases hmo : m.natAbs ≤ mmax
    · simp only [if_pos hmo]
      rw [if_pos (by rw [mem_Icc]; omega)]
      simp only [root_exp]
      rw [Gval_sum _ _ _ _ _ (by
        intro k hk
        rw [mem_Ioc, not_and_or] at hk
        rw [lt_abs]; omega), sum_mul]
      refine sum_congr rfl fun n hnn => ?_
      have := mem_Icc.mp hnn
      rw [cfOf_eq h hn hm (by omega) (by omega) hmo]
      unfold sphY
      push_cast
      ring
    · simp only [if_neg hmo]
      rw [if_neg (by rw [mem_Icc]; omega)]
      simp
  rw [sum_congr rfl e, ← sum_filter]
  refine sum_congr ?_ fun m _ => ?_
  · ext m
    rw [mem_filter, mem_Ioc, mem_Icc]; omega
  · refine sum_congr rfl fun n _ => ?_
    rw [Int.toNat_natCast]

theorem isphtGuards_ok (n m nr nc : ℤ) (h1 : n < nr) (h2 : 2 * m + 2 ≤ nc) (h3 : nc % 2 = 0) : isphtGuards n m nr nc = .ok () := by
  unfold isphtGuards
  rw [if_neg (by omega), if_neg (by omega), if_neg (by omega)]

/-- `ispht` on a grid large enough. -/
theorem ispht_main (b : Backend) (c : ScalarCoefs ℂ) (h : c.WF) (nrows ncols : Option ℤ) (nr nc : ℕ)
    (hnr : nrows.getD (c.nmax + 2) = nr) (hnc : ncols.getD (2 * c.mmax + 2) = nc)
    (h1 : c.nmax + 2 ≤ nr) (h2 : 2 * c.mmax + 2 ≤ nc) (h3 : nc % 2 = 0) :
    ∃ D, ispht b c nrows ncols = .ok ⟨.arr D⟩ ∧ D.rows = 2 * nr - 2 ∧ D.cols = nc ∧
      (∀ i j : ℕ, i < D.rows → j < D.cols → D.at' i j =
        ∑ p ∈ modes c.nmax c.mmax, c.cf p.1 p.2 * sphY p.1.toNat p.2 (2 * Real.pi * i / D.rows) (2 * Real.pi * j / D.cols)) ∧
      ∀ m ν : ℤ, |ν| ≤ (nr - 1 : ℕ) → 2 * m.natAbs ≤ nc →
        dftc D ν m = if |m| ≤ c.mmax then Gval (fun m n => c.cf n m) c.nmax.toNat m ν else 0 := by
  obtain ⟨nmax, hn⟩ := Int.eq_ofNat_of_zero_le (le_trans h.m0 h.mn)
  obtain ⟨mmax, hm⟩ := Int.eq_ofNat_of_zero_le h.m0
  have hmn := h.mn
  rw [hn, hm] at hmn
  rw [hn] at h1
  rw [hm] at h2
  have hlen : c.vec.length = seg (nmax + 1) (2 * mmax + 1) := by
    have := h.len
    have e := ncFormula_eq (nmax := nmax) (mmax := mmax) (by omega) (by omega)
    rw [hn, hm, e, show ((nmax : ℤ) + 1).toNat = nmax + 1 by omega, Int.toNat_natCast] at this
    exact_mod_cast this
  obtain ⟨A, eA, hA⟩ := scToFc_backend b 0 c.vec nmax mmax (2 * nr - 2) nc (by omega) (by omega) (by omega) hlen
  obtain ⟨D, eD, hDr, hDc, hDv, hDd⟩ := invFourier_spec A (2 * nr - 2) nc hA.rows hA.cols (by omega) (by omega)
  refine ⟨D, ?_, hDr, hDc, fun i j hi hj => ?_, fun m ν hν hmm => ?_⟩
  · unfold ispht
    simp only [hnr, hnc]
    rw [isphtGuards_ok _ _ _ _ (by omega) (by omega) (by omega)]
    simp only [Except.bind_ok]
    rw [hn, hm, show 2 * (nr : ℤ) - 2 = ((2 * nr - 2 : ℕ) : ℤ) by omega, eA]
    simp only [Except.bind_ok]
    rw [eD]
    rfl
  · rw [hDv i j (by omega) (by omega), synth_value h hn hm hA (M := nr - 1) (by omega) (by omega) (by omega), hDr, hDc]
  · rw [hDd, hA.fAt (M := nr - 1) (by omega) (by omega) (by omega) m ν hν hmm, hm, Int.abs_eq_natAbs]
    by_cases hx : m.natAbs ≤ mmax
    · rw [if_pos hx, if_pos (by omega), hn, Int.toNat_natCast]
      unfold Gval
      congr 1
      refine sum_congr rfl fun n hnn => ?_
      have := mem_Icc.mp hnn
      rw [cfOf_eq h hn hm (by omega) (by omega) hx]
    · rw [if_neg hx, if_neg (by omega)]

end Verif
