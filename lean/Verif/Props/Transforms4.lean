import Verif.Props.Transforms3
/-!
# Properties C29, C36 continued: where the argument checks fall short
-/
namespace Verif.Props
open Verif Finset

/-! ## C36 -/

/-- C36: what `ispht` rejects, for every coefficient set. -/
theorem c36_rejects (b : Backend) (c : ScalarCoefs ℂ) (nr nc : ℤ) (h : nc % 2 = 1 ∨ nr < c.nmax + 1 ∨ nc < 2 * c.mmax + 2) :
    Res.Raises (ispht b c (some nr) (some nc)) .valueError := by
  unfold ispht
  simp only [Option.getD_some]
  have : ∃ msg, isphtGuards c.nmax c.mmax nr nc = .error ⟨.valueError, msg⟩ := by
    unfold isphtGuards
    by_cases h1 : nr ≤ c.nmax
    · rw [if_pos h1]; exact ⟨_, rfl⟩
    rw [if_neg h1]
    by_cases h2 : nc < 2 * c.mmax + 2
    · rw [if_pos h2]; exact ⟨_, rfl⟩
    rw [if_neg h2, if_pos (by omega)]
    exact ⟨_, rfl⟩
  obtain ⟨msg, e⟩ := this
  rw [e]
  exact ⟨msg, rfl⟩

/-- C36: what satisfies the documented conditions is accepted, and the pattern has the requested shape. -/
theorem c36_accepts (b : Backend) (c : ScalarCoefs ℂ) (hc : c.WellFormed) (nr nc : ℤ)
    (h1 : c.nmax + 2 ≤ nr) (h2 : 2 * c.mmax + 2 ≤ nc) (h3 : nc % 2 = 0) :
    ∃ p, ispht b c (some nr) (some nc) = .ok p ∧ (∃ r : ℕ, p.nrows = .ok r ∧ (r : ℤ) = nr) ∧ ∃ k : ℕ, p.ncols = .ok k ∧ (k : ℤ) = nc := by
  obtain ⟨p, D, e, hD, hr, hk, -⟩ := c37_ispht b c hc nr nc h1 h2 h3
  refine ⟨p, e, ⟨D.rows / 2 + 1, ?_, by omega⟩, ⟨D.cols, ?_, hk⟩⟩
  · unfold SPatt.nrows; rw [hD]; rfl
  · unfold SPatt.ncols; rw [hD]; rfl

/-- C36: the documented criterion is exact except for `nrows = nmax + 1`. -/
theorem c36_iff_partial (b : Backend) (c : ScalarCoefs ℂ) (hc : c.WellFormed) (nr nc : ℤ) (hx : nr ≠ c.nmax + 1) :
    Res.Raises (ispht b c (some nr) (some nc)) .valueError ↔ nc % 2 = 1 ∨ nr < c.nmax + 2 ∨ nc < 2 * c.mmax + 2 := by
  constructor
  · rintro ⟨msg, h⟩
    by_contra hn
    obtain ⟨p, e, -⟩ := c36_accepts b c hc nr nc (by omega) (by omega) (by omega)
    rw [h] at e; cases e
  · intro h
    exact c36_rejects b c nr nc (by omega)

/-- C36, violated: `nrows = nmax + 1` is documented to raise ValueError, but for every set with `nmax ≥ 1` a pattern is
returned. -/
theorem c36_counterexample (b : Backend) (c : ScalarCoefs ℂ) (hc : c.WellFormed) (h1 : 1 ≤ c.nmax) (nc : ℤ)
    (h2 : 2 * c.mmax + 2 ≤ nc) (h3 : nc % 2 = 0) : ∃ p, ispht b c (some (c.nmax + 1)) (some nc) = .ok p := by
  have hw := hc.wf
  have hm0 := hw.m0
  have hmn := hw.mn
  obtain ⟨n, hn⟩ := Int.eq_ofNat_of_zero_le (show 0 ≤ c.nmax by omega)
  obtain ⟨m, hm⟩ := Int.eq_ofNat_of_zero_le hm0
  obtain ⟨k, rfl⟩ := Int.eq_ofNat_of_zero_le (show 0 ≤ nc by omega)
  have hlen : c.vec.length = seg (n + 1) (2 * m + 1) := by
    have := hw.len
    have e := ncFormula_eq (nmax := n) (mmax := m) (by omega) (by omega)
    rw [hn, hm, e, show ((n : ℤ) + 1).toNat = n + 1 by omega, Int.toNat_natCast] at this
    exact_mod_cast this
  obtain ⟨A, eA, hA⟩ := scToFc_backend b 0 c.vec n m (2 * n) k (by omega) (by omega) (by omega) hlen
  obtain ⟨D, eD, -⟩ := invFourier_spec A (2 * n) k hA.rows hA.cols (by omega) (by omega)
  refine ⟨⟨.arr D⟩, ?_⟩
  unfold ispht
  simp only [Option.getD_some]
  rw [isphtGuards_ok _ _ _ _ (by omega) (by omega) (by omega)]
  simp only [Except.bind_ok]
  rw [hn, hm, show 2 * ((n : ℤ) + 1) - 2 = ((2 * n : ℕ) : ℤ) by omega, eA]
  simp only [Except.bind_ok]
  rw [eD]
  rfl

theorem thetaPart_one_zero (θ : ℝ) : thetaPart 1 0 θ = normSH 1 0 * Real.cos θ := by
  unfold thetaPart
  have : legendre 1 = Polynomial.X := by
    unfold legendre rodU
    simp only [pow_one, Function.iterate_one, Nat.factorial_one, Nat.cast_one, mul_one, Polynomial.derivative_sub,
      Polynomial.derivative_X_pow, Polynomial.derivative_one, sub_zero]
    rw [← mul_assoc, ← Polynomial.C_mul]
    norm_num
  simp [this]

/-- C36, violated: and the pattern it returns is wrong.  The single harmonic `Y_10` on `nrows = 2` rows: the sample at
the pole is not `Y_10(0, 0)`. -/
theorem c36_wrong_values (b : Backend) :
    ∃ p A, ispht b ⟨[0, 1], 1, 0⟩ (some 2) (some 2) = .ok p ∧ p.array = .ok A ∧ A.at' 0 0 ≠ sphY 1 0 0 0 := by
  have hlen : ([0, 1] : List ℂ).length = seg (1 + 1) (2 * 0 + 1) := by decide
  obtain ⟨A, eA, hA⟩ := scToFc_backend b 0 [0, 1] 1 0 2 2 (by omega) (by omega) (by omega) hlen
  obtain ⟨D, eD, hDr, hDc, hDv, -⟩ := invFourier_spec A 2 2 hA.rows hA.cols (by omega) (by omega)
  refine ⟨⟨.arr D⟩, _, ?_, rfl, ?_⟩
  · unfold ispht
    simp only [Option.getD_some]
    rw [isphtGuards_ok _ _ _ _ (by norm_num) (by norm_num) (by norm_num)]
    simp only [Except.bind_ok]
    have e1 : b.scToFc 0 [0, 1] 1 0 (2 * 2 - 2) 2 = .ok A := by simpa using eA
    rw [e1]
    simp only [Except.bind_ok]
    have e2 : invFourier A (2 * 2 - 2) 2 = .ok D := by simpa using eD
    rw [e2]
    rfl
  · unfold Arr2.takeRows
    rw [Arr2.at'_ofFn (by rw [hDr]; omega) (by rw [hDc]; omega), hDv 0 0 (by omega) (by omega)]
    have hset : Ioc (-((2 - 1) / 2 : ℕ) - 1 : ℤ) ((2 / 2 : ℕ) : ℤ) = {0, 1} := by decide
    rw [hset, sum_pair (by decide), sum_pair (by decide), sum_pair (by decide)]
    have hr : ∀ (k : ℤ), root 2 (((0 : ℕ) : ℤ) * k) = 1 := fun k => by simp [root]
    rw [hr, hr]
    simp only [mul_one]
    have hz : ∀ ν : ℤ, fAt A 1 ν = 0 := by
      intro ν
      unfold fAt
      rw [hA.cols]
      exact hA.zero _ _ (by decide) (by decide)
    have hv : ∀ ν : ℤ, ν = 0 ∨ ν = 1 → fAt A 0 ν = Gval (cfOf [0, 1] 1) 1 0 ν := by
      intro ν hν
      unfold fAt
      rw [hA.rows, hA.cols]
      have := hA.val 0 (ν % (2 : ℕ)).toNat (by simp) (slot_lt' (by omega) _)
      rw [this]
      unfold colEntry
      rcases hν with rfl | rfl <;> norm_num
    rw [hz, hz, hv 0 (.inl rfl), hv 1 (.inr rfl), add_zero, add_zero]
    have hG : ∀ ν : ℤ, Gval (cfOf [0, 1] 1) 1 0 ν = ycoef 1 0 ν := by
      intro ν
      unfold Gval cfOf
      simp only [Int.natAbs_zero, zpow_zero, one_mul]
      rw [show Icc 0 1 = ({0, 1} : Finset ℕ) by decide, sum_pair (by decide)]
      have e0 : rd ([0, 1] : List ℂ) (seg (1 + 1) (ord 0) + (0 - 0)) = 0 := by
        rw [show seg (1 + 1) (ord 0) + (0 - 0) = 0 by decide]; rfl
      have e1 : rd ([0, 1] : List ℂ) (seg (1 + 1) (ord 0) + (1 - 0)) = 1 := by
        rw [show seg (1 + 1) (ord 0) + (1 - 0) = 1 by decide]; rfl
      rw [e0, e1]; ring
    rw [hG, hG]
    have hy := thetaPart_eq_sum 1 0 0 {-1, 0, 1} (by
      intro k hk
      simp only [mem_insert, mem_singleton, not_or] at hk
      rw [lt_abs]; omega)
    have hp := thetaPart_eq_sum 1 0 Real.pi {-1, 0, 1} (by
      intro k hk
      simp only [mem_insert, mem_singleton, not_or] at hk
      rw [lt_abs]; omega)
    rw [thetaPart_one_zero] at hy hp
    rw [sum_insert (by decide), sum_pair (by decide)] at hy hp
    simp only [zpow_zero, one_mul, exp_pi_int] at hp
    have hsym := ycoef_symm 1 0 1
    simp at hy hp hsym
    unfold sphY
    rw [thetaPart_one_zero]
    simp
    have hN : (normSH 1 0 : ℂ) ≠ 0 := by
      have : 0 < normSH 1 0 := by
        unfold normSH
        apply Real.sqrt_pos.mpr
        have := Real.pi_pos
        positivity
      exact_mod_cast this.ne'
    intro hc
    apply hN
    rw [hsym] at hy hp
    norm_num at hp
    have y1 : ycoef 1 0 1 = 0 := by linear_combination -(hc + hy)
    have y0 : ycoef 1 0 0 = 0 := by linear_combination (-(hy + hp)) / 2
    rw [hy, y0, y1]; ring

/-! ## C29, counterexamples -/

/-- C29, violated: `ispht` of a monopole with `nrows = 1` passes the checks and makes the C code access memory outside the
(empty) array. -/
theorem c29_ispht_counterexample (J : ℕ → CJunk) (x : ℂ) :
    Res.Raises (ispht (.c J) ⟨[x], 0, 0⟩ (some 1) (some 2)) .undefinedBehaviour := by
  unfold ispht
  simp only [Option.getD_some]
  rw [isphtGuards_ok _ _ _ _ (by norm_num) (by norm_num) (by norm_num)]
  simp only [Except.bind_ok]
  have h1 : npZeros2 (2 * 1 - 2) 2 = .ok (Arr2.ofFn 0 2 fun _ _ => (0 : ℂ)) := rfl
  have h2 : (Arr2.ofFn 0 2 fun _ _ => (0 : ℂ)).flat = [] := rfl
  have h3 : cScToFc [] 0 2 [x] 0 0 (J 0) = cUB := by
    have r1 : pyRange 0 1 = [0] := by decide
    have r2 : pyRange 0 2 = [0, 1] := by decide
    have r0 : pyRange 1 1 = [] := by decide
    have hm : ∀ f : ℕ → ℝ, tab 1 f = [f 0] := fun f => rfl
    have hi : ∀ f : ℕ → ℤ, tab 1 f = [f 0] := fun f => rfl
    unfold cScToFc cMalloc cMemset0 cInds
    simp [hm, hi, r0, r1, r2, forM', cSet, cGet, cFcvecMSc, cFcvecAcc, cYnunm, cUB]
  unfold Backend.scToFc
  simp only [h1, Except.bind_ok, h2, Arr2.rows_ofFn, Arr2.cols_ofFn]
  rw [show ((0 : ℕ) : ℤ) = 0 from rfl, show ((2 : ℕ) : ℤ) = 2 from rfl, h3]
  exact ⟨_, rfl⟩


/-- A C computation that finishes with a result satisfying `P`, or is undefined. -/
def OkOrUB {α : Type} (P : α → Prop) (x : Res α) : Prop := x = cUB ∨ ∃ v, x = .ok v ∧ P v

theorem OkOrUB.bind {α β : Type} {P : α → Prop} {Q : β → Prop} {x : Res α} {f : α → Res β} (h : OkOrUB P x)
    (hf : ∀ v, P v → OkOrUB Q (f v)) : OkOrUB Q (x.bind f) := by
  rcases h with rfl | ⟨v, rfl, hv⟩
  · exact .inl rfl
  · exact hf v hv

theorem OkOrUB.forM' {σ ι : Type} {P : σ → Prop} (body : σ → ι → Res σ) (h : ∀ s x, P s → OkOrUB P (body s x)) (xs : List ι) :
    ∀ s, P s → OkOrUB P (forM' xs s body) := by
  induction xs with
  | nil => exact fun s hs => .inr ⟨s, rfl, hs⟩
  | cons x xs ih => exact fun s hs => (h s x hs).bind ih

theorem cGet_okOrUB {α : Type} (l : List α) (i : ℤ) : OkOrUB (fun _ => True) (cGet l i) := by
  unfold cGet
  split
  · split
    · exact .inr ⟨_, rfl, trivial⟩
    · exact .inl rfl
  · exact .inl rfl

theorem cSet_okOrUB {α : Type} (l : List α) (i : ℤ) (v : α) : OkOrUB (fun l' => l'.length = l.length) (cSet l i v) := by
  unfold cSet
  split
  · exact .inr ⟨_, rfl, by simp⟩
  · exact .inl rfl

theorem cSData_okOrUB (s : List ℂ) (Q : ℕ) (hs : s.length = Q) (R N : ℤ) : OkOrUB (fun l => l.length = Q) (cSData s Q R N) := by
  unfold cSData
  refine OkOrUB.bind (P := fun l => l.length = Q) ?_ fun s1 h1 => ?_
  · rw [cMemset0_ok s Q hs]; exact .inr ⟨_, rfl, by simp⟩
  have step : ∀ (s : List ℂ) (i : ℤ) (g : ℂ → ℂ), s.length = Q → OkOrUB (fun l => l.length = Q) ((cGet s i).bind fun z => cSet s i (g z)) :=
    fun s i g h => (cGet_okOrUB s i).bind fun z _ => by simpa only [h] using cSet_okOrUB s i (g z)
  refine OkOrUB.bind (P := fun l => l.length = Q) ?_ fun s2 h2 => ?_
  · refine OkOrUB.forM' _ (fun s k h => ?_) _ s1 h1
    split
    · exact step s _ _ h
    · exact .inr ⟨s, rfl, h⟩
  · refine OkOrUB.forM' _ (fun s k h => ?_) _ s2 h2
    split
    · exact step s _ _ h
    · exact .inr ⟨s, rfl, h⟩

/-- C29, violated: `spht(p, -1, -1)` passes the argument checks and makes the C code use memory it did not get. -/
theorem c29_spht_counterexample (J : ℕ → CJunk) (D : Arr2 ℂ) (hR : D.rows % 2 = 0) (hR0 : 0 < D.rows) (hsz : D.rows ≤ 2 ^ 29)
    (h4 : D.cols % 2 = 0) (h5 : 0 < D.cols) : Res.Raises (spht (.c J) ⟨.arr D⟩ (some (-1)) (some (-1))) .undefinedBehaviour := by
  obtain ⟨E, eE, hEr, hEc, hEv⟩ := extFourier_spec D hR hR0 h5
  obtain ⟨G, eG, hGr, hGc, -⟩ := sinFc_spec E (D.rows / 2) (by omega) (by omega) (fhat D) hEv (fhat_outer D) (by omega)
  unfold spht
  have e1 : SPatt.nrows (⟨.arr D⟩ : SPatt ℂ) = .ok (D.rows / 2 + 1) := rfl
  have e2 : SPatt.ncols (⟨.arr D⟩ : SPatt ℂ) = .ok D.cols := rfl
  have e4 : SPatt.dsphere (⟨.arr D⟩ : SPatt ℂ) = .ok D := rfl
  have e3 : sphtArgs (SPatt.nrows (⟨.arr D⟩ : SPatt ℂ)) (SPatt.ncols (⟨.arr D⟩ : SPatt ℂ)) (some (-1)) (some (-1)) = .ok (-1, -1) := rfl
  rw [e3, e1, e2, e4]
  simp only [Except.bind_ok]
  rw [sphtGuards_ok _ _ _ _ (by omega) (by omega) (by omega) h4]
  simp only [Except.bind_ok]
  rw [eE]
  simp only [Except.bind_ok]
  rw [eG]
  simp only [Except.bind_ok]
  have hz : npFull (ncFormula (-1) (-1)) (0 : ℂ) = .ok [] := rfl
  have key : cFcToSc G.flat G.rows G.cols [] (-1) (-1) (J 0) = cUB := by
    unfold cFcToSc
    obtain ⟨Q, eQ, hQ1, hQ2⟩ := cFindQ_spec (G.rows - 1) (by omega) (by norm_num at hsz ⊢; omega)
    rw [show ((G.rows - 1 : ℕ) : ℤ) = G.rows + -1 by omega] at eQ
    rw [eQ]
    simp only [orDiverge, Except.bind_ok]
    have mal : cMalloc (Q : ℤ) ((J 0).c (-1)) = .ok (tab Q ((J 0).c (-1))) := by
      unfold cMalloc; rw [if_neg (by omega), Int.toNat_natCast]
    rw [mal]
    simp only [Except.bind_ok]
    rcases cSData_okOrUB (tab Q ((J 0).c (-1))) Q (by simp) G.rows (-1) with h | ⟨s, h, hs⟩
    · rw [h]; rfl
    rw [h]
    simp only [Except.bind_ok]
    obtain ⟨fw, efw, f1, f2, f3⟩ := kissAlloc_ok Q false (by omega) (by omega)
    obtain ⟨bw, ebw, b1, b2, b3⟩ := kissAlloc_ok Q true (by omega) (by omega)
    have hfw : KissOK fw false Q := ⟨f1, f2, f3⟩
    rw [efw, ebw]
    simp only [Except.bind_ok]
    rw [hfw.fft (by omega) s hs]
    simp only [Except.bind_ok]
    have m1 : cMalloc (-1 + 1) ((J 0).c (-9)) = .ok [] := rfl
    have m2 : cMalloc (-1 + 1) (J 0).r = .ok [] := rfl
    have m3 : cMalloc (2 * -1 + 1) (J 0).i = cUB := rfl
    have m4 : cMalloc (Q : ℤ) ((J 0).c (-13)) = .ok (tab Q ((J 0).c (-13))) := by
      unfold cMalloc; rw [if_neg (by omega), Int.toNat_natCast]
    rw [m1, m2, m3, m4]
    rfl
  unfold Backend.fcToSc
  simp only
  rw [hz]
  simp only [Except.bind_ok]
  rw [key]
  exact ⟨_, rfl⟩

/-! ## C28: the routines themselves -/

/-- C28: `csphi.fc_to_sc` and `pysphi.fc_to_sc` compute the same vector from the same Fourier data. -/
theorem c28_fc_to_sc (A : Arr2 ℂ) (nmax mmax : ℕ) (hL : A.rows % 2 = 0) (hL0 : 0 < A.rows) (hM : mmax ≤ nmax) (hc : mmax < A.cols)
    (hny : ∀ j, j < A.cols → A.at' (A.rows / 2) j = 0) (hsz : A.rows + nmax ≤ 2 ^ 30)
    (sc : List ℂ) (hsc : (sc.length : ℤ) = ncFormula nmax mmax) (J : CJunk) :
    cFcToSc A.flat A.rows A.cols sc nmax mmax J = fcToSc A nmax mmax := by
  refine cFcToSc_eq A nmax mmax hL hL0 hM hc (fun m => ?_) hsz sc ?_ J
  · unfold fAt
    rw [show (((A.rows : ℤ) / 2) % (A.rows : ℤ)).toNat = A.rows / 2 by rw [Int.emod_eq_of_lt (by omega) (by omega)]; omega]
    exact hny _ (slot_lt' (by omega) _)
  · rw [ncFormula_eq (nmax := nmax) (mmax := mmax) (by omega) (by omega), show ((nmax : ℤ) + 1).toNat = nmax + 1 by omega,
      Int.toNat_natCast] at hsc
    exact_mod_cast hsc

/-- C28: `csphi.sc_to_fc` (given an array of zeros) and `pysphi.sc_to_fc` compute the same array from the same vector. -/
theorem c28_sc_to_fc (vec : List ℂ) (nmax mmax r c : ℕ) (hM : mmax ≤ nmax) (hr : nmax + 1 ≤ r) (hc : 2 * mmax + 2 ≤ c)
    (hl : (vec.length : ℤ) = ncFormula nmax mmax) (J : CJunk) :
    ∃ A, scToFc vec nmax mmax r c = .ok A ∧ A.rows = r ∧ A.cols = c ∧
      cScToFc (Arr2.ofFn r c fun _ _ => (0 : ℂ)).flat r c vec nmax mmax J = .ok A.flat := by
  refine cScToFc_eq vec nmax mmax r c hM hr hc ?_ J
  rw [ncFormula_eq (nmax := nmax) (mmax := mmax) (by omega) (by omega), show ((nmax : ℤ) + 1).toNat = nmax + 1 by omega,
    Int.toNat_natCast] at hl
  exact_mod_cast hl

/-! ## C25: the C routine -/

/-- C25: `FindQ(S)` returns the least number `≥ S` whose prime factors are in `{2, 3, 5}`. -/
theorem c25_c (S : ℕ) (hS : 1 ≤ S) :
    ∃ R : ℕ, cFindQ S = some (R : Int) ∧ S ≤ R ∧ (∀ p, p.Prime → p ∣ R → p = 2 ∨ p = 3 ∨ p = 5) ∧
      ∀ T, S ≤ T → T < R → ∃ p, p.Prime ∧ p ∣ T ∧ 5 < p := by
  obtain ⟨R, h1, h2, h3, h4⟩ := findQ_loopEq.least (by simp) S hS
  refine ⟨R, h1, h2, fun p hp hd => by simpa using h3 p hp hd, fun T hT hR => ?_⟩
  have := h4 T hT hR
  unfold SmoothOver at this
  push Not at this
  obtain ⟨p, hp, hd, hn⟩ := this
  refine ⟨p, hp, hd, ?_⟩
  simp only [List.mem_cons, List.not_mem_nil, or_false, not_or] at hn
  by_contra hlt
  have hle : p ≤ 5 := by omega
  interval_cases p <;> simp_all (config := { decide := true })

/-- Witness: 7 -> 8, unlike the Python routine, which keeps 7. -/
example : cFindQ 7 = some 8 := by
  obtain ⟨R, h1, h2, h3, h4⟩ := c25_c 7 (by omega)
  have h7 : R ≠ 7 := fun e => by
    have := h3 7 (by decide) (by rw [e]); omega
  have h8 : ¬ 8 < R := fun hlt => by
    obtain ⟨p, hp, hd, h7⟩ := h4 8 (by omega) hlt
    have : p ∣ 2 ^ 3 := by simpa using hd
    have := (Nat.prime_dvd_prime_iff_eq hp Nat.prime_two).mp (hp.dvd_of_dvd_pow this); omega
  have : R = 8 := by omega
  rw [this] at h1; exact_mod_cast h1

end Verif.Props
