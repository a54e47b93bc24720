import Verif.VecField
import Verif.Props.Vector
/-!
# Properties C37 (vector) and C50: what `vispht` computes
-/
namespace Verif.Props
open Verif Finset

/-- The samples `vispht` returns are samples of two trigonometric fields. -/
theorem vispht_field (b : Backend) (c : VectorCoefs ℂ) (h : c.WellFormed) (nmax mmax r k : ℕ) (hn : c.nmax = nmax) (hm : c.mmax = mmax)
    (h1 : nmax + 2 ≤ r) (h2 : 2 * mmax + 2 ≤ k) (h3 : k % 2 = 0) :
    ∃ p, vispht b c (some (r : ℤ)) (some (k : ℤ)) = .ok p ∧ p.td.rows = 2 * (r - 1) ∧ p.td.cols = k ∧ p.pd.rows = 2 * (r - 1) ∧ p.pd.cols = k ∧
      (∀ i j : ℕ, i < 2 * (r - 1) → j < k → p.td.at' i j =
        fieldSum (r - 1) mmax (tSeq (wcf c.scoef1) (wcf c.scoef2) nmax) (2 * Real.pi * i / (2 * (r - 1) : ℕ)) (2 * Real.pi * j / k)) ∧
      (∀ i j : ℕ, i < 2 * (r - 1) → j < k → p.pd.at' i j =
        fieldSum (r - 1) mmax (pSeq (wcf c.scoef1) (wcf c.scoef2) nmax) (2 * Real.pi * i / (2 * (r - 1) : ℕ)) (2 * Real.pi * j / k)) := by
  obtain ⟨p, e, t1, t2, p1, p2, vt, vp, hd⟩ := vispht_main b c h (some (r : ℤ)) (some (k : ℤ)) r k rfl rfl (by omega) (by omega) (by omega)
  rw [show 2 * r - 2 = 2 * (r - 1) by omega] at *
  rw [hn, hm, Int.toNat_natCast] at hd
  refine ⟨p, e, t1, t2, p1, p2, fun i j hi hj => ?_, fun i j hi hj => ?_⟩
  · rw [vt i j hi hj, ← field_samples (r - 1) mmax k _ h2 h3 (by omega) (fun m ν hν => by
      unfold tSeq; rw [Gval_support _ _ _ _ (by omega), Hval_support _ _ _ _ (by omega)]; ring)]
    refine sum_congr rfl fun ν hν => sum_congr rfl fun m hm => ?_
    rw [mem_Ioc] at hν hm
    rw [(hd m ν (by rw [abs_le]; omega) (by omega)).1]; rfl
  · rw [vp i j hi hj, ← field_samples (r - 1) mmax k _ h2 h3 (by omega) (fun m ν hν => by
      unfold pSeq; rw [Gval_support _ _ _ _ (by omega), Hval_support _ _ _ _ (by omega)]; ring)]
    refine sum_congr rfl fun ν hν => sum_congr rfl fun m hm => ?_
    rw [mem_Ioc] at hν hm
    rw [(hd m ν (by rw [abs_le]; omega) (by omega)).2]; rfl

theorem tSeq_symm (v u : ℤ → ℕ → ℂ) (nmax : ℕ) (m ν : ℤ) : tSeq v u nmax m (-ν) = -1 * (-1) ^ m * tSeq v u nmax m ν := by
  unfold tSeq; rw [Hval_symm, Gval_symm]; push_cast; ring

theorem pSeq_symm (v u : ℤ → ℕ → ℂ) (nmax : ℕ) (m ν : ℤ) : pSeq v u nmax m (-ν) = -1 * (-1) ^ m * pSeq v u nmax m ν := by
  unfold pSeq; rw [Hval_symm, Gval_symm]; push_cast; ring

theorem vlimits {c : VectorCoefs ℂ} (h : c.WellFormed) : ∃ nmax mmax : ℕ, c.nmax = nmax ∧ c.mmax = mmax ∧ mmax ≤ nmax := by
  have hmn := h.wf1.wf.mn
  have hm0 := h.wf1.wf.m0
  rw [h.n1, h.m1] at hmn
  rw [h.m1] at hm0
  exact ⟨c.nmax.toNat, c.mmax.toNat, by omega, by omega, by omega⟩

/-- C37 (vector): both components of a synthesised transverse pattern are antisymmetric on the double sphere. -/
theorem c37_vispht (b : Backend) (c : VectorCoefs ℂ) (hc : c.WellFormed) (nr nc : ℤ)
    (h1 : c.nmax + 2 ≤ nr) (h2 : 2 * c.mmax + 2 ≤ nc) (h3 : nc % 2 = 0) :
    ∃ p, vispht b c (some nr) (some nc) = .ok p ∧ p.td.rows = 2 * nr - 2 ∧ p.td.cols = nc ∧ p.pd.rows = 2 * nr - 2 ∧ p.pd.cols = nc ∧
      DSym (-1) p.td ∧ DSym (-1) p.pd ∧ p.singleVal = (0, 0) ∧ p.isSymmetric = true := by
  obtain ⟨nmax, mmax, hn, hm, hmn⟩ := vlimits hc
  obtain ⟨r, rfl⟩ := Int.eq_ofNat_of_zero_le (show 0 ≤ nr by omega)
  obtain ⟨k, rfl⟩ := Int.eq_ofNat_of_zero_le (show 0 ≤ nc by omega)
  obtain ⟨p, e, t1, t2, p1, p2, vt, vp⟩ := vispht_field b c hc nmax mmax r k hn hm (by omega) (by omega) (by omega)
  have s1 : DSym (-1) p.td := field_dsym (r - 1) mmax _ (-1) (by norm_num) p.td t1 (by omega) (by omega) (tSeq_symm _ _ _)
    fun i j hi hj => by rw [t2]; exact vt i j (by omega) (by omega)
  have s2 : DSym (-1) p.pd := field_dsym (r - 1) mmax _ (-1) (by norm_num) p.pd p1 (by omega) (by omega) (pSeq_symm _ _ _)
    fun i j hi hj => by rw [p2]; exact vp i j (by omega) (by omega)
  have hs := (svLoop_eq_zero p.td (-1)).mpr s1
  exact ⟨p, e, by omega, by omega, by omega, by omega, s1, s2, by unfold TPatt.singleVal; rw [hs], (c22_transverse_partial p).2 s1 s2⟩

/-! ## C50 -/

/-- Potential of one of the two parts of a tangential field: `Σ v_nm / sqrt(n(n+1)) Y_nm`, over the modes with `n ≥ 1`. -/
noncomputable def potential (nmax mmax : ℤ) (v : ℤ → ℤ → ℂ) (θ φ : ℝ) : ℂ :=
  ∑ p ∈ modes nmax mmax with p.1 ≠ 0, v p.1 p.2 / (Real.sqrt (p.1 * (p.1 + 1)) : ℂ) * sphY p.1.toNat p.2 θ φ

/-- `Eθ, Eφ` are the components of Jackson's expansion `Σ v¹_nm X_nm + v²_nm i r̂×X_nm`, `X_nm = L Y_nm / sqrt(n(n+1))`,
`L = -i r×∇`, `L_θ = (i/sin θ) ∂/∂φ`, `L_φ = -i ∂/∂θ`.  The equations are multiplied by `sin θ`; at the poles the
components are the limits. -/
structure JacksonField (nmax mmax : ℤ) (v w : ℤ → ℤ → ℂ) (Eθ Eφ : ℝ → ℝ → ℂ) : Prop where
  contθ : Continuous fun x : ℝ × ℝ => Eθ x.1 x.2
  contφ : Continuous fun x : ℝ × ℝ => Eφ x.1 x.2
  eqθ : ∀ θ φ : ℝ, Real.sin θ * Eθ θ φ =
    Complex.I * deriv (fun φ => potential nmax mmax v θ φ) φ - Real.sin θ * deriv (fun θ => potential nmax mmax w θ φ) θ
  eqφ : ∀ θ φ : ℝ, Real.sin θ * Eφ θ φ =
    Real.sin θ * (-Complex.I * deriv (fun θ => potential nmax mmax v θ φ) θ) - deriv (fun φ => potential nmax mmax w θ φ) φ

/-- `v, w` list the coefficients of `c`: `c[n, m]` returns the pair for every mode with `n ≥ 1`. -/
def HasCoefsV (c : VectorCoefs ℂ) (v w : ℤ → ℤ → ℂ) : Prop :=
  ∀ n m, IsMode c.nmax c.mmax n m → n ≠ 0 → readMapV c n m = some (v n m, w n m)

theorem HasCoefsV.cf {c : VectorCoefs ℂ} {v w : ℤ → ℤ → ℂ} (h : HasCoefsV c v w) (hc : c.WellFormed) {n m : ℤ}
    (hm : IsMode c.nmax c.mmax n m) (hn : n ≠ 0) : c.scoef1.cf n m = v n m ∧ c.scoef2.cf n m = w n m := by
  have := h n m hm hn
  rw [readMapV_eq hc, if_neg hn] at this
  unfold ScalarCoefs.cf
  cases h1 : c.scoef1.absMap n m with
  | none => rw [h1] at this; cases this
  | some x =>
    cases h2 : c.scoef2.absMap n m with
    | none => rw [h1, h2] at this; cases this
    | some y =>
      rw [h1, h2] at this
      simp only [Option.bind_some, Option.map_some, Option.some.injEq, Prod.mk.injEq] at this
      exact this

theorem potential_field (M nmax mmax : ℕ) (hM : nmax < M) (s : ScalarCoefs ℂ) (v : ℤ → ℤ → ℂ)
    (h : ∀ n m, IsMode nmax mmax n m → n ≠ 0 → s.cf n m = v n m) (θ φ : ℝ) :
    potential nmax mmax v θ φ = fieldSum M mmax (Gval (wcf s) nmax) θ φ := by
  rw [field_Gval M nmax mmax hM]
  have e := sum_modes nmax mmax (fun n m => wcf s m n.toNat * sphY n.toNat m θ φ)
  simp only [Int.toNat_natCast] at e
  rw [← e]
  unfold potential
  rw [sum_filter]
  refine sum_congr rfl fun p hp => ?_
  have hm := mem_modes.mp hp
  unfold wcf wdeg
  by_cases h0 : p.1 = 0
  · rw [if_neg (by simpa using h0)]; simp [h0]
  · have hp0 := hm.1
    rw [if_pos h0, if_neg (by omega), Int.toNat_of_nonneg hp0, h p.1 p.2 hm h0]
    have hc : ((p.1.toNat : ℕ) : ℝ) = ((p.1 : ℤ) : ℝ) := by exact_mod_cast Int.toNat_of_nonneg hp0
    rw [hc]
    push_cast
    ring

theorem continuous_field' (M mmax : ℕ) (F : ℤ → ℤ → ℂ) : Continuous fun x : ℝ × ℝ => fieldSum M mmax F x.1 x.2 := continuous_fieldSum M mmax F

/-- C50: `vispht` samples the tangential field with the given coefficients (Jackson's vector harmonics) on the grid. -/
theorem c50_vispht (b : Backend) (c : VectorCoefs ℂ) (hc : c.WellFormed) (v w : ℤ → ℤ → ℂ) (hv : HasCoefsV c v w) (nr nc : ℤ)
    (h1 : c.nmax + 2 ≤ nr) (h2 : 2 * c.mmax + 2 ≤ nc) (h3 : nc % 2 = 0) :
    ∃ p Eθ Eφ, vispht b c (some nr) (some nc) = .ok p ∧ JacksonField c.nmax c.mmax v w Eθ Eφ ∧
      p.theta.rows = nr ∧ p.theta.cols = nc ∧ p.phi.rows = nr ∧ p.phi.cols = nc ∧
      ∀ i j : ℕ, i < p.theta.rows → j < p.theta.cols →
        p.theta.at' i j = Eθ (Real.pi * i / ((nr : ℝ) - 1)) (2 * Real.pi * j / nc) ∧
        p.phi.at' i j = Eφ (Real.pi * i / ((nr : ℝ) - 1)) (2 * Real.pi * j / nc) := by
  obtain ⟨nmax, mmax, hn, hm, hmn⟩ := vlimits hc
  obtain ⟨r, rfl⟩ := Int.eq_ofNat_of_zero_le (show 0 ≤ nr by omega)
  obtain ⟨k, rfl⟩ := Int.eq_ofNat_of_zero_le (show 0 ≤ nc by omega)
  obtain ⟨p, e, t1, t2, p1, p2, vt, vp⟩ := vispht_field b c hc nmax mmax r k hn hm (by omega) (by omega) (by omega)
  have q1 : ∀ θ φ, potential nmax mmax v θ φ = fieldSum (r - 1) mmax (Gval (wcf c.scoef1) nmax) θ φ :=
    potential_field (r - 1) nmax mmax (by omega) c.scoef1 v fun n m a b => (hv.cf hc (by rw [hn, hm]; exact a) b).1
  have q2 : ∀ θ φ, potential nmax mmax w θ φ = fieldSum (r - 1) mmax (Gval (wcf c.scoef2) nmax) θ φ :=
    potential_field (r - 1) nmax mmax (by omega) c.scoef2 w fun n m a b => (hv.cf hc (by rw [hn, hm]; exact a) b).2
  refine ⟨p, fieldSum (r - 1) mmax (tSeq (wcf c.scoef1) (wcf c.scoef2) nmax), fieldSum (r - 1) mmax (pSeq (wcf c.scoef1) (wcf c.scoef2) nmax),
    e, ?_, ?_, ?_, ?_, ?_, fun i j hi hj => ⟨?_, ?_⟩⟩
  · rw [hn, hm]
    refine ⟨continuous_field' _ _ _, continuous_field' _ _ _, fun θ φ => ?_, fun θ φ => ?_⟩
    · simp only [q1, q2]
      rw [(hasDerivAt_field_phi _ _ _ _ _).deriv, (hasDerivAt_field_theta _ _ _ _ _).deriv]
      have e1 := field_add (r - 1) mmax (Hval (wcf c.scoef1) nmax) (fun m ν => Complex.I * (ν * Gval (wcf c.scoef2) nmax m ν)) (-1) (-1) θ φ
      have e2 := field_Hval (r - 1) nmax mmax (by omega) (wcf c.scoef1) θ φ
      have e3 := field_add (r - 1) mmax (fun m ν => m * Gval (wcf c.scoef1) nmax m ν) (fun m ν => m * Gval (wcf c.scoef1) nmax m ν) Complex.I 0 θ φ
      have e4 : (fun m ν : ℤ => -1 * Hval (wcf c.scoef1) nmax m ν + -1 * (Complex.I * (ν * Gval (wcf c.scoef2) nmax m ν))) = tSeq (wcf c.scoef1) (wcf c.scoef2) nmax := by
        funext m ν; unfold tSeq; ring
      rw [e4] at e1
      simp only [zero_mul, add_zero] at e3
      rw [e1, e3, ← e2]
      linear_combination (-(Real.sin θ * fieldSum (r - 1) mmax (Hval (wcf c.scoef1) nmax) θ φ)) * Complex.I_mul_I
    · simp only [q1, q2]
      rw [(hasDerivAt_field_phi _ _ _ _ _).deriv, (hasDerivAt_field_theta _ _ _ _ _).deriv]
      have e1 := field_add (r - 1) mmax (Hval (wcf c.scoef2) nmax) (fun m ν => Complex.I * (ν * Gval (wcf c.scoef1) nmax m ν)) (-Complex.I) (-Complex.I) θ φ
      have e2 := field_Hval (r - 1) nmax mmax (by omega) (wcf c.scoef2) θ φ
      have e3 := field_add (r - 1) mmax (fun m ν => m * Gval (wcf c.scoef2) nmax m ν) (fun m ν => m * Gval (wcf c.scoef2) nmax m ν) Complex.I 0 θ φ
      have e4 : (fun m ν : ℤ => -Complex.I * Hval (wcf c.scoef2) nmax m ν + -Complex.I * (Complex.I * (ν * Gval (wcf c.scoef1) nmax m ν))) = pSeq (wcf c.scoef1) (wcf c.scoef2) nmax := by
        funext m ν; unfold pSeq
        linear_combination (-(ν * Gval (wcf c.scoef1) nmax m ν)) * Complex.I_mul_I
      rw [e4] at e1
      simp only [zero_mul, add_zero] at e3
      rw [e1, e3, ← e2]
      ring
  · show ((min p.nrows p.td.rows : ℕ) : ℤ) = r
    unfold TPatt.nrows; omega
  · exact_mod_cast t2
  · show ((min p.nrows p.pd.rows : ℕ) : ℤ) = r
    unfold TPatt.nrows; omega
  · exact_mod_cast p2
  · have hi' : i < min p.nrows p.td.rows := hi
    have hj' : j < p.td.cols := hj
    unfold TPatt.theta Arr2.takeRows
    rw [Arr2.at'_ofFn hi' hj', vt i j (by omega) (by omega)]
    congr 1
    have hr1 : (r : ℝ) - 1 ≠ 0 := by
      have : (2 : ℝ) ≤ r := by exact_mod_cast (show 2 ≤ r by omega)
      linarith
    push_cast [Nat.cast_sub (show 1 ≤ r by omega)]
    field_simp
  · have hi' : i < min p.nrows p.td.rows := hi
    have hj' : j < p.td.cols := hj
    unfold TPatt.phi Arr2.takeRows
    rw [Arr2.at'_ofFn (by omega) (by omega), vp i j (by omega) (by omega)]
    congr 1
    have hr1 : (r : ℝ) - 1 ≠ 0 := by
      have : (2 : ℝ) ≤ r := by exact_mod_cast (show 2 ≤ r by omega)
      linarith
    push_cast [Nat.cast_sub (show 1 ≤ r by omega)]
    field_simp

/-- C50, default arguments. -/
theorem c50_defaults (b : Backend) (c : VectorCoefs ℂ) (nr nc : ℤ) :
    vispht b c none none = vispht b c (some (c.nmax + 2)) (some (2 * c.mmax + 2)) ∧
    vispht b c none (some nc) = vispht b c (some (c.nmax + 2)) (some nc) ∧
    vispht b c (some nr) none = vispht b c (some nr) (some (2 * c.mmax + 2)) := ⟨rfl, rfl, rfl⟩

theorem hasCoefsV_cf {c : VectorCoefs ℂ} (hc : c.WellFormed) : HasCoefsV c c.scoef1.cf c.scoef2.cf := by
  intro n m hm hn
  rw [readMapV_eq hc, if_neg hn]
  unfold ScalarCoefs.cf
  rw [ScalarCoefs.absMap_mode hc.wf1.wf (by rw [hc.n1, hc.m1]; exact hm), ScalarCoefs.absMap_mode hc.wf2.wf (by rw [hc.n2, hc.m2]; exact hm)]
  rfl

example : vcsample.WellFormed ∧ HasCoefsV vcsample vcsample.scoef1.cf vcsample.scoef2.cf ∧
    vcsample.nmax + 2 ≤ 5 ∧ 2 * vcsample.mmax + 2 ≤ 6 ∧ (6 : ℤ) % 2 = 0 :=
  ⟨vcsample_wf, hasCoefsV_cf vcsample_wf, by decide, by decide, by decide⟩

end Verif.Props
