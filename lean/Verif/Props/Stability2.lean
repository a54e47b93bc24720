import Verif.StabMathV
import Verif.Props.Stability
import Verif.Props.Symmetry3
/-!
# Properties C77 and C78: the vector transforms are well conditioned
-/
namespace Verif.Props
open Verif Finset

/-! ## C77: analysis -/

theorem deriv_thetaPart (n : ℕ) (m : ℤ) (θ : ℝ) : deriv (fun θ => thetaPart n m θ) θ = tPart n m θ := (hasDerivAt_thetaR n m θ).deriv

/-- θ-profile of the order-`l` Fourier component of a sample array. -/
noncomputable def prof (D : Arr2 ℂ) (l : ℤ) : C(ℝ, ℂ) := ⟨trigSum (D.rows / 2) (fhat D l), continuous_trigSum _ _⟩

/-- The two coefficients of `vspht` as inner products. -/
theorem vspht_form (T P : Arr2 ℂ) (hr : P.rows = T.rows) (hC : T.cols % 2 = 0) (hCP : P.cols % 2 = 0) (hT : DSym (-1) T) (hP : DSym (-1) P)
    (k : ℕ) (hk : k ≠ 0) (l : ℤ) :
    wdeg k * bF (T.rows / 2 + 1) (sldot l (fhat T l) (fhat P l)) l k = 2 * Real.pi * vecForm (prof T l, prof P l) (vfam l (true, k)) ∧
    wdeg k * bF (T.rows / 2 + 1) (sldot l (fun ν => -Complex.I * fhat P l ν) (fun ν => Complex.I * fhat T l ν)) l k =
      2 * Real.pi * vecForm (prof T l, prof P l) (vfam l (false, k)) := by
  have zT : ∀ ν : ℤ, ((T.rows / 2 : ℕ) : ℤ) ≤ |ν| → fhat T l ν = 0 := fun ν hν => fhat_outer T l ν hν
  have zP : ∀ ν : ℤ, ((T.rows / 2 : ℕ) : ℤ) ≤ |ν| → fhat P l ν = 0 := fun ν hν => fhat_outer P l ν (by rw [hr]; exact hν)
  have sT : ∀ ν, fhat T l (-ν) = -1 * (-1) ^ l * fhat T l ν := fun ν => fhat_symm T (-1) hT hC ν l
  have sP : ∀ ν, fhat P l (-ν) = -1 * (-1) ^ l * fhat P l ν := fun ν => fhat_symm P (-1) hP hCP ν l
  have ct := continuous_trigSum (T.rows / 2) (fhat T l)
  have cp := continuous_trigSum (T.rows / 2) (fhat P l)
  have h1 := continuous_tPart k l
  have h2 := continuous_hPart k l
  have h3 := continuous_thetaR k l
  have hs : ∀ θ : ℝ, (Real.sin θ : ℂ) * (hPart k l θ : ℂ) = l * (thetaPart k l θ : ℂ) := fun θ => by exact_mod_cast sin_hPart k l θ
  have ep : trigSum (P.rows / 2) (fhat P l) = trigSum (T.rows / 2) (fhat P l) := by rw [hr]
  have hw : wdeg k = 1 / (Real.sqrt (k * (k + 1)) : ℂ) := by
    unfold wdeg; rw [if_neg hk]; push_cast; ring
  constructor
  · rw [sldot_integral (T.rows / 2) _ _ l k zT zP sT sP, vecForm_apply, thetaForm_apply, thetaForm_apply,
      ← intervalIntegral.integral_add (ii_of_cont (by fun_prop) _ _) (ii_of_cont (by fun_prop) _ _),
      mul_left_comm, hw, ← intervalIntegral.integral_const_mul]
    congr 1
    refine intervalIntegral.integral_congr fun θ _ => ?_
    simp only [vfam, if_true, cfun, prof, ContinuousMap.coe_mk, ep, map_mul, map_div₀, map_neg, map_one, Complex.conj_I, Complex.conj_ofReal, deriv_thetaPart]
    linear_combination (trigSum (T.rows / 2) (fhat T l) θ / (Real.sqrt (k * (k + 1)) : ℂ)) * hs θ
  · rw [sldot_integral (T.rows / 2) _ _ l k (fun ν hν => by rw [zP ν hν, mul_zero]) (fun ν hν => by rw [zT ν hν, mul_zero])
      (fun ν => by rw [sP]; ring) (fun ν => by rw [sT]; ring), vecForm_apply, thetaForm_apply, thetaForm_apply,
      ← intervalIntegral.integral_add (ii_of_cont (by fun_prop) _ _) (ii_of_cont (by fun_prop) _ _),
      mul_left_comm, hw, ← intervalIntegral.integral_const_mul]
    congr 1
    refine intervalIntegral.integral_congr fun θ _ => ?_
    have a1 : trigSum (T.rows / 2) (fun ν => -Complex.I * fhat P l ν) θ = -Complex.I * trigSum (T.rows / 2) (fhat P l) θ := by
      unfold trigSum; rw [mul_sum]; exact sum_congr rfl fun _ _ => by ring
    have a2 : trigSum (T.rows / 2) (fun ν => Complex.I * fhat T l ν) θ = Complex.I * trigSum (T.rows / 2) (fhat T l) θ := by
      unfold trigSum; rw [mul_sum]; exact sum_congr rfl fun _ _ => by ring
    simp only [vfam, Bool.false_eq_true, if_false, cfun, prof, ContinuousMap.coe_mk, ep, map_mul, map_div₀, map_neg, map_one, Complex.conj_I, Complex.conj_ofReal, deriv_thetaPart, a1, a2]
    linear_combination (trigSum (T.rows / 2) (fhat T l) θ * (tPart k l θ : ℂ) * (Real.sin θ : ℂ) / (Real.sqrt (k * (k + 1)) : ℂ)) * Complex.I_mul_I -
      (Complex.I * trigSum (T.rows / 2) (fhat P l) θ / (Real.sqrt (k * (k + 1)) : ℂ)) * hs θ

/-- Sum over the modes with `n ≥ 1`, order by order. -/
theorem sum_modes_pos (n m : ℕ) (f : ℤ → ℤ → ℝ) :
    ∑ p ∈ modes n m with p.1 ≠ 0, f p.1 p.2 = ∑ l ∈ Icc (-(m : ℤ)) m, ∑ k ∈ Icc (max 1 l.natAbs) n, f (k : ℕ) l := by
  rw [sum_filter, sum_modes n m fun k l => if k ≠ 0 then f k l else 0]
  refine sum_congr rfl fun l _ => ?_
  symm
  refine (sum_congr rfl fun k hk => ?_).trans (sum_subset (s₁ := Icc (max 1 l.natAbs) n) (fun k hk => ?_) fun k hk hk' => ?_)
  · rw [mem_Icc] at hk; rw [if_pos (by omega)]
  · rw [mem_Icc] at *; omega
  · rw [mem_Icc] at hk hk'; rw [if_neg (by push Not; omega)]

/-- The sum of the squared analysis coefficients of antisymmetric data. -/
theorem vanalysis_bessel (T P : Arr2 ℂ) (hr : P.rows = T.rows) (hc : P.cols = T.cols) (hT : DSym (-1) T) (hP : DSym (-1) P) (hR0 : 0 < T.rows)
    (hR : T.rows % 2 = 0) (hC : T.cols % 2 = 0) (n m : ℕ) (hm : 2 * m < T.cols) :
    ∑ p ∈ modes n m with p.1 ≠ 0, (‖wdeg p.1.toNat * bF (T.rows / 2 + 1) (sldot p.2 (fhat T p.2) (fhat P p.2)) p.2 p.1.toNat‖ ^ 2 +
        ‖wdeg p.1.toNat * bF (T.rows / 2 + 1) (sldot p.2 (fun ν => -Complex.I * fhat P p.2 ν) (fun ν => Complex.I * fhat T p.2 ν)) p.2 p.1.toNat‖ ^ 2) ≤
      2 * Real.pi ^ 2 * (∑ i ∈ range T.rows, ∑ j ∈ range T.cols, (‖T.at' i j‖ ^ 2 + ‖P.at' i j‖ ^ 2)) / (T.rows * T.cols) := by
  have hpi := Real.pi_pos
  rw [sum_modes_pos n m fun k l => ‖wdeg k.toNat * bF (T.rows / 2 + 1) (sldot l (fhat T l) (fhat P l)) l k.toNat‖ ^ 2 +
        ‖wdeg k.toNat * bF (T.rows / 2 + 1) (sldot l (fun ν => -Complex.I * fhat P l ν) (fun ν => Complex.I * fhat T l ν)) l k.toNat‖ ^ 2]
  have par := norm_trig_parseval (-1) (by simp)
  have step : ∀ l ∈ Icc (-(m : ℤ)) m, ∑ k ∈ Icc (max 1 l.natAbs) n,
      (‖wdeg ((k : ℕ) : ℤ).toNat * bF (T.rows / 2 + 1) (sldot l (fhat T l) (fhat P l)) l ((k : ℕ) : ℤ).toNat‖ ^ 2 +
        ‖wdeg ((k : ℕ) : ℤ).toNat * bF (T.rows / 2 + 1) (sldot l (fun ν => -Complex.I * fhat P l ν) (fun ν => Complex.I * fhat T l ν)) l ((k : ℕ) : ℤ).toNat‖ ^ 2) ≤
      2 * Real.pi ^ 2 * (∑ ν ∈ Ioo (-((T.rows / 2 : ℕ) : ℤ)) (T.rows / 2 : ℕ), ‖dftc T ν l‖ ^ 2 +
        ∑ ν ∈ Ioo (-((P.rows / 2 : ℕ) : ℤ)) (P.rows / 2 : ℕ), ‖dftc P ν l‖ ^ 2) := by
    intro l _
    have bv := bessel_vec (prof T l) (prof P l) l n
    rw [sum_product, Fintype.sum_bool, ← sum_add_distrib] at bv
    have e1 : (∫ θ in (0 : ℝ)..Real.pi, ‖prof T l θ‖ ^ 2) = _ := par T hT hC l
    have e2 : (∫ θ in (0 : ℝ)..Real.pi, ‖prof P l θ‖ ^ 2) = _ := par P hP (by omega) l
    rw [e1, e2] at bv
    refine le_trans (le_of_eq (sum_congr rfl fun k hk => ?_)) (bv.trans (le_of_eq (by ring)))
    rw [mem_Icc] at hk
    obtain ⟨f1, f2⟩ := vspht_form T P hr hC (by omega) hT hP k (by omega) l
    rw [Int.toNat_natCast, f1, f2]
  refine (sum_le_sum step).trans ?_
  rw [← mul_sum, mul_div_assoc, sum_add_distrib]
  refine mul_le_mul_of_nonneg_left ?_ (by positivity)
  have d1 := dft_modes_bessel T hR0 hR m hm
  have d2 := dft_modes_bessel P (by omega) (by omega) m (by omega)
  rw [hr, hc] at d2
  simp only [sum_add_distrib, add_div]
  rw [hr]
  exact add_le_add d1 d2

/-- C77 (`vspht` is bounded): the squared magnitudes of all coefficients of both families add up to at most `2π²` times the mean of
`|Eθ|² + |Eφ|²` over the double sphere. -/
theorem c77_bounded (b : Backend) (T P : Arr2 ℂ) (hr : P.rows = T.rows) (hc : P.cols = T.cols) (hR : T.rows % 2 = 0) (hR0 : 0 < T.rows)
    (hsz : T.rows ≤ 2 ^ 29) (hT : DSym (-1) T) (hP : DSym (-1) P) (n m : ℤ) (h0 : 0 ≤ m) (c : VectorCoefs ℂ)
    (h : vspht b ⟨T, P⟩ (some n) (some m) = .ok c) :
    ∃ x y : ℤ → ℤ → ℂ, HasCoefsV c x y ∧
      ∑ p ∈ modes n m with p.1 ≠ 0, (‖x p.1 p.2‖ ^ 2 + ‖y p.1 p.2‖ ^ 2) ≤
        2 * Real.pi ^ 2 * (∑ i ∈ range T.rows, ∑ j ∈ range T.cols, (‖T.at' i j‖ ^ 2 + ‖P.at' i j‖ ^ 2)) / (T.rows * T.cols) := by
  have hnr := vspht_ok_args h
  obtain ⟨c', e, c1, c2, -, cv⟩ := vspht_value b T P hr hc hR hR0 hsz n m h0 hnr
  rw [h] at e; cases e
  obtain ⟨n', rfl⟩ := Int.eq_ofNat_of_zero_le (show 0 ≤ n by omega)
  obtain ⟨m', rfl⟩ := Int.eq_ofNat_of_zero_le h0
  exact ⟨fun k l => _, fun k l => _, fun k l hk hk0 => cv k l (by rw [← c1, ← c2]; exact hk) hk0,
    vanalysis_bessel T P hr hc hT hP hR0 hR (by omega) n' m' (by omega)⟩

theorem linArr_sub_at (D E : Arr2 ℂ) (hr : E.rows = D.rows) (hc : E.cols = D.cols) (i j : ℕ) (hi : i < D.rows) (hj : j < D.cols) :
    (linArr 1 (-1) D E).at' i j = D.at' i j - E.at' i j := by
  rw [linArr_at 1 (-1) D E hr hc hi hj]; ring

theorem dsym_sub (σ : ℂ) (D E : Arr2 ℂ) (hr : E.rows = D.rows) (hc : E.cols = D.cols) (hD : DSym σ D) (hE : DSym σ E) : DSym σ (linArr 1 (-1) D E) := by
  intro i j hi hj
  change i < D.rows at hi
  change j < D.cols at hj
  have hi' : (D.rows - i) % D.rows < D.rows := Nat.mod_lt _ (by omega)
  have hj' : (j + D.cols / 2) % D.cols < D.cols := Nat.mod_lt _ (by omega)
  change (linArr 1 (-1) D E).at' i j = σ * (linArr 1 (-1) D E).at' ((D.rows - i) % D.rows) ((j + D.cols / 2) % D.cols)
  rw [linArr_sub_at D E hr hc i j hi hj, linArr_sub_at D E hr hc _ _ hi' hj', hD i j hi hj, hE i j (by omega) (by omega), hr, hc]
  ring

/-- C77 (`vspht` is stable): two transverse patterns on the same grid. -/
theorem c77_stable (b b' : Backend) (T P T' P' : Arr2 ℂ) (hr : P.rows = T.rows) (hc : P.cols = T.cols) (hr' : T'.rows = T.rows) (hc' : T'.cols = T.cols)
    (hr'' : P'.rows = T.rows) (hc'' : P'.cols = T.cols) (hR : T.rows % 2 = 0) (hR0 : 0 < T.rows)
    (hsz : T.rows ≤ 2 ^ 29) (hT : DSym (-1) T) (hP : DSym (-1) P) (hT' : DSym (-1) T') (hP' : DSym (-1) P') (n m : ℤ) (h0 : 0 ≤ m) (c : VectorCoefs ℂ)
    (h : vspht b ⟨T, P⟩ (some n) (some m) = .ok c) :
    ∃ d, vspht b' ⟨T', P'⟩ (some n) (some m) = .ok d ∧ ∃ x y x' y' : ℤ → ℤ → ℂ, HasCoefsV c x y ∧ HasCoefsV d x' y' ∧
      ∑ p ∈ modes n m with p.1 ≠ 0, (‖x p.1 p.2 - x' p.1 p.2‖ ^ 2 + ‖y p.1 p.2 - y' p.1 p.2‖ ^ 2) ≤
        2 * Real.pi ^ 2 * (∑ i ∈ range T.rows, ∑ j ∈ range T.cols, (‖T.at' i j - T'.at' i j‖ ^ 2 + ‖P.at' i j - P'.at' i j‖ ^ 2)) / (T.rows * T.cols) ∧
      ∀ ε : ℝ, (∀ i j, i < T.rows → j < T.cols → ‖T.at' i j - T'.at' i j‖ ≤ ε ∧ ‖P.at' i j - P'.at' i j‖ ≤ ε) →
        ∀ k l, IsMode n m k l → k ≠ 0 → ‖x k l - x' k l‖ ≤ 2 * Real.pi * ε ∧ ‖y k l - y' k l‖ ≤ 2 * Real.pi * ε := by
  have hnr := vspht_ok_args h
  obtain ⟨c', e, c1, c2, -, cv⟩ := vspht_value b T P hr hc hR hR0 hsz n m h0 hnr
  rw [h] at e; cases e
  obtain ⟨d, e, d1, d2, -, dv⟩ := vspht_value b' T' P' (by omega) (by omega) (by omega) (by omega) (by omega) n m h0 (by rw [hr', hc']; exact hnr)
  obtain ⟨n', rfl⟩ := Int.eq_ofNat_of_zero_le (show 0 ≤ n by omega)
  obtain ⟨m', rfl⟩ := Int.eq_ofNat_of_zero_le h0
  have key := vanalysis_bessel (linArr 1 (-1) T T') (linArr 1 (-1) P P') hr hc (dsym_sub (-1) T T' hr' hc' hT hT')
    (dsym_sub (-1) P P' (by omega) (by omega) hP hP') hR0 hR (show T.cols % 2 = 0 by omega) n' m' (show 2 * m' < T.cols by omega)
  have eqS : ∑ i ∈ range (linArr 1 (-1) T T').rows, ∑ j ∈ range (linArr 1 (-1) T T').cols, (‖(linArr 1 (-1) T T').at' i j‖ ^ 2 + ‖(linArr 1 (-1) P P').at' i j‖ ^ 2) =
      ∑ i ∈ range T.rows, ∑ j ∈ range T.cols, (‖T.at' i j - T'.at' i j‖ ^ 2 + ‖P.at' i j - P'.at' i j‖ ^ 2) :=
    sum_congr rfl fun i hi => sum_congr rfl fun j hj => by
      have hi := mem_range.mp hi
      have hj := mem_range.mp hj
      change i < T.rows at hi
      change j < T.cols at hj
      rw [linArr_sub_at T T' hr' hc' i j hi hj, linArr_sub_at P P' (by omega) (by omega) i j (by omega) (by omega)]
  rw [eqS] at key
  have sub1 : ∀ (k : ℕ) (l : ℤ), wdeg k * bF ((linArr 1 (-1) T T').rows / 2 + 1) (sldot l (fhat (linArr 1 (-1) T T') l) (fhat (linArr 1 (-1) P P') l)) l k =
      wdeg k * bF (T.rows / 2 + 1) (sldot l (fhat T l) (fhat P l)) l k - wdeg k * bF (T'.rows / 2 + 1) (sldot l (fhat T' l) (fhat P' l)) l k := by
    intro k l
    rw [show (linArr 1 (-1) T T').rows = T.rows from rfl, hr']
    have : sldot l (fhat (linArr 1 (-1) T T') l) (fhat (linArr 1 (-1) P P') l) =
        fun ν => (1 : ℂ) * sldot l (fhat T l) (fhat P l) ν + (-1) * sldot l (fhat T' l) (fhat P' l) ν := by
      funext ν
      unfold sldot
      simp only [fhat_lin 1 (-1) T T' hr' hc', fhat_lin 1 (-1) P P' (by omega : P'.rows = P.rows) (by omega : P'.cols = P.cols)]
      ring
    rw [this, bF_lin]; ring
  have sub2 : ∀ (k : ℕ) (l : ℤ), wdeg k * bF ((linArr 1 (-1) T T').rows / 2 + 1) (sldot l (fun ν => -Complex.I * fhat (linArr 1 (-1) P P') l ν) (fun ν => Complex.I * fhat (linArr 1 (-1) T T') l ν)) l k =
      wdeg k * bF (T.rows / 2 + 1) (sldot l (fun ν => -Complex.I * fhat P l ν) (fun ν => Complex.I * fhat T l ν)) l k -
      wdeg k * bF (T'.rows / 2 + 1) (sldot l (fun ν => -Complex.I * fhat P' l ν) (fun ν => Complex.I * fhat T' l ν)) l k := by
    intro k l
    rw [show (linArr 1 (-1) T T').rows = T.rows from rfl, hr']
    have : sldot l (fun ν => -Complex.I * fhat (linArr 1 (-1) P P') l ν) (fun ν => Complex.I * fhat (linArr 1 (-1) T T') l ν) =
        fun ν => (1 : ℂ) * sldot l (fun ν => -Complex.I * fhat P l ν) (fun ν => Complex.I * fhat T l ν) ν +
          (-1) * sldot l (fun ν => -Complex.I * fhat P' l ν) (fun ν => Complex.I * fhat T' l ν) ν := by
      funext ν
      unfold sldot
      simp only [fhat_lin 1 (-1) T T' hr' hc', fhat_lin 1 (-1) P P' (by omega : P'.rows = P.rows) (by omega : P'.cols = P.cols)]
      ring
    rw [this, bF_lin]; ring
  simp only [sub1, sub2] at key
  change _ ≤ 2 * Real.pi ^ 2 * _ / (T.rows * T.cols) at key
  refine ⟨d, e, fun k l => _, fun k l => _, fun k l => _, fun k l => _, fun k l hk hk0 => cv k l (by rw [← c1, ← c2]; exact hk) hk0,
    fun k l hk hk0 => dv k l (by rw [← d1, ← d2]; exact hk) hk0, key, fun ε hε k l hk hk0 => ?_⟩
  have hR' : (0 : ℝ) < T.rows := by exact_mod_cast hR0
  have hC' : (0 : ℝ) < T.cols := by exact_mod_cast (show 0 < T.cols by omega)
  have hε0 : 0 ≤ ε := (norm_nonneg _).trans (hε 0 0 hR0 (by omega)).1
  have hpi := Real.pi_pos
  have s2 : ∑ i ∈ range T.rows, ∑ j ∈ range T.cols, (‖T.at' i j - T'.at' i j‖ ^ 2 + ‖P.at' i j - P'.at' i j‖ ^ 2) ≤ T.rows * T.cols * (2 * ε ^ 2) := by
    calc _ ≤ ∑ i ∈ range T.rows, ∑ j ∈ range T.cols, (ε ^ 2 + ε ^ 2) := sum_le_sum fun i hi => sum_le_sum fun j hj => by
          obtain ⟨a1, a2⟩ := hε i j (mem_range.mp hi) (mem_range.mp hj)
          gcongr
      _ = _ := by simp; ring
  have tot : 2 * Real.pi ^ 2 * (∑ i ∈ range T.rows, ∑ j ∈ range T.cols, (‖T.at' i j - T'.at' i j‖ ^ 2 + ‖P.at' i j - P'.at' i j‖ ^ 2)) / (T.rows * T.cols) ≤
      (2 * Real.pi * ε) ^ 2 := by
    rw [div_le_iff₀ (by positivity)]
    calc _ ≤ 2 * Real.pi ^ 2 * (T.rows * T.cols * (2 * ε ^ 2)) := by gcongr
      _ = _ := by ring
  have s1 := (single_le_sum (f := fun p : ℤ × ℤ => _ + _) (fun p _ => by positivity)
    (mem_filter.mpr ⟨mem_modes.mpr hk, hk0⟩ : (k, l) ∈ (modes (n' : ℤ) m').filter fun p => p.1 ≠ 0)).trans (key.trans tot)
  simp only at s1
  constructor
  · refine abs_le_of_sq_le_sq' ?_ (by positivity) |>.2
    exact le_trans (le_add_of_nonneg_right (by positivity)) s1
  · refine abs_le_of_sq_le_sq' ?_ (by positivity) |>.2
    exact le_trans (le_add_of_nonneg_left (by positivity)) s1

/-! ## C78: synthesis -/

/-- `1/sqrt(n(n+1)) e^{imφ}`. -/
noncomputable def vphase (p : ℤ × ℤ) (φ : ℝ) : ℂ := Complex.exp (p.2 * (φ * Complex.I)) / (Real.sqrt (p.1 * (p.1 + 1)) : ℂ)

theorem potential_dphi (n m : ℤ) (v : ℤ → ℤ → ℂ) (θ φ : ℝ) :
    deriv (fun φ => potential n m v θ φ) φ = ∑ p ∈ modes n m with p.1 ≠ 0, v p.1 p.2 * (Complex.I * p.2 * (thetaPart p.1.toNat p.2 θ : ℂ)) * vphase p φ := by
  have d : HasDerivAt (fun φ => potential n m v θ φ)
      (∑ p ∈ modes n m with p.1 ≠ 0, v p.1 p.2 / (Real.sqrt (p.1 * (p.1 + 1)) : ℂ) * (Complex.I * p.2 * sphY p.1.toNat p.2 θ φ)) φ := by
    unfold potential
    refine HasDerivAt.fun_sum fun p _ => HasDerivAt.const_mul _ ?_
    unfold sphY
    have h : HasDerivAt (fun θ : ℝ => (p.2 : ℂ) * ((θ : ℂ) * Complex.I)) ((p.2 : ℂ) * (1 * Complex.I)) φ :=
      ((Complex.ofRealCLM.hasDerivAt (x := φ)).mul_const Complex.I).const_mul _
    exact ((h.cexp).const_mul (thetaPart p.1.toNat p.2 θ : ℂ)).congr_deriv (by ring)
  rw [d.deriv]
  refine sum_congr rfl fun p _ => ?_
  unfold sphY vphase
  ring

theorem potential_dtheta (n m : ℤ) (v : ℤ → ℤ → ℂ) (θ φ : ℝ) :
    deriv (fun θ => potential n m v θ φ) θ = ∑ p ∈ modes n m with p.1 ≠ 0, v p.1 p.2 * (tPart p.1.toNat p.2 θ : ℂ) * vphase p φ := by
  have d : HasDerivAt (fun θ => potential n m v θ φ)
      (∑ p ∈ modes n m with p.1 ≠ 0, v p.1 p.2 / (Real.sqrt (p.1 * (p.1 + 1)) : ℂ) * ((tPart p.1.toNat p.2 θ : ℂ) * Complex.exp (p.2 * (φ * Complex.I)))) θ := by
    unfold potential
    refine HasDerivAt.fun_sum fun p _ => HasDerivAt.const_mul _ ?_
    unfold sphY
    exact ((hasDerivAt_thetaR p.1.toNat p.2 θ).ofReal_comp).mul_const _
  rw [d.deriv]
  refine sum_congr rfl fun p _ => ?_
  unfold vphase
  ring

/-- The field of `JacksonField`, in closed form (also at the poles). -/
theorem jackson_closed {n m : ℤ} {v w : ℤ → ℤ → ℂ} {Eθ Eφ : ℝ → ℝ → ℂ} (h : JacksonField n m v w Eθ Eφ) (θ φ : ℝ) :
    Eθ θ φ = ∑ p ∈ modes n m with p.1 ≠ 0, (-(v p.1 p.2 * hPart p.1.toNat p.2 θ) - w p.1 p.2 * tPart p.1.toNat p.2 θ) * vphase p φ ∧
    Eφ θ φ = ∑ p ∈ modes n m with p.1 ≠ 0, (-(Complex.I * v p.1 p.2 * tPart p.1.toNat p.2 θ) - Complex.I * w p.1 p.2 * hPart p.1.toNat p.2 θ) * vphase p φ := by
  have hs : ∀ (k : ℕ) (l : ℤ) (θ : ℝ), (Real.sin θ : ℂ) * (hPart k l θ : ℂ) = l * (thetaPart k l θ : ℂ) := fun k l θ => by exact_mod_cast sin_hPart k l θ
  have ct := continuous_tPart
  have ch := continuous_hPart
  have cE : Continuous fun θ => Eθ θ φ := h.contθ.comp (by fun_prop : Continuous fun θ : ℝ => (θ, φ))
  have cF : Continuous fun θ => Eφ θ φ := h.contφ.comp (by fun_prop : Continuous fun θ : ℝ => (θ, φ))
  constructor
  · refine congrFun (Continuous.ext_on dense_sin cE ?_ fun θ hθ => ?_ :
      (fun θ => Eθ θ φ) = fun θ => ∑ p ∈ modes n m with p.1 ≠ 0, (-(v p.1 p.2 * hPart p.1.toNat p.2 θ) - w p.1 p.2 * tPart p.1.toNat p.2 θ) * vphase p φ) θ
    · refine continuous_finsetSum _ fun p _ => ?_
      have := ct p.1.toNat p.2
      have := ch p.1.toNat p.2
      fun_prop
    · have hne : (Real.sin θ : ℂ) ≠ 0 := by exact_mod_cast hθ
      refine mul_left_cancel₀ hne ?_
      beta_reduce
      rw [h.eqθ, potential_dphi, potential_dtheta, mul_sum, mul_sum, mul_sum, ← sum_sub_distrib]
      refine sum_congr rfl fun p _ => ?_
      linear_combination (v p.1 p.2 * p.2 * (thetaPart p.1.toNat p.2 θ : ℂ) * vphase p φ) * Complex.I_mul_I + (v p.1 p.2 * vphase p φ) * hs p.1.toNat p.2 θ
  · refine congrFun (Continuous.ext_on dense_sin cF ?_ fun θ hθ => ?_ :
      (fun θ => Eφ θ φ) = fun θ => ∑ p ∈ modes n m with p.1 ≠ 0, (-(Complex.I * v p.1 p.2 * tPart p.1.toNat p.2 θ) - Complex.I * w p.1 p.2 * hPart p.1.toNat p.2 θ) * vphase p φ) θ
    · refine continuous_finsetSum _ fun p _ => ?_
      have := ct p.1.toNat p.2
      have := ch p.1.toNat p.2
      fun_prop
    · have hne : (Real.sin θ : ℂ) ≠ 0 := by exact_mod_cast hθ
      refine mul_left_cancel₀ hne ?_
      beta_reduce
      rw [h.eqφ, potential_dphi, potential_dtheta, mul_sum, mul_sum, mul_sum, ← sum_sub_distrib]
      refine sum_congr rfl fun p _ => ?_
      linear_combination (Complex.I * w p.1 p.2 * vphase p φ) * hs p.1.toNat p.2 θ

theorem normSq_vphase (p : ℤ × ℤ) (hp : 0 ≤ p.1) (φ : ℝ) : ‖vphase p φ‖ ^ 2 = 1 / ((p.1.toNat : ℝ) * (p.1.toNat + 1)) := by
  unfold vphase
  have hc : ((p.1 : ℤ) : ℝ) = (p.1.toNat : ℝ) := by exact_mod_cast (Int.toNat_of_nonneg hp).symm
  rw [norm_div, Complex.norm_real, Real.norm_eq_abs, abs_of_nonneg (Real.sqrt_nonneg _), div_pow,
    show (p.2 : ℂ) * (φ * Complex.I) = ((p.2 * φ : ℝ) : ℂ) * Complex.I by push_cast; ring, Complex.norm_exp_ofReal_mul_I, hc, Real.sq_sqrt (by positivity), one_pow]

/-- Sum over the modes with `n ≥ 1`, degree by degree. -/
theorem sum_modes_deg (n m : ℕ) (f : ℤ → ℤ → ℝ) :
    ∑ p ∈ modes n m with p.1 ≠ 0, f p.1 p.2 = ∑ k ∈ Icc (1 : ℤ) n, ∑ l ∈ Icc (-(min k m)) (min k (m : ℤ)), f k l := by
  rw [sum_filter, ScalarCoefs.sum_modes (fun k l => if k ≠ 0 then f k l else 0)]
  symm
  refine (sum_congr rfl fun k hk => sum_congr rfl fun l _ => ?_).trans (sum_subset (s₁ := Icc (1 : ℤ) n) (fun k hk => ?_) fun k hk hk' => ?_)
  · beta_reduce; rw [mem_Icc] at hk; rw [if_pos (by omega)]
  · rw [mem_Icc] at *; omega
  · rw [mem_Icc] at hk hk'
    exact sum_eq_zero fun l _ => by rw [if_neg (by push Not; omega)]

theorem sum_odd (a : ℤ) (f : ℤ → ℝ) (h : ∀ l, f (-l) = -f l) : ∑ l ∈ Icc (-a) a, f l = 0 := by
  have e : ∑ l ∈ Icc (-a) a, f l = ∑ l ∈ Icc (-a) a, f (-l) :=
    sum_nbij' (fun l => -l) (fun l => -l) (fun l hl => by rw [mem_Icc] at *; omega) (fun l hl => by rw [mem_Icc] at *; omega)
      (fun l _ => neg_neg l) (fun l _ => neg_neg l) (fun l _ => by rw [neg_neg])
  simp only [h, sum_neg_distrib] at e
  linarith

theorem sum_vec_modes (n m : ℕ) (κ : ℝ) (θ φ : ℝ) :
    ∑ p ∈ modes n m with p.1 ≠ 0, (tPart p.1.toNat p.2 θ ^ 2 + hPart p.1.toNat p.2 θ ^ 2 + κ * (hPart p.1.toNat p.2 θ * tPart p.1.toNat p.2 θ)) * ‖vphase p φ‖ ^ 2 ≤
      (n : ℝ) * (n + 2) / (4 * Real.pi) := by
  have hpi := Real.pi_pos
  have e0 : ∑ p ∈ modes n m with p.1 ≠ 0, (tPart p.1.toNat p.2 θ ^ 2 + hPart p.1.toNat p.2 θ ^ 2 + κ * (hPart p.1.toNat p.2 θ * tPart p.1.toNat p.2 θ)) * ‖vphase p φ‖ ^ 2 =
      ∑ p ∈ modes n m with p.1 ≠ 0, (tPart p.1.toNat p.2 θ ^ 2 + hPart p.1.toNat p.2 θ ^ 2 + κ * (hPart p.1.toNat p.2 θ * tPart p.1.toNat p.2 θ)) * (1 / ((p.1.toNat : ℝ) * (p.1.toNat + 1))) :=
    sum_congr rfl fun p hp => by rw [normSq_vphase p (mem_modes.mp (mem_filter.mp hp).1).1]
  rw [e0, sum_modes_deg n m fun k l => (tPart k.toNat l θ ^ 2 + hPart k.toNat l θ ^ 2 + κ * (hPart k.toNat l θ * tPart k.toNat l θ)) * (1 / ((k.toNat : ℝ) * (k.toNat + 1)))]
  have s1 : ∀ k ∈ Icc (1 : ℤ) n, ∑ l ∈ Icc (-(min k m)) (min k (m : ℤ)), (tPart k.toNat l θ ^ 2 + hPart k.toNat l θ ^ 2 + κ * (hPart k.toNat l θ * tPart k.toNat l θ)) * (1 / ((k.toNat : ℝ) * (k.toNat + 1))) ≤
      (2 * (k.toNat : ℝ) + 1) / (4 * Real.pi) := by
    intro k hk
    rw [mem_Icc] at hk
    have hk0 : (0 : ℝ) < k.toNat := by exact_mod_cast (show 0 < k.toNat by omega)
    rw [← sum_mul, sum_add_distrib, ← mul_sum, sum_odd _ (fun l => hPart k.toNat l θ * tPart k.toNat l θ) (fun l => cross_odd k.toNat l θ), mul_zero, add_zero]
    have sub : ∑ l ∈ Icc (-(min k m)) (min k (m : ℤ)), (tPart k.toNat l θ ^ 2 + hPart k.toNat l θ ^ 2) ≤ k.toNat * (k.toNat + 1) * (2 * k.toNat + 1) / (4 * Real.pi) := by
      rw [← sum_vec_sq k.toNat θ]
      refine sum_le_sum_of_subset_of_nonneg (fun l hl => ?_) fun _ _ _ => by positivity
      rw [mem_Icc] at hl ⊢; omega
    calc _ ≤ (k.toNat * (k.toNat + 1) * (2 * k.toNat + 1) / (4 * Real.pi)) * (1 / ((k.toNat : ℝ) * (k.toNat + 1))) := by gcongr
      _ = _ := by field_simp
  refine (sum_le_sum s1).trans (le_of_eq ?_)
  have : ∀ N : ℕ, ∑ k ∈ Icc (1 : ℤ) N, (2 * (k.toNat : ℝ) + 1) / (4 * Real.pi) = (N : ℝ) * (N + 2) / (4 * Real.pi) := by
    intro N
    induction N with
    | zero => simp
    | succ N ih =>
      rw [show Icc (1 : ℤ) ((N + 1 : ℕ) : ℤ) = insert ((N + 1 : ℕ) : ℤ) (Icc (1 : ℤ) N) by ext k; simp only [mem_Icc, mem_insert]; push_cast; omega,
        sum_insert (by simp only [mem_Icc]; push_cast; omega), ih, Int.toNat_natCast]
      push_cast
      field_simp
      ring
  exact this n

/-- Pointwise bound of the field. -/
theorem field_bound (n m : ℕ) (v w : ℤ → ℤ → ℂ) (θ φ : ℝ) (A B : ℂ)
    (hA : A = ∑ p ∈ modes n m with p.1 ≠ 0, (-(v p.1 p.2 * hPart p.1.toNat p.2 θ) - w p.1 p.2 * tPart p.1.toNat p.2 θ) * vphase p φ)
    (hB : B = ∑ p ∈ modes n m with p.1 ≠ 0, (-(Complex.I * v p.1 p.2 * tPart p.1.toNat p.2 θ) - Complex.I * w p.1 p.2 * hPart p.1.toNat p.2 θ) * vphase p φ) :
    ‖A‖ ^ 2 + ‖B‖ ^ 2 ≤ (n : ℝ) * (n + 2) / (4 * Real.pi) * ∑ p ∈ modes n m with p.1 ≠ 0, (‖v p.1 p.2‖ ^ 2 + ‖w p.1 p.2‖ ^ 2) := by
  have hpi := Real.pi_pos
  set K : ℝ := (n : ℝ) * (n + 2) / (4 * Real.pi) with hK
  set S := (modes (n : ℤ) m).filter fun p => p.1 ≠ 0 with hS
  set Q : ℝ := ‖A‖ ^ 2 + ‖B‖ ^ 2 with hQ
  set pw : ℝ := ∑ p ∈ S, (‖v p.1 p.2‖ ^ 2 + ‖w p.1 p.2‖ ^ 2) with hpw
  have hQ0 : 0 ≤ Q := by positivity
  have hK0 : 0 ≤ K := by positivity
  have hpw0 : 0 ≤ pw := sum_nonneg fun _ _ => by positivity
  -- weights of the two coefficients of a mode
  set α : ℤ × ℤ → ℂ := fun p => (-((starRingEnd ℂ) A * hPart p.1.toNat p.2 θ) - Complex.I * (starRingEnd ℂ) B * tPart p.1.toNat p.2 θ) * vphase p φ with hα
  set β : ℤ × ℤ → ℂ := fun p => (-((starRingEnd ℂ) A * tPart p.1.toNat p.2 θ) - Complex.I * (starRingEnd ℂ) B * hPart p.1.toNat p.2 θ) * vphase p φ with hβ
  have expand : ((Q : ℝ) : ℂ) = ∑ p ∈ S, (v p.1 p.2 * α p + w p.1 p.2 * β p) := by
    have : ((Q : ℝ) : ℂ) = (starRingEnd ℂ) A * A + (starRingEnd ℂ) B * B := by
      rw [mul_comm, Complex.mul_conj, mul_comm, Complex.mul_conj, Complex.normSq_eq_norm_sq, Complex.normSq_eq_norm_sq, hQ]
      push_cast; ring
    rw [this]
    conv_lhs => rw [hA, hB, mul_sum, mul_sum, ← sum_add_distrib]
    rw [← hA, ← hB]
    refine sum_congr rfl fun p _ => ?_
    simp only [hα, hβ]
    ring
  have bound : Q ≤ ∑ p ∈ S, (‖v p.1 p.2‖ * ‖α p‖ + ‖w p.1 p.2‖ * ‖β p‖) := by
    have := congrArg norm expand
    rw [Complex.norm_real, Real.norm_eq_abs, abs_of_nonneg hQ0] at this
    rw [this]
    refine (norm_sum_le _ _).trans (sum_le_sum fun p _ => (norm_add_le _ _).trans (le_of_eq (congrArg₂ (· + ·) (norm_mul _ _) (norm_mul _ _))))
  have cs : (∑ p ∈ S, (‖v p.1 p.2‖ * ‖α p‖ + ‖w p.1 p.2‖ * ‖β p‖)) ^ 2 ≤ pw * ∑ p ∈ S, (‖α p‖ ^ 2 + ‖β p‖ ^ 2) := by
    have h := sum_mul_sq_le_sq_mul_sq (S ×ˢ (univ : Finset Bool)) (fun q => if q.2 then ‖v q.1.1 q.1.2‖ else ‖w q.1.1 q.1.2‖) (fun q => if q.2 then ‖α q.1‖ else ‖β q.1‖)
    simpa [sum_product] using h
  have ab : ∀ p, ‖α p‖ ^ 2 + ‖β p‖ ^ 2 = (Q * (tPart p.1.toNat p.2 θ ^ 2 + hPart p.1.toNat p.2 θ ^ 2) +
      4 * ((starRingEnd ℂ) A * (starRingEnd ℂ) (Complex.I * (starRingEnd ℂ) B)).re * (hPart p.1.toNat p.2 θ * tPart p.1.toNat p.2 θ)) * ‖vphase p φ‖ ^ 2 := by
    intro p
    simp only [hα, hβ, hQ]
    rw [norm_mul, norm_mul, mul_pow, mul_pow, ← add_mul]
    congr 1
    simp only [← Complex.normSq_eq_norm_sq, Complex.normSq_apply]
    simp
    ring
  have sumab : ∑ p ∈ S, (‖α p‖ ^ 2 + ‖β p‖ ^ 2) ≤ Q * K := by
    rcases hQ0.eq_or_lt with h0 | h0
    · have hA0 : A = 0 := by
        have : ‖A‖ ^ 2 = 0 := by nlinarith [sq_nonneg ‖A‖, sq_nonneg ‖B‖]
        exact norm_eq_zero.mp (pow_eq_zero_iff (two_ne_zero) |>.mp this)
      have hB0 : B = 0 := by
        have : ‖B‖ ^ 2 = 0 := by nlinarith [sq_nonneg ‖A‖, sq_nonneg ‖B‖]
        exact norm_eq_zero.mp (pow_eq_zero_iff (two_ne_zero) |>.mp this)
      simp only [hα, hβ, hA0, hB0]
      simp [← h0]
    · have := sum_vec_modes n m (4 * ((starRingEnd ℂ) A * (starRingEnd ℂ) (Complex.I * (starRingEnd ℂ) B)).re / Q) θ φ
      calc _ = Q * ∑ p ∈ S, (tPart p.1.toNat p.2 θ ^ 2 + hPart p.1.toNat p.2 θ ^ 2 +
            (4 * ((starRingEnd ℂ) A * (starRingEnd ℂ) (Complex.I * (starRingEnd ℂ) B)).re / Q) * (hPart p.1.toNat p.2 θ * tPart p.1.toNat p.2 θ)) * ‖vphase p φ‖ ^ 2 := by
            rw [mul_sum]
            refine sum_congr rfl fun p _ => ?_
            rw [ab]
            field_simp
        _ ≤ _ := by gcongr
  have fin : Q ^ 2 ≤ pw * (Q * K) := by
    calc Q ^ 2 ≤ (∑ p ∈ S, (‖v p.1 p.2‖ * ‖α p‖ + ‖w p.1 p.2‖ * ‖β p‖)) ^ 2 := by gcongr
      _ ≤ _ := cs
      _ ≤ _ := by gcongr
  rcases hQ0.eq_or_lt with h0 | h0
  · rw [← h0]; positivity
  · have : Q * Q ≤ Q * (K * pw) := by nlinarith
    exact le_of_mul_le_mul_left this h0

theorem vlim {c : VectorCoefs ℂ} (hc : c.WellFormed) : ∃ n m : ℕ, c.nmax = n ∧ c.mmax = m ∧ m ≤ n := by
  have h0 : 0 ≤ c.mmax := by rw [← hc.m1]; exact hc.wf1.1
  have h1 : c.mmax ≤ c.nmax := by rw [← hc.m1, ← hc.n1]; exact hc.wf1.2
  exact ⟨c.nmax.toNat, c.mmax.toNat, by omega, by omega, by omega⟩

/-- C78 (addition theorem): the two components of the vector harmonics of degree `n`. -/
theorem c78_addition (n : ℕ) (hn : n ≠ 0) (θ : ℝ) (hθ : Real.sin θ ≠ 0) (φ : ℝ) :
    ∑ m ∈ Icc (-(n : ℤ)) n, (‖deriv (fun θ => sphY n m θ φ) θ‖ ^ 2 + ‖deriv (fun φ => sphY n m θ φ) φ / Real.sin θ‖ ^ 2) / (n * (n + 1)) =
      (2 * n + 1) / (4 * Real.pi) := by
  have hpi := Real.pi_pos
  have hn' : (0 : ℝ) < n := by exact_mod_cast Nat.pos_of_ne_zero hn
  have ph : ∀ m : ℤ, ‖Complex.exp ((m : ℂ) * (φ * Complex.I))‖ = 1 := fun m => by
    rw [show (m : ℂ) * (φ * Complex.I) = ((m * φ : ℝ) : ℂ) * Complex.I by push_cast; ring, Complex.norm_exp_ofReal_mul_I]
  have e : ∀ m ∈ Icc (-(n : ℤ)) n, (‖deriv (fun θ => sphY n m θ φ) θ‖ ^ 2 + ‖deriv (fun φ => sphY n m θ φ) φ / Real.sin θ‖ ^ 2) / (n * (n + 1)) =
      (tPart n m θ ^ 2 + hPart n m θ ^ 2) * (1 / ((n : ℝ) * (n + 1))) := by
    intro m _
    have h2 : deriv (fun φ => sphY n m θ φ) φ / Real.sin θ = Complex.I * ((hPart n m θ : ℂ) * Complex.exp (m * (φ * Complex.I))) := by
      have hne : (Real.sin θ : ℂ) ≠ 0 := by exact_mod_cast hθ
      have hs : (Real.sin θ : ℂ) * (hPart n m θ : ℂ) = m * (thetaPart n m θ : ℂ) := by exact_mod_cast sin_hPart n m θ
      rw [sphY_dphi, div_eq_iff hne]
      unfold sphY
      linear_combination (-Complex.I * Complex.exp (m * (φ * Complex.I))) * hs
    rw [sphY_dtheta, deriv_thetaPart, h2, norm_mul, norm_mul, norm_mul, ph, Complex.norm_I, Complex.norm_real, Complex.norm_real]
    simp only [Real.norm_eq_abs, mul_one, one_mul, sq_abs]
    ring
  rw [sum_congr rfl e, ← sum_mul, sum_vec_sq]
  field_simp

/-- C78 (`vispht` is bounded): at no sample is `|Eθ|² + |Eφ|²` larger than `nmax (nmax+2) / 4π` times the power of the coefficients. -/
theorem c78_bounded (b : Backend) (c : VectorCoefs ℂ) (hc : c.WellFormed) (v w : ℤ → ℤ → ℂ) (hv : HasCoefsV c v w) (nr nc : ℤ)
    (h1 : c.nmax + 2 ≤ nr) (h2 : 2 * c.mmax + 2 ≤ nc) (h3 : nc % 2 = 0) :
    ∃ p, vispht b c (some nr) (some nc) = .ok p ∧ p.theta.rows = nr ∧ p.theta.cols = nc ∧ p.phi.rows = nr ∧ p.phi.cols = nc ∧
      ∀ i j : ℕ, i < p.theta.rows → j < p.theta.cols → ‖p.theta.at' i j‖ ^ 2 + ‖p.phi.at' i j‖ ^ 2 ≤
        (c.nmax : ℝ) * (c.nmax + 2) / (4 * Real.pi) * ∑ p ∈ modes c.nmax c.mmax with p.1 ≠ 0, (‖v p.1 p.2‖ ^ 2 + ‖w p.1 p.2‖ ^ 2) := by
  obtain ⟨p, Eθ, Eφ, e, hJ, t1, t2, p1, p2, hval⟩ := c50_vispht b c hc v w hv nr nc h1 h2 h3
  refine ⟨p, e, t1, t2, p1, p2, fun i j hi hj => ?_⟩
  obtain ⟨n, m, hn, hm, -⟩ := vlim hc
  obtain ⟨a1, a2⟩ := hval i j hi hj
  obtain ⟨j1, j2⟩ := jackson_closed hJ (Real.pi * i / ((nr : ℝ) - 1)) (2 * Real.pi * j / nc)
  rw [a1, a2]
  rw [hn, hm] at j1 j2 ⊢
  exact_mod_cast field_bound n m v w _ _ _ _ j1 j2

/-- C78 (`vispht` is stable): two sets with the same limits. -/
theorem c78_stable (b b' : Backend) (c d : VectorCoefs ℂ) (hc : c.WellFormed) (hd : d.WellFormed) (hnd : d.nmax = c.nmax) (hmd : d.mmax = c.mmax)
    (v w v' w' : ℤ → ℤ → ℂ) (hv : HasCoefsV c v w) (hv' : HasCoefsV d v' w') (nr nc : ℤ)
    (h1 : c.nmax + 2 ≤ nr) (h2 : 2 * c.mmax + 2 ≤ nc) (h3 : nc % 2 = 0) :
    ∃ p q, vispht b c (some nr) (some nc) = .ok p ∧ vispht b' d (some nr) (some nc) = .ok q ∧ p.theta.rows = nr ∧ p.theta.cols = nc ∧
      q.theta.rows = nr ∧ q.theta.cols = nc ∧
      ∀ i j : ℕ, i < p.theta.rows → j < p.theta.cols → ‖p.theta.at' i j - q.theta.at' i j‖ ^ 2 + ‖p.phi.at' i j - q.phi.at' i j‖ ^ 2 ≤
        (c.nmax : ℝ) * (c.nmax + 2) / (4 * Real.pi) *
          ∑ p ∈ modes c.nmax c.mmax with p.1 ≠ 0, (‖v p.1 p.2 - v' p.1 p.2‖ ^ 2 + ‖w p.1 p.2 - w' p.1 p.2‖ ^ 2) := by
  obtain ⟨p, Eθ, Eφ, e, hJ, t1, t2, -, -, hval⟩ := c50_vispht b c hc v w hv nr nc h1 h2 h3
  obtain ⟨q, Fθ, Fφ, f, hJ', s1, s2, -, -, hval'⟩ := c50_vispht b' d hd v' w' hv' nr nc (by omega) (by omega) h3
  refine ⟨p, q, e, f, t1, t2, s1, s2, fun i j hi hj => ?_⟩
  obtain ⟨n, m, hn, hm, -⟩ := vlim hc
  obtain ⟨a1, a2⟩ := hval i j hi hj
  obtain ⟨b1, b2⟩ := hval' i j (by omega) (by omega)
  obtain ⟨j1, j2⟩ := jackson_closed hJ (Real.pi * i / ((nr : ℝ) - 1)) (2 * Real.pi * j / nc)
  obtain ⟨k1, k2⟩ := jackson_closed hJ' (Real.pi * i / ((nr : ℝ) - 1)) (2 * Real.pi * j / nc)
  rw [hnd, hmd] at k1 k2
  rw [a1, a2, b1, b2]
  rw [hn, hm] at j1 j2 k1 k2 ⊢
  have r1 := field_bound n m (fun k l => v k l - v' k l) (fun k l => w k l - w' k l) (Real.pi * i / ((nr : ℝ) - 1)) (2 * Real.pi * j / nc)
    (Eθ (Real.pi * i / ((nr : ℝ) - 1)) (2 * Real.pi * j / nc) - Fθ (Real.pi * i / ((nr : ℝ) - 1)) (2 * Real.pi * j / nc))
    (Eφ (Real.pi * i / ((nr : ℝ) - 1)) (2 * Real.pi * j / nc) - Fφ (Real.pi * i / ((nr : ℝ) - 1)) (2 * Real.pi * j / nc))
    (by rw [j1, k1, ← sum_sub_distrib]; exact sum_congr rfl fun p _ => by ring)
    (by rw [j2, k2, ← sum_sub_distrib]; exact sum_congr rfl fun p _ => by ring)
  exact_mod_cast r1

/-- Witness for C77: synthesised data meets the hypotheses. -/
example : ∃ T P : Arr2 ℂ, P.rows = T.rows ∧ P.cols = T.cols ∧ T.rows = 8 ∧ T.cols = 6 ∧ DSym (-1) T ∧ DSym (-1) P ∧
    ∃ c, vspht .py ⟨T, P⟩ (some 2) (some 1) = .ok c ∧ readMapV c 1 0 = some (2, 1) := by
  obtain ⟨p, e, e1, e2, e3, e4, s1, s2, -⟩ := c37_vispht .py vcsample vcsample_wf 5 6 (by decide) (by decide) (by decide)
  obtain ⟨q, e', h'⟩ := c33_round_trip .py .py vcsample vcsample_wf (head_monopole vcsample_wf.wf1.wf rfl)
    (head_monopole vcsample_wf.wf2.wf rfl) 5 6 (by decide) (by decide) (by decide) (by decide)
  rw [e] at e'; cases e'
  exact ⟨p.td, p.pd, by omega, by omega, by omega, by omega, s1, s2, vcsample, h', rfl⟩

/-- Witness for C78. -/
example : vcsample.WellFormed ∧ vcsample.nmax + 2 ≤ 5 ∧ 2 * vcsample.mmax + 2 ≤ 6 ∧ ∃ v w, HasCoefsV vcsample v w :=
  ⟨vcsample_wf, by decide, by decide, _, _, hasCoefsV_cf vcsample_wf⟩

end Verif.Props
