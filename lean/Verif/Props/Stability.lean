import Verif.StabMath
import Verif.Props.Symmetry
import Verif.Props.Norms
/-!
# Properties C75 and C76: the scalar transforms are well conditioned

The constants do not depend on the size of the grid.
-/
namespace Verif.Props
open Verif Finset

/-! ## C75: analysis -/

theorem norm_trig_parseval (σ : ℂ) (hσ : σ * (starRingEnd ℂ) σ = 1) (D : Arr2 ℂ) (h : DSym σ D) (hC : D.cols % 2 = 0) (l : ℤ) :
    ∫ θ in (0 : ℝ)..Real.pi, ‖trigSum (D.rows / 2) (fhat D l) θ‖ ^ 2 =
      Real.pi * ∑ ν ∈ Ioo (-((D.rows / 2 : ℕ) : ℤ)) (D.rows / 2 : ℕ), ‖dftc D ν l‖ ^ 2 := by
  have hs1 : (σ * (-1 : ℂ) ^ l) * (starRingEnd ℂ) (σ * (-1) ^ l) = 1 := by
    rw [map_mul, map_zpow₀, map_neg, map_one]
    linear_combination (σ * (starRingEnd ℂ) σ) * neg_one_zpow_mul_self l + hσ
  have key := trig_parseval (D.rows / 2) (fhat D l) (σ * (-1) ^ l) hs1 (fun ν => by rw [fhat_symm D σ h hC])
  have e1 : (∫ θ in (0 : ℝ)..Real.pi, trigSum (D.rows / 2) (fhat D l) θ * (starRingEnd ℂ) (trigSum (D.rows / 2) (fhat D l) θ)) =
      ((∫ θ in (0 : ℝ)..Real.pi, ‖trigSum (D.rows / 2) (fhat D l) θ‖ ^ 2 : ℝ) : ℂ) := by
    rw [← intervalIntegral.integral_ofReal]
    refine intervalIntegral.integral_congr fun θ _ => ?_
    beta_reduce
    rw [Complex.mul_conj, Complex.normSq_eq_norm_sq]
  have e2 : (Real.pi : ℂ) * ∑ ν ∈ Ioo (-((D.rows / 2 : ℕ) : ℤ)) (D.rows / 2 : ℕ), fhat D l ν * (starRingEnd ℂ) (fhat D l ν) =
      ((Real.pi * ∑ ν ∈ Ioo (-((D.rows / 2 : ℕ) : ℤ)) (D.rows / 2 : ℕ), ‖dftc D ν l‖ ^ 2 : ℝ) : ℂ) := by
    push_cast
    congr 1
    refine sum_congr rfl fun ν hν => ?_
    rw [Complex.mul_conj, Complex.normSq_eq_norm_sq]
    unfold fhat
    rw [if_pos (by rw [mem_Ioo] at hν; rw [abs_lt]; exact hν)]
    push_cast; rfl
  rw [e1, e2] at key
  exact_mod_cast key

theorem dft_modes_bessel (D : Arr2 ℂ) (hR0 : 0 < D.rows) (hR : D.rows % 2 = 0) (m : ℕ) (hm : 2 * m < D.cols) :
    ∑ l ∈ Icc (-(m : ℤ)) m, ∑ ν ∈ Ioo (-((D.rows / 2 : ℕ) : ℤ)) (D.rows / 2 : ℕ), ‖dftc D ν l‖ ^ 2 ≤
      (∑ i ∈ range D.rows, ∑ j ∈ range D.cols, ‖D.at' i j‖ ^ 2) / (D.rows * D.cols) := by
  have db := dft_bessel D (Ioo (-((D.rows / 2 : ℕ) : ℤ)) (D.rows / 2 : ℕ) ×ˢ Icc (-(m : ℤ)) m) hR0 (by omega) (by
    rintro ⟨a, b⟩ hp ⟨a', b'⟩ hq ⟨x, hx⟩ ⟨y, hy⟩
    simp only [mem_product, mem_Ioo, mem_Icc] at hp hq hx hy
    have hx0 : x = 0 := by
      by_contra hne
      rcases lt_or_gt_of_ne hne with hl | hl
      · have : (D.rows : ℤ) * x ≤ -D.rows := by nlinarith
        omega
      · have : (D.rows : ℤ) ≤ D.rows * x := by nlinarith
        omega
    have hy0 : y = 0 := by
      by_contra hne
      rcases lt_or_gt_of_ne hne with hl | hl
      · have : (D.cols : ℤ) * y ≤ -D.cols := by nlinarith
        omega
      · have : (D.cols : ℤ) ≤ D.cols * y := by nlinarith
        omega
    rw [hx0, mul_zero] at hx
    rw [hy0, mul_zero] at hy
    rw [Prod.mk.injEq]; omega)
  rw [sum_product, sum_comm] at db
  exact db

/-- The sum of the squared analysis coefficients of symmetric data. -/
theorem analysis_bessel (D : Arr2 ℂ) (h : DSym 1 D) (hR0 : 0 < D.rows) (hR : D.rows % 2 = 0) (hC : D.cols % 2 = 0) (n m : ℕ) (hm : 2 * m < D.cols) :
    ∑ p ∈ modes n m, ‖bF (D.rows / 2 + 1) (sing D p.2) p.2 p.1.toNat‖ ^ 2 ≤
      2 * Real.pi ^ 2 * (∑ i ∈ range D.rows, ∑ j ∈ range D.cols, ‖D.at' i j‖ ^ 2) / (D.rows * D.cols) := by
  rw [sum_modes n m fun k l => ‖bF (D.rows / 2 + 1) (sing D l) l k.toNat‖ ^ 2]
  have step : ∀ l ∈ Icc (-(m : ℤ)) m, ∑ k ∈ Icc l.natAbs n, ‖bF (D.rows / 2 + 1) (sing D l) l ((k : ℕ) : ℤ).toNat‖ ^ 2 ≤
      2 * Real.pi ^ 2 * ∑ ν ∈ Ioo (-((D.rows / 2 : ℕ) : ℤ)) (D.rows / 2 : ℕ), ‖dftc D ν l‖ ^ 2 := by
    intro l _
    have := bessel_theta ⟨trigSum (D.rows / 2) (fhat D l), continuous_trigSum _ _⟩ l n
    simp only [ContinuousMap.coe_mk] at this
    rw [norm_trig_parseval 1 (by simp) D h hC] at this
    calc _ = ∑ k ∈ Icc l.natAbs n, ‖2 * Real.pi * ∫ θ in (0 : ℝ)..Real.pi, trigSum (D.rows / 2) (fhat D l) θ * (thetaPart k l θ : ℂ) * Real.sin θ‖ ^ 2 :=
          sum_congr rfl fun k _ => by rw [Int.toNat_natCast, spht_integral D h hC]
      _ ≤ _ := this
      _ = _ := by ring
  refine (sum_le_sum step).trans ?_
  rw [← mul_sum, mul_div_assoc]
  refine mul_le_mul_of_nonneg_left ?_ (by positivity)
  exact dft_modes_bessel D hR0 hR m hm

/-- C75 (`spht` is bounded): the power of the coefficients is at most `2π²` times the mean of `|sample|²` over the double sphere. -/
theorem c75_bounded (b : Backend) (D : Arr2 ℂ) (hR : D.rows % 2 = 0) (hR0 : 0 < D.rows) (hsz : D.rows ≤ 2 ^ 29) (hsym : DSym 1 D)
    (n m : ℤ) (h0 : 0 ≤ m) (c : ScalarCoefs ℂ) (h : spht b ⟨.arr D⟩ (some n) (some m) = .ok c) :
    ∃ v, SPatt.l2 ⟨.arr D⟩ = .ok v ∧ c.power (fun x : ℂ => ‖x‖) ≤ 2 * Real.pi ^ 2 * v ^ 2 / (D.rows * D.cols) := by
  have hnr := spht_ok_args h
  obtain ⟨v, -, -, -, ev, -, -, -, -, hv, -⟩ := c56_l2_scalar D D 0 rfl rfl
  refine ⟨v, ev, ?_⟩
  obtain ⟨d, e, e1, e2, hw, hval⟩ := spht_value b D hR hR0 hsz n m h0 hnr
  rw [h] at e; cases e
  obtain ⟨-, -, -, -, -, ep⟩ := c13_power (fun x : ℂ => ‖x‖) c hw
  obtain ⟨n', rfl⟩ := Int.eq_ofNat_of_zero_le (show 0 ≤ n by omega)
  obtain ⟨m', rfl⟩ := Int.eq_ofNat_of_zero_le h0
  rw [ep, e1, e2, hv]
  refine le_trans (le_of_eq (sum_congr rfl fun p hp => ?_)) (analysis_bessel D hsym hR0 hR (by omega) n' m' (by omega))
  rw [hval p.1 p.2 (mem_modes.mp hp)]
  rfl

/-- C75 (`spht` is stable): the squared differences between the coefficients of two patterns add up to at most `2π²` times the mean of
the squared differences of the samples, and no coefficient moves by more than `√2 π` times the largest change of a sample. -/
theorem c75_stable (b b' : Backend) (D E : Arr2 ℂ) (hR : D.rows % 2 = 0) (hR0 : 0 < D.rows) (hsz : D.rows ≤ 2 ^ 29)
    (hr : E.rows = D.rows) (hc : E.cols = D.cols) (hD : DSym 1 D) (hE : DSym 1 E)
    (n m : ℤ) (h0 : 0 ≤ m) (c : ScalarCoefs ℂ) (h : spht b ⟨.arr D⟩ (some n) (some m) = .ok c) :
    ∃ d, spht b' ⟨.arr E⟩ (some n) (some m) = .ok d ∧ ∃ x y : ℤ → ℤ → ℂ, HasCoefs c x ∧ HasCoefs d y ∧
      ∑ p ∈ modes n m, ‖x p.1 p.2 - y p.1 p.2‖ ^ 2 ≤
        2 * Real.pi ^ 2 * (∑ i ∈ range D.rows, ∑ j ∈ range D.cols, ‖D.at' i j - E.at' i j‖ ^ 2) / (D.rows * D.cols) ∧
      ∀ ε : ℝ, (∀ i j, i < D.rows → j < D.cols → ‖D.at' i j - E.at' i j‖ ≤ ε) →
        ∀ k l, IsMode n m k l → ‖x k l - y k l‖ ≤ Real.sqrt 2 * Real.pi * ε := by
  have hnr := spht_ok_args h
  obtain ⟨c', e, c1, c2, -, cv⟩ := spht_value b D hR hR0 hsz n m h0 hnr
  rw [h] at e; cases e
  obtain ⟨d, e, d1, d2, -, dv⟩ := spht_value b' E (by omega) (by omega) (by omega) n m h0 (by rw [hr, hc]; exact hnr)
  obtain ⟨n', rfl⟩ := Int.eq_ofNat_of_zero_le (show 0 ≤ n by omega)
  obtain ⟨m', rfl⟩ := Int.eq_ofNat_of_zero_le h0
  set F := linArr 1 (-1) D E with hF
  have Fat : ∀ i j, i < D.rows → j < D.cols → F.at' i j = D.at' i j - E.at' i j := fun i j hi hj => by
    rw [hF, linArr_at 1 (-1) D E hr hc hi hj]; ring
  have Fsym : DSym 1 F := by
    intro i j hi hj
    change i < D.rows at hi
    change j < D.cols at hj
    have hi' : (D.rows - i) % D.rows < D.rows := Nat.mod_lt _ hR0
    have hj' : (j + D.cols / 2) % D.cols < D.cols := Nat.mod_lt _ (by omega)
    change F.at' i j = 1 * F.at' ((D.rows - i) % D.rows) ((j + D.cols / 2) % D.cols)
    rw [Fat i j hi hj, Fat _ _ hi' hj', hD i j hi hj, hE i j (by omega) (by omega), hr, hc]
    ring
  have bsub : ∀ k l, bF (F.rows / 2 + 1) (sing F l) l k = bF (D.rows / 2 + 1) (sing D l) l k - bF (E.rows / 2 + 1) (sing E l) l k := by
    intro k l
    rw [show F.rows = D.rows from rfl, hr]
    have : sing F l = fun ν => (1 : ℂ) * sing D l ν + (-1) * sing E l ν := by
      funext ν
      unfold sing
      rw [hF, fhat_lin 1 (-1) D E hr hc, fhat_lin 1 (-1) D E hr hc]
      ring
    rw [this, bF_lin]; ring
  have main := analysis_bessel F Fsym hR0 hR (show D.cols % 2 = 0 by omega) n' m' (show 2 * m' < D.cols by omega)
  have eqS : ∑ i ∈ range F.rows, ∑ j ∈ range F.cols, ‖F.at' i j‖ ^ 2 = ∑ i ∈ range D.rows, ∑ j ∈ range D.cols, ‖D.at' i j - E.at' i j‖ ^ 2 :=
    sum_congr rfl fun i hi => sum_congr rfl fun j hj => by rw [Fat i j (mem_range.mp hi) (mem_range.mp hj)]
  rw [eqS] at main
  simp only [bsub] at main
  change _ ≤ 2 * Real.pi ^ 2 * _ / (D.rows * D.cols) at main
  refine ⟨d, e, fun k l => bF (D.rows / 2 + 1) (sing D l) l k.toNat, fun k l => bF (E.rows / 2 + 1) (sing E l) l k.toNat,
    fun k l hk => cv k l (by rw [← c1, ← c2]; exact hk), fun k l hk => dv k l (by rw [← d1, ← d2]; exact hk), main, fun ε hε k l hk => ?_⟩
  have hR' : (0 : ℝ) < D.rows := by exact_mod_cast hR0
  have hC' : (0 : ℝ) < D.cols := by exact_mod_cast (show 0 < D.cols by omega)
  have hε0 : 0 ≤ ε := (norm_nonneg _).trans (hε 0 0 hR0 (by omega))
  have one : ‖bF (D.rows / 2 + 1) (sing D l) l k.toNat - bF (E.rows / 2 + 1) (sing E l) l k.toNat‖ ^ 2 ≤ 2 * Real.pi ^ 2 * ε ^ 2 := by
    have s1 := single_le_sum (f := fun p : ℤ × ℤ => ‖bF (D.rows / 2 + 1) (sing D p.2) p.2 p.1.toNat - bF (E.rows / 2 + 1) (sing E p.2) p.2 p.1.toNat‖ ^ 2)
      (fun p _ => by positivity) (mem_modes.mpr hk : (k, l) ∈ modes (n' : ℤ) m')
    refine (s1.trans main).trans ?_
    have s2 : ∑ i ∈ range D.rows, ∑ j ∈ range D.cols, ‖D.at' i j - E.at' i j‖ ^ 2 ≤ D.rows * D.cols * ε ^ 2 := by
      calc _ ≤ ∑ i ∈ range D.rows, ∑ j ∈ range D.cols, ε ^ 2 := sum_le_sum fun i hi => sum_le_sum fun j hj => by
            have := hε i j (mem_range.mp hi) (mem_range.mp hj)
            gcongr
        _ = _ := by simp; ring
    rw [div_le_iff₀ (by positivity)]
    calc _ ≤ 2 * Real.pi ^ 2 * (D.rows * D.cols * ε ^ 2) := by gcongr
      _ = _ := by ring
  have hpi := Real.pi_pos
  refine abs_le_of_sq_le_sq' ?_ (by positivity) |>.2
  rw [mul_pow, mul_pow, Real.sq_sqrt (by norm_num)]
  exact one

/-- C75 for noisy samples of a band-limited pattern: if every sample of `ispht(c)` is changed by at most `ε` (keeping the double-sphere
symmetry), `spht` recovers every coefficient up to `√2 π ε`. -/
theorem c75_noise (b b' : Backend) (c : ScalarCoefs ℂ) (hc : c.WellFormed) (nr nc : ℤ)
    (h1 : c.nmax + 2 ≤ nr) (h2 : 2 * c.mmax + 2 ≤ nc) (h3 : nc % 2 = 0) (hsz : nr ≤ 2 ^ 28) :
    ∃ D, ispht b c (some nr) (some nc) = .ok ⟨.arr D⟩ ∧
      ∀ E : Arr2 ℂ, E.rows = D.rows → E.cols = D.cols → DSym 1 E → ∀ ε : ℝ, (∀ i j, i < D.rows → j < D.cols → ‖D.at' i j - E.at' i j‖ ≤ ε) →
        ∃ d x y, spht b' ⟨.arr E⟩ (some c.nmax) (some c.mmax) = .ok d ∧ HasCoefs c x ∧ HasCoefs d y ∧
          ∀ k l, IsMode c.nmax c.mmax k l → ‖x k l - y k l‖ ≤ Real.sqrt 2 * Real.pi * ε := by
  obtain ⟨p, e1, e2⟩ := c32_round_trip b b' c hc nr nc h1 h2 h3 hsz
  obtain ⟨p', D, f1, f2, f3, f4, f5, -⟩ := c37_ispht b c hc nr nc h1 h2 h3
  rw [e1] at f1; cases f1
  have hn0 : 0 ≤ c.nmax := hc.mmax_nonneg.trans hc.mmax_le
  obtain ⟨ds⟩ := p
  cases ds with
  | exc => cases f2
  | arr D' =>
    cases f2
    refine ⟨D, e1, fun E hr hcE hE ε hε => ?_⟩
    obtain ⟨d, g1, x, y, g2, g3, -, g4⟩ := c75_stable b' b' D E (by omega) (by omega) (by norm_num at hsz ⊢; omega) hr hcE f5 hE c.nmax c.mmax hc.mmax_nonneg c e2
    exact ⟨d, x, y, g1, g2, g3, g4 ε hε⟩

/-! ## C76: synthesis -/

theorem norm_sphY (n : ℕ) (m : ℤ) (θ φ : ℝ) : ‖sphY n m θ φ‖ = |thetaPart n m θ| := by
  unfold sphY
  rw [norm_mul, Complex.norm_real, Real.norm_eq_abs, show (m : ℂ) * (φ * Complex.I) = ((m * φ : ℝ) : ℂ) * Complex.I by push_cast; ring,
    Complex.norm_exp_ofReal_mul_I, mul_one]

/-- The addition theorem on the diagonal. -/
theorem c76_addition (n : ℕ) (θ φ : ℝ) : ∑ m ∈ Icc (-(n : ℤ)) n, ‖sphY n m θ φ‖ ^ 2 = (2 * n + 1) / (4 * Real.pi) := by
  simp only [norm_sphY, sq_abs]
  exact sum_thetaPart_sq n θ

theorem sum_modes_sphY (n m : ℕ) (hmn : m ≤ n) (θ φ : ℝ) : ∑ p ∈ modes n m, ‖sphY p.1.toNat p.2 θ φ‖ ^ 2 ≤ ((n : ℝ) + 1) ^ 2 / (4 * Real.pi) := by
  have hpi := Real.pi_pos
  rw [ScalarCoefs.sum_modes (fun k l => ‖sphY k.toNat l θ φ‖ ^ 2)]
  have s1 : ∀ k ∈ Icc (0 : ℤ) n, ∑ l ∈ Icc (-(min k m)) (min k (m : ℤ)), ‖sphY k.toNat l θ φ‖ ^ 2 ≤ (2 * (k.toNat : ℝ) + 1) / (4 * Real.pi) := by
    intro k hk
    rw [mem_Icc] at hk
    rw [← c76_addition k.toNat θ φ]
    refine sum_le_sum_of_subset_of_nonneg (fun l hl => ?_) fun _ _ _ => by positivity
    rw [mem_Icc] at hl ⊢; omega
  refine (sum_le_sum s1).trans (le_of_eq ?_)
  have : ∀ N : ℕ, ∑ k ∈ Icc (0 : ℤ) N, (2 * (k.toNat : ℝ) + 1) / (4 * Real.pi) = ((N : ℝ) + 1) ^ 2 / (4 * Real.pi) := by
    intro N
    induction N with
    | zero => simp
    | succ N ih =>
      rw [show Icc (0 : ℤ) ((N + 1 : ℕ) : ℤ) = insert ((N + 1 : ℕ) : ℤ) (Icc (0 : ℤ) N) by ext k; simp only [mem_Icc, mem_insert]; push_cast; omega,
        sum_insert (by simp only [mem_Icc]; push_cast; omega), ih, Int.toNat_natCast]
      push_cast
      field_simp
      ring
  exact this n

theorem shSeries_bound (n m : ℕ) (hmn : m ≤ n) (v : ℤ → ℤ → ℂ) (θ φ : ℝ) :
    ‖shSeries n m v θ φ‖ ^ 2 ≤ ((n : ℝ) + 1) ^ 2 / (4 * Real.pi) * ∑ p ∈ modes n m, ‖v p.1 p.2‖ ^ 2 := by
  have hpi := Real.pi_pos
  have h1 : ‖shSeries n m v θ φ‖ ≤ ∑ p ∈ modes n m, ‖v p.1 p.2‖ * ‖sphY p.1.toNat p.2 θ φ‖ := by
    unfold shSeries
    refine (norm_sum_le _ _).trans (le_of_eq (sum_congr rfl fun p _ => norm_mul _ _))
  have h2 := sum_mul_sq_le_sq_mul_sq (modes n m) (fun p => ‖v p.1 p.2‖) (fun p => ‖sphY p.1.toNat p.2 θ φ‖)
  calc ‖shSeries n m v θ φ‖ ^ 2 ≤ (∑ p ∈ modes n m, ‖v p.1 p.2‖ * ‖sphY p.1.toNat p.2 θ φ‖) ^ 2 := by gcongr
    _ ≤ _ := h2
    _ ≤ (∑ p ∈ modes n m, ‖v p.1 p.2‖ ^ 2) * (((n : ℝ) + 1) ^ 2 / (4 * Real.pi)) := by
        have := sum_modes_sphY n m hmn θ φ
        gcongr
    _ = _ := by ring

/-- C76 (`ispht` is bounded): no sample of `ispht(c)` exceeds `(nmax+1)/√(4π)` times the square root of the power of `c`. -/
theorem c76_bounded (b : Backend) (c : ScalarCoefs ℂ) (hc : c.WellFormed) (nr nc : ℤ)
    (h1 : c.nmax + 2 ≤ nr) (h2 : 2 * c.mmax + 2 ≤ nc) (h3 : nc % 2 = 0) :
    ∃ p A, ispht b c (some nr) (some nc) = .ok p ∧ p.array = .ok A ∧ A.rows = nr ∧ A.cols = nc ∧
      ∀ i j, i < A.rows → j < A.cols → ‖A.at' i j‖ ^ 2 ≤ ((c.nmax : ℝ) + 1) ^ 2 / (4 * Real.pi) * c.power (fun x : ℂ => ‖x‖) := by
  have hv := hasCoefs_cf hc
  obtain ⟨p, A, e1, e2, e3, e4, e5⟩ := c30_ispht b c hc c.cf hv nr nc h1 h2 h3
  refine ⟨p, A, e1, e2, e3, e4, fun i j hi hj => ?_⟩
  have hmn := hc.mmax_le
  have hm0 := hc.mmax_nonneg
  obtain ⟨n', hn'⟩ := Int.eq_ofNat_of_zero_le (show 0 ≤ c.nmax by omega)
  obtain ⟨m', hm'⟩ := Int.eq_ofNat_of_zero_le hm0
  obtain ⟨-, -, -, -, -, ep⟩ := c13_power (fun x : ℂ => ‖x‖) c hc
  have ep' : c.power (fun x : ℂ => ‖x‖) = ∑ p ∈ modes c.nmax c.mmax, ‖c.cf p.1 p.2‖ ^ 2 := by
    rw [ep]; exact sum_congr rfl fun p hp => by rw [hv p.1 p.2 (mem_modes.mp hp)]; rfl
  rw [e5 i j hi hj, ep', hn', hm']
  exact_mod_cast shSeries_bound n' m' (by omega) c.cf _ _

/-- C76 (`ispht` is stable): two coefficient sets with the same limits. -/
theorem c76_stable (b b' : Backend) (c d : ScalarCoefs ℂ) (hc : c.WellFormed) (hd : d.WellFormed) (hn : d.nmax = c.nmax) (hm : d.mmax = c.mmax)
    (x y : ℤ → ℤ → ℂ) (hx : HasCoefs c x) (hy : HasCoefs d y) (nr nc : ℤ)
    (h1 : c.nmax + 2 ≤ nr) (h2 : 2 * c.mmax + 2 ≤ nc) (h3 : nc % 2 = 0) :
    ∃ p q A B, ispht b c (some nr) (some nc) = .ok p ∧ ispht b' d (some nr) (some nc) = .ok q ∧ p.array = .ok A ∧ q.array = .ok B ∧
      A.rows = nr ∧ A.cols = nc ∧ B.rows = nr ∧ B.cols = nc ∧
      ∀ i j, i < A.rows → j < A.cols → ‖A.at' i j - B.at' i j‖ ^ 2 ≤
        ((c.nmax : ℝ) + 1) ^ 2 / (4 * Real.pi) * ∑ p ∈ modes c.nmax c.mmax, ‖x p.1 p.2 - y p.1 p.2‖ ^ 2 := by
  obtain ⟨p, A, e1, e2, e3, e4, e5⟩ := c30_ispht b c hc x hx nr nc h1 h2 h3
  obtain ⟨q, B, f1, f2, f3, f4, f5⟩ := c30_ispht b' d hd y hy nr nc (by omega) (by omega) h3
  refine ⟨p, q, A, B, e1, f1, e2, f2, e3, e4, f3, f4, fun i j hi hj => ?_⟩
  have hmn := hc.mmax_le
  have hm0 := hc.mmax_nonneg
  obtain ⟨n', hn'⟩ := Int.eq_ofNat_of_zero_le (show 0 ≤ c.nmax by omega)
  obtain ⟨m', hm'⟩ := Int.eq_ofNat_of_zero_le hm0
  rw [e5 i j hi hj, f5 i j (by omega) (by omega), hn, hm, hn', hm']
  have : ∀ θ φ, shSeries n' m' x θ φ - shSeries n' m' y θ φ = shSeries n' m' (fun k l => x k l - y k l) θ φ := by
    intro θ φ
    unfold shSeries
    rw [← sum_sub_distrib]
    exact sum_congr rfl fun p _ => by ring
  rw [this]
  exact_mod_cast shSeries_bound n' m' (by omega) (fun k l => x k l - y k l) _ _

/-! ## Concrete cases -/

example : dsample.rows % 2 = 0 ∧ 0 < dsample.rows ∧ dsample.rows ≤ 2 ^ 29 ∧ DSym 1 dsample := ⟨by decide, by decide, by decide, dsample_sym⟩
example : csample.WellFormed ∧ csample.nmax + 2 ≤ 4 ∧ 2 * csample.mmax + 2 ≤ 4 := ⟨csample_wf, by decide, by decide⟩

end Verif.Props
