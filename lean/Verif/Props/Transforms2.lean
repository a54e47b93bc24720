import Verif.Props.Transforms
import Verif.Props.Coefs2
import Mathlib.MeasureTheory.Integral.DominatedConvergence
/-!
# Properties C31, C39: projection and Parseval
-/
namespace Verif.Props
open Verif Finset

/-! ## C31 -/

/-- A trigonometric polynomial on the torus: frequencies `|ν| < M` in θ and `|m| < H` in φ. -/
noncomputable def trigPoly (M H : ℕ) (a : ℤ → ℤ → ℂ) (θ φ : ℝ) : ℂ :=
  ∑ m ∈ Ioo (-(H : ℤ)) H, ∑ ν ∈ Ioo (-(M : ℤ)) M, a ν m * Complex.exp (ν * (θ * Complex.I)) * Complex.exp (m * (φ * Complex.I))

/-- The band-limited interpolant of double-sphere data: the trigonometric polynomial of the discrete Fourier coefficients
below the Nyquist frequencies. -/
noncomputable def interpolant (D : Arr2 ℂ) : ℝ → ℝ → ℂ := trigPoly (D.rows / 2) (D.cols / 2) (dftc D)

theorem sphInt_poly (H : ℕ) (h : ℤ → ℝ → ℂ) (hh : ∀ m, Continuous (h m)) (n : ℕ) (m : ℤ) :
    sphInt (fun θ φ => (∑ l ∈ Ioo (-(H : ℤ)) H, h l θ * Complex.exp (l * (φ * Complex.I))) * (starRingEnd ℂ) (sphY n m θ φ)) =
      if m ∈ Ioo (-(H : ℤ)) H then 2 * Real.pi * ∫ θ in (0 : ℝ)..Real.pi, h m θ * (thetaPart n m θ : ℂ) * Real.sin θ else 0 := by
  unfold sphInt
  have hct := continuous_thetaPart n m
  have e : ∀ φ θ : ℝ, (∑ l ∈ Ioo (-(H : ℤ)) H, h l θ * Complex.exp (l * (φ * Complex.I))) * (starRingEnd ℂ) (sphY n m θ φ) * Real.sin θ =
      ∑ l ∈ Ioo (-(H : ℤ)) H, Complex.exp ((l - m : ℤ) * (φ * Complex.I)) * (h l θ * (thetaPart n m θ : ℂ) * Real.sin θ) := by
    intro φ θ
    rw [sum_mul, sum_mul]
    refine sum_congr rfl fun l _ => ?_
    unfold sphY
    rw [map_mul, Complex.conj_ofReal, ← Complex.exp_conj]
    simp only [map_mul, Complex.conj_ofReal, Complex.conj_I, map_intCast]
    rw [show ((l - m : ℤ) : ℂ) * (φ * Complex.I) = l * (φ * Complex.I) + m * (φ * -Complex.I) by push_cast; ring,
      Complex.exp_add]
    ring
  simp only [e]
  have e2 : ∀ φ : ℝ, (∫ θ in (0 : ℝ)..Real.pi, ∑ l ∈ Ioo (-(H : ℤ)) H, Complex.exp ((l - m : ℤ) * (φ * Complex.I)) * (h l θ * (thetaPart n m θ : ℂ) * Real.sin θ)) =
      ∑ l ∈ Ioo (-(H : ℤ)) H, Complex.exp ((l - m : ℤ) * (φ * Complex.I)) * ∫ θ in (0 : ℝ)..Real.pi, h l θ * (thetaPart n m θ : ℂ) * Real.sin θ := by
    intro φ
    rw [intervalIntegral.integral_finsetSum]
    · exact sum_congr rfl fun l _ => intervalIntegral.integral_const_mul _ _
    · intro l _
      apply Continuous.intervalIntegrable
      have := hh l
      fun_prop
  simp only [e2]
  rw [intervalIntegral.integral_finsetSum]
  · have e3 : ∀ l ∈ Ioo (-(H : ℤ)) H, (∫ φ in (0 : ℝ)..(2 * Real.pi), Complex.exp ((l - m : ℤ) * (φ * Complex.I)) *
        ∫ θ in (0 : ℝ)..Real.pi, h l θ * (thetaPart n m θ : ℂ) * Real.sin θ) =
        if l = m then 2 * Real.pi * ∫ θ in (0 : ℝ)..Real.pi, h m θ * (thetaPart n m θ : ℂ) * Real.sin θ else 0 := by
      intro l _
      rw [intervalIntegral.integral_mul_const, integral_azimuth]
      by_cases hl : l = m
      · subst hl; simp
      · rw [if_neg (by omega), if_neg hl, zero_mul]
    rw [sum_congr rfl e3, sum_ite_eq']
  · intro l _
    apply Continuous.intervalIntegrable
    fun_prop

/-- C31: `spht` projects the band-limited interpolant of the (symmetric) pattern onto the spherical harmonics. -/
theorem c31_projection (b : Backend) (D : Arr2 ℂ) (hR : D.rows % 2 = 0) (hR0 : 0 < D.rows) (hsz : D.rows ≤ 2 ^ 29) (hsym : DSym 1 D)
    (n m : ℤ) (h0 : 0 ≤ m) (c : ScalarCoefs ℂ) (h : spht b ⟨.arr D⟩ (some n) (some m) = .ok c) :
    c.nmax = n ∧ c.mmax = m ∧ ∀ k l : ℤ, IsMode n m k l →
      readMap c k l = some (sphInt fun θ φ => interpolant D θ φ * (starRingEnd ℂ) (sphY k.toNat l θ φ)) := by
  have hnr : ¬ (m > n ∨ n > ((D.rows / 2 + 1 : ℕ) : ℤ) - 2 ∨ 2 * m ≥ D.cols ∨ D.cols % 2 = 1) := fun hc => by
    obtain ⟨msg, e⟩ := c35_rejects b D n m hc
    rw [h] at e; cases e
  obtain ⟨n', rfl⟩ := Int.eq_ofNat_of_zero_le (show 0 ≤ n by omega)
  obtain ⟨m', rfl⟩ := Int.eq_ofNat_of_zero_le h0
  obtain ⟨d, e, e1, e2, hw, hv⟩ := spht_main b D hR hR0 (by omega) (some (n' : ℤ)) (some (m' : ℤ)) n' m' rfl (by omega) (by omega) (by omega)
    (by unfold Backend.SizeOK; cases b <;> simp only
        norm_num at hsz ⊢; omega)
  rw [h] at e
  cases e
  refine ⟨e1, e2, fun k l hk => ?_⟩
  rw [readMap_eq hw, hv k l hk, spht_integral D hsym (by omega)]
  congr 1
  have hint : ∀ θ φ, interpolant D θ φ =
      ∑ l ∈ Ioo (-((D.cols / 2 : ℕ) : ℤ)) (D.cols / 2 : ℕ), trigSum (D.rows / 2) (fhat D l) θ * Complex.exp (l * (φ * Complex.I)) := by
    intro θ φ
    unfold interpolant trigPoly trigSum
    refine sum_congr rfl fun l _ => ?_
    rw [sum_mul]
    refine sum_congr rfl fun ν hν => ?_
    rw [mem_Ioo] at hν
    unfold fhat
    rw [if_pos (by rw [abs_lt]; exact hν)]
  simp only [hint]
  rw [sphInt_poly _ (fun l θ => trigSum (D.rows / 2) (fhat D l) θ) (fun l => continuous_trigSum _ _), if_pos]
  obtain ⟨-, -, -, g⟩ := hk
  rw [abs_le] at g
  rw [mem_Ioo]; omega

theorem sum_Ioo_of_Ioc (M : ℕ) (F : ℤ → ℂ) (h : F M = 0) : ∑ ν ∈ Ioc (-(M : ℤ)) M, F ν = ∑ ν ∈ Ioo (-(M : ℤ)) M, F ν := by
  symm
  refine sum_subset (fun ν hν => by rw [mem_Ioo] at hν; rw [mem_Ioc]; omega) fun ν h1 h2 => ?_
  rw [mem_Ioc] at h1
  rw [mem_Ioo] at h2
  rw [show ν = M by omega, h]

/-- The specification is the right one (1): data sampled from a trigonometric polynomial below the Nyquist frequencies has
that polynomial as its interpolant. -/
theorem c31_interpolant_unique (D : Arr2 ℂ) (M H : ℕ) (hM : D.rows = 2 * M) (hH : D.cols = 2 * H) (h0 : 0 < M) (h1 : 0 < H) (a : ℤ → ℤ → ℂ)
    (hD : ∀ i j : ℕ, i < D.rows → j < D.cols → D.at' i j = trigPoly M H a (2 * Real.pi * i / D.rows) (2 * Real.pi * j / D.cols)) :
    interpolant D = trigPoly M H a := by
  -- the Fourier array of the polynomial
  let sg : ℕ → ℕ → ℤ := fun K i => if i < K then (i : ℤ) else (i : ℤ) - 2 * K
  let A : Arr2 ℂ := Arr2.ofFn (2 * M) (2 * H) fun i j => if i = M ∨ j = H then 0 else a (sg M i) (sg H j)
  have hsl : ∀ (K : ℕ) (ν : ℤ), -(K : ℤ) < ν → ν < K → (ν % ((2 * K : ℕ) : ℤ)).toNat ≠ K ∧ (ν % ((2 * K : ℕ) : ℤ)).toNat < 2 * K ∧
      sg K (ν % ((2 * K : ℕ) : ℤ)).toNat = ν := by
    intro K ν g1 g2
    simp only [sg]
    rw [wrap_mod (by omega) (by omega)]
    refine ⟨?_, ?_, ?_⟩
    · split <;> omega
    · split <;> omega
    · split <;> split <;> omega
  have hA1 : ∀ ν m : ℤ, -(M : ℤ) < ν → ν < M → -(H : ℤ) < m → m < H → fAt A m ν = a ν m := by
    intro ν m g1 g2 g3 g4
    obtain ⟨p1, p2, p3⟩ := hsl M ν g1 g2
    obtain ⟨q1, q2, q3⟩ := hsl H m g3 g4
    unfold fAt
    simp only [A, Arr2.rows_ofFn, Arr2.cols_ofFn]
    rw [Arr2.at'_ofFn p2 q2, if_neg (by tauto), p3, q3]
  have hA2 : ∀ m : ℤ, fAt A m M = 0 := by
    intro m
    unfold fAt
    simp only [A, Arr2.rows_ofFn, Arr2.cols_ofFn]
    rw [Arr2.at'_ofFn (slot_lt' (by omega) _) (slot_lt' (by omega) _), if_pos]
    left; rw [Int.emod_eq_of_lt (by omega) (by omega)]; omega
  have hA3 : ∀ ν : ℤ, fAt A H ν = 0 := by
    intro ν
    unfold fAt
    simp only [A, Arr2.rows_ofFn, Arr2.cols_ofFn]
    rw [Arr2.at'_ofFn (slot_lt' (by omega) _) (slot_lt' (by omega) _), if_pos]
    right; rw [Int.emod_eq_of_lt (by omega) (by omega)]; omega
  obtain ⟨D', eD, hr, hc, hv, hd⟩ := invFourier_spec A (2 * M) (2 * H) rfl rfl (by omega) (by omega)
  have hDD : D = D' := by
    refine Arr2.ext' (by omega) (by omega) fun i j hi hj => ?_
    rw [hD i j hi hj, hv i j (by omega) (by omega)]
    rw [show (-((2 * M - 1) / 2 : ℕ) - 1 : ℤ) = -(M : ℤ) by omega, show 2 * M / 2 = M by omega,
      show (-((2 * H - 1) / 2 : ℕ) - 1 : ℤ) = -(H : ℤ) by omega, show 2 * H / 2 = H by omega]
    rw [sum_Ioo_of_Ioc M _ (sum_eq_zero fun m _ => by rw [hA2]; simp)]
    have : ∀ ν ∈ Ioo (-(M : ℤ)) M, ∑ m ∈ Ioc (-(H : ℤ)) H, fAt A m ν * root (2 * M) (i * ν) * root (2 * H) (j * m) =
        ∑ m ∈ Ioo (-(H : ℤ)) H, a ν m * Complex.exp (ν * ((2 * Real.pi * i / D.rows : ℝ) * Complex.I)) * Complex.exp (m * ((2 * Real.pi * j / D.cols : ℝ) * Complex.I)) := by
      intro ν hν
      rw [mem_Ioo] at hν
      rw [sum_Ioo_of_Ioc H _ (by rw [hA3]; simp)]
      refine sum_congr rfl fun m hm => ?_
      rw [mem_Ioo] at hm
      rw [hA1 ν m hν.1 hν.2 hm.1 hm.2, root_exp, root_exp, hM, hH]
    rw [sum_congr rfl this, sum_comm]
    rfl
  funext θ φ
  unfold interpolant
  rw [hM, hH, show 2 * M / 2 = M by omega, show 2 * H / 2 = H by omega]
  unfold trigPoly
  refine sum_congr rfl fun m hm => sum_congr rfl fun ν hν => ?_
  rw [mem_Ioo] at hm hν
  rw [hDD, hd ν m, hA1 ν m hν.1 hν.2 hm.1 hm.2]

/-- Witness: the sample pattern is symmetric and its transform is accepted. -/
example : DSym 1 dsample ∧ ∃ c, spht .py ⟨.arr dsample⟩ (some 1) (some 1) = .ok c := by
  refine ⟨dsample_sym, ?_⟩
  obtain ⟨c, h, -⟩ := c35_accepts .py dsample (by simp [dsample]) (by simp [dsample]) (by simp [dsample]) 1 1 (by omega) (by omega)
    (by simp [dsample]) (by simp [dsample]) (by simp [dsample])
  exact ⟨c, h⟩

/-- C31, user level: for data sampled from a band-limited function `f` on the sphere (a trigonometric polynomial below the
Nyquist frequencies with `f(-θ, φ+π) = f(θ, φ)`), `spht` returns the exact projection integrals of `f`. -/
theorem c31_sampled (b : Backend) (D : Arr2 ℂ) (M H : ℕ) (hM : D.rows = 2 * M) (hH : D.cols = 2 * H) (h0 : 0 < M) (h1 : 0 < H)
    (hsz : D.rows ≤ 2 ^ 29) (a : ℤ → ℤ → ℂ)
    (hD : ∀ i j : ℕ, i < D.rows → j < D.cols → D.at' i j = trigPoly M H a (2 * Real.pi * i / D.rows) (2 * Real.pi * j / D.cols))
    (hsym : ∀ θ φ, trigPoly M H a (-θ) (φ + Real.pi) = trigPoly M H a θ φ)
    (n m : ℤ) (g0 : 0 ≤ m) (c : ScalarCoefs ℂ) (h : spht b ⟨.arr D⟩ (some n) (some m) = .ok c) (k l : ℤ) (hk : IsMode n m k l) :
    readMap c k l = some (sphInt fun θ φ => trigPoly M H a θ φ * (starRingEnd ℂ) (sphY k.toNat l θ φ)) := by
  have hper : ∀ (θ φ : ℝ) (p q : ℤ), trigPoly M H a (θ + p * (2 * Real.pi)) (φ + q * (2 * Real.pi)) = trigPoly M H a θ φ := by
    intro θ φ p q
    unfold trigPoly
    refine sum_congr rfl fun m _ => sum_congr rfl fun ν _ => ?_
    congr 1
    · congr 1
      rw [show (ν : ℂ) * (((θ + p * (2 * Real.pi) : ℝ) : ℂ) * Complex.I) = ν * (θ * Complex.I) + ((ν * p : ℤ) : ℂ) * (2 * Real.pi * Complex.I) by push_cast; ring,
        Complex.exp_add, Complex.exp_int_mul_two_pi_mul_I, mul_one]
    · rw [show (m : ℂ) * (((φ + q * (2 * Real.pi) : ℝ) : ℂ) * Complex.I) = m * (φ * Complex.I) + ((m * q : ℤ) : ℂ) * (2 * Real.pi * Complex.I) by push_cast; ring,
        Complex.exp_add, Complex.exp_int_mul_two_pi_mul_I, mul_one]
  have hds : DSym 1 D := by
    intro i j hi hj
    rw [hD i j hi hj, hD _ _ (Nat.mod_lt _ (by omega)) (Nat.mod_lt _ (by omega)), one_mul, ← hsym]
    obtain ⟨p, hp⟩ := grid_refl_row D.rows i hi
    obtain ⟨q, hq⟩ := grid_refl_col D.cols j (by omega) hj
    rw [hp, hq, hper]
  rw [((c31_projection b D (by omega) (by omega) hsz hds n m g0 c h).2.2 k l hk), c31_interpolant_unique D M H hM hH h0 h1 a hD]

/-! ## C39 -/


theorem continuous_sphY (n : ℕ) (m : ℤ) : Continuous fun p : ℝ × ℝ => sphY n m p.2 p.1 := by
  unfold sphY
  have := continuous_thetaPart n m
  fun_prop

theorem sphInt_sum {ι : Type} (s : Finset ι) (F : ι → ℝ → ℝ → ℂ) (hF : ∀ i ∈ s, Continuous fun p : ℝ × ℝ => F i p.2 p.1) :
    sphInt (fun θ φ => ∑ i ∈ s, F i θ φ) = ∑ i ∈ s, sphInt (F i) := by
  unfold sphInt
  have e : ∀ φ : ℝ, (∫ θ in (0 : ℝ)..Real.pi, (∑ i ∈ s, F i θ φ) * Real.sin θ) = ∑ i ∈ s, ∫ θ in (0 : ℝ)..Real.pi, F i θ φ * Real.sin θ := by
    intro φ
    simp only [sum_mul]
    rw [intervalIntegral.integral_finsetSum]
    intro i hi
    apply Continuous.intervalIntegrable
    have : Continuous fun θ => F i θ φ := (hF i hi).comp (Continuous.prodMk continuous_const continuous_id)
    fun_prop
  simp only [e]
  rw [intervalIntegral.integral_finsetSum]
  intro i hi
  apply Continuous.intervalIntegrable
  apply intervalIntegral.continuous_parametric_intervalIntegral_of_continuous'
  have h2 : Continuous fun x : ℝ × ℝ => ((Real.sin x.2 : ℝ) : ℂ) := by fun_prop
  exact (hF i hi).mul h2

theorem sphInt_const_mul (a : ℂ) (F : ℝ → ℝ → ℂ) : sphInt (fun θ φ => a * F θ φ) = a * sphInt F := by
  unfold sphInt
  simp only [mul_assoc, intervalIntegral.integral_const_mul]

/-- The integral of the squared modulus of a spherical harmonic series. -/
theorem sphInt_series (nmax mmax : ℤ) (v : ℤ → ℤ → ℂ) :
    sphInt (fun θ φ => ((‖shSeries nmax mmax v θ φ‖ ^ 2 : ℝ) : ℂ)) = ((∑ p ∈ modes nmax mmax, ‖v p.1 p.2‖ ^ 2 : ℝ) : ℂ) := by
  have e : ∀ θ φ, ((‖shSeries nmax mmax v θ φ‖ ^ 2 : ℝ) : ℂ) = ∑ p ∈ modes nmax mmax, ∑ q ∈ modes nmax mmax,
      v p.1 p.2 * (starRingEnd ℂ) (v q.1 q.2) * (sphY p.1.toNat p.2 θ φ * (starRingEnd ℂ) (sphY q.1.toNat q.2 θ φ)) := by
    intro θ φ
    rw [← Complex.normSq_eq_norm_sq, ← Complex.mul_conj]
    unfold shSeries
    rw [map_sum, sum_mul_sum]
    refine sum_congr rfl fun p _ => sum_congr rfl fun q _ => ?_
    rw [map_mul]; ring
  simp only [e]
  have hc : ∀ p q : ℤ × ℤ, Continuous fun x : ℝ × ℝ => v p.1 p.2 * (starRingEnd ℂ) (v q.1 q.2) *
      (sphY p.1.toNat p.2 x.2 x.1 * (starRingEnd ℂ) (sphY q.1.toNat q.2 x.2 x.1)) := by
    intro p q
    have h1 := continuous_sphY p.1.toNat p.2
    have h2 := Complex.continuous_conj.comp (continuous_sphY q.1.toNat q.2)
    exact continuous_const.mul (h1.mul h2)
  rw [sphInt_sum _ _ fun p _ => continuous_finsetSum _ fun q _ => hc p q]
  push_cast
  refine sum_congr rfl fun p hp => ?_
  rw [sphInt_sum _ _ fun q _ => hc p q]
  obtain ⟨p0, p1, p2, p3⟩ := mem_modes.mp hp
  have e2 : ∀ q ∈ modes nmax mmax, sphInt (fun θ φ => v p.1 p.2 * (starRingEnd ℂ) (v q.1 q.2) *
      (sphY p.1.toNat p.2 θ φ * (starRingEnd ℂ) (sphY q.1.toNat q.2 θ φ))) = if p = q then v p.1 p.2 * (starRingEnd ℂ) (v q.1 q.2) else 0 := by
    intro q hq
    obtain ⟨q0, q1, q2, q3⟩ := mem_modes.mp hq
    rw [Int.abs_eq_natAbs] at p2 q2
    rw [sphInt_const_mul, c26_orthonormal _ _ _ _ (by omega) (by omega)]
    have : (p.1.toNat = q.1.toNat ∧ p.2 = q.2) ↔ p = q := by
      constructor
      · rintro ⟨a, b⟩; exact Prod.ext (by omega) b
      · rintro rfl; exact ⟨rfl, rfl⟩
    simp only [this]
    split <;> simp
  rw [sum_congr rfl e2, sum_ite_eq, if_pos hp, Complex.mul_conj, Complex.normSq_eq_norm_sq]
  push_cast; rfl

/-- C39 (Parseval): the power of the coefficients is the integral of `|f|^2` over the sphere. -/
theorem c39_parseval (c : ScalarCoefs ℂ) (hc : c.WellFormed) (v : ℤ → ℤ → ℂ) (hv : HasCoefs c v) :
    ((c.power (fun x : ℂ => ‖x‖) : ℝ) : ℂ) = sphInt fun θ φ => ((‖shSeries c.nmax c.mmax v θ φ‖ ^ 2 : ℝ) : ℂ) := by
  rw [sphInt_series]
  obtain ⟨-, -, -, -, -, e⟩ := c13_power (fun x : ℂ => ‖x‖) c hc
  rw [e]
  congr 1
  refine sum_congr rfl fun p hp => ?_
  rw [hv p.1 p.2 (mem_modes.mp hp)]
  rfl

/-- C39 for the function sampled by `ispht`: the function whose samples `c30_ispht` describes. -/
example : csample.WellFormed ∧ HasCoefs csample csample.cf := ⟨csample_wf, hasCoefs_cf csample_wf⟩

end Verif.Props
