import Verif.TransP
/-!
# Properties C28 - C32, C35 - C38: the scalar transforms

Statements are about the public functions `spht`, `ispht` (either backend `b`), `spht_slow`, `ispht_slow`, reading
coefficients with `c[n, m]` (`readMap`) and samples with `.array`.

The model of the C code covers FFT lengths up to `2^30` (`Backend.SizeOK`, `nrows ≤ 2^28`).
-/
namespace Verif.Props
open Verif Finset

/-- Sum of the spherical harmonic series with coefficients `v n m`. -/
noncomputable def shSeries (nmax mmax : ℤ) (v : ℤ → ℤ → ℂ) (θ φ : ℝ) : ℂ :=
  ∑ p ∈ modes nmax mmax, v p.1 p.2 * sphY p.1.toNat p.2 θ φ

/-- `v` lists the coefficients of `c`: `c[n, m]` returns `v n m` for every mode. -/
def HasCoefs (c : ScalarCoefs ℂ) (v : ℤ → ℤ → ℂ) : Prop := ∀ n m, IsMode c.nmax c.mmax n m → readMap c n m = some (v n m)

theorem HasCoefs.cf {c : ScalarCoefs ℂ} {v : ℤ → ℤ → ℂ} (h : HasCoefs c v) (hc : c.WellFormed) {n m : ℤ}
    (hm : IsMode c.nmax c.mmax n m) : c.cf n m = v n m := by
  have := h n m hm
  rw [readMap_eq hc.wf] at this
  unfold ScalarCoefs.cf
  rw [this]; rfl

theorem HasCoefs.series {c : ScalarCoefs ℂ} {v : ℤ → ℤ → ℂ} (h : HasCoefs c v) (hc : c.WellFormed) (θ φ : ℝ) :
    ∑ p ∈ modes c.nmax c.mmax, c.cf p.1 p.2 * sphY p.1.toNat p.2 θ φ = shSeries c.nmax c.mmax v θ φ := by
  unfold shSeries
  exact sum_congr rfl fun p hp => by rw [h.cf hc (mem_modes.mp hp)]

theorem hasCoefs_cf {c : ScalarCoefs ℂ} (hc : c.WellFormed) : HasCoefs c c.cf := by
  intro n m hm
  rw [readMap_eq hc.wf]
  unfold ScalarCoefs.cf
  rw [ScalarCoefs.absMap_mode hc.wf hm]; rfl

theorem res_bind_ok {α β : Type} (x : Res α) (f : α → Res β) (y : β) : x.bind f = .ok y ↔ ∃ a, x = .ok a ∧ f a = .ok y := by
  cases x with
  | error e => simp [Except.bind]
  | ok a => simp [Except.bind]

theorem init_nmax {v : List ℂ} {n m : ℤ} {c : ScalarCoefs ℂ} (h : ScalarCoefs.init (.arr v) n m = .ok c) : c.nmax = n ∧ c.mmax = m := by
  unfold ScalarCoefs.init at h
  simp only at h
  split at h
  · cases h
  · split at h
    · cases h
    · cases h; exact ⟨rfl, rfl⟩

/-! ## C30 -/

/-- C30: `ispht` evaluates the series on the grid. -/
theorem c30_ispht (b : Backend) (c : ScalarCoefs ℂ) (hc : c.WellFormed) (v : ℤ → ℤ → ℂ) (hv : HasCoefs c v) (nr nc : ℤ)
    (h1 : c.nmax + 2 ≤ nr) (h2 : 2 * c.mmax + 2 ≤ nc) (h3 : nc % 2 = 0) :
    ∃ p A, ispht b c (some nr) (some nc) = .ok p ∧ p.array = .ok A ∧ A.rows = nr ∧ A.cols = nc ∧
      ∀ i j : ℕ, i < A.rows → j < A.cols →
        A.at' i j = shSeries c.nmax c.mmax v (Real.pi * i / ((nr : ℝ) - 1)) (2 * Real.pi * j / nc) := by
  have hw := hc.wf
  have h0 : 0 ≤ c.nmax := le_trans hw.m0 hw.mn
  have hm0 := hw.m0
  obtain ⟨r, rfl⟩ := Int.eq_ofNat_of_zero_le (show 0 ≤ nr by omega)
  obtain ⟨k, rfl⟩ := Int.eq_ofNat_of_zero_le (show 0 ≤ nc by omega)
  obtain ⟨D, e, hr, hk, hval, -⟩ := ispht_main b c hw (some (r : ℤ)) (some (k : ℤ)) r k rfl rfl h1 h2 (by omega)
  refine ⟨_, _, e, rfl, ?_, ?_, fun i j hi hj => ?_⟩
  · show ((min (D.rows / 2 + 1) D.rows : ℕ) : ℤ) = r
    omega
  · exact_mod_cast hk
  · have hi' : i < min (D.rows / 2 + 1) D.rows := hi
    have hj' : j < D.cols := hj
    have hr1 : (r : ℝ) - 1 ≠ 0 := by
      have : (2 : ℝ) ≤ r := by exact_mod_cast (show 2 ≤ r by omega)
      linarith
    unfold Arr2.takeRows
    rw [Arr2.at'_ofFn hi' hj', hval i j (by omega) hj', hv.series hc]
    congr 1
    · rw [hr, Nat.cast_sub (by omega)]
      push_cast
      rw [show 2 * (r : ℝ) - 2 = 2 * (r - 1) by ring]
      field_simp
    · rw [hk]; push_cast; rfl

/-- C30, default arguments: `nrows = nmax + 2`, `ncols = 2*mmax + 2`. -/
theorem c30_defaults (b : Backend) (c : ScalarCoefs ℂ) (nr nc : ℤ) :
    ispht b c none none = ispht b c (some (c.nmax + 2)) (some (2 * c.mmax + 2)) ∧
    ispht b c none (some nc) = ispht b c (some (c.nmax + 2)) (some nc) ∧
    ispht b c (some nr) none = ispht b c (some nr) (some (2 * c.mmax + 2)) := ⟨rfl, rfl, rfl⟩

/-- A set with `nmax = 2`, `mmax = 1` and seven different coefficients. -/
noncomputable def csample : ScalarCoefs ℂ := ⟨[1, 2, 3, 4, 5, Complex.I, 7], 2, 1⟩

theorem csample_wf : csample.WellFormed := ⟨by decide, by decide, by rw [show csample.nmax = 2 from rfl, show csample.mmax = 1 from rfl]; decide⟩

example : csample.WellFormed ∧ HasCoefs csample csample.cf ∧ csample.nmax + 2 ≤ 5 ∧ 2 * csample.mmax + 2 ≤ 6 ∧ (6 : ℤ) % 2 = 0 :=
  ⟨csample_wf, hasCoefs_cf csample_wf, by decide, by decide, by decide⟩

/-! ## C32 -/

/-- C32: analysis of the synthesised pattern returns the coefficients, for any combination of backends. -/
theorem c32_round_trip (b b' : Backend) (c : ScalarCoefs ℂ) (hc : c.WellFormed) (nr nc : ℤ)
    (h1 : c.nmax + 2 ≤ nr) (h2 : 2 * c.mmax + 2 ≤ nc) (h3 : nc % 2 = 0) (hsz : nr ≤ 2 ^ 28) :
    ∃ p, ispht b c (some nr) (some nc) = .ok p ∧ spht b' p (some c.nmax) (some c.mmax) = .ok c := by
  have hw := hc.wf
  have h0 : 0 ≤ c.nmax := le_trans hw.m0 hw.mn
  have hm0 := hw.m0
  have hmn := hw.mn
  obtain ⟨r, rfl⟩ := Int.eq_ofNat_of_zero_le (show 0 ≤ nr by omega)
  obtain ⟨k, rfl⟩ := Int.eq_ofNat_of_zero_le (show 0 ≤ nc by omega)
  obtain ⟨D, e, hr, hk, -, hd⟩ := ispht_main b c hw (some (r : ℤ)) (some (k : ℤ)) r k rfl rfl h1 h2 (by omega)
  refine ⟨_, e, ?_⟩
  obtain ⟨n, hn⟩ := Int.eq_ofNat_of_zero_le h0
  obtain ⟨m, hm⟩ := Int.eq_ofNat_of_zero_le hm0
  obtain ⟨c', e', hn', hm', hw', hv'⟩ := spht_main b' D (by omega) (by omega) (by omega) (some c.nmax) (some c.mmax) n m
    (by rw [hn, hm]; rfl) (by omega) (by omega) (by omega) (by
      unfold Backend.SizeOK; cases b' <;> simp only
      norm_num at hsz ⊢; omega)
  rw [e']
  congr 1
  refine ScalarCoefs.ext_modes hw' hw (by omega) (by omega) fun n' m' hmo => ?_
  rw [hn', hm'] at hmo
  rw [hv' n' m' hmo]
  obtain ⟨g0, g1, g2, g3⟩ := hmo
  have hfh : fhat D m' = Gval (fun m n => c.cf n m) n m' := by
    funext ν
    rw [Int.abs_eq_natAbs] at g3
    unfold fhat
    split
    · rename_i hlt
      rw [hd m' ν (by rw [abs_le]; rw [abs_lt] at hlt; omega) (by omega), if_pos (by rw [Int.abs_eq_natAbs]; omega), hn, Int.toNat_natCast]
    · rename_i hge
      rw [Gval_support _ _ _ _ (by omega)]
  have := bF_synth (D.rows / 2) n (fun m n => c.cf n m) m' n'.toNat (by omega) (by rw [Int.abs_eq_natAbs] at g2; omega) (by omega)
  unfold sing
  rw [hfh, this, Int.toNat_of_nonneg g0]
  unfold ScalarCoefs.cf
  rw [ScalarCoefs.absMap_mode hw (by rw [hn, hm]; exact ⟨g0, g1, g2, g3⟩)]
  rfl


example : csample.nmax + 2 ≤ 4 ∧ 2 * csample.mmax + 2 ≤ 4 ∧ (4 : ℤ) % 2 = 0 := by decide

/-! ## C35 -/

/-- C35: arguments that satisfy the documented conditions are accepted and give a well-formed set with exactly the
requested limits. -/
theorem c35_accepts (b : Backend) (D : Arr2 ℂ) (hR : D.rows % 2 = 0) (hR0 : 0 < D.rows) (hsz : D.rows ≤ 2 ^ 29) (n m : ℤ) (h0 : 0 ≤ m)
    (h1 : m ≤ n) (h2 : n ≤ ((D.rows / 2 + 1 : ℕ) : ℤ) - 2) (h3 : 2 * m < D.cols) (h4 : D.cols % 2 = 0) :
    ∃ c, spht b ⟨.arr D⟩ (some n) (some m) = .ok c ∧ c.nmax = n ∧ c.mmax = m ∧ c.WellFormed := by
  obtain ⟨n', rfl⟩ := Int.eq_ofNat_of_zero_le (show 0 ≤ n by omega)
  obtain ⟨m', rfl⟩ := Int.eq_ofNat_of_zero_le h0
  obtain ⟨c, e, e1, e2, hw, -⟩ := spht_main b D hR hR0 h4 (some (n' : ℤ)) (some (m' : ℤ)) n' m' rfl (by omega) (by omega) (by omega)
    (by unfold Backend.SizeOK; cases b <;> simp only
        norm_num at hsz ⊢; omega)
  exact ⟨c, e, e1, e2, ScalarCoefs.wf_iff.mp hw⟩

/-- C35: anything else raises ValueError (for all integers, also negative ones). -/
theorem c35_rejects (b : Backend) (D : Arr2 ℂ) (n m : ℤ)
    (h : m > n ∨ n > ((D.rows / 2 + 1 : ℕ) : ℤ) - 2 ∨ 2 * m ≥ D.cols ∨ D.cols % 2 = 1) :
    Res.Raises (spht b ⟨.arr D⟩ (some n) (some m)) .valueError := by
  have e1 : SPatt.nrows (⟨.arr D⟩ : SPatt ℂ) = .ok (D.rows / 2 + 1) := rfl
  have e2 : SPatt.ncols (⟨.arr D⟩ : SPatt ℂ) = .ok D.cols := rfl
  have e3 : sphtArgs (SPatt.nrows (⟨.arr D⟩ : SPatt ℂ)) (SPatt.ncols (⟨.arr D⟩ : SPatt ℂ)) (some n) (some m) = .ok (n, m) := rfl
  unfold spht
  rw [e3, e1, e2]
  simp only [Except.bind_ok]
  have key : ∃ msg, sphtGuards (.ok (D.rows / 2 + 1)) (.ok D.cols) n m = .error ⟨.valueError, msg⟩ := by
    unfold sphtGuards
    by_cases a1 : m > n
    · rw [if_pos a1]; exact ⟨_, rfl⟩
    rw [if_neg a1]
    simp only [Except.bind_ok]
    by_cases a2 : n ≥ ((D.rows / 2 + 1 : ℕ) : ℤ) - 1
    · rw [if_pos a2]; exact ⟨_, rfl⟩
    rw [if_neg a2]
    by_cases a3 : 2 * m ≥ D.cols
    · rw [if_pos a3]; exact ⟨_, rfl⟩
    rw [if_neg a3, if_pos (by omega)]; exact ⟨_, rfl⟩
  obtain ⟨msg, hmsg⟩ := key
  rw [hmsg]
  exact ⟨msg, rfl⟩

/-- C35: the exact criterion, for `mmax ≥ 0`. -/
theorem c35_iff (b : Backend) (D : Arr2 ℂ) (hR : D.rows % 2 = 0) (hR0 : 0 < D.rows) (hsz : D.rows ≤ 2 ^ 29) (n m : ℤ) (h0 : 0 ≤ m) :
    Res.Raises (spht b ⟨.arr D⟩ (some n) (some m)) .valueError ↔
      m > n ∨ n > ((D.rows / 2 + 1 : ℕ) : ℤ) - 2 ∨ 2 * m ≥ D.cols ∨ D.cols % 2 = 1 := by
  refine ⟨fun ⟨msg, h⟩ => ?_, c35_rejects b D n m⟩
  by_contra hc
  obtain ⟨c, e, -⟩ := c35_accepts b D hR hR0 hsz n m h0 (by omega) (by omega) (by omega) (by omega)
  rw [e] at h
  cases h

/-- C35: what omitted arguments mean.  Omitting `nmax` gives `nmax = nrows - 2`, `mmax = ncols/2 - 1` even when `mmax`
is passed; omitting only `mmax` gives `mmax = nmax`. -/
theorem c35_defaults (b : Backend) (D : Arr2 ℂ) (n : ℤ) (mm : Option ℤ) :
    spht b ⟨.arr D⟩ none mm = spht b ⟨.arr D⟩ (some (((D.rows / 2 + 1 : ℕ) : ℤ) - 2)) (some (((D.cols / 2 : ℕ) : ℤ) - 1)) ∧
    spht b ⟨.arr D⟩ (some n) none = spht b ⟨.arr D⟩ (some n) (some n) := ⟨rfl, rfl⟩

/-- C35, violated: the documentation promises `nmax = nrows - 1` and `mmax = ncols/2 - 1` for omitted arguments.  `spht(p)`
never uses that `nmax`, and it raises ValueError for any pattern with `ncols/2 > nrows - 1`. -/
theorem c35_documented_defaults_counterexample (b : Backend) (D : Arr2 ℂ) :
    (∀ c, spht b ⟨.arr D⟩ none none = .ok c → c.nmax ≠ ((D.rows / 2 + 1 : ℕ) : ℤ) - 1) ∧
    (D.rows / 2 < D.cols / 2 → Res.Raises (spht b ⟨.arr D⟩ none none) .valueError) := by
  constructor
  · intro c h
    rw [(c35_defaults b D 0 none).1] at h
    have : c.nmax = ((D.rows / 2 + 1 : ℕ) : ℤ) - 2 := by
      unfold spht at h
      simp only [sphtArgs, Except.bind_ok] at h
      obtain ⟨_, -, h⟩ := (res_bind_ok _ _ _).mp h
      obtain ⟨_, -, h⟩ := (res_bind_ok _ _ _).mp h
      obtain ⟨_, -, h⟩ := (res_bind_ok _ _ _).mp h
      obtain ⟨_, -, h⟩ := (res_bind_ok _ _ _).mp h
      obtain ⟨_, -, h⟩ := (res_bind_ok _ _ _).mp h
      obtain ⟨_, -, h⟩ := (res_bind_ok _ _ _).mp h
      exact (init_nmax h).1
    omega
  · intro h
    rw [(c35_defaults b D 0 none).1]
    exact c35_rejects b D _ _ (.inl (by omega))


/-- C35, limits of the statement: a negative `mmax` is not covered by the documented conditions, yet it raises. -/
theorem c35_negative_counterexample (b : Backend) (D : Arr2 ℂ) (hR : D.rows % 2 = 0) (hR0 : 0 < D.rows) (h4 : D.cols % 2 = 0) (h5 : 0 < D.cols) :
    Res.Raises (spht b ⟨.arr D⟩ (some 0) (some (-1))) .valueError := by
  obtain ⟨E, eE, hEr, hEc, hEv⟩ := extFourier_spec D hR hR0 h5
  obtain ⟨G, eG, -⟩ := sinFc_spec E (D.rows / 2) (by omega) (by omega) (fhat D) hEv (fhat_outer D) (by omega)
  unfold spht
  have e1 : SPatt.nrows (⟨.arr D⟩ : SPatt ℂ) = .ok (D.rows / 2 + 1) := rfl
  have e2 : SPatt.ncols (⟨.arr D⟩ : SPatt ℂ) = .ok D.cols := rfl
  have e4 : SPatt.dsphere (⟨.arr D⟩ : SPatt ℂ) = .ok D := rfl
  have e3 : sphtArgs (SPatt.nrows (⟨.arr D⟩ : SPatt ℂ)) (SPatt.ncols (⟨.arr D⟩ : SPatt ℂ)) (some 0) (some (-1)) = .ok (0, -1) := rfl
  rw [e3, e1, e2, e4]
  simp only [Except.bind_ok]
  rw [sphtGuards_ok _ _ _ _ (by omega) (by omega) (by omega) h4]
  simp only [Except.bind_ok]
  rw [eE]
  simp only [Except.bind_ok]
  rw [eG]
  exact ⟨"negative dimensions", rfl⟩

/-- A 4x4 double sphere (from `nrows = 3`, `ncols = 4`). -/
noncomputable def dsample : Arr2 ℂ := Arr2.ofFn 4 4 fun i j => if i = 1 then (j : ℂ) + 1 else if i = 3 then (((j + 2) % 4 : ℕ) : ℂ) + 1 else 5

example : dsample.rows % 2 = 0 ∧ 0 < dsample.rows ∧ dsample.rows ≤ 2 ^ 29 ∧ (0 : ℤ) ≤ 1 ∧ (1 : ℤ) ≤ 1 ∧
    (1 : ℤ) ≤ ((dsample.rows / 2 + 1 : ℕ) : ℤ) - 2 ∧ (2 : ℤ) * 1 < dsample.cols ∧ dsample.cols % 2 = 0 := by
  simp [dsample]

theorem dsample_sym : DSym 1 dsample := by
  intro i j hi hj
  have hi' : i < 4 := hi
  have hj' : j < 4 := hj
  rw [show dsample.rows = 4 from rfl, show dsample.cols = 4 from rfl]
  unfold dsample
  rw [Arr2.at'_ofFn hi' hj', Arr2.at'_ofFn (Nat.mod_lt _ (by omega)) (Nat.mod_lt _ (by omega))]
  interval_cases i <;> interval_cases j <;> norm_num

/-! ## C38 -/

/-- C38: the value of a mode does not depend on the limits requested (nor on the backend). -/
theorem c38_truncation (b b' : Backend) (D : Arr2 ℂ) (hR : D.rows % 2 = 0) (hR0 : 0 < D.rows) (hsz : D.rows ≤ 2 ^ 29)
    (n m n' m' : ℤ) (c c' : ScalarCoefs ℂ) (hm : 0 ≤ m) (hm' : 0 ≤ m')
    (h : spht b ⟨.arr D⟩ (some n) (some m) = .ok c) (h' : spht b' ⟨.arr D⟩ (some n') (some m') = .ok c')
    (k l : ℤ) (h1 : IsMode n m k l) (h2 : IsMode n' m' k l) : readMap c k l = readMap c' k l := by
  have key : ∀ (b : Backend) (n m : ℤ) (c : ScalarCoefs ℂ), 0 ≤ m → spht b ⟨.arr D⟩ (some n) (some m) = .ok c → IsMode n m k l →
      readMap c k l = some (bF (D.rows / 2 + 1) (sing D l) l k.toNat) := by
    intro b n m c hm h hk
    have hnr : ¬ (m > n ∨ n > ((D.rows / 2 + 1 : ℕ) : ℤ) - 2 ∨ 2 * m ≥ D.cols ∨ D.cols % 2 = 1) := fun hc => by
      obtain ⟨msg, e⟩ := c35_rejects b D n m hc
      rw [h] at e; cases e
    obtain ⟨n', rfl⟩ := Int.eq_ofNat_of_zero_le (show 0 ≤ n by omega)
    obtain ⟨m', rfl⟩ := Int.eq_ofNat_of_zero_le hm
    obtain ⟨d, e, -, -, hw, hv⟩ := spht_main b D hR hR0 (by omega) (some (n' : ℤ)) (some (m' : ℤ)) n' m' rfl (by omega) (by omega) (by omega)
      (by unfold Backend.SizeOK; cases b <;> simp only
          norm_num at hsz ⊢; omega)
    rw [h] at e
    cases e
    rw [readMap_eq hw, hv k l hk]
  rw [key b n m c hm h h1, key b' n' m' c' hm' h' h2]

/-! ## C37 -/

theorem sphY_antipode (n : ℕ) (m : ℤ) (θ φ : ℝ) : sphY n m (-θ) (φ + Real.pi) = sphY n m θ φ := by
  unfold sphY thetaPart
  rw [show (m : ℂ) * (((φ + Real.pi : ℝ) : ℂ) * Complex.I) = m * (φ * Complex.I) + m * (Real.pi * Complex.I) by push_cast; ring,
    Complex.exp_add, exp_pi_int, Real.sin_neg, Real.cos_neg, ← neg_one_zpow_natAbs, neg_pow (Real.sin θ)]
  have : ((-1 : ℂ)) ^ m.natAbs * (-1) ^ m.natAbs = 1 := by rw [← mul_pow]; simp
  generalize (if 0 ≤ m then (-1 : ℝ) ^ m.natAbs else 1) * normSH n m.natAbs = K
  generalize (Polynomial.derivative^[m.natAbs] (legendre n)).eval (Real.cos θ) = P
  push_cast
  linear_combination ((K : ℂ) * (Complex.sin θ ^ m.natAbs * (P : ℂ)) * Complex.exp (m * (φ * Complex.I))) * this

theorem sphY_periodic (n : ℕ) (m : ℤ) (θ φ : ℝ) (j k : ℤ) : sphY n m (θ + j * (2 * Real.pi)) (φ + k * (2 * Real.pi)) = sphY n m θ φ := by
  unfold sphY thetaPart
  rw [Real.sin_add_int_mul_two_pi, Real.cos_add_int_mul_two_pi]
  congr 1
  rw [show (m : ℂ) * (((φ + k * (2 * Real.pi) : ℝ) : ℂ) * Complex.I) = m * (φ * Complex.I) + ((m * k : ℤ) : ℂ) * (2 * Real.pi * Complex.I) by push_cast; ring,
    Complex.exp_add, Complex.exp_int_mul_two_pi_mul_I, mul_one]

theorem grid_refl_row (R i : ℕ) (hi : i < R) :
    ∃ a : ℤ, 2 * Real.pi * (((R - i) % R : ℕ) : ℝ) / R = -(2 * Real.pi * i / R) + a * (2 * Real.pi) := by
  have hR : (R : ℝ) ≠ 0 := by have : R ≠ 0 := by omega
                              exact_mod_cast this
  by_cases hi0 : i = 0
  · subst hi0; exact ⟨0, by simp⟩
  · refine ⟨1, ?_⟩
    rw [Nat.mod_eq_of_lt (by omega), Nat.cast_sub (by omega)]
    push_cast; field_simp; ring

theorem grid_refl_col (C j : ℕ) (he : C % 2 = 0) (hj : j < C) :
    ∃ a : ℤ, 2 * Real.pi * (((j + C / 2) % C : ℕ) : ℝ) / C = (2 * Real.pi * j / C + Real.pi) + a * (2 * Real.pi) := by
  have hC : (C : ℝ) ≠ 0 := by have : C ≠ 0 := by omega
                              exact_mod_cast this
  have he : (C : ℝ) = 2 * ((C / 2 : ℕ) : ℝ) := by
    have : C = 2 * (C / 2) := by omega
    exact_mod_cast this
  by_cases hj0 : j + C / 2 < C
  · refine ⟨0, ?_⟩
    rw [Nat.mod_eq_of_lt hj0]
    push_cast [-Nat.cast_div_charZero]
    field_simp
    rw [he]; ring
  · refine ⟨-1, ?_⟩
    rw [Nat.mod_eq_sub_mod (by omega), Nat.mod_eq_of_lt (by omega), Nat.cast_sub (by omega)]
    push_cast [-Nat.cast_div_charZero]
    field_simp
    rw [he]; ring

/-- C37 (scalar): the double sphere of a synthesised pattern is symmetric, so `single_val` is 0. -/
theorem c37_ispht (b : Backend) (c : ScalarCoefs ℂ) (hc : c.WellFormed) (nr nc : ℤ)
    (h1 : c.nmax + 2 ≤ nr) (h2 : 2 * c.mmax + 2 ≤ nc) (h3 : nc % 2 = 0) :
    ∃ p D, ispht b c (some nr) (some nc) = .ok p ∧ p.dsphere = .ok D ∧ D.rows = 2 * nr - 2 ∧ D.cols = nc ∧ DSym 1 D ∧
      p.singleVal = .ok 0 := by
  have hw := hc.wf
  have h0 : 0 ≤ c.nmax := le_trans hw.m0 hw.mn
  have hm0 := hw.m0
  obtain ⟨r, rfl⟩ := Int.eq_ofNat_of_zero_le (show 0 ≤ nr by omega)
  obtain ⟨k, rfl⟩ := Int.eq_ofNat_of_zero_le (show 0 ≤ nc by omega)
  obtain ⟨D, e, hr, hk, hval, -⟩ := ispht_main b c hw (some (r : ℤ)) (some (k : ℤ)) r k rfl rfl h1 h2 (by omega)
  have hsym : DSym 1 D := by
    intro i j hi hj
    rw [hval i j hi hj, hval _ _ (Nat.mod_lt _ (by omega)) (Nat.mod_lt _ (by omega)), one_mul]
    refine sum_congr rfl fun p _ => ?_
    congr 1
    rw [← sphY_antipode p.1.toNat p.2 (2 * Real.pi * i / D.rows)]
    obtain ⟨a, ha⟩ := grid_refl_row D.rows i hi
    obtain ⟨a', ha'⟩ := grid_refl_col D.cols j (by omega) hj
    rw [ha, ha', sphY_periodic]
  exact ⟨_, D, e, rfl, by omega, by omega, hsym, (c22_scalar D).1.mpr hsym⟩

end Verif.Props
