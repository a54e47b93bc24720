import Verif.Props.FloatVec7
import Verif.Props.FloatRound
import Verif.Props.Stability2
/-!
# Property C98: the vector round trip in doubles
-/
namespace Verif.Props
open Verif Finset

variable {rnd : ℝ → ℝ}

namespace FV

/-- A bound on one analysis coefficient of a sequence bounded in square sum. -/
theorem bF_seq (R : ℕ) (s : ℤ → ℂ) {B : ℝ} (hB : 0 ≤ B) (h : ∑ ν ∈ Ioo (-(R : ℤ)) R, ‖s ν‖ ^ 2 ≤ B ^ 2) (m : ℤ) (n : ℕ) (hm : m.natAbs ≤ n) :
    ‖bF R s m n‖ ≤ (2 * (n : ℝ) + 1) * FS.rowMax n * (20 * B) := by
  have hR1 := FS.rowMax_ge n
  have hk : ∀ k : ℤ, ‖4 * (Real.pi : ℂ) * ∑ ν ∈ Ioo (-(R : ℤ)) R, s ν * Skern (k - ν)‖ ≤ 20 * B := fun k => FA.kern_l2 _ s k hB h
  unfold bF
  rw [norm_mul, norm_zpow, Complex.norm_I, one_zpow, one_mul]
  have y := fun j => ycoef_le n m hm j
  have a0 := mul_le_mul (hk 0) (y 0) (norm_nonneg _) (by positivity)
  rw [← norm_mul] at a0
  have a1 : ‖∑ k ∈ range n, (4 * (Real.pi : ℂ) * ∑ ν ∈ Ioo (-(R : ℤ)) R, s ν * Skern (((k + 1 : ℕ) : ℤ) - ν)) * ycoef n m (k + 1 : ℕ)‖ ≤ n * (20 * B * FS.rowMax n) := by
    refine (norm_sum_le_of_le _ (n := fun _ => 20 * B * FS.rowMax n) fun i hi => ?_).trans (le_of_eq ?_)
    · rw [norm_mul]
      exact mul_le_mul (hk _) (y _) (norm_nonneg _) (by positivity)
    · rw [sum_const, card_range, nsmul_eq_mul]
  refine (norm_add_le _ _).trans ?_
  have e2 : ∀ z : ℂ, ‖2 * z‖ = 2 * ‖z‖ := fun z => by rw [norm_mul, Complex.norm_ofNat]
  rw [e2]
  unfold FS.rowMax at *
  nlinarith [a0, a1]

/-- Both analysis coefficients of small samples are small (no symmetry needed). -/
theorem vbF_bound (T P : Arr2 ℂ) (hr : P.rows = T.rows) (hc : P.cols = T.cols) (hR : T.rows % 2 = 0) (hR0 : 0 < T.rows) (hK : 0 < T.cols) {ε : ℝ}
    (h : ∀ i j, i < T.rows → j < T.cols → ‖T.at' i j‖ ≤ ε ∧ ‖P.at' i j‖ ≤ ε) (m : ℤ) (n : ℕ) (hm : m.natAbs ≤ n) :
    ‖bF (T.rows / 2 + 1) (sldot m (fhat T m) (fhat P m)) m n‖ ≤ (2 * (n : ℝ) + 1) * FS.rowMax n * (20 * ((m.natAbs + (T.rows / 2 + 1 : ℕ) : ℝ) * ε)) ∧
    ‖bF (T.rows / 2 + 1) (sldot m (fun ν => -Complex.I * fhat P m ν) (fun ν => Complex.I * fhat T m ν)) m n‖ ≤
      (2 * (n : ℝ) + 1) * FS.rowMax n * (20 * ((m.natAbs + (T.rows / 2 + 1 : ℕ) : ℝ) * ε)) := by
  have hε : 0 ≤ ε := (norm_nonneg _).trans (h 0 0 hR0 hK).1
  have lT : ∀ s : Finset ℤ, ∑ ν ∈ s, ‖fhat T m ν‖ ^ 2 ≤ ε ^ 2 := fun s => FA.fhat_l2 T hR0 hR hK (fun i j hi hj => (h i j hi hj).1) m s
  have lP : ∀ s : Finset ℤ, ∑ ν ∈ s, ‖fhat P m ν‖ ^ 2 ≤ ε ^ 2 := fun s =>
    FA.fhat_l2 P (by omega) (by omega) (by omega) (fun i j hi hj => (h i j (by omega) (by omega)).2) m s
  have hW : (0 : ℝ) ≤ (m.natAbs + (T.rows / 2 + 1 : ℕ) : ℝ) * ε := by positivity
  refine ⟨bF_seq _ _ hW (sldot_l2 _ _ m _ lT lP _ fun ν hν => ?_) m n hm, bF_seq _ _ hW (sldot_l2 _ _ m _ (fun s => ?_) (fun s => ?_) _ fun ν hν => ?_) m n hm⟩
  · rw [mem_Ioo] at hν
    rw [abs_le]; omega
  · simp only [norm_mul, norm_neg, Complex.norm_I, one_mul]; exact lP s
  · simp only [norm_mul, Complex.norm_I, one_mul]; exact lT s
  · rw [mem_Ioo] at hν
    rw [abs_le]; omega

theorem norm_wdeg {n : ℕ} (h : n ≠ 0) : ‖wdeg n‖ = 1 / Real.sqrt ((n : ℝ) * ((n : ℝ) + 1)) := by
  unfold wdeg
  rw [if_neg h, Complex.norm_real, Real.norm_eq_abs, abs_of_nonneg (by positivity)]

end FV

/-- C77 without symmetry: whatever the samples, both coefficients of mode `(k, l)` move by at most
`20 (2k+1) √((2k+1)/4π) (|l| + nrows) / √(k(k+1))` times the largest change of a sample. -/
theorem c77_any (b b' : Backend) (T P T' P' : Arr2 ℂ) (hr : P.rows = T.rows) (hc : P.cols = T.cols) (hr' : T'.rows = T.rows) (hc' : T'.cols = T.cols)
    (hr'' : P'.rows = T.rows) (hc'' : P'.cols = T.cols) (hR : T.rows % 2 = 0) (hR0 : 0 < T.rows) (hsz : T.rows ≤ 2 ^ 29) (n m : ℤ) (h0 : 0 ≤ m) (c : VectorCoefs ℂ)
    (h : vspht b ⟨T, P⟩ (some n) (some m) = .ok c) (ε : ℝ)
    (hε : ∀ i j, i < T.rows → j < T.cols → ‖T.at' i j - T'.at' i j‖ ≤ ε ∧ ‖P.at' i j - P'.at' i j‖ ≤ ε) :
    ∃ d, vspht b' ⟨T', P'⟩ (some n) (some m) = .ok d ∧ ∃ x y x' y' : ℤ → ℤ → ℂ, HasCoefsV c x y ∧ HasCoefsV d x' y' ∧
      ∀ k l, IsMode n m k l → k ≠ 0 →
        ‖x k l - x' k l‖ ≤ 1 / Real.sqrt ((k : ℝ) * ((k : ℝ) + 1)) * ((2 * k + 1) * Real.sqrt ((2 * k + 1) / (4 * Real.pi)) * (20 * ((|l| + (T.rows / 2 + 1 : ℕ) : ℝ) * ε))) ∧
        ‖y k l - y' k l‖ ≤ 1 / Real.sqrt ((k : ℝ) * ((k : ℝ) + 1)) * ((2 * k + 1) * Real.sqrt ((2 * k + 1) / (4 * Real.pi)) * (20 * ((|l| + (T.rows / 2 + 1 : ℕ) : ℝ) * ε))) := by
  have hnr := vspht_ok_args h
  obtain ⟨c', e, c1, c2, -, cv⟩ := vspht_value b T P hr hc hR hR0 hsz n m h0 hnr
  rw [h] at e; cases e
  obtain ⟨d, e, d1, d2, -, dv⟩ := vspht_value b' T' P' (by omega) (by omega) (by omega) (by omega) (by omega) n m h0 (by rw [hr', hc']; exact hnr)
  have sub1 : ∀ (k : ℕ) (l : ℤ), bF ((linArr 1 (-1) T T').rows / 2 + 1) (sldot l (fhat (linArr 1 (-1) T T') l) (fhat (linArr 1 (-1) P P') l)) l k =
      bF (T.rows / 2 + 1) (sldot l (fhat T l) (fhat P l)) l k - bF (T'.rows / 2 + 1) (sldot l (fhat T' l) (fhat P' l)) l k := by
    intro k l
    rw [show (linArr 1 (-1) T T').rows = T.rows from rfl, hr']
    have : sldot l (fhat (linArr 1 (-1) T T') l) (fhat (linArr 1 (-1) P P') l) =
        fun ν => (1 : ℂ) * sldot l (fhat T l) (fhat P l) ν + (-1) * sldot l (fhat T' l) (fhat P' l) ν := by
      funext ν
      unfold sldot
      simp only [fhat_lin 1 (-1) T T' hr' hc', fhat_lin 1 (-1) P P' (by omega : P'.rows = P.rows) (by omega : P'.cols = P.cols)]
      ring
    rw [this, bF_lin]; ring
  have sub2 : ∀ (k : ℕ) (l : ℤ), bF ((linArr 1 (-1) T T').rows / 2 + 1) (sldot l (fun ν => -Complex.I * fhat (linArr 1 (-1) P P') l ν) (fun ν => Complex.I * fhat (linArr 1 (-1) T T') l ν)) l k =
      bF (T.rows / 2 + 1) (sldot l (fun ν => -Complex.I * fhat P l ν) (fun ν => Complex.I * fhat T l ν)) l k -
      bF (T'.rows / 2 + 1) (sldot l (fun ν => -Complex.I * fhat P' l ν) (fun ν => Complex.I * fhat T' l ν)) l k := by
    intro k l
    rw [show (linArr 1 (-1) T T').rows = T.rows from rfl, hr']
    have : sldot l (fun ν => -Complex.I * fhat (linArr 1 (-1) P P') l ν) (fun ν => Complex.I * fhat (linArr 1 (-1) T T') l ν) =
        fun ν => (1 : ℂ) * sldot l (fun ν => -Complex.I * fhat P l ν) (fun ν => Complex.I * fhat T l ν) ν +
          (-1) * sldot l (fun ν => -Complex.I * fhat P' l ν) (fun ν => Complex.I * fhat T' l ν) ν := by
      funext ν
      unfold sldot
      simp only [fhat_lin 1 (-1) T T' hr' hc', fhat_lin 1 (-1) P P' (by omega : P'.rows = P.rows) (by omega : P'.cols = P.cols)]
      ring
    rw [this, bF_lin]; ring
  refine ⟨d, e, fun k l => _, fun k l => _, fun k l => _, fun k l => _, fun k l hk hk0 => cv k l (by rw [← c1, ← c2]; exact hk) hk0,
    fun k l hk hk0 => dv k l (by rw [← d1, ← d2]; exact hk) hk0, fun k l hk hk0 => ?_⟩
  obtain ⟨g0, g1, g2, g3⟩ := hk
  have gl : |(l : ℝ)| = (l.natAbs : ℝ) := by rw [Nat.cast_natAbs]; simp
  rw [Int.abs_eq_natAbs] at g2 g3
  obtain ⟨k, rfl⟩ := Int.eq_ofNat_of_zero_le g0
  have hk0' : k ≠ 0 := by omega
  have key := FV.vbF_bound (linArr 1 (-1) T T') (linArr 1 (-1) P P') hr hc hR hR0 (show 0 < T.cols by omega) (ε := ε) (fun i j hi hj => by
    change i < T.rows at hi
    change j < T.cols at hj
    rw [linArr_sub_at T T' hr' hc' i j hi hj, linArr_sub_at P P' (by omega) (by omega) i j (by omega) (by omega)]
    exact hε i j hi hj) l k (by omega)
  rw [sub1, sub2, show (linArr 1 (-1) T T').rows = T.rows from rfl, ← gl] at key
  beta_reduce
  simp only [Int.toNat_natCast, ← mul_sub, norm_mul, FV.norm_wdeg hk0', Int.cast_natCast, Int.cast_abs]
  unfold FS.rowMax at key
  exact ⟨mul_le_mul_of_nonneg_left key.1 (by positivity), mul_le_mul_of_nonneg_left key.2 (by positivity)⟩

namespace FV

/-- The exact values of the coefficients are the coefficients of the exact set. -/
theorem exactSetV_has {c : VectorCoefs (FC rnd)} (hc : c.WellFormed) {v w : ℤ → ℤ → FC rnd}
    (hvw : ∀ n m, IsMode c.nmax c.mmax n m → n ≠ 0 → readMapV c n m = some (v n m, w n m)) :
    HasCoefsV (exactSetV c) (fun n m => FS.val (v n m)) (fun n m => FS.val (w n m)) := by
  intro n m hmo n0
  have hmo' : IsMode c.nmax c.mmax n m := hmo
  obtain ⟨a1, a2⟩ := absMapV hc n0 (hvw n m hmo' n0)
  rw [readMapV_eq (exactSetV_wf hc), if_neg n0]
  have m1 : IsMode c.scoef1.nmax c.scoef1.mmax n m := by rw [hc.n1, hc.m1]; exact hmo'
  have m2 : IsMode c.scoef2.nmax c.scoef2.mmax n m := by rw [hc.n2, hc.m2]; exact hmo'
  have b1 : (FS.exactSet c.scoef1).absMap n m = some (FS.val (v n m)) := by
    rw [ScalarCoefs.absMap_mode hc.wf1.wf m1] at a1
    rw [ScalarCoefs.absMap_mode (FS.exactSet_wf hc.wf1).wf m1, ← Option.some.inj a1]
    simp [FS.exactSet]
  have b2 : (FS.exactSet c.scoef2).absMap n m = some (FS.val (w n m)) := by
    rw [ScalarCoefs.absMap_mode hc.wf2.wf m2] at a2
    rw [ScalarCoefs.absMap_mode (FS.exactSet_wf hc.wf2).wf m2, ← Option.some.inj a2]
    simp [FS.exactSet]
  have b1' : (exactSetV c).scoef1.absMap n m = some (FS.val (v n m)) := b1
  have b2' : (exactSetV c).scoef2.absMap n m = some (FS.val (w n m)) := b2
  rw [b1', b2']; rfl

/-- The samples of a field with coefficients of real and imaginary part at most `C`, on the whole doubled grid. -/
theorem vfield_le (c : VectorCoefs ℂ) (hc : c.WellFormed) (N M : ℕ) (hn : c.nmax = N) (hm : c.mmax = M) (v w : ℤ → ℤ → ℂ) (hv : HasCoefsV c v w) {C : ℝ} (hC : 0 ≤ C)
    (hvC : ∀ n m, IsMode c.nmax c.mmax n m → n ≠ 0 → |(v n m).re| ≤ C ∧ |(v n m).im| ≤ C) (hwC : ∀ n m, IsMode c.nmax c.mmax n m → n ≠ 0 → |(w n m).re| ≤ C ∧ |(w n m).im| ≤ C)
    (nr nc : ℤ) (h1 : c.nmax + 2 ≤ nr) (h2 : 2 * c.mmax + 2 ≤ nc) (h3 : nc % 2 = 0) :
    ∃ D, vispht .py c (some nr) (some nc) = .ok D ∧ (D.td.rows : ℤ) = 2 * nr - 2 ∧ (D.td.cols : ℤ) = nc ∧ (D.pd.rows : ℤ) = 2 * nr - 2 ∧ (D.pd.cols : ℤ) = nc ∧
      ∀ i j, i < D.td.rows → j < D.td.cols → ‖D.td.at' i j‖ ≤ 0.8 * (((N : ℝ) + 1) ^ 2 * C) ∧ ‖D.pd.at' i j‖ ≤ 0.8 * (((N : ℝ) + 1) ^ 2 * C) := by
  obtain ⟨D, e, t1, t2, p1, p2, s1, s2, -⟩ := c37_vispht .py c hc nr nc h1 h2 h3
  obtain ⟨D', e', u1, u2, u3, u4, hb⟩ := c78_bounded .py c hc v w hv nr nc h1 h2 h3
  rw [e] at e'
  cases e'
  have hmn : M ≤ N := by have := hc.wf1.wf.mn; have := hc.n1; have := hc.m1; omega
  have hm0 : 0 ≤ c.mmax := by omega
  have hpi := Real.pi_gt_three
  have sq : ∀ z : ℂ, |z.re| ≤ C ∧ |z.im| ≤ C → ‖z‖ ^ 2 ≤ 2 * C ^ 2 := by
    rintro z ⟨a, b⟩
    rw [← Complex.normSq_eq_norm_sq, Complex.normSq_apply, ← sq, ← sq, ← sq_abs z.re, ← sq_abs z.im]
    have := pow_le_pow_left₀ (abs_nonneg _) a 2
    have := pow_le_pow_left₀ (abs_nonneg _) b 2
    linarith
  have hcard : (((modes (N : ℤ) M).filter fun p => p.1 ≠ 0).card : ℝ) ≤ 2 * ((N : ℝ) + 1) ^ 2 := by
    have : (modes (N : ℤ) M).card ≤ (N + 1) * (2 * M + 1) := by
      unfold modes
      refine (card_filter_le _ _).trans ?_
      rw [card_product, Int.card_Icc, Int.card_Icc]
      exact le_of_eq (by congr 1 <;> omega)
    have h2 : (N + 1) * (2 * M + 1) ≤ 2 * (N + 1) ^ 2 := by nlinarith
    exact_mod_cast (card_filter_le _ _).trans (this.trans h2)
  have hsum : ∑ p ∈ modes c.nmax c.mmax with p.1 ≠ 0, (‖v p.1 p.2‖ ^ 2 + ‖w p.1 p.2‖ ^ 2) ≤ 2 * ((N : ℝ) + 1) ^ 2 * (4 * C ^ 2) := by
    rw [hn, hm]
    refine (sum_le_card_nsmul _ _ (4 * C ^ 2) fun p hp => ?_).trans ?_
    · rw [mem_filter] at hp
      have hp' : IsMode c.nmax c.mmax p.1 p.2 := by rw [hn, hm]; exact mem_modes.mp hp.1
      have := sq _ (hvC p.1 p.2 hp' hp.2)
      have := sq _ (hwC p.1 p.2 hp' hp.2)
      linarith
    · rw [nsmul_eq_mul]
      exact mul_le_mul_of_nonneg_right hcard (by positivity)
  have upper : ∀ i j : ℕ, (i : ℤ) < nr → j < D.td.cols → ‖D.td.at' i j‖ ≤ 0.8 * (((N : ℝ) + 1) ^ 2 * C) ∧ ‖D.pd.at' i j‖ ≤ 0.8 * (((N : ℝ) + 1) ^ 2 * C) := by
    intro i j hi hj
    have := hb i j (by omega) (by omega)
    have eθ : D.theta.at' i j = D.td.at' i j := by
      have iD : i < min D.nrows D.td.rows := by unfold TPatt.nrows; omega
      unfold TPatt.theta Arr2.takeRows
      rw [Arr2.at'_ofFn iD hj]
    have eφ : D.phi.at' i j = D.pd.at' i j := by
      have iD : i < min D.nrows D.pd.rows := by unfold TPatt.nrows; omega
      unfold TPatt.phi Arr2.takeRows
      rw [Arr2.at'_ofFn iD (by omega)]
    rw [eθ, eφ] at this
    have b1 : (c.nmax : ℝ) * (c.nmax + 2) / (4 * Real.pi) * ∑ p ∈ modes c.nmax c.mmax with p.1 ≠ 0, (‖v p.1 p.2‖ ^ 2 + ‖w p.1 p.2‖ ^ 2) ≤ (0.8 * (((N : ℝ) + 1) ^ 2 * C)) ^ 2 := by
      rw [show ((c.nmax : ℤ) : ℝ) = (N : ℝ) by rw [hn]; simp]
      calc _ ≤ ((N : ℝ) + 1) ^ 2 / (4 * Real.pi) * (2 * ((N : ℝ) + 1) ^ 2 * (4 * C ^ 2)) := by
            refine mul_le_mul (div_le_div_of_nonneg_right (by nlinarith) (by positivity)) hsum (sum_nonneg fun _ _ => by positivity) (by positivity)
        _ ≤ _ := by
            have hpi2 := Real.pi_gt_d2
            rw [div_mul_eq_mul_div, div_le_iff₀ (by positivity)]
            have X0 : 0 ≤ ((N : ℝ) + 1) ^ 4 * C ^ 2 := by positivity
            nlinarith
    have n1 := sq_nonneg ‖D.td.at' i j‖
    have n2 := sq_nonneg ‖D.pd.at' i j‖
    exact ⟨(abs_le_of_sq_le_sq' (by linarith) (by positivity)).2, (abs_le_of_sq_le_sq' (by linarith) (by positivity)).2⟩
  refine ⟨D, e, t1, t2, p1, p2, fun i j hi hj => ?_⟩
  by_cases h : (i : ℤ) < nr
  · exact upper i j h hj
  · have c0 : 0 < D.td.cols := by omega
    have r1 : (D.td.rows - i) % D.td.rows = D.td.rows - i := Nat.mod_eq_of_lt (by omega)
    have r2 : (D.pd.rows - i) % D.pd.rows = D.td.rows - i := by rw [Nat.mod_eq_of_lt (by omega)]; omega
    rw [s1 i j hi hj, s2 i j (by omega) (by omega), r1, r2, norm_mul, norm_mul, norm_neg, norm_one, one_mul, one_mul, show D.pd.cols = D.td.cols by omega]
    exact upper _ _ (by omega) (Nat.mod_lt _ c0)

end FV

/-- What the vector round trip in doubles can lose in degree `n`: the error `ε` of the synthesised samples carried through the analysis, plus the error of
the analysis (C97) on samples of modulus at most `(N+1)² C`. -/
noncomputable def vroundErr (N M : ℕ) (nr : ℤ) (C δ₁ δ₂ ε : ℝ) (n : ℤ) : ℝ :=
  vsphtErr (2 * nr - 2).toNat M ((N + 1) ^ 2 * C) δ₁ δ₂ n +
    1 / Real.sqrt ((n : ℝ) * ((n : ℝ) + 1)) * ((2 * n + 1) * Real.sqrt ((2 * n + 1) / (4 * Real.pi)) * (20 * ((M + nr) * ε)))

namespace FV

/-- What `vispht` in doubles hands to `vspht`. -/
theorem vispht_samples (hrd : NoOverflow rnd) {jp : Int → FC rnd} (b : Backend) (c : VectorCoefs (FC rnd)) (hc : c.WellFormed)
    (N M : ℕ) (hn : c.nmax = N) (hm : c.mmax = M) (hj : PowOK b M jp) (hN : N ≤ 1000) (v w : ℤ → ℤ → FC rnd)
    (hvw : ∀ n m, IsMode c.nmax c.mmax n m → n ≠ 0 → readMapV c n m = some (v n m, w n m)) (C : ℝ) (hC : 2 ^ (-900 : ℤ) ≤ C) (hC' : C ≤ 2 ^ (300 : ℤ))
    (hvC : ∀ n m, IsMode c.nmax c.mmax n m → n ≠ 0 → |(v n m).re| ≤ C ∧ |(v n m).im| ≤ C) (hwC : ∀ n m, IsMode c.nmax c.mmax n m → n ≠ 0 → |(w n m).re| ≤ C ∧ |(w n m).im| ≤ C)
    (nr nc : ℤ) (h1 : c.nmax + 2 ≤ nr) (h2 : 2 * c.mmax + 2 ≤ nc) (h3 : nc % 2 = 0) (inv : Arr2 (FC rnd) → Int → Int → Res (Arr2 (FC rnd))) (δ₀ ε : ℝ)
    (hε : ε = δ₀ + (2 * nr - 1) * (2 * M + 1) * fieldErr N M C) (hε' : ε ≤ (N + 1) ^ 2 * C / 5)
    (hinv : ∀ f : Arr2 (FC rnd), (f.rows : ℤ) = 2 * nr - 2 → (f.cols : ℤ) = nc → (∀ i j, i < f.rows → j < f.cols → FS.Fix (f.at' i j) ∧ ‖FS.val (f.at' i j)‖ ≤ fieldMax N M C) →
      FftWithin inv δ₀ f (2 * nr - 2) nc) :
    ∃ g D, Fl.vispht rnd jp (Fl.visphtPost rnd inv) b c (some nr) (some nc) = .ok g ∧ vispht .py (exactSetV c) (some nr) (some nc) = .ok D ∧
      (g.td.rows : ℤ) = 2 * nr - 2 ∧ (g.td.cols : ℤ) = nc ∧ g.pd.rows = g.td.rows ∧ g.pd.cols = g.td.cols ∧
      D.td.rows = g.td.rows ∧ D.td.cols = g.td.cols ∧ D.pd.rows = g.td.rows ∧ D.pd.cols = g.td.cols ∧
      (∀ i j : ℕ, i < g.td.rows → j < g.td.cols → ‖FS.val (g.td.at' i j) - D.td.at' i j‖ ≤ ε ∧ ‖FS.val (g.pd.at' i j) - D.pd.at' i j‖ ≤ ε) ∧
      ∀ i j : ℕ, i < g.td.rows → j < g.td.cols → ‖FS.val (g.td.at' i j)‖ ≤ (N + 1) ^ 2 * C ∧ ‖FS.val (g.pd.at' i j)‖ ≤ (N + 1) ^ 2 * C := by
  have C0 : 0 ≤ C := le_trans (by positivity) hC
  obtain ⟨g, D, e1, e2, g1, g2, g3, g4, D1, D2, D3, D4, hg⟩ := vispht_full hrd b c hc N M hn hm hj hN v w hvw C hC
    (hC'.trans (zpow_le_zpow_right₀ (by norm_num) (by norm_num))) hvC hwC nr nc h1 h2 h3 inv δ₀ hinv
  rw [← hε] at hg
  obtain ⟨D', e3, -, -, -, -, hD⟩ := vfield_le (exactSetV c) (exactSetV_wf hc) N M hn hm _ _ (exactSetV_has hc hvw) C0 hvC hwC nr nc h1 h2 h3
  rw [e2] at e3
  cases e3
  refine ⟨g, D, e1, e2, g1, g2, g3, g4, D1, D2, D3, D4, hg, fun i j hi hj' => ?_⟩
  obtain ⟨a1, a2⟩ := hg i j hi hj'
  obtain ⟨b1, b2⟩ := hD i j (by omega) (by omega)
  have k1 := norm_add_le (FS.val (g.td.at' i j) - D.td.at' i j) (D.td.at' i j)
  have k2 := norm_add_le (FS.val (g.pd.at' i j) - D.pd.at' i j) (D.pd.at' i j)
  rw [sub_add_cancel] at k1 k2
  clear hC hC'
  constructor <;> linarith

end FV

/-- C98: the vector round trip in doubles.  `vispht` with one backend followed by `vspht` with either returns both coefficients of every mode with `n ≥ 1` up to
an explicit error. -/
theorem c98_round_trip (hrd : NoOverflow rnd) (lib : Fl.NumLib rnd) (hsum : SumOK lib.sum) (b b' : Backend) (c : VectorCoefs (FC rnd)) (hc : c.WellFormed)
    (N M : ℕ) (hn : c.nmax = N) (hm : c.mmax = M) (hj : PowOK b M lib.jp) (hj' : PowOK b' M lib.jp) (hN : N ≤ 1000) (v w : ℤ → ℤ → FC rnd)
    (hvw : ∀ n m, IsMode c.nmax c.mmax n m → n ≠ 0 → readMapV c n m = some (v n m, w n m)) (C : ℝ) (hC : 2 ^ (-900 : ℤ) ≤ C) (hC' : C ≤ 2 ^ (300 : ℤ))
    (hvC : ∀ n m, IsMode c.nmax c.mmax n m → n ≠ 0 → |(v n m).re| ≤ C ∧ |(v n m).im| ≤ C) (hwC : ∀ n m, IsMode c.nmax c.mmax n m → n ≠ 0 → |(w n m).re| ≤ C ∧ |(w n m).im| ≤ C)
    (nr nc : ℤ) (h1 : c.nmax + 2 ≤ nr) (h2 : 2 * c.mmax + 2 ≤ nc) (h3 : nc % 2 = 0) (hsz : nr ≤ 2 ^ 28)
    (inv : Arr2 (FC rnd) → Int → Int → Res (Arr2 (FC rnd))) (δ₀ δ₁ δ₂ ε : ℝ)
    (hε : ε = δ₀ + (2 * nr - 1) * (2 * M + 1) * FV.fieldErr N M C) (hε' : ε ≤ (N + 1) ^ 2 * C / 5)
    (hδ₁ : Real.sqrt (2 * (nr : ℝ) - 1) * δ₁ ≤ (N + 1) ^ 2 * C / 400) (hδ₂ : δ₂ ≤ (nr + M + 2) * ((N + 1) ^ 2 * C))
    (hinv : ∀ f : Arr2 (FC rnd), (f.rows : ℤ) = 2 * nr - 2 → (f.cols : ℤ) = nc → (∀ i j, i < f.rows → j < f.cols → FS.Fix (f.at' i j) ∧ ‖FS.val (f.at' i j)‖ ≤ FV.fieldMax N M C) →
      FftWithin inv δ₀ f (2 * nr - 2) nc)
    (hfft : ∀ T P, Fl.vispht rnd lib.jp (Fl.visphtPost rnd inv) b c (some nr) (some nc) = .ok ⟨T, P⟩ → Fft2Within lib.fft δ₁ T ∧ Fft2Within lib.fft δ₁ P ∧
      ∀ g, VsphtArray lib T P g → ∀ m : ℤ, |m| ≤ M → ConvWithin lib.conv δ₂ g N m) :
    ∃ p ch, Fl.vispht rnd lib.jp (Fl.visphtPost rnd inv) b c (some nr) (some nc) = .ok p ∧ Fl.vspht rnd lib b' p (some c.nmax) (some c.mmax) = .ok ch ∧
      ch.WellFormed ∧ ch.nmax = c.nmax ∧ ch.mmax = c.mmax ∧ ∀ n m : ℤ, IsMode c.nmax c.mmax n m → n ≠ 0 → ∃ z, readMapV ch n m = some z ∧
        ‖FS.val z.1 - FS.val (v n m)‖ ≤ vroundErr N M nr C δ₁ δ₂ ε n ∧ ‖FS.val z.2 - FS.val (w n m)‖ ≤ vroundErr N M nr C δ₁ δ₂ ε n := by
  have C0 : 0 ≤ C := le_trans (by positivity) hC
  have hMN : M ≤ N := by have := hc.wf1.wf.mn; have := hc.n1; have := hc.m1; omega
  have hm0 : 0 ≤ c.mmax := by omega
  obtain ⟨⟨T, P⟩, D, e1, e2, g1, g2, g3, g4, D1, D2, D3, D4, hg, hgS⟩ :=
    FV.vispht_samples hrd b c hc N M hn hm hj hN v w hvw C hC hC' hvC hwC nr nc h1 h2 h3 inv δ₀ ε hε hε' hinv
  simp only at g1 g2 g3 g4 D1 D2 D3 D4 hg hgS
  obtain ⟨hf1, hf2, hcv⟩ := hfft T P e1
  obtain ⟨S, hS⟩ : ∃ S, S = ((N : ℝ) + 1) ^ 2 * C := ⟨_, rfl⟩
  rw [← hS] at hgS hε' hδ₁ hδ₂
  have S1 : C ≤ S := by
    have : (1 : ℝ) ≤ ((N : ℝ) + 1) ^ 2 := one_le_pow₀ (by have : (0 : ℝ) ≤ N := by positivity
                                                          linarith)
    rw [hS]
    exact le_mul_of_one_le_left C0 this
  have hS2 : S ≤ 2 ^ (400 : ℤ) := by
    have n1 : (N : ℝ) ≤ 1000 := by exact_mod_cast hN
    calc S ≤ (1000 + 1) ^ 2 * 2 ^ (300 : ℤ) := by rw [hS]; gcongr
      _ ≤ 2 ^ (100 : ℤ) * 2 ^ (300 : ℤ) := mul_le_mul_of_nonneg_right (by norm_num) (by positivity)
      _ = 2 ^ (400 : ℤ) := by rw [← zpow_add₀ (by norm_num)]; norm_num
  have hsz' : nr ≤ 268435456 := by norm_num at hsz; exact hsz
  have hq0 : (T.rows : ℝ) = 2 * (nr : ℝ) - 2 := by
    have : ((T.rows : ℤ) : ℝ) = ((2 * nr - 2 : ℤ) : ℝ) := by rw [g1]
    push_cast at this
    exact this
  have hq : (T.rows : ℝ) + 1 = 2 * (nr : ℝ) - 1 := by linarith
  have hq2 : (T.rows : ℝ) / 2 + M + 3 = nr + M + 2 := by linarith
  obtain ⟨ce, ch, f1, f2, f3, f4, f5, f6⟩ := c97_vspht hrd lib hsum b' T P g3 g4 (by omega) (by omega) (by norm_num; omega) (by omega) N M hj' hN hMN (by omega) (by omega) S (hC.trans S1) hS2
    (fun i j hi hj' => (hgS i j hi hj').1) (fun i j hi hj' => (hgS i j hi hj').2) δ₁ δ₂ (by rw [hq]; exact hδ₁) (by rw [hq2]; exact hδ₂) hf1 hf2 hcv
  -- the exact round trip
  obtain ⟨p, cx, i1, i2, i3, i4, i5, i6⟩ := vround .py .py (FV.exactSetV c) (FV.exactSetV_wf hc) nr nc h1 h2 h3 hsz
  rw [e2] at i1
  cases i1
  obtain ⟨d, j1, x, y, x', y', j2, j3, j4⟩ := c77_any .py .py D.td D.pd (T.map FS.val) (P.map FS.val) (by omega) (by omega) (by rw [Arr2.rows_map]; omega) (by rw [Arr2.cols_map]; omega)
    (by rw [Arr2.rows_map]; omega) (by rw [Arr2.cols_map]; omega) (by omega) (by omega) (by norm_num; omega) (FV.exactSetV c).nmax (FV.exactSetV c).mmax hm0 cx i2 ε (fun i j hi hj' => by
      rw [Arr2.at'_map _ _ (by omega) (by omega), Arr2.at'_map _ _ (by omega) (by omega), norm_sub_rev, norm_sub_rev (D.pd.at' i j)]
      exact hg i j (by omega) (by omega))
  have hce : d = ce := by
    have : vspht .py ⟨T.map FS.val, P.map FS.val⟩ (some c.nmax) (some c.mmax) = .ok d := j1
    rw [hn, hm, f1] at this
    exact (Except.ok.inj this).symm
  subst hce
  refine ⟨_, ch, e1, by rw [hn, hm]; exact f2, f3, by rw [f4, hn], by rw [f5, hm], fun n m hnm n0 => ?_⟩
  obtain ⟨u, z, k1, k2, k3, k4⟩ := f6 n m (by rw [← hn, ← hm]; exact hnm) n0
  refine ⟨z, k2, ?_⟩
  have hnm' : IsMode cx.nmax cx.mmax n m := by rw [i4, i5]; exact hnm
  have l1 : u = (x' n m, y' n m) := by
    obtain ⟨dd, q1, q2, q3, -⟩ := vspht_value .py (T.map FS.val) (P.map FS.val) (by simp only [Arr2.rows_map]; exact g3) (by simp only [Arr2.cols_map]; exact g4)
      (by rw [Arr2.rows_map]; omega) (by rw [Arr2.rows_map]; omega) (by rw [Arr2.rows_map]; norm_num; omega) N M (by omega) (by
        rw [Arr2.rows_map, Arr2.cols_map]; omega)
    rw [f1] at q1
    cases q1
    have := j3 n m (by rw [q2, q3, ← hn, ← hm]; exact hnm) n0
    rw [k1] at this
    exact Option.some.inj this
  have l2 : x n m = FS.val (v n m) ∧ y n m = FS.val (w n m) := by
    obtain ⟨a1, a2⟩ := j2.cf i3 hnm' n0
    obtain ⟨a3, a4⟩ := i6 n m hnm
    obtain ⟨a5, a6⟩ := (FV.exactSetV_has hc hvw).cf (FV.exactSetV_wf hc) hnm n0
    rw [if_neg n0] at a3 a4
    exact ⟨by rw [← a1, a3, a5], by rw [← a2, a4, a6]⟩
  obtain ⟨l3, l4⟩ := j4 n m hnm n0
  rw [l2.1] at l3
  rw [l2.2] at l4
  rw [l1] at k3 k4
  have hε0 : 0 ≤ ε := (norm_nonneg _).trans (hg 0 0 (by omega) (by omega)).1
  have hn0 : (0 : ℝ) ≤ n := by exact_mod_cast hnm.1
  have hrow : ((D.td.rows / 2 + 1 : ℕ) : ℝ) = nr := by
    have : (((D.td.rows / 2 + 1 : ℕ) : ℤ) : ℝ) = (nr : ℝ) := by rw [show ((D.td.rows / 2 + 1 : ℕ) : ℤ) = nr by omega]
    rw [← this, Int.cast_natCast]
  have habs : |(m : ℝ)| ≤ M := by
    have := hnm.2.2.2
    rw [hm] at this
    exact_mod_cast this
  have hW : (|(m : ℝ)| + ((D.td.rows / 2 + 1 : ℕ) : ℝ)) * ε ≤ (M + nr) * ε := by rw [hrow]; exact mul_le_mul_of_nonneg_right (by linarith) hε0
  have tl : (2 * nr - 2).toNat = T.rows := by omega
  have fin : 1 / Real.sqrt ((n : ℝ) * ((n : ℝ) + 1)) * ((2 * n + 1) * Real.sqrt ((2 * n + 1) / (4 * Real.pi)) * (20 * ((((|m| : ℤ) : ℝ) + (D.td.rows / 2 + 1 : ℕ)) * ε))) ≤
      1 / Real.sqrt ((n : ℝ) * ((n : ℝ) + 1)) * ((2 * n + 1) * Real.sqrt ((2 * n + 1) / (4 * Real.pi)) * (20 * ((M + nr) * ε))) := by
    rw [Int.cast_abs]
    exact mul_le_mul_of_nonneg_left (mul_le_mul_of_nonneg_left (by linarith) (by positivity)) (by positivity)
  unfold vroundErr
  rw [tl, ← hS]
  constructor
  · have := norm_sub_le_norm_sub_add_norm_sub (FS.val z.1) (x' n m) (FS.val (v n m))
    rw [norm_sub_rev (x' n m)] at this
    exact this.trans (add_le_add k3 (l3.trans fin))
  · have := norm_sub_le_norm_sub_add_norm_sub (FS.val z.2) (y' n m) (FS.val (w n m))
    rw [norm_sub_rev (y' n m)] at this
    exact this.trans (add_le_add k4 (l4.trans fin))

/-- Not vacuous: two sets of four different coefficients, through a 5 by 8 grid with a library whose FFTs are exact and whose convolution rounds; both coefficients of every
mode come back to within `2^-19`. -/
example : ∃ (rnd : ℝ → ℝ) (lib : Fl.NumLib rnd) (c : VectorCoefs (FC rnd)) (v w : ℤ → ℤ → FC rnd) (inv : Arr2 (FC rnd) → Int → Int → Res (Arr2 (FC rnd)))
    (p : TPatt (FC rnd)) (ch : VectorCoefs (FC rnd)), NoOverflow rnd ∧ c.WellFormed ∧ v 1 (-1) = ⟨2, 1⟩ ∧ w 1 1 = ⟨7, 1⟩ ∧
    Fl.vispht rnd lib.jp (Fl.visphtPost rnd inv) .py c (some 5) (some 8) = .ok p ∧ Fl.vspht rnd lib .py p (some 1) (some 1) = .ok ch ∧
    ∀ n m : ℤ, IsMode 1 1 n m → n ≠ 0 → ∃ z, readMapV ch n m = some z ∧ ‖FS.val z.1 - FS.val (v n m)‖ ≤ 2 ^ (-19 : ℤ) ∧ ‖FS.val z.2 - FS.val (w n m)‖ ≤ 2 ^ (-19 : ℤ) := by
  obtain ⟨rnd, h⟩ := noOverflow_exists
  have hj : PowExact (FA.goodLib rnd).jp := fun _ _ => rfl
  obtain ⟨c, hcd⟩ : ∃ c : VectorCoefs (FC rnd), c = ⟨⟨[⟨0, 1⟩, ⟨1, 1⟩, ⟨2, 1⟩, ⟨3, 1⟩], 1, 1⟩, ⟨[⟨4, 1⟩, ⟨5, 1⟩, ⟨6, 1⟩, ⟨7, 1⟩], 1, 1⟩, 1, 1⟩ := ⟨_, rfl⟩
  have w1 : c.scoef1.WF := by subst hcd; exact ⟨by norm_num, by norm_num, rfl⟩
  have w2 : c.scoef2.WF := by subst hcd; exact ⟨by norm_num, by norm_num, rfl⟩
  have hn : c.nmax = ((1 : ℕ) : ℤ) := by subst hcd; rfl
  have hm : c.mmax = ((1 : ℕ) : ℤ) := by subst hcd; rfl
  have hc : c.WellFormed := ⟨ScalarCoefs.wf_iff.mp w1, ScalarCoefs.wf_iff.mp w2, by subst hcd; rfl, by subst hcd; rfl, by subst hcd; rfl, by subst hcd; rfl⟩
  have hx : ∀ n m, IsMode c.nmax c.mmax n m → n ≠ 0 → ∃ x y, readMapV c n m = some (x, y) ∧ x ∈ c.scoef1.vec ∧ y ∈ c.scoef2.vec := by
    intro n m hmo n0
    have m1 : IsMode c.scoef1.nmax c.scoef1.mmax n m := by rw [hc.n1, hc.m1]; exact hmo
    have m2 : IsMode c.scoef2.nmax c.scoef2.mmax n m := by rw [hc.n2, hc.m2]; exact hmo
    rw [readMapV_eq hc, if_neg n0, ScalarCoefs.absMap_mode w1 m1, ScalarCoefs.absMap_mode w2 m2]
    exact ⟨_, _, rfl, List.getElem_mem _, List.getElem_mem _⟩
  have hall : (∀ z ∈ c.scoef1.vec, |z.re| ≤ 8 ∧ |z.im| ≤ 8) ∧ ∀ z ∈ c.scoef2.vec, |z.re| ≤ 8 ∧ |z.im| ≤ 8 := by
    subst hcd
    constructor <;> intro z hz <;> simp only [List.mem_cons, List.not_mem_nil, or_false] at hz <;> rcases hz with rfl | rfl | rfl | rfl <;> norm_num
  let inv : Arr2 (FC rnd) → Int → Int → Res (Arr2 (FC rnd)) := fun f dn nc => (invFourier (f.map FS.val) dn nc).bind fun g => .ok (g.map fun z => ⟨z.re, z.im⟩)
  have hinv : ∀ f : Arr2 (FC rnd), (f.rows : ℤ) = 2 * 5 - 2 → (f.cols : ℤ) = 8 → FftWithin inv 0 f (2 * 5 - 2) 8 := by
    intro f fr fc
    obtain ⟨D, eD, Dr, Dc, -⟩ := invFourier_spec (f.map FS.val) 8 8 (by rw [Arr2.rows_map]; omega) (by rw [Arr2.cols_map]; omega) (by norm_num) (by norm_num)
    have eD' : invFourier (f.map FS.val) (2 * 5 - 2) 8 = .ok D := eD
    refine ⟨D.map fun z => ⟨z.re, z.im⟩, D, ?_, eD', rfl, rfl, fun i j hi hj' => ?_⟩
    · show (invFourier (f.map FS.val) (2 * 5 - 2) 8).bind _ = _
      rw [eD']; rfl
    · rw [Arr2.at'_map _ D hi hj']
      have e : (FS.val (⟨(D.at' i j).re, (D.at' i j).im⟩ : FC rnd)) = D.at' i j := rfl
      rw [e, sub_self, norm_zero]
  have hC : (2 : ℝ) ^ (-900 : ℤ) ≤ 8 := (zpow_le_one_of_nonpos₀ (by norm_num) (by norm_num)).trans (by norm_num)
  have hC' : (8 : ℝ) ≤ 2 ^ (300 : ℤ) := by rw [show (8 : ℝ) = 2 ^ (3 : ℤ) by norm_num]; exact zpow_le_zpow_right₀ (by norm_num) (by norm_num)
  have hvw : ∀ n m, IsMode c.nmax c.mmax n m → n ≠ 0 → readMapV c n m = some (((readMapV c n m).getD (0, 0)).1, ((readMapV c n m).getD (0, 0)).2) := by
    intro n m a1 a2
    obtain ⟨x, y, h1, -, -⟩ := hx n m a1 a2
    rw [h1]; rfl
  have hvC : ∀ n m, IsMode c.nmax c.mmax n m → n ≠ 0 → |((readMapV c n m).getD (0, 0)).1.re| ≤ 8 ∧ |((readMapV c n m).getD (0, 0)).1.im| ≤ 8 := by
    intro n m a1 a2
    obtain ⟨x, y, h1, h2, -⟩ := hx n m a1 a2
    simp only [h1]; exact hall.1 x h2
  have hwC : ∀ n m, IsMode c.nmax c.mmax n m → n ≠ 0 → |((readMapV c n m).getD (0, 0)).2.re| ≤ 8 ∧ |((readMapV c n m).getD (0, 0)).2.im| ≤ 8 := by
    intro n m a1 a2
    obtain ⟨x, y, h1, -, h2⟩ := hx n m a1 a2
    simp only [h1]; exact hall.2 y h2
  have hrow : FS.rowMax 1 ≤ 1 := by
    unfold FS.rowMax
    apply Real.sqrt_le_iff.mpr
    refine ⟨by norm_num, ?_⟩
    rw [one_pow, div_le_one (by positivity)]
    push_cast
    linarith [Real.pi_gt_three]
  have hrow0 : 0 ≤ FS.rowMax 1 := Real.sqrt_nonneg _
  obtain ⟨ε, hε⟩ : ∃ ε : ℝ, ε = 0 + (2 * ((5 : ℤ) : ℝ) - 1) * (2 * ((1 : ℕ) : ℝ) + 1) * FV.fieldErr 1 1 8 := ⟨_, rfl⟩
  have hεb : ε ≤ 324000 * 2 ^ (-47 : ℤ) := by
    rw [hε]
    unfold FV.fieldErr
    push_cast
    norm_num
    linarith
  have hε0 : 0 ≤ ε := by
    rw [hε]
    unfold FV.fieldErr
    positivity
  have hε' : ε ≤ (((1 : ℕ) : ℝ) + 1) ^ 2 * 8 / 5 := hεb.trans (by norm_num)
  obtain ⟨⟨T, P⟩, D, e1, -, g1, g2, g3, g4, -, -, -, -, -, hgS⟩ := FV.vispht_samples h .py c hc 1 1 hn hm (hj.ok _ (by norm_num)) (by norm_num) _ _ hvw 8 hC hC' hvC hwC 5 8
    (by rw [hn]; norm_num) (by rw [hm]; norm_num) (by norm_num) inv 0 ε hε hε' (fun f fr fc _ => hinv f fr fc)
  simp only at g1 g2 g3 g4 hgS
  have hfft : ∀ T P, Fl.vispht rnd (FA.goodLib rnd).jp (Fl.visphtPost rnd inv) .py c (some 5) (some 8) = .ok ⟨T, P⟩ →
      Fft2Within (FA.goodLib rnd).fft 0 T ∧ Fft2Within (FA.goodLib rnd).fft 0 P ∧
      ∀ g, VsphtArray (FA.goodLib rnd) T P g → ∀ m : ℤ, |m| ≤ ((1 : ℕ) : ℤ) → ConvWithin (FA.goodLib rnd).conv (4 * uu * (22 * ((((8 : ℕ) : ℝ) / 2 + ((1 : ℕ) : ℝ) + 3) * 32))) g ((1 : ℕ) : ℤ) m := by
    intro T' P' hTP
    rw [e1] at hTP
    cases hTP
    have key := FV.goodLib_vconv h T P g3 g4 (by omega) (by omega) (by omega) (by omega) 1 1 (by norm_num) (by omega) 32 (hC.trans (by norm_num))
      ((show (32 : ℝ) ≤ 2 ^ (5 : ℤ) by norm_num).trans (zpow_le_zpow_right₀ (by norm_num) (by norm_num)))
      (fun i j hi hj' => (hgS i j hi hj').1.trans (by norm_num)) (fun i j hi hj' => (hgS i j hi hj').2.trans (by norm_num))
    rw [show T.rows = 8 by omega] at key
    exact ⟨FA.goodLib_fft T (by omega) (by omega), FA.goodLib_fft P (by omega) (by omega), key⟩
  have u0 := uu_pos
  have hu : uu ≤ 1 / 10 ^ 15 := by unfold uu; norm_num
  obtain ⟨p, ch, f1, f2, -, -, -, f3⟩ := c98_round_trip h (FA.goodLib rnd) FA.goodLib_sum .py .py c hc 1 1 hn hm (hj.ok _ (by norm_num)) (hj.ok _ (by norm_num)) (by norm_num) _ _ hvw 8 hC hC' hvC hwC 5 8
    (by rw [hn]; norm_num) (by rw [hm]; norm_num) (by norm_num) (by norm_num) inv 0 0 _ ε hε hε' (by norm_num) (by push_cast; linarith) (fun f fr fc _ => hinv f fr fc) hfft
  rw [hn, hm] at f2 f3
  refine ⟨rnd, FA.goodLib rnd, c, fun n m => ((readMapV c n m).getD (0, 0)).1, fun n m => ((readMapV c n m).getD (0, 0)).2, inv, p, ch, h, hc, by subst hcd; rfl, by subst hcd; rfl, f1, f2, fun n m hmo n0 => ?_⟩
  obtain ⟨z, z1, z2, z3⟩ := f3 n m hmo n0
  have key : vroundErr 1 1 5 8 0 (4 * uu * (22 * ((((8 : ℕ) : ℝ) / 2 + ((1 : ℕ) : ℝ) + 3) * 32))) ε n ≤ 2 ^ (-19 : ℤ) := by
    obtain rfl : n = 1 := by have := hmo.1; have := hmo.2.1; push_cast at *; omega
    unfold vroundErr vsphtErr
    have hs : Real.sqrt ((2 * ((1 : ℤ) : ℝ) + 1) / (4 * Real.pi)) ≤ 1 := by
      have := hrow
      unfold FS.rowMax at this
      push_cast at this ⊢
      exact this
    have hs0 : 0 ≤ Real.sqrt ((2 * ((1 : ℤ) : ℝ) + 1) / (4 * Real.pi)) := Real.sqrt_nonneg _
    have hw : 1 / Real.sqrt (((1 : ℤ) : ℝ) * (((1 : ℤ) : ℝ) + 1)) ≤ 1 := by
      rw [div_le_one (by positivity), Real.one_le_sqrt]
      norm_num
    have hw0 : 0 ≤ 1 / Real.sqrt (((1 : ℤ) : ℝ) * (((1 : ℤ) : ℝ) + 1)) := by positivity
    generalize 1 / Real.sqrt (((1 : ℤ) : ℝ) * (((1 : ℤ) : ℝ) + 1)) = W at hw hw0 ⊢
    generalize Real.sqrt ((2 * ((1 : ℤ) : ℝ) + 1) / (4 * Real.pi)) = Q at hs hs0 ⊢
    have h9 : Real.sqrt ((((2 * 5 - 2 : ℤ).toNat : ℕ) : ℝ) + 1) = 3 := by
      rw [show ((2 * 5 - 2 : ℤ).toNat : ℕ) = 8 from rfl, show (((8 : ℕ) : ℝ) + 1) = 3 ^ 2 by norm_num, Real.sqrt_sq (by norm_num)]
    rw [h9, show ((2 * 5 - 2 : ℤ).toNat : ℕ) = 8 from rfl]
    have hu' : uu = 2 ^ (-53 : ℤ) := rfl
    have WQ : W * Q ≤ 1 := by nlinarith
    have WQ0 : 0 ≤ W * Q := by positivity
    have k1 : ∀ x : ℝ, 0 ≤ x → W * (Q * x) ≤ x := fun x hx => by rw [← mul_assoc]; exact mul_le_of_le_one_left hx WQ
    refine (add_le_add (k1 _ (by positivity)) (le_of_eq (show _ = W * (Q * ((2 * ((1 : ℤ) : ℝ) + 1) * (20 * ((((1 : ℕ) : ℝ) + ((5 : ℤ) : ℝ)) * ε)))) by ring))).trans ?_
    refine (add_le_add le_rfl (k1 _ (by positivity))).trans ?_
    rw [hu']
    norm_num at hεb ⊢
    linarith
  exact ⟨z, z1, z2.trans key, z3.trans key⟩

end Verif.Props
