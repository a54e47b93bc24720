import Verif.Props.FloatAnal5
import Verif.Props.Stability
/-!
# Property C95: the round trip in doubles
-/
namespace Verif.Props
open Verif Finset

variable {rnd : ℝ → ℝ}

namespace FA

/-- A bound on one analysis coefficient that needs no symmetry of the samples. -/
theorem bF_bound (D : Arr2 ℂ) (hR : D.rows % 2 = 0) (hR0 : 0 < D.rows) (hK : 0 < D.cols) {ε : ℝ} (h : ∀ i j, i < D.rows → j < D.cols → ‖D.at' i j‖ ≤ ε)
    (m : ℤ) (n : ℕ) (hm : m.natAbs ≤ n) : ‖bF (D.rows / 2 + 1) (sing D m) m n‖ ≤ (2 * (n : ℝ) + 1) * FS.rowMax n * (20 * ε) := by
  have hε : 0 ≤ ε := (norm_nonneg _).trans (h 0 0 hR0 hK)
  have hR1 := FS.rowMax_ge n
  have hk : ∀ k : ℤ, ‖4 * (Real.pi : ℂ) * ∑ ν ∈ Ioo (-((D.rows / 2 + 1 : ℕ) : ℤ)) ((D.rows / 2 + 1 : ℕ) : ℤ), sing D m ν * Skern (k - ν)‖ ≤ 20 * ε :=
    fun k => kern_l2 _ (sing D m) k hε (sing_l2 D hR0 hR hK h m _)
  unfold bF
  rw [norm_mul, norm_zpow, Complex.norm_I, one_zpow, one_mul]
  have y := fun j => ycoef_le n m hm j
  have a0 := mul_le_mul (hk 0) (y 0) (norm_nonneg _) (by positivity)
  rw [← norm_mul] at a0
  have a1 : ‖∑ k ∈ range n, (4 * (Real.pi : ℂ) * ∑ ν ∈ Ioo (-((D.rows / 2 + 1 : ℕ) : ℤ)) ((D.rows / 2 + 1 : ℕ) : ℤ), sing D m ν * Skern (((k + 1 : ℕ) : ℤ) - ν)) * ycoef n m (k + 1 : ℕ)‖ ≤
      n * (20 * ε * FS.rowMax n) := by
    refine (norm_sum_le_of_le _ (n := fun _ => 20 * ε * FS.rowMax n) fun i hi => ?_).trans (le_of_eq ?_)
    · rw [norm_mul]
      exact mul_le_mul (hk _) (y _) (norm_nonneg _) (by positivity)
    · rw [sum_const, card_range, nsmul_eq_mul]
  refine (norm_add_le _ _).trans ?_
  have e2 : ∀ z : ℂ, ‖2 * z‖ = 2 * ‖z‖ := fun z => by rw [norm_mul, Complex.norm_ofNat]
  rw [e2]
  unfold FS.rowMax at *
  nlinarith [a0, a1]

end FA

/-- C75 without symmetry: whatever the two arrays of samples, a coefficient of degree `n` moves by at most `20 (2n+1) √((2n+1)/4π)` times the largest change of a sample. -/
theorem c75_any (b b' : Backend) (D E : Arr2 ℂ) (hR : D.rows % 2 = 0) (hR0 : 0 < D.rows) (hsz : D.rows ≤ 2 ^ 29)
    (hr : E.rows = D.rows) (hc : E.cols = D.cols) (n m : ℤ) (h0 : 0 ≤ m) (c : ScalarCoefs ℂ) (h : spht b ⟨.arr D⟩ (some n) (some m) = .ok c)
    (ε : ℝ) (hε : ∀ i j, i < D.rows → j < D.cols → ‖D.at' i j - E.at' i j‖ ≤ ε) :
    ∃ d, spht b' ⟨.arr E⟩ (some n) (some m) = .ok d ∧ ∃ x y : ℤ → ℤ → ℂ, HasCoefs c x ∧ HasCoefs d y ∧
      ∀ k l, IsMode n m k l → ‖x k l - y k l‖ ≤ (2 * k + 1) * Real.sqrt ((2 * k + 1) / (4 * Real.pi)) * (20 * ε) := by
  have hnr := spht_ok_args h
  obtain ⟨c', e, c1, c2, -, cv⟩ := spht_value b D hR hR0 hsz n m h0 hnr
  rw [h] at e; cases e
  obtain ⟨d, e, d1, d2, -, dv⟩ := spht_value b' E (by omega) (by omega) (by omega) n m h0 (by rw [hr, hc]; exact hnr)
  refine ⟨d, e, fun k l => bF (D.rows / 2 + 1) (sing D l) l k.toNat, fun k l => bF (E.rows / 2 + 1) (sing E l) l k.toNat,
    fun k l hk => cv k l (by rw [← c1, ← c2]; exact hk), fun k l hk => dv k l (by rw [← d1, ← d2]; exact hk), fun k l hk => ?_⟩
  obtain ⟨g0, g1, g2, g3⟩ := hk
  rw [Int.abs_eq_natAbs] at g2 g3
  obtain ⟨k, rfl⟩ := Int.eq_ofNat_of_zero_le g0
  beta_reduce
  rw [Int.toNat_natCast]
  have bsub : bF (D.rows / 2 + 1) (sing D l) l k - bF (E.rows / 2 + 1) (sing E l) l k = bF ((linArr 1 (-1) D E).rows / 2 + 1) (sing (linArr 1 (-1) D E) l) l k := by
    rw [show (linArr 1 (-1) D E).rows = D.rows from rfl, hr]
    have : sing (linArr 1 (-1) D E) l = fun ν => (1 : ℂ) * sing D l ν + (-1) * sing E l ν := by
      funext ν
      unfold sing
      rw [fhat_lin 1 (-1) D E hr hc, fhat_lin 1 (-1) D E hr hc]
      ring
    rw [this, bF_lin]; ring
  rw [bsub]
  have := FA.bF_bound (linArr 1 (-1) D E) hR hR0 (show 0 < D.cols by omega) (ε := ε) (fun i j hi hj => by
    rw [linArr_at 1 (-1) D E hr hc hi hj, show (1 : ℂ) * D.at' i j + -1 * E.at' i j = D.at' i j - E.at' i j by ring]
    exact hε i j hi hj) l k (by omega)
  unfold FS.rowMax at this
  exact_mod_cast this

namespace FA

/-- The samples of a series with coefficients of modulus at most `C√2`. -/
theorem series_le {N M : ℕ} (hMN : M ≤ N) {v : ℤ → ℤ → ℂ} {C : ℝ} (hC : 0 ≤ C) (hv : ∀ n m, IsMode N M n m → |(v n m).re| ≤ C ∧ |(v n m).im| ≤ C) (θ φ : ℝ) :
    ‖shSeries N M v θ φ‖ ≤ 0.6 * (((N : ℝ) + 1) ^ 2 * C) := by
  have h1 := shSeries_bound N M hMN v θ φ
  have hp : ∀ p ∈ modes (N : ℤ) M, ‖v p.1 p.2‖ ^ 2 ≤ 2 * C ^ 2 := by
    intro p hp
    obtain ⟨a, b⟩ := hv p.1 p.2 (mem_modes.mp hp)
    rw [← Complex.normSq_eq_norm_sq, Complex.normSq_apply, ← sq, ← sq, ← sq_abs (v p.1 p.2).re, ← sq_abs (v p.1 p.2).im]
    have := pow_le_pow_left₀ (abs_nonneg _) a 2
    have := pow_le_pow_left₀ (abs_nonneg _) b 2
    linarith
  have hcard : ((modes (N : ℤ) M).card : ℝ) ≤ 2 * ((N : ℝ) + 1) ^ 2 := by
    have : (modes (N : ℤ) M).card ≤ (N + 1) * (2 * M + 1) := by
      unfold modes
      refine (card_filter_le _ _).trans ?_
      rw [card_product, Int.card_Icc, Int.card_Icc]
      exact le_of_eq (by congr 1 <;> omega)
    have h2 : (N + 1) * (2 * M + 1) ≤ 2 * (N + 1) ^ 2 := by nlinarith
    exact_mod_cast this.trans h2
  have h3 : ∑ p ∈ modes (N : ℤ) M, ‖v p.1 p.2‖ ^ 2 ≤ 2 * ((N : ℝ) + 1) ^ 2 * (2 * C ^ 2) := by
    refine (sum_le_card_nsmul _ _ _ hp).trans ?_
    rw [nsmul_eq_mul]
    exact mul_le_mul_of_nonneg_right hcard (by positivity)
  have hpi := Real.pi_gt_three
  have h4 : ‖shSeries N M v θ φ‖ ^ 2 ≤ (0.6 * (((N : ℝ) + 1) ^ 2 * C)) ^ 2 := by
    refine h1.trans ((mul_le_mul_of_nonneg_left h3 (by positivity)).trans ?_)
    rw [div_mul_eq_mul_div, div_le_iff₀ (by positivity)]
    have X0 : 0 ≤ ((N : ℝ) + 1) ^ 4 * C ^ 2 := by positivity
    nlinarith
  exact abs_le_of_sq_le_sq' h4 (by positivity) |>.2

theorem rt_num {N M : ℕ} (hN : N ≤ 1000) (hM : M ≤ 1000) {C : ℝ} (hC : 0 ≤ C) :
    (2 * (N : ℝ) + 1) * (2 * M + 1) * ((N + 1) * ((N : ℝ) + 4) ^ 3 * 2 ^ (-49 : ℤ) * C * Real.sqrt ((2 * N + 1) / (4 * Real.pi))) ≤ ((N : ℝ) + 1) ^ 2 * C * (3 / 25) := by
  have h1 := rowMax_le (n := N) hN
  have n1 : (N : ℝ) ≤ 1000 := by exact_mod_cast hN
  have m1 : (M : ℝ) ≤ 1000 := by exact_mod_cast hM
  have n0 : (0 : ℝ) ≤ N := by positivity
  calc _ ≤ (2 * ((N : ℝ) + 1)) * (2 * 1000 + 1) * ((N + 1) * ((1000 : ℝ) + 4) ^ 3 * 2 ^ (-49 : ℤ) * C * 16) := by
        gcongr
        linarith
    _ = (2 * (2 * 1000 + 1) * ((1000 : ℝ) + 4) ^ 3 * 2 ^ (-49 : ℤ) * 16) * (((N : ℝ) + 1) ^ 2 * C) := by ring
    _ ≤ (3 / 25) * (((N : ℝ) + 1) ^ 2 * C) := by
        refine mul_le_mul_of_nonneg_right (by norm_num) (by positivity)
    _ = _ := by ring

end FA

namespace FA
open FS in
/-- What `ispht` in doubles hands to `spht`: the doubled array, within `ε` of the exact one and of modulus at most `(N+1)² C`. -/
theorem ispht_samples (hrd : NoOverflow rnd) {jp : Int → FC rnd} (b : Backend) (c : ScalarCoefs (FC rnd)) (hc : c.WellFormed)
    (N M : ℕ) (hn : c.nmax = N) (hm : c.mmax = M) (hj : PowOK b M jp) (hN : N ≤ 1000) (w : ℤ → ℤ → FC rnd)
    (hw : ∀ n m, IsMode c.nmax c.mmax n m → readMap c n m = some (w n m)) (C : ℝ) (hC : 2 ^ (-900 : ℤ) ≤ C) (hC' : C ≤ 2 ^ (300 : ℤ))
    (hwC : ∀ n m, IsMode c.nmax c.mmax n m → |(w n m).re| ≤ C ∧ |(w n m).im| ≤ C) (nr nc : ℤ) (h1 : c.nmax + 2 ≤ nr) (h2 : 2 * c.mmax + 2 ≤ nc) (h3 : nc % 2 = 0)
    (post : Arr2 (FC rnd) → Int → Int → Res (Arr2 (FC rnd))) (δ₀ ε : ℝ)
    (hε : ε = δ₀ + (2 * N + 1) * (2 * M + 1) * ((N + 1) * ((N : ℝ) + 4) ^ 3 * 2 ^ (-49 : ℤ) * C * Real.sqrt ((2 * N + 1) / (4 * Real.pi))))
    (hδ₀ : δ₀ ≤ (N + 1) ^ 2 * C / 4)
    (hpost : ∀ f, Fl.backendScToFc rnd jp b 0 c.vec c.nmax c.mmax (2 * nr - 2) nc = .ok f → FftWithin post δ₀ f (2 * nr - 2) nc) :
    ∃ (g : Arr2 (FC rnd)) (D : Arr2 ℂ), Fl.ispht rnd jp post b c (some nr) (some nc) = .ok ⟨.arr g⟩ ∧ ispht .py (exactSet c) (some nr) (some nc) = .ok ⟨.arr D⟩ ∧
      (g.rows : ℤ) = 2 * nr - 2 ∧ (g.cols : ℤ) = nc ∧ D.rows = g.rows ∧ D.cols = g.cols ∧
      (∀ i j, i < g.rows → j < g.cols → ‖val (g.at' i j) - D.at' i j‖ ≤ ε) ∧ ∀ i j, i < g.rows → j < g.cols → ‖val (g.at' i j)‖ ≤ ((N : ℝ) + 1) ^ 2 * C := by
  have C0 : 0 ≤ C := le_trans (by positivity) hC
  have hm0 := hc.wf.m0
  have hmn := hc.wf.mn
  have hMN : M ≤ N := by omega
  obtain ⟨g, D, e1, e2, gr, gc, Dr, Dc, hg⟩ := ispht_full hrd b c hc N M hn hm hj hN w hw C hC (hC'.trans (zpow_le_zpow_right₀ (by norm_num) (by norm_num))) hwC nr nc h1 h2 h3 post δ₀ hpost
  rw [← hε] at hg
  -- the exact samples
  have hx := exactSet_has hc hw
  obtain ⟨r, hr⟩ := Int.eq_ofNat_of_zero_le (show 0 ≤ nr by omega)
  obtain ⟨k, hk⟩ := Int.eq_ofNat_of_zero_le (show 0 ≤ nc by omega)
  obtain ⟨D', e3, -, -, hD', -⟩ := ispht_main .py (exactSet c) (exactSet_wf hc).wf (some nr) (some nc) r k hr hk (by rw [← hr]; exact h1) (by rw [← hk]; exact h2) (by omega)
  rw [e2] at e3
  cases e3
  set S : ℝ := ((N : ℝ) + 1) ^ 2 * C with hS
  have S0 : 0 ≤ S := by positivity
  have hD : ∀ i j, i < D.rows → j < D.cols → ‖D.at' i j‖ ≤ 0.6 * S := by
    intro i j hi hj'
    rw [hD' i j hi hj']
    have := FA.series_le hMN C0 (v := fun n m => (exactSet c).cf n m) (fun n m hnm => by
      have hnm' : IsMode (exactSet c).nmax (exactSet c).mmax n m := by
        show IsMode c.nmax c.mmax n m
        rw [hn, hm]; exact hnm
      rw [hx.cf (exactSet_wf hc) hnm']
      exact hwC n m hnm') (2 * Real.pi * i / D.rows) (2 * Real.pi * j / D.cols)
    unfold shSeries at this
    have en : (exactSet c).nmax = N := hn
    have em : (exactSet c).mmax = M := hm
    rw [en, em]
    exact this
  have ε1 : ε ≤ S / 4 + S * (3 / 25) := by
    rw [hε]
    exact add_le_add hδ₀ (FA.rt_num hN (by omega) C0)
  have hgS : ∀ i j, i < g.rows → j < g.cols → ‖val (g.at' i j)‖ ≤ S := by
    intro i j hi hj'
    have a1 := hg i j hi hj'
    have a2 := hD i j (by omega) (by omega)
    have := norm_add_le (val (g.at' i j) - D.at' i j) (D.at' i j)
    rw [sub_add_cancel] at this
    linarith
  exact ⟨g, D, e1, e2, gr, gc, by omega, by omega, hg, hgS⟩

end FA

open FS in
/-- C95: the round trip in doubles.  `ispht` with one backend followed by `spht` with either returns every coefficient up to an explicit error: the error of
`ispht` (C93) carried through the analysis, plus the error of `spht` (C94) on samples of modulus at most `(N+1)² C`. -/
theorem c95_round_trip (hrd : NoOverflow rnd) (lib : Fl.NumLib rnd) (hsum : SumOK lib.sum) (b b' : Backend) (c : ScalarCoefs (FC rnd)) (hc : c.WellFormed)
    (N M : ℕ) (hn : c.nmax = N) (hm : c.mmax = M) (hj : PowOK b M lib.jp) (hj' : PowOK b' M lib.jp) (hN : N ≤ 1000) (w : ℤ → ℤ → FC rnd)
    (hw : ∀ n m, IsMode c.nmax c.mmax n m → readMap c n m = some (w n m)) (C : ℝ) (hC : 2 ^ (-900 : ℤ) ≤ C) (hC' : C ≤ 2 ^ (300 : ℤ))
    (hwC : ∀ n m, IsMode c.nmax c.mmax n m → |(w n m).re| ≤ C ∧ |(w n m).im| ≤ C) (nr nc : ℤ) (h1 : c.nmax + 2 ≤ nr) (h2 : 2 * c.mmax + 2 ≤ nc) (h3 : nc % 2 = 0) (hsz : nr ≤ 2 ^ 28)
    (post : Arr2 (FC rnd) → Int → Int → Res (Arr2 (FC rnd))) (δ₀ δ₁ δ₂ ε : ℝ)
    (hε : ε = δ₀ + (2 * N + 1) * (2 * M + 1) * ((N + 1) * ((N : ℝ) + 4) ^ 3 * 2 ^ (-49 : ℤ) * C * Real.sqrt ((2 * N + 1) / (4 * Real.pi))))
    (hδ₀ : δ₀ ≤ (N + 1) ^ 2 * C / 4) (hδ₁ : Real.sqrt (2 * (nr : ℝ) - 1) * δ₁ ≤ (N + 1) ^ 2 * C / 4) (hδ₂ : δ₂ ≤ (N + 1) ^ 2 * C)
    (hpost : ∀ f, Fl.backendScToFc rnd lib.jp b 0 c.vec c.nmax c.mmax (2 * nr - 2) nc = .ok f → FftWithin post δ₀ f (2 * nr - 2) nc)
    (hfft : ∀ D, Fl.ispht rnd lib.jp post b c (some nr) (some nc) = .ok ⟨.arr D⟩ → Fft2Within lib.fft δ₁ D ∧
      ∀ g, Fl.sphtPre rnd lib D = .ok g → ∀ m : ℤ, |m| ≤ M → ConvWithin lib.conv δ₂ g N m) :
    ∃ p ch, Fl.ispht rnd lib.jp post b c (some nr) (some nc) = .ok p ∧ Fl.spht rnd lib b' p (some c.nmax) (some c.mmax) = .ok ch ∧
      ch.WellFormed ∧ ch.nmax = c.nmax ∧ ch.mmax = c.mmax ∧ ∀ n m : ℤ, IsMode c.nmax c.mmax n m → ∃ z, readMap ch n m = some z ∧
        ‖val z - val (w n m)‖ ≤ Real.sqrt ((2 * n + 1) / (4 * Real.pi)) *
          ((n + 1) * ((n : ℝ) + 4) ^ 3 * 2 ^ (-43 : ℤ) * ((N + 1) ^ 2 * C) +
            (2 * n + 1) * (δ₂ + 20 * Real.sqrt (2 * (nr : ℝ) - 1) * (δ₁ + 2 ^ (-49 : ℤ) * ((N + 1) ^ 2 * C)) + 20 * ε)) := by
  have C0 : 0 ≤ C := le_trans (by positivity) hC
  have hm0 := hc.wf.m0
  have hmn := hc.wf.mn
  have hMN : M ≤ N := by omega
  obtain ⟨g, D, e1, e2, gr, gc, Dr, Dc, hg, hgS⟩ := FA.ispht_samples hrd b c hc N M hn hm hj hN w hw C hC hC' hwC nr nc h1 h2 h3 post δ₀ ε hε hδ₀ hpost
  obtain ⟨hf, hcv⟩ := hfft g e1
  have hx := exactSet_has hc hw
  set S : ℝ := ((N : ℝ) + 1) ^ 2 * C with hS
  have S1 : C ≤ S := by
    have : (1 : ℝ) ≤ ((N : ℝ) + 1) ^ 2 := one_le_pow₀ (by have : (0 : ℝ) ≤ N := by positivity
                                                          linarith)
    exact le_mul_of_one_le_left C0 this
  have hS2 : S ≤ 2 ^ (400 : ℤ) := by
    have n1 : (N : ℝ) ≤ 1000 := by exact_mod_cast hN
    calc S ≤ (1000 + 1) ^ 2 * 2 ^ (300 : ℤ) := by rw [hS]; gcongr
      _ ≤ 2 ^ (100 : ℤ) * 2 ^ (300 : ℤ) := mul_le_mul_of_nonneg_right (by norm_num) (by positivity)
      _ = 2 ^ (400 : ℤ) := by rw [← zpow_add₀ (by norm_num)]; norm_num
  have hsz' : nr ≤ 268435456 := by norm_num at hsz; exact hsz
  have hq : (g.rows : ℝ) + 1 = 2 * (nr : ℝ) - 1 := by
    have : ((g.rows : ℤ) : ℝ) = ((2 * nr - 2 : ℤ) : ℝ) := by rw [gr]
    push_cast at this
    linarith
  obtain ⟨ce, ch, f1, f2, f3, f4, f5, f6⟩ := c94_spht hrd lib hsum b' g (by omega) (by omega) (by norm_num; omega) (by omega) N M hj' hN hMN (by omega) (by omega) S (hC.trans S1) hS2 hgS
    δ₁ δ₂ (by rw [hq]; exact hδ₁) hδ₂ hf hcv
  -- the exact round trip
  obtain ⟨p, i1, i2⟩ := c32_round_trip .py .py (exactSet c) (exactSet_wf hc) nr nc h1 h2 h3 hsz
  rw [e2] at i1
  cases i1
  obtain ⟨d, j1, x, y, j2, j3, j4⟩ := c75_any .py .py D (g.map val) (by omega) (by omega) (by norm_num; omega) (by rw [Arr2.rows_map]; omega) (by rw [Arr2.cols_map]; omega)
    (exactSet c).nmax (exactSet c).mmax hm0 (exactSet c) i2 ε (fun i j hi hj' => by
      rw [Arr2.at'_map _ _ (by omega) (by omega), norm_sub_rev]
      exact hg i j (by omega) (by omega))
  have hce : d = ce := by
    have : spht .py ⟨.arr (g.map val)⟩ (some c.nmax) (some c.mmax) = .ok d := j1
    rw [hn, hm, f1] at this
    exact (Except.ok.inj this).symm
  subst hce
  refine ⟨_, ch, e1, by rw [hn, hm]; exact f2, f3, by rw [f4, hn], by rw [f5, hm], fun n m hnm => ?_⟩
  obtain ⟨u, z, k1, k2, k3⟩ := f6 n m (by rw [← hn, ← hm]; exact hnm)
  refine ⟨z, k2, ?_⟩
  have l1 : u = y n m := by
    obtain ⟨dd, q1, q2, q3, -⟩ := spht_main .py (g.map val) (by rw [Arr2.rows_map]; omega) (by rw [Arr2.rows_map]; omega) (by rw [Arr2.cols_map]; omega) (some (N : ℤ)) (some (M : ℤ)) N M rfl hMN
      (by rw [Arr2.rows_map]; omega) (by rw [Arr2.cols_map]; omega) trivial
    rw [f1] at q1
    cases q1
    have := j3 n m (by rw [q2, q3, ← hn, ← hm]; exact hnm)
    rw [k1] at this
    exact Option.some.inj this
  have l2 : x n m = val (w n m) := by
    have a := j2 n m hnm
    rw [hx n m hnm] at a
    exact (Option.some.inj a).symm
  have l3 := j4 n m hnm
  rw [l2] at l3
  rw [l1, hq] at k3
  have l4 := norm_sub_le_norm_sub_add_norm_sub (val z) (y n m) (val (w n m))
  rw [norm_sub_rev (y n m)] at l4
  refine l4.trans ((add_le_add k3 l3).trans (le_of_eq ?_))
  ring

open FS in
/-- The hypotheses of `c95_round_trip` are met: seven complex coefficients with a numerical library whose FFTs are exact and whose convolution rounds; all come back to within `2^-24`. -/
example : ∃ (rnd : ℝ → ℝ) (lib : Fl.NumLib rnd) (c : ScalarCoefs (FC rnd)) (w : ℤ → ℤ → FC rnd) (post : Arr2 (FC rnd) → Int → Int → Res (Arr2 (FC rnd)))
    (p : SPatt (FC rnd)) (ch : ScalarCoefs (FC rnd)), NoOverflow rnd ∧ c.WellFormed ∧ w 2 (-1) = ⟨4, 1⟩ ∧
    Fl.ispht rnd lib.jp post .py c (some 5) (some 8) = .ok p ∧ Fl.spht rnd lib .py p (some 2) (some 1) = .ok ch ∧
    ∀ n m : ℤ, IsMode 2 1 n m → ∃ z, readMap ch n m = some z ∧ ‖val z - val (w n m)‖ ≤ 2 ^ (-24 : ℤ) := by
  obtain ⟨rnd, h⟩ := noOverflow_exists
  have hj : PowExact (FA.goodLib rnd).jp := fun _ _ => rfl
  obtain ⟨c, hcd⟩ : ∃ c : ScalarCoefs (FC rnd), c = ⟨[⟨0, 1⟩, ⟨1, 1⟩, ⟨2, 1⟩, ⟨3, 1⟩, ⟨4, 1⟩, ⟨5, 1⟩, ⟨6, 1⟩], 2, 1⟩ := ⟨_, rfl⟩
  have hw : c.WF := by subst hcd; exact ⟨by norm_num, by norm_num, rfl⟩
  have hn : c.nmax = ((2 : ℕ) : ℤ) := by subst hcd; rfl
  have hm : c.mmax = ((1 : ℕ) : ℤ) := by subst hcd; rfl
  have hrd : ∀ n m, IsMode c.nmax c.mmax n m → readMap c n m = some ((readMap c n m).getD 0) := by
    intro n m hmo
    rw [readMap_eq hw, ScalarCoefs.absMap_mode hw hmo]; rfl
  have hbd : ∀ n m, IsMode c.nmax c.mmax n m → |((readMap c n m).getD 0).re| ≤ 8 ∧ |((readMap c n m).getD 0).im| ≤ 8 := by
    intro n m hmo
    rw [readMap_eq hw, ScalarCoefs.absMap_mode hw hmo, Option.getD_some]
    have hmem := List.getElem_mem (h := hw.slot_lt hmo)
    have hall : ∀ z ∈ c.vec, |z.re| ≤ 8 ∧ |z.im| ≤ 8 := by
      subst hcd
      intro z hz
      simp only [List.mem_cons, List.not_mem_nil, or_false] at hz
      rcases hz with rfl | rfl | rfl | rfl | rfl | rfl | rfl <;> norm_num
    exact hall _ hmem
  let post : Arr2 (FC rnd) → Int → Int → Res (Arr2 (FC rnd)) := fun f dn nc => (invFourier (f.map val) dn nc).bind fun g => .ok (g.map fun z => ⟨z.re, z.im⟩)
  have hpost : ∀ f, Fl.backendScToFc rnd (FA.goodLib rnd).jp .py 0 c.vec c.nmax c.mmax (2 * 5 - 2) 8 = .ok f → FftWithin post 0 f (2 * 5 - 2) 8 := by
    intro f hf
    obtain ⟨Ah, eAh, hAh⟩ := FS.scToFc_spec (FA.goodLib rnd).jp c.vec 2 1 8 8 (by norm_num) (by norm_num) (by norm_num) (by subst hcd; rfl)
    rw [hn, hm] at hf
    have : f = Ah := Except.ok.inj (hf.symm.trans eAh)
    subst this
    obtain ⟨D, eD, Dr, Dc, -⟩ := invFourier_spec (f.map val) 8 8 (by rw [Arr2.rows_map, hAh.rows]) (by rw [Arr2.cols_map, hAh.cols]) (by norm_num) (by norm_num)
    have eD' : invFourier (f.map val) (2 * 5 - 2) 8 = .ok D := eD
    refine ⟨D.map fun z => ⟨z.re, z.im⟩, D, ?_, eD', rfl, rfl, fun i j hi hj' => ?_⟩
    · show (invFourier (f.map val) (2 * 5 - 2) 8).bind _ = _
      rw [eD']; rfl
    · rw [Arr2.at'_map _ D hi hj']
      have e : (val (⟨(D.at' i j).re, (D.at' i j).im⟩ : FC rnd)) = D.at' i j := rfl
      rw [e, sub_self, norm_zero]
  have hC : (2 : ℝ) ^ (-900 : ℤ) ≤ 8 := (zpow_le_one_of_nonpos₀ (by norm_num) (by norm_num)).trans (by norm_num)
  have hC' : (8 : ℝ) ≤ 2 ^ (300 : ℤ) := by rw [show (8 : ℝ) = 2 ^ (3 : ℤ) by norm_num]; exact zpow_le_zpow_right₀ (by norm_num) (by norm_num)
  have hcw := ScalarCoefs.wf_iff.mp hw
  obtain ⟨g, D, e1, -, gr, gc, -, -, -, hgS⟩ := FA.ispht_samples h .py c hcw 2 1 hn hm (hj.ok _ (by norm_num)) (by norm_num) _ hrd 8 hC hC' hbd 5 8
    (by rw [hn]; norm_num) (by rw [hm]; norm_num) (by norm_num) post 0 _ rfl (by norm_num) hpost
  have hfft : ∀ D, Fl.ispht rnd (FA.goodLib rnd).jp post .py c (some 5) (some 8) = .ok ⟨.arr D⟩ → Fft2Within (FA.goodLib rnd).fft 0 D ∧
      ∀ g, Fl.sphtPre rnd (FA.goodLib rnd) D = .ok g → ∀ m : ℤ, |m| ≤ ((1 : ℕ) : ℤ) → ConvWithin (FA.goodLib rnd).conv (2 ^ (-45 : ℤ) * 72) g (2 : ℕ) m := by
    intro D' hD'
    rw [e1] at hD'
    cases hD'
    refine ⟨FA.goodLib_fft g (by omega) (by omega), FA.goodLib_conv h g (by omega) (by omega) (by norm_num; omega) 2 1 (by omega) 72 (hC.trans (by norm_num)) ?_ ?_⟩
    · exact (show (72 : ℝ) ≤ 2 ^ (7 : ℤ) by norm_num).trans (zpow_le_zpow_right₀ (by norm_num) (by norm_num))
    · intro i j hi hj'
      exact (hgS i j hi hj').trans (by norm_num)
  have hsq : Real.sqrt (2 * ((5 : ℤ) : ℝ) - 1) = 3 := by
    rw [show 2 * ((5 : ℤ) : ℝ) - 1 = 3 ^ 2 by norm_num]
    exact Real.sqrt_sq (by norm_num)
  obtain ⟨p, ch, f1, f2, -, -, -, f3⟩ := c95_round_trip h (FA.goodLib rnd) FA.goodLib_sum .py .py c hcw 2 1 hn hm (hj.ok _ (by norm_num)) (hj.ok _ (by norm_num)) (by norm_num) _ hrd 8 hC hC' hbd 5 8
    (by rw [hn]; norm_num) (by rw [hm]; norm_num) (by norm_num) (by norm_num) post 0 0 (2 ^ (-45 : ℤ) * 72) _ rfl (by norm_num) (by norm_num) (by norm_num) hpost hfft
  rw [hn, hm] at f2 f3
  refine ⟨rnd, FA.goodLib rnd, c, fun n m => (readMap c n m).getD 0, post, p, ch, h, hcw, by subst hcd; rfl, f1, f2, fun n m hmo => ?_⟩
  obtain ⟨z, g1, g2⟩ := f3 n m hmo
  refine ⟨z, g1, g2.trans ?_⟩
  rw [hsq]
  obtain ⟨h0, h1, -, -⟩ := hmo
  have hs : ∀ x : ℝ, x ≤ 2 → Real.sqrt ((2 * x + 1) / (4 * Real.pi)) ≤ 1 := by
    intro x hx
    apply Real.sqrt_le_iff.mpr
    refine ⟨by norm_num, ?_⟩
    rw [div_le_iff₀ (by positivity)]
    have := Real.pi_gt_three
    linarith
  have n0 : (0 : ℝ) ≤ n := by exact_mod_cast h0
  have n1 : (n : ℝ) ≤ 2 := by exact_mod_cast h1
  have s1 := hs n n1
  have s2 := hs ((2 : ℕ) : ℝ) (by norm_num)
  calc _ ≤ 1 * ((2 + 1) * ((2 : ℝ) + 4) ^ 3 * 2 ^ (-43 : ℤ) * ((((2 : ℕ) : ℝ) + 1) ^ 2 * 8) +
            (2 * 2 + 1) * (2 ^ (-45 : ℤ) * 72 + 20 * 3 * (0 + 2 ^ (-49 : ℤ) * ((((2 : ℕ) : ℝ) + 1) ^ 2 * 8)) + 20 * (0 + (2 * ((2 : ℕ) : ℝ) + 1) * (2 * ((1 : ℕ) : ℝ) + 1) * ((((2 : ℕ) : ℝ) + 1) * (((2 : ℕ) : ℝ) + 4) ^ 3 * 2 ^ (-49 : ℤ) * 8 * 1)))) := by
        gcongr
    _ ≤ 2 ^ (-24 : ℤ) := by norm_num

end Verif.Props
