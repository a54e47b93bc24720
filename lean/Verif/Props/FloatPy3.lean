import Verif.Props.FloatPy2
import Verif.Props.FloatKiss17
/-!
# C104: `spht` and `vspht` in doubles with the Python routines
-/
namespace Verif.Props
open Verif Finset

variable {rnd : ℝ → ℝ}

/-- The error of the Python convolution: `r` rows of doubled samples, one-dimensional FFTs within `κ`, a column of energy at most `S²`. -/
noncomputable def pconvErr (r : ℕ) (κ S : ℝ) : ℝ := 213 * Nat.log 2 (4 * r) * Real.sqrt ((r : ℝ) + 1) * κ * S

/-- NumPy's one-dimensional FFTs are within `κ` for every length `pysphi` can use on `r` rows of doubled samples: `smallest_prime_factor` returns
only numbers whose prime factors are 2, 3, 5 and 7. -/
def FftsWithin (np : Fl.Fft1 rnd) (κ : ℝ) (r : ℕ) : Prop := ∀ Q : ℕ, Q ≤ 4 * r → (∀ t : ℕ, t.Prime → t ∣ Q → t ≤ 7) → Fft1Within np κ Q

namespace FP
open FK

theorem spf_len (S : ℕ) (hS : 2 ≤ S) : ∃ Q : ℕ, smallestPrimeFactor S = some (Q : Int) ∧ S ≤ Q ∧ Q < 2 * S ∧ ∀ t : ℕ, t.Prime → t ∣ Q → t ≤ 7 := by
  obtain ⟨Q, h1, h2, h3, h4⟩ := spf_loopEq.least (by simp) S (by omega)
  refine ⟨Q, by unfold smallestPrimeFactor; exact h1, h2, ?_, fun t ht hd => ?_⟩
  · by_contra hc
    have hlt := Nat.lt_pow_succ_log_self (b := 2) (by norm_num) (S - 1)
    have hle := Nat.pow_log_le_self 2 (x := S - 1) (by omega)
    rw [pow_succ] at hlt
    exact h4 (2 ^ (Nat.log 2 (S - 1) + 1)) (by rw [pow_succ]; omega) (by rw [pow_succ]; omega) (smooth_pow_two (by simp) _)
  · have := h3 t ht hd
    simp at this
    omega

theorem conv_within (hrd : NoOverflow rnd) {np : Fl.Fft1 rnd} {κ : ℝ} (hκ : 175 * uu ≤ κ) (hκ' : κ ≤ 1 / 100) (r N : ℕ) (hr : r % 2 = 0) (hr0 : 0 < r) (hsz : r ≤ 2 ^ 28) (hNr : N < r / 2)
    (hnp : FftsWithin np κ r) : ∃ Q : ℕ, Q ≤ 4 * r ∧ r ≤ Q ∧ ∀ (G : Arr2 (FC rnd)), G.rows = r + 2 → ∀ m : ℤ, -(G.cols : ℤ) ≤ m → m < G.cols → fAt (G.map FS.val) m (G.rows / 2) = 0 →
      ∀ X : ℝ, 2 ^ (-800 : ℤ) ≤ X → X ≤ 2 ^ (800 : ℤ) → ∑ i ∈ range (r + 2), ‖FS.val (G.at' i (m % G.cols).toNat)‖ + Q * 2 ^ (-900 : ℤ) ≤ X →
      ConvWithin (Fl.pyConv rnd np) (40 * (3 * (1 + Real.log Q) * X * κ)) G N m := by
  obtain ⟨Q, eQ, hge, hlt, hs7⟩ := spf_len (r + 2 + N) (by omega)
  have hQ4 : Q ≤ 4 * r := by omega
  refine ⟨Q, hQ4, by omega, fun G hG m hm1 hm2 hny X hX hX' hA => ?_⟩
  obtain ⟨s, t, hk, et, tl, kt⟩ := sdata_err hrd.toIsRounding (r + 2) N Q (by omega) (by omega) hge (by omega)
  have l0 : 0 ≤ Real.log Q := Real.log_natCast_nonneg Q
  have l1 : Real.log Q ≤ 30 := by
    have : (Q : ℝ) ≤ 2 ^ 30 := by exact_mod_cast (show Q ≤ 2 ^ 30 by omega)
    have h1 := Real.log_le_log (by exact_mod_cast (show 0 < Q by omega)) this
    rw [Real.log_pow] at h1
    have := Real.log_two_lt_d9
    push_cast at h1
    linarith
  have hsum : ∑ i ∈ range Q, ‖rd s i‖ ≤ 3 * (1 + Real.log Q) := by
    refine (sum_le_sum fun i _ => ?_).trans (kb_sum ((r + 2) / 2) Q (by omega) (by omega))
    have := (kt.2 i).1
    have e : ‖rd s i‖ = |(rd s i).im| := by
      rw [← Complex.re_add_im (rd s i), this]
      simp
    rw [e]
    exact (kt.2 i).2.2.2.1
  obtain ⟨hh, e, hl, hv⟩ := hkm_err hrd (np := np) G N Q m s t (by omega) (by omega) (by omega) (by omega) (by rw [hG]; exact hk) tl (by rw [hG]; exact kt) (σ := 3 * (1 + Real.log Q)) (κ := κ) (X := X)
    (by linarith) (by linarith) hsum hκ hκ' (hnp Q hQ4 hs7) hm1 hm2 hny hX hX' (by rw [hG]; exact hA)
  obtain ⟨h', e', l', v'⟩ := FA.conv_exact (G.map FS.val) N m (by show G.rows % 2 = 0; omega) (by show 0 < G.rows; omega) hm1 hm2 hny
  refine ⟨hh, h', ?_, e', by rw [hl, l'], fun i hi => ?_⟩
  · unfold Fl.pyConv
    have eQ' : smallestPrimeFactor ((G.rows : ℤ) + N) = some (Q : ℤ) := by rw [hG]; exact_mod_cast eQ
    rw [eQ']
    simp only [orDiverge, Except.bind_ok]
    rw [hG, et]
    simp only [Except.bind_ok]
    exact e
  · obtain ⟨a, b⟩ := hv i (by omega)
    rw [v' i (by omega)]
    exact ⟨a, b⟩

theorem pCol (hrd : NoOverflow rnd) {np : Fl.Fft1 rnd} {κ : ℝ} (hκ : 175 * uu ≤ κ) (hκ' : κ ≤ 1 / 100) (r N : ℕ) (hr : r % 2 = 0) (hr0 : 0 < r) (hsz : r ≤ 2 ^ 28) (hNr : N < r / 2)
    (hnp : FftsWithin np κ r) : ColWithin (Fl.pyConv rnd np) (pconvErr r κ) r N := by
  obtain ⟨Q, hQ4, hQr, hcw⟩ := conv_within hrd hκ hκ' r N hr hr0 hsz hNr hnp
  intro K G G' g1 g2 hK g1' g2' ε S hS hS' m hm1 hm2 he hny hl2 hε
  have S0 : 0 < S := lt_of_lt_of_le (by positivity) hS
  have κ0 : 0 < κ := by linarith [uu_pos]
  obtain ⟨q, hq⟩ : ∃ q, q = Real.sqrt ((r : ℝ) + 1) := ⟨_, rfl⟩
  have r1 : (1 : ℝ) ≤ r := by exact_mod_cast hr0
  have q1 : 1 ≤ q := by rw [hq, Real.one_le_sqrt]; linarith
  have q2 : q ≤ 2 ^ 15 := by
    rw [hq, Real.sqrt_le_left (by norm_num)]
    have : (r : ℝ) ≤ 2 ^ 28 := by exact_mod_cast hsz
    linarith
  have cs := col_sum r K hr G G' g1 g2 hK g1' g2' S0.le m he hny hl2
  rw [← hq] at cs hε
  have hqS : 0 < q * S := by positivity
  have f1 : (Q : ℝ) * 2 ^ (-900 : ℤ) ≤ 1 / 100 * (q * S) := by
    have a1 : (Q : ℝ) ≤ 2 ^ (30 : ℤ) := by exact_mod_cast (show Q ≤ 2 ^ 30 by omega)
    calc (Q : ℝ) * 2 ^ (-900 : ℤ) ≤ 2 ^ (30 : ℤ) * 2 ^ (-900 : ℤ) := mul_le_mul_of_nonneg_right a1 (by positivity)
      _ = 2 ^ (-870 : ℤ) := by rw [← zpow_add₀ (by norm_num)]; norm_num
      _ ≤ 2 ^ (-7 : ℤ) * 2 ^ (-700 : ℤ) := by rw [← zpow_add₀ (by norm_num)]; exact zpow_le_zpow_right₀ (by norm_num) (by norm_num)
      _ ≤ 2 ^ (-7 : ℤ) * S := mul_le_mul_of_nonneg_left hS (by positivity)
      _ ≤ 1 / 100 * S := mul_le_mul_of_nonneg_right (by norm_num) S0.le
      _ ≤ 1 / 100 * (q * S) := by
        have : S ≤ q * S := le_mul_of_one_le_left S0.le q1
        clear hS hS'
        linarith
  have f2 : q * (S + q * ε) ≤ q * (1.39 * S) := mul_le_mul_of_nonneg_left (by clear hS hS' f1; linarith) (by linarith)
  have f3 : q * S ≤ 2 ^ (15 : ℤ) * 2 ^ (700 : ℤ) := mul_le_mul (by exact_mod_cast q2) hS' S0.le (by positivity)
  have hny' : fAt (G.map FS.val) m (G.rows / 2) = 0 := by
    unfold fAt
    rw [show (G.map FS.val).rows = r + 2 from g1, show (G.map FS.val).cols = K from g2, Arr2.at'_map _ _ (by rw [g1]; exact slot_lt' (by omega) _) (by rw [g2]; exact slot_lt' hK _), g1]
    convert hny using 3
    rw [Int.emod_eq_of_lt (by omega) (by omega)]
    omega
  obtain ⟨hh, h', e1, e2, e3, e4⟩ := hcw G g1 m (by omega) (by omega) hny' (1.4 * (q * S))
    (by
      refine (zpow_le_zpow_right₀ (by norm_num) (show (-800 : ℤ) ≤ -700 by norm_num)).trans (hS.trans ?_)
      have : S ≤ q * S := le_mul_of_one_le_left S0.le q1
      clear hS hS' f1 f3
      linarith)
    (by
      rw [← zpow_add₀ (by norm_num)] at f3
      refine le_trans (by clear f1 hS hS' f3; linarith : 1.4 * (q * S) ≤ 4 * (q * S)) ?_
      exact (four_le f3 (j := 717) (by norm_num)).trans (zpow_le_zpow_right₀ (by norm_num) (by norm_num)))
    (by
      rw [g2]
      refine (add_le_add (cs.trans f2) f1).trans ?_
      clear f1 hS hS' f3
      linarith)
  refine ⟨hh, h', e1, e2, e3, fun i hi => ⟨(e4 i hi).1, (e4 i hi).2.trans ?_⟩⟩
  clear hS hS' f1 f3
  obtain ⟨L, hL⟩ : ∃ L : ℕ, L = Nat.log 2 (4 * r) := ⟨_, rfl⟩
  have hL3 : 3 ≤ L := by
    rw [hL]
    exact Nat.le_log_of_pow_le (by norm_num) (by omega)
  have hlog : Real.log Q ≤ ((L : ℝ) + 1) * 0.6932 := by
    have a1 : Q ≤ 2 ^ (L + 1) := by
      have := Nat.lt_pow_succ_log_self (b := 2) (by norm_num) (4 * r)
      rw [← hL] at this
      omega
    have a2 : (Q : ℝ) ≤ 2 ^ (L + 1) := by exact_mod_cast a1
    have a3 := Real.log_le_log (by exact_mod_cast (show 0 < Q by omega)) a2
    rw [Real.log_pow] at a3
    have a4 := Real.log_two_lt_d9
    push_cast at a3
    refine a3.trans (mul_le_mul_of_nonneg_left (by linarith) (by positivity))
  have l3 : (3 : ℝ) ≤ L := by exact_mod_cast hL3
  have l0 : 0 ≤ Real.log Q := Real.log_natCast_nonneg Q
  have b1 : 3 * (1 + Real.log Q) ≤ 3.8 * L := by linarith
  unfold pconvErr
  rw [← hL, ← hq]
  have b2 : 3 * (1 + Real.log Q) * (1.4 * (q * S)) * κ ≤ 3.8 * L * (1.4 * (q * S)) * κ := by gcongr
  have b4 : 0 ≤ (L : ℝ) * q * κ * S := by positivity
  calc 40 * (3 * (1 + Real.log Q) * (1.4 * (q * S)) * κ) ≤ 40 * (3.8 * L * (1.4 * (q * S)) * κ) := mul_le_mul_of_nonneg_left b2 (by norm_num)
    _ = 212.8 * ((L : ℝ) * q * κ * S) := by ring
    _ ≤ 213 * ((L : ℝ) * q * κ * S) := mul_le_mul_of_nonneg_right (by norm_num) b4
    _ = 213 * L * q * κ * S := by ring

theorem kappa {r : ℕ} {κ : ℝ} (hr : 2 ≤ r) (hκ : 175 * uu ≤ κ) (h : 213 * Nat.log 2 (4 * r) * Real.sqrt ((r : ℝ) + 1) * κ ≤ 1) : κ ≤ 1 / 100 := by
  have κ0 : 0 < κ := by linarith [uu_pos]
  have l3 := log_ge hr
  have q1 : 1 ≤ Real.sqrt ((r : ℝ) + 1) := by
    rw [Real.one_le_sqrt]
    have : (0 : ℝ) ≤ r := by positivity
    linarith
  have h1 : 213 * 3 * 1 * κ ≤ 213 * Nat.log 2 (4 * r) * Real.sqrt ((r : ℝ) + 1) * κ := by gcongr
  linarith

theorem pconvErr_le {r : ℕ} {κ S : ℝ} (hS : 0 ≤ S) (h : 213 * Nat.log 2 (4 * r) * Real.sqrt ((r : ℝ) + 1) * κ ≤ 1) : pconvErr r κ S ≤ S := by
  unfold pconvErr
  calc _ ≤ 1 * S := mul_le_mul_of_nonneg_right h hS
    _ = S := one_mul S

end FP

/-- C104: `spht` in double precision with the Python routines.  Assumed of NumPy: `np.fft.fft2` within `δ` on the doubled samples `D`, `np.fft.fft`
and `np.fft.ifft` within `κ` for the lengths used, `np.sum` adds in some order, and CPython's `1j ** m` is accurate for `|m| ≤ M` (`PowNear`, see C105).  Then `spht(p, N, M)`
succeeds, and every coefficient is within the stated bound of the coefficient `spht` returns in exact arithmetic on the same samples. -/
theorem c104_spht (hrd : NoOverflow rnd) (lib : Fl.NumLib rnd) (np : Fl.Fft1 rnd) (hsum : SumOK lib.sum)
    (D : Arr2 (FC rnd)) (hR : D.rows % 2 = 0) (hR0 : 0 < D.rows) (hsz : D.rows ≤ 2 ^ 28) (hK : D.cols % 2 = 0) (N M : ℕ) (hj : PowNear M lib.jp) (hN : N ≤ 1000) (hMN : M ≤ N)
    (hNr : N < D.rows / 2) (hMc : 2 * M < D.cols) (C : ℝ) (hC : 2 ^ (-700 : ℤ) ≤ C) (hC' : C ≤ 2 ^ (400 : ℤ))
    (hD : ∀ i j, i < D.rows → j < D.cols → ‖FS.val (D.at' i j)‖ ≤ C) (δ κ : ℝ) (hδ : Real.sqrt ((D.rows : ℝ) + 1) * δ ≤ C / 4) (hfft : Fft2Within lib.fft δ D)
    (hκ : 2 ^ (-45 : ℤ) ≤ κ) (hκ' : 213 * Nat.log 2 (4 * D.rows) * Real.sqrt ((D.rows : ℝ) + 1) * κ ≤ 1) (hnp : FftsWithin np κ D.rows) :
    ∃ c ch, spht .py ⟨.arr (D.map FS.val)⟩ (some N) (some M) = .ok c ∧ Fl.spht rnd (Fl.pyLib rnd lib np) .py ⟨.arr D⟩ (some N) (some M) = .ok ch ∧
      ch.WellFormed ∧ ch.nmax = N ∧ ch.mmax = M ∧ ∀ n m : ℤ, IsMode N M n m → ∃ w z, readMap c n m = some w ∧ readMap ch n m = some z ∧
        ‖FS.val z - w‖ ≤ Real.sqrt ((2 * n + 1) / (4 * Real.pi)) * ((n + 1) * ((n : ℝ) + 4) ^ 3 * 2 ^ (-43 : ℤ) * C +
          (2 * n + 1) * (pconvErr D.rows κ C + 20 * Real.sqrt ((D.rows : ℝ) + 1) * (δ + 2 ^ (-49 : ℤ) * C))) := by
  have hC9 : 2 ^ (-900 : ℤ) ≤ C := (zpow_le_zpow_right₀ (by norm_num) (by norm_num)).trans hC
  have C0 : 0 < C := lt_of_lt_of_le (by positivity) hC
  have hκu : 175 * uu ≤ κ := le_trans (by unfold uu; norm_num) hκ
  have hk1 := FP.kappa (by omega) hκu hκ'
  have hconv := FK.sconv_of hrd lib D hR hR0 hsz N M hNr hMc C hC hC' hD δ hδ hfft (FP.pCol hrd hκu hk1 D.rows N hR hR0 hsz hNr hnp)
  exact c94_spht hrd (Fl.pyLib rnd lib np) hsum .py D hR hR0 (by omega) hK N M (fun _ => hj) hN hMN hNr hMc C hC9 hC' hD δ (pconvErr D.rows κ C) hδ (FP.pconvErr_le C0.le hκ') hfft hconv

/-- C104: `vspht` in double precision with the Python routines, under the same assumptions. -/
theorem c104_vspht (hrd : NoOverflow rnd) (lib : Fl.NumLib rnd) (np : Fl.Fft1 rnd) (hsum : SumOK lib.sum)
    (T P : Arr2 (FC rnd)) (hr : P.rows = T.rows) (hc : P.cols = T.cols) (hR : T.rows % 2 = 0) (hR0 : 0 < T.rows) (hsz : T.rows ≤ 2 ^ 28) (hK : T.cols % 2 = 0)
    (N M : ℕ) (hj : PowNear M lib.jp) (hN : N ≤ 1000) (hMN : M ≤ N) (hNr : N < T.rows / 2) (hMc : 2 * M < T.cols) (C : ℝ) (hC : 2 ^ (-700 : ℤ) ≤ C) (hC' : C ≤ 2 ^ (400 : ℤ))
    (hT : ∀ i j, i < T.rows → j < T.cols → ‖FS.val (T.at' i j)‖ ≤ C) (hP : ∀ i j, i < T.rows → j < T.cols → ‖FS.val (P.at' i j)‖ ≤ C)
    (δ κ : ℝ) (hδ : Real.sqrt ((T.rows : ℝ) + 1) * δ ≤ C / 400) (hfT : Fft2Within lib.fft δ T) (hfP : Fft2Within lib.fft δ P)
    (hκ : 2 ^ (-45 : ℤ) ≤ κ) (hκ' : 213 * Nat.log 2 (4 * T.rows) * Real.sqrt ((T.rows : ℝ) + 1) * κ ≤ 1) (hnp : FftsWithin np κ T.rows) :
    ∃ c ch, vspht .py ⟨T.map FS.val, P.map FS.val⟩ (some N) (some M) = .ok c ∧ Fl.vspht rnd (Fl.pyLib rnd lib np) .py ⟨T, P⟩ (some N) (some M) = .ok ch ∧
      ch.WellFormed ∧ ch.nmax = N ∧ ch.mmax = M ∧ ∀ n m : ℤ, IsMode N M n m → n ≠ 0 → ∃ w z, readMapV c n m = some w ∧ readMapV ch n m = some z ∧
        ‖FS.val z.1 - w.1‖ ≤ vsphtErr T.rows M C δ (pconvErr T.rows κ (((T.rows : ℝ) / 2 + M + 3) * C)) n ∧
        ‖FS.val z.2 - w.2‖ ≤ vsphtErr T.rows M C δ (pconvErr T.rows κ (((T.rows : ℝ) / 2 + M + 3) * C)) n := by
  have hC9 : 2 ^ (-900 : ℤ) ≤ C := (zpow_le_zpow_right₀ (by norm_num) (by norm_num)).trans hC
  have C0 : 0 < C := lt_of_lt_of_le (by positivity) hC
  have hκu : 175 * uu ≤ κ := le_trans (by unfold uu; norm_num) hκ
  have hk1 := FP.kappa (by omega) hκu hκ'
  have W0 : 0 ≤ ((T.rows : ℝ) / 2 + M + 3) * C := by positivity
  have hconv := FK.vconv_of hrd (Fl.pyLib rnd lib np) T P hr hc hR hR0 hsz hK N M (hMN.trans hN) hNr hMc C hC hC' hT hP δ hδ hfT hfP (FP.pCol hrd hκu hk1 T.rows N hR hR0 hsz hNr hnp)
  exact c97_vspht hrd (Fl.pyLib rnd lib np) hsum .py T P hr hc hR hR0 (by omega) hK N M (fun _ => hj) hN hMN hNr hMc C hC9 hC' hT hP δ _ hδ (FP.pconvErr_le W0 hκ') hfT hfP hconv

/-- C104: `ispht` followed by `spht` in doubles, the analysis by the Python routines. -/
theorem c104_round_trip (hrd : NoOverflow rnd) (lib : Fl.NumLib rnd) (np : Fl.Fft1 rnd) (hsum : SumOK lib.sum) (b : Backend)
    (c : ScalarCoefs (FC rnd)) (hc : c.WellFormed) (N M : ℕ) (hn : c.nmax = N) (hm : c.mmax = M) (hj : PowNear M lib.jp) (hN : N ≤ 1000) (w : ℤ → ℤ → FC rnd)
    (hw : ∀ n m, IsMode c.nmax c.mmax n m → readMap c n m = some (w n m)) (C : ℝ) (hC : 2 ^ (-700 : ℤ) ≤ C) (hC' : C ≤ 2 ^ (300 : ℤ))
    (hwC : ∀ n m, IsMode c.nmax c.mmax n m → |(w n m).re| ≤ C ∧ |(w n m).im| ≤ C) (nr nc : ℤ) (h1 : c.nmax + 2 ≤ nr) (h2 : 2 * c.mmax + 2 ≤ nc) (h3 : nc % 2 = 0) (hsz : nr ≤ 2 ^ 27)
    (post : Arr2 (FC rnd) → Int → Int → Res (Arr2 (FC rnd))) (δ₀ δ₁ κ ε : ℝ)
    (hε : ε = δ₀ + (2 * N + 1) * (2 * M + 1) * ((N + 1) * ((N : ℝ) + 4) ^ 3 * 2 ^ (-49 : ℤ) * C * Real.sqrt ((2 * N + 1) / (4 * Real.pi))))
    (hδ₀ : δ₀ ≤ (N + 1) ^ 2 * C / 4) (hδ₁ : Real.sqrt (2 * (nr : ℝ) - 1) * δ₁ ≤ (N + 1) ^ 2 * C / 4)
    (hpost : ∀ f, Fl.backendScToFc rnd lib.jp b 0 c.vec c.nmax c.mmax (2 * nr - 2) nc = .ok f → FftWithin post δ₀ f (2 * nr - 2) nc)
    (hfft : ∀ D, Fl.ispht rnd lib.jp post b c (some nr) (some nc) = .ok ⟨.arr D⟩ → Fft2Within lib.fft δ₁ D)
    (hκ : 2 ^ (-45 : ℤ) ≤ κ) (hκ' : 213 * Nat.log 2 (4 * (2 * nr - 2).toNat) * Real.sqrt (2 * (nr : ℝ) - 1) * κ ≤ 1) (hnp : FftsWithin np κ (2 * nr - 2).toNat) :
    ∃ p ch, Fl.ispht rnd lib.jp post b c (some nr) (some nc) = .ok p ∧ Fl.spht rnd (Fl.pyLib rnd lib np) .py p (some c.nmax) (some c.mmax) = .ok ch ∧
      ch.WellFormed ∧ ch.nmax = c.nmax ∧ ch.mmax = c.mmax ∧ ∀ n m : ℤ, IsMode c.nmax c.mmax n m → ∃ z, readMap ch n m = some z ∧
        ‖FS.val z - FS.val (w n m)‖ ≤ Real.sqrt ((2 * n + 1) / (4 * Real.pi)) *
          ((n + 1) * ((n : ℝ) + 4) ^ 3 * 2 ^ (-43 : ℤ) * ((N + 1) ^ 2 * C) +
            (2 * n + 1) * (pconvErr (2 * nr - 2).toNat κ ((N + 1) ^ 2 * C) + 20 * Real.sqrt (2 * (nr : ℝ) - 1) * (δ₁ + 2 ^ (-49 : ℤ) * ((N + 1) ^ 2 * C)) + 20 * ε)) := by
  have hC9 : 2 ^ (-900 : ℤ) ≤ C := (zpow_le_zpow_right₀ (by norm_num) (by norm_num)).trans hC
  have C0 : 0 ≤ C := le_trans (by positivity) hC
  have hm0 := hc.wf.m0
  have hmn := hc.wf.mn
  have hjb : PowOK b M lib.jp := fun _ => hj
  obtain ⟨g, D, e1, -, gr, gc, -, -, -, hgS⟩ := FA.ispht_samples hrd b c hc N M hn hm hjb hN w hw C hC9 hC' hwC nr nc h1 h2 h3 post δ₀ ε hε hδ₀ hpost
  have hsz' : nr ≤ 134217728 := by norm_num at hsz; exact hsz
  obtain ⟨S, hS⟩ : ∃ S, S = ((N : ℝ) + 1) ^ 2 * C := ⟨_, rfl⟩
  have S1 : C ≤ S := by
    have : (1 : ℝ) ≤ ((N : ℝ) + 1) ^ 2 := one_le_pow₀ (by have : (0 : ℝ) ≤ N := by positivity
                                                          linarith)
    rw [hS]
    exact le_mul_of_one_le_left C0 this
  have hS2 : S ≤ 2 ^ (400 : ℤ) := by
    have n1 : (N : ℝ) ≤ 1000 := by exact_mod_cast hN
    calc S ≤ (1000 + 1) ^ 2 * 2 ^ (300 : ℤ) := by rw [hS]; gcongr
      _ ≤ 2 ^ (100 : ℤ) * 2 ^ (300 : ℤ) := mul_le_mul_of_nonneg_right (by norm_num) (by positivity)
      _ = 2 ^ (400 : ℤ) := by rw [← zpow_add₀ (by norm_num)]; norm_num
  have hq : (g.rows : ℝ) + 1 = 2 * (nr : ℝ) - 1 := by
    have : ((g.rows : ℤ) : ℝ) = ((2 * nr - 2 : ℤ) : ℝ) := by rw [gr]
    push_cast at this
    linarith
  have hgr : (2 * nr - 2).toNat = g.rows := by omega
  rw [hgr] at hκ' hnp ⊢
  have hκ2 : 213 * Nat.log 2 (4 * g.rows) * Real.sqrt ((g.rows : ℝ) + 1) * κ ≤ 1 := by rw [hq]; exact hκ'
  have hκu : 175 * uu ≤ κ := le_trans (by unfold uu; norm_num) hκ
  have hk1 := FP.kappa (by omega) hκu hκ2
  have hcv := FK.sconv_of hrd lib g (by omega) (by omega) (by norm_num; omega) N M (by omega) (by omega) S (hC.trans S1) hS2 (by rw [hS]; exact hgS) δ₁
    (by rw [hq, hS]; exact hδ₁) (hfft g e1) (FP.pCol hrd hκu hk1 g.rows N (by omega) (by omega) (by norm_num; omega) (by omega) hnp)
  have := c95_round_trip hrd (Fl.pyLib rnd lib np) hsum b .py c hc N M hn hm hjb (fun _ => hj) hN w hw C hC9 hC' hwC nr nc h1 h2 h3
    (by norm_num; omega) post δ₀ δ₁ (pconvErr g.rows κ S) ε hε hδ₀ hδ₁ (by rw [← hS]; exact FP.pconvErr_le (C0.trans S1) hκ2) hpost
    (fun D hD => by
      have hD' : Fl.ispht rnd lib.jp post b c (some nr) (some nc) = .ok ⟨.arr D⟩ := hD
      rw [e1] at hD'
      cases hD'
      exact ⟨hfft g e1, hcv⟩)
  rw [← hS] at this ⊢
  exact this

/-- C104: `vispht` followed by `vspht` in doubles, the analysis by the Python routines. -/
theorem c104_vround_trip (hrd : NoOverflow rnd) (lib : Fl.NumLib rnd) (np : Fl.Fft1 rnd) (hsum : SumOK lib.sum) (b : Backend) (c : VectorCoefs (FC rnd)) (hc : c.WellFormed)
    (N M : ℕ) (hn : c.nmax = N) (hm : c.mmax = M) (hj : PowNear M lib.jp) (hN : N ≤ 1000) (v w : ℤ → ℤ → FC rnd)
    (hvw : ∀ n m, IsMode c.nmax c.mmax n m → n ≠ 0 → readMapV c n m = some (v n m, w n m)) (C : ℝ) (hC : 2 ^ (-700 : ℤ) ≤ C) (hC' : C ≤ 2 ^ (300 : ℤ))
    (hvC : ∀ n m, IsMode c.nmax c.mmax n m → n ≠ 0 → |(v n m).re| ≤ C ∧ |(v n m).im| ≤ C) (hwC : ∀ n m, IsMode c.nmax c.mmax n m → n ≠ 0 → |(w n m).re| ≤ C ∧ |(w n m).im| ≤ C)
    (nr nc : ℤ) (h1 : c.nmax + 2 ≤ nr) (h2 : 2 * c.mmax + 2 ≤ nc) (h3 : nc % 2 = 0) (hsz : nr ≤ 2 ^ 27)
    (inv : Arr2 (FC rnd) → Int → Int → Res (Arr2 (FC rnd))) (δ₀ δ₁ κ ε : ℝ)
    (hε : ε = δ₀ + (2 * nr - 1) * (2 * M + 1) * FV.fieldErr N M C) (hε' : ε ≤ (N + 1) ^ 2 * C / 5)
    (hδ₁ : Real.sqrt (2 * (nr : ℝ) - 1) * δ₁ ≤ (N + 1) ^ 2 * C / 400)
    (hinv : ∀ f : Arr2 (FC rnd), (f.rows : ℤ) = 2 * nr - 2 → (f.cols : ℤ) = nc → (∀ i j, i < f.rows → j < f.cols → FS.Fix (f.at' i j) ∧ ‖FS.val (f.at' i j)‖ ≤ FV.fieldMax N M C) →
      FftWithin inv δ₀ f (2 * nr - 2) nc)
    (hfft : ∀ T P, Fl.vispht rnd lib.jp (Fl.visphtPost rnd inv) b c (some nr) (some nc) = .ok ⟨T, P⟩ → Fft2Within lib.fft δ₁ T ∧ Fft2Within lib.fft δ₁ P)
    (hκ : 2 ^ (-45 : ℤ) ≤ κ) (hκ' : 213 * Nat.log 2 (4 * (2 * nr - 2).toNat) * Real.sqrt (2 * (nr : ℝ) - 1) * κ ≤ 1) (hnp : FftsWithin np κ (2 * nr - 2).toNat) :
    ∃ p ch, Fl.vispht rnd lib.jp (Fl.visphtPost rnd inv) b c (some nr) (some nc) = .ok p ∧ Fl.vspht rnd (Fl.pyLib rnd lib np) .py p (some c.nmax) (some c.mmax) = .ok ch ∧
      ch.WellFormed ∧ ch.nmax = c.nmax ∧ ch.mmax = c.mmax ∧ ∀ n m : ℤ, IsMode c.nmax c.mmax n m → n ≠ 0 → ∃ z, readMapV ch n m = some z ∧
        ‖FS.val z.1 - FS.val (v n m)‖ ≤ vroundErr N M nr C δ₁ (pconvErr (2 * nr - 2).toNat κ ((nr + M + 2) * ((N + 1) ^ 2 * C))) ε n ∧
        ‖FS.val z.2 - FS.val (w n m)‖ ≤ vroundErr N M nr C δ₁ (pconvErr (2 * nr - 2).toNat κ ((nr + M + 2) * ((N + 1) ^ 2 * C))) ε n := by
  have hC9 : 2 ^ (-900 : ℤ) ≤ C := (zpow_le_zpow_right₀ (by norm_num) (by norm_num)).trans hC
  have C0 : 0 ≤ C := le_trans (by positivity) hC
  have hMN : M ≤ N := by have := hc.wf1.wf.mn; have := hc.n1; have := hc.m1; omega
  have hjb : PowOK b M lib.jp := fun _ => hj
  obtain ⟨⟨T, P⟩, D, e1, -, g1, g2, g3, g4, -, -, -, -, -, hgS⟩ :=
    FV.vispht_samples hrd b c hc N M hn hm hjb hN v w hvw C hC9 hC' hvC hwC nr nc h1 h2 h3 inv δ₀ ε hε hε' hinv
  simp only at g1 g2 g3 g4 hgS
  have hsz' : nr ≤ 134217728 := by norm_num at hsz; exact hsz
  obtain ⟨S, hS⟩ : ∃ S, S = ((N : ℝ) + 1) ^ 2 * C := ⟨_, rfl⟩
  rw [← hS] at hgS
  have S1 : C ≤ S := by
    have : (1 : ℝ) ≤ ((N : ℝ) + 1) ^ 2 := one_le_pow₀ (by have : (0 : ℝ) ≤ N := by positivity
                                                          linarith)
    rw [hS]
    exact le_mul_of_one_le_left C0 this
  have hS2 : S ≤ 2 ^ (400 : ℤ) := by
    have n1 : (N : ℝ) ≤ 1000 := by exact_mod_cast hN
    calc S ≤ (1000 + 1) ^ 2 * 2 ^ (300 : ℤ) := by rw [hS]; gcongr
      _ ≤ 2 ^ (100 : ℤ) * 2 ^ (300 : ℤ) := mul_le_mul_of_nonneg_right (by norm_num) (by positivity)
      _ = 2 ^ (400 : ℤ) := by rw [← zpow_add₀ (by norm_num)]; norm_num
  have hq0 : (T.rows : ℝ) = 2 * (nr : ℝ) - 2 := by
    have : ((T.rows : ℤ) : ℝ) = ((2 * nr - 2 : ℤ) : ℝ) := by rw [g1]
    push_cast at this
    exact this
  have hq : (T.rows : ℝ) + 1 = 2 * (nr : ℝ) - 1 := by linarith
  have hq2 : (T.rows : ℝ) / 2 + M + 3 = nr + M + 2 := by linarith
  have hgr : (2 * nr - 2).toNat = T.rows := by omega
  obtain ⟨hf1, hf2⟩ := hfft T P e1
  rw [hgr] at hκ' hnp ⊢
  have hκ2 : 213 * Nat.log 2 (4 * T.rows) * Real.sqrt ((T.rows : ℝ) + 1) * κ ≤ 1 := by rw [hq]; exact hκ'
  have hκu : 175 * uu ≤ κ := le_trans (by unfold uu; norm_num) hκ
  have hk1 := FP.kappa (by omega) hκu hκ2
  have hcv := FK.vconv_of hrd (Fl.pyLib rnd lib np) T P g3 g4 (by omega) (by omega) (by norm_num; omega) (by omega) N M (by omega) (by omega) (by omega) S (hC.trans S1) hS2
    (fun i j hi hj' => (hgS i j hi hj').1) (fun i j hi hj' => (hgS i j hi hj').2) δ₁ (by rw [hq, hS]; exact hδ₁) hf1 hf2
    (FP.pCol hrd hκu hk1 T.rows N (by omega) (by omega) (by norm_num; omega) (by omega) hnp)
  rw [hq2] at hcv
  have W0 : 0 ≤ (nr + M + 2) * S := by rw [← hq2]; exact mul_nonneg (by positivity) (C0.trans S1)
  have := c98_round_trip hrd (Fl.pyLib rnd lib np) hsum b .py c hc N M hn hm hjb (fun _ => hj) hN v w hvw C hC9 hC' hvC hwC nr nc h1 h2 h3
    (by norm_num; omega) inv δ₀ δ₁ (pconvErr T.rows κ ((nr + M + 2) * S)) ε hε hε' hδ₁
    (by rw [← hS]; exact FP.pconvErr_le W0 hκ2) hinv
    (fun T' P' hD => by
      have hD' : Fl.vispht rnd lib.jp (Fl.visphtPost rnd inv) b c (some nr) (some nc) = .ok ⟨T', P'⟩ := hD
      rw [e1] at hD'
      cases hD'
      exact ⟨hf1, hf2, fun g hg => hcv g hg⟩)
  rw [hS] at this
  exact this

end Verif.Props
