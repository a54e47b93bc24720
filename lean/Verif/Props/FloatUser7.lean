import Verif.Props.FloatUser6
import Verif.Props.FloatKiss18
/-!
# C107: `vispht`, and `vispht` followed by `vspht`, in doubles over NumPy's one-dimensional FFTs
-/
namespace Verif.Props
open Verif Finset
variable {rnd : ℝ → ℝ}

/-- The error bound of C107 for a sample from `vispht`: `rows` doubled rows, `cols` columns, coefficients of modulus at most `C` in each part, FFT accuracy `κ`. -/
noncomputable def uvisphtErr (rows cols N M : ℕ) (κ C : ℝ) : ℝ :=
  (2 * N + 1) * (M + 1) * (N + 1) * C * Real.sqrt ((2 * N + 1) / (4 * Real.pi)) * ((rows + 1) * (2 * M + 1) * ((N : ℝ) + 4) ^ 3 * 2 ^ (-47 : ℤ) + 24 * rows * cols * κ)

/-- The error bound of C107 for the vector round trip with the Python routines. -/
noncomputable def uvrtErr (rows cols N M : ℕ) (κ C : ℝ) (n : ℤ) : ℝ :=
  1 / Real.sqrt ((n : ℝ) * ((n : ℝ) + 1)) * (Real.sqrt ((2 * n + 1) / (4 * Real.pi)) * (((rows : ℝ) / 2 + M + 3) *
    ((n + 1) * ((n : ℝ) + 4) ^ 3 * 2 ^ (-42 : ℤ) * ((N + 1) ^ 2 * C) + (2 * n + 1) * (234 * Nat.log 2 (4 * rows) * Real.sqrt ((rows : ℝ) + 1) * κ * ((N + 1) ^ 2 * C) + 20 * uvisphtErr rows cols N M κ C))))

/-- The error bound of C107 for the vector round trip whose analysis is done by the compiled extension. -/
noncomputable def ukvrtErr (rows cols N M : ℕ) (κ C : ℝ) (n : ℤ) : ℝ :=
  1 / Real.sqrt ((n : ℝ) * ((n : ℝ) + 1)) * (Real.sqrt ((2 * n + 1) / (4 * Real.pi)) * (((rows : ℝ) / 2 + M + 3) *
    ((n + 1) * ((n : ℝ) + 4) ^ 3 * 2 ^ (-42 : ℤ) * ((N + 1) ^ 2 * C) +
      (2 * n + 1) * (Real.sqrt ((rows : ℝ) + 1) * (60 * κ + 2 ^ (-34 : ℤ) * (Nat.log 2 (4 * rows)) ^ 2) * ((N + 1) ^ 2 * C) + 20 * uvisphtErr rows cols N M κ C))))

namespace FU

/-- `np.fft.ifft2` on what the vector synthesis hands it. -/
theorem vpost (hrd : NoOverflow rnd) (N M : ℕ) (hN : N ≤ 1000) (hMN : M ≤ N) (C : ℝ) (hC : 2 ^ (-690 : ℤ) ≤ C) (hC' : C ≤ 2 ^ (700 : ℤ)) (nr nc : ℤ) (h1 : (N : ℤ) + 2 ≤ nr) (h2 : 2 * (M : ℤ) + 2 ≤ nc)
    (np : Fl.Fft1 rnd) (κ : ℝ) (hκ : 2 ^ (-45 : ℤ) ≤ κ) (hκ' : κ ≤ 1 / 4) (hsz : (2 * nr - 2) * nc < 2 ^ 53) (hp1 : Fft1Within np κ (2 * nr - 2).toNat) (hp2 : Fft1Within np κ nc.toNat)
    (f : Arr2 (FC rnd)) (hr : (f.rows : ℤ) = 2 * nr - 2) (hk : (f.cols : ℤ) = nc) (hf : ∀ i j, i < f.rows → j < f.cols → FS.Fix (f.at' i j) ∧ ‖FS.val (f.at' i j)‖ ≤ FV.fieldMax N M C) :
    FftWithin (Fl.ifft2Scaled rnd np) (3 * κ * ((2 * nr - 2).toNat * nc.toNat * FV.fieldMax N M C)) f (2 * nr - 2) nc := by
  have C0 : 0 < C := lt_of_lt_of_le (by positivity) hC
  have er : (2 * nr - 2).toNat = f.rows := by omega
  have ek : nc.toNat = f.cols := by omega
  rw [er] at hp1 ⊢
  rw [ek] at hp2 ⊢
  have hsz' : f.rows * f.cols < 2 ^ 53 := by
    rw [← hr, ← hk] at hsz
    exact_mod_cast hsz
  have G0 := FS.rowMax_ge N
  have G1 : FS.rowMax N ≤ 16 := rowMax_le hN
  have n1 : (N : ℝ) ≤ 1000 := by exact_mod_cast hN
  have m1 : (M : ℝ) ≤ 1000 := by exact_mod_cast (by omega : M ≤ 1000)
  have n0 : (0 : ℝ) ≤ N := by positivity
  have m0 : (0 : ℝ) ≤ M := by positivity
  have R1 : (1 : ℝ) ≤ f.rows := by exact_mod_cast (by omega : 1 ≤ f.rows)
  have K1 : (1 : ℝ) ≤ f.cols := by exact_mod_cast (by omega : 1 ≤ f.cols)
  have RK : (f.rows : ℝ) * f.cols ≤ 2 ^ (53 : ℤ) := by exact_mod_cast hsz'.le
  refine ifft2_within hrd np f _ _ hr hk (by omega) (by omega) hsz' κ _ hκ hκ' hp1 hp2 ?_ ?_ ?_
  · unfold FV.fieldMax
    calc (2 : ℝ) ^ (-700 : ℤ) ≤ 1 / 4 * 2 ^ (-690 : ℤ) := by
          rw [show (-700 : ℤ) = -10 + -690 by norm_num, zpow_add₀ (by norm_num)]
          exact mul_le_mul_of_nonneg_right (by norm_num) (by positivity)
      _ ≤ 1 / 4 * C := mul_le_mul_of_nonneg_left hC (by norm_num)
      _ ≤ 1 * 1 * (8 * (2 * 0 + 1) * (0 + 1) * (0 + 1) * C * (1 / 4)) := by clear hC hC' hκ RK; linarith
      _ ≤ _ := by gcongr
  · unfold FV.fieldMax
    calc (f.rows : ℝ) * f.cols * (8 * (2 * N + 1) * (M + 1) * (N + 1) * C * FS.rowMax N) ≤ 2 ^ (53 : ℤ) * (8 * (2 * 1000 + 1) * (1000 + 1) * (1000 + 1) * 2 ^ (700 : ℤ) * 16) := by gcongr
      _ = (2 ^ (53 : ℤ) * (8 * (2 * 1000 + 1) * (1000 + 1) * (1000 + 1) * 16)) * 2 ^ (700 : ℤ) := by ring
      _ ≤ 2 ^ (100 : ℤ) * 2 ^ (700 : ℤ) := mul_le_mul_of_nonneg_right (by norm_num) (by positivity)
      _ = 2 ^ (800 : ℤ) := by rw [← zpow_add₀ (by norm_num)]; norm_num
  · calc ∑ i ∈ range f.rows, ∑ j ∈ range f.cols, ‖FS.val (f.at' i j)‖ ≤ ∑ i ∈ range f.rows, ∑ j ∈ range f.cols, FV.fieldMax N M C :=
          sum_le_sum fun i hi => sum_le_sum fun j hj => (hf i j (mem_range.mp hi) (mem_range.mp hj)).2
      _ = _ := by
          rw [sum_const, sum_const, card_range, card_range, nsmul_eq_mul, nsmul_eq_mul]
          ring

theorem castr {nr : ℤ} (h : 1 ≤ nr) : (((2 * nr - 2).toNat : ℕ) : ℝ) = 2 * (nr : ℝ) - 2 := by
  have : (((2 * nr - 2).toNat : ℤ) : ℝ) = ((2 * nr - 2 : ℤ) : ℝ) := by rw [Int.toNat_of_nonneg (by omega)]
  push_cast at this
  exact this

theorem visph_eq {N M : ℕ} {κ C : ℝ} {nr nc : ℤ} (h : 1 ≤ nr) :
    3 * κ * ((2 * nr - 2).toNat * nc.toNat * FV.fieldMax N M C) + (2 * nr - 1) * (2 * M + 1) * FV.fieldErr N M C = uvisphtErr (2 * nr - 2).toNat nc.toNat N M κ C := by
  unfold uvisphtErr FV.fieldMax FV.fieldErr FS.rowMax
  rw [castr h]
  ring

/-- The forward FFTs of what `vispht` returns. -/
theorem vfft (hrd : NoOverflow rnd) {jp : Int → FC rnd} (b : Backend) (c : VectorCoefs (FC rnd)) (hc : c.WellFormed)
    (N M : ℕ) (hn : c.nmax = N) (hm : c.mmax = M) (hj : PowOK b M jp) (hN : N ≤ 1000) (v w : ℤ → ℤ → FC rnd)
    (hvw : ∀ n m, IsMode c.nmax c.mmax n m → n ≠ 0 → readMapV c n m = some (v n m, w n m)) (C : ℝ) (hC : 2 ^ (-690 : ℤ) ≤ C) (hC' : C ≤ 2 ^ (300 : ℤ))
    (hvC : ∀ n m, IsMode c.nmax c.mmax n m → n ≠ 0 → |(v n m).re| ≤ C ∧ |(v n m).im| ≤ C) (hwC : ∀ n m, IsMode c.nmax c.mmax n m → n ≠ 0 → |(w n m).re| ≤ C ∧ |(w n m).im| ≤ C)
    (nr nc : ℤ) (h1 : c.nmax + 2 ≤ nr) (h2 : 2 * c.mmax + 2 ≤ nc) (h3 : nc % 2 = 0)
    (np : Fl.Fft1 rnd) (κ : ℝ) (hκ : 2 ^ (-45 : ℤ) ≤ κ) (hκ' : κ ≤ 1 / 4) (hε : uvisphtErr (2 * nr - 2).toNat nc.toNat N M κ C ≤ (N + 1) ^ 2 * C / 5)
    (hsz : (2 * nr - 2) * nc < 2 ^ 53) (hp1 : Fft1Within np κ (2 * nr - 2).toNat) (hp2 : Fft1Within np κ nc.toNat)
    (T P : Arr2 (FC rnd)) (hD : Fl.vispht rnd jp (Fl.visphtPost rnd (Fl.ifft2Scaled rnd np)) b c (some nr) (some nc) = .ok ⟨T, P⟩) :
    Fft2Within (Fl.fft2Norm rnd np) (3 * κ * (((N : ℝ) + 1) ^ 2 * C)) T ∧ Fft2Within (Fl.fft2Norm rnd np) (3 * κ * (((N : ℝ) + 1) ^ 2 * C)) P := by
  have C0 : 0 < C := lt_of_lt_of_le (by positivity) hC
  have hMN : M ≤ N := by have := hc.wf1.wf.mn; have := hc.n1; have := hc.m1; omega
  obtain ⟨s1, s2⟩ := sizeS hN hC hC'
  obtain ⟨⟨T', P'⟩, D, e1, -, g1, g2, g3, g4, -, -, -, -, -, hgS⟩ :=
    FV.vispht_samples hrd b c hc N M hn hm hj hN v w hvw C ((zpow_le_zpow_right₀ (by norm_num) (by norm_num)).trans hC) hC' hvC hwC nr nc h1 h2 h3 (Fl.ifft2Scaled rnd np) _ _
      (visph_eq (by omega)).symm hε (vpost hrd N M hN hMN C hC (hC'.trans (zpow_le_zpow_right₀ (by norm_num) (by norm_num))) nr nc (by omega) (by omega) np κ hκ hκ' hsz hp1 hp2)
  rw [e1] at hD
  cases hD
  simp only at g1 g2 g3 g4 hgS
  have hr : (2 * nr - 2).toNat = T.rows := by omega
  have hk : nc.toNat = T.cols := by omega
  rw [hr] at hp1
  rw [hk] at hp2
  have hs : T.rows * T.cols < 2 ^ 53 := by
    rw [← g1, ← g2] at hsz
    exact_mod_cast hsz
  have s3 := s2.trans (zpow_le_zpow_right₀ (by norm_num) (by norm_num : (400 : ℤ) ≤ 500))
  have key := fun (G : Arr2 (FC rnd)) (hr : G.rows = T.rows) (hk : G.cols = T.cols) (hG : ∀ i j, i < G.rows → j < G.cols → ‖FS.val (G.at' i j)‖ ≤ ((N : ℝ) + 1) ^ 2 * C) =>
    fft2_within hrd np G (by omega) (by omega) (by rw [hr, hk]; exact hs) κ _ hκ hκ' (by rw [hr]; exact hp1) (by rw [hk]; exact hp2) s1 (s2.trans (zpow_le_zpow_right₀ (by norm_num) (by norm_num))) hG
  exact ⟨key T rfl rfl fun i j hi hj' => (hgS i j hi hj').1, key P g3 g4 fun i j hi hj' => (hgS i j (by omega) (by omega)).2⟩

theorem numV {L q κ S s P X W V w E : ℝ} (hL : 3 ≤ L) (hq : 1 ≤ q) (hκ : 2 ^ (-45 : ℤ) ≤ κ) (hS : 0 ≤ S) (hs : 0 ≤ s) (hX : 0 ≤ X) (hE : 0 ≤ E) (hW : 0 ≤ W) (hV : V ≤ W) (hw : 0 ≤ w) :
    w * (s * (P * (W * S) + X * (213 * L * q * κ * (W * S) + 20 * q * W * (3 * κ * S + 2 ^ (-48 : ℤ) * S)))) + w * (X * s * (20 * (V * E))) ≤ w * (s * (W * (P * S + X * (234 * L * q * κ * S + 20 * E)))) := by
  have κ0 : 0 < κ := lt_of_lt_of_le (by positivity) hκ
  have e1 : (2 : ℝ) ^ (-48 : ℤ) ≤ κ / 8 := by
    rw [le_div_iff₀ (by norm_num)]
    refine le_trans (le_of_eq ?_) hκ
    norm_num
  clear hκ
  have B1 : 20 * q * (3 * κ * S + 2 ^ (-48 : ℤ) * S) ≤ 20 * q * (3 * κ * S + κ / 8 * S) := by gcongr
  have B3 : 3 * (q * κ * S) ≤ L * (q * κ * S) := mul_le_mul_of_nonneg_right hL (by positivity)
  have B0 : 0 ≤ q * κ * S := by positivity
  have B : 213 * L * q * κ * S + 20 * q * (3 * κ * S + 2 ^ (-48 : ℤ) * S) ≤ 234 * L * q * κ * S := by
    generalize (2 : ℝ) ^ (-48 : ℤ) = t at *
    linarith
  have V1 : V * E ≤ W * E := mul_le_mul_of_nonneg_right hV hE
  have A1 : w * (X * s * (20 * (V * E))) ≤ w * (X * s * (20 * (W * E))) := by gcongr
  have A2 : w * (s * (W * (P * S + X * (213 * L * q * κ * S + 20 * q * (3 * κ * S + 2 ^ (-48 : ℤ) * S) + 20 * E)))) ≤ w * (s * (W * (P * S + X * (234 * L * q * κ * S + 20 * E)))) := by gcongr
  refine le_trans ?_ A2
  refine le_trans (add_le_add le_rfl A1) (le_of_eq ?_)
  ring

end FU

/-- C107: `vispht` in doubles with either backend, `np.fft.ifft2` built from NumPy's one-dimensional FFTs: samples of the tangential field up to an explicit error. -/
theorem c107_vispht (hrd : NoOverflow rnd) {jp : Int → FC rnd} (b : Backend) (c : VectorCoefs (FC rnd)) (hc : c.WellFormed)
    (N M : ℕ) (hn : c.nmax = N) (hm : c.mmax = M) (hj : PowOK b M jp) (hN : N ≤ 1000) (v w : ℤ → ℤ → FC rnd)
    (hvw : ∀ n m, IsMode c.nmax c.mmax n m → n ≠ 0 → readMapV c n m = some (v n m, w n m)) (C : ℝ) (hC : 2 ^ (-690 : ℤ) ≤ C) (hC' : C ≤ 2 ^ (700 : ℤ))
    (hvC : ∀ n m, IsMode c.nmax c.mmax n m → n ≠ 0 → |(v n m).re| ≤ C ∧ |(v n m).im| ≤ C) (hwC : ∀ n m, IsMode c.nmax c.mmax n m → n ≠ 0 → |(w n m).re| ≤ C ∧ |(w n m).im| ≤ C)
    (nr nc : ℤ) (h1 : c.nmax + 2 ≤ nr) (h2 : 2 * c.mmax + 2 ≤ nc) (h3 : nc % 2 = 0)
    (np : Fl.Fft1 rnd) (κ : ℝ) (hκ : 2 ^ (-45 : ℤ) ≤ κ) (hκ' : κ ≤ 1 / 4) (hsz : (2 * nr - 2) * nc < 2 ^ 53) (hp1 : Fft1Within np κ (2 * nr - 2).toNat) (hp2 : Fft1Within np κ nc.toNat) :
    ∃ p Eθ Eφ, Fl.vispht rnd jp (Fl.visphtPost rnd (Fl.ifft2Scaled rnd np)) b c (some nr) (some nc) = .ok p ∧
      JacksonField c.nmax c.mmax (fun n m => FS.val (v n m)) (fun n m => FS.val (w n m)) Eθ Eφ ∧
      p.theta.rows = nr ∧ p.theta.cols = nc ∧ p.phi.rows = nr ∧ p.phi.cols = nc ∧ ∀ i j : ℕ, i < p.theta.rows → j < p.theta.cols →
      ‖FS.val (p.theta.at' i j) - Eθ (Real.pi * i / ((nr : ℝ) - 1)) (2 * Real.pi * j / nc)‖ ≤ uvisphtErr (2 * nr - 2).toNat nc.toNat N M κ C ∧
      ‖FS.val (p.phi.at' i j) - Eφ (Real.pi * i / ((nr : ℝ) - 1)) (2 * Real.pi * j / nc)‖ ≤ uvisphtErr (2 * nr - 2).toNat nc.toNat N M κ C := by
  have hMN : M ≤ N := by have := hc.wf1.wf.mn; have := hc.n1; have := hc.m1; omega
  obtain ⟨p, Eθ, Eφ, e1, e2, e3, e4, e5, e6, e7⟩ := c96_vispht hrd b c hc N M hn hm hj hN v w hvw C ((zpow_le_zpow_right₀ (by norm_num) (by norm_num)).trans hC)
    (hC'.trans (zpow_le_zpow_right₀ (by norm_num) (by norm_num))) hvC hwC nr nc h1 h2 h3 (Fl.ifft2Scaled rnd np) _
    (FU.vpost hrd N M hN hMN C hC hC' nr nc (by omega) (by omega) np κ hκ hκ' hsz hp1 hp2)
  refine ⟨p, Eθ, Eφ, e1, e2, e3, e4, e5, e6, fun i j hi hj' => ?_⟩
  obtain ⟨a, b⟩ := e7 i j hi hj'
  rw [← FU.visph_eq (by omega)]
  exact ⟨a, b⟩

/-- C107: `vispht` followed by `vspht` in doubles with the Python routines. -/
theorem c107_vround_trip (hrd : NoOverflow rnd) (lm : Fl.Libm) (hl : LibmOK lm) (np : Fl.Fft1 rnd) (sum : List (FC rnd) → FC rnd) (hsum : SumOK sum) (b : Backend) (c : VectorCoefs (FC rnd)) (hc : c.WellFormed)
    (N M : ℕ) (hn : c.nmax = N) (hm : c.mmax = M) (hN : N ≤ 1000) (v w : ℤ → ℤ → FC rnd)
    (hvw : ∀ n m, IsMode c.nmax c.mmax n m → n ≠ 0 → readMapV c n m = some (v n m, w n m)) (C : ℝ) (hC : 2 ^ (-690 : ℤ) ≤ C) (hC' : C ≤ 2 ^ (300 : ℤ))
    (hvC : ∀ n m, IsMode c.nmax c.mmax n m → n ≠ 0 → |(v n m).re| ≤ C ∧ |(v n m).im| ≤ C) (hwC : ∀ n m, IsMode c.nmax c.mmax n m → n ≠ 0 → |(w n m).re| ≤ C ∧ |(w n m).im| ≤ C)
    (nr nc : ℤ) (h1 : c.nmax + 2 ≤ nr) (h2 : 2 * c.mmax + 2 ≤ nc) (h3 : nc % 2 = 0) (hsz : nr ≤ 2 ^ 27) (hsz2 : (2 * nr - 2) * nc < 2 ^ 53)
    (κ : ℝ) (hκ : 2 ^ (-45 : ℤ) ≤ κ) (hε : uvisphtErr (2 * nr - 2).toNat nc.toNat N M κ C ≤ (N + 1) ^ 2 * C / 5)
    (hκ2 : 400 * Nat.log 2 (4 * (2 * nr - 2).toNat) * Real.sqrt (((2 * nr - 2).toNat : ℝ) + 1) * κ ≤ 1) (hnp : FftOK np κ (2 * nr - 2).toNat nc.toNat) :
    ∃ p ch, Fl.vispht rnd (Fl.pow1j rnd lm) (Fl.visphtPost rnd (Fl.ifft2Scaled rnd np)) b c (some nr) (some nc) = .ok p ∧
      Fl.vspht rnd (Fl.npLib rnd lm np sum) .py p (some c.nmax) (some c.mmax) = .ok ch ∧
      ch.WellFormed ∧ ch.nmax = c.nmax ∧ ch.mmax = c.mmax ∧ ∀ n m : ℤ, IsMode c.nmax c.mmax n m → n ≠ 0 → ∃ z, readMapV ch n m = some z ∧
        ‖FS.val z.1 - FS.val (v n m)‖ ≤ uvrtErr (2 * nr - 2).toNat nc.toNat N M κ C n ∧ ‖FS.val z.2 - FS.val (w n m)‖ ≤ uvrtErr (2 * nr - 2).toNat nc.toNat N M κ C n := by
  have C0 : 0 < C := lt_of_lt_of_le (by positivity) hC
  have κ0 : 0 < κ := lt_of_lt_of_le (by positivity) hκ
  have hMN : M ≤ N := by have := hc.wf1.wf.mn; have := hc.n1; have := hc.m1; omega
  have hj := (pow1j_near hrd lm hl).mono (show M ≤ 1000 by omega)
  have L3 := FU.log3 (r := (2 * nr - 2).toNat) (by omega)
  have q1 := FU.sqrt1 (2 * nr - 2).toNat
  have hq0 := FU.castr (nr := nr) (by omega)
  have hq : (((2 * nr - 2).toNat : ℝ) + 1) = 2 * (nr : ℝ) - 1 := by rw [hq0]; ring
  obtain ⟨S, hS⟩ : ∃ S, S = ((N : ℝ) + 1) ^ 2 * C := ⟨_, rfl⟩
  have S0 : 0 ≤ S := by rw [hS]; positivity
  have qκ : Real.sqrt (((2 * nr - 2).toNat : ℝ) + 1) * κ ≤ 1 / 1200 := by
    have h : 3 * (Real.sqrt (((2 * nr - 2).toNat : ℝ) + 1) * κ) ≤ Nat.log 2 (4 * (2 * nr - 2).toNat) * (Real.sqrt (((2 * nr - 2).toNat : ℝ) + 1) * κ) := mul_le_mul_of_nonneg_right L3 (by positivity)
    clear hC hC' hκ
    linarith
  have κ4 : κ ≤ 1 / 4 := by
    have : κ ≤ Real.sqrt (((2 * nr - 2).toNat : ℝ) + 1) * κ := le_mul_of_one_le_left κ0.le q1
    clear hC hC' hκ
    linarith
  obtain ⟨p, ch, e1, e2, e3, e4, e5, e6⟩ := c104_vround_trip hrd (Fl.npLib rnd lm np sum) np hsum b c hc N M hn hm hj hN v w hvw C ((zpow_le_zpow_right₀ (by norm_num) (by norm_num)).trans hC) hC' hvC hwC nr nc h1 h2 h3 hsz
    (Fl.ifft2Scaled rnd np) _ (3 * κ * (((N : ℝ) + 1) ^ 2 * C)) κ _ (FU.visph_eq (by omega)).symm hε (by
      rw [← hq, ← hS]
      have h'' := mul_le_mul_of_nonneg_right qκ S0
      clear hC hC' hκ
      linarith)
    (FU.vpost hrd N M hN hMN C hC (hC'.trans (zpow_le_zpow_right₀ (by norm_num) (by norm_num))) nr nc (by omega) (by omega) np κ hκ κ4 hsz2 hnp.rows hnp.cols)
    (FU.vfft hrd b c hc N M hn hm (fun _ => hj) hN v w hvw C hC hC' hvC hwC nr nc h1 h2 h3 np κ hκ κ4 hε hsz2 hnp.rows hnp.cols) hκ (by
      rw [← hq]
      refine le_trans ?_ hκ2
      gcongr
      norm_num) hnp.smooth
  refine ⟨p, ch, e1, e2, e3, e4, e5, fun n m hnm hn0 => ?_⟩
  obtain ⟨z, k1, k2, k3⟩ := e6 n m hnm hn0
  have n0 : (0 : ℝ) ≤ n := by exact_mod_cast hnm.1
  have E0 : 0 ≤ uvisphtErr (2 * nr - 2).toNat nc.toNat N M κ C := by unfold uvisphtErr; positivity
  have fin : vroundErr N M nr C (3 * κ * (((N : ℝ) + 1) ^ 2 * C)) (pconvErr (2 * nr - 2).toNat κ ((nr + M + 2) * (((N : ℝ) + 1) ^ 2 * C))) (uvisphtErr (2 * nr - 2).toNat nc.toNat N M κ C) n ≤
      uvrtErr (2 * nr - 2).toNat nc.toNat N M κ C n := by
    unfold vroundErr vsphtErr uvrtErr pconvErr
    rw [← hS]
    have hW : (((2 * nr - 2).toNat : ℕ) : ℝ) / 2 + M + 3 = nr + M + 2 := by rw [hq0]; ring
    rw [hW]
    have W0 : (0 : ℝ) ≤ nr + M + 2 := by rw [← hW]; positivity
    refine le_trans (le_of_eq ?_) (FU.numV (V := (M : ℝ) + nr) L3 q1 hκ S0 (Real.sqrt_nonneg _) (by positivity) E0 W0 (by linarith) (by positivity))
    ring
  exact ⟨z, k1, k2.trans fin, k3.trans fin⟩

/-- C107: `vispht` followed by `vspht` in doubles, the analysis by the compiled extension with its kiss_fft. -/
theorem c107_kvround_trip (hrd : NoOverflow rnd) {lm : Fl.LibM} (hl : LibMWithin lm) (J : ℕ → CJunk) (np : Fl.Fft1 rnd) (lib : Fl.NumLib rnd) (hlib : lib.fft = Fl.fft2Norm rnd np) (b : Backend) (c : VectorCoefs (FC rnd)) (hc : c.WellFormed)
    (N M : ℕ) (hn : c.nmax = N) (hm : c.mmax = M) (hj : PowOK b M lib.jp) (hN : N ≤ 1000) (v w : ℤ → ℤ → FC rnd)
    (hvw : ∀ n m, IsMode c.nmax c.mmax n m → n ≠ 0 → readMapV c n m = some (v n m, w n m)) (C : ℝ) (hC : 2 ^ (-690 : ℤ) ≤ C) (hC' : C ≤ 2 ^ (300 : ℤ))
    (hvC : ∀ n m, IsMode c.nmax c.mmax n m → n ≠ 0 → |(v n m).re| ≤ C ∧ |(v n m).im| ≤ C) (hwC : ∀ n m, IsMode c.nmax c.mmax n m → n ≠ 0 → |(w n m).re| ≤ C ∧ |(w n m).im| ≤ C)
    (nr nc : ℤ) (h1 : c.nmax + 2 ≤ nr) (h2 : 2 * c.mmax + 2 ≤ nc) (h3 : nc % 2 = 0) (hsz : nr ≤ 2 ^ 27) (hsz2 : (2 * nr - 2) * nc < 2 ^ 53)
    (κ : ℝ) (hκ : 2 ^ (-45 : ℤ) ≤ κ) (hε : uvisphtErr (2 * nr - 2).toNat nc.toNat N M κ C ≤ (N + 1) ^ 2 * C / 5)
    (hκ2 : 1200 * Real.sqrt (((2 * nr - 2).toNat : ℝ) + 1) * κ ≤ 1) (hp1 : Fft1Within np κ (2 * nr - 2).toNat) (hp2 : Fft1Within np κ nc.toNat) :
    ∃ p ch, Fl.vispht rnd lib.jp (Fl.visphtPost rnd (Fl.ifft2Scaled rnd np)) b c (some nr) (some nc) = .ok p ∧
      Fl.kVspht rnd lib lm J p (some c.nmax) (some c.mmax) = .ok ch ∧
      ch.WellFormed ∧ ch.nmax = c.nmax ∧ ch.mmax = c.mmax ∧ ∀ n m : ℤ, IsMode c.nmax c.mmax n m → n ≠ 0 → ∃ z, readMapV ch n m = some z ∧
        ‖FS.val z.1 - FS.val (v n m)‖ ≤ ukvrtErr (2 * nr - 2).toNat nc.toNat N M κ C n ∧ ‖FS.val z.2 - FS.val (w n m)‖ ≤ ukvrtErr (2 * nr - 2).toNat nc.toNat N M κ C n := by
  have C0 : 0 < C := lt_of_lt_of_le (by positivity) hC
  have κ0 : 0 < κ := lt_of_lt_of_le (by positivity) hκ
  have hMN : M ≤ N := by have := hc.wf1.wf.mn; have := hc.n1; have := hc.m1; omega
  have hq0 := FU.castr (nr := nr) (by omega)
  have hq : (((2 * nr - 2).toNat : ℝ) + 1) = 2 * (nr : ℝ) - 1 := by rw [hq0]; ring
  obtain ⟨S, hS⟩ : ∃ S, S = ((N : ℝ) + 1) ^ 2 * C := ⟨_, rfl⟩
  have S0 : 0 ≤ S := by rw [hS]; positivity
  obtain ⟨κ4, -⟩ := FU.kap κ0 hκ2
  obtain ⟨p, ch, e1, e2, e3, e4, e5, e6⟩ := c101_round_trip hrd lib hl b J c hc N M hn hm hj hN v w hvw C ((zpow_le_zpow_right₀ (by norm_num) (by norm_num)).trans hC) hC' hvC hwC nr nc h1 h2 h3 hsz
    (Fl.ifft2Scaled rnd np) _ (3 * κ * (((N : ℝ) + 1) ^ 2 * C)) _ (FU.visph_eq (by omega)).symm hε (by
      rw [← hq, ← hS]
      have h'' := mul_le_mul_of_nonneg_right (show Real.sqrt (((2 * nr - 2).toNat : ℝ) + 1) * κ ≤ 1 / 1200 by clear hC hC' hκ; linarith) S0
      clear hC hC' hκ
      linarith)
    (FU.vpost hrd N M hN hMN C hC (hC'.trans (zpow_le_zpow_right₀ (by norm_num) (by norm_num))) nr nc (by omega) (by omega) np κ hκ κ4 hsz2 hp1 hp2)
    (by rw [hlib]; exact FU.vfft hrd b c hc N M hn hm hj hN v w hvw C hC hC' hvC hwC nr nc h1 h2 h3 np κ hκ κ4 hε hsz2 hp1 hp2)
  refine ⟨p, ch, e1, e2, e3, e4, e5, fun n m hnm hn0 => ?_⟩
  obtain ⟨z, k1, k2, k3⟩ := e6 n m hnm hn0
  have n0 : (0 : ℝ) ≤ n := by exact_mod_cast hnm.1
  have E0 : 0 ≤ uvisphtErr (2 * nr - 2).toNat nc.toNat N M κ C := by unfold uvisphtErr; positivity
  have fin : kvsphtErr (2 * nr - 2).toNat M (((N : ℝ) + 1) ^ 2 * C) (3 * κ * (((N : ℝ) + 1) ^ 2 * C)) n +
      1 / Real.sqrt ((n : ℝ) * ((n : ℝ) + 1)) * ((2 * n + 1) * Real.sqrt ((2 * n + 1) / (4 * Real.pi)) * (20 * ((M + nr) * uvisphtErr (2 * nr - 2).toNat nc.toNat N M κ C))) ≤
      ukvrtErr (2 * nr - 2).toNat nc.toNat N M κ C n := by
    unfold kvsphtErr ukvrtErr
    rw [← hS]
    have hW : (((2 * nr - 2).toNat : ℕ) : ℝ) / 2 + M + 3 = nr + M + 2 := by rw [hq0]; ring
    rw [hW]
    have W0 : (0 : ℝ) ≤ nr + M + 2 := by rw [← hW]; positivity
    have A1 : 1 / Real.sqrt ((n : ℝ) * ((n : ℝ) + 1)) * ((2 * n + 1) * Real.sqrt ((2 * n + 1) / (4 * Real.pi)) * (20 * (((M : ℝ) + nr) * uvisphtErr (2 * nr - 2).toNat nc.toNat N M κ C))) ≤
        1 / Real.sqrt ((n : ℝ) * ((n : ℝ) + 1)) * ((2 * n + 1) * Real.sqrt ((2 * n + 1) / (4 * Real.pi)) * (20 * (((nr : ℝ) + M + 2) * uvisphtErr (2 * nr - 2).toNat nc.toNat N M κ C))) := by
      have V1 : ((M : ℝ) + nr) * uvisphtErr (2 * nr - 2).toNat nc.toNat N M κ C ≤ ((nr : ℝ) + M + 2) * uvisphtErr (2 * nr - 2).toNat nc.toNat N M κ C := mul_le_mul_of_nonneg_right (by linarith) E0
      generalize uvisphtErr (2 * nr - 2).toNat nc.toNat N M κ C = E at *
      gcongr
    refine le_trans (add_le_add le_rfl A1) (le_of_eq ?_)
    ring
  exact ⟨z, k1, k2.trans fin, k3.trans fin⟩

end Verif.Props
