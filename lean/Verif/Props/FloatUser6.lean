import Verif.Props.FloatUser5
import Verif.Props.FloatKiss16
/-!
# C107: `ispht`, and `ispht` followed by `spht`, in doubles over NumPy's one-dimensional FFTs
-/
namespace Verif.Props
open Verif Finset
variable {rnd : ℝ → ℝ}

/-- The error bound of C107 for a sample from `ispht`: coefficients of modulus at most `C` in each part, FFT accuracy `κ`. -/
noncomputable def uisphtErr (N M : ℕ) (κ C : ℝ) : ℝ :=
  (2 * N + 1) * (2 * M + 1) * (N + 1) * C * Real.sqrt ((2 * N + 1) / (4 * Real.pi)) * (((N : ℝ) + 4) ^ 3 * 2 ^ (-49 : ℤ) + 9 * κ)

/-- The error bound of C107 for the round trip with the Python routines. -/
noncomputable def usrtErr (rows N M : ℕ) (κ C : ℝ) (n : ℤ) : ℝ :=
  Real.sqrt ((2 * n + 1) / (4 * Real.pi)) * ((n + 1) * ((n : ℝ) + 4) ^ 3 * 2 ^ (-43 : ℤ) * ((N + 1) ^ 2 * C) +
    (2 * n + 1) * (234 * Nat.log 2 (4 * rows) * Real.sqrt ((rows : ℝ) + 1) * κ * ((N + 1) ^ 2 * C) + 20 * uisphtErr N M κ C))

/-- The error bound of C107 for the round trip whose analysis is done by the compiled extension. -/
noncomputable def uksrtErr (rows N M : ℕ) (κ C : ℝ) (n : ℤ) : ℝ :=
  Real.sqrt ((2 * n + 1) / (4 * Real.pi)) * ((n + 1) * ((n : ℝ) + 4) ^ 3 * 2 ^ (-43 : ℤ) * ((N + 1) ^ 2 * C) +
    (2 * n + 1) * (Real.sqrt ((rows : ℝ) + 1) * (60 * κ + 2 ^ (-34 : ℤ) * (Nat.log 2 (4 * rows)) ^ 2) * ((N + 1) ^ 2 * C) + 20 * uisphtErr N M κ C))

open FS in
/-- C107: `ispht` in doubles with either backend, `np.fft.ifft2` built from NumPy's one-dimensional FFTs: samples of the harmonic series up to an explicit error. -/
theorem c107_ispht (hrd : NoOverflow rnd) {jp : Int → FC rnd} (b : Backend) (c : ScalarCoefs (FC rnd)) (hc : c.WellFormed)
    (N M : ℕ) (hn : c.nmax = N) (hm : c.mmax = M) (hj : PowOK b M jp) (hN : N ≤ 1000) (w : ℤ → ℤ → FC rnd)
    (hw : ∀ n m, IsMode c.nmax c.mmax n m → readMap c n m = some (w n m)) (C : ℝ) (hC : 2 ^ (-690 : ℤ) ≤ C) (hC' : C ≤ 2 ^ (700 : ℤ))
    (hwC : ∀ n m, IsMode c.nmax c.mmax n m → |(w n m).re| ≤ C ∧ |(w n m).im| ≤ C) (nr nc : ℤ) (h1 : c.nmax + 2 ≤ nr) (h2 : 2 * c.mmax + 2 ≤ nc) (h3 : nc % 2 = 0)
    (np : Fl.Fft1 rnd) (κ : ℝ) (hκ : 2 ^ (-45 : ℤ) ≤ κ) (hκ' : κ ≤ 1 / 4) (hsz : (2 * nr - 2) * nc < 2 ^ 53) (hp1 : Fft1Within np κ (2 * nr - 2).toNat) (hp2 : Fft1Within np κ nc.toNat) :
    ∃ p A, Fl.ispht rnd jp (Fl.ifft2Scaled rnd np) b c (some nr) (some nc) = .ok p ∧ p.array = .ok A ∧ A.rows = nr ∧ A.cols = nc ∧ ∀ i j : ℕ, i < A.rows → j < A.cols →
      ‖val (A.at' i j) - shSeries c.nmax c.mmax (fun n m => val (w n m)) (Real.pi * i / ((nr : ℝ) - 1)) (2 * Real.pi * j / nc)‖ ≤ uisphtErr N M κ C := by
  obtain ⟨p, A, e1, e2, e3, e4, e5⟩ := c93_ispht hrd b c hc N M hn hm hj hN w hw C ((zpow_le_zpow_right₀ (by norm_num) (by norm_num)).trans hC)
    (hC'.trans (zpow_le_zpow_right₀ (by norm_num) (by norm_num))) hwC nr nc h1 h2 h3 (Fl.ifft2Scaled rnd np) _
    (FU.spost hrd b c hc N M hn hm hj hN w hw C hC hC' hwC nr nc h1 h2 h3 np κ hκ hκ' hsz hp1 hp2)
  refine ⟨p, A, e1, e2, e3, e4, fun i j hi hj' => (e5 i j hi hj').trans (le_of_eq ?_)⟩
  unfold uisphtErr FS.rowMax
  ring

namespace FU

theorem kap22 {N M : ℕ} (hN : N ≤ 1000) (hM : M ≤ 1000) {κ C : ℝ} (hC : 0 ≤ C) (h : κ ≤ 2 ^ (-23 : ℤ)) :
    3 * κ * ((2 * N + 1) * (2 * M + 1) * (3 * ((N + 1) * C * FS.rowMax N))) ≤ ((N : ℝ) + 1) ^ 2 * C / 4 := by
  have G1 : FS.rowMax N ≤ 16 := rowMax_le hN
  have G0 := FS.rowMax_ge N
  have m1 : (M : ℝ) ≤ 1000 := by exact_mod_cast hM
  have n0 : (0 : ℝ) ≤ N := by positivity
  calc 3 * κ * ((2 * N + 1) * (2 * M + 1) * (3 * ((N + 1) * C * FS.rowMax N)))
      ≤ 3 * 2 ^ (-23 : ℤ) * ((2 * (N + 1)) * (2 * 1000 + 1) * (3 * ((N + 1) * C * 16))) := by
        have : (2 * (N : ℝ) + 1) ≤ 2 * (N + 1) := by linarith
        gcongr
    _ = (3 * 2 ^ (-23 : ℤ) * (2 * (2 * 1000 + 1) * (3 * 16))) * (((N : ℝ) + 1) ^ 2 * C) := by ring
    _ ≤ 1 / 4 * (((N : ℝ) + 1) ^ 2 * C) := by
        refine mul_le_mul_of_nonneg_right (by norm_num) (by positivity)
    _ = _ := by ring

theorem sizeS {N : ℕ} (hN : N ≤ 1000) {C : ℝ} (hC : 2 ^ (-690 : ℤ) ≤ C) (hC' : C ≤ 2 ^ (300 : ℤ)) :
    2 ^ (-700 : ℤ) ≤ ((N : ℝ) + 1) ^ 2 * C ∧ ((N : ℝ) + 1) ^ 2 * C ≤ 2 ^ (400 : ℤ) := by
  have C0 : 0 < C := lt_of_lt_of_le (by positivity) hC
  have n1 : (N : ℝ) ≤ 1000 := by exact_mod_cast hN
  have n0 : (0 : ℝ) ≤ N := by positivity
  constructor
  · have : (1 : ℝ) ≤ ((N : ℝ) + 1) ^ 2 := one_le_pow₀ (by clear hC hC'; linarith)
    exact ((zpow_le_zpow_right₀ (by norm_num) (by norm_num)).trans hC).trans (le_mul_of_one_le_left C0.le this)
  · calc ((N : ℝ) + 1) ^ 2 * C ≤ (1000 + 1) ^ 2 * 2 ^ (300 : ℤ) := by gcongr
      _ ≤ 2 ^ (100 : ℤ) * 2 ^ (300 : ℤ) := mul_le_mul_of_nonneg_right (by norm_num) (by positivity)
      _ = 2 ^ (400 : ℤ) := by rw [← zpow_add₀ (by norm_num)]; norm_num

/-- The forward FFT of what `ispht` returns. -/
theorem sfft (hrd : NoOverflow rnd) {jp : Int → FC rnd} (b : Backend) (c : ScalarCoefs (FC rnd)) (hc : c.WellFormed)
    (N M : ℕ) (hn : c.nmax = N) (hm : c.mmax = M) (hj : PowOK b M jp) (hN : N ≤ 1000) (w : ℤ → ℤ → FC rnd)
    (hw : ∀ n m, IsMode c.nmax c.mmax n m → readMap c n m = some (w n m)) (C : ℝ) (hC : 2 ^ (-690 : ℤ) ≤ C) (hC' : C ≤ 2 ^ (300 : ℤ))
    (hwC : ∀ n m, IsMode c.nmax c.mmax n m → |(w n m).re| ≤ C ∧ |(w n m).im| ≤ C) (nr nc : ℤ) (h1 : c.nmax + 2 ≤ nr) (h2 : 2 * c.mmax + 2 ≤ nc) (h3 : nc % 2 = 0)
    (np : Fl.Fft1 rnd) (κ : ℝ) (hκ : 2 ^ (-45 : ℤ) ≤ κ) (hκ' : κ ≤ 2 ^ (-23 : ℤ)) (hsz : (2 * nr - 2) * nc < 2 ^ 53) (hp1 : Fft1Within np κ (2 * nr - 2).toNat) (hp2 : Fft1Within np κ nc.toNat)
    (D : Arr2 (FC rnd)) (hD : Fl.ispht rnd jp (Fl.ifft2Scaled rnd np) b c (some nr) (some nc) = .ok ⟨.arr D⟩) : Fft2Within (Fl.fft2Norm rnd np) (3 * κ * (((N : ℝ) + 1) ^ 2 * C)) D := by
  have hm0 := hc.wf.m0
  have hmn := hc.wf.mn
  have C0 : 0 < C := lt_of_lt_of_le (by positivity) hC
  have κ4 : κ ≤ 1 / 4 := hκ'.trans (by norm_num)
  obtain ⟨s1, s2⟩ := sizeS hN hC hC'
  obtain ⟨g, D', e1, -, gr, gc, -, -, -, hgS⟩ := FA.ispht_samples hrd b c hc N M hn hm hj hN w hw C ((zpow_le_zpow_right₀ (by norm_num) (by norm_num)).trans hC) hC' hwC nr nc h1 h2 h3
    (Fl.ifft2Scaled rnd np) _ _ rfl (kap22 hN (by omega) C0.le hκ')
    (spost hrd b c hc N M hn hm hj hN w hw C hC (hC'.trans (zpow_le_zpow_right₀ (by norm_num) (by norm_num))) hwC nr nc h1 h2 h3 np κ hκ κ4 hsz hp1 hp2)
  rw [e1] at hD
  cases hD
  have hr : (2 * nr - 2).toNat = D.rows := by omega
  have hk : nc.toNat = D.cols := by omega
  rw [hr] at hp1
  rw [hk] at hp2
  refine fft2_within hrd np D (by omega) (by omega) ?_ κ _ hκ κ4 hp1 hp2 s1 (s2.trans (zpow_le_zpow_right₀ (by norm_num) (by norm_num))) hgS
  rw [← gr, ← gc] at hsz
  exact_mod_cast hsz

theorem numS {L q κ S s P X E : ℝ} (hL : 3 ≤ L) (hq : 1 ≤ q) (hκ : 2 ^ (-45 : ℤ) ≤ κ) (hS : 0 ≤ S) (hs : 0 ≤ s) (hX : 0 ≤ X) :
    s * (P + X * (213 * L * q * κ * S + 20 * q * (3 * κ * S + 2 ^ (-49 : ℤ) * S) + 20 * E)) ≤ s * (P + X * (234 * L * q * κ * S + 20 * E)) := by
  have κ0 : 0 < κ := lt_of_lt_of_le (by positivity) hκ
  have e1 : (2 : ℝ) ^ (-49 : ℤ) ≤ κ / 16 := by
    rw [le_div_iff₀ (by norm_num)]
    refine le_trans (le_of_eq ?_) hκ
    norm_num
  clear hκ
  have B1 : 20 * q * (3 * κ * S + 2 ^ (-49 : ℤ) * S) ≤ 20 * q * (3 * κ * S + κ / 16 * S) := by gcongr
  have B3 : 3 * (q * κ * S) ≤ L * (q * κ * S) := mul_le_mul_of_nonneg_right hL (by positivity)
  have B0 : 0 ≤ q * κ * S := by positivity
  have B : 213 * L * q * κ * S + 20 * q * (3 * κ * S + 2 ^ (-49 : ℤ) * S) + 20 * E ≤ 234 * L * q * κ * S + 20 * E := by
    generalize (2 : ℝ) ^ (-49 : ℤ) = t at *
    linarith
  gcongr

end FU

open FS in
/-- C107: `ispht` followed by `spht` in doubles with the Python routines; the environment enters only through `lm`, `np` and `sum`. -/
theorem c107_round_trip (hrd : NoOverflow rnd) (lm : Fl.Libm) (hl : LibmOK lm) (np : Fl.Fft1 rnd) (sum : List (FC rnd) → FC rnd) (hsum : SumOK sum) (b : Backend)
    (c : ScalarCoefs (FC rnd)) (hc : c.WellFormed) (N M : ℕ) (hn : c.nmax = N) (hm : c.mmax = M) (hN : N ≤ 1000) (w : ℤ → ℤ → FC rnd)
    (hw : ∀ n m, IsMode c.nmax c.mmax n m → readMap c n m = some (w n m)) (C : ℝ) (hC : 2 ^ (-690 : ℤ) ≤ C) (hC' : C ≤ 2 ^ (300 : ℤ))
    (hwC : ∀ n m, IsMode c.nmax c.mmax n m → |(w n m).re| ≤ C ∧ |(w n m).im| ≤ C) (nr nc : ℤ) (h1 : c.nmax + 2 ≤ nr) (h2 : 2 * c.mmax + 2 ≤ nc) (h3 : nc % 2 = 0) (hsz : nr ≤ 2 ^ 27) (hsz2 : (2 * nr - 2) * nc < 2 ^ 53)
    (κ : ℝ) (hκ : 2 ^ (-45 : ℤ) ≤ κ) (hκ' : κ ≤ 2 ^ (-23 : ℤ)) (hκ2 : 213 * Nat.log 2 (4 * (2 * nr - 2).toNat) * Real.sqrt (((2 * nr - 2).toNat : ℝ) + 1) * κ ≤ 1) (hnp : FftOK np κ (2 * nr - 2).toNat nc.toNat) :
    ∃ p ch, Fl.ispht rnd (Fl.pow1j rnd lm) (Fl.ifft2Scaled rnd np) b c (some nr) (some nc) = .ok p ∧ Fl.spht rnd (Fl.npLib rnd lm np sum) .py p (some c.nmax) (some c.mmax) = .ok ch ∧
      ch.WellFormed ∧ ch.nmax = c.nmax ∧ ch.mmax = c.mmax ∧ ∀ n m : ℤ, IsMode c.nmax c.mmax n m → ∃ z, readMap ch n m = some z ∧
        ‖FS.val z - FS.val (w n m)‖ ≤ usrtErr (2 * nr - 2).toNat N M κ C n := by
  have hm0 := hc.wf.m0
  have hmn := hc.wf.mn
  have C0 : 0 < C := lt_of_lt_of_le (by positivity) hC
  have κ0 : 0 < κ := lt_of_lt_of_le (by positivity) hκ
  have κ4 : κ ≤ 1 / 4 := hκ'.trans (by norm_num)
  have hj := (pow1j_near hrd lm hl).mono (show M ≤ 1000 by omega)
  have L3 := FU.log3 (r := (2 * nr - 2).toNat) (by omega)
  have q1 := FU.sqrt1 (2 * nr - 2).toNat
  have hq : (((2 * nr - 2).toNat : ℝ) + 1) = 2 * (nr : ℝ) - 1 := by
    have : (((2 * nr - 2).toNat : ℤ) : ℝ) = ((2 * nr - 2 : ℤ) : ℝ) := by rw [Int.toNat_of_nonneg (by omega)]
    push_cast at this
    linarith
  obtain ⟨S, hS⟩ : ∃ S, S = ((N : ℝ) + 1) ^ 2 * C := ⟨_, rfl⟩
  have S0 : 0 ≤ S := by rw [hS]; positivity
  obtain ⟨p, ch, e1, e2, e3, e4, e5, e6⟩ := c104_round_trip hrd (Fl.npLib rnd lm np sum) np hsum b c hc N M hn hm hj hN w hw C ((zpow_le_zpow_right₀ (by norm_num) (by norm_num)).trans hC) hC' hwC nr nc h1 h2 h3 hsz
    (Fl.ifft2Scaled rnd np) _ (3 * κ * (((N : ℝ) + 1) ^ 2 * C)) κ _ rfl (FU.kap22 hN (by omega) C0.le hκ') (by
      rw [← hq, ← hS]
      have h : 3 * (Real.sqrt (((2 * nr - 2).toNat : ℝ) + 1) * κ) ≤ Nat.log 2 (4 * (2 * nr - 2).toNat) * (Real.sqrt (((2 * nr - 2).toNat : ℝ) + 1) * κ) := mul_le_mul_of_nonneg_right L3 (by positivity)
      have h' : Real.sqrt (((2 * nr - 2).toNat : ℝ) + 1) * κ ≤ 1 / 600 := by clear hC hC' hκ hκ'; linarith
      have h'' := mul_le_mul_of_nonneg_right h' S0
      clear hC hC' hκ hκ'
      linarith)
    (FU.spost hrd b c hc N M hn hm (fun _ => hj) hN w hw C hC (hC'.trans (zpow_le_zpow_right₀ (by norm_num) (by norm_num))) hwC nr nc h1 h2 h3 np κ hκ κ4 hsz2 hnp.rows hnp.cols)
    (FU.sfft hrd b c hc N M hn hm (fun _ => hj) hN w hw C hC hC' hwC nr nc h1 h2 h3 np κ hκ hκ' hsz2 hnp.rows hnp.cols) hκ (by rw [← hq]; exact hκ2) hnp.smooth
  refine ⟨p, ch, e1, e2, e3, e4, e5, fun n m hnm => ?_⟩
  obtain ⟨z, k1, k2⟩ := e6 n m hnm
  refine ⟨z, k1, k2.trans ?_⟩
  have n0 : (0 : ℝ) ≤ n := by exact_mod_cast hnm.1
  unfold usrtErr pconvErr
  rw [← hq, ← hS]
  refine le_trans (le_of_eq ?_) (FU.numS L3 q1 hκ S0 (Real.sqrt_nonneg _) (by positivity))
  unfold uisphtErr FS.rowMax
  ring

open FS in
/-- C107: `ispht` followed by `spht` in doubles, the analysis by the compiled extension with its kiss_fft. -/
theorem c107_kround_trip (hrd : NoOverflow rnd) {lm : Fl.LibM} (hl : LibMWithin lm) (J : ℕ → CJunk) (np : Fl.Fft1 rnd) (lib : Fl.NumLib rnd) (hlib : lib.fft = Fl.fft2Norm rnd np) (b : Backend)
    (c : ScalarCoefs (FC rnd)) (hc : c.WellFormed) (N M : ℕ) (hn : c.nmax = N) (hm : c.mmax = M) (hj : PowOK b M lib.jp) (hN : N ≤ 1000) (w : ℤ → ℤ → FC rnd)
    (hw : ∀ n m, IsMode c.nmax c.mmax n m → readMap c n m = some (w n m)) (C : ℝ) (hC : 2 ^ (-690 : ℤ) ≤ C) (hC' : C ≤ 2 ^ (300 : ℤ))
    (hwC : ∀ n m, IsMode c.nmax c.mmax n m → |(w n m).re| ≤ C ∧ |(w n m).im| ≤ C) (nr nc : ℤ) (h1 : c.nmax + 2 ≤ nr) (h2 : 2 * c.mmax + 2 ≤ nc) (h3 : nc % 2 = 0) (hsz : nr ≤ 2 ^ 27) (hsz2 : (2 * nr - 2) * nc < 2 ^ 53)
    (κ : ℝ) (hκ : 2 ^ (-45 : ℤ) ≤ κ) (hκ' : κ ≤ 2 ^ (-23 : ℤ)) (hκ2 : 12 * Real.sqrt (((2 * nr - 2).toNat : ℝ) + 1) * κ ≤ 1) (hp1 : Fft1Within np κ (2 * nr - 2).toNat) (hp2 : Fft1Within np κ nc.toNat) :
    ∃ p ch, Fl.ispht rnd lib.jp (Fl.ifft2Scaled rnd np) b c (some nr) (some nc) = .ok p ∧ Fl.kSpht rnd lib lm J p (some c.nmax) (some c.mmax) = .ok ch ∧
      ch.WellFormed ∧ ch.nmax = c.nmax ∧ ch.mmax = c.mmax ∧ ∀ n m : ℤ, IsMode c.nmax c.mmax n m → ∃ z, readMap ch n m = some z ∧
        ‖FS.val z - FS.val (w n m)‖ ≤ uksrtErr (2 * nr - 2).toNat N M κ C n := by
  have hm0 := hc.wf.m0
  have hmn := hc.wf.mn
  have C0 : 0 < C := lt_of_lt_of_le (by positivity) hC
  have κ0 : 0 < κ := lt_of_lt_of_le (by positivity) hκ
  have κ4 : κ ≤ 1 / 4 := hκ'.trans (by norm_num)
  have hq : (((2 * nr - 2).toNat : ℝ) + 1) = 2 * (nr : ℝ) - 1 := by
    have : (((2 * nr - 2).toNat : ℤ) : ℝ) = ((2 * nr - 2 : ℤ) : ℝ) := by rw [Int.toNat_of_nonneg (by omega)]
    push_cast at this
    linarith
  obtain ⟨S, hS⟩ : ∃ S, S = ((N : ℝ) + 1) ^ 2 * C := ⟨_, rfl⟩
  have S0 : 0 ≤ S := by rw [hS]; positivity
  obtain ⟨p, ch, e1, e2, e3, e4, e5, e6⟩ := c100_round_trip hrd lib hl b J c hc N M hn hm hj hN w hw C ((zpow_le_zpow_right₀ (by norm_num) (by norm_num)).trans hC) hC' hwC nr nc h1 h2 h3 hsz
    (Fl.ifft2Scaled rnd np) _ (3 * κ * (((N : ℝ) + 1) ^ 2 * C)) _ rfl (FU.kap22 hN (by omega) C0.le hκ') (by
      rw [← hq, ← hS]
      have h' : Real.sqrt (((2 * nr - 2).toNat : ℝ) + 1) * κ ≤ 1 / 12 := by clear hC hC' hκ hκ'; linarith
      have h'' := mul_le_mul_of_nonneg_right h' S0
      clear hC hC' hκ hκ'
      linarith)
    (FU.spost hrd b c hc N M hn hm hj hN w hw C hC (hC'.trans (zpow_le_zpow_right₀ (by norm_num) (by norm_num))) hwC nr nc h1 h2 h3 np κ hκ κ4 hsz2 hp1 hp2)
    (by rw [hlib]; exact FU.sfft hrd b c hc N M hn hm hj hN w hw C hC hC' hwC nr nc h1 h2 h3 np κ hκ hκ' hsz2 hp1 hp2)
  refine ⟨p, ch, e1, e2, e3, e4, e5, fun n m hnm => ?_⟩
  obtain ⟨z, k1, k2⟩ := e6 n m hnm
  refine ⟨z, k1, k2.trans (le_of_eq ?_)⟩
  unfold uksrtErr ksphtErr uisphtErr FS.rowMax
  ring

end Verif.Props
