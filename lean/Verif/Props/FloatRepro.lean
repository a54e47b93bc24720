import Verif.Props.FloatUser8
/-!
# C109: the same computation in different environments

Two runs of the package in double precision may use different backends, FFT libraries, orders of summation, C math libraries and memory contents.  Their results differ by
at most an explicit bound.
-/
namespace Verif.Props
open Verif Finset
variable {rnd : ℝ → ℝ}

/-- Everything a run of the package takes from outside: NumPy's one-dimensional FFTs, the order of `np.sum`, CPython's libm, the C math library of the compiled extension and
the content of freshly allocated memory. -/
structure Env (rnd : ℝ → ℝ) where
  np : Fl.Fft1 rnd
  sum : List (FC rnd) → FC rnd
  lm : Fl.Libm
  clm : Fl.LibM
  J : ℕ → CJunk

/-- The environment conforms: FFTs of the given lengths within `κ`, `np.sum` adds in some order, the math libraries are accurate. -/
structure Env.OK (e : Env rnd) (κ : ℝ) (R K : ℕ) : Prop where
  fft : FftOK e.np κ R K
  sum : SumOK e.sum
  lm : LibmOK e.lm
  clm : LibMWithin e.clm

/-- `spht` in double precision in an environment, on the Python routines or the compiled extension, spherepy.py 1831-1900. -/
noncomputable def Env.spht (e : Env rnd) (cext : Bool) (p : SPatt (FC rnd)) (N M : ℤ) : Res (ScalarCoefs (FC rnd)) :=
  if cext then Fl.kSpht rnd (Fl.npLib rnd e.lm e.np e.sum) e.clm e.J p (some N) (some M)
  else Fl.spht rnd (Fl.npLib rnd e.lm e.np e.sum) .py p (some N) (some M)

/-- `vspht` likewise, spherepy.py 1902-1966. -/
noncomputable def Env.vspht (e : Env rnd) (cext : Bool) (p : TPatt (FC rnd)) (N M : ℤ) : Res (VectorCoefs (FC rnd)) :=
  if cext then Fl.kVspht rnd (Fl.npLib rnd e.lm e.np e.sum) e.clm e.J p (some N) (some M)
  else Fl.vspht rnd (Fl.npLib rnd e.lm e.np e.sum) .py p (some N) (some M)

/-- Bound for one run of `spht`. -/
noncomputable def envErr (cext : Bool) (rows : ℕ) (κ C : ℝ) (n : ℤ) : ℝ := if cext then uksphtErr rows κ C n else usphtErr rows κ C n

/-- Bound for one run of `vspht`. -/
noncomputable def venvErr (cext : Bool) (rows M : ℕ) (κ C : ℝ) (n : ℤ) : ℝ := if cext then ukvsphtErr rows M κ C n else uvsphtErr rows M κ C n

namespace FU

theorem env_spht (hrd : NoOverflow rnd) (e : Env rnd) (x : Bool)
    (A : Arr2 (FC rnd)) (C : ℝ) (hA : UserArr A C) (hC : 2 ^ (-700 : ℤ) ≤ C) (hC' : C ≤ 2 ^ (399 : ℤ)) (hsz : A.rows ≤ 2 ^ 27) (hsz2 : (2 * A.rows - 2) * A.cols < 2 ^ 53) (hK : A.cols % 2 = 0)
    (N M : ℕ) (hN : N ≤ 1000) (hMN : M ≤ N) (hNr : N < A.rows - 1) (hMc : 2 * M < A.cols) (κ : ℝ) (hκ : 2 ^ (-45 : ℤ) ≤ κ)
    (hκ' : 1200 * Nat.log 2 (4 * (2 * A.rows - 2)) * Real.sqrt (((2 * A.rows - 2 : ℕ) : ℝ) + 1) * κ ≤ 1) (he : e.OK κ (2 * A.rows - 2) A.cols) :
    ∃ p ph c ch, SPatt.init (.arr (A.map FS.val)) false = .ok p ∧ SPatt.init (.arr A) false = .ok ph ∧
      spht .py p (some N) (some M) = .ok c ∧ e.spht x ph N M = .ok ch ∧
      ch.WellFormed ∧ ch.nmax = N ∧ ch.mmax = M ∧ ∀ n m : ℤ, IsMode N M n m → ∃ w z, readMap c n m = some w ∧ readMap ch n m = some z ∧
        ‖FS.val z - w‖ ≤ envErr x (2 * A.rows - 2) κ C n := by
  have κ0 : 0 < κ := lt_of_lt_of_le (by positivity) hκ
  have h2 := hA.rows
  have L3 := FU.log3 (r := 2 * A.rows - 2) (by omega)
  have q1 := FU.sqrt1 (2 * A.rows - 2)
  have B : 0 ≤ Real.sqrt (((2 * A.rows - 2 : ℕ) : ℝ) + 1) * κ := by positivity
  cases x with
  | false =>
    obtain ⟨p, ph, c, ch, a1, a2, a3, a4, a5⟩ := c106_spht hrd e.lm he.lm e.np e.sum he.sum A C hA hC hC' hsz hsz2 hK N M hN hMN hNr hMc κ hκ (by
      refine le_trans ?_ hκ'
      clear hC hC' hκ
      have : 0 ≤ (Nat.log 2 (4 * (2 * A.rows - 2)) : ℝ) * (Real.sqrt (((2 * A.rows - 2 : ℕ) : ℝ) + 1) * κ) := by positivity
      linarith) he.fft
    exact ⟨p, ph, c, ch, a1, a2, a3, a4, a5⟩
  | true =>
    obtain ⟨p, ph, c, ch, a1, a2, a3, a4, a5⟩ := c106_kspht hrd he.clm e.J e.np (Fl.npLib rnd e.lm e.np e.sum) rfl A C hA hC hC' hsz hsz2 hK N M hN hMN hNr hMc κ hκ (by
      refine le_trans ?_ hκ'
      clear hC hC' hκ
      have : 1 * (Real.sqrt (((2 * A.rows - 2 : ℕ) : ℝ) + 1) * κ) ≤ (Nat.log 2 (4 * (2 * A.rows - 2)) : ℝ) * (Real.sqrt (((2 * A.rows - 2 : ℕ) : ℝ) + 1) * κ) :=
        mul_le_mul_of_nonneg_right (by linarith) B
      linarith) he.fft.rows he.fft.cols
    exact ⟨p, ph, c, ch, a1, a2, a3, a4, a5⟩

theorem env_vspht (hrd : NoOverflow rnd) (e : Env rnd) (x : Bool)
    (T P : Arr2 (FC rnd)) (hrow : P.rows = T.rows) (hcol : P.cols = T.cols) (C : ℝ) (hT : UserArr T C) (hP : UserArr P C) (hC : 2 ^ (-700 : ℤ) ≤ C) (hC' : C ≤ 2 ^ (399 : ℤ))
    (hsz : T.rows ≤ 2 ^ 27) (hsz2 : (2 * T.rows - 2) * T.cols < 2 ^ 53) (hK : T.cols % 2 = 0)
    (N M : ℕ) (hN : N ≤ 1000) (hMN : M ≤ N) (hNr : N < T.rows - 1) (hMc : 2 * M < T.cols) (κ : ℝ) (hκ : 2 ^ (-45 : ℤ) ≤ κ)
    (hκ' : 1200 * Nat.log 2 (4 * (2 * T.rows - 2)) * Real.sqrt (((2 * T.rows - 2 : ℕ) : ℝ) + 1) * κ ≤ 1) (he : e.OK κ (2 * T.rows - 2) T.cols) :
    ∃ p ph c ch, TPatt.init (.arr (T.map FS.val)) (.arr (P.map FS.val)) false = .ok p ∧ TPatt.init (.arr T) (.arr P) false = .ok ph ∧
      vspht .py p (some N) (some M) = .ok c ∧ e.vspht x ph N M = .ok ch ∧
      ch.WellFormed ∧ ch.nmax = N ∧ ch.mmax = M ∧ ∀ n m : ℤ, IsMode N M n m → n ≠ 0 → ∃ w z, readMapV c n m = some w ∧ readMapV ch n m = some z ∧
        ‖FS.val z.1 - w.1‖ ≤ venvErr x (2 * T.rows - 2) M κ C n ∧ ‖FS.val z.2 - w.2‖ ≤ venvErr x (2 * T.rows - 2) M κ C n := by
  have κ0 : 0 < κ := lt_of_lt_of_le (by positivity) hκ
  have h2 := hT.rows
  have L3 := FU.log3 (r := 2 * T.rows - 2) (by omega)
  have q1 := FU.sqrt1 (2 * T.rows - 2)
  have B : 0 ≤ Real.sqrt (((2 * T.rows - 2 : ℕ) : ℝ) + 1) * κ := by positivity
  cases x with
  | false =>
    obtain ⟨p, ph, c, ch, a1, a2, a3, a4, a5⟩ := c106_vspht hrd e.lm he.lm e.np e.sum he.sum T P hrow hcol C hT hP hC hC' hsz hsz2 hK N M hN hMN hNr hMc κ hκ (by
      refine le_trans ?_ hκ'
      clear hC hC' hκ
      have : 0 ≤ (Nat.log 2 (4 * (2 * T.rows - 2)) : ℝ) * (Real.sqrt (((2 * T.rows - 2 : ℕ) : ℝ) + 1) * κ) := by positivity
      linarith) he.fft
    exact ⟨p, ph, c, ch, a1, a2, a3, a4, a5⟩
  | true =>
    obtain ⟨p, ph, c, ch, a1, a2, a3, a4, a5⟩ := c106_kvspht hrd he.clm e.J e.np (Fl.npLib rnd e.lm e.np e.sum) rfl T P hrow hcol C hT hP hC hC' hsz hsz2 hK N M hN hMN hNr hMc κ hκ (by
      refine le_trans ?_ hκ'
      clear hC hC' hκ
      have : 1 * (Real.sqrt (((2 * T.rows - 2 : ℕ) : ℝ) + 1) * κ) ≤ (Nat.log 2 (4 * (2 * T.rows - 2)) : ℝ) * (Real.sqrt (((2 * T.rows - 2 : ℕ) : ℝ) + 1) * κ) :=
        mul_le_mul_of_nonneg_right (by linarith) B
      linarith) he.fft.rows he.fft.cols
    exact ⟨p, ph, c, ch, a1, a2, a3, a4, a5⟩

theorem tri {z w y : ℂ} {a b : ℝ} (h1 : ‖z - w‖ ≤ a) (h2 : ‖y - w‖ ≤ b) : ‖z - y‖ ≤ a + b := by
  have := norm_sub_le_norm_sub_add_norm_sub z w y
  rw [norm_sub_rev w y] at this
  linarith

end FU

/-- C109: `ScalarPatternUniform(A)` and `spht` in two environments `e`, `f`, with (`x`, `y` true) or without the compiled extension. -/
theorem c109_spht (hrd : NoOverflow rnd) (e f : Env rnd) (x y : Bool)
    (A : Arr2 (FC rnd)) (C : ℝ) (hA : UserArr A C) (hC : 2 ^ (-700 : ℤ) ≤ C) (hC' : C ≤ 2 ^ (399 : ℤ)) (hsz : A.rows ≤ 2 ^ 27) (hsz2 : (2 * A.rows - 2) * A.cols < 2 ^ 53) (hK : A.cols % 2 = 0)
    (N M : ℕ) (hN : N ≤ 1000) (hMN : M ≤ N) (hNr : N < A.rows - 1) (hMc : 2 * M < A.cols) (κ : ℝ) (hκ : 2 ^ (-45 : ℤ) ≤ κ)
    (hκ' : 1200 * Nat.log 2 (4 * (2 * A.rows - 2)) * Real.sqrt (((2 * A.rows - 2 : ℕ) : ℝ) + 1) * κ ≤ 1)
    (he : e.OK κ (2 * A.rows - 2) A.cols) (hf : f.OK κ (2 * A.rows - 2) A.cols) :
    ∃ p c d, SPatt.init (.arr A) false = .ok p ∧ e.spht x p N M = .ok c ∧ f.spht y p N M = .ok d ∧
      c.nmax = d.nmax ∧ c.mmax = d.mmax ∧ ∀ n m : ℤ, IsMode N M n m → ∃ z w, readMap c n m = some z ∧ readMap d n m = some w ∧
        ‖FS.val z - FS.val w‖ ≤ envErr x (2 * A.rows - 2) κ C n + envErr y (2 * A.rows - 2) κ C n := by
  obtain ⟨p, ph, c, ch, a1, a2, a3, a4, -, a6, a7, a8⟩ := FU.env_spht hrd e x A C hA hC hC' hsz hsz2 hK N M hN hMN hNr hMc κ hκ hκ' he
  obtain ⟨p', ph', c', dh, b1, b2, b3, b4, -, b6, b7, b8⟩ := FU.env_spht hrd f y A C hA hC hC' hsz hsz2 hK N M hN hMN hNr hMc κ hκ hκ' hf
  rw [a1] at b1; cases b1
  rw [a2] at b2; cases b2
  rw [a3] at b3; cases b3
  refine ⟨ph, ch, dh, a2, a4, b4, by rw [a6, b6], by rw [a7, b7], fun n m hnm => ?_⟩
  obtain ⟨w, z, k1, k2, k3⟩ := a8 n m hnm
  obtain ⟨w', z', l1, l2, l3⟩ := b8 n m hnm
  rw [k1] at l1; cases l1
  exact ⟨z, z', k2, l2, FU.tri k3 l3⟩

/-- C109: `TransversePatternUniform(T, P)` and `vspht`. -/
theorem c109_vspht (hrd : NoOverflow rnd) (e f : Env rnd) (x y : Bool)
    (T P : Arr2 (FC rnd)) (hrow : P.rows = T.rows) (hcol : P.cols = T.cols) (C : ℝ) (hT : UserArr T C) (hP : UserArr P C) (hC : 2 ^ (-700 : ℤ) ≤ C) (hC' : C ≤ 2 ^ (399 : ℤ))
    (hsz : T.rows ≤ 2 ^ 27) (hsz2 : (2 * T.rows - 2) * T.cols < 2 ^ 53) (hK : T.cols % 2 = 0)
    (N M : ℕ) (hN : N ≤ 1000) (hMN : M ≤ N) (hNr : N < T.rows - 1) (hMc : 2 * M < T.cols) (κ : ℝ) (hκ : 2 ^ (-45 : ℤ) ≤ κ)
    (hκ' : 1200 * Nat.log 2 (4 * (2 * T.rows - 2)) * Real.sqrt (((2 * T.rows - 2 : ℕ) : ℝ) + 1) * κ ≤ 1)
    (he : e.OK κ (2 * T.rows - 2) T.cols) (hf : f.OK κ (2 * T.rows - 2) T.cols) :
    ∃ p c d, TPatt.init (.arr T) (.arr P) false = .ok p ∧ e.vspht x p N M = .ok c ∧ f.vspht y p N M = .ok d ∧
      c.nmax = d.nmax ∧ c.mmax = d.mmax ∧ ∀ n m : ℤ, IsMode N M n m → n ≠ 0 → ∃ z w, readMapV c n m = some z ∧ readMapV d n m = some w ∧
        ‖FS.val z.1 - FS.val w.1‖ ≤ venvErr x (2 * T.rows - 2) M κ C n + venvErr y (2 * T.rows - 2) M κ C n ∧
        ‖FS.val z.2 - FS.val w.2‖ ≤ venvErr x (2 * T.rows - 2) M κ C n + venvErr y (2 * T.rows - 2) M κ C n := by
  obtain ⟨p, ph, c, ch, a1, a2, a3, a4, -, a6, a7, a8⟩ := FU.env_vspht hrd e x T P hrow hcol C hT hP hC hC' hsz hsz2 hK N M hN hMN hNr hMc κ hκ hκ' he
  obtain ⟨p', ph', c', dh, b1, b2, b3, b4, -, b6, b7, b8⟩ := FU.env_vspht hrd f y T P hrow hcol C hT hP hC hC' hsz hsz2 hK N M hN hMN hNr hMc κ hκ hκ' hf
  rw [a1] at b1; cases b1
  rw [a2] at b2; cases b2
  rw [a3] at b3; cases b3
  refine ⟨ph, ch, dh, a2, a4, b4, by rw [a6, b6], by rw [a7, b7], fun n m hnm hn0 => ?_⟩
  obtain ⟨w, z, k1, k2, k3, k4⟩ := a8 n m hnm hn0
  obtain ⟨w', z', l1, l2, l3, l4⟩ := b8 n m hnm hn0
  rw [k1] at l1; cases l1
  exact ⟨z, z', k2, l2, FU.tri k3 l3, FU.tri k4 l4⟩

open FS in
/-- C109: `ispht` with two FFT libraries and backends: the samples differ by at most twice the bound of C107.  (With the same FFT they are identical: C88.) -/
theorem c109_ispht (hrd : NoOverflow rnd) {jp jp' : Int → FC rnd} (b b' : Backend) (c : ScalarCoefs (FC rnd)) (hc : c.WellFormed)
    (N M : ℕ) (hn : c.nmax = N) (hm : c.mmax = M) (hj : PowOK b M jp) (hj' : PowOK b' M jp') (hN : N ≤ 1000) (w : ℤ → ℤ → FC rnd)
    (hw : ∀ n m, IsMode c.nmax c.mmax n m → readMap c n m = some (w n m)) (C : ℝ) (hC : 2 ^ (-690 : ℤ) ≤ C) (hC' : C ≤ 2 ^ (700 : ℤ))
    (hwC : ∀ n m, IsMode c.nmax c.mmax n m → |(w n m).re| ≤ C ∧ |(w n m).im| ≤ C) (nr nc : ℤ) (h1 : c.nmax + 2 ≤ nr) (h2 : 2 * c.mmax + 2 ≤ nc) (h3 : nc % 2 = 0)
    (np np' : Fl.Fft1 rnd) (κ : ℝ) (hκ : 2 ^ (-45 : ℤ) ≤ κ) (hκ' : κ ≤ 1 / 4) (hsz : (2 * nr - 2) * nc < 2 ^ 53) (hp1 : Fft1Within np κ (2 * nr - 2).toNat) (hp2 : Fft1Within np κ nc.toNat)
    (hq1 : Fft1Within np' κ (2 * nr - 2).toNat) (hq2 : Fft1Within np' κ nc.toNat) :
    ∃ p q A B, Fl.ispht rnd jp (Fl.ifft2Scaled rnd np) b c (some nr) (some nc) = .ok p ∧ p.array = .ok A ∧
      Fl.ispht rnd jp' (Fl.ifft2Scaled rnd np') b' c (some nr) (some nc) = .ok q ∧ q.array = .ok B ∧ A.rows = B.rows ∧ A.cols = B.cols ∧
      ∀ i j : ℕ, i < A.rows → j < A.cols → ‖val (A.at' i j) - val (B.at' i j)‖ ≤ 2 * uisphtErr N M κ C := by
  obtain ⟨p, A, a1, a2, a3, a4, a5⟩ := c107_ispht hrd b c hc N M hn hm hj hN w hw C hC hC' hwC nr nc h1 h2 h3 np κ hκ hκ' hsz hp1 hp2
  obtain ⟨q, B, b1, b2, b3, b4, b5⟩ := c107_ispht hrd b' c hc N M hn hm hj' hN w hw C hC hC' hwC nr nc h1 h2 h3 np' κ hκ hκ' hsz hq1 hq2
  refine ⟨p, q, A, B, a1, a2, b1, b2, by omega, by omega, fun i j hi hj => ?_⟩
  have := FU.tri (a5 i j hi hj) (b5 i j (by omega) (by omega))
  linarith

theorem FU.jackson_unique {n m : ℤ} {v w : ℤ → ℤ → ℂ} {Eθ Eφ Fθ Fφ : ℝ → ℝ → ℂ} (h : JacksonField n m v w Eθ Eφ) (k : JacksonField n m v w Fθ Fφ) (θ φ : ℝ) :
    Eθ θ φ = Fθ θ φ ∧ Eφ θ φ = Fφ θ φ := by
  have a := jackson_closed h θ φ
  have b := jackson_closed k θ φ
  exact ⟨a.1.trans b.1.symm, a.2.trans b.2.symm⟩

open FS in
/-- C109: `vispht` with two FFT libraries and backends. -/
theorem c109_vispht (hrd : NoOverflow rnd) {jp jp' : Int → FC rnd} (b b' : Backend) (c : VectorCoefs (FC rnd)) (hc : c.WellFormed)
    (N M : ℕ) (hn : c.nmax = N) (hm : c.mmax = M) (hj : PowOK b M jp) (hj' : PowOK b' M jp') (hN : N ≤ 1000) (v w : ℤ → ℤ → FC rnd)
    (hvw : ∀ n m, IsMode c.nmax c.mmax n m → n ≠ 0 → readMapV c n m = some (v n m, w n m)) (C : ℝ) (hC : 2 ^ (-690 : ℤ) ≤ C) (hC' : C ≤ 2 ^ (700 : ℤ))
    (hvC : ∀ n m, IsMode c.nmax c.mmax n m → n ≠ 0 → |(v n m).re| ≤ C ∧ |(v n m).im| ≤ C) (hwC : ∀ n m, IsMode c.nmax c.mmax n m → n ≠ 0 → |(w n m).re| ≤ C ∧ |(w n m).im| ≤ C)
    (nr nc : ℤ) (h1 : c.nmax + 2 ≤ nr) (h2 : 2 * c.mmax + 2 ≤ nc) (h3 : nc % 2 = 0)
    (np np' : Fl.Fft1 rnd) (κ : ℝ) (hκ : 2 ^ (-45 : ℤ) ≤ κ) (hκ' : κ ≤ 1 / 4) (hsz : (2 * nr - 2) * nc < 2 ^ 53) (hp1 : Fft1Within np κ (2 * nr - 2).toNat) (hp2 : Fft1Within np κ nc.toNat)
    (hq1 : Fft1Within np' κ (2 * nr - 2).toNat) (hq2 : Fft1Within np' κ nc.toNat) :
    ∃ p q, Fl.vispht rnd jp (Fl.visphtPost rnd (Fl.ifft2Scaled rnd np)) b c (some nr) (some nc) = .ok p ∧
      Fl.vispht rnd jp' (Fl.visphtPost rnd (Fl.ifft2Scaled rnd np')) b' c (some nr) (some nc) = .ok q ∧
      p.theta.rows = q.theta.rows ∧ p.theta.cols = q.theta.cols ∧ p.phi.rows = q.phi.rows ∧ p.phi.cols = q.phi.cols ∧
      ∀ i j : ℕ, i < p.theta.rows → j < p.theta.cols →
        ‖val (p.theta.at' i j) - val (q.theta.at' i j)‖ ≤ 2 * uvisphtErr (2 * nr - 2).toNat nc.toNat N M κ C ∧
        ‖val (p.phi.at' i j) - val (q.phi.at' i j)‖ ≤ 2 * uvisphtErr (2 * nr - 2).toNat nc.toNat N M κ C := by
  obtain ⟨p, E, F, a1, a2, a3, a4, a5, a6, a7⟩ := c107_vispht hrd b c hc N M hn hm hj hN v w hvw C hC hC' hvC hwC nr nc h1 h2 h3 np κ hκ hκ' hsz hp1 hp2
  obtain ⟨q, E', F', b1, b2, b3, b4, b5, b6, b7⟩ := c107_vispht hrd b' c hc N M hn hm hj' hN v w hvw C hC hC' hvC hwC nr nc h1 h2 h3 np' κ hκ hκ' hsz hq1 hq2
  refine ⟨p, q, a1, b1, by omega, by omega, by omega, by omega, fun i j hi hj => ?_⟩
  obtain ⟨x1, x2⟩ := a7 i j hi hj
  obtain ⟨y1, y2⟩ := b7 i j (by omega) (by omega)
  obtain ⟨u1, u2⟩ := FU.jackson_unique b2 a2 (Real.pi * i / ((nr : ℝ) - 1)) (2 * Real.pi * j / nc)
  rw [u1] at y1
  rw [u2] at y2
  rw [two_mul]
  exact ⟨FU.tri x1 y1, FU.tri x2 y2⟩

/-- Not vacuous: the 5 by 8 array of `c106_example`, `nmax = 3`, `mmax = 2`, on the Python routines with zeroed memory and on the compiled extension with other memory contents: every coefficient agrees to `2^-18`. -/
theorem c109_example : ∃ (rnd : ℝ → ℝ) (e f : Env rnd) (A : Arr2 (FC rnd)) (p : SPatt (FC rnd)) (c d : ScalarCoefs (FC rnd)),
    NoOverflow rnd ∧ e.OK (2 ^ (-45 : ℤ)) 8 8 ∧ f.OK (2 ^ (-45 : ℤ)) 8 8 ∧ UserArr A 16 ∧ A.at' 3 5 = ⟨4, 6⟩ ∧
    SPatt.init (.arr A) false = .ok p ∧ e.spht false p 3 2 = .ok c ∧ f.spht true p 3 2 = .ok d ∧
    ∀ n m : ℤ, IsMode 3 2 n m → ∃ z w, readMap c n m = some z ∧ readMap d n m = some w ∧ ‖FS.val z - FS.val w‖ ≤ 2 ^ (-18 : ℤ) := by
  obtain ⟨rnd, h⟩ := noOverflow_exists
  have hr := h.toIsRounding
  obtain ⟨C7, C8⟩ := FU.c16
  have hA : UserArr (FU.arr rnd 1 1) 16 := FU.arr_ok 1 1 (by norm_num) (by norm_num)
  have ok : ∀ J, (Env.mk (FP.goodFft rnd) (FA.goodLib rnd).sum ⟨rnd (Real.pi / 2), fun x => rnd (Real.cos x), fun x => rnd (Real.sin x)⟩ _ J).OK (2 ^ (-45 : ℤ)) 8 8 :=
    fun J => ⟨FU.fftOK_good hr, FA.goodLib_sum, FU.libmOK_rnd hr, libMWithin_rnd hr⟩
  obtain ⟨p, c, d, e1, e2, e3, -, -, e4⟩ := c109_spht h _ _ false true (FU.arr rnd 1 1) 16 hA C7 C8
    (by show 5 ≤ 2 ^ 27; norm_num) (by show (2 * 5 - 2) * 8 < 2 ^ 53; norm_num) (by show 8 % 2 = 0; norm_num) 3 2 (by norm_num) (by norm_num) (by show 3 < 5 - 1; norm_num) (by show 2 * 2 < 8; norm_num) (2 ^ (-45 : ℤ)) le_rfl
    (by show 1200 * (Nat.log 2 (4 * (2 * 5 - 2)) : ℝ) * Real.sqrt (((2 * 5 - 2 : ℕ) : ℝ) + 1) * 2 ^ (-45 : ℤ) ≤ 1
        rw [FU.r8, FU.l8]; norm_num) (ok fun _ => ⟨fun _ => 0, fun _ => 0, fun _ => 0⟩) (ok fun _ => ⟨fun _ => 1, fun _ => 7, fun _ => 3⟩)
  refine ⟨rnd, _, _, FU.arr rnd 1 1, p, c, d, h, ok fun _ => ⟨fun _ => 0, fun _ => 0, fun _ => 0⟩, ok fun _ => ⟨fun _ => 1, fun _ => 7, fun _ => 3⟩, hA, ?_, e1, e2, e3, fun n m hm => ?_⟩
  · unfold FU.arr
    rw [Arr2.at'_ofFn (by norm_num) (by norm_num)]
    norm_num
  obtain ⟨z, w, k1, k2, k3⟩ := e4 n m hm
  obtain ⟨h0, h1, -, -⟩ := hm
  have s1 := FU.sq1 h0 h1
  have po := FU.poly h0 h1
  have n0 : (0 : ℝ) ≤ n := by exact_mod_cast h0
  have n1 : (n : ℝ) ≤ 3 := by exact_mod_cast h1
  clear C7 C8
  have e45 : (2 : ℝ) ^ (-45 : ℤ) = 1 / 35184372088832 := by norm_num
  have e42 : (2 : ℝ) ^ (-42 : ℤ) = 1 / 4398046511104 := by norm_num
  have e33 : (2 : ℝ) ^ (-33 : ℤ) = 1 / 8589934592 := by norm_num
  have b1 : usphtErr (2 * 5 - 2) (2 ^ (-45 : ℤ)) 16 n ≤ 2 ^ (-19 : ℤ) := by
    unfold usphtErr
    rw [FU.r8, FU.l8]
    refine (mul_le_mul s1 le_rfl (by positivity) (by norm_num)).trans ?_
    rw [e45, e42, show (2 : ℝ) ^ (-19 : ℤ) = 1 / 524288 by norm_num]
    push_cast
    linarith
  have b2 : uksphtErr (2 * 5 - 2) (2 ^ (-45 : ℤ)) 16 n ≤ 2 ^ (-19 : ℤ) := by
    unfold uksphtErr
    rw [FU.r8, FU.l8]
    refine (mul_le_mul s1 le_rfl (by positivity) (by norm_num)).trans ?_
    rw [e45, e42, e33, show (2 : ℝ) ^ (-19 : ℤ) = 1 / 524288 by norm_num]
    push_cast
    linarith
  refine ⟨z, w, k1, k2, k3.trans ((add_le_add b1 b2).trans ?_)⟩
  norm_num

end Verif.Props
