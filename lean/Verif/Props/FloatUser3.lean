import Verif.Props.FloatUser2
/-!
# C106: the compiled extension, and vector patterns
-/
namespace Verif.Props
open Verif Finset
variable {rnd : ℝ → ℝ}

namespace FU

theorem c101 {C : ℝ} (hC : 2 ^ (-700 : ℤ) ≤ C) (hC' : C ≤ 2 ^ (399 : ℤ)) : 2 ^ (-700 : ℤ) ≤ 1.01 * C ∧ 1.01 * C ≤ 2 ^ (400 : ℤ) := by
  have C0 : 0 < C := lt_of_lt_of_le (by positivity) hC
  refine ⟨hC.trans (by linarith), ?_⟩
  refine (mul_le_mul_of_nonneg_left hC' (by norm_num)).trans ?_
  rw [show (400 : ℤ) = 1 + 399 by norm_num, zpow_add₀ (by norm_num)]
  exact mul_le_mul_of_nonneg_right (by norm_num) (by positivity)

theorem kap {r : ℕ} {κ : ℝ} (κ0 : 0 < κ) (h : 1200 * Real.sqrt ((r : ℝ) + 1) * κ ≤ 1) : κ ≤ 1 / 4 ∧ ∀ C : ℝ, 0 < C → Real.sqrt ((r : ℝ) + 1) * (3 * κ * (1.01 * C)) ≤ 1.01 * C / 400 := by
  have q1 := sqrt1 r
  generalize Real.sqrt ((r : ℝ) + 1) = q at *
  have : κ ≤ q * κ := le_mul_of_one_le_left κ0.le q1
  refine ⟨by linarith, fun C C0 => ?_⟩
  have : q * κ * C ≤ 1 / 1200 * C := mul_le_mul_of_nonneg_right (by linarith) C0.le
  linarith

theorem neg_one_fc : (-1 : FC rnd) = ⟨-1, 0⟩ := by
  refine FC.ext rfl ?_
  show -(0 : ℝ) = 0
  exact neg_zero

end FU

/-- C106: `ScalarPatternUniform(A)` followed by `spht(p, N, M)` in double precision, with the compiled extension and its kiss_fft; `lm` is the C math
library, `J` the content of freshly allocated memory, and of `lib` only the two-dimensional FFT is used, which is NumPy's. -/
theorem c106_kspht (hrd : NoOverflow rnd) {lm : Fl.LibM} (hl : LibMWithin lm) (J : ℕ → CJunk) (np : Fl.Fft1 rnd) (lib : Fl.NumLib rnd) (hlib : lib.fft = Fl.fft2Norm rnd np)
    (A : Arr2 (FC rnd)) (C : ℝ) (hA : UserArr A C) (hC : 2 ^ (-700 : ℤ) ≤ C) (hC' : C ≤ 2 ^ (399 : ℤ)) (hsz : A.rows ≤ 2 ^ 27) (hsz2 : (2 * A.rows - 2) * A.cols < 2 ^ 53) (hK : A.cols % 2 = 0)
    (N M : ℕ) (hN : N ≤ 1000) (hMN : M ≤ N) (hNr : N < A.rows - 1) (hMc : 2 * M < A.cols) (κ : ℝ) (hκ : 2 ^ (-45 : ℤ) ≤ κ)
    (hκ' : 1200 * Real.sqrt (((2 * A.rows - 2 : ℕ) : ℝ) + 1) * κ ≤ 1) (h1 : Fft1Within np κ (2 * A.rows - 2)) (h2 : Fft1Within np κ A.cols) :
    ∃ p ph c ch, SPatt.init (.arr (A.map FS.val)) false = .ok p ∧ SPatt.init (.arr A) false = .ok ph ∧
      spht .py p (some N) (some M) = .ok c ∧ Fl.kSpht rnd lib lm J ph (some N) (some M) = .ok ch ∧
      ch.WellFormed ∧ ch.nmax = N ∧ ch.mmax = M ∧ ∀ n m : ℤ, IsMode N M n m → ∃ w z, readMap c n m = some w ∧ readMap ch n m = some z ∧
        ‖FS.val z - w‖ ≤ uksphtErr (2 * A.rows - 2) κ C n := by
  have C0 : 0 < C := lt_of_lt_of_le (by positivity) hC
  have κ0 : 0 < κ := lt_of_lt_of_le (by positivity) hκ
  have hr2 := hA.rows
  have hsz' : A.rows ≤ 134217728 := by norm_num at hsz; exact hsz
  obtain ⟨D, E, e1, e2, r1, c1, r2, c2, hDE, hD⟩ := FU.doubled hrd hA hC hC' 1 (.inl rfl)
  have q1 := FU.sqrt1 (2 * A.rows - 2)
  obtain ⟨hC1, hC1'⟩ := FU.c101 hC hC'
  obtain ⟨κ4, hδ⟩ := FU.kap κ0 hκ'
  have hδ' := hδ C C0
  have hfft := fft2_within hrd np D (by omega) (by omega) (by rw [r1, c1]; exact hsz2) κ (1.01 * C) hκ κ4 (by rw [r1]; exact h1) (by rw [c1]; exact h2) hC1
    (hC1'.trans (zpow_le_zpow_right₀ (by norm_num) (by norm_num))) hD
  rw [← hlib] at hfft
  obtain ⟨c₁, ch, f1, f2, f3, f4, f5, f6⟩ := c100_spht hrd lib hl J D (by omega) (by omega) (by norm_num; omega) (by omega) N M hN hMN (by omega) (by omega)
    (1.01 * C) hC1 hC1' hD (3 * κ * (1.01 * C)) (by
      rw [r1]
      refine hδ'.trans ?_
      clear hC hC' hC1 hC1' hκ
      linarith) hfft
  obtain ⟨c, g1, x, y, g2, g3, g4⟩ := c75_any .py .py (D.map FS.val) E (by show D.rows % 2 = 0; omega) (by show 0 < D.rows; omega) (by show D.rows ≤ 2 ^ 29; norm_num; omega)
    (by rw [r2]; exact r1.symm) (by rw [c2]; exact c1.symm) N M (by omega) c₁ f1 (5 * uu * C) hDE
  have n1 := spht_ok_args f1
  refine ⟨⟨.arr E⟩, ⟨.arr D⟩, c, ch, ?_, ?_, g1, f2, f3, f4, f5, fun n m hm => ?_⟩
  · unfold SPatt.init
    show (continueSphere (A.map FS.val) 1).bind _ = _
    rw [Complex.ofReal_one] at e2
    rw [e2]; rfl
  · unfold SPatt.init
    show (continueSphere A ⟨1, 0⟩).bind _ = _
    rw [e1]; rfl
  obtain ⟨w, z, k1, k2, k3⟩ := f6 n m hm
  obtain ⟨b1, b2⟩ : c₁.nmax = N ∧ c₁.mmax = M := by
    obtain ⟨c', e, a1, a2, -⟩ := spht_value .py (D.map FS.val) (by show D.rows % 2 = 0; omega) (by show 0 < D.rows; omega) (by show D.rows ≤ 2 ^ 29; norm_num; omega) N M (by omega) n1
    rw [f1] at e; cases e
    exact ⟨a1, a2⟩
  obtain ⟨d1, d2⟩ : c.nmax = N ∧ c.mmax = M := by
    obtain ⟨c', e, a1, a2, -⟩ := spht_value .py E (by omega) (by omega) (by norm_num; omega) N M (by omega) (spht_ok_args g1)
    rw [g1] at e; cases e
    exact ⟨a1, a2⟩
  have hx := g2 n m (by rw [b1, b2]; exact hm)
  have hy := g3 n m (by rw [d1, d2]; exact hm)
  rw [hx] at k1
  cases k1
  refine ⟨y n m, z, hy, k2, ?_⟩
  have tot := (norm_add_le _ _).trans (add_le_add k3 (g4 n m hm))
  rw [sub_add_sub_cancel] at tot
  refine tot.trans ?_
  have n0 : (0 : ℝ) ≤ n := by exact_mod_cast hm.1
  unfold ksphtErr uksphtErr
  rw [r1]
  exact FU.num3 (by positivity) q1 hκ C0 (Real.sqrt_nonneg _) (by positivity) (by positivity)

namespace FU

/-- The doubled arrays of a vector pattern, in doubles and in exact arithmetic. -/
theorem tinit (hrd : NoOverflow rnd) {T P : Arr2 (FC rnd)} (hrow : P.rows = T.rows) (hcol : P.cols = T.cols) {C : ℝ} (hT : UserArr T C) (hP : UserArr P C) (hC : 2 ^ (-700 : ℤ) ≤ C) (hC' : C ≤ 2 ^ (399 : ℤ)) :
    ∃ D F D' F', TPatt.init (.arr T) (.arr P) false = .ok ⟨D, F⟩ ∧ TPatt.init (.arr (T.map FS.val)) (.arr (P.map FS.val)) false = .ok ⟨D', F'⟩ ∧
      D.rows = 2 * T.rows - 2 ∧ D.cols = T.cols ∧ F.rows = D.rows ∧ F.cols = D.cols ∧ D'.rows = D.rows ∧ D'.cols = D.cols ∧ F'.rows = D.rows ∧ F'.cols = D.cols ∧
      (∀ i j, i < D.rows → j < D.cols → ‖(D.map FS.val).at' i j - D'.at' i j‖ ≤ 5 * uu * C ∧ ‖(F.map FS.val).at' i j - F'.at' i j‖ ≤ 5 * uu * C) ∧
      (∀ i j, i < D.rows → j < D.cols → ‖FS.val (D.at' i j)‖ ≤ 1.01 * C) ∧ ∀ i j, i < D.rows → j < D.cols → ‖FS.val (F.at' i j)‖ ≤ 1.01 * C := by
  obtain ⟨D, D', e1, e2, r1, c1, r2, c2, h1, h2⟩ := doubled hrd hT hC hC' (-1) (.inr rfl)
  obtain ⟨F, F', e3, e4, r3, c3, r4, c4, h3, h4⟩ := doubled hrd hP hC hC' (-1) (.inr rfl)
  rw [Complex.ofReal_neg, Complex.ofReal_one] at e2 e4
  refine ⟨D, F, D', F', ?_, ?_, r1, c1, by omega, by omega, by omega, by omega, by omega, by omega,
    fun i j hi hj => ⟨h1 i j hi hj, h3 i j (by omega) (by omega)⟩, h2, fun i j hi hj => h4 i j (by omega) (by omega)⟩
  · unfold TPatt.init
    simp only
    rw [if_neg (by rw [hrow, hcol]; simp), neg_one_fc, e1]
    show (continueSphere P ⟨-1, 0⟩).bind _ = _
    rw [e3]; rfl
  · unfold TPatt.init
    simp only
    rw [if_neg (by show ¬¬(T.rows = P.rows ∧ T.cols = P.cols); rw [hrow, hcol]; simp), e2]
    show (continueSphere (P.map FS.val) (-1)).bind _ = _
    rw [e4]; rfl

end FU

/-- C106: `TransversePatternUniform(T, P)` followed by `vspht(p, N, M)`, all in double precision with the Python routines. -/
theorem c106_vspht (hrd : NoOverflow rnd) (lm : Fl.Libm) (hl : LibmOK lm) (np : Fl.Fft1 rnd) (sum : List (FC rnd) → FC rnd) (hsum : SumOK sum)
    (T P : Arr2 (FC rnd)) (hrow : P.rows = T.rows) (hcol : P.cols = T.cols) (C : ℝ) (hT : UserArr T C) (hP : UserArr P C) (hC : 2 ^ (-700 : ℤ) ≤ C) (hC' : C ≤ 2 ^ (399 : ℤ))
    (hsz : T.rows ≤ 2 ^ 27) (hsz2 : (2 * T.rows - 2) * T.cols < 2 ^ 53) (hK : T.cols % 2 = 0)
    (N M : ℕ) (hN : N ≤ 1000) (hMN : M ≤ N) (hNr : N < T.rows - 1) (hMc : 2 * M < T.cols) (κ : ℝ) (hκ : 2 ^ (-45 : ℤ) ≤ κ)
    (hκ' : 400 * Nat.log 2 (4 * (2 * T.rows - 2)) * Real.sqrt (((2 * T.rows - 2 : ℕ) : ℝ) + 1) * κ ≤ 1) (hnp : FftOK np κ (2 * T.rows - 2) T.cols) :
    ∃ p ph c ch, TPatt.init (.arr (T.map FS.val)) (.arr (P.map FS.val)) false = .ok p ∧ TPatt.init (.arr T) (.arr P) false = .ok ph ∧
      vspht .py p (some N) (some M) = .ok c ∧ Fl.vspht rnd (Fl.npLib rnd lm np sum) .py ph (some N) (some M) = .ok ch ∧
      ch.WellFormed ∧ ch.nmax = N ∧ ch.mmax = M ∧ ∀ n m : ℤ, IsMode N M n m → n ≠ 0 → ∃ w z, readMapV c n m = some w ∧ readMapV ch n m = some z ∧
        ‖FS.val z.1 - w.1‖ ≤ uvsphtErr (2 * T.rows - 2) M κ C n ∧ ‖FS.val z.2 - w.2‖ ≤ uvsphtErr (2 * T.rows - 2) M κ C n := by
  have C0 : 0 < C := lt_of_lt_of_le (by positivity) hC
  have κ0 : 0 < κ := lt_of_lt_of_le (by positivity) hκ
  have h2 := hT.rows
  have hsz' : T.rows ≤ 134217728 := by norm_num at hsz; exact hsz
  obtain ⟨D, F, D', F', i1, i2, r1, c1, r2, c2, r3, c3, r4, c4, hd, hD, hF⟩ := FU.tinit hrd hrow hcol hT hP hC hC'
  have L3 := FU.log3 (r := 2 * T.rows - 2) (by omega)
  have q1 := FU.sqrt1 (2 * T.rows - 2)
  obtain ⟨hC1, hC1'⟩ := FU.c101 hC hC'
  obtain ⟨L, hL⟩ : ∃ L : ℝ, L = Nat.log 2 (4 * (2 * T.rows - 2)) := ⟨_, rfl⟩
  obtain ⟨q, hq⟩ : ∃ q, q = Real.sqrt (((2 * T.rows - 2 : ℕ) : ℝ) + 1) := ⟨_, rfl⟩
  rw [← hL, ← hq] at hκ'
  rw [← hL] at L3
  rw [← hq] at q1
  have hk : 1200 * q * κ ≤ 1 := by
    have : 3 * (q * κ) ≤ L * (q * κ) := mul_le_mul_of_nonneg_right L3 (by positivity)
    clear hC hC' hC1 hC1' hκ
    linarith
  obtain ⟨κ4, hδ⟩ := FU.kap (r := 2 * T.rows - 2) κ0 (by rw [← hq]; exact hk)
  have hδ' := hδ C C0
  have hk2 : 213 * L * q * κ ≤ 1 := by
    have : 0 ≤ L * q * κ := by positivity
    clear hC hC' hC1 hC1' hκ
    linarith
  have hf := fun (G : Arr2 (FC rnd)) (g1 : G.rows = D.rows) (g2 : G.cols = D.cols) (hG : ∀ i j, i < G.rows → j < G.cols → ‖FS.val (G.at' i j)‖ ≤ 1.01 * C) =>
    fft2_within hrd np G (by omega) (by omega) (by rw [g1, g2, r1, c1]; exact hsz2) κ (1.01 * C) hκ κ4 (by rw [g1, r1]; exact hnp.rows) (by rw [g2, c1]; exact hnp.cols) hC1
      (hC1'.trans (zpow_le_zpow_right₀ (by norm_num) (by norm_num))) hG
  obtain ⟨c₁, ch, f1, f2, f3, f4, f5, f6⟩ := c104_vspht hrd (Fl.npLib rnd lm np sum) np hsum D F r2 c2 (by omega) (by omega) (by norm_num; omega) (by omega) N M
    ((pow1j_near hrd lm hl).mono (hMN.trans hN)) hN hMN (by omega) (by omega)
    (1.01 * C) hC1 hC1' hD hF (3 * κ * (1.01 * C)) κ (by rw [r1]; exact hδ') (hf D rfl rfl hD) (hf F r2 c2 fun i j hi hj => hF i j (by omega) (by omega)) hκ (by rw [r1, ← hq, ← hL]; exact hk2) (by rw [r1]; exact hnp.smooth)
  obtain ⟨c, g1, x, y, x', y', g2, g3, g4⟩ := c77_any .py .py (D.map FS.val) (F.map FS.val) D' F' r2 c2 r3 c3 r4 c4 (by show D.rows % 2 = 0; omega) (by show 0 < D.rows; omega) (by show D.rows ≤ 2 ^ 29; norm_num; omega)
    N M (by omega) c₁ f1 (5 * uu * C) hd
  refine ⟨⟨D', F'⟩, ⟨D, F⟩, c, ch, i2, i1, g1, f2, f3, f4, f5, fun n m hm n0 => ?_⟩
  obtain ⟨w, z, k1, k2, k3, k4⟩ := f6 n m hm n0
  obtain ⟨b1, b2⟩ : c₁.nmax = N ∧ c₁.mmax = M := by
    obtain ⟨c', e, a1, a2, -⟩ := vspht_value .py (D.map FS.val) (F.map FS.val) r2 c2 (by show D.rows % 2 = 0; omega) (by show 0 < D.rows; omega) (by show D.rows ≤ 2 ^ 29; norm_num; omega) N M (by omega) (vspht_ok_args f1)
    rw [f1] at e; cases e
    exact ⟨a1, a2⟩
  obtain ⟨d1, d2⟩ : c.nmax = N ∧ c.mmax = M := by
    obtain ⟨c', e, a1, a2, -⟩ := vspht_value .py D' F' (by omega) (by omega) (by omega) (by omega) (by norm_num; omega) N M (by omega) (vspht_ok_args g1)
    rw [g1] at e; cases e
    exact ⟨a1, a2⟩
  have hx := g2 n m (by rw [b1, b2]; exact hm) n0
  have hy := g3 n m (by rw [d1, d2]; exact hm) n0
  rw [hx] at k1
  cases k1
  have n0' : (0 : ℝ) ≤ n := by exact_mod_cast hm.1
  have hV : (|m| + ((D.map FS.val).rows / 2 + 1 : ℕ) : ℝ) ≤ ((2 * T.rows - 2 : ℕ) : ℝ) / 2 + M + 3 := by
    have m1 : ((|m| : ℤ) : ℝ) ≤ M := by exact_mod_cast hm.2.2.2
    have m2 : (((D.map FS.val).rows / 2 + 1 : ℕ) : ℝ) ≤ ((2 * T.rows - 2 : ℕ) : ℝ) / 2 + 1 := by
      rw [show (D.map FS.val).rows = 2 * T.rows - 2 from r1]
      push_cast
      gcongr
      exact Nat.cast_div_le
    linarith
  have fin : ∀ a b d : ℂ, ‖a - b‖ ≤ vsphtErr D.rows M (1.01 * C) (3 * κ * (1.01 * C)) (pconvErr D.rows κ (((D.rows : ℝ) / 2 + M + 3) * (1.01 * C))) n →
      ‖b - d‖ ≤ 1 / Real.sqrt ((n : ℝ) * ((n : ℝ) + 1)) * ((2 * n + 1) * Real.sqrt ((2 * n + 1) / (4 * Real.pi)) * (20 * ((|m| + ((D.map FS.val).rows / 2 + 1 : ℕ) : ℝ) * (5 * uu * C)))) →
      ‖a - d‖ ≤ uvsphtErr (2 * T.rows - 2) M κ C n := by
    intro a b d h1 h2
    have tot := (norm_add_le _ _).trans (add_le_add h1 h2)
    rw [sub_add_sub_cancel] at tot
    refine tot.trans ?_
    unfold vsphtErr pconvErr uvsphtErr
    rw [r1, ← hq, ← hL]
    exact FU.num2 L3 q1 hκ C0 (Real.sqrt_nonneg _) (by positivity) (by positivity) (by positivity) hV (by positivity)
  exact ⟨_, z, hy, k2, fin _ _ _ k3 (g4 n m hm n0).1, fin _ _ _ k4 (g4 n m hm n0).2⟩

/-- C106: `TransversePatternUniform(T, P)` followed by `vspht(p, N, M)` in double precision, with the compiled extension and its kiss_fft. -/
theorem c106_kvspht (hrd : NoOverflow rnd) {lm : Fl.LibM} (hl : LibMWithin lm) (J : ℕ → CJunk) (np : Fl.Fft1 rnd) (lib : Fl.NumLib rnd) (hlib : lib.fft = Fl.fft2Norm rnd np)
    (T P : Arr2 (FC rnd)) (hrow : P.rows = T.rows) (hcol : P.cols = T.cols) (C : ℝ) (hT : UserArr T C) (hP : UserArr P C) (hC : 2 ^ (-700 : ℤ) ≤ C) (hC' : C ≤ 2 ^ (399 : ℤ))
    (hsz : T.rows ≤ 2 ^ 27) (hsz2 : (2 * T.rows - 2) * T.cols < 2 ^ 53) (hK : T.cols % 2 = 0)
    (N M : ℕ) (hN : N ≤ 1000) (hMN : M ≤ N) (hNr : N < T.rows - 1) (hMc : 2 * M < T.cols) (κ : ℝ) (hκ : 2 ^ (-45 : ℤ) ≤ κ)
    (hκ' : 1200 * Real.sqrt (((2 * T.rows - 2 : ℕ) : ℝ) + 1) * κ ≤ 1) (h1 : Fft1Within np κ (2 * T.rows - 2)) (h2 : Fft1Within np κ T.cols) :
    ∃ p ph c ch, TPatt.init (.arr (T.map FS.val)) (.arr (P.map FS.val)) false = .ok p ∧ TPatt.init (.arr T) (.arr P) false = .ok ph ∧
      vspht .py p (some N) (some M) = .ok c ∧ Fl.kVspht rnd lib lm J ph (some N) (some M) = .ok ch ∧
      ch.WellFormed ∧ ch.nmax = N ∧ ch.mmax = M ∧ ∀ n m : ℤ, IsMode N M n m → n ≠ 0 → ∃ w z, readMapV c n m = some w ∧ readMapV ch n m = some z ∧
        ‖FS.val z.1 - w.1‖ ≤ ukvsphtErr (2 * T.rows - 2) M κ C n ∧ ‖FS.val z.2 - w.2‖ ≤ ukvsphtErr (2 * T.rows - 2) M κ C n := by
  have C0 : 0 < C := lt_of_lt_of_le (by positivity) hC
  have κ0 : 0 < κ := lt_of_lt_of_le (by positivity) hκ
  have hr2 := hT.rows
  have hsz' : T.rows ≤ 134217728 := by norm_num at hsz; exact hsz
  obtain ⟨D, F, D', F', i1, i2, r1, c1, r2, c2, r3, c3, r4, c4, hd, hD, hF⟩ := FU.tinit hrd hrow hcol hT hP hC hC'
  have q1 := FU.sqrt1 (2 * T.rows - 2)
  obtain ⟨hC1, hC1'⟩ := FU.c101 hC hC'
  obtain ⟨κ4, hδ⟩ := FU.kap κ0 hκ'
  have hδ' := hδ C C0
  have hf := fun (G : Arr2 (FC rnd)) (g1 : G.rows = D.rows) (g2 : G.cols = D.cols) (hG : ∀ i j, i < G.rows → j < G.cols → ‖FS.val (G.at' i j)‖ ≤ 1.01 * C) =>
    fft2_within hrd np G (by omega) (by omega) (by rw [g1, g2, r1, c1]; exact hsz2) κ (1.01 * C) hκ κ4 (by rw [g1, r1]; exact h1) (by rw [g2, c1]; exact h2) hC1
      (hC1'.trans (zpow_le_zpow_right₀ (by norm_num) (by norm_num))) hG
  rw [← hlib] at hf
  obtain ⟨c₁, ch, f1, f2, f3, f4, f5, f6⟩ := c101_vspht hrd lib hl J D F r2 c2 (by omega) (by omega) (by norm_num; omega) (by omega) N M hN hMN (by omega) (by omega)
    (1.01 * C) hC1 hC1' hD hF (3 * κ * (1.01 * C)) (by rw [r1]; exact hδ') (hf D rfl rfl hD) (hf F r2 c2 fun i j hi hj => hF i j (by omega) (by omega))
  obtain ⟨c, g1, x, y, x', y', g2, g3, g4⟩ := c77_any .py .py (D.map FS.val) (F.map FS.val) D' F' r2 c2 r3 c3 r4 c4 (by show D.rows % 2 = 0; omega) (by show 0 < D.rows; omega) (by show D.rows ≤ 2 ^ 29; norm_num; omega)
    N M (by omega) c₁ f1 (5 * uu * C) hd
  refine ⟨⟨D', F'⟩, ⟨D, F⟩, c, ch, i2, i1, g1, f2, f3, f4, f5, fun n m hm n0 => ?_⟩
  obtain ⟨w, z, k1, k2, k3, k4⟩ := f6 n m hm n0
  obtain ⟨b1, b2⟩ : c₁.nmax = N ∧ c₁.mmax = M := by
    obtain ⟨c', e, a1, a2, -⟩ := vspht_value .py (D.map FS.val) (F.map FS.val) r2 c2 (by show D.rows % 2 = 0; omega) (by show 0 < D.rows; omega) (by show D.rows ≤ 2 ^ 29; norm_num; omega) N M (by omega) (vspht_ok_args f1)
    rw [f1] at e; cases e
    exact ⟨a1, a2⟩
  obtain ⟨d1, d2⟩ : c.nmax = N ∧ c.mmax = M := by
    obtain ⟨c', e, a1, a2, -⟩ := vspht_value .py D' F' (by omega) (by omega) (by omega) (by omega) (by norm_num; omega) N M (by omega) (vspht_ok_args g1)
    rw [g1] at e; cases e
    exact ⟨a1, a2⟩
  have hx := g2 n m (by rw [b1, b2]; exact hm) n0
  have hy := g3 n m (by rw [d1, d2]; exact hm) n0
  rw [hx] at k1
  cases k1
  have n0' : (0 : ℝ) ≤ n := by exact_mod_cast hm.1
  have hV : (|m| + ((D.map FS.val).rows / 2 + 1 : ℕ) : ℝ) ≤ ((2 * T.rows - 2 : ℕ) : ℝ) / 2 + M + 3 := by
    have m1 : ((|m| : ℤ) : ℝ) ≤ M := by exact_mod_cast hm.2.2.2
    have m2 : (((D.map FS.val).rows / 2 + 1 : ℕ) : ℝ) ≤ ((2 * T.rows - 2 : ℕ) : ℝ) / 2 + 1 := by
      rw [show (D.map FS.val).rows = 2 * T.rows - 2 from r1]
      push_cast
      gcongr
      exact Nat.cast_div_le
    linarith
  have fin : ∀ a b d : ℂ, ‖a - b‖ ≤ kvsphtErr D.rows M (1.01 * C) (3 * κ * (1.01 * C)) n →
      ‖b - d‖ ≤ 1 / Real.sqrt ((n : ℝ) * ((n : ℝ) + 1)) * ((2 * n + 1) * Real.sqrt ((2 * n + 1) / (4 * Real.pi)) * (20 * ((|m| + ((D.map FS.val).rows / 2 + 1 : ℕ) : ℝ) * (5 * uu * C)))) →
      ‖a - d‖ ≤ ukvsphtErr (2 * T.rows - 2) M κ C n := by
    intro a b d h1 h2
    have tot := (norm_add_le _ _).trans (add_le_add h1 h2)
    rw [sub_add_sub_cancel] at tot
    refine tot.trans ?_
    unfold kvsphtErr ukvsphtErr
    rw [r1]
    exact FU.num4 (by positivity) q1 hκ C0 (Real.sqrt_nonneg _) (by positivity) (by positivity) (by positivity) hV (by positivity)
  exact ⟨_, z, hy, k2, fin _ _ _ k3 (g4 n m hm n0).1, fin _ _ _ k4 (g4 n m hm n0).2⟩

end Verif.Props
