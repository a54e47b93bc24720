import Verif.Props.FloatUser1
/-!
# C106: `spht` and `vspht` of the arrays a user supplies

Nothing is assumed but the accuracy of NumPy's one-dimensional FFTs, the order in which `np.sum` adds, and the C library.
-/
namespace Verif.Props
open Verif Finset
variable {rnd : ℝ → ℝ}

/-- NumPy's one-dimensional FFTs are within `κ` for the lengths used on `r` rows and `k` columns of doubled samples. -/
structure FftOK (np : Fl.Fft1 rnd) (κ : ℝ) (r k : ℕ) : Prop where
  smooth : FftsWithin np κ r
  rows : Fft1Within np κ r
  cols : Fft1Within np κ k

/-- What is asked of the user's array: finite doubles of modulus at most `C`, at least two rows, and at the two poles no part that is tiny and nonzero. -/
structure UserArr (A : Arr2 (FC rnd)) (C : ℝ) : Prop where
  rows : 2 ≤ A.rows
  double : ∀ i j, i < A.rows → j < A.cols → IsDouble (A.at' i j).re ∧ IsDouble (A.at' i j).im
  pole : ∀ i j, i = 0 ∨ i = A.rows - 1 → j < A.cols → PoleOK (A.at' i j)
  bound : ∀ i j, i < A.rows → j < A.cols → ‖FS.val (A.at' i j)‖ ≤ C

/-- The error bound of C106 for `spht`: `rows` doubled rows, FFT accuracy `κ`, samples of modulus at most `C`, degree `n`. -/
noncomputable def usphtErr (rows : ℕ) (κ C : ℝ) (n : ℤ) : ℝ :=
  Real.sqrt ((2 * n + 1) / (4 * Real.pi)) * ((n + 1) * ((n : ℝ) + 4) ^ 3 * 2 ^ (-42 : ℤ) * C + (2 * n + 1) * (240 * Nat.log 2 (4 * rows) * Real.sqrt ((rows : ℝ) + 1) * κ * C))

/-- The error bound of C106 for `vspht`; `M` is the largest order. -/
noncomputable def uvsphtErr (rows M : ℕ) (κ C : ℝ) (n : ℤ) : ℝ :=
  1 / Real.sqrt ((n : ℝ) * ((n : ℝ) + 1)) * (Real.sqrt ((2 * n + 1) / (4 * Real.pi)) * (((rows : ℝ) / 2 + M + 3) *
    ((n + 1) * ((n : ℝ) + 4) ^ 3 * 2 ^ (-41 : ℤ) * C + (2 * n + 1) * (240 * Nat.log 2 (4 * rows) * Real.sqrt ((rows : ℝ) + 1) * κ * C))))

/-- The error bound of C106 for `spht` with the compiled extension. -/
noncomputable def uksphtErr (rows : ℕ) (κ C : ℝ) (n : ℤ) : ℝ :=
  Real.sqrt ((2 * n + 1) / (4 * Real.pi)) * ((n + 1) * ((n : ℝ) + 4) ^ 3 * 2 ^ (-42 : ℤ) * C +
    (2 * n + 1) * (Real.sqrt ((rows : ℝ) + 1) * (61 * κ + 2 ^ (-33 : ℤ) * (Nat.log 2 (4 * rows)) ^ 2) * C))

/-- The error bound of C106 for `vspht` with the compiled extension. -/
noncomputable def ukvsphtErr (rows M : ℕ) (κ C : ℝ) (n : ℤ) : ℝ :=
  1 / Real.sqrt ((n : ℝ) * ((n : ℝ) + 1)) * (Real.sqrt ((2 * n + 1) / (4 * Real.pi)) * (((rows : ℝ) / 2 + M + 3) *
    ((n + 1) * ((n : ℝ) + 4) ^ 3 * 2 ^ (-41 : ℤ) * C + (2 * n + 1) * (Real.sqrt ((rows : ℝ) + 1) * (61 * κ + 2 ^ (-33 : ℤ) * (Nat.log 2 (4 * rows)) ^ 2) * C))))

namespace FU

theorem moderate {A : Arr2 (FC rnd)} {C : ℝ} (h : UserArr A C) (hC' : C ≤ 2 ^ (399 : ℤ)) (i j : ℕ) (hi : i < A.rows) (hj : j < A.cols) : Moderate (A.at' i j) := by
  have b := h.bound i j hi hj
  have big : (2 : ℝ) ^ (399 : ℤ) < 2 ^ 500 := by
    rw [← zpow_natCast (2 : ℝ) 500]; exact zpow_lt_zpow_right₀ (by norm_num) (by norm_num)
  exact ⟨(h.double i j hi hj).1, (h.double i j hi hj).2, lt_of_le_of_lt ((Complex.abs_re_le_norm (FS.val (A.at' i j))).trans (b.trans hC')) big,
    lt_of_le_of_lt ((Complex.abs_im_le_norm (FS.val (A.at' i j))).trans (b.trans hC')) big⟩

/-- The doubled array in doubles and in exact arithmetic. -/
theorem doubled (hrd : NoOverflow rnd) {A : Arr2 (FC rnd)} {C : ℝ} (h : UserArr A C) (hC : 2 ^ (-700 : ℤ) ≤ C) (hC' : C ≤ 2 ^ (399 : ℤ)) (ε : ℝ) (hε : ε = 1 ∨ ε = -1) :
    ∃ D E, continueSphere A ⟨ε, 0⟩ = .ok D ∧ continueSphere (A.map FS.val) (ε : ℂ) = .ok E ∧ D.rows = 2 * A.rows - 2 ∧ D.cols = A.cols ∧ E.rows = 2 * A.rows - 2 ∧ E.cols = A.cols ∧
      (∀ i j, i < D.rows → j < D.cols → ‖(D.map FS.val).at' i j - E.at' i j‖ ≤ 5 * uu * C) ∧ ∀ i j, i < D.rows → j < D.cols → ‖FS.val (D.at' i j)‖ ≤ 1.01 * C := by
  have u0 := uu_pos
  have u1 := FS.uu_le16
  have C0 : 0 < C := lt_of_lt_of_le (by positivity) hC
  obtain ⟨D, E, e1, e2, r1, c1, r2, c2, hv⟩ := continue_err hrd A ε hε h.rows (moderate h hC') h.pole hC h.bound
  refine ⟨D, E, e1, e2, r1, c1, r2, c2, fun i j hi hj => by rw [Arr2.at'_map _ _ hi hj]; exact (hv i j hi hj).1, fun i j hi hj => ?_⟩
  obtain ⟨v1, v2⟩ := hv i j hi hj
  have k := norm_add_le (FS.val (D.at' i j) - E.at' i j) (E.at' i j)
  rw [sub_add_cancel] at k
  have q2 : uu * C ≤ 0.001 * C := mul_le_mul_of_nonneg_right (by clear hC hC'; linarith) C0.le
  clear hC hC'
  linarith

theorem log3 {r : ℕ} (h : 2 ≤ r) : (3 : ℝ) ≤ Nat.log 2 (4 * r) := by
  have : 3 ≤ Nat.log 2 (4 * r) := Nat.le_log_of_pow_le (by norm_num) (by omega)
  exact_mod_cast this

theorem sqrt1 (r : ℕ) : 1 ≤ Real.sqrt ((r : ℝ) + 1) := by
  rw [Real.one_le_sqrt]
  have : (0 : ℝ) ≤ r := by positivity
  linarith

theorem num1 {L q κ C s P X : ℝ} (hL : 3 ≤ L) (hq : 1 ≤ q) (hκ : 2 ^ (-45 : ℤ) ≤ κ) (hC : 0 < C) (hs : 0 ≤ s) (hP : 0 ≤ P) (hX : 0 ≤ X) :
    s * (P * 2 ^ (-43 : ℤ) * (1.01 * C) + X * (213 * L * q * κ * (1.01 * C) + 20 * q * (3 * κ * (1.01 * C) + 2 ^ (-49 : ℤ) * (1.01 * C)))) + X * s * (20 * (5 * uu * C)) ≤
      s * (P * 2 ^ (-42 : ℤ) * C + X * (240 * L * q * κ * C)) := by
  have κ0 : 0 < κ := lt_of_lt_of_le (by positivity) hκ
  have e1 : (2 : ℝ) ^ (-49 : ℤ) ≤ κ / 16 := by
    rw [le_div_iff₀ (by norm_num)]
    refine le_trans (le_of_eq ?_) hκ
    norm_num
  have e2 : uu ≤ κ / 256 := by
    rw [le_div_iff₀ (by norm_num)]
    refine le_trans (le_of_eq ?_) hκ
    unfold uu
    norm_num
  have e3 : (2 : ℝ) ^ (-43 : ℤ) * 2 = 2 ^ (-42 : ℤ) := by norm_num
  have p43 : (0 : ℝ) < 2 ^ (-43 : ℤ) := by positivity
  rw [← e3]
  have p49 : (0 : ℝ) < 2 ^ (-49 : ℤ) := by positivity
  have u0 := uu_pos
  clear hκ e3
  generalize (2 : ℝ) ^ (-43 : ℤ) = t43 at *
  generalize (2 : ℝ) ^ (-49 : ℤ) = t49 at *
  have A : P * t43 * (1.01 * C) ≤ P * (t43 * 2) * C := by
    have : 0 ≤ P * t43 * C := by positivity
    linarith
  have qC : 0 < q * C := by positivity
  have B1 : 20 * q * (t49 * (1.01 * C)) ≤ 20 * q * (κ / 16 * (1.01 * C)) := by gcongr
  have B2 : 20 * (5 * uu * C) ≤ 20 * (5 * (κ / 256) * (q * C)) := by
    have : C ≤ q * C := le_mul_of_one_le_left hC.le hq
    gcongr
  have B3 : 3 * (q * κ * C) ≤ L * (q * κ * C) := mul_le_mul_of_nonneg_right hL (by positivity)
  have B : 213 * L * q * κ * (1.01 * C) + 20 * q * (3 * κ * (1.01 * C) + t49 * (1.01 * C)) + 20 * (5 * uu * C) ≤ 240 * L * q * κ * C := by
    have : 0 < q * κ * C := by positivity
    linarith
  have B' := mul_le_mul_of_nonneg_left B hX
  have T := mul_le_mul_of_nonneg_left (add_le_add A B') hs
  refine le_trans (le_of_eq ?_) T
  ring

theorem num2 {L q κ C s P X W V w : ℝ} (hL : 3 ≤ L) (hq : 1 ≤ q) (hκ : 2 ^ (-45 : ℤ) ≤ κ) (hC : 0 < C) (hs : 0 ≤ s) (hP : 0 ≤ P) (hX : 0 ≤ X) (hW : 0 ≤ W) (hV : V ≤ W) (hw : 0 ≤ w) :
    w * (s * (P * 2 ^ (-42 : ℤ) * (W * (1.01 * C)) + X * (213 * L * q * κ * (W * (1.01 * C)) + 20 * q * W * (3 * κ * (1.01 * C) + 2 ^ (-48 : ℤ) * (1.01 * C))))) + w * (X * s * (20 * (V * (5 * uu * C)))) ≤
      w * (s * (W * (P * 2 ^ (-41 : ℤ) * C + X * (240 * L * q * κ * C)))) := by
  have κ0 : 0 < κ := lt_of_lt_of_le (by positivity) hκ
  have e1 : (2 : ℝ) ^ (-48 : ℤ) ≤ κ / 8 := by
    rw [le_div_iff₀ (by norm_num)]
    refine le_trans (le_of_eq ?_) hκ
    norm_num
  have e2 : uu ≤ κ / 256 := by
    rw [le_div_iff₀ (by norm_num)]
    refine le_trans (le_of_eq ?_) hκ
    unfold uu
    norm_num
  have e3 : (2 : ℝ) ^ (-42 : ℤ) * 2 = 2 ^ (-41 : ℤ) := by norm_num
  have p42 : (0 : ℝ) < 2 ^ (-42 : ℤ) := by positivity
  rw [← e3]
  have p48 : (0 : ℝ) < 2 ^ (-48 : ℤ) := by positivity
  have u0 := uu_pos
  clear hκ e3
  generalize (2 : ℝ) ^ (-42 : ℤ) = t42 at *
  generalize (2 : ℝ) ^ (-48 : ℤ) = t48 at *
  have A : P * t42 * (1.01 * C) ≤ P * (t42 * 2) * C := by
    have : 0 ≤ P * t42 * C := by positivity
    linarith
  have B1 : 20 * q * (t48 * (1.01 * C)) ≤ 20 * q * (κ / 8 * (1.01 * C)) := by gcongr
  have B2 : 20 * (5 * uu * C) ≤ 20 * (5 * (κ / 256) * (q * C)) := by
    have : C ≤ q * C := le_mul_of_one_le_left hC.le hq
    gcongr
  have B3 : 3 * (q * κ * C) ≤ L * (q * κ * C) := mul_le_mul_of_nonneg_right hL (by positivity)
  have B : 213 * L * q * κ * (1.01 * C) + 20 * q * (3 * κ * (1.01 * C) + t48 * (1.01 * C)) + 20 * (5 * uu * C) ≤ 240 * L * q * κ * C := by
    have : 0 < q * κ * C := by positivity
    linarith
  have B' := mul_le_mul_of_nonneg_left B hX
  have T := mul_le_mul_of_nonneg_left (mul_le_mul_of_nonneg_left (add_le_add A B') hW) hs
  rw [← mul_add]
  refine mul_le_mul_of_nonneg_left ?_ hw
  refine le_trans ?_ T
  have V' : X * s * (20 * (V * (5 * uu * C))) ≤ X * s * (20 * (W * (5 * uu * C))) := by gcongr
  refine (add_le_add le_rfl V').trans (le_of_eq ?_)
  ring

theorem num3 {Z q κ C s P X : ℝ} (hZ : 0 ≤ Z) (hq : 1 ≤ q) (hκ : 2 ^ (-45 : ℤ) ≤ κ) (hC : 0 < C) (hs : 0 ≤ s) (hP : 0 ≤ P) (hX : 0 ≤ X) :
    s * (P * 2 ^ (-43 : ℤ) * (1.01 * C) + X * (q * (20 * (3 * κ * (1.01 * C)) + 2 ^ (-34 : ℤ) * Z * (1.01 * C)))) + X * s * (20 * (5 * uu * C)) ≤
      s * (P * 2 ^ (-42 : ℤ) * C + X * (q * (61 * κ + 2 ^ (-33 : ℤ) * Z) * C)) := by
  have κ0 : 0 < κ := lt_of_lt_of_le (by positivity) hκ
  have e2 : uu ≤ κ / 256 := by
    rw [le_div_iff₀ (by norm_num)]
    refine le_trans (le_of_eq ?_) hκ
    unfold uu
    norm_num
  have e3 : (2 : ℝ) ^ (-43 : ℤ) * 2 = 2 ^ (-42 : ℤ) := by norm_num
  have e4 : (2 : ℝ) ^ (-34 : ℤ) * 2 = 2 ^ (-33 : ℤ) := by norm_num
  have p43 : (0 : ℝ) < 2 ^ (-43 : ℤ) := by positivity
  have p34 : (0 : ℝ) < 2 ^ (-34 : ℤ) := by positivity
  rw [← e3, ← e4]
  have u0 := uu_pos
  clear hκ e3 e4
  generalize (2 : ℝ) ^ (-43 : ℤ) = t43 at *
  generalize (2 : ℝ) ^ (-34 : ℤ) = t34 at *
  have A : P * t43 * (1.01 * C) ≤ P * (t43 * 2) * C := by
    have : 0 ≤ P * t43 * C := by positivity
    linarith
  have B2 : 20 * (5 * uu * C) ≤ 20 * (5 * (κ / 256) * (q * C)) := by
    have : C ≤ q * C := le_mul_of_one_le_left hC.le hq
    gcongr
  have B : q * (20 * (3 * κ * (1.01 * C)) + t34 * Z * (1.01 * C)) + 20 * (5 * uu * C) ≤ q * (61 * κ + t34 * 2 * Z) * C := by
    have k1 : 0 < q * κ * C := by positivity
    have k2 : 0 ≤ q * (t34 * Z) * C := by positivity
    linarith
  have B' := mul_le_mul_of_nonneg_left B hX
  have T := mul_le_mul_of_nonneg_left (add_le_add A B') hs
  refine le_trans (le_of_eq ?_) T
  ring

theorem num4 {Z q κ C s P X W V w : ℝ} (hZ : 0 ≤ Z) (hq : 1 ≤ q) (hκ : 2 ^ (-45 : ℤ) ≤ κ) (hC : 0 < C) (hs : 0 ≤ s) (hP : 0 ≤ P) (hX : 0 ≤ X) (hW : 0 ≤ W) (hV : V ≤ W) (hw : 0 ≤ w) :
    w * (s * (W * (P * 2 ^ (-42 : ℤ) * (1.01 * C) + X * (q * (20 * (3 * κ * (1.01 * C)) + 2 ^ (-34 : ℤ) * Z * (1.01 * C)))))) + w * (X * s * (20 * (V * (5 * uu * C)))) ≤
      w * (s * (W * (P * 2 ^ (-41 : ℤ) * C + X * (q * (61 * κ + 2 ^ (-33 : ℤ) * Z) * C)))) := by
  have u0 := uu_pos
  have h := mul_le_mul_of_nonneg_left (num3 (P := 2 * P) (s := s) hZ hq hκ hC hs (by positivity) hX) hW
  have V' : X * s * (20 * (V * (5 * uu * C))) ≤ X * s * (20 * (W * (5 * uu * C))) := by gcongr
  rw [← mul_add]
  refine mul_le_mul_of_nonneg_left ((add_le_add le_rfl V').trans ?_) hw
  have e1 : (2 : ℝ) ^ (-42 : ℤ) = 2 * 2 ^ (-43 : ℤ) := by norm_num
  have e2 : (2 : ℝ) ^ (-41 : ℤ) = 2 * 2 ^ (-42 : ℤ) := by norm_num
  rw [e2]
  calc _ = W * (s * (2 * P * 2 ^ (-43 : ℤ) * (1.01 * C) + X * (q * (20 * (3 * κ * (1.01 * C)) + 2 ^ (-34 : ℤ) * Z * (1.01 * C)))) + X * s * (20 * (5 * uu * C))) := by rw [e1]; ring
    _ ≤ _ := h
    _ = _ := by ring

end FU

/-- C106: `ScalarPatternUniform(A)` followed by `spht(p, N, M)`, all in double precision with the Python routines.  `A` is the user's array of
doubles; `lm` is the C library below CPython's complex power, `np` supplies NumPy's one-dimensional FFTs, within `κ` of the exact transforms
relative to the sum of the moduli, and `sum` is `np.sum` in any order of addition.  The result is compared with what the same two calls
return in exact arithmetic on the values of the same doubles. -/
theorem c106_spht (hrd : NoOverflow rnd) (lm : Fl.Libm) (hl : LibmOK lm) (np : Fl.Fft1 rnd) (sum : List (FC rnd) → FC rnd) (hsum : SumOK sum)
    (A : Arr2 (FC rnd)) (C : ℝ) (hA : UserArr A C) (hC : 2 ^ (-700 : ℤ) ≤ C) (hC' : C ≤ 2 ^ (399 : ℤ)) (hsz : A.rows ≤ 2 ^ 27) (hsz2 : (2 * A.rows - 2) * A.cols < 2 ^ 53) (hK : A.cols % 2 = 0)
    (N M : ℕ) (hN : N ≤ 1000) (hMN : M ≤ N) (hNr : N < A.rows - 1) (hMc : 2 * M < A.cols) (κ : ℝ) (hκ : 2 ^ (-45 : ℤ) ≤ κ)
    (hκ' : 213 * Nat.log 2 (4 * (2 * A.rows - 2)) * Real.sqrt (((2 * A.rows - 2 : ℕ) : ℝ) + 1) * κ ≤ 1) (hnp : FftOK np κ (2 * A.rows - 2) A.cols) :
    ∃ p ph c ch, SPatt.init (.arr (A.map FS.val)) false = .ok p ∧ SPatt.init (.arr A) false = .ok ph ∧
      spht .py p (some N) (some M) = .ok c ∧ Fl.spht rnd (Fl.npLib rnd lm np sum) .py ph (some N) (some M) = .ok ch ∧
      ch.WellFormed ∧ ch.nmax = N ∧ ch.mmax = M ∧ ∀ n m : ℤ, IsMode N M n m → ∃ w z, readMap c n m = some w ∧ readMap ch n m = some z ∧
        ‖FS.val z - w‖ ≤ usphtErr (2 * A.rows - 2) κ C n := by
  have C0 : 0 < C := lt_of_lt_of_le (by positivity) hC
  have κ0 : 0 < κ := lt_of_lt_of_le (by positivity) hκ
  have h2 := hA.rows
  have hsz' : A.rows ≤ 134217728 := by norm_num at hsz; exact hsz
  obtain ⟨D, E, e1, e2, r1, c1, r2, c2, hDE, hD⟩ := FU.doubled hrd hA hC hC' 1 (.inl rfl)
  have L3 := FU.log3 (r := 2 * A.rows - 2) (by omega)
  have q1 := FU.sqrt1 (2 * A.rows - 2)
  have hC1 : 2 ^ (-700 : ℤ) ≤ 1.01 * C := hC.trans (by linarith)
  have hC1' : 1.01 * C ≤ 2 ^ (400 : ℤ) := by
    refine (mul_le_mul_of_nonneg_left hC' (by norm_num)).trans ?_
    rw [show (400 : ℤ) = 1 + 399 by norm_num, zpow_add₀ (by norm_num)]
    exact mul_le_mul_of_nonneg_right (by norm_num) (by positivity)
  obtain ⟨L, hL⟩ : ∃ L : ℝ, L = Nat.log 2 (4 * (2 * A.rows - 2)) := ⟨_, rfl⟩
  obtain ⟨q, hq⟩ : ∃ q, q = Real.sqrt (((2 * A.rows - 2 : ℕ) : ℝ) + 1) := ⟨_, rfl⟩
  rw [← hL, ← hq] at hκ'
  rw [← hL] at L3
  rw [← hq] at q1
  have qκ : q * κ ≤ 1 / 639 := by
    have : 3 * (q * κ) ≤ L * (q * κ) := mul_le_mul_of_nonneg_right L3 (by positivity)
    clear hC hC' hC1 hC1' hκ
    linarith
  have κ4 : κ ≤ 1 / 4 := by
    have : κ ≤ q * κ := le_mul_of_one_le_left κ0.le q1
    clear hC hC' hC1 hC1' hκ
    linarith
  have hfft := fft2_within hrd np D (by omega) (by omega) (by rw [r1, c1]; exact hsz2) κ (1.01 * C) hκ κ4 (by rw [r1]; exact hnp.rows) (by rw [c1]; exact hnp.cols) hC1
    (hC1'.trans (zpow_le_zpow_right₀ (by norm_num) (by norm_num))) hD
  obtain ⟨c₁, ch, f1, f2, f3, f4, f5, f6⟩ := c105_spht hrd lm hl (Fl.npLib rnd lm np sum) rfl np hsum D (by omega) (by omega) (by norm_num; omega) (by omega) N M hN hMN (by omega) (by omega)
    (1.01 * C) hC1 hC1' hD (3 * κ * (1.01 * C)) κ (by
      rw [r1, ← hq]
      have : q * κ * C ≤ 1 / 639 * C := mul_le_mul_of_nonneg_right qκ C0.le
      clear hC hC' hC1 hC1' hκ
      linarith) hfft hκ (by rw [r1, ← hq, ← hL]; exact hκ') (by rw [r1]; exact hnp.smooth)
  obtain ⟨c, g1, x, y, g2, g3, g4⟩ := c75_any .py .py (D.map FS.val) E (by show D.rows % 2 = 0; omega) (by show 0 < D.rows; omega) (by show D.rows ≤ 2 ^ 29; norm_num; omega)
    (by rw [r2]; exact r1.symm) (by rw [c2]; exact c1.symm) N M (by omega) c₁ f1 (5 * uu * C) hDE
  have n1 := spht_ok_args f1
  refine ⟨⟨.arr E⟩, ⟨.arr D⟩, c, ch, ?_, ?_, g1, f2, f3, f4, f5, fun n m hm => ?_⟩
  · unfold SPatt.init
    show (continueSphere (A.map FS.val) 1).bind _ = _
    rw [Complex.ofReal_one] at e2
    rw [e2]; rfl
  · unfold SPatt.init
    show (continueSphere A ⟨1, 0⟩).bind _ = _
    rw [e1]; rfl
  obtain ⟨w, z, k1, k2, k3⟩ := f6 n m hm
  obtain ⟨b1, b2⟩ : c₁.nmax = N ∧ c₁.mmax = M := by
    obtain ⟨c', e, a1, a2, -⟩ := spht_value .py (D.map FS.val) (by show D.rows % 2 = 0; omega) (by show 0 < D.rows; omega) (by show D.rows ≤ 2 ^ 29; norm_num; omega) N M (by omega) n1
    rw [f1] at e; cases e
    exact ⟨a1, a2⟩
  obtain ⟨d1, d2⟩ : c.nmax = N ∧ c.mmax = M := by
    obtain ⟨c', e, a1, a2, -⟩ := spht_value .py E (by omega) (by omega) (by norm_num; omega) N M (by omega) (spht_ok_args g1)
    rw [g1] at e; cases e
    exact ⟨a1, a2⟩
  have hx := g2 n m (by rw [b1, b2]; exact hm)
  have hy := g3 n m (by rw [d1, d2]; exact hm)
  rw [hx] at k1
  cases k1
  refine ⟨y n m, z, hy, k2, ?_⟩
  have tot := (norm_add_le _ _).trans (add_le_add k3 (g4 n m hm))
  rw [sub_add_sub_cancel] at tot
  refine tot.trans ?_
  have n0 : (0 : ℝ) ≤ n := by exact_mod_cast hm.1
  unfold usphtErr pconvErr
  rw [r1, ← hq, ← hL]
  exact FU.num1 L3 q1 hκ C0 (Real.sqrt_nonneg _) (by positivity) (by positivity)

end Verif.Props
