import Verif.FloatPow
import Verif.Props.FloatPy4
/-!
# `1j ** m` is accurate
-/
namespace Verif.Props
open Verif Finset
variable {rnd : ℝ → ℝ}

/-- A libm accurate to a unit in the last place or so: `atan2(1, 0)`, and sine and cosine of arguments up to 2000. -/
structure LibmOK (lm : Fl.Libm) : Prop where
  at2 : |lm.at2 - Real.pi / 2| ≤ 2 ^ (-52 : ℤ)
  cos : ∀ x, |x| ≤ 2000 → |lm.cos x - Real.cos x| ≤ 2 ^ (-52 : ℤ)
  sin : ∀ x, |x| ≤ 2000 → |lm.sin x - Real.sin x| ≤ 2 ^ (-52 : ℤ)

namespace FPw

/-- The unit `i^k`. -/
noncomputable def U (rnd : ℝ → ℝ) (k : ℤ) : FC rnd := ⟨(Complex.I ^ k).re, (Complex.I ^ k).im⟩

theorem I_cases (k : ℤ) : Complex.I ^ k = 1 ∨ Complex.I ^ k = Complex.I ∨ Complex.I ^ k = -1 ∨ Complex.I ^ k = -Complex.I := by
  have h4 : Complex.I ^ (4 : ℤ) = 1 := by exact_mod_cast Complex.I_pow_four
  have e : Complex.I ^ k = Complex.I ^ (k % 4) := by
    conv_lhs => rw [← Int.mul_ediv_add_emod k 4]
    rw [zpow_add₀ Complex.I_ne_zero, zpow_mul, h4, one_zpow, one_mul]
  have : k % 4 = 0 ∨ k % 4 = 1 ∨ k % 4 = 2 ∨ k % 4 = 3 := by omega
  rw [e]
  rcases this with h | h | h | h <;> rw [h]
  · left; rfl
  · right; left; exact zpow_one _
  · right; right; left; exact_mod_cast Complex.I_sq
  · right; right; right; exact_mod_cast Complex.I_pow_three

theorem r1 (hr : IsRounding rnd) : rnd 1 = 1 := by
  have := rnd_int hr (x := 1) 1 (by norm_num) (by norm_num)
  simpa using this

theorem rm1 (hrd : NoOverflow rnd) : rnd (-1) = -1 := by rw [hrd.neg, FPw.r1 hrd.toIsRounding]

theorem mul_U (hrd : NoOverflow rnd) (a b : ℤ) : U rnd a * U rnd b = U rnd (a + b) := by
  have r0 := FS.rnd0 hrd
  have r1 := FPw.r1 hrd.toIsRounding
  have r2 := rm1 hrd
  unfold U
  rw [zpow_add₀ Complex.I_ne_zero, FA.mul_def]
  rcases I_cases a with h | h | h | h <;> rcases I_cases b with h' | h' | h' | h' <;> rw [h, h'] <;> simp [r0, r1, r2]

theorem div_U (hrd : NoOverflow rnd) (a : ℤ) : Fl.cpDiv rnd 1 (U rnd a) = U rnd (-a) := by
  have r0 := FS.rnd0 hrd
  have r1 := FPw.r1 hrd.toIsRounding
  have r2 := rm1 hrd
  have e1 : (1 : FC rnd).re = 1 := rfl
  have e2 : (1 : FC rnd).im = 0 := rfl
  unfold U Fl.cpDiv
  rw [zpow_neg]
  rcases I_cases a with h | h | h | h <;> rw [h] <;> simp [r0, r1, r2, e1, e2]

theorem loop_U (hrd : NoOverflow rnd) (n mask : ℕ) (h0 : 0 < mask) (r p : FC rnd) (hr : r = U rnd ((n % mask : ℕ) : ℤ)) (hp : p = U rnd (mask : ℤ)) : Fl.powLoop rnd n mask r p = U rnd n := by
  unfold Fl.powLoop
  by_cases h : 0 < mask ∧ mask ≤ n
  · rw [dif_pos h]
    refine loop_U hrd n (2 * mask) (by omega) _ _ ?_ ?_
    · rw [hr, hp, mul_U hrd]
      rw [show 2 * mask = mask * 2 by ring, Nat.mod_mul]
      split
      · next h1 => rw [h1, mul_one]; push_cast; rfl
      · next h1 => rw [show n / mask % 2 = 0 by omega, mul_zero, add_zero]
    · rw [hp, mul_U hrd]
      congr 1; push_cast; ring
  · rw [dif_neg h, hr, Nat.mod_eq_of_lt (by omega)]
termination_by n + 1 - mask

theorem powU_I (hrd : NoOverflow rnd) (n : ℕ) : Fl.powU rnd ⟨0, 1⟩ n = U rnd n := by
  unfold Fl.powU
  refine loop_U hrd n 1 (by norm_num) _ _ ?_ ?_
  · rw [Nat.mod_one]; unfold U; simp; rfl
  · unfold U; simp

theorem powI_I (hrd : NoOverflow rnd) (m : ℤ) : Fl.powI rnd ⟨0, 1⟩ m = U rnd m := by
  unfold Fl.powI
  split
  · rw [powU_I hrd, Int.toNat_of_nonneg (by omega)]
  · rw [powU_I hrd, Int.toNat_of_nonneg (by omega), div_U hrd, neg_neg]

end FPw

/-- `1j ** m` is the exact unit for exponents up to 100. -/
theorem pow1j_exact (hrd : NoOverflow rnd) (lm : Fl.Libm) : PowExact (Fl.pow1j rnd lm) := by
  intro m hm
  unfold Fl.pow1j
  rw [if_pos (by exact_mod_cast hm), FPw.powI_I hrd]; rfl

theorem PowNear.mono {K L : ℕ} {jp : Int → FC rnd} (h : PowNear K jp) (hL : L ≤ K) : PowNear L jp := fun m hm => h m (hm.trans (by exact_mod_cast hL))

namespace FPw

theorem I_zpow (m : ℤ) : Complex.I ^ m = ⟨Real.cos (m * (Real.pi / 2)), Real.sin (m * (Real.pi / 2))⟩ := by
  have e : Complex.I = Complex.exp ((Real.pi / 2 : ℝ) * Complex.I) := by
    rw [Complex.exp_mul_I, ← Complex.ofReal_cos, ← Complex.ofReal_sin, Real.cos_pi_div_two, Real.sin_pi_div_two]; simp
  conv_lhs => rw [e]
  rw [← Complex.exp_int_mul, ← mul_assoc, show ((m : ℂ) * ((Real.pi / 2 : ℝ) : ℂ)) = ((m * (Real.pi / 2) : ℝ) : ℂ) by push_cast; ring, Complex.exp_mul_I, ← Complex.ofReal_cos, ← Complex.ofReal_sin]
  generalize (m * (Real.pi / 2) : ℝ) = x
  apply Complex.ext
  · rw [Complex.add_re, Complex.ofReal_re, Complex.re_ofReal_mul, Complex.I_re, mul_zero, add_zero]
  · rw [Complex.add_im, Complex.ofReal_im, Complex.im_ofReal_mul, Complex.I_im, mul_one, zero_add]

theorem abs_cos_sub (a b : ℝ) : |Real.cos a - Real.cos b| ≤ |a - b| := by
  rw [Real.cos_sub_cos, abs_mul, abs_mul, abs_neg, abs_two]
  have h1 := Real.abs_sin_le_one ((a + b) / 2)
  have h2 : |Real.sin ((a - b) / 2)| ≤ |(a - b) / 2| := Real.abs_sin_le_abs
  rw [abs_div, abs_two] at h2
  have := mul_le_mul h1 h2 (abs_nonneg _) zero_le_one
  linarith

theorem abs_sin_sub (a b : ℝ) : |Real.sin a - Real.sin b| ≤ |a - b| := by
  rw [Real.sin_sub_sin, abs_mul, abs_mul, abs_two]
  have h1 := Real.abs_cos_le_one ((a + b) / 2)
  have h2 : |Real.sin ((a - b) / 2)| ≤ |(a - b) / 2| := Real.abs_sin_le_abs
  rw [abs_div, abs_two] at h2
  have := mul_le_mul h2 h1 (abs_nonneg _) (by positivity)
  linarith

end FPw

/-- `1j ** m` is within `(|m| + 4) 2^-50` of the exact unit for exponents up to 1000, also where CPython uses polar coordinates. -/
theorem pow1j_near (hrd : NoOverflow rnd) (lm : Fl.Libm) (hl : LibmOK lm) : PowNear 1000 (Fl.pow1j rnd lm) := by
  intro m hm
  by_cases h : |m| ≤ 100
  · rw [pow1j_exact hrd lm m (by exact_mod_cast h)]
    rw [show (⟨(Complex.I ^ m).re, (Complex.I ^ m).im⟩ : ℂ) = Complex.I ^ m from rfl, sub_self, norm_zero]
    have : (0 : ℝ) ≤ ((|m| : ℤ) : ℝ) := by exact_mod_cast abs_nonneg m
    positivity
  have hr := hrd.toIsRounding
  unfold Fl.pow1j
  rw [if_neg h, FPw.I_zpow]
  simp only
  rw [ofInt_eq hr (by have : |m| ≤ 1000 := by exact_mod_cast hm
                      omega)]
  have hm1 : |(m : ℝ)| ≤ 1000 := by rw [← Int.cast_abs]; exact_mod_cast hm
  have hm0 : 1 ≤ |(m : ℝ)| := by
    rw [← Int.cast_abs]
    have : 1 ≤ |m| := by omega
    exact_mod_cast this
  rw [Int.cast_abs]
  have u0 := uu_pos
  have e50 : (2 : ℝ) ^ (-50 : ℤ) = 8 * uu := by unfold uu; norm_num
  have e52 : (2 : ℝ) ^ (-52 : ℤ) = 2 * uu := by unfold uu; norm_num
  have u1 := FS.uu_le16
  have tu : tiny ≤ uu / 100 := by
    unfold tiny uu
    rw [show (-1074 : ℤ) = -53 + -1021 by norm_num, zpow_add₀ (by norm_num), div_eq_mul_inv]
    refine mul_le_mul_of_nonneg_left ?_ (by positivity)
    exact (zpow_le_zpow_right₀ (by norm_num) (show (-1021 : ℤ) ≤ -10 by norm_num)).trans (by norm_num)
  have pi1 : Real.pi / 2 ≤ 1.6 := by have := Real.pi_lt_d2; linarith
  have pi0 := Real.pi_pos
  have ha := hl.at2
  rw [e52] at ha
  rw [e50]
  have at1 : |lm.at2| ≤ 1.7 := by
    have := abs_add_le (lm.at2 - Real.pi / 2) (Real.pi / 2)
    rw [sub_add_cancel, abs_of_pos (show 0 < Real.pi / 2 by linarith)] at this
    linarith
  generalize hM : |(m : ℝ)| = M at *
  have big : (2000 : ℝ) ≤ 2 ^ (1022 : ℤ) := le_trans (by norm_num : (2000 : ℝ) ≤ 2 ^ (11 : ℤ)) (zpow_le_zpow_right₀ (by norm_num) (by norm_num))
  have b1 : |lm.at2 * m| ≤ 1.7 * M := by rw [abs_mul, hM]; exact mul_le_mul_of_nonneg_right at1 (by linarith)
  have p1 := rnd_err hr (x := lm.at2 * m) ((b1.trans (by linarith : 1.7 * M ≤ 2000)).trans big)
  have p2 : |rnd (lm.at2 * m) - m * (Real.pi / 2)| ≤ 3.8 * (M * uu) := by
    rw [show rnd (lm.at2 * m) - m * (Real.pi / 2) = (rnd (lm.at2 * m) - lm.at2 * m) + m * (lm.at2 - Real.pi / 2) by ring]
    refine (abs_add_le _ _).trans ?_
    rw [abs_mul (m : ℝ), hM]
    have q1 := mul_le_mul_of_nonneg_left ha (show 0 ≤ M by linarith)
    have q2 := mul_le_mul_of_nonneg_left b1 u0.le
    have q3 : uu ≤ M * uu := le_mul_of_one_le_left u0.le hm0
    clear big
    linarith
  have p3 : |rnd (lm.at2 * m)| ≤ 2000 := by
    have h1 := abs_add_le (rnd (lm.at2 * m) - lm.at2 * m) (lm.at2 * m)
    rw [sub_add_cancel] at h1
    have h2 : uu * |lm.at2 * m| ≤ 1 / 16 * (1.7 * M) := mul_le_mul (u1.trans (by norm_num)) b1 (abs_nonneg _) (by norm_num)
    clear big
    linarith
  have c1 := hl.cos _ p3
  have s1 := hl.sin _ p3
  rw [e52] at c1 s1
  generalize rnd (lm.at2 * m) = φ at *
  have fin : ∀ c x : ℝ, |c - x| ≤ 2 * uu → |x| ≤ 1 → |rnd (1 * c) - x| ≤ 4 * uu := by
    intro c x h1 h2
    rw [one_mul]
    have h3 := abs_add_le (c - x) x
    rw [sub_add_cancel] at h3
    have h4 := rnd_err hr (x := c) ((by linarith : |c| ≤ 2000).trans big)
    have h5 := abs_sub_le (rnd c) c x
    have h6 : uu * |c| ≤ uu * 1.2 := mul_le_mul_of_nonneg_left (by linarith) u0.le
    clear big
    linarith
  have C := fin _ _ c1 (Real.abs_cos_le_one _)
  have S := fin _ _ s1 (Real.abs_sin_le_one _)
  have C' := (abs_sub_le _ _ _).trans (add_le_add C ((FPw.abs_cos_sub _ _).trans p2))
  have S' := (abs_sub_le _ _ _).trans (add_le_add S ((FPw.abs_sin_sub _ _).trans p2))
  refine (Complex.norm_le_abs_re_add_abs_im _).trans ?_
  rw [Complex.sub_re, Complex.sub_im]
  refine (add_le_add C' S').trans ?_
  have : 0 ≤ M * uu := by positivity
  linarith

/-- C105: CPython's `1j ** m` is exactly `i^m` for orders up to 100 and within `(|m| + 4) 2^-50` of it up to 1000. -/
theorem c105_pow (hrd : NoOverflow rnd) (lm : Fl.Libm) (hl : LibmOK lm) (m : ℤ) :
    (|m| ≤ 100 → (Fl.pow1j rnd lm m).re = (Complex.I ^ m).re ∧ (Fl.pow1j rnd lm m).im = (Complex.I ^ m).im) ∧
      (|m| ≤ 1000 → ‖(⟨(Fl.pow1j rnd lm m).re, (Fl.pow1j rnd lm m).im⟩ : ℂ) - Complex.I ^ m‖ ≤ ((|m| : ℤ) + 4) * 2 ^ (-50 : ℤ)) :=
  ⟨fun h => by rw [pow1j_exact hrd lm m (by exact_mod_cast h)]; exact ⟨rfl, rfl⟩, fun h => pow1j_near hrd lm hl m (by exact_mod_cast h)⟩

open FS in
/-- C105: `ispht` in doubles with the Python routines and CPython's own power, for every order up to 1000. -/
theorem c105_ispht (hrd : NoOverflow rnd) (lm : Fl.Libm) (hl : LibmOK lm) (c : ScalarCoefs (FC rnd)) (hc : c.WellFormed)
    (N M : ℕ) (hn : c.nmax = N) (hm : c.mmax = M) (hN : N ≤ 1000) (w : ℤ → ℤ → FC rnd)
    (hw : ∀ n m, IsMode c.nmax c.mmax n m → readMap c n m = some (w n m)) (C : ℝ) (hC : 2 ^ (-900 : ℤ) ≤ C) (hC' : C ≤ 2 ^ (900 : ℤ))
    (hwC : ∀ n m, IsMode c.nmax c.mmax n m → |(w n m).re| ≤ C ∧ |(w n m).im| ≤ C) (nr nc : ℤ) (h1 : c.nmax + 2 ≤ nr) (h2 : 2 * c.mmax + 2 ≤ nc) (h3 : nc % 2 = 0)
    (post : Arr2 (FC rnd) → Int → Int → Res (Arr2 (FC rnd))) (δ : ℝ)
    (hpost : ∀ f, Fl.scToFc rnd (Fl.pow1j rnd lm) c.vec c.nmax c.mmax (2 * nr - 2) nc = .ok f → FftWithin post δ f (2 * nr - 2) nc) :
    ∃ p A, Fl.ispht rnd (Fl.pow1j rnd lm) post .py c (some nr) (some nc) = .ok p ∧ p.array = .ok A ∧ A.rows = nr ∧ A.cols = nc ∧ ∀ i j : ℕ, i < A.rows → j < A.cols →
      ‖val (A.at' i j) - shSeries c.nmax c.mmax (fun n m => val (w n m)) (Real.pi * i / ((nr : ℝ) - 1)) (2 * Real.pi * j / nc)‖ ≤
        δ + (2 * N + 1) * (2 * M + 1) * ((N + 1) * ((N : ℝ) + 4) ^ 3 * 2 ^ (-49 : ℤ) * C * Real.sqrt ((2 * N + 1) / (4 * Real.pi))) := by
  have hmn := hc.wf.mn
  exact c93_ispht hrd .py c hc N M hn hm (fun _ => (pow1j_near hrd lm hl).mono (by omega)) hN w hw C hC hC' hwC nr nc h1 h2 h3 post δ hpost

/-- C105: `spht` in doubles with the Python routines, their convolution and CPython's own power, for every order up to 1000. -/
theorem c105_spht (hrd : NoOverflow rnd) (lm : Fl.Libm) (hl : LibmOK lm) (lib : Fl.NumLib rnd) (hj : lib.jp = Fl.pow1j rnd lm) (np : Fl.Fft1 rnd) (hsum : SumOK lib.sum)
    (D : Arr2 (FC rnd)) (hR : D.rows % 2 = 0) (hR0 : 0 < D.rows) (hsz : D.rows ≤ 2 ^ 28) (hK : D.cols % 2 = 0) (N M : ℕ) (hN : N ≤ 1000) (hMN : M ≤ N)
    (hNr : N < D.rows / 2) (hMc : 2 * M < D.cols) (C : ℝ) (hC : 2 ^ (-700 : ℤ) ≤ C) (hC' : C ≤ 2 ^ (400 : ℤ))
    (hD : ∀ i j, i < D.rows → j < D.cols → ‖FS.val (D.at' i j)‖ ≤ C) (δ κ : ℝ) (hδ : Real.sqrt ((D.rows : ℝ) + 1) * δ ≤ C / 4) (hfft : Fft2Within lib.fft δ D)
    (hκ : 2 ^ (-45 : ℤ) ≤ κ) (hκ' : 213 * Nat.log 2 (4 * D.rows) * Real.sqrt ((D.rows : ℝ) + 1) * κ ≤ 1) (hnp : FftsWithin np κ D.rows) :
    ∃ c ch, spht .py ⟨.arr (D.map FS.val)⟩ (some N) (some M) = .ok c ∧ Fl.spht rnd (Fl.pyLib rnd lib np) .py ⟨.arr D⟩ (some N) (some M) = .ok ch ∧
      ch.WellFormed ∧ ch.nmax = N ∧ ch.mmax = M ∧ ∀ n m : ℤ, IsMode N M n m → ∃ w z, readMap c n m = some w ∧ readMap ch n m = some z ∧
        ‖FS.val z - w‖ ≤ Real.sqrt ((2 * n + 1) / (4 * Real.pi)) * ((n + 1) * ((n : ℝ) + 4) ^ 3 * 2 ^ (-43 : ℤ) * C +
          (2 * n + 1) * (pconvErr D.rows κ C + 20 * Real.sqrt ((D.rows : ℝ) + 1) * (δ + 2 ^ (-49 : ℤ) * C))) :=
  c104_spht hrd lib np hsum D hR hR0 hsz hK N M (by rw [hj]; exact (pow1j_near hrd lm hl).mono (hMN.trans hN)) hN hMN hNr hMc C hC hC' hD δ κ hδ hfft hκ hκ' hnp

/-- C105, non-vacuous: a libm that rounds the exact values meets the hypothesis, and with it `1j ** 502`, computed in polar coordinates, is close to `-1`. -/
theorem c105_example : ∃ (rnd : ℝ → ℝ) (lm : Fl.Libm), NoOverflow rnd ∧ LibmOK lm ∧ lm.at2 = rnd (Real.pi / 2) ∧ (∀ x, lm.cos x = rnd (Real.cos x)) ∧
    Fl.pow1j rnd lm 98 = ⟨-1, 0⟩ ∧ ‖(⟨(Fl.pow1j rnd lm 502).re, (Fl.pow1j rnd lm 502).im⟩ : ℂ) - (-1)‖ ≤ 506 * 2 ^ (-50 : ℤ) := by
  obtain ⟨rnd, hrd⟩ := noOverflow_exists
  have hr := hrd.toIsRounding
  have big : (2000 : ℝ) ≤ 2 ^ (1022 : ℤ) := le_trans (by norm_num : (2000 : ℝ) ≤ 2 ^ (11 : ℤ)) (zpow_le_zpow_right₀ (by norm_num) (by norm_num))
  have u0 := uu_pos
  have e52 : (2 : ℝ) ^ (-52 : ℤ) = 2 * uu := by unfold uu; norm_num
  have tu : tiny ≤ uu / 100 := by
    unfold tiny uu
    rw [show (-1074 : ℤ) = -53 + -1021 by norm_num, zpow_add₀ (by norm_num), div_eq_mul_inv]
    refine mul_le_mul_of_nonneg_left ?_ (by positivity)
    exact (zpow_le_zpow_right₀ (by norm_num) (show (-1021 : ℤ) ≤ -10 by norm_num)).trans (by norm_num)
  have key : ∀ x : ℝ, |x| ≤ 1.6 → |rnd x - x| ≤ 2 ^ (-52 : ℤ) := by
    intro x hx
    have h1 := rnd_err hr (x := x) ((hx.trans (by norm_num : (1.6 : ℝ) ≤ 2000)).trans big)
    have h2 := mul_le_mul_of_nonneg_left hx u0.le
    rw [e52]
    clear big
    linarith
  have pi1 : Real.pi / 2 ≤ 1.6 := by have := Real.pi_lt_d2; linarith
  have pi0 := Real.pi_pos
  let lm : Fl.Libm := ⟨rnd (Real.pi / 2), fun x => rnd (Real.cos x), fun x => rnd (Real.sin x)⟩
  have hl : LibmOK lm := ⟨key _ (by rw [abs_of_pos (by linarith)]; exact pi1), fun x _ => key _ ((Real.abs_cos_le_one x).trans (by norm_num)),
    fun x _ => key _ ((Real.abs_sin_le_one x).trans (by norm_num))⟩
  have i2 : ∀ k : ℕ, Complex.I ^ ((4 * k + 2 : ℕ) : ℤ) = -1 := fun k => by
    rw [zpow_natCast, pow_add, pow_mul, Complex.I_pow_four, one_pow, one_mul, Complex.I_sq]
  refine ⟨rnd, lm, hrd, hl, rfl, fun _ => rfl, ?_, ?_⟩
  · rw [pow1j_exact hrd lm 98 (by norm_num), show (98 : ℤ) = ((4 * 24 + 2 : ℕ) : ℤ) by norm_num, i2]
    simp
  · have := (c105_pow hrd lm hl 502).2 (by norm_num)
    rw [show Complex.I ^ (502 : ℤ) = -1 by rw [show (502 : ℤ) = ((4 * 125 + 2 : ℕ) : ℤ) by norm_num, i2]] at this
    refine this.trans (le_of_eq ?_)
    norm_num

end Verif.Props
