import Verif.Props.FloatFft2
/-!
# `np.fft.fft2(ds) / (dnrows * ncols)` and `np.fft.ifft2(f) * dnrows * ncols` in doubles
-/
namespace Verif.Props
open Verif Finset
variable {rnd : ℝ → ℝ}

namespace F2

/-- Multiplying by a rounded reciprocal. -/
theorem div_real (hr : IsRounding rnd) {x n X : ℝ} (h1 : 1 ≤ n) (hn : n * tiny ≤ uu / 100) (hX0 : 0 < X) (hX : tiny ≤ uu * X / 100) (hb : n * X ≤ 2 ^ (1000 : ℤ)) (hx : |x| ≤ n * X) :
    |rnd (rnd x * rnd (1 / n)) - x / n| ≤ 3.1 * uu * X := by
  have u0 := uu_pos
  have u1 := FS.uu_le16
  have t0 := tiny_pos
  have n0 : 0 < n := by linarith
  have big : (2 : ℝ) ^ (1000 : ℤ) ≤ 2 ^ (1022 : ℤ) := zpow_le_zpow_right₀ (by norm_num) (by norm_num)
  have big1 : (1 : ℝ) ≤ 2 ^ (1022 : ℤ) := one_le_zpow₀ (by norm_num) (by norm_num)
  have big2 : 2 * (2 : ℝ) ^ (1000 : ℤ) ≤ 2 ^ (1022 : ℤ) := by
    rw [← zpow_one_add₀ (by norm_num)]
    exact zpow_le_zpow_right₀ (by norm_num) (by norm_num)
  have ea := rnd_err hr (hx.trans (hb.trans big))
  have es := rnd_err hr (x := 1 / n) (by rw [abs_of_pos (by positivity)]; exact ((div_le_one n0).mpr h1).trans big1)
  rw [abs_of_pos (show 0 < 1 / n by positivity)] at es
  obtain ⟨a, ha⟩ : ∃ a, a = rnd x := ⟨_, rfl⟩
  obtain ⟨s, hs⟩ : ∃ s, s = rnd (1 / n) := ⟨_, rfl⟩
  rw [← ha] at ea
  rw [← hs] at es
  rw [← ha, ← hs]
  have hnX : X ≤ n * X := le_mul_of_one_le_left hX0.le h1
  have ea' : |a - x| ≤ 1.01 * uu * (n * X) := by
    have k1 := mul_le_mul_of_nonneg_left hx u0.le
    have k2 := mul_le_mul_of_nonneg_left hnX u0.le
    clear big big1 big2 hb
    linarith
  have es' : n * |s - 1 / n| ≤ 1.01 * uu := by
    have k := mul_le_mul_of_nonneg_left es n0.le
    have : n * (uu * (1 / n) + tiny / 2) = uu + n * tiny / 2 := by field_simp
    rw [this] at k
    clear big big1 big2 hb
    linarith
  have hs1 : n * |s| ≤ 1.01 := by
    have k1 : |s| ≤ |s - 1 / n| + 1 / n := by
      have := abs_add_le (s - 1 / n) (1 / n)
      rw [sub_add_cancel, abs_of_pos (show 0 < 1 / n by positivity)] at this
      exact this
    have k2 := mul_le_mul_of_nonneg_left k1 n0.le
    have : n * (|s - 1 / n| + 1 / n) = n * |s - 1 / n| + 1 := by field_simp
    rw [this] at k2
    clear big big1 big2 hb
    linarith
  have key : |a * s - x / n| ≤ 2.04 * uu * X := by
    have e : a * s - x / n = (a - x) * s + x * (s - 1 / n) := by field_simp; ring
    rw [e]
    refine (abs_add_le _ _).trans ?_
    rw [abs_mul, abs_mul]
    have k1 : |a - x| * |s| ≤ 1.01 * uu * (n * X) * |s| := mul_le_mul_of_nonneg_right ea' (abs_nonneg _)
    have k2 : |x| * |s - 1 / n| ≤ n * X * |s - 1 / n| := mul_le_mul_of_nonneg_right hx (abs_nonneg _)
    have k3 : 1.01 * uu * (n * X) * |s| = 1.01 * uu * X * (n * |s|) := by ring
    have k4 : 1.01 * uu * X * (n * |s|) ≤ 1.01 * uu * X * 1.01 := mul_le_mul_of_nonneg_left hs1 (by positivity)
    have k5 : n * X * |s - 1 / n| = X * (n * |s - 1 / n|) := by ring
    have k6 : X * (n * |s - 1 / n|) ≤ X * (1.01 * uu) := mul_le_mul_of_nonneg_left es' hX0.le
    have k7 : 0 < uu * X := by positivity
    rw [k3] at k1
    rw [k5] at k2
    clear big big1 big2 hb
    linarith
  have has : |a * s| ≤ 1.01 * X := by
    have k1 := abs_add_le (a * s - x / n) (x / n)
    rw [sub_add_cancel, abs_div, abs_of_pos n0] at k1
    have k2 : |x| / n ≤ X := (div_le_iff₀ n0).mpr (by rw [mul_comm]; exact hx)
    have k3 : 2.04 * uu * X ≤ 0.01 * X := mul_le_mul_of_nonneg_right (by clear big big1 big2 hb; linarith) hX0.le
    clear big big1 big2 hb
    linarith
  have e3 := rnd_err hr (x := a * s) (by
    refine has.trans (le_trans ?_ big2)
    have : X ≤ 2 ^ (1000 : ℤ) := hnX.trans hb
    have : (0 : ℝ) < 2 ^ (1000 : ℤ) := by positivity
    generalize (2 : ℝ) ^ (1000 : ℤ) = T at *
    clear big big1 big2 hb
    linarith)
  have k1 := mul_le_mul_of_nonneg_left has u0.le
  have k2 := abs_add_le (rnd (a * s) - a * s) (a * s - x / n)
  rw [sub_add_sub_cancel] at k2
  have k3 : 0 < uu * X := by positivity
  clear big big1 big2 hb
  linarith

/-- Dividing a complex128 by a Python integer. -/
theorem div_int (hrd : NoOverflow rnd) {z : FC rnd} {n : ℤ} {X : ℝ} (h1 : 1 ≤ n) (hn : n < 2 ^ 53) (hX : 2 ^ (-800 : ℤ) ≤ X) (hX' : X ≤ 2 ^ (800 : ℤ)) (hz : ‖FS.val z‖ ≤ n * X) :
    ‖FS.val (z / (⟨Fl.ofInt rnd n, 0⟩ : FC rnd)) - FS.val z / n‖ ≤ 6.2 * uu * X := by
  have hr := hrd.toIsRounding
  have u0 := uu_pos
  have n1 : (1 : ℝ) ≤ n := by exact_mod_cast h1
  have n0 : (n : ℝ) ≠ 0 := by positivity
  have n2 : (n : ℝ) ≤ 2 ^ (53 : ℤ) := by exact_mod_cast hn.le
  have X0 : 0 < X := lt_of_lt_of_le (by positivity) hX
  have ei : Fl.ofInt rnd n = n := ofInt_eq hr (by rw [abs_of_nonneg (by omega)]; exact hn)
  have t1 : (n : ℝ) * tiny ≤ uu / 100 := by
    refine (mul_le_mul_of_nonneg_right n2 tiny_pos.le).trans ?_
    unfold tiny uu
    rw [← zpow_add₀ (by norm_num), div_eq_mul_inv]
    refine le_trans ?_ (mul_le_mul_of_nonneg_left (show (2 : ℝ) ^ (-7 : ℤ) ≤ 100⁻¹ by norm_num) (by positivity))
    rw [← zpow_add₀ (by norm_num)]
    exact zpow_le_zpow_right₀ (by norm_num) (by norm_num)
  have t2 : tiny ≤ uu * X / 100 := by
    have := mul_le_mul_of_nonneg_left hX u0.le
    rw [div_eq_mul_inv]
    refine le_trans ?_ (mul_le_mul this (show (2 : ℝ) ^ (-7 : ℤ) ≤ 100⁻¹ by norm_num) (by positivity) (by positivity))
    unfold tiny uu
    rw [← zpow_add₀ (by norm_num), ← zpow_add₀ (by norm_num)]
    exact zpow_le_zpow_right₀ (by norm_num) (by norm_num)
  have t3 : (n : ℝ) * X ≤ 2 ^ (1000 : ℤ) := by
    refine (mul_le_mul n2 hX' X0.le (by positivity)).trans ?_
    rw [← zpow_add₀ (by norm_num)]
    exact zpow_le_zpow_right₀ (by norm_num) (by norm_num)
  have ed : z / (⟨Fl.ofInt rnd n, 0⟩ : FC rnd) = ⟨rnd (rnd z.re * rnd (1 / n)), rnd (rnd z.im * rnd (1 / n))⟩ := by
    rw [ei]
    show (if |(0 : ℝ)| ≤ |(n : ℝ)| then _ else _) = _
    rw [if_pos (by rw [abs_zero]; exact abs_nonneg _)]
    have : rnd (n : ℝ) = n := by
      have := ei
      unfold Fl.ofInt at this
      exact this
    simp only [zero_div, rnd_zero hr, mul_zero, add_zero, sub_zero, this]
  have a := div_real hr n1 t1 X0 t2 t3 ((Complex.abs_re_le_norm (FS.val z)).trans hz)
  have b := div_real hr n1 t1 X0 t2 t3 ((Complex.abs_im_le_norm (FS.val z)).trans hz)
  rw [ed]
  refine (Complex.norm_le_abs_re_add_abs_im _).trans ?_
  have e : ∀ w : ℂ, (w / (n : ℂ)).re = w.re / n ∧ (w / (n : ℂ)).im = w.im / n := fun w => by
    rw [show (n : ℂ) = ((n : ℝ) : ℂ) by push_cast; rfl]
    exact ⟨Complex.div_ofReal_re _ _, Complex.div_ofReal_im _ _⟩
  rw [Complex.sub_re, Complex.sub_im, (e _).1, (e _).2]
  have := add_le_add a b
  refine this.trans (le_of_eq (by ring))

end F2

/-- `np.fft.fft2(ds) / (dnrows * ncols)` is accurate when the one-dimensional transforms are. -/
theorem fft2_within (hrd : NoOverflow rnd) (np : Fl.Fft1 rnd) (D : Arr2 (FC rnd)) (hR : 0 < D.rows) (hK : 0 < D.cols) (hsz : D.rows * D.cols < 2 ^ 53)
    (κ C : ℝ) (hκ : 2 ^ (-45 : ℤ) ≤ κ) (hκ' : κ ≤ 1 / 4) (h1 : Fft1Within np κ D.rows) (h2 : Fft1Within np κ D.cols) (hC : 2 ^ (-700 : ℤ) ≤ C) (hC' : C ≤ 2 ^ (700 : ℤ))
    (hD : ∀ i j, i < D.rows → j < D.cols → ‖FS.val (D.at' i j)‖ ≤ C) : Fft2Within (Fl.fft2Norm rnd np) (3 * κ * C) D := by
  have κ0 : 0 < κ := lt_of_lt_of_le (by positivity) hκ
  have C0 : 0 < C := lt_of_lt_of_le (by positivity) hC
  have u0 := uu_pos
  have u1 := FS.uu_le16
  have t0 := F2.τ_pos
  have hRK : ((D.rows * D.cols : ℕ) : ℝ) ≤ 2 ^ (53 : ℤ) := by exact_mod_cast hsz.le
  have RK0 : (1 : ℝ) ≤ ((D.rows * D.cols : ℕ) : ℝ) := by exact_mod_cast Nat.mul_pos hR hK
  have tC : F2.τ ≤ C / 100 := by
    rw [div_eq_mul_inv]
    refine le_trans ?_ (mul_le_mul hC (show (2 : ℝ) ^ (-7 : ℤ) ≤ 100⁻¹ by norm_num) (by positivity) C0.le)
    unfold F2.τ
    rw [← zpow_add₀ (by norm_num)]
    exact zpow_le_zpow_right₀ (by norm_num) (by norm_num)
  have hS : ∑ i ∈ range D.rows, ∑ j ∈ range D.cols, ‖FS.val (D.at' i j)‖ ≤ (D.rows * D.cols : ℕ) * C := by
    refine (sum_le_sum fun i hi => sum_le_sum fun j hj => hD i j (mem_range.mp hi) (mem_range.mp hj)).trans (le_of_eq ?_)
    simp only [sum_const, card_range, nsmul_eq_mul]
    push_cast
    ring
  have hS2 : 2 * ((D.rows * D.cols : ℕ) * C) + D.cols * F2.τ ≤ 2 ^ (900 : ℤ) := by
    have k1 : (D.cols : ℝ) ≤ (D.rows * D.cols : ℕ) := by exact_mod_cast Nat.le_mul_of_pos_left _ hR
    have k2 : (D.cols : ℝ) * F2.τ ≤ (D.rows * D.cols : ℕ) * C := mul_le_mul k1 (by linarith) t0.le (by positivity)
    have k3 : ((D.rows * D.cols : ℕ) : ℝ) * C ≤ 2 ^ (753 : ℤ) := by
      refine (mul_le_mul hRK hC' C0.le (by positivity)).trans (le_of_eq ?_)
      rw [← zpow_add₀ (by norm_num)]
      norm_num
    have k4 : (4 : ℝ) * 2 ^ (753 : ℤ) ≤ 2 ^ (900 : ℤ) := by
      rw [show (4 : ℝ) = 2 ^ (2 : ℤ) by norm_num, ← zpow_add₀ (by norm_num)]
      exact zpow_le_zpow_right₀ (by norm_num) (by norm_num)
    have k0 : (0 : ℝ) < 2 ^ (753 : ℤ) := by positivity
    refine le_trans ?_ k4
    clear k4 hC' hRK
    generalize (2 : ℝ) ^ (753 : ℤ) = T at *
    linarith
  obtain ⟨B, e, B1, B2, hB⟩ := F2.both_err (σ := -1) (f1 := 1) (f2 := 1) D hR hK (F2.w1_fft hK h2) (F2.w1_fft hR h1) κ0.le (by linarith) one_pos le_rfl one_pos
    (by rw [mul_one]; exact_mod_cast hK) hS hS2
  have ef : ∃ f', npFft2 (D.map FS.val) = .ok f' ∧ f' = Arr2.ofFn D.rows D.cols fun k l => ∑ i ∈ range (D.map FS.val).rows, ∑ j ∈ range (D.map FS.val).cols,
      (D.map FS.val).at' i j * root (D.map FS.val).rows (-(i * k : Int)) * root (D.map FS.val).cols (-(j * l : Int)) := by
    unfold npFft2
    rw [if_neg (by show ¬(D.rows = 0 ∨ D.cols = 0); omega)]
    exact ⟨_, rfl, rfl⟩
  obtain ⟨f', ef, hf'⟩ := ef
  refine ⟨B.map fun z => z / (⟨Fl.ofInt rnd ((D.rows : Int) * D.cols), 0⟩ : FC rnd), f', by unfold Fl.fft2Norm; rw [e]; rfl, ef, by rw [hf']; exact B1, by rw [hf']; exact B2, fun i j hi hj => ?_⟩
  rw [hf']
  change i < B.rows at hi
  change j < B.cols at hj
  rw [Arr2.at'_map _ _ hi hj, Arr2.at'_ofFn (by show i < D.rows; omega) (by show j < D.cols; omega)]
  have hb := hB i j (by omega) (by omega)
  have es : ∑ k ∈ range (D.map FS.val).rows, ∑ l ∈ range (D.map FS.val).cols, (D.map FS.val).at' k l * root (D.map FS.val).rows (-(k * i : Int)) * root (D.map FS.val).cols (-(l * j : Int)) =
      ∑ k ∈ range D.rows, ∑ l ∈ range D.cols, FS.val (D.at' k l) * root D.rows (-1 * (k * i : ℤ)) * root D.cols (-1 * (l * j : ℤ)) := by
    refine sum_congr rfl fun k hk => sum_congr rfl fun l hl => ?_
    rw [Arr2.at'_map _ _ (mem_range.mp hk) (mem_range.mp hl), neg_one_mul, neg_one_mul]
    rfl
  rw [es]
  simp only [Complex.ofReal_one, one_mul] at hb
  obtain ⟨Z, hZ⟩ : ∃ Z, Z = ∑ k ∈ range D.rows, ∑ l ∈ range D.cols, FS.val (D.at' k l) * root D.rows (-1 * (k * i : ℤ)) * root D.cols (-1 * (l * j : ℤ)) := ⟨_, rfl⟩
  have hZn : ‖Z‖ ≤ (D.rows * D.cols : ℕ) * C := by
    rw [hZ]
    refine (norm_sum_le_of_le _ fun k _ => norm_sum_le_of_le _ (n := fun l => ‖FS.val (D.at' k l)‖) fun l _ => ?_).trans hS
    rw [norm_mul, norm_mul, F2.norm_root, F2.norm_root, mul_one, mul_one]
  rw [← hZ] at hb ⊢
  obtain ⟨P, hP⟩ : ∃ P : ℝ, P = ((D.rows * D.cols : ℕ) : ℝ) := ⟨_, rfl⟩
  have hP' : (D.rows : ℝ) * D.cols = P := by rw [hP]; push_cast; rfl
  have hPi : (((D.rows : ℤ) * D.cols : ℤ) : ℝ) = P := by rw [hP]; push_cast; rfl
  rw [hP', ← hP] at hb
  rw [← hP] at hZn RK0
  have P0 : 0 < P := by linarith
  have hb2 : ‖FS.val (B.at' i j) - Z‖ ≤ P * (2.29 * κ * C) := by
    refine hb.trans ?_
    have k1 : κ * (2 + κ) ≤ 2.25 * κ := by nlinarith
    have k2 : P * C + P * F2.τ ≤ P * (1.01 * C) := by
      rw [← mul_add]
      exact mul_le_mul_of_nonneg_left (by linarith) P0.le
    refine (mul_le_mul k1 k2 (by positivity) (by positivity)).trans ?_
    have : 0 < P * (κ * C) := by positivity
    nlinarith
  have hBn : ‖FS.val (B.at' i j)‖ ≤ (((D.rows : ℤ) * D.cols : ℤ) : ℝ) * (2 * C) := by
    rw [hPi]
    have k := norm_add_le (FS.val (B.at' i j) - Z) Z
    rw [sub_add_cancel] at k
    have k1 : P * (2.29 * κ * C) ≤ P * C := by
      refine mul_le_mul_of_nonneg_left ?_ P0.le
      nlinarith
    have k2 : P * (2 * C) = P * C + P * C := by ring
    rw [k2]
    linarith
  have hd := F2.div_int (rnd := rnd) hrd (z := B.at' i j) (n := (D.rows : ℤ) * D.cols) (X := 2 * C) (by exact_mod_cast Nat.mul_pos hR hK) (by exact_mod_cast hsz)
    ((zpow_le_zpow_right₀ (by norm_num) (by norm_num : (-800 : ℤ) ≤ -700)).trans (hC.trans (by linarith)))
    (by
      refine (mul_le_mul_of_nonneg_left hC' (by norm_num)).trans ?_
      rw [← zpow_one_add₀ (by norm_num)]
      exact zpow_le_zpow_right₀ (by norm_num) (by norm_num)) hBn
  have hq : ‖FS.val (B.at' i j) / (((D.rows : ℤ) * D.cols : ℤ) : ℂ) - Z / ((D.rows * D.cols : ℕ) : ℂ)‖ ≤ 2.29 * κ * C := by
    rw [show (((D.rows : ℤ) * D.cols : ℤ) : ℂ) = ((D.rows * D.cols : ℕ) : ℂ) by push_cast; rfl, ← sub_div, norm_div, Complex.norm_natCast, ← hP, div_le_iff₀ P0]
    exact hb2.trans (le_of_eq (by ring))
  have tot := (norm_add_le _ _).trans (add_le_add hd hq)
  rw [sub_add_sub_cancel] at tot
  refine tot.trans ?_
  have k1 : 12.4 * uu ≤ 0.71 * κ := by
    refine le_trans ?_ (mul_le_mul_of_nonneg_left hκ (by norm_num))
    refine (mul_le_mul_of_nonneg_left u1 (by norm_num)).trans ?_
    rw [zpow_neg]
    norm_num
  have k2 := mul_le_mul_of_nonneg_right k1 C0.le
  clear hC hC' hκ hRK hS2
  linarith

/-- `np.fft.ifft2(f) * dnrows * ncols` is accurate when the one-dimensional transforms are. -/
theorem ifft2_within (hrd : NoOverflow rnd) (np : Fl.Fft1 rnd) (f : Arr2 (FC rnd)) (dn nc : ℤ) (hdn : (f.rows : ℤ) = dn) (hnc : (f.cols : ℤ) = nc) (hR : 0 < f.rows) (hK : 0 < f.cols) (hsz : f.rows * f.cols < 2 ^ 53)
    (κ S : ℝ) (hκ : 2 ^ (-45 : ℤ) ≤ κ) (hκ' : κ ≤ 1 / 4) (h1 : Fft1Within np κ f.rows) (h2 : Fft1Within np κ f.cols) (hS1 : 2 ^ (-700 : ℤ) ≤ S) (hS1' : S ≤ 2 ^ (800 : ℤ))
    (hS : ∑ i ∈ range f.rows, ∑ j ∈ range f.cols, ‖FS.val (f.at' i j)‖ ≤ S) : FftWithin (Fl.ifft2Scaled rnd np) (3 * κ * S) f dn nc := by
  subst hdn hnc
  have hr := hrd.toIsRounding
  have κ0 : 0 < κ := lt_of_lt_of_le (by positivity) hκ
  have S0 : 0 < S := lt_of_lt_of_le (by positivity) hS1
  have u0 := uu_pos
  have u1 := FS.uu_le16
  have t0 := F2.τ_pos
  have hRK : ((f.rows * f.cols : ℕ) : ℝ) ≤ 2 ^ (53 : ℤ) := by exact_mod_cast hsz.le
  have R1 : (1 : ℝ) ≤ f.rows := by exact_mod_cast hR
  have K1 : (1 : ℝ) ≤ f.cols := by exact_mod_cast hK
  obtain ⟨P, hP⟩ : ∃ P : ℝ, P = (f.rows : ℝ) * f.cols := ⟨_, rfl⟩
  have hP53 : P ≤ 2 ^ (53 : ℤ) := by rw [hP]; push_cast at hRK; exact hRK
  have P1 : 1 ≤ P := by rw [hP]; nlinarith
  have P0 : 0 < P := by linarith
  have KP : (f.cols : ℝ) ≤ P := by rw [hP]; exact le_mul_of_one_le_left (by linarith) R1
  have tS : P * F2.τ ≤ S / 100 := by
    rw [div_eq_mul_inv]
    refine le_trans ?_ (mul_le_mul hS1 (show (2 : ℝ) ^ (-7 : ℤ) ≤ 100⁻¹ by norm_num) (by positivity) S0.le)
    refine (mul_le_mul_of_nonneg_right hP53 t0.le).trans ?_
    unfold F2.τ
    rw [← zpow_add₀ (by norm_num), ← zpow_add₀ (by norm_num)]
    exact zpow_le_zpow_right₀ (by norm_num) (by norm_num)
  have hS2 : 2 * S + f.cols * F2.τ ≤ 2 ^ (900 : ℤ) := by
    have k1 : (f.cols : ℝ) * F2.τ ≤ P * F2.τ := mul_le_mul_of_nonneg_right KP t0.le
    have k4 : (4 : ℝ) * 2 ^ (800 : ℤ) ≤ 2 ^ (900 : ℤ) := by
      rw [show (4 : ℝ) = 2 ^ (2 : ℤ) by norm_num, ← zpow_add₀ (by norm_num)]
      exact zpow_le_zpow_right₀ (by norm_num) (by norm_num)
    have k0 : (0 : ℝ) < 2 ^ (800 : ℤ) := by positivity
    refine le_trans ?_ k4
    clear k4 hRK hP53 hS1
    generalize (2 : ℝ) ^ (800 : ℤ) = T at *
    linarith
  obtain ⟨B, e, B1, B2, hB⟩ := F2.both_err (σ := 1) (f1 := 1 / f.cols) (f2 := 1 / f.rows) f hR hK (F2.w1_ifft hK h2) (F2.w1_ifft hR h1) κ0.le (by linarith) (by positivity)
    ((div_le_one (by positivity)).mpr K1) (by positivity) (by rw [mul_one_div_cancel (by positivity)]) hS hS2
  have ef : ∃ g', invFourier (f.map FS.val) f.rows f.cols = .ok g' ∧ g'.rows = f.rows ∧ g'.cols = f.cols ∧ ∀ i j, i < f.rows → j < f.cols →
      g'.at' i j = ∑ k ∈ range f.rows, ∑ l ∈ range f.cols, FS.val (f.at' k l) * root f.rows (1 * (k * i : ℤ)) * root f.cols (1 * (l * j : ℤ)) := by
    unfold invFourier npIfft2
    rw [if_neg (by show ¬(f.rows = 0 ∨ f.cols = 0); omega)]
    refine ⟨_, rfl, rfl, rfl, fun i j hi hj => ?_⟩
    refine (Arr2.at'_map (α := ℂ) (β := ℂ) _ _ (show i < f.rows from hi) (show j < f.cols from hj)).trans ?_
    rw [Arr2.at'_ofFn (show i < (Arr2.map FS.val f).rows from hi) (show j < (Arr2.map FS.val f).cols from hj)]
    have e1 : (((f.map FS.val).rows : ℂ)) * ((f.map FS.val).cols : ℂ) ≠ 0 := by
      show ((f.rows : ℂ)) * (f.cols : ℂ) ≠ 0
      exact mul_ne_zero (by exact_mod_cast hR.ne') (by exact_mod_cast hK.ne')
    rw [mul_assoc, show (((f.rows : ℤ) : ℂ) * ((f.cols : ℤ) : ℂ)) = ((f.map FS.val).rows : ℂ) * ((f.map FS.val).cols : ℂ) by push_cast; rfl, div_mul_cancel₀ _ e1]
    refine sum_congr rfl fun k hk => sum_congr rfl fun l hl => ?_
    rw [Arr2.at'_map _ _ (mem_range.mp hk) (mem_range.mp hl), one_mul, one_mul, mul_comm (k : ℤ), mul_comm (l : ℤ)]
    rfl
  obtain ⟨g', ef, g1, g2, hg⟩ := ef
  refine ⟨B.map fun z => z * (⟨Fl.ofInt rnd f.rows, 0⟩ : FC rnd) * (⟨Fl.ofInt rnd f.cols, 0⟩ : FC rnd), g', by unfold Fl.ifft2Scaled; rw [e]; rfl, ef, by rw [g1]; exact B1, by rw [g2]; exact B2, fun i j hi hj => ?_⟩
  change i < B.rows at hi
  change j < B.cols at hj
  rw [Arr2.at'_map _ _ hi hj, hg i j (by omega) (by omega)]
  have hb := hB i j (by omega) (by omega)
  obtain ⟨Z, hZ⟩ : ∃ Z, Z = ∑ k ∈ range f.rows, ∑ l ∈ range f.cols, FS.val (f.at' k l) * root f.rows (1 * (k * i : ℤ)) * root f.cols (1 * (l * j : ℤ)) := ⟨_, rfl⟩
  rw [← hZ] at hb ⊢
  have hZn : ‖Z‖ ≤ S := by
    rw [hZ]
    refine (norm_sum_le_of_le _ fun k _ => norm_sum_le_of_le _ (n := fun l => ‖FS.val (f.at' k l)‖) fun l _ => ?_).trans hS
    rw [norm_mul, norm_mul, F2.norm_root, F2.norm_root, mul_one, mul_one]
  obtain ⟨R, hRd⟩ : ∃ R : ℝ, R = f.rows := ⟨_, rfl⟩
  obtain ⟨K, hKd⟩ : ∃ K : ℝ, K = f.cols := ⟨_, rfl⟩
  rw [← hRd] at R1
  rw [← hKd] at K1 KP
  rw [← hRd, ← hKd] at hP
  have R0 : 0 < R := by linarith
  have K0 : 0 < K := by linarith
  have eR : FS.val (⟨Fl.ofInt rnd f.rows, 0⟩ : FC rnd) = (R : ℂ) := by
    rw [ofInt_eq hr (by rw [Nat.abs_cast]; exact_mod_cast lt_of_le_of_lt (Nat.le_mul_of_pos_right _ hK) hsz), hRd]
    apply Complex.ext <;> simp [FS.val]
  have eK : FS.val (⟨Fl.ofInt rnd f.cols, 0⟩ : FC rnd) = (K : ℂ) := by
    rw [ofInt_eq hr (by rw [Nat.abs_cast]; exact_mod_cast lt_of_le_of_lt (Nat.le_mul_of_pos_left _ hR) hsz), hKd]
    apply Complex.ext <;> simp [FS.val]
  have hb2 : ‖FS.val (B.at' i j) * R * K - Z‖ ≤ 2.29 * κ * S := by
    have e1 : FS.val (B.at' i j) * R * K - Z = (R * K : ℂ) * (FS.val (B.at' i j) - ((1 / f.cols : ℝ) : ℂ) * ((1 / f.rows : ℝ) : ℂ) * Z) := by
      rw [← hRd, ← hKd]
      have : (R : ℂ) ≠ 0 := by exact_mod_cast R0.ne'
      have : (K : ℂ) ≠ 0 := by exact_mod_cast K0.ne'
      push_cast
      field_simp
    have e2 : ‖(R * K : ℂ)‖ = P := by rw [norm_mul, Complex.norm_real, Complex.norm_real, Real.norm_of_nonneg R0.le, Real.norm_of_nonneg K0.le, hP]
    rw [e1, norm_mul, e2]
    rw [← hRd, ← hKd] at hb ⊢
    refine (mul_le_mul_of_nonneg_left hb P0.le).trans ?_
    have e3 : P * (1 / K * (1 / R) * (κ * (2 + κ) * (S + R * K * F2.τ))) = κ * (2 + κ) * (S + P * F2.τ) := by rw [hP]; field_simp
    rw [e3]
    have k1 : κ * (2 + κ) ≤ 2.25 * κ := by nlinarith
    have k2 : S + P * F2.τ ≤ 1.01 * S := by linarith
    refine (mul_le_mul k1 k2 (by positivity) (by positivity)).trans ?_
    have : 0 < κ * S := by positivity
    nlinarith
  have hBn : ‖FS.val (B.at' i j)‖ * R * K ≤ 2 * S := by
    have k := norm_add_le (FS.val (B.at' i j) * R * K - Z) Z
    rw [sub_add_cancel, norm_mul, norm_mul, Complex.norm_real, Complex.norm_real, Real.norm_of_nonneg R0.le, Real.norm_of_nonneg K0.le] at k
    have : 2.29 * κ * S ≤ S := by nlinarith
    linarith
  have tu : ∀ X : ℝ, S ≤ P * X → tiny ≤ uu * X / 100 := by
    intro X hX
    have k1 : 2 ^ (-753 : ℤ) ≤ X := by
      have k2 : (2 : ℝ) ^ (53 : ℤ) * 2 ^ (-753 : ℤ) ≤ P * X := by
        rw [← zpow_add₀ (by norm_num)]
        exact hS1.trans hX
      have X0 : 0 ≤ X := by
        by_contra h
        have := mul_neg_of_pos_of_neg P0 (not_le.mp h)
        linarith
      have k3 : P * X ≤ 2 ^ (53 : ℤ) * X := mul_le_mul_of_nonneg_right hP53 X0
      exact le_of_mul_le_mul_left (k2.trans k3) (by positivity)
    have := mul_le_mul_of_nonneg_left k1 u0.le
    rw [div_eq_mul_inv]
    refine le_trans ?_ (mul_le_mul this (show (2 : ℝ) ^ (-7 : ℤ) ≤ 100⁻¹ by norm_num) (by positivity) (le_trans (by positivity) this))
    unfold tiny uu
    rw [← zpow_add₀ (by norm_num), ← zpow_add₀ (by norm_num)]
    exact zpow_le_zpow_right₀ (by norm_num) (by norm_num)
  have big : 3 * S ≤ 2 ^ (1018 : ℤ) := by
    refine (mul_le_mul_of_nonneg_left hS1' (by norm_num)).trans ?_
    refine (mul_le_mul_of_nonneg_right (show (3 : ℝ) ≤ 2 ^ (2 : ℤ) by norm_num) (by positivity)).trans ?_
    rw [← zpow_add₀ (by norm_num)]
    exact zpow_le_zpow_right₀ (by norm_num) (by norm_num)
  have nK : ‖(K : ℂ)‖ = K := by rw [Complex.norm_real, Real.norm_of_nonneg K0.le]
  have nR : ‖(R : ℂ)‖ = R := by rw [Complex.norm_real, Real.norm_of_nonneg R0.le]
  have hSK : 2 * S / K * K = 2 * S := by field_simp
  have m1 := FS.mul_err hr (a := B.at' i j) (b := ⟨Fl.ofInt rnd f.rows, 0⟩) (C := 2 * S / K) (by positivity)
    (tu _ (by
      have : K * (2 * S / K) ≤ P * (2 * S / K) := mul_le_mul_of_nonneg_right KP (by positivity)
      rw [mul_comm K, hSK] at this
      linarith)) ((div_le_self (by positivity) K1).trans (le_trans (by linarith) big)) (by rw [eR, nR, le_div_iff₀ K0]; exact hBn)
  rw [eR] at m1
  obtain ⟨w, hw⟩ : ∃ w, w = B.at' i j * (⟨Fl.ofInt rnd f.rows, 0⟩ : FC rnd) := ⟨_, rfl⟩
  rw [← hw] at m1 ⊢
  have hwn : ‖FS.val w * K - FS.val (B.at' i j) * R * K‖ ≤ 10 * uu * S := by
    rw [← sub_mul, norm_mul, nK]
    refine (mul_le_mul_of_nonneg_right m1 K0.le).trans (le_of_eq ?_)
    rw [mul_assoc, hSK]; ring
  have hwn2 : ‖FS.val w‖ * K ≤ 2.1 * S := by
    have k := norm_add_le (FS.val w * K - FS.val (B.at' i j) * R * K) (FS.val (B.at' i j) * R * K)
    rw [sub_add_cancel, norm_mul, nK, norm_mul _ (K : ℂ), norm_mul, nR, nK] at k
    have : 10 * uu * S ≤ 0.1 * S := mul_le_mul_of_nonneg_right (by clear big hS2 hS1 hS1' hκ hRK hP53; linarith) S0.le
    clear big hS2 hS1 hS1' hκ hRK hP53
    linarith
  have m2 := FS.mul_err hr (a := w) (b := ⟨Fl.ofInt rnd f.cols, 0⟩) (C := 2.1 * S) (by positivity)
    (tu _ (by
      have := le_mul_of_one_le_left (show 0 ≤ 2.1 * S by positivity) P1
      linarith)) (le_trans (by linarith) big) (by rw [eK, nK]; exact hwn2)
  rw [eK] at m2
  have tot := (norm_add_le _ _).trans (add_le_add ((norm_add_le _ _).trans (add_le_add m2 hwn)) hb2)
  rw [sub_add_sub_cancel, sub_add_sub_cancel] at tot
  refine tot.trans ?_
  have k1 : 20.5 * uu ≤ 0.71 * κ := by
    refine le_trans ?_ (mul_le_mul_of_nonneg_left hκ (by norm_num))
    refine (mul_le_mul_of_nonneg_left u1 (by norm_num)).trans ?_
    rw [zpow_neg]
    norm_num
  have k2 := mul_le_mul_of_nonneg_right k1 S0.le
  clear big hS2 hS1 hS1' hκ hRK hP53
  linarith

end Verif.Props
