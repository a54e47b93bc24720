import Verif.Props.FloatPy3
import Mathlib.Tactic.NormNum.Prime
/-!
# C104: the hypotheses can be met
-/
namespace Verif.Props
open Verif Finset

namespace FP

/-- NumPy FFTs that round every component of the exact transform to the nearest double. -/
noncomputable def goodFft (rnd : ℝ → ℝ) : Fl.Fft1 rnd where
  fft x := (npFft (x.map FS.val)).bind fun y => .ok (y.map fun z => ⟨rnd z.re, rnd z.im⟩)
  ifft x := (npIfft (x.map FS.val)).bind fun y => .ok (y.map fun z => ⟨rnd z.re, rnd z.im⟩)

variable {rnd : ℝ → ℝ}

theorem val_rnd (hr : IsRounding rnd) {z : ℂ} (hz : ‖z‖ ≤ 2 ^ (1022 : ℤ)) : ‖FS.val (⟨rnd z.re, rnd z.im⟩ : FC rnd) - z‖ ≤ 2 * uu * ‖z‖ + tiny := by
  have a := rnd_err hr ((Complex.abs_re_le_norm z).trans hz)
  have b := rnd_err hr ((Complex.abs_im_le_norm z).trans hz)
  have a' := mul_le_mul_of_nonneg_left (Complex.abs_re_le_norm z) uu_pos.le
  have b' := mul_le_mul_of_nonneg_left (Complex.abs_im_le_norm z) uu_pos.le
  refine (Complex.norm_le_abs_re_add_abs_im _).trans ?_
  show |rnd z.re - z.re| + |rnd z.im - z.im| ≤ _
  clear hz
  linarith

theorem goodFft_within (hr : IsRounding rnd) {κ : ℝ} (hκ : 2 * uu ≤ κ) {Q : ℕ} (hQ : 0 < Q) (hQ' : Q ≤ 2 ^ 31) : Fft1Within (goodFft rnd) κ Q := by
  have u0 := uu_pos
  have hQr : (0 : ℝ) < Q := by exact_mod_cast hQ
  have tk : tiny ≤ κ * 2 ^ (-900 : ℤ) := by
    refine le_trans ?_ (mul_le_mul_of_nonneg_right ((by linarith : uu ≤ 2 * uu).trans hκ) (by positivity : (0 : ℝ) ≤ 2 ^ (-900 : ℤ)))
    unfold tiny uu
    rw [← zpow_add₀ (by norm_num)]
    exact zpow_le_zpow_right₀ (by norm_num) (by norm_num)
  have key : ∀ (x : List (FC rnd)), x.length = Q → (∀ j, j < Q → ‖FS.val (rd x j)‖ ≤ 2 ^ (900 : ℤ)) → ∀ e : ℕ → ℤ,
      ‖∑ j ∈ range Q, rd (x.map FS.val) j * root Q (e j)‖ ≤ ∑ j ∈ range Q, ‖FS.val (rd x j)‖ ∧ ∑ j ∈ range Q, ‖FS.val (rd x j)‖ ≤ 2 ^ (1022 : ℤ) := by
    intro x hx hb e
    constructor
    · refine (norm_sum_le _ _).trans (sum_le_sum fun j hj => ?_)
      rw [norm_mul, FS.norm_root, mul_one, FP.rd_map (by rw [hx]; exact mem_range.mp hj)]
    · calc ∑ j ∈ range Q, ‖FS.val (rd x j)‖ ≤ ∑ _j ∈ range Q, (2 : ℝ) ^ (900 : ℤ) := sum_le_sum fun j hj => hb j (mem_range.mp hj)
        _ = Q * 2 ^ (900 : ℤ) := by rw [sum_const, card_range, nsmul_eq_mul]
        _ ≤ 2 ^ (31 : ℤ) * 2 ^ (900 : ℤ) := mul_le_mul_of_nonneg_right (by exact_mod_cast hQ') (by positivity)
        _ = 2 ^ (931 : ℤ) := by rw [← zpow_add₀ (by norm_num)]; norm_num
        _ ≤ 2 ^ (1022 : ℤ) := zpow_le_zpow_right₀ (by norm_num) (by norm_num)
  have Q1 : (1 : ℝ) ≤ Q := by exact_mod_cast hQ
  constructor
  · intro x hx hb
    obtain ⟨y', ey⟩ : ∃ y', y' = tab Q fun k => ∑ j ∈ range Q, rd (x.map FS.val) j * root Q (-(j * k : Int)) := ⟨_, rfl⟩
    have e' : npFft (x.map FS.val) = .ok y' := by
      unfold npFft
      rw [List.length_map, hx, if_neg (by omega), ey]
    have yl : y'.length = Q := by rw [ey]; simp [tab]
    refine ⟨y'.map fun z => ⟨rnd z.re, rnd z.im⟩, y', by show (npFft (x.map FS.val)).bind _ = _; rw [e']; rfl, e', by rw [List.length_map, yl], fun k hk => ?_⟩
    obtain ⟨k1, k2⟩ := key x hx hb fun j => -(j * k : Int)
    rw [Verif.rd_map _ _ _ (by rw [yl]; exact hk), ey, rd_tab hk]
    refine (val_rnd hr (k1.trans k2)).trans ?_
    have s0 : 0 ≤ ∑ j ∈ range Q, ‖FS.val (rd x j)‖ := sum_nonneg fun _ _ => norm_nonneg _
    have b1 := mul_le_mul hκ k1 (norm_nonneg _) (by linarith)
    have b2 : κ * 2 ^ (-900 : ℤ) ≤ κ * (Q * 2 ^ (-900 : ℤ)) := mul_le_mul_of_nonneg_left (le_mul_of_one_le_left (by positivity) Q1) (by linarith)
    rw [mul_add]
    exact add_le_add b1 (tk.trans b2)
  · intro x hx hb
    obtain ⟨y', ey⟩ : ∃ y', y' = tab Q fun k => (∑ j ∈ range Q, rd (x.map FS.val) j * root Q (j * k : Int)) / (Q : ℂ) := ⟨_, rfl⟩
    have e' : npIfft (x.map FS.val) = .ok y' := by
      unfold npIfft
      rw [List.length_map, hx, if_neg (by omega), ey]
    have yl : y'.length = Q := by rw [ey]; simp [tab]
    refine ⟨y'.map fun z => ⟨rnd z.re, rnd z.im⟩, y', by show (npIfft (x.map FS.val)).bind _ = _; rw [e']; rfl, e', by rw [List.length_map, yl], fun k hk => ?_⟩
    obtain ⟨k1, k2⟩ := key x hx hb fun j => (j * k : Int)
    have s0 : 0 ≤ ∑ j ∈ range Q, ‖FS.val (rd x j)‖ := sum_nonneg fun _ _ => norm_nonneg _
    rw [Verif.rd_map _ _ _ (by rw [yl]; exact hk), ey, rd_tab hk]
    have nd : ‖(∑ j ∈ range Q, rd (x.map FS.val) j * root Q (j * k : Int)) / (Q : ℂ)‖ ≤ (∑ j ∈ range Q, ‖FS.val (rd x j)‖) / Q := by
      rw [norm_div, Complex.norm_natCast]
      exact div_le_div_of_nonneg_right k1 hQr.le
    refine (val_rnd hr (nd.trans ((div_le_self s0 Q1).trans k2))).trans ?_
    have b1 := mul_le_mul hκ nd (norm_nonneg _) (by linarith)
    have b3 : κ * (∑ j ∈ range Q, ‖FS.val (rd x j)‖ + Q * 2 ^ (-900 : ℤ)) / Q = κ * ((∑ j ∈ range Q, ‖FS.val (rd x j)‖) / Q) + κ * 2 ^ (-900 : ℤ) := by
      field_simp
    rw [b3]
    exact add_le_add b1 tk

theorem goodFft_ffts (hr : IsRounding rnd) {κ : ℝ} (hκ : 2 * uu ≤ κ) {r : ℕ} (h : r ≤ 2 ^ 28) : FftsWithin (goodFft rnd) κ r := by
  intro Q h1 h2
  rcases Nat.eq_zero_or_pos Q with rfl | h3
  · have := h2 11 (by norm_num) (dvd_zero _)
    omega
  · exact goodFft_within hr hκ h3 (by omega)

theorem k45 : 2 * uu ≤ (2 : ℝ) ^ (-45 : ℤ) := by unfold uu; norm_num

theorem r8 : 213 * (Nat.log 2 (4 * 8) : ℝ) * Real.sqrt (((8 : ℕ) : ℝ) + 1) * 2 ^ (-45 : ℤ) ≤ 1 := by
  rw [show (((8 : ℕ) : ℝ) + 1) = 3 ^ 2 by norm_num, Real.sqrt_sq (by norm_num), show 4 * 8 = 2 ^ 5 by norm_num, Nat.log_pow (by norm_num)]
  norm_num

end FP

/-- Not vacuous: an 8 by 8 array of different samples, analysed with `nmax = 3`, `mmax = 2` by the
Python routines with FFTs that round the exact transform; every coefficient is correct to `2^-20`. -/
example : ∃ (rnd : ℝ → ℝ) (lib : Fl.NumLib rnd) (np : Fl.Fft1 rnd) (D : Arr2 (FC rnd)) (c : ScalarCoefs ℂ) (ch : ScalarCoefs (FC rnd)), NoOverflow rnd ∧ FftsWithin np (2 ^ (-45 : ℤ)) 8 ∧ D.rows = 8 ∧ D.cols = 8 ∧ D.at' 3 5 = ⟨3, 5⟩ ∧
    spht .py ⟨.arr (D.map FS.val)⟩ (some 3) (some 2) = .ok c ∧ Fl.spht rnd (Fl.pyLib rnd lib np) .py ⟨.arr D⟩ (some 3) (some 2) = .ok ch ∧
    ch.WellFormed ∧
    ∀ n m : ℤ, IsMode 3 2 n m → ∃ w z, readMap c n m = some w ∧ readMap ch n m = some z ∧ ‖FS.val z - w‖ ≤ 2 ^ (-20 : ℤ) := by
  obtain ⟨rnd, h⟩ := noOverflow_exists
  have hC : (2 : ℝ) ^ (-700 : ℤ) ≤ 16 := (zpow_le_one_of_nonpos₀ (by norm_num) (by norm_num)).trans (by norm_num)
  have hC' : (16 : ℝ) ≤ 2 ^ (400 : ℤ) := by
    rw [show (16 : ℝ) = 2 ^ (4 : ℤ) by norm_num]; exact zpow_le_zpow_right₀ (by norm_num) (by norm_num)
  obtain ⟨D, eD⟩ : ∃ D : Arr2 (FC rnd), D = Arr2.ofFn 8 8 fun i j => ⟨i, j⟩ := ⟨_, rfl⟩
  have hr : D.rows = 8 := by subst eD; rfl
  have hc : D.cols = 8 := by subst eD; rfl
  have hD : ∀ i j, i < D.rows → j < D.cols → ‖FS.val (D.at' i j)‖ ≤ 16 := by
    intro i j hi hj
    rw [hr] at hi
    rw [hc] at hj
    rw [eD, Arr2.at'_ofFn hi hj]
    refine (Complex.norm_le_abs_re_add_abs_im _).trans ?_
    show |(i : ℝ)| + |(j : ℝ)| ≤ 16
    rw [abs_of_nonneg (by positivity), abs_of_nonneg (by positivity)]
    have a : (i : ℝ) ≤ 8 := by exact_mod_cast hi.le
    have b : (j : ℝ) ≤ 8 := by exact_mod_cast hj.le
    linarith
  have hnp : FftsWithin (FP.goodFft rnd) (2 ^ (-45 : ℤ)) 8 := FP.goodFft_ffts h.toIsRounding FP.k45 (by norm_num)
  obtain ⟨c, ch, e1, e2, e3, -, -, e4⟩ := c104_spht h (FA.goodLib rnd) (FP.goodFft rnd) FA.goodLib_sum D (by omega) (by omega)
    (by omega) (by omega) 3 2 (PowExactTo.near fun _ _ => rfl) (by norm_num) (by norm_num) (by omega) (by omega) 16 hC hC' hD 0 (2 ^ (-45 : ℤ)) (by norm_num) (FA.goodLib_fft D (by omega) (by omega))
    le_rfl (by rw [hr]; exact FP.r8) (by rw [hr]; exact hnp)
  refine ⟨rnd, FA.goodLib rnd, FP.goodFft rnd, D, c, ch, h, hnp, hr, hc, by subst eD; rfl, e1, e2, e3, fun n m hm => ?_⟩
  obtain ⟨w, z, f1, f2, f3⟩ := e4 n m hm
  refine ⟨w, z, f1, f2, f3.trans ?_⟩
  obtain ⟨h0, h1, -, -⟩ := hm
  have n0 : (0 : ℝ) ≤ n := by exact_mod_cast h0
  have n1 : (n : ℝ) ≤ 3 := by exact_mod_cast h1
  have hs : Real.sqrt ((2 * n + 1) / (4 * Real.pi)) ≤ 1 := by
    apply Real.sqrt_le_iff.mpr
    refine ⟨by norm_num, ?_⟩
    rw [one_pow, div_le_one (by positivity)]
    linarith [Real.pi_gt_three]
  unfold pconvErr
  rw [hr]
  have hp : ((n : ℝ) + 4) ^ 3 ≤ 7 ^ 3 := pow_le_pow_left₀ (by linarith) (by linarith) 3
  have hx : ((n : ℝ) + 1) * ((n : ℝ) + 4) ^ 3 ≤ 4 * 7 ^ 3 := mul_le_mul (by linarith) hp (by positivity) (by norm_num)
  have h9 : Real.sqrt (((8 : ℕ) : ℝ) + 1) = 3 := by
    rw [show (((8 : ℕ) : ℝ) + 1) = 3 ^ 2 by norm_num, Real.sqrt_sq (by norm_num)]
  have hL : Nat.log 2 (4 * 8) = 5 := by
    rw [show 4 * 8 = 2 ^ 5 by norm_num, Nat.log_pow (by norm_num)]
  rw [h9, hL]
  refine (mul_le_mul hs le_rfl (by positivity) (by norm_num)).trans ?_
  have e45 : (2 : ℝ) ^ (-45 : ℤ) = 1 / 35184372088832 := by norm_num
  have e43 : (2 : ℝ) ^ (-43 : ℤ) = 1 / 8796093022208 := by norm_num
  have e49 : (2 : ℝ) ^ (-49 : ℤ) = 1 / 562949953421312 := by norm_num
  have e20 : (2 : ℝ) ^ (-20 : ℤ) = 1 / 1048576 := by norm_num
  clear hC hC'
  rw [e45, e43, e49, e20]
  push_cast
  nlinarith

open FS in
/-- Not vacuous: seven complex coefficients, synthesised and analysed by the Python routines, come back to within `2^-17`. -/
example : ∃ (rnd : ℝ → ℝ) (lib : Fl.NumLib rnd) (np : Fl.Fft1 rnd) (c : ScalarCoefs (FC rnd)) (w : ℤ → ℤ → FC rnd) (post : Arr2 (FC rnd) → Int → Int → Res (Arr2 (FC rnd)))
    (p : SPatt (FC rnd)) (ch : ScalarCoefs (FC rnd)), NoOverflow rnd ∧ FftsWithin np (2 ^ (-45 : ℤ)) 8 ∧ c.WellFormed ∧ w 2 (-1) = ⟨4, 1⟩ ∧
    Fl.ispht rnd lib.jp post .py c (some 5) (some 8) = .ok p ∧ Fl.spht rnd (Fl.pyLib rnd lib np) .py p (some 2) (some 1) = .ok ch ∧
    ∀ n m : ℤ, IsMode 2 1 n m → ∃ z, readMap ch n m = some z ∧ ‖val z - val (w n m)‖ ≤ 2 ^ (-17 : ℤ) := by
  obtain ⟨rnd, h⟩ := noOverflow_exists
  have hnp : FftsWithin (FP.goodFft rnd) (2 ^ (-45 : ℤ)) 8 := FP.goodFft_ffts h.toIsRounding FP.k45 (by norm_num)
  have hj : PowExact (FA.goodLib rnd).jp := fun _ _ => rfl
  obtain ⟨c, hcd⟩ : ∃ c : ScalarCoefs (FC rnd), c = ⟨[⟨0, 1⟩, ⟨1, 1⟩, ⟨2, 1⟩, ⟨3, 1⟩, ⟨4, 1⟩, ⟨5, 1⟩, ⟨6, 1⟩], 2, 1⟩ := ⟨_, rfl⟩
  have hw : c.WF := by subst hcd; exact ⟨by norm_num, by norm_num, rfl⟩
  have hn : c.nmax = ((2 : ℕ) : ℤ) := by subst hcd; rfl
  have hm : c.mmax = ((1 : ℕ) : ℤ) := by subst hcd; rfl
  have hrd : ∀ n m, IsMode c.nmax c.mmax n m → readMap c n m = some ((readMap c n m).getD 0) := by
    intro n m hmo
    rw [readMap_eq hw, ScalarCoefs.absMap_mode hw hmo]; rfl
  have hbd : ∀ n m, IsMode c.nmax c.mmax n m → |((readMap c n m).getD 0).re| ≤ 8 ∧ |((readMap c n m).getD 0).im| ≤ 8 := by
    intro n m hmo
    rw [readMap_eq hw, ScalarCoefs.absMap_mode hw hmo, Option.getD_some]
    have hmem := List.getElem_mem (h := hw.slot_lt hmo)
    have hall : ∀ z ∈ c.vec, |z.re| ≤ 8 ∧ |z.im| ≤ 8 := by
      subst hcd
      intro z hz
      simp only [List.mem_cons, List.not_mem_nil, or_false] at hz
      rcases hz with rfl | rfl | rfl | rfl | rfl | rfl | rfl <;> norm_num
    exact hall _ hmem
  let post : Arr2 (FC rnd) → Int → Int → Res (Arr2 (FC rnd)) := fun f dn nc => (invFourier (f.map val) dn nc).bind fun g => .ok (g.map fun z => ⟨z.re, z.im⟩)
  have hpost : ∀ f, Fl.backendScToFc rnd (FA.goodLib rnd).jp .py 0 c.vec c.nmax c.mmax (2 * 5 - 2) 8 = .ok f → FftWithin post 0 f (2 * 5 - 2) 8 := by
    intro f hf
    obtain ⟨Ah, eAh, hAh⟩ := FS.scToFc_spec (FA.goodLib rnd).jp c.vec 2 1 8 8 (by norm_num) (by norm_num) (by norm_num) (by subst hcd; rfl)
    rw [hn, hm] at hf
    have : f = Ah := Except.ok.inj (hf.symm.trans eAh)
    subst this
    obtain ⟨D, eD, Dr, Dc, -⟩ := invFourier_spec (f.map val) 8 8 (by rw [Arr2.rows_map, hAh.rows]) (by rw [Arr2.cols_map, hAh.cols]) (by norm_num) (by norm_num)
    have eD' : invFourier (f.map val) (2 * 5 - 2) 8 = .ok D := eD
    refine ⟨D.map fun z => ⟨z.re, z.im⟩, D, ?_, eD', rfl, rfl, fun i j hi hj' => ?_⟩
    · show (invFourier (f.map val) (2 * 5 - 2) 8).bind _ = _
      rw [eD']; rfl
    · rw [Arr2.at'_map _ D hi hj']
      have e : (val (⟨(D.at' i j).re, (D.at' i j).im⟩ : FC rnd)) = D.at' i j := rfl
      rw [e, sub_self, norm_zero]
  have hC7 : (2 : ℝ) ^ (-700 : ℤ) ≤ 8 := (zpow_le_one_of_nonpos₀ (by norm_num) (by norm_num)).trans (by norm_num)
  have hC : (2 : ℝ) ^ (-900 : ℤ) ≤ 8 := (zpow_le_one_of_nonpos₀ (by norm_num) (by norm_num)).trans (by norm_num)
  have hC' : (8 : ℝ) ≤ 2 ^ (300 : ℤ) := by rw [show (8 : ℝ) = 2 ^ (3 : ℤ) by norm_num]; exact zpow_le_zpow_right₀ (by norm_num) (by norm_num)
  have hcw := ScalarCoefs.wf_iff.mp hw
  obtain ⟨g, D, e1, -, gr, gc, -, -, -, hgS⟩ := FA.ispht_samples h .py c hcw 2 1 hn hm (hj.ok _ (by norm_num)) (by norm_num) _ hrd 8 hC hC' hbd 5 8
    (by rw [hn]; norm_num) (by rw [hm]; norm_num) (by norm_num) post 0 _ rfl (by norm_num) hpost
  have hfft : ∀ D, Fl.ispht rnd (FA.goodLib rnd).jp post .py c (some 5) (some 8) = .ok ⟨.arr D⟩ → Fft2Within (FA.goodLib rnd).fft 0 D := by
    intro D' hD'
    rw [e1] at hD'
    cases hD'
    exact FA.goodLib_fft g (by omega) (by omega)
  obtain ⟨p, ch, f1, f2, -, -, -, f3⟩ := c104_round_trip h (FA.goodLib rnd) (FP.goodFft rnd) FA.goodLib_sum .py c hcw 2 1 hn hm (PowExactTo.near fun _ _ => rfl) (by norm_num) _ hrd 8 hC7 hC' hbd 5 8
    (by rw [hn]; norm_num) (by rw [hm]; norm_num) (by norm_num) (by norm_num) post 0 0 (2 ^ (-45 : ℤ)) _ rfl (by norm_num) (by norm_num) hpost hfft
    le_rfl (by rw [show ((2 * 5 - 2 : ℤ).toNat : ℕ) = 8 from rfl, show 2 * (((5 : ℤ)) : ℝ) - 1 = (((8 : ℕ) : ℝ) + 1) by norm_num]; exact FP.r8) hnp
  rw [hn, hm] at f2 f3
  refine ⟨rnd, FA.goodLib rnd, FP.goodFft rnd, c, fun n m => (readMap c n m).getD 0, post, p, ch, h, hnp, hcw, by subst hcd; rfl, f1, f2, fun n m hmo => ?_⟩
  obtain ⟨z, g1, g2⟩ := f3 n m hmo
  refine ⟨z, g1, g2.trans ?_⟩
  obtain ⟨h0, h1, -, -⟩ := hmo
  have hs : ∀ x : ℝ, x ≤ 2 → Real.sqrt ((2 * x + 1) / (4 * Real.pi)) ≤ 1 := by
    intro x hx
    apply Real.sqrt_le_iff.mpr
    refine ⟨by norm_num, ?_⟩
    rw [div_le_iff₀ (by positivity)]
    have := Real.pi_gt_three
    linarith
  have n0 : (0 : ℝ) ≤ n := by exact_mod_cast h0
  have n1 : (n : ℝ) ≤ 2 := by exact_mod_cast h1
  have s1 := hs n n1
  have s2 := hs ((2 : ℕ) : ℝ) (by norm_num)
  have hp : ((n : ℝ) + 4) ^ 3 ≤ 6 ^ 3 := pow_le_pow_left₀ (by linarith) (by linarith) 3
  have hx : ((n : ℝ) + 1) * ((n : ℝ) + 4) ^ 3 ≤ 3 * 6 ^ 3 := mul_le_mul (by linarith) hp (by positivity) (by norm_num)
  unfold pconvErr
  have e8 : (2 * (5 : ℤ) - 2).toNat = 8 := by decide
  have h9 : Real.sqrt (((8 : ℕ) : ℝ) + 1) = 3 := by
    rw [show (((8 : ℕ) : ℝ) + 1) = 3 ^ 2 by norm_num, Real.sqrt_sq (by norm_num)]
  have hL : Nat.log 2 (4 * 8) = 5 := by
    rw [show 4 * 8 = 2 ^ 5 by norm_num, Nat.log_pow (by norm_num)]
  have h9' : Real.sqrt (2 * (((5 : ℤ)) : ℝ) - 1) = 3 := by rw [← h9]; norm_num
  rw [e8, h9', h9, hL]
  obtain ⟨r2, hr2⟩ : ∃ r, r = Real.sqrt ((2 * ((2 : ℕ) : ℝ) + 1) / (4 * Real.pi)) := ⟨_, rfl⟩
  rw [← hr2] at s2 ⊢
  have r20 : 0 ≤ r2 := by rw [hr2]; exact Real.sqrt_nonneg _
  refine (mul_le_mul s1 le_rfl (by positivity) (by norm_num)).trans ?_
  have e45 : (2 : ℝ) ^ (-45 : ℤ) = 1 / 35184372088832 := by norm_num
  have e43 : (2 : ℝ) ^ (-43 : ℤ) = 1 / 8796093022208 := by norm_num
  have e49 : (2 : ℝ) ^ (-49 : ℤ) = 1 / 562949953421312 := by norm_num
  have e17 : (2 : ℝ) ^ (-17 : ℤ) = 1 / 131072 := by norm_num
  clear hC hC' hC7
  rw [e45, e43, e49, e17]
  push_cast
  nlinarith

/-- Not vacuous: two 8 by 8 arrays of different samples, analysed with `nmax = 3`, `mmax = 2` by the
Python routines; both coefficients of every mode are correct to `2^-17`. -/
example : ∃ (rnd : ℝ → ℝ) (lib : Fl.NumLib rnd) (np : Fl.Fft1 rnd) (T P : Arr2 (FC rnd)) (c : VectorCoefs ℂ) (ch : VectorCoefs (FC rnd)), NoOverflow rnd ∧ FftsWithin np (2 ^ (-45 : ℤ)) 8 ∧ T.rows = 8 ∧ T.cols = 8 ∧ T.at' 3 5 = ⟨3, 5⟩ ∧ P.at' 3 5 = ⟨5, 3⟩ ∧
    vspht .py ⟨T.map FS.val, P.map FS.val⟩ (some 3) (some 2) = .ok c ∧ Fl.vspht rnd (Fl.pyLib rnd lib np) .py ⟨T, P⟩ (some 3) (some 2) = .ok ch ∧
    ch.WellFormed ∧
    ∀ n m : ℤ, IsMode 3 2 n m → n ≠ 0 → ∃ w z, readMapV c n m = some w ∧ readMapV ch n m = some z ∧ ‖FS.val z.1 - w.1‖ ≤ 2 ^ (-17 : ℤ) ∧ ‖FS.val z.2 - w.2‖ ≤ 2 ^ (-17 : ℤ) := by
  obtain ⟨rnd, h⟩ := noOverflow_exists
  have hC : (2 : ℝ) ^ (-700 : ℤ) ≤ 16 := (zpow_le_one_of_nonpos₀ (by norm_num) (by norm_num)).trans (by norm_num)
  have hC' : (16 : ℝ) ≤ 2 ^ (400 : ℤ) := by
    rw [show (16 : ℝ) = 2 ^ (4 : ℤ) by norm_num]; exact zpow_le_zpow_right₀ (by norm_num) (by norm_num)
  obtain ⟨T, eT⟩ : ∃ D : Arr2 (FC rnd), D = Arr2.ofFn 8 8 fun i j => ⟨i, j⟩ := ⟨_, rfl⟩
  obtain ⟨P, eP⟩ : ∃ D : Arr2 (FC rnd), D = Arr2.ofFn 8 8 fun i j => ⟨j, i⟩ := ⟨_, rfl⟩
  have hr : T.rows = 8 := by subst eT; rfl
  have hc : T.cols = 8 := by subst eT; rfl
  have hr' : P.rows = 8 := by subst eP; rfl
  have hc' : P.cols = 8 := by subst eP; rfl
  have bd : ∀ (x y : ℕ), x < 8 → y < 8 → ‖FS.val (⟨x, y⟩ : FC rnd)‖ ≤ 16 := by
    intro i j hi hj
    refine (Complex.norm_le_abs_re_add_abs_im _).trans ?_
    show |(i : ℝ)| + |(j : ℝ)| ≤ 16
    rw [abs_of_nonneg (by positivity), abs_of_nonneg (by positivity)]
    have a : (i : ℝ) ≤ 8 := by exact_mod_cast hi.le
    have b : (j : ℝ) ≤ 8 := by exact_mod_cast hj.le
    linarith
  have hT : ∀ i j, i < T.rows → j < T.cols → ‖FS.val (T.at' i j)‖ ≤ 16 := by
    intro i j hi hj
    rw [hr] at hi
    rw [hc] at hj
    rw [eT, Arr2.at'_ofFn hi hj]
    exact bd i j hi hj
  have hP : ∀ i j, i < T.rows → j < T.cols → ‖FS.val (P.at' i j)‖ ≤ 16 := by
    intro i j hi hj
    rw [hr] at hi
    rw [hc] at hj
    rw [eP, Arr2.at'_ofFn hi hj]
    exact bd j i hj hi
  have hnp : FftsWithin (FP.goodFft rnd) (2 ^ (-45 : ℤ)) 8 := FP.goodFft_ffts h.toIsRounding FP.k45 (by norm_num)
  obtain ⟨c, ch, e1, e2, e3, -, -, e4⟩ := c104_vspht h (FA.goodLib rnd) (FP.goodFft rnd) FA.goodLib_sum T P (by omega) (by omega) (by omega) (by omega)
    (by omega) (by omega) 3 2 (PowExactTo.near fun _ _ => rfl) (by norm_num) (by norm_num) (by omega) (by omega) 16 hC hC' hT hP 0 (2 ^ (-45 : ℤ)) (by norm_num)
    (FA.goodLib_fft T (by omega) (by omega)) (FA.goodLib_fft P (by omega) (by omega))
    le_rfl (by rw [hr]; exact FP.r8) (by rw [hr]; exact hnp)
  refine ⟨rnd, FA.goodLib rnd, FP.goodFft rnd, T, P, c, ch, h, hnp, hr, hc, by subst eT; rfl, by subst eP; rfl, e1, e2, e3, fun n m hm hn => ?_⟩
  obtain ⟨w, z, f1, f2, f3, f4⟩ := e4 n m hm hn
  have key : vsphtErr T.rows 2 16 0 (pconvErr T.rows (2 ^ (-45 : ℤ)) (((T.rows : ℝ) / 2 + ((2 : ℕ) : ℝ) + 3) * 16)) n ≤ 2 ^ (-17 : ℤ) := by
    obtain ⟨h0, h1, -, -⟩ := hm
    have n0 : (1 : ℝ) ≤ n := by exact_mod_cast (show 1 ≤ n by omega)
    have n1 : (n : ℝ) ≤ 3 := by exact_mod_cast h1
    have hs : Real.sqrt ((2 * n + 1) / (4 * Real.pi)) ≤ 1 := by
      apply Real.sqrt_le_iff.mpr
      refine ⟨by norm_num, ?_⟩
      rw [one_pow, div_le_one (by positivity)]
      linarith [Real.pi_gt_three]
    have hw : 1 / Real.sqrt ((n : ℝ) * ((n : ℝ) + 1)) ≤ 1 := by
      rw [div_le_one (by positivity), Real.one_le_sqrt]
      nlinarith
    unfold vsphtErr pconvErr
    rw [hr]
    have hp : ((n : ℝ) + 4) ^ 3 ≤ 7 ^ 3 := pow_le_pow_left₀ (by linarith) (by linarith) 3
    have hx : ((n : ℝ) + 1) * ((n : ℝ) + 4) ^ 3 ≤ 4 * 7 ^ 3 := mul_le_mul (by linarith) hp (by positivity) (by norm_num)
    refine (mul_le_mul hw (mul_le_mul hs le_rfl (by positivity) (by norm_num)) (by positivity) (by norm_num)).trans ?_
    have h9 : Real.sqrt (((8 : ℕ) : ℝ) + 1) = 3 := by
      rw [show (((8 : ℕ) : ℝ) + 1) = 3 ^ 2 by norm_num, Real.sqrt_sq (by norm_num)]
    have hL : Nat.log 2 (4 * 8) = 5 := by
      rw [show 4 * 8 = 2 ^ 5 by norm_num, Nat.log_pow (by norm_num)]
    rw [h9, hL]
    generalize ((n : ℝ) + 1) * ((n : ℝ) + 4) ^ 3 = X at hx ⊢
    clear hC hC'
    norm_num at hx ⊢
    linarith
  exact ⟨w, z, f1, f2, f3.trans key, f4.trans key⟩

/-- Not vacuous: two sets of four different coefficients, through a 5 by 8 grid synthesised and analysed by the Python
routines; both coefficients of every mode come back to within `2^-17`. -/
example : ∃ (rnd : ℝ → ℝ) (lib : Fl.NumLib rnd) (np : Fl.Fft1 rnd) (c : VectorCoefs (FC rnd)) (v w : ℤ → ℤ → FC rnd) (inv : Arr2 (FC rnd) → Int → Int → Res (Arr2 (FC rnd)))
    (p : TPatt (FC rnd)) (ch : VectorCoefs (FC rnd)), NoOverflow rnd ∧ FftsWithin np (2 ^ (-45 : ℤ)) 8 ∧ c.WellFormed ∧ v 1 (-1) = ⟨2, 1⟩ ∧ w 1 1 = ⟨7, 1⟩ ∧
    Fl.vispht rnd lib.jp (Fl.visphtPost rnd inv) .py c (some 5) (some 8) = .ok p ∧ Fl.vspht rnd (Fl.pyLib rnd lib np) .py p (some 1) (some 1) = .ok ch ∧
    ∀ n m : ℤ, IsMode 1 1 n m → n ≠ 0 → ∃ z, readMapV ch n m = some z ∧ ‖FS.val z.1 - FS.val (v n m)‖ ≤ 2 ^ (-17 : ℤ) ∧ ‖FS.val z.2 - FS.val (w n m)‖ ≤ 2 ^ (-17 : ℤ) := by
  obtain ⟨rnd, h⟩ := noOverflow_exists
  have hj : PowExact (FA.goodLib rnd).jp := fun _ _ => rfl
  obtain ⟨c, hcd⟩ : ∃ c : VectorCoefs (FC rnd), c = ⟨⟨[⟨0, 1⟩, ⟨1, 1⟩, ⟨2, 1⟩, ⟨3, 1⟩], 1, 1⟩, ⟨[⟨4, 1⟩, ⟨5, 1⟩, ⟨6, 1⟩, ⟨7, 1⟩], 1, 1⟩, 1, 1⟩ := ⟨_, rfl⟩
  have w1 : c.scoef1.WF := by subst hcd; exact ⟨by norm_num, by norm_num, rfl⟩
  have w2 : c.scoef2.WF := by subst hcd; exact ⟨by norm_num, by norm_num, rfl⟩
  have hn : c.nmax = ((1 : ℕ) : ℤ) := by subst hcd; rfl
  have hm : c.mmax = ((1 : ℕ) : ℤ) := by subst hcd; rfl
  have hc : c.WellFormed := ⟨ScalarCoefs.wf_iff.mp w1, ScalarCoefs.wf_iff.mp w2, by subst hcd; rfl, by subst hcd; rfl, by subst hcd; rfl, by subst hcd; rfl⟩
  have hx : ∀ n m, IsMode c.nmax c.mmax n m → n ≠ 0 → ∃ x y, readMapV c n m = some (x, y) ∧ x ∈ c.scoef1.vec ∧ y ∈ c.scoef2.vec := by
    intro n m hmo n0
    have m1 : IsMode c.scoef1.nmax c.scoef1.mmax n m := by rw [hc.n1, hc.m1]; exact hmo
    have m2 : IsMode c.scoef2.nmax c.scoef2.mmax n m := by rw [hc.n2, hc.m2]; exact hmo
    rw [readMapV_eq hc, if_neg n0, ScalarCoefs.absMap_mode w1 m1, ScalarCoefs.absMap_mode w2 m2]
    exact ⟨_, _, rfl, List.getElem_mem _, List.getElem_mem _⟩
  have hall : (∀ z ∈ c.scoef1.vec, |z.re| ≤ 8 ∧ |z.im| ≤ 8) ∧ ∀ z ∈ c.scoef2.vec, |z.re| ≤ 8 ∧ |z.im| ≤ 8 := by
    subst hcd
    constructor <;> intro z hz <;> simp only [List.mem_cons, List.not_mem_nil, or_false] at hz <;> rcases hz with rfl | rfl | rfl | rfl <;> norm_num
  let inv : Arr2 (FC rnd) → Int → Int → Res (Arr2 (FC rnd)) := fun f dn nc => (invFourier (f.map FS.val) dn nc).bind fun g => .ok (g.map fun z => ⟨z.re, z.im⟩)
  have hinv : ∀ f : Arr2 (FC rnd), (f.rows : ℤ) = 2 * 5 - 2 → (f.cols : ℤ) = 8 → FftWithin inv 0 f (2 * 5 - 2) 8 := by
    intro f fr fc
    obtain ⟨D, eD, Dr, Dc, -⟩ := invFourier_spec (f.map FS.val) 8 8 (by rw [Arr2.rows_map]; omega) (by rw [Arr2.cols_map]; omega) (by norm_num) (by norm_num)
    have eD' : invFourier (f.map FS.val) (2 * 5 - 2) 8 = .ok D := eD
    refine ⟨D.map fun z => ⟨z.re, z.im⟩, D, ?_, eD', rfl, rfl, fun i j hi hj' => ?_⟩
    · show (invFourier (f.map FS.val) (2 * 5 - 2) 8).bind _ = _
      rw [eD']; rfl
    · rw [Arr2.at'_map _ D hi hj']
      have e : (FS.val (⟨(D.at' i j).re, (D.at' i j).im⟩ : FC rnd)) = D.at' i j := rfl
      rw [e, sub_self, norm_zero]
  have hC : (2 : ℝ) ^ (-900 : ℤ) ≤ 8 := (zpow_le_one_of_nonpos₀ (by norm_num) (by norm_num)).trans (by norm_num)
  have hC7 : (2 : ℝ) ^ (-700 : ℤ) ≤ 8 := (zpow_le_one_of_nonpos₀ (by norm_num) (by norm_num)).trans (by norm_num)
  have hC' : (8 : ℝ) ≤ 2 ^ (300 : ℤ) := by rw [show (8 : ℝ) = 2 ^ (3 : ℤ) by norm_num]; exact zpow_le_zpow_right₀ (by norm_num) (by norm_num)
  have hvw : ∀ n m, IsMode c.nmax c.mmax n m → n ≠ 0 → readMapV c n m = some (((readMapV c n m).getD (0, 0)).1, ((readMapV c n m).getD (0, 0)).2) := by
    intro n m a1 a2
    obtain ⟨x, y, h1, -, -⟩ := hx n m a1 a2
    rw [h1]; rfl
  have hvC : ∀ n m, IsMode c.nmax c.mmax n m → n ≠ 0 → |((readMapV c n m).getD (0, 0)).1.re| ≤ 8 ∧ |((readMapV c n m).getD (0, 0)).1.im| ≤ 8 := by
    intro n m a1 a2
    obtain ⟨x, y, h1, h2, -⟩ := hx n m a1 a2
    simp only [h1]; exact hall.1 x h2
  have hwC : ∀ n m, IsMode c.nmax c.mmax n m → n ≠ 0 → |((readMapV c n m).getD (0, 0)).2.re| ≤ 8 ∧ |((readMapV c n m).getD (0, 0)).2.im| ≤ 8 := by
    intro n m a1 a2
    obtain ⟨x, y, h1, -, h2⟩ := hx n m a1 a2
    simp only [h1]; exact hall.2 y h2
  have hrow : FS.rowMax 1 ≤ 1 := by
    unfold FS.rowMax
    apply Real.sqrt_le_iff.mpr
    refine ⟨by norm_num, ?_⟩
    rw [one_pow, div_le_one (by positivity)]
    push_cast
    linarith [Real.pi_gt_three]
  have hrow0 : 0 ≤ FS.rowMax 1 := Real.sqrt_nonneg _
  obtain ⟨ε, hε⟩ : ∃ ε : ℝ, ε = 0 + (2 * ((5 : ℤ) : ℝ) - 1) * (2 * ((1 : ℕ) : ℝ) + 1) * FV.fieldErr 1 1 8 := ⟨_, rfl⟩
  have hεb : ε ≤ 324000 * 2 ^ (-47 : ℤ) := by
    rw [hε]
    unfold FV.fieldErr
    push_cast
    norm_num
    linarith
  have hε0 : 0 ≤ ε := by
    rw [hε]
    unfold FV.fieldErr
    positivity
  have hε' : ε ≤ (((1 : ℕ) : ℝ) + 1) ^ 2 * 8 / 5 := hεb.trans (by norm_num)
  obtain ⟨⟨T, P⟩, D, e1, -, g1, g2, g3, g4, -, -, -, -, -, hgS⟩ := FV.vispht_samples h .py c hc 1 1 hn hm (hj.ok _ (by norm_num)) (by norm_num) _ _ hvw 8 hC hC' hvC hwC 5 8
    (by rw [hn]; norm_num) (by rw [hm]; norm_num) (by norm_num) inv 0 ε hε hε' (fun f fr fc _ => hinv f fr fc)
  simp only at g1 g2 g3 g4 hgS
  have hnp : FftsWithin (FP.goodFft rnd) (2 ^ (-45 : ℤ)) 8 := FP.goodFft_ffts h.toIsRounding FP.k45 (by norm_num)
  have hfft : ∀ T P, Fl.vispht rnd (FA.goodLib rnd).jp (Fl.visphtPost rnd inv) .py c (some 5) (some 8) = .ok ⟨T, P⟩ →
      Fft2Within (FA.goodLib rnd).fft 0 T ∧ Fft2Within (FA.goodLib rnd).fft 0 P := by
    intro T' P' hTP
    rw [e1] at hTP
    cases hTP
    exact ⟨FA.goodLib_fft T (by omega) (by omega), FA.goodLib_fft P (by omega) (by omega)⟩
  obtain ⟨p, ch, f1, f2, -, -, -, f3⟩ := c104_vround_trip h (FA.goodLib rnd) (FP.goodFft rnd) FA.goodLib_sum .py c hc 1 1 hn hm (PowExactTo.near fun _ _ => rfl) (by norm_num) _ _ hvw 8 hC7 hC' hvC hwC 5 8
    (by rw [hn]; norm_num) (by rw [hm]; norm_num) (by norm_num) (by norm_num) inv 0 0 (2 ^ (-45 : ℤ)) ε hε hε' (by norm_num) (fun f fr fc _ => hinv f fr fc) hfft
    le_rfl (by rw [show ((2 * 5 - 2 : ℤ).toNat : ℕ) = 8 from rfl, show 2 * (((5 : ℤ)) : ℝ) - 1 = (((8 : ℕ) : ℝ) + 1) by norm_num]; exact FP.r8) hnp
  rw [hn, hm] at f2 f3
  refine ⟨rnd, FA.goodLib rnd, FP.goodFft rnd, c, fun n m => ((readMapV c n m).getD (0, 0)).1, fun n m => ((readMapV c n m).getD (0, 0)).2, inv, p, ch, h, hnp, hc, by subst hcd; rfl, by subst hcd; rfl, f1, f2, fun n m hmo n0 => ?_⟩
  obtain ⟨z, z1, z2, z3⟩ := f3 n m hmo n0
  have key : vroundErr 1 1 5 8 0 (pconvErr (2 * 5 - 2 : ℤ).toNat (2 ^ (-45 : ℤ)) ((((5 : ℤ) : ℝ) + ((1 : ℕ) : ℝ) + 2) * ((((1 : ℕ) : ℝ) + 1) ^ 2 * 8))) ε n ≤ 2 ^ (-17 : ℤ) := by
    obtain rfl : n = 1 := by have := hmo.1; have := hmo.2.1; push_cast at *; omega
    unfold vroundErr vsphtErr pconvErr
    have hs : Real.sqrt ((2 * ((1 : ℤ) : ℝ) + 1) / (4 * Real.pi)) ≤ 1 := by
      have := hrow
      unfold FS.rowMax at this
      push_cast at this ⊢
      exact this
    have hs0 : 0 ≤ Real.sqrt ((2 * ((1 : ℤ) : ℝ) + 1) / (4 * Real.pi)) := Real.sqrt_nonneg _
    have hw : 1 / Real.sqrt (((1 : ℤ) : ℝ) * (((1 : ℤ) : ℝ) + 1)) ≤ 1 := by
      rw [div_le_one (by positivity), Real.one_le_sqrt]
      norm_num
    have hw0 : 0 ≤ 1 / Real.sqrt (((1 : ℤ) : ℝ) * (((1 : ℤ) : ℝ) + 1)) := by positivity
    generalize 1 / Real.sqrt (((1 : ℤ) : ℝ) * (((1 : ℤ) : ℝ) + 1)) = W at hw hw0 ⊢
    generalize Real.sqrt ((2 * ((1 : ℤ) : ℝ) + 1) / (4 * Real.pi)) = Q at hs hs0 ⊢
    have h9 : Real.sqrt ((((2 * 5 - 2 : ℤ).toNat : ℕ) : ℝ) + 1) = 3 := by
      rw [show ((2 * 5 - 2 : ℤ).toNat : ℕ) = 8 from rfl, show (((8 : ℕ) : ℝ) + 1) = 3 ^ 2 by norm_num, Real.sqrt_sq (by norm_num)]
    have hL : Nat.log 2 (4 * 8) = 5 := by
      rw [show 4 * 8 = 2 ^ 5 by norm_num, Nat.log_pow (by norm_num)]
    rw [h9, show ((2 * 5 - 2 : ℤ).toNat : ℕ) = 8 from rfl, hL]
    have WQ : W * Q ≤ 1 := by nlinarith
    have k1 : ∀ x : ℝ, 0 ≤ x → W * (Q * x) ≤ x := fun x hx => by rw [← mul_assoc]; exact mul_le_of_le_one_left hx WQ
    refine (add_le_add (k1 _ (by positivity)) (le_of_eq (show _ = W * (Q * ((2 * ((1 : ℤ) : ℝ) + 1) * (20 * ((((1 : ℕ) : ℝ) + ((5 : ℤ) : ℝ)) * ε)))) by ring))).trans ?_
    refine (add_le_add le_rfl (k1 _ (by positivity))).trans ?_
    clear hC hC' hC7
    norm_num at hεb ⊢
    linarith
  exact ⟨z, z1, z2.trans key, z3.trans key⟩

end Verif.Props
