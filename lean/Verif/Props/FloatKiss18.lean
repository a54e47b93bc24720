import Verif.Props.FloatKiss17
/-!
# C101: the hypotheses can be met
-/
namespace Verif.Props
open Verif Finset

/-- Not vacuous: two 8 by 8 arrays of different samples, analysed with `nmax = 3`, `mmax = 2` by the extension and its kiss_fft, with
two different contents of fresh memory; both coefficients of every mode are correct to `2^-17`. -/
example : ∃ (rnd : ℝ → ℝ) (lib : Fl.NumLib rnd) (lm : Fl.LibM) (T P : Arr2 (FC rnd)) (c : VectorCoefs ℂ) (ch : VectorCoefs (FC rnd)), NoOverflow rnd ∧ LibMWithin lm ∧ T.rows = 8 ∧ T.cols = 8 ∧ T.at' 3 5 = ⟨3, 5⟩ ∧ P.at' 3 5 = ⟨5, 3⟩ ∧
    vspht .py ⟨T.map FS.val, P.map FS.val⟩ (some 3) (some 2) = .ok c ∧ Fl.kVspht rnd lib lm (fun _ => ⟨fun _ _ => 7, fun _ => 8, fun _ => 9⟩) ⟨T, P⟩ (some 3) (some 2) = .ok ch ∧
    Fl.kVspht rnd lib lm (fun _ => ⟨fun _ _ => 0, fun _ => 0, fun _ => 0⟩) ⟨T, P⟩ (some 3) (some 2) = .ok ch ∧ ch.WellFormed ∧
    ∀ n m : ℤ, IsMode 3 2 n m → n ≠ 0 → ∃ w z, readMapV c n m = some w ∧ readMapV ch n m = some z ∧ ‖FS.val z.1 - w.1‖ ≤ 2 ^ (-17 : ℤ) ∧ ‖FS.val z.2 - w.2‖ ≤ 2 ^ (-17 : ℤ) := by
  obtain ⟨rnd, h⟩ := noOverflow_exists
  have hC : (2 : ℝ) ^ (-700 : ℤ) ≤ 16 := (zpow_le_one_of_nonpos₀ (by norm_num) (by norm_num)).trans (by norm_num)
  have hC' : (16 : ℝ) ≤ 2 ^ (400 : ℤ) := by
    rw [show (16 : ℝ) = 2 ^ (4 : ℤ) by norm_num]; exact zpow_le_zpow_right₀ (by norm_num) (by norm_num)
  obtain ⟨T, eT⟩ : ∃ D : Arr2 (FC rnd), D = Arr2.ofFn 8 8 fun i j => ⟨i, j⟩ := ⟨_, rfl⟩
  obtain ⟨P, eP⟩ : ∃ D : Arr2 (FC rnd), D = Arr2.ofFn 8 8 fun i j => ⟨j, i⟩ := ⟨_, rfl⟩
  have hr : T.rows = 8 := by subst eT; rfl
  have hc : T.cols = 8 := by subst eT; rfl
  have hr' : P.rows = 8 := by subst eP; rfl
  have hc' : P.cols = 8 := by subst eP; rfl
  have bd : ∀ (x y : ℕ), x < 8 → y < 8 → ‖FS.val (⟨x, y⟩ : FC rnd)‖ ≤ 16 := by
    intro i j hi hj
    refine (Complex.norm_le_abs_re_add_abs_im _).trans ?_
    show |(i : ℝ)| + |(j : ℝ)| ≤ 16
    rw [abs_of_nonneg (by positivity), abs_of_nonneg (by positivity)]
    have a : (i : ℝ) ≤ 8 := by exact_mod_cast hi.le
    have b : (j : ℝ) ≤ 8 := by exact_mod_cast hj.le
    linarith
  have hT : ∀ i j, i < T.rows → j < T.cols → ‖FS.val (T.at' i j)‖ ≤ 16 := by
    intro i j hi hj
    rw [hr] at hi
    rw [hc] at hj
    rw [eT, Arr2.at'_ofFn hi hj]
    exact bd i j hi hj
  have hP : ∀ i j, i < T.rows → j < T.cols → ‖FS.val (P.at' i j)‖ ≤ 16 := by
    intro i j hi hj
    rw [hr] at hi
    rw [hc] at hj
    rw [eP, Arr2.at'_ofFn hi hj]
    exact bd j i hj hi
  have hl := libMWithin_rnd h.toIsRounding
  obtain ⟨c, ch, e1, e2, e3, -, -, e4⟩ := c101_vspht h (FA.goodLib rnd) hl (fun _ => ⟨fun _ _ => 7, fun _ => 8, fun _ => 9⟩) T P (by omega) (by omega) (by omega) (by omega)
    (by omega) (by omega) 3 2 (by norm_num) (by norm_num) (by omega) (by omega) 16 hC hC' hT hP 0 (by norm_num)
    (FA.goodLib_fft T (by omega) (by omega)) (FA.goodLib_fft P (by omega) (by omega))
  refine ⟨rnd, FA.goodLib rnd, _, T, P, c, ch, h, hl, hr, hc, by subst eT; rfl, by subst eP; rfl, e1, e2, c101_fresh h _ hl _ _ T P (by omega) 3 2 (by omega) ch e2, e3, fun n m hm hn => ?_⟩
  obtain ⟨w, z, f1, f2, f3, f4⟩ := e4 n m hm hn
  have key : kvsphtErr T.rows 2 16 0 n ≤ 2 ^ (-17 : ℤ) := by
    obtain ⟨h0, h1, -, -⟩ := hm
    have n0 : (1 : ℝ) ≤ n := by exact_mod_cast (show 1 ≤ n by omega)
    have n1 : (n : ℝ) ≤ 3 := by exact_mod_cast h1
    have hs : Real.sqrt ((2 * n + 1) / (4 * Real.pi)) ≤ 1 := by
      apply Real.sqrt_le_iff.mpr
      refine ⟨by norm_num, ?_⟩
      rw [one_pow, div_le_one (by positivity)]
      linarith [Real.pi_gt_three]
    have hw : 1 / Real.sqrt ((n : ℝ) * ((n : ℝ) + 1)) ≤ 1 := by
      rw [div_le_one (by positivity), Real.one_le_sqrt]
      nlinarith
    unfold kvsphtErr
    rw [hr]
    have hp : ((n : ℝ) + 4) ^ 3 ≤ 7 ^ 3 := pow_le_pow_left₀ (by linarith) (by linarith) 3
    have hx : ((n : ℝ) + 1) * ((n : ℝ) + 4) ^ 3 ≤ 4 * 7 ^ 3 := mul_le_mul (by linarith) hp (by positivity) (by norm_num)
    refine (mul_le_mul hw (mul_le_mul hs le_rfl (by positivity) (by norm_num)) (by positivity) (by norm_num)).trans ?_
    have h9 : Real.sqrt (((8 : ℕ) : ℝ) + 1) = 3 := by
      rw [show (((8 : ℕ) : ℝ) + 1) = 3 ^ 2 by norm_num, Real.sqrt_sq (by norm_num)]
    have hL : Nat.log 2 (4 * 8) = 5 := by
      rw [show 4 * 8 = 2 ^ 5 by norm_num, Nat.log_pow (by norm_num)]
    rw [h9, hL]
    generalize ((n : ℝ) + 1) * ((n : ℝ) + 4) ^ 3 = X at hx ⊢
    clear hC hC'
    norm_num at hx ⊢
    linarith
  exact ⟨w, z, f1, f2, f3.trans key, f4.trans key⟩

/-- Not vacuous: two sets of four different coefficients, through a 5 by 8 grid synthesised by the Python backend with exact FFTs and analysed by the
extension; both coefficients of every mode come back to within `2^-17`. -/
example : ∃ (rnd : ℝ → ℝ) (lib : Fl.NumLib rnd) (lm : Fl.LibM) (c : VectorCoefs (FC rnd)) (v w : ℤ → ℤ → FC rnd) (inv : Arr2 (FC rnd) → Int → Int → Res (Arr2 (FC rnd)))
    (p : TPatt (FC rnd)) (ch : VectorCoefs (FC rnd)), NoOverflow rnd ∧ LibMWithin lm ∧ c.WellFormed ∧ v 1 (-1) = ⟨2, 1⟩ ∧ w 1 1 = ⟨7, 1⟩ ∧
    Fl.vispht rnd lib.jp (Fl.visphtPost rnd inv) .py c (some 5) (some 8) = .ok p ∧ Fl.kVspht rnd lib lm (fun _ => ⟨fun _ _ => 7, fun _ => 8, fun _ => 9⟩) p (some 1) (some 1) = .ok ch ∧
    ∀ n m : ℤ, IsMode 1 1 n m → n ≠ 0 → ∃ z, readMapV ch n m = some z ∧ ‖FS.val z.1 - FS.val (v n m)‖ ≤ 2 ^ (-17 : ℤ) ∧ ‖FS.val z.2 - FS.val (w n m)‖ ≤ 2 ^ (-17 : ℤ) := by
  obtain ⟨rnd, h⟩ := noOverflow_exists
  have hj : PowExact (FA.goodLib rnd).jp := fun _ _ => rfl
  obtain ⟨c, hcd⟩ : ∃ c : VectorCoefs (FC rnd), c = ⟨⟨[⟨0, 1⟩, ⟨1, 1⟩, ⟨2, 1⟩, ⟨3, 1⟩], 1, 1⟩, ⟨[⟨4, 1⟩, ⟨5, 1⟩, ⟨6, 1⟩, ⟨7, 1⟩], 1, 1⟩, 1, 1⟩ := ⟨_, rfl⟩
  have w1 : c.scoef1.WF := by subst hcd; exact ⟨by norm_num, by norm_num, rfl⟩
  have w2 : c.scoef2.WF := by subst hcd; exact ⟨by norm_num, by norm_num, rfl⟩
  have hn : c.nmax = ((1 : ℕ) : ℤ) := by subst hcd; rfl
  have hm : c.mmax = ((1 : ℕ) : ℤ) := by subst hcd; rfl
  have hc : c.WellFormed := ⟨ScalarCoefs.wf_iff.mp w1, ScalarCoefs.wf_iff.mp w2, by subst hcd; rfl, by subst hcd; rfl, by subst hcd; rfl, by subst hcd; rfl⟩
  have hx : ∀ n m, IsMode c.nmax c.mmax n m → n ≠ 0 → ∃ x y, readMapV c n m = some (x, y) ∧ x ∈ c.scoef1.vec ∧ y ∈ c.scoef2.vec := by
    intro n m hmo n0
    have m1 : IsMode c.scoef1.nmax c.scoef1.mmax n m := by rw [hc.n1, hc.m1]; exact hmo
    have m2 : IsMode c.scoef2.nmax c.scoef2.mmax n m := by rw [hc.n2, hc.m2]; exact hmo
    rw [readMapV_eq hc, if_neg n0, ScalarCoefs.absMap_mode w1 m1, ScalarCoefs.absMap_mode w2 m2]
    exact ⟨_, _, rfl, List.getElem_mem _, List.getElem_mem _⟩
  have hall : (∀ z ∈ c.scoef1.vec, |z.re| ≤ 8 ∧ |z.im| ≤ 8) ∧ ∀ z ∈ c.scoef2.vec, |z.re| ≤ 8 ∧ |z.im| ≤ 8 := by
    subst hcd
    constructor <;> intro z hz <;> simp only [List.mem_cons, List.not_mem_nil, or_false] at hz <;> rcases hz with rfl | rfl | rfl | rfl <;> norm_num
  let inv : Arr2 (FC rnd) → Int → Int → Res (Arr2 (FC rnd)) := fun f dn nc => (invFourier (f.map FS.val) dn nc).bind fun g => .ok (g.map fun z => ⟨z.re, z.im⟩)
  have hinv : ∀ f : Arr2 (FC rnd), (f.rows : ℤ) = 2 * 5 - 2 → (f.cols : ℤ) = 8 → FftWithin inv 0 f (2 * 5 - 2) 8 := by
    intro f fr fc
    obtain ⟨D, eD, Dr, Dc, -⟩ := invFourier_spec (f.map FS.val) 8 8 (by rw [Arr2.rows_map]; omega) (by rw [Arr2.cols_map]; omega) (by norm_num) (by norm_num)
    have eD' : invFourier (f.map FS.val) (2 * 5 - 2) 8 = .ok D := eD
    refine ⟨D.map fun z => ⟨z.re, z.im⟩, D, ?_, eD', rfl, rfl, fun i j hi hj' => ?_⟩
    · show (invFourier (f.map FS.val) (2 * 5 - 2) 8).bind _ = _
      rw [eD']; rfl
    · rw [Arr2.at'_map _ D hi hj']
      have e : (FS.val (⟨(D.at' i j).re, (D.at' i j).im⟩ : FC rnd)) = D.at' i j := rfl
      rw [e, sub_self, norm_zero]
  have hC : (2 : ℝ) ^ (-900 : ℤ) ≤ 8 := (zpow_le_one_of_nonpos₀ (by norm_num) (by norm_num)).trans (by norm_num)
  have hC7 : (2 : ℝ) ^ (-700 : ℤ) ≤ 8 := (zpow_le_one_of_nonpos₀ (by norm_num) (by norm_num)).trans (by norm_num)
  have hC' : (8 : ℝ) ≤ 2 ^ (300 : ℤ) := by rw [show (8 : ℝ) = 2 ^ (3 : ℤ) by norm_num]; exact zpow_le_zpow_right₀ (by norm_num) (by norm_num)
  have hvw : ∀ n m, IsMode c.nmax c.mmax n m → n ≠ 0 → readMapV c n m = some (((readMapV c n m).getD (0, 0)).1, ((readMapV c n m).getD (0, 0)).2) := by
    intro n m a1 a2
    obtain ⟨x, y, h1, -, -⟩ := hx n m a1 a2
    rw [h1]; rfl
  have hvC : ∀ n m, IsMode c.nmax c.mmax n m → n ≠ 0 → |((readMapV c n m).getD (0, 0)).1.re| ≤ 8 ∧ |((readMapV c n m).getD (0, 0)).1.im| ≤ 8 := by
    intro n m a1 a2
    obtain ⟨x, y, h1, h2, -⟩ := hx n m a1 a2
    simp only [h1]; exact hall.1 x h2
  have hwC : ∀ n m, IsMode c.nmax c.mmax n m → n ≠ 0 → |((readMapV c n m).getD (0, 0)).2.re| ≤ 8 ∧ |((readMapV c n m).getD (0, 0)).2.im| ≤ 8 := by
    intro n m a1 a2
    obtain ⟨x, y, h1, -, h2⟩ := hx n m a1 a2
    simp only [h1]; exact hall.2 y h2
  have hrow : FS.rowMax 1 ≤ 1 := by
    unfold FS.rowMax
    apply Real.sqrt_le_iff.mpr
    refine ⟨by norm_num, ?_⟩
    rw [one_pow, div_le_one (by positivity)]
    push_cast
    linarith [Real.pi_gt_three]
  have hrow0 : 0 ≤ FS.rowMax 1 := Real.sqrt_nonneg _
  obtain ⟨ε, hε⟩ : ∃ ε : ℝ, ε = 0 + (2 * ((5 : ℤ) : ℝ) - 1) * (2 * ((1 : ℕ) : ℝ) + 1) * FV.fieldErr 1 1 8 := ⟨_, rfl⟩
  have hεb : ε ≤ 324000 * 2 ^ (-47 : ℤ) := by
    rw [hε]
    unfold FV.fieldErr
    push_cast
    norm_num
    linarith
  have hε0 : 0 ≤ ε := by
    rw [hε]
    unfold FV.fieldErr
    positivity
  have hε' : ε ≤ (((1 : ℕ) : ℝ) + 1) ^ 2 * 8 / 5 := hεb.trans (by norm_num)
  obtain ⟨⟨T, P⟩, D, e1, -, g1, g2, g3, g4, -, -, -, -, -, hgS⟩ := FV.vispht_samples h .py c hc 1 1 hn hm (hj.ok _ (by norm_num)) (by norm_num) _ _ hvw 8 hC hC' hvC hwC 5 8
    (by rw [hn]; norm_num) (by rw [hm]; norm_num) (by norm_num) inv 0 ε hε hε' (fun f fr fc _ => hinv f fr fc)
  simp only at g1 g2 g3 g4 hgS
  have hl := libMWithin_rnd h.toIsRounding
  have hfft : ∀ T P, Fl.vispht rnd (FA.goodLib rnd).jp (Fl.visphtPost rnd inv) .py c (some 5) (some 8) = .ok ⟨T, P⟩ →
      Fft2Within (FA.goodLib rnd).fft 0 T ∧ Fft2Within (FA.goodLib rnd).fft 0 P := by
    intro T' P' hTP
    rw [e1] at hTP
    cases hTP
    exact ⟨FA.goodLib_fft T (by omega) (by omega), FA.goodLib_fft P (by omega) (by omega)⟩
  obtain ⟨p, ch, f1, f2, -, -, -, f3⟩ := c101_round_trip h (FA.goodLib rnd) hl .py (fun _ => ⟨fun _ _ => 7, fun _ => 8, fun _ => 9⟩) c hc 1 1 hn hm (hj.ok _ (by norm_num)) (by norm_num) _ _ hvw 8 hC7 hC' hvC hwC 5 8
    (by rw [hn]; norm_num) (by rw [hm]; norm_num) (by norm_num) (by norm_num) inv 0 0 ε hε hε' (by norm_num) (fun f fr fc _ => hinv f fr fc) hfft
  rw [hn, hm] at f2 f3
  refine ⟨rnd, FA.goodLib rnd, _, c, fun n m => ((readMapV c n m).getD (0, 0)).1, fun n m => ((readMapV c n m).getD (0, 0)).2, inv, p, ch, h, hl, hc, by subst hcd; rfl, by subst hcd; rfl, f1, f2, fun n m hmo n0 => ?_⟩
  obtain ⟨z, z1, z2, z3⟩ := f3 n m hmo n0
  have key : kvsphtErr (2 * 5 - 2 : ℤ).toNat 1 ((((1 : ℕ) : ℝ) + 1) ^ 2 * 8) 0 n +
          1 / Real.sqrt ((n : ℝ) * ((n : ℝ) + 1)) * ((2 * n + 1) * Real.sqrt ((2 * n + 1) / (4 * Real.pi)) * (20 * ((((1 : ℕ) : ℝ) + ((5 : ℤ) : ℝ)) * ε))) ≤ 2 ^ (-17 : ℤ) := by
    obtain rfl : n = 1 := by have := hmo.1; have := hmo.2.1; push_cast at *; omega
    unfold kvsphtErr
    have hs : Real.sqrt ((2 * ((1 : ℤ) : ℝ) + 1) / (4 * Real.pi)) ≤ 1 := by
      have := hrow
      unfold FS.rowMax at this
      push_cast at this ⊢
      exact this
    have hs0 : 0 ≤ Real.sqrt ((2 * ((1 : ℤ) : ℝ) + 1) / (4 * Real.pi)) := Real.sqrt_nonneg _
    have hw : 1 / Real.sqrt (((1 : ℤ) : ℝ) * (((1 : ℤ) : ℝ) + 1)) ≤ 1 := by
      rw [div_le_one (by positivity), Real.one_le_sqrt]
      norm_num
    have hw0 : 0 ≤ 1 / Real.sqrt (((1 : ℤ) : ℝ) * (((1 : ℤ) : ℝ) + 1)) := by positivity
    generalize 1 / Real.sqrt (((1 : ℤ) : ℝ) * (((1 : ℤ) : ℝ) + 1)) = W at hw hw0 ⊢
    generalize Real.sqrt ((2 * ((1 : ℤ) : ℝ) + 1) / (4 * Real.pi)) = Q at hs hs0 ⊢
    have h9 : Real.sqrt ((((2 * 5 - 2 : ℤ).toNat : ℕ) : ℝ) + 1) = 3 := by
      rw [show ((2 * 5 - 2 : ℤ).toNat : ℕ) = 8 from rfl, show (((8 : ℕ) : ℝ) + 1) = 3 ^ 2 by norm_num, Real.sqrt_sq (by norm_num)]
    have hL : Nat.log 2 (4 * 8) = 5 := by
      rw [show 4 * 8 = 2 ^ 5 by norm_num, Nat.log_pow (by norm_num)]
    rw [h9, show ((2 * 5 - 2 : ℤ).toNat : ℕ) = 8 from rfl, hL]
    have WQ : W * Q ≤ 1 := by nlinarith
    have k1 : ∀ x : ℝ, 0 ≤ x → W * (Q * x) ≤ x := fun x hx => by rw [← mul_assoc]; exact mul_le_of_le_one_left hx WQ
    refine (add_le_add (k1 _ (by positivity)) (le_of_eq (show _ = W * (Q * ((2 * ((1 : ℤ) : ℝ) + 1) * (20 * ((((1 : ℕ) : ℝ) + ((5 : ℤ) : ℝ)) * ε)))) by ring))).trans ?_
    refine (add_le_add le_rfl (k1 _ (by positivity))).trans ?_
    clear hC hC' hC7
    norm_num at hεb ⊢
    linarith
  exact ⟨z, z1, z2.trans key, z3.trans key⟩

end Verif.Props
