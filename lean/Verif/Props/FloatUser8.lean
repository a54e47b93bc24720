import Verif.Props.FloatUser7
/-!
# C107: the hypotheses can be met
-/
namespace Verif.Props
open Verif Finset
variable {rnd : ℝ → ℝ}

namespace FU

theorem c8 : (2 : ℝ) ^ (-690 : ℤ) ≤ 8 ∧ (8 : ℝ) ≤ 2 ^ (300 : ℤ) :=
  ⟨(zpow_le_one_of_nonpos₀ (by norm_num) (by norm_num)).trans (by norm_num), by
    rw [show (8 : ℝ) = 2 ^ (3 : ℤ) by norm_num]; exact zpow_le_zpow_right₀ (by norm_num) (by norm_num)⟩

theorem r9 : Real.sqrt (((8 : ℕ) : ℝ) + 1) = 3 := by
  rw [show (((8 : ℕ) : ℝ) + 1) = 3 ^ 2 by norm_num, Real.sqrt_sq (by norm_num)]

theorem l9 : Nat.log 2 (4 * 8) = 5 := by
  rw [show 4 * 8 = 2 ^ 5 by norm_num, Nat.log_pow (by norm_num)]

theorem row_le {x : ℝ} (hx : x ≤ 2) : Real.sqrt ((2 * x + 1) / (4 * Real.pi)) ≤ 1 := by
  apply Real.sqrt_le_iff.mpr
  refine ⟨by norm_num, ?_⟩
  rw [div_le_iff₀ (by positivity)]
  have := Real.pi_gt_three
  linarith

end FU

/-- Not vacuous: seven complex coefficients, synthesised on a 5 by 8 grid and analysed, come back to within `2^-17` with the Python routines and with the
compiled extension, if the one-dimensional FFTs round the exact transform. -/
theorem c107_example : ∃ (rnd : ℝ → ℝ) (lm : Fl.Libm) (lm' : Fl.LibM) (np : Fl.Fft1 rnd) (sum : List (FC rnd) → FC rnd) (c : ScalarCoefs (FC rnd)) (w : ℤ → ℤ → FC rnd)
    (p : SPatt (FC rnd)) (ch ck : ScalarCoefs (FC rnd)), NoOverflow rnd ∧ LibmOK lm ∧ LibMWithin lm' ∧ FftOK np (2 ^ (-45 : ℤ)) 8 8 ∧ SumOK sum ∧ c.WellFormed ∧ w 2 (-1) = ⟨4, 1⟩ ∧
    (∀ n m : ℤ, IsMode 2 1 n m → readMap c n m = some (w n m)) ∧
    Fl.ispht rnd (Fl.pow1j rnd lm) (Fl.ifft2Scaled rnd np) .py c (some 5) (some 8) = .ok p ∧ Fl.spht rnd (Fl.npLib rnd lm np sum) .py p (some 2) (some 1) = .ok ch ∧
    Fl.kSpht rnd (Fl.npLib rnd lm np sum) lm' (fun _ => ⟨fun _ => 0, fun _ => 0, fun _ => 0⟩) p (some 2) (some 1) = .ok ck ∧
    ∀ n m : ℤ, IsMode 2 1 n m → ∃ z z', readMap ch n m = some z ∧ readMap ck n m = some z' ∧ ‖FS.val z - FS.val (w n m)‖ ≤ 2 ^ (-17 : ℤ) ∧ ‖FS.val z' - FS.val (w n m)‖ ≤ 2 ^ (-17 : ℤ) := by
  obtain ⟨rnd, h⟩ := noOverflow_exists
  have hr := h.toIsRounding
  have hl := FU.libmOK_rnd hr
  have hl' := libMWithin_rnd hr
  have ok := FU.fftOK_good hr
  obtain ⟨C7, C8⟩ := FU.c8
  obtain ⟨c, hcd⟩ : ∃ c : ScalarCoefs (FC rnd), c = ⟨[⟨0, 1⟩, ⟨1, 1⟩, ⟨2, 1⟩, ⟨3, 1⟩, ⟨4, 1⟩, ⟨5, 1⟩, ⟨6, 1⟩], 2, 1⟩ := ⟨_, rfl⟩
  have hw : c.WF := by subst hcd; exact ⟨by norm_num, by norm_num, rfl⟩
  have hn : c.nmax = ((2 : ℕ) : ℤ) := by subst hcd; rfl
  have hm : c.mmax = ((1 : ℕ) : ℤ) := by subst hcd; rfl
  have hrd : ∀ n m, IsMode c.nmax c.mmax n m → readMap c n m = some ((readMap c n m).getD 0) := by
    intro n m hmo
    rw [readMap_eq hw, ScalarCoefs.absMap_mode hw hmo]; rfl
  have hbd : ∀ n m, IsMode c.nmax c.mmax n m → |((readMap c n m).getD 0).re| ≤ 8 ∧ |((readMap c n m).getD 0).im| ≤ 8 := by
    intro n m hmo
    rw [readMap_eq hw, ScalarCoefs.absMap_mode hw hmo, Option.getD_some]
    have hmem := List.getElem_mem (h := hw.slot_lt hmo)
    have hall : ∀ z ∈ c.vec, |z.re| ≤ 8 ∧ |z.im| ≤ 8 := by
      subst hcd
      intro z hz
      simp only [List.mem_cons, List.not_mem_nil, or_false] at hz
      rcases hz with rfl | rfl | rfl | rfl | rfl | rfl | rfl <;> norm_num
    exact hall _ hmem
  have hcw := ScalarCoefs.wf_iff.mp hw
  have hj := (pow1j_near h _ hl).mono (show 1 ≤ 1000 by norm_num)
  obtain ⟨p, ch, f1, f2, -, -, -, f3⟩ := c107_round_trip h _ hl (FP.goodFft rnd) (FA.goodLib rnd).sum FA.goodLib_sum .py c hcw 2 1 hn hm (by norm_num) _ hrd 8 C7 C8 hbd 5 8
    (by rw [hn]; norm_num) (by rw [hm]; norm_num) (by norm_num) (by norm_num) (by norm_num) (2 ^ (-45 : ℤ)) le_rfl (zpow_le_zpow_right₀ (by norm_num) (by norm_num))
    (by show 213 * (Nat.log 2 (4 * 8) : ℝ) * Real.sqrt (((8 : ℕ) : ℝ) + 1) * 2 ^ (-45 : ℤ) ≤ 1
        rw [FU.r9, FU.l9]; norm_num) ok
  obtain ⟨p', ck, g1, g2, -, -, -, g3⟩ := c107_kround_trip h hl' (fun _ => ⟨fun _ => 0, fun _ => 0, fun _ => 0⟩) (FP.goodFft rnd)
    (Fl.npLib rnd ⟨rnd (Real.pi / 2), fun x => rnd (Real.cos x), fun x => rnd (Real.sin x)⟩ (FP.goodFft rnd) (FA.goodLib rnd).sum) rfl .py c hcw 2 1 hn hm (fun _ => hj) (by norm_num) _ hrd 8 C7 C8 hbd 5 8
    (by rw [hn]; norm_num) (by rw [hm]; norm_num) (by norm_num) (by norm_num) (by norm_num) (2 ^ (-45 : ℤ)) le_rfl (zpow_le_zpow_right₀ (by norm_num) (by norm_num))
    (by show 12 * Real.sqrt (((8 : ℕ) : ℝ) + 1) * 2 ^ (-45 : ℤ) ≤ 1
        rw [FU.r9]; norm_num) ok.rows ok.cols
  have g1' : Fl.ispht rnd (Fl.pow1j rnd ⟨rnd (Real.pi / 2), fun x => rnd (Real.cos x), fun x => rnd (Real.sin x)⟩) (Fl.ifft2Scaled rnd (FP.goodFft rnd)) .py c (some 5) (some 8) = .ok p' := g1
  rw [f1] at g1'
  cases g1'
  rw [hn, hm] at f2 f3 g2 g3 hrd
  refine ⟨rnd, _, _, FP.goodFft rnd, (FA.goodLib rnd).sum, c, fun n m => (readMap c n m).getD 0, p, ch, ck, h, hl, hl', ok, FA.goodLib_sum, hcw, by subst hcd; rfl, hrd, f1, f2, g2, fun n m hmo => ?_⟩
  obtain ⟨z, k1, k2⟩ := f3 n m hmo
  obtain ⟨z', k3, k4⟩ := g3 n m hmo
  obtain ⟨h0, h1, -, -⟩ := hmo
  have n0 : (0 : ℝ) ≤ n := by exact_mod_cast h0
  have n1 : (n : ℝ) ≤ 2 := by exact_mod_cast h1
  have s1 := FU.row_le n1
  have s2 := FU.row_le (x := ((2 : ℕ) : ℝ)) (by norm_num)
  have hp : ((n : ℝ) + 4) ^ 3 ≤ 6 ^ 3 := pow_le_pow_left₀ (by linarith) (by linarith) 3
  have hx : ((n : ℝ) + 1) * ((n : ℝ) + 4) ^ 3 ≤ 3 * 6 ^ 3 := mul_le_mul (by linarith) hp (by positivity) (by norm_num)
  have e45 : (2 : ℝ) ^ (-45 : ℤ) = 1 / 35184372088832 := by norm_num
  have e43 : (2 : ℝ) ^ (-43 : ℤ) = 1 / 8796093022208 := by norm_num
  have e34 : (2 : ℝ) ^ (-34 : ℤ) = 1 / 17179869184 := by norm_num
  have e17 : (2 : ℝ) ^ (-17 : ℤ) = 1 / 131072 := by norm_num
  have s0 : 0 ≤ uisphtErr 2 1 (2 ^ (-45 : ℤ)) 8 := by unfold uisphtErr; positivity
  have si : uisphtErr 2 1 (2 ^ (-45 : ℤ)) 8 ≤ 1 / 1000000000 := by
    unfold uisphtErr
    generalize Real.sqrt ((2 * ((2 : ℕ) : ℝ) + 1) / (4 * Real.pi)) = R at s2
    norm_num
    linarith
  clear C7 C8
  refine ⟨z, z', k1, k3, k2.trans ?_, k4.trans ?_⟩
  · show usrtErr 8 2 1 (2 ^ (-45 : ℤ)) 8 n ≤ _
    unfold usrtErr
    rw [FU.r9, FU.l9]
    generalize uisphtErr 2 1 (2 ^ (-45 : ℤ)) 8 = E at *
    refine (mul_le_mul s1 le_rfl (by positivity) (by norm_num)).trans ?_
    rw [e45, e43, e17]
    push_cast
    nlinarith
  · show uksrtErr 8 2 1 (2 ^ (-45 : ℤ)) 8 n ≤ _
    unfold uksrtErr
    rw [FU.r9, FU.l9]
    generalize uisphtErr 2 1 (2 ^ (-45 : ℤ)) 8 = E at *
    refine (mul_le_mul s1 le_rfl (by positivity) (by norm_num)).trans ?_
    rw [e45, e43, e17, e34]
    push_cast
    nlinarith

/-- Not vacuous: a vector set with six nonzero complex coefficients, synthesised on a 5 by 8 grid and analysed, comes back to within `2^-12` with the Python
routines and with the compiled extension. -/
theorem c107_vexample : ∃ (rnd : ℝ → ℝ) (lm : Fl.Libm) (lm' : Fl.LibM) (np : Fl.Fft1 rnd) (sum : List (FC rnd) → FC rnd) (c : VectorCoefs (FC rnd)) (v w : ℤ → ℤ → FC rnd)
    (p : TPatt (FC rnd)) (ch ck : VectorCoefs (FC rnd)), NoOverflow rnd ∧ LibmOK lm ∧ LibMWithin lm' ∧ FftOK np (2 ^ (-45 : ℤ)) 8 8 ∧ SumOK sum ∧ c.WellFormed ∧ v 1 (-1) = ⟨2, 1⟩ ∧ w 1 1 = ⟨7, 1⟩ ∧
    (∀ n m : ℤ, IsMode 1 1 n m → n ≠ 0 → readMapV c n m = some (v n m, w n m)) ∧
    Fl.vispht rnd (Fl.pow1j rnd lm) (Fl.visphtPost rnd (Fl.ifft2Scaled rnd np)) .py c (some 5) (some 8) = .ok p ∧ Fl.vspht rnd (Fl.npLib rnd lm np sum) .py p (some 1) (some 1) = .ok ch ∧
    Fl.kVspht rnd (Fl.npLib rnd lm np sum) lm' (fun _ => ⟨fun _ => 0, fun _ => 0, fun _ => 0⟩) p (some 1) (some 1) = .ok ck ∧
    ∀ n m : ℤ, IsMode 1 1 n m → n ≠ 0 → ∃ z z', readMapV ch n m = some z ∧ readMapV ck n m = some z' ∧ ‖FS.val z.1 - FS.val (v n m)‖ ≤ 2 ^ (-12 : ℤ) ∧ ‖FS.val z.2 - FS.val (w n m)‖ ≤ 2 ^ (-12 : ℤ) ∧
      ‖FS.val z'.1 - FS.val (v n m)‖ ≤ 2 ^ (-12 : ℤ) ∧ ‖FS.val z'.2 - FS.val (w n m)‖ ≤ 2 ^ (-12 : ℤ) := by
  obtain ⟨rnd, h⟩ := noOverflow_exists
  have hr := h.toIsRounding
  have hl := FU.libmOK_rnd hr
  have hl' := libMWithin_rnd hr
  have ok := FU.fftOK_good hr
  obtain ⟨C7, C8⟩ := FU.c8
  obtain ⟨c, hcd⟩ : ∃ c : VectorCoefs (FC rnd), c = ⟨⟨[⟨0, 1⟩, ⟨1, 1⟩, ⟨2, 1⟩, ⟨3, 1⟩], 1, 1⟩, ⟨[⟨4, 1⟩, ⟨5, 1⟩, ⟨6, 1⟩, ⟨7, 1⟩], 1, 1⟩, 1, 1⟩ := ⟨_, rfl⟩
  have w1 : c.scoef1.WF := by subst hcd; exact ⟨by norm_num, by norm_num, rfl⟩
  have w2 : c.scoef2.WF := by subst hcd; exact ⟨by norm_num, by norm_num, rfl⟩
  have hn : c.nmax = ((1 : ℕ) : ℤ) := by subst hcd; rfl
  have hm : c.mmax = ((1 : ℕ) : ℤ) := by subst hcd; rfl
  have hc : c.WellFormed := ⟨ScalarCoefs.wf_iff.mp w1, ScalarCoefs.wf_iff.mp w2, by subst hcd; rfl, by subst hcd; rfl, by subst hcd; rfl, by subst hcd; rfl⟩
  have hx : ∀ n m, IsMode c.nmax c.mmax n m → n ≠ 0 → ∃ x y, readMapV c n m = some (x, y) ∧ x ∈ c.scoef1.vec ∧ y ∈ c.scoef2.vec := by
    intro n m hmo n0
    have m1 : IsMode c.scoef1.nmax c.scoef1.mmax n m := by rw [hc.n1, hc.m1]; exact hmo
    have m2 : IsMode c.scoef2.nmax c.scoef2.mmax n m := by rw [hc.n2, hc.m2]; exact hmo
    rw [readMapV_eq hc, if_neg n0, ScalarCoefs.absMap_mode w1 m1, ScalarCoefs.absMap_mode w2 m2]
    exact ⟨_, _, rfl, List.getElem_mem _, List.getElem_mem _⟩
  have hall : (∀ z ∈ c.scoef1.vec, |z.re| ≤ 8 ∧ |z.im| ≤ 8) ∧ ∀ z ∈ c.scoef2.vec, |z.re| ≤ 8 ∧ |z.im| ≤ 8 := by
    subst hcd
    constructor <;> intro z hz <;> simp only [List.mem_cons, List.not_mem_nil, or_false] at hz <;> rcases hz with rfl | rfl | rfl | rfl <;> norm_num
  have hvw : ∀ n m, IsMode c.nmax c.mmax n m → n ≠ 0 → readMapV c n m = some (((readMapV c n m).getD (0, 0)).1, ((readMapV c n m).getD (0, 0)).2) := by
    intro n m a1 a2
    obtain ⟨x, y, h1, -, -⟩ := hx n m a1 a2
    rw [h1]; rfl
  have hvC : ∀ n m, IsMode c.nmax c.mmax n m → n ≠ 0 → |((readMapV c n m).getD (0, 0)).1.re| ≤ 8 ∧ |((readMapV c n m).getD (0, 0)).1.im| ≤ 8 := by
    intro n m a1 a2
    obtain ⟨x, y, h1, h2, -⟩ := hx n m a1 a2
    simp only [h1]; exact hall.1 x h2
  have hwC : ∀ n m, IsMode c.nmax c.mmax n m → n ≠ 0 → |((readMapV c n m).getD (0, 0)).2.re| ≤ 8 ∧ |((readMapV c n m).getD (0, 0)).2.im| ≤ 8 := by
    intro n m a1 a2
    obtain ⟨x, y, h1, -, h2⟩ := hx n m a1 a2
    simp only [h1]; exact hall.2 y h2
  have hj := (pow1j_near h _ hl).mono (show 1 ≤ 1000 by norm_num)
  have s2 := FU.row_le (x := ((1 : ℕ) : ℝ)) (by norm_num)
  have s20 : 0 ≤ Real.sqrt ((2 * ((1 : ℕ) : ℝ) + 1) / (4 * Real.pi)) := Real.sqrt_nonneg _
  have si : uvisphtErr 8 8 1 1 (2 ^ (-45 : ℤ)) 8 ≤ 1 / 80000000 := by
    unfold uvisphtErr
    generalize Real.sqrt ((2 * ((1 : ℕ) : ℝ) + 1) / (4 * Real.pi)) = R at s2 s20
    norm_num
    linarith
  have s0 : 0 ≤ uvisphtErr 8 8 1 1 (2 ^ (-45 : ℤ)) 8 := by unfold uvisphtErr; positivity
  have hε : uvisphtErr (2 * (5 : ℤ) - 2).toNat (8 : ℤ).toNat 1 1 (2 ^ (-45 : ℤ)) 8 ≤ (((1 : ℕ) : ℝ) + 1) ^ 2 * 8 / 5 := si.trans (by norm_num)
  obtain ⟨p, ch, f1, f2, -, -, -, f3⟩ := c107_vround_trip h _ hl (FP.goodFft rnd) (FA.goodLib rnd).sum FA.goodLib_sum .py c hc 1 1 hn hm (by norm_num) _ _ hvw 8 C7 C8 hvC hwC 5 8
    (by rw [hn]; norm_num) (by rw [hm]; norm_num) (by norm_num) (by norm_num) (by norm_num) (2 ^ (-45 : ℤ)) le_rfl hε
    (by show 400 * (Nat.log 2 (4 * 8) : ℝ) * Real.sqrt (((8 : ℕ) : ℝ) + 1) * 2 ^ (-45 : ℤ) ≤ 1
        rw [FU.r9, FU.l9]; norm_num) ok
  obtain ⟨p', ck, g1, g2, -, -, -, g3⟩ := c107_kvround_trip h hl' (fun _ => ⟨fun _ => 0, fun _ => 0, fun _ => 0⟩) (FP.goodFft rnd)
    (Fl.npLib rnd ⟨rnd (Real.pi / 2), fun x => rnd (Real.cos x), fun x => rnd (Real.sin x)⟩ (FP.goodFft rnd) (FA.goodLib rnd).sum) rfl .py c hc 1 1 hn hm (fun _ => hj) (by norm_num) _ _ hvw 8 C7 C8 hvC hwC 5 8
    (by rw [hn]; norm_num) (by rw [hm]; norm_num) (by norm_num) (by norm_num) (by norm_num) (2 ^ (-45 : ℤ)) le_rfl hε
    (by show 1200 * Real.sqrt (((8 : ℕ) : ℝ) + 1) * 2 ^ (-45 : ℤ) ≤ 1
        rw [FU.r9]; norm_num) ok.rows ok.cols
  have g1' : Fl.vispht rnd (Fl.pow1j rnd ⟨rnd (Real.pi / 2), fun x => rnd (Real.cos x), fun x => rnd (Real.sin x)⟩) (Fl.visphtPost rnd (Fl.ifft2Scaled rnd (FP.goodFft rnd))) .py c (some 5) (some 8) = .ok p' := g1
  rw [f1] at g1'
  cases g1'
  rw [hn, hm] at f2 f3 g2 g3 hvw
  refine ⟨rnd, _, _, FP.goodFft rnd, (FA.goodLib rnd).sum, c, fun n m => ((readMapV c n m).getD (0, 0)).1, fun n m => ((readMapV c n m).getD (0, 0)).2, p, ch, ck, h, hl, hl', ok, FA.goodLib_sum, hc, by subst hcd; rfl, by subst hcd; rfl, hvw, f1, f2, g2, fun n m hmo hn0 => ?_⟩
  obtain ⟨z, k1, k2⟩ := f3 n m hmo hn0
  obtain ⟨z', k3, k4⟩ := g3 n m hmo hn0
  have e45 : (2 : ℝ) ^ (-45 : ℤ) = 1 / 35184372088832 := by norm_num
  have e42 : (2 : ℝ) ^ (-42 : ℤ) = 1 / 4398046511104 := by norm_num
  have e34 : (2 : ℝ) ^ (-34 : ℤ) = 1 / 17179869184 := by norm_num
  have e12 : (2 : ℝ) ^ (-12 : ℤ) = 1 / 4096 := by norm_num
  clear C7 C8
  obtain rfl : n = 1 := by have := hmo.1; have := hmo.2.1; push_cast at *; omega
  have s1 := FU.row_le (x := ((1 : ℤ) : ℝ)) (by norm_num)
  have v1 : 1 / Real.sqrt (((1 : ℤ) : ℝ) * (((1 : ℤ) : ℝ) + 1)) ≤ 1 := by
    rw [div_le_one (by positivity), Real.one_le_sqrt]
    norm_num
  have b1 : uvrtErr 8 8 1 1 (2 ^ (-45 : ℤ)) 8 1 ≤ 2 ^ (-12 : ℤ) := by
    unfold uvrtErr
    rw [FU.r9, FU.l9]
    generalize uvisphtErr 8 8 1 1 (2 ^ (-45 : ℤ)) 8 = E at *
    refine (mul_le_mul v1 (mul_le_mul s1 le_rfl (by positivity) (by norm_num)) (by positivity) (by norm_num)).trans ?_
    rw [e45, e42, e12]
    push_cast
    norm_num
    linarith
  have b2 : ukvrtErr 8 8 1 1 (2 ^ (-45 : ℤ)) 8 1 ≤ 2 ^ (-12 : ℤ) := by
    unfold ukvrtErr
    rw [FU.r9, FU.l9]
    generalize uvisphtErr 8 8 1 1 (2 ^ (-45 : ℤ)) 8 = E at *
    refine (mul_le_mul v1 (mul_le_mul s1 le_rfl (by positivity) (by norm_num)) (by positivity) (by norm_num)).trans ?_
    rw [e45, e42, e34, e12]
    push_cast
    norm_num
    linarith
  exact ⟨z, z', k1, k3, k2.1.trans b1, k2.2.trans b1, k4.1.trans b2, k4.2.trans b2⟩

end Verif.Props
