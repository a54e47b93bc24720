import Verif.Props.FloatUser3
import Verif.Props.FloatPy4
/-!
# C106: the hypotheses can be met
-/
namespace Verif.Props
open Verif Finset
variable {rnd : ℝ → ℝ}

namespace FU

theorem libmOK_rnd (hr : IsRounding rnd) : LibmOK ⟨rnd (Real.pi / 2), fun x => rnd (Real.cos x), fun x => rnd (Real.sin x)⟩ := by
  have big : (2000 : ℝ) ≤ 2 ^ (1022 : ℤ) := le_trans (by norm_num : (2000 : ℝ) ≤ 2 ^ (11 : ℤ)) (zpow_le_zpow_right₀ (by norm_num) (by norm_num))
  have u0 := uu_pos
  have e52 : (2 : ℝ) ^ (-52 : ℤ) = 2 * uu := by unfold uu; norm_num
  have tu : tiny ≤ uu / 100 := by
    unfold tiny uu
    rw [show (-1074 : ℤ) = -53 + -1021 by norm_num, zpow_add₀ (by norm_num), div_eq_mul_inv]
    refine mul_le_mul_of_nonneg_left ?_ (by positivity)
    exact (zpow_le_zpow_right₀ (by norm_num) (show (-1021 : ℤ) ≤ -10 by norm_num)).trans (by norm_num)
  have key : ∀ x : ℝ, |x| ≤ 1.6 → |rnd x - x| ≤ 2 ^ (-52 : ℤ) := by
    intro x hx
    have h1 := rnd_err hr (x := x) ((hx.trans (by norm_num : (1.6 : ℝ) ≤ 2000)).trans big)
    have h2 := mul_le_mul_of_nonneg_left hx u0.le
    rw [e52]
    clear big
    linarith
  have pi1 : Real.pi / 2 ≤ 1.6 := by have := Real.pi_lt_d2; linarith
  have pi0 := Real.pi_pos
  exact ⟨key _ (by rw [abs_of_pos (by linarith)]; exact pi1), fun x _ => key _ ((Real.abs_cos_le_one x).trans (by norm_num)),
    fun x _ => key _ ((Real.abs_sin_le_one x).trans (by norm_num))⟩

/-- Five rows of eight different samples `(i + a) + (j + b)i`. -/
noncomputable def arr (rnd : ℝ → ℝ) (a b : ℕ) : Arr2 (FC rnd) := Arr2.ofFn 5 8 fun i j => ⟨((i + a : ℕ) : ℝ), ((j + b : ℕ) : ℝ)⟩

theorem arr_ok (a b : ℕ) (ha : a ≤ 2) (hb : b ≤ 2) : UserArr (arr rnd a b) 16 where
  rows := by show 2 ≤ 5; norm_num
  double := fun i j hi hj => by
    have hi : i < 5 := hi
    have hj : j < 8 := hj
    unfold arr
    rw [Arr2.at'_ofFn hi hj]
    refine ⟨?_, ?_⟩
    · have := isDouble_int (z := ((i + a : ℕ) : ℤ)) (by rw [abs_of_nonneg (by omega)]; norm_num; omega)
      exact_mod_cast this
    · have := isDouble_int (z := ((j + b : ℕ) : ℤ)) (by rw [abs_of_nonneg (by omega)]; norm_num; omega)
      exact_mod_cast this
  pole := fun i j hi hj => by
    have hi : i < 5 := by rcases hi with h | h <;> [omega; (rw [h]; show 5 - 1 < 5; norm_num)]
    have hj : j < 8 := hj
    have key : ∀ k : ℕ, NotTiny (k : ℝ) := fun k => by
      rcases Nat.eq_zero_or_pos k with h | h
      · left; rw [h]; norm_num
      · right
        rw [abs_of_nonneg (by positivity)]
        exact (zpow_le_one_of_nonpos₀ (by norm_num) (by norm_num)).trans (by exact_mod_cast h)
    unfold arr
    rw [Arr2.at'_ofFn hi hj]
    exact ⟨key _, key _⟩
  bound := fun i j hi hj => by
    have hi : i < 5 := hi
    have hj : j < 8 := hj
    unfold arr
    rw [Arr2.at'_ofFn hi hj]
    refine (Complex.norm_le_abs_re_add_abs_im _).trans ?_
    show |((i + a : ℕ) : ℝ)| + |((j + b : ℕ) : ℝ)| ≤ 16
    rw [abs_of_nonneg (by positivity), abs_of_nonneg (by positivity)]
    exact_mod_cast (by omega : i + a + (j + b) ≤ 16)

theorem r8 : Real.sqrt (((2 * 5 - 2 : ℕ) : ℝ) + 1) = 3 := by
  rw [show (((2 * 5 - 2 : ℕ) : ℝ) + 1) = 3 ^ 2 by norm_num, Real.sqrt_sq (by norm_num)]

theorem l8 : Nat.log 2 (4 * (2 * 5 - 2)) = 5 := by
  rw [show 4 * (2 * 5 - 2) = 2 ^ 5 by norm_num, Nat.log_pow (by norm_num)]

theorem fftOK_good (hr : IsRounding rnd) : FftOK (FP.goodFft rnd) (2 ^ (-45 : ℤ)) 8 8 :=
  ⟨FP.goodFft_ffts hr FP.k45 (by norm_num), FP.goodFft_within hr FP.k45 (by norm_num) (by norm_num), FP.goodFft_within hr FP.k45 (by norm_num) (by norm_num)⟩

theorem c16 : (2 : ℝ) ^ (-700 : ℤ) ≤ 16 ∧ (16 : ℝ) ≤ 2 ^ (399 : ℤ) :=
  ⟨(zpow_le_one_of_nonpos₀ (by norm_num) (by norm_num)).trans (by norm_num), by
    rw [show (16 : ℝ) = 2 ^ (4 : ℤ) by norm_num]; exact zpow_le_zpow_right₀ (by norm_num) (by norm_num)⟩

theorem sq1 {n : ℤ} (h0 : 0 ≤ n) (h1 : n ≤ 3) : Real.sqrt ((2 * n + 1) / (4 * Real.pi)) ≤ 1 := by
  have n0 : (0 : ℝ) ≤ n := by exact_mod_cast h0
  have n1 : (n : ℝ) ≤ 3 := by exact_mod_cast h1
  apply Real.sqrt_le_iff.mpr
  refine ⟨by norm_num, ?_⟩
  rw [one_pow, div_le_one (by positivity)]
  linarith [Real.pi_gt_three]

theorem poly {n : ℤ} (h0 : 0 ≤ n) (h1 : n ≤ 3) : ((n : ℝ) + 1) * ((n : ℝ) + 4) ^ 3 ≤ 4 * 7 ^ 3 := by
  have n0 : (0 : ℝ) ≤ n := by exact_mod_cast h0
  have n1 : (n : ℝ) ≤ 3 := by exact_mod_cast h1
  have hp : ((n : ℝ) + 4) ^ 3 ≤ 7 ^ 3 := pow_le_pow_left₀ (by linarith) (by linarith) 3
  exact mul_le_mul (by linarith) hp (by positivity) (by norm_num)

end FU

/-- Not vacuous: a user's 5 by 8 array of different samples, `nmax = 3`, `mmax = 2`; with FFTs that round the exact transform every coefficient from
the Python routines and from the compiled extension is correct to `2^-19`. -/
theorem c106_example : ∃ (rnd : ℝ → ℝ) (lm : Fl.Libm) (lm' : Fl.LibM) (np : Fl.Fft1 rnd) (sum : List (FC rnd) → FC rnd) (A : Arr2 (FC rnd)) (p : SPatt ℂ) (ph : SPatt (FC rnd)) (c : ScalarCoefs ℂ) (ch ck : ScalarCoefs (FC rnd)),
    NoOverflow rnd ∧ LibmOK lm ∧ LibMWithin lm' ∧ FftOK np (2 ^ (-45 : ℤ)) 8 8 ∧ SumOK sum ∧ A.rows = 5 ∧ A.cols = 8 ∧ A.at' 3 5 = ⟨4, 6⟩ ∧ A.at' 0 5 = ⟨1, 6⟩ ∧
    SPatt.init (.arr (A.map FS.val)) false = .ok p ∧ SPatt.init (.arr A) false = .ok ph ∧ spht .py p (some 3) (some 2) = .ok c ∧
    Fl.spht rnd (Fl.npLib rnd lm np sum) .py ph (some 3) (some 2) = .ok ch ∧
    Fl.kSpht rnd (Fl.npLib rnd lm np sum) lm' (fun _ => ⟨fun _ => 0, fun _ => 0, fun _ => 0⟩) ph (some 3) (some 2) = .ok ck ∧
    ∀ n m : ℤ, IsMode 3 2 n m → ∃ w z z', readMap c n m = some w ∧ readMap ch n m = some z ∧ readMap ck n m = some z' ∧ ‖FS.val z - w‖ ≤ 2 ^ (-20 : ℤ) ∧ ‖FS.val z' - w‖ ≤ 2 ^ (-19 : ℤ) := by
  obtain ⟨rnd, h⟩ := noOverflow_exists
  have hr := h.toIsRounding
  obtain ⟨C7, C8⟩ := FU.c16
  have hl := FU.libmOK_rnd hr
  have hl' := libMWithin_rnd hr
  have hA : UserArr (FU.arr rnd 1 1) 16 := FU.arr_ok 1 1 (by norm_num) (by norm_num)
  have ok := FU.fftOK_good hr
  obtain ⟨p, ph, c, ch, e1, e2, e3, e4, -, -, -, e5⟩ := c106_spht h _ hl (FP.goodFft rnd) (FA.goodLib rnd).sum FA.goodLib_sum (FU.arr rnd 1 1) 16 hA C7 C8
    (by show 5 ≤ 2 ^ 27; norm_num) (by show (2 * 5 - 2) * 8 < 2 ^ 53; norm_num) (by show 8 % 2 = 0; norm_num) 3 2 (by norm_num) (by norm_num) (by show 3 < 5 - 1; norm_num) (by show 2 * 2 < 8; norm_num) (2 ^ (-45 : ℤ)) le_rfl
    (by show 213 * (Nat.log 2 (4 * (2 * 5 - 2)) : ℝ) * Real.sqrt (((2 * 5 - 2 : ℕ) : ℝ) + 1) * 2 ^ (-45 : ℤ) ≤ 1
        rw [FU.r8, FU.l8]; norm_num) ok
  obtain ⟨p', ph', c', ck, f1, f2, f3, f4, -, -, -, f5⟩ := c106_kspht h hl' (fun _ => ⟨fun _ => 0, fun _ => 0, fun _ => 0⟩) (FP.goodFft rnd)
    (Fl.npLib rnd ⟨rnd (Real.pi / 2), fun x => rnd (Real.cos x), fun x => rnd (Real.sin x)⟩ (FP.goodFft rnd) (FA.goodLib rnd).sum) rfl (FU.arr rnd 1 1) 16 hA C7 C8
    (by show 5 ≤ 2 ^ 27; norm_num) (by show (2 * 5 - 2) * 8 < 2 ^ 53; norm_num) (by show 8 % 2 = 0; norm_num) 3 2 (by norm_num) (by norm_num) (by show 3 < 5 - 1; norm_num) (by show 2 * 2 < 8; norm_num) (2 ^ (-45 : ℤ)) le_rfl
    (by show 1200 * Real.sqrt (((2 * 5 - 2 : ℕ) : ℝ) + 1) * 2 ^ (-45 : ℤ) ≤ 1
        rw [FU.r8]; norm_num) ok.rows ok.cols
  rw [e1] at f1; cases f1
  rw [e2] at f2; cases f2
  rw [e3] at f3; cases f3
  refine ⟨rnd, _, _, FP.goodFft rnd, (FA.goodLib rnd).sum, FU.arr rnd 1 1, p, ph, c, ch, ck, h, hl, hl', ok, FA.goodLib_sum, rfl, rfl, ?_, ?_, e1, e2, e3, e4, f4, fun n m hm => ?_⟩
  · unfold FU.arr
    rw [Arr2.at'_ofFn (by norm_num) (by norm_num)]
    norm_num
  · unfold FU.arr
    rw [Arr2.at'_ofFn (by norm_num) (by norm_num)]
    norm_num
  obtain ⟨w, z, k1, k2, k3⟩ := e5 n m hm
  obtain ⟨w', z', l1, l2, l3⟩ := f5 n m hm
  rw [k1] at l1; cases l1
  obtain ⟨h0, h1, -, -⟩ := hm
  have s1 := FU.sq1 h0 h1
  have po := FU.poly h0 h1
  have n0 : (0 : ℝ) ≤ n := by exact_mod_cast h0
  have n1 : (n : ℝ) ≤ 3 := by exact_mod_cast h1
  clear C7 C8
  have e45 : (2 : ℝ) ^ (-45 : ℤ) = 1 / 35184372088832 := by norm_num
  have e42 : (2 : ℝ) ^ (-42 : ℤ) = 1 / 4398046511104 := by norm_num
  have e33 : (2 : ℝ) ^ (-33 : ℤ) = 1 / 8589934592 := by norm_num
  have e20 : (2 : ℝ) ^ (-20 : ℤ) = 1 / 1048576 := by norm_num
  refine ⟨w, z, z', k1, k2, l2, k3.trans ?_, l3.trans ?_⟩
  · show usphtErr (2 * 5 - 2) _ 16 n ≤ _
    unfold usphtErr
    rw [FU.r8, FU.l8]
    refine (mul_le_mul s1 le_rfl (by positivity) (by norm_num)).trans ?_
    rw [e45, e42, e20]
    push_cast
    linarith
  · show uksphtErr (2 * 5 - 2) _ 16 n ≤ _
    unfold uksphtErr
    rw [FU.r8, FU.l8]
    refine (mul_le_mul s1 le_rfl (by positivity) (by norm_num)).trans ?_
    rw [e45, e42, e33, show (2 : ℝ) ^ (-19 : ℤ) = 1 / 524288 by norm_num]
    push_cast
    linarith

/-- Not vacuous: a user's two 5 by 8 arrays of different samples, `nmax = 3`, `mmax = 2`; with FFTs that round the exact transform every coefficient
of both sets, from the Python routines and from the compiled extension, is correct to `2^-15`. -/
theorem c106_vexample : ∃ (rnd : ℝ → ℝ) (lm : Fl.Libm) (lm' : Fl.LibM) (np : Fl.Fft1 rnd) (sum : List (FC rnd) → FC rnd) (T P : Arr2 (FC rnd)) (p : TPatt ℂ) (ph : TPatt (FC rnd)) (c : VectorCoefs ℂ) (ch ck : VectorCoefs (FC rnd)),
    NoOverflow rnd ∧ LibmOK lm ∧ LibMWithin lm' ∧ FftOK np (2 ^ (-45 : ℤ)) 8 8 ∧ SumOK sum ∧ T.at' 3 5 = ⟨4, 6⟩ ∧ P.at' 3 5 = ⟨5, 5⟩ ∧
    TPatt.init (.arr (T.map FS.val)) (.arr (P.map FS.val)) false = .ok p ∧ TPatt.init (.arr T) (.arr P) false = .ok ph ∧ vspht .py p (some 3) (some 2) = .ok c ∧
    Fl.vspht rnd (Fl.npLib rnd lm np sum) .py ph (some 3) (some 2) = .ok ch ∧
    Fl.kVspht rnd (Fl.npLib rnd lm np sum) lm' (fun _ => ⟨fun _ => 0, fun _ => 0, fun _ => 0⟩) ph (some 3) (some 2) = .ok ck ∧
    ∀ n m : ℤ, IsMode 3 2 n m → n ≠ 0 → ∃ w z z', readMapV c n m = some w ∧ readMapV ch n m = some z ∧ readMapV ck n m = some z' ∧
      ‖FS.val z.1 - w.1‖ ≤ 2 ^ (-15 : ℤ) ∧ ‖FS.val z.2 - w.2‖ ≤ 2 ^ (-15 : ℤ) ∧ ‖FS.val z'.1 - w.1‖ ≤ 2 ^ (-15 : ℤ) ∧ ‖FS.val z'.2 - w.2‖ ≤ 2 ^ (-15 : ℤ) := by
  obtain ⟨rnd, h⟩ := noOverflow_exists
  have hr := h.toIsRounding
  obtain ⟨C7, C8⟩ := FU.c16
  have hl := FU.libmOK_rnd hr
  have hl' := libMWithin_rnd hr
  have hT : UserArr (FU.arr rnd 1 1) 16 := FU.arr_ok 1 1 (by norm_num) (by norm_num)
  have hP : UserArr (FU.arr rnd 2 0) 16 := FU.arr_ok 2 0 (by norm_num) (by norm_num)
  have ok := FU.fftOK_good hr
  obtain ⟨p, ph, c, ch, e1, e2, e3, e4, -, -, -, e5⟩ := c106_vspht h _ hl (FP.goodFft rnd) (FA.goodLib rnd).sum FA.goodLib_sum (FU.arr rnd 1 1) (FU.arr rnd 2 0) rfl rfl 16 hT hP C7 C8
    (by show 5 ≤ 2 ^ 27; norm_num) (by show (2 * 5 - 2) * 8 < 2 ^ 53; norm_num) (by show 8 % 2 = 0; norm_num) 3 2 (by norm_num) (by norm_num) (by show 3 < 5 - 1; norm_num) (by show 2 * 2 < 8; norm_num) (2 ^ (-45 : ℤ)) le_rfl
    (by show 400 * (Nat.log 2 (4 * (2 * 5 - 2)) : ℝ) * Real.sqrt (((2 * 5 - 2 : ℕ) : ℝ) + 1) * 2 ^ (-45 : ℤ) ≤ 1
        rw [FU.r8, FU.l8]; norm_num) ok
  obtain ⟨p', ph', c', ck, f1, f2, f3, f4, -, -, -, f5⟩ := c106_kvspht h hl' (fun _ => ⟨fun _ => 0, fun _ => 0, fun _ => 0⟩) (FP.goodFft rnd)
    (Fl.npLib rnd ⟨rnd (Real.pi / 2), fun x => rnd (Real.cos x), fun x => rnd (Real.sin x)⟩ (FP.goodFft rnd) (FA.goodLib rnd).sum) rfl (FU.arr rnd 1 1) (FU.arr rnd 2 0) rfl rfl 16 hT hP C7 C8
    (by show 5 ≤ 2 ^ 27; norm_num) (by show (2 * 5 - 2) * 8 < 2 ^ 53; norm_num) (by show 8 % 2 = 0; norm_num) 3 2 (by norm_num) (by norm_num) (by show 3 < 5 - 1; norm_num) (by show 2 * 2 < 8; norm_num) (2 ^ (-45 : ℤ)) le_rfl
    (by show 1200 * Real.sqrt (((2 * 5 - 2 : ℕ) : ℝ) + 1) * 2 ^ (-45 : ℤ) ≤ 1
        rw [FU.r8]; norm_num) ok.rows ok.cols
  rw [e1] at f1; cases f1
  rw [e2] at f2; cases f2
  rw [e3] at f3; cases f3
  refine ⟨rnd, _, _, FP.goodFft rnd, (FA.goodLib rnd).sum, FU.arr rnd 1 1, FU.arr rnd 2 0, p, ph, c, ch, ck, h, hl, hl', ok, FA.goodLib_sum, ?_, ?_, e1, e2, e3, e4, f4, fun n m hm hn => ?_⟩
  · unfold FU.arr
    rw [Arr2.at'_ofFn (by norm_num) (by norm_num)]
    norm_num
  · unfold FU.arr
    rw [Arr2.at'_ofFn (by norm_num) (by norm_num)]
    norm_num
  obtain ⟨w, z, k1, k2, k3⟩ := e5 n m hm hn
  obtain ⟨w', z', l1, l2, l3⟩ := f5 n m hm hn
  rw [k1] at l1; cases l1
  obtain ⟨h0, h1, -, -⟩ := hm
  have s1 := FU.sq1 h0 h1
  have po := FU.poly h0 h1
  have n0 : (1 : ℝ) ≤ n := by exact_mod_cast (by omega : 1 ≤ n)
  have n1 : (n : ℝ) ≤ 3 := by exact_mod_cast h1
  clear C7 C8
  have v1 : 1 / Real.sqrt ((n : ℝ) * ((n : ℝ) + 1)) ≤ 1 := by
    rw [div_le_one (Real.sqrt_pos.mpr (by positivity)), Real.one_le_sqrt]
    nlinarith
  have e45 : (2 : ℝ) ^ (-45 : ℤ) = 1 / 35184372088832 := by norm_num
  have e41 : (2 : ℝ) ^ (-41 : ℤ) = 1 / 2199023255552 := by norm_num
  have e33 : (2 : ℝ) ^ (-33 : ℤ) = 1 / 8589934592 := by norm_num
  have e15 : (2 : ℝ) ^ (-15 : ℤ) = 1 / 32768 := by norm_num
  have b1 : uvsphtErr (2 * 5 - 2) 2 (2 ^ (-45 : ℤ)) 16 n ≤ 2 ^ (-15 : ℤ) := by
    unfold uvsphtErr
    rw [FU.r8, FU.l8]
    refine (mul_le_mul v1 (mul_le_mul s1 le_rfl (by positivity) (by norm_num)) (by positivity) (by norm_num)).trans ?_
    rw [e45, e41, e15]
    push_cast
    linarith
  have b2 : ukvsphtErr (2 * 5 - 2) 2 (2 ^ (-45 : ℤ)) 16 n ≤ 2 ^ (-15 : ℤ) := by
    unfold ukvsphtErr
    rw [FU.r8, FU.l8]
    refine (mul_le_mul v1 (mul_le_mul s1 le_rfl (by positivity) (by norm_num)) (by positivity) (by norm_num)).trans ?_
    rw [e45, e41, e33, e15]
    push_cast
    linarith
  exact ⟨w, z, z', k1, k2, l2, k3.1.trans b1, k3.2.trans b1, l3.1.trans b2, l3.2.trans b2⟩

end Verif.Props
