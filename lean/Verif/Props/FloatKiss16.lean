import Verif.Props.FloatKiss15
import Verif.Props.FloatRound
/-!
# C100: the round trip in doubles with the C extension
-/
namespace Verif.Props
open Verif Finset

variable {rnd : ℝ → ℝ}

/-- C100: `ispht` followed by `spht` in doubles, the analysis by the compiled extension with its kiss_fft.  The only assumptions on libraries are the
accuracies `δ₀` of the inverse and `δ₁` of the forward two-dimensional FFT of NumPy, and the C library's `sin` and `cos`. -/
theorem c100_round_trip (hrd : NoOverflow rnd) (lib : Fl.NumLib rnd) {lm : Fl.LibM} (hl : LibMWithin lm) (b : Backend) (J : ℕ → CJunk)
    (c : ScalarCoefs (FC rnd)) (hc : c.WellFormed) (N M : ℕ) (hn : c.nmax = N) (hm : c.mmax = M) (hj : PowOK b M lib.jp) (hN : N ≤ 1000) (w : ℤ → ℤ → FC rnd)
    (hw : ∀ n m, IsMode c.nmax c.mmax n m → readMap c n m = some (w n m)) (C : ℝ) (hC : 2 ^ (-700 : ℤ) ≤ C) (hC' : C ≤ 2 ^ (300 : ℤ))
    (hwC : ∀ n m, IsMode c.nmax c.mmax n m → |(w n m).re| ≤ C ∧ |(w n m).im| ≤ C) (nr nc : ℤ) (h1 : c.nmax + 2 ≤ nr) (h2 : 2 * c.mmax + 2 ≤ nc) (h3 : nc % 2 = 0) (hsz : nr ≤ 2 ^ 27)
    (post : Arr2 (FC rnd) → Int → Int → Res (Arr2 (FC rnd))) (δ₀ δ₁ ε : ℝ)
    (hε : ε = δ₀ + (2 * N + 1) * (2 * M + 1) * ((N + 1) * ((N : ℝ) + 4) ^ 3 * 2 ^ (-49 : ℤ) * C * Real.sqrt ((2 * N + 1) / (4 * Real.pi))))
    (hδ₀ : δ₀ ≤ (N + 1) ^ 2 * C / 4) (hδ₁ : Real.sqrt (2 * (nr : ℝ) - 1) * δ₁ ≤ (N + 1) ^ 2 * C / 4)
    (hpost : ∀ f, Fl.backendScToFc rnd lib.jp b 0 c.vec c.nmax c.mmax (2 * nr - 2) nc = .ok f → FftWithin post δ₀ f (2 * nr - 2) nc)
    (hfft : ∀ D, Fl.ispht rnd lib.jp post b c (some nr) (some nc) = .ok ⟨.arr D⟩ → Fft2Within lib.fft δ₁ D) :
    ∃ p ch, Fl.ispht rnd lib.jp post b c (some nr) (some nc) = .ok p ∧ Fl.kSpht rnd lib lm J p (some c.nmax) (some c.mmax) = .ok ch ∧
      ch.WellFormed ∧ ch.nmax = c.nmax ∧ ch.mmax = c.mmax ∧ ∀ n m : ℤ, IsMode c.nmax c.mmax n m → ∃ z, readMap ch n m = some z ∧
        ‖FS.val z - FS.val (w n m)‖ ≤ ksphtErr (2 * nr - 2).toNat ((N + 1) ^ 2 * C) δ₁ n + Real.sqrt ((2 * n + 1) / (4 * Real.pi)) * ((2 * n + 1) * (20 * ε)) := by
  have hC9 : 2 ^ (-900 : ℤ) ≤ C := (zpow_le_zpow_right₀ (by norm_num) (by norm_num)).trans hC
  have C0 : 0 ≤ C := le_trans (by positivity) hC
  have hm0 := hc.wf.m0
  have hmn := hc.wf.mn
  obtain ⟨g, D, e1, -, gr, gc, -, -, -, hgS⟩ := FA.ispht_samples hrd b c hc N M hn hm hj hN w hw C hC9 hC' hwC nr nc h1 h2 h3 post δ₀ ε hε hδ₀ hpost
  have hsz' : nr ≤ 134217728 := by norm_num at hsz; exact hsz
  obtain ⟨S, hS⟩ : ∃ S, S = ((N : ℝ) + 1) ^ 2 * C := ⟨_, rfl⟩
  have S1 : C ≤ S := by
    have : (1 : ℝ) ≤ ((N : ℝ) + 1) ^ 2 := one_le_pow₀ (by have : (0 : ℝ) ≤ N := by positivity
                                                          linarith)
    rw [hS]
    exact le_mul_of_one_le_left C0 this
  have hS2 : S ≤ 2 ^ (400 : ℤ) := by
    have n1 : (N : ℝ) ≤ 1000 := by exact_mod_cast hN
    calc S ≤ (1000 + 1) ^ 2 * 2 ^ (300 : ℤ) := by rw [hS]; gcongr
      _ ≤ 2 ^ (100 : ℤ) * 2 ^ (300 : ℤ) := mul_le_mul_of_nonneg_right (by norm_num) (by positivity)
      _ = 2 ^ (400 : ℤ) := by rw [← zpow_add₀ (by norm_num)]; norm_num
  have hq : (g.rows : ℝ) + 1 = 2 * (nr : ℝ) - 1 := by
    have : ((g.rows : ℤ) : ℝ) = ((2 * nr - 2 : ℤ) : ℝ) := by rw [gr]
    push_cast at this
    linarith
  have hgr : (2 * nr - 2).toNat = g.rows := by omega
  have hcv := FK.sconv hrd lib hl g (by omega) (by omega) (by norm_num; omega) N M (by omega) (by omega) S (hC.trans S1) hS2 (by rw [hS]; exact hgS) δ₁
    (by rw [hq, hS]; exact hδ₁) (hfft g e1)
  obtain ⟨p, ch, f1, f2, f3, f4, f5, f6⟩ := c95_round_trip hrd (FK.kLib lib lm) FA.goodLib_sum b (.c J) c hc N M hn hm hj (PowOK.c _ _ _) hN w hw C hC9 hC' hwC nr nc h1 h2 h3
    (by norm_num; omega) post δ₀ δ₁ (FK.convErr g.rows S) ε hε hδ₀ hδ₁ (by rw [← hS]; exact FK.convErr_le (by omega) (by norm_num; omega) (C0.trans S1)) hpost
    (fun D hD => by
      have hD' : Fl.ispht rnd lib.jp post b c (some nr) (some nc) = .ok ⟨.arr D⟩ := hD
      rw [e1] at hD'
      cases hD'
      exact ⟨hfft g e1, hcv⟩)
  have f1' : Fl.ispht rnd lib.jp post b c (some nr) (some nc) = .ok p := f1
  rw [e1] at f1'
  cases f1'
  obtain ⟨Q, t', ss, fw, bw, s, hready⟩ := FK.ready (rnd := rnd) hrd.toIsRounding hl (g.rows + 2) N (by omega) (by omega) (by norm_num; omega)
  have hlt := hready.lt
  rw [hn, hm] at f2
  have k1 := FK.kSpht_of lib lm J g N M hready (by norm_num; omega) ch f2
  refine ⟨_, ch, e1, by rw [hn, hm]; exact k1, f3, f4, f5, fun n m hnm => ?_⟩
  obtain ⟨z, z1, z2⟩ := f6 n m hnm
  refine ⟨z, z1, z2.trans ?_⟩
  have k2 := FK.kspht_num (r := g.rows) (C := S) (δ := δ₁) (n := n) (by omega) (C0.trans S1) hnm.1
  rw [hq] at k2
  rw [hgr, ← hS]
  refine le_trans (le_of_eq ?_) (add_le_add k2 le_rfl)
  ring

open FS in
/-- Not vacuous: seven complex coefficients, synthesised by the Python backend with exact FFTs and analysed by the extension, come back to within `2^-17`. -/
example : ∃ (rnd : ℝ → ℝ) (lib : Fl.NumLib rnd) (lm : Fl.LibM) (c : ScalarCoefs (FC rnd)) (w : ℤ → ℤ → FC rnd) (post : Arr2 (FC rnd) → Int → Int → Res (Arr2 (FC rnd)))
    (p : SPatt (FC rnd)) (ch : ScalarCoefs (FC rnd)), NoOverflow rnd ∧ LibMWithin lm ∧ c.WellFormed ∧ w 2 (-1) = ⟨4, 1⟩ ∧
    Fl.ispht rnd lib.jp post .py c (some 5) (some 8) = .ok p ∧ Fl.kSpht rnd lib lm (fun _ => ⟨fun _ _ => 7, fun _ => 8, fun _ => 9⟩) p (some 2) (some 1) = .ok ch ∧
    ∀ n m : ℤ, IsMode 2 1 n m → ∃ z, readMap ch n m = some z ∧ ‖val z - val (w n m)‖ ≤ 2 ^ (-17 : ℤ) := by
  obtain ⟨rnd, h⟩ := noOverflow_exists
  have hl := libMWithin_rnd h.toIsRounding
  have hj : PowExact (FA.goodLib rnd).jp := fun _ _ => rfl
  obtain ⟨c, hcd⟩ : ∃ c : ScalarCoefs (FC rnd), c = ⟨[⟨0, 1⟩, ⟨1, 1⟩, ⟨2, 1⟩, ⟨3, 1⟩, ⟨4, 1⟩, ⟨5, 1⟩, ⟨6, 1⟩], 2, 1⟩ := ⟨_, rfl⟩
  have hw : c.WF := by subst hcd; exact ⟨by norm_num, by norm_num, rfl⟩
  have hn : c.nmax = ((2 : ℕ) : ℤ) := by subst hcd; rfl
  have hm : c.mmax = ((1 : ℕ) : ℤ) := by subst hcd; rfl
  have hrd : ∀ n m, IsMode c.nmax c.mmax n m → readMap c n m = some ((readMap c n m).getD 0) := by
    intro n m hmo
    rw [readMap_eq hw, ScalarCoefs.absMap_mode hw hmo]; rfl
  have hbd : ∀ n m, IsMode c.nmax c.mmax n m → |((readMap c n m).getD 0).re| ≤ 8 ∧ |((readMap c n m).getD 0).im| ≤ 8 := by
    intro n m hmo
    rw [readMap_eq hw, ScalarCoefs.absMap_mode hw hmo, Option.getD_some]
    have hmem := List.getElem_mem (h := hw.slot_lt hmo)
    have hall : ∀ z ∈ c.vec, |z.re| ≤ 8 ∧ |z.im| ≤ 8 := by
      subst hcd
      intro z hz
      simp only [List.mem_cons, List.not_mem_nil, or_false] at hz
      rcases hz with rfl | rfl | rfl | rfl | rfl | rfl | rfl <;> norm_num
    exact hall _ hmem
  let post : Arr2 (FC rnd) → Int → Int → Res (Arr2 (FC rnd)) := fun f dn nc => (invFourier (f.map val) dn nc).bind fun g => .ok (g.map fun z => ⟨z.re, z.im⟩)
  have hpost : ∀ f, Fl.backendScToFc rnd (FA.goodLib rnd).jp .py 0 c.vec c.nmax c.mmax (2 * 5 - 2) 8 = .ok f → FftWithin post 0 f (2 * 5 - 2) 8 := by
    intro f hf
    obtain ⟨Ah, eAh, hAh⟩ := FS.scToFc_spec (FA.goodLib rnd).jp c.vec 2 1 8 8 (by norm_num) (by norm_num) (by norm_num) (by subst hcd; rfl)
    rw [hn, hm] at hf
    have : f = Ah := Except.ok.inj (hf.symm.trans eAh)
    subst this
    obtain ⟨D, eD, Dr, Dc, -⟩ := invFourier_spec (f.map val) 8 8 (by rw [Arr2.rows_map, hAh.rows]) (by rw [Arr2.cols_map, hAh.cols]) (by norm_num) (by norm_num)
    have eD' : invFourier (f.map val) (2 * 5 - 2) 8 = .ok D := eD
    refine ⟨D.map fun z => ⟨z.re, z.im⟩, D, ?_, eD', rfl, rfl, fun i j hi hj' => ?_⟩
    · show (invFourier (f.map val) (2 * 5 - 2) 8).bind _ = _
      rw [eD']; rfl
    · rw [Arr2.at'_map _ D hi hj']
      have e : (val (⟨(D.at' i j).re, (D.at' i j).im⟩ : FC rnd)) = D.at' i j := rfl
      rw [e, sub_self, norm_zero]
  have hC7 : (2 : ℝ) ^ (-700 : ℤ) ≤ 8 := (zpow_le_one_of_nonpos₀ (by norm_num) (by norm_num)).trans (by norm_num)
  have hC : (2 : ℝ) ^ (-900 : ℤ) ≤ 8 := (zpow_le_one_of_nonpos₀ (by norm_num) (by norm_num)).trans (by norm_num)
  have hC' : (8 : ℝ) ≤ 2 ^ (300 : ℤ) := by rw [show (8 : ℝ) = 2 ^ (3 : ℤ) by norm_num]; exact zpow_le_zpow_right₀ (by norm_num) (by norm_num)
  have hcw := ScalarCoefs.wf_iff.mp hw
  obtain ⟨g, D, e1, -, gr, gc, -, -, -, hgS⟩ := FA.ispht_samples h .py c hcw 2 1 hn hm (hj.ok _ (by norm_num)) (by norm_num) _ hrd 8 hC hC' hbd 5 8
    (by rw [hn]; norm_num) (by rw [hm]; norm_num) (by norm_num) post 0 _ rfl (by norm_num) hpost
  have hfft : ∀ D, Fl.ispht rnd (FA.goodLib rnd).jp post .py c (some 5) (some 8) = .ok ⟨.arr D⟩ → Fft2Within (FA.goodLib rnd).fft 0 D := by
    intro D' hD'
    rw [e1] at hD'
    cases hD'
    exact FA.goodLib_fft g (by omega) (by omega)
  obtain ⟨p, ch, f1, f2, -, -, -, f3⟩ := c100_round_trip h (FA.goodLib rnd) hl .py (fun _ => ⟨fun _ _ => 7, fun _ => 8, fun _ => 9⟩) c hcw 2 1 hn hm (hj.ok _ (by norm_num)) (by norm_num) _ hrd 8 hC7 hC' hbd 5 8
    (by rw [hn]; norm_num) (by rw [hm]; norm_num) (by norm_num) (by norm_num) post 0 0 _ rfl (by norm_num) (by norm_num) hpost hfft
  rw [hn, hm] at f2 f3
  refine ⟨rnd, FA.goodLib rnd, _, c, fun n m => (readMap c n m).getD 0, post, p, ch, h, hl, hcw, by subst hcd; rfl, f1, f2, fun n m hmo => ?_⟩
  obtain ⟨z, g1, g2⟩ := f3 n m hmo
  refine ⟨z, g1, g2.trans ?_⟩
  obtain ⟨h0, h1, -, -⟩ := hmo
  have hs : ∀ x : ℝ, x ≤ 2 → Real.sqrt ((2 * x + 1) / (4 * Real.pi)) ≤ 1 := by
    intro x hx
    apply Real.sqrt_le_iff.mpr
    refine ⟨by norm_num, ?_⟩
    rw [div_le_iff₀ (by positivity)]
    have := Real.pi_gt_three
    linarith
  have n0 : (0 : ℝ) ≤ n := by exact_mod_cast h0
  have n1 : (n : ℝ) ≤ 2 := by exact_mod_cast h1
  have s1 := hs n n1
  have s2 := hs ((2 : ℕ) : ℝ) (by norm_num)
  have hp : ((n : ℝ) + 4) ^ 3 ≤ 6 ^ 3 := pow_le_pow_left₀ (by linarith) (by linarith) 3
  have hx : ((n : ℝ) + 1) * ((n : ℝ) + 4) ^ 3 ≤ 3 * 6 ^ 3 := mul_le_mul (by linarith) hp (by positivity) (by norm_num)
  unfold ksphtErr
  have e8 : (2 * (5 : ℤ) - 2).toNat = 8 := by decide
  have h9 : Real.sqrt (((8 : ℕ) : ℝ) + 1) = 3 := by
    rw [show (((8 : ℕ) : ℝ) + 1) = 3 ^ 2 by norm_num, Real.sqrt_sq (by norm_num)]
  have hL : Nat.log 2 (4 * 8) = 5 := by
    rw [show 4 * 8 = 2 ^ 5 by norm_num, Nat.log_pow (by norm_num)]
  rw [e8, h9, hL]
  obtain ⟨r2, hr2⟩ : ∃ r, r = Real.sqrt ((2 * ((2 : ℕ) : ℝ) + 1) / (4 * Real.pi)) := ⟨_, rfl⟩
  rw [← hr2] at s2 ⊢
  have r20 : 0 ≤ r2 := by rw [hr2]; exact Real.sqrt_nonneg _
  rw [← mul_add]
  refine (mul_le_mul s1 le_rfl (by positivity) (by norm_num)).trans ?_
  have e34 : (2 : ℝ) ^ (-34 : ℤ) = 1 / 17179869184 := by norm_num
  have e43 : (2 : ℝ) ^ (-43 : ℤ) = 1 / 8796093022208 := by norm_num
  have e49 : (2 : ℝ) ^ (-49 : ℤ) = 1 / 562949953421312 := by norm_num
  have e17 : (2 : ℝ) ^ (-17 : ℤ) = 1 / 131072 := by norm_num
  clear hC hC' hC7
  rw [e34, e43, e49, e17]
  push_cast
  nlinarith

end Verif.Props
