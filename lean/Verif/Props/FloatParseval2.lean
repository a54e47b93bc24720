import Verif.Props.FloatParseval
import Verif.Props.FloatUser8
/-!
# C136: the round trip through samples keeps the energy, in doubles
-/
namespace Verif.Props
open Verif Finset

variable {rnd : ℝ → ℝ}

namespace PV

theorem card_le {nmax mmax : ℤ} (h0 : 0 ≤ mmax) (h1 : mmax ≤ nmax) (h2 : nmax ≤ 1000) : (modes nmax mmax).card ≤ 10000000 := by
  have e := modes_card' h0 h1
  unfold ncFormula at e
  have h4 : ((modes nmax mmax).card : ℤ) ≤ 10000000 := by
    rw [e]
    dsimp only
    nlinarith
  omega

theorem abs_le_C {z : FC rnd} {C : ℝ} (h : |z.re| ≤ C ∧ |z.im| ≤ C) : fcAbs z ^ 2 ≤ 2 * C ^ 2 := by
  unfold fcAbs
  rw [Real.sq_sqrt (by positivity)]
  have a := sq_le_sq' (abs_le.mp h.1).1 (abs_le.mp h.1).2
  have b := sq_le_sq' (abs_le.mp h.2).1 (abs_le.mp h.2).2
  linarith

theorem trip (hr : IsRounding rnd) (h : FC rnd → ℝ) (hh : IsHypotAll rnd h) (c ch : ScalarCoefs (FC rnd)) (hc : c.WellFormed) (N : ℕ) (hn : c.nmax = N) (hN : N ≤ 1000) (w : ℤ → ℤ → FC rnd)
    (hw : ∀ n m, IsMode c.nmax c.mmax n m → readMap c n m = some (w n m)) (C : ℝ) (C0 : 0 ≤ C) (hC' : C ≤ 2 ^ (300 : ℤ))
    (hwC : ∀ n m, IsMode c.nmax c.mmax n m → |(w n m).re| ≤ C ∧ |(w n m).im| ≤ C) (hc' : ch.WellFormed) (en : ch.nmax = c.nmax) (em : ch.mmax = c.mmax) (err : ℤ → ℝ)
    (hb : ∀ n m : ℤ, IsMode c.nmax c.mmax n m → ∃ z, readMap ch n m = some z ∧ ‖FS.val z - FS.val (w n m)‖ ≤ err n)
    (ε : ℝ) (hε : ∀ n : ℤ, 0 ≤ n → n ≤ N → err n ≤ ε) (hε' : ε ≤ 2 ^ (399 : ℤ)) (s s' : ℝ) (hs : FloatPower rnd h c s) (hs' : FloatPower rnd h ch s') :
    ∃ E δ : ℝ, (E : ℂ) = sphInt (fun θ φ => ((‖shSeries c.nmax c.mmax (fun n m => FS.val (w n m)) θ φ‖ ^ 2 : ℝ) : ℂ)) ∧
      δ = ε * (2 * √(c.vec.length * E) + c.vec.length * ε) ∧
      |s - E| ≤ (c.vec.length + 6) * 2 ^ (-52 : ℤ) * E + c.vec.length * 2 ^ (-990 : ℤ) ∧
      |s' - E| ≤ δ + (c.vec.length + 6) * 2 ^ (-52 : ℤ) * (E + δ) + c.vec.length * 2 ^ (-990 : ℤ) ∧
      |s' - s| ≤ δ + (c.vec.length + 6) * 2 ^ (-52 : ℤ) * (2 * E + δ) + 2 * (c.vec.length * 2 ^ (-990 : ℤ)) := by
  have m0 := hc.wf.m0
  have mn := hc.wf.mn
  have ε0 : 0 ≤ ε := by
    obtain ⟨z, -, q⟩ := hb 0 0 ⟨le_refl _, by omega, by simp, by simpa using m0⟩
    exact ((norm_nonneg _).trans q).trans (hε 0 le_rfl (by omega))
  have hcard := card_le m0 mn (by omega)
  have len : ch.vec.length = c.vec.length := by rw [hc.length_eq, hc'.length_eq, en, em]
  have hlen : c.vec.length ≤ 2 ^ 50 := by rw [hc.length_eq]; norm_num; omega
  have C2 : 2 * C ^ 2 ≤ 2 ^ (601 : ℤ) := by
    calc 2 * C ^ 2 ≤ 2 * ((2 : ℝ) ^ (300 : ℤ)) ^ 2 := by gcongr
      _ = _ := by rw [← zpow_natCast, ← zpow_mul, ← zpow_one_add₀ (by norm_num)]; norm_num
  have hl : ∀ z ∈ c.vec, fcAbs z ≤ 2 ^ (400 : ℤ) := by
    intro z hz
    obtain ⟨i, hi, rfl⟩ := List.mem_iff_getElem.mp hz
    obtain ⟨n, m, hm, rfl⟩ : ∃ n m, IsMode c.nmax c.mmax n m ∧ slot c.nmax n m = i :=
      slot_surj hc.wf.m0 hc.wf.mn (by rw [← hc.wf.len']; exact hi)
    have e := hw n m hm
    rw [readMap_eq hc.wf, ScalarCoefs.absMap_mode hc.wf hm] at e
    injection e with e
    rw [e]
    refine le_of_sq_le_sq ((abs_le_C (hwC n m hm)).trans (C2.trans ?_)) (by positivity)
    rw [← zpow_natCast, ← zpow_mul]
    exact zpow_le_zpow_right₀ (by norm_num) (by norm_num)
  obtain ⟨E, hE, b1⟩ := c135_power hr h hh c hc w hw hl hlen s hs
  obtain ⟨E', hE', δ, hδ, b2⟩ := c135_measured hr h hh ch hc' (fun n m => FS.val (w n m)) ε ε0 (by
    intro n m hm
    rw [en, em] at hm
    obtain ⟨z, e, q⟩ := hb n m hm
    exact ⟨z, e, q.trans (hε n hm.1 (by have := hm.2.1; omega))⟩) hε' (by rw [len]; exact hlen) s' hs'
  rw [en, em, ← hE] at hE'
  obtain rfl : E' = E := Complex.ofReal_injective hE'
  rw [len] at hδ b2
  have hEb : E' ≤ 2 ^ (798 : ℤ) := by
    have e := hE
    rw [sphInt_series] at e
    have e' : E' = _ := Complex.ofReal_injective e
    rw [e']
    have := Finset.sum_le_card_nsmul (modes c.nmax c.mmax) (fun p => ‖FS.val (w p.1 p.2)‖ ^ 2) (2 ^ (601 : ℤ)) (by
      intro p hp
      rw [← fcAbs_val]
      exact (abs_le_C (hwC p.1 p.2 (mem_modes.mp hp))).trans C2)
    refine this.trans ?_
    rw [nsmul_eq_mul]
    have k : ((modes c.nmax c.mmax).card : ℝ) ≤ 2 ^ (24 : ℤ) := by
      calc ((modes c.nmax c.mmax).card : ℝ) ≤ ((10000000 : ℕ) : ℝ) := by exact_mod_cast hcard
        _ ≤ _ := by norm_num
    calc ((modes c.nmax c.mmax).card : ℝ) * 2 ^ (601 : ℤ) ≤ 2 ^ (24 : ℤ) * 2 ^ (601 : ℤ) := mul_le_mul_of_nonneg_right k (by positivity)
      _ = 2 ^ (625 : ℤ) := by rw [← zpow_add₀ (by norm_num)]; norm_num
      _ ≤ _ := zpow_le_zpow_right₀ (by norm_num) (by norm_num)
  have b3 := b2 hEb
  refine ⟨E', δ, hE, hδ, b1, b3, ?_⟩
  clear hl hEb b2 hC' C2 hε'
  generalize (c.vec.length : ℝ) * 2 ^ (-990 : ℤ) = t at *
  have q := abs_sub_le s' E' s
  rw [abs_sub_comm E' s] at q
  refine q.trans ((add_le_add b3 b1).trans (le_of_eq ?_))
  ring

end PV

/-- Synthesis followed by analysis, all in doubles, keeps the energy: `power()` before and after are both close to `∫ |f|²`, hence to each other. -/
theorem c136_round_trip (hrd : NoOverflow rnd) (lm : Fl.Libm) (hl : LibmOK lm) (np : Fl.Fft1 rnd) (sum : List (FC rnd) → FC rnd) (hsum : SumOK sum) (b : Backend)
    (c : ScalarCoefs (FC rnd)) (hc : c.WellFormed) (N M : ℕ) (hn : c.nmax = N) (hm : c.mmax = M) (hN : N ≤ 1000) (w : ℤ → ℤ → FC rnd)
    (hw : ∀ n m, IsMode c.nmax c.mmax n m → readMap c n m = some (w n m)) (C : ℝ) (hC : 2 ^ (-690 : ℤ) ≤ C) (hC' : C ≤ 2 ^ (300 : ℤ))
    (hwC : ∀ n m, IsMode c.nmax c.mmax n m → |(w n m).re| ≤ C ∧ |(w n m).im| ≤ C) (nr nc : ℤ) (h1 : c.nmax + 2 ≤ nr) (h2 : 2 * c.mmax + 2 ≤ nc) (h3 : nc % 2 = 0) (hsz : nr ≤ 2 ^ 27) (hsz2 : (2 * nr - 2) * nc < 2 ^ 53)
    (κ : ℝ) (hκ : 2 ^ (-45 : ℤ) ≤ κ) (hκ' : κ ≤ 2 ^ (-23 : ℤ)) (hκ2 : 213 * Nat.log 2 (4 * (2 * nr - 2).toNat) * Real.sqrt (((2 * nr - 2).toNat : ℝ) + 1) * κ ≤ 1) (hnp : FftOK np κ (2 * nr - 2).toNat nc.toNat)
    (ε : ℝ) (hε : ∀ n : ℤ, 0 ≤ n → n ≤ N → usrtErr (2 * nr - 2).toNat N M κ C n ≤ ε) (hε' : ε ≤ 2 ^ (399 : ℤ)) (h : FC rnd → ℝ) (hh : IsHypotAll rnd h) :
    ∃ p ch, Fl.ispht rnd (Fl.pow1j rnd lm) (Fl.ifft2Scaled rnd np) b c (some nr) (some nc) = .ok p ∧ Fl.spht rnd (Fl.npLib rnd lm np sum) .py p (some c.nmax) (some c.mmax) = .ok ch ∧
      ∀ s s', FloatPower rnd h c s → FloatPower rnd h ch s' →
        ∃ E δ : ℝ, (E : ℂ) = sphInt (fun θ φ => ((‖shSeries c.nmax c.mmax (fun n m => FS.val (w n m)) θ φ‖ ^ 2 : ℝ) : ℂ)) ∧
          δ = ε * (2 * √(c.vec.length * E) + c.vec.length * ε) ∧
          |s - E| ≤ (c.vec.length + 6) * 2 ^ (-52 : ℤ) * E + c.vec.length * 2 ^ (-990 : ℤ) ∧
          |s' - E| ≤ δ + (c.vec.length + 6) * 2 ^ (-52 : ℤ) * (E + δ) + c.vec.length * 2 ^ (-990 : ℤ) ∧
          |s' - s| ≤ δ + (c.vec.length + 6) * 2 ^ (-52 : ℤ) * (2 * E + δ) + 2 * (c.vec.length * 2 ^ (-990 : ℤ)) := by
  obtain ⟨p, ch, e1, e2, wf, en, em, hb⟩ := c107_round_trip hrd lm hl np sum hsum b c hc N M hn hm hN w hw C hC hC' hwC nr nc h1 h2 h3 hsz hsz2 κ hκ hκ' hκ2 hnp
  exact ⟨p, ch, e1, e2, fun s s' hs hs' => PV.trip hrd.toIsRounding h hh c ch hc N hn hN w hw C ((by positivity : (0 : ℝ) ≤ 2 ^ (-690 : ℤ)).trans hC) hC' hwC wf en em _ hb ε hε hε' s s' hs hs'⟩

/-- The same with the analysis by the compiled extension, whatever fresh memory holds. -/
theorem c136_kround_trip (hrd : NoOverflow rnd) {lm : Fl.LibM} (hl : LibMWithin lm) (J : ℕ → CJunk) (np : Fl.Fft1 rnd) (lib : Fl.NumLib rnd) (hlib : lib.fft = Fl.fft2Norm rnd np) (b : Backend)
    (c : ScalarCoefs (FC rnd)) (hc : c.WellFormed) (N M : ℕ) (hn : c.nmax = N) (hm : c.mmax = M) (hj : PowOK b M lib.jp) (hN : N ≤ 1000) (w : ℤ → ℤ → FC rnd)
    (hw : ∀ n m, IsMode c.nmax c.mmax n m → readMap c n m = some (w n m)) (C : ℝ) (hC : 2 ^ (-690 : ℤ) ≤ C) (hC' : C ≤ 2 ^ (300 : ℤ))
    (hwC : ∀ n m, IsMode c.nmax c.mmax n m → |(w n m).re| ≤ C ∧ |(w n m).im| ≤ C) (nr nc : ℤ) (h1 : c.nmax + 2 ≤ nr) (h2 : 2 * c.mmax + 2 ≤ nc) (h3 : nc % 2 = 0) (hsz : nr ≤ 2 ^ 27) (hsz2 : (2 * nr - 2) * nc < 2 ^ 53)
    (κ : ℝ) (hκ : 2 ^ (-45 : ℤ) ≤ κ) (hκ' : κ ≤ 2 ^ (-23 : ℤ)) (hκ2 : 12 * Real.sqrt (((2 * nr - 2).toNat : ℝ) + 1) * κ ≤ 1) (hp1 : Fft1Within np κ (2 * nr - 2).toNat) (hp2 : Fft1Within np κ nc.toNat)
    (ε : ℝ) (hε : ∀ n : ℤ, 0 ≤ n → n ≤ N → uksrtErr (2 * nr - 2).toNat N M κ C n ≤ ε) (hε' : ε ≤ 2 ^ (399 : ℤ)) (h : FC rnd → ℝ) (hh : IsHypotAll rnd h) :
    ∃ p ch, Fl.ispht rnd lib.jp (Fl.ifft2Scaled rnd np) b c (some nr) (some nc) = .ok p ∧ Fl.kSpht rnd lib lm J p (some c.nmax) (some c.mmax) = .ok ch ∧
      ∀ s s', FloatPower rnd h c s → FloatPower rnd h ch s' →
        ∃ E δ : ℝ, (E : ℂ) = sphInt (fun θ φ => ((‖shSeries c.nmax c.mmax (fun n m => FS.val (w n m)) θ φ‖ ^ 2 : ℝ) : ℂ)) ∧
          δ = ε * (2 * √(c.vec.length * E) + c.vec.length * ε) ∧
          |s - E| ≤ (c.vec.length + 6) * 2 ^ (-52 : ℤ) * E + c.vec.length * 2 ^ (-990 : ℤ) ∧
          |s' - E| ≤ δ + (c.vec.length + 6) * 2 ^ (-52 : ℤ) * (E + δ) + c.vec.length * 2 ^ (-990 : ℤ) ∧
          |s' - s| ≤ δ + (c.vec.length + 6) * 2 ^ (-52 : ℤ) * (2 * E + δ) + 2 * (c.vec.length * 2 ^ (-990 : ℤ)) := by
  obtain ⟨p, ch, e1, e2, wf, en, em, hb⟩ := c107_kround_trip hrd hl J np lib hlib b c hc N M hn hm hj hN w hw C hC hC' hwC nr nc h1 h2 h3 hsz hsz2 κ hκ hκ' hκ2 hp1 hp2
  exact ⟨p, ch, e1, e2, fun s s' hs hs' => PV.trip hrd.toIsRounding h hh c ch hc N hn hN w hw C ((by positivity : (0 : ℝ) ≤ 2 ^ (-690 : ℤ)).trans hC) hC' hwC wf en em _ hb ε hε hε' s s' hs hs'⟩

/-- The hypotheses hold together: seven coefficients up to degree 2, sampled on 5 by 8 points and analysed with either backend; every computed energy after the round trip is
within the bound of every computed energy before it. -/
theorem c136_example : ∃ (rnd : ℝ → ℝ) (lm : Fl.Libm) (lm' : Fl.LibM) (np : Fl.Fft1 rnd) (sum : List (FC rnd) → FC rnd) (h : FC rnd → ℝ) (c : ScalarCoefs (FC rnd)) (p : SPatt (FC rnd)) (ch ck : ScalarCoefs (FC rnd)),
    NoOverflow rnd ∧ IsHypotAll rnd h ∧ c.WellFormed ∧ c.vec.length = 7 ∧ c.vec[4]? = some ⟨4, 1⟩ ∧ (∃ s, FloatPower rnd h c s) ∧
    Fl.ispht rnd (Fl.pow1j rnd lm) (Fl.ifft2Scaled rnd np) .py c (some 5) (some 8) = .ok p ∧ Fl.spht rnd (Fl.npLib rnd lm np sum) .py p (some 2) (some 1) = .ok ch ∧
    Fl.kSpht rnd (Fl.npLib rnd lm np sum) lm' (fun _ => ⟨fun _ => 0, fun _ => 0, fun _ => 0⟩) p (some 2) (some 1) = .ok ck ∧
    ∀ s s' s'', FloatPower rnd h c s → FloatPower rnd h ch s' → FloatPower rnd h ck s'' → ∃ E δ : ℝ, δ = 2 ^ (-17 : ℤ) * (2 * √(7 * E) + 7 * 2 ^ (-17 : ℤ)) ∧
      |s' - s| ≤ δ + 13 * 2 ^ (-52 : ℤ) * (2 * E + δ) + 2 * (7 * 2 ^ (-990 : ℤ)) ∧ |s'' - s| ≤ δ + 13 * 2 ^ (-52 : ℤ) * (2 * E + δ) + 2 * (7 * 2 ^ (-990 : ℤ)) := by
  obtain ⟨rnd, h⟩ := noOverflow_exists
  have hr := h.toIsRounding
  have hl := FU.libmOK_rnd hr
  have hl' := libMWithin_rnd hr
  have ok := FU.fftOK_good hr
  obtain ⟨C7, C8⟩ := FU.c8
  obtain ⟨c, hcd⟩ : ∃ c : ScalarCoefs (FC rnd), c = ⟨[⟨0, 1⟩, ⟨1, 1⟩, ⟨2, 1⟩, ⟨3, 1⟩, ⟨4, 1⟩, ⟨5, 1⟩, ⟨6, 1⟩], 2, 1⟩ := ⟨_, rfl⟩
  have hw : c.WF := by subst hcd; exact ⟨by norm_num, by norm_num, rfl⟩
  have hn : c.nmax = ((2 : ℕ) : ℤ) := by subst hcd; rfl
  have hm : c.mmax = ((1 : ℕ) : ℤ) := by subst hcd; rfl
  have hrd : ∀ n m, IsMode c.nmax c.mmax n m → readMap c n m = some ((readMap c n m).getD 0) := by
    intro n m hmo
    rw [readMap_eq hw, ScalarCoefs.absMap_mode hw hmo]; rfl
  have hbd : ∀ n m, IsMode c.nmax c.mmax n m → |((readMap c n m).getD 0).re| ≤ 8 ∧ |((readMap c n m).getD 0).im| ≤ 8 := by
    intro n m hmo
    rw [readMap_eq hw, ScalarCoefs.absMap_mode hw hmo, Option.getD_some]
    have hmem := List.getElem_mem (h := hw.slot_lt hmo)
    have hall : ∀ z ∈ c.vec, |z.re| ≤ 8 ∧ |z.im| ≤ 8 := by
      subst hcd
      intro z hz
      simp only [List.mem_cons, List.not_mem_nil, or_false] at hz
      rcases hz with rfl | rfl | rfl | rfl | rfl | rfl | rfl <;> norm_num
    exact hall _ hmem
  have hcw := ScalarCoefs.wf_iff.mp hw
  have hj := (pow1j_near h _ hl).mono (show 1 ≤ 1000 by norm_num)
  have busrtErr : ∀ n : ℤ, 0 ≤ n → n ≤ (2 : ℕ) → usrtErr 8 2 1 (2 ^ (-45 : ℤ)) 8 n ≤ 2 ^ (-17 : ℤ) := by
    intro n h0 h1
    clear C7 C8
    have n0 : (0 : ℝ) ≤ n := by exact_mod_cast h0
    have n1 : (n : ℝ) ≤ 2 := by exact_mod_cast h1
    have s1 := FU.row_le n1
    have s2 := FU.row_le (x := ((2 : ℕ) : ℝ)) (by norm_num)
    have hp : ((n : ℝ) + 4) ^ 3 ≤ 6 ^ 3 := pow_le_pow_left₀ (by linarith) (by linarith) 3
    have hx : ((n : ℝ) + 1) * ((n : ℝ) + 4) ^ 3 ≤ 3 * 6 ^ 3 := mul_le_mul (by linarith) hp (by positivity) (by norm_num)
    have e45 : (2 : ℝ) ^ (-45 : ℤ) = 1 / 35184372088832 := by norm_num
    have e43 : (2 : ℝ) ^ (-43 : ℤ) = 1 / 8796093022208 := by norm_num
    have e34 : (2 : ℝ) ^ (-34 : ℤ) = 1 / 17179869184 := by norm_num
    have e17 : (2 : ℝ) ^ (-17 : ℤ) = 1 / 131072 := by norm_num
    have s0 : 0 ≤ uisphtErr 2 1 (2 ^ (-45 : ℤ)) 8 := by unfold uisphtErr; positivity
    have si : uisphtErr 2 1 (2 ^ (-45 : ℤ)) 8 ≤ 1 / 1000000000 := by
      unfold uisphtErr
      generalize Real.sqrt ((2 * ((2 : ℕ) : ℝ) + 1) / (4 * Real.pi)) = R at s2
      norm_num
      linarith
    show usrtErr 8 2 1 (2 ^ (-45 : ℤ)) 8 n ≤ _
    unfold usrtErr
    rw [FU.r9, FU.l9]
    generalize uisphtErr 2 1 (2 ^ (-45 : ℤ)) 8 = E at *
    refine (mul_le_mul s1 le_rfl (by positivity) (by norm_num)).trans ?_
    rw [e45, e43, e17]
    push_cast
    nlinarith
  have buksrtErr : ∀ n : ℤ, 0 ≤ n → n ≤ (2 : ℕ) → uksrtErr 8 2 1 (2 ^ (-45 : ℤ)) 8 n ≤ 2 ^ (-17 : ℤ) := by
    intro n h0 h1
    clear C7 C8
    have n0 : (0 : ℝ) ≤ n := by exact_mod_cast h0
    have n1 : (n : ℝ) ≤ 2 := by exact_mod_cast h1
    have s1 := FU.row_le n1
    have s2 := FU.row_le (x := ((2 : ℕ) : ℝ)) (by norm_num)
    have hp : ((n : ℝ) + 4) ^ 3 ≤ 6 ^ 3 := pow_le_pow_left₀ (by linarith) (by linarith) 3
    have hx : ((n : ℝ) + 1) * ((n : ℝ) + 4) ^ 3 ≤ 3 * 6 ^ 3 := mul_le_mul (by linarith) hp (by positivity) (by norm_num)
    have e45 : (2 : ℝ) ^ (-45 : ℤ) = 1 / 35184372088832 := by norm_num
    have e43 : (2 : ℝ) ^ (-43 : ℤ) = 1 / 8796093022208 := by norm_num
    have e34 : (2 : ℝ) ^ (-34 : ℤ) = 1 / 17179869184 := by norm_num
    have e17 : (2 : ℝ) ^ (-17 : ℤ) = 1 / 131072 := by norm_num
    have s0 : 0 ≤ uisphtErr 2 1 (2 ^ (-45 : ℤ)) 8 := by unfold uisphtErr; positivity
    have si : uisphtErr 2 1 (2 ^ (-45 : ℤ)) 8 ≤ 1 / 1000000000 := by
      unfold uisphtErr
      generalize Real.sqrt ((2 * ((2 : ℕ) : ℝ) + 1) / (4 * Real.pi)) = R at s2
      norm_num
      linarith
    show uksrtErr 8 2 1 (2 ^ (-45 : ℤ)) 8 n ≤ _
    unfold uksrtErr
    rw [FU.r9, FU.l9]
    generalize uisphtErr 2 1 (2 ^ (-45 : ℤ)) 8 = E at *
    refine (mul_le_mul s1 le_rfl (by positivity) (by norm_num)).trans ?_
    rw [e45, e43, e17, e34]
    push_cast
    nlinarith
  have hh : IsHypotAll rnd (fcAbs (rnd := rnd)) := ⟨⟨fcAbs_zero, fun w _ _ => by unfold fcAbs; simp⟩, fun w hw => ⟨Real.sqrt_nonneg _, hw.trans (zpow_le_zpow_right₀ (by norm_num) (by norm_num))⟩⟩
  have t17 : (2 : ℝ) ^ (-17 : ℤ) ≤ 2 ^ (399 : ℤ) := zpow_le_zpow_right₀ (by norm_num) (by norm_num)
  obtain ⟨p, ch, f1, f2, f3⟩ := c136_round_trip h _ hl (FP.goodFft rnd) (FA.goodLib rnd).sum FA.goodLib_sum .py c hcw 2 1 hn hm (by norm_num) _ hrd 8 C7 C8 hbd 5 8
    (by rw [hn]; norm_num) (by rw [hm]; norm_num) (by norm_num) (by norm_num) (by norm_num) (2 ^ (-45 : ℤ)) le_rfl (zpow_le_zpow_right₀ (by norm_num) (by norm_num))
    (by show 213 * (Nat.log 2 (4 * 8) : ℝ) * Real.sqrt (((8 : ℕ) : ℝ) + 1) * 2 ^ (-45 : ℤ) ≤ 1
        rw [FU.r9, FU.l9]; norm_num) ok (2 ^ (-17 : ℤ)) busrtErr t17 fcAbs hh
  obtain ⟨p', ck, g1, g2, g3⟩ := c136_kround_trip h hl' (fun _ => ⟨fun _ => 0, fun _ => 0, fun _ => 0⟩) (FP.goodFft rnd)
    (Fl.npLib rnd ⟨rnd (Real.pi / 2), fun x => rnd (Real.cos x), fun x => rnd (Real.sin x)⟩ (FP.goodFft rnd) (FA.goodLib rnd).sum) rfl .py c hcw 2 1 hn hm (fun _ => hj) (by norm_num) _ hrd 8 C7 C8 hbd 5 8
    (by rw [hn]; norm_num) (by rw [hm]; norm_num) (by norm_num) (by norm_num) (by norm_num) (2 ^ (-45 : ℤ)) le_rfl (zpow_le_zpow_right₀ (by norm_num) (by norm_num))
    (by show 12 * Real.sqrt (((8 : ℕ) : ℝ) + 1) * 2 ^ (-45 : ℤ) ≤ 1
        rw [FU.r9]; norm_num) ok.rows ok.cols (2 ^ (-17 : ℤ)) buksrtErr t17 fcAbs hh
  have g1' : Fl.ispht rnd (Fl.pow1j rnd ⟨rnd (Real.pi / 2), fun x => rnd (Real.cos x), fun x => rnd (Real.sin x)⟩) (Fl.ifft2Scaled rnd (FP.goodFft rnd)) .py c (some 5) (some 8) = .ok p' := g1
  rw [f1] at g1'
  cases g1'
  have cl : c.vec.length = 7 := by subst hcd; rfl
  rw [hn, hm] at f2 g2
  refine ⟨rnd, _, _, FP.goodFft rnd, (FA.goodLib rnd).sum, fcAbs, c, p, ch, ck, h, hh, hcw, cl, by subst hcd; rfl, ?_, f1, f2, g2, fun s s' s'' q1 q2 q3 => ?_⟩
  · subst hcd
    exact ⟨_, NpSum.add (l := [_, _, _]) (NpSum.add (l := [_, _]) (NpSum.add (l := [_]) (NpSum.one _) (NpSum.one _)) (NpSum.one _)) (NpSum.add (l := [_, _]) (NpSum.add (l := [_]) (NpSum.one _) (NpSum.one _)) (NpSum.add (l := [_]) (NpSum.one _) (NpSum.one _)))⟩
  obtain ⟨E, δ, i1, i2, -, -, i3⟩ := f3 s s' q1 q2
  obtain ⟨E', δ', j1, j2, -, -, j3⟩ := g3 s s'' q1 q3
  rw [← i1] at j1
  obtain rfl : E' = E := Complex.ofReal_injective j1
  rw [← i2] at j2
  subst j2
  have c13 : ((7 : ℕ) : ℝ) + 6 = 13 := by norm_num
  have c7 : ((7 : ℕ) : ℝ) = 7 := by norm_num
  rw [cl] at i2 i3 j3
  rw [c13, c7] at i3 j3
  rw [c7] at i2
  exact ⟨E', δ', i2, i3, j3⟩

end Verif.Props
