import Verif.Props.FloatParseval2
import Verif.Props.FloatPad2
import Verif.Props.FloatUser8
import Verif.Props.VecParseval
/-!
# C138: the energy of vector sets in doubles
-/
namespace Verif.Props
open Verif Finset

variable {rnd : ℝ → ℝ}

namespace PV

/-- The coefficients of one of the two sets, with the monopole entry 0. -/
noncomputable def cut (v : ℤ → ℤ → FC rnd) : ℤ → ℤ → FC rnd := fun n m => if n = 0 then 0 else v n m

theorem sum_cut (N M : ℤ) (v : ℤ → ℤ → FC rnd) :
    ∑ p ∈ modes N M, ‖FS.val (cut v p.1 p.2)‖ ^ 2 = ∑ q ∈ modes N M with q.1 ≠ 0, ‖FS.val (v q.1 q.2)‖ ^ 2 := by
  rw [sum_filter]
  refine sum_congr rfl fun p _ => ?_
  unfold cut
  by_cases h : p.1 = 0
  · rw [if_pos h, if_neg (not_not.mpr h), FS.val_zero]; norm_num
  · rw [if_neg h, if_pos h]

theorem mode_zero {N M m : ℤ} (h : IsMode N M 0 m) : m = 0 := by
  have := h.2.2.1
  rw [Int.abs_eq_natAbs] at this
  omega

theorem parts (c : VectorCoefs (FC rnd)) (hc : c.WellFormed) (z1 : readMap c.scoef1 0 0 = some 0) (z2 : readMap c.scoef2 0 0 = some 0) (v w : ℤ → ℤ → FC rnd)
    (hvw : ∀ n m, IsMode c.nmax c.mmax n m → n ≠ 0 → readMapV c n m = some (v n m, w n m)) :
    (∀ n m, IsMode c.scoef1.nmax c.scoef1.mmax n m → readMap c.scoef1 n m = some (cut v n m)) ∧
    ∀ n m, IsMode c.scoef2.nmax c.scoef2.mmax n m → readMap c.scoef2 n m = some (cut w n m) := by
  have key : ∀ n m, IsMode c.nmax c.mmax n m → n ≠ 0 → readMap c.scoef1 n m = some (v n m) ∧ readMap c.scoef2 n m = some (w n m) := by
    intro n m hm hn
    have e := hvw n m hm hn
    have m1 : IsMode c.scoef1.nmax c.scoef1.mmax n m := by rw [hc.n1, hc.m1]; exact hm
    have m2 : IsMode c.scoef2.nmax c.scoef2.mmax n m := by rw [hc.n2, hc.m2]; exact hm
    rw [readMapV_eq hc, if_neg hn, ScalarCoefs.absMap_mode hc.wf1.wf m1, ScalarCoefs.absMap_mode hc.wf2.wf m2] at e
    rw [readMap_eq hc.wf1.wf, readMap_eq hc.wf2.wf, ScalarCoefs.absMap_mode hc.wf1.wf m1, ScalarCoefs.absMap_mode hc.wf2.wf m2]
    have e' := Option.some.inj e
    exact ⟨congrArg some (congrArg Prod.fst e'), congrArg some (congrArg Prod.snd e')⟩
  constructor
  · intro n m hm
    rw [hc.n1, hc.m1] at hm
    unfold cut
    by_cases h : n = 0
    · subst h
      obtain rfl := mode_zero hm
      rw [if_pos rfl]; exact z1
    · rw [if_neg h]; exact (key n m hm h).1
  · intro n m hm
    rw [hc.n2, hc.m2] at hm
    unfold cut
    by_cases h : n = 0
    · subst h
      obtain rfl := mode_zero hm
      rw [if_pos rfl]; exact z2
    · rw [if_neg h]; exact (key n m hm h).2

theorem two_sqrt {K a b : ℝ} (hK : 0 ≤ K) (ha : 0 ≤ a) (hb : 0 ≤ b) : √(K * a) + √(K * b) ≤ √(2 * K * (a + b)) := by
  refine Real.le_sqrt_of_sq_le ?_
  have h1 := Real.sq_sqrt (mul_nonneg hK ha)
  have h2 := Real.sq_sqrt (mul_nonneg hK hb)
  nlinarith [sq_nonneg (√(K * a) - √(K * b))]

/-- The last steps of the analysis leave no monopole, whatever the doubles before. -/
theorem vtail_mono (hr : IsRounding rnd) {N M : ℕ} {v u : List (FC rnd)} {c : VectorCoefs (FC rnd)} (e : FD.vtail rnd N M v u = .ok c) :
    readMap c.scoef1 0 0 = some 0 ∧ readMap c.scoef2 0 0 = some 0 := by
  obtain ⟨s1, s2, q1, q2, w1, w2, x1, x2, wc, cn, cm, hv⟩ := FD.vtail_spec e
  have h0 : IsMode (N : ℤ) M 0 0 := ⟨le_refl _, by omega, by simp, by simp⟩
  have z : ∀ x : FC rnd, x * (⟨FV.wF rnd (0 : ℤ).toNat, 0⟩ : FC rnd) = 0 := by
    intro x
    have e0 : FV.wF rnd (0 : ℤ).toNat = 0 := rfl
    rw [e0]
    show (⟨rnd (rnd (x.re * 0) - rnd (x.im * 0)), rnd (rnd (x.re * 0) + rnd (x.im * 0))⟩ : FC rnd) = ⟨0, 0⟩
    simp [rnd_zero hr]
  rw [readMap_eq wc.wf1.wf, readMap_eq wc.wf2.wf, (hv 0 0 h0).1, (hv 0 0 h0).2, ScalarCoefs.absMap_mode w1 (by rw [q1]; exact h0), ScalarCoefs.absMap_mode w2 (by rw [q2]; exact h0)]
  simp only [Option.map_some, z, and_self]

/-- Two vector sets whose entries differ by at most `ε`: their energies computed in doubles. -/
theorem vtrip (hr : IsRounding rnd) (h : FC rnd → ℝ) (hh : IsHypotAll rnd h) (c ch : VectorCoefs (FC rnd)) (hc : c.WellFormed) (N : ℕ) (hn : c.nmax = N) (hN : N ≤ 1000)
    (z1 : readMap c.scoef1 0 0 = some 0) (z2 : readMap c.scoef2 0 0 = some 0) (y1 : readMap ch.scoef1 0 0 = some 0) (y2 : readMap ch.scoef2 0 0 = some 0) (v w : ℤ → ℤ → FC rnd)
    (hvw : ∀ n m, IsMode c.nmax c.mmax n m → n ≠ 0 → readMapV c n m = some (v n m, w n m)) (C : ℝ) (C0 : 0 ≤ C) (hC' : C ≤ 2 ^ (300 : ℤ))
    (hvC : ∀ n m, IsMode c.nmax c.mmax n m → n ≠ 0 → |(v n m).re| ≤ C ∧ |(v n m).im| ≤ C) (hwC : ∀ n m, IsMode c.nmax c.mmax n m → n ≠ 0 → |(w n m).re| ≤ C ∧ |(w n m).im| ≤ C)
    (hc' : ch.WellFormed) (en : ch.nmax = c.nmax) (em : ch.mmax = c.mmax) (err : ℤ → ℝ)
    (hb : ∀ n m : ℤ, IsMode c.nmax c.mmax n m → n ≠ 0 → ∃ z, readMapV ch n m = some z ∧ ‖FS.val z.1 - FS.val (v n m)‖ ≤ err n ∧ ‖FS.val z.2 - FS.val (w n m)‖ ≤ err n)
    (ε : ℝ) (ε0 : 0 ≤ ε) (hε : ∀ n : ℤ, 1 ≤ n → n ≤ N → err n ≤ ε) (hε' : ε ≤ 2 ^ (399 : ℤ)) (Eθ Eφ : ℝ → ℝ → ℂ)
    (hE : JacksonField c.nmax c.mmax (fun n m => FS.val (v n m)) (fun n m => FS.val (w n m)) Eθ Eφ)
    (s₁ s₂ s₁' s₂' : ℝ) (hs1 : FloatPower rnd h c.scoef1 s₁) (hs2 : FloatPower rnd h c.scoef2 s₂) (hs1' : FloatPower rnd h ch.scoef1 s₁') (hs2' : FloatPower rnd h ch.scoef2 s₂') :
    ∃ E δ : ℝ, (E : ℂ) = sphInt (fun θ φ => ((‖Eθ θ φ‖ ^ 2 : ℝ) : ℂ)) + sphInt (fun θ φ => ((‖Eφ θ φ‖ ^ 2 : ℝ) : ℂ)) ∧
      δ = 2 * ε * (√(2 * c.scoef1.vec.length * E) + c.scoef1.vec.length * ε) ∧
      |s₁ + s₂ - E| ≤ (c.scoef1.vec.length + 6) * 2 ^ (-52 : ℤ) * E + 2 * (c.scoef1.vec.length * 2 ^ (-990 : ℤ)) ∧
      |s₁' + s₂' - E| ≤ δ + (c.scoef1.vec.length + 6) * 2 ^ (-52 : ℤ) * (E + δ) + 2 * (c.scoef1.vec.length * 2 ^ (-990 : ℤ)) ∧
      |(s₁' + s₂') - (s₁ + s₂)| ≤ δ + (c.scoef1.vec.length + 6) * 2 ^ (-52 : ℤ) * (2 * E + δ) + 4 * (c.scoef1.vec.length * 2 ^ (-990 : ℤ)) := by
  obtain ⟨p1, p2⟩ := parts c hc z1 z2 v w hvw
  have cutC : ∀ u : ℤ → ℤ → FC rnd, (∀ n m, IsMode c.nmax c.mmax n m → n ≠ 0 → |(u n m).re| ≤ C ∧ |(u n m).im| ≤ C) →
      ∀ n m, IsMode c.nmax c.mmax n m → |(cut u n m).re| ≤ C ∧ |(cut u n m).im| ≤ C := by
    intro u hu n m hm
    unfold cut
    by_cases h0 : n = 0
    · rw [if_pos h0]
      have e1 : (0 : FC rnd).re = 0 := rfl
      have e2 : (0 : FC rnd).im = 0 := rfl
      rw [e1, e2, abs_zero]; exact ⟨C0, C0⟩
    · rw [if_neg h0]; exact hu n m hm h0
  have hvw' : ∀ n m, IsMode ch.nmax ch.mmax n m → n ≠ 0 → readMapV ch n m = some (((readMapV ch n m).getD (0, 0)).1, ((readMapV ch n m).getD (0, 0)).2) := by
    intro n m hm h0
    rw [en, em] at hm
    obtain ⟨z, e, -⟩ := hb n m hm h0
    rw [e]; rfl
  obtain ⟨r1, r2⟩ := parts ch hc' y1 y2 _ _ hvw'
  have near : ∀ (u u' : ℤ → ℤ → FC rnd), (∀ n m, IsMode c.nmax c.mmax n m → n ≠ 0 → ‖FS.val (u' n m) - FS.val (u n m)‖ ≤ err n) →
      ∀ n m, IsMode c.nmax c.mmax n m → ‖FS.val (cut u' n m) - FS.val (cut u n m)‖ ≤ (fun n => if n = 0 then 0 else err n) n := by
    intro u u' hu n m hm
    unfold cut
    by_cases h0 : n = 0
    · simp only [if_pos h0, sub_self, norm_zero, le_refl]
    · simp only [if_neg h0]; exact hu n m hm h0
  have hεc : ∀ n : ℤ, 0 ≤ n → n ≤ N → (fun n : ℤ => if n = 0 then (0 : ℝ) else err n) n ≤ ε := by
    intro n a b
    by_cases h0 : n = 0
    · simp only [if_pos h0]; exact ε0
    · simp only [if_neg h0]; exact hε n (by omega) b
  obtain ⟨E1, δ1, f1, d1, b1, b1', b1''⟩ := trip hr h hh c.scoef1 ch.scoef1 hc.wf1 N (hc.n1.trans hn) hN (cut v) p1 C C0 hC' (by rw [hc.n1, hc.m1]; exact cutC v hvC) hc'.wf1
    (by rw [hc'.n1, hc.n1, en]) (by rw [hc'.m1, hc.m1, em]) (fun n => if n = 0 then 0 else err n) (by
      intro n m hm
      rw [hc.n1, hc.m1] at hm
      refine ⟨_, r1 n m (by rw [hc'.n1, hc'.m1, en, em]; exact hm), near v _ (fun n m hm h0 => ?_) n m hm⟩
      obtain ⟨z, e, q1, -⟩ := hb n m hm h0
      simp only [e, Option.getD_some]; exact q1) ε hεc hε' s₁ s₁' hs1 hs1'
  obtain ⟨E2, δ2, f2, d2, b2, b2', b2''⟩ := trip hr h hh c.scoef2 ch.scoef2 hc.wf2 N (hc.n2.trans hn) hN (cut w) p2 C C0 hC' (by rw [hc.n2, hc.m2]; exact cutC w hwC) hc'.wf2
    (by rw [hc'.n2, hc.n2, en]) (by rw [hc'.m2, hc.m2, em]) (fun n => if n = 0 then 0 else err n) (by
      intro n m hm
      rw [hc.n2, hc.m2] at hm
      refine ⟨_, r2 n m (by rw [hc'.n2, hc'.m2, en, em]; exact hm), near w _ (fun n m hm h0 => ?_) n m hm⟩
      obtain ⟨z, e, -, q2⟩ := hb n m hm h0
      simp only [e, Option.getD_some]; exact q2) ε hεc hε' s₂ s₂' hs2 hs2'
  have len : c.scoef2.vec.length = c.scoef1.vec.length := by rw [hc.wf1.length_eq, hc.wf2.length_eq, hc.n1, hc.n2, hc.m1, hc.m2]
  rw [len] at d2 b2 b2' b2''
  rw [sphInt_series, hc.n1, hc.m1, sum_cut] at f1
  rw [sphInt_series, hc.n2, hc.m2, sum_cut] at f2
  have g1 : E1 = _ := Complex.ofReal_injective f1
  have g2 : E2 = _ := Complex.ofReal_injective f2
  have E10 : 0 ≤ E1 := by rw [g1]; positivity
  have E20 : 0 ≤ E2 := by rw [g2]; positivity
  have tot : ((E1 + E2 : ℝ) : ℂ) = sphInt (fun θ φ => ((‖Eθ θ φ‖ ^ 2 : ℝ) : ℂ)) + sphInt (fun θ φ => ((‖Eφ θ φ‖ ^ 2 : ℝ) : ℂ)) := by
    rw [VP.total hE, g1, g2, ← sum_add_distrib]
  refine ⟨E1 + E2, _, tot, rfl, ?_⟩
  clear hC' hε' p1 p2 r1 r2 cutC hvw' near hεc hb hvw hvC hwC f1 f2 g1 g2 tot
  have K0 : (0 : ℝ) ≤ c.scoef1.vec.length := by positivity
  generalize (c.scoef1.vec.length : ℝ) * 2 ^ (-990 : ℤ) = t at *
  have U0 : (0 : ℝ) ≤ 2 ^ (-52 : ℤ) := by positivity
  generalize (2 : ℝ) ^ (-52 : ℤ) = U at *
  generalize (c.scoef1.vec.length : ℝ) = K at *
  have hδ : δ1 + δ2 ≤ 2 * ε * (√(2 * K * (E1 + E2)) + K * ε) := by
    have q := mul_le_mul_of_nonneg_left (two_sqrt K0 E10 E20) ε0
    rw [d1, d2]
    linarith
  generalize 2 * ε * (√(2 * K * (E1 + E2)) + K * ε) = δ at *
  have hU : (K + 6) * U * (δ1 + δ2) ≤ (K + 6) * U * δ := mul_le_mul_of_nonneg_left hδ (by positivity)
  have a1 := abs_le.mp b1
  have a2 := abs_le.mp b2
  have a1' := abs_le.mp b1'
  have a2' := abs_le.mp b2'
  have a3 := abs_le.mp b1''
  have a4 := abs_le.mp b2''
  refine ⟨abs_le.mpr ⟨?_, ?_⟩, abs_le.mpr ⟨?_, ?_⟩, abs_le.mpr ⟨?_, ?_⟩⟩ <;> linarith

end PV

/-- C138, one set: the sum of `scoef1.power()` and `scoef2.power()` computed in doubles is the energy of the field with the stored coefficients, up to rounding. -/
theorem c138_power (hr : IsRounding rnd) (h : FC rnd → ℝ) (hh : IsHypotAll rnd h) (c : VectorCoefs (FC rnd)) (hc : c.WellFormed)
    (z1 : readMap c.scoef1 0 0 = some 0) (z2 : readMap c.scoef2 0 0 = some 0) (v w : ℤ → ℤ → FC rnd)
    (hvw : ∀ n m, IsMode c.nmax c.mmax n m → n ≠ 0 → readMapV c n m = some (v n m, w n m)) (hl1 : ∀ z ∈ c.scoef1.vec, fcAbs z ≤ 2 ^ (400 : ℤ)) (hl2 : ∀ z ∈ c.scoef2.vec, fcAbs z ≤ 2 ^ (400 : ℤ))
    (hN : c.scoef1.vec.length ≤ 2 ^ 50) (Eθ Eφ : ℝ → ℝ → ℂ) (hE : JacksonField c.nmax c.mmax (fun n m => FS.val (v n m)) (fun n m => FS.val (w n m)) Eθ Eφ)
    (s₁ s₂ : ℝ) (hs1 : FloatPower rnd h c.scoef1 s₁) (hs2 : FloatPower rnd h c.scoef2 s₂) :
    ∃ E : ℝ, (E : ℂ) = sphInt (fun θ φ => ((‖Eθ θ φ‖ ^ 2 : ℝ) : ℂ)) + sphInt (fun θ φ => ((‖Eφ θ φ‖ ^ 2 : ℝ) : ℂ)) ∧
      |s₁ + s₂ - E| ≤ (c.scoef1.vec.length + 6) * 2 ^ (-52 : ℤ) * E + 2 * (c.scoef1.vec.length * 2 ^ (-990 : ℤ)) := by
  obtain ⟨p1, p2⟩ := PV.parts c hc z1 z2 v w hvw
  have len : c.scoef2.vec.length = c.scoef1.vec.length := by rw [hc.wf1.length_eq, hc.wf2.length_eq, hc.n1, hc.n2, hc.m1, hc.m2]
  obtain ⟨E1, f1, b1⟩ := c135_power hr h hh c.scoef1 hc.wf1 _ p1 hl1 hN s₁ hs1
  obtain ⟨E2, f2, b2⟩ := c135_power hr h hh c.scoef2 hc.wf2 _ p2 hl2 (by omega) s₂ hs2
  rw [len] at b2
  rw [sphInt_series, hc.n1, hc.m1, PV.sum_cut] at f1
  rw [sphInt_series, hc.n2, hc.m2, PV.sum_cut] at f2
  have g1 : E1 = _ := Complex.ofReal_injective f1
  have g2 : E2 = _ := Complex.ofReal_injective f2
  refine ⟨E1 + E2, by rw [VP.total hE, g1, g2, ← sum_add_distrib], ?_⟩
  clear hl1 hl2 f1 f2 g1 g2
  generalize (c.scoef1.vec.length : ℝ) * 2 ^ (-990 : ℤ) = t at *
  generalize (2 : ℝ) ^ (-52 : ℤ) = U at *
  have a1 := abs_le.mp b1
  have a2 := abs_le.mp b2
  refine abs_le.mpr ⟨?_, ?_⟩ <;> linarith

/-- C138, no monopole: whatever doubles the FFT and sums produce, a set returned by `vspht` has monopole entries 0. -/
theorem c138_mono (hr : IsRounding rnd) (lib : Fl.NumLib rnd) (b : Backend) (p : TPatt (FC rnd)) (N M : ℕ) (c : VectorCoefs (FC rnd)) (e : Fl.vspht rnd lib b p (some N) (some M) = .ok c) :
    readMap c.scoef1 0 0 = some 0 ∧ readMap c.scoef2 0 0 = some 0 := by
  unfold Fl.vspht at e
  have e4 : ∀ (a b : Res ℕ) (K : ℕ) {β : Type} (f : Int × Int → Res β), (sphtArgs a b (some (N : ℤ)) (some (K : ℤ))).bind f = f ((N : ℤ), (K : ℤ)) := fun _ _ _ _ _ => rfl
  rw [e4] at e
  simp only at e
  obtain ⟨a, -, e⟩ := FK.bind_inv e
  obtain ⟨ft, h2, e⟩ := FK.bind_inv e
  obtain ⟨pt, h3, e⟩ := FK.bind_inv e
  obtain ⟨l1, h4, e⟩ := FK.bind_inv e
  obtain ⟨l2, h5, e⟩ := FK.bind_inv e
  obtain ⟨v1, h6, e⟩ := FK.bind_inv e
  obtain ⟨v2, h7, e⟩ := FK.bind_inv e
  exact PV.vtail_mono hr e

/-- C138, no monopole, with the compiled extension and its kiss_fft. -/
theorem c138_kmono (hr : IsRounding rnd) (lib : Fl.NumLib rnd) (lm : Fl.LibM) (J : ℕ → CJunk) (p : TPatt (FC rnd)) (N M : ℕ) (c : VectorCoefs (FC rnd))
    (e : Fl.kVspht rnd lib lm J p (some N) (some M) = .ok c) : readMap c.scoef1 0 0 = some 0 ∧ readMap c.scoef2 0 0 = some 0 := by
  unfold Fl.kVspht at e
  have e4 : ∀ (a b : Res ℕ) (K : ℕ) {β : Type} (f : Int × Int → Res β), (sphtArgs a b (some (N : ℤ)) (some (K : ℤ))).bind f = f ((N : ℤ), (K : ℤ)) := fun _ _ _ _ _ => rfl
  rw [e4] at e
  simp only at e
  obtain ⟨a, -, e⟩ := FK.bind_inv e
  obtain ⟨ft, h2, e⟩ := FK.bind_inv e
  obtain ⟨pt, h3, e⟩ := FK.bind_inv e
  obtain ⟨l1, h4, e⟩ := FK.bind_inv e
  obtain ⟨l2, h5, e⟩ := FK.bind_inv e
  obtain ⟨v1, h6, e⟩ := FK.bind_inv e
  obtain ⟨v2, h7, e⟩ := FK.bind_inv e
  exact PV.vtail_mono hr e

/-- C138: synthesis followed by analysis of a vector set, all in doubles, keeps the energy. -/
theorem c138_vround_trip (hrd : NoOverflow rnd) (lm : Fl.Libm) (hl : LibmOK lm) (np : Fl.Fft1 rnd) (sum : List (FC rnd) → FC rnd) (hsum : SumOK sum) (b : Backend) (c : VectorCoefs (FC rnd)) (hc : c.WellFormed)
    (N M : ℕ) (hn : c.nmax = N) (hm : c.mmax = M) (hN : N ≤ 1000) (z1 : readMap c.scoef1 0 0 = some 0) (z2 : readMap c.scoef2 0 0 = some 0) (v w : ℤ → ℤ → FC rnd)
    (hvw : ∀ n m, IsMode c.nmax c.mmax n m → n ≠ 0 → readMapV c n m = some (v n m, w n m)) (C : ℝ) (hC : 2 ^ (-690 : ℤ) ≤ C) (hC' : C ≤ 2 ^ (300 : ℤ))
    (hvC : ∀ n m, IsMode c.nmax c.mmax n m → n ≠ 0 → |(v n m).re| ≤ C ∧ |(v n m).im| ≤ C) (hwC : ∀ n m, IsMode c.nmax c.mmax n m → n ≠ 0 → |(w n m).re| ≤ C ∧ |(w n m).im| ≤ C)
    (nr nc : ℤ) (h1 : c.nmax + 2 ≤ nr) (h2 : 2 * c.mmax + 2 ≤ nc) (h3 : nc % 2 = 0) (hsz : nr ≤ 2 ^ 27) (hsz2 : (2 * nr - 2) * nc < 2 ^ 53)
    (κ : ℝ) (hκ : 2 ^ (-45 : ℤ) ≤ κ) (hε : uvisphtErr (2 * nr - 2).toNat nc.toNat N M κ C ≤ (N + 1) ^ 2 * C / 5)
    (hκ2 : 400 * Nat.log 2 (4 * (2 * nr - 2).toNat) * Real.sqrt (((2 * nr - 2).toNat : ℝ) + 1) * κ ≤ 1) (hnp : FftOK np κ (2 * nr - 2).toNat nc.toNat)
    (ε : ℝ) (ε0 : 0 ≤ ε) (hε1 : ∀ n : ℤ, 1 ≤ n → n ≤ N → uvrtErr (2 * nr - 2).toNat nc.toNat N M κ C n ≤ ε) (hε2 : ε ≤ 2 ^ (399 : ℤ)) (h : FC rnd → ℝ) (hh : IsHypotAll rnd h)
    (Eθ Eφ : ℝ → ℝ → ℂ) (hE : JacksonField c.nmax c.mmax (fun n m => FS.val (v n m)) (fun n m => FS.val (w n m)) Eθ Eφ) :
    ∃ p ch, Fl.vispht rnd (Fl.pow1j rnd lm) (Fl.visphtPost rnd (Fl.ifft2Scaled rnd np)) b c (some nr) (some nc) = .ok p ∧
      Fl.vspht rnd (Fl.npLib rnd lm np sum) .py p (some c.nmax) (some c.mmax) = .ok ch ∧
      ∀ s₁ s₂ s₁' s₂', FloatPower rnd h c.scoef1 s₁ → FloatPower rnd h c.scoef2 s₂ → FloatPower rnd h ch.scoef1 s₁' → FloatPower rnd h ch.scoef2 s₂' →
        ∃ E δ : ℝ, (E : ℂ) = sphInt (fun θ φ => ((‖Eθ θ φ‖ ^ 2 : ℝ) : ℂ)) + sphInt (fun θ φ => ((‖Eφ θ φ‖ ^ 2 : ℝ) : ℂ)) ∧
          δ = 2 * ε * (√(2 * c.scoef1.vec.length * E) + c.scoef1.vec.length * ε) ∧
          |s₁ + s₂ - E| ≤ (c.scoef1.vec.length + 6) * 2 ^ (-52 : ℤ) * E + 2 * (c.scoef1.vec.length * 2 ^ (-990 : ℤ)) ∧
          |s₁' + s₂' - E| ≤ δ + (c.scoef1.vec.length + 6) * 2 ^ (-52 : ℤ) * (E + δ) + 2 * (c.scoef1.vec.length * 2 ^ (-990 : ℤ)) ∧
          |(s₁' + s₂') - (s₁ + s₂)| ≤ δ + (c.scoef1.vec.length + 6) * 2 ^ (-52 : ℤ) * (2 * E + δ) + 4 * (c.scoef1.vec.length * 2 ^ (-990 : ℤ)) := by
  obtain ⟨p, ch, e1, e2, wf, en, em, hb⟩ := c107_vround_trip hrd lm hl np sum hsum b c hc N M hn hm hN v w hvw C hC hC' hvC hwC nr nc h1 h2 h3 hsz hsz2 κ hκ hε hκ2 hnp
  obtain ⟨y1, y2⟩ := c138_mono hrd.toIsRounding _ _ _ N M ch (by rw [← hn, ← hm]; exact e2)
  exact ⟨p, ch, e1, e2, fun s₁ s₂ s₁' s₂' k1 k2 k3 k4 => PV.vtrip hrd.toIsRounding h hh c ch hc N hn hN z1 z2 y1 y2 v w hvw C ((by positivity : (0 : ℝ) ≤ 2 ^ (-690 : ℤ)).trans hC) hC' hvC hwC wf en em _ hb ε ε0
    hε1 hε2 Eθ Eφ hE s₁ s₂ s₁' s₂' k1 k2 k3 k4⟩

/-- C138: the same with the analysis done by the compiled extension and its kiss_fft. -/
theorem c138_kvround_trip (hrd : NoOverflow rnd) {lm : Fl.LibM} (hl : LibMWithin lm) (J : ℕ → CJunk) (np : Fl.Fft1 rnd) (lib : Fl.NumLib rnd) (hlib : lib.fft = Fl.fft2Norm rnd np) (b : Backend) (c : VectorCoefs (FC rnd)) (hc : c.WellFormed)
    (N M : ℕ) (hn : c.nmax = N) (hm : c.mmax = M) (hj : PowOK b M lib.jp) (hN : N ≤ 1000) (z1 : readMap c.scoef1 0 0 = some 0) (z2 : readMap c.scoef2 0 0 = some 0) (v w : ℤ → ℤ → FC rnd)
    (hvw : ∀ n m, IsMode c.nmax c.mmax n m → n ≠ 0 → readMapV c n m = some (v n m, w n m)) (C : ℝ) (hC : 2 ^ (-690 : ℤ) ≤ C) (hC' : C ≤ 2 ^ (300 : ℤ))
    (hvC : ∀ n m, IsMode c.nmax c.mmax n m → n ≠ 0 → |(v n m).re| ≤ C ∧ |(v n m).im| ≤ C) (hwC : ∀ n m, IsMode c.nmax c.mmax n m → n ≠ 0 → |(w n m).re| ≤ C ∧ |(w n m).im| ≤ C)
    (nr nc : ℤ) (h1 : c.nmax + 2 ≤ nr) (h2 : 2 * c.mmax + 2 ≤ nc) (h3 : nc % 2 = 0) (hsz : nr ≤ 2 ^ 27) (hsz2 : (2 * nr - 2) * nc < 2 ^ 53)
    (κ : ℝ) (hκ : 2 ^ (-45 : ℤ) ≤ κ) (hε : uvisphtErr (2 * nr - 2).toNat nc.toNat N M κ C ≤ (N + 1) ^ 2 * C / 5)
    (hκ2 : 1200 * Real.sqrt (((2 * nr - 2).toNat : ℝ) + 1) * κ ≤ 1) (hp1 : Fft1Within np κ (2 * nr - 2).toNat) (hp2 : Fft1Within np κ nc.toNat)
    (ε : ℝ) (ε0 : 0 ≤ ε) (hε1 : ∀ n : ℤ, 1 ≤ n → n ≤ N → ukvrtErr (2 * nr - 2).toNat nc.toNat N M κ C n ≤ ε) (hε2 : ε ≤ 2 ^ (399 : ℤ)) (h : FC rnd → ℝ) (hh : IsHypotAll rnd h)
    (Eθ Eφ : ℝ → ℝ → ℂ) (hE : JacksonField c.nmax c.mmax (fun n m => FS.val (v n m)) (fun n m => FS.val (w n m)) Eθ Eφ) :
    ∃ p ch, Fl.vispht rnd lib.jp (Fl.visphtPost rnd (Fl.ifft2Scaled rnd np)) b c (some nr) (some nc) = .ok p ∧
      Fl.kVspht rnd lib lm J p (some c.nmax) (some c.mmax) = .ok ch ∧
      ∀ s₁ s₂ s₁' s₂', FloatPower rnd h c.scoef1 s₁ → FloatPower rnd h c.scoef2 s₂ → FloatPower rnd h ch.scoef1 s₁' → FloatPower rnd h ch.scoef2 s₂' →
        ∃ E δ : ℝ, (E : ℂ) = sphInt (fun θ φ => ((‖Eθ θ φ‖ ^ 2 : ℝ) : ℂ)) + sphInt (fun θ φ => ((‖Eφ θ φ‖ ^ 2 : ℝ) : ℂ)) ∧
          δ = 2 * ε * (√(2 * c.scoef1.vec.length * E) + c.scoef1.vec.length * ε) ∧
          |s₁ + s₂ - E| ≤ (c.scoef1.vec.length + 6) * 2 ^ (-52 : ℤ) * E + 2 * (c.scoef1.vec.length * 2 ^ (-990 : ℤ)) ∧
          |s₁' + s₂' - E| ≤ δ + (c.scoef1.vec.length + 6) * 2 ^ (-52 : ℤ) * (E + δ) + 2 * (c.scoef1.vec.length * 2 ^ (-990 : ℤ)) ∧
          |(s₁' + s₂') - (s₁ + s₂)| ≤ δ + (c.scoef1.vec.length + 6) * 2 ^ (-52 : ℤ) * (2 * E + δ) + 4 * (c.scoef1.vec.length * 2 ^ (-990 : ℤ)) := by
  obtain ⟨p, ch, e1, e2, wf, en, em, hb⟩ := c107_kvround_trip hrd hl J np lib hlib b c hc N M hn hm hj hN v w hvw C hC hC' hvC hwC nr nc h1 h2 h3 hsz hsz2 κ hκ hε hκ2 hp1 hp2
  obtain ⟨y1, y2⟩ := c138_kmono hrd.toIsRounding _ _ _ _ N M ch (by rw [← hn, ← hm]; exact e2)
  exact ⟨p, ch, e1, e2, fun s₁ s₂ s₁' s₂' k1 k2 k3 k4 => PV.vtrip hrd.toIsRounding h hh c ch hc N hn hN z1 z2 y1 y2 v w hvw C ((by positivity : (0 : ℝ) ≤ 2 ^ (-690 : ℤ)).trans hC) hC' hvC hwC wf en em _ hb ε ε0
    hε1 hε2 Eθ Eφ hE s₁ s₂ s₁' s₂' k1 k2 k3 k4⟩

/-- Not vacuous: the hypotheses hold for a vector set with six nonzero complex coefficients on a 5 by 8 grid, with both back ends. -/
theorem c138_example : ∃ (rnd : ℝ → ℝ) (lm : Fl.Libm) (lm' : Fl.LibM) (np : Fl.Fft1 rnd) (sum : List (FC rnd) → FC rnd) (h : FC rnd → ℝ) (c : VectorCoefs (FC rnd)) (Eθ Eφ : ℝ → ℝ → ℂ) (p : TPatt (FC rnd))
    (ch ck : VectorCoefs (FC rnd)), NoOverflow rnd ∧ IsHypotAll rnd h ∧ c.WellFormed ∧ c.scoef1.vec = [0, ⟨1, 1⟩, ⟨2, 1⟩, ⟨3, 1⟩] ∧ c.scoef2.vec = [0, ⟨5, 1⟩, ⟨6, 1⟩, ⟨7, 1⟩] ∧
    (∃ s₁ s₂, FloatPower rnd h c.scoef1 s₁ ∧ FloatPower rnd h c.scoef2 s₂) ∧
    JacksonField 1 1 (fun n m => FS.val ((readMapV c n m).getD (0, 0)).1) (fun n m => FS.val ((readMapV c n m).getD (0, 0)).2) Eθ Eφ ∧
    Fl.vispht rnd (Fl.pow1j rnd lm) (Fl.visphtPost rnd (Fl.ifft2Scaled rnd np)) .py c (some 5) (some 8) = .ok p ∧ Fl.vspht rnd (Fl.npLib rnd lm np sum) .py p (some 1) (some 1) = .ok ch ∧
    Fl.kVspht rnd (Fl.npLib rnd lm np sum) lm' (fun _ => ⟨fun _ => 0, fun _ => 0, fun _ => 0⟩) p (some 1) (some 1) = .ok ck ∧
    ∀ s₁ s₂ s₁' s₂' t₁ t₂, FloatPower rnd h c.scoef1 s₁ → FloatPower rnd h c.scoef2 s₂ → FloatPower rnd h ch.scoef1 s₁' → FloatPower rnd h ch.scoef2 s₂' → FloatPower rnd h ck.scoef1 t₁ → FloatPower rnd h ck.scoef2 t₂ →
      ∃ E δ : ℝ, (E : ℂ) = sphInt (fun θ φ => ((‖Eθ θ φ‖ ^ 2 : ℝ) : ℂ)) + sphInt (fun θ φ => ((‖Eφ θ φ‖ ^ 2 : ℝ) : ℂ)) ∧ δ = 2 * 2 ^ (-12 : ℤ) * (√(8 * E) + 4 * 2 ^ (-12 : ℤ)) ∧
        |(s₁' + s₂') - (s₁ + s₂)| ≤ δ + 10 * 2 ^ (-52 : ℤ) * (2 * E + δ) + 4 * (4 * 2 ^ (-990 : ℤ)) ∧ |(t₁ + t₂) - (s₁ + s₂)| ≤ δ + 10 * 2 ^ (-52 : ℤ) * (2 * E + δ) + 4 * (4 * 2 ^ (-990 : ℤ)) := by
  obtain ⟨rnd, h⟩ := noOverflow_exists
  have hr := h.toIsRounding
  have hl := FU.libmOK_rnd hr
  have hl' := libMWithin_rnd hr
  have ok := FU.fftOK_good hr
  obtain ⟨C7, C8⟩ := FU.c8
  obtain ⟨c, hcd⟩ : ∃ c : VectorCoefs (FC rnd), c = ⟨⟨[0, ⟨1, 1⟩, ⟨2, 1⟩, ⟨3, 1⟩], 1, 1⟩, ⟨[0, ⟨5, 1⟩, ⟨6, 1⟩, ⟨7, 1⟩], 1, 1⟩, 1, 1⟩ := ⟨_, rfl⟩
  have w1 : c.scoef1.WF := by subst hcd; exact ⟨by norm_num, by norm_num, rfl⟩
  have w2 : c.scoef2.WF := by subst hcd; exact ⟨by norm_num, by norm_num, rfl⟩
  have hn : c.nmax = ((1 : ℕ) : ℤ) := by subst hcd; rfl
  have hm : c.mmax = ((1 : ℕ) : ℤ) := by subst hcd; rfl
  have hc : c.WellFormed := ⟨ScalarCoefs.wf_iff.mp w1, ScalarCoefs.wf_iff.mp w2, by subst hcd; rfl, by subst hcd; rfl, by subst hcd; rfl, by subst hcd; rfl⟩
  have hx : ∀ n m, IsMode c.nmax c.mmax n m → n ≠ 0 → ∃ x y, readMapV c n m = some (x, y) ∧ x ∈ c.scoef1.vec ∧ y ∈ c.scoef2.vec := by
    intro n m hmo n0
    have m1 : IsMode c.scoef1.nmax c.scoef1.mmax n m := by rw [hc.n1, hc.m1]; exact hmo
    have m2 : IsMode c.scoef2.nmax c.scoef2.mmax n m := by rw [hc.n2, hc.m2]; exact hmo
    rw [readMapV_eq hc, if_neg n0, ScalarCoefs.absMap_mode w1 m1, ScalarCoefs.absMap_mode w2 m2]
    exact ⟨_, _, rfl, List.getElem_mem _, List.getElem_mem _⟩
  have hall : (∀ z ∈ c.scoef1.vec, |z.re| ≤ 8 ∧ |z.im| ≤ 8) ∧ ∀ z ∈ c.scoef2.vec, |z.re| ≤ 8 ∧ |z.im| ≤ 8 := by
    subst hcd
    constructor <;> intro z hz <;> simp only [List.mem_cons, List.not_mem_nil, or_false] at hz <;> rcases hz with rfl | rfl | rfl | rfl <;> first | exact ⟨(le_of_eq abs_zero).trans (by norm_num), (le_of_eq abs_zero).trans (by norm_num)⟩ | norm_num
  have hvw : ∀ n m, IsMode c.nmax c.mmax n m → n ≠ 0 → readMapV c n m = some (((readMapV c n m).getD (0, 0)).1, ((readMapV c n m).getD (0, 0)).2) := by
    intro n m a1 a2
    obtain ⟨x, y, h1, -, -⟩ := hx n m a1 a2
    rw [h1]; rfl
  have hvC : ∀ n m, IsMode c.nmax c.mmax n m → n ≠ 0 → |((readMapV c n m).getD (0, 0)).1.re| ≤ 8 ∧ |((readMapV c n m).getD (0, 0)).1.im| ≤ 8 := by
    intro n m a1 a2
    obtain ⟨x, y, h1, h2, -⟩ := hx n m a1 a2
    simp only [h1]; exact hall.1 x h2
  have hwC : ∀ n m, IsMode c.nmax c.mmax n m → n ≠ 0 → |((readMapV c n m).getD (0, 0)).2.re| ≤ 8 ∧ |((readMapV c n m).getD (0, 0)).2.im| ≤ 8 := by
    intro n m a1 a2
    obtain ⟨x, y, h1, -, h2⟩ := hx n m a1 a2
    simp only [h1]; exact hall.2 y h2
  have hj := (pow1j_near h _ hl).mono (show 1 ≤ 1000 by norm_num)
  have s2 := FU.row_le (x := ((1 : ℕ) : ℝ)) (by norm_num)
  have s20 : 0 ≤ Real.sqrt ((2 * ((1 : ℕ) : ℝ) + 1) / (4 * Real.pi)) := Real.sqrt_nonneg _
  have si : uvisphtErr 8 8 1 1 (2 ^ (-45 : ℤ)) 8 ≤ 1 / 80000000 := by
    unfold uvisphtErr
    generalize Real.sqrt ((2 * ((1 : ℕ) : ℝ) + 1) / (4 * Real.pi)) = R at s2 s20
    norm_num
    linarith
  have s0 : 0 ≤ uvisphtErr 8 8 1 1 (2 ^ (-45 : ℤ)) 8 := by unfold uvisphtErr; positivity
  have hε : uvisphtErr (2 * (5 : ℤ) - 2).toNat (8 : ℤ).toNat 1 1 (2 ^ (-45 : ℤ)) 8 ≤ (((1 : ℕ) : ℝ) + 1) ^ 2 * 8 / 5 := si.trans (by norm_num)
  have bnd : uvrtErr 8 8 1 1 (2 ^ (-45 : ℤ)) 8 1 ≤ 2 ^ (-12 : ℤ) ∧ ukvrtErr 8 8 1 1 (2 ^ (-45 : ℤ)) 8 1 ≤ 2 ^ (-12 : ℤ) := by
    clear C7 C8 hε
    have e45 : (2 : ℝ) ^ (-45 : ℤ) = 1 / 35184372088832 := by norm_num
    have e42 : (2 : ℝ) ^ (-42 : ℤ) = 1 / 4398046511104 := by norm_num
    have e34 : (2 : ℝ) ^ (-34 : ℤ) = 1 / 17179869184 := by norm_num
    have e12 : (2 : ℝ) ^ (-12 : ℤ) = 1 / 4096 := by norm_num
    have s1 := FU.row_le (x := ((1 : ℤ) : ℝ)) (by norm_num)
    have v1 : 1 / Real.sqrt (((1 : ℤ) : ℝ) * (((1 : ℤ) : ℝ) + 1)) ≤ 1 := by
      rw [div_le_one (by positivity), Real.one_le_sqrt]
      norm_num
    have b1 : uvrtErr 8 8 1 1 (2 ^ (-45 : ℤ)) 8 1 ≤ 2 ^ (-12 : ℤ) := by
      unfold uvrtErr
      rw [FU.r9, FU.l9]
      generalize uvisphtErr 8 8 1 1 (2 ^ (-45 : ℤ)) 8 = E at *
      refine (mul_le_mul v1 (mul_le_mul s1 le_rfl (by positivity) (by norm_num)) (by positivity) (by norm_num)).trans ?_
      rw [e45, e42, e12]
      push_cast
      norm_num
      linarith
    have b2 : ukvrtErr 8 8 1 1 (2 ^ (-45 : ℤ)) 8 1 ≤ 2 ^ (-12 : ℤ) := by
      unfold ukvrtErr
      rw [FU.r9, FU.l9]
      generalize uvisphtErr 8 8 1 1 (2 ^ (-45 : ℤ)) 8 = E at *
      refine (mul_le_mul v1 (mul_le_mul s1 le_rfl (by positivity) (by norm_num)) (by positivity) (by norm_num)).trans ?_
      rw [e45, e42, e34, e12]
      push_cast
      norm_num
      linarith
    exact ⟨b1, b2⟩
  have hh : IsHypotAll rnd (fcAbs (rnd := rnd)) := ⟨⟨fcAbs_zero, fun w _ _ => by unfold fcAbs; simp⟩, fun w hw => ⟨Real.sqrt_nonneg _, hw.trans (zpow_le_zpow_right₀ (by norm_num) (by norm_num))⟩⟩
  have t12 : (2 : ℝ) ^ (-12 : ℤ) ≤ 2 ^ (399 : ℤ) := zpow_le_zpow_right₀ (by norm_num) (by norm_num)
  have only : ∀ (f : ℤ → ℝ), f 1 ≤ 2 ^ (-12 : ℤ) → ∀ n : ℤ, 1 ≤ n → n ≤ ((1 : ℕ) : ℤ) → f n ≤ 2 ^ (-12 : ℤ) := by
    intro f hf n a b
    obtain rfl : n = 1 := by push_cast at b; omega
    exact hf
  have z1 : readMap c.scoef1 0 0 = some 0 := by subst hcd; rfl
  have z2 : readMap c.scoef2 0 0 = some 0 := by subst hcd; rfl
  obtain ⟨cc, hcc, hcn, hcm, hcv, -, -⟩ := exists_coefsV c.nmax c.mmax (by rw [hm]; norm_num) (by rw [hm, hn]) (fun n m => FS.val ((readMapV c n m).getD (0, 0)).1) (fun n m => FS.val ((readMapV c n m).getD (0, 0)).2)
  obtain ⟨-, Eθ, Eφ, -, hJ, -⟩ := c50_vispht .py cc hcc _ _ hcv 5 8 (by rw [hcn, hn]; norm_num) (by rw [hcm, hm]; norm_num) (by norm_num)
  rw [hcn, hcm] at hJ
  obtain ⟨p, ch, f1, f2, f3⟩ := c138_vround_trip h _ hl (FP.goodFft rnd) (FA.goodLib rnd).sum FA.goodLib_sum .py c hc 1 1 hn hm (by norm_num) z1 z2 _ _ hvw 8 C7 C8 hvC hwC 5 8
    (by rw [hn]; norm_num) (by rw [hm]; norm_num) (by norm_num) (by norm_num) (by norm_num) (2 ^ (-45 : ℤ)) le_rfl hε
    (by show 400 * (Nat.log 2 (4 * 8) : ℝ) * Real.sqrt (((8 : ℕ) : ℝ) + 1) * 2 ^ (-45 : ℤ) ≤ 1
        rw [FU.r9, FU.l9]; norm_num) ok (2 ^ (-12 : ℤ)) (by positivity) (only _ bnd.1) t12 fcAbs hh Eθ Eφ hJ
  obtain ⟨p', ck, g1, g2, g3⟩ := c138_kvround_trip h hl' (fun _ => ⟨fun _ => 0, fun _ => 0, fun _ => 0⟩) (FP.goodFft rnd)
    (Fl.npLib rnd ⟨rnd (Real.pi / 2), fun x => rnd (Real.cos x), fun x => rnd (Real.sin x)⟩ (FP.goodFft rnd) (FA.goodLib rnd).sum) rfl .py c hc 1 1 hn hm (fun _ => hj) (by norm_num) z1 z2 _ _ hvw 8 C7 C8 hvC hwC 5 8
    (by rw [hn]; norm_num) (by rw [hm]; norm_num) (by norm_num) (by norm_num) (by norm_num) (2 ^ (-45 : ℤ)) le_rfl hε
    (by show 1200 * Real.sqrt (((8 : ℕ) : ℝ) + 1) * 2 ^ (-45 : ℤ) ≤ 1
        rw [FU.r9]; norm_num) ok.rows ok.cols (2 ^ (-12 : ℤ)) (by positivity) (only _ bnd.2) t12 fcAbs hh Eθ Eφ hJ
  have g1' : Fl.vispht rnd (Fl.pow1j rnd ⟨rnd (Real.pi / 2), fun x => rnd (Real.cos x), fun x => rnd (Real.sin x)⟩) (Fl.visphtPost rnd (Fl.ifft2Scaled rnd (FP.goodFft rnd))) .py c (some 5) (some 8) = .ok p' := g1
  rw [f1] at g1'
  cases g1'
  have cl : c.scoef1.vec.length = 4 := by subst hcd; rfl
  rw [hn, hm] at f2 g2 hJ
  refine ⟨rnd, _, _, FP.goodFft rnd, (FA.goodLib rnd).sum, fcAbs, c, Eθ, Eφ, p, ch, ck, h, hh, hc, by subst hcd; rfl, by subst hcd; rfl, ?_, hJ, f1, f2, g2, fun s₁ s₂ s₁' s₂' t₁ t₂ q1 q2 q3 q4 q5 q6 => ?_⟩
  · subst hcd
    exact ⟨_, _, NpSum.add (l := [_, _]) (NpSum.add (l := [_]) (NpSum.one _) (NpSum.one _)) (NpSum.add (l := [_]) (NpSum.one _) (NpSum.one _)),
      NpSum.add (l := [_, _]) (NpSum.add (l := [_]) (NpSum.one _) (NpSum.one _)) (NpSum.add (l := [_]) (NpSum.one _) (NpSum.one _))⟩
  obtain ⟨E, δ, i1, i2, -, -, i3⟩ := f3 s₁ s₂ s₁' s₂' q1 q2 q3 q4
  obtain ⟨E', δ', j1, j2, -, -, j3⟩ := g3 s₁ s₂ t₁ t₂ q1 q2 q5 q6
  have j1' := j1
  rw [← i1] at j1'
  obtain rfl : E' = E := Complex.ofReal_injective j1'
  rw [← i2] at j2
  subst j2
  have c10 : ((4 : ℕ) : ℝ) + 6 = 10 := by norm_num
  have c4 : ((4 : ℕ) : ℝ) = 4 := by norm_num
  have c8 : (2 : ℝ) * 4 = 8 := by norm_num
  rw [cl] at i2 i3 j3
  rw [c10, c4] at i3 j3
  rw [c4, c8] at i2
  exact ⟨E', δ', i1, i2, i3, j3⟩

end Verif.Props
