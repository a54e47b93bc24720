import Verif.Props.FloatUser4
import Verif.Props.FloatPower2
import Verif.Props.Transforms2
/-!
# C135: Parseval in doubles
-/
namespace Verif.Props
open Verif Finset

variable {rnd : ℝ → ℝ}

namespace PV

theorem fcAbs_val (z : FC rnd) : fcAbs z = ‖FS.val z‖ := by
  unfold fcAbs
  rw [Complex.norm_def, Complex.normSq_apply]
  congr 1
  show z.re ^ 2 + z.im ^ 2 = z.re * z.re + z.im * z.im
  ring

theorem power_eq (c : ScalarCoefs (FC rnd)) (hc : c.WellFormed) (w : ℤ → ℤ → FC rnd) (hw : ∀ n m, IsMode c.nmax c.mmax n m → readMap c n m = some (w n m)) :
    c.power fcAbs = ∑ p ∈ modes c.nmax c.mmax, ‖FS.val (w p.1 p.2)‖ ^ 2 := by
  obtain ⟨-, -, -, -, -, e⟩ := c13_power (fcAbs (rnd := rnd)) c hc
  rw [e]
  refine sum_congr rfl fun p hp => ?_
  rw [hw p.1 p.2 (mem_modes.mp hp)]
  show fcAbs (w p.1 p.2) ^ 2 = _
  rw [fcAbs_val]

/-- Perturbing each of `K` values by at most `ε` changes the sum of squares `E` by at most `ε (2 √(K E) + K ε)`. -/
theorem perturb {ι : Type} (S : Finset ι) (a b : ι → ℂ) (ε : ℝ) (h0 : 0 ≤ ε) (h : ∀ i ∈ S, ‖a i - b i‖ ≤ ε) :
    |∑ i ∈ S, ‖a i‖ ^ 2 - ∑ i ∈ S, ‖b i‖ ^ 2| ≤ ε * (2 * √(S.card * ∑ i ∈ S, ‖b i‖ ^ 2) + S.card * ε) := by
  have h1 : ∀ i ∈ S, |‖a i‖ ^ 2 - ‖b i‖ ^ 2| ≤ ε * (2 * ‖b i‖) + ε * ε := by
    intro i hi
    have d : |‖a i‖ - ‖b i‖| ≤ ε := (abs_norm_sub_norm_le _ _).trans (h i hi)
    have s : |‖a i‖ + ‖b i‖| ≤ 2 * ‖b i‖ + ε := by
      rw [abs_of_nonneg (by positivity)]
      have := (abs_le.mp d).2
      linarith
    rw [show ‖a i‖ ^ 2 - ‖b i‖ ^ 2 = (‖a i‖ - ‖b i‖) * (‖a i‖ + ‖b i‖) by ring, abs_mul]
    calc _ ≤ ε * (2 * ‖b i‖ + ε) := mul_le_mul d s (abs_nonneg _) h0
      _ = _ := by ring
  have h2 : ∑ i ∈ S, ‖b i‖ ≤ √(S.card * ∑ i ∈ S, ‖b i‖ ^ 2) :=
    Real.le_sqrt_of_sq_le (sq_sum_le_card_mul_sum_sq)
  rw [← sum_sub_distrib]
  calc |∑ i ∈ S, (‖a i‖ ^ 2 - ‖b i‖ ^ 2)| ≤ ∑ i ∈ S, |‖a i‖ ^ 2 - ‖b i‖ ^ 2| := abs_sum_le_sum_abs _ _
    _ ≤ ∑ i ∈ S, (ε * (2 * ‖b i‖) + ε * ε) := sum_le_sum h1
    _ = ε * (2 * ∑ i ∈ S, ‖b i‖) + S.card * (ε * ε) := by
        rw [sum_add_distrib, ← mul_sum, ← mul_sum, sum_const, nsmul_eq_mul]
    _ ≤ ε * (2 * √(S.card * ∑ i ∈ S, ‖b i‖ ^ 2)) + S.card * (ε * ε) := by gcongr
    _ = _ := by ring

/-- Values close to the coefficients of a function of bounded energy are bounded. -/
theorem bounded (ch : ScalarCoefs (FC rnd)) (hc : ch.WellFormed) (v : ℤ → ℤ → ℂ) (ε : ℝ) (hε' : ε ≤ 2 ^ (399 : ℤ))
    (hv : ∀ n m, IsMode ch.nmax ch.mmax n m → ∃ z, readMap ch n m = some z ∧ ‖FS.val z - v n m‖ ≤ ε) (hE : ∑ p ∈ modes ch.nmax ch.mmax, ‖v p.1 p.2‖ ^ 2 ≤ 2 ^ (798 : ℤ)) :
    ∀ z ∈ ch.vec, fcAbs z ≤ 2 ^ (400 : ℤ) := by
  intro z hz
  obtain ⟨i, hi, rfl⟩ := List.mem_iff_getElem.mp hz
  obtain ⟨n, m, hm, rfl⟩ : ∃ n m, IsMode ch.nmax ch.mmax n m ∧ slot ch.nmax n m = i :=
    slot_surj hc.wf.m0 hc.wf.mn (by rw [← hc.wf.len']; exact hi)
  obtain ⟨z, e, b⟩ := hv n m hm
  rw [readMap_eq hc.wf, ScalarCoefs.absMap_mode hc.wf hm] at e
  injection e with e
  rw [e, fcAbs_val]
  have h1 : ‖v n m‖ ^ 2 ≤ 2 ^ (798 : ℤ) :=
    (Finset.single_le_sum (f := fun p : ℤ × ℤ => ‖v p.1 p.2‖ ^ 2) (fun _ _ => by positivity) (mem_modes.mpr hm : (n, m) ∈ modes ch.nmax ch.mmax)).trans hE
  have h2 : ‖v n m‖ ≤ 2 ^ (399 : ℤ) := by
    refine le_of_sq_le_sq (h1.trans (le_of_eq ?_)) (by positivity)
    rw [← zpow_natCast, ← zpow_mul]
    norm_num
  have h3 : ‖FS.val z‖ ≤ ‖FS.val z - v n m‖ + ‖v n m‖ := by simpa using norm_add_le (FS.val z - v n m) (v n m)
  have e2 : (2 : ℝ) ^ (400 : ℤ) = 2 ^ (399 : ℤ) + 2 ^ (399 : ℤ) := by
    rw [show (400 : ℤ) = 1 + 399 by norm_num, zpow_one_add₀ (by norm_num)]
    ring
  rw [e2]
  exact h3.trans (add_le_add (b.trans hε') h2)

end PV

/-- `power()` computed in doubles is, up to the rounding error of C85 and at most `2^-990` per value lost to underflow, the integral over the sphere of `|f|²`, `f` the function with the stored coefficients. -/
theorem c135_power (hr : IsRounding rnd) (h : FC rnd → ℝ) (hh : IsHypotAll rnd h) (c : ScalarCoefs (FC rnd)) (hc : c.WellFormed) (w : ℤ → ℤ → FC rnd)
    (hw : ∀ n m, IsMode c.nmax c.mmax n m → readMap c n m = some (w n m)) (hl : ∀ z ∈ c.vec, fcAbs z ≤ 2 ^ (400 : ℤ)) (hN : c.vec.length ≤ 2 ^ 50) (s : ℝ) (hs : FloatPower rnd h c s) :
    ∃ E : ℝ, (E : ℂ) = sphInt (fun θ φ => ((‖shSeries c.nmax c.mmax (fun n m => FS.val (w n m)) θ φ‖ ^ 2 : ℝ) : ℂ)) ∧
      |s - E| ≤ (c.vec.length + 6) * 2 ^ (-52 : ℤ) * E + c.vec.length * 2 ^ (-990 : ℤ) := by
  refine ⟨_, (sphInt_series _ _ _).symm, ?_⟩
  have : |s - c.power fcAbs| ≤ (c.vec.length + 6) * 2 ^ (-52 : ℤ) * c.power fcAbs + c.vec.length * 2 ^ (-990 : ℤ) := PW.sum_sq_any hr hh c.vec hl hN hs
  rwa [PV.power_eq c hc w hw] at this

/-- The function of degree `n` in the series of `v`. -/
noncomputable def degreePart (v : ℤ → ℤ → ℂ) (n : ℤ) : ℤ → ℤ → ℂ := fun k m => if k = n then v k m else 0

/-- Entry `n` of `angular_power_spectrum()` computed in doubles is the integral of `|f_n|²`, `f_n` the part of degree `n` of the function, up to a relative rounding error. -/
theorem c135_spectrum (hr : IsRounding rnd) (h : FC rnd → ℝ) (hh : IsHypotAll rnd h) (c : ScalarCoefs (FC rnd)) (hc : c.WellFormed) (w : ℤ → ℤ → FC rnd)
    (hw : ∀ n m, IsMode c.nmax c.mmax n m → readMap c n m = some (w n m)) (hl : ∀ z ∈ c.vec, fcAbs z ≤ 2 ^ (400 : ℤ)) (hN : c.vec.length ≤ 2 ^ 50) (s : List ℝ) (hs : FloatSpectrum rnd h c s) :
    (s.length : ℤ) = c.nmax + 1 ∧ ∀ n (hn : n < s.length),
      ∃ E : ℝ, (E : ℂ) = sphInt (fun θ φ => ((‖shSeries c.nmax c.mmax (degreePart (fun n m => FS.val (w n m)) n) θ φ‖ ^ 2 : ℝ) : ℂ)) ∧
        |s[n] - E| ≤ (2 * (min (n : ℤ) c.mmax : ℤ) + 7 : ℝ) * 2 ^ (-52 : ℤ) * E + (2 * (min (n : ℤ) c.mmax : ℤ) + 1 : ℝ) * 2 ^ (-990 : ℤ) := by
  obtain ⟨l, hb⟩ := PW.spectrum_any hr h hh c hc hl hN s hs
  refine ⟨l, fun n hn => ⟨_, (sphInt_series _ _ _).symm, hb n hn _ ?_⟩⟩
  have m0 := hc.wf.m0
  have mn := hc.wf.mn
  symm
  refine Finset.sum_of_injOn (fun m : ℤ => ((n : ℤ), m)) ?_ ?_ ?_ ?_
  · intro a _ b _ e
    exact (Prod.mk.inj e).2
  · intro m hm
    simp only [coe_Icc, Set.mem_Icc] at hm
    show ((n : ℤ), m) ∈ modes c.nmax c.mmax
    refine mem_modes.mpr ⟨by omega, by omega, abs_le.mpr ⟨by omega, by omega⟩, abs_le.mpr ⟨by omega, by omega⟩⟩
  · rintro ⟨k, m⟩ hp hni
    unfold degreePart
    dsimp only
    rw [if_neg]
    · simp
    · rintro rfl
      refine hni ⟨m, ?_, rfl⟩
      obtain ⟨_, _, h3, h4⟩ := mem_modes.mp hp
      have := abs_le.mp h3
      have := abs_le.mp h4
      simp only [coe_Icc, Set.mem_Icc]
      omega
  · intro m hm
    obtain ⟨h1, h2⟩ := Finset.mem_Icc.mp hm
    rw [hw n m ⟨by omega, by omega, abs_le.mpr ⟨by omega, by omega⟩, abs_le.mpr ⟨by omega, by omega⟩⟩]
    show fcAbs (w n m) ^ 2 = ‖degreePart (fun n m => FS.val (w n m)) n n m‖ ^ 2
    unfold degreePart
    rw [if_pos rfl, PV.fcAbs_val]

/-- Energy of a function known only through inaccurate coefficients: if the doubles in `ch` (say, returned by `spht`) are within `ε` of the coefficients `v` of the
function, then `power()` computed in doubles is within `δ + (K + 6) 2^-52 (E + δ) + K 2^-990` of the energy `E = ∫ |f|²`, where `δ = ε (2 √(K E) + K ε)` and `K` is the number of modes. -/
theorem c135_measured (hr : IsRounding rnd) (h : FC rnd → ℝ) (hh : IsHypotAll rnd h) (ch : ScalarCoefs (FC rnd)) (hc : ch.WellFormed) (v : ℤ → ℤ → ℂ) (ε : ℝ) (hε : 0 ≤ ε)
    (hv : ∀ n m, IsMode ch.nmax ch.mmax n m → ∃ z, readMap ch n m = some z ∧ ‖FS.val z - v n m‖ ≤ ε) (hε' : ε ≤ 2 ^ (399 : ℤ)) (hN : ch.vec.length ≤ 2 ^ 50) (s : ℝ) (hs : FloatPower rnd h ch s) :
    ∃ E : ℝ, (E : ℂ) = sphInt (fun θ φ => ((‖shSeries ch.nmax ch.mmax v θ φ‖ ^ 2 : ℝ) : ℂ)) ∧ ∃ δ : ℝ, δ = ε * (2 * √(ch.vec.length * E) + ch.vec.length * ε) ∧
      (E ≤ 2 ^ (798 : ℤ) → |s - E| ≤ δ + (ch.vec.length + 6) * 2 ^ (-52 : ℤ) * (E + δ) + ch.vec.length * 2 ^ (-990 : ℤ)) := by
  refine ⟨_, (sphInt_series _ _ _).symm, _, rfl, fun hE => ?_⟩
  have hl : ∀ z ∈ ch.vec, fcAbs z ≤ 2 ^ (400 : ℤ) := PV.bounded ch hc v ε hε' hv hE
  have hw : ∀ n m, IsMode ch.nmax ch.mmax n m → readMap ch n m = some ((readMap ch n m).getD 0) := by
    intro n m hm
    obtain ⟨z, e, -⟩ := hv n m hm
    rw [e]; rfl
  have b : |s - ch.power fcAbs| ≤ (ch.vec.length + 6) * 2 ^ (-52 : ℤ) * ch.power fcAbs + ch.vec.length * 2 ^ (-990 : ℤ) := PW.sum_sq_any hr hh ch.vec hl hN hs
  rw [PV.power_eq ch hc _ hw] at b
  have q := PV.perturb (modes ch.nmax ch.mmax) (fun p => FS.val ((readMap ch p.1 p.2).getD 0)) (fun p => v p.1 p.2) ε hε (by
    intro p hp
    obtain ⟨z, e, hz⟩ := hv p.1 p.2 (mem_modes.mp hp)
    rw [e]; exact hz)
  rw [← hc.length_eq] at q
  generalize ∑ p ∈ modes ch.nmax ch.mmax, ‖FS.val ((readMap ch p.1 p.2).getD 0)‖ ^ 2 = P at b q
  generalize ∑ p ∈ modes ch.nmax ch.mmax, ‖v p.1 p.2‖ ^ 2 = E at q ⊢
  generalize ε * (2 * √(ch.vec.length * E) + ch.vec.length * ε) = δ at q ⊢
  generalize (ch.vec.length : ℝ) * 2 ^ (-990 : ℤ) = t at b ⊢
  clear hl hE hε'
  have hP : P ≤ E + δ := by have := (abs_le.mp q).2; linarith
  calc |s - E| ≤ |s - P| + |P - E| := abs_sub_le _ _ _
    _ ≤ (ch.vec.length + 6) * 2 ^ (-52 : ℤ) * P + t + δ := add_le_add b q
    _ ≤ (ch.vec.length + 6) * 2 ^ (-52 : ℤ) * (E + δ) + t + δ := by gcongr
    _ = _ := by ring

theorem PV.finish (hr : IsRounding rnd) (h : FC rnd → ℝ) (hh : IsHypotAll rnd h) (N M : ℕ) (hN : N ≤ 1000) (hMN : M ≤ N) (ε : ℝ) (err : ℤ → ℝ) (hε : ∀ n : ℤ, 0 ≤ n → n ≤ N → err n ≤ ε) (hε' : ε ≤ 2 ^ (399 : ℤ))
    {c : ScalarCoefs ℂ} {ch : ScalarCoefs (FC rnd)} (wf : ch.WellFormed) (cn : ch.nmax = N) (cm : ch.mmax = M)
    (hb : ∀ n m, IsMode N M n m → ∃ w z, readMap c n m = some w ∧ readMap ch n m = some z ∧ ‖FS.val z - w‖ ≤ err n) :
    (∀ n m, IsMode N M n m → readMap c n m = some ((readMap c n m).getD 0)) ∧ ∀ s, FloatPower rnd h ch s →
        ∃ E : ℝ, (E : ℂ) = sphInt (fun θ φ => ((‖shSeries N M (fun n m => (readMap c n m).getD 0) θ φ‖ ^ 2 : ℝ) : ℂ)) ∧ ∃ δ : ℝ, δ = ε * (2 * √((modes N M).card * E) + (modes N M).card * ε) ∧
          (E ≤ 2 ^ (798 : ℤ) → |s - E| ≤ δ + ((modes N M).card + 6) * 2 ^ (-52 : ℤ) * (E + δ) + (modes N M).card * 2 ^ (-990 : ℤ)) := by
  constructor
  · intro n m hm
    obtain ⟨w, z, e, -⟩ := hb n m hm
    rw [e]; rfl
  intro s hs
  have ε0 : 0 ≤ ε := by
    obtain ⟨w, z, -, -, q⟩ := hb 0 0 ⟨le_refl _, by omega, by simp, by simp⟩
    exact ((norm_nonneg _).trans q).trans (hε 0 le_rfl (by omega))
  have hc : ch.vec.length = (modes N M).card := by rw [wf.length_eq, cn, cm]
  have hlen : ch.vec.length ≤ 2 ^ 50 := by
    have e := modes_card' (nmax := (N : ℤ)) (mmax := M) (by omega) (by omega)
    rw [hc]
    unfold ncFormula at e
    have h1 : (N : ℤ) ≤ 1000 := by omega
    have h2 : (M : ℤ) ≤ N := by omega
    have h3 : (0 : ℤ) ≤ M := by omega
    have h4 : ((modes (N : ℤ) M).card : ℤ) ≤ 10000000 := by
      rw [e]
      dsimp only
      nlinarith
    have : (modes (N : ℤ) M).card ≤ 10000000 := by omega
    norm_num
    omega
  have q := c135_measured hr h hh ch wf (fun n m => (readMap c n m).getD 0) ε ε0 (by
    intro n m hm
    rw [cn, cm] at hm
    obtain ⟨w, z, e, e', q⟩ := hb n m hm
    refine ⟨z, e', ?_⟩
    rw [e]
    exact q.trans (hε n hm.1 hm.2.1)) hε' hlen s hs
  rw [hc, cn, cm] at q
  exact q

/-- From the user's array to the energy, with the Python routines: build the pattern, analyse it and sum the squares, all in doubles.  The result is within an explicit
bound of `∫ |f|²`, `f` the function whose coefficients are those that exact analysis of the same samples gives (C27: the sampled function itself, if it has no
harmonics above the limits). -/
theorem c135_spht (hrd : NoOverflow rnd) (lm : Fl.Libm) (hl : LibmOK lm) (np : Fl.Fft1 rnd) (sum : List (FC rnd) → FC rnd) (hsum : SumOK sum)
    (A : Arr2 (FC rnd)) (C : ℝ) (hA : UserArr A C) (hC : 2 ^ (-700 : ℤ) ≤ C) (hC' : C ≤ 2 ^ (399 : ℤ)) (hsz : A.rows ≤ 2 ^ 27) (hsz2 : (2 * A.rows - 2) * A.cols < 2 ^ 53) (hK : A.cols % 2 = 0)
    (N M : ℕ) (hN : N ≤ 1000) (hMN : M ≤ N) (hNr : N < A.rows - 1) (hMc : 2 * M < A.cols) (κ : ℝ) (hκ : 2 ^ (-45 : ℤ) ≤ κ)
    (hκ' : 213 * Nat.log 2 (4 * (2 * A.rows - 2)) * Real.sqrt (((2 * A.rows - 2 : ℕ) : ℝ) + 1) * κ ≤ 1) (hnp : FftOK np κ (2 * A.rows - 2) A.cols)
    (ε : ℝ) (hε : ∀ n : ℤ, 0 ≤ n → n ≤ N → usphtErr (2 * A.rows - 2) κ C n ≤ ε) (hε' : ε ≤ 2 ^ (399 : ℤ)) (h : FC rnd → ℝ) (hh : IsHypotAll rnd h) :
    ∃ p ph c ch v, SPatt.init (.arr (A.map FS.val)) false = .ok p ∧ SPatt.init (.arr A) false = .ok ph ∧
      spht .py p (some N) (some M) = .ok c ∧ (∀ n m, IsMode N M n m → readMap c n m = some (v n m)) ∧ Fl.spht rnd (Fl.npLib rnd lm np sum) .py ph (some N) (some M) = .ok ch ∧
      ∀ s, FloatPower rnd h ch s →
        ∃ E : ℝ, (E : ℂ) = sphInt (fun θ φ => ((‖shSeries N M v θ φ‖ ^ 2 : ℝ) : ℂ)) ∧ ∃ δ : ℝ, δ = ε * (2 * √((modes N M).card * E) + (modes N M).card * ε) ∧
          (E ≤ 2 ^ (798 : ℤ) → |s - E| ≤ δ + ((modes N M).card + 6) * 2 ^ (-52 : ℤ) * (E + δ) + (modes N M).card * 2 ^ (-990 : ℤ)) := by
  obtain ⟨p, ph, c, ch, e1, e2, e3, e4, wf, cn, cm, hb⟩ := c106_spht hrd lm hl np sum hsum A C hA hC hC' hsz hsz2 hK N M hN hMN hNr hMc κ hκ hκ' hnp
  obtain ⟨a, b⟩ := PV.finish hrd.toIsRounding h hh N M hN hMN ε (usphtErr (2 * A.rows - 2) κ C) hε hε' wf cn cm hb
  exact ⟨p, ph, c, ch, _, e1, e2, e3, a, e4, b⟩

/-- The same with the compiled extension, whatever fresh memory holds. -/
theorem c135_kspht (hrd : NoOverflow rnd) {lm : Fl.LibM} (hl : LibMWithin lm) (J : ℕ → CJunk) (np : Fl.Fft1 rnd) (lib : Fl.NumLib rnd) (hlib : lib.fft = Fl.fft2Norm rnd np)
    (A : Arr2 (FC rnd)) (C : ℝ) (hA : UserArr A C) (hC : 2 ^ (-700 : ℤ) ≤ C) (hC' : C ≤ 2 ^ (399 : ℤ)) (hsz : A.rows ≤ 2 ^ 27) (hsz2 : (2 * A.rows - 2) * A.cols < 2 ^ 53) (hK : A.cols % 2 = 0)
    (N M : ℕ) (hN : N ≤ 1000) (hMN : M ≤ N) (hNr : N < A.rows - 1) (hMc : 2 * M < A.cols) (κ : ℝ) (hκ : 2 ^ (-45 : ℤ) ≤ κ)
    (hκ' : 1200 * Real.sqrt (((2 * A.rows - 2 : ℕ) : ℝ) + 1) * κ ≤ 1) (h1 : Fft1Within np κ (2 * A.rows - 2)) (h2 : Fft1Within np κ A.cols)
    (ε : ℝ) (hε : ∀ n : ℤ, 0 ≤ n → n ≤ N → uksphtErr (2 * A.rows - 2) κ C n ≤ ε) (hε' : ε ≤ 2 ^ (399 : ℤ)) (h : FC rnd → ℝ) (hh : IsHypotAll rnd h) :
    ∃ p ph c ch v, SPatt.init (.arr (A.map FS.val)) false = .ok p ∧ SPatt.init (.arr A) false = .ok ph ∧
      spht .py p (some N) (some M) = .ok c ∧ (∀ n m, IsMode N M n m → readMap c n m = some (v n m)) ∧ Fl.kSpht rnd lib lm J ph (some N) (some M) = .ok ch ∧
      ∀ s, FloatPower rnd h ch s →
        ∃ E : ℝ, (E : ℂ) = sphInt (fun θ φ => ((‖shSeries N M v θ φ‖ ^ 2 : ℝ) : ℂ)) ∧ ∃ δ : ℝ, δ = ε * (2 * √((modes N M).card * E) + (modes N M).card * ε) ∧
          (E ≤ 2 ^ (798 : ℤ) → |s - E| ≤ δ + ((modes N M).card + 6) * 2 ^ (-52 : ℤ) * (E + δ) + (modes N M).card * 2 ^ (-990 : ℤ)) := by
  obtain ⟨p, ph, c, ch, e1, e2, e3, e4, wf, cn, cm, hb⟩ := c106_kspht hrd hl J np lib hlib A C hA hC hC' hsz hsz2 hK N M hN hMN hNr hMc κ hκ hκ' h1 h2
  obtain ⟨a, b⟩ := PV.finish hrd.toIsRounding h hh N M hN hMN ε (uksphtErr (2 * A.rows - 2) κ C) hε hε' wf cn cm hb
  exact ⟨p, ph, c, ch, _, e1, e2, e3, a, e4, b⟩

/-- The hypotheses hold together: a set with four values, two of them non-zero, and a function `2^-30` away from it; both bounds apply to the same computed sum. -/
theorem c135_example : ∃ (rnd : ℝ → ℝ) (_ : IsRounding rnd) (h : FC rnd → ℝ) (_ : IsHypotAll rnd h) (c : ScalarCoefs (FC rnd)) (s E E' δ : ℝ), c.WellFormed ∧ c.nmax = 1 ∧ FloatPower rnd h c s ∧
    readMap c 1 0 = some ⟨1, 0⟩ ∧
    (E : ℂ) = sphInt (fun θ φ => ((‖shSeries 1 1 (fun n m => FS.val ((readMap c n m).getD 0)) θ φ‖ ^ 2 : ℝ) : ℂ)) ∧ |s - E| ≤ 10 * 2 ^ (-52 : ℤ) * E + 4 * 2 ^ (-990 : ℤ) ∧
    (E' : ℂ) = sphInt (fun θ φ => ((‖shSeries 1 1 (fun n m => FS.val ((readMap c n m).getD 0) + 2 ^ (-30 : ℤ)) θ φ‖ ^ 2 : ℝ) : ℂ)) ∧
    δ = 2 ^ (-30 : ℤ) * (2 * √(4 * E') + 4 * 2 ^ (-30 : ℤ)) ∧ E' ≤ 16 ∧ |s - E'| ≤ δ + 10 * 2 ^ (-52 : ℤ) * (E' + δ) + 4 * 2 ^ (-990 : ℤ) := by
  obtain ⟨rnd, hr⟩ := isRounding_exists
  let z : FC rnd := ⟨1, 0⟩
  have hz : Real.sqrt (z.re ^ 2 + z.im ^ 2) = 1 := by simp [z]
  let q := sqAbs rnd fcAbs
  have hh : IsHypotAll rnd (fcAbs (rnd := rnd)) := ⟨⟨fcAbs_zero, fun w _ _ => by unfold fcAbs; simp⟩, fun w hw => ⟨Real.sqrt_nonneg _, hw.trans (zpow_le_zpow_right₀ (by norm_num) (by norm_num))⟩⟩
  obtain ⟨c, hcd⟩ : ∃ c : ScalarCoefs (FC rnd), c = ⟨[0, z, z, 0], 1, 1⟩ := ⟨_, rfl⟩
  have wf : c.WellFormed := by rw [hcd]; exact ScalarCoefs.wf_iff.mp ⟨by norm_num, by norm_num, by simp [ncFormula]⟩
  have cn : c.nmax = 1 := by rw [hcd]
  have cm : c.mmax = 1 := by rw [hcd]
  have cl : c.vec.length = 4 := by rw [hcd]; rfl
  have hl : ∀ w ∈ c.vec, fcAbs w ≤ 1 := by
    intro w hw
    rw [hcd] at hw
    have : w = 0 ∨ w = z := by
      have : w = 0 ∨ w = z ∨ w = 0 := by simpa using hw
      tauto
    rcases this with rfl | rfl
    · rw [fcAbs_zero]; norm_num
    · unfold fcAbs; rw [hz]
  have hs : FloatPower rnd fcAbs c (rnd (rnd (q 0 + q z) + rnd (q z + q 0))) := by
    rw [hcd]
    exact NpSum.add (l := [_, _]) (NpSum.add (l := [_]) (NpSum.one _) (NpSum.one _)) (NpSum.add (l := [_]) (NpSum.one _) (NpSum.one _))
  have hw' : ∀ n m, IsMode c.nmax c.mmax n m → readMap c n m = some ((readMap c n m).getD 0) ∧ (readMap c n m).getD 0 ∈ c.vec := by
    intro n m hm
    rw [readMap_eq wf.wf, ScalarCoefs.absMap_mode wf.wf hm]
    exact ⟨rfl, List.getElem_mem _⟩
  have hw := fun n m hm => (hw' n m hm).1
  have t30 : ‖(2 : ℂ) ^ (-30 : ℤ)‖ = 2 ^ (-30 : ℤ) := by rw [norm_zpow]; norm_num
  obtain ⟨E, hE, b⟩ := c135_power hr fcAbs hh c wf _ hw (fun w h => (hl w h).trans (one_le_zpow₀ (by norm_num) (by norm_num))) (by rw [cl]; norm_num) _ hs
  obtain ⟨E', hE', δ, hδ, b'⟩ := c135_measured hr fcAbs hh c wf (fun n m => FS.val ((readMap c n m).getD 0) + 2 ^ (-30 : ℤ)) (2 ^ (-30 : ℤ)) (by positivity) (by
    intro n m hm
    refine ⟨_, hw n m hm, ?_⟩
    rw [sub_add_cancel_left, norm_neg, t30]) (zpow_le_zpow_right₀ (by norm_num) (by norm_num)) (by rw [cl]; norm_num) _ hs
  have hb : E' ≤ 16 := by
    have e := hE'
    rw [sphInt_series] at e
    have e' : E' = _ := Complex.ofReal_injective e
    rw [e']
    have h4 : (modes c.nmax c.mmax).card = 4 := by rw [← wf.length_eq, cl]
    have := Finset.sum_le_card_nsmul (modes c.nmax c.mmax) (fun p => ‖FS.val ((readMap c p.1 p.2).getD 0) + 2 ^ (-30 : ℤ)‖ ^ 2) 4 (by
      intro p hp
      have h1 := hl _ (hw' p.1 p.2 (mem_modes.mp hp)).2
      rw [PV.fcAbs_val] at h1
      have h2 := norm_add_le (FS.val ((readMap c p.1 p.2).getD 0)) (2 ^ (-30 : ℤ))
      rw [t30] at h2
      have h3 : (2 : ℝ) ^ (-30 : ℤ) ≤ 1 := zpow_le_one_of_nonpos₀ (by norm_num) (by norm_num)
      have h5 : ‖FS.val ((readMap c p.1 p.2).getD 0) + 2 ^ (-30 : ℤ)‖ ≤ 2 := by linarith
      calc _ ≤ (2 : ℝ) ^ 2 := pow_le_pow_left₀ (norm_nonneg _) h5 2
        _ = 4 := by norm_num)
    rw [h4] at this
    refine this.trans (by norm_num)
  have b'' := b' (hb.trans (by
    calc (16 : ℝ) = 2 ^ (4 : ℤ) := by norm_num
      _ ≤ _ := zpow_le_zpow_right₀ (by norm_num) (by norm_num)))
  rw [cn, cm] at hE hE'
  rw [cl] at b b'' hδ
  have c10 : ((4 : ℕ) : ℝ) + 6 = 10 := by norm_num
  have c4 : ((4 : ℕ) : ℝ) = 4 := by norm_num
  rw [c10, c4] at b b''
  rw [c4] at hδ
  refine ⟨rnd, hr, fcAbs, hh, c, _, E, E', δ, wf, cn, hs, ?_, hE, b, hE', hδ, hb, b''⟩
  rw [hcd]; rfl

end Verif.Props
