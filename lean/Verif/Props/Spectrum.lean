import Verif.Props.Symmetry3
import Verif.Props.Coefs2
import Verif.Props.Stability
/-!
# Property C83: invariance of the angular power spectrum
-/
namespace Verif.Props
open Verif

/-- Two well-formed sets of the same limits whose entries have the same magnitudes up to `m ↔ -m` (the same way in each
entry) have the same spectrum and the same power. -/
theorem spectrum_congr (c d : ScalarCoefs ℂ) (hc : c.WellFormed) (hd : d.WellFormed) (hn : d.nmax = c.nmax) (hm : d.mmax = c.mmax)
    (σ : ℤ) (hσ : σ = 1 ∨ σ = -1)
    (h : ∀ k l, IsMode c.nmax c.mmax k l → (readMap d k l).map (fun x : ℂ => ‖x‖) = (readMap c k (σ * l)).map (fun x : ℂ => ‖x‖)) :
    d.angularPowerSpectrum (fun x : ℂ => ‖x‖) = c.angularPowerSpectrum (fun x : ℂ => ‖x‖) ∧
    d.power (fun x : ℂ => ‖x‖) = c.power (fun x : ℂ => ‖x‖) := by
  obtain ⟨s, e, hl, hs, hp, -⟩ := c13_power (fun x : ℂ => ‖x‖) c hc
  obtain ⟨s', e', hl', hs', hp', -⟩ := c13_power (fun x : ℂ => ‖x‖) d hd
  have key : s' = s := by
    apply List.ext_getElem (by omega)
    intro n h1 h2
    rw [hs n h2, hs' n h1, hm]
    have hel : ∀ (o : Option ℂ), o.elim 0 (fun x => ‖x‖ ^ 2) = (o.map (fun x : ℂ => ‖x‖)).elim 0 (fun x => x ^ 2) := by
      intro o; cases o <;> rfl
    have h3 : ∀ l ∈ Finset.Icc (-(min (n : Int) c.mmax)) (min (n : Int) c.mmax),
        (readMap d n l).elim 0 (fun x => ‖x‖ ^ 2) = (readMap c n (σ * l)).elim 0 (fun x => ‖x‖ ^ 2) := by
      intro l hl
      rw [Finset.mem_Icc] at hl
      rw [hel, hel, h n l (by rw [isMode_iff]; omega)]
    rw [Finset.sum_congr rfl h3]
    rcases hσ with rfl | rfl
    · simp
    · refine Finset.sum_nbij' (fun l => -l) (fun l => -l) ?_ ?_ ?_ ?_ ?_
      · intro l hl; rw [Finset.mem_Icc] at hl ⊢; omega
      · intro l hl; rw [Finset.mem_Icc] at hl ⊢; omega
      · intro l _; omega
      · intro l _; omega
      · intro l _; rw [show (-1 : ℤ) * l = -l by ring]
  rw [e, e', ← hp, ← hp', key]
  exact ⟨rfl, rfl⟩

/-- C83: `angular_power_spectrum()` and `power()` of `spht(p)` do not change when the samples are rotated about the polar axis by
any number of columns, reflected in the equator, replaced by the values at the antipodes, or conjugated. -/
theorem c83_spectrum (b b' : Backend) (A : Arr2 ℂ) (hr : 2 ≤ A.rows) (hsz : A.rows ≤ 2 ^ 28)
    (p : SPatt ℂ) (hp : SPatt.init (.arr A) false = .ok p) (n m : ℤ) (h0 : 0 ≤ m) (c : ScalarCoefs ℂ)
    (h : spht b p (some n) (some m) = .ok c) (A' : Arr2 ℂ)
    (hA : (∃ s : ℕ, s ≤ A.cols ∧ A' = rollCols s A) ∨ A' = flipRows A ∨ A' = rollCols (A.cols / 2) (flipRows A) ∨ A' = conjArr A) :
    ∃ p' c', SPatt.init (.arr A') false = .ok p' ∧ spht b' p' (some n) (some m) = .ok c' ∧
      c'.angularPowerSpectrum (fun x : ℂ => ‖x‖) = c.angularPowerSpectrum (fun x : ℂ => ‖x‖) ∧
      c'.power (fun x : ℂ => ‖x‖) = c.power (fun x : ℂ => ‖x‖) := by
  -- the limits of `c`
  obtain ⟨_, c0, _, h2, w1, w2, w3, _⟩ := c69_rotation b b A hr hsz 0 (Nat.zero_le _) p hp n m h0 c h
  have hcw : c.WellFormed ∧ c.nmax = n ∧ c.mmax = m := by
    obtain ⟨D, hD, hi, r1, c1, -⟩ := init_pattern A hr
    rw [hi] at hp; cases hp
    obtain ⟨d, e, n', m', w', _⟩ := spht_value b D (by omega) (by omega) (by omega) n m h0 (spht_ok_args h)
    rw [h] at e; cases e
    exact ⟨w', n', m'⟩
  obtain ⟨hcw, rfl, rfl⟩ := hcw
  have hmap : ∀ (o : Option ℂ) (f : ℂ → ℂ), (∀ x, ‖f x‖ = ‖x‖) → (o.map f).map (fun x : ℂ => ‖x‖) = o.map (fun x : ℂ => ‖x‖) := by
    intro o f hf; cases o with
    | none => rfl
    | some x => simp [hf]
  have hone : ∀ k : ℕ, ‖((-1 : ℂ)) ^ k‖ = 1 := by intro k; simp
  rcases hA with ⟨s, hs, rfl⟩ | rfl | rfl | rfl
  · obtain ⟨p', c', e1, e2, e3, e4, e5, e6⟩ := c69_rotation b b' A hr hsz s hs p hp _ _ h0 c h
    refine ⟨p', c', e1, e2, spectrum_congr c c' hcw e5 e3 e4 1 (Or.inl rfl) fun k l hk => ?_⟩
    rw [e6 k l hk, one_mul, hmap]
    intro x
    rw [norm_mul, show -(2 * (Real.pi : ℂ) * Complex.I * l * s / A.cols) = ((-(2 * Real.pi * l * s / A.cols) : ℝ) : ℂ) * Complex.I by
      push_cast; ring, Complex.norm_exp_ofReal_mul_I, one_mul]
  · obtain ⟨p', c', e1, e2, e3, e4, e5, e6⟩ := c71_reflection b b' A hr hsz p hp _ _ h0 c h
    refine ⟨p', c', e1, e2, spectrum_congr c c' hcw e5 e3 e4 1 (Or.inl rfl) fun k l hk => ?_⟩
    rw [e6 k l hk, one_mul, hmap]
    intro x; rw [norm_mul, hone, one_mul]
  · obtain ⟨p', c', e1, e2, e3, e4, e5, e6⟩ := c71_antipodal b b' A hr hsz p hp _ _ h0 c h
    refine ⟨p', c', e1, e2, spectrum_congr c c' hcw e5 e3 e4 1 (Or.inl rfl) fun k l hk => ?_⟩
    rw [e6 k l hk, one_mul, hmap]
    intro x; rw [norm_mul, hone, one_mul]
  · obtain ⟨p', c', e1, e2, e3, e4, e5, e6⟩ := c70_conjugate b b' A hr hsz p hp _ _ h0 c h
    refine ⟨p', c', e1, e2, spectrum_congr c c' hcw e5 e3 e4 (-1) (Or.inr rfl) fun k l hk => ?_⟩
    rw [e6 k l hk, hmap, show (-1 : ℤ) * l = -l by ring]
    intro x; rw [norm_mul, hone, one_mul]; simp

/-- Hypotheses of `c83_spectrum` with a pattern that each of the four changes alters. -/
example (b : Backend) : 2 ≤ gsample.rows ∧ gsample.rows ≤ 2 ^ 28 ∧
    ∃ p c, SPatt.init (.arr gsample) false = .ok p ∧ spht b p (some 1) (some 1) = .ok c :=
  ⟨by decide, by decide, spht_accepts_sample b gsample rfl rfl⟩

end Verif.Props
