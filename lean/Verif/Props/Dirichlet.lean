import Verif.Props.VecSpectrum
/-!
# C140: the Dirichlet energy from the coefficients
-/
namespace Verif.Props
open Verif Finset

namespace VP

theorem rootDeg_sq {n : ℤ} (h : 0 ≤ n) : ‖rootDeg n‖ ^ 2 = (n : ℝ) * (n + 1) := by
  have h' : (0 : ℝ) ≤ n := by exact_mod_cast h
  unfold rootDeg
  rw [Complex.norm_real, Real.norm_eq_abs, sq_abs, Real.sq_sqrt (by positivity)]

/-- The energy of the gradient of a band-limited function. -/
theorem dirichlet {N M : ℤ} {v : ℤ → ℤ → ℂ} {Gθ Gφ : ℝ → ℝ → ℂ} (h : SurfaceGradient (shSeries N M v) Gθ Gφ) :
    sphInt (fun θ φ => ((‖Gθ θ φ‖ ^ 2 : ℝ) : ℂ)) + sphInt (fun θ φ => ((‖Gφ θ φ‖ ^ 2 : ℝ) : ℂ)) =
      ((∑ q ∈ modes N M, (q.1 : ℝ) * (q.1 + 1) * ‖v q.1 q.2‖ ^ 2 : ℝ) : ℂ) := by
  rw [total (gradient_field h), sum_filter]
  congr 1
  refine sum_congr rfl fun q hq => ?_
  have h0 := (mem_modes.mp hq).1
  by_cases h : q.1 = 0
  · rw [if_neg (not_not.mpr h), h]; simp
  · rw [if_pos h, norm_neg, norm_mul, mul_pow, rootDeg_sq h0]; simp

end VP

/-- C140: after `c.window(w)` with `w[n] = sqrt(n (n+1))`, `c.power()` is the integral over the sphere of the squared gradient of the function with the coefficients of `c`. -/
theorem c140_window (c : ScalarCoefs ℂ) (hc : c.WellFormed) (v : ℤ → ℤ → ℂ) (hv : HasCoefs c v) (Gθ Gφ : ℝ → ℝ → ℂ) (hG : SurfaceGradient (shSeries c.nmax c.mmax v) Gθ Gφ)
    (w : List ℂ) (hw : (w.length : ℤ) = c.nmax + 1) (hw' : ∀ n (h : n < w.length), w[n] = ((√((n : ℝ) * (n + 1)) : ℝ) : ℂ)) :
    ∃ d, c.window w = ⟨d, none⟩ ∧ ((d.power (fun x : ℂ => ‖x‖) : ℝ) : ℂ) = sphInt (fun θ φ => ((‖Gθ θ φ‖ ^ 2 : ℝ) : ℂ)) + sphInt (fun θ φ => ((‖Gφ θ φ‖ ^ 2 : ℝ) : ℂ)) := by
  obtain ⟨d, e, wd, dn, dm, hd⟩ := c08_window c hc w hw
  refine ⟨d, e, ?_⟩
  obtain ⟨-, -, -, -, -, p⟩ := c13_power (fun x : ℂ => ‖x‖) d wd
  rw [VP.dirichlet hG, p, dn, dm]
  congr 1
  refine sum_congr rfl fun q hq => ?_
  have hm := mem_modes.mp hq
  obtain ⟨x, e1, e2⟩ := hd q.1 q.2 _ (hv q.1 q.2 hm)
  obtain ⟨k, hk⟩ := Int.eq_ofNat_of_zero_le hm.1
  have hl : q.1.toNat < w.length := by have := hm.2.1; omega
  rw [List.getElem?_eq_getElem hl, hw' _ hl] at e1
  have e1' := Option.some.inj e1
  rw [e2, ← e1']
  show ‖v q.1 q.2 * _‖ ^ 2 = _
  have hc : ((q.1.toNat : ℕ) : ℝ) = q.1 := by rw [hk]; simp
  have h0 : (0 : ℝ) ≤ q.1 := by exact_mod_cast hm.1
  rw [hc, norm_mul, mul_pow, Complex.norm_real, Real.norm_eq_abs, sq_abs, Real.sq_sqrt (by positivity)]
  ring

/-- C140 from the spectrum: `Σ n (n+1) c.angular_power_spectrum()[n]` is that integral; a function of degree at most `nmax` has at most `nmax (nmax+1)` times its own energy in its
gradient, and at least twice the energy outside the monopole. -/
theorem c140_spectrum (c : ScalarCoefs ℂ) (hc : c.WellFormed) (v : ℤ → ℤ → ℂ) (hv : HasCoefs c v) (Gθ Gφ : ℝ → ℝ → ℂ) (hG : SurfaceGradient (shSeries c.nmax c.mmax v) Gθ Gφ) :
    ∃ s D E : _, c.angularPowerSpectrum (fun x : ℂ => ‖x‖) = .ok s ∧ D = ∑ n : Fin s.length, ((n : ℕ) : ℝ) * ((n : ℕ) + 1) * s[n] ∧
      (D : ℂ) = sphInt (fun θ φ => ((‖Gθ θ φ‖ ^ 2 : ℝ) : ℂ)) + sphInt (fun θ φ => ((‖Gφ θ φ‖ ^ 2 : ℝ) : ℂ)) ∧
      ((E : ℝ) : ℂ) = sphInt (fun θ φ => ((‖shSeries c.nmax c.mmax v θ φ‖ ^ 2 : ℝ) : ℂ)) ∧ D ≤ c.nmax * (c.nmax + 1) * E ∧ 2 * (E - ‖v 0 0‖ ^ 2) ≤ D := by
  obtain ⟨s, e, hl, hs, -, -⟩ := c13_power (fun x : ℂ => ‖x‖) c hc
  have m0 := hc.wf.m0
  have mn := hc.wf.mn
  have split : ∀ F : ℤ → ℤ → ℝ, ∑ q ∈ modes c.nmax c.mmax, F q.1 q.2 = ∑ n : Fin s.length, ∑ m ∈ Icc (-(min ((n : ℕ) : ℤ) c.mmax)) (min ((n : ℕ) : ℤ) c.mmax), F (n : ℕ) m := by
    intro F
    rw [sum_sigma']
    symm
    refine Finset.sum_bij' (fun x _ => (((x.1 : ℕ) : ℤ), x.2)) (fun q hq => ⟨⟨q.1.toNat, by
        have := (mem_modes.mp hq).1; have := (mem_modes.mp hq).2.1; omega⟩, q.2⟩) ?_ ?_ ?_ ?_ ?_
    · rintro ⟨n, m⟩ hx
      have hn := n.2
      simp only [mem_sigma, mem_univ, true_and, mem_Icc] at hx
      exact mem_modes.mpr ⟨by simp, by simp only []; omega, abs_le.mpr ⟨by simp only []; omega, by simp only []; omega⟩, abs_le.mpr ⟨by simp only []; omega, by simp only []; omega⟩⟩
    · rintro ⟨k, m⟩ hq
      obtain ⟨h1, h2, h3, h4⟩ := mem_modes.mp hq
      have := abs_le.mp h3
      have := abs_le.mp h4
      simp only [mem_sigma, mem_univ, true_and, mem_Icc]
      omega
    · rintro ⟨n, m⟩ _
      simp
    · rintro ⟨k, m⟩ hq
      have h1 : 0 ≤ k := (mem_modes.mp hq).1
      simp [h1]
    · rintro ⟨n, m⟩ _
      rfl
  have hD : ∑ n : Fin s.length, ((n : ℕ) : ℝ) * ((n : ℕ) + 1) * s[n] = ∑ q ∈ modes c.nmax c.mmax, (q.1 : ℝ) * (q.1 + 1) * ‖v q.1 q.2‖ ^ 2 := by
    rw [split fun n m => (n : ℝ) * (n + 1) * ‖v n m‖ ^ 2]
    refine sum_congr rfl fun n _ => ?_
    have hn := n.2
    have h2 : s[n] = _ := hs n n.2
    rw [h2, mul_sum]
    refine sum_congr rfl fun m hm => ?_
    obtain ⟨a, b⟩ := mem_Icc.mp hm
    rw [hv n m ⟨by omega, by omega, abs_le.mpr ⟨by omega, by omega⟩, abs_le.mpr ⟨by omega, by omega⟩⟩]
    push_cast
    rfl
  refine ⟨s, _, _, e, rfl, ?_, (sphInt_series _ _ _).symm, ?_, ?_⟩
  · rw [VP.dirichlet hG, hD]
  · rw [hD, mul_sum]
    refine sum_le_sum fun q hq => mul_le_mul_of_nonneg_right ?_ (by positivity)
    have h0 : (0 : ℝ) ≤ q.1 := by exact_mod_cast (mem_modes.mp hq).1
    have h1 : (q.1 : ℝ) ≤ c.nmax := by exact_mod_cast (mem_modes.mp hq).2.1
    exact mul_le_mul h1 (by linarith) (by linarith) (by linarith)
  · rw [hD]
    have h00 : ((0 : ℤ), (0 : ℤ)) ∈ modes c.nmax c.mmax := mem_modes.mpr ⟨le_refl _, by simp only []; omega, by simp, by simpa using m0⟩
    rw [← Finset.add_sum_erase _ _ h00, ← Finset.add_sum_erase (f := fun q : ℤ × ℤ => (q.1 : ℝ) * (q.1 + 1) * ‖v q.1 q.2‖ ^ 2) _ h00]
    simp only [Int.cast_zero, zero_mul, zero_add, add_sub_cancel_left, mul_sum]
    refine sum_le_sum fun q hq => mul_le_mul_of_nonneg_right ?_ (by positivity)
    obtain ⟨hne, hq'⟩ := mem_erase.mp hq
    obtain ⟨a, b, h3, -⟩ := mem_modes.mp hq'
    have h1 : 1 ≤ q.1 := by
      by_contra hlt
      have z : q.1 = 0 := by omega
      rw [z] at h3
      exact hne (Prod.ext z (abs_nonpos_iff.mp h3))
    have h1' : (1 : ℝ) ≤ q.1 := by exact_mod_cast h1
    nlinarith

/-- C140 through the vector transform: the powers of the set `vspht` returns for the sampled gradient add up to the same integral. -/
theorem c140_vspht (b : Backend) (N M : ℤ) (h0 : 0 ≤ M) (hMN : M ≤ N) (v : ℤ → ℤ → ℂ) (Gθ Gφ : ℝ → ℝ → ℂ) (hG : SurfaceGradient (shSeries N M v) Gθ Gφ)
    (nr nc : ℕ) (h1 : N + 2 ≤ nr) (h2 : 2 * M + 2 ≤ nc) (h3 : nc % 2 = 0) (hsz : nr ≤ 2 ^ 28) :
    ∃ p c, TPatt.init (.arr (sampleAngles nr nc Gθ)) (.arr (sampleAngles nr nc Gφ)) false = .ok p ∧ vspht b p (some N) (some M) = .ok c ∧
      c.scoef1.power (fun x : ℂ => ‖x‖) + c.scoef2.power (fun x : ℂ => ‖x‖) = ∑ q ∈ modes N M, (q.1 : ℝ) * (q.1 + 1) * ‖v q.1 q.2‖ ^ 2 := by
  obtain ⟨p, c, e1, e2, e3⟩ := c137_vspht b N M h0 hMN _ _ Gθ Gφ (gradient_field hG) nr nc h1 h2 h3 hsz
  refine ⟨p, c, e1, e2, ?_⟩
  rw [VP.dirichlet hG] at e3
  exact Complex.ofReal_injective e3

/-- Not vacuous: a set with six nonzero coefficients; its gradient has energy `2 * 21 + 6 * 83`. -/
theorem c140_example : vcsample.scoef1.WellFormed ∧ HasCoefs vcsample.scoef1 vcsample.scoef1.cf ∧ ∃ Gθ Gφ, SurfaceGradient (shSeries 2 1 vcsample.scoef1.cf) Gθ Gφ ∧
    sphInt (fun θ φ => ((‖Gθ θ φ‖ ^ 2 : ℝ) : ℂ)) + sphInt (fun θ φ => ((‖Gφ θ φ‖ ^ 2 : ℝ) : ℂ)) = 540 := by
  obtain ⟨Gθ, Gφ, hG⟩ := gradient_exists 2 1 (by norm_num) (by norm_num) vcsample.scoef1.cf
  refine ⟨vcsample_wf.wf1, hasCoefs_cf vcsample_wf.wf1, Gθ, Gφ, hG, ?_⟩
  have hm : modes 2 1 = {((0 : ℤ), (0 : ℤ)), (1, 0), (2, 0), (1, -1), (2, -1), (1, 1), (2, 1)} := by decide
  have r0 : vcsample.scoef1.cf 0 0 = 0 := rfl
  have r1 : vcsample.scoef1.cf 1 0 = 2 := rfl
  have r2 : vcsample.scoef1.cf 2 0 = 3 := rfl
  have r3 : vcsample.scoef1.cf 1 (-1) = 4 := rfl
  have r4 : vcsample.scoef1.cf 2 (-1) = 5 := rfl
  have r5 : vcsample.scoef1.cf 1 1 = Complex.I := rfl
  have r6 : vcsample.scoef1.cf 2 1 = 7 := rfl
  rw [VP.dirichlet hG, hm, sum_insert (by decide), sum_insert (by decide), sum_insert (by decide), sum_insert (by decide), sum_insert (by decide), sum_insert (by decide), sum_singleton]
  simp only [r0, r1, r2, r3, r4, r5, r6]
  norm_num

end Verif.Props
