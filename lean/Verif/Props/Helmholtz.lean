import Verif.Props.Product
/-!
# Property C117: the two components of a vector set are the solenoidal and the irrotational part

`scoef2` carries the gradient part of a tangential field and `scoef1` its rotated-gradient part (Helmholtz decomposition), so a field is
divergence free exactly when the coefficients `scoef2` vanish and curl free exactly when the coefficients `scoef1` vanish.
-/
namespace Verif.Props
open Verif Finset

theorem series_zero_iff (N M : ℤ) (u : ℤ → ℤ → ℂ) : (∀ θ φ, shSeries N M u θ φ = 0) ↔ ∀ n m, IsMode N M n m → u n m = 0 := by
  constructor
  · intro h n m hm
    rw [← series_coef N M u n m hm]
    simp only [h, zero_mul]
    unfold sphInt; simp
  · intro h θ φ
    unfold shSeries
    exact sum_eq_zero fun p hp => by rw [h p.1 p.2 (mem_modes.mp hp), zero_mul]

/-- A tangential field is the sum of the fields of its two components. -/
theorem jackson_split {N M : ℤ} {v w v' w' : ℤ → ℤ → ℂ} {Eθ Eφ Fθ Fφ Gθ Gφ : ℝ → ℝ → ℂ} (hE : JacksonField N M v w Eθ Eφ)
    (hF : JacksonField N M v' (fun _ _ => 0) Fθ Fφ) (hG : JacksonField N M (fun _ _ => 0) w' Gθ Gφ)
    (h : ∀ n m, IsMode N M n m → n ≠ 0 → v n m = v' n m ∧ w n m = w' n m) (θ φ : ℝ) :
    Eθ θ φ = Fθ θ φ + Gθ θ φ ∧ Eφ θ φ = Fφ θ φ + Gφ θ φ := by
  rw [(jackson_closed hE θ φ).1, (jackson_closed hE θ φ).2, (jackson_closed hF θ φ).1, (jackson_closed hF θ φ).2, (jackson_closed hG θ φ).1,
    (jackson_closed hG θ φ).2, ← sum_add_distrib, ← sum_add_distrib]
  constructor
  all_goals
    refine sum_congr rfl fun p hp => ?_
    have hp' := mem_filter.mp hp
    obtain ⟨a, b⟩ := h p.1 p.2 (mem_modes.mp hp'.1) hp'.2
    rw [a, b]; ring

/-- C117 (Helmholtz decomposition): the windows `-1/sqrt(n(n+1))` on `scoef2` and `-i/sqrt(n(n+1))` on `scoef1` give the coefficients of two functions
`f` and `g` such that the field is `∇f + r × ∇g`, and `ispht` of these sets gives the samples of `f` and `g`. -/
theorem c117_decompose (b b' : Backend) (c : VectorCoefs ℂ) (hc : c.WellFormed) (v w : ℤ → ℤ → ℂ) (hv : HasCoefsV c v w) (Eθ Eφ : ℝ → ℝ → ℂ)
    (hE : JacksonField c.nmax c.mmax v w Eθ Eφ) (nr nc : ℕ) (h1 : c.nmax + 2 ≤ nr) (h2 : 2 * c.mmax + 2 ≤ nc) (h3 : nc % 2 = 0) :
    ∃ d e f g p q Fθ Fφ Gθ Gφ,
      c.scoef2.window (degreeWindow c.nmax fun n => if n = 0 then 0 else -(1 / ((Real.sqrt (n * (n + 1)) : ℝ) : ℂ))) = ⟨d, none⟩ ∧
      c.scoef1.window (degreeWindow c.nmax fun n => if n = 0 then 0 else -(Complex.I / ((Real.sqrt (n * (n + 1)) : ℝ) : ℂ))) = ⟨e, none⟩ ∧
      ispht b d (some nr) (some nc) = .ok p ∧ p.array = .ok (sampleAngles nr nc f) ∧
      ispht b' e (some nr) (some nc) = .ok q ∧ q.array = .ok (sampleAngles nr nc g) ∧
      SurfaceGradient f Fθ Fφ ∧ SurfaceGradient g Gθ Gφ ∧
      ∀ θ φ, Eθ θ φ = Fθ θ φ - Gφ θ φ ∧ Eφ θ φ = Fφ θ φ + Gθ θ φ := by
  obtain ⟨n, m, hn, hm, hmn⟩ := vlimits hc
  obtain ⟨d, d1, d2, d3, d4, d5⟩ := window_coefs c.scoef2 hc.wf2 _ (hasCoefs_cf hc.wf2)
    fun n => if n = 0 then 0 else -(1 / ((Real.sqrt (n * (n + 1)) : ℝ) : ℂ))
  rw [hc.n2] at d1 d3
  rw [hc.m2] at d4
  obtain ⟨e, e1, e2, e3, e4, e5⟩ := window_coefs c.scoef1 hc.wf1 _ (hasCoefs_cf hc.wf1)
    fun n => if n = 0 then 0 else -(Complex.I / ((Real.sqrt (n * (n + 1)) : ℝ) : ℂ))
  rw [hc.n1] at e1 e3
  rw [hc.m1] at e4
  obtain ⟨p, p1, p2⟩ := ispht_samples b d d2 _ d5 nr nc (by omega) (by omega) h3
  obtain ⟨q, q1, q2⟩ := ispht_samples b' e e2 _ e5 nr nc (by omega) (by omega) h3
  obtain ⟨Fθ, Fφ, hF⟩ := gradient_exists d.nmax d.mmax (by omega) (by omega) _
  obtain ⟨Gθ, Gφ, hG⟩ := gradient_exists e.nmax e.mmax (by omega) (by omega) _
  refine ⟨d, e, _, _, p, q, Fθ, Fφ, Gθ, Gφ, d1, e1, p1, p2, q1, q2, hF, hG, fun θ φ => ?_⟩
  have jF := gradient_field hF
  have jG := curl_field hG
  rw [d3, d4] at jF
  rw [e3, e4] at jG
  have hs := jackson_split hE jG jF (fun k l hk h0 => ?_) θ φ
  · exact ⟨by rw [hs.1]; ring, by rw [hs.2]; ring⟩
  · have hk0 := hk.1
    have hr := rootDeg_ne hk0 h0
    have hcast : ((k.toNat : ℕ) : ℝ) = (k : ℝ) := by exact_mod_cast Int.toNat_of_nonneg hk0
    rw [(hv.cf hc hk h0).1, (hv.cf hc hk h0).2, if_neg (by omega), if_neg (by omega), hcast]
    unfold rootDeg at hr ⊢
    constructor
    · field_simp
      linear_combination (v k l) * Complex.I_sq
    · field_simp

/-- C117: the field of a vector set is divergence free exactly when every coefficient of `scoef2` with `n ≥ 1` is zero, and has no radial curl exactly when
every coefficient of `scoef1` with `n ≥ 1` is zero. -/
theorem c117_free (c : VectorCoefs ℂ) (v w : ℤ → ℤ → ℂ) (Eθ Eφ : ℝ → ℝ → ℂ)
    (hE : JacksonField c.nmax c.mmax v w Eθ Eφ) :
    (SurfaceDivergence Eθ Eφ (fun _ _ => 0) ↔ ∀ n m, IsMode c.nmax c.mmax n m → n ≠ 0 → w n m = 0) ∧
    (RadialCurl Eθ Eφ (fun _ _ => 0) ↔ ∀ n m, IsMode c.nmax c.mmax n m → n ≠ 0 → v n m = 0) := by
  have hI := Complex.I_ne_zero
  constructor
  · constructor
    · intro h n m hm h0
      have := (series_zero_iff c.nmax c.mmax _).mp (fun θ φ => (congrFun (congrFun (divergence_series hE h) θ) φ).symm) n m hm
      exact (mul_eq_zero.mp this).resolve_left (rootDeg_ne hm.1 h0)
    · intro h
      have := series_divergence hE
      rwa [funext fun θ => funext fun φ => (series_zero_iff c.nmax c.mmax (fun n m => rootDeg n * w n m)).mpr (fun n m hm => ?_) θ φ] at this
      by_cases h0 : n = 0
      · subst h0; unfold rootDeg; simp
      · rw [h n m hm h0, mul_zero]
  · constructor
    · intro h n m hm h0
      have := (series_zero_iff c.nmax c.mmax _).mp (fun θ φ => (congrFun (congrFun (radial_curl_series hE h) θ) φ).symm) n m hm
      exact (mul_eq_zero.mp this).resolve_left (mul_ne_zero hI (rootDeg_ne hm.1 h0))
    · intro h
      have := series_radial_curl hE
      rwa [funext fun θ => funext fun φ => (series_zero_iff c.nmax c.mmax (fun n m => Complex.I * rootDeg n * v n m)).mpr (fun n m hm => ?_) θ φ] at this
      by_cases h0 : n = 0
      · subst h0; unfold rootDeg; simp
      · rw [h n m hm h0, mul_zero]

/-- C117 (from samples): if `vspht` of the samples of a band-limited divergence-free field is computed, `scoef2` comes out zero for `n ≥ 1`; for a field
without radial curl `scoef1` does. -/
theorem c117_samples (b : Backend) (N M : ℤ) (h0 : 0 ≤ M) (hMN : M ≤ N) (v w : ℤ → ℤ → ℂ) (Eθ Eφ : ℝ → ℝ → ℂ) (hE : JacksonField N M v w Eθ Eφ)
    (nr nc : ℕ) (h1 : N + 2 ≤ nr) (h2 : 2 * M + 2 ≤ nc) (h3 : nc % 2 = 0) (hsz : nr ≤ 2 ^ 28) :
    ∃ p c, TPatt.init (.arr (sampleAngles nr nc Eθ)) (.arr (sampleAngles nr nc Eφ)) false = .ok p ∧ vspht b p (some N) (some M) = .ok c ∧
      (SurfaceDivergence Eθ Eφ (fun _ _ => 0) ↔ ∀ n m, IsMode N M n m → n ≠ 0 → ∃ x, readMapV c n m = some (x, 0)) ∧
      (RadialCurl Eθ Eφ (fun _ _ => 0) ↔ ∀ n m, IsMode N M n m → n ≠ 0 → ∃ x, readMapV c n m = some (0, x)) := by
  obtain ⟨p, c, e1, e2, e3, e4, e5, e6⟩ := vspht_samples b N M h0 hMN v w Eθ Eφ hE nr nc h1 h2 h3 hsz
  subst e4 e5
  have hf := c117_free c v w Eθ Eφ hE
  refine ⟨p, c, e1, e2, hf.1.trans ⟨fun h n m hm hn => ⟨v n m, ?_⟩, fun h n m hm hn => ?_⟩, hf.2.trans ⟨fun h n m hm hn => ⟨w n m, ?_⟩, fun h n m hm hn => ?_⟩⟩
  · rw [e6 n m hm hn, h n m hm hn]
  · obtain ⟨x, hx⟩ := h n m hm hn
    rw [e6 n m hm hn] at hx
    exact (Prod.mk.inj (Option.some.inj hx)).2
  · rw [e6 n m hm hn, h n m hm hn]
  · obtain ⟨x, hx⟩ := h n m hm hn
    rw [e6 n m hm hn] at hx
    exact (Prod.mk.inj (Option.some.inj hx)).1

/-! ### The hypotheses are met -/

/-- A set with non-zero entries in both components, its field, its divergence and its curl. -/
example : ∃ (c : VectorCoefs ℂ) (v w : ℤ → ℤ → ℂ) (Eθ Eφ D R : ℝ → ℝ → ℂ), c.WellFormed ∧ HasCoefsV c v w ∧ v 2 1 = 5 ∧ w 1 0 = Complex.I ∧
    JacksonField c.nmax c.mmax v w Eθ Eφ ∧ SurfaceDivergence Eθ Eφ D ∧ RadialCurl Eθ Eφ R ∧ D ≠ 0 ∧ R ≠ 0 := by
  obtain ⟨c, hc, hn, hm, hv, -⟩ := exists_coefsV 2 1 (by norm_num) (by norm_num) (fun n m => if n = 2 ∧ m = 1 then 5 else 0)
    (fun n m => if n = 1 ∧ m = 0 then Complex.I else 0)
  obtain ⟨-, Fθ, Fφ, -, hJ, -⟩ := c50_vispht .py c hc _ _ hv 4 4 (by omega) (by omega) (by omega)
  have hf := c117_free c _ _ Fθ Fφ hJ
  have m1 : IsMode c.nmax c.mmax 2 1 := by rw [isMode_iff]; omega
  have m2 : IsMode c.nmax c.mmax 1 0 := by rw [isMode_iff]; omega
  refine ⟨c, _, _, Fθ, Fφ, _, _, hc, hv, by simp, by simp, hJ, series_divergence hJ, series_radial_curl hJ, fun h => ?_, fun h => ?_⟩
  · have a := series_divergence hJ
    rw [h] at a
    have := hf.1.mp a 1 0 m2 (by norm_num)
    simp [Complex.I_ne_zero] at this
  · have a := series_radial_curl hJ
    rw [h] at a
    have := hf.2.mp a 2 1 m1 (by norm_num)
    simp at this

end Verif.Props
