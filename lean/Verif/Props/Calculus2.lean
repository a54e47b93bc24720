import Verif.Props.Calculus
import Mathlib.Analysis.SpecialFunctions.ExpDeriv
/-!
# Property C112: the theorems about the public functions
-/
namespace Verif.Props
open Verif Finset

/-- The window `[f(0), f(1), ..., f(nmax)]`. -/
def degreeWindow (nmax : ℤ) (f : ℕ → ℂ) : List ℂ := (List.range (nmax + 1).toNat).map f

/-- A window made from a function of the degree multiplies every coefficient of degree `n` by `f n`. -/
theorem window_coefs (c : ScalarCoefs ℂ) (hc : c.WellFormed) (v : ℤ → ℤ → ℂ) (hv : HasCoefs c v) (f : ℕ → ℂ) :
    ∃ d, c.window (degreeWindow c.nmax f) = ⟨d, none⟩ ∧ d.WellFormed ∧ d.nmax = c.nmax ∧ d.mmax = c.mmax ∧
      HasCoefs d fun n m => v n m * f n.toNat := by
  have hn : 0 ≤ c.nmax := le_trans hc.wf.m0 hc.wf.mn
  obtain ⟨d, e1, e2, e3, e4, e5⟩ := c08_window c hc (degreeWindow c.nmax f) (by unfold degreeWindow; simp; omega)
  refine ⟨d, e1, e2, e3, e4, fun n m hm => ?_⟩
  rw [e3, e4] at hm
  obtain ⟨x, f1, f2⟩ := e5 n m (v n m) (hv n m hm)
  rw [f2]
  unfold degreeWindow at f1
  rw [isMode_iff] at hm
  rw [List.getElem?_map, List.getElem?_range (by omega)] at f1
  simp only [Option.map_some, Option.some.injEq] at f1
  subst f1; rfl

theorem series_congr {N M : ℤ} {v w : ℤ → ℤ → ℂ} (h : ∀ n m, IsMode N M n m → v n m = w n m) : shSeries N M v = shSeries N M w := by
  funext θ φ
  unfold shSeries
  exact sum_congr rfl fun p hp => by rw [h p.1 p.2 (mem_modes.mp hp)]

/-- `ispht` of a coefficient set with coefficients `v` holds the samples of the series. -/
theorem ispht_samples (b : Backend) (c : ScalarCoefs ℂ) (hc : c.WellFormed) (v : ℤ → ℤ → ℂ) (hv : HasCoefs c v) (nr nc : ℕ)
    (h1 : c.nmax + 2 ≤ nr) (h2 : 2 * c.mmax + 2 ≤ nc) (h3 : nc % 2 = 0) :
    ∃ p, ispht b c (some nr) (some nc) = .ok p ∧ p.array = .ok (sampleAngles nr nc (shSeries c.nmax c.mmax v)) := by
  obtain ⟨p, A, e1, e2, e3, e4, e5⟩ := c30_ispht b c hc v hv nr nc h1 h2 (by omega)
  refine ⟨p, e1, e2.trans (congrArg _ ?_)⟩
  refine Arr2.ext' (by exact_mod_cast e3) (by exact_mod_cast e4) fun i j hi hj => ?_
  rw [e5 i j hi hj]
  unfold sampleAngles
  rw [Arr2.at'_ofFn (by omega) (by omega)]
  push_cast; rfl

/-- A pattern built from the samples of a band-limited function of the angles is analysed exactly. -/
theorem spht_samples (b : Backend) (N M : ℤ) (h0 : 0 ≤ M) (hMN : M ≤ N) (v : ℤ → ℤ → ℂ) (nr nc : ℕ) (h1 : N + 2 ≤ nr) (h2 : 2 * M + 2 ≤ nc)
    (h3 : nc % 2 = 0) (hsz : nr ≤ 2 ^ 28) :
    ∃ p c, SPatt.init (.arr (sampleAngles nr nc (shSeries N M v))) false = .ok p ∧ spht b p (some N) (some M) = .ok c ∧
      c.WellFormed ∧ c.nmax = N ∧ c.mmax = M ∧ HasCoefs c v := by
  have hF : ∀ θ φ, (fun x => ∑ p ∈ modes N M, v p.1 p.2 * Rot.Yv p.1.toNat p.2 x) (Rot.pt θ φ) = shSeries N M v θ φ := fun θ φ => by
    unfold shSeries; simp only [Rot.Yv_pt]
  have e : sampleGrid nr nc (fun x => ∑ p ∈ modes N M, v p.1 p.2 * Rot.Yv p.1.toNat p.2 x) = sampleAngles nr nc (shSeries N M v) := by
    unfold sampleGrid sampleAngles
    simp only [← hF]
  rw [← e]
  exact c90_sampled b N M h0 hMN v _ hF nr nc h1 h2 h3 hsz

/-- `vispht` of a set with coefficients `(v, w)` holds the samples of the components of the field. -/
theorem vispht_samples (b : Backend) (c : VectorCoefs ℂ) (hc : c.WellFormed) (v w : ℤ → ℤ → ℂ) (hv : HasCoefsV c v w) (Eθ Eφ : ℝ → ℝ → ℂ)
    (hE : JacksonField c.nmax c.mmax v w Eθ Eφ) (nr nc : ℕ) (h1 : c.nmax + 2 ≤ nr) (h2 : 2 * c.mmax + 2 ≤ nc) (h3 : nc % 2 = 0) :
    ∃ p, vispht b c (some nr) (some nc) = .ok p ∧ p.theta = sampleAngles nr nc Eθ ∧ p.phi = sampleAngles nr nc Eφ := by
  obtain ⟨p, Fθ, Fφ, e1, hJ, e2, e3, e4, e5, e6⟩ := c50_vispht b c hc v w hv nr nc h1 h2 (by omega)
  have hcl : Fθ = Eθ ∧ Fφ = Eφ :=
    ⟨funext fun θ => funext fun φ => by rw [(jackson_closed hJ θ φ).1, (jackson_closed hE θ φ).1],
      funext fun θ => funext fun φ => by rw [(jackson_closed hJ θ φ).2, (jackson_closed hE θ φ).2]⟩
  rw [hcl.1, hcl.2] at e6
  refine ⟨p, e1, ?_, ?_⟩
  · refine Arr2.ext' (by exact_mod_cast e2) (by exact_mod_cast e3) fun i j hi hj => ?_
    rw [(e6 i j hi hj).1]
    unfold sampleAngles
    rw [Arr2.at'_ofFn (by omega) (by omega)]
    push_cast; rfl
  · refine Arr2.ext' (by exact_mod_cast e4) (by exact_mod_cast e5) fun i j hi hj => ?_
    rw [(e6 i j (by omega) (by omega)).2]
    unfold sampleAngles
    rw [Arr2.at'_ofFn (by omega) (by omega)]
    push_cast; rfl

/-- A transverse pattern built from the samples of the components of a band-limited field is analysed exactly. -/
theorem vspht_samples (b : Backend) (N M : ℤ) (h0 : 0 ≤ M) (hMN : M ≤ N) (v w : ℤ → ℤ → ℂ) (Eθ Eφ : ℝ → ℝ → ℂ) (hE : JacksonField N M v w Eθ Eφ)
    (nr nc : ℕ) (h1 : N + 2 ≤ nr) (h2 : 2 * M + 2 ≤ nc) (h3 : nc % 2 = 0) (hsz : nr ≤ 2 ^ 28) :
    ∃ p c, TPatt.init (.arr (sampleAngles nr nc Eθ)) (.arr (sampleAngles nr nc Eφ)) false = .ok p ∧ vspht b p (some N) (some M) = .ok c ∧
      c.WellFormed ∧ c.nmax = N ∧ c.mmax = M ∧ HasCoefsV c v w := by
  obtain ⟨c, hc, rfl, rfl, hv, z1, z2⟩ := exists_coefsV N M h0 hMN v w
  obtain ⟨p, e1, e2, e3⟩ := vispht_samples .py c hc v w hv Eθ Eφ hE nr nc h1 h2 h3
  obtain ⟨p', f1, f2⟩ := c33_round_trip .py b c hc z1 z2 nr nc h1 h2 (by omega) (by exact_mod_cast hsz)
  obtain ⟨p'', g1, g2, g3, g4, g5, g6, g7, -⟩ := c37_vispht .py c hc nr nc h1 h2 (by omega)
  rw [e1] at f1 g1
  cases f1; cases g1
  have hn0 : 0 ≤ c.nmax := h0.trans hMN
  refine ⟨p, c, ?_, f2, hc, rfl, rfl, hv⟩
  have hT : sampleAngles nr nc Eθ = p.td.takeRows (p.td.rows / 2 + 1) := e2.symm
  have hP : sampleAngles nr nc Eφ = p.pd.takeRows (p.pd.rows / 2 + 1) := by
    have hr : p.pd.rows = p.td.rows := by omega
    rw [hr]; exact e3.symm
  unfold TPatt.init
  simp only []
  rw [if_neg (by rw [not_not]; exact ⟨rfl, rfl⟩), hT, hP, continue_takeRows p.td (-1) (Or.inr rfl) (by omega) (by omega) (by omega) g6,
    continue_takeRows p.pd (-1) (Or.inr rfl) (by omega) (by omega) (by omega) g7]
  rfl

/-! ## C112 -/

/-- C112 (gradient): `vspht` of the sampled gradient of a band-limited function returns `(0, -sqrt(n(n+1)) v)`, and `vispht` of that set
returns the samples of the gradient. -/
theorem c112_gradient (b b' : Backend) (N M : ℤ) (h0 : 0 ≤ M) (hMN : M ≤ N) (v : ℤ → ℤ → ℂ) (Gθ Gφ : ℝ → ℝ → ℂ)
    (hG : SurfaceGradient (shSeries N M v) Gθ Gφ) (nr nc : ℕ) (h1 : N + 2 ≤ nr) (h2 : 2 * M + 2 ≤ nc) (h3 : nc % 2 = 0) (hsz : nr ≤ 2 ^ 28) :
    ∃ p c q, TPatt.init (.arr (sampleAngles nr nc Gθ)) (.arr (sampleAngles nr nc Gφ)) false = .ok p ∧ vspht b p (some N) (some M) = .ok c ∧
      c.WellFormed ∧ c.nmax = N ∧ c.mmax = M ∧
      (∀ n m, IsMode N M n m → n ≠ 0 → readMapV c n m = some (0, -(((Real.sqrt (n * (n + 1)) : ℝ) : ℂ) * v n m))) ∧
      vispht b' c (some nr) (some nc) = .ok q ∧ q.theta = sampleAngles nr nc Gθ ∧ q.phi = sampleAngles nr nc Gφ := by
  obtain ⟨p, c, e1, e2, e3, e4, e5, e6⟩ := vspht_samples b N M h0 hMN _ _ Gθ Gφ (gradient_field hG) nr nc h1 h2 h3 hsz
  obtain ⟨q, f1, f2, f3⟩ := vispht_samples b' c e3 _ _ e6 Gθ Gφ (by rw [e4, e5]; exact gradient_field hG) nr nc (by omega) (by omega) h3
  exact ⟨p, c, q, e1, e2, e3, e4, e5, fun n m hm hn => e6 n m (by rw [e4, e5]; exact hm) hn, f1, f2, f3⟩

/-- C112 (turned gradient): `vspht` of the samples of `r × ∇f = (-(1/sin θ) ∂f/∂φ, ∂f/∂θ)` returns `(i sqrt(n(n+1)) v, 0)`, and `vispht` of
that set returns the samples. -/
theorem c112_turned (b b' : Backend) (N M : ℤ) (h0 : 0 ≤ M) (hMN : M ≤ N) (v : ℤ → ℤ → ℂ) (Gθ Gφ : ℝ → ℝ → ℂ)
    (hG : SurfaceGradient (shSeries N M v) Gθ Gφ) (nr nc : ℕ) (h1 : N + 2 ≤ nr) (h2 : 2 * M + 2 ≤ nc) (h3 : nc % 2 = 0) (hsz : nr ≤ 2 ^ 28) :
    ∃ p c q, TPatt.init (.arr (sampleAngles nr nc fun θ φ => -Gφ θ φ)) (.arr (sampleAngles nr nc Gθ)) false = .ok p ∧
      vspht b p (some N) (some M) = .ok c ∧ c.WellFormed ∧ c.nmax = N ∧ c.mmax = M ∧
      (∀ n m, IsMode N M n m → n ≠ 0 → readMapV c n m = some (Complex.I * ((Real.sqrt (n * (n + 1)) : ℝ) : ℂ) * v n m, 0)) ∧
      vispht b' c (some nr) (some nc) = .ok q ∧ q.theta = sampleAngles nr nc (fun θ φ => -Gφ θ φ) ∧ q.phi = sampleAngles nr nc Gθ := by
  obtain ⟨p, c, e1, e2, e3, e4, e5, e6⟩ := vspht_samples b N M h0 hMN _ _ _ _ (curl_field hG) nr nc h1 h2 h3 hsz
  obtain ⟨q, f1, f2, f3⟩ := vispht_samples b' c e3 _ _ e6 _ _ (by rw [e4, e5]; exact curl_field hG) nr nc (by omega) (by omega) h3
  exact ⟨p, c, q, e1, e2, e3, e4, e5, fun n m hm hn => e6 n m (by rw [e4, e5]; exact hm) hn, f1, f2, f3⟩

/-- C112 (divergence): scaling the second component by `sqrt(n(n+1))` and calling `ispht` gives the samples of the divergence of the field that `vispht`
samples. -/
theorem c112_divergence (b b' : Backend) (c : VectorCoefs ℂ) (hc : c.WellFormed) (v w : ℤ → ℤ → ℂ) (hv : HasCoefsV c v w) (Eθ Eφ D : ℝ → ℝ → ℂ)
    (hE : JacksonField c.nmax c.mmax v w Eθ Eφ) (hD : SurfaceDivergence Eθ Eφ D)
    (nr nc : ℕ) (h1 : c.nmax + 2 ≤ nr) (h2 : 2 * c.mmax + 2 ≤ nc) (h3 : nc % 2 = 0) :
    ∃ q d p, vispht b' c (some nr) (some nc) = .ok q ∧ q.theta = sampleAngles nr nc Eθ ∧ q.phi = sampleAngles nr nc Eφ ∧
      c.scoef2.window (degreeWindow c.nmax fun n => ((Real.sqrt (n * (n + 1)) : ℝ) : ℂ)) = ⟨d, none⟩ ∧
      ispht b d (some nr) (some nc) = .ok p ∧ p.array = .ok (sampleAngles nr nc D) := by
  obtain ⟨q, q1, q2, q3⟩ := vispht_samples b' c hc v w hv Eθ Eφ hE nr nc h1 h2 h3
  obtain ⟨d, e1, e2, e3, e4, e5⟩ := window_coefs c.scoef2 hc.wf2 _ (hasCoefs_cf hc.wf2) fun n => ((Real.sqrt (n * (n + 1)) : ℝ) : ℂ)
  rw [hc.n2] at e1 e3
  rw [hc.m2] at e4
  obtain ⟨p, f1, f2⟩ := ispht_samples b d e2 _ e5 nr nc (by omega) (by omega) h3
  refine ⟨q, d, p, q1, q2, q3, e1, f1, f2.trans ?_⟩
  rw [divergence_series hE hD, e3, e4]
  congr 2
  refine series_congr fun n m hm => ?_
  have hn := hm.1
  by_cases h : n = 0
  · subst h; unfold rootDeg; simp
  · rw [(hv.cf hc hm h).2]
    unfold rootDeg
    have : ((n.toNat : ℕ) : ℝ) = (n : ℝ) := by exact_mod_cast Int.toNat_of_nonneg hn
    rw [this]; ring

/-- C112 (curl): scaling the first component by `i sqrt(n(n+1))` and calling `ispht` gives the samples of the radial component of the curl. -/
theorem c112_curl (b b' : Backend) (c : VectorCoefs ℂ) (hc : c.WellFormed) (v w : ℤ → ℤ → ℂ) (hv : HasCoefsV c v w) (Eθ Eφ R : ℝ → ℝ → ℂ)
    (hE : JacksonField c.nmax c.mmax v w Eθ Eφ) (hR : RadialCurl Eθ Eφ R)
    (nr nc : ℕ) (h1 : c.nmax + 2 ≤ nr) (h2 : 2 * c.mmax + 2 ≤ nc) (h3 : nc % 2 = 0) :
    ∃ q d p, vispht b' c (some nr) (some nc) = .ok q ∧ q.theta = sampleAngles nr nc Eθ ∧ q.phi = sampleAngles nr nc Eφ ∧
      c.scoef1.window (degreeWindow c.nmax fun n => Complex.I * ((Real.sqrt (n * (n + 1)) : ℝ) : ℂ)) = ⟨d, none⟩ ∧
      ispht b d (some nr) (some nc) = .ok p ∧ p.array = .ok (sampleAngles nr nc R) := by
  obtain ⟨q, q1, q2, q3⟩ := vispht_samples b' c hc v w hv Eθ Eφ hE nr nc h1 h2 h3
  obtain ⟨d, e1, e2, e3, e4, e5⟩ := window_coefs c.scoef1 hc.wf1 _ (hasCoefs_cf hc.wf1) fun n => Complex.I * ((Real.sqrt (n * (n + 1)) : ℝ) : ℂ)
  rw [hc.n1] at e1 e3
  rw [hc.m1] at e4
  obtain ⟨p, f1, f2⟩ := ispht_samples b d e2 _ e5 nr nc (by omega) (by omega) h3
  refine ⟨q, d, p, q1, q2, q3, e1, f1, f2.trans ?_⟩
  rw [radial_curl_series hE hR, e3, e4]
  congr 2
  refine series_congr fun n m hm => ?_
  have hn := hm.1
  by_cases h : n = 0
  · subst h; unfold rootDeg; simp
  · rw [(hv.cf hc hm h).1]
    unfold rootDeg
    have : ((n.toNat : ℕ) : ℝ) = (n : ℝ) := by exact_mod_cast Int.toNat_of_nonneg hn
    rw [this]; ring

theorem toNat_cast {N M n m : ℤ} (h : IsMode N M n m) : ((n.toNat : ℕ) : ℂ) = (n : ℂ) := by exact_mod_cast Int.toNat_of_nonneg h.1

/-- C112 (Laplacian): the window `-n(n+1)` followed by `ispht` gives the samples of the surface Laplacian; and `spht` of these samples returns
the coefficients `-n(n+1) v`. -/
theorem c112_laplacian (b b' : Backend) (c : ScalarCoefs ℂ) (hc : c.WellFormed) (v : ℤ → ℤ → ℂ) (hv : HasCoefs c v) (L : ℝ → ℝ → ℂ)
    (hL : SurfaceLaplacian (shSeries c.nmax c.mmax v) L) (nr nc : ℕ) (h1 : c.nmax + 2 ≤ nr) (h2 : 2 * c.mmax + 2 ≤ nc) (h3 : nc % 2 = 0)
    (hsz : nr ≤ 2 ^ 28) :
    ∃ d p q, c.window (degreeWindow c.nmax fun n => -((n : ℂ) * (n + 1))) = ⟨d, none⟩ ∧ ispht b d (some nr) (some nc) = .ok p ∧
      p.array = .ok (sampleAngles nr nc L) ∧
      SPatt.init (.arr (sampleAngles nr nc L)) false = .ok q ∧ spht b' q (some c.nmax) (some c.mmax) = .ok d ∧
      ∀ n m, IsMode c.nmax c.mmax n m → readMap d n m = some (-(n * (n + 1)) * v n m) := by
  have hm0 := hc.wf.m0
  have hmn := hc.wf.mn
  obtain ⟨d, e1, e2, e3, e4, e5⟩ := window_coefs c hc v hv fun n => -((n : ℂ) * (n + 1))
  obtain ⟨p, f1, f2⟩ := ispht_samples b d e2 _ e5 nr nc (by omega) (by omega) h3
  have hs : shSeries d.nmax d.mmax (fun n m => v n m * -((n.toNat : ℂ) * (n.toNat + 1))) = L := by
    rw [laplacian_unique hL (series_laplacian _ _ _), e3, e4]
    exact series_congr fun n m hm => by rw [toNat_cast hm]; ring
  rw [hs] at f2
  obtain ⟨q, d', g1, g2, g3, g4, g5, g6⟩ := spht_samples b' c.nmax c.mmax hm0 hmn (fun n m => -(n * (n + 1)) * v n m) nr nc h1 h2 h3 hsz
  rw [← laplacian_unique hL (series_laplacian _ _ _)] at g1
  have hdd : d' = d := by
    refine ScalarCoefs.ext_modes g3.wf e2.wf (by omega) (by omega) fun n m hm => ?_
    have a := g6 n m hm
    have b := e5 n m (by rw [e3, e4, ← g4, ← g5]; exact hm)
    rw [readMap_eq g3.wf] at a
    rw [readMap_eq e2.wf] at b
    rw [a, b]
    beta_reduce
    rw [toNat_cast hm]
    congr 1; ring
  subst hdd
  exact ⟨d', p, q, e1, f1, f2, g1, g2, fun n m hm => g6 n m (by rw [g4, g5]; exact hm)⟩

/-- C112 (Poisson's equation): for a right hand side `Σ u_nm Y_nm` with zero mean, the window `-1/(n(n+1))` (and `0` at `n = 0`) gives the
coefficients of the solution of `Δf = Σ u_nm Y_nm` with zero mean, and `ispht` its samples. -/
theorem c112_poisson (b : Backend) (c : ScalarCoefs ℂ) (hc : c.WellFormed) (u : ℤ → ℤ → ℂ) (hu : HasCoefs c u) (hz : u 0 0 = 0)
    (nr nc : ℕ) (h1 : c.nmax + 2 ≤ nr) (h2 : 2 * c.mmax + 2 ≤ nc) (h3 : nc % 2 = 0) :
    ∃ d x p, c.window (degreeWindow c.nmax fun n => if n = 0 then 0 else -(1 / ((n : ℂ) * (n + 1)))) = ⟨d, none⟩ ∧ HasCoefs d x ∧ x 0 0 = 0 ∧
      SurfaceLaplacian (shSeries c.nmax c.mmax x) (shSeries c.nmax c.mmax u) ∧
      ispht b d (some nr) (some nc) = .ok p ∧ p.array = .ok (sampleAngles nr nc (shSeries c.nmax c.mmax x)) := by
  obtain ⟨d, e1, e2, e3, e4, e5⟩ := window_coefs c hc u hu fun n => if n = 0 then 0 else -(1 / ((n : ℂ) * (n + 1)))
  obtain ⟨p, f1, f2⟩ := ispht_samples b d e2 _ e5 nr nc (by omega) (by omega) h3
  refine ⟨d, _, p, e1, e5, ?_, ?_, f1, ?_⟩
  · simp
  · have := series_laplacian c.nmax c.mmax fun n m => u n m * if n.toNat = 0 then 0 else -(1 / ((n.toNat : ℂ) * (n.toNat + 1)))
    rwa [series_congr (v := fun n m => -(n * (n + 1)) * (u n m * if n.toNat = 0 then 0 else -(1 / ((n.toNat : ℂ) * (n.toNat + 1))))) (w := u) fun n m hm => ?_] at this
    have hn := hm.1
    by_cases h0 : n = 0
    · have : m = 0 := by rw [isMode_iff] at hm; omega
      subst h0 this; simp [hz]
    · rw [if_neg (by omega), toNat_cast hm]
      have a1 : (n : ℂ) ≠ 0 := by exact_mod_cast h0
      have a2 : (n : ℂ) + 1 ≠ 0 := by exact_mod_cast (show n + 1 ≠ 0 by omega)
      field_simp
  · rw [← e3, ← e4]; exact f2

/-- C112 (heat equation): the windows `exp(-n(n+1)t)` give, for every time `t`, the samples of the solution of `∂f/∂t = Δf` that starts from the
series of `c` at `t = 0`. -/
theorem c112_heat (b : Backend) (c : ScalarCoefs ℂ) (hc : c.WellFormed) (v : ℤ → ℤ → ℂ) (hv : HasCoefs c v)
    (nr nc : ℕ) (h1 : c.nmax + 2 ≤ nr) (h2 : 2 * c.mmax + 2 ≤ nc) (h3 : nc % 2 = 0) :
    ∃ x : ℝ → ℤ → ℤ → ℂ, (∀ θ φ, shSeries c.nmax c.mmax (x 0) θ φ = shSeries c.nmax c.mmax v θ φ) ∧
      (∀ t : ℝ, ∃ d p, c.window (degreeWindow c.nmax fun n => Complex.exp (-((n : ℂ) * (n + 1)) * t)) = ⟨d, none⟩ ∧ HasCoefs d (x t) ∧
        ispht b d (some nr) (some nc) = .ok p ∧ p.array = .ok (sampleAngles nr nc (shSeries c.nmax c.mmax (x t)))) ∧
      ∀ t : ℝ, ∃ L, SurfaceLaplacian (shSeries c.nmax c.mmax (x t)) L ∧
        ∀ θ φ, HasDerivAt (fun s => shSeries c.nmax c.mmax (x s) θ φ) (L θ φ) t := by
  refine ⟨fun t n m => v n m * Complex.exp (-((n.toNat : ℂ) * (n.toNat + 1)) * t), fun θ φ => ?_, fun t => ?_, fun t => ?_⟩
  · congr 1; funext n m; simp
  · obtain ⟨d, e1, e2, e3, e4, e5⟩ := window_coefs c hc v hv fun n => Complex.exp (-((n : ℂ) * (n + 1)) * t)
    obtain ⟨p, f1, f2⟩ := ispht_samples b d e2 _ e5 nr nc (by omega) (by omega) h3
    exact ⟨d, p, e1, e5, f1, by rw [← e3, ← e4]; exact f2⟩
  · refine ⟨_, series_laplacian _ _ _, fun θ φ => ?_⟩
    unfold shSeries
    refine HasDerivAt.fun_sum fun p hp => ?_
    have h : HasDerivAt (fun s : ℝ => -((p.1.toNat : ℂ) * (p.1.toNat + 1)) * (s : ℂ)) (-((p.1.toNat : ℂ) * (p.1.toNat + 1)) * 1) t :=
      (Complex.ofRealCLM.hasDerivAt (x := t)).const_mul _
    refine (((h.cexp).const_mul (v p.1 p.2)).mul_const (sphY p.1.toNat p.2 θ φ)).congr_deriv ?_
    beta_reduce
    rw [toNat_cast (mem_modes.mp hp)]; ring

/-! ### The hypotheses are met -/

/-- The gradient of `Y_20 + 3i Y_21` exists: every series has one. -/
theorem gradient_exists (N M : ℤ) (h0 : 0 ≤ M) (hMN : M ≤ N) (v : ℤ → ℤ → ℂ) : ∃ Gθ Gφ, SurfaceGradient (shSeries N M v) Gθ Gφ := by
  obtain ⟨c, hc, hn, hm, hv, -⟩ := exists_coefsV N M h0 hMN (fun _ _ => 0) (fun n m => -1 * rootDeg n * v n m)
  obtain ⟨-, Fθ, Fφ, -, hJ, -⟩ := c50_vispht .py c hc _ _ hv ((N + 2 : ℤ)) ((2 * M + 2 : ℤ)) (by omega) (by omega) (by omega)
  rw [hn, hm] at hJ
  refine ⟨Fθ, Fφ, hJ.contθ, hJ.contφ, fun θ φ => ?_, fun θ φ => ?_⟩
  · refine eq_of_sin hJ.contθ (g := fun θ φ => deriv (fun θ => shSeries N M v θ φ) θ) ?_ 1 (fun θ φ => ?_) θ φ
    · simp only [(series_dtheta N M v _ _).deriv]
      refine continuous_finsetSum _ fun p _ => ?_
      have := continuous_tPart p.1.toNat p.2
      fun_prop
    · have := hJ.eqθ θ φ
      rw [pow_one, this]
      simp only [potential_zero, potential_series, deriv_const, mul_zero, zero_sub, deriv_const_mul_field, series_dtheta_tail]
      ring
  · have := hJ.eqφ θ φ
    rw [this]
    simp only [potential_zero, potential_series, deriv_const, mul_zero, zero_sub, deriv_const_mul_field, series_dphi_tail]
    ring

example : ∃ Gθ Gφ, SurfaceGradient (shSeries 2 1 fun n m => if n = 2 ∧ m = 0 then 1 else if n = 2 ∧ m = 1 then 3 * Complex.I else 0) Gθ Gφ :=
  gradient_exists 2 1 (by norm_num) (by norm_num) _

end Verif.Props
