import Verif.Math.Product
import Verif.Props.Calculus2
/-!
# Property C113: products of band-limited patterns
-/
namespace Verif.Props
open Verif Finset

/-- `f` is band limited: a series with degrees up to `N` and orders up to `M`. -/
def BandLimited (N M : ℤ) (f : ℝ → ℝ → ℂ) : Prop := ∃ u, ∀ θ φ, f θ φ = shSeries N M u θ φ

theorem band_add {N M : ℤ} {f g : ℝ → ℝ → ℂ} (hf : BandLimited N M f) (hg : BandLimited N M g) : BandLimited N M fun θ φ => f θ φ + g θ φ := by
  obtain ⟨u, hu⟩ := hf
  obtain ⟨w, hw⟩ := hg
  refine ⟨fun n m => u n m + w n m, fun θ φ => ?_⟩
  beta_reduce
  rw [hu, hw]
  unfold shSeries
  rw [← sum_add_distrib]
  exact sum_congr rfl fun p _ => by ring

theorem band_mul {N M : ℤ} {f : ℝ → ℝ → ℂ} (a : ℂ) (hf : BandLimited N M f) : BandLimited N M fun θ φ => a * f θ φ := by
  obtain ⟨u, hu⟩ := hf
  refine ⟨fun n m => a * u n m, fun θ φ => ?_⟩
  beta_reduce
  rw [hu]
  unfold shSeries
  rw [mul_sum]
  exact sum_congr rfl fun p _ => by ring

theorem band_zero (N M : ℤ) : BandLimited N M fun _ _ => 0 := ⟨fun _ _ => 0, fun θ φ => by unfold shSeries; simp⟩

theorem band_sum {ι : Type} [DecidableEq ι] {N M : ℤ} (s : Finset ι) (F : ι → ℝ → ℝ → ℂ) (h : ∀ i ∈ s, BandLimited N M (F i)) :
    BandLimited N M fun θ φ => ∑ i ∈ s, F i θ φ := by
  induction s using Finset.induction_on with
  | empty => simpa using band_zero N M
  | insert a s ha ih =>
    simp only [sum_insert ha]
    exact band_add (h a (mem_insert_self a s)) (ih fun i hi => h i (mem_insert_of_mem hi))

theorem band_congr {N M : ℤ} {f g : ℝ → ℝ → ℂ} (h : ∀ θ φ, f θ φ = g θ φ) (hg : BandLimited N M g) : BandLimited N M f := by
  obtain ⟨u, hu⟩ := hg
  exact ⟨u, fun θ φ => (h θ φ).trans (hu θ φ)⟩

/-- One harmonic is band limited. -/
theorem band_one {N M : ℤ} (n : ℕ) (m : ℤ) (h : IsMode N M n m) : BandLimited N M (sphY n m) := by
  classical
  refine ⟨fun k l => if (k, l) = ((n : ℤ), m) then 1 else 0, fun θ φ => ?_⟩
  unfold shSeries
  rw [sum_eq_single ((n : ℤ), m) (fun p _ hp => by beta_reduce; rw [if_neg hp, zero_mul]) fun hn => absurd (mem_modes.mpr h) hn]
  simp

/-- The product of two band-limited functions is band limited, and the limits add. -/
theorem band_product {N₁ M₁ N₂ M₂ : ℤ} {f g : ℝ → ℝ → ℂ} (hf : BandLimited N₁ M₁ f) (hg : BandLimited N₂ M₂ g) :
    BandLimited (N₁ + N₂) (M₁ + M₂) fun θ φ => f θ φ * g θ φ := by
  classical
  obtain ⟨u, hu⟩ := hf
  obtain ⟨w, hw⟩ := hg
  have e : ∀ θ φ, f θ φ * g θ φ = ∑ p ∈ modes N₁ M₁, ∑ q ∈ modes N₂ M₂, (u p.1 p.2 * w q.1 q.2) * (sphY p.1.toNat p.2 θ φ * sphY q.1.toNat q.2 θ φ) := by
    intro θ φ
    rw [hu, hw]
    unfold shSeries
    rw [sum_mul_sum]
    exact sum_congr rfl fun p _ => sum_congr rfl fun q _ => by ring
  refine band_congr e (band_sum _ _ fun p hp => band_sum _ _ fun q hq => band_mul _ ?_)
  have h1 := mem_modes.mp hp
  have h2 := mem_modes.mp hq
  rw [isMode_iff] at h1 h2
  obtain ⟨a, ha⟩ := sphY_product p.1.toNat q.1.toNat p.2 q.2 (by omega) (by omega)
  refine band_congr ha (band_sum _ _ fun k hk => band_mul _ (band_one k _ ?_))
  rw [mem_Icc] at hk
  rw [isMode_iff]
  omega

/-- The conjugate of a band-limited function is band limited. -/
theorem band_conj {N M : ℤ} {f : ℝ → ℝ → ℂ} (hf : BandLimited N M f) : BandLimited N M fun θ φ => (starRingEnd ℂ) (f θ φ) := by
  classical
  obtain ⟨u, hu⟩ := hf
  have e : ∀ θ φ, (starRingEnd ℂ) (f θ φ) = ∑ p ∈ modes N M, (starRingEnd ℂ) (u p.1 p.2) * (starRingEnd ℂ) (sphY p.1.toNat p.2 θ φ) := by
    intro θ φ
    rw [hu]
    unfold shSeries
    rw [map_sum]
    exact sum_congr rfl fun p _ => by rw [map_mul]
  refine band_congr e (band_sum _ _ fun p hp => band_mul _ ?_)
  have h := mem_modes.mp hp
  rw [isMode_iff] at h
  have hY := sphY_conj p.1.toNat p.2
  refine band_congr hY (band_mul _ (band_one _ _ ?_))
  rw [isMode_iff]
  omega

/-! ## Coefficients and patterns of band-limited functions -/

/-- The coefficients of a series are the integrals against the conjugate harmonics. -/
theorem series_coef (N M : ℤ) (u : ℤ → ℤ → ℂ) (n m : ℤ) (h : IsMode N M n m) :
    sphInt (fun θ φ => shSeries N M u θ φ * (starRingEnd ℂ) (sphY n.toNat m θ φ)) = u n m := by
  have e : ∀ θ φ, shSeries N M u θ φ * (starRingEnd ℂ) (sphY n.toNat m θ φ) =
      ∑ p ∈ modes N M, u p.1 p.2 * (sphY p.1.toNat p.2 θ φ * (starRingEnd ℂ) (sphY n.toNat m θ φ)) := fun θ φ => by
    unfold shSeries
    rw [sum_mul]
    exact sum_congr rfl fun p _ => by ring
  simp only [e]
  rw [sphInt_sum _ _ fun p _ => continuous_const.mul ((continuous_sphY p.1.toNat p.2).mul (Complex.continuous_conj.comp (continuous_sphY n.toNat m)))]
  rw [sum_eq_single (n, m) (fun p hp hne => ?_) fun hn => absurd (mem_modes.mpr h) hn]
  · rw [isMode_iff] at h
    rw [sphInt_const_mul, c26_orthonormal _ _ _ _ (by omega) (by omega), if_pos ⟨rfl, rfl⟩, mul_one]
  · have hp' := mem_modes.mp hp
    rw [isMode_iff] at h hp'
    rw [sphInt_const_mul, c26_orthonormal _ _ _ _ (by omega) (by omega), if_neg, mul_zero]
    rintro ⟨a, b⟩
    exact hne (Prod.ext (by show p.1 = n; omega) b)

/-- A pattern whose double sphere is symmetric is the one built from its own single-sphere samples. -/
theorem init_of_array (p : SPatt ℂ) (D A : Arr2 ℂ) (hD : p.dsphere = .ok D) (hr : 2 ≤ D.rows) (he : D.rows % 2 = 0) (hc : D.cols % 2 = 0)
    (hs : DSym 1 D) (hA : p.array = .ok A) : SPatt.init (.arr A) false = .ok p := by
  obtain ⟨ds⟩ := p
  cases ds with
  | exc => cases hD
  | arr D' =>
    cases hD
    cases hA
    unfold SPatt.init
    simp only [continue_takeRows D 1 (Or.inl rfl) (by omega) (by omega) (by omega) hs]
    rfl

/-- A pattern holding the samples of a band-limited function: `spht` with limits at least those of the function returns coefficients of the function,
and `ispht` of the result is the pattern itself. -/
theorem band_round_trip (b b' : Backend) (N M : ℤ) (h0 : 0 ≤ M) (hMN : M ≤ N) (f : ℝ → ℝ → ℂ) (hf : BandLimited N M f) (nr nc : ℕ)
    (h1 : N + 2 ≤ nr) (h2 : 2 * M + 2 ≤ nc) (h3 : nc % 2 = 0) (hsz : nr ≤ 2 ^ 28) :
    ∃ p c, SPatt.init (.arr (sampleAngles nr nc f)) false = .ok p ∧ p.array = .ok (sampleAngles nr nc f) ∧
      spht b p (some N) (some M) = .ok c ∧ c.WellFormed ∧ c.nmax = N ∧ c.mmax = M ∧
      (∀ n m, IsMode N M n m → readMap c n m = some (sphInt fun θ φ => f θ φ * (starRingEnd ℂ) (sphY n.toNat m θ φ))) ∧
      ispht b' c (some nr) (some nc) = .ok p := by
  obtain ⟨u, hu⟩ := hf
  have hfu : f = shSeries N M u := funext fun θ => funext fun φ => hu θ φ
  subst hfu
  obtain ⟨p, c, e1, e2, e3, rfl, rfl, e6⟩ := spht_samples b N M h0 hMN u nr nc h1 h2 h3 hsz
  obtain ⟨q, g1, g2⟩ := ispht_samples b' c e3 u e6 nr nc h1 h2 h3
  obtain ⟨q', D, k1, k2, k3, k4, k5, -⟩ := c37_ispht b' c e3 nr nc h1 h2 (by omega)
  rw [g1] at k1; cases k1
  have hpq : p = q := by
    have := init_of_array q D _ k2 (by omega) (by omega) (by omega) k5 g2
    rw [e1] at this
    cases this; rfl
  subst hpq
  exact ⟨p, c, e1, g2, e2, e3, rfl, rfl, fun n m hm => by rw [e6 n m hm, series_coef _ _ _ _ _ hm], g1⟩

theorem at'_zip {A B : Arr2 ℂ} (op : ℂ → ℂ → ℂ) {i j : ℕ} (hi : i < A.rows) (hj : j < A.cols) :
    (A.zip op B).at' i j = op (A.at' i j) (B.at' i j) := by
  unfold Arr2.zip
  rw [Arr2.at'_ofFn hi hj]

/-- The product of two symmetric patterns is symmetric. -/
theorem dsym_mul {A B : Arr2 ℂ} (hA : DSym 1 A) (hB : DSym 1 B) (hr : A.rows = B.rows) (hc : A.cols = B.cols) : DSym 1 (A.zip (· * ·) B) := by
  intro n m hn hm
  replace hn : n < A.rows := hn
  replace hm : m < A.cols := hm
  have a := hA n m hn hm
  have b := hB n m (by omega) (by omega)
  show (A.zip (· * ·) B).at' n m = 1 * (A.zip (· * ·) B).at' ((A.rows - n) % A.rows) ((m + A.cols / 2) % A.cols)
  rw [at'_zip _ hn hm, at'_zip _ (Nat.mod_lt _ (by omega)) (Nat.mod_lt _ (by omega)), a, b, hr, hc]
  ring

/-- C113: the pointwise product of two synthesised patterns is analysed without aliasing when the grid resolves the sum of the limits: `spht` returns the
coefficients of the product of the two functions, and `ispht` returns the product pattern. -/
theorem c113_product (b b₁ b₂ b₃ : Backend) (c d : ScalarCoefs ℂ) (hc : c.WellFormed) (hd : d.WellFormed) (v w : ℤ → ℤ → ℂ) (hv : HasCoefs c v)
    (hw : HasCoefs d w) (nr nc : ℕ) (h1 : c.nmax + d.nmax + 2 ≤ nr) (h2 : 2 * (c.mmax + d.mmax) + 2 ≤ nc) (h3 : nc % 2 = 0) (hsz : nr ≤ 2 ^ 28) :
    ∃ p q r e, ispht b₁ c (some nr) (some nc) = .ok p ∧ ispht b₂ d (some nr) (some nc) = .ok q ∧ p.opLeft .mul (.obj q) = .ok r ∧
      r.array = .ok (sampleAngles nr nc fun θ φ => shSeries c.nmax c.mmax v θ φ * shSeries d.nmax d.mmax w θ φ) ∧
      spht b r (some (c.nmax + d.nmax)) (some (c.mmax + d.mmax)) = .ok e ∧ e.WellFormed ∧ e.nmax = c.nmax + d.nmax ∧ e.mmax = c.mmax + d.mmax ∧
      (∀ n m, IsMode (c.nmax + d.nmax) (c.mmax + d.mmax) n m → readMap e n m = some (sphInt fun θ φ =>
        shSeries c.nmax c.mmax v θ φ * shSeries d.nmax d.mmax w θ φ * (starRingEnd ℂ) (sphY n.toNat m θ φ))) ∧
      ispht b₃ e (some nr) (some nc) = .ok r := by
  have c0 := hc.wf.m0
  have c1 := hc.wf.mn
  have d0 := hd.wf.m0
  have d1 := hd.wf.mn
  obtain ⟨p, p1, p2⟩ := ispht_samples b₁ c hc v hv nr nc (by omega) (by omega) h3
  obtain ⟨p', A, p1', p3, p4, p5, p6, -⟩ := c37_ispht b₁ c hc nr nc (by omega) (by omega) (by omega)
  rw [p1] at p1'; cases p1'
  obtain ⟨q, q1, q2⟩ := ispht_samples b₂ d hd w hw nr nc (by omega) (by omega) h3
  obtain ⟨q', B, q1', q3, q4, q5, q6, -⟩ := c37_ispht b₂ d hd nr nc (by omega) (by omega) (by omega)
  rw [q1] at q1'; cases q1'
  have hf : BandLimited (c.nmax + d.nmax) (c.mmax + d.mmax) fun θ φ => shSeries c.nmax c.mmax v θ φ * shSeries d.nmax d.mmax w θ φ :=
    band_product ⟨v, fun _ _ => rfl⟩ ⟨w, fun _ _ => rfl⟩
  obtain ⟨r, e, r1, r2, r3, r4, r5, r6, r7, r8⟩ := band_round_trip b b₃ _ _ (by omega) (by omega) _ hf nr nc (by omega) (by omega) h3 hsz
  have hop : p.opLeft .mul (.obj q) = .ok ⟨.arr (A.zip (· * ·) B)⟩ := by
    unfold SPatt.opLeft
    simp only [p3, q3]
    show (if A.rows = B.rows ∧ A.cols = B.cols then _ else _) = _
    rw [if_pos ⟨by omega, by omega⟩]
    rfl
  have hS := dsym_mul p6 q6 (by omega) (by omega)
  have harr : (⟨.arr (A.zip (· * ·) B)⟩ : SPatt ℂ).array =
      .ok (sampleAngles nr nc fun θ φ => shSeries c.nmax c.mmax v θ φ * shSeries d.nmax d.mmax w θ φ) := by
    unfold SPatt.array at p2 q2 ⊢
    rw [p3] at p2
    rw [q3] at q2
    replace p2 : Except.ok (A.takeRows (A.rows / 2 + 1)) = _ := p2
    replace q2 : Except.ok (B.takeRows (B.rows / 2 + 1)) = _ := q2
    injection p2 with p2
    injection q2 with q2
    show Except.ok ((A.zip (· * ·) B).takeRows (A.rows / 2 + 1)) = _
    congr 1
    refine Arr2.ext' ?_ ?_ fun i j hi hj => ?_
    · have := congrArg Arr2.rows p2; exact this
    · have := congrArg Arr2.cols p2; exact this
    · have hi' : i < min (A.rows / 2 + 1) A.rows := hi
      have hj' : j < A.cols := hj
      have a := congrArg (fun X : Arr2 ℂ => X.at' i j) p2
      have b := congrArg (fun X : Arr2 ℂ => X.at' i j) q2
      simp only [Arr2.takeRows, sampleAngles] at a b ⊢
      rw [Arr2.at'_ofFn (by omega) (by omega), Arr2.at'_ofFn (by omega) (by omega)] at a
      rw [Arr2.at'_ofFn (by omega) (by omega), Arr2.at'_ofFn (by omega) (by omega)] at b
      rw [Arr2.at'_ofFn (by exact hi') (by exact hj'), Arr2.at'_ofFn (by omega) (by omega), at'_zip _ (by omega) hj', a, b]
  have hr : r = ⟨.arr (A.zip (· * ·) B)⟩ := by
    have := init_of_array ⟨.arr (A.zip (· * ·) B)⟩ _ _ rfl (by show 2 ≤ A.rows; omega) (by show A.rows % 2 = 0; omega) (by show A.cols % 2 = 0; omega) hS harr
    rw [r1] at this
    cases this; rfl
  subst hr
  exact ⟨p, q, _, e, p1, q1, hop, r2, r3, r4, r5, r6, r7, r8⟩

end Verif.Props
