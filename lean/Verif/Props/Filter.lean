import Verif.Props.Product2
/-!
# Properties C115, C116: isotropic filters and resampling
-/
namespace Verif.Props
open Verif Finset

/-- A band-limited function on the sphere, turned: its coefficients are mixed degree by degree, with a matrix that does not depend on the function. -/
theorem rotated_series (Q : Matrix (Fin 3) (Fin 3) ℝ) (hQ : Q.transpose * Q = 1) : ∃ W : ℕ → ℤ → ℤ → ℂ,
    ∀ (N : ℕ) (v : ℤ → ℤ → ℂ) (F : (Fin 3 → ℝ) → ℂ), (∀ θ φ, F (Rot.pt θ φ) = shSeries N N v θ φ) →
      ∀ θ φ, F (Q.mulVec (Rot.pt θ φ)) = shSeries N N (fun k l => ∑ m ∈ Icc (-k) k, v k m * W k.toNat m l) θ φ := by
  choose W hW using fun n => Rot.wigner n Q hQ
  refine ⟨W, fun N v F hF θ φ => ?_⟩
  have hu := unit_pt θ φ
  obtain ⟨θ', φ', hp⟩ := Rot.sphere_angles _ (Rot.Orth.unit hQ hu)
  rw [hp, hF]
  unfold shSeries
  simp only [← Rot.Yv_pt, ← hp]
  rw [series_degrees N v (fun n m => Rot.Yv n.toNat m (Q.mulVec (Rot.pt θ φ))),
    series_degrees N (fun k l => ∑ m ∈ Icc (-k) k, v k m * W k.toNat m l) (fun n m => Rot.Yv n.toNat m (Rot.pt θ φ))]
  refine sum_congr rfl fun n hn => ?_
  rw [mem_Icc] at hn
  obtain ⟨n, rfl⟩ := Int.eq_ofNat_of_zero_le hn.1
  have h1 : ∀ m ∈ Icc (-(n : ℤ)) n, v n m * Rot.Yv ((n : ℤ).toNat) m (Q.mulVec (Rot.pt θ φ)) =
      ∑ k ∈ Icc (-(n : ℤ)) n, v n m * W n m k * Rot.Yv n k (Rot.pt θ φ) := by
    intro m hm
    rw [Int.toNat_natCast, (hW n).1 _ hu m hm, mul_sum]
    exact sum_congr rfl fun k _ => by ring
  rw [sum_congr rfl h1, sum_comm]
  refine sum_congr rfl fun k _ => ?_
  rw [sum_mul, Int.toNat_natCast]

/-- C115: filtering with a window commutes with rotating the function: there is one filtered function `G`, and for every orthogonal `Q` the chain
`spht`, `window`, `ispht` applied to the samples of `F` turned by `Q` gives the samples of `G` turned by `Q`, on every pair of grids that resolve the degree. -/
theorem c115_filter (f : ℕ → ℂ) (N : ℕ) (v : ℤ → ℤ → ℂ) (F : (Fin 3 → ℝ) → ℂ) (hF : ∀ θ φ, F (Rot.pt θ φ) = shSeries N N v θ φ) :
    ∃ G : (Fin 3 → ℝ) → ℂ, (∀ θ φ, G (Rot.pt θ φ) = shSeries N N (fun n m => v n m * f n.toNat) θ φ) ∧
      ∀ (Q : Matrix (Fin 3) (Fin 3) ℝ), Q.transpose * Q = 1 → ∀ (b b' : Backend) (nr nc nr' nc' : ℕ),
        N + 2 ≤ nr → 2 * N + 2 ≤ nc → nc % 2 = 0 → nr ≤ 2 ^ 28 → N + 2 ≤ nr' → 2 * N + 2 ≤ nc' → nc' % 2 = 0 →
        ∃ p c d q, SPatt.init (.arr (sampleGrid nr nc fun x => F (Q.mulVec x))) false = .ok p ∧ spht b p (some N) (some N) = .ok c ∧
          c.window (degreeWindow N f) = ⟨d, none⟩ ∧ ispht b' d (some nr') (some nc') = .ok q ∧
          q.array = .ok (sampleGrid nr' nc' fun x => G (Q.mulVec x)) := by
  have hG : ∀ θ φ, (fun x => ∑ p ∈ modes N N, v p.1 p.2 * f p.1.toNat * Rot.Yv p.1.toNat p.2 x) (Rot.pt θ φ) = shSeries N N (fun n m => v n m * f n.toNat) θ φ :=
    fun θ φ => by unfold shSeries; simp only [Rot.Yv_pt]
  refine ⟨fun x => ∑ p ∈ modes N N, v p.1 p.2 * f p.1.toNat * Rot.Yv p.1.toNat p.2 x, hG, fun Q hQ b b' nr nc nr' nc' g1 g2 g3 g4 k1 k2 k3 => ?_⟩
  obtain ⟨W, hW⟩ := rotated_series Q hQ
  obtain ⟨p, c, e1, e2, e3, e4, e5, e6⟩ := c90_sampled b N N (by omega) le_rfl _ (fun x => F (Q.mulVec x)) (hW N v F hF) nr nc
    (by exact_mod_cast g1) (by exact_mod_cast g2) g3 g4
  obtain ⟨d, f1, f2, f3, f4, f5⟩ := window_coefs c e3 _ e6 f
  rw [e4] at f1 f3
  rw [e5] at f4
  obtain ⟨q, q1, q2⟩ := ispht_samples b' d f2 _ f5 nr' nc' (by omega) (by omega) k3
  refine ⟨p, c, d, q, e1, e2, f1, q1, q2.trans (congrArg _ ?_)⟩
  unfold sampleAngles sampleGrid
  congr 1
  funext i j
  refine Eq.trans ?_ (hW N _ (fun x => ∑ p ∈ modes N N, v p.1 p.2 * f p.1.toNat * Rot.Yv p.1.toNat p.2 x) hG _ _).symm
  rw [f3, f4]
  refine congrFun (congrFun (series_congr fun n m hm => ?_) _) _
  beta_reduce
  rw [sum_mul]
  exact sum_congr rfl fun k _ => by ring

/-- C116 (scalar): analysing the samples of a band-limited function on one grid and synthesising on another gives its samples there; at the points that both
grids have in common the values are those that went in. -/
theorem c116_resample (b b' : Backend) (N M : ℤ) (h0 : 0 ≤ M) (hMN : M ≤ N) (f : ℝ → ℝ → ℂ) (hf : BandLimited N M f) (nr nc nr' nc' : ℕ)
    (h1 : N + 2 ≤ nr) (h2 : 2 * M + 2 ≤ nc) (h3 : nc % 2 = 0) (hsz : nr ≤ 2 ^ 28) (k1 : N + 2 ≤ nr') (k2 : 2 * M + 2 ≤ nc') (k3 : nc' % 2 = 0) :
    ∃ p c q, SPatt.init (.arr (sampleAngles nr nc f)) false = .ok p ∧ spht b p (some N) (some M) = .ok c ∧
      ispht b' c (some nr') (some nc') = .ok q ∧ q.array = .ok (sampleAngles nr' nc' f) ∧
      ∀ s t i j : ℕ, nr' - 1 = s * (nr - 1) → nc' = t * nc → i < nr → j < nc →
        (sampleAngles nr' nc' f).at' (s * i) (t * j) = (sampleAngles nr nc f).at' i j := by
  obtain ⟨u, hu⟩ := hf
  have hfu : f = shSeries N M u := funext fun θ => funext fun φ => hu θ φ
  subst hfu
  obtain ⟨p, c, e1, e2, e3, rfl, rfl, e6⟩ := spht_samples b N M h0 hMN u nr nc h1 h2 h3 hsz
  obtain ⟨q, g1, g2⟩ := ispht_samples b' c e3 u e6 nr' nc' k1 k2 k3
  refine ⟨p, c, q, e1, e2, g1, g2, fun s t i j hs ht hi hj => ?_⟩
  have hn0 : 0 ≤ c.nmax := h0.trans hMN
  have hs0 : 0 < s := Nat.pos_of_ne_zero fun h => by rw [h, zero_mul] at hs; omega
  have ht0 : 0 < t := Nat.pos_of_ne_zero fun h => by rw [h, zero_mul] at ht; omega
  have hsi : s * i ≤ s * (nr - 1) := Nat.mul_le_mul_left s (by omega)
  have htj : t * j < t * nc := Nat.mul_lt_mul_of_pos_left hj ht0
  unfold sampleAngles
  rw [Arr2.at'_ofFn (by omega) (by omega), Arr2.at'_ofFn hi hj]
  have hr : ((nr' : ℝ) - 1) = s * ((nr : ℝ) - 1) := by
    have a := congrArg (fun x : ℕ => (x : ℝ)) hs
    simp only [Nat.cast_mul] at a
    rw [Nat.cast_sub (by omega), Nat.cast_sub (by omega)] at a
    exact_mod_cast a
  have hcc : (nc' : ℝ) = t * nc := by exact_mod_cast ht
  have x1 : (s : ℝ) ≠ 0 := by exact_mod_cast hs0.ne'
  have x2 : (t : ℝ) ≠ 0 := by exact_mod_cast ht0.ne'
  congr 1
  · rw [hr]; push_cast
    rw [show Real.pi * ((s : ℝ) * i) = s * (Real.pi * i) by ring, mul_div_mul_left _ _ x1]
  · rw [hcc]; push_cast
    rw [show 2 * Real.pi * ((t : ℝ) * j) = t * (2 * Real.pi * j) by ring, mul_div_mul_left _ _ x2]

/-- C116 (transverse): the same for tangential fields. -/
theorem c116_resample_transverse (b b' : Backend) (N M : ℤ) (h0 : 0 ≤ M) (hMN : M ≤ N) (v w : ℤ → ℤ → ℂ) (Eθ Eφ : ℝ → ℝ → ℂ)
    (hE : JacksonField N M v w Eθ Eφ) (nr nc nr' nc' : ℕ)
    (h1 : N + 2 ≤ nr) (h2 : 2 * M + 2 ≤ nc) (h3 : nc % 2 = 0) (hsz : nr ≤ 2 ^ 28) (k1 : N + 2 ≤ nr') (k2 : 2 * M + 2 ≤ nc') (k3 : nc' % 2 = 0) :
    ∃ p c q, TPatt.init (.arr (sampleAngles nr nc Eθ)) (.arr (sampleAngles nr nc Eφ)) false = .ok p ∧ vspht b p (some N) (some M) = .ok c ∧
      vispht b' c (some nr') (some nc') = .ok q ∧ q.theta = sampleAngles nr' nc' Eθ ∧ q.phi = sampleAngles nr' nc' Eφ := by
  obtain ⟨p, c, e1, e2, e3, e4, e5, e6⟩ := vspht_samples b N M h0 hMN v w Eθ Eφ hE nr nc h1 h2 h3 hsz
  obtain ⟨q, f1, f2, f3⟩ := vispht_samples b' c e3 _ _ e6 Eθ Eφ (by rw [e4, e5]; exact hE) nr' nc' (by omega) (by omega) k3
  exact ⟨p, c, q, e1, e2, f1, f2, f3⟩

/-! ### The hypotheses are met -/

/-- C113, C114: a set with limits `(2, 1)` and one with limits `(3, 3)`; a grid of 9 rows and 10 columns resolves the product. -/
example : ∃ (c d : ScalarCoefs ℂ) (v w : ℤ → ℤ → ℂ), c.WellFormed ∧ d.WellFormed ∧ HasCoefs c v ∧ HasCoefs d w ∧ v 2 1 = 5 ∧ w 3 3 = Complex.I ∧
    c.nmax + d.nmax + 2 ≤ (9 : ℕ) ∧ 2 * (c.mmax + d.mmax) + 2 ≤ (10 : ℕ) ∧ 10 % 2 = 0 := by
  obtain ⟨c, hc, n1, m1, v1⟩ := exists_coefs 2 1 (by norm_num) (by norm_num) fun _ _ => 5
  obtain ⟨d, hd, n2, m2, v2⟩ := exists_coefs 3 3 (by norm_num) (by norm_num) fun _ _ => Complex.I
  exact ⟨c, d, _, _, hc, hd, v1, v2, rfl, rfl, by omega, by omega, rfl⟩

/-- The limits of the product cannot be lowered: `Y_11 · Y_11` has a coefficient of degree 2 and order 2 that is not zero. -/
theorem c113_sharp : ∃ a : ℝ, a ≠ 0 ∧ ∀ θ φ, sphY 1 1 θ φ * sphY 1 1 θ φ = (a : ℂ) * sphY 2 2 θ φ := by
  have hl : ∀ n : ℕ, ∀ θ : ℝ, thetaPart n n θ = tconst n n * (Real.sin θ ^ n * (legD n n).coeff 0) := fun n θ => by
    rw [thetaPart_eq]
    have h := Trig.legD_natDegree n n
    rw [Nat.sub_self] at h
    have e := Polynomial.eq_C_of_natDegree_le_zero h
    rw [Int.natAbs_natCast]
    conv_lhs => rw [e]
    rw [Polynomial.eval_C]
  have hc : ∀ n : ℕ, (legD n n).coeff 0 ≠ 0 := fun n => by
    have := Trig.legD_lead n n le_rfl
    rw [Nat.sub_self] at this
    rw [this]; positivity
  have t1 := tconst_ne 1 1
  have t2 := tconst_ne 2 2
  refine ⟨(tconst 1 1 * (legD 1 1).coeff 0) ^ 2 / (tconst 2 2 * (legD 2 2).coeff 0), ?_, fun θ φ => ?_⟩
  · exact div_ne_zero (pow_ne_zero _ (mul_ne_zero t1 (hc 1))) (mul_ne_zero t2 (hc 2))
  · unfold sphY
    have a1 := hl 1 θ
    have a2 := hl 2 θ
    simp only [Nat.cast_one, Nat.cast_ofNat] at a1 a2
    rw [a1, a2]
    have he : Complex.exp (((1 : ℤ) : ℂ) * (φ * Complex.I)) * Complex.exp (((1 : ℤ) : ℂ) * (φ * Complex.I)) = Complex.exp (((2 : ℤ) : ℂ) * (φ * Complex.I)) := by
      rw [← Complex.exp_add]; congr 1; push_cast; ring
    rw [← he]
    have x1 : ((tconst 2 2 : ℝ) : ℂ) ≠ 0 := by exact_mod_cast t2
    have x2 : (((legD 2 2).coeff 0 : ℝ) : ℂ) ≠ 0 := by exact_mod_cast hc 2
    push_cast
    field_simp

/-- C115: a quarter turn about the third axis, and a function with degrees up to 2. -/
example : ∃ (Q : Matrix (Fin 3) (Fin 3) ℝ) (F : (Fin 3 → ℝ) → ℂ), Q.transpose * Q = 1 ∧ Q ≠ 1 ∧
    ∀ θ φ, F (Rot.pt θ φ) = shSeries (2 : ℕ) (2 : ℕ) (fun n m => n + 2 * m) θ φ := by
  refine ⟨!![0, -1, 0; 1, 0, 0; 0, 0, 1], fun x => ∑ p ∈ modes (2 : ℕ) (2 : ℕ), ((p.1 : ℂ) + 2 * p.2) * Rot.Yv p.1.toNat p.2 x, ?_, fun h => ?_, fun θ φ => ?_⟩
  · ext i j; fin_cases i <;> fin_cases j <;> simp [Matrix.mul_apply, Fin.sum_univ_three]
  · have := congrFun (congrFun h 0) 0
    simp at this
  · unfold shSeries; simp only [Rot.Yv_pt]

end Verif.Props
