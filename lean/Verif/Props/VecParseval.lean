import Verif.Props.Stability2
import Verif.Props.Calculus2
import Verif.Props.Transforms2
/-!
# C137: Parseval for vector sets
-/
namespace Verif.Props
open Verif Finset

namespace VP

/-- Component `θ` of vector harmonic `p` (family, degree, order). -/
noncomputable def ht (p : Bool × ℤ × ℤ) (θ φ : ℝ) : ℂ := (vfam p.2.2 (p.1, p.2.1.toNat)).1 θ * Complex.exp (p.2.2 * (φ * Complex.I))
/-- Component `φ`. -/
noncomputable def hp (p : Bool × ℤ × ℤ) (θ φ : ℝ) : ℂ := (vfam p.2.2 (p.1, p.2.1.toNat)).2 θ * Complex.exp (p.2.2 * (φ * Complex.I))

theorem pair_int (f g : C(ℝ, ℂ)) (m l : ℤ) :
    sphInt (fun θ φ => f θ * Complex.exp (m * (φ * Complex.I)) * (starRingEnd ℂ) (g θ * Complex.exp (l * (φ * Complex.I)))) = (if m = l then (2 * Real.pi : ℂ) else 0) * thetaForm f g := by
  unfold sphInt
  have e : ∀ φ θ : ℝ, f θ * Complex.exp (m * (φ * Complex.I)) * (starRingEnd ℂ) (g θ * Complex.exp (l * (φ * Complex.I))) * Real.sin θ =
      Complex.exp ((m - l : ℤ) * (φ * Complex.I)) * (f θ * (starRingEnd ℂ) (g θ) * Real.sin θ) := by
    intro φ θ
    rw [map_mul, ← Complex.exp_conj]
    simp only [map_mul, Complex.conj_ofReal, Complex.conj_I, map_intCast]
    rw [show ((m - l : ℤ) : ℂ) * (φ * Complex.I) = m * (φ * Complex.I) + l * (φ * -Complex.I) by push_cast; ring,
      Complex.exp_add]
    ring
  simp only [e]
  simp only [intervalIntegral.integral_const_mul, intervalIntegral.integral_mul_const]
  rw [integral_azimuth, thetaForm_apply]
  have : m - l = 0 ↔ m = l := sub_eq_zero
  simp only [this]

theorem cont_ht (p : Bool × ℤ × ℤ) : Continuous fun x : ℝ × ℝ => ht p x.2 x.1 := by
  unfold ht
  exact ((vfam p.2.2 (p.1, p.2.1.toNat)).1.continuous.comp continuous_snd).mul (by fun_prop)

theorem cont_hp (p : Bool × ℤ × ℤ) : Continuous fun x : ℝ × ℝ => hp p x.2 x.1 := by
  unfold hp
  exact ((vfam p.2.2 (p.1, p.2.1.toNat)).2.continuous.comp continuous_snd).mul (by fun_prop)

/-- The vector harmonics are orthonormal. -/
theorem ortho (p q : Bool × ℤ × ℤ) (p0 : 0 ≤ p.2.1) (pn : p.2.1 ≠ 0) (pm : |p.2.2| ≤ p.2.1) (q0 : 0 ≤ q.2.1) (qm : |q.2.2| ≤ q.2.1) :
    sphInt (fun θ φ => ht p θ φ * (starRingEnd ℂ) (ht q θ φ)) + sphInt (fun θ φ => hp p θ φ * (starRingEnd ℂ) (hp q θ φ)) = if p = q then 1 else 0 := by
  obtain ⟨s, n, m⟩ := p
  obtain ⟨t, k, l⟩ := q
  unfold ht hp
  dsimp only at *
  rw [pair_int, pair_int, ← mul_add]
  by_cases h : m = l
  · subst h
    rw [Int.abs_eq_natAbs] at pm qm
    have := vfam_ortho m (s, n.toNat) (t, k.toNat) (by show m.natAbs ≤ n.toNat; omega) (by show m.natAbs ≤ k.toNat; omega) (by show n.toNat ≠ 0; omega)
    rw [vecForm_apply] at this
    rw [this, if_pos rfl]
    have pi0 : (Real.pi : ℂ) ≠ 0 := by exact_mod_cast Real.pi_ne_zero
    have hi : ((s, n.toNat) = (t, k.toNat)) ↔ ((s, n, m) = (t, k, m)) := by
      simp only [Prod.mk.injEq]
      constructor
      · rintro ⟨a, b⟩; exact ⟨a, by omega, trivial⟩
      · rintro ⟨a, b, -⟩; exact ⟨a, by omega⟩
    simp only [hi]
    split
    · push_cast; field_simp
    · simp
  · rw [if_neg h, zero_mul, if_neg]
    simp only [Prod.mk.injEq]
    tauto

theorem norm_sum (S : Finset (Bool × ℤ × ℤ)) (a : Bool × ℤ × ℤ → ℂ) (f : Bool × ℤ × ℤ → ℝ → ℝ → ℂ) (hf : ∀ p, Continuous fun x : ℝ × ℝ => f p x.2 x.1) :
    sphInt (fun θ φ => ((‖∑ p ∈ S, a p * f p θ φ‖ ^ 2 : ℝ) : ℂ)) = ∑ p ∈ S, ∑ q ∈ S, a p * (starRingEnd ℂ) (a q) * sphInt (fun θ φ => f p θ φ * (starRingEnd ℂ) (f q θ φ)) := by
  have e : ∀ θ φ, ((‖∑ p ∈ S, a p * f p θ φ‖ ^ 2 : ℝ) : ℂ) = ∑ p ∈ S, ∑ q ∈ S, a p * (starRingEnd ℂ) (a q) * (f p θ φ * (starRingEnd ℂ) (f q θ φ)) := by
    intro θ φ
    rw [← Complex.normSq_eq_norm_sq, ← Complex.mul_conj, map_sum, sum_mul_sum]
    refine sum_congr rfl fun p _ => sum_congr rfl fun q _ => ?_
    rw [map_mul]; ring
  simp only [e]
  have hc : ∀ p q, Continuous fun x : ℝ × ℝ => a p * (starRingEnd ℂ) (a q) * (f p x.2 x.1 * (starRingEnd ℂ) (f q x.2 x.1)) := fun p q =>
    continuous_const.mul ((hf p).mul (Complex.continuous_conj.comp (hf q)))
  rw [sphInt_sum _ _ fun p _ => continuous_finsetSum _ fun q _ => hc p q]
  refine sum_congr rfl fun p _ => ?_
  rw [sphInt_sum _ _ fun q _ => hc p q]
  exact sum_congr rfl fun q _ => sphInt_const_mul _ _

theorem energy (S : Finset (Bool × ℤ × ℤ)) (hS : ∀ p ∈ S, 0 ≤ p.2.1 ∧ p.2.1 ≠ 0 ∧ |p.2.2| ≤ p.2.1) (a : Bool × ℤ × ℤ → ℂ) :
    sphInt (fun θ φ => ((‖∑ p ∈ S, a p * ht p θ φ‖ ^ 2 : ℝ) : ℂ)) + sphInt (fun θ φ => ((‖∑ p ∈ S, a p * hp p θ φ‖ ^ 2 : ℝ) : ℂ)) = ((∑ p ∈ S, ‖a p‖ ^ 2 : ℝ) : ℂ) := by
  rw [norm_sum S a ht cont_ht, norm_sum S a hp cont_hp, ← sum_add_distrib]
  push_cast
  refine sum_congr rfl fun p hpS => ?_
  obtain ⟨p0, pn, pm⟩ := hS p hpS
  rw [← sum_add_distrib]
  have : ∀ q ∈ S, a p * (starRingEnd ℂ) (a q) * sphInt (fun θ φ => ht p θ φ * (starRingEnd ℂ) (ht q θ φ)) + a p * (starRingEnd ℂ) (a q) * sphInt (fun θ φ => hp p θ φ * (starRingEnd ℂ) (hp q θ φ)) =
      if p = q then a p * (starRingEnd ℂ) (a q) else 0 := by
    intro q hq
    obtain ⟨q0, -, qm⟩ := hS q hq
    rw [← mul_add, ortho p q p0 pn pm q0 qm]
    split <;> simp
  rw [sum_congr rfl this, sum_ite_eq, if_pos hpS, Complex.mul_conj, Complex.normSq_eq_norm_sq]
  push_cast; rfl

theorem hasDeriv_phi (n : ℕ) (m : ℤ) (θ φ : ℝ) : HasDerivAt (fun φ : ℝ => sphY n m θ φ) (Complex.I * m * sphY n m θ φ) φ := by
  unfold sphY
  have h : HasDerivAt (fun θ : ℝ => (m : ℂ) * ((θ : ℂ) * Complex.I)) ((m : ℂ) * (1 * Complex.I)) φ :=
    ((Complex.ofRealCLM.hasDerivAt (x := φ)).mul_const Complex.I).const_mul _
  refine ((h.cexp).const_mul (thetaPart n m θ : ℂ)).congr_deriv ?_
  ring

theorem hasDeriv_theta (n : ℕ) (m : ℤ) (θ φ : ℝ) : HasDerivAt (fun θ : ℝ => sphY n m θ φ) (tPart n m θ * Complex.exp (m * (φ * Complex.I))) θ := by
  unfold sphY
  have := (hasDerivAt_thetaPart n m θ).mul_const (Complex.exp (m * (φ * Complex.I)))
  rwa [deriv_thetaPart] at this

theorem dphi (N M : ℤ) (v : ℤ → ℤ → ℂ) (θ φ : ℝ) : deriv (fun φ => potential N M v θ φ) φ =
    ∑ p ∈ modes N M with p.1 ≠ 0, v p.1 p.2 / (Real.sqrt (p.1 * (p.1 + 1)) : ℂ) * (Complex.I * p.2 * sphY p.1.toNat p.2 θ φ) := by
  unfold potential
  exact (HasDerivAt.fun_sum fun p _ => (hasDeriv_phi p.1.toNat p.2 θ φ).const_mul _).deriv

theorem dtheta (N M : ℤ) (v : ℤ → ℤ → ℂ) (θ φ : ℝ) : deriv (fun θ => potential N M v θ φ) θ =
    ∑ p ∈ modes N M with p.1 ≠ 0, v p.1 p.2 / (Real.sqrt (p.1 * (p.1 + 1)) : ℂ) * (tPart p.1.toNat p.2 θ * Complex.exp (p.2 * (φ * Complex.I))) := by
  unfold potential
  exact (HasDerivAt.fun_sum fun p _ => (hasDeriv_theta p.1.toNat p.2 θ φ).const_mul _).deriv

/-- All vector harmonics of the set. -/
def idx (N M : ℤ) : Finset (Bool × ℤ × ℤ) := univ ×ˢ ((modes N M).filter fun p => p.1 ≠ 0)

/-- Their coefficients. -/
def co (v w : ℤ → ℤ → ℂ) (p : Bool × ℤ × ℤ) : ℂ := if p.1 then v p.2.1 p.2.2 else w p.2.1 p.2.2

theorem sum_idx {β : Type} [AddCommMonoid β] (N M : ℤ) (f : Bool × ℤ × ℤ → β) :
    ∑ p ∈ idx N M, f p = ∑ q ∈ modes N M with q.1 ≠ 0, (f (true, q) + f (false, q)) := by
  unfold idx
  rw [sum_product_right]
  exact sum_congr rfl fun q _ => Fintype.sum_bool _

theorem cast_deg {q : ℤ × ℤ} {N M : ℤ} (h : q ∈ (modes N M).filter fun p => p.1 ≠ 0) : ((q.1.toNat : ℕ) : ℝ) = (q.1 : ℝ) := by
  have := (mem_modes.mp (mem_filter.mp h).1).1
  have e : ((q.1.toNat : ℤ) : ℝ) = ((q.1 : ℤ) : ℝ) := by rw [Int.toNat_of_nonneg this]
  exact_mod_cast e

theorem field_theta {N M : ℤ} {v w : ℤ → ℤ → ℂ} {Eθ Eφ : ℝ → ℝ → ℂ} (h : JacksonField N M v w Eθ Eφ) (θ φ : ℝ) :
    Real.sin θ * Eθ θ φ = Real.sin θ * ∑ p ∈ idx N M, co v w p * ht p θ φ := by
  rw [h.eqθ, dphi, dtheta, sum_idx, mul_sum, mul_sum, mul_sum, ← sum_sub_distrib]
  refine sum_congr rfl fun q hq => ?_
  have c := cast_deg hq
  have e : (Real.sin θ : ℂ) * (hPart q.1.toNat q.2 θ : ℂ) = q.2 * (thetaPart q.1.toNat q.2 θ : ℂ) := by exact_mod_cast sin_hPart q.1.toNat q.2 θ
  simp only [co, ht, vfam, if_true, Bool.false_eq_true, if_false, cfun, ContinuousMap.coe_mk, sphY, c]
  generalize ((Real.sqrt ((q.1 : ℝ) * ((q.1 : ℝ) + 1)) : ℝ) : ℂ) = r
  generalize Complex.exp (q.2 * (φ * Complex.I)) = x
  have i2 := Complex.I_mul_I
  linear_combination (v q.1 q.2 / r * q.2 * (thetaPart q.1.toNat q.2 θ : ℂ) * x) * i2 - (-1) * (v q.1 q.2 / r * x) * e

theorem field_phi {N M : ℤ} {v w : ℤ → ℤ → ℂ} {Eθ Eφ : ℝ → ℝ → ℂ} (h : JacksonField N M v w Eθ Eφ) (θ φ : ℝ) :
    Real.sin θ * Eφ θ φ = Real.sin θ * ∑ p ∈ idx N M, co v w p * hp p θ φ := by
  rw [h.eqφ, dphi, dtheta, sum_idx, mul_sum, mul_sum, mul_sum, ← sum_sub_distrib]
  refine sum_congr rfl fun q hq => ?_
  have c := cast_deg hq
  have e : (Real.sin θ : ℂ) * (hPart q.1.toNat q.2 θ : ℂ) = q.2 * (thetaPart q.1.toNat q.2 θ : ℂ) := by exact_mod_cast sin_hPart q.1.toNat q.2 θ
  simp only [co, hp, vfam, if_true, Bool.false_eq_true, if_false, cfun, ContinuousMap.coe_mk, sphY, c]
  generalize ((Real.sqrt ((q.1 : ℝ) * ((q.1 : ℝ) + 1)) : ℝ) : ℂ) = r
  generalize Complex.exp (q.2 * (φ * Complex.I)) = x
  linear_combination (Complex.I * (w q.1 q.2 / r * x)) * e

theorem sphInt_congr {F G : ℝ → ℝ → ℂ} (h : ∀ θ φ, F θ φ * Real.sin θ = G θ φ * Real.sin θ) : sphInt F = sphInt G := by
  unfold sphInt
  simp only [h]

theorem same_sq {x y : ℂ} {θ : ℝ} (h : Real.sin θ * x = Real.sin θ * y) : ((‖x‖ ^ 2 : ℝ) : ℂ) * Real.sin θ = ((‖y‖ ^ 2 : ℝ) : ℂ) * Real.sin θ := by
  by_cases h0 : (Real.sin θ : ℂ) = 0
  · rw [h0]; simp
  · rw [mul_left_cancel₀ h0 h]

theorem total {N M : ℤ} {v w : ℤ → ℤ → ℂ} {Eθ Eφ : ℝ → ℝ → ℂ} (h : JacksonField N M v w Eθ Eφ) :
    sphInt (fun θ φ => ((‖Eθ θ φ‖ ^ 2 : ℝ) : ℂ)) + sphInt (fun θ φ => ((‖Eφ θ φ‖ ^ 2 : ℝ) : ℂ)) =
      ((∑ q ∈ modes N M with q.1 ≠ 0, (‖v q.1 q.2‖ ^ 2 + ‖w q.1 q.2‖ ^ 2) : ℝ) : ℂ) := by
  rw [sphInt_congr fun θ φ => same_sq (field_theta h θ φ), sphInt_congr fun θ φ => same_sq (field_phi h θ φ), energy]
  · rw [sum_idx]
    rfl
  · intro p hp
    obtain ⟨-, h2⟩ := mem_product.mp hp
    obtain ⟨h3, h4⟩ := mem_filter.mp h2
    obtain ⟨a, -, b, -⟩ := mem_modes.mp h3
    exact ⟨a, h4, b⟩

/-- The sums of squares of the two sets, when neither has a monopole. -/
theorem power_sum (c : VectorCoefs ℂ) (hc : c.WellFormed) (v w : ℤ → ℤ → ℂ) (hv : HasCoefsV c v w) (z1 : readMap c.scoef1 0 0 = some 0) (z2 : readMap c.scoef2 0 0 = some 0) :
    c.scoef1.power (fun x : ℂ => ‖x‖) = ∑ q ∈ modes c.nmax c.mmax with q.1 ≠ 0, ‖v q.1 q.2‖ ^ 2 ∧
    c.scoef2.power (fun x : ℂ => ‖x‖) = ∑ q ∈ modes c.nmax c.mmax with q.1 ≠ 0, ‖w q.1 q.2‖ ^ 2 := by
  have one : ∀ (s : ScalarCoefs ℂ) (u : ℤ → ℤ → ℂ), s.WellFormed → s.nmax = c.nmax → s.mmax = c.mmax → readMap s 0 0 = some 0 →
      (∀ n m, IsMode c.nmax c.mmax n m → n ≠ 0 → s.cf n m = u n m) → s.power (fun x : ℂ => ‖x‖) = ∑ q ∈ modes c.nmax c.mmax with q.1 ≠ 0, ‖u q.1 q.2‖ ^ 2 := by
    intro s u hs hn hm z hu
    obtain ⟨-, -, -, -, -, e⟩ := c13_power (fun x : ℂ => ‖x‖) s hs
    rw [e, hn, hm, sum_filter]
    refine sum_congr rfl fun q hq => ?_
    have hq' := mem_modes.mp hq
    by_cases h : q.1 = 0
    · rw [if_neg (by simpa using h)]
      have : q.2 = 0 := by
        have := hq'.2.2.1
        rw [h] at this
        exact abs_nonpos_iff.mp this
      rw [h, this, z]
      simp
    · rw [if_pos h, ← hu q.1 q.2 hq' h]
      unfold ScalarCoefs.cf
      rw [readMap_eq hs.wf]
      cases ha : s.absMap q.1 q.2 with
      | none =>
        rw [ScalarCoefs.absMap_mode hs.wf (by rw [hn, hm]; exact hq')] at ha
        cases ha
      | some x => rfl
  exact ⟨one _ v hc.wf1 hc.n1 hc.m1 z1 fun n m hm hn => (hv.cf hc hm hn).1, one _ w hc.wf2 hc.n2 hc.m2 z2 fun n m hm hn => (hv.cf hc hm hn).2⟩

end VP

/-- C137 (Parseval for vector sets): the energy of the tangential field is the sum of the powers of the two sets. -/
theorem c137_energy (c : VectorCoefs ℂ) (hc : c.WellFormed) (z1 : readMap c.scoef1 0 0 = some 0) (z2 : readMap c.scoef2 0 0 = some 0) (v w : ℤ → ℤ → ℂ) (hv : HasCoefsV c v w)
    (Eθ Eφ : ℝ → ℝ → ℂ) (hE : JacksonField c.nmax c.mmax v w Eθ Eφ) :
    sphInt (fun θ φ => ((‖Eθ θ φ‖ ^ 2 : ℝ) : ℂ)) + sphInt (fun θ φ => ((‖Eφ θ φ‖ ^ 2 : ℝ) : ℂ)) =
      ((c.scoef1.power (fun x : ℂ => ‖x‖) + c.scoef2.power (fun x : ℂ => ‖x‖) : ℝ) : ℂ) := by
  obtain ⟨p1, p2⟩ := VP.power_sum c hc v w hv z1 z2
  rw [VP.total hE, p1, p2, ← sum_add_distrib]

/-- C137: the two sets share no energy: the power of each is the energy of the part of the field it describes, the divergence-free part `Σ v X` and the curl-free part
`Σ w (i r × X)`. -/
theorem c137_parts (c : VectorCoefs ℂ) (hc : c.WellFormed) (z1 : readMap c.scoef1 0 0 = some 0) (z2 : readMap c.scoef2 0 0 = some 0) (v w : ℤ → ℤ → ℂ) (hv : HasCoefsV c v w)
    (Aθ Aφ Bθ Bφ : ℝ → ℝ → ℂ) (hA : JacksonField c.nmax c.mmax v (fun _ _ => 0) Aθ Aφ) (hB : JacksonField c.nmax c.mmax (fun _ _ => 0) w Bθ Bφ) :
    sphInt (fun θ φ => ((‖Aθ θ φ‖ ^ 2 : ℝ) : ℂ)) + sphInt (fun θ φ => ((‖Aφ θ φ‖ ^ 2 : ℝ) : ℂ)) = ((c.scoef1.power (fun x : ℂ => ‖x‖) : ℝ) : ℂ) ∧
    sphInt (fun θ φ => ((‖Bθ θ φ‖ ^ 2 : ℝ) : ℂ)) + sphInt (fun θ φ => ((‖Bφ θ φ‖ ^ 2 : ℝ) : ℂ)) = ((c.scoef2.power (fun x : ℂ => ‖x‖) : ℝ) : ℂ) := by
  obtain ⟨p1, p2⟩ := VP.power_sum c hc v w hv z1 z2
  rw [VP.total hA, VP.total hB, p1, p2]
  simp

/-- C137 for synthesis: `vispht(c)` samples a field whose energy is the sum of the two powers. -/
theorem c137_vispht (b : Backend) (c : VectorCoefs ℂ) (hc : c.WellFormed) (z1 : readMap c.scoef1 0 0 = some 0) (z2 : readMap c.scoef2 0 0 = some 0) (nr nc : ℤ)
    (h1 : c.nmax + 2 ≤ nr) (h2 : 2 * c.mmax + 2 ≤ nc) (h3 : nc % 2 = 0) :
    ∃ p Eθ Eφ, vispht b c (some nr) (some nc) = .ok p ∧ (∀ i j : ℕ, i < p.theta.rows → j < p.theta.cols →
        p.theta.at' i j = Eθ (Real.pi * i / ((nr : ℝ) - 1)) (2 * Real.pi * j / nc) ∧ p.phi.at' i j = Eφ (Real.pi * i / ((nr : ℝ) - 1)) (2 * Real.pi * j / nc)) ∧
      JacksonField c.nmax c.mmax c.scoef1.cf c.scoef2.cf Eθ Eφ ∧
      sphInt (fun θ φ => ((‖Eθ θ φ‖ ^ 2 : ℝ) : ℂ)) + sphInt (fun θ φ => ((‖Eφ θ φ‖ ^ 2 : ℝ) : ℂ)) =
        ((c.scoef1.power (fun x : ℂ => ‖x‖) + c.scoef2.power (fun x : ℂ => ‖x‖) : ℝ) : ℂ) := by
  obtain ⟨p, Eθ, Eφ, e, hJ, -, -, -, -, hs⟩ := c50_vispht b c hc _ _ (hasCoefsV_cf hc) nr nc h1 h2 h3
  exact ⟨p, Eθ, Eφ, e, hs, hJ, c137_energy c hc z1 z2 _ _ (hasCoefsV_cf hc) Eθ Eφ hJ⟩

/-- C137 for analysis: sample a band-limited tangential field on a resolving grid and analyse it with `vspht`; the powers of the two returned sets add up to the energy of the field. -/
theorem c137_vspht (b : Backend) (N M : ℤ) (h0 : 0 ≤ M) (hMN : M ≤ N) (v w : ℤ → ℤ → ℂ) (Eθ Eφ : ℝ → ℝ → ℂ) (hE : JacksonField N M v w Eθ Eφ)
    (nr nc : ℕ) (h1 : N + 2 ≤ nr) (h2 : 2 * M + 2 ≤ nc) (h3 : nc % 2 = 0) (hsz : nr ≤ 2 ^ 28) :
    ∃ p c, TPatt.init (.arr (sampleAngles nr nc Eθ)) (.arr (sampleAngles nr nc Eφ)) false = .ok p ∧ vspht b p (some N) (some M) = .ok c ∧
      ((c.scoef1.power (fun x : ℂ => ‖x‖) + c.scoef2.power (fun x : ℂ => ‖x‖) : ℝ) : ℂ) =
        sphInt (fun θ φ => ((‖Eθ θ φ‖ ^ 2 : ℝ) : ℂ)) + sphInt (fun θ φ => ((‖Eφ θ φ‖ ^ 2 : ℝ) : ℂ)) := by
  obtain ⟨c, hc, rfl, rfl, hv, z1, z2⟩ := exists_coefsV N M h0 hMN v w
  obtain ⟨p, e1, e2, e3⟩ := vispht_samples .py c hc v w hv Eθ Eφ hE nr nc h1 h2 h3
  obtain ⟨p', f1, f2⟩ := c33_round_trip .py b c hc z1 z2 nr nc h1 h2 (by omega) (by exact_mod_cast hsz)
  obtain ⟨p'', g1, g2, g3, g4, g5, g6, g7, -⟩ := c37_vispht .py c hc nr nc h1 h2 (by omega)
  rw [e1] at f1 g1
  cases f1; cases g1
  have hn0 : 0 ≤ c.nmax := h0.trans hMN
  refine ⟨p, c, ?_, f2, (c137_energy c hc z1 z2 v w hv Eθ Eφ hE).symm⟩
  have hT : sampleAngles nr nc Eθ = p.td.takeRows (p.td.rows / 2 + 1) := e2.symm
  have hP : sampleAngles nr nc Eφ = p.pd.takeRows (p.pd.rows / 2 + 1) := by
    have hr : p.pd.rows = p.td.rows := by omega
    rw [hr]; exact e3.symm
  unfold TPatt.init
  simp only []
  rw [if_neg (by rw [not_not]; exact ⟨rfl, rfl⟩), hT, hP, continue_takeRows p.td (-1) (Or.inr rfl) (by omega) (by omega) (by omega) g6,
    continue_takeRows p.pd (-1) (Or.inr rfl) (by omega) (by omega) (by omega) g7]
  rfl

/-- Not vacuous: a set with twelve coefficients of degree at least 1, energy `104 + 112`. -/
theorem c137_example : vcsample.WellFormed ∧ readMap vcsample.scoef1 0 0 = some 0 ∧ readMap vcsample.scoef2 0 0 = some 0 ∧
    vcsample.scoef1.power (fun x : ℂ => ‖x‖) = 104 ∧ vcsample.scoef2.power (fun x : ℂ => ‖x‖) = 112 ∧
    ∃ Eθ Eφ, JacksonField 2 1 vcsample.scoef1.cf vcsample.scoef2.cf Eθ Eφ ∧ sphInt (fun θ φ => ((‖Eθ θ φ‖ ^ 2 : ℝ) : ℂ)) + sphInt (fun θ φ => ((‖Eφ θ φ‖ ^ 2 : ℝ) : ℂ)) = 216 := by
  have p1 : vcsample.scoef1.power (fun x : ℂ => ‖x‖) = 104 := by
    unfold ScalarCoefs.power vcsample
    norm_num
  have p2 : vcsample.scoef2.power (fun x : ℂ => ‖x‖) = 112 := by
    unfold ScalarCoefs.power vcsample
    norm_num
  have z1 : readMap vcsample.scoef1 0 0 = some 0 := rfl
  have z2 : readMap vcsample.scoef2 0 0 = some 0 := rfl
  obtain ⟨p, Eθ, Eφ, -, -, hJ, e⟩ := c137_vispht .py vcsample vcsample_wf z1 z2 5 6 (by decide) (by decide) (by decide)
  rw [p1, p2] at e
  exact ⟨vcsample_wf, z1, z2, p1, p2, Eθ, Eφ, hJ, by rw [e]; norm_num⟩

end Verif.Props
