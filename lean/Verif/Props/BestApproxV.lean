import Verif.Props.BestApprox
import Verif.Props.Switch
import Verif.Props.Vector4
/-!
# C142: vector analysis with smaller limits is the best approximation
-/
namespace Verif.Props
open Verif Finset

namespace BA

/-- The squared distance of two tangential fields in the mean over the sphere. -/
noncomputable def gap (Eθ Eφ Fθ Fφ : ℝ → ℝ → ℂ) : ℂ :=
  sphInt (fun θ φ => ((‖Eθ θ φ - Fθ θ φ‖ ^ 2 : ℝ) : ℂ)) + sphInt (fun θ φ => ((‖Eφ θ φ - Fφ θ φ‖ ^ 2 : ℝ) : ℂ))

theorem sub_deg {N M N' M' : ℤ} (hN : N ≤ N') (hM : M ≤ M') : ((modes N M).filter fun p => p.1 ≠ 0) ⊆ (modes N' M').filter fun p => p.1 ≠ 0 :=
  filter_subset_filter _ (sub_modes hN hM)

theorem sum_ext {N M N' M' : ℤ} (hN : N ≤ N') (hM : M ≤ M') (v a : ℤ → ℤ → ℂ) (K : ℤ × ℤ → ℂ) (r : ℤ → ℂ) :
    ∑ p ∈ modes N' M' with p.1 ≠ 0, v p.1 p.2 / r p.1 * K p - ∑ p ∈ modes N M with p.1 ≠ 0, a p.1 p.2 / r p.1 * K p =
      ∑ p ∈ modes N' M' with p.1 ≠ 0, (v p.1 p.2 - ext N M a p.1 p.2) / r p.1 * K p := by
  have e : ∑ p ∈ modes N M with p.1 ≠ 0, a p.1 p.2 / r p.1 * K p = ∑ p ∈ modes N' M' with p.1 ≠ 0, ext N M a p.1 p.2 / r p.1 * K p := by
    rw [← sum_subset (sub_deg hN hM)]
    · refine sum_congr rfl fun p hp => ?_
      unfold ext
      rw [if_pos (mem_modes.mp (mem_filter.mp hp).1)]
    · intro p hp' hp
      unfold ext
      rw [if_neg (fun h => hp (mem_filter.mpr ⟨mem_modes.mpr h, (mem_filter.mp hp').2⟩)), zero_div, zero_mul]
  rw [e, ← sum_sub_distrib]
  exact sum_congr rfl fun p _ => by ring

theorem field_sub {N M N' M' : ℤ} (hN : N ≤ N') (hM : M ≤ M') {v w a b : ℤ → ℤ → ℂ} {Eθ Eφ Fθ Fφ : ℝ → ℝ → ℂ} (hE : JacksonField N' M' v w Eθ Eφ)
    (hF : JacksonField N M a b Fθ Fφ) :
    JacksonField N' M' (fun n m => v n m - ext N M a n m) (fun n m => w n m - ext N M b n m) (fun θ φ => Eθ θ φ - Fθ θ φ) (fun θ φ => Eφ θ φ - Fφ θ φ) := by
  have d1 : ∀ (v a : ℤ → ℤ → ℂ) (θ φ : ℝ), deriv (fun φ => potential N' M' (fun n m => v n m - ext N M a n m) θ φ) φ =
      deriv (fun φ => potential N' M' v θ φ) φ - deriv (fun φ => potential N M a θ φ) φ := fun v a θ φ => by
    rw [VP.dphi, VP.dphi, VP.dphi]
    exact (sum_ext hN hM v a (fun p => Complex.I * p.2 * sphY p.1.toNat p.2 θ φ) (fun n => (Real.sqrt (n * (n + 1)) : ℂ))).symm
  have d2 : ∀ (v a : ℤ → ℤ → ℂ) (θ φ : ℝ), deriv (fun θ => potential N' M' (fun n m => v n m - ext N M a n m) θ φ) θ =
      deriv (fun θ => potential N' M' v θ φ) θ - deriv (fun θ => potential N M a θ φ) θ := fun v a θ φ => by
    rw [VP.dtheta, VP.dtheta, VP.dtheta]
    exact (sum_ext hN hM v a (fun p => tPart p.1.toNat p.2 θ * Complex.exp (p.2 * (φ * Complex.I))) (fun n => (Real.sqrt (n * (n + 1)) : ℂ))).symm
  refine ⟨hE.contθ.sub hF.contθ, hE.contφ.sub hF.contφ, fun θ φ => ?_, fun θ φ => ?_⟩
  · rw [d1, d2]
    linear_combination hE.eqθ θ φ - hF.eqθ θ φ
  · rw [d1, d2]
    linear_combination hE.eqφ θ φ - hF.eqφ θ φ

theorem distV {N M N' M' : ℤ} (hN : N ≤ N') (hM : M ≤ M') {v w a b : ℤ → ℤ → ℂ} {Eθ Eφ Fθ Fφ : ℝ → ℝ → ℂ} (hE : JacksonField N' M' v w Eθ Eφ)
    (hF : JacksonField N M a b Fθ Fφ) :
    gap Eθ Eφ Fθ Fφ = ((∑ p ∈ ((modes N' M').filter fun p => p.1 ≠ 0) \ ((modes N M).filter fun p => p.1 ≠ 0), (‖v p.1 p.2‖ ^ 2 + ‖w p.1 p.2‖ ^ 2) +
      ∑ p ∈ modes N M with p.1 ≠ 0, (‖v p.1 p.2 - a p.1 p.2‖ ^ 2 + ‖w p.1 p.2 - b p.1 p.2‖ ^ 2) : ℝ) : ℂ) := by
  unfold gap
  rw [VP.total (field_sub hN hM hE hF), ← sum_sdiff (sub_deg hN hM)]
  congr 2
  · refine sum_congr rfl fun p hp => ?_
    have h := mem_sdiff.mp hp
    unfold ext
    rw [if_neg (fun q => h.2 (mem_filter.mpr ⟨mem_modes.mpr q, (mem_filter.mp h.1).2⟩)), if_neg (fun q => h.2 (mem_filter.mpr ⟨mem_modes.mpr q, (mem_filter.mp h.1).2⟩)), sub_zero, sub_zero]
  · refine sum_congr rfl fun p hp => ?_
    unfold ext
    rw [if_pos (mem_modes.mp (mem_filter.mp hp).1), if_pos (mem_modes.mp (mem_filter.mp hp).1)]

theorem tinit_rows {T P : Arr2 ℂ} {p : TPatt ℂ} (h : TPatt.init (.arr T) (.arr P) false = .ok p) (h1 : 2 ≤ T.rows) (h2 : T.rows ≤ 2 ^ 28) (h3 : 2 ≤ T.cols) :
    p.td.rows = 2 * T.rows - 2 ∧ p.td.cols = T.cols ∧ p.pd.rows = p.td.rows ∧ p.pd.cols = p.td.cols := by
  unfold TPatt.init at h
  simp only at h
  split at h
  · cases h
  rename_i hs
  rw [not_not] at hs
  obtain ⟨t, e1, h⟩ := (res_bind_ok _ _ _).mp h
  obtain ⟨q, e2, h⟩ := (res_bind_ok _ _ _).mp h
  cases h
  obtain ⟨-, a1, a2⟩ := continue_good e1 h1 h2 h3
  obtain ⟨-, b1, b2⟩ := continue_good e2 (by omega) (by omega) (by omega)
  exact ⟨a1, a2, by simp only; omega, by simp only; omega⟩

end BA

/-- C142: `vspht(p, N, M)` of the samples of a tangential field of larger degree or order returns the coefficients of the field of degree `N` and order `M` closest to it in the mean
square over the sphere; no other coefficients of degree at least 1 do as well, and what is lost is the energy of the field less the powers of the two sets. -/
theorem c142_best (b : Backend) (N' M' : ℤ) (h0' : 0 ≤ M') (hMN' : M' ≤ N') (v w : ℤ → ℤ → ℂ) (Eθ Eφ : ℝ → ℝ → ℂ) (hE : JacksonField N' M' v w Eθ Eφ)
    (nr nc : ℕ) (h1 : N' + 2 ≤ nr) (h2 : 2 * M' + 2 ≤ nc) (h3 : nc % 2 = 0) (hsz : nr ≤ 2 ^ 28)
    (N M : ℤ) (h0 : 0 ≤ M) (hMN : M ≤ N) (hN : N ≤ N') (hM : M ≤ M') :
    ∃ p c Fθ Fφ, TPatt.init (.arr (sampleAngles nr nc Eθ)) (.arr (sampleAngles nr nc Eφ)) false = .ok p ∧ vspht b p (some N) (some M) = .ok c ∧
      c.WellFormed ∧ c.nmax = N ∧ c.mmax = M ∧ HasCoefsV c v w ∧ readMap c.scoef1 0 0 = some 0 ∧ readMap c.scoef2 0 0 = some 0 ∧
      JacksonField N M c.scoef1.cf c.scoef2.cf Fθ Fφ ∧
      ∃ E D : ℝ, (E : ℂ) = sphInt (fun θ φ => ((‖Eθ θ φ‖ ^ 2 : ℝ) : ℂ)) + sphInt (fun θ φ => ((‖Eφ θ φ‖ ^ 2 : ℝ) : ℂ)) ∧
        (D : ℂ) = sphInt (fun θ φ => ((‖Eθ θ φ - Fθ θ φ‖ ^ 2 : ℝ) : ℂ)) + sphInt (fun θ φ => ((‖Eφ θ φ - Fφ θ φ‖ ^ 2 : ℝ) : ℂ)) ∧
        D = E - (c.scoef1.power (fun x : ℂ => ‖x‖) + c.scoef2.power (fun x : ℂ => ‖x‖)) ∧
        ∀ (a e : ℤ → ℤ → ℂ) (Gθ Gφ : ℝ → ℝ → ℂ), JacksonField N M a e Gθ Gφ →
          ∃ D' : ℝ, (D' : ℂ) = sphInt (fun θ φ => ((‖Eθ θ φ - Gθ θ φ‖ ^ 2 : ℝ) : ℂ)) + sphInt (fun θ φ => ((‖Eφ θ φ - Gφ θ φ‖ ^ 2 : ℝ) : ℂ)) ∧ D ≤ D' ∧
            (D' = D → ∀ n m, IsMode N M n m → n ≠ 0 → readMapV c n m = some (a n m, e n m)) := by
  obtain ⟨p, c', e1, e2, w', n', m', hv'⟩ := vspht_samples b N' M' h0' hMN' v w Eθ Eφ hE nr nc h1 h2 h3 hsz
  obtain ⟨r1, r2, r3, r4⟩ := BA.tinit_rows e1 (by show 2 ≤ nr; omega) hsz (by show 2 ≤ nc; omega)
  replace r1 : p.td.rows = 2 * nr - 2 := r1
  replace r2 : p.td.cols = nc := r2
  obtain ⟨T, P⟩ := p
  simp only at r1 r2 r3 r4
  obtain ⟨n, rfl⟩ := Int.eq_ofNat_of_zero_le (show 0 ≤ N by omega)
  obtain ⟨m, rfl⟩ := Int.eq_ofNat_of_zero_le h0
  obtain ⟨c, f1, f2, f3, f4, f5⟩ := vspht_main b T P (by omega) (by omega) (by omega) r3 r4 (some (n : ℤ)) (some (m : ℤ)) n m rfl (by omega) (by omega) (by omega)
      (by unfold Backend.SizeOK; cases b <;> simp only
          norm_num at hsz ⊢; omega)
  have hv : HasCoefsV c v w := by
    intro k l hm hk
    rw [f2, f3] at hm
    have hm' : IsMode N' M' k l := ⟨hm.1, hm.2.1.trans hN, hm.2.2.1, hm.2.2.2.trans hM⟩
    rw [c38_vspht b b T P r3 r4 (by omega) (by omega) (by norm_num at hsz ⊢; omega) n m N' M' c c' h0 h0' f1 e2 k l hm hm']
    exact hv' k l (by rw [n', m']; exact hm') hk
  have m00 : IsMode (n : ℤ) (m : ℤ) 0 0 := ⟨le_refl _, by omega, by simp, by simp⟩
  have zz : ∀ s : ScalarCoefs ℂ, s.WellFormed → s.nmax = c.nmax → s.mmax = c.mmax → s.cf 0 0 = 0 → readMap s 0 0 = some 0 := by
    intro s hs a1 a2 hz
    rw [readMap_eq hs.wf]
    have := ScalarCoefs.absMap_mode hs.wf (n := 0) (m := 0) (by rw [a1, a2, f2, f3]; exact m00)
    unfold ScalarCoefs.cf at hz
    rw [this] at hz ⊢
    exact congrArg some hz
  have z1 : readMap c.scoef1 0 0 = some 0 := zz _ f4.wf1 f4.n1 f4.m1 (by rw [(f5 0 0 m00).1]; unfold wdeg; simp)
  have z2 : readMap c.scoef2 0 0 = some 0 := zz _ f4.wf2 f4.n2 f4.m2 (by rw [(f5 0 0 m00).2]; unfold wdeg; simp)
  have hcf : ∀ k l, IsMode n m k l → k ≠ 0 → c.scoef1.cf k l = v k l ∧ c.scoef2.cf k l = w k l := fun k l hm hk => hv.cf f4 (by rw [f2, f3]; exact hm) hk
  obtain ⟨-, Fθ, Fφ, -, -, hF, -⟩ := c137_vispht .py c f4 z1 z2 (c.nmax + 2) (2 * c.mmax + 2) le_rfl le_rfl (by omega)
  rw [f2, f3] at hF
  obtain ⟨p1, p2⟩ := VP.power_sum c f4 v w hv z1 z2
  rw [f2, f3] at p1 p2
  have z : ∑ p ∈ modes n m with p.1 ≠ 0, (‖v p.1 p.2 - c.scoef1.cf p.1 p.2‖ ^ 2 + ‖w p.1 p.2 - c.scoef2.cf p.1 p.2‖ ^ 2) = 0 :=
    sum_eq_zero fun p hp => by
      obtain ⟨a, b⟩ := hcf p.1 p.2 (mem_modes.mp (mem_filter.mp hp).1) (mem_filter.mp hp).2
      rw [a, b, sub_self, sub_self]; norm_num
  refine ⟨_, c, Fθ, Fφ, e1, f1, f4, f2, f3, hv, z1, z2, hF, _, ∑ p ∈ ((modes N' M').filter fun p => p.1 ≠ 0) \ ((modes n m).filter fun p => p.1 ≠ 0), (‖v p.1 p.2‖ ^ 2 + ‖w p.1 p.2‖ ^ 2),
    (VP.total hE).symm, ?_, ?_, fun a e Gθ Gφ hG => ?_⟩
  · have := BA.distV hN hM hE hF
    rw [z, add_zero] at this
    exact this.symm
  · rw [p1, p2, ← sum_add_distrib, ← sum_sdiff (BA.sub_deg hN hM)]; ring
  · refine ⟨_, (BA.distV hN hM hE hG).symm, le_add_of_nonneg_right (sum_nonneg fun _ _ => by positivity), fun h k l hm hk => ?_⟩
    have hz : ∑ p ∈ modes n m with p.1 ≠ 0, (‖v p.1 p.2 - a p.1 p.2‖ ^ 2 + ‖w p.1 p.2 - e p.1 p.2‖ ^ 2) = 0 := by linarith
    have h' := (sum_eq_zero_iff_of_nonneg (fun _ _ => by positivity)).mp hz (k, l) (mem_filter.mpr ⟨mem_modes.mpr hm, hk⟩)
    have g1 : ‖v k l - a k l‖ ^ 2 = 0 := by have := sq_nonneg ‖v k l - a k l‖; have := sq_nonneg ‖w k l - e k l‖; simp only at h'; linarith
    have g2 : ‖w k l - e k l‖ ^ 2 = 0 := by have := sq_nonneg ‖v k l - a k l‖; have := sq_nonneg ‖w k l - e k l‖; simp only at h'; linarith
    have g1' : v k l - a k l = 0 := by simpa using g1
    have g2' : w k l - e k l = 0 := by simpa using g2
    rw [hv k l (by rw [f2, f3]; exact hm) hk, sub_eq_zero.mp g1', sub_eq_zero.mp g2']

/-- Not vacuous: the field of `vcsample`, degree 2, sampled on a 5 by 6 grid and analysed to degree 1: of the energy 216 the powers `21 + 83` are kept and 112 is lost. -/
theorem c142_example : ∃ Eθ Eφ p c Fθ Fφ, JacksonField 2 1 vcsample.scoef1.cf vcsample.scoef2.cf Eθ Eφ ∧
    TPatt.init (.arr (sampleAngles 5 6 Eθ)) (.arr (sampleAngles 5 6 Eφ)) false = .ok p ∧ vspht .py p (some 1) (some 1) = .ok c ∧
    c.scoef1.power (fun x : ℂ => ‖x‖) = 21 ∧ c.scoef2.power (fun x : ℂ => ‖x‖) = 83 ∧ JacksonField 1 1 c.scoef1.cf c.scoef2.cf Fθ Fφ ∧
    sphInt (fun θ φ => ((‖Eθ θ φ - Fθ θ φ‖ ^ 2 : ℝ) : ℂ)) + sphInt (fun θ φ => ((‖Eφ θ φ - Fφ θ φ‖ ^ 2 : ℝ) : ℂ)) = 112 := by
  obtain ⟨-, -, -, -, -, Eθ, Eφ, hE, e⟩ := c137_example
  obtain ⟨p, c, Fθ, Fφ, e1, e2, wf, cn, cm, hv, z1, z2, hF, E, D, hE', hD, hP, -⟩ := c142_best .py 2 1 (by norm_num) (by norm_num) _ _ Eθ Eφ hE 5 6 (by norm_num) (by norm_num) (by norm_num)
    (by norm_num) 1 1 (by norm_num) (by norm_num) (by norm_num) (by norm_num)
  have hm : ((modes 1 1).filter fun p => p.1 ≠ 0) = {((1 : ℤ), (0 : ℤ)), (1, -1), (1, 1)} := by decide
  have r1 : vcsample.scoef1.cf 1 0 = 2 := rfl
  have r2 : vcsample.scoef1.cf 1 (-1) = 4 := rfl
  have r3 : vcsample.scoef1.cf 1 1 = Complex.I := rfl
  have s1 : vcsample.scoef2.cf 1 0 = 1 := rfl
  have s2 : vcsample.scoef2.cf 1 (-1) = 9 := rfl
  have s3 : vcsample.scoef2.cf 1 1 = -1 := rfl
  obtain ⟨p1, p2⟩ := VP.power_sum c wf _ _ hv z1 z2
  rw [cn, cm, hm, sum_insert (by decide), sum_insert (by decide), sum_singleton] at p1 p2
  simp only [r1, r2, r3] at p1
  simp only [s1, s2, s3] at p2
  norm_num at p1 p2
  rw [e] at hE'
  have hE2 : E = 216 := by exact_mod_cast hE'
  refine ⟨Eθ, Eφ, p, c, Fθ, Fφ, hE, e1, e2, p1, p2, hF, ?_⟩
  rw [← hD, hP, hE2, p1, p2]; norm_num

end Verif.Props
