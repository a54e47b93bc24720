import Verif.Props.Dirichlet
import Verif.Props.Symmetry
/-!
# C141: analysis with smaller limits is the best approximation
-/
namespace Verif.Props
open Verif Finset

namespace BA

open Classical in
/-- `u` on the modes of `(N, M)`, 0 elsewhere. -/
noncomputable def ext (N M : ℤ) (u : ℤ → ℤ → ℂ) : ℤ → ℤ → ℂ := fun n m => if IsMode N M n m then u n m else 0

theorem sub_modes {N M N' M' : ℤ} (hN : N ≤ N') (hM : M ≤ M') : modes N M ⊆ modes N' M' := by
  intro p hp
  obtain ⟨a, b, c, d⟩ := mem_modes.mp hp
  exact mem_modes.mpr ⟨a, by omega, c, by omega⟩

theorem series_sub {N M N' M' : ℤ} (hN : N ≤ N') (hM : M ≤ M') (v u : ℤ → ℤ → ℂ) (θ φ : ℝ) :
    shSeries N' M' v θ φ - shSeries N M u θ φ = shSeries N' M' (fun n m => v n m - ext N M u n m) θ φ := by
  unfold shSeries
  have e : ∑ p ∈ modes N M, u p.1 p.2 * sphY p.1.toNat p.2 θ φ = ∑ p ∈ modes N' M', ext N M u p.1 p.2 * sphY p.1.toNat p.2 θ φ := by
    rw [← sum_subset (sub_modes hN hM)]
    · refine sum_congr rfl fun p hp => ?_
      unfold ext
      rw [if_pos (mem_modes.mp hp)]
    · intro p _ hp
      unfold ext
      rw [if_neg (fun h => hp (mem_modes.mpr h)), zero_mul]
  rw [e, ← sum_sub_distrib]
  exact sum_congr rfl fun p _ => by ring

/-- The energy of the difference. -/
theorem dist {N M N' M' : ℤ} (hN : N ≤ N') (hM : M ≤ M') (v u : ℤ → ℤ → ℂ) :
    sphInt (fun θ φ => ((‖shSeries N' M' v θ φ - shSeries N M u θ φ‖ ^ 2 : ℝ) : ℂ)) =
      ((∑ p ∈ modes N' M' \ modes N M, ‖v p.1 p.2‖ ^ 2 + ∑ p ∈ modes N M, ‖v p.1 p.2 - u p.1 p.2‖ ^ 2 : ℝ) : ℂ) := by
  simp only [series_sub hN hM]
  rw [sphInt_series, ← sum_sdiff (sub_modes hN hM)]
  congr 2
  · refine sum_congr rfl fun p hp => ?_
    unfold ext
    rw [if_neg (fun h => (mem_sdiff.mp hp).2 (mem_modes.mpr h)), sub_zero]
  · refine sum_congr rfl fun p hp => ?_
    unfold ext
    rw [if_pos (mem_modes.mp hp)]

end BA

/-- C141: `spht(p, N, M)` of the samples of a function of larger degree or order returns the coefficients of the function of degree `N` and order `M` closest to it in the mean
square over the sphere; no other coefficients do as well, and what is lost is the energy of the function less `c.power()`. -/
theorem c141_best (b : Backend) (N' M' : ℤ) (h0' : 0 ≤ M') (hMN' : M' ≤ N') (v : ℤ → ℤ → ℂ) (nr nc : ℕ) (h1 : N' + 2 ≤ nr) (h2 : 2 * M' + 2 ≤ nc) (h3 : nc % 2 = 0) (hsz : nr ≤ 2 ^ 28)
    (N M : ℤ) (h0 : 0 ≤ M) (hMN : M ≤ N) (hN : N ≤ N') (hM : M ≤ M') :
    ∃ p c, SPatt.init (.arr (sampleAngles nr nc (shSeries N' M' v))) false = .ok p ∧ spht b p (some N) (some M) = .ok c ∧ c.WellFormed ∧ c.nmax = N ∧ c.mmax = M ∧ HasCoefs c v ∧
      ∃ E D : ℝ, (E : ℂ) = sphInt (fun θ φ => ((‖shSeries N' M' v θ φ‖ ^ 2 : ℝ) : ℂ)) ∧
        (D : ℂ) = sphInt (fun θ φ => ((‖shSeries N' M' v θ φ - shSeries N M c.cf θ φ‖ ^ 2 : ℝ) : ℂ)) ∧
        D = E - c.power (fun x : ℂ => ‖x‖) ∧
        ∀ u : ℤ → ℤ → ℂ, ∃ D' : ℝ, (D' : ℂ) = sphInt (fun θ φ => ((‖shSeries N' M' v θ φ - shSeries N M u θ φ‖ ^ 2 : ℝ) : ℂ)) ∧ D ≤ D' ∧
          (D' = D → ∀ n m, IsMode N M n m → readMap c n m = some (u n m)) := by
  obtain ⟨p, c', e1, e2, w', n', m', hv'⟩ := spht_samples b N' M' h0' hMN' v nr nc h1 h2 h3 hsz
  obtain ⟨D, -, g1, hrows, -, -⟩ := init_pattern (sampleAngles nr nc (shSeries N' M' v)) (by show 2 ≤ nr; omega)
  rw [e1] at g1
  cases g1
  replace hrows : D.rows = 2 * nr - 2 := hrows
  have hnr : ¬ (M' > N' ∨ N' > ((D.rows / 2 + 1 : ℕ) : ℤ) - 2 ∨ 2 * M' ≥ D.cols ∨ D.cols % 2 = 1) := fun hc => by
    obtain ⟨msg, e⟩ := c35_rejects b D N' M' hc
    rw [e2] at e; cases e
  obtain ⟨c, f1, f2, f3, f4⟩ := c35_accepts b D (by omega) (by omega) (by omega) N M h0 hMN (by omega) (by omega) (by omega)
  have hv : HasCoefs c v := by
    intro n m hm
    rw [f2, f3] at hm
    have hm' : IsMode N' M' n m := ⟨hm.1, hm.2.1.trans hN, hm.2.2.1, hm.2.2.2.trans hM⟩
    rw [c38_truncation b b D (by omega) (by omega) (by omega) N M N' M' c c' h0 h0' f1 e2 n m hm hm']
    exact hv' n m (by rw [n', m']; exact hm')
  have hcf : ∀ n m, IsMode N M n m → c.cf n m = v n m := fun n m hm => hv.cf f4 (by rw [f2, f3]; exact hm)
  have z : ∑ p ∈ modes N M, ‖v p.1 p.2 - c.cf p.1 p.2‖ ^ 2 = 0 :=
    sum_eq_zero fun p hp => by rw [hcf p.1 p.2 (mem_modes.mp hp), sub_self]; norm_num
  have hP : c.power (fun x : ℂ => ‖x‖) = ∑ p ∈ modes N M, ‖v p.1 p.2‖ ^ 2 := by
    have e := c39_parseval c f4 v hv
    rw [sphInt_series, f2, f3] at e
    exact Complex.ofReal_injective e
  refine ⟨_, c, e1, f1, f4, f2, f3, hv, _, ∑ p ∈ modes N' M' \ modes N M, ‖v p.1 p.2‖ ^ 2, (sphInt_series _ _ _).symm, ?_, ?_, fun u => ?_⟩
  · rw [BA.dist hN hM, z, add_zero]
  · rw [hP, ← sum_sdiff (BA.sub_modes hN hM)]; ring
  · refine ⟨_, (BA.dist hN hM v u).symm, le_add_of_nonneg_right (sum_nonneg fun _ _ => by positivity), fun h n m hm => ?_⟩
    have hz : ∑ p ∈ modes N M, ‖v p.1 p.2 - u p.1 p.2‖ ^ 2 = 0 := by linarith
    have := (sum_eq_zero_iff_of_nonneg (fun _ _ => by positivity)).mp hz (n, m) (mem_modes.mpr hm)
    have h' : v n m - u n m = 0 := by simpa using this
    rw [hv n m (by rw [f2, f3]; exact hm), sub_eq_zero.mp h']

/-- Not vacuous: a function with coefficients of degree 2, analysed to degree 1 on a 5 by 6 grid: of the energy 104 the 83 of degree 2 is lost. -/
theorem c141_example : ∃ p c, SPatt.init (.arr (sampleAngles 5 6 (shSeries 2 1 vcsample.scoef1.cf))) false = .ok p ∧ spht .py p (some 1) (some 1) = .ok c ∧
    c.power (fun x : ℂ => ‖x‖) = 21 ∧
    sphInt (fun θ φ => ((‖shSeries 2 1 vcsample.scoef1.cf θ φ - shSeries 1 1 c.cf θ φ‖ ^ 2 : ℝ) : ℂ)) = 83 := by
  obtain ⟨p, c, e1, e2, wf, cn, cm, hv, E, D, hE, hD, hP, -⟩ := c141_best .py 2 1 (by norm_num) (by norm_num) vcsample.scoef1.cf 5 6 (by norm_num) (by norm_num) (by norm_num) (by norm_num) 1 1 (by norm_num) (by norm_num) (by norm_num) (by norm_num)
  have hm : modes 2 1 = {((0 : ℤ), (0 : ℤ)), (1, 0), (2, 0), (1, -1), (2, -1), (1, 1), (2, 1)} := by decide
  have ho : modes 1 1 = {((0 : ℤ), (0 : ℤ)), (1, 0), (1, -1), (1, 1)} := by decide
  have r0 : vcsample.scoef1.cf 0 0 = 0 := rfl
  have r1 : vcsample.scoef1.cf 1 0 = 2 := rfl
  have r2 : vcsample.scoef1.cf 2 0 = 3 := rfl
  have r3 : vcsample.scoef1.cf 1 (-1) = 4 := rfl
  have r4 : vcsample.scoef1.cf 2 (-1) = 5 := rfl
  have r5 : vcsample.scoef1.cf 1 1 = Complex.I := rfl
  have r6 : vcsample.scoef1.cf 2 1 = 7 := rfl
  have hE' : E = 104 := by
    rw [sphInt_series, hm, sum_insert (by decide), sum_insert (by decide), sum_insert (by decide), sum_insert (by decide), sum_insert (by decide), sum_insert (by decide), sum_singleton] at hE
    simp only [r0, r1, r2, r3, r4, r5, r6] at hE
    have e : E = _ := Complex.ofReal_injective hE
    rw [e]; norm_num
  have hp : c.power (fun x : ℂ => ‖x‖) = 21 := by
    have e := c39_parseval c wf _ hv
    rw [sphInt_series, cn, cm, ho, sum_insert (by decide), sum_insert (by decide), sum_insert (by decide), sum_singleton] at e
    simp only [r0, r1, r3, r5] at e
    have e' := Complex.ofReal_injective e
    rw [e']; norm_num
  refine ⟨p, c, e1, e2, hp, ?_⟩
  rw [← hD, hP, hE', hp]; norm_num

end Verif.Props
