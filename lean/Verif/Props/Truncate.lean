import Verif.Props.BestApprox
/-!
# C145: `c[0:k,:]` is the best approximation of degree `k`
-/
namespace Verif.Props
open Verif Finset

/-- C145: `c[0:k,:]` describes the function of degree `k` (and order `mmax` at most) closest in the mean square over the sphere to the function `c` describes; no other coefficients do as well; what is
lost is `c.power()` less the power of the truncated set, the sum of the entries of the power spectrum of `c` above `k`. -/
theorem c145_truncate (c : ScalarCoefs ℂ) (hc : c.WellFormed) (v : ℤ → ℤ → ℂ) (hv : HasCoefs c v) (k : ℤ) (h0 : 0 ≤ k) (hk : k ≤ c.nmax) :
    ∃ d s, c.getitem [.upto k, .all] = .ok (.coefs d) ∧ d.WellFormed ∧ d.nmax = k ∧ d.mmax = min k c.mmax ∧ c.angularPowerSpectrum (fun x : ℂ => ‖x‖) = .ok s ∧
      d.angularPowerSpectrum (fun x : ℂ => ‖x‖) = .ok (s.take (k.toNat + 1)) ∧
      ∃ D : ℝ, (D : ℂ) = sphInt (fun θ φ => ((‖shSeries c.nmax c.mmax v θ φ - shSeries d.nmax d.mmax d.cf θ φ‖ ^ 2 : ℝ) : ℂ)) ∧
        D = c.power (fun x : ℂ => ‖x‖) - d.power (fun x : ℂ => ‖x‖) ∧ D = (s.drop (k.toNat + 1)).sum ∧
        ∀ u : ℤ → ℤ → ℂ, ∃ D' : ℝ, (D' : ℂ) = sphInt (fun θ φ => ((‖shSeries c.nmax c.mmax v θ φ - shSeries k (min k c.mmax) u θ φ‖ ^ 2 : ℝ) : ℂ)) ∧ D ≤ D' ∧
          (D' = D → ∀ n m, IsMode k (min k c.mmax) n m → readMap d n m = some (u n m)) := by
  obtain ⟨d, e1, wd, dn, dm, hr⟩ := (c07_truncation c hc k).1 ⟨h0, hk⟩
  have hM : min k c.mmax ≤ c.mmax := min_le_right _ _
  have hvd : HasCoefs d v := by
    intro n m hm
    rw [dn, dm] at hm
    rw [hr n m hm]
    exact hv n m ⟨hm.1, hm.2.1.trans hk, hm.2.2.1, hm.2.2.2.trans hM⟩
  obtain ⟨s, es, hl, hs, hsum, -⟩ := c13_power (fun x : ℂ => ‖x‖) c hc
  obtain ⟨t, et, htl, ht, htsum, -⟩ := c13_power (fun x : ℂ => ‖x‖) d wd
  have htake : t = s.take (k.toNat + 1) := by
    refine List.ext_getElem (by rw [List.length_take]; omega) fun n h1 h2 => ?_
    rw [List.getElem_take, ht n h1, hs n (by omega), dm]
    have hmin : min (n : ℤ) (min k c.mmax) = min (n : ℤ) c.mmax := by omega
    rw [hmin]
    refine sum_congr rfl fun m hm => ?_
    rw [mem_Icc] at hm
    rw [hr n m ⟨by omega, by omega, abs_le.mpr ⟨by omega, by omega⟩, abs_le.mpr ⟨by omega, by omega⟩⟩]
  have hcf : ∀ n m, IsMode k (min k c.mmax) n m → d.cf n m = v n m := fun n m hm => hvd.cf wd (by rw [dn, dm]; exact hm)
  have z : ∑ p ∈ modes k (min k c.mmax), ‖v p.1 p.2 - d.cf p.1 p.2‖ ^ 2 = 0 :=
    sum_eq_zero fun p hp => by rw [hcf p.1 p.2 (mem_modes.mp hp), sub_self]; norm_num
  have pc : c.power (fun x : ℂ => ‖x‖) = ∑ p ∈ modes c.nmax c.mmax, ‖v p.1 p.2‖ ^ 2 := by
    have e := c39_parseval c hc v hv
    rw [sphInt_series] at e
    exact Complex.ofReal_injective e
  have pd : d.power (fun x : ℂ => ‖x‖) = ∑ p ∈ modes k (min k c.mmax), ‖v p.1 p.2‖ ^ 2 := by
    have e := c39_parseval d wd v hvd
    rw [sphInt_series, dn, dm] at e
    exact Complex.ofReal_injective e
  have hD : c.power (fun x : ℂ => ‖x‖) - d.power (fun x : ℂ => ‖x‖) = ∑ p ∈ modes c.nmax c.mmax \ modes k (min k c.mmax), ‖v p.1 p.2‖ ^ 2 := by
    rw [pc, pd, ← sum_sdiff (BA.sub_modes hk hM)]; ring
  refine ⟨d, s, e1, wd, dn, dm, es, by rw [et, htake], _, ?_, rfl, ?_, fun u => ?_⟩
  · rw [dn, dm, BA.dist hk hM, z, add_zero, hD]
  · rw [← hsum, ← htsum, htake]
    have := List.sum_take_add_sum_drop s (k.toNat + 1)
    linarith
  · refine ⟨_, (BA.dist hk hM v u).symm, by rw [hD]; exact le_add_of_nonneg_right (sum_nonneg fun _ _ => by positivity), fun h n m hm => ?_⟩
    rw [hD] at h
    have hz : ∑ p ∈ modes k (min k c.mmax), ‖v p.1 p.2 - u p.1 p.2‖ ^ 2 = 0 := by linarith
    have := (sum_eq_zero_iff_of_nonneg (fun _ _ => by positivity)).mp hz (n, m) (mem_modes.mpr hm)
    have h' : v n m - u n m = 0 := by simpa using this
    rw [hvd n m (by rw [dn, dm]; exact hm), sub_eq_zero.mp h']

/-- Not vacuous: of a set with power 104, `c[0:1,:]` keeps 21 and loses the 83 of degree 2. -/
theorem c145_example : ∃ d, vcsample.scoef1.getitem [.upto 1, .all] = .ok (.coefs d) ∧ d.power (fun x : ℂ => ‖x‖) = 21 ∧
    sphInt (fun θ φ => ((‖shSeries 2 1 vcsample.scoef1.cf θ φ - shSeries d.nmax d.mmax d.cf θ φ‖ ^ 2 : ℝ) : ℂ)) = 83 := by
  obtain ⟨d, s, e1, wd, dn, dm, -, -, D, hD, hP, -, -⟩ := c145_truncate vcsample.scoef1 vcsample_wf.wf1 _ (hasCoefs_cf vcsample_wf.wf1) 1 (by decide) (by decide)
  have p1 : vcsample.scoef1.power (fun x : ℂ => ‖x‖) = 104 := c137_example.2.2.2.1
  obtain ⟨d', e, hd⟩ : ∃ d', vcsample.scoef1.getitem [.upto 1, .all] = .ok (.coefs d') ∧ d'.power (fun x : ℂ => ‖x‖) = 21 := by
    refine ⟨⟨[0, 2, 4, Complex.I], 1, 1⟩, rfl, ?_⟩
    unfold ScalarCoefs.power
    norm_num
  rw [e1] at e
  cases e
  refine ⟨d, e1, hd, ?_⟩
  rw [p1, hd] at hP
  have := hD.symm
  rw [hP] at this
  exact this.trans (by norm_num)

end Verif.Props
