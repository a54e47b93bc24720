import Verif.Props.FloatParseval3
/-!
# C139: the spectra of vector sets, degree by degree
-/
namespace Verif.Props
open Verif Finset

variable {rnd : ℝ → ℝ}

namespace VP

/-- Entry `n` of the spectrum of one of the two sets as a sum over all modes but the monopole. -/
theorem spec_sum (s : ScalarCoefs ℂ) (hs : s.WellFormed) (z : readMap s 0 0 = some 0) (u : ℤ → ℤ → ℂ) (hu : ∀ n m, IsMode s.nmax s.mmax n m → n ≠ 0 → s.cf n m = u n m) (n : ℕ) (hn : (n : ℤ) ≤ s.nmax) :
    ∑ m ∈ Icc (-(min (n : ℤ) s.mmax)) (min (n : ℤ) s.mmax), ((readMap s n m).elim (0 : ℝ) (fun x : ℂ => ‖x‖ ^ 2)) = ∑ q ∈ modes s.nmax s.mmax with q.1 ≠ 0, ‖degreePart u n q.1 q.2‖ ^ 2 := by
  have m0 := hs.wf.m0
  rw [sum_filter]
  refine Finset.sum_of_injOn (fun m : ℤ => ((n : ℤ), m)) ?_ ?_ ?_ ?_
  · intro a _ b _ e
    exact (Prod.mk.inj e).2
  · intro m hm
    simp only [coe_Icc, Set.mem_Icc] at hm
    show ((n : ℤ), m) ∈ modes s.nmax s.mmax
    refine mem_modes.mpr ⟨by omega, by omega, abs_le.mpr ⟨by omega, by omega⟩, abs_le.mpr ⟨by omega, by omega⟩⟩
  · rintro ⟨k, m⟩ hp hni
    unfold degreePart
    dsimp only
    rw [if_neg (c := k = n)]
    · simp
    · rintro rfl
      refine hni ⟨m, ?_, rfl⟩
      obtain ⟨_, _, h3, h4⟩ := mem_modes.mp hp
      have := abs_le.mp h3
      have := abs_le.mp h4
      simp only [coe_Icc, Set.mem_Icc]
      omega
  · intro m hm
    obtain ⟨h1, h2⟩ := Finset.mem_Icc.mp hm
    have hmo : IsMode s.nmax s.mmax n m := ⟨by omega, by omega, abs_le.mpr ⟨by omega, by omega⟩, abs_le.mpr ⟨by omega, by omega⟩⟩
    unfold degreePart
    dsimp only
    rw [if_pos (c := (n : ℤ) = n) rfl]
    by_cases h : (n : ℤ) = 0
    · rw [if_neg (not_not.mpr h)]
      have e : m = 0 := by omega
      rw [h, e, z]
      simp
    · rw [if_pos h, ← hu n m hmo h]
      unfold ScalarCoefs.cf
      rw [readMap_eq hs.wf, ScalarCoefs.absMap_mode hs.wf hmo]
      rfl

end VP

/-- C139, exact arithmetic: `angular_power_spectrum()` of the two sets of a vector set: the entries of degree `n` add up to the energy over the sphere of the part of
degree `n` of the field, and all entries together to the energy of the field. -/
theorem c139_spectrum (c : VectorCoefs ℂ) (hc : c.WellFormed) (z1 : readMap c.scoef1 0 0 = some 0) (z2 : readMap c.scoef2 0 0 = some 0) (v w : ℤ → ℤ → ℂ) (hv : HasCoefsV c v w) :
    ∃ s t, c.scoef1.angularPowerSpectrum (fun x : ℂ => ‖x‖) = .ok s ∧ c.scoef2.angularPowerSpectrum (fun x : ℂ => ‖x‖) = .ok t ∧ (s.length : ℤ) = c.nmax + 1 ∧ (t.length : ℤ) = c.nmax + 1 ∧
      (∀ n (h1 : n < s.length) (h2 : n < t.length) Eθ Eφ, JacksonField c.nmax c.mmax (degreePart v n) (degreePart w n) Eθ Eφ →
        ((s[n] + t[n] : ℝ) : ℂ) = sphInt (fun θ φ => ((‖Eθ θ φ‖ ^ 2 : ℝ) : ℂ)) + sphInt (fun θ φ => ((‖Eφ θ φ‖ ^ 2 : ℝ) : ℂ))) ∧
      ∀ Eθ Eφ, JacksonField c.nmax c.mmax v w Eθ Eφ →
        ((s.sum + t.sum : ℝ) : ℂ) = sphInt (fun θ φ => ((‖Eθ θ φ‖ ^ 2 : ℝ) : ℂ)) + sphInt (fun θ φ => ((‖Eφ θ φ‖ ^ 2 : ℝ) : ℂ)) := by
  obtain ⟨s, e1, l1, b1, p1, -⟩ := c13_power (fun x : ℂ => ‖x‖) c.scoef1 hc.wf1
  obtain ⟨t, e2, l2, b2, p2, -⟩ := c13_power (fun x : ℂ => ‖x‖) c.scoef2 hc.wf2
  have l1' : (s.length : ℤ) = c.nmax + 1 := by rw [l1, hc.n1]
  have l2' : (t.length : ℤ) = c.nmax + 1 := by rw [l2, hc.n2]
  refine ⟨s, t, e1, e2, l1', l2', fun n h1 h2 Eθ Eφ hE => ?_, fun Eθ Eφ hE => ?_⟩
  · rw [VP.total hE, b1 n h1, b2 n h2, VP.spec_sum c.scoef1 hc.wf1 z1 v (fun n m hm h0 => (hv.cf hc (by rw [← hc.n1, ← hc.m1]; exact hm) h0).1) n (by rw [hc.n1]; omega),
      VP.spec_sum c.scoef2 hc.wf2 z2 w (fun n m hm h0 => (hv.cf hc (by rw [← hc.n2, ← hc.m2]; exact hm) h0).2) n (by rw [hc.n2]; omega), hc.n1, hc.m1, hc.n2, hc.m2, ← sum_add_distrib]
  · rw [p1, p2]
    exact (c137_energy c hc z1 z2 v w hv Eθ Eφ hE).symm

/-- C139, doubles: the same for whatever `angular_power_spectrum()` returns for the two sets of a set of doubles, up to a relative rounding error and what is lost to underflow. -/
theorem c139_float (hr : IsRounding rnd) (h : FC rnd → ℝ) (hh : IsHypotAll rnd h) (c : VectorCoefs (FC rnd)) (hc : c.WellFormed)
    (z1 : readMap c.scoef1 0 0 = some 0) (z2 : readMap c.scoef2 0 0 = some 0) (v w : ℤ → ℤ → FC rnd)
    (hvw : ∀ n m, IsMode c.nmax c.mmax n m → n ≠ 0 → readMapV c n m = some (v n m, w n m)) (hl1 : ∀ z ∈ c.scoef1.vec, fcAbs z ≤ 2 ^ (400 : ℤ)) (hl2 : ∀ z ∈ c.scoef2.vec, fcAbs z ≤ 2 ^ (400 : ℤ))
    (hN : c.scoef1.vec.length ≤ 2 ^ 50) (s t : List ℝ) (hs : FloatSpectrum rnd h c.scoef1 s) (ht : FloatSpectrum rnd h c.scoef2 t) :
    (s.length : ℤ) = c.nmax + 1 ∧ (t.length : ℤ) = c.nmax + 1 ∧ ∀ n (h1 : n < s.length) (h2 : n < t.length) Eθ Eφ,
      JacksonField c.nmax c.mmax (degreePart (fun n m => FS.val (v n m)) n) (degreePart (fun n m => FS.val (w n m)) n) Eθ Eφ →
      ∃ E : ℝ, (E : ℂ) = sphInt (fun θ φ => ((‖Eθ θ φ‖ ^ 2 : ℝ) : ℂ)) + sphInt (fun θ φ => ((‖Eφ θ φ‖ ^ 2 : ℝ) : ℂ)) ∧
        |s[n] + t[n] - E| ≤ (2 * (min (n : ℤ) c.mmax : ℤ) + 7 : ℝ) * 2 ^ (-52 : ℤ) * E + 2 * ((2 * (min (n : ℤ) c.mmax : ℤ) + 1 : ℝ) * 2 ^ (-990 : ℤ)) := by
  obtain ⟨p1, p2⟩ := PV.parts c hc z1 z2 v w hvw
  have len : c.scoef2.vec.length = c.scoef1.vec.length := by rw [hc.wf1.length_eq, hc.wf2.length_eq, hc.n1, hc.n2, hc.m1, hc.m2]
  obtain ⟨l1, b1⟩ := c135_spectrum hr h hh c.scoef1 hc.wf1 _ p1 hl1 hN s hs
  obtain ⟨l2, b2⟩ := c135_spectrum hr h hh c.scoef2 hc.wf2 _ p2 hl2 (by omega) t ht
  have key : ∀ (u : ℤ → ℤ → FC rnd) (n : ℕ), ∑ p ∈ modes c.nmax c.mmax, ‖degreePart (fun n m => FS.val (PV.cut u n m)) n p.1 p.2‖ ^ 2 =
      ∑ q ∈ modes c.nmax c.mmax with q.1 ≠ 0, ‖degreePart (fun n m => FS.val (u n m)) n q.1 q.2‖ ^ 2 := by
    intro u n
    rw [sum_filter]
    refine sum_congr rfl fun p _ => ?_
    unfold degreePart PV.cut
    dsimp only
    by_cases h0 : p.1 = 0
    · rw [if_pos h0, if_neg (not_not.mpr h0), FS.val_zero, ite_self]; norm_num
    · rw [if_neg h0, if_pos h0]
  refine ⟨by rw [l1, hc.n1], by rw [l2, hc.n2], fun n h1 h2 Eθ Eφ hE => ?_⟩
  obtain ⟨E1, f1, q1⟩ := b1 n h1
  obtain ⟨E2, f2, q2⟩ := b2 n h2
  rw [sphInt_series, hc.n1, hc.m1, key] at f1
  rw [sphInt_series, hc.n2, hc.m2, key] at f2
  rw [hc.m1] at q1
  rw [hc.m2] at q2
  have g1 : E1 = _ := Complex.ofReal_injective f1
  have g2 : E2 = _ := Complex.ofReal_injective f2
  refine ⟨E1 + E2, by rw [VP.total hE, g1, g2, ← sum_add_distrib], ?_⟩
  clear hl1 hl2 f1 f2 g1 g2 b1 b2
  generalize (2 * ((min (n : ℤ) c.mmax : ℤ) : ℝ) + 1) * 2 ^ (-990 : ℤ) = T at *
  generalize (2 : ℝ) ^ (-52 : ℤ) = U at *
  have a1 := abs_le.mp q1
  have a2 := abs_le.mp q2
  refine abs_le.mpr ⟨?_, ?_⟩ <;> linarith

/-- Not vacuous: a set whose part of degree 1 has energy `21 + 83`, of the `104 + 112` of the whole field. -/
theorem c139_example : vcsample.WellFormed ∧ readMap vcsample.scoef1 0 0 = some 0 ∧ readMap vcsample.scoef2 0 0 = some 0 ∧
    ∃ v w, HasCoefsV vcsample v w ∧ ∃ Eθ Eφ, JacksonField 2 1 (degreePart v 1) (degreePart w 1) Eθ Eφ ∧
      sphInt (fun θ φ => ((‖Eθ θ φ‖ ^ 2 : ℝ) : ℂ)) + sphInt (fun θ φ => ((‖Eφ θ φ‖ ^ 2 : ℝ) : ℂ)) = 104 := by
  refine ⟨vcsample_wf, rfl, rfl, _, _, hasCoefsV_cf vcsample_wf, ?_⟩
  obtain ⟨cc, hcc, hcn, hcm, hcv, -, -⟩ := exists_coefsV 2 1 (by norm_num) (by norm_num) (degreePart vcsample.scoef1.cf 1) (degreePart vcsample.scoef2.cf 1)
  obtain ⟨-, Eθ, Eφ, -, hJ, -⟩ := c50_vispht .py cc hcc _ _ hcv 5 6 (by rw [hcn]; norm_num) (by rw [hcm]; norm_num) (by norm_num)
  rw [hcn, hcm] at hJ
  refine ⟨Eθ, Eφ, hJ, ?_⟩
  have a1 := VP.spec_sum vcsample.scoef1 vcsample_wf.wf1 rfl vcsample.scoef1.cf (fun _ _ _ _ => rfl) 1 (by decide)
  have a2 := VP.spec_sum vcsample.scoef2 vcsample_wf.wf2 rfl vcsample.scoef2.cf (fun _ _ _ _ => rfl) 1 (by decide)
  have i1 : Icc (-(min ((1 : ℕ) : ℤ) vcsample.scoef1.mmax)) (min ((1 : ℕ) : ℤ) vcsample.scoef1.mmax) = {-1, 0, 1} := by
    show Icc (-(min ((1 : ℕ) : ℤ) 1)) (min ((1 : ℕ) : ℤ) 1) = {-1, 0, 1}
    decide
  have i2 : Icc (-(min ((1 : ℕ) : ℤ) vcsample.scoef2.mmax)) (min ((1 : ℕ) : ℤ) vcsample.scoef2.mmax) = {-1, 0, 1} := i1
  have r1 : readMap vcsample.scoef1 ((1 : ℕ) : ℤ) (-1) = some 4 := rfl
  have r2 : readMap vcsample.scoef1 ((1 : ℕ) : ℤ) 0 = some 2 := rfl
  have r3 : readMap vcsample.scoef1 ((1 : ℕ) : ℤ) 1 = some Complex.I := rfl
  have t1 : readMap vcsample.scoef2 ((1 : ℕ) : ℤ) (-1) = some 9 := rfl
  have t2 : readMap vcsample.scoef2 ((1 : ℕ) : ℤ) 0 = some 1 := rfl
  have t3 : readMap vcsample.scoef2 ((1 : ℕ) : ℤ) 1 = some (-1) := rfl
  rw [i1, sum_insert (by decide), sum_insert (by decide), sum_singleton, r1, r2, r3] at a1
  rw [i2, sum_insert (by decide), sum_insert (by decide), sum_singleton, t1, t2, t3] at a2
  rw [VP.total hJ, sum_add_distrib]
  have b1 : ∑ q ∈ modes 2 1 with q.1 ≠ 0, ‖degreePart vcsample.scoef1.cf 1 q.1 q.2‖ ^ 2 = 21 := a1.symm.trans (by norm_num)
  have b2 : ∑ q ∈ modes 2 1 with q.1 ≠ 0, ‖degreePart vcsample.scoef2.cf 1 q.1 q.2‖ ^ 2 = 83 := a2.symm.trans (by norm_num)
  rw [b1, b2]
  norm_num

end Verif.Props
