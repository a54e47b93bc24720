import Verif.VecRound
import Verif.Props.Transforms
import Verif.Props.Coefs2
/-!
# Properties C33, C37 (vector), C28/C29 (vector): the vector transforms
-/
namespace Verif.Props
open Verif Finset

/-! ## C33 -/

/-- The data that `vispht` makes: components of the analysis formula. -/
theorem fhat_vispht {c : VectorCoefs ℂ} {T : Arr2 ℂ} {nr nc : ℕ} (f : ℤ → ℤ → ℂ) (hr : T.rows = 2 * nr - 2) (m : ℤ)
    (hm : |m| ≤ c.mmax) (h2 : 2 * c.mmax + 2 ≤ nc)
    (hd : ∀ ν : ℤ, |ν| ≤ (nr - 1 : ℕ) → 2 * m.natAbs ≤ nc → dftc T ν m = if |m| ≤ c.mmax then f m ν else 0)
    (hs : ∀ ν : ℤ, (nr - 1 : ℕ) ≤ |ν| → f m ν = 0) : fhat T m = f m := by
  funext ν
  rw [Int.abs_eq_natAbs] at hm
  unfold fhat
  split
  · rename_i hlt
    rw [hd ν (by omega) (by omega), if_pos (by rw [Int.abs_eq_natAbs]; exact hm)]
  · rename_i hge
    rw [hs ν (by omega)]

theorem vround (b b' : Backend) (c : VectorCoefs ℂ) (hc : c.WellFormed) (nr nc : ℤ)
    (h1 : c.nmax + 2 ≤ nr) (h2 : 2 * c.mmax + 2 ≤ nc) (h3 : nc % 2 = 0) (hsz : nr ≤ 2 ^ 28) :
    ∃ p c', vispht b c (some nr) (some nc) = .ok p ∧ vspht b' p (some c.nmax) (some c.mmax) = .ok c' ∧
      c'.WellFormed ∧ c'.nmax = c.nmax ∧ c'.mmax = c.mmax ∧
      ∀ n m : ℤ, IsMode c.nmax c.mmax n m →
        c'.scoef1.cf n m = (if n = 0 then 0 else c.scoef1.cf n m) ∧ c'.scoef2.cf n m = (if n = 0 then 0 else c.scoef2.cf n m) := by
  have w1 := hc.wf1.wf
  have hmn := w1.mn
  have hm0 := w1.m0
  rw [hc.n1, hc.m1] at hmn
  rw [hc.m1] at hm0
  have h0 : 0 ≤ c.nmax := le_trans hm0 hmn
  obtain ⟨r, rfl⟩ := Int.eq_ofNat_of_zero_le (show 0 ≤ nr by omega)
  obtain ⟨k, rfl⟩ := Int.eq_ofNat_of_zero_le (show 0 ≤ nc by omega)
  obtain ⟨p, e, t1, t2, p1, p2, -, -, hd⟩ := vispht_main b c hc (some (r : ℤ)) (some (k : ℤ)) r k rfl rfl h1 h2 (by omega)
  obtain ⟨n, hn⟩ := Int.eq_ofNat_of_zero_le h0
  obtain ⟨m, hm⟩ := Int.eq_ofNat_of_zero_le hm0
  obtain ⟨T, P⟩ := p
  simp only at t1 t2 p1 p2 hd
  obtain ⟨c', e', hn', hm', hw', hv'⟩ := vspht_main b' T P (by omega) (by omega) (by omega) (by omega) (by omega)
    (some c.nmax) (some c.mmax) n m
    (by rw [hn, hm]; rfl) (by omega) (by omega) (by omega) (by
      unfold Backend.SizeOK; cases b' <;> simp only
      norm_num at hsz ⊢; omega)
  refine ⟨⟨T, P⟩, c', e, e', hw', hn'.trans hn.symm, hm'.trans hm.symm, fun n' m' hmo => ?_⟩
  obtain ⟨g0, g1, g2, g3⟩ := hmo
  obtain ⟨v1, v2⟩ := hv' n' m' (by rw [hn, hm] at *; exact ⟨g0, g1, g2, g3⟩)
  have hT : fhat T m' = tSeq (wcf c.scoef1) (wcf c.scoef2) n m' := by
    refine fhat_vispht (c := c) (nr := r) (nc := k) (fun m ν => tSeq (wcf c.scoef1) (wcf c.scoef2) n m ν) t1 m' g3 h2 (fun ν a1 a2 => ?_) fun ν a1 => ?_
    · rw [(hd m' ν a1 a2).1, hn, Int.toNat_natCast]; rfl
    · unfold tSeq; rw [Gval_support _ _ _ _ (by omega), Hval_support _ _ _ _ (by omega)]; ring
  have hP : fhat P m' = pSeq (wcf c.scoef1) (wcf c.scoef2) n m' := by
    refine fhat_vispht (c := c) (nr := r) (nc := k) (fun m ν => pSeq (wcf c.scoef1) (wcf c.scoef2) n m ν) p1 m' g3 h2 (fun ν a1 a2 => ?_) fun ν a1 => ?_
    · rw [(hd m' ν a1 a2).2, hn, Int.toNat_natCast]; rfl
    · unfold pSeq; rw [Gval_support _ _ _ _ (by omega), Hval_support _ _ _ _ (by omega)]; ring
  rw [Int.abs_eq_natAbs] at g2
  rw [hT, hP] at v1 v2
  rw [sldot_first, bF_synth (T.rows / 2) n _ m' n'.toNat (by omega) (by omega) (by omega)] at v1
  rw [sldot_second, bF_synth (T.rows / 2) n _ m' n'.toNat (by omega) (by omega) (by omega)] at v2
  unfold wcf at v1 v2
  rw [Int.toNat_of_nonneg g0] at v1 v2
  by_cases hz : n' = 0
  · rw [if_pos hz, if_pos hz, v1, v2, hz]
    simp [wdeg]
  · rw [if_neg hz, if_neg hz, v1, v2]
    have := wdeg_sq n'.toNat (by omega)
    constructor
    · linear_combination c.scoef1.cf n' m' * this
    · linear_combination c.scoef2.cf n' m' * this

/-- C33: analysis of the synthesised tangential field returns the coefficients, for every vector set without monopoles
and any combination of backends. -/
theorem c33_round_trip (b b' : Backend) (c : VectorCoefs ℂ) (hc : c.WellFormed)
    (hz1 : readMap c.scoef1 0 0 = some 0) (hz2 : readMap c.scoef2 0 0 = some 0) (nr nc : ℤ)
    (h1 : c.nmax + 2 ≤ nr) (h2 : 2 * c.mmax + 2 ≤ nc) (h3 : nc % 2 = 0) (hsz : nr ≤ 2 ^ 28) :
    ∃ p, vispht b c (some nr) (some nc) = .ok p ∧ vspht b' p (some c.nmax) (some c.mmax) = .ok c := by
  obtain ⟨p, c', e, e', hw', hn', hm', hv⟩ := vround b b' c hc nr nc h1 h2 h3 hsz
  refine ⟨p, e, ?_⟩
  rw [e']
  congr 1
  obtain ⟨s1, s2, n', m'⟩ := c'
  obtain ⟨t1, t2, n, m⟩ := c
  simp only at *
  subst hn' hm'
  obtain ⟨a1, a2, a3, a4, a5, a6⟩ := hw'
  obtain ⟨c1, c2, c3, c4, c5, c6⟩ := hc
  simp only at *
  rw [readMap_eq c1.wf] at hz1
  rw [readMap_eq c2.wf] at hz2
  have key : ∀ s t : ScalarCoefs ℂ, s.WF → t.WF → t.absMap 0 0 = some 0 → s.nmax = n' → t.nmax = n' → s.mmax = m' → t.mmax = m' →
      (∀ n m : ℤ, IsMode n' m' n m → s.cf n m = if n = 0 then 0 else t.cf n m) → s = t := by
    intro s t ws wt tz e1 e2 e3 e4 hcf
    refine ScalarCoefs.ext_modes ws wt (e1.trans e2.symm) (e3.trans e4.symm) fun n m hm => ?_
    have hms := hm
    have hmt : IsMode t.nmax t.mmax n m := by rw [e2, e4, ← e1, ← e3]; exact hm
    rw [e1, e3] at hm
    have hh := hcf n m hm
    unfold ScalarCoefs.cf at hh
    rw [ScalarCoefs.absMap_mode ws hms] at hh ⊢
    by_cases hn : n = 0
    · have hm0 := isMode_iff.mp hm
      obtain rfl : m = 0 := by omega
      subst hn
      rw [if_pos rfl] at hh
      rw [tz, ← hh]; rfl
    · rw [if_neg hn, ScalarCoefs.absMap_mode wt hmt] at hh
      rw [ScalarCoefs.absMap_mode wt hmt]
      exact congrArg some hh
  rw [key s1 t1 a1.wf c1.wf hz1 a3 c3 a5 c5 fun n m hm => (hv n m hm).1, key s2 t2 a2.wf c2.wf hz2 a4 c4 a6 c6 fun n m hm => (hv n m hm).2]

theorem head_monopole {α : Type} [Zero α] {s : ScalarCoefs α} (w : s.WF) {x : α} (hz : s.vec.head? = some x) : readMap s 0 0 = some x := by
  have h0 := w.m0
  have h1 := w.mn
  have hm : IsMode s.nmax s.mmax 0 0 := isMode_iff.mpr (by omega)
  rw [readMap_eq w, ScalarCoefs.absMap_mode w hm]
  have hs : slot s.nmax 0 0 = 0 := by rw [slot, ord]; simp [seg]
  rw [List.head?_eq_getElem?] at hz
  simp only [hs]
  rw [← List.getElem?_eq_getElem, hz]

/-- C33 for every object a program can build with the public constructor, item assignment, arithmetic and truncation. -/
theorem c33_reachable (b b' : Backend) (c : VectorCoefs ℂ) (hc : Reach c) (h0 : 0 ≤ c.nmax) (nr nc : ℤ)
    (h1 : c.nmax + 2 ≤ nr) (h2 : 2 * c.mmax + 2 ≤ nc) (h3 : nc % 2 = 0) (hsz : nr ≤ 2 ^ 28) :
    ∃ p, vispht b c (some nr) (some nc) = .ok p ∧ vspht b' p (some c.nmax) (some c.mmax) = .ok c := by
  have hi := vinv_reach hc
  rcases hi.wf with w | ⟨w1, w2⟩
  · omega
  · exact c33_round_trip b b' c ⟨ScalarCoefs.wf_iff.mp w1, ScalarCoefs.wf_iff.mp w2, hi.n1, hi.n2, hi.m1, hi.m2⟩
      (head_monopole w1 hi.z1) (head_monopole w2 hi.z2) nr nc h1 h2 h3 hsz

/-- Without the monopole hypothesis (possible by assigning to `vc.scoef1`): the round trip returns the same set with the
monopoles removed. -/
theorem c33_with_monopoles (b b' : Backend) (c : VectorCoefs ℂ) (hc : c.WellFormed) (nr nc : ℤ)
    (h1 : c.nmax + 2 ≤ nr) (h2 : 2 * c.mmax + 2 ≤ nc) (h3 : nc % 2 = 0) (hsz : nr ≤ 2 ^ 28) :
    ∃ p d, vispht b c (some nr) (some nc) = .ok p ∧ vspht b' p (some c.nmax) (some c.mmax) = .ok d ∧
      d.WellFormed ∧ d.nmax = c.nmax ∧ d.mmax = c.mmax ∧ readMap d.scoef1 0 0 = some 0 ∧ readMap d.scoef2 0 0 = some 0 ∧
      ∀ n m : ℤ, n ≠ 0 → readMap d.scoef1 n m = readMap c.scoef1 n m ∧ readMap d.scoef2 n m = readMap c.scoef2 n m := by
  obtain ⟨p, d, e, e', hw', hn', hm', hv⟩ := vround b b' c hc nr nc h1 h2 h3 hsz
  have g1 := hc.wf1.wf.m0
  have g2 := hc.wf1.wf.mn
  rw [hc.n1, hc.m1] at g2
  rw [hc.m1] at g1
  have h00 : IsMode c.nmax c.mmax 0 0 := isMode_iff.mpr (by omega)
  have val : ∀ (s : ScalarCoefs ℂ), s.WF → ∀ n m, IsMode s.nmax s.mmax n m → readMap s n m = some (s.cf n m) := fun s w n m hm => by
    rw [readMap_eq w]; unfold ScalarCoefs.cf; rw [ScalarCoefs.absMap_mode w hm]; rfl
  have none' : ∀ (s : ScalarCoefs ℂ), s.WF → ∀ n m, ¬ IsMode s.nmax s.mmax n m → readMap s n m = none := fun s w n m hm => by
    rw [readMap_eq w]; unfold ScalarCoefs.absMap; rw [if_neg hm]
  have a1 : d.scoef1.nmax = c.nmax := hw'.n1.trans hn'
  have a2 : d.scoef2.nmax = c.nmax := hw'.n2.trans hn'
  have a3 : d.scoef1.mmax = c.mmax := hw'.m1.trans hm'
  have a4 : d.scoef2.mmax = c.mmax := hw'.m2.trans hm'
  refine ⟨p, d, e, e', hw', hn', hm', ?_, ?_, fun n m hn => ?_⟩
  · rw [val _ hw'.wf1.wf _ _ (by rw [a1, a3]; exact h00), (hv 0 0 h00).1, if_pos rfl]
  · rw [val _ hw'.wf2.wf _ _ (by rw [a2, a4]; exact h00), (hv 0 0 h00).2, if_pos rfl]
  · by_cases hm : IsMode c.nmax c.mmax n m
    · obtain ⟨q1, q2⟩ := hv n m hm
      rw [if_neg hn] at q1 q2
      rw [val _ hw'.wf1.wf _ _ (by rw [a1, a3]; exact hm), val _ hw'.wf2.wf _ _ (by rw [a2, a4]; exact hm), q1, q2,
        val _ hc.wf1.wf _ _ (by rw [hc.n1, hc.m1]; exact hm), val _ hc.wf2.wf _ _ (by rw [hc.n2, hc.m2]; exact hm)]
      exact ⟨rfl, rfl⟩
    · rw [none' _ hw'.wf1.wf _ _ (by rw [a1, a3]; exact hm), none' _ hw'.wf2.wf _ _ (by rw [a2, a4]; exact hm),
        none' _ hc.wf1.wf _ _ (by rw [hc.n1, hc.m1]; exact hm), none' _ hc.wf2.wf _ _ (by rw [hc.n2, hc.m2]; exact hm)]
      exact ⟨rfl, rfl⟩

/-- A vector set with `nmax = 2`, `mmax = 1`, no monopoles. -/
noncomputable def vcsample : VectorCoefs ℂ := ⟨⟨[0, 2, 3, 4, 5, Complex.I, 7], 2, 1⟩, ⟨[0, 1, 0, 9, 5, -1, 2], 2, 1⟩, 2, 1⟩

theorem vcsample_wf : vcsample.WellFormed :=
  ⟨⟨by decide, by decide, by rw [show vcsample.scoef1.nmax = 2 from rfl, show vcsample.scoef1.mmax = 1 from rfl]; decide⟩,
   ⟨by decide, by decide, by rw [show vcsample.scoef2.nmax = 2 from rfl, show vcsample.scoef2.mmax = 1 from rfl]; decide⟩, rfl, rfl, rfl, rfl⟩

example : vcsample.WellFormed ∧ readMap vcsample.scoef1 0 0 = some 0 ∧ readMap vcsample.scoef2 0 0 = some 0 ∧
    vcsample.nmax + 2 ≤ 5 ∧ 2 * vcsample.mmax + 2 ≤ 6 ∧ (6 : ℤ) % 2 = 0 :=
  ⟨vcsample_wf, head_monopole vcsample_wf.wf1.wf rfl, head_monopole vcsample_wf.wf2.wf rfl, by decide, by decide, by decide⟩

end Verif.Props
