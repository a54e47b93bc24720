import Verif.VecOps
import Verif.Props.Transforms2
/-!
# The vector transforms in closed form
-/
namespace Verif
open Finset Verif.Props

/-- The degree weight `1/sqrt(n(n+1))`, 0 for `n = 0`. -/
noncomputable def wdeg (n : ℕ) : ℂ := if n = 0 then 0 else ((1 / Real.sqrt ((n : ℝ) * ((n : ℝ) + 1)) : ℝ) : ℂ)

theorem wdeg_sq (n : ℕ) (h : n ≠ 0) : wdeg n * ((n * (n + 1) : ℂ) * wdeg n) = 1 := by
  unfold wdeg
  rw [if_neg h]
  have hp : (0 : ℝ) < (n : ℝ) * ((n : ℝ) + 1) := by positivity
  have hs : Real.sqrt ((n : ℝ) * ((n : ℝ) + 1)) ≠ 0 := (Real.sqrt_pos.mpr hp).ne'
  have e : (1 / Real.sqrt ((n : ℝ) * ((n : ℝ) + 1))) * (((n : ℝ) * (n + 1)) * (1 / Real.sqrt ((n : ℝ) * ((n : ℝ) + 1)))) = 1 := by
    field_simp
    rw [Real.sq_sqrt hp.le]
  exact_mod_cast congrArg (fun x : ℝ => (x : ℂ)) e

theorem nvec_spec (n : ℕ) : ∃ w, nvec n = .ok w ∧ w.length = n + 1 ∧ ∀ k, k ≤ n → w[k]? = some (wdeg k) := by
  unfold nvec npFull
  rw [if_neg (by omega)]
  simp only [Except.bind_ok]
  obtain ⟨s, e, hi⟩ := forM'_range_inv (a := 1) (b := (n : Int) + 1) (by omega) (List.replicate ((n : Int) + 1).toNat (0 : ℂ))
    (fun v n => setIdx v n ((1.0 / Real.sqrt ((n : ℝ) * ((n : ℝ) + 1.0)) : ℝ) : ℂ))
    (fun k s => s.length = n + 1 ∧ ∀ i : ℕ, i ≤ n → rd s i = if (i : Int) < k then wdeg i else 0)
    ⟨by simp, fun i hi => by
      rw [rd_replicate_zero]
      split
      · rw [show i = 0 by omega]; simp [wdeg]
      · rfl⟩
    (by
      rintro k s h1 h2 ⟨sl, sv⟩
      obtain ⟨k, rfl⟩ := Int.eq_ofNat_of_zero_le (show 0 ≤ k by omega)
      refine ⟨s.set k (wdeg k), ?_, by simpa using sl, fun i hi => ?_⟩
      · rw [← cSet_eq_setIdx _ _ _ (by omega) (by omega), cSet_ok (by omega)]
        congr 2
        unfold wdeg
        rw [if_neg (by omega)]
        norm_num
      · rw [rd_set' _ _ _ _ (by omega)]
        by_cases hk : i = k
        · rw [if_pos hk, if_pos (by omega), hk]
        · rw [if_neg hk, sv i hi]
          by_cases hlt : (i : ℤ) < k
          · rw [if_pos hlt, if_pos (by omega)]
          · rw [if_neg hlt, if_neg (by omega)])
  refine ⟨s, e, hi.1, fun k hk => ?_⟩
  have := hi.2 k hk
  rw [if_pos (by omega)] at this
  rw [← this]
  have hl : k < s.length := by omega
  simp [rd, hl]

theorem windowed_spec {c : ScalarCoefs ℂ} (h : c.WF) {nmax : ℕ} (hn : c.nmax = nmax) {w : List ℂ} (hl : w.length = nmax + 1)
    (hw : ∀ k, k ≤ nmax → w[k]? = some (wdeg k)) :
    ∃ d, c.windowed w = .ok d ∧ d.WF ∧ d.nmax = c.nmax ∧ d.mmax = c.mmax ∧
      ∀ n m, IsMode c.nmax c.mmax n m → d.cf n m = wdeg n.toNat * c.cf n m := by
  obtain ⟨e, dw, d1, d2, dv⟩ := ScalarCoefs.window_eq h (w := w) (by omega)
  refine ⟨(c.window w).st, ?_, dw, d1, d2, fun n m hm => ?_⟩
  · unfold ScalarCoefs.windowed
    simp only [e]
  · have hm' := hm
    obtain ⟨h0, h1, -, -⟩ := hm'
    unfold ScalarCoefs.cf
    rw [dv n m hm, hw _ (by omega), ScalarCoefs.absMap_mode h hm]
    simp [mul_comm]

theorem freq_spec (C : ℕ) (hC : C % 2 = 0) (h0 : 0 < C) (m : ℤ) :
    freqList C (m % C).toNat % C = m % C ∧ -(C : ℤ) ≤ 2 * freqList C (m % C).toNat ∧ 2 * freqList C (m % C).toNat < C := by
  have h1 : 0 ≤ m % (C : ℤ) := Int.emod_nonneg _ (by omega)
  have h2 : m % (C : ℤ) < C := Int.emod_lt_of_pos _ (by omega)
  generalize hq : m % (C : ℤ) = q at *
  unfold freqList
  split
  · refine ⟨?_, by omega, by omega⟩
    rw [Int.toNat_of_nonneg h1, Int.emod_eq_of_lt h1 h2]
  · refine ⟨?_, by omega, by omega⟩
    rw [Int.toNat_of_nonneg h1, show 2 * ((C / 2 : ℕ) : ℤ) = C by omega, ← Int.add_emod_right, sub_add_cancel, Int.emod_eq_of_lt h1 h2]

theorem fAt_congr (A : Arr2 ℂ) {m m' : ℤ} (h : m % A.cols = m' % A.cols) (ν : ℤ) : fAt A m ν = fAt A m' ν := by
  unfold fAt; rw [h]

/-- `(order, degree) ↦` the weighted coefficient. -/
noncomputable def wcf (c : ScalarCoefs ℂ) (m : ℤ) (n : ℕ) : ℂ := wdeg n * c.cf n m

theorem Gval_congr (v u : ℤ → ℕ → ℂ) (nmax : ℕ) (m k : ℤ) (h : ∀ n, m.natAbs ≤ n → n ≤ nmax → v m n = u m n) : Gval v nmax m k = Gval u nmax m k := by
  unfold Gval
  congr 1
  refine sum_congr rfl fun n hn => ?_
  have := mem_Icc.mp hn
  rw [h n this.1 this.2]

/-- One component: window, synthesise, apply `L`. -/
theorem lcomp_spec (b : Backend) (call : ℕ) (c : ScalarCoefs ℂ) (h : c.WF) (nmax mmax M k : ℕ) (hn : c.nmax = nmax) (hm : c.mmax = mmax) (hM : nmax < M)
    (hk : 2 * mmax + 2 ≤ k) (hk2 : k % 2 = 0) (w : List ℂ) (hl : w.length = nmax + 1) (hw : ∀ k, k ≤ nmax → w[k]? = some (wdeg k)) :
    ∃ d, c.windowed w = .ok d ∧ d.nmax = nmax ∧ d.mmax = mmax ∧ ∃ A, b.scToFc call d.vec nmax mmax ((2 * M : ℕ) : ℤ) (k : ℤ) = .ok A ∧
      ∃ g, lFc A = .ok g ∧ g.1.rows = 2 * M ∧ g.1.cols = k ∧ g.2.rows = 2 * M ∧ g.2.cols = k ∧
      ∀ m ν : ℤ, |ν| ≤ M → -(k : ℤ) ≤ 2 * m → 2 * m < k →
        fAt g.1 m ν = (if m.natAbs ≤ mmax then -Hval (wcf c) nmax m ν else 0) ∧
        fAt g.2 m ν = if m.natAbs ≤ mmax then ν * Gval (wcf c) nmax m ν else 0 := by
  obtain ⟨d, ed, dw, d1, d2, dv⟩ := windowed_spec h hn hl hw
  have hmn := h.mn
  rw [hn, hm] at hmn
  have hlen : d.vec.length = seg (nmax + 1) (2 * mmax + 1) := by
    have := dw.len
    have e := ncFormula_eq (nmax := nmax) (mmax := mmax) (by omega) (by omega)
    rw [d1, d2, hn, hm, e, show ((nmax : ℤ) + 1).toNat = nmax + 1 by omega, Int.toNat_natCast] at this
    exact_mod_cast this
  obtain ⟨A, eA, hA⟩ := scToFc_backend b call d.vec nmax mmax (2 * M) k (by omega) (by omega) hk hlen
  have hAr := hA.rows
  have hAc := hA.cols
  have hval : ∀ m ν : ℤ, |ν| ≤ M → -(k : ℤ) ≤ 2 * m → 2 * m < k → fAt A m ν = if m.natAbs ≤ mmax then Gval (wcf c) nmax m ν else 0 := by
    intro m ν h1 h2 h3
    rw [hA.fAt (M := M) rfl hM hk m ν h1 (by omega)]
    by_cases hx : m.natAbs ≤ mmax
    · rw [if_pos hx, if_pos hx]
      refine Gval_congr _ _ _ _ _ fun n a1 a2 => ?_
      rw [cfOf_eq dw (d1.trans hn) (d2.trans hm) a1 a2 hx, dv n m ⟨by omega, by omega, by rw [Int.abs_eq_natAbs]; omega, by rw [Int.abs_eq_natAbs]; omega⟩]
      rfl
    · rw [if_neg hx, if_neg hx]
  let q : ℤ → ℤ := fun m => freqList k (m % k).toNat
  have hq := fun m => freq_spec k hk2 (by omega) m
  obtain ⟨g, eg, g1, g2, g3, g4, g5, g6⟩ := lFc_spec A M hAr (by omega) (by omega) (by omega)
    (fun m ν => if (q m).natAbs ≤ mmax then Hval (wcf c) nmax (q m) ν else 0)
    (fun m ν hν => by
      rw [Hval_support _ _ _ _ (by omega)]; simp)
    (fun m ν hν => by
      have e : fAt A m ν = fAt A (q m) ν := fAt_congr A (by rw [hAc]; exact (hq m).1.symm) ν
      rw [e, hval (q m) ν (by omega) (hq m).2.1 (hq m).2.2, hAc]
      by_cases hx : (q m).natAbs ≤ mmax
      · simp only [if_pos hx]
        exact Hval_sin (wcf c) nmax (q m) ν
      · simp only [if_neg hx]; simp)
  refine ⟨d, ed, d1.trans hn, d2.trans hm, A, eA, g, eg, by omega, by omega, by omega, by omega, fun m ν h1 h2 h3 => ⟨?_, ?_⟩⟩
  · have e : q m = m := freqList_eq k hk2 m h2 h3
    rw [g5 m ν h1, e]
    split <;> simp
  · rw [g6, hval m ν h1 h2 h3]
    by_cases hx : m.natAbs ≤ mmax
    · rw [if_pos hx, if_pos hx]
      by_cases hνM : |ν| < M
      · rw [abs_lt] at hνM
        rw [freqList_eq _ (by omega) ν (by omega) (by omega)]
      · rw [Gval_support _ _ _ _ (by omega)]; simp
    · rw [if_neg hx, if_neg hx, mul_zero]

theorem visphtGuards_ok (n m nr nc : ℤ) (h1 : n + 2 ≤ nr) (h2 : 2 * m + 2 ≤ nc) (h3 : nc % 2 = 0) : visphtGuards n m nr nc = .ok () := by
  unfold visphtGuards
  rw [if_neg (by omega), if_neg (by omega), if_neg (by omega)]

theorem scopy_wf {α : Type} {c : ScalarCoefs α} (h : c.WF) : c.copy = .ok c := by
  unfold ScalarCoefs.copy
  rw [ScalarCoefs.init_wf h.m0 h.mn h.len.symm]

/-- `vispht` on a grid large enough. -/
theorem vispht_main (b : Backend) (c : VectorCoefs ℂ) (h : c.WellFormed) (nrows ncols : Option ℤ) (nr nc : ℕ)
    (hnr : nrows.getD (c.nmax + 2) = nr) (hnc : ncols.getD (2 * c.mmax + 2) = nc)
    (h1 : c.nmax + 2 ≤ nr) (h2 : 2 * c.mmax + 2 ≤ nc) (h3 : nc % 2 = 0) :
    ∃ p, vispht b c nrows ncols = .ok p ∧ p.td.rows = 2 * nr - 2 ∧ p.td.cols = nc ∧ p.pd.rows = 2 * nr - 2 ∧ p.pd.cols = nc ∧
      (∀ i j : ℕ, i < 2 * nr - 2 → j < nc → p.td.at' i j =
        ∑ ν ∈ Ioc (-((2 * nr - 2 - 1) / 2 : ℕ) - 1 : ℤ) (((2 * nr - 2) / 2 : ℕ) : ℤ), ∑ m ∈ Ioc (-((nc - 1) / 2 : ℕ) - 1 : ℤ) ((nc / 2 : ℕ) : ℤ),
          dftc p.td ν m * root (2 * nr - 2) (i * ν) * root nc (j * m)) ∧
      (∀ i j : ℕ, i < 2 * nr - 2 → j < nc → p.pd.at' i j =
        ∑ ν ∈ Ioc (-((2 * nr - 2 - 1) / 2 : ℕ) - 1 : ℤ) (((2 * nr - 2) / 2 : ℕ) : ℤ), ∑ m ∈ Ioc (-((nc - 1) / 2 : ℕ) - 1 : ℤ) ((nc / 2 : ℕ) : ℤ),
          dftc p.pd ν m * root (2 * nr - 2) (i * ν) * root nc (j * m)) ∧
      ∀ m ν : ℤ, |ν| ≤ (nr - 1 : ℕ) → 2 * m.natAbs ≤ nc →
        dftc p.td ν m = (if |m| ≤ c.mmax then -Hval (wcf c.scoef1) c.nmax.toNat m ν - Complex.I * (ν * Gval (wcf c.scoef2) c.nmax.toNat m ν) else 0) ∧
        dftc p.pd ν m = if |m| ≤ c.mmax then ν * Gval (wcf c.scoef1) c.nmax.toNat m ν - Complex.I * Hval (wcf c.scoef2) c.nmax.toNat m ν else 0 := by
  have w1 := h.wf1.wf
  have w2 := h.wf2.wf
  have hmn := w1.mn
  have hm0 := w1.m0
  rw [h.n1, h.m1] at hmn
  rw [h.m1] at hm0
  obtain ⟨nmax, hn⟩ := Int.eq_ofNat_of_zero_le (le_trans hm0 hmn)
  obtain ⟨mmax, hm⟩ := Int.eq_ofNat_of_zero_le hm0
  rw [hn, hm] at hmn
  rw [hn] at h1
  rw [hm] at h2
  obtain ⟨w, ew, hwl, hwv⟩ := nvec_spec nmax
  obtain ⟨d1, ed1, d11, d12, A1, eA1, g1, eg1, r11, c11, r12, c12, v1⟩ :=
    lcomp_spec b 0 c.scoef1 w1 nmax mmax (nr - 1) nc (h.n1.trans hn) (h.m1.trans hm) (by omega) (by omega) h3 w hwl hwv
  obtain ⟨d2, ed2, d21, d22, A2, eA2, g2, eg2, r21, c21, r22, c22, v2⟩ :=
    lcomp_spec b 1 c.scoef2 w2 nmax mmax (nr - 1) nc (h.n2.trans hn) (h.m2.trans hm) (by omega) (by omega) h3 w hwl hwv
  have hrw : 2 * (nr - 1) = 2 * nr - 2 := by omega
  rw [hrw] at r11 r12 r21 r22 eA1 eA2
  obtain ⟨T, eT, hTr, hTc, hTv, hTd⟩ := invFourier_spec (g1.1.zip (fun a b => a - Complex.I * b) g2.2) (2 * nr - 2) nc r11 c11 (by omega) (by omega)
  obtain ⟨P, eP, hPr, hPc, hPv, hPd⟩ := invFourier_spec (g1.2.zip (fun a b => a + Complex.I * b) g2.1) (2 * nr - 2) nc r12 c12 (by omega) (by omega)
  refine ⟨⟨T, P⟩, ?_, hTr, hTc, hPr, hPc, fun i j hi hj => ?_, fun i j hi hj => ?_, fun m ν hν hmm => ?_⟩
  · unfold vispht
    simp only [hnr, hnc]
    rw [visphtGuards_ok _ _ _ _ (by omega) (by omega) (by omega)]
    simp only [Except.bind_ok]
    rw [hn, ew, scopy_wf w1, scopy_wf w2]
    simp only [Except.bind_ok]
    rw [ed1, ed2]
    simp only [Except.bind_ok]
    rw [d11, d12, d21, d22, show 2 * (nr : ℤ) - 2 = ((2 * nr - 2 : ℕ) : ℤ) by omega, eA1]
    simp only [Except.bind_ok]
    have fin : ∀ x : Res (Arr2 ℂ), x = .ok A2 → (x.bind fun f2 => (lFc A1).bind fun l1 => (lFc f2).bind fun l2 =>
        (invFourier (l1.1.zip (fun a b => a - Complex.I * b) l2.2) ((2 * nr - 2 : ℕ) : ℤ) nc).bind fun dt =>
        (invFourier (l1.2.zip (fun a b => a + Complex.I * b) l2.1) ((2 * nr - 2 : ℕ) : ℤ) nc).bind fun dp =>
        TPatt.init (.arr dt) (.arr dp) true) = .ok ⟨T, P⟩ := by
      rintro x rfl
      simp only [Except.bind_ok]
      rw [eg1, eg2]
      simp only [Except.bind_ok]
      rw [eT, eP]
      simp only [Except.bind_ok]
      unfold TPatt.init
      simp only
      rw [if_neg (by omega)]
    cases b <;> exact fin _ eA2
  · rw [hTv i j hi hj]
    simp only [hTd]
  · rw [hPv i j hi hj]
    simp only [hPd]
  · simp only
    rw [hTd, hPd, fAt_zip _ _ _ (by omega) (by omega) (by omega) (by omega), fAt_zip _ _ _ (by omega) (by omega) (by omega) (by omega), hn, hm,
      Int.toNat_natCast, Int.abs_eq_natAbs]
    by_cases hb : 2 * m < nc
    · obtain ⟨a1, a2⟩ := v1 m ν hν (by omega) hb
      obtain ⟨b1, b2⟩ := v2 m ν hν (by omega) hb
      rw [a1, a2, b1, b2]
      by_cases hx : m.natAbs ≤ mmax
      · simp only [if_pos hx, if_pos (show ((m.natAbs : ℕ) : ℤ) ≤ mmax by omega)]
        exact ⟨trivial, by ring⟩
      · simp only [if_neg hx, if_neg (show ¬ ((m.natAbs : ℕ) : ℤ) ≤ mmax by omega)]
        simp
    · have hmm' : (m : ℤ) % (nc : ℕ) = (-m) % (nc : ℕ) := by
        rw [show m = -m + nc by omega, Int.add_emod_right]; congr 1; omega
      obtain ⟨a1, a2⟩ := v1 (-m) ν hν (by omega) (by omega)
      obtain ⟨b1, b2⟩ := v2 (-m) ν hν (by omega) (by omega)
      rw [fAt_congr g1.1 (m' := -m) (by rw [c11]; exact hmm'), fAt_congr g1.2 (m' := -m) (by rw [c12]; exact hmm'),
        fAt_congr g2.1 (m' := -m) (by rw [c21]; exact hmm'), fAt_congr g2.2 (m' := -m) (by rw [c22]; exact hmm'), a1, a2, b1, b2]
      have hx : ¬ (-m).natAbs ≤ mmax := by omega
      simp only [if_neg hx, if_neg (show ¬ ((m.natAbs : ℕ) : ℤ) ≤ mmax by omega)]
      simp

/-- `sinLdot_fc` on sequences: order `m`, components `t`, `p`. -/
noncomputable def sldot (m : ℤ) (t p : ℤ → ℂ) (ν : ℤ) : ℂ := -(m * t ν) + ν * ((p (ν - 1) - p (ν + 1)) / (2 * Complex.I))

theorem vinit_good {n m : ℕ} {v u : List ℂ} {f g : ℤ → ℕ → ℂ} (hmn : m ≤ n) (hv : SegVec (n + 1) v (2 * m + 1) f) (hu : SegVec (n + 1) u (2 * m + 1) g) :
    ∃ s1 s2, VectorCoefs.init (.arr v) (.arr u) n m = .ok ⟨s1, s2, n, m⟩ ∧ s1.WF ∧ s2.WF ∧ s1.nmax = n ∧ s1.mmax = m ∧ s2.nmax = n ∧ s2.mmax = m ∧
      ∀ n' m' : ℤ, IsMode n m n' m' → n' ≠ 0 → s1.cf n' m' = f m' n'.toNat ∧ s2.cf n' m' = g m' n'.toNat := by
  obtain ⟨ev, wv, rv⟩ := segvec_obj hmn hv
  obtain ⟨eu, wu, ru⟩ := segvec_obj hmn hu
  have lv := wv.len
  have lu := wu.len
  simp only at lv lu
  have hlen := ncFormula_eq (nmax := n) (mmax := m) (by omega) (by omega)
  rw [show ((n : ℤ) + 1).toNat = n + 1 by omega, Int.toNat_natCast] at hlen
  have hpos : 0 < seg (n + 1) (2 * m + 1) := by
    have h1 := seg_mono (n + 1) (show 0 + 1 ≤ 2 * m + 1 by omega)
    have h2 := seg_succ (n + 1) 0
    have h3 : n + 1 - (0 + 1) / 2 = n + 1 := by simp
    omega
  have wset : ∀ (l : List ℂ), (ScalarCoefs.mk l (n : ℤ) (m : ℤ)).WF → (ScalarCoefs.mk (l.set 0 0) (n : ℤ) (m : ℤ)).WF :=
    fun l w => ⟨w.m0, w.mn, by have := w.len; simpa using this⟩
  have rset : ∀ (l : List ℂ), (ScalarCoefs.mk l (n : ℤ) (m : ℤ)).WF → ∀ n' m' : ℤ, IsMode n m n' m' → n' ≠ 0 →
      (ScalarCoefs.mk (l.set 0 0) (n : ℤ) (m : ℤ)).absMap n' m' = (ScalarCoefs.mk l (n : ℤ) (m : ℤ)).absMap n' m' := by
    intro l w n' m' hm hn'
    have hm' := isMode_iff.mp hm
    have hs := slot_ne_zero (nmax := n) (n := n') (m := m') (by omega) (by omega) (by omega)
    rw [ScalarCoefs.absMap_mode w hm, ScalarCoefs.absMap_mode (wset l w) hm]
    simp only [Option.some.injEq]
    exact List.getElem_set_ne (Ne.symm hs) _
  refine ⟨⟨v.set 0 0, n, m⟩, ⟨u.set 0 0, n, m⟩, ?_, wset v wv, wset u wu, rfl, rfl, rfl, rfl, fun n' m' hm hn' => ⟨?_, ?_⟩⟩
  · unfold VectorCoefs.init
    simp only
    rw [if_neg (by omega), if_neg (by omega), if_neg (by omega)]
    have e1 : setIdx v 0 0 = .ok (v.set 0 0) := by
      rw [← cSet_eq_setIdx _ _ _ (by omega) (by omega)]; exact cSet_ok (i := 0) (by omega)
    have e2 : setIdx u 0 0 = .ok (u.set 0 0) := by
      rw [← cSet_eq_setIdx _ _ _ (by omega) (by omega)]; exact cSet_ok (i := 0) (by omega)
    rw [e1, e2]
    simp only [Except.bind_ok]
    have w1 := wset v wv
    have w2 := wset u wu
    rw [ScalarCoefs.init_wf w1.m0 w1.mn w1.len.symm, ScalarCoefs.init_wf w2.m0 w2.mn w2.len.symm]
    rfl
  · unfold ScalarCoefs.cf
    rw [rset v wv n' m' hm hn', rv n' m' hm]; rfl
  · unfold ScalarCoefs.cf
    rw [rset u wu n' m' hm hn', ru n' m' hm]; rfl

/-- `vspht` on accepted arguments. -/
theorem vspht_main (b : Backend) (T P : Arr2 ℂ) (hR : T.rows % 2 = 0) (hR0 : 0 < T.rows) (hC : T.cols % 2 = 0) (hPr : P.rows = T.rows)
    (hPc : P.cols = T.cols) (nmax mmax : Option ℤ) (n m : ℕ)
    (hargs : sphtArgs (.ok (T.rows / 2 + 1)) (.ok T.cols) nmax mmax = .ok ((n : ℤ), (m : ℤ)))
    (hmn : m ≤ n) (hn : n < T.rows / 2) (hm : 2 * m < T.cols) (hsz : b.SizeOK (T.rows + 2 + n)) :
    ∃ c, vspht b ⟨T, P⟩ nmax mmax = .ok c ∧ c.nmax = n ∧ c.mmax = m ∧ c.WellFormed ∧
      ∀ n' m' : ℤ, IsMode n m n' m' →
        c.scoef1.cf n' m' = wdeg n'.toNat * bF (T.rows / 2 + 1) (sldot m' (fhat T m') (fhat P m')) m' n'.toNat ∧
        c.scoef2.cf n' m' = wdeg n'.toNat * bF (T.rows / 2 + 1)
          (sldot m' (fun ν => -Complex.I * fhat P m' ν) (fun ν => Complex.I * fhat T m' ν)) m' n'.toNat := by
  obtain ⟨E, eE, hEr, hEc, hEv⟩ := extFourier_spec T hR hR0 (by omega)
  obtain ⟨F, eF, hFr, hFc, hFv⟩ := extFourier_spec P (by omega) (by omega) (by omega)
  have hc0 : 0 < T.cols := by omega
  have hny : ∀ (D : Arr2 ℂ) (m : ℤ), D.rows = T.rows → fhat D m ((T.rows / 2 : ℕ) + 1) = 0 := by
    intro D m hD
    exact fhat_outer D m _ (by rw [hD, abs_of_nonneg (by omega)]; omega)
  obtain ⟨G1, e1, g11, g12, g13, g14⟩ := sinLdotFc_spec E F (T.rows / 2) (by omega) (by omega) (by omega) (by omega) (by omega) (by omega)
    (fhat P) (fun m ν hν => hFv m ν (by rw [hPr]; exact hν)) (fun m ν hν => fhat_outer P m ν (by rw [hPr]; exact hν))
    (fun m => by rw [hEv m _ (by rw [abs_of_nonneg (by omega)]), hny T m rfl])
  obtain ⟨G2, e2, g21, g22, g23, g24⟩ := sinLdotFc_spec (F.map fun x => -Complex.I * x) (E.map fun x => Complex.I * x) (T.rows / 2)
    (by simp only [Arr2.rows_map]; omega) (by simp only [Arr2.rows_map]; omega) (by omega) (by simp only [Arr2.cols_map]; omega)
    (by simp only [Arr2.cols_map]; omega) (by simp only [Arr2.cols_map]; omega)
    (fun m ν => Complex.I * fhat T m ν) (fun m ν hν => by rw [fAt_map _ _ (by omega) (by omega), hEv m ν hν])
    (fun m ν hν => by rw [fhat_outer T m ν hν, mul_zero])
    (fun m => by
      rw [fAt_map _ _ (by omega) (by omega), hFv m _ (by rw [hPr, abs_of_nonneg (by omega)]), hny P m hPr, mul_zero])
  simp only [Arr2.rows_map, Arr2.cols_map] at g21 g22 g23
  obtain ⟨v1, ev1, hv1⟩ := fcToSc_backend b 0 G1 n m (by omega) (by omega) hmn (by omega) g14 (by rw [g11, hEr]; exact hsz)
  obtain ⟨v2, ev2, hv2⟩ := fcToSc_backend b 1 G2 n m (by omega) (by omega) hmn (by omega) g24 (by rw [g21, hFr, hPr]; exact hsz)
  obtain ⟨s1, s2, ei, w1, w2, n1, m1, n2, m2, hv⟩ := vinit_good hmn hv1 hv2
  obtain ⟨w, ew, hwl, hwv⟩ := nvec_spec n
  obtain ⟨d1, ed1, dw1, d11, d12, dv1⟩ := windowed_spec w1 n1 hwl hwv
  obtain ⟨d2, ed2, dw2, d21, d22, dv2⟩ := windowed_spec w2 n2 hwl hwv
  refine ⟨⟨d1, d2, n, m⟩, ?_, rfl, rfl, ⟨ScalarCoefs.wf_iff.mp dw1, ScalarCoefs.wf_iff.mp dw2, d11.trans n1, d21.trans n2, d12.trans m1, d22.trans m2⟩, ?_⟩
  · unfold vspht vspht.extFourier'
    simp only [TPatt.nrows, TPatt.ncols]
    rw [hargs]
    simp only [Except.bind_ok]
    rw [sphtGuards_ok _ _ _ _ (by omega) (by omega) (by omega) hC]
    simp only [Except.bind_ok]
    rw [eE, if_pos ⟨hPr.symm, hPc.symm⟩, eF]
    simp only [Except.bind_ok]
    rw [e1, e2]
    simp only [Except.bind_ok]
    rw [ev1, ev2]
    simp only [Except.bind_ok]
    rw [ei]
    simp only [Except.bind_ok]
    rw [ew]
    simp only [Except.bind_ok]
    rw [ed1, ed2]
    rfl
  · intro n' m' hmo
    have hmo' := isMode_iff.mp hmo
    have q1 : IsMode s1.nmax s1.mmax n' m' := by rw [n1, m1]; exact hmo
    have q2 : IsMode s2.nmax s2.mmax n' m' := by rw [n2, m2]; exact hmo
    simp only
    rw [dv1 n' m' q1, dv2 n' m' q2]
    by_cases hz : n' = 0
    · have : wdeg n'.toNat = 0 := by rw [hz]; simp [wdeg]
      rw [this]; simp
    · obtain ⟨a1, a2⟩ := hv n' m' hmo hz
      have hb1 : -(T.cols : ℤ) ≤ 2 * m' := by omega
      have hb2 : 2 * m' < (T.cols : ℤ) := by omega
      rw [a1, a2]
      constructor
      · rw [bval_eq_bF G1 m' n'.toNat (T.rows / 2 + 1) (by omega) (sldot m' (fhat T m') (fhat P m'))]
        intro ν hν
        rw [mem_Ioo] at hν
        rw [g13 m' ν (by rw [abs_le]; omega), hEv m' ν (by rw [abs_le]; omega), hEc, freqList_eq T.cols hC m' hb1 hb2]
        rfl
      · rw [bval_eq_bF G2 m' n'.toNat (T.rows / 2 + 1) (by omega)
          (sldot m' (fun ν => -Complex.I * fhat P m' ν) (fun ν => Complex.I * fhat T m' ν))]
        intro ν hν
        rw [mem_Ioo] at hν
        rw [g23 m' ν (by rw [abs_le]; omega), fAt_map _ _ (by omega) (by omega), hFv m' ν (by rw [abs_le, hPr]; omega), hFc, hPc, freqList_eq T.cols hC m' hb1 hb2]
        rfl

end Verif
