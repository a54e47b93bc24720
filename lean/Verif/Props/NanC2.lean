import Verif.Props.NanC1
import Verif.Props.FloatKiss12
import Verif.Props.CInt2
/-!
# C132: a NaN through the analysis of the compiled extension
-/
namespace Verif.Props
open Verif Finset
namespace NC
variable {rnd : ℝ → ℝ} {Bd : IE → Prop} [Sticky Bd]

theorem ynunm_ok (n : ℕ) (m : ℤ) (L : ℕ) (y : List ℝ) (hL : n < L) (hy : y.length = L) : ∃ out, Fl.cYnunm rnd n m y L = .ok out ∧ out.length = L := by
  unfold Fl.cYnunm
  rw [fill_ok y L (by omega) _ (fun _ => 0) (fun k l' hk hl' _ => cSet_ok (by omega))]
  simp only [Except.bind_ok]
  generalize ht : (tab y.length fun i => if i < L then (0 : ℝ) else rd y i) = t
  have lt : t.length = L := by rw [← ht, length_tab, hy]
  split
  · rw [cSet_at (j := n) (by omega) (by omega)]
    simp only [Except.bind_ok]
    split
    · rw [cGet_at (j := n) (by simp; omega) (by omega)]
      simp only [Except.bind_ok]
      rw [cSet_at (j := n - 2) (by simp; omega) (by omega)]
      simp only [Except.bind_ok]
      obtain ⟨o, e, h⟩ := forM'_ok (fun y : List ℝ => y.length = L) (Fl.cYnunmStep rnd n m) (pyRangeNeg ((n : ℤ) - 2 - 2) (-1) 2) ((t.set n (Fl.cYnnm rnd n m)).set (n - 2) (rnd (rnd (Fl.cLead rnd n m ((n : ℤ) - 2) * rd (t.set n (Fl.cYnnm rnd n m)) n) / Fl.cBi rnd n ((n : ℤ) - 2)))) (by simpa using lt) (by
        intro k hk' y hy
        have hkr : 0 ≤ k ∧ k ≤ (n : Int) - 4 := by
          unfold pyRangeNeg at hk'
          simp only [List.mem_map, List.mem_range] at hk'
          obtain ⟨j, hj, rfl⟩ := hk'
          omega
        unfold Fl.cYnunmStep
        rw [cGet_at (j := (k + 2).toNat) (by omega) (by omega), cGet_at (j := (k + 4).toNat) (by omega) (by omega)]
        simp only [Except.bind_ok]
        rw [cSet_at (j := k.toNat) (by omega) (by omega)]
        exact ⟨_, rfl, by simpa using hy⟩)
      exact ⟨o, e, h⟩
    · exact ⟨_, rfl, by simpa using lt⟩
  · exact ⟨_, rfl, lt⟩

theorem sData_ok (s : List (IE × IE)) (L N Q : ℕ) (hL : L % 2 = 0) (hQ : L + N ≤ Q) (hs : s.length = Q) (hL0 : 0 < L) :
    ∃ s', NX.cSData rnd s Q L N = .ok s' ∧ s'.length = Q := by
  unfold NX.cSData
  rw [cMemset0_ok s Q hs]
  simp only [Except.bind_ok]
  rw [show (L : Int).tdiv 2 = ((L / 2 : ℕ) : Int) by rw [Int.tdiv_eq_ediv_of_nonneg (by omega)]; rfl]
  obtain ⟨s1, e1, l1⟩ := forM'_ok (fun s : List (IE × IE) => s.length = Q) (fun (s : List (IE × IE)) (k : ℤ) =>
    if k.tmod 2 = 1 then (cGet s (k - ((L / 2 : ℕ) : Int))).bind fun z => cSet s (k - ((L / 2 : ℕ) : Int)) (z.1, IE.lit (rnd (-1 / (k : ℝ)))) else .ok s)
    (pyRange ((L / 2 : ℕ) : Int) (((L / 2 : ℕ) : Int) + ((N : ℤ) + 1))) (tab Q fun _ => 0) (by simp) (by
      intro k hk s hs
      have hk := mem_pyRange.mp hk
      split
      · rw [cGet_at (j := (k - ((L / 2 : ℕ) : Int)).toNat) (by omega) (by omega)]
        simp only [Except.bind_ok]
        rw [cSet_at (j := (k - ((L / 2 : ℕ) : Int)).toNat) (by omega) (by omega)]
        exact ⟨_, rfl, by simpa using hs⟩
      · exact ⟨_, rfl, hs⟩)
  rw [e1]
  simp only [Except.bind_ok]
  obtain ⟨s2, e2, l2⟩ := forM'_ok (fun s : List (IE × IE) => s.length = Q) (fun (s : List (IE × IE)) (k : ℤ) =>
    if (|k|).tmod 2 = 1 then (cGet s ((Q : ℤ) + k - ((L / 2 : ℕ) : Int))).bind fun z => cSet s ((Q : ℤ) + k - ((L / 2 : ℕ) : Int)) (z.1, IE.lit (rnd (-1 / (k : ℝ)))) else .ok s)
    (pyRange (-((L / 2 : ℕ) : Int)) ((L / 2 : ℕ) : Int)) s1 l1 (by
      intro k hk s hs
      have hk := mem_pyRange.mp hk
      split
      · rw [cGet_at (j := ((Q : ℤ) + k - ((L / 2 : ℕ) : Int)).toNat) (by omega) (by omega)]
        simp only [Except.bind_ok]
        rw [cSet_at (j := ((Q : ℤ) + k - ((L / 2 : ℕ) : Int)).toNat) (by omega) (by omega)]
        exact ⟨_, rfl, by simpa using hs⟩
      · exact ⟨_, rfl, hs⟩)
  exact ⟨s2, e2, l2⟩

theorem hkm_ok (A : Arr2 (IE × IE)) (Nmax Q : ℕ) (m : ℤ) (ss : List (IE × IE)) (hss : ss.length = Q) (hL : A.rows % 2 = 0) (hL4 : 4 ≤ A.rows)
    (hQ : A.rows + Nmax ≤ Q) (hm1 : -(A.cols : ℤ) ≤ m) (hm2 : m < A.cols) (hb : ∀ j, j < A.cols → Bad Bd (A.at' 1 j)) (hkm ff : List (IE × IE)) (hkl : hkm.length = Nmax + 1) (ffl : ff.length = Q)
    (fw bw : NX.KissCfg) (hfw : CfgOK fw Q) (hbw : CfgOK bw Q) (J : Int → ℕ → IE × IE) :
    ∃ h ff', NX.cHkmFc rnd A.flat A.rows A.cols m hkm ((Nmax : Int) + 1) ss Q ff fw bw J = .ok (h, ff') ∧ h.length = Nmax + 1 ∧ ff'.length = Q ∧ ∀ k, k ≤ Nmax → Bad Bd (rd h k) := by
  have hQ0 : 0 < Q := by omega
  unfold NX.cHkmFc
  rw [cMemset0_ok ff Q ffl]
  simp only [Except.bind_ok]
  have hkm0 := cMemset0_ok hkm (Nmax + 1) hkl
  push_cast at hkm0
  rw [hkm0]
  simp only [Except.bind_ok]
  have hmm : (A.rows : Int).tdiv 2 = ((A.rows / 2 : ℕ) : Int) := by rw [Int.tdiv_eq_ediv_of_nonneg (by omega)]; rfl
  rw [hmm]
  obtain ⟨c, hc⟩ : ∃ c : ℕ, c = (m % A.cols).toNat := ⟨_, rfl⟩
  have hind : (if m ≥ 0 then m else (A.cols : Int) + m) = (c : Int) := by
    rw [hc, wrap_mod hm1 hm2]; split <;> split <;> omega
  have hcl : c < A.cols := by rw [hc]; exact slot_lt' (by omega) _
  rw [hind]
  obtain ⟨M, hM⟩ : ∃ M, M = A.rows / 2 := ⟨_, rfl⟩
  rw [← hM]
  obtain ⟨f1, e1, hi1⟩ := forM'_range_inv (a := 0) (b := (M : Int)) (by omega) (tab Q fun _ => (0 : IE × IE))
    (fun ff k => (cGet A.flat ((A.cols : Int) * ((M : Int) + k) + c)).bind fun a => (cSet ff k a).bind fun ff =>
      (cGet A.flat ((A.cols : Int) * k + c)).bind fun b => cSet ff ((M : Int) + k) b)
    (fun k f => f.length = Q ∧ (∀ i : ℕ, (i : Int) < k → rd f (M + i) = A.at' i c))
    ⟨by simp, fun i hi => by omega⟩
    (by
      intro k f h1 h2 ⟨fl, fv⟩
      obtain ⟨k, rfl⟩ := Int.eq_ofNat_of_zero_le h1
      rw [get (j := A.cols * (M + k) + c) (by rw [A.length_flat]; exact flat_idx (by omega) hcl) (by push_cast; ring)]
      simp only [Except.bind_ok]
      rw [set (j := k) (by omega) rfl]
      simp only [Except.bind_ok]
      rw [get (j := A.cols * k + c) (by rw [A.length_flat]; exact flat_idx (by omega) hcl) (by push_cast; ring), A.rd_flat (by omega) hcl]
      simp only [Except.bind_ok]
      rw [set (j := M + k) (by simp; omega) (by push_cast; ring)]
      refine ⟨_, rfl, by simpa using fl, fun i hi => ?_⟩
      rw [rd_set' _ _ _ _ (by simp; omega), rd_set' _ _ _ _ (by omega)]
      by_cases hik : i = k
      · subst hik
        rw [if_pos rfl]
      · rw [if_neg (by omega), if_neg (by omega)]
        exact fv i (by omega))
  rw [e1]
  simp only [Except.bind_ok]
  obtain ⟨F, eF, lF, nF⟩ := kissFft_ok (rnd := rnd) (Bd := Bd) hfw hQ0 f1 hi1.1 (J (4 * m + 1))
  rw [eF]
  simp only [Except.bind_ok]
  have nF := nF ⟨M + 1, by omega, by rw [hi1.2 1 (by omega)]; exact hb c hcl⟩
  rw [fill_ok F Q (by omega) _ (fun k => IE.cmul rnd (rd ss k) (rd F k)) (by
      intro k l' hk hl hv
      rw [cGet_ok (by omega), cGet_ok (by omega)]
      simp only [Except.bind_ok]
      rw [cSet_ok (by omega), hv k le_rfl])]
  simp only [Except.bind_ok]
  obtain ⟨G, eG, lG, nG⟩ := kissFft_ok (rnd := rnd) (Bd := Bd) hbw hQ0 (tab F.length fun i => if i < Q then IE.cmul rnd (rd ss i) (rd F i) else rd F i) (by simp [lF]) (J (4 * m + 2))
  rw [eG]
  simp only [Except.bind_ok]
  have nG := nG ⟨0, hQ0, by rw [rd_tab (by omega), if_pos hQ0]; exact NN.cmul_r _ (nF 0 hQ0)⟩
  have hlast := fill_ok (tab (Nmax + 1) fun _ => (0 : IE × IE)) (Nmax + 1) (by simp)
    (fun hkm k => (cGet G k).bind fun f => cSet hkm k (IE.div rnd (IE.mul rnd (IE.lit (Fl.fourPi rnd)) f.1) (IE.lit ((Q : ℤ) : ℝ)), IE.div rnd (IE.mul rnd (IE.lit (Fl.fourPi rnd)) f.2) (IE.lit ((Q : ℤ) : ℝ))))
    (fun k => (IE.div rnd (IE.mul rnd (IE.lit (Fl.fourPi rnd)) (rd G k).1) (IE.lit ((Q : ℤ) : ℝ)), IE.div rnd (IE.mul rnd (IE.lit (Fl.fourPi rnd)) (rd G k).2) (IE.lit ((Q : ℤ) : ℝ)))) (by
      intro k l' hk hl _
      rw [cGet_ok (by omega)]
      simp only [Except.bind_ok]
      rw [cSet_ok (by rw [hl]; simpa using hk)])
  push_cast at hlast ⊢
  rw [hlast]
  refine ⟨_, _, rfl, by simp, lG, fun k hk => ?_⟩
  rw [rd_tab (by simp; omega), if_pos (by omega)]
  rcases nG k (by omega) with h | h
  · exact .inl (Sticky.div_l _ (Sticky.mul_r _ h))
  · exact .inr (Sticky.div_l _ (Sticky.mul_r _ h))

theorem pow_nan (m : ℤ) {v : IE × IE} (h : Bad Bd v) : Bad Bd (NX.cMulIPowNeg rnd m v) := by
  unfold NX.cMulIPowNeg
  split
  · rcases h with h | h
    · exact .inr (Sticky.mul_r _ h)
    · exact .inl (Sticky.mul_r _ h)
  · rcases h with h | h
    · exact .inl (Sticky.mul_r _ h)
    · exact .inr (Sticky.mul_r _ h)

theorem bnm_body (m : ℤ) (off N S : ℕ) (h : List (IE × IE)) (lh : h.length = N + 1) (nh : ∀ k, k ≤ N → Bad Bd (rd h k)) (hoff : (off : ℤ) + (N + 1 - |m|) ≤ S) (st : List (IE × IE) × List ℝ)
    (l1 : st.1.length = S) (l2 : st.2.length = N + 1) (n : ℕ) (hm : |m| ≤ n) (hn : n ≤ N) :
    ∃ st', NX.cBnmBody rnd m off h ((N : ℤ) + 1) st n = .ok st' ∧ st'.1.length = S ∧ st'.2.length = N + 1 ∧ ∃ v, Bad Bd v ∧ st'.1 = st.1.set (off + (n - m.natAbs)) v := by
  have ha := Int.abs_eq_natAbs m
  unfold NX.cBnmBody
  obtain ⟨y, ey, ly⟩ := ynunm_ok (rnd := rnd) n m (N + 1) st.2 (by omega) l2
  push_cast at ey
  rw [ey]
  simp only [Except.bind_ok]
  rw [get (F := h) (i := 0) (j := 0) (by omega) rfl, cGet_at (l := y) (i := 0) (j := 0) (by omega) rfl]
  simp only [Except.bind_ok]
  have hp : (off : ℤ) + ((n : ℤ) - |m|) = ((off + (n - m.natAbs) : ℕ) : ℤ) := by push_cast; omega
  rw [hp]
  obtain ⟨p, hp'⟩ : ∃ p, p = off + (n - m.natAbs) := ⟨_, rfl⟩
  rw [← hp']
  have hpS : p < S := by omega
  rw [cSet_ok (by omega)]
  simp only [Except.bind_ok]
  have v0 : Bad Bd ((IE.mul rnd (rd h 0).1 (IE.lit (rd y 0)), IE.mul rnd (rd h 0).2 (IE.lit (rd y 0))) : IE × IE) := by
    rcases nh 0 (by omega) with h | h
    · exact .inl (Sticky.mul_l _ h)
    · exact .inr (Sticky.mul_l _ h)
  obtain ⟨s, es, v, nv, hs⟩ := forM'_ok (fun s : List (IE × IE) => ∃ v, Bad Bd v ∧ s = st.1.set p v)
    (fun sc (k : ℤ) => (cGet sc (p : ℤ)).bind fun v => (cGet h k).bind fun h => (cGet y k).bind fun yk =>
    cSet sc (p : ℤ) (IE.add rnd v.1 (IE.mul rnd (IE.mul rnd (.fin 2) h.1) (IE.lit yk)), IE.add rnd v.2 (IE.mul rnd (IE.mul rnd (.fin 2) h.2) (IE.lit yk))))
    (pyRange 1 ((n : ℤ) + 1)) (st.1.set p _) ⟨_, v0, rfl⟩ (by
      intro k hk s ⟨v, nv, hs⟩
      have hk := mem_pyRange.mp hk
      beta_reduce
      rw [cGet_ok (by rw [hs]; simp; omega), get (F := h) (j := k.toNat) (by omega) (by omega), cGet_at (l := y) (j := k.toNat) (by omega) (by omega)]
      simp only [Except.bind_ok]
      rw [cSet_ok (by rw [hs]; simp; omega)]
      refine ⟨_, rfl, _, ?_, by rw [hs, List.set_set]⟩
      rw [rd_set' _ _ _ _ (by omega), if_pos rfl]
      rcases nv with h | h
      · exact .inl (Sticky.add_l _ h)
      · exact .inr (Sticky.add_l _ h))
  rw [es]
  simp only [Except.bind_ok]
  rw [cGet_ok (by rw [hs]; simp; omega)]
  simp only [Except.bind_ok]
  rw [cSet_ok (by rw [hs]; simp; omega)]
  refine ⟨_, rfl, by rw [hs]; simpa using l1, ly, _, ?_, by rw [hs, List.set_set]⟩
  rw [rd_set' _ _ _ _ (by omega), if_pos rfl]
  exact pow_nan m nv

/-- State of the work arrays when the orders before `o` are done. -/
structure Done (Bd : IE → Prop) (Nmax Mmax Q : ℕ) (o : ℕ) (w : NX.CWork) : Prop where
  hkm : w.hkm.length = Nmax + 1
  ff : w.ff.length = Q
  y : w.y.length = Nmax + 1
  sc : w.sc.length = seg (Nmax + 1) (2 * Mmax + 1)
  done : ∀ i, i < seg (Nmax + 1) o → Bad Bd (rd w.sc i)

theorem bnm_ok (A : Arr2 (IE × IE)) (N M Q : ℕ) (m : ℤ) (ss : List (IE × IE)) (hss : ss.length = Q) (hL : A.rows % 2 = 0) (hL4 : 4 ≤ A.rows)
    (hQ : A.rows + N ≤ Q) (hM : M ≤ N) (hMc : M < A.cols) (hm : m.natAbs ≤ M) (hb : ∀ j, j < A.cols → Bad Bd (A.at' 1 j)) (fw bw : NX.KissCfg) (hfw : CfgOK fw Q) (hbw : CfgOK bw Q) (J : Int → ℕ → IE × IE)
    (w : NX.CWork) (hw : Done Bd N M Q (ord m) w) :
    ∃ w', NX.kBnmFc rnd A.flat A.rows A.cols N m (seg (N + 1) (ord m) : ℕ) ss Q ((N : Int) + 1) ((N : Int) + 1) fw bw J w = .ok w' ∧ Done Bd N M Q (ord m + 1) w' := by
  have ha := Int.abs_eq_natAbs m
  have h3 : (ord m + 1) / 2 = m.natAbs := (natAbs_eq_ord m).symm
  have h4 : seg (N + 1) (ord m + 1) ≤ seg (N + 1) (2 * M + 1) := seg_mono _ (by have := ord_le m; omega)
  have h5 := seg_succ (N + 1) (ord m)
  rw [h3] at h5
  unfold NX.kBnmFc
  obtain ⟨h, ff', eh, lh, lf, nh⟩ := hkm_ok (rnd := rnd) A N Q m ss hss hL hL4 hQ (by omega) (by omega) hb w.hkm w.ff hw.hkm hw.ff fw bw hfw hbw J
  rw [eh]
  simp only [Except.bind_ok]
  obtain ⟨st, es, p1, p2, p3⟩ := forM'_range_inv (a := |m|) (b := (N : ℤ) + 1) (by omega) (w.sc, w.y) (NX.cBnmBody rnd m (seg (N + 1) (ord m) : ℕ) h ((N : ℤ) + 1))
    (fun k st => st.1.length = seg (N + 1) (2 * M + 1) ∧ st.2.length = N + 1 ∧ ∀ i : ℕ, (i : ℤ) < seg (N + 1) (ord m) + (k - |m|) → Bad Bd (rd st.1 i))
    ⟨hw.sc, hw.y, fun i hi => hw.done i (by omega)⟩ (by
      intro k st k1 k2 ⟨s1, s2, s3⟩
      obtain ⟨n, rfl⟩ := Int.eq_ofNat_of_zero_le (show 0 ≤ k by omega)
      obtain ⟨st', e, a1, a2, v, nv, hv⟩ := bnm_body (rnd := rnd) m (seg (N + 1) (ord m)) N (seg (N + 1) (2 * M + 1)) h lh nh (by omega) st s1 s2 n (by omega) (by omega)
      refine ⟨st', e, a1, a2, fun i hi => ?_⟩
      rw [hv, rd_set' _ _ _ _ (by omega)]
      split
      · exact nv
      · exact s3 i (by omega))
  rw [es]
  exact ⟨_, rfl, lh, lf, p2, p1, fun i hi => p3 i (by omega)⟩

theorem fcToSc_ok (lm : Fl.LibM) (A : Arr2 (IE × IE)) (N M : ℕ) (hL : A.rows % 2 = 0) (hL4 : 4 ≤ A.rows) (hM : M ≤ N) (hMc : M < A.cols)
    (hb : ∀ j, j < A.cols → Bad Bd (A.at' 1 j)) (hsz : A.rows + N ≤ 2 ^ 30) (J : NX.JunkX) :
    ∃ v, NX.kExtFcToSc rnd lm J A N M = .ok v ∧ (v.length : ℤ) = ncFormula N M ∧ ∀ z ∈ v, Bad Bd z := by
  have hlen : ncFormula (N : ℤ) M = ((seg (N + 1) (2 * M + 1) : ℕ) : ℤ) := XI.nc_seg N M hM
  unfold NX.kExtFcToSc npFull
  rw [if_neg (by omega)]
  simp only [Except.bind_ok]
  rw [hlen, Int.toNat_natCast]
  unfold NX.kFcToSc
  obtain ⟨Q, eQ, hQ1, hQ2⟩ := cFindQ_spec (A.rows + N) (by omega) hsz
  push_cast at eQ
  rw [eQ]
  simp only [orDiverge, Except.bind_ok]
  have mal : ∀ {α : Type} (n : ℕ) (j : ℕ → α), cMalloc (n : ℤ) j = .ok (tab n j) := by
    intro α n j; unfold cMalloc; rw [if_neg (by omega), Int.toNat_natCast]
  rw [mal]
  simp only [Except.bind_ok]
  obtain ⟨s, es, ls⟩ := sData_ok (rnd := rnd) (tab Q (J.c (-1))) A.rows N Q hL hQ1 (by simp) (by omega)
  rw [es]
  simp only [Except.bind_ok]
  obtain ⟨fw, efw, hfw⟩ := kissAlloc_ok (rnd := rnd) lm Q false (by omega) (by omega)
  obtain ⟨bw, ebw, hbw⟩ := kissAlloc_ok (rnd := rnd) lm Q true (by omega) (by omega)
  rw [efw, ebw]
  simp only [Except.bind_ok]
  obtain ⟨ss, ess, lss, -⟩ := kissFft_ok (rnd := rnd) (Bd := Bd) hfw (by omega) s ls (J.c (-5))
  rw [ess]
  simp only [Except.bind_ok]
  have m1 := fun (j : ℕ → IE × IE) => mal (N + 1) j
  have m2 := fun (j : ℕ → ℝ) => mal (N + 1) j
  have m3 := fun (j : ℕ → ℤ) => mal (2 * M + 1) j
  push_cast at m1 m2 m3
  rw [m1, m2, m3, mal Q]
  simp only [Except.bind_ok]
  have m4 := cMemset0_ok (tab (2 * M + 1) J.i) (2 * M + 1) (by simp)
  push_cast at m4
  rw [m4]
  simp only [Except.bind_ok]
  obtain ⟨inds, ei, il, iv⟩ := cInds_spec N M hM (tab (2 * M + 1) fun _ => 0) (by simp)
  rw [ei]
  simp only [Except.bind_ok]
  have blk := fun m w hm hw => bnm_ok (rnd := rnd) A N M Q m ss lss hL hL4 hQ1 hM hMc hm hb fw bw hfw hbw J.c w hw
  obtain ⟨w0, e0, h0⟩ := blk 0 ⟨List.replicate (seg (N + 1) (2 * M + 1)) 0, tab (N + 1) (J.c (-9)), tab Q (J.c (-13)), tab (N + 1) J.r⟩ (by simp)
    ⟨by simp, by simp, by simp, by simp, fun i h => absurd h (by simp [ord, seg])⟩
  have e0' : seg (N + 1) (ord 0) = 0 := by simp [ord, seg]
  rw [e0', Nat.cast_zero] at e0
  rw [e0]
  simp only [Except.bind_ok]
  obtain ⟨w, ew, hw⟩ := forM'_range_inv (a := 1) (b := (M : ℤ) + 1) (by omega) w0
    (fun w m =>
    (cGet inds (2 * m - 1)).bind fun o1 =>
    (NX.kBnmFc rnd A.flat A.rows A.cols N (-m) o1 ss Q (N + 1) (N + 1) fw bw J.c w).bind fun w =>
    (cGet inds (2 * m)).bind fun o2 =>
    NX.kBnmFc rnd A.flat A.rows A.cols N m o2 ss Q (N + 1) (N + 1) fw bw J.c w)
    (fun k w => Done Bd N M Q (2 * k.toNat - 1) w) (by simpa [ord] using h0) (by
      intro i w h1 h2 hw
      have o1 : ord (-i) = 2 * i.toNat - 1 := by unfold ord; rw [if_neg (by omega), if_pos (by omega)]; omega
      have o2 : ord i = 2 * i.toNat := by unfold ord; rw [if_pos (by omega)]; omega
      obtain ⟨w1, e1, k1⟩ := blk (-i) w (by omega) (by rwa [o1])
      obtain ⟨w2, e2, k2⟩ := blk i w1 (by omega) (by rw [o2]; convert k1 using 1; omega)
      rw [cGet_at (j := 2 * i.toNat - 1) (by omega) (by omega), iv _ (by omega), ← o1]
      simp only [Except.bind_ok]
      rw [e1]
      simp only [Except.bind_ok]
      rw [cGet_at (j := 2 * i.toNat) (by omega) (by omega), iv _ (by omega), ← o2]
      simp only [Except.bind_ok]
      refine ⟨w2, e2, ?_⟩
      convert k2 using 1
      omega)
  rw [ew]
  refine ⟨_, rfl, by rw [hw.sc], NN.all_of_rd fun i hi => hw.done i ?_⟩
  have hi' : i < w.sc.length := hi
  rw [hw.sc] at hi'
  convert hi' using 2
  omega

end NC
end Verif.Props
