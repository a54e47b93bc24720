import Verif.CSphiA
/-!
# C extension: `fc_to_sc` writes every mode, stays in bounds and agrees with the Python routine
-/
namespace Verif
open Finset

theorem cSet_at {α : Type} {l : List α} {i : Int} {j : Nat} {v : α} (h : j < l.length) (e : i = j) : cSet l i v = .ok (l.set j v) := by
  subst e; exact cSet_ok h

theorem cGet_at {α : Type} [Zero α] {l : List α} {i : Int} {j : Nat} (h : j < l.length) (e : i = j) : cGet l i = .ok (rd l j) := by
  subst e; exact cGet_ok h

theorem cInds_spec (Nmax Mmax : ℕ) (hM : Mmax ≤ Nmax) (inds : List Int) (hl : inds.length = 2 * Mmax + 1) :
    ∃ v, cInds Nmax Mmax inds = .ok v ∧ v.length = 2 * Mmax + 1 ∧
      ∀ o, o ≤ 2 * Mmax → rd v o = ((seg (Nmax + 1) o : ℕ) : ℤ) := by
  unfold cInds
  have g0 : cSet inds 0 0 = .ok (inds.set 0 0) := by exact_mod_cast cSet_ok (l := inds) (i := 0) (v := 0) (by omega)
  rw [g0]
  simp only [Except.bind_ok]
  obtain ⟨⟨v, N, QQ⟩, e, hv, h1, h2, h3⟩ := forM'_range_inv (a := 1) (b := (Mmax : ℤ) + 1) (by omega) (inds.set 0 0, (Nmax : ℤ) + 1, (Nmax : ℤ))
    (fun (s : List Int × Int × Int) m =>
    (cSet s.1 (2 * m - 1) s.2.1).bind fun inds =>
    (cSet inds (2 * m) (s.2.1 + s.2.2)).bind fun inds =>
    .ok (inds, s.2.1 + s.2.2 + s.2.2, s.2.2 - 1))
    (fun m s => s.1.length = 2 * Mmax + 1 ∧ s.2.1 = ((seg (Nmax + 1) (2 * m.toNat - 1) : ℕ) : ℤ) ∧ s.2.2 = Nmax + 1 - m ∧
      ∀ o, o < 2 * m.toNat - 1 → rd s.1 o = ((seg (Nmax + 1) o : ℕ) : ℤ))
    ⟨by simpa using hl, by simp [seg_succ, seg], by simp, fun o ho => by
      have : o = 0 := by simp at ho; omega
      subst this
      rw [rd_set' _ _ _ _ (by omega), if_pos rfl]; simp [seg]⟩
    (by
      rintro m ⟨l, N, QQ⟩ h1 h2 ⟨ll, hN, hQ, hr⟩
      simp only at ll hN hQ hr
      obtain ⟨k, rfl⟩ := Int.eq_ofNat_of_zero_le (show 0 ≤ m by omega)
      rw [Int.toNat_natCast] at hN hr
      simp only
      rw [cSet_at (j := 2 * k - 1) (by omega) (by omega)]
      simp only [Except.bind_ok]
      rw [cSet_at (j := 2 * k) (by simp; omega) (by push_cast; ring)]
      have s1 : seg (Nmax + 1) (2 * k) = seg (Nmax + 1) (2 * k - 1) + (Nmax + 1 - k) := by
        conv_lhs => rw [show 2 * k = (2 * k - 1) + 1 by omega]
        rw [seg_succ]; congr 2; omega
      have s2 : seg (Nmax + 1) (2 * k + 1) = seg (Nmax + 1) (2 * k) + (Nmax + 1 - k) := by
        rw [seg_succ]; congr 2; omega
      have t1 : 2 * ((k : ℤ) + 1).toNat - 1 = 2 * k + 1 := by omega
      refine ⟨_, rfl, by simpa using ll, ?_, ?_, fun o ho => ?_⟩
      · simp only [t1]; rw [s2, s1]; push_cast; omega
      · simp only; omega
      · simp only
        rw [rd_set' _ _ _ _ (by simp; omega), rd_set' _ _ _ _ (by omega)]
        by_cases e1 : o = 2 * k
        · subst e1; rw [if_pos rfl, s1]; push_cast; omega
        · rw [if_neg e1]
          by_cases e2 : o = 2 * k - 1
          · subst e2; rw [if_pos rfl, hN]
          · rw [if_neg e2, hr o (by omega)])
  rw [e]
  refine ⟨_, rfl, hv, fun o ho => h3 o (by omega)⟩

theorem SegVec.ext {α : Type} [Zero α] {N M : ℕ} {v u : List α} {f : ℤ → ℕ → α} (hM : M < N) (hv : SegVec N v (2 * M + 1) f)
    (hu : SegVec N u (2 * M + 1) f) : v = u := by
  refine list_ext_rd (by rw [hv.1, hu.1]) fun i hi => ?_
  obtain ⟨n, m, ⟨h0, h1, h2, h3⟩, e⟩ := slot_surj (nmax := (N : ℤ) - 1) (mmax := M) (by omega) (by omega) (j := i) (by
    rw [hv.1] at hi
    rw [show ((N : ℤ) - 1 + 1).toNat = N by omega, Int.toNat_natCast]
    exact hi)
  rw [Int.abs_eq_natAbs] at h2 h3
  unfold slot at e
  rw [show ((N : ℤ) - 1 + 1).toNat = N by omega] at e
  have ho : ord m < 2 * M + 1 := by have := ord_le m; omega
  rw [← e, hv.2 m n.toNat ho (by omega) (by omega), hu.2 m n.toNat ho (by omega) (by omega)]

/-- State of the work arrays when the orders before `o` are done. -/
structure ScDone (A : Arr2 ℂ) (Nmax Mmax Q : ℕ) (o : ℕ) (w : CWork) : Prop where
  hkm : w.hkm.length = Nmax + 1
  ff : w.ff.length = Q
  y : w.y.length = Nmax + 1
  sc : w.sc.length = seg (Nmax + 1) (2 * Mmax + 1)
  done : ∀ (m : ℤ) (n : ℕ), ord m < o → m.natAbs ≤ n → n < Nmax + 1 → rd w.sc (seg (Nmax + 1) (ord m) + (n - m.natAbs)) = bval A m n

theorem cFcToSc_spec (A : Arr2 ℂ) (Nmax Mmax : ℕ) (hL : A.rows % 2 = 0) (hL0 : 0 < A.rows)
    (hM : Mmax ≤ Nmax) (hc : Mmax < A.cols) (hny : ∀ m, fAt A m (A.rows / 2) = 0) (hsz : A.rows + Nmax ≤ 2 ^ 30)
    (sc : List ℂ) (hsc : sc.length = seg (Nmax + 1) (2 * Mmax + 1)) (J : CJunk) :
    ∃ v, cFcToSc A.flat A.rows A.cols sc Nmax Mmax J = .ok v ∧ SegVec (Nmax + 1) v (2 * Mmax + 1) (bval A) := by
  unfold cFcToSc
  obtain ⟨Q, eQ, hQ1, hQ2⟩ := cFindQ_spec (A.rows + Nmax) (by omega) hsz
  push_cast at eQ
  rw [eQ]
  simp only [orDiverge, Except.bind_ok]
  have mal : ∀ {α : Type} (n : ℕ) (j : ℕ → α), cMalloc (n : ℤ) j = .ok (tab n j) := by
    intro α n j; unfold cMalloc; rw [if_neg (by omega), Int.toNat_natCast]
  rw [mal]
  simp only [Except.bind_ok]
  obtain ⟨s, es, ks⟩ := cSData_spec (tab Q (J.c (-1))) A.rows Nmax Q hL hL0 hQ1 (by simp)
  rw [es]
  simp only [Except.bind_ok]
  obtain ⟨fw, efw, f1, f2, f3⟩ := kissAlloc_ok Q false (by omega) (by omega)
  obtain ⟨bw, ebw, b1, b2, b3⟩ := kissAlloc_ok Q true (by omega) (by omega)
  have hfw : KissOK fw false Q := ⟨f1, f2, f3⟩
  have hbw : KissOK bw true Q := ⟨b1, b2, b3⟩
  rw [efw, ebw]
  simp only [Except.bind_ok]
  rw [hfw.fft (by omega) s ks.1]
  simp only [Except.bind_ok]
  have m1 := fun (j : ℕ → ℂ) => mal (Nmax + 1) j
  have m2 := fun (j : ℕ → ℝ) => mal (Nmax + 1) j
  have m3 := fun (j : ℕ → ℤ) => mal (2 * Mmax + 1) j
  push_cast at m1 m2 m3
  rw [m1, m2, m3, mal Q]
  simp only [Except.bind_ok]
  have m4 := cMemset0_ok (tab (2 * Mmax + 1) J.i) (2 * Mmax + 1) (by simp)
  push_cast at m4
  rw [m4]
  simp only [Except.bind_ok]
  obtain ⟨inds, ei, il, iv⟩ := cInds_spec Nmax Mmax hM (tab (2 * Mmax + 1) fun _ => 0) (by simp)
  rw [ei]
  simp only [Except.bind_ok]
  have blk : ∀ (m : ℤ) (w : CWork), m.natAbs ≤ Mmax → ScDone A Nmax Mmax Q (ord m) w →
      ∃ w', cBnmFc A.flat A.rows A.cols Nmax m (seg (Nmax + 1) (ord m) : ℕ) (tab Q fun k => ∑ j ∈ range Q, rd s j * twd false Q ((j * k : ℕ) : ℤ)) Q
        ((Nmax : Int) + 1) ((Nmax : Int) + 1) fw bw J w = .ok w' ∧ ScDone A Nmax Mmax Q (ord m + 1) w' := by
    intro m w hm hw
    have h3 : (ord m + 1) / 2 = m.natAbs := (natAbs_eq_ord m).symm
    have h4 : seg (Nmax + 1) (ord m + 1) ≤ seg (Nmax + 1) (2 * Mmax + 1) := seg_mono _ (by have := ord_le m; omega)
    rw [seg_succ, h3] at h4
    obtain ⟨w', e, a1, a2, a3, a4, a5, a6⟩ := cBnmFc_spec A Nmax Q m s hL hL0 hQ1 ks (by omega) (by omega) (hny m) (by omega) fw bw hfw hbw J
      (seg (Nmax + 1) (ord m)) w hw.hkm hw.ff hw.y (by rw [hw.sc]; omega)
    refine ⟨w', e, a1, a2, a3, by rw [a4, hw.sc], fun k n hk hn hN => ?_⟩
    by_cases ek : k = m
    · subst ek; exact a5 n hn (by omega)
    · have hne : ord k ≠ ord m := fun h => ek (ord_inj h)
      have h5 : seg (Nmax + 1) (ord k + 1) ≤ seg (Nmax + 1) (ord m) := seg_mono _ (by omega)
      rw [seg_succ, ← natAbs_eq_ord k] at h5
      rw [a6 _ (.inl (by omega)), hw.done k n (by omega) hn hN]
  obtain ⟨w0, e0, h0⟩ := blk 0 ⟨sc, tab (Nmax + 1) (J.c (-9)), tab Q (J.c (-13)), tab (Nmax + 1) J.r⟩ (by simp)
    ⟨by simp, by simp, by simp, hsc, fun m n h => absurd h (by simp [ord])⟩
  have e0' : seg (Nmax + 1) (ord 0) = 0 := by simp [ord, seg]
  rw [e0', Nat.cast_zero] at e0
  rw [e0]
  simp only [Except.bind_ok]
  obtain ⟨w, ew, hw⟩ := forM'_range_inv (a := 1) (b := (Mmax : ℤ) + 1) (by omega) w0
    (fun w m =>
    (cGet inds (2 * m - 1)).bind fun o1 =>
    (cBnmFc A.flat A.rows A.cols Nmax (-m) o1 (tab Q fun k => ∑ j ∈ range Q, rd s j * twd false Q ((j * k : ℕ) : ℤ)) Q (Nmax + 1) (Nmax + 1) fw bw J w).bind fun w =>
    (cGet inds (2 * m)).bind fun o2 =>
    cBnmFc A.flat A.rows A.cols Nmax m o2 (tab Q fun k => ∑ j ∈ range Q, rd s j * twd false Q ((j * k : ℕ) : ℤ)) Q (Nmax + 1) (Nmax + 1) fw bw J w)
    (fun k w => ScDone A Nmax Mmax Q (2 * k.toNat - 1) w) (by simpa [ord] using h0) (by
      intro i w h1 h2 hw
      have o1 : ord (-i) = 2 * i.toNat - 1 := by unfold ord; rw [if_neg (by omega), if_pos (by omega)]; omega
      have o2 : ord i = 2 * i.toNat := by unfold ord; rw [if_pos (by omega)]; omega
      obtain ⟨w1, e1, k1⟩ := blk (-i) w (by omega) (by rwa [o1])
      obtain ⟨w2, e2, k2⟩ := blk i w1 (by omega) (by rw [o2]; convert k1 using 1; omega)
      rw [cGet_at (j := 2 * i.toNat - 1) (by omega) (by omega), iv _ (by omega), ← o1]
      simp only [Except.bind_ok]
      rw [e1]
      simp only [Except.bind_ok]
      rw [cGet_at (j := 2 * i.toNat) (by omega) (by omega), iv _ (by omega), ← o2]
      simp only [Except.bind_ok]
      refine ⟨w2, e2, ?_⟩
      convert k2 using 1
      omega)
  rw [ew]
  refine ⟨_, rfl, hw.sc, fun m n h1 h2 h3 => hw.done m n (by omega) h2 h3⟩

/-- With the same input the C routine and the Python routine give the same vector. -/
theorem cFcToSc_eq (A : Arr2 ℂ) (Nmax Mmax : ℕ) (hL : A.rows % 2 = 0) (hL0 : 0 < A.rows)
    (hM : Mmax ≤ Nmax) (hc : Mmax < A.cols) (hny : ∀ m, fAt A m (A.rows / 2) = 0) (hsz : A.rows + Nmax ≤ 2 ^ 30)
    (sc : List ℂ) (hsc : sc.length = seg (Nmax + 1) (2 * Mmax + 1)) (J : CJunk) :
    cFcToSc A.flat A.rows A.cols sc Nmax Mmax J = fcToSc A Nmax Mmax := by
  obtain ⟨v, e, hv⟩ := cFcToSc_spec A Nmax Mmax hL hL0 hM hc hny hsz sc hsc J
  obtain ⟨u, e', hu⟩ := fcToSc_spec A Nmax Mmax hL hL0 hM hc hny
  rw [e, e', hv.ext (by omega) hu]

end Verif
