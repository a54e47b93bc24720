import Verif.Props.NanC2
import Verif.CSphiS
/-!
# C132: a NaN through the synthesis of the compiled extension
-/
namespace Verif.Props
open Verif Finset
namespace NC
variable {rnd : ℝ → ℝ} {Bd : IE → Prop} [Sticky Bd]

theorem ipow_nan (m : ℤ) {v : IE × IE} (h : Bad Bd v) : Bad Bd (NX.cMulIPow rnd m v) := by
  unfold NX.cMulIPow
  split
  · rcases h with h | h
    · exact .inr (Sticky.mul_r _ h)
    · exact .inl (Sticky.mul_r _ h)
  · rcases h with h | h
    · exact .inl (Sticky.mul_r _ h)
    · exact .inr (Sticky.mul_r _ h)

/-- Only column `M` (of `c` columns) of the array differs. -/
def Col (c M : ℕ) (F0 F : List (IE × IE)) : Prop := F.length = F0.length ∧ ∀ i, i % c ≠ M → rd F i = rd F0 i

theorem Col.refl (c M : ℕ) (F : List (IE × IE)) : Col c M F F := ⟨rfl, fun _ _ => rfl⟩
theorem Col.trans {c M : ℕ} {F G H : List (IE × IE)} (a : Col c M F G) (b : Col c M G H) : Col c M F H :=
  ⟨b.1.trans a.1, fun i hi => (b.2 i hi).trans (a.2 i hi)⟩

theorem Col.set {c M : ℕ} {F0 F : List (IE × IE)} (a : Col c M F0 F) (k : ℕ) (v : IE × IE) (hM : M < c) (hk : k * c + M < F.length) : Col c M F0 (F.set (k * c + M) v) := by
  refine ⟨by simpa using a.1, fun i hi => ?_⟩
  rw [rd_set' _ _ _ _ hk, if_neg, a.2 i hi]
  rintro rfl
  apply hi
  rw [mul_comm, Nat.mul_add_mod, Nat.mod_eq_of_lt hM]

theorem idx_bound {k r c M L : ℕ} (hk : k < r) (hM : M < c) (hL : L = r * c) : k * c + M < L := by
  rw [hL, mul_comm k c]
  exact flat_idx hk hM

theorem acc_ok (sc : List (IE × IE)) (off N r c M : ℕ) (m : ℤ) (hM : M < c) (hr : N < r) (st : List (IE × IE) × List ℝ) (l1 : st.1.length = r * c) (l2 : st.2.length = N + 1)
    (n : ℕ) (hm : |m| ≤ n) (hn : n ≤ N) (q : ℕ) (hq : q ≤ N) (hoff : off + (n - m.natAbs) < sc.length) :
    ∃ st', NX.cFcvecAcc rnd sc off m N c M ((N : ℤ) + 1) st n = .ok st' ∧ Col c M st.1 st'.1 ∧ st'.2.length = N + 1 ∧
      (Bad Bd (rd st.1 (q * c + M)) → Bad Bd (rd st'.1 (q * c + M))) ∧ (Bad Bd (rd sc (off + (n - m.natAbs))) → Bad Bd (rd st'.1 (q * c + M))) := by
  have ha := Int.abs_eq_natAbs m
  unfold NX.cFcvecAcc
  obtain ⟨y, ey, ly⟩ := ynunm_ok (rnd := rnd) n m (N + 1) st.2 (by omega) l2
  push_cast at ey
  rw [ey]
  simp only [Except.bind_ok]
  rw [show (off : ℤ) + ((n : ℤ) - |m|) = ((off + (n - m.natAbs) : ℕ) : ℤ) by push_cast; omega]
  generalize off + (n - m.natAbs) = p at hoff
  obtain ⟨F, eF, h1, h2, h3⟩ := forM'_range_inv (a := 0) (b := (N : ℤ) + 1) (by omega) st.1
    (fun F k => (cGet F (k * c + M)).bind fun t => (cGet sc (p : ℤ)).bind fun v => (cGet y k).bind fun yk =>
      cSet F (k * c + M) (IE.add rnd t.1 (IE.mul rnd v.1 (IE.lit yk)), IE.add rnd t.2 (IE.mul rnd v.2 (IE.lit yk))))
    (fun k F => Col c M st.1 F ∧ (Bad Bd (rd st.1 (q * c + M)) → Bad Bd (rd F (q * c + M))) ∧ ((q : ℤ) < k → Bad Bd (rd sc p) → Bad Bd (rd F (q * c + M))))
    ⟨Col.refl _ _ _, id, fun h => absurd h (by omega)⟩ (by
      intro k F k1 k2 ⟨g1, g2, g3⟩
      obtain ⟨k, rfl⟩ := Int.eq_ofNat_of_zero_le k1
      have hb := idx_bound (show k < r by omega) hM (g1.1.trans l1)
      rw [get (F := F) (j := k * c + M) hb (by push_cast; ring), cGet_ok hoff, cGet_ok (by omega)]
      simp only [Except.bind_ok]
      rw [set (F := F) (j := k * c + M) hb (by push_cast; ring)]
      refine ⟨_, rfl, g1.set k _ hM hb, fun h => ?_, fun _ h => ?_⟩
      · rw [rd_set' _ _ _ _ hb]
        split
        · rename_i e
          rw [← e]
          rcases g2 h with h | h
          · exact .inl (Sticky.add_l _ h)
          · exact .inr (Sticky.add_l _ h)
        · exact g2 h
      · rw [rd_set' _ _ _ _ hb]
        split
        · rcases h with h | h
          · exact .inl (Sticky.add_r _ (Sticky.mul_l _ h))
          · exact .inr (Sticky.add_r _ (Sticky.mul_l _ h))
        · rename_i e
          refine g3 ?_ h
          by_contra hc
          have : k = q := by omega
          subst this
          exact e rfl)
  rw [eF]
  exact ⟨_, rfl, h1, ly, h2, h3 (by omega)⟩

theorem fcvec_ok (sc : List (IE × IE)) (off N r c M : ℕ) (m : ℤ) (hM : M < c) (hr : N < r) (hmN : m.natAbs ≤ N) (st : List (IE × IE) × List ℝ) (l1 : st.1.length = r * c) (l2 : st.2.length = N + 1)
    (hoff : off + (N - m.natAbs) < sc.length) (q : ℕ) (hq : q ≤ N) (hq2 : 2 * q ≤ r) :
    ∃ st', NX.cFcvecMSc rnd sc off m N r c M ((N : ℤ) + 1) st = .ok st' ∧ Col c M st.1 st'.1 ∧ st'.2.length = N + 1 ∧
      ((∃ n : ℕ, m.natAbs ≤ n ∧ n ≤ N ∧ Bad Bd (rd sc (off + (n - m.natAbs)))) → Bad Bd (rd st'.1 (q * c + M))) := by
  have ha := Int.abs_eq_natAbs m
  unfold NX.cFcvecMSc
  obtain ⟨s1, e1, a1, a2, a3⟩ := forM'_range_inv (a := |m|) (b := (N : ℤ) + 1) (by omega) st (NX.cFcvecAcc rnd sc off m N c M ((N : ℤ) + 1))
    (fun k s => Col c M st.1 s.1 ∧ s.2.length = N + 1 ∧ ((∃ n : ℕ, m.natAbs ≤ n ∧ (n : ℤ) < k ∧ Bad Bd (rd sc (off + (n - m.natAbs)))) → Bad Bd (rd s.1 (q * c + M))))
    ⟨Col.refl _ _ _, l2, fun ⟨n, h1, h2, _⟩ => by omega⟩ (by
      intro k s k1 k2 ⟨g1, g2, g3⟩
      obtain ⟨n, rfl⟩ := Int.eq_ofNat_of_zero_le (show 0 ≤ k by omega)
      obtain ⟨s', e, b1, b2, b3, b4⟩ := acc_ok (rnd := rnd) (Bd := Bd) sc off N r c M m hM hr s (g1.1.trans l1) g2 n (by omega) (by omega) q hq (by omega)
      refine ⟨s', e, g1.trans b1, b2, fun ⟨n', h1, h2, h3⟩ => ?_⟩
      by_cases hc : n' = n
      · subst hc; exact b4 h3
      · exact b3 (g3 ⟨n', h1, by omega, h3⟩))
  rw [e1]
  simp only [Except.bind_ok]
  obtain ⟨F, eF, h1, h2⟩ := forM'_range_inv (a := 0) (b := (N : ℤ) + 1) (by omega) s1.1
    (fun F k => (cGet F (k * c + M)).bind fun t => cSet F (k * c + M) (NX.cMulIPow rnd m t))
    (fun _ F => Col c M s1.1 F ∧ (Bad Bd (rd s1.1 (q * c + M)) → Bad Bd (rd F (q * c + M))))
    ⟨Col.refl _ _ _, id⟩ (by
      intro k F k1 k2 ⟨g1, g2⟩
      obtain ⟨k, rfl⟩ := Int.eq_ofNat_of_zero_le k1
      have hb := idx_bound (show k < r by omega) hM (g1.1.trans (a1.1.trans l1))
      rw [get (F := F) (j := k * c + M) hb (by push_cast; ring)]
      simp only [Except.bind_ok]
      rw [set (F := F) (j := k * c + M) hb (by push_cast; ring)]
      refine ⟨_, rfl, g1.set k _ hM hb, fun h => ?_⟩
      rw [rd_set' _ _ _ _ hb]
      split
      · rename_i e
        rw [← e]
        exact ipow_nan m (g2 h)
      · exact g2 h)
  rw [eF]
  simp only [Except.bind_ok]
  generalize hH : (if (r : ℤ).tmod 2 = 0 then (r : ℤ).tdiv 2 - 1 else ((r : ℤ) - 1).tdiv 2) = H
  have hHr : H + 1 ≤ r ∧ 0 ≤ H + 1 ∧ 2 * H < r := by
    rw [← hH, Int.tdiv_eq_ediv_of_nonneg (by omega), Int.tdiv_eq_ediv_of_nonneg (by omega)]
    split <;> omega
  have hfin : ∃ F', forM' (pyRange 0 H) F (fun F k =>
    (cGet F ((c : ℤ) * (k + 1) + M)).bind fun t =>
    cSet F ((c : ℤ) * ((r : ℤ) - 1 - k) + M) (IE.mul rnd (.fin ((-1 : ℝ) ^ m)) t.1, IE.mul rnd (.fin ((-1 : ℝ) ^ m)) t.2)) = .ok F' ∧ Col c M F F' ∧ (Bad Bd (rd F (q * c + M)) → Bad Bd (rd F' (q * c + M))) := by
    by_cases hH0 : H < 0
    · rw [show pyRange 0 H = [] by unfold pyRange; simp; omega]
      exact ⟨F, rfl, Col.refl _ _ _, id⟩
    · obtain ⟨F', e, h⟩ := forM'_range_inv (a := 0) (b := H) (by omega) F
        (fun F k => (cGet F ((c : ℤ) * (k + 1) + M)).bind fun t =>
          cSet F ((c : ℤ) * ((r : ℤ) - 1 - k) + M) (IE.mul rnd (.fin ((-1 : ℝ) ^ m)) t.1, IE.mul rnd (.fin ((-1 : ℝ) ^ m)) t.2))
        (fun _ G => Col c M F G ∧ (Bad Bd (rd F (q * c + M)) → Bad Bd (rd G (q * c + M)))) ⟨Col.refl _ _ _, id⟩ (by
          intro k G k1 k2 ⟨g1, g2⟩
          obtain ⟨k, rfl⟩ := Int.eq_ofNat_of_zero_le k1
          have lG : G.length = r * c := g1.1.trans (h1.1.trans (a1.1.trans l1))
          have hb1 := idx_bound (show k + 1 < r by omega) hM lG
          have hb2 := idx_bound (show r - 1 - k < r by omega) hM lG
          rw [get (F := G) (j := (k + 1) * c + M) hb1 (by push_cast; ring)]
          simp only [Except.bind_ok]
          rw [set (F := G) (j := (r - 1 - k) * c + M) hb2 (by rw [show (r : ℤ) - 1 - (k : ℤ) = ((r - 1 - k : ℕ) : ℤ) by omega]; push_cast; ring)]
          refine ⟨_, rfl, g1.set _ _ hM hb2, fun h => ?_⟩
          rw [rd_set' _ _ _ _ hb2, if_neg]
          · exact g2 h
          · have : (q + 1) * c ≤ (r - 1 - k) * c := Nat.mul_le_mul_right _ (by omega)
            rw [Nat.add_mul] at this
            omega)
      exact ⟨F', e, h.1, h.2⟩
  obtain ⟨F', e', c1, c2⟩ := hfin
  rw [e']
  refine ⟨_, rfl, (a1.trans h1).trans c1, a2, fun ⟨n, x1, x2, x3⟩ => c2 (h2 (a3 ⟨n, x1, by omega, x3⟩))⟩

/-- The column of order `m` is marked in row `q` if one of its coefficients is NaN. -/
def MarkedL (Bd : IE → Prop) (q : ℕ) (sc : List (IE × IE)) (N M c : ℕ) (F : List (IE × IE)) (m : ℤ) : Prop :=
  m.natAbs ≤ M → (∃ n : ℤ, IsMode N M n m ∧ Bad Bd (rd sc (slot N n m))) → Bad Bd (rd F (q * c + (m % c).toNat))

theorem col_ok (sc : List (IE × IE)) (N M r c : ℕ) (hM : M ≤ N) (hr : N < r) (hc : 2 * M < c) (hl : sc.length = seg (N + 1) (2 * M + 1))
    (st : List (IE × IE) × List ℝ) (l1 : st.1.length = r * c) (l2 : st.2.length = N + 1) (m : ℤ) (hm : m.natAbs ≤ M) (K : ℤ) (hK : K = if 0 ≤ m then m else c + m) (q : ℕ) (hq : q ≤ N) (hq2 : 2 * q ≤ r) :
    ∃ st', NX.cFcvecMSc rnd sc (seg (N + 1) (ord m) : ℕ) m N r c K ((N : ℤ) + 1) st = .ok st' ∧ (st'.1.length = r * c ∧ st'.2.length = N + 1) ∧
      MarkedL Bd q sc N M c st'.1 m ∧ ∀ m', MarkedL Bd q sc N M c st.1 m' → MarkedL Bd q sc N M c st'.1 m' := by
  obtain ⟨k, hk⟩ : ∃ k : ℕ, K = k := ⟨K.toNat, by rw [hK]; split <;> omega⟩
  have hkc : k < c := by have := hK; split at this <;> omega
  have hmod : (m % c).toNat = k := by
    rw [wrap_mod (by omega) (by omega)]
    have := hK
    split at this <;> split <;> omega
  have hb : seg (N + 1) (ord m) + (N - m.natAbs + 1) ≤ sc.length := by
    rw [hl]
    have h1 : ord m + 1 ≤ 2 * M + 1 := by have := ord_le m; omega
    have h2 := seg_mono (N + 1) h1
    have h3 : (ord m + 1) / 2 = m.natAbs := (natAbs_eq_ord m).symm
    rw [seg_succ, h3] at h2
    omega
  obtain ⟨st', e, a1, a2, a3⟩ := fcvec_ok (rnd := rnd) (Bd := Bd) sc (seg (N + 1) (ord m)) N r c k m hkc hr (by omega) st l1 l2 (by omega) q hq hq2
  have mk : MarkedL Bd q sc N M c st'.1 m := by
    rintro _ ⟨n, ⟨h1, h2, h3, h4⟩, hn⟩
    have ha := Int.abs_eq_natAbs m
    rw [hmod]
    refine a3 ⟨n.toNat, by omega, by omega, ?_⟩
    unfold slot at hn
    rw [show ((N : ℤ) + 1).toNat = N + 1 by omega] at hn
    exact hn
  refine ⟨st', by rw [hk]; exact e, ⟨a1.1.trans l1, a2⟩, mk, fun m' hz hm' hx => ?_⟩
  by_cases e : m' = m
  · subst e; exact mk hm' hx
  · have hlt : (m' % c).toNat < c := by
      have := Int.emod_lt_of_pos m' (show (0 : ℤ) < c by omega)
      have := Int.emod_nonneg m' (show (c : ℤ) ≠ 0 by omega)
      omega
    rw [a1.2 _ (by
      rw [mul_comm q c, Nat.mul_add_mod, Nat.mod_eq_of_lt hlt, ← hmod, wrap_mod (by omega) (by omega), wrap_mod (by omega) (by omega)]
      split <;> split <;> omega)]
    exact hz hm' hx

theorem scToFc_ok (sc : List (IE × IE)) (N M r c : ℕ) (hM : M ≤ N) (hr : N < r) (hc : 2 * M + 2 ≤ c) (hl : sc.length = seg (N + 1) (2 * M + 1)) (J : NX.JunkX) (F0 : List (IE × IE)) (hF : F0.length = r * c) (q : ℕ) (hq : q ≤ N) (hq2 : 2 * q ≤ r) :
    ∃ F, NX.cScToFc rnd F0 r c sc N M J = .ok F ∧ F.length = r * c ∧ ∀ m : ℤ, MarkedL Bd q sc N M c F m := by
  unfold NX.cScToFc
  have mal : ∀ {α : Type} (n : ℕ) (j : ℕ → α), cMalloc (n : ℤ) j = .ok (tab n j) := by
    intro α n j; unfold cMalloc; rw [if_neg (by omega), Int.toNat_natCast]
  have m2 := fun (j : ℕ → ℝ) => mal (N + 1) j
  have m3 := fun (j : ℕ → ℤ) => mal (2 * M + 1) j
  push_cast at m2 m3
  rw [m2, m3]
  simp only [Except.bind_ok]
  have m4 := cMemset0_ok (tab (2 * M + 1) J.i) (2 * M + 1) (by simp)
  push_cast at m4
  rw [m4]
  simp only [Except.bind_ok]
  obtain ⟨inds, ei, il, iv⟩ := cInds_spec N M hM (tab (2 * M + 1) fun _ => 0) (by simp)
  rw [ei]
  simp only [Except.bind_ok]
  rw [show (c : ℤ).tdiv 2 = ((c / 2 : ℕ) : ℤ) by rw [Int.tdiv_eq_ediv_of_nonneg (by omega)]; rfl]
  obtain ⟨st, e, pA, qA, -⟩ := NN.loop_all (P := fun st : List (IE × IE) × List ℝ => st.1.length = r * c ∧ st.2.length = N + 1)
    (Q := fun (k : ℤ) st => 0 ≤ k → MarkedL Bd q sc N M c st.1 k ∧ MarkedL Bd q sc N M c st.1 (-(k + 1)))
    (f := fun st k => if k < (M : ℤ) then
      (cGet inds (2 * k)).bind fun o1 =>
      (NX.cFcvecMSc rnd sc o1 k N r c k (N + 1) st).bind fun st =>
      (cGet inds (2 * (k + 1) - 1)).bind fun o2 =>
      NX.cFcvecMSc rnd sc o2 (-(k + 1)) N r c (c - 1 - k) (N + 1) st
    else if k = (M : ℤ) then
      (cGet inds (2 * k)).bind fun o =>
      NX.cFcvecMSc rnd sc o k N r c k (N + 1) st
    else .ok st) (xs := pyRange 0 (((c / 2 : ℕ) : ℤ) + 1)) (s := (F0, tab (N + 1) J.r)) (by
      intro k hk st ⟨a1, a2⟩
      obtain ⟨h1, h2⟩ := mem_pyRange.mp hk
      obtain ⟨k, rfl⟩ := Int.eq_ofNat_of_zero_le h1
      have o1 : ord (k : ℤ) = 2 * k := by unfold ord; split <;> (try split) <;> omega
      have o2 : ord (-((k : ℤ) + 1)) = 2 * k + 1 := by unfold ord; rw [if_neg (by omega), if_pos (by omega)]; omega
      beta_reduce
      by_cases hk : (k : ℤ) < M
      · obtain ⟨B, eB, pB, mB, kB⟩ := col_ok (rnd := rnd) (Bd := Bd) sc N M r c hM hr (by omega) hl st a1 a2 k (by omega) k (by rw [if_pos (by omega)]) q hq hq2
        obtain ⟨C, eC, pC, mC, kC⟩ := col_ok (rnd := rnd) (Bd := Bd) sc N M r c hM hr (by omega) hl B pB.1 pB.2 (-((k : ℤ) + 1)) (by omega) (c - 1 - k) (by rw [if_neg (by omega)]; ring) q hq hq2
        rw [if_pos hk, cGet_at (j := 2 * k) (by omega) (by push_cast; ring), iv _ (by omega), ← o1]
        simp only [Except.bind_ok]
        rw [eB]
        simp only [Except.bind_ok]
        rw [cGet_at (j := 2 * k + 1) (by omega) (by push_cast; ring), iv _ (by omega), ← o2]
        simp only [Except.bind_ok]
        rw [eC]
        exact ⟨C, rfl, pC, fun _ => ⟨kC _ mB, mC⟩, fun y hy h => ⟨kC _ (kB _ (hy h).1), kC _ (kB _ (hy h).2)⟩⟩
      · rw [if_neg hk]
        by_cases hk2 : (k : ℤ) = M
        · obtain ⟨B, eB, pB, mB, kB⟩ := col_ok (rnd := rnd) (Bd := Bd) sc N M r c hM hr (by omega) hl st a1 a2 k (by omega) k (by rw [if_pos (by omega)]) q hq hq2
          rw [if_pos hk2, cGet_at (j := 2 * k) (by omega) (by push_cast; ring), iv _ (by omega), ← o1]
          simp only [Except.bind_ok]
          rw [eB]
          exact ⟨B, rfl, pB, fun _ => ⟨mB, fun h => by omega⟩, fun y hy h => ⟨kB _ (hy h).1, kB _ (hy h).2⟩⟩
        · rw [if_neg hk2]
          exact ⟨st, rfl, ⟨a1, a2⟩, fun _ => ⟨fun h => by omega, fun h => by omega⟩, fun y hy => hy⟩) ⟨hF, by simp⟩
  rw [e]
  refine ⟨_, rfl, pA.1, fun m hm => ?_⟩
  by_cases h : 0 ≤ m
  · exact (qA m (mem_pyRange.mpr (by omega)) h).1 hm
  · have := (qA (-m - 1) (mem_pyRange.mpr (by omega)) (by omega)).2
    rw [show -(-m - 1 + 1) = m by omega] at this
    exact this hm

end NC
end Verif.Props
