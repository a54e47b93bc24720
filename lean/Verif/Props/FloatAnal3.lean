import Verif.Props.FloatAnal2
/-!
# `bnm_fc` of csphi.c in doubles, and the assembly of the coefficient vector
-/
namespace Verif.Props
open Verif Finset

variable {rnd : ℝ → ℝ}

namespace FA

/-- The running sum of `bnm_fc`, one component. -/
noncomputable def cAcc (rnd : ℝ → ℝ) (h yh : ℕ → ℝ) : ℕ → ℝ
  | 0 => 0
  | k + 1 => rnd (cAcc rnd h yh k + rnd ((if k = 0 then h 0 else 2 * h k) * yh k))

theorem c_comp (hr : IsRounding rnd) {n : ℕ} (hn : n ≤ 1000) {C : ℝ} (hC : 2 ^ (-900 : ℤ) ≤ C) (hC' : C ≤ 2 ^ (900 : ℤ)) {h yh y : ℕ → ℝ}
    (hh : ∀ i, i ≤ n → |h i| ≤ C / 2) (hy : ∀ i, |y i| ≤ FS.rowMax n)
    (hyh : ∀ i, i ≤ n → |yh i - y i| ≤ ((n : ℝ) + 3) ^ 3 * 2 ^ (-50 : ℤ) * FS.rowMax n) :
    |cAcc rnd h yh (n + 1) - (h 0 * y 0 + 2 * ∑ i ∈ range n, h (i + 1) * y (i + 1))| ≤
      ((n : ℝ) + 1) * (C * FS.rowMax n) * (((n : ℝ) + 3) ^ 3 * 2 ^ (-50 : ℤ) + 4 * ((n : ℝ) + 1) * uu) := by
  obtain ⟨C0, R0, Q0, -, -⟩ := rowQ hn hC hC'
  obtain ⟨d1, -⟩ := FS.err_num n hn (n + 1) le_rfl Q0
  have := FS.acc_sum hr (v := fun k => if k = 0 then h 0 else 2 * h k) (yh := yh) (y := y) (S := cAcc rnd h yh) (K := n + 1) hC hC' (FS.rowMax_ge n) (rowMax_le hn)
    (by positivity) d1 (by omega) rfl (fun k _ => rfl) (fun k hk => by
      have := hh k (by omega)
      split
      · rename_i e; rw [e] at this; linarith
      · rw [abs_mul, abs_of_pos (by norm_num : (0 : ℝ) < 2)]; linarith) (fun k _ => hy k) (fun k hk => hyh k (by omega))
  have e : ∑ t ∈ range (n + 1), (if t = 0 then h 0 else 2 * h t) * y t = h 0 * y 0 + 2 * ∑ i ∈ range n, h (i + 1) * y (i + 1) := by
    rw [sum_range_succ', mul_sum, add_comm]
    simp only [if_true, Nat.add_eq_zero_iff, one_ne_zero, and_false, if_false]
    congr 1
    exact sum_congr rfl fun i _ => by ring
  rw [e] at this
  push_cast at this
  exact this

theorem cneg_val (hrd : NoOverflow rnd) (m : ℤ) {t : FC rnd} (ht : FS.Fix t) : FS.val (Fl.cMulIPowNeg rnd m t) = Complex.I ^ (-m) * FS.val t := by
  rw [← cMulIPowNeg_eq]
  have q : ∀ e, cPowNegOne e * cPowNegOne e = 1 := cPow_sq
  have q' : ∀ e, -cPowNegOne e * -cPowNegOne e = 1 := fun e => by rw [neg_mul_neg]; exact q e
  unfold Fl.cMulIPowNeg cMulIPowNeg FS.val
  split
  · simp only [FS.unit_mul hrd (q _) ht.2, FS.unit_mul hrd (q' _) ht.1]
  · simp only [FS.unit_mul hrd (q _) ht.1, FS.unit_mul hrd (q _) ht.2]

theorem twice_fix (hr : IsRounding rnd) {x : ℝ} (hx : rnd x = x) (hb : |x| < 2 ^ 500) : rnd (2 * x) = 2 * x := by
  have b1 : (2 : ℝ) * 2 ^ 500 ≤ 2 ^ 1023 := big'
  have hd : IsDouble x := by
    rw [← hx]
    exact hr.double x (hb.le.trans big)
  refine rnd_double hr (isDouble_two_mul hd hb) ?_
  rw [abs_mul, abs_of_pos (by norm_num : (0 : ℝ) < 2)]
  exact (mul_le_mul_of_nonneg_left hb.le (by norm_num)).trans b1

/-- The loop body of `bnm_fc`. -/
theorem c_body (hrd : NoOverflow rnd) {N : ℕ} (hN : N ≤ 1000) {C : ℝ} (hC : 2 ^ (-900 : ℤ) ≤ C)
    (hC' : C ≤ 2 ^ (500 : ℤ)) {h : List (FC rnd)} (hh : HOK h N C) {m : ℤ} (off : ℕ) (sc : List (FC rnd)) (y : List ℝ) (hy : y.length = N + 1)
    (n : ℕ) (hn : m.natAbs ≤ n) (hn2 : n ≤ N) (hsc : off + (n - m.natAbs) < sc.length) :
    ∃ z y', y'.length = N + 1 ∧ Fl.cBnmBody rnd m off h ((N : Int) + 1) (sc, y) n = .ok (sc.set (off + (n - m.natAbs)) z, y') ∧
      ‖FS.val z - tgt h m n‖ ≤ FS.coefErr n C := by
  have hr := hrd.toIsRounding
  obtain ⟨y', yr, -, ec, yl, yv⟩ := tab_err hr (n := n) (L := N + 1) (m := m) (by omega) (by omega) hn
  have h1 := ec y hy
  push_cast at h1
  have hkl := hh.len
  have C0 : 0 ≤ C := le_trans (by positivity) hC
  have C9 : C ≤ 2 ^ (900 : ℤ) := hC'.trans (zpow_le_zpow_right₀ (by norm_num) (by norm_num))
  have c5 : C / 2 < 2 ^ 500 := by
    have e : C ≤ 2 ^ 500 := by exact_mod_cast hC'
    have : 0 < C := lt_of_lt_of_le (by positivity) hC
    exact (half_lt_self this).trans_le e
  have tw : ∀ i, i ≤ N → rnd (2 * (rd h i).re) = 2 * (rd h i).re ∧ rnd (2 * (rd h i).im) = 2 * (rd h i).im := fun i hi =>
    ⟨twice_fix hr (hh.fix i hi).1 (lt_of_le_of_lt (hh.bd i hi).1 c5), twice_fix hr (hh.fix i hi).2 (lt_of_le_of_lt (hh.bd i hi).2 c5)⟩
  unfold Fl.cBnmBody
  simp only
  rw [h1]
  simp only [Except.bind_ok]
  have hp : (off : Int) + ((n : Int) - |m|) = ((off + (n - m.natAbs) : ℕ) : Int) := by
    have habs : |m| = (m.natAbs : ℤ) := Int.abs_eq_natAbs m
    rw [habs]; omega
  rw [hp]
  obtain ⟨p, hpp⟩ : ∃ p, p = off + (n - m.natAbs) := ⟨_, rfl⟩
  rw [← hpp] at hsc ⊢
  have g0 : cGet h 0 = .ok (rd h 0) := by exact_mod_cast cGet_ok (l := h) (i := 0) (by omega)
  have gy0 : cGet y' 0 = .ok (rd y' 0) := by exact_mod_cast cGet_ok (l := y') (i := 0) (by omega)
  rw [g0, gy0]
  simp only [Except.bind_ok]
  rw [cSet_ok hsc]
  simp only [Except.bind_ok]
  let A : ℕ → FC rnd := fun k => ⟨cAcc rnd (fun i => (rd h i).re) (fun i => rd y' i) k, cAcc rnd (fun i => (rd h i).im) (fun i => rd y' i) k⟩
  have A1 : A 1 = ⟨rnd ((rd h 0).re * rd y' 0), rnd ((rd h 0).im * rd y' 0)⟩ := by
    simp only [A, cAcc, if_true, zero_add, hrd.idem]
  obtain ⟨s', e', hi⟩ := forM'_range_inv (a := 1) (b := (n : Int) + 1) (by omega) (sc.set p ⟨rnd ((rd h 0).re * rd y' 0), rnd ((rd h 0).im * rd y' 0)⟩)
    (fun sc k => (cGet sc (p : Int)).bind fun v => (cGet h k).bind fun h => (cGet y' k).bind fun yk =>
      cSet sc (p : Int) (⟨rnd (v.re + rnd (rnd (2 * h.re) * yk)), rnd (v.im + rnd (rnd (2 * h.im) * yk))⟩ : FC rnd))
    (fun k s => s = sc.set p (A k.toNat))
    (by rw [Int.toNat_one, A1])
    (by
      intro k s h1 h2 hs
      obtain ⟨k, rfl⟩ := Int.eq_ofNat_of_zero_le (show 0 ≤ k by omega)
      have hlen : s.length = sc.length := by rw [hs]; simp
      rw [cGet_ok (by omega), cGet_ok (by omega), cGet_ok (by omega)]
      simp only [Except.bind_ok]
      rw [cSet_ok (by omega)]
      refine ⟨_, rfl, ?_⟩
      subst hs
      rw [rd_set' _ _ _ _ hsc, if_pos rfl, List.set_set, (tw k (by omega)).1, (tw k (by omega)).2, show ((k : Int) + 1).toNat = k + 1 by omega, Int.toNat_natCast]
      have k0 : k ≠ 0 := by omega
      simp only [A, cAcc, if_neg k0])
  rw [e', hi]
  simp only [Except.bind_ok]
  rw [cGet_ok (by simpa using hsc)]
  simp only [Except.bind_ok]
  rw [cSet_ok (by simpa using hsc), rd_set' _ _ _ _ hsc, if_pos rfl, List.set_set]
  simp only [Except.bind_ok]
  rw [show ((n : Int) + 1).toNat = n + 1 by omega]
  have hfix : FS.Fix (A (n + 1)) := ⟨hrd.idem _, hrd.idem _⟩
  refine ⟨_, y', yl, rfl, comb_err (by omega) C0 (fun i => (yv i).1) (a := (A (n + 1)).re) (b := (A (n + 1)).im) (by
    rw [cneg_val hrd m hfix, sub_self, norm_zero]
    have := (rowQ (n := n) (by omega) hC C9).2.2.1
    have := uu_pos
    positivity) ?_ ?_⟩
  · exact c_comp hr (by omega) hC C9 (h := fun i => (rd h i).re) (yh := fun i => rd y' i) (fun i hi => (hh.bd i (by omega)).1) (fun i => (yv i).2.1)
      (fun i hi => (yv i).2.2 (by omega))
  · exact c_comp hr (by omega) hC C9 (h := fun i => (rd h i).im) (yh := fun i => rd y' i) (fun i hi => (hh.bd i (by omega)).2) (fun i => (yv i).2.1)
      (fun i hi => (yv i).2.2 (by omega))

/-- The slots of the first `o` orders of `v` satisfy `P`. -/
def SegAll (N : ℕ) (v : List (FC rnd)) (o : ℕ) (P : ℤ → ℕ → FC rnd → Prop) : Prop :=
  v.length = seg N o ∧ ∀ (m : ℤ) (n : ℕ), ord m < o → m.natAbs ≤ n → n < N → P m n (rd v (seg N (ord m) + (n - m.natAbs)))

theorem SegAll.append {N : ℕ} {v u : List (FC rnd)} {P : ℤ → ℕ → FC rnd → Prop} (m : ℤ) (h : SegAll N v (ord m) P)
    (hm : m.natAbs < N) (hu : u.length = N - m.natAbs) (hv : ∀ n, m.natAbs ≤ n → n < N → P m n (rd u (n - m.natAbs))) :
    SegAll N (v ++ u) (ord m + 1) P := by
  have a : SegVec N v (ord m) (fun k n => rd v (seg N (ord k) + (n - k.natAbs))) := ⟨h.1, fun _ _ _ _ _ => rfl⟩
  let f : ℤ → ℕ → FC rnd := fun k n => if k = m then rd u (n - m.natAbs) else rd v (seg N (ord k) + (n - k.natAbs))
  have a' : SegVec N v (ord m) f := ⟨h.1, fun k n hk _ _ => by
    have : k ≠ m := by rintro rfl; omega
    simp only [f, if_neg this]⟩
  have b := a'.append m hm hu (fun n _ _ => by simp only [f, if_true])
  refine ⟨b.1, fun k n hk hn hN => ?_⟩
  rw [b.2 k n hk hn hN]
  by_cases e : k = m
  · subst e; simp only [f, if_true]; exact hv n hn hN
  · simp only [f, if_neg e]
    have : ord k ≠ ord m := fun h => e (ord_inj h)
    exact h.2 k n (by omega) hn hN

variable (lib : Fl.NumLib rnd)

/-- `bnm_vec_fc` in doubles. -/
theorem bnmVec (hrd : NoOverflow rnd) {K : ℕ} (hj : PowNear K lib.jp) (hsum : SumOK lib.sum) {N : ℕ} (hN : N ≤ 1000) {C : ℝ} (hC : 2 ^ (-900 : ℤ) ≤ C)
    (hC' : C ≤ 2 ^ (900 : ℤ)) {G : Arr2 (FC rnd)} {h : List (FC rnd)} {m : ℤ} (e : lib.conv G N m = .ok h) (hh : HOK h N C) (hm : |m| ≤ K) (hmN : m.natAbs ≤ N) :
    ∃ o, Fl.bnmVecFc rnd lib G N m = .ok o ∧ o.length = N - m.natAbs + 1 ∧
      ∀ n : ℕ, m.natAbs ≤ n → n ≤ N → ‖FS.val (rd o (n - m.natAbs)) - tgt h m n‖ ≤ FS.coefErr n C := by
  unfold Fl.bnmVecFc
  rw [e]
  simp only [Except.bind_ok]
  have habs : |m| = (m.natAbs : ℤ) := Int.abs_eq_natAbs m
  rw [habs]
  unfold npFull
  rw [if_neg (by omega)]
  simp only [Except.bind_ok]
  have hlen : ((N : ℤ) - m.natAbs + 1).toNat = N - m.natAbs + 1 := by omega
  rw [hlen]
  obtain ⟨o, eo, hi⟩ := forM'_range_inv (a := (m.natAbs : ℤ)) (b := (N : ℤ) + 1) (by omega)
    (List.replicate (N - m.natAbs + 1) (0 : FC rnd)) (Fl.bnmBody rnd lib h m)
    (fun v o => o.length = N - m.natAbs + 1 ∧ ∀ n : ℕ, m.natAbs ≤ n → (n : ℤ) < v → ‖FS.val (rd o (n - m.natAbs)) - tgt h m n‖ ≤ FS.coefErr n C)
    ⟨by simp, fun n h1 h2 => by omega⟩
    (by
      intro i o h1 h2 ⟨hol, hor⟩
      obtain ⟨n, rfl⟩ := Int.eq_ofNat_of_zero_le (show 0 ≤ i by omega)
      obtain ⟨z, ez, hz⟩ := py_body hrd lib hj hsum hN hC hC' hh hm o n (by omega) (by omega) hol
      refine ⟨_, ez, by simpa using hol, fun k hk1 hk2 => ?_⟩
      rw [rd_set _ _ _ _ (by omega)]
      by_cases hk : k = n
      · subst hk; rw [if_pos rfl]; exact hz
      · rw [if_neg (by omega)]; exact hor k hk1 (by omega))
  exact ⟨o, eo, hi.1, fun n h1 h2 => hi.2 n h1 (by omega)⟩

/-- `fc_to_sc` of pysphi.py in doubles. -/
theorem fcToSc_py (hrd : NoOverflow rnd) {N M : ℕ} (hj : PowNear M lib.jp) (hsum : SumOK lib.sum) (hN : N ≤ 1000) (hMN : M ≤ N) {C : ℝ}
    (hC : 2 ^ (-900 : ℤ) ≤ C) (hC' : C ≤ 2 ^ (900 : ℤ)) {G : Arr2 (FC rnd)} {h : ℤ → List (FC rnd)}
    (hh : ∀ m : ℤ, m.natAbs ≤ M → lib.conv G N m = .ok (h m) ∧ HOK (h m) N C) :
    ∃ v, Fl.fcToSc rnd lib G N M = .ok v ∧ SegAll (N + 1) v (2 * M + 1) (fun m n z => ‖FS.val z - tgt (h m) m n‖ ≤ FS.coefErr n C) := by
  unfold Fl.fcToSc
  have blk : ∀ m : ℤ, m.natAbs ≤ M → ∀ v, SegAll (N + 1) v (ord m) (fun m n z => ‖FS.val z - tgt (h m) m n‖ ≤ FS.coefErr n C) →
      ∃ u, Fl.bnmVecFc rnd lib G N m = .ok u ∧ SegAll (N + 1) (v ++ u) (ord m + 1) (fun m n z => ‖FS.val z - tgt (h m) m n‖ ≤ FS.coefErr n C) := by
    intro m hm v hv
    obtain ⟨u, eu, ul, uv⟩ := bnmVec lib hrd hj hsum hN hC hC' (hh m hm).1 (hh m hm).2 (by rw [Int.abs_eq_natAbs]; omega) (by omega)
    exact ⟨u, eu, hv.append m (by omega) (by omega) fun n h1 h2 => uv n h1 (by omega)⟩
  obtain ⟨u, eu, hu⟩ := blk 0 (by simp) [] ⟨rfl, fun m n h => absurd h (by simp [ord])⟩
  rw [eu]
  simp only [Except.bind_ok]
  rw [List.nil_append] at hu
  obtain ⟨w, ew, hw⟩ := forM'_range_inv (a := 1) (b := (M : ℤ) + 1) (by omega) u
    (fun c m => (Fl.bnmVecFc rnd lib G N (-m)).bind fun a => (Fl.bnmVecFc rnd lib G N m).bind fun b => .ok (c ++ a ++ b))
    (fun k v => SegAll (N + 1) v (2 * k.toNat - 1) (fun m n z => ‖FS.val z - tgt (h m) m n‖ ≤ FS.coefErr n C)) hu (by
      intro i v h1 h2 hv
      have o1 : ord (-i) = 2 * i.toNat - 1 := by unfold ord; rw [if_neg (by omega), if_pos (by omega)]; omega
      have o2 : ord i = 2 * i.toNat := by unfold ord; rw [if_pos (by omega)]; omega
      obtain ⟨a, ea, ha⟩ := blk (-i) (by omega) v (by rwa [o1])
      obtain ⟨b, eb, hb⟩ := blk i (by omega) (v ++ a) (by rw [o2]; convert ha using 1; omega)
      rw [ea, eb]
      refine ⟨_, rfl, ?_⟩
      convert hb using 1
      omega)
  exact ⟨w, ew, by convert hw using 1; omega⟩

/-- `bnm_fc` in doubles writes the coefficients of order `m` at `off` and nothing else. -/
theorem bnmC (hrd : NoOverflow rnd) {N : ℕ} (hN : N ≤ 1000) {C : ℝ} (hC : 2 ^ (-900 : ℤ) ≤ C) (hC' : C ≤ 2 ^ (500 : ℤ)) {G : Arr2 (FC rnd)} {h : List (FC rnd)} {m : ℤ}
    (e : lib.conv G N m = .ok h) (hh : HOK h N C) (hmN : m.natAbs ≤ N) (off : ℕ) (st : List (FC rnd) × List ℝ) (hy : st.2.length = N + 1)
    (hsc : off + (N - m.natAbs) < st.1.length) :
    ∃ st', Fl.cBnmFc rnd lib G N m off ((N : Int) + 1) st = .ok st' ∧ st'.2.length = N + 1 ∧ st'.1.length = st.1.length ∧
      (∀ n, m.natAbs ≤ n → n ≤ N → ‖FS.val (rd st'.1 (off + (n - m.natAbs))) - tgt h m n‖ ≤ FS.coefErr n C) ∧
      ∀ i, i < off ∨ off + (N - m.natAbs) < i → rd st'.1 i = rd st.1 i := by
  unfold Fl.cBnmFc
  rw [e]
  simp only [Except.bind_ok]
  have habs : |m| = (m.natAbs : ℤ) := Int.abs_eq_natAbs m
  obtain ⟨st', e2, hi⟩ := forM'_range_inv (a := |m|) (b := (N : Int) + 1) (by omega) st
    (Fl.cBnmBody rnd m off h ((N : Int) + 1))
    (fun k s => s.2.length = N + 1 ∧ s.1.length = st.1.length ∧
      (∀ n : ℕ, m.natAbs ≤ n → (n : Int) < k → ‖FS.val (rd s.1 (off + (n - m.natAbs))) - tgt h m n‖ ≤ FS.coefErr n C) ∧
      ∀ i, i < off ∨ off + (N - m.natAbs) < i → rd s.1 i = rd st.1 i)
    ⟨hy, rfl, fun n h1 h2 => by omega, fun i _ => rfl⟩
    (by
      rintro k ⟨sc, y⟩ h1 h2 ⟨yl, scl, sv, so⟩
      obtain ⟨n, rfl⟩ := Int.eq_ofNat_of_zero_le (show 0 ≤ k by omega)
      simp only at yl scl sv so
      obtain ⟨z, y', yl', eb, hz⟩ := c_body hrd hN hC hC' hh off sc y yl n (m := m) (by omega) (by omega) (by omega)
      refine ⟨_, eb, yl', by simpa using scl, fun n' a b => ?_, fun i hi => ?_⟩
      · simp only
        rw [rd_set' _ _ _ _ (by omega)]
        by_cases hnn : n' = n
        · subst hnn; rw [if_pos rfl]; exact hz
        · rw [if_neg (by omega)]; exact sv n' a (by omega)
      · simp only
        rw [rd_set' _ _ _ _ (by omega), if_neg (by omega), so i hi])
  exact ⟨st', e2, hi.1, hi.2.1, fun n h1 h2 => hi.2.2.1 n h1 (by omega), hi.2.2.2⟩

/-- `fc_to_sc` of csphi.c in doubles. -/
theorem fcToSc_c (hrd : NoOverflow rnd) {N M : ℕ} (hN : N ≤ 1000) (hMN : M ≤ N) {C : ℝ}
    (hC : 2 ^ (-900 : ℤ) ≤ C) (hC' : C ≤ 2 ^ (500 : ℤ)) {G : Arr2 (FC rnd)} {h : ℤ → List (FC rnd)}
    (hh : ∀ m : ℤ, m.natAbs ≤ M → lib.conv G N m = .ok (h m) ∧ HOK (h m) N C) (sc : List (FC rnd)) (hsc : sc.length = seg (N + 1) (2 * M + 1)) (J : CJunk) :
    ∃ v, Fl.cFcToSc rnd lib G sc N M J = .ok v ∧ SegAll (N + 1) v (2 * M + 1) (fun m n z => ‖FS.val z - tgt (h m) m n‖ ≤ FS.coefErr n C) := by
  unfold Fl.cFcToSc
  have mal : ∀ {α : Type} (n : ℕ) (j : ℕ → α), cMalloc (n : ℤ) j = .ok (tab n j) := by
    intro α n j; unfold cMalloc; rw [if_neg (by omega), Int.toNat_natCast]
  have m2 := fun (j : ℕ → ℝ) => mal (N + 1) j
  have m3 := fun (j : ℕ → ℤ) => mal (2 * M + 1) j
  push_cast at m2 m3
  rw [m2, m3]
  simp only [Except.bind_ok]
  have m4 := cMemset0_ok (tab (2 * M + 1) J.i) (2 * M + 1) (by simp)
  push_cast at m4
  rw [m4]
  simp only [Except.bind_ok]
  obtain ⟨inds, ei, il, iv⟩ := cInds_spec N M hMN (tab (2 * M + 1) fun _ => 0) (by simp)
  rw [ei]
  simp only [Except.bind_ok]
  let Done : ℕ → List (FC rnd) × List ℝ → Prop := fun o st => st.2.length = N + 1 ∧ st.1.length = seg (N + 1) (2 * M + 1) ∧
    ∀ (m : ℤ) (n : ℕ), ord m < o → m.natAbs ≤ n → n < N + 1 → ‖FS.val (rd st.1 (seg (N + 1) (ord m) + (n - m.natAbs))) - tgt (h m) m n‖ ≤ FS.coefErr n C
  have blk : ∀ (m : ℤ) (w : List (FC rnd) × List ℝ), m.natAbs ≤ M → Done (ord m) w →
      ∃ w', Fl.cBnmFc rnd lib G N m (seg (N + 1) (ord m) : ℕ) ((N : Int) + 1) w = .ok w' ∧ Done (ord m + 1) w' := by
    intro m w hm hw
    have h3 : (ord m + 1) / 2 = m.natAbs := (natAbs_eq_ord m).symm
    have h4 : seg (N + 1) (ord m + 1) ≤ seg (N + 1) (2 * M + 1) := seg_mono _ (by have := ord_le m; omega)
    rw [seg_succ, h3] at h4
    obtain ⟨w', e, a3, a4, a5, a6⟩ := bnmC lib hrd hN hC hC' (hh m hm).1 (hh m hm).2 (by omega)
      (seg (N + 1) (ord m)) w hw.1 (by rw [hw.2.1]; omega)
    refine ⟨w', e, a3, by rw [a4, hw.2.1], fun k n hk hn hN => ?_⟩
    by_cases ek : k = m
    · subst ek; exact a5 n hn (by omega)
    · have hne : ord k ≠ ord m := fun h => ek (ord_inj h)
      have h5 : seg (N + 1) (ord k + 1) ≤ seg (N + 1) (ord m) := seg_mono _ (by omega)
      rw [seg_succ, ← natAbs_eq_ord k] at h5
      rw [a6 _ (.inl (by omega))]
      exact hw.2.2 k n (by omega) hn hN
  obtain ⟨w0, e0, h0⟩ := blk 0 (sc, tab (N + 1) J.r) (by simp)
    ⟨by simp, hsc, fun m n h => absurd h (by simp [ord])⟩
  have e0' : seg (N + 1) (ord 0) = 0 := by simp [ord, seg]
  rw [e0', Nat.cast_zero] at e0
  rw [e0]
  simp only [Except.bind_ok]
  obtain ⟨w, ew, hw⟩ := forM'_range_inv (a := 1) (b := (M : ℤ) + 1) (by omega) w0
    (fun st m =>
    (cGet inds (2 * m - 1)).bind fun o1 =>
    (Fl.cBnmFc rnd lib G N (-m) o1 (N + 1) st).bind fun st =>
    (cGet inds (2 * m)).bind fun o2 =>
    Fl.cBnmFc rnd lib G N m o2 (N + 1) st)
    (fun k w => Done (2 * k.toNat - 1) w) (by simpa [ord] using h0) (by
      intro i w h1 h2 hw
      have o1 : ord (-i) = 2 * i.toNat - 1 := by unfold ord; rw [if_neg (by omega), if_pos (by omega)]; omega
      have o2 : ord i = 2 * i.toNat := by unfold ord; rw [if_pos (by omega)]; omega
      obtain ⟨w1, e1, k1⟩ := blk (-i) w (by omega) (by rwa [o1])
      obtain ⟨w2, e2, k2⟩ := blk i w1 (by omega) (by rw [o2]; convert k1 using 1; omega)
      rw [cGet_at (j := 2 * i.toNat - 1) (by omega) (by omega), iv _ (by omega), ← o1]
      simp only [Except.bind_ok]
      rw [e1]
      simp only [Except.bind_ok]
      rw [cGet_at (j := 2 * i.toNat) (by omega) (by omega), iv _ (by omega), ← o2]
      simp only [Except.bind_ok]
      refine ⟨w2, e2, ?_⟩
      convert k2 using 1
      omega)
  rw [ew]
  exact ⟨_, rfl, hw.2.1, fun m n h1 h2 h3 => hw.2.2 m n (by omega) h2 h3⟩

end FA
end Verif.Props
