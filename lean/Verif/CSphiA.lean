import Verif.CSphiY
import Verif.SphiSeg
/-!
# C extension: fc_to_sc
-/
namespace Verif
open Finset

theorem Arr2.length_flat {α : Type} [Zero α] (A : Arr2 α) : A.flat.length = A.rows * A.cols := by simp [Arr2.flat]

theorem flat_idx {r c i j : ℕ} (hi : i < r) (hj : j < c) : c * i + j < r * c := by
  calc c * i + j < c * i + c := by omega
    _ = (i + 1) * c := by ring
    _ ≤ r * c := Nat.mul_le_mul_right _ hi

theorem Arr2.rd_flat {α : Type} [Zero α] (A : Arr2 α) {i j : ℕ} (hi : i < A.rows) (hj : j < A.cols) : rd A.flat (A.cols * i + j) = A.at' i j := by
  unfold Arr2.flat
  rw [rd_tab (flat_idx hi hj), Nat.mul_add_div (by omega), Nat.div_eq_of_lt hj, Nat.mul_add_mod, Nat.mod_eq_of_lt hj, add_zero]

/-- A configuration returned by `kiss_fft_alloc`. -/
structure KissOK (cfg : KissCfg) (inv : Bool) (Q : ℕ) : Prop where
  inv : cfg.inverse = inv
  tw : TwOK cfg Q
  st : Stages Q cfg.factors

theorem KissOK.fft {cfg : KissCfg} {inv : Bool} {Q : ℕ} (h : KissOK cfg inv Q) (hQ : 0 < Q) (buf : List ℂ) (hb : buf.length = Q)
    (junk : ℕ → ℂ) : kissFft cfg buf junk = .ok (tab Q fun k => ∑ j ∈ range Q, rd buf j * twd inv Q ((j * k : ℕ) : ℤ)) := by
  rw [kissFft_ok h.tw hQ h.st buf hb junk, h.inv]

theorem cMemset0_ok {α : Type} [Zero α] (l : List α) (n : ℕ) (h : l.length = n) : cMemset0 l n = .ok (tab n fun _ => 0) := by
  unfold cMemset0
  rw [if_pos (by omega)]
  congr 1
  refine list_ext_rd (by simpa using h) fun i hi => ?_
  rw [length_tab] at hi
  rw [rd_tab hi, rd_tab (by omega), if_pos (by omega)]

theorem cHkmFc_spec (A : Arr2 ℂ) (Nmax Q : ℕ) (m : ℤ) (s : List ℂ) (hL : A.rows % 2 = 0) (hL0 : 0 < A.rows)
    (hQ : A.rows + Nmax ≤ Q) (hs : KernTable A.rows Nmax Q s) (hm1 : -(A.cols : ℤ) ≤ m) (hm2 : m < A.cols)
    (hny : fAt A m (A.rows / 2) = 0) (hkm ff : List ℂ) (hkl : hkm.length = Nmax + 1) (ffl : ff.length = Q)
    (fw bw : KissCfg) (hfw : KissOK fw false Q) (hbw : KissOK bw true Q) (J : CJunk) :
    ∃ h ff', cHkmFc A.flat A.rows A.cols m hkm ((Nmax : Int) + 1) (tab Q fun k => ∑ j ∈ range Q, rd s j * twd false Q ((j * k : ℕ) : ℤ)) Q ff fw bw J = .ok (h, ff') ∧
      h.length = Nmax + 1 ∧ ff'.length = Q ∧ ∀ k : ℕ, k ≤ Nmax → rd h k = hval A m k := by
  have hQ0 : 0 < Q := by omega
  unfold cHkmFc
  rw [cMemset0_ok ff Q ffl]
  simp only [Except.bind_ok]
  have hkm0 := cMemset0_ok hkm (Nmax + 1) hkl
  push_cast at hkm0
  rw [hkm0]
  simp only [Except.bind_ok]
  have hmm : (A.rows : Int).tdiv 2 = ((A.rows / 2 : ℕ) : Int) := by rw [Int.tdiv_eq_ediv_of_nonneg (by omega)]; rfl
  rw [hmm]
  obtain ⟨c, hc⟩ : ∃ c : ℕ, c = (m % A.cols).toNat := ⟨_, rfl⟩
  have hind : (if m ≥ 0 then m else (A.cols : Int) + m) = (c : Int) := by
    rw [hc, wrap_mod hm1 hm2]; split <;> split <;> omega
  have hcl : c < A.cols := by rw [hc]; exact slot_lt' (by omega) _
  rw [hind]
  obtain ⟨M, hM⟩ : ∃ M, M = A.rows / 2 := ⟨_, rfl⟩
  rw [← hM]
  obtain ⟨f1, e1, hi1⟩ := forM'_range_inv (a := 0) (b := (M : Int)) (by omega) (tab Q fun _ => (0 : ℂ))
    (fun ff k => (cGet A.flat ((A.cols : Int) * ((M : Int) + k) + c)).bind fun a => (cSet ff k a).bind fun ff =>
      (cGet A.flat ((A.cols : Int) * k + c)).bind fun b => cSet ff ((M : Int) + k) b)
    (fun k f => f.length = Q ∧ (∀ i : ℕ, (i : Int) < k → rd f i = A.at' (i + M) c ∧ rd f (M + i) = A.at' i c) ∧
      ∀ i, 2 * M ≤ i → rd f i = 0)
    ⟨by simp, fun i hi => by omega, fun i _ => by
      by_cases h : i < Q
      · rw [rd_tab h]
      · rw [rd_out (by simpa using h)]⟩
    (by
      intro k f h1 h2 ⟨fl, fv, fz⟩
      obtain ⟨k, rfl⟩ := Int.eq_ofNat_of_zero_le h1
      rw [f_get (j := A.cols * (M + k) + c) (by rw [A.length_flat]; exact flat_idx (by omega) hcl) (by push_cast; ring), A.rd_flat (by omega) hcl]
      simp only [Except.bind_ok]
      rw [f_set (j := k) (by omega) rfl]
      simp only [Except.bind_ok]
      rw [f_get (j := A.cols * k + c) (by rw [A.length_flat]; exact flat_idx (by omega) hcl) (by push_cast; ring), A.rd_flat (by omega) hcl]
      simp only [Except.bind_ok]
      rw [f_set (j := M + k) (by simp; omega) (by push_cast; ring)]
      refine ⟨_, rfl, by simpa using fl, fun i hi => ?_, fun i hi => ?_⟩
      · rw [rd_set' _ _ _ _ (by simp; omega), rd_set' _ _ _ _ (by omega), rd_set' _ _ _ _ (by simp; omega), rd_set' _ _ _ _ (by omega)]
        rw [if_neg (by omega)]
        by_cases hik : i = k
        · subst hik
          rw [if_pos rfl, if_pos rfl]
          exact ⟨by rw [add_comm], rfl⟩
        · rw [if_neg hik, if_neg (by omega), if_neg (by omega)]
          exact fv i (by omega)
      · rw [rd_set' _ _ _ _ (by simp; omega), rd_set' _ _ _ _ (by omega), if_neg (by omega), if_neg (by omega), fz i hi])
  rw [e1]
  simp only [Except.bind_ok]
  rw [hfw.fft hQ0 f1 hi1.1]
  simp only [Except.bind_ok]
  rw [fill_ok (tab Q fun k => ∑ j ∈ range Q, rd f1 j * twd false Q ((j * k : ℕ) : ℤ)) Q (by simp) _
    (fun k => (∑ j ∈ range Q, rd f1 j * twd false Q ((j * k : ℕ) : ℤ)) * (∑ j ∈ range Q, rd s j * twd false Q ((j * k : ℕ) : ℤ))) (by
      intro k l' hk hl hv
      rw [cGet_ok (by rw [hl]; simpa using hk), cGet_ok (by simpa using hk)]
      simp only [Except.bind_ok]
      rw [cSet_ok (by rw [hl]; simpa using hk), hv k le_rfl, rd_tab hk, rd_tab hk]
      congr 2
      apply Complex.ext <;> simp only [Complex.mul_re, Complex.mul_im] <;> ring)]
  simp only [Except.bind_ok, length_tab]
  rw [hbw.fft hQ0 _ (by simp)]
  simp only [Except.bind_ok]
  have hlast := fill_ok (tab (Nmax + 1) fun _ => (0 : ℂ)) (Nmax + 1) (by simp)
    (fun hkm k => (cGet (tab Q fun k => ∑ j ∈ range Q, rd (tab Q fun i => if i < Q then (∑ j ∈ range Q, rd f1 j * twd false Q ((j * i : ℕ) : ℤ)) * (∑ j ∈ range Q, rd s j * twd false Q ((j * i : ℕ) : ℤ)) else rd (tab Q fun k => ∑ j ∈ range Q, rd f1 j * twd false Q ((j * k : ℕ) : ℤ)) i) j * twd true Q ((j * k : ℕ) : ℤ)) k).bind fun f =>
      cSet hkm k ⟨4.0 * Real.pi * f.re / ((Q : ℤ) : ℝ), 4.0 * Real.pi * f.im / ((Q : ℤ) : ℝ)⟩)
    (fun k => hval A m k) (by
      intro k l' hk hl _
      rw [cGet_ok (by simp; omega)]
      simp only [Except.bind_ok]
      rw [cSet_ok (by rw [hl]; simpa using hk), rd_tab (by omega)]
      congr 2
      have hgen : ∀ z : ℂ, (⟨4.0 * Real.pi * z.re / ((Q : ℤ) : ℝ), 4.0 * Real.pi * z.im / ((Q : ℤ) : ℝ)⟩ : ℂ) = 4 * Real.pi * (z / Q) := by
        intro z
        have : (4 * Real.pi * (z / Q) : ℂ) = ((4 * Real.pi / Q : ℝ) : ℂ) * z := by push_cast; ring
        rw [this]
        apply Complex.ext
        · rw [Complex.re_ofReal_mul, show (4.0 : ℝ) = 4 by norm_num]; simp only; push_cast; ring
        · rw [Complex.im_ofReal_mul, show (4.0 : ℝ) = 4 by norm_num]; simp only; push_cast; ring
      rw [hgen]
      unfold hval
      congr 1
      rw [← conv_core A.rows Nmax Q hL hQ s hs (fAt A m) (rd f1) ?_ ?_ ?_ k (by omega)]
      · rw [← cyc_conv hQ0]
        congr 1
        refine sum_congr rfl fun p hp => ?_
        have hp' := mem_range.mp hp
        rw [rd_tab hp', if_pos hp']
        simp only [twd, if_true, Bool.false_eq_true, if_false]
        push_cast
        rfl
      · have := (hi1.2.1 0 (by omega)).1
        rw [this, zero_add]
        unfold fAt at hny
        rw [Int.emod_eq_of_lt (by omega) (by omega), ← hc] at hny
        rw [← hny]; congr 1
      · intro n hn1 hn2
        unfold fAt
        rw [← hc]
        by_cases hn : n < M
        · rw [(hi1.2.1 n (by omega)).1]
          congr 1
          rw [← Int.add_emod_right, Int.emod_eq_of_lt (by omega) (by omega)]; omega
        · have := (hi1.2.1 (n - M) (by omega)).2
          rw [show M + (n - M) = n by omega] at this
          rw [this]
          congr 1
          rw [Int.emod_eq_of_lt (by omega) (by omega)]; omega
      · intro n hn
        exact hi1.2.2 n (by omega))
  push_cast at hlast
  push_cast
  rw [hlast]
  refine ⟨_, _, rfl, by simp, by simp, fun k hk => ?_⟩
  rw [rd_tab (by simp; omega), if_pos (by omega)]

theorem cPow_sq (e : ℤ) : cPowNegOne e * cPowNegOne e = 1 := by
  unfold cPowNegOne
  rw [← mul_zpow]; norm_num

theorem cMulIPowNeg_eq (m : ℤ) (v : ℂ) : cMulIPowNeg m v = Complex.I ^ (-m) * v := by
  unfold cMulIPowNeg cPowNegOne
  have hmod : (|m|).tmod 2 = m % 2 := by
    rw [Int.tmod_eq_emod_of_nonneg (abs_nonneg _), Int.abs_eq_natAbs]; omega
  have hI : Complex.I ≠ 0 := Complex.I_ne_zero
  have hI2 : ∀ k : ℤ, Complex.I ^ (2 * k) = (((-1 : ℝ) ^ k : ℝ) : ℂ) := by
    intro k
    rw [zpow_mul, show Complex.I ^ (2 : ℤ) = -1 by rw [← Complex.I_sq]; norm_cast]
    push_cast; rfl
  have hneg : ∀ k : ℤ, (-1 : ℝ) ^ (-k) = (-1) ^ k := fun k => by rw [zpow_neg, ← inv_zpow]; norm_num
  rw [hmod]
  split
  · rename_i h
    have ht : (m - 1).tdiv 2 = (m - 1) / 2 := Int.tdiv_eq_ediv_of_dvd (by omega)
    rw [ht]
    obtain ⟨k, hk⟩ : ∃ k, k = (m - 1) / 2 := ⟨_, rfl⟩
    rw [← hk, show -m = 2 * (-k) + (-1) by omega, zpow_add₀ hI, hI2, hneg, zpow_neg_one, Complex.inv_I]
    apply Complex.ext
    · simp only [Complex.mul_re, Complex.mul_im, Complex.ofReal_re, Complex.ofReal_im, Complex.neg_re, Complex.neg_im, Complex.I_re, Complex.I_im]; ring
    · simp only [Complex.mul_re, Complex.mul_im, Complex.ofReal_re, Complex.ofReal_im, Complex.neg_re, Complex.neg_im, Complex.I_re, Complex.I_im]; ring
  · rename_i h
    have ht : m.tdiv 2 = m / 2 := Int.tdiv_eq_ediv_of_dvd (by omega)
    rw [ht]
    obtain ⟨k, hk⟩ : ∃ k, k = m / 2 := ⟨_, rfl⟩
    rw [← hk, show -m = 2 * (-k) by omega, hI2, hneg]
    apply Complex.ext
    · rw [Complex.re_ofReal_mul]
    · rw [Complex.im_ofReal_mul]

theorem cMulIPow_eq (m : ℤ) (v : ℂ) : cMulIPow m v = Complex.I ^ m * v := by
  have h := cMulIPowNeg_eq m
  have e : cMulIPow m v = (starRingEnd ℂ) (cMulIPowNeg m ((starRingEnd ℂ) v)) := by
    unfold cMulIPow cMulIPowNeg
    split
    · apply Complex.ext <;> simp
    · apply Complex.ext <;> simp
  rw [e, h, map_mul, Complex.conj_conj, map_zpow₀, Complex.conj_I, zpow_neg, ← inv_zpow]
  congr 2
  rw [inv_neg, Complex.inv_I, neg_neg]

theorem cBnmBody_spec (A : Arr2 ℂ) (Nmax : ℕ) (m : ℤ) (off : ℕ) (hkm : List ℂ) (hkl : hkm.length = Nmax + 1)
    (hh : ∀ k : ℕ, k ≤ Nmax → rd hkm k = hval A m k) (sc : List ℂ) (y : List ℝ) (hy : y.length = Nmax + 1) (n : ℕ)
    (hn : m.natAbs ≤ n) (hn2 : n ≤ Nmax) (hsc : off + (n - m.natAbs) < sc.length) :
    ∃ y', y'.length = Nmax + 1 ∧ cBnmBody m off hkm ((Nmax : Int) + 1) (sc, y) n =
      .ok (sc.set (off + (n - m.natAbs)) (bval A m n), y') := by
  unfold cBnmBody
  have h1 := cYnunm_eq n m y (Nmax + 1) (by omega) hy
  obtain ⟨y', ey, yl, yv⟩ := ynunm_spec n m (Nmax + 1) hn (by omega)
  rw [ey] at h1
  push_cast at h1
  refine ⟨y', yl, ?_⟩
  simp only
  rw [h1]
  simp only [Except.bind_ok]
  have hp : (off : Int) + ((n : Int) - |m|) = ((off + (n - m.natAbs) : ℕ) : Int) := by
    have habs : |m| = (m.natAbs : ℤ) := Int.abs_eq_natAbs m
    rw [habs]; omega
  rw [hp]
  obtain ⟨p, hpp⟩ : ∃ p, p = off + (n - m.natAbs) := ⟨_, rfl⟩
  rw [← hpp] at hsc ⊢
  have g0 : cGet hkm 0 = .ok (rd hkm 0) := by exact_mod_cast cGet_ok (l := hkm) (i := 0) (by omega)
  have gy0 : cGet y' 0 = .ok (rd y' 0) := by exact_mod_cast cGet_ok (l := y') (i := 0) (by omega)
  rw [g0, gy0]
  simp only [Except.bind_ok]
  rw [cSet_ok hsc]
  simp only [Except.bind_ok]
  have yv' : ∀ j : ℕ, ((rd y' j : ℝ) : ℂ) = ycoef n m j := yv
  have hmulr : ∀ (h : ℂ) (x : ℝ), (⟨h.re * x, h.im * x⟩ : ℂ) = h * (x : ℂ) := by
    intro h x
    rw [mul_comm h]
    apply Complex.ext
    · rw [Complex.re_ofReal_mul]; simp only; ring
    · rw [Complex.im_ofReal_mul]; simp only; ring
  obtain ⟨s', e', hi⟩ := forM'_range_inv (a := 1) (b := (n : Int) + 1) (by omega) (sc.set p ⟨(rd hkm 0).re * rd y' 0, (rd hkm 0).im * rd y' 0⟩)
    (fun sc k => (cGet sc (p : Int)).bind fun v => (cGet hkm k).bind fun h => (cGet y' k).bind fun yk =>
      cSet sc (p : Int) ⟨v.re + 2.0 * h.re * yk, v.im + 2.0 * h.im * yk⟩)
    (fun k s => s = sc.set p (hval A m 0 * ycoef n m 0 + 2 * ∑ i ∈ range (k.toNat - 1), hval A m (i + 1 : ℕ) * ycoef n m (i + 1 : ℕ)))
    (by
      rw [hmulr, yv' 0, hh 0 (by omega)]
      simp)
    (by
      intro k s h1 h2 hs
      obtain ⟨k, rfl⟩ := Int.eq_ofNat_of_zero_le (show 0 ≤ k by omega)
      have hlen : s.length = sc.length := by rw [hs]; simp
      rw [cGet_ok (by omega), cGet_ok (by omega), cGet_ok (by omega)]
      simp only [Except.bind_ok]
      rw [cSet_ok (by omega)]
      refine ⟨_, rfl, ?_⟩
      have hv : ∀ (v h : ℂ) (x : ℝ), (⟨v.re + 2.0 * h.re * x, v.im + 2.0 * h.im * x⟩ : ℂ) = v + 2 * (h * (x : ℂ)) := by
        intro v h x
        rw [mul_comm h, show (2 : ℂ) * ((x : ℂ) * h) = ((2 * x : ℝ) : ℂ) * h by push_cast; ring]
        apply Complex.ext
        · rw [Complex.add_re, Complex.re_ofReal_mul, show (2.0 : ℝ) = 2 by norm_num]; simp only; ring
        · rw [Complex.add_im, Complex.im_ofReal_mul, show (2.0 : ℝ) = 2 by norm_num]; simp only; ring
      rw [hv, yv', hh k (by omega)]
      subst hs
      rw [rd_set' _ _ _ _ hsc, if_pos rfl, List.set_set]
      congr 1
      rw [show ((k : Int) + 1).toNat - 1 = (k - 1) + 1 by omega, sum_range_succ, Int.toNat_natCast]
      rw [show k - 1 + 1 = k by omega]
      ring)
  rw [e', hi]
  simp only [Except.bind_ok]
  rw [cGet_ok (by simpa using hsc)]
  simp only [Except.bind_ok]
  rw [cSet_ok (by simpa using hsc), rd_set' _ _ _ _ hsc, if_pos rfl, List.set_set]
  simp only [Except.bind_ok]
  rw [cMulIPowNeg_eq]
  congr 3

/-- `bnm_fc` writes the analysis coefficients of order `m` at `off` and nothing else. -/
theorem cBnmFc_spec (A : Arr2 ℂ) (Nmax Q : ℕ) (m : ℤ) (s : List ℂ) (hL : A.rows % 2 = 0) (hL0 : 0 < A.rows)
    (hQ : A.rows + Nmax ≤ Q) (hs : KernTable A.rows Nmax Q s) (hm1 : -(A.cols : ℤ) ≤ m) (hm2 : m < A.cols)
    (hny : fAt A m (A.rows / 2) = 0) (hmN : m.natAbs ≤ Nmax)
    (fw bw : KissCfg) (hfw : KissOK fw false Q) (hbw : KissOK bw true Q) (J : CJunk) (off : ℕ) (w : CWork)
    (hkl : w.hkm.length = Nmax + 1) (ffl : w.ff.length = Q) (hy : w.y.length = Nmax + 1)
    (hsc : off + (Nmax - m.natAbs) < w.sc.length) :
    ∃ w', cBnmFc A.flat A.rows A.cols Nmax m off (tab Q fun k => ∑ j ∈ range Q, rd s j * twd false Q ((j * k : ℕ) : ℤ)) Q
        ((Nmax : Int) + 1) ((Nmax : Int) + 1) fw bw J w = .ok w' ∧
      w'.hkm.length = Nmax + 1 ∧ w'.ff.length = Q ∧ w'.y.length = Nmax + 1 ∧ w'.sc.length = w.sc.length ∧
      (∀ n, m.natAbs ≤ n → n ≤ Nmax → rd w'.sc (off + (n - m.natAbs)) = bval A m n) ∧
      ∀ i, i < off ∨ off + (Nmax - m.natAbs) < i → rd w'.sc i = rd w.sc i := by
  unfold cBnmFc
  obtain ⟨h, ff', e, hl, fl', hv⟩ := cHkmFc_spec A Nmax Q m s hL hL0 hQ hs hm1 hm2 hny w.hkm w.ff hkl ffl fw bw hfw hbw J
  rw [e]
  simp only [Except.bind_ok]
  have habs : |m| = (m.natAbs : ℤ) := Int.abs_eq_natAbs m
  obtain ⟨st, e2, hi⟩ := forM'_range_inv (a := |m|) (b := (Nmax : Int) + 1) (by omega) (w.sc, w.y)
    (cBnmBody m off h ((Nmax : Int) + 1))
    (fun k st => st.2.length = Nmax + 1 ∧ st.1.length = w.sc.length ∧
      (∀ n : ℕ, m.natAbs ≤ n → (n : Int) < k → rd st.1 (off + (n - m.natAbs)) = bval A m n) ∧
      ∀ i, i < off ∨ off + (Nmax - m.natAbs) < i → rd st.1 i = rd w.sc i)
    ⟨hy, rfl, fun n h1 h2 => by omega, fun i _ => rfl⟩
    (by
      rintro k ⟨sc, y⟩ h1 h2 ⟨yl, scl, sv, so⟩
      obtain ⟨n, rfl⟩ := Int.eq_ofNat_of_zero_le (show 0 ≤ k by omega)
      simp only at yl scl sv so
      obtain ⟨y', yl', eb⟩ := cBnmBody_spec A Nmax m off h hl hv sc y yl n (by omega) (by omega) (by omega)
      refine ⟨_, eb, yl', by simpa using scl, fun n' a b => ?_, fun i hi => ?_⟩
      · simp only
        rw [rd_set' _ _ _ _ (by omega)]
        by_cases hnn : n' = n
        · subst hnn; rw [if_pos rfl]
        · rw [if_neg (by omega), sv n' a (by omega)]
      · simp only
        rw [rd_set' _ _ _ _ (by omega), if_neg (by omega), so i hi])
  rw [e2]
  exact ⟨_, rfl, hl, fl', hi.1, hi.2.1, fun n h1 h2 => hi.2.2.1 n h1 (by omega), hi.2.2.2⟩

end Verif
