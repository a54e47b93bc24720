import Verif.Props.Transforms3
import Verif.FloatSlow
/-!
# Property C128: the slow transforms

`spht_slow` and `ispht_slow` (spherepy.py 1968-2018, 2141-2182) do not make the checks of `spht` and `ispht`, although the documentation of `spht_slow` promises them.
What they return where the fast transforms refuse.
-/
namespace Verif
open Finset

namespace Slow

theorem main (D : Arr2 ℂ) (hR : D.rows % 2 = 0) (hR0 : 0 < D.rows) (hC : D.cols % 2 = 0) (n m : ℕ) (hmn : m ≤ n) (hm : m < D.cols) :
    ∃ c, sphtSlow ⟨.arr D⟩ n m = .ok c ∧ c.nmax = n ∧ c.mmax = m ∧ c.WF ∧
      ∀ n' m' : ℤ, IsMode n m n' m' → c.absMap n' m' = some (bF (D.rows / 2 + 1) (sing D m') m' n'.toNat) := by
  obtain ⟨G, eG, hGr, hGc, -, hny, hb⟩ := sph_prep D hR hR0 (by omega)
  obtain ⟨v, ev, hv⟩ := fcToSc_spec G n m (by omega) (by omega) hmn (by omega) hny
  have hv' : SegVec (n + 1) v (2 * m + 1) (fun m n => bF (D.rows / 2 + 1) (sing D m) m n) :=
    ⟨hv.1, fun m' n' h1 h2 h3 => by rw [hv.2 m' n' h1 h2 h3, hb]⟩
  obtain ⟨ei, hw, hr⟩ := segvec_obj hmn hv'
  refine ⟨⟨v, n, m⟩, ?_, rfl, rfl, hw, hr⟩
  unfold sphtSlow
  have e3 : SPatt.dsphere (⟨.arr D⟩ : SPatt ℂ) = .ok D := rfl
  rw [if_neg (by omega), e3]
  simp only [Except.bind_ok]
  rw [if_neg (by omega)]
  obtain ⟨E, eE, -⟩ := extFourier_spec D hR hR0 (by omega)
  rw [eE] at eG ⊢
  simp only [Except.bind_ok] at eG ⊢
  rw [eG]
  simp only [Except.bind_ok]
  rw [ev]
  exact ei

theorem bnm_index (A : Arr2 ℂ) (Nmax : ℕ) (hL : A.rows % 2 = 0) (hL0 : 0 < A.rows) : Res.Raises (bnmVecFc A Nmax A.cols) .indexError := by
  unfold bnmVecFc
  obtain ⟨Q, eQ, hQ, -, -⟩ := spf_loopEq.least (by simp) (A.rows + Nmax) (by omega)
  have eQ' : smallestPrimeFactor ((A.rows : ℤ) + Nmax) = some (Q : ℤ) := by
    unfold smallestPrimeFactor; exact_mod_cast eQ
  rw [eQ']
  simp only [orDiverge, Except.bind_ok]
  obtain ⟨s, es, hs⟩ := sData_spec A.rows Nmax Q hL hL0 hQ
  rw [es]
  simp only [Except.bind_ok]
  unfold hkmFc colOf
  rw [if_neg (by omega)]
  exact ⟨_, rfl⟩

theorem fcToSc_index (A : Arr2 ℂ) (n m : ℕ) (hL : A.rows % 2 = 0) (hL0 : 0 < A.rows) (hC : 0 < A.cols) (hmn : m ≤ n) (hm : A.cols ≤ m) (hny : ∀ m, fAt A m (A.rows / 2) = 0) :
    Res.Raises (fcToSc A n m) .indexError := by
  obtain ⟨v, ev, -⟩ := fcToSc_spec A n (A.cols - 1) hL hL0 (by omega) (by omega) hny
  unfold fcToSc at ev ⊢
  cases h0 : bnmVecFc A n 0 with
  | error e => rw [h0] at ev; cases ev
  | ok u =>
    rw [h0] at ev
    simp only [Except.bind_ok] at ev ⊢
    obtain ⟨d, hd⟩ : ∃ d : ℕ, (m : ℤ) + 1 = (A.cols + 1 : ℤ) + d := ⟨m - A.cols, by omega⟩
    rw [show ((A.cols - 1 : ℕ) : ℤ) + 1 = (A.cols : ℤ) by omega] at ev
    have key : ∀ d : ℕ, Res.Raises (forM' (pyRange 1 ((A.cols + 1 : ℤ) + d)) u (fun c m =>
        (bnmVecFc A n (-m)).bind fun a => (bnmVecFc A n m).bind fun b => .ok (c ++ a ++ b))) .indexError := by
      intro d
      induction d with
      | zero =>
        rw [show (A.cols + 1 : ℤ) + (0 : ℕ) = (A.cols : ℤ) + 1 by omega, pyRange_succ (by omega), forM'_append, ev]
        simp only [Except.bind_ok]
        obtain ⟨w, ew, -⟩ := bnmVecFc_spec A n (-(A.cols : ℤ)) hL hL0 (by omega) (by omega) (hny _) (by omega)
        obtain ⟨msg, e⟩ := bnm_index A n hL hL0
        refine ⟨msg, ?_⟩
        show ((bnmVecFc A n (-(A.cols : ℤ))).bind fun a => (bnmVecFc A n A.cols).bind fun b => .ok (v ++ a ++ b)).bind _ = _
        rw [ew]
        simp only [Except.bind_ok]
        rw [e]
        rfl
      | succ d ih =>
        obtain ⟨msg, e⟩ := ih
        rw [show (A.cols + 1 : ℤ) + (d + 1 : ℕ) = ((A.cols + 1 : ℤ) + d) + 1 by omega, pyRange_succ (by omega), forM'_append, e]
        exact ⟨msg, rfl⟩
    rw [hd]
    exact key d

theorem col_spec (spvec : List ℂ) (nmax mmax r c : ℕ) (hM : mmax ≤ nmax) (hr : nmax + 1 ≤ r)
    (hl : spvec.length = seg (nmax + 1) (2 * mmax + 1)) (A : Arr2 ℂ) (hA : A.rows = r) (hA' : A.cols = c) (m : ℤ)
    (hm : m.natAbs ≤ mmax) (hc1 : -(c : ℤ) ≤ m) (hc2 : m < c) :
    scToFcCol spvec nmax mmax r A m = .ok (Arr2.ofFn r c fun i j =>
      if j = (m % c).toNat then colEntry (Gval (cfOf spvec nmax) nmax m) r i else A.at' i j) := by
  unfold scToFcCol
  have habs : |m| = (m.natAbs : ℤ) := Int.abs_eq_natAbs m
  have em := mindx_eq (m := m) (nmax := nmax) (mmax := mmax) (by unfold iabs; omega) (by omega)
  rw [em]
  simp only [Except.bind_ok]
  rw [show ((nmax : ℤ) + 1).toNat = nmax + 1 by omega]
  have hb : seg (nmax + 1) (ord m) + (nmax - m.natAbs + 1) ≤ spvec.length := by
    rw [hl]
    have h1 : ord m + 1 ≤ 2 * mmax + 1 := by have := ord_le m; omega
    have h2 := seg_mono (nmax + 1) h1
    have h3 : (ord m + 1) / 2 = m.natAbs := (natAbs_eq_ord m).symm
    rw [seg_succ, h3] at h2
    omega
  have hlen : (getSlice spvec (seg (nmax + 1) (ord m) : ℤ) ((seg (nmax + 1) (ord m) : ℤ) + nmax - |m| + 1)).length
      = nmax - m.natAbs + 1 := by
    rw [habs, length_getSlice (by omega) (by omega) (by omega)]; omega
  obtain ⟨F, eF, fl, fr⟩ := fcvecMSc_spec (getSlice spvec (seg (nmax + 1) (ord m) : ℤ) ((seg (nmax + 1) (ord m) : ℤ) + nmax - |m| + 1))
    (cfOf spvec nmax) m nmax r hr (by omega) hlen (by
      intro n h1 h2
      rw [habs, rd_getSlice (by omega) (by omega) (by omega) _ (by omega)]
      rfl)
  rw [eF]
  simp only [Except.bind_ok]
  unfold setColumn
  rw [if_neg (by omega), if_neg (by omega)]
  have hw : Arr2.wrap A.cols m = (m % c).toNat := by
    rw [hA', wrap_mod (by omega) (by omega)]; unfold Arr2.wrap; split <;> rfl
  rw [hw, hA, hA']
  congr 1
  refine Arr2.ext' rfl rfl fun i j hi hj => ?_
  simp only [Arr2.rows_ofFn, Arr2.cols_ofFn] at hi hj
  rw [Arr2.at'_ofFn hi hj, Arr2.at'_ofFn hi hj, if_pos fl, fr i hi]

/-- The Fourier array when there are too few columns: only the orders `-H .. H-1` are there. -/
theorem fourier (spvec : List ℂ) (nmax mmax r H : ℕ) (hM : mmax ≤ nmax) (hr : nmax + 1 ≤ r) (hH : 0 < H) (hc : H ≤ mmax)
    (hl : spvec.length = seg (nmax + 1) (2 * mmax + 1)) :
    ∃ A, scToFc spvec nmax mmax r (2 * H : ℕ) = .ok A ∧ A.rows = r ∧ A.cols = 2 * H ∧
      ∀ (m : ℤ) (i : ℕ), -(H : ℤ) ≤ m → m < H → i < r → A.at' i (m % (2 * H : ℕ)).toNat = colEntry (Gval (cfOf spvec nmax) nmax m) r i := by
  unfold scToFc npZeros2
  rw [if_neg (by omega)]
  simp only [Except.bind_ok, Int.toNat_natCast]
  have hh : halfTrunc (2 * H : ℕ) = (H : ℤ) := by unfold halfTrunc; rw [Int.tdiv_eq_ediv_of_nonneg (by omega)]; omega
  rw [hh]
  have inj : ∀ m m' : ℤ, -(H : ℤ) ≤ m → m < H → -(H : ℤ) ≤ m' → m' < H → (m % (2 * H : ℕ)).toNat = (m' % (2 * H : ℕ)).toNat → m = m' := by
    intro m m' h1 h2 h3 h4 e
    by_contra hne
    refine slot_ne hne ?_ e
    rw [abs_lt]; omega
  obtain ⟨A, eA, hi⟩ := forM'_range_inv (a := 0) (b := (H : ℤ)) (by omega)
    (Arr2.ofFn r (2 * H) (fun _ _ => (0 : ℂ))) (scToFcBody spvec nmax mmax r)
    (fun k A => A.rows = r ∧ A.cols = 2 * H ∧ ∀ (m : ℤ) (i : ℕ), -k ≤ m → m < k → i < r →
        A.at' i (m % (2 * H : ℕ)).toNat = colEntry (Gval (cfOf spvec nmax) nmax m) r i)
    ⟨rfl, rfl, fun m i h1 h2 => by omega⟩
    (by
      intro k A h1 h2 ⟨ar, ac, av⟩
      unfold scToFcBody
      rw [if_pos (by omega), col_spec spvec nmax mmax r (2 * H) hM hr hl A ar ac k (by omega) (by omega) (by omega)]
      simp only [Except.bind_ok]
      rw [col_spec spvec nmax mmax r (2 * H) hM hr hl _ rfl rfl (-(k + 1)) (by omega) (by omega) (by omega)]
      simp only [Except.bind_ok]
      rw [if_neg (by omega)]
      refine ⟨_, rfl, rfl, rfl, fun m i g1 g2 hi => ?_⟩
      rw [Arr2.at'_ofFn hi (slot_lt' (by omega) _), Arr2.at'_ofFn hi (slot_lt' (by omega) _)]
      by_cases e1 : m = -(k + 1)
      · subst e1; rw [if_pos rfl]
      · rw [if_neg (fun h => e1 (inj _ _ (by omega) (by omega) (by omega) (by omega) h))]
        by_cases e2 : m = k
        · subst e2; rw [if_pos rfl]
        · rw [if_neg (fun h => e2 (inj _ _ (by omega) (by omega) (by omega) (by omega) h)), av m i (by omega) (by omega) hi])
  exact ⟨A, eA, hi.1, hi.2.1, hi.2.2⟩

theorem fourier_fAt {spvec : List ℂ} {nmax r H M : ℕ} {A : Arr2 ℂ} (ar : A.rows = r) (ac : A.cols = 2 * H)
    (av : ∀ (m : ℤ) (i : ℕ), -(H : ℤ) ≤ m → m < H → i < r → A.at' i (m % (2 * H : ℕ)).toNat = colEntry (Gval (cfOf spvec nmax) nmax m) r i)
    (hr : r = 2 * M) (hM : nmax < M) (m ν : ℤ) (hν : |ν| ≤ M) (h1 : -(H : ℤ) ≤ m) (h2 : m < H) :
    fAt A m ν = Gval (cfOf spvec nmax) nmax m ν := by
  rw [abs_le] at hν
  unfold Verif.fAt
  rw [ar, ac, av m _ h1 h2 (slot_lt' (by omega) _), wrap_mod (by omega) (by omega)]
  unfold colEntry
  rw [if_pos (show r % 2 = 0 by omega)]
  by_cases hneg : ν < 0
  · rw [if_pos hneg]
    by_cases he : ν = -M
    · rw [if_neg (by omega), Gval_support _ _ _ _ (by rw [abs_of_nonneg (by omega)]; omega),
        Gval_support _ _ _ ν (by rw [abs_of_neg (by omega)]; omega)]
    · rw [if_pos (by omega)]
      congr 1; omega
  · rw [if_neg hneg, if_neg (by omega)]
    congr 1; omega

end Slow

namespace Props
open Slow

/-- **C128 (agreement).** Where the checks of `spht` and `ispht` pass, the slow transforms return exactly what the fast ones return, with either backend. -/
theorem c128_agree (b : Backend) (D : Arr2 ℂ) (hR : D.rows % 2 = 0) (hR0 : 0 < D.rows) (hsz : D.rows ≤ 2 ^ 29) (n m : ℤ) (h0 : 0 ≤ m) (c : ScalarCoefs ℂ)
    (h : spht b ⟨.arr D⟩ (some n) (some m) = .ok c) : sphtSlow ⟨.arr D⟩ n m = .ok c := by
  have h' : spht .py ⟨.arr D⟩ (some n) (some m) = .ok c := by
    cases b with
    | py => exact h
    | c J => rw [← c28_spht J D hR hR0 hsz n m h0]; exact h
  refine c28_spht_slow _ n m c (fun E hE => ?_) h'
  injection hE with hE
  rw [← hE]; exact hR

/-- **C128 (analysis without the limit on nmax).** `spht_slow` accepts every `nmax`, however large, and still returns the projections of the interpolant of the (symmetric) pattern onto the
spherical harmonics, as C31 says of `spht` below its limit. -/
theorem c128_projection (D : Arr2 ℂ) (hR : D.rows % 2 = 0) (hR0 : 0 < D.rows) (hC : D.cols % 2 = 0) (hsym : DSym 1 D) (n m : ℤ) (h0 : 0 ≤ m) (hmn : m ≤ n) (hm : 2 * m < D.cols) :
    ∃ c, sphtSlow ⟨.arr D⟩ n m = .ok c ∧ c.WellFormed ∧ c.nmax = n ∧ c.mmax = m ∧ ∀ k l : ℤ, IsMode n m k l →
      readMap c k l = some (sphInt fun θ φ => interpolant D θ φ * (starRingEnd ℂ) (sphY k.toNat l θ φ)) := by
  obtain ⟨n', rfl⟩ := Int.eq_ofNat_of_zero_le (show 0 ≤ n by omega)
  obtain ⟨m', rfl⟩ := Int.eq_ofNat_of_zero_le h0
  obtain ⟨c, e, e1, e2, hw, hv⟩ := main D hR hR0 hC n' m' (by omega) (by omega)
  refine ⟨c, e, ScalarCoefs.wf_iff.1 hw, e1, e2, fun k l hk => ?_⟩
  rw [readMap_eq hw, hv k l hk, spht_integral D hsym (by omega)]
  congr 1
  have hint : ∀ θ φ, interpolant D θ φ =
      ∑ l ∈ Ioo (-((D.cols / 2 : ℕ) : ℤ)) (D.cols / 2 : ℕ), trigSum (D.rows / 2) (fhat D l) θ * Complex.exp (l * (φ * Complex.I)) := by
    intro θ φ
    unfold interpolant trigPoly trigSum
    refine sum_congr rfl fun l _ => ?_
    rw [sum_mul]
    refine sum_congr rfl fun ν hν => ?_
    rw [mem_Ioo] at hν
    unfold fhat
    rw [if_pos (by rw [abs_lt]; exact hν)]
  simp only [hint]
  rw [sphInt_poly _ (fun l θ => trigSum (D.rows / 2) (fhat D l) θ) (fun l => continuous_trigSum _ _), if_pos]
  obtain ⟨-, -, -, g⟩ := hk
  rw [abs_le] at g
  rw [mem_Ioo]; omega

/-- **C128 (too large mmax).** For `ncols/2 ≤ mmax < ncols` `spht_slow` still returns: the coefficients of an order `l` that differs from an order `l₀` below `ncols/2` by a multiple of `ncols` are
the projections of the interpolant with that order shifted to `l` - what the pattern has at order `l₀` is reported again at order `l`. -/
theorem c128_alias (D : Arr2 ℂ) (hR : D.rows % 2 = 0) (hR0 : 0 < D.rows) (hC : D.cols % 2 = 0) (hsym : DSym 1 D) (n m : ℤ) (h0 : 0 ≤ m) (hmn : m ≤ n) (hm : m < D.cols) :
    ∃ c, sphtSlow ⟨.arr D⟩ n m = .ok c ∧ c.WellFormed ∧ c.nmax = n ∧ c.mmax = m ∧ ∀ k l l₀ : ℤ, IsMode n m k l → 2 * |l₀| < D.cols → (l - l₀) % D.cols = 0 →
      readMap c k l = some (sphInt fun θ φ => interpolant D θ φ * Complex.exp ((l - l₀ : ℤ) * (φ * Complex.I)) * (starRingEnd ℂ) (sphY k.toNat l θ φ)) := by
  obtain ⟨n', rfl⟩ := Int.eq_ofNat_of_zero_le (show 0 ≤ n by omega)
  obtain ⟨m', rfl⟩ := Int.eq_ofNat_of_zero_le h0
  obtain ⟨c, e, e1, e2, hw, hv⟩ := main D hR hR0 hC n' m' (by omega) (by omega)
  refine ⟨c, e, ScalarCoefs.wf_iff.1 hw, e1, e2, fun k l l₀ hk hl hd => ?_⟩
  rw [readMap_eq hw, hv k l hk, spht_integral D hsym (by omega)]
  congr 1
  have hl' : 2 * l₀ < D.cols ∧ -(D.cols : ℤ) < 2 * l₀ := by
    have := le_abs_self l₀
    have := neg_abs_le l₀
    constructor <;> omega
  have hfh : fhat D l = fhat D l₀ := by
    funext ν
    rw [← fhat_emod D ν l, ← fhat_emod D ν l₀, Int.emod_emod_of_dvd _ (dvd_refl _) |>.symm, (Int.emod_emod_of_dvd l₀ (dvd_refl (D.cols : ℤ))).symm]
    rw [(Int.emod_eq_emod_iff_emod_sub_eq_zero).2 hd]
  set d := l - l₀ with hdd
  set H := D.cols / 2 with hH
  have hint : ∀ θ φ, interpolant D θ φ * Complex.exp (d * (φ * Complex.I)) =
      ∑ l ∈ Ioo (-((H + d.natAbs : ℕ) : ℤ)) (H + d.natAbs : ℕ),
        (if l - d ∈ Ioo (-(H : ℤ)) H then trigSum (D.rows / 2) (fhat D (l - d)) θ else 0) * Complex.exp (l * (φ * Complex.I)) := by
    intro θ φ
    have e1 : interpolant D θ φ = ∑ l ∈ Ioo (-(H : ℤ)) H, trigSum (D.rows / 2) (fhat D l) θ * Complex.exp (l * (φ * Complex.I)) := by
      unfold interpolant trigPoly trigSum
      refine sum_congr rfl fun l _ => ?_
      rw [sum_mul]
      refine sum_congr rfl fun ν hν => ?_
      rw [mem_Ioo] at hν
      unfold fhat
      rw [if_pos (by rw [abs_lt]; exact hν)]
    rw [e1, sum_mul]
    simp only [ite_mul, zero_mul]
    rw [← sum_filter]
    refine sum_bij' (fun l _ => l + d) (fun l _ => l - d) ?_ ?_ ?_ ?_ ?_
    · intro l hl
      rw [mem_Ioo] at hl
      rw [mem_filter, mem_Ioo, mem_Ioo]
      omega
    · intro l hl
      exact (mem_filter.1 hl).2
    · intro l _; omega
    · intro l _; omega
    · intro l _
      rw [add_sub_cancel_right, mul_assoc, ← Complex.exp_add]
      congr 2
      push_cast
      ring
  simp only [hint]
  rw [sphInt_poly (H + d.natAbs) (fun l θ => if l - d ∈ Ioo (-(H : ℤ)) H then trigSum (D.rows / 2) (fhat D (l - d)) θ else 0)
    (fun l => by by_cases g : l - d ∈ Ioo (-(H : ℤ)) H
                 · simp only [if_pos g]; exact continuous_trigSum _ _
                 · simp only [if_neg g]; exact continuous_const), if_pos (by rw [mem_Ioo]; omega)]
  have hin : l - d ∈ Ioo (-(H : ℤ)) H := by rw [mem_Ioo]; omega
  simp only [if_pos hin]
  rw [show l - d = l₀ by omega, hfh]

/-- **C128 (still larger mmax).** For `mmax ≥ ncols` it raises IndexError, for `mmax > nmax` or odd sizes ValueError. -/
theorem c128_errors (D : Arr2 ℂ) (n m : ℤ) (h0 : 0 ≤ m) :
    (m > n → Res.Raises (sphtSlow ⟨.arr D⟩ n m) .valueError) ∧ (D.rows % 2 = 1 ∨ D.cols % 2 = 1 → Res.Raises (sphtSlow ⟨.arr D⟩ n m) .valueError) ∧
    (D.rows % 2 = 0 → 0 < D.rows → D.cols % 2 = 0 → 0 < D.cols → m ≤ n → D.cols ≤ m → Res.Raises (sphtSlow ⟨.arr D⟩ n m) .indexError) := by
  have e3 : SPatt.dsphere (⟨.arr D⟩ : SPatt ℂ) = .ok D := rfl
  refine ⟨fun h => ?_, fun h => ?_, fun hR hR0 hC hC0 hmn hm => ?_⟩
  · unfold sphtSlow
    rw [if_pos h]
    exact ⟨_, rfl⟩
  · unfold sphtSlow
    split
    · exact ⟨_, rfl⟩
    · rw [e3]
      simp only [Except.bind_ok]
      rw [if_pos h]
      exact ⟨_, rfl⟩
  · obtain ⟨n', rfl⟩ := Int.eq_ofNat_of_zero_le (show 0 ≤ n by omega)
    obtain ⟨m', rfl⟩ := Int.eq_ofNat_of_zero_le h0
    obtain ⟨G, eG, hGr, hGc, -, hny, hb⟩ := sph_prep D hR hR0 hC0
    obtain ⟨msg, e⟩ := fcToSc_index G n' m' (by omega) (by omega) (by omega) (by omega) (by omega) hny
    refine ⟨msg, ?_⟩
    unfold sphtSlow
    rw [if_neg (by omega), e3]
    simp only [Except.bind_ok]
    rw [if_neg (by omega)]
    obtain ⟨E, eE, -⟩ := extFourier_spec D hR hR0 hC0
    rw [eE] at eG ⊢
    simp only [Except.bind_ok] at eG ⊢
    rw [eG]
    simp only [Except.bind_ok]
    rw [e]
    rfl

/-- **C128 (the promised ValueError is not raised).** For every pattern and every `nmax ≥ nrows - 1`, or `mmax` with `ncols ≤ 2 mmax < 2 ncols`, `spht` raises ValueError, as its
documentation and that of `spht_slow` say; `spht_slow` returns a set. -/
theorem c128_counterexample (D : Arr2 ℂ) (hR : D.rows % 2 = 0) (hR0 : 0 < D.rows) (hC : D.cols % 2 = 0) (n m : ℤ) (h0 : 0 ≤ m) (hmn : m ≤ n) (hm : m < D.cols)
    (h : ((D.rows / 2 + 1 : ℕ) : ℤ) - 1 ≤ n ∨ (D.cols : ℤ) ≤ 2 * m) (b : Backend) :
    Res.Raises (spht b ⟨.arr D⟩ (some n) (some m)) .valueError ∧ ∃ c, sphtSlow ⟨.arr D⟩ n m = .ok c ∧ c.WellFormed ∧ c.nmax = n ∧ c.mmax = m := by
  refine ⟨c35_rejects b D n m (by omega), ?_⟩
  obtain ⟨n', rfl⟩ := Int.eq_ofNat_of_zero_le (show 0 ≤ n by omega)
  obtain ⟨m', rfl⟩ := Int.eq_ofNat_of_zero_le h0
  obtain ⟨c, e, e1, e2, hw, -⟩ := main D hR hR0 hC n' m' (by omega) (by omega)
  exact ⟨c, e, ScalarCoefs.wf_iff.1 hw, e1, e2⟩

/-- **C128 (synthesis, agreement).** -/
theorem c128_synth_agree (b : Backend) (c : ScalarCoefs ℂ) (hc : c.WellFormed) (nr nc : ℤ) (hx : ¬ (c.nmax = 0 ∧ nr = 1)) (p : SPatt ℂ) (h : ispht b c (some nr) (some nc) = .ok p) :
    isphtSlow c nr nc = .ok p := by
  refine c28_ispht_slow c nr nc p ?_
  cases b with
  | py => exact h
  | c J => rw [← c28_ispht J c hc nr nc hx]; exact h

/-- **C128 (synthesis with too few columns).** With an even `ncols ≤ 2 mmax`, which `ispht` refuses (C36), `ispht_slow` returns the samples of the series from which every order outside
`-ncols/2 .. ncols/2 - 1` has been left out. -/
theorem c128_synth (c : ScalarCoefs ℂ) (hc : c.WellFormed) (v : ℤ → ℤ → ℂ) (hv : HasCoefs c v) (nr nc : ℤ) (h1 : c.nmax + 2 ≤ nr) (h2 : 0 < nc) (h2' : nc ≤ 2 * c.mmax) (h3 : nc % 2 = 0) :
    ∃ p A, isphtSlow c nr nc = .ok p ∧ p.array = .ok A ∧ A.rows = nr ∧ A.cols = nc ∧ ∀ i j : ℕ, i < A.rows → j < A.cols →
      A.at' i j = shSeries c.nmax c.mmax (fun n m => if -nc ≤ 2 * m ∧ 2 * m < nc then v n m else 0) (Real.pi * i / ((nr : ℝ) - 1)) (2 * Real.pi * j / nc) := by
  have h := hc.wf
  obtain ⟨nmax, hn⟩ := Int.eq_ofNat_of_zero_le (le_trans h.m0 h.mn)
  obtain ⟨mmax, hm⟩ := Int.eq_ofNat_of_zero_le h.m0
  have hmn := h.mn
  rw [hn, hm] at hmn
  obtain ⟨H, rfl⟩ : ∃ H : ℕ, nc = (2 * H : ℕ) := ⟨(nc / 2).toNat, by omega⟩
  obtain ⟨r, rfl⟩ := Int.eq_ofNat_of_zero_le (show 0 ≤ nr by omega)
  have hlen : c.vec.length = seg (nmax + 1) (2 * mmax + 1) := by
    have := h.len
    have e := ncFormula_eq (nmax := nmax) (mmax := mmax) (by omega) (by omega)
    rw [hn, hm, e, show ((nmax : ℤ) + 1).toNat = nmax + 1 by omega, Int.toNat_natCast] at this
    exact_mod_cast this
  obtain ⟨A, eA, ar, ac, av⟩ := fourier c.vec nmax mmax (2 * r - 2) H (by omega) (by omega) (by omega) (by omega) hlen
  obtain ⟨D, eD, hDr, hDc, hDv, -⟩ := invFourier_spec A (2 * r - 2) (2 * H) ar ac (by omega) (by omega)
  refine ⟨⟨.arr D⟩, _, ?_, rfl, ?_, ?_, fun i j hi hj => ?_⟩
  · unfold isphtSlow
    simp only
    rw [if_neg (by omega), hn, hm, show 2 * (r : ℤ) - 2 = ((2 * r - 2 : ℕ) : ℤ) by omega, eA]
    simp only [Except.bind_ok]
    rw [eD]
    rfl
  · show ((min (D.rows / 2 + 1) D.rows : ℕ) : ℤ) = r
    omega
  · exact_mod_cast hDc
  · have hi' : i < min (D.rows / 2 + 1) D.rows := hi
    have hj' : j < D.cols := hj
    have hr1 : (r : ℝ) - 1 ≠ 0 := by
      have : (2 : ℝ) ≤ r := by exact_mod_cast (show 2 ≤ r by omega)
      linarith
    have eθ : Real.pi * i / ((r : ℝ) - 1) = 2 * Real.pi * i / ((2 * r - 2 : ℕ) : ℝ) := by
      rw [Nat.cast_sub (by omega)]
      push_cast
      rw [show 2 * (r : ℝ) - 2 = 2 * (r - 1) by ring]
      field_simp
    unfold Arr2.takeRows
    rw [Arr2.at'_ofFn hi' hj', hDv i j (by omega) (by omega)]
    push_cast only [Int.cast_natCast]
    rw [eθ]
    unfold shSeries
    rw [hn, hm, sum_modes nmax mmax (fun n m => (if -((2 * H : ℕ) : ℤ) ≤ 2 * m ∧ 2 * m < (2 * H : ℕ) then v n m else 0) *
      sphY n.toNat m (2 * Real.pi * i / ((2 * r - 2 : ℕ) : ℝ)) (2 * Real.pi * j / ((2 * H : ℕ) : ℝ))), sum_comm]
    set θ := 2 * Real.pi * i / ((2 * r - 2 : ℕ) : ℝ)
    -- the Nyquist column belongs to order -H
    have hper : ∀ ν : ℤ, fAt A H ν * root (2 * H) (j * H) = fAt A (-H) ν * root (2 * H) (j * (-H : ℤ)) := by
      intro ν
      have e1 : fAt A H ν = fAt A (-H) ν := by
        unfold fAt
        rw [ac]
        congr 2
        rw [show (H : ℤ) = -H + ((2 * H : ℕ) : ℤ) by push_cast; ring, Int.add_emod_right]
        congr 1; push_cast; ring
      have e2 : root (2 * H) (j * H) = root (2 * H) (j * (-H : ℤ)) := by
        rw [show (j : ℤ) * H = j * (-H : ℤ) + ((2 * H : ℕ) : ℤ) * j by push_cast; ring, root_add_mul]
      rw [e1, e2]
    have e : ∀ m : ℤ, -(H : ℤ) ≤ m → m < H →
        ∑ ν ∈ Ioc (-((2 * r - 2 - 1) / 2 : ℕ) - 1 : ℤ) ((2 * r - 2) / 2 : ℕ), fAt A m ν * root (2 * r - 2) (i * ν) * root (2 * H) (j * m) =
        ∑ n ∈ Icc m.natAbs nmax, v n m * sphY n m θ (2 * Real.pi * j / ((2 * H : ℕ) : ℝ)) := by
      intro m g1 g2
      rw [← sum_mul]
      have hf : ∀ ν ∈ Ioc (-((2 * r - 2 - 1) / 2 : ℕ) - 1 : ℤ) ((2 * r - 2) / 2 : ℕ), fAt A m ν * root (2 * r - 2) (i * ν) =
          Gval (cfOf c.vec nmax) nmax m ν * Complex.exp (ν * (θ * Complex.I)) := by
        intro ν hν
        rw [mem_Ioc] at hν
        rw [fourier_fAt ar ac av (M := r - 1) (by omega) (by omega) m ν (by rw [abs_le]; omega) g1 g2, root_exp]
      rw [sum_congr rfl hf, Gval_sum _ _ _ _ _ (by
        intro k hk
        rw [mem_Ioc, not_and_or] at hk
        rw [lt_abs]; omega), sum_mul]
      refine sum_congr rfl fun n hnn => ?_
      have := mem_Icc.mp hnn
      rw [cfOf_eq h hn hm (by omega) (by omega) (by omega), hv.cf hc ⟨by omega, by omega, by rw [Int.abs_eq_natAbs]; omega, by rw [Int.abs_eq_natAbs]; omega⟩, root_exp]
      unfold sphY
      push_cast
      ring
    have hset : Ioc (-((2 * H - 1) / 2 : ℕ) - 1 : ℤ) ((2 * H) / 2 : ℕ) = insert (H : ℤ) (Ioo (-(H : ℤ)) H) := by
      ext m
      rw [mem_insert, mem_Ioc, mem_Ioo]; omega
    rw [hset, sum_insert (by simp)]
    have eN : ∑ ν ∈ Ioc (-((2 * r - 2 - 1) / 2 : ℕ) - 1 : ℤ) ((2 * r - 2) / 2 : ℕ), fAt A H ν * root (2 * r - 2) (i * ν) * root (2 * H) (j * H) =
        ∑ n ∈ Icc (-(H : ℤ)).natAbs nmax, v n (-H) * sphY n (-H) θ (2 * Real.pi * j / ((2 * H : ℕ) : ℝ)) := by
      rw [← e (-H) le_rfl (by omega)]
      refine sum_congr rfl fun ν _ => ?_
      have := hper ν
      linear_combination root (2 * r - 2) (i * ν) * this
    rw [eN, sum_congr rfl fun m hm => e m (by rw [mem_Ioo] at hm; omega) (by rw [mem_Ioo] at hm; omega)]
    rw [← sum_insert (f := fun m : ℤ => ∑ n ∈ Icc m.natAbs nmax, v n m * sphY n m θ (2 * Real.pi * j / ((2 * H : ℕ) : ℝ))) (by simp)]
    symm
    refine (sum_subset (fun m hm => ?_) fun m hm1 hm2 => ?_).symm.trans (sum_congr rfl fun m hm => sum_congr rfl fun n _ => ?_)
    · rw [mem_insert, mem_Ioo] at hm
      rw [mem_Icc]; omega
    · refine sum_eq_zero fun n _ => ?_
      rw [if_neg, zero_mul]
      rw [mem_insert, mem_Ioo] at hm2
      omega
    · rw [mem_insert, mem_Ioo] at hm
      rw [if_pos (by omega), Int.toNat_natCast]

/-- **C128 (doubles, analysis).** In doubles `spht_slow` returns, bit for bit, what `spht` returns with the Python backend, whenever that returns. -/
theorem c128_doubles (rnd : ℝ → ℝ) (lib : Fl.NumLib rnd) (D : Arr2 (FC rnd)) (hR : D.rows % 2 = 0) (n m : ℤ) (c : ScalarCoefs (FC rnd))
    (h : Fl.spht rnd lib .py ⟨.arr D⟩ (some n) (some m) = .ok c) : Fl.sphtSlow rnd lib ⟨.arr D⟩ n m = .ok c := by
  unfold Fl.spht at h
  have e3 : SPatt.dsphere (⟨.arr D⟩ : SPatt (FC rnd)) = .ok D := rfl
  simp only [sphtArgs, Except.bind_ok, e3] at h
  obtain ⟨_, hg, h⟩ := (res_bind_ok _ _ _).mp h
  obtain ⟨f, hf, h⟩ := (res_bind_ok _ _ _).mp h
  obtain ⟨z, hz, h⟩ := (res_bind_ok _ _ _).mp h
  unfold sphtGuards at hg
  have e1 : SPatt.nrows (⟨.arr D⟩ : SPatt (FC rnd)) = .ok (D.rows / 2 + 1) := rfl
  have e2 : SPatt.ncols (⟨.arr D⟩ : SPatt (FC rnd)) = .ok D.cols := rfl
  rw [e1, e2] at hg
  simp only [Except.bind_ok] at hg
  unfold Fl.sphtSlow
  split at hg
  · cases hg
  rename_i g1
  split at hg
  · cases hg
  split at hg
  · cases hg
  split at hg
  · cases hg
  rename_i g4
  rw [if_neg g1, e3]
  simp only [Except.bind_ok]
  rw [if_neg (by omega), hf]
  exact h

/-- **C128 (doubles, synthesis).** -/
theorem c128_synth_doubles (rnd : ℝ → ℝ) (jp : ℤ → FC rnd) (post : Arr2 (FC rnd) → ℤ → ℤ → Res (Arr2 (FC rnd))) (c : ScalarCoefs (FC rnd)) (nr nc : ℤ) (p : SPatt (FC rnd))
    (h : Fl.ispht rnd jp post .py c (some nr) (some nc) = .ok p) : Fl.isphtSlow rnd jp post c nr nc = .ok p := by
  unfold Fl.ispht at h
  simp only [Option.getD_some] at h
  obtain ⟨_, hg, h⟩ := (res_bind_ok _ _ _).mp h
  unfold isphtGuards at hg
  split at hg
  · cases hg
  split at hg
  · cases hg
  split at hg
  · cases hg
  rename_i g
  unfold Fl.isphtSlow
  simp only
  rw [if_neg g]
  exact h

/-- A concrete case: the 3 x 4 pattern `dsample` at `nmax = 7`, `mmax = 3`, both beyond the limits of `spht`. -/
example : ∃ c, sphtSlow ⟨.arr dsample⟩ 7 3 = .ok c ∧ c.WellFormed ∧ Res.Raises (spht .py ⟨.arr dsample⟩ (some 7) (some 3)) .valueError ∧
    readMap c 5 3 = some (sphInt fun θ φ => interpolant dsample θ φ * Complex.exp ((4 : ℤ) * (φ * Complex.I)) * (starRingEnd ℂ) (sphY 5 3 θ φ)) := by
  obtain ⟨c, e, hw, -, -, hv⟩ := c128_alias dsample (by simp [dsample]) (by simp [dsample]) (by simp [dsample]) dsample_sym 7 3 (by omega) (by omega) (by simp [dsample])
  refine ⟨c, e, hw, (c128_counterexample dsample (by simp [dsample]) (by simp [dsample]) (by simp [dsample]) 7 3 (by omega) (by omega) (by simp [dsample]) (by simp [dsample]) .py).1, ?_⟩
  have h := hv 5 3 (-1) ⟨by omega, by omega, by decide, by decide⟩ (by simp [dsample]) (by simp [dsample])
  rw [show (5 : ℤ).toNat = 5 from rfl, show (3 - -1 : ℤ) = 4 by norm_num] at h
  exact h

end Props
end Verif
