import Verif.Props.FloatSynth2
/-!
# Property C93: the theorems
-/
namespace Verif.Props
open Verif Finset
open Verif.Props.FS
variable {rnd : ℝ → ℝ}

namespace FS

theorem rd_map_val (l : List (FC rnd)) (i : ℕ) : rd (l.map val) i = val (rd l i) := by
  unfold rd
  rw [List.getD_eq_getElem?_getD, List.getD_eq_getElem?_getD, List.getElem?_map]
  cases l[i]? <;> rfl

theorem cfOf_val (l : List (FC rnd)) (N : ℕ) (m : ℤ) (n : ℕ) : cfOf (l.map val) N m n = val (cfF l N m n) := rd_map_val l _

theorem cfF_eq {c : ScalarCoefs (FC rnd)} (h : c.WF) {nmax mmax : ℕ} (hn : c.nmax = nmax) (hm : c.mmax = mmax) {n : ℕ} {m : ℤ}
    (h1 : m.natAbs ≤ n) (h2 : n ≤ nmax) (h3 : m.natAbs ≤ mmax) : readMap c n m = some (cfF c.vec nmax m n) := by
  have hmo : IsMode c.nmax c.mmax n m := ⟨by omega, by omega, by rw [Int.abs_eq_natAbs]; omega, by rw [Int.abs_eq_natAbs]; omega⟩
  have hl := h.slot_lt hmo
  rw [readMap_eq h, ScalarCoefs.absMap_mode h hmo]
  unfold slot at hl ⊢
  simp only [hn, show ((nmax : ℤ) + 1).toNat = nmax + 1 by omega, Int.toNat_natCast] at hl ⊢
  unfold cfF rd
  simp [hl]

/-- The same coefficients as exact numbers. -/
def exactSet (c : ScalarCoefs (FC rnd)) : ScalarCoefs ℂ := ⟨c.vec.map val, c.nmax, c.mmax⟩

theorem exactSet_wf {c : ScalarCoefs (FC rnd)} (h : c.WellFormed) : (exactSet c).WellFormed :=
  ⟨h.mmax_nonneg, h.mmax_le, by unfold exactSet; rw [List.length_map]; exact h.length_eq⟩

theorem exactSet_has {c : ScalarCoefs (FC rnd)} (h : c.WellFormed) {w : ℤ → ℤ → FC rnd} (hw : ∀ n m, IsMode c.nmax c.mmax n m → readMap c n m = some (w n m)) :
    HasCoefs (exactSet c) fun n m => val (w n m) := by
  intro n m hm
  have hm' : IsMode c.nmax c.mmax n m := hm
  have := hw n m hm'
  rw [readMap_eq h.wf, ScalarCoefs.absMap_mode h.wf hm'] at this
  rw [readMap_eq (exactSet_wf h).wf, ScalarCoefs.absMap_mode (exactSet_wf h).wf hm]
  have hl := h.wf.slot_lt hm'
  simp only [exactSet, List.getElem_map, Option.some.injEq] at this ⊢
  rw [← this]

/-- The array of Fourier coefficients, entry by entry. -/
theorem fAt_err (hrd : NoOverflow rnd) {jp : Int → FC rnd} {N M r k : ℕ} (hj : PowNear M jp) (hN : N ≤ 1000) (hMN : M ≤ N) {C : ℝ}
    (hC : 2 ^ (-900 : ℤ) ≤ C) (hC' : C ≤ 2 ^ (900 : ℤ)) (vec : List (FC rnd))
    (hv : ∀ (m : ℤ) (n : ℕ), m.natAbs ≤ n → n ≤ N → m.natAbs ≤ M → |(cfF vec N m n).re| ≤ C ∧ |(cfF vec N m n).im| ≤ C) {Ah : Arr2 (FC rnd)} {A : Arr2 ℂ}
    (hAh : IsSynthF jp vec N M r k Ah) (hA : IsSynth (vec.map val) N M r k A) (hr : 2 * N + 2 ≤ r) (hr2 : r % 2 = 0) (hk : 2 * M + 2 ≤ k)
    (m ν : ℤ) (h1 : ν ∈ Ioc (-((r - 1) / 2 : ℕ) - 1 : ℤ) ((r / 2 : ℕ) : ℤ)) (h2 : m ∈ Ioc (-((k - 1) / 2 : ℕ) - 1 : ℤ) ((k / 2 : ℕ) : ℤ)) :
    ‖fAt (Ah.map val) m ν - fAt A m ν‖ ≤ if ν.natAbs ≤ N ∧ m.natAbs ≤ M then coefErr N C else 0 := by
  rw [mem_Ioc] at h1 h2
  have hi : (ν % r).toNat < r := slot_lt' (by omega) _
  have hj' : (m % k).toNat < k := slot_lt' (by omega) _
  unfold Verif.fAt
  rw [Arr2.rows_map, Arr2.cols_map, hA.rows, hA.cols, hAh.rows, hAh.cols,
    Arr2.at'_map val Ah (by rw [hAh.rows]; exact hi) (by rw [hAh.cols]; exact hj')]
  by_cases hm : m.natAbs ≤ M
  · rw [hAh.val m _ hm hi, hA.val m _ hm hi]
    have e : (cfOf (vec.map val) N) = fun m n => val (cfF vec N m n) := by
      funext m n; exact cfOf_val vec N m n
    rw [e]
    refine (entry_err hrd hj hN hC hC' (cfF vec N) (by omega) (by rw [Int.abs_eq_natAbs]; omega) (fun n a b => hv m n a b hm) r _ hi).trans (le_of_eq ?_)
    refine if_congr ?_ rfl rfl
    rw [wrap_mod (by omega) (by omega)]
    by_cases hneg : ν < 0
    · rw [if_pos hneg]; omega
    · rw [if_neg hneg]; omega
  · rw [if_neg (by omega), wrap_mod (Q := k) (by omega) (by omega)]
    have z : ∀ j, M < j → j + M < k → ‖val (Ah.at' (ν % r).toNat j) - A.at' (ν % r).toNat j‖ ≤ 0 := by
      intro j a b
      rw [hAh.zero _ _ a b, hA.zero _ _ a b, val_zero, sub_zero, norm_zero]
    split
    · exact z _ (by omega) (by omega)
    · exact z _ (by omega) (by omega)

theorem norm_root (n : ℕ) (j : ℤ) : ‖root n j‖ = 1 := by
  unfold root
  rw [show 2 * (Real.pi : ℂ) * Complex.I * j / n = ((2 * Real.pi * j / n : ℝ) : ℂ) * Complex.I by push_cast; ring]
  exact Complex.norm_exp_ofReal_mul_I _

theorem card_abs (N : ℕ) (s : Finset ℤ) : (s.filter fun ν => ν.natAbs ≤ N).card ≤ 2 * N + 1 := by
  refine (card_le_card (t := Icc (-(N : ℤ)) N) fun x hx => ?_).trans (le_of_eq ?_)
  · have := (mem_filter.mp hx).2
    rw [mem_Icc]; omega
  · rw [Int.card_Icc]; omega

/-- Synthesis from two arrays that differ little. -/
theorem sum_err {N M r k : ℕ} {E : ℝ} (hE : 0 ≤ E) (f g : ℤ → ℤ → ℂ) (s t : Finset ℤ)
    (h : ∀ ν ∈ s, ∀ m ∈ t, ‖f m ν - g m ν‖ ≤ if ν.natAbs ≤ N ∧ m.natAbs ≤ M then E else 0) (i j : ℕ) :
    ‖∑ ν ∈ s, ∑ m ∈ t, f m ν * root r (i * ν) * root k (j * m) - ∑ ν ∈ s, ∑ m ∈ t, g m ν * root r (i * ν) * root k (j * m)‖ ≤
      (2 * N + 1) * (2 * M + 1) * E := by
  rw [← sum_sub_distrib]
  have h1 : ∀ ν ∈ s, ‖∑ m ∈ t, f m ν * root r (i * ν) * root k (j * m) - ∑ m ∈ t, g m ν * root r (i * ν) * root k (j * m)‖ ≤
      if ν.natAbs ≤ N then (2 * M + 1) * E else 0 := by
    intro ν hν
    rw [← sum_sub_distrib]
    refine (norm_sum_le _ _).trans ?_
    have : ∀ m ∈ t, ‖f m ν * root r (i * ν) * root k (j * m) - g m ν * root r (i * ν) * root k (j * m)‖ ≤
        if m.natAbs ≤ M then (if ν.natAbs ≤ N then E else 0) else 0 := by
      intro m hm
      rw [← sub_mul, ← sub_mul, norm_mul, norm_mul, norm_root, norm_root, mul_one, mul_one]
      refine (h ν hν m hm).trans (le_of_eq ?_)
      by_cases a : ν.natAbs ≤ N <;> by_cases b : m.natAbs ≤ M <;> simp [a, b]
    refine (sum_le_sum this).trans ?_
    rw [← sum_filter, sum_const, nsmul_eq_mul]
    by_cases a : ν.natAbs ≤ N
    · rw [if_pos a, if_pos a]
      refine mul_le_mul_of_nonneg_right ?_ hE
      exact_mod_cast card_abs M t
    · rw [if_neg a, if_neg a, mul_zero]
  refine (norm_sum_le _ _).trans ((sum_le_sum h1).trans ?_)
  rw [← sum_filter, sum_const, nsmul_eq_mul, mul_assoc]
  refine mul_le_mul_of_nonneg_right ?_ (by positivity)
  exact_mod_cast card_abs N s

end FS

/-- What is assumed of `np.fft.ifft2` and the scaling that follows it, on the array `f`: every entry of the result is within `δ` of the exact one. -/
def FftWithin (post : Arr2 (FC rnd) → Int → Int → Res (Arr2 (FC rnd))) (δ : ℝ) (f : Arr2 (FC rnd)) (dn nc : Int) : Prop :=
  ∃ g g', post f dn nc = .ok g ∧ invFourier (f.map val) dn nc = .ok g' ∧ g.rows = g'.rows ∧ g.cols = g'.cols ∧
    ∀ i j, i < g.rows → j < g.cols → ‖val (g.at' i j) - g'.at' i j‖ ≤ δ

/-- `ispht` in doubles against exact `ispht`, over the whole doubled array. -/
theorem ispht_aux (hrd : NoOverflow rnd) {jp : Int → FC rnd} (b : Backend) (c : ScalarCoefs (FC rnd)) (hc : c.WellFormed)
    (N M : ℕ) (hn : c.nmax = N) (hm : c.mmax = M) (hj : PowFor b M jp) (hN : N ≤ 1000) (w : ℤ → ℤ → FC rnd)
    (hw : ∀ n m, IsMode c.nmax c.mmax n m → readMap c n m = some (w n m)) (C : ℝ) (hC : 2 ^ (-900 : ℤ) ≤ C) (hC' : C ≤ 2 ^ (900 : ℤ))
    (hwC : ∀ n m, IsMode c.nmax c.mmax n m → |(w n m).re| ≤ C ∧ |(w n m).im| ≤ C) (nr nc : ℤ) (h1 : c.nmax + 2 ≤ nr) (h2 : 2 * c.mmax + 2 ≤ nc) (h3 : nc % 2 = 0)
    (post : Arr2 (FC rnd) → Int → Int → Res (Arr2 (FC rnd))) (δ : ℝ)
    (hpost : ∀ f, Fl.backendScToFc rnd jp b 0 c.vec c.nmax c.mmax (2 * nr - 2) nc = .ok f → FftWithin post δ f (2 * nr - 2) nc) :
    ∃ g D, Fl.ispht rnd jp post b c (some nr) (some nc) = .ok ⟨.arr g⟩ ∧ ispht .py (exactSet c) (some nr) (some nc) = .ok ⟨.arr D⟩ ∧
      (g.rows : ℤ) = 2 * nr - 2 ∧ (g.cols : ℤ) = nc ∧ D.rows = g.rows ∧ D.cols = g.cols ∧ ∀ i j : ℕ, i < g.rows → j < g.cols →
      ‖val (g.at' i j) - D.at' i j‖ ≤ δ + (2 * N + 1) * (2 * M + 1) * ((N + 1) * ((N : ℝ) + 4) ^ 3 * 2 ^ (-49 : ℤ) * C * Real.sqrt ((2 * N + 1) / (4 * Real.pi))) := by
  have hwf := hc.wf
  have hm0 := hwf.m0
  have hmn := hwf.mn
  obtain ⟨r, rfl⟩ := Int.eq_ofNat_of_zero_le (show 0 ≤ nr by omega)
  obtain ⟨k, rfl⟩ := Int.eq_ofNat_of_zero_le (show 0 ≤ nc by omega)
  have hlen : c.vec.length = seg (N + 1) (2 * M + 1) := by
    have := hwf.len
    rw [ncFormula_eq (nmax := c.nmax) (mmax := c.mmax) (by omega) (by omega), hn, hm, show ((N : ℤ) + 1).toNat = N + 1 by omega, Int.toNat_natCast] at this
    exact_mod_cast this
  -- the array of Fourier coefficients in doubles
  obtain ⟨Ah, eAh, hAh⟩ := FS.scToFc_spec jp c.vec N M (2 * r - 2) k (by omega) (by omega) (by omega) hlen
  have eB : Fl.backendScToFc rnd jp b 0 c.vec c.nmax c.mmax (2 * (r : ℤ) - 2) k = .ok Ah := by
    have epy : Fl.backendScToFc rnd jp .py 0 c.vec c.nmax c.mmax (2 * (r : ℤ) - 2) k = .ok Ah := by
      rw [hn, hm, show 2 * (r : ℤ) - 2 = ((2 * r - 2 : ℕ) : ℤ) by omega]
      exact eAh
    cases b with
    | py => exact epy
    | c J => rw [FS.py_eq_c hrd (hj.2 (by simp)) J 0 c hwf (by omega) (by omega) _ _ (by omega) (by omega), epy]
  obtain ⟨g, g', eg, eg', gr, gc, hg⟩ := hpost Ah eB
  -- the exact transform
  obtain ⟨A, eA, hA⟩ := Verif.scToFc_spec (c.vec.map val) N M (2 * r - 2) k (by omega) (by omega) (by omega) (by rw [List.length_map]; exact hlen)
  obtain ⟨D, eD, Dr, Dc, hD, -⟩ := invFourier_spec A (2 * r - 2) k hA.rows hA.cols (by omega) (by omega)
  obtain ⟨D', eD', Dr', Dc', hD', -⟩ := invFourier_spec (Ah.map val) (2 * r - 2) k (by rw [Arr2.rows_map, hAh.rows]) (by rw [Arr2.cols_map, hAh.cols]) (by omega) (by omega)
  have hgD : g' = D' := by
    rw [show ((2 * r - 2 : ℕ) : ℤ) = 2 * (r : ℤ) - 2 by omega, eg'] at eD'
    exact Except.ok.inj eD'
  have hpD : ispht .py (exactSet c) (some (r : ℤ)) (some (k : ℤ)) = .ok ⟨.arr D⟩ := by
      unfold ispht
      simp only [Option.getD_some]
      rw [isphtGuards_ok _ _ _ _ (by simp only [exactSet]; omega) (by simp only [exactSet]; omega) (by omega)]
      simp only [Except.bind_ok]
      simp only [exactSet, hn, hm]
      rw [show 2 * (r : ℤ) - 2 = ((2 * r - 2 : ℕ) : ℤ) by omega]
      have : Backend.py.scToFc 0 (c.vec.map val) N M ((2 * r - 2 : ℕ) : ℤ) k = .ok A := eA
      rw [this]
      simp only [Except.bind_ok]
      rw [eD]
      rfl
  rw [hgD] at gr gc hg
  refine ⟨g, D, ?_, hpD, by omega, by omega, by omega, by omega, fun i j hi hj2 => ?_⟩
  · unfold Fl.ispht
    simp only [Option.getD_some]
    rw [isphtGuards_ok _ _ _ _ (by omega) (by omega) (by omega)]
    simp only [Except.bind_ok]
    rw [eB]
    simp only [Except.bind_ok]
    rw [eg]
    rfl
  · have h4 := hg i j (by omega) hj2
    have hvC : ∀ (m : ℤ) (n : ℕ), m.natAbs ≤ n → n ≤ N → m.natAbs ≤ M → |(cfF c.vec N m n).re| ≤ C ∧ |(cfF c.vec N m n).im| ≤ C := by
      intro m n a1 a2 a3
      have hmo : IsMode c.nmax c.mmax n m := ⟨by omega, by omega, by rw [Int.abs_eq_natAbs]; omega, by rw [Int.abs_eq_natAbs]; omega⟩
      have := hw n m hmo
      rw [FS.cfF_eq hwf hn hm a1 a2 a3] at this
      rw [Option.some.inj this]
      exact hwC n m hmo
    have E0 : 0 ≤ coefErr N C := coefErr_nonneg N (le_trans (by positivity) hC)
    have h5 := sum_err (N := N) (M := M) (r := 2 * r - 2) (k := k) E0 (fun m ν => fAt (Ah.map val) m ν) (fun m ν => fAt A m ν) _ _
      (fun ν hν m hm' => fAt_err hrd hj.1 hN (by omega) hC hC' c.vec hvC hAh hA (by omega) (by omega) (by omega) m ν hν hm') i j
    rw [← hD i j (by omega) (by omega), ← hD' i j (by omega) (by omega)] at h5
    have h6 : ‖val (g.at' i j) - D.at' i j‖ ≤ ‖val (g.at' i j) - D'.at' i j‖ + ‖D'.at' i j - D.at' i j‖ := by
      rw [show val (g.at' i j) - D.at' i j = (val (g.at' i j) - D'.at' i j) + (D'.at' i j - D.at' i j) by ring]
      exact norm_add_le _ _
    unfold coefErr rowMax at h5
    linarith

/-- `ispht` in doubles against exact `ispht`, over the whole doubled array. -/
theorem ispht_full (hrd : NoOverflow rnd) {jp : Int → FC rnd} (b : Backend) (c : ScalarCoefs (FC rnd)) (hc : c.WellFormed)
    (N M : ℕ) (hn : c.nmax = N) (hm : c.mmax = M) (hj : PowOK b M jp) (hN : N ≤ 1000) (w : ℤ → ℤ → FC rnd)
    (hw : ∀ n m, IsMode c.nmax c.mmax n m → readMap c n m = some (w n m)) (C : ℝ) (hC : 2 ^ (-900 : ℤ) ≤ C) (hC' : C ≤ 2 ^ (900 : ℤ))
    (hwC : ∀ n m, IsMode c.nmax c.mmax n m → |(w n m).re| ≤ C ∧ |(w n m).im| ≤ C) (nr nc : ℤ) (h1 : c.nmax + 2 ≤ nr) (h2 : 2 * c.mmax + 2 ≤ nc) (h3 : nc % 2 = 0)
    (post : Arr2 (FC rnd) → Int → Int → Res (Arr2 (FC rnd))) (δ : ℝ)
    (hpost : ∀ f, Fl.backendScToFc rnd jp b 0 c.vec c.nmax c.mmax (2 * nr - 2) nc = .ok f → FftWithin post δ f (2 * nr - 2) nc) :
    ∃ g D, Fl.ispht rnd jp post b c (some nr) (some nc) = .ok ⟨.arr g⟩ ∧ ispht .py (exactSet c) (some nr) (some nc) = .ok ⟨.arr D⟩ ∧
      (g.rows : ℤ) = 2 * nr - 2 ∧ (g.cols : ℤ) = nc ∧ D.rows = g.rows ∧ D.cols = g.cols ∧ ∀ i j : ℕ, i < g.rows → j < g.cols →
      ‖val (g.at' i j) - D.at' i j‖ ≤ δ + (2 * N + 1) * (2 * M + 1) * ((N + 1) * ((N : ℝ) + 4) ^ 3 * 2 ^ (-49 : ℤ) * C * Real.sqrt ((2 * N + 1) / (4 * Real.pi))) := by
  cases b with
  | py => exact ispht_aux hrd .py c hc N M hn hm (hj rfl).for hN w hw C hC hC' hwC nr nc h1 h2 h3 post δ hpost
  | c J => exact ispht_aux hrd (jp := fun m => ⟨(Complex.I ^ m).re, (Complex.I ^ m).im⟩) (.c J) c hc N M hn hm (PowExactTo.for fun _ _ => rfl) hN w hw C hC hC' hwC nr nc h1 h2 h3 post δ hpost

/-- C93: `ispht` in doubles, with either backend, gives samples of the harmonic series of the coefficients up to an explicit error. -/
theorem c93_ispht (hrd : NoOverflow rnd) {jp : Int → FC rnd} (b : Backend) (c : ScalarCoefs (FC rnd)) (hc : c.WellFormed)
    (N M : ℕ) (hn : c.nmax = N) (hm : c.mmax = M) (hj : PowOK b M jp) (hN : N ≤ 1000) (w : ℤ → ℤ → FC rnd)
    (hw : ∀ n m, IsMode c.nmax c.mmax n m → readMap c n m = some (w n m)) (C : ℝ) (hC : 2 ^ (-900 : ℤ) ≤ C) (hC' : C ≤ 2 ^ (900 : ℤ))
    (hwC : ∀ n m, IsMode c.nmax c.mmax n m → |(w n m).re| ≤ C ∧ |(w n m).im| ≤ C) (nr nc : ℤ) (h1 : c.nmax + 2 ≤ nr) (h2 : 2 * c.mmax + 2 ≤ nc) (h3 : nc % 2 = 0)
    (post : Arr2 (FC rnd) → Int → Int → Res (Arr2 (FC rnd))) (δ : ℝ)
    (hpost : ∀ f, Fl.backendScToFc rnd jp b 0 c.vec c.nmax c.mmax (2 * nr - 2) nc = .ok f → FftWithin post δ f (2 * nr - 2) nc) :
    ∃ p A, Fl.ispht rnd jp post b c (some nr) (some nc) = .ok p ∧ p.array = .ok A ∧ A.rows = nr ∧ A.cols = nc ∧ ∀ i j : ℕ, i < A.rows → j < A.cols →
      ‖val (A.at' i j) - shSeries c.nmax c.mmax (fun n m => val (w n m)) (Real.pi * i / ((nr : ℝ) - 1)) (2 * Real.pi * j / nc)‖ ≤
        δ + (2 * N + 1) * (2 * M + 1) * ((N + 1) * ((N : ℝ) + 4) ^ 3 * 2 ^ (-49 : ℤ) * C * Real.sqrt ((2 * N + 1) / (4 * Real.pi))) := by
  obtain ⟨g, D, e1, e2, gr, gc, Dr, Dc, hg⟩ := ispht_full hrd b c hc N M hn hm hj hN w hw C hC hC' hwC nr nc h1 h2 h3 post δ hpost
  have hm0 := hc.wf.m0
  have hmn := hc.wf.mn
  obtain ⟨p, B, ep, eB', Br, Bc, hB⟩ := c30_ispht .py (exactSet c) (exactSet_wf hc) _ (exactSet_has hc hw) nr nc h1 h2 h3
  have hp : p = ⟨.arr D⟩ := by
    rw [e2] at ep
    exact (Except.ok.inj ep).symm
  subst hp
  have hBD : B = D.takeRows (D.rows / 2 + 1) := (Except.ok.inj eB').symm
  refine ⟨⟨.arr g⟩, g.takeRows (g.rows / 2 + 1), e1, rfl, ?_, gc, fun i j hi hj' => ?_⟩
  · show ((min (g.rows / 2 + 1) g.rows : ℕ) : ℤ) = nr
    omega
  · have hi' : i < min (g.rows / 2 + 1) g.rows := hi
    have hj2 : j < g.cols := hj'
    have iD : i < min (D.rows / 2 + 1) D.rows := by omega
    have jD : j < D.cols := by omega
    have e1 := hB i j (by rw [hBD]; exact iD) (by rw [hBD]; exact jD)
    rw [hBD] at e1
    unfold Arr2.takeRows at e1 ⊢
    rw [Arr2.at'_ofFn iD jD] at e1
    rw [Arr2.at'_ofFn hi' hj2]
    have e2 : D.at' i j = shSeries c.nmax c.mmax (fun n m => val (w n m)) (Real.pi * i / ((nr : ℝ) - 1)) (2 * Real.pi * j / nc) := e1
    rw [← e2]
    exact hg i j (by omega) hj2

/-- Not vacuous: a set with seven different coefficients, synthesised on a 5 by 8 grid, has samples correct to `2^-30` if the FFT is exact. -/
example : ∃ (rnd : ℝ → ℝ) (jp : Int → FC rnd) (c : ScalarCoefs (FC rnd)) (w : ℤ → ℤ → FC rnd) (post : Arr2 (FC rnd) → Int → Int → Res (Arr2 (FC rnd)))
    (p : SPatt (FC rnd)) (A : Arr2 (FC rnd)), NoOverflow rnd ∧ PowExact jp ∧ c.WellFormed ∧ w 2 (-1) = ⟨4, 1⟩ ∧
    Fl.ispht rnd jp post .py c (some 5) (some 8) = .ok p ∧ p.array = .ok A ∧ A.rows = 5 ∧ A.cols = 8 ∧ ∀ i j : ℕ, i < A.rows → j < A.cols →
      ‖val (A.at' i j) - shSeries 2 1 (fun n m => val (w n m)) (Real.pi * i / 4) (2 * Real.pi * j / 8)‖ ≤ 2 ^ (-30 : ℤ) := by
  obtain ⟨rnd, h⟩ := noOverflow_exists
  obtain ⟨jp, hj⟩ : ∃ jp : Int → FC rnd, PowExact jp := ⟨fun m => ⟨(Complex.I ^ m).re, (Complex.I ^ m).im⟩, fun m _ => rfl⟩
  obtain ⟨c, hcd⟩ : ∃ c : ScalarCoefs (FC rnd), c = ⟨[⟨0, 1⟩, ⟨1, 1⟩, ⟨2, 1⟩, ⟨3, 1⟩, ⟨4, 1⟩, ⟨5, 1⟩, ⟨6, 1⟩], 2, 1⟩ := ⟨_, rfl⟩
  have hw : c.WF := by subst hcd; exact ⟨by norm_num, by norm_num, rfl⟩
  have hn : c.nmax = ((2 : ℕ) : ℤ) := by subst hcd; rfl
  have hm : c.mmax = ((1 : ℕ) : ℤ) := by subst hcd; rfl
  have hrd : ∀ n m, IsMode c.nmax c.mmax n m → readMap c n m = some ((readMap c n m).getD 0) := by
    intro n m hmo
    rw [readMap_eq hw, ScalarCoefs.absMap_mode hw hmo]; rfl
  have hbd : ∀ n m, IsMode c.nmax c.mmax n m → |((readMap c n m).getD 0).re| ≤ 8 ∧ |((readMap c n m).getD 0).im| ≤ 8 := by
    intro n m hmo
    rw [readMap_eq hw, ScalarCoefs.absMap_mode hw hmo, Option.getD_some]
    have hmem := List.getElem_mem (h := hw.slot_lt hmo)
    have hall : ∀ z ∈ c.vec, |z.re| ≤ 8 ∧ |z.im| ≤ 8 := by
      subst hcd
      intro z hz
      simp only [List.mem_cons, List.not_mem_nil, or_false] at hz
      rcases hz with rfl | rfl | rfl | rfl | rfl | rfl | rfl <;> norm_num
    exact hall _ hmem
  let post : Arr2 (FC rnd) → Int → Int → Res (Arr2 (FC rnd)) := fun f dn nc => (invFourier (f.map val) dn nc).bind fun g => .ok (g.map fun z => ⟨z.re, z.im⟩)
  have hpost : ∀ f, Fl.backendScToFc rnd jp .py 0 c.vec c.nmax c.mmax (2 * 5 - 2) 8 = .ok f → FftWithin post 0 f (2 * 5 - 2) 8 := by
    intro f hf
    obtain ⟨Ah, eAh, hAh⟩ := FS.scToFc_spec jp c.vec 2 1 8 8 (by norm_num) (by norm_num) (by norm_num) (by subst hcd; rfl)
    rw [hn, hm] at hf
    have : f = Ah := Except.ok.inj (hf.symm.trans eAh)
    subst this
    obtain ⟨D, eD, Dr, Dc, -⟩ := invFourier_spec (f.map val) 8 8 (by rw [Arr2.rows_map, hAh.rows]) (by rw [Arr2.cols_map, hAh.cols]) (by norm_num) (by norm_num)
    have eD' : invFourier (f.map val) (2 * 5 - 2) 8 = .ok D := eD
    refine ⟨D.map fun z => ⟨z.re, z.im⟩, D, ?_, eD', rfl, rfl, fun i j hi hj' => ?_⟩
    · show (invFourier (f.map val) (2 * 5 - 2) 8).bind _ = _
      rw [eD']; rfl
    · rw [Arr2.at'_map _ D hi hj']
      have e : (val (⟨(D.at' i j).re, (D.at' i j).im⟩ : FC rnd)) = D.at' i j := rfl
      rw [e, sub_self, norm_zero]
  obtain ⟨p, A, e1, e2, e3, e4, e5⟩ := c93_ispht h .py c (ScalarCoefs.wf_iff.mp hw) 2 1 hn hm (hj.ok .py (by norm_num)) (by norm_num) _ hrd 8
    (by refine (zpow_le_one_of_nonpos₀ (by norm_num) (by norm_num)).trans (by norm_num))
    (by rw [show (8 : ℝ) = 2 ^ (3 : ℤ) by norm_num]; exact zpow_le_zpow_right₀ (by norm_num) (by norm_num)) hbd 5 8 (by rw [hn]; norm_num) (by rw [hm]; norm_num) (by norm_num) post 0 hpost
  refine ⟨rnd, jp, c, fun n m => (readMap c n m).getD 0, post, p, A, h, hj, ScalarCoefs.wf_iff.mp hw, by subst hcd; rfl, e1, e2, by exact_mod_cast e3, by exact_mod_cast e4, fun i j hi hj' => ?_⟩
  have := e5 i j hi hj'
  rw [hn, hm] at this
  have hs : Real.sqrt (5 / (4 * Real.pi)) ≤ 1 := by
    apply Real.sqrt_le_iff.mpr
    refine ⟨by norm_num, ?_⟩
    rw [one_pow, div_le_one (by positivity)]
    linarith [Real.pi_gt_three]
  rw [Real.sqrt_div (by norm_num), Real.sqrt_mul (by norm_num)] at hs
  norm_num at this ⊢
  refine this.trans ?_
  clear this e5 hpost hbd hrd
  linarith

end Verif.Props
