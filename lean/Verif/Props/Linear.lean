import Verif.Props.Vector3
/-!
# Property C34: linearity of the transforms

`a*p + b*q` below is the Python expression on pattern / coefficient objects (`__rmul__` twice, then `__add__`).
-/
namespace Verif.Props
open Verif Finset

/-- The Python expression `a*p + b*q` for scalar patterns. -/
noncomputable def combP (a b : ℂ) (p q : SPatt ℂ) : Res (SPatt ℂ) :=
  (p.opRight .mul (.num a)).bind fun x => (q.opRight .mul (.num b)).bind fun y => x.opLeft .add (.obj y)

/-- The Python expression `a*c + b*d` for scalar coefficients. -/
noncomputable def combC (a b : ℂ) (c d : ScalarCoefs ℂ) : Res (ScalarCoefs ℂ) :=
  (c.opRight .mul (.num a)).bind fun x => (d.opRight .mul (.num b)).bind fun y => x.opLeft .add (.obj y)

/-- The Python expression `a*p + b*q` for transverse patterns. -/
noncomputable def combT (a b : ℂ) (p q : TPatt ℂ) : Res (TPatt ℂ) :=
  (p.opRight .mul (.num a)).bind fun x => (q.opRight .mul (.num b)).bind fun y => x.opLeft .add (.obj y)

/-- The Python expression `a*c + b*d` for vector coefficients. -/
noncomputable def combV (a b : ℂ) (c d : VectorCoefs ℂ) : Res (VectorCoefs ℂ) :=
  (c.opRight .mul (.num a)).bind fun x => (d.opRight .mul (.num b)).bind fun y => x.opLeft .add (.obj y)

theorem absMap_cf {c : ScalarCoefs ℂ} (h : c.WF) {n m : ℤ} (hm : IsMode c.nmax c.mmax n m) : c.absMap n m = some (c.cf n m) := by
  unfold ScalarCoefs.cf
  rw [ScalarCoefs.absMap_mode h hm]; rfl

/-- The array `a A + b B`. -/
noncomputable def linArr (a b : ℂ) (A B : Arr2 ℂ) : Arr2 ℂ :=
  (A.map fun x => Op.eval .mul a x).zip (Op.eval .add) (B.map fun x => Op.eval .mul b x)

theorem linArr_rows (a b : ℂ) (A B : Arr2 ℂ) : (linArr a b A B).rows = A.rows := rfl
theorem linArr_cols (a b : ℂ) (A B : Arr2 ℂ) : (linArr a b A B).cols = A.cols := rfl

theorem linArr_at (a b : ℂ) (A B : Arr2 ℂ) (hr : B.rows = A.rows) (hc : B.cols = A.cols) {i j : ℕ} (hi : i < A.rows) (hj : j < A.cols) :
    (linArr a b A B).at' i j = a * A.at' i j + b * B.at' i j := by
  unfold linArr
  rw [Arr2.at'_zip _ (A.map _) _ hi hj, Arr2.at'_map _ A hi hj, Arr2.at'_map _ B (by omega) (by omega)]
  rfl

theorem combP_eq (a b : ℂ) (A B : Arr2 ℂ) (hr : B.rows = A.rows) (hc : B.cols = A.cols) :
    combP a b ⟨.arr A⟩ ⟨.arr B⟩ = .ok ⟨.arr (linArr a b A B)⟩ := by
  unfold combP SPatt.opRight SPatt.opLeft
  simp only [SPatt.dsphere, pOpNumR, SPatt.init, Except.bind_ok]
  rw [if_pos ⟨hr.symm, hc.symm⟩]
  rfl

theorem combT_eq (a b : ℂ) (p q : TPatt ℂ) (h1 : p.pd.rows = p.td.rows) (h2 : p.pd.cols = p.td.cols) (h3 : q.td.rows = p.td.rows)
    (h4 : q.td.cols = p.td.cols) (h5 : q.pd.rows = p.td.rows) (h6 : q.pd.cols = p.td.cols) :
    combT a b p q = .ok ⟨linArr a b p.td q.td, linArr a b p.pd q.pd⟩ := by
  unfold combT TPatt.opRight TPatt.opLeft
  simp only [pOpNumR, TPatt.init]
  rw [if_neg (by simp [h1, h2]), if_neg (by simp [h3, h4, h5, h6])]
  simp only [Except.bind_ok]
  rw [if_pos ⟨h3.symm, h4.symm⟩, if_neg (by simp [h1, h2])]
  rfl

theorem combC_spec (a b : ℂ) (c d : ScalarCoefs ℂ) (hc : c.WF) (hd : d.WF) (hn : d.nmax = c.nmax) (hm : d.mmax = c.mmax) :
    ∃ r, combC a b c d = .ok r ∧ r.WF ∧ r.nmax = c.nmax ∧ r.mmax = c.mmax ∧
      ∀ n m, IsMode c.nmax c.mmax n m → r.cf n m = a * c.cf n m + b * d.cf n m := by
  obtain ⟨x, ex, wx, x1, x2, x3⟩ := c09_arith_number_left .mul c (ScalarCoefs.wf_iff.mp hc) a
  obtain ⟨y, ey, wy, y1, y2, y3⟩ := c09_arith_number_left .mul d (ScalarCoefs.wf_iff.mp hd) b
  obtain ⟨r, er, wr, r1, r2, r3⟩ := c09_arith_sets .add x y wx wy (by omega) (by omega)
  refine ⟨r, ?_, wr.wf, by omega, by omega, fun n m hnm => ?_⟩
  · unfold combC
    rw [ex, ey]
    exact er
  · have e1 := x3 n m
    have e2 := y3 n m
    rw [readMap_eq hc, absMap_cf hc hnm] at e1
    rw [readMap_eq hd, absMap_cf hd (by rw [hn, hm]; exact hnm)] at e2
    have e3 := r3 n m _ _ e1 e2
    rw [readMap_eq wr.wf, absMap_cf wr.wf (by rw [r1, r2, x1, x2]; exact hnm)] at e3
    exact Option.some.inj e3

theorem dftc_lin (a b : ℂ) (A B : Arr2 ℂ) (hr : B.rows = A.rows) (hc : B.cols = A.cols) (ν m : ℤ) :
    dftc (linArr a b A B) ν m = a * dftc A ν m + b * dftc B ν m := by
  unfold dftc
  rw [linArr_rows, linArr_cols, hr, hc]
  have : ∑ i ∈ range A.rows, ∑ j ∈ range A.cols, (linArr a b A B).at' i j * root A.rows (-(i * ν)) * root A.cols (-(j * m)) =
      a * ∑ i ∈ range A.rows, ∑ j ∈ range A.cols, A.at' i j * root A.rows (-(i * ν)) * root A.cols (-(j * m)) +
      b * ∑ i ∈ range A.rows, ∑ j ∈ range A.cols, B.at' i j * root A.rows (-(i * ν)) * root A.cols (-(j * m)) := by
    simp only [mul_sum]
    rw [← sum_add_distrib]
    refine sum_congr rfl fun i hi => ?_
    rw [← sum_add_distrib]
    refine sum_congr rfl fun j hj => ?_
    rw [linArr_at a b A B hr hc (mem_range.mp hi) (mem_range.mp hj)]
    ring
  rw [this]
  ring

theorem fhat_lin (a b : ℂ) (A B : Arr2 ℂ) (hr : B.rows = A.rows) (hc : B.cols = A.cols) (m ν : ℤ) :
    fhat (linArr a b A B) m ν = a * fhat A m ν + b * fhat B m ν := by
  unfold fhat
  rw [linArr_rows, hr]
  split
  · exact dftc_lin a b A B hr hc ν m
  · ring

theorem bF_lin (a b : ℂ) (M : ℕ) (g h : ℤ → ℂ) (m : ℤ) (n : ℕ) : bF M (fun ν => a * g ν + b * h ν) m n = a * bF M g m n + b * bF M h m n := by
  have key : ∀ k : ℤ, ∑ ν ∈ Ioo (-(M : ℤ)) M, (a * g ν + b * h ν) * Skern (k - ν) =
      a * ∑ ν ∈ Ioo (-(M : ℤ)) M, g ν * Skern (k - ν) + b * ∑ ν ∈ Ioo (-(M : ℤ)) M, h ν * Skern (k - ν) := by
    intro k
    rw [mul_sum, mul_sum, ← sum_add_distrib]
    exact sum_congr rfl fun ν _ => by ring
  unfold bF
  simp only [key]
  have : ∑ k ∈ range n, (4 * Real.pi * (a * ∑ ν ∈ Ioo (-(M : ℤ)) M, g ν * Skern (((k + 1 : ℕ) : ℤ) - ν) + b * ∑ ν ∈ Ioo (-(M : ℤ)) M, h ν * Skern (((k + 1 : ℕ) : ℤ) - ν))) * ycoef n m (k + 1 : ℕ) =
      a * ∑ k ∈ range n, (4 * Real.pi * ∑ ν ∈ Ioo (-(M : ℤ)) M, g ν * Skern (((k + 1 : ℕ) : ℤ) - ν)) * ycoef n m (k + 1 : ℕ) +
      b * ∑ k ∈ range n, (4 * Real.pi * ∑ ν ∈ Ioo (-(M : ℤ)) M, h ν * Skern (((k + 1 : ℕ) : ℤ) - ν)) * ycoef n m (k + 1 : ℕ) := by
    rw [mul_sum, mul_sum, ← sum_add_distrib]
    exact sum_congr rfl fun k _ => by ring
  rw [this]
  ring

/-- C34: `spht(a*p + b*q, n, m) = a*spht(p, n, m) + b*spht(q, n, m)` for patterns of equal shape and any accepted limits. -/
theorem c34_spht (be : Backend) (A B : Arr2 ℂ) (hR : A.rows % 2 = 0) (hR0 : 0 < A.rows) (hsz : A.rows ≤ 2 ^ 29)
    (hr : B.rows = A.rows) (hc : B.cols = A.cols) (n m : ℤ) (h0 : 0 ≤ m)
    (h1 : m ≤ n) (h2 : n ≤ ((A.rows / 2 + 1 : ℕ) : ℤ) - 2) (h3 : 2 * m < A.cols) (h4 : A.cols % 2 = 0) (a b : ℂ) :
    ∃ s c d r, combP a b ⟨.arr A⟩ ⟨.arr B⟩ = .ok s ∧
      spht be ⟨.arr A⟩ (some n) (some m) = .ok c ∧ spht be ⟨.arr B⟩ (some n) (some m) = .ok d ∧
      spht be s (some n) (some m) = .ok r ∧ combC a b c d = .ok r := by
  obtain ⟨n, rfl⟩ := Int.eq_ofNat_of_zero_le (show 0 ≤ n by omega)
  obtain ⟨m, rfl⟩ := Int.eq_ofNat_of_zero_le h0
  have sz : be.SizeOK (A.rows + 2 + n) := by
    unfold Backend.SizeOK; cases be <;> simp only
    norm_num at hsz ⊢; omega
  obtain ⟨c, ec, c1, c2, cw, cv⟩ := spht_main be A hR hR0 h4 (some (n : ℤ)) (some (m : ℤ)) n m rfl (by omega) (by omega) (by omega) sz
  obtain ⟨d, ed, d1, d2, dw, dv⟩ := spht_main be B (by omega) (by omega) (by omega) (some (n : ℤ)) (some (m : ℤ)) n m rfl (by omega) (by omega) (by omega) (by rw [hr]; exact sz)
  obtain ⟨r, er, r1, r2, rw', rv⟩ := spht_main be (linArr a b A B) hR hR0 h4 (some (n : ℤ)) (some (m : ℤ)) n m rfl (by omega) (by show n < A.rows / 2; omega) (by show 2 * m < A.cols; omega) sz
  obtain ⟨r', er', wr', r1', r2', rv'⟩ := combC_spec a b c d cw dw (by omega) (by omega)
  refine ⟨_, c, d, r, combP_eq a b A B hr hc, ec, ed, er, ?_⟩
  rw [er']
  congr 1
  refine ScalarCoefs.ext_modes wr' rw' (by omega) (by omega) fun k l hk => ?_
  rw [r1', r2'] at hk
  rw [absMap_cf wr' (by rw [r1', r2']; exact hk), rv' k l hk, rv k l (by rw [← c1, ← c2]; exact hk)]
  have e1 := cv k l (by rw [← c1, ← c2]; exact hk)
  have e2 := dv k l (by rw [← c1, ← c2]; exact hk)
  have f1 : c.cf k l = bF (A.rows / 2 + 1) (sing A l) l k.toNat := by unfold ScalarCoefs.cf; rw [e1]; rfl
  have f2 : d.cf k l = bF (A.rows / 2 + 1) (sing B l) l k.toNat := by unfold ScalarCoefs.cf; rw [e2, hr]; rfl
  rw [f1, f2, linArr_rows, ← bF_lin]
  congr 2
  funext ν
  unfold sing
  rw [fhat_lin a b A B hr hc, fhat_lin a b A B hr hc]
  ring

/-- C34: `ispht(a*c + b*d, nr, nc) = a*ispht(c, nr, nc) + b*ispht(d, nr, nc)` for coefficient sets with the same limits. -/
theorem c34_ispht (be : Backend) (c d : ScalarCoefs ℂ) (hc : c.WellFormed) (hd : d.WellFormed) (hn : d.nmax = c.nmax) (hm : d.mmax = c.mmax)
    (nr nc : ℤ) (h1 : c.nmax + 2 ≤ nr) (h2 : 2 * c.mmax + 2 ≤ nc) (h3 : nc % 2 = 0) (a b : ℂ) :
    ∃ s p q r, combC a b c d = .ok s ∧
      ispht be c (some nr) (some nc) = .ok p ∧ ispht be d (some nr) (some nc) = .ok q ∧
      ispht be s (some nr) (some nc) = .ok r ∧ combP a b p q = .ok r := by
  have hm0 := hc.wf.m0
  have hmn := hc.wf.mn
  obtain ⟨nr, rfl⟩ := Int.eq_ofNat_of_zero_le (show 0 ≤ nr by omega)
  obtain ⟨nc, rfl⟩ := Int.eq_ofNat_of_zero_le (show 0 ≤ nc by omega)
  obtain ⟨s, es, ws, s1, s2, sv⟩ := combC_spec a b c d hc.wf hd.wf hn hm
  obtain ⟨P, eP, P1, P2, Pv, -⟩ := ispht_main be c hc.wf (some (nr : ℤ)) (some (nc : ℤ)) nr nc rfl rfl h1 h2 (by omega)
  obtain ⟨Q, eQ, Q1, Q2, Qv, -⟩ := ispht_main be d hd.wf (some (nr : ℤ)) (some (nc : ℤ)) nr nc rfl rfl (by omega) (by omega) (by omega)
  obtain ⟨S, eS, S1, S2, Sv, -⟩ := ispht_main be s ws (some (nr : ℤ)) (some (nc : ℤ)) nr nc rfl rfl (by omega) (by omega) (by omega)
  refine ⟨s, _, _, _, es, eP, eQ, eS, ?_⟩
  rw [combP_eq a b P Q (by omega) (by omega)]
  congr 3
  refine Arr2.ext' (by rw [linArr_rows]; omega) (by rw [linArr_cols]; omega) fun i j hi hj => ?_
  rw [linArr_rows] at hi
  rw [linArr_cols] at hj
  rw [linArr_at a b P Q (by omega) (by omega) hi hj, Pv i j hi hj, Qv i j (by omega) (by omega), Sv i j (by omega) (by omega), hn, hm, s1, s2,
    mul_sum, mul_sum, ← sum_add_distrib, P1, P2, Q1, Q2, S1, S2]
  refine sum_congr rfl fun x hx => ?_
  rw [sv x.1 x.2 (mem_modes.mp hx)]
  ring

theorem opRightV (a : ℂ) (c : VectorCoefs ℂ) (h : c.WellFormed) :
    c.opRight .mul (.num a) = .ok ⟨⟨(c.scoef1.vec.map fun x => Op.eval .mul a x).set 0 0, c.nmax, c.mmax⟩,
      ⟨(c.scoef2.vec.map fun x => Op.eval .mul a x).set 0 0, c.nmax, c.mmax⟩, c.nmax, c.mmax⟩ := by
  have l1 := h.wf1.wf.len
  have l2 := h.wf2.wf.len
  have m0 := h.wf1.wf.m0
  have mn := h.wf1.wf.mn
  rw [h.n1, h.m1] at l1 mn
  rw [h.n2, h.m2] at l2
  rw [h.m1] at m0
  unfold VectorCoefs.opRight opNumR
  exact vinit_wf m0 mn (by simpa using l1.symm) (by simpa using l2.symm)

/-- Entry of a vector as the coefficient of a mode. -/
theorem cf_get {v : List ℂ} {nmax mmax n m : ℤ} (hm : IsMode nmax mmax n m) :
    (ScalarCoefs.mk v nmax mmax).cf n m = (v[slot nmax n m]?).getD 0 := by
  unfold ScalarCoefs.cf ScalarCoefs.absMap
  simp only
  rw [if_pos hm]

theorem combV_spec (a b : ℂ) (c d : VectorCoefs ℂ) (hc : c.WellFormed) (hd : d.WellFormed) (hn : d.nmax = c.nmax) (hm : d.mmax = c.mmax) :
    ∃ r, combV a b c d = .ok r ∧ r.WellFormed ∧ r.nmax = c.nmax ∧ r.mmax = c.mmax ∧
      ∀ n m, IsMode c.nmax c.mmax n m →
        r.scoef1.cf n m = (if n = 0 then 0 else a * c.scoef1.cf n m + b * d.scoef1.cf n m) ∧
        r.scoef2.cf n m = (if n = 0 then 0 else a * c.scoef2.cf n m + b * d.scoef2.cf n m) := by
  have m0 := hc.wf1.wf.m0
  have mn := hc.wf1.wf.mn
  rw [hc.m1] at m0 mn
  rw [hc.n1] at mn
  have lc1 := hc.wf1.wf.len
  have lc2 := hc.wf2.wf.len
  have ld1 := hd.wf1.wf.len
  have ld2 := hd.wf2.wf.len
  rw [hc.n1, hc.m1] at lc1
  rw [hc.n2, hc.m2] at lc2
  rw [hd.n1, hd.m1, hn, hm] at ld1
  rw [hd.n2, hd.m2, hn, hm] at ld2
  have ex := opRightV a c hc
  have ey := opRightV b d hd
  rw [hn, hm] at ey
  set v1 := List.zipWith (Op.eval .add) ((c.scoef1.vec.map fun x => Op.eval .mul a x).set 0 0) ((d.scoef1.vec.map fun x => Op.eval .mul b x).set 0 0) with hv1
  set v2 := List.zipWith (Op.eval .add) ((c.scoef2.vec.map fun x => Op.eval .mul a x).set 0 0) ((d.scoef2.vec.map fun x => Op.eval .mul b x).set 0 0) with hv2
  have l1 : ncFormula c.nmax c.mmax = v1.length := by rw [hv1]; simp; omega
  have l2 : ncFormula c.nmax c.mmax = v2.length := by rw [hv2]; simp; omega
  have hwf := vwf_of_lists (v1 := v1.set 0 0) (v2 := v2.set 0 0) m0 mn (by simpa using l1) (by simpa using l2)
  have er : combV a b c d = .ok ⟨⟨v1.set 0 0, c.nmax, c.mmax⟩, ⟨v2.set 0 0, c.nmax, c.mmax⟩, c.nmax, c.mmax⟩ := by
    unfold combV
    rw [ex, ey]
    simp only [Except.bind_ok]
    unfold VectorCoefs.opLeft
    simp only [if_true]
    rw [ScalarCoefs.bcast_eq _ (by simp; omega), ScalarCoefs.bcast_eq _ (by simp; omega)]
    simp only [Except.bind_ok]
    exact vinit_wf m0 mn l1 l2
  refine ⟨_, er, hwf, rfl, rfl, fun n m hnm => ?_⟩
  have hmode := isMode_iff.mp hnm
  by_cases hz : n = 0
  · have hs : slot c.nmax n m = 0 := by
      have : m = 0 := by omega
      subst hz this
      simp [slot, ord, seg]
    rw [if_pos hz, if_pos hz, cf_get hnm, cf_get hnm, hs]
    have hlt := hc.wf1.wf.slot_lt (n := n) (m := m) (by rw [hc.n1, hc.m1]; exact hnm)
    have p1 : 0 < v1.length := by omega
    have p2 : 0 < v2.length := by omega
    simp [p1, p2]
  · have hs := slot_ne_zero (nmax := c.nmax) (n := n) (m := m) (by omega) (by omega) (by omega)
    have hlt := hc.wf1.wf.slot_lt (n := n) (m := m) (by rw [hc.n1, hc.m1]; exact hnm)
    rw [hc.n1] at hlt
    have g : ∀ (x y : ScalarCoefs ℂ), x.nmax = c.nmax → x.mmax = c.mmax → y.nmax = c.nmax → y.mmax = c.mmax →
        x.vec.length = c.scoef1.vec.length → y.vec.length = c.scoef1.vec.length →
        (ScalarCoefs.mk ((List.zipWith (Op.eval .add) ((x.vec.map fun x => Op.eval .mul a x).set 0 0) ((y.vec.map fun x => Op.eval .mul b x).set 0 0)).set 0 0) c.nmax c.mmax).cf n m =
          a * x.cf n m + b * y.cf n m := by
      rintro ⟨xv, xn, xm⟩ ⟨yv, yn, ym⟩ h1 h2 h3 h4 h5 h6
      simp only at h1 h2 h3 h4 h5 h6
      subst h1 h2 h3 h4
      rw [cf_get hnm, cf_get hnm, cf_get hnm, List.getElem?_set_ne (Ne.symm hs), List.getElem?_zipWith, List.getElem?_set_ne (Ne.symm hs),
        List.getElem?_set_ne (Ne.symm hs), List.getElem?_map, List.getElem?_map, List.getElem?_eq_getElem (l := xv) (by omega), List.getElem?_eq_getElem (l := yv) (by omega)]
      rfl
    rw [if_neg hz, if_neg hz]
    exact ⟨g _ _ hc.n1 hc.m1 (by rw [hd.n1, hn]) (by rw [hd.m1, hm]) rfl (by omega),
      g _ _ hc.n2 hc.m2 (by rw [hd.n2, hn]) (by rw [hd.m2, hm]) (by omega) (by omega)⟩

theorem Gval_lin (a b : ℂ) (v u : ℤ → ℕ → ℂ) (nmax : ℕ) (m k : ℤ) :
    Gval (fun m n => a * v m n + b * u m n) nmax m k = a * Gval v nmax m k + b * Gval u nmax m k := by
  unfold Gval
  have : ∑ n ∈ Icc m.natAbs nmax, (a * v m n + b * u m n) * (ycoef n m k : ℂ) = a * ∑ n ∈ Icc m.natAbs nmax, v m n * (ycoef n m k : ℂ) + b * ∑ n ∈ Icc m.natAbs nmax, u m n * (ycoef n m k : ℂ) := by
    rw [mul_sum, mul_sum, ← sum_add_distrib]
    exact sum_congr rfl fun n _ => by ring
  rw [this]; ring

theorem Hval_lin (a b : ℂ) (v u : ℤ → ℕ → ℂ) (nmax : ℕ) (m k : ℤ) :
    Hval (fun m n => a * v m n + b * u m n) nmax m k = a * Hval v nmax m k + b * Hval u nmax m k := by
  unfold Hval
  have : ∑ n ∈ Icc m.natAbs nmax, (a * v m n + b * u m n) * hcoef n m k = a * ∑ n ∈ Icc m.natAbs nmax, v m n * hcoef n m k + b * ∑ n ∈ Icc m.natAbs nmax, u m n * hcoef n m k := by
    rw [mul_sum, mul_sum, ← sum_add_distrib]
    exact sum_congr rfl fun n _ => by ring
  rw [this]; ring

theorem Hval_congr (v u : ℤ → ℕ → ℂ) (nmax : ℕ) (m k : ℤ) (h : ∀ n, m.natAbs ≤ n → n ≤ nmax → v m n = u m n) : Hval v nmax m k = Hval u nmax m k := by
  unfold Hval
  congr 1
  refine sum_congr rfl fun n hn => ?_
  rw [mem_Icc] at hn
  rw [h n hn.1 hn.2]

theorem fieldSum_lin (a b : ℂ) (M mmax : ℕ) (F G H : ℤ → ℤ → ℂ) (h : ∀ m ∈ Icc (-(mmax : ℤ)) mmax, ∀ ν, H m ν = a * F m ν + b * G m ν) (θ φ : ℝ) :
    fieldSum M mmax H θ φ = a * fieldSum M mmax F θ φ + b * fieldSum M mmax G θ φ := by
  unfold fieldSum trigSum
  rw [mul_sum, mul_sum, ← sum_add_distrib]
  refine sum_congr rfl fun m hm => ?_
  have : ∑ ν ∈ Ioo (-(M : ℤ)) M, H m ν * Complex.exp (ν * (θ * Complex.I)) =
      a * ∑ ν ∈ Ioo (-(M : ℤ)) M, F m ν * Complex.exp (ν * (θ * Complex.I)) + b * ∑ ν ∈ Ioo (-(M : ℤ)) M, G m ν * Complex.exp (ν * (θ * Complex.I)) := by
    rw [mul_sum, mul_sum, ← sum_add_distrib]
    exact sum_congr rfl fun ν _ => by rw [h m hm]; ring
  rw [this]; ring

/-- C34: `vispht(a*c + b*d, nr, nc) = a*vispht(c, nr, nc) + b*vispht(d, nr, nc)`. -/
theorem c34_vispht (be : Backend) (c d : VectorCoefs ℂ) (hc : c.WellFormed) (hd : d.WellFormed) (hn : d.nmax = c.nmax) (hm : d.mmax = c.mmax)
    (nr nc : ℤ) (h1 : c.nmax + 2 ≤ nr) (h2 : 2 * c.mmax + 2 ≤ nc) (h3 : nc % 2 = 0) (a b : ℂ) :
    ∃ s p q r, combV a b c d = .ok s ∧
      vispht be c (some nr) (some nc) = .ok p ∧ vispht be d (some nr) (some nc) = .ok q ∧
      vispht be s (some nr) (some nc) = .ok r ∧ combT a b p q = .ok r := by
  have hm0 := hc.wf1.wf.m0
  have hmn := hc.wf1.wf.mn
  rw [hc.m1] at hm0 hmn
  rw [hc.n1] at hmn
  obtain ⟨nmax, en⟩ := Int.eq_ofNat_of_zero_le (show 0 ≤ c.nmax by omega)
  obtain ⟨mmax, em⟩ := Int.eq_ofNat_of_zero_le hm0
  obtain ⟨nr, rfl⟩ := Int.eq_ofNat_of_zero_le (show 0 ≤ nr by omega)
  obtain ⟨nc, rfl⟩ := Int.eq_ofNat_of_zero_le (show 0 ≤ nc by omega)
  obtain ⟨s, es, ws, s1, s2, sv⟩ := combV_spec a b c d hc hd hn hm
  obtain ⟨P, eP, P1, P2, P3, P4, Pt, Pp⟩ := vispht_field be c hc nmax mmax nr nc en em (by omega) (by omega) (by omega)
  obtain ⟨Q, eQ, Q1, Q2, Q3, Q4, Qt, Qp⟩ := vispht_field be d hd nmax mmax nr nc (by omega) (by omega) (by omega) (by omega) (by omega)
  obtain ⟨S, eS, S1, S2, S3, S4, St, Sp⟩ := vispht_field be s ws nmax mmax nr nc (by omega) (by omega) (by omega) (by omega) (by omega)
  refine ⟨s, P, Q, S, es, eP, eQ, eS, ?_⟩
  rw [combT_eq a b P Q (by omega) (by omega) (by omega) (by omega) (by omega) (by omega)]
  have w : ∀ (m : ℤ), m ∈ Icc (-(mmax : ℤ)) mmax → ∀ n : ℕ, m.natAbs ≤ n → n ≤ nmax →
      wcf s.scoef1 m n = a * wcf c.scoef1 m n + b * wcf d.scoef1 m n ∧ wcf s.scoef2 m n = a * wcf c.scoef2 m n + b * wcf d.scoef2 m n := by
    intro m hmm n k1 k2
    rw [mem_Icc] at hmm
    obtain ⟨e1, e2⟩ := sv n m (by rw [isMode_iff]; omega)
    unfold wcf
    rw [e1, e2]
    by_cases hz : n = 0
    · subst hz
      have : wdeg 0 = 0 := by unfold wdeg; simp
      simp [this]
    · rw [if_neg (by omega), if_neg (by omega)]
      constructor <;> ring
  have ht : ∀ m ∈ Icc (-(mmax : ℤ)) mmax, ∀ ν, tSeq (wcf s.scoef1) (wcf s.scoef2) nmax m ν =
      a * tSeq (wcf c.scoef1) (wcf c.scoef2) nmax m ν + b * tSeq (wcf d.scoef1) (wcf d.scoef2) nmax m ν := by
    intro m hmm ν
    unfold tSeq
    rw [Hval_congr _ (fun m n => a * wcf c.scoef1 m n + b * wcf d.scoef1 m n) nmax m ν fun n k1 k2 => (w m hmm n k1 k2).1, Gval_congr _ (fun m n => a * wcf c.scoef2 m n + b * wcf d.scoef2 m n) nmax m ν fun n k1 k2 => (w m hmm n k1 k2).2,
      Hval_lin, Gval_lin]
    ring
  have hp : ∀ m ∈ Icc (-(mmax : ℤ)) mmax, ∀ ν, pSeq (wcf s.scoef1) (wcf s.scoef2) nmax m ν =
      a * pSeq (wcf c.scoef1) (wcf c.scoef2) nmax m ν + b * pSeq (wcf d.scoef1) (wcf d.scoef2) nmax m ν := by
    intro m hmm ν
    unfold pSeq
    rw [Gval_congr _ (fun m n => a * wcf c.scoef1 m n + b * wcf d.scoef1 m n) nmax m ν fun n k1 k2 => (w m hmm n k1 k2).1, Hval_congr _ (fun m n => a * wcf c.scoef2 m n + b * wcf d.scoef2 m n) nmax m ν fun n k1 k2 => (w m hmm n k1 k2).2,
      Hval_lin, Gval_lin]
    ring
  have e1 : linArr a b P.td Q.td = S.td := by
    refine Arr2.ext' (by rw [linArr_rows]; omega) (by rw [linArr_cols]; omega) fun i j hi hj => ?_
    rw [linArr_rows] at hi
    rw [linArr_cols] at hj
    rw [linArr_at a b P.td Q.td (by omega) (by omega) hi hj, Pt i j (by omega) (by omega), Qt i j (by omega) (by omega), St i j (by omega) (by omega),
      fieldSum_lin a b _ _ _ _ _ ht]
  have e2 : linArr a b P.pd Q.pd = S.pd := by
    refine Arr2.ext' (by rw [linArr_rows]; omega) (by rw [linArr_cols]; omega) fun i j hi hj => ?_
    rw [linArr_rows] at hi
    rw [linArr_cols] at hj
    rw [linArr_at a b P.pd Q.pd (by omega) (by omega) hi hj, Pp i j (by omega) (by omega), Qp i j (by omega) (by omega), Sp i j (by omega) (by omega),
      fieldSum_lin a b _ _ _ _ _ hp]
  rw [e1, e2]

/-- C34: `vspht(a*p + b*q, n, m) = a*vspht(p, n, m) + b*vspht(q, n, m)`. -/
theorem c34_vspht (be : Backend) (p q : TPatt ℂ) (hR : p.td.rows % 2 = 0) (hR0 : 0 < p.td.rows) (hsz : p.td.rows ≤ 2 ^ 29)
    (k1 : p.pd.rows = p.td.rows) (k2 : p.pd.cols = p.td.cols) (k3 : q.td.rows = p.td.rows) (k4 : q.td.cols = p.td.cols)
    (k5 : q.pd.rows = p.td.rows) (k6 : q.pd.cols = p.td.cols) (n m : ℤ) (h0 : 0 ≤ m)
    (h1 : m ≤ n) (h2 : n ≤ ((p.td.rows / 2 + 1 : ℕ) : ℤ) - 2) (h3 : 2 * m < p.td.cols) (h4 : p.td.cols % 2 = 0) (a b : ℂ) :
    ∃ s c d r, combT a b p q = .ok s ∧
      vspht be p (some n) (some m) = .ok c ∧ vspht be q (some n) (some m) = .ok d ∧
      vspht be s (some n) (some m) = .ok r ∧ combV a b c d = .ok r := by
  obtain ⟨n, rfl⟩ := Int.eq_ofNat_of_zero_le (show 0 ≤ n by omega)
  obtain ⟨m, rfl⟩ := Int.eq_ofNat_of_zero_le h0
  have sz : be.SizeOK (p.td.rows + 2 + n) := by
    unfold Backend.SizeOK; cases be <;> simp only
    norm_num at hsz ⊢; omega
  obtain ⟨c, ec, c1, c2, cw, cv⟩ := vspht_main be p.td p.pd hR hR0 h4 k1 k2 (some (n : ℤ)) (some (m : ℤ)) n m rfl (by omega) (by omega) (by omega) sz
  obtain ⟨d, ed, d1, d2, dw, dv⟩ := vspht_main be q.td q.pd (by omega) (by omega) (by omega) (by omega) (by omega) (some (n : ℤ)) (some (m : ℤ)) n m rfl (by omega) (by omega) (by omega) (by rw [k3]; exact sz)
  obtain ⟨r, er, r1, r2, wr, rv⟩ := vspht_main be (linArr a b p.td q.td) (linArr a b p.pd q.pd) hR hR0 h4 k1 k2 (some (n : ℤ)) (some (m : ℤ)) n m rfl (by omega)
    (by show n < p.td.rows / 2; omega) (by show 2 * m < p.td.cols; omega) sz
  obtain ⟨s, es, ws, s1, s2, sv⟩ := combV_spec a b c d cw dw (by omega) (by omega)
  refine ⟨_, c, d, r, combT_eq a b p q k1 k2 k3 k4 k5 k6, ec, ed, er, ?_⟩
  rw [es]
  congr 1
  have main : ∀ k l, IsMode n m k l → s.scoef1.cf k l = r.scoef1.cf k l ∧ s.scoef2.cf k l = r.scoef2.cf k l := by
    intro k l hk
    obtain ⟨x1, x2⟩ := sv k l (by rw [c1, c2]; exact hk)
    obtain ⟨y1, y2⟩ := rv k l hk
    rw [x1, x2, y1, y2]
    by_cases hz : k = 0
    · subst hz
      have : wdeg (0 : ℤ).toNat = 0 := by unfold wdeg; simp
      rw [if_pos rfl, if_pos rfl, this, zero_mul, zero_mul]
      exact ⟨rfl, rfl⟩
    · obtain ⟨u1, u2⟩ := cv k l hk
      obtain ⟨v1, v2⟩ := dv k l hk
      rw [if_neg hz, if_neg hz, u1, u2, v1, v2, k3, linArr_rows]
      constructor
      · rw [show sldot l (fhat (linArr a b p.td q.td) l) (fhat (linArr a b p.pd q.pd) l) =
            fun ν => a * sldot l (fhat p.td l) (fhat p.pd l) ν + b * sldot l (fhat q.td l) (fhat q.pd l) ν from by
          funext ν
          unfold sldot
          rw [fhat_lin a b _ _ k3 k4, fhat_lin a b _ _ (by omega) (by omega), fhat_lin a b _ _ (by omega) (by omega)]
          ring, bF_lin]
        ring
      · rw [show sldot l (fun ν => -Complex.I * fhat (linArr a b p.pd q.pd) l ν) (fun ν => Complex.I * fhat (linArr a b p.td q.td) l ν) =
            fun ν => a * sldot l (fun ν => -Complex.I * fhat p.pd l ν) (fun ν => Complex.I * fhat p.td l ν) ν +
              b * sldot l (fun ν => -Complex.I * fhat q.pd l ν) (fun ν => Complex.I * fhat q.td l ν) ν from by
          funext ν
          unfold sldot
          simp only
          rw [fhat_lin a b _ _ (by omega) (by omega), fhat_lin a b _ _ k3 k4, fhat_lin a b _ _ k3 k4]
          ring, bF_lin]
        ring
  obtain ⟨t1, t2, tn, tm⟩ := s
  obtain ⟨z1, z2, zn, zm⟩ := r
  simp only at *
  have n1 := ws.n1; have m1 := ws.m1; have n2 := ws.n2; have m2 := ws.m2
  have n1' := wr.n1; have m1' := wr.m1; have n2' := wr.n2; have m2' := wr.m2
  simp only at n1 m1 n2 m2 n1' m1' n2' m2'
  have q1 : t1 = z1 := ScalarCoefs.ext_modes ws.wf1.wf wr.wf1.wf (by omega) (by omega) fun k l hk => by
    rw [n1, m1, s1, s2, c1, c2] at hk
    have e := (main k l hk).1
    rw [absMap_cf ws.wf1.wf (by rw [n1, m1, s1, s2, c1, c2]; exact hk), absMap_cf wr.wf1.wf (by rw [n1', m1', r1, r2]; exact hk), e]
  have q2 : t2 = z2 := ScalarCoefs.ext_modes ws.wf2.wf wr.wf2.wf (by omega) (by omega) fun k l hk => by
    rw [n2, m2, s1, s2, c1, c2] at hk
    have e := (main k l hk).2
    rw [absMap_cf ws.wf2.wf (by rw [n2, m2, s1, s2, c1, c2]; exact hk), absMap_cf wr.wf2.wf (by rw [n2', m2', r1, r2]; exact hk), e]
  rw [q1, q2, show tn = zn by omega, show tm = zm by omega]

/-- Witnesses: two different symmetric patterns / coefficient sets meeting the hypotheses. -/
example : (csample.WellFormed ∧ csample.nmax + 2 ≤ 5 ∧ 2 * csample.mmax + 2 ≤ 6) ∧
    (vcsample.WellFormed ∧ vcsample.nmax + 2 ≤ 5 ∧ 2 * vcsample.mmax + 2 ≤ 6) :=
  ⟨⟨csample_wf, by decide, by decide⟩, ⟨vcsample_wf, by decide, by decide⟩⟩

end Verif.Props
