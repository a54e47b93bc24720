import Verif.Props.NanV2
/-!
# C134: an infinity (or NaN) in the data is not hidden by the transforms
-/
namespace Verif.Props
open Verif Finset

variable {rnd : ℝ → ℝ}

/-- `not np.isfinite(z)` for a complex number: one of its parts is NaN or infinite. -/
abbrev NotFinC (z : IE × IE) : Prop := Bad NotFin z

/-- A finite value is a number: a signed zero or a real. -/
theorem notFin_iff (x : IE) : NotFin x ↔ ¬ ((∃ s, x = .zero s) ∨ ∃ r, x = .fin r) := by
  cases x <;> simp [NotFin]

/-- Building a pattern keeps every non-finite sample where it is. -/
theorem c134_pattern (cdata : Arr2 (IE × IE)) (hr : 2 ≤ cdata.rows) :
    ∃ A, NX.ofSamples rnd cdata = .ok ⟨.arr A⟩ ∧ A.rows = 2 * cdata.rows - 2 ∧ A.cols = cdata.cols ∧
      ∀ i j, i < cdata.rows → j < cdata.cols → NotFinC (cdata.at' i j) → NotFinC (A.at' i j) := by
  unfold NX.ofSamples npFull2
  rw [if_neg (by omega)]
  refine ⟨_, rfl, ?_, rfl, fun i j hi hj hn => ?_⟩
  · show cdata.rows + ((cdata.rows : ℤ) - 2).toNat = _
    omega
  · unfold NX.doubleSphere vcat
    simp only [Arr2.rows_ofFn, Arr2.cols_ofFn]
    rw [Arr2.at'_ofFn (by omega) hj]
    refine NN.dsCell_nan (.inr ?_)
    rw [Arr2.at'_ofFn (by omega) hj, if_pos hi]
    exact hn

/-- kiss_fft of any length (forward or inverse): if one input is not finite, the transform returns and no output is finite. -/
theorem c134_kiss (lm : Fl.LibM) (inv : Bool) (l : List (IE × IE)) (h0 : l ≠ []) (hl : l.length < 2 ^ 32) (hn : ∃ z ∈ l, NotFinC z) (junk : ℕ → IE × IE) :
    ∃ cfg out, NX.kissAlloc rnd lm l.length inv = .ok cfg ∧ NX.kissFft rnd cfg l junk = .ok out ∧ out.length = l.length ∧ ∀ z ∈ out, NotFinC z := by
  have hp : 0 < l.length := List.length_pos_iff.mpr h0
  obtain ⟨cfg, e, ok⟩ := NC.kissAlloc_ok (rnd := rnd) lm l.length inv hp hl
  obtain ⟨out, e2, ol, on⟩ := NC.kissFft_ok (rnd := rnd) (Bd := NotFin) ok hp l rfl junk
  refine ⟨cfg, out, e, e2, ol, NN.all_of_rd fun k hk => on ?_ k (by omega)⟩
  obtain ⟨z, hz, nz⟩ := hn
  obtain ⟨i, hi, rfl⟩ := List.getElem_of_mem hz
  exact ⟨i, hi, by simpa [rd, hi] using nz⟩

/-- `spht`, with the Python routines and with the compiled extension: if any stored sample is not finite, both calls return a well-formed set in which **no** coefficient
is finite. -/
theorem c134_spht (lm : Fl.LibM) (J : NX.JunkX) {np : NX.FftX} (hnp : FftBad NotFin np) (A : Arr2 (IE × IE)) (hA : HasBad NotFin A) (hr : A.rows % 2 = 0) (hc : A.cols % 2 = 0) (n m : ℤ) (hm0 : 0 ≤ m) (hmn : m ≤ n)
    (hn : n < A.rows / 2) (hm : 2 * m < A.cols) (hsz : A.rows + 2 + n ≤ 2 ^ 30) :
    (∃ c, NX.spht rnd np ⟨.arr A⟩ (some n) (some m) = .ok c ∧ c.WF ∧ c.nmax = n ∧ c.mmax = m ∧ ∀ z ∈ c.vec, NotFinC z) ∧
    ∃ c, NX.kSpht rnd np lm J ⟨.arr A⟩ (some n) (some m) = .ok c ∧ c.WF ∧ c.nmax = n ∧ c.mmax = m ∧ ∀ z ∈ c.vec, NotFinC z :=
  ⟨NN.spht_ok hnp A hA hr hc n m hm0 hmn hn hm _ _ rfl, NC.spht_ok lm J hnp A hA hr hc n m hm0 hmn hn hm hsz _ _ rfl⟩

/-- `ispht`, with the Python routines and with the compiled extension: if any coefficient is not finite, both calls return a pattern in which **no** sample is finite. -/
theorem c134_ispht (J : NX.JunkX) {np : NX.FftX} (hnp : FftBad NotFin np) (c : ScalarCoefs (IE × IE)) (hc : c.WF) (hn : ∃ z ∈ c.vec, NotFinC z) (nrows ncols : Option Int)
    (h1 : c.nmax < nrows.getD (c.nmax + 2)) (h1' : 2 ≤ nrows.getD (c.nmax + 2)) (h2 : 2 * c.mmax + 2 ≤ ncols.getD (2 * c.mmax + 2)) (h3 : ncols.getD (2 * c.mmax + 2) % 2 = 0) :
    (∃ A, NX.ispht rnd np c nrows ncols = .ok ⟨.arr A⟩ ∧ (A.rows : ℤ) = 2 * nrows.getD (c.nmax + 2) - 2 ∧ (A.cols : ℤ) = ncols.getD (2 * c.mmax + 2) ∧ AllBad NotFin A) ∧
    ∃ A, NX.cIspht rnd np J c nrows ncols = .ok ⟨.arr A⟩ ∧ (A.rows : ℤ) = 2 * nrows.getD (c.nmax + 2) - 2 ∧ (A.cols : ℤ) = ncols.getD (2 * c.mmax + 2) ∧ AllBad NotFin A :=
  ⟨NN.ispht_ok hnp c hc hn nrows ncols h1 h1' h2 h3, NC.ispht_ok J hnp c hc hn nrows ncols h1 h1' h2 h3⟩

/-- A finite result certifies finite data: if one coefficient returned by `spht` for user samples is finite (with either backend), then every sample was finite. -/
theorem c134_certificate (lm : Fl.LibM) (J : NX.JunkX) {np : NX.FftX} (hnp : FftBad NotFin np) (cdata : Arr2 (IE × IE)) (hr : 2 ≤ cdata.rows) (hc : cdata.cols % 2 = 0) (n m : ℤ) (hm0 : 0 ≤ m) (hmn : m ≤ n)
    (hn : n ≤ (cdata.rows : ℤ) - 2) (hm : 2 * m < cdata.cols) (hsz : cdata.rows ≤ 2 ^ 28) (p : SPatt (IE × IE)) (hp : NX.ofSamples rnd cdata = .ok p) (c : ScalarCoefs (IE × IE))
    (hs : NX.spht rnd np p (some n) (some m) = .ok c ∨ NX.kSpht rnd np lm J p (some n) (some m) = .ok c) (z : IE × IE) (hz : z ∈ c.vec) (hf : ¬ NotFinC z) :
    ∀ i j, i < cdata.rows → j < cdata.cols → ¬ NotFinC (cdata.at' i j) := by
  intro i j hi hj hb
  obtain ⟨A, eA, rA, cA, nA⟩ := c134_pattern (rnd := rnd) cdata hr
  rw [hp] at eA
  obtain rfl : p = ⟨.arr A⟩ := by injection eA
  obtain ⟨⟨c1, e1, -, -, -, b1⟩, c2, e2, -, -, -, b2⟩ := c134_spht (rnd := rnd) lm J hnp A ⟨i, j, by omega, by omega, nA i j hi hj hb⟩ (by omega) (by omega) n m hm0 hmn (by omega) (by omega) (by omega)
  rcases hs with hs | hs
  · rw [e1] at hs
    obtain rfl : c1 = c := by injection hs
    exact hf (b1 z hz)
  · rw [e2] at hs
    obtain rfl : c2 = c := by injection hs
    exact hf (b2 z hz)

theorem NN.cabs_notFin {hyp : IE × IE → IE} {z : IE × IE} (h : NotFinC z) : Alarm (NX.cabs hyp z) := by
  unfold NX.cabs
  by_cases hi : (∃ s, z.1 = .inf s) ∨ ∃ s, z.2 = .inf s
  · rw [if_pos hi]; exact .inr rfl
  · rw [if_neg hi, if_pos]
    · exact .inl rfl
    · rcases h with (h | h) | (h | h)
      · exact .inl h
      · exact absurd (.inl h) hi
      · exact .inr h
      · exact absurd (.inr h) hi

/-- The 2-norm of data with a non-finite entry is NaN or `+inf`, in whatever order `np.sum` adds. -/
theorem c134_L2 (hr : ∀ x, 0 ≤ x → 0 ≤ rnd x) {hyp : IE × IE → IE} (hh : HypotSign hyp) (v : List (IE × IE)) (hv : ∃ z ∈ v, NotFinC z) (s : IE) (hs : NX.L2 rnd hyp v s) : Alarm s := by
  obtain ⟨p, hp, rfl⟩ := hs
  obtain ⟨z, hz, nz⟩ := hv
  have := (NN.sum_alarm hr hp (by
    intro x hx
    obtain ⟨w, _, rfl⟩ := List.mem_map.mp hx
    exact NN.sq_pos hr (NN.cabs_pos hh w))).2 ⟨_, List.mem_map.mpr ⟨z, hz, rfl⟩, NN.sq_alarm (NN.cabs_notFin nz)⟩
  rcases this with rfl | rfl
  · exact .inl rfl
  · exact .inr (by simp [NX.sqrt])

/-- The maximum norm of data with a non-finite entry is NaN or `+inf`. -/
theorem c134_LInf {hyp : IE × IE → IE} (v : List (IE × IE)) (hv : ∃ z ∈ v, NotFinC z) : ∃ s, NX.linf hyp v = .ok s ∧ Alarm s := by
  obtain ⟨z, hz, nz⟩ := hv
  unfold NX.linf
  have hm : NX.cabs hyp z ∈ v.map (NX.cabs hyp) := List.mem_map.mpr ⟨z, hz, rfl⟩
  generalize hl : v.map (NX.cabs hyp) = l at hm
  cases l with
  | nil => simp at hm
  | cons x xs =>
    refine ⟨_, rfl, NN.foldl_max _ _ ?_⟩
    rcases List.mem_cons.mp hm with h | h
    · exact .inl (h ▸ NN.cabs_notFin nz)
    · exact .inr ⟨_, h, NN.cabs_notFin nz⟩

/-- The defining sums, evaluated in IEEE arithmetic in the written order, satisfy what is assumed of NumPy's transforms. -/
theorem c134_naive : FftBad NotFin (NN.naive rnd) := NN.naive_ok

/-- A 3×4 pattern of zeros with `-inf` at the equator: no coefficient up to degree 1 is finite, with either backend. -/
theorem c134_example (rnd : ℝ → ℝ) (lm : Fl.LibM) (J : NX.JunkX) : ∃ p c d, NX.ofSamples rnd (Arr2.ofFn 3 4 fun i j => if i = 1 ∧ j = 2 then (.inf true, .zero false) else 0) = .ok p ∧
    NX.spht rnd (NN.naive rnd) p (some 1) (some 1) = .ok c ∧ NX.kSpht rnd (NN.naive rnd) lm J p (some 1) (some 1) = .ok d ∧
    c.vec.length = 4 ∧ d.vec.length = 4 ∧ (∀ z ∈ c.vec, NotFinC z) ∧ ∀ z ∈ d.vec, NotFinC z := by
  have hb : NotFinC ((Arr2.ofFn 3 4 fun i j => if i = 1 ∧ j = 2 then ((.inf true, .zero false) : IE × IE) else 0).at' 1 2) := by
    rw [Arr2.at'_ofFn (by omega) (by omega), if_pos ⟨rfl, rfl⟩]; exact .inl (.inr ⟨true, rfl⟩)
  obtain ⟨A, eA, rA, cA, nA⟩ := c134_pattern (rnd := rnd) (Arr2.ofFn 3 4 fun i j => if i = 1 ∧ j = 2 then ((.inf true, .zero false) : IE × IE) else 0) (by simp)
  simp only [Arr2.rows_ofFn, Arr2.cols_ofFn] at rA cA nA
  obtain ⟨⟨c, ec, wc, cn, cm, nc⟩, d, ed, wd, dn, dm, nd⟩ := c134_spht (rnd := rnd) lm J NN.naive_ok A ⟨1, 2, by omega, by omega, nA 1 2 (by omega) (by omega) hb⟩ (by omega) (by omega) 1 1 (by omega) (by omega) (by omega) (by omega) (by omega)
  refine ⟨_, c, d, eA, ec, ed, ?_, ?_, nc, nd⟩
  · have := wc.len
    rw [cn, cm] at this
    norm_num [ncFormula] at this
    omega
  · have := wd.len
    rw [dn, dm] at this
    norm_num [ncFormula] at this
    omega

/-- Building a transverse pattern keeps every non-finite sample of either component where it is. -/
theorem c134_vpattern (t p : Arr2 (IE × IE)) (hr : 2 ≤ t.rows) (h1 : t.rows = p.rows) (h2 : t.cols = p.cols) :
    ∃ T P, NX.ofSamplesT rnd t p = .ok ⟨T, P⟩ ∧ T.rows = 2 * t.rows - 2 ∧ T.cols = t.cols ∧ P.rows = T.rows ∧ P.cols = T.cols ∧
      ∀ i j, i < t.rows → j < t.cols → (NotFinC (t.at' i j) → NotFinC (T.at' i j)) ∧ (NotFinC (p.at' i j) → NotFinC (P.at' i j)) := by
  have key : ∀ (z c : Arr2 (IE × IE)), ∀ i j, i < c.rows → j < c.cols → NotFinC (c.at' i j) → NotFinC ((NX.doubleSphere rnd (vcat c z) (-1)).at' i j) := by
    intro z c i j hi hj hn
    unfold NX.doubleSphere vcat
    simp only [Arr2.rows_ofFn, Arr2.cols_ofFn]
    rw [Arr2.at'_ofFn (by omega) hj]
    refine NN.dsCell_nan (.inr ?_)
    rw [Arr2.at'_ofFn (by omega) hj, if_pos hi]
    exact hn
  unfold NX.ofSamplesT npFull2
  rw [if_neg (by tauto), if_neg (by omega)]
  simp only [Except.bind_ok]
  rw [if_neg (by omega)]
  refine ⟨_, _, rfl, ?_, rfl, ?_, h2.symm, fun i j hi hj => ⟨key _ t i j hi hj, key _ p i j (by omega) (by omega)⟩⟩
  · show t.rows + ((t.rows : ℤ) - 2).toNat = _
    omega
  · show p.rows + ((p.rows : ℤ) - 2).toNat = t.rows + ((t.rows : ℤ) - 2).toNat
    omega

/-- `vspht`, with the Python routines and with the compiled extension: if a stored sample of either component is not finite, both calls return a well-formed set, and
**both** numbers of **every** mode of degree at least 1 are not finite (the degree-0 entry of a vector set is always 0 and cannot be read). -/
theorem c134_vspht (lm : Fl.LibM) (J : ℕ → NX.JunkX) {np : NX.FftX} (hnp : FftBad NotFin np) (p : TPatt (IE × IE)) (hs : p.td.rows = p.pd.rows ∧ p.td.cols = p.pd.cols) (hn : HasBad NotFin p.td ∨ HasBad NotFin p.pd)
    (hr : p.td.rows % 2 = 0) (hc : p.td.cols % 2 = 0) (n m : ℤ) (hn1 : 1 ≤ n) (hm0 : 0 ≤ m) (hmn : m ≤ n) (hnr : n < p.td.rows / 2) (hmc : 2 * m < p.td.cols) (hsz : p.td.rows + 2 + n ≤ 2 ^ 30) :
    (∃ c, NX.vsphtPy rnd np p (some n) (some m) = .ok c ∧ c.WellFormed ∧ c.nmax = n ∧ c.mmax = m ∧
      ∀ k l, IsMode n m k l → 1 ≤ k → ∃ a b, readMapV c k l = some (a, b) ∧ NotFinC a ∧ NotFinC b) ∧
    ∃ c, NX.vsphtC rnd np lm J p (some n) (some m) = .ok c ∧ c.WellFormed ∧ c.nmax = n ∧ c.mmax = m ∧
      ∀ k l, IsMode n m k l → 1 ≤ k → ∃ a b, readMapV c k l = some (a, b) ∧ NotFinC a ∧ NotFinC b := by
  obtain ⟨N, rfl⟩ : ∃ N : ℕ, n = N := ⟨n.toNat, by omega⟩
  obtain ⟨M, rfl⟩ : ∃ M : ℕ, m = M := ⟨m.toNat, by omega⟩
  refine ⟨NV.vspht_ok hnp _ p hs hn hr hc N M (by omega) (by omega) (by omega) (by omega) ?_, NV.vspht_ok hnp _ p hs hn hr hc N M (by omega) (by omega) (by omega) (by omega) ?_⟩
  · intro i A hA hM h
    exact NN.fcToSc_ok (rnd := rnd) hnp A N M (by omega) (by omega) (by omega) hM h
  · intro i A hA hM h
    exact NC.fcToSc_ok (rnd := rnd) lm A N M (by omega) (by omega) (by omega) (by omega) h (by omega) (J i)

/-- `vispht`, with the Python routines and with the compiled extension: if a coefficient of either set is not finite, both calls return a pattern, and **every** sample of
**both** components is not finite. -/
theorem c134_vispht (J : ℕ → NX.JunkX) {np : NX.FftX} (hnp : FftBad NotFin np) (c : VectorCoefs (IE × IE)) (hc : c.WellFormed) (hn1 : 1 ≤ c.nmax) (hn : (∃ z ∈ c.scoef1.vec, NotFinC z) ∨ ∃ z ∈ c.scoef2.vec, NotFinC z)
    (nrows ncols : Option Int) (h1 : c.nmax + 2 ≤ nrows.getD (c.nmax + 2)) (h2 : 2 * c.mmax + 2 ≤ ncols.getD (2 * c.mmax + 2)) (h3 : ncols.getD (2 * c.mmax + 2) % 2 = 0) :
    (∃ t p, NX.visphtPy rnd np c nrows ncols = .ok ⟨t, p⟩ ∧ (t.rows : ℤ) = 2 * nrows.getD (c.nmax + 2) - 2 ∧ (t.cols : ℤ) = ncols.getD (2 * c.mmax + 2) ∧
      p.rows = t.rows ∧ p.cols = t.cols ∧ AllBad NotFin t ∧ AllBad NotFin p) ∧
    ∃ t p, NX.visphtC rnd np J c nrows ncols = .ok ⟨t, p⟩ ∧ (t.rows : ℤ) = 2 * nrows.getD (c.nmax + 2) - 2 ∧ (t.cols : ℤ) = ncols.getD (2 * c.mmax + 2) ∧
      p.rows = t.rows ∧ p.cols = t.cols ∧ AllBad NotFin t ∧ AllBad NotFin p := by
  have m0 := hc.wf1.wf.m0
  have mn := hc.wf1.wf.mn
  rw [hc.m1] at m0
  rw [hc.m1, hc.n1] at mn
  obtain ⟨N, eN⟩ : ∃ N : ℕ, c.nmax = N := ⟨c.nmax.toNat, by omega⟩
  obtain ⟨M, eM⟩ : ∃ M : ℕ, c.mmax = M := ⟨c.mmax.toNat, by omega⟩
  obtain ⟨r, er⟩ : ∃ r : ℕ, 2 * nrows.getD (c.nmax + 2) - 2 = r := ⟨(2 * nrows.getD (c.nmax + 2) - 2).toNat, by omega⟩
  obtain ⟨k, ek⟩ : ∃ k : ℕ, ncols.getD (2 * c.mmax + 2) = k := ⟨(ncols.getD (2 * c.mmax + 2)).toNat, by omega⟩
  obtain ⟨t, p, e, a1, a2, a3, a4, a5, a6⟩ := NV.vispht_ok (rnd := rnd) hnp _ c hc N M r k eN eM (by omega) hn nrows ncols h1 h2 h3 er ek (NV.syn_py np N M r k (by omega) (by omega) (by omega) (by omega))
  obtain ⟨t', p', e', b1, b2, b3, b4, b5, b6⟩ := NV.vispht_ok (rnd := rnd) hnp _ c hc N M r k eN eM (by omega) hn nrows ncols h1 h2 h3 er ek (NV.syn_c J N M r k (by omega) (by omega) (by omega) (by omega))
  exact ⟨⟨t, p, e, by omega, by omega, by omega, by omega, a5, a6⟩, t', p', e', by omega, by omega, by omega, by omega, b5, b6⟩

/-- A 3×4 transverse pattern of zeros with one infinity in the phi component: all modes of degree 1 are not finite in both sets, with the Python routines and with the compiled extension. -/
theorem c134_vexample (rnd : ℝ → ℝ) (lm : Fl.LibM) (J : ℕ → NX.JunkX) : ∃ p c d,
    NX.ofSamplesT rnd (Arr2.ofFn 3 4 fun _ _ => 0) (Arr2.ofFn 3 4 fun i j => if i = 1 ∧ j = 2 then (.inf true, .zero false) else 0) = .ok p ∧
    NX.vsphtPy rnd (NN.naive rnd) p (some 1) (some 1) = .ok c ∧ NX.vsphtC rnd (NN.naive rnd) lm J p (some 1) (some 1) = .ok d ∧
    (∃ a b, readMapV c 1 (-1) = some (a, b) ∧ NotFinC a ∧ NotFinC b) ∧ ∃ a b, readMapV d 1 1 = some (a, b) ∧ NotFinC a ∧ NotFinC b := by
  have hb : NotFinC ((Arr2.ofFn 3 4 fun i j => if i = 1 ∧ j = 2 then ((.inf true, .zero false) : IE × IE) else 0).at' 1 2) := by
    rw [Arr2.at'_ofFn (by omega) (by omega), if_pos ⟨rfl, rfl⟩]; exact .inl (.inr ⟨true, rfl⟩)
  obtain ⟨T, P, e, r1, c1, r2, c2, nn⟩ := c134_vpattern (rnd := rnd) (Arr2.ofFn 3 4 fun _ _ => 0) (Arr2.ofFn 3 4 fun i j => if i = 1 ∧ j = 2 then ((.inf true, .zero false) : IE × IE) else 0) (by simp) rfl rfl
  simp only [Arr2.rows_ofFn, Arr2.cols_ofFn] at r1 c1 nn
  obtain ⟨⟨c, ec, -, -, -, hc⟩, d, ed, -, -, -, hd⟩ := c134_vspht (rnd := rnd) lm J NN.naive_ok ⟨T, P⟩ ⟨r2.symm, c2.symm⟩ (.inr ⟨1, 2, by show 1 < P.rows; omega, by show 2 < P.cols; omega, (nn 1 2 (by omega) (by omega)).2 hb⟩)
    (by show T.rows % 2 = 0; omega) (by show T.cols % 2 = 0; omega) 1 1 (by omega) (by omega) (by omega) (by show (1 : ℤ) < (T.rows : ℤ) / 2; omega) (by show 2 * (1 : ℤ) < T.cols; omega)
    (by show (T.rows : ℤ) + 2 + 1 ≤ 2 ^ 30; omega)
  exact ⟨_, c, d, e, ec, ed, hc 1 (-1) ⟨by omega, by omega, by simp, by simp⟩ (by omega), hd 1 1 ⟨by omega, by omega, by simp, by simp⟩ (by omega)⟩

end Verif.Props
