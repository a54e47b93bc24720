import Verif.Props.NanV
/-!
# C133: a NaN in the data is not hidden by the vector transforms (statements)
-/
namespace Verif.Props
open Verif Finset

variable {rnd : ℝ → ℝ}

/-- Building a transverse pattern keeps every NaN sample of either component where it is. -/
theorem c133_pattern (t p : Arr2 (IE × IE)) (hr : 2 ≤ t.rows) (h1 : t.rows = p.rows) (h2 : t.cols = p.cols) :
    ∃ T P, NX.ofSamplesT rnd t p = .ok ⟨T, P⟩ ∧ T.rows = 2 * t.rows - 2 ∧ T.cols = t.cols ∧ P.rows = T.rows ∧ P.cols = T.cols ∧
      ∀ i j, i < t.rows → j < t.cols → (IsNanC (t.at' i j) → IsNanC (T.at' i j)) ∧ (IsNanC (p.at' i j) → IsNanC (P.at' i j)) := by
  have key : ∀ (z c : Arr2 (IE × IE)), ∀ i j, i < c.rows → j < c.cols → IsNanC (c.at' i j) → IsNanC ((NX.doubleSphere rnd (vcat c z) (-1)).at' i j) := by
    intro z c i j hi hj hn
    unfold NX.doubleSphere vcat
    simp only [Arr2.rows_ofFn, Arr2.cols_ofFn]
    rw [Arr2.at'_ofFn (by omega) hj]
    refine NN.dsCell_nan (.inr ?_)
    rw [Arr2.at'_ofFn (by omega) hj, if_pos hi]
    exact hn
  unfold NX.ofSamplesT npFull2
  rw [if_neg (by tauto), if_neg (by omega)]
  simp only [Except.bind_ok]
  rw [if_neg (by omega)]
  refine ⟨_, _, rfl, ?_, rfl, ?_, h2.symm, fun i j hi hj => ⟨key _ t i j hi hj, key _ p i j (by omega) (by omega)⟩⟩
  · show t.rows + ((t.rows : ℤ) - 2).toNat = _
    omega
  · show p.rows + ((p.rows : ℤ) - 2).toNat = t.rows + ((t.rows : ℤ) - 2).toNat
    omega

/-- `vspht`, with the Python routines and with the compiled extension: if a stored sample of either component is NaN, both calls return a well-formed set, and
**both** numbers of **every** mode of degree at least 1 are NaN (the degree-0 entry of a vector set is always 0 and cannot be read). -/
theorem c133_vspht (lm : Fl.LibM) (J : ℕ → NX.JunkX) {np : NX.FftX} (hnp : FftNan np) (p : TPatt (IE × IE)) (hs : p.td.rows = p.pd.rows ∧ p.td.cols = p.pd.cols) (hn : HasNan p.td ∨ HasNan p.pd)
    (hr : p.td.rows % 2 = 0) (hc : p.td.cols % 2 = 0) (n m : ℤ) (hn1 : 1 ≤ n) (hm0 : 0 ≤ m) (hmn : m ≤ n) (hnr : n < p.td.rows / 2) (hmc : 2 * m < p.td.cols) (hsz : p.td.rows + 2 + n ≤ 2 ^ 30) :
    (∃ c, NX.vsphtPy rnd np p (some n) (some m) = .ok c ∧ c.WellFormed ∧ c.nmax = n ∧ c.mmax = m ∧
      ∀ k l, IsMode n m k l → 1 ≤ k → ∃ a b, readMapV c k l = some (a, b) ∧ IsNanC a ∧ IsNanC b) ∧
    ∃ c, NX.vsphtC rnd np lm J p (some n) (some m) = .ok c ∧ c.WellFormed ∧ c.nmax = n ∧ c.mmax = m ∧
      ∀ k l, IsMode n m k l → 1 ≤ k → ∃ a b, readMapV c k l = some (a, b) ∧ IsNanC a ∧ IsNanC b := by
  obtain ⟨N, rfl⟩ : ∃ N : ℕ, n = N := ⟨n.toNat, by omega⟩
  obtain ⟨M, rfl⟩ : ∃ M : ℕ, m = M := ⟨m.toNat, by omega⟩
  refine ⟨NV.vspht_ok hnp _ p hs hn hr hc N M (by omega) (by omega) (by omega) (by omega) ?_, NV.vspht_ok hnp _ p hs hn hr hc N M (by omega) (by omega) (by omega) (by omega) ?_⟩
  · intro i A hA hM h
    exact NN.fcToSc_ok (rnd := rnd) hnp A N M (by omega) (by omega) (by omega) hM h
  · intro i A hA hM h
    exact NC.fcToSc_ok (rnd := rnd) lm A N M (by omega) (by omega) (by omega) (by omega) h (by omega) (J i)

/-- `vispht`, with the Python routines and with the compiled extension: if a coefficient of either set is NaN, both calls return a pattern, and **every** sample of
**both** components is NaN. -/
theorem c133_vispht (J : ℕ → NX.JunkX) {np : NX.FftX} (hnp : FftNan np) (c : VectorCoefs (IE × IE)) (hc : c.WellFormed) (hn1 : 1 ≤ c.nmax) (hn : (∃ z ∈ c.scoef1.vec, IsNanC z) ∨ ∃ z ∈ c.scoef2.vec, IsNanC z)
    (nrows ncols : Option Int) (h1 : c.nmax + 2 ≤ nrows.getD (c.nmax + 2)) (h2 : 2 * c.mmax + 2 ≤ ncols.getD (2 * c.mmax + 2)) (h3 : ncols.getD (2 * c.mmax + 2) % 2 = 0) :
    (∃ t p, NX.visphtPy rnd np c nrows ncols = .ok ⟨t, p⟩ ∧ (t.rows : ℤ) = 2 * nrows.getD (c.nmax + 2) - 2 ∧ (t.cols : ℤ) = ncols.getD (2 * c.mmax + 2) ∧
      p.rows = t.rows ∧ p.cols = t.cols ∧ AllNan t ∧ AllNan p) ∧
    ∃ t p, NX.visphtC rnd np J c nrows ncols = .ok ⟨t, p⟩ ∧ (t.rows : ℤ) = 2 * nrows.getD (c.nmax + 2) - 2 ∧ (t.cols : ℤ) = ncols.getD (2 * c.mmax + 2) ∧
      p.rows = t.rows ∧ p.cols = t.cols ∧ AllNan t ∧ AllNan p := by
  have m0 := hc.wf1.wf.m0
  have mn := hc.wf1.wf.mn
  rw [hc.m1] at m0
  rw [hc.m1, hc.n1] at mn
  obtain ⟨N, eN⟩ : ∃ N : ℕ, c.nmax = N := ⟨c.nmax.toNat, by omega⟩
  obtain ⟨M, eM⟩ : ∃ M : ℕ, c.mmax = M := ⟨c.mmax.toNat, by omega⟩
  obtain ⟨r, er⟩ : ∃ r : ℕ, 2 * nrows.getD (c.nmax + 2) - 2 = r := ⟨(2 * nrows.getD (c.nmax + 2) - 2).toNat, by omega⟩
  obtain ⟨k, ek⟩ : ∃ k : ℕ, ncols.getD (2 * c.mmax + 2) = k := ⟨(ncols.getD (2 * c.mmax + 2)).toNat, by omega⟩
  obtain ⟨t, p, e, a1, a2, a3, a4, a5, a6⟩ := NV.vispht_ok (rnd := rnd) hnp _ c hc N M r k eN eM (by omega) hn nrows ncols h1 h2 h3 er ek (NV.syn_py np N M r k (by omega) (by omega) (by omega) (by omega))
  obtain ⟨t', p', e', b1, b2, b3, b4, b5, b6⟩ := NV.vispht_ok (rnd := rnd) hnp _ c hc N M r k eN eM (by omega) hn nrows ncols h1 h2 h3 er ek (NV.syn_c J N M r k (by omega) (by omega) (by omega) (by omega))
  exact ⟨⟨t, p, e, by omega, by omega, by omega, by omega, a5, a6⟩, t', p', e', by omega, by omega, by omega, by omega, b5, b6⟩

/-- A 3×4 transverse pattern of zeros with one NaN in the phi component: all modes of degree 1 are NaN in both sets, with the Python routines and with the compiled extension. -/
theorem c133_example (rnd : ℝ → ℝ) (lm : Fl.LibM) (J : ℕ → NX.JunkX) : ∃ p c d,
    NX.ofSamplesT rnd (Arr2.ofFn 3 4 fun _ _ => 0) (Arr2.ofFn 3 4 fun i j => if i = 1 ∧ j = 2 then (.nan, .zero false) else 0) = .ok p ∧
    NX.vsphtPy rnd (NN.naive rnd) p (some 1) (some 1) = .ok c ∧ NX.vsphtC rnd (NN.naive rnd) lm J p (some 1) (some 1) = .ok d ∧
    (∃ a b, readMapV c 1 (-1) = some (a, b) ∧ IsNanC a ∧ IsNanC b) ∧ ∃ a b, readMapV d 1 1 = some (a, b) ∧ IsNanC a ∧ IsNanC b := by
  have hb : IsNanC ((Arr2.ofFn 3 4 fun i j => if i = 1 ∧ j = 2 then ((.nan, .zero false) : IE × IE) else 0).at' 1 2) := by
    rw [Arr2.at'_ofFn (by omega) (by omega), if_pos ⟨rfl, rfl⟩]; exact .inl rfl
  obtain ⟨T, P, e, r1, c1, r2, c2, nn⟩ := c133_pattern (rnd := rnd) (Arr2.ofFn 3 4 fun _ _ => 0) (Arr2.ofFn 3 4 fun i j => if i = 1 ∧ j = 2 then ((.nan, .zero false) : IE × IE) else 0) (by simp) rfl rfl
  simp only [Arr2.rows_ofFn, Arr2.cols_ofFn] at r1 c1 nn
  obtain ⟨⟨c, ec, -, -, -, hc⟩, d, ed, -, -, -, hd⟩ := c133_vspht (rnd := rnd) lm J NN.naive_ok ⟨T, P⟩ ⟨r2.symm, c2.symm⟩ (.inr ⟨1, 2, by show 1 < P.rows; omega, by show 2 < P.cols; omega, (nn 1 2 (by omega) (by omega)).2 hb⟩)
    (by show T.rows % 2 = 0; omega) (by show T.cols % 2 = 0; omega) 1 1 (by omega) (by omega) (by omega) (by show (1 : ℤ) < (T.rows : ℤ) / 2; omega) (by show 2 * (1 : ℤ) < T.cols; omega)
    (by show (T.rows : ℤ) + 2 + 1 ≤ 2 ^ 30; omega)
  exact ⟨_, c, d, e, ec, ed, hc 1 (-1) ⟨by omega, by omega, by simp, by simp⟩ (by omega), hd 1 1 ⟨by omega, by omega, by simp, by simp⟩ (by omega)⟩

end Verif.Props
