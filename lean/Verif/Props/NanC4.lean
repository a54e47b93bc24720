import Verif.Props.NanC3
import Verif.Props.NanX2
/-!
# C132: a NaN in the data is not hidden by the compiled extension (statements)
-/
namespace Verif.Props
open Verif Finset

variable {rnd : ℝ → ℝ}

namespace NC
open NN
variable {Bd : IE → Prop} [Sticky Bd]

theorem spht_ok (lm : Fl.LibM) (J : NX.JunkX) {np : NX.FftX} (hnp : FftBad Bd np) (A : Arr2 (IE × IE)) (hA : HasBad Bd A) (hr : A.rows % 2 = 0) (hc : A.cols % 2 = 0) (n m : ℤ) (hm0 : 0 ≤ m) (hmn : m ≤ n)
    (hn : n < A.rows / 2) (hm : 2 * m < A.cols) (hsz : A.rows + 2 + n ≤ 2 ^ 30) (nmax mmax : Option Int) (hargs : sphtArgs (.ok (A.rows / 2 + 1)) (.ok A.cols) nmax mmax = .ok (n, m)) :
    ∃ c, NX.kSpht rnd np lm J ⟨.arr A⟩ nmax mmax = .ok c ∧ c.WF ∧ c.nmax = n ∧ c.mmax = m ∧ ∀ z ∈ c.vec, Bad Bd z := by
  obtain ⟨N, rfl⟩ : ∃ N : ℕ, n = N := ⟨n.toNat, by omega⟩
  obtain ⟨M, rfl⟩ : ∃ M : ℕ, m = M := ⟨m.toNat, by omega⟩
  have hg : sphtGuards (.ok (A.rows / 2 + 1)) (.ok A.cols) N M = .ok () := by
    unfold sphtGuards
    rw [if_neg (by omega)]
    simp only [Except.bind_ok]
    rw [if_neg (by push_cast; omega), if_neg (by omega), if_neg (by omega)]
  obtain ⟨F, eF, rF, cF, nF⟩ := hnp.fft2 A (by omega) (by omega)
  have nF := nF hA
  unfold NX.kSpht
  simp only [SPatt.nrows, SPatt.ncols, SPatt.dsphere, Except.bind_ok, hargs, hg, eF]
  unfold fixEvenRow
  rw [if_pos (by omega), if_neg (by omega)]
  simp only [Except.bind_ok]
  unfold padRows
  rw [show (F.setRow (F.rows / 2) fun _ => 0).rows = F.rows from rfl, show (F.setRow (F.rows / 2) fun _ => 0).cols = F.cols from rfl]
  rw [if_neg (by omega)]
  simp only
  rw [if_neg (by omega)]
  simp only [Except.bind_ok]
  generalize hG : (Arr2.ofFn (A.rows + 2) F.cols fun i j => if i < F.rows / 2 then (F.setRow (F.rows / 2) fun _ => 0).at' i j
      else if A.rows + 2 - (F.rows / 2 - 1) ≤ i ∧ F.rows / 2 ≠ 0 then (F.setRow (F.rows / 2) fun _ => 0).at' (i + F.rows - (A.rows + 2)) j else 0) = G
  have rG : G.rows = A.rows + 2 := by rw [← hG]; rfl
  have cG : G.cols = A.cols := by rw [← hG, ← cF]; rfl
  have nG : ∀ j, j < A.cols → Bad Bd (G.at' 0 j) := by
    intro j hj
    rw [← hG, Arr2.at'_ofFn (by omega) (by omega), if_pos (by omega)]
    unfold Arr2.setRow
    rw [Arr2.at'_ofFn (by omega) (by omega), if_neg (by omega)]
    exact nF 0 j (by omega) (by omega)
  unfold NX.sinFc
  rw [if_neg (by omega)]
  simp only [Except.bind_ok]
  generalize hH : (Arr2.ofFn ((G.setRow ((G.rows - 2) / 2) fun _ => 0).setRow (((G.setRow ((G.rows - 2) / 2) fun _ => 0).rows + 2) / 2) fun _ => 0).rows
      ((G.setRow ((G.rows - 2) / 2) fun _ => 0).setRow (((G.setRow ((G.rows - 2) / 2) fun _ => 0).rows + 2) / 2) fun _ => 0).cols _) = H
  have rH : H.rows = A.rows + 2 := by rw [← hH, ← rG]; rfl
  have cH : H.cols = A.cols := by rw [← hH, ← cG]; rfl
  have nH : ∀ j, j < H.cols → Bad Bd (H.at' 1 j) := by
    intro j hj
    have e : ∀ (X : Arr2 (IE × IE)) (k : ℕ), (X.setRow k fun _ => (0 : IE × IE)).rows = X.rows ∧ (X.setRow k fun _ => (0 : IE × IE)).cols = X.cols := fun _ _ => ⟨rfl, rfl⟩
    rw [← hH, Arr2.at'_ofFn (by simp only [e]; omega) (by simp only [e]; omega)]
    refine cmul_r _ (csub_l _ ?_)
    rw [if_neg (by omega)]
    unfold Arr2.setRow
    simp only [Arr2.rows_ofFn, Arr2.cols_ofFn]
    rw [Arr2.at'_ofFn (by omega) (by omega), if_neg (by omega), Arr2.at'_ofFn (by omega) (by omega), if_neg (by omega)]
    exact nG j (by omega)
  obtain ⟨sc, es, ls, ns⟩ := fcToSc_ok (rnd := rnd) lm H N M (by omega) (by omega) (by omega) (by omega) nH (by omega) J
  rw [es]
  simp only [Except.bind_ok]
  rw [ScalarCoefs.init_wf (by omega) (by omega) ls.symm]
  exact ⟨_, rfl, ⟨by simp, by simpa using hmn, ls⟩, rfl, rfl, ns⟩

theorem ispht_ok (J : NX.JunkX) {np : NX.FftX} (hnp : FftBad Bd np) (c : ScalarCoefs (IE × IE)) (hc : c.WF) (hn : ∃ z ∈ c.vec, Bad Bd z) (nrows ncols : Option Int)
    (h1 : c.nmax < nrows.getD (c.nmax + 2)) (h1' : 2 ≤ nrows.getD (c.nmax + 2)) (h2 : 2 * c.mmax + 2 ≤ ncols.getD (2 * c.mmax + 2)) (h3 : ncols.getD (2 * c.mmax + 2) % 2 = 0) :
    ∃ A, NX.cIspht rnd np J c nrows ncols = .ok ⟨.arr A⟩ ∧ (A.rows : ℤ) = 2 * nrows.getD (c.nmax + 2) - 2 ∧ (A.cols : ℤ) = ncols.getD (2 * c.mmax + 2) ∧ AllBad Bd A := by
  generalize hnr : nrows.getD (c.nmax + 2) = nr at *
  generalize hnc : ncols.getD (2 * c.mmax + 2) = nc at *
  have m0 := hc.m0
  have mn := hc.mn
  obtain ⟨N, eN⟩ : ∃ N : ℕ, c.nmax = N := ⟨c.nmax.toNat, by omega⟩
  obtain ⟨M, eM⟩ : ∃ M : ℕ, c.mmax = M := ⟨c.mmax.toNat, by omega⟩
  have hl : c.vec.length = seg (N + 1) (2 * M + 1) := by
    have := hc.len'
    rw [eN, eM] at this
    simpa using this
  obtain ⟨r, er⟩ : ∃ r : ℕ, 2 * nr - 2 = r := ⟨(2 * nr - 2).toNat, by omega⟩
  obtain ⟨k, ek⟩ : ∃ k : ℕ, nc = k := ⟨nc.toNat, by omega⟩
  unfold NX.cIspht isphtGuards
  rw [hnr, hnc]
  simp only
  rw [if_neg (by omega), if_neg (by omega), if_neg (by omega)]
  simp only [Except.bind_ok, er, ek, eN, eM]
  unfold npZeros2
  rw [if_neg (by omega)]
  simp only [Except.bind_ok, Int.toNat_natCast]
  obtain ⟨F, eF, lF, nF⟩ := scToFc_ok (rnd := rnd) (Bd := Bd) c.vec N M r k (by omega) (by omega) (by omega) hl J (Arr2.ofFn r k fun _ _ => (0 : IE × IE)).flat (by rw [Arr2.length_flat]; rfl) 0 (by omega) (by omega)
  have eF' : NX.cScToFc rnd (Arr2.ofFn r k fun _ _ => (0 : IE × IE)).flat (Arr2.ofFn r k fun _ _ => (0 : IE × IE)).rows (Arr2.ofFn r k fun _ _ => (0 : IE × IE)).cols c.vec N M J = .ok F := eF
  rw [eF']
  simp only [Except.bind_ok, Arr2.rows_ofFn, Arr2.cols_ofFn]
  obtain ⟨D, eD, rD, cD, nD⟩ := hnp.ifft2 (unflat r k F) r k (by show 0 < r; omega) (by show 0 < k; omega) rfl rfl
  rw [eD]
  have hr1 : (unflat r k F).rows = r := rfl
  have hr2 : (unflat r k F).cols = k := rfl
  refine ⟨D, rfl, by omega, by omega, nD ?_⟩
  obtain ⟨z, hz, nz⟩ := hn
  obtain ⟨i, hi, rfl⟩ := List.getElem_of_mem hz
  obtain ⟨n, m, hmode, e⟩ := slot_surj hc.m0 hc.mn (j := i) (by rw [← hc.len']; exact hi)
  rw [eN, eM] at hmode
  rw [eN] at e
  have hlt : (m % k).toNat < k := by
    have := Int.emod_lt_of_pos m (show (0 : ℤ) < k by omega)
    have := Int.emod_nonneg m (show (k : ℤ) ≠ 0 by omega)
    omega
  refine ⟨0, (m % k).toNat, by show 0 < r; omega, hlt, ?_⟩
  unfold unflat
  rw [Arr2.at'_ofFn (by omega) hlt, Nat.mul_zero, ← Nat.zero_mul k]
  refine nF m (by obtain ⟨_, _, _, _⟩ := hmode; have := Int.abs_eq_natAbs m; omega) ⟨n, hmode, ?_⟩
  rw [e]
  simpa [rd, hi] using nz

end NC

/-- kiss_fft of any length (forward or inverse): if one input is NaN, the transform returns and every output is NaN. -/
theorem c132_kiss (lm : Fl.LibM) (inv : Bool) (l : List (IE × IE)) (h0 : l ≠ []) (hl : l.length < 2 ^ 32) (hn : ∃ z ∈ l, IsNanC z) (junk : ℕ → IE × IE) :
    ∃ cfg out, NX.kissAlloc rnd lm l.length inv = .ok cfg ∧ NX.kissFft rnd cfg l junk = .ok out ∧ out.length = l.length ∧ ∀ z ∈ out, IsNanC z := by
  have hp : 0 < l.length := List.length_pos_iff.mpr h0
  obtain ⟨cfg, e, ok⟩ := NC.kissAlloc_ok (rnd := rnd) lm l.length inv hp hl
  obtain ⟨out, e2, ol, on⟩ := NC.kissFft_ok (rnd := rnd) (Bd := IsNan) ok hp l rfl junk
  refine ⟨cfg, out, e, e2, ol, NN.all_of_rd fun k hk => on ?_ k (by omega)⟩
  obtain ⟨z, hz, nz⟩ := hn
  obtain ⟨i, hi, rfl⟩ := List.getElem_of_mem hz
  exact ⟨i, hi, by simpa [rd, hi] using nz⟩

/-- `spht` with the compiled extension: if any stored sample is NaN, the call returns a well-formed set in which **every** coefficient is NaN,
whatever the uninitialised memory held. -/
theorem c132_spht (lm : Fl.LibM) (J : NX.JunkX) {np : NX.FftX} (hnp : FftNan np) (A : Arr2 (IE × IE)) (hA : HasNan A) (hr : A.rows % 2 = 0) (hc : A.cols % 2 = 0) (n m : ℤ) (hm0 : 0 ≤ m) (hmn : m ≤ n)
    (hn : n < A.rows / 2) (hm : 2 * m < A.cols) (hsz : A.rows + 2 + n ≤ 2 ^ 30) :
    ∃ c, NX.kSpht rnd np lm J ⟨.arr A⟩ (some n) (some m) = .ok c ∧ c.WF ∧ c.nmax = n ∧ c.mmax = m ∧ ∀ z ∈ c.vec, IsNanC z :=
  NC.spht_ok lm J hnp A hA hr hc n m hm0 hmn hn hm hsz _ _ rfl

/-- `ispht` with the compiled extension: if any coefficient is NaN, the call returns a pattern in which **every** sample is NaN. -/
theorem c132_ispht (J : NX.JunkX) {np : NX.FftX} (hnp : FftNan np) (c : ScalarCoefs (IE × IE)) (hc : c.WF) (hn : ∃ z ∈ c.vec, IsNanC z) (nrows ncols : Option Int)
    (h1 : c.nmax < nrows.getD (c.nmax + 2)) (h1' : 2 ≤ nrows.getD (c.nmax + 2)) (h2 : 2 * c.mmax + 2 ≤ ncols.getD (2 * c.mmax + 2)) (h3 : ncols.getD (2 * c.mmax + 2) % 2 = 0) :
    ∃ A, NX.cIspht rnd np J c nrows ncols = .ok ⟨.arr A⟩ ∧ (A.rows : ℤ) = 2 * nrows.getD (c.nmax + 2) - 2 ∧ (A.cols : ℤ) = ncols.getD (2 * c.mmax + 2) ∧ AllNan A :=
  NC.ispht_ok J hnp c hc hn nrows ncols h1 h1' h2 h3

/-- From user samples to coefficients and back with the compiled extension: one NaN sample makes every coefficient and every sample of the reconstruction NaN. -/
theorem c132_round_trip (lm : Fl.LibM) (J J' : NX.JunkX) {np : NX.FftX} (hnp : FftNan np) (cdata : Arr2 (IE × IE)) (hA : HasNan cdata) (hr : 2 ≤ cdata.rows) (hc : cdata.cols % 2 = 0) (n m : ℤ) (hm0 : 0 ≤ m) (hmn : m ≤ n)
    (hn : n ≤ (cdata.rows : ℤ) - 2) (hm : 2 * m < cdata.cols) (hsz : cdata.rows ≤ 2 ^ 28) :
    ∃ p c q A, NX.ofSamples rnd cdata = .ok p ∧ NX.kSpht rnd np lm J p (some n) (some m) = .ok c ∧ (∀ z ∈ c.vec, IsNanC z) ∧
      NX.cIspht rnd np J' c (some cdata.rows) (some cdata.cols) = .ok q ∧ q = ⟨.arr A⟩ ∧ A.rows = 2 * cdata.rows - 2 ∧ A.cols = cdata.cols ∧ AllNan A := by
  obtain ⟨A, eA, rA, cA, nA⟩ := c131_pattern (rnd := rnd) cdata hr
  obtain ⟨i, j, hi, hj, hz⟩ := hA
  obtain ⟨c, ec, wc, cn, cm, nc⟩ := c132_spht (rnd := rnd) lm J hnp A ⟨i, j, by omega, by omega, nA i j hi hj hz⟩ (by omega) (by omega) n m hm0 hmn (by omega) (by omega) (by omega)
  have hl := wc.len
  obtain ⟨B, eB, rB, cB, nB⟩ := c132_ispht (rnd := rnd) J' hnp c wc (by
    obtain ⟨z, hz⟩ : ∃ z, z ∈ c.vec := by
      cases h : c.vec with
      | nil =>
        rw [h, cn, cm] at hl
        unfold ncFormula at hl
        simp at hl
        nlinarith
      | cons z l => exact ⟨z, by simp⟩
    exact ⟨z, hz, nc z hz⟩) (some cdata.rows) (some cdata.cols) (by simp; omega) (by simp; omega) (by simp; omega) (by simp; omega)
  simp only [Option.getD_some] at rB cB
  exact ⟨_, c, _, B, eA, ec, nc, eB, rfl, by omega, by omega, nB⟩

/-- Seven inputs (a generic butterfly), one of them NaN. -/
theorem c132_kiss_example (rnd : ℝ → ℝ) (lm : Fl.LibM) : ∃ cfg out, NX.kissAlloc rnd lm 7 false = .ok cfg ∧
    NX.kissFft rnd cfg (List.replicate 3 0 ++ [(.nan, .zero false)] ++ List.replicate 3 0) (fun _ => 0) = .ok out ∧ out.length = 7 ∧ ∀ z ∈ out, IsNanC z := by
  have := c132_kiss (rnd := rnd) lm false (List.replicate 3 0 ++ [(.nan, .zero false)] ++ List.replicate 3 0) (by simp) (by simp) ⟨(.nan, .zero false), by simp, .inl rfl⟩ (fun _ => 0)
  exact this

/-- A 3×4 pattern of zeros with one NaN at the equator: all four coefficients up to degree 1 are NaN, for every rounding and every content of fresh memory. -/
theorem c132_example (rnd : ℝ → ℝ) (lm : Fl.LibM) (J : NX.JunkX) : ∃ p c, NX.ofSamples rnd (Arr2.ofFn 3 4 fun i j => if i = 1 ∧ j = 2 then (.nan, .zero false) else 0) = .ok p ∧
    NX.kSpht rnd (NN.naive rnd) lm J p (some 1) (some 1) = .ok c ∧ c.vec.length = 4 ∧ ∀ z ∈ c.vec, IsNanC z := by
  have hb : IsNanC ((Arr2.ofFn 3 4 fun i j => if i = 1 ∧ j = 2 then ((.nan, .zero false) : IE × IE) else 0).at' 1 2) := by
    rw [Arr2.at'_ofFn (by omega) (by omega), if_pos ⟨rfl, rfl⟩]; exact .inl rfl
  obtain ⟨A, eA, rA, cA, nA⟩ := c131_pattern (rnd := rnd) (Arr2.ofFn 3 4 fun i j => if i = 1 ∧ j = 2 then ((.nan, .zero false) : IE × IE) else 0) (by simp)
  simp only [Arr2.rows_ofFn, Arr2.cols_ofFn] at rA cA nA
  obtain ⟨c, ec, wc, cn, cm, nc⟩ := c132_spht (rnd := rnd) lm J NN.naive_ok A ⟨1, 2, by omega, by omega, nA 1 2 (by omega) (by omega) hb⟩ (by omega) (by omega) 1 1 (by omega) (by omega) (by omega) (by omega) (by omega)
  refine ⟨_, c, eA, ec, ?_, nc⟩
  have := wc.len
  rw [cn, cm] at this
  norm_num [ncFormula] at this
  omega

end Verif.Props
