import Verif.Props.FloatVec4
/-!
# C110: modes that are not there change no bit

Zero-padding a coefficient set to larger limits leaves every double of the synthesised pattern as it is.
-/
namespace Verif.Props
open Verif Finset
variable {rnd : ℝ → ℝ}

namespace FD
open FS FV

theorem forM'_two {σ τ ι : Type} {R : σ → τ → Prop} {f : σ → ι → Res σ} {g : τ → ι → Res τ} {xs : List ι}
    (h : ∀ x ∈ xs, ∀ s t, R s t → ∃ s' t', f s x = .ok s' ∧ g t x = .ok t' ∧ R s' t') {s : σ} {t : τ} (h0 : R s t) :
    ∃ s' t', forM' xs s f = .ok s' ∧ forM' xs t g = .ok t' ∧ R s' t' := by
  induction xs generalizing s t with
  | nil => exact ⟨s, t, rfl, rfl, h0⟩
  | cons x xs ih =>
    obtain ⟨s1, t1, e1, e2, h1⟩ := h x (by simp) s t h0
    obtain ⟨s2, t2, e3, e4, h2⟩ := ih (fun y hy => h y (by simp [hy])) h1
    refine ⟨s2, t2, ?_, ?_, h2⟩
    · unfold forM'; rw [e1]; exact e3
    · unfold forM'; rw [e2]; exact e4

/-- Two tables of different length that hold the same numbers, zeros beyond `n`. -/
def Same (n L L' : ℕ) (y z : List ℝ) : Prop := y.length = L ∧ z.length = L' ∧ (∀ i, rd y i = rd z i) ∧ ∀ i, n < i → rd y i = 0

theorem getIdx_rd' {y : List ℝ} {k : ℤ} (h0 : 0 ≤ k) (h1 : k < y.length) : getIdx y k = .ok (rd y k.toNat) := getIdx_rd h0 h1

theorem Same.set {n L L' : ℕ} {y z : List ℝ} (h : Same n L L' y z) (hL : n < L) (hL' : n < L') {k : ℤ} (k0 : 0 ≤ k) (k1 : k ≤ n) (v : ℝ) :
    ∃ y' z', setIdx y k v = .ok y' ∧ setIdx z k v = .ok z' ∧ Same n L L' y' z' := by
  obtain ⟨a, b, c, d⟩ := h
  refine ⟨_, _, setIdx_of_lt k0 (by omega), setIdx_of_lt k0 (by omega), by rw [List.length_set, a], by rw [List.length_set, b], fun i => ?_, fun i hi => ?_⟩
  · rw [rd_set _ _ _ _ (by omega), rd_set _ _ _ _ (by omega), c]
  · rw [rd_set _ _ _ _ (by omega), if_neg (by omega), d i hi]

/-- The table of `(n, m)` does not depend on the length asked for. -/
theorem table_len (n : ℕ) (m : ℤ) (L L' : ℕ) (hm : m.natAbs ≤ n) (hL : n < L) (hL' : n < L') :
    ∃ y z, Fl.ynunm rnd n m L = .ok y ∧ Fl.ynunm rnd n m L' = .ok z ∧ Same n L L' y z := by
  unfold Fl.ynunm npFull
  rw [if_neg (by omega), if_neg (by omega)]
  simp only [Except.bind_ok]
  have hab : |m| ≤ (n : ℤ) := by rw [Int.abs_eq_natAbs]; omega
  rw [if_pos hab, if_pos hab]
  have s0 : Same n L L' (List.replicate (L : ℤ).toNat (0 : ℝ)) (List.replicate (L' : ℤ).toNat (0 : ℝ)) :=
    ⟨by simp, by simp, fun i => by rw [rd_replicate_zero, rd_replicate_zero], fun i _ => rd_replicate_zero _ _⟩
  obtain ⟨y1, z1, e1, f1, s1⟩ := s0.set hL hL' (k := n) (by omega) le_rfl (Fl.ynnm rnd n m)
  rw [e1, f1]
  simp only [Except.bind_ok]
  by_cases hk : (n : ℤ) - 2 ≥ 0
  · rw [if_pos hk, if_pos hk, getIdx_rd (by omega) (by have := s1.1; omega), getIdx_rd (by omega) (by have := s1.2.1; omega)]
    simp only [Except.bind_ok]
    rw [s1.2.2.1]
    obtain ⟨y2, z2, e2, f2, s2⟩ := s1.set hL hL' (k := (n : ℤ) - 2) (by omega) (by omega) (rnd (rnd (rnd (Fl.tmp rnd n (n - 2) 1 2 + Fl.tmp2 rnd n m (n - 2)) *
        rd z1 ((n : ℤ) - 2 + 2).toNat) / Fl.tmp4 rnd n (n - 2)))
    rw [e2, f2]
    simp only [Except.bind_ok]
    refine forM'_two (R := Same n L L') (fun k hk' y z hs => ?_) s2
    have hkr : 0 ≤ k ∧ k ≤ (n : Int) - 4 := by
      unfold pyRangeNeg at hk'
      simp only [List.mem_map, List.mem_range] at hk'
      obtain ⟨j, hj, rfl⟩ := hk'
      omega
    have l1 := hs.1
    have l2 := hs.2.1
    unfold Fl.ynunmStep
    rw [getIdx_rd (by omega) (by omega), getIdx_rd (by omega) (by omega), getIdx_rd (by omega) (by omega), getIdx_rd (by omega) (by omega)]
    simp only [Except.bind_ok]
    rw [hs.2.2.1, hs.2.2.1]
    exact hs.set hL hL' hkr.1 (by omega) _
  · rw [if_neg hk, if_neg hk]
    exact ⟨y1, z1, rfl, rfl, s1⟩

theorem yF_len {n : ℕ} {m : ℤ} {N N' : ℕ} (hm : m.natAbs ≤ n) (h : n ≤ N) (h' : n ≤ N') (i : ℕ) : yF rnd N m n i = yF rnd N' m n i := by
  obtain ⟨y, z, e, f, s⟩ := table_len (rnd := rnd) n m (N + 1) (N' + 1) hm (by omega) (by omega)
  rw [yF_eq e, yF_eq f, s.2.2.1]

theorem yF_zero {n : ℕ} {m : ℤ} {N : ℕ} (hm : m.natAbs ≤ n) (h : n ≤ N) {i : ℕ} (hi : n < i) : yF rnd N m n i = 0 := by
  obtain ⟨y, z, e, f, s⟩ := table_len (rnd := rnd) n m (N + 1) (N + 1) hm (by omega) (by omega)
  rw [yF_eq e, s.2.2.2 i hi]

/-- Both parts are doubles. -/
def Fix (x : FC rnd) : Prop := rnd x.re = x.re ∧ rnd x.im = x.im

theorem fix_add (h : NoOverflow rnd) (x y : FC rnd) : Fix (x + y) := ⟨h.idem _, h.idem _⟩

theorem fix_zero (h : NoOverflow rnd) : Fix (0 : FC rnd) := ⟨rnd0 h, rnd0 h⟩

theorem add_zero' {x : FC rnd} (hx : Fix x) : x + 0 = x := by
  show (⟨rnd (x.re + 0), rnd (x.im + 0)⟩ : FC rnd) = x
  rw [add_zero, add_zero, hx.1, hx.2]

theorem zero_mul' (h : NoOverflow rnd) (x : FC rnd) : 0 * x = 0 := by
  show (⟨rnd (rnd (0 * x.re) - rnd (0 * x.im)), rnd (rnd (0 * x.im) + rnd (0 * x.re))⟩ : FC rnd) = ⟨0, 0⟩
  simp only [zero_mul, rnd0 h, sub_zero, add_zero]

theorem mul_zero' (h : NoOverflow rnd) (x : FC rnd) : x * 0 = 0 := by
  show (⟨rnd (rnd (x.re * 0) - rnd (x.im * 0)), rnd (rnd (x.re * 0) + rnd (x.im * 0))⟩ : FC rnd) = ⟨0, 0⟩
  simp only [mul_zero, rnd0 h, sub_zero, add_zero]

theorem fix_part (h : NoOverflow rnd) (v : ℤ → ℕ → FC rnd) (N : ℕ) (m : ℤ) (i k : ℕ) : Fix (partF v N m i k) := by
  cases k with
  | zero => exact fix_zero h
  | succ k => exact fix_add h _ _

/-- Equal coefficients up to degree `N`: equal running sums. -/
theorem part_eq {v w : ℤ → ℕ → FC rnd} {N N' : ℕ} {m : ℤ} (i : ℕ) {k : ℕ} (hN : m.natAbs + k ≤ N + 1) (hN' : m.natAbs + k ≤ N' + 1)
    (hvw : ∀ n, m.natAbs ≤ n → n < m.natAbs + k → v m n = w m n) : partF v N m i k = partF w N' m i k := by
  induction k with
  | zero => rfl
  | succ k ih =>
    unfold partF
    rw [ih (by omega) (by omega) fun n a b => hvw n a (by omega), hvw _ (by omega) (by omega), yF_len (N' := N') (by omega) (by omega) (by omega)]

/-- Terms with coefficient zero, or with table entry zero, change nothing. -/
theorem part_tail (h : NoOverflow rnd) {v : ℤ → ℕ → FC rnd} {N : ℕ} {m : ℤ} {i k l : ℕ}
    (hz : ∀ n, m.natAbs + k ≤ n → n < m.natAbs + k + l → v m n = 0) : partF v N m i (k + l) = partF v N m i k := by
  induction l with
  | zero => rfl
  | succ l ih =>
    rw [← add_assoc]
    conv_lhs => unfold partF
    rw [ih fun n a b => hz n a (by omega), hz _ (by omega) (by omega), zero_mul' h, add_zero' (fix_part h _ _ _ _ _)]

theorem part_high (h : NoOverflow rnd) {v : ℤ → ℕ → FC rnd} {N : ℕ} {m : ℤ} {i k : ℕ} (hk : m.natAbs + k ≤ N + 1)
    (hi : m.natAbs + k ≤ i) : partF v N m i k = 0 := by
  induction k with
  | zero => rfl
  | succ k ih =>
    unfold partF
    rw [ih (by omega) (by omega), yF_zero (by omega) (by omega) (by omega), show (⟨0, 0⟩ : FC rnd) = 0 from rfl, mul_zero' h, add_zero' (fix_zero h)]

/-- Column `m` of the Fourier data: `v` up to degree `N` and zero from there on. -/
theorem GF_pad (h : NoOverflow rnd) (jp : Int → FC rnd) {v w : ℤ → ℕ → FC rnd} {N N' : ℕ} (hNN : N ≤ N') {m : ℤ} (hm : m.natAbs ≤ N)
    (hvw : ∀ n, m.natAbs ≤ n → n ≤ N → w m n = v m n) (hz : ∀ n, N < n → n ≤ N' → w m n = 0) (i : ℕ) : GF jp w N' m i = GF jp v N m i := by
  have e : partF w N' m i (N' + 1 - m.natAbs) = partF v N m i (N + 1 - m.natAbs) := by
    rw [show N' + 1 - m.natAbs = (N + 1 - m.natAbs) + (N' - N) by omega, part_tail h fun n a b => hz n (by omega) (by omega)]
    exact part_eq i (by omega) (by omega) fun n a b => hvw n a (by omega)
  unfold GF
  by_cases h1 : i < N + 1
  · rw [if_pos h1, if_pos (by omega), e]
  · rw [if_neg h1]
    split
    · rw [e, part_high h (by omega) (by omega), zero_mul' h]
    · rfl

theorem GF_null (h : NoOverflow rnd) (jp : Int → FC rnd) {w : ℤ → ℕ → FC rnd} {N : ℕ} {m : ℤ}
    (hz : ∀ n, m.natAbs ≤ n → n ≤ N → w m n = 0) (i : ℕ) : GF jp w N m i = 0 := by
  have e : partF w N m i (N + 1 - m.natAbs) = 0 := by
    rw [show N + 1 - m.natAbs = 0 + (N + 1 - m.natAbs) by omega, part_tail h fun n a b => hz n (by omega) (by omega)]
    rfl
  unfold GF
  split
  · rw [e, zero_mul' h]
  · rfl

/-- The columns of a sum of modes are the columns of the padded one. -/
theorem synth_pad (h : NoOverflow rnd) (jp : Int → FC rnd) {u w : List (FC rnd)} {N N' M M' r c : ℕ} (hNN : N ≤ N') (hMM : M ≤ M') (hM : M ≤ N)
    (hc : 2 * M' + 2 ≤ c) {A B : Arr2 (FC rnd)} (hA : IsSynthF jp u N M r c A) (hB : IsSynthF jp w N' M' r c B)
    (hv : ∀ (m : ℤ) (n : ℕ), m.natAbs ≤ M → m.natAbs ≤ n → n ≤ N → cfF w N' m n = cfF u N m n)
    (hz : ∀ (m : ℤ) (n : ℕ), m.natAbs ≤ M' → m.natAbs ≤ n → n ≤ N' → ¬ (m.natAbs ≤ M ∧ n ≤ N) → cfF w N' m n = 0) : B = A := by
  refine Arr2.ext' (by rw [hA.rows, hB.rows]) (by rw [hA.cols, hB.cols]) fun i j hi hj => ?_
  rw [hB.rows] at hi
  rw [hB.cols] at hj
  have key : ∀ m : ℤ, m.natAbs ≤ M' → B.at' i (m % c).toNat = A.at' i (m % c).toNat := by
    intro m hm
    rw [hB.val m i hm hi]
    by_cases h1 : m.natAbs ≤ M
    · rw [hA.val m i h1 hi]
      unfold entryF
      rw [GF_pad h jp hNN (v := cfF u N) (by omega) (fun n a b => hv m n h1 a b) fun n a b => hz m n hm (by omega) b (by omega),
        GF_pad h jp hNN (v := cfF u N) (by omega) (fun n a b => hv m n h1 a b) fun n a b => hz m n hm (by omega) b (by omega)]
    · have e0 : A.at' i (m % c).toNat = 0 := by
        refine hA.zero i _ ?_ ?_ <;> rw [wrap_mod (by omega) (by omega)] <;> split <;> omega
      rw [e0]
      unfold entryF
      rw [GF_null h jp fun n a b => hz m n hm a b (by omega), GF_null h jp fun n a b => hz m n hm a b (by omega), mul_zero' h]
      exact ite_self _
  by_cases h1 : j ≤ M'
  · have := key j (by omega)
    rw [wrap_mod (by omega) (by omega), if_neg (by omega)] at this
    simpa using this
  · by_cases h2 : c ≤ j + M'
    · have := key ((j : ℤ) - c) (by omega)
      rw [wrap_mod (by omega) (by omega), if_pos (by omega)] at this
      rwa [show ((j : ℤ) - c + c).toNat = j by omega] at this
    · rw [hA.zero i j (by omega) (by omega), hB.zero i j (by omega) (by omega)]


/-- `d` is `c` with limits at least as large, zero in every additional mode (the scalar sets compared through `absMap`, the map of C02). -/
structure Pad (c d : ScalarCoefs (FC rnd)) : Prop where
  n : c.nmax ≤ d.nmax
  m : c.mmax ≤ d.mmax
  same : ∀ n m, IsMode c.nmax c.mmax n m → d.absMap n m = c.absMap n m
  zero : ∀ n m, IsMode d.nmax d.mmax n m → ¬ IsMode c.nmax c.mmax n m → d.absMap n m = some 0

theorem len_of {c : ScalarCoefs (FC rnd)} (h : c.WF) {N M : ℕ} (hn : c.nmax = N) (hm : c.mmax = M) : c.vec.length = seg (N + 1) (2 * M + 1) := by
  have hmn := h.mn
  have := h.len
  have e := ncFormula_eq (nmax := N) (mmax := M) (by omega) (by omega)
  rw [hn, hm, e, show ((N : ℤ) + 1).toNat = N + 1 by omega, Int.toNat_natCast] at this
  exact_mod_cast this

theorem mode_nat {N M n : ℕ} {m : ℤ} (h1 : m.natAbs ≤ n) (h2 : n ≤ N) (h3 : m.natAbs ≤ M) : IsMode (N : ℤ) (M : ℤ) n m :=
  ⟨by omega, by omega, by rw [Int.abs_eq_natAbs]; omega, by rw [Int.abs_eq_natAbs]; omega⟩

theorem not_mode_nat {N M n : ℕ} {m : ℤ} (h : ¬ (m.natAbs ≤ M ∧ n ≤ N)) : ¬ IsMode (N : ℤ) (M : ℤ) n m := by
  rintro ⟨-, h2, h3, h4⟩
  rw [Int.abs_eq_natAbs] at h3 h4
  exact h ⟨by omega, by omega⟩

/-- With the Python routines. -/
theorem py_pad (h : NoOverflow rnd) (jp : Int → FC rnd) {c d : ScalarCoefs (FC rnd)} (hc : c.WF) (hd : d.WF) (hp : Pad c d) (call : ℕ) (dn nc : ℤ)
    (hdn : d.nmax + 1 ≤ dn) (hnc : 2 * d.mmax + 2 ≤ nc) :
    Fl.backendScToFc rnd jp .py call d.vec d.nmax d.mmax dn nc = Fl.backendScToFc rnd jp .py call c.vec c.nmax c.mmax dn nc := by
  have c0 := hc.m0
  have c1 := hc.mn
  have d0 := hd.m0
  have d1 := hd.mn
  have pn := hp.n
  have pm := hp.m
  have P3 := hp.same
  have P4 := hp.zero
  obtain ⟨N, hN⟩ := Int.eq_ofNat_of_zero_le (show 0 ≤ c.nmax by omega)
  obtain ⟨M, hM⟩ := Int.eq_ofNat_of_zero_le c0
  obtain ⟨N', hN'⟩ := Int.eq_ofNat_of_zero_le (show 0 ≤ d.nmax by omega)
  obtain ⟨M', hM'⟩ := Int.eq_ofNat_of_zero_le d0
  obtain ⟨r, rfl⟩ := Int.eq_ofNat_of_zero_le (show 0 ≤ dn by omega)
  obtain ⟨k, rfl⟩ := Int.eq_ofNat_of_zero_le (show 0 ≤ nc by omega)
  obtain ⟨A, eA, hA⟩ := FS.scToFc_spec jp c.vec N M r k (by omega) (by omega) (by omega) (len_of hc hN hM)
  obtain ⟨B, eB, hB⟩ := FS.scToFc_spec jp d.vec N' M' r k (by omega) (by omega) (by omega) (len_of hd hN' hM')
  have e : B = A := by
    refine synth_pad h jp (by omega) (by omega) (by omega) (by omega) hA hB (fun m n a1 a2 a3 => ?_) fun m n a1 a2 a3 a4 => ?_
    · have k1 := cfF_eq hd hN' hM' a2 (show n ≤ N' by omega) (show m.natAbs ≤ M' by omega)
      have k2 := cfF_eq hc hN hM a2 a3 a1
      rw [readMap_eq hd, P3 n m (by rw [hN, hM]; exact mode_nat a2 a3 a1)] at k1
      rw [readMap_eq hc, k1] at k2
      exact Option.some.inj k2
    · have k1 := cfF_eq hd hN' hM' a2 a3 a1
      rw [readMap_eq hd, P4 n m (by rw [hN', hM']; exact mode_nat a2 a3 a1) (by rw [hN, hM]; exact not_mode_nat a4)] at k1
      exact (Option.some.inj k1).symm
  show Fl.scToFc rnd jp d.vec d.nmax d.mmax r k = Fl.scToFc rnd jp c.vec c.nmax c.mmax r k
  rw [hN, hM, hN', hM', eA, eB, e]

/-- With either backend. -/
theorem backend_pad (h : NoOverflow rnd) (jp : Int → FC rnd) (b : Backend) {c d : ScalarCoefs (FC rnd)} (hc : c.WF) (hd : d.WF) (hp : Pad c d) (call : ℕ) (dn nc : ℤ)
    (hb : b ≠ .py → d.nmax ≤ 2 ^ 20) (hdn : d.nmax + 1 ≤ dn) (hnc : 2 * d.mmax + 2 ≤ nc) :
    Fl.backendScToFc rnd jp b call d.vec d.nmax d.mmax dn nc = Fl.backendScToFc rnd jp b call c.vec c.nmax c.mmax dn nc := by
  cases b with
  | py => exact py_pad h jp hc hd hp call dn nc hdn hnc
  | c J =>
    have hb := hb (by simp)
    have pn := hp.n
    have pm := hp.m
    have c0 := hc.m0
    have d0 := hd.m0
    let j0 : Int → FC rnd := fun m => ⟨(Complex.I ^ m).re, (Complex.I ^ m).im⟩
    have hj : PowExactTo d.mmax.toNat j0 := fun m _ => rfl
    show Fl.backendScToFc rnd j0 (.c J) call d.vec d.nmax d.mmax dn nc = Fl.backendScToFc rnd j0 (.c J) call c.vec c.nmax c.mmax dn nc
    rw [FS.py_eq_c h hj J call d hd (by omega) hb dn nc hdn hnc, FS.py_eq_c h hj J call c hc (by omega) (by omega) dn nc (by omega) (by omega)]
    exact py_pad h j0 hc hd hp call dn nc hdn hnc

/-- Weighting degree by degree keeps the padding. -/
theorem windowed_pad (h : NoOverflow rnd) {c d : ScalarCoefs (FC rnd)} (hc : c.WF) (hd : d.WF) (hn : c.nmax ≤ d.nmax) (hm : c.mmax ≤ d.mmax)
    (same : ∀ n m, IsMode c.nmax c.mmax n m → n ≠ 0 → d.absMap n m = c.absMap n m)
    (zero : ∀ n m, IsMode d.nmax d.mmax n m → ¬ IsMode c.nmax c.mmax n m → n ≠ 0 → d.absMap n m = some 0) {N N' : ℕ} (hN : c.nmax = N) (hN' : d.nmax = N')
    {w w' : List (FC rnd)} (lw : w.length = N + 1) (lw' : w'.length = N' + 1) (gw : ∀ k, k ≤ N → w[k]? = some ⟨wF rnd k, 0⟩) (gw' : ∀ k, k ≤ N' → w'[k]? = some ⟨wF rnd k, 0⟩) :
    ∃ e f, c.windowed w = .ok e ∧ d.windowed w' = .ok f ∧ e.WF ∧ f.WF ∧ e.nmax = c.nmax ∧ e.mmax = c.mmax ∧ f.nmax = d.nmax ∧ f.mmax = d.mmax ∧ Pad e f := by
  obtain ⟨e1, w1, n1, m1, v1⟩ := ScalarCoefs.window_eq hc (w := w) (by omega)
  obtain ⟨e2, w2, n2, m2, v2⟩ := ScalarCoefs.window_eq hd (w := w') (by omega)
  have u1 : c.windowed w = .ok (c.window w).st := by unfold ScalarCoefs.windowed; simp only [e1]
  have u2 : d.windowed w' = .ok (d.window w').st := by unfold ScalarCoefs.windowed; simp only [e2]
  have c0 := hc.m0
  have c1 := hc.mn
  have w0 : (⟨wF rnd 0, 0⟩ : FC rnd) = 0 := by
    have : wF rnd 0 = 0 := by unfold wF; simp [rnd0 h]
    rw [this]; rfl
  have wide : ∀ n m, IsMode c.nmax c.mmax n m → IsMode d.nmax d.mmax n m := fun n m ⟨a, b, x, y⟩ => ⟨a, by omega, x, by omega⟩
  refine ⟨_, _, u1, u2, w1, w2, n1, m1, n2, m2, by rw [n1, n2]; exact hn, by rw [m1, m2]; exact hm, fun n m hmo => ?_, fun n m hmo hno => ?_⟩
  · rw [n1, m1] at hmo
    have hmo' := wide n m hmo
    rw [v1 n m hmo, v2 n m hmo', gw n.toNat (by have := hmo.2.1; omega), gw' n.toNat (by have := hmo'.2.1; omega)]
    by_cases hn0 : n = 0
    · rw [hn0, show (0 : ℤ).toNat = 0 from rfl, w0]
      rw [hn0] at hmo hmo'
      rw [ScalarCoefs.absMap_mode hc hmo, ScalarCoefs.absMap_mode hd hmo']
      show some (_ * _) = some (_ * _)
      rw [mul_zero' h, mul_zero' h]
    · rw [same n m hmo hn0]
  · rw [n2, m2] at hmo
    rw [n1, m1] at hno
    have hn0 : n ≠ 0 := by
      rintro rfl
      have a4 := hmo.2.2.1
      exact hno ⟨le_rfl, by omega, a4, by omega⟩
    rw [v2 n m hmo, zero n m hmo hno hn0, gw' n.toNat (by have := hmo.2.1; omega)]
    show some (_ * _) = some _
    rw [zero_mul' h]

end FD

/-- `d` has limits at least those of `c`; `d[n, m]` is `c[n, m]` where `c` has the mode and zero where it has not. -/
structure ZeroPadded (c d : ScalarCoefs (FC rnd)) : Prop where
  n : c.nmax ≤ d.nmax
  m : c.mmax ≤ d.mmax
  same : ∀ n m, IsMode c.nmax c.mmax n m → readMap d n m = readMap c n m
  zero : ∀ n m, IsMode d.nmax d.mmax n m → ¬ IsMode c.nmax c.mmax n m → readMap d n m = some 0

/-- The same for vector sets (`n ≥ 1`). -/
structure ZeroPaddedV (c d : VectorCoefs (FC rnd)) : Prop where
  n : c.nmax ≤ d.nmax
  m : c.mmax ≤ d.mmax
  same : ∀ n m, IsMode c.nmax c.mmax n m → n ≠ 0 → readMapV d n m = readMapV c n m
  zero : ∀ n m, IsMode d.nmax d.mmax n m → ¬ IsMode c.nmax c.mmax n m → n ≠ 0 → readMapV d n m = some (0, 0)

open FD FV in
/-- C110: `ispht` of a zero-padded set on the same grid is the same pattern bit for bit, with either backend, whatever NumPy does after `sc_to_fc`. -/
theorem c110_ispht (hrd : NoOverflow rnd) (jp : Int → FC rnd) (post : Arr2 (FC rnd) → Int → Int → Res (Arr2 (FC rnd))) (b : Backend)
    (c d : ScalarCoefs (FC rnd)) (hc : c.WellFormed) (hd : d.WellFormed) (hp : ZeroPadded c d) (hb : b ≠ .py → d.nmax ≤ 2 ^ 20)
    (nr nc : ℤ) (h0 : 2 ≤ nr) (h1 : d.nmax + 1 ≤ nr) (h2 : 2 * d.mmax + 2 ≤ nc) :
    Fl.ispht rnd jp post b d (some nr) (some nc) = Fl.ispht rnd jp post b c (some nr) (some nc) := by
  have pn := hp.n
  have pm := hp.m
  have P : Pad c d := ⟨pn, pm, fun n m h => by rw [← readMap_eq hc.wf, ← readMap_eq hd.wf]; exact hp.same n m h, fun n m h h' => by rw [← readMap_eq hd.wf]; exact hp.zero n m h h'⟩
  have g : isphtGuards d.nmax d.mmax nr nc = isphtGuards c.nmax c.mmax nr nc := by
    unfold isphtGuards
    split_ifs <;> first | rfl | omega
  unfold Fl.ispht
  simp only [Option.getD_some]
  rw [g, backend_pad hrd jp b hc.wf hd.wf P 0 (2 * nr - 2) nc hb (by omega) h2]

open FD FV in
/-- C110: `vispht` of a zero-padded set on the same grid. -/
theorem c110_vispht (hrd : NoOverflow rnd) (jp : Int → FC rnd) (post : Arr2 (FC rnd) → Arr2 (FC rnd) → Int → Int → Res (TPatt (FC rnd))) (b : Backend)
    (c d : VectorCoefs (FC rnd)) (hc : c.WellFormed) (hd : d.WellFormed) (hp : ZeroPaddedV c d) (hb : b ≠ .py → d.nmax ≤ 2 ^ 20)
    (nr nc : ℤ) (h1 : d.nmax + 2 ≤ nr) (h2 : 2 * d.mmax + 2 ≤ nc) :
    Fl.vispht rnd jp post b d (some nr) (some nc) = Fl.vispht rnd jp post b c (some nr) (some nc) := by
  have pn := hp.n
  have pm := hp.m
  have cn1 := hc.n1
  have cm1 := hc.m1
  have cn2 := hc.n2
  have cm2 := hc.m2
  have dn1 := hd.n1
  have dm1 := hd.m1
  have dn2 := hd.n2
  have dm2 := hd.m2
  have q0 := hc.wf1.wf.m0
  have q1 := hc.wf1.wf.mn
  have both : ∀ n m, IsMode c.nmax c.mmax n m → n ≠ 0 → d.scoef1.absMap n m = c.scoef1.absMap n m ∧ d.scoef2.absMap n m = c.scoef2.absMap n m := by
    intro n m hm hn
    have hm' : IsMode d.nmax d.mmax n m := ⟨hm.1, by have := hm.2.1; omega, hm.2.2.1, by have := hm.2.2.2; omega⟩
    have e := hp.same n m hm hn
    rw [readMapV_eq hc, readMapV_eq hd, if_neg hn, if_neg hn] at e
    rw [ScalarCoefs.absMap_mode hc.wf1.wf (by rw [cn1, cm1]; exact hm), ScalarCoefs.absMap_mode hc.wf2.wf (by rw [cn2, cm2]; exact hm),
      ScalarCoefs.absMap_mode hd.wf1.wf (by rw [dn1, dm1]; exact hm'), ScalarCoefs.absMap_mode hd.wf2.wf (by rw [dn2, dm2]; exact hm')] at e ⊢
    simp only [Option.bind_some, Option.map_some, Option.some.injEq, Prod.mk.injEq] at e
    exact ⟨by rw [e.1], by rw [e.2]⟩
  have null : ∀ n m, IsMode d.nmax d.mmax n m → ¬ IsMode c.nmax c.mmax n m → n ≠ 0 → d.scoef1.absMap n m = some 0 ∧ d.scoef2.absMap n m = some 0 := by
    intro n m hm hno hn
    have e := hp.zero n m hm hno hn
    rw [readMapV_eq hd, if_neg hn] at e
    rw [ScalarCoefs.absMap_mode hd.wf1.wf (by rw [dn1, dm1]; exact hm), ScalarCoefs.absMap_mode hd.wf2.wf (by rw [dn2, dm2]; exact hm)] at e ⊢
    simp only [Option.bind_some, Option.map_some, Option.some.injEq, Prod.mk.injEq] at e
    exact ⟨by rw [e.1], by rw [e.2]⟩
  have g : visphtGuards d.nmax d.mmax nr nc = visphtGuards c.nmax c.mmax nr nc := by
    unfold visphtGuards
    split_ifs <;> first | rfl | omega
  obtain ⟨N, hN⟩ := Int.eq_ofNat_of_zero_le (show 0 ≤ c.nmax by omega)
  obtain ⟨N', hN'⟩ := Int.eq_ofNat_of_zero_le (show 0 ≤ d.nmax by omega)
  obtain ⟨w, ew, lw, gw⟩ := nvecF_spec (rnd := rnd) N
  obtain ⟨w', ew', lw', gw'⟩ := nvecF_spec (rnd := rnd) N'
  obtain ⟨e1, f1, x1, x2, x3, x4, x5, x6, x7, x8, x9⟩ := windowed_pad hrd hc.wf1.wf hd.wf1.wf (by omega) (by omega)
    (fun n m h h' => (both n m (by rw [← cn1, ← cm1]; exact h) h').1) (fun n m h h' h'' => (null n m (by rw [← dn1, ← dm1]; exact h) (by rw [← cn1, ← cm1]; exact h') h'').1)
    (N := N) (N' := N') (by omega) (by omega) lw lw' gw gw'
  obtain ⟨e2, f2, y1, y2, y3, y4, y5, y6, y7, y8, y9⟩ := windowed_pad hrd hc.wf2.wf hd.wf2.wf (by omega) (by omega)
    (fun n m h h' => (both n m (by rw [← cn2, ← cm2]; exact h) h').2) (fun n m h h' h'' => (null n m (by rw [← dn2, ← dm2]; exact h) (by rw [← cn2, ← cm2]; exact h') h'').2)
    (N := N) (N' := N') (by omega) (by omega) lw lw' gw gw'
  unfold Fl.vispht
  simp only [Option.getD_some]
  rw [g, hN, hN', ew, ew', scopy_wf hc.wf1.wf, scopy_wf hc.wf2.wf, scopy_wf hd.wf1.wf, scopy_wf hd.wf2.wf]
  simp only [Except.bind_ok]
  rw [x1, x2, y1, y2]
  simp only [Except.bind_ok]
  have k1 := backend_pad hrd jp b x3 x4 x9 0 (2 * nr - 2) nc (fun h => by have := hb h; omega) (by omega) (by omega)
  have k2 := backend_pad hrd jp b y3 y4 y9 1 (2 * nr - 2) nc (fun h => by have := hb h; omega) (by omega) (by omega)
  have a1 : f1.nmax = f2.nmax := by omega
  have a2 : f1.mmax = f2.mmax := by omega
  have a3 : e1.nmax = e2.nmax := by omega
  have a4 : e1.mmax = e2.mmax := by omega
  rw [k1, a1, a2, a3, a4, k2]

end Verif.Props
