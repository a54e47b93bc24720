import Verif.Props.Coefs2
import Verif.Pattern
import Mathlib.Analysis.InnerProductSpace.PiL2
/-!
# Norms of coefficient sets and patterns (C17, C55, C56, C57)
-/
namespace Verif.Props
open Verif

/-! ### Lists of numbers -/

/-- Euclidean norm of a list of complex numbers. -/
noncomputable def n2 (l : List ℂ) : ℝ := Real.sqrt ((l.map (fun x => ‖x‖ ^ 2)).sum)

theorem n2_ofFn {n : Nat} (f : Fin n → ℂ) : n2 (List.ofFn f) = ‖(WithLp.toLp 2 f : EuclideanSpace ℂ (Fin n))‖ := by
  rw [EuclideanSpace.norm_eq, n2, List.map_ofFn, List.sum_ofFn]; rfl

theorem exists_ofFn (l : List ℂ) : ∃ f : Fin l.length → ℂ, l = List.ofFn f := ⟨l.get, by simp⟩

theorem exists_ofFn' {l : List ℂ} {n : Nat} (h : l.length = n) : ∃ f : Fin n → ℂ, l = List.ofFn f := by
  subst h; exact exists_ofFn l

theorem zipWith_ofFn {n : Nat} (op : ℂ → ℂ → ℂ) (f g : Fin n → ℂ) :
    List.zipWith op (List.ofFn f) (List.ofFn g) = List.ofFn fun i => op (f i) (g i) := by
  apply List.ext_getElem
  · simp
  · intro i h1 h2; simp

theorem n2_nonneg (l : List ℂ) : 0 ≤ n2 l := Real.sqrt_nonneg _

theorem n2_add {a b : List ℂ} (h : a.length = b.length) : n2 (List.zipWith (· + ·) a b) ≤ n2 a + n2 b := by
  obtain ⟨f, rfl⟩ := exists_ofFn' h
  obtain ⟨g, hg⟩ := exists_ofFn b
  generalize hn : b.length = n at f g hg
  subst hg
  rw [zipWith_ofFn, n2_ofFn, n2_ofFn, n2_ofFn]
  exact norm_add_le (WithLp.toLp 2 f : EuclideanSpace ℂ (Fin n)) (WithLp.toLp 2 g)

theorem n2_smul (x : ℂ) (l : List ℂ) : n2 (l.map fun y => y * x) = ‖x‖ * n2 l := by
  obtain ⟨f, hf⟩ := exists_ofFn l
  generalize hn : l.length = n at f hf
  subst hf
  rw [List.map_ofFn, n2_ofFn, n2_ofFn, ← norm_smul]
  congr 1
  ext i
  simp [mul_comm]

theorem n2_eq_zero {l : List ℂ} : n2 l = 0 ↔ ∀ x ∈ l, x = 0 := by
  unfold n2
  rw [Real.sqrt_eq_zero (sum_sq_nonneg _), sum_sq_eq_zero]

theorem npMax_spec {l : List ℝ} (h : l ≠ []) : ∃ v, npMax l = .ok v ∧ v ∈ l ∧ ∀ x ∈ l, x ≤ v := by
  cases l with
  | nil => exact absurd rfl h
  | cons x xs =>
    refine ⟨_, rfl, ?_⟩
    have key : ∀ (xs : List ℝ) (x : ℝ), xs.foldl max x ∈ x :: xs ∧ ∀ y ∈ x :: xs, y ≤ xs.foldl max x := by
      intro xs
      induction xs with
      | nil => intro x; simp
      | cons y ys ih =>
        intro x
        obtain ⟨h1, h2⟩ := ih (max x y)
        rw [List.foldl_cons]
        constructor
        · rcases List.mem_cons.mp h1 with h | h
          · rw [h]
            rcases max_choice x y with e | e <;> rw [e] <;> simp
          · simp [h]
        · intro z hz
          have h0 := h2 (max x y) (by simp)
          rcases List.mem_cons.mp hz with rfl | hz
          · exact le_trans (le_max_left _ _) h0
          · rcases List.mem_cons.mp hz with rfl | hz
            · exact le_trans (le_max_right _ _) h0
            · exact h2 z (by simp [hz])
    exact key xs x

theorem npMax_norm_zero {l : List ℂ} {v : ℝ} (h : npMax (l.map (‖·‖)) = .ok v) : v = 0 ↔ ∀ x ∈ l, x = 0 := by
  have hne : l.map (fun x => ‖x‖) ≠ [] := by
    intro e; rw [e] at h; cases h
  obtain ⟨w, hw, hm, hle⟩ := npMax_spec hne
  rw [hw] at h
  cases h
  constructor
  · rintro rfl x hx
    have := hle ‖x‖ (List.mem_map_of_mem hx)
    exact norm_le_zero_iff.mp this
  · intro hz
    obtain ⟨x, hx, rfl⟩ := List.mem_map.mp hm
    rw [hz x hx]; exact norm_zero

/-! ### Coefficient sets -/

theorem l2SC_eq (c : ScalarCoefs ℂ) : l2SC c = n2 c.vec := rfl

theorem init_vec {l : List ℂ} {n m : Int} {c : ScalarCoefs ℂ} (e : ScalarCoefs.init (.arr l) n m = .ok c) : c.vec = l := by
  unfold ScalarCoefs.init at e
  split at e
  · cases e
  · simp only at e
    split at e
    · cases e
    · cases e; rfl

/-- C17, triangle inequality: for every sum the library computes. -/
theorem c17_triangle (c d e : ScalarCoefs ℂ) (h : c.opLeft .add (.obj d) = .ok e) : l2SC e ≤ l2SC c + l2SC d := by
  unfold ScalarCoefs.opLeft at h
  simp only at h
  split at h
  · next hl =>
    rw [l2SC_eq, init_vec h]
    exact n2_add hl
  · cases h

/-- C17, homogeneity: `L2_coef(c * x) = |x| * L2_coef(c)`. -/
theorem c17_homogeneous (c e : ScalarCoefs ℂ) (x : ℂ) (h : c.opLeft .mul (.num x) = .ok e) : l2SC e = ‖x‖ * l2SC c := by
  unfold ScalarCoefs.opLeft opNum at h
  simp only [reduceCtorEq, false_and, if_false] at h
  rw [l2SC_eq, init_vec h]
  exact n2_smul x c.vec

/-- C17 non-vacuity: a concrete sum. -/
example : ∃ e, ScalarCoefs.opLeft .add (⟨[1, 2, 3, 4], 1, 1⟩ : ScalarCoefs ℂ) (.obj ⟨[1, 0, 0, 5], 1, 1⟩) = .ok e :=
  ⟨⟨[1 + 1, 2 + 0, 3 + 0, 4 + 5], 1, 1⟩, rfl⟩

theorem mode_value (c : ScalarCoefs ℂ) (hc : c.WellFormed) {n m : Int} (h : IsMode c.nmax c.mmax n m) :
    ∃ x ∈ c.vec, readMap c n m = some x := by
  refine ⟨c.vec[slot c.nmax n m]'(hc.wf.slot_lt h), List.getElem_mem _, ?_⟩
  rw [readMap_eq hc.wf, ScalarCoefs.absMap_mode hc.wf h]

theorem value_mode (c : ScalarCoefs ℂ) (hc : c.WellFormed) {x : ℂ} (hx : x ∈ c.vec) :
    ∃ n m, IsMode c.nmax c.mmax n m ∧ readMap c n m = some x := by
  obtain ⟨j, hj, rfl⟩ := List.getElem_of_mem hx
  obtain ⟨n, m, hm, rfl⟩ := slot_surj hc.1 hc.2 (by rw [← hc.wf.len']; exact hj)
  exact ⟨n, m, hm, by rw [readMap_eq hc.wf, ScalarCoefs.absMap_mode hc.wf hm]⟩

theorem vec_ne_nil (c : ScalarCoefs ℂ) (hc : c.WellFormed) : c.vec ≠ [] := by
  have h : IsMode c.nmax c.mmax 0 0 := isMode_iff.mpr ⟨le_refl _, le_trans hc.1 hc.2, by simp, by simpa using hc.1⟩
  obtain ⟨x, hx, _⟩ := mode_value c hc h
  exact List.ne_nil_of_mem hx

/-- C55 (scalar): `LInf_coef(c)` is the magnitude of some coefficient and no coefficient is larger. -/
theorem c55_linf_scalar (c : ScalarCoefs ℂ) (hc : c.WellFormed) :
    ∃ v, linfSC c = .ok v ∧
      (∃ n m x, IsMode c.nmax c.mmax n m ∧ readMap c n m = some x ∧ v = ‖x‖) ∧
      (∀ n m x, IsMode c.nmax c.mmax n m → readMap c n m = some x → ‖x‖ ≤ v) := by
  obtain ⟨v, hv, hm, hle⟩ := npMax_spec (l := c.vec.map (fun x => ‖x‖)) (by simpa using vec_ne_nil c hc)
  refine ⟨v, hv, ?_, ?_⟩
  · obtain ⟨x, hx, rfl⟩ := List.mem_map.mp hm
    obtain ⟨n, m, h1, h2⟩ := value_mode c hc hx
    exact ⟨n, m, x, h1, h2, rfl⟩
  · intro n m x h1 h2
    obtain ⟨y, hy, e⟩ := mode_value c hc h1
    rw [h2] at e
    cases e
    exact hle _ (List.mem_map_of_mem hy)

/-- C55 (vector): `LInf_coef(vc)` combines the largest magnitudes `a`, `b` of the two components as `sqrt(a^2 + b^2)`;
it is 0 only if both components vanish. -/
theorem c55_linf_vector (c : VectorCoefs ℂ) (hc : c.WellFormed) :
    ∃ a b v, linfSC c.scoef1 = .ok a ∧ linfSC c.scoef2 = .ok b ∧ linfVC c = .ok v ∧ v ^ 2 = a ^ 2 + b ^ 2 ∧ 0 ≤ v ∧
      (v = 0 ↔ (∀ x ∈ c.scoef1.vec, x = 0) ∧ ∀ x ∈ c.scoef2.vec, x = 0) := by
  obtain ⟨a, ha, -⟩ := c55_linf_scalar c.scoef1 hc.wf1
  obtain ⟨b, hb, -⟩ := c55_linf_scalar c.scoef2 hc.wf2
  refine ⟨a, b, Real.sqrt (a ^ 2 + b ^ 2), ha, hb, ?_, Real.sq_sqrt (by positivity), Real.sqrt_nonneg _, ?_⟩
  · unfold linfVC; rw [ha, hb]; rfl
  · rw [Real.sqrt_eq_zero (by positivity), ← npMax_norm_zero ha, ← npMax_norm_zero hb]
    constructor
    · intro h; constructor <;> nlinarith [sq_nonneg a, sq_nonneg b]
    · rintro ⟨rfl, rfl⟩; norm_num

/-- C55 non-vacuity. -/
example : (⟨[1, 2, 3, -4], 1, 1⟩ : ScalarCoefs ℂ).WellFormed := ScalarCoefs.wf_iff.1 ⟨by decide, by decide, rfl⟩

/-! ### `compare_relative` -/

/-- C57: for sets of the same shape `compare_relative(c, d)` is the quotient of the sum of `|c[n,m] - d[n,m]|` by the sum of
`|c[n,m]|`; the numerator is 0 exactly when the sets agree mode by mode. -/
theorem c57_compare_relative (c d : ScalarCoefs ℂ) (hc : c.WellFormed) (hd : d.WellFormed) (hn : c.nmax = d.nmax)
    (hm : c.mmax = d.mmax) :
    ∃ num den, compareRelative c d = .ok (num, den) ∧
      num = ((List.zipWith (· - ·) c.vec d.vec).map (fun x => ‖x‖)).sum ∧ den = (c.vec.map (fun x => ‖x‖)).sum ∧
      (num = 0 ↔ c = d) ∧ (den = 0 ↔ ∀ x ∈ c.vec, x = 0) := by
  have hl : c.vec.length = d.vec.length := by rw [hc.3, hd.3, hn, hm]
  have sz : ∀ l : List ℂ, (l.map (fun x => ‖x‖)).sum = 0 ↔ ∀ x ∈ l, x = 0 := by
    intro l
    induction l with
    | nil => simp
    | cons x xs ih =>
      have h1 : 0 ≤ (xs.map (fun x => ‖x‖)).sum := List.sum_nonneg (by simp)
      have h2 := norm_nonneg x
      simp only [List.map_cons, List.sum_cons, List.mem_cons, forall_eq_or_imp, ← ih]
      rw [← norm_eq_zero (a := x)]
      constructor
      · intro h; constructor <;> linarith
      · rintro ⟨h3, h4⟩; linarith
  refine ⟨_, _, ?_, rfl, rfl, ?_, sz _⟩
  · unfold compareRelative bcast
    rw [if_pos hl]; rfl
  · rw [sz]
    constructor
    · intro h
      rcases c with ⟨v, n, m⟩
      rcases d with ⟨w, n', m'⟩
      simp only at hl hn hm h
      subst hn hm
      congr 1
      apply List.ext_getElem hl
      intro i h1 h2
      have := h (v[i] - w[i]) (by
        rw [List.mem_iff_getElem]
        exact ⟨i, by simp [h1, h2], by simp⟩)
      exact sub_eq_zero.mp this
    · rintro rfl x hx
      obtain ⟨i, hi, rfl⟩ := List.getElem_of_mem hx
      simp

/-! ### Patterns -/

theorem toList_mem {A : Arr2 ℂ} {x : ℂ} : x ∈ A.toList ↔ ∃ i j, i < A.rows ∧ j < A.cols ∧ A.at' i j = x := by
  unfold Arr2.toList
  simp only [List.mem_flatMap, List.mem_range, List.mem_map]
  constructor
  · rintro ⟨i, hi, j, hj, e⟩; exact ⟨i, j, hi, hj, e⟩
  · rintro ⟨i, j, hi, hj, e⟩; exact ⟨i, hi, j, hj, e⟩

theorem toList_sum (A : Arr2 ℂ) (f : ℂ → ℝ) :
    (A.toList.map f).sum = ∑ i ∈ Finset.range A.rows, ∑ j ∈ Finset.range A.cols, f (A.at' i j) := by
  unfold Arr2.toList
  rw [List.map_flatMap]
  have k : ∀ (n : Nat) (g : Nat → ℝ), ((List.range n).map g).sum = ∑ i ∈ Finset.range n, g i := by
    intro n g
    induction n with
    | zero => rfl
    | succ n ih => rw [List.range_succ, List.map_append, List.sum_append, ih, Finset.sum_range_succ]; simp
  have k2 : ∀ (xs : List Nat) (g : Nat → List ℝ), (xs.flatMap g).sum = (xs.map fun i => (g i).sum).sum := by
    intro xs g
    induction xs with
    | nil => rfl
    | cons x xs ih => simp [List.flatMap_cons, ih]
  rw [k2, k]
  refine Finset.sum_congr rfl fun i _ => ?_
  rw [List.map_map, k]; rfl

theorem toList_zip (op : ℂ → ℂ → ℂ) (A B : Arr2 ℂ) (hr : A.rows = B.rows) (hc : A.cols = B.cols) :
    (A.zip op B).toList = List.zipWith op A.toList B.toList ∧ A.toList.length = B.toList.length := by
  have e1 : (A.zip op B).toList = (List.range A.rows).flatMap fun i => (List.range A.cols).map fun j => op (A.at' i j) (B.at' i j) := by
    unfold Arr2.toList
    simp only [Arr2.rows_zip, Arr2.cols_zip]
    apply List.flatMap_congr
    intro i hi
    apply List.map_congr_left
    intro j hj
    exact Arr2.at'_zip _ _ _ (List.mem_range.mp hi) (List.mem_range.mp hj)
  have e2 : B.toList = (List.range A.rows).flatMap fun i => (List.range A.cols).map fun j => B.at' i j := by
    unfold Arr2.toList; rw [hr, hc]
  rw [e1, e2, Arr2.toList]
  generalize List.range A.rows = xs
  induction xs with
  | nil => exact ⟨rfl, rfl⟩
  | cons x xs ih =>
    simp only [List.flatMap_cons]
    constructor
    · rw [List.zipWith_append (by simp), ← ih.1, List.zipWith_map, List.zipWith_self]
    · simp only [List.length_append, List.length_map, ih.2]

theorem toList_map (f : ℂ → ℂ) (A : Arr2 ℂ) : (A.map f).toList = A.toList.map f := by
  unfold Arr2.toList
  rw [List.map_flatMap]
  simp only [Arr2.rows_map, Arr2.cols_map]
  apply List.flatMap_congr
  intro i hi
  rw [List.map_map]
  apply List.map_congr_left
  intro j hj
  exact Arr2.at'_map _ _ (List.mem_range.mp hi) (List.mem_range.mp hj)

/-- C56 (scalar): `L2_patt(p)^2` is the sum of `|p|^2` over the double sphere; it is 0 only for the zero pattern; triangle
inequality and homogeneity for the sums and multiples the library computes. -/
theorem c56_l2_scalar (A B : Arr2 ℂ) (x : ℂ) (hr : A.rows = B.rows) (hc : A.cols = B.cols) :
    ∃ v w s t, SPatt.l2 ⟨.arr A⟩ = .ok v ∧ SPatt.l2 ⟨.arr B⟩ = .ok w ∧
      (SPatt.opLeft .add ⟨.arr A⟩ (.obj ⟨.arr B⟩)).bind SPatt.l2 = .ok s ∧
      (SPatt.opLeft .mul ⟨.arr A⟩ (.num x)).bind SPatt.l2 = .ok t ∧
      0 ≤ v ∧ v ^ 2 = ∑ i ∈ Finset.range A.rows, ∑ j ∈ Finset.range A.cols, ‖A.at' i j‖ ^ 2 ∧
      (v = 0 ↔ ∀ i j, i < A.rows → j < A.cols → A.at' i j = 0) ∧ s ≤ v + w ∧ t = ‖x‖ * v := by
  refine ⟨n2 A.toList, n2 B.toList, n2 (A.zip (· + ·) B).toList, n2 (A.map (· * x)).toList, rfl, rfl, ?_, ?_, n2_nonneg _, ?_, ?_, ?_, ?_⟩
  · simp only [SPatt.opLeft, SPatt.dsphere, Except.bind_ok, hr, hc, and_self, if_true, SPatt.init]
    rfl
  · simp only [SPatt.opLeft, SPatt.dsphere, Except.bind_ok, pOpNum, reduceCtorEq, false_and, if_false, SPatt.init]
    rfl
  · rw [n2, Real.sq_sqrt (sum_sq_nonneg _), toList_sum]
  · rw [n2_eq_zero]
    constructor
    · intro h i j hi hj; exact h _ (toList_mem.mpr ⟨i, j, hi, hj, rfl⟩)
    · intro h x hx
      obtain ⟨i, j, hi, hj, rfl⟩ := toList_mem.mp hx
      exact h i j hi hj
  · rw [(toList_zip _ A B hr hc).1]
    exact n2_add (toList_zip (· + ·) A B hr hc).2
  · rw [toList_map]; exact n2_smul x _

/-- C56 (scalar): `LInf_patt(p)` is the largest magnitude on the double sphere; an empty pattern raises ValueError. -/
theorem c56_linf_scalar (A : Arr2 ℂ) :
    (0 < A.rows ∧ 0 < A.cols → ∃ v, SPatt.linf ⟨.arr A⟩ = .ok v ∧
      (∃ i j, i < A.rows ∧ j < A.cols ∧ v = ‖A.at' i j‖) ∧ ∀ i j, i < A.rows → j < A.cols → ‖A.at' i j‖ ≤ v) ∧
    (A.rows = 0 ∨ A.cols = 0 → (SPatt.linf ⟨.arr A⟩).Raises .valueError) := by
  constructor
  · rintro ⟨h1, h2⟩
    obtain ⟨v, hv, hm, hle⟩ := npMax_spec (l := A.toList.map (fun x => ‖x‖)) (by
      have := toList_mem (A := A).mpr ⟨0, 0, h1, h2, rfl⟩
      simpa using List.ne_nil_of_mem this)
    refine ⟨v, hv, ?_, fun i j hi hj => hle _ (List.mem_map_of_mem (toList_mem.mpr ⟨i, j, hi, hj, rfl⟩))⟩
    obtain ⟨x, hx, rfl⟩ := List.mem_map.mp hm
    obtain ⟨i, j, hi, hj, rfl⟩ := toList_mem.mp hx
    exact ⟨i, j, hi, hj, rfl⟩
  · intro h
    have e : A.toList = [] := by
      rw [List.eq_nil_iff_forall_not_mem]
      intro x hx
      obtain ⟨i, j, hi, hj, -⟩ := toList_mem.mp hx
      omega
    unfold SPatt.linf
    simp only [SPatt.dsphere, Except.bind_ok, e, List.map_nil, npMax]
    exact ⟨_, rfl⟩

/-- C56 (transverse): `L2_patt` and `LInf_patt` combine the values of the two components as `sqrt(a^2 + b^2)`, and vanish only
if both components vanish. -/
theorem c56_transverse (p : TPatt ℂ) (a b : ℝ) (ha : SPatt.linf ⟨.arr p.td⟩ = .ok a) (hb : SPatt.linf ⟨.arr p.pd⟩ = .ok b) :
    0 ≤ p.l2 ∧ p.l2 ^ 2 = (∑ i ∈ Finset.range p.td.rows, ∑ j ∈ Finset.range p.td.cols, ‖p.td.at' i j‖ ^ 2) +
        ∑ i ∈ Finset.range p.pd.rows, ∑ j ∈ Finset.range p.pd.cols, ‖p.pd.at' i j‖ ^ 2 ∧
      ∃ v, p.linf = .ok v ∧ 0 ≤ v ∧ v ^ 2 = a ^ 2 + b ^ 2 ∧ (v = 0 ↔ (∀ x ∈ p.td.toList, x = 0) ∧ ∀ x ∈ p.pd.toList, x = 0) ∧
      (p.l2 = 0 ↔ (∀ x ∈ p.td.toList, x = 0) ∧ ∀ x ∈ p.pd.toList, x = 0) := by
  have ea : l2Arr p.td = n2 p.td.toList := rfl
  have eb : l2Arr p.pd = n2 p.pd.toList := rfl
  have ha' : npMax (p.td.toList.map (fun x => ‖x‖)) = .ok a := ha
  have hb' : npMax (p.pd.toList.map (fun x => ‖x‖)) = .ok b := hb
  have sq0 : ∀ {s t : ℝ}, s ^ 2 + t ^ 2 = 0 ↔ s = 0 ∧ t = 0 := by
    intro s t
    constructor
    · intro h; constructor <;> nlinarith [sq_nonneg s, sq_nonneg t]
    · rintro ⟨rfl, rfl⟩; norm_num
  refine ⟨Real.sqrt_nonneg _, ?_, Real.sqrt (a ^ 2 + b ^ 2), ?_, Real.sqrt_nonneg _, Real.sq_sqrt (by positivity), ?_, ?_⟩
  · rw [TPatt.l2, Real.sq_sqrt (by positivity), ea, eb, n2, n2, Real.sq_sqrt (sum_sq_nonneg _), Real.sq_sqrt (sum_sq_nonneg _),
      toList_sum, toList_sum]
  · unfold TPatt.linf; rw [ha', hb']; rfl
  · rw [Real.sqrt_eq_zero (by positivity), sq0, npMax_norm_zero ha', npMax_norm_zero hb']
  · rw [TPatt.l2, Real.sqrt_eq_zero (by positivity), sq0, ea, eb, n2_eq_zero, n2_eq_zero]

/-- C56 non-vacuity: a 2-by-2 array. -/
example : ∃ v, SPatt.linf ⟨.arr (Arr2.ofFn 2 2 fun i j => ((i : ℂ) - 2 * (j : ℂ)))⟩ = .ok v :=
  let ⟨v, h, _⟩ := (c56_linf_scalar (Arr2.ofFn 2 2 fun i j => ((i : ℂ) - 2 * (j : ℂ)))).1 ⟨by decide, by decide⟩
  ⟨v, h⟩

end Verif.Props
