import Verif.Props.NanX
/-!
# C131: a NaN in the data is not hidden by the transforms and the norms (statements)
-/
namespace Verif.Props
open Verif Finset

variable {rnd : ℝ → ℝ}

/-- Not a finite number, as a norm reports it: NaN or `+inf`. -/
def Alarm (x : IE) : Prop := x = .nan ∨ x = .inf false

/-- What `hypot` returns for finite parts: a non-negative number, or `+inf` on overflow. -/
def HypotSign (hyp : IE × IE → IE) : Prop := ∀ z, hyp z = .inf false ∨ (∃ b, hyp z = .zero b) ∨ ∃ y, 0 < y ∧ hyp z = .fin y

namespace NN

/-- Values that a sum of non-negative numbers can have. -/
def Pos (x : IE) : Prop := Alarm x ∨ (∃ b, x = .zero b) ∨ ∃ y, 0 < y ∧ x = .fin y

theorem ofReal_pos {b : Bool} {r : ℝ} (h : 0 ≤ r) : Pos (IE.ofReal b r) := by
  unfold IE.ofReal
  split
  · exact .inr (.inl ⟨_, rfl⟩)
  · split
    · left; right; congr 1; simpa using h
    · exact .inr (.inr ⟨r, lt_of_le_of_ne h (by tauto), rfl⟩)

theorem cabs_pos {hyp : IE × IE → IE} (hh : HypotSign hyp) (z : IE × IE) : Pos (NX.cabs hyp z) := by
  unfold NX.cabs
  split
  · exact .inl (.inr rfl)
  · split
    · exact .inl (.inl rfl)
    · rcases hh z with h | h | h
      · exact .inl (.inr h)
      · exact .inr (.inl h)
      · exact .inr (.inr h)

theorem cabs_nan {hyp : IE × IE → IE} {z : IE × IE} (h : IsNanC z) : Alarm (NX.cabs hyp z) := by
  unfold NX.cabs
  split
  · exact .inr rfl
  · rw [if_pos (show z.1 = IE.nan ∨ z.2 = IE.nan from h)]; exact .inl rfl

theorem sq_pos (hr : ∀ x, 0 ≤ x → 0 ≤ rnd x) {x : IE} (h : Pos x) : Pos (IE.mul rnd x x) := by
  rcases h with (rfl | rfl) | ⟨b, rfl⟩ | ⟨y, hy, rfl⟩
  · exact .inl (.inl rfl)
  · exact .inl (.inr rfl)
  · exact .inr (.inl ⟨_, rfl⟩)
  · exact ofReal_pos (hr _ (by positivity))

theorem sq_alarm {x : IE} (h : Alarm x) : Alarm (IE.mul rnd x x) := by
  rcases h with rfl | rfl
  · exact .inl rfl
  · exact .inr rfl

theorem add_pos' (hr : ∀ x, 0 ≤ x → 0 ≤ rnd x) {x y : IE} (hx : Pos x) (hy : Pos y) : Pos (IE.add rnd x y) := by
  rcases hx with (rfl | rfl) | ⟨b, rfl⟩ | ⟨u, hu, rfl⟩ <;> rcases hy with (rfl | rfl) | ⟨d, rfl⟩ | ⟨v, hv, rfl⟩
  any_goals exact .inl (.inl rfl)
  any_goals exact .inl (.inr rfl)
  · exact .inr (.inl ⟨_, rfl⟩)
  · exact .inr (.inr ⟨v, hv, rfl⟩)
  · exact .inr (.inr ⟨u, hu, rfl⟩)
  · exact ofReal_pos (hr _ (by positivity))

theorem add_alarm {x y : IE} (hx : Pos x) (hy : Pos y) (h : Alarm x ∨ Alarm y) : Alarm (IE.add rnd x y) := by
  rcases h with (rfl | rfl) | (rfl | rfl)
  · rw [add_l]; exact .inl rfl
  · rcases hy with (rfl | rfl) | ⟨d, rfl⟩ | ⟨v, hv, rfl⟩
    · exact .inl rfl
    · exact .inr rfl
    · exact .inr rfl
    · exact .inr rfl
  · rw [add_r]; exact .inl rfl
  · rcases hx with (rfl | rfl) | ⟨d, rfl⟩ | ⟨v, hv, rfl⟩
    · exact .inl rfl
    · exact .inr rfl
    · exact .inr rfl
    · exact .inr rfl

theorem sum_alarm (hr : ∀ x, 0 ≤ x → 0 ≤ rnd x) {l : List IE} {s : IE} (h : NX.Sum rnd l s) (hp : ∀ x ∈ l, Pos x) : Pos s ∧ ((∃ x ∈ l, Alarm x) → Alarm s) := by
  induction h with
  | one x => exact ⟨hp x (by simp), fun ⟨y, hy, ha⟩ => by rw [List.mem_singleton] at hy; exact hy ▸ ha⟩
  | @add l l' s s' _ _ ih ih' =>
    obtain ⟨p1, a1⟩ := ih fun x hx => hp x (by simp [hx])
    obtain ⟨p2, a2⟩ := ih' fun x hx => hp x (by simp [hx])
    refine ⟨add_pos' hr p1 p2, fun ⟨y, hy, ha⟩ => add_alarm p1 p2 ?_⟩
    rcases List.mem_append.mp hy with hy | hy
    · exact .inl (a1 ⟨y, hy, ha⟩)
    · exact .inr (a2 ⟨y, hy, ha⟩)
  | perm hq _ ih =>
    obtain ⟨p1, a1⟩ := ih fun x hx => hp x (hq.mem_iff.mp hx)
    exact ⟨p1, fun ⟨y, hy, ha⟩ => a1 ⟨y, hq.mem_iff.mpr hy, ha⟩⟩

theorem max_l {a : IE} (b : IE) (h : Alarm a) : Alarm (NX.max2 a b) := by
  unfold NX.max2
  rcases h with rfl | rfl
  · rw [if_pos rfl]; exact .inl rfl
  · rw [if_neg (by simp)]
    split
    · exact .inl rfl
    · rw [if_pos]
      · exact .inr rfl
      · cases b <;> simp_all [NX.ge]

theorem max_r {b : IE} (a : IE) (h : Alarm b) : Alarm (NX.max2 a b) := by
  unfold NX.max2
  rcases h with rfl | rfl
  · split
    · exact .inl rfl
    · rw [if_pos rfl]; exact .inl rfl
  · split
    · exact .inl rfl
    · rw [if_neg (by simp)]
      split
      · rename_i h
        cases a with
        | nan => exact .inl rfl
        | inf s => cases s <;> simp_all [NX.ge, Alarm]
        | zero s => simp [NX.ge] at h
        | fin x => simp [NX.ge] at h
      · exact .inr rfl

theorem foldl_max (l : List IE) (x : IE) (h : Alarm x ∨ ∃ y ∈ l, Alarm y) : Alarm (l.foldl NX.max2 x) := by
  induction l generalizing x with
  | nil =>
    rcases h with h | ⟨y, hy, _⟩
    · exact h
    · simp at hy
  | cons a l ih =>
    refine ih _ ?_
    rcases h with h | ⟨y, hy, ha⟩
    · exact .inl (max_l _ h)
    · rcases List.mem_cons.mp hy with rfl | hy
      · exact .inl (max_r _ ha)
      · exact .inr ⟨y, hy, ha⟩

/-- Both parts NaN. -/
abbrev nn : IE × IE := (.nan, .nan)

theorem cmul_nn (z : IE × IE) : IE.cmul rnd z nn = nn := by
  simp only [IE.cmul, mul_r, sub_l, add_l]

theorem cadd_nn_l (z : IE × IE) : IE.cadd rnd nn z = nn := by simp only [IE.cadd, add_l]
theorem cadd_nn_r (z : IE × IE) : IE.cadd rnd z nn = nn := by simp only [IE.cadd, add_r]

theorem cdiv_nn (z : IE × IE) : NX.cdiv rnd nn z = nn := by
  unfold NX.cdiv
  split <;> simp only [mul_l, add_l, sub_l]

theorem dsCell_nn {s t : IE × IE} (h : s = nn ∨ t = nn) : NX.dsCell rnd s t = nn := by
  have h2 : IE.cadd rnd s t = nn := by
    rcases h with rfl | rfl
    · exact cadd_nn_l _
    · exact cadd_nn_r _
  unfold NX.dsCell
  rw [h2, cdiv_nn, ite_self]

theorem not_zero_nn : ¬ NX.isZero nn := by
  rintro ⟨⟨a, h⟩, _⟩; cases h

theorem svStep_nn (hyp : IE × IE → IE) (sv : IE) : NX.svStep rnd hyp sv nn nn = sv := by
  have e : NX.csub rnd nn nn = nn := by simp only [NX.csub, sub_l]
  have c : NX.cabs hyp nn = .nan := by unfold NX.cabs; simp
  unfold NX.svStep
  rw [if_pos not_zero_nn, e, cdiv_nn, c, if_neg]
  simp [NX.ge]

theorem foldl_const {α β : Type} (f : β → α → β) (l : List α) (s : β) (h : ∀ x ∈ l, f s x = s) : l.foldl f s = s := by
  induction l with
  | nil => rfl
  | cons a l ih => rw [List.foldl_cons, h a (by simp)]; exact ih fun x hx => h x (by simp [hx])

end NN

/-- Building a pattern keeps every NaN sample where it is. -/
theorem c131_pattern (cdata : Arr2 (IE × IE)) (hr : 2 ≤ cdata.rows) :
    ∃ A, NX.ofSamples rnd cdata = .ok ⟨.arr A⟩ ∧ A.rows = 2 * cdata.rows - 2 ∧ A.cols = cdata.cols ∧
      ∀ i j, i < cdata.rows → j < cdata.cols → IsNanC (cdata.at' i j) → IsNanC (A.at' i j) := by
  unfold NX.ofSamples npFull2
  rw [if_neg (by omega)]
  refine ⟨_, rfl, ?_, rfl, fun i j hi hj hn => ?_⟩
  · show cdata.rows + ((cdata.rows : ℤ) - 2).toNat = _
    omega
  · unfold NX.doubleSphere vcat
    simp only [Arr2.rows_ofFn, Arr2.cols_ofFn]
    rw [Arr2.at'_ofFn (by omega) hj]
    refine NN.dsCell_nan (.inr ?_)
    rw [Arr2.at'_ofFn (by omega) hj, if_pos hi]
    exact hn

/-- `spht` (Python routines): if any stored sample is NaN, the call returns a well-formed set in which **every** coefficient is NaN. -/
theorem c131_spht {np : NX.FftX} (hnp : FftNan np) (A : Arr2 (IE × IE)) (hA : HasNan A) (hr : A.rows % 2 = 0) (hc : A.cols % 2 = 0) (n m : ℤ) (hm0 : 0 ≤ m) (hmn : m ≤ n)
    (hn : n < A.rows / 2) (hm : 2 * m < A.cols) :
    ∃ c, NX.spht rnd np ⟨.arr A⟩ (some n) (some m) = .ok c ∧ c.WF ∧ c.nmax = n ∧ c.mmax = m ∧ ∀ z ∈ c.vec, IsNanC z :=
  NN.spht_ok hnp A hA hr hc n m hm0 hmn hn hm _ _ rfl

/-- The same with the default arguments `nmax = nrows - 2`, `mmax = ncols/2 - 1` (where these are admissible). -/
theorem c131_spht_default {np : NX.FftX} (hnp : FftNan np) (A : Arr2 (IE × IE)) (hA : HasNan A) (hr : A.rows % 2 = 0) (hc : A.cols % 2 = 0) (hc2 : 2 ≤ A.cols) (hmn : A.cols ≤ A.rows) :
    ∃ c, NX.spht rnd np ⟨.arr A⟩ none none = .ok c ∧ c.WF ∧ c.nmax = A.rows / 2 - 1 ∧ c.mmax = A.cols / 2 - 1 ∧ ∀ z ∈ c.vec, IsNanC z :=
  NN.spht_ok hnp A hA hr hc _ _ (by omega) (by omega) (by omega) (by omega) _ _ (by
    unfold sphtArgs
    simp only [Except.bind_ok]
    congr 2
    push_cast
    omega)

/-- `ispht` (Python routines): if any coefficient is NaN, the call returns a pattern in which **every** sample is NaN. -/
theorem c131_ispht {np : NX.FftX} (hnp : FftNan np) (c : ScalarCoefs (IE × IE)) (hc : c.WF) (hn : ∃ z ∈ c.vec, IsNanC z) (nrows ncols : Option Int)
    (h1 : c.nmax < nrows.getD (c.nmax + 2)) (h1' : 2 ≤ nrows.getD (c.nmax + 2)) (h2 : 2 * c.mmax + 2 ≤ ncols.getD (2 * c.mmax + 2)) (h3 : ncols.getD (2 * c.mmax + 2) % 2 = 0) :
    ∃ A, NX.ispht rnd np c nrows ncols = .ok ⟨.arr A⟩ ∧ (A.rows : ℤ) = 2 * nrows.getD (c.nmax + 2) - 2 ∧ (A.cols : ℤ) = ncols.getD (2 * c.mmax + 2) ∧ AllNan A :=
  NN.ispht_ok hnp c hc hn nrows ncols h1 h1' h2 h3

/-- From user samples to coefficients and back: one NaN sample makes every coefficient of `spht` and every sample of `ispht(spht(...))` NaN. -/
theorem c131_round_trip {np : NX.FftX} (hnp : FftNan np) (cdata : Arr2 (IE × IE)) (hA : HasNan cdata) (hr : 2 ≤ cdata.rows) (hc : cdata.cols % 2 = 0) (n m : ℤ) (hm0 : 0 ≤ m) (hmn : m ≤ n)
    (hn : n ≤ (cdata.rows : ℤ) - 2) (hm : 2 * m < cdata.cols) :
    ∃ p c q A, NX.ofSamples rnd cdata = .ok p ∧ NX.spht rnd np p (some n) (some m) = .ok c ∧ (∀ z ∈ c.vec, IsNanC z) ∧
      NX.ispht rnd np c (some cdata.rows) (some cdata.cols) = .ok q ∧ q = ⟨.arr A⟩ ∧ A.rows = 2 * cdata.rows - 2 ∧ A.cols = cdata.cols ∧ AllNan A := by
  obtain ⟨A, eA, rA, cA, nA⟩ := c131_pattern (rnd := rnd) cdata hr
  obtain ⟨i, j, hi, hj, hz⟩ := hA
  obtain ⟨c, ec, wc, cn, cm, nc⟩ := c131_spht (rnd := rnd) hnp A ⟨i, j, by omega, by omega, nA i j hi hj hz⟩ (by omega) (by omega) n m hm0 hmn (by omega) (by omega)
  have hl := wc.len
  obtain ⟨B, eB, rB, cB, nB⟩ := c131_ispht (rnd := rnd) hnp c wc (by
    obtain ⟨z, hz⟩ : ∃ z, z ∈ c.vec := by
      cases h : c.vec with
      | nil =>
        rw [h, cn, cm] at hl
        unfold ncFormula at hl
        simp at hl
        nlinarith
      | cons z l => exact ⟨z, by simp⟩
    exact ⟨z, hz, nc z hz⟩) (some cdata.rows) (some cdata.cols) (by simp; omega) (by simp; omega) (by simp; omega) (by simp; omega)
  simp only [Option.getD_some] at rB cB
  exact ⟨_, c, _, B, eA, ec, nc, eB, rfl, by omega, by omega, nB⟩

/-- The 2-norm of data with a NaN entry is NaN or `+inf`, in whatever order `np.sum` adds (`v` is the coefficient array, or the samples of a pattern). -/
theorem c131_L2 (hr : ∀ x, 0 ≤ x → 0 ≤ rnd x) {hyp : IE × IE → IE} (hh : HypotSign hyp) (v : List (IE × IE)) (hv : ∃ z ∈ v, IsNanC z) (s : IE) (hs : NX.L2 rnd hyp v s) : Alarm s := by
  obtain ⟨p, hp, rfl⟩ := hs
  obtain ⟨z, hz, nz⟩ := hv
  have := (NN.sum_alarm hr hp (by
    intro x hx
    obtain ⟨w, _, rfl⟩ := List.mem_map.mp hx
    exact NN.sq_pos hr (NN.cabs_pos hh w))).2 ⟨_, List.mem_map.mpr ⟨z, hz, rfl⟩, NN.sq_alarm (NN.cabs_nan nz)⟩
  rcases this with rfl | rfl
  · exact .inl rfl
  · exact .inr (by simp [NX.sqrt])

/-- The maximum norm of data with a NaN entry is NaN or `+inf`. -/
theorem c131_LInf {hyp : IE × IE → IE} (v : List (IE × IE)) (hv : ∃ z ∈ v, IsNanC z) : ∃ s, NX.linf hyp v = .ok s ∧ Alarm s := by
  obtain ⟨z, hz, nz⟩ := hv
  unfold NX.linf
  have hm : NX.cabs hyp z ∈ v.map (NX.cabs hyp) := List.mem_map.mpr ⟨z, hz, rfl⟩
  generalize hl : v.map (NX.cabs hyp) = l at hm
  cases l with
  | nil => simp at hm
  | cons x xs =>
    refine ⟨_, rfl, NN.foldl_max _ _ ?_⟩
    rcases List.mem_cons.mp hm with h | h
    · exact .inl (h ▸ NN.cabs_nan nz)
    · exact .inr ⟨_, h, NN.cabs_nan nz⟩

/-- Finding: the symmetry check does hide NaN.  A pattern built from samples that are all `nan+nanj` has `single_val` 0.0 and `is_symmetric` True. -/
theorem c131_symmetry_hides (hyp : IE × IE → IE) (cdata : Arr2 (IE × IE)) (hr : 2 ≤ cdata.rows) (hall : ∀ i j, i < cdata.rows → j < cdata.cols → cdata.at' i j = (.nan, .nan)) :
    ∃ p, NX.ofSamples rnd cdata = .ok p ∧ NX.singleVal rnd hyp p = .ok (.zero false) ∧ NX.isSymmetric rnd hyp p = .ok true := by
  have key : ∃ A, NX.ofSamples rnd cdata = .ok ⟨.arr A⟩ ∧ ∀ i j, i < A.rows → j < A.cols → A.at' i j = (.nan, .nan) := by
    unfold NX.ofSamples npFull2
    rw [if_neg (by omega)]
    refine ⟨_, rfl, fun i j hi hj => ?_⟩
    unfold NX.doubleSphere vcat at hi hj ⊢
    simp only [Arr2.rows_ofFn, Arr2.cols_ofFn] at hi hj ⊢
    rw [Arr2.at'_ofFn hi hj]
    by_cases h : i < cdata.rows
    · refine NN.dsCell_nn (.inr ?_)
      rw [Arr2.at'_ofFn (by omega) hj, if_pos h]
      exact hall i j h hj
    · refine NN.dsCell_nn (.inl ?_)
      have e : (cdata.rows + ((cdata.rows : ℤ) - 2).toNat - i) % (cdata.rows + ((cdata.rows : ℤ) - 2).toNat) = cdata.rows + ((cdata.rows : ℤ) - 2).toNat - i := Nat.mod_eq_of_lt (by omega)
      have e2 : (cdata.cols / 2 + j) % cdata.cols < cdata.cols := Nat.mod_lt _ (by omega)
      rw [e, Arr2.at'_ofFn (by omega) e2, if_pos (by omega), hall _ _ (by omega) e2]
      exact NN.cmul_nn _
  obtain ⟨A, eA, nA⟩ := key
  have sv : NX.singleVal rnd hyp ⟨.arr A⟩ = .ok (.zero false) := by
    unfold NX.singleVal SPatt.dsphere
    simp only [Except.bind_ok]
    congr 1
    refine NN.foldl_const _ _ _ fun i hi => NN.foldl_const _ _ _ fun j hj => ?_
    rw [List.mem_range] at hi hj
    rw [nA i j hi hj, nA _ _ (Nat.mod_lt _ (by omega)) (Nat.mod_lt _ (by omega))]
    exact NN.svStep_nn _ _
  refine ⟨_, eA, sv, ?_⟩
  unfold NX.isSymmetric
  rw [sv]
  simp only [Except.bind_ok]
  congr 1
  simp only [ne_eq, reduceCtorEq, not_false_eq_true, true_and, decide_eq_true_eq, NX.ge]
  norm_num

/-! ### Witness: a Fourier transform that meets the assumption -/

namespace NN

/-- A discrete Fourier transform by the defining sums, each term a product with a finite factor `w k j`. -/
noncomputable def dftX (rnd : ℝ → ℝ) (w : ℕ → ℕ → IE × IE) (l : List (IE × IE)) : List (IE × IE) :=
  tab l.length fun k => (List.range l.length).foldl (fun a j => IE.cadd rnd a (IE.cmul rnd (w k j) (rd l j))) 0

/-- The two-dimensional transform. -/
noncomputable def dft2X (rnd : ℝ → ℝ) (w : ℕ → ℕ → ℕ → ℕ → IE × IE) (A : Arr2 (IE × IE)) : Arr2 (IE × IE) :=
  Arr2.ofFn A.rows A.cols fun k l => (List.range A.rows).foldl (fun a i => IE.cadd rnd a
    ((List.range A.cols).foldl (fun b j => IE.cadd rnd b (IE.cmul rnd (w k l i j) (A.at' i j))) 0)) 0

variable {Bd : IE → Prop} [Sticky Bd]

theorem foldl_nan {α : Type} (g : α → IE × IE) (l : List α) (z : IE × IE) (h : Bad Bd z ∨ ∃ x ∈ l, Bad Bd (g x)) : Bad Bd (l.foldl (fun a x => IE.cadd rnd a (g x)) z) := by
  induction l generalizing z with
  | nil =>
    rcases h with h | ⟨x, hx, _⟩
    · exact h
    · simp at hx
  | cons a l ih =>
    refine ih _ ?_
    rcases h with h | ⟨x, hx, hn⟩
    · exact .inl (cadd_l _ h)
    · rcases List.mem_cons.mp hx with rfl | hx
      · exact .inl (cadd_r _ hn)
      · exact .inr ⟨x, hx, hn⟩

/-- The defining sums as NumPy's transforms. -/
noncomputable def naive (rnd : ℝ → ℝ) : NX.FftX where
  fft2 A := .ok (dft2X rnd (fun k l i j => (IE.lit (Real.cos (2 * Real.pi * (k * i / A.rows + l * j / A.cols))), IE.lit (-Real.sin (2 * Real.pi * (k * i / A.rows + l * j / A.cols))))) A)
  ifft2 A _ _ := .ok (dft2X rnd (fun k l i j => (IE.lit (Real.cos (2 * Real.pi * (k * i / A.rows + l * j / A.cols))), IE.lit (Real.sin (2 * Real.pi * (k * i / A.rows + l * j / A.cols))))) A)
  fft l := .ok (dftX rnd (fun k j => (IE.lit (Real.cos (2 * Real.pi * k * j / l.length)), IE.lit (-Real.sin (2 * Real.pi * k * j / l.length)))) l)
  ifft l := .ok (dftX rnd (fun k j => (IE.lit (Real.cos (2 * Real.pi * k * j / l.length)), IE.lit (Real.sin (2 * Real.pi * k * j / l.length)))) l)
  jp m := (IE.lit (Real.cos (Real.pi * m / 2)), IE.lit (Real.sin (Real.pi * m / 2)))
  sum l := l.foldl (IE.cadd rnd) 0

theorem dft2X_nan (w : ℕ → ℕ → ℕ → ℕ → IE × IE) (A : Arr2 (IE × IE)) (h : HasBad Bd A) : AllBad Bd (dft2X rnd w A) := by
  obtain ⟨i, j, hi, hj, hn⟩ := h
  intro k l hk hl
  unfold dft2X at hk hl ⊢
  simp only [Arr2.rows_ofFn, Arr2.cols_ofFn] at hk hl
  rw [Arr2.at'_ofFn hk hl]
  exact foldl_nan _ _ _ (.inr ⟨i, List.mem_range.mpr hi, foldl_nan _ _ _ (.inr ⟨j, List.mem_range.mpr hj, cmul_r _ hn⟩)⟩)

theorem dftX_nan (w : ℕ → ℕ → IE × IE) (l : List (IE × IE)) (h : ∃ z ∈ l, Bad Bd z) : ∀ z ∈ dftX rnd w l, Bad Bd z := by
  obtain ⟨z, hz, hn⟩ := h
  obtain ⟨i, hi, rfl⟩ := List.getElem_of_mem hz
  refine all_of_rd fun k hk => ?_
  unfold dftX at hk ⊢
  rw [length_tab] at hk
  rw [rd_tab hk]
  refine foldl_nan _ _ _ (.inr ⟨i, List.mem_range.mpr hi, cmul_r _ ?_⟩)
  simpa [rd, hi] using hn

theorem naive_ok : FftBad Bd (naive rnd) where
  fft2 A _ _ := ⟨_, rfl, rfl, rfl, dft2X_nan _ A⟩
  ifft2 A _ _ _ _ _ _ := ⟨_, rfl, rfl, rfl, dft2X_nan _ A⟩
  fft l _ := ⟨_, rfl, by simp [dftX], dftX_nan _ l⟩
  ifft l _ := ⟨_, rfl, by simp [dftX], dftX_nan _ l⟩

end NN

/-- A 3×4 pattern of zeros with one NaN at the equator: all four coefficients up to degree 1 are NaN, for every rounding. -/
theorem c131_example (rnd : ℝ → ℝ) : ∃ p c, NX.ofSamples rnd (Arr2.ofFn 3 4 fun i j => if i = 1 ∧ j = 2 then (.nan, .zero false) else 0) = .ok p ∧
    NX.spht rnd (NN.naive rnd) p (some 1) (some 1) = .ok c ∧ c.vec.length = 4 ∧ ∀ z ∈ c.vec, IsNanC z := by
  have hb : IsNanC ((Arr2.ofFn 3 4 fun i j => if i = 1 ∧ j = 2 then ((.nan, .zero false) : IE × IE) else 0).at' 1 2) := by
    rw [Arr2.at'_ofFn (by omega) (by omega), if_pos ⟨rfl, rfl⟩]; exact .inl rfl
  obtain ⟨A, eA, rA, cA, nA⟩ := c131_pattern (rnd := rnd) (Arr2.ofFn 3 4 fun i j => if i = 1 ∧ j = 2 then ((.nan, .zero false) : IE × IE) else 0) (by simp)
  simp only [Arr2.rows_ofFn, Arr2.cols_ofFn] at rA cA nA
  obtain ⟨c, ec, wc, cn, cm, nc⟩ := c131_spht (rnd := rnd) NN.naive_ok A ⟨1, 2, by omega, by omega, nA 1 2 (by omega) (by omega) hb⟩ (by omega) (by omega) 1 1 (by omega) (by omega) (by omega) (by omega)
  refine ⟨_, c, eA, ec, ?_, nc⟩
  have := wc.len
  rw [cn, cm] at this
  norm_num [ncFormula] at this
  omega

end Verif.Props
