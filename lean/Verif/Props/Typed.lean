import Verif.Typed
import Verif.Props.Transforms3
import Verif.Props.Coefs1
/-!
# Property C82: which coefficient sets the C extension accepts
-/
namespace Verif.Props
open Verif

/-- Specification: a complex datum takes part in the making of the set.  Everything the package creates is complex, magnitudes
are real, arithmetic is complex as soon as one operand is, and in-place changes do not change the type. -/
def MadeComplex : CExpr → Prop
  | .zeros .. | .ones .. | .random .. | .spht .. | .load .. => True
  | .array _ dt _ _ _ => dt = .complex128
  | .copy a => MadeComplex a
  | .op _ a b => MadeComplex a ∨ MadeComplex b
  | .opNum _ a _ dx => MadeComplex a ∨ dx = .complex128
  | .opNumR _ _ dx a => MadeComplex a ∨ dx = .complex128
  | .abs _ | .mag2V _ | .magV _ => False
  | .edited a _ => MadeComplex a

/-- Specification: the set's array is one the user supplied in a strided (non-contiguous) form. -/
def StridedArray : CExpr → Prop
  | .array _ _ contig _ _ => contig = false
  | .edited a _ => StridedArray a
  | _ => False

theorem promote_complex (a b : DType) : a.promote b = .complex128 ↔ a = .complex128 ∨ b = .complex128 := by
  cases a <;> cases b <;> decide

theorem op_dtype_complex (o : Op) (a b : DType) : o.dtype a b = .complex128 ↔ a = .complex128 ∨ b = .complex128 := by
  cases o <;> cases a <;> cases b <;> decide

theorem abs_not_complex (a : DType) : a.abs ≠ .complex128 := by cases a <;> decide

theorem bindInv {α β : Type} {r : Res α} {f : α → Res β} {y : β} (h : r.bind f = .ok y) : ∃ x, r = .ok x ∧ f x = .ok y := by
  cases r with
  | error e => cases h
  | ok x => exact ⟨x, rfl, h⟩

/-- C82, element types: whatever a program does to obtain a coefficient set, the set holds `complex128` data exactly when a complex
datum took part, and its array is contiguous unless the user supplied it in strided form. -/
theorem c82_type (e : CExpr) : ∀ t, e.eval = .ok t →
    (t.dt = .complex128 ↔ MadeComplex e) ∧ (t.contig = false ↔ StridedArray e) := by
  induction e with
  | zeros n m => intro t h; obtain ⟨c, _, h⟩ := bindInv h; cases h; simp [MadeComplex, StridedArray, TCoefs.fresh]
  | ones n m => intro t h; obtain ⟨c, _, h⟩ := bindInv h; cases h; simp [MadeComplex, StridedArray, TCoefs.fresh]
  | random z n m mu s => intro t h; obtain ⟨c, _, h⟩ := bindInv h; cases h; simp [MadeComplex, StridedArray, TCoefs.fresh]
  | spht b p n m => intro t h; obtain ⟨c, _, h⟩ := bindInv h; cases h; simp [MadeComplex, StridedArray, TCoefs.fresh]
  | load F s => intro t h; obtain ⟨c, _, h⟩ := bindInv h; cases h; simp [MadeComplex, StridedArray, TCoefs.fresh]
  | array v dt k n m => intro t h; obtain ⟨c, _, h⟩ := bindInv h; cases h; simp [MadeComplex, StridedArray]
  | copy a ih =>
    intro t h
    obtain ⟨s, hs, h⟩ := bindInv h
    obtain ⟨c, _, h⟩ := bindInv h
    cases h
    simpa [MadeComplex, StridedArray] using (ih s hs).1
  | op o a b iha ihb =>
    intro t h
    obtain ⟨s, hs, h⟩ := bindInv h
    obtain ⟨u, hu, h⟩ := bindInv h
    obtain ⟨c, _, h⟩ := bindInv h
    cases h
    simp only [MadeComplex, StridedArray, op_dtype_complex, (iha s hs).1, (ihb u hu).1, Bool.true_eq_false, and_self]
  | opNum o a x dx ih =>
    intro t h
    obtain ⟨s, hs, h⟩ := bindInv h
    obtain ⟨c, _, h⟩ := bindInv h
    cases h
    simp only [MadeComplex, StridedArray, op_dtype_complex, (ih s hs).1, Bool.true_eq_false, and_self]
  | opNumR o x dx a ih =>
    intro t h
    obtain ⟨s, hs, h⟩ := bindInv h
    obtain ⟨c, _, h⟩ := bindInv h
    cases h
    simp only [MadeComplex, StridedArray, op_dtype_complex, (ih s hs).1, Bool.true_eq_false, and_true, or_comm]
  | abs a ih =>
    intro t h
    obtain ⟨s, hs, h⟩ := bindInv h
    obtain ⟨c, _, h⟩ := bindInv h
    cases h
    simp [MadeComplex, StridedArray, abs_not_complex]
  | mag2V v => intro t h; obtain ⟨c, _, h⟩ := bindInv h; cases h; simp [MadeComplex, StridedArray]
  | magV v => intro t h; obtain ⟨c, _, h⟩ := bindInv h; cases h; simp [MadeComplex, StridedArray]
  | edited a f ih =>
    intro t h
    obtain ⟨s, hs, h⟩ := bindInv h
    cases h
    simpa [MadeComplex, StridedArray] using ih s hs

/-- C82, acceptance: the Python backend transforms every set; the C backend transforms a contiguous `complex128` set and
otherwise raises TypeError (if the sizes asked for are acceptable). -/
theorem c82_ispht (t : TCoefs) (nr nc : Option Int) (J : ℕ → CJunk) :
    TCoefs.ispht .py t nr nc = ispht .py t.c nr nc ∧
    (t.dt = .complex128 ∧ t.contig = true → TCoefs.ispht (.c J) t nr nc = ispht (.c J) t.c nr nc) ∧
    (¬ (t.dt = .complex128 ∧ t.contig = true) → ∀ p, TCoefs.ispht (.c J) t nr nc ≠ .ok p) ∧
    (¬ (t.dt = .complex128 ∧ t.contig = true) → t.c.WellFormed → t.c.nmax < nr.getD (t.c.nmax + 2) →
      2 * t.c.mmax + 2 ≤ nc.getD (2 * t.c.mmax + 2) → nc.getD (2 * t.c.mmax + 2) % 2 = 0 →
      (TCoefs.ispht (.c J) t nr nc).Raises .typeError) := by
  have hbad : ¬ (t.dt = .complex128 ∧ t.contig = true) → ∃ e, swigArray1 t.dt t.contig = .error e ∧ e.cls = .typeError := by
    intro h
    unfold swigArray1
    by_cases hd : t.dt = .complex128
    · rw [if_neg (by simpa using hd), if_pos (by cases hc : t.contig <;> simp_all)]
      exact ⟨_, rfl, rfl⟩
    · rw [if_pos hd]; exact ⟨_, rfl, rfl⟩
  refine ⟨rfl, ?_, ?_, ?_⟩
  · rintro ⟨h1, h2⟩
    have hs : swigArray1 t.dt t.contig = .ok () := by rw [h1, h2]; rfl
    unfold TCoefs.ispht ispht Backend.scToFc
    simp only [hs, Except.bind_ok]
  · intro h p hp
    obtain ⟨e, he, _⟩ := hbad h
    unfold TCoefs.ispht at hp
    obtain ⟨_, _, hp⟩ := bindInv hp
    obtain ⟨f, hf, _⟩ := bindInv hp
    obtain ⟨z, _, hf⟩ := bindInv hf
    rw [he] at hf
    cases hf
  · intro h hw h1 h2 h3
    obtain ⟨e, he, hcls⟩ := hbad h
    have hw' := hw.wf
    have hm0 := hw'.m0
    have hmn := hw'.mn
    unfold TCoefs.ispht isphtGuards
    simp only
    rw [if_neg (by omega), if_neg (by omega), if_neg (by omega)]
    unfold npZeros2
    simp only [Except.bind_ok]
    rw [if_neg (by omega)]
    simp only [Except.bind_ok, he]
    exact ⟨e.msg, by cases e; cases hcls; rfl⟩

/-- C82 (the part that holds): a set in whose making a complex datum took part, and whose array is not a strided one of the user, is
transformed by both backends, with the same result.  Missing: real sets (`c82_counterexample`); `nmax = 0, nrows = 1`, see C29. -/
theorem c82_backends_partial (e : CExpr) (t : TCoefs) (he : e.eval = .ok t) (hm : MadeComplex e) (hs : ¬ StridedArray e)
    (hw : t.c.WellFormed) (J : ℕ → CJunk) (nr nc : Int) (hx : ¬ (t.c.nmax = 0 ∧ nr = 1)) :
    TCoefs.ispht (.c J) t (some nr) (some nc) = TCoefs.ispht .py t (some nr) (some nc) := by
  obtain ⟨a, b⟩ := c82_type e t he
  have h1 : t.dt = .complex128 := a.mpr hm
  have h2 : t.contig = true := by
    cases h : t.contig with
    | true => rfl
    | false => exact absurd (b.mp h) hs
  obtain ⟨p, q, _⟩ := c82_ispht t (some nr) (some nc) J
  rw [q ⟨h1, h2⟩, p]
  exact c28_ispht J t.c hw nr nc hx

/-- C82 fails: for every well-formed set `c`, `ispht(abs(c))` works with the Python backend and raises TypeError with the C
extension. -/
theorem c82_counterexample (c : ScalarCoefs ℂ) (hc : c.WellFormed) (J : ℕ → CJunk) :
    ∃ t p, (TCoefs.fresh c).abs = .ok t ∧ t.c.WellFormed ∧ TCoefs.ispht .py t none none = .ok p ∧
      (TCoefs.ispht (.c J) t none none).Raises .typeError := by
  have hw := hc.wf
  have h1 : ScalarCoefs.init (.arr (c.vec.map (fun x : ℂ => ‖x‖))) c.nmax c.mmax =
      .ok (⟨c.vec.map (fun x : ℂ => ‖x‖), c.nmax, c.mmax⟩ : ScalarCoefs ℝ) := by
    exact ScalarCoefs.init_wf hw.m0 hw.mn (by rw [List.length_map]; exact hw.len.symm)
  set d : ScalarCoefs ℂ := ⟨(c.vec.map (fun x : ℂ => ‖x‖)).map (fun x : ℝ => (x : ℂ)), c.nmax, c.mmax⟩ with hd
  have hdw : d.WF := ⟨hw.m0, hw.mn, by simp [hd]; exact hw.len⟩
  have hdW : d.WellFormed := ScalarCoefs.wf_iff.mp hdw
  have hm0 := hw.m0
  have hmn := hw.mn
  obtain ⟨v, hv⟩ : ∃ v, HasCoefs d v := ⟨_, hasCoefs_cf hdW⟩
  obtain ⟨p, A, hp, _⟩ := c30_ispht .py d hdW v hv (d.nmax + 2) (2 * d.mmax + 2) le_rfl le_rfl (by omega)
  refine ⟨⟨d, .float64, true⟩, p, ?_, hdW, hp, ?_⟩
  · unfold TCoefs.abs absSC TCoefs.fresh
    simp only [h1, Except.bind_ok, DType.abs, hd]
  · refine (c82_ispht ⟨d, .float64, true⟩ none none J).2.2.2 (by simp) hdW ?_ ?_ ?_
    · show d.nmax < d.nmax + 2; omega
    · exact le_rfl
    · show (2 * d.mmax + 2) % 2 = 0; omega

/-- C82, vector sets: the constructor refuses real arrays with TypeError (when sizes and limits fit) and treats complex ones as
modelled elsewhere, so every vector set holds complex data. -/
theorem c82_vector (v1 v2 : List ℂ) (dt1 dt2 : DType) (nmax mmax : Int) :
    (∀ c, vinitTyped v1 v2 dt1 dt2 nmax mmax = .ok c → dt1 = .complex128 ∧ dt2 = .complex128) ∧
    (dt1 = .complex128 ∧ dt2 = .complex128 →
      vinitTyped v1 v2 dt1 dt2 nmax mmax = VectorCoefs.init (.arr v1) (.arr v2) nmax mmax) ∧
    (∀ c, VectorCoefs.init (.arr v1) (.arr v2) nmax mmax = .ok c → ¬ (dt1 = .complex128 ∧ dt2 = .complex128) →
      (vinitTyped v1 v2 dt1 dt2 nmax mmax).Raises .typeError) := by
  unfold vinitTyped VectorCoefs.init
  refine ⟨?_, ?_, ?_⟩
  · intro c h
    split at h
    · cases h
    split at h
    · cases h
    split at h
    · cases h
    split at h
    · cases h
    · rename_i h'; push Not at h'; exact h'
  · rintro ⟨h1, h2⟩
    simp only [h1, h2, ne_eq, not_true_eq_false, or_self, if_false]
    split
    · rfl
    split
    · rfl
    split
    · rfl
    rfl
  · intro c h hn
    simp only at h
    split at h
    · cases h
    split at h
    · cases h
    split at h
    · cases h
    rename_i a b d
    rw [if_neg a, if_neg b, if_neg d, if_pos (by tauto)]
    exact ⟨_, rfl⟩

/-- A concrete program meeting the hypotheses of `c82_backends_partial`: `2 * abs(ones) + zeros`. -/
example : ∃ t, (CExpr.op .add (.opNumR .mul 2 .int64 (.abs (.ones 2 1))) (.zeros 2 1)).eval = .ok t ∧ t.dt = .complex128 ∧
    t.c.WellFormed := by
  refine ⟨_, rfl, rfl, ?_⟩
  rw [← ScalarCoefs.wf_iff]
  refine ⟨?_, ?_, ?_⟩ <;> decide
example : MadeComplex (CExpr.op .add (.opNumR .mul 2 .int64 (.abs (.ones 2 1))) (.zeros 2 1)) ∧
    ¬ StridedArray (CExpr.op .add (.opNumR .mul 2 .int64 (.abs (.ones 2 1))) (.zeros 2 1)) :=
  ⟨Or.inr trivial, id⟩

end Verif.Props
