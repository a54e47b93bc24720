import Verif.HeapTrans
import Verif.SpecHeap
/-!
# Objects do not share state (C16) and functions do not touch their arguments (C54)
-/
namespace Verif.Props
open Verif Verif.SpecHeap

/-- The arrays of an object. -/
def addrs : Obj → List Nat
  | .sc o => [o.buf]
  | .vc o => [o.s1.buf, o.s2.buf]
  | .sp (.arr a) => [a]
  | .sp .exc => []
  | .tp o => [o.td, o.pd]

/-- `see` as a relation between objects and values of the same kind. -/
def Rel (h : Heap) : Obj → OVal → Prop
  | .sc o, .sc c => HasS h o c
  | .vc o, .vc c => HasV h o c
  | .sp o, .sp p => HasP h o p
  | .tp o, .tp p => HasT h o p
  | _, _ => False

theorem seeS_eq {h : Heap} {o : SRef} {c : ScalarCoefs ℂ} : seeS h o = some c ↔ HasS h o c := by
  unfold seeS HasS
  cases e : h[o.buf]? with
  | none => simp
  | some x =>
    cases x with
    | mat A => simp
    | vec l =>
      rcases c with ⟨v, n, m⟩
      simp

theorem seeM_eq {h : Heap} {a : Nat} {A : Arr2 ℂ} : seeM h a = some A ↔ h[a]? = some (.mat A) := by
  unfold seeM
  cases e : h[a]? with
  | none => simp
  | some x => cases x <;> simp

theorem see_eq {h : Heap} {o : Obj} {v : OVal} : see h o = some v ↔ Rel h o v := by
  cases o with
  | sc o =>
    cases v <;> simp [see, Rel, ← seeS_eq]
  | vc o =>
    simp only [see]
    cases h1 : seeS h o.s1 with
    | none =>
      cases v <;> simp only [Rel, reduceCtorEq, false_iff, not_false_eq_true]
      rintro ⟨e, _⟩
      rw [seeS_eq.mpr e] at h1; cases h1
    | some c1 =>
      cases h2 : seeS h o.s2 with
      | none =>
        cases v <;> simp only [Rel, reduceCtorEq, false_iff, not_false_eq_true]
        rintro ⟨_, e, _⟩
        rw [seeS_eq.mpr e] at h2; cases h2
      | some c2 =>
        cases v with
        | vc c =>
          rcases c with ⟨d1, d2, n, m⟩
          simp only [Rel, HasV, ← seeS_eq, h1, h2, Option.some.injEq, OVal.vc.injEq, VectorCoefs.mk.injEq]
        | _ => simp [Rel]
  | sp o =>
    cases o with
    | arr a =>
      cases v with
      | sp p =>
        rcases p with ⟨ds⟩
        cases ds with
        | arr A => simp [see, Rel, HasP, ← seeM_eq]
        | exc => simp [see, Rel, HasP]
      | _ => simp [see, Rel]
    | exc =>
      cases v with
      | sp p =>
        rcases p with ⟨ds⟩
        cases ds <;> simp [see, Rel, HasP]
      | _ => simp [see, Rel]
  | tp o =>
    simp only [see]
    cases h1 : seeM h o.td with
    | none =>
      cases v <;> simp only [Rel, reduceCtorEq, false_iff, not_false_eq_true]
      rintro ⟨e, _⟩
      rw [seeM_eq.mpr e] at h1; cases h1
    | some T =>
      cases h2 : seeM h o.pd with
      | none =>
        cases v <;> simp only [Rel, reduceCtorEq, false_iff, not_false_eq_true]
        rintro ⟨_, e⟩
        rw [seeM_eq.mpr e] at h2; cases h2
      | some P =>
        cases v with
        | tp p =>
          rcases p with ⟨T', P'⟩
          simp only [Rel, HasT, ← seeM_eq, h1, h2, Option.some.injEq, OVal.tp.injEq, TPatt.mk.injEq]
        | _ => simp [Rel]

/-- What an object denotes depends on its own arrays only. -/
theorem see_congr {h h' : Heap} {o : Obj} (e : ∀ a ∈ addrs o, h'[a]? = h[a]?) : see h' o = see h o := by
  cases o with
  | sc o => simp only [see, seeS, e o.buf (by simp [addrs])]
  | vc o => simp only [see, seeS, e o.s1.buf (by simp [addrs]), e o.s2.buf (by simp [addrs])]
  | sp o =>
    cases o with
    | arr a => simp only [see, seeM, e a (by simp [addrs])]
    | exc => rfl
  | tp o => simp only [see, seeM, e o.td (by simp [addrs]), e o.pd (by simp [addrs])]

theorem lt_of_getElem? {h : Heap} {a : Nat} {c : Cell} (e : h[a]? = some c) : a < h.length :=
  (List.getElem?_eq_some_iff.mp e).1

theorem addrs_lt {h : Heap} {o : Obj} {v : OVal} (e : see h o = some v) : ∀ a ∈ addrs o, a < h.length := by
  have r := see_eq.mp e
  intro a ha
  cases o with
  | sc o =>
    cases v <;> simp only [Rel] at r
    simp only [addrs, List.mem_singleton] at ha
    subst ha; exact lt_of_getElem? r.1
  | vc o =>
    cases v <;> simp only [Rel] at r
    simp only [addrs, List.mem_cons, List.not_mem_nil, or_false] at ha
    rcases ha with rfl | rfl
    · exact lt_of_getElem? r.1.1
    · exact lt_of_getElem? r.2.1.1
  | sp o =>
    cases v <;> simp only [Rel] at r
    cases o with
    | exc => simp [addrs] at ha
    | arr b =>
      simp only [addrs, List.mem_singleton] at ha
      subst ha
      rename_i p
      rcases p with ⟨ds⟩
      cases ds <;> simp only [HasP] at r
      exact lt_of_getElem? r
  | tp o =>
    cases v <;> simp only [Rel] at r
    simp only [addrs, List.mem_cons, List.not_mem_nil, or_false] at ha
    rcases ha with rfl | rfl
    · exact lt_of_getElem? r.1
    · exact lt_of_getElem? r.2

theorem see_append {h : Heap} {o : Obj} {v : OVal} (e : see h o = some v) (t : Heap) : see (h ++ t) o = some v := by
  rw [see_congr (h := h) fun a ha => List.getElem?_append_left (addrs_lt e a ha)]; exact e

/-! ### Creating statements -/

/-- The new object lives in arrays of its own beyond `h` and denotes `v`. -/
def NewObj (h : Heap) (o : Obj) (v : OVal) (t : List Cell) : Prop :=
  see (h ++ t) o = some v ∧ (addrs o).Nodup ∧ ∀ a ∈ addrs o, h.length ≤ a

section
variable {h t : Heap}

theorem asObj_ref {α β : Type} {f : α → Obj} {g : β → OVal} {x : HM α} {v : Res β} {R : α → β → List Cell → Prop} {H : Heap}
    (h1 : Ref h (x H) v R) (h2 : ∀ a b t, R a b t → NewObj h (f a) (g b) t) :
    Ref h (asObj f x H) (asVal g v) (NewObj h) :=
  ref_bind h1 fun a b t r => ref_pure (h2 a b t r)

theorem newS_obj {o : SRef} {c : ScalarCoefs ℂ} (r : NewS h o c t) : NewObj h (.sc o) (.sc c) t := by
  obtain ⟨k, hb, ht, hn, hm⟩ := r
  refine ⟨see_eq.mpr ⟨by rw [hb, heap_new, ht], hn, hm⟩, by simp [addrs], ?_⟩
  simp [addrs, hb]

theorem newV_obj {o : VRef} {c : VectorCoefs ℂ} (r : NewV h o c t) : NewObj h (.vc o) (.vc c) t := by
  obtain ⟨k, j, hkj, hb1, hb2, ht1, ht2, n1, m1, n2, m2, hn, hm⟩ := r
  refine ⟨see_eq.mpr ⟨⟨by rw [hb1, heap_new, ht1], n1, m1⟩, ⟨by rw [hb2, heap_new, ht2], n2, m2⟩, hn, hm⟩, ?_, ?_⟩
  · simp only [addrs, List.nodup_cons, List.mem_singleton, List.not_mem_nil, not_false_eq_true, List.nodup_nil, and_true]
    omega
  · simp only [addrs, List.mem_cons, List.not_mem_nil, or_false]; omega

theorem newP_obj {o : PRef} {p : SPatt ℂ} (r : NewP h o p t) : NewObj h (.sp o) (.sp p) t := by
  rcases p with ⟨ds⟩
  cases o <;> cases ds <;> simp only [NewP] at r
  · obtain ⟨k, rfl, ht⟩ := r
    refine ⟨see_eq.mpr ?_, by simp [addrs], by simp [addrs]⟩
    show _ = _
    rw [heap_new, ht]
  · exact ⟨rfl, by simp [addrs], by simp [addrs]⟩

theorem newT_obj {o : TRef} {p : TPatt ℂ} (r : NewT h o p t) : NewObj h (.tp o) (.tp p) t := by
  obtain ⟨k, j, hkj, hb1, hb2, ht1, ht2⟩ := r
  refine ⟨see_eq.mpr ⟨by rw [hb1, heap_new, ht1], by rw [hb2, heap_new, ht2]⟩, ?_, ?_⟩
  · simp only [addrs, List.nodup_cons, List.mem_singleton, List.not_mem_nil, not_false_eq_true, List.nodup_nil, and_true]
    omega
  · simp only [addrs, List.mem_cons, List.not_mem_nil, or_false]; omega

/-- Looking up a variable in two environments that agree. -/
theorem lookup {env : List Obj} {venv : List OVal} (he : env.map (see h) = venv.map some) (i : Nat) :
    (env[i]? = none ∧ venv[i]? = none) ∨ ∃ o v, env[i]? = some o ∧ venv[i]? = some v ∧ Rel h o v := by
  have e : (env.map (see h))[i]? = (venv.map some)[i]? := by rw [he]
  rw [List.getElem?_map, List.getElem?_map] at e
  cases h1 : env[i]? with
  | none => left; rw [h1] at e; simpa using e
  | some o =>
    right
    rw [h1] at e
    cases h2 : venv[i]? with
    | none => rw [h2] at e; cases e
    | some v =>
      rw [h2] at e
      exact ⟨o, v, rfl, rfl, see_eq.mp (by simpa using e)⟩

theorem mk_ref (b : Backend) {env : List Obj} {venv : List OVal} (he : env.map (see h) = venv.map some) (m : Mk) :
    Ref h (mkHeap b env m (h ++ [])) (mkVal b venv m) (NewObj h) := by
  cases m with
  | coefs f n m => exact asObj_ref (factoryS_ref f n m) fun _ _ _ => newS_obj
  | vcoefs f g n m => exact asObj_ref (factoryV_ref f g n m) fun _ _ _ => newV_obj
  | patt A => exact asObj_ref (mkP_ref A) fun _ _ _ => newP_obj
  | tpatt T P => exact asObj_ref (mkT_ref T P) fun _ _ _ => newT_obj
  | copy i =>
    simp only [mkHeap, mkVal]
    rcases lookup he i with ⟨e1, e2⟩ | ⟨o, v, e1, e2, r⟩
    · rw [e1, e2]; exact ref_error _
    rw [e1, e2]
    cases o <;> cases v <;> simp only [Rel] at r
    · exact asObj_ref (copyS_ref r) fun _ _ _ => newS_obj
    · exact asObj_ref (copyV_ref r) fun _ _ _ => newV_obj
    · exact ref_error _
    · exact ref_error _
  | opObj op i j =>
    simp only [mkHeap, mkVal]
    rcases lookup he i with ⟨e1, e2⟩ | ⟨o, v, e1, e2, r⟩
    · rw [e1, e2]; exact ref_error _
    rcases lookup he j with ⟨e3, e4⟩ | ⟨o', v', e3, e4, r'⟩
    · rw [e1, e2, e3, e4]
      cases o <;> cases v <;> simp only [Rel] at r <;> exact ref_error _
    rw [e1, e2, e3, e4]
    cases o <;> cases v <;> simp only [Rel] at r <;> cases o' <;> cases v' <;> simp only [Rel] at r' <;>
      first
      | exact ref_error _
      | exact asObj_ref (opObjS_ref op r r') fun _ _ _ => newS_obj
      | exact asObj_ref (opObjV_ref op r r') fun _ _ _ => newV_obj
      | exact asObj_ref (opObjP_ref op r r') fun _ _ _ => newP_obj
      | exact asObj_ref (opObjT_ref op r r') fun _ _ _ => newT_obj
  | opNum op i x =>
    simp only [mkHeap, mkVal]
    rcases lookup he i with ⟨e1, e2⟩ | ⟨o, v, e1, e2, r⟩
    · rw [e1, e2]; exact ref_error _
    rw [e1, e2]
    cases o <;> cases v <;> simp only [Rel] at r
    · exact asObj_ref (opNumS_ref op x r) fun _ _ _ => newS_obj
    · exact asObj_ref (opNumV_ref op x r) fun _ _ _ => newV_obj
    · exact asObj_ref (opNumP_ref op x r) fun _ _ _ => newP_obj
    · exact asObj_ref (opNumT_ref op x r) fun _ _ _ => newT_obj
  | numOp op i x =>
    simp only [mkHeap, mkVal]
    rcases lookup he i with ⟨e1, e2⟩ | ⟨o, v, e1, e2, r⟩
    · rw [e1, e2]; exact ref_error _
    rw [e1, e2]
    cases o <;> cases v <;> simp only [Rel] at r
    · exact asObj_ref (numOpS_ref op x r) fun _ _ _ => newS_obj
    · exact asObj_ref (numOpV_ref op x r) fun _ _ _ => newV_obj
    · exact asObj_ref (numOpP_ref op x r) fun _ _ _ => newP_obj
    · exact asObj_ref (numOpT_ref op x r) fun _ _ _ => newT_obj
  | trunc i k =>
    simp only [mkHeap, mkVal]
    rcases lookup he i with ⟨e1, e2⟩ | ⟨o, v, e1, e2, r⟩
    · rw [e1, e2]; exact ref_error _
    rw [e1, e2]
    cases o <;> cases v <;> simp only [Rel] at r
    · exact asObj_ref (truncS_ref k r) fun _ _ _ q => newS_obj q.1
    · exact asObj_ref (truncV_ref k r) fun _ _ _ => newV_obj
    · exact ref_error _
    · exact ref_error _
  | spht i n m =>
    simp only [mkHeap, mkVal]
    rcases lookup he i with ⟨e1, e2⟩ | ⟨o, v, e1, e2, r⟩
    · rw [e1, e2]; exact ref_error _
    rw [e1, e2]
    cases o <;> cases v <;> simp only [Rel] at r
    · exact ref_error _
    · exact ref_error _
    · exact asObj_ref (spht_ref b n m r) fun _ _ _ => newS_obj
    · exact asObj_ref (vspht_ref b n m r) fun _ _ _ => newV_obj
  | ispht i n m =>
    simp only [mkHeap, mkVal]
    rcases lookup he i with ⟨e1, e2⟩ | ⟨o, v, e1, e2, r⟩
    · rw [e1, e2]; exact ref_error _
    rw [e1, e2]
    cases o <;> cases v <;> simp only [Rel] at r
    · exact asObj_ref (ispht_ref b n m r) fun _ _ _ => newP_obj
    · exact asObj_ref (vispht_ref b n m r) fun _ _ _ => newT_obj
    · exact ref_error _
    · exact ref_error _

end

/-! ### Changing statements -/

/-- The result of a changing statement: its exception, the new content of the object, and every other array as before. -/
def MutOK (h : Heap) (o : Obj) (r : Res Unit × Heap) (e : Eff OVal) : Prop :=
  (match r.1 with | .ok _ => e.err = none | .error x => e.err = some x) ∧
  see r.2 o = some e.st ∧ r.2.length = h.length ∧ ∀ a, a ∉ addrs o → r.2[a]? = h[a]?

theorem update_eq {h : Heap} {o : SRef} {c : ScalarCoefs ℂ} (r : HasS h o c) (f : ScalarCoefs ℂ → Eff (ScalarCoefs ℂ)) :
    o.update f h = ((match (f c).err with | none => .ok () | some x => .error x), h.set o.buf (.vec (f c).st.vec)) := by
  rw [SRef.update, readS_bind _ r]
  cases e : (f c).err <;> simp only [hm_bind, writeC, e] <;> rfl

theorem has_set {h : Heap} {o : SRef} {c d : ScalarCoefs ℂ} (r : HasS h o c) (hl : SameLim c d) :
    HasS (h.set o.buf (.vec d.vec)) o d :=
  ⟨List.getElem?_set_self (lt_of_getElem? r.1), r.2.1.trans hl.1.symm, r.2.2.trans hl.2.symm⟩

theorem has_set_ne {h : Heap} {o : SRef} {c : ScalarCoefs ℂ} {a : Nat} {x : Cell} (r : HasS h o c) (ha : a ≠ o.buf) :
    HasS (h.set a x) o c := ⟨by rw [List.getElem?_set_ne ha]; exact r.1, r.2⟩

theorem mutS {h : Heap} {o : SRef} {c : ScalarCoefs ℂ} (r : HasS h o c) (f : ScalarCoefs ℂ → Eff (ScalarCoefs ℂ))
    (hf : SameLim c (f c).st) : MutOK h (.sc o) (o.update f h) ⟨.sc (f c).st, (f c).err⟩ := by
  rw [update_eq r]
  refine ⟨?_, see_eq.mpr (has_set r hf), by simp, fun a ha => ?_⟩
  · cases (f c).err <;> rfl
  · simp only [addrs, List.mem_singleton] at ha
    exact List.getElem?_set_ne (Ne.symm ha)

theorem mutV1 {h : Heap} {o : VRef} {c : VectorCoefs ℂ} (r : HasV h o c) (hd : (addrs (.vc o)).Nodup)
    (f : ScalarCoefs ℂ → Eff (ScalarCoefs ℂ)) (hf : SameLim c.scoef1 (f c.scoef1).st) :
    MutOK h (.vc o) (o.s1.update f h) ⟨.vc { c with scoef1 := (f c.scoef1).st }, (f c.scoef1).err⟩ := by
  have hne : o.s1.buf ≠ o.s2.buf := by simpa [addrs] using hd
  rw [update_eq r.1]
  refine ⟨?_, see_eq.mpr ⟨has_set r.1 hf, has_set_ne r.2.1 hne, r.2.2⟩, by simp, fun a ha => ?_⟩
  · cases (f c.scoef1).err <;> rfl
  · simp only [addrs, List.mem_cons, List.not_mem_nil, or_false, not_or] at ha
    exact List.getElem?_set_ne (Ne.symm ha.1)

theorem mutV2 {h : Heap} {o : VRef} {c : VectorCoefs ℂ} (r : HasV h o c) (hd : (addrs (.vc o)).Nodup)
    (f : ScalarCoefs ℂ → Eff (ScalarCoefs ℂ)) (hf : SameLim c.scoef2 (f c.scoef2).st) :
    MutOK h (.vc o) (o.s2.update f h) ⟨.vc { c with scoef2 := (f c.scoef2).st }, (f c.scoef2).err⟩ := by
  have hne : o.s1.buf ≠ o.s2.buf := by simpa [addrs] using hd
  rw [update_eq r.2.1]
  refine ⟨?_, see_eq.mpr ⟨has_set_ne r.1 (Ne.symm hne), has_set r.2.1 hf, r.2.2⟩, by simp, fun a ha => ?_⟩
  · cases (f c.scoef2).err <;> rfl
  · simp only [addrs, List.mem_cons, List.not_mem_nil, or_false, not_or] at ha
    exact List.getElem?_set_ne (Ne.symm ha.2)

theorem vsetitem_lim (c : VectorCoefs ℂ) (arg : List Arg) (v : VectorCoefs.ValV ℂ) :
    SameLim c.scoef1 (c.setitem arg v).st.scoef1 ∧ SameLim c.scoef2 (c.setitem arg v).st.scoef2 ∧
      (c.setitem arg v).st.nmax = c.nmax ∧ (c.setitem arg v).st.mmax = c.mmax := by
  have key : ∀ n m a b, SameLim c.scoef1 (c.setNM n m a b).st.scoef1 ∧ SameLim c.scoef2 (c.setNM n m a b).st.scoef2 ∧
      (c.setNM n m a b).st.nmax = c.nmax ∧ (c.setNM n m a b).st.mmax = c.mmax := by
    intro n m a b
    unfold VectorCoefs.setNM
    split
    · exact ⟨.refl _, .refl _, rfl, rfl⟩
    · simp only
      split
      · exact ⟨setNM_lim _ _ _ _, .refl _, rfl, rfl⟩
      · exact ⟨setNM_lim _ _ _ _, setNM_lim _ _ _ _, rfl, rfl⟩
  have triv : SameLim c.scoef1 c.scoef1 ∧ SameLim c.scoef2 c.scoef2 ∧ c.nmax = c.nmax ∧ c.mmax = c.mmax :=
    ⟨.refl _, .refl _, rfl, rfl⟩
  unfold VectorCoefs.setitem
  split
  · split
    · split
      · exact triv
      · split <;> exact triv
      · exact key _ _ _ _
      · exact triv
    · exact triv
  · exact triv

theorem mutVset {h : Heap} {o : VRef} {c : VectorCoefs ℂ} (r : HasV h o c) (hd : (addrs (.vc o)).Nodup)
    (arg : List Arg) (v : VectorCoefs.ValV ℂ) :
    MutOK h (.vc o) (o.setitem arg v h) ⟨.vc (c.setitem arg v).st, (c.setitem arg v).err⟩ := by
  have hne : o.s1.buf ≠ o.s2.buf := by simpa [addrs] using hd
  obtain ⟨l1, l2, ln, lm⟩ := vsetitem_lim c arg v
  have e0 : (⟨c.scoef1, c.scoef2, o.nmax, o.mmax⟩ : VectorCoefs ℂ) = c := by rw [r.2.2.1, r.2.2.2]
  have e : o.setitem arg v h = ((match (c.setitem arg v).err with | none => .ok () | some x => .error x),
      (h.set o.s1.buf (.vec (c.setitem arg v).st.scoef1.vec)).set o.s2.buf (.vec (c.setitem arg v).st.scoef2.vec)) := by
    rw [VRef.setitem, readS_bind _ r.1, readS_bind _ r.2.1, e0]
    cases e : (c.setitem arg v).err <;> simp only [hm_bind, writeC, e] <;> rfl
  rw [e]
  refine ⟨?_, see_eq.mpr ⟨has_set_ne (has_set r.1 l1) (Ne.symm hne), has_set (has_set_ne r.2.1 hne) l2,
    r.2.2.1.trans ln.symm, r.2.2.2.trans lm.symm⟩, by simp, fun a ha => ?_⟩
  · cases (c.setitem arg v).err <;> rfl
  · simp only [addrs, List.mem_cons, List.not_mem_nil, or_false, not_or] at ha
    rw [List.getElem?_set_ne (Ne.symm ha.2), List.getElem?_set_ne (Ne.symm ha.1)]

theorem mut_nop {h : Heap} {o : Obj} {v : OVal} (r : Rel h o v) (e : PyErr) :
    MutOK h o ((HM.lift (.error e) : HM Unit) h) ⟨v, some e⟩ := ⟨rfl, see_eq.mpr r, rfl, fun _ _ => rfl⟩

theorem mut_ref {h : Heap} {o : Obj} {v : OVal} (r : Rel h o v) (hd : (addrs o).Nodup) (m : Mut) :
    MutOK h o (mutHeap m o h) (mutVal m v) := by
  cases m with
  | set arg w =>
    cases o <;> cases v <;> simp only [Rel] at r
    · exact mutS r _ (setitem_lim _ _ _)
    all_goals
      first | exact mut_nop (o := .sc _) (v := .sc _) r _ | exact mut_nop (o := .vc _) (v := .vc _) r _ | exact mut_nop (o := .sp _) (v := .sp _) r _ | exact mut_nop (o := .tp _) (v := .tp _) r _
  | setV arg w =>
    cases o <;> cases v <;> simp only [Rel] at r
    · exact mut_nop (o := .sc _) (v := .sc _) r _
    · exact mutVset r hd _ _
    all_goals
      first | exact mut_nop (o := .sc _) (v := .sc _) r _ | exact mut_nop (o := .vc _) (v := .vc _) r _ | exact mut_nop (o := .sp _) (v := .sp _) r _ | exact mut_nop (o := .tp _) (v := .tp _) r _
  | window w =>
    cases o <;> cases v <;> simp only [Rel] at r
    · exact mutS r _ (window_lim _ _)
    all_goals
      first | exact mut_nop (o := .sc _) (v := .sc _) r _ | exact mut_nop (o := .vc _) (v := .vc _) r _ | exact mut_nop (o := .sp _) (v := .sp _) r _ | exact mut_nop (o := .tp _) (v := .tp _) r _
  | setComp first arg w =>
    cases o <;> cases v <;> simp only [Rel] at r
    · cases first <;> exact mut_nop (o := .sc _) (v := .sc _) r _
    · cases first
      · exact mutV2 r hd _ (setitem_lim _ _ _)
      · exact mutV1 r hd _ (setitem_lim _ _ _)
    all_goals
      cases first <;>
      first | exact mut_nop (o := .sc _) (v := .sc _) r _ | exact mut_nop (o := .vc _) (v := .vc _) r _ | exact mut_nop (o := .sp _) (v := .sp _) r _ | exact mut_nop (o := .tp _) (v := .tp _) r _
  | windowComp first w =>
    cases o <;> cases v <;> simp only [Rel] at r
    · cases first <;> exact mut_nop (o := .sc _) (v := .sc _) r _
    · cases first
      · exact mutV2 r hd _ (window_lim _ _)
      · exact mutV1 r hd _ (window_lim _ _)
    all_goals
      cases first <;>
      first | exact mut_nop (o := .sc _) (v := .sc _) r _ | exact mut_nop (o := .vc _) (v := .vc _) r _ | exact mut_nop (o := .sp _) (v := .sp _) r _ | exact mut_nop (o := .tp _) (v := .tp _) r _
  | poke f =>
    cases o <;> cases v <;> simp only [Rel] at r
    · exact mut_nop (o := .sc _) (v := .sc _) r _
    · exact mut_nop (o := .vc _) (v := .vc _) r _
    · rename_i o p
      rcases p with ⟨ds⟩
      cases o <;> cases ds <;> simp only [HasP] at r
      · rename_i a A
        have e : mutHeap (.poke f) (.sp (.arr a)) h = (.ok (), h.set a (.mat (f A))) := by
          simp only [mutHeap]; rw [readM_bind _ r]; rfl
        rw [e]
        refine ⟨rfl, see_eq.mpr (List.getElem?_set_self (lt_of_getElem? r)), by simp, fun b hb => ?_⟩
        simp only [addrs, List.mem_singleton] at hb
        exact List.getElem?_set_ne (Ne.symm hb)
      · exact mut_nop (o := .sp .exc) (v := .sp ⟨.exc⟩) trivial _
    · exact mut_nop (o := .tp _) (v := .tp _) r _
  | pokeT first f =>
    cases o <;> cases v <;> simp only [Rel] at r
    · cases first <;> exact mut_nop (o := .sc _) (v := .sc _) r _
    · cases first <;> exact mut_nop (o := .vc _) (v := .vc _) r _
    · cases first <;> exact mut_nop (o := .sp _) (v := .sp _) r _
    · rename_i o p
      have hne : o.td ≠ o.pd := by simpa [addrs] using hd
      cases first
      · have e : mutHeap (.pokeT false f) (.tp o) h = (.ok (), h.set o.pd (.mat (f p.pd))) := by
          simp only [mutHeap]; rw [readM_bind (A := p.pd) _ (by simpa using r.2)]; rfl
        rw [e]
        refine ⟨rfl, see_eq.mpr ⟨?_, List.getElem?_set_self (lt_of_getElem? r.2)⟩, by simp, fun b hb => ?_⟩
        · rw [List.getElem?_set_ne (Ne.symm hne)]; exact r.1
        · simp only [addrs, List.mem_cons, List.not_mem_nil, or_false, not_or] at hb
          exact List.getElem?_set_ne (Ne.symm hb.2)
      · have e : mutHeap (.pokeT true f) (.tp o) h = (.ok (), h.set o.td (.mat (f p.td))) := by
          simp only [mutHeap]; rw [readM_bind (A := p.td) _ (by simpa using r.1)]; rfl
        rw [e]
        refine ⟨rfl, see_eq.mpr ⟨List.getElem?_set_self (lt_of_getElem? r.1), ?_⟩, by simp, fun b hb => ?_⟩
        · rw [List.getElem?_set_ne hne]; exact r.2
        · simp only [addrs, List.mem_cons, List.not_mem_nil, or_false, not_or] at hb
          exact List.getElem?_set_ne (Ne.symm hb.1)

/-! ### Programs -/

/-- The two runs are in step: same exceptions, each variable denotes its value, and no array belongs to two variables (or
twice to the same variable). -/
structure Sync (s : St) (w : VSt) : Prop where
  log : s.log = w.log
  env : s.env.map (see s.heap) = w.env.map some
  nodup : (s.env.flatMap addrs).Nodup

theorem env_mem {h : Heap} {env : List Obj} {venv : List OVal} (he : env.map (see h) = venv.map some) {o : Obj}
    (ho : o ∈ env) : ∃ v, see h o = some v := by
  obtain ⟨i, hi, e⟩ := List.getElem_of_mem ho
  rcases lookup he i with ⟨e1, _⟩ | ⟨o', v, e1, _, r⟩
  · rw [List.getElem?_eq_getElem hi] at e1; cases e1
  · rw [List.getElem?_eq_getElem hi, e] at e1
    cases e1
    exact ⟨v, see_eq.mpr r⟩

theorem env_congr {h h' : Heap} {env : List Obj} (e : ∀ o ∈ env, see h' o = see h o) : env.map (see h') = env.map (see h) :=
  List.map_congr_left e

theorem addrs_disjoint {env : List Obj} (hd : (env.flatMap addrs).Nodup) {i j : Nat} {o p : Obj} (hi : env[i]? = some o)
    (hj : env[j]? = some p) (hij : i ≠ j) : ∀ a ∈ addrs o, a ∉ addrs p := by
  induction env generalizing i j with
  | nil => simp at hi
  | cons x xs ih =>
    rw [List.flatMap_cons, List.nodup_append] at hd
    obtain ⟨_, h2, h3⟩ := hd
    intro a ha hp
    cases i with
    | zero =>
      cases j with
      | zero => exact hij rfl
      | succ j =>
        simp only [List.getElem?_cons_zero, Option.some.injEq, List.getElem?_cons_succ] at hi hj
        subst hi
        exact h3 a ha a (List.mem_flatMap.mpr ⟨p, List.mem_of_getElem? hj, hp⟩) rfl
    | succ i =>
      cases j with
      | zero =>
        simp only [List.getElem?_cons_zero, Option.some.injEq, List.getElem?_cons_succ] at hi hj
        subst hj
        exact h3 a hp a (List.mem_flatMap.mpr ⟨o, List.mem_of_getElem? hi, ha⟩) rfl
      | succ j =>
        simp only [List.getElem?_cons_succ] at hi hj
        exact ih h2 hi hj (by omega) a ha hp

theorem nodup_of_mem {env : List Obj} (hd : (env.flatMap addrs).Nodup) {o : Obj} (ho : o ∈ env) : (addrs o).Nodup := by
  obtain ⟨s, t, rfl⟩ := List.append_of_mem ho
  rw [List.flatMap_append, List.flatMap_cons, List.nodup_append, List.nodup_append] at hd
  exact hd.2.1.1

theorem step_sync (b : Backend) {s : St} {w : VSt} (H : Sync s w) (st : Stmt) : Sync (stepHeap b s st) (stepVal b w st) := by
  cases st with
  | mk m =>
    have R := mk_ref b H.env m
    rw [List.append_nil] at R
    obtain ⟨t, ht, hr⟩ := R
    simp only [stepHeap, stepVal]
    rcases hx : mkHeap b s.env m s.heap with ⟨r, h'⟩
    rw [hx] at ht hr
    simp only at ht hr
    subst ht
    have hold : s.env.map (see (s.heap ++ t)) = w.env.map some := by
      rw [env_congr (h := s.heap)]
      · exact H.env
      · intro o ho
        obtain ⟨v, hv⟩ := env_mem H.env ho
        rw [hv, see_append hv]
    cases r with
    | error e =>
      cases hv : mkVal b w.env m with
      | error e' => rw [hv] at hr; simp only at hr; subst hr; exact ⟨by simp [H.log], hold, H.nodup⟩
      | ok v => rw [hv] at hr; exact hr.elim
    | ok o =>
      cases hv : mkVal b w.env m with
      | error e' => rw [hv] at hr; exact hr.elim
      | ok v =>
        rw [hv] at hr
        obtain ⟨r1, r2, r3⟩ := hr
        refine ⟨by simp [H.log], by simp [hold, r1], ?_⟩
        simp only [List.flatMap_append, List.flatMap_cons, List.flatMap_nil, List.append_nil]
        rw [List.nodup_append]
        refine ⟨H.nodup, r2, fun a ha c hc hac => ?_⟩
        obtain ⟨o', ho', hao⟩ := List.mem_flatMap.mp ha
        obtain ⟨v', hv'⟩ := env_mem H.env ho'
        have h1 := addrs_lt hv' a hao
        have h2 := r3 c hc
        omega
  | chg i m =>
    simp only [stepHeap, stepVal]
    rcases lookup H.env i with ⟨e1, e2⟩ | ⟨o, v, e1, e2, r⟩
    · rw [e1, e2]; exact ⟨by simp [H.log], H.env, H.nodup⟩
    rw [e1, e2]
    have hm := mut_ref r (nodup_of_mem H.nodup (List.mem_of_getElem? e1)) m
    simp only
    rcases hx : mutHeap m o s.heap with ⟨q, h'⟩
    rw [hx] at hm
    obtain ⟨m1, m2, m3, m4⟩ := hm
    simp only at m1 m2 m3 m4
    have hnew : s.env.map (see h') = (w.env.set i (mutVal m v).st).map some := by
      apply List.ext_getElem?
      intro j
      rw [List.getElem?_map, List.getElem?_map]
      by_cases hij : i = j
      · subst hij
        have hi : i < w.env.length := (List.getElem?_eq_some_iff.mp e2).1
        rw [e1, List.getElem?_set_self hi]
        simp [m2]
      · rw [List.getElem?_set_ne hij]
        rcases lookup H.env j with ⟨e3, e4⟩ | ⟨o', v', e3, e4, r'⟩
        · rw [e3, e4]; rfl
        · rw [e3, e4]
          simp only [Option.map_some, Option.some.injEq]
          rw [see_congr (h := s.heap) fun a ha => m4 a ((addrs_disjoint H.nodup e1 e3 hij) a · ha)]
          exact see_eq.mpr r'
    cases q with
    | ok _ => exact ⟨by simp [H.log, m1], hnew, H.nodup⟩
    | error e => exact ⟨by simp [H.log, m1], hnew, H.nodup⟩

theorem fold_sync (b : Backend) (prog : List Stmt) {s : St} {w : VSt} (H : Sync s w) :
    Sync (prog.foldl (stepHeap b) s) (prog.foldl (stepVal b) w) := by
  induction prog generalizing s w with
  | nil => exact H
  | cons st prog ih => exact ih (step_sync b H st)

theorem run_sync (b : Backend) (h0 : Heap) (prog : List Stmt) : Sync (runHeap b h0 prog) (runVal b prog) :=
  fold_sync b prog ⟨rfl, rfl, by simp⟩

/-- C16, main form: **every** program behaves on shared NumPy arrays exactly as it does on immutable values, in which an
assignment can only be seen through the variable it is made to: same exceptions at the same statements, and at the end (hence,
taking prefixes, at every point) each variable shows the same value. -/
theorem c16_no_sharing (b : Backend) (h0 : Heap) (prog : List Stmt) :
    (runHeap b h0 prog).log = (runVal b prog).log ∧
    (runHeap b h0 prog).env.map (see (runHeap b h0 prog).heap) = (runVal b prog).env.map some :=
  ⟨(run_sync b h0 prog).log, (run_sync b h0 prog).env⟩

/-- C16, direct form: after any program, changing variable `i` in place (assignment, slice assignment, `window`, writing
through a component or a view) leaves what every other variable shows unchanged. -/
theorem c16_independent (b : Backend) (h0 : Heap) (prog : List Stmt) (i : Nat) (m : Mut) (j : Nat) (hij : j ≠ i) (o : Obj)
    (ho : (runHeap b h0 prog).env[j]? = some o) :
    (stepHeap b (runHeap b h0 prog) (.chg i m)).env[j]? = some o ∧
    see (stepHeap b (runHeap b h0 prog) (.chg i m)).heap o = see (runHeap b h0 prog).heap o := by
  have H := run_sync b h0 prog
  simp only [stepHeap]
  cases e : (runHeap b h0 prog).env[i]? with
  | none => exact ⟨ho, rfl⟩
  | some x =>
    rcases lookup H.env i with ⟨e1, _⟩ | ⟨o1, v, e1, e2, r⟩
    · rw [e] at e1; cases e1
    rw [e] at e1; cases e1
    obtain ⟨_, _, _, m4⟩ := mut_ref r (nodup_of_mem H.nodup (List.mem_of_getElem? e)) m
    have hs := see_congr (o := o) fun a ha => m4 a ((addrs_disjoint H.nodup e ho (Ne.symm hij)) a · ha)
    simp only
    rcases hx : mutHeap m x (runHeap b h0 prog).heap with ⟨q, h'⟩
    rw [hx] at hs
    cases q <;> exact ⟨ho, hs⟩

/-- C54: creating an object (factories, `copy`, arithmetic, truncation, the transforms) changes no existing array: every
variable of any program shows the same value before and after. -/
theorem c54_arguments_unchanged (b : Backend) (h0 : Heap) (prog : List Stmt) (m : Mk) (o : Obj)
    (ho : o ∈ (runHeap b h0 prog).env) :
    see (stepHeap b (runHeap b h0 prog) (.mk m)).heap o = see (runHeap b h0 prog).heap o := by
  have H := run_sync b h0 prog
  obtain ⟨v, hv⟩ := env_mem H.env ho
  have R := mk_ref b H.env m
  rw [List.append_nil] at R
  obtain ⟨t, ht, _⟩ := R
  simp only [stepHeap]
  rcases hx : mkHeap b (runHeap b h0 prog).env m (runHeap b h0 prog).heap with ⟨q, h'⟩
  rw [hx] at ht
  simp only at ht
  subst ht
  cases q <;> simp only <;> rw [hv, see_append hv]

/-- A concrete program: `a = ones_coefs(2, 1); b = a.copy(); a[1, 0] = 5`. -/
noncomputable def demoProg : List Stmt :=
  [.mk (.coefs (fun _ => 1) 2 1), .mk (.copy 0), .chg 0 (.set [.int 1, .int 0] (.num 5))]

/-- The value-level run of it: no exceptions, `a` changed, `b` not. -/
theorem demoVal (b : Backend) : runVal b demoProg =
    ⟨[none, none, none], [.sc ⟨[1, 5, 1, 1, 1, 1, 1], 2, 1⟩, .sc ⟨[1, 1, 1, 1, 1, 1, 1], 2, 1⟩]⟩ := rfl

/-- Non-vacuity of C16: on the heap the program runs, `a` shows the assignment and the copy `b` does not. -/
example (b : Backend) (h0 : Heap) :
    (runHeap b h0 demoProg).log = [none, none, none] ∧
    (runHeap b h0 demoProg).env.map (see (runHeap b h0 demoProg).heap) =
      [some (.sc ⟨[1, 5, 1, 1, 1, 1, 1], 2, 1⟩), some (.sc ⟨[1, 1, 1, 1, 1, 1, 1], 2, 1⟩)] := by
  have h := c16_no_sharing b h0 demoProg
  rw [demoVal b] at h
  exact h

/-- Non-vacuity of C54: the variables of the program above exist, so `spht`, `ispht`, ... of them are covered. -/
example (b : Backend) (h0 : Heap) : (runHeap b h0 demoProg).env.length = 2 := by
  have h := congrArg List.length (c16_no_sharing b h0 demoProg).2
  rw [demoVal b] at h
  simpa using h

/-! ### Where sharing does occur: the constructors -/

/-- The constructor `ScalarCoefs(vec, nmax, mmax)` stores the caller's array: a later in-place change through the object is a
change of that array, and is seen through every other object made from it. (This is why C16 lists the operations it is about.) -/
theorem c16_constructor_shares (h : Heap) (a : Nat) (l : List ℂ) (n m : Int) (o1 o2 : SRef) (h1 h2 : Heap)
    (ha : h[a]? = some (.vec l)) (e1 : hInitS a n m h = (.ok o1, h1)) (e2 : hInitS a n m h1 = (.ok o2, h2))
    (arg : List Arg) (v : Val ℂ) :
    h2 = h ∧ seeS (o1.update (fun c => c.setitem arg v) h2).2 o2 =
      some ((ScalarCoefs.setitem ⟨l, n, m⟩ arg v).st) := by
  have k : ∀ {h' : Heap} {o : SRef} {h'' : Heap}, h'[a]? = some (.vec l) → hInitS a n m h' = (.ok o, h'') →
      h'' = h' ∧ o = ⟨a, n, m⟩ := by
    intro h' o h'' ha' e
    rw [hInitS, readV_bind _ ha'] at e
    cases hc : ScalarCoefs.init (.arr l) n m with
    | error x => rw [hc] at e; cases e
    | ok c =>
      rw [hc] at e
      have e' : ((Except.ok ⟨a, n, m⟩ : Res SRef), h') = (.ok o, h'') := e
      simp only [Prod.mk.injEq, Except.ok.injEq] at e'
      exact ⟨e'.2.symm, e'.1.symm⟩
  obtain ⟨rfl, rfl⟩ := k ha e1
  obtain ⟨rfl, rfl⟩ := k ha e2
  refine ⟨rfl, ?_⟩
  have hs : HasS h2 ⟨a, n, m⟩ ⟨l, n, m⟩ := ⟨ha, rfl, rfl⟩
  rw [update_eq hs]
  exact seeS_eq.mpr (has_set hs (setitem_lim _ _ _))

/-- `VectorCoefs(vec1, vec2, nmax, mmax)` also writes: it clears entry 0 of the caller's arrays. -/
theorem c16_vector_constructor_writes (h : Heap) (a1 a2 : Nat) (l1 l2 : List ℂ) (n m : Int) (o : VRef) (h' : Heap)
    (hne : a1 ≠ a2) (e1 : h[a1]? = some (.vec l1)) (e2 : h[a2]? = some (.vec l2)) (e : hInitV a1 a2 n m h = (.ok o, h')) :
    h'[a1]? = some (.vec (l1.set 0 0)) ∧ h'[a2]? = some (.vec (l2.set 0 0)) := by
  have s0 : ∀ {l k : List ℂ}, setIdx l 0 0 = .ok k → k = l.set 0 0 := by
    intro l k hk
    unfold setIdx at hk
    simp only [lt_self_iff_false, if_false] at hk
    split at hk
    · simpa using hk.symm
    · cases hk
  have hl1 := lt_of_getElem? e1
  have hl2 := lt_of_getElem? e2
  rw [hInitV, readV_bind _ e1, readV_bind _ e2] at e
  split at e
  · cases e
  split at e
  · cases e
  split at e
  · cases e
  cases h1 : setIdx l1 0 0 with
  | error x => rw [h1] at e; cases e
  | ok k1 =>
    rw [h1] at e
    replace e : ((writeC a1 (.vec k1)) >>= fun _ => readV a2 >>= fun l2 => HM.lift (setIdx l2 0 0) >>= fun l2' =>
      writeC a2 (.vec l2') >>= fun _ => hInitS a1 n m >>= fun s1 => hInitS a2 n m >>= fun s2 =>
      (pure (⟨s1, s2, n, m⟩ : VRef) : HM VRef)) h = (.ok o, h') := e
    rw [hm_bind, writeC] at e
    simp only at e
    rw [readV_bind (l := l2) _ (by rw [List.getElem?_set_ne hne, e2])] at e
    cases h2 : setIdx l2 0 0 with
    | error x => rw [h2] at e; cases e
    | ok k2 =>
      rw [h2] at e
      replace e : ((writeC a2 (.vec k2)) >>= fun _ => hInitS a1 n m >>= fun s1 => hInitS a2 n m >>= fun s2 =>
        (pure (⟨s1, s2, n, m⟩ : VRef) : HM VRef)) (h.set a1 (.vec k1)) = (.ok o, h') := e
      rw [hm_bind, writeC] at e
      simp only at e
      have f1 : ((h.set a1 (.vec k1)).set a2 (.vec k2))[a1]? = some (.vec k1) := by
        rw [List.getElem?_set_ne (Ne.symm hne), List.getElem?_set_self hl1]
      have f2 : ((h.set a1 (.vec k1)).set a2 (.vec k2))[a2]? = some (.vec k2) := by
        rw [List.getElem?_set_self (by simpa using hl2)]
      rw [hInitS, hm_assoc, readV_bind (l := k1) _ f1] at e
      cases h3 : ScalarCoefs.init (.arr k1) n m with
      | error x => rw [h3] at e; cases e
      | ok c1 =>
        rw [h3] at e
        replace e : (hInitS a2 n m >>= fun s2 => (pure (⟨⟨a1, n, m⟩, s2, n, m⟩ : VRef) : HM VRef))
          ((h.set a1 (.vec k1)).set a2 (.vec k2)) = (.ok o, h') := e
        rw [hInitS, hm_assoc, readV_bind (l := k2) _ f2] at e
        cases h4 : ScalarCoefs.init (.arr k2) n m with
        | error x => rw [h4] at e; cases e
        | ok c2 =>
          rw [h4] at e
          have e' : ((Except.ok ⟨⟨a1, n, m⟩, ⟨a2, n, m⟩, n, m⟩ : Res VRef), (h.set a1 (.vec k1)).set a2 (.vec k2)) = (.ok o, h') := e
          simp only [Prod.mk.injEq] at e'
          rw [← e'.2, f1, f2, s0 h1, s0 h2]
          exact ⟨rfl, rfl⟩

end Verif.Props
