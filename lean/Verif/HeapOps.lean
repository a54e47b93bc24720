import Verif.HeapLemmas
/-!
# Each heap-level operation refines its value-level model and touches only arrays it allocated
-/
namespace Verif

section
variable {h t : Heap}

/-- The object denotes the value `c` in memory `h`. -/
def HasS (h : Heap) (o : SRef) (c : ScalarCoefs ℂ) : Prop :=
  h[o.buf]? = some (.vec c.vec) ∧ o.nmax = c.nmax ∧ o.mmax = c.mmax

/-- The object denotes the value `c` in memory `h`. -/
def HasV (h : Heap) (o : VRef) (c : VectorCoefs ℂ) : Prop :=
  HasS h o.s1 c.scoef1 ∧ HasS h o.s2 c.scoef2 ∧ o.nmax = c.nmax ∧ o.mmax = c.mmax

/-- The object denotes the value `p` in memory `h`. -/
def HasP (h : Heap) (o : PRef) (p : SPatt ℂ) : Prop :=
  match o, p.ds with
  | .arr a, .arr A => h[a]? = some (.mat A)
  | .exc, .exc => True
  | _, _ => False

/-- The object denotes the value `p` in memory `h`. -/
def HasT (h : Heap) (o : TRef) (p : TPatt ℂ) : Prop := h[o.td]? = some (.mat p.td) ∧ h[o.pd]? = some (.mat p.pd)

/-- A scalar pattern was created. -/
def NewP (h : Heap) (o : PRef) (p : SPatt ℂ) (t : List Cell) : Prop :=
  match o, p.ds with
  | .arr a, .arr A => ∃ k, a = h.length + k ∧ t[k]? = some (.mat A)
  | .exc, .exc => True
  | _, _ => False

/-- A transverse pattern was created. -/
def NewT (h : Heap) (o : TRef) (p : TPatt ℂ) (t : List Cell) : Prop :=
  ∃ k j, k ≠ j ∧ o.td = h.length + k ∧ o.pd = h.length + j ∧ t[k]? = some (.mat p.td) ∧ t[j]? = some (.mat p.pd)

/-! ### Coefficient sets -/

theorem copyS_ref {o : SRef} {c : ScalarCoefs ℂ} (hc : HasS h o c) : Ref h (o.copy (h ++ t)) c.copy (NewS h) := by
  obtain ⟨e, hn, hm⟩ := hc
  rw [SRef.copy, readV_bind _ (heap_old h t e), alloc_bind, hn, hm]
  exact initS_new (by simp)

theorem copyV_ref {o : VRef} {c : VectorCoefs ℂ} (hc : HasV h o c) : Ref h (o.copy (h ++ t)) c.copy (NewV h) := by
  obtain ⟨⟨e1, _, _⟩, ⟨e2, _, _⟩, hn, hm⟩ := hc
  rw [VRef.copy, readV_bind _ (heap_old h t e1), alloc_bind, readV_bind _ (heap_old h _ e2), alloc_bind, hn, hm]
  exact initV_new (by simp) (by simp) (by simp)

theorem opObjS_ref (op : Op) {o p : SRef} {c d : ScalarCoefs ℂ} (hc : HasS h o c) (hd : HasS h p d) :
    Ref h (SRef.opObj op o p (h ++ t)) (c.opLeft op (.obj d)) (NewS h) := by
  obtain ⟨e, hn, hm⟩ := hc
  rw [SRef.opObj, readV_bind _ (heap_old h t e), readV_bind _ (heap_old h t hd.1), hn, hm]
  unfold ScalarCoefs.opLeft
  simp only
  by_cases hl : c.vec.length = d.vec.length
  · rw [if_pos hl, if_pos hl]; exact newS_ref _ _ _
  · rw [if_neg hl, if_neg hl]; exact ref_error _

theorem opNumS_ref (op : Op) {o : SRef} {c : ScalarCoefs ℂ} (x : ℂ) (hc : HasS h o c) :
    Ref h (SRef.opNum op o x (h ++ t)) (c.opLeft op (.num x)) (NewS h) := by
  obtain ⟨e, hn, hm⟩ := hc
  rw [SRef.opNum, readV_bind _ (heap_old h t e), hn, hm]
  exact newS_ref _ _ _

theorem numOpS_ref (op : Op) {o : SRef} {c : ScalarCoefs ℂ} (x : ℂ) (hc : HasS h o c) :
    Ref h (SRef.numOp op o x (h ++ t)) (c.opRight op (.num x)) (NewS h) := by
  obtain ⟨e, hn, hm⟩ := hc
  rw [SRef.numOp, readV_bind _ (heap_old h t e), hn, hm]
  exact newS_ref _ _ _

theorem opObjV_ref (op : Op) {o p : VRef} {c d : VectorCoefs ℂ} (hc : HasV h o c) (hd : HasV h p d) :
    Ref h (VRef.opObj op o p (h ++ t)) (c.opLeft op (.obj d)) (NewV h) := by
  obtain ⟨⟨e1, _, _⟩, ⟨e2, _, _⟩, hn, hm⟩ := hc
  obtain ⟨⟨d1, _, _⟩, ⟨d2, _, _⟩, _, _⟩ := hd
  rw [VRef.opObj, readV_bind _ (heap_old h t e1), readV_bind _ (heap_old h t d1), hn, hm]
  unfold VectorCoefs.opLeft
  simp only [if_true]
  refine ref_lift fun r1 _ => ?_
  rw [readV_bind _ (heap_old h t e2), readV_bind _ (heap_old h t d2)]
  exact ref_lift fun r2 _ => newV_ref _ _ _ _

theorem opNumV_ref (op : Op) {o : VRef} {c : VectorCoefs ℂ} (x : ℂ) (hc : HasV h o c) :
    Ref h (VRef.opNum op o x (h ++ t)) (c.opLeft op (.num x)) (NewV h) := by
  obtain ⟨⟨e1, _, _⟩, ⟨e2, _, _⟩, hn, hm⟩ := hc
  rw [VRef.opNum, readV_bind _ (heap_old h t e1), readV_bind _ (heap_old h t e2), hn, hm]
  exact newV_ref _ _ _ _

theorem numOpV_ref (op : Op) {o : VRef} {c : VectorCoefs ℂ} (x : ℂ) (hc : HasV h o c) :
    Ref h (VRef.numOp op o x (h ++ t)) (c.opRight op (.num x)) (NewV h) := by
  obtain ⟨⟨e1, _, _⟩, ⟨e2, _, _⟩, hn, hm⟩ := hc
  rw [VRef.numOp, readV_bind _ (heap_old h t e1), readV_bind _ (heap_old h t e2), hn, hm]
  exact newV_ref _ _ _ _

theorem factoryS_ref (f : Nat → ℂ) (n m : Int) : Ref h (hFactoryS f n m (h ++ t)) (genCoefs f n m) (NewS h) := by
  unfold hFactoryS genCoefs
  by_cases c1 : m > n
  · rw [if_pos c1, if_pos c1]; exact ref_error _
  rw [if_neg c1, if_neg c1]
  by_cases c2 : lFormula n m < 0
  · rw [if_pos c2, if_pos c2]; exact ref_error _
  rw [if_neg c2, if_neg c2, alloc_bind]
  exact initS_new (by simp)

theorem factoryV_ref (f g : Nat → ℂ) (n m : Int) : Ref h (hFactoryV f g n m (h ++ t)) (genVCoefs f g n m) (NewV h) := by
  unfold hFactoryV genVCoefs
  by_cases c1 : m > n
  · rw [if_pos c1, if_pos c1]; exact ref_error _
  rw [if_neg c1, if_neg c1]
  by_cases c2 : lFormula n m < 0
  · rw [if_pos c2, if_pos c2]; exact ref_error _
  rw [if_neg c2, if_neg c2, alloc_bind, alloc_bind]
  exact initV_new (by simp) (by simp) (by simp)

theorem trunc_init {c d : ScalarCoefs ℂ} {k : Int} (e : c.trunc k = .ok d) :
    ScalarCoefs.init (.arr d.vec) d.nmax d.mmax = .ok d := by
  unfold ScalarCoefs.trunc at e
  split at e
  · cases e
  · simp only at e
    obtain ⟨v0, h0, e⟩ := bind_inv e
    obtain ⟨v1, h1, e⟩ := bind_inv e
    obtain ⟨v2, h2, e⟩ := bind_inv e
    have := scInit_ok e
    subst this
    exact e
where
  bind_inv {α β : Type} {x : Res α} {f : α → Res β} {b : β} (e : x.bind f = .ok b) : ∃ a, x = .ok a ∧ f a = .ok b := by
    cases x with
    | error e' => cases e
    | ok a => exact ⟨a, rfl, e⟩

theorem readS_bind {β : Type} {H : Heap} {o : SRef} {c : ScalarCoefs ℂ} (f : ScalarCoefs ℂ → HM β) (hc : HasS H o c) :
    (o.read >>= f) H = f c H := by
  obtain ⟨e, hn, hm⟩ := hc
  rw [SRef.read, hm_assoc, readV_bind _ e, hn, hm]; rfl

theorem HasS.append {o : SRef} {c : ScalarCoefs ℂ} (hc : HasS h o c) (t : Heap) : HasS (h ++ t) o c :=
  ⟨heap_old h t hc.1, hc.2⟩

theorem truncS_ref {o : SRef} {c : ScalarCoefs ℂ} (k : Int) (hc : HasS h o c) :
    Ref h (o.trunc k (h ++ t)) (c.trunc k) (fun o d t' => NewS h o d t' ∧ ∃ s, t' = t ++ s ∧ o.buf = h.length + t.length) := by
  rw [SRef.trunc, readS_bind _ (hc.append t)]
  refine ref_eta (ref_lift fun d hd => ?_)
  rw [alloc_bind]
  have hi := trunc_init hd
  rw [hInitS, readV_bind (l := d.vec) _ (by rw [heap_new]; simp), hi]
  exact ⟨t ++ [.vec d.vec], rfl, ⟨t.length, rfl, by simp, rfl, rfl⟩, _, rfl, rfl⟩

theorem truncV_ref {o : VRef} {c : VectorCoefs ℂ} (k : Int) (hc : HasV h o c) :
    Ref h (o.trunc k (h ++ t)) (c.trunc k) (NewV h) := by
  obtain ⟨e1, e2, hn, hm⟩ := hc
  unfold VRef.trunc VectorCoefs.trunc
  rw [hn, hm]
  by_cases c1 : k > c.nmax
  · rw [if_pos c1, if_pos c1]; exact ref_error _
  rw [if_neg c1, if_neg c1]
  refine ref_bind (truncS_ref k e1) ?_
  rintro o1 d1 t1 ⟨⟨k1, hb1, ht1, _, _⟩, s1, hs1, hb1'⟩
  refine ref_bind (truncS_ref k e2) ?_
  rintro o2 d2 t2 ⟨⟨k2, hb2, ht2, _, _⟩, s2, hs2, hb2'⟩
  have hk1 : k1 < t1.length := (List.getElem?_eq_some_iff.mp ht1).1
  have : k2 = t1.length := by omega
  rw [hb1, hb2]
  refine initV_new (by omega) ?_ ht2
  rw [hs2, List.getElem?_append_left hk1, ht1]

/-! ### Patterns -/

theorem newP_ref (b : PBuf ℂ) : Ref h (hNewP b (h ++ t)) (SPatt.init b true) (NewP h) := by
  cases b with
  | arr A =>
    rw [hNewP, alloc_bind]
    exact ref_pure ⟨t.length, rfl, by simp⟩
  | exc => exact ref_pure (t := t) trivial

theorem newT_ref (b1 b2 : PBuf ℂ) : Ref h (hNewT b1 b2 (h ++ t)) (TPatt.init b1 b2 true) (NewT h) := by
  cases b1 with
  | exc => exact ref_error _
  | arr T =>
    cases b2 with
    | exc => exact ref_error _
    | arr P =>
      rw [hNewT, alloc_bind, alloc_bind]
      refine ref_eta (ref_lift fun p hp => ?_)
      have : p = ⟨T, P⟩ := by
        unfold TPatt.init at hp
        simp only at hp
        split at hp
        · cases hp
        · simpa using hp.symm
      rw [this]
      exact ref_pure ⟨t.length, t.length + 1, by omega, rfl, by simp, by simp, by simp⟩

theorem readP_bind {β : Type} {o : PRef} {p : SPatt ℂ} (f : SPatt ℂ → HM β) (hp : HasP h o p) :
    (o.read >>= f) (h ++ t) = f p (h ++ t) := by
  rcases p with ⟨ds⟩
  cases o <;> cases ds <;> simp only [HasP] at hp
  · rw [PRef.read, hm_assoc, readM_bind _ (heap_old h t hp)]; rfl
  · rfl

theorem readT_bind {β : Type} {o : TRef} {p : TPatt ℂ} (f : TPatt ℂ → HM β) (hp : HasT h o p) :
    (o.read >>= f) (h ++ t) = f p (h ++ t) := by
  rw [TRef.read, hm_assoc, readM_bind _ (heap_old h t hp.1), hm_assoc, readM_bind _ (heap_old h t hp.2)]; rfl

theorem mkP_ref (A : Arr2 ℂ) : Ref h (hMkP A (h ++ t)) (SPatt.init (.arr A) false) (NewP h) := by
  rw [hMkP]
  unfold SPatt.init
  exact ref_lift fun D _ => newP_ref (.arr D)

theorem mkT_ref (T P : Arr2 ℂ) : Ref h (hMkT T P (h ++ t)) (TPatt.init (.arr T) (.arr P) false) (NewT h) := by
  unfold hMkT TPatt.init
  simp only
  by_cases c1 : ¬ (T.rows = P.rows ∧ T.cols = P.cols)
  · rw [if_pos c1, if_pos c1]; exact ref_error _
  rw [if_neg c1, if_neg c1]
  refine ref_lift fun a _ => ?_
  rw [alloc_bind]
  refine ref_lift fun b _ => ?_
  rw [alloc_bind]
  exact ref_pure ⟨t.length, t.length + 1, by omega, rfl, by simp, by simp, by simp⟩

theorem opObjP_ref (op : Op) {o o' : PRef} {p q : SPatt ℂ} (hp : HasP h o p) (hq : HasP h o' q) :
    Ref h (PRef.opObj op o o' (h ++ t)) (p.opLeft op (.obj q)) (NewP h) := by
  rw [PRef.opObj, readP_bind _ hp, readP_bind _ hq]
  unfold SPatt.opLeft
  refine ref_lift fun A _ => ref_lift fun B _ => ?_
  by_cases c : A.rows = B.rows ∧ A.cols = B.cols
  · rw [if_pos c, if_pos c]; exact newP_ref _
  · rw [if_neg c, if_neg c]; exact ref_error _

theorem opNumP_ref (op : Op) {o : PRef} {p : SPatt ℂ} (x : ℂ) (hp : HasP h o p) :
    Ref h (PRef.opNum op o x (h ++ t)) (p.opLeft op (.num x)) (NewP h) := by
  rw [PRef.opNum, readP_bind _ hp]
  exact ref_lift fun A _ => newP_ref _

theorem numOpP_ref (op : Op) {o : PRef} {p : SPatt ℂ} (x : ℂ) (hp : HasP h o p) :
    Ref h (PRef.numOp op o x (h ++ t)) (p.opRight op (.num x)) (NewP h) := by
  rw [PRef.numOp, readP_bind _ hp]
  exact ref_lift fun A _ => newP_ref _

theorem opObjT_ref (op : Op) {o o' : TRef} {p q : TPatt ℂ} (hp : HasT h o p) (hq : HasT h o' q) :
    Ref h (TRef.opObj op o o' (h ++ t)) (p.opLeft op (.obj q)) (NewT h) := by
  rw [TRef.opObj, readT_bind _ hp, readT_bind _ hq]
  unfold TPatt.opLeft
  simp only
  by_cases c : p.td.rows = q.td.rows ∧ p.td.cols = q.td.cols
  · rw [if_pos c, if_pos c]; exact newT_ref _ _
  · rw [if_neg c, if_neg c]; exact ref_error _

theorem opNumT_ref (op : Op) {o : TRef} {p : TPatt ℂ} (x : ℂ) (hp : HasT h o p) :
    Ref h (TRef.opNum op o x (h ++ t)) (p.opLeft op (.num x)) (NewT h) := by
  rw [TRef.opNum, readT_bind _ hp]
  exact newT_ref _ _

theorem numOpT_ref (op : Op) {o : TRef} {p : TPatt ℂ} (x : ℂ) (hp : HasT h o p) :
    Ref h (TRef.numOp op o x (h ++ t)) (p.opRight op (.num x)) (NewT h) := by
  rw [TRef.numOp, readT_bind _ hp]
  exact newT_ref _ _

end
end Verif
