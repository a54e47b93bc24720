import Verif.ThreadRun
/-!
# Thread programs do not depend on where their arrays lie

`Par N Q ρ p p'`: the programs `p` and `p'` make the same accesses, where `ρ` relates the addresses of the arrays each of them has
allocated so far; both read only addresses below `N` (the same ones) and arrays of their own, and write only arrays of their own.
`Q` relates the results.
-/
namespace Verif.Thr
open Verif

/-- A relation between addresses of two runs. -/
abbrev ARel := Nat → Nat → Prop

/-- Addresses a program may read: the same old one, or corresponding new ones. -/
def Adr (N : Nat) (ρ : ARel) (a a' : Nat) : Prop := (a = a' ∧ a < N) ∨ ρ a a'

/-- See the file header. -/
inductive Par (N : Nat) {α β : Type} (Q : ARel → Res α → Res β → Prop) : ARel → TP α → TP β → Prop
  | ret {ρ : ARel} {r : Res α} {r' : Res β} : Q ρ r r' → Par N Q ρ (.ret r) (.ret r')
  | alloc {ρ : ARel} {c : Cell} {k : Nat → TP α} {k' : Nat → TP β} :
      (∀ a a', Par N Q (fun x y => ρ x y ∨ (x = a ∧ y = a')) (k a) (k' a')) → Par N Q ρ (.alloc c k) (.alloc c k')
  | read {ρ : ARel} {a a' : Nat} {k : Option Cell → TP α} {k' : Option Cell → TP β} :
      Adr N ρ a a' → (∀ x, Par N Q ρ (k x) (k' x)) → Par N Q ρ (.read a k) (.read a' k')
  | write {ρ : ARel} {a a' : Nat} {c : Cell} {k : TP α} {k' : TP β} :
      ρ a a' → Par N Q ρ k k' → Par N Q ρ (.write a c k) (.write a' c k')

variable {N : Nat} {α β γ δ : Type}

/-- `ρ` is contained in `ρ'`. -/
def Ext (ρ ρ' : ARel) : Prop := ∀ a b, ρ a b → ρ' a b

theorem Ext.refl (ρ : ARel) : Ext ρ ρ := fun _ _ h => h
theorem Ext.trans {ρ σ τ : ARel} (h : Ext ρ σ) (k : Ext σ τ) : Ext ρ τ := fun a b x => k a b (h a b x)
theorem Adr.mono {ρ σ : ARel} (h : Ext ρ σ) {a a' : Nat} (k : Adr N ρ a a') : Adr N σ a a' :=
  k.elim Or.inl fun x => Or.inr (h _ _ x)

/-- Same exception, or results related by `R`. -/
def RR (R : ARel → α → β → Prop) (ρ : ARel) : Res α → Res β → Prop
  | .ok a, .ok b => R ρ a b
  | .error e, .error e' => e = e'
  | _, _ => False

theorem par_bindR {P : ARel → Res α → Res β → Prop} {Q : ARel → Res γ → Res δ → Prop} {ρ : ARel} {x : TP α} {x' : TP β}
    {f : Res α → TP γ} {f' : Res β → TP δ} (h : Par N P ρ x x')
    (k : ∀ σ, Ext ρ σ → ∀ r r', P σ r r' → Par N Q σ (f r) (f' r')) : Par N Q ρ (x.bindR f) (x'.bindR f') := by
  induction h with
  | ret h => exact k _ (Ext.refl _) _ _ h
  | alloc h ih => exact .alloc fun a a' => ih a a' fun σ hσ r r' hr => k σ (fun u v w => hσ u v (Or.inl w)) r r' hr
  | read ha h ih => exact .read ha fun c => ih c k
  | write ha h ih => exact .write ha (ih k)

theorem par_mono {P Q : ARel → Res α → Res β → Prop} {ρ : ARel} {x : TP α} {x' : TP β} (h : Par N P ρ x x')
    (k : ∀ σ, Ext ρ σ → ∀ r r', P σ r r' → Q σ r r') : Par N Q ρ x x' := by
  induction h with
  | ret h => exact .ret (k _ (Ext.refl _) _ _ h)
  | alloc h ih => exact .alloc fun a a' => ih a a' fun σ hσ r r' hr => k σ (fun u v w => hσ u v (Or.inl w)) r r' hr
  | read ha h ih => exact .read ha fun c => ih c k
  | write ha h ih => exact .write ha (ih k)

variable {S : ARel → γ → δ → Prop} {ρ : ARel}

theorem par_bind {R : ARel → α → β → Prop} {x : TP α} {x' : TP β} {f : α → TP γ} {f' : β → TP δ}
    (h : Par N (RR R) ρ x x') (k : ∀ σ, Ext ρ σ → ∀ a b, R σ a b → Par N (RR S) σ (f a) (f' b)) :
    Par N (RR S) ρ (x >>= f) (x' >>= f') := by
  refine par_bindR h fun σ hσ r r' hr => ?_
  cases r <;> cases r'
  · exact .ret hr
  · exact hr.elim
  · exact hr.elim
  · exact k σ hσ _ _ hr

theorem par_pure {a : γ} {b : δ} (h : S ρ a b) : Par N (RR S) ρ (pure a) (pure b) := .ret h

theorem par_err (e : PyErr) : Par N (RR S) ρ (TP.lift (.error e)) (TP.lift (.error e)) := .ret rfl

theorem par_lift {r : Res α} {f : α → TP γ} {f' : α → TP δ} (k : ∀ b, r = .ok b → Par N (RR S) ρ (f b) (f' b)) :
    Par N (RR S) ρ (TP.lift r >>= f) (TP.lift r >>= f') := by
  cases r with
  | error e => exact .ret rfl
  | ok b => exact k b rfl

theorem par_readV {a a' : Nat} {f : List ℂ → TP γ} {f' : List ℂ → TP δ} (ha : Adr N ρ a a')
    (k : ∀ l, Par N (RR S) ρ (f l) (f' l)) : Par N (RR S) ρ (readV a >>= f) (readV a' >>= f') := by
  refine .read ha fun x => ?_
  show Par N (RR S) ρ (TP.onOk f (asVec x)) (TP.onOk f' (asVec x))
  cases asVec x with
  | error e => exact .ret rfl
  | ok l => exact k l

theorem par_readM {a a' : Nat} {f : Arr2 ℂ → TP γ} {f' : Arr2 ℂ → TP δ} (ha : Adr N ρ a a')
    (k : ∀ l, Par N (RR S) ρ (f l) (f' l)) : Par N (RR S) ρ (readM a >>= f) (readM a' >>= f') := by
  refine .read ha fun x => ?_
  show Par N (RR S) ρ (TP.onOk f (asMat x)) (TP.onOk f' (asMat x))
  cases asMat x with
  | error e => exact .ret rfl
  | ok l => exact k l

theorem par_alloc {c : Cell} {f : Nat → TP γ} {f' : Nat → TP δ}
    (k : ∀ σ, Ext ρ σ → ∀ a a', σ a a' → Par N (RR S) σ (f a) (f' a')) :
    Par N (RR S) ρ (alloc c >>= f) (alloc c >>= f') :=
  .alloc fun a a' => k _ (fun _ _ h => Or.inl h) a a' (Or.inr ⟨rfl, rfl⟩)

theorem par_write {a a' : Nat} {c : Cell} {f : Unit → TP γ} {f' : Unit → TP δ} (ha : ρ a a')
    (k : Par N (RR S) ρ (f ()) (f' ())) : Par N (RR S) ρ (writeC a c >>= f) (writeC a' c >>= f') := .write ha k

/-- The result is a new array. -/
def RA (ρ : ARel) (a a' : Nat) : Prop := ρ a a'
/-- No result. -/
def RU (_ : ARel) (_ _ : Unit) : Prop := True

theorem par_allocR (c : Cell) : Par N (RR RA) ρ (alloc c) (alloc c) :=
  .alloc fun _ _ => .ret (Or.inr ⟨rfl, rfl⟩)
theorem par_writeR {a a' : Nat} (c : Cell) (ha : ρ a a') : Par N (RR RU) ρ (writeC a c) (writeC a' c) := .write ha (.ret trivial)

/-- Corresponding scalar sets; `A` relates their arrays. -/
def RS (A : ARel → ARel) (ρ : ARel) (o o' : SRef) : Prop := A ρ o.buf o'.buf ∧ o.nmax = o'.nmax ∧ o.mmax = o'.mmax
/-- Corresponding vector sets. -/
def RV (A : ARel → ARel) (ρ : ARel) (o o' : VRef) : Prop :=
  RS A ρ o.s1 o'.s1 ∧ RS A ρ o.s2 o'.s2 ∧ o.nmax = o'.nmax ∧ o.mmax = o'.mmax
/-- Corresponding scalar patterns. -/
def RP (A : ARel → ARel) (ρ : ARel) : PRef → PRef → Prop
  | .arr a, .arr a' => A ρ a a'
  | .exc, .exc => True
  | _, _ => False
/-- Corresponding transverse patterns. -/
def RT (A : ARel → ARel) (ρ : ARel) (o o' : TRef) : Prop := A ρ o.td o'.td ∧ A ρ o.pd o'.pd

/-- Own arrays. -/
def Own (ρ : ARel) : ARel := ρ

/-- Corresponding objects. -/
def RO (A : ARel → ARel) (ρ : ARel) : SpecHeap.Obj → SpecHeap.Obj → Prop
  | .sc o, .sc o' => RS A ρ o o'
  | .vc o, .vc o' => RV A ρ o o'
  | .sp o, .sp o' => RP A ρ o o'
  | .tp o, .tp o' => RT A ρ o o'
  | _, _ => False

theorem RO.imp {A B : ARel → ARel} {ρ σ : ARel} (h : ∀ a b, A ρ a b → B σ a b) {o o' : SpecHeap.Obj} (k : RO A ρ o o') :
    RO B σ o o' := by
  rcases o with o | o | (_ | _) | o <;> rcases o' with o' | o' | (_ | _) | o' <;> first | exact k.elim | skip
  · exact ⟨h _ _ k.1, k.2⟩
  · exact ⟨⟨h _ _ k.1.1, k.1.2⟩, ⟨h _ _ k.2.1.1, k.2.1.2⟩, k.2.2⟩
  · exact h _ _ k
  · exact trivial
  · exact ⟨h _ _ k.1, h _ _ k.2⟩

/-! ### The calls -/

theorem par_hInitS {a a' : Nat} (ha : ρ a a') (n m : Int) : Par N (RR (RS Own)) ρ (hInitS a n m) (hInitS a' n m) :=
  par_readV (Or.inr ha) fun _ => par_lift fun _ _ => par_pure ⟨ha, rfl, rfl⟩

theorem par_ite {p : Prop} [Decidable p] {Q : ARel → Res γ → Res δ → Prop} {x y : TP γ} {x' y' : TP δ}
    (h : p → Par N Q ρ x x') (k : ¬ p → Par N Q ρ y y') : Par N Q ρ (if p then x else y) (if p then x' else y') := by
  split
  · exact h ‹_›
  · exact k ‹_›

theorem par_hInitV {a a' b b' : Nat} (ha : ρ a a') (hb : ρ b b') (n m : Int) :
    Par N (RR (RV Own)) ρ (hInitV a b n m) (hInitV a' b' n m) := by
  refine par_readV (Or.inr ha) fun l1 => par_readV (Or.inr hb) fun l2 => ?_
  refine par_ite (fun _ => par_err _) fun _ => par_ite (fun _ => par_err _) fun _ => par_ite (fun _ => par_err _) fun _ => ?_
  refine par_lift fun l1' _ => par_write ha (par_readV (Or.inr hb) fun l2 => par_lift fun l2' _ => par_write hb ?_)
  refine par_bind (par_hInitS ha n m) fun σ hσ o o' ho => par_bind (par_hInitS (hσ _ _ hb) n m) fun τ hτ p p' hp => ?_
  exact par_pure ⟨⟨hτ _ _ ho.1, ho.2⟩, hp, rfl, rfl⟩

theorem par_hNewS (b : Buf ℂ) (n m : Int) : Par N (RR (RS Own)) ρ (hNewS b n m) (hNewS b n m) := by
  cases b with
  | arr l => exact par_alloc fun σ _ a a' h => par_hInitS h n m
  | exc =>
    show Par N _ ρ (TP.lift ((ScalarCoefs.init (α := ℂ) .exc n m).bind fun _ => .error _)) (TP.lift _)
    cases ScalarCoefs.init (α := ℂ) .exc n m <;> exact par_err _

theorem par_hNewV (b c : Buf ℂ) (n m : Int) : Par N (RR (RV Own)) ρ (hNewV b c n m) (hNewV b c n m) := by
  cases b <;> cases c <;> first | exact par_err _ | skip
  exact par_alloc fun σ _ a a' h => par_alloc fun τ hτ b b' k => par_hInitV (hτ _ _ h) k n m

theorem par_sRead {o o' : SRef} {f : ScalarCoefs ℂ → TP γ} {f' : ScalarCoefs ℂ → TP δ} (h : RS (Adr N) ρ o o')
    (k : ∀ c, Par N (RR S) ρ (f c) (f' c)) : Par N (RR S) ρ (sRead o >>= f) (sRead o' >>= f') := by
  obtain ⟨h1, h2, h3⟩ := h
  refine .read h1 fun x => ?_
  show Par N (RR S) ρ (((TP.onOk (fun l => (pure ⟨l, o.nmax, o.mmax⟩ : TP (ScalarCoefs ℂ))) (asVec x))).bindR (TP.onOk f))
    (((TP.onOk (fun l => (pure ⟨l, o'.nmax, o'.mmax⟩ : TP (ScalarCoefs ℂ))) (asVec x))).bindR (TP.onOk f'))
  cases asVec x with
  | error e => exact .ret rfl
  | ok l => rw [h2, h3]; exact k _

theorem par_sCopy {o o' : SRef} (h : RS (Adr N) ρ o o') : Par N (RR (RS Own)) ρ (sCopy o) (sCopy o') := by
  unfold sCopy; rw [h.2.1, h.2.2]
  exact par_readV h.1 fun l => par_alloc fun σ _ a a' k => par_hInitS k _ _

theorem par_vCopy {o o' : VRef} (h : RV (Adr N) ρ o o') : Par N (RR (RV Own)) ρ (vCopy o) (vCopy o') := by
  unfold vCopy; rw [h.2.2.1, h.2.2.2]
  refine par_readV h.1.1 fun l => par_alloc fun σ e a a' k => par_readV (h.2.1.1.mono e) fun l2 => par_alloc fun τ f b b' q => ?_
  exact par_hInitV (f _ _ k) q _ _

theorem par_sOpObj (op : Op) {o o' p p' : SRef} (h : RS (Adr N) ρ o o') (k : RS (Adr N) ρ p p') :
    Par N (RR (RS Own)) ρ (sOpObj op o p) (sOpObj op o' p') := by
  unfold sOpObj; rw [h.2.1, h.2.2]
  exact par_readV h.1 fun l => par_readV k.1 fun l2 => par_ite (fun _ => par_hNewS _ _ _) fun _ => par_err _

theorem par_sOpNum (op : Op) {o o' : SRef} (h : RS (Adr N) ρ o o') (x : ℂ) :
    Par N (RR (RS Own)) ρ (sOpNum op o x) (sOpNum op o' x) := by
  unfold sOpNum; rw [h.2.1, h.2.2]
  exact par_readV h.1 fun l => par_hNewS _ _ _

theorem par_sNumOp (op : Op) {o o' : SRef} (h : RS (Adr N) ρ o o') (x : ℂ) :
    Par N (RR (RS Own)) ρ (sNumOp op o x) (sNumOp op o' x) := by
  unfold sNumOp; rw [h.2.1, h.2.2]
  exact par_readV h.1 fun l => par_hNewS _ _ _

theorem par_vOpObj (op : Op) {o o' p p' : VRef} (h : RV (Adr N) ρ o o') (k : RV (Adr N) ρ p p') :
    Par N (RR (RV Own)) ρ (vOpObj op o p) (vOpObj op o' p') := by
  unfold vOpObj; rw [h.2.2.1, h.2.2.2]
  exact par_readV h.1.1 fun _ => par_readV k.1.1 fun _ => par_lift fun _ _ => par_readV h.2.1.1 fun _ => par_readV k.2.1.1 fun _ =>
    par_lift fun _ _ => par_hNewV _ _ _ _

theorem par_vOpNum (op : Op) {o o' : VRef} (h : RV (Adr N) ρ o o') (x : ℂ) :
    Par N (RR (RV Own)) ρ (vOpNum op o x) (vOpNum op o' x) := by
  unfold vOpNum; rw [h.2.2.1, h.2.2.2]
  exact par_readV h.1.1 fun _ => par_readV h.2.1.1 fun _ => par_hNewV _ _ _ _

theorem par_vNumOp (op : Op) {o o' : VRef} (h : RV (Adr N) ρ o o') (x : ℂ) :
    Par N (RR (RV Own)) ρ (vNumOp op o x) (vNumOp op o' x) := by
  unfold vNumOp; rw [h.2.2.1, h.2.2.2]
  exact par_readV h.1.1 fun _ => par_readV h.2.1.1 fun _ => par_hNewV _ _ _ _

theorem par_sTrunc {o o' : SRef} (h : RS (Adr N) ρ o o') (k : Int) : Par N (RR (RS Own)) ρ (sTrunc o k) (sTrunc o' k) :=
  par_sRead h fun _ => par_lift fun _ _ => par_alloc fun _ _ _ _ q => par_hInitS q _ _

theorem RS.mono {σ : ARel} {o o' : SRef} (e : Ext ρ σ) (h : RS (Adr N) ρ o o') : RS (Adr N) σ o o' := ⟨h.1.mono e, h.2⟩

theorem par_vTrunc {o o' : VRef} (h : RV (Adr N) ρ o o') (k : Int) : Par N (RR (RV Own)) ρ (vTrunc o k) (vTrunc o' k) := by
  unfold vTrunc; rw [h.2.2.1, h.2.2.2]
  refine par_ite (fun _ => par_err _) fun _ => ?_
  exact par_bind (par_sTrunc h.1 k) fun σ e s s' hs => par_bind (par_sTrunc (h.2.1.mono e) k) fun τ f t t' ht =>
    par_hInitV (f _ _ hs.1) ht.1 _ _

theorem RS.own {o o' : SRef} (h : RS Own ρ o o') : RS (Adr N) ρ o o' := ⟨Or.inr h.1, h.2⟩

theorem par_sUpdate {o o' : SRef} (h : RS Own ρ o o') (f : ScalarCoefs ℂ → Eff (ScalarCoefs ℂ)) :
    Par N (RR RU) ρ (sUpdate o f) (sUpdate o' f) := by
  refine par_sRead h.own fun c => par_write h.1 ?_
  cases (f c).err with
  | none => exact .ret trivial
  | some x => exact par_err _

theorem par_vSetitem {o o' : VRef} (h : RV Own ρ o o') (arg : List Arg) (v : VectorCoefs.ValV ℂ) :
    Par N (RR RU) ρ (vSetitem o arg v) (vSetitem o' arg v) := by
  unfold vSetitem; rw [h.2.2.1, h.2.2.2]
  refine par_sRead h.1.own fun c1 => par_sRead h.2.1.own fun c2 => par_write h.1.1 (par_write h.2.1.1 ?_)
  cases (VectorCoefs.setitem ⟨c1, c2, o'.nmax, o'.mmax⟩ arg v).err with
  | none => exact .ret trivial
  | some x => exact par_err _

theorem par_hFactoryS (f : Nat → ℂ) (n m : Int) : Par N (RR (RS Own)) ρ (hFactoryS f n m) (hFactoryS f n m) :=
  par_ite (fun _ => par_err _) fun _ => par_ite (fun _ => par_err _) fun _ => par_alloc fun _ _ _ _ q => par_hInitS q _ _

theorem par_hFactoryV (f g : Nat → ℂ) (n m : Int) : Par N (RR (RV Own)) ρ (hFactoryV f g n m) (hFactoryV f g n m) :=
  par_ite (fun _ => par_err _) fun _ => par_ite (fun _ => par_err _) fun _ =>
    par_alloc fun _ _ _ _ q => par_alloc fun _ e _ _ r => par_hInitV (e _ _ q) r _ _

theorem par_pRead {o o' : PRef} {f : SPatt ℂ → TP γ} {f' : SPatt ℂ → TP δ} (h : RP (Adr N) ρ o o')
    (k : ∀ c, Par N (RR S) ρ (f c) (f' c)) : Par N (RR S) ρ (pRead o >>= f) (pRead o' >>= f') := by
  cases o <;> cases o' <;> first | exact h.elim | skip
  · refine .read h fun x => ?_
    show Par N (RR S) ρ (((TP.onOk (fun l => (pure ⟨.arr l⟩ : TP (SPatt ℂ))) (asMat x))).bindR (TP.onOk f))
      (((TP.onOk (fun l => (pure ⟨.arr l⟩ : TP (SPatt ℂ))) (asMat x))).bindR (TP.onOk f'))
    cases asMat x with
    | error e => exact .ret rfl
    | ok l => exact k _
  · exact k _

/-- The result is a value. -/
def RE (_ : ARel) (a b : α) : Prop := a = b

theorem par_tReadR {o o' : TRef} (h : RT (Adr N) ρ o o') : Par N (RR RE) ρ (tRead o) (tRead o') :=
  par_readM h.1 fun _ => par_readM h.2 fun _ => par_pure rfl

theorem par_tRead {o o' : TRef} {f : TPatt ℂ → TP γ} {f' : TPatt ℂ → TP δ} (h : RT (Adr N) ρ o o')
    (k : ∀ σ, Ext ρ σ → ∀ c, Par N (RR S) σ (f c) (f' c)) : Par N (RR S) ρ (tRead o >>= f) (tRead o' >>= f') :=
  par_bind (par_tReadR h) fun σ e a b hab => by cases hab; exact k σ e a

theorem par_hNewP (b : PBuf ℂ) : Par N (RR (RP Own)) ρ (hNewP b) (hNewP b) := by
  cases b with
  | arr A => exact par_alloc fun _ _ _ _ q => par_pure q
  | exc => exact par_pure trivial

theorem par_hNewT (b c : PBuf ℂ) : Par N (RR (RT Own)) ρ (hNewT b c) (hNewT b c) := by
  cases b <;> cases c <;> first | exact par_err _ | skip
  exact par_alloc fun _ _ _ _ q => par_alloc fun _ e _ _ r => par_lift fun _ _ => par_pure ⟨e _ _ q, r⟩

theorem par_hMkP (A : Arr2 ℂ) : Par N (RR (RP Own)) ρ (hMkP A) (hMkP A) := par_lift fun _ _ => par_hNewP _

theorem par_hMkT (A B : Arr2 ℂ) : Par N (RR (RT Own)) ρ (hMkT A B) (hMkT A B) :=
  par_ite (fun _ => par_err _) fun _ => par_lift fun _ _ => par_alloc fun _ _ _ _ q => par_lift fun _ _ =>
    par_alloc fun _ e _ _ r => par_pure ⟨e _ _ q, r⟩

theorem par_pOpObj (op : Op) {o o' p p' : PRef} (h : RP (Adr N) ρ o o') (k : RP (Adr N) ρ p p') :
    Par N (RR (RP Own)) ρ (pOpObj op o p) (pOpObj op o' p') :=
  par_pRead h fun _ => par_pRead k fun _ => par_lift fun _ _ => par_lift fun _ _ => par_ite (fun _ => par_hNewP _) fun _ => par_err _

theorem par_pOpNum (op : Op) {o o' : PRef} (h : RP (Adr N) ρ o o') (x : ℂ) :
    Par N (RR (RP Own)) ρ (pOpNum op o x) (pOpNum op o' x) :=
  par_pRead h fun _ => par_lift fun _ _ => par_hNewP _

theorem par_pNumOp (op : Op) {o o' : PRef} (h : RP (Adr N) ρ o o') (x : ℂ) :
    Par N (RR (RP Own)) ρ (pNumOp op o x) (pNumOp op o' x) :=
  par_pRead h fun _ => par_lift fun _ _ => par_hNewP _

theorem RT.mono {σ : ARel} {o o' : TRef} (e : Ext ρ σ) (h : RT (Adr N) ρ o o') : RT (Adr N) σ o o' := ⟨h.1.mono e, h.2.mono e⟩

theorem par_tOpObj (op : Op) {o o' p p' : TRef} (h : RT (Adr N) ρ o o') (k : RT (Adr N) ρ p p') :
    Par N (RR (RT Own)) ρ (tOpObj op o p) (tOpObj op o' p') :=
  par_tRead h fun _ e _ => par_tRead (k.mono e) fun _ _ _ => par_ite (fun _ => par_hNewT _ _) fun _ => par_err _

theorem par_tOpNum (op : Op) {o o' : TRef} (h : RT (Adr N) ρ o o') (x : ℂ) :
    Par N (RR (RT Own)) ρ (tOpNum op o x) (tOpNum op o' x) := par_tRead h fun _ _ _ => par_hNewT _ _

theorem par_tNumOp (op : Op) {o o' : TRef} (h : RT (Adr N) ρ o o') (x : ℂ) :
    Par N (RR (RT Own)) ρ (tNumOp op o x) (tNumOp op o' x) := par_tRead h fun _ _ _ => par_hNewT _ _

theorem par_hApply (f : Arr2 ℂ → Res (Arr2 ℂ)) {a a' : Nat} (h : ρ a a') : Par N (RR RU) ρ (hApply f a) (hApply f a') :=
  par_readM (Or.inr h) fun _ => par_lift fun _ _ => par_writeR _ h

theorem par_hPadRows {a a' b b' : Nat} (h : ρ a a') (k : ρ b b') : Par N (RR RU) ρ (hPadRows a b) (hPadRows a' b') :=
  par_readM (Or.inr h) fun _ => par_readM (Or.inr k) fun _ => par_lift fun _ _ => par_writeR _ k

/-- Follow an in-place call. -/
theorem par_do {x x' : TP Unit} {f : Unit → TP γ} {f' : Unit → TP δ} (h : Par N (RR RU) ρ x x')
    (k : ∀ σ, Ext ρ σ → Par N (RR S) σ (f ()) (f' ())) : Par N (RR S) ρ (x >>= f) (x' >>= f') :=
  par_bind h fun σ e _ _ _ => k σ e

theorem par_hSinLdot {a a' b b' : Nat} (h : ρ a a') (k : ρ b b') : Par N (RR RA) ρ (hSinLdot a b) (hSinLdot a' b') :=
  par_do (par_hApply _ h) fun _ e1 => par_do (par_hApply _ (e1 _ _ k)) fun _ e2 => par_do (par_hApply _ (e2 _ _ (e1 _ _ k)))
    fun _ e3 => par_readM (Or.inr (e3 _ _ (e2 _ _ (e1 _ _ h)))) fun _ => par_readM (Or.inr (e3 _ _ (e2 _ _ (e1 _ _ k)))) fun _ =>
      par_allocR _

/-- Two new arrays. -/
def RA2 (ρ : ARel) (a a' : Nat × Nat) : Prop := ρ a.1 a'.1 ∧ ρ a.2 a'.2

theorem par_hLFc {a a' : Nat} (h : ρ a a') : Par N (RR RA2) ρ (hLFc a) (hLFc a') := by
  refine par_readM (Or.inr h) fun _ => par_alloc fun _ e0 b b' q => par_do (par_hApply _ (e0 _ _ h)) fun _ e1 =>
    par_do (par_hApply _ (e1 _ _ (e0 _ _ h))) fun _ e2 => par_do (par_hApply _ (e2 _ _ (e1 _ _ q))) fun _ e3 => ?_
  have h' := e3 _ _ (e2 _ _ (e1 _ _ (e0 _ _ h)))
  have q' := e3 _ _ (e2 _ _ (e1 _ _ q))
  exact par_readM (Or.inr h') fun _ => par_alloc fun _ e4 c c' r => par_readM (Or.inr (e4 _ _ q')) fun _ =>
    par_alloc fun _ e5 d d' s => par_pure ⟨e5 _ _ r, s⟩

theorem par_hFcToSc (b : Backend) (call : Nat) {a a' : Nat} (h : ρ a a') (n m : Int) :
    Par N (RR RA) ρ (hFcToSc b call a n m) (hFcToSc b call a' n m) :=
  par_readM (Or.inr h) fun _ => par_lift fun _ _ => par_allocR _

theorem par_hScToFc (b : Backend) (call : Nat) {a a' : Nat} (h : Adr N ρ a a') (n m r s : Int) :
    Par N (RR RA) ρ (hScToFc b call a n m r s) (hScToFc b call a' n m r s) :=
  par_readV h fun _ => par_lift fun _ _ => par_allocR _

theorem par_hExtFourier {a a' : Nat} (h : Adr N ρ a a') : Par N (RR RA) ρ (hExtFourier a) (hExtFourier a') :=
  par_readM h fun _ => par_lift fun _ _ => par_alloc fun _ _ _ _ q => par_do (par_hApply _ q) fun _ e => par_alloc fun _ e' _ _ r =>
    par_do (par_hPadRows (e' _ _ (e _ _ q)) r) fun _ e2 => par_pure (e2 _ _ r)

theorem par_hSpht (b : Backend) {p p' : PRef} (h : RP (Adr N) ρ p p') (n m : Option Int) :
    Par N (RR (RS Own)) ρ (hSpht b p n m) (hSpht b p' n m) := by
  refine par_pRead h fun P => par_lift fun nm _ => par_lift fun _ _ => ?_
  cases p <;> cases p' <;> first | exact h.elim | skip
  · exact par_bind (par_hExtFourier h) fun _ _ _ _ q => par_do (par_hApply _ q) fun _ e => par_lift fun _ _ =>
      par_bind (par_hFcToSc b 0 (e _ _ q) _ _) fun _ _ _ _ r => par_hInitS r _ _
  · exact par_err _

theorem par_hIspht (b : Backend) {c c' : SRef} (h : RS (Adr N) ρ c c') (n m : Option Int) :
    Par N (RR (RP Own)) ρ (hIspht b c n m) (hIspht b c' n m) := by
  unfold hIspht; rw [h.2.1, h.2.2]
  exact par_lift fun _ _ => par_bind (par_hScToFc b 0 h.1 _ _ _ _) fun _ _ _ _ q => par_readM (Or.inr q) fun _ =>
    par_lift fun _ _ => par_hNewP _

theorem par_hVspht (b : Backend) {p p' : TRef} (h : RT (Adr N) ρ p p') (n m : Option Int) :
    Par N (RR (RV Own)) ρ (hVspht b p n m) (hVspht b p' n m) := by
  refine par_tRead h fun _ e0 P => par_lift fun nm _ => par_lift fun _ _ => ?_
  refine par_bind (par_hExtFourier (h.1.mono e0)) fun _ e1 fe fe' hfe => par_ite (fun _ => par_err _) fun _ => ?_
  refine par_bind (par_hExtFourier (h.2.mono (e0.trans e1))) fun _ e2 pe pe' hpe => ?_
  refine par_readM (Or.inr (e2 _ _ hfe)) fun _ => par_alloc fun _ e3 ft ft' hft => ?_
  refine par_readM (Or.inr (e3 _ _ hpe)) fun _ => par_alloc fun _ e4 pt pt' hpt => ?_
  refine par_bind (par_hSinLdot (e4 _ _ (e3 _ _ (e2 _ _ hfe))) (e4 _ _ (e3 _ _ hpe))) fun _ e5 l1 l1' hl1 => ?_
  refine par_readM (Or.inr (e5 _ _ hpt)) fun _ => par_alloc fun _ e6 a a' ha => ?_
  refine par_readM (Or.inr (e6 _ _ (e5 _ _ (e4 _ _ hft)))) fun _ => par_alloc fun _ e7 c c' hc => ?_
  refine par_bind (par_hSinLdot (e7 _ _ ha) hc) fun _ e8 l2 l2' hl2 => ?_
  refine par_bind (par_hFcToSc b 0 (e8 _ _ (e7 _ _ (e6 _ _ hl1))) _ _) fun _ e9 s1 s1' hs1 => ?_
  refine par_bind (par_hFcToSc b 1 (e9 _ _ hl2) _ _) fun _ e10 s2 s2' hs2 => ?_
  refine par_bind (par_hInitV (e10 _ _ hs1) hs2 _ _) fun σ e11 vc vc' hvc => par_lift fun w _ => ?_
  refine par_do (par_sUpdate hvc.1 _) fun σ2 e12 => ?_
  refine par_do (par_sUpdate (⟨e12 _ _ hvc.2.1.1, hvc.2.1.2⟩ : RS Own σ2 vc.s2 vc'.s2) _) fun σ3 e13 => ?_
  exact par_pure ⟨⟨e13 _ _ (e12 _ _ hvc.1.1), hvc.1.2⟩, ⟨e13 _ _ (e12 _ _ hvc.2.1.1), hvc.2.1.2⟩, hvc.2.2⟩

theorem par_hVispht (b : Backend) {c c' : VRef} (h : RV (Adr N) ρ c c') (n m : Option Int) :
    Par N (RR (RT Own)) ρ (hVispht b c n m) (hVispht b c' n m) := by
  unfold hVispht; rw [h.2.2.1, h.2.2.2]
  refine par_lift fun _ _ => par_lift fun w _ => ?_
  refine par_bind (par_sCopy h.1) fun σ1 e1 s1 s1' h1 => ?_
  refine par_bind (par_sCopy (h.2.1.mono e1)) fun σ2 e2 s2 s2' h2 => ?_
  refine par_do (par_sUpdate (⟨e2 _ _ h1.1, h1.2⟩ : RS Own σ2 s1 s1') _) fun σ3 e3 => ?_
  refine par_do (par_sUpdate (⟨e3 _ _ h2.1, h2.2⟩ : RS Own σ3 s2 s2') _) fun σ4 e4 => ?_
  have k1 := e4 _ _ (e3 _ _ (e2 _ _ h1.1))
  have k2 := e4 _ _ (e3 _ _ h2.1)
  have j1 := h1.2.1; have j2 := h1.2.2; have j3 := h2.2.1; have j4 := h2.2.2
  rw [j1, j2, j3, j4]
  refine par_bind (par_hScToFc b 0 (Or.inr k1) _ _ _ _) fun σ5 e5 f1 f1' hf1 => ?_
  refine par_bind (R := RA) ?_ fun σ6 e6 f2 f2' hf2 => ?_
  · cases b <;> exact par_hScToFc _ 1 (Or.inr (e5 _ _ k2)) _ _ _ _
  refine par_bind (par_hLFc (e6 _ _ hf1)) fun σ7 e7 l1 l1' hl1 => ?_
  refine par_bind (par_hLFc (e7 _ _ hf2)) fun σ8 e8 l2 l2' hl2 => ?_
  refine par_readM (Or.inr (e8 _ _ hl1.1)) fun _ => par_readM (Or.inr hl2.2) fun _ => par_alloc fun σ9 e9 ft ft' hft => ?_
  refine par_readM (Or.inr (e9 _ _ (e8 _ _ hl1.2))) fun _ => par_readM (Or.inr (e9 _ _ hl2.1)) fun _ =>
    par_alloc fun σ10 e10 fp fp' hfp => ?_
  exact par_readM (Or.inr (e10 _ _ hft)) fun _ => par_lift fun _ _ => par_readM (Or.inr hfp) fun _ => par_lift fun _ _ => par_hNewT _ _

end Verif.Thr
