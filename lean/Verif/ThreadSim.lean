import Verif.ThreadPar
import Mathlib.Data.List.Forall2
/-!
# Any interleaving simulates the uninterrupted runs
-/
namespace Verif.Thr
open Verif SpecHeap

variable {N : Nat} {ρ : ARel}

/-- The variables of two runs of one thread: the shared objects (below `N`), then its own. -/
def REnv (sh : List Obj) (ρ : ARel) (env env' : List Obj) : Prop :=
  ∃ e e', env = sh ++ e ∧ env' = sh ++ e' ∧ List.Forall₂ (RO Own ρ) e e'

/-- All arrays of an object lie below `N`. -/
def Below (N : Nat) (o : Obj) : Prop := RO (fun _ a b => a = b ∧ a < N) (fun _ _ => False) o o

theorem RO.own {o o' : Obj} (h : RO Own ρ o o') : RO (Adr N) ρ o o' := RO.imp (fun _ _ x => Or.inr x) h
theorem RO.ext {σ : ARel} {o o' : Obj} (e : Ext ρ σ) (h : RO Own ρ o o') : RO Own σ o o' := RO.imp (fun a b x => e a b x) h
theorem Below.adr {o : Obj} (h : Below N o) : RO (Adr N) ρ o o := RO.imp (fun _ _ x => Or.inl x) h

theorem REnv.ext {sh : List Obj} {σ : ARel} {env env' : List Obj} (x : Ext ρ σ) (h : REnv sh ρ env env') :
    REnv sh σ env env' := by
  obtain ⟨e, e', h1, h2, h3⟩ := h
  exact ⟨e, e', h1, h2, h3.imp fun _ _ k => RO.ext x k⟩

theorem REnv.snoc {sh : List Obj} {env env' : List Obj} {o o' : Obj} (h : REnv sh ρ env env') (k : RO Own ρ o o') :
    REnv sh ρ (env ++ [o]) (env' ++ [o']) := by
  obtain ⟨e, e', rfl, rfl, h3⟩ := h
  exact ⟨e ++ [o], e' ++ [o'], by simp, by simp, List.rel_append h3 (.cons k .nil)⟩

theorem forall2_get {α β : Type} {R : α → β → Prop} {l : List α} {l' : List β} (h : List.Forall₂ R l l') (i : Nat) :
    (l[i]? = none ∧ l'[i]? = none) ∨ ∃ a b, l[i]? = some a ∧ l'[i]? = some b ∧ R a b := by
  induction h generalizing i with
  | nil => left; simp
  | cons h1 h2 ih =>
    cases i with
    | zero => right; exact ⟨_, _, rfl, rfl, h1⟩
    | succ i => simpa using ih i

theorem REnv.get {sh : List Obj} {env env' : List Obj} (hs : ∀ o ∈ sh, Below N o) (h : REnv sh ρ env env') (i : Nat) :
    (env[i]? = none ∧ env'[i]? = none) ∨ ∃ o o', env[i]? = some o ∧ env'[i]? = some o' ∧ RO (Adr N) ρ o o' := by
  obtain ⟨e, e', rfl, rfl, h3⟩ := h
  by_cases hi : i < sh.length
  · rw [List.getElem?_append_left hi, List.getElem?_append_left hi]
    right
    exact ⟨sh[i], sh[i], List.getElem?_eq_getElem hi, List.getElem?_eq_getElem hi, (hs _ (List.getElem_mem hi)).adr⟩
  · rw [List.getElem?_append_right (by omega), List.getElem?_append_right (by omega)]
    rcases forall2_get h3 (i - sh.length) with k | ⟨a, b, ha, hb, k⟩
    · exact Or.inl k
    · exact Or.inr ⟨a, b, ha, hb, k.own⟩

theorem REnv.getOwn {sh : List Obj} {env env' : List Obj} (h : REnv sh ρ env env') {i : Nat} (hi : sh.length ≤ i) :
    (env[i]? = none ∧ env'[i]? = none) ∨ ∃ o o', env[i]? = some o ∧ env'[i]? = some o' ∧ RO Own ρ o o' := by
  obtain ⟨e, e', rfl, rfl, h3⟩ := h
  rw [List.getElem?_append_right hi, List.getElem?_append_right hi]
  exact forall2_get h3 (i - sh.length)

theorem par_asObj {α : Type} {R : ARel → α → α → Prop} {f : α → Obj} {x x' : TP α} (h : Par N (RR R) ρ x x')
    (k : ∀ σ a b, R σ a b → RO Own σ (f a) (f b)) : Par N (RR (RO Own)) ρ (asObj f x) (asObj f x') :=
  par_bind h fun σ _ a b r => par_pure (k σ a b r)

theorem par_tMk (b : Backend) {env env' : List Obj}
    (get : ∀ i : Nat, (env[i]? = none ∧ env'[i]? = none) ∨ ∃ o o', env[i]? = some o ∧ env'[i]? = some o' ∧ RO (Adr N) ρ o o') (m : Mk) :
    Par N (RR (RO Own)) ρ (tMk b env m) (tMk b env' m) := by
  cases m with
  | coefs f n m => exact par_asObj (par_hFactoryS f n m) fun _ _ _ h => h
  | vcoefs f g n m => exact par_asObj (par_hFactoryV f g n m) fun _ _ _ h => h
  | patt A => exact par_asObj (par_hMkP A) fun _ _ _ h => h
  | tpatt A B => exact par_asObj (par_hMkT A B) fun _ _ _ h => h
  | copy i =>
    simp only [tMk]
    rcases get i with ⟨h1, h2⟩ | ⟨o, o', h1, h2, h⟩ <;> rw [h1, h2]
    · exact par_err _
    rcases o with o | o | o | o <;> rcases o' with o' | o' | o' | o' <;> first | exact h.elim | skip
    · exact par_asObj (par_sCopy h) fun _ _ _ h => h
    · exact par_asObj (par_vCopy h) fun _ _ _ h => h
    all_goals exact par_err _
  | opObj op i j =>
    simp only [tMk]
    rcases get i with ⟨h1, h2⟩ | ⟨o, o', h1, h2, h⟩ <;> rw [h1, h2]
    · exact par_err _
    rcases get j with ⟨h3, h4⟩ | ⟨p, p', h3, h4, k⟩ <;> rw [h3, h4]
    · rcases o with o | o | o | o <;> rcases o' with o' | o' | o' | o' <;> first | exact h.elim | exact par_err _
    rcases o with o | o | o | o <;> rcases o' with o' | o' | o' | o' <;> first | exact h.elim | skip
    all_goals rcases p with p | p | p | p <;> rcases p' with p' | p' | p' | p' <;> first | exact k.elim | skip
    all_goals first | exact par_err _ | skip
    · exact par_asObj (par_sOpObj op h k) fun _ _ _ h => h
    · exact par_asObj (par_vOpObj op h k) fun _ _ _ h => h
    · exact par_asObj (par_pOpObj op h k) fun _ _ _ h => h
    · exact par_asObj (par_tOpObj op h k) fun _ _ _ h => h
  | opNum op i x =>
    simp only [tMk]
    rcases get i with ⟨h1, h2⟩ | ⟨o, o', h1, h2, h⟩ <;> rw [h1, h2]
    · exact par_err _
    rcases o with o | o | o | o <;> rcases o' with o' | o' | o' | o' <;> first | exact h.elim | skip
    · exact par_asObj (par_sOpNum op h x) fun _ _ _ h => h
    · exact par_asObj (par_vOpNum op h x) fun _ _ _ h => h
    · exact par_asObj (par_pOpNum op h x) fun _ _ _ h => h
    · exact par_asObj (par_tOpNum op h x) fun _ _ _ h => h
  | numOp op i x =>
    simp only [tMk]
    rcases get i with ⟨h1, h2⟩ | ⟨o, o', h1, h2, h⟩ <;> rw [h1, h2]
    · exact par_err _
    rcases o with o | o | o | o <;> rcases o' with o' | o' | o' | o' <;> first | exact h.elim | skip
    · exact par_asObj (par_sNumOp op h x) fun _ _ _ h => h
    · exact par_asObj (par_vNumOp op h x) fun _ _ _ h => h
    · exact par_asObj (par_pNumOp op h x) fun _ _ _ h => h
    · exact par_asObj (par_tNumOp op h x) fun _ _ _ h => h
  | trunc i x =>
    simp only [tMk]
    rcases get i with ⟨h1, h2⟩ | ⟨o, o', h1, h2, h⟩ <;> rw [h1, h2]
    · exact par_err _
    rcases o with o | o | o | o <;> rcases o' with o' | o' | o' | o' <;> first | exact h.elim | skip
    · exact par_asObj (par_sTrunc h x) fun _ _ _ h => h
    · exact par_asObj (par_vTrunc h x) fun _ _ _ h => h
    all_goals exact par_err _
  | spht i n m =>
    simp only [tMk]
    rcases get i with ⟨h1, h2⟩ | ⟨o, o', h1, h2, h⟩ <;> rw [h1, h2]
    · exact par_err _
    rcases o with o | o | o | o <;> rcases o' with o' | o' | o' | o' <;> first | exact h.elim | exact par_err _ | skip
    · exact par_asObj (par_hSpht b h n m) fun _ _ _ h => h
    · exact par_asObj (par_hVspht b h n m) fun _ _ _ h => h
  | ispht i n m =>
    simp only [tMk]
    rcases get i with ⟨h1, h2⟩ | ⟨o, o', h1, h2, h⟩ <;> rw [h1, h2]
    · exact par_err _
    rcases o with o | o | o | o <;> rcases o' with o' | o' | o' | o' <;> first | exact h.elim | exact par_err _ | skip
    · exact par_asObj (par_hIspht b h n m) fun _ _ _ h => h
    · exact par_asObj (par_hVispht b h n m) fun _ _ _ h => h

theorem par_tMut (m : Mut) {o o' : Obj} (h : RO Own ρ o o') : Par N (RR RU) ρ (tMut m o) (tMut m o') := by
  rcases o with o | o | (o | _) | o <;> rcases o' with o' | o' | (o' | _) | o' <;> first | exact h.elim | skip
  all_goals cases m <;> first | exact par_err _ | skip
  · exact par_sUpdate h _
  · exact par_sUpdate h _
  · exact par_vSetitem h _ _
  · rename_i first _ _
    cases first
    · exact par_sUpdate h.2.1 _
    · exact par_sUpdate h.1 _
  · rename_i first _
    cases first
    · exact par_sUpdate h.2.1 _
    · exact par_sUpdate h.1 _
  · exact par_readM (Or.inr h) fun _ => par_writeR _ h
  · rename_i first _
    cases first
    · exact par_readM (Or.inr h.2) fun _ => par_writeR _ h.2
    · exact par_readM (Or.inr h.1) fun _ => par_writeR _ h.1

/-- The result of two runs of a thread: same exceptions, corresponding variables. -/
def RF (sh : List Obj) (ρ : ARel) (a b : List (Option PyErr) × List Obj) : Prop := a.1 = b.1 ∧ REnv sh ρ a.2 b.2

/-- Every in-place change of a program goes to a variable numbered `n` or more. -/
def ChangesFrom (n : Nat) (prog : List Stmt) : Prop := ∀ i m, Stmt.chg i m ∈ prog → n ≤ i

theorem par_tProg (b : Nat → Backend) {sh : List Obj} (hs : ∀ o ∈ sh, Below N o) (prog : List Stmt)
    (hp : ChangesFrom sh.length prog) (log : List (Option PyErr)) {env env' : List Obj} {ρ : ARel} (he : REnv sh ρ env env') :
    Par N (RR (RF sh)) ρ (tProg b prog log env) (tProg b prog log env') := by
  induction prog generalizing log env env' ρ with
  | nil => exact .ret ⟨rfl, he⟩
  | cons st rest ih =>
    have hp' : ChangesFrom sh.length rest := fun i m h => hp i m (List.mem_cons_of_mem _ h)
    cases st with
    | mk m =>
      rw [tProg, tProg]
      refine par_bindR (par_tMk _ (fun i => he.get hs i) m) fun σ e r r' hr => ?_
      cases r <;> cases r' <;> first | exact hr.elim | skip
      · cases hr; exact ih hp' _ (he.ext e)
      · exact ih hp' _ ((he.ext e).snoc hr)
    | chg i m =>
      rw [tProg, tProg]
      rcases he.getOwn (hp i m (by simp)) with ⟨h1, h2⟩ | ⟨o, o', h1, h2, h⟩ <;> rw [h1, h2]
      · exact ih hp' _ he
      · refine par_bindR (par_tMut m h) fun σ e r r' hr => ?_
        cases r <;> cases r' <;> first | exact hr.elim | skip
        · cases hr; exact ih hp' _ (he.ext e)
        · exact ih hp' _ (he.ext e)

/-! ### Simulation -/

/-- Number of accesses of an uninterrupted run. -/
def TP.cost {α : Type} : TP α → Heap → Nat
  | .ret _, _ => 0
  | .alloc c k, h => (k h.length).cost (h ++ [c]) + 1
  | .read a k, h => (k h[a]?).cost h + 1
  | .write a c k, h => k.cost (h.set a c) + 1

/-- The interleaved memory `H` contains the memory `h'` of the uninterrupted run at the places given by `ρ`. -/
structure Emb (h0 : Heap) (ρ : ARel) (H h' : Heap) : Prop where
  old : ∀ a, a < h0.length → H[a]? = h0[a]? ∧ h'[a]? = h0[a]?
  own : ∀ a b, ρ a b → h0.length ≤ a ∧ h0.length ≤ b ∧ a < H.length ∧ b < h'.length ∧ H[a]? = h'[b]?
  left : ∀ a b c, ρ a b → ρ a c → b = c
  right : ∀ a b c, ρ a c → ρ b c → a = b
  len : h0.length ≤ H.length ∧ h0.length ≤ h'.length

variable {α β : Type} {h0 : Heap}

/-- State of one thread in the simulation: the remaining computation of the interrupted and of the uninterrupted run. -/
structure Sim (h0 : Heap) (Q : ARel → Res α → Res β → Prop) (p0 : TP β) (n : Nat) (H : Heap) (p : TP α) (ρ : ARel) : Prop where
  ex : ∃ p' h', Emb h0 ρ H h' ∧ Par h0.length Q ρ p p' ∧ p'.run h' = p0.run h0 ∧ p'.cost h' ≤ p0.cost h0 - n

theorem Emb.read {ρ : ARel} {H h' : Heap} (E : Emb h0 ρ H h') {a a' : Nat} (h : Adr h0.length ρ a a') : H[a]? = h'[a']? := by
  rcases h with ⟨rfl, h⟩ | h
  · rw [(E.old a h).1, (E.old a h).2]
  · exact (E.own _ _ h).2.2.2.2

/-- Another thread allocates. -/
theorem Emb.otherAlloc {ρ : ARel} {H h' : Heap} (E : Emb h0 ρ H h') (c : Cell) : Emb h0 ρ (H ++ [c]) h' where
  old a ha := ⟨by rw [List.getElem?_append_left (lt_of_lt_of_le ha E.len.1)]; exact (E.old a ha).1, (E.old a ha).2⟩
  own a b h := by
    obtain ⟨h1, h2, h3, h4, h5⟩ := E.own a b h
    refine ⟨h1, h2, ?_, h4, ?_⟩
    · rw [List.length_append]; omega
    · rw [List.getElem?_append_left h3]; exact h5
  left := E.left
  right := E.right
  len := ⟨by rw [List.length_append]; exact Nat.le_add_right_of_le E.len.1, E.len.2⟩

/-- Another thread writes an array that is not ours. -/
theorem Emb.otherWrite {ρ : ARel} {H h' : Heap} (E : Emb h0 ρ H h') {a : Nat} (c : Cell) (ha : h0.length ≤ a)
    (hn : ∀ b, ¬ ρ a b) : Emb h0 ρ (H.set a c) h' where
  old x hx := ⟨by rw [List.getElem?_set_ne (by omega)]; exact (E.old x hx).1, (E.old x hx).2⟩
  own x b h := by
    obtain ⟨h1, h2, h3, h4, h5⟩ := E.own x b h
    have : a ≠ x := by rintro rfl; exact hn b h
    refine ⟨h1, h2, ?_, h4, ?_⟩
    · rw [List.length_set]; exact h3
    · rw [List.getElem?_set_ne this]; exact h5
  left := E.left
  right := E.right
  len := ⟨by rw [List.length_set]; exact E.len.1, E.len.2⟩

theorem Emb.alloc {ρ : ARel} {H h' : Heap} (E : Emb h0 ρ H h') (c : Cell) :
    Emb h0 (fun x y => ρ x y ∨ (x = H.length ∧ y = h'.length)) (H ++ [c]) (h' ++ [c]) where
  old a ha := by
    rw [List.getElem?_append_left (lt_of_lt_of_le ha E.len.1), List.getElem?_append_left (lt_of_lt_of_le ha E.len.2)]
    exact E.old a ha
  own a b h := by
    rcases h with h | ⟨rfl, rfl⟩
    · obtain ⟨h1, h2, h3, h4, h5⟩ := E.own a b h
      refine ⟨h1, h2, by rw [List.length_append]; omega, by rw [List.length_append]; omega, ?_⟩
      rw [List.getElem?_append_left h3, List.getElem?_append_left h4]; exact h5
    · refine ⟨E.len.1, E.len.2, by simp, by simp, by simp⟩
  left a b d h k := by
    rcases h with h | ⟨rfl, rfl⟩ <;> rcases k with k | ⟨e1, rfl⟩
    · exact E.left _ _ _ h k
    · have := (E.own _ _ h).2.2.1; omega
    · have := (E.own _ _ k).2.2.1; omega
    · rfl
  right a b d h k := by
    rcases h with h | ⟨rfl, rfl⟩ <;> rcases k with k | ⟨rfl, e1⟩
    · exact E.right _ _ _ h k
    · have := (E.own _ _ h).2.2.2.1; omega
    · have := (E.own _ _ k).2.2.2.1; omega
    · rfl
  len := by simp only [List.length_append]; have := E.len; omega

theorem Emb.write {ρ : ARel} {H h' : Heap} (E : Emb h0 ρ H h') {a b : Nat} (h : ρ a b) (c : Cell) :
    Emb h0 ρ (H.set a c) (h'.set b c) where
  old x hx := by
    have := E.own a b h
    rw [List.getElem?_set_ne (by omega), List.getElem?_set_ne (by omega)]
    exact E.old x hx
  own x y k := by
    obtain ⟨h1, h2, h3, h4, h5⟩ := E.own x y k
    refine ⟨h1, h2, by rw [List.length_set]; exact h3, by rw [List.length_set]; exact h4, ?_⟩
    by_cases e : a = x
    · subst e
      have := E.left _ _ _ h k
      subst this
      rw [List.getElem?_set_self h3, List.getElem?_set_self h4]
    · have e' : b ≠ y := by rintro rfl; exact e (E.right _ _ _ h k)
      rw [List.getElem?_set_ne e, List.getElem?_set_ne e']; exact h5
  left := E.left
  right := E.right
  len := by simp only [List.length_set]; exact E.len

/-- The invariant of a pool: every thread simulates its own uninterrupted run, and no two threads own a common array. -/
structure PInv {ι : Type} (h0 : Heap) (Q : ARel → Res α → Res β → Prop) (p0 : ι → TP β) (n : ι → Nat) (s : Pool ι α)
    (ρ : ι → ARel) : Prop where
  sim : ∀ i, Sim h0 Q (p0 i) (n i) s.heap (s.thr i) (ρ i)
  disj : ∀ i j, i ≠ j → ∀ a b c, ρ i a b → ¬ ρ j a c

theorem pinv_step {ι : Type} [DecidableEq ι] {Q : ARel → Res α → Res β → Prop} {p0 : ι → TP β} {n : ι → Nat} {s : Pool ι α}
    {ρ : ι → ARel} (I : PInv h0 Q p0 n s ρ) (i : ι) :
    ∃ ρ', PInv h0 Q p0 (Function.update n i (n i + 1)) (s.step i) ρ' := by
  obtain ⟨p', h', E, P, R, C⟩ := (I.sim i).ex
  generalize hp : s.thr i = p at P
  cases P with
  | @ret _ r r' hQ =>
    refine ⟨ρ, fun j => ?_, I.disj⟩
    have e : s.step i = s := by unfold Pool.step; rw [hp]
    rw [e]
    by_cases hj : j = i
    · subst hj
      rw [Function.update_self]
      exact ⟨_, h', E, by rw [hp]; exact .ret hQ, R, by show 0 ≤ _; omega⟩
    · rw [Function.update_of_ne hj]; exact I.sim j
  | @alloc _ c k k' hk =>
    have e : s.step i = ⟨s.heap ++ [c], Function.update s.thr i (k s.heap.length)⟩ := by unfold Pool.step; rw [hp]
    rw [e]
    refine ⟨Function.update ρ i (fun x y => ρ i x y ∨ (x = s.heap.length ∧ y = h'.length)), fun j => ?_, ?_⟩
    · by_cases hj : j = i
      · subst hj
        simp only [Function.update_self]
        refine ⟨k' h'.length, h' ++ [c], E.alloc c, hk _ _, R, ?_⟩
        have : (k' h'.length).cost (h' ++ [c]) + 1 ≤ _ := C
        omega
      · simp only [Function.update_of_ne hj]
        obtain ⟨q', g', E', P', R', C'⟩ := (I.sim j).ex
        exact ⟨q', g', E'.otherAlloc c, P', R', C'⟩
    · have fresh : ∀ j x, ¬ ρ j s.heap.length x := by
        intro j x hx
        obtain ⟨q', g', E', _⟩ := (I.sim j).ex
        have := (E'.own _ _ hx).2.2.1
        omega
      intro j l hjl a b d hj hl
      by_cases h1 : j = i
      · have h2 : l ≠ i := fun h => hjl (h1.trans h.symm)
        subst h1
        rw [Function.update_self] at hj
        rw [Function.update_of_ne h2] at hl
        rcases hj with hj | ⟨rfl, _⟩
        · exact I.disj _ _ hjl _ _ _ hj hl
        · exact fresh _ _ hl
      · rw [Function.update_of_ne h1] at hj
        by_cases h2 : l = i
        · subst h2
          rw [Function.update_self] at hl
          rcases hl with hl | ⟨rfl, _⟩
          · exact I.disj _ _ hjl _ _ _ hj hl
          · exact fresh _ _ hj
        · rw [Function.update_of_ne h2] at hl
          exact I.disj _ _ hjl _ _ _ hj hl
  | @read _ a a' k k' ha hk =>
    have e : s.step i = ⟨s.heap, Function.update s.thr i (k s.heap[a]?)⟩ := by unfold Pool.step; rw [hp]
    rw [e]
    refine ⟨ρ, fun j => ?_, I.disj⟩
    by_cases hj : j = i
    · subst hj
      simp only [Function.update_self]
      rw [E.read ha]
      refine ⟨k' h'[a']?, h', E, hk _, R, ?_⟩
      have : (k' h'[a']?).cost h' + 1 ≤ _ := C
      omega
    · simp only [Function.update_of_ne hj]; exact I.sim j
  | @write _ a a' c k k' ha hk =>
    have e : s.step i = ⟨s.heap.set a c, Function.update s.thr i k⟩ := by unfold Pool.step; rw [hp]
    rw [e]
    refine ⟨ρ, fun j => ?_, I.disj⟩
    by_cases hj : j = i
    · subst hj
      simp only [Function.update_self]
      refine ⟨k', h'.set a' c, E.write ha c, hk, R, ?_⟩
      have : k'.cost (h'.set a' c) + 1 ≤ _ := C
      omega
    · simp only [Function.update_of_ne hj]
      obtain ⟨q', g', E', P', R', C'⟩ := (I.sim j).ex
      exact ⟨q', g', E'.otherWrite c (E.own _ _ ha).1 (fun x hx => I.disj _ _ (Ne.symm hj) _ _ _ ha hx), P', R', C'⟩

theorem pinv_exec {ι : Type} [DecidableEq ι] {Q : ARel → Res α → Res β → Prop} {p0 : ι → TP β} (sched : List ι) {n : ι → Nat}
    {s : Pool ι α} {ρ : ι → ARel} (I : PInv h0 Q p0 n s ρ) :
    ∃ ρ', PInv h0 Q p0 (fun i => n i + sched.count i) (s.exec sched) ρ' := by
  induction sched generalizing n s ρ with
  | nil => exact ⟨ρ, by simpa [Pool.exec] using I⟩
  | cons i rest ih =>
    obtain ⟨ρ', I'⟩ := pinv_step I i
    obtain ⟨ρ'', I''⟩ := ih I'
    refine ⟨ρ'', ?_⟩
    have e : (fun j => n j + (i :: rest).count j) = fun j => Function.update n i (n i + 1) j + rest.count j := by
      funext j
      by_cases hj : j = i
      · subst hj; rw [Function.update_self, List.count_cons_self]; omega
      · rw [Function.update_of_ne hj, List.count_cons_of_ne (Ne.symm hj)]
    rw [e]
    exact I''

end Verif.Thr
