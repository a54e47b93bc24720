import Verif.ThreadSim
import Verif.Props.Heap
/-!
# C122: concurrent use

A program `prog0` creates the shared objects.  Then any number of threads run, each with a program of its own that may use the shared
objects but changes only objects it created itself.  Whatever the schedule, each thread sees what it would see if it ran alone.
-/
namespace Verif.Props
open Verif Verif.SpecHeap Verif.Thr

/-- The process after the main program `prog0` has started the threads: thread `i` runs `progs i`, its variables are those of the
main program, and its statement `k` finds the backend `bk i k` in the global `use_cext`. -/
noncomputable def startThreads {ι : Type} (b0 : Backend) (h : Heap) (prog0 : List Stmt) (bk : ι → Nat → Backend)
    (progs : ι → List Stmt) : Pool ι (List (Option PyErr) × List Obj) :=
  ⟨(runHeap b0 h prog0).heap, fun i => tProg (bk i) (progs i) [] (runHeap b0 h prog0).env⟩

/-- What a thread computes on plain values, in which nothing is shared: its program run alone after `prog0`, statement `k` with the
backend `b k`. -/
noncomputable def aloneVal (b0 : Backend) (prog0 : List Stmt) (b : Nat → Backend) (prog : List Stmt) : VSt :=
  prog.foldl (fun s => stepVal (b s.log.length) s) ⟨[], (runVal b0 prog0).env⟩

theorem fold_syncs (b : Nat → Backend) (prog : List Stmt) {s : St} {w : VSt} (H : Sync s w) :
    Sync (prog.foldl (fun s => stepHeap (b s.log.length) s) s) (prog.foldl (fun s => stepVal (b s.log.length) s) w) := by
  induction prog generalizing s w with
  | nil => exact H
  | cons st prog ih =>
    rw [List.foldl_cons, List.foldl_cons, ← H.log]
    exact ih (step_sync _ H st)

theorem below_of_addrs {N : Nat} {o : Obj} (h : ∀ a ∈ addrs o, a < N) : Below N o := by
  rcases o with o | o | (a | _) | o
  · exact ⟨⟨rfl, h _ (by simp [addrs])⟩, rfl, rfl⟩
  · exact ⟨⟨⟨rfl, h _ (by simp [addrs])⟩, rfl, rfl⟩, ⟨⟨rfl, h _ (by simp [addrs])⟩, rfl, rfl⟩, rfl, rfl⟩
  · exact ⟨rfl, h _ (by simp [addrs])⟩
  · exact trivial
  · exact ⟨⟨rfl, h _ (by simp [addrs])⟩, ⟨rfl, h _ (by simp [addrs])⟩⟩

/-- Corresponding objects show the same. -/
theorem see_rel {A : ARel → ARel} {ρ : ARel} {H h' : Heap} (e : ∀ a b, A ρ a b → H[a]? = h'[b]?) {o o' : Obj} (k : RO A ρ o o') :
    see H o = see h' o' := by
  have sS : ∀ {o o' : SRef}, RS A ρ o o' → seeS H o = seeS h' o' := by
    intro o o' k
    simp only [seeS, e _ _ k.1, k.2.1, k.2.2]
  rcases o with o | o | (a | _) | o <;> rcases o' with o' | o' | (a' | _) | o' <;> first | exact k.elim | skip
  · simp only [see, sS k]
  · simp only [see, sS k.1, sS k.2.1, k.2.2.1, k.2.2.2]
  · simp only [see, seeM, e _ _ k]
  · rfl
  · simp only [see, seeM, e _ _ k.1, e _ _ k.2]

theorem see_env {sh : List Obj} {h0 H h' : Heap} {ρ : ARel} (E : Emb h0 ρ H h') (hs : ∀ o ∈ sh, Below h0.length o)
    {env env' : List Obj} (k : REnv sh ρ env env') : env.map (see H) = env'.map (see h') := by
  obtain ⟨e, e', rfl, rfl, h3⟩ := k
  rw [List.map_append, List.map_append]
  congr 1
  · refine List.map_congr_left fun o ho => ?_
    refine see_rel (A := fun _ a b => a = b ∧ a < h0.length) (ρ := fun _ _ => False) ?_ (hs o ho)
    rintro a b ⟨rfl, ha⟩
    rw [(E.old a ha).1, (E.old a ha).2]
  · induction h3 with
    | nil => rfl
    | cons h1 _ ih =>
      rw [List.map_cons, List.map_cons, ih]
      congr 1
      exact see_rel (fun a b h => (E.own a b h).2.2.2.2) h1

/-- **C122.** Any number of threads, any programs, any schedule (a switch can happen before every access to an array), any
history of the global `use_cext` (each call finds any backend in it):
if no thread changes an object of the main program in place, then
1. a thread that has finished has caught exactly the exceptions, and each of its variables shows exactly the value, that its program
   gives when it runs alone on plain values;
2. at every moment the objects of the main program show what they showed when the threads were started;
3. every thread finishes: there is a number `K i`, not depending on the schedule or the other threads' progress, such that thread `i`
   has finished once it has been given `K i` turns. -/
theorem c122_threads {ι : Type} [DecidableEq ι] (b0 : Backend) (h : Heap) (prog0 : List Stmt) (bk : ι → Nat → Backend)
    (progs : ι → List Stmt)
    (own : ∀ i j m, Stmt.chg j m ∈ progs i → (runHeap b0 h prog0).env.length ≤ j) :
    ∃ K : ι → Nat, ∀ sched : List ι,
      (∀ i r, ((startThreads b0 h prog0 bk progs).exec sched).thr i = .ret r → ∃ log env, r = .ok (log, env) ∧
        log = (aloneVal b0 prog0 (bk i) (progs i)).log ∧
        env.map (see ((startThreads b0 h prog0 bk progs).exec sched).heap) =
          (aloneVal b0 prog0 (bk i) (progs i)).env.map some) ∧
      (runHeap b0 h prog0).env.map (see ((startThreads b0 h prog0 bk progs).exec sched).heap) =
        (runVal b0 prog0).env.map some ∧
      (∀ i, K i ≤ sched.count i → ∃ r, ((startThreads b0 h prog0 bk progs).exec sched).thr i = .ret r) := by
  have Y := run_sync b0 h prog0
  unfold startThreads
  generalize runHeap b0 h prog0 = s0 at own Y ⊢
  have hs : ∀ o ∈ s0.env, Below s0.heap.length o := fun o ho => by
    obtain ⟨v, hv⟩ := env_mem Y.env ho
    exact below_of_addrs (addrs_lt hv)
  have I : PInv s0.heap (RR (RF s0.env)) (fun i => tProg (bk i) (progs i) [] s0.env) (fun _ => 0)
      (⟨s0.heap, fun i => tProg (bk i) (progs i) [] s0.env⟩ : Pool ι _) (fun _ _ _ => False) := by
    refine ⟨fun i => ⟨_, s0.heap, ⟨fun _ _ => ⟨rfl, rfl⟩, fun _ _ x => x.elim, fun _ _ _ x => x.elim, fun _ _ _ x => x.elim,
      le_refl _, le_refl _⟩, ?_, rfl, le_refl _⟩, fun _ _ _ _ _ _ x => x.elim⟩
    exact par_tProg (bk i) hs (progs i) (fun j m hj => own i j m hj) [] ⟨[], [], by simp, by simp, .nil⟩
  refine ⟨fun i => (tProg (bk i) (progs i) [] s0.env).cost s0.heap, fun sched => ?_⟩
  obtain ⟨ρ, J⟩ := pinv_exec sched I
  refine ⟨fun i r hr => ?_, ?_, fun i hi => ?_⟩
  · obtain ⟨p', h', E, P, R, C⟩ := (J.sim i).ex
    rw [hr] at P
    cases P with
    | @ret _ _ r' hQ =>
      have R' : (r', h') = _ := R.trans (run_tProg (bk i) (progs i) ⟨[], s0.env, s0.heap⟩)
      have Z : Sync _ (aloneVal b0 prog0 (bk i) (progs i)) :=
        fold_syncs (bk i) (progs i) (s := ⟨[], s0.env, s0.heap⟩) (w := ⟨[], (runVal b0 prog0).env⟩) ⟨rfl, Y.env, Y.nodup⟩
      generalize (progs i).foldl (fun s => stepHeap (bk i s.log.length) s) ⟨[], s0.env, s0.heap⟩ = t at R' Z
      cases R'
      cases r with
      | error e => exact hQ.elim
      | ok x =>
        obtain ⟨log, env⟩ := x
        exact ⟨log, env, rfl, hQ.1.trans Z.log, (see_env E hs hQ.2).trans Z.env⟩
  · rw [← Y.env]
    refine List.map_congr_left fun o ho => ?_
    by_cases ne : Nonempty ι
    · obtain ⟨i⟩ := ne
      obtain ⟨p', h', E, _⟩ := (J.sim i).ex
      refine see_rel (A := fun _ a b => a = b ∧ a < s0.heap.length) (ρ := fun _ _ => False) ?_ (hs o ho)
      rintro a b ⟨rfl, ha⟩
      exact (E.old a ha).1
    · cases sched with
      | nil => rfl
      | cons i _ => exact (ne ⟨i⟩).elim
  · obtain ⟨p', h', E, P, R, C⟩ := (J.sim i).ex
    have C0 : p'.cost h' = 0 := by
      beta_reduce at hi C
      omega
    generalize hq : ((⟨s0.heap, fun i => tProg (bk i) (progs i) [] s0.env⟩ : Pool ι _).exec sched).thr i = q at P ⊢
    cases P with
    | @ret _ r r' hQ => exact ⟨r, rfl⟩
    | alloc => simp [TP.cost] at C0
    | read => simp [TP.cost] at C0
    | write => simp [TP.cost] at C0

/-! ### Non-vacuity, and why the condition is needed -/

/-- The main program creates `vc = zeros_coefs(1, 0, coef_type=vector)`. -/
noncomputable def tornMain : List Stmt := [.mk (.vcoefs (fun _ => 0) (fun _ => 0) 1 0)]
/-- Thread `true` runs `d = vc.copy()`, thread `false` runs `vc[1, 0] = (1, 1)`. -/
noncomputable def tornThreads : Bool → List Stmt
  | true => [.mk (.copy 0)]
  | false => [.chg 0 (.setV [.int 1, .int 0] (.tup [.num 1, .num 1]))]

/-- Two threads that each copy the shared set and change their copy. -/
noncomputable def privThreads : Bool → List Stmt
  | true => [.mk (.copy 0), .chg 1 (.setV [.int 1, .int 0] (.tup [.num 1, .num 2]))]
  | false => [.mk (.copy 0), .chg 1 (.setV [.int 1, .int 0] (.tup [.num 3, .num 4]))]

/-- Non-vacuity of C122: two threads that copy a shared vector set and change the copy; in every schedule each ends with its own
values. -/
example (b0 : Backend) (bk : Bool → Nat → Backend) : ∃ K : Bool → Nat, ∀ sched : List Bool, K true ≤ sched.count true →
    ∃ log env, ((startThreads b0 [] tornMain bk privThreads).exec sched).thr true = .ret (.ok (log, env)) ∧ log = [none, none] ∧
      env.map (see ((startThreads b0 [] tornMain bk privThreads).exec sched).heap) =
        [some (.vc ⟨⟨[0, 0], 1, 0⟩, ⟨[0, 0], 1, 0⟩, 1, 0⟩), some (.vc ⟨⟨[0, 1], 1, 0⟩, ⟨[0, 2], 1, 0⟩, 1, 0⟩)] := by
  obtain ⟨K, hK⟩ := c122_threads b0 [] tornMain bk privThreads (by
    have l : (runHeap b0 [] tornMain).env.length = 1 := rfl
    intro i j m hm
    cases i <;> simp only [privThreads, List.mem_cons, reduceCtorEq, Stmt.chg.injEq, List.not_mem_nil, or_false, false_or] at hm <;>
      omega)
  refine ⟨K, fun sched hs => ?_⟩
  obtain ⟨h1, _, h3⟩ := hK sched
  obtain ⟨r, hr⟩ := h3 true hs
  obtain ⟨log, env, rfl, e1, e2⟩ := h1 true r hr
  exact ⟨log, env, hr, e1, e2⟩

/-- A pool of two threads. -/
def pool2 {α : Type} (H : Heap) (p q : TP α) : Pool Bool α := ⟨H, fun i => if i then p else q⟩

section
variable {α : Type} {H : Heap} {p q : TP α} {l : List Bool} {a : Nat} {c : Cell}

theorem pool2_true (H : Heap) (p q r : TP α) (i : Bool) : Function.update (pool2 H p q).thr true r i = if i then r else q := by
  cases i <;> rfl
theorem pool2_false (H : Heap) (p q r : TP α) (i : Bool) : Function.update (pool2 H p q).thr false r i = if i then p else r := by
  cases i <;> rfl

theorem readT {k : Option Cell → TP α} (h : p = .read a k) :
    (pool2 H p q).exec (true :: l) = (pool2 H (k H[a]?) q).exec l := by
  subst h
  exact congrArg (fun s : Pool Bool α => s.exec l) (congrArg (Pool.mk H) (funext (pool2_true _ _ _ _)))
theorem allocT {k : Nat → TP α} (h : p = .alloc c k) :
    (pool2 H p q).exec (true :: l) = (pool2 (H ++ [c]) (k H.length) q).exec l := by
  subst h
  exact congrArg (fun s : Pool Bool α => s.exec l) (congrArg (Pool.mk (H ++ [c])) (funext (pool2_true _ _ _ _)))
theorem writeT {k : TP α} (h : p = .write a c k) :
    (pool2 H p q).exec (true :: l) = (pool2 (H.set a c) k q).exec l := by
  subst h
  exact congrArg (fun s : Pool Bool α => s.exec l) (congrArg (Pool.mk (H.set a c)) (funext (pool2_true _ _ _ _)))
theorem readF {k : Option Cell → TP α} (h : q = .read a k) :
    (pool2 H p q).exec (false :: l) = (pool2 H p (k H[a]?)).exec l := by
  subst h
  exact congrArg (fun s : Pool Bool α => s.exec l) (congrArg (Pool.mk H) (funext (pool2_false _ _ _ _)))
theorem writeF {k : TP α} (h : q = .write a c k) :
    (pool2 H p q).exec (false :: l) = (pool2 (H.set a c) p k).exec l := by
  subst h
  exact congrArg (fun s : Pool Bool α => s.exec l) (congrArg (Pool.mk (H.set a c)) (funext (pool2_false _ _ _ _)))
end

/-- Read, allocate, then the other thread's four accesses, then the rest of the copy. -/
def tornSched : List Bool := [true, true, false, false, false, false, true, true, true, true, true, true, true, true, true]

theorem torn_run (b0 : Backend) (bk : Bool → Nat → Backend) : ∃ q, (startThreads b0 [] tornMain bk tornThreads).exec tornSched =
    pool2 [.vec [0, 1], .vec [0, 1], .vec [0, 0], .vec [0, 1]]
      (.ret (.ok ([none], [.vc ⟨⟨0, 1, 0⟩, ⟨1, 1, 0⟩, 1, 0⟩, .vc ⟨⟨2, 1, 0⟩, ⟨3, 1, 0⟩, 1, 0⟩]))) q := by
  have e0 : startThreads b0 [] tornMain bk tornThreads = pool2 [.vec [0, 0], .vec [0, 0]]
      (tProg (bk true) [.mk (.copy 0)] [] [.vc ⟨⟨0, 1, 0⟩, ⟨1, 1, 0⟩, 1, 0⟩])
      (tProg (bk false) [.chg 0 (.setV [.int 1, .int 0] (.tup [.num 1, .num 1]))] [] [.vc ⟨⟨0, 1, 0⟩, ⟨1, 1, 0⟩, 1, 0⟩]) := by
    unfold startThreads pool2
    have eh : (runHeap b0 [] tornMain).heap = [.vec [0, 0], .vec [0, 0]] := rfl
    have ee : (runHeap b0 [] tornMain).env = [.vc ⟨⟨0, 1, 0⟩, ⟨1, 1, 0⟩, 1, 0⟩] := rfl
    rw [eh, ee]
    congr 1
    funext i
    cases i <;> rfl
  rw [e0]
  refine ⟨.ret (.ok ([none], [.vc ⟨⟨0, 1, 0⟩, ⟨1, 1, 0⟩, 1, 0⟩])), ?_⟩
  unfold tornSched
  refine (readT rfl).trans ((allocT rfl).trans ((readF rfl).trans ((readF rfl).trans ((writeF rfl).trans ((writeF rfl).trans ?_)))))
  refine (readT rfl).trans ((allocT rfl).trans ((readT rfl).trans ((readT rfl).trans ((writeT rfl).trans ?_))))
  refine (readT rfl).trans ((writeT rfl).trans ((readT rfl).trans ((readT rfl).trans ?_)))
  rfl

/-- The condition of C122 is needed: when one thread assigns a mode of a vector set that another thread is copying, the copy can come
out torn, with the old first and the new second component; neither order of the two statements gives that. -/
theorem c122_torn_counterexample (b0 : Backend) (bk : Bool → Nat → Backend) :
    ∃ sched : List Bool, ∃ o p, ((startThreads b0 [] tornMain bk tornThreads).exec sched).thr true = .ret (.ok ([none], [o, p])) ∧
      see ((startThreads b0 [] tornMain bk tornThreads).exec sched).heap p =
        some (.vc ⟨⟨[0, 0], 1, 0⟩, ⟨[0, 1], 1, 0⟩, 1, 0⟩) ∧
      (runVal b0 (tornMain ++ tornThreads true ++ tornThreads false)).env[1]? =
        some (.vc ⟨⟨[0, 0], 1, 0⟩, ⟨[0, 0], 1, 0⟩, 1, 0⟩) ∧
      (runVal b0 (tornMain ++ tornThreads false ++ tornThreads true)).env[1]? =
        some (.vc ⟨⟨[0, 1], 1, 0⟩, ⟨[0, 1], 1, 0⟩, 1, 0⟩) := by
  obtain ⟨q, e⟩ := torn_run b0 bk
  refine ⟨tornSched, .vc ⟨⟨0, 1, 0⟩, ⟨1, 1, 0⟩, 1, 0⟩, .vc ⟨⟨2, 1, 0⟩, ⟨3, 1, 0⟩, 1, 0⟩, ?_, ?_, ?_, ?_⟩
  · rw [e]; rfl
  · rw [e]; rfl
  · rfl
  · rfl

end Verif.Props
