import Verif.Heap
/-!
# Specification for the sharing properties: programs over coefficient and pattern objects

A program is a list of statements.  A statement creates a new variable (`mk`) or changes an existing one in place (`chg`).
`runHeap` executes it on arrays shared by reference (`Heap.lean`), `runVal` on plain immutable values, in which nothing can
be shared.  An exception is caught and the program goes on.  Nothing here models a file of /repo: it is the client.
-/
namespace Verif.SpecHeap
open Verif

/-- An object a program variable is bound to. -/
inductive Obj where
  | sc (o : SRef)
  | vc (o : VRef)
  | sp (o : PRef)
  | tp (o : TRef)

/-- The value of a variable. -/
inductive OVal where
  | sc (c : ScalarCoefs ℂ)
  | vc (c : VectorCoefs ℂ)
  | sp (p : SPatt ℂ)
  | tp (p : TPatt ℂ)

/-- What a user sees of a scalar set: the content of its array and its limits. -/
def seeS (h : Heap) (o : SRef) : Option (ScalarCoefs ℂ) :=
  match h[o.buf]? with
  | some (.vec l) => some ⟨l, o.nmax, o.mmax⟩
  | _ => none

/-- Content of a 2-D array. -/
def seeM (h : Heap) (a : Nat) : Option (Arr2 ℂ) :=
  match h[a]? with
  | some (.mat A) => some A
  | _ => none

/-- What a user sees of an object in memory `h`. -/
def see (h : Heap) : Obj → Option OVal
  | .sc o => (seeS h o).map fun (c : ScalarCoefs ℂ) => OVal.sc c
  | .vc o => match seeS h o.s1, seeS h o.s2 with
    | some c1, some c2 => some (.vc ⟨c1, c2, o.nmax, o.mmax⟩)
    | _, _ => none
  | .sp (.arr a) => (seeM h a).map fun (A : Arr2 ℂ) => OVal.sp ⟨.arr A⟩
  | .sp .exc => some (.sp ⟨.exc⟩)
  | .tp o => match seeM h o.td, seeM h o.pd with
    | some T, some P => some (.tp ⟨T, P⟩)
    | _, _ => none

/-- Statements that create an object; numbers refer to variables in order of creation. -/
inductive Mk where
  /-- `zeros_coefs`, `ones_coefs`, `random_coefs` (scalar): entries `f` -/
  | coefs (f : Nat → ℂ) (nmax mmax : Int)
  /-- the same, vector -/
  | vcoefs (f g : Nat → ℂ) (nmax mmax : Int)
  /-- `ScalarPatternUniform(A)` -/
  | patt (A : Arr2 ℂ)
  /-- `TransversePatternUniform(T, P)` -/
  | tpatt (T P : Arr2 ℂ)
  /-- `x.copy()` -/
  | copy (i : Nat)
  /-- `x op y` -/
  | opObj (op : Op) (i j : Nat)
  /-- `x op number` -/
  | opNum (op : Op) (i : Nat) (x : ℂ)
  /-- `number op x` -/
  | numOp (op : Op) (i : Nat) (x : ℂ)
  /-- `x[0:k, :]` -/
  | trunc (i : Nat) (k : Int)
  /-- `spht(x, nmax, mmax)` or `vspht(x, nmax, mmax)` -/
  | spht (i : Nat) (nmax mmax : Option Int)
  /-- `ispht(x, nrows, ncols)` or `vispht(x, nrows, ncols)` -/
  | ispht (i : Nat) (nrows ncols : Option Int)

/-- Statements that change a variable in place. -/
inductive Mut where
  /-- `x[arg] = val`, scalar set -/
  | set (arg : List Arg) (val : Val ℂ)
  /-- `x[arg] = val`, vector set -/
  | setV (arg : List Arg) (val : VectorCoefs.ValV ℂ)
  /-- `x.window(w)`, scalar set -/
  | window (w : List ℂ)
  /-- `x.scoef1[arg] = val` (or `x.scoef2`), vector set -/
  | setComp (first : Bool) (arg : List Arg) (val : Val ℂ)
  /-- `x.scoef1.window(w)` (or `x.scoef2`), vector set -/
  | windowComp (first : Bool) (w : List ℂ)
  /-- any in-place change of `x.doublesphere` (for instance through `x.cdata[i, j] = v`), scalar pattern -/
  | poke (f : Arr2 ℂ → Arr2 ℂ)
  /-- any in-place change of `x.theta` or `x.phi`, transverse pattern -/
  | pokeT (first : Bool) (f : Arr2 ℂ → Arr2 ℂ)

/-- A statement. -/
inductive Stmt where
  | mk (m : Mk)
  | chg (i : Nat) (m : Mut)

/-- The exception for a statement that does not apply to the object (or an unbound variable). -/
def noSuch : PyErr := ⟨.attributeError, "no such variable or method"⟩

/-! ### Execution with shared arrays -/

/-- Give the result of a constructor its type. -/
def asObj {α : Type} (f : α → Obj) (x : HM α) : HM Obj := do
  let a ← x
  pure (f a)

/-- A creating statement, on the heap. -/
noncomputable def mkHeap (b : Backend) (env : List Obj) : Mk → HM Obj
  | .coefs f n m => asObj .sc (hFactoryS f n m)
  | .vcoefs f g n m => asObj .vc (hFactoryV f g n m)
  | .patt A => asObj .sp (hMkP A)
  | .tpatt T P => asObj .tp (hMkT T P)
  | .copy i => match env[i]? with
    | some (.sc o) => asObj .sc o.copy
    | some (.vc o) => asObj .vc o.copy
    | _ => HM.lift (.error noSuch)
  | .opObj op i j => match env[i]?, env[j]? with
    | some (.sc o), some (.sc p) => asObj .sc (SRef.opObj op o p)
    | some (.vc o), some (.vc p) => asObj .vc (VRef.opObj op o p)
    | some (.sp o), some (.sp p) => asObj .sp (PRef.opObj op o p)
    | some (.tp o), some (.tp p) => asObj .tp (TRef.opObj op o p)
    | _, _ => HM.lift (.error noSuch)
  | .opNum op i x => match env[i]? with
    | some (.sc o) => asObj .sc (SRef.opNum op o x)
    | some (.vc o) => asObj .vc (VRef.opNum op o x)
    | some (.sp o) => asObj .sp (PRef.opNum op o x)
    | some (.tp o) => asObj .tp (TRef.opNum op o x)
    | none => HM.lift (.error noSuch)
  | .numOp op i x => match env[i]? with
    | some (.sc o) => asObj .sc (SRef.numOp op o x)
    | some (.vc o) => asObj .vc (VRef.numOp op o x)
    | some (.sp o) => asObj .sp (PRef.numOp op o x)
    | some (.tp o) => asObj .tp (TRef.numOp op o x)
    | none => HM.lift (.error noSuch)
  | .trunc i k => match env[i]? with
    | some (.sc o) => asObj .sc (o.trunc k)
    | some (.vc o) => asObj .vc (o.trunc k)
    | _ => HM.lift (.error noSuch)
  | .spht i n m => match env[i]? with
    | some (.sp o) => asObj .sc (hSpht b o n m)
    | some (.tp o) => asObj .vc (hVspht b o n m)
    | _ => HM.lift (.error noSuch)
  | .ispht i r c => match env[i]? with
    | some (.sc o) => asObj .sp (hIspht b o r c)
    | some (.vc o) => asObj .tp (hVispht b o r c)
    | _ => HM.lift (.error noSuch)

/-- A changing statement, on the heap. -/
noncomputable def mutHeap : Mut → Obj → HM Unit
  | .set arg v, .sc o => o.update fun c => c.setitem arg v
  | .setV arg v, .vc o => o.setitem arg v
  | .window w, .sc o => o.update fun c => c.window w
  | .setComp first arg v, .vc o => (if first then o.s1 else o.s2).update fun c => c.setitem arg v
  | .windowComp first w, .vc o => (if first then o.s1 else o.s2).update fun c => c.window w
  | .poke f, .sp (.arr a) => do
    let A ← readM a
    writeC a (.mat (f A))
  | .pokeT first f, .tp o => do
    let A ← readM (if first then o.td else o.pd)
    writeC (if first then o.td else o.pd) (.mat (f A))
  | _, _ => HM.lift (.error noSuch)

/-- State of a run: the exceptions caught so far (`none` for a statement that succeeded), the variables, the memory. -/
structure St where
  log : List (Option PyErr)
  env : List Obj
  heap : Heap

/-- One statement. -/
noncomputable def stepHeap (b : Backend) (s : St) : Stmt → St
  | .mk m => match mkHeap b s.env m s.heap with
    | (.ok o, h) => ⟨s.log ++ [none], s.env ++ [o], h⟩
    | (.error e, h) => ⟨s.log ++ [some e], s.env, h⟩
  | .chg i m => match s.env[i]? with
    | none => ⟨s.log ++ [some noSuch], s.env, s.heap⟩
    | some o => match mutHeap m o s.heap with
      | (.ok _, h) => ⟨s.log ++ [none], s.env, h⟩
      | (.error e, h) => ⟨s.log ++ [some e], s.env, h⟩

/-- A whole program, from no variables and the memory `h0` of the rest of the process. -/
noncomputable def runHeap (b : Backend) (h0 : Heap) (prog : List Stmt) : St := prog.foldl (stepHeap b) ⟨[], [], h0⟩

/-! ### Execution with values -/

/-- Give a value its type. -/
def asVal {α : Type} (f : α → OVal) (x : Res α) : Res OVal := x.bind fun a => .ok (f a)

/-- A creating statement, on values. -/
noncomputable def mkVal (b : Backend) (env : List OVal) : Mk → Res OVal
  | .coefs f n m => asVal .sc (genCoefs f n m)
  | .vcoefs f g n m => asVal .vc (genVCoefs f g n m)
  | .patt A => asVal .sp (SPatt.init (.arr A) false)
  | .tpatt T P => asVal .tp (TPatt.init (.arr T) (.arr P) false)
  | .copy i => match env[i]? with
    | some (.sc c) => asVal .sc c.copy
    | some (.vc c) => asVal .vc c.copy
    | _ => .error noSuch
  | .opObj op i j => match env[i]?, env[j]? with
    | some (.sc c), some (.sc d) => asVal .sc (c.opLeft op (.obj d))
    | some (.vc c), some (.vc d) => asVal .vc (c.opLeft op (.obj d))
    | some (.sp c), some (.sp d) => asVal .sp (c.opLeft op (.obj d))
    | some (.tp c), some (.tp d) => asVal .tp (c.opLeft op (.obj d))
    | _, _ => .error noSuch
  | .opNum op i x => match env[i]? with
    | some (.sc c) => asVal .sc (c.opLeft op (.num x))
    | some (.vc c) => asVal .vc (c.opLeft op (.num x))
    | some (.sp c) => asVal .sp (c.opLeft op (.num x))
    | some (.tp c) => asVal .tp (c.opLeft op (.num x))
    | none => .error noSuch
  | .numOp op i x => match env[i]? with
    | some (.sc c) => asVal .sc (c.opRight op (.num x))
    | some (.vc c) => asVal .vc (c.opRight op (.num x))
    | some (.sp c) => asVal .sp (c.opRight op (.num x))
    | some (.tp c) => asVal .tp (c.opRight op (.num x))
    | none => .error noSuch
  | .trunc i k => match env[i]? with
    | some (.sc c) => asVal .sc (c.trunc k)
    | some (.vc c) => asVal .vc (c.trunc k)
    | _ => .error noSuch
  | .spht i n m => match env[i]? with
    | some (.sp p) => asVal .sc (Verif.spht b p n m)
    | some (.tp p) => asVal .vc (Verif.vspht b p n m)
    | _ => .error noSuch
  | .ispht i r c => match env[i]? with
    | some (.sc x) => asVal .sp (Verif.ispht b x r c)
    | some (.vc x) => asVal .tp (Verif.vispht b x r c)
    | _ => .error noSuch

/-- A changing statement, on values: the new value and the exception, if any. -/
noncomputable def mutVal : Mut → OVal → Eff OVal
  | .set arg v, .sc c => let e := c.setitem arg v; ⟨.sc e.st, e.err⟩
  | .setV arg v, .vc c => let e := c.setitem arg v; ⟨.vc e.st, e.err⟩
  | .window w, .sc c => let e := c.window w; ⟨.sc e.st, e.err⟩
  | .setComp true arg v, .vc c => let e := c.scoef1.setitem arg v; ⟨.vc { c with scoef1 := e.st }, e.err⟩
  | .setComp false arg v, .vc c => let e := c.scoef2.setitem arg v; ⟨.vc { c with scoef2 := e.st }, e.err⟩
  | .windowComp true w, .vc c => let e := c.scoef1.window w; ⟨.vc { c with scoef1 := e.st }, e.err⟩
  | .windowComp false w, .vc c => let e := c.scoef2.window w; ⟨.vc { c with scoef2 := e.st }, e.err⟩
  | .poke f, .sp ⟨.arr A⟩ => ⟨.sp ⟨.arr (f A)⟩, none⟩
  | .pokeT true f, .tp p => ⟨.tp { p with td := f p.td }, none⟩
  | .pokeT false f, .tp p => ⟨.tp { p with pd := f p.pd }, none⟩
  | _, v => ⟨v, some noSuch⟩

/-- State of a run on values. -/
structure VSt where
  log : List (Option PyErr)
  env : List OVal

/-- One statement: a changing statement replaces the value of its own variable only. -/
noncomputable def stepVal (b : Backend) (s : VSt) : Stmt → VSt
  | .mk m => match mkVal b s.env m with
    | .ok v => ⟨s.log ++ [none], s.env ++ [v]⟩
    | .error e => ⟨s.log ++ [some e], s.env⟩
  | .chg i m => match s.env[i]? with
    | none => ⟨s.log ++ [some noSuch], s.env⟩
    | some v => ⟨s.log ++ [(mutVal m v).err], s.env.set i (mutVal m v).st⟩

/-- A whole program on values. -/
noncomputable def runVal (b : Backend) (prog : List Stmt) : VSt := prog.foldl (stepVal b) ⟨[], []⟩

end Verif.SpecHeap
