import Verif.Threads
import Verif.HeapLemmas
/-!
# Run without interruption, the thread programs are the calls of Heap.lean
-/
namespace Verif.Thr
open Verif

/-- Run a computation to completion, alone. -/
def TP.run {α : Type} : TP α → HM α
  | .ret r => fun h => (r, h)
  | .alloc c k => fun h => (k h.length).run (h ++ [c])
  | .read a k => fun h => (k h[a]?).run h
  | .write a c k => fun h => k.run (h.set a c)

variable {α β γ : Type}

theorem run_bindR (x : TP α) (f : Res α → TP β) (h : Heap) :
    (x.bindR f).run h = (f (x.run h).1).run (x.run h).2 := by
  induction x generalizing h with
  | ret r => rfl
  | alloc c k ih => exact ih _ _
  | read a k ih => exact ih _ _
  | write a c k ih => exact ih _

theorem run_bind (x : TP α) (f : α → TP β) : (x >>= f).run = x.run >>= fun a => (f a).run := by
  funext h
  show (x.bindR (TP.onOk f)).run h = _
  rw [run_bindR, hm_bind]
  rcases x.run h with ⟨r, h'⟩
  cases r <;> rfl

theorem run_pure (a : α) : (pure a : TP α).run = pure a := rfl
theorem run_lift (r : Res α) : (TP.lift r).run = HM.lift r := rfl
theorem run_alloc (c : Cell) : (alloc c).run = Verif.alloc c := rfl
theorem run_writeC (a : Nat) (c : Cell) : (writeC a c).run = Verif.writeC a c := rfl
theorem run_readV (a : Nat) : (readV a).run = Verif.readV a := by
  funext h
  show (asVec h[a]?, h) = _
  unfold Verif.readV asVec
  rcases h[a]? with _ | (_ | _) <;> rfl
theorem run_readM (a : Nat) : (readM a).run = Verif.readM a := by
  funext h
  show (asMat h[a]?, h) = _
  unfold Verif.readM asMat
  rcases h[a]? with _ | (_ | _) <;> rfl

theorem run_ite (p : Prop) [Decidable p] (x y : TP α) : (if p then x else y).run = if p then x.run else y.run := by
  split <;> rfl

theorem run_hInitS (a : Nat) (n m : Int) : (hInitS a n m).run = Verif.hInitS a n m := by
  simp only [hInitS, Verif.hInitS, run_bind, run_lift, run_readV, run_pure]

theorem run_hInitV (a b : Nat) (n m : Int) : (hInitV a b n m).run = Verif.hInitV a b n m := by
  simp only [hInitV, Verif.hInitV, run_bind, run_lift, run_readV, run_pure, run_ite, run_writeC, run_hInitS]

theorem run_hNewS (b : Buf ℂ) (n m : Int) : (hNewS b n m).run = Verif.hNewS b n m := by
  cases b <;> simp only [hNewS, Verif.hNewS, run_bind, run_lift, run_alloc, run_hInitS]

theorem run_hNewV (b c : Buf ℂ) (n m : Int) : (hNewV b c n m).run = Verif.hNewV b c n m := by
  cases b <;> cases c <;> simp only [hNewV, Verif.hNewV, run_bind, run_lift, run_alloc, run_hInitV]

theorem run_sRead (o : SRef) : (sRead o).run = o.read := by
  simp only [sRead, SRef.read, run_bind, run_readV, run_pure]

theorem run_sCopy (o : SRef) : (sCopy o).run = o.copy := by
  simp only [sCopy, SRef.copy, run_bind, run_readV, run_alloc, run_hInitS]

theorem run_vCopy (o : VRef) : (vCopy o).run = o.copy := by
  simp only [vCopy, VRef.copy, run_bind, run_readV, run_alloc, run_hInitV]

theorem run_sOpObj (op : Op) (o p : SRef) : (sOpObj op o p).run = SRef.opObj op o p := by
  simp only [sOpObj, SRef.opObj, run_bind, run_readV, run_ite, run_hNewS, run_lift]

theorem run_sOpNum (op : Op) (o : SRef) (x : ℂ) : (sOpNum op o x).run = SRef.opNum op o x := by
  simp only [sOpNum, SRef.opNum, run_bind, run_readV, run_hNewS]

theorem run_sNumOp (op : Op) (o : SRef) (x : ℂ) : (sNumOp op o x).run = SRef.numOp op o x := by
  simp only [sNumOp, SRef.numOp, run_bind, run_readV, run_hNewS]

theorem run_vOpObj (op : Op) (o p : VRef) : (vOpObj op o p).run = VRef.opObj op o p := by
  simp only [vOpObj, VRef.opObj, run_bind, run_readV, run_hNewV, run_lift]

theorem run_vOpNum (op : Op) (o : VRef) (x : ℂ) : (vOpNum op o x).run = VRef.opNum op o x := by
  simp only [vOpNum, VRef.opNum, run_bind, run_readV, run_hNewV]

theorem run_vNumOp (op : Op) (o : VRef) (x : ℂ) : (vNumOp op o x).run = VRef.numOp op o x := by
  simp only [vNumOp, VRef.numOp, run_bind, run_readV, run_hNewV]

theorem run_sTrunc (o : SRef) (k : Int) : (sTrunc o k).run = o.trunc k := by
  simp only [sTrunc, SRef.trunc, run_bind, run_sRead, run_lift, run_alloc, run_hInitS]

theorem run_vTrunc (o : VRef) (k : Int) : (vTrunc o k).run = o.trunc k := by
  simp only [vTrunc, VRef.trunc, run_bind, run_ite, run_sTrunc, run_lift, run_hInitV]

theorem run_sUpdate (o : SRef) (f : ScalarCoefs ℂ → Eff (ScalarCoefs ℂ)) : (sUpdate o f).run = o.update f := by
  simp only [sUpdate, SRef.update, run_bind, run_sRead, run_writeC]
  congr 1; funext c; congr 1; funext u
  cases (f c).err <;> rfl

theorem run_vSetitem (o : VRef) (arg : List Arg) (v : VectorCoefs.ValV ℂ) : (vSetitem o arg v).run = o.setitem arg v := by
  simp only [vSetitem, VRef.setitem, run_bind, run_sRead, run_writeC]
  congr 1; funext c1; congr 1; funext c2; congr 1; funext u; congr 1; funext u
  cases (VectorCoefs.setitem ⟨c1, c2, o.nmax, o.mmax⟩ arg v).err <;> rfl

theorem run_hFactoryS (f : Nat → ℂ) (n m : Int) : (hFactoryS f n m).run = Verif.hFactoryS f n m := by
  simp only [hFactoryS, Verif.hFactoryS, run_ite, run_lift, run_bind, run_alloc, run_hInitS]

theorem run_hFactoryV (f g : Nat → ℂ) (n m : Int) : (hFactoryV f g n m).run = Verif.hFactoryV f g n m := by
  simp only [hFactoryV, Verif.hFactoryV, run_ite, run_lift, run_bind, run_alloc, run_hInitV]

theorem run_pRead (p : PRef) : (pRead p).run = p.read := by
  cases p <;> simp only [pRead, PRef.read, run_bind, run_readM, run_pure]

theorem run_tRead (p : TRef) : (tRead p).run = p.read := by
  simp only [tRead, TRef.read, run_bind, run_readM, run_pure]

theorem run_hNewP (b : PBuf ℂ) : (hNewP b).run = Verif.hNewP b := by
  cases b <;> simp only [hNewP, Verif.hNewP, run_bind, run_alloc, run_pure]

theorem run_hNewT (b c : PBuf ℂ) : (hNewT b c).run = Verif.hNewT b c := by
  cases b <;> cases c <;> simp only [hNewT, Verif.hNewT, run_bind, run_alloc, run_pure, run_lift]

theorem run_hMkP (A : Arr2 ℂ) : (hMkP A).run = Verif.hMkP A := by
  simp only [hMkP, Verif.hMkP, run_bind, run_lift, run_hNewP]

theorem run_hMkT (A B : Arr2 ℂ) : (hMkT A B).run = Verif.hMkT A B := by
  simp only [hMkT, Verif.hMkT, run_bind, run_lift, run_ite, run_alloc, run_pure]

theorem run_pOpObj (op : Op) (o p : PRef) : (pOpObj op o p).run = PRef.opObj op o p := by
  simp only [pOpObj, PRef.opObj, run_bind, run_pRead, run_lift, run_ite, run_hNewP]

theorem run_pOpNum (op : Op) (o : PRef) (x : ℂ) : (pOpNum op o x).run = PRef.opNum op o x := by
  simp only [pOpNum, PRef.opNum, run_bind, run_pRead, run_lift, run_hNewP]

theorem run_pNumOp (op : Op) (o : PRef) (x : ℂ) : (pNumOp op o x).run = PRef.numOp op o x := by
  simp only [pNumOp, PRef.numOp, run_bind, run_pRead, run_lift, run_hNewP]

theorem run_tOpObj (op : Op) (o p : TRef) : (tOpObj op o p).run = TRef.opObj op o p := by
  simp only [tOpObj, TRef.opObj, run_bind, run_tRead, run_lift, run_ite, run_hNewT]

theorem run_tOpNum (op : Op) (o : TRef) (x : ℂ) : (tOpNum op o x).run = TRef.opNum op o x := by
  simp only [tOpNum, TRef.opNum, run_bind, run_tRead, run_hNewT]

theorem run_tNumOp (op : Op) (o : TRef) (x : ℂ) : (tNumOp op o x).run = TRef.numOp op o x := by
  simp only [tNumOp, TRef.numOp, run_bind, run_tRead, run_hNewT]

theorem run_hApply (f : Arr2 ℂ → Res (Arr2 ℂ)) (a : Nat) : (hApply f a).run = Verif.hApply f a := by
  simp only [hApply, Verif.hApply, run_bind, run_readM, run_lift, run_writeC]

theorem run_hPadRows (a e : Nat) : (hPadRows a e).run = Verif.hPadRows a e := by
  simp only [hPadRows, Verif.hPadRows, run_bind, run_readM, run_lift, run_writeC]

theorem run_hSinLdot (a e : Nat) : (hSinLdot a e).run = Verif.hSinLdot a e := by
  simp only [hSinLdot, Verif.hSinLdot, run_bind, run_readM, run_alloc, run_hApply]

theorem run_hLFc (f : Nat) : (hLFc f).run = Verif.hLFc f := by
  simp only [hLFc, Verif.hLFc, run_bind, run_readM, run_alloc, run_hApply, run_pure]

theorem run_hFcToSc (b : Backend) (c f : Nat) (n m : Int) : (hFcToSc b c f n m).run = Verif.hFcToSc b c f n m := by
  simp only [hFcToSc, Verif.hFcToSc, run_bind, run_readM, run_alloc, run_lift]

theorem run_hScToFc (b : Backend) (c f : Nat) (n m r s : Int) : (hScToFc b c f n m r s).run = Verif.hScToFc b c f n m r s := by
  simp only [hScToFc, Verif.hScToFc, run_bind, run_readV, run_alloc, run_lift]

theorem run_hExtFourier (a : Nat) : (hExtFourier a).run = Verif.hExtFourier a := by
  simp only [hExtFourier, Verif.hExtFourier, run_bind, run_readM, run_alloc, run_lift, run_hApply, run_hPadRows, run_pure]

theorem run_hSpht (b : Backend) (p : PRef) (n m : Option Int) : (hSpht b p n m).run = Verif.hSpht b p n m := by
  cases p <;> simp only [hSpht, Verif.hSpht, run_bind, run_pRead, run_lift, run_hExtFourier, run_hApply, run_hFcToSc, run_hInitS]

theorem run_hIspht (b : Backend) (c : SRef) (n m : Option Int) : (hIspht b c n m).run = Verif.hIspht b c n m := by
  simp only [hIspht, Verif.hIspht, run_bind, run_lift, run_hScToFc, run_readM, run_hNewP]

theorem run_hVspht (b : Backend) (p : TRef) (n m : Option Int) : (hVspht b p n m).run = Verif.hVspht b p n m := by
  simp only [hVspht, Verif.hVspht, run_bind, run_tRead, run_lift, run_hExtFourier, run_hSinLdot, run_hFcToSc, run_hInitV,
    run_alloc, run_readM, run_ite, run_sUpdate, run_pure]

theorem run_hVispht (b : Backend) (c : VRef) (n m : Option Int) : (hVispht b c n m).run = Verif.hVispht b c n m := by
  cases b <;> simp only [hVispht, Verif.hVispht, run_bind, run_lift, run_sCopy, run_sUpdate, run_hScToFc, run_hLFc, run_readM,
    run_alloc, run_hNewT]

theorem run_asObj (f : α → SpecHeap.Obj) (x : TP α) : (asObj f x).run = SpecHeap.asObj f x.run := by
  simp only [asObj, SpecHeap.asObj, run_bind, run_pure]

theorem run_tMk (b : Backend) (env : List SpecHeap.Obj) (m : SpecHeap.Mk) : (tMk b env m).run = SpecHeap.mkHeap b env m := by
  cases m with
  | coefs => simp only [tMk, SpecHeap.mkHeap, run_asObj, run_hFactoryS]
  | vcoefs => simp only [tMk, SpecHeap.mkHeap, run_asObj, run_hFactoryV]
  | patt => simp only [tMk, SpecHeap.mkHeap, run_asObj, run_hMkP]
  | tpatt => simp only [tMk, SpecHeap.mkHeap, run_asObj, run_hMkT]
  | copy i =>
    simp only [tMk, SpecHeap.mkHeap]
    rcases env[i]? with _ | (_ | _ | _ | _) <;> simp only [run_asObj, run_sCopy, run_vCopy, run_lift]
  | opObj op i j =>
    simp only [tMk, SpecHeap.mkHeap]
    rcases env[i]? with _ | (_ | _ | _ | _) <;> rcases env[j]? with _ | (_ | _ | _ | _) <;>
      simp only [run_asObj, run_sOpObj, run_vOpObj, run_pOpObj, run_tOpObj, run_lift]
  | opNum op i x =>
    simp only [tMk, SpecHeap.mkHeap]
    rcases env[i]? with _ | (_ | _ | _ | _) <;> simp only [run_asObj, run_sOpNum, run_vOpNum, run_pOpNum, run_tOpNum, run_lift]
  | numOp op i x =>
    simp only [tMk, SpecHeap.mkHeap]
    rcases env[i]? with _ | (_ | _ | _ | _) <;> simp only [run_asObj, run_sNumOp, run_vNumOp, run_pNumOp, run_tNumOp, run_lift]
  | trunc i k =>
    simp only [tMk, SpecHeap.mkHeap]
    rcases env[i]? with _ | (_ | _ | _ | _) <;> simp only [run_asObj, run_sTrunc, run_vTrunc, run_lift]
  | spht i n m =>
    simp only [tMk, SpecHeap.mkHeap]
    rcases env[i]? with _ | (_ | _ | _ | _) <;> simp only [run_asObj, run_hSpht, run_hVspht, run_lift]
  | ispht i n m =>
    simp only [tMk, SpecHeap.mkHeap]
    rcases env[i]? with _ | (_ | _ | _ | _) <;> simp only [run_asObj, run_hIspht, run_hVispht, run_lift]

theorem run_tMut (m : SpecHeap.Mut) (o : SpecHeap.Obj) : (tMut m o).run = SpecHeap.mutHeap m o := by
  cases m <;> rcases o with _ | _ | (_ | _) | _ <;>
    simp only [tMut, SpecHeap.mutHeap, run_sUpdate, run_vSetitem, run_lift, run_bind, run_readM, run_writeC]

/-- A thread that is never interrupted behaves as the program of SpecHeap.lean. -/
theorem run_tProg (b : Nat → Backend) (prog : List SpecHeap.Stmt) (s : SpecHeap.St) :
    (tProg b prog s.log s.env).run s.heap =
      (.ok ((prog.foldl (fun s => SpecHeap.stepHeap (b s.log.length) s) s).log, (prog.foldl (fun s => SpecHeap.stepHeap (b s.log.length) s) s).env),
        (prog.foldl (fun s => SpecHeap.stepHeap (b s.log.length) s) s).heap) := by
  induction prog generalizing s with
  | nil => rfl
  | cons st rest ih =>
    rw [List.foldl_cons]
    cases st with
    | mk m =>
      rw [tProg, run_bindR, run_tMk]
      simp only [SpecHeap.stepHeap]
      rcases SpecHeap.mkHeap (b s.log.length) s.env m s.heap with ⟨r, h'⟩
      cases r with
      | ok o => exact ih ⟨_, _, _⟩
      | error e => exact ih ⟨_, _, _⟩
    | chg i m =>
      rw [tProg]
      simp only [SpecHeap.stepHeap]
      cases s.env[i]? with
      | none => exact ih ⟨_, _, _⟩
      | some o =>
        simp only
        rw [run_bindR, run_tMut]
        rcases SpecHeap.mutHeap m o s.heap with ⟨r, h'⟩
        cases r with
        | ok o => exact ih ⟨_, _, _⟩
        | error e => exact ih ⟨_, _, _⟩

end Verif.Thr
