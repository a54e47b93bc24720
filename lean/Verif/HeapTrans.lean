import Verif.HeapOps
/-!
# The transforms on the heap refine their value-level models
-/
namespace Verif

/-! ### In-place updates keep the limits -/

section
variable {α : Type}

/-- Same `nmax`, `mmax`. -/
def SameLim (c d : ScalarCoefs α) : Prop := d.nmax = c.nmax ∧ d.mmax = c.mmax

theorem SameLim.refl (c : ScalarCoefs α) : SameLim c c := ⟨rfl, rfl⟩
theorem SameLim.trans {c d e : ScalarCoefs α} (h1 : SameLim c d) (h2 : SameLim d e) : SameLim c e :=
  ⟨h2.1.trans h1.1, h2.2.trans h1.2⟩

theorem setNM_lim (c : ScalarCoefs α) (n m : Int) (v : Val α) : SameLim c (c.setNM n m v).st := by
  unfold ScalarCoefs.setNM
  split
  · exact .refl c
  · split
    · exact .refl c
    · split
      · exact .refl c
      · split
        · exact .refl c
        · split <;> exact ⟨rfl, rfl⟩

theorem setCol_lim (c : ScalarCoefs α) (m : Int) (v : Val α) : SameLim c (c.setCol m v).st := by
  unfold ScalarCoefs.setCol
  split
  · exact .refl c
  · split
    · exact .refl c
    · simp only
      split
      · exact .refl c
      · split
        · exact .refl c
        · split <;> exact ⟨rfl, rfl⟩

theorem forEach_lim {ι : Type} (xs : List ι) (c : ScalarCoefs α) (body : ScalarCoefs α → ι → Eff (ScalarCoefs α))
    (hb : ∀ c x, SameLim c (body c x).st) : SameLim c (Eff.forEach xs c body).st := by
  induction xs generalizing c with
  | nil => exact .refl c
  | cons x xs ih =>
    unfold Eff.forEach Eff.andThen
    split
    · exact (hb c x).trans (ih _)
    · exact hb c x

theorem andThen_lim {c : ScalarCoefs α} {e : Eff (ScalarCoefs α)} {f : ScalarCoefs α → Eff (ScalarCoefs α)}
    (h1 : SameLim c e.st) (h2 : ∀ d, SameLim d (f d).st) : SameLim c (e.andThen f).st := by
  unfold Eff.andThen
  split
  · exact h1.trans (h2 _)
  · exact h1

theorem setRow_lim (c : ScalarCoefs α) (n : Int) (v : Val α) : SameLim c (c.setRow n v).st := by
  unfold ScalarCoefs.setRow
  split
  · exact .refl c
  · split
    · exact .refl c
    · split
      · exact .refl c
      · refine forEach_lim _ _ _ fun c x => ?_
        split
        · exact .refl c
        · exact setNM_lim _ _ _ _

theorem setitem_lim (c : ScalarCoefs α) (arg : List Arg) (v : Val α) : SameLim c (c.setitem arg v).st := by
  unfold ScalarCoefs.setitem
  split
  · split
    · exact setCol_lim _ _ _
    · exact .refl c
  · split
    · exact setRow_lim _ _ _
    · exact .refl c
  · exact setNM_lim _ _ _ _
  · exact .refl c
  · exact .refl c

theorem windowCol_lim [Mul α] (c : ScalarCoefs α) (m : Int) (w : List α) : SameLim c (c.windowCol m w).st := by
  unfold ScalarCoefs.windowCol
  split
  · exact .refl c
  · split
    · exact .refl c
    · exact setCol_lim _ _ _

theorem window_lim [Mul α] (c : ScalarCoefs α) (w : List α) : SameLim c (c.window w).st := by
  unfold ScalarCoefs.window
  refine andThen_lim (windowCol_lim _ _ _) fun d => ?_
  exact forEach_lim _ _ _ fun c x => andThen_lim (windowCol_lim _ _ _) fun d => windowCol_lim _ _ _

end

section
variable {h t : Heap}

theorem apply_ref {op : Arr2 ℂ → Res (Arr2 ℂ)} {k : Nat} {A : Arr2 ℂ} (e : t[k]? = some (.mat A)) :
    Ref h (hApply op (h.length + k) (h ++ t)) (op A) (fun _ B t' => t' = t.set k (.mat B)) := by
  rw [hApply, readM_bind (A := A) _ (by rw [heap_new, e])]
  refine ref_eta (ref_lift fun B hB => ?_)
  simp only [writeC, heap_set]
  exact ⟨_, rfl, rfl⟩

theorem extF_ref {ds : Nat} {D : Arr2 ℂ} (e : h[ds]? = some (.mat D)) :
    Ref h (hExtFourier ds (h ++ t)) (extFourier D)
      (fun a E t' => ∃ X, t' = t ++ [X, .mat E] ∧ a = h.length + (t.length + 1)) := by
  rw [hExtFourier, readM_bind _ (heap_old h t e)]
  unfold extFourier
  refine ref_lift fun F hF => ?_
  rw [alloc_bind]
  refine ref_apply (by simp) fun B hB => ?_
  rw [alloc_bind]
  have e1 : ((t ++ [Cell.mat (F.map fun x => x / (((D.rows * D.cols : Nat) : ℝ) : ℂ))]).set t.length (.mat B)) = t ++ [.mat B] := by
    rw [List.set_append_right _ _ (le_refl _)]; simp
  rw [e1, hPadRows, hm_assoc, readM_bind (A := B) _ (by rw [heap_new]; simp), hm_assoc,
    readM_bind (A := Arr2.ofFn (D.rows + 2) D.cols fun _ _ => 0) _ (by rw [heap_new]; simp), hm_assoc]
  refine ref_eta (ref_lift fun E hE => ?_)
  rw [write_bind]
  refine ref_pure ⟨.mat B, ?_, by simp⟩
  rw [List.append_assoc, List.set_append_right _ _ (by simp)]; simp

theorem sinLdot_ref {k j : Nat} {T P : Arr2 ℂ} (hkj : k ≠ j) (e1 : t[k]? = some (.mat T)) (e2 : t[j]? = some (.mat P)) :
    Ref h (hSinLdot (h.length + k) (h.length + j) (h ++ t)) (sinLdotFc T P)
      (fun a L t' => ∃ X Y, t' = (t.set k X).set j Y ++ [.mat L] ∧ a = h.length + t.length) := by
  have hk : k < t.length := (List.getElem?_eq_some_iff.mp e1).1
  have hj : j < t.length := (List.getElem?_eq_some_iff.mp e2).1
  rw [hSinLdot]
  unfold sinLdotFc
  refine ref_apply e1 fun T' _ => ?_
  refine ref_apply (A := P) (by rw [List.getElem?_set_ne hkj, e2]) fun P1 _ => ?_
  refine ref_apply (A := P1) (by rw [List.getElem?_set_self (by simpa using hj)]) fun P2 _ => ?_
  rw [List.set_set]
  rw [readM_bind (A := T') _ (by rw [heap_new, List.getElem?_set_ne (Ne.symm hkj), List.getElem?_set_self hk]),
    readM_bind (A := P2) _ (by rw [heap_new, List.getElem?_set_self (by simpa using hj)])]
  simp only [alloc, List.append_assoc]
  exact ⟨_, rfl, _, _, rfl, by simp⟩

theorem lFc_ref {k : Nat} {F : Arr2 ℂ} (e : t[k]? = some (.mat F)) :
    Ref h (hLFc (h.length + k) (h ++ t)) (lFc F)
      (fun a L t' => ∃ X Y, t' = (t.set k X) ++ [Y, .mat L.1, .mat L.2] ∧
        a = (h.length + (t.length + 1), h.length + (t.length + 2))) := by
  have hk : k < t.length := (List.getElem?_eq_some_iff.mp e).1
  rw [hLFc, readM_bind (A := F) _ (by rw [heap_new, e]), alloc_bind]
  unfold lFc
  refine ref_apply (A := F) (by rw [List.getElem?_append_left hk, e]) fun A1 _ => ?_
  rw [List.set_append_left _ _ hk]
  refine ref_apply (A := A1) (by rw [List.getElem?_append_left (by simpa using hk), List.getElem?_set_self hk]) fun A2 _ => ?_
  rw [List.set_append_left _ _ (by simpa using hk), List.set_set]
  refine ref_apply (A := F) (by simp) fun B _ => ?_
  have e1 : (t.set k (.mat A2) ++ [Cell.mat F]).set t.length (.mat B) = t.set k (.mat A2) ++ [.mat B] := by
    rw [List.set_append_right _ _ (by simp)]; simp
  rw [e1, readM_bind (A := A2) _ (by rw [heap_new, List.getElem?_append_left (by simpa using hk), List.getElem?_set_self hk]),
    alloc_bind, readM_bind (A := B) _ (by rw [heap_new]; simp), alloc_bind]
  refine ref_pure ⟨.mat A2, .mat B, by simp, by simp⟩

theorem fcToSc_ref (b : Backend) (call : Nat) {k : Nat} {F : Arr2 ℂ} (n m : Int) (e : t[k]? = some (.mat F)) :
    Ref h (hFcToSc b call (h.length + k) n m (h ++ t)) (b.fcToSc call F n m)
      (fun a sc t' => t' = t ++ [.vec sc] ∧ a = h.length + t.length) := by
  rw [hFcToSc, readM_bind (A := F) _ (by rw [heap_new, e])]
  refine ref_eta (ref_lift fun sc _ => ?_)
  simp only [alloc, List.append_assoc, List.length_append]
  exact ⟨_, rfl, rfl, rfl⟩

theorem scToFc_ref (b : Backend) (call : Nat) {a : Nat} {l : List ℂ} (n m dn nc : Int) (e : (h ++ t)[a]? = some (.vec l)) :
    Ref h (hScToFc b call a n m dn nc (h ++ t)) (b.scToFc call l n m dn nc)
      (fun a F t' => t' = t ++ [.mat F] ∧ a = h.length + t.length) := by
  rw [hScToFc, readV_bind (l := l) _ e]
  refine ref_eta (ref_lift fun sc _ => ?_)
  simp only [alloc, List.append_assoc, List.length_append]
  exact ⟨_, rfl, rfl, rfl⟩

/-- `c.window(w)` on an array allocated since `h`. -/
theorem window_ref {k : Nat} {o : SRef} {c : ScalarCoefs ℂ} (w : List ℂ) (ho : o.buf = h.length + k)
    (e : t[k]? = some (.vec c.vec)) (hn : o.nmax = c.nmax) (hm : o.mmax = c.mmax) :
    Ref h (o.update (fun c => c.window w) (h ++ t)) (c.windowed w)
      (fun _ d t' => t' = t.set k (.vec d.vec) ∧ d.nmax = c.nmax ∧ d.mmax = c.mmax) := by
  rw [SRef.update, readS_bind _ (c := c) ⟨by rw [ho, heap_new, e], hn, hm⟩, ho, write_bind]
  unfold ScalarCoefs.windowed
  simp only
  have hl := window_lim c w
  cases he : (c.window w).err with
  | none => exact ⟨_, rfl, rfl, hl⟩
  | some x => exact ref_error x

/-! ### The transforms -/

theorem spht_ref (b : Backend) {o : PRef} {p : SPatt ℂ} (nmax mmax : Option Int) (hp : HasP h o p) :
    Ref h (hSpht b o nmax mmax (h ++ t)) (spht b p nmax mmax) (NewS h) := by
  rw [hSpht, readP_bind _ hp]
  unfold spht
  refine ref_lift fun nm _ => ref_lift fun u _ => ?_
  rcases p with ⟨ds⟩
  cases o with
  | exc =>
    cases ds with
    | arr A => exact hp.elim
    | exc => exact ref_error _
  | arr a =>
    cases ds with
    | exc => exact hp.elim
    | arr D =>
      simp only [SPatt.dsphere, Except.bind_ok]
      refine ref_bind (extF_ref hp) ?_
      rintro e E t' ⟨X, rfl, rfl⟩
      refine ref_apply (A := E) (by simp) fun F _ => ?_
      have e1 : (t ++ [X, Cell.mat E]).set (t.length + 1) (.mat F) = t ++ [X, .mat F] := by
        rw [List.set_append_right _ _ (by omega)]; simp
      rw [e1]
      refine ref_lift fun _ _ => ?_
      refine ref_bind (fcToSc_ref b 0 nm.1 nm.2 (by simp)) ?_
      rintro s sc t' ⟨rfl, rfl⟩
      exact initS_new (by simp)

theorem ispht_ref (b : Backend) {o : SRef} {c : ScalarCoefs ℂ} (nrows ncols : Option Int) (hc : HasS h o c) :
    Ref h (hIspht b o nrows ncols (h ++ t)) (ispht b c nrows ncols) (NewP h) := by
  obtain ⟨e, hn, hm⟩ := hc
  rw [hIspht, hn, hm]
  unfold ispht
  refine ref_lift fun _ _ => ?_
  refine ref_bind (scToFc_ref b 0 _ _ _ _ (heap_old h t e)) ?_
  rintro a F t' ⟨rfl, rfl⟩
  rw [readM_bind (A := F) _ (by rw [heap_new]; simp)]
  exact ref_lift fun D _ => newP_ref (.arr D)

theorem vspht_ref (b : Backend) {o : TRef} {p : TPatt ℂ} (nmax mmax : Option Int) (hp : HasT h o p) :
    Ref h (hVspht b o nmax mmax (h ++ [])) (vspht b p nmax mmax) (NewV h) := by
  rw [hVspht, readT_bind _ hp]
  unfold vspht
  refine ref_lift fun nm _ => ref_lift fun u _ => ?_
  refine ref_bind (extF_ref hp.1) ?_
  rintro fe ft t1 ⟨X1, rfl, rfl⟩
  unfold vspht.extFourier'
  by_cases hs : p.td.rows = p.pd.rows ∧ p.td.cols = p.pd.cols
  swap
  · rw [if_pos hs, if_neg hs]; exact ref_error _
  rw [if_neg (not_not_intro hs), if_pos hs]
  refine ref_bind (extF_ref hp.2) ?_
  rintro pe pt t2 ⟨X2, rfl, rfl⟩
  simp only [List.cons_append, List.nil_append, List.length_cons, List.length_nil]
  rw [readM_bind (A := ft) _ (by rw [heap_new]; simp), alloc_bind, readM_bind (A := pt) _ (by rw [heap_new]; simp), alloc_bind]
  simp only [List.cons_append, List.nil_append, List.length_cons, List.length_nil]
  refine ref_bind (sinLdot_ref (T := ft) (P := pt) (by omega) (by simp) (by simp)) ?_
  rintro l1a l1 t3 ⟨Y1, Y2, rfl, rfl⟩
  simp only [List.cons_append, List.nil_append, List.length_cons, List.length_nil, Nat.zero_add, Nat.reduceAdd,
    List.set_cons_succ, List.set_cons_zero]
  rw [readM_bind (A := pt) _ (by rw [heap_new]; simp), alloc_bind, readM_bind (A := ft) _ (by rw [heap_new]; simp), alloc_bind]
  simp only [List.cons_append, List.nil_append, List.length_cons, List.length_nil, Nat.zero_add, Nat.reduceAdd]
  refine ref_bind (sinLdot_ref (T := pt.map fun x => -Complex.I * x) (P := ft.map fun x => Complex.I * x) (by omega)
    (by simp) (by simp)) ?_
  rintro l2a l2 t4 ⟨Z1, Z2, rfl, rfl⟩
  simp only [List.cons_append, List.nil_append, List.length_cons, List.length_nil, Nat.zero_add, Nat.reduceAdd,
    List.set_cons_succ, List.set_cons_zero]
  refine ref_bind (fcToSc_ref b 0 nm.1 nm.2 (F := l1) (by simp)) ?_
  rintro a1 sc1 t5 ⟨rfl, rfl⟩
  simp only [List.cons_append, List.nil_append, List.length_cons, List.length_nil, Nat.zero_add, Nat.reduceAdd]
  refine ref_bind (fcToSc_ref b 1 nm.1 nm.2 (F := l2) (by simp)) ?_
  rintro a2 sc2 t6 ⟨rfl, rfl⟩
  simp only [List.cons_append, List.nil_append, List.length_cons, List.length_nil, Nat.zero_add, Nat.reduceAdd]
  refine ref_bind (initV_new (l1 := sc1) (l2 := sc2) (by omega) (by simp) (by simp)) ?_
  rintro vo vc t7 ⟨k, j, hkj, hb1, hb2, hk, hj, n1, m1, n2, m2, hn, hm⟩
  have hk' := (List.getElem?_eq_some_iff.mp hk).1
  have hj' := (List.getElem?_eq_some_iff.mp hj).1
  refine ref_lift fun w _ => ?_
  refine ref_bind (window_ref w hb1 hk n1 m1) ?_
  rintro _ s1 t8 ⟨rfl, ln1, lm1⟩
  refine ref_bind (window_ref (c := vc.scoef2) w hb2 (by rw [List.getElem?_set_ne hkj, hj]) n2 m2) ?_
  rintro _ s2 t9 ⟨rfl, ln2, lm2⟩
  refine ref_pure ⟨k, j, hkj, hb1, hb2, ?_, ?_, n1.trans ln1.symm, m1.trans lm1.symm, n2.trans ln2.symm, m2.trans lm2.symm,
    hn, hm⟩
  · rw [List.getElem?_set_ne (Ne.symm hkj), List.getElem?_set_self hk']
  · rw [List.getElem?_set_self (by simpa using hj')]

theorem vispht_ref (b : Backend) {o : VRef} {c : VectorCoefs ℂ} (nrows ncols : Option Int) (hc : HasV h o c) :
    Ref h (hVispht b o nrows ncols (h ++ [])) (vispht b c nrows ncols) (NewT h) := by
  obtain ⟨⟨e1, hn1, hm1⟩, ⟨e2, hn2, hm2⟩, hn, hm⟩ := hc
  rw [hVispht, hn, hm]
  unfold vispht
  refine ref_lift fun _ _ => ref_lift fun w _ => ?_
  rw [SRef.copy, hm_assoc, readV_bind _ (heap_old h [] e1), hm_assoc, alloc_bind, hn1, hm1]
  have ci : ∀ {t : List Cell} {k : Nat} {d : ScalarCoefs ℂ}, t[k]? = some (.vec d.vec) →
      Ref h (hInitS (h.length + k) d.nmax d.mmax (h ++ t)) d.copy (fun o e t' => t' = t ∧ e = d ∧ o = ⟨h.length + k, d.nmax, d.mmax⟩) := by
    intro t k d e
    rw [hInitS, readV_bind (l := d.vec) _ (by rw [heap_new, e])]
    unfold ScalarCoefs.copy
    refine ref_eta (ref_lift fun x hx => ?_)
    rw [scInit_ok hx]
    exact ref_pure ⟨rfl, rfl, rfl⟩
  refine ref_bind (ci (d := c.scoef1) (by simp)) ?_
  rintro o1 s1 t1 ⟨rfl, rfl, rfl⟩
  rw [SRef.copy, hm_assoc, readV_bind _ (heap_old h _ e2), hm_assoc, alloc_bind, hn2, hm2]
  refine ref_bind (ci (d := c.scoef2) (by simp)) ?_
  rintro o2 s2 t2 ⟨rfl, rfl, rfl⟩
  simp only [List.cons_append, List.nil_append, List.length_cons, List.length_nil, Nat.zero_add, Nat.reduceAdd]
  refine ref_bind (window_ref (c := c.scoef1) w rfl (by simp) rfl rfl) ?_
  rintro _ s1 t3 ⟨rfl, ln1, lm1⟩
  simp only [List.set_cons_zero]
  refine ref_bind (window_ref (c := c.scoef2) w rfl (by simp) rfl rfl) ?_
  rintro _ s2 t4 ⟨rfl, ln2, lm2⟩
  simp only [List.set_cons_succ, List.set_cons_zero]
  rw [← ln1, ← lm1, ← ln2, ← lm2]
  refine ref_bind (scToFc_ref b 0 (l := s1.vec) _ _ _ _ (by rw [heap_new]; simp)) ?_
  rintro a1 f1 t5 ⟨rfl, rfl⟩
  simp only [List.cons_append, List.nil_append, List.length_cons, List.length_nil, Nat.zero_add, Nat.reduceAdd]
  have fin : ∀ (f2 : Arr2 ℂ) (t6 : List Cell), t6 = [Cell.vec s1.vec, Cell.vec s2.vec, .mat f1, .mat f2] →
      Ref h ((hLFc (h.length + 2) >>= fun l1 => hLFc (h.length + 3) >>= fun l2 => readM l1.1 >>= fun A => readM l2.2 >>= fun B =>
        alloc (.mat (A.zip (fun a b => a - Complex.I * b) B)) >>= fun ft => readM l1.2 >>= fun C => readM l2.1 >>= fun D =>
        alloc (.mat (C.zip (fun a b => a + Complex.I * b) D)) >>= fun fp => readM ft >>= fun FT =>
        HM.lift (invFourier FT (2 * nrows.getD (c.nmax + 2) - 2) (ncols.getD (2 * c.mmax + 2))) >>= fun DT => readM fp >>= fun FP =>
        HM.lift (invFourier FP (2 * nrows.getD (c.nmax + 2) - 2) (ncols.getD (2 * c.mmax + 2))) >>= fun DP =>
        hNewT (.arr DT) (.arr DP)) (h ++ t6))
      ((lFc f1).bind fun l1 => (lFc f2).bind fun l2 =>
        (invFourier (l1.1.zip (fun a b => a - Complex.I * b) l2.2) (2 * nrows.getD (c.nmax + 2) - 2) (ncols.getD (2 * c.mmax + 2))).bind fun dt =>
        (invFourier (l1.2.zip (fun a b => a + Complex.I * b) l2.1) (2 * nrows.getD (c.nmax + 2) - 2) (ncols.getD (2 * c.mmax + 2))).bind fun dp =>
        TPatt.init (.arr dt) (.arr dp) true) (NewT h) := by
    rintro f2 _ rfl
    refine ref_bind (lFc_ref (F := f1) (by simp)) ?_
    rintro _ l1 t7 ⟨X1, Y1, rfl, rfl⟩
    simp only [List.cons_append, List.nil_append, List.length_cons, List.length_nil, Nat.zero_add, Nat.reduceAdd,
      List.set_cons_succ, List.set_cons_zero]
    refine ref_bind (lFc_ref (F := f2) (by simp)) ?_
    rintro _ l2 t8 ⟨X2, Y2, rfl, rfl⟩
    simp only [List.cons_append, List.nil_append, List.length_cons, List.length_nil, Nat.zero_add, Nat.reduceAdd,
      List.set_cons_succ, List.set_cons_zero]
    rw [readM_bind (A := l1.1) _ (by rw [heap_new]; simp), readM_bind (A := l2.2) _ (by rw [heap_new]; simp), alloc_bind]
    simp only [List.cons_append, List.nil_append, List.length_cons, List.length_nil, Nat.zero_add, Nat.reduceAdd]
    rw [readM_bind (A := l1.2) _ (by rw [heap_new]; simp), readM_bind (A := l2.1) _ (by rw [heap_new]; simp), alloc_bind]
    simp only [List.cons_append, List.nil_append, List.length_cons, List.length_nil, Nat.zero_add, Nat.reduceAdd]
    rw [readM_bind (A := l1.1.zip (fun a b => a - Complex.I * b) l2.2) _ (by rw [heap_new]; simp)]
    refine ref_lift fun DT _ => ?_
    rw [readM_bind (A := l1.2.zip (fun a b => a + Complex.I * b) l2.1) _ (by rw [heap_new]; simp)]
    exact ref_lift fun DP _ => newT_ref _ _
  cases b with
  | py =>
    refine ref_bind (scToFc_ref .py 1 (l := s2.vec) _ _ _ _ (by rw [heap_new]; simp)) ?_
    rintro a2 f2 t6 ⟨rfl, rfl⟩
    exact fin f2 _ rfl
  | c J =>
    refine ref_bind (scToFc_ref (.c J) 1 (l := s2.vec) _ _ _ _ (by rw [heap_new]; simp)) ?_
    rintro a2 f2 t6 ⟨rfl, rfl⟩
    exact fin f2 _ rfl

end
end Verif
