import Verif.Props.Threads
import Verif.Props.Alias
import Verif.Props.Transforms4
import Verif.Props.Vector3
import Verif.Props.CInt2
/-!
# C123: the backend can be switched at any time

`use_cext` is a global that can be set at any time.  For programs whose literal arguments are sensible (`Plain`, a condition on the text
of the program only) every object stays well-formed, and what is computed does not depend on which backend each call finds.
-/
namespace Verif.Props
open Verif Verif.SpecHeap Verif.Thr

/-- Sensible literal arguments: order limits and slice ends are not negative, patterns have at least two rows and columns, sizes
stay below `2^28` rows (beyond, the integers of the C code overflow), and writing into a pattern does not change its shape. -/
def Plain : Stmt → Prop
  | .mk (.coefs _ n m) => 0 ≤ m ∧ n < 2 ^ 28
  | .mk (.vcoefs _ _ n m) => 0 ≤ m ∧ n < 2 ^ 28
  | .mk (.patt A) => 2 ≤ A.rows ∧ A.rows ≤ 2 ^ 28 ∧ 2 ≤ A.cols
  | .mk (.tpatt T _) => 2 ≤ T.rows ∧ T.rows ≤ 2 ^ 28 ∧ 2 ≤ T.cols
  | .mk (.trunc _ k) => 0 ≤ k
  | .mk (.spht _ n m) => match n, m with
    | none, _ => True
    | some n, none => 0 ≤ n
    | some _, some m => 0 ≤ m
  | .mk (.ispht _ r _) => ∀ k, r = some k → 2 ≤ k ∧ k ≤ 2 ^ 28
  | .mk _ => True
  | .chg _ (.poke f) => ∀ A, (f A).rows = A.rows ∧ (f A).cols = A.cols
  | .chg _ (.pokeT _ f) => ∀ A, (f A).rows = A.rows ∧ (f A).cols = A.cols
  | .chg _ _ => True

/-- A doubled array as patterns hold it. -/
def GoodArr (D : Arr2 ℂ) : Prop := D.rows % 2 = 0 ∧ 0 < D.rows ∧ D.rows ≤ 2 ^ 29 ∧ 2 ≤ D.cols

/-- A healthy object. -/
def Good : OVal → Prop
  | .sc c => c.WellFormed ∧ c.nmax < 2 ^ 28
  | .vc c => c.WellFormed ∧ c.nmax < 2 ^ 28
  | .sp ⟨.arr D⟩ => GoodArr D
  | .sp ⟨.exc⟩ => True
  | .tp p => GoodArr p.td ∧ p.pd.rows = p.td.rows ∧ p.pd.cols = p.td.cols

theorem init_good {b : Buf ℂ} {n m : ℤ} (h0 : 0 ≤ m) {c : ScalarCoefs ℂ} (h : ScalarCoefs.init b n m = .ok c) :
    c.WellFormed ∧ c.nmax = n ∧ c.mmax = m := by
  unfold ScalarCoefs.init at h
  split at h
  · cases h
  · rename_i hmn
    cases b with
    | exc => cases h
    | arr l =>
      simp only at h
      split at h
      · cases h
      · rename_i hl
        cases h
        exact ⟨ScalarCoefs.wf_iff.mp ⟨h0, by simpa using hmn, by simpa using Eq.symm (not_not.mp hl)⟩, rfl, rfl⟩

theorem vinit_good {b1 b2 : Buf ℂ} {n m : ℤ} (h0 : 0 ≤ m) {c : VectorCoefs ℂ} (h : VectorCoefs.init b1 b2 n m = .ok c) :
    c.WellFormed ∧ c.nmax = n ∧ c.mmax = m := by
  unfold VectorCoefs.init at h
  split at h
  · split at h
    · cases h
    split at h
    · cases h
    split at h
    · cases h
    obtain ⟨l1, -, h⟩ := (res_bind_ok _ _ _).mp h
    obtain ⟨l2, -, h⟩ := (res_bind_ok _ _ _).mp h
    obtain ⟨s1, e1, h⟩ := (res_bind_ok _ _ _).mp h
    obtain ⟨s2, e2, h⟩ := (res_bind_ok _ _ _).mp h
    cases h
    obtain ⟨a1, a2, a3⟩ := init_good h0 e1
    obtain ⟨b1, b2, b3⟩ := init_good h0 e2
    exact ⟨⟨a1, b1, a2, b2, a3, b3⟩, rfl, rfl⟩
  · cases h

theorem asVal_ok {α : Type} {f : α → OVal} {x : Res α} {v : OVal} (h : asVal f x = .ok v) : ∃ a, x = .ok a ∧ v = f a := by
  obtain ⟨a, e, h⟩ := (res_bind_ok _ _ _).mp h
  cases h
  exact ⟨a, e, rfl⟩

theorem sc_of_init {b : Buf ℂ} {n m : ℤ} (h0 : 0 ≤ m) (hn : n < 2 ^ 28) {v : OVal}
    (h : asVal .sc (ScalarCoefs.init b n m) = .ok v) : Good v := by
  obtain ⟨a, e, rfl⟩ := asVal_ok h
  obtain ⟨h1, h2, -⟩ := init_good h0 e
  exact ⟨h1, by omega⟩

theorem vc_of_init {b1 b2 : Buf ℂ} {n m : ℤ} (h0 : 0 ≤ m) (hn : n < 2 ^ 28) {v : OVal}
    (h : asVal .vc (VectorCoefs.init b1 b2 n m) = .ok v) : Good v := by
  obtain ⟨a, e, rfl⟩ := asVal_ok h
  obtain ⟨h1, h2, -⟩ := vinit_good h0 e
  exact ⟨h1, by omega⟩

theorem vc_mmax {c : VectorCoefs ℂ} (h : c.WellFormed) : 0 ≤ c.mmax := by
  have := h.wf1.mmax_nonneg
  have := h.m1
  omega

theorem continue_good {A D : Arr2 ℂ} {s : ℂ} (h : continueSphere A s = .ok D) (h1 : 2 ≤ A.rows) (h2 : A.rows ≤ 2 ^ 28)
    (h3 : 2 ≤ A.cols) : GoodArr D ∧ D.rows = 2 * A.rows - 2 ∧ D.cols = A.cols := by
  unfold continueSphere at h
  obtain ⟨z, e, h⟩ := (res_bind_ok _ _ _).mp h
  have hr : D.rows = 2 * A.rows - 2 := by
    cases h
    unfold npFull2 at e
    split at e
    · cases e
    cases e
    have q : (doubleSphere (vcat A (Arr2.ofFn (((A.rows : ℤ) - 2).toNat) ((A.cols : ℤ).toNat) fun _ _ => (0 : ℂ))) s).rows =
      A.rows + ((A.rows : ℤ) - 2).toNat := rfl
    rw [q]
    omega
  have hc : D.cols = A.cols := by
    cases h
    rfl
  unfold GoodArr
  rw [hr, hc]
  norm_num at h2 ⊢
  omega

theorem spht_named (b : Backend) (p : SPatt ℂ) (nmax mmax : Option ℤ) {n m : ℤ} (h : sphtArgs p.nrows p.ncols nmax mmax = .ok (n, m)) :
    spht b p nmax mmax = spht b p (some n) (some m) := by
  unfold spht
  rw [h]
  rfl

theorem vspht_named (b : Backend) (p : TPatt ℂ) (nmax mmax : Option ℤ) {n m : ℤ}
    (h : sphtArgs (.ok p.nrows) (.ok p.ncols) nmax mmax = .ok (n, m)) : vspht b p nmax mmax = vspht b p (some n) (some m) := by
  unfold vspht
  rw [h]
  rfl

theorem spht_plain {i : ℕ} {n m : Option ℤ} (h : Plain (.mk (.spht i n m))) {R C : ℕ} (hC : 2 ≤ C) :
    ∃ n' m' : ℤ, sphtArgs (.ok R) (.ok C) n m = .ok (n', m') ∧ 0 ≤ m' := by
  rcases n with _ | n <;> rcases m with _ | m
  · exact ⟨_, _, rfl, by omega⟩
  · exact ⟨_, _, rfl, by omega⟩
  · exact ⟨_, _, rfl, h⟩
  · exact ⟨_, _, rfl, h⟩

/-- A scalar analysis in a plain program. -/
theorem spht_step {i : ℕ} {n m : Option ℤ} (h : Plain (.mk (.spht i n m))) {D : Arr2 ℂ} (g : GoodArr D) (b : Backend) :
    spht b ⟨.arr D⟩ n m = spht .py ⟨.arr D⟩ n m ∧ ∀ c, spht b ⟨.arr D⟩ n m = .ok c → Good (.sc c) := by
  obtain ⟨n', m', ha, h0⟩ := spht_plain h (R := D.rows / 2 + 1) g.2.2.2
  have ha' : sphtArgs (SPatt.nrows (⟨.arr D⟩ : SPatt ℂ)) (SPatt.ncols (⟨.arr D⟩ : SPatt ℂ)) n m = .ok (n', m') := ha
  rw [spht_named b _ n m ha', spht_named .py _ n m ha']
  constructor
  · cases b with
    | py => rfl
    | c J => exact c28_spht J D g.1 g.2.1 g.2.2.1 n' m' h0
  · intro c hc
    unfold spht at hc
    simp only [sphtArgs, Except.bind_ok] at hc
    obtain ⟨u, hg, hc⟩ := (res_bind_ok _ _ _).mp hc
    obtain ⟨a1, a2, a3, a4⟩ := XI.guards_inv (R := D.rows / 2 + 1) (C := D.cols) hg
    obtain ⟨_, _, hc⟩ := (res_bind_ok _ _ _).mp hc
    obtain ⟨_, _, hc⟩ := (res_bind_ok _ _ _).mp hc
    obtain ⟨_, _, hc⟩ := (res_bind_ok _ _ _).mp hc
    obtain ⟨_, _, hc⟩ := (res_bind_ok _ _ _).mp hc
    obtain ⟨_, _, hc⟩ := (res_bind_ok _ _ _).mp hc
    obtain ⟨h1, h2, -⟩ := init_good h0 hc
    refine ⟨h1, ?_⟩
    have := g.2.2.1
    norm_num at this ⊢
    omega

/-- A vector analysis in a plain program. -/
theorem vspht_step {i : ℕ} {n m : Option ℤ} (h : Plain (.mk (.spht i n m))) {p : TPatt ℂ} (g : Good (.tp p)) (b : Backend) :
    vspht b p n m = vspht .py p n m ∧ ∀ c, vspht b p n m = .ok c → Good (.vc c) := by
  obtain ⟨T, P⟩ := p
  obtain ⟨g, gr, gc⟩ := g
  obtain ⟨n', m', ha, h0⟩ := spht_plain h (R := T.rows / 2 + 1) g.2.2.2
  have ha' : sphtArgs (.ok (TPatt.nrows (⟨T, P⟩ : TPatt ℂ))) (.ok (TPatt.ncols (⟨T, P⟩ : TPatt ℂ))) n m = .ok (n', m') := ha
  rw [vspht_named b _ n m ha', vspht_named .py _ n m ha']
  have E : ∀ b, vspht b ⟨T, P⟩ (some n') (some m') = vspht .py ⟨T, P⟩ (some n') (some m') := by
    intro b
    cases b with
    | py => rfl
    | c J => exact c28_vspht J T P gr gc g.1 g.2.1 g.2.2.1 n' m' h0
  refine ⟨E b, ?_⟩
  intro c hc
  have hc0 := hc
  unfold vspht at hc
  simp only [sphtArgs, Except.bind_ok] at hc
  obtain ⟨u, hg, -⟩ := (res_bind_ok _ _ _).mp hc
  obtain ⟨a1, a2, a3, a4⟩ := XI.guards_inv (R := T.rows / 2 + 1) (C := T.cols) hg
  obtain ⟨n'', rfl⟩ := Int.eq_ofNat_of_zero_le (show 0 ≤ n' by omega)
  obtain ⟨m'', rfl⟩ := Int.eq_ofNat_of_zero_le h0
  have hsz := g.2.2.1
  obtain ⟨d, e, d1, d2, dw, -⟩ := vspht_main b T P g.1 g.2.1 (by omega) gr gc (some (n'' : ℤ)) (some (m'' : ℤ)) n'' m'' rfl (by omega) (by omega)
    (by omega) (by unfold Backend.SizeOK; cases b <;> simp only
                   norm_num at hsz ⊢; omega)
  rw [hc0] at e
  cases e
  refine ⟨dw, ?_⟩
  norm_num at hsz ⊢
  omega

/-- A scalar synthesis in a plain program. -/
theorem ispht_step {i : ℕ} {r k : Option ℤ} (h : Plain (.mk (.ispht i r k))) {c : ScalarCoefs ℂ} (g : Good (.sc c)) (b : Backend) :
    ispht b c r k = ispht .py c r k ∧ ∀ p, ispht b c r k = .ok p → Good (.sp p) := by
  obtain ⟨hc, hn⟩ := g
  have hw := hc.wf
  have hm0 := hw.m0
  have hmn := hw.mn
  have named : ∀ b, ispht b c r k = ispht b c (some (r.getD (c.nmax + 2))) (some (k.getD (2 * c.mmax + 2))) := fun b => rfl
  rw [named b, named .py]
  have hr : 2 ≤ r.getD (c.nmax + 2) ∧ r.getD (c.nmax + 2) ≤ 2 ^ 28 + 1 := by
    cases r with
    | none => simp only [Option.getD_none]; norm_num at hn ⊢; omega
    | some r => obtain ⟨h1, h2⟩ := h r rfl; simp only [Option.getD_some]; norm_num at h2 ⊢; omega
  generalize r.getD (c.nmax + 2) = nr at hr
  generalize k.getD (2 * c.mmax + 2) = nc
  constructor
  · cases b with
    | py => rfl
    | c J => exact c28_ispht J c hc nr nc (by omega)
  intro p hp
  by_cases hg : nc % 2 = 1 ∨ nr < c.nmax + 1 ∨ nc < 2 * c.mmax + 2
  · obtain ⟨msg, e⟩ := c36_rejects b c nr nc hg
    rw [e] at hp; cases hp
  obtain ⟨n, en⟩ := Int.eq_ofNat_of_zero_le (show 0 ≤ c.nmax by omega)
  obtain ⟨m, em⟩ := Int.eq_ofNat_of_zero_le hm0
  obtain ⟨r', rfl⟩ := Int.eq_ofNat_of_zero_le (show 0 ≤ nr by omega)
  obtain ⟨k', rfl⟩ := Int.eq_ofNat_of_zero_le (show 0 ≤ nc by omega)
  have hlen : c.vec.length = seg (n + 1) (2 * m + 1) := by
    have := hw.len
    have e := ncFormula_eq (nmax := n) (mmax := m) (by omega) (by omega)
    rw [en, em, e, show ((n : ℤ) + 1).toNat = n + 1 by omega, Int.toNat_natCast] at this
    exact_mod_cast this
  obtain ⟨A, eA, hA⟩ := scToFc_backend b 0 c.vec n m (2 * r' - 2) k' (by omega) (by omega) (by omega) hlen
  obtain ⟨D, eD, dr, dc, -⟩ := invFourier_spec A (2 * r' - 2) k' hA.rows hA.cols (by omega) (by omega)
  unfold ispht at hp
  simp only [Option.getD_some] at hp
  rw [isphtGuards_ok _ _ _ _ (by omega) (by omega) (by omega)] at hp
  simp only [Except.bind_ok] at hp
  rw [en, em, show 2 * (r' : ℤ) - 2 = ((2 * r' - 2 : ℕ) : ℤ) by omega, eA] at hp
  simp only [Except.bind_ok] at hp
  rw [eD] at hp
  cases hp
  have := hr.2
  refine ⟨by omega, by omega, ?_, by omega⟩
  norm_num at this ⊢
  omega

/-- A vector synthesis in a plain program. -/
theorem vispht_step {i : ℕ} {r k : Option ℤ} (h : Plain (.mk (.ispht i r k))) {c : VectorCoefs ℂ} (g : Good (.vc c)) (b : Backend) :
    vispht b c r k = vispht .py c r k ∧ ∀ p, vispht b c r k = .ok p → Good (.tp p) := by
  obtain ⟨hc, hn⟩ := g
  have hm0 := vc_mmax hc
  have named : ∀ b, vispht b c r k = vispht b c (some (r.getD (c.nmax + 2))) (some (k.getD (2 * c.mmax + 2))) := fun b => rfl
  rw [named b, named .py]
  have hmn : c.mmax ≤ c.nmax := by
    have h1 := hc.wf1.mmax_le
    have h2 := hc.n1
    have h3 := hc.m1
    omega
  have hr : r.getD (c.nmax + 2) ≤ 2 ^ 28 + 1 := by
    cases r with
    | none => simp only [Option.getD_none]; norm_num at hn ⊢; omega
    | some r => obtain ⟨h1, h2⟩ := h r rfl; simp only [Option.getD_some]; norm_num at h2 ⊢; omega
  generalize r.getD (c.nmax + 2) = nr at hr
  generalize k.getD (2 * c.mmax + 2) = nc
  constructor
  · cases b with
    | py => rfl
    | c J => exact c28_vispht J c hc nr nc
  intro p hp
  by_cases hg : nr < c.nmax + 2 ∨ nc < 2 * c.mmax + 2 ∨ nc % 2 = 1
  · exfalso
    unfold vispht at hp
    simp only [Option.getD_some] at hp
    obtain ⟨u, e, -⟩ := (res_bind_ok _ _ _).mp hp
    unfold visphtGuards at e
    split at e
    · cases e
    split at e
    · cases e
    split at e
    · cases e
    omega
  obtain ⟨q, e, t1, t2, p1, p2, -⟩ := c37_vispht b c hc nr nc (by omega) (by omega) (by omega)
  rw [hp] at e
  cases e
  refine ⟨⟨by omega, by omega, ?_, by omega⟩, by omega, by omega⟩
  norm_num at hr ⊢
  omega

theorem keep_sc {c d : ScalarCoefs ℂ} (h : Keeps c d) (g : Good (.sc c)) : Good (.sc d) :=
  ⟨ScalarCoefs.wf_iff.mp h.1, by have := g.2; have := h.2.1; omega⟩

theorem keep_vc {c : VectorCoefs ℂ} {d1 d2 : ScalarCoefs ℂ} (h1 : Keeps c.scoef1 d1) (h2 : Keeps c.scoef2 d2) (g : Good (.vc c)) :
    Good (.vc { c with scoef1 := d1, scoef2 := d2 }) :=
  ⟨⟨ScalarCoefs.wf_iff.mp h1.1, ScalarCoefs.wf_iff.mp h2.1, h1.2.1.trans g.1.n1, h2.2.1.trans g.1.n2, h1.2.2.trans g.1.m1,
    h2.2.2.trans g.1.m2⟩, g.2⟩

theorem keeps_self {c : ScalarCoefs ℂ} (h : c.WellFormed) : Keeps c c := ⟨h.wf, rfl, rfl⟩

theorem vsetNM_good {c : VectorCoefs ℂ} (g : Good (.vc c)) (n m : ℤ) (a b : Val ℂ) : Good (.vc (c.setNM n m a b).st) := by
  unfold VectorCoefs.setNM
  split
  · exact g
  · simp only
    split
    · exact keep_vc (keeps_setNM (keeps_self g.1.wf1) _ _ _) (keeps_self g.1.wf2) g
    · exact keep_vc (keeps_setNM (keeps_self g.1.wf1) _ _ _) (keeps_setNM (keeps_self g.1.wf2) _ _ _) g

theorem vsetitem_good {c : VectorCoefs ℂ} (g : Good (.vc c)) (arg : List Arg) (v : VectorCoefs.ValV ℂ) :
    Good (.vc (c.setitem arg v).st) := by
  unfold VectorCoefs.setitem
  split
  · split
    · split
      · exact g
      · split <;> exact g
      · exact vsetNM_good g _ _ _ _
      · exact g
    · exact g
  · exact g

theorem goodArr_shape {A D : Arr2 ℂ} (g : GoodArr A) (h : D.rows = A.rows ∧ D.cols = A.cols) : GoodArr D := by
  unfold GoodArr
  rw [h.1, h.2]
  exact g

/-- Changing statements keep objects healthy. -/
theorem mut_good {i : ℕ} {m : SpecHeap.Mut} (h : Plain (.chg i m)) {v : OVal} (g : Good v) : Good (mutVal m v).st := by
  unfold mutVal
  split
  · exact keep_sc (keeps_setitem (keeps_self g.1) _ _) g
  · exact vsetitem_good g _ _
  · exact keep_sc (keeps_window (keeps_self g.1) _) g
  · exact keep_vc (keeps_setitem (keeps_self g.1.wf1) _ _) (keeps_self g.1.wf2) g
  · exact keep_vc (keeps_self g.1.wf1) (keeps_setitem (keeps_self g.1.wf2) _ _) g
  · exact keep_vc (keeps_window (keeps_self g.1.wf1) _) (keeps_self g.1.wf2) g
  · exact keep_vc (keeps_self g.1.wf1) (keeps_window (keeps_self g.1.wf2) _) g
  · exact goodArr_shape (A := _) g (h _)
  · rename_i f p
    exact ⟨goodArr_shape g.1 (h _), g.2.1.trans (h _).1.symm, g.2.2.trans (h _).2.symm⟩
  · rename_i f p
    exact ⟨g.1, (h _).1.trans g.2.1, (h _).2.trans g.2.2⟩
  · exact g

theorem good_get {env : List OVal} (g : ∀ v ∈ env, Good v) {i : ℕ} {v : OVal} (h : env[i]? = some v) : Good v :=
  g v (List.mem_of_getElem? h)

theorem tinit_good {T P : Arr2 ℂ} {p : TPatt ℂ} (g : GoodArr T) (h : TPatt.init (.arr T) (.arr P) true = .ok p) : Good (.tp p) := by
  unfold TPatt.init at h
  simp only at h
  split at h
  · cases h
  · rename_i hs
    cases h
    rw [not_not] at hs
    exact ⟨g, hs.1.symm, hs.2.symm⟩

/-- Creating statements do not depend on the backend and make healthy objects. -/
theorem mk_good {m : Mk} (h : Plain (.mk m)) {env : List OVal} (g : ∀ v ∈ env, Good v) (b : Backend) :
    mkVal b env m = mkVal .py env m ∧ ∀ v, mkVal b env m = .ok v → Good v := by
  cases m with
  | coefs f n m =>
    refine ⟨rfl, fun v hv => ?_⟩
    obtain ⟨c, e, rfl⟩ := asVal_ok hv
    unfold genCoefs at e
    split at e
    · cases e
    split at e
    · cases e
    obtain ⟨h1, h2, -⟩ := init_good h.1 e
    exact ⟨h1, by have := h.2; omega⟩
  | vcoefs f f' n m =>
    refine ⟨rfl, fun v hv => ?_⟩
    obtain ⟨c, e, rfl⟩ := asVal_ok hv
    unfold genVCoefs at e
    split at e
    · cases e
    split at e
    · cases e
    obtain ⟨h1, h2, -⟩ := vinit_good h.1 e
    exact ⟨h1, by have := h.2; omega⟩
  | patt A =>
    refine ⟨rfl, fun v hv => ?_⟩
    obtain ⟨p, e, rfl⟩ := asVal_ok hv
    unfold SPatt.init at e
    simp only at e
    obtain ⟨D, eD, e⟩ := (res_bind_ok _ _ _).mp e
    cases e
    exact (continue_good eD h.1 h.2.1 h.2.2).1
  | tpatt T P =>
    refine ⟨rfl, fun v hv => ?_⟩
    obtain ⟨p, e, rfl⟩ := asVal_ok hv
    unfold TPatt.init at e
    simp only at e
    split at e
    · cases e
    rename_i hs
    rw [not_not] at hs
    obtain ⟨t, et, e⟩ := (res_bind_ok _ _ _).mp e
    obtain ⟨q, eq, e⟩ := (res_bind_ok _ _ _).mp e
    cases e
    obtain ⟨g1, r1, c1⟩ := continue_good et h.1 h.2.1 h.2.2
    obtain ⟨h1, h2, h3⟩ := h
    obtain ⟨-, r2, c2⟩ := continue_good eq (by omega) (by omega) (by omega)
    refine ⟨g1, ?_, ?_⟩
    · show q.rows = t.rows
      omega
    · show q.cols = t.cols
      omega
  | copy i =>
    refine ⟨rfl, fun v hv => ?_⟩
    simp only [mkVal] at hv
    split at hv
    · rename_i c hc
      have gc := good_get g hc
      exact sc_of_init gc.1.mmax_nonneg gc.2 hv
    · rename_i c hc
      have gc := good_get g hc
      exact vc_of_init (vc_mmax gc.1) gc.2 hv
    · cases hv
  | opObj op i j =>
    refine ⟨rfl, fun v hv => ?_⟩
    simp only [mkVal] at hv
    split at hv
    · rename_i c d hc hd
      have gc := good_get g hc
      simp only [ScalarCoefs.opLeft] at hv
      split at hv
      · exact sc_of_init gc.1.mmax_nonneg gc.2 hv
      · cases hv
    · rename_i c d hc hd
      have gc := good_get g hc
      obtain ⟨w, e, rfl⟩ := asVal_ok hv
      simp only [VectorCoefs.opLeft] at e
      obtain ⟨_, _, e⟩ := (res_bind_ok _ _ _).mp e
      obtain ⟨_, _, e⟩ := (res_bind_ok _ _ _).mp e
      obtain ⟨h1, h2, -⟩ := vinit_good (vc_mmax gc.1) e
      exact ⟨h1, by have := gc.2; omega⟩
    · rename_i c d hc hd
      have gc := good_get g hc
      obtain ⟨w, e, rfl⟩ := asVal_ok hv
      obtain ⟨c⟩ := c
      obtain ⟨d⟩ := d
      simp only [SPatt.opLeft] at e
      obtain ⟨A, eA, e1⟩ := (res_bind_ok _ _ _).mp e
      obtain ⟨B, eB, e2⟩ := (res_bind_ok _ _ _).mp e1
      clear e e1
      cases c with
      | exc => cases eA
      | arr A' =>
        cases eA
        split at e2
        · cases e2
          exact goodArr_shape gc ⟨rfl, rfl⟩
        · cases e2
    · rename_i c d hc hd
      have gc := good_get g hc
      obtain ⟨w, e, rfl⟩ := asVal_ok hv
      simp only [TPatt.opLeft] at e
      split at e
      · refine tinit_good ?_ e
        exact goodArr_shape gc.1 ⟨rfl, rfl⟩
      · cases e
    · cases hv
  | opNum op i x =>
    refine ⟨rfl, fun v hv => ?_⟩
    simp only [mkVal] at hv
    split at hv
    · rename_i c hc
      have gc := good_get g hc
      exact sc_of_init gc.1.mmax_nonneg gc.2 hv
    · rename_i c hc
      have gc := good_get g hc
      exact vc_of_init (vc_mmax gc.1) gc.2 hv
    · rename_i c hc
      have gc := good_get g hc
      obtain ⟨w, e, rfl⟩ := asVal_ok hv
      obtain ⟨c⟩ := c
      simp only [SPatt.opLeft] at e
      obtain ⟨A, eA, e⟩ := (res_bind_ok _ _ _).mp e
      cases c with
      | exc => cases eA
      | arr A' =>
        cases eA
        cases e
        unfold pOpNum
        split
        · trivial
        · exact goodArr_shape gc ⟨rfl, rfl⟩
    · rename_i c hc
      have gc := good_get g hc
      obtain ⟨w, e, rfl⟩ := asVal_ok hv
      simp only [TPatt.opLeft] at e
      unfold pOpNum at e
      split at e
      · cases e
      · refine tinit_good ?_ e
        exact goodArr_shape gc.1 ⟨rfl, rfl⟩
    · cases hv
  | numOp op i x =>
    refine ⟨rfl, fun v hv => ?_⟩
    simp only [mkVal] at hv
    split at hv
    · rename_i c hc
      have gc := good_get g hc
      simp only [ScalarCoefs.opRight] at hv
      exact sc_of_init gc.1.mmax_nonneg gc.2 hv
    · rename_i c hc
      have gc := good_get g hc
      simp only [VectorCoefs.opRight] at hv
      exact vc_of_init (vc_mmax gc.1) gc.2 hv
    · rename_i c hc
      have gc := good_get g hc
      obtain ⟨w, e, rfl⟩ := asVal_ok hv
      obtain ⟨c⟩ := c
      simp only [SPatt.opRight] at e
      obtain ⟨A, eA, e⟩ := (res_bind_ok _ _ _).mp e
      cases c with
      | exc => cases eA
      | arr A' =>
        cases eA
        cases e
        exact goodArr_shape gc ⟨rfl, rfl⟩
    · rename_i c hc
      have gc := good_get g hc
      obtain ⟨w, e, rfl⟩ := asVal_ok hv
      simp only [TPatt.opRight] at e
      refine tinit_good ?_ e
      exact goodArr_shape gc.1 ⟨rfl, rfl⟩
    · cases hv
  | trunc i k =>
    have h : 0 ≤ k := h
    refine ⟨rfl, fun v hv => ?_⟩
    simp only [mkVal] at hv
    split at hv
    · rename_i c hc
      have gc := good_get g hc
      obtain ⟨w, e, rfl⟩ := asVal_ok hv
      unfold ScalarCoefs.trunc at e
      split at e
      · cases e
      obtain ⟨_, _, e⟩ := (res_bind_ok _ _ _).mp e
      obtain ⟨_, _, e⟩ := (res_bind_ok _ _ _).mp e
      obtain ⟨_, _, e⟩ := (res_bind_ok _ _ _).mp e
      obtain ⟨h1, h2, -⟩ := init_good (by have := gc.1.mmax_nonneg; split <;> omega) e
      exact ⟨h1, by have := gc.2; omega⟩
    · rename_i c hc
      have gc := good_get g hc
      obtain ⟨w, e, rfl⟩ := asVal_ok hv
      unfold VectorCoefs.trunc at e
      split at e
      · cases e
      obtain ⟨_, _, e⟩ := (res_bind_ok _ _ _).mp e
      obtain ⟨_, _, e⟩ := (res_bind_ok _ _ _).mp e
      obtain ⟨h1, h2, -⟩ := vinit_good (by have := vc_mmax gc.1; split <;> omega) e
      exact ⟨h1, by have := gc.2; omega⟩
    · cases hv
  | spht i n m =>
    simp only [mkVal]
    split
    · rename_i p hp
      have gc := good_get g hp
      obtain ⟨p⟩ := p
      cases p with
      | exc =>
        have E : ∀ b, ∃ e, spht b ⟨.exc⟩ n m = .error e ∧ spht .py ⟨.exc⟩ n m = .error e := by
          intro b
          have er : SPatt.nrows (⟨.exc⟩ : SPatt ℂ) = .error ⟨.attributeError, "no attribute 'shape'"⟩ := rfl
          unfold spht
          rw [er]
          rcases n with _ | n
          · exact ⟨_, rfl, rfl⟩
          rcases m with _ | m
          · simp only [sphtArgs, Except.bind_ok, sphtGuards]
            rw [if_neg (by omega)]
            exact ⟨_, rfl, rfl⟩
          · simp only [sphtArgs, Except.bind_ok, sphtGuards]
            split
            · exact ⟨_, rfl, rfl⟩
            · exact ⟨_, rfl, rfl⟩
        obtain ⟨e, e1, e2⟩ := E b
        rw [e1, e2]
        exact ⟨rfl, fun v hv => by cases hv⟩
      | arr D =>
        obtain ⟨h1, h2⟩ := spht_step h (D := D) gc b
        rw [← h1]
        refine ⟨rfl, fun v hv => ?_⟩
        obtain ⟨c, e, rfl⟩ := asVal_ok hv
        exact h2 c e
    · rename_i p hp
      have gc := good_get g hp
      obtain ⟨h1, h2⟩ := vspht_step h gc b
      rw [← h1]
      refine ⟨rfl, fun v hv => ?_⟩
      obtain ⟨c, e, rfl⟩ := asVal_ok hv
      exact h2 c e
    · exact ⟨rfl, fun v hv => by cases hv⟩
  | ispht i r k =>
    simp only [mkVal]
    split
    · rename_i p hp
      obtain ⟨h1, h2⟩ := ispht_step h (good_get g hp) b
      rw [← h1]
      refine ⟨rfl, fun v hv => ?_⟩
      obtain ⟨c, e, rfl⟩ := asVal_ok hv
      exact h2 c e
    · rename_i p hp
      obtain ⟨h1, h2⟩ := vispht_step h (good_get g hp) b
      rw [← h1]
      refine ⟨rfl, fun v hv => ?_⟩
      obtain ⟨c, e, rfl⟩ := asVal_ok hv
      exact h2 c e
    · exact ⟨rfl, fun v hv => by cases hv⟩

theorem step_good {st : Stmt} (h : Plain st) {s : VSt} (g : ∀ v ∈ s.env, Good v) (b : Backend) :
    stepVal b s st = stepVal .py s st ∧ ∀ v ∈ (stepVal b s st).env, Good v := by
  cases st with
  | mk m =>
    obtain ⟨h1, h2⟩ := mk_good h g b
    simp only [stepVal]
    rw [← h1]
    refine ⟨rfl, ?_⟩
    cases e : mkVal b s.env m with
    | error e => exact g
    | ok v =>
      intro w hw
      rcases List.mem_append.mp hw with hw | hw
      · exact g w hw
      · rw [List.mem_singleton.mp hw]
        exact h2 v e
  | chg i m =>
    refine ⟨rfl, ?_⟩
    simp only [stepVal]
    cases e : s.env[i]? with
    | none => exact g
    | some v =>
      intro w hw
      rcases List.mem_or_eq_of_mem_set hw with hw | rfl
      · exact g w hw
      · exact mut_good h (good_get g e)

theorem fold_good {prog : List Stmt} (h : ∀ st ∈ prog, Plain st) {s : VSt} (g : ∀ v ∈ s.env, Good v) (b : Nat → Backend) :
    prog.foldl (fun s => stepVal (b s.log.length) s) s = prog.foldl (stepVal .py) s ∧
      ∀ v ∈ (prog.foldl (stepVal .py) s).env, Good v := by
  induction prog generalizing s with
  | nil => exact ⟨rfl, g⟩
  | cons st prog ih =>
    obtain ⟨h1, h2⟩ := step_good (h st (by simp)) g (b s.log.length)
    rw [List.foldl_cons, List.foldl_cons, ← h1]
    obtain ⟨h3, h4⟩ := ih (fun st hs => h st (List.mem_cons_of_mem _ hs)) h2
    exact ⟨h3, h4⟩

/-- **C123.** For every program with sensible literal arguments, every history of the global `use_cext` (statement `k` finds the
backend `b k` in it, with whatever uninitialised memory the C code gets), the exceptions and the value every variable shows are
those of the run that uses the Python routines throughout; and every object is well-formed at the end (hence, taking prefixes, at
every point). -/
theorem c123_switch (prog : List Stmt) (h : ∀ st ∈ prog, Plain st) (h0 : Heap) (b : Nat → Backend) :
    let r := prog.foldl (fun s => stepHeap (b s.log.length) s) ⟨[], [], h0⟩
    r.log = (runVal .py prog).log ∧ r.env.map (see r.heap) = (runVal .py prog).env.map some ∧
      ∀ v ∈ (runVal .py prog).env, Good v := by
  obtain ⟨h1, h2⟩ := fold_good h (s := ⟨[], []⟩) (by simp) b
  have Y := fold_syncs b prog (s := ⟨[], [], h0⟩) (w := ⟨[], []⟩) ⟨rfl, rfl, by simp⟩
  rw [h1] at Y
  exact ⟨Y.log, Y.env, h2⟩

/-- **C123, with threads.** The same when the program runs as one of several threads that may all set `use_cext` at any moment: with
the conditions of C122, whatever the schedule and whatever each call finds in `use_cext`, a finished thread has what its program gives
alone with the Python routines. -/
theorem c123_threads {ι : Type} [DecidableEq ι] (b0 : Backend) (h : Heap) (prog0 : List Stmt) (progs : ι → List Stmt)
    (own : ∀ i j m, Stmt.chg j m ∈ progs i → (runHeap b0 h prog0).env.length ≤ j)
    (p0 : ∀ st ∈ prog0, Plain st) (pl : ∀ i, ∀ st ∈ progs i, Plain st) (bk : ι → Nat → Backend) (sched : List ι) (i : ι)
    (r : Res (List (Option PyErr) × List Obj)) (hr : ((startThreads b0 h prog0 bk progs).exec sched).thr i = .ret r) :
    ∃ log env, r = .ok (log, env) ∧ (runVal .py prog0).log ++ log = (runVal .py (prog0 ++ progs i)).log ∧
      env.map (see ((startThreads b0 h prog0 bk progs).exec sched).heap) = (runVal .py (prog0 ++ progs i)).env.map some := by
  obtain ⟨K, hK⟩ := c122_threads b0 h prog0 bk progs own
  obtain ⟨log, env, e1, e2, e3⟩ := (hK sched).1 i r hr
  have E0 : runVal b0 prog0 = runVal .py prog0 := (fold_good p0 (s := ⟨[], []⟩) (by simp) (fun _ => b0)).1
  have G0 := (fold_good p0 (s := ⟨[], []⟩) (by simp) (fun _ => b0)).2
  have E1 : aloneVal b0 prog0 (bk i) (progs i) = (progs i).foldl (stepVal .py) ⟨[], (runVal .py prog0).env⟩ := by
    unfold aloneVal
    rw [E0]
    exact (fold_good (pl i) (s := ⟨[], (runVal .py prog0).env⟩) G0 (bk i)).1
  have L : ∀ (prog : List Stmt) (l l' : List (Option PyErr)) (env : List OVal),
      (prog.foldl (stepVal .py) ⟨l ++ l', env⟩).log = l ++ (prog.foldl (stepVal .py) ⟨l', env⟩).log ∧
      (prog.foldl (stepVal .py) ⟨l ++ l', env⟩).env = (prog.foldl (stepVal .py) ⟨l', env⟩).env := by
    intro prog
    induction prog with
    | nil => intro l l' env; exact ⟨rfl, rfl⟩
    | cons st prog ih =>
      intro l l' env
      have S : ∃ x e, stepVal .py ⟨l', env⟩ st = ⟨l' ++ [x], e⟩ ∧ stepVal .py ⟨l ++ l', env⟩ st = ⟨l ++ (l' ++ [x]), e⟩ := by
        cases st with
        | mk m =>
          simp only [stepVal]
          cases mkVal .py env m with
          | ok v => exact ⟨none, env ++ [v], rfl, by simp only [List.append_assoc]⟩
          | error e => exact ⟨some e, env, rfl, by simp only [List.append_assoc]⟩
        | chg i m =>
          simp only [stepVal]
          cases env[i]? with
          | none => exact ⟨some noSuch, env, rfl, by simp only [List.append_assoc]⟩
          | some v => exact ⟨(mutVal m v).err, env.set i (mutVal m v).st, rfl, by simp only [List.append_assoc]⟩
      obtain ⟨x, e, s1, s2⟩ := S
      rw [List.foldl_cons, List.foldl_cons, s1, s2]
      exact ih l (l' ++ [x]) e
  have F : runVal .py (prog0 ++ progs i) = (progs i).foldl (stepVal .py) ⟨(runVal .py prog0).log ++ [], (runVal .py prog0).env⟩ := by
    rw [List.append_nil]
    unfold runVal
    rw [List.foldl_append]
  refine ⟨log, env, e1, ?_, ?_⟩
  · rw [F, (L _ _ _ _).1, e2, E1]
  · rw [F, (L _ _ _ _).2, e3, E1]

/-- Non-vacuity: create a set, synthesise it, change the pattern, analyse it, truncate; all four transforms' statements are plain. -/
example : ∀ st ∈ [Stmt.mk (.coefs (fun _ => 1) 3 2), .mk (.ispht 0 none (some 8)), .chg 1 (.poke fun A => A.map fun x => 2 * x),
    .mk (.spht 1 (some 2) none), .mk (.trunc 2 1)], Plain st := by
  intro st hst
  simp only [List.mem_cons, List.not_mem_nil, or_false] at hst
  rcases hst with rfl | rfl | rfl | rfl | rfl
  · exact ⟨by norm_num, by norm_num⟩
  · intro k hk; cases hk
  · intro A; exact ⟨rfl, rfl⟩
  · show (0 : ℤ) ≤ 2
    norm_num
  · show (0 : ℤ) ≤ 1
    norm_num

end Verif.Props
