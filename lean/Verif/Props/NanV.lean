import Verif.NanV
import Verif.Props.NanC4
import Verif.Props.FloatVec3
/-!
# C133: a NaN in the data is not hidden by the vector transforms
-/
namespace Verif.Props
open Verif Finset

variable {rnd : ℝ → ℝ} {Bd : IE → Prop} [Sticky Bd]

namespace NV
open NN

theorem wrap_nat {r k : ℕ} : Arr2.wrap r (k : ℤ) = k := by
  unfold Arr2.wrap; split <;> omega

theorem setRow_at (g : Arr2 (IE × IE)) (k : ℕ) (f : ℕ → IE × IE) {i j : ℕ} (hi : i < g.rows) (hj : j < g.cols) :
    (g.setRow k f).at' i j = if i = k then f j else g.at' i j := by
  unfold Arr2.setRow
  rw [Arr2.at'_ofFn hi hj]

theorem foldl_mark {α β : Type} (f : β → α → β) (P : β → Prop) (l : List α) (s : β) (x0 : α) (h0 : x0 ∈ l) (I : β → Prop) (hI : I s)
    (hk : ∀ x ∈ l, ∀ s, I s → I (f s x) ∧ (P s → P (f s x))) (hx : ∀ s, I s → P (f s x0)) : I (l.foldl f s) ∧ P (l.foldl f s) := by
  have keep : ∀ l' : List α, (∀ x ∈ l', x ∈ l) → ∀ s, I s → I (l'.foldl f s) ∧ (P s → P (l'.foldl f s)) := by
    intro l'
    induction l' with
    | nil => exact fun _ s hs => ⟨hs, id⟩
    | cons a l' ih =>
      intro hl s hs
      obtain ⟨a1, a2⟩ := hk a (hl a (by simp)) s hs
      obtain ⟨b1, b2⟩ := ih (fun x hx => hl x (by simp [hx])) _ a1
      exact ⟨b1, fun h => b2 (a2 h)⟩
  obtain ⟨l1, l2, rfl⟩ := List.append_of_mem h0
  rw [List.foldl_append, List.foldl_cons]
  have i1 := (keep l1 (fun x hx => by simp [hx]) s hI).1
  have i2 := hk x0 (by simp) _ i1
  have i3 := keep l2 (fun x hx => by simp [hx]) _ i2.1
  exact ⟨i3.1, i3.2 (hx _ i1)⟩

theorem foldl_dims (f : Arr2 (IE × IE)) (l : List ℤ) (g : Arr2 (IE × IE)) : (l.foldl (NX.divsinStep rnd f) g).rows = g.rows ∧ (l.foldl (NX.divsinStep rnd f) g).cols = g.cols := by
  induction l generalizing g with
  | nil => exact ⟨rfl, rfl⟩
  | cons a l ih => rw [List.foldl_cons]; exact ih _

/-- `divsin_fc` keeps a column that is marked in rows 0 and 1. -/
theorem divsin_ok (f : Arr2 (IE × IE)) (hr : f.rows % 2 = 0) (hr4 : 4 ≤ f.rows) :
    ∃ g, NX.divsinFc rnd f = .ok g ∧ g.rows = f.rows ∧ g.cols = f.cols ∧
      ∀ j, j < f.cols → Bad Bd (f.at' 0 j) → Bad Bd (f.at' 1 j) → ∃ i, i < g.rows ∧ Bad Bd (g.at' i j) := by
  unfold NX.divsinFc
  rw [if_neg (by omega)]
  simp only
  generalize hg : ((Arr2.ofFn f.rows f.cols fun _ _ => (0 : IE × IE)).setRow (Arr2.wrap (Arr2.ofFn f.rows f.cols fun _ _ => (0 : IE × IE)).rows ((f.rows : ℤ) / 2 - 2))
    fun j => IE.cmul rnd (.zero false, .fin 2) (f.at' (Arr2.wrap f.rows ((f.rows : ℤ) / 2 - 1)) j)) = g0
  have r0 : g0.rows = f.rows := by rw [← hg]; rfl
  have c0 : g0.cols = f.cols := by rw [← hg]; rfl
  obtain ⟨d1, d2⟩ := foldl_dims (rnd := rnd) f (pyRangeNeg ((f.rows : ℤ) / 2 - 2) (-((f.rows : ℤ) / 2 - 2)) 1) g0
  refine ⟨_, rfl, by omega, by omega, fun j hj h0 h1 => ?_⟩
  by_cases h4 : f.rows = 4
  · refine ⟨0, by omega, ?_⟩
    have e1 : (f.rows : ℤ) / 2 - 2 = ((0 : ℕ) : ℤ) := by omega
    have e2 : (f.rows : ℤ) / 2 - 1 = ((1 : ℕ) : ℤ) := by omega
    rw [e1, show pyRangeNeg ((0 : ℕ) : ℤ) (-((0 : ℕ) : ℤ)) 1 = [] from rfl, List.foldl_nil, ← hg, setRow_at (Arr2.ofFn f.rows f.cols fun _ _ => (0 : IE × IE)) _ _ (by show 0 < f.rows; omega) hj, e1, e2, wrap_nat, wrap_nat, if_pos rfl]
    exact cmul_r _ h1
  · refine ⟨f.rows - 1, by omega, ?_⟩
    have w : ∀ k : ℤ, -(f.rows : ℤ) / 2 < k → k < f.rows / 2 → Arr2.wrap f.rows (k - 1) = f.rows - 1 → k = 0 := by
      intro k a b e
      unfold Arr2.wrap at e
      split at e <;> omega
    refine (foldl_mark (NX.divsinStep rnd f) (fun g => Bad Bd (g.at' (f.rows - 1) j)) _ g0 0 ?_ (fun g => g.rows = f.rows ∧ g.cols = f.cols) ⟨r0, c0⟩ ?_ ?_).2
    · unfold pyRangeNeg
      refine List.mem_map.mpr ⟨f.rows / 2 - 2, List.mem_range.mpr ?_, ?_⟩ <;> omega
    · intro k hk g ⟨g1, g2⟩
      refine ⟨⟨g1, g2⟩, fun h => ?_⟩
      obtain ⟨t, ht, rfl⟩ := List.mem_map.mp hk
      rw [List.mem_range] at ht
      unfold NX.divsinStep
      rw [setRow_at _ _ _ (by omega) (by omega), g1]
      split
      · rename_i e
        have := w _ (by omega) (by omega) e.symm
        rw [this, show (0 : ℤ) = ((0 : ℕ) : ℤ) from rfl, wrap_nat]
        exact cadd_l _ (cmul_r _ h0)
      · exact h
    · intro g ⟨g1, g2⟩
      unfold NX.divsinStep
      rw [setRow_at _ _ _ (by omega) (by omega), g1, if_pos (by unfold Arr2.wrap; split <;> omega), show (0 : ℤ) = ((0 : ℕ) : ℤ) from rfl, wrap_nat]
      exact cadd_l _ (cmul_r _ h0)

theorem dtheta_ok (f : Arr2 (IE × IE)) (hr : f.rows % 2 = 0) : ∃ g, NX.dthetaFc rnd f = .ok g ∧ g.rows = f.rows ∧ g.cols = f.cols ∧
    ∀ i j, i < f.rows → j < f.cols → Bad Bd (f.at' i j) → Bad Bd (g.at' i j) := by
  unfold NX.dthetaFc
  rw [if_neg (by omega)]
  exact ⟨_, rfl, rfl, rfl, fun i j hi hj h => by rw [Arr2.at'_ofFn hi hj]; exact cmul_r _ h⟩

theorem dphi_ok (f : Arr2 (IE × IE)) (hr : f.cols % 2 = 0) : ∃ g, NX.dphiFc rnd f = .ok g ∧ g.rows = f.rows ∧ g.cols = f.cols ∧
    ∀ i j, i < f.rows → j < f.cols → Bad Bd (f.at' i j) → Bad Bd (g.at' i j) := by
  unfold NX.dphiFc
  rw [if_neg (by omega)]
  exact ⟨_, rfl, rfl, rfl, fun i j hi hj h => by rw [Arr2.at'_ofFn hi hj]; exact cmul_r _ h⟩

theorem sin_ok (G : Arr2 (IE × IE)) (hr : 6 ≤ G.rows) : ∃ H, NX.sinFc rnd G = .ok H ∧ H.rows = G.rows ∧ H.cols = G.cols ∧
    ∀ j, j < G.cols → Bad Bd (G.at' 0 j) → Bad Bd (H.at' 1 j) := by
  unfold NX.sinFc
  rw [if_neg (by omega)]
  refine ⟨_, rfl, rfl, rfl, fun j hj h => ?_⟩
  have e : ∀ (X : Arr2 (IE × IE)) (k : ℕ), (X.setRow k fun _ => (0 : IE × IE)).rows = X.rows ∧ (X.setRow k fun _ => (0 : IE × IE)).cols = X.cols := fun _ _ => ⟨rfl, rfl⟩
  rw [Arr2.at'_ofFn (by simp only [e]; omega) (by simp only [e]; omega)]
  refine cmul_r _ (csub_l _ ?_)
  rw [if_neg (by omega)]
  unfold Arr2.setRow
  simp only [Arr2.rows_ofFn, Arr2.cols_ofFn]
  rw [Arr2.at'_ofFn (by omega) (by omega), if_neg (by omega), Arr2.at'_ofFn (by omega) (by omega), if_neg (by omega)]
  exact h

theorem sinLdot_ok (t p : Arr2 (IE × IE)) (hr : t.rows = p.rows) (hc : t.cols = p.cols) (h6 : 6 ≤ p.rows) (hr2 : p.rows % 2 = 0) (hc2 : p.cols % 2 = 0) :
    ∃ l, NX.sinLdotFc rnd t p = .ok l ∧ l.rows = p.rows ∧ l.cols = p.cols ∧ ∀ j, j < p.cols → (Bad Bd (t.at' 1 j) ∨ Bad Bd (p.at' 0 j)) → Bad Bd (l.at' 1 j) := by
  unfold NX.sinLdotFc
  obtain ⟨a, ea, ra, ca, na⟩ := dphi_ok (rnd := rnd) (Bd := Bd) t (by omega)
  obtain ⟨b, eb, rb, cb, nb⟩ := sin_ok (rnd := rnd) (Bd := Bd) p (by omega)
  obtain ⟨c, ec, rc, cc, nc⟩ := dtheta_ok (rnd := rnd) (Bd := Bd) b (by omega)
  rw [ea]
  simp only [Except.bind_ok]
  rw [eb]
  simp only [Except.bind_ok]
  rw [ec]
  refine ⟨_, rfl, by rw [Arr2.rows_zip]; omega, by rw [Arr2.cols_zip]; omega, fun j hj h => ?_⟩
  rw [Arr2.at'_zip _ _ _ (by omega) (by omega)]
  refine cmul_r _ ?_
  rcases h with h | h
  · exact csub_l _ (na 1 j (by omega) (by omega) h)
  · exact NC.csub_r _ (nc 1 j (by omega) (by omega) (nb j (by omega) h))

theorem ext_ok {np : NX.FftX} (hnp : FftBad Bd np) (A : Arr2 (IE × IE)) (hr : A.rows % 2 = 0) (h4 : 4 ≤ A.rows) (hc : 0 < A.cols) :
    ∃ G, NX.extFourier np A = .ok G ∧ G.rows = A.rows + 2 ∧ G.cols = A.cols ∧ (HasBad Bd A → ∀ j, j < A.cols → Bad Bd (G.at' 0 j) ∧ Bad Bd (G.at' 1 j)) := by
  obtain ⟨F, eF, rF, cF, nF⟩ := hnp.fft2 A (by omega) (by omega)
  unfold NX.extFourier
  rw [eF]
  simp only [Except.bind_ok]
  unfold fixEvenRow
  rw [if_pos (by omega), if_neg (by omega)]
  simp only [Except.bind_ok]
  unfold padRows
  rw [show (F.setRow (F.rows / 2) fun _ => 0).rows = F.rows from rfl, show (F.setRow (F.rows / 2) fun _ => 0).cols = F.cols from rfl]
  rw [if_neg (by omega)]
  simp only
  rw [if_neg (by omega)]
  refine ⟨_, rfl, rfl, cF, fun hA j hj => ?_⟩
  have nF := nF hA
  have key : ∀ i, i < 2 → Bad Bd ((Arr2.ofFn (A.rows + 2) F.cols fun i j => if i < F.rows / 2 then (F.setRow (F.rows / 2) fun _ => 0).at' i j
      else if A.rows + 2 - (F.rows / 2 - 1) ≤ i ∧ F.rows / 2 ≠ 0 then (F.setRow (F.rows / 2) fun _ => 0).at' (i + F.rows - (A.rows + 2)) j else 0).at' i j) := by
    intro i hi
    rw [Arr2.at'_ofFn (by omega) (by omega), if_pos (by omega), setRow_at _ _ _ (by omega) (by omega), if_neg (by omega)]
    exact nF i j (by omega) (by omega)
  exact ⟨key 0 (by omega), key 1 (by omega)⟩

/-! ### Coefficient sets -/

theorem nvec_ok (n : ℕ) : ∃ w, NX.nvec rnd n = .ok w ∧ w.length = n + 1 := by
  obtain ⟨w, e, l, -⟩ := FV.nvecF_spec (rnd := rnd) n
  unfold NX.nvec
  rw [e]
  exact ⟨_, rfl, by simpa using l⟩

theorem windowed_ok (c : ScalarCoefs (IE × IE)) (hc : c.WF) (w : List (IE × IE)) (hw : (w.length : ℤ) = c.nmax + 1) :
    ∃ d, NX.windowed rnd c w = .ok d ∧ d.WF ∧ d.nmax = c.nmax ∧ d.mmax = c.mmax ∧
      ∀ n m, IsMode c.nmax c.mmax n m → Bad Bd (rd c.vec (slot c.nmax n m)) → Bad Bd (rd d.vec (slot c.nmax n m)) := by
  let _ : Mul (IE × IE) := ⟨IE.cmul rnd⟩
  obtain ⟨k1, k2, k3, k4, k5⟩ := ScalarCoefs.window_eq hc hw
  refine ⟨(c.window w).st, ?_, k2, k3, k4, fun n m hm h => ?_⟩
  · unfold NX.windowed ScalarCoefs.windowed
    simp only
    rw [k1]
  · have e := k5 n m hm
    rw [ScalarCoefs.absMap_mode hc hm, ScalarCoefs.absMap_mode k2 (by rw [k3, k4]; exact hm)] at e
    have hn : n.toNat < w.length := by obtain ⟨_, _, _, _⟩ := hm; omega
    rw [List.getElem?_eq_getElem hn] at e
    simp only [Option.map₂_some_some, Option.some.injEq, k3] at e
    have s1 := hc.slot_lt hm
    have s2 := k2.slot_lt (n := n) (m := m) (by rw [k3, k4]; exact hm)
    rw [k3] at s2
    rw [show rd (c.window w).st.vec (slot c.nmax n m) = (c.window w).st.vec[slot c.nmax n m] by simp [rd, s2], e]
    rw [show rd c.vec (slot c.nmax n m) = c.vec[slot c.nmax n m] by simp [rd, s1]] at h
    exact cmul_l _ h

/-- What is assumed of `fc_to_sc` (proved for both sets of routines). -/
def AnaOK (Bd : IE → Prop) (ana : ℕ → Arr2 (IE × IE) → ℤ → ℤ → Res (List (IE × IE))) (N M rows : ℕ) : Prop :=
  ∀ i (A : Arr2 (IE × IE)), A.rows = rows → 2 * M < A.cols → (∀ j, j < A.cols → Bad Bd (A.at' 1 j)) →
    ∃ v, ana i A N M = .ok v ∧ (v.length : ℤ) = ncFormula N M ∧ ∀ z ∈ v, Bad Bd z

theorem slot_pos {N M : ℤ} {n m : ℤ} (h : IsMode N M n m) (hn : 1 ≤ n) : 0 < slot N n m := by
  have h0 : IsMode N M 0 0 := ⟨by omega, by obtain ⟨_, _, _, _⟩ := h; omega, by simp, by obtain ⟨_, _, _, _⟩ := h; have := abs_nonneg m; simp; unfold iabs at *; omega⟩
  by_contra hc
  have e : slot N n m = slot N 0 0 := by
    have : slot N 0 0 = 0 := by simp [slot, ord, seg]
    omega
  have := slot_inj h h0 e
  omega

theorem init_ok (N M : ℕ) (hM : M ≤ N) (v1 v2 : List (IE × IE)) (l1 : (v1.length : ℤ) = ncFormula N M) (l2 : (v2.length : ℤ) = ncFormula N M) :
    ∃ s1 s2, VectorCoefs.init (.arr v1) (.arr v2) N M = .ok ⟨s1, s2, N, M⟩ ∧ s1.WF ∧ s2.WF ∧ s1.nmax = N ∧ s1.mmax = M ∧ s2.nmax = N ∧ s2.mmax = M ∧
      (∀ i, 0 < i → rd s1.vec i = rd v1 i) ∧ (∀ i, 0 < i → rd s2.vec i = rd v2 i) := by
  have hp : 0 < ncFormula (N : ℤ) M := by
    rw [XI.nc_seg N M hM]
    have := seg_mono (N + 1) (show 1 ≤ 2 * M + 1 by omega)
    have h1 : seg (N + 1) 1 = N + 1 := by simp [seg]
    omega
  unfold VectorCoefs.init
  simp only
  rw [if_neg (by omega), if_neg (by omega), if_neg (by omega), setIdx_of_lt (by omega) (by omega), setIdx_of_lt (by omega) (by omega)]
  simp only [Except.bind_ok]
  rw [ScalarCoefs.init_wf (by omega) (by omega) (by simp [l1]), ScalarCoefs.init_wf (by omega) (by omega) (by simp [l2])]
  refine ⟨_, _, rfl, ⟨by simp, by simpa using hM, by simp [l1]⟩, ⟨by simp, by simpa using hM, by simp [l2]⟩, rfl, rfl, rfl, rfl, fun i hi => ?_, fun i hi => ?_⟩
  · rw [show ((0 : ℤ)).toNat = 0 from rfl, rd_set' _ _ _ _ (by omega), if_neg (by omega)]
  · rw [show ((0 : ℤ)).toNat = 0 from rfl, rd_set' _ _ _ _ (by omega), if_neg (by omega)]

theorem rmv {c : VectorCoefs (IE × IE)} (h : c.WellFormed) (n m : ℤ) : readMapV c n m = if n = 0 then none else
    (c.scoef1.absMap n m).bind fun a => (c.scoef2.absMap n m).map fun b => (a, b) :=
  @readMapV_eq (IE × IE) ⟨fun a _ => a⟩ ⟨fun a _ => a⟩ ⟨fun a _ => a⟩ ⟨fun a _ => a⟩ _ (Classical.decEq _) _ h n m

theorem vspht_ok {np : NX.FftX} (hnp : FftBad Bd np) (ana : ℕ → Arr2 (IE × IE) → ℤ → ℤ → Res (List (IE × IE))) (p : TPatt (IE × IE)) (hs : p.td.rows = p.pd.rows ∧ p.td.cols = p.pd.cols)
    (hn : HasBad Bd p.td ∨ HasBad Bd p.pd) (hr : p.td.rows % 2 = 0) (hc : p.td.cols % 2 = 0) (N M : ℕ) (hN : 1 ≤ N) (hM : M ≤ N) (hNr : N < p.td.rows / 2) (hMc : 2 * M < p.td.cols)
    (ha : AnaOK Bd ana N M (p.td.rows + 2)) :
    ∃ c, NX.vspht rnd np ana p (some N) (some M) = .ok c ∧ c.WellFormed ∧ c.nmax = N ∧ c.mmax = M ∧
      ∀ n m, IsMode N M n m → 1 ≤ n → ∃ a b, readMapV c n m = some (a, b) ∧ Bad Bd a ∧ Bad Bd b := by
  obtain ⟨hs1, hs2⟩ := hs
  have hg : sphtGuards (.ok (p.td.rows / 2 + 1)) (.ok p.td.cols) N M = .ok () := by
    unfold sphtGuards
    rw [if_neg (by omega)]
    simp only [Except.bind_ok]
    rw [if_neg (by push_cast; omega), if_neg (by omega), if_neg (by omega)]
  unfold NX.vspht
  rw [show sphtArgs (.ok p.nrows) (.ok p.ncols) (some (N : ℤ)) (some (M : ℤ)) = .ok ((N : ℤ), (M : ℤ)) from rfl]
  simp only [Except.bind_ok]
  rw [show sphtGuards (.ok p.nrows) (.ok p.ncols) (N : ℤ) (M : ℤ) = .ok () from hg]
  simp only [Except.bind_ok]
  obtain ⟨ft, eft, rft, cft, nft⟩ := ext_ok hnp p.td hr (by omega) (by omega)
  obtain ⟨pt, ept, rpt, cpt, npt⟩ := ext_ok hnp p.pd (by omega) (by omega) (by omega)
  rw [eft, if_pos ⟨hs1, hs2⟩, ept]
  simp only [Except.bind_ok]
  obtain ⟨q1, eq1, rq1, cq1, nq1⟩ := sinLdot_ok (rnd := rnd) (Bd := Bd) ft pt (by omega) (by omega) (by omega) (by omega) (by omega)
  obtain ⟨q2, eq2, rq2, cq2, nq2⟩ := sinLdot_ok (rnd := rnd) (Bd := Bd) (pt.map (IE.cmul rnd NX.negIm1)) (ft.map (IE.cmul rnd NX.im1)) (by simp only [Arr2.rows_map]; omega) (by simp only [Arr2.cols_map]; omega)
    (by simp only [Arr2.rows_map]; omega) (by simp only [Arr2.rows_map]; omega) (by simp only [Arr2.cols_map]; omega)
  simp only [Arr2.rows_map, Arr2.cols_map] at rq2 cq2 nq2
  rw [eq1, eq2]
  simp only [Except.bind_ok]
  obtain ⟨v1, e1, l1, n1⟩ := ha 0 q1 (by omega) (by omega) (fun j hj => nq1 j (by omega) (by
    rcases hn with h | h
    · exact .inl (nft h j (by omega)).2
    · exact .inr (npt h j (by omega)).1))
  obtain ⟨v2, e2, l2, n2⟩ := ha 1 q2 (by omega) (by omega) (fun j hj => nq2 j (by omega) (by
    rw [Arr2.at'_map _ _ (by omega) (by omega), Arr2.at'_map _ _ (by omega) (by omega)]
    rcases hn with h | h
    · exact .inr (cmul_r _ (nft h j (by omega)).1)
    · exact .inl (cmul_r _ (npt h j (by omega)).2)))
  rw [e1, e2]
  simp only [Except.bind_ok]
  obtain ⟨s1, s2, ei, w1, w2, a1, a2, a3, a4, k1, k2⟩ := init_ok N M hM v1 v2 l1 l2
  rw [ei]
  simp only [Except.bind_ok]
  obtain ⟨w, ew, lw⟩ := nvec_ok (rnd := rnd) N
  rw [ew]
  simp only [Except.bind_ok]
  obtain ⟨d1, ed1, wd1, dn1, dm1, x1⟩ := windowed_ok (rnd := rnd) (Bd := Bd) s1 w1 w (by omega)
  obtain ⟨d2, ed2, wd2, dn2, dm2, x2⟩ := windowed_ok (rnd := rnd) (Bd := Bd) s2 w2 w (by omega)
  rw [ed1, ed2]
  have wf : VectorCoefs.WellFormed (⟨d1, d2, N, M⟩ : VectorCoefs (IE × IE)) := ⟨ScalarCoefs.wf_iff.mp wd1, ScalarCoefs.wf_iff.mp wd2, by rw [dn1, a1], by rw [dn2, a3], by rw [dm1, a2], by rw [dm2, a4]⟩
  refine ⟨_, rfl, wf, rfl, rfl, fun n m hm hn1 => ?_⟩
  have hpos := slot_pos hm hn1
  have nn1 : Bad Bd (rd d1.vec (slot N n m)) := by
    have := x1 n m (by rw [a1, a2]; exact hm)
    rw [a1] at this
    refine this ?_
    rw [k1 _ hpos]
    refine n1 _ (rd_mem ?_)
    have := w1.slot_lt (n := n) (m := m) (by rw [a1, a2]; exact hm)
    have h' := w1.len
    rw [a1] at this
    rw [a1, a2] at h'
    omega
  have nn2 : Bad Bd (rd d2.vec (slot N n m)) := by
    have := x2 n m (by rw [a3, a4]; exact hm)
    rw [a3] at this
    refine this ?_
    rw [k2 _ hpos]
    refine n2 _ (rd_mem ?_)
    have := w2.slot_lt (n := n) (m := m) (by rw [a3, a4]; exact hm)
    have h' := w2.len
    rw [a3] at this
    rw [a3, a4] at h'
    omega
  have m1 : IsMode d1.nmax d1.mmax n m := by rw [dn1, dm1, a1, a2]; exact hm
  have m2 : IsMode d2.nmax d2.mmax n m := by rw [dn2, dm2, a3, a4]; exact hm
  have t1 := wd1.slot_lt m1
  have t2 := wd2.slot_lt m2
  rw [rmv wf, if_neg (by omega), ScalarCoefs.absMap_mode wd1 m1, ScalarCoefs.absMap_mode wd2 m2]
  refine ⟨_, _, rfl, ?_, ?_⟩
  · rw [← a1, ← dn1] at nn1
    simpa [rd, t1] using nn1
  · rw [← a3, ← dn2] at nn2
    simpa [rd, t2] using nn2

/-! ### Synthesis -/

theorem lFc_ok (f : Arr2 (IE × IE)) (hr : f.rows % 2 = 0) (hr4 : 4 ≤ f.rows) (hc : f.cols % 2 = 0) :
    ∃ a b, NX.lFc rnd f = .ok (a, b) ∧ a.rows = f.rows ∧ a.cols = f.cols ∧ b.rows = f.rows ∧ b.cols = f.cols ∧
      ∀ j, j < f.cols → Bad Bd (f.at' 0 j) → Bad Bd (f.at' 1 j) → HasBad Bd a ∧ HasBad Bd b := by
  unfold NX.lFc
  obtain ⟨a, ea, ra, ca, na⟩ := dphi_ok (rnd := rnd) (Bd := Bd) f hc
  obtain ⟨g, eg, rg, cg, ng⟩ := divsin_ok (rnd := rnd) (Bd := Bd) a (by omega) (by omega)
  obtain ⟨b, eb, rb, cb, nb⟩ := dtheta_ok (rnd := rnd) (Bd := Bd) f hr
  rw [ea]
  simp only [Except.bind_ok]
  rw [eg]
  simp only [Except.bind_ok]
  rw [eb]
  refine ⟨_, _, rfl, by rw [Arr2.rows_map]; omega, by rw [Arr2.cols_map]; omega, by rw [Arr2.rows_map]; omega, by rw [Arr2.cols_map]; omega, fun j hj h0 h1 => ⟨?_, ?_⟩⟩
  · obtain ⟨i, hi, hx⟩ := ng j (by omega) (na 0 j (by omega) hj h0) (na 1 j (by omega) hj h1)
    exact ⟨i, j, hi, by rw [Arr2.cols_map]; omega, by rw [Arr2.at'_map _ _ hi (by omega)]; exact cmul_r _ hx⟩
  · exact ⟨0, j, by rw [Arr2.rows_map]; omega, by rw [Arr2.cols_map]; omega, by rw [Arr2.at'_map _ _ (by omega) (by omega)]; exact cmul_r _ (nb 0 j (by omega) hj h0)⟩

theorem zip_nan (op : IE × IE → IE × IE → IE × IE) (h1 : ∀ z w, Bad Bd z → Bad Bd (op z w)) (h2 : ∀ z w, Bad Bd w → Bad Bd (op z w)) (A B : Arr2 (IE × IE)) (hr : A.rows = B.rows) (hc : A.cols = B.cols)
    (h : HasBad Bd A ∨ HasBad Bd B) : HasBad Bd (A.zip op B) := by
  rcases h with ⟨i, j, hi, hj, hn⟩ | ⟨i, j, hi, hj, hn⟩
  · exact ⟨i, j, hi, hj, by rw [Arr2.at'_zip _ _ _ hi hj]; exact h1 _ _ hn⟩
  · exact ⟨i, j, by rw [Arr2.rows_zip]; omega, by rw [Arr2.cols_zip]; omega, by rw [Arr2.at'_zip _ _ _ (by omega) (by omega)]; exact h2 _ _ hn⟩

/-- What is assumed of `sc_to_fc` (proved for both sets of routines). -/
def SynOK (Bd : IE → Prop) (syn : ℕ → List (IE × IE) → ℤ → ℤ → ℤ → ℤ → Res (Arr2 (IE × IE))) (N M r c : ℕ) : Prop :=
  ∀ i (v : List (IE × IE)), v.length = seg (N + 1) (2 * M + 1) → ∃ A, syn i v N M r c = .ok A ∧ A.rows = r ∧ A.cols = c ∧
    ∀ n m : ℤ, IsMode N M n m → Bad Bd (rd v (slot N n m)) → Bad Bd (A.at' 0 (m % c).toNat) ∧ Bad Bd (A.at' 1 (m % c).toNat)

theorem vispht_ok {np : NX.FftX} (hnp : FftBad Bd np) (syn : ℕ → List (IE × IE) → ℤ → ℤ → ℤ → ℤ → Res (Arr2 (IE × IE))) (c : VectorCoefs (IE × IE)) (hc : c.WellFormed) (N M r k : ℕ) (hN : c.nmax = N) (hM : c.mmax = M)
    (hN1 : 1 ≤ N) (hn : (∃ z ∈ c.scoef1.vec, Bad Bd z) ∨ ∃ z ∈ c.scoef2.vec, Bad Bd z) (nrows ncols : Option Int) (h1 : c.nmax + 2 ≤ nrows.getD (c.nmax + 2)) (h2 : 2 * c.mmax + 2 ≤ ncols.getD (2 * c.mmax + 2))
    (h3 : ncols.getD (2 * c.mmax + 2) % 2 = 0) (er : 2 * nrows.getD (c.nmax + 2) - 2 = r) (ek : ncols.getD (2 * c.mmax + 2) = k) (hs : SynOK Bd syn N M r k) :
    ∃ t p, NX.vispht rnd np syn c nrows ncols = .ok ⟨t, p⟩ ∧ t.rows = r ∧ t.cols = k ∧ p.rows = r ∧ p.cols = k ∧ AllBad Bd t ∧ AllBad Bd p := by
  have wf1 := hc.wf1.wf
  have wf2 := hc.wf2.wf
  have hMN := wf1.mn
  rw [hc.n1, hc.m1, hN, hM] at hMN
  have hL1 : c.scoef1.vec.length = seg (N + 1) (2 * M + 1) := by
    have := wf1.len'
    rw [hc.n1, hc.m1, hN, hM] at this
    simpa using this
  have hL2 : c.scoef2.vec.length = seg (N + 1) (2 * M + 1) := by
    have := wf2.len'
    rw [hc.n2, hc.m2, hN, hM] at this
    simpa using this
  unfold NX.vispht visphtGuards
  simp only [er, ek]
  rw [if_neg (by omega), if_neg (by omega), if_neg (by omega)]
  simp only [Except.bind_ok]
  obtain ⟨w, ew, lw⟩ := nvec_ok (rnd := rnd) N
  rw [hN, ew]
  simp only [Except.bind_ok]
  have cp : ∀ s : ScalarCoefs (IE × IE), s.WF → s.copy = .ok s := by
    intro s h
    unfold ScalarCoefs.copy
    rw [ScalarCoefs.init_wf h.m0 h.mn h.len.symm]
  rw [cp _ wf1, cp _ wf2]
  simp only [Except.bind_ok]
  obtain ⟨d1, ed1, wd1, dn1, dm1, x1⟩ := windowed_ok (rnd := rnd) (Bd := Bd) c.scoef1 wf1 w (by rw [hc.n1]; omega)
  obtain ⟨d2, ed2, wd2, dn2, dm2, x2⟩ := windowed_ok (rnd := rnd) (Bd := Bd) c.scoef2 wf2 w (by rw [hc.n2]; omega)
  rw [hc.n1, hN] at dn1 x1
  rw [hc.m1, hM] at dm1 x1
  rw [hc.n2, hN] at dn2 x2
  rw [hc.m2, hM] at dm2 x2
  rw [ed1, ed2]
  simp only [Except.bind_ok, dn1, dm1, dn2, dm2]
  have hl1 : d1.vec.length = seg (N + 1) (2 * M + 1) := by
    have := wd1.len'
    rw [dn1, dm1] at this
    simpa using this
  have hl2 : d2.vec.length = seg (N + 1) (2 * M + 1) := by
    have := wd2.len'
    rw [dn2, dm2] at this
    simpa using this
  obtain ⟨f1, ef1, rf1, cf1, nf1⟩ := hs 0 d1.vec hl1
  obtain ⟨f2, ef2, rf2, cf2, nf2⟩ := hs 1 d2.vec hl2
  rw [ef1, ef2]
  simp only [Except.bind_ok]
  obtain ⟨a1, b1, e1, p1, p2, p3, p4, m1⟩ := lFc_ok (rnd := rnd) (Bd := Bd) f1 (by omega) (by omega) (by omega)
  obtain ⟨a2, b2, e2, q1, q2, q3, q4, m2⟩ := lFc_ok (rnd := rnd) (Bd := Bd) f2 (by omega) (by omega) (by omega)
  rw [e1, e2]
  simp only [Except.bind_ok]
  have lt : ∀ m : ℤ, (m % k).toNat < k := fun m => by
    have := Int.emod_lt_of_pos m (show (0 : ℤ) < k by omega)
    have := Int.emod_nonneg m (show (k : ℤ) ≠ 0 by omega)
    omega
  have key : (HasBad Bd a1 ∧ HasBad Bd b1) ∨ (HasBad Bd a2 ∧ HasBad Bd b2) := by
    rcases hn with ⟨z, hz, nz⟩ | ⟨z, hz, nz⟩
    · left
      obtain ⟨i, hi, rfl⟩ := List.getElem_of_mem hz
      obtain ⟨n, m, hmode, e⟩ := slot_surj wf1.m0 wf1.mn (j := i) (by rw [← wf1.len']; exact hi)
      rw [hc.n1, hc.m1, hN, hM] at hmode
      rw [hc.n1, hN] at e
      obtain ⟨y0, y1⟩ := nf1 n m hmode (x1 n m hmode (by rw [e]; simpa [rd, hi] using nz))
      exact m1 _ (by rw [cf1]; exact lt m) y0 y1
    · right
      obtain ⟨i, hi, rfl⟩ := List.getElem_of_mem hz
      obtain ⟨n, m, hmode, e⟩ := slot_surj wf2.m0 wf2.mn (j := i) (by rw [← wf2.len']; exact hi)
      rw [hc.n2, hc.m2, hN, hM] at hmode
      rw [hc.n2, hN] at e
      obtain ⟨y0, y1⟩ := nf2 n m hmode (x2 n m hmode (by rw [e]; simpa [rd, hi] using nz))
      exact m2 _ (by rw [cf2]; exact lt m) y0 y1
  have z1 := zip_nan (fun a b => NX.csub rnd a (IE.cmul rnd NX.im1 b)) (fun z w h => csub_l _ h) (fun z w h => NC.csub_r _ (cmul_r _ h)) a1 b2 (by omega) (by omega) (key.imp (·.1) (·.2))
  have z2 := zip_nan (fun a b => IE.cadd rnd a (IE.cmul rnd NX.im1 b)) (fun z w h => cadd_l _ h) (fun z w h => cadd_r _ (cmul_r _ h)) b1 a2 (by omega) (by omega) (key.imp (·.2) (·.1))
  obtain ⟨D, eD, rD, cD, nD⟩ := hnp.ifft2 (a1.zip (fun a b => NX.csub rnd a (IE.cmul rnd NX.im1 b)) b2) r k (by rw [Arr2.rows_zip]; omega) (by rw [Arr2.cols_zip]; omega)
    (by rw [Arr2.rows_zip]; omega) (by rw [Arr2.cols_zip]; omega)
  obtain ⟨E, eE, rE, cE, nE⟩ := hnp.ifft2 (b1.zip (fun a b => IE.cadd rnd a (IE.cmul rnd NX.im1 b)) a2) r k (by rw [Arr2.rows_zip]; omega) (by rw [Arr2.cols_zip]; omega)
    (by rw [Arr2.rows_zip]; omega) (by rw [Arr2.cols_zip]; omega)
  rw [eD, eE]
  simp only [Except.bind_ok]
  rw [Arr2.rows_zip] at rD rE
  rw [Arr2.cols_zip] at cD cE
  rw [if_neg (by omega)]
  exact ⟨D, E, rfl, by omega, by omega, by omega, by omega, nD z1, nE z2⟩

theorem syn_py (np : NX.FftX) (N M r c : ℕ) (hM : M ≤ N) (hN : 1 ≤ N) (hr : N + 1 ≤ r) (hc : 2 * M + 2 ≤ c) : SynOK Bd (fun _ => NX.scToFc rnd np) N M r c := by
  intro i v hv
  obtain ⟨A, e, ⟨h1, h2⟩, h3⟩ := NN.scToFc_ok (rnd := rnd) (Bd := Bd) np v N M r c hM hr hc hv 0 (by omega) (by omega)
  obtain ⟨B, e', -, h4⟩ := NN.scToFc_ok (rnd := rnd) (Bd := Bd) np v N M r c hM hr hc hv 1 hN (by omega)
  have : A = B := by rw [e] at e'; injection e'
  subst this
  have hb : ∀ {n m : ℤ}, IsMode N M n m → m.natAbs ≤ M := fun {n m} hm => by
    obtain ⟨_, _, _, _⟩ := hm
    have := Int.abs_eq_natAbs m
    omega
  exact ⟨A, e, h1, h2, fun n m hm hx => ⟨h3 m (hb hm) ⟨n, hm, hx⟩, h4 m (hb hm) ⟨n, hm, hx⟩⟩⟩

theorem syn_c (J : ℕ → NX.JunkX) (N M r c : ℕ) (hM : M ≤ N) (hN : 1 ≤ N) (hr : N < r) (hc : 2 * M + 2 ≤ c) : SynOK Bd (fun i => NX.cExtScToFc rnd (J i)) N M r c := by
  intro i v hv
  have hl : (Arr2.ofFn r c fun _ _ => (0 : IE × IE)).flat.length = r * c := by rw [Arr2.length_flat]; rfl
  obtain ⟨A, e, h1, h3⟩ := NC.scToFc_ok (rnd := rnd) (Bd := Bd) v N M r c hM hr hc hv (J i) (Arr2.ofFn r c fun _ _ => (0 : IE × IE)).flat hl 0 (by omega) (by omega)
  obtain ⟨B, e', -, h4⟩ := NC.scToFc_ok (rnd := rnd) (Bd := Bd) v N M r c hM hr hc hv (J i) (Arr2.ofFn r c fun _ _ => (0 : IE × IE)).flat hl 1 hN (by omega)
  have : A = B := by rw [e] at e'; injection e'
  subst this
  have hb : ∀ {n m : ℤ}, IsMode N M n m → m.natAbs ≤ M := fun {n m} hm => by
    obtain ⟨_, _, _, _⟩ := hm
    have := Int.abs_eq_natAbs m
    omega
  have lt : ∀ m : ℤ, (m % c).toNat < c := fun m => by
    have := Int.emod_lt_of_pos m (show (0 : ℤ) < c by omega)
    have := Int.emod_nonneg m (show (c : ℤ) ≠ 0 by omega)
    omega
  beta_reduce
  unfold NX.cExtScToFc npZeros2
  rw [if_neg (by omega)]
  simp only [Except.bind_ok, Int.toNat_natCast]
  have e2 : NX.cScToFc rnd (Arr2.ofFn r c fun _ _ => (0 : IE × IE)).flat (Arr2.ofFn r c fun _ _ => (0 : IE × IE)).rows (Arr2.ofFn r c fun _ _ => (0 : IE × IE)).cols v N M (J i) = .ok A := e
  rw [e2]
  refine ⟨_, rfl, rfl, rfl, fun n m hm hx => ⟨?_, ?_⟩⟩
  · unfold unflat
    rw [Arr2.at'_ofFn (by simp only [Arr2.rows_ofFn]; omega) (by simp only [Arr2.cols_ofFn]; exact lt m), Arr2.cols_ofFn, mul_comm]
    exact h3 m (hb hm) ⟨n, hm, hx⟩
  · unfold unflat
    rw [Arr2.at'_ofFn (by simp only [Arr2.rows_ofFn]; omega) (by simp only [Arr2.cols_ofFn]; exact lt m), Arr2.cols_ofFn, mul_comm]
    exact h4 m (hb hm) ⟨n, hm, hx⟩

end NV
end Verif.Props
