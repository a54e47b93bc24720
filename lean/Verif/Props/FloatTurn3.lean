import Verif.Props.FloatTurn2
/-!
# C127, part 3: analysis
-/
namespace Verif.Props
open Verif
variable {rnd : ℝ → ℝ}
namespace TN

/-- A one-dimensional transform that commutes with multiplication by `1j`. -/
def Turns (g : List (FC rnd) → Res (List (FC rnd))) : Prop := ∀ l, g (l.map turn) = rmap (List.map turn) (g l)

section
variable (hn : ∀ x, rnd (-x) = -rnd x)

theorem fftBoth_tr (g : List (FC rnd) → Res (List (FC rnd))) (hg : Turns g) (A : Arr2 (FC rnd)) : Tr (Arr2.map turn) (Fl.fftBoth rnd g A) (Fl.fftBoth rnd g (A.map turn)) := by
  have hget : ∀ (L : List (List (FC rnd))) (i j : ℕ), rd ((L.map (List.map turn)).getD i []) j = turn (rd (L.getD i []) j) := by
    intro L i j
    rw [← rd_map turn_zero, List.getD_eq_getElem?_getD, List.getD_eq_getElem?_getD, List.getElem?_map]
    cases L[i]? <;> simp
  have h1 : ∀ A : Arr2 (FC rnd), Tr (Arr2.map turn) (Fl.axis1 rnd g A) (Fl.axis1 rnd g (A.map turn)) := by
    intro A
    unfold Fl.axis1
    simp only [Arr2.rows_map, Arr2.cols_map, at'_map turn_zero]
    refine Tr.bind (Tr.mapM (t := List.map turn) (fun i => ?_) _) fun L => Tr.ok _ ?_
    · have := hg (tab A.cols fun j => A.at' i j)
      rwa [map_tab] at this
    · rw [ofFn_map]; simp only [hget]
  have h0 : ∀ A : Arr2 (FC rnd), Tr (Arr2.map turn) (Fl.axis0 rnd g A) (Fl.axis0 rnd g (A.map turn)) := by
    intro A
    unfold Fl.axis0
    simp only [Arr2.rows_map, Arr2.cols_map, at'_map turn_zero]
    refine Tr.bind (Tr.mapM (t := List.map turn) (fun i => ?_) _) fun L => Tr.ok _ ?_
    · have := hg (tab A.rows fun j => A.at' j i)
      rwa [map_tab] at this
    · rw [ofFn_map]; simp only [hget]
  unfold Fl.fftBoth
  exact Tr.ite Iff.rfl (fun _ => Tr.err _) fun _ => Tr.bind (h1 A) fun B => h0 B

include hn

theorem fft2Norm_tr (np : Fl.Fft1 rnd) (hg : Turns np.fft) (A : Arr2 (FC rnd)) : Tr (Arr2.map turn) (Fl.fft2Norm rnd np A) (Fl.fft2Norm rnd np (A.map turn)) := by
  unfold Fl.fft2Norm
  refine Tr.bind (fftBoth_tr np.fft hg A) fun f => Tr.ok _ ?_
  simp only [map_mapA, Arr2.rows_map, Arr2.cols_map, turn_div hn]

theorem ifft2Scaled_tr (np : Fl.Fft1 rnd) (hg : Turns np.ifft) (A : Arr2 (FC rnd)) (r c : Int) :
    Tr (Arr2.map turn) (Fl.ifft2Scaled rnd np A r c) (Fl.ifft2Scaled rnd np (A.map turn) r c) := by
  unfold Fl.ifft2Scaled
  refine Tr.bind (fftBoth_tr np.ifft hg A) fun f => Tr.ok _ ?_
  simp only [map_mapA, turn_mul hn]

/-! ### pysphi.py -/

theorem pyConv_tr (np : Fl.Fft1 rnd) (hg : Turns np.fft) (hg' : Turns np.ifft) (A : Arr2 (FC rnd)) (N m : Int) :
    Tr (List.map turn) (Fl.pyConv rnd np A N m) (Fl.pyConv rnd np (A.map turn) N m) := by
  unfold Fl.pyConv
  refine Tr.same fun Q => Tr.same fun s => ?_
  unfold Fl.hkmFc
  refine Tr.bind (t := List.map turn) ?_ fun f => ?_
  · unfold Fl.colOf
    simp only [Arr2.rows_map, Arr2.cols_map, at'_map turn_zero]
    exact Tr.ite Iff.rfl (fun _ => Tr.ok _ (map_tab _ _ _).symm) fun _ => Tr.err _
  · simp only [List.length_map, rd_map turn_zero]
    refine Tr.ite Iff.rfl (fun _ => Tr.err _) fun _ => ?_
    refine Tr.bind (t := List.map turn) ?_ fun F => Tr.same fun S => Tr.bind (bcast_tr turn turn (turn_mul hn) F S) fun FS => Tr.bind (hg' FS) fun out => Tr.ok _ ?_
    · have := hg (tab s.length fun n => if n < f.length / 2 then rd f (n + f.length / 2) else if n < f.length then rd f (n - f.length / 2) else 0)
      rw [map_tab] at this
      unfold Tr
      rw [← this]
      congr 2
      funext n
      split
      · rfl
      · split
        · rfl
        · rw [turn_zero]
    · rw [← getSlice_map, List.map_map, List.map_map]
      congr 2
      funext x
      exact mul_turn hn _ _

theorem fcToSc_tr (lib : Fl.NumLib rnd) (hc : ∀ A N m, Tr (List.map turn) (lib.conv A N m) (lib.conv (A.map turn) N m)) (hs : ∀ l, lib.sum (l.map turn) = turn (lib.sum l))
    (A : Arr2 (FC rnd)) (N M : Int) : Tr (List.map turn) (Fl.fcToSc rnd lib A N M) (Fl.fcToSc rnd lib (A.map turn) N M) := by
  have hb : ∀ m : Int, Tr (List.map turn) (Fl.bnmVecFc rnd lib A N m) (Fl.bnmVecFc rnd lib (A.map turn) N m) := by
    intro m
    unfold Fl.bnmVecFc
    have z := npFull_tr turn (N - |m| + 1) (0 : FC rnd)
    rw [turn_zero] at z
    refine Tr.bind (hc A N m) fun h => Tr.bind z fun out => Tr.forAll _ (fun out n => ?_) out
    unfold Fl.bnmBody
    refine Tr.same fun ynm => Tr.bind (getIdx_tr turn h 0) fun h0 => Tr.same fun y0 => ?_
    refine Tr.bind (t := List.map turn) ?_ fun out => Tr.ite Iff.rfl (fun _ => ?_) fun _ => Tr.ok _ rfl
    · have := setIdx_tr turn out (n - |m|) (lib.jp (-m) * h0 * ⟨y0, 0⟩)
      rwa [← turn_mul hn, ← mul_turn hn] at this
    · rw [getSlice_map]
      refine Tr.bind (bcast_tr (f := fun (a : FC rnd) (b : ℝ) => a * (⟨b, 0⟩ : FC rnd)) (g := fun (a : FC rnd) (b : ℝ) => a * (⟨b, 0⟩ : FC rnd)) turn turn (fun a b => turn_mul hn a _) _ _) fun p => Tr.bind (getIdx_tr turn out _) fun o => ?_
      have := setIdx_tr turn out (n - |m|) (o + lib.jp (-m) * 2 * lib.sum p)
      rwa [turn_add hn, ← mul_turn hn, ← hs] at this
  unfold Fl.fcToSc
  refine Tr.bind (hb 0) fun c => Tr.forAll _ (fun c m => ?_) c
  exact Tr.bind (hb (-m)) fun a => Tr.bind (hb m) fun b => Tr.ok _ (by simp)

/-! ### spht, vspht on the Python routines -/

theorem sphtPre_tr (lib : Fl.NumLib rnd) (hf : ∀ A, Tr (Arr2.map turn) (lib.fft A) (lib.fft (A.map turn))) (A : Arr2 (FC rnd)) :
    Tr (Arr2.map turn) (Fl.sphtPre rnd lib A) (Fl.sphtPre rnd lib (A.map turn)) := by
  unfold Fl.sphtPre
  exact Tr.bind (hf A) fun f => Tr.bind (fixEvenRow_tr turn_zero f) fun f => Tr.bind (padRows_tr turn_zero f _) fun f => sinFc_tr hn f

omit hn in
theorem extFourier_tr (lib : Fl.NumLib rnd) (hf : ∀ A, Tr (Arr2.map turn) (lib.fft A) (lib.fft (A.map turn))) (A : Arr2 (FC rnd)) :
    Tr (Arr2.map turn) (Fl.extFourier rnd lib A) (Fl.extFourier rnd lib (A.map turn)) := by
  unfold Fl.extFourier
  exact Tr.bind (hf A) fun f => Tr.bind (fixEvenRow_tr turn_zero f) fun f => padRows_tr turn_zero f _

omit hn in
theorem nrows_turned (p : SPatt (FC rnd)) : (SPatt.turned p).nrows = p.nrows := by
  obtain ⟨ds⟩ := p
  cases ds <;> rfl

omit hn in
theorem ncols_turned (p : SPatt (FC rnd)) : (SPatt.turned p).ncols = p.ncols := by
  obtain ⟨ds⟩ := p
  cases ds <;> rfl

/-- The part of `spht` common to both backends. -/
theorem spht_frame (lib : Fl.NumLib rnd) (hf : ∀ A, Tr (Arr2.map turn) (lib.fft A) (lib.fft (A.map turn)))
    (g g' : Arr2 (FC rnd) → Int → Int → Res (List (FC rnd))) (hg : ∀ A n m, Tr (List.map turn) (g A n m) (g' (A.map turn) n m)) (p : SPatt (FC rnd)) (N M : Option Int) :
    Tr (cmap turn)
      ((sphtArgs p.nrows p.ncols N M).bind fun (n, m) => (sphtGuards p.nrows p.ncols n m).bind fun _ => p.dsphere.bind fun ds => (Fl.sphtPre rnd lib ds).bind fun f =>
        (npFull (ncFormula n m) (0 : FC rnd)).bind fun _ => (g f n m).bind fun sc => ScalarCoefs.init (.arr sc) n m)
      ((sphtArgs (SPatt.turned p).nrows (SPatt.turned p).ncols N M).bind fun (n, m) => (sphtGuards (SPatt.turned p).nrows (SPatt.turned p).ncols n m).bind fun _ =>
        (SPatt.turned p).dsphere.bind fun ds => (Fl.sphtPre rnd lib ds).bind fun f =>
        (npFull (ncFormula n m) (0 : FC rnd)).bind fun _ => (g' f n m).bind fun sc => ScalarCoefs.init (.arr sc) n m) := by
  rw [nrows_turned, ncols_turned]
  exact Tr.same fun nm => Tr.same fun _ => Tr.bind (dsphere_tr p) fun ds => Tr.bind (sphtPre_tr hn lib hf ds) fun f => Tr.same fun _ => Tr.bind (hg f _ _) fun sc => init_tr turn sc _ _

/-- The part of `vspht` common to both backends. -/
theorem vspht_frame (lib : Fl.NumLib rnd) (hf : ∀ A, Tr (Arr2.map turn) (lib.fft A) (lib.fft (A.map turn)))
    (g g' h h' : Arr2 (FC rnd) → Int → Int → Res (List (FC rnd))) (hg : ∀ A n m, Tr (List.map turn) (g A n m) (g' (A.map turn) n m))
    (hh : ∀ A n m, Tr (List.map turn) (h A n m) (h' (A.map turn) n m)) (p q : TPatt (FC rnd)) (hq : q = TPatt.turned p) (N M : Option Int) :
    Tr (vmap turn)
      ((sphtArgs (.ok p.nrows) (.ok p.ncols) N M).bind fun (n, m) => (sphtGuards (.ok p.nrows) (.ok p.ncols) n m).bind fun _ =>
        (Fl.extFourier rnd lib p.td).bind fun ft =>
        (if p.td.rows = p.pd.rows ∧ p.td.cols = p.pd.cols then Fl.extFourier rnd lib p.pd else .error ⟨.valueError, "broadcast"⟩).bind fun pt =>
        (Fl.sinLdotFc rnd ft pt).bind fun l1 =>
        (Fl.sinLdotFc rnd (pt.map fun x => (⟨0, -1⟩ : FC rnd) * x) (ft.map fun x => (⟨0, 1⟩ : FC rnd) * x)).bind fun l2 =>
        (g l1 n m).bind fun sc1 => (h l2 n m).bind fun sc2 =>
        (VectorCoefs.init (.arr sc1) (.arr sc2) n m).bind fun vc => (Fl.nvec rnd n).bind fun w =>
        (vc.scoef1.windowed w).bind fun s1 => (vc.scoef2.windowed w).bind fun s2 => .ok { vc with scoef1 := s1, scoef2 := s2 })
      ((sphtArgs (.ok q.nrows) (.ok q.ncols) N M).bind fun (n, m) => (sphtGuards (.ok q.nrows) (.ok q.ncols) n m).bind fun _ =>
        (Fl.extFourier rnd lib q.td).bind fun ft =>
        (if q.td.rows = q.pd.rows ∧ q.td.cols = q.pd.cols then Fl.extFourier rnd lib q.pd else .error ⟨.valueError, "broadcast"⟩).bind fun pt =>
        (Fl.sinLdotFc rnd ft pt).bind fun l1 =>
        (Fl.sinLdotFc rnd (pt.map fun x => (⟨0, -1⟩ : FC rnd) * x) (ft.map fun x => (⟨0, 1⟩ : FC rnd) * x)).bind fun l2 =>
        (g' l1 n m).bind fun sc1 => (h' l2 n m).bind fun sc2 =>
        (VectorCoefs.init (.arr sc1) (.arr sc2) n m).bind fun vc => (Fl.nvec rnd n).bind fun w =>
        (vc.scoef1.windowed w).bind fun s1 => (vc.scoef2.windowed w).bind fun s2 => .ok { vc with scoef1 := s1, scoef2 := s2 }) := by
  subst hq
  refine Tr.same fun nm => Tr.same fun _ => Tr.bind (extFourier_tr lib hf p.td) fun ft => Tr.bind (t := Arr2.map turn) ?_ fun pt =>
    Tr.bind (sinLdotFc_tr hn ft pt) fun l1 => Tr.bind (t := Arr2.map turn) ?_ fun l2 => Tr.bind (hg l1 _ _) fun sc1 => Tr.bind (hh l2 _ _) fun sc2 =>
    Tr.bind (vinit_tr turn_zero sc1 sc2 _ _) fun vc => Tr.same fun w => Tr.bind (windowed_tr turn (turn_mul hn) vc.scoef1 w) fun s1 =>
    Tr.bind (windowed_tr turn (turn_mul hn) vc.scoef2 w) fun s2 => Tr.ok _ rfl
  · exact Tr.ite Iff.rfl (fun _ => extFourier_tr lib hf p.pd) fun _ => Tr.err _
  · have e : ∀ (c : FC rnd) (A : Arr2 (FC rnd)), (A.map turn).map (fun x => c * x) = (A.map fun x => c * x).map turn := fun c A => by
      simp only [map_mapA, mul_turn hn]
    rw [e, e]
    exact sinLdotFc_tr hn _ _

theorem spht_py_tr (lm : Fl.Libm) (np : Fl.Fft1 rnd) (sum : List (FC rnd) → FC rnd) (hg : Turns np.fft) (hg' : Turns np.ifft) (hs : ∀ l, sum (l.map turn) = turn (sum l))
    (p : SPatt (FC rnd)) (N M : Option Int) :
    Tr (cmap turn) (Fl.spht rnd (Fl.npLib rnd lm np sum) .py p N M) (Fl.spht rnd (Fl.npLib rnd lm np sum) .py (SPatt.turned p) N M) :=
  spht_frame hn _ (fft2Norm_tr hn np hg) _ _ (fcToSc_tr hn (Fl.npLib rnd lm np sum) (pyConv_tr hn np hg hg') hs) p N M

theorem vspht_py_tr (lm : Fl.Libm) (np : Fl.Fft1 rnd) (sum : List (FC rnd) → FC rnd) (hg : Turns np.fft) (hg' : Turns np.ifft) (hs : ∀ l, sum (l.map turn) = turn (sum l))
    (p : TPatt (FC rnd)) (N M : Option Int) :
    Tr (vmap turn) (Fl.vspht rnd (Fl.npLib rnd lm np sum) .py p N M) (Fl.vspht rnd (Fl.npLib rnd lm np sum) .py (TPatt.turned p) N M) :=
  vspht_frame hn _ (fft2Norm_tr hn np hg) _ _ _ _ (fcToSc_tr hn (Fl.npLib rnd lm np sum) (pyConv_tr hn np hg hg') hs)
    (fcToSc_tr hn (Fl.npLib rnd lm np sum) (pyConv_tr hn np hg hg') hs) p _ rfl N M

end
end TN
end Verif.Props
