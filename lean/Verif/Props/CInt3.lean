import Verif.Props.CInt2
/-!
# C89, the exact threshold: beyond 2^31 samples an `int` of csphi.c overflows
-/
namespace Verif.Props
open Verif
namespace XI

/-- `x` does what `c` does, or overflows. -/
def Sim {α : Type} (x c : Res α) : Prop := x = c ∨ Res.Raises x .undefinedBehaviour

theorem Sim.rfl' {α : Type} (x : Res α) : Sim x x := .inl rfl

theorem Sim.bind {α β : Type} {x c : Res α} {f g : α → Res β} (h : Sim x c) (hf : ∀ a, Sim (f a) (g a)) : Sim (x.bind f) (c.bind g) := by
  rcases h with rfl | ⟨m, rfl⟩
  · cases x with
    | error e => exact .inl rfl
    | ok a => exact hf a
  · exact .inr ⟨m, rfl⟩

theorem Sim.bindc {α β : Type} {x : Res α} {f g : α → Res β} (hf : ∀ a, Sim (f a) (g a)) : Sim (x.bind f) (x.bind g) := Sim.bind (.inl rfl) hf

theorem Sim.cks {α : Type} {l : List Int} {x c : Res α} (h : Sim x c) : Sim ((Verif.cks l).bind fun _ => x) c := by
  unfold Verif.cks
  split
  · exact h
  · exact .inr ⟨_, rfl⟩

theorem Sim.ck1 {l : List Int} : Sim (Verif.cks l) (.ok ()) := by
  unfold Verif.cks
  split
  · exact .inl rfl
  · exact .inr ⟨_, rfl⟩

theorem Sim.forM {σ ι : Type} {f g : σ → ι → Res σ} (h : ∀ s k, Sim (f s k) (g s k)) (l : List ι) (s : σ) : Sim (forM' l s f) (forM' l s g) := by
  induction l generalizing s with
  | nil => exact .inl rfl
  | cons x l ih =>
    unfold forM'
    exact Sim.bind (h s x) fun s' => ih s'

theorem Sim.unit {α ι : Type} {f : Unit → ι → Res Unit} {g : Unit → Res α} {c : Res α} (h : ∀ k, Sim (f () k) (.ok ())) (l : List ι) (hg : Sim (g ()) c) :
    Sim ((forM' l () f).bind g) c := by
  have : Sim (forM' l () f) (.ok ()) := by
    induction l with
    | nil => exact .inl rfl
    | cons x l ih =>
      unfold forM'
      exact Sim.bind (c := .ok ()) (h x) (g := fun _ => .ok ()) fun _ => ih
  exact Sim.bind (c := .ok ()) this (g := fun _ => c) fun _ => hg

theorem sYnnm (n m : Int) : Sim (xYnnm n m) (.ok (cYnnm n m)) := by
  unfold xYnnm
  refine Sim.cks ?_
  refine Sim.bind (c := .ok ()) (g := fun _ => .ok (cYnnm n m)) ?_ fun _ => .inl rfl
  split
  · exact .inl rfl
  · refine Sim.unit (fun k => Sim.ck1) _ ?_
    split
    · refine Sim.cks ?_
      have := Sim.unit (α := Unit) (g := fun _ => .ok ()) (c := .ok ()) (f := fun (_ : Unit) k => cks [n + k, n - k, k - 1]) (fun k => Sim.ck1) (pyRangeNeg (n - 1) (|m| - 1) 1) (.inl rfl)
      have e : ∀ x : Res Unit, x.bind (fun _ => .ok ()) = x := by intro x; cases x <;> rfl
      rw [e] at this
      exact this
    · exact .inl rfl

theorem sYnunm (n m : Int) (y : List ℝ) (len : Int) : Sim (xYnunm n m y len) (cYnunm n m y len) := by
  unfold xYnunm cYnunm
  refine Sim.bind (Sim.forM (fun s k => Sim.cks (.inl rfl)) _ _) fun y => Sim.cks ?_
  split
  · rcases sYnnm n m with e | ⟨msg, e⟩
    case inr => rw [e]; exact .inr ⟨msg, rfl⟩
    rw [e]
    simp only [Except.bind_ok]
    refine Sim.bindc fun y => Sim.cks ?_
    split
    · refine Sim.bindc fun y2 => Sim.cks (Sim.bindc fun y => ?_)
      refine Sim.forM (fun s k => ?_) _ _
      unfold xYnunmStep
      exact Sim.cks (.inl rfl)
    · exact .inl rfl
  · exact .inl rfl

theorem sFindQ (S : Int) : Sim (xFindQ S) (orDiverge (cFindQ S)) := by
  unfold xFindQ
  refine Sim.cks ?_
  have e : ∀ x : Res Int, x.bind (fun q => .ok q) = x := by intro x; cases x <;> rfl
  conv => rhs; rw [← e (orDiverge (cFindQ S))]
  exact Sim.bindc fun Q => Sim.cks (.inl rfl)

theorem sSData (s : List ℂ) (Q r n : Int) : Sim (xSData s Q r n) (cSData s Q r n) := by
  unfold xSData cSData
  refine Sim.cks (Sim.bindc fun s => Sim.cks ?_)
  refine Sim.bind (Sim.forM (fun s k => Sim.cks (.inl rfl)) _ _) fun s => ?_
  exact Sim.forM (fun s k => Sim.cks (.inl rfl)) _ _

theorem sHkmFc (g : List ℂ) (r c m : Int) (hkm : List ℂ) (len : Int) (ss : List ℂ) (Q : Int) (ff : List ℂ) (fw bw : KissCfg) (J : CJunk) :
    Sim (xHkmFc g r c m hkm len ss Q ff fw bw J) (cHkmFc g r c m hkm len ss Q ff fw bw J) := by
  unfold xHkmFc cHkmFc
  refine Sim.bindc fun ff => Sim.bindc fun hkm => Sim.cks ?_
  refine Sim.bind (Sim.forM (fun s k => Sim.cks (.inl rfl)) _ _) fun ff => Sim.bindc fun ff => ?_
  refine Sim.bind (Sim.forM (fun s k => Sim.cks (.inl rfl)) _ _) fun ff => Sim.bindc fun ff => ?_
  exact Sim.bind (Sim.forM (fun s k => Sim.cks (.inl rfl)) _ _) fun ff => .inl rfl

theorem sBnmBody (m : Int) (off : Int) (hkm : List ℂ) (Ly : Int) (st : List ℂ × List ℝ) (n : Int) :
    Sim (xBnmBody m off hkm Ly st n) (cBnmBody m off hkm Ly st n) := by
  unfold xBnmBody cBnmBody
  refine Sim.bind (sYnunm n m _ _) fun y => Sim.cks ?_
  refine Sim.bindc fun _ => Sim.bindc fun _ => Sim.bindc fun _ => ?_
  exact Sim.bind (Sim.forM (fun s k => Sim.cks (.inl rfl)) _ _) fun _ => .inl rfl

theorem sBnmFc (g : List ℂ) (r c N m off : Int) (ss : List ℂ) (Q Lhkm Ly : Int) (fw bw : KissCfg) (J : CJunk) (w : CWork) :
    Sim (xBnmFc g r c N m off ss Q Lhkm Ly fw bw J w) (cBnmFc g r c N m off ss Q Lhkm Ly fw bw J w) := by
  unfold xBnmFc cBnmFc
  refine Sim.cks (Sim.bind (sHkmFc ..) fun hf => ?_)
  exact Sim.bind (Sim.forM (fun s k => sBnmBody ..) _ _) fun _ => .inl rfl

theorem sInds (N M : Int) (inds : List Int) : Sim (xInds N M inds) (cInds N M inds) := by
  unfold xInds cInds
  refine Sim.bindc fun inds => ?_
  exact Sim.bind (Sim.forM (fun s k => Sim.cks (.inl rfl)) _ _) fun _ => .inl rfl

theorem sFcToSc (g : List ℂ) (r c : Int) (sc : List ℂ) (N M : Int) (J : CJunk) : Sim (xFcToSc g r c sc N M J) (cFcToSc g r c sc N M J) := by
  unfold xFcToSc cFcToSc
  refine Sim.cks (Sim.bind (sFindQ _) fun Q => Sim.bindc fun s => Sim.bind (sSData ..) fun s => ?_)
  refine Sim.bindc fun fw => Sim.bindc fun bw => Sim.bindc fun s => Sim.bindc fun hkm => Sim.bindc fun y => Sim.bindc fun ff => Sim.bindc fun inds => Sim.bindc fun inds => ?_
  refine Sim.bind (sInds ..) fun inds => Sim.bind (sBnmFc ..) fun w => ?_
  refine Sim.bind (Sim.forM (fun s k => Sim.cks ?_) _ _) fun _ => .inl rfl
  exact Sim.bindc fun _ => Sim.bind (sBnmFc ..) fun _ => Sim.bindc fun _ => sBnmFc ..

theorem sFcvecMSc (sc : List ℂ) (off m N r c M len : Int) (st : List ℂ × List ℝ) :
    Sim (xFcvecMSc sc off m N r c M len st) (cFcvecMSc sc off m N r c M len st) := by
  unfold xFcvecMSc cFcvecMSc
  refine Sim.cks (Sim.bind (Sim.forM (fun s k => ?_) _ _) fun st => ?_)
  · unfold xFcvecAcc cFcvecAcc
    refine Sim.cks (Sim.bind (sYnunm ..) fun y => ?_)
    exact Sim.bind (Sim.forM (fun s k => Sim.cks (.inl rfl)) _ _) fun _ => .inl rfl
  · refine Sim.bind (Sim.forM (fun s k => Sim.cks (.inl rfl)) _ _) fun F => ?_
    exact Sim.bind (Sim.forM (fun s k => Sim.cks (.inl rfl)) _ _) fun _ => .inl rfl

theorem sScToFc (fd : List ℂ) (r c : Int) (sc : List ℂ) (N M : Int) (J : CJunk) : Sim (xScToFc fd r c sc N M J) (cScToFc fd r c sc N M J) := by
  unfold xScToFc cScToFc
  refine Sim.cks (Sim.bindc fun y => Sim.bindc fun inds => Sim.bindc fun inds => Sim.bind (sInds ..) fun inds => ?_)
  refine Sim.bind (Sim.forM (fun s k => Sim.cks ?_) _ _) fun _ => .inl rfl
  split
  · exact Sim.cks (Sim.bindc fun _ => Sim.bind (sFcvecMSc ..) fun _ => Sim.bindc fun _ => sFcvecMSc ..)
  · split
    · exact Sim.cks (Sim.bindc fun _ => sFcvecMSc ..)
    · exact .inl rfl

theorem cks_inv {l : List Int} {u : Unit} (h : cks l = .ok u) : ∀ x ∈ l, InInt x := by
  unfold cks at h
  split at h
  · assumption
  · cases h

theorem forM'_mem {σ ι : Type} {f : σ → ι → Res σ} {l : List ι} {s t : σ} (h : forM' l s f = .ok t) {x : ι} (hx : x ∈ l) : ∃ a b, f a x = .ok b := by
  induction l generalizing s with
  | nil => cases hx
  | cons y l ih =>
    unfold forM' at h
    obtain ⟨s', h1, h2⟩ := (res_bind_ok _ _ _).mp h
    rcases List.mem_cons.mp hx with rfl | hx
    · exact ⟨s, s', h1⟩
    · exact ih h2 hx

/-- If `fc_to_sc` gets through with a mode of order -1, the last flat index is an `int`. -/
theorem fcToSc_bound {g : List ℂ} {r c : ℕ} {sc : List ℂ} {N M : ℕ} {J : CJunk} {out : List ℂ} (hr : r % 2 = 0) (hr0 : 0 < r) (hM : 1 ≤ M)
    (h : xFcToSc g r c sc N M J = .ok out) : (c : ℤ) * r ≤ 2 ^ 31 := by
  unfold xFcToSc at h
  iterate 14 obtain ⟨_, -, h⟩ := (res_bind_ok _ _ _).mp h
  obtain ⟨w, h, -⟩ := (res_bind_ok _ _ _).mp h
  obtain ⟨w, w', h⟩ := forM'_mem h (x := 1) (mem_pyRange.mpr (by omega))
  obtain ⟨_, -, h⟩ := (res_bind_ok _ _ _).mp h
  obtain ⟨_, -, h⟩ := (res_bind_ok _ _ _).mp h
  obtain ⟨_, h, -⟩ := (res_bind_ok _ _ _).mp h
  unfold xBnmFc at h
  obtain ⟨_, -, h⟩ := (res_bind_ok _ _ _).mp h
  obtain ⟨_, h, -⟩ := (res_bind_ok _ _ _).mp h
  unfold xHkmFc at h
  obtain ⟨_, -, h⟩ := (res_bind_ok _ _ _).mp h
  obtain ⟨_, -, h⟩ := (res_bind_ok _ _ _).mp h
  obtain ⟨_, -, h⟩ := (res_bind_ok _ _ _).mp h
  obtain ⟨_, h, -⟩ := (res_bind_ok _ _ _).mp h
  rw [Int.tdiv_eq_ediv_of_nonneg (by omega)] at h
  obtain ⟨_, _, h⟩ := forM'_mem h (x := (r : ℤ) / 2 - 1) (mem_pyRange.mpr (by omega))
  obtain ⟨_, h, -⟩ := (res_bind_ok _ _ _).mp h
  have := cks_inv h ((c : ℤ) * ((r : ℤ) / 2 + ((r : ℤ) / 2 - 1)) + (if (-1 : ℤ) ≥ 0 then -1 else (c : ℤ) + -1)) (by simp)
  rw [show (r : ℤ) / 2 + ((r : ℤ) / 2 - 1) = r - 1 by omega, if_neg (by omega), Int.mul_sub, mul_one] at this
  unfold InInt at this
  omega

/-- If `sc_to_fc` gets through with a mode of order -1 on four rows or more, the last flat index is an `int`. -/
theorem scToFc_bound {fd : List ℂ} {r c : ℕ} {sc : List ℂ} {N M : ℕ} {J : CJunk} {out : List ℂ} (hr : r % 2 = 0) (hr0 : 4 ≤ r) (hM : 1 ≤ M)
    (h : xScToFc fd r c sc N M J = .ok out) : (c : ℤ) * r ≤ 2 ^ 31 := by
  unfold xScToFc at h
  iterate 5 obtain ⟨_, -, h⟩ := (res_bind_ok _ _ _).mp h
  obtain ⟨w, h, -⟩ := (res_bind_ok _ _ _).mp h
  rw [Int.tdiv_eq_ediv_of_nonneg (by omega)] at h
  obtain ⟨w, w', h⟩ := forM'_mem h (x := 0) (mem_pyRange.mpr (by omega))
  obtain ⟨_, -, h⟩ := (res_bind_ok _ _ _).mp h
  rw [if_pos (by omega)] at h
  iterate 4 obtain ⟨_, -, h⟩ := (res_bind_ok _ _ _).mp h
  unfold xFcvecMSc at h
  iterate 3 obtain ⟨_, -, h⟩ := (res_bind_ok _ _ _).mp h
  obtain ⟨_, h, -⟩ := (res_bind_ok _ _ _).mp h
  rw [Int.tmod_eq_emod_of_nonneg (by omega), if_pos (by omega), Int.tdiv_eq_ediv_of_nonneg (by omega)] at h
  obtain ⟨_, _, h⟩ := forM'_mem h (x := 0) (mem_pyRange.mpr (by omega))
  obtain ⟨_, h, -⟩ := (res_bind_ok _ _ _).mp h
  have := cks_inv h ((c : ℤ) * ((r : ℤ) - 1 - 0) + ((c : ℤ) - 1 - 0)) (by simp)
  rw [sub_zero, sub_zero, Int.mul_sub, mul_one] at this
  unfold InInt at this
  omega

theorem sBackendFcToSc (J : ℕ → CJunk) (call : ℕ) (G : Arr2 ℂ) (n m : Int) : Sim (xBackendFcToSc J call G n m) ((Backend.c J).fcToSc call G n m) := by
  unfold xBackendFcToSc Backend.fcToSc
  exact Sim.bindc fun _ => Sim.cks (sFcToSc ..)

theorem sBackendScToFc (J : ℕ → CJunk) (call : ℕ) (vec : List ℂ) (n m r c : Int) : Sim (xBackendScToFc J call vec n m r c) ((Backend.c J).scToFc call vec n m r c) := by
  unfold xBackendScToFc Backend.scToFc
  exact Sim.bindc fun _ => Sim.cks (Sim.bind (sScToFc ..) fun _ => .inl rfl)

end XI
open XI

/-- C89: for an accepted `spht` call with `mmax ≥ 1`, the C extension overflows an `int` exactly when the padded pattern has more than 2^31 samples. -/
theorem c89_spht_iff (J : ℕ → CJunk) (D : Arr2 ℂ) (hR : D.rows % 2 = 0) (hR0 : 0 < D.rows) (hsz : D.rows ≤ 2 ^ 29) (n m : ℤ) (h0 : 1 ≤ m)
    (hmn : m ≤ n) (hn : n ≤ ((D.rows / 2 + 1 : ℕ) : ℤ) - 2) (hm : 2 * m < D.cols) (hC : D.cols % 2 = 0) :
    Res.Raises (xSpht J ⟨.arr D⟩ (some n) (some m)) .undefinedBehaviour ↔ 2 ^ 31 < (D.rows + 2) * D.cols := by
  obtain ⟨c, ec, -⟩ := c35_accepts (.c J) D hR hR0 hsz n m (by omega) hmn hn (by omega) (by omega)
  constructor
  · rintro ⟨msg, h⟩
    by_contra hlt
    rw [c89_spht J D hR hR0 hsz (by omega) n m (by omega), ← c28_spht J D hR hR0 hsz n m (by omega), ec] at h
    cases h
  · intro hbig
    have hs : Sim (xSpht J ⟨.arr D⟩ (some n) (some m)) (spht (.c J) ⟨.arr D⟩ (some n) (some m)) := by
      unfold xSpht spht
      exact Sim.bindc fun _ => Sim.bindc fun _ => Sim.bindc fun _ => Sim.bindc fun _ => Sim.bindc fun _ => Sim.bindc fun _ =>
        Sim.bind (sBackendFcToSc ..) fun _ => .inl rfl
    rcases hs with hs | hs
    · exfalso
      rw [ec] at hs
      have e3 : SPatt.dsphere (⟨.arr D⟩ : SPatt ℂ) = .ok D := rfl
      have e4 : sphtArgs (SPatt.nrows (⟨.arr D⟩ : SPatt ℂ)) (SPatt.ncols (⟨.arr D⟩ : SPatt ℂ)) (some n) (some m) = .ok (n, m) := rfl
      obtain ⟨n, rfl⟩ := Int.eq_ofNat_of_zero_le (show 0 ≤ n by omega)
      obtain ⟨m, rfl⟩ := Int.eq_ofNat_of_zero_le (show 0 ≤ m by omega)
      obtain ⟨E, eE, hEr, hEc, hEv⟩ := extFourier_spec D hR hR0 (by omega)
      obtain ⟨G, eG, hGr, hGc, -⟩ := sinFc_spec E (D.rows / 2) (by omega) (by omega) (fhat D) hEv (fhat_outer D) (by omega)
      unfold xSpht at hs
      rw [e4, e3] at hs
      simp only [Except.bind_ok] at hs
      rw [eE] at hs
      simp only [Except.bind_ok] at hs
      obtain ⟨_, -, hs⟩ := (res_bind_ok _ _ _).mp hs
      rw [eG] at hs
      simp only [Except.bind_ok] at hs
      obtain ⟨_, -, hs⟩ := (res_bind_ok _ _ _).mp hs
      obtain ⟨v, hs, -⟩ := (res_bind_ok _ _ _).mp hs
      unfold xBackendFcToSc at hs
      obtain ⟨_, -, hs⟩ := (res_bind_ok _ _ _).mp hs
      obtain ⟨_, -, hs⟩ := (res_bind_ok _ _ _).mp hs
      have := fcToSc_bound (by omega) (by omega) (by omega) hs
      rw [hGr, hGc, hEr, hEc, mul_comm] at this
      have : (D.rows + 2) * D.cols ≤ 2 ^ 31 := by exact_mod_cast this
      omega
    · exact hs

/-- C89: for an accepted `ispht` call with `mmax ≥ 1` and `nrows ≥ nmax + 2`, the C extension overflows an `int` exactly when the doubled grid has more than 2^31 samples. -/
theorem c89_ispht_iff (J : ℕ → CJunk) (c : ScalarCoefs ℂ) (hc : c.WellFormed) (nr nc : ℤ) (hm : 1 ≤ c.mmax) (h1 : c.nmax + 2 ≤ nr)
    (h2 : 2 * c.mmax + 2 ≤ nc) (h3 : nc % 2 = 0) :
    Res.Raises (xIspht J c (some nr) (some nc)) .undefinedBehaviour ↔ 2 ^ 31 < (2 * nr - 2) * nc := by
  have hw := hc.wf
  have hm0 := hw.m0
  have hmn := hw.mn
  obtain ⟨p, ep, -⟩ := c36_accepts (.c J) c hc nr nc (by omega) (by omega) (by omega)
  constructor
  · rintro ⟨msg, h⟩
    by_contra hlt
    rw [c89_ispht J c hc nr nc (by omega) (by omega), ← c28_ispht J c hc nr nc (by omega), ep] at h
    cases h
  · intro hbig
    have hs : Sim (xIspht J c (some nr) (some nc)) (ispht (.c J) c (some nr) (some nc)) := by
      unfold xIspht ispht
      exact Sim.bindc fun _ => Sim.bind (sBackendScToFc ..) fun _ => .inl rfl
    rcases hs with hs | hs
    · exfalso
      rw [ep] at hs
      obtain ⟨n, hn⟩ := Int.eq_ofNat_of_zero_le (show 0 ≤ c.nmax by omega)
      obtain ⟨m, hm'⟩ := Int.eq_ofNat_of_zero_le hm0
      obtain ⟨r, hr⟩ := Int.eq_ofNat_of_zero_le (show 0 ≤ 2 * nr - 2 by omega)
      obtain ⟨k, hk⟩ := Int.eq_ofNat_of_zero_le (show 0 ≤ nc by omega)
      unfold xIspht at hs
      simp only [Option.getD_some] at hs
      obtain ⟨_, -, hs⟩ := (res_bind_ok _ _ _).mp hs
      obtain ⟨v, hs, -⟩ := (res_bind_ok _ _ _).mp hs
      unfold xBackendScToFc at hs
      obtain ⟨z, hz, hs⟩ := (res_bind_ok _ _ _).mp hs
      obtain ⟨_, -, hs⟩ := (res_bind_ok _ _ _).mp hs
      obtain ⟨_, hs, -⟩ := (res_bind_ok _ _ _).mp hs
      have hz' : z.rows = r ∧ z.cols = k := by
        unfold npZeros2 at hz
        rw [hr, hk, if_neg (by omega)] at hz
        cases hz
        exact ⟨by simp, by simp⟩
      rw [hz'.1, hz'.2, hn, hm'] at hs
      have := scToFc_bound (by omega) (by omega) (by omega) hs
      rw [hr, hk, mul_comm] at hbig
      omega
    · exact hs

/-- C89, non-vacuity: a small pattern within the bounds, and a 65536 x 65536 one (64 GB of samples) whose transform overflows. -/
theorem c89_example (J : ℕ → CJunk) :
    xSpht J ⟨.arr (Arr2.ofFn 4 4 fun i j => (i : ℂ) + j)⟩ (some 1) (some 1) = spht .py ⟨.arr (Arr2.ofFn 4 4 fun i j => (i : ℂ) + j)⟩ (some 1) (some 1) ∧
    (∃ c, spht .py ⟨.arr (Arr2.ofFn 4 4 fun i j => (i : ℂ) + j)⟩ (some 1) (some 1) = .ok c) ∧
    Res.Raises (xSpht J ⟨.arr (Arr2.ofFn 65536 65536 fun _ _ => 1)⟩ (some 1) (some 1)) .undefinedBehaviour := by
  refine ⟨c89_spht J _ (by simp) (by simp) (by simp) (by simp) 1 1 (by norm_num), ?_, ?_⟩
  · obtain ⟨c, e, -⟩ := c35_accepts .py (Arr2.ofFn 4 4 fun i j => (i : ℂ) + j) (by simp) (by simp) (by simp) 1 1 (by norm_num) (by norm_num) (by simp) (by simp) (by simp)
    exact ⟨c, e⟩
  · exact (c89_spht_iff J _ (by simp) (by simp) (by simp) 1 1 (by norm_num) (by norm_num) (by simp) (by simp) (by simp)).mpr (by simp)

end Verif.Props
