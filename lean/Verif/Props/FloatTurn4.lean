import Verif.Props.FloatTurn3
/-!
# C127, part 4: analysis in the compiled extension
-/
namespace Verif.Props
open Verif
variable {rnd : ℝ → ℝ}
namespace TN
section
variable (hn : ∀ x, rnd (-x) = -rnd x)
include hn

omit hn in
theorem turn_re (z : FC rnd) : (turn z).re = -z.im := rfl
omit hn in
theorem turn_im (z : FC rnd) : (turn z).im = z.re := rfl
omit hn in
theorem turn_mk (a b : ℝ) : turn (⟨a, b⟩ : FC rnd) = ⟨-b, a⟩ := rfl

theorem rn {x y : ℝ} (h : x = -y) : rnd x = -rnd y := by rw [h, hn]

/-! ### kiss_fft -/

theorem out4_turn (inv : Bool) (f a1 w1 a2 w2 a3 w3 : FC rnd) :
    Fl.kfOut4 rnd inv (turn f) (turn a1) w1 (turn a2) w2 (turn a3) w3 =
      (turn (Fl.kfOut4 rnd inv f a1 w1 a2 w2 a3 w3).1, turn (Fl.kfOut4 rnd inv f a1 w1 a2 w2 a3 w3).2.1, turn (Fl.kfOut4 rnd inv f a1 w1 a2 w2 a3 w3).2.2.1,
        turn (Fl.kfOut4 rnd inv f a1 w1 a2 w2 a3 w3).2.2.2) := by
  unfold Fl.kfOut4
  simp only [turn_mul hn, ← turn_sub hn, ← turn_add hn]
  generalize f - a2 * w2 = s5
  generalize a1 * w1 - a3 * w3 = s4
  have e1 : (⟨rnd ((turn s5).re - (turn s4).im), rnd ((turn s5).im + (turn s4).re)⟩ : FC rnd) = turn ⟨rnd (s5.re - s4.im), rnd (s5.im + s4.re)⟩ := by
    simp only [turn_re, turn_im, turn_mk]
    exact fc_mk (rn hn (by ring)) (by rw [sub_eq_add_neg])
  have e2 : (⟨rnd ((turn s5).re + (turn s4).im), rnd ((turn s5).im - (turn s4).re)⟩ : FC rnd) = turn ⟨rnd (s5.re + s4.im), rnd (s5.im - s4.re)⟩ := by
    simp only [turn_re, turn_im, turn_mk]
    exact fc_mk (rn hn (by ring)) (by rw [sub_neg_eq_add])
  cases inv
  · simp only [Bool.false_eq_true, if_false, e1, e2]
  · simp only [if_true, e1, e2]

theorem out3_turn (ep f a1 w1 a2 w2 : FC rnd) :
    Fl.kfOut3 rnd ep (turn f) (turn a1) w1 (turn a2) w2 =
      (turn (Fl.kfOut3 rnd ep f a1 w1 a2 w2).1, turn (Fl.kfOut3 rnd ep f a1 w1 a2 w2).2.1, turn (Fl.kfOut3 rnd ep f a1 w1 a2 w2).2.2) := by
  unfold Fl.kfOut3
  simp only [turn_mul hn, ← turn_sub hn, ← turn_add hn]
  generalize a1 * w1 + a2 * w2 = s3
  generalize a1 * w1 - a2 * w2 = s0
  simp only [turn_re, turn_im, turn_mk]
  have e1 : rnd (-s3.im * 0.5) = -rnd (s3.im * 0.5) := rn hn (by ring)
  have e2 : rnd (-s0.im * ep.im) = -rnd (s0.im * ep.im) := rn hn (by ring)
  have e3 : rnd (-f.im - -rnd (s3.im * 0.5)) = -rnd (f.im - rnd (s3.im * 0.5)) := rn hn (by ring)
  rw [e1, e2, e3]
  refine Prod.ext rfl (Prod.ext ?_ ?_)
  · exact fc_mk (rn hn (by ring)) (by rw [← sub_eq_add_neg])
  · exact fc_mk (rn hn (by ring)) (by rw [sub_neg_eq_add])

theorem out5_turn (ya yb s0 a1 w1 a2 w2 a3 w3 a4 w4 : FC rnd) :
    Fl.kfOut5 rnd ya yb (turn s0) (turn a1) w1 (turn a2) w2 (turn a3) w3 (turn a4) w4 =
      (turn (Fl.kfOut5 rnd ya yb s0 a1 w1 a2 w2 a3 w3 a4 w4).1, turn (Fl.kfOut5 rnd ya yb s0 a1 w1 a2 w2 a3 w3 a4 w4).2.1,
        turn (Fl.kfOut5 rnd ya yb s0 a1 w1 a2 w2 a3 w3 a4 w4).2.2.1, turn (Fl.kfOut5 rnd ya yb s0 a1 w1 a2 w2 a3 w3 a4 w4).2.2.2.1,
        turn (Fl.kfOut5 rnd ya yb s0 a1 w1 a2 w2 a3 w3 a4 w4).2.2.2.2) := by
  unfold Fl.kfOut5
  simp only [turn_mul hn, ← turn_sub hn, ← turn_add hn]
  generalize a1 * w1 + a4 * w4 = s7
  generalize a1 * w1 - a4 * w4 = s10
  generalize a2 * w2 + a3 * w3 = s8
  generalize a2 * w2 - a3 * w3 = s9
  have o0 : (⟨rnd ((turn s0).re + rnd ((turn s7).re + (turn s8).re)), rnd ((turn s0).im + rnd ((turn s7).im + (turn s8).im))⟩ : FC rnd) =
      turn ⟨rnd (s0.re + rnd (s7.re + s8.re)), rnd (s0.im + rnd (s7.im + s8.im))⟩ := by
    simp only [turn_re, turn_im, turn_mk]
    refine fc_mk ?_ rfl
    rw [rn hn (show -s7.im + -s8.im = -(s7.im + s8.im) by ring)]
    exact rn hn (by ring)
  have s5 : ∀ p q : ℝ, (⟨rnd (rnd ((turn s0).re + rnd ((turn s7).re * p)) + rnd ((turn s8).re * q)), rnd (rnd ((turn s0).im + rnd ((turn s7).im * p)) + rnd ((turn s8).im * q))⟩ : FC rnd) =
      turn ⟨rnd (rnd (s0.re + rnd (s7.re * p)) + rnd (s8.re * q)), rnd (rnd (s0.im + rnd (s7.im * p)) + rnd (s8.im * q))⟩ := by
    intro p q
    simp only [turn_re, turn_im, turn_mk]
    refine fc_mk ?_ rfl
    rw [rn hn (show -s7.im * p = -(s7.im * p) by ring), rn hn (show -s8.im * q = -(s8.im * q) by ring), rn hn (show -s0.im + -rnd (s7.im * p) = -(s0.im + rnd (s7.im * p)) by ring)]
    exact rn hn (by ring)
  have s6 : (⟨rnd (rnd ((turn s10).im * ya.im) + rnd ((turn s9).im * yb.im)), rnd (-rnd ((turn s10).re * ya.im) - rnd ((turn s9).re * yb.im))⟩ : FC rnd) =
      turn ⟨rnd (rnd (s10.im * ya.im) + rnd (s9.im * yb.im)), rnd (-rnd (s10.re * ya.im) - rnd (s9.re * yb.im))⟩ := by
    simp only [turn_re, turn_im, turn_mk]
    refine fc_mk (rn hn (by ring)) ?_
    rw [rn hn (show -s10.im * ya.im = -(s10.im * ya.im) by ring), rn hn (show -s9.im * yb.im = -(s9.im * yb.im) by ring)]
    congr 1; ring
  have s12 : (⟨rnd (-rnd ((turn s10).im * yb.im) + rnd ((turn s9).im * ya.im)), rnd (rnd ((turn s10).re * yb.im) - rnd ((turn s9).re * ya.im))⟩ : FC rnd) =
      turn ⟨rnd (-rnd (s10.im * yb.im) + rnd (s9.im * ya.im)), rnd (rnd (s10.re * yb.im) - rnd (s9.re * ya.im))⟩ := by
    simp only [turn_re, turn_im, turn_mk]
    refine fc_mk (rn hn (by ring)) ?_
    rw [rn hn (show -s10.im * yb.im = -(s10.im * yb.im) by ring), rn hn (show -s9.im * ya.im = -(s9.im * ya.im) by ring)]
    congr 1; ring
  rw [o0, s5, s5, s6, s12]
  simp only [← turn_sub hn, ← turn_add hn]

theorem kfBfly_tr (cfg : Fl.KissCfg rnd) (F : List (FC rnd)) (fo fs m p : Int) : Tr (List.map turn) (Fl.kfBfly rnd cfg F fo fs m p) (Fl.kfBfly rnd cfg (F.map turn) fo fs m p) := by
  unfold Fl.kfBfly
  refine Tr.ite Iff.rfl (fun _ => Tr.forAll _ (fun F u => ?_) F) fun _ => Tr.ite Iff.rfl (fun _ => Tr.same fun ep => Tr.forAll _ (fun F u => ?_) F) fun _ =>
    Tr.ite Iff.rfl (fun _ => Tr.forAll _ (fun F u => ?_) F) fun _ => Tr.ite Iff.rfl (fun _ => Tr.same fun ya => Tr.same fun yb => Tr.forAll _ (fun F u => ?_) F) fun _ =>
    Tr.forAll _ (fun F u => ?_) F
  · unfold Fl.kfBfly2Body
    refine Tr.bind (cGet_tr turn F _) fun f2 => Tr.same fun w => Tr.bind (cGet_tr turn F _) fun f => ?_
    simp only [turn_mul hn, ← turn_sub hn, ← turn_add hn]
    exact Tr.bind (cSet_tr turn F _ _) fun F => cSet_tr turn F _ _
  · unfold Fl.kfBfly3Body
    refine Tr.bind (cGet_tr turn F _) fun a1 => Tr.same fun w1 => Tr.bind (cGet_tr turn F _) fun a2 => Tr.same fun w2 => Tr.bind (cGet_tr turn F _) fun f => ?_
    simp only [out3_turn hn]
    exact Tr.bind (cSet_tr turn F _ _) fun F => Tr.bind (cSet_tr turn F _ _) fun F => cSet_tr turn F _ _
  · unfold Fl.kfBfly4Body
    refine Tr.bind (cGet_tr turn F _) fun a1 => Tr.same fun w1 => Tr.bind (cGet_tr turn F _) fun a2 => Tr.same fun w2 => Tr.bind (cGet_tr turn F _) fun a3 => Tr.same fun w3 =>
      Tr.bind (cGet_tr turn F _) fun f => ?_
    simp only [out4_turn hn]
    exact Tr.bind (cSet_tr turn F _ _) fun F => Tr.bind (cSet_tr turn F _ _) fun F => Tr.bind (cSet_tr turn F _ _) fun F => cSet_tr turn F _ _
  · unfold Fl.kfBfly5Body
    refine Tr.bind (cGet_tr turn F _) fun s0 => Tr.bind (cGet_tr turn F _) fun a1 => Tr.same fun w1 => Tr.bind (cGet_tr turn F _) fun a2 => Tr.same fun w2 =>
      Tr.bind (cGet_tr turn F _) fun a3 => Tr.same fun w3 => Tr.bind (cGet_tr turn F _) fun a4 => Tr.same fun w4 => ?_
    simp only [out5_turn hn]
    exact Tr.bind (cSet_tr turn F _ _) fun F => Tr.bind (cSet_tr turn F _ _) fun F => Tr.bind (cSet_tr turn F _ _) fun F => Tr.bind (cSet_tr turn F _ _) fun F => cSet_tr turn F _ _
  · unfold Fl.kfBflyGenBody
    refine Tr.bind (Tr.mapM (fun q => cGet_tr turn F _) _) fun sc => Tr.forAll _ (fun F q => ?_) F
    refine Tr.bind (cGet_tr turn sc 0) fun x0 => Tr.bind (t := fun s : FC rnd × Int => (turn s.1, s.2)) ?_ fun s => cSet_tr turn F _ _
    refine Tr.forAll (t := fun s : FC rnd × Int => (turn s.1, s.2)) _ (fun s k => ?_) (x0, 0)
    unfold Fl.kfGenInner
    refine Tr.bind (cGet_tr turn sc k) fun x => Tr.same fun w => Tr.ok _ ?_
    simp only [turn_mul hn, ← turn_add hn]

theorem kfWork_tr (cfg : Fl.KissCfg rnd) (fin : List (FC rnd)) : ∀ (fac : List Int) (F : List (FC rnd)) (fo fi fs : Int),
    Tr (List.map turn) (Fl.kfWork rnd cfg fin fac F fo fi fs) (Fl.kfWork rnd cfg (fin.map turn) fac (F.map turn) fo fi fs)
  | [], _, _, _, _ => by unfold Fl.kfWork; exact Tr.err _
  | [_], _, _, _, _ => by unfold Fl.kfWork; exact Tr.err _
  | p :: m :: fac, F, fo, fi, fs => by
    unfold Fl.kfWork
    refine Tr.ite Iff.rfl (fun _ => Tr.err _) fun _ => Tr.bind (t := List.map turn) ?_ fun F => kfBfly_tr hn cfg F fo fs m p
    refine Tr.ite Iff.rfl (fun _ => Tr.forAll _ (fun F j => ?_) F) fun _ => Tr.forAll _ (fun F j => kfWork_tr cfg fin fac F _ _ _) F
    exact Tr.bind (cGet_tr turn fin _) fun x => cSet_tr turn F _ x

theorem kissFft_tr (cfg : Fl.KissCfg rnd) (buf : List (FC rnd)) (J : ℕ → FC rnd) :
    Tr (List.map turn) (Fl.kissFft rnd cfg buf J) (Fl.kissFft rnd cfg (buf.map turn) fun i => turn (J i)) := by
  unfold Fl.kissFft
  refine Tr.bind (cMalloc_tr turn _ J) fun tmp => Tr.bind (kfWork_tr hn cfg buf _ tmp 0 0 1) fun tmp => ?_
  simp only [List.length_map, rd_map turn_zero]
  refine Tr.ite Iff.rfl (fun _ => Tr.ok _ ?_) fun _ => Tr.err _
  rw [map_tab]
  congr 1
  funext i
  split <;> rfl

/-! ### csphi.c -/

theorem hkm_tr (A : List (FC rnd)) (Nrow Ncol m : Int) (hkm : List (FC rnd)) (len : Int) (ss : List (FC rnd)) (Q : Int) (ff : List (FC rnd)) (fw bw : Fl.KissCfg rnd)
    (J J' : Int → ℕ → FC rnd) (h1 : ∀ i, J' (4 * m + 1) i = turn (J (4 * m + 1) i)) (h2 : ∀ i, J' (4 * m + 2) i = turn (J (4 * m + 2) i)) :
    Tr (fun p : List (FC rnd) × List (FC rnd) => (p.1.map turn, p.2.map turn)) (Fl.cHkmFc rnd A Nrow Ncol m hkm len ss Q ff fw bw J)
      (Fl.cHkmFc rnd (A.map turn) Nrow Ncol m (hkm.map turn) len ss Q (ff.map turn) fw bw J') := by
  unfold Fl.cHkmFc
  have e1 : J' (4 * m + 1) = fun i => turn (J (4 * m + 1) i) := funext h1
  have e2 : J' (4 * m + 2) = fun i => turn (J (4 * m + 2) i) := funext h2
  rw [e1, e2]
  refine Tr.bind (cMemset0_tr turn_zero ff Q) fun ff => Tr.bind (cMemset0_tr turn_zero hkm len) fun hkm => Tr.bind (Tr.forAll _ (fun ff k => ?_) ff) fun ff =>
    Tr.bind (kissFft_tr hn fw ff _) fun ff => Tr.bind (Tr.forAll _ (fun ff k => ?_) ff) fun ff => Tr.bind (kissFft_tr hn bw ff _) fun ff =>
    Tr.bind (Tr.forAll _ (fun hkm k => ?_) hkm) fun hkm => Tr.ok _ rfl
  · exact Tr.bind (cGet_tr turn A _) fun a => Tr.bind (cSet_tr turn ff _ a) fun ff => Tr.bind (cGet_tr turn A _) fun b => cSet_tr turn ff _ b
  · refine Tr.bind (cGet_tr turn ff _) fun f => Tr.same fun s => ?_
    rw [mul_turn hn]
    exact cSet_tr turn ff _ _
  · refine Tr.bind (cGet_tr turn ff _) fun f => ?_
    have := cSet_tr turn hkm k ⟨rnd (rnd (Fl.fourPi rnd * f.re) / Q), rnd (rnd (Fl.fourPi rnd * f.im) / Q)⟩
    have e : turn (⟨rnd (rnd (Fl.fourPi rnd * f.re) / Q), rnd (rnd (Fl.fourPi rnd * f.im) / Q)⟩ : FC rnd) =
        ⟨rnd (rnd (Fl.fourPi rnd * (turn f).re) / Q), rnd (rnd (Fl.fourPi rnd * (turn f).im) / Q)⟩ := by
      simp only [turn_re, turn_im, turn_mk]
      refine fc_mk ?_ rfl
      rw [mul_neg, hn, neg_div, hn]
    rwa [e] at this

theorem cBnmBody_tr (m off : Int) (hkm : List (FC rnd)) (Ly : Int) (st : List (FC rnd) × List ℝ) (n : Int) :
    Tr fy (Fl.cBnmBody rnd m off hkm Ly st n) (Fl.cBnmBody rnd m off (hkm.map turn) Ly (fy st) n) := by
  unfold Fl.cBnmBody
  refine Tr.same fun y => Tr.bind (cGet_tr turn hkm 0) fun h0 => Tr.same fun y0 => Tr.bind (t := List.map turn) ?_ fun sc =>
    Tr.bind (Tr.forAll _ (fun sc k => ?_) sc) fun sc => Tr.bind (cGet_tr turn sc _) fun v => Tr.bind (t := List.map turn) ?_ fun sc => Tr.ok _ rfl
  · have := cSet_tr turn st.1 (off + (n - |m|)) ⟨rnd (h0.re * y0), rnd (h0.im * y0)⟩
    have e : turn (⟨rnd (h0.re * y0), rnd (h0.im * y0)⟩ : FC rnd) = ⟨rnd ((turn h0).re * y0), rnd ((turn h0).im * y0)⟩ := by
      simp only [turn_re, turn_im, turn_mk]
      refine fc_mk ?_ rfl
      rw [neg_mul, hn]
    rwa [e] at this
  · refine Tr.bind (cGet_tr turn sc _) fun v => Tr.bind (cGet_tr turn hkm k) fun h => Tr.same fun yk => ?_
    have := cSet_tr turn sc (off + (n - |m|)) ⟨rnd (v.re + rnd (rnd (2 * h.re) * yk)), rnd (v.im + rnd (rnd (2 * h.im) * yk))⟩
    have e : turn (⟨rnd (v.re + rnd (rnd (2 * h.re) * yk)), rnd (v.im + rnd (rnd (2 * h.im) * yk))⟩ : FC rnd) =
        ⟨rnd ((turn v).re + rnd (rnd (2 * (turn h).re) * yk)), rnd ((turn v).im + rnd (rnd (2 * (turn h).im) * yk))⟩ := by
      simp only [turn_re, turn_im, turn_mk]
      refine fc_mk ?_ rfl
      rw [mul_neg, hn, neg_mul, hn, ← neg_add, hn]
    rwa [e] at this
  · have e : Fl.cMulIPowNeg rnd m (turn v) = turn (Fl.cMulIPowNeg rnd m v) := by
      unfold Fl.cMulIPowNeg
      split
      · simp only [turn_re, turn_im, turn_mk]
        exact fc_mk (rn hn (by ring)) (by congr 1; ring)
      · simp only [turn_re, turn_im, turn_mk]
        exact fc_mk (rn hn (by ring)) rfl
    rw [e]
    exact cSet_tr turn sc _ _

/-- The work arrays, complex data turned. -/
def wk (w : Fl.CWork rnd) : Fl.CWork rnd := ⟨w.sc.map turn, w.hkm.map turn, w.ff.map turn, w.y⟩

theorem kBnmFc_tr (A : List (FC rnd)) (Nrow Ncol Nmax m off : Int) (ss : List (FC rnd)) (Q Lhkm Ly : Int) (fw bw : Fl.KissCfg rnd)
    (J J' : Int → ℕ → FC rnd) (h1 : ∀ i, J' (4 * m + 1) i = turn (J (4 * m + 1) i)) (h2 : ∀ i, J' (4 * m + 2) i = turn (J (4 * m + 2) i)) (w : Fl.CWork rnd) :
    Tr wk (Fl.kBnmFc rnd A Nrow Ncol Nmax m off ss Q Lhkm Ly fw bw J w) (Fl.kBnmFc rnd (A.map turn) Nrow Ncol Nmax m off ss Q Lhkm Ly fw bw J' (wk w)) := by
  unfold Fl.kBnmFc
  exact Tr.bind (hkm_tr hn A Nrow Ncol m w.hkm Lhkm ss Q w.ff fw bw J J' h1 h2) fun hf =>
    Tr.bind (Tr.forAll _ (fun st n => cBnmBody_tr hn m off hf.1 Ly st n) (w.sc, w.y)) fun sy => Tr.ok _ rfl

/-- The same memory with the buffers that hold data turned. -/
noncomputable def jt (J : CJunk) : CJunk := ⟨fun k i => if k = -1 ∨ k = -5 then J.c k i else Complex.I * J.c k i, J.r, J.i⟩

omit hn in
theorem jt_turn (J : CJunk) (k : Int) (hk : ¬(k = -1 ∨ k = -5)) (i : ℕ) : Fl.junkC rnd (jt J) k i = turn (Fl.junkC rnd J k i) := by
  unfold Fl.junkC jt
  simp only [hk, if_false, turn_mk]
  exact fc_mk (by simp) (by simp)

omit hn in
theorem jt_same (J : CJunk) (k : Int) (hk : k = -1 ∨ k = -5) : Fl.junkC rnd (jt J) k = Fl.junkC rnd J k := by
  funext i
  unfold Fl.junkC jt
  simp only [hk, if_true]

theorem kFcToSc_tr (lm : Fl.LibM) (A : List (FC rnd)) (Nrow Ncol : Int) (sc : List (FC rnd)) (Nmax Mmax : Int) (J : CJunk) :
    Tr (List.map turn) (Fl.kFcToSc rnd lm A Nrow Ncol sc Nmax Mmax J) (Fl.kFcToSc rnd lm (A.map turn) Nrow Ncol (sc.map turn) Nmax Mmax (jt J)) := by
  have hb : ∀ (m off : Int) (ss : List (FC rnd)) (Q : Int) (fw bw : Fl.KissCfg rnd) (w : Fl.CWork rnd),
      Tr wk (Fl.kBnmFc rnd A Nrow Ncol Nmax m off ss Q (Nmax + 1) (Nmax + 1) fw bw (Fl.junkC rnd J) w)
        (Fl.kBnmFc rnd (A.map turn) Nrow Ncol Nmax m off ss Q (Nmax + 1) (Nmax + 1) fw bw (Fl.junkC rnd (jt J)) (wk w)) := fun m off ss Q fw bw w =>
    kBnmFc_tr hn A Nrow Ncol Nmax m off ss Q _ _ fw bw _ _ (fun i => jt_turn J _ (by omega) i) (fun i => jt_turn J _ (by omega) i) w
  unfold Fl.kFcToSc
  rw [jt_same J (-1) (by omega), jt_same J (-5) (by omega)]
  refine Tr.same fun Q => Tr.same fun s => Tr.same fun s => Tr.same fun fw => Tr.same fun bw => Tr.same fun s => Tr.bind (t := List.map turn) ?_ fun hkm => Tr.same fun y =>
    Tr.bind (t := List.map turn) ?_ fun ff => Tr.same fun inds => Tr.same fun inds => Tr.same fun inds => Tr.bind (hb 0 0 s Q fw bw ⟨sc, hkm, ff, y⟩) fun w =>
    Tr.bind (Tr.forAll _ (fun w m => ?_) w) fun w => Tr.ok _ rfl
  · rw [show Fl.junkC rnd (jt J) (-9) = fun i => turn (Fl.junkC rnd J (-9) i) from funext fun i => jt_turn J _ (by omega) i]
    exact cMalloc_tr turn _ _
  · rw [show Fl.junkC rnd (jt J) (-13) = fun i => turn (Fl.junkC rnd J (-13) i) from funext fun i => jt_turn J _ (by omega) i]
    exact cMalloc_tr turn _ _
  · exact Tr.same fun o1 => Tr.bind (hb _ _ _ _ _ _ _) fun w => Tr.same fun o2 => hb _ _ _ _ _ _ _

theorem kExt_tr (lm : Fl.LibM) (J : ℕ → CJunk) (call : ℕ) (f : Arr2 (FC rnd)) (n m : Int) :
    Tr (List.map turn) (Fl.kExtFcToSc rnd lm J call f n m) (Fl.kExtFcToSc rnd lm (fun i => jt (J i)) call (f.map turn) n m) := by
  unfold Fl.kExtFcToSc
  have z := npFull_tr turn (ncFormula n m) (0 : FC rnd)
  rw [turn_zero] at z
  refine Tr.bind z fun sc => ?_
  rw [flat_map turn_zero]
  exact kFcToSc_tr hn lm _ _ _ sc n m (J call)

theorem kSpht_tr (lib : Fl.NumLib rnd) (hf : ∀ A, Tr (Arr2.map turn) (lib.fft A) (lib.fft (A.map turn))) (lm : Fl.LibM) (J : ℕ → CJunk) (p : SPatt (FC rnd)) (N M : Option Int) :
    Tr (cmap turn) (Fl.kSpht rnd lib lm J p N M) (Fl.kSpht rnd lib lm (fun i => jt (J i)) (SPatt.turned p) N M) :=
  spht_frame hn lib hf _ _ (kExt_tr hn lm J 0) p N M

theorem kVspht_tr (lib : Fl.NumLib rnd) (hf : ∀ A, Tr (Arr2.map turn) (lib.fft A) (lib.fft (A.map turn))) (lm : Fl.LibM) (J : ℕ → CJunk) (p : TPatt (FC rnd)) (N M : Option Int) :
    Tr (vmap turn) (Fl.kVspht rnd lib lm J p N M) (Fl.kVspht rnd lib lm (fun i => jt (J i)) (TPatt.turned p) N M) :=
  vspht_frame hn lib hf _ _ _ _ (kExt_tr hn lm J 0) (kExt_tr hn lm J 1) p _ rfl N M

end
end TN
end Verif.Props
