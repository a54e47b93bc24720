import Verif.Props.FloatKiss12
/-!
# `fc_to_sc` of the C extension in doubles: from the convolution to the coefficients
-/
namespace Verif.Props
open Verif Finset

variable {rnd : ℝ → ℝ}

namespace FK

theorem cSet_len {α : Type} {l l' : List α} {i : Int} {v : α} (h : cSet l i v = .ok l') : l'.length = l.length := by
  unfold cSet at h
  split_ifs at h
  · cases h; simp
  · cases h

theorem bind_inv {α β : Type} {x : Res α} {f : α → Res β} {b : β} (h : x.bind f = .ok b) : ∃ a, x = .ok a ∧ f a = .ok b := by
  cases x with
  | error e => cases h
  | ok a => exact ⟨a, rfl, h⟩

theorem forM_len {α ι : Type} {f : List α → ι → Res (List α)} (hf : ∀ a x b, f a x = .ok b → b.length = a.length) :
    ∀ (xs : List ι) (a b : List α), forM' xs a f = .ok b → b.length = a.length
  | [], a, b, h => by cases h; rfl
  | x :: xs, a, b, h => by
    simp only [forM'] at h
    obtain ⟨c, h1, h2⟩ := bind_inv h
    rw [forM_len hf xs c b h2, hf a x c h1]

theorem fft_len {cfg : Fl.KissCfg rnd} {buf out : List (FC rnd)} {junk : ℕ → FC rnd} (h : Fl.kissFft rnd cfg buf junk = .ok out) : out.length = buf.length := by
  unfold Fl.kissFft at h
  obtain ⟨a, -, h⟩ := bind_inv h
  obtain ⟨b, -, h⟩ := bind_inv h
  split_ifs at h
  · cases h; simp
  · cases h

/-- `hkm_fc` depends on its work arrays only through their lengths, and not on the memory kiss_fft allocates. -/
theorem hkm_fresh {lm : Fl.LibM} {R Q : ℕ} {fw bw : Fl.KissCfg rnd} (hQ : Q < 2 ^ 32) (afw : Fl.kissAlloc rnd lm Q false = .ok fw)
    (abw : Fl.kissAlloc rnd lm Q true = .ok bw) (g : List (FC rnd)) (K m : Int) (hkm hkm' ss ff ff' : List (FC rnd)) (n : ℕ) (h1 : hkm.length = n) (h2 : hkm'.length = n)
    (h3 : ff.length = Q) (h4 : ff'.length = Q) (J J' : Int → ℕ → FC rnd) (r : List (FC rnd) × List (FC rnd))
    (h : Fl.cHkmFc rnd g R K m hkm n ss Q ff fw bw J = .ok r) : Fl.cHkmFc rnd g R K m hkm' n ss Q ff' fw bw J' = .ok r := by
  have key : SimR Eq (Fl.cHkmFc rnd g R K m hkm n ss Q ff fw bw J) (Fl.cHkmFc rnd g R K m hkm' n ss Q ff' fw bw J') := by
    unfold Fl.cHkmFc
    rw [cMemset0_ok ff Q h3, cMemset0_ok ff' Q h4, cMemset0_ok hkm n h1, cMemset0_ok hkm' n h2]
    simp only [Except.bind_ok]
    have selfL : ∀ {x : Res (List (FC rnd))}, (∀ b, x = .ok b → b.length = Q) → SimR (fun a b => a = b ∧ a.length = Q) x x := fun h a ha => ⟨a, ha, rfl, h a ha⟩
    refine SimR.bind (selfL fun b hb => ?_) ?_
    · rw [forM_len (fun a x b h => ?_) _ _ _ hb]
      · simp
      · obtain ⟨y, -, h⟩ := bind_inv h
        obtain ⟨z, hz, h⟩ := bind_inv h
        obtain ⟨u, -, h⟩ := bind_inv h
        rw [cSet_len h, cSet_len hz]
    rintro a _ ⟨rfl, la⟩
    refine SimR.bind (R := fun a b => a = b ∧ a.length = Q) (fun b hb => ⟨b, c99_fresh lm Q false hQ fw afw a la _ _ b hb, rfl, by rw [fft_len hb, la]⟩) ?_
    rintro a _ ⟨rfl, la⟩
    refine SimR.bind (selfL fun b hb => ?_) ?_
    · rw [forM_len (fun a x b h => ?_) _ _ _ hb, la]
      obtain ⟨y, -, h⟩ := bind_inv h
      obtain ⟨z, -, h⟩ := bind_inv h
      rw [cSet_len h]
    rintro a _ ⟨rfl, la⟩
    refine SimR.bind (R := fun a b => a = b ∧ a.length = Q) (fun b hb => ⟨b, c99_fresh lm Q true hQ bw abw a la _ _ b hb, rfl, by rw [fft_len hb, la]⟩) ?_
    rintro a _ ⟨rfl, -⟩
    exact fun x hx => ⟨x, hx, rfl⟩
  obtain ⟨r', e, rfl⟩ := key r h
  exact e

theorem hkm_len {R Q : ℕ} {fw bw : Fl.KissCfg rnd} (g : List (FC rnd)) (K m : Int) (hkm ss ff : List (FC rnd)) (n : ℕ) (h1 : hkm.length = n)
    (h3 : ff.length = Q) (J : Int → ℕ → FC rnd) (r : List (FC rnd) × List (FC rnd))
    (h : Fl.cHkmFc rnd g R K m hkm n ss Q ff fw bw J = .ok r) : r.1.length = n ∧ r.2.length = Q := by
  unfold Fl.cHkmFc at h
  rw [cMemset0_ok ff Q h3, cMemset0_ok hkm n h1] at h
  simp only [Except.bind_ok] at h
  obtain ⟨a, ha, h⟩ := bind_inv h
  obtain ⟨b, hb, h⟩ := bind_inv h
  obtain ⟨c, hc, h⟩ := bind_inv h
  obtain ⟨d, hd, h⟩ := bind_inv h
  obtain ⟨e, he, h⟩ := bind_inv h
  cases h
  refine ⟨?_, ?_⟩
  · rw [forM_len (fun a x b h => ?_) _ _ _ he]
    · simp
    · obtain ⟨y, -, h⟩ := bind_inv h
      rw [cSet_len h]
  · rw [fft_len hd, forM_len (fun a x b h => ?_) _ _ _ hc, fft_len hb, forM_len (fun a x b h => ?_) _ _ _ ha]
    · simp
    · obtain ⟨y, -, h⟩ := bind_inv h
      obtain ⟨z, hz, h⟩ := bind_inv h
      obtain ⟨u, -, h⟩ := bind_inv h
      rw [cSet_len h, cSet_len hz]
    · obtain ⟨y, -, h⟩ := bind_inv h
      obtain ⟨z, -, h⟩ := bind_inv h
      rw [cSet_len h]

/-- The convolution of the C extension, with zeros in fresh memory. -/
noncomputable def kConv (rnd : ℝ → ℝ) (lm : Fl.LibM) (G : Arr2 (FC rnd)) (N m : Int) : Res (List (FC rnd)) :=
  (orDiverge (cFindQ (G.rows + N))).bind fun Q =>
  (cMalloc Q fun _ => (0 : FC rnd)).bind fun s =>
  (Fl.cSData rnd s Q G.rows N).bind fun s =>
  (Fl.kissAlloc rnd lm Q false).bind fun fw =>
  (Fl.kissAlloc rnd lm Q true).bind fun bw =>
  (Fl.kissFft rnd fw s fun _ => 0).bind fun s =>
  (cMalloc (N + 1) fun _ => (0 : FC rnd)).bind fun hkm =>
  (cMalloc Q fun _ => (0 : FC rnd)).bind fun ff =>
  (Fl.cHkmFc rnd G.flat G.rows G.cols m hkm (N + 1) s Q ff fw bw fun _ _ => 0).bind fun hf => .ok hf.1

variable {lm : Fl.LibM} {R N Q : ℕ} {t' ss : List (FC rnd)} {fw bw : Fl.KissCfg rnd} {s : List ℂ}

theorem kConv_eq (h : Ready (rnd := rnd) lm R N Q t' ss fw bw s) (G : Arr2 (FC rnd)) (hG : G.rows = R) (m : Int) :
    kConv rnd lm G N m = (Fl.cHkmFc rnd G.flat R G.cols m (tab (N + 1) fun _ => 0) (N + 1) ss Q (tab Q fun _ => 0) fw bw fun _ _ => 0).bind fun hf => .ok hf.1 := by
  unfold kConv cMalloc
  rw [hG, h.find]
  simp only [orDiverge, Except.bind_ok]
  rw [if_neg (by omega)]
  simp only [Except.bind_ok, Int.toNat_natCast]
  rw [h.sdata _ (by simp)]
  simp only [Except.bind_ok]
  rw [h.afw, h.abw]
  simp only [Except.bind_ok]
  rw [h.fft]
  simp only [Except.bind_ok]
  rw [if_neg (by omega)]
  simp only [Except.bind_ok]
  rw [show ((N : Int) + 1).toNat = N + 1 by omega]

/-- `fc_to_sc` of the extension returns what the model with the convolution as a parameter returns for `kConv`. -/
theorem ext_eq (h : Ready (rnd := rnd) lm R N Q t' ss fw bw s) (hQ : Q < 2 ^ 32) (G : Arr2 (FC rnd)) (hG : G.rows = R) (lib : Fl.NumLib rnd) (hlib : lib.conv = kConv rnd lm)
    (M : Int) (J : ℕ → CJunk) (call : ℕ) (v : List (FC rnd)) (hv : Fl.backendFcToSc rnd lib (.c J) call G N M = .ok v) :
    Fl.kExtFcToSc rnd lm J call G N M = .ok v := by
  have key : SimR Eq (Fl.backendFcToSc rnd lib (.c J) call G N M) (Fl.kExtFcToSc rnd lm J call G N M) := by
    unfold Fl.backendFcToSc Fl.kExtFcToSc
    simp only
    refine SimR.bind_eq rfl fun sc => ?_
    obtain ⟨j, hj⟩ : ∃ j, j = J call := ⟨_, rfl⟩
    rw [← hj]
    unfold Fl.kFcToSc
    rw [hG, h.find]
    simp only [orDiverge, Except.bind_ok]
    have m1 : cMalloc (Q : Int) (Fl.junkC rnd j (-1)) = .ok (tab Q (Fl.junkC rnd j (-1))) := by unfold cMalloc; rw [if_neg (by omega), Int.toNat_natCast]
    have m2 : cMalloc (Q : Int) (Fl.junkC rnd j (-13)) = .ok (tab Q (Fl.junkC rnd j (-13))) := by unfold cMalloc; rw [if_neg (by omega), Int.toNat_natCast]
    have m3 : cMalloc ((N : Int) + 1) (Fl.junkC rnd j (-9)) = .ok (tab (N + 1) (Fl.junkC rnd j (-9))) := by
      unfold cMalloc; rw [if_neg (by omega), show ((N : Int) + 1).toNat = N + 1 by omega]
    rw [m1]
    simp only [Except.bind_ok]
    rw [h.sdata _ (by simp)]
    simp only [Except.bind_ok]
    rw [h.afw, h.abw]
    simp only [Except.bind_ok]
    rw [h.fft]
    simp only [Except.bind_ok]
    rw [m3]
    simp only [Except.bind_ok]
    unfold Fl.cFcToSc
    refine SimR.bind_eq rfl fun y => ?_
    rw [m2]
    simp only [Except.bind_ok]
    refine SimR.bind_eq rfl fun inds => ?_
    refine SimR.bind_eq rfl fun inds => ?_
    refine SimR.bind_eq rfl fun inds => ?_
    have one : ∀ (m off : Int) (st : List (FC rnd) × List ℝ) (w : Fl.CWork rnd), w.sc = st.1 ∧ w.y = st.2 ∧ w.hkm.length = N + 1 ∧ w.ff.length = Q →
        SimR (fun (st : List (FC rnd) × List ℝ) (w : Fl.CWork rnd) => w.sc = st.1 ∧ w.y = st.2 ∧ w.hkm.length = N + 1 ∧ w.ff.length = Q)
          (Fl.cBnmFc rnd lib G N m off (N + 1) st) (Fl.kBnmFc rnd G.flat R G.cols N m off ss Q (N + 1) (N + 1) fw bw (Fl.junkC rnd j) w) := by
      intro m off st w ⟨w1, w2, w3, w4⟩
      unfold Fl.cBnmFc Fl.kBnmFc
      refine SimR.bind (R := fun hh hf => hf.1 = hh ∧ hf.1.length = N + 1 ∧ hf.2.length = Q) (fun hh eh => ?_) ?_
      · rw [hlib, kConv_eq h G hG] at eh
        obtain ⟨hf, e1, e2⟩ := bind_inv eh
        cases e2
        have e3 := hkm_fresh (R := R) hQ h.afw h.abw G.flat G.cols m (tab (N + 1) fun _ => 0) w.hkm ss (tab Q fun _ => 0) w.ff (N + 1) (by simp) w3 (by simp) w4 (fun _ _ => 0) (Fl.junkC rnd j) hf
          (by push_cast; exact e1)
        push_cast at e3
        refine ⟨hf, e3, rfl, ?_⟩
        exact hkm_len G.flat G.cols m w.hkm ss w.ff (N + 1) w3 w4 (Fl.junkC rnd j) hf (by push_cast; exact e3)
      · rintro hh hf ⟨rfl, hl1, hl2⟩
        have e0 : (w.sc, w.y) = st := by rw [w1, w2]
        rw [e0]
        intro st' hst'
        rw [hst']
        exact ⟨_, rfl, rfl, rfl, hl1, hl2⟩
    refine SimR.bind (one 0 0 (sc, y) ⟨sc, tab (N + 1) (Fl.junkC rnd j (-9)), tab Q (Fl.junkC rnd j (-13)), y⟩ ⟨rfl, rfl, by simp, by simp⟩) fun st w hw => ?_
    refine SimR.bind (R := fun (st : List (FC rnd) × List ℝ) (w : Fl.CWork rnd) => w.sc = st.1 ∧ w.y = st.2 ∧ w.hkm.length = N + 1 ∧ w.ff.length = Q)
      (SimR.forL _ (fun m _ st w hw => ?_) _ _ hw) fun st w hw => ?_
    · refine SimR.bind_eq rfl fun o1 => SimR.bind (one _ _ _ _ hw) fun st w hw => SimR.bind_eq rfl fun o2 => one _ _ _ _ hw
    · intro x hx
      cases hx
      exact ⟨_, rfl, hw.1.symm⟩
  obtain ⟨r', e, rfl⟩ := key v hv
  exact e

end FK
end Verif.Props
