import Verif.Props.FloatKiss15
import Verif.Props.FloatVec8
/-!
# C101: `vspht` in doubles with the C extension and its kiss_fft
-/
namespace Verif.Props
open Verif Finset

variable {rnd : ℝ → ℝ}

/-- The error bound of C101 for degree `n`: `rows` rows of doubled samples of modulus at most `C`, a two-dimensional FFT within `δ`. -/
noncomputable def kvsphtErr (rows M : ℕ) (C δ : ℝ) (n : ℤ) : ℝ :=
  1 / Real.sqrt ((n : ℝ) * ((n : ℝ) + 1)) * (Real.sqrt ((2 * n + 1) / (4 * Real.pi)) *
    (((rows : ℝ) / 2 + M + 3) * ((n + 1) * ((n : ℝ) + 4) ^ 3 * 2 ^ (-42 : ℤ) * C +
      (2 * n + 1) * (Real.sqrt ((rows : ℝ) + 1) * (20 * δ + 2 ^ (-34 : ℤ) * (Nat.log 2 (4 * rows)) ^ 2 * C)))))

namespace FK

theorem kvspht_num {r M : ℕ} {C δ : ℝ} {n : ℤ} (hr : 2 ≤ r) (C0 : 0 ≤ C) (hn : 0 ≤ n) :
    vsphtErr r M C δ (convErr r (((r : ℝ) / 2 + M + 3) * C)) n ≤ kvsphtErr r M C δ n := by
  unfold vsphtErr kvsphtErr
  refine mul_le_mul_of_nonneg_left (mul_le_mul_of_nonneg_left ?_ (Real.sqrt_nonneg _)) (by positivity)
  have n0 : (0 : ℝ) ≤ n := by exact_mod_cast hn
  obtain ⟨W, hW⟩ : ∃ W : ℝ, W = (r : ℝ) / 2 + M + 3 := ⟨_, rfl⟩
  have W0 : 0 ≤ W := by rw [hW]; positivity
  unfold convErr
  rw [← hW]
  obtain ⟨q, hq⟩ : ∃ q, q = Real.sqrt ((r : ℝ) + 1) := ⟨_, rfl⟩
  rw [← hq]
  have q0 : 0 ≤ q := by rw [hq]; exact Real.sqrt_nonneg _
  have l3 := log_ge hr
  obtain ⟨L, hL⟩ : ∃ L : ℝ, L = (Nat.log 2 (4 * r) : ℝ) := ⟨_, rfl⟩
  rw [← hL] at l3 ⊢
  have L1 : 1 ≤ L ^ 2 := one_le_pow₀ (by linarith)
  have x1 : (2 : ℝ) ^ (-34 : ℤ) = 2 * 2 ^ (-35 : ℤ) := by norm_num
  have x2 : (20 : ℝ) * 2 ^ (-48 : ℤ) ≤ 2 ^ (-35 : ℤ) * L ^ 2 := by
    refine le_trans (by norm_num : (20 : ℝ) * 2 ^ (-48 : ℤ) ≤ 2 ^ (-35 : ℤ) * 1) (mul_le_mul_of_nonneg_left L1 (by positivity))
  rw [x1]
  have x3 := mul_le_mul_of_nonneg_right x2 (mul_nonneg (mul_nonneg (by linarith : (0 : ℝ) ≤ 2 * n + 1) W0) (mul_nonneg q0 C0))
  obtain ⟨a, ha⟩ : ∃ a : ℝ, a = 2 ^ (-35 : ℤ) := ⟨_, rfl⟩
  obtain ⟨b, hb⟩ : ∃ b : ℝ, b = 2 ^ (-48 : ℤ) := ⟨_, rfl⟩
  obtain ⟨d, hd⟩ : ∃ d : ℝ, d = 2 ^ (-42 : ℤ) := ⟨_, rfl⟩
  rw [← ha, ← hb] at x3
  rw [← ha, ← hb, ← hd]
  clear ha hb x1 x2
  have e1 : ((n : ℝ) + 1) * (n + 4) ^ 3 * d * (W * C) + (2 * n + 1) * (a * L ^ 2 * q * (W * C) + 20 * q * W * (δ + b * C)) =
    W * ((n + 1) * (n + 4) ^ 3 * d * C + (2 * n + 1) * (q * (20 * δ))) + (a * L ^ 2 * ((2 * n + 1) * W * (q * C)) + 20 * b * ((2 * n + 1) * W * (q * C))) := by ring
  have e2 : W * (((n : ℝ) + 1) * (n + 4) ^ 3 * d * C + (2 * n + 1) * (q * (20 * δ + 2 * a * L ^ 2 * C))) =
    W * ((n + 1) * (n + 4) ^ 3 * d * C + (2 * n + 1) * (q * (20 * δ))) + (a * L ^ 2 * ((2 * n + 1) * W * (q * C)) + a * L ^ 2 * ((2 * n + 1) * W * (q * C))) := by ring
  rw [e1, e2]
  linarith

/-- The convolution on the arrays of `vspht`. -/
theorem vconv_of (hrd : NoOverflow rnd) (lib : Fl.NumLib rnd) {conv : Arr2 (FC rnd) → Int → Int → Res (List (FC rnd))} {err : ℝ → ℝ} (T P : Arr2 (FC rnd)) (hr : P.rows = T.rows) (hc : P.cols = T.cols)
    (hR : T.rows % 2 = 0) (hR0 : 0 < T.rows) (hsz : T.rows ≤ 2 ^ 28) (hK : T.cols % 2 = 0)
    (N M : ℕ) (hM : M ≤ 1000) (hNr : N < T.rows / 2) (hMc : 2 * M < T.cols) (C : ℝ) (hC : 2 ^ (-700 : ℤ) ≤ C) (hC' : C ≤ 2 ^ (400 : ℤ))
    (hT : ∀ i j, i < T.rows → j < T.cols → ‖FS.val (T.at' i j)‖ ≤ C) (hP : ∀ i j, i < T.rows → j < T.cols → ‖FS.val (P.at' i j)‖ ≤ C)
    (δ : ℝ) (hδ : Real.sqrt ((T.rows : ℝ) + 1) * δ ≤ C / 400) (hfT : Fft2Within lib.fft δ T) (hfP : Fft2Within lib.fft δ P) (hcol : ColWithin conv err T.rows N) :
    ∀ g, VsphtArray lib T P g → ∀ m : ℤ, |m| ≤ M → ConvWithin conv (err (((T.rows : ℝ) / 2 + M + 3) * C)) g N m := by
  rintro g ⟨t, p, et, ep, hg⟩ m hm
  have hm' : m.natAbs ≤ M := by rw [Int.abs_eq_natAbs] at hm; omega
  have hm'' := abs_le.mp hm
  have hK0 : 0 < T.cols := by omega
  have hC9 : 2 ^ (-900 : ℤ) ≤ C := (zpow_le_zpow_right₀ (by norm_num) (by norm_num)).trans hC
  have C0 : 0 < C := lt_of_lt_of_le (by positivity) hC
  have u0 := uu_pos
  obtain ⟨q, hq⟩ : ∃ q, q = Real.sqrt ((T.rows : ℝ) + 1) := ⟨_, rfl⟩
  have q1 : 1 ≤ q := by
    rw [hq, Real.one_le_sqrt]
    have : (0 : ℝ) ≤ T.rows := by positivity
    linarith
  have q2 : q ≤ 2 ^ 15 := by
    rw [hq, Real.sqrt_le_left (by norm_num)]
    have : (T.rows : ℝ) ≤ 2 ^ 28 := by exact_mod_cast hsz
    linarith
  rw [← hq] at hδ
  have δ0 : 0 ≤ δ := by
    obtain ⟨f, f', -, e, r1, c1, hv⟩ := hfT
    obtain ⟨f'', e', r2, c2, -⟩ := FA.fft2_norm (T.map FS.val) hR0 hK0 (C := C) (fun i j hi hj => by rw [Arr2.at'_map _ T hi hj]; exact hT i j hi hj)
    rw [e] at e'
    cases e'
    have r3 : f'.rows = T.rows := r2
    have c3 : f'.cols = T.cols := c2
    exact (norm_nonneg _).trans (hv 0 0 (by omega) (by omega))
  have δq : δ ≤ q * δ := le_mul_of_one_le_left δ0 q1
  obtain ⟨t', p', G1, G2, et', ep', eG1, eG2, G1', G2', hG, -⟩ := FV.vpre hrd lib T P hr hc hR hR0 (by omega) hK hK0 M hM hMc hC9 hC' hT hP (by clear hC hC' hC9; linarith) hfT hfP
  rw [et] at et'
  cases et'
  rw [ep] at ep'
  cases ep'
  obtain ⟨G', h⟩ : ∃ G', (g = G1 ∧ G' = G1') ∨ (g = G2 ∧ G' = G2') := by
    rcases hg with hg | hg
    · rw [hg] at eG1; cases eG1; exact ⟨G1', Or.inl ⟨rfl, rfl⟩⟩
    · rw [hg] at eG2; cases eG2; exact ⟨G2', Or.inr ⟨rfl, rfl⟩⟩
  obtain ⟨g1, g2, g3, g4, g5, g6, g7⟩ := hG g G' h
  have hrow : (((T.rows / 2 + 1 : ℕ)) : ℝ) = (T.rows : ℝ) / 2 + 1 := by
    obtain ⟨k, hk⟩ : ∃ k, T.rows = 2 * k := ⟨T.rows / 2, by omega⟩
    rw [hk, show 2 * k / 2 = k by omega]; push_cast; ring
  obtain ⟨W, hW⟩ : ∃ W : ℝ, W = (T.rows : ℝ) / 2 + M + 3 := ⟨_, rfl⟩
  have hW' : (M : ℝ) + ((T.rows / 2 + 1 : ℕ) : ℝ) + 2 = W := by rw [hrow, hW]; ring
  rw [hW'] at g5 g7
  rw [← hW]
  have W1 : 1 ≤ W := by
    rw [hW]
    have : (0 : ℝ) ≤ T.rows := by positivity
    have : (0 : ℝ) ≤ M := by positivity
    linarith
  have W2 : W ≤ 2 ^ 29 := by
    rw [hW]
    have h1 : (T.rows : ℝ) ≤ 2 ^ 28 := by exact_mod_cast hsz
    have h2 : (M : ℝ) ≤ 1000 := by exact_mod_cast hM
    linarith
  have S1 : 2 ^ (-700 : ℤ) ≤ W * C := hC.trans (le_mul_of_one_le_left C0.le W1)
  have S2 : W * C ≤ 2 ^ (700 : ℤ) := by
    calc W * C ≤ 2 ^ (29 : ℤ) * 2 ^ (400 : ℤ) := mul_le_mul (by exact_mod_cast W2) hC' C0.le (by positivity)
      _ = 2 ^ (429 : ℤ) := by rw [← zpow_add₀ (by norm_num)]; norm_num
      _ ≤ _ := zpow_le_zpow_right₀ (by norm_num) (by norm_num)
  refine hcol T.cols g G' g1 g2 hK0 g3 g4 _ (W * C) S1 S2 m (by omega) (by omega) (fun i hi => g5 i m hi hm') (g6 _ (slot_lt' hK0 m)) (g7 m hm') ?_
  rw [← hq]
  have h2 : q * (32 * uu * C) ≤ C / 400 := by
    have hu : uu ≤ 1 / 10 ^ 12 := by unfold uu; norm_num
    calc q * (32 * uu * C) ≤ 2 ^ 15 * (32 * (1 / 10 ^ 12) * C) := by gcongr
      _ ≤ C / 400 := by clear hC hC' S1 S2 hC9; linarith
  have h3 : q * (δ + 32 * uu * C) ≤ C / 200 := by rw [mul_add]; clear hC hC' S1 S2 hC9; linarith
  have h4 : q * (W * (δ + 32 * uu * C)) = W * (q * (δ + 32 * uu * C)) := by ring
  rw [h4]
  have h5 : W * (q * (δ + 32 * uu * C)) ≤ W * (C / 200) := mul_le_mul_of_nonneg_left h3 (by linarith)
  have h6 : W * (C / 200) = W * C / 200 := by ring
  have h7 : 0 ≤ W * C := by positivity
  clear hC hC' S1 S2 hC9
  linarith

/-- The convolution of the extension on the arrays of `vspht`. -/
theorem vconv (hrd : NoOverflow rnd) (lib : Fl.NumLib rnd) {lm : Fl.LibM} (hl : LibMWithin lm) (T P : Arr2 (FC rnd)) (hr : P.rows = T.rows) (hc : P.cols = T.cols)
    (hR : T.rows % 2 = 0) (hR0 : 0 < T.rows) (hsz : T.rows ≤ 2 ^ 28) (hK : T.cols % 2 = 0)
    (N M : ℕ) (hM : M ≤ 1000) (hNr : N < T.rows / 2) (hMc : 2 * M < T.cols) (C : ℝ) (hC : 2 ^ (-700 : ℤ) ≤ C) (hC' : C ≤ 2 ^ (400 : ℤ))
    (hT : ∀ i j, i < T.rows → j < T.cols → ‖FS.val (T.at' i j)‖ ≤ C) (hP : ∀ i j, i < T.rows → j < T.cols → ‖FS.val (P.at' i j)‖ ≤ C)
    (δ : ℝ) (hδ : Real.sqrt ((T.rows : ℝ) + 1) * δ ≤ C / 400) (hfT : Fft2Within lib.fft δ T) (hfP : Fft2Within lib.fft δ P) :
    ∀ g, VsphtArray lib T P g → ∀ m : ℤ, |m| ≤ M → ConvWithin (kConv rnd lm) (convErr T.rows (((T.rows : ℝ) / 2 + M + 3) * C)) g N m :=
  vconv_of hrd lib T P hr hc hR hR0 hsz hK N M hM hNr hMc C hC hC' hT hP δ hδ hfT hfP (kCol hrd hl T.rows N hR hR0 hsz hNr)

theorem xf_rows {lib : Fl.NumLib rnd} {D G : Arr2 (FC rnd)} (h : Fl.extFourier rnd lib D = .ok G) : G.rows = D.rows + 2 := by
  unfold Fl.extFourier at h
  obtain ⟨a, -, h⟩ := bind_inv h
  obtain ⟨b, -, h⟩ := bind_inv h
  unfold padRows at h
  simp only at h
  split_ifs at h
  cases h; rfl

theorem sl_rows {t p G : Arr2 (FC rnd)} (h : Fl.sinLdotFc rnd t p = .ok G) : G.rows = t.rows := by
  unfold Fl.sinLdotFc at h
  obtain ⟨a, ha, h⟩ := bind_inv h
  obtain ⟨b, -, h⟩ := bind_inv h
  obtain ⟨c, -, h⟩ := bind_inv h
  cases h
  unfold Fl.dphiFc at ha
  split_ifs at ha
  cases ha; rfl

theorem kVspht_of (lib : Fl.NumLib rnd) (lm : Fl.LibM) (J : ℕ → CJunk) (T P : Arr2 (FC rnd)) (hr : P.rows = T.rows) (N M : ℕ) {Q : ℕ} {t' ss : List (FC rnd)} {fw bw : Fl.KissCfg rnd} {s : List ℂ}
    (h : Ready (rnd := rnd) lm (T.rows + 2) N Q t' ss fw bw s) (hQ : Q < 2 ^ 32) (lib' : Fl.NumLib rnd) (hl1 : lib'.fft = lib.fft) (hl2 : lib'.conv = kConv rnd lm) (c : VectorCoefs (FC rnd))
    (e : Fl.vspht rnd lib' (.c J) ⟨T, P⟩ (some N) (some M) = .ok c) : Fl.kVspht rnd lib lm J ⟨T, P⟩ (some N) (some M) = .ok c := by
  unfold Fl.vspht at e
  unfold Fl.kVspht
  have e4 : ∀ a b : Res ℕ, ∀ {β : Type} (f : Int × Int → Res β), (sphtArgs a b (some (N : ℤ)) (some (M : ℤ))).bind f = f ((N : ℤ), (M : ℤ)) := fun _ _ _ _ => rfl
  have e5 : ∀ D, Fl.extFourier rnd lib' D = Fl.extFourier rnd lib D := fun D => by unfold Fl.extFourier; rw [hl1]
  rw [e4] at e ⊢
  simp only [e5] at e
  simp only at e ⊢
  obtain ⟨a, h1, e⟩ := bind_inv e
  obtain ⟨ft, h2, e⟩ := bind_inv e
  obtain ⟨pt, h3, e⟩ := bind_inv e
  obtain ⟨l1, h4, e⟩ := bind_inv e
  obtain ⟨l2, h5, e⟩ := bind_inv e
  obtain ⟨v1, h6, e⟩ := bind_inv e
  obtain ⟨v2, h7, e⟩ := bind_inv e
  have hp : Fl.extFourier rnd lib P = .ok pt := by
    split_ifs at h3
    exact h3
  have r1 : l1.rows = T.rows + 2 := by rw [sl_rows h4, xf_rows h2]
  have r2 : l2.rows = T.rows + 2 := by
    rw [sl_rows h5]
    show pt.rows = _
    rw [xf_rows hp, hr]
  rw [h1, h2, h3]
  simp only [Except.bind_ok]
  rw [h4, h5]
  simp only [Except.bind_ok]
  rw [ext_eq h hQ l1 r1 lib' hl2 M J 0 v1 h6, ext_eq h hQ l2 r2 lib' hl2 M J 1 v2 h7]
  exact e

end FK

/-- C101: `vspht` in double precision with the compiled extension and the FFT library compiled into it, kiss_fft.  `lib` supplies only
`np.fft.fft2`, within `δ` of the exact transform on the doubled samples `T`, `P`; `lm` is the C math library; `J` is the content of freshly
allocated memory.  Then `vspht(p, N, M)` succeeds, and both coefficients of every mode with `n ≥ 1` are within the stated bound of the
coefficients `vspht` returns in exact arithmetic on the same samples. -/
theorem c101_vspht (hrd : NoOverflow rnd) (lib : Fl.NumLib rnd) {lm : Fl.LibM} (hl : LibMWithin lm) (J : ℕ → CJunk)
    (T P : Arr2 (FC rnd)) (hr : P.rows = T.rows) (hc : P.cols = T.cols) (hR : T.rows % 2 = 0) (hR0 : 0 < T.rows) (hsz : T.rows ≤ 2 ^ 28) (hK : T.cols % 2 = 0)
    (N M : ℕ) (hN : N ≤ 1000) (hMN : M ≤ N) (hNr : N < T.rows / 2) (hMc : 2 * M < T.cols) (C : ℝ) (hC : 2 ^ (-700 : ℤ) ≤ C) (hC' : C ≤ 2 ^ (400 : ℤ))
    (hT : ∀ i j, i < T.rows → j < T.cols → ‖FS.val (T.at' i j)‖ ≤ C) (hP : ∀ i j, i < T.rows → j < T.cols → ‖FS.val (P.at' i j)‖ ≤ C)
    (δ : ℝ) (hδ : Real.sqrt ((T.rows : ℝ) + 1) * δ ≤ C / 400) (hfT : Fft2Within lib.fft δ T) (hfP : Fft2Within lib.fft δ P) :
    ∃ c ch, vspht .py ⟨T.map FS.val, P.map FS.val⟩ (some N) (some M) = .ok c ∧ Fl.kVspht rnd lib lm J ⟨T, P⟩ (some N) (some M) = .ok ch ∧
      ch.WellFormed ∧ ch.nmax = N ∧ ch.mmax = M ∧ ∀ n m : ℤ, IsMode N M n m → n ≠ 0 → ∃ w z, readMapV c n m = some w ∧ readMapV ch n m = some z ∧
        ‖FS.val z.1 - w.1‖ ≤ kvsphtErr T.rows M C δ n ∧ ‖FS.val z.2 - w.2‖ ≤ kvsphtErr T.rows M C δ n := by
  have hC9 : 2 ^ (-900 : ℤ) ≤ C := (zpow_le_zpow_right₀ (by norm_num) (by norm_num)).trans hC
  have C0 : 0 < C := lt_of_lt_of_le (by positivity) hC
  obtain ⟨lib', hlib'⟩ : ∃ lib' : Fl.NumLib rnd, lib' = { FA.goodLib rnd with fft := lib.fft, conv := FK.kConv rnd lm } := ⟨_, rfl⟩
  have hconv := FK.vconv hrd lib hl T P hr hc hR hR0 hsz hK N M (hMN.trans hN) hNr hMc C hC hC' hT hP δ hδ hfT hfP
  have W0 : 0 ≤ ((T.rows : ℝ) / 2 + M + 3) * C := by positivity
  obtain ⟨c, ch, e1, e2, e3, e4, e5, e6⟩ := c97_vspht hrd lib' (by subst hlib'; exact FA.goodLib_sum) (.c J) T P hr hc hR hR0 (by omega) hK N M (PowOK.c _ _ _) hN hMN hNr hMc C hC9 hC' hT hP δ
    (FK.convErr T.rows (((T.rows : ℝ) / 2 + M + 3) * C)) hδ (FK.convErr_le hR0 hsz W0) (by subst hlib'; exact hfT) (by subst hlib'; exact hfP)
    (by
      subst hlib'
      intro g hg
      exact hconv g hg)
  obtain ⟨Q, t', ss, fw, bw, s, hready⟩ := FK.ready (rnd := rnd) hrd.toIsRounding hl (T.rows + 2) N (by omega) (by omega) (by omega)
  have hlt := hready.lt
  refine ⟨c, ch, e1, FK.kVspht_of lib lm J T P hr N M hready (by omega) lib' (by subst hlib'; rfl) (by subst hlib'; rfl) ch e2, e3, e4, e5, fun n m hm n0 => ?_⟩
  obtain ⟨w, z, f1, f2, f3, f4⟩ := e6 n m hm n0
  have k := FK.kvspht_num (r := T.rows) (M := M) (C := C) (δ := δ) (n := n) (by omega) C0.le hm.1
  exact ⟨w, z, f1, f2, f3.trans k, f4.trans k⟩

/-- C101: the result of `vspht` with the extension does not depend on the content of the memory the extension allocates. -/
theorem c101_fresh (hrd : NoOverflow rnd) (lib : Fl.NumLib rnd) {lm : Fl.LibM} (hl : LibMWithin lm) (J J' : ℕ → CJunk)
    (T P : Arr2 (FC rnd)) (hR : T.rows % 2 = 0) (N M : ℕ) (hsz : T.rows + N ≤ 2 ^ 28) (c : VectorCoefs (FC rnd))
    (e : Fl.kVspht rnd lib lm J ⟨T, P⟩ (some N) (some M) = .ok c) : Fl.kVspht rnd lib lm J' ⟨T, P⟩ (some N) (some M) = .ok c := by
  unfold Fl.kVspht at e ⊢
  have e4 : ∀ a b : Res ℕ, ∀ {β : Type} (f : Int × Int → Res β), (sphtArgs a b (some (N : ℤ)) (some (M : ℤ))).bind f = f ((N : ℤ), (M : ℤ)) := fun _ _ _ _ => rfl
  rw [e4] at e ⊢
  simp only at e ⊢
  obtain ⟨a, h1, e⟩ := FK.bind_inv e
  obtain ⟨ft, h2, e⟩ := FK.bind_inv e
  obtain ⟨pt, h3, e⟩ := FK.bind_inv e
  obtain ⟨l1, h4, e⟩ := FK.bind_inv e
  obtain ⟨l2, h5, e⟩ := FK.bind_inv e
  obtain ⟨v1, h6, e⟩ := FK.bind_inv e
  obtain ⟨v2, h7, e⟩ := FK.bind_inv e
  have hp : P.rows = T.rows ∧ Fl.extFourier rnd lib P = .ok pt := by
    split_ifs at h3 with h
    exact ⟨h.1.symm, h3⟩
  have r1 : l1.rows = T.rows + 2 := by rw [FK.sl_rows h4, FK.xf_rows h2]
  have r2 : l2.rows = T.rows + 2 := by
    rw [FK.sl_rows h5]
    show pt.rows = _
    rw [FK.xf_rows hp.2, hp.1]
  obtain ⟨Q, t', ss, fw, bw, s, hready⟩ := FK.ready (rnd := rnd) hrd.toIsRounding hl (T.rows + 2) N (by omega) (by omega) (by omega)
  have hlt := hready.lt
  rw [h1, h2, h3]
  simp only [Except.bind_ok]
  rw [h4, h5]
  simp only [Except.bind_ok]
  rw [FK.ext_fresh hready (by omega) l1 r1 M J J' 0 0 v1 h6, FK.ext_fresh hready (by omega) l2 r2 M J J' 1 1 v2 h7]
  exact e

/-- C101: `vispht` followed by `vspht` in doubles, the analysis by the compiled extension with its kiss_fft. -/
theorem c101_round_trip (hrd : NoOverflow rnd) (lib : Fl.NumLib rnd) {lm : Fl.LibM} (hl : LibMWithin lm) (b : Backend) (J : ℕ → CJunk) (c : VectorCoefs (FC rnd)) (hc : c.WellFormed)
    (N M : ℕ) (hn : c.nmax = N) (hm : c.mmax = M) (hj : PowOK b M lib.jp) (hN : N ≤ 1000) (v w : ℤ → ℤ → FC rnd)
    (hvw : ∀ n m, IsMode c.nmax c.mmax n m → n ≠ 0 → readMapV c n m = some (v n m, w n m)) (C : ℝ) (hC : 2 ^ (-700 : ℤ) ≤ C) (hC' : C ≤ 2 ^ (300 : ℤ))
    (hvC : ∀ n m, IsMode c.nmax c.mmax n m → n ≠ 0 → |(v n m).re| ≤ C ∧ |(v n m).im| ≤ C) (hwC : ∀ n m, IsMode c.nmax c.mmax n m → n ≠ 0 → |(w n m).re| ≤ C ∧ |(w n m).im| ≤ C)
    (nr nc : ℤ) (h1 : c.nmax + 2 ≤ nr) (h2 : 2 * c.mmax + 2 ≤ nc) (h3 : nc % 2 = 0) (hsz : nr ≤ 2 ^ 27)
    (inv : Arr2 (FC rnd) → Int → Int → Res (Arr2 (FC rnd))) (δ₀ δ₁ ε : ℝ)
    (hε : ε = δ₀ + (2 * nr - 1) * (2 * M + 1) * FV.fieldErr N M C) (hε' : ε ≤ (N + 1) ^ 2 * C / 5)
    (hδ₁ : Real.sqrt (2 * (nr : ℝ) - 1) * δ₁ ≤ (N + 1) ^ 2 * C / 400)
    (hinv : ∀ f : Arr2 (FC rnd), (f.rows : ℤ) = 2 * nr - 2 → (f.cols : ℤ) = nc → (∀ i j, i < f.rows → j < f.cols → FS.Fix (f.at' i j) ∧ ‖FS.val (f.at' i j)‖ ≤ FV.fieldMax N M C) →
      FftWithin inv δ₀ f (2 * nr - 2) nc)
    (hfft : ∀ T P, Fl.vispht rnd lib.jp (Fl.visphtPost rnd inv) b c (some nr) (some nc) = .ok ⟨T, P⟩ → Fft2Within lib.fft δ₁ T ∧ Fft2Within lib.fft δ₁ P) :
    ∃ p ch, Fl.vispht rnd lib.jp (Fl.visphtPost rnd inv) b c (some nr) (some nc) = .ok p ∧ Fl.kVspht rnd lib lm J p (some c.nmax) (some c.mmax) = .ok ch ∧
      ch.WellFormed ∧ ch.nmax = c.nmax ∧ ch.mmax = c.mmax ∧ ∀ n m : ℤ, IsMode c.nmax c.mmax n m → n ≠ 0 → ∃ z, readMapV ch n m = some z ∧
        ‖FS.val z.1 - FS.val (v n m)‖ ≤ kvsphtErr (2 * nr - 2).toNat M ((N + 1) ^ 2 * C) δ₁ n +
          1 / Real.sqrt ((n : ℝ) * ((n : ℝ) + 1)) * ((2 * n + 1) * Real.sqrt ((2 * n + 1) / (4 * Real.pi)) * (20 * ((M + nr) * ε))) ∧
        ‖FS.val z.2 - FS.val (w n m)‖ ≤ kvsphtErr (2 * nr - 2).toNat M ((N + 1) ^ 2 * C) δ₁ n +
          1 / Real.sqrt ((n : ℝ) * ((n : ℝ) + 1)) * ((2 * n + 1) * Real.sqrt ((2 * n + 1) / (4 * Real.pi)) * (20 * ((M + nr) * ε))) := by
  have hC9 : 2 ^ (-900 : ℤ) ≤ C := (zpow_le_zpow_right₀ (by norm_num) (by norm_num)).trans hC
  have C0 : 0 ≤ C := le_trans (by positivity) hC
  have hMN : M ≤ N := by have := hc.wf1.wf.mn; have := hc.n1; have := hc.m1; omega
  obtain ⟨⟨T, P⟩, D, e1, -, g1, g2, g3, g4, -, -, -, -, -, hgS⟩ :=
    FV.vispht_samples hrd b c hc N M hn hm hj hN v w hvw C hC9 hC' hvC hwC nr nc h1 h2 h3 inv δ₀ ε hε hε' hinv
  simp only at g1 g2 g3 g4 hgS
  have hsz' : nr ≤ 134217728 := by norm_num at hsz; exact hsz
  obtain ⟨S, hS⟩ : ∃ S, S = ((N : ℝ) + 1) ^ 2 * C := ⟨_, rfl⟩
  rw [← hS] at hgS
  have S1 : C ≤ S := by
    have : (1 : ℝ) ≤ ((N : ℝ) + 1) ^ 2 := one_le_pow₀ (by have : (0 : ℝ) ≤ N := by positivity
                                                          linarith)
    rw [hS]
    exact le_mul_of_one_le_left C0 this
  have hS2 : S ≤ 2 ^ (400 : ℤ) := by
    have n1 : (N : ℝ) ≤ 1000 := by exact_mod_cast hN
    calc S ≤ (1000 + 1) ^ 2 * 2 ^ (300 : ℤ) := by rw [hS]; gcongr
      _ ≤ 2 ^ (100 : ℤ) * 2 ^ (300 : ℤ) := mul_le_mul_of_nonneg_right (by norm_num) (by positivity)
      _ = 2 ^ (400 : ℤ) := by rw [← zpow_add₀ (by norm_num)]; norm_num
  have hq0 : (T.rows : ℝ) = 2 * (nr : ℝ) - 2 := by
    have : ((T.rows : ℤ) : ℝ) = ((2 * nr - 2 : ℤ) : ℝ) := by rw [g1]
    push_cast at this
    exact this
  have hq : (T.rows : ℝ) + 1 = 2 * (nr : ℝ) - 1 := by linarith
  have hq2 : (T.rows : ℝ) / 2 + M + 3 = nr + M + 2 := by linarith
  have hgr : (2 * nr - 2).toNat = T.rows := by omega
  obtain ⟨hf1, hf2⟩ := hfft T P e1
  have hcv := FK.vconv hrd lib hl T P g3 g4 (by omega) (by omega) (by norm_num; omega) (by omega) N M (by omega) (by omega) (by omega) S (hC.trans S1) hS2
    (fun i j hi hj' => (hgS i j hi hj').1) (fun i j hi hj' => (hgS i j hi hj').2) δ₁ (by rw [hq, hS]; exact hδ₁) hf1 hf2
  have W0 : 0 ≤ ((T.rows : ℝ) / 2 + M + 3) * S := mul_nonneg (by positivity) (C0.trans S1)
  obtain ⟨p, ch, f1, f2, f3, f4, f5, f6⟩ := c98_round_trip hrd (FK.kLib lib lm) FA.goodLib_sum b (.c J) c hc N M hn hm hj (PowOK.c _ _ _) hN v w hvw C hC9 hC' hvC hwC nr nc h1 h2 h3
    (by norm_num; omega) inv δ₀ δ₁ (FK.convErr T.rows (((T.rows : ℝ) / 2 + M + 3) * S)) ε hε hε' hδ₁
    (by rw [← hS, ← hq2]; exact FK.convErr_le (by omega) (by norm_num; omega) W0) hinv
    (fun T' P' hD => by
      have hD' : Fl.vispht rnd lib.jp (Fl.visphtPost rnd inv) b c (some nr) (some nc) = .ok ⟨T', P'⟩ := hD
      rw [e1] at hD'
      cases hD'
      exact ⟨hf1, hf2, fun g hg => hcv g hg⟩)
  have f1' : Fl.vispht rnd lib.jp (Fl.visphtPost rnd inv) b c (some nr) (some nc) = .ok p := f1
  rw [e1] at f1'
  cases f1'
  obtain ⟨Q, t', ss, fw, bw, s, hready⟩ := FK.ready (rnd := rnd) hrd.toIsRounding hl (T.rows + 2) N (by omega) (by omega) (by norm_num; omega)
  have hlt := hready.lt
  rw [hn, hm] at f2
  have k1 := FK.kVspht_of lib lm J T P g3 N M hready (by norm_num; omega) (FK.kLib lib lm) rfl rfl ch f2
  refine ⟨_, ch, e1, by rw [hn, hm]; exact k1, f3, f4, f5, fun n m hnm n0 => ?_⟩
  obtain ⟨z, z1, z2, z3⟩ := f6 n m hnm n0
  have k2 := FK.kvspht_num (r := T.rows) (M := M) (C := S) (δ := δ₁) (n := n) (by omega) (C0.trans S1) hnm.1
  unfold vroundErr at z2 z3
  rw [hgr, ← hS] at z2 z3 ⊢
  exact ⟨z, z1, z2.trans (add_le_add k2 le_rfl), z3.trans (add_le_add k2 le_rfl)⟩

end Verif.Props
