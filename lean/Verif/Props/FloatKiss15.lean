import Verif.Props.FloatKiss14
import Verif.Props.FloatAnal5
/-!
# C100: `spht` in doubles with the C extension and its kiss_fft
-/
namespace Verif.Props
open Verif Finset

variable {rnd : ℝ → ℝ}

/-- The error bound of C100 for degree `n`: `rows` rows of doubled samples of modulus at most `C`, a two-dimensional FFT within `δ`. -/
noncomputable def ksphtErr (rows : ℕ) (C δ : ℝ) (n : ℤ) : ℝ :=
  Real.sqrt ((2 * n + 1) / (4 * Real.pi)) * ((n + 1) * ((n : ℝ) + 4) ^ 3 * 2 ^ (-43 : ℤ) * C +
    (2 * n + 1) * (Real.sqrt ((rows : ℝ) + 1) * (20 * δ + 2 ^ (-34 : ℤ) * (Nat.log 2 (4 * rows)) ^ 2 * C)))

namespace FK

theorem spre_rows {lib : Fl.NumLib rnd} {D G : Arr2 (FC rnd)} (h : Fl.sphtPre rnd lib D = .ok G) : G.rows = D.rows + 2 := by
  unfold Fl.sphtPre at h
  obtain ⟨a, -, h⟩ := bind_inv h
  obtain ⟨b, -, h⟩ := bind_inv h
  obtain ⟨c, hc, h⟩ := bind_inv h
  have hc' : c.rows = D.rows + 2 := by
    unfold padRows at hc
    simp only at hc
    split_ifs at hc
    cases hc; rfl
  unfold Fl.sinFc at h
  split_ifs at h
  · cases h
  · injection h with h
    rw [← h]
    exact hc'

/-- The library with the convolution of the C extension. -/
noncomputable def kLib (lib : Fl.NumLib rnd) (lm : Fl.LibM) : Fl.NumLib rnd := { lib with conv := kConv rnd lm, sum := (FA.goodLib rnd).sum }

theorem kSpht_of (lib : Fl.NumLib rnd) (lm : Fl.LibM) (J : ℕ → CJunk) (D : Arr2 (FC rnd)) (N M : ℕ) {Q : ℕ} {t' ss : List (FC rnd)} {fw bw : Fl.KissCfg rnd} {s : List ℂ}
    (h : Ready (rnd := rnd) lm (D.rows + 2) N Q t' ss fw bw s) (hQ : Q < 2 ^ 32) (c : ScalarCoefs (FC rnd))
    (e : Fl.spht rnd (kLib lib lm) (.c J) ⟨.arr D⟩ (some N) (some M) = .ok c) : Fl.kSpht rnd lib lm J ⟨.arr D⟩ (some N) (some M) = .ok c := by
  unfold Fl.spht at e
  unfold Fl.kSpht
  have e3 : SPatt.dsphere (⟨.arr D⟩ : SPatt (FC rnd)) = .ok D := rfl
  have e4 : ∀ a b : Res ℕ, ∀ {β : Type} (f : Int × Int → Res β), (sphtArgs a b (some (N : ℤ)) (some (M : ℤ))).bind f = f ((N : ℤ), (M : ℤ)) := fun _ _ _ _ => rfl
  rw [e3, e4] at e ⊢
  simp only [Except.bind_ok] at e ⊢
  obtain ⟨a, h1, e⟩ := bind_inv e
  obtain ⟨G, h2, e⟩ := bind_inv e
  obtain ⟨b, h3, e⟩ := bind_inv e
  obtain ⟨v, h4, e⟩ := bind_inv e
  have h2' : Fl.sphtPre rnd lib D = .ok G := h2
  rw [h1, h2', h3]
  simp only [Except.bind_ok]
  rw [ext_eq h hQ G (spre_rows h2') (kLib lib lm) rfl M J 0 v h4]
  exact e

/-- The arithmetic of `convErr`. -/
theorem convErr_le {r : ℕ} {S : ℝ} (hr0 : 0 < r) (hsz : r ≤ 2 ^ 28) (hS : 0 ≤ S) : convErr r S ≤ S := by
  unfold convErr
  have q2 : Real.sqrt ((r : ℝ) + 1) ≤ 2 ^ 15 := by
    rw [Real.sqrt_le_left (by norm_num)]
    have : (r : ℝ) ≤ 2 ^ 28 := by exact_mod_cast hsz
    linarith
  have hL : (Nat.log 2 (4 * r) : ℝ) ≤ 30 := by
    have : Nat.log 2 (4 * r) ≤ 30 := by
      rw [show (30 : ℕ) = Nat.log 2 (2 ^ 30) by rw [Nat.log_pow (by norm_num)]]
      exact Nat.log_mono_right (by omega)
    exact_mod_cast this
  have h1 : (Nat.log 2 (4 * r) : ℝ) ^ 2 ≤ 30 ^ 2 := pow_le_pow_left₀ (by positivity) hL 2
  have h2 : 2 ^ (-35 : ℤ) * (Nat.log 2 (4 * r) : ℝ) ^ 2 * Real.sqrt ((r : ℝ) + 1) ≤ 2 ^ (-35 : ℤ) * 30 ^ 2 * 2 ^ 15 := by gcongr
  calc _ ≤ 2 ^ (-35 : ℤ) * 30 ^ 2 * 2 ^ 15 * S := mul_le_mul_of_nonneg_right h2 hS
    _ ≤ 1 * S := mul_le_mul_of_nonneg_right (by norm_num) hS
    _ = S := one_mul S

theorem log_ge {r : ℕ} (hr0 : 2 ≤ r) : (3 : ℝ) ≤ (Nat.log 2 (4 * r) : ℝ) := by
  exact_mod_cast Nat.le_log_of_pow_le (by norm_num) (by omega)

/-- The constants of C100. -/
theorem kspht_num {r : ℕ} {C δ : ℝ} {n : ℤ} (hr : 2 ≤ r) (C0 : 0 ≤ C) (hn : 0 ≤ n) :
    Real.sqrt ((2 * n + 1) / (4 * Real.pi)) * ((n + 1) * ((n : ℝ) + 4) ^ 3 * 2 ^ (-43 : ℤ) * C +
      (2 * n + 1) * (convErr r C + 20 * Real.sqrt ((r : ℝ) + 1) * (δ + 2 ^ (-49 : ℤ) * C))) ≤ ksphtErr r C δ n := by
  unfold ksphtErr
  refine mul_le_mul_of_nonneg_left ?_ (Real.sqrt_nonneg _)
  have n0 : (0 : ℝ) ≤ n := by exact_mod_cast hn
  refine add_le_add le_rfl (mul_le_mul_of_nonneg_left ?_ (by linarith))
  unfold FK.convErr
  obtain ⟨q, hq⟩ : ∃ q, q = Real.sqrt ((r : ℝ) + 1) := ⟨_, rfl⟩
  rw [← hq]
  have q0 : 0 ≤ q := by rw [hq]; exact Real.sqrt_nonneg _
  have l3 := log_ge hr
  obtain ⟨L, hL⟩ : ∃ L : ℝ, L = (Nat.log 2 (4 * r) : ℝ) := ⟨_, rfl⟩
  rw [← hL] at l3 ⊢
  have L1 : 1 ≤ L ^ 2 := one_le_pow₀ (by linarith)
  have x1 : (2 : ℝ) ^ (-34 : ℤ) = 2 * 2 ^ (-35 : ℤ) := by norm_num
  have x2 : (20 : ℝ) * 2 ^ (-49 : ℤ) ≤ 2 ^ (-35 : ℤ) * L ^ 2 := by
    refine le_trans (by norm_num : (20 : ℝ) * 2 ^ (-49 : ℤ) ≤ 2 ^ (-35 : ℤ) * 1) (mul_le_mul_of_nonneg_left L1 (by positivity))
  rw [x1]
  have x3 := mul_le_mul_of_nonneg_right x2 (mul_nonneg q0 C0)
  obtain ⟨a, ha⟩ : ∃ a : ℝ, a = 2 ^ (-35 : ℤ) := ⟨_, rfl⟩
  obtain ⟨b, hb⟩ : ∃ b : ℝ, b = 2 ^ (-49 : ℤ) := ⟨_, rfl⟩
  rw [← ha, ← hb] at x3 ⊢
  clear ha hb x1 x2
  nlinarith [x3]

/-- The convolution on the array of `spht`. -/
theorem sconv_of (hrd : NoOverflow rnd) (lib : Fl.NumLib rnd) {conv : Arr2 (FC rnd) → Int → Int → Res (List (FC rnd))} {err : ℝ → ℝ}
    (D : Arr2 (FC rnd)) (hR : D.rows % 2 = 0) (hR0 : 0 < D.rows) (hsz : D.rows ≤ 2 ^ 28) (N M : ℕ)
    (hNr : N < D.rows / 2) (hMc : 2 * M < D.cols) (C : ℝ) (hC : 2 ^ (-700 : ℤ) ≤ C) (hC' : C ≤ 2 ^ (400 : ℤ))
    (hD : ∀ i j, i < D.rows → j < D.cols → ‖FS.val (D.at' i j)‖ ≤ C) (δ : ℝ) (hδ : Real.sqrt ((D.rows : ℝ) + 1) * δ ≤ C / 4) (hfft : Fft2Within lib.fft δ D) (hcol : ColWithin conv err D.rows N) :
    ∀ g, Fl.sphtPre rnd lib D = .ok g → ∀ m : ℤ, |m| ≤ M → ConvWithin conv (err C) g N m := by
  have hK0 : 0 < D.cols := by omega
  have hC9 : 2 ^ (-900 : ℤ) ≤ C := (zpow_le_zpow_right₀ (by norm_num) (by norm_num)).trans hC
  have C0 : 0 < C := lt_of_lt_of_le (by positivity) hC
  obtain ⟨q, hq⟩ : ∃ q, q = Real.sqrt ((D.rows : ℝ) + 1) := ⟨_, rfl⟩
  have q1 : 1 ≤ q := by
    rw [hq, Real.one_le_sqrt]
    have : (0 : ℝ) ≤ D.rows := by positivity
    linarith
  have q2 : q ≤ 2 ^ 15 := by
    rw [hq, Real.sqrt_le_left (by norm_num)]
    have : (D.rows : ℝ) ≤ 2 ^ 28 := by exact_mod_cast hsz
    linarith
  have u0 := uu_pos
  have hδ0 := hδ
  rw [← hq] at hδ
  have δ0 : 0 ≤ δ := by
    obtain ⟨f, f', -, e, r1, c1, hv⟩ := hfft
    obtain ⟨f'', e', r2, c2, -⟩ := FA.fft2_norm (D.map FS.val) hR0 hK0 (C := C) (fun i j hi hj => by rw [Arr2.at'_map _ D hi hj]; exact hD i j hi hj)
    rw [e] at e'
    cases e'
    have r3 : f'.rows = D.rows := r2
    have c3 : f'.cols = D.cols := c2
    exact (norm_nonneg _).trans (hv 0 0 (by omega) (by omega))
  have δq : δ ≤ q * δ := le_mul_of_one_le_left δ0 q1
  obtain ⟨G, G', eG, eG', Gr, Gc, Gr', Gc', hG, hny⟩ := FA.pre hrd lib D hR hR0 hK0 C0.le (δ := δ)
    (by
      have := FA.tiny_Q (C := C) (R := 1) hC9 (by norm_num)
      rw [mul_one] at this
      have : 0 ≤ uu * C := mul_nonneg uu_pos.le C0.le
      linarith)
    (by
      refine (mul_le_mul_of_nonneg_left hC' (by norm_num : (0 : ℝ) ≤ 2)).trans ?_
      rw [show (2 : ℝ) * 2 ^ (400 : ℤ) = 2 ^ (401 : ℤ) by rw [← zpow_one_add₀ (by norm_num)]; norm_num]
      exact zpow_le_zpow_right₀ (by norm_num) (by norm_num)) hD (by clear hC hC' hC9; linarith) hfft
  obtain ⟨G'', eG'', -, -, hs, -, -⟩ := sph_prep (D.map FS.val) hR hR0 hK0
  rw [eG'] at eG''
  cases eG''
  have hu : q * (12 * uu * C) ≤ C / 10 := by
    have h1 := FA.uu_le
    calc q * (12 * uu * C) ≤ 2 ^ 15 * (12 * (1 / 10 ^ 9) * C) := by gcongr
      _ ≤ C / 10 := by clear hC hC' hC9; linarith
  intro g hg' m hm
  rw [eG] at hg'
  cases hg'
  have hm' := abs_le.mp hm
  refine hcol D.cols G G' Gr Gc hK0 Gr' Gc' _ C hC (hC'.trans (zpow_le_zpow_right₀ (by norm_num) (by norm_num))) m (by omega) (by omega)
    (fun i hi => (hG i _ hi (slot_lt' hK0 m)).1) (hny _ (slot_lt' hK0 m)) ?_ (by rw [← hq]; clear hC hC' hC9; linarith)
  refine le_trans (le_of_eq (sum_congr rfl fun ν hν => ?_)) (FA.sing_l2 (D.map FS.val) hR0 hR hK0 (C := C) (fun i j hi hj => by
    rw [Arr2.at'_map _ D hi hj]; exact hD i j hi hj) m (Ioo (-(((D.rows + 2 : ℕ) : ℤ) / 2)) (((D.rows + 2 : ℕ) : ℤ) / 2)))
  rw [mem_Ioo] at hν
  rw [hs m ν (by rw [abs_le]; show -((((D.rows / 2 : ℕ) : ℤ)) + 1) ≤ ν ∧ ν ≤ ((D.rows / 2 : ℕ) : ℤ) + 1; omega)]

/-- The convolution of the extension on the array of `spht`. -/
theorem sconv (hrd : NoOverflow rnd) (lib : Fl.NumLib rnd) {lm : Fl.LibM} (hl : LibMWithin lm)
    (D : Arr2 (FC rnd)) (hR : D.rows % 2 = 0) (hR0 : 0 < D.rows) (hsz : D.rows ≤ 2 ^ 28) (N M : ℕ)
    (hNr : N < D.rows / 2) (hMc : 2 * M < D.cols) (C : ℝ) (hC : 2 ^ (-700 : ℤ) ≤ C) (hC' : C ≤ 2 ^ (400 : ℤ))
    (hD : ∀ i j, i < D.rows → j < D.cols → ‖FS.val (D.at' i j)‖ ≤ C) (δ : ℝ) (hδ : Real.sqrt ((D.rows : ℝ) + 1) * δ ≤ C / 4) (hfft : Fft2Within lib.fft δ D) :
    ∀ g, Fl.sphtPre rnd lib D = .ok g → ∀ m : ℤ, |m| ≤ M → ConvWithin (kConv rnd lm) (FK.convErr D.rows C) g N m :=
  sconv_of hrd lib D hR hR0 hsz N M hNr hMc C hC hC' hD δ hδ hfft (kCol hrd hl D.rows N hR hR0 hsz hNr)

end FK

/-- C100: `spht` in double precision with the compiled extension and the FFT library compiled into it, kiss_fft.  `lib` supplies only
`np.fft.fft2`, within `δ` of the exact transform on the doubled samples `D`; `lm` is the C math library, whose `sin` and `cos` are within
one unit in the last place; `J` is the content of freshly allocated memory.  Then `spht(p, N, M)` succeeds, and every coefficient is within
the stated bound of the coefficient `spht` returns in exact arithmetic on the same samples. -/
theorem c100_spht (hrd : NoOverflow rnd) (lib : Fl.NumLib rnd) {lm : Fl.LibM} (hl : LibMWithin lm) (J : ℕ → CJunk)
    (D : Arr2 (FC rnd)) (hR : D.rows % 2 = 0) (hR0 : 0 < D.rows) (hsz : D.rows ≤ 2 ^ 28) (hK : D.cols % 2 = 0) (N M : ℕ) (hN : N ≤ 1000) (hMN : M ≤ N)
    (hNr : N < D.rows / 2) (hMc : 2 * M < D.cols) (C : ℝ) (hC : 2 ^ (-700 : ℤ) ≤ C) (hC' : C ≤ 2 ^ (400 : ℤ))
    (hD : ∀ i j, i < D.rows → j < D.cols → ‖FS.val (D.at' i j)‖ ≤ C) (δ : ℝ) (hδ : Real.sqrt ((D.rows : ℝ) + 1) * δ ≤ C / 4) (hfft : Fft2Within lib.fft δ D) :
    ∃ c ch, spht .py ⟨.arr (D.map FS.val)⟩ (some N) (some M) = .ok c ∧ Fl.kSpht rnd lib lm J ⟨.arr D⟩ (some N) (some M) = .ok ch ∧
      ch.WellFormed ∧ ch.nmax = N ∧ ch.mmax = M ∧ ∀ n m : ℤ, IsMode N M n m → ∃ w z, readMap c n m = some w ∧ readMap ch n m = some z ∧
        ‖FS.val z - w‖ ≤ ksphtErr D.rows C δ n := by
  have hC9 : 2 ^ (-900 : ℤ) ≤ C := (zpow_le_zpow_right₀ (by norm_num) (by norm_num)).trans hC
  have C0 : 0 < C := lt_of_lt_of_le (by positivity) hC
  obtain ⟨Q, t', ss, fw, bw, s, hready⟩ := FK.ready (rnd := rnd) hrd.toIsRounding hl (D.rows + 2) N (by omega) (by omega) (by omega)
  have hlt := hready.lt
  have hconv := FK.sconv hrd lib hl D hR hR0 hsz N M hNr hMc C hC hC' hD δ hδ hfft
  obtain ⟨c, ch, e1, e2, e3, e4, e5, e6⟩ := FA.spht_core (N := N) (M := M) hrd (FK.kLib lib lm) (.c J) (fun h => by cases h) D hR hR0 (by omega) hK hN hMN hNr hMc C hC9 hC' hD δ (FK.convErr D.rows C)
    hδ (FK.convErr_le hR0 hsz C0.le) hfft hconv
  refine ⟨c, ch, e1, FK.kSpht_of lib lm J D N M hready (by omega) ch e2, e3, e4, e5, fun n m hm => ?_⟩
  obtain ⟨w, z, f1, f2, f3⟩ := e6 n m hm
  refine ⟨w, z, f1, f2, f3.trans ?_⟩
  exact FK.kspht_num (by omega) C0.le hm.1

namespace FK

theorem ynunm_fresh (n m : Int) (L : ℕ) (y y' : List ℝ) (h : y.length = L) (h' : y'.length = L) : Fl.cYnunm rnd n m y L = Fl.cYnunm rnd n m y' L := by
  unfold Fl.cYnunm
  have e : ∀ y : List ℝ, y.length = L → forM' (pyRange 0 L) y (fun y k => cSet y k 0) = .ok (tab L fun _ => 0) := by
    intro y h
    rw [fill_ok y L (by omega) _ (fun _ => 0) (fun k l' hk hl' _ => cSet_ok (by omega)), h]
    congr 1
    refine list_ext_rd (by simp) fun i hi => ?_
    rw [length_tab] at hi
    rw [rd_tab hi, rd_tab hi, if_pos hi]
  rw [e y h, e y' h']

theorem ynunm_len (n m : Int) (L : Int) (y out : List ℝ) (h : Fl.cYnunm rnd n m y L = .ok out) : out.length = y.length := by
  unfold Fl.cYnunm at h
  obtain ⟨a, h1, h⟩ := bind_inv h
  have l1 := forM_len (fun a x b h => cSet_len h) _ _ _ h1
  split_ifs at h
  · obtain ⟨b, h2, h⟩ := bind_inv h
    have l2 := cSet_len h2
    simp only at h
    split_ifs at h
    · obtain ⟨c, h3, h⟩ := bind_inv h
      obtain ⟨d, h4, h⟩ := bind_inv h
      have l4 := cSet_len h4
      rw [forM_len (fun a x b h => ?_) _ _ _ h]
      · omega
      · unfold Fl.cYnunmStep at h
        obtain ⟨e, -, h⟩ := bind_inv h
        obtain ⟨f, -, h⟩ := bind_inv h
        exact cSet_len h
    · cases h; omega
  · cases h; omega

/-- `fc_to_sc` of the extension does not depend on the content of freshly allocated memory. -/
theorem ext_fresh {lm : Fl.LibM} {R N Q : ℕ} {t' ss : List (FC rnd)} {fw bw : Fl.KissCfg rnd} {s : List ℂ} (h : Ready (rnd := rnd) lm R N Q t' ss fw bw s) (hQ : Q < 2 ^ 32)
    (G : Arr2 (FC rnd)) (hG : G.rows = R) (M : ℕ) (J J' : ℕ → CJunk) (call call' : ℕ) (v : List (FC rnd)) (hv : Fl.kExtFcToSc rnd lm J call G N M = .ok v) :
    Fl.kExtFcToSc rnd lm J' call' G N M = .ok v := by
  have key : SimR Eq (Fl.kExtFcToSc rnd lm J call G N M) (Fl.kExtFcToSc rnd lm J' call' G N M) := by
    unfold Fl.kExtFcToSc
    refine SimR.bind_eq rfl fun sc => ?_
    obtain ⟨j, hj⟩ : ∃ j, j = J call := ⟨_, rfl⟩
    obtain ⟨j', hj'⟩ : ∃ j', j' = J' call' := ⟨_, rfl⟩
    rw [← hj, ← hj']
    unfold Fl.kFcToSc
    rw [hG, h.find]
    simp only [orDiverge, Except.bind_ok]
    have mal : ∀ {α : Type} (n : ℕ) (f : ℕ → α), cMalloc (n : Int) f = .ok (tab n f) := fun n f => by unfold cMalloc; rw [if_neg (by omega), Int.toNat_natCast]
    have n1 : ((N : Int) + 1) = ((N + 1 : ℕ) : Int) := by push_cast; rfl
    have n2 : (2 * (M : Int) + 1) = ((2 * M + 1 : ℕ) : Int) := by push_cast; rfl
    rw [n1, n2]
    simp only [mal, Except.bind_ok]
    rw [h.sdata _ (by simp), h.sdata _ (by simp)]
    simp only [Except.bind_ok]
    rw [h.afw, h.abw]
    simp only [Except.bind_ok]
    rw [h.fft, h.fft]
    simp only [Except.bind_ok]
    rw [cMemset0_ok _ (2 * M + 1) (by simp), cMemset0_ok _ (2 * M + 1) (by simp)]
    simp only [Except.bind_ok]
    refine SimR.bind_eq rfl fun inds => ?_
    have one : ∀ (m off : Int) (w w' : Fl.CWork rnd), (w.sc = w'.sc ∧ (w.y.length = N + 1 ∧ w.hkm.length = N + 1 ∧ w.ff.length = Q) ∧ w'.y.length = N + 1 ∧ w'.hkm.length = N + 1 ∧ w'.ff.length = Q) →
        SimR (fun (w w' : Fl.CWork rnd) => w.sc = w'.sc ∧ (w.y.length = N + 1 ∧ w.hkm.length = N + 1 ∧ w.ff.length = Q) ∧ w'.y.length = N + 1 ∧ w'.hkm.length = N + 1 ∧ w'.ff.length = Q)
          (Fl.kBnmFc rnd G.flat R G.cols N m off ss Q ((N + 1 : ℕ) : Int) ((N + 1 : ℕ) : Int) fw bw (Fl.junkC rnd j) w)
          (Fl.kBnmFc rnd G.flat R G.cols N m off ss Q ((N + 1 : ℕ) : Int) ((N + 1 : ℕ) : Int) fw bw (Fl.junkC rnd j') w') := by
      intro m off w w' ⟨w1, ⟨w2, w3, w4⟩, w5, w6, w7⟩
      unfold Fl.kBnmFc
      refine SimR.bind (R := fun a b => a = b ∧ a.1.length = N + 1 ∧ a.2.length = Q) (fun hf eh => ⟨hf, ?_, rfl, ?_⟩) ?_
      · exact hkm_fresh (R := R) hQ h.afw h.abw G.flat G.cols m w.hkm w'.hkm ss w.ff w'.ff (N + 1) w3 w6 w4 w7 _ (Fl.junkC rnd j') hf eh
      · exact hkm_len G.flat G.cols m w.hkm ss w.ff (N + 1) w3 w4 _ hf eh
      rintro hf _ ⟨rfl, l1, l2⟩
      refine SimR.bind (R := fun (a b : List (FC rnd) × List ℝ) => a.1 = b.1 ∧ a.2.length = N + 1 ∧ b.2.length = N + 1) (SimR.forL _ (fun n _ a b hab => ?_) _ _ ⟨w1, w2, w5⟩) ?_
      · obtain ⟨a1, a2⟩ := a
        obtain ⟨b1, b2⟩ := b
        obtain ⟨e1, e2, e3⟩ := hab
        simp only at e1 e2 e3
        subst e1
        unfold Fl.cBnmBody
        simp only
        rw [ynunm_fresh n m (N + 1) a2 b2 e2 e3]
        intro x hx
        refine ⟨x, hx, rfl, ?_⟩
        obtain ⟨y, hy, hx⟩ := bind_inv hx
        have ly := ynunm_len _ _ _ _ _ hy
        obtain ⟨_, -, hx⟩ := bind_inv hx
        obtain ⟨_, -, hx⟩ := bind_inv hx
        obtain ⟨_, -, hx⟩ := bind_inv hx
        obtain ⟨_, -, hx⟩ := bind_inv hx
        obtain ⟨_, -, hx⟩ := bind_inv hx
        obtain ⟨_, -, hx⟩ := bind_inv hx
        cases hx
        exact ⟨ly.trans e3, ly.trans e3⟩
      · rintro a b ⟨e1, e2, e3⟩ x hx
        cases hx
        exact ⟨_, rfl, e1, ⟨e2, l1, l2⟩, e3, l1, l2⟩
    refine SimR.bind (one 0 0 _ _ ⟨rfl, ⟨by simp, by simp, by simp⟩, by simp, by simp, by simp⟩) fun w w' hw => ?_
    refine SimR.bind (R := fun (w w' : Fl.CWork rnd) => w.sc = w'.sc ∧ (w.y.length = N + 1 ∧ w.hkm.length = N + 1 ∧ w.ff.length = Q) ∧ w'.y.length = N + 1 ∧ w'.hkm.length = N + 1 ∧ w'.ff.length = Q)
      (SimR.forL _ (fun m _ w w' hw => ?_) _ _ hw) fun w w' hw => ?_
    · refine SimR.bind_eq rfl fun o1 => SimR.bind (one _ _ _ _ hw) fun st w hw => SimR.bind_eq rfl fun o2 => one _ _ _ _ hw
    · intro x hx
      cases hx
      exact ⟨_, rfl, hw.1⟩
  obtain ⟨r', e, rfl⟩ := key v hv
  exact e

end FK

/-- C100: the result of `spht` with the extension does not depend on the content of the memory the extension allocates, whatever the samples
and the two-dimensional FFT. -/
theorem c100_fresh (hrd : NoOverflow rnd) (lib : Fl.NumLib rnd) {lm : Fl.LibM} (hl : LibMWithin lm) (J J' : ℕ → CJunk)
    (D : Arr2 (FC rnd)) (hR : D.rows % 2 = 0) (N M : ℕ) (hsz : D.rows + N ≤ 2 ^ 28) (c : ScalarCoefs (FC rnd))
    (h : Fl.kSpht rnd lib lm J ⟨.arr D⟩ (some N) (some M) = .ok c) : Fl.kSpht rnd lib lm J' ⟨.arr D⟩ (some N) (some M) = .ok c := by
  unfold Fl.kSpht at h ⊢
  have e3 : SPatt.dsphere (⟨.arr D⟩ : SPatt (FC rnd)) = .ok D := rfl
  have e4 : ∀ a b : Res ℕ, ∀ {β : Type} (f : Int × Int → Res β), (sphtArgs a b (some (N : ℤ)) (some (M : ℤ))).bind f = f ((N : ℤ), (M : ℤ)) := fun _ _ _ _ => rfl
  rw [e3, e4] at h ⊢
  simp only [Except.bind_ok] at h ⊢
  obtain ⟨a, h1, h⟩ := FK.bind_inv h
  obtain ⟨G, h2, h⟩ := FK.bind_inv h
  obtain ⟨b, h3, h⟩ := FK.bind_inv h
  obtain ⟨v, h4, h⟩ := FK.bind_inv h
  obtain ⟨Q, t', ss, fw, bw, s, hready⟩ := FK.ready (rnd := rnd) hrd.toIsRounding hl (D.rows + 2) N (by omega) (by omega) (by omega)
  have hlt := hready.lt
  rw [h1, h2, h3]
  simp only [Except.bind_ok]
  rw [FK.ext_fresh hready (by omega) G (FK.spre_rows h2) M J J' 0 0 v h4]
  exact h

/-- Not vacuous: an 8 by 8 array of different samples, analysed with `nmax = 3`, `mmax = 2` by the extension, with two different contents of
fresh memory; every coefficient is correct to `2^-20`. -/
example : ∃ (rnd : ℝ → ℝ) (lib : Fl.NumLib rnd) (lm : Fl.LibM) (D : Arr2 (FC rnd)) (c : ScalarCoefs ℂ) (ch : ScalarCoefs (FC rnd)), NoOverflow rnd ∧ LibMWithin lm ∧ D.rows = 8 ∧ D.cols = 8 ∧ D.at' 3 5 = ⟨3, 5⟩ ∧
    spht .py ⟨.arr (D.map FS.val)⟩ (some 3) (some 2) = .ok c ∧ Fl.kSpht rnd lib lm (fun _ => ⟨fun _ _ => 7, fun _ => 8, fun _ => 9⟩) ⟨.arr D⟩ (some 3) (some 2) = .ok ch ∧
    Fl.kSpht rnd lib lm (fun _ => ⟨fun _ _ => 0, fun _ => 0, fun _ => 0⟩) ⟨.arr D⟩ (some 3) (some 2) = .ok ch ∧ ch.WellFormed ∧
    ∀ n m : ℤ, IsMode 3 2 n m → ∃ w z, readMap c n m = some w ∧ readMap ch n m = some z ∧ ‖FS.val z - w‖ ≤ 2 ^ (-20 : ℤ) := by
  obtain ⟨rnd, h⟩ := noOverflow_exists
  have hC : (2 : ℝ) ^ (-700 : ℤ) ≤ 16 := (zpow_le_one_of_nonpos₀ (by norm_num) (by norm_num)).trans (by norm_num)
  have hC' : (16 : ℝ) ≤ 2 ^ (400 : ℤ) := by
    rw [show (16 : ℝ) = 2 ^ (4 : ℤ) by norm_num]; exact zpow_le_zpow_right₀ (by norm_num) (by norm_num)
  obtain ⟨D, eD⟩ : ∃ D : Arr2 (FC rnd), D = Arr2.ofFn 8 8 fun i j => ⟨i, j⟩ := ⟨_, rfl⟩
  have hr : D.rows = 8 := by subst eD; rfl
  have hc : D.cols = 8 := by subst eD; rfl
  have hD : ∀ i j, i < D.rows → j < D.cols → ‖FS.val (D.at' i j)‖ ≤ 16 := by
    intro i j hi hj
    rw [hr] at hi
    rw [hc] at hj
    rw [eD, Arr2.at'_ofFn hi hj]
    refine (Complex.norm_le_abs_re_add_abs_im _).trans ?_
    show |(i : ℝ)| + |(j : ℝ)| ≤ 16
    rw [abs_of_nonneg (by positivity), abs_of_nonneg (by positivity)]
    have a : (i : ℝ) ≤ 8 := by exact_mod_cast hi.le
    have b : (j : ℝ) ≤ 8 := by exact_mod_cast hj.le
    linarith
  have hl := libMWithin_rnd h.toIsRounding
  obtain ⟨c, ch, e1, e2, e3, -, -, e4⟩ := c100_spht h (FA.goodLib rnd) hl (fun _ => ⟨fun _ _ => 7, fun _ => 8, fun _ => 9⟩) D (by omega) (by omega)
    (by omega) (by omega) 3 2 (by norm_num) (by norm_num) (by omega) (by omega) 16 hC hC' hD 0 (by norm_num) (FA.goodLib_fft D (by omega) (by omega))
  refine ⟨rnd, FA.goodLib rnd, _, D, c, ch, h, hl, hr, hc, by subst eD; rfl, e1, e2, ?_, e3, fun n m hm => ?_⟩
  · exact c100_fresh h _ hl _ _ D (by omega) 3 2 (by omega) ch e2
  obtain ⟨w, z, f1, f2, f3⟩ := e4 n m hm
  refine ⟨w, z, f1, f2, f3.trans ?_⟩
  obtain ⟨h0, h1, -, -⟩ := hm
  have n0 : (0 : ℝ) ≤ n := by exact_mod_cast h0
  have n1 : (n : ℝ) ≤ 3 := by exact_mod_cast h1
  have hs : Real.sqrt ((2 * n + 1) / (4 * Real.pi)) ≤ 1 := by
    apply Real.sqrt_le_iff.mpr
    refine ⟨by norm_num, ?_⟩
    rw [one_pow, div_le_one (by positivity)]
    linarith [Real.pi_gt_three]
  unfold ksphtErr
  rw [hr]
  have hp : ((n : ℝ) + 4) ^ 3 ≤ 7 ^ 3 := pow_le_pow_left₀ (by linarith) (by linarith) 3
  have hx : ((n : ℝ) + 1) * ((n : ℝ) + 4) ^ 3 ≤ 4 * 7 ^ 3 := mul_le_mul (by linarith) hp (by positivity) (by norm_num)
  have h9 : Real.sqrt (((8 : ℕ) : ℝ) + 1) = 3 := by
    rw [show (((8 : ℕ) : ℝ) + 1) = 3 ^ 2 by norm_num, Real.sqrt_sq (by norm_num)]
  have hL : Nat.log 2 (4 * 8) = 5 := by
    rw [show 4 * 8 = 2 ^ 5 by norm_num, Nat.log_pow (by norm_num)]
  rw [h9, hL]
  refine (mul_le_mul hs le_rfl (by positivity) (by norm_num)).trans ?_
  have e34 : (2 : ℝ) ^ (-34 : ℤ) = 1 / 17179869184 := by norm_num
  have e43 : (2 : ℝ) ^ (-43 : ℤ) = 1 / 8796093022208 := by norm_num
  have e20 : (2 : ℝ) ^ (-20 : ℤ) = 1 / 1048576 := by norm_num
  clear hC hC'
  rw [e34, e43, e20]
  push_cast
  nlinarith

end Verif.Props
