import Verif.Props.FloatVec6
import Verif.Props.Symmetry3
/-!
# Property C97: `vspht` in double precision is accurate
-/
namespace Verif.Props
open Verif Finset

variable {rnd : ℝ → ℝ}

/-- The two arrays `vspht` passes to the convolution: `sinLdot_fc(ft, fp)` and `sinLdot_fc(-1j * fp, 1j * ft)` (spherepy.py 1941-1946). -/
def VsphtArray (lib : Fl.NumLib rnd) (T P g : Arr2 (FC rnd)) : Prop :=
  ∃ t p, Fl.extFourier rnd lib T = .ok t ∧ Fl.extFourier rnd lib P = .ok p ∧
    (Fl.sinLdotFc rnd t p = .ok g ∨ Fl.sinLdotFc rnd (p.map fun x => (⟨0, -1⟩ : FC rnd) * x) (t.map fun x => (⟨0, 1⟩ : FC rnd) * x) = .ok g)

/-- The error bound of C97 for degree `n`: `rows` rows of doubled samples of modulus at most `C`, an FFT within `δ₁`, a convolution within `δ₂`. -/
noncomputable def vsphtErr (rows M : ℕ) (C δ₁ δ₂ : ℝ) (n : ℤ) : ℝ :=
  1 / Real.sqrt ((n : ℝ) * ((n : ℝ) + 1)) * (Real.sqrt ((2 * n + 1) / (4 * Real.pi)) *
    ((n + 1) * ((n : ℝ) + 4) ^ 3 * 2 ^ (-42 : ℤ) * (((rows : ℝ) / 2 + M + 3) * C) +
      (2 * n + 1) * (δ₂ + 20 * Real.sqrt ((rows : ℝ) + 1) * ((rows : ℝ) / 2 + M + 3) * (δ₁ + 2 ^ (-48 : ℤ) * C))))

namespace FV

/-- The arrays of `vspht` in doubles and the exact ones. -/
theorem vpre (hrd : NoOverflow rnd) (lib : Fl.NumLib rnd) (T P : Arr2 (FC rnd)) (hr : P.rows = T.rows) (hc : P.cols = T.cols) (hR : T.rows % 2 = 0) (hR0 : 0 < T.rows) (hsz : T.rows ≤ 2 ^ 29)
    (hK : T.cols % 2 = 0) (hK0 : 0 < T.cols) (M : ℕ) (hM : M ≤ 1000) (hMc : 2 * M < T.cols) {C δ : ℝ} (hC : 2 ^ (-900 : ℤ) ≤ C) (hC' : C ≤ 2 ^ (400 : ℤ))
    (hT : ∀ i j, i < T.rows → j < T.cols → ‖FS.val (T.at' i j)‖ ≤ C) (hP : ∀ i j, i < T.rows → j < T.cols → ‖FS.val (P.at' i j)‖ ≤ C) (hδ : δ ≤ C / 400)
    (hfT : Fft2Within lib.fft δ T) (hfP : Fft2Within lib.fft δ P) :
    ∃ t p G1 G2, Fl.extFourier rnd lib T = .ok t ∧ Fl.extFourier rnd lib P = .ok p ∧ Fl.sinLdotFc rnd t p = .ok G1 ∧
      Fl.sinLdotFc rnd (p.map fun x => (⟨0, -1⟩ : FC rnd) * x) (t.map fun x => (⟨0, 1⟩ : FC rnd) * x) = .ok G2 ∧
      ∃ G1' G2' : Arr2 ℂ,
      (∀ G G' : Arr2 _, (G = G1 ∧ G' = G1') ∨ (G = G2 ∧ G' = G2') → G.rows = T.rows + 2 ∧ G.cols = T.cols ∧ G'.rows = T.rows + 2 ∧ G'.cols = T.cols ∧
        (∀ i (m : ℤ), i < T.rows + 2 → m.natAbs ≤ M → ‖FS.val (G.at' i (m % T.cols).toNat) - G'.at' i (m % T.cols).toNat‖ ≤ (M + (T.rows / 2 + 1 : ℕ) + 2) * (δ + 32 * uu * C)) ∧
        (∀ j, j < T.cols → FS.val (G.at' (T.rows / 2 + 1) j) = 0) ∧
        (∀ m : ℤ, m.natAbs ≤ M → ∑ ν ∈ Ioo (-(((T.rows + 2 : ℕ) : ℤ) / 2)) (((T.rows + 2 : ℕ) : ℤ) / 2), ‖fAt G' m ν‖ ^ 2 ≤ ((M + (T.rows / 2 + 1 : ℕ) + 2) * C) ^ 2)) ∧
      ∀ (m : ℤ) (n : ℕ), m.natAbs ≤ M → bval G1' m n = bF (T.rows / 2 + 1) (sldot m (fhat (T.map FS.val) m) (fhat (P.map FS.val) m)) m n ∧
        bval G2' m n = bF (T.rows / 2 + 1) (sldot m (fun ν => -Complex.I * fhat (P.map FS.val) m ν) (fun ν => Complex.I * fhat (T.map FS.val) m ν)) m n := by
  have C0 : 0 ≤ C := le_trans (by positivity) hC
  have u0 := uu_pos
  have u1 := FA.uu_le
  have uC : 0 ≤ uu * C := by positivity
  have uC' : uu * C ≤ C / 10 ^ 9 := by nlinarith
  have ht : tiny ≤ uu * C / 1000 := by
    have := FA.tiny_Q (C := C) (R := 1) hC (by norm_num)
    rwa [mul_one] at this
  have hC9 : C ≤ 2 ^ (900 : ℤ) := hC'.trans (zpow_le_zpow_right₀ (by norm_num) (by norm_num))
  have hC10 : 1 * C ≤ 2 ^ (1000 : ℤ) := by rw [one_mul]; exact hC'.trans (zpow_le_zpow_right₀ (by norm_num) (by norm_num))
  clear hC hC'
  obtain ⟨t, t', et, et', r1, c1, r1', c1', v1, z1⟩ := ext_err lib T hR hR0 hK0 C0 hT hfT
  obtain ⟨p, p', ep, ep', r2, c2, r2', c2', v2, z2⟩ := ext_err lib P (by omega) (by omega) (by omega) C0 (fun i j hi hj => hP i j (by omega) (by omega)) hfP
  rw [hr] at r2 r2' v2 z2
  rw [hc] at c2 c2' v2 z2
  have hd0 : 0 ≤ δ := (norm_nonneg _).trans (v1 0 0 (by omega) hK0).1
  have eL : T.rows + 2 = 2 * (T.rows / 2 + 1) := by omega
  rw [eL] at r1 r1' r2 r2' v1 v2
  -- first array
  obtain ⟨G1, G1', e1, e1', g1, k1, g1', k1', d1, n1⟩ := sinLdot_err hrd t p t' p' (T.rows / 2 + 1) T.cols M r1 r2 r1' r2' c1 c2 c1' c2' (by omega) (by omega) (by omega) hK C0 ht hC9 (by linarith)
    v1 v2 z1
  -- second array
  have mulI : ∀ (q : ℝ) (x : FC rnd) (x' : ℂ), |q| ≤ 1 → ‖x'‖ ≤ C → ‖FS.val x - x'‖ ≤ δ → ‖FS.val ((⟨0, q⟩ : FC rnd) * x) - Complex.I * q * x'‖ ≤ δ + 4 * uu * C := by
    intro q x x' hq h1 h2
    have := im_err hrd (Q := 1) hq (by linarith) ht C0 le_rfl hC10 h1 h2
    rwa [one_mul] at this
  obtain ⟨G2, G2', e2, e2', g2, k2, g2', k2', d2, n2⟩ := sinLdot_err hrd (p.map fun x => (⟨0, -1⟩ : FC rnd) * x) (t.map fun x => (⟨0, 1⟩ : FC rnd) * x)
    (p'.map fun x => -Complex.I * x) (t'.map fun x => Complex.I * x) (T.rows / 2 + 1) T.cols M r2 r1 r2' r1' c2 c1 c2' c1' (by omega) (by omega) (by omega) hK C0 ht hC9 (E := δ + 4 * uu * C) (by linarith)
    (fun i j hi hj => by
      rw [Arr2.at'_map _ p (by omega) (by omega), Arr2.at'_map _ p' (by omega) (by omega)]
      refine ⟨?_, by rw [norm_mul, norm_neg, Complex.norm_I, one_mul]; exact (v2 i j hi hj).2⟩
      have := mulI (-1) _ _ (by norm_num) (v2 i j hi hj).2 (v2 i j hi hj).1
      rwa [show Complex.I * ((-1 : ℝ) : ℂ) = -Complex.I by push_cast; ring] at this)
    (fun i j hi hj => by
      rw [Arr2.at'_map _ t (by omega) (by omega), Arr2.at'_map _ t' (by omega) (by omega)]
      refine ⟨?_, by rw [norm_mul, Complex.norm_I, one_mul]; exact (v1 i j hi hj).2⟩
      have := mulI 1 _ _ (by norm_num) (v1 i j hi hj).2 (v1 i j hi hj).1
      rwa [show Complex.I * ((1 : ℝ) : ℂ) = Complex.I by push_cast; ring] at this)
    (fun j hj => by
      rw [Arr2.at'_map _ p (by omega) (by omega), z2 j hj, im_mul_zero hrd])
  -- the exact arrays
  obtain ⟨E, eE, hEr, hEc, hEv⟩ := extFourier_spec (T.map FS.val) hR hR0 hK0
  obtain ⟨F, eF, hFr, hFc, hFv⟩ := extFourier_spec (P.map FS.val) (by rw [Arr2.rows_map]; omega) (by rw [Arr2.rows_map]; omega) (by rw [Arr2.cols_map]; omega)
  rw [et'] at eE
  cases eE
  rw [ep'] at eF
  cases eF
  simp only [Arr2.rows_map, Arr2.cols_map] at hEr hEc hEv hFr hFc hFv
  rw [hr] at hFr hFv
  rw [hc] at hFc
  have foT : ∀ m ν : ℤ, ((T.rows / 2 : ℕ) : ℤ) ≤ |ν| → fhat (T.map FS.val) m ν = 0 := fun m ν h => fhat_outer _ m ν (by rw [Arr2.rows_map]; exact h)
  have foP : ∀ m ν : ℤ, ((T.rows / 2 : ℕ) : ℤ) ≤ |ν| → fhat (P.map FS.val) m ν = 0 := fun m ν h => fhat_outer _ m ν (by rw [Arr2.rows_map, hr]; exact h)
  obtain ⟨H1, f1, -, -, s1, -⟩ := sinLdotFc_spec t' p' (T.rows / 2) (by omega) (by omega) (by omega) (by omega) (by omega) (by omega)
    (fhat (P.map FS.val)) hFv foP (fun m => by rw [hEv m _ (by rw [abs_of_nonneg (by omega)]), foT m _ (by rw [abs_of_nonneg (by omega)]; omega)])
  obtain ⟨H2, f2, -, -, s2, -⟩ := sinLdotFc_spec (p'.map fun x => -Complex.I * x) (t'.map fun x => Complex.I * x) (T.rows / 2)
    (by simp only [Arr2.rows_map]; omega) (by simp only [Arr2.rows_map]; omega) (by omega) (by simp only [Arr2.cols_map]; omega)
    (by simp only [Arr2.cols_map]; omega) (by simp only [Arr2.cols_map]; omega)
    (fun m ν => Complex.I * fhat (T.map FS.val) m ν) (fun m ν hν => by rw [fAt_map _ _ (by omega) (by omega), hEv m ν hν])
    (fun m ν hν => by rw [foT m ν hν, mul_zero])
    (fun m => by rw [fAt_map _ _ (by omega) (by omega), hFv m _ (by rw [abs_of_nonneg (by omega)]), foP m _ (by rw [abs_of_nonneg (by omega)]; omega), mul_zero])
  rw [e1'] at f1
  cases f1
  rw [e2'] at f2
  cases f2
  simp only [Arr2.cols_map] at s2
  have q1 : ∀ m ν : ℤ, m.natAbs ≤ M → |ν| ≤ ((T.rows / 2 : ℕ) : ℤ) → fAt G1' m ν = sldot m (fhat (T.map FS.val) m) (fhat (P.map FS.val) m) ν := by
    intro m ν hm hν
    rw [s1 m ν hν, hEv m ν (by omega), hEc, freqList_eq T.cols hK m (by omega) (by omega)]
    rfl
  have q2 : ∀ m ν : ℤ, m.natAbs ≤ M → |ν| ≤ ((T.rows / 2 : ℕ) : ℤ) →
      fAt G2' m ν = sldot m (fun ν => -Complex.I * fhat (P.map FS.val) m ν) (fun ν => Complex.I * fhat (T.map FS.val) m ν) ν := by
    intro m ν hm hν
    rw [s2 m ν hν, fAt_map _ _ (by omega) (by omega), hFv m ν (by omega), hFc, freqList_eq T.cols hK m (by omega) (by omega)]
    rfl
  have lT : ∀ m (s : Finset ℤ), ∑ ν ∈ s, ‖fhat (T.map FS.val) m ν‖ ^ 2 ≤ C ^ 2 := fun m s =>
    FA.fhat_l2 (T.map FS.val) hR0 hR hK0 (fun i j hi hj => by rw [Arr2.at'_map _ T hi hj]; exact hT i j hi hj) m s
  have lP : ∀ m (s : Finset ℤ), ∑ ν ∈ s, ‖fhat (P.map FS.val) m ν‖ ^ 2 ≤ C ^ 2 := fun m s =>
    FA.fhat_l2 (P.map FS.val) (by rw [Arr2.rows_map]; omega) (by rw [Arr2.rows_map]; omega) (by rw [Arr2.cols_map]; omega)
      (fun i j hi hj => by rw [Arr2.rows_map] at hi; rw [Arr2.cols_map] at hj; rw [Arr2.at'_map _ P hi hj]; exact hP i j (by omega) (by omega)) m s
  have hW : ∀ m : ℤ, m.natAbs ≤ M → ((m.natAbs + (T.rows / 2 + 1 : ℕ) : ℝ) * C) ^ 2 ≤ ((M + (T.rows / 2 + 1 : ℕ) + 2 : ℝ) * C) ^ 2 := by
    intro m hm
    have : (m.natAbs : ℝ) ≤ M := by exact_mod_cast hm
    refine pow_le_pow_left₀ (by positivity) (mul_le_mul_of_nonneg_right (by linarith) C0) 2
  have W0 : (0 : ℝ) ≤ M + (T.rows / 2 + 1 : ℕ) + 2 := by positivity
  refine ⟨t, p, G1, G2, et, ep, e1, e2, G1', G2', ?_, fun m n hm => ⟨?_, ?_⟩⟩
  · rintro G G' (⟨rfl, rfl⟩ | ⟨rfl, rfl⟩)
    · refine ⟨by omega, k1, by omega, k1', fun i m hi hm => ?_, n1, fun m hm => ?_⟩
      · refine (d1 i _ (by omega) (slot_lt' hK0 m) ?_).trans (mul_le_mul_of_nonneg_left (by linarith) W0)
        rw [freqList_eq T.cols hK m (by omega) (by omega), Int.abs_eq_natAbs]; omega
      · refine le_trans (le_of_eq (sum_congr rfl fun ν hν => ?_)) ((sldot_l2 (fhat (T.map FS.val) m) (fhat (P.map FS.val) m) m (T.rows / 2 + 1) (lT m) (lP m) _ fun ν hν => ?_).trans (hW m hm))
        · rw [mem_Ioo] at hν
          rw [q1 m ν hm (by rw [abs_le]; omega)]
        · rw [mem_Ioo] at hν
          rw [abs_le]; omega
    · refine ⟨by omega, k2, by omega, k2', fun i m hi hm => ?_, n2, fun m hm => ?_⟩
      · refine (d2 i _ (by omega) (slot_lt' hK0 m) ?_).trans (mul_le_mul_of_nonneg_left (by linarith) W0)
        rw [freqList_eq T.cols hK m (by omega) (by omega), Int.abs_eq_natAbs]; omega
      · refine le_trans (le_of_eq (sum_congr rfl fun ν hν => ?_)) ((sldot_l2 (fun ν => -Complex.I * fhat (P.map FS.val) m ν) (fun ν => Complex.I * fhat (T.map FS.val) m ν) m (T.rows / 2 + 1)
            (fun s => ?_) (fun s => ?_) _ fun ν hν => ?_).trans (hW m hm))
        · rw [mem_Ioo] at hν
          rw [q2 m ν hm (by rw [abs_le]; omega)]
        · simp only [norm_mul, norm_neg, Complex.norm_I, one_mul]; exact lP m s
        · simp only [norm_mul, Complex.norm_I, one_mul]; exact lT m s
        · rw [mem_Ioo] at hν
          rw [abs_le]; omega
  · refine bval_eq_bF G1' m n (T.rows / 2 + 1) (by omega) _ fun ν hν => ?_
    rw [mem_Ioo] at hν
    exact q1 m ν hm (by rw [abs_le]; omega)
  · refine bval_eq_bF G2' m n (T.rows / 2 + 1) (by omega) _ fun ν hν => ?_
    rw [mem_Ioo] at hν
    exact q2 m ν hm (by rw [abs_le]; omega)

end FV

/-- C97: `vspht` in double precision.  `lib` is the numerical library, as in C94.  Then `vspht(p, N, M)` of the transverse pattern with doubled
components `T`, `P` succeeds with either backend, and both coefficients of every mode are within the stated bound of the coefficients `vspht`
returns in exact arithmetic on the same samples. -/
theorem c97_vspht (hrd : NoOverflow rnd) (lib : Fl.NumLib rnd) (hsum : SumOK lib.sum) (b : Backend)
    (T P : Arr2 (FC rnd)) (hr : P.rows = T.rows) (hc : P.cols = T.cols) (hR : T.rows % 2 = 0) (hR0 : 0 < T.rows) (hsz : T.rows ≤ 2 ^ 29) (hK : T.cols % 2 = 0)
    (N M : ℕ) (hj : PowOK b M lib.jp) (hN : N ≤ 1000) (hMN : M ≤ N) (hNr : N < T.rows / 2) (hMc : 2 * M < T.cols) (C : ℝ) (hC : 2 ^ (-900 : ℤ) ≤ C) (hC' : C ≤ 2 ^ (400 : ℤ))
    (hT : ∀ i j, i < T.rows → j < T.cols → ‖FS.val (T.at' i j)‖ ≤ C) (hP : ∀ i j, i < T.rows → j < T.cols → ‖FS.val (P.at' i j)‖ ≤ C)
    (δ₁ δ₂ : ℝ) (hδ₁ : Real.sqrt ((T.rows : ℝ) + 1) * δ₁ ≤ C / 400) (hδ₂ : δ₂ ≤ ((T.rows : ℝ) / 2 + M + 3) * C)
    (hfT : Fft2Within lib.fft δ₁ T) (hfP : Fft2Within lib.fft δ₁ P) (hconv : ∀ g, VsphtArray lib T P g → ∀ m : ℤ, |m| ≤ M → ConvWithin lib.conv δ₂ g N m) :
    ∃ c ch, vspht .py ⟨T.map FS.val, P.map FS.val⟩ (some N) (some M) = .ok c ∧ Fl.vspht rnd lib b ⟨T, P⟩ (some N) (some M) = .ok ch ∧
      ch.WellFormed ∧ ch.nmax = N ∧ ch.mmax = M ∧ ∀ n m : ℤ, IsMode N M n m → n ≠ 0 → ∃ w z, readMapV c n m = some w ∧ readMapV ch n m = some z ∧
        ‖FS.val z.1 - w.1‖ ≤ vsphtErr T.rows M C δ₁ δ₂ n ∧ ‖FS.val z.2 - w.2‖ ≤ vsphtErr T.rows M C δ₁ δ₂ n := by
  have hM : M ≤ 1000 := hMN.trans hN
  have hK0 : 0 < T.cols := by omega
  have C0 : 0 < C := lt_of_lt_of_le (by positivity) hC
  have u0 := uu_pos
  have q1 : 1 ≤ Real.sqrt ((T.rows : ℝ) + 1) := by
    rw [Real.one_le_sqrt]
    have : (0 : ℝ) ≤ T.rows := by positivity
    linarith
  have q2 : Real.sqrt ((T.rows : ℝ) + 1) ≤ 2 ^ 15 := by
    rw [Real.sqrt_le_left (by norm_num)]
    have : (T.rows : ℝ) ≤ 2 ^ 29 := by exact_mod_cast hsz
    linarith
  obtain ⟨q, hq⟩ : ∃ q, q = Real.sqrt ((T.rows : ℝ) + 1) := ⟨_, rfl⟩
  rw [← hq] at q1 q2 hδ₁
  have δ0 : 0 ≤ δ₁ := by
    obtain ⟨f, f', -, e, r1, c1, hv⟩ := hfT
    obtain ⟨f'', e', r2, c2, -⟩ := FA.fft2_norm (T.map FS.val) hR0 hK0 (C := C) (fun i j hi hj => by rw [Arr2.at'_map _ T hi hj]; exact hT i j hi hj)
    rw [e] at e'
    cases e'
    have r3 : f'.rows = T.rows := r2
    have c3 : f'.cols = T.cols := c2
    exact (norm_nonneg _).trans (hv 0 0 (by omega) (by omega))
  have δq : δ₁ ≤ q * δ₁ := le_mul_of_one_le_left δ0 q1
  obtain ⟨t, p, G1, G2, et, ep, eG1, eG2, G1', G2', hG, hb⟩ := FV.vpre hrd lib T P hr hc hR hR0 hsz hK hK0 M hM hMc hC hC' hT hP (by linarith) hfT hfP
  obtain ⟨W, hW⟩ : ∃ W : ℝ, W = (T.rows : ℝ) / 2 + M + 3 := ⟨_, rfl⟩
  have hrow : (((T.rows / 2 + 1 : ℕ)) : ℝ) = (T.rows : ℝ) / 2 + 1 := by
    obtain ⟨k, hk⟩ : ∃ k, T.rows = 2 * k := ⟨T.rows / 2, by omega⟩
    rw [hk, show 2 * k / 2 = k by omega]; push_cast; ring
  have hW' : (M : ℝ) + ((T.rows / 2 + 1 : ℕ) : ℝ) + 2 = W := by rw [hrow, hW]; ring
  rw [hW'] at hG
  have W1 : 1 ≤ W := by
    rw [hW]
    have : (0 : ℝ) ≤ T.rows := by positivity
    have : (0 : ℝ) ≤ M := by positivity
    linarith
  have W2 : W ≤ 2 ^ 29 := by
    rw [hW]
    have h1 : (T.rows : ℝ) ≤ 2 ^ 29 := by exact_mod_cast hsz
    have h2 : (M : ℝ) ≤ 1000 := by exact_mod_cast hM
    linarith
  rw [← hW] at hδ₂
  have S1 : 2 ^ (-900 : ℤ) ≤ W * C := hC.trans (le_mul_of_one_le_left C0.le W1)
  have S2 : W * C ≤ 2 ^ (480 : ℤ) := by
    calc W * C ≤ 2 ^ (29 : ℤ) * 2 ^ (400 : ℤ) := mul_le_mul (by exact_mod_cast W2) hC' C0.le (by positivity)
      _ = 2 ^ (429 : ℤ) := by rw [← zpow_add₀ (by norm_num)]; norm_num
      _ ≤ _ := zpow_le_zpow_right₀ (by norm_num) (by norm_num)
  have hτ : δ₂ + 20 * (Real.sqrt ((T.rows : ℝ) + 1) * (W * (δ₁ + 32 * uu * C))) ≤ 12 * (W * C) := by
    rw [← hq]
    have h1 := FA.uu_le
    have h2 : q * (32 * uu * C) ≤ C / 400 := by
      have hu : uu ≤ 1 / 10 ^ 12 := by unfold uu; norm_num
      calc q * (32 * uu * C) ≤ 2 ^ 15 * (32 * (1 / 10 ^ 12) * C) := by gcongr
        _ ≤ C / 400 := by clear hC hC' S1 S2; linarith
    have h3 : q * (δ₁ + 32 * uu * C) ≤ C / 200 := by rw [mul_add]; linarith
    have h4 : q * (W * (δ₁ + 32 * uu * C)) = W * (q * (δ₁ + 32 * uu * C)) := by ring
    rw [h4]
    have h5 : W * (q * (δ₁ + 32 * uu * C)) ≤ W * (C / 200) := mul_le_mul_of_nonneg_left h3 (by linarith)
    have h6 : W * (C / 200) = W * C / 200 := by ring
    have h7 : 0 ≤ W * C := by positivity
    linarith
  have run : ∀ (G : Arr2 (FC rnd)) (G' : Arr2 ℂ) (call : ℕ), (G = G1 ∧ G' = G1') ∨ (G = G2 ∧ G' = G2') → ∃ v, Fl.backendFcToSc rnd lib b call G N M = .ok v ∧
      FA.SegAll (N + 1) v (2 * M + 1) (fun m n z => ‖FS.val z - bval G' m n‖ ≤ FS.coefErr n (64 * (W * C)) +
        (2 * (n : ℝ) + 1) * FS.rowMax n * (δ₂ + 20 * (Real.sqrt ((T.rows : ℝ) + 1) * (W * (δ₁ + 32 * uu * C)))) ∧
        ‖bval G' m n‖ ≤ (2 * (n : ℝ) + 1) * FS.rowMax n * (20 * (W * C))) := by
    intro G G' call h
    obtain ⟨g1, g2, g3, g4, g5, g6, g7⟩ := hG G G' h
    refine FV.analyse hrd lib hsum b call G G' T.rows T.cols N M hR hj hN hMN hMc g1 g2 g3 g4 S1 S2 hτ g5 g6 g7 (hconv G ⟨t, p, et, ep, ?_⟩)
    rcases h with ⟨rfl, -⟩ | ⟨rfl, -⟩
    · exact Or.inl eG1
    · exact Or.inr eG2
  obtain ⟨v1, ev1, l1, a1⟩ := run G1 G1' 0 (Or.inl ⟨rfl, rfl⟩)
  obtain ⟨v2, ev2, l2, a2⟩ := run G2 G2' 1 (Or.inr ⟨rfl, rfl⟩)
  obtain ⟨s1, s2, ei, w1, w2, n1, m1, n2, m2, hv⟩ := FV.vinitF hMN l1 l2
  obtain ⟨w, ew, wl, wv⟩ := FV.nvecF_spec (rnd := rnd) N
  have win : ∀ s : ScalarCoefs (FC rnd), s.WF → s.nmax = N → s.mmax = M → ∃ d, s.windowed w = .ok d ∧ d.WF ∧ d.nmax = N ∧ d.mmax = M ∧
      ∀ (n : ℕ) (m : ℤ) z, IsMode N M n m → s.absMap n m = some z → d.absMap n m = some (z * (⟨FV.wF rnd n, 0⟩ : FC rnd)) := by
    intro s hs e1 e2
    obtain ⟨e, dw, d1, d2, dv⟩ := ScalarCoefs.window_eq hs (w := w) (by omega)
    refine ⟨(s.window w).st, ?_, dw, by omega, by omega, fun n m z hm hz => ?_⟩
    · unfold ScalarCoefs.windowed
      simp only [e]
    · rw [dv n m (by rw [e1, e2]; exact hm), hz, Int.toNat_natCast, wv n (by have := (isMode_iff.mp hm); omega)]
      rfl
  obtain ⟨d1, ed1, dw1, dn1, dm1, dv1⟩ := win s1 w1 n1 m1
  obtain ⟨d2, ed2, dw2, dn2, dm2, dv2⟩ := win s2 w2 n2 m2
  obtain ⟨c, ec, cn, cm, cw, cv⟩ := vspht_value .py (T.map FS.val) (P.map FS.val) hr hc hR hR0 hsz N M (by omega)
    (by simp only [Arr2.rows_map, Arr2.cols_map]; omega)
  have hwf : VectorCoefs.WellFormed (⟨d1, d2, N, M⟩ : VectorCoefs (FC rnd)) :=
    ⟨ScalarCoefs.wf_iff.mp dw1, ScalarCoefs.wf_iff.mp dw2, dn1, dn2, dm1, dm2⟩
  refine ⟨c, ⟨d1, d2, N, M⟩, ec, ?_, hwf, rfl, rfl, fun n m hnm hn0 => ?_⟩
  · unfold Fl.vspht
    simp only [TPatt.nrows, TPatt.ncols]
    have e4 : sphtArgs (.ok (T.rows / 2 + 1)) (.ok T.cols) (some (N : ℤ)) (some (M : ℤ)) = .ok ((N : ℤ), (M : ℤ)) := rfl
    rw [e4]
    simp only [Except.bind_ok]
    rw [sphtGuards_ok _ _ _ _ (by omega) (by omega) (by omega) hK]
    simp only [Except.bind_ok]
    rw [et, if_pos ⟨hr.symm, hc.symm⟩, ep]
    simp only [Except.bind_ok]
    rw [eG1, eG2]
    simp only [Except.bind_ok]
    rw [ev1, ev2]
    simp only [Except.bind_ok]
    rw [ei]
    simp only [Except.bind_ok]
    rw [ew]
    simp only [Except.bind_ok]
    rw [ed1, ed2]
    rfl
  · have hnm' := isMode_iff.mp hnm
    obtain ⟨n, rfl⟩ := Int.eq_ofNat_of_zero_le (show 0 ≤ n by omega)
    have hm : m.natAbs ≤ M := by omega
    obtain ⟨x1, x2⟩ := hv n m hnm hn0
    rw [Int.toNat_natCast] at x1 x2
    have y1 := dv1 n m _ hnm x1
    have y2 := dv2 n m _ hnm x2
    have hz : readMapV (⟨d1, d2, N, M⟩ : VectorCoefs (FC rnd)) n m = some (rd v1 (seg (N + 1) (ord m) + (n - m.natAbs)) * (⟨FV.wF rnd n, 0⟩ : FC rnd),
        rd v2 (seg (N + 1) (ord m) + (n - m.natAbs)) * (⟨FV.wF rnd n, 0⟩ : FC rnd)) := by
      rw [readMapV_eq hwf, if_neg hn0]
      simp only [y1, y2]
      rfl
    refine ⟨_, _, cv n m hnm hn0, hz, ?_⟩
    · obtain ⟨b1, b2⟩ := hb m n hm
      simp only [Int.toNat_natCast, Arr2.rows_map]
      rw [← b1, ← b2]
      have o1 : ord m < 2 * M + 1 := by have := ord_le m; omega
      obtain ⟨p1, p2⟩ := a1 m n o1 (by omega) (by omega)
      obtain ⟨p3, p4⟩ := a2 m n o1 (by omega) (by omega)
      have f1 := FV.vfinal hrd (by omega) (by omega) S1 S2 hτ p1 p2
      have f2 := FV.vfinal hrd (by omega) (by omega) S1 S2 hτ p3 p4
      have hle : 1 / Real.sqrt ((n : ℝ) * ((n : ℝ) + 1)) * (FS.rowMax n * (((n : ℝ) + 1) * ((n : ℝ) + 4) ^ 3 * 2 ^ (-42 : ℤ) * (W * C) +
          (2 * n + 1) * (δ₂ + 20 * (Real.sqrt ((T.rows : ℝ) + 1) * (W * (δ₁ + 32 * uu * C)))))) = vsphtErr T.rows M C δ₁ δ₂ n := by
        unfold vsphtErr FS.rowMax
        rw [← hW, ← hq]
        rw [show (2 : ℝ) ^ (-48 : ℤ) = 32 * uu by unfold uu; norm_num]
        push_cast
        ring
      rw [hle] at f1 f2
      exact ⟨f1, f2⟩

/-! ### The hypotheses can be met -/

namespace FV

/-- The correctly rounded convolution. -/
theorem goodConv (hrd : NoOverflow rnd) (G : Arr2 (FC rnd)) (N : ℕ) (m : ℤ) (hr : G.rows % 2 = 0) (hr0 : 0 < G.rows) (hm1 : -(G.cols : ℤ) ≤ m) (hm2 : m < G.cols)
    (hny : fAt (G.map FS.val) m ((G.map FS.val).rows / 2) = 0) {B : ℝ} (hB : 2 ^ (-900 : ℤ) ≤ B) (hB' : B ≤ 2 ^ (500 : ℤ)) (hb : ∀ k : ℕ, k ≤ N → ‖hval (G.map FS.val) m k‖ ≤ B) :
    ConvWithin (FA.goodLib rnd).conv (4 * uu * B) G N m := by
  have B0 : 0 ≤ B := le_trans (by positivity) hB
  have tq := FA.tiny_Q (C := B) (R := 1) hB (by norm_num)
  rw [mul_one] at tq
  obtain ⟨h, eh, lh, vh⟩ := FA.conv_exact (G.map FS.val) N m (by rw [Arr2.rows_map]; omega) (by rw [Arr2.rows_map]; omega) (by rw [Arr2.cols_map]; omega) (by rw [Arr2.cols_map]; omega) hny
  refine ⟨h.map fun z => ⟨rnd z.re, rnd z.im⟩, h, ?_, eh, by simp, fun i hi => ?_⟩
  · show (convExact (G.map FS.val) N m).bind _ = _
    rw [eh]; rfl
  rw [List.length_map] at hi
  have e : rd (h.map fun z => (⟨rnd z.re, rnd z.im⟩ : FC rnd)) i = ⟨rnd (rd h i).re, rnd (rd h i).im⟩ := by
    unfold rd
    simp [hi]
  rw [e]
  refine ⟨⟨hrd.idem _, hrd.idem _⟩, ?_⟩
  have b : ‖rd h i‖ ≤ B := by rw [vh i (by omega)]; exact hb i (by omega)
  have b20 : B ≤ 2 ^ (1020 : ℤ) := hB'.trans (zpow_le_zpow_right₀ (by norm_num) (by norm_num))
  clear hB hB'
  have uB : 0 ≤ uu * B := mul_nonneg uu_pos.le B0
  have := cr_err hrd.toIsRounding (a := (⟨rnd (rd h i).re, rnd (rd h i).im⟩ : FC rnd)) (z := rd h i) B0 (by linarith) b20 rfl rfl b
  linarith

theorem goodLib_vconv (hrd : NoOverflow rnd) (T P : Arr2 (FC rnd)) (hr : P.rows = T.rows) (hc : P.cols = T.cols) (hR : T.rows % 2 = 0) (hR0 : 0 < T.rows) (hsz : T.rows ≤ 2 ^ 20) (hK : T.cols % 2 = 0)
    (N M : ℕ) (hM : M ≤ 1000) (hMc : 2 * M < T.cols) (C : ℝ) (hC : 2 ^ (-900 : ℤ) ≤ C) (hC' : C ≤ 2 ^ (400 : ℤ))
    (hT : ∀ i j, i < T.rows → j < T.cols → ‖FS.val (T.at' i j)‖ ≤ C) (hP : ∀ i j, i < T.rows → j < T.cols → ‖FS.val (P.at' i j)‖ ≤ C) :
    ∀ g, VsphtArray (FA.goodLib rnd) T P g → ∀ m : ℤ, |m| ≤ M → ConvWithin (FA.goodLib rnd).conv (4 * uu * (22 * (((T.rows : ℝ) / 2 + M + 3) * C))) g N m := by
  rintro g ⟨t, p, et, ep, hg⟩ m hm
  have hm' : m.natAbs ≤ M := by rw [Int.abs_eq_natAbs] at hm; omega
  have hK0 : 0 < T.cols := by omega
  have C0 : 0 < C := lt_of_lt_of_le (by positivity) hC
  have u0 := uu_pos
  obtain ⟨t', p', G1, G2, et', ep', eG1, eG2, G1', G2', hG, -⟩ := FV.vpre hrd (FA.goodLib rnd) T P hr hc hR hR0 (by omega) hK hK0 M hM hMc (δ := 0) hC hC' hT hP (by positivity)
    (FA.goodLib_fft T hR0 hK0) (FA.goodLib_fft P (by omega) (by omega))
  rw [et] at et'
  cases et'
  rw [ep] at ep'
  cases ep'
  obtain ⟨G', h⟩ : ∃ G', (g = G1 ∧ G' = G1') ∨ (g = G2 ∧ G' = G2') := by
    rcases hg with hg | hg
    · rw [hg] at eG1; cases eG1; exact ⟨G1', Or.inl ⟨rfl, rfl⟩⟩
    · rw [hg] at eG2; cases eG2; exact ⟨G2', Or.inr ⟨rfl, rfl⟩⟩
  obtain ⟨g1, g2, g3, g4, g5, g6, g7⟩ := hG g G' h
  have hrow : (((T.rows / 2 + 1 : ℕ)) : ℝ) = (T.rows : ℝ) / 2 + 1 := by
    obtain ⟨k, hk⟩ : ∃ k, T.rows = 2 * k := ⟨T.rows / 2, by omega⟩
    rw [hk, show 2 * k / 2 = k by omega]; push_cast; ring
  obtain ⟨W, hW⟩ : ∃ W : ℝ, W = (T.rows : ℝ) / 2 + M + 3 := ⟨_, rfl⟩
  have hW' : (M : ℝ) + ((T.rows / 2 + 1 : ℕ) : ℝ) + 2 = W := by rw [hrow, hW]; ring
  rw [hW'] at g5 g7
  rw [← hW]
  have W1 : 1 ≤ W := by
    rw [hW]
    have : (0 : ℝ) ≤ T.rows := by positivity
    have : (0 : ℝ) ≤ M := by positivity
    linarith
  have W2 : 22 * W ≤ 2 ^ 29 := by
    rw [hW]
    have h1 : (T.rows : ℝ) ≤ 2 ^ 20 := by exact_mod_cast hsz
    have h2 : (M : ℝ) ≤ 1000 := by exact_mod_cast hM
    linarith
  have S1 : 2 ^ (-900 : ℤ) ≤ 22 * (W * C) := hC.trans (by clear hC hC'; nlinarith)
  have S2 : 22 * (W * C) ≤ 2 ^ (500 : ℤ) := by
    calc 22 * (W * C) = 22 * W * C := by ring
      _ ≤ 2 ^ (29 : ℤ) * 2 ^ (400 : ℤ) := mul_le_mul (by exact_mod_cast W2) hC' C0.le (by positivity)
      _ = 2 ^ (429 : ℤ) := by rw [← zpow_add₀ (by norm_num)]; norm_num
      _ ≤ _ := zpow_le_zpow_right₀ (by norm_num) (by norm_num)
  have q2 : Real.sqrt ((T.rows : ℝ) + 1) ≤ 2 ^ 15 := by
    rw [Real.sqrt_le_left (by norm_num)]
    have : (T.rows : ℝ) ≤ 2 ^ 20 := by exact_mod_cast hsz
    linarith
  have hmapv : ∀ i j, i < T.rows + 2 → j < T.cols → (g.map FS.val).at' i j = FS.val (g.at' i j) := fun i j hi hj => Arr2.at'_map _ _ (by omega) (by omega)
  have mr : (g.map FS.val).rows = T.rows + 2 := g1
  have mc : (g.map FS.val).cols = T.cols := g2
  refine goodConv hrd g N m (by omega) (by omega) (by omega) (by omega) ?_ S1 S2 fun k hk => ?_
  · unfold fAt
    rw [mr, mc, hmapv _ _ (slot_lt' (by omega) _) (slot_lt' hK0 _)]
    convert g6 _ (slot_lt' hK0 m)
    rw [Int.emod_eq_of_lt (by omega) (by omega)]
    omega
  · have b1 : ‖hval G' m k‖ ≤ 20 * (W * C) := by
      unfold hval
      rw [g3]
      exact FA.kern_l2 _ (fun ν => fAt G' m ν) k (by positivity) (g7 m hm')
    have b2 := hval_diff_col (A := g.map FS.val) (A' := G') hR mr mc g3 g4 m k fun i hi => by rw [hmapv i _ hi (slot_lt' hK0 _)]; exact g5 i m hi hm'
    have b3 : Real.sqrt ((T.rows : ℝ) + 1) * (W * (0 + 32 * uu * C)) ≤ W * C / 10 := by
      have hu : uu ≤ 1 / 10 ^ 12 := by unfold uu; norm_num
      calc Real.sqrt ((T.rows : ℝ) + 1) * (W * (0 + 32 * uu * C)) ≤ 2 ^ 15 * (W * (0 + 32 * (1 / 10 ^ 12) * C)) := by gcongr
        _ = 2 ^ 15 * 32 * (1 / 10 ^ 12) * (W * C) := by ring
        _ ≤ 1 / 10 * (W * C) := mul_le_mul_of_nonneg_right (by norm_num) (by positivity)
        _ = W * C / 10 := by ring
    have b4 := norm_add_le (hval (g.map FS.val) m k - hval G' m k) (hval G' m k)
    rw [sub_add_cancel] at b4
    clear hC hC' S1 S2
    linarith

end FV

/-- Not vacuous: two 8 by 8 arrays of different samples, analysed with `nmax = 3`, `mmax = 2` by the C library; both coefficients of every mode are correct to `2^-23`. -/
example : ∃ (rnd : ℝ → ℝ) (lib : Fl.NumLib rnd) (T P : Arr2 (FC rnd)) (c : VectorCoefs ℂ) (ch : VectorCoefs (FC rnd)), NoOverflow rnd ∧ T.rows = 8 ∧ T.cols = 8 ∧ T.at' 3 5 = ⟨3, 5⟩ ∧ P.at' 3 5 = ⟨5, 3⟩ ∧
    vspht .py ⟨T.map FS.val, P.map FS.val⟩ (some 3) (some 2) = .ok c ∧ Fl.vspht rnd lib (.c fun _ => ⟨fun _ => 0, fun _ => 0, fun _ => 0⟩) ⟨T, P⟩ (some 3) (some 2) = .ok ch ∧ ch.WellFormed ∧
    ∀ n m : ℤ, IsMode 3 2 n m → n ≠ 0 → ∃ w z, readMapV c n m = some w ∧ readMapV ch n m = some z ∧ ‖FS.val z.1 - w.1‖ ≤ 2 ^ (-23 : ℤ) ∧ ‖FS.val z.2 - w.2‖ ≤ 2 ^ (-23 : ℤ) := by
  obtain ⟨rnd, h⟩ := noOverflow_exists
  have hC : (2 : ℝ) ^ (-900 : ℤ) ≤ 16 := (zpow_le_one_of_nonpos₀ (by norm_num) (by norm_num)).trans (by norm_num)
  have hC' : (16 : ℝ) ≤ 2 ^ (400 : ℤ) := by
    rw [show (16 : ℝ) = 2 ^ (4 : ℤ) by norm_num]; exact zpow_le_zpow_right₀ (by norm_num) (by norm_num)
  obtain ⟨T, eT⟩ : ∃ D : Arr2 (FC rnd), D = Arr2.ofFn 8 8 fun i j => ⟨i, j⟩ := ⟨_, rfl⟩
  obtain ⟨P, eP⟩ : ∃ D : Arr2 (FC rnd), D = Arr2.ofFn 8 8 fun i j => ⟨j, i⟩ := ⟨_, rfl⟩
  have hr : T.rows = 8 := by subst eT; rfl
  have hc : T.cols = 8 := by subst eT; rfl
  have hr' : P.rows = 8 := by subst eP; rfl
  have hc' : P.cols = 8 := by subst eP; rfl
  have bd : ∀ (x y : ℕ), x < 8 → y < 8 → ‖FS.val (⟨x, y⟩ : FC rnd)‖ ≤ 16 := by
    intro i j hi hj
    refine (Complex.norm_le_abs_re_add_abs_im _).trans ?_
    show |(i : ℝ)| + |(j : ℝ)| ≤ 16
    rw [abs_of_nonneg (by positivity), abs_of_nonneg (by positivity)]
    have a : (i : ℝ) ≤ 8 := by exact_mod_cast hi.le
    have b : (j : ℝ) ≤ 8 := by exact_mod_cast hj.le
    linarith
  have hT : ∀ i j, i < T.rows → j < T.cols → ‖FS.val (T.at' i j)‖ ≤ 16 := by
    intro i j hi hj
    rw [hr] at hi
    rw [hc] at hj
    rw [eT, Arr2.at'_ofFn hi hj]
    exact bd i j hi hj
  have hP : ∀ i j, i < T.rows → j < T.cols → ‖FS.val (P.at' i j)‖ ≤ 16 := by
    intro i j hi hj
    rw [hr] at hi
    rw [hc] at hj
    rw [eP, Arr2.at'_ofFn hi hj]
    exact bd j i hj hi
  have hconv := FV.goodLib_vconv h T P (by omega) (by omega) (by omega) (by omega) (by omega) (by omega) 3 2 (by norm_num) (by omega) 16 hC hC' hT hP
  have u0 := uu_pos
  have hu : uu ≤ 1 / 10 ^ 15 := by unfold uu; norm_num
  rw [hr] at hconv
  obtain ⟨c, ch, e1, e2, e3, -, -, e4⟩ := c97_vspht h (FA.goodLib rnd) FA.goodLib_sum (.c fun _ => ⟨fun _ => 0, fun _ => 0, fun _ => 0⟩) T P (by omega) (by omega) (by omega) (by omega)
    (by omega) (by omega) 3 2 (PowOK.c _ _ _) (by norm_num) (by norm_num) (by omega) (by omega) 16 hC hC' hT hP 0 _ (by norm_num) (by rw [hr]; push_cast; linarith)
    (FA.goodLib_fft T (by omega) (by omega)) (FA.goodLib_fft P (by omega) (by omega)) hconv
  refine ⟨rnd, FA.goodLib rnd, T, P, c, ch, h, hr, hc, by subst eT; rfl, by subst eP; rfl, e1, e2, e3, fun n m hm hn => ?_⟩
  obtain ⟨w, z, f1, f2, f3, f4⟩ := e4 n m hm hn
  have key : vsphtErr T.rows 2 16 0 (4 * uu * (22 * ((((8 : ℕ) : ℝ) / 2 + (2 : ℕ) + 3) * 16))) n ≤ 2 ^ (-23 : ℤ) := by
    obtain ⟨h0, h1, -, -⟩ := hm
    have n0 : (1 : ℝ) ≤ n := by exact_mod_cast (show 1 ≤ n by omega)
    have n1 : (n : ℝ) ≤ 3 := by exact_mod_cast h1
    have hs : Real.sqrt ((2 * n + 1) / (4 * Real.pi)) ≤ 1 := by
      apply Real.sqrt_le_iff.mpr
      refine ⟨by norm_num, ?_⟩
      rw [one_pow, div_le_one (by positivity)]
      linarith [Real.pi_gt_three]
    have hw : 1 / Real.sqrt ((n : ℝ) * ((n : ℝ) + 1)) ≤ 1 := by
      rw [div_le_one (by positivity), Real.one_le_sqrt]
      nlinarith
    unfold vsphtErr
    rw [hr]
    have hp : ((n : ℝ) + 4) ^ 3 ≤ 7 ^ 3 := pow_le_pow_left₀ (by linarith) (by linarith) 3
    have hx : ((n : ℝ) + 1) * ((n : ℝ) + 4) ^ 3 ≤ 4 * 7 ^ 3 := mul_le_mul (by linarith) hp (by positivity) (by norm_num)
    refine (mul_le_mul hw (mul_le_mul hs le_rfl (by positivity) (by norm_num)) (by positivity) (by norm_num)).trans ?_
    have h9 : Real.sqrt (((8 : ℕ) : ℝ) + 1) = 3 := by
      rw [show (((8 : ℕ) : ℝ) + 1) = 3 ^ 2 by norm_num, Real.sqrt_sq (by norm_num)]
    rw [h9]
    generalize ((n : ℝ) + 1) * ((n : ℝ) + 4) ^ 3 = X at hx ⊢
    have hu' : uu = 2 ^ (-53 : ℤ) := rfl
    rw [hu']
    norm_num at hx ⊢
    linarith
  exact ⟨w, z, f1, f2, f3.trans key, f4.trans key⟩

end Verif.Props
