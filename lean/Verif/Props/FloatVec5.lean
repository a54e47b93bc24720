import Verif.Props.FloatVec4
import Verif.Props.FloatAnal5
/-!
# `vspht` in doubles: the Fourier arrays of the two components
-/
namespace Verif.Props
open Verif Finset

variable {rnd : ℝ → ℝ}

namespace FV

/-- `fix_even_row_data_fc` and `pad_rows_fdata`. -/
theorem shuffle' {α : Type} [Zero α] (f : Arr2 α) (R C : ℕ) (hr : f.rows = R) (hc : f.cols = C) (hR : R % 2 = 0) (hR0 : 2 ≤ R) :
    ((fixEvenRow f).bind fun f => padRows f (R + 2)) = .ok (FA.Zof R C f) := by
  subst hr hc
  unfold fixEvenRow
  rw [if_pos hR, if_neg (by omega)]
  simp only [Except.bind_ok]
  unfold padRows
  have e1 : (f.setRow (f.rows / 2) fun _ => 0).rows = f.rows := rfl
  have e2 : (f.setRow (f.rows / 2) fun _ => 0).cols = f.cols := rfl
  rw [e1, if_neg (by omega), if_neg (by omega), e2]
  congr 1
  unfold FA.Zof
  refine FA.arr_ext_ofFn fun i j hi hj => ?_
  unfold FA.sel
  by_cases a3 : i < f.rows / 2
  · rw [if_pos a3, if_neg (show ¬ (i = f.rows / 2 ∨ i = f.rows / 2 + 2) by omega), if_pos a3]
    unfold Arr2.setRow
    rw [Arr2.at'_ofFn (by omega) hj, if_neg (by omega)]
  rw [if_neg a3, if_neg a3]
  by_cases a4 : f.rows + 2 - (f.rows / 2 - 1) ≤ i
  · rw [if_pos ⟨a4, by omega⟩, if_neg (show ¬ (i = f.rows / 2 ∨ i = f.rows / 2 + 2) by omega), if_pos a4]
    unfold Arr2.setRow
    rw [Arr2.at'_ofFn (by omega) hj, if_neg (by omega)]
    simp only
    congr 1; omega
  · rw [if_neg (show ¬ (f.rows + 2 - (f.rows / 2 - 1) ≤ i ∧ f.rows / 2 ≠ 0) by omega), if_neg a4]
    by_cases a5 : i = f.rows / 2 ∨ i = f.rows / 2 + 2
    · rw [if_pos a5]
    · rw [if_neg a5]

/-- The extended Fourier array of one component in doubles against the exact one. -/
theorem ext_err (lib : Fl.NumLib rnd) (D : Arr2 (FC rnd)) (hR : D.rows % 2 = 0) (hR0 : 0 < D.rows) (hK : 0 < D.cols) {C δ : ℝ} (hC0 : 0 ≤ C)
    (hD : ∀ i j, i < D.rows → j < D.cols → ‖FS.val (D.at' i j)‖ ≤ C) (hf : Fft2Within lib.fft δ D) :
    ∃ E E', Fl.extFourier rnd lib D = .ok E ∧ extFourier (D.map FS.val) = .ok E' ∧ E.rows = D.rows + 2 ∧ E.cols = D.cols ∧
      E'.rows = D.rows + 2 ∧ E'.cols = D.cols ∧
      (∀ i j, i < D.rows + 2 → j < D.cols → ‖FS.val (E.at' i j) - E'.at' i j‖ ≤ δ ∧ ‖E'.at' i j‖ ≤ C) ∧
      ∀ j, j < D.cols → E.at' (D.rows / 2 + 1) j = 0 := by
  obtain ⟨f, f', e1, e2, hr, hc, hv⟩ := hf
  have hmap : ∀ i j, i < D.rows → j < D.cols → (D.map FS.val).at' i j = FS.val (D.at' i j) := fun i j hi hj => Arr2.at'_map _ _ hi hj
  obtain ⟨f'', e3, r3, c3, b3⟩ := FA.fft2_norm (D.map FS.val) hR0 hK (C := C) (fun i j hi hj => by rw [hmap i j hi hj]; exact hD i j hi hj)
  rw [e2] at e3
  cases e3
  change f'.rows = D.rows at r3
  change f'.cols = D.cols at c3
  change ∀ i j, i < D.rows → j < D.cols → ‖f'.at' i j / ((D.rows * D.cols : ℕ) : ℂ)‖ ≤ C at b3
  set F : Arr2 ℂ := f'.map fun x => x / (((D.rows * D.cols : ℕ) : ℝ) : ℂ) with hF
  have hFv : ∀ i j, i < D.rows → j < D.cols → F.at' i j = f'.at' i j / ((D.rows * D.cols : ℕ) : ℂ) := by
    intro i j hi hj
    rw [hF, Arr2.at'_map _ _ (by omega) (by omega), Complex.ofReal_natCast]
  refine ⟨FA.Zof D.rows D.cols f, FA.Zof D.rows D.cols F, ?_, ?_, rfl, rfl, rfl, rfl, fun i j hi hj => ?_, fun j hj => ?_⟩
  · unfold Fl.extFourier
    rw [e1]
    simp only [Except.bind_ok]
    exact shuffle' f D.rows D.cols (by omega) (by omega) hR (by omega)
  · unfold extFourier
    rw [e2]
    simp only [Except.bind_ok]
    exact shuffle' F D.rows D.cols r3 c3 hR (by omega)
  · have hδ0 : 0 ≤ δ := (norm_nonneg _).trans (hv 0 0 (by omega) (by omega))
    rw [FA.Zof_at hi hj, FA.Zof_at hi hj]
    rcases hs : FA.sel D.rows i with _ | k
    · simp only
      rw [FS.val_zero, sub_zero, norm_zero]
      exact ⟨hδ0, hC0⟩
    · simp only
      have hk := FA.sel_lt (by omega) hi hs
      rw [hFv k j hk hj]
      exact ⟨hv k j (by omega) (by omega), b3 k j hk hj⟩
  · rw [FA.Zof_at (by omega) hj]
    have : FA.sel D.rows (D.rows / 2 + 1) = none := by
      unfold FA.sel
      rw [if_neg (by omega), if_neg (by omega), if_neg (by omega)]
    rw [this]

/-- `sinLdot_fc` in doubles against `sinLdot_fc`, in the columns of frequency at most `M`. -/
theorem sinLdot_err (hrd : NoOverflow rnd) (T P : Arr2 (FC rnd)) (T' P' : Arr2 ℂ) (L K M : ℕ) (hT : T.rows = 2 * L) (hP : P.rows = 2 * L) (hT' : T'.rows = 2 * L) (hP' : P'.rows = 2 * L)
    (kT : T.cols = K) (kP : P.cols = K) (kT' : T'.cols = K) (kP' : P'.cols = K) (hL : 2 ≤ L) (hLb : L ≤ 2 ^ 40) (hMb : M ≤ 2 ^ 40) (hK : K % 2 = 0) {C E : ℝ} (hC0 : 0 ≤ C) (ht : tiny ≤ uu * C / 1000)
    (hC : C ≤ 2 ^ (900 : ℤ)) (hE : E ≤ C / 200)
    (h1 : ∀ i j, i < 2 * L → j < K → ‖FS.val (T.at' i j) - T'.at' i j‖ ≤ E ∧ ‖T'.at' i j‖ ≤ C)
    (h2 : ∀ i j, i < 2 * L → j < K → ‖FS.val (P.at' i j) - P'.at' i j‖ ≤ E ∧ ‖P'.at' i j‖ ≤ C)
    (h0 : ∀ j, j < K → T.at' L j = 0) :
    ∃ G G', Fl.sinLdotFc rnd T P = .ok G ∧ sinLdotFc T' P' = .ok G' ∧ G.rows = 2 * L ∧ G.cols = K ∧ G'.rows = 2 * L ∧ G'.cols = K ∧
      (∀ i j, i < 2 * L → j < K → |freqList K j| ≤ M → ‖FS.val (G.at' i j) - G'.at' i j‖ ≤ (M + L + 2) * (E + 22 * uu * C)) ∧
      ∀ j, j < K → FS.val (G.at' L j) = 0 := by
  have hr := hrd.toIsRounding
  have u0 := uu_pos
  have u1 := FA.uu_le
  have uC : 0 ≤ uu * C := by positivity
  have uC' : uu * C ≤ C / 10 ^ 9 := by nlinarith
  have m0 : (0 : ℝ) ≤ M := Nat.cast_nonneg M
  have l0 : (0 : ℝ) ≤ L := Nat.cast_nonneg L
  have mb : (M : ℝ) ≤ 2 ^ 40 := by exact_mod_cast hMb
  have lb : (L : ℝ) ≤ 2 ^ 40 := by exact_mod_cast hLb
  set Z : Arr2 (FC rnd) := (P.setRow ((P.rows - 2) / 2) fun _ => 0).setRow ((P.rows + 2) / 2) fun _ => 0 with hZ
  set Z' : Arr2 ℂ := (P'.setRow ((P'.rows - 2) / 2) fun _ => 0).setRow ((P'.rows + 2) / 2) fun _ => 0 with hZ'
  have zv : ∀ i j, i < 2 * L → j < K → Z.at' i j = if i = L + 1 then 0 else if i = L - 1 then 0 else P.at' i j := by
    intro i j hi hj
    rw [hZ]
    unfold Arr2.setRow
    rw [Arr2.at'_ofFn (by simp only [Arr2.rows_ofFn]; omega) (by simp only [Arr2.cols_ofFn]; omega), Arr2.at'_ofFn (by omega) (by omega), hP]
    rw [show (2 * L + 2) / 2 = L + 1 by omega, show (2 * L - 2) / 2 = L - 1 by omega]
  have zv' : ∀ i j, i < 2 * L → j < K → Z'.at' i j = if i = L + 1 then 0 else if i = L - 1 then 0 else P'.at' i j := by
    intro i j hi hj
    rw [hZ']
    unfold Arr2.setRow
    rw [Arr2.at'_ofFn (by simp only [Arr2.rows_ofFn]; omega) (by simp only [Arr2.cols_ofFn]; omega), Arr2.at'_ofFn (by omega) (by omega), hP']
    rw [show (2 * L + 2) / 2 = L + 1 by omega, show (2 * L - 2) / 2 = L - 1 by omega]
  have zb : ∀ i j, i < 2 * L → j < K → ‖FS.val (Z.at' i j) - Z'.at' i j‖ ≤ E ∧ ‖Z'.at' i j‖ ≤ C ∧ ‖FS.val (Z.at' i j)‖ ≤ 2 * C := by
    intro i j hi hj
    have E0 : 0 ≤ E := (norm_nonneg _).trans (h1 i j hi hj).1
    rw [zv i j hi hj, zv' i j hi hj]
    split
    · rw [FS.val_zero, sub_zero, norm_zero]; exact ⟨E0, hC0, by linarith⟩
    split
    · rw [FS.val_zero, sub_zero, norm_zero]; exact ⟨E0, hC0, by linarith⟩
    · obtain ⟨a, b⟩ := h2 i j hi hj
      refine ⟨a, b, ?_⟩
      have := norm_add_le (FS.val (P.at' i j) - P'.at' i j) (P'.at' i j)
      rw [sub_add_cancel] at this
      linarith
  have Zr : Z.rows = 2 * L := hP
  have Zc : Z.cols = K := kP
  have Zr' : Z'.rows = 2 * L := hP'
  have Zc' : Z'.cols = K := kP'
  obtain ⟨S, eS, Sr, Sc, Sv⟩ : ∃ S, Fl.sinFc rnd P = .ok S ∧ S.rows = 2 * L ∧ S.cols = K ∧ ∀ i j, i < 2 * L → j < K → S.at' i j =
      (1 / ((2 : FC rnd) * ⟨0, 1⟩)) * (Z.at' (if i = 0 then 2 * L - 1 else i - 1) j - Z.at' (if i = 2 * L - 1 then 0 else i + 1) j) := by
    refine ⟨Arr2.ofFn Z.rows Z.cols fun i j => (1 / ((2 : FC rnd) * ⟨0, 1⟩)) * (Z.at' (if i = 0 then Z.rows - 1 else i - 1) j - Z.at' (if i = Z.rows - 1 then 0 else i + 1) j),
      ?_, Zr, Zc, fun i j hi hj => ?_⟩
    · unfold Fl.sinFc
      rw [if_neg (by omega)]
      rfl
    · rw [Arr2.at'_ofFn (by omega) (by omega), Zr]
  obtain ⟨S', eS', Sr', Sc', Sv'⟩ : ∃ S, sinFc P' = .ok S ∧ S.rows = 2 * L ∧ S.cols = K ∧ ∀ i j, i < 2 * L → j < K → S.at' i j =
      1.0 / (2 * Complex.I) * (Z'.at' (if i = 0 then 2 * L - 1 else i - 1) j - Z'.at' (if i = 2 * L - 1 then 0 else i + 1) j) := by
    refine ⟨Arr2.ofFn Z'.rows Z'.cols fun i j => 1.0 / (2 * Complex.I) * (Z'.at' (if i = 0 then Z'.rows - 1 else i - 1) j - Z'.at' (if i = Z'.rows - 1 then 0 else i + 1) j),
      ?_, Zr', Zc', fun i j hi hj => ?_⟩
    · unfold sinFc
      rw [if_neg (by omega)]
      rfl
    · rw [Arr2.at'_ofFn (by omega) (by omega), Zr']
  have G2 : (2 : ℝ) * C ≤ 2 ^ (1000 : ℤ) := by
    calc 2 * C ≤ 2 ^ (1 : ℤ) * 2 ^ (900 : ℤ) := mul_le_mul (by norm_num) hC hC0 (by positivity)
      _ = 2 ^ (901 : ℤ) := by rw [← zpow_add₀ (by norm_num)]; norm_num
      _ ≤ _ := zpow_le_zpow_right₀ (by norm_num) (by norm_num)
  have bigW : ∀ W : ℝ, 0 ≤ W → W ≤ 2 ^ 44 → W * C ≤ 2 ^ (1000 : ℤ) := by
    intro W w0 w1
    calc W * C ≤ 2 ^ (44 : ℤ) * 2 ^ (900 : ℤ) := mul_le_mul (by exact_mod_cast w1) hC hC0 (by positivity)
      _ = 2 ^ (944 : ℤ) := by rw [← zpow_add₀ (by norm_num)]; norm_num
      _ ≤ _ := zpow_le_zpow_right₀ (by norm_num) (by norm_num)
  have e44 : (2 : ℝ) ^ 44 = 16 * 2 ^ 40 := by norm_num
  have e40 : (1 : ℝ) ≤ 2 ^ 40 := by norm_num
  have B1 : ((M : ℝ) + 1) * C ≤ 2 ^ (1000 : ℤ) := bigW _ (by linarith) (by rw [e44]; clear hC G2 bigW; linarith)
  have B2 : ((L : ℝ) + 1) * C ≤ 2 ^ (1000 : ℤ) := bigW _ (by linarith) (by rw [e44]; clear hC G2 bigW B1; linarith)
  have B3 : (2 * ((M : ℝ) + L + 2)) * C ≤ 2 ^ (1020 : ℤ) :=
    (bigW _ (by linarith) (by rw [e44]; clear hC G2 bigW B1 B2; linarith)).trans (zpow_le_zpow_right₀ (by norm_num) (by norm_num))
  clear hC mb lb bigW e44 e40
  have sb : ∀ i j, i < 2 * L → j < K → ‖FS.val (S.at' i j) - S'.at' i j‖ ≤ E + 12 * uu * C ∧ ‖S'.at' i j‖ ≤ C := by
    intro i j hi hj
    rw [Sv i j hi hj, Sv' i j hi hj]
    have i1 : (if i = 0 then 2 * L - 1 else i - 1) < 2 * L := by split <;> omega
    have i2 : (if i = 2 * L - 1 then 0 else i + 1) < 2 * L := by split <;> omega
    obtain ⟨a1, a2, a3⟩ := zb _ j i1 hj
    obtain ⟨b1, b2, b3⟩ := zb _ j i2 hj
    constructor
    · have := FA.sin_err hrd (by linarith : 0 ≤ 2 * C) (by linarith) G2 a3 b3 a1 b1
      linarith
    · rw [norm_mul]
      have e : ‖(1.0 : ℂ) / (2 * Complex.I)‖ = 1 / 2 := by
        rw [norm_div, norm_mul, Complex.norm_I, Complex.norm_ofNat, show (1.0 : ℂ) = 1 by norm_num, norm_one, mul_one]
      rw [e]
      have := norm_sub_le (Z'.at' (if i = 0 then 2 * L - 1 else i - 1) j) (Z'.at' (if i = 2 * L - 1 then 0 else i + 1) j)
      linarith
  refine ⟨(Arr2.ofFn T.rows T.cols fun i j => (⟨0, 1⟩ : FC rnd) * ⟨Fl.ofInt rnd (freqList T.cols j), 0⟩ * T.at' i j).zip (fun a b => (⟨0, 1⟩ : FC rnd) * (a - b))
      (Arr2.ofFn S.rows S.cols fun i j => (⟨0, 1⟩ : FC rnd) * ⟨Fl.ofInt rnd (freqList S.rows i), 0⟩ * S.at' i j),
    (Arr2.ofFn T'.rows T'.cols fun i j => Complex.I * (freqList T'.cols j : ℂ) * T'.at' i j).zip (fun a b => Complex.I * (a - b))
      (Arr2.ofFn S'.rows S'.cols fun i j => Complex.I * (freqList S'.rows i : ℂ) * S'.at' i j), ?_, ?_, hT, kT, hT', kT', fun i j hi hj hf => ?_, fun j hj => ?_⟩
  · unfold Fl.sinLdotFc Fl.dphiFc Fl.dthetaFc
    rw [if_neg (by omega), eS]
    simp only [Except.bind_ok]
    rw [if_neg (by omega)]
    rfl
  · unfold sinLdotFc dphiFc dthetaFc
    rw [if_neg (by omega), eS']
    simp only [Except.bind_ok]
    rw [if_neg (by omega)]
    rfl
  · unfold Arr2.zip
    simp only [Arr2.rows_ofFn, Arr2.cols_ofFn]
    rw [Arr2.at'_ofFn (by omega) (by omega), Arr2.at'_ofFn (by omega) (by omega), Arr2.at'_ofFn (by omega) (by omega), Arr2.at'_ofFn (by omega) (by omega),
      Arr2.at'_ofFn (by omega) (by omega), Arr2.at'_ofFn (by omega) (by omega), kT, kT', Sr, Sr']
    obtain ⟨t1, t2⟩ := h1 i j hi hj
    obtain ⟨s1, s2⟩ := sb i j hi hj
    have E0 : 0 ≤ E := (norm_nonneg _).trans t1
    obtain ⟨-, a1, a2, -⟩ := deriv_err hrd (q := freqList K j) (x := T.at' i j) (z := T'.at' i j) (Q := M) hMb (E := E) (by linarith) ht hC0 B1 t2 t1 (fun h => absurd h (by omega))
    have hfl : |freqList (2 * L) i| ≤ L := by
      unfold freqList
      rw [abs_le]; split <;> omega
    obtain ⟨-, b1, b2, -⟩ := deriv_err hrd (q := freqList (2 * L) i) (x := S.at' i j) (z := S'.at' i j) (Q := L) hLb (E := E + 12 * uu * C) (by linarith) ht hC0 B2 s2 s1 (fun h => absurd h (by omega))
    generalize (⟨0, 1⟩ : FC rnd) * ⟨Fl.ofInt rnd (freqList K j), 0⟩ * T.at' i j = x at a1 ⊢
    generalize (⟨0, 1⟩ : FC rnd) * ⟨Fl.ofInt rnd (freqList (2 * L) i), 0⟩ * S.at' i j = y at b1 ⊢
    generalize Complex.I * (freqList K j : ℂ) * T'.at' i j = x' at a1 a2 ⊢
    generalize Complex.I * (freqList (2 * L) i : ℂ) * S'.at' i j = y' at b1 b2 ⊢
    rw [(val_i hrd (sub_fix hrd x y)).1, ← mul_sub, norm_mul, Complex.norm_I, one_mul]
    have c1 : ‖(FS.val x - FS.val y) - (x' - y')‖ ≤ ((M : ℝ) + L + 2) * (E + 16 * uu * C) := by
      rw [show FS.val x - FS.val y - (x' - y') = (FS.val x - x') - (FS.val y - y') by ring]
      refine (norm_sub_le _ _).trans ((add_le_add a1 b1).trans ?_)
      have : (0 : ℝ) ≤ ((M : ℝ) + 1) * (uu * C) := by positivity
      nlinarith
    have c2 : ‖x' - y'‖ ≤ ((M : ℝ) + L + 2) * C := by
      refine (norm_sub_le _ _).trans ((add_le_add a2 b2).trans (le_of_eq ?_)); ring
    have c3 : ‖FS.val x - FS.val y‖ ≤ (2 * ((M : ℝ) + L + 2)) * C := by
      have := norm_add_le ((FS.val x - FS.val y) - (x' - y')) (x' - y')
      rw [sub_add_cancel] at this
      have : ((M : ℝ) + L + 2) * (E + 16 * uu * C) ≤ ((M : ℝ) + L + 2) * C := mul_le_mul_of_nonneg_left (by linarith) (by linarith)
      linarith
    have c4 := sub_err hr (a := x) (b := y) (B := (2 * ((M : ℝ) + L + 2)) * C) (by positivity) (by
      have : uu * C / 1000 ≤ uu * (2 * ((M : ℝ) + L + 2) * C) / 100 := by nlinarith [mul_nonneg m0 uC, mul_nonneg l0 uC]
      linarith) B3 c3
    have c5 := norm_sub_le_norm_sub_add_norm_sub (FS.val (x - y)) (FS.val x - FS.val y) (x' - y')
    refine c5.trans ((add_le_add c4 c1).trans (le_of_eq ?_))
    ring
  · unfold Arr2.zip
    simp only [Arr2.rows_ofFn, Arr2.cols_ofFn]
    have z1 : Z.at' (L - 1) j = 0 := by rw [zv _ _ (by omega) hj, if_neg (by omega), if_pos rfl]
    have z2 : Z.at' (L + 1) j = 0 := by rw [zv _ _ (by omega) hj, if_pos rfl]
    have s0 : S.at' L j = 0 := by
      rw [Sv L j (by omega) hj, if_neg (by omega), if_neg (by omega), z1, z2, FA.sin_entry hrd]
      have r0 := FS.rnd0 hrd
      have q1 : (0 : FC rnd).re = 0 := rfl
      have q2 : (0 : FC rnd).im = 0 := rfl
      rw [q1, q2, sub_self, r0, zero_div, r0, neg_zero]
      rfl
    rw [Arr2.at'_ofFn (by omega) (by omega), Arr2.at'_ofFn (by omega) (by omega), Arr2.at'_ofFn (by omega) (by omega), h0 j hj, s0]
    rw [iq_eq hrd (ofInt_fix hrd _), iq_eq hrd (ofInt_fix hrd _), im_mul_zero hrd, im_mul_zero hrd, (val_i hrd (sub_fix hrd _ _)).1]
    have : (0 : FC rnd) - 0 = 0 := by
      show (⟨rnd (0 - 0), rnd (0 - 0)⟩ : FC rnd) = ⟨0, 0⟩
      rw [sub_self, FS.rnd0 hrd]
    rw [this, FS.val_zero, mul_zero]

end FV
end Verif.Props
