import Verif.Props.FloatAnal4
import Mathlib.Algebra.BigOperators.Group.Finset.Interval
/-!
# `spht` in doubles: the whole transform
-/
namespace Verif.Props
open Verif Finset

variable {rnd : ℝ → ℝ}

namespace FA

theorem bind_assoc' {α β γ : Type} (x : Res α) (f : α → Res β) (g : β → Res γ) : (x.bind fun a => (f a).bind g) = (x.bind f).bind g := by
  cases x <;> rfl

/-- The exact Fourier coefficients are bounded by the samples. -/
theorem fft2_norm (D : Arr2 ℂ) (hR : 0 < D.rows) (hK : 0 < D.cols) {C : ℝ} (h : ∀ i j, i < D.rows → j < D.cols → ‖D.at' i j‖ ≤ C) :
    ∃ f, npFft2 D = .ok f ∧ f.rows = D.rows ∧ f.cols = D.cols ∧ ∀ i j, i < D.rows → j < D.cols → ‖f.at' i j / ((D.rows * D.cols : ℕ) : ℂ)‖ ≤ C := by
  unfold npFft2
  rw [if_neg (by omega)]
  refine ⟨_, rfl, rfl, rfl, fun i j hi hj => ?_⟩
  have hp : 0 < D.rows * D.cols := Nat.mul_pos hR hK
  rw [Arr2.at'_ofFn hi hj, norm_div, Complex.norm_natCast, div_le_iff₀ (by exact_mod_cast hp)]
  calc _ ≤ ∑ k ∈ range D.rows, ∑ l ∈ range D.cols, C := (norm_sum_le _ _).trans (sum_le_sum fun k hk => (norm_sum_le _ _).trans (sum_le_sum fun l hl => by
        rw [norm_mul, norm_mul, FS.norm_root, FS.norm_root, mul_one, mul_one]
        exact h k l (mem_range.mp hk) (mem_range.mp hl)))
    _ = _ := by rw [sum_const, sum_const, card_range, card_range, nsmul_eq_mul, nsmul_eq_mul]; push_cast; ring

theorem sel_lt {R i k : ℕ} (hR0 : 2 ≤ R) (hi : i < R + 2) (h : sel R i = some k) : k < R := by
  unfold sel at h
  split at h
  · cases h
  split at h
  · cases h; omega
  split at h
  · cases h; omega
  · cases h

theorem Zof_at {α : Type} [Zero α] {R C : ℕ} {f : Arr2 α} {i j : ℕ} (hi : i < R + 2) (hj : j < C) :
    (Zof R C f).at' i j = match sel R i with
    | some k => f.at' k j
    | none => 0 := Arr2.at'_ofFn hi hj

theorem Zof_zero {α : Type} [Zero α] {R C : ℕ} {f : Arr2 α} {i j : ℕ} (hi : i < R + 2) (hj : j < C) (h : i = R / 2 ∨ i = R / 2 + 2) : (Zof R C f).at' i j = 0 := by
  rw [Zof_at hi hj]
  unfold sel
  rw [if_pos h]

/-- The Fourier array of `spht` in doubles against the exact one. -/
theorem pre (hrd : NoOverflow rnd) (lib : Fl.NumLib rnd) (D : Arr2 (FC rnd)) (hR : D.rows % 2 = 0) (hR0 : 0 < D.rows) (hK : 0 < D.cols) {C δ : ℝ}
    (hC0 : 0 ≤ C) (ht : tiny ≤ uu * (2 * C) / 100) (hC' : 2 * C ≤ 2 ^ (1000 : ℤ)) (hD : ∀ i j, i < D.rows → j < D.cols → ‖FS.val (D.at' i j)‖ ≤ C) (hδ : δ ≤ C)
    (hf : Fft2Within lib.fft δ D) :
    ∃ G G', Fl.sphtPre rnd lib D = .ok G ∧ ((extFourier (D.map FS.val)).bind fun f => sinFc f) = .ok G' ∧ G.rows = D.rows + 2 ∧ G.cols = D.cols ∧
      G'.rows = D.rows + 2 ∧ G'.cols = D.cols ∧
      (∀ i j, i < D.rows + 2 → j < D.cols → ‖FS.val (G.at' i j) - G'.at' i j‖ ≤ δ + 12 * uu * C ∧ ‖G'.at' i j‖ ≤ C) ∧
      ∀ j, j < D.cols → FS.val (G.at' (D.rows / 2 + 1) j) = 0 := by
  obtain ⟨f, f', e1, e2, hr, hc, hv⟩ := hf
  have hmap : ∀ i j, i < D.rows → j < D.cols → (D.map FS.val).at' i j = FS.val (D.at' i j) := fun i j hi hj => Arr2.at'_map _ _ hi hj
  obtain ⟨f'', e3, r3, c3, b3⟩ := fft2_norm (D.map FS.val) hR0 hK (C := C) (fun i j hi hj => by rw [hmap i j hi hj]; exact hD i j hi hj)
  rw [e2] at e3
  cases e3
  change f'.rows = D.rows at r3
  change f'.cols = D.cols at c3
  change ∀ i j, i < D.rows → j < D.cols → ‖f'.at' i j / ((D.rows * D.cols : ℕ) : ℂ)‖ ≤ C at b3
  set F : Arr2 ℂ := f'.map fun x => x / (((D.rows * D.cols : ℕ) : ℝ) : ℂ) with hF
  have hFv : ∀ i j, i < D.rows → j < D.cols → F.at' i j = f'.at' i j / ((D.rows * D.cols : ℕ) : ℂ) := by
    intro i j hi hj
    rw [hF, Arr2.at'_map _ _ (by omega) (by omega), Complex.ofReal_natCast]
  obtain ⟨E, eE, Er, Ec, EZ⟩ := shuffle f D.rows D.cols (by omega) (by omega) hR (by omega)
  obtain ⟨E', eE', Er', Ec', EZ'⟩ := shuffle F D.rows D.cols r3 c3 hR (by omega)
  have s1 : Fl.sphtPre rnd lib D = .ok (Arr2.ofFn (D.rows + 2) D.cols fun i j => (1 : FC rnd) / ((2 : FC rnd) * ⟨0, 1⟩) *
      ((Zof D.rows D.cols f).at' (if i = 0 then D.rows + 2 - 1 else i - 1) j - (Zof D.rows D.cols f).at' (if i = D.rows + 2 - 1 then 0 else i + 1) j)) := by
    unfold Fl.sphtPre
    rw [e1]
    simp only [Except.bind_ok]
    rw [bind_assoc', eE]
    simp only [Except.bind_ok]
    unfold Fl.sinFc
    rw [if_neg (by omega)]
    dsimp only
    rw [EZ]
    rfl
  have s2 : ((extFourier (D.map FS.val)).bind fun f => sinFc f) = .ok (Arr2.ofFn (D.rows + 2) D.cols fun i j => 1.0 / (2 * Complex.I) *
      ((Zof D.rows D.cols F).at' (if i = 0 then D.rows + 2 - 1 else i - 1) j - (Zof D.rows D.cols F).at' (if i = D.rows + 2 - 1 then 0 else i + 1) j)) := by
    unfold extFourier
    rw [e2]
    simp only [Except.bind_ok]
    change (((fixEvenRow F).bind fun f => padRows f (D.rows + 2)).bind fun f => sinFc f) = _
    rw [eE']
    simp only [Except.bind_ok]
    unfold sinFc
    rw [if_neg (by omega)]
    dsimp only
    rw [EZ']
    rfl
  have zent : ∀ i j, i < D.rows + 2 → j < D.cols → ‖FS.val ((Zof D.rows D.cols f).at' i j) - (Zof D.rows D.cols F).at' i j‖ ≤ δ ∧
      ‖FS.val ((Zof D.rows D.cols f).at' i j)‖ ≤ 2 * C ∧ ‖(Zof D.rows D.cols F).at' i j‖ ≤ C := by
    intro i j hi hj
    have hδ0 : 0 ≤ δ := (norm_nonneg _).trans (hv 0 0 (by omega) (by omega))
    rw [Zof_at hi hj, Zof_at hi hj]
    rcases hs : sel D.rows i with _ | k
    · simp only
      rw [FS.val_zero, sub_zero, norm_zero]
      exact ⟨hδ0, by linarith, hC0⟩
    · simp only
      have hk := sel_lt (by omega) hi hs
      have a1 := hv k j (by omega) (by omega)
      have a2 := b3 k j hk hj
      rw [hFv k j hk hj]
      refine ⟨a1, ?_, a2⟩
      have := norm_add_le (FS.val (f.at' k j) - f'.at' k j / ((D.rows * D.cols : ℕ) : ℂ)) (f'.at' k j / ((D.rows * D.cols : ℕ) : ℂ))
      rw [sub_add_cancel] at this
      linarith
  refine ⟨_, _, s1, s2, rfl, rfl, rfl, rfl, fun i j hi hj => ?_, fun j hj => ?_⟩
  · rw [Arr2.at'_ofFn hi hj, Arr2.at'_ofFn hi hj]
    have i1 : (if i = 0 then D.rows + 2 - 1 else i - 1) < D.rows + 2 := by split <;> omega
    have i2 : (if i = D.rows + 2 - 1 then 0 else i + 1) < D.rows + 2 := by split <;> omega
    obtain ⟨a1, a2, a3⟩ := zent _ j i1 hj
    obtain ⟨b1, b2, b3⟩ := zent _ j i2 hj
    constructor
    · have := sin_err hrd (by linarith : 0 ≤ 2 * C) ht hC' a2 b2 a1 b1
      linarith
    · rw [norm_mul]
      have e : ‖(1.0 : ℂ) / (2 * Complex.I)‖ = 1 / 2 := by
        rw [norm_div, norm_mul, Complex.norm_I, Complex.norm_ofNat, show (1.0 : ℂ) = 1 by norm_num, norm_one, mul_one]
      rw [e]
      have := norm_sub_le ((Zof D.rows D.cols F).at' (if i = 0 then D.rows + 2 - 1 else i - 1) j) ((Zof D.rows D.cols F).at' (if i = D.rows + 2 - 1 then 0 else i + 1) j)
      linarith
  · rw [Arr2.at'_ofFn (by omega) hj, if_neg (by omega), if_neg (by omega), Zof_zero (by omega) hj (by omega), Zof_zero (by omega) hj (by omega), sin_entry hrd]
    have r0 := FS.rnd0 hrd
    have z1 : (0 : FC rnd).re = 0 := rfl
    have z2 : (0 : FC rnd).im = 0 := rfl
    rw [z1, z2]
    apply Complex.ext <;> simp [FS.val, r0]

/-- The exact convolution in closed form. -/
theorem conv_exact (A : Arr2 ℂ) (N : ℕ) (m : ℤ) (hL : A.rows % 2 = 0) (hL0 : 0 < A.rows) (hm1 : -(A.cols : ℤ) ≤ m) (hm2 : m < A.cols) (hny : fAt A m (A.rows / 2) = 0) :
    ∃ h, convExact A N m = .ok h ∧ h.length = N + 1 ∧ ∀ k : ℕ, k ≤ N → rd h k = hval A m k := by
  unfold convExact
  obtain ⟨Q, eQ, hQ, -, -⟩ := spf_loopEq.least (by simp) (A.rows + N) (by omega)
  have eQ' : smallestPrimeFactor ((A.rows : ℤ) + N) = some (Q : ℤ) := by
    unfold smallestPrimeFactor; exact_mod_cast eQ
  rw [eQ']
  simp only [orDiverge, Except.bind_ok]
  obtain ⟨s, es, hs⟩ := sData_spec A.rows N Q hL hL0 hQ
  rw [es]
  simp only [Except.bind_ok]
  exact hkmFc_spec A N Q m s hL hL0 hQ hs hm1 hm2 hny

theorem norm_Skern (j : ℤ) : ‖Skern j‖ ≤ 1 := by
  unfold Skern
  split
  · rename_i h
    rw [norm_div, norm_neg, Complex.norm_I, Complex.norm_intCast]
    have : (1 : ℝ) ≤ |(j : ℝ)| := by
      have : 1 ≤ |j| := by rw [Int.abs_eq_natAbs]; omega
      exact_mod_cast this
    rw [div_le_one (by linarith)]
    exact this
  · simp

/-- The squares of the kernel add up to at most `5/2`. -/
theorem Skern_sq (t : Finset ℤ) : ∑ j ∈ t, ‖Skern j‖ ^ 2 ≤ 5 / 2 := by
  have hodd : ∀ j : ℤ, j % 2 = 1 → ‖Skern j‖ ^ 2 = 1 / (j : ℝ) ^ 2 := by
    intro j h
    unfold Skern
    rw [if_pos h, norm_div, norm_neg, Complex.norm_I, Complex.norm_intCast, div_pow, one_pow, sq_abs]
  have hev : ∀ j : ℤ, j % 2 = 0 → ‖Skern j‖ ^ 2 = 0 := by
    intro j h
    unfold Skern
    rw [if_neg (by omega), norm_zero]; norm_num
  have heven : Function.Even fun j : ℤ => ‖Skern j‖ ^ 2 := by
    intro j
    simp only
    rcases Int.emod_two_eq_zero_or_one j with h | h
    · rw [hev j h, hev (-j) (by omega)]
    · rw [hodd j h, hodd (-j) (by omega)]
      push_cast
      rw [neg_sq]
  have hr : ∀ L : ℕ, ∑ j ∈ range (2 * L + 2), ‖Skern (j : ℕ)‖ ^ 2 ≤ 5 / 4 - 1 / (4 * ((L : ℝ) + 1)) := by
    intro L
    induction L with
    | zero =>
      rw [show 2 * 0 + 2 = 2 by norm_num, sum_range_succ, sum_range_succ, range_zero, sum_empty, hev _ (by norm_num), hodd _ (by norm_num)]
      norm_num
    | succ L ih =>
      rw [show 2 * (L + 1) + 2 = 2 * L + 2 + 1 + 1 by ring, sum_range_succ, sum_range_succ, hev _ (by omega), hodd _ (by omega)]
      push_cast
      have h1 : (1 : ℝ) / (2 * L + 3) ^ 2 ≤ 1 / (4 * ((L : ℝ) + 1)) - 1 / (4 * ((L : ℝ) + 1 + 1)) := by
        have : (1 : ℝ) / (4 * ((L : ℝ) + 1)) - 1 / (4 * ((L : ℝ) + 1 + 1)) = 1 / (4 * (((L : ℝ) + 1) * (L + 1 + 1))) := by field_simp; ring
        rw [this]
        refine one_div_le_one_div_of_le (by positivity) (by nlinarith)
      linarith
  obtain ⟨L, hL⟩ : ∃ L : ℕ, ∀ j ∈ t, j ∈ Icc (-((2 * L + 1 : ℕ) : ℤ)) ((2 * L + 1 : ℕ) : ℤ) := by
    refine ⟨t.sup fun j => j.natAbs, fun j hj => ?_⟩
    have : j.natAbs ≤ t.sup fun j => j.natAbs := le_sup (f := fun j : ℤ => j.natAbs) hj
    rw [mem_Icc]; omega
  refine (sum_le_sum_of_subset_of_nonneg (fun j hj => hL j hj) fun j _ _ => by positivity).trans ?_
  rw [sum_Icc_of_even_eq_range heven, hev 0 rfl, sub_zero, nsmul_eq_mul]
  have h1 := hr L
  have h2 : (0 : ℝ) ≤ 1 / (4 * ((L : ℝ) + 1)) := by positivity
  have h3 : ∑ j ∈ range (2 * L + 1 + 1), ‖Skern (j : ℕ)‖ ^ 2 ≤ 5 / 4 := by
    rw [show 2 * L + 1 + 1 = 2 * L + 2 by ring]; linarith
  push_cast at h3 ⊢
  linarith

/-- The convolution is bounded by the root of the sum of squares. -/
theorem kern_l2 (s : Finset ℤ) (g : ℤ → ℂ) (k : ℤ) {B : ℝ} (hB : 0 ≤ B) (h : ∑ ν ∈ s, ‖g ν‖ ^ 2 ≤ B ^ 2) :
    ‖4 * (Real.pi : ℂ) * ∑ ν ∈ s, g ν * Skern (k - ν)‖ ≤ 20 * B := by
  have h1 : ‖∑ ν ∈ s, g ν * Skern (k - ν)‖ ≤ ∑ ν ∈ s, ‖g ν‖ * ‖Skern (k - ν)‖ := (norm_sum_le _ _).trans (le_of_eq (sum_congr rfl fun ν _ => norm_mul _ _))
  have h2 := sum_mul_sq_le_sq_mul_sq s (fun ν => ‖g ν‖) (fun ν => ‖Skern (k - ν)‖)
  have h3 : ∑ ν ∈ s, ‖Skern (k - ν)‖ ^ 2 ≤ 5 / 2 := by
    have := Skern_sq (s.image fun ν => k - ν)
    rwa [sum_image (fun a _ b _ e => by simpa using e)] at this
  have h4 : ‖∑ ν ∈ s, g ν * Skern (k - ν)‖ ^ 2 ≤ B ^ 2 * (5 / 2) :=
    (pow_le_pow_left₀ (norm_nonneg _) h1 2).trans (h2.trans (mul_le_mul h h3 (sum_nonneg fun _ _ => by positivity) (by positivity)))
  rw [norm_mul, norm_mul, Complex.norm_real, Complex.norm_ofNat, Real.norm_of_nonneg Real.pi_pos.le]
  have hp : Real.pi ≤ 3.15 := Real.pi_lt_d2.le
  have h5 : ‖∑ ν ∈ s, g ν * Skern (k - ν)‖ ≤ 1.582 * B := by
    refine abs_le_of_sq_le_sq' (h4.trans ?_) (by positivity) |>.2
    nlinarith [sq_nonneg B]
  have hpi := Real.pi_pos
  have h6 : 4 * Real.pi * ‖∑ ν ∈ s, g ν * Skern (k - ν)‖ ≤ 4 * 3.15 * (1.582 * B) := by gcongr
  linarith

theorem hval_diff {A A' : Arr2 ℂ} {r K : ℕ} (hr : r % 2 = 0) (hK : 0 < K) (a1 : A.rows = r + 2) (a2 : A.cols = K) (b1 : A'.rows = r + 2) (b2 : A'.cols = K) {ε : ℝ}
    (h : ∀ i j, i < r + 2 → j < K → ‖A.at' i j - A'.at' i j‖ ≤ ε) (m k : ℤ) : ‖hval A m k - hval A' m k‖ ≤ 20 * (Real.sqrt ((r : ℝ) + 1) * ε) := by
  have hε : 0 ≤ ε := (norm_nonneg _).trans (h 0 0 (by omega) hK)
  unfold hval
  rw [a1, b1, ← mul_sub, ← sum_sub_distrib]
  have e : ∀ ν, fAt A m ν * Skern (k - ν) - fAt A' m ν * Skern (k - ν) = (fAt A m ν - fAt A' m ν) * Skern (k - ν) := fun ν => by ring
  simp only [e]
  refine kern_l2 _ (fun ν => fAt A m ν - fAt A' m ν) k (by positivity) ?_
  have hc : (Ioo (-(((r + 2 : ℕ) : ℤ) / 2)) (((r + 2 : ℕ) : ℤ) / 2)).card = r + 1 := by
    rw [Int.card_Ioo]; omega
  rw [mul_pow, Real.sq_sqrt (by positivity)]
  refine (sum_le_card_nsmul _ _ (ε ^ 2) fun ν _ => ?_).trans (le_of_eq ?_)
  · unfold fAt
    rw [a1, a2, b1, b2]
    exact pow_le_pow_left₀ (norm_nonneg _) (h _ _ (slot_lt' (by omega) _) (slot_lt' hK _)) 2
  · rw [hc, nsmul_eq_mul]; push_cast; ring

/-- The squares of the Fourier coefficients of order `m` add up to at most the square of the largest sample. -/
theorem fhat_l2 (D : Arr2 ℂ) (hR0 : 0 < D.rows) (hR : D.rows % 2 = 0) (hK : 0 < D.cols) {C : ℝ} (h : ∀ i j, i < D.rows → j < D.cols → ‖D.at' i j‖ ≤ C) (m : ℤ) (t : Finset ℤ) :
    ∑ ν ∈ t, ‖fhat D m ν‖ ^ 2 ≤ C ^ 2 := by
  have hS : ∑ ν ∈ Ioo (-((D.rows / 2 : ℕ) : ℤ)) (D.rows / 2 : ℕ), ‖dftc D ν m‖ ^ 2 ≤ C ^ 2 := by
    have db := dft_bessel D (Ioo (-((D.rows / 2 : ℕ) : ℤ)) (D.rows / 2 : ℕ) ×ˢ {m}) hR0 hK (by
      rintro ⟨a, b⟩ hp ⟨a', b'⟩ hq ⟨x, hx⟩ -
      simp only [mem_product, mem_Ioo, mem_singleton] at hp hq hx
      have hx0 : x = 0 := by
        by_contra hne
        rcases lt_or_gt_of_ne hne with hl | hl
        · have : (D.rows : ℤ) * x ≤ -D.rows := by nlinarith
          omega
        · have : (D.rows : ℤ) ≤ D.rows * x := by nlinarith
          omega
      rw [hx0, mul_zero] at hx
      ext <;> simp only <;> omega)
    rw [sum_product] at db
    simp only [sum_singleton] at db
    refine db.trans ?_
    have hR' : (0 : ℝ) < D.rows := by exact_mod_cast hR0
    have hC' : (0 : ℝ) < D.cols := by exact_mod_cast hK
    rw [div_le_iff₀ (by positivity)]
    calc _ ≤ ∑ i ∈ range D.rows, ∑ j ∈ range D.cols, C ^ 2 := sum_le_sum fun i hi => sum_le_sum fun j hj =>
            pow_le_pow_left₀ (norm_nonneg _) (h i j (mem_range.mp hi) (mem_range.mp hj)) 2
      _ = _ := by simp; ring
  refine le_trans ?_ hS
  have e : ∀ ν, ‖fhat D m ν‖ ^ 2 = if ν ∈ Ioo (-((D.rows / 2 : ℕ) : ℤ)) (D.rows / 2 : ℕ) then ‖dftc D ν m‖ ^ 2 else 0 := by
    intro ν
    unfold fhat
    by_cases hν : |ν| < ((D.rows / 2 : ℕ) : ℤ)
    · rw [if_pos hν, if_pos (by rw [mem_Ioo]; exact abs_lt.mp hν)]
    · rw [if_neg hν, if_neg (by rw [mem_Ioo]; exact fun a => hν (abs_lt.mpr a)), norm_zero]; norm_num
  simp only [e]
  rw [← sum_filter]
  refine sum_le_sum_of_subset_of_nonneg (fun ν hν => (mem_filter.mp hν).2) fun _ _ _ => by positivity

/-- The squares of the Fourier coefficients of `sin θ · f` add up to at most the square of the largest sample. -/
theorem sing_l2 (D : Arr2 ℂ) (hR0 : 0 < D.rows) (hR : D.rows % 2 = 0) (hK : 0 < D.cols) {C : ℝ} (h : ∀ i j, i < D.rows → j < D.cols → ‖D.at' i j‖ ≤ C) (m : ℤ) (s : Finset ℤ) :
    ∑ ν ∈ s, ‖sing D m ν‖ ^ 2 ≤ C ^ 2 := by
  have db := fhat_l2 D hR0 hR hK h m
  have one : ∀ ν, ‖sing D m ν‖ ^ 2 ≤ ‖fhat D m (ν - 1)‖ ^ 2 / 2 + ‖fhat D m (ν + 1)‖ ^ 2 / 2 := by
    intro ν
    unfold sing
    rw [norm_div, norm_mul, Complex.norm_I, Complex.norm_ofNat, mul_one, div_pow]
    have := norm_sub_le (fhat D m (ν - 1)) (fhat D m (ν + 1))
    have h2 := pow_le_pow_left₀ (norm_nonneg _) this 2
    nlinarith [sq_nonneg (‖fhat D m (ν - 1)‖ - ‖fhat D m (ν + 1)‖)]
  refine (sum_le_sum fun ν _ => one ν).trans ?_
  rw [sum_add_distrib, ← sum_div, ← sum_div]
  have s1 := db (s.image fun ν => ν - 1)
  have s2 := db (s.image fun ν => ν + 1)
  rw [sum_image (fun a _ b _ e => by simpa using e)] at s1 s2
  linarith

theorem tgt_bval {h : List (FC rnd)} {A : Arr2 ℂ} {m : ℤ} {n : ℕ} (hm : m.natAbs ≤ n) {η : ℝ} (hη : ∀ k : ℕ, k ≤ n → ‖FS.val (rd h k) - hval A m k‖ ≤ η) :
    ‖tgt h m n - bval A m n‖ ≤ (2 * (n : ℝ) + 1) * FS.rowMax n * η := by
  have hη0 : 0 ≤ η := (norm_nonneg _).trans (hη 0 (by omega))
  have hR := FS.rowMax_ge n
  unfold tgt bval
  rw [← mul_sub, norm_mul, norm_zpow, Complex.norm_I, one_zpow, one_mul]
  have e : FS.val (rd h 0) * ycoef n m 0 + 2 * ∑ i ∈ range n, FS.val (rd h (i + 1)) * ycoef n m (i + 1 : ℕ) -
      (hval A m 0 * ycoef n m 0 + 2 * ∑ k ∈ range n, hval A m (k + 1 : ℕ) * ycoef n m (k + 1 : ℕ)) =
      (FS.val (rd h 0) - hval A m 0) * ycoef n m 0 + 2 * ∑ i ∈ range n, (FS.val (rd h (i + 1)) - hval A m (i + 1 : ℕ)) * ycoef n m (i + 1 : ℕ) := by
    simp only [sub_mul, sum_sub_distrib, mul_sub]
    ring
  rw [e]
  have y := fun j => ycoef_le n m hm j
  have a0 : ‖(FS.val (rd h 0) - hval A m 0) * ycoef n m 0‖ ≤ η * FS.rowMax n := by
    rw [norm_mul]
    exact mul_le_mul (hη 0 (by omega)) (y 0) (norm_nonneg _) hη0
  have a1 : ‖∑ i ∈ range n, (FS.val (rd h (i + 1)) - hval A m (i + 1 : ℕ)) * ycoef n m (i + 1 : ℕ)‖ ≤ n * (η * FS.rowMax n) := by
    refine (norm_sum_le_of_le _ (n := fun _ => η * FS.rowMax n) fun i hi => ?_).trans (le_of_eq ?_)
    · rw [norm_mul]
      exact mul_le_mul (hη (i + 1) (by have := mem_range.mp hi; omega)) (y _) (norm_nonneg _) hη0
    · rw [sum_const, card_range, nsmul_eq_mul]
  refine (norm_add_le _ _).trans ?_
  have e2 : ∀ z : ℂ, ‖2 * z‖ = 2 * ‖z‖ := fun z => by rw [norm_mul, Complex.norm_ofNat]
  rw [e2]
  nlinarith [a0, a1]

/-- The arithmetic of the final bound. -/
theorem final_num {n : ℕ} {R δ1 δ2 C q : ℝ} (hq : 0 ≤ q) (hC : 0 ≤ C) (hR : 0 ≤ R) :
    ((n : ℝ) + 1) * ((n : ℝ) + 4) ^ 3 * 2 ^ (-49 : ℤ) * (64 * C) * R + (2 * (n : ℝ) + 1) * R * (δ2 + 20 * (q * (δ1 + 12 * uu * C))) ≤
      R * (((n : ℝ) + 1) * ((n : ℝ) + 4) ^ 3 * 2 ^ (-43 : ℤ) * C + (2 * (n : ℝ) + 1) * (δ2 + 20 * q * (δ1 + 2 ^ (-49 : ℤ) * C))) := by
  have hu : uu = 2 ^ (-53 : ℤ) := rfl
  have n0 : (0 : ℝ) ≤ n := by positivity
  have e1 : (2 : ℝ) ^ (-43 : ℤ) = 64 * 2 ^ (-49 : ℤ) := by norm_num
  have e2 : (2 : ℝ) ^ (-49 : ℤ) = 16 * uu := by rw [hu]; norm_num
  rw [e1, e2]
  have u0 := uu_pos
  have X0 : 0 ≤ (2 * (n : ℝ) + 1) * R * (q * (uu * C)) := by positivity
  nlinarith

end FA

/-- C94 with the hypotheses about `1j ** m` and `np.sum` only where they are used. -/
theorem FA.spht_core {N M : ℕ} (hrd : NoOverflow rnd) (lib : Fl.NumLib rnd) (b : Backend) (hb0 : b = .py → PowNear M lib.jp ∧ SumOK lib.sum)
    (D : Arr2 (FC rnd)) (hR : D.rows % 2 = 0) (hR0 : 0 < D.rows) (hsz : D.rows ≤ 2 ^ 29) (hK : D.cols % 2 = 0) (hN : N ≤ 1000) (hMN : M ≤ N)
    (hNr : N < D.rows / 2) (hMc : 2 * M < D.cols) (C : ℝ) (hC : 2 ^ (-900 : ℤ) ≤ C) (hC' : C ≤ 2 ^ (400 : ℤ))
    (hD : ∀ i j, i < D.rows → j < D.cols → ‖FS.val (D.at' i j)‖ ≤ C) (δ₁ δ₂ : ℝ) (hδ₁ : Real.sqrt ((D.rows : ℝ) + 1) * δ₁ ≤ C / 4) (hδ₂ : δ₂ ≤ C)
    (hfft : Fft2Within lib.fft δ₁ D) (hconv : ∀ g, Fl.sphtPre rnd lib D = .ok g → ∀ m : ℤ, |m| ≤ M → ConvWithin lib.conv δ₂ g N m) :
    ∃ c ch, spht .py ⟨.arr (D.map FS.val)⟩ (some N) (some M) = .ok c ∧ Fl.spht rnd lib b ⟨.arr D⟩ (some N) (some M) = .ok ch ∧
      ch.WellFormed ∧ ch.nmax = N ∧ ch.mmax = M ∧ ∀ n m : ℤ, IsMode N M n m → ∃ w z, readMap c n m = some w ∧ readMap ch n m = some z ∧
        ‖FS.val z - w‖ ≤ Real.sqrt ((2 * n + 1) / (4 * Real.pi)) *
          ((n + 1) * ((n : ℝ) + 4) ^ 3 * 2 ^ (-43 : ℤ) * C + (2 * n + 1) * (δ₂ + 20 * Real.sqrt ((D.rows : ℝ) + 1) * (δ₁ + 2 ^ (-49 : ℤ) * C))) := by
  have hK0 : 0 < D.cols := by omega
  have C0 : 0 ≤ C := le_trans (by positivity) hC
  have q1 : 1 ≤ Real.sqrt ((D.rows : ℝ) + 1) := by
    rw [Real.one_le_sqrt]
    have : (0 : ℝ) ≤ D.rows := by positivity
    linarith
  have q2 : Real.sqrt ((D.rows : ℝ) + 1) ≤ 2 ^ 15 := by
    rw [Real.sqrt_le_left (by norm_num)]
    have : (D.rows : ℝ) ≤ 2 ^ 29 := by exact_mod_cast hsz
    linarith
  have δ0 : 0 ≤ δ₁ := by
    obtain ⟨f, f', -, e, r1, c1, hv⟩ := hfft
    obtain ⟨f'', e', r2, c2, -⟩ := FA.fft2_norm (D.map FS.val) hR0 hK0 (C := C) (fun i j hi hj => by rw [Arr2.at'_map _ D hi hj]; exact hD i j hi hj)
    rw [e] at e'
    cases e'
    have r3 : f'.rows = D.rows := r2
    have c3 : f'.cols = D.cols := c2
    exact (norm_nonneg _).trans (hv 0 0 (by omega) (by omega))
  have δq : δ₁ ≤ Real.sqrt ((D.rows : ℝ) + 1) * δ₁ := le_mul_of_one_le_left δ0 q1
  -- the Fourier array
  obtain ⟨G, G', eG, eG', Gr, Gc, Gr', Gc', hG, hny⟩ := FA.pre hrd lib D hR hR0 hK0 C0 (δ := δ₁)
    (by
      have := FA.tiny_Q (C := C) (R := 1) hC (by norm_num)
      rw [mul_one] at this
      have : 0 ≤ uu * C := mul_nonneg uu_pos.le C0
      linarith)
    (by
      refine (mul_le_mul_of_nonneg_left hC' (by norm_num : (0 : ℝ) ≤ 2)).trans ?_
      rw [show (2 : ℝ) * 2 ^ (400 : ℤ) = 2 ^ (401 : ℤ) by rw [← zpow_one_add₀ (by norm_num)]; norm_num]
      exact zpow_le_zpow_right₀ (by norm_num) (by norm_num)) hD (by linarith) hfft
  have hmapv : ∀ i j, i < D.rows + 2 → j < D.cols → (G.map FS.val).at' i j = FS.val (G.at' i j) := fun i j hi hj => Arr2.at'_map _ _ (by omega) (by omega)
  have mr : (G.map FS.val).rows = D.rows + 2 := Gr
  have mc : (G.map FS.val).cols = D.cols := Gc
  have hny' : ∀ m, fAt (G.map FS.val) m ((G.map FS.val).rows / 2) = 0 := by
    intro m
    unfold fAt
    rw [mr, mc, hmapv _ _ (slot_lt' (by omega) _) (slot_lt' hK0 _)]
    convert hny _ (slot_lt' hK0 m)
    rw [Int.emod_eq_of_lt (by omega) (by omega)]
    omega
  -- the convolution
  have hu : Real.sqrt ((D.rows : ℝ) + 1) * (12 * uu * C) ≤ C / 10 := by
    have h1 := FA.uu_le
    have u0 := uu_pos
    calc Real.sqrt ((D.rows : ℝ) + 1) * (12 * uu * C) ≤ 2 ^ 15 * (12 * (1 / 10 ^ 9) * C) := by gcongr
      _ ≤ C / 10 := by linarith
  have hd : ∀ m k, ‖hval (G.map FS.val) m k - hval G' m k‖ ≤ 20 * (Real.sqrt ((D.rows : ℝ) + 1) * (δ₁ + 12 * uu * C)) := fun m k =>
    FA.hval_diff hR hK0 mr mc Gr' Gc' (fun i j hi hj => by rw [hmapv i j hi hj]; exact (hG i j hi hj).1) m k
  obtain ⟨G'', eG'', -, -, hs, -, hb⟩ := sph_prep (D.map FS.val) hR hR0 hK0
  rw [eG'] at eG''
  cases eG''
  have hl : ∀ m k, ‖hval G' m k‖ ≤ 20 * C := fun m k => by
    unfold hval
    refine FA.kern_l2 _ (fun ν => fAt G' m ν) k C0 ?_
    rw [Gr']
    refine le_trans (le_of_eq (sum_congr rfl fun ν hν => ?_)) (FA.sing_l2 (D.map FS.val) hR0 hR hK0 (C := C) (fun i j hi hj => by
      rw [Arr2.at'_map _ D hi hj]; exact hD i j hi hj) m (Ioo (-(((D.rows + 2 : ℕ) : ℤ) / 2)) (((D.rows + 2 : ℕ) : ℤ) / 2)))
    rw [mem_Ioo] at hν
    rw [hs m ν (by rw [abs_le]; show -((((D.rows / 2 : ℕ) : ℤ)) + 1) ≤ ν ∧ ν ≤ ((D.rows / 2 : ℕ) : ℤ) + 1; omega)]
  have conv : ∀ m : ℤ, ∃ h, m.natAbs ≤ M → lib.conv G N m = .ok h ∧ FA.HOK h N (64 * C) ∧
      ∀ k : ℕ, k ≤ N → ‖FS.val (rd h k) - hval G' m k‖ ≤ δ₂ + 20 * (Real.sqrt ((D.rows : ℝ) + 1) * (δ₁ + 12 * uu * C)) := by
    intro m
    by_cases hm : m.natAbs ≤ M
    swap
    · exact ⟨[], fun h => absurd h hm⟩
    obtain ⟨h, h', e1, e2, ll, hv⟩ := hconv G eG m (by rw [Int.abs_eq_natAbs]; omega)
    obtain ⟨h'', e3, l3, v3⟩ := FA.conv_exact (G.map FS.val) N m (by omega) (by omega) (by omega) (by omega) (hny' m)
    rw [e2] at e3
    cases e3
    have err : ∀ k : ℕ, k ≤ N → ‖FS.val (rd h k) - hval G' m k‖ ≤ δ₂ + 20 * (Real.sqrt ((D.rows : ℝ) + 1) * (δ₁ + 12 * uu * C)) := by
      intro k hk
      have a1 := (hv k (by omega)).2
      rw [v3 k hk] at a1
      have a2 := hd m k
      have := norm_sub_le_norm_sub_add_norm_sub (FS.val (rd h k)) (hval (G.map FS.val) m k) (hval G' m k)
      linarith
    refine ⟨h, fun _ => ⟨e1, ⟨by omega, fun i hi => (hv i (by omega)).1, fun i hi => ?_⟩, err⟩⟩
    have a1 := err i hi
    have a2 := hl m i
    have a3 := norm_add_le (FS.val (rd h i) - hval G' m i) (hval G' m i)
    rw [sub_add_cancel] at a3
    have a4 : ‖FS.val (rd h i)‖ ≤ 64 * C / 2 := by
      rw [mul_add] at a1
      linarith
    exact ⟨(Complex.abs_re_le_norm _).trans a4, (Complex.abs_im_le_norm _).trans a4⟩
  choose h hh using conv
  -- the coefficient vector
  have P1 : 2 ^ (-900 : ℤ) ≤ 64 * C := hC.trans (by linarith)
  have P2 : 64 * C ≤ 2 ^ (500 : ℤ) := by
    calc 64 * C ≤ 64 * 2 ^ (400 : ℤ) := mul_le_mul_of_nonneg_left hC' (by norm_num)
      _ ≤ 2 ^ (100 : ℤ) * 2 ^ (400 : ℤ) := mul_le_mul_of_nonneg_right (by norm_num) (by positivity)
      _ = 2 ^ (500 : ℤ) := by rw [← zpow_add₀ (by norm_num)]; norm_num
  have hNC := ncFormula_eq (nmax := N) (mmax := M) (by omega) (by omega)
  rw [show ((N : ℤ) + 1).toNat = N + 1 by omega, Int.toNat_natCast] at hNC
  have full : npFull (ncFormula N M) (0 : FC rnd) = .ok (List.replicate (seg (N + 1) (2 * M + 1)) 0) := by
    unfold npFull
    rw [hNC, if_neg (by omega), Int.toNat_natCast]
  have vec : ∃ v, Fl.backendFcToSc rnd lib b 0 G N M = .ok v ∧
      FA.SegAll (N + 1) v (2 * M + 1) (fun m n z => ‖FS.val z - FA.tgt (h m) m n‖ ≤ FS.coefErr n (64 * C)) := by
    cases b with
    | py =>
      exact FA.fcToSc_py lib hrd (hb0 rfl).1 (hb0 rfl).2 hN hMN P1 (P2.trans (zpow_le_zpow_right₀ (by norm_num) (by norm_num))) fun m hm => ⟨(hh m hm).1, (hh m hm).2.1⟩
    | c J =>
      unfold Fl.backendFcToSc
      simp only
      rw [full]
      simp only [Except.bind_ok]
      exact FA.fcToSc_c lib hrd hN hMN P1 P2 (fun m hm => ⟨(hh m hm).1, (hh m hm).2.1⟩) _ (by simp) (J 0)
  obtain ⟨v, ev, hvl, hvv⟩ := vec
  obtain ⟨ei, hw, hr⟩ := segvec_obj (n := N) (m := M) hMN (v := v) (f := fun m n => rd v (seg (N + 1) (ord m) + (n - m.natAbs))) ⟨hvl, fun _ _ _ _ _ => rfl⟩
  -- the exact transform
  obtain ⟨c, ec, cn, cm, cw, cv⟩ := spht_main .py (D.map FS.val) hR hR0 hK (some N) (some M) N M rfl hMN hNr hMc trivial
  refine ⟨c, ⟨v, N, M⟩, ec, ?_, ScalarCoefs.wf_iff.mp hw, rfl, rfl, fun n m hnm => ?_⟩
  · unfold Fl.spht
    have e1 : SPatt.nrows (⟨.arr D⟩ : SPatt (FC rnd)) = .ok (D.rows / 2 + 1) := rfl
    have e2 : SPatt.ncols (⟨.arr D⟩ : SPatt (FC rnd)) = .ok D.cols := rfl
    have e3 : SPatt.dsphere (⟨.arr D⟩ : SPatt (FC rnd)) = .ok D := rfl
    have e4 : sphtArgs (.ok (D.rows / 2 + 1)) (.ok D.cols) (some (N : ℤ)) (some (M : ℤ)) = .ok ((N : ℤ), (M : ℤ)) := rfl
    rw [e1, e2, e3, e4]
    simp only [Except.bind_ok]
    rw [sphtGuards_ok _ _ _ _ (by omega) (by omega) (by omega) hK]
    simp only [Except.bind_ok]
    rw [eG]
    simp only [Except.bind_ok]
    rw [full]
    simp only [Except.bind_ok]
    rw [ev]
    exact ei
  · have hnm' := hnm
    obtain ⟨h0, h1, h2, h3⟩ := hnm'
    rw [Int.abs_eq_natAbs] at h2 h3
    obtain ⟨n, rfl⟩ := Int.eq_ofNat_of_zero_le (show 0 ≤ n by omega)
    refine ⟨_, _, (readMap_eq cw n m).trans (cv n m hnm), (readMap_eq hw n m).trans (hr n m hnm), ?_⟩
    rw [Int.toNat_natCast, ← hb]
    have b1 := hvv m n (by have := ord_le m; omega) (by omega) (by omega)
    have b2 := FA.tgt_bval (A := G') (h := h m) (n := n) (m := m) (by omega) fun k hk => (hh m (by omega)).2.2 k (by omega)
    have b3 := norm_sub_le_norm_sub_add_norm_sub (FS.val (rd v (seg (N + 1) (ord m) + (n - m.natAbs)))) (FA.tgt (h m) m n) (bval G' m n)
    refine b3.trans ((add_le_add b1 b2).trans ?_)
    unfold FS.coefErr
    exact FA.final_num (by linarith) C0 (le_trans (by norm_num) (FS.rowMax_ge n))

/-- C94: `spht` in double precision.  `lib` is the numerical library: its two-dimensional FFT is within `δ₁` of the exact one on `D`, its fast
convolution within `δ₂` of the exact one on the array it is given, `np.sum` adds in some order, `1j ** m` is accurate up to order
`M` if the Python routines are used (CPython: up to 100; no condition with the C extension).
Then `spht(p, N, M)` of the pattern with doubled samples `D` succeeds with either backend, and every coefficient is within the stated
bound of the coefficient `spht` returns in exact arithmetic on the same samples. -/
theorem c94_spht (hrd : NoOverflow rnd) (lib : Fl.NumLib rnd) (hsum : SumOK lib.sum) (b : Backend)
    (D : Arr2 (FC rnd)) (hR : D.rows % 2 = 0) (hR0 : 0 < D.rows) (hsz : D.rows ≤ 2 ^ 29) (hK : D.cols % 2 = 0) (N M : ℕ) (hj : PowOK b M lib.jp) (hN : N ≤ 1000) (hMN : M ≤ N)
    (hNr : N < D.rows / 2) (hMc : 2 * M < D.cols) (C : ℝ) (hC : 2 ^ (-900 : ℤ) ≤ C) (hC' : C ≤ 2 ^ (400 : ℤ))
    (hD : ∀ i j, i < D.rows → j < D.cols → ‖FS.val (D.at' i j)‖ ≤ C) (δ₁ δ₂ : ℝ) (hδ₁ : Real.sqrt ((D.rows : ℝ) + 1) * δ₁ ≤ C / 4) (hδ₂ : δ₂ ≤ C)
    (hfft : Fft2Within lib.fft δ₁ D) (hconv : ∀ g, Fl.sphtPre rnd lib D = .ok g → ∀ m : ℤ, |m| ≤ M → ConvWithin lib.conv δ₂ g N m) :
    ∃ c ch, spht .py ⟨.arr (D.map FS.val)⟩ (some N) (some M) = .ok c ∧ Fl.spht rnd lib b ⟨.arr D⟩ (some N) (some M) = .ok ch ∧
      ch.WellFormed ∧ ch.nmax = N ∧ ch.mmax = M ∧ ∀ n m : ℤ, IsMode N M n m → ∃ w z, readMap c n m = some w ∧ readMap ch n m = some z ∧
        ‖FS.val z - w‖ ≤ Real.sqrt ((2 * n + 1) / (4 * Real.pi)) *
          ((n + 1) * ((n : ℝ) + 4) ^ 3 * 2 ^ (-43 : ℤ) * C + (2 * n + 1) * (δ₂ + 20 * Real.sqrt ((D.rows : ℝ) + 1) * (δ₁ + 2 ^ (-49 : ℤ) * C))) :=
  FA.spht_core hrd lib b (fun h => ⟨hj h, hsum⟩) D hR hR0 hsz hK hN hMN hNr hMc C hC hC' hD δ₁ δ₂ hδ₁ hδ₂ hfft hconv

/-! ### The hypotheses can be met -/

namespace FA

/-- Left-to-right reversed summation. -/
noncomputable def sumF (rnd : ℝ → ℝ) : List ℝ → ℝ
  | [] => 0
  | [x] => x
  | x :: y :: l => rnd (x + sumF rnd (y :: l))

theorem sumF_ok (l : List ℝ) (h : l ≠ []) : NpSum rnd l (sumF rnd l) := by
  induction l with
  | nil => exact absurd rfl h
  | cons x l ih =>
    cases l with
    | nil => exact NpSum.one x
    | cons y l => exact NpSum.add (l := [x]) (NpSum.one x) (ih (by simp))

/-- A library with exact FFTs, correctly rounded convolution and a fixed order of addition. -/
noncomputable def goodLib (rnd : ℝ → ℝ) : Fl.NumLib rnd where
  jp m := ⟨(Complex.I ^ m).re, (Complex.I ^ m).im⟩
  fft D := (npFft2 (D.map FS.val)).bind fun f => .ok (f.map fun x => ⟨(x / ((D.rows * D.cols : ℕ) : ℂ)).re, (x / ((D.rows * D.cols : ℕ) : ℂ)).im⟩)
  conv G N m := (convExact (G.map FS.val) N m).bind fun h => .ok (h.map fun z => ⟨rnd z.re, rnd z.im⟩)
  sum l := ⟨sumF rnd (l.map FC.re), sumF rnd (l.map FC.im)⟩

theorem goodLib_sum : SumOK (goodLib rnd).sum := fun l h => ⟨sumF_ok _ (by simpa using h), sumF_ok _ (by simpa using h)⟩

theorem goodLib_fft (D : Arr2 (FC rnd)) (hR0 : 0 < D.rows) (hK : 0 < D.cols) : Fft2Within (goodLib rnd).fft 0 D := by
  have e : ∃ f, npFft2 (D.map FS.val) = .ok f := by
    unfold npFft2
    rw [if_neg (by rw [Arr2.rows_map, Arr2.cols_map]; omega)]
    exact ⟨_, rfl⟩
  obtain ⟨f, ef⟩ := e
  refine ⟨f.map fun x => ⟨(x / ((D.rows * D.cols : ℕ) : ℂ)).re, (x / ((D.rows * D.cols : ℕ) : ℂ)).im⟩, f, ?_, ef, rfl, rfl, fun i j hi hj => ?_⟩
  · show (npFft2 (D.map FS.val)).bind _ = _
    rw [ef]; rfl
  · rw [Arr2.at'_map _ f hi hj]
    show ‖f.at' i j / ((D.rows * D.cols : ℕ) : ℂ) - f.at' i j / ((D.rows * D.cols : ℕ) : ℂ)‖ ≤ 0
    rw [sub_self, norm_zero]

theorem goodLib_conv (hrd : NoOverflow rnd) (D : Arr2 (FC rnd)) (hR : D.rows % 2 = 0) (hR0 : 0 < D.rows) (hsz : D.rows ≤ 2 ^ 29) (N M : ℕ) (hMc : 2 * M < D.cols)
    (C : ℝ) (hC : 2 ^ (-900 : ℤ) ≤ C) (hC' : C ≤ 2 ^ (400 : ℤ)) (hD : ∀ i j, i < D.rows → j < D.cols → ‖FS.val (D.at' i j)‖ ≤ C) :
    ∀ g, Fl.sphtPre rnd (goodLib rnd) D = .ok g → ∀ m : ℤ, |m| ≤ M → ConvWithin (goodLib rnd).conv (2 ^ (-45 : ℤ) * C) g N m := by
  intro g hg m hm
  have hK0 : 0 < D.cols := by omega
  have C0 : 0 ≤ C := le_trans (by positivity) hC
  have tq := FA.tiny_Q (C := C) (R := 1) hC (by norm_num)
  rw [mul_one] at tq
  have uC : 0 ≤ uu * C := mul_nonneg uu_pos.le C0
  obtain ⟨G, G', eG, eG', Gr, Gc, Gr', Gc', hG, hny⟩ := FA.pre hrd (goodLib rnd) D hR hR0 hK0 C0 (by linarith)
    (by
      refine (mul_le_mul_of_nonneg_left hC' (by norm_num : (0 : ℝ) ≤ 2)).trans ?_
      rw [show (2 : ℝ) * 2 ^ (400 : ℤ) = 2 ^ (401 : ℤ) by rw [← zpow_one_add₀ (by norm_num)]; norm_num]
      exact zpow_le_zpow_right₀ (by norm_num) (by norm_num)) hD C0 (goodLib_fft D hR0 hK0)
  rw [hg] at eG
  cases eG
  have hmapv : ∀ i j, i < D.rows + 2 → j < D.cols → (g.map FS.val).at' i j = FS.val (g.at' i j) := fun i j hi hj => Arr2.at'_map _ _ (by omega) (by omega)
  have mr : (g.map FS.val).rows = D.rows + 2 := Gr
  have mc : (g.map FS.val).cols = D.cols := Gc
  have hny' : fAt (g.map FS.val) m ((g.map FS.val).rows / 2) = 0 := by
    unfold fAt
    rw [mr, mc, hmapv _ _ (slot_lt' (by omega) _) (slot_lt' hK0 _)]
    convert hny _ (slot_lt' hK0 m)
    rw [Int.emod_eq_of_lt (by omega) (by omega)]
    omega
  have hm1 := abs_le.mp hm
  obtain ⟨h, eh, lh, vh⟩ := conv_exact (g.map FS.val) N m (by omega) (by omega) (by omega) (by omega) hny'
  refine ⟨h.map fun z => ⟨rnd z.re, rnd z.im⟩, h, ?_, eh, by simp, fun i hi => ?_⟩
  · show (convExact (g.map FS.val) N m).bind _ = _
    rw [eh]; rfl
  rw [List.length_map] at hi
  have e : rd (h.map fun z => (⟨rnd z.re, rnd z.im⟩ : FC rnd)) i = ⟨rnd (rd h i).re, rnd (rd h i).im⟩ := by
    unfold rd
    simp [hi]
  rw [e]
  refine ⟨⟨hrd.idem _, hrd.idem _⟩, ?_⟩
  obtain ⟨G'', eG'', -, -, hs, -, -⟩ := sph_prep (D.map FS.val) hR hR0 hK0
  rw [eG'] at eG''
  cases eG''
  have q2 : Real.sqrt ((D.rows : ℝ) + 1) ≤ 2 ^ 15 := by
    rw [Real.sqrt_le_left (by norm_num)]
    have : (D.rows : ℝ) ≤ 2 ^ 29 := by exact_mod_cast hsz
    linarith
  have b : ‖rd h i‖ ≤ 22 * C := by
    rw [vh i (by omega)]
    have b1 : ‖hval G' m i‖ ≤ 20 * C := by
      unfold hval
      refine FA.kern_l2 _ (fun ν => fAt G' m ν) i C0 ?_
      rw [Gr']
      refine le_trans (le_of_eq (sum_congr rfl fun ν hν => ?_)) (FA.sing_l2 (D.map FS.val) hR0 hR hK0 (C := C) (fun i j hi hj => by
        rw [Arr2.at'_map _ D hi hj]; exact hD i j hi hj) m (Ioo (-(((D.rows + 2 : ℕ) : ℤ) / 2)) (((D.rows + 2 : ℕ) : ℤ) / 2)))
      rw [mem_Ioo] at hν
      rw [hs m ν (by rw [abs_le]; show -((((D.rows / 2 : ℕ) : ℤ)) + 1) ≤ ν ∧ ν ≤ ((D.rows / 2 : ℕ) : ℤ) + 1; omega)]
    have b2 := hval_diff (A := g.map FS.val) (A' := G') hR hK0 mr mc Gr' Gc' (fun i j hi hj => by rw [hmapv i j hi hj]; exact (hG i j hi hj).1) m i
    have b3 : Real.sqrt ((D.rows : ℝ) + 1) * (0 + 12 * uu * C) ≤ C / 10 := by
      have h1 := FA.uu_le
      have u0 := uu_pos
      calc Real.sqrt ((D.rows : ℝ) + 1) * (0 + 12 * uu * C) ≤ 2 ^ 15 * (0 + 12 * (1 / 10 ^ 9) * C) := by gcongr
        _ ≤ C / 10 := by linarith
    have b4 := norm_add_le (hval (g.map FS.val) m i - hval G' m i) (hval G' m i)
    rw [sub_add_cancel] at b4
    linarith
  have re : ∀ x, |x| ≤ 22 * C → |rnd x - x| ≤ uu * |x| + tiny / 2 := by
    intro x hx
    refine rnd_err hrd.toIsRounding (hx.trans ?_)
    calc 22 * C ≤ 22 * 2 ^ (400 : ℤ) := mul_le_mul_of_nonneg_left hC' (by norm_num)
      _ ≤ 2 ^ (100 : ℤ) * 2 ^ (400 : ℤ) := mul_le_mul_of_nonneg_right (by norm_num) (by positivity)
      _ = 2 ^ (500 : ℤ) := by rw [← zpow_add₀ (by norm_num)]; norm_num
      _ ≤ 2 ^ (1022 : ℤ) := zpow_le_zpow_right₀ (by norm_num) (by norm_num)
  clear hC hC' hsz
  have x1 := (Complex.abs_re_le_norm (rd h i)).trans b
  have x2 := (Complex.abs_im_le_norm (rd h i)).trans b
  have r1 := re _ x1
  have r2 := re _ x2
  refine (Complex.norm_le_abs_re_add_abs_im _).trans ?_
  rw [Complex.sub_re, Complex.sub_im]
  show |rnd (rd h i).re - (rd h i).re| + |rnd (rd h i).im - (rd h i).im| ≤ _
  have u0 := uu_pos
  have y1 := mul_le_mul_of_nonneg_left x1 u0.le
  have y2 := mul_le_mul_of_nonneg_left x2 u0.le
  have hu : (2 : ℝ) ^ (-45 : ℤ) = 256 * uu := by unfold uu; norm_num
  rw [hu]
  linarith

end FA

/-- Not vacuous: an 8 by 8 array of different samples, analysed with `nmax = 3`, `mmax = 2` by the C library; every coefficient is correct to `2^-28`. -/
example : ∃ (rnd : ℝ → ℝ) (lib : Fl.NumLib rnd) (D : Arr2 (FC rnd)) (c : ScalarCoefs ℂ) (ch : ScalarCoefs (FC rnd)), NoOverflow rnd ∧ D.rows = 8 ∧ D.cols = 8 ∧ D.at' 3 5 = ⟨3, 5⟩ ∧
    spht .py ⟨.arr (D.map FS.val)⟩ (some 3) (some 2) = .ok c ∧ Fl.spht rnd lib (.c fun _ => ⟨fun _ => 0, fun _ => 0, fun _ => 0⟩) ⟨.arr D⟩ (some 3) (some 2) = .ok ch ∧ ch.WellFormed ∧
    ∀ n m : ℤ, IsMode 3 2 n m → ∃ w z, readMap c n m = some w ∧ readMap ch n m = some z ∧ ‖FS.val z - w‖ ≤ 2 ^ (-28 : ℤ) := by
  obtain ⟨rnd, h⟩ := noOverflow_exists
  have hC : (2 : ℝ) ^ (-900 : ℤ) ≤ 16 := (zpow_le_one_of_nonpos₀ (by norm_num) (by norm_num)).trans (by norm_num)
  have hC' : (16 : ℝ) ≤ 2 ^ (400 : ℤ) := by
    rw [show (16 : ℝ) = 2 ^ (4 : ℤ) by norm_num]; exact zpow_le_zpow_right₀ (by norm_num) (by norm_num)
  obtain ⟨D, eD⟩ : ∃ D : Arr2 (FC rnd), D = Arr2.ofFn 8 8 fun i j => ⟨i, j⟩ := ⟨_, rfl⟩
  have hr : D.rows = 8 := by subst eD; rfl
  have hc : D.cols = 8 := by subst eD; rfl
  have hD : ∀ i j, i < D.rows → j < D.cols → ‖FS.val (D.at' i j)‖ ≤ 16 := by
    intro i j hi hj
    rw [hr] at hi
    rw [hc] at hj
    rw [eD, Arr2.at'_ofFn hi hj]
    refine (Complex.norm_le_abs_re_add_abs_im _).trans ?_
    show |(i : ℝ)| + |(j : ℝ)| ≤ 16
    rw [abs_of_nonneg (by positivity), abs_of_nonneg (by positivity)]
    have a : (i : ℝ) ≤ 8 := by exact_mod_cast hi.le
    have b : (j : ℝ) ≤ 8 := by exact_mod_cast hj.le
    linarith
  have hconv := FA.goodLib_conv h D (by omega) (by omega) (by omega) 3 2 (by omega) 16 hC hC' hD
  obtain ⟨c, ch, e1, e2, e3, -, -, e4⟩ := c94_spht h (FA.goodLib rnd) FA.goodLib_sum (.c fun _ => ⟨fun _ => 0, fun _ => 0, fun _ => 0⟩) D (by omega) (by omega)
    (by omega) (by omega) 3 2 (PowOK.c _ _ _) (by norm_num) (by norm_num) (by omega) (by omega) 16 hC hC' hD 0 _ (by norm_num) (by norm_num) (FA.goodLib_fft D (by omega) (by omega)) hconv
  refine ⟨rnd, FA.goodLib rnd, D, c, ch, h, hr, hc, by subst eD; rfl, e1, e2, e3, fun n m hm => ?_⟩
  obtain ⟨w, z, f1, f2, f3⟩ := e4 n m hm
  refine ⟨w, z, f1, f2, f3.trans ?_⟩
  obtain ⟨h0, h1, -, -⟩ := hm
  have n0 : (0 : ℝ) ≤ n := by exact_mod_cast h0
  have n1 : (n : ℝ) ≤ 3 := by exact_mod_cast h1
  have hs : Real.sqrt ((2 * n + 1) / (4 * Real.pi)) ≤ 1 := by
    apply Real.sqrt_le_iff.mpr
    refine ⟨by norm_num, ?_⟩
    rw [one_pow, div_le_one (by positivity)]
    linarith [Real.pi_gt_three]
  rw [hr]
  have hp : ((n : ℝ) + 4) ^ 3 ≤ 7 ^ 3 := pow_le_pow_left₀ (by linarith) (by linarith) 3
  have hx : ((n : ℝ) + 1) * ((n : ℝ) + 4) ^ 3 ≤ 4 * 7 ^ 3 := mul_le_mul (by linarith) hp (by positivity) (by norm_num)
  refine (mul_le_mul hs le_rfl (by positivity) (by norm_num)).trans ?_
  have h9 : Real.sqrt (((8 : ℕ) : ℝ) + 1) = 3 := by
    rw [show (((8 : ℕ) : ℝ) + 1) = 3 ^ 2 by norm_num, Real.sqrt_sq (by norm_num)]
  rw [h9]
  generalize ((n : ℝ) + 1) * ((n : ℝ) + 4) ^ 3 = X at hx ⊢
  norm_num at hx ⊢
  linarith

end Verif.Props
