import Verif.Props.FloatPy1
/-!
# `hkm_fc` of pysphi.py in doubles
-/
namespace Verif.Props
open Verif Finset

variable {rnd : ℝ → ℝ}

namespace FP
open FK

/-- The exact transform of `npFft`. -/
noncomputable def dft (Q : ℕ) (f : ℕ → ℂ) (k : ℕ) : ℂ := ∑ j ∈ range Q, f j * root Q (-(j * k : Int))

theorem root_le (Q : ℕ) (j : ℤ) : ‖root Q j‖ ≤ 1 := by
  have := twd_norm true Q j
  unfold twd at this
  simpa using this

theorem dft_le (Q : ℕ) (f : ℕ → ℂ) (k : ℕ) {X : ℝ} (h : ∑ j ∈ range Q, ‖f j‖ ≤ X) : ‖dft Q f k‖ ≤ X :=
  (sum_tw_w (n := Q) (f := f) (w := fun j => root Q (-(j * k : Int))) (x := fun j => ‖f j‖) (fun _ _ => le_rfl) (fun _ => root_le _ _)).trans h

theorem rd_map {l : List (FC rnd)} {i : ℕ} (hi : i < l.length) : rd (l.map FS.val) i = FS.val (rd l i) := by
  simp [rd, hi]

theorem fft_ok {np : Fl.Fft1 rnd} {κ : ℝ} {Q : ℕ} (h : Fft1Within np κ Q) (x : List (FC rnd)) (hx : x.length = Q) (hb : ∀ j, j < Q → ‖FS.val (rd x j)‖ ≤ 2 ^ (900 : ℤ)) :
    ∃ y, np.fft x = .ok y ∧ y.length = Q ∧ ∀ k, k < Q →
      ‖FS.val (rd y k) - dft Q (fun j => FS.val (rd x j)) k‖ ≤ κ * (∑ j ∈ range Q, ‖FS.val (rd x j)‖ + Q * 2 ^ (-900 : ℤ)) := by
  obtain ⟨y, y', e, e', l, hv⟩ := h.fft x hx hb
  refine ⟨y, e, l, fun k hk => ?_⟩
  have := hv k hk
  unfold npFft at e'
  rw [List.length_map, hx, if_neg (by omega)] at e'
  cases e'
  rw [rd_tab hk] at this
  unfold dft
  have e2 : ∑ j ∈ range Q, FS.val (rd x j) * root Q (-(j * k : Int)) = ∑ j ∈ range Q, rd (x.map FS.val) j * root Q (-(j * k : Int)) :=
    sum_congr rfl fun j hj => by rw [rd_map (by rw [hx]; exact mem_range.mp hj)]
  rw [e2]
  exact this

theorem ifft_ok {np : Fl.Fft1 rnd} {κ : ℝ} {Q : ℕ} (h : Fft1Within np κ Q) (x : List (FC rnd)) (hx : x.length = Q) (hb : ∀ j, j < Q → ‖FS.val (rd x j)‖ ≤ 2 ^ (900 : ℤ)) :
    ∃ y, np.ifft x = .ok y ∧ y.length = Q ∧ ∀ k, k < Q →
      ‖FS.val (rd y k) - (∑ j ∈ range Q, FS.val (rd x j) * root Q (j * k : Int)) / Q‖ ≤ κ * (∑ j ∈ range Q, ‖FS.val (rd x j)‖ + Q * 2 ^ (-900 : ℤ)) / Q := by
  obtain ⟨y, y', e, e', l, hv⟩ := h.ifft x hx hb
  refine ⟨y, e, l, fun k hk => ?_⟩
  have := hv k hk
  unfold npIfft at e'
  rw [List.length_map, hx, if_neg (by omega)] at e'
  cases e'
  rw [rd_tab hk] at this
  have e2 : ∑ j ∈ range Q, FS.val (rd x j) * root Q (j * k : Int) = ∑ j ∈ range Q, rd (x.map FS.val) j * root Q (j * k : Int) :=
    sum_congr rfl fun j hj => by rw [rd_map (by rw [hx]; exact mem_range.mp hj)]
  rw [e2]
  exact this

/-- The transform of the kernel table. -/
theorem kern_err {np : Fl.Fft1 rnd} {κ σ : ℝ} {Q mm : ℕ} (h : Fft1Within np κ Q) (hQ31 : Q ≤ 2 ^ 31) (s : List ℂ) (t : List (FC rnd)) (tl : t.length = Q) (kt : KT mm Q s t) (hσ : 1 ≤ σ)
    (hκ : 175 * uu ≤ κ) (hsum : ∑ i ∈ range Q, ‖rd s i‖ ≤ σ) :
    ∃ y, np.fft t = .ok y ∧ y.length = Q ∧ ∀ k, k < Q → ‖FS.val (rd y k) - dft Q (rd s) k‖ ≤ 1.03 * (σ * κ) := by
  have u0 := uu_pos
  have u1 := uu_le16
  have κ0 : 0 < κ := by linarith
  have hsn : ∀ i, ‖rd s i‖ = |(rd s i).im| := fun i => by
    have := (kt.2 i).1
    rw [← Complex.re_add_im (rd s i), this]
    simp
  have hd : ∀ i, ‖FS.val (rd t i) - rd s i‖ ≤ 2 * uu * ‖rd s i‖ := fun i => by
    obtain ⟨a1, a2, a3, a4, a5⟩ := kt.2 i
    have : FS.val (rd t i) - rd s i = (((rd t i).im - (rd s i).im : ℝ) : ℂ) * Complex.I := by
      apply Complex.ext
      · simp [FS.val, a1, a2]
      · simp [FS.val]
    rw [this, norm_mul, Complex.norm_I, mul_one, Complex.norm_real, Real.norm_eq_abs, hsn]
    exact a5
  have s1 : ∀ i, ‖rd s i‖ ≤ 1 := fun i => by rw [hsn]; exact (kt.2 i).2.2.1
  have htn : ∀ i, ‖FS.val (rd t i)‖ ≤ (1 + 2 * uu) * ‖rd s i‖ := fun i => by
    have := norm_add_le (FS.val (rd t i) - rd s i) (rd s i)
    rw [sub_add_cancel] at this
    linarith [hd i]
  obtain ⟨y, e, l, hv⟩ := fft_ok h t tl (fun j _ => by
    have h4 : (4 : ℝ) ≤ 2 ^ (900 : ℤ) := (by norm_num : (4 : ℝ) ≤ 2 ^ (2 : ℤ)).trans (zpow_le_zpow_right₀ (by norm_num) (by norm_num))
    refine le_trans ?_ h4
    clear h4
    have h1 : (1 + 2 * uu) * ‖rd s j‖ ≤ (1 + 2 * uu) * 1 := mul_le_mul_of_nonneg_left (s1 j) (by linarith)
    have hu : uu ≤ 1 / 100 := u1.trans (by norm_num)
    refine ((htn j).trans h1).trans ?_
    linarith)
  refine ⟨y, e, l, fun k hk => ?_⟩
  have a1 := hv k hk
  have a2 : ‖dft Q (fun j => FS.val (rd t j)) k - dft Q (rd s) k‖ ≤ 2 * uu * σ := by
    unfold dft
    rw [← sum_sub_distrib, sum_congr rfl fun p _ => (sub_mul _ _ _).symm]
    refine (sum_tw_w (fun j _ => hd j) (fun j => root_le _ _)).trans ?_
    rw [← mul_sum]
    exact mul_le_mul_of_nonneg_left hsum (by linarith)
  have a3 := norm_add_le (FS.val (rd y k) - dft Q (fun j => FS.val (rd t j)) k) (dft Q (fun j => FS.val (rd t j)) k - dft Q (rd s) k)
  rw [sub_add_sub_cancel] at a3
  have z2 : (2 : ℝ) ^ (-900 : ℤ) ≤ 1 / 10 ^ 18 := (zpow_le_zpow_right₀ (by norm_num) (by norm_num : (-900 : ℤ) ≤ -60)).trans (by norm_num)
  have a4 : ∑ j ∈ range Q, ‖FS.val (rd t j)‖ + Q * 2 ^ (-900 : ℤ) ≤ 1.01 * σ := by
    have q1 : (Q : ℝ) ≤ 2 ^ 31 := by exact_mod_cast hQ31
    have q2 : (Q : ℝ) * 2 ^ (-900 : ℤ) ≤ 2 ^ 31 * (1 / 10 ^ 18) := mul_le_mul q1 z2 (by positivity) (by positivity)
    have q3 : ∑ j ∈ range Q, ‖FS.val (rd t j)‖ ≤ (1 + 2 * uu) * ∑ j ∈ range Q, ‖rd s j‖ := by
      rw [mul_sum]; exact sum_le_sum fun j _ => htn j
    have q4 : (1 + 2 * uu) * ∑ j ∈ range Q, ‖rd s j‖ ≤ (1 + 1 / 1000) * σ := mul_le_mul (by linarith) hsum (sum_nonneg fun _ _ => norm_nonneg _) (by norm_num)
    refine (add_le_add (q3.trans q4) q2).trans ?_
    clear z2 q2 a1
    linarith
  have a5 : κ * (∑ j ∈ range Q, ‖FS.val (rd t j)‖ + Q * 2 ^ (-900 : ℤ)) ≤ κ * (1.01 * σ) := mul_le_mul_of_nonneg_left a4 κ0.le
  refine a3.trans ((add_le_add (a1.trans a5) a2).trans ?_)
  clear a5 a4 a1 z2
  have a6 : σ * (175 * uu) ≤ σ * κ := mul_le_mul_of_nonneg_left hκ (by linarith)
  have a7 : 0 ≤ σ * uu := mul_nonneg (by linarith) u0.le
  nlinarith

theorem rd_slice {α : Type} [Zero α] (l : List α) (N k : ℕ) (hl : N + 1 ≤ l.length) (hk : k ≤ N) :
    (getSlice l 0 ((N : ℤ) + 1)).length = N + 1 ∧ rd (getSlice l 0 ((N : ℤ) + 1)) k = rd l k := by
  constructor
  · rw [length_getSlice (by omega) (by omega) (by omega)]; omega
  · rw [getSlice_of_le (by omega) (by omega) (by omega)]
    simp only [Int.toNat_zero, List.drop_zero, rd, List.getD_eq_getElem?_getD]
    rw [List.getElem?_take_of_lt (by omega)]

theorem hkm_err (hrd : NoOverflow rnd) {np : Fl.Fft1 rnd} (A : Arr2 (FC rnd)) (Nmax Q : ℕ) (m : ℤ) (s : List ℂ) (t : List (FC rnd)) (hL : A.rows % 2 = 0) (hL0 : 0 < A.rows)
    (hQ : A.rows + Nmax ≤ Q) (hQ30 : Q ≤ 2 ^ 30) (hs : KernTable A.rows Nmax Q s) (tl : t.length = Q) (kt : KT (A.rows / 2) Q s t) {σ κ X : ℝ} (hσ : 1 ≤ σ) (hσ' : σ ≤ 2 ^ 30)
    (hs1 : ∑ i ∈ range Q, ‖rd s i‖ ≤ σ) (hκ : 175 * uu ≤ κ) (hκ' : κ ≤ 1 / 100) (hnp : Fft1Within np κ Q)
    (hm1 : -(A.cols : ℤ) ≤ m) (hm2 : m < A.cols) (hny : fAt (A.map FS.val) m (A.rows / 2) = 0)
    (hX : 2 ^ (-800 : ℤ) ≤ X) (hX' : X ≤ 2 ^ (800 : ℤ)) (hA : ∑ i ∈ range A.rows, ‖FS.val (A.at' i (m % A.cols).toNat)‖ + Q * 2 ^ (-900 : ℤ) ≤ X) :
    ∃ h, Fl.hkmFc rnd np A Nmax m t = .ok h ∧ h.length = Nmax + 1 ∧ ∀ k : ℕ, k ≤ Nmax → (rnd (rd h k).re = (rd h k).re ∧ rnd (rd h k).im = (rd h k).im) ∧
        ‖FS.val (rd h k) - hval (A.map FS.val) m k‖ ≤ 40 * (σ * X * κ) := by
  have hr := hrd.toIsRounding
  have hQ0 : 0 < Q := by omega
  have q1 : (1 : ℝ) ≤ Q := by exact_mod_cast hQ0
  have q0 : (0 : ℝ) < Q := by linarith
  have X0 : 0 < X := lt_of_lt_of_le (by positivity) hX
  have σ0 : 0 < σ := by linarith
  have κ0 : 0 < κ := by linarith [uu_pos]
  have hs30 : σ ≤ 2 ^ (30 : ℤ) := by exact_mod_cast hσ'
  have b2 : σ * X ≤ 2 ^ (860 : ℤ) := zpow_mul_le (by positivity) hs30 hX' (by norm_num)
  have C0 : 0 < σ * X := by positivity
  have b4 : 1.03 * (σ * X) ≤ 2 ^ (900 : ℤ) := le_trans (by nlinarith : 1.03 * (σ * X) ≤ 4 * (σ * X)) (four_le b2 (by norm_num))
  have b5 : 1.03 * (σ * X) ≤ 2 ^ (1018 : ℤ) := b4.trans (zpow_le_zpow_right₀ (by norm_num) (by norm_num))
  have hX9 : 2 ^ (-900 : ℤ) ≤ X := (zpow_le_zpow_right₀ (by norm_num) (by norm_num)).trans hX
  obtain ⟨c, hc⟩ : ∃ c : ℕ, c = (m % A.cols).toNat := ⟨_, rfl⟩
  have hcl : c < A.cols := by rw [hc]; exact slot_lt' (by omega) _
  have hcol : Fl.colOf rnd A m = .ok (tab A.rows fun i => A.at' i c) := by
    unfold Fl.colOf
    rw [if_pos ⟨hm1, hm2⟩]
    have : Arr2.wrap A.cols m = c := by rw [hc, wrap_mod hm1 hm2]; unfold Arr2.wrap; split <;> rfl
    rw [this]
  unfold Fl.hkmFc
  rw [hcol]
  simp only [Except.bind_ok, length_tab, tl]
  rw [if_neg (by omega)]
  obtain ⟨M, hM⟩ : ∃ M, M = A.rows / 2 := ⟨_, rfl⟩
  rw [← hM]
  have hrM : A.rows = M + M := by omega
  obtain ⟨f1, hf1⟩ : ∃ f1, f1 = tab Q fun n => if n < M then rd (tab A.rows fun i => A.at' i c) (n + M) else if n < A.rows then rd (tab A.rows fun i => A.at' i c) (n - M) else 0 := ⟨_, rfl⟩
  rw [← hf1]
  have f1l : f1.length = Q := by rw [hf1]; simp
  have fv : ∀ i, i < M → rd f1 i = A.at' (i + M) c ∧ rd f1 (M + i) = A.at' i c := by
    intro i hi
    constructor
    · rw [hf1, rd_tab (by omega), if_pos hi, rd_tab (by omega)]
    · rw [hf1, rd_tab (by omega), if_neg (by omega), if_pos (by omega), show M + i - M = i by omega, rd_tab (by omega)]
  have fz : ∀ i, A.rows ≤ i → rd f1 i = 0 := by
    intro i hi
    by_cases hq : i < Q
    · rw [hf1, rd_tab hq, if_neg (by omega), if_neg (by omega)]
    · rw [rd_out (by omega)]
  have hsum : ∑ i ∈ range Q, ‖FS.val (rd f1 i)‖ = ∑ i ∈ range A.rows, ‖FS.val (A.at' i c)‖ := by
    have z : ∑ i ∈ range (Q - A.rows), ‖FS.val (rd f1 (A.rows + i))‖ = 0 := sum_eq_zero fun i _ => by
      rw [fz _ (by omega), FS.val_zero, norm_zero]
    rw [show Q = A.rows + (Q - A.rows) by omega, sum_range_add, z, add_zero, hrM, sum_range_add, sum_range_add, add_comm]
    congr 1
    · refine sum_congr rfl fun i hi => ?_
      rw [(fv i (mem_range.mp hi)).2]
    · refine sum_congr rfl fun i hi => ?_
      rw [(fv i (mem_range.mp hi)).1, add_comm]
  have hwsum : ∑ i ∈ range Q, ‖FS.val (rd f1 i)‖ + Q * 2 ^ (-900 : ℤ) ≤ X := by rw [hsum, hc]; exact hA
  have hwX : ∀ i, i < Q → ‖FS.val (rd f1 i)‖ ≤ X := fun i hi =>
    ((single_le_sum (f := fun i => ‖FS.val (rd f1 i)‖) (fun _ _ => norm_nonneg _) (mem_range.mpr hi)).trans (le_add_of_nonneg_right (by positivity))).trans hwsum
  obtain ⟨f2, e2, l2, v2'⟩ := fft_ok hnp f1 f1l fun j hj => (hwX j hj).trans (hX'.trans (zpow_le_zpow_right₀ (by norm_num) (by norm_num)))
  rw [e2]
  simp only [Except.bind_ok]
  obtain ⟨ss, e3, l3, v3'⟩ := kern_err hnp (by omega) s t tl kt hσ hκ hs1
  rw [e3]
  simp only [Except.bind_ok]
  rw [ScalarCoefs.bcast_eq _ (by omega)]
  simp only [Except.bind_ok]
  obtain ⟨f3, hf3⟩ : ∃ f3, f3 = List.zipWith (fun x y : FC rnd => x * y) f2 ss := ⟨_, rfl⟩
  have f3l : f3.length = Q := by rw [hf3]; simp; omega
  have e4 : (List.zipWith (fun x1 x2 : FC rnd => x1 * x2) f2 ss) = f3 := hf3.symm
  rw [e4]
  obtain ⟨F, hFdef⟩ : ∃ F : ℕ → ℂ, F = dft Q fun j => FS.val (rd f1 j) := ⟨_, rfl⟩
  obtain ⟨S, hSdef⟩ : ∃ S : ℕ → ℂ, S = dft Q (rd s) := ⟨_, rfl⟩
  have nF : ∀ k, ‖F k‖ ≤ X := fun k => by rw [hFdef]; exact dft_le Q _ k ((le_add_of_nonneg_right (by positivity)).trans hwsum)
  have nS : ∀ k, ‖S k‖ ≤ σ := fun k => by rw [hSdef]; exact dft_le Q _ k hs1
  have mcomm : ∀ a b : FC rnd, a * b = b * a := by
    intro a b
    show (⟨_, _⟩ : FC rnd) = ⟨_, _⟩
    rw [mul_comm a.re b.re, mul_comm a.im b.im, mul_comm a.re b.im, mul_comm a.im b.re, add_comm (rnd (b.im * a.re))]
  have v3 : ∀ k, k < Q → ‖FS.val (rd f3 k) - F k * S k‖ ≤ 2.08 * (σ * X * κ) ∧ ‖FS.val (rd f3 k)‖ ≤ 1.03 * (σ * X) := by
    intro k hk
    have ez : rd f3 k = rd ss k * rd f2 k := by
      rw [mcomm, hf3]
      simp [rd, List.getD_eq_getElem?_getD, l2, l3, hk]
    rw [ez]
    have a1 := v3' k hk
    have a2 := (v2' k hk).trans (mul_le_mul_of_nonneg_left hwsum κ0.le)
    rw [← hSdef] at a1
    rw [← hFdef, mul_comm] at a2
    exact prod_err hr hσ hX9 b5 hκ hκ' a1 (nS k) a2 (nF k)
  obtain ⟨f4, e5, l4, v4⟩ := ifft_ok hnp f3 f3l fun j hj => (v3 j hj).2.trans b4
  rw [e5]
  simp only [Except.bind_ok]
  obtain ⟨g, hg⟩ : ∃ g : ℕ → ℂ, g = fun k : ℕ => (∑ p ∈ range Q, F p * S p * root Q (p * k : Int)) / Q := ⟨_, rfl⟩
  have nFS : ∀ p, ‖F p * S p‖ ≤ σ * X := fun p => by
    rw [norm_mul, mul_comm]
    exact mul_le_mul (nS p) (nF p) (norm_nonneg _) (by linarith)
  have divQ : ∀ {z : ℂ} {Y : ℝ}, ‖z‖ ≤ Q * Y → ‖z / Q‖ ≤ Y := by
    intro z Y h
    rw [norm_div, Complex.norm_natCast, div_le_iff₀ q0]
    linarith
  have ng : ∀ k, ‖g k‖ ≤ σ * X := fun k => by
    rw [hg]
    exact divQ (sum_tw_le (fun p _ => nFS p) (fun p => root_le _ _))
  have small : (2 : ℝ) ^ (-900 : ℤ) ≤ 1 / 100 * (σ * X) := by
    have h1 : (2 : ℝ) ^ (-900 : ℤ) ≤ 2 ^ (-100 : ℤ) * 2 ^ (-800 : ℤ) := by rw [← zpow_add₀ (by norm_num)]; exact zpow_le_zpow_right₀ (by norm_num) (by norm_num)
    have h2 : (2 : ℝ) ^ (-100 : ℤ) * 2 ^ (-800 : ℤ) ≤ 1 / 100 * (σ * X) :=
      mul_le_mul (by norm_num) (hX.trans (le_mul_of_one_le_left X0.le hσ)) (by positivity) (by norm_num)
    exact h1.trans h2
  have v5 : ∀ k, k < Q → ‖FS.val (rd f4 k) - g k‖ ≤ 3.12 * ((σ * X) * κ) := by
    intro k hk
    have a1 := v4 k hk
    have a0 : κ * (∑ j ∈ range Q, ‖FS.val (rd f3 j)‖ + Q * 2 ^ (-900 : ℤ)) / Q ≤ κ * (1.04 * (σ * X)) := by
      rw [mul_div_assoc]
      refine mul_le_mul_of_nonneg_left ?_ κ0.le
      rw [div_le_iff₀ q0]
      have h1 : ∑ j ∈ range Q, ‖FS.val (rd f3 j)‖ ≤ Q * (1.03 * (σ * X)) := by
        calc _ ≤ ∑ j ∈ range Q, 1.03 * (σ * X) := sum_le_sum fun j hj => (v3 j (mem_range.mp hj)).2
          _ = _ := by rw [sum_const, card_range, nsmul_eq_mul]
      have h2 : (Q : ℝ) * 2 ^ (-900 : ℤ) ≤ Q * (1 / 100 * (σ * X)) := mul_le_mul_of_nonneg_left small q0.le
      refine (add_le_add h1 h2).trans (le_of_eq ?_)
      ring
    have a2 : ‖(∑ p ∈ range Q, FS.val (rd f3 p) * root Q (p * k : Int)) / Q - g k‖ ≤ 2.08 * (σ * X * κ) := by
      rw [hg]
      simp only
      rw [← sub_div]
      refine divQ ?_
      rw [← sum_sub_distrib, sum_congr rfl fun p _ => (sub_mul _ _ _).symm]
      exact sum_tw_le (fun p hp => (v3 p hp).1) (fun p => root_le _ _)
    have a3 := norm_add_le (FS.val (rd f4 k) - (∑ p ∈ range Q, FS.val (rd f3 p) * root Q (p * k : Int)) / Q) ((∑ p ∈ range Q, FS.val (rd f3 p) * root Q (p * k : Int)) / Q - g k)
    rw [sub_add_sub_cancel] at a3
    refine a3.trans ((add_le_add (a1.trans a0) a2).trans (le_of_eq ?_))
    ring
  refine ⟨_, rfl, (rd_slice _ Nmax 0 (by simp; omega) (by omega)).1, fun k hk => ?_⟩
  rw [(rd_slice _ Nmax k (by simp; omega) hk).2]
  have hmap : rd (f4.map fun x => (⟨Fl.pyFourPi rnd, 0⟩ : FC rnd) * x) k = (⟨Fl.pyFourPi rnd, 0⟩ : FC rnd) * rd f4 k := by
    have : k < f4.length := by omega
    simp [rd, this]
  rw [hmap]
  refine ⟨⟨hrd.idem _, hrd.idem _⟩, ?_⟩
  have hval_eq : hval (A.map FS.val) m k = 4 * Real.pi * g k := by
    unfold hval
    change 4 * (Real.pi : ℂ) * ∑ ν ∈ Ioo (-((A.rows : ℤ) / 2)) ((A.rows : ℤ) / 2), fAt (A.map FS.val) m ν * Skern (k - ν) = _
    rw [← conv_core A.rows Nmax Q hL hQ s hs (fAt (A.map FS.val) m) (fun i => FS.val (rd f1 i)) ?_ ?_ ?_ k hk]
    · rw [← cyc_conv hQ0, hg, hFdef, hSdef]
      rfl
    · have := (fv 0 (by omega)).1
      rw [this, zero_add]
      unfold fAt at hny
      change (A.map FS.val).at' (((A.rows : ℤ) / 2) % A.rows).toNat (m % A.cols).toNat = 0 at hny
      rw [Int.emod_eq_of_lt (by omega) (by omega), ← hc, Arr2.at'_map _ _ (by omega) hcl] at hny
      rw [← hny, show (A.rows / 2 : ℤ).toNat = M by omega]
    · intro n hn1 hn2
      unfold fAt
      change FS.val (rd f1 n) = (A.map FS.val).at' (((n : ℤ) - (A.rows : ℤ) / 2) % A.rows).toNat (m % A.cols).toNat
      rw [← hc]
      by_cases hn : n < M
      · rw [(fv n hn).1]
        have : (((n : ℤ) - (A.rows : ℤ) / 2) % A.rows).toNat = n + M := by
          rw [← Int.add_emod_right, Int.emod_eq_of_lt (by omega) (by omega)]; omega
        rw [this, Arr2.at'_map _ _ (by omega) hcl]
      · have := (fv (n - M) (by omega)).2
        rw [show M + (n - M) = n by omega] at this
        rw [this]
        have : (((n : ℤ) - (A.rows : ℤ) / 2) % A.rows).toNat = n - M := by
          rw [Int.emod_eq_of_lt (by omega) (by omega)]; omega
        rw [this, Arr2.at'_map _ _ (by omega) hcl]
    · intro n hn
      rw [fz n hn, FS.val_zero]
  rw [hval_eq]
  exact finish hr (hX9.trans (le_mul_of_one_le_left X0.le hσ)) (b2.trans (zpow_le_zpow_right₀ (by norm_num) (by norm_num))) hκ hκ' (v5 k (by omega)) (ng k)

end FP
end Verif.Props
