import Verif.Props.FloatKiss10
/-!
# `hkm_fc` in doubles
-/
namespace Verif.Props
open Verif Finset

variable {rnd : ℝ → ℝ}

namespace FK

theorem zpow_mul_le {x y : ℝ} {i j k : ℤ} (hy0 : 0 ≤ y) (hx : x ≤ 2 ^ i) (hy : y ≤ 2 ^ j) (h : i + j ≤ k) : x * y ≤ 2 ^ k := by
  calc x * y ≤ 2 ^ i * 2 ^ j := mul_le_mul hx hy hy0 (by positivity)
    _ = 2 ^ (i + j) := by rw [← zpow_add₀ (by norm_num)]
    _ ≤ 2 ^ k := zpow_le_zpow_right₀ (by norm_num) h

/-- The product in the frequency domain. -/
theorem prod_err (hr : IsRounding rnd) {a b : FC rnd} {S F : ℂ} {σ T κ : ℝ} (hσ : 1 ≤ σ) (hT : 2 ^ (-900 : ℤ) ≤ T) (hb' : 1.03 * (σ * T) ≤ 2 ^ (1018 : ℤ))
    (hκ : 175 * uu ≤ κ) (hκ' : κ ≤ 1 / 100) (ha : ‖FS.val a - S‖ ≤ 1.03 * (σ * κ)) (hS : ‖S‖ ≤ σ) (hb : ‖FS.val b - F‖ ≤ T * κ) (hF : ‖F‖ ≤ T) :
    ‖FS.val (a * b) - F * S‖ ≤ 2.08 * (σ * T * κ) ∧ ‖FS.val (a * b)‖ ≤ 1.03 * (σ * T) := by
  have u0 := uu_pos
  have T0 : 0 < T := lt_of_lt_of_le (by positivity) hT
  have κ0 : 0 < κ := by linarith
  have C0 : 0 < σ * T := by positivity
  have k1 : σ * κ ≤ σ * (1 / 100) := mul_le_mul_of_nonneg_left hκ' (by linarith)
  have k2 : T * κ ≤ T * (1 / 100) := mul_le_mul_of_nonneg_left hκ' T0.le
  have k3 : σ * T * κ ≤ σ * T * (1 / 100) := mul_le_mul_of_nonneg_left hκ' C0.le
  have k4 : σ * T * (175 * uu) ≤ σ * T * κ := mul_le_mul_of_nonneg_left hκ C0.le
  have na : ‖FS.val a‖ ≤ 1.0103 * σ := by
    have := norm_add_le (FS.val a - S) S
    rw [sub_add_cancel] at this
    linarith
  have nb : ‖FS.val b‖ ≤ 1.01 * T := by
    have := norm_add_le (FS.val b - F) F
    rw [sub_add_cancel] at this
    linarith
  have nab : ‖FS.val a‖ * ‖FS.val b‖ ≤ 1.03 * (σ * T) := by
    calc _ ≤ (1.0103 * σ) * (1.01 * T) := mul_le_mul na nb (norm_nonneg _) (by linarith)
      _ ≤ _ := by nlinarith
  have hqq : T * 1 ≤ σ * T := by nlinarith
  have ht : tiny ≤ uu * (1.03 * (σ * T)) / 100 := by
    have := FA.tiny_Q (R := 1) hT (by norm_num)
    have h2 : uu * (T * 1) ≤ uu * (σ * T) := mul_le_mul_of_nonneg_left hqq u0.le
    have h3 : 0 < uu * (σ * T) := by positivity
    clear hb'
    linarith
  have e1 := mul_err hr (by positivity) ht hb' nab
  clear hb' hT ht
  have e2 : ‖FS.val a * FS.val b - F * S‖ ≤ 2.05 * (σ * T * κ) := by
    have : FS.val a * FS.val b - F * S = (FS.val a - S) * FS.val b + S * (FS.val b - F) := by ring
    rw [this]
    refine (norm_add_le _ _).trans ?_
    rw [norm_mul, norm_mul]
    have h1 : ‖FS.val a - S‖ * ‖FS.val b‖ ≤ (1.03 * (σ * κ)) * (1.01 * T) := mul_le_mul ha nb (norm_nonneg _) (by positivity)
    have h2 : ‖S‖ * ‖FS.val b - F‖ ≤ σ * (T * κ) := mul_le_mul hS hb (norm_nonneg _) (by linarith)
    have h3 : (1.03 * (σ * κ)) * (1.01 * T) = 1.0403 * (σ * T * κ) := by ring
    have h4 : σ * (T * κ) = σ * T * κ := by ring
    have h5 : 0 < σ * T * κ := by positivity
    linarith
  have e3 := norm_add_le (FS.val (a * b) - FS.val a * FS.val b) (FS.val a * FS.val b - F * S)
  rw [sub_add_sub_cancel] at e3
  have h5 : 0 < σ * T * κ := by positivity
  have e4 : ‖FS.val (a * b) - F * S‖ ≤ 2.08 * (σ * T * κ) := by nlinarith
  refine ⟨e4, ?_⟩
  have nFS : ‖F * S‖ ≤ σ * T := by
    rw [norm_mul, mul_comm]
    exact mul_le_mul hS hF (norm_nonneg _) (by linarith)
  have := norm_add_le (FS.val (a * b) - F * S) (F * S)
  rw [sub_add_cancel] at this
  linarith

theorem hkm_err (hrd : NoOverflow rnd) (A : Arr2 (FC rnd)) (Nmax Q : ℕ) (m : ℤ) (s : List ℂ) (ss : List (FC rnd)) (hL : A.rows % 2 = 0) (hL0 : 0 < A.rows)
    (hQ : A.rows + Nmax ≤ Q) (hQ30 : Q ≤ 2 ^ 30) (hs : KernTable A.rows Nmax Q s) {σ κ X : ℝ} (hσ : 1 ≤ σ) (hσ' : σ ≤ 2 ^ 30) (hs1 : ∑ i ∈ range Q, ‖rd s i‖ ≤ σ) (hκ : 175 * uu ≤ κ) (hκ' : κ ≤ 1 / 100)
    (hssl : ss.length = Q) (hss : ∀ k, k < Q → ‖FS.val (rd ss k) - ∑ j ∈ range Q, rd s j * twd false Q ((j * k : ℕ) : ℤ)‖ ≤ 1.03 * (σ * κ))
    (hm1 : -(A.cols : ℤ) ≤ m) (hm2 : m < A.cols) (hny : fAt (A.map FS.val) m (A.rows / 2) = 0)
    (hX : 2 ^ (-900 : ℤ) ≤ X) (hX' : X ≤ 2 ^ (800 : ℤ)) (hA : ∑ i ∈ range A.rows, ‖FS.val (A.at' i (m % A.cols).toNat)‖ + Q * 2 ^ (-900 : ℤ) ≤ X)
    (hkm ff : List (FC rnd)) (hkl : hkm.length = Nmax + 1) (ffl : ff.length = Q)
    (fw bw : Fl.KissCfg rnd) (hfw : FOK fw false Q κ) (hbw : FOK bw true Q κ) (J : Int → ℕ → FC rnd) :
    ∃ h ff', Fl.cHkmFc rnd A.flat A.rows A.cols m hkm ((Nmax : Int) + 1) ss Q ff fw bw J = .ok (h, ff') ∧
      h.length = Nmax + 1 ∧ ff'.length = Q ∧ ∀ k : ℕ, k ≤ Nmax → (rnd (rd h k).re = (rd h k).re ∧ rnd (rd h k).im = (rd h k).im) ∧
        ‖FS.val (rd h k) - hval (A.map FS.val) m k‖ ≤ 40 * (σ * X * κ) := by
  have hr := hrd.toIsRounding
  have hQ0 : 0 < Q := by omega
  have q1 : (1 : ℝ) ≤ Q := by exact_mod_cast hQ0
  have X0 : 0 < X := lt_of_lt_of_le (by positivity) hX
  have hq30 : (Q : ℝ) ≤ 2 ^ (30 : ℤ) := by exact_mod_cast hQ30
  have b1 : X ≤ 2 ^ (830 : ℤ) := hX'.trans (zpow_le_zpow_right₀ (by norm_num) (by norm_num))
  have σ0 : 0 < σ := by linarith
  have hs30 : σ ≤ 2 ^ (30 : ℤ) := by exact_mod_cast hσ'
  have b2 : σ * X ≤ 2 ^ (860 : ℤ) := zpow_mul_le (by positivity) hs30 b1 (by norm_num)
  have b3 : (Q : ℝ) * (σ * X) ≤ 2 ^ (990 : ℤ) := zpow_mul_le (by positivity) hq30 b2 (by norm_num)
  have b4 : 1.03 * (σ * X) ≤ 2 ^ (900 : ℤ) := le_trans (by nlinarith [show 0 < σ * X by positivity]) (four_le b2 (by norm_num))
  have b5 : 1.03 * (σ * X) ≤ 2 ^ (1018 : ℤ) := b4.trans (zpow_le_zpow_right₀ (by norm_num) (by norm_num))
  unfold Fl.cHkmFc
  rw [cMemset0_ok ff Q ffl]
  simp only [Except.bind_ok]
  have hkm0 := cMemset0_ok hkm (Nmax + 1) hkl
  push_cast at hkm0
  rw [hkm0]
  simp only [Except.bind_ok]
  have hmm : (A.rows : Int).tdiv 2 = ((A.rows / 2 : ℕ) : Int) := by rw [Int.tdiv_eq_ediv_of_nonneg (by omega)]; rfl
  rw [hmm]
  obtain ⟨c, hc⟩ : ∃ c : ℕ, c = (m % A.cols).toNat := ⟨_, rfl⟩
  have hind : (if m ≥ 0 then m else (A.cols : Int) + m) = (c : Int) := by
    rw [hc, wrap_mod hm1 hm2]; split <;> split <;> omega
  have hcl : c < A.cols := by rw [hc]; exact slot_lt' (by omega) _
  rw [hind]
  obtain ⟨M, hM⟩ : ∃ M, M = A.rows / 2 := ⟨_, rfl⟩
  rw [← hM]
  obtain ⟨f1, e1, hi1⟩ := forM'_range_inv (a := 0) (b := (M : Int)) (by omega) (tab Q fun _ => (0 : FC rnd))
    (fun ff k => (cGet A.flat ((A.cols : Int) * ((M : Int) + k) + c)).bind fun a => (cSet ff k a).bind fun ff =>
      (cGet A.flat ((A.cols : Int) * k + c)).bind fun b => cSet ff ((M : Int) + k) b)
    (fun k f => f.length = Q ∧ (∀ i : ℕ, (i : Int) < k → rd f i = A.at' (i + M) c ∧ rd f (M + i) = A.at' i c) ∧
      ∀ i, 2 * M ≤ i → rd f i = 0)
    ⟨by simp, fun i hi => by omega, fun i _ => by
      by_cases h : i < Q
      · rw [rd_tab h]
      · rw [rd_out (by simpa using h)]⟩
    (by
      intro k f h1 h2 ⟨fl, fv, fz⟩
      obtain ⟨k, rfl⟩ := Int.eq_ofNat_of_zero_le h1
      rw [g_get (j := A.cols * (M + k) + c) (by rw [A.length_flat]; exact flat_idx (by omega) hcl) (by push_cast; ring), A.rd_flat (by omega) hcl]
      simp only [Except.bind_ok]
      rw [g_set (j := k) (by omega) rfl]
      simp only [Except.bind_ok]
      rw [g_get (j := A.cols * k + c) (by rw [A.length_flat]; exact flat_idx (by omega) hcl) (by push_cast; ring), A.rd_flat (by omega) hcl]
      simp only [Except.bind_ok]
      rw [g_set (j := M + k) (by simp; omega) (by push_cast; ring)]
      refine ⟨_, rfl, by simpa using fl, fun i hi => ?_, fun i hi => ?_⟩
      · rw [rd_set' _ _ _ _ (by simp; omega), rd_set' _ _ _ _ (by omega), rd_set' _ _ _ _ (by simp; omega), rd_set' _ _ _ _ (by omega)]
        rw [if_neg (by omega)]
        by_cases hik : i = k
        · subst hik
          rw [if_pos rfl, if_pos rfl]
          exact ⟨by rw [add_comm], rfl⟩
        · rw [if_neg hik, if_neg (by omega), if_neg (by omega)]
          exact fv i (by omega)
      · rw [rd_set' _ _ _ _ (by simp; omega), rd_set' _ _ _ _ (by omega), if_neg (by omega), if_neg (by omega), fz i hi])
  rw [e1]
  simp only [Except.bind_ok]
  -- sizes of the input column
  have hsum : ∑ i ∈ range Q, ‖FS.val (rd f1 i)‖ = ∑ i ∈ range A.rows, ‖FS.val (A.at' i c)‖ := by
    have hrM : A.rows = M + M := by omega
    have z : ∑ i ∈ range (Q - A.rows), ‖FS.val (rd f1 (A.rows + i))‖ = 0 := sum_eq_zero fun i _ => by
      rw [hi1.2.2 _ (by omega), FS.val_zero, norm_zero]
    rw [show Q = A.rows + (Q - A.rows) by omega, sum_range_add, z, add_zero, hrM, sum_range_add, sum_range_add, add_comm]
    congr 1
    · refine sum_congr rfl fun i hi => ?_
      rw [(hi1.2.1 i (by have := mem_range.mp hi; omega)).2]
    · refine sum_congr rfl fun i hi => ?_
      rw [(hi1.2.1 i (by have := mem_range.mp hi; omega)).1, add_comm]
  have hwsum : ∑ i ∈ range Q, (‖FS.val (rd f1 i)‖ + 2 ^ (-900 : ℤ)) ≤ X := by
    rw [sum_add_distrib, hsum, sum_const, card_range, nsmul_eq_mul, hc]
    exact hA
  have hwX : ∀ i, ‖FS.val (rd f1 i)‖ + 2 ^ (-900 : ℤ) ≤ X := fun i => by
    by_cases hi : i < Q
    · exact (single_le_sum (f := fun i => ‖FS.val (rd f1 i)‖ + (2 : ℝ) ^ (-900 : ℤ)) (fun _ _ => by positivity) (mem_range.mpr hi)).trans hwsum
    · rw [hi1.2.2 i (by omega), FS.val_zero, norm_zero, zero_add]; exact hX
  obtain ⟨f2, e2, l2, v2'⟩ := hfw.fft f1 hi1.1 (fun i => ‖FS.val (rd f1 i)‖ + 2 ^ (-900 : ℤ)) (fun i => le_add_of_nonneg_left (norm_nonneg _))
    (fun i => (hwX i).trans (hX'.trans (zpow_le_zpow_right₀ (by norm_num) (by norm_num)))) (fun i _ => le_add_of_nonneg_right (by positivity)) (J (4 * m + 1))
  have κ0 : 0 < κ := by linarith [uu_pos]
  have v2 := fun k hk => (v2' k hk).trans (mul_le_mul_of_nonneg_right hwsum κ0.le)
  rw [e2]
  simp only [Except.bind_ok]
  obtain ⟨F, hFdef⟩ : ∃ F : ℕ → ℂ, F = fun k => ∑ j ∈ range Q, FS.val (rd f1 j) * twd false Q ((j * k : ℕ) : ℤ) := ⟨_, rfl⟩
  obtain ⟨S, hSdef⟩ : ∃ S : ℕ → ℂ, S = fun k => ∑ j ∈ range Q, rd s j * twd false Q ((j * k : ℕ) : ℤ) := ⟨_, rfl⟩
  have nF : ∀ k, ‖F k‖ ≤ X := fun k => by rw [hFdef]; exact (sum_tw_w (fun j _ => le_add_of_nonneg_right (by positivity)) (fun j => twd_norm _ _ _)).trans hwsum
  have nS : ∀ k, ‖S k‖ ≤ σ := fun k => by
    rw [hSdef]
    exact (sum_tw_w (n := Q) (f := fun j => rd s j) (w := fun j => twd false Q ((j * k : ℕ) : ℤ)) (x := fun j => ‖rd s j‖) (fun j _ => le_rfl) (fun j => twd_norm _ _ _)).trans hs1
  have hfill := fill_ok f2 Q (by omega) (fun ff k => (cGet ff k).bind fun f => (cGet ss k).bind fun s => cSet ff k (s * f))
    (fun k => rd ss k * rd f2 k) (by
      intro k l' hk hl hv
      rw [cGet_ok (by omega), cGet_ok (by omega)]
      simp only [Except.bind_ok]
      rw [cSet_ok (by omega), hv k le_rfl])
  rw [hfill, l2]
  simp only [Except.bind_ok]
  obtain ⟨f3, hf3⟩ : ∃ f3, f3 = tab Q fun i => if i < Q then rd ss i * rd f2 i else rd f2 i := ⟨_, rfl⟩
  rw [← hf3]
  have f3l : f3.length = Q := by rw [hf3]; simp
  have hXσ : 2 ^ (-900 : ℤ) ≤ σ * X := hX.trans (le_mul_of_one_le_left X0.le hσ)
  have v3 : ∀ k, k < Q → ‖FS.val (rd f3 k) - F k * S k‖ ≤ 2.08 * (σ * X * κ) ∧ ‖FS.val (rd f3 k)‖ ≤ 1.03 * (σ * X) := by
    intro k hk
    rw [hf3, rd_tab hk, if_pos hk]
    have a1 := hss k hk
    have a2 := v2 k hk
    have a3 : ∑ j ∈ range Q, rd s j * twd false Q ((j * k : ℕ) : ℤ) = S k := by rw [hSdef]
    have a4 : ∑ j ∈ range Q, FS.val (rd f1 j) * twd false Q ((j * k : ℕ) : ℤ) = F k := by rw [hFdef]
    rw [a3] at a1
    rw [a4] at a2
    exact prod_err hr hσ hX b5 hκ hκ' a1 (nS k) a2 (nF k)
  have hX3 : 2 ^ (-900 : ℤ) ≤ 1.03 * (σ * X) := hXσ.trans (by linarith [show 0 < σ * X by positivity])
  obtain ⟨f4, e4, l4, v4⟩ := hbw.unif f3 f3l (1.03 * (σ * X)) hX3 b4 (fun i hi => (v3 i hi).2) (J (4 * m + 2))
  rw [e4]
  simp only [Except.bind_ok]
  have C0 : 0 < σ * X := by positivity
  obtain ⟨g, hg⟩ : ∃ g : ℕ → ℂ, g = fun k => ∑ p ∈ range Q, F p * S p * twd true Q ((p * k : ℕ) : ℤ) := ⟨_, rfl⟩
  have nFS : ∀ p, ‖F p * S p‖ ≤ σ * X := fun p => by
    rw [norm_mul, mul_comm]
    exact mul_le_mul (nS p) (nF p) (norm_nonneg _) (by linarith)
  have ng : ∀ k, ‖g k‖ ≤ Q * (σ * X) := fun k => by
    rw [hg]; exact sum_tw_le (fun p _ => nFS p) (fun p => twd_norm _ _ _)
  have v5 : ∀ k, k < Q → ‖FS.val (rd f4 k) - g k‖ ≤ 3.11 * ((Q * (σ * X)) * κ) := by
    intro k hk
    have a1 := v4 k hk
    have a2 : ‖∑ p ∈ range Q, FS.val (rd f3 p) * twd true Q ((p * k : ℕ) : ℤ) - g k‖ ≤ Q * (2.08 * (σ * X * κ)) := by
      rw [hg]
      simp only
      rw [← sum_sub_distrib, sum_congr rfl fun p _ => (sub_mul _ _ _).symm]
      exact sum_tw_le (fun p hp => (v3 p hp).1) (fun p => twd_norm _ _ _)
    have a3 := norm_add_le (FS.val (rd f4 k) - ∑ p ∈ range Q, FS.val (rd f3 p) * twd true Q ((p * k : ℕ) : ℤ))
      (∑ p ∈ range Q, FS.val (rd f3 p) * twd true Q ((p * k : ℕ) : ℤ) - g k)
    rw [sub_add_sub_cancel] at a3
    refine a3.trans ((add_le_add a1 a2).trans (le_of_eq ?_))
    ring
  have hlast := fill_ok (tab (Nmax + 1) fun _ => (0 : FC rnd)) (Nmax + 1) (by simp)
    (fun hkm k => (cGet f4 k).bind fun f =>
      cSet hkm k ⟨rnd (rnd (Fl.fourPi rnd * f.re) / ((Q : ℤ) : ℝ)), rnd (rnd (Fl.fourPi rnd * f.im) / ((Q : ℤ) : ℝ))⟩)
    (fun k => ⟨rnd (rnd (Fl.fourPi rnd * (rd f4 k).re) / ((Q : ℤ) : ℝ)), rnd (rnd (Fl.fourPi rnd * (rd f4 k).im) / ((Q : ℤ) : ℝ))⟩) (by
      intro k l' hk hl _
      rw [cGet_ok (by omega)]
      simp only [Except.bind_ok]
      rw [cSet_ok (by rw [hl]; simpa using hk)])
  push_cast at hlast
  push_cast
  rw [hlast]
  refine ⟨_, _, rfl, by simp, l4, fun k hk => ?_⟩
  rw [rd_tab (by simp; omega), if_pos (by omega)]
  refine ⟨⟨hrd.idem _, hrd.idem _⟩, ?_⟩
  have hval_eq : hval (A.map FS.val) m k = 4 * Real.pi * (g k / Q) := by
    unfold hval
    change 4 * (Real.pi : ℂ) * ∑ ν ∈ Ioo (-((A.rows : ℤ) / 2)) ((A.rows : ℤ) / 2), fAt (A.map FS.val) m ν * Skern (k - ν) = _
    rw [← conv_core A.rows Nmax Q hL hQ s hs (fAt (A.map FS.val) m) (fun i => FS.val (rd f1 i)) ?_ ?_ ?_ k (by omega)]
    · rw [← cyc_conv hQ0, hg, hFdef, hSdef]
      simp only [twd, if_true, Bool.false_eq_true, if_false]
      push_cast
      rfl
    · have := (hi1.2.1 0 (by omega)).1
      rw [this, zero_add]
      unfold fAt at hny
      change (A.map FS.val).at' (((A.rows : ℤ) / 2) % A.rows).toNat (m % A.cols).toNat = 0 at hny
      rw [Int.emod_eq_of_lt (by omega) (by omega), ← hc, Arr2.at'_map _ _ (by omega) hcl] at hny
      rw [← hny, show (A.rows / 2 : ℤ).toNat = M by omega]
    · intro n hn1 hn2
      unfold fAt
      change FS.val (rd f1 n) = (A.map FS.val).at' (((n : ℤ) - (A.rows : ℤ) / 2) % A.rows).toNat (m % A.cols).toNat
      rw [← hc]
      by_cases hn : n < M
      · rw [(hi1.2.1 n (by omega)).1]
        have : (((n : ℤ) - (A.rows : ℤ) / 2) % A.rows).toNat = n + M := by
          rw [← Int.add_emod_right, Int.emod_eq_of_lt (by omega) (by omega)]; omega
        rw [this, Arr2.at'_map _ _ (by omega) hcl]
      · have := (hi1.2.1 (n - M) (by omega)).2
        rw [show M + (n - M) = n by omega] at this
        rw [this]
        have : (((n : ℤ) - (A.rows : ℤ) / 2) % A.rows).toNat = n - M := by
          rw [Int.emod_eq_of_lt (by omega) (by omega)]; omega
        rw [this, Arr2.at'_map _ _ (by omega) hcl]
    · intro n hn
      rw [hi1.2.2 n (by omega), FS.val_zero]
  rw [hval_eq]
  have hT : 2 ^ (-900 : ℤ) ≤ (Q : ℝ) * (σ * X) / Q := by
    rw [mul_div_cancel_left₀ _ (by linarith : (Q : ℝ) ≠ 0)]
    exact hXσ
  have := finish hr (Q := Q) hQ0 hT b3 hκ hκ' (v5 k (by omega)) (ng k)
  rw [mul_div_cancel_left₀ _ (by linarith : (Q : ℝ) ≠ 0)] at this
  exact_mod_cast this

end FK
end Verif.Props
