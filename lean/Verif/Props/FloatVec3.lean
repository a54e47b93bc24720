import Verif.Props.FloatVec2
import Verif.Props.Vector2
/-!
# The degree weights in doubles, and the synthesised array of one component
-/
namespace Verif.Props
open Verif Finset

variable {rnd : ℝ → ℝ}

namespace FV

/-- The weight `1.0 / np.sqrt(n * (n + 1.0))` in doubles, 0 for `n = 0`. -/
noncomputable def wF (rnd : ℝ → ℝ) (n : ℕ) : ℝ :=
  if n = 0 then 0 else rnd (1 / rnd (Real.sqrt (rnd (Fl.ofInt rnd n * rnd (Fl.ofInt rnd n + 1)))))

/-- The exact weight. -/
noncomputable def wR (n : ℕ) : ℝ := if n = 0 then 0 else 1 / Real.sqrt ((n : ℝ) * ((n : ℝ) + 1))

theorem wdeg_eq (n : ℕ) : wdeg n = (wR n : ℂ) := by
  unfold wdeg wR; split <;> simp

theorem wR_nonneg (n : ℕ) : 0 ≤ wR n := by
  unfold wR; split <;> positivity

theorem wR_le (n : ℕ) : wR n ≤ 3 / 4 := by
  unfold wR
  split
  · norm_num
  · have h1 : (1 : ℝ) ≤ n := by exact_mod_cast (show 1 ≤ n by omega)
    have h2 : (4 / 3 : ℝ) ≤ Real.sqrt ((n : ℝ) * ((n : ℝ) + 1)) := by
      apply Real.le_sqrt_of_sq_le
      nlinarith
    rw [div_le_iff₀ (by linarith)]
    linarith

theorem wF_err (hr : IsRounding rnd) {n : ℕ} (hn : n ≤ 1000) : |wF rnd n - wR n| ≤ 4 * uu := by
  unfold wF wR
  have u0 := uu_pos
  by_cases h0 : n = 0
  · rw [if_pos h0, if_pos h0, sub_self, abs_zero]; positivity
  rw [if_neg h0, if_neg h0]
  have h1 : (1 : ℝ) ≤ n := by exact_mod_cast (show 1 ≤ n by omega)
  have h2 : (n : ℝ) ≤ 1000 := by exact_mod_cast hn
  have hn' : (n : ℤ) ≤ 1000 := by exact_mod_cast hn
  have e1 : Fl.ofInt rnd n = (n : ℝ) := by
    rw [ofInt_eq hr (by rw [abs_of_nonneg (by omega)]; omega)]; push_cast; rfl
  have e2 : rnd ((n : ℝ) + 1) = n + 1 := by
    rw [rnd_int hr ((n : ℤ) + 1) (by push_cast; rfl) (by rw [abs_of_nonneg (by omega)]; omega)]; push_cast; rfl
  have hb : (n : ℤ) * (n + 1) ≤ 1001000 := by nlinarith
  have e3 : rnd ((n : ℝ) * (n + 1)) = n * (n + 1) := by
    rw [rnd_int hr ((n : ℤ) * (n + 1)) (by push_cast; rfl) (by rw [abs_of_nonneg (by positivity)]; omega)]; push_cast; rfl
  rw [e1, e2, e3]
  have x1 : (1 : ℝ) ≤ n * (n + 1) := by nlinarith
  have x2 : (n : ℝ) * (n + 1) ≤ 1048576 := by nlinarith
  have s1 : 1 ≤ Real.sqrt ((n : ℝ) * (n + 1)) := by apply Real.le_sqrt_of_sq_le; linarith
  have s2 : Real.sqrt ((n : ℝ) * (n + 1)) ≤ 1048576 := by
    apply Real.sqrt_le_iff.mpr
    refine ⟨by norm_num, x2.trans (by norm_num)⟩
  have b1 := small_lt
  have b2 := lt_large
  have k1 : Near 1 (rnd (Real.sqrt ((n : ℝ) * (n + 1)))) (Real.sqrt ((n : ℝ) * (n + 1))) := by
    have := (near_refl (X := Real.sqrt ((n : ℝ) * (n + 1))) (by linarith)).round hr (by norm_num) (by linarith) (by linarith)
    simpa using this
  have y1 : 1 / Real.sqrt ((n : ℝ) * (n + 1)) ≤ 1 := by rw [div_le_one (by linarith)]; exact s1
  have y2 : 1 / 1048576 ≤ 1 / Real.sqrt ((n : ℝ) * (n + 1)) := one_div_le_one_div_of_le (by linarith) s2
  have b3 : Blo ≤ 1 / 1048576 := by
    have : (2 : ℝ) ^ (-1021 : ℤ) ≤ 2 ^ (-20 : ℤ) := zpow_le_zpow_right₀ (by norm_num) (by norm_num)
    exact le_trans this (by norm_num)
  have k2 := k1.inv.round hr (by norm_num) (b3.trans y2) (by linarith)
  generalize rnd (1 / rnd (Real.sqrt ((n : ℝ) * (n + 1)))) = x at *
  generalize 1 / Real.sqrt ((n : ℝ) * (n + 1)) = X at *
  obtain ⟨k3, k4, k5⟩ := k2
  norm_num at k4 k5
  have u1 := FA.uu_le
  have u2 : uu * uu ≤ uu * (1 / 100) := mul_le_mul_of_nonneg_left uu_small u0.le
  have u3 : uu * (uu * uu) ≤ uu * (uu * (1 / 100)) := mul_le_mul_of_nonneg_left u2 u0.le
  have q1 : (1 + uu) ^ 3 ≤ 1 + 4 * uu := by ring_nf; nlinarith
  have q2 : 1 - 4 * uu ≤ (1 - uu) ^ 3 := by ring_nf; nlinarith
  have p1 := mul_le_mul_of_nonneg_right q1 k3.le
  have p2 := mul_le_mul_of_nonneg_right q2 k3.le
  have p3 : uu * X ≤ uu * 1 := mul_le_mul_of_nonneg_left y1 u0.le
  rw [abs_le]
  constructor <;> nlinarith

theorem nvecF_spec (n : ℕ) : ∃ w : List (FC rnd), Fl.nvec rnd n = .ok w ∧ w.length = n + 1 ∧ ∀ k, k ≤ n → w[k]? = some ⟨wF rnd k, 0⟩ := by
  unfold Fl.nvec npFull
  rw [if_neg (by omega)]
  simp only [Except.bind_ok]
  obtain ⟨s, e, hi⟩ := forM'_range_inv (a := 1) (b := (n : Int) + 1) (by omega) (List.replicate ((n : Int) + 1).toNat (0 : FC rnd))
    (fun v n => setIdx v n (⟨rnd (1 / rnd (Real.sqrt (rnd (Fl.ofInt rnd n * rnd (Fl.ofInt rnd n + 1))))), 0⟩ : FC rnd))
    (fun k s => s.length = n + 1 ∧ ∀ i : ℕ, i ≤ n → rd s i = if (i : Int) < k then ⟨wF rnd i, 0⟩ else 0)
    ⟨by simp, fun i hi => by
      rw [rd_replicate_zero]
      split
      · rw [show i = 0 by omega]; simp [wF]; rfl
      · rfl⟩
    (by
      rintro k s h1 h2 ⟨sl, sv⟩
      obtain ⟨k, rfl⟩ := Int.eq_ofNat_of_zero_le (show 0 ≤ k by omega)
      refine ⟨s.set k ⟨wF rnd k, 0⟩, ?_, by simpa using sl, fun i hi => ?_⟩
      · rw [← cSet_eq_setIdx _ _ _ (by omega) (by omega), cSet_ok (by omega)]
        unfold wF
        rw [if_neg (by omega)]
      · rw [rd_set' _ _ _ _ (by omega)]
        by_cases hk : i = k
        · rw [if_pos hk, if_pos (by omega), hk]
        · rw [if_neg hk, sv i hi]
          by_cases hlt : (i : ℤ) < k
          · rw [if_pos hlt, if_pos (by omega)]
          · rw [if_neg hlt, if_neg (by omega)])
  refine ⟨s, e, hi.1, fun k hk => ?_⟩
  have := hi.2 k hk
  rw [if_pos (by omega)] at this
  rw [← this]
  have hl : k < s.length := by omega
  simp [rd, hl]

theorem mul_real (hrd : NoOverflow rnd) (z : FC rnd) (q : ℝ) : z * (⟨q, 0⟩ : FC rnd) = ⟨rnd (z.re * q), rnd (z.im * q)⟩ := by
  have r0 := FS.rnd0 hrd
  show (⟨rnd (rnd (z.re * q) - rnd (z.im * 0)), rnd (rnd (z.re * 0) + rnd (z.im * q))⟩ : FC rnd) = _
  simp only [mul_zero, r0, sub_zero, zero_add, hrd.idem]

/-- A weighted coefficient. -/
theorem weight_err (hrd : NoOverflow rnd) {n : ℕ} (hn : n ≤ 1000) {z : FC rnd} {C : ℝ} (hC : 2 ^ (-900 : ℤ) ≤ C) (hC' : C ≤ 2 ^ (900 : ℤ))
    (h1 : |z.re| ≤ C) (h2 : |z.im| ≤ C) : |(z * (⟨wF rnd n, 0⟩ : FC rnd)).re| ≤ C ∧ |(z * (⟨wF rnd n, 0⟩ : FC rnd)).im| ≤ C ∧
      ‖FS.val (z * (⟨wF rnd n, 0⟩ : FC rnd)) - wdeg n * FS.val z‖ ≤ 12 * uu * C := by
  have hr := hrd.toIsRounding
  rw [mul_real hrd]
  have u0 := uu_pos
  have u1 := FA.uu_le
  have C0 : 0 ≤ C := le_trans (by positivity) hC
  have tq : tiny ≤ uu * C := by
    have h3 : tiny ≤ uu * 2 ^ (-900 : ℤ) := by
      unfold uu
      rw [← zpow_add₀ (by norm_num)]
      exact zpow_le_zpow_right₀ (by norm_num) (by norm_num)
    exact h3.trans (mul_le_mul_of_nonneg_left hC u0.le)
  have big : C ≤ 2 ^ (1022 : ℤ) := hC'.trans (zpow_le_zpow_right₀ (by norm_num) (by norm_num))
  have hw := wF_err hr hn
  have w0 := wR_nonneg n
  have w1 := wR_le n
  have key : ∀ x : ℝ, |x| ≤ C → |rnd (x * wF rnd n)| ≤ C ∧ |rnd (x * wF rnd n) - x * wR n| ≤ 6 * uu * C := by
    intro x hx
    have d1 : |x * wF rnd n - x * wR n| ≤ C * (4 * uu) := by
      rw [← mul_sub, abs_mul]
      exact mul_le_mul hx hw (abs_nonneg _) C0
    have d2 : |x * wR n| ≤ C * (3 / 4) := by
      rw [abs_mul, abs_of_nonneg w0]
      exact mul_le_mul hx w1 w0 C0
    have uC : uu * C ≤ 1 / 100 * C := mul_le_mul_of_nonneg_right uu_small C0
    have uC' : uu * C ≤ 1 / 10 ^ 9 * C := mul_le_mul_of_nonneg_right u1 C0
    have uC'' : uu * C ≤ 1 / 1000 * C := uC'.trans (mul_le_mul_of_nonneg_right (by norm_num) C0)
    have d3 : |x * wF rnd n| ≤ C * (4 / 5) := by
      have := abs_add_le (x * wF rnd n - x * wR n) (x * wR n)
      rw [sub_add_cancel] at this
      nlinarith
    have d4 := rnd_err hr (x := x * wF rnd n) ((d3.trans (by nlinarith)).trans big)
    have d5 : uu * |x * wF rnd n| ≤ uu * C := mul_le_mul_of_nonneg_left (d3.trans (by nlinarith)) u0.le
    constructor
    · have := abs_add_le (rnd (x * wF rnd n) - x * wF rnd n) (x * wF rnd n)
      rw [sub_add_cancel] at this
      nlinarith
    · have := abs_add_le (rnd (x * wF rnd n) - x * wF rnd n) (x * wF rnd n - x * wR n)
      rw [sub_add_sub_cancel] at this
      nlinarith
  refine ⟨(key _ h1).1, (key _ h2).1, ?_⟩
  rw [wdeg_eq]
  refine (Complex.norm_le_abs_re_add_abs_im _).trans ?_
  have e1 : (FS.val (⟨rnd (z.re * wF rnd n), rnd (z.im * wF rnd n)⟩ : FC rnd) - (wR n : ℂ) * FS.val z).re = rnd (z.re * wF rnd n) - z.re * wR n := by
    simp [FS.val, mul_comm]
  have e2 : (FS.val (⟨rnd (z.re * wF rnd n), rnd (z.im * wF rnd n)⟩ : FC rnd) - (wR n : ℂ) * FS.val z).im = rnd (z.im * wF rnd n) - z.im * wR n := by
    simp [FS.val, mul_comm]
  rw [e1, e2]
  have := (key _ h1).2
  have := (key _ h2).2
  linarith

/-- `Gval` is linear and each harmonic is bounded. -/
theorem Gval_diff (v u : ℤ → ℕ → ℂ) (N : ℕ) (m k : ℤ) {η : ℝ} (hη : 0 ≤ η) (h : ∀ n, m.natAbs ≤ n → n ≤ N → ‖v m n - u m n‖ ≤ η) :
    ‖Gval v N m k - Gval u N m k‖ ≤ (N + 1) * (η * FS.rowMax N) := by
  unfold Gval
  rw [← mul_sub, norm_mul, norm_zpow, Complex.norm_I, one_zpow, one_mul, ← sum_sub_distrib]
  refine (norm_sum_le _ _).trans ?_
  have r0 : 0 ≤ FS.rowMax N := Real.sqrt_nonneg _
  have : ∀ n ∈ Icc m.natAbs N, ‖v m n * ycoef n m k - u m n * ycoef n m k‖ ≤ η * FS.rowMax N := by
    intro n hn
    have hn := mem_Icc.mp hn
    rw [← sub_mul, norm_mul]
    have mono : Real.sqrt ((2 * n + 1) / (4 * Real.pi)) ≤ FS.rowMax N := by
      have : (n : ℝ) ≤ N := by exact_mod_cast hn.2
      exact Real.sqrt_le_sqrt (div_le_div_of_nonneg_right (by linarith) (by positivity))
    exact mul_le_mul (h n hn.1 hn.2) ((ycoef_le n m hn.1 k).trans mono) (norm_nonneg _) hη
  refine (sum_le_sum this).trans ?_
  rw [sum_const, nsmul_eq_mul, Nat.card_Icc]
  refine mul_le_mul_of_nonneg_right ?_ (mul_nonneg hη r0)
  have : N + 1 - m.natAbs ≤ N + 1 := by omega
  exact_mod_cast this

/-- A representative of a residue class modulo an even number. -/
theorem rep (L : ℕ) (hL : 0 < L) (ν : ℤ) : ∃ μ : ℤ, μ % ((2 * L : ℕ) : ℤ) = ν % ((2 * L : ℕ) : ℤ) ∧ -(L : ℤ) < μ ∧ μ ≤ L := by
  have h1 : 0 ≤ ν % ((2 * L : ℕ) : ℤ) := Int.emod_nonneg _ (by omega)
  have h2 : ν % ((2 * L : ℕ) : ℤ) < ((2 * L : ℕ) : ℤ) := Int.emod_lt_of_pos _ (by omega)
  by_cases h : ν % ((2 * L : ℕ) : ℤ) ≤ L
  · exact ⟨ν % ((2 * L : ℕ) : ℤ), Int.emod_emod_of_dvd _ dvd_rfl, by omega, h⟩
  · exact ⟨ν % ((2 * L : ℕ) : ℤ) - ((2 * L : ℕ) : ℤ), by rw [Int.sub_emod_right]; exact Int.emod_emod_of_dvd _ dvd_rfl, by omega, by omega⟩

theorem rep_eq {L : ℕ} {μ ν : ℤ} (h : μ % ((2 * L : ℕ) : ℤ) = ν % ((2 * L : ℕ) : ℤ)) (h1 : -(L : ℤ) < μ) (h2 : μ ≤ L) (h3 : -(L : ℤ) ≤ ν) (h4 : ν ≤ L) : |μ| = |ν| := by
  have hd : ((2 * L : ℕ) : ℤ) ∣ ν - μ := (Int.emod_eq_emod_iff_emod_sub_eq_zero.mp h.symm) |> Int.dvd_of_emod_eq_zero
  obtain ⟨t, ht⟩ := hd
  have : t = 0 ∨ t = -1 ∨ t = 1 := by
    have a1 : -2 < t := by by_contra hh; push_cast at ht; nlinarith
    have a2 : t < 2 := by by_contra hh; push_cast at ht; nlinarith
    omega
  rw [Int.abs_eq_natAbs, Int.abs_eq_natAbs]
  rcases this with rfl | rfl | rfl <;> omega

theorem fA_congr {α : Type} [Zero α] (A : Arr2 α) {m m' ν ν' : ℤ} (h : m % A.cols = m' % A.cols) (h' : ν % A.rows = ν' % A.rows) : fA A m ν = fA A m' ν' := by
  unfold fA; rw [h, h']

/-- Bound on the error of an entry of the array of one weighted component. -/
noncomputable def entE (N : ℕ) (C : ℝ) : ℝ := FS.coefErr N C + (N + 1) * (12 * uu * C * FS.rowMax N)

/-- Bound on such an entry. -/
noncomputable def entG (N : ℕ) (C : ℝ) : ℝ := (N + 1) * (2 * C * FS.rowMax N)

/-- Sizes of these quantities; `P` is the unit `2^-53 (N+1) C sqrt((2N+1)/4π)`. -/
theorem ent_num {N M : ℕ} (hN : N ≤ 1000) (hM : M ≤ 1000) {C : ℝ} (hC : 2 ^ (-900 : ℤ) ≤ C) (hC' : C ≤ 2 ^ (900 : ℤ)) :
    entE N C ≤ 17 * ((N : ℝ) + 4) ^ 3 * (uu * (N + 1) * C * FS.rowMax N) ∧ uu * entG N C = 2 * (uu * (N + 1) * C * FS.rowMax N) ∧ entE N C ≤ entG N C / 1000 ∧
      tiny ≤ uu * entG N C / 1000 ∧ (2 * N + 2) * ((M + 1) * entG N C) ≤ 2 ^ (1000 : ℤ) := by
  have n0 : (0 : ℝ) ≤ N := Nat.cast_nonneg N
  have n1 : (N : ℝ) ≤ 1000 := by exact_mod_cast hN
  have m0 : (0 : ℝ) ≤ M := Nat.cast_nonneg M
  have m1 : (M : ℝ) ≤ 1000 := by exact_mod_cast hM
  have C0 : 0 < C := lt_of_lt_of_le (by positivity) hC
  have ρ1 := FS.rowMax_ge N
  have ρ2 : FS.rowMax N ≤ 16 := rowMax_le hN
  have u0 := uu_pos
  have hE : entE N C ≤ 17 * ((N : ℝ) + 4) ^ 3 * (uu * (N + 1) * C * FS.rowMax N) := by
    unfold entE FS.coefErr
    rw [show (2 : ℝ) ^ (-49 : ℤ) = 16 * uu by unfold uu; norm_num]
    have P0 : 0 ≤ uu * (N + 1) * C * FS.rowMax N := by positivity
    have n3 : (64 : ℝ) ≤ ((N : ℝ) + 4) ^ 3 := by
      have : (4 : ℝ) ^ 3 ≤ ((N : ℝ) + 4) ^ 3 := pow_le_pow_left₀ (by norm_num) (by linarith) 3
      linarith
    have := mul_le_mul_of_nonneg_right n3 P0
    linarith
  have hG : uu * entG N C = 2 * (uu * (N + 1) * C * FS.rowMax N) := by unfold entG; ring
  have hGl : C / 2 ≤ entG N C := by
    unfold entG
    have h1 : C * (1 / 4) ≤ C * FS.rowMax N := mul_le_mul_of_nonneg_left ρ1 C0.le
    have h2 : 0 ≤ C * FS.rowMax N := by positivity
    nlinarith
  have hGu : entG N C ≤ 2 ^ (15 : ℤ) * C := by
    unfold entG
    have h1 : C * FS.rowMax N ≤ C * 16 := mul_le_mul_of_nonneg_left ρ2 C0.le
    have h2 : ((N : ℝ) + 1) * (2 * C * FS.rowMax N) ≤ (1000 + 1) * (2 * C * FS.rowMax N) := mul_le_mul_of_nonneg_right (by linarith) (by positivity)
    norm_num
    linarith
  have hG0 : 0 ≤ entG N C := by linarith
  refine ⟨hE, hG, ?_, ?_, ?_⟩
  · refine hE.trans ?_
    have h3 : ((N : ℝ) + 4) ^ 3 ≤ 1004 ^ 3 := pow_le_pow_left₀ (by positivity) (by linarith) 3
    have h4 : 17 * ((N : ℝ) + 4) ^ 3 * uu ≤ 1 / 1000 := by
      refine (mul_le_mul_of_nonneg_right (mul_le_mul_of_nonneg_left h3 (by norm_num)) u0.le).trans ?_
      unfold uu; norm_num
    have h5 : 17 * ((N : ℝ) + 4) ^ 3 * (uu * (N + 1) * C * FS.rowMax N) = (17 * ((N : ℝ) + 4) ^ 3 * uu) * (entG N C / 2) := by unfold entG; ring
    rw [h5]
    have := mul_le_mul_of_nonneg_right h4 (show 0 ≤ entG N C / 2 by linarith)
    linarith
  · have h1 : (2 : ℝ) ^ (-901 : ℤ) ≤ entG N C := by
      refine le_trans ?_ hGl
      rw [show (-901 : ℤ) = -900 - 1 by norm_num, zpow_sub_one₀ (by norm_num)]
      linarith
    have h2 : tiny ≤ uu * 2 ^ (-901 : ℤ) / 1000 := by
      have h3 : (2 : ℝ) ^ (-1000 : ℤ) ≤ uu * 2 ^ (-901 : ℤ) / 1000 := by
        unfold uu
        rw [show (2 : ℝ) ^ (-1000 : ℤ) = 2 ^ (-53 : ℤ) * 2 ^ (-901 : ℤ) * 2 ^ (-46 : ℤ) by rw [← zpow_add₀ (by norm_num), ← zpow_add₀ (by norm_num)]; norm_num, mul_div_assoc]
        rw [mul_assoc]
        refine mul_le_mul_of_nonneg_left ?_ (by positivity)
        rw [div_eq_mul_inv]
        exact mul_le_mul_of_nonneg_left (by norm_num) (by positivity)
      exact le_trans (zpow_le_zpow_right₀ (by norm_num) (by norm_num)) h3
    have h4 := mul_le_mul_of_nonneg_left h1 u0.le
    linarith
  · have h1 : (2 * (N : ℝ) + 2) * ((M + 1) * entG N C) ≤ 2 ^ (21 : ℤ) * entG N C := by
      rw [← mul_assoc]
      refine mul_le_mul_of_nonneg_right ?_ hG0
      have : (2 * (N : ℝ) + 2) * (M + 1) ≤ 2002 * 1001 := mul_le_mul (by linarith) (by linarith) (by linarith) (by norm_num)
      norm_num; linarith
    refine h1.trans ((mul_le_mul_of_nonneg_left (hGu.trans (mul_le_mul_of_nonneg_left hC' (by positivity))) (by positivity)).trans ?_)
    rw [← zpow_add₀ (by norm_num), ← zpow_add₀ (by norm_num)]
    exact zpow_le_zpow_right₀ (by norm_num) (by norm_num)

/-- One component of `vispht` in doubles: window, synthesise, apply `L`. -/
theorem lcomp_err (hrd : NoOverflow rnd) {jp : Int → FC rnd} (b : Backend) (call : ℕ) (c : ScalarCoefs (FC rnd)) (h : c.WF) (N M L k : ℕ)
    (hn : c.nmax = N) (hm : c.mmax = M) (hj : PowFor b M jp) (hN : N ≤ 1000) (hM : M ≤ 1000) (hL : N < L) (hk : 2 * M + 2 ≤ k) (hk2 : k % 2 = 0) (w : List (FC rnd)) (hl : w.length = N + 1)
    (hw : ∀ k, k ≤ N → w[k]? = some ⟨wF rnd k, 0⟩) {C : ℝ} (hC : 2 ^ (-900 : ℤ) ≤ C) (hC' : C ≤ 2 ^ (900 : ℤ))
    (hcC : ∀ n m z, IsMode N M n m → n ≠ 0 → c.absMap n m = some z → |z.re| ≤ C ∧ |z.im| ≤ C) :
    ∃ d, c.windowed w = .ok d ∧ d.nmax = N ∧ d.mmax = M ∧ ∃ A, Fl.backendScToFc rnd jp b call d.vec N M ((2 * L : ℕ) : ℤ) k = .ok A ∧
      ∃ g, Fl.lFc rnd A = .ok g ∧ g.1.rows = 2 * L ∧ g.1.cols = k ∧ g.2.rows = 2 * L ∧ g.2.cols = k ∧
      ∀ m ν : ℤ, |ν| ≤ L → -(k : ℤ) ≤ 2 * m → 2 * m < k → FS.Fix (fA g.1 m ν) ∧ FS.Fix (fA g.2 m ν) ∧
        ((m.natAbs ≤ M → ‖Hval (wcf (FS.exactSet c)) N m ν‖ ≤ (2 * N + 1) * (2 * ((M + 1) * entG N C)) ∧ ‖ν * Gval (wcf (FS.exactSet c)) N m ν‖ ≤ (N + 1) * entG N C ∧
          ‖FS.val (fA g.1 m ν) + Hval (wcf (FS.exactSet c)) N m ν‖ ≤ (2 * N + 1) * stepErr ((M + 1) * entG N C) ((M + 1) * (entE N C + 4 * uu * entG N C)) (2 * N + 2) ∧
          ‖FS.val (fA g.2 m ν) - ν * Gval (wcf (FS.exactSet c)) N m ν‖ ≤ (N + 1) * (entE N C + 4 * uu * entG N C)) ∧
         (¬ m.natAbs ≤ M → fA g.1 m ν = 0 ∧ fA g.2 m ν = 0)) := by
  have hmn := h.mn
  rw [hn, hm] at hmn
  have C0 : 0 < C := lt_of_lt_of_le (by positivity) hC
  have r0 : 0 < FS.rowMax N := lt_of_lt_of_le (by norm_num) (FS.rowMax_ge N)
  have u0 := uu_pos
  -- the weighted set
  obtain ⟨e, dw, d1, d2, dv⟩ := ScalarCoefs.window_eq h (w := w) (by omega)
  set d := (c.window w).st with hd
  have ed : c.windowed w = .ok d := by
    unfold ScalarCoefs.windowed
    simp only [e]; rfl
  have hlen : d.vec.length = seg (N + 1) (2 * M + 1) := by
    have := dw.len
    have e := ncFormula_eq (nmax := N) (mmax := M) (by omega) (by omega)
    rw [d1, d2, hn, hm, e, show ((N : ℤ) + 1).toNat = N + 1 by omega, Int.toNat_natCast] at this
    exact_mod_cast this
  -- the exact weighted set
  have hwf : (FS.exactSet c).WF := (FS.exactSet_wf (ScalarCoefs.wf_iff.mp h)).wf
  obtain ⟨w', -, hl', hw'⟩ := nvec_spec N
  obtain ⟨d', ed', d1', d2', A, eA, g, eg, -, -, -, -, hg⟩ := lcomp_spec .py call (FS.exactSet c) hwf N M L k hn hm hL hk hk2 w' hl' hw'
  obtain ⟨d'', ed'', dw', -, -, dv'⟩ := windowed_spec hwf (nmax := N) hn hl' hw'
  have hdd : d'' = d' := by rw [ed'] at ed''; exact (Except.ok.inj ed'').symm
  subst hdd
  have hlen' : d''.vec.length = seg (N + 1) (2 * M + 1) := by
    have := dw'.len
    have e := ncFormula_eq (nmax := N) (mmax := M) (by omega) (by omega)
    rw [d1', d2', e, show ((N : ℤ) + 1).toNat = N + 1 by omega, Int.toNat_natCast] at this
    exact_mod_cast this
  obtain ⟨A', eA', hA⟩ := scToFc_backend .py call d''.vec N M (2 * L) k (by omega) (by omega) hk hlen'
  have hAA : A' = A := by rw [eA] at eA'; exact (Except.ok.inj eA').symm
  subst hAA
  -- the arrays in doubles
  obtain ⟨Ah, eAh, hAh⟩ := FS.scToFc_spec jp d.vec N M (2 * L) k (by omega) (by omega) (by omega) hlen
  have eB : Fl.backendScToFc rnd jp b call d.vec N M ((2 * L : ℕ) : ℤ) k = .ok Ah := by
    cases b with
    | py => exact eAh
    | c J =>
      have := FS.py_eq_c hrd (hj.2 (by simp)) J call d dw (by omega) (by omega) ((2 * L : ℕ) : ℤ) k (by omega) (by omega)
      rw [d1, d2, hn, hm] at this
      rw [this]; exact eAh
  obtain ⟨A0, eA0, hA0⟩ := Verif.scToFc_spec (d.vec.map FS.val) N M (2 * L) k (by omega) (by omega) (by omega) (by rw [List.length_map]; exact hlen)
  -- the weighted coefficients
  have hz : ∀ (m : ℤ) (n : ℕ), m.natAbs ≤ n → n ≤ N → m.natAbs ≤ M → ∃ z : FC rnd, c.absMap n m = some z ∧ FS.cfF d.vec N m n = z * ⟨wF rnd n, 0⟩ ∧ (FS.exactSet c).cf n m = FS.val z := by
    intro m n a1 a2 a3
    have hmo : IsMode c.nmax c.mmax n m := ⟨by omega, by omega, by rw [Int.abs_eq_natAbs]; omega, by rw [Int.abs_eq_natAbs]; omega⟩
    refine ⟨_, ScalarCoefs.absMap_mode h hmo, ?_, ?_⟩
    · have k1 := FS.cfF_eq dw (d1.trans hn) (d2.trans hm) a1 a2 a3
      rw [readMap_eq dw, dv n m hmo, ScalarCoefs.absMap_mode h hmo, Int.toNat_natCast, hw n a2] at k1
      exact (Option.some.inj k1).symm
    · unfold ScalarCoefs.cf
      have hmo' : IsMode (FS.exactSet c).nmax (FS.exactSet c).mmax n m := hmo
      rw [ScalarCoefs.absMap_mode hwf hmo']
      simp [FS.exactSet]
  have hzb : ∀ (m : ℤ) (n : ℕ), m.natAbs ≤ n → n ≤ N → m.natAbs ≤ M → |(FS.cfF d.vec N m n).re| ≤ C ∧ |(FS.cfF d.vec N m n).im| ≤ C ∧
      ‖FS.val (FS.cfF d.vec N m n) - wcf (FS.exactSet c) m n‖ ≤ 12 * uu * C ∧ ‖wcf (FS.exactSet c) m n‖ ≤ 2 * C := by
    intro m n a1 a2 a3
    obtain ⟨z, z1, z2, z3⟩ := hz m n a1 a2 a3
    unfold wcf
    rw [z2, z3]
    by_cases n0 : n = 0
    · have : (z * (⟨wF rnd n, 0⟩ : FC rnd)) = 0 := by
        rw [mul_real hrd, n0]
        unfold wF
        simp only [if_true, mul_zero, FS.rnd0 hrd]; rfl
      rw [this, FS.val_zero, show wdeg n = 0 by rw [n0]; rfl]
      have e1 : (0 : FC rnd).re = 0 := rfl
      have e2 : (0 : FC rnd).im = 0 := rfl
      rw [e1, e2, abs_zero, zero_mul, sub_zero, norm_zero]
      exact ⟨C0.le, C0.le, by positivity, by positivity⟩
    · obtain ⟨b1, b2⟩ := hcC n m z ⟨by omega, by omega, by rw [Int.abs_eq_natAbs]; omega, by rw [Int.abs_eq_natAbs]; omega⟩ (by omega) z1
      obtain ⟨b3, b4, b5⟩ := weight_err hrd (n := n) (by omega) hC hC' b1 b2
      refine ⟨b3, b4, b5, ?_⟩
      rw [norm_mul, wdeg_eq, Complex.norm_real, Real.norm_eq_abs, abs_of_nonneg (wR_nonneg n)]
      have := norm_val_le z b1 b2
      have := mul_le_mul (wR_le n) this (norm_nonneg _) (by norm_num)
      linarith
  have hGc : ∀ m ν : ℤ, m.natAbs ≤ M → Gval (cfOf d''.vec N) N m ν = Gval (wcf (FS.exactSet c)) N m ν := by
    intro m ν hx
    refine Gval_congr _ _ _ _ _ fun n a1 a2 => ?_
    rw [cfOf_eq dw' d1' d2' a1 a2 hx, dv' n m ⟨by omega, by rw [show (FS.exactSet c).nmax = N from hn]; omega, by rw [Int.abs_eq_natAbs]; omega, by rw [Int.abs_eq_natAbs, show (FS.exactSet c).mmax = M from hm]; omega⟩]
    rfl
  -- an entry at frequencies in the basic range
  have hent : ∀ m ν : ℤ, -(L : ℤ) < ν → ν ≤ L → 2 * m ≤ k → -(k : ℤ) < 2 * m →
      fAt A' m ν = (if m.natAbs ≤ M then Gval (wcf (FS.exactSet c)) N m ν else 0) ∧ ‖fAt A' m ν‖ ≤ entG N C ∧
      ‖FS.val (fA Ah m ν) - fAt A' m ν‖ ≤ if ν.natAbs ≤ N ∧ m.natAbs ≤ M then entE N C else 0 := by
    intro m ν a1 a2 a3 a4
    have q1 := hA.fAt (M := L) rfl hL hk m ν (by rw [abs_le]; omega) (by omega)
    have q2 := hA0.fAt (M := L) rfl hL hk m ν (by rw [abs_le]; omega) (by omega)
    have q3 := FS.fAt_err hrd hj.1 hN (by omega) hC hC' d.vec (fun m n b1 b2 b3 => ⟨(hzb m n b1 b2 b3).1, (hzb m n b1 b2 b3).2.1⟩) hAh hA0 (by omega) (by omega) hk m ν
      (by rw [mem_Ioc]; omega) (by rw [mem_Ioc]; omega)
    have q4 : fAt (Ah.map FS.val) m ν = FS.val (fA Ah m ν) := fA_map Ah FS.val (by rw [hAh.rows]; omega) (by rw [hAh.cols]; omega) m ν
    rw [q4] at q3
    have q5 : fAt A' m ν = (if m.natAbs ≤ M then Gval (wcf (FS.exactSet c)) N m ν else 0) := by
      rw [q1]
      by_cases hx : m.natAbs ≤ M
      · rw [if_pos hx, if_pos hx, hGc m ν hx]
      · rw [if_neg hx, if_neg hx]
    have g0 : 0 ≤ entG N C := by unfold entG; positivity
    refine ⟨q5, ?_, ?_⟩
    · rw [q5]
      by_cases hx : m.natAbs ≤ M
      · rw [if_pos hx]
        have := Gval_diff (wcf (FS.exactSet c)) (fun _ _ => 0) N m ν (η := 2 * C) (by positivity) (fun n b1 b2 => by rw [sub_zero]; exact (hzb m n b1 b2 hx).2.2.2)
        have z : Gval (fun _ _ => 0) N m ν = 0 := by unfold Gval; simp
        rw [z, sub_zero] at this
        exact this
      · rw [if_neg hx, norm_zero]; exact g0
    · by_cases hx : m.natAbs ≤ M
      · by_cases hy : ν.natAbs ≤ N
        · rw [if_pos ⟨hy, hx⟩] at q3 ⊢
          have := Gval_diff (cfOf (d.vec.map FS.val) N) (wcf (FS.exactSet c)) N m ν (η := 12 * uu * C) (by positivity) (fun n b1 b2 => by
            rw [FS.cfOf_val]; exact (hzb m n b1 b2 hx).2.2.1)
          rw [q2, if_pos hx] at q3
          rw [q5, if_pos hx]
          have t := norm_add_le (FS.val (fA Ah m ν) - Gval (cfOf (d.vec.map FS.val) N) N m ν) (Gval (cfOf (d.vec.map FS.val) N) N m ν - Gval (wcf (FS.exactSet c)) N m ν)
          rw [sub_add_sub_cancel] at t
          unfold entE
          linarith
        · have hy' : ¬ (ν.natAbs ≤ N ∧ m.natAbs ≤ M) := fun h => hy h.1
          rw [if_neg hy'] at q3 ⊢
          rw [q5, if_pos hx, Gval_support _ _ _ _ (by rw [Int.abs_eq_natAbs]; omega)]
          rw [q2, if_pos hx, Gval_support _ _ _ _ (by rw [Int.abs_eq_natAbs]; omega)] at q3
          exact q3
      · have hx' : ¬ (ν.natAbs ≤ N ∧ m.natAbs ≤ M) := fun h => hx h.2
        rw [if_neg hx'] at q3 ⊢
        rw [q2, if_neg hx] at q3
        rw [q5, if_neg hx]
        exact q3
  refine ⟨d, ed, d1.trans hn, d2.trans hm, Ah, eB, ?_⟩
  obtain ⟨k', hk'⟩ : ∃ k', k = 2 * k' := ⟨k / 2, by omega⟩
  have hAr := hA.rows
  have hAc := hA.cols
  have hAhr := hAh.rows
  have hAhc := hAh.cols
  obtain ⟨-, -, nE, nt, nB⟩ := ent_num hN hM hC hC'
  have g0 : 0 ≤ entG N C := by unfold entG; positivity
  have E0 : 0 ≤ entE N C := by
    have := (hent 0 0 (by omega) (by omega) (by omega) (by omega)).2.2
    rw [if_pos ⟨by simp, by simp⟩] at this
    exact (norm_nonneg _).trans this
  let q : ℤ → ℤ := fun m => freqList k (m % k).toNat
  have hq := fun m => freq_spec k hk2 (by omega) m
  have val0 : ∀ z : FC rnd, FS.val z = 0 → z = 0 := by
    intro z hz
    have e1 := congrArg Complex.re hz
    have e2 := congrArg Complex.im hz
    cases z
    simp only [FS.val, Complex.zero_re, Complex.zero_im] at e1 e2
    subst e1 e2; rfl
  -- any entry
  have hall : ∀ m ν : ℤ, ∃ m₀ ν₀ : ℤ, m₀ % ((2 * k' : ℕ) : ℤ) = m % ((2 * k' : ℕ) : ℤ) ∧ ν₀ % ((2 * L : ℕ) : ℤ) = ν % ((2 * L : ℕ) : ℤ) ∧ -(k' : ℤ) < m₀ ∧ m₀ ≤ k' ∧ -(L : ℤ) < ν₀ ∧ ν₀ ≤ L ∧
      fAt A' m ν = (if m₀.natAbs ≤ M then Gval (wcf (FS.exactSet c)) N m₀ ν₀ else 0) ∧ ‖fAt A' m ν‖ ≤ entG N C ∧
      ‖FS.val (fA Ah m ν) - fAt A' m ν‖ ≤ if ν₀.natAbs ≤ N ∧ m₀.natAbs ≤ M then entE N C else 0 := by
    intro m ν
    obtain ⟨m₀, a1, a2, a3⟩ := rep k' (by omega) m
    obtain ⟨ν₀, b1, b2, b3⟩ := rep L (by omega) ν
    refine ⟨m₀, ν₀, a1, b1, a2, a3, b2, b3, ?_⟩
    have e1 : fAt A' m ν = fAt A' m₀ ν₀ := fA_congr A' (by rw [hAc, hk', a1]) (by rw [hAr, b1])
    have e2 : fA Ah m ν = fA Ah m₀ ν₀ := fA_congr Ah (by rw [hAhc, hk', a1]) (by rw [hAhr, b1])
    rw [e1, e2]
    exact hent m₀ ν₀ b2 b3 (by omega) (by omega)
  have zero_of : ∀ m ν : ℤ, ∀ e : ℝ, ‖FS.val (fA Ah m ν) - fAt A' m ν‖ ≤ e → e = 0 → fAt A' m ν = 0 → fA Ah m ν = 0 := by
    intro m ν e h1 h2 h3
    rw [h2, h3, sub_zero] at h1
    exact val0 _ (norm_le_zero_iff.mp h1)
  obtain ⟨gh, g', egh, eg', r1, c1, r2, c2, r3, c3, r4, c4, hgh⟩ := lFc_err hrd Ah A' N M L k hAhr hAr hAhc hAc (by omega) hk2 (by omega) hN hM g0 nt nB nE
    (fun m ν => if (q m).natAbs ≤ M then Hval (wcf (FS.exactSet c)) N (q m) ν else 0)
    (fun m ν => by
      obtain ⟨m₀, ν₀, -, -, -, -, -, -, -, a1, a2⟩ := hall m ν
      refine ⟨a1, a2.trans ?_⟩
      split_ifs
      · exact le_rfl
      · exact E0)
    (fun m ν b1 b2 b3 => by
      obtain ⟨m₀, ν₀, -, a0, -, -, a5, a6, a1, -, a2⟩ := hall m ν
      have hν := rep_eq a0 a5 a6 b1 (by omega)
      have hb : ¬ (ν₀.natAbs ≤ N ∧ m₀.natAbs ≤ M) := by
        rintro ⟨x, -⟩
        rw [Int.abs_eq_natAbs] at hν
        omega
      rw [if_neg hb] at a2
      have z : fAt A' m ν = 0 := by
        rw [a1, Gval_support _ _ _ _ (by omega)]; simp
      exact ⟨zero_of m ν _ a2 rfl z, z⟩)
    (fun m ν hx => by
      obtain ⟨m₀, ν₀, a0, -, a5, a6, -, -, a1, -, a2⟩ := hall m ν
      have hqm : q m % k = m % k ∧ -(k : ℤ) ≤ 2 * q m ∧ 2 * q m < k := hq m
      have e : m₀ % ((2 * k' : ℕ) : ℤ) = q m % ((2 * k' : ℕ) : ℤ) := by rw [a0, ← hk']; exact hqm.1.symm
      have hm0 := rep_eq e a5 a6 (by omega) (by omega)
      have hx' : (M : ℤ) < |q m| := hx
      have hb : ¬ m₀.natAbs ≤ M := by rw [← hm0, Int.abs_eq_natAbs] at hx'; omega
      rw [if_neg (fun h => hb h.2)] at a2
      have z : fAt A' m ν = 0 := by rw [a1, if_neg hb]
      refine ⟨zero_of m ν _ a2 rfl z, z, if_neg ?_⟩
      rw [Int.abs_eq_natAbs] at hx'; omega)
    (fun m ν hν => by
      rw [Hval_support _ _ _ _ (by omega)]; simp)
    (fun m ν hν => by
      have e : fAt A' m ν = fAt A' (q m) ν := fAt_congr A' (by rw [hAc]; exact (hq m).1.symm) ν
      rw [abs_le] at hν
      have hqm : q m % k = m % k ∧ -(k : ℤ) ≤ 2 * q m ∧ 2 * q m < k := hq m
      have hval : fAt A' (q m) ν = if (q m).natAbs ≤ M then Gval (wcf (FS.exactSet c)) N (q m) ν else 0 := by
        rw [hA.fAt (M := L) rfl hL hk (q m) ν (by rw [abs_le]; omega) (by omega)]
        by_cases hx : (q m).natAbs ≤ M
        · rw [if_pos hx, if_pos hx, hGc _ _ hx]
        · rw [if_neg hx, if_neg hx]
      rw [e, hval]
      by_cases hx : (q m).natAbs ≤ M
      · simp only [if_pos hx]
        exact Hval_sin (wcf (FS.exactSet c)) N (q m) ν
      · simp only [if_neg hx]; simp)
  have hgg : g' = g := by rw [eg] at eg'; exact (Except.ok.inj eg').symm
  subst hgg
  refine ⟨gh, egh, r1, c1, r2, c2, fun m ν hν b1 b2 => ?_⟩
  obtain ⟨f1, f2⟩ := hg m ν hν b1 b2
  have qm : freqList k (m % k).toNat = m := freqList_eq k hk2 m b1 b2
  -- frequency `L` is frequency `-L`
  obtain ⟨μ, μ1, μ2, μ3⟩ : ∃ μ : ℤ, μ % ((2 * L : ℕ) : ℤ) = ν % ((2 * L : ℕ) : ℤ) ∧ -(L : ℤ) ≤ μ ∧ μ < L := by
    rw [abs_le] at hν
    by_cases hνL : ν = L
    · refine ⟨-(L : ℤ), ?_, by omega, by omega⟩
      rw [hνL, ← Int.add_emod_right]; congr 1; push_cast; ring
    · exact ⟨ν, rfl, by omega, by omega⟩
  obtain ⟨p1, p2, p3, p4, p5, p6, p7⟩ := hgh m μ μ2 μ3
  rw [qm] at p7
  have s1 : fA gh.1 m μ = fA gh.1 m ν := fA_congr gh.1 rfl (by rw [r1, μ1])
  have s2 : fA gh.2 m μ = fA gh.2 m ν := fA_congr gh.2 rfl (by rw [r2, μ1])
  have s3 : fAt g'.1 m μ = fAt g'.1 m ν := fA_congr g'.1 rfl (by rw [r3, μ1])
  have s4 : fAt g'.2 m μ = fAt g'.2 m ν := fA_congr g'.2 rfl (by rw [r4, μ1])
  rw [s1, s3] at p5
  rw [s2, s4] at p6
  rw [s3] at p3
  rw [s4] at p4
  rw [s1] at p1
  rw [s2] at p2
  rw [s1, s2] at p7
  refine ⟨p1, p2, fun hx => ?_, fun hx => ?_⟩
  · rw [f1, if_pos hx] at p3 p5
    rw [f2, if_pos hx] at p4 p6
    rw [norm_neg] at p3
    rw [sub_neg_eq_add] at p5
    exact ⟨p3, p4, p5, p6⟩
  · obtain ⟨z1, z2, -, -⟩ := p7 (by rw [Int.abs_eq_natAbs]; omega)
    exact ⟨z1, z2⟩

end FV
end Verif.Props
