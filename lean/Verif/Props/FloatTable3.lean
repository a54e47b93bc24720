import Verif.Props.FloatTable2
/-!
# Property C92: the theorem
-/
namespace Verif.Props
open Verif
variable {rnd : ℝ → ℝ}

/-- The exact entries satisfy the exact recursion. -/
theorem exact_rec (n : ℕ) (m : ℤ) (y : ℕ → ℝ) (hy : ∀ i ≤ n / 2, ((y i : ℝ) : ℂ) = ycoef n m ((n : ℤ) - 2 * i)) :
    Tab.Rec (Tab.pp n) (Tab.qq n) (4 * (m : ℝ) ^ 2) (n / 2) (fun _ => 0) y := by
  constructor
  · intro h
    have r := ycoef_rec n m ((n : ℤ) - 2)
    have e1 := hy 1 h
    have e0 := hy 0 (by omega)
    norm_num at e1 e0
    rw [show (n : ℤ) - 2 + 2 = n by ring, ← e1, ← e0, ycoef_support n m ((n : ℤ) - 2 + 4) (by rw [lt_abs]; left; omega)] at r
    have r' : Tab.pp n 1 * y 1 = (Tab.qq n 1 + Tab.pp n 0 - 4 * (m : ℝ) ^ 2) * y 0 + 0 := by
      rw [← Complex.ofReal_inj]
      unfold Tab.pp Tab.qq
      push_cast at r ⊢
      linear_combination r
    exact r'
  · intro i h
    have r := ycoef_rec n m ((n : ℤ) - 2 * ((i + 2 : ℕ) : ℤ))
    have e2 := hy (i + 2) h
    have e1 := hy (i + 1) (by omega)
    have e0 := hy i (by omega)
    rw [show (n : ℤ) - 2 * ((i + 2 : ℕ) : ℤ) + 2 = n - 2 * ((i + 1 : ℕ) : ℤ) by push_cast; ring,
      show (n : ℤ) - 2 * ((i + 2 : ℕ) : ℤ) + 4 = n - 2 * (i : ℤ) by push_cast; ring, ← e2, ← e1, ← e0] at r
    have r' : Tab.pp n (i + 2) * y (i + 2) = (Tab.qq n (i + 2) + Tab.pp n (i + 1) - 4 * (m : ℝ) ^ 2) * y (i + 1) - Tab.qq n (i + 1) * y i + 0 := by
      rw [← Complex.ofReal_inj]
      unfold Tab.pp Tab.qq
      push_cast at r ⊢
      linear_combination r
    exact r'

theorem coef_num (n : ℕ) (N : ℝ) (h0 : 0 ≤ N) (h : 2 * N ≤ n) :
    ((6 * (n : ℝ) + 5) / 2 + 7 * (N * (N + 1) / 2)) * (2 * n + 3) + 7 / 2 * N * n + 9 * (n + 1) * (N + 1) ≤ 2 * ((n : ℝ) + 3) ^ 3 := by
  have n0 : (0 : ℝ) ≤ n := by positivity
  have a : N * (N + 1) ≤ n / 2 * (n / 2 + 1) := by nlinarith
  have b : 7 * (N * (N + 1) / 2) * (2 * n + 3) ≤ 7 * (n / 2 * (n / 2 + 1) / 2) * (2 * n + 3) := by
    refine mul_le_mul_of_nonneg_right ?_ (by positivity); linarith
  have c : 7 / 2 * N * n ≤ 7 / 4 * n * n := by nlinarith
  have d : 9 * ((n : ℝ) + 1) * (N + 1) ≤ 9 * (n + 1) * (n / 2 + 1) := mul_le_mul_of_nonneg_left (by linarith) (by positivity)
  have e : 0 ≤ (n : ℝ) * ((n : ℝ) - 3 / 4) ^ 2 := by positivity
  nlinarith

theorem coef_num0 (n : ℕ) (N : ℝ) (h0 : 0 ≤ N) (h : 2 * N ≤ n) : (6 * (n : ℝ) + 5) / 2 + 7 * (N * (N + 1) / 2) ≤ ((n : ℝ) + 3) ^ 2 := by
  have n0 : (0 : ℝ) ≤ n := by positivity
  have a : N * (N + 1) ≤ n / 2 * (n / 2 + 1) := by nlinarith
  nlinarith

theorem ynnm_pos (n : ℕ) (m : ℤ) (hm : m.natAbs ≤ n) : 1 / 4 * (1 / 2) ^ n ≤ Verif.ynnm n m := by
  rw [ynnm_prod n m hm]
  have h1 := (prod_f2_bounds n (n - m.natAbs) (by omega)).1
  have h2 := (prod_f1_bounds n).1
  have h3 := a_bounds.1
  have h4 : (0 : ℝ) < (1 / 2) ^ n := by positivity
  have h5 := mul_le_mul h3 h2 h4.le (by linarith)
  refine h5.trans (le_mul_of_one_le_right ?_ h1)
  exact le_trans (by positivity) h5

theorem tau_le {n : ℕ} (hn : n ≤ 1000) {y : ℝ} (h : 1 / 4 * (1 / 2) ^ n ≤ y) : 2 ^ 20 * tiny ≤ 4 * uu * y := by
  have e : (2 : ℝ) ^ 20 * tiny = 2 ^ (-1054 : ℤ) := by
    unfold tiny; rw [← zpow_natCast, ← zpow_add₀ (by norm_num)]; norm_num
  have h1 : (1 / 2 : ℝ) ^ 1000 ≤ (1 / 2) ^ n := pow_le_pow_of_le_one (by norm_num) (by norm_num) hn
  have e2 : 4 * uu * (1 / 4 * (1 / 2) ^ 1000) = (2 : ℝ) ^ (-1053 : ℤ) := by
    unfold uu
    rw [show (1 / 2 : ℝ) ^ 1000 = 2 ^ (-1000 : ℤ) by rw [one_div, inv_pow, zpow_neg]; norm_cast]
    have : (4 : ℝ) * 2 ^ (-53 : ℤ) * (1 / 4 * 2 ^ (-1000 : ℤ)) = 2 ^ (-53 : ℤ) * 2 ^ (-1000 : ℤ) := by ring
    rw [this, ← zpow_add₀ (by norm_num)]; norm_num
  rw [e]
  calc (2 : ℝ) ^ (-1054 : ℤ) ≤ 2 ^ (-1053 : ℤ) := zpow_le_zpow_right₀ (by norm_num) (by norm_num)
    _ = 4 * uu * (1 / 4 * (1 / 2) ^ 1000) := e2.symm
    _ ≤ 4 * uu * y := mul_le_mul_of_nonneg_left ((mul_le_mul_of_nonneg_left h1 (by norm_num)).trans h) (by linarith [uu_pos])

/-- The entries of a table with rounding errors but no overflow. -/
theorem seq_err {f : ℝ → ℝ} (hf : Err f) (n : ℕ) (m : ℤ) (hn : n ≤ 1000) (hm : m.natAbs ≤ n) (top : ℝ)
    (htop : |top - Verif.ynnm n m| ≤ (6 * n + 5) * 2 ^ (-52 : ℤ) * Verif.ynnm n m) (y : ℕ → ℝ)
    (hy : ∀ i ≤ n / 2, ((y i : ℝ) : ℂ) = ycoef n m ((n : ℤ) - 2 * i)) : ∀ i ≤ n / 2,
    |wseq f n m top i - y i| ≤ ((n : ℝ) + 3) ^ 3 * 2 ^ (-50 : ℤ) * Real.sqrt ((2 * n + 1) / (4 * Real.pi)) ∧
      (m = 0 → 0 < y i ∧ |wseq f n m top i - y i| ≤ ((n : ℝ) + 3) ^ 2 * 2 ^ (-51 : ℤ) * y i) := by
  have u0 := uu_pos
  have hrec := exact_rec n m y hy
  have hw := rec_defect n (4 * (m : ℝ) ^ 2) (wseq f n m top) (n / 2)
  have hdef := defect_le hf n m hn top
  have e0 : y 0 = Verif.ynnm n m := by
    have := hy 0 (by omega)
    norm_num at this
    rw [ycoef_lead n m hm] at this
    exact Complex.ofReal_inj.mp this
  have yp := ynnm_pos n m hm
  rw [← e0] at yp
  have y0 : 0 < y 0 := lt_of_lt_of_le (by positivity) yp
  have ha : |wseq f n m top 0 - y 0| ≤ ((6 * n + 5) / 2 * (4 * uu)) * y 0 := by
    rw [e0]
    refine htop.trans (le_of_eq ?_)
    rw [two_uu]; ring
  have hY : ∀ i ≤ n / 2, |y i| ≤ Real.sqrt ((2 * n + 1) / (4 * Real.pi)) := by
    intro i hi
    have := ycoef_le n m hm ((n : ℤ) - 2 * i)
    rw [← hy i hi, Complex.norm_real] at this
    exact this
  have hτ := tau_le hn yp
  have u4 : 4 * uu = 2 ^ (-51 : ℤ) := by unfold uu; norm_num
  have u5 : (2 : ℝ) ^ (-50 : ℤ) = 2 * (4 * uu) := by unfold uu; norm_num
  have hN : 2 * ((n / 2 : ℕ) : ℝ) ≤ n := by exact_mod_cast (by omega : 2 * (n / 2) ≤ n)
  have hN0 : (0 : ℝ) ≤ ((n / 2 : ℕ) : ℝ) := by positivity
  have hn' : (n : ℝ) ≤ 1000 := by exact_mod_cast hn
  have n0 : (0 : ℝ) ≤ n := by positivity
  have cub : ((n : ℝ) + 3) ^ 3 ≤ 1003 ^ 3 := pow_le_pow_left₀ (by positivity) (by linarith) 3
  have sqr : ((n : ℝ) + 3) ^ 2 ≤ 1003 ^ 2 := pow_le_pow_left₀ (by positivity) (by linarith) 2
  by_cases h0 : m = 0
  · subst h0
    have z : (4 * ((0 : ℤ) : ℝ) ^ 2) = 0 := by norm_num
    rw [z] at hrec hw hdef
    have hsm : (6 * (n : ℝ) + 5) / 2 * (4 * uu) + 7 * (4 * uu) * ((n / 2 : ℕ) * ((n / 2 : ℕ) + 1) / 2) ≤ ((n : ℝ) + 3) ^ 2 * (4 * uu) := by
      have := mul_le_mul_of_nonneg_right (coef_num0 n _ hN0 hN) (by linarith : 0 ≤ 4 * uu)
      linarith
    have hs1 : ((n : ℝ) + 3) ^ 2 * (4 * uu) ≤ 1 := by
      refine (mul_le_mul_of_nonneg_right sqr (by linarith)).trans ?_
      unfold uu; norm_num
    have main := Tab.main0 n (4 * uu) (2 ^ 20 * tiny) _ (by linarith) hrec hw y0 ha hτ hdef (hsm.trans hs1)
    have pos := (Tab.zonal_exact (Tab.links n) hrec y0).2
    intro i hi
    have hb : |wseq f n 0 top i - y i| ≤ ((n : ℝ) + 3) ^ 2 * (4 * uu) * y i := by
      refine (main i hi).trans (mul_le_mul_of_nonneg_right (le_trans ?_ hsm) (pos i hi).le)
      have hi' : (i : ℝ) ≤ ((n / 2 : ℕ) : ℝ) := by exact_mod_cast hi
      have i0 : (0 : ℝ) ≤ i := by positivity
      have : (i : ℝ) * (i + 1) ≤ ((n / 2 : ℕ) : ℝ) * (((n / 2 : ℕ) : ℝ) + 1) := mul_le_mul hi' (by linarith) (by linarith) hN0
      have := mul_le_mul_of_nonneg_left this (by linarith : 0 ≤ 7 * (4 * uu) / 2)
      linarith
    refine ⟨hb.trans ?_, fun _ => ⟨pos i hi, by rw [← u4]; exact hb⟩⟩
    rw [u5]
    have hYi := (le_abs_self _).trans (hY i hi)
    have c : ((n : ℝ) + 3) ^ 2 * (4 * uu) ≤ (n + 3) ^ 3 * (2 * (4 * uu)) := by
      have : ((n : ℝ) + 3) ^ 2 ≤ (n + 3) ^ 3 * 2 := by nlinarith [sq_nonneg ((n : ℝ) + 3)]
      nlinarith
    exact mul_le_mul c hYi (pos i hi).le (by positivity)
  · have hs : (4 * (m : ℝ) ^ 2) = 4 * ((m.natAbs : ℕ) : ℝ) ^ 2 := by
      have : ((m.natAbs : ℕ) : ℝ) ^ 2 = (m : ℝ) ^ 2 := by
        rw [Nat.cast_natAbs, Int.cast_abs, sq_abs]
      rw [this]
    rw [hs] at hrec hw hdef
    have hsm : ((6 * (n : ℝ) + 5) / 2 * (4 * uu) + 7 * (4 * uu) * ((n / 2 : ℕ) * ((n / 2 : ℕ) + 1) / 2)) * (2 * n + 3) +
        7 / 2 * (4 * uu) * (n / 2 : ℕ) * n + 9 * (4 * uu) * (n + 1) * ((n / 2 : ℕ) + 1) ≤ ((n : ℝ) + 3) ^ 3 * 2 ^ (-50 : ℤ) := by
      rw [u5]
      have := mul_le_mul_of_nonneg_right (coef_num n _ hN0 hN) (by linarith : 0 ≤ 4 * uu)
      linarith
    have hs1 : ((n : ℝ) + 3) ^ 3 * 2 ^ (-50 : ℤ) ≤ 1 := by
      refine (mul_le_mul_of_nonneg_right cub (by positivity)).trans ?_
      norm_num
    have main := Tab.main n m.natAbs (by omega) hm (4 * uu) (2 ^ 20 * tiny) _ _ (by linarith) hrec hw y0 hY (by positivity) ha hτ hdef (hsm.trans hs1)
    intro i hi
    exact ⟨(main i hi).trans (mul_le_mul_of_nonneg_right hsm (Real.sqrt_nonneg _)), fun h => absurd h h0⟩

theorem rowMax_le {n : ℕ} (hn : n ≤ 1000) : Real.sqrt ((2 * n + 1) / (4 * Real.pi)) ≤ 16 := by
  have hp := Real.pi_gt_three
  have hn' : (n : ℝ) ≤ 1000 := by exact_mod_cast hn
  apply Real.sqrt_le_iff.mpr
  refine ⟨by norm_num, ?_⟩
  rw [div_le_iff₀ (by positivity)]
  linarith

theorem lead_size {n i : ℕ} {m : ℤ} (hn : n ≤ 1000) (hm : m.natAbs ≤ n) (hi : i ≤ n) : |((leadInt n m ((n : ℤ) - 2 * (i + 1)) : ℤ) : ℝ)| ≤ 2 ^ 30 := by
  have h1 : |leadInt n m ((n : ℤ) - 2 * (i + 1))| ≤ 2 ^ 30 := by
    unfold leadInt bInt
    have hm2 : m ^ 2 ≤ 1000 * 1000 := by
      have := Int.natAbs_sq m
      have h : m.natAbs ^ 2 ≤ 1000 ^ 2 := Nat.pow_le_pow_left (by omega) 2
      zify at h
      rw [sq_abs] at h
      norm_num at h ⊢; exact h
    have hm0 : 0 ≤ m ^ 2 := sq_nonneg m
    have n1 : (n : ℤ) ≤ 1000 := by exact_mod_cast hn
    have n0 : (0 : ℤ) ≤ n := by positivity
    have i1 : (i : ℤ) ≤ n := by exact_mod_cast hi
    have i0 : (0 : ℤ) ≤ i := by positivity
    rw [abs_le]
    constructor <;> nlinarith
  exact_mod_cast h1

theorem b_size {n : ℕ} {k : ℤ} (hn : n ≤ 1000) (hk : 0 ≤ k ∧ k ≤ n + 8) : |((bInt n k : ℤ) : ℝ)| ≤ 2 ^ 44 := by
  have := bInt_small (n := n) (k := k) (by omega) hk
  exact_mod_cast this

/-- With entries of moderate size the clipped recursion is the recursion. -/
theorem clip_wseq (hr : IsRounding rnd) (n : ℕ) (m : ℤ) (hn : n ≤ 1000) (hm : m.natAbs ≤ n) (top : ℝ)
    (hb : ∀ i ≤ n / 2, |wseq (clip rnd) n m top i| ≤ 32) : ∀ i ≤ n / 2, wseq rnd n m top i = wseq (clip rnd) n m top i := by
  have hc := clip_err hr
  have t1 : tiny ≤ 1 := zpow_le_one_of_nonpos₀ (by norm_num) (by norm_num)
  have t0 := tiny_pos
  have u1 := uu_small
  have u0 := uu_pos
  have big : (2 : ℝ) ^ 60 ≤ 2 ^ (1022 : ℤ) := by
    rw [← zpow_natCast]; exact zpow_le_zpow_right₀ (by norm_num) (by norm_num)
  have hmul : ∀ c x : ℝ, |c| ≤ 2 ^ 44 → |x| ≤ 32 → |c * x| ≤ 2 ^ 50 := by
    intro c x h1 h2
    rw [abs_mul]
    refine (mul_le_mul h1 h2 (abs_nonneg _) (by positivity)).trans (by norm_num)
  have hcl : ∀ x K : ℝ, |x| ≤ K → 1 ≤ K → |clip rnd x| ≤ 2 * K := by
    intro x K h h1
    have := hc.abs_le x
    nlinarith [abs_nonneg x]
  have hsub : ∀ a b K : ℝ, |a| ≤ K → |b| ≤ K → |a - b| ≤ 2 * K := fun a b K h1 h2 => (abs_sub _ _).trans (by linarith)
  have hdiv : ∀ a p K : ℝ, |a| ≤ K → 1 ≤ p → |a / p| ≤ K := by
    intro a p K h1 h2
    rw [abs_div, abs_of_pos (by linarith : 0 < p)]
    exact (div_le_self (abs_nonneg _) h2).trans h1
  have ce : ∀ x K : ℝ, |x| ≤ K → K ≤ 2 ^ 60 → rnd x = clip rnd x := fun x K h1 h2 => (clip_eq (h1.trans (h2.trans big))).symm
  intro i
  induction i using Nat.strong_induction_on with
  | _ i ih =>
    intro hi
    rcases i with _ | _ | i
    · rfl
    · have w0 := hb 0 (by omega)
      have L := lead_size (i := 0) hn hm (by omega)
      norm_num at L
      have p1 := pp_ge (n := n) (i := 1) le_rfl (by omega)
      rw [← bInt_pp] at p1
      norm_num at p1
      have a1 := hmul _ _ (L.trans (by norm_num)) w0
      have a2 := hcl _ _ a1 (by norm_num)
      have a3 := hdiv _ _ _ a2 p1
      simp only [wseq] at a1 a2 a3 ⊢
      rw [ce _ _ a1 (by norm_num), ce _ _ a3 (by norm_num)]
    · have w0 := hb i (by omega)
      have w1 := hb (i + 1) (by omega)
      have L := lead_size (i := i + 1) hn hm (by omega)
      have B := b_size (n := n) (k := (n : ℤ) - 2 * (i + 2) + 3) hn (by omega)
      push_cast at L
      rw [show (n : ℤ) - 2 * ((i : ℤ) + 1 + 1) = n - 2 * (i + 2) by ring] at L
      have p1 := pp_ge (n := n) (i := i + 2) (by omega) (by omega)
      rw [← bInt_pp] at p1
      push_cast at p1
      have a1 := hmul _ _ (L.trans (by norm_num)) w1
      have b1 := hmul _ _ B w0
      have a2 := hcl _ _ a1 (by norm_num)
      have b2 := hcl _ _ b1 (by norm_num)
      have c1 := hsub _ _ _ a2 b2
      have c2 := hcl _ _ c1 (by norm_num)
      have a3 := hdiv _ _ _ c2 p1
      have e1 := ih (i + 1) (by omega) (by omega)
      have e0 := ih i (by omega) (by omega)
      simp only [wseq] at a1 b1 a2 b2 c1 c2 a3 ⊢
      rw [e1, e0, ce _ _ a1 (by norm_num), ce _ _ b1 (by norm_num), ce _ _ c1 (by norm_num), ce _ _ a3 (by norm_num)]

/-- C92: up to degree 1000 every entry of the table of harmonics is within `(n+3)^3 2^-50` of the largest value the harmonics of degree `n` can take, and
for order 0 every entry has a relative error of at most `(n+3)^2 2^-51`; the Python and the C function return the same table. -/
theorem c92_table (hr : IsRounding rnd) (n : ℕ) (m : ℤ) (L : ℕ) (hm : |m| ≤ n) (hn : n ≤ 1000) (hL : n < L) :
    ∃ out exact, Fl.ynunm rnd n m L = .ok out ∧ (∀ y : List ℝ, y.length = L → Fl.cYnunm rnd n m y L = .ok out) ∧ Verif.ynunm n m L = .ok exact ∧
      out.length = L ∧ exact.length = L ∧ ∀ (k : ℕ) (a b : ℝ), out[k]? = some a → exact[k]? = some b →
        |b| ≤ Real.sqrt ((2 * n + 1) / (4 * Real.pi)) ∧
        |a - b| ≤ ((n : ℝ) + 3) ^ 3 * 2 ^ (-50 : ℤ) * Real.sqrt ((2 * n + 1) / (4 * Real.pi)) ∧
        (m = 0 → |a - b| ≤ ((n : ℝ) + 3) ^ 2 * 2 ^ (-51 : ℤ) * b) := by
  have hm' : m.natAbs ≤ n := by rw [Int.abs_eq_natAbs] at hm; omega
  obtain ⟨out, eo, lo, ho⟩ := table_seq hr n m L hL hm (by omega)
  obtain ⟨ex, ee, le, he⟩ := ynunm_spec n m L hm' hL
  refine ⟨out, ex, eo, fun y hy => (c87_backends hr n m y L hL hy (by omega)).trans eo, ee, lo, le, fun k a b ha hb => ?_⟩
  have ga : out.getD k 0 = a := by rw [List.getD_eq_getElem?_getD, ha]; rfl
  have gb : ex.getD k 0 = b := by rw [List.getD_eq_getElem?_getD, hb]; rfl
  have bb : (b : ℂ) = ycoef n m k := by rw [← gb]; exact he k
  refine ⟨by have := ycoef_le n m hm' k; rwa [← bb, Complex.norm_real] at this, ?_⟩
  rw [← ga, ho k]
  have r0 : 0 ≤ Real.sqrt ((2 * n + 1) / (4 * Real.pi)) := Real.sqrt_nonneg _
  by_cases hk : k ≤ n ∧ (n - k) % 2 = 0
  · rw [if_pos hk]
    have hy : ∀ i ≤ n / 2, (((fun i => ex.getD (n - 2 * i) 0) i : ℝ) : ℂ) = ycoef n m ((n : ℤ) - 2 * i) := by
      intro i hi
      simp only []
      rw [he]
      congr 1; omega
    have main := seq_err (clip_err hr) n m hn hm' (Fl.ynnm rnd n m) (c86_accurate_partial hr n m hm hn) _ hy
    have bnd : ∀ i ≤ n / 2, |wseq (clip rnd) n m (Fl.ynnm rnd n m) i| ≤ 32 := by
      intro i hi
      have h1 := (main i hi).1
      have h2 := ycoef_le n m hm' ((n : ℤ) - 2 * i)
      rw [← hy i hi, Complex.norm_real, Real.norm_eq_abs] at h2
      have h3 := rowMax_le hn
      have h4 : ((n : ℝ) + 3) ^ 3 * 2 ^ (-50 : ℤ) ≤ 1 := by
        have hn' : (n : ℝ) ≤ 1000 := by exact_mod_cast hn
        have cub : ((n : ℝ) + 3) ^ 3 ≤ 1003 ^ 3 := pow_le_pow_left₀ (by positivity) (by linarith) 3
        refine (mul_le_mul_of_nonneg_right cub (by positivity)).trans ?_
        norm_num
      have h5 := mul_le_mul_of_nonneg_right h4 r0
      have h6 := abs_sub_abs_le_abs_sub (wseq (clip rnd) n m (Fl.ynnm rnd n m) i) (ex.getD (n - 2 * i) 0)
      linarith
    rw [clip_wseq hr n m hn hm' _ bnd _ (by omega)]
    have := main ((n - k) / 2) (by omega)
    rw [show n - 2 * ((n - k) / 2) = k by omega, gb] at this
    exact ⟨this.1, fun h => (this.2 h).2⟩
  · rw [if_neg hk]
    have b0 : b = 0 := by
      have : ycoef n m k = 0 := by
        by_cases h : k ≤ n
        · exact ycoef_parity n m k (by omega)
        · exact ycoef_support n m k (by rw [lt_abs]; left; omega)
      rw [this] at bb
      exact_mod_cast bb
    rw [b0, sub_zero, abs_zero, mul_zero]
    exact ⟨by positivity, fun _ => le_rfl⟩

/-- Not vacuous: the table of degree 1000 and order 3, read at every entry. -/
example : ∃ rnd : ℝ → ℝ, IsRounding rnd ∧ ∃ out exact, Fl.ynunm rnd 1000 3 1001 = .ok out ∧ Verif.ynunm 1000 3 1001 = .ok exact ∧
    ∀ k < 1001, ∃ a b, out[k]? = some a ∧ exact[k]? = some b ∧ |a - b| ≤ 2 ^ (-15 : ℤ) := by
  obtain ⟨rnd, hr⟩ := isRounding_exists
  obtain ⟨out, ex, e1, -, e2, l1, l2, h⟩ := c92_table hr 1000 3 1001 (by norm_num) (by norm_num) (by norm_num)
  norm_num at e1 e2
  refine ⟨rnd, hr, out, ex, e1, e2, fun k hk => ⟨_, _, List.getElem?_eq_getElem (by omega), List.getElem?_eq_getElem (by omega), ?_⟩⟩
  refine (h k _ _ (List.getElem?_eq_getElem (by omega)) (List.getElem?_eq_getElem (by omega))).2.1.trans ?_
  have := rowMax_le (n := 1000) (by norm_num)
  refine (mul_le_mul_of_nonneg_left this (by positivity)).trans ?_
  norm_num

end Verif.Props
