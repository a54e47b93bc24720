import Verif.Props.FloatVec3
/-!
# Property C96: `vispht` in double precision is accurate
-/
namespace Verif.Props
open Verif Finset

variable {rnd : ℝ → ℝ}

namespace FV

/-- Bound on the error of a Fourier coefficient of the field. -/
noncomputable def fieldErr (N M : ℕ) (C : ℝ) : ℝ := (2 * N + 1) * (M + 1) * (N + 1) * ((N : ℝ) + 4) ^ 3 * 2 ^ (-47 : ℤ) * C * FS.rowMax N

/-- Bound on a Fourier coefficient of the field. -/
noncomputable def fieldMax (N M : ℕ) (C : ℝ) : ℝ := 8 * (2 * N + 1) * (M + 1) * (N + 1) * C * FS.rowMax N

theorem field_num {N M : ℕ} (hN : N ≤ 1000) (hM : M ≤ 1000) {C : ℝ} (hC : 2 ^ (-900 : ℤ) ≤ C) (hC' : C ≤ 2 ^ (900 : ℤ)) {e1 e2 h1 h2 : ℝ}
    (he1 : e1 = (2 * N + 1) * stepErr ((M + 1) * entG N C) ((M + 1) * (entE N C + 4 * uu * entG N C)) (2 * N + 2))
    (he2 : e2 = (N + 1) * (entE N C + 4 * uu * entG N C)) (hh1 : h1 = (2 * N + 1) * (2 * ((M + 1) * entG N C))) (hh2 : h2 = (N + 1) * entG N C) :
    e1 + e2 + 3 * uu * fieldMax N M C ≤ fieldErr N M C ∧ h1 + h2 + (e1 + e2) ≤ fieldMax N M C ∧ h1 + h2 + fieldErr N M C ≤ fieldMax N M C ∧
      tiny ≤ uu * fieldMax N M C / 100 ∧ fieldMax N M C ≤ 2 ^ (1020 : ℤ) ∧ 0 ≤ fieldMax N M C ∧ 0 ≤ fieldErr N M C := by
  obtain ⟨hE, hG, -, ht, hB⟩ := ent_num hN hM hC hC'
  have n0 : (0 : ℝ) ≤ N := Nat.cast_nonneg N
  have n1 : (N : ℝ) ≤ 1000 := by exact_mod_cast hN
  have m0 : (0 : ℝ) ≤ M := Nat.cast_nonneg M
  have C0 : 0 < C := lt_of_lt_of_le (by positivity) hC
  have r0 : 0 < FS.rowMax N := lt_of_lt_of_le (by norm_num) (FS.rowMax_ge N)
  have u0 := uu_pos
  obtain ⟨ρ, hρ⟩ : ∃ ρ, ρ = FS.rowMax N := ⟨_, rfl⟩
  obtain ⟨P, hP⟩ : ∃ P, P = uu * (N + 1) * C * FS.rowMax N := ⟨_, rfl⟩
  have P0 : 0 ≤ P := by rw [hP]; positivity
  obtain ⟨Q, hQ⟩ : ∃ Q : ℝ, Q = (2 * N + 1) * (M + 1) := ⟨_, rfl⟩
  have Q1 : (N : ℝ) + 1 ≤ Q := by rw [hQ]; nlinarith
  have eq1 : fieldErr N M C = 64 * ((N : ℝ) + 4) ^ 3 * Q * P := by
    unfold fieldErr
    rw [hQ, hP, show (2 : ℝ) ^ (-47 : ℤ) = 64 * uu by unfold uu; norm_num]; ring
  have eq2 : uu * fieldMax N M C = 8 * Q * P := by unfold fieldMax; rw [hQ, hP]; ring
  rw [← hP] at hE hG
  have n3 : (64 : ℝ) ≤ ((N : ℝ) + 4) ^ 3 := by
    have : (4 : ℝ) ^ 3 ≤ ((N : ℝ) + 4) ^ 3 := pow_le_pow_left₀ (by norm_num) (by linarith) 3
    linarith
  have n4 : 50 * ((N : ℝ) + 1) ≤ ((N : ℝ) + 4) ^ 3 := by nlinarith [sq_nonneg (N : ℝ), mul_nonneg n0 (sq_nonneg (N : ℝ))]
  have QP : 0 ≤ Q * P := mul_nonneg (by linarith) P0
  have E4 : entE N C + 4 * uu * entG N C ≤ 17 * ((N : ℝ) + 4) ^ 3 * P + 8 * P := by nlinarith
  have b1 : e1 ≤ (36 * ((N : ℝ) + 4) ^ 3) * (Q * P) := by
    have : e1 = Q * (2 * (entE N C + 4 * uu * entG N C) + 40 * (N + 1) * (uu * entG N C)) := by
      rw [he1, hQ]; unfold stepErr; ring
    rw [this, hG]
    have h : 2 * (entE N C + 4 * uu * entG N C) + 40 * (N + 1) * (2 * P) ≤ (36 * ((N : ℝ) + 4) ^ 3) * P := by
      have a1 := mul_le_mul_of_nonneg_right n3 P0
      have a2 := mul_le_mul_of_nonneg_right n4 P0
      linarith
    calc _ ≤ Q * ((36 * ((N : ℝ) + 4) ^ 3) * P) := mul_le_mul_of_nonneg_left h (by linarith)
      _ = _ := by ring
  have b2 : e2 ≤ (18 * ((N : ℝ) + 4) ^ 3) * (Q * P) := by
    rw [he2]
    have h : entE N C + 4 * uu * entG N C ≤ (18 * ((N : ℝ) + 4) ^ 3) * P := by
      have a1 := mul_le_mul_of_nonneg_right n3 P0
      linarith
    calc _ ≤ ((N : ℝ) + 1) * ((18 * ((N : ℝ) + 4) ^ 3) * P) := mul_le_mul_of_nonneg_left h (by linarith)
      _ ≤ Q * ((18 * ((N : ℝ) + 4) ^ 3) * P) := mul_le_mul_of_nonneg_right Q1 (by positivity)
      _ = _ := by ring
  have QP3 := mul_le_mul_of_nonneg_right n3 QP
  obtain ⟨R, hR⟩ : ∃ R, R = (N + 1) * C * FS.rowMax N := ⟨_, rfl⟩
  have R0 : 0 ≤ R := by rw [hR]; positivity
  have hPR : P = uu * R := by rw [hP, hR]; ring
  have eG : entG N C = 2 * R := by unfold entG; rw [hR]; ring
  have eM : fieldMax N M C = 8 * (Q * R) := by unfold fieldMax; rw [hQ, hR]; ring
  have QR : 0 ≤ Q * R := mul_nonneg (by linarith) R0
  have c1 : e1 + e2 + 3 * uu * fieldMax N M C ≤ fieldErr N M C := by
    rw [eq1]
    have : 3 * uu * fieldMax N M C = 24 * (Q * P) := by rw [mul_assoc, eq2]; ring
    rw [this]
    linarith
  have small : fieldErr N M C ≤ 1 / 1000 * (Q * R) := by
    rw [eq1, hPR]
    have h3 : ((N : ℝ) + 4) ^ 3 ≤ 1004 ^ 3 := pow_le_pow_left₀ (by positivity) (by linarith) 3
    have h4 : 64 * ((N : ℝ) + 4) ^ 3 * uu ≤ 1 / 1000 := by
      refine (mul_le_mul_of_nonneg_right (mul_le_mul_of_nonneg_left h3 (by norm_num)) u0.le).trans ?_
      unfold uu; norm_num
    have := mul_le_mul_of_nonneg_right h4 QR
    linarith
  have hh : h1 + h2 ≤ 6 * (Q * R) := by
    rw [hh1, hh2, eG]
    have : ((N : ℝ) + 1) * R ≤ Q * R := mul_le_mul_of_nonneg_right Q1 R0
    have e : (2 * (N : ℝ) + 1) * (2 * ((M + 1) * (2 * R))) = 4 * (Q * R) := by rw [hQ]; ring
    rw [e]; linarith
  have M0 : 0 ≤ fieldMax N M C := by rw [eM]; linarith
  have uM : 0 ≤ uu * fieldMax N M C := mul_nonneg u0.le M0
  refine ⟨c1, by linarith, by linarith, ?_, ?_, M0, by rw [eq1, mul_assoc]; exact mul_nonneg (by positivity) QP⟩
  · refine ht.trans ?_
    rw [hG, eq2]
    have : 1 * P ≤ Q * P := mul_le_mul_of_nonneg_right (by linarith) P0
    linarith
  · have h5 : fieldMax N M C ≤ 4 * ((2 * N + 2) * ((M + 1) * entG N C)) := by
      rw [eM, eG, hQ]
      have : 0 ≤ (M + 1) * R := by positivity
      nlinarith
    refine h5.trans ((mul_le_mul_of_nonneg_left hB (by norm_num)).trans ?_)
    rw [show (4 : ℝ) = 2 ^ (2 : ℤ) by norm_num, ← zpow_add₀ (by norm_num)]
    exact zpow_le_zpow_right₀ (by norm_num) (by norm_num)

/-- Sum or difference of two approximate numbers. -/
theorem comb_sub (hr : IsRounding rnd) {a b : FC rnd} {x y : ℂ} {e1 e2 h1 h2 B F : ℝ} (hB0 : 0 ≤ B) (ht : tiny ≤ uu * B / 100) (hB : B ≤ 2 ^ (1020 : ℤ))
    (ha : ‖FS.val a - x‖ ≤ e1) (hb : ‖FS.val b - y‖ ≤ e2) (hx : ‖x‖ ≤ h1) (hy : ‖y‖ ≤ h2) (h : h1 + h2 + (e1 + e2) ≤ B) (hF : e1 + e2 + 3 * uu * B ≤ F) :
    ‖FS.val (a - b) - (x - y)‖ ≤ F ∧ ‖FS.val (a + b) - (x + y)‖ ≤ F := by
  have a1 : ‖FS.val a‖ ≤ e1 + h1 := by
    have := norm_add_le (FS.val a - x) x
    rw [sub_add_cancel] at this; linarith
  have b1 : ‖FS.val b‖ ≤ e2 + h2 := by
    have := norm_add_le (FS.val b - y) y
    rw [sub_add_cancel] at this; linarith
  constructor
  · have k := sub_err hr (a := a) (b := b) hB0 ht hB ((norm_sub_le _ _).trans (by linarith))
    have e : FS.val (a - b) - (x - y) = (FS.val (a - b) - (FS.val a - FS.val b)) + ((FS.val a - x) - (FS.val b - y)) := by ring
    rw [e]
    have := norm_add_le (FS.val (a - b) - (FS.val a - FS.val b)) ((FS.val a - x) - (FS.val b - y))
    have := norm_sub_le (FS.val a - x) (FS.val b - y)
    linarith
  · have k := add_err hr (a := a) (b := b) hB0 ht hB ((norm_add_le _ _).trans (by linarith))
    have e : FS.val (a + b) - (x + y) = (FS.val (a + b) - (FS.val a + FS.val b)) + ((FS.val a - x) + (FS.val b - y)) := by ring
    rw [e]
    have := norm_add_le (FS.val (a + b) - (FS.val a + FS.val b)) ((FS.val a - x) + (FS.val b - y))
    have := norm_add_le (FS.val a - x) (FS.val b - y)
    linarith

/-- The same vector coefficients as exact numbers. -/
def exactSetV (c : VectorCoefs (FC rnd)) : VectorCoefs ℂ := ⟨FS.exactSet c.scoef1, FS.exactSet c.scoef2, c.nmax, c.mmax⟩

theorem exactSetV_wf {c : VectorCoefs (FC rnd)} (h : c.WellFormed) : (exactSetV c).WellFormed :=
  ⟨FS.exactSet_wf h.wf1, FS.exactSet_wf h.wf2, h.n1, h.n2, h.m1, h.m2⟩

theorem absMapV {c : VectorCoefs (FC rnd)} (hc : c.WellFormed) {n m : ℤ} (hn : n ≠ 0) {x y : FC rnd} (h : readMapV c n m = some (x, y)) :
    c.scoef1.absMap n m = some x ∧ c.scoef2.absMap n m = some y := by
  rw [readMapV_eq hc, if_neg hn] at h
  cases h1 : c.scoef1.absMap n m with
  | none => rw [h1] at h; cases h
  | some x =>
    cases h2 : c.scoef2.absMap n m with
    | none => rw [h1, h2] at h; cases h
    | some y =>
      rw [h1, h2] at h
      simp only [Option.bind_some, Option.map_some, Option.some.injEq, Prod.mk.injEq] at h
      exact ⟨congrArg some h.1, congrArg some h.2⟩

/-- The entry at `i, j` is the entry at some frequencies of the basic range. -/
theorem at_freq {α : Type} [Zero α] (A : Arr2 α) (L k : ℕ) (hr : A.rows = 2 * L) (hc : A.cols = k) (hL : 0 < L) (hk : 0 < k) (hk2 : k % 2 = 0) (i j : ℕ) (hi : i < 2 * L) (hj : j < k) :
    ∃ m ν : ℤ, A.at' i j = fA A m ν ∧ |ν| ≤ L ∧ -(k : ℤ) ≤ 2 * m ∧ 2 * m < k := by
  obtain ⟨ν, e1, e2, e3⟩ := rep L hL i
  obtain ⟨f1, f2, f3⟩ := freq_spec k hk2 hk j
  refine ⟨freqList k ((j : ℤ) % k).toNat, ν, ?_, by rw [abs_le]; omega, f2, f3⟩
  unfold fA
  rw [hr, hc, e1, f1]
  congr 1
  · rw [Int.emod_eq_of_lt (by omega) (by omega)]; omega
  · rw [Int.emod_eq_of_lt (by omega) (by omega)]; omega

end FV
open FV in
/-- `vispht` in doubles against exact `vispht`, over the whole doubled arrays. -/
theorem vispht_aux (hrd : NoOverflow rnd) {jp : Int → FC rnd} (b : Backend) (c : VectorCoefs (FC rnd)) (hc : c.WellFormed)
    (N M : ℕ) (hn : c.nmax = N) (hm : c.mmax = M) (hj : PowFor b M jp) (hN : N ≤ 1000) (v w : ℤ → ℤ → FC rnd)
    (hvw : ∀ n m, IsMode c.nmax c.mmax n m → n ≠ 0 → readMapV c n m = some (v n m, w n m)) (C : ℝ) (hC : 2 ^ (-900 : ℤ) ≤ C) (hC' : C ≤ 2 ^ (900 : ℤ))
    (hvC : ∀ n m, IsMode c.nmax c.mmax n m → n ≠ 0 → |(v n m).re| ≤ C ∧ |(v n m).im| ≤ C) (hwC : ∀ n m, IsMode c.nmax c.mmax n m → n ≠ 0 → |(w n m).re| ≤ C ∧ |(w n m).im| ≤ C)
    (nr nc : ℤ) (h1 : c.nmax + 2 ≤ nr) (h2 : 2 * c.mmax + 2 ≤ nc) (h3 : nc % 2 = 0) (inv : Arr2 (FC rnd) → Int → Int → Res (Arr2 (FC rnd))) (δ : ℝ)
    (hinv : ∀ f : Arr2 (FC rnd), (f.rows : ℤ) = 2 * nr - 2 → (f.cols : ℤ) = nc → (∀ i j, i < f.rows → j < f.cols → FS.Fix (f.at' i j) ∧ ‖FS.val (f.at' i j)‖ ≤ fieldMax N M C) →
      FftWithin inv δ f (2 * nr - 2) nc) :
    ∃ g D, Fl.vispht rnd jp (Fl.visphtPost rnd inv) b c (some nr) (some nc) = .ok g ∧ vispht .py (exactSetV c) (some nr) (some nc) = .ok D ∧
      (g.td.rows : ℤ) = 2 * nr - 2 ∧ (g.td.cols : ℤ) = nc ∧ g.pd.rows = g.td.rows ∧ g.pd.cols = g.td.cols ∧
      D.td.rows = g.td.rows ∧ D.td.cols = g.td.cols ∧ D.pd.rows = g.td.rows ∧ D.pd.cols = g.td.cols ∧ ∀ i j : ℕ, i < g.td.rows → j < g.td.cols →
      ‖FS.val (g.td.at' i j) - D.td.at' i j‖ ≤ δ + (2 * nr - 1) * (2 * M + 1) * fieldErr N M C ∧
      ‖FS.val (g.pd.at' i j) - D.pd.at' i j‖ ≤ δ + (2 * nr - 1) * (2 * M + 1) * fieldErr N M C := by
  have hr := hrd.toIsRounding
  have wf1 := hc.wf1.wf
  have wf2 := hc.wf2.wf
  have hmn : M ≤ N := by have := wf1.mn; have := hc.n1; have := hc.m1; omega
  obtain ⟨r, rfl⟩ := Int.eq_ofNat_of_zero_le (show 0 ≤ nr by omega)
  obtain ⟨k, rfl⟩ := Int.eq_ofNat_of_zero_le (show 0 ≤ nc by omega)
  obtain ⟨L, hL⟩ : ∃ L, r = L + 1 := ⟨r - 1, by omega⟩
  obtain ⟨wl, ew, hwl, hwv⟩ := nvecF_spec (rnd := rnd) N
  have bd : ∀ (n m : ℤ), IsMode N M n m → n ≠ 0 → c.scoef1.absMap n m = some (v n m) ∧ c.scoef2.absMap n m = some (w n m) := fun n m a1 a2 =>
    absMapV hc a2 (hvw n m (by rw [hn, hm]; exact a1) a2)
  obtain ⟨d1, ed1, d11, d12, A1, eA1, g1, eg1, r11, c11, r12, c12, v1⟩ :=
    lcomp_err hrd b 0 c.scoef1 wf1 N M L k (hc.n1.trans hn) (hc.m1.trans hm) hj hN (by omega) (by omega) (by omega) (by omega) wl hwl hwv hC hC'
      (fun n m z a1 a2 a3 => by
        rw [(bd n m a1 a2).1] at a3
        rw [← Option.some.inj a3]
        exact hvC n m (by rw [hn, hm]; exact a1) a2)
  obtain ⟨d2, ed2, d21, d22, A2, eA2, g2, eg2, r21, c21, r22, c22, v2⟩ :=
    lcomp_err hrd b 1 c.scoef2 wf2 N M L k (hc.n2.trans hn) (hc.m2.trans hm) hj hN (by omega) (by omega) (by omega) (by omega) wl hwl hwv hC hC'
      (fun n m z a1 a2 a3 => by
        rw [(bd n m a1 a2).2] at a3
        rw [← Option.some.inj a3]
        exact hwC n m (by rw [hn, hm]; exact a1) a2)
  obtain ⟨F1, F2, F3, F4, F5, F6, F7⟩ := field_num (M := M) hN (by omega) hC hC' rfl rfl rfl rfl
  set ft := g1.1.zip (fun a b => a - (⟨0, 1⟩ : FC rnd) * b) g2.2 with hft
  set fp := g1.2.zip (fun a b => a + (⟨0, 1⟩ : FC rnd) * b) g2.1 with hfp
  have ftr : ft.rows = 2 * L := r11
  have ftc : ft.cols = k := c11
  have fpr : fp.rows = 2 * L := r12
  have fpc : fp.cols = k := c12
  -- the Fourier coefficients of the field
  have key : ∀ m ν : ℤ, |ν| ≤ L → -(k : ℤ) ≤ 2 * m → 2 * m < k →
      (m.natAbs ≤ M → ‖FS.val (fA ft m ν) - (-Hval (wcf (FS.exactSet c.scoef1)) N m ν - Complex.I * (ν * Gval (wcf (FS.exactSet c.scoef2)) N m ν))‖ ≤ fieldErr N M C ∧
        ‖FS.val (fA fp m ν) - (ν * Gval (wcf (FS.exactSet c.scoef1)) N m ν - Complex.I * Hval (wcf (FS.exactSet c.scoef2)) N m ν)‖ ≤ fieldErr N M C) ∧
      (¬ m.natAbs ≤ M → fA ft m ν = 0 ∧ fA fp m ν = 0) ∧ FS.Fix (fA ft m ν) ∧ FS.Fix (fA fp m ν) ∧ ‖FS.val (fA ft m ν)‖ ≤ fieldMax N M C ∧ ‖FS.val (fA fp m ν)‖ ≤ fieldMax N M C := by
    intro m ν a1 a2 a3
    have et : fA ft m ν = fA g1.1 m ν - (⟨0, 1⟩ : FC rnd) * fA g2.2 m ν := fA_zip _ _ _ (by omega) (by omega) (by omega) (by omega) m ν
    have ep : fA fp m ν = fA g1.2 m ν + (⟨0, 1⟩ : FC rnd) * fA g2.1 m ν := fA_zip _ _ _ (by omega) (by omega) (by omega) (by omega) m ν
    obtain ⟨p1, p2, p3, p4⟩ := v1 m ν a1 a2 a3
    obtain ⟨q1, q2, q3, q4⟩ := v2 m ν a1 a2 a3
    have fix1 : FS.Fix (fA ft m ν) := by rw [et]; exact sub_fix hrd _ _
    have fix2 : FS.Fix (fA fp m ν) := by rw [ep]; exact add_fix hrd _ _
    by_cases hx : m.natAbs ≤ M
    · obtain ⟨p5, p6, p7, p8⟩ := p3 hx
      obtain ⟨q5, q6, q7, q8⟩ := q3 hx
      obtain ⟨i1, -⟩ := val_i hrd q2
      obtain ⟨i2, -⟩ := val_i hrd q1
      have s1 : ‖FS.val ((⟨0, 1⟩ : FC rnd) * fA g2.2 m ν) - Complex.I * (ν * Gval (wcf (FS.exactSet c.scoef2)) N m ν)‖ ≤ (N + 1) * (entE N C + 4 * uu * entG N C) := by
        rw [i1, ← mul_sub, norm_mul, Complex.norm_I, one_mul]; exact q8
      have s2 : ‖FS.val ((⟨0, 1⟩ : FC rnd) * fA g2.1 m ν) - -(Complex.I * Hval (wcf (FS.exactSet c.scoef2)) N m ν)‖ ≤
          (2 * N + 1) * stepErr ((M + 1) * entG N C) ((M + 1) * (entE N C + 4 * uu * entG N C)) (2 * N + 2) := by
        rw [i2, sub_neg_eq_add, ← mul_add, norm_mul, Complex.norm_I, one_mul]; exact q7
      have t1 := (comb_sub hr F6 F4 F5 (x := -Hval (wcf (FS.exactSet c.scoef1)) N m ν) (by rw [sub_neg_eq_add]; exact p7) s1 (by rw [norm_neg]; exact p5)
        (by rw [norm_mul, Complex.norm_I, one_mul]; exact q6) F2 F1).1
      have y5 : ‖-(Complex.I * Hval (wcf (FS.exactSet c.scoef2)) N m ν)‖ ≤ (2 * N + 1) * (2 * ((M + 1) * entG N C)) := by
        rw [norm_neg, norm_mul, Complex.norm_I, one_mul]; exact q5
      have t2 := (comb_sub hr (F := fieldErr N M C) F6 F4 F5 p8 s2 p6 y5 (by linarith) (by linarith)).2
      rw [← et] at t1
      rw [← ep, ← sub_eq_add_neg] at t2
      refine ⟨fun _ => ⟨t1, t2⟩, fun h => absurd hx h, fix1, fix2, ?_, ?_⟩
      · have y1 := norm_add_le (FS.val (fA ft m ν) - (-Hval (wcf (FS.exactSet c.scoef1)) N m ν - Complex.I * (ν * Gval (wcf (FS.exactSet c.scoef2)) N m ν)))
          (-Hval (wcf (FS.exactSet c.scoef1)) N m ν - Complex.I * (ν * Gval (wcf (FS.exactSet c.scoef2)) N m ν))
        rw [sub_add_cancel] at y1
        have y2 := norm_sub_le (-Hval (wcf (FS.exactSet c.scoef1)) N m ν) (Complex.I * (ν * Gval (wcf (FS.exactSet c.scoef2)) N m ν))
        rw [norm_neg, norm_mul Complex.I, Complex.norm_I, one_mul] at y2
        linarith
      · have y1 := norm_add_le (FS.val (fA fp m ν) - (ν * Gval (wcf (FS.exactSet c.scoef1)) N m ν - Complex.I * Hval (wcf (FS.exactSet c.scoef2)) N m ν))
          (ν * Gval (wcf (FS.exactSet c.scoef1)) N m ν - Complex.I * Hval (wcf (FS.exactSet c.scoef2)) N m ν)
        rw [sub_add_cancel] at y1
        have y2 := norm_sub_le (ν * Gval (wcf (FS.exactSet c.scoef1)) N m ν) (Complex.I * Hval (wcf (FS.exactSet c.scoef2)) N m ν)
        rw [norm_mul Complex.I, Complex.norm_I, one_mul] at y2
        linarith
    · obtain ⟨z1, z2⟩ := p4 hx
      obtain ⟨z3, z4⟩ := q4 hx
      have r0 := FS.rnd0 hrd
      have zz1 : fA ft m ν = 0 := by
        rw [et, z1, z4, im_mul_zero hrd]
        show (⟨rnd (0 - 0), rnd (0 - 0)⟩ : FC rnd) = ⟨0, 0⟩
        rw [sub_zero, r0]
      have zz2 : fA fp m ν = 0 := by
        rw [ep, z2, z3, im_mul_zero hrd]
        show (⟨rnd (0 + 0), rnd (0 + 0)⟩ : FC rnd) = ⟨0, 0⟩
        rw [add_zero, r0]
      refine ⟨fun h => absurd h hx, fun _ => ⟨zz1, zz2⟩, fix1, fix2, ?_, ?_⟩
      · rw [zz1, FS.val_zero, norm_zero]; exact F6
      · rw [zz2, FS.val_zero, norm_zero]; exact F6
  -- the inverse transforms
  have ents : ∀ f : Arr2 (FC rnd), f.rows = 2 * L → f.cols = k → (∀ m ν : ℤ, |ν| ≤ L → -(k : ℤ) ≤ 2 * m → 2 * m < k → FS.Fix (fA f m ν) ∧ ‖FS.val (fA f m ν)‖ ≤ fieldMax N M C) →
      ∀ i j, i < f.rows → j < f.cols → FS.Fix (f.at' i j) ∧ ‖FS.val (f.at' i j)‖ ≤ fieldMax N M C := by
    intro f e1 e2 h i j hi hj'
    obtain ⟨m, ν, e, a1, a2, a3⟩ := at_freq f L k e1 e2 (by omega) (by omega) (by omega) i j (by omega) (by omega)
    rw [e]; exact h m ν a1 a2 a3
  obtain ⟨Gt, Gt', eGt, eGt', Gtr, Gtc, hGt⟩ := hinv ft (by omega) (by omega) (ents ft ftr ftc fun m ν a1 a2 a3 => ⟨(key m ν a1 a2 a3).2.2.1, (key m ν a1 a2 a3).2.2.2.2.1⟩)
  obtain ⟨Gp, Gp', eGp, eGp', Gpr, Gpc, hGp⟩ := hinv fp (by omega) (by omega) (ents fp fpr fpc fun m ν a1 a2 a3 => ⟨(key m ν a1 a2 a3).2.2.2.1, (key m ν a1 a2 a3).2.2.2.2.2⟩)
  have hrw : 2 * (r : ℤ) - 2 = ((2 * r - 2 : ℕ) : ℤ) := by omega
  obtain ⟨T, eT, Tr, Tc, hT, -⟩ := invFourier_spec (ft.map FS.val) (2 * r - 2) k (by rw [Arr2.rows_map]; omega) (by rw [Arr2.cols_map]; omega) (by omega) (by omega)
  obtain ⟨P, eP, Pr, Pc, hP, -⟩ := invFourier_spec (fp.map FS.val) (2 * r - 2) k (by rw [Arr2.rows_map]; omega) (by rw [Arr2.cols_map]; omega) (by omega) (by omega)
  have hTT : Gt' = T := by rw [hrw, eT] at eGt'; exact (Except.ok.inj eGt').symm
  have hPP : Gp' = P := by rw [hrw, eP] at eGp'; exact (Except.ok.inj eGp').symm
  subst hTT hPP
  -- the exact transform
  obtain ⟨D, eD, Dtr, Dtc, Dpr, Dpc, hDt, hDp, hDv⟩ := vispht_main .py (exactSetV c) (exactSetV_wf hc) (some (r : ℤ)) (some (k : ℤ)) r k rfl rfl h1 h2 (by omega)
  have hDv' : ∀ m ν : ℤ, |ν| ≤ L → 2 * m.natAbs ≤ k →
      dftc D.td ν m = (if m.natAbs ≤ M then -Hval (wcf (FS.exactSet c.scoef1)) N m ν - Complex.I * (ν * Gval (wcf (FS.exactSet c.scoef2)) N m ν) else 0) ∧
      dftc D.pd ν m = if m.natAbs ≤ M then ν * Gval (wcf (FS.exactSet c.scoef1)) N m ν - Complex.I * Hval (wcf (FS.exactSet c.scoef2)) N m ν else 0 := by
    intro m ν a1 a2
    have := hDv m ν (by rw [show ((r - 1 : ℕ) : ℤ) = L by omega]; exact a1) a2
    have e1 : (exactSetV c).nmax.toNat = N := by show c.nmax.toNat = N; omega
    have e2 : (|m| ≤ (exactSetV c).mmax) ↔ (m.natAbs ≤ M) := by
      show |m| ≤ c.mmax ↔ _
      rw [hm, Int.abs_eq_natAbs]; omega
    rw [e1] at this
    simp only [e2] at this
    exact this
  refine ⟨⟨Gt, Gp⟩, D, ?_, eD, by show (Gt.rows : ℤ) = _; omega, by show (Gt.cols : ℤ) = _; omega, by show Gp.rows = Gt.rows; omega, by show Gp.cols = Gt.cols; omega,
    by show _ = Gt.rows; omega, by show _ = Gt.cols; omega, by show _ = Gt.rows; omega, by show _ = Gt.cols; omega, fun i j hi hj2 => ?_⟩
  · unfold Fl.vispht
    simp only [Option.getD_some]
    rw [visphtGuards_ok _ _ _ _ (by omega) (by omega) (by omega)]
    simp only [Except.bind_ok]
    rw [hn, ew, scopy_wf wf1, scopy_wf wf2]
    simp only [Except.bind_ok]
    rw [ed1, ed2]
    simp only [Except.bind_ok]
    rw [d11, d12, d21, d22, show 2 * (r : ℤ) - 2 = ((2 * L : ℕ) : ℤ) by omega, eA1]
    simp only [Except.bind_ok]
    have fin : ∀ x : Res (Arr2 (FC rnd)), x = .ok A2 → (x.bind fun f2 => Fl.visphtPost rnd inv A1 f2 ((2 * L : ℕ) : ℤ) k) = .ok ⟨Gt, Gp⟩ := by
      rintro x rfl
      simp only [Except.bind_ok]
      unfold Fl.visphtPost
      rw [eg1, eg2]
      simp only [Except.bind_ok]
      rw [← hft, ← hfp, show ((2 * L : ℕ) : ℤ) = 2 * (r : ℤ) - 2 by omega, eGt, eGp]
      simp only [Except.bind_ok]
      unfold TPatt.init
      simp only
      rw [if_neg (by omega)]
    cases b <;> exact fin _ eA2
  · have hi' : i < Gt.rows := hi
    have hj' : j < Gt.cols := hj2
    have red : ∀ m ν : ℤ, ν ∈ Ioc (-((2 * r - 2 - 1) / 2 : ℕ) - 1 : ℤ) (((2 * r - 2) / 2 : ℕ) : ℤ) → m ∈ Ioc (-((k - 1) / 2 : ℕ) - 1 : ℤ) ((k / 2 : ℕ) : ℤ) →
        ‖fAt (ft.map FS.val) m ν - dftc D.td ν m‖ ≤ (if ν.natAbs ≤ L ∧ m.natAbs ≤ M then fieldErr N M C else 0) ∧
        ‖fAt (fp.map FS.val) m ν - dftc D.pd ν m‖ ≤ if ν.natAbs ≤ L ∧ m.natAbs ≤ M then fieldErr N M C else 0 := by
      intro m ν hν hmm
      rw [mem_Ioc] at hν hmm
      have e1 : fAt (ft.map FS.val) m ν = FS.val (fA ft m ν) := fA_map ft FS.val (by omega) (by omega) m ν
      have e2 : fAt (fp.map FS.val) m ν = FS.val (fA fp m ν) := fA_map fp FS.val (by omega) (by omega) m ν
      obtain ⟨x1, x2⟩ := hDv' m ν (by rw [abs_le]; omega) (by omega)
      rw [e1, e2, x1, x2]
      by_cases hx : m.natAbs ≤ M
      · obtain ⟨y1, y2⟩ := (key m ν (by rw [abs_le]; omega) (by omega) (by omega)).1 hx
        simp only [if_pos hx, if_pos (show ν.natAbs ≤ L ∧ m.natAbs ≤ M from ⟨by omega, hx⟩)]
        exact ⟨y1, y2⟩
      · simp only [if_neg hx, if_neg (show ¬ (ν.natAbs ≤ L ∧ m.natAbs ≤ M) from fun h => hx h.2)]
        -- frequency `k/2` is frequency `-k/2`
        obtain ⟨m', a1, a2, a3, a4⟩ : ∃ m' : ℤ, m' % k = m % k ∧ -(k : ℤ) ≤ 2 * m' ∧ 2 * m' < k ∧ ¬ m'.natAbs ≤ M := by
          by_cases hb : 2 * m < k
          · exact ⟨m, rfl, by omega, hb, hx⟩
          · exact ⟨m - k, by rw [Int.sub_emod_right], by omega, by omega, by omega⟩
        have c1 : fA ft m ν = fA ft m' ν := fA_congr ft (by rw [ftc, a1]) rfl
        have c2 : fA fp m ν = fA fp m' ν := fA_congr fp (by rw [fpc, a1]) rfl
        obtain ⟨z1, z2⟩ := (key m' ν (by rw [abs_le]; omega) a2 a3).2.1 a4
        rw [c1, c2, z1, z2, FS.val_zero, sub_zero, norm_zero]
        exact ⟨le_rfl, le_rfl⟩
    have tri : ∀ (a : FC rnd) (x y : ℂ), ‖FS.val a - x‖ ≤ δ → ‖x - y‖ ≤ (2 * (L : ℝ) + 1) * (2 * M + 1) * fieldErr N M C →
        ‖FS.val a - y‖ ≤ δ + (2 * ((r : ℤ) : ℝ) - 1) * (2 * M + 1) * fieldErr N M C := by
      intro a x y b1 b2
      have := norm_add_le (FS.val a - x) (x - y)
      rw [sub_add_sub_cancel] at this
      have e : (2 * ((r : ℤ) : ℝ) - 1) = 2 * (L : ℝ) + 1 := by rw [hL]; push_cast; ring
      rw [e]; linarith
    constructor
    · refine tri _ (Gt'.at' i j) _ (hGt i j hi' hj') ?_
      rw [hT i j (by omega) (by omega), hDt i j (by omega) (by omega)]
      exact FS.sum_err F7 (fun m ν => fAt (ft.map FS.val) m ν) (fun m ν => dftc D.td ν m) _ _ (fun ν hν m hmm => (red m ν hν hmm).1) i j
    · refine tri _ (Gp'.at' i j) _ (hGp i j (by omega) (by omega)) ?_
      rw [hP i j (by omega) (by omega), hDp i j (by omega) (by omega)]
      exact FS.sum_err F7 (fun m ν => fAt (fp.map FS.val) m ν) (fun m ν => dftc D.pd ν m) _ _ (fun ν hν m hmm => (red m ν hν hmm).2) i j

open FV in
/-- `vispht` in doubles against exact `vispht`, over the whole doubled arrays. -/
theorem vispht_full (hrd : NoOverflow rnd) {jp : Int → FC rnd} (b : Backend) (c : VectorCoefs (FC rnd)) (hc : c.WellFormed)
    (N M : ℕ) (hn : c.nmax = N) (hm : c.mmax = M) (hj : PowOK b M jp) (hN : N ≤ 1000) (v w : ℤ → ℤ → FC rnd)
    (hvw : ∀ n m, IsMode c.nmax c.mmax n m → n ≠ 0 → readMapV c n m = some (v n m, w n m)) (C : ℝ) (hC : 2 ^ (-900 : ℤ) ≤ C) (hC' : C ≤ 2 ^ (900 : ℤ))
    (hvC : ∀ n m, IsMode c.nmax c.mmax n m → n ≠ 0 → |(v n m).re| ≤ C ∧ |(v n m).im| ≤ C) (hwC : ∀ n m, IsMode c.nmax c.mmax n m → n ≠ 0 → |(w n m).re| ≤ C ∧ |(w n m).im| ≤ C)
    (nr nc : ℤ) (h1 : c.nmax + 2 ≤ nr) (h2 : 2 * c.mmax + 2 ≤ nc) (h3 : nc % 2 = 0) (inv : Arr2 (FC rnd) → Int → Int → Res (Arr2 (FC rnd))) (δ : ℝ)
    (hinv : ∀ f : Arr2 (FC rnd), (f.rows : ℤ) = 2 * nr - 2 → (f.cols : ℤ) = nc → (∀ i j, i < f.rows → j < f.cols → FS.Fix (f.at' i j) ∧ ‖FS.val (f.at' i j)‖ ≤ fieldMax N M C) →
      FftWithin inv δ f (2 * nr - 2) nc) :
    ∃ g D, Fl.vispht rnd jp (Fl.visphtPost rnd inv) b c (some nr) (some nc) = .ok g ∧ vispht .py (exactSetV c) (some nr) (some nc) = .ok D ∧
      (g.td.rows : ℤ) = 2 * nr - 2 ∧ (g.td.cols : ℤ) = nc ∧ g.pd.rows = g.td.rows ∧ g.pd.cols = g.td.cols ∧
      D.td.rows = g.td.rows ∧ D.td.cols = g.td.cols ∧ D.pd.rows = g.td.rows ∧ D.pd.cols = g.td.cols ∧ ∀ i j : ℕ, i < g.td.rows → j < g.td.cols →
      ‖FS.val (g.td.at' i j) - D.td.at' i j‖ ≤ δ + (2 * nr - 1) * (2 * M + 1) * fieldErr N M C ∧
      ‖FS.val (g.pd.at' i j) - D.pd.at' i j‖ ≤ δ + (2 * nr - 1) * (2 * M + 1) * fieldErr N M C := by
  cases b with
  | py => exact vispht_aux hrd .py c hc N M hn hm (hj rfl).for hN v w hvw C hC hC' hvC hwC nr nc h1 h2 h3 inv δ hinv
  | c J => exact vispht_aux hrd (jp := fun m => ⟨(Complex.I ^ m).re, (Complex.I ^ m).im⟩) (.c J) c hc N M hn hm (PowExactTo.for fun _ _ => rfl) hN v w hvw C hC hC' hvC hwC nr nc h1 h2 h3 inv δ hinv

open FV in
/-- C96: `vispht` in doubles, with either backend, gives samples of the tangential field with the given coefficients up to an explicit error, if `np.fft.ifft2` is accurate to
`δ` on arrays of this shape with entries of this size. -/
theorem c96_vispht (hrd : NoOverflow rnd) {jp : Int → FC rnd} (b : Backend) (c : VectorCoefs (FC rnd)) (hc : c.WellFormed)
    (N M : ℕ) (hn : c.nmax = N) (hm : c.mmax = M) (hj : PowOK b M jp) (hN : N ≤ 1000) (v w : ℤ → ℤ → FC rnd)
    (hvw : ∀ n m, IsMode c.nmax c.mmax n m → n ≠ 0 → readMapV c n m = some (v n m, w n m)) (C : ℝ) (hC : 2 ^ (-900 : ℤ) ≤ C) (hC' : C ≤ 2 ^ (900 : ℤ))
    (hvC : ∀ n m, IsMode c.nmax c.mmax n m → n ≠ 0 → |(v n m).re| ≤ C ∧ |(v n m).im| ≤ C) (hwC : ∀ n m, IsMode c.nmax c.mmax n m → n ≠ 0 → |(w n m).re| ≤ C ∧ |(w n m).im| ≤ C)
    (nr nc : ℤ) (h1 : c.nmax + 2 ≤ nr) (h2 : 2 * c.mmax + 2 ≤ nc) (h3 : nc % 2 = 0) (inv : Arr2 (FC rnd) → Int → Int → Res (Arr2 (FC rnd))) (δ : ℝ)
    (hinv : ∀ f : Arr2 (FC rnd), (f.rows : ℤ) = 2 * nr - 2 → (f.cols : ℤ) = nc → (∀ i j, i < f.rows → j < f.cols → FS.Fix (f.at' i j) ∧
      ‖FS.val (f.at' i j)‖ ≤ 8 * (2 * N + 1) * (M + 1) * (N + 1) * C * Real.sqrt ((2 * N + 1) / (4 * Real.pi))) → FftWithin inv δ f (2 * nr - 2) nc) :
    ∃ p Eθ Eφ, Fl.vispht rnd jp (Fl.visphtPost rnd inv) b c (some nr) (some nc) = .ok p ∧ JacksonField c.nmax c.mmax (fun n m => FS.val (v n m)) (fun n m => FS.val (w n m)) Eθ Eφ ∧
      p.theta.rows = nr ∧ p.theta.cols = nc ∧ p.phi.rows = nr ∧ p.phi.cols = nc ∧ ∀ i j : ℕ, i < p.theta.rows → j < p.theta.cols →
      ‖FS.val (p.theta.at' i j) - Eθ (Real.pi * i / ((nr : ℝ) - 1)) (2 * Real.pi * j / nc)‖ ≤
        δ + (2 * nr - 1) * (2 * M + 1) * ((2 * N + 1) * (M + 1) * (N + 1) * ((N : ℝ) + 4) ^ 3 * 2 ^ (-47 : ℤ) * C * Real.sqrt ((2 * N + 1) / (4 * Real.pi))) ∧
      ‖FS.val (p.phi.at' i j) - Eφ (Real.pi * i / ((nr : ℝ) - 1)) (2 * Real.pi * j / nc)‖ ≤
        δ + (2 * nr - 1) * (2 * M + 1) * ((2 * N + 1) * (M + 1) * (N + 1) * ((N : ℝ) + 4) ^ 3 * 2 ^ (-47 : ℤ) * C * Real.sqrt ((2 * N + 1) / (4 * Real.pi))) := by
  obtain ⟨g, D, e1, e2, g1, g2, g3, g4, D1, D2, D3, D4, hg⟩ := vispht_full hrd b c hc N M hn hm hj hN v w hvw C hC hC' hvC hwC nr nc h1 h2 h3 inv δ hinv
  have hv : HasCoefsV (exactSetV c) (fun n m => FS.val (v n m)) (fun n m => FS.val (w n m)) := by
    intro n m hmo n0
    have hmo' : IsMode c.nmax c.mmax n m := hmo
    obtain ⟨a1, a2⟩ := absMapV hc n0 (hvw n m hmo' n0)
    rw [readMapV_eq (exactSetV_wf hc), if_neg n0]
    have m1 : IsMode c.scoef1.nmax c.scoef1.mmax n m := by rw [hc.n1, hc.m1]; exact hmo'
    have m2 : IsMode c.scoef2.nmax c.scoef2.mmax n m := by rw [hc.n2, hc.m2]; exact hmo'
    have b1 : (FS.exactSet c.scoef1).absMap n m = some (FS.val (v n m)) := by
      rw [ScalarCoefs.absMap_mode hc.wf1.wf m1] at a1
      rw [ScalarCoefs.absMap_mode (FS.exactSet_wf hc.wf1).wf m1, ← Option.some.inj a1]
      simp [FS.exactSet]
    have b2 : (FS.exactSet c.scoef2).absMap n m = some (FS.val (w n m)) := by
      rw [ScalarCoefs.absMap_mode hc.wf2.wf m2] at a2
      rw [ScalarCoefs.absMap_mode (FS.exactSet_wf hc.wf2).wf m2, ← Option.some.inj a2]
      simp [FS.exactSet]
    have b1' : (exactSetV c).scoef1.absMap n m = some (FS.val (v n m)) := b1
    have b2' : (exactSetV c).scoef2.absMap n m = some (FS.val (w n m)) := b2
    rw [b1', b2']; rfl
  obtain ⟨p, Eθ, Eφ, ep, hJ, t1, t2, p1, p2, hE⟩ := c50_vispht .py (exactSetV c) (exactSetV_wf hc) _ _ hv nr nc h1 h2 h3
  have hpD : p = D := by rw [e2] at ep; exact (Except.ok.inj ep).symm
  subst hpD
  have gn : g.nrows = p.nrows := by unfold TPatt.nrows; rw [D1]
  refine ⟨g, Eθ, Eφ, e1, hJ, ?_, g2, ?_, by show (g.pd.cols : ℤ) = nc; omega, fun i j hi hj' => ?_⟩
  · show ((min g.nrows g.td.rows : ℕ) : ℤ) = nr
    unfold TPatt.nrows; omega
  · show ((min g.nrows g.pd.rows : ℕ) : ℤ) = nr
    unfold TPatt.nrows; omega
  · have hi' : i < min g.nrows g.td.rows := hi
    have hj2 : j < g.td.cols := hj'
    have iD : i < min p.nrows p.td.rows := by rw [← gn, D1]; exact hi'
    have jD : j < p.td.cols := by omega
    obtain ⟨x1, x2⟩ := hE i j iD jD
    obtain ⟨y1, y2⟩ := hg i j (by omega) hj2
    unfold TPatt.theta Arr2.takeRows at x1 ⊢
    unfold TPatt.phi Arr2.takeRows at x2 ⊢
    rw [Arr2.at'_ofFn iD jD] at x1
    rw [Arr2.at'_ofFn (by omega) (by omega)] at x2
    rw [Arr2.at'_ofFn hi' hj2, Arr2.at'_ofFn (by omega) (by omega), ← x1, ← x2]
    exact ⟨y1, y2⟩

/-- Not vacuous: two sets of four different coefficients, synthesised on a 5 by 8 grid; both components are correct to `2^-25` if the FFT is exact. -/
example : ∃ (rnd : ℝ → ℝ) (jp : Int → FC rnd) (c : VectorCoefs (FC rnd)) (v w : ℤ → ℤ → FC rnd) (inv : Arr2 (FC rnd) → Int → Int → Res (Arr2 (FC rnd)))
    (p : TPatt (FC rnd)) (Eθ Eφ : ℝ → ℝ → ℂ), NoOverflow rnd ∧ PowExact jp ∧ c.WellFormed ∧ v 1 (-1) = ⟨2, 1⟩ ∧ w 1 1 = ⟨7, 1⟩ ∧
    Fl.vispht rnd jp (Fl.visphtPost rnd inv) .py c (some 5) (some 8) = .ok p ∧ JacksonField 1 1 (fun n m => FS.val (v n m)) (fun n m => FS.val (w n m)) Eθ Eφ ∧
    p.theta.rows = 5 ∧ p.theta.cols = 8 ∧ ∀ i j : ℕ, i < p.theta.rows → j < p.theta.cols →
      ‖FS.val (p.theta.at' i j) - Eθ (Real.pi * i / 4) (2 * Real.pi * j / 8)‖ ≤ 2 ^ (-25 : ℤ) ∧ ‖FS.val (p.phi.at' i j) - Eφ (Real.pi * i / 4) (2 * Real.pi * j / 8)‖ ≤ 2 ^ (-25 : ℤ) := by
  obtain ⟨rnd, h⟩ := noOverflow_exists
  obtain ⟨jp, hj⟩ : ∃ jp : Int → FC rnd, PowExact jp := ⟨fun m => ⟨(Complex.I ^ m).re, (Complex.I ^ m).im⟩, fun m _ => rfl⟩
  obtain ⟨c, hcd⟩ : ∃ c : VectorCoefs (FC rnd), c = ⟨⟨[⟨0, 1⟩, ⟨1, 1⟩, ⟨2, 1⟩, ⟨3, 1⟩], 1, 1⟩, ⟨[⟨4, 1⟩, ⟨5, 1⟩, ⟨6, 1⟩, ⟨7, 1⟩], 1, 1⟩, 1, 1⟩ := ⟨_, rfl⟩
  have w1 : c.scoef1.WF := by subst hcd; exact ⟨by norm_num, by norm_num, rfl⟩
  have w2 : c.scoef2.WF := by subst hcd; exact ⟨by norm_num, by norm_num, rfl⟩
  have hn : c.nmax = ((1 : ℕ) : ℤ) := by subst hcd; rfl
  have hm : c.mmax = ((1 : ℕ) : ℤ) := by subst hcd; rfl
  have hc : c.WellFormed := ⟨ScalarCoefs.wf_iff.mp w1, ScalarCoefs.wf_iff.mp w2, by subst hcd; rfl, by subst hcd; rfl, by subst hcd; rfl, by subst hcd; rfl⟩
  have hx : ∀ n m, IsMode c.nmax c.mmax n m → n ≠ 0 → ∃ x y, readMapV c n m = some (x, y) ∧ x ∈ c.scoef1.vec ∧ y ∈ c.scoef2.vec := by
    intro n m hmo n0
    have m1 : IsMode c.scoef1.nmax c.scoef1.mmax n m := by rw [hc.n1, hc.m1]; exact hmo
    have m2 : IsMode c.scoef2.nmax c.scoef2.mmax n m := by rw [hc.n2, hc.m2]; exact hmo
    rw [readMapV_eq hc, if_neg n0, ScalarCoefs.absMap_mode w1 m1, ScalarCoefs.absMap_mode w2 m2]
    exact ⟨_, _, rfl, List.getElem_mem _, List.getElem_mem _⟩
  have hall : (∀ z ∈ c.scoef1.vec, |z.re| ≤ 8 ∧ |z.im| ≤ 8) ∧ ∀ z ∈ c.scoef2.vec, |z.re| ≤ 8 ∧ |z.im| ≤ 8 := by
    subst hcd
    constructor <;> intro z hz <;> simp only [List.mem_cons, List.not_mem_nil, or_false] at hz <;> rcases hz with rfl | rfl | rfl | rfl <;> norm_num
  let inv : Arr2 (FC rnd) → Int → Int → Res (Arr2 (FC rnd)) := fun f dn nc => (invFourier (f.map FS.val) dn nc).bind fun g => .ok (g.map fun z => ⟨z.re, z.im⟩)
  have hinv : ∀ f : Arr2 (FC rnd), (f.rows : ℤ) = 2 * 5 - 2 → (f.cols : ℤ) = 8 → FftWithin inv 0 f (2 * 5 - 2) 8 := by
    intro f fr fc
    obtain ⟨D, eD, Dr, Dc, -⟩ := invFourier_spec (f.map FS.val) 8 8 (by rw [Arr2.rows_map]; omega) (by rw [Arr2.cols_map]; omega) (by norm_num) (by norm_num)
    have eD' : invFourier (f.map FS.val) (2 * 5 - 2) 8 = .ok D := eD
    refine ⟨D.map fun z => ⟨z.re, z.im⟩, D, ?_, eD', rfl, rfl, fun i j hi hj' => ?_⟩
    · show (invFourier (f.map FS.val) (2 * 5 - 2) 8).bind _ = _
      rw [eD']; rfl
    · rw [Arr2.at'_map _ D hi hj']
      have e : (FS.val (⟨(D.at' i j).re, (D.at' i j).im⟩ : FC rnd)) = D.at' i j := rfl
      rw [e, sub_self, norm_zero]
  obtain ⟨p, Eθ, Eφ, e1, e2, e3, e4, -, -, e5⟩ := c96_vispht h .py c hc 1 1 hn hm (hj.ok _ (by norm_num)) (by norm_num) (fun n m => ((readMapV c n m).getD (0, 0)).1)
    (fun n m => ((readMapV c n m).getD (0, 0)).2) (fun n m a1 a2 => by obtain ⟨x, y, h1, -, -⟩ := hx n m a1 a2; rw [h1]; rfl) 8
    (by refine (zpow_le_one_of_nonpos₀ (by norm_num) (by norm_num)).trans (by norm_num))
    (by rw [show (8 : ℝ) = 2 ^ (3 : ℤ) by norm_num]; exact zpow_le_zpow_right₀ (by norm_num) (by norm_num))
    (fun n m a1 a2 => by obtain ⟨x, y, h1, h2, -⟩ := hx n m a1 a2; simp only [h1]; exact hall.1 x h2)
    (fun n m a1 a2 => by obtain ⟨x, y, h1, -, h2⟩ := hx n m a1 a2; simp only [h1]; exact hall.2 y h2)
    5 8 (by rw [hn]; norm_num) (by rw [hm]; norm_num) (by norm_num) inv 0 (fun f fr fc _ => hinv f fr fc)
  rw [hn, hm] at e2
  refine ⟨rnd, jp, c, _, _, inv, p, Eθ, Eφ, h, hj, hc, by subst hcd; rfl, by subst hcd; rfl, e1, e2, by exact_mod_cast e3, by exact_mod_cast e4, fun i j hi hj' => ?_⟩
  have := e5 i j hi hj'
  have hs : Real.sqrt (3 / (4 * Real.pi)) ≤ 1 := by
    apply Real.sqrt_le_iff.mpr
    refine ⟨by norm_num, ?_⟩
    rw [one_pow, div_le_one (by positivity)]
    linarith [Real.pi_gt_three]
  rw [Real.sqrt_div (by norm_num), Real.sqrt_mul (by norm_num)] at hs
  norm_num at this ⊢
  obtain ⟨t1, t2⟩ := this
  clear e5 hinv hall hx
  exact ⟨t1.trans (by linarith), t2.trans (by linarith)⟩

end Verif.Props
