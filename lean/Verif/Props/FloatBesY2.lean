import Verif.Props.FloatBesY1
/-!
# C103: the spherical Bessel functions `y_n` in doubles
-/
namespace Verif.Props
open Verif
variable {rnd : ℝ → ℝ}

namespace FB

theorem rnd_at (hr : IsRounding rnd) {y Y S c : ℝ} (h : |y - Y| ≤ c * uu * S) (c1 : c ≤ 100) (S0 : 0 < S) (hY : |Y| ≤ 2 * S) (tS : tiny ≤ uu / 100 * S) (big : 10 * S ≤ 2 ^ (1022 : ℤ)) :
    |rnd y - Y| ≤ c * uu * S + uu * |Y| + 1 / 10 * uu * S := by
  have u0 := uu_pos
  have u1 := uu_lt
  have uS := mul_pos u0 S0
  have cu : c * uu * S ≤ 1 / 100 * S := by
    refine mul_le_mul_of_nonneg_right ?_ S0.le
    calc c * uu ≤ 100 * (12 / 10 ^ 17) := mul_le_mul c1 u1 u0.le (by norm_num)
      _ ≤ 1 / 100 := by norm_num
  have a := abs_sub_abs_le_abs_sub y Y
  have yb : |y| ≤ 3 * S := by linarith
  have e := rnd_err hr (x := y) ((yb.trans (by linarith : 3 * S ≤ 10 * S)).trans big)
  have h2 : uu * |y| ≤ uu * (|Y| + 1 / 100 * S) := mul_le_mul_of_nonneg_left (by linarith) u0.le
  have h3 : |rnd y - Y| ≤ |rnd y - y| + |y - Y| := by
    rw [show rnd y - Y = (rnd y - y) + (y - Y) by ring]; exact abs_add_le _ _
  linarith

theorem scale (x : ℝ) (hx : x ≠ 0) (hx2 : |x| ≤ 2 ^ (900 : ℤ)) {S : ℝ} (S1 : 1 / |x| ≤ S) (S2 : S ≤ 2 ^ (1000 : ℤ)) : 0 < S ∧ tiny ≤ uu / 100 * S ∧ 10 * S ≤ 2 ^ (1022 : ℤ) := by
  have u0 := uu_pos
  have xp := abs_pos.2 hx
  have S0 : 0 < S := lt_of_lt_of_le (by positivity) S1
  refine ⟨S0, ?_, ?_⟩
  · have h : (2 : ℝ) ^ (-900 : ℤ) ≤ 1 / |x| := by
      rw [zpow_neg, ← one_div]
      exact one_div_le_one_div_of_le xp hx2
    have h2 : tiny ≤ uu / 100 * 2 ^ (-900 : ℤ) := by
      unfold tiny uu
      calc (2 : ℝ) ^ (-1074 : ℤ) ≤ 2 ^ ((-53) + (-7) + (-900) : ℤ) := zpow_le_zpow_right₀ (by norm_num) (by norm_num)
        _ = 2 ^ (-53 : ℤ) * 2 ^ (-7 : ℤ) * 2 ^ (-900 : ℤ) := by rw [zpow_add₀ (by norm_num), zpow_add₀ (by norm_num)]
        _ ≤ 2 ^ (-53 : ℤ) / 100 * 2 ^ (-900 : ℤ) := by
          refine mul_le_mul_of_nonneg_right ?_ (by positivity)
          rw [div_eq_mul_inv]
          exact mul_le_mul_of_nonneg_left (by norm_num) (by positivity)
    exact h2.trans (mul_le_mul_of_nonneg_left (h.trans S1) (by positivity))
  · calc 10 * S ≤ 2 ^ (22 : ℤ) * 2 ^ (1000 : ℤ) := mul_le_mul (by norm_num) S2 S0.le (by positivity)
      _ = 2 ^ (1022 : ℤ) := by rw [← zpow_add₀ (by norm_num)]; norm_num

/-- The two starting values. -/
theorem y_start (hr : IsRounding rnd) {lib : Fl.BesLib} {x : ℝ} (hl : BesLibOk lib x) (hx : x ≠ 0) (hx2 : |x| ≤ 2 ^ (900 : ℤ)) (hM : sphM 1 x ≤ 2 ^ (1000 : ℤ)) :
    |fY rnd lib x 0 - sphN 0 x| ≤ 10 * uu * sphM 0 x ∧ |fY rnd lib x 1 - sphN 1 x| ≤ 14 * uu * sphM 1 x := by
  have u0 := uu_pos
  have u1 := uu_lt
  have xp := abs_pos.2 hx
  obtain ⟨_, q1, _, q3⟩ := lib_quot hl hx
  have hc : |lib.cos x - Real.cos x| ≤ 8 * uu * |Real.cos x| := hl.cos
  have hsq : |lib.sq x - x ^ 2| ≤ 2 * uu * |x ^ 2| := by rw [abs_of_nonneg (sq_nonneg x)]; exact hl.sq
  have q2 := (div_rel (by norm_num) (by norm_num) (by norm_num) (by norm_num) (pow_ne_zero 2 hx) hc hsq).2
  have m01 := sphM_mono hx 0
  have z0 := sphM_zero hx
  rw [Nat.zero_add] at m01
  constructor
  · obtain ⟨S0, tS, big⟩ := scale x hx hx2 z0.ge (m01.trans hM)
    have cb : |Real.cos x / x| ≤ sphM 0 x := by
      rw [z0, abs_div]
      exact div_le_div_of_nonneg_right (Real.abs_cos_le_one x) xp.le
    have h := rnd_at hr (y := -lib.cos x / x) (Y := sphN 0 x) (S := sphM 0 x) (c := 801 / 100) (by
      show |-lib.cos x / x - -Real.cos x / x| ≤ _
      rw [show -lib.cos x / x - -Real.cos x / x = -(lib.cos x / x - Real.cos x / x) by ring, abs_neg]
      refine q3.trans ?_
      calc (8 + 1 / 100) * uu * |Real.cos x / x| ≤ (8 + 1 / 100) * uu * sphM 0 x := mul_le_mul_of_nonneg_left cb (by positivity)
        _ = _ := by norm_num) (by norm_num) S0 (by
      show |-Real.cos x / x| ≤ _
      rw [neg_div, abs_neg]; linarith) tS big
    have e : |sphN 0 x| ≤ sphM 0 x := by
      show |-Real.cos x / x| ≤ _
      rw [neg_div, abs_neg]; exact cb
    have h2 := mul_le_mul_of_nonneg_left e u0.le
    have uS := mul_pos u0 S0
    show |rnd (-lib.cos x / x) - _| ≤ _
    linarith
  · obtain ⟨S0, tS, big⟩ := scale x hx hx2 (z0 ▸ m01 : 1 / |x| ≤ sphM 1 x) hM
    have one := sphM_one hx
    obtain ⟨b, hb⟩ : ∃ b, b = |Real.cos x / x ^ 2| := ⟨_, rfl⟩
    obtain ⟨s, hs⟩ : ∃ s, s = |Real.sin x / x| := ⟨_, rfl⟩
    obtain ⟨S, hS⟩ : ∃ S, S = sphM 1 x := ⟨_, rfl⟩
    have b0 : 0 ≤ b := hb ▸ abs_nonneg _
    have s0 : 0 ≤ s := hs ▸ abs_nonneg _
    rw [← hb, ← hs, ← hS] at one
    rw [← hS] at S0 tS big ⊢
    rw [← hb] at q2
    rw [← hs] at q1
    have uS := mul_pos u0 S0
    have sh : ∀ {y Y c g : ℝ}, |y - Y| ≤ c * uu * g → 0 ≤ c → c ≤ 100 → g ≤ S → |Y| = g → |rnd y - Y| ≤ (c + 1) * uu * g + 1 / 10 * uu * S := by
      intro y Y c g h c0 c1 hg hY
      have g0 : 0 ≤ g := hY ▸ abs_nonneg _
      have cu : c * uu * g ≤ 1 / 100 * S := by
        refine mul_le_mul ?_ hg g0 (by norm_num)
        calc c * uu ≤ 100 * (12 / 10 ^ 17) := mul_le_mul c1 u1 u0.le (by norm_num)
          _ ≤ 1 / 100 := by norm_num
      have a := abs_sub_abs_le_abs_sub y Y
      have yb : |y| ≤ 3 * S := by linarith
      have e := rnd_err hr (x := y) ((yb.trans (by linarith : 3 * S ≤ 10 * S)).trans big)
      have h2 : uu * |y| ≤ uu * (g + 1 / 100 * S) := mul_le_mul_of_nonneg_left (by linarith) u0.le
      have h3 : |rnd y - Y| ≤ |rnd y - y| + |y - Y| := by
        rw [show rnd y - Y = (rnd y - y) + (y - Y) by ring]; exact abs_add_le _ _
      linarith
    have e1 := sh (y := -lib.cos x / lib.sq x) (Y := -(Real.cos x / x ^ 2)) (c := 8 + 2 + 1 / 100) (g := b)
      (by rw [show -lib.cos x / lib.sq x - -(Real.cos x / x ^ 2) = -(lib.cos x / lib.sq x - Real.cos x / x ^ 2) by ring, abs_neg]; exact q2) (by norm_num) (by norm_num) (by linarith) (by rw [abs_neg, hb])
    have e2 := sh (y := lib.sin x / x) (Y := Real.sin x / x) (c := 8 + 1 / 100) (g := s) q1 (by norm_num) (by norm_num) (by linarith) hs.symm
    have Yb : |sphN 1 x| ≤ b + s := by
      show |-Real.cos x / x ^ 2 - Real.sin x / x| ≤ _
      refine (abs_sub _ _).trans ?_
      rw [neg_div, abs_neg, hb, hs]
    have df : |rnd (-lib.cos x / lib.sq x) - rnd (lib.sin x / x) - sphN 1 x| ≤ 113 / 10 * uu * S := by
      have eq : rnd (-lib.cos x / lib.sq x) - rnd (lib.sin x / x) - sphN 1 x = (rnd (-lib.cos x / lib.sq x) - -(Real.cos x / x ^ 2)) - (rnd (lib.sin x / x) - Real.sin x / x) := by
        show _ - (-Real.cos x / x ^ 2 - Real.sin x / x) = _
        ring
      rw [eq]
      refine (abs_sub _ _).trans ?_
      have h1 : uu * (b + s) ≤ uu * S := mul_le_mul_of_nonneg_left one u0.le
      have h2 : 0 ≤ uu * s := by positivity
      linarith
    have h := rnd_at hr df (by norm_num) S0 (by linarith) tS big
    have h2 := mul_le_mul_of_nonneg_left (Yb.trans one) u0.le
    show |rnd (rnd (-lib.cos x / lib.sq x) - rnd (lib.sin x / x)) - _| ≤ _
    linarith

/-- All values. -/
theorem y_all (hr : IsRounding rnd) {lib : Fl.BesLib} {x : ℝ} {N : ℕ} (hl : BesLibOk lib x) (hx : x ≠ 0) (hx2 : |x| ≤ 2 ^ (900 : ℤ)) (h2 : 2 ≤ N) (hN : N ≤ 2 ^ 20) (hM : sphM (N - 1) x ≤ 2 ^ (1000 : ℤ)) :
    ∀ n, n < N → |fY rnd lib x n - sphN n x| ≤ (4 * n ^ 2 + 24 * n + 12) * uu * sphM n x := by
  have u0 := uu_pos
  have u1 := uu_lt
  have xp := abs_pos.2 hx
  have Mb : ∀ n, n < N → sphM n x ≤ 2 ^ (1000 : ℤ) := fun n hn => (sphM_le hx (by omega)).trans hM
  have Ml : ∀ n, 1 / |x| ≤ sphM n x := fun n => (sphM_zero hx).ge.trans (sphM_le hx (Nat.zero_le n))
  have Mp : ∀ n, 0 < sphM n x := fun n => lt_of_lt_of_le (by positivity) (Ml n)
  have Hn : ∀ n, sphH n x ≠ 0 := fun n h => by have := Mp n; rw [← norm_sphH, h, norm_zero] at this; exact lt_irrefl _ this
  obtain ⟨s0, s1⟩ := y_start hr hl hx hx2 (Mb 1 (by omega))
  set d : ℕ → ℂ := fun n => ((fY rnd lib x n - sphN n x : ℝ) : ℂ) / sphH n x with hd
  have dn : ∀ n, ‖d n‖ = |fY rnd lib x n - sphN n x| / sphM n x := fun n => by rw [hd]; simp only [norm_div, norm_sphH, Complex.norm_real, Real.norm_eq_abs]
  have dm : ∀ n, ((fY rnd lib x n - sphN n x : ℝ) : ℂ) = sphH n x * d n := fun n => by rw [hd]; field_simp [Hn n]
  have back : ∀ n (c : ℝ), ‖d n‖ ≤ c → |fY rnd lib x n - sphN n x| ≤ c * sphM n x := fun n c h => by rwa [dn, div_le_iff₀ (Mp n)] at h
  have main : ∀ n, n + 1 < N → ‖d n‖ ≤ (4 * n ^ 2 + 24 * n + 12) * uu ∧ ‖d (n + 1)‖ ≤ (4 * ((n + 1 : ℕ) : ℝ) ^ 2 + 24 * ((n + 1 : ℕ) : ℝ) + 12) * uu ∧ ‖d (n + 1) - d n‖ ≤ (24 + 8 * n) * uu := by
    intro n
    induction n with
    | zero =>
      intro _
      have a : ‖d 0‖ ≤ 10 * uu := by rw [dn, div_le_iff₀ (Mp 0)]; exact s0
      have b : ‖d (0 + 1)‖ ≤ 14 * uu := by rw [dn, div_le_iff₀ (Mp _)]; exact s1
      have c := norm_sub_le (d (0 + 1)) (d 0)
      push_cast
      refine ⟨?_, ?_, ?_⟩ <;> linarith
    | succ n ih =>
      intro hn
      obtain ⟨a, b, c⟩ := ih (by omega)
      have nr : (n : ℝ) ≤ 2 ^ 20 := by exact_mod_cast (show n ≤ 2 ^ 20 by omega)
      have n0 : (0 : ℝ) ≤ n := Nat.cast_nonneg n
      have sm : ∀ k : ℕ, k ≤ n + 1 → (4 * (k : ℝ) ^ 2 + 24 * k + 12) * uu ≤ 1 / 100 := fun k hk => by
        have kr : (k : ℝ) ≤ 2 ^ 20 := by exact_mod_cast (show k ≤ 2 ^ 20 by omega)
        have k0 : (0 : ℝ) ≤ k := Nat.cast_nonneg k
        have : (4 * (k : ℝ) ^ 2 + 24 * k + 12) ≤ 4 * (2 ^ 20) ^ 2 + 24 * 2 ^ 20 + 12 := by
          have := pow_le_pow_left₀ k0 kr 2
          linarith
        calc _ ≤ (4 * (2 ^ 20) ^ 2 + 24 * 2 ^ 20 + 12 : ℝ) * (12 / 10 ^ 17) := mul_le_mul this u1 u0.le (by norm_num)
          _ ≤ _ := by norm_num
      have size : ∀ k : ℕ, k ≤ n + 1 → ‖d k‖ ≤ (4 * (k : ℝ) ^ 2 + 24 * k + 12) * uu → |fY rnd lib x k| ≤ 101 / 100 * sphM k x := fun k hk h => by
        have e := back k _ (h.trans (sm k hk))
        have t := abs_sub_abs_le_abs_sub (fY rnd lib x k) (sphN k x)
        have y : |sphN k x| ≤ sphM k x := by
          unfold sphM
          rw [← Real.sqrt_sq_eq_abs]
          exact Real.sqrt_le_sqrt (by have := sq_nonneg (sphJ k x); linarith)
        linarith
      have Ya := size n (by omega) a
      have Yb := size (n + 1) (le_refl _) b
      have hs := sphH_succ (n + 1) (by omega) x
      rw [Nat.add_sub_cancel] at hs
      have ys := sphN_succ (n + 1) (by omega) (x := x)
      rw [Nat.add_sub_cancel] at ys
      obtain ⟨B, hB⟩ : ∃ B : ℝ, B = (2 * ((n + 1 : ℕ) : ℝ) + 1) / x := ⟨_, rfl⟩
      rw [← hB] at hs ys
      have mm := (sphM_mono hx n).trans (sphM_mono hx (n + 1))
      have Bm : |B| * sphM (n + 1) x ≤ 2 * sphM (n + 1 + 1) x := by
        have e : (B : ℂ) * sphH (n + 1) x = sphH (n + 1 + 1) x + sphH n x := by rw [hs]; ring
        have := congrArg norm e
        rw [norm_mul, norm_sphH, Complex.norm_real, Real.norm_eq_abs] at this
        rw [this]
        refine (norm_add_le _ _).trans ?_
        rw [norm_sphH, norm_sphH]
        linarith
      have aB : |B| = (2 * ((n + 1 : ℕ) : ℝ) + 1) * (1 / |x|) := by
        rw [hB, abs_div, abs_of_pos (by positivity)]; ring
      have xi : 0 < 1 / |x| := by positivity
      have B1 : 1 / |x| ≤ |B| := by
        rw [aB]
        push_cast
        nlinarith
      have B2 : |B| ≤ 2 ^ (1022 : ℤ) := by
        have b22 : (2 * ((n + 1 : ℕ) : ℝ) + 1) ≤ 2 ^ (22 : ℤ) := by
          push_cast
          calc 2 * ((n : ℝ) + 1) + 1 ≤ 2 * (2 ^ 20 + 1) + 1 := by linarith
            _ ≤ 2 ^ (22 : ℤ) := by norm_num
        rw [aB]
        calc _ ≤ (2 : ℝ) ^ (22 : ℤ) * 2 ^ (1000 : ℤ) := mul_le_mul b22 ((Ml 0).trans (Mb 0 (by omega))) xi.le (by positivity)
          _ = 2 ^ (1022 : ℤ) := by rw [← zpow_add₀ (by norm_num)]; norm_num
      have st := y_step hr (B := B) (Y := fY rnd lib x (n + 1)) (Z := fY rnd lib x n) (m := sphM (n + 1) x) (S := sphM (n + 1 + 1) x) xp hx2 B1 B2 (Mp _).le Bm (Ml _) (Mb _ hn) Yb
        (Ya.trans (mul_le_mul_of_nonneg_left mm (by norm_num)))
      have fs : fY rnd lib x (n + 1 + 1) = rnd (rnd (rnd B * fY rnd lib x (n + 1)) - fY rnd lib x n) := by rw [hB, fY]
      rw [← fs] at st
      obtain ⟨δ, hδ⟩ : ∃ δ : ℝ, δ = fY rnd lib x (n + 1 + 1) - (B * fY rnd lib x (n + 1) - fY rnd lib x n) := ⟨_, rfl⟩
      rw [← hδ] at st
      have err : ((fY rnd lib x (n + 1 + 1) - sphN (n + 1 + 1) x : ℝ) : ℂ) = (B : ℂ) * ((fY rnd lib x (n + 1) - sphN (n + 1) x : ℝ) : ℂ) - ((fY rnd lib x n - sphN n x : ℝ) : ℂ) + (δ : ℂ) := by
        rw [hδ, ys]
        push_cast
        ring
      rw [dm, dm, dm] at err
      have key : sphH (n + 1 + 1) x * (d (n + 1 + 1) - d (n + 1)) = sphH n x * (d (n + 1) - d n) + (δ : ℂ) := by
        rw [mul_sub, err, hs]; ring
      have D : ‖d (n + 1 + 1) - d (n + 1)‖ ≤ (24 + 8 * ((n + 1 : ℕ) : ℝ)) * uu := by
        have k := congrArg norm key
        rw [norm_mul, norm_sphH] at k
        have t := norm_add_le (sphH n x * (d (n + 1) - d n)) (δ : ℂ)
        rw [norm_mul, norm_sphH, Complex.norm_real, Real.norm_eq_abs] at t
        have p1 : sphM n x * ‖d (n + 1) - d n‖ ≤ sphM (n + 1 + 1) x * ((24 + 8 * n) * uu) := mul_le_mul mm c (norm_nonneg _) (Mp _).le
        refine le_of_mul_le_mul_left ?_ (Mp (n + 1 + 1))
        rw [k]
        push_cast
        linarith
      refine ⟨b, ?_, D⟩
      have t := norm_add_le (d (n + 1)) (d (n + 1 + 1) - d (n + 1))
      rw [add_sub_cancel] at t
      push_cast at b D ⊢
      have nu := mul_nonneg n0 u0.le
      linarith
  intro n hn
  rcases Nat.lt_or_ge (n + 1) N with h | h
  · exact back n _ (main n h).1
  · have := (main (n - 1) (by omega)).2.1
    rw [show n - 1 + 1 = n by omega] at this
    exact back n _ this

end FB

/-- **C103**. -/
theorem c103_sbessely (hr : IsRounding rnd) {lib : Fl.BesLib} {x : ℝ} {N : ℕ} (hl : BesLibOk lib x) (hx : x ≠ 0) (hx2 : |x| ≤ 2 ^ (900 : ℤ)) (h2 : 2 ≤ N) (hN : N ≤ 2 ^ 20)
    (hM : √(sphJ (N - 1) x ^ 2 + sphN (N - 1) x ^ 2) ≤ 2 ^ (1000 : ℤ)) :
    ∃ out, Fl.sbessely rnd lib x N = .ok out ∧ out.length = N ∧
      ∀ n, n < N → |rd out n - sphN n x| ≤ (4 * n ^ 2 + 24 * n + 12) * 2 ^ (-53 : ℤ) * √(sphJ n x ^ 2 + sphN n x ^ 2) := by
  obtain ⟨out, e, len, h⟩ := FB.sby_struct hr lib h2 hN hx (FB.lib_quot hl hx).1
  exact ⟨out, e, len, fun n hn => by rw [h n hn]; exact FB.y_all hr hl hx hx2 h2 hN hM n hn⟩

end Verif.Props
