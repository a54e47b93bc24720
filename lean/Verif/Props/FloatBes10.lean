import Verif.Props.FloatBes9
/-!
# C102: `sbesselj` in doubles
-/
namespace Verif.Props
open Verif
variable {rnd : ℝ → ℝ}

namespace FB

theorem phaseA_dbl (hr : IsRounding rnd) {x : ℝ} {r : ℕ → ℝ} {M n : ℕ} (hx0 : 1 / 10 ^ 20 ≤ |x|) (h1 : 1 ≤ n) (hn : |x| ≤ n + 1 / 2) (hM2 : M ≤ 2 ^ 16) (hnM : n ≤ M)
    (hd : IsDouble (r M)) (hw : |r M - SignType.sign x * sbRho |x| M| ≤ 52 * (M + 64) * uu * sbRho |x| M)
    (hs : ∀ j, n ≤ j → j < M → r j = rnd (1 / dD rnd x r j)) : IsDouble (r n) := by
  rcases hnM.eq_or_lt with h | h
  · rw [h]; exact hd
  · have M2 : (M : ℝ) ≤ 2 ^ 16 := by exact_mod_cast hM2
    have a := phaseA hr hx0 (n := n + 1) (by omega) (by push_cast; linarith) hM2 h hw (fun j h1 h2 => hs j (by omega) h2)
    rw [hs n (le_refl _) h]
    exact (phaseA_step hr hx0 h1 hn (by omega) (by positivity) (by linarith) a).2.1

set_option maxHeartbeats 1600000 in
/-- The call beyond `3/2`, below `N - 1/2`. -/
theorem sbj_large (hr : IsRounding rnd) {lib : Fl.BesLib} {x : ℝ} {M : ℕ} (hl : BesLibOk lib x) (hx : 3 / 2 < |x|) (hM : |x| ≤ M + 1 / 2) (hM2 : M ≤ 2 ^ 16) :
    Fl.sbesselj rnd lib x ((M : ℤ) + 1) = .error ⟨.exception, "infinite"⟩ ∨
    ∃ out, Fl.sbesselj rnd lib x ((M : ℤ) + 1) = .ok out ∧ out.length = M + 1 ∧
      ∀ n, n ≤ M → |rd out n - sphJ n x| ≤ 370 * (1 + |x|) * (M + 64) * uu * |sphJ n x| + 160 * (M + 64) * uu + M * tiny := by
  have u0 := uu_pos
  have u1 := uu_lt
  have tp := tiny_pos
  have xp : 0 < |x| := by linarith
  have xn : x ≠ 0 := abs_pos.1 xp
  have hx0 : 1 / 10 ^ 20 ≤ |x| := le_trans (by norm_num) hx.le
  have M2 : (M : ℝ) ≤ 2 ^ 16 := by exact_mod_cast hM2
  have M0 : (0 : ℝ) ≤ M := Nat.cast_nonneg M
  obtain ⟨n1, h2, hnM, hlo, hhi⟩ := turning hx hM
  obtain ⟨w, hw, wd, hwb⟩ := loop_start hx0 (by omega) hM hr (z := lib.sq x) hl.sq hM2
  rcases sbj_struct hr lib (by omega) hM2 xn (lib_quot hl xn).1 hw with ⟨r, out, e, len, rM, hs, o0, o1, on⟩ | ⟨e, _⟩
  swap
  · exact Or.inl e
  right
  refine ⟨out, e, len, ?_⟩
  rw [← rM] at hwb wd
  have A : ∀ n, n1 ≤ n → n ≤ M → |r n - SignType.sign x * sbRho |x| n| ≤ 57 * (M + 64) * uu * sbRho |x| n := fun n h h' => by
    have : (n1 : ℝ) ≤ n := by exact_mod_cast h
    exact phaseA hr hx0 (by omega) (by linarith) hM2 h' hwb (fun j a b => (hs j (by omega) b).2)
  have dn1 := phaseA_dbl hr hx0 (by omega) hhi hM2 hnM wd hwb (fun j a b => (hs j (by omega) b).2)
  obtain ⟨P, Ps, Pt, Pb, Pl⟩ := phaseB hr hx hM2 h2 hnM hlo hhi dn1 (A n1 (le_refl _) hnM) (fun n a b => hs n a (by omega))
  have sg2 := sgn_sq xn
  have sg := sgn_abs xn
  obtain ⟨s0, s1⟩ := start_large hl hr hx
  have hJ : ∀ n, sphJ n x = ((SignType.sign x : SignType) : ℝ) ^ n * sphJ n (|x|) := fun n => sphJ_sgn n xn
  have aJ : ∀ n, |sphJ n x| = |sphJ n (|x|)| := fun n => by rw [hJ, abs_mul, abs_pow, sg, one_pow, one_mul]
  have jb : ∀ n, |sphJ n x| ≤ 1 := fun n => by rw [aJ]; exact sphJ_le_one xp n
  have j01 := sphJ01_lower xp
  rw [← aJ, ← aJ] at j01
  -- the starting row
  obtain ⟨b, hb1, ob, jbb, os⟩ : ∃ b : ℕ, b ≤ 1 ∧ |rd out b - sphJ b x| ≤ 20 * uu ∧ 1 / (3 * (1 + |x|)) - 30 * uu ≤ |sphJ b x| ∧
      ∀ n, b ≤ n → n < M → rd out (n + 1) = rnd (r (n + 1) * rd out n) := by
    have d0 := abs_sub_abs_le_abs_sub (sphJ 0 x) (rnd (lib.sin x / x))
    have d0' := abs_sub_abs_le_abs_sub (rnd (lib.sin x / x)) (sphJ 0 x)
    have d1 := abs_sub_abs_le_abs_sub (sphJ 1 x) (rnd (rnd (lib.sin x / lib.sq x) - rnd (lib.cos x / x)))
    have d1' := abs_sub_abs_le_abs_sub (rnd (rnd (lib.sin x / lib.sq x) - rnd (lib.cos x / x))) (sphJ 1 x)
    rw [abs_sub_comm] at d0 d1
    by_cases c : |rnd (lib.sin x / x)| ≥ |rnd (rnd (lib.sin x / lib.sq x) - rnd (lib.cos x / x))|
    · rw [if_pos c] at o1
      refine ⟨0, by omega, ?_, ?_, ?_⟩
      · rw [o0]; linarith
      · rcases le_max_iff.1 j01 with h | h <;> linarith
      · intro n _ hn
        rcases Nat.eq_zero_or_pos n with h | h
        · rw [h, o1, o0]
        · exact on n h hn
    · rw [if_neg c] at o1
      refine ⟨1, le_refl _, ?_, ?_, fun n a b => on n a b⟩
      · rw [o1]; linarith
      · rcases le_max_iff.1 j01 with h | h <;> linarith
  set σ := ((SignType.sign x : SignType) : ℝ) with hσ
  have Mu : (M + 64 : ℝ) * uu ≤ 79 / 10 ^ 13 := by
    calc (M + 64 : ℝ) * uu ≤ (2 ^ 16 + 64) * (12 / 10 ^ 17) := mul_le_mul (by linarith) u1 u0.le (by norm_num)
      _ ≤ 79 / 10 ^ 13 := by norm_num
  set L := (M + 64 : ℝ) * uu with hL
  have L0 : 0 ≤ L := by positivity
  have Lu : 64 * uu ≤ L := mul_le_mul_of_nonneg_right (by linarith) u0.le
  have Pb' : ∀ n, n ≤ n1 → |P n - sphJ n (|x|)| ≤ 90 * L := fun n hn => (Pb n hn).trans (le_of_eq (by rw [hL]; ring))
  have X1 : 1 + |x| ≤ 2 ^ 16 + 2 := by linarith
  have xi : 1 / (3 * (2 ^ 16 + 2 : ℝ)) ≤ 1 / (3 * (1 + |x|)) := one_div_le_one_div_of_le (by linarith) (by linarith)
  have Pb0 : 1 / (4 * (1 + |x|)) ≤ |P b| := by
    have h := Pb' b (by omega)
    have t := abs_sub_abs_le_abs_sub (sphJ b (|x|)) (P b)
    rw [abs_sub_comm, ← aJ] at t
    have e4 : 1 / (4 * (1 + |x|)) = 1 / (3 * (1 + |x|)) - 1 / 4 * (1 / (3 * (1 + |x|))) := by field_simp; norm_num
    have : 91 * L ≤ 1 / 4 * (1 / (3 * (2 ^ 16 + 2))) := by
      calc 91 * L ≤ 91 * (79 / 10 ^ 13) := by linarith
        _ ≤ _ := by norm_num
    rw [e4]
    linarith
  have Pbn : 0 < |P b| := lt_of_lt_of_le (by positivity) Pb0
  have Pbne : P b ≠ 0 := abs_pos.1 Pbn
  have σn : σ ≠ 0 := by
    intro h
    rw [h] at sg
    simp at sg
  obtain ⟨c, hc⟩ : ∃ c, c = rd out b / (σ ^ b * P b) := ⟨_, rfl⟩
  have hcb : rd out b = c * (σ ^ b * P b) := by rw [hc]; field_simp
  set K := (1 + |x|) * L with hK
  have K0 : 0 ≤ K := by positivity
  have LK : L ≤ K := by rw [hK]; nlinarith
  have Ks : 366 * K ≤ 1 / 1000 := by
    have : K ≤ (2 ^ 16 + 2) * (79 / 10 ^ 13) := mul_le_mul X1 Mu L0 (by norm_num)
    calc 366 * K ≤ 366 * ((2 ^ 16 + 2) * (79 / 10 ^ 13)) := by linarith
      _ ≤ 1 / 1000 := by norm_num
  have c1 : |c - 1| ≤ 364 * K := by
    have e1 : (c - 1) * (σ ^ b * P b) = rd out b - σ ^ b * P b := by rw [hcb]; ring
    have a1 : |c - 1| * |P b| = |rd out b - σ ^ b * P b| := by rw [← e1, abs_mul, abs_mul, abs_pow, sg, one_pow, one_mul]
    have a2 : |rd out b - σ ^ b * P b| ≤ 91 * L := by
      rw [show rd out b - σ ^ b * P b = (rd out b - sphJ b x) - σ ^ b * (P b - sphJ b (|x|)) by rw [hJ]; ring]
      refine (abs_sub _ _).trans ?_
      rw [abs_mul, abs_pow, sg, one_pow, one_mul]
      have := Pb' b (by omega)
      linarith
    have a3 : |c - 1| * (1 / (4 * (1 + |x|))) ≤ 91 * L := (mul_le_mul_of_nonneg_left Pb0 (abs_nonneg _)).trans (a1.le.trans a2)
    rw [mul_one_div, div_le_iff₀ (by positivity)] at a3
    rw [hK]
    linarith
  have ca := abs_sub_abs_le_abs_sub c 1
  have ca' := abs_sub_abs_le_abs_sub 1 c
  rw [abs_one] at ca ca'
  rw [abs_sub_comm] at ca'
  have Ph : ∀ n, n < n1 → |P n| ≤ |sphJ n x| + 90 * L := fun n hn => by
    have h := Pb' n hn.le
    have t := abs_sub_abs_le_abs_sub (P n) (sphJ n (|x|))
    rw [← aJ] at t
    linarith
  have fb := fwdB hr (σ := σ) (c := c) (r := r) (o := rd out) (P := P) (n1 := n1) (b := b) sg2 (by omega) (by linarith) (by linarith) Ps Pl
    (fun n hn => by have := Ph n hn; have := jb n; linarith) (fun n a b' => os n a (by omega)) hcb
  -- below the turning point
  have low : ∀ n, n < n1 → |rd out n - sphJ n x| ≤ 366 * K * |sphJ n x| + 91 * L := by
    intro n hn
    by_cases hnb : b ≤ n
    · have f := fb (n - b) (by omega)
      rw [show b + (n - b) = n by omega] at f
      have ac : |c * (σ ^ n * P n)| = |c| * |P n| := by rw [abs_mul, abs_mul, abs_pow, sg, one_pow, one_mul]
      rw [ac] at f
      have kn : ((n - b : ℕ) : ℝ) ≤ M := by exact_mod_cast (show n - b ≤ M by omega)
      have f2 : 101 / 100 * ((n - b : ℕ) : ℝ) * uu ≤ 101 / 100 * L := by
        rw [mul_assoc]
        exact mul_le_mul_of_nonneg_left (mul_le_mul_of_nonneg_right (by linarith) u0.le) (by norm_num)
      have f3 : 101 / 100 * ((n - b : ℕ) : ℝ) * uu * (|c| * |P n|) ≤ 101 / 100 * L * (101 / 100 * |P n|) :=
        mul_le_mul f2 (mul_le_mul_of_nonneg_right (by linarith) (abs_nonneg _)) (by positivity) (by positivity)
      have g : |c * (σ ^ n * P n) - σ ^ n * P n| ≤ 364 * K * |P n| := by
        rw [show c * (σ ^ n * P n) - σ ^ n * P n = (c - 1) * (σ ^ n * P n) by ring, abs_mul, abs_mul, abs_pow, sg, one_pow, one_mul]
        exact mul_le_mul_of_nonneg_right c1 (abs_nonneg _)
      have h : |σ ^ n * P n - sphJ n x| ≤ 90 * L := by
        rw [hJ, ← mul_sub, abs_mul, abs_pow, sg, one_pow, one_mul]
        exact Pb' n hn.le
      have t : |rd out n - sphJ n x| ≤ |rd out n - c * (σ ^ n * P n)| + |c * (σ ^ n * P n) - σ ^ n * P n| + |σ ^ n * P n - sphJ n x| := by
        rw [show rd out n - sphJ n x = (rd out n - c * (σ ^ n * P n)) + (c * (σ ^ n * P n) - σ ^ n * P n) + (σ ^ n * P n - sphJ n x) by ring]
        exact abs_add_three _ _ _
      have pn := Ph n hn
      have p0 := abs_nonneg (P n)
      have LP : L * |P n| ≤ K * |P n| := mul_le_mul_of_nonneg_right LK p0
      have f4 : 101 / 100 * L * (101 / 100 * |P n|) ≤ 2 * (L * |P n|) := by
        have := mul_nonneg L0 p0
        linarith
      have tot : |rd out n - sphJ n x| ≤ 366 * K * |P n| + 90 * L := by
        have g' : 364 * K * |P n| = 364 * (K * |P n|) := by ring
        have g'' : 366 * K * |P n| = 366 * (K * |P n|) := by ring
        rw [g'']
        rw [g'] at g
        have f' := f.trans (f3.trans f4)
        linarith only [t, f', g, h, LP]
      have fin : 366 * K * |P n| ≤ 366 * K * |sphJ n x| + 1 / 1000 * (90 * L) := by
        calc 366 * K * |P n| ≤ 366 * K * (|sphJ n x| + 90 * L) := mul_le_mul_of_nonneg_left pn (by linarith)
          _ = 366 * K * |sphJ n x| + 366 * K * (90 * L) := by ring
          _ ≤ _ := by
            have : 366 * K * (90 * L) ≤ 1 / 1000 * (90 * L) := mul_le_mul_of_nonneg_right Ks (by linarith)
            linarith
      linarith
    · have : n = 0 := by omega
      subst this
      rw [o0]
      have := mul_nonneg (mul_nonneg (show (0 : ℝ) ≤ 366 by norm_num) K0) (abs_nonneg (sphJ 0 x))
      linarith
  -- beyond
  have c0 : ((n1 - 1 : ℕ) : ℝ) = n1 - 1 := by rw [Nat.cast_sub (by omega), Nat.cast_one]
  have fa := fwdA hr (x := x) (F := 366 * K) (G := 91 * L) (r := r) (o := rd out) (M := M) (n0 := n1 - 1) xn hM2 (by rw [c0]; linarith) (fun n a b' => A n (by omega) b')
    (fun n a b' => os n (by omega) b') (by linarith) (by linarith) (by linarith) (by linarith) (low (n1 - 1) (by omega))
  have conv : ∀ n, 370 * (1 + |x|) * (M + 64) * uu * |sphJ n x| + 160 * (M + 64) * uu + M * tiny = 370 * K * |sphJ n x| + 160 * L + M * tiny := by
    intro n; rw [hK, hL]; ring
  intro n hn
  rw [conv]
  have nt : 0 ≤ (M : ℝ) * tiny := by positivity
  have z := abs_nonneg (sphJ n x)
  have Kz : 0 ≤ K * |sphJ n x| := mul_nonneg K0 z
  by_cases hl1 : n < n1
  · have := low n hl1
    linarith
  · have f := fa (n - (n1 - 1)) (by omega)
    rw [show n1 - 1 + (n - (n1 - 1)) = n by omega] at f
    have ck : ((n - (n1 - 1) : ℕ) : ℝ) = n - n1 + 1 := by rw [Nat.cast_sub (by omega), c0]; ring
    have dec := sphJ_decay xp (n1 := n1) (n := n) (by omega) hhi (by omega)
    rw [← aJ] at dec
    have ck2 : ((n - (n1 - 1) : ℕ) : ℝ) ≤ M := by exact_mod_cast (show n - (n1 - 1) ≤ M by omega)
    have t1 : ((n - (n1 - 1) : ℕ) : ℝ) * tiny ≤ M * tiny := mul_le_mul_of_nonneg_right ck2 tp.le
    have t2 : ((n - (n1 - 1) : ℕ) : ℝ) * |sphJ n x| ≤ 1 := by rw [ck]; linarith
    have t3 : 60 * ((M : ℝ) + 64) * uu * ((n - (n1 - 1) : ℕ) : ℝ) * |sphJ n x| ≤ 60 * L := by
      rw [show 60 * ((M : ℝ) + 64) * uu * ((n - (n1 - 1) : ℕ) : ℝ) * |sphJ n x| = 60 * L * (((n - (n1 - 1) : ℕ) : ℝ) * |sphJ n x|) by rw [hL]; ring]
      exact (mul_le_mul_of_nonneg_left t2 (by linarith)).trans_eq (mul_one _)
    rw [add_mul] at f
    linarith

/-- The call up to `3/2`. -/
theorem sbj_small (hr : IsRounding rnd) {lib : Fl.BesLib} {x : ℝ} {M : ℕ} (hl : BesLibOk lib x) (hx0 : 1 / 2 ^ 46 ≤ |x|) (hx : |x| ≤ 3 / 2) (hM1 : 1 ≤ M) (hM2 : M ≤ 2 ^ 16) :
    ∃ out, Fl.sbesselj rnd lib x ((M : ℤ) + 1) = .ok out ∧ out.length = M + 1 ∧
      ∀ n, n ≤ M → |rd out n - sphJ n x| ≤ 60 * (n + 1) * (M + 64) * uu * |sphJ n x| + n * tiny := by
  have u0 := uu_pos
  have u1 := uu_lt
  have xp : 0 < |x| := lt_of_lt_of_le (by norm_num) hx0
  have xn : x ≠ 0 := abs_pos.1 xp
  have hx0' : 1 / 10 ^ 20 ≤ |x| := le_trans (by norm_num) hx0
  have M1 : (1 : ℝ) ≤ M := by exact_mod_cast hM1
  have M2 : (M : ℝ) ≤ 2 ^ 16 := by exact_mod_cast hM2
  obtain ⟨w, hw, wd, hwb⟩ := loop_start hx0' hM1 (by linarith) hr (z := lib.sq x) hl.sq hM2
  obtain ⟨s0, sb, _⟩ := start_small hl hr hx hx0
  rcases sbj_struct hr lib hM1 hM2 xn (lib_quot hl xn).1 hw with ⟨r, out, e, len, rM, hs, o0, o1, on⟩ | ⟨e, r, n, h1, h2, rM, hs, hz⟩
  · refine ⟨out, e, len, ?_⟩
    rw [← rM] at hwb
    have A : ∀ n, 0 < n → n ≤ M → |r n - SignType.sign x * sbRho |x| n| ≤ 57 * (M + 64) * uu * sbRho |x| n := fun n h h' => by
      have : (1 : ℝ) ≤ n := by exact_mod_cast h
      exact phaseA hr hx0' h (by linarith) hM2 h' hwb (fun j a b => (hs j (by omega) b).2)
    rw [if_pos sb] at o1
    have os : ∀ n, 0 ≤ n → n < M → rd out (n + 1) = rnd (r (n + 1) * rd out n) := by
      intro n _ hn
      rcases Nat.eq_zero_or_pos n with h | h
      · rw [h, o1, o0]
      · exact on n h hn
    have fa := fwdA hr (x := x) (F := 10 * uu) (G := 0) (r := r) (o := rd out) (M := M) (n0 := 0) xn hM2 (by push_cast; linarith) A os (by linarith)
      (by linarith [show (10 * (12 / 10 ^ 17) : ℝ) ≤ 1 / 100 by norm_num]) (le_refl _) (by norm_num) (by rw [o0, add_zero]; exact s0)
    intro n hn
    have f := fa n (by omega)
    rw [Nat.zero_add, mul_zero, zero_add] at f
    refine f.trans (add_le_add (mul_le_mul_of_nonneg_right ?_ (abs_nonneg _)) le_rfl)
    have a : 10 * uu ≤ 60 * (M + 64) * uu := mul_le_mul_of_nonneg_right (by linarith) u0.le
    linarith
  · exfalso
    rw [← rM] at hwb
    have hnr : (1 : ℝ) ≤ n := by exact_mod_cast h1
    have a := phaseA hr hx0' (n := n + 1) (by omega) (by push_cast; linarith) hM2 h2 hwb (fun j h1 h2 => (hs j (by omega) h2).2)
    exact (phaseA_step hr hx0' h1 (by linarith) (by omega) (by positivity) (by linarith) a).1 hz

end FB
end Verif.Props
