import Verif.Props.FloatBes11
import Verif.Props.FloatBes12
import Mathlib.Analysis.Real.Pi.Bounds
/-!
# C102: the spherical Bessel functions `j_n` in doubles
-/
namespace Verif.Props
open Verif
variable {rnd : ℝ → ℝ}

namespace FB

/-- The only error beyond `3/2`: some `j_k`, `k < |x|`, is at the level of the rounding errors. -/
theorem sbj_error (hr : IsRounding rnd) {lib : Fl.BesLib} {x : ℝ} {M : ℕ} (hl : BesLibOk lib x) (hx : 3 / 2 < |x|) (hM : |x| ≤ M + 1 / 2) (hM2 : M ≤ 2 ^ 16) {er : PyErr}
    (he : Fl.sbesselj rnd lib x ((M : ℤ) + 1) = .error er) : ∃ k : ℕ, (k : ℝ) < |x| ∧ |sphJ k x| ≤ 90 * (M + 64) * uu := by
  have xp : 0 < |x| := by linarith
  have xn : x ≠ 0 := abs_pos.1 xp
  have hx0 : 1 / 10 ^ 20 ≤ |x| := le_trans (by norm_num) hx.le
  have M2 : (M : ℝ) ≤ 2 ^ 16 := by exact_mod_cast hM2
  have u0 := uu_pos
  obtain ⟨n1, h2, hnM, hlo, hhi⟩ := turning hx hM
  obtain ⟨w, hw, wd, hwb⟩ := loop_start hx0 (by omega) hM hr (z := lib.sq x) hl.sq hM2
  rcases sbj_struct hr lib (by omega) hM2 xn (lib_quot hl xn).1 hw with ⟨r, out, e, _⟩ | ⟨_, r, k, k1, kM, rM, hs, hz⟩
  · rw [e] at he; simp at he
  rw [← rM] at hwb wd
  have kn : k < n1 := by
    by_contra hc
    have : (n1 : ℝ) ≤ k := by exact_mod_cast (show n1 ≤ k by omega)
    have a := phaseA hr hx0 (n := k + 1) (by omega) (by push_cast; linarith) hM2 kM hwb (fun j h1 h2 => (hs j (by omega) h2).2)
    exact (phaseA_step hr hx0 k1 (by linarith) (by omega) (by positivity) (by linarith) a).1 hz
  have A := phaseA hr hx0 (n := n1) (by omega) hhi hM2 hnM hwb (fun j a b => (hs j (by omega) b).2)
  have dn1 := phaseA_dbl hr hx0 (by omega) hhi hM2 hnM wd hwb (fun j a b => (hs j (by omega) b).2)
  refine ⟨k - 1, ?_, zero_small hr hx hM2 h2 hnM hlo hhi dn1 A k1 kn (fun n a b => hs n a (by omega)) hz⟩
  have : ((k - 1 : ℕ) : ℝ) + 2 ≤ n1 := by exact_mod_cast (show k - 1 + 2 ≤ n1 by omega)
  linarith

end FB

/-- **C102** (small arguments). -/
theorem c102_small (hr : IsRounding rnd) {lib : Fl.BesLib} {x : ℝ} {N : ℕ} (hl : BesLibOk lib x) (hx0 : 2 ^ (-46 : ℤ) ≤ |x|) (hx : |x| ≤ 3 / 2) (h2 : 2 ≤ N) (hN : N ≤ 2 ^ 16) :
    ∃ out, Fl.sbesselj rnd lib x N = .ok out ∧ out.length = N ∧
      ∀ n, n < N → |rd out n - sphJ n x| ≤ 60 * (n + 1) * (N + 63) * 2 ^ (-53 : ℤ) * |sphJ n x| + n * 2 ^ (-1074 : ℤ) := by
  obtain ⟨M, rfl⟩ : ∃ M, N = M + 1 := ⟨N - 1, by omega⟩
  obtain ⟨out, e, len, b⟩ := FB.sbj_small hr (M := M) hl (le_trans (by norm_num) hx0) hx (by omega) (by omega)
  refine ⟨out, by push_cast; exact e, len, fun n hn => (b n (by omega)).trans (le_of_eq ?_)⟩
  rw [show uu = (2 : ℝ) ^ (-53 : ℤ) from rfl, show tiny = (2 : ℝ) ^ (-1074 : ℤ) from rfl]
  push_cast; ring

/-- **C102** (larger arguments): unless a division by zero happens, every value is accurate. -/
theorem c102_large (hr : IsRounding rnd) {lib : Fl.BesLib} {x : ℝ} {N : ℕ} (hl : BesLibOk lib x) (hx : 3 / 2 < |x|) (hN1 : |x| ≤ N - 1 / 2) (hN : N ≤ 2 ^ 16) :
    (∃ out, Fl.sbesselj rnd lib x N = .ok out ∧ out.length = N ∧
      ∀ n, n < N → |rd out n - sphJ n x| ≤ 370 * (1 + |x|) * (N + 63) * 2 ^ (-53 : ℤ) * |sphJ n x| + 160 * (N + 63) * 2 ^ (-53 : ℤ) + N * 2 ^ (-1074 : ℤ)) ∨
    (Fl.sbesselj rnd lib x N = .error ⟨.exception, "infinite"⟩ ∧ ∃ k : ℕ, (k : ℝ) < |x| ∧ |sphJ k x| ≤ 90 * (N + 63) * 2 ^ (-53 : ℤ)) := by
  have N2 : 2 ≤ N := by
    have : (1 : ℝ) < N := by linarith
    exact_mod_cast this
  obtain ⟨M, rfl⟩ : ∃ M, N = M + 1 := ⟨N - 1, by omega⟩
  push_cast at hN1
  rcases FB.sbj_large hr (M := M) hl hx (by linarith) (by omega) with e | ⟨out, e, len, b⟩
  · right
    refine ⟨by push_cast; exact e, ?_⟩
    obtain ⟨k, a, b⟩ := FB.sbj_error hr hl hx (M := M) (by linarith) (by omega) e
    refine ⟨k, a, b.trans (le_of_eq ?_)⟩
    rw [show uu = (2 : ℝ) ^ (-53 : ℤ) from rfl]
    push_cast; ring
  · left
    refine ⟨out, by push_cast; exact e, len, fun n hn => (b n (by omega)).trans ?_⟩
    rw [show uu = (2 : ℝ) ^ (-53 : ℤ) from rfl, show tiny = (2 : ℝ) ^ (-1074 : ℤ) from rfl]
    have t : (M : ℝ) * 2 ^ (-1074 : ℤ) ≤ (M + 1) * 2 ^ (-1074 : ℤ) := mul_le_mul_of_nonneg_right (by linarith) (by positivity)
    push_cast
    rw [show (M : ℝ) + 1 + 63 = M + 64 by ring]
    linarith

/-- **C102** (success): away from the zeros of the functions of order below `|x|` the call succeeds. -/
theorem c102_success (hr : IsRounding rnd) {lib : Fl.BesLib} {x : ℝ} {N : ℕ} (hl : BesLibOk lib x) (hx : 3 / 2 < |x|) (hN1 : |x| ≤ N - 1 / 2) (hN : N ≤ 2 ^ 16)
    (hz : ∀ k : ℕ, (k : ℝ) < |x| → 90 * (N + 63) * 2 ^ (-53 : ℤ) < |sphJ k x|) :
    ∃ out, Fl.sbesselj rnd lib x N = .ok out ∧ out.length = N ∧
      ∀ n, n < N → |rd out n - sphJ n x| ≤ 370 * (1 + |x|) * (N + 63) * 2 ^ (-53 : ℤ) * |sphJ n x| + 160 * (N + 63) * 2 ^ (-53 : ℤ) + N * 2 ^ (-1074 : ℤ) := by
  rcases c102_large hr hl hx hN1 hN with h | ⟨_, k, a, b⟩
  · exact h
  · exact absurd b (not_le.2 (hz k a))

/-- A library that computes exactly meets the hypothesis. -/
theorem besLib_exact (x : ℝ) : BesLibOk ⟨Real.cos, Real.sin, fun t => t ^ 2⟩ x where
  cos := by simp only [sub_self, abs_zero]; positivity
  sin := by simp only [sub_self, abs_zero]; positivity
  sq := by simp only [sub_self, abs_zero]; positivity

/-- The hypotheses of `c102_small` at `x = 1`, `N = 10`. -/
example (hr : IsRounding rnd) : ∃ out, Fl.sbesselj rnd ⟨Real.cos, Real.sin, fun t => t ^ 2⟩ 1 (10 : ℕ) = .ok out ∧ out.length = 10 :=
  let ⟨out, a, b, _⟩ := c102_small hr (x := 1) (N := 10) (besLib_exact 1) (by rw [abs_one, zpow_neg]; norm_num) (by norm_num) (by norm_num) (by norm_num)
  ⟨out, a, b⟩

/-- The hypotheses of `c102_success` at `x = 2`, `N = 10` (`j_0(2) = sin 2 / 2`, `j_1(2) = sin 2 / 4 - cos 2 / 2`). -/
example (hr : IsRounding rnd) : ∃ out, Fl.sbesselj rnd ⟨Real.cos, Real.sin, fun t => t ^ 2⟩ 2 (10 : ℕ) = .ok out ∧ out.length = 10 := by
  have s2 : 1 / 10 ≤ Real.sin 2 := by
    have h := Real.pi_gt_three
    have h' := Real.pi_lt_d2
    rw [← Real.sin_pi_sub]
    have := Real.mul_le_sin (x := Real.pi - 2) (by linarith) (by linarith)
    refine le_trans ?_ this
    have : (1 / 2 : ℝ) ≤ 2 / Real.pi := by rw [div_le_div_iff₀ (by norm_num) (by linarith)]; linarith
    nlinarith
  have c2 : Real.cos 2 ≤ 0 := by
    have h' := Real.pi_lt_d2
    have h := Real.pi_gt_three
    exact Real.cos_nonpos_of_pi_div_two_le_of_le (by linarith) (by linarith)
  obtain ⟨out, a, b, _⟩ := c102_success hr (x := 2) (N := 10) (besLib_exact 2) (by norm_num) (by norm_num) (by norm_num) (fun k hk => by
    have e : (90 : ℝ) * (((10 : ℕ) : ℝ) + 63) * 2 ^ (-53 : ℤ) < 1 / 100 := by rw [zpow_neg]; norm_num
    refine e.trans ?_
    rw [abs_of_pos (by norm_num : (0 : ℝ) < 2)] at hk
    have hk : k < 2 := by exact_mod_cast hk
    interval_cases k
    · refine lt_of_lt_of_le ?_ (le_abs_self _)
      show 1 / 100 < Real.sin 2 / 2
      linarith
    · refine lt_of_lt_of_le ?_ (le_abs_self _)
      show 1 / 100 < Real.sin 2 / 2 ^ 2 - Real.cos 2 / 2
      linarith)
  exact ⟨out, a, b⟩

/-- **C102** (counterexample): at a double near a zero of `j_2` the call divides by zero, although `|x| ≤ N - 1/2`, for every rounding to nearest. -/
theorem c102_zero_divisor (hr : IsRounding rnd) (lib : Fl.BesLib) (hsq : lib.sq (6489078172874838 / 2 ^ 50) = rnd ((6489078172874838 / 2 ^ 50) ^ 2)) :
    Fl.sbesselj rnd lib (6489078172874838 / 2 ^ 50) 7 = .error ⟨.exception, "infinite"⟩ := FB.zcall hr lib hsq

/-- **C102** (counterexample): at the double `x = 2^-60 + 2^-87` the second value is `128`, the exact one below `10^-18`, with correctly rounded library values. -/
theorem c102_tiny (hr : IsRounding rnd) (lib : Fl.BesLib) (hs : lib.sin (2 ^ (-60 : ℤ) + 2 ^ (-87 : ℤ)) = 2 ^ (-60 : ℤ) + 2 ^ (-87 : ℤ)) (hc : lib.cos (2 ^ (-60 : ℤ) + 2 ^ (-87 : ℤ)) = 1)
    (hq : lib.sq (2 ^ (-60 : ℤ) + 2 ^ (-87 : ℤ)) = rnd ((2 ^ (-60 : ℤ) + 2 ^ (-87 : ℤ)) ^ 2)) :
    ∃ out, Fl.sbesselj rnd lib (2 ^ (-60 : ℤ) + 2 ^ (-87 : ℤ)) 2 = .ok out ∧ out.length = 2 ∧ rd out 0 = 1 ∧ rd out 1 = 128 ∧
      |sphJ 1 (2 ^ (-60 : ℤ) + 2 ^ (-87 : ℤ))| ≤ 1 / 10 ^ 18 := by
  obtain ⟨x, hx⟩ : ∃ x : ℝ, x = 2 ^ (-60 : ℤ) + 2 ^ (-87 : ℤ) := ⟨_, rfl⟩
  rw [← hx] at hs hc hq ⊢
  have hx' : x = 134217729 / 2 ^ 87 := by rw [hx, zpow_neg, zpow_neg]; norm_num
  have xp : 0 < x := by rw [hx']; norm_num
  have z : rnd (x ^ 2) = 67108865 / 2 ^ 146 := by
    have := FB.rnd_lit hr (y := x ^ 2) 4503599694479360 172 (by norm_num) (by norm_num) (by norm_num) (by rw [hx', abs_lt]; constructor <;> norm_num)
    rw [this]; norm_num
  rw [z] at hq
  have b : rnd (lib.sin x / lib.sq x) = 9007199187632129 * 128 := by
    rw [hs, hq, hx']
    have := FB.rnd_lit_aux hr (y := 134217729 / 2 ^ 87 / (67108865 / 2 ^ 146)) 9007199187632129 (-7) (by norm_num) (by norm_num) (by norm_num) (by norm_num)
      (by rw [zpow_neg, abs_lt]; constructor <;> norm_num) (Or.inl (by norm_num))
    rw [this, zpow_neg]; norm_num
  have c : rnd (lib.cos x / x) = 9007199187632128 * 128 := by
    rw [hc, hx']
    have := FB.rnd_lit_aux hr (y := 1 / (134217729 / 2 ^ 87)) 9007199187632128 (-7) (by norm_num) (by norm_num) (by norm_num) (by norm_num)
      (by rw [zpow_neg, abs_lt]; constructor <;> norm_num) (Or.inl (by norm_num))
    rw [this, zpow_neg]; norm_num
  have j0 : rnd (lib.sin x / x) = 1 := by
    rw [hs, div_self xp.ne']
    exact rnd_double hr (by have := isDouble_pow 0 (by norm_num) (by norm_num); simpa using this) (by rw [abs_one]; exact one_le_pow₀ (by norm_num))
  have j1 : rnd (rnd (lib.sin x / lib.sq x) - rnd (lib.cos x / x)) = 128 := by
    rw [b, c]
    have := FB.rnd_lit' hr (y := 9007199187632129 * 128 - 9007199187632128 * 128) 4503599627370496 45 (by norm_num) (by norm_num) (by norm_num) (by rw [abs_lt]; constructor <;> norm_num)
    rw [this]; norm_num
  have ax : |x| = x := abs_of_pos xp
  obtain ⟨w, hw, _, _⟩ := FB.loop_start (x := x) (M := 1) (by rw [ax, hx']; norm_num) (le_refl _) (by rw [ax, hx']; norm_num) hr (z := lib.sq x)
    (by rw [hq, hx', show uu = (2 : ℝ) ^ (-53 : ℤ) from rfl, zpow_neg, abs_le]; constructor <;> norm_num) (by norm_num)
  rcases FB.sbj_struct hr lib (le_refl 1) (by norm_num) xp.ne' (by rw [hq]; norm_num) hw with ⟨r, out, e, len, rM, hs', o0, o1, on⟩ | ⟨_, r, n, a1, a2, _⟩
  · refine ⟨out, e, len, by rw [o0, j0], ?_, ?_⟩
    · rw [o1, j0, j1, if_neg (by norm_num)]
    · have x1 : x ≤ 1 / 10 ^ 18 := by rw [hx']; norm_num
      have hx2 : x ≤ ((1 : ℕ) : ℝ) + 1 / 2 := by push_cast; linarith
      have m := sbRho_mul xp (le_refl 1) hx2
      have ρp := (sbRho_pos xp (le_refl 1) hx2).2
      have rc := sbRho_rec xp (le_refl 1) hx2
      have ρ2 := sbRho_le_one xp (n := 1 + 1) (by norm_num) (by push_cast; linarith)
      have B : sbB x 1 = 3 / x := by unfold sbB; norm_num
      have h1 : 1 / x ≤ sbB x 1 - sbRho x (1 + 1) := by
        rw [B, div_le_iff₀ xp, sub_mul, div_mul_cancel₀ _ xp.ne']
        nlinarith
      have h2 := mul_le_mul_of_nonneg_left h1 ρp.le
      rw [rc, mul_one_div, div_le_one xp] at h2
      rw [m, abs_mul, abs_of_pos ρp]
      calc sbRho x 1 * |sphJ (1 - 1) x| ≤ sbRho x 1 * 1 := mul_le_mul_of_nonneg_left (sphJ_le_one xp _) ρp.le
        _ ≤ 1 / 10 ^ 18 := by linarith
  · omega

/-- The library values of `c102_tiny` are accurate (they are the correctly rounded ones), so its hypotheses are met by an accurate library. -/
theorem c102_tiny_lib (hr : IsRounding rnd) : BesLibOk ⟨fun _ => 1, fun t => t, fun t => rnd (t ^ 2)⟩ (2 ^ (-60 : ℤ) + 2 ^ (-87 : ℤ)) := by
  obtain ⟨x, hx⟩ : ∃ x : ℝ, x = 2 ^ (-60 : ℤ) + 2 ^ (-87 : ℤ) := ⟨_, rfl⟩
  rw [← hx]
  have hx' : x = 134217729 / 2 ^ 87 := by rw [hx, zpow_neg, zpow_neg]; norm_num
  have xp : 0 < x := by rw [hx']; norm_num
  have x1 : x ≤ 1 / 10 ^ 17 := by rw [hx']; norm_num
  have x2 : x * x ≤ 1 / 10 ^ 17 * (1 / 10 ^ 17) := mul_le_mul x1 x1 xp.le (by norm_num)
  have u : (2 : ℝ) ^ (-53 : ℤ) = 1 / 2 ^ 53 := by rw [zpow_neg]; norm_num
  refine ⟨?_, ?_, ?_⟩
  · have h1 := Real.one_sub_sq_div_two_le_cos (x := x)
    have h2 := Real.cos_le_one x
    have h3 : 1 / 2 ≤ |Real.cos x| := by
      refine le_trans ?_ (le_abs_self _)
      nlinarith
    rw [abs_of_nonneg (by linarith), u]
    norm_num at x2
    nlinarith
  · have h1 := Real.sin_gt_sub_cube xp
    have h2 := Real.sin_lt xp
    have x3 : x ^ 3 ≤ 1 / 10 ^ 17 * (1 / 10 ^ 17) * x := by
      rw [show x ^ 3 = x * x * x by ring]
      exact mul_le_mul_of_nonneg_right x2 xp.le
    have h3 : x / 2 ≤ Real.sin x := by linarith
    show |x - Real.sin x| ≤ _
    rw [abs_of_nonneg (by linarith), abs_of_nonneg (by linarith), u]
    linarith
  · have z : rnd (x ^ 2) = 67108865 / 2 ^ 146 := by
      have := FB.rnd_lit hr (y := x ^ 2) 4503599694479360 172 (by norm_num) (by norm_num) (by norm_num) (by rw [hx', abs_lt]; constructor <;> norm_num)
      rw [this]; norm_num
    show |rnd (x ^ 2) - x ^ 2| ≤ _
    rw [z, u, hx', abs_le]; constructor <;> norm_num

end Verif.Props
