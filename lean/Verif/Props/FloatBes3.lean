import Verif.Props.FloatBes2
/-!
# `sbesselj` in doubles: the `while` loop returns
-/
namespace Verif.Props
open Verif
variable {rnd : ℝ → ℝ}

namespace FB

/-- The threshold `1e-20` of the loop against powers of two. -/
theorem thr (hr : IsRounding rnd) : (2 : ℝ) ^ (-67 : ℤ) ≤ rnd (1 / 10 ^ 20) ∧ rnd (1 / 10 ^ 20) ≤ 2 ^ (-66 : ℤ) := by
  have b : |(1 : ℝ) / 10 ^ 20| ≤ 10 ^ 75 := by rw [abs_of_pos (by norm_num)]; norm_num
  exact ⟨rnd_ge_double hr (big10 b) (isDouble_pow _ (by norm_num) (by norm_num)) (by norm_num), rnd_le_double hr (big10 b) (isDouble_pow _ (by norm_num) (by norm_num)) (by norm_num)⟩

theorem rnd_abs_le (hr : IsRounding rnd) {y : ℝ} {e : ℤ} (e0 : -1000 ≤ e) (e1 : e ≤ 200) (h : |y| ≤ 2 ^ e) : |rnd y| ≤ 2 ^ e := by
  have b : (2 : ℝ) ^ e ≤ 10 ^ 75 := by
    calc (2 : ℝ) ^ e ≤ 2 ^ (200 : ℤ) := zpow_le_zpow_right₀ (by norm_num) e1
      _ ≤ 10 ^ 75 := by norm_num
  have hb := big10 (h.trans b)
  have d : IsDouble ((2 : ℝ) ^ e) := isDouble_pow _ (by omega) (by omega)
  rw [abs_le] at h ⊢
  exact ⟨rnd_ge_double hr hb (isDouble_neg d) h.1, rnd_le_double hr hb d h.2⟩

theorem rnd_abs_ge (hr : IsRounding rnd) {y : ℝ} {e : ℤ} (e0 : -1000 ≤ e) (e1 : e ≤ 200) (h : 2 ^ e ≤ |y|) (hb : |y| ≤ 10 ^ 75) : 2 ^ e ≤ |rnd y| := by
  have d : IsDouble ((2 : ℝ) ^ e) := isDouble_pow _ (by omega) (by omega)
  rcases le_total 0 y with hy | hy
  · rw [abs_of_nonneg hy] at h
    exact (rnd_ge_double hr (big10 hb) d h).trans (le_abs_self _)
  · rw [abs_of_nonpos hy] at h
    have := rnd_le_double hr (big10 hb) (isDouble_neg d) (by linarith)
    exact le_trans (by linarith) (neg_le_abs _)

section
variable {x : ℝ} {M : ℕ} (hx0 : 1 / 10 ^ 20 ≤ |x|) (hM1 : 1 ≤ M) (hM : |x| ≤ M + 1 / 2)
include hx0 hM1 hM

/-- The loop goes on: `v` is not tiny and few passes have been made. -/
theorem loop_go (hr : IsRounding rnd) {v0 u v w S V : ℝ} {k : ℕ} (hk : k ≤ M + 64) (hM2 : M ≤ 2 ^ 16)
    (hv0 : 1 / 10 ^ 30 ≤ |v0|) (h : LoopInv x v0 M k u v w S V) (c : |rnd (v / w)| > rnd (1 / 10 ^ 20)) :
    1 / 10 ^ 54 ≤ |v| ∧ k < M + 64 := by
  obtain ⟨sv1, sv2, sw1, sw2, sS⟩ := sizes hx0 hM1 hM hk hM2 h
  have S1 := h.S1
  have V0 := h.V0
  have p0 : 0 < |v0| := lt_of_lt_of_le (by norm_num) hv0
  have q : (2 : ℝ) ^ (-69 : ℤ) < |v / w| := by
    by_contra hh
    rw [not_lt] at hh
    have := rnd_abs_le hr (by norm_num) (by norm_num) hh
    have h2 := (thr hr).1
    have : (2 : ℝ) ^ (-69 : ℤ) < 2 ^ (-67 : ℤ) := by norm_num
    linarith
  have vS : |v0| ≤ |v0| * S := by nlinarith
  have wp : 0 < |w| := by linarith
  rw [abs_div, lt_div_iff₀ wp] at q
  have c69 : (1 : ℝ) / 10 ^ 21 ≤ 2 ^ (-69 : ℤ) := by norm_num
  have q1 : 1 / 10 ^ 21 * |w| < |v| := lt_of_le_of_lt (mul_le_mul_of_nonneg_right c69 wp.le) q
  have w1 : 99 / 100 * |v0| ≤ |w| := by linarith
  refine ⟨?_, ?_⟩
  · have : (1 : ℝ) / 10 ^ 54 ≤ 1 / 10 ^ 21 * (99 / 100 * (1 / 10 ^ 30)) := by norm_num
    have h3 : 1 / 10 ^ 21 * (99 / 100 * (1 / 10 ^ 30)) ≤ 1 / 10 ^ 21 * |w| := mul_le_mul_of_nonneg_left (le_trans (mul_le_mul_of_nonneg_left hv0 (by norm_num)) w1) (by norm_num)
    exact (this.trans h3).trans q1.le
  · by_contra hh
    have ke : k = M + 64 := by omega
    have g := h.geo
    rw [ke, Nat.add_sub_cancel_left] at g
    have g2 : V ≤ 1 / 10 ^ 22 := g.trans (by norm_num)
    have h1 : |v| ≤ 101 / 100 * (|v0| * (1 / 10 ^ 22)) := sv1.trans (mul_le_mul_of_nonneg_left (mul_le_mul_of_nonneg_left g2 p0.le) (by norm_num))
    have h2 : 1 / 10 ^ 21 * (99 / 100 * |v0|) ≤ 1 / 10 ^ 21 * |w| := mul_le_mul_of_nonneg_left w1 (by norm_num)
    have : 101 / 100 * (|v0| * (1 / 10 ^ 22)) < 1 / 10 ^ 21 * (99 / 100 * |v0|) := by
      norm_num
      linarith
    linarith

/-- The loop stops: what it returns. -/
theorem loop_stop (hr : IsRounding rnd) {v0 u v w S V : ℝ} {k : ℕ} (hk : k ≤ M + 64) (hM2 : M ≤ 2 ^ 16)
    (hv0 : 1 / 10 ^ 30 ≤ |v0|) (h : LoopInv x v0 M k u v w S V) (c : ¬ |rnd (v / w)| > rnd (1 / 10 ^ 20)) :
    |w - v0 * gG x M| ≤ 49 * (M + 64) * uu * |v0| := by
  obtain ⟨sv1, sv2, sw1, sw2, sS⟩ := sizes hx0 hM1 hM hk hM2 h
  have u0 := uu_pos
  have S1 := h.S1
  have V0 := h.V0
  have V1 := V_le_one h hM1
  have p0 : 0 < |v0| := lt_of_lt_of_le (by norm_num) hv0
  have vS : |v0| ≤ |v0| * S := by nlinarith
  have wp : 0 < |w| := by linarith
  have q : |v / w| < 2 ^ (-65 : ℤ) := by
    by_contra hh
    rw [not_lt] at hh
    have b : |v / w| ≤ 10 ^ 75 := by
      rw [abs_div, div_le_iff₀ wp]
      have h1 : |v0| * V ≤ |v0| := by nlinarith
      have : |v| ≤ 10 * |w| := by linarith
      exact this.trans (mul_le_mul_of_nonneg_right (by norm_num) wp.le)
    have := rnd_abs_ge hr (by norm_num) (by norm_num) hh b
    have h2 := (thr hr).2
    have : (2 : ℝ) ^ (-66 : ℤ) < 2 ^ (-65 : ℤ) := by norm_num
    linarith
  rw [abs_div, div_lt_iff₀ wp] at q
  have c65 : (2 : ℝ) ^ (-65 : ℤ) ≤ 3 / 10 ^ 20 := by norm_num
  have q1 : |v| ≤ 3 / 10 ^ 20 * |w| := q.le.trans (mul_le_mul_of_nonneg_right c65 wp.le)
  have Vs : V ≤ 7 / 10 ^ 20 := by
    have s : |v0| * S ≤ |v0| * (201 / 100) := mul_le_mul_of_nonneg_left sS p0.le
    have : |v0| * V ≤ |v0| * (7 / 10 ^ 20) := by
      have : 99 / 100 * (|v0| * V) ≤ 3 / 10 ^ 20 * (101 / 100 * (|v0| * (201 / 100))) :=
        (sv2.trans q1).trans (mul_le_mul_of_nonneg_left (sw1.trans (mul_le_mul_of_nonneg_left s (by norm_num))) (by norm_num))
      norm_num at this ⊢
      linarith
    exact le_of_mul_le_mul_left this p0
  obtain ⟨g1, g2⟩ := gG_bounds hx0 hM1 hM k
  have hu1 := h.u1
  have ult := u_lt_two h hM1
  have hd := cfA_den hu1 ult g1 g2
  have up : 0 < u := by linarith
  have np : (0 : ℝ) < ((M + k : ℕ) : ℝ) := by exact_mod_cast (show 0 < M + k by omega)
  have hu2 : u ≤ 2 * ((M + k : ℕ) : ℝ) * (2 - u) := by
    have a := h.u2
    generalize ((M + k : ℕ) : ℝ) = m at *
    have e : (1 / 2 + 1 / (4 * m)) * u ≤ 1 := by
      calc (1 / 2 + 1 / (4 * m)) * u ≤ 1 / u * u := mul_le_mul_of_nonneg_right a up.le
        _ = 1 := by field_simp
    have e2 : (1 / 2 + 1 / (4 * m)) * u = u / 2 + u / (4 * m) := by ring
    have e3 : u / (4 * m) ≤ 1 - u / 2 := by linarith
    rw [div_le_iff₀ (by positivity)] at e3
    nlinarith
  have tail : |cfA S V u (gG x (M + k)) - S| ≤ 14 / 10 ^ 20 * ((M + k : ℕ) : ℝ) := by
    unfold cfA
    rw [add_sub_cancel_left]
    have dp : 0 < u - (u - 1) * gG x (M + k) := by linarith
    have Vu0 : 0 ≤ V * u := mul_nonneg V0 up.le
    rw [abs_of_nonneg (div_nonneg (mul_nonneg Vu0 (by linarith)) dp.le), div_le_iff₀ dp]
    generalize ((M + k : ℕ) : ℝ) = m at *
    calc V * u * (gG x (M + k) - 1) ≤ V * u * 1 := mul_le_mul_of_nonneg_left (by linarith) Vu0
      _ = V * u := mul_one _
      _ ≤ 7 / 10 ^ 20 * (2 * m * (2 - u)) := mul_le_mul Vs hu2 up.le (by norm_num)
      _ = 14 / 10 ^ 20 * m * (2 - u) := by ring
      _ ≤ _ := mul_le_mul_of_nonneg_left hd (mul_nonneg (by norm_num) np.le)
  have SG : |S - gG x M| ≤ 40 * uu * k + 14 / 10 ^ 20 * ((M + k : ℕ) : ℝ) := by
    have := abs_sub_le S (cfA S V u (gG x (M + k))) (gG x M)
    rw [abs_sub_comm S (cfA S V u (gG x (M + k)))] at this
    have := h.A
    linarith
  have uval : (14 : ℝ) / 10 ^ 20 ≤ uu / 100 := by rw [uu_val]; norm_num
  have hkr : (k : ℝ) ≤ M + 64 := by exact_mod_cast hk
  have k0 : (0 : ℝ) ≤ k := Nat.cast_nonneg k
  have M0 : (0 : ℝ) ≤ M := Nat.cast_nonneg M
  have SG' : |S - gG x M| ≤ 405 / 10 * (M + 64) * uu := by
    push_cast at SG
    have a : 40 * uu * k ≤ 40 * uu * (M + 64) := mul_le_mul_of_nonneg_left hkr (by linarith)
    have b : 14 / 10 ^ 20 * ((M : ℝ) + k) ≤ uu / 100 * (2 * (M + 64)) := mul_le_mul uval (by linarith) (by linarith) (by linarith)
    have c : 0 ≤ uu * ((M : ℝ) + 64) := mul_nonneg u0.le (by linarith)
    linarith
  have t1 : |w - v0 * gG x M| ≤ |w - v0 * S| + |v0| * |S - gG x M| := by
    rw [show w - v0 * gG x M = (w - v0 * S) + v0 * (S - gG x M) by ring, ← abs_mul]; exact abs_add_le _ _
  have t2 : |v0| * |S - gG x M| ≤ |v0| * (405 / 10 * (M + 64) * uu) := mul_le_mul_of_nonneg_left SG' p0.le
  have t3 : 4 * k * uu * |v0| * S ≤ 4 * (M + 64) * uu * |v0| * (201 / 100) := by
    have : 4 * k * uu * |v0| ≤ 4 * (M + 64) * uu * |v0| := mul_le_mul_of_nonneg_right (mul_le_mul_of_nonneg_right (by linarith) u0.le) p0.le
    exact mul_le_mul this sS (by linarith) (by positivity)
  have pos : 0 ≤ (M + 64) * uu * |v0| := by positivity
  have hw := h.w
  calc |w - v0 * gG x M| ≤ 4 * (M + 64) * uu * |v0| * (201 / 100) + |v0| * (405 / 10 * (M + 64) * uu) := by linarith
    _ = (804 / 100 + 405 / 10) * ((M + 64) * uu * |v0|) := by ring
    _ ≤ 49 * ((M + 64) * uu * |v0|) := mul_le_mul_of_nonneg_right (by norm_num) pos
    _ = _ := by ring

/-- The loop returns, from any state that meets the invariant. -/
theorem loop_run (hr : IsRounding rnd) {z v0 : ℝ} (hz : |z - x ^ 2| ≤ 2 * uu * x ^ 2) (hM2 : M ≤ 2 ^ 16) (hv0 : 1 / 10 ^ 30 ≤ |v0|) (hv1 : |v0| ≤ 2) :
    ∀ (d k : ℕ) (u v w S V : ℝ), k + d = M + 64 → LoopInv x v0 M k u v w S V →
      ∃ r, Fl.sbjLoop rnd z u v w ((M + k : ℕ) : ℤ) = some (.ok r) ∧ IsDouble r ∧ |r - v0 * gG x M| ≤ 49 * (M + 64) * uu * |v0| := by
  intro d
  induction d with
  | zero =>
    intro k u v w S V hd h
    obtain ⟨_, _, _, sw2, _⟩ := sizes hx0 hM1 hM (by omega) hM2 h
    have p0 : 0 < |v0| := lt_of_lt_of_le (by norm_num) hv0
    have wne : w ≠ 0 := by
      rintro rfl
      rw [abs_zero] at sw2
      nlinarith [h.S1]
    rw [Fl.sbjLoop, if_neg wne]
    by_cases c : |rnd (v / w)| > rnd (1 / 10 ^ 20)
    · have := (loop_go hx0 hM1 hM hr (by omega) hM2 hv0 h c).2
      omega
    · rw [if_neg c]
      exact ⟨w, rfl, h.wd, loop_stop hx0 hM1 hM hr (by omega) hM2 hv0 h c⟩
  | succ d ih =>
    intro k u v w S V hd h
    obtain ⟨_, _, _, sw2, _⟩ := sizes hx0 hM1 hM (by omega) hM2 h
    have p0 : 0 < |v0| := lt_of_lt_of_le (by norm_num) hv0
    have wne : w ≠ 0 := by
      rintro rfl
      rw [abs_zero] at sw2
      nlinarith [h.S1]
    rw [Fl.sbjLoop, if_neg wne]
    by_cases c : |rnd (v / w)| > rnd (1 / 10 ^ 20)
    · rw [if_pos c]
      obtain ⟨hv, hk⟩ := loop_go hx0 hM1 hM hr (by omega) hM2 hv0 h c
      obtain ⟨dn, st⟩ := loop_step hx0 hM1 hM hr hz hk hM2 hv0 hv1 h hv
      have e : ((M + k : ℕ) : ℤ) + 1 = ((M + k + 1 : ℕ) : ℤ) := by push_cast; ring
      rw [e, if_neg dn]
      obtain ⟨S', V', inv⟩ := st _ _ rfl rfl
      exact ih (k + 1) _ _ _ S' V' (by omega) inv
    · rw [if_neg c]
      exact ⟨w, rfl, h.wd, loop_stop hx0 hM1 hM hr (by omega) hM2 hv0 h c⟩

/-- The loop as `sbesselj` starts it: it returns `j_M/j_{M-1}` with a relative error of `50 (M+64)` units. -/
theorem loop_start (hr : IsRounding rnd) {z : ℝ} (hz : |z - x ^ 2| ≤ 2 * uu * x ^ 2) (hM2 : M ≤ 2 ^ 16) :
    ∃ r, Fl.sbjLoop rnd z 1 (rnd (x / rnd (rnd (2 * Fl.ofInt rnd (M : ℤ)) + 1))) (rnd (x / rnd (rnd (2 * Fl.ofInt rnd (M : ℤ)) + 1))) (M : ℤ) = some (.ok r) ∧ IsDouble r ∧
      |r - SignType.sign x * sbRho |x| M| ≤ 52 * (M + 64) * uu * sbRho |x| M := by
  have u0 := uu_pos
  have u1 := uu_lt
  rw [odd_int hr (by omega)]
  have M1 : (1 : ℝ) ≤ M := by exact_mod_cast hM1
  have M2 : (M : ℝ) ≤ 2 ^ 16 := by exact_mod_cast hM2
  have xp : 0 < |x| := lt_of_lt_of_le (by norm_num) hx0
  have Dp : 0 < 2 * (M : ℝ) + 1 := by linarith
  have aD : |x / (2 * M + 1)| = |x| / (2 * M + 1) := by rw [abs_div, abs_of_pos Dp]
  have lo : 1 / 10 ^ 26 ≤ |x / (2 * M + 1)| := by
    rw [aD, le_div_iff₀ Dp]
    calc 1 / 10 ^ 26 * (2 * (M : ℝ) + 1) ≤ 1 / 10 ^ 26 * 10 ^ 6 := mul_le_mul_of_nonneg_left (by linarith) (by norm_num)
      _ ≤ 1 / 10 ^ 20 := by norm_num
      _ ≤ _ := hx0
  have hi : |x / (2 * M + 1)| ≤ 1 / 2 := by
    rw [aD, div_le_iff₀ Dp]; linarith
  have r1 := rr hr (y := x / (2 * M + 1)) (le_trans (by norm_num) lo) (hi.trans (by norm_num))
  have v0D := isD_double hr (y := x / (2 * M + 1)) (hi.trans (by norm_num))
  generalize hq : x / (2 * (M : ℝ) + 1) = q at *
  generalize rnd q = v0 at *
  have up : uu ≤ 1 / 100 := u1.trans (by norm_num)
  have q0 : 0 ≤ |q| := abs_nonneg q
  have v0a : |v0| ≤ |q| + uu * |q| := by
    have := abs_sub_abs_le_abs_sub v0 q
    linarith
  have v0b : |q| - uu * |q| ≤ |v0| := by
    have := abs_sub_abs_le_abs_sub q v0
    rw [abs_sub_comm] at this
    linarith
  have uq : uu * |q| ≤ 1 / 100 * |q| := mul_le_mul_of_nonneg_right up q0
  have lo2 : (1 : ℝ) / 10 ^ 30 ≤ 99 / 100 * (1 / 10 ^ 26) := by norm_num
  have hv0 : 1 / 10 ^ 30 ≤ |v0| := by
    have : 99 / 100 * (1 / 10 ^ 26) ≤ 99 / 100 * |q| := mul_le_mul_of_nonneg_left lo (by norm_num)
    exact lo2.trans (this.trans (by linarith))
  obtain ⟨r, er, rD, hr'⟩ := loop_run hx0 hM1 hM hr hz hM2 hv0 (v0 := v0) (by linarith) (M + 64) 0 1 v0 v0 1 1 (by omega) {
    dbl := isD1
    wd := v0D
    u1 := le_refl _
    u2 := by
      have : 1 / (4 * ((M + 0 : ℕ) : ℝ)) ≤ 1 / 2 := by
        rw [Nat.add_zero, div_le_div_iff₀ (by positivity) (by norm_num)]; linarith
      linarith
    V0 := by norm_num
    S1 := le_refl _
    Vu := by norm_num
    A := by unfold cfA; simp
    v := by simp
    w := by simp
    geo := by simp }
  rw [Nat.add_zero] at er
  refine ⟨r, er, rD, ?_⟩
  obtain ⟨g1, g2⟩ := gG_bounds hx0 hM1 hM 0
  rw [Nat.add_zero] at g1 g2
  have key : SignType.sign x * sbRho |x| M = q * gG x M := by
    rw [← hq]
    unfold gG sbB
    have : (SignType.sign x : ℝ) * |x| = x := sign_mul_abs x
    have xn := xp.ne'
    calc (SignType.sign x : ℝ) * sbRho |x| M = ((SignType.sign x : ℝ) * |x|) * sbRho |x| M / |x| := by field_simp
      _ = x * sbRho |x| M / |x| := by rw [this]
      _ = _ := by field_simp
  have rho : sbRho |x| M = |q| * gG x M := by
    rw [aD]
    unfold gG sbB
    have xn := xp.ne'
    field_simp
  rw [key, rho]
  generalize gG x M = g at *
  have e1 : |r - q * g| ≤ |r - v0 * g| + |v0 - q| * g := by
    have := abs_add_le (r - v0 * g) ((v0 - q) * g)
    rw [abs_mul, abs_of_nonneg (show (0 : ℝ) ≤ g by linarith)] at this
    rw [show r - q * g = (r - v0 * g) + (v0 - q) * g by ring]
    exact this
  have e2 : |v0 - q| * g ≤ uu * |q| * g := mul_le_mul_of_nonneg_right r1 (by linarith)
  have e3 : 49 * ((M : ℝ) + 64) * uu * |v0| ≤ 49 * (M + 64) * uu * (101 / 100 * |q|) := mul_le_mul_of_nonneg_left (by linarith) (by positivity)
  have e4 : 49 * ((M : ℝ) + 64) * uu * (101 / 100 * |q|) ≤ 49 * ((M : ℝ) + 64) * uu * (101 / 100 * (|q| * g)) :=
    mul_le_mul_of_nonneg_left (mul_le_mul_of_nonneg_left (by nlinarith) (by norm_num)) (by positivity)
  have e5 : 0 ≤ uu * |q| * g := mul_nonneg (mul_nonneg u0.le q0) (by linarith)
  have e6 : uu * |q| * g ≤ (M + 64) * (uu * |q| * g) := by nlinarith
  calc |r - q * g| ≤ 49 * ((M : ℝ) + 64) * uu * (101 / 100 * (|q| * g)) + (M + 64) * (uu * |q| * g) := by linarith
    _ = (49 * 101 / 100 + 1) * ((M + 64) * (uu * |q| * g)) := by ring
    _ ≤ 52 * ((M + 64) * (uu * |q| * g)) := mul_le_mul_of_nonneg_right (by norm_num) (mul_nonneg (by linarith) e5)
    _ = _ := by ring

end

end FB
end Verif.Props
