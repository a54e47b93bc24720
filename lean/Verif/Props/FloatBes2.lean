import Verif.Props.FloatBes1
/-!
# `sbesselj` in doubles: the `while` loop returns and its result is accurate
-/
namespace Verif.Props
open Verif
variable {rnd : ℝ → ℝ}

namespace FB

/-- Value of the continued fraction when the loop has reached `(S, V, u)` and the remaining tail is `y`. -/
noncomputable def cfA (S V u y : ℝ) : ℝ := S + V * u * (y - 1) / (u - (u - 1) * y)

/-- `(2n+1)/|x| · j_n/j_{n-1}`. -/
noncomputable def gG (x : ℝ) (n : ℕ) : ℝ := sbB |x| n * sbRho |x| n

theorem cfA_den {u y : ℝ} (h1 : 1 ≤ u) (h2 : u < 2) (_hy1 : 1 ≤ y) (hy2 : y ≤ 2) : 2 - u ≤ u - (u - 1) * y := by nlinarith

theorem cfA_step {S V u T y : ℝ} (h : 1 - T * y ≠ 0) (h3 : 1 - T * u ≠ 0) (hz : 1 - T * u * y ≠ 0) :
    cfA S V u (1 / (1 - T * y)) = cfA (S + V * (1 / (1 - T * u) - 1)) (V * (1 / (1 - T * u) - 1)) (1 / (1 - T * u)) y := by
  unfold cfA
  have e1 : u - (u - 1) * (1 / (1 - T * y)) = (1 - T * u * y) / (1 - T * y) := by field_simp; ring
  have e2 : 1 / (1 - T * u) - (1 / (1 - T * u) - 1) * y = (1 - T * u * y) / (1 - T * u) := by field_simp; ring
  have e3 : 1 / (1 - T * y) - 1 = T * y / (1 - T * y) := by field_simp; ring
  have e4 : 1 / (1 - T * u) - 1 = T * u / (1 - T * u) := by field_simp; ring
  rw [e1, e2, e3, e4]
  have l : V * u * (T * y / (1 - T * y)) / ((1 - T * u * y) / (1 - T * y)) = V * u * T * y / (1 - T * u * y) := by field_simp
  have r : V * (T * u / (1 - T * u)) * (1 / (1 - T * u)) * (y - 1) / ((1 - T * u * y) / (1 - T * u)) = V * T * u * (y - 1) / ((1 - T * u) * (1 - T * u * y)) := by
    field_simp
  rw [l, r, add_assoc]
  congr 1
  have c : V * (T * u / (1 - T * u)) = V * T * u * (1 - T * u * y) / ((1 - T * u) * (1 - T * u * y)) := by field_simp
  have d : V * u * T * y / (1 - T * u * y) = V * u * T * y * (1 - T * u) / ((1 - T * u) * (1 - T * u * y)) := by
    rw [mul_comm (1 - T * u) (1 - T * u * y), mul_div_mul_right _ _ h3]
  rw [c, d, ← add_div]
  congr 1
  ring

theorem cfA_lip {S V u y1 y2 : ℝ} (h1 : 1 ≤ u) (h2 : u < 2) (hV : 0 ≤ V) (hVu : V * u ≤ (2 - u) ^ 2) (a1 : 1 ≤ y1) (a2 : y1 ≤ 2) (b1 : 1 ≤ y2) (b2 : y2 ≤ 2) :
    |cfA S V u y1 - cfA S V u y2| ≤ |y1 - y2| := by
  have d1 := cfA_den h1 h2 a1 a2
  have d2 := cfA_den h1 h2 b1 b2
  have p1 : 0 < u - (u - 1) * y1 := by linarith
  have p2 : 0 < u - (u - 1) * y2 := by linarith
  have e : cfA S V u y1 - cfA S V u y2 = V * u / ((u - (u - 1) * y1) * (u - (u - 1) * y2)) * (y1 - y2) := by
    unfold cfA
    rw [add_sub_add_left_eq_sub, div_sub_div _ _ p1.ne' p2.ne', div_mul_eq_mul_div]
    congr 1
    ring
  have Vu : 0 ≤ V * u := mul_nonneg hV (by linarith)
  rw [e, abs_mul, abs_of_nonneg (by positivity)]
  have : V * u / ((u - (u - 1) * y1) * (u - (u - 1) * y2)) ≤ 1 := by
    rw [div_le_one (by positivity)]
    nlinarith
  nlinarith [abs_nonneg (y1 - y2)]

/-- One exact step of the continued fraction with a perturbed coefficient. -/
theorem cf_core {u u' t V y yt : ℝ} (hu1 : 1 ≤ u) (ult : u < 2) (ug : 1 ≤ u') (u'2 : u' < 2) (du : |1 / u' - (1 - t * u)| ≤ 5 * uu) (t4 : t + 5 * uu ≤ 1 / 4)
    (V0 : 0 ≤ V) (hVu : V * u ≤ (2 - u) ^ 2) (g1' : 1 ≤ y) (g2' : y ≤ 2) (g1 : 1 ≤ yt) (g2 : yt ≤ 2) (gr : yt * (1 - t * y) = 1) :
    V * (u' - 1) * u' ≤ (2 - u') ^ 2 ∧ ∀ S, |cfA (S + V * (u' - 1)) (V * (u' - 1)) u' y - cfA S V u yt| ≤ 40 * uu := by
  have u0 := uu_pos
  have up : 0 < u' := by linarith
  have uup : 0 < u := by linarith
  obtain ⟨T, hT⟩ : ∃ T, T = (1 - 1 / u') / u := ⟨_, rfl⟩
  have hTu : 1 - T * u = 1 / u' := by rw [hT]; field_simp; ring
  have inv1 : 1 / u' ≤ 1 := by rw [div_le_one up]; exact ug
  have inv2 : 1 / 2 < 1 / u' := by rw [div_lt_div_iff₀ (by norm_num) up]; linarith
  have T0 : 0 ≤ T := by rw [hT]; exact div_nonneg (by linarith) uup.le
  have Tt : |T - t| ≤ 5 * uu := by
    have e : T - t = -(1 / u' - (1 - t * u)) / u := by rw [hT]; field_simp; ring
    rw [e, abs_div, abs_neg, abs_of_pos uup, div_le_iff₀ uup]
    nlinarith
  have T4 : T ≤ 1 / 4 := by linarith [(abs_le.1 Tt).2]
  have Tu0 : 0 ≤ T * u := mul_nonneg T0 uup.le
  clear hT
  have mul1 : (1 - T * u) * u' = 1 := by rw [hTu]; field_simp
  refine ⟨?_, fun S => ?_⟩
  · have e1 : u' - 1 = T * u * u' := by linarith
    have e2 : 2 - u' = (1 - 2 * (T * u)) * u' := by linarith
    rw [e2, mul_pow, e1]
    have h1 : V * (T * u) ≤ (1 - 2 * (T * u)) ^ 2 := by
      have b : V * (T * u) ≤ 1 / 4 * (2 - u) ^ 2 := by
        calc V * (T * u) = T * (V * u) := by ring
          _ ≤ 1 / 4 * (2 - u) ^ 2 := mul_le_mul T4 hVu (mul_nonneg V0 uup.le) (by norm_num)
      have c : (2 - u) / 2 ≤ 1 - 2 * (T * u) := by
        have : T * u ≤ 1 / 4 * u := mul_le_mul_of_nonneg_right T4 uup.le
        linarith
      have d : ((2 - u) / 2) ^ 2 ≤ (1 - 2 * (T * u)) ^ 2 := pow_le_pow_left₀ (by linarith) c 2
      linarith [show ((2 - u) / 2) ^ 2 = 1 / 4 * (2 - u) ^ 2 by ring]
    calc V * (T * u * u') * u' = V * (T * u) * u' ^ 2 := by ring
      _ ≤ (1 - 2 * (T * u)) ^ 2 * u' ^ 2 := mul_le_mul_of_nonneg_right h1 (by positivity)
  · have Ty : T * y ≤ 1 / 4 * 2 := mul_le_mul T4 g2' (by linarith) (by norm_num)
    have Ty0 : 0 ≤ T * y := mul_nonneg T0 (by linarith)
    obtain ⟨yT, hyT⟩ : ∃ yT, yT = 1 / (1 - T * y) := ⟨_, rfl⟩
    have yT1 : 1 ≤ yT := by rw [hyT, le_div_iff₀ (by linarith)]; linarith
    have yT2 : yT ≤ 2 := by rw [hyT, div_le_iff₀ (by linarith)]; linarith
    have ne : 1 - T * y ≠ 0 := by linarith
    have yTm : yT * (1 - T * y) = 1 := by rw [hyT]; field_simp
    have hdy : |yT - yt| ≤ 40 * uu := by
      have e : yT - yt = yT * yt * y * (T - t) := by
        have : yT * yt * y * (T - t) = yT * (yt * (1 - t * y)) - yt * (yT * (1 - T * y)) := by ring
        rw [this, gr, yTm]; ring
      rw [e, abs_mul, abs_of_pos (mul_pos (mul_pos (by linarith) (by linarith)) (by linarith))]
      have : yT * yt * y ≤ 2 * 2 * 2 := mul_le_mul (mul_le_mul yT2 g2 (by linarith) (by norm_num)) g2' (by linarith) (by norm_num)
      calc yT * yt * y * |T - t| ≤ 2 * 2 * 2 * (5 * uu) := mul_le_mul this Tt (abs_nonneg _) (by norm_num)
        _ = 40 * uu := by ring
    have lip := cfA_lip (S := S) hu1 ult V0 hVu yT1 yT2 g1 g2
    have h2 : T * u * y < 1 := by
      have a : T * u < 1 / 2 := by linarith
      nlinarith
    have step := cfA_step (S := S) (V := V) (u := u) (T := T) (y := y) ne (by rw [hTu]; positivity) (by linarith)
    have uinv : 1 / (1 - T * u) = u' := by rw [hTu, one_div_one_div]
    rw [uinv, ← hyT] at step
    rw [← step]
    exact lip.trans hdy

/-- One pass: `v`. -/
theorem v_core (hr : IsRounding rnd) {v0 v V c : ℝ} {k : ℕ} (hc0 : 0 ≤ c) (hc1 : c ≤ 1) (c0 : c = 0 ∨ 1 / 10 ^ 20 ≤ c) (hv : 1 / 10 ^ 54 ≤ |v|) (hvb : |v| ≤ 10)
    (V0 : 0 ≤ V) (sv : |v| ≤ 101 / 100 * (|v0| * V)) (h : |v - v0 * V| ≤ 2 * k * uu * |v0| * V) :
    |rnd (v * c) - v0 * (V * c)| ≤ 2 * (k + 1) * uu * |v0| * (V * c) := by
  have u0 := uu_pos
  have habs : |v * c| = |v| * c := by rw [abs_mul, abs_of_nonneg hc0]
  have rnd1 := rr0 hr (y := v * c) (by
    rcases c0 with c0 | c0
    · left; rw [c0, mul_zero]
    · right
      rw [habs]
      calc (1 : ℝ) / 10 ^ 75 ≤ 1 / 10 ^ 54 * (1 / 10 ^ 20) := by norm_num
        _ ≤ _ := mul_le_mul hv c0 (by norm_num) (abs_nonneg _)) (by
    rw [habs]
    calc |v| * c ≤ 10 * 1 := mul_le_mul hvb hc1 hc0 (by norm_num)
      _ ≤ 10 ^ 75 := by norm_num)
  rw [habs] at rnd1
  have hh : |v * c - v0 * (V * c)| ≤ 2 * k * uu * |v0| * V * c := by
    rw [show v * c - v0 * (V * c) = (v - v0 * V) * c by ring, abs_mul, abs_of_nonneg hc0]
    exact mul_le_mul_of_nonneg_right h hc0
  have tri : |rnd (v * c) - v0 * (V * c)| ≤ |rnd (v * c) - v * c| + |v * c - v0 * (V * c)| := by
    rw [show rnd (v * c) - v0 * (V * c) = (rnd (v * c) - v * c) + (v * c - v0 * (V * c)) by ring]; exact abs_add_le _ _
  have h4 : uu * (|v| * c) ≤ uu * (2 * (|v0| * V) * c) :=
    mul_le_mul_of_nonneg_left (mul_le_mul_of_nonneg_right (by linarith [mul_nonneg (abs_nonneg v0) V0]) hc0) u0.le
  have e : 2 * ((k : ℝ) + 1) * uu * |v0| * (V * c) = 2 * k * uu * |v0| * V * c + uu * (2 * (|v0| * V) * c) := by ring
  linarith

/-- One pass: `w`. -/
theorem w_core (hr : IsRounding rnd) {v0 v' w S V' : ℝ} {k : ℕ} (hk : (k : ℝ) ≤ 10 ^ 5) (hv0 : 1 / 10 ^ 30 ≤ |v0|) (hv1 : |v0| ≤ 2) (S1 : 1 ≤ S) (S2 : S ≤ 3) (V0 : 0 ≤ V') (V1 : V' ≤ 1)
    (h : |w - v0 * S| ≤ 4 * k * uu * |v0| * S) (hv : |v' - v0 * V'| ≤ 2 * (k + 1) * uu * |v0| * V') :
    |rnd (w + v') - v0 * (S + V')| ≤ 4 * (k + 1) * uu * |v0| * (S + V') := by
  have u0 := uu_pos
  have u1 := uu_lt
  have k0 : (0 : ℝ) ≤ k := Nat.cast_nonneg k
  have SV : |v0 * (S + V')| = |v0| * (S + V') := by rw [abs_mul, abs_of_nonneg (show (0 : ℝ) ≤ S + V' by linarith)]
  have b0 : 0 ≤ |v0| := abs_nonneg _
  have bS : 0 ≤ |v0| * S := mul_nonneg b0 (by linarith)
  have bV : 0 ≤ |v0| * V' := mul_nonneg b0 V0
  have p : 0 ≤ uu * (|v0| * V') := mul_nonneg u0.le bV
  have q : 0 ≤ uu * (|v0| * S) := mul_nonneg u0.le bS
  have pk : 0 ≤ k * (uu * (|v0| * V')) := mul_nonneg k0 p
  have hs : |w + v' - v0 * (S + V')| ≤ (4 * k + 2) * uu * |v0 * (S + V')| := by
    rw [SV, show w + v' - v0 * (S + V') = (w - v0 * S) + (v' - v0 * V') by ring]
    refine (abs_add_le _ _).trans ?_
    have e : (4 * (k : ℝ) + 2) * uu * (|v0| * (S + V')) = 4 * k * uu * |v0| * S + 2 * (k + 1) * uu * |v0| * V' + 2 * (k * (uu * (|v0| * V'))) + 2 * (uu * (|v0| * S)) := by ring
    linarith
  have r := rel_rnd' hr hs (by positivity) (by linarith) (by
    rw [SV]
    calc (1 : ℝ) / 10 ^ 70 ≤ 1 / 10 ^ 30 * 1 := by norm_num
      _ ≤ _ := mul_le_mul hv0 (by linarith) (by norm_num) b0) (by
    rw [SV]
    calc |v0| * (S + V') ≤ 2 * 4 := mul_le_mul hv1 (by linarith) (by linarith) (by norm_num)
      _ ≤ 10 ^ 70 := by norm_num)
  rw [SV] at r
  refine r.trans ?_
  rw [show 4 * ((k : ℝ) + 1) * uu * |v0| * (S + V') = 4 * (k + 1) * uu * (|v0| * (S + V')) by ring]
  refine mul_le_mul_of_nonneg_right (mul_le_mul_of_nonneg_right ?_ u0.le) (mul_nonneg b0 (by linarith))
  linarith

/-- What the loop maintains after `k` passes. -/
structure LoopInv (x v0 : ℝ) (M k : ℕ) (u v w S V : ℝ) : Prop where
  dbl : IsDouble u
  wd : IsDouble w
  u1 : 1 ≤ u
  u2 : 1 / 2 + 1 / (4 * ((M + k : ℕ) : ℝ)) ≤ 1 / u
  V0 : 0 ≤ V
  S1 : 1 ≤ S
  Vu : V * u ≤ (2 - u) ^ 2
  A : |cfA S V u (gG x (M + k)) - gG x M| ≤ 40 * uu * k
  v : |v - v0 * V| ≤ 2 * k * uu * |v0| * V
  w : |w - v0 * S| ≤ 4 * k * uu * |v0| * S
  geo : V ≤ (9 / 20) ^ (k - M)

theorem u_lt_two {x v0 u v w S V : ℝ} {M k : ℕ} (h : LoopInv x v0 M k u v w S V) (hM : 1 ≤ M) : u < 2 := by
  have p : (0 : ℝ) < ((M + k : ℕ) : ℝ) := by exact_mod_cast (show 0 < M + k by omega)
  have u1 := h.u1
  have : 1 / 2 < 1 / u := lt_of_lt_of_le (by have : 0 < 1 / (4 * ((M + k : ℕ) : ℝ)) := by positivity
                                             linarith) h.u2
  rw [div_lt_div_iff₀ (by norm_num) (by linarith)] at this
  linarith

theorem V_le_one {x v0 u v w S V : ℝ} {M k : ℕ} (h : LoopInv x v0 M k u v w S V) (hM : 1 ≤ M) : V ≤ 1 := by
  have a := h.Vu
  have b := h.u1
  have c := u_lt_two h hM
  have := h.V0
  nlinarith

section
variable {x : ℝ} {M : ℕ} (hx0 : 1 / 10 ^ 20 ≤ |x|) (hM1 : 1 ≤ M) (hM : |x| ≤ M + 1 / 2)
include hx0 hM1 hM

theorem gG_bounds (k : ℕ) : 1 ≤ gG x (M + k) ∧ gG x (M + k) ≤ 2 :=
  sbG_bounds (lt_of_lt_of_le (by norm_num) hx0) (by omega) (by push_cast; linarith [(Nat.cast_nonneg k : (0:ℝ) ≤ k)])

theorem gG_rec (k : ℕ) : gG x (M + k) * (1 - x ^ 2 / (4 * ((M + k + 1 : ℕ) : ℝ) ^ 2 - 1) * gG x (M + k + 1)) = 1 := by
  have := sbG_rec (lt_of_lt_of_le (by norm_num) hx0) (n := M + k) (by omega) (by push_cast; linarith [(Nat.cast_nonneg k : (0:ℝ) ≤ k)])
  rw [sq_abs] at this
  push_cast at this ⊢
  exact this

/-- The sizes met at the head of the loop. -/
theorem sizes {v0 u v w S V : ℝ} {k : ℕ} (hk : k ≤ M + 64) (hM2 : M ≤ 2 ^ 16) (h : LoopInv x v0 M k u v w S V) :
    |v| ≤ 101 / 100 * (|v0| * V) ∧ 99 / 100 * (|v0| * V) ≤ |v| ∧ |w| ≤ 101 / 100 * (|v0| * S) ∧ 99 / 100 * (|v0| * S) ≤ |w| ∧ S ≤ 201 / 100 := by
  have u0 := uu_pos
  have u1 := uu_lt
  have hkr : (k : ℝ) ≤ 70000 := by exact_mod_cast (show k ≤ 70000 by omega)
  have k0 : (0 : ℝ) ≤ k := Nat.cast_nonneg k
  have ku : (k : ℝ) * uu ≤ 1 / 10 ^ 10 := by nlinarith
  have ku0 : 0 ≤ (k : ℝ) * uu := by positivity
  have a := h.v
  have b := h.w
  have V0 := h.V0
  have S1 := h.S1
  have av : |v0 * V| = |v0| * V := by rw [abs_mul, abs_of_nonneg V0]
  have aw : |v0 * S| = |v0| * S := by rw [abs_mul, abs_of_nonneg (show (0:ℝ) ≤ S by linarith)]
  have p1 : 0 ≤ |v0| * V := mul_nonneg (abs_nonneg _) V0
  have p2 : 0 ≤ |v0| * S := mul_nonneg (abs_nonneg _) (by linarith)
  have a1 := abs_sub_abs_le_abs_sub v (v0 * V)
  have a2 := abs_sub_abs_le_abs_sub (v0 * V) v
  have b1 := abs_sub_abs_le_abs_sub w (v0 * S)
  have b2 := abs_sub_abs_le_abs_sub (v0 * S) w
  rw [abs_sub_comm] at a2 b2
  rw [av] at a1 a2
  rw [aw] at b1 b2
  have a3 : 2 * (k : ℝ) * uu * |v0| * V ≤ 1 / 100 * (|v0| * V) := by
    rw [show 2 * (k : ℝ) * uu * |v0| * V = 2 * (k * uu) * (|v0| * V) by ring]
    exact mul_le_mul_of_nonneg_right (by linarith) p1
  have b3 : 4 * (k : ℝ) * uu * |v0| * S ≤ 1 / 100 * (|v0| * S) := by
    rw [show 4 * (k : ℝ) * uu * |v0| * S = 4 * (k * uu) * (|v0| * S) by ring]
    exact mul_le_mul_of_nonneg_right (by linarith) p2
  refine ⟨by linarith, by linarith, by linarith, by linarith, ?_⟩
  have hA := (abs_le.1 h.A).2
  have g0 := (gG_bounds hx0 hM1 hM 0).2
  rw [Nat.add_zero] at g0
  obtain ⟨g1, g2⟩ := gG_bounds hx0 hM1 hM k
  have ge : S ≤ cfA S V u (gG x (M + k)) := by
    unfold cfA
    have d := cfA_den h.u1 (u_lt_two h hM1) g1 g2
    have := u_lt_two h hM1
    have : 0 ≤ V * u * (gG x (M + k) - 1) / (u - (u - 1) * gG x (M + k)) := by
      refine div_nonneg (mul_nonneg (mul_nonneg V0 (by linarith [h.u1])) (by linarith)) (by linarith)
    linarith
  nlinarith

/-- One pass of the loop. -/
theorem loop_step (hr : IsRounding rnd) {z v0 u v w S V : ℝ} {k : ℕ} (hz : |z - x ^ 2| ≤ 2 * uu * x ^ 2) (hk : k < M + 64) (hM2 : M ≤ 2 ^ 16)
    (hv0 : 1 / 10 ^ 30 ≤ |v0|) (hv1 : |v0| ≤ 2) (h : LoopInv x v0 M k u v w S V) (hv : 1 / 10 ^ 54 ≤ |v|) :
    Fl.sbjDen rnd z u (((M + k + 1 : ℕ) : ℤ)) ≠ 0 ∧ ∀ u' v', u' = rnd (1 / Fl.sbjDen rnd z u ((M + k + 1 : ℕ) : ℤ)) → v' = rnd (v * rnd (u' - 1)) →
      ∃ S' V', LoopInv x v0 M (k + 1) u' v' (rnd (w + v')) S' V' := by
  have u0 := uu_pos
  have ult := u_lt_two h hM1
  obtain ⟨dp, dbl, ug, du, dl, t4, tg⟩ := den_step hr (n := M + k + 1) hx0 hM1 hM (by omega) (by omega) hz h.u1 ult.le
  refine ⟨dp.ne', ?_⟩
  intro u' v' hu' hv'
  rw [← hu'] at dbl ug du dl tg
  clear hu'
  have up : 0 < u' := by linarith
  have np : (0 : ℝ) < ((M + k + 1 : ℕ) : ℝ) := by exact_mod_cast (show 0 < M + k + 1 by omega)
  have u'2 : u' < 2 := by
    have : 1 / 2 < 1 / u' := lt_of_lt_of_le (by have : 0 < 1 / (4 * ((M + k + 1 : ℕ) : ℝ)) := by positivity
                                                linarith) dl
    rw [div_lt_div_iff₀ (by norm_num) up] at this
    linarith
  obtain ⟨ex, c0⟩ := sub_one hr dbl ug u'2.le
  rw [ex] at hv'
  obtain ⟨sv1, sv2, sw1, sw2, sS⟩ := sizes hx0 hM1 hM (by omega) hM2 h
  have V0 := h.V0
  have V1 := V_le_one h hM1
  obtain ⟨g1, g2⟩ := gG_bounds hx0 hM1 hM k
  obtain ⟨g1', g2'⟩ := gG_bounds hx0 hM1 hM (k + 1)
  have gr := gG_rec hx0 hM1 hM k
  rw [← add_assoc] at g1' g2'
  obtain ⟨cV, cA⟩ := cf_core h.u1 ult ug u'2 du t4 V0 h.Vu g1' g2' g1 g2 gr
  have hc0 : 0 ≤ u' - 1 := by linarith
  have hc1 : u' - 1 ≤ 1 := by linarith
  have hV'0 : 0 ≤ V * (u' - 1) := mul_nonneg V0 hc0
  have e : V * (u' - 1) ≤ V := by nlinarith
  have hvb : |v| ≤ 10 := by
    have : |v0| * V ≤ 2 * 1 := mul_le_mul hv1 V1 V0 (by norm_num)
    linarith
  have vc := v_core hr hc0 hc1 c0 hv hvb V0 sv1 h.v
  rw [← hv'] at vc
  have hkr : (k : ℝ) ≤ 10 ^ 5 := by exact_mod_cast (show k ≤ 10 ^ 5 by omega)
  have wc := w_core hr hkr hv0 hv1 h.S1 (by linarith) hV'0 (by linarith) h.w vc
  have wd : IsDouble (rnd (w + v')) := by
    refine isD_double hr ?_
    have a := abs_add_le w v'
    have b : |v'| ≤ 10 := by
      have e1 := abs_sub_abs_le_abs_sub v' (v0 * (V * (u' - 1)))
      have e2 : |v0 * (V * (u' - 1))| ≤ 2 * 1 := by
        rw [abs_mul, abs_of_nonneg hV'0]
        exact mul_le_mul hv1 (by linarith) hV'0 (by norm_num)
      have u1 := uu_lt
      have e3 : 2 * ((k : ℝ) + 1) * uu * |v0| * (V * (u' - 1)) ≤ 1 := by
        have ku : 2 * ((k : ℝ) + 1) * uu ≤ 1 / 10 := by
          calc 2 * ((k : ℝ) + 1) * uu ≤ (2 * (10 ^ 5 + 1)) * (12 / 10 ^ 17) := mul_le_mul (by linarith) u1 u0.le (by norm_num)
            _ ≤ 1 / 10 := by norm_num
        have k2 : 2 * ((k : ℝ) + 1) * uu * |v0| ≤ 1 / 10 * 2 := mul_le_mul ku hv1 (abs_nonneg _) (by norm_num)
        calc _ ≤ 1 / 10 * 2 * 1 := mul_le_mul k2 (by linarith) hV'0 (by norm_num)
          _ ≤ 1 := by norm_num
      linarith
    have c : |v0| * S ≤ 2 * 3 := mul_le_mul hv1 (by linarith) (by linarith [h.S1]) (by norm_num)
    have d : |w + v'| ≤ 20 := by linarith
    exact d.trans (by norm_num)
  refine ⟨S + V * (u' - 1), V * (u' - 1), dbl, wd, ug, by rw [← add_assoc]; exact dl, hV'0, by linarith [h.S1], cV, ?_, by push_cast; exact vc, by push_cast; exact wc, ?_⟩
  · have hA := h.A
    have : |cfA (S + V * (u' - 1)) (V * (u' - 1)) u' (gG x (M + (k + 1))) - gG x M| ≤ |cfA (S + V * (u' - 1)) (V * (u' - 1)) u' (gG x (M + k + 1)) - cfA S V u (gG x (M + k))| + |cfA S V u (gG x (M + k)) - gG x M| := by
      rw [← add_assoc]
      exact abs_sub_le _ _ _
    have := cA S
    push_cast
    linarith
  · by_cases hkM : M ≤ k + 1
    · have c : u' - 1 ≤ 9 / 20 := by
        have := tg (by omega)
        rw [div_le_div_iff₀ (by norm_num) up] at this
        linarith
      by_cases hkM' : M ≤ k
      · rw [show k + 1 - M = (k - M) + 1 by omega, pow_succ]
        exact mul_le_mul h.geo c hc0 (by positivity)
      · rw [show k + 1 - M = 0 by omega, pow_zero]; linarith
    · rw [show k + 1 - M = 0 by omega, pow_zero]; linarith

end

end FB
end Verif.Props
