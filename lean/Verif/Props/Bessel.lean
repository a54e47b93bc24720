import Verif.BesselRun
/-!
# Properties C45, C46: spherical Bessel functions

Specification: `sphJ n x`, `sphN n x` (BesselMath.lean) are `j_n`, `y_n`: closed forms for `n = 0, 1`, then
`f_{n+1} = (2n+1)/x f_n - f_{n-1}`.
-/
namespace Verif.Props
open Verif Classical

/-- **C45**.  For every `x ≠ 0` and every `N ≥ 2`, `sbessely(x, N)` returns a vector of length `N` whose first two entries
are the closed forms and which satisfies the three-term recurrence throughout. -/
theorem c45_sbessely_partial (x : ℝ) (_hx : x ≠ 0) (N : ℕ) (hN : 2 ≤ N) :
    ∃ out, sbessely x N = .ok out ∧ out.length = N ∧
      rd out 0 = -Real.cos x / x ∧ rd out 1 = -Real.cos x / x ^ 2 - Real.sin x / x ∧
      ∀ n, 1 ≤ n → n + 1 < N → rd out (n - 1) + rd out (n + 1) = (2 * (n : ℝ) + 1) / x * rd out n := by
  obtain ⟨out, e, hl, h⟩ := sbessely_eq x N hN
  refine ⟨out, e, hl, by rw [h 0 (by omega)]; rfl, by rw [h 1 (by omega)]; rfl, fun n h1 h2 => ?_⟩
  rw [h _ (by omega), h _ (by omega), h _ (by omega), sphN_succ n h1]
  ring

/-- C45 for `N = 1` is false: the code always writes entry 1 (IndexError). -/
theorem c45_counterexample (x : ℝ) : (sbessely x 1).Raises .indexError := by
  refine ⟨"index", ?_⟩
  unfold sbessely
  rfl

/-- Did the downward pass of `sbesselj` divide by zero?  Exactly then the stored ratio `out[n]/out[n-1]` is infinite in the
code; here it leaves `out[n] = 0` with `out[n-1] ≠ 0`. -/
def NoPole (out : List ℝ) : Prop := ∀ n, 2 ≤ n → n + 1 < out.length → rd out n = 0 → rd out (n - 1) = 0

theorem rec_of_struct {x : ℝ} {M : ℕ} {r : ℕ → ℝ} {out : List ℝ}
    (hr : ∀ n, 1 ≤ n → n < M → r n = 1 / (sbB x n - r (n + 1)))
    (ho : ∀ n, 1 ≤ n → n < M → rd out (n + 1) = r (n + 1) * rd out n) (n : ℕ) (h1 : 1 ≤ n) (h2 : n < M)
    (hq : rd out n = r n * rd out (n - 1)) (hz : rd out n = 0 → rd out (n - 1) = 0) :
    rd out (n - 1) + rd out (n + 1) = (2 * (n : ℝ) + 1) / x * rd out n := by
  have e := hr n h1 h2
  have e2 := ho n h1 h2
  rw [e2]
  show _ = sbB x n * rd out n
  by_cases hd : sbB x n - r (n + 1) = 0
  · rw [hd] at e
    simp at e
    rw [e] at hq
    simp at hq
    rw [hz hq, hq]; ring
  · have : (sbB x n - r (n + 1)) * rd out n = rd out (n - 1) := by
      rw [hq, e]; field_simp
    linarith

/-- **C46, recurrence**.  Whenever `sbesselj(x, N)` returns (`N ≥ 2`), entry 0 is `sin x / x`; the recurrence holds at every
`n ≥ 2` (no division by zero), and at `n = 1` too when the first entry was chosen as the starting value; otherwise entry 1 is
exactly `j_1(x)`. -/
theorem c46_recurrence (x : ℝ) (N : ℕ) (hN : 2 ≤ N) (out : List ℝ) (h : sbesselj x N = .ok out) (hp : NoPole out) :
    out.length = N ∧ rd out 0 = sphJ 0 x ∧
      (∀ n, 2 ≤ n → n + 1 < N → rd out (n - 1) + rd out (n + 1) = (2 * (n : ℝ) + 1) / x * rd out n) ∧
      ((|sphJ 0 x| < |sphJ 1 x| ∧ rd out 1 = sphJ 1 x) ∨
        (|sphJ 1 x| ≤ |sphJ 0 x| ∧ (3 ≤ N → (rd out 1 = 0 → rd out 0 = 0) → rd out 0 + rd out 2 = 3 / x * rd out 1))) := by
  obtain ⟨M, rfl⟩ : ∃ M : ℕ, N = M + 1 := ⟨N - 1, by omega⟩
  obtain ⟨w, hw⟩ := loop_of_sbesselj x _ out h
  simp only [show (((M + 1 : ℕ) : Int) - 1) = (M : Int) by push_cast; ring] at hw
  obtain ⟨r, out', e, hl, hrM, hr, h0, h1, ho⟩ := sbesselj_of_loop x M (by omega) w hw
  have : out' = out := by
    rw [show ((M + 1 : ℕ) : Int) = (M : Int) + 1 by push_cast; ring, e] at h
    exact Except.ok.inj h
  subst this
  refine ⟨hl, h0, fun n h2 h3 => ?_, ?_⟩
  · refine rec_of_struct hr ho n (by omega) (by omega) ?_ (hp n h2 (by omega))
    have := ho (n - 1) (by omega) (by omega)
    rwa [show n - 1 + 1 = n by omega] at this
  · by_cases hc : |Real.sin x / x| ≥ |Real.sin x / x ^ 2 - Real.cos x / x|
    · rw [if_pos hc] at h1
      right
      refine ⟨hc, fun h3 hz => ?_⟩
      have := rec_of_struct hr ho 1 (le_refl _) (by omega) (by rw [h1, h0]) hz
      norm_num at this
      exact this
    · rw [if_neg hc] at h1
      left
      exact ⟨not_le.1 hc, h1⟩

theorem sign_cases (x : ℝ) (hx : x ≠ 0) : ∃ s : ℝ, |s| = 1 ∧ x = s * |x| ∧ (s = 1 ∨ s = -1) := by
  rcases lt_or_gt_of_ne hx with h | h
  · exact ⟨-1, by simp, by rw [abs_of_neg h]; ring, Or.inr rfl⟩
  · exact ⟨1, by simp, by rw [abs_of_pos h]; ring, Or.inl rfl⟩

/-- The start ratio found by the loop, with its error. -/
theorem loop_ratio (x : ℝ) (hx : x ≠ 0) (M : ℕ) (h1 : 1 ≤ M) (hM : |x| ≤ M + 1 / 2) :
    ∃ w, sbjLoop (x ^ 2) 1 (x / (2.0 * (((M : ℕ) : Int) : ℝ) + 1.0)) (x / (2.0 * (((M : ℕ) : Int) : ℝ) + 1.0)) M = some (.ok w) ∧
      |sphJ M x - w * sphJ (M - 1) x| ≤ 1e-20 * (|x| / 2) * |w * sphJ (M - 1) x| ∧ |w| ≤ 1 ∧ w ≠ 0 := by
  obtain ⟨s, hs, hxs, hs'⟩ := sign_cases x hx
  have ha : 0 < |x| := abs_pos.2 hx
  obtain ⟨k, e, hk⟩ := sbjLoop_ends ha hM hs
  rw [sq_abs] at e
  have e2 : s * (|x| / (2.0 * (((M : ℕ) : Int) : ℝ) + 1.0)) = x / (2.0 * (((M : ℕ) : Int) : ℝ) + 1.0) := by
    rw [← mul_div_assoc, ← hxs]
  rw [e2] at e
  refine ⟨_, e, ?_, ?_, ?_⟩
  rotate_left
  · have h3 := cf_conv_diff ha hM 0 (k + 1) (by omega)
    simp only [Nat.zero_add] at h3
    have q0 : cfQ |x| M 0 = 1 := rfl
    have p0 : cfP |x| M 0 = 0 := rfl
    have i0 := (cfQ_inc ha hM 0).2.1
    simp only [Nat.zero_add] at i0
    rw [q0] at i0
    rw [q0, p0, zero_div, sub_zero, div_one] at h3
    rw [abs_mul, hs, one_mul, abs_of_nonneg h3.1]
    refine h3.2.trans ?_
    rw [div_le_one (by linarith)]
    have := cfQ_pos ha hM (k + 1)
    have : 0 < 1 / cfQ |x| M (k + 1) := by positivity
    linarith
  · have := cfP_ge ha hM hs k
    have hb := sbB_ge2 ha hM 0
    simp only [Nat.add_zero] at hb
    have : 0 < 1 / sbB |x| M := by positivity
    exact mul_ne_zero (by rintro rfl; simp at hs) (by linarith)
  have ht := contFrac_tail ha hM h1 k
  set c := cfP |x| M (k + 1) / cfQ |x| M (k + 1) with hc
  have hc0 : 0 < c := by
    have := cfP_ge ha hM hs k
    have hb := sbB_ge2 ha hM 0
    simp only [Nat.add_zero] at hb
    have : 0 < 1 / sbB |x| M := by positivity
    linarith
  have hJ : ∀ n, sphJ n x = s ^ n * sphJ n |x| := by
    intro n
    rcases hs' with rfl | rfl
    · have : |x| = x := by rw [← one_mul |x|, ← hxs]
      rw [this]; simp
    · have : x = -|x| := by rw [← neg_one_mul |x|]; exact hxs
      rw [this, sphJ_neg]; simp
  obtain ⟨m, rfl⟩ : ∃ m, M = m + 1 := ⟨M - 1, by omega⟩
  simp only [Nat.add_sub_cancel] at ht ⊢
  rw [hJ, hJ m]
  have e3 : s ^ (m + 1) * sphJ (m + 1) |x| - s * c * (s ^ m * sphJ m |x|) = s ^ (m + 1) * (sphJ (m + 1) |x| - c * sphJ m |x|) := by ring
  have e4 : |s * c * (s ^ m * sphJ m |x|)| = c * |sphJ m (|x|)| := by
    rw [abs_mul, abs_mul, abs_mul, abs_pow, hs, abs_of_pos hc0]; simp
  rw [e3, e4, abs_mul, abs_pow, hs, one_pow, one_mul]
  refine ht.trans ?_
  have h5 := mul_le_mul_of_nonneg_right (mul_le_mul_of_nonneg_right hk (show 0 ≤ |x| / 2 by positivity)) (abs_nonneg (sphJ m (|x|)))
  refine h5.trans (le_of_eq ?_)
  ring

/-- **C46, termination**: for `0 < |x| ≤ N - 1/2`, `N ≥ 2`, `sbesselj(x, N)` returns. -/
theorem c46_terminates (x : ℝ) (hx : x ≠ 0) (N : ℕ) (hN : 2 ≤ N) (hxN : |x| ≤ N - 1 / 2) :
    ∃ out, sbesselj x N = .ok out ∧ out.length = N := by
  obtain ⟨M, rfl⟩ : ∃ M : ℕ, N = M + 1 := ⟨N - 1, by omega⟩
  obtain ⟨w, e, _, _⟩ := loop_ratio x hx M (by omega) (by push_cast at hxN; linarith)
  obtain ⟨r, out, e', hl, _⟩ := sbesselj_of_loop x M (by omega) w e
  exact ⟨out, by rw [← e']; push_cast; rfl, hl⟩

/-- Relative error budget of the start ratio. -/
noncomputable def besselEps (x : ℝ) : ℝ := 1e-20 * (|x| / 2)

/-- **C46, accuracy**.  For `0 < |x| ≤ N - 1/2` the computed vector is proportional to the exact `j_n(x)` up to the error
budget: every 2x2 cross product of computed and exact neighbours is bounded. -/
theorem c46_accuracy (x : ℝ) (hx : x ≠ 0) (N : ℕ) (hN : 3 ≤ N) (hxN : |x| ≤ N - 1 / 2) (out : List ℝ)
    (h : sbesselj x N = .ok out) (hp : NoPole out) (n : ℕ) (hn : 1 ≤ n) (hn' : n + 1 < N) :
    |rd out (n + 1) * sphJ n x - sphJ (n + 1) x * rd out n| ≤ besselEps x * |rd out (N - 1) * sphJ (N - 2) x| := by
  obtain ⟨M, rfl⟩ : ∃ M : ℕ, N = M + 1 := ⟨N - 1, by omega⟩
  obtain ⟨w, hw, hacc, _⟩ := loop_ratio x hx M (by omega) (by push_cast at hxN; linarith)
  obtain ⟨r, out', e, hl, hrM, hr, h0, h1, ho⟩ := sbesselj_of_loop x M (by omega) w hw
  have : out' = out := by
    rw [show ((M + 1 : ℕ) : Int) = (M : Int) + 1 by push_cast; ring, e] at h
    exact Except.ok.inj h
  subst this
  obtain ⟨_, _, hrec, _⟩ := c46_recurrence x (M + 1) (by omega) out' (by rw [← e]; push_cast; rfl) hp
  -- the cross product does not depend on `n`
  have cas : ∀ d, n + d + 1 ≤ M → rd out' (n + d + 1) * sphJ (n + d) x - sphJ (n + d + 1) x * rd out' (n + d) =
      rd out' (n + 1) * sphJ n x - sphJ (n + 1) x * rd out' n := by
    intro d
    induction d with
    | zero => intro _; simp
    | succ d ih =>
      intro hd
      rw [← ih (by omega)]
      have e1 := hrec (n + d + 1) (by omega) (by omega)
      have e2 := sphJ_succ (n + d + 1) (by omega) (x := x)
      simp only [Nat.add_sub_cancel] at e1 e2
      rw [show n + (d + 1) = n + d + 1 by ring, e2]
      have : rd out' (n + d + 1 + 1) = (2 * ((n + d + 1 : ℕ) : ℝ) + 1) / x * rd out' (n + d + 1) - rd out' (n + d) := by linarith
      rw [this]; ring
  have hc := cas (M - 1 - n) (by omega)
  rw [show n + (M - 1 - n) = M - 1 by omega, show M - 1 + 1 = M by omega] at hc
  rw [← hc]
  have hlast := ho (M - 1) (by omega) (by omega)
  rw [show M - 1 + 1 = M by omega, hrM] at hlast
  rw [show M + 1 - 1 = M by omega, show M + 1 - 2 = M - 1 by omega, hlast]
  have e5 : w * rd out' (M - 1) * sphJ (M - 1) x - sphJ M x * rd out' (M - 1) = -(sphJ M x - w * sphJ (M - 1) x) * rd out' (M - 1) := by ring
  rw [e5, abs_mul, abs_neg]
  refine (mul_le_mul_of_nonneg_right hacc (abs_nonneg _)).trans (le_of_eq ?_)
  unfold besselEps
  rw [abs_mul, abs_mul, abs_mul]; ring

/-- **C46, cross product** (`sbessel_test_cross_product`).  With `j = sbesselj(x, N)` and `y = sbessely(x, N)`, the
quantity `j[n+1] y[n] - j[n] y[n+1]` is the same for all `1 ≤ n`, and it equals `1/x^2` up to the error budget:
`i = 1` when `|j_0(x)| < |j_1(x)|`. -/
theorem c46_cross_product (x : ℝ) (hx : x ≠ 0) (N : ℕ) (hN : 3 ≤ N) (hxN : |x| ≤ N - 1 / 2) (j y : List ℝ)
    (hj : sbesselj x N = .ok j) (hy : sbessely x N = .ok y) (hp : NoPole j) (hp1 : rd j 1 = 0 → rd j 0 = 0 ∨ |sphJ 0 x| < |sphJ 1 x|)
    (n : ℕ) (hn : 1 ≤ n) (hn' : n + 1 < N) :
    ∃ i, (i = if |sphJ 0 x| < |sphJ 1 x| then 1 else 0) ∧
      |x ^ 2 * (rd j (n + 1) * rd y n - rd j n * rd y (n + 1)) - 1| * |sphJ i x| ≤
        besselEps x * x ^ 2 * |rd j (N - 1) * sphJ (N - 2) x * rd y i| := by
  refine ⟨_, rfl, ?_⟩
  set i := if |sphJ 0 x| < |sphJ 1 x| then 1 else 0 with hi
  obtain ⟨y', ey, hyl, hyv⟩ := sbessely_eq x N (by omega)
  have : y' = y := by rw [ey] at hy; exact Except.ok.inj hy
  subst this
  obtain ⟨_, h0, hrec, hbr⟩ := c46_recurrence x N (by omega) j hj hp
  have hacc := c46_accuracy x hx N hN hxN j hj hp n hn hn'
  rw [hyv _ (by omega), hyv _ (by omega)]
  have hi1 : i ≤ 1 := by rw [hi]; split <;> omega
  rw [hyv i (by omega)]
  -- `j i = J i`, and the cross products are constant from `i` on
  have hji : rd j i = sphJ i x := by
    rcases hbr with ⟨hlt, h1⟩ | ⟨hle, _⟩
    · rw [hi, if_pos hlt, h1]
    · rw [hi, if_neg (not_lt.2 hle), h0]
  have hrec' : ∀ k, i + 1 ≤ k → k + 1 < N → rd j (k + 1) = (2 * (k : ℝ) + 1) / x * rd j k - rd j (k - 1) := by
    intro k hk1 hk2
    by_cases hk : 2 ≤ k
    · linarith [hrec k hk hk2]
    · have k1 : k = 1 := by omega
      have i0 : i = 0 := by omega
      rcases hbr with ⟨hlt, _⟩ | ⟨hle, h2⟩
      · rw [hi, if_pos hlt] at i0; omega
      · have := h2 (by omega) (fun hz => (hp1 hz).resolve_right (not_lt.2 hle))
        subst k1
        norm_num
        linarith
  have casG : ∀ (f : ℕ → ℝ), (∀ k, 1 ≤ k → f (k + 1) = (2 * (k : ℝ) + 1) / x * f k - f (k - 1)) → ∀ d, i + d + 1 < N →
      rd j (i + d + 1) * f (i + d) - rd j (i + d) * f (i + d + 1) = rd j (i + 1) * f i - rd j i * f (i + 1) := by
    intro f hf d
    induction d with
    | zero => intro _; simp
    | succ d ih =>
      intro hd
      rw [← ih (by omega)]
      have e1 := hrec' (i + d + 1) (by omega) (by omega)
      have e2 := hf (i + d + 1) (by omega)
      simp only [Nat.add_sub_cancel] at e1 e2
      rw [show i + (d + 1) = i + d + 1 by ring, e1, e2]; ring
  have cJ := casG (fun k => sphJ k x) (fun k hk => sphJ_succ k hk) (n - i) (by omega)
  have cN := casG (fun k => sphN k x) (fun k hk => sphN_succ k hk) (n - i) (by omega)
  simp only [show i + (n - i) = n by omega] at cJ cN
  have hcross := sph_cross i hx
  have key : (x ^ 2 * (rd j (n + 1) * sphN n x - rd j n * sphN (n + 1) x) - 1) * sphJ i x =
      x ^ 2 * (rd j (n + 1) * sphJ n x - rd j n * sphJ (n + 1) x) * sphN i x := by
    rw [cJ, cN, hji]
    have hx2 : x ^ 2 * (1 / x ^ 2) = 1 := by field_simp
    rw [← hcross] at hx2
    linear_combination (sphJ i x) * hx2
  rw [← abs_mul, key, abs_mul, abs_mul, abs_of_nonneg (sq_nonneg x)]
  have e6 : rd j (n + 1) * sphJ n x - rd j n * sphJ (n + 1) x = rd j (n + 1) * sphJ n x - sphJ (n + 1) x * rd j n := by ring
  rw [e6]
  have h7 := mul_le_mul_of_nonneg_right (mul_le_mul_of_nonneg_left hacc (sq_nonneg x)) (abs_nonneg (sphN i x))
  refine h7.trans (le_of_eq ?_)
  rw [abs_mul (rd j (N - 1) * sphJ (N - 2) x)]
  ring

/-- The hypotheses of the C46 theorems hold for every `0 < |x| ≤ 3/2` and every `N ≥ 2`: no pole is met. -/
theorem c46_no_pole (x : ℝ) (hx : x ≠ 0) (hx2 : |x| ≤ 3 / 2) (N : ℕ) (hN : 2 ≤ N) :
    ∃ out, sbesselj x N = .ok out ∧ NoPole out ∧ (rd out 1 = 0 → rd out 0 = 0 ∨ |sphJ 0 x| < |sphJ 1 x|) := by
  obtain ⟨M, rfl⟩ : ∃ M : ℕ, N = M + 1 := ⟨N - 1, by omega⟩
  have hM1 : (1 : ℝ) ≤ M := by exact_mod_cast (show 1 ≤ M by omega)
  obtain ⟨w, e, _, hw1, hw0⟩ := loop_ratio x hx M (by omega) (by linarith)
  obtain ⟨r, out, e', hl, hrM, hr, h0, h1, ho⟩ := sbesselj_of_loop x M (by omega) w e
  have ha : 0 < |x| := abs_pos.2 hx
  have hb : ∀ n : ℕ, 1 ≤ n → 2 ≤ |sbB x n| := by
    intro n hn
    have hn1 : (1 : ℝ) ≤ n := by exact_mod_cast hn
    unfold sbB
    rw [abs_div, le_div_iff₀ ha, abs_of_pos (show 0 < 2 * (n : ℝ) + 1 by positivity)]
    linarith
  have hr1 : ∀ d, d + 1 ≤ M → |r (M - d)| ≤ 1 := by
    intro d
    induction d with
    | zero => intro _; rw [Nat.sub_zero, hrM]; exact hw1
    | succ d ih =>
      intro hd
      have i := ih (by omega)
      rw [hr (M - (d + 1)) (by omega) (by omega), show M - (d + 1) + 1 = M - d by omega, abs_div, abs_one]
      have h3 := abs_sub_abs_le_abs_sub (sbB x (M - (d + 1))) (r (M - d))
      have h4 := hb (M - (d + 1)) (by omega)
      rw [div_le_one (by linarith)]
      linarith
  have hr0 : ∀ n, 1 ≤ n → n < M → r n ≠ 0 := by
    intro n h3 h4
    rw [hr n h3 h4]
    have i := hr1 (M - (n + 1)) (by omega)
    rw [show M - (M - (n + 1)) = n + 1 by omega] at i
    have h5 := abs_sub_abs_le_abs_sub (sbB x n) (r (n + 1))
    have h6 := hb n h3
    have : sbB x n - r (n + 1) ≠ 0 := abs_pos.1 (by linarith)
    positivity
  refine ⟨out, by rw [← e']; push_cast; rfl, fun n h3 h4 hz => ?_, fun hz => ?_⟩
  · have h5 := ho (n - 1) (by omega) (by omega)
    rw [show n - 1 + 1 = n by omega, hz] at h5
    exact (mul_eq_zero.1 h5.symm).resolve_left (hr0 n (by omega) (by omega))
  · by_cases hc : |Real.sin x / x| ≥ |Real.sin x / x ^ 2 - Real.cos x / x|
    · rw [if_pos hc, hz] at h1
      left
      rw [h0]
      refine (mul_eq_zero.1 h1.symm).resolve_left ?_
      by_cases hM2 : 1 < M
      · exact hr0 1 (le_refl _) hM2
      · have : M = 1 := by omega
        subst this
        rw [hrM]
        exact hw0
    · right; exact not_le.1 hc

/-- C46 fails at `x = 0` (`ZeroDivisionError` from `v / w`), for every `N ≥ 1`. -/
theorem c46_zero (N : ℕ) (hN : 1 ≤ N) : (sbesselj 0 N).Raises .zeroDivisionError := by
  refine ⟨"float division by zero", ?_⟩
  unfold sbesselj
  simp only
  rw [ScalarCoefs.npFull_of_nonneg (by omega)]
  simp only [Except.bind_ok, Int.toNat_natCast]
  have s0 := setIdxR (l := List.replicate N (0 : ℝ)) 0 (Real.sin 0 / 0) (by simp; omega)
  simp only [Nat.cast_zero] at s0
  rw [s0]
  simp only [Except.bind_ok]
  rw [sbjLoop, if_pos (by simp)]
  rfl

/-- C46 fails for `N = 1`: whenever the loop returns, entry 1 is accessed (`IndexError`). -/
theorem c46_one (x : ℝ) (hx : x ≠ 0) (h : |x| ≤ 1 / 2) : (sbesselj x 1).Raises .indexError := by
  obtain ⟨s, hs, hxs, _⟩ := sign_cases x hx
  have ha : 0 < |x| := abs_pos.2 hx
  obtain ⟨k, e, _⟩ := sbjLoop_ends (M := 0) ha (by simpa using h) hs
  rw [sq_abs] at e
  have e2 : s * (|x| / (2.0 * (((0 : ℕ) : Int) : ℝ) + 1.0)) = x / (2.0 * (((0 : ℕ) : Int) : ℝ) + 1.0) := by
    rw [← mul_div_assoc, ← hxs]
  rw [e2] at e
  refine ⟨"index", ?_⟩
  unfold sbesselj
  simp only [show (1 : Int) - 1 = ((0 : ℕ) : Int) by norm_num]
  rw [ScalarCoefs.npFull_of_nonneg (by omega)]
  simp only [Except.bind_ok]
  rw [show (setIdx (List.replicate (Int.toNat 1) (0 : ℝ)) 0 (Real.sin x / x)) = .ok [Real.sin x / x] from rfl]
  simp only [Except.bind_ok]
  rw [e]
  simp only [orDiverge, Except.bind_ok, id]
  generalize s * (cfP |x| 0 (k + 1) / cfQ |x| 0 (k + 1)) = w
  rw [show setIdx [Real.sin x / x] ((0 : ℕ) : Int) w = .ok [w] from rfl]
  simp only [Except.bind_ok]
  rw [show pyRangeNeg (((0 : ℕ) : Int) - 1) 0 1 = [] from rfl]
  simp only [forM', Except.bind_ok]
  rw [show getIdx [w] 0 = .ok w from rfl]
  simp only [Except.bind_ok]
  rw [show getIdx [w] 1 = .error ⟨.indexError, "index"⟩ from rfl, show ∀ v, setIdx [w] 1 v = .error ⟨.indexError, "index"⟩ from fun _ => rfl]
  split <;> rfl

/-- **Hankel functions**: `sbesselh1 = j + i y`, `sbesselh2 = j - i y` entrywise. -/
theorem c46_hankel (x : ℝ) (N : ℕ) (hN : 2 ≤ N) (j y : List ℝ) (hj : sbesselj x N = .ok j) (hy : sbessely x N = .ok y)
    (hp : NoPole j) : ∃ h1 h2, sbesselh1 x N = .ok h1 ∧ sbesselh2 x N = .ok h2 ∧ h1.length = N ∧ h2.length = N ∧
      ∀ n, n < N → rd h1 n = ⟨rd j n, rd y n⟩ ∧ rd h2 n = ⟨rd j n, -rd y n⟩ := by
  obtain ⟨jl, _⟩ := c46_recurrence x N hN j hj hp
  obtain ⟨y', ey, hyl, hyv⟩ := sbessely_eq x N (by omega)
  have : y' = y := by rw [ey] at hy; exact Except.ok.inj hy
  subst this
  have hlen : j.length = y'.length := by omega
  unfold sbesselh1 sbesselh2
  rw [hj, hy]
  simp only [Except.bind_ok]
  unfold bcast
  rw [if_pos hlen, if_pos hlen]
  refine ⟨_, _, rfl, rfl, by simp; omega, by simp; omega, fun n hn => ?_⟩
  have h1 : n < j.length := by omega
  have h2 : n < y'.length := by omega
  constructor
  · simp only [rd, List.getD_eq_getElem?_getD, List.getElem?_zipWith, List.getElem?_eq_getElem h1, List.getElem?_eq_getElem h2]
    apply Complex.ext <;> simp
  · simp only [rd, List.getD_eq_getElem?_getD, List.getElem?_zipWith, List.getElem?_eq_getElem h1, List.getElem?_eq_getElem h2]
    apply Complex.ext <;> simp

end Verif.Props
