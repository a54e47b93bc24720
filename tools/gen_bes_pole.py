#!/usr/bin/env python3
"""Writes lean/Verif/Props/FloatBes14.lean: the roundings of sbesselj(np.sqrt(15), 2), one theorem per loop iteration."""
import math
from fractions import Fraction as F
X = F(3.8729833462074175); N = 2
def lit(d):
    """positive double -> (m, k) with 2^52 <= m < 2^53, d = m / 2^k"""
    assert d > 0
    k = 0
    while d * F(2)**k < 2**52: k += 1
    while d * F(2)**k >= 2**53: k -= 1
    m = d * F(2)**k
    assert m.denominator == 1 and 2**52 <= m < 2**53, d
    return int(m), k
def S(d):
    if d < 0: return f"(-{S(-d)})"
    m, k = lit(d)
    if k < 0: return f"({m} * 2 ^ {-k} : ℝ)"
    return f"({m} / 2 ^ {k} : ℝ)"
def R(fr): return F(float(fr))
def prf(y_s, fr, d):
    """a proof of rnd y = literal"""
    sg = "n" if d < 0 else ""
    fr, d = abs(fr), abs(d)
    m, k = lit(d)
    if m == 2**52:
        assert abs(fr*F(2)**k - m) < F(1, 4)
        t = "rnd_lit'"
    else:
        assert abs(fr*F(2)**k - m) < F(1, 2)
        t = "rnd_lit"
    if k < 0:
        assert m > 2**52
        t = "rnd_blit"; k = -k
    if sg: t = t.replace("rnd_lit", "rnd_nlit").replace("rnd_blit", "rnd_nblit")
    return f"{t} hr (y := {y_s}) {m} {k} (by norm_num) (by norm_num) (by norm_num) (by rw [abs_lt]; constructor <;> norm_num)"
nmax = N-1
z = R(X*X)
v = R(X/(2*nmax+1)); w = v; n = nmax; u = F(1)
v0 = v
first = True
steps = []
while True:
    q = R(v/w)
    if abs(q) <= F(1e-20): break
    n += 1
    a = R(z*u); b = R(a/(4*n*n-1)); den = R(1-b); u1 = R(1/den); t = R(u1-1); v1 = R(v*t); w1 = R(w+v1)
    us = "1" if first else S(u)
    P = [prf(f"{S(v)} / {S(w)}", v/w, q), prf(f"{S(z)} * {us}", z*u, a), prf(f"{S(a)} / (4 * ({n} : ℕ) ^ 2 - 1)", a/(4*n*n-1), b), prf(f"1 - {S(b)}", 1-b, den),
         prf(f"1 / {S(den)}", 1/den, u1), prf(f"{S(u1)} - 1", u1-1, t), prf(f"{S(v)} * {S(t)}", v*t, v1), prf(f"{S(w)} + {S(v1)}", w+v1, w1)]
    steps.append(f"""theorem pstep{n} (hr : IsRounding rnd) : Fl.sbjLoop rnd {S(z)} {us} {S(v)} {S(w)} {n-1} = Fl.sbjLoop rnd {S(z)} {S(u1)} {S(v1)} {S(w1)} {n} :=
  pstep hr {n} (by norm_num)
    ({P[0]})
    (by norm_num) (by rw [lt_abs]; {"left" if q > 0 else "right"}; norm_num)
    ({P[1]})
    ({P[2]})
    ({P[3]})
    (by norm_num)
    ({P[4]})
    ({P[5]})
    ({P[6]})
    ({P[7]})
""")
    first = False
    u, v, w = u1, v1, w1
nlast = n
q = R(v/w)
hdr = f'''import Verif.Props.FloatBes13
/-!
# C102: `sbesselj(np.sqrt(15), 2)`

Generated by tools/gen_bes_pole.py.  For `|x| > N - 1/2` the partial sums `w` of the loop of sbessel.py 82-86 can be huge before they settle.  At the double nearest
to `√15` the first denominator `1 - x²/15` is about `2^-51`, the sum passes through `10^15`, and what is left of it afterwards carries an error of about one
half, for every rounding to nearest (no operation meets a tie).
-/
namespace Verif.Props
open Verif
variable {{rnd : ℝ → ℝ}}

namespace FB

theorem rnd_neg_of (hr : IsRounding rnd) {{y a : ℝ}} (hy : |y| ≤ 2 ^ 1023) (h : rnd (-y) = a) : rnd y = -a := by
  rw [hr.odd y hy] at h
  linarith

theorem lit_small {{y : ℝ}} {{m k : ℕ}} (h2 : m < 2 ^ 53) (h : |-y * 2 ^ k - m| < 1 / 2) : |y| ≤ 2 ^ 1023 := by
  have k1 : (1 : ℝ) ≤ 2 ^ k := one_le_pow₀ (by norm_num)
  have h2r : (m : ℝ) < 2 ^ 53 := by exact_mod_cast h2
  have h3 : |-y * 2 ^ k| ≤ 2 ^ 54 := by
    have := abs_sub_abs_le_abs_sub (-y * 2 ^ k) m
    rw [abs_of_nonneg (show (0 : ℝ) ≤ m by positivity)] at this
    have h3 : (2 : ℝ) ^ 53 + 1 ≤ 2 ^ 54 := by norm_num
    linarith
  rw [abs_mul, abs_neg, abs_of_nonneg (by linarith : (0 : ℝ) ≤ 2 ^ k)] at h3
  refine le_trans (le_trans (le_mul_of_one_le_right (abs_nonneg _) k1) h3) ?_
  exact pow_le_pow_right₀ (by norm_num) (by norm_num)

theorem rnd_nlit (hr : IsRounding rnd) {{y : ℝ}} (m k : ℕ) (h1 : 2 ^ 52 < m) (h2 : m < 2 ^ 53) (hk : k ≤ 1000) (h : |-y * 2 ^ k - m| < 1 / 2) : rnd y = -(m / 2 ^ k) :=
  rnd_neg_of hr (lit_small h2 h) (rnd_lit hr m k h1 h2 hk h)

theorem rnd_nlit' (hr : IsRounding rnd) {{y : ℝ}} (m k : ℕ) (h1 : 2 ^ 52 ≤ m) (h2 : m < 2 ^ 53) (hk : k ≤ 1000) (h : |-y * 2 ^ k - m| < 1 / 4) : rnd y = -(m / 2 ^ k) :=
  rnd_neg_of hr (lit_small h2 (h.trans (by norm_num))) (rnd_lit' hr m k h1 h2 hk h)

theorem rnd_blit (hr : IsRounding rnd) {{y : ℝ}} (m k : ℕ) (h1 : 2 ^ 52 < m) (h2 : m < 2 ^ 53) (hk : k ≤ 500) (h : |y / 2 ^ k - m| < 1 / 2) : rnd y = m * 2 ^ k := by
  have := rnd_lit_aux hr (y := y) m (-k) h1.le h2 (by omega) (by omega) (by rw [zpow_neg, zpow_natCast, ← div_eq_mul_inv]; exact h) (Or.inl h1)
  rw [this, zpow_neg, zpow_natCast, div_inv_eq_mul]

theorem rnd_nblit (hr : IsRounding rnd) {{y : ℝ}} (m k : ℕ) (h1 : 2 ^ 52 < m) (h2 : m < 2 ^ 53) (hk : k ≤ 500) (h : |-y / 2 ^ k - m| < 1 / 2) : rnd y = -(m * 2 ^ k) := by
  refine rnd_neg_of hr ?_ (rnd_blit hr m k h1 h2 hk h)
  have h2r : (m : ℝ) < 2 ^ 53 := by exact_mod_cast h2
  have h3 : |-y / 2 ^ k| ≤ 2 ^ 54 := by
    have := abs_sub_abs_le_abs_sub (-y / 2 ^ k) m
    rw [abs_of_nonneg (show (0 : ℝ) ≤ m by positivity)] at this
    have h3 : (2 : ℝ) ^ 53 + 1 ≤ 2 ^ 54 := by norm_num
    linarith
  rw [abs_div, abs_neg, abs_of_nonneg (by positivity : (0 : ℝ) ≤ 2 ^ k), div_le_iff₀ (by positivity), ← pow_add] at h3
  exact le_trans h3 (pow_le_pow_right₀ (by norm_num) (by omega))

/-- One pass of the loop, with its roundings given. -/
theorem pstep (hr : IsRounding rnd) {{z u v w q a b den u' t v' w' : ℝ}} (n : ℕ) (hn : n + 1 ≤ 2 ^ 16) (hq : rnd (v / w) = q) (hw : w ≠ 0) (hq1 : 2 / 10 ^ 20 < |q|)
    (ha : rnd (z * u) = a) (hb : rnd (a / (4 * (n : ℝ) ^ 2 - 1)) = b) (hden : rnd (1 - b) = den) (hd0 : den ≠ 0) (hu : rnd (1 / den) = u') (ht : rnd (u' - 1) = t)
    (hv : rnd (v * t) = v') (hw' : rnd (w + v') = w') : Fl.sbjLoop rnd z u v w (((n : ℕ) : ℤ) - 1) = Fl.sbjLoop rnd z u' v' w' n := by
  have dn : Fl.sbjDen rnd z u ((n : ℤ) - 1 + 1) = den := by
    rw [show (n : ℤ) - 1 + 1 = n by ring]
    unfold Fl.sbjDen
    rw [four_sq hr n (by omega), ha, hb, hden]
  rw [Fl.sbjLoop]
  simp only []
  rw [if_neg hw, hq, thr_lo hr, if_pos, dn, if_neg hd0, hu, ht, hv, hw', show (n : ℤ) - 1 + 1 = n by ring]
  refine lt_trans ?_ hq1
  norm_num

'''
end_ = f'''theorem pend (hr : IsRounding rnd) : Fl.sbjLoop rnd {S(z)} {S(u)} {S(v)} {S(w)} {nlast} = some (.ok {S(w)}) := by
  have hq := {prf(f"{S(v)} / {S(w)}", v/w, q)}
  rw [Fl.sbjLoop, if_neg (by norm_num), hq, thr_lo hr, if_neg]
  rw [not_lt, abs_le]; constructor <;> norm_num

theorem ploop (hr : IsRounding rnd) : Fl.sbjLoop rnd {S(z)} 1 {S(v0)} {S(v0)} {nmax} = some (.ok {S(w)}) := by
''' + "".join(f"  refine (pstep{k} hr).trans ?_\n" for k in range(nmax+1, nlast+1)) + "  exact pend hr\n"
tail = f"""
/-- The double `3.8729833462074175`, next above the one nearest to `√15`. -/
noncomputable def xp15 : ℝ := {S(X).strip("()").replace(" : ℝ","")}

theorem xp15_bounds : 3872983346 / 10 ^ 9 ≤ xp15 ∧ xp15 ≤ 3872983347 / 10 ^ 9 := by unfold xp15; constructor <;> norm_num

/-- `x = 5π/4 - δ` with `δ ≈ 0.054`. -/
theorem xp15_trig : -(6680 / 10000) ≤ Real.sin xp15 ∧ Real.sin xp15 ≤ -(6678 / 10000) ∧ -(7444 / 10000) ≤ Real.cos xp15 ∧ Real.cos xp15 ≤ -(7442 / 10000) := by
  obtain ⟨x1, x2⟩ := xp15_bounds
  have p1 := Real.pi_gt_d6
  have p2 := Real.pi_lt_d6
  obtain ⟨d, hd⟩ : ∃ d, d = Real.pi / 4 - (xp15 - Real.pi) := ⟨_, rfl⟩
  have d1 : 5400 / 100000 ≤ d := by rw [hd]; linarith
  have d2 : d ≤ 5402 / 100000 := by rw [hd]; linarith
  have es : Real.sin xp15 = -(Real.sqrt 2 / 2 * (Real.cos d - Real.sin d)) := by
    rw [show xp15 = (Real.pi / 4 - d) + Real.pi by rw [hd]; ring, Real.sin_add_pi, Real.sin_sub, Real.sin_pi_div_four, Real.cos_pi_div_four]; ring
  have ec : Real.cos xp15 = -(Real.sqrt 2 / 2 * (Real.cos d + Real.sin d)) := by
    rw [show xp15 = (Real.pi / 4 - d) + Real.pi by rw [hd]; ring, Real.cos_add_pi, Real.cos_sub, Real.sin_pi_div_four, Real.cos_pi_div_four]; ring
  clear hd
  have r1 : 14142 / 10000 ≤ Real.sqrt 2 := by apply Real.le_sqrt_of_sq_le; norm_num
  have r2 : Real.sqrt 2 ≤ 14143 / 10000 := by apply Real.sqrt_le_iff.mpr; constructor <;> norm_num
  have c1 := Real.one_sub_sq_div_two_le_cos (x := d)
  have c2 := (abs_le.mp (Real.cos_bound (x := d) (by rw [abs_of_nonneg (by linarith)]; linarith))).2
  rw [abs_of_nonneg (show 0 ≤ d by linarith)] at c2
  have s1 := Real.sin_gt_sub_cube (x := d) (by linarith)
  have s2 := Real.sin_lt (x := d) (by linarith)
  have q1 : d ^ 2 ≤ (5402 / 100000) ^ 2 := pow_le_pow_left₀ (by linarith) d2 2
  have q1' : (5400 / 100000) ^ 2 ≤ d ^ 2 := pow_le_pow_left₀ (by norm_num) d1 2
  have q2 : d ^ 3 ≤ (5402 / 100000) ^ 3 := pow_le_pow_left₀ (by linarith) d2 3
  have q4 : d ^ 4 ≤ (5402 / 100000) ^ 4 := pow_le_pow_left₀ (by linarith) d2 4
  norm_num at q1 q1' q2 q4
  have C1 : 99854 / 100000 ≤ Real.cos d := by linarith
  have C2 : Real.cos d ≤ 99855 / 100000 := by linarith
  have S1 : 5397 / 100000 ≤ Real.sin d := by linarith
  have S2 : Real.sin d ≤ 5402 / 100000 := by linarith
  rw [es, ec]
  have A1 : 94452 / 100000 ≤ Real.cos d - Real.sin d := by linarith
  have A2 : Real.cos d - Real.sin d ≤ 94458 / 100000 := by linarith
  have B1 : 105251 / 100000 ≤ Real.cos d + Real.sin d := by linarith
  have B2 : Real.cos d + Real.sin d ≤ 105257 / 100000 := by linarith
  have R1 : 7071 / 10000 ≤ Real.sqrt 2 / 2 := by linarith
  have R2 : Real.sqrt 2 / 2 ≤ 70715 / 100000 := by linarith
  have e1 := mul_le_mul R1 A1 (by norm_num) (by linarith)
  have e2 := mul_le_mul R2 A2 (by linarith) (by norm_num)
  have e3 := mul_le_mul R1 B1 (by norm_num) (by linarith)
  have e4 := mul_le_mul R2 B2 (by linarith) (by norm_num)
  refine ⟨?_, ?_, ?_, ?_⟩ <;> linarith

theorem rnd_near (hr : IsRounding rnd) {{y a : ℝ}} (hy : |y - a| ≤ 1 / 10 ^ 6) (ha : |a| ≤ 10) : |rnd y - a| ≤ 2 / 10 ^ 6 := by
  have h1 : |y| ≤ 11 := by
    have := abs_sub_abs_le_abs_sub y a
    linarith
  have h2 := rnd_err hr (x := y) (h1.trans (by
    have : (2 : ℝ) ^ (4 : ℤ) ≤ 2 ^ (1022 : ℤ) := zpow_le_zpow_right₀ (by norm_num) (by norm_num)
    refine le_trans ?_ this
    norm_num))
  have h3 := tiny_small
  have h4 : uu ≤ 1 / 10 ^ 10 := by unfold uu; norm_num
  have h5 : uu * |y| ≤ 1 / 10 ^ 10 * 11 := mul_le_mul h4 h1 (abs_nonneg _) (by norm_num)
  have e : rnd y - a = (rnd y - y) + (y - a) := by ring
  rw [e]
  refine (abs_add_le _ _).trans ?_
  linarith

theorem pfinal (hr : IsRounding rnd) {{y j : ℝ}} (h1 : -(17249 / 100000) ≤ y) (h2 : y ≤ 0) (hj : 14761 / 100000 ≤ j) :
    rnd ({S(w)} * y) ≤ j - 1 / 50 := by
  have hw : {S(-w)} ≤ 72130 / 100000 := by norm_num
  have hw' : (0 : ℝ) ≤ {S(-w)} := by norm_num
  generalize {S(-w)} = g at hw hw' ⊢
  have m1 : g * (-y) ≤ 72130 / 100000 * (17249 / 100000) := mul_le_mul hw (by linarith) (by linarith) (by norm_num)
  have m0 : 0 ≤ g * (-y) := mul_nonneg hw' (by linarith)
  have r4 := rnd_near hr (y := -g * y) (a := -g * y) (by simp) (by rw [abs_le]; constructor <;> linarith)
  obtain ⟨_, r4b⟩ := abs_le.mp r4
  linarith

/-- The call at `xp15`, for every rounding, when `x ** 2` is correctly rounded and `sin` and `cos` are accurate. -/
theorem pcall (hr : IsRounding rnd) (lib : Fl.BesLib) (hl : BesLibOk lib xp15) (hsq : lib.sq xp15 = rnd (xp15 ^ 2)) :
    ∃ out, Fl.sbesselj rnd lib xp15 2 = .ok out ∧ out.length = 2 ∧ 1 / 5 - 6 / 100 ≤ sphJ 1 xp15 ∧ sphJ 1 xp15 ≤ 1 / 5 - 4 / 100 ∧ rd out 1 ≤ sphJ 1 xp15 - 1 / 50 := by
  obtain ⟨x1, x2⟩ := xp15_bounds
  obtain ⟨s1, s2, c1, c2⟩ := xp15_trig
  have hz : rnd (xp15 ^ 2) = {S(z)} := by
    have := {prf("xp15 ^ 2", X*X, z).replace("rw [abs_lt]; constructor", "rw [abs_lt]; unfold xp15; constructor")}
    rw [this]; norm_num
  have hv : rnd (xp15 / rnd (rnd (2 * Fl.ofInt rnd ((1 : ℕ) : ℤ)) + 1)) = {S(v0)} := by
    rw [odd_int hr (by norm_num)]
    have := {prf("xp15 / (2 * (1 : ℕ) + 1)", X/3, v0).replace("rw [abs_lt]; constructor", "rw [abs_lt]; unfold xp15; constructor")}
    rw [this]; norm_num
  have x0 : xp15 ≠ 0 := by linarith
  have hlp := ploop hr
  rw [← hv, ← hz, ← hsq] at hlp
  have s := sbj_struct hr lib (x := xp15) (M := 1) (by norm_num) (by norm_num) x0 (by rw [hsq, hz]; norm_num) hlp
  rw [show ((1 : ℕ) : ℤ) + 1 = 2 by norm_num] at s
  rcases s with ⟨r, out, e, len, rM, _, o0, o1, _⟩ | ⟨_, _, n, h1, h2, _⟩
  swap
  · omega
  have ls := hl.sin
  have lc := hl.cos
  have u8 : (8 : ℝ) * 2 ^ (-53 : ℤ) ≤ 1 / 10 ^ 10 := by rw [zpow_neg]; norm_num
  have ls' : |lib.sin xp15 - Real.sin xp15| ≤ 1 / 10 ^ 10 := by
    refine ls.trans ((mul_le_mul u8 (Real.abs_sin_le_one _) (abs_nonneg _) (by norm_num)).trans ?_); norm_num
  have lc' : |lib.cos xp15 - Real.cos xp15| ≤ 1 / 10 ^ 10 := by
    refine lc.trans ((mul_le_mul u8 (Real.abs_cos_le_one _) (abs_nonneg _) (by norm_num)).trans ?_); norm_num
  obtain ⟨ls1, ls2⟩ := abs_le.mp ls'
  obtain ⟨lc1, lc2⟩ := abs_le.mp lc'
  have xpos : 0 < xp15 := by linarith
  have zp1 : (14999999 / 10 ^ 6 : ℝ) ≤ lib.sq xp15 := by rw [hsq, hz]; norm_num
  have zp2 : lib.sq xp15 ≤ (15000001 / 10 ^ 6 : ℝ) := by rw [hsq, hz]; norm_num
  have zpos : 0 < lib.sq xp15 := by linarith
  have ej : sphJ 1 xp15 = Real.sin xp15 / xp15 ^ 2 - Real.cos xp15 / xp15 := rfl
  -- the quotients
  have w1 : (14999999 / 10 ^ 6 : ℝ) ≤ xp15 ^ 2 := by unfold xp15; norm_num
  have w2 : xp15 ^ 2 ≤ (15000001 / 10 ^ 6 : ℝ) := by unfold xp15; norm_num
  have wpos : 0 < xp15 ^ 2 := by linarith
  have q0a : -(17248 / 100000) ≤ Real.sin xp15 / xp15 := by rw [le_div_iff₀ xpos]; linarith
  have q0b : Real.sin xp15 / xp15 ≤ -(17242 / 100000) := by rw [div_le_iff₀ xpos]; linarith
  have q1a : -(4454 / 100000) ≤ Real.sin xp15 / xp15 ^ 2 := by rw [le_div_iff₀ wpos]; linarith
  have q1b : Real.sin xp15 / xp15 ^ 2 ≤ -(4451 / 100000) := by rw [div_le_iff₀ wpos]; linarith
  have q2a : -(19221 / 100000) ≤ Real.cos xp15 / xp15 := by rw [le_div_iff₀ xpos]; linarith
  have q2b : Real.cos xp15 / xp15 ≤ -(19215 / 100000) := by rw [div_le_iff₀ xpos]; linarith
  have t0 : |lib.sin xp15 / xp15 - Real.sin xp15 / xp15| ≤ 1 / 10 ^ 6 := by
    rw [← sub_div, abs_div, abs_of_pos xpos, div_le_iff₀ xpos]; linarith
  have r0 := rnd_near hr t0 (by rw [abs_le]; constructor <;> linarith)
  have v1a : -(4458 / 100000) ≤ lib.sin xp15 / lib.sq xp15 := by rw [le_div_iff₀ zpos]; linarith
  have v1b : lib.sin xp15 / lib.sq xp15 ≤ -(4447 / 100000) := by rw [div_le_iff₀ zpos]; linarith
  have r1 := rnd_near hr (y := lib.sin xp15 / lib.sq xp15) (a := lib.sin xp15 / lib.sq xp15) (by simp) (by rw [abs_le]; constructor <;> linarith)
  have t2 : |lib.cos xp15 / xp15 - Real.cos xp15 / xp15| ≤ 1 / 10 ^ 6 := by
    rw [← sub_div, abs_div, abs_of_pos xpos, div_le_iff₀ xpos]; linarith
  have r2 := rnd_near hr t2 (by rw [abs_le]; constructor <;> linarith)
  obtain ⟨r0a, r0b⟩ := abs_le.mp r0
  obtain ⟨r1a, r1b⟩ := abs_le.mp r1
  obtain ⟨r2a, r2b⟩ := abs_le.mp r2
  have r3 := rnd_near hr (y := rnd (lib.sin xp15 / lib.sq xp15) - rnd (lib.cos xp15 / xp15)) (a := rnd (lib.sin xp15 / lib.sq xp15) - rnd (lib.cos xp15 / xp15)) (by simp)
    (by rw [abs_le]; constructor <;> linarith)
  obtain ⟨r3a, r3b⟩ := abs_le.mp r3
  have cond : |rnd (rnd (lib.sin xp15 / lib.sq xp15) - rnd (lib.cos xp15 / xp15))| ≤ |rnd (lib.sin xp15 / xp15)| := by
    rw [abs_of_nonneg (by linarith), abs_of_nonpos (by linarith)]
    linarith
  rw [if_pos cond, rM] at o1
  rw [ej]
  refine ⟨out, e, len, by linarith, by linarith, ?_⟩
  rw [o1]
  have hy1 : -(17249 / 100000) ≤ rnd (lib.sin xp15 / xp15) := by linarith
  have hy2 : rnd (lib.sin xp15 / xp15) ≤ 0 := by linarith
  have hj : 14761 / 100000 ≤ Real.sin xp15 / xp15 ^ 2 - Real.cos xp15 / xp15 := by linarith
  exact pfinal hr hy1 hy2 hj
"""
final = f"""
/-- **C102** (counterexample beyond `|x| = N - 1/2`): `sbesselj(3.8729833462074175, 2)` returns a `j_1` that is too small by more than `0.02`, a seventh of its
value, for every rounding to nearest, with `x ** 2` correctly rounded and `sin`, `cos` accurate to a few units in the last place. -/
theorem c102_beyond (hr : IsRounding rnd) (lib : Fl.BesLib) (hl : BesLibOk lib ({S(X).strip("()")}))
    (hsq : lib.sq ({S(X).strip("()")}) = rnd (({S(X).strip("()")}) ^ 2)) :
    ∃ out, Fl.sbesselj rnd lib ({S(X).strip("()")}) 2 = .ok out ∧ out.length = 2 ∧ sphJ 1 ({S(X).strip("()")}) ≤ 16 / 100 ∧
      rd out 1 ≤ sphJ 1 ({S(X).strip("()")}) - 1 / 50 := by
  obtain ⟨out, e, l, _, b, c⟩ := FB.pcall hr lib hl hsq
  refine ⟨out, e, l, b.trans (by norm_num), c⟩

/-- The hypotheses of `c102_beyond` are met: an exact `sin` and `cos` and a correctly rounded square. -/
theorem c102_beyond_lib (hr : IsRounding rnd) : BesLibOk ⟨Real.cos, Real.sin, fun t => rnd (t ^ 2)⟩ ({S(X).strip("()")}) where
  cos := by simp only [sub_self, abs_zero]; positivity
  sin := by simp only [sub_self, abs_zero]; positivity
  sq := by
    have := FB.{prf(f"({S(X)}) ^ 2", X*X, z)}
    show |rnd _ - _| ≤ _
    rw [this, zpow_neg, abs_le]; constructor <;> norm_num
"""
open("/verif/lean/Verif/Props/FloatBes14.lean", "w").write(hdr + "\n".join(steps) + "\n" + end_ + tail + "\nend FB\n" + final + "\nend Verif.Props\n")
