#!/usr/bin/env python3
"""Writes lean/Verif/Props/FloatBes12.lean: the roundings of sbesselj(5.76345919689455, 7), one theorem per loop iteration."""
import math
from fractions import Fraction as F
X = F(5.76345919689455); N = 7
def lit(d):
    """positive double -> (m, k) with 2^52 <= m < 2^53, d = m / 2^k"""
    assert d > 0
    k = 0
    while d * F(2)**k < 2**52: k += 1
    m = d * F(2)**k
    assert m.denominator == 1 and 2**52 <= m < 2**53
    return int(m), k
def S(d):
    m, k = lit(d)
    return f"({m} / 2 ^ {k} : ℝ)"
out = []
def R(fr): return F(float(fr))
def prf(y_s, fr, d):
    """a proof of rnd y = literal"""
    m, k = lit(d)
    if m == 2**52:
        assert abs(fr*F(2)**k - m) < F(1, 4)
        return f"rnd_lit' hr (y := {y_s}) {m} {k} (by norm_num) (by norm_num) (by norm_num) (by rw [abs_lt]; constructor <;> norm_num)"
    assert abs(fr*F(2)**k - m) < F(1, 2)
    return f"rnd_lit hr (y := {y_s}) {m} {k} (by norm_num) (by norm_num) (by norm_num) (by rw [abs_lt]; constructor <;> norm_num)"
nmax = N-1
z = R(X*X)
v = R(X/(2*nmax+1)); w = v; n = nmax; u = F(1)
v0 = v
states = [(u, v, w)]
steps = []
while True:
    q = R(v/w)
    if q <= F(1e-20): break
    n += 1
    a = R(z*u); b = R(a/(4*n*n-1)); den = R(1-b); u1 = R(1/den); t = R(u1-1); v1 = R(v*t); w1 = R(w+v1)
    us = "1" if len(states) == 1 else S(u)
    P = [prf(f"{S(v)} / {S(w)}", v/w, q), prf(f"zz * {us}".replace("zz", S(z)), z*u, a), prf(f"{S(a)} / {4*n*n-1}", a/(4*n*n-1), b), prf(f"1 - {S(b)}", 1-b, den),
         prf(f"1 / {S(den)}", 1/den, u1), prf(f"{S(u1)} - 1", u1-1, t), prf(f"{S(v)} * {S(t)}", v*t, v1), prf(f"{S(w)} + {S(v1)}", w+v1, w1)]
    steps.append(f"""theorem zstep{n} (hr : IsRounding rnd) : Fl.sbjLoop rnd {S(z)} {us} {S(v)} {S(w)} {n-1} = Fl.sbjLoop rnd {S(z)} {S(u1)} {S(v1)} {S(w1)} {n} :=
  zstep hr {n} (by norm_num)
    ({P[0]})
    (by norm_num) (by norm_num)
    ({P[1]})
    ({P[2].replace(f'/ {4*n*n-1})', f'/ (4 * {n} ^ 2 - 1))')})
    ({P[3]})
    (by norm_num)
    ({P[4]})
    ({P[5]})
    ({P[6]})
    ({P[7]})
""")
    u, v, w = u1, v1, w1
    states.append((u, v, w))
nlast = n
q = R(v/w)
res = w
tail = []
o = w
vals = {nmax: w}
for n in range(nmax-1, 0, -1):
    a = R(F(2*n+1)/X); d = R(a-o)
    if d == 0:
        assert a == o
        zero = n
        azero = prf(f"{2*n+1} / {S(X)}", F(2*n+1)/X, a)
        break
    o1 = R(1/d)
    tail.append((n, S(a), prf(f"(2 * {n} + 1) / {S(X)}", F(2*n+1)/X, a), S(d), prf(f"{S(a)} - {S(o)}", a-o, d), S(o1), prf(f"1 / {S(d)}", 1/d, o1)))
    o = o1
    vals[n] = o
assert zero == 3
print(len(steps), vals.keys())
hdr = f'''import Verif.Props.FloatBes10
/-!
# C102: an exact zero divisor in `sbesselj`

Generated by tools/gen_bes_zero.py.  At the double `x = 5.76345919689455` (a zero of `j_2`) the call `sbesselj(x, 7)` computes the same double for `7 / x` and
`out[4]`, so sbessel.py 96 divides by zero, for every rounding to nearest (no operation meets a tie).
-/
namespace Verif.Props
open Verif
variable {{rnd : ℝ → ℝ}}

namespace FB

theorem rnd_lit_aux (hr : IsRounding rnd) {{y : ℝ}} (m : ℕ) (k : ℤ) (h1 : 2 ^ 52 ≤ m) (h2 : m < 2 ^ 53) (hk0 : -500 ≤ k) (hk : k ≤ 1000) (h : |y * 2 ^ k - m| < 1 / 2)
    (h' : 2 ^ 52 < m ∨ |y * 2 ^ k - m| < 1 / 4) : rnd y = m / 2 ^ k := by
  have pk : (0 : ℝ) < 2 ^ k := by positivity
  have h2r : (m : ℝ) < 2 ^ 53 := by exact_mod_cast h2
  have h1r : (2 : ℝ) ^ 52 ≤ m := by exact_mod_cast h1
  have dm : IsDouble ((m : ℝ) / 2 ^ k) := by
    refine ⟨m, -k, ?_, by omega, by omega, ?_⟩
    · rw [abs_of_nonneg (by positivity)]; exact_mod_cast h2
    · rw [zpow_neg]; push_cast; rfl
  have yb : |y| ≤ 2 ^ 1023 := by
    have t : |y * 2 ^ k| ≤ 2 ^ 54 := by
      have := abs_sub_abs_le_abs_sub (y * 2 ^ k) m
      rw [abs_of_nonneg (show (0 : ℝ) ≤ m by positivity)] at this
      have h3 : (2 : ℝ) ^ 53 + 1 ≤ 2 ^ 54 := by norm_num
      linarith
    rw [abs_mul, abs_of_pos pk] at t
    have e : |y| = |y| * 2 ^ k * 2 ^ (-k) := by rw [mul_assoc, ← zpow_add₀ (by norm_num), add_neg_cancel, zpow_zero, mul_one]
    rw [e]
    calc |y| * 2 ^ k * 2 ^ (-k) ≤ 2 ^ 54 * 2 ^ (500 : ℤ) := mul_le_mul t (zpow_le_zpow_right₀ (by norm_num) (by omega)) (by positivity) (by positivity)
      _ = 2 ^ 554 := by rw [show (500 : ℤ) = ((500 : ℕ) : ℤ) by rfl, zpow_natCast, ← pow_add]
      _ ≤ 2 ^ 1023 := pow_le_pow_right₀ (by norm_num) (by norm_num)
  have near := hr.nearest y yb _ dm
  have dd := hr.double y yb
  generalize rnd y = d at near dd
  clear hr yb
  obtain ⟨a, e, ha, he0, he1, rfl⟩ := dd
  have har : |(a : ℝ)| < 2 ^ 53 := by
    have : ((|a| : ℤ) : ℝ) < 2 ^ 53 := by exact_mod_cast ha
    rwa [Int.cast_abs] at this
  have near' : |y * 2 ^ k - a * 2 ^ e * 2 ^ k| ≤ |y * 2 ^ k - m| := by
    rw [← sub_mul, abs_mul, abs_of_pos pk]
    calc |y - a * 2 ^ e| * 2 ^ k ≤ |y - m / 2 ^ k| * 2 ^ k := mul_le_mul_of_nonneg_right near pk.le
      _ = |y * 2 ^ k - m| := by
        rw [← abs_of_pos pk, ← abs_mul, abs_of_pos pk, sub_mul, div_mul_cancel₀ _ pk.ne']
  have tot : |(a : ℝ) * 2 ^ e * 2 ^ k - m| ≤ |y * 2 ^ k - a * 2 ^ e * 2 ^ k| + |y * 2 ^ k - m| := by
    rw [show (a : ℝ) * 2 ^ e * 2 ^ k - m = -(y * 2 ^ k - a * 2 ^ e * 2 ^ k) + (y * 2 ^ k - m) by ring]
    exact (abs_add_le _ _).trans (by rw [abs_neg])
  have t1 : |(a : ℝ) * 2 ^ e * 2 ^ k - m| < 1 := by linarith
  have e2 : (a : ℝ) * 2 ^ e * 2 ^ k = a * 2 ^ (e + k) := by rw [zpow_add₀ (by norm_num)]; ring
  rw [e2] at t1 tot near'
  -- a multiple of one half, of one unless `m` is a power of two
  have big : ∀ j : ℤ, e + k ≤ j → (a : ℝ) * 2 ^ (e + k) < 2 ^ 53 * 2 ^ j := fun j hj => by
    calc (a : ℝ) * 2 ^ (e + k) ≤ |(a : ℝ)| * 2 ^ (e + k) := mul_le_mul_of_nonneg_right (le_abs_self _) (by positivity)
      _ ≤ |(a : ℝ)| * 2 ^ j := mul_le_mul_of_nonneg_left (zpow_le_zpow_right₀ (by norm_num) hj) (abs_nonneg _)
      _ < _ := mul_lt_mul_of_pos_right har (by positivity)
  have hm := (abs_lt.1 t1).1
  suffices hs : (a : ℝ) * 2 ^ (e + k) = m by
    rw [eq_div_iff pk.ne', e2, hs]
  rcases h' with h' | h'
  · have h3r : (2 : ℝ) ^ 52 + 1 ≤ m := by exact_mod_cast h'
    have ek : 0 ≤ e + k := by
      by_contra hc
      have := big (-1) (by omega)
      have h4 : (2 : ℝ) ^ 53 * 2 ^ (-1 : ℤ) = 2 ^ 52 := by norm_num
      linarith
    obtain ⟨j, hj⟩ : ∃ j : ℕ, e + k = j := ⟨(e + k).toNat, by omega⟩
    rw [hj, zpow_natCast] at t1 ⊢
    have : |((a * 2 ^ j - m : ℤ) : ℝ)| < 1 := by push_cast; exact t1
    have : |(a * 2 ^ j - m : ℤ)| < 1 := by rw [← Int.cast_abs] at this; exact_mod_cast this
    have := Int.abs_lt_one_iff.1 this
    have : a * 2 ^ j = m := by omega
    exact_mod_cast this
  · have ek : -1 ≤ e + k := by
      by_contra hc
      have := big (-2) (by omega)
      have h4 : (2 : ℝ) ^ 53 * 2 ^ (-2 : ℤ) + 1 ≤ 2 ^ 52 := by norm_num
      linarith
    obtain ⟨j, hj⟩ : ∃ j : ℕ, e + k = -1 + j := ⟨(e + k + 1).toNat, by omega⟩
    have t2 : |(a : ℝ) * 2 ^ (e + k) - m| < 1 / 2 := by linarith
    have e3 : (a : ℝ) * 2 ^ (e + k) = (a * 2 ^ j) / 2 := by
      rw [hj, zpow_add₀ (by norm_num), zpow_natCast]
      norm_num
      ring
    rw [e3] at t2 ⊢
    have : |((a * 2 ^ j - 2 * m : ℤ) : ℝ)| < 1 := by
      push_cast
      rw [show (a : ℝ) * 2 ^ j - 2 * m = 2 * (a * 2 ^ j / 2 - m) by ring, abs_mul, abs_of_pos (by norm_num : (0 : ℝ) < 2)]
      linarith
    have : |(a * 2 ^ j - 2 * m : ℤ)| < 1 := by rw [← Int.cast_abs] at this; exact_mod_cast this
    have := Int.abs_lt_one_iff.1 this
    have : a * 2 ^ j = 2 * m := by omega
    have : (a : ℝ) * 2 ^ j = 2 * m := by exact_mod_cast this
    linarith

/-- The nearest double is `m / 2^k`. -/
theorem rnd_lit (hr : IsRounding rnd) {{y : ℝ}} (m k : ℕ) (h1 : 2 ^ 52 < m) (h2 : m < 2 ^ 53) (hk : k ≤ 1000) (h : |y * 2 ^ k - m| < 1 / 2) : rnd y = m / 2 ^ k := by
  have := rnd_lit_aux hr (y := y) m k h1.le h2 (by omega) (by omega) (by rw [zpow_natCast]; exact h) (Or.inl h1)
  rwa [zpow_natCast] at this

/-- The nearest double is a power of two. -/
theorem rnd_lit' (hr : IsRounding rnd) {{y : ℝ}} (m k : ℕ) (h1 : 2 ^ 52 ≤ m) (h2 : m < 2 ^ 53) (hk : k ≤ 1000) (h : |y * 2 ^ k - m| < 1 / 4) : rnd y = m / 2 ^ k := by
  have := rnd_lit_aux hr (y := y) m k h1 h2 (by omega) (by omega) (by rw [zpow_natCast]; exact h.trans (by norm_num)) (Or.inr (by rw [zpow_natCast]; exact h))
  rwa [zpow_natCast] at this

theorem thr_lo (hr : IsRounding rnd) : rnd (1 / 10 ^ 20) = {S(F(1e-20))} := by
  have := rnd_lit hr (y := 1 / 10 ^ 20) {lit(F(1e-20))[0]} {lit(F(1e-20))[1]} (by norm_num) (by norm_num) (by norm_num) (by rw [abs_lt]; constructor <;> norm_num)
  rw [this]; norm_num

theorem four_sq (hr : IsRounding rnd) (n : ℕ) (hn : n ≤ 2 ^ 16) : rnd (rnd (4 * Fl.ofInt rnd ((n : ℤ) ^ 2)) - 1) = 4 * (n : ℝ) ^ 2 - 1 := by
  have hn2 : (n : ℤ) ^ 2 ≤ (2 ^ 16) ^ 2 := pow_le_pow_left₀ (by positivity) (by exact_mod_cast hn) 2
  have h0 : 0 ≤ (n : ℤ) ^ 2 := by positivity
  generalize hq : (n : ℤ) ^ 2 = q at hn2 h0
  have hqr : ((n : ℝ)) ^ 2 = q := by exact_mod_cast hq
  rw [hqr, ofInt_eq hr (by rw [abs_of_nonneg h0]; omega)]
  rw [rnd_int hr (x := 4 * (q : ℝ)) (4 * q) (by push_cast; ring) (by rw [abs_lt]; omega), rnd_int hr (4 * q - 1) (by push_cast; ring) (by rw [abs_lt]; omega)]
  push_cast; ring

theorem zstep (hr : IsRounding rnd) {{z u v w q a b den u' t v' w' : ℝ}} (n : ℕ) (hn : n + 1 ≤ 2 ^ 16) (hq : rnd (v / w) = q) (hw : w ≠ 0) (hq1 : 2 / 10 ^ 20 < q)
    (ha : rnd (z * u) = a) (hb : rnd (a / (4 * (n : ℝ) ^ 2 - 1)) = b) (hden : rnd (1 - b) = den) (hd0 : den ≠ 0) (hu : rnd (1 / den) = u') (ht : rnd (u' - 1) = t)
    (hv : rnd (v * t) = v') (hw' : rnd (w + v') = w') : Fl.sbjLoop rnd z u v w (((n : ℕ) : ℤ) - 1) = Fl.sbjLoop rnd z u' v' w' n := by
  have dn : Fl.sbjDen rnd z u ((n : ℤ) - 1 + 1) = den := by
    rw [show (n : ℤ) - 1 + 1 = n by ring]
    unfold Fl.sbjDen
    rw [four_sq hr n (by omega), ha, hb, hden]
  rw [Fl.sbjLoop]
  simp only []
  rw [if_neg hw, hq, thr_lo hr, if_pos, dn, if_neg hd0, hu, ht, hv, hw', show (n : ℤ) - 1 + 1 = n by ring]
  rw [abs_of_pos (lt_trans (by norm_num) hq1)]
  refine lt_trans ?_ hq1
  norm_num

'''
body = "\n".join(steps)
ends = f'''
theorem zend (hr : IsRounding rnd) : Fl.sbjLoop rnd {S(z)} {S(u)} {S(v)} {S(w)} {nlast} = some (.ok {S(w)}) := by
  have hq : rnd ({S(v)} / {S(w)}) = {S(q)} := by
    have := {prf(f"{S(v)} / {S(w)}", v/w, q)}
    rw [this]; norm_num
  rw [Fl.sbjLoop, if_neg (by norm_num), hq, thr_lo hr, if_neg (by rw [abs_of_pos (by norm_num)]; norm_num)]

/-- The double `5.76345919689455`. -/
noncomputable def xz : ℝ := {lit(X)[0]} / 2 ^ {lit(X)[1]}

theorem zloop (hr : IsRounding rnd) : Fl.sbjLoop rnd {S(z)} 1 {S(v0)} {S(v0)} 6 = some (.ok {S(w)}) := by
'''
for i in range(nmax+1, nlast+1):
    ends += f"  refine (zcast (zstep{i} hr)).trans ?_\n"
ends += "  exact zend hr\n"

(n5, a5, pa5, d5, pd5, o5, po5), (n4, a4, pa4, d4, pd4, o4, po4) = tail
ends += f"""
/-- The call at `xz`, for every rounding, when `x ** 2` is correctly rounded. -/
theorem zcall (hr : IsRounding rnd) (lib : Fl.BesLib) (hsq : lib.sq xz = rnd (xz ^ 2)) : Fl.sbesselj rnd lib xz 7 = .error ⟨.exception, "infinite"⟩ := by
  have hz : rnd (xz ^ 2) = {S(z)} := by
    have := {prf("xz ^ 2", X*X, z).replace("constructor <;> norm_num", "unfold xz; constructor <;> norm_num")}
    rw [this]; norm_num
  have hv : rnd (xz / rnd (rnd (2 * Fl.ofInt rnd ((6 : ℕ) : ℤ)) + 1)) = {S(v0)} := by
    rw [odd_int hr (by norm_num)]
    have := {prf("xz / (2 * (6 : ℕ) + 1)", X/13, v0).replace("constructor <;> norm_num", "unfold xz; constructor <;> norm_num")}
    rw [this]; norm_num
  have x0 : xz ≠ 0 := by unfold xz; norm_num
  have hl := zloop hr
  rw [← hv, ← hz, ← hsq] at hl
  have s := sbj_struct hr lib (x := xz) (M := 6) (by norm_num) (by norm_num) x0 (by rw [hsq, hz]; norm_num) hl
  rw [show ((6 : ℕ) : ℤ) + 1 = 7 by norm_num] at s
  rcases s with ⟨r, out, _, _, rM, hs, _⟩ | ⟨e, _⟩
  swap
  · exact e
  exfalso
  have h5 : r 5 = {o5} := by
    have e1 : dD rnd xz r 5 = {d5} := by
      unfold dD
      rw [rM]
      have a : rnd ((2 * ((5 : ℕ) : ℝ) + 1) / xz) = {a5} := by
        have := {pa5}
        unfold xz
        push_cast
        rw [this]; norm_num
      rw [a]
      have := {pd5}
      rw [this]; norm_num
    rw [(hs 5 (by norm_num) (by norm_num)).2, e1]
    have := {po5}
    rw [this]; norm_num
  have h4 : r 4 = {o4} := by
    have e1 : dD rnd xz r 4 = {d4} := by
      unfold dD
      rw [h5]
      have a : rnd ((2 * ((4 : ℕ) : ℝ) + 1) / xz) = {a4} := by
        have := {pa4}
        unfold xz
        push_cast
        rw [this]; norm_num
      rw [a]
      have := {pd4}
      rw [this]; norm_num
    rw [(hs 4 (by norm_num) (by norm_num)).2, e1]
    have := {po4}
    rw [this]; norm_num
  refine (hs 3 (by norm_num) (by norm_num)).1 ?_
  unfold dD
  rw [h4]
  have a : rnd ((2 * ((3 : ℕ) : ℝ) + 1) / xz) = {o4} := by
    have := {azero.replace("y := 7 /", "y := (2 * 3 + 1) /")}
    unfold xz
    push_cast
    rw [this]; norm_num
  rw [a, sub_self, rnd_zero hr]

end FB
end Verif.Props
"""
open('/verif/lean/Verif/Props/FloatBes12.lean', 'w').write(hdr + body + ends.replace("(zcast (", "((").replace("refine ((zstep", "refine (zstep").replace(" hr)).trans", " hr).trans"))
import json
json.dump(tail, open('/tmp/tail.json', 'w'))
print(tail, azero)
