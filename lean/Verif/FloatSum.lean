import Verif.FloatArith
import Verif.CoefsFn
/-!
# Sums of squares in double precision

`power`, `angular_power_spectrum` and `L2_coef` compute `np.sum(np.abs(v) ** 2)` in doubles (spherepy.py 292, 311, 2187).  NumPy does not
fix the order in which `np.sum` adds (it sums blocks of eight pairwise, vectorised), so every order and every bracketing is
allowed here.  `np.abs` of a complex number is C's `hypot`, of which only a relative error of at most one unit in the last
place (`2^-52`) is assumed.
-/
namespace Verif

/-- `s` is a result of summing the non-empty list `l` in doubles, in some order and with some bracketing (`np.sum`, spherepy.py 292, 311, 2187).
(`np.sum` starts some partial sums with `0.0 +`, which changes nothing.) -/
inductive NpSum (rnd : ℝ → ℝ) : List ℝ → ℝ → Prop
  | one (x : ℝ) : NpSum rnd [x] x
  | add {l l' : List ℝ} {s s' : ℝ} : NpSum rnd l s → NpSum rnd l' s' → NpSum rnd (l ++ l') (rnd (s + s'))
  | perm {l l' : List ℝ} {s : ℝ} : l.Perm l' → NpSum rnd l s → NpSum rnd l' s

/-- `np.abs` of a `complex128`: `hypot(re, im)` with an error of at most `2^-52` relative, and 0 at 0 (spherepy.py 292, 311, 2187).  Stated
for values in the range in which nothing overflows or underflows. -/
structure IsHypot (rnd : ℝ → ℝ) (h : FC rnd → ℝ) : Prop where
  zero : h 0 = 0
  close : ∀ z : FC rnd, (2 : ℝ) ^ (-500 : ℤ) ≤ Real.sqrt (z.re ^ 2 + z.im ^ 2) → Real.sqrt (z.re ^ 2 + z.im ^ 2) ≤ 2 ^ (500 : ℤ) →
    |h z - Real.sqrt (z.re ^ 2 + z.im ^ 2)| ≤ 2 ^ (-52 : ℤ) * Real.sqrt (z.re ^ 2 + z.im ^ 2)

/-- `np.abs(v) ** 2`, elementwise: `x ** 2` is one rounded product (spherepy.py 292, 311, 2187). -/
def sqAbs (rnd : ℝ → ℝ) (h : FC rnd → ℝ) (z : FC rnd) : ℝ := rnd (h z * h z)

/-- `s` is a value `c.power()` may return in doubles, spherepy.py 297-311. -/
def FloatPower (rnd : ℝ → ℝ) (h : FC rnd → ℝ) (c : ScalarCoefs (FC rnd)) (s : ℝ) : Prop :=
  NpSum rnd (c.vec.map (sqAbs rnd h)) s

/-- `s` is a value `L2_coef(c)` may return in doubles, spherepy.py 2186-2187 (`np.sqrt` is correctly rounded). -/
def FloatL2 (rnd : ℝ → ℝ) (h : FC rnd → ℝ) (c : ScalarCoefs (FC rnd)) (s : ℝ) : Prop :=
  ∃ p, NpSum rnd (c.vec.map (sqAbs rnd h)) p ∧ s = rnd (Real.sqrt p)

/-- `s` is an array `c.angular_power_spectrum()` may return in doubles, spherepy.py 271-295. -/
def FloatSpectrum (rnd : ℝ → ℝ) (h : FC rnd → ℝ) (c : ScalarCoefs (FC rnd)) (s : List ℝ) : Prop :=
  ∃ lst, c.reshapeM = .ok lst ∧ s.length = lst.length ∧
    ∀ n (h1 : n < s.length) (h2 : n < lst.length), NpSum rnd (lst[n].map (sqAbs rnd h)) s[n]

end Verif
