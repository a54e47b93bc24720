import Verif.FloatSum
import Verif.CoefsFn
/-!
# Norms and comparisons in double precision

`L2_coef`, `L2_patt`, `LInf_coef`, `LInf_patt` and `compare_relative` (spherepy.py 1736-1739, 2184-2218) on `complex128` arrays.  As in
`FloatSum.lean`, `np.sum` may add in any order, `np.abs` is C's `hypot`.  `l1 ** 2` on a NumPy scalar calls C's `pow`, of which an
error of at most one unit in the last place is assumed; `np.sqrt` and `/` are correctly rounded.
-/
namespace Verif

/-- What C's `hypot` guarantees besides accuracy: the result is not below either component (spherepy.py 1737-1738, 2204-2217). -/
structure IsHypotGe (rnd : ℝ → ℝ) (h : FC rnd → ℝ) : Prop extends IsHypot rnd h where
  ge : ∀ z : FC rnd, IsDouble z.re → IsDouble z.im → |z.re| ≤ 2 ^ 1000 → |z.im| ≤ 2 ^ 1000 → |z.re| ≤ h z ∧ |z.im| ≤ h z

/-- `x ** 2` of a NumPy scalar: C's `pow(x, 2.0)`, at most `2^-52` off relative where nothing overflows or underflows, and 0 at 0
(spherepy.py 2191, 2200, 2209, 2218). -/
structure IsSquare (sq : ℝ → ℝ) : Prop where
  zero : sq 0 = 0
  close : ∀ x : ℝ, (2 : ℝ) ^ (-510 : ℤ) ≤ x → x ≤ 2 ^ (510 : ℤ) → |sq x - x ^ 2| ≤ 2 ^ (-52 : ℤ) * x ^ 2

/-- `s` is a value `np.sqrt(np.sum(np.abs(a) ** 2))` may have in doubles, `a` any array with these entries (spherepy.py 2187-2199). -/
def FloatL2List (rnd : ℝ → ℝ) (h : FC rnd → ℝ) (l : List (FC rnd)) (s : ℝ) : Prop :=
  ∃ p, NpSum rnd (l.map (sqAbs rnd h)) p ∧ s = rnd (Real.sqrt p)

/-- `np.sqrt(l1 ** 2 + l2 ** 2)` in doubles (spherepy.py 2191, 2200, 2209, 2218). -/
noncomputable def floatComb (rnd sq : ℝ → ℝ) (l1 l2 : ℝ) : ℝ := rnd (Real.sqrt (rnd (sq l1 + sq l2)))

/-- `s` is a value `L2_patt(p)` may return in doubles for a scalar pattern, spherepy.py 2193-2196. -/
def FloatL2Patt (rnd : ℝ → ℝ) (h : FC rnd → ℝ) (p : SPatt (FC rnd)) (s : ℝ) : Prop :=
  ∃ A, p.dsphere = .ok A ∧ FloatL2List rnd h A.toList s

/-- The same for a transverse pattern, spherepy.py 2197-2200. -/
def FloatL2TPatt (rnd sq : ℝ → ℝ) (h : FC rnd → ℝ) (p : TPatt (FC rnd)) (s : ℝ) : Prop :=
  ∃ l1 l2, FloatL2List rnd h p.td.toList l1 ∧ FloatL2List rnd h p.pd.toList l2 ∧ s = floatComb rnd sq l1 l2

/-- `s` is a value `L2_coef(c)` may return in doubles for a vector set, spherepy.py 2188-2191 (as written: both read `scoef1`). -/
def FloatL2VC (rnd sq : ℝ → ℝ) (h : FC rnd → ℝ) (c : VectorCoefs (FC rnd)) (s : ℝ) : Prop :=
  ∃ l1 l2, FloatL2List rnd h c.scoef1.vec l1 ∧ FloatL2List rnd h c.scoef1.vec l2 ∧ s = floatComb rnd sq l1 l2

/-- `LInf_coef` (scalar) in doubles, spherepy.py 2202-2205 (`np.max` does not round). -/
noncomputable def floatLInfSC {rnd : ℝ → ℝ} (h : FC rnd → ℝ) (c : ScalarCoefs (FC rnd)) : Res ℝ := npMax (c.vec.map h)

/-- `LInf_coef` (vector) in doubles, spherepy.py 2206-2209. -/
noncomputable def floatLInfVC {rnd : ℝ → ℝ} (sq : ℝ → ℝ) (h : FC rnd → ℝ) (c : VectorCoefs (FC rnd)) : Res ℝ :=
  (npMax (c.scoef1.vec.map h)).bind fun a => (npMax (c.scoef2.vec.map h)).bind fun b => .ok (floatComb rnd sq a b)

/-- `LInf_patt` (scalar) in doubles, spherepy.py 2211-2214. -/
noncomputable def floatLInfPatt {rnd : ℝ → ℝ} (h : FC rnd → ℝ) (p : SPatt (FC rnd)) : Res ℝ := p.dsphere.bind fun A => npMax (A.toList.map h)

/-- `LInf_patt` (transverse) in doubles, spherepy.py 2215-2218. -/
noncomputable def floatLInfTPatt {rnd : ℝ → ℝ} (sq : ℝ → ℝ) (h : FC rnd → ℝ) (p : TPatt (FC rnd)) : Res ℝ :=
  (npMax (p.td.toList.map h)).bind fun a => (npMax (p.pd.toList.map h)).bind fun b => .ok (floatComb rnd sq a b)

/-- `q` is a value `compare_relative(c, d)` may return in doubles when the denominator is not 0, spherepy.py 1736-1739. -/
def FloatCompare (rnd : ℝ → ℝ) (h : FC rnd → ℝ) (c d : ScalarCoefs (FC rnd)) (q : ℝ) : Prop :=
  ∃ v num den, bcast (· - ·) c.vec d.vec = .ok v ∧ NpSum rnd (v.map h) num ∧ NpSum rnd (c.vec.map h) den ∧ den ≠ 0 ∧ q = rnd (num / den)

end Verif
