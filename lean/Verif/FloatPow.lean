import Verif.FloatPyConv
/-!
# `1j ** m` in double precision

The power that `bnm_vec_fc` and `fcvec_m_sc` (pysphi.py 186, 189, 238) take of the imaginary unit, as CPython computes it: repeated products for exponents up to 100 in modulus
(`c_powi`), polar coordinates beyond (`_Py_c_pow`).  The libm functions are parameters.  `hypot(0.0, 1.0)` and `pow(1.0, y)` are taken to be 1, as the C standard requires.
-/
namespace Verif
namespace Fl

/-- What `_Py_c_pow` takes from libm for pysphi.py 186, 189, 238. -/
structure Libm where
  /-- `atan2(1.0, 0.0)` -/
  at2 : ℝ
  cos : ℝ → ℝ
  sin : ℝ → ℝ

noncomputable section
variable (rnd : ℝ → ℝ)

/-- The loop of CPython's `c_powu`, under pysphi.py 186, 189, 238: `while (mask > 0 && n >= mask)`. -/
def powLoop (n mask : ℕ) (r p : FC rnd) : FC rnd :=
  if _h : 0 < mask ∧ mask ≤ n then powLoop n (2 * mask) (if n / mask % 2 = 1 then r * p else r) (p * p) else r
termination_by n + 1 - mask

/-- CPython's `c_powu(x, n)`, under pysphi.py 186, 189, 238. -/
def powU (x : FC rnd) (n : ℕ) : FC rnd := powLoop rnd n 1 1 x

/-- CPython's `c_powi(x, n)`, under pysphi.py 186, 189, 238. -/
def powI (x : FC rnd) (n : Int) : FC rnd := if 0 < n then powU rnd x n.toNat else cpDiv rnd 1 (powU rnd x (-n).toNat)

/-- `1j ** m`, pysphi.py 186, 189, 238. -/
def pow1j (lm : Libm) (m : Int) : FC rnd :=
  if |m| ≤ 100 then powI rnd ⟨0, 1⟩ m
  else
    let phase := rnd (lm.at2 * Fl.ofInt rnd m)
    ⟨rnd (1 * lm.cos phase), rnd (1 * lm.sin phase)⟩

end
end Fl
end Verif
