import Verif.Coefs
import Mathlib.Analysis.Complex.Norm
/-!
# Functions of coefficient sets: power, norms, magnitudes, factories by type, `pretty_coefs`

`np.abs` of a complex number is `‖·‖`; `np.sqrt` is `Real.sqrt` (exact arithmetic).
-/
namespace Verif

section Power
variable {α R : Type} [Add R] [Zero R] [Pow R Nat]

/-- `ScalarCoefs.angular_power_spectrum`, spherepy.py 271-295: entry `n` sums `np.abs(mode) ** 2` over the
`n`-th list of `_reshape_m_vecs`.  `absf` stands for `np.abs`. -/
def ScalarCoefs.angularPowerSpectrum (absf : α → R) (c : ScalarCoefs α) : Res (List R) :=
  c.reshapeM.bind fun lst => .ok (lst.map (fun mode => (mode.map (fun x => absf x ^ 2)).sum))

/-- `ScalarCoefs.power`, spherepy.py 297-311. -/
def ScalarCoefs.power (absf : α → R) (c : ScalarCoefs α) : R :=
  (c.vec.map (fun x => absf x ^ 2)).sum

end Power

/-- `zeros_coefs` / `ones_coefs` with the type argument: spherepy.py 1404-1421, 1451-1470
(`coef_type` 0 = scalar, 1 = vector, else TypeError; the `mmax > nmax` test comes first). -/
def coefFactory {α : Type} [Zero α] (x : α) (nmax mmax : Int) (coefType : Int) :
    Res (ScalarCoefs α ⊕ VectorCoefs α) :=
  if mmax > nmax then .error (raise .valueError "nmax_g_mmax")
  else if coefType = 0 then (fullCoefs x nmax mmax).bind fun c => .ok (.inl c)
  else if coefType = 1 then (fullVCoefs x nmax mmax).bind fun c => .ok (.inr c)
  else .error (raise .typeError "ukn_coef_t")

/-- `abs(ScalarCoefs)` and `mag(ScalarCoefs)`, spherepy.py 1704-1705, 1726-1727. -/
noncomputable def absSC (c : ScalarCoefs ℂ) : Res (ScalarCoefs ℝ) :=
  ScalarCoefs.init (.arr (c.vec.map (fun x => ‖x‖))) c.nmax c.mmax

/-- `mag2(ScalarCoefs)`, spherepy.py 1712-1713 (as written: `np.abs(sobj._vec)`, no square). -/
noncomputable def mag2SC (c : ScalarCoefs ℂ) : Res (ScalarCoefs ℝ) :=
  ScalarCoefs.init (.arr (c.vec.map (fun x => ‖x‖))) c.nmax c.mmax

/-- `mag2(VectorCoefs)`, spherepy.py 1716-1719. -/
noncomputable def mag2VC (c : VectorCoefs ℂ) : Res (ScalarCoefs ℝ) :=
  (bcast (· + ·) (c.scoef1.vec.map (fun x => ‖x‖ ^ 2)) (c.scoef2.vec.map (fun x => ‖x‖ ^ 2))).bind fun v =>
  ScalarCoefs.init (.arr v) c.nmax c.mmax

/-- `mag(VectorCoefs)`, spherepy.py 1730-1732. -/
noncomputable def magVC (c : VectorCoefs ℂ) : Res (ScalarCoefs ℝ) :=
  (mag2VC c).bind fun d => ScalarCoefs.init (.arr (d.vec.map Real.sqrt)) c.nmax c.mmax

/-- `L2_coef(ScalarCoefs)`, spherepy.py 2186-2187. -/
noncomputable def l2SC (c : ScalarCoefs ℂ) : ℝ := Real.sqrt ((c.vec.map (fun x => ‖x‖ ^ 2)).sum)

/-- `L2_coef(VectorCoefs)`, spherepy.py 2188-2191 (as written: both `l1` and `l2` use `scoef1`). -/
noncomputable def l2VC (c : VectorCoefs ℂ) : ℝ :=
  let l1 := Real.sqrt ((c.scoef1.vec.map (fun x => ‖x‖ ^ 2)).sum)
  let l2 := Real.sqrt ((c.scoef1.vec.map (fun x => ‖x‖ ^ 2)).sum)
  Real.sqrt (l1 ^ 2 + l2 ^ 2)

/-- `compare_relative`, spherepy.py 1736-1739: numerator and denominator (the division is left out:
for a zero denominator NumPy gives nan/inf, which is not modelled). -/
noncomputable def compareRelative (c d : ScalarCoefs ℂ) : Res (ℝ × ℝ) :=
  (bcast (· - ·) c.vec d.vec).bind fun v =>
  .ok ((v.map (fun x => ‖x‖)).sum, (c.vec.map (fun x => ‖x‖)).sum)

/-- The list `sa` of nine cells of `pretty_coefs`, spherepy.py 1816-1824. `rep` is `_tiny_rep`, `center`
is `str.center(13)`. -/
def prettyCells {α : Type} [Zero α] (rep : α → String) (center : String → String) (c : ScalarCoefs α) :
    Res (List String) :=
  (c.trunc 2).bind fun cfit =>
  let sa := cfit.vec.map rep
  let sa := sa ++ List.replicate (9 - sa.length) ""
  .ok ((sa.take 9).map center)

/-- The three printed rows of cells (`pretty_display_string`, spherepy.py 122-131, filled in at
1826-1828): the row of `n = 2` first, each row from the most negative `m`. -/
def prettyCoefs {α : Type} [Zero α] (rep : α → String) (center : String → String) (c : ScalarCoefs α) :
    Res (List (List String)) :=
  (prettyCells rep center c).bind fun sa =>
  let g := fun i => sa.getD i ""
  .ok [[g 7, g 4, g 2, g 6, g 8], [g 3, g 1, g 5], [g 0]]

end Verif
