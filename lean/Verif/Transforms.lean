import Verif.Ops
import Verif.CSphi
import Verif.Pattern
import Verif.CoefsFn
/-!
# The public transforms (spherepy/spherepy.py 1831-2182, 2221-2252)

Exact complex arithmetic.  `/` is Python 3 true division.
-/
namespace Verif

/-- Which low-level routines run: `use_cext` true (with arbitrary `malloc` content for each call) or false
(spherepy.py 66-68 and the tests `if use_cext`). -/
inductive Backend where
  | py
  | c (J : Nat → CJunk)

/-- `csphi.fc_to_sc(fdata, sc, nmax, mmax)` with `sc = np.zeros(NC)`, or `pysphi.fc_to_sc(fdata, nmax, mmax)`:
spherepy.py 1892-1898 (where the Python version ignores the allocated `sc`), 1943-1952. -/
noncomputable def Backend.fcToSc (b : Backend) (call : Nat) (f : Arr2 ℂ) (nmax mmax : Int) : Res (List ℂ) :=
  match b with
  | .py => Verif.fcToSc f nmax mmax
  | .c J => (npFull (ncFormula nmax mmax) (0 : ℂ)).bind fun sc => cFcToSc f.flat f.rows f.cols sc nmax mmax (J call)

/-- `csphi.sc_to_fc(np.zeros([dnrows, ncols]), vec, nmax, mmax)` or `pysphi.sc_to_fc(vec, nmax, mmax, dnrows, ncols)`:
spherepy.py 2066-2074, 2113-2129. -/
noncomputable def Backend.scToFc (b : Backend) (call : Nat) (vec : List ℂ) (nmax mmax dnrows ncols : Int) : Res (Arr2 ℂ) :=
  match b with
  | .py => Verif.scToFc vec nmax mmax dnrows ncols
  | .c J =>
    (npZeros2 dnrows ncols).bind fun z =>
    (cScToFc z.flat z.rows z.cols vec nmax mmax (J call)).bind fun l =>
    .ok (unflat z.rows z.cols l)

/-- The defaults of `spht` and `vspht`, spherepy.py 1861-1865, 1906-1910: if `nmax` is omitted both limits are
computed, even if `mmax` was given. -/
def sphtArgs (nrows ncols : Res Nat) (nmax mmax : Option Int) : Res (Int × Int) :=
  match nmax with
  | none => nrows.bind fun r => ncols.bind fun c => .ok ((r : Int) - 2, ((c / 2 : Nat) : Int) - 1)
  | some n => match mmax with
    | none => .ok (n, n)
    | some m => .ok (n, m)

/-- The argument checks of `spht` and `vspht`, spherepy.py 1867-1878, 1912-1923, up to the even-columns check. -/
def sphtGuards (nrows ncols : Res Nat) (nmax mmax : Int) : Res Unit :=
  if mmax > nmax then .error (raise .valueError "nmax_g_mmax")
  else nrows.bind fun r =>
    if nmax ≥ (r : Int) - 1 then .error (raise .valueError "nmax_too_lrg")
    else ncols.bind fun c =>
      if 2 * mmax ≥ (c : Int) then .error (raise .valueError "mmax_too_lrg")
      else if c % 2 = 1 then .error (raise .valueError "ncols_even")
      else .ok ()

/-- `fft2(ds) / (dnrows*ncols)`, `fix_even_row_data_fc`, `pad_rows_fdata` to `dnrows + 2` rows:
spherepy.py 1880-1886, 1925-1935, 2009-2014. -/
noncomputable def extFourier (ds : Arr2 ℂ) : Res (Arr2 ℂ) :=
  (npFft2 ds).bind fun f =>
  (fixEvenRow (f.map fun x => x / (((ds.rows * ds.cols : Nat) : ℝ) : ℂ))).bind fun f =>
  padRows f (ds.rows + 2)

/-- `spht(ssphere, nmax, mmax)`, spherepy.py 1831-1900. -/
noncomputable def spht (b : Backend) (p : SPatt ℂ) (nmax mmax : Option Int) : Res (ScalarCoefs ℂ) :=
  (sphtArgs p.nrows p.ncols nmax mmax).bind fun (n, m) =>
  (sphtGuards p.nrows p.ncols n m).bind fun _ =>
  p.dsphere.bind fun ds =>
  (extFourier ds).bind fun f =>
  (sinFc f).bind fun f =>
  (npFull (ncFormula n m) (0 : ℂ)).bind fun _ =>
  (b.fcToSc 0 f n m).bind fun sc =>
  ScalarCoefs.init (.arr sc) n m

/-- `spht_slow(ssphere, nmax, mmax)`, spherepy.py 1968-2018. -/
noncomputable def sphtSlow (p : SPatt ℂ) (nmax mmax : Int) : Res (ScalarCoefs ℂ) :=
  if mmax > nmax then .error (raise .valueError "nmax_g_mmax")
  else p.dsphere.bind fun ds =>
    if ds.rows % 2 = 1 ∨ ds.cols % 2 = 1 then .error (raise .valueError "ncols_even")
    else
      (extFourier ds).bind fun f =>
      (sinFc f).bind fun f =>
      (fcToSc f nmax mmax).bind fun sc =>
      ScalarCoefs.init (.arr sc) nmax mmax

/-- `nvec` of `vspht` and `vispht`, spherepy.py 1956-1959, 2100-2102: `[0, 1/sqrt(1*2), 1/sqrt(2*3), ...]`
(`np.zeros(nmax + 1)`, then entries `1..nmax`). -/
noncomputable def nvec (nmax : Int) : Res (List ℂ) :=
  (npFull (nmax + 1) (0 : ℂ)).bind fun v =>
  forM' (pyRange 1 (nmax + 1)) v fun v n => setIdx v n ((1.0 / Real.sqrt ((n : ℝ) * ((n : ℝ) + 1.0)) : ℝ) : ℂ)

/-- `c.window(w)`: the windowed set, or the exception.
    spherepy.py 245-269; called at 1962-1964, 2107-2108. -/
def ScalarCoefs.windowed {α : Type} [Zero α] [Mul α] (c : ScalarCoefs α) (w : List α) : Res (ScalarCoefs α) :=
  let e := c.window w
  match e.err with
  | none => .ok e.st
  | some x => .error x

/-- `vspht(vsphere, nmax, mmax)`, spherepy.py 1902-1966.  `np.copy` before the in-place operators, so both
`sinLdot_fc` calls see the same data. -/
noncomputable def vspht (b : Backend) (p : TPatt ℂ) (nmax mmax : Option Int) : Res (VectorCoefs ℂ) :=
  (sphtArgs (.ok p.nrows) (.ok p.ncols) nmax mmax).bind fun (n, m) =>
  (sphtGuards (.ok p.nrows) (.ok p.ncols) n m).bind fun _ =>
  (extFourier p.td).bind fun ft =>
  (extFourier' p.td p.pd).bind fun pt =>
  (sinLdotFc ft pt).bind fun l1 =>
  (sinLdotFc (pt.map fun x => -Complex.I * x) (ft.map fun x => Complex.I * x)).bind fun l2 =>
  (b.fcToSc 0 l1 n m).bind fun sc1 =>
  (b.fcToSc 1 l2 n m).bind fun sc2 =>
  (VectorCoefs.init (.arr sc1) (.arr sc2) n m).bind fun vc =>
  (nvec n).bind fun w =>
  (vc.scoef1.windowed w).bind fun s1 =>
  (vc.scoef2.windowed w).bind fun s2 =>
  .ok { vc with scoef1 := s1, scoef2 := s2 }
where
  /-- The phi component is normalised and padded with the shape of the theta component; a transverse pattern has
  components of equal shape (`TPatt.init`), otherwise the assignment in `pad_rows_fdata` fails. -/
  extFourier' (td pd : Arr2 ℂ) : Res (Arr2 ℂ) :=
    if td.rows = pd.rows ∧ td.cols = pd.cols then extFourier pd else .error ⟨.valueError, "broadcast"⟩

/-- The argument checks of `ispht`, spherepy.py 2048-2063. -/
def isphtGuards (nmax mmax nrows ncols : Int) : Res Unit :=
  if nrows ≤ nmax then .error (raise .valueError "inverse_terr")
  else if ncols < 2 * mmax + 2 then .error (raise .valueError "inverse_terr")
  else if ncols % 2 = 1 then .error (raise .valueError "ncols_even")
  else .ok ()

/-- `np.fft.ifft2(fdata) * dnrows * ncols`.
    spherepy.py 2077, 2136-2137, 2180. -/
noncomputable def invFourier (f : Arr2 ℂ) (dnrows ncols : Int) : Res (Arr2 ℂ) :=
  (npIfft2 f).bind fun d => .ok (d.map fun x => x * (dnrows : ℂ) * (ncols : ℂ))

/-- `ispht(scoefs, nrows, ncols)`, spherepy.py 2020-2079. -/
noncomputable def ispht (b : Backend) (c : ScalarCoefs ℂ) (nrows ncols : Option Int) : Res (SPatt ℂ) :=
  let nr := nrows.getD (c.nmax + 2)
  let nc := ncols.getD (2 * c.mmax + 2)
  (isphtGuards c.nmax c.mmax nr nc).bind fun _ =>
  let dn := 2 * nr - 2
  (b.scToFc 0 c.vec c.nmax c.mmax dn nc).bind fun f =>
  (invFourier f dn nc).bind fun ds =>
  SPatt.init (.arr ds) true

/-- `ispht_slow(scoefs, nrows, ncols)`, spherepy.py 2141-2182. -/
noncomputable def isphtSlow (c : ScalarCoefs ℂ) (nrows ncols : Int) : Res (SPatt ℂ) :=
  let dn := 2 * nrows - 2
  if ncols % 2 = 1 then .error (raise .valueError "ncols_even")
  else
    (scToFc c.vec c.nmax c.mmax dn ncols).bind fun f =>
    (invFourier f dn ncols).bind fun ds =>
    SPatt.init (.arr ds) true

/-- The argument checks of `vispht`, spherepy.py 2085-2098. -/
def visphtGuards (nmax mmax nrows ncols : Int) : Res Unit :=
  if nrows < nmax + 2 then .error (raise .valueError "inverse_terr")
  else if ncols < 2 * mmax + 2 then .error (raise .valueError "inverse_terr")
  else if ncols % 2 = 1 then .error (raise .valueError "ncols_even")
  else .ok ()

/-- `vispht(vcoefs, nrows, ncols)`, spherepy.py 2081-2139 (the second C call uses the limits of the first set). -/
noncomputable def vispht (b : Backend) (c : VectorCoefs ℂ) (nrows ncols : Option Int) : Res (TPatt ℂ) :=
  let nr := nrows.getD (c.nmax + 2)
  let nc := ncols.getD (2 * c.mmax + 2)
  (visphtGuards c.nmax c.mmax nr nc).bind fun _ =>
  let dn := 2 * nr - 2
  (nvec c.nmax).bind fun w =>
  c.scoef1.copy.bind fun s1 =>
  c.scoef2.copy.bind fun s2 =>
  (s1.windowed w).bind fun s1 =>
  (s2.windowed w).bind fun s2 =>
  (b.scToFc 0 s1.vec s1.nmax s1.mmax dn nc).bind fun f1 =>
  (match b with
    | .py => b.scToFc 1 s2.vec s2.nmax s2.mmax dn nc
    | .c _ => b.scToFc 1 s2.vec s1.nmax s1.mmax dn nc).bind fun f2 =>
  (lFc f1).bind fun l1 =>
  (lFc f2).bind fun l2 =>
  let ftheta := l1.1.zip (fun a b => a - Complex.I * b) l2.2
  let fphi := l1.2.zip (fun a b => a + Complex.I * b) l2.1
  (invFourier ftheta dn nc).bind fun dt =>
  (invFourier fphi dn nc).bind fun dp =>
  TPatt.init (.arr dt) (.arr dp) true

/-- `np.linspace(a, b, num)[i]`: `a + i*(b-a)/(num-1)` (`a` alone when `num = 1`).
    NumPy runtime; spherepy.py 2234-2235. -/
noncomputable def linspace (a b : ℝ) (num : Nat) : List ℝ :=
  tab num fun i => if num = 1 then a else a + i * ((b - a) / ((num : ℝ) - 1))

/-- `sph_harmonic_tp(nrows, ncols, n, m)`, spherepy.py 2221-2252.  `phi` is `np.linspace(0, 2π - 2π/ncols)` with the
default of 50 points.  `(-1) ** m` and `1j ** m` with integer powers. -/
noncomputable def sphHarmonicTp (nrows ncols n m : Int) : Res (Arr2 ℂ) :=
  (ynunm n m (n + 1)).bind fun nuvec =>
  let num := (List.map (fun (y : ℝ) => (y : ℂ) * (-1) ^ m) (getSlice nuvec 1 nuvec.length)).reverse
  let yvec := num ++ List.map (fun (y : ℝ) => (y : ℂ)) nuvec
  if nrows < 0 then .error ⟨.valueError, "Number of samples must be non-negative"⟩
  else if ncols = 0 then .error ⟨.zeroDivisionError, "float division by zero"⟩
  else
    let theta := linspace 0 Real.pi nrows.toNat
    let phi := linspace 0 (2 * Real.pi - 2 * Real.pi / ncols) 50
    let nu := pyRange (-n) (n + 1)
    (npZeros2 nrows ncols).bind fun out =>
    forM' (pyRange 0 nrows) out fun out nn =>
      (getIdx theta nn).bind fun th =>
      let expVec := List.map (fun (v : Int) => Complex.exp (Complex.I * (v : ℂ) * (th : ℂ))) nu
      forM' (pyRange 0 ncols) out fun out mm =>
        (bcast (· * ·) yvec expVec).bind fun prod =>
        (getIdx phi mm).bind fun ph =>
        .ok (Arr2.ofFn out.rows out.cols fun i j =>
          if (i : Int) = nn ∧ (j : Int) = mm then Complex.I ^ m * Complex.exp (Complex.I * (m : ℂ) * (ph : ℂ)) * prod.sum
          else out.at' i j)

end Verif
