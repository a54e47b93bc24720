import Verif.NanC
import Verif.FloatVec
/-!
# Not-a-number through the vector transforms

`TransversePatternUniform(tcoef, pcoef)`, `vspht`, `vispht` (spherepy.py) with the operators of ops.py 104-180 and `window`, in IEEE arithmetic with infinities, NaN and signed
zeros (`IE`), for both sets of routines.  The finite factors (frequencies, `1/sqrt(n(n+1))`) are converted with `IE.lit`.  `2 * 1j` is `2j`.  NumPy's FFTs are parameters.
-/
namespace Verif
namespace NX

noncomputable section
variable (rnd : ℝ → ℝ)

/-- The complex constant `1j`.  spherepy.py 1942, 2133-2134; ops.py 137, 157, 168, 180. -/
def im1 : CX := (.zero false, .fin 1)

/-- The complex constant `-1j` (`complex(-0.0, -1.0)`).  spherepy.py 1942; ops.py 180. -/
def negIm1 : CX := (.zero true, .fin (-1))

/-- `TransversePatternUniform(tcoef, pcoef)`: `continue_sphere(., -1)` of both components, spherepy.py 1173-1183, 1741-1748. -/
def ofSamplesT (t p : Arr2 CX) : Res (TPatt CX) :=
  if ¬ (t.rows = p.rows ∧ t.cols = p.cols) then .error (raise .valueError "shape_tc_pc")
  else
    (npFull2 ((t.rows : Int) - 2) t.cols (0 : CX)).bind fun zt =>
    (npFull2 ((p.rows : Int) - 2) p.cols (0 : CX)).bind fun zp =>
    .ok ⟨doubleSphere rnd (vcat t zt) (-1), doubleSphere rnd (vcat p zp) (-1)⟩

/-- One pass of the loop of `divsin_fc`, ops.py 116-117. -/
def divsinStep (f g : Arr2 CX) (k : Int) : Arr2 CX :=
  g.setRow (Arr2.wrap g.rows (k - 1)) fun j =>
    IE.cadd rnd (IE.cmul rnd (.zero false, .fin 2) (f.at' (Arr2.wrap f.rows k) j)) (g.at' (Arr2.wrap g.rows (k + 1)) j)

/-- `divsin_fc`, ops.py 104-119. -/
def divsinFc (f : Arr2 CX) : Res (Arr2 CX) :=
  if f.rows < 2 then rowIndexError
  else
    let L : Int := f.rows / 2
    let L2 := L - 2
    let g := Arr2.ofFn f.rows f.cols fun _ _ => (0 : CX)
    let g := g.setRow (Arr2.wrap g.rows L2) fun j => IE.cmul rnd (.zero false, .fin 2) (f.at' (Arr2.wrap f.rows (L - 1)) j)
    .ok ((pyRangeNeg L2 (-L2) 1).foldl (divsinStep rnd f) g)

/-- `dtheta_fc`, ops.py 121-137. -/
def dthetaFc (f : Arr2 CX) : Res (Arr2 CX) :=
  if f.rows % 2 = 1 ∧ 0 < f.cols then .error ⟨.valueError, "broadcast"⟩
  else .ok (Arr2.ofFn f.rows f.cols fun i j => IE.cmul rnd (IE.cmul rnd im1 (IE.lit (freqList f.rows i : ℤ), .zero false)) (f.at' i j))

/-- `dphi_fc`, ops.py 140-157. -/
def dphiFc (f : Arr2 CX) : Res (Arr2 CX) :=
  if f.cols % 2 = 1 ∧ 0 < f.rows then .error ⟨.valueError, "broadcast"⟩
  else .ok (Arr2.ofFn f.rows f.cols fun i j => IE.cmul rnd (IE.cmul rnd im1 (IE.lit (freqList f.cols j : ℤ), .zero false)) (f.at' i j))

/-- `sinLdot_fc(tfdata, pfdata)`, ops.py 159-168. -/
def sinLdotFc (t p : Arr2 CX) : Res (Arr2 CX) :=
  (dphiFc rnd t).bind fun t =>
  (sinFc rnd p).bind fun p =>
  (dthetaFc rnd p).bind fun p =>
  .ok (t.zip (fun a b => IE.cmul rnd im1 (csub rnd a b)) p)

/-- `L_fc(fdata)`, ops.py 170-180. -/
def lFc (f : Arr2 CX) : Res (Arr2 CX × Arr2 CX) :=
  (dphiFc rnd f).bind fun a =>
  (divsinFc rnd a).bind fun a =>
  (dthetaFc rnd f).bind fun b =>
  .ok (a.map (IE.cmul rnd im1), b.map (IE.cmul rnd negIm1))

/-- The vector `1/sqrt(n(n+1))`, spherepy.py 1958-1961, 2103-2105. -/
def nvec (nmax : Int) : Res (List CX) := (Fl.nvec rnd nmax).bind fun w => .ok (w.map litC)

/-- `c.window(w)`, spherepy.py 245-269, with IEEE complex multiplication. -/
def windowed (c : ScalarCoefs CX) (w : List CX) : Res (ScalarCoefs CX) :=
  @ScalarCoefs.windowed CX _ ⟨IE.cmul rnd⟩ c w

/-- The extended Fourier array of one component in `vspht`, spherepy.py 1927-1937. -/
def extFourier (np : FftX) (ds : Arr2 CX) : Res (Arr2 CX) :=
  (np.fft2 ds).bind fun f =>
  (fixEvenRow f).bind fun f =>
  padRows f (ds.rows + 2)

/-- `vspht(vsphere, nmax, mmax)`, spherepy.py 1902-1966, for a pattern whose components have the same shape; `ana 0` and `ana 1` are the two calls of
`fc_to_sc` (lines 1950-1954). -/
def vspht (np : FftX) (ana : Nat → Arr2 CX → Int → Int → Res (List CX)) (p : TPatt CX) (nmax mmax : Option Int) : Res (VectorCoefs CX) :=
  (sphtArgs (.ok p.nrows) (.ok p.ncols) nmax mmax).bind fun (n, m) =>
  (sphtGuards (.ok p.nrows) (.ok p.ncols) n m).bind fun _ =>
  (extFourier np p.td).bind fun ft =>
  (if p.td.rows = p.pd.rows ∧ p.td.cols = p.pd.cols then extFourier np p.pd else .error ⟨.valueError, "broadcast"⟩).bind fun pt =>
  (sinLdotFc rnd ft pt).bind fun l1 =>
  (sinLdotFc rnd (pt.map (IE.cmul rnd negIm1)) (ft.map (IE.cmul rnd im1))).bind fun l2 =>
  (ana 0 l1 n m).bind fun sc1 =>
  (ana 1 l2 n m).bind fun sc2 =>
  (VectorCoefs.init (.arr sc1) (.arr sc2) n m).bind fun vc =>
  (nvec rnd n).bind fun w =>
  (windowed rnd vc.scoef1 w).bind fun s1 =>
  (windowed rnd vc.scoef2 w).bind fun s2 =>
  .ok { vc with scoef1 := s1, scoef2 := s2 }

/-- `vispht(vcoefs, nrows, ncols)`, spherepy.py 2081-2139; `syn 0` and `syn 1` are the two calls of `sc_to_fc` (lines 2113-2128). -/
def vispht (np : FftX) (syn : Nat → List CX → Int → Int → Int → Int → Res (Arr2 CX)) (c : VectorCoefs CX) (nrows ncols : Option Int) : Res (TPatt CX) :=
  let nr := nrows.getD (c.nmax + 2)
  let nc := ncols.getD (2 * c.mmax + 2)
  (visphtGuards c.nmax c.mmax nr nc).bind fun _ =>
  let dn := 2 * nr - 2
  (nvec rnd c.nmax).bind fun w =>
  c.scoef1.copy.bind fun s1 =>
  c.scoef2.copy.bind fun s2 =>
  (windowed rnd s1 w).bind fun s1 =>
  (windowed rnd s2 w).bind fun s2 =>
  (syn 0 s1.vec s1.nmax s1.mmax dn nc).bind fun f1 =>
  (syn 1 s2.vec s2.nmax s2.mmax dn nc).bind fun f2 =>
  (lFc rnd f1).bind fun l1 =>
  (lFc rnd f2).bind fun l2 =>
  let ftheta := l1.1.zip (fun a b => csub rnd a (IE.cmul rnd im1 b)) l2.2
  let fphi := l1.2.zip (fun a b => IE.cadd rnd a (IE.cmul rnd im1 b)) l2.1
  (np.ifft2 ftheta dn nc).bind fun dt =>
  (np.ifft2 fphi dn nc).bind fun dp =>
  if ¬ (dt.rows = dp.rows ∧ dt.cols = dp.cols) then .error (raise .valueError "shape_tc_pc") else .ok ⟨dt, dp⟩

/-- `vspht` with the Python routines, spherepy.py 1953-1954. -/
def vsphtPy (np : FftX) := vspht rnd np fun _ => fcToSc rnd np

/-- `vspht` with the compiled extension, spherepy.py 1946-1951; `J i` is what the fresh memory of the i-th call holds. -/
def vsphtC (np : FftX) (lm : Fl.LibM) (J : Nat → JunkX) := vspht rnd np fun i => kExtFcToSc rnd lm (J i)

/-- `vispht` with the Python routines, spherepy.py 2121-2128. -/
def visphtPy (np : FftX) := vispht rnd np fun _ => scToFc rnd np

/-- `csphi.sc_to_fc` on `fdata = np.zeros([dnrows, ncols])`, spherepy.py 2114-2119. -/
def cExtScToFc (J : JunkX) (vec : List CX) (nmax mmax dn nc : Int) : Res (Arr2 CX) :=
  (npZeros2 dn nc).bind fun z =>
  (cScToFc rnd z.flat z.rows z.cols vec nmax mmax J).bind fun l =>
  .ok (unflat z.rows z.cols l)

/-- `vispht` with the compiled extension, spherepy.py 2113-2119.  The second call passes the limits of the first set; both sets of a vector set have the
same limits (`VectorCoefs.init`). -/
def visphtC (np : FftX) (J : Nat → JunkX) := vispht rnd np fun i => cExtScToFc rnd (J i)

end
end NX
end Verif
