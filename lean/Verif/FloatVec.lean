import Verif.FloatAnal
/-!
# The vector operators in double precision

`divsin_fc`, `dtheta_fc`, `dphi_fc`, `sinLdot_fc` and `L_fc` (ops.py 104-180), the last part of `vispht` (spherepy.py 2130-2139) and `vspht`
(spherepy.py 1902-1966), with every operation rounded.  `2 * 1j`, `1j * dphi` and so on are NumPy products of complex128 values (`FC`); the
integers of the frequency lists are converted to complex128 when they are stored.
-/
namespace Verif
namespace Fl

noncomputable section
variable (rnd : ℝ → ℝ)

/-- One pass of the loop of `divsin_fc`, ops.py 116-117, in doubles. -/
def divsinStep (f g : Arr2 (FC rnd)) (k : Int) : Arr2 (FC rnd) :=
  g.setRow (Arr2.wrap g.rows (k - 1)) fun j =>
    (2 : FC rnd) * ⟨0, 1⟩ * f.at' (Arr2.wrap f.rows k) j + g.at' (Arr2.wrap g.rows (k + 1)) j

/-- `divsin_fc`, ops.py 104-119, in doubles. -/
def divsinFc (f : Arr2 (FC rnd)) : Res (Arr2 (FC rnd)) :=
  if f.rows < 2 then rowIndexError
  else
    let L : Int := f.rows / 2
    let L2 := L - 2
    let g := Arr2.ofFn f.rows f.cols fun _ _ => (0 : FC rnd)
    let g := g.setRow (Arr2.wrap g.rows L2) fun j => (2 : FC rnd) * ⟨0, 1⟩ * f.at' (Arr2.wrap f.rows (L - 1)) j
    .ok ((pyRangeNeg L2 (-L2) 1).foldl (Fl.divsinStep rnd f) g)

/-- `dtheta_fc`, ops.py 121-137, in doubles. -/
def dthetaFc (f : Arr2 (FC rnd)) : Res (Arr2 (FC rnd)) :=
  if f.rows % 2 = 1 ∧ 0 < f.cols then .error ⟨.valueError, "broadcast"⟩
  else .ok (Arr2.ofFn f.rows f.cols fun i j => (⟨0, 1⟩ : FC rnd) * ⟨ofInt rnd (freqList f.rows i), 0⟩ * f.at' i j)

/-- `dphi_fc`, ops.py 140-157, in doubles. -/
def dphiFc (f : Arr2 (FC rnd)) : Res (Arr2 (FC rnd)) :=
  if f.cols % 2 = 1 ∧ 0 < f.rows then .error ⟨.valueError, "broadcast"⟩
  else .ok (Arr2.ofFn f.rows f.cols fun i j => (⟨0, 1⟩ : FC rnd) * ⟨ofInt rnd (freqList f.cols j), 0⟩ * f.at' i j)

/-- `sinLdot_fc(tfdata, pfdata)`, ops.py 159-168, in doubles. -/
def sinLdotFc (t p : Arr2 (FC rnd)) : Res (Arr2 (FC rnd)) :=
  (Fl.dphiFc rnd t).bind fun t =>
  (Fl.sinFc rnd p).bind fun p =>
  (Fl.dthetaFc rnd p).bind fun p =>
  .ok (t.zip (fun a b => (⟨0, 1⟩ : FC rnd) * (a - b)) p)

/-- `L_fc(fdata)`, ops.py 170-180, in doubles (`-1j` is `complex(-0.0, -1.0)`; the sign of zero is not represented). -/
def lFc (f : Arr2 (FC rnd)) : Res (Arr2 (FC rnd) × Arr2 (FC rnd)) :=
  (Fl.dphiFc rnd f).bind fun a =>
  (Fl.divsinFc rnd a).bind fun a =>
  (Fl.dthetaFc rnd f).bind fun b =>
  .ok (a.map (fun x => (⟨0, 1⟩ : FC rnd) * x), b.map (fun x => (⟨0, -1⟩ : FC rnd) * x))

/-- The last part of `vispht`, spherepy.py 2130-2139, in doubles; `inv` is `np.fft.ifft2(f) * dnrows * ncols` (2136-2137). -/
def visphtPost (inv : Arr2 (FC rnd) → Int → Int → Res (Arr2 (FC rnd))) (f1 f2 : Arr2 (FC rnd)) (dn nc : Int) : Res (TPatt (FC rnd)) :=
  (Fl.lFc rnd f1).bind fun l1 =>
  (Fl.lFc rnd f2).bind fun l2 =>
  let ftheta := l1.1.zip (fun a b => a - (⟨0, 1⟩ : FC rnd) * b) l2.2
  let fphi := l1.2.zip (fun a b => a + (⟨0, 1⟩ : FC rnd) * b) l2.1
  (inv ftheta dn nc).bind fun dt =>
  (inv fphi dn nc).bind fun dp =>
  TPatt.init (.arr dt) (.arr dp) true

/-- The extended Fourier array of one component in `vspht`, spherepy.py 1929-1939, in doubles. -/
def extFourier (lib : NumLib rnd) (ds : Arr2 (FC rnd)) : Res (Arr2 (FC rnd)) :=
  (lib.fft ds).bind fun f =>
  (fixEvenRow f).bind fun f =>
  padRows f (ds.rows + 2)

/-- `vspht(vsphere, nmax, mmax)`, spherepy.py 1902-1966, in doubles, for a pattern whose components have the same shape (`TPatt.init` makes no other). -/
def vspht (lib : NumLib rnd) (b : Backend) (p : TPatt (FC rnd)) (nmax mmax : Option Int) : Res (VectorCoefs (FC rnd)) :=
  (sphtArgs (.ok p.nrows) (.ok p.ncols) nmax mmax).bind fun (n, m) =>
  (sphtGuards (.ok p.nrows) (.ok p.ncols) n m).bind fun _ =>
  (Fl.extFourier rnd lib p.td).bind fun ft =>
  (if p.td.rows = p.pd.rows ∧ p.td.cols = p.pd.cols then Fl.extFourier rnd lib p.pd else .error ⟨.valueError, "broadcast"⟩).bind fun pt =>
  (Fl.sinLdotFc rnd ft pt).bind fun l1 =>
  (Fl.sinLdotFc rnd (pt.map fun x => (⟨0, -1⟩ : FC rnd) * x) (ft.map fun x => (⟨0, 1⟩ : FC rnd) * x)).bind fun l2 =>
  (Fl.backendFcToSc rnd lib b 0 l1 n m).bind fun sc1 =>
  (Fl.backendFcToSc rnd lib b 1 l2 n m).bind fun sc2 =>
  (VectorCoefs.init (.arr sc1) (.arr sc2) n m).bind fun vc =>
  (Fl.nvec rnd n).bind fun w =>
  (vc.scoef1.windowed w).bind fun s1 =>
  (vc.scoef2.windowed w).bind fun s2 =>
  .ok { vc with scoef1 := s1, scoef2 := s2 }

end
end Fl
end Verif
