import Verif.Transforms
/-!
# Plot data (spherepy/plot_sphere.py)

What the plotting routines compute before they call matplotlib: the surface of a pattern, the corners of the bounding
box, the mesh of `pcolor_coefs` and the curves of `plot_coefs`.  matplotlib itself is not modelled; a plot is the data
handed to it.
-/
namespace Verif
open Classical

/-- Elementwise operation on two 2-D arrays with NumPy broadcasting (an axis of length 1 is repeated). -/
def bcast2 (f : ℝ → ℝ → ℝ) (A B : Arr2 ℝ) : Res (Arr2 ℝ) :=
  if (A.rows = B.rows ∨ A.rows = 1 ∨ B.rows = 1) ∧ (A.cols = B.cols ∨ A.cols = 1 ∨ B.cols = 1) then
    .ok (Arr2.ofFn (if A.rows = 1 then B.rows else A.rows) (if A.cols = 1 then B.cols else A.cols) fun i j =>
      f (A.at' (if A.rows = 1 then 0 else i) (if A.cols = 1 then 0 else j))
        (B.at' (if B.rows = 1 then 0 else i) (if B.cols = 1 then 0 else j)))
  else .error ⟨.valueError, "broadcast"⟩

/-- `np.meshgrid(xs, ys)`: the two arrays of shape `(len ys, len xs)` (used at plot_sphere.py 95-96, 140-141, 185-186). -/
def meshgrid {α : Type} [Zero α] (xs ys : List α) : Arr2 α × Arr2 α :=
  (Arr2.ofFn ys.length xs.length fun _ j => rd xs j, Arr2.ofFn ys.length xs.length fun i _ => rd ys i)

/-- `A.min()` of a list of reals: ValueError on an empty array.
    NumPy runtime; plot_sphere.py 89-174. -/
noncomputable def npMin (l : List ℝ) : Res ℝ :=
  match l with
  | [] => .error ⟨.valueError, "zero-size array to reduction operation"⟩
  | x :: xs => .ok (xs.foldl min x)

/-- The data of a 3-D surface plot: the coordinates of the surface points and the corner points of the invisible box.
    plot_sphere.py 89-174. -/
structure SurfacePlot where
  X : Arr2 ℝ
  Y : Arr2 ℝ
  Z : Arr2 ℝ
  corners : List (ℝ × ℝ × ℝ)

/-- `T` with its first column repeated at the end: `v = np.array(T[:, 0]).reshape(-1, 1); T = np.hstack((T, v))`,
plot_sphere.py 98-99, 143-144.  `T[:, 0]` raises IndexError when there are no columns. -/
def closeSeam (T : Arr2 ℝ) : Res (Arr2 ℝ) :=
  if T.cols = 0 then .error ⟨.indexError, "index"⟩
  else .ok (Arr2.ofFn T.rows (T.cols + 1) fun i j => if j < T.cols then T.at' i j else T.at' i 0)

/-- The coordinate arrays, plot_sphere.py 95-103, 140-148: a mesh of `nrows` by `ncols + 1` angles, `T` closed at the seam,
`X = T cos(phi) sin(theta)`, `Y = T sin(phi) sin(theta)`, `Z = T cos(theta)`. -/
noncomputable def surface (T : Arr2 ℝ) (nrows ncols : Nat) : Res (Arr2 ℝ × Arr2 ℝ × Arr2 ℝ) :=
  let (phi, theta) := meshgrid (linspace 0 (2 * Real.pi) (ncols + 1)) (linspace 0 Real.pi nrows)
  (closeSeam T).bind fun T =>
  (bcast2 (· * ·) T (phi.map Real.cos)).bind fun tc =>
  (bcast2 (· * ·) tc (theta.map Real.sin)).bind fun X =>
  (bcast2 (· * ·) T (phi.map Real.sin)).bind fun ts =>
  (bcast2 (· * ·) ts (theta.map Real.sin)).bind fun Y =>
  (bcast2 (· * ·) T (theta.map Real.cos)).bind fun Z =>
  .ok (X, Y, Z)

/-- The eight triples of `np.mgrid[-1:2:2, -1:2:2, -1:2:2]`, flattened: plot_sphere.py 113-118, 160-165. -/
def mgridCube : List (ℝ × ℝ × ℝ) :=
  [(-1, -1, -1), (-1, -1, 1), (-1, 1, -1), (-1, 1, 1), (1, -1, -1), (1, -1, 1), (1, 1, -1), (1, 1, 1)]

/-- Surface and bounding box: plot_sphere.py 93-121 (`plot_mag_on_sphere` after `(nrows, ncols) = T.shape`) and 137-168
(`plot_sphere_mag`). -/
noncomputable def plotSurface (T : Arr2 ℝ) (nrows ncols : Nat) : Res SurfacePlot :=
  (surface T nrows ncols).bind fun (X, Y, Z) =>
  (npMax X.toList).bind fun xM => (npMin X.toList).bind fun xm =>
  (npMax Y.toList).bind fun yM => (npMin Y.toList).bind fun ym =>
  (npMax Z.toList).bind fun zM => (npMin Z.toList).bind fun zm =>
  (npMax [xM - xm, yM - ym, zM - zm]).bind fun r =>
  .ok ⟨X, Y, Z, mgridCube.map fun (g : ℝ × ℝ × ℝ) =>
    (0.5 * r * g.1 + 0.5 * (xM + xm), 0.5 * r * g.2.1 + 0.5 * (yM + ym), 0.5 * r * g.2.2 + 0.5 * (zM + zm))⟩

/-- `matplotlibensure`, plot_sphere.py 62-72: ImportError when matplotlib is missing. -/
def mplEnsure {β : Type} (installed : Bool) (r : Res β) : Res β :=
  if installed = false then .error ⟨.importError, "matplotlib"⟩ else r

/-- `plot_mag_on_sphere(T)`, plot_sphere.py 88-127. -/
noncomputable def plotMagOnSphere (installed : Bool) (T : Arr2 ℝ) : Res SurfacePlot :=
  mplEnsure installed (plotSurface T T.rows T.cols)

/-- `plot_sphere_mag(patt)` for a scalar pattern, plot_sphere.py 129-174 (line 139 divides by `ncols`). -/
noncomputable def plotSphereMagS (installed : Bool) (p : SPatt ℂ) : Res SurfacePlot :=
  mplEnsure installed (p.mag.bind fun T => p.nrows.bind fun nr => p.ncols.bind fun nc =>
    if nc = 0 then .error ⟨.zeroDivisionError, "division by zero"⟩ else plotSurface T nr nc)

/-- `plot_sphere_mag(patt)` for a transverse pattern, plot_sphere.py 129-174 (line 139 divides by `ncols`). -/
noncomputable def plotSphereMagT (installed : Bool) (p : TPatt ℂ) : Res SurfacePlot :=
  mplEnsure installed (
    if p.ncols = 0 then .error ⟨.zeroDivisionError, "division by zero"⟩ else plotSurface p.mag p.nrows p.ncols)

/-- `simple_plot(n, m)`, plot_sphere.py 78-86. -/
noncomputable def simplePlot (installed : Bool) (b : Backend) (n m : Int) : Res SurfacePlot :=
  mplEnsure installed (
    (coefFactory (0 : ℂ) 48 48 0).bind fun
    | .inr _ => .error ⟨.typeError, "scalar expected"⟩
    | .inl c =>
      match (c.setitem [.int n, .int m] (.num 1)).err with
      | some x => .error x
      | none =>
        (ispht b (c.setitem [.int n, .int m] (.num 1)).st (some 100) (some 100)).bind fun p =>
        p.mag.bind fun T => plotMagOnSphere installed T)

/-- The data of `pcolormesh`, plot_sphere.py 175-196: mesh, values, colour range, axis limits. -/
structure MeshPlot where
  x : Arr2 ℝ
  y : Arr2 ℝ
  z : Arr2 ℝ
  vmin : ℝ
  vmax : ℝ
  axis : ℝ × ℝ × ℝ × ℝ

/-- `pcolor_coefs(coefs)` for a scalar set, plot_sphere.py 175-196: `|A|` with a zero row and a zero column appended, on
the mesh `range(-mmax, mmax+2) - 0.5`, `range(0, nmax+2) - 0.5`. -/
noncomputable def pcolorCoefs (installed : Bool) (c : ScalarCoefs ℂ) : Res MeshPlot :=
  mplEnsure installed (
    c.array2d.bind fun A =>
    let z0 := A.map (‖·‖)
    (if (A.cols : Int) = 2 * c.mmax + 1 then Except.ok () else .error ⟨.valueError, "concatenate"⟩).bind fun _ =>
    let z1 := Arr2.ofFn (z0.rows + 1) z0.cols fun i j => if i < z0.rows then z0.at' i j else 0
    (if (z1.rows : Int) = c.nmax + 2 then Except.ok () else .error ⟨.valueError, "concatenate"⟩).bind fun _ =>
    let z := Arr2.ofFn z1.rows (z1.cols + 1) fun i j => if j < z1.cols then z1.at' i j else 0
    (npMin z.toList).bind fun zm => (npMax z.toList).bind fun zM =>
    let (x, y) := meshgrid ((pyRange (-c.mmax) (c.mmax + 2)).map fun (k : Int) => (k : ℝ) - 0.5)
      ((pyRange 0 (c.nmax + 2)).map fun (k : Int) => (k : ℝ) - 0.5)
    (npMin x.toList).bind fun a => (npMax x.toList).bind fun b =>
    (npMin y.toList).bind fun d => (npMax y.toList).bind fun e =>
    .ok ⟨x, y, z, zm, zM, (a, b, d, e)⟩)

/-- `pcolor_coefs(coefs)` for a vector set, plot_sphere.py 175-183: `_array_2d_repr` returns a tuple of two arrays,
`np.abs` stacks them into a 3-D array, and concatenating it with a 2-D array raises ValueError. -/
noncomputable def pcolorVCoefs (installed : Bool) (c : VectorCoefs ℂ) : Res MeshPlot :=
  mplEnsure installed (
    c.scoef1.array2d.bind fun _ => c.scoef2.array2d.bind fun _ => .error ⟨.valueError, "concatenate"⟩)

/-- `plot_coefs(coefs)` for a scalar set, plot_sphere.py 198-218: the curves, one per column of the 2-D representation;
positions without a mode are set to infinity (`⊤`), a zero is appended.  The two assignments of the double loop write
disjoint cells, so the loop is written as one comprehension. -/
noncomputable def plotCoefs (installed : Bool) (c : ScalarCoefs ℂ) : Res (List (List Int × List (WithTop ℝ))) :=
  mplEnsure installed (
    c.array2d.bind fun A =>
    let z := Arr2.ofFn A.rows A.cols fun n k =>
      if (n : Int) ≤ c.nmax ∧ ∃ m : Int, 1 ≤ m ∧ m ≤ c.mmax ∧ m > n ∧ ((k : Int) = m + c.mmax ∨ (k : Int) = -m + c.mmax)
      then (⊤ : WithTop ℝ) else ((‖A.at' n k‖ : ℝ) : WithTop ℝ)
    .ok (tab z.cols fun k => (pyRange 0 (c.nmax + 2), tab z.rows (fun n => z.at' n k) ++ [0])))

/-- `plot_coefs(coefs)` for a vector set, plot_sphere.py 198-209: item assignment on the tuple raises TypeError (without a
cell to assign, the concatenation of the pair with a 2-D array raises ValueError). -/
noncomputable def plotVCoefs (installed : Bool) (c : VectorCoefs ℂ) : Res (List (List Int × List (WithTop ℝ))) :=
  mplEnsure installed (
    c.scoef1.array2d.bind fun _ => c.scoef2.array2d.bind fun _ =>
    if 1 ≤ c.mmax ∧ 0 ≤ c.nmax then .error ⟨.typeError, "tuple item assignment"⟩ else .error ⟨.valueError, "concatenate"⟩)

end Verif
