import Verif.Plot
import Verif.Props.Norms
import Verif.Props.Coefs2
import Verif.Props.Transforms
/-!
# C62-C64: the data of the plots
-/
namespace Verif.Props
open Verif Classical

/-- Polar angle of grid row `i` of `nr` rows (the poles are the first and the last row). -/
noncomputable def gridTheta (nr i : ℕ) : ℝ := Real.pi * i / ((nr : ℝ) - 1)
/-- Azimuth of grid column `j` of `nc` columns. -/
noncomputable def gridPhi (nc j : ℕ) : ℝ := 2 * Real.pi * j / nc

theorem mem_toList {α : Type} [Zero α] {A : Arr2 α} {x : α} : x ∈ A.toList ↔ ∃ i j, i < A.rows ∧ j < A.cols ∧ A.at' i j = x := by
  unfold Arr2.toList
  simp only [List.mem_flatMap, List.mem_range, List.mem_map]
  constructor
  · rintro ⟨i, hi, j, hj, e⟩; exact ⟨i, j, hi, hj, e⟩
  · rintro ⟨i, j, hi, hj, e⟩; exact ⟨i, hi, j, hj, e⟩

theorem npMin_spec {l : List ℝ} (h : l ≠ []) : ∃ v, npMin l = .ok v ∧ v ∈ l ∧ ∀ x ∈ l, v ≤ x := by
  cases l with
  | nil => exact absurd rfl h
  | cons x xs =>
    refine ⟨_, rfl, ?_⟩
    have key : ∀ (xs : List ℝ) (x : ℝ), xs.foldl min x ∈ x :: xs ∧ ∀ y ∈ x :: xs, xs.foldl min x ≤ y := by
      intro xs
      induction xs with
      | nil => intro x; simp
      | cons a as ih =>
        intro x
        obtain ⟨h1, h2⟩ := ih (min x a)
        rw [List.foldl_cons]
        constructor
        · rcases List.mem_cons.1 h1 with h1 | h1
          · rw [h1]
            rcases min_choice x a with e | e <;> rw [e] <;> simp
          · exact List.mem_cons_of_mem _ (List.mem_cons_of_mem _ h1)
        · intro y hy
          have h3 := h2 (min x a) (List.mem_cons_self ..)
          rcases List.mem_cons.1 hy with rfl | hy
          · exact h3.trans (min_le_left _ _)
          · rcases List.mem_cons.1 hy with rfl | hy
            · exact h3.trans (min_le_right _ _)
            · exact h2 y (List.mem_cons_of_mem _ hy)
    exact key xs x

theorem arr_range {A : Arr2 ℝ} (hr : 0 < A.rows) (hc : 0 < A.cols) :
    ∃ M m, npMax A.toList = .ok M ∧ npMin A.toList = .ok m ∧ (∃ i j, i < A.rows ∧ j < A.cols ∧ A.at' i j = M) ∧
      (∃ i j, i < A.rows ∧ j < A.cols ∧ A.at' i j = m) ∧
      ∀ i j, i < A.rows → j < A.cols → m ≤ A.at' i j ∧ A.at' i j ≤ M := by
  have hne : A.toList ≠ [] := List.ne_nil_of_mem (mem_toList.2 ⟨0, 0, hr, hc, rfl⟩)
  obtain ⟨M, e1, h1, h1'⟩ := npMax_spec hne
  obtain ⟨m, e2, h2, h2'⟩ := npMin_spec hne
  exact ⟨M, m, e1, e2, mem_toList.1 h1, mem_toList.1 h2, fun i j hi hj =>
    ⟨h2' _ (mem_toList.2 ⟨i, j, hi, hj, rfl⟩), h1' _ (mem_toList.2 ⟨i, j, hi, hj, rfl⟩)⟩⟩

theorem bcast2_same (f : ℝ → ℝ → ℝ) (A B : Arr2 ℝ) (hr : B.rows = A.rows) (hc : B.cols = A.cols) :
    ∃ C, bcast2 f A B = .ok C ∧ C.rows = A.rows ∧ C.cols = A.cols ∧
      ∀ i j, i < A.rows → j < A.cols → C.at' i j = f (A.at' i j) (B.at' i j) := by
  unfold bcast2
  rw [if_pos ⟨.inl hr.symm, .inl hc.symm⟩]
  have h1 : (if A.rows = 1 then B.rows else A.rows) = A.rows := by split <;> omega
  have h2 : (if A.cols = 1 then B.cols else A.cols) = A.cols := by split <;> omega
  refine ⟨_, rfl, h1, h2, fun i j hi hj => ?_⟩
  rw [Arr2.at'_ofFn (by omega) (by omega)]
  have a1 : (if A.rows = 1 then 0 else i) = i := by split <;> omega
  have a2 : (if A.cols = 1 then 0 else j) = j := by split <;> omega
  rw [hr, hc, a1, a2]

theorem rd_linspace (a b : ℝ) (num i : ℕ) (h : i < num) :
    rd (linspace a b num) i = if num = 1 then a else a + i * ((b - a) / ((num : ℝ) - 1)) := by
  unfold linspace
  rw [rd_tab h]

theorem length_linspace (a b : ℝ) (num : ℕ) : (linspace a b num).length = num := by simp [linspace]

theorem theta_lin (r i : ℕ) (h : i < r) : rd (linspace 0 Real.pi r) i = gridTheta r i := by
  rw [rd_linspace _ _ _ _ h]
  unfold gridTheta
  split
  · have : i = 0 := by omega
    subst this; simp
  · ring

theorem phi_lin (c j : ℕ) (h0 : 0 < c) (h : j < c + 1) : rd (linspace 0 (2 * Real.pi) (c + 1)) j = gridPhi c j := by
  rw [rd_linspace _ _ _ _ h, if_neg (by omega)]
  unfold gridPhi
  push_cast
  rw [show ((c : ℝ) + 1 - 1) = c by ring]
  ring

/-- The coordinates of the surface. -/
theorem surface_eq (T : Arr2 ℝ) (hc : 0 < T.cols) :
    ∃ X Y Z, surface T T.rows T.cols = .ok (X, Y, Z) ∧ (X.rows = T.rows ∧ X.cols = T.cols + 1) ∧
      (Y.rows = T.rows ∧ Y.cols = T.cols + 1) ∧ (Z.rows = T.rows ∧ Z.cols = T.cols + 1) ∧
      ∀ i j, i < T.rows → j ≤ T.cols →
        X.at' i j = T.at' i (j % T.cols) * Real.cos (gridPhi T.cols j) * Real.sin (gridTheta T.rows i) ∧
        Y.at' i j = T.at' i (j % T.cols) * Real.sin (gridPhi T.cols j) * Real.sin (gridTheta T.rows i) ∧
        Z.at' i j = T.at' i (j % T.cols) * Real.cos (gridTheta T.rows i) := by
  obtain ⟨S, eS, hSr, hSc, hS⟩ : ∃ S, closeSeam T = .ok S ∧ S.rows = T.rows ∧ S.cols = T.cols + 1 ∧
      ∀ i j, i < T.rows → j < T.cols + 1 → S.at' i j = T.at' i (j % T.cols) := by
    unfold closeSeam
    rw [if_neg (by omega)]
    refine ⟨_, rfl, rfl, rfl, fun i j hi hj => ?_⟩
    rw [Arr2.at'_ofFn hi hj]
    split
    · rw [Nat.mod_eq_of_lt (by assumption)]
    · have : j = T.cols := by omega
      rw [this, Nat.mod_self]
  set P : Arr2 ℝ := (meshgrid (linspace 0 (2 * Real.pi) (T.cols + 1)) (linspace 0 Real.pi T.rows)).1 with hP
  set Q : Arr2 ℝ := (meshgrid (linspace 0 (2 * Real.pi) (T.cols + 1)) (linspace 0 Real.pi T.rows)).2 with hQ
  have hPr : P.rows = T.rows := length_linspace ..
  have hPc : P.cols = T.cols + 1 := length_linspace ..
  have hQr : Q.rows = T.rows := length_linspace ..
  have hQc : Q.cols = T.cols + 1 := length_linspace ..
  have hPv : ∀ i j, i < T.rows → j < T.cols + 1 → P.at' i j = gridPhi T.cols j := by
    intro i j hi hj
    rw [hP]; unfold meshgrid
    rw [Arr2.at'_ofFn (by rw [length_linspace]; exact hi) (by rw [length_linspace]; exact hj), phi_lin _ _ hc hj]
  have hQv : ∀ i j, i < T.rows → j < T.cols + 1 → Q.at' i j = gridTheta T.rows i := by
    intro i j hi hj
    rw [hQ]; unfold meshgrid
    rw [Arr2.at'_ofFn (by rw [length_linspace]; exact hi) (by rw [length_linspace]; exact hj), theta_lin _ _ hi]
  obtain ⟨tc, e1, r1, c1, v1⟩ := bcast2_same (· * ·) S (P.map Real.cos) (by simp; omega) (by simp; omega)
  obtain ⟨X, e2, r2, c2, v2⟩ := bcast2_same (· * ·) tc (Q.map Real.sin) (by simp; omega) (by simp; omega)
  obtain ⟨ts, e3, r3, c3, v3⟩ := bcast2_same (· * ·) S (P.map Real.sin) (by simp; omega) (by simp; omega)
  obtain ⟨Y, e4, r4, c4, v4⟩ := bcast2_same (· * ·) ts (Q.map Real.sin) (by simp; omega) (by simp; omega)
  obtain ⟨Z, e5, r5, c5, v5⟩ := bcast2_same (· * ·) S (Q.map Real.cos) (by simp; omega) (by simp; omega)
  refine ⟨X, Y, Z, ?_, ⟨by omega, by omega⟩, ⟨by omega, by omega⟩, ⟨by omega, by omega⟩, fun i j hi hj => ?_⟩
  · unfold surface
    show (closeSeam T).bind _ = _
    rw [eS, Except.bind_ok]
    show (bcast2 _ S (P.map Real.cos)).bind _ = _
    rw [e1, Except.bind_ok]
    show (bcast2 _ tc (Q.map Real.sin)).bind _ = _
    rw [e2, Except.bind_ok]
    show (bcast2 _ S (P.map Real.sin)).bind _ = _
    rw [e3, Except.bind_ok]
    show (bcast2 _ ts (Q.map Real.sin)).bind _ = _
    rw [e4, Except.bind_ok]
    show (bcast2 _ S (Q.map Real.cos)).bind _ = _
    rw [e5, Except.bind_ok]
  · have hj' : j < T.cols + 1 := by omega
    rw [v2 i j (by omega) (by omega), v1 i j (by omega) (by omega), v4 i j (by omega) (by omega),
      v3 i j (by omega) (by omega), v5 i j (by omega) (by omega), hS i j hi hj',
      Arr2.at'_map _ _ (by omega) (by omega), Arr2.at'_map _ _ (by omega) (by omega), Arr2.at'_map _ _ (by omega) (by omega),
      Arr2.at'_map _ _ (by omega) (by omega), hPv i j hi hj', hQv i j hi hj']
    exact ⟨rfl, rfl, rfl⟩

/-- The statement of C62 about a plot of the magnitudes `T` (`nr` rows, `nc` columns): the surface has one point per grid
position plus one closing column, the point at `(i, j)` lies in the direction of the grid point at distance `T[i, j]` from the
origin, the closing column coincides with the first, and the eight corner points are the corners of a cube that contains
the surface. -/
def ShowsMagnitude (s : SurfacePlot) (nr nc : ℕ) (T : ℕ → ℕ → ℝ) : Prop :=
  (s.X.rows = nr ∧ s.X.cols = nc + 1) ∧ (s.Y.rows = nr ∧ s.Y.cols = nc + 1) ∧ (s.Z.rows = nr ∧ s.Z.cols = nc + 1) ∧
  (∀ i j, i < nr → j < nc →
    s.X.at' i j = T i j * (Real.cos (gridPhi nc j) * Real.sin (gridTheta nr i)) ∧
    s.Y.at' i j = T i j * (Real.sin (gridPhi nc j) * Real.sin (gridTheta nr i)) ∧
    s.Z.at' i j = T i j * Real.cos (gridTheta nr i)) ∧
  (∀ i, i < nr → s.X.at' i nc = s.X.at' i 0 ∧ s.Y.at' i nc = s.Y.at' i 0 ∧ s.Z.at' i nc = s.Z.at' i 0) ∧
  ∃ x y z h : ℝ, 0 ≤ h ∧ s.corners.length = 8 ∧
    (∀ q, q ∈ s.corners ↔ (q.1 = x - h ∨ q.1 = x + h) ∧ (q.2.1 = y - h ∨ q.2.1 = y + h) ∧ (q.2.2 = z - h ∨ q.2.2 = z + h)) ∧
    ∀ i j, i < nr → j ≤ nc → |s.X.at' i j - x| ≤ h ∧ |s.Y.at' i j - y| ≤ h ∧ |s.Z.at' i j - z| ≤ h

theorem cube8 (a a' b b' c c' : Prop) :
    (a ∧ b ∧ c ∨ a ∧ b ∧ c' ∨ a ∧ b' ∧ c ∨ a ∧ b' ∧ c' ∨ a' ∧ b ∧ c ∨ a' ∧ b ∧ c' ∨ a' ∧ b' ∧ c ∨ a' ∧ b' ∧ c') ↔
      (a ∨ a') ∧ (b ∨ b') ∧ (c ∨ c') := by
  by_cases ha : a <;> by_cases ha' : a' <;> by_cases hb : b <;> by_cases hb' : b' <;> by_cases hc : c <;>
    by_cases hc' : c' <;> simp [ha, ha', hb, hb', hc, hc']

theorem plotSurface_shows (T : Arr2 ℝ) (hr : 0 < T.rows) (hc : 0 < T.cols) :
    ∃ s, plotSurface T T.rows T.cols = .ok s ∧ ShowsMagnitude s T.rows T.cols T.at' := by
  obtain ⟨X, Y, Z, e, ⟨xr, xc⟩, ⟨yr, yc⟩, ⟨zr, zc⟩, hv⟩ := surface_eq T hc
  obtain ⟨xM, xm, x1, x2, ⟨xi, xj, xh, xh', xe⟩, -, x3⟩ := arr_range (A := X) (by omega) (by omega)
  obtain ⟨yM, ym, y1, y2, ⟨yi, yj, yh, yh', ye⟩, -, y3⟩ := arr_range (A := Y) (by omega) (by omega)
  obtain ⟨zM, zm, z1, z2, ⟨zi, zj, zh, zh', ze⟩, -, z3⟩ := arr_range (A := Z) (by omega) (by omega)
  obtain ⟨r, er, -, hr3⟩ := npMax_spec (l := [xM - xm, yM - ym, zM - zm]) (by simp)
  have hx := hr3 (xM - xm) (by simp)
  have hy := hr3 (yM - ym) (by simp)
  have hz := hr3 (zM - zm) (by simp)
  have hpos : 0 ≤ r := by
    have := (x3 xi xj xh xh')
    linarith
  refine ⟨⟨X, Y, Z, mgridCube.map fun (g : ℝ × ℝ × ℝ) =>
      (0.5 * r * g.1 + 0.5 * (xM + xm), 0.5 * r * g.2.1 + 0.5 * (yM + ym), 0.5 * r * g.2.2 + 0.5 * (zM + zm))⟩, ?_, ⟨xr, xc⟩, ⟨yr, yc⟩, ⟨zr, zc⟩, fun i j hi hj => ?_, fun i hi => ?_,
    (xM + xm) / 2, (yM + ym) / 2, (zM + zm) / 2, r / 2, by linarith, ?_, ?_, fun i j hi hj => ?_⟩
  · unfold plotSurface
    rw [e, Except.bind_ok]
    simp only [x1, x2, y1, y2, z1, z2, er, Except.bind_ok]
  · obtain ⟨a, b, c⟩ := hv i j hi hj.le
    simp only
    rw [a, b, c, Nat.mod_eq_of_lt hj]
    exact ⟨by ring, by ring, rfl⟩
  · obtain ⟨a, b, c⟩ := hv i T.cols hi le_rfl
    obtain ⟨a', b', c'⟩ := hv i 0 hi (Nat.zero_le _)
    have hcr : (T.cols : ℝ) ≠ 0 := by exact_mod_cast hc.ne'
    have p1 : gridPhi T.cols T.cols = 2 * Real.pi := by unfold gridPhi; field_simp
    have p0 : gridPhi T.cols 0 = 0 := by unfold gridPhi; simp
    simp only
    rw [a, b, c, a', b', c', Nat.mod_self, Nat.zero_mod, p1, p0, Real.cos_two_pi, Real.sin_two_pi, Real.cos_zero, Real.sin_zero]
    exact ⟨rfl, rfl, rfl⟩
  · simp [mgridCube]
  · intro q
    obtain ⟨q1, q2, q3⟩ := q
    have h5 : (0.5 : ℝ) = 1 / 2 := by norm_num
    have nx : 0.5 * r * (-1) + 0.5 * (xM + xm) = (xM + xm) / 2 - r / 2 := by rw [h5]; ring
    have ny : 0.5 * r * (-1) + 0.5 * (yM + ym) = (yM + ym) / 2 - r / 2 := by rw [h5]; ring
    have nz : 0.5 * r * (-1) + 0.5 * (zM + zm) = (zM + zm) / 2 - r / 2 := by rw [h5]; ring
    have px : 0.5 * r * 1 + 0.5 * (xM + xm) = (xM + xm) / 2 + r / 2 := by rw [h5]; ring
    have py : 0.5 * r * 1 + 0.5 * (yM + ym) = (yM + ym) / 2 + r / 2 := by rw [h5]; ring
    have pz : 0.5 * r * 1 + 0.5 * (zM + zm) = (zM + zm) / 2 + r / 2 := by rw [h5]; ring
    simp only [mgridCube, List.map_cons, List.map_nil, nx, ny, nz, px, py, pz, List.mem_cons, Prod.mk.injEq, List.not_mem_nil,
      or_false]
    exact cube8 _ _ _ _ _ _
  · have a := x3 i j (by omega) (by omega)
    have b := y3 i j (by omega) (by omega)
    have c := z3 i j (by omega) (by omega)
    simp only
    refine ⟨abs_le.2 ⟨?_, ?_⟩, abs_le.2 ⟨?_, ?_⟩, abs_le.2 ⟨?_, ?_⟩⟩ <;> linarith

/-- **C62**, magnitudes.  `plot_mag_on_sphere(T)` shows `T` on the sphere, for every array with at least one row and one
column of either sign. -/
theorem c62_mag_on_sphere (T : Arr2 ℝ) (hr : 0 < T.rows) (hc : 0 < T.cols) :
    ∃ s, plotMagOnSphere true T = .ok s ∧ ShowsMagnitude s T.rows T.cols T.at' := by
  obtain ⟨s, e, h⟩ := plotSurface_shows T hr hc
  exact ⟨s, by unfold plotMagOnSphere mplEnsure; rw [if_neg (by simp), e], h⟩

/-- **C62**, scalar patterns.  `plot_sphere_mag(p)` shows the magnitude of the pattern's samples. -/
theorem c62_scalar (D : Arr2 ℂ) (hr : 0 < D.rows) (hc : 0 < D.cols) (A : Arr2 ℂ) (hA : (SPatt.mk (.arr D)).array = .ok A) :
    ∃ s, plotSphereMagS true ⟨.arr D⟩ = .ok s ∧ ShowsMagnitude s A.rows A.cols (fun i j => ‖A.at' i j‖) := by
  have eA : A = D.takeRows (D.rows / 2 + 1) := by
    cases hA; rfl
  have ar : A.rows = D.rows / 2 + 1 := by
    rw [eA]; show min _ _ = _; omega
  have ac : A.cols = D.cols := by rw [eA]; rfl
  obtain ⟨s, e, h⟩ := plotSurface_shows (A.map (‖·‖)) (by rw [Arr2.rows_map, ar]; omega) (by rw [Arr2.cols_map, ac]; omega)
  refine ⟨s, ?_, ?_⟩
  · unfold plotSphereMagS mplEnsure SPatt.mag
    rw [if_neg (by simp), hA]
    show (if D.cols = 0 then _ else plotSurface (A.map (‖·‖)) (D.rows / 2 + 1) D.cols) = _
    rw [if_neg (by omega), ← e, Arr2.rows_map, Arr2.cols_map, ar, ac]
  · obtain ⟨h1, h2, h3, h4, h5⟩ := h
    refine ⟨h1, h2, h3, fun i j hi hj => ?_, h5⟩
    have := h4 i j hi hj
    rwa [Arr2.at'_map _ _ hi hj] at this

/-- **C62**, transverse patterns.  `plot_sphere_mag(P)` shows `sqrt(|theta|^2 + |phi|^2)`. -/
theorem c62_transverse (P : TPatt ℂ) (hr : 0 < P.td.rows) (hc : 0 < P.td.cols) (hpr : P.pd.rows = P.td.rows)
    (hpc : P.pd.cols = P.td.cols) :
    ∃ s, plotSphereMagT true P = .ok s ∧ ShowsMagnitude s P.theta.rows P.theta.cols
      (fun i j => Real.sqrt (‖P.theta.at' i j‖ ^ 2 + ‖P.phi.at' i j‖ ^ 2)) := by
  have ar : P.mag.rows = P.td.rows / 2 + 1 := by
    show min (P.td.rows / 2 + 1) P.td.rows = _; omega
  have ac : P.mag.cols = P.td.cols := rfl
  obtain ⟨s, e, h⟩ := plotSurface_shows P.mag (by omega) (by omega)
  refine ⟨s, ?_, ?_⟩
  · unfold plotSphereMagT mplEnsure
    rw [if_neg (by simp), if_neg (show ¬ P.ncols = 0 by show ¬ P.td.cols = 0; omega), ← e, ar, ac]
    rfl
  · obtain ⟨h1, h2, h3, h4, h5⟩ := h
    refine ⟨h1, h2, h3, fun i j hi hj => ?_, h5⟩
    have h6 := h4 i j hi hj
    have h7 : P.mag.at' i j = Real.sqrt (‖P.theta.at' i j‖ ^ 2 + ‖P.phi.at' i j‖ ^ 2) := by
      show (P.mag2.map Real.sqrt).at' i j = _
      rw [Arr2.at'_map Real.sqrt P.mag2 hi hj]
      unfold TPatt.mag2
      rw [Arr2.at'_zip _ _ _ hi hj]
    rw [h7] at h6
    exact h6

/-- Without matplotlib every plotting routine raises ImportError and does nothing else. -/
theorem c62_import_error (T : Arr2 ℝ) (p : SPatt ℂ) (P : TPatt ℂ) (b : Backend) (n m : ℤ) (c : ScalarCoefs ℂ) (v : VectorCoefs ℂ) :
    (plotMagOnSphere false T).Raises .importError ∧ (plotSphereMagS false p).Raises .importError ∧
    (plotSphereMagT false P).Raises .importError ∧ (simplePlot false b n m).Raises .importError ∧
    (pcolorCoefs false c).Raises .importError ∧ (pcolorVCoefs false v).Raises .importError ∧
    (plotCoefs false c).Raises .importError ∧ (plotVCoefs false v).Raises .importError :=
  ⟨⟨_, rfl⟩, ⟨_, rfl⟩, ⟨_, rfl⟩, ⟨_, rfl⟩, ⟨_, rfl⟩, ⟨_, rfl⟩, ⟨_, rfl⟩, ⟨_, rfl⟩⟩

/-- **C62**, single harmonics.  `simple_plot(n, m)` shows `|Y_nm|` on the 100 by 100 grid for every mode of degree at most
48, and raises AttributeError for any other `n, m`. -/
theorem c62_simple_plot (b : Backend) (n m : ℤ) :
    (IsMode 48 48 n m → ∃ s, simplePlot true b n m = .ok s ∧
      ShowsMagnitude s 100 100 (fun i j => ‖sphY n.toNat m (gridTheta 100 i) (gridPhi 100 j)‖)) ∧
    (¬ IsMode 48 48 n m → (simplePlot true b n m).Raises .attributeError) := by
  obtain ⟨c, ec, hc, hn, hm, hv⟩ := c04_factory_scalar (0 : ℂ) 48 48 (by norm_num) (by norm_num)
  unfold simplePlot mplEnsure
  rw [if_neg (by simp), ec]
  simp only [Except.bind_ok]
  constructor
  · intro h
    have h' : IsMode c.nmax c.mmax n m := by rw [hn, hm]; exact h
    have hmap := ScalarCoefs.absMap_setNM hc.wf h' (1 : ℂ)
    rw [setitem_nm, ScalarCoefs.setNM_eq hc.wf h'] at *
    simp only at hmap ⊢
    set d : ScalarCoefs ℂ := { c with vec := c.vec.set (slot c.nmax n m) 1 } with hd
    have hdn : d.nmax = 48 := hn
    have hdm : d.mmax = 48 := hm
    have hw : d.WellFormed := ⟨hc.1, hc.2, by rw [hd]; simpa using hc.3⟩
    have hco : HasCoefs d (fun a b => if a = n ∧ b = m then 1 else 0) := by
      intro a b hab
      rw [readMap_eq hw.wf, hmap a b]
      by_cases hh : a = n ∧ b = m
      · simp only [if_pos hh]
      · simp only [if_neg hh]
        rw [← readMap_eq hc.wf]
        have hab' : IsMode c.nmax c.mmax a b := hab
        rw [hn, hm] at hab'
        exact hv a b hab'
    obtain ⟨p, A, ep, eA, hAr, hAc, hA⟩ := c30_ispht b d hw _ hco 100 100 (by rw [hdn]; norm_num) (by rw [hdm]; norm_num) (by norm_num)
    have hAr' : A.rows = 100 := by exact_mod_cast hAr
    have hAc' : A.cols = 100 := by exact_mod_cast hAc
    obtain ⟨s, es, hs⟩ := c62_mag_on_sphere (A.map (‖·‖)) (by rw [Arr2.rows_map]; omega) (by rw [Arr2.cols_map]; omega)
    refine ⟨s, ?_, ?_⟩
    · rw [ep, Except.bind_ok]
      unfold SPatt.mag
      rw [eA]
      exact es
    · rw [Arr2.rows_map, Arr2.cols_map, hAr', hAc'] at hs
      obtain ⟨h1, h2, h3, h4, h5⟩ := hs
      refine ⟨h1, h2, h3, fun i j hi hj => ?_, h5⟩
      have e : (A.map (‖·‖)).at' i j = ‖sphY n.toNat m (gridTheta 100 i) (gridPhi 100 j)‖ := by
        rw [Arr2.at'_map _ _ (by omega) (by omega), hA i j (by omega) (by omega)]
        unfold shSeries
        rw [Finset.sum_eq_single (n, m)]
        · unfold gridTheta gridPhi
          simp
        · rintro ⟨a, b'⟩ _ hne
          have hne' : ¬ (a = n ∧ b' = m) := by simpa using hne
          simp only [if_neg hne', zero_mul]
        · intro hnm
          exact absurd (mem_modes.2 h') hnm
      have := h4 i j hi hj
      rwa [e] at this
  · intro h
    obtain ⟨msg, e⟩ := (c03_write c hc n m (1 : ℂ)).2 (by rw [hn, hm]; exact h)
    rw [e]
    exact ⟨msg, rfl⟩

/-- Non-vacuity: `(48, -48)` is a mode, `(49, 0)` is not; a 2 by 3 array can be plotted. -/
example : IsMode 48 48 48 (-48) ∧ ¬ IsMode 48 48 49 0 := by decide
example : ∃ s, plotMagOnSphere true (Arr2.ofFn 2 3 fun i j => (i : ℝ) - j) = .ok s :=
  (c62_mag_on_sphere _ (by simp) (by simp)).imp fun _ h => h.1

/-! ## C63: `pcolor_coefs` -/

theorem pyRange_length (a b : ℤ) : (pyRange a b).length = (b - a).toNat := by simp [pyRange]

theorem rd_range_half (a b : ℤ) (k : ℕ) (h : k < (b - a).toNat) :
    rd ((pyRange a b).map fun (k : Int) => (k : ℝ) - 0.5) k = (a : ℝ) + k - 1 / 2 := by
  unfold rd pyRange
  rw [List.getD_eq_getElem?_getD]
  simp only [List.map_map, List.getElem?_map, List.getElem?_range h, Option.map_some, Option.getD_some, Function.comp]
  push_cast
  norm_num

/-- **C63**.  `pcolor_coefs(c)` draws the cell with corners `(m ± 1/2, n ± 1/2)` with the magnitude of `c[n, m]`, for every
`0 ≤ n ≤ nmax`, `|m| ≤ mmax` (0 where there is no mode); the colour range is `[0, max |c[n, m]|]`, and the axes end at the
outermost cells. -/
theorem c63_pcolor (c : ScalarCoefs ℂ) (hc : c.WellFormed) :
    ∃ q, pcolorCoefs true c = .ok q ∧
      (q.x.rows = c.nmax + 2 ∧ q.x.cols = 2 * c.mmax + 2) ∧ (q.y.rows = c.nmax + 2 ∧ q.y.cols = 2 * c.mmax + 2) ∧
      (q.z.rows = c.nmax + 2 ∧ q.z.cols = 2 * c.mmax + 2) ∧
      (∀ i j : ℕ, i ≤ c.nmax + 1 → j ≤ 2 * c.mmax + 1 →
        q.x.at' i j = (j : ℝ) - c.mmax - 1 / 2 ∧ q.y.at' i j = (i : ℝ) - 1 / 2 ∧
        q.z.at' i j = if i ≤ c.nmax ∧ j ≤ 2 * c.mmax then ‖(readMap c i (j - c.mmax)).getD 0‖ else 0) ∧
      q.vmin = 0 ∧ linfSC c = .ok q.vmax ∧
      q.axis = (-(c.mmax : ℝ) - 1 / 2, (c.mmax : ℝ) + 1 / 2, -1 / 2, (c.nmax : ℝ) + 1 / 2) := by
  have h0 := hc.1
  have h1 := hc.2
  obtain ⟨A, eA, hr, hcc, hv⟩ := c14_array2d c hc
  set z0 := A.map (‖·‖) with hz0
  set z1 : Arr2 ℝ := Arr2.ofFn (z0.rows + 1) z0.cols fun i j => if i < z0.rows then z0.at' i j else 0 with hz1
  set z : Arr2 ℝ := Arr2.ofFn z1.rows (z1.cols + 1) fun i j => if j < z1.cols then z1.at' i j else 0 with hz
  have r0 : z0.rows = A.rows := rfl
  have c0 : z0.cols = A.cols := rfl
  have r1 : z1.rows = A.rows + 1 := rfl
  have c1 : z1.cols = A.cols := rfl
  have rz : z.rows = A.rows + 1 := rfl
  have cz : z.cols = A.cols + 1 := rfl
  have zv : ∀ i j : ℕ, i ≤ c.nmax + 1 → j ≤ 2 * c.mmax + 1 →
      z.at' i j = if i ≤ c.nmax ∧ j ≤ 2 * c.mmax then ‖(readMap c i (j - c.mmax)).getD 0‖ else 0 := by
    intro i j hi hj
    rw [hz, Arr2.at'_ofFn (by omega) (by omega)]
    by_cases hjc : j < z1.cols
    · rw [if_pos hjc, hz1, Arr2.at'_ofFn (by omega) (by omega)]
      by_cases hir : i < z0.rows
      · rw [if_pos hir, if_pos ⟨by omega, by omega⟩, hz0, Arr2.at'_map _ _ (by omega) (by omega)]
        have := hv i (j - c.mmax) (by omega) (by omega) (by omega) (by omega)
        rw [show ((i : ℤ)).toNat = i by simp, show (c.mmax + ((j : ℤ) - c.mmax)).toNat = j by omega] at this
        rw [this]
      · rw [if_neg hir, if_neg (by omega)]
    · rw [if_neg hjc, if_neg (by omega)]
  set xs : List ℝ := (pyRange (-c.mmax) (c.mmax + 2)).map fun (k : Int) => (k : ℝ) - 0.5 with hxs
  set ys : List ℝ := (pyRange 0 (c.nmax + 2)).map fun (k : Int) => (k : ℝ) - 0.5 with hys
  have lx : xs.length = A.cols + 1 := by rw [hxs, List.length_map, pyRange_length]; omega
  have ly : ys.length = A.rows + 1 := by rw [hys, List.length_map, pyRange_length]; omega
  set X : Arr2 ℝ := (meshgrid xs ys).1 with hX
  set Y : Arr2 ℝ := (meshgrid xs ys).2 with hY
  have Xr : X.rows = A.rows + 1 := ly
  have Xc : X.cols = A.cols + 1 := lx
  have Yr : Y.rows = A.rows + 1 := ly
  have Yc : Y.cols = A.cols + 1 := lx
  have Xv : ∀ i j : ℕ, i ≤ c.nmax + 1 → j ≤ 2 * c.mmax + 1 → X.at' i j = (j : ℝ) - c.mmax - 1 / 2 := by
    intro i j hi hj
    rw [hX]; unfold meshgrid
    rw [Arr2.at'_ofFn (by omega) (by omega), hxs, rd_range_half _ _ _ (by omega)]
    push_cast; ring
  have Yv : ∀ i j : ℕ, i ≤ c.nmax + 1 → j ≤ 2 * c.mmax + 1 → Y.at' i j = (i : ℝ) - 1 / 2 := by
    intro i j hi hj
    rw [hY]; unfold meshgrid
    rw [Arr2.at'_ofFn (by omega) (by omega), hys, rd_range_half _ _ _ (by omega)]
    push_cast; ring
  obtain ⟨zM, zm, ez1, ez2, ⟨i1, j1, a1, b1, e1⟩, ⟨i2, j2, a2, b2, e2⟩, hzr⟩ := arr_range (A := z) (by omega) (by omega)
  obtain ⟨xM, xm, ex1, ex2, ⟨i3, j3, a3, b3, e3⟩, ⟨i4, j4, a4, b4, e4⟩, hxr⟩ := arr_range (A := X) (by omega) (by omega)
  obtain ⟨yM, ym, ey1, ey2, ⟨i5, j5, a5, b5, e5⟩, ⟨i6, j6, a6, b6, e6⟩, hyr⟩ := arr_range (A := Y) (by omega) (by omega)
  obtain ⟨v, ev, ⟨n, m, x, hnm, hx, hvx⟩, hvle⟩ := c55_linf_scalar c hc
  have hmm := isMode_iff.1 hnm
  have e0 : zm = 0 := by
    have := (hzr A.rows A.cols (by omega) (by omega)).1
    rw [zv A.rows A.cols (by omega) (by omega), if_neg (by omega)] at this
    refine le_antisymm this ?_
    rw [← e2, zv i2 j2 (by omega) (by omega)]
    split
    · exact norm_nonneg _
    · exact le_rfl
  have e00 : zM = v := by
    apply le_antisymm
    · rw [← e1, zv i1 j1 (by omega) (by omega)]
      have hv0 : 0 ≤ v := by rw [hvx]; exact norm_nonneg _
      split
      · cases hq : readMap c i1 (j1 - c.mmax) with
        | none => simpa using hv0
        | some y =>
          by_cases hmo : IsMode c.nmax c.mmax i1 (j1 - c.mmax)
          · exact hvle _ _ y hmo hq
          · rw [readMap_eq hc.wf] at hq
            unfold ScalarCoefs.absMap at hq
            rw [if_neg hmo] at hq
            cases hq
      · exact hv0
    · have := (hzr n.toNat (m + c.mmax).toNat (by omega) (by omega)).2
      rw [zv _ _ (by omega) (by omega), if_pos ⟨by omega, by omega⟩, show ((n.toNat : ℕ) : ℤ) = n by omega,
        show (((m + c.mmax).toNat : ℕ) : ℤ) - c.mmax = m by omega, hx] at this
      rw [hvx]; exact this
  have hcr : (A.cols : ℝ) = 2 * c.mmax + 1 := by exact_mod_cast hcc
  have hrr : (A.rows : ℝ) = c.nmax + 1 := by exact_mod_cast hr
  have cast_le : ∀ {a b : ℕ}, a < b + 1 → (a : ℝ) ≤ b := fun h => by exact_mod_cast Nat.lt_succ_iff.1 h
  have ex : xm = -(c.mmax : ℝ) - 1 / 2 ∧ xM = (c.mmax : ℝ) + 1 / 2 := by
    have p := (hxr 0 0 (by omega) (by omega)).1
    have q := (hxr 0 A.cols (by omega) (by omega)).2
    rw [Xv _ _ (by omega) (by omega)] at p q e3 e4
    rw [hcr] at q
    have : (j3 : ℝ) ≤ A.cols := cast_le (by omega)
    have h4 : (0 : ℝ) ≤ j4 := Nat.cast_nonneg _
    push_cast at p
    constructor <;> linarith
  have ey : ym = -1 / 2 ∧ yM = (c.nmax : ℝ) + 1 / 2 := by
    have p := (hyr 0 0 (by omega) (by omega)).1
    have q := (hyr A.rows 0 (by omega) (by omega)).2
    rw [Yv _ _ (by omega) (by omega)] at p q e5 e6
    rw [hrr] at q
    have : (i5 : ℝ) ≤ A.rows := cast_le (by omega)
    have h4 : (0 : ℝ) ≤ i6 := Nat.cast_nonneg _
    push_cast at p
    constructor <;> linarith
  refine ⟨⟨X, Y, z, zm, zM, (xm, xM, ym, yM)⟩, ?_, ⟨?_, ?_⟩, ⟨?_, ?_⟩, ⟨?_, ?_⟩,
    fun i j hi hj => ⟨Xv i j hi hj, Yv i j hi hj, zv i j hi hj⟩, e0, by rw [ev, e00], ?_⟩
  · unfold pcolorCoefs mplEnsure
    rw [if_neg (by simp), eA, Except.bind_ok]
    simp only [hcc, if_true, Except.bind_ok]
    rw [if_pos (show ((z1.rows : ℕ) : ℤ) = c.nmax + 2 by rw [r1]; push_cast; omega), Except.bind_ok]
    show (npMin z.toList).bind _ = _
    rw [ez2, Except.bind_ok, ez1, Except.bind_ok]
    show (npMin X.toList).bind _ = _
    rw [ex2, Except.bind_ok, ex1, Except.bind_ok]
    show (npMin Y.toList).bind _ = _
    rw [ey2, Except.bind_ok, ey1, Except.bind_ok]
  · show ((X.rows : ℕ) : ℤ) = _; omega
  · show ((X.cols : ℕ) : ℤ) = _; omega
  · show ((Y.rows : ℕ) : ℤ) = _; omega
  · show ((Y.cols : ℕ) : ℤ) = _; omega
  · show ((z.rows : ℕ) : ℤ) = _; omega
  · show ((z.cols : ℕ) : ℤ) = _; omega
  · simp only [ex.1, ex.2, ey.1, ey.2]

/-! ## C64: `plot_coefs` -/

/-- **C64**.  `plot_coefs(c)` draws one curve per order `m`, `-mmax ≤ m ≤ mmax`, over the abscissae `0, ..., nmax + 1`: at
`n ≤ nmax` its value is `|c[n, m]|` where `(n, m)` is a mode and infinite (not drawn) where it is not, and it ends with 0. -/
theorem c64_plot_coefs (c : ScalarCoefs ℂ) (hc : c.WellFormed) :
    ∃ curves, plotCoefs true c = .ok curves ∧ (curves.length : ℤ) = 2 * c.mmax + 1 ∧
      ∀ m : ℤ, -c.mmax ≤ m → m ≤ c.mmax → ∃ ys, curves[(c.mmax + m).toNat]? = some (pyRange 0 (c.nmax + 2), ys) ∧
        (ys.length : ℤ) = c.nmax + 2 ∧ ys[(c.nmax + 1).toNat]? = some 0 ∧
        ∀ n : ℤ, 0 ≤ n → n ≤ c.nmax →
          (IsMode c.nmax c.mmax n m → ∃ x, readMap c n m = some x ∧ ys[n.toNat]? = some ((‖x‖ : ℝ) : WithTop ℝ)) ∧
          (¬ IsMode c.nmax c.mmax n m → ys[n.toNat]? = some ⊤) := by
  have h0 := hc.1
  have h1 := hc.2
  obtain ⟨A, eA, hr, hcc, hv⟩ := c14_array2d c hc
  set z : Arr2 (WithTop ℝ) := Arr2.ofFn A.rows A.cols fun n k =>
      if (n : Int) ≤ c.nmax ∧ ∃ m : Int, 1 ≤ m ∧ m ≤ c.mmax ∧ m > n ∧ ((k : Int) = m + c.mmax ∨ (k : Int) = -m + c.mmax)
      then (⊤ : WithTop ℝ) else ((‖A.at' n k‖ : ℝ) : WithTop ℝ) with hz
  have zr : z.rows = A.rows := rfl
  have zc : z.cols = A.cols := rfl
  refine ⟨tab z.cols fun k => (pyRange 0 (c.nmax + 2), tab z.rows (fun n => z.at' n k) ++ [0]), ?_, by simp [zc, hcc],
    fun m hm hm' => ⟨tab z.rows (fun n => z.at' n (c.mmax + m).toNat) ++ [0], ?_, ?_, ?_, fun n hn hn' => ?_⟩⟩
  · unfold plotCoefs mplEnsure
    rw [if_neg (by simp), eA, Except.bind_ok]
  · unfold tab
    rw [List.getElem?_map, List.getElem?_range (by omega)]
    rfl
  · simp; omega
  · rw [List.getElem?_append_right (by simp; omega)]
    rw [length_tab, show (c.nmax + 1).toNat - z.rows = 0 by omega]; rfl
  · have hnr : n.toNat < A.rows := by omega
    have hk : (c.mmax + m).toNat < A.cols := by omega
    rw [List.getElem?_append_left (by rw [length_tab]; omega)]
    unfold tab
    rw [List.getElem?_map, List.getElem?_range (by omega), Option.map_some, hz, Arr2.at'_ofFn hnr hk]
    have hat := hv n m hn hn' hm hm'
    constructor
    · intro hmo
      have h2 := isMode_iff.1 hmo
      rw [readMap_eq hc.wf, ScalarCoefs.absMap_mode hc.wf hmo] at hat
      rw [readMap_eq hc.wf, ScalarCoefs.absMap_mode hc.wf hmo]
      refine ⟨_, rfl, ?_⟩
      rw [if_neg ?_, hat]
      · rfl
      · rintro ⟨-, k, k1, k2, k3, k4⟩
        omega
    · intro hmo
      have h2 : ¬ (n ≥ 0 ∧ n ≤ c.nmax ∧ m.natAbs ≤ n ∧ (m.natAbs : ℤ) ≤ c.mmax) := fun h => hmo (isMode_iff.2 (by omega))
      rw [if_pos]
      exact ⟨by omega, m.natAbs, by omega, by omega, by omega, by omega⟩

/-- `pcolor_coefs` and `plot_coefs` reject vector sets (for every vector set, by an exception and not by a wrong plot). -/
theorem c64_vector (c : VectorCoefs ℂ) (installed : Bool) :
    (pcolorVCoefs installed c).Fails ∧ (plotVCoefs installed c).Fails := by
  unfold pcolorVCoefs plotVCoefs mplEnsure Res.Fails
  cases installed
  · exact ⟨⟨_, rfl⟩, ⟨_, rfl⟩⟩
  · simp only [Bool.true_eq_false, if_false]
    cases c.scoef1.array2d with
    | error e => exact ⟨⟨_, rfl⟩, ⟨_, rfl⟩⟩
    | ok A =>
      cases c.scoef2.array2d with
      | error e => exact ⟨⟨_, rfl⟩, ⟨_, rfl⟩⟩
      | ok B =>
        refine ⟨⟨_, rfl⟩, ?_⟩
        simp only [Except.bind_ok]
        split <;> exact ⟨_, rfl⟩

/-- With matplotlib installed, the exceptions on a well-formed vector set are a `ValueError` from `pcolor_coefs`, and from `plot_coefs`
a `TypeError`, or a `ValueError` when the set has only order 0. -/
theorem c64_vector_kinds (c : VectorCoefs ℂ) (hc : c.WellFormed) :
    (pcolorVCoefs true c).Raises .valueError ∧ (1 ≤ c.mmax → (plotVCoefs true c).Raises .typeError) ∧
      (c.mmax = 0 → (plotVCoefs true c).Raises .valueError) := by
  obtain ⟨A, eA, -⟩ := c14_array2d c.scoef1 hc.wf1
  obtain ⟨B, eB, -⟩ := c14_array2d c.scoef2 hc.wf2
  have hn : c.mmax ≤ c.nmax := by
    have h1 := hc.wf1.mmax_le
    have h2 := hc.n1
    have h3 := hc.m1
    omega
  unfold pcolorVCoefs plotVCoefs mplEnsure Res.Raises
  rw [eA, eB]
  refine ⟨⟨_, rfl⟩, fun h => ?_, fun h => ?_⟩
  · simp only [Bool.true_eq_false, if_false, Except.bind_ok]
    rw [if_pos ⟨h, by omega⟩]
    exact ⟨_, rfl⟩
  · simp only [Bool.true_eq_false, if_false, Except.bind_ok]
    rw [if_neg (by omega)]
    exact ⟨_, rfl⟩

/-- Non-vacuity: a vector set with `nmax = 1`, `mmax = 1`. -/
example : (plotVCoefs true ⟨⟨[1, 2, 3, 4], 1, 1⟩, ⟨[1, 2, 3, 4], 1, 1⟩, 1, 1⟩).Raises .typeError :=
  (c64_vector_kinds _ ⟨⟨by norm_num, by norm_num, by decide⟩, ⟨by norm_num, by norm_num, by decide⟩, rfl, rfl, rfl, rfl⟩).2.1
    (by norm_num)

/-- Non-vacuity: a set with `nmax = 1`, `mmax = 1` and four values. -/
example : (ScalarCoefs.mk [(1 : ℂ), 2, 3, 4] 1 1).WellFormed := ⟨by norm_num, by norm_num, by decide⟩

end Verif.Props
