import Verif.Math.RotationV
import Verif.Props.Rotation
import Verif.Props.Stability2
/-!
# Property C91: rotated tangential fields

A tangential field on the unit sphere is given by Cartesian components: `E x : Fin 3 → ℂ` at the unit vector `x`.  A pattern stores the components along the
unit vectors `thHat`, `phHat` (Math/RotationV.lean) in the directions of increasing colatitude and longitude.  The field rotated by the orthogonal matrix `Q`
is `x ↦ Qᵀ E (Q x)`: both the point and the vector are turned.
-/
namespace Verif.Props
open Verif Finset
open Verif.Rot (pt thHat phHat dYv crs)

/-- The component of the complex vector `e` along the real vector `t`. -/
noncomputable def along (e : Fin 3 → ℂ) (t : Fin 3 → ℝ) : ℂ := ∑ i, e i * (t i : ℂ)

/-- The field `E` turned by `Q`. -/
noncomputable def turned (Q : Matrix (Fin 3) (Fin 3) ℝ) (E : (Fin 3 → ℝ) → Fin 3 → ℂ) : (Fin 3 → ℝ) → Fin 3 → ℂ :=
  fun x j => ∑ i, (Q i j : ℂ) * E (Q.mulVec x) i

/-- The tangential part of `E` has the expansion coefficients `v, w` up to degree `N`: its components satisfy the field equations of `JacksonField`.  (A radial
part, if any, is not looked at.) -/
def FieldCoefs (N M : ℤ) (v w : ℤ → ℤ → ℂ) (E : (Fin 3 → ℝ) → Fin 3 → ℂ) : Prop :=
  JacksonField N M v w (fun θ φ => along (E (pt θ φ)) (thHat θ φ)) (fun θ φ => along (E (pt θ φ)) (phHat φ))

/-- The two arrays of samples of `E` on the grid of a pattern with `nr` rows and `nc` columns. -/
noncomputable def sampleTheta (nr nc : ℕ) (E : (Fin 3 → ℝ) → Fin 3 → ℂ) : Arr2 ℂ :=
  Arr2.ofFn nr nc fun i j => along (E (pt (Real.pi * i / ((nr : ℝ) - 1)) (2 * Real.pi * j / nc))) (thHat (Real.pi * i / ((nr : ℝ) - 1)) (2 * Real.pi * j / nc))
noncomputable def samplePhi (nr nc : ℕ) (E : (Fin 3 → ℝ) → Fin 3 → ℂ) : Arr2 ℂ :=
  Arr2.ofFn nr nc fun i j => along (E (pt (Real.pi * i / ((nr : ℝ) - 1)) (2 * Real.pi * j / nc))) (phHat (2 * Real.pi * j / nc))

/-! ## Linear algebra -/

theorem along_add (e : Fin 3 → ℂ) (s t : Fin 3 → ℝ) (a b : ℝ) : along e (a • s + b • t) = a * along e s + b * along e t := by
  unfold along
  simp only [Fin.sum_univ_three, Pi.add_apply, Pi.smul_apply, smul_eq_mul]
  push_cast; ring

theorem along_turned (Q : Matrix (Fin 3) (Fin 3) ℝ) (E : (Fin 3 → ℝ) → Fin 3 → ℂ) (x t : Fin 3 → ℝ) :
    along (turned Q E x) t = along (E (Q.mulVec x)) (Q.mulVec t) := by
  unfold along turned Matrix.mulVec dotProduct
  simp only [Fin.sum_univ_three]
  push_cast; ring

/-- The component along `t` of the field with coefficients `v, w`. -/
noncomputable def jac (N M : ℤ) (v w : ℤ → ℤ → ℂ) (x t : Fin 3 → ℝ) : ℂ :=
  ∑ p ∈ modes N M with p.1 ≠ 0, (-Complex.I * v p.1 p.2 * dYv p.1.toNat p.2 x (crs t x) - w p.1 p.2 * dYv p.1.toNat p.2 x t) /
    (Real.sqrt (p.1 * (p.1 + 1)) : ℂ)

theorem crs_add (s t x : Fin 3 → ℝ) (a b : ℝ) : crs (a • s + b • t) x = a • crs s x + b • crs t x := by
  unfold crs
  funext i
  fin_cases i <;> simp <;> ring

theorem jac_add (N M : ℤ) (v w : ℤ → ℤ → ℂ) (x s t : Fin 3 → ℝ) (a b : ℝ) : jac N M v w x (a • s + b • t) = a * jac N M v w x s + b * jac N M v w x t := by
  unfold jac
  rw [mul_sum, mul_sum, ← sum_add_distrib]
  refine sum_congr rfl fun p _ => ?_
  rw [crs_add, Rot.dYv_add, Rot.dYv_add]
  ring

theorem dYv_neg (n : ℕ) (m : ℤ) (x t : Fin 3 → ℝ) : dYv n m x (-t) = -dYv n m x t := by
  have := Rot.dYv_smul n m x t (-1)
  simpa using this

theorem jac_th (N M : ℤ) (v w : ℤ → ℤ → ℂ) (θ φ : ℝ) : jac N M v w (pt θ φ) (thHat θ φ) =
    ∑ p ∈ modes N M with p.1 ≠ 0, (-(v p.1 p.2 * hPart p.1.toNat p.2 θ) - w p.1 p.2 * tPart p.1.toNat p.2 θ) * vphase p φ := by
  unfold jac vphase
  refine sum_congr rfl fun p _ => ?_
  rw [Rot.crs_thHat, dYv_neg, Rot.dYv_th, Rot.dYv_ph]
  have hI := Complex.I_mul_I
  rw [← mul_div_assoc]
  congr 1
  linear_combination (v p.1 p.2 * (hPart p.1.toNat p.2 θ : ℂ) * Complex.exp (p.2 * (φ * Complex.I))) * hI

theorem jac_ph (N M : ℤ) (v w : ℤ → ℤ → ℂ) (θ φ : ℝ) : jac N M v w (pt θ φ) (phHat φ) =
    ∑ p ∈ modes N M with p.1 ≠ 0, (-(Complex.I * v p.1 p.2 * tPart p.1.toNat p.2 θ) - Complex.I * w p.1 p.2 * hPart p.1.toNat p.2 θ) * vphase p φ := by
  unfold jac vphase
  refine sum_congr rfl fun p _ => ?_
  rw [Rot.crs_phHat, Rot.dYv_th, Rot.dYv_ph, ← mul_div_assoc]
  congr 1
  ring

theorem field_jac {N M : ℤ} {v w : ℤ → ℤ → ℂ} {E : (Fin 3 → ℝ) → Fin 3 → ℂ} (h : FieldCoefs N M v w E) (x t : Fin 3 → ℝ) (hx : Rot.Unit3 x)
    (ht : x ⬝ᵥ t = 0) : along (E x) t = jac N M v w x t := by
  obtain ⟨θ, φ, rfl⟩ := Rot.sphere_angles x hx
  obtain ⟨a, b, rfl⟩ := Rot.tangent θ φ t ht
  obtain ⟨j1, j2⟩ := jackson_closed h θ φ
  rw [along_add, jac_add, jac_th, jac_ph, ← j1, ← j2]

theorem closed_field (N M : ℤ) (v w : ℤ → ℤ → ℂ) {Eθ Eφ : ℝ → ℝ → ℂ} (h1 : ∀ θ φ, Eθ θ φ = jac N M v w (pt θ φ) (thHat θ φ))
    (h2 : ∀ θ φ, Eφ θ φ = jac N M v w (pt θ φ) (phHat φ)) {Fθ Fφ : ℝ → ℝ → ℂ} (hF : JacksonField N M v w Fθ Fφ) : JacksonField N M v w Eθ Eφ := by
  have e1 : Eθ = Fθ := funext fun θ => funext fun φ => by rw [h1, jac_th, (jackson_closed hF θ φ).1]
  have e2 : Eφ = Fφ := funext fun θ => funext fun φ => by rw [h2, jac_ph, (jackson_closed hF θ φ).2]
  rw [e1, e2]; exact hF

theorem modes_degrees (N : ℤ) (f : ℤ → ℤ → ℂ) :
    ∑ p ∈ modes N N with p.1 ≠ 0, f p.1 p.2 = ∑ n ∈ Icc 1 N, ∑ m ∈ Icc (-n) n, f n m := by
  rw [sum_filter, ScalarCoefs.sum_modes (fun n m => if n ≠ 0 then f n m else 0), ← sum_filter_add_sum_filter_not (Icc 0 N) (fun n => n ≠ 0)]
  rw [sum_eq_zero (s := (Icc 0 N).filter fun n => ¬ n ≠ 0), add_zero]
  · have : (Icc 0 N).filter (fun n => n ≠ 0) = Icc 1 N := by
      ext n; simp only [mem_filter, mem_Icc]; omega
    rw [this]
    refine sum_congr rfl fun n hn => ?_
    rw [mem_Icc] at hn
    rw [min_eq_left hn.2]
    exact sum_congr rfl fun m _ => if_pos (by omega)
  · intro n hn
    rw [mem_filter] at hn
    refine sum_eq_zero fun m _ => if_neg hn.2

/-- The field of turned coefficients. -/
theorem jac_rotate {Q : Matrix (Fin 3) (Fin 3) ℝ} (hQ : Q.transpose * Q = 1) {W : ℕ → ℤ → ℤ → ℂ}
    (hW : ∀ n : ℕ, ∀ x, Rot.Unit3 x → ∀ m ∈ Icc (-(n : ℤ)) n, Rot.Yv n m (Q.mulVec x) = ∑ k ∈ Icc (-(n : ℤ)) n, W n m k * Rot.Yv n k x)
    (N : ℤ) (v w : ℤ → ℤ → ℂ) (x t : Fin 3 → ℝ) (hx : Rot.Unit3 x) (ht : Rot.Unit3 t) (hxt : x ⬝ᵥ t = 0) :
    jac N N v w (Q.mulVec x) (Q.mulVec t) =
      jac N N (fun k l => Q.det * ∑ m ∈ Icc (-k) k, v k m * W k.toNat m l) (fun k l => ∑ m ∈ Icc (-k) k, w k m * W k.toNat m l) x t := by
  unfold jac
  rw [modes_degrees N fun n m => (-Complex.I * v n m * dYv n.toNat m (Q.mulVec x) (crs (Q.mulVec t) (Q.mulVec x)) - w n m * dYv n.toNat m (Q.mulVec x) (Q.mulVec t)) /
      (Real.sqrt (n * (n + 1)) : ℂ),
    modes_degrees N fun n l => (-Complex.I * (Q.det * ∑ m ∈ Icc (-n) n, v n m * W n.toNat m l) * dYv n.toNat l x (crs t x) -
      (∑ m ∈ Icc (-n) n, w n m * W n.toNat m l) * dYv n.toNat l x t) / (Real.sqrt (n * (n + 1)) : ℂ)]
  refine sum_congr rfl fun n hn => ?_
  rw [mem_Icc] at hn
  obtain ⟨n, rfl⟩ := Int.eq_ofNat_of_zero_le (show 0 ≤ n by omega)
  rw [Int.toNat_natCast, ← sum_div, ← sum_div]
  congr 1
  obtain ⟨u1, u2⟩ := Rot.crs_unit t x ht hx (by exact hxt)
  have k1 : ∀ m ∈ Icc (-(n : ℤ)) n, -Complex.I * v n m * dYv n m (Q.mulVec x) (crs (Q.mulVec t) (Q.mulVec x)) - w n m * dYv n m (Q.mulVec x) (Q.mulVec t) =
      ∑ l ∈ Icc (-(n : ℤ)) n, (-Complex.I * (Q.det * (v n m * W n m l)) * dYv n l x (crs t x) - (w n m * W n m l) * dYv n l x t) := by
    intro m hm
    rw [Rot.crs_orth hQ, Rot.dYv_smul, Rot.dYv_rotate (hW n) x _ hx u1 u2 m hm, Rot.dYv_rotate (hW n) x t hx ht hxt m hm, mul_sum, mul_sum, mul_sum,
      ← sum_sub_distrib]
    exact sum_congr rfl fun l _ => by ring
  rw [sum_congr rfl k1, sum_comm]
  refine sum_congr rfl fun l _ => ?_
  rw [sum_sub_distrib, mul_sum, mul_sum, sum_mul, sum_mul]

/-! ## The theorems -/

theorem exists_coefsV (N M : ℤ) (h0 : 0 ≤ M) (h1 : M ≤ N) (v w : ℤ → ℤ → ℂ) :
    ∃ c : VectorCoefs ℂ, c.WellFormed ∧ c.nmax = N ∧ c.mmax = M ∧ HasCoefsV c v w ∧ readMap c.scoef1 0 0 = some 0 ∧ readMap c.scoef2 0 0 = some 0 := by
  obtain ⟨c1, a1, a2, a3, a4⟩ := exists_coefs N M h0 h1 fun n m => if n = 0 then 0 else v n m
  obtain ⟨c2, b1, b2, b3, b4⟩ := exists_coefs N M h0 h1 fun n m => if n = 0 then 0 else w n m
  have hw : (⟨c1, c2, N, M⟩ : VectorCoefs ℂ).WellFormed := ⟨a1, b1, a2, b2, a3, b3⟩
  refine ⟨⟨c1, c2, N, M⟩, hw, rfl, rfl, fun n m hm hn => ?_, ?_, ?_⟩
  · have g1 := a4 n m (by rw [a2, a3]; exact hm)
    have g2 := b4 n m (by rw [b2, b3]; exact hm)
    rw [readMap_eq a1.wf] at g1
    rw [readMap_eq b1.wf] at g2
    simp only [if_neg hn] at g1 g2
    rw [readMapV_eq hw, if_neg hn]
    show (c1.absMap n m).bind _ = _
    rw [g1]
    show (c2.absMap n m).map _ = _
    rw [g2]; rfl
  · exact a4 0 0 (by rw [isMode_iff, a2, a3]; omega)
  · exact b4 0 0 (by rw [isMode_iff, b2, b3]; omega)

/-- C91 (sampling): a pattern built from the samples of a tangential field is analysed exactly. -/
theorem c91_sampled (b : Backend) (N M : ℤ) (h0 : 0 ≤ M) (hMN : M ≤ N) (v w : ℤ → ℤ → ℂ) (E : (Fin 3 → ℝ) → Fin 3 → ℂ) (hE : FieldCoefs N M v w E)
    (nr nc : ℕ) (h1 : N + 2 ≤ nr) (h2 : 2 * M + 2 ≤ nc) (h3 : nc % 2 = 0) (hsz : nr ≤ 2 ^ 28) :
    ∃ p c, TPatt.init (.arr (sampleTheta nr nc E)) (.arr (samplePhi nr nc E)) false = .ok p ∧ vspht b p (some N) (some M) = .ok c ∧
      c.WellFormed ∧ c.nmax = N ∧ c.mmax = M ∧ HasCoefsV c v w ∧ readMap c.scoef1 0 0 = some 0 ∧ readMap c.scoef2 0 0 = some 0 := by
  obtain ⟨c, hc, rfl, rfl, hv, z1, z2⟩ := exists_coefsV N M h0 hMN v w
  obtain ⟨p, Eθ, Eφ, e1, hJ, e2, e3, e4, e5, e6⟩ := c50_vispht .py c hc v w hv nr nc h1 h2 (by omega)
  obtain ⟨p', f1, f2⟩ := c33_round_trip .py b c hc z1 z2 nr nc h1 h2 (by omega) (by exact_mod_cast hsz)
  obtain ⟨p'', g1, g2, g3, g4, g5, g6, g7, -⟩ := c37_vispht .py c hc nr nc h1 h2 (by omega)
  rw [e1] at f1 g1
  cases f1; cases g1
  have hn0 : 0 ≤ c.nmax := h0.trans hMN
  have hcl : ∀ θ φ, along (E (pt θ φ)) (thHat θ φ) = Eθ θ φ ∧ along (E (pt θ φ)) (phHat φ) = Eφ θ φ := fun θ φ => by
    obtain ⟨a1, a2⟩ := jackson_closed hE θ φ
    obtain ⟨b1, b2⟩ := jackson_closed hJ θ φ
    exact ⟨a1.trans b1.symm, a2.trans b2.symm⟩
  have hT : sampleTheta nr nc E = p.td.takeRows (p.td.rows / 2 + 1) := by
    refine Arr2.ext' ?_ ?_ fun i j hi hj => ?_
    · show nr = _; exact_mod_cast e2.symm
    · show nc = _; exact_mod_cast e3.symm
    · replace hi : i < nr := hi
      replace hj : j < nc := hj
      refine Eq.trans ?_ (e6 i j (by omega) (by omega)).1.symm
      unfold sampleTheta
      rw [Arr2.at'_ofFn hi hj, (hcl _ _).1]
      norm_cast
  have hP : samplePhi nr nc E = p.pd.takeRows (p.pd.rows / 2 + 1) := by
    have hr : p.pd.rows = p.td.rows := by omega
    rw [hr]
    refine Arr2.ext' ?_ ?_ fun i j hi hj => ?_
    · show nr = _; exact_mod_cast e4.symm
    · show nc = _; exact_mod_cast e5.symm
    · replace hi : i < nr := hi
      replace hj : j < nc := hj
      refine Eq.trans ?_ (e6 i j (by omega) (by omega)).2.symm
      unfold samplePhi
      rw [Arr2.at'_ofFn hi hj, (hcl _ _).2]
      norm_cast
  refine ⟨p, c, ?_, f2, hc, rfl, rfl, hv, z1, z2⟩
  unfold TPatt.init
  simp only []
  rw [if_neg (by rw [not_not]; exact ⟨rfl, rfl⟩), hT, hP, continue_takeRows p.td (-1) (Or.inr rfl) (by omega) (by omega) (by omega) g6,
    continue_takeRows p.pd (-1) (Or.inr rfl) (by omega) (by omega) (by omega) g7]
  rfl

theorem turned_field {Q : Matrix (Fin 3) (Fin 3) ℝ} (hQ : Q.transpose * Q = 1) {W : ℕ → ℤ → ℤ → ℂ}
    (hW : ∀ n : ℕ, ∀ x, Rot.Unit3 x → ∀ m ∈ Icc (-(n : ℤ)) n, Rot.Yv n m (Q.mulVec x) = ∑ k ∈ Icc (-(n : ℤ)) n, W n m k * Rot.Yv n k x)
    (N : ℕ) (v w : ℤ → ℤ → ℂ) (E : (Fin 3 → ℝ) → Fin 3 → ℂ) (hE : FieldCoefs N N v w E) :
    FieldCoefs N N (fun k l => Q.det * ∑ m ∈ Icc (-k) k, v k m * W k.toNat m l) (fun k l => ∑ m ∈ Icc (-k) k, w k m * W k.toNat m l) (turned Q E) := by
  set v' := fun k l => (Q.det : ℂ) * ∑ m ∈ Icc (-k) k, v k m * W k.toNat m l
  set w' := fun k l => ∑ m ∈ Icc (-k) k, w k m * W k.toNat m l
  -- some field with these coefficients exists
  obtain ⟨c, hc, hn, hm, hv, -⟩ := exists_coefsV N N (by omega) le_rfl v' w'
  obtain ⟨-, Fθ, Fφ, -, hJ, -⟩ := c50_vispht .py c hc v' w' hv ((2 * N + 2 : ℕ) : ℤ) ((2 * N + 2 : ℕ) : ℤ) (by omega) (by omega) (by omega)
  rw [hn, hm] at hJ
  have key : ∀ θ φ t, Rot.Unit3 t → pt θ φ ⬝ᵥ t = 0 → along (turned Q E (pt θ φ)) t = jac N N v' w' (pt θ φ) t := by
    intro θ φ t ht h
    rw [along_turned, field_jac hE _ _ (Rot.Orth.unit hQ (unit_pt θ φ)), jac_rotate hQ hW N v w _ t (unit_pt θ φ) ht h]
    rw [Matrix.dotProduct_mulVec, Matrix.vecMul_mulVec, hQ]
    simpa using h
  exact closed_field N N v' w' (fun θ φ => key θ φ _ (Rot.thHat_unit θ φ).1 (Rot.thHat_unit θ φ).2)
    (fun θ φ => key θ φ _ (Rot.phHat_unit θ φ).1 (Rot.phHat_unit θ φ).2) hJ

/-- C91: turning a tangential field changes the coefficients of each degree by the unitary matrices of C90, in both components; for a reflection
(`det Q = -1`) the first component also changes sign. -/
theorem c91_rotation (Q : Matrix (Fin 3) (Fin 3) ℝ) (hQ : Q.transpose * Q = 1) : ∃ W : ℕ → ℤ → ℤ → ℂ,
    (∀ n : ℕ, ∀ m ∈ Icc (-(n : ℤ)) n, ∀ k ∈ Icc (-(n : ℤ)) n,
      ∑ l ∈ Icc (-(n : ℤ)) n, W n m l * (starRingEnd ℂ) (W n k l) = if m = k then 1 else 0) ∧
    (∀ n : ℕ, ∀ x, Rot.Unit3 x → ∀ m ∈ Icc (-(n : ℤ)) n, Rot.Yv n m (Q.mulVec x) = ∑ k ∈ Icc (-(n : ℤ)) n, W n m k * Rot.Yv n k x) ∧
    ∀ (b b' : Backend) (N : ℕ) (v w : ℤ → ℤ → ℂ) (E : (Fin 3 → ℝ) → Fin 3 → ℂ), FieldCoefs N N v w E →
      ∀ nr nc nr' nc' : ℕ, N + 2 ≤ nr → 2 * N + 2 ≤ nc → nc % 2 = 0 → nr ≤ 2 ^ 28 → N + 2 ≤ nr' → 2 * N + 2 ≤ nc' → nc' % 2 = 0 → nr' ≤ 2 ^ 28 →
      ∃ p q c d, TPatt.init (.arr (sampleTheta nr nc E)) (.arr (samplePhi nr nc E)) false = .ok p ∧
        TPatt.init (.arr (sampleTheta nr' nc' (turned Q E))) (.arr (samplePhi nr' nc' (turned Q E))) false = .ok q ∧
        vspht b p (some N) (some N) = .ok c ∧ vspht b' q (some N) (some N) = .ok d ∧
        (c.WellFormed ∧ c.nmax = N ∧ c.mmax = N) ∧ (d.WellFormed ∧ d.nmax = N ∧ d.mmax = N) ∧
        (readMap c.scoef1 0 0 = some 0 ∧ readMap c.scoef2 0 0 = some 0 ∧ readMap d.scoef1 0 0 = some 0 ∧ readMap d.scoef2 0 0 = some 0) ∧
        HasCoefsV c v w ∧
        ∀ k l, IsMode N N k l → k ≠ 0 →
          readMapV d k l = some (Q.det * ∑ m ∈ Icc (-k) k, v k m * W k.toNat m l, ∑ m ∈ Icc (-k) k, w k m * W k.toNat m l) := by
  choose W hW using fun n => Rot.wigner n Q hQ
  refine ⟨W, fun n => (hW n).2, fun n => (hW n).1, ?_⟩
  intro b b' N v w E hE nr nc nr' nc' g1 g2 g3 g4 g1' g2' g3' g4'
  obtain ⟨p, c, e1, e2, e3, e4, e5, e6, e7, e8⟩ := c91_sampled b N N (by omega) le_rfl v w E hE nr nc (by exact_mod_cast g1) (by exact_mod_cast g2) g3 g4
  obtain ⟨q, d, f1, f2, f3, f4, f5, f6, f7, f8⟩ := c91_sampled b' N N (by omega) le_rfl _ _ _ (turned_field hQ (fun n => (hW n).1) N v w E hE) nr' nc'
    (by exact_mod_cast g1') (by exact_mod_cast g2') g3' g4'
  exact ⟨p, q, c, d, e1, f1, e2, f2, ⟨e3, e4, e5⟩, ⟨f3, f4, f5⟩, ⟨e7, e8, f7, f8⟩, e6, fun k l hk hk0 => f6 k l (by rw [f4, f5]; exact hk) hk0⟩

/-- Two sets whose degrees are related by unitary matrices have the same spectrum. -/
theorem spectrum_unitary {N : ℕ} {c d : ScalarCoefs ℂ} (hc : c.WellFormed) (hd : d.WellFormed) (c1 : c.nmax = N) (c2 : c.mmax = N) (d1 : d.nmax = N)
    (d2 : d.mmax = N) (W : ℕ → ℤ → ℤ → ℂ) (v : ℤ → ℤ → ℂ) (a : ℂ) (ha : ‖a‖ = 1)
    (hW : ∀ n : ℕ, ∀ m ∈ Icc (-(n : ℤ)) n, ∀ k ∈ Icc (-(n : ℤ)) n,
      ∑ l ∈ Icc (-(n : ℤ)) n, W n m l * (starRingEnd ℂ) (W n k l) = if m = k then 1 else 0)
    (hv : ∀ n m, IsMode N N n m → n ≠ 0 → readMap c n m = some (v n m))
    (hd' : ∀ k l, IsMode N N k l → k ≠ 0 → readMap d k l = some (a * ∑ m ∈ Icc (-k) k, v k m * W k.toNat m l))
    (h0 : readMap d 0 0 = readMap c 0 0) :
    d.angularPowerSpectrum (fun x : ℂ => ‖x‖) = c.angularPowerSpectrum (fun x : ℂ => ‖x‖) ∧
      d.power (fun x : ℂ => ‖x‖) = c.power (fun x : ℂ => ‖x‖) := by
  obtain ⟨s, f, hl, hs, hp, -⟩ := c13_power (fun x : ℂ => ‖x‖) c hc
  obtain ⟨s', f', hl', hs', hp', -⟩ := c13_power (fun x : ℂ => ‖x‖) d hd
  have key : s' = s := by
    apply List.ext_getElem (by omega)
    intro n g1 g2
    have hmin : min (n : ℤ) N = n := by omega
    rw [hs n g2, hs' n g1, c2, d2, hmin]
    rcases Nat.eq_zero_or_pos n with rfl | hn
    · have : Icc (-((0 : ℕ) : ℤ)) ((0 : ℕ) : ℤ) = {0} := by ext x; simp only [mem_Icc, mem_singleton]; omega
      rw [this, sum_singleton, sum_singleton]
      simp only [Nat.cast_zero]
      rw [h0]
    have k1 : ∀ l ∈ Icc (-(n : ℤ)) n, (readMap d n l).elim 0 (fun x => ‖x‖ ^ 2) = ‖∑ m ∈ Icc (-(n : ℤ)) n, v n m * W n m l‖ ^ 2 := by
      intro l hl
      rw [mem_Icc] at hl
      rw [hd' n l (by rw [isMode_iff]; omega) (by omega), Int.toNat_natCast]
      show ‖a * _‖ ^ 2 = _
      rw [norm_mul, ha, one_mul]
    have k2 : ∀ m ∈ Icc (-(n : ℤ)) n, (readMap c n m).elim 0 (fun x => ‖x‖ ^ 2) = ‖v n m‖ ^ 2 := by
      intro m hm
      rw [mem_Icc] at hm
      rw [hv n m (by rw [isMode_iff]; omega) (by omega)]
      rfl
    rw [sum_congr rfl k1, sum_congr rfl k2]
    exact Rot.power_unitary (Icc (-(n : ℤ)) n) (W n) (hW n) (fun m => v n m)
  refine ⟨?_, ?_⟩
  · rw [f, f', key]
  · rw [← hp, ← hp', key]

theorem readMapV_parts {c : VectorCoefs ℂ} (hc : c.WellFormed) {n m : ℤ} {x y : ℂ} (h : readMapV c n m = some (x, y)) :
    readMap c.scoef1 n m = some x ∧ readMap c.scoef2 n m = some y := by
  rw [readMapV_eq hc] at h
  rw [readMap_eq hc.wf1.wf, readMap_eq hc.wf2.wf]
  split at h
  · cases h
  · revert h
    cases c.scoef1.absMap n m <;> cases c.scoef2.absMap n m <;> simp

/-- C91: the power spectrum and the power of each component of a tangential field do not depend on the orientation of the field. -/
theorem c91_spectrum (Q : Matrix (Fin 3) (Fin 3) ℝ) (hQ : Q.transpose * Q = 1) (b b' : Backend) (N : ℕ) (v w : ℤ → ℤ → ℂ) (E : (Fin 3 → ℝ) → Fin 3 → ℂ)
    (hE : FieldCoefs N N v w E) (nr nc nr' nc' : ℕ)
    (h1 : N + 2 ≤ nr) (h2 : 2 * N + 2 ≤ nc) (h3 : nc % 2 = 0) (h4 : nr ≤ 2 ^ 28)
    (h1' : N + 2 ≤ nr') (h2' : 2 * N + 2 ≤ nc') (h3' : nc' % 2 = 0) (h4' : nr' ≤ 2 ^ 28) :
    ∃ p q c d, TPatt.init (.arr (sampleTheta nr nc E)) (.arr (samplePhi nr nc E)) false = .ok p ∧
      TPatt.init (.arr (sampleTheta nr' nc' (turned Q E))) (.arr (samplePhi nr' nc' (turned Q E))) false = .ok q ∧
      vspht b p (some N) (some N) = .ok c ∧ vspht b' q (some N) (some N) = .ok d ∧
      d.scoef1.angularPowerSpectrum (fun x : ℂ => ‖x‖) = c.scoef1.angularPowerSpectrum (fun x : ℂ => ‖x‖) ∧
      d.scoef2.angularPowerSpectrum (fun x : ℂ => ‖x‖) = c.scoef2.angularPowerSpectrum (fun x : ℂ => ‖x‖) ∧
      d.scoef1.power (fun x : ℂ => ‖x‖) = c.scoef1.power (fun x : ℂ => ‖x‖) ∧
      d.scoef2.power (fun x : ℂ => ‖x‖) = c.scoef2.power (fun x : ℂ => ‖x‖) := by
  obtain ⟨W, hW, -, h⟩ := c91_rotation Q hQ
  obtain ⟨p, q, c, d, e1, e2, e3, e4, ⟨hc, c1, c2⟩, ⟨hd, d1, d2⟩, ⟨z1, z2, z3, z4⟩, hv, hd'⟩ :=
    h b b' N v w E hE nr nc nr' nc' h1 h2 h3 h4 h1' h2' h3' h4'
  have hdet : ‖(Q.det : ℂ)‖ = 1 := by
    have h := congrArg Matrix.det hQ
    rw [Matrix.det_mul, Matrix.det_transpose, Matrix.det_one] at h
    rw [Complex.norm_real, Real.norm_eq_abs]
    exact abs_eq_abs.mpr (mul_self_eq_one_iff.mp h) |>.trans abs_one
  have r1 : ∀ n m, IsMode N N n m → n ≠ 0 → readMap c.scoef1 n m = some (v n m) ∧ readMap c.scoef2 n m = some (w n m) := fun n m hm hn =>
    readMapV_parts hc (hv n m (by rw [c1, c2]; exact hm) hn)
  have r2 := fun n m hm hn => readMapV_parts hd (hd' n m hm hn)
  obtain ⟨s1, s2⟩ := spectrum_unitary (N := N) hc.wf1 hd.wf1 (by rw [hc.n1, c1]) (by rw [hc.m1, c2]) (by rw [hd.n1, d1]) (by rw [hd.m1, d2]) W v Q.det hdet hW
    (fun n m hm hn => (r1 n m hm hn).1) (fun n m hm hn => (r2 n m hm hn).1) (by rw [z1, z3])
  obtain ⟨t1, t2⟩ := spectrum_unitary (N := N) hc.wf2 hd.wf2 (by rw [hc.n2, c1]) (by rw [hc.m2, c2]) (by rw [hd.n2, d1]) (by rw [hd.m2, d2]) W w 1 (by simp) hW
    (fun n m hm hn => (r1 n m hm hn).2) (fun n m hm hn => by rw [one_mul]; exact (r2 n m hm hn).2) (by rw [z2, z4])
  exact ⟨p, q, c, d, e1, e2, e3, e4, s1, t1, s2, t2⟩

/-- Every pair of coefficient families belongs to a tangential field. -/
theorem field_exists (N : ℕ) (v w : ℤ → ℤ → ℂ) : ∃ E : (Fin 3 → ℝ) → Fin 3 → ℂ, FieldCoefs N N v w E := by
  have hj : ∀ x : Fin 3 → ℝ, ∃ e : Fin 3 → ℂ, Rot.Unit3 x → ∀ t, x ⬝ᵥ t = 0 → along e t = jac N N v w x t := by
    intro x
    by_cases hx : Rot.Unit3 x
    · obtain ⟨θ, φ, rfl⟩ := Rot.sphere_angles x hx
      refine ⟨fun i => jac N N v w (pt θ φ) (thHat θ φ) * thHat θ φ i + jac N N v w (pt θ φ) (phHat φ) * phHat φ i, fun _ t ht => ?_⟩
      obtain ⟨a, b, rfl⟩ := Rot.tangent θ φ t ht
      rw [along_add, jac_add]
      have u1 := (Rot.thHat_unit θ φ).1
      have u2 := (Rot.phHat_unit θ φ).1
      have u3 : thHat θ φ ⬝ᵥ phHat φ = 0 := by
        unfold thHat phHat dotProduct
        rw [Fin.sum_univ_three]
        simp; ring
      unfold Rot.Unit3 at u1 u2
      unfold dotProduct at u3
      rw [Fin.sum_univ_three] at u3
      unfold along
      simp only [Fin.sum_univ_three]
      have u1' := congrArg (fun x : ℝ => (x : ℂ)) u1
      have u2' := congrArg (fun x : ℝ => (x : ℂ)) u2
      have u3' := congrArg (fun x : ℝ => (x : ℂ)) u3
      push_cast at u1' u2' u3'
      set A := jac N N v w (pt θ φ) (thHat θ φ)
      set B := jac N N v w (pt θ φ) (phHat φ)
      linear_combination (a * A : ℂ) * u1' + (b * B : ℂ) * u2' + (a * B + b * A : ℂ) * u3'
    · exact ⟨0, fun h => absurd h hx⟩
  choose E hE using hj
  obtain ⟨c, hc, hn, hm, hv, -⟩ := exists_coefsV N N (by omega) le_rfl v w
  obtain ⟨-, Fθ, Fφ, -, hJ, -⟩ := c50_vispht .py c hc v w hv ((2 * N + 2 : ℕ) : ℤ) ((2 * N + 2 : ℕ) : ℤ) (by omega) (by omega) (by omega)
  rw [hn, hm] at hJ
  exact ⟨E, closed_field N N v w (fun θ φ => hE _ (unit_pt θ φ) _ (Rot.thHat_unit θ φ).2) (fun θ φ => hE _ (unit_pt θ φ) _ (Rot.phHat_unit θ φ).2) hJ⟩

/-- Hypotheses of C91: a quarter turn about the y-axis; for `N = 2` every choice of coefficients belongs to a field. -/
example : ∃ (Q : Matrix (Fin 3) (Fin 3) ℝ) (E : (Fin 3 → ℝ) → Fin 3 → ℂ), Q.transpose * Q = 1 ∧
    FieldCoefs (2 : ℕ) (2 : ℕ) (fun n m => n + m * Complex.I) (fun n m => n * m) E ∧ 2 + 2 ≤ 5 ∧ 2 * 2 + 2 ≤ 6 ∧ 6 % 2 = 0 ∧ 5 ≤ 2 ^ 28 := by
  obtain ⟨E, hE⟩ := field_exists 2 (fun n m => n + m * Complex.I) (fun n m => n * m)
  refine ⟨!![0, 0, -1; 0, 1, 0; 1, 0, 0], E, ?_, hE, by norm_num⟩
  ext i j
  fin_cases i <;> fin_cases j <;> simp [Matrix.mul_apply, Fin.sum_univ_three]

end Verif.Props
