import Verif.Math.Rotation
import Verif.Props.Spectrum
import Verif.Props.Files
/-!
# Property C90: rotated patterns

A function on the unit sphere is a function `F` of the Cartesian coordinates; `pt θ φ` (Math/Rotation.lean) is the point with colatitude `θ` and longitude
`φ`, and the rotated function is `v ↦ F (Q v)` with an orthogonal matrix `Q`.
-/
namespace Verif.Props
open Verif Finset
open Verif.Rot (pt)

/-- The samples of `F` on the grid of a pattern with `nr` rows and `nc` columns. -/
noncomputable def sampleGrid (nr nc : ℕ) (F : (Fin 3 → ℝ) → ℂ) : Arr2 ℂ :=
  Arr2.ofFn nr nc fun i j => F (pt (Real.pi * i / ((nr : ℝ) - 1)) (2 * Real.pi * j / nc))

theorem exists_coefs (N M : ℤ) (h0 : 0 ≤ M) (h1 : M ≤ N) (v : ℤ → ℤ → ℂ) :
    ∃ c : ScalarCoefs ℂ, c.WellFormed ∧ c.nmax = N ∧ c.mmax = M ∧ HasCoefs c v := by
  classical
  have hs : ∀ j, ∃ p : ℤ × ℤ, j < seg (N + 1).toNat (2 * M.toNat + 1) → IsMode N M p.1 p.2 ∧ slot N p.1 p.2 = j := by
    intro j
    by_cases hj : j < seg (N + 1).toNat (2 * M.toNat + 1)
    · obtain ⟨n, m, h⟩ := slot_surj h0 h1 hj; exact ⟨(n, m), fun _ => h⟩
    · exact ⟨(0, 0), fun h => absurd h hj⟩
  choose f hf using hs
  let c : ScalarCoefs ℂ := ⟨(List.range (seg (N + 1).toNat (2 * M.toNat + 1))).map fun j => v (f j).1 (f j).2, N, M⟩
  have hw : c.WF := ⟨h0, h1, by rw [ncFormula_eq h0 h1]; simp [c]⟩
  refine ⟨c, ScalarCoefs.wf_iff.mp hw, rfl, rfl, fun n m hm => ?_⟩
  rw [readMap_eq hw, ScalarCoefs.absMap_mode hw hm]
  have hlt := slot_lt hm
  obtain ⟨g1, g2⟩ := hf _ hlt
  obtain ⟨e1, e2⟩ := slot_inj g1 hm g2
  simp only [c, List.getElem_map, List.getElem_range]
  change some (v (f (slot N n m)).1 (f (slot N n m)).2) = _
  rw [e1, e2]

/-- C90 (sampling): a pattern built from samples of a band-limited function is analysed exactly. -/
theorem c90_sampled (b : Backend) (N M : ℤ) (h0 : 0 ≤ M) (hMN : M ≤ N) (v : ℤ → ℤ → ℂ) (F : (Fin 3 → ℝ) → ℂ)
    (hF : ∀ θ φ, F (pt θ φ) = shSeries N M v θ φ) (nr nc : ℕ) (h1 : N + 2 ≤ nr) (h2 : 2 * M + 2 ≤ nc) (h3 : nc % 2 = 0) (hsz : nr ≤ 2 ^ 28) :
    ∃ p c, SPatt.init (.arr (sampleGrid nr nc F)) false = .ok p ∧ spht b p (some N) (some M) = .ok c ∧
      c.WellFormed ∧ c.nmax = N ∧ c.mmax = M ∧ HasCoefs c v := by
  obtain ⟨c, hc, rfl, rfl, hv⟩ := exists_coefs N M h0 hMN v
  obtain ⟨p, A, e1, e2, e3, e4, e5⟩ := c30_ispht .py c hc v hv nr nc h1 h2 (by omega)
  obtain ⟨p', f1, f2⟩ := c32_round_trip .py b c hc nr nc h1 h2 (by omega) (by exact_mod_cast hsz)
  obtain ⟨p'', D, g1, g2, g3, g4, g5, -⟩ := c37_ispht .py c hc nr nc h1 h2 (by omega)
  rw [e1] at f1 g1
  cases f1; cases g1
  have hn0 : 0 ≤ c.nmax := h0.trans hMN
  obtain ⟨ds⟩ := p
  cases ds with
  | exc => cases g2
  | arr D' =>
    cases g2
    cases e2
    have hA : sampleGrid nr nc F = D.takeRows (D.rows / 2 + 1) := by
      refine Arr2.ext' ?_ ?_ fun i j hi hj => ?_
      · show nr = _; exact_mod_cast e3.symm
      · show nc = _; exact_mod_cast e4.symm
      · replace hi : i < nr := hi
        replace hj : j < nc := hj
        rw [e5 i j (by omega) (by omega)]
        unfold sampleGrid
        rw [Arr2.at'_ofFn hi hj, hF]
        norm_cast
    refine ⟨⟨.arr D⟩, c, ?_, f2, hc, rfl, rfl, hv⟩
    rw [hA]
    unfold SPatt.init
    simp only [continue_takeRows D 1 (Or.inl rfl) (by omega) (by omega) (by omega) g5]
    rfl

theorem series_degrees (N : ℤ) (v : ℤ → ℤ → ℂ) (f : ℤ → ℤ → ℂ) :
    ∑ p ∈ modes N N, v p.1 p.2 * f p.1 p.2 = ∑ n ∈ Icc 0 N, ∑ m ∈ Icc (-n) n, v n m * f n m := by
  rw [ScalarCoefs.sum_modes (fun n m => v n m * f n m)]
  refine sum_congr rfl fun n hn => ?_
  rw [mem_Icc] at hn
  rw [min_eq_left hn.2]

theorem unit_pt (θ φ : ℝ) : Rot.Unit3 (pt θ φ) := by
  unfold Rot.Unit3 pt
  simp only [Matrix.cons_val_zero, Matrix.cons_val_one, Matrix.cons_val]
  linear_combination Real.sin θ ^ 2 * Real.sin_sq_add_cos_sq φ + Real.sin_sq_add_cos_sq θ

/-- C90: rotating (or reflecting) a band-limited function changes the coefficients of each degree by a unitary matrix that depends only on the rotation.
`F` has the series `v` up to degree `N`; it is sampled on a grid with `nr` rows and `nc` columns, the rotated function on a grid of `nr'` rows and `nc'`
columns.  Both grids fine enough for degree `N`. -/
theorem c90_rotation (Q : Matrix (Fin 3) (Fin 3) ℝ) (hQ : Q.transpose * Q = 1) : ∃ W : ℕ → ℤ → ℤ → ℂ,
    (∀ n : ℕ, ∀ m ∈ Icc (-(n : ℤ)) n, ∀ k ∈ Icc (-(n : ℤ)) n,
      ∑ l ∈ Icc (-(n : ℤ)) n, W n m l * (starRingEnd ℂ) (W n k l) = if m = k then 1 else 0) ∧
    ∀ (b b' : Backend) (N : ℕ) (v : ℤ → ℤ → ℂ) (F : (Fin 3 → ℝ) → ℂ), (∀ θ φ, F (pt θ φ) = shSeries N N v θ φ) →
      ∀ nr nc nr' nc' : ℕ, N + 2 ≤ nr → 2 * N + 2 ≤ nc → nc % 2 = 0 → nr ≤ 2 ^ 28 → N + 2 ≤ nr' → 2 * N + 2 ≤ nc' → nc' % 2 = 0 → nr' ≤ 2 ^ 28 →
      ∃ p q c d, SPatt.init (.arr (sampleGrid nr nc F)) false = .ok p ∧
        SPatt.init (.arr (sampleGrid nr' nc' fun x => F (Q.mulVec x))) false = .ok q ∧
        spht b p (some N) (some N) = .ok c ∧ spht b' q (some N) (some N) = .ok d ∧
        (c.WellFormed ∧ c.nmax = N ∧ c.mmax = N) ∧ (d.WellFormed ∧ d.nmax = N ∧ d.mmax = N) ∧ HasCoefs c v ∧
        ∀ k l, IsMode N N k l → readMap d k l = some (∑ m ∈ Icc (-k) k, v k m * W k.toNat m l) := by
  choose W hW using fun n => Rot.wigner n Q hQ
  refine ⟨W, fun n => (hW n).2, ?_⟩
  intro b b' N v F hF nr nc nr' nc' g1 g2 g3 g4 g1' g2' g3' g4'
  obtain ⟨p, c, e1, e2, e3, e4, e5, e6⟩ := c90_sampled b N N (by omega) le_rfl v F hF nr nc (by exact_mod_cast g1) (by exact_mod_cast g2) g3 g4
  have hF' : ∀ θ φ, F (Q.mulVec (pt θ φ)) = shSeries N N (fun k l => ∑ m ∈ Icc (-k) k, v k m * W k.toNat m l) θ φ := by
    intro θ φ
    have hu := unit_pt θ φ
    obtain ⟨θ', φ', hp⟩ := Rot.sphere_angles _ (Rot.Orth.unit hQ hu)
    rw [hp, hF]
    unfold shSeries
    simp only [← Rot.Yv_pt, ← hp]
    rw [series_degrees N v (fun n m => Rot.Yv n.toNat m (Q.mulVec (pt θ φ))),
      series_degrees N (fun k l => ∑ m ∈ Icc (-k) k, v k m * W k.toNat m l) (fun n m => Rot.Yv n.toNat m (pt θ φ))]
    refine sum_congr rfl fun n hn => ?_
    rw [mem_Icc] at hn
    obtain ⟨n, rfl⟩ := Int.eq_ofNat_of_zero_le hn.1
    have h1 : ∀ m ∈ Icc (-(n : ℤ)) n, v n m * Rot.Yv ((n : ℤ).toNat) m (Q.mulVec (pt θ φ)) =
        ∑ k ∈ Icc (-(n : ℤ)) n, v n m * W n m k * Rot.Yv n k (pt θ φ) := by
      intro m hm
      rw [Int.toNat_natCast, (hW n).1 _ hu m hm, mul_sum]
      exact sum_congr rfl fun k _ => by ring
    rw [sum_congr rfl h1, sum_comm]
    refine sum_congr rfl fun k _ => ?_
    rw [sum_mul, Int.toNat_natCast]
  obtain ⟨q, d, f1, f2, f3, f4, f5, f6⟩ := c90_sampled b' N N (by omega) le_rfl _ (fun x => F (Q.mulVec x)) hF' nr' nc'
    (by exact_mod_cast g1') (by exact_mod_cast g2') g3' g4'
  exact ⟨p, q, c, d, e1, f1, e2, f2, ⟨e3, e4, e5⟩, ⟨f3, f4, f5⟩, e6, fun k l hk => f6 k l (by rw [f4, f5]; exact hk)⟩

/-- C90: the power spectrum and the power of a band-limited function do not depend on its orientation. -/
theorem c90_spectrum (Q : Matrix (Fin 3) (Fin 3) ℝ) (hQ : Q.transpose * Q = 1) (b b' : Backend) (N : ℕ) (v : ℤ → ℤ → ℂ) (F : (Fin 3 → ℝ) → ℂ)
    (hF : ∀ θ φ, F (pt θ φ) = shSeries N N v θ φ) (nr nc nr' nc' : ℕ)
    (h1 : N + 2 ≤ nr) (h2 : 2 * N + 2 ≤ nc) (h3 : nc % 2 = 0) (h4 : nr ≤ 2 ^ 28)
    (h1' : N + 2 ≤ nr') (h2' : 2 * N + 2 ≤ nc') (h3' : nc' % 2 = 0) (h4' : nr' ≤ 2 ^ 28) :
    ∃ p q c d, SPatt.init (.arr (sampleGrid nr nc F)) false = .ok p ∧
      SPatt.init (.arr (sampleGrid nr' nc' fun x => F (Q.mulVec x))) false = .ok q ∧
      spht b p (some N) (some N) = .ok c ∧ spht b' q (some N) (some N) = .ok d ∧
      d.angularPowerSpectrum (fun x : ℂ => ‖x‖) = c.angularPowerSpectrum (fun x : ℂ => ‖x‖) ∧
      d.power (fun x : ℂ => ‖x‖) = c.power (fun x : ℂ => ‖x‖) := by
  obtain ⟨W, hW, h⟩ := c90_rotation Q hQ
  obtain ⟨p, q, c, d, e1, e2, e3, e4, ⟨hc, c1, c2⟩, ⟨hd, d1, d2⟩, hv, hd'⟩ := h b b' N v F hF nr nc nr' nc' h1 h2 h3 h4 h1' h2' h3' h4'
  obtain ⟨s, f, hl, hs, hp, -⟩ := c13_power (fun x : ℂ => ‖x‖) c hc
  obtain ⟨s', f', hl', hs', hp', -⟩ := c13_power (fun x : ℂ => ‖x‖) d hd
  have key : s' = s := by
    apply List.ext_getElem (by omega)
    intro n g1 g2
    have hmin : min (n : ℤ) N = n := by omega
    rw [hs n g2, hs' n g1, c2, d2, hmin]
    have k1 : ∀ l ∈ Icc (-(n : ℤ)) n, (readMap d n l).elim 0 (fun x => ‖x‖ ^ 2) = ‖∑ m ∈ Icc (-(n : ℤ)) n, v n m * W n m l‖ ^ 2 := by
      intro l hl
      rw [mem_Icc] at hl
      rw [hd' n l (by rw [isMode_iff]; omega), Int.toNat_natCast]
      rfl
    have k2 : ∀ m ∈ Icc (-(n : ℤ)) n, (readMap c n m).elim 0 (fun x => ‖x‖ ^ 2) = ‖v n m‖ ^ 2 := by
      intro m hm
      rw [mem_Icc] at hm
      rw [hv n m (by rw [isMode_iff]; omega)]
      rfl
    rw [sum_congr rfl k1, sum_congr rfl k2]
    exact Rot.power_unitary (Icc (-(n : ℤ)) n) (W n) (hW n) (fun m => v n m)
  refine ⟨p, q, c, d, e1, e2, e3, e4, ?_, ?_⟩
  · rw [f, f', key]
  · rw [← hp, ← hp', key]

/-- Hypotheses of C90 with a quarter turn about the y-axis and a function that it changes. -/
example : ∃ (Q : Matrix (Fin 3) (Fin 3) ℝ) (v : ℤ → ℤ → ℂ) (F : (Fin 3 → ℝ) → ℂ), Q.transpose * Q = 1 ∧
    (∀ θ φ, F (pt θ φ) = shSeries (1 : ℕ) (1 : ℕ) v θ φ) ∧ (∃ x, Rot.Unit3 x ∧ F (Q.mulVec x) ≠ F x) ∧
    1 + 2 ≤ 5 ∧ 2 * 1 + 2 ≤ 6 ∧ 6 % 2 = 0 ∧ 5 ≤ 2 ^ 28 := by
  refine ⟨!![0, 0, -1; 0, 1, 0; 1, 0, 0], fun n m => if n = 1 ∧ m = 0 then 1 else 0, Rot.Yv 1 0, ?_, ?_, ?_, by norm_num⟩
  · ext i j
    fin_cases i <;> fin_cases j <;> simp [Matrix.mul_apply, Fin.sum_univ_three]
  · intro θ φ
    unfold shSeries
    rw [Rot.Yv_pt, sum_eq_single ((1, 0) : ℤ × ℤ)]
    · simp
    · intro p _ hp
      simp only
      rw [if_neg (fun h => hp (Prod.ext h.1 h.2)), zero_mul]
    · intro h
      exact absurd (mem_modes.mpr (by rw [isMode_iff]; simp)) h
  · refine ⟨![0, 0, 1], by simp [Rot.Unit3], ?_⟩
    have hl : legD 1 0 = Polynomial.X := by
      unfold legD legendre rodU
      simp only [Function.iterate_zero, id_eq, pow_one, Function.iterate_one, Nat.factorial, map_sub, Polynomial.derivative_X_pow,
        Polynomial.derivative_one]
      rw [show (2 : ℕ) - 1 = 1 from rfl, pow_one, sub_zero, ← mul_assoc, ← Polynomial.C_mul]
      norm_num
    have hn : normSH 1 0 ≠ 0 := by
      unfold normSH
      have := Real.pi_pos
      refine (Real.sqrt_pos.mpr ?_).ne'
      simp [Nat.factorial]; positivity
    unfold Rot.Yv
    simp [hl, tconst, Matrix.mulVec, dotProduct, Fin.sum_univ_three]
    exact fun h => hn (by exact_mod_cast h.symm)

end Verif.Props
