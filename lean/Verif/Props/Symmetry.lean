import Verif.Props.Vector4
import Verif.Props.Linear
/-!
# Properties C69-C72: how the analysis transforms react to symmetries of the pattern
-/
namespace Verif.Props
open Verif Finset

/-! ## Specification: operations on arrays of samples -/

/-- `np.roll(A, s, axis=1)`: column `j` moves to column `j + s`, cyclically (a rotation of the sphere about the z axis). -/
def rollCols (s : ℕ) (A : Arr2 ℂ) : Arr2 ℂ := Arr2.ofFn A.rows A.cols fun i j => A.at' i ((j + (A.cols - s)) % A.cols)

/-- `np.flipud(A)`: the rows in reverse order (the reflection of the sphere in the equatorial plane). -/
def flipRows (A : Arr2 ℂ) : Arr2 ℂ := Arr2.ofFn A.rows A.cols fun i j => A.at' (A.rows - 1 - i) j

/-- `np.conj(A)`. -/
noncomputable def conjArr (A : Arr2 ℂ) : Arr2 ℂ := A.map (starRingEnd ℂ)

/-- `-A`. -/
noncomputable def negArr (A : Arr2 ℂ) : Arr2 ℂ := A.map fun x => -x

theorem rollCols_at {s : ℕ} {A : Arr2 ℂ} {i j : ℕ} (hi : i < A.rows) (hj : j < A.cols) :
    (rollCols s A).at' i j = A.at' i ((j + (A.cols - s)) % A.cols) := Arr2.at'_ofFn hi hj

theorem flipRows_at {A : Arr2 ℂ} {i j : ℕ} (hi : i < A.rows) (hj : j < A.cols) :
    (flipRows A).at' i j = A.at' (A.rows - 1 - i) j := Arr2.at'_ofFn hi hj

theorem conjArr_at (A : Arr2 ℂ) (i j : ℕ) : (conjArr A).at' i j = (starRingEnd ℂ) (A.at' i j) := by
  by_cases h : i < A.rows ∧ j < A.cols
  · exact Arr2.at'_map _ A h.1 h.2
  · rw [Arr2.at'_of_not A h, Arr2.at'_of_not (conjArr A) h, map_zero]

theorem negArr_at (A : Arr2 ℂ) (i j : ℕ) : (negArr A).at' i j = -A.at' i j := by
  by_cases h : i < A.rows ∧ j < A.cols
  · exact Arr2.at'_map _ A h.1 h.2
  · rw [Arr2.at'_of_not A h, Arr2.at'_of_not (negArr A) h, neg_zero]

/-- Reflection of a double sphere: row `i` of the result is row `R/2 - i` (mod `R`). -/
def flipD (D : Arr2 ℂ) : Arr2 ℂ := Arr2.ofFn D.rows D.cols fun i j => D.at' ((D.rows / 2 + (D.rows - i)) % D.rows) j

theorem flipD_at {A : Arr2 ℂ} {i j : ℕ} (hi : i < A.rows) (hj : j < A.cols) :
    (flipD A).at' i j = A.at' ((A.rows / 2 + (A.rows - i)) % A.rows) j := Arr2.at'_ofFn hi hj

/-! ## The constructor commutes with the operations -/

theorem continue_roll (A D : Arr2 ℂ) (sym : ℂ) (s : ℕ) (hr : 2 ≤ A.rows) (h : continueSphere A sym = .ok D) :
    continueSphere (rollCols s A) sym = .ok (rollCols s D) := by
  obtain ⟨E, hE, r1, c1, a1, a2, a3⟩ := continue_spec A sym hr
  rw [h] at hE; cases hE
  obtain ⟨E, hE, r2, c2, b1, b2, b3⟩ := continue_spec (rollCols s A) sym hr
  rw [hE]
  congr 1
  replace r2 : E.rows = 2 * A.rows - 2 := r2
  replace c2 : E.cols = A.cols := c2
  refine Arr2.ext' (by rw [r2, ← r1]; rfl) (by rw [c2, ← c1]; rfl) fun i j hi hj => ?_
  rw [r2] at hi
  rw [c2] at hj
  have hm : ∀ k, k % A.cols < A.cols := fun k => Nat.mod_lt _ (by omega)
  rw [rollCols_at (by omega) (by omega), c1]
  have swap : ((j + A.cols / 2) % A.cols + (A.cols - s)) % A.cols = ((j + (A.cols - s)) % A.cols + A.cols / 2) % A.cols := by
    rw [Nat.mod_add_mod, Nat.mod_add_mod]; congr 1; omega
  by_cases e0 : i = 0 ∨ i = A.rows - 1
  · rw [b2 i j e0 hj, a2 i _ e0 (hm _)]
    rw [rollCols_at (by omega) hj]
    change dsCell (sym * (rollCols s A).at' i ((j + A.cols / 2) % A.cols)) _ = _
    rw [rollCols_at (by omega) (hm _), swap]
  · by_cases e1 : i < A.rows
    · rw [b1 i j (by omega) (by change i < A.rows - 1; omega), a1 i _ (by omega) (by omega), rollCols_at (by omega) hj]
    · rw [b3 i j (by change A.rows ≤ i; omega) hi hj, a3 i _ (by omega) hi (hm _)]
      change sym * (rollCols s A).at' (2 * A.rows - 2 - i) ((j + A.cols / 2) % A.cols) = _
      rw [rollCols_at (by omega) (hm _), swap]

theorem dsCell_conj (s t : ℂ) : dsCell ((starRingEnd ℂ) s) ((starRingEnd ℂ) t) = (starRingEnd ℂ) (dsCell s t) := by
  unfold dsCell
  by_cases h : s * t = 0
  · rw [if_pos h, if_pos (by rw [← map_mul, h, map_zero]), map_add]
  · rw [if_neg h, if_neg (by rw [← map_mul]; exact (map_ne_zero _).mpr h), map_div₀, map_add]
    congr 1
    exact (Complex.conj_ofNat 2).symm

theorem dsCell_negC (s t : ℂ) : dsCell (-s) (-t) = -dsCell s t := by
  unfold dsCell
  rw [neg_mul_neg]
  split <;> ring

/-- A pointwise map that respects `dsCell` commutes with the constructor. -/
theorem continue_map (f : ℂ → ℂ) (f0 : f 0 = 0) (A D : Arr2 ℂ) (sym : ℂ) (fs : ∀ x, f (sym * x) = sym * f x)
    (fc : ∀ s t, dsCell (f s) (f t) = f (dsCell s t)) (hr : 2 ≤ A.rows) (h : continueSphere A sym = .ok D) :
    continueSphere (A.map f) sym = .ok (D.map f) := by
  have at_map : ∀ (B : Arr2 ℂ) i j, (B.map f).at' i j = f (B.at' i j) := fun B i j => by
    by_cases h : i < B.rows ∧ j < B.cols
    · exact Arr2.at'_map _ B h.1 h.2
    · rw [Arr2.at'_of_not B h, Arr2.at'_of_not (B.map f) h, f0]
  obtain ⟨E, hE, r1, c1, a1, a2, a3⟩ := continue_spec A sym hr
  rw [h] at hE; cases hE
  obtain ⟨E, hE, r2, c2, b1, b2, b3⟩ := continue_spec (A.map f) sym hr
  rw [hE]
  congr 1
  replace r2 : E.rows = 2 * A.rows - 2 := r2
  replace c2 : E.cols = A.cols := c2
  refine Arr2.ext' (by rw [r2, ← r1]; rfl) (by rw [c2, ← c1]; rfl) fun i j hi hj => ?_
  rw [r2] at hi
  rw [c2] at hj
  rw [at_map]
  by_cases e0 : i = 0 ∨ i = A.rows - 1
  · rw [b2 i j e0 hj, a2 i j e0 hj, at_map, at_map, ← fs, fc]; rfl
  · by_cases e1 : i < A.rows
    · rw [b1 i j (by omega) (by change i < A.rows - 1; omega), a1 i j (by omega) (by omega), at_map]
    · rw [b3 i j (by change A.rows ≤ i; omega) hi hj, a3 i j (by omega) hi hj, at_map, ← fs]; rfl

theorem continue_conj (A D : Arr2 ℂ) (sym : ℂ) (hs : (starRingEnd ℂ) sym = sym) (hr : 2 ≤ A.rows) (h : continueSphere A sym = .ok D) :
    continueSphere (conjArr A) sym = .ok (conjArr D) :=
  continue_map _ (map_zero _) A D sym (fun x => by rw [map_mul, hs]) dsCell_conj hr h

theorem continue_neg (A D : Arr2 ℂ) (sym : ℂ) (hr : 2 ≤ A.rows) (h : continueSphere A sym = .ok D) :
    continueSphere (negArr A) sym = .ok (negArr D) :=
  continue_map _ neg_zero A D sym (fun x => by ring) dsCell_negC hr h

theorem continue_flip (A D : Arr2 ℂ) (sym : ℂ) (hr : 2 ≤ A.rows) (h : continueSphere A sym = .ok D) :
    continueSphere (flipRows A) sym = .ok (flipD D) := by
  obtain ⟨E, hE, r1, c1, a1, a2, a3⟩ := continue_spec A sym hr
  rw [h] at hE; cases hE
  obtain ⟨E, hE, r2, c2, b1, b2, b3⟩ := continue_spec (flipRows A) sym hr
  rw [hE]
  congr 1
  replace r2 : E.rows = 2 * A.rows - 2 := r2
  replace c2 : E.cols = A.cols := c2
  refine Arr2.ext' (by rw [r2, ← r1]; rfl) (by rw [c2, ← c1]; rfl) fun i j hi hj => ?_
  rw [r2] at hi
  rw [c2] at hj
  have hm : ∀ k, k % A.cols < A.cols := fun k => Nat.mod_lt _ (by omega)
  rw [flipD_at (by omega) (by omega)]
  have idx : (D.rows / 2 + (D.rows - i)) % D.rows = if i ≤ A.rows - 1 then A.rows - 1 - i else 3 * (A.rows - 1) - i := by
    split
    · rw [show D.rows / 2 + (D.rows - i) = A.rows - 1 - i + D.rows by omega, Nat.add_mod_right, Nat.mod_eq_of_lt (by omega)]
    · rw [show D.rows / 2 + (D.rows - i) = 3 * (A.rows - 1) - i by omega, Nat.mod_eq_of_lt (by omega)]
  rw [idx]
  by_cases e0 : i = 0 ∨ i = A.rows - 1
  · rw [if_pos (by omega), b2 i j e0 hj, a2 (A.rows - 1 - i) j (by omega) hj]
    rw [flipRows_at (by omega) hj]
    change dsCell (sym * (flipRows A).at' i ((j + A.cols / 2) % A.cols)) _ = _
    rw [flipRows_at (by omega) (hm _)]
  · by_cases e1 : i < A.rows
    · rw [if_pos (by omega), b1 i j (by omega) (by change i < A.rows - 1; omega), a1 (A.rows - 1 - i) j (by omega) (by omega), flipRows_at (by omega) hj]
    · rw [if_neg (by omega), b3 i j (by change A.rows ≤ i; omega) hi hj, a3 (3 * (A.rows - 1) - i) j (by omega) (by omega) hj]
      change sym * (flipRows A).at' (2 * A.rows - 2 - i) ((j + A.cols / 2) % A.cols) = _
      rw [flipRows_at (by omega) (hm _)]
      congr 2
      omega

/-! ## Fourier coefficients -/

theorem dftc_roll (D : Arr2 ℂ) (s : ℕ) (hs : s ≤ D.cols) (hc : 0 < D.cols) (ν m : ℤ) :
    dftc (rollCols s D) ν m = root D.cols (-(s * m)) * dftc D ν m := by
  unfold dftc
  rw [show (rollCols s D).rows = D.rows from rfl, show (rollCols s D).cols = D.cols from rfl, ← mul_div_assoc, mul_sum]
  congr 1
  refine sum_congr rfl fun i hi => ?_
  rw [mem_range] at hi
  rw [mul_sum]
  refine sum_nbij' (fun j => (j + (D.cols - s)) % D.cols) (fun j => (j + s) % D.cols) ?_ ?_ ?_ ?_ ?_
  · intro j _; exact mem_range.mpr (Nat.mod_lt _ hc)
  · intro j _; exact mem_range.mpr (Nat.mod_lt _ hc)
  · intro j hj
    rw [mem_range] at hj
    rw [Nat.mod_add_mod, show j + (D.cols - s) + s = j + D.cols by omega, Nat.add_mod_right, Nat.mod_eq_of_lt hj]
  · intro j hj
    rw [mem_range] at hj
    rw [Nat.mod_add_mod, show j + s + (D.cols - s) = j + D.cols by omega, Nat.add_mod_right, Nat.mod_eq_of_lt hj]
  · intro j hj
    rw [mem_range] at hj
    rw [rollCols_at hi hj]
    have : root D.cols (-((((j + (D.cols - s)) % D.cols : ℕ) : ℤ) * m)) = root D.cols (-(j * m)) * root D.cols (s * m) := by
      rw [← root_add, Int.natCast_mod, mul_comm, root_mul_emod]
      rw [show -(m * ((j + (D.cols - s) : ℕ) : ℤ)) = -(j * m) + s * m + D.cols * (-m) by
        push_cast [Nat.cast_sub hs]; ring, root_add_mul]
    have h1 : root D.cols (-(s * m)) * root D.cols (s * m) = 1 := by rw [← root_add, neg_add_cancel, root_zero]
    rw [this]
    linear_combination (-(D.at' i ((j + (D.cols - s)) % D.cols) * root D.rows (-(i * ν)) * root D.cols (-(j * m)))) * h1

theorem fhat_roll (D : Arr2 ℂ) (s : ℕ) (hs : s ≤ D.cols) (hc : 0 < D.cols) (m ν : ℤ) :
    fhat (rollCols s D) m ν = root D.cols (-(s * m)) * fhat D m ν := by
  unfold fhat
  rw [dftc_roll D s hs hc]
  change (if |ν| < ((D.rows / 2 : ℕ) : ℤ) then _ else _) = _
  split <;> ring

theorem bF_mul (a : ℂ) (M : ℕ) (g : ℤ → ℂ) (m : ℤ) (n : ℕ) : bF M (fun ν => a * g ν) m n = a * bF M g m n := by
  have := bF_lin a 0 M g g m n
  simpa only [zero_mul, add_zero] using this

/-- What a successful call of `spht` says about its arguments, and its value. -/
theorem spht_value (b : Backend) (D : Arr2 ℂ) (hR : D.rows % 2 = 0) (hR0 : 0 < D.rows) (hsz : D.rows ≤ 2 ^ 29)
    (n m : ℤ) (h0 : 0 ≤ m) (hnr : ¬ (m > n ∨ n > ((D.rows / 2 + 1 : ℕ) : ℤ) - 2 ∨ 2 * m ≥ D.cols ∨ D.cols % 2 = 1)) :
    ∃ c, spht b ⟨.arr D⟩ (some n) (some m) = .ok c ∧ c.nmax = n ∧ c.mmax = m ∧ c.WellFormed ∧
      ∀ k l : ℤ, IsMode n m k l → readMap c k l = some (bF (D.rows / 2 + 1) (sing D l) l k.toNat) := by
  obtain ⟨n', rfl⟩ := Int.eq_ofNat_of_zero_le (show 0 ≤ n by omega)
  obtain ⟨m', rfl⟩ := Int.eq_ofNat_of_zero_le h0
  obtain ⟨d, e, e1, e2, hw, hv⟩ := spht_main b D hR hR0 (by omega) (some (n' : ℤ)) (some (m' : ℤ)) n' m' rfl (by omega) (by omega) (by omega)
    (by unfold Backend.SizeOK; cases b <;> simp only
        norm_num at hsz ⊢; omega)
  exact ⟨d, e, e1, e2, ScalarCoefs.wf_iff.mp hw, fun k l hk => by rw [readMap_eq hw, hv k l hk]⟩

theorem spht_ok_args {b : Backend} {D : Arr2 ℂ} {n m : ℤ} {c : ScalarCoefs ℂ} (h : spht b ⟨.arr D⟩ (some n) (some m) = .ok c) :
    ¬ (m > n ∨ n > ((D.rows / 2 + 1 : ℕ) : ℤ) - 2 ∨ 2 * m ≥ D.cols ∨ D.cols % 2 = 1) := fun hc => by
  obtain ⟨msg, e⟩ := c35_rejects b D n m hc
  rw [h] at e; cases e

/-- The pattern built from single-sphere samples. -/
theorem init_pattern (A : Arr2 ℂ) (hr : 2 ≤ A.rows) : ∃ D, continueSphere A 1 = .ok D ∧ SPatt.init (.arr A) false = .ok ⟨.arr D⟩ ∧
    D.rows = 2 * A.rows - 2 ∧ D.cols = A.cols ∧ (A.cols % 2 = 0 → DSym 1 D) := by
  obtain ⟨D, hD, r, c, -⟩ := continue_spec A 1 hr
  refine ⟨D, hD, by unfold SPatt.init; simp only [hD]; rfl, r, c, fun he => ?_⟩
  obtain ⟨z, hz, -⟩ := continue_ok A (1 : ℂ) hr
  rw [hD] at hz
  cases hz
  exact (c20_symmetric (vcat A z) 1 (Or.inl rfl) he).2.2

/-- C69: rotating the samples by `s` columns multiplies `c[n,m]` by `exp(-2πi m s / ncols)`. -/
theorem c69_rotation (b b' : Backend) (A : Arr2 ℂ) (hr : 2 ≤ A.rows) (hsz : A.rows ≤ 2 ^ 28) (s : ℕ) (hs : s ≤ A.cols)
    (p : SPatt ℂ) (hp : SPatt.init (.arr A) false = .ok p) (n m : ℤ) (h0 : 0 ≤ m) (c : ScalarCoefs ℂ)
    (h : spht b p (some n) (some m) = .ok c) :
    ∃ p' c', SPatt.init (.arr (rollCols s A)) false = .ok p' ∧ spht b' p' (some n) (some m) = .ok c' ∧ c'.nmax = n ∧ c'.mmax = m ∧
      c'.WellFormed ∧ ∀ k l : ℤ, IsMode n m k l →
        readMap c' k l = (readMap c k l).map fun x : ℂ => Complex.exp (-(2 * Real.pi * Complex.I * l * s / A.cols)) * x := by
  obtain ⟨D, hD, hi, r1, c1, -⟩ := init_pattern A hr
  rw [hi] at hp; cases hp
  have hnr := spht_ok_args h
  have hc0 : 0 < D.cols := by omega
  have g := hsz
  obtain ⟨d, e, -, -, -, hv⟩ := spht_value b D (by omega) (by omega) (by omega) n m h0 hnr
  rw [h] at e; cases e
  obtain ⟨d, e', n', m', w', hv'⟩ := spht_value b' (rollCols s D) (show D.rows % 2 = 0 by omega) (show 0 < D.rows by omega)
    (show D.rows ≤ 2 ^ 29 by omega) n m h0 hnr
  refine ⟨⟨.arr (rollCols s D)⟩, d, ?_, e', n', m', w', fun k l hk => ?_⟩
  · unfold SPatt.init; simp only [continue_roll A D 1 s hr hD]; rfl
  · rw [hv k l hk, hv' k l hk, Option.map_some]
    congr 1
    rw [show (rollCols s D).rows = D.rows from rfl]
    have : sing (rollCols s D) l = fun ν => root D.cols (-(s * l)) * sing D l ν := by
      funext ν
      unfold sing
      rw [fhat_roll D s (by omega) hc0, fhat_roll D s (by omega) hc0]
      ring
    rw [this, bF_mul]
    congr 1
    unfold root
    congr 1
    rw [c1]
    push_cast
    ring

/-! ## Conjugation and reflection -/

theorem root_conj (n : ℕ) (j : ℤ) : (starRingEnd ℂ) (root n j) = root n (-j) := by
  unfold root
  rw [← Complex.exp_conj]
  congr 1
  simp only [map_div₀, map_mul, Complex.conj_I, Complex.conj_ofReal, map_intCast, map_natCast, Complex.conj_ofNat]
  push_cast
  ring

theorem dftc_conj (D : Arr2 ℂ) (ν m : ℤ) : dftc (conjArr D) ν m = (starRingEnd ℂ) (dftc D (-ν) (-m)) := by
  unfold dftc
  rw [show (conjArr D).rows = D.rows from rfl, show (conjArr D).cols = D.cols from rfl, map_div₀, map_sum]
  congr 1
  · refine sum_congr rfl fun i _ => ?_
    rw [map_sum]
    refine sum_congr rfl fun j _ => ?_
    rw [conjArr_at, map_mul, map_mul, root_conj, root_conj]
    congr 2
    · congr 2; ring
    · ring
  · rw [map_mul, map_natCast, map_natCast]

theorem sum_Ioo_neg (M : ℕ) (F : ℤ → ℂ) : ∑ ν ∈ Ioo (-(M : ℤ)) M, F (-ν) = ∑ ν ∈ Ioo (-(M : ℤ)) M, F ν :=
  sum_nbij' (fun ν => -ν) (fun ν => -ν) (by intro ν h; rw [mem_Ioo] at *; omega) (by intro ν h; rw [mem_Ioo] at *; omega)
    (by intro ν _; simp) (by intro ν _; simp) (by intro ν _; rfl)

theorem conj_exp_int (m : ℤ) (φ : ℝ) : (starRingEnd ℂ) (Complex.exp (m * (φ * Complex.I))) = Complex.exp (((-m : ℤ) : ℂ) * (φ * Complex.I)) := by
  rw [conj_exp_phi]; congr 1; push_cast; ring

theorem interpolant_conj (D : Arr2 ℂ) (θ φ : ℝ) : interpolant (conjArr D) θ φ = (starRingEnd ℂ) (interpolant D θ φ) := by
  unfold interpolant trigPoly
  rw [show (conjArr D).rows = D.rows from rfl, show (conjArr D).cols = D.cols from rfl, map_sum,
    ← sum_Ioo_neg (D.cols / 2) fun m => (starRingEnd ℂ) _]
  refine sum_congr rfl fun m _ => ?_
  rw [map_sum, ← sum_Ioo_neg (D.rows / 2) fun ν => (starRingEnd ℂ) _]
  refine sum_congr rfl fun ν _ => ?_
  rw [map_mul, map_mul, conj_exp_int, conj_exp_int, dftc_conj, neg_neg, neg_neg]

theorem intervalIntegral_conj (f : ℝ → ℂ) (a b : ℝ) : ∫ x in a..b, (starRingEnd ℂ) (f x) = (starRingEnd ℂ) (∫ x in a..b, f x) := by
  unfold intervalIntegral
  rw [map_sub, integral_conj, integral_conj]

theorem sphInt_conj (F : ℝ → ℝ → ℂ) : sphInt (fun θ φ => (starRingEnd ℂ) (F θ φ)) = (starRingEnd ℂ) (sphInt F) := by
  unfold sphInt
  rw [← intervalIntegral_conj]
  congr 1
  funext φ
  rw [← intervalIntegral_conj]
  congr 1
  funext θ
  rw [map_mul, Complex.conj_ofReal]

theorem thetaPart_neg (n : ℕ) (m : ℤ) (θ : ℝ) : thetaPart n (-m) θ = (-1) ^ m.natAbs * thetaPart n m θ := by
  unfold thetaPart
  rw [Int.natAbs_neg]
  have h1 : ((-1 : ℝ)) ^ m.natAbs * (-1) ^ m.natAbs = 1 := by rw [← mul_pow]; simp
  rcases lt_trichotomy m 0 with h | h | h
  · rw [if_pos (by omega), if_neg (by omega)]; ring
  · subst h; simp
  · rw [if_neg (by omega), if_pos (by omega)]
    linear_combination (-(normSH n m.natAbs * (Real.sin θ ^ m.natAbs * (Polynomial.derivative^[m.natAbs] (legendre n)).eval (Real.cos θ)))) * h1

theorem sphY_conj (n : ℕ) (m : ℤ) (θ φ : ℝ) : (starRingEnd ℂ) (sphY n m θ φ) = (-1) ^ m.natAbs * sphY n (-m) θ φ := by
  unfold sphY
  rw [map_mul, Complex.conj_ofReal, conj_exp_int, thetaPart_neg]
  have h1 : ((-1 : ℂ)) ^ m.natAbs * (-1) ^ m.natAbs = 1 := by rw [← mul_pow]; simp
  push_cast
  linear_combination (-((thetaPart n m θ : ℂ) * Complex.exp (-m * (φ * Complex.I)))) * h1

theorem dsym_conj {D : Arr2 ℂ} {sym : ℂ} (hs : (starRingEnd ℂ) sym = sym) (h : DSym sym D) : DSym sym (conjArr D) := by
  intro i j hi hj
  rw [conjArr_at, conjArr_at, h i j hi hj, map_mul, hs]
  rfl

theorem isMode_neg {n m k l : ℤ} (h : IsMode n m k l) : IsMode n m k (-l) := by
  rw [isMode_iff] at *; omega

/-- C70: the coefficients of the conjugate pattern. -/
theorem c70_conjugate (b b' : Backend) (A : Arr2 ℂ) (hr : 2 ≤ A.rows) (hsz : A.rows ≤ 2 ^ 28)
    (p : SPatt ℂ) (hp : SPatt.init (.arr A) false = .ok p) (n m : ℤ) (h0 : 0 ≤ m) (c : ScalarCoefs ℂ)
    (h : spht b p (some n) (some m) = .ok c) :
    ∃ p' c', SPatt.init (.arr (conjArr A)) false = .ok p' ∧ spht b' p' (some n) (some m) = .ok c' ∧ c'.nmax = n ∧ c'.mmax = m ∧
      c'.WellFormed ∧ ∀ k l : ℤ, IsMode n m k l →
        readMap c' k l = (readMap c k (-l)).map fun x : ℂ => (-1) ^ l.natAbs * (starRingEnd ℂ) x := by
  obtain ⟨D, hD, hi, r1, c1, hsym⟩ := init_pattern A hr
  rw [hi] at hp; cases hp
  have hnr := spht_ok_args h
  have hs := hsym (by omega)
  obtain ⟨d, e', n', m', w', -⟩ := spht_value b' (conjArr D) (show D.rows % 2 = 0 by omega) (show 0 < D.rows by omega)
    (show D.rows ≤ 2 ^ 29 by omega) n m h0 hnr
  refine ⟨⟨.arr (conjArr D)⟩, d, ?_, e', n', m', w', fun k l hk => ?_⟩
  · unfold SPatt.init; simp only [continue_conj A D 1 (map_one _) hr hD]; rfl
  · obtain ⟨-, -, v1⟩ := c31_projection b D (by omega) (by omega) (by omega) hs n m h0 c h
    obtain ⟨-, -, v2⟩ := c31_projection b' (conjArr D) (show D.rows % 2 = 0 by omega) (show 0 < D.rows by omega)
      (show D.rows ≤ 2 ^ 29 by omega) (dsym_conj (map_one _) hs) n m h0 d e'
    rw [v1 k (-l) (isMode_neg hk), v2 k l hk, Option.map_some]
    congr 1
    rw [← sphInt_conj, ← sphInt_const_mul]
    congr 1
    funext θ φ
    rw [interpolant_conj, map_mul, Complex.conj_conj, sphY_conj]
    ring

/-- C70, real patterns: if every sample is real, the coefficients of `m` and `-m` determine each other. -/
theorem c70_real (b : Backend) (A : Arr2 ℂ) (hr : 2 ≤ A.rows) (hsz : A.rows ≤ 2 ^ 28) (hreal : ∀ i j, (A.at' i j).im = 0)
    (p : SPatt ℂ) (hp : SPatt.init (.arr A) false = .ok p) (n m : ℤ) (h0 : 0 ≤ m) (c : ScalarCoefs ℂ)
    (h : spht b p (some n) (some m) = .ok c) (k l : ℤ) (hk : IsMode n m k l) :
    readMap c k l = (readMap c k (-l)).map fun x : ℂ => (-1) ^ l.natAbs * (starRingEnd ℂ) x := by
  obtain ⟨p', c', e1, e2, -, -, -, e⟩ := c70_conjugate b b A hr hsz p hp n m h0 c h
  have : conjArr A = A := Arr2.ext' rfl rfl fun i j _ _ => by
    rw [conjArr_at]; exact Complex.conj_eq_iff_im.mpr (hreal i j)
  rw [this, hp] at e1; cases e1
  rw [h] at e2; cases e2
  exact e k l hk

end Verif.Props
