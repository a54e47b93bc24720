import Verif.Math.Addition2
import Verif.Props.Product
/-!
# Property C118: filters are convolutions with zonal kernels
-/
namespace Verif.Props
open Verif Finset

/-- The zonal function `Σ_{n≤K} a_n P_n(x·y)` of two points. -/
noncomputable def zonal (K : ℕ) (a : ℕ → ℂ) (x y : Fin 3 → ℝ) : ℂ := ∑ n ∈ range (K + 1), a n * (((legendre n).eval (x ⬝ᵥ y) : ℝ) : ℂ)

theorem legendre_addition (n : ℕ) (θ φ θ' φ' : ℝ) : (((legendre n).eval (Rot.pt θ φ ⬝ᵥ Rot.pt θ' φ') : ℝ) : ℂ) =
    4 * Real.pi / (2 * n + 1) * ∑ m ∈ Icc (-(n : ℤ)) n, sphY n m θ φ * (starRingEnd ℂ) (sphY n m θ' φ') := by
  have h := Rot.addition n _ _ (unit_pt θ φ) (unit_pt θ' φ')
  simp only [Rot.Yv_pt] at h
  rw [h]
  have hp : (Real.pi : ℂ) ≠ 0 := by exact_mod_cast Real.pi_ne_zero
  have hn : (2 * (n : ℂ) + 1) ≠ 0 := by exact_mod_cast (show 2 * n + 1 ≠ 0 by omega)
  push_cast
  field_simp

/-- The window that belongs to a kernel. -/
noncomputable def kernelWindow (K : ℕ) (a : ℕ → ℂ) (n : ℕ) : ℂ := if n ≤ K then 4 * Real.pi / (2 * n + 1) * a n else 0

/-- Funk and Hecke: convolution with a zonal kernel multiplies a harmonic by a factor that depends on the degree only. -/
theorem convolution_one (K : ℕ) (a : ℕ → ℂ) (k : ℕ) (l : ℤ) (hl : l.natAbs ≤ k) (θ φ : ℝ) :
    sphInt (fun θ' φ' => zonal K a (Rot.pt θ φ) (Rot.pt θ' φ') * sphY k l θ' φ') = kernelWindow K a k * sphY k l θ φ := by
  have cS : ∀ (n : ℕ) (m : ℤ), Continuous fun x : ℝ × ℝ => sphY k l x.2 x.1 * (starRingEnd ℂ) (sphY n m x.2 x.1) := fun n m =>
    (continuous_sphY k l).mul (Complex.continuous_conj.comp (continuous_sphY n m))
  have e : (fun θ' φ' => zonal K a (Rot.pt θ φ) (Rot.pt θ' φ') * sphY k l θ' φ') = fun θ' φ' =>
      ∑ n ∈ range (K + 1), ∑ m ∈ Icc (-(n : ℤ)) n, (a n * (4 * Real.pi / (2 * n + 1)) * sphY n m θ φ) * (sphY k l θ' φ' * (starRingEnd ℂ) (sphY n m θ' φ')) := by
    funext θ' φ'
    unfold zonal
    rw [sum_mul]
    refine sum_congr rfl fun n _ => ?_
    rw [legendre_addition, mul_sum, mul_sum, sum_mul]
    exact sum_congr rfl fun m _ => by ring
  rw [e, sphInt_sum _ _ fun n _ => continuous_finsetSum _ fun m _ => continuous_const.mul (cS n m)]
  have e2 : ∀ n ∈ range (K + 1), sphInt (fun θ' φ' => ∑ m ∈ Icc (-(n : ℤ)) n, (a n * (4 * Real.pi / (2 * n + 1)) * sphY n m θ φ) * (sphY k l θ' φ' * (starRingEnd ℂ) (sphY n m θ' φ'))) =
      if k = n then kernelWindow K a k * sphY k l θ φ else 0 := by
    intro n hn
    rw [mem_range] at hn
    rw [sphInt_sum _ _ fun m _ => continuous_const.mul (cS n m)]
    have e3 : ∀ m ∈ Icc (-(n : ℤ)) n, sphInt (fun θ' φ' => (a n * (4 * Real.pi / (2 * n + 1)) * sphY n m θ φ) * (sphY k l θ' φ' * (starRingEnd ℂ) (sphY n m θ' φ'))) =
        if l = m then (if k = n then kernelWindow K a k * sphY k l θ φ else 0) else 0 := by
      intro m hm
      rw [mem_Icc] at hm
      rw [sphInt_const_mul, c26_orthonormal _ _ _ _ hl (by omega)]
      by_cases h1 : k = n
      · by_cases h2 : l = m
        · subst h1 h2
          unfold kernelWindow
          rw [if_pos ⟨rfl, rfl⟩, if_pos rfl, if_pos rfl, if_pos (by omega)]
          ring
        · rw [if_neg (fun h => h2 h.2), if_neg h2, mul_zero]
      · rw [if_neg (fun h => h1 h.1), if_neg h1, mul_zero, ite_self]
    rw [sum_congr rfl e3, sum_ite_eq]
    by_cases h1 : k = n
    · rw [if_pos (by rw [mem_Icc]; omega)]
    · rw [if_neg h1, ite_self]
  rw [sum_congr rfl e2, sum_ite_eq]
  split
  · rfl
  · next h =>
    unfold kernelWindow
    rw [mem_range] at h
    rw [if_neg (by omega), zero_mul]

/-- The same for a series. -/
theorem convolution_series (N M : ℤ) (v : ℤ → ℤ → ℂ) (K : ℕ) (a : ℕ → ℂ) (θ φ : ℝ) :
    sphInt (fun θ' φ' => zonal K a (Rot.pt θ φ) (Rot.pt θ' φ') * shSeries N M v θ' φ') =
      shSeries N M (fun n m => v n m * kernelWindow K a n.toNat) θ φ := by
  have e : (fun θ' φ' => zonal K a (Rot.pt θ φ) (Rot.pt θ' φ') * shSeries N M v θ' φ') = fun θ' φ' =>
      ∑ p ∈ modes N M, v p.1 p.2 * (zonal K a (Rot.pt θ φ) (Rot.pt θ' φ') * sphY p.1.toNat p.2 θ' φ') := by
    funext θ' φ'
    unfold shSeries
    rw [mul_sum]
    exact sum_congr rfl fun p _ => by ring
  have cz : Continuous fun x : ℝ × ℝ => zonal K a (Rot.pt θ φ) (Rot.pt x.2 x.1) := by
    unfold zonal Rot.pt dotProduct
    refine continuous_finsetSum _ fun n _ => continuous_const.mul (Complex.continuous_ofReal.comp ((legendre n).continuous.comp ?_))
    simp only [Fin.sum_univ_three, Matrix.cons_val_zero, Matrix.cons_val_one, Matrix.cons_val]
    fun_prop
  rw [e, sphInt_sum _ _ fun p _ => continuous_const.mul (cz.mul (continuous_sphY p.1.toNat p.2))]
  unfold shSeries
  refine sum_congr rfl fun p hp => ?_
  have hp' := mem_modes.mp hp
  rw [isMode_iff] at hp'
  rw [sphInt_const_mul, convolution_one K a _ _ (by omega)]
  ring

/-- C118: a window followed by `ispht` samples the convolution of the function with a zonal kernel: the window `4π/(2n+1) a_n` belongs to the kernel
`Σ a_n P_n(x·y)`. -/
theorem c118_convolution (b : Backend) (c : ScalarCoefs ℂ) (hc : c.WellFormed) (v : ℤ → ℤ → ℂ) (hv : HasCoefs c v) (K : ℕ) (a : ℕ → ℂ)
    (nr nc : ℕ) (h1 : c.nmax + 2 ≤ nr) (h2 : 2 * c.mmax + 2 ≤ nc) (h3 : nc % 2 = 0) :
    ∃ d p, c.window (degreeWindow c.nmax fun n => if n ≤ K then 4 * Real.pi / (2 * n + 1) * a n else 0) = ⟨d, none⟩ ∧
      ispht b d (some nr) (some nc) = .ok p ∧
      p.array = .ok (sampleAngles nr nc fun θ φ => sphInt fun θ' φ' =>
        (∑ n ∈ range (K + 1), a n * (((legendre n).eval (Rot.pt θ φ ⬝ᵥ Rot.pt θ' φ') : ℝ) : ℂ)) * shSeries c.nmax c.mmax v θ' φ') := by
  obtain ⟨d, e1, e2, e3, e4, e5⟩ := window_coefs c hc v hv (kernelWindow K a)
  obtain ⟨p, f1, f2⟩ := ispht_samples b d e2 _ e5 nr nc (by omega) (by omega) h3
  refine ⟨d, p, e1, f1, f2.trans ?_⟩
  rw [e3, e4]
  congr 2
  funext θ φ
  exact (convolution_series _ _ _ _ _ _ _).symm

/-- C118 (every window is a convolution): what the window `f` does to a function is the convolution with `Σ_{n≤N} (2n+1)/(4π) f(n) P_n(x·y)`; with `f = 1` the function
is reproduced. -/
theorem c118_window (b : Backend) (c : ScalarCoefs ℂ) (hc : c.WellFormed) (v : ℤ → ℤ → ℂ) (hv : HasCoefs c v) (f : ℕ → ℂ)
    (nr nc : ℕ) (h1 : c.nmax + 2 ≤ nr) (h2 : 2 * c.mmax + 2 ≤ nc) (h3 : nc % 2 = 0) :
    ∃ d p, c.window (degreeWindow c.nmax f) = ⟨d, none⟩ ∧ ispht b d (some nr) (some nc) = .ok p ∧
      p.array = .ok (sampleAngles nr nc fun θ φ => sphInt fun θ' φ' =>
        (∑ n ∈ range (c.nmax.toNat + 1), (2 * n + 1) / (4 * Real.pi) * f n * (((legendre n).eval (Rot.pt θ φ ⬝ᵥ Rot.pt θ' φ') : ℝ) : ℂ)) *
          shSeries c.nmax c.mmax v θ' φ') := by
  obtain ⟨d, p, e1, e2, e3⟩ := c118_convolution b c hc v hv c.nmax.toNat (fun n => (2 * n + 1) / (4 * Real.pi) * f n) nr nc h1 h2 h3
  refine ⟨d, p, ?_, e2, e3⟩
  rw [← e1]
  congr 1
  have h0 : 0 ≤ c.nmax := hc.wf.m0.trans hc.wf.mn
  unfold degreeWindow
  refine List.map_congr_left fun n hn => ?_
  rw [List.mem_range] at hn
  have hp : (Real.pi : ℂ) ≠ 0 := by exact_mod_cast Real.pi_ne_zero
  have hn' : (2 * (n : ℂ) + 1) ≠ 0 := by exact_mod_cast (show 2 * n + 1 ≠ 0 by omega)
  rw [if_pos (by omega)]
  field_simp

/-- C118 (a beam in a given direction): the set with `c[n,m] = g(n) conj Y_nm(θ₀,φ₀)` is synthesised to a pattern that depends only on the angle to the direction
`(θ₀, φ₀)`: the samples of `Σ_{n≤N} g(n) (2n+1)/(4π) P_n(x·x₀)`. -/
theorem c118_beam (b : Backend) (c : ScalarCoefs ℂ) (hc : c.WellFormed) (hm : c.mmax = c.nmax) (g : ℕ → ℂ) (θ₀ φ₀ : ℝ)
    (hv : HasCoefs c fun n m => g n.toNat * (starRingEnd ℂ) (sphY n.toNat m θ₀ φ₀))
    (nr nc : ℕ) (h1 : c.nmax + 2 ≤ nr) (h2 : 2 * c.mmax + 2 ≤ nc) (h3 : nc % 2 = 0) :
    ∃ p, ispht b c (some nr) (some nc) = .ok p ∧
      p.array = .ok (sampleAngles nr nc fun θ φ =>
        ∑ n ∈ range (c.nmax.toNat + 1), g n * (2 * n + 1) / (4 * Real.pi) * (((legendre n).eval (Rot.pt θ φ ⬝ᵥ Rot.pt θ₀ φ₀) : ℝ) : ℂ)) := by
  obtain ⟨p, f1, f2⟩ := ispht_samples b c hc _ hv nr nc h1 h2 h3
  refine ⟨p, f1, f2.trans ?_⟩
  congr 2
  funext θ φ
  unfold shSeries
  have h0 : 0 ≤ c.nmax := hc.wf.m0.trans hc.wf.mn
  rw [hm, series_degrees c.nmax (fun n m => g n.toNat * (starRingEnd ℂ) (sphY n.toNat m θ₀ φ₀)) (fun n m => sphY n.toNat m θ φ)]
  obtain ⟨N, hN⟩ := Int.eq_ofNat_of_zero_le h0
  rw [hN, Int.toNat_natCast]
  have himg : Icc (0 : ℤ) N = (range (N + 1)).image fun n : ℕ => (n : ℤ) := by
    ext k
    simp only [mem_Icc, mem_image, mem_range]
    constructor
    · rintro ⟨a, b⟩; exact ⟨k.toNat, by omega, by omega⟩
    · rintro ⟨n, a, rfl⟩; omega
  rw [himg, sum_image (fun a _ b _ h => by exact_mod_cast h)]
  refine sum_congr rfl fun n _ => ?_
  rw [legendre_addition, mul_sum, mul_sum]
  have hp : (Real.pi : ℂ) ≠ 0 := by exact_mod_cast Real.pi_ne_zero
  have hn : (2 * (n : ℂ) + 1) ≠ 0 := by exact_mod_cast (show 2 * n + 1 ≠ 0 by omega)
  refine sum_congr rfl fun m _ => ?_
  rw [Int.toNat_natCast]
  field_simp

/-- Sets that meet the hypotheses: a general one, and a beam in the direction `(1, 2)`. -/
example : (∃ (c : ScalarCoefs ℂ) (v : ℤ → ℤ → ℂ), c.WellFormed ∧ HasCoefs c v ∧ v 2 (-1) = 3) ∧
    ∃ c : ScalarCoefs ℂ, c.WellFormed ∧ c.mmax = c.nmax ∧ c.nmax = 4 ∧
      HasCoefs c fun n m => Complex.exp (-(n.toNat : ℂ)) * (starRingEnd ℂ) (sphY n.toNat m 1 2) := by
  obtain ⟨c, h1, -, -, h2⟩ := exists_coefs 2 1 (by norm_num) (by norm_num) fun n m => if n = 2 ∧ m = -1 then 3 else 0
  obtain ⟨d, k1, k2, k3, k4⟩ := exists_coefs 4 4 (by norm_num) (by norm_num) fun n m => Complex.exp (-(n.toNat : ℂ)) * (starRingEnd ℂ) (sphY n.toNat m 1 2)
  exact ⟨⟨c, _, h1, h2, by simp⟩, d, k1, by rw [k2, k3], k2, k4⟩

end Verif.Props
