import Verif.VecTrans
/-!
# The vector round trip: lemmas
-/
namespace Verif
open Finset

/-- Sequences of the two components that `vispht` produces, order `m`. -/
noncomputable def tSeq (v u : ℤ → ℕ → ℂ) (nmax : ℕ) (m ν : ℤ) : ℂ := -Hval v nmax m ν - Complex.I * (ν * Gval u nmax m ν)

noncomputable def pSeq (v u : ℤ → ℕ → ℂ) (nmax : ℕ) (m ν : ℤ) : ℂ := ν * Gval v nmax m ν - Complex.I * Hval u nmax m ν

theorem sldot_first (v u : ℤ → ℕ → ℂ) (nmax : ℕ) (m : ℤ) : sldot m (tSeq v u nmax m) (pSeq v u nmax m) =
    fun k => (Gval (fun m n => (n * (n + 1) : ℂ) * v m n) nmax m (k - 1) - Gval (fun m n => (n * (n + 1) : ℂ) * v m n) nmax m (k + 1)) / (2 * Complex.I) := by
  funext k
  unfold sldot tSeq pSeq
  have h1 := Gval_laplace v nmax m k
  have h2 := Hval_sin u nmax m k
  linear_combination h1 - (k * Complex.I) * h2

theorem sldot_second (v u : ℤ → ℕ → ℂ) (nmax : ℕ) (m : ℤ) :
    sldot m (fun ν => -Complex.I * pSeq v u nmax m ν) (fun ν => Complex.I * tSeq v u nmax m ν) =
    fun k => (Gval (fun m n => (n * (n + 1) : ℂ) * u m n) nmax m (k - 1) - Gval (fun m n => (n * (n + 1) : ℂ) * u m n) nmax m (k + 1)) / (2 * Complex.I) := by
  funext k
  unfold sldot tSeq pSeq
  have h1 := Gval_laplace u nmax m k
  have h2 := Hval_sin v nmax m k
  have h3 : Complex.I * Complex.I = -1 := Complex.I_mul_I
  linear_combination h1 - (k * Complex.I) * h2 + (-(m * Hval u nmax m k) - k * ((((k - 1 : ℤ) : ℂ) * Gval u nmax m (k - 1) - ((k + 1 : ℤ) : ℂ) * Gval u nmax m (k + 1)) / (2 * Complex.I))) * h3

theorem pat_ext {D E : Arr2 ℂ} (r c : ℕ) (h1 : D.rows = r) (h2 : D.cols = c) (h3 : E.rows = r) (h4 : E.cols = c)
    (h : ∀ i j, i < r → j < c → D.at' i j = E.at' i j) : D = E := by
  refine Arr2.ext' (h1.trans h3.symm) (h2.trans h4.symm) fun i j hi hj => h i j (by omega) (by omega)

end Verif
