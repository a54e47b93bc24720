import Verif.TransF
import Verif.Props.Coefs1
/-!
# The scalar transforms in closed form
-/
namespace Verif
open Finset

/-- Analysis sum of Fourier coefficients `g_ν`, `|ν| < M`. -/
noncomputable def bF (M : ℕ) (g : ℤ → ℂ) (m : ℤ) (n : ℕ) : ℂ :=
  Complex.I ^ (-m) * ((4 * Real.pi * ∑ ν ∈ Ioo (-(M : ℤ)) M, g ν * Skern (0 - ν)) * ycoef n m 0 +
      2 * ∑ k ∈ range n, (4 * Real.pi * ∑ ν ∈ Ioo (-(M : ℤ)) M, g ν * Skern (((k + 1 : ℕ) : ℤ) - ν)) * ycoef n m (k + 1 : ℕ))

theorem bval_eq_bF (A : Arr2 ℂ) (m : ℤ) (n M : ℕ) (hM : A.rows = 2 * M) (g : ℤ → ℂ) (hg : ∀ ν, ν ∈ Ioo (-(M : ℤ)) M → fAt A m ν = g ν) :
    bval A m n = bF M g m n := by
  unfold bval hval bF
  rw [show (A.rows : ℤ) / 2 = M by omega]
  have h : ∀ k : ℤ, ∑ ν ∈ Ioo (-(M : ℤ)) M, fAt A m ν * Skern (k - ν) = ∑ ν ∈ Ioo (-(M : ℤ)) M, g ν * Skern (k - ν) :=
    fun k => sum_congr rfl fun ν hν => by rw [hg ν hν]
  rw [h 0]
  simp only [h]

/-- Size restriction: the model of the C code covers FFT lengths up to `2^30`. -/
def Backend.SizeOK (b : Backend) (k : ℕ) : Prop := match b with
  | .py => True
  | .c _ => k ≤ 2 ^ 30

theorem fcToSc_backend (b : Backend) (call : ℕ) (G : Arr2 ℂ) (n m : ℕ) (hL : G.rows % 2 = 0) (hL0 : 0 < G.rows) (hmn : m ≤ n)
    (hc : m < G.cols) (hny : ∀ k, fAt G k (G.rows / 2) = 0) (hsz : b.SizeOK (G.rows + n)) :
    ∃ v, b.fcToSc call G n m = .ok v ∧ SegVec (n + 1) v (2 * m + 1) (bval G) := by
  cases b with
  | py => exact fcToSc_spec G n m hL hL0 hmn hc hny
  | c J =>
    unfold Backend.fcToSc
    have hlen := ncFormula_eq (nmax := n) (mmax := m) (by omega) (by omega)
    rw [show ((n : ℤ) + 1).toNat = n + 1 by omega, Int.toNat_natCast] at hlen
    unfold npFull
    rw [hlen, if_neg (by omega)]
    simp only [Except.bind_ok, Int.toNat_natCast]
    exact cFcToSc_spec G n m hL hL0 hmn hc hny hsz _ (by simp) (J call)

/-- `sin θ` times the pattern: its Fourier coefficients. -/
noncomputable def sing (D : Arr2 ℂ) (m ν : ℤ) : ℂ := (fhat D m (ν - 1) - fhat D m (ν + 1)) / (2 * Complex.I)

theorem fhat_outer (D : Arr2 ℂ) (m ν : ℤ) (h : ((D.rows / 2 : ℕ) : ℤ) ≤ |ν|) : fhat D m ν = 0 := by
  unfold fhat; rw [if_neg (by omega)]

theorem sph_prep (D : Arr2 ℂ) (hR : D.rows % 2 = 0) (hR0 : 0 < D.rows) (hC : 0 < D.cols) :
    ∃ G, ((extFourier D).bind fun f => sinFc f) = .ok G ∧ G.rows = D.rows + 2 ∧ G.cols = D.cols ∧
      (∀ m ν : ℤ, |ν| ≤ (D.rows / 2 : ℕ) + 1 → fAt G m ν = sing D m ν) ∧ (∀ m, fAt G m (G.rows / 2) = 0) ∧
      ∀ m n, bval G m n = bF (D.rows / 2 + 1) (sing D m) m n := by
  obtain ⟨E, eE, hEr, hEc, hEv⟩ := extFourier_spec D hR hR0 hC
  obtain ⟨G, eG, hGr, hGc, hGv⟩ := sinFc_spec E (D.rows / 2) (by omega) (by omega) (fhat D) hEv (fhat_outer D) (by omega)
  rw [eE]
  refine ⟨G, eG, by omega, by omega, hGv, fun m => ?_, fun m n => ?_⟩
  · rw [show (G.rows : ℤ) / 2 = (D.rows / 2 : ℕ) + 1 by omega, hGv m _ (by rw [abs_of_nonneg (by omega)]),
      fhat_outer _ _ _ (by rw [abs_of_nonneg (by omega)]; omega), fhat_outer _ _ _ (by rw [abs_of_nonneg (by omega)]; omega)]
    simp
  · refine bval_eq_bF G m n (D.rows / 2 + 1) (by omega) _ fun ν hν => hGv m ν ?_
    rw [mem_Ioo] at hν
    rw [abs_le]; push_cast at hν; omega

/-- A vector filled mode by mode, read through the object. -/
theorem segvec_obj {α : Type} [Zero α] {n m : ℕ} {v : List α} {f : ℤ → ℕ → α} (hmn : m ≤ n) (hv : SegVec (n + 1) v (2 * m + 1) f) :
    ScalarCoefs.init (.arr v) n m = .ok ⟨v, n, m⟩ ∧ (ScalarCoefs.mk v n m).WF ∧
      ∀ n' m' : ℤ, IsMode n m n' m' → (ScalarCoefs.mk v n m).absMap n' m' = some (f m' n'.toNat) := by
  have hlen := ncFormula_eq (nmax := n) (mmax := m) (by omega) (by omega)
  rw [show ((n : ℤ) + 1).toNat = n + 1 by omega, Int.toNat_natCast, ← hv.1] at hlen
  have hw : (ScalarCoefs.mk v n m).WF := ⟨by simp, by simpa using hmn, hlen.symm⟩
  refine ⟨ScalarCoefs.init_wf (by omega) (by omega) hlen, hw, fun n' m' hm => ?_⟩
  have hm' := hm
  obtain ⟨h0, h1, h2, h3⟩ := hm'
  rw [Int.abs_eq_natAbs] at h2 h3
  have := hv.2 m' n'.toNat (by have := ord_le m'; omega) (by omega) (by omega)
  unfold ScalarCoefs.absMap
  rw [if_pos hm]
  unfold slot
  simp only
  rw [show ((n : ℤ) + 1).toNat = n + 1 by omega]
  rw [← this]
  have hlt := hw.slot_lt hm
  unfold slot at hlt
  simp only [show ((n : ℤ) + 1).toNat = n + 1 by omega] at hlt
  rw [List.getElem?_eq_getElem hlt]
  unfold rd
  simp [hlt]

theorem sphtGuards_ok (R C : ℕ) (n m : ℤ) (h1 : m ≤ n) (h2 : n < (R : ℤ) - 1) (h3 : 2 * m < C) (h4 : C % 2 = 0) :
    sphtGuards (.ok R) (.ok C) n m = .ok () := by
  unfold sphtGuards
  rw [if_neg (by omega)]
  simp only [Except.bind_ok]
  rw [if_neg (by omega), if_neg (by omega), if_neg (by omega)]

/-- `spht` on accepted arguments. -/
theorem spht_main (b : Backend) (D : Arr2 ℂ) (hR : D.rows % 2 = 0) (hR0 : 0 < D.rows) (hC : D.cols % 2 = 0) (nmax mmax : Option ℤ) (n m : ℕ)
    (hargs : sphtArgs (.ok (D.rows / 2 + 1)) (.ok D.cols) nmax mmax = .ok ((n : ℤ), (m : ℤ)))
    (hmn : m ≤ n) (hn : n < D.rows / 2) (hm : 2 * m < D.cols) (hsz : b.SizeOK (D.rows + 2 + n)) :
    ∃ c, spht b ⟨.arr D⟩ nmax mmax = .ok c ∧ c.nmax = n ∧ c.mmax = m ∧ c.WF ∧
      ∀ n' m' : ℤ, IsMode n m n' m' → c.absMap n' m' = some (bF (D.rows / 2 + 1) (sing D m') m' n'.toNat) := by
  obtain ⟨G, eG, hGr, hGc, -, hny, hb⟩ := sph_prep D hR hR0 (by omega)
  obtain ⟨v, ev, hv⟩ := fcToSc_backend b 0 G n m (by omega) (by omega) hmn (by omega) hny (by rw [hGr]; exact hsz)
  have hv' : SegVec (n + 1) v (2 * m + 1) (fun m n => bF (D.rows / 2 + 1) (sing D m) m n) :=
    ⟨hv.1, fun m' n' h1 h2 h3 => by rw [hv.2 m' n' h1 h2 h3, hb]⟩
  obtain ⟨ei, hw, hr⟩ := segvec_obj hmn hv'
  refine ⟨⟨v, n, m⟩, ?_, rfl, rfl, hw, hr⟩
  unfold spht
  have e1 : SPatt.nrows (⟨.arr D⟩ : SPatt ℂ) = .ok (D.rows / 2 + 1) := rfl
  have e2 : SPatt.ncols (⟨.arr D⟩ : SPatt ℂ) = .ok D.cols := rfl
  have e3 : SPatt.dsphere (⟨.arr D⟩ : SPatt ℂ) = .ok D := rfl
  rw [e1, e2, e3, hargs]
  simp only [Except.bind_ok]
  rw [sphtGuards_ok _ _ _ _ (by omega) (by omega) (by omega) hC]
  simp only [Except.bind_ok]
  obtain ⟨E, eE, -⟩ := extFourier_spec D hR hR0 (by omega)
  rw [eE] at eG ⊢
  simp only [Except.bind_ok] at eG ⊢
  rw [eG]
  simp only [Except.bind_ok]
  have hlen : npFull (ncFormula n m) (0 : ℂ) = .ok (List.replicate (ncFormula n m).toNat 0) := by
    unfold npFull; rw [if_neg (by rw [hw.len.symm]; omega)]
  rw [hlen]
  simp only [Except.bind_ok]
  rw [ev]
  exact ei

end Verif
