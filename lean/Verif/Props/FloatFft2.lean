import Verif.FloatFft2
import Verif.Props.FloatPow
/-!
# The two-dimensional FFTs are as accurate as the one-dimensional ones
-/
namespace Verif.Props
open Verif Finset
variable {rnd : ℝ → ℝ}

namespace F2

/-- The underflow allowance of `Fft1Within`. -/
noncomputable def τ : ℝ := 2 ^ (-900 : ℤ)

theorem τ_pos : 0 < τ := by unfold τ; positivity

/-- A one-dimensional transform with sign `σ` and factor `f`, accurate to `κ`. -/
def W1 (g : List (FC rnd) → Res (List (FC rnd))) (σ : ℤ) (f κ : ℝ) (Q : ℕ) : Prop :=
  ∀ x : List (FC rnd), x.length = Q → (∀ j, j < Q → ‖FS.val (rd x j)‖ ≤ 2 ^ (900 : ℤ)) →
    ∃ y, g x = .ok y ∧ y.length = Q ∧ ∀ k, k < Q →
      ‖FS.val (rd y k) - f * ∑ j ∈ range Q, FS.val (rd x j) * root Q (σ * (j * k : ℤ))‖ ≤ f * (κ * (∑ j ∈ range Q, ‖FS.val (rd x j)‖ + Q * τ))

theorem w1_fft {np : Fl.Fft1 rnd} {κ : ℝ} {Q : ℕ} (hQ : 0 < Q) (h : Fft1Within np κ Q) : W1 np.fft (-1) 1 κ Q := by
  intro x hx hb
  obtain ⟨y, y', e1, e2, l, hy⟩ := h.fft x hx hb
  refine ⟨y, e1, l, fun k hk => ?_⟩
  have e3 : rd y' k = ∑ j ∈ range Q, FS.val (rd x j) * root Q (-1 * (j * k : ℤ)) := by
    unfold npFft at e2
    rw [if_neg (by rw [List.length_map]; omega)] at e2
    cases e2
    rw [rd_tab (by rw [List.length_map]; omega), List.length_map, hx]
    refine sum_congr rfl fun j hj => ?_
    have hj' := mem_range.mp hj
    rw [neg_one_mul, show rd (List.map FS.val x) j = FS.val (rd x j) by simp [rd, hx, hj']]
  have := hy k hk
  rw [e3] at this
  rw [Complex.ofReal_one, one_mul, one_mul]
  exact this

theorem w1_ifft {np : Fl.Fft1 rnd} {κ : ℝ} {Q : ℕ} (hQ : 0 < Q) (h : Fft1Within np κ Q) : W1 np.ifft 1 (1 / Q) κ Q := by
  intro x hx hb
  obtain ⟨y, y', e1, e2, l, hy⟩ := h.ifft x hx hb
  refine ⟨y, e1, l, fun k hk => ?_⟩
  have e3 : rd y' k = (∑ j ∈ range Q, FS.val (rd x j) * root Q (1 * (j * k : ℤ))) / Q := by
    unfold npIfft at e2
    rw [if_neg (by rw [List.length_map]; omega)] at e2
    cases e2
    rw [rd_tab (by rw [List.length_map]; omega), List.length_map, hx]
    congr 1
    refine sum_congr rfl fun j hj => ?_
    have hj' := mem_range.mp hj
    rw [one_mul, show rd (List.map FS.val x) j = FS.val (rd x j) by simp [rd, hx, hj']]
  have := hy k hk
  rw [e3] at this
  rw [show (((1 / Q : ℝ)) : ℂ) * ∑ j ∈ range Q, FS.val (rd x j) * root Q (1 * (j * k : ℤ)) = (∑ j ∈ range Q, FS.val (rd x j) * root Q (1 * (j * k : ℤ))) / Q by push_cast; ring]
  refine this.trans (le_of_eq ?_)
  unfold τ
  ring

theorem axis1_err {g : List (FC rnd) → Res (List (FC rnd))} {σ : ℤ} {f κ : ℝ} (A : Arr2 (FC rnd)) (h : W1 g σ f κ A.cols)
    (hb : ∀ i j, i < A.rows → j < A.cols → ‖FS.val (A.at' i j)‖ ≤ 2 ^ (900 : ℤ)) :
    ∃ B, Fl.axis1 rnd g A = .ok B ∧ B.rows = A.rows ∧ B.cols = A.cols ∧ ∀ i k, i < A.rows → k < A.cols →
      ‖FS.val (B.at' i k) - f * ∑ j ∈ range A.cols, FS.val (A.at' i j) * root A.cols (σ * (j * k : ℤ))‖ ≤ f * (κ * (∑ j ∈ range A.cols, ‖FS.val (A.at' i j)‖ + A.cols * τ)) := by
  have h1 : ∀ i ∈ List.range A.rows, ∃ y, g (tab A.cols fun j => A.at' i j) = .ok y := by
    intro i hi
    obtain ⟨y, e, -⟩ := h _ (length_tab _ _) (fun j hj => by rw [rd_tab hj]; exact hb i j (List.mem_range.mp hi) hj)
    exact ⟨y, e⟩
  obtain ⟨L, e, l, hL⟩ := mapM'_spec (List.range A.rows) (fun i => g (tab A.cols fun j => A.at' i j)) h1
  unfold Fl.axis1
  rw [e]
  refine ⟨_, rfl, rfl, rfl, fun i k hi hk => ?_⟩
  rw [Arr2.at'_ofFn hi hk]
  have li : i < L.length := by rw [l, List.length_range]; exact hi
  obtain ⟨y, e2, e3, e4⟩ := h _ (length_tab _ _) (fun j hj => by rw [rd_tab hj]; exact hb i j hi hj)
  have ey : L.getD i [] = y := by
    have := hL i (by rw [List.length_range]; exact hi) li
    rw [List.getElem_range, e2] at this
    rw [List.getD_eq_getElem?_getD, List.getElem?_eq_getElem li]
    exact (Except.ok.inj this).symm
  rw [ey]
  have := e4 k hk
  have t : ∀ j ∈ range A.cols, rd (tab A.cols fun j => A.at' i j) j = A.at' i j := fun j hj => rd_tab (mem_range.mp hj)
  rw [sum_congr rfl fun j hj => by rw [t j hj]] at this
  rw [sum_congr (f := fun j => ‖FS.val (rd (tab A.cols fun j => A.at' i j) j)‖) rfl fun j hj => by rw [t j hj]] at this
  exact this

theorem axis0_err {g : List (FC rnd) → Res (List (FC rnd))} {σ : ℤ} {f κ : ℝ} (A : Arr2 (FC rnd)) (h : W1 g σ f κ A.rows)
    (hb : ∀ i j, i < A.rows → j < A.cols → ‖FS.val (A.at' i j)‖ ≤ 2 ^ (900 : ℤ)) :
    ∃ B, Fl.axis0 rnd g A = .ok B ∧ B.rows = A.rows ∧ B.cols = A.cols ∧ ∀ k j, k < A.rows → j < A.cols →
      ‖FS.val (B.at' k j) - f * ∑ i ∈ range A.rows, FS.val (A.at' i j) * root A.rows (σ * (i * k : ℤ))‖ ≤ f * (κ * (∑ i ∈ range A.rows, ‖FS.val (A.at' i j)‖ + A.rows * τ)) := by
  have h1 : ∀ j ∈ List.range A.cols, ∃ y, g (tab A.rows fun i => A.at' i j) = .ok y := by
    intro j hj
    obtain ⟨y, e, -⟩ := h _ (length_tab _ _) (fun i hi => by rw [rd_tab hi]; exact hb i j hi (List.mem_range.mp hj))
    exact ⟨y, e⟩
  obtain ⟨L, e, l, hL⟩ := mapM'_spec (List.range A.cols) (fun j => g (tab A.rows fun i => A.at' i j)) h1
  unfold Fl.axis0
  rw [e]
  refine ⟨_, rfl, rfl, rfl, fun k j hk hj => ?_⟩
  rw [Arr2.at'_ofFn hk hj]
  have li : j < L.length := by rw [l, List.length_range]; exact hj
  obtain ⟨y, e2, e3, e4⟩ := h _ (length_tab _ _) (fun i hi => by rw [rd_tab hi]; exact hb i j hi hj)
  have ey : L.getD j [] = y := by
    have := hL j (by rw [List.length_range]; exact hj) li
    rw [List.getElem_range, e2] at this
    rw [List.getD_eq_getElem?_getD, List.getElem?_eq_getElem li]
    exact (Except.ok.inj this).symm
  rw [ey]
  have := e4 k hk
  have t : ∀ i ∈ range A.rows, rd (tab A.rows fun i => A.at' i j) i = A.at' i j := fun i hi => rd_tab (mem_range.mp hi)
  rw [sum_congr rfl fun i hi => by rw [t i hi]] at this
  rw [sum_congr (f := fun i => ‖FS.val (rd (tab A.rows fun i => A.at' i j) i)‖) rfl fun i hi => by rw [t i hi]] at this
  exact this

theorem norm_root (n : ℕ) (a : ℤ) : ‖root n a‖ = 1 := by
  unfold root
  rw [show 2 * (Real.pi : ℂ) * Complex.I * a / n = ((2 * Real.pi * a / n : ℝ) : ℂ) * Complex.I by push_cast; ring, Complex.norm_exp_ofReal_mul_I]

/-- The transform along both axes. -/
theorem both_err {g : List (FC rnd) → Res (List (FC rnd))} {σ : ℤ} {f1 f2 κ : ℝ} (A : Arr2 (FC rnd)) (hR : 0 < A.rows) (hK : 0 < A.cols) (h1 : W1 g σ f1 κ A.cols) (h0 : W1 g σ f2 κ A.rows)
    (hκ : 0 ≤ κ) (hκ' : κ ≤ 1) (p1 : 0 < f1) (q1 : f1 ≤ 1) (p2 : 0 < f2) (r1 : 1 ≤ A.cols * f1) {S : ℝ} (hS : ∑ i ∈ range A.rows, ∑ j ∈ range A.cols, ‖FS.val (A.at' i j)‖ ≤ S)
    (hS2 : 2 * S + A.cols * τ ≤ 2 ^ (900 : ℤ)) :
    ∃ B, Fl.fftBoth rnd g A = .ok B ∧ B.rows = A.rows ∧ B.cols = A.cols ∧ ∀ k l, k < A.rows → l < A.cols →
      ‖FS.val (B.at' k l) - f1 * f2 * ∑ i ∈ range A.rows, ∑ j ∈ range A.cols, FS.val (A.at' i j) * root A.rows (σ * (i * k : ℤ)) * root A.cols (σ * (j * l : ℤ))‖ ≤
        f1 * f2 * (κ * (2 + κ) * (S + A.rows * A.cols * τ)) := by
  have t0 := τ_pos
  have rowS : ∀ i, i < A.rows → ∑ j ∈ range A.cols, ‖FS.val (A.at' i j)‖ ≤ S := fun i hi =>
    (single_le_sum (f := fun i => ∑ j ∈ range A.cols, ‖FS.val (A.at' i j)‖) (fun _ _ => sum_nonneg fun _ _ => norm_nonneg _) (mem_range.mpr hi)).trans hS
  have S0 : 0 ≤ S := (sum_nonneg fun _ _ => norm_nonneg _).trans (rowS 0 hR)
  have big : S ≤ 2 ^ (900 : ℤ) := by
    have : 0 ≤ A.cols * τ := by positivity
    refine le_trans ?_ hS2
    linarith
  obtain ⟨B, e1, B1, B2, hB⟩ := axis1_err A h1 fun i j hi hj =>
    ((single_le_sum (f := fun j => ‖FS.val (A.at' i j)‖) (fun _ _ => norm_nonneg _) (mem_range.mpr hj)).trans (rowS i hi)).trans big
  -- the size of the intermediate array
  have hBn : ∀ i k, i < A.rows → k < A.cols → ‖FS.val (B.at' i k)‖ ≤ f1 * ((1 + κ) * ∑ j ∈ range A.cols, ‖FS.val (A.at' i j)‖ + κ * (A.cols * τ)) := by
    intro i k hi hk
    have a := norm_add_le (FS.val (B.at' i k) - f1 * ∑ j ∈ range A.cols, FS.val (A.at' i j) * root A.cols (σ * (j * k : ℤ))) (f1 * ∑ j ∈ range A.cols, FS.val (A.at' i j) * root A.cols (σ * (j * k : ℤ)))
    rw [sub_add_cancel, norm_mul, Complex.norm_real, Real.norm_of_nonneg p1.le] at a
    have b : ‖∑ j ∈ range A.cols, FS.val (A.at' i j) * root A.cols (σ * (j * k : ℤ))‖ ≤ ∑ j ∈ range A.cols, ‖FS.val (A.at' i j)‖ :=
      norm_sum_le_of_le _ fun j _ => by rw [norm_mul, norm_root, mul_one]
    have c := mul_le_mul_of_nonneg_left b p1.le
    have d := hB i k hi hk
    refine (a.trans (add_le_add d c)).trans (le_of_eq (by ring))
  obtain ⟨E, e2, E1, E2, hE⟩ := axis0_err (σ := σ) (f := f2) (κ := κ) B (by rw [B1]; exact h0) fun i k hi hk => by
    rw [B1] at hi
    rw [B2] at hk
    refine (hBn i k hi hk).trans ?_
    have a := rowS i hi
    have b : 0 ≤ ∑ j ∈ range A.cols, ‖FS.val (A.at' i j)‖ := sum_nonneg fun _ _ => norm_nonneg _
    have c : 0 ≤ A.cols * τ := by positivity
    refine le_trans ?_ hS2
    have d : (1 + κ) * ∑ j ∈ range A.cols, ‖FS.val (A.at' i j)‖ ≤ 2 * S := mul_le_mul (by linarith) a b (by norm_num)
    have e : κ * (A.cols * τ) ≤ A.cols * τ := mul_le_of_le_one_left c hκ'
    have f : 0 ≤ (1 + κ) * ∑ j ∈ range A.cols, ‖FS.val (A.at' i j)‖ + κ * (A.cols * τ) := by positivity
    exact (mul_le_of_le_one_left f q1).trans (add_le_add d e)
  unfold Fl.fftBoth
  rw [if_neg (by omega), e1]
  refine ⟨E, e2, by rw [E1, B1], by rw [E2, B2], fun k l hk hl => ?_⟩
  have x := hE k l (by omega) (by omega)
  rw [B1] at x
  have sumB : ∑ i ∈ range A.rows, ‖FS.val (B.at' i l)‖ ≤ f1 * ((1 + κ) * S + κ * (A.rows * A.cols * τ)) := by
    refine (sum_le_sum fun i hi => hBn i l (mem_range.mp hi) hl).trans ?_
    rw [← mul_sum]
    refine mul_le_mul_of_nonneg_left ?_ p1.le
    rw [sum_add_distrib, ← mul_sum, sum_const, card_range, nsmul_eq_mul]
    have := mul_le_mul_of_nonneg_left hS (show 0 ≤ 1 + κ by linarith)
    refine (add_le_add this le_rfl).trans (le_of_eq (by ring))
  have prop : ‖(f2 : ℂ) * ∑ i ∈ range A.rows, FS.val (B.at' i l) * root A.rows (σ * (i * k : ℤ)) -
      f1 * f2 * ∑ i ∈ range A.rows, ∑ j ∈ range A.cols, FS.val (A.at' i j) * root A.rows (σ * (i * k : ℤ)) * root A.cols (σ * (j * l : ℤ))‖ ≤ f2 * (f1 * (κ * (S + A.rows * A.cols * τ))) := by
    have e : (f1 : ℂ) * f2 * ∑ i ∈ range A.rows, ∑ j ∈ range A.cols, FS.val (A.at' i j) * root A.rows (σ * (i * k : ℤ)) * root A.cols (σ * (j * l : ℤ)) =
        f2 * ∑ i ∈ range A.rows, (f1 * ∑ j ∈ range A.cols, FS.val (A.at' i j) * root A.cols (σ * (j * l : ℤ))) * root A.rows (σ * (i * k : ℤ)) := by
      rw [mul_comm (f1 : ℂ), mul_assoc, mul_sum (range A.rows) _ (f1 : ℂ)]
      congr 1
      refine sum_congr rfl fun i _ => ?_
      rw [mul_assoc (f1 : ℂ), sum_mul]
      congr 1
      refine sum_congr rfl fun j _ => ?_
      ring
    rw [e, ← mul_sub, norm_mul, Complex.norm_real, Real.norm_of_nonneg p2.le, ← sum_sub_distrib]
    refine mul_le_mul_of_nonneg_left ?_ p2.le
    refine (norm_sum_le_of_le _ (n := fun i => f1 * (κ * (∑ j ∈ range A.cols, ‖FS.val (A.at' i j)‖ + A.cols * τ))) fun i hi => ?_).trans ?_
    · rw [← sub_mul, norm_mul, norm_root, mul_one]
      exact hB i l (mem_range.mp hi) hl
    · rw [← mul_sum, ← mul_sum]
      refine mul_le_mul_of_nonneg_left (mul_le_mul_of_nonneg_left ?_ hκ) p1.le
      rw [sum_add_distrib, sum_const, card_range, nsmul_eq_mul]
      refine (add_le_add hS le_rfl).trans (le_of_eq (by ring))
  have tot := (norm_add_le _ _).trans (add_le_add x prop)
  rw [sub_add_sub_cancel] at tot
  refine tot.trans ?_
  have a := mul_le_mul_of_nonneg_left (add_le_add sumB (le_refl (A.rows * τ))) hκ
  have b := mul_le_mul_of_nonneg_left a p2.le
  have c : (A.rows : ℝ) * τ ≤ f1 * (A.rows * A.cols * τ) := by
    have : 0 ≤ (A.rows : ℝ) * τ := by positivity
    calc (A.rows : ℝ) * τ ≤ (A.cols * f1) * (A.rows * τ) := le_mul_of_one_le_left this r1
      _ = _ := by ring
  have d : f2 * (κ * (f1 * ((1 + κ) * S + κ * (A.rows * A.cols * τ)) + A.rows * τ)) ≤ f2 * (κ * (f1 * ((1 + κ) * S + κ * (A.rows * A.cols * τ)) + f1 * (A.rows * A.cols * τ))) := by
    gcongr
  refine (add_le_add (b.trans d) le_rfl).trans (le_of_eq ?_)
  ring

end F2
end Verif.Props
