import Verif.Props.FloatKiss8
import Mathlib.NumberTheory.Harmonic.Bounds
import Verif.CSphiB
/-!
# The kernel table of the C extension in doubles
-/
namespace Verif.Props
open Verif Finset

variable {rnd : ℝ → ℝ}

/-- C99, fresh memory: whatever `kiss_fft` returns with one content of the buffer it allocates, it returns with any other. -/
theorem c99_fresh (lm : Fl.LibM) (n : ℕ) (inv : Bool) (hn2 : n < 2 ^ 32) (cfg : Fl.KissCfg rnd) (hc : Fl.kissAlloc rnd lm n inv = .ok cfg)
    (buf : List (FC rnd)) (hb : buf.length = n) (junk junk' : ℕ → FC rnd) (out : List (FC rnd)) (h : Fl.kissFft rnd cfg buf junk = .ok out) :
    Fl.kissFft rnd cfg buf junk' = .ok out := by
  unfold Fl.kissAlloc at hc
  split_ifs at hc with h1
  · cases hc
  obtain ⟨fac, e, hs, -⟩ := kfFactor_spec n (by omega) hn2
  rw [e] at hc
  cases hc
  exact FK.fft_fresh rfl hs buf hb junk junk' h

namespace FK

theorem SimR.forL {α β ι : Type} {R : α → β → Prop} {f : α → ι → Res α} {g : β → ι → Res β} : ∀ (xs : List ι)
    (_ : ∀ x ∈ xs, ∀ a b, R a b → SimR R (f a x) (g b x)) (a : α) (b : β) (_ : R a b), SimR R (forM' xs a f) (forM' xs b g)
  | [], _, a, b, h => by
    intro x hx
    cases hx
    exact ⟨b, rfl, h⟩
  | x :: xs, hstep, a, b, h => by
    simp only [forM']
    exact SimR.bind (hstep x (by simp) a b h) fun a' b' h' => SimR.forL xs (fun y hy => hstep y (by simp [hy])) a' b' h'

/-- Bound on entry `i` of the kernel table. -/
noncomputable def kb (mm Q : ℕ) (i : ℕ) : ℝ := 1 / |((i + mm : ℕ) : ℝ)| + 1 / |((i + mm : ℕ) : ℝ) - Q|

/-- An entry of the kernel table and its double. -/
def KE (mm Q i : ℕ) (z : ℂ) (a : FC rnd) : Prop := z.re = 0 ∧ a.re = 0 ∧ |z.im| ≤ 1 ∧ |z.im| ≤ kb mm Q i ∧ |a.im - z.im| ≤ 2 * uu * |z.im|

/-- The kernel table and its doubles. -/
def KT (mm Q : ℕ) (s : List ℂ) (t : List (FC rnd)) : Prop := s.length = t.length ∧ ∀ i, KE mm Q i (rd s i) (rd t i)

theorem kb_nonneg (mm Q i : ℕ) : 0 ≤ kb mm Q i := by unfold kb; positivity

theorem ke_zero {mm Q i : ℕ} : KE mm Q i (0 : ℂ) (0 : FC rnd) := by
  refine ⟨rfl, rfl, by simp, by simpa using kb_nonneg mm Q i, ?_⟩
  show |(0 : ℝ) - 0| ≤ _
  rw [sub_zero, abs_zero]
  have := uu_pos
  positivity

theorem rnd_inv (hr : IsRounding rnd) {k : ℤ} (hk : k ≠ 0) (hk2 : |k| ≤ 2 ^ 40) : |-1 / (k : ℝ)| ≤ 1 ∧ |rnd (-1 / (k : ℝ)) - -1 / (k : ℝ)| ≤ 2 * uu * |-1 / (k : ℝ)| := by
  have hk1 : (1 : ℝ) ≤ |(k : ℝ)| := by exact_mod_cast Int.one_le_abs hk
  have hk2' : |(k : ℝ)| ≤ 2 ^ 40 := by exact_mod_cast hk2
  have h1 : |-1 / (k : ℝ)| ≤ 1 := by
    rw [abs_div, abs_neg, abs_one]
    exact div_le_one_of_le₀ hk1 (abs_nonneg _)
  have h3 : (2 : ℝ) ^ (-40 : ℤ) ≤ |-1 / (k : ℝ)| := by
    rw [abs_div, abs_neg, abs_one, zpow_neg, ← one_div]
    exact one_div_le_one_div_of_le (by linarith) (by exact_mod_cast hk2')
  have h2 := rnd_err hr (x := -1 / (k : ℝ)) (small_le (h1.trans (by norm_num)))
  have u0 := uu_pos
  have t : tiny ≤ uu * |-1 / (k : ℝ)| := by
    refine le_trans ?_ (mul_le_mul_of_nonneg_left h3 u0.le)
    unfold tiny uu
    rw [← zpow_add₀ (by norm_num)]
    exact zpow_le_zpow_right₀ (by norm_num) (by norm_num)
  have t0 := tiny_pos
  exact ⟨h1, by linarith⟩

theorem kt_step (hr : IsRounding rnd) {mm Q : ℕ} {k : ℤ} (hk : k ≠ 0) (hk2 : |k| ≤ 2 ^ 40) (i : Int) (hik : k = i + mm ∨ k = i + mm - Q) (s : List ℂ) (t : List (FC rnd)) (h : KT mm Q s t) :
    SimR (KT mm Q) ((cGet s i).bind fun z => cSet s i ⟨z.re, -1 / (k : ℝ)⟩) ((cGet t i).bind fun z => cSet t i ⟨z.re, rnd (-1 / (k : ℝ))⟩) := by
  intro s' hs'
  by_cases hb : 0 ≤ i ∧ i < s.length
  · obtain ⟨j, rfl⟩ := Int.eq_ofNat_of_zero_le hb.1
    have hj : j < s.length := by omega
    have hj' : j < t.length := by rw [← h.1]; exact hj
    rw [cGet_ok hj] at hs'
    simp only [Except.bind_ok] at hs'
    rw [cSet_ok hj] at hs'
    cases hs'
    rw [cGet_ok hj']
    simp only [Except.bind_ok]
    rw [cSet_ok hj']
    refine ⟨_, rfl, by simpa using h.1, fun i => ?_⟩
    rw [rd_set' _ _ _ _ hj, rd_set' _ _ _ _ hj']
    split
    · next hij =>
      subst hij
      obtain ⟨h1, h2, -, -⟩ := h.2 i
      refine ⟨h1, h2, (rnd_inv hr hk hk2).1, ?_, (rnd_inv hr hk hk2).2⟩
      simp only
      rw [abs_div, abs_neg, abs_one]
      unfold kb
      rcases hik with e | e
      · have : ((i + mm : ℕ) : ℝ) = (k : ℝ) := by rw [e]; push_cast; rfl
        rw [this]
        exact le_add_of_nonneg_right (by positivity)
      · have : ((i + mm : ℕ) : ℝ) - Q = (k : ℝ) := by rw [e]; push_cast; rfl
        rw [this]
        exact le_add_of_nonneg_left (by positivity)
    · exact h.2 i
  · unfold cGet at hs'
    split_ifs at hs' with hc
    · rw [List.getElem?_eq_none (by omega)] at hs'
      cases hs'
    · cases hs'

/-- `SData` in doubles. -/
theorem sdata_err (hr : IsRounding rnd) (L1 Nmax Q : ℕ) (hL : L1 % 2 = 0) (hL0 : 0 < L1) (hQ : L1 + Nmax ≤ Q) (hQ31 : Q ≤ 2 ^ 31) (t : List (FC rnd)) (ht : t.length = Q) :
    ∃ s t', KernTable L1 Nmax Q s ∧ Fl.cSData rnd t Q L1 Nmax = .ok t' ∧ t'.length = Q ∧ KT (L1 / 2) Q s t' := by
  obtain ⟨s', e, hk⟩ := cSData_spec (tab Q fun _ => (0 : ℂ)) L1 Nmax Q hL hL0 hQ (by simp)
  have hmm : (L1 : Int).tdiv 2 = ((L1 / 2 : ℕ) : Int) := by rw [Int.tdiv_eq_ediv_of_nonneg (by omega)]; rfl
  have hsim : SimR (KT (L1 / 2) Q) (cSData (tab Q fun _ => (0 : ℂ)) Q L1 Nmax) (Fl.cSData rnd t Q L1 Nmax) := by
    unfold cSData Fl.cSData
    rw [cMemset0_ok _ Q (by simp), cMemset0_ok t Q ht]
    simp only [Except.bind_ok]
    rw [hmm]
    have h0 : KT (L1 / 2) Q (tab Q fun _ => (0 : ℂ)) (tab Q fun _ => (0 : FC rnd)) := by
      refine ⟨by simp, fun i => ?_⟩
      by_cases hi : i < Q
      · rw [rd_tab hi, rd_tab hi]; exact ke_zero
      · rw [rd_out (by simpa using hi), rd_out (by simpa using hi)]; exact ke_zero
    refine SimR.bind (SimR.forL _ (fun k hk a b h => ?_) _ _ h0) fun a b h => SimR.forL _ (fun k hk a b h => ?_) a b h
    · have hk' := mem_pyRange.mp hk
      split_ifs with hc
      · exact kt_step hr (by rintro rfl; simp at hc) (by rw [abs_le]; constructor <;> omega) _ (by left; omega) a b h
      · intro x hx; cases hx; exact ⟨b, rfl, h⟩
    · have hk' := mem_pyRange.mp hk
      split_ifs with hc
      · exact kt_step hr (by rintro rfl; simp at hc) (by rw [abs_le]; constructor <;> omega) _ (by right; omega) a b h
      · intro x hx; cases hx; exact ⟨b, rfl, h⟩
  obtain ⟨t', et, hkt⟩ := hsim s' e
  exact ⟨s', t', hk, et, by rw [← hkt.1, hk.1], hkt⟩

/-- The sum of the moduli of the kernel table. -/
theorem kb_sum (mm Q : ℕ) (hmm : 1 ≤ mm) (hQ : mm ≤ Q) : ∑ i ∈ range Q, kb mm Q i ≤ 3 * (1 + Real.log Q) := by
  have hH : ∀ n : ℕ, n ≤ Q → ∑ i ∈ range n, 1 / ((i : ℝ) + 1) ≤ 1 + Real.log Q := by
    intro n hn
    have h1 := harmonic_le_one_add_log Q
    have h2 : ((harmonic Q : ℚ) : ℝ) = ∑ i ∈ range Q, 1 / ((i : ℝ) + 1) := by
      unfold harmonic
      push_cast
      exact sum_congr rfl fun i _ => by rw [one_div]
    rw [h2] at h1
    refine le_trans (sum_le_sum_of_subset_of_nonneg (range_subset_range.mpr hn) fun i _ _ => by positivity) h1
  unfold kb
  rw [sum_add_distrib]
  have a1 : ∑ i ∈ range Q, 1 / |((i + mm : ℕ) : ℝ)| ≤ ∑ i ∈ range Q, 1 / ((i : ℝ) + 1) := sum_le_sum fun i _ => by
    rw [abs_of_nonneg (by positivity)]
    refine one_div_le_one_div_of_le (by positivity) ?_
    have : (1 : ℝ) ≤ mm := by exact_mod_cast hmm
    push_cast
    linarith
  have a2 : ∑ i ∈ range Q, 1 / |((i + mm : ℕ) : ℝ) - Q| = ∑ i ∈ range (Q - mm), 1 / ((i : ℝ) + 1) + ∑ i ∈ range mm, 1 / (i : ℝ) := by
    conv_lhs => rw [show Q = (Q - mm) + mm by omega, sum_range_add]
    congr 1
    · rw [← sum_range_reflect]
      refine sum_congr rfl fun i hi => ?_
      have hi := mem_range.mp hi
      have : ((Q - mm - 1 - i + mm : ℕ) : ℝ) - (Q - mm + mm : ℕ) = -((i : ℝ) + 1) := by
        have e : Q - mm - 1 - i + mm + (i + 1) = Q - mm + mm := by omega
        have e' : ((Q - mm - 1 - i + mm : ℕ) : ℝ) + ((i : ℝ) + 1) = (Q - mm + mm : ℕ) := by exact_mod_cast e
        linarith
      rw [this, abs_neg, abs_of_pos (by positivity)]
    · refine sum_congr rfl fun i hi => ?_
      have : ((Q - mm + i + mm : ℕ) : ℝ) - (Q - mm + mm : ℕ) = i := by
        push_cast; ring
      rw [this, abs_of_nonneg (by positivity)]
  have a3 : ∑ i ∈ range mm, 1 / (i : ℝ) ≤ ∑ i ∈ range Q, 1 / ((i : ℝ) + 1) := by
    obtain ⟨r, rfl⟩ : ∃ r, mm = r + 1 := ⟨mm - 1, by omega⟩
    rw [sum_range_succ']
    simp only [Nat.cast_zero, div_zero, add_zero]
    push_cast
    exact sum_le_sum_of_subset_of_nonneg (range_subset_range.mpr (by omega)) fun i _ _ => by positivity
  rw [a2]
  have := hH Q le_rfl
  have := hH (Q - mm) (by omega)
  linarith

end FK
end Verif.Props
