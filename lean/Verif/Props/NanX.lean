import Verif.NanX
import Verif.Props.FloatPy3
/-!
# C131, C134: a NaN or an infinity in the data is not hidden by the transforms
-/
namespace Verif.Props
open Verif Finset

/-- One of the two parts of a complex number has the property `Bd`. -/
def Bad (Bd : IE → Prop) (z : IE × IE) : Prop := Bd z.1 ∨ Bd z.2

/-- The array has a sample with a part of which `Bd` holds. -/
def HasBad (Bd : IE → Prop) (A : Arr2 (IE × IE)) : Prop := ∃ i j, i < A.rows ∧ j < A.cols ∧ Bad Bd (A.at' i j)

/-- Each sample of the array has a part of which `Bd` holds. -/
def AllBad (Bd : IE → Prop) (A : Arr2 (IE × IE)) : Prop := ∀ i j, i < A.rows → j < A.cols → Bad Bd (A.at' i j)

/-- What is assumed of NumPy's FFTs: they return arrays of the same shape (for arrays that are not empty), and every output value depends on every input value by
additions and multiplications, so that one value with the property `Bd` in the input gives the property to the whole output. -/
structure FftBad (Bd : IE → Prop) (np : NX.FftX) : Prop where
  fft2 : ∀ A : Arr2 (IE × IE), 0 < A.rows → 0 < A.cols → ∃ B, np.fft2 A = .ok B ∧ B.rows = A.rows ∧ B.cols = A.cols ∧ (HasBad Bd A → AllBad Bd B)
  ifft2 : ∀ (A : Arr2 (IE × IE)) (r c : Int), 0 < A.rows → 0 < A.cols → r = A.rows → c = A.cols → ∃ B, np.ifft2 A r c = .ok B ∧ B.rows = A.rows ∧ B.cols = A.cols ∧ (HasBad Bd A → AllBad Bd B)
  fft : ∀ l : List (IE × IE), l ≠ [] → ∃ m, np.fft l = .ok m ∧ m.length = l.length ∧ ((∃ z ∈ l, Bad Bd z) → ∀ w ∈ m, Bad Bd w)
  ifft : ∀ l : List (IE × IE), l ≠ [] → ∃ m, np.ifft l = .ok m ∧ m.length = l.length ∧ ((∃ z ∈ l, Bad Bd z) → ∀ w ∈ m, Bad Bd w)

/-- The property "is NaN". -/
abbrev IsNan (x : IE) : Prop := x = .nan

/-- `np.isnan(z)` for a complex number: one of its parts is NaN. -/
abbrev IsNanC (z : IE × IE) : Prop := Bad IsNan z

/-- The array has a NaN sample. -/
abbrev HasNan (A : Arr2 (IE × IE)) : Prop := HasBad IsNan A

/-- All samples of the array are NaN. -/
abbrev AllNan (A : Arr2 (IE × IE)) : Prop := AllBad IsNan A

/-- `FftBad` for NaN: one NaN in the input of a Fourier transform makes the whole output NaN. -/
abbrev FftNan (np : NX.FftX) : Prop := FftBad IsNan np

/-- The property "is not finite": NaN or an infinity (`not np.isfinite(x)`). -/
def NotFin (x : IE) : Prop := x = .nan ∨ ∃ s, x = .inf s

/-- A property that survives arithmetic: it passes from an operand of a sum, a product or a negation and from the numerator of a quotient to the result, and zero does not have it. -/
class Sticky (Bd : IE → Prop) : Prop where
  add_l : ∀ {rnd : ℝ → ℝ} {a : IE} (b : IE), Bd a → Bd (IE.add rnd a b)
  add_r : ∀ {rnd : ℝ → ℝ} {b : IE} (a : IE), Bd b → Bd (IE.add rnd a b)
  mul_l : ∀ {rnd : ℝ → ℝ} {a : IE} (b : IE), Bd a → Bd (IE.mul rnd a b)
  mul_r : ∀ {rnd : ℝ → ℝ} {b : IE} (a : IE), Bd b → Bd (IE.mul rnd a b)
  div_l : ∀ {rnd : ℝ → ℝ} {a : IE} (b : IE), Bd a → Bd (IE.div rnd a b)
  neg : ∀ {a : IE}, Bd a → Bd (IE.neg a)
  zero : ∀ s, ¬ Bd (.zero s)

namespace NN
variable {rnd : ℝ → ℝ}

theorem add_l (b : IE) : IE.add rnd .nan b = .nan := by cases b <;> rfl
theorem add_r (a : IE) : IE.add rnd a .nan = .nan := by cases a <;> rfl
theorem mul_l (b : IE) : IE.mul rnd .nan b = .nan := by cases b <;> rfl
theorem mul_r (a : IE) : IE.mul rnd a .nan = .nan := by cases a <;> rfl
theorem sub_l (b : IE) : IE.sub rnd .nan b = .nan := by unfold IE.sub; rw [add_l]
theorem sub_r (a : IE) : IE.sub rnd a .nan = .nan := by unfold IE.sub; exact add_r a

instance sticky_nan : Sticky IsNan where
  add_l b h := by unfold IsNan at *; rw [h, add_l]
  add_r a h := by unfold IsNan at *; rw [h, add_r]
  mul_l b h := by unfold IsNan at *; rw [h, mul_l]
  mul_r a h := by unfold IsNan at *; rw [h, mul_r]
  div_l b h := by unfold IsNan at *; rw [h]; cases b <;> rfl
  neg h := by unfold IsNan at *; rw [h]; rfl
  zero s h := by cases h

instance sticky_inf : Sticky NotFin where
  add_l {rnd a} b h := by
    rcases h with rfl | ⟨s, rfl⟩
    · rw [NN.add_l]; exact .inl rfl
    · cases b <;> simp only [IE.add] <;> try (first | exact .inl rfl | exact .inr ⟨_, rfl⟩)
      split
      · exact .inr ⟨_, rfl⟩
      · exact .inl rfl
  add_r {rnd b} a h := by
    rcases h with rfl | ⟨s, rfl⟩
    · rw [NN.add_r]; exact .inl rfl
    · cases a <;> simp only [IE.add] <;> try (first | exact .inl rfl | exact .inr ⟨_, rfl⟩)
      split
      · exact .inr ⟨_, rfl⟩
      · exact .inl rfl
  mul_l {rnd a} b h := by
    rcases h with rfl | ⟨s, rfl⟩
    · rw [NN.mul_l]; exact .inl rfl
    · cases b <;> simp only [IE.mul] <;> first | exact .inl rfl | exact .inr ⟨_, rfl⟩
  mul_r {rnd b} a h := by
    rcases h with rfl | ⟨s, rfl⟩
    · rw [NN.mul_r]; exact .inl rfl
    · cases a <;> simp only [IE.mul] <;> first | exact .inl rfl | exact .inr ⟨_, rfl⟩
  div_l {rnd a} b h := by
    rcases h with rfl | ⟨s, rfl⟩
    · left; cases b <;> rfl
    · cases b <;> simp only [IE.div] <;> first | exact .inl rfl | exact .inr ⟨_, rfl⟩
  neg {a} h := by
    rcases h with rfl | ⟨s, rfl⟩
    · exact .inl rfl
    · exact .inr ⟨_, rfl⟩
  zero s h := by rcases h with h | ⟨_, h⟩ <;> cases h

variable {Bd : IE → Prop} [Sticky Bd]

theorem bsub_l {a : IE} (b : IE) (h : Bd a) : Bd (IE.sub rnd a b) := Sticky.add_l _ h
theorem bsub_r {b : IE} (a : IE) (h : Bd b) : Bd (IE.sub rnd a b) := Sticky.add_r _ (Sticky.neg h)

theorem cmul_l {z : IE × IE} (w : IE × IE) (h : Bad Bd z) : Bad Bd (IE.cmul rnd z w) := by
  rcases h with h | h
  · exact .inl (bsub_l _ (Sticky.mul_l _ h))
  · exact .inl (bsub_r _ (Sticky.mul_l _ h))

theorem cmul_r {z : IE × IE} (w : IE × IE) (h : Bad Bd z) : Bad Bd (IE.cmul rnd w z) := by
  rcases h with h | h
  · exact .inl (bsub_l _ (Sticky.mul_r _ h))
  · exact .inl (bsub_r _ (Sticky.mul_r _ h))

theorem cadd_l {z : IE × IE} (w : IE × IE) (h : Bad Bd z) : Bad Bd (IE.cadd rnd z w) := by
  rcases h with h | h
  · exact .inl (Sticky.add_l _ h)
  · exact .inr (Sticky.add_l _ h)

theorem cadd_r {z : IE × IE} (w : IE × IE) (h : Bad Bd z) : Bad Bd (IE.cadd rnd w z) := by
  rcases h with h | h
  · exact .inl (Sticky.add_r _ h)
  · exact .inr (Sticky.add_r _ h)

theorem csub_l {z : IE × IE} (w : IE × IE) (h : Bad Bd z) : Bad Bd (NX.csub rnd z w) := by
  rcases h with h | h
  · exact .inl (bsub_l _ h)
  · exact .inr (bsub_l _ h)

theorem cdiv_l {z : IE × IE} (w : IE × IE) (h : Bad Bd z) : Bad Bd (NX.cdiv rnd z w) := by
  unfold NX.cdiv
  split
  all_goals
    rcases h with h | h
    · left; dsimp only; exact Sticky.mul_l _ (by first | exact Sticky.add_l _ h | exact Sticky.add_r _ h | exact Sticky.add_l _ (Sticky.mul_l _ h) | exact Sticky.add_r _ (Sticky.mul_l _ h))
    · left; dsimp only; exact Sticky.mul_l _ (by first | exact Sticky.add_l _ h | exact Sticky.add_r _ h | exact Sticky.add_l _ (Sticky.mul_l _ h) | exact Sticky.add_r _ (Sticky.mul_l _ h))

theorem not_bad_zero (s t : Bool) : ¬ Bad Bd (.zero s, .zero t) := by
  rintro (h | h)
  · exact Sticky.zero _ h
  · exact Sticky.zero _ h

/-! ### Patterns -/

theorem dsCell_nan {s t : IE × IE} (h : Bad Bd s ∨ Bad Bd t) : Bad Bd (NX.dsCell rnd s t) := by
  have h2 : Bad Bd (IE.cadd rnd s t) := h.elim (cadd_l t) (cadd_r s)
  unfold NX.dsCell
  split
  · exact h2
  · exact cdiv_l _ h2

/-! ### Loops -/

theorem loop_all {σ ι : Type} {P : σ → Prop} {Q : ι → σ → Prop} {f : σ → ι → Res σ} {xs : List ι}
    (h : ∀ x ∈ xs, ∀ s, P s → ∃ s', f s x = .ok s' ∧ P s' ∧ Q x s' ∧ ∀ y, Q y s → Q y s') {s : σ} (h0 : P s) :
    ∃ s', forM' xs s f = .ok s' ∧ P s' ∧ (∀ x ∈ xs, Q x s') ∧ ∀ y, Q y s → Q y s' := by
  induction xs generalizing s with
  | nil => exact ⟨s, rfl, h0, by simp, fun _ hy => hy⟩
  | cons x xs ih =>
    obtain ⟨a, e1, pa, qa, ka⟩ := h x (by simp) s h0
    obtain ⟨b, e2, pb, qb, kb⟩ := ih (fun y hy => h y (by simp [hy])) pa
    refine ⟨b, by simp only [forM']; rw [e1]; exact e2, pb, fun y hy => ?_, fun y hy => kb y (ka y hy)⟩
    rcases List.mem_cons.mp hy with rfl | hy
    · exact kb _ qa
    · exact qb y hy

theorem rd_mem {α : Type} [Zero α] {l : List α} {i : ℕ} (h : i < l.length) : rd l i ∈ l := by
  simp [rd, h]

/-- All entries, by index. -/
theorem all_of_rd {l : List (IE × IE)} (h : ∀ i, i < l.length → Bad Bd (rd l i)) : ∀ z ∈ l, Bad Bd z := by
  intro z hz
  obtain ⟨i, hi, rfl⟩ := List.getElem_of_mem hz
  have := h i hi
  simpa [rd, hi] using this

/-! ### Analysis -/

theorem sData_ok (L1 N Q : ℕ) (hL : L1 % 2 = 0) (hQ : L1 + N ≤ Q) (hL0 : 0 < L1) : ∃ s, NX.sData rnd L1 N Q = .ok s ∧ s.length = Q := by
  have key : ∃ s, Fl.sData rnd L1 N Q = .ok s ∧ s.length = Q := by
    unfold Fl.sData npFull
    rw [if_neg (by omega), if_neg (by omega)]
    simp only [Except.bind_ok]
    obtain ⟨s, e, p, -⟩ := loop_all (P := fun s : List (FC rnd) => s.length = Q) (Q := fun _ _ => True)
      (f := fun s nu => if nu % 2 = 1 then setIdx s (nu - ((L1 / 2 : ℕ) : ℤ)) (Fl.cpDiv rnd ⟨0, -1⟩ ⟨(nu : ℝ), 0⟩) else .ok s)
      (xs := pyRange (-((L1 / 2 : ℕ) : ℤ)) (((L1 / 2 : ℕ) : ℤ) + N + 1)) (s := List.replicate ((Q : ℤ)).toNat 0) (by
        intro nu hnu s hs
        obtain ⟨h1, h2⟩ := mem_pyRange.mp hnu
        beta_reduce
        split
        · refine ⟨_, FP.setIdx_wrap' _ (by omega) (by omega), by simp [hs], trivial, fun _ _ => trivial⟩
        · exact ⟨s, rfl, hs, trivial, fun _ _ => trivial⟩) (by simp)
    exact ⟨s, by exact_mod_cast e, p⟩
  obtain ⟨s, e, l⟩ := key
  unfold NX.sData
  rw [e]
  exact ⟨_, rfl, by simp [l]⟩

theorem hkm_ok {np : NX.FftX} (hnp : FftBad Bd np) (f : Arr2 (IE × IE)) (N Q : ℕ) (m : ℤ) (s : List (IE × IE)) (hs : s.length = Q) (hr : f.rows % 2 = 0) (hr4 : 4 ≤ f.rows)
    (hQ : f.rows + N ≤ Q) (hm : 2 * |m| < f.cols) (hb : ∀ j, j < f.cols → Bad Bd (f.at' 1 j)) :
    ∃ h, NX.hkmFc rnd np f N m s = .ok h ∧ h.length = N + 1 ∧ Bad Bd (rd h 0) := by
  have hm' := abs_lt.mp (show |m| < (f.cols : ℤ) by have := abs_nonneg m; omega)
  unfold NX.hkmFc NX.colOf
  rw [if_pos (by omega)]
  simp only [Except.bind_ok, length_tab]
  rw [if_neg (by omega)]
  generalize hff : (tab s.length fun n => if n < f.rows / 2 then rd (tab f.rows fun i => f.at' i (Arr2.wrap f.cols m)) (n + f.rows / 2)
    else if n < f.rows then rd (tab f.rows fun i => f.at' i (Arr2.wrap f.cols m)) (n - f.rows / 2) else 0) = ff
  have ffl : ff.length = Q := by rw [← hff, length_tab, hs]
  have hwrap : Arr2.wrap f.cols m < f.cols := by unfold Arr2.wrap; split <;> omega
  have ffn : ∃ z ∈ ff, Bad Bd z := by
    refine ⟨_, rd_mem (i := f.rows / 2 + 1) (by omega), ?_⟩
    rw [← hff, rd_tab (by omega), if_neg (by omega), if_pos (by omega), rd_tab (by omega), show f.rows / 2 + 1 - f.rows / 2 = 1 by omega]
    exact hb _ hwrap
  obtain ⟨F, eF, lF, nF⟩ := hnp.fft ff (by intro h; rw [h] at ffl; simp at ffl; omega)
  obtain ⟨S, eS, lS, -⟩ := hnp.fft s (by intro h; rw [h] at hs; simp at hs; omega)
  rw [eF, eS]
  simp only [Except.bind_ok]
  unfold bcast
  rw [if_pos (by omega)]
  simp only [Except.bind_ok]
  have lz : (List.zipWith (IE.cmul rnd) F S).length = Q := by rw [List.length_zipWith]; omega
  obtain ⟨o, eo, lo, no⟩ := hnp.ifft (List.zipWith (IE.cmul rnd) F S) (by intro h; rw [h] at lz; simp at lz; omega)
  rw [eo]
  simp only [Except.bind_ok]
  have hn := no ⟨_, rd_mem (i := 0) (by omega), by
    have h1 : 0 < F.length := by omega
    have h2 : 0 < S.length := by omega
    have : rd (List.zipWith (IE.cmul rnd) F S) 0 = IE.cmul rnd (F[0]) (S[0]) := by simp [rd, h1, h2]
    rw [this]
    exact cmul_l _ (nF ffn _ (by simp))⟩
  refine ⟨_, rfl, ?_, ?_⟩
  · rw [length_getSlice (by omega) (by omega) (by simp; omega)]; omega
  · have h0 : 0 < o.length := by omega
    have : rd (getSlice (o.map fun x => IE.cmul rnd (IE.lit (Fl.pyFourPi rnd), .zero false) x) 0 ((N : ℤ) + 1)) 0
        = IE.cmul rnd (IE.lit (Fl.pyFourPi rnd), .zero false) (o[0]) := by
      have := rd_getSlice (l := o.map fun x => IE.cmul rnd (IE.lit (Fl.pyFourPi rnd), .zero false) x) (a := 0) (b := (N : ℤ) + 1) (by omega) (by omega) (by simp; omega) 0 (by omega)
      rw [this]
      simp [rd, h0]
    rw [this]
    exact cmul_r _ (hn _ (by simp))

theorem bnm_ok {np : NX.FftX} (hnp : FftBad Bd np) (f : Arr2 (IE × IE)) (N : ℕ) (m : ℤ) (hr : f.rows % 2 = 0) (hr4 : 4 ≤ f.rows)
    (hmN : |m| ≤ N) (hm : 2 * |m| < f.cols) (hb : ∀ j, j < f.cols → Bad Bd (f.at' 1 j)) :
    ∃ out, NX.bnmVecFc rnd np f N m = .ok out ∧ (out.length : ℤ) = N - |m| + 1 ∧ ∀ z ∈ out, Bad Bd z := by
  obtain ⟨Q, eQ, hQ, -⟩ := FP.spf_len (f.rows + N) (by omega)
  unfold NX.bnmVecFc
  rw [show ((f.rows : ℤ) + N) = ((f.rows + N : ℕ) : ℤ) by push_cast; rfl, eQ]
  simp only [orDiverge, Except.bind_ok]
  obtain ⟨s, es, ls⟩ := sData_ok (rnd := rnd) f.rows N Q hr hQ (by omega)
  rw [es]
  simp only [Except.bind_ok]
  obtain ⟨h, eh, lh, nh⟩ := hkm_ok hnp f N Q m s ls hr hr4 hQ hm hb (rnd := rnd)
  rw [eh]
  simp only [Except.bind_ok]
  have ha := Int.abs_eq_natAbs m
  have h0 := abs_nonneg m
  unfold npFull
  rw [if_neg (by omega)]
  simp only [Except.bind_ok]
  obtain ⟨o, eo, po, qo, -⟩ := loop_all (P := fun s : List (IE × IE) => s.length = ((N : ℤ) - |m| + 1).toNat)
    (Q := fun (n : ℤ) (s : List (IE × IE)) => Bad Bd (rd s (n - |m|).toNat))
    (f := NX.bnmBody rnd np h m) (xs := pyRange |m| ((N : ℤ) + 1)) (s := List.replicate ((N : ℤ) - |m| + 1).toNat 0) (by
      intro n hn s hs
      obtain ⟨h1, h2⟩ := mem_pyRange.mp hn
      obtain ⟨k, rfl⟩ : ∃ k : ℕ, n = k := ⟨n.toNat, by omega⟩
      obtain ⟨y, ey, ly, -⟩ := ynunm_top (rnd := rnd) k m (k + 1) (by omega) (by omega)
      unfold NX.bnmBody
      rw [show ((k : ℤ) + 1) = ((k + 1 : ℕ) : ℤ) by push_cast; rfl, ey]
      simp only [Except.bind_ok]
      rw [getIdx_rd (l := h) (by omega) (by omega), getIdx_rd (l := y) (by omega) (by omega)]
      simp only [Except.bind_ok]
      rw [setIdx_of_lt (by omega) (by omega)]
      simp only [Except.bind_ok]
      have hv : Bad Bd (IE.cmul rnd (IE.cmul rnd (np.jp (-m)) (rd h (0 : ℤ).toNat)) (IE.lit (rd y (0 : ℤ).toNat), .zero false)) := cmul_l _ (cmul_r _ nh)
      generalize IE.cmul rnd (IE.cmul rnd (np.jp (-m)) (rd h (0 : ℤ).toNat)) (IE.lit (rd y (0 : ℤ).toNat), .zero false) = v at hv
      have keep : ∀ (w : IE × IE) (s : List (IE × IE)), s.length = ((N : ℤ) - |m| + 1).toNat → Bad Bd w → Bad Bd (rd (s.set ((k : ℤ) - |m|).toNat w) ((k : ℤ) - |m|).toNat) ∧
          ∀ y : ℤ, Bad Bd (rd s (y - |m|).toNat) → Bad Bd (rd (s.set ((k : ℤ) - |m|).toNat w) (y - |m|).toNat) := by
        intro w s hs hw
        refine ⟨?_, fun y hy => ?_⟩
        · rw [rd_set _ _ _ _ (by omega), if_pos rfl]; exact hw
        · rw [rd_set _ _ _ _ (by omega)]
          split
          · exact hw
          · exact hy
      by_cases hk : (k : ℤ) ≠ 0
      · rw [if_pos hk]
        unfold bcast
        rw [if_pos (by rw [length_getSlice (by omega) (by omega) (by omega), length_getSlice (by omega) (by omega) (by omega)])]
        simp only [Except.bind_ok]
        rw [getIdx_rd (by omega) (by simp; omega)]
        simp only [Except.bind_ok]
        rw [setIdx_of_lt (by omega) (by simp; omega)]
        have k1 := keep v s hs hv
        have k2 := keep (IE.cadd rnd (rd (s.set ((k : ℤ) - |m|).toNat v) ((k : ℤ) - |m|).toNat) (IE.cmul rnd (IE.cmul rnd (np.jp (-m)) (.fin 2, .zero false))
          (np.sum (List.zipWith (fun (a : IE × IE) (b : ℝ) => IE.cmul rnd a (IE.lit b, .zero false)) (getSlice h 1 ((k + 1 : ℕ) : ℤ)) (getSlice y 1 ((k + 1 : ℕ) : ℤ))))))
          (s.set ((k : ℤ) - |m|).toNat v) (by simp [hs]) (cadd_l _ k1.1)
        exact ⟨_, rfl, by simp [hs], k2.1, fun y hy => k2.2 y (k1.2 y hy)⟩
      · rw [if_neg hk]
        have k1 := keep v s hs hv
        exact ⟨_, rfl, by simp [hs], k1.1, k1.2⟩) (by simp)
  refine ⟨o, eo, by rw [po]; omega, all_of_rd fun i hi => ?_⟩
  have := qo ((i : ℤ) + |m|) (mem_pyRange.mpr (by omega))
  rw [show ((i : ℤ) + |m| - |m|).toNat = i by omega] at this
  exact this

theorem fcToSc_ok {np : NX.FftX} (hnp : FftBad Bd np) (f : Arr2 (IE × IE)) (N M : ℕ) (hMN : M ≤ N) (hr : f.rows % 2 = 0) (hr4 : 4 ≤ f.rows)
    (hm : 2 * M < f.cols) (hb : ∀ j, j < f.cols → Bad Bd (f.at' 1 j)) :
    ∃ out, NX.fcToSc rnd np f N M = .ok out ∧ (out.length : ℤ) = ncFormula N M ∧ ∀ z ∈ out, Bad Bd z := by
  unfold NX.fcToSc
  obtain ⟨c, ec, lc, nc⟩ := bnm_ok (rnd := rnd) hnp f N 0 hr hr4 (by simp) (by simp; omega) hb
  rw [ec]
  simp only [Except.bind_ok]
  obtain ⟨o, eo, lo, no⟩ := forM'_range_inv (a := 1) (b := (M : ℤ) + 1) (by omega) c
    (fun c m => (NX.bnmVecFc rnd np f N (-m)).bind fun a => (NX.bnmVecFc rnd np f N m).bind fun b => .ok (c ++ a ++ b))
    (fun k l => (l.length : ℤ) = N + 1 + (k - 1) * (2 * N - (k - 1) + 1) ∧ ∀ z ∈ l, Bad Bd z) ⟨by rw [lc]; simp, nc⟩ (by
      intro k l h1 h2 ⟨hl, hn⟩
      have ak : |k| = k := abs_of_pos (by omega)
      have ak' : |-k| = k := by rw [abs_neg, ak]
      obtain ⟨a, ea, la, na⟩ := bnm_ok (rnd := rnd) hnp f N (-k) hr hr4 (by omega) (by omega) hb
      obtain ⟨b, eb, lb, nb⟩ := bnm_ok (rnd := rnd) hnp f N k hr hr4 (by omega) (by omega) hb
      rw [ea, eb]
      refine ⟨_, rfl, ?_, ?_⟩
      · simp only [List.length_append]
        push_cast
        rw [hl, la, lb, ak, ak']
        ring
      · intro z hz
        simp only [List.mem_append] at hz
        rcases hz with (hz | hz) | hz
        · exact hn z hz
        · exact na z hz
        · exact nb z hz)
  refine ⟨o, eo, ?_, no⟩
  rw [lo]
  unfold ncFormula
  ring

theorem spht_ok {np : NX.FftX} (hnp : FftBad Bd np) (A : Arr2 (IE × IE)) (hA : HasBad Bd A) (hr : A.rows % 2 = 0) (hc : A.cols % 2 = 0) (n m : ℤ) (hm0 : 0 ≤ m) (hmn : m ≤ n)
    (hn : n < A.rows / 2) (hm : 2 * m < A.cols) (nmax mmax : Option Int) (hargs : sphtArgs (.ok (A.rows / 2 + 1)) (.ok A.cols) nmax mmax = .ok (n, m)) :
    ∃ c, NX.spht rnd np ⟨.arr A⟩ nmax mmax = .ok c ∧ c.WF ∧ c.nmax = n ∧ c.mmax = m ∧ ∀ z ∈ c.vec, Bad Bd z := by
  obtain ⟨N, rfl⟩ : ∃ N : ℕ, n = N := ⟨n.toNat, by omega⟩
  obtain ⟨M, rfl⟩ : ∃ M : ℕ, m = M := ⟨m.toNat, by omega⟩
  have hg : sphtGuards (.ok (A.rows / 2 + 1)) (.ok A.cols) N M = .ok () := by
    unfold sphtGuards
    rw [if_neg (by omega)]
    simp only [Except.bind_ok]
    rw [if_neg (by push_cast; omega), if_neg (by omega), if_neg (by omega)]
  obtain ⟨F, eF, rF, cF, nF⟩ := hnp.fft2 A (by omega) (by omega)
  have nF := nF hA
  unfold NX.spht
  simp only [SPatt.nrows, SPatt.ncols, SPatt.dsphere, Except.bind_ok, hargs, hg, eF]
  unfold fixEvenRow
  rw [if_pos (by omega), if_neg (by omega)]
  simp only [Except.bind_ok]
  unfold padRows
  rw [show (F.setRow (F.rows / 2) fun _ => 0).rows = F.rows from rfl, show (F.setRow (F.rows / 2) fun _ => 0).cols = F.cols from rfl]
  rw [if_neg (by omega)]
  simp only
  rw [if_neg (by omega)]
  simp only [Except.bind_ok]
  generalize hG : (Arr2.ofFn (A.rows + 2) F.cols fun i j => if i < F.rows / 2 then (F.setRow (F.rows / 2) fun _ => 0).at' i j
      else if A.rows + 2 - (F.rows / 2 - 1) ≤ i ∧ F.rows / 2 ≠ 0 then (F.setRow (F.rows / 2) fun _ => 0).at' (i + F.rows - (A.rows + 2)) j else 0) = G
  have rG : G.rows = A.rows + 2 := by rw [← hG]; rfl
  have cG : G.cols = A.cols := by rw [← hG, ← cF]; rfl
  have nG : ∀ j, j < A.cols → Bad Bd (G.at' 0 j) := by
    intro j hj
    rw [← hG, Arr2.at'_ofFn (by omega) (by omega), if_pos (by omega)]
    unfold Arr2.setRow
    rw [Arr2.at'_ofFn (by omega) (by omega), if_neg (by omega)]
    exact nF 0 j (by omega) (by omega)
  unfold NX.sinFc
  rw [if_neg (by omega)]
  simp only [Except.bind_ok]
  generalize hH : (Arr2.ofFn ((G.setRow ((G.rows - 2) / 2) fun _ => 0).setRow (((G.setRow ((G.rows - 2) / 2) fun _ => 0).rows + 2) / 2) fun _ => 0).rows
      ((G.setRow ((G.rows - 2) / 2) fun _ => 0).setRow (((G.setRow ((G.rows - 2) / 2) fun _ => 0).rows + 2) / 2) fun _ => 0).cols _) = H
  have rH : H.rows = A.rows + 2 := by rw [← hH, ← rG]; rfl
  have cH : H.cols = A.cols := by rw [← hH, ← cG]; rfl
  have nH : ∀ j, j < H.cols → Bad Bd (H.at' 1 j) := by
    intro j hj
    have e : ∀ (X : Arr2 (IE × IE)) (k : ℕ), (X.setRow k fun _ => (0 : IE × IE)).rows = X.rows ∧ (X.setRow k fun _ => (0 : IE × IE)).cols = X.cols := fun _ _ => ⟨rfl, rfl⟩
    rw [← hH, Arr2.at'_ofFn (by simp only [e]; omega) (by simp only [e]; omega)]
    refine cmul_r _ (csub_l _ ?_)
    rw [if_neg (by omega)]
    unfold Arr2.setRow
    simp only [Arr2.rows_ofFn, Arr2.cols_ofFn]
    rw [Arr2.at'_ofFn (by omega) (by omega), if_neg (by omega), Arr2.at'_ofFn (by omega) (by omega), if_neg (by omega)]
    exact nG j (by omega)
  obtain ⟨sc, es, ls, ns⟩ := fcToSc_ok (rnd := rnd) hnp H N M (by omega) (by omega) (by omega) (by omega) nH
  rw [es]
  simp only [Except.bind_ok]
  rw [ScalarCoefs.init_wf (by omega) (by omega) ls.symm]
  exact ⟨_, rfl, ⟨by simp, by simpa using hmn, ls⟩, rfl, rfl, ns⟩

/-! ### Synthesis -/

theorem addPrefix_ok (F v : List (IE × IE)) (K : ℕ) (hv : v.length = K) (hK : K ≤ F.length) :
    ∃ G, NX.addPrefix rnd F K v = .ok G ∧ G.length = F.length ∧ (∀ i, i < K → Bad Bd (rd v i) → Bad Bd (rd G i)) ∧ ∀ i, Bad Bd (rd F i) → Bad Bd (rd G i) := by
  unfold NX.addPrefix
  rw [clampIdx_of_le (by omega) (by omega), Int.toNat_natCast]
  simp only
  rw [if_pos hv]
  refine ⟨_, rfl, by simp, fun i hi h => ?_, fun i h => ?_⟩
  · rw [rd_tab (by omega), if_pos hi]; exact cadd_r _ h
  · by_cases hi : i < F.length
    · rw [rd_tab hi]
      split
      · exact cadd_l _ h
      · exact h
    · rw [rd_out (by omega)] at h
      exact absurd h (not_bad_zero _ _)

theorem fcvec_ok (np : NX.FftX) (vec : List (IE × IE)) (m : ℤ) (N r : ℕ) (hm : |m| ≤ N) (hl : (vec.length : ℤ) = N - |m| + 1) (hr : N + 1 ≤ r) (q : ℕ) (hq : q ≤ N) (hq2 : 2 * q ≤ r) :
    ∃ F, NX.fcvecMSc rnd np vec m N r = .ok F ∧ F.length = r ∧ ((∃ z ∈ vec, Bad Bd z) → Bad Bd (rd F q)) := by
  have h0 := abs_nonneg m
  unfold NX.fcvecMSc npFull
  rw [if_neg (by omega)]
  simp only [Except.bind_ok]
  obtain ⟨F, eF, pF, qF, -⟩ := loop_all (P := fun s : List (IE × IE) => s.length = r)
    (Q := fun (n : ℤ) (s : List (IE × IE)) => Bad Bd (rd vec (n - |m|).toNat) → Bad Bd (rd s q))
    (f := NX.fcvecBody rnd vec m N) (xs := pyRange |m| ((N : ℤ) + 1)) (s := List.replicate ((r : ℤ)).toNat 0) (by
      intro n hn s hs
      obtain ⟨h1, h2⟩ := mem_pyRange.mp hn
      obtain ⟨k, rfl⟩ : ∃ k : ℕ, n = k := ⟨n.toNat, by omega⟩
      obtain ⟨y, ey, ly, -⟩ := ynunm_top (rnd := rnd) k m (N + 1) (by omega) (by omega)
      unfold NX.fcvecBody
      rw [show ((N : ℤ) + 1) = ((N + 1 : ℕ) : ℤ) by push_cast; rfl, ey]
      simp only [Except.bind_ok]
      rw [getIdx_rd (by omega) (by omega)]
      simp only [Except.bind_ok]
      obtain ⟨G, eG, lG, g1, g2⟩ := addPrefix_ok (rnd := rnd) (Bd := Bd) s (List.map (fun (y : ℝ) => IE.cmul rnd (rd vec ((k : ℤ) - |m|).toNat) (IE.lit y, .zero false)) y) (N + 1) (by simp [ly]) (by omega)
      refine ⟨G, eG, by omega, fun h => g1 q (by omega) ?_, fun n' hq h => g2 q (hq h)⟩
      have : q < y.length := by omega
      rw [show rd (List.map (fun (y : ℝ) => IE.cmul rnd (rd vec ((k : ℤ) - |m|).toNat) (IE.lit y, .zero false)) y) q
        = IE.cmul rnd (rd vec ((k : ℤ) - |m|).toNat) (IE.lit (y[q]), .zero false) by simp [rd, this]]
      exact cmul_l _ h) (by simp)
  rw [eF]
  simp only [Except.bind_ok, length_tab, pF]
  refine ⟨_, rfl, by simp, fun ⟨z, hz, nz⟩ => ?_⟩
  obtain ⟨i, hi, rfl⟩ := List.getElem_of_mem hz
  have h1 := qF ((i : ℤ) + |m|) (mem_pyRange.mpr (by omega)) (by
    rw [show ((i : ℤ) + |m| - |m|).toNat = i by omega]
    simpa [rd, hi] using nz)
  rw [rd_tab (by omega), if_neg (by split <;> omega), rd_tab (by omega), if_pos (by rw [clampIdx_of_le (by omega) (by omega)]; omega)]
  exact cmul_l _ h1

/-- The column of order `m` is marked in row `q` if one of its coefficients is NaN. -/
def Marked (Bd : IE → Prop) (q : ℕ) (spvec : List (IE × IE)) (N M c : ℕ) (A : Arr2 (IE × IE)) (m : ℤ) : Prop :=
  m.natAbs ≤ M → (∃ n : ℤ, IsMode N M n m ∧ Bad Bd (rd spvec (slot N n m))) → Bad Bd (A.at' q (m % c).toNat)

theorem col_ok (np : NX.FftX) (spvec : List (IE × IE)) (N M r c : ℕ) (hM : M ≤ N) (hr : N + 1 ≤ r) (hc : 2 * M < c) (hl : spvec.length = seg (N + 1) (2 * M + 1))
    (A : Arr2 (IE × IE)) (hA : A.rows = r) (hA' : A.cols = c) (m : ℤ) (hm : m.natAbs ≤ M) (q : ℕ) (hq0 : q ≤ N) (hq2 : 2 * q ≤ r) :
    ∃ B, NX.scToFcCol rnd np spvec N M r A m = .ok B ∧ (B.rows = r ∧ B.cols = c) ∧ Marked Bd q spvec N M c B m ∧ ∀ m', Marked Bd q spvec N M c A m' → Marked Bd q spvec N M c B m' := by
  unfold NX.scToFcCol
  have habs : |m| = (m.natAbs : ℤ) := Int.abs_eq_natAbs m
  have em := mindx_eq (m := m) (nmax := N) (mmax := M) (by unfold iabs; omega) (by omega)
  rw [em]
  simp only [Except.bind_ok]
  rw [show ((N : ℤ) + 1).toNat = N + 1 by omega]
  have hb : seg (N + 1) (ord m) + (N - m.natAbs + 1) ≤ spvec.length := by
    rw [hl]
    have h1 : ord m + 1 ≤ 2 * M + 1 := by have := ord_le m; omega
    have h2 := seg_mono (N + 1) h1
    have h3 : (ord m + 1) / 2 = m.natAbs := (natAbs_eq_ord m).symm
    rw [seg_succ, h3] at h2
    omega
  have hlen : (getSlice spvec (seg (N + 1) (ord m) : ℤ) ((seg (N + 1) (ord m) : ℤ) + N - |m| + 1)).length = N - m.natAbs + 1 := by
    rw [habs, length_getSlice (by omega) (by omega) (by omega)]; omega
  obtain ⟨F, eF, lF, nF⟩ := fcvec_ok (rnd := rnd) (Bd := Bd) np (getSlice spvec (seg (N + 1) (ord m) : ℤ) ((seg (N + 1) (ord m) : ℤ) + N - |m| + 1)) m N r (by omega) (by omega) hr q hq0 hq2
  rw [eF]
  simp only [Except.bind_ok]
  unfold setColumn
  rw [if_neg (by omega), if_neg (by omega)]
  have hw : ∀ m : ℤ, m.natAbs ≤ M → Arr2.wrap A.cols m = (m % c).toNat := by
    intro m hm
    rw [hA', wrap_mod (by omega) (by omega)]; unfold Arr2.wrap; split <;> rfl
  have hlt : ∀ m : ℤ, (m % c).toNat < c := fun m => by
    have := Int.emod_lt_of_pos m (show (0 : ℤ) < c by omega)
    have := Int.emod_nonneg m (show (c : ℤ) ≠ 0 by omega)
    omega
  refine ⟨_, rfl, ⟨hA, hA'⟩, fun _ ⟨n, hmode, hn⟩ => ?_, fun m' hq hm' hx => ?_⟩
  · rw [Arr2.at'_ofFn (by omega) (by rw [hA']; exact hlt m), if_pos (hw m hm).symm, if_pos (by omega)]
    refine nF ⟨_, rd_mem (i := n.toNat - m.natAbs) (by have := hmode.2; omega), ?_⟩
    have := hmode.2
    rw [habs, rd_getSlice (by omega) (by omega) (by omega) _ (by omega)]
    unfold slot at hn
    rw [show ((N : ℤ) + 1).toNat = N + 1 by omega] at hn
    simpa using hn
  · rw [Arr2.at'_ofFn (by omega) (by rw [hA']; exact hlt m')]
    by_cases e : m' = m
    · subst e
      obtain ⟨n, hmode, hn⟩ := hx
      rw [if_pos (hw m' hm).symm, if_pos (by omega)]
      refine nF ⟨_, rd_mem (i := n.toNat - m'.natAbs) (by have := hmode.2; omega), ?_⟩
      have := hmode.2
      rw [habs, rd_getSlice (by omega) (by omega) (by omega) _ (by omega)]
      unfold slot at hn
      rw [show ((N : ℤ) + 1).toNat = N + 1 by omega] at hn
      simpa using hn
    · rw [hw m hm, if_neg]
      · exact hq hm' hx
      · rw [wrap_mod (by omega) (by omega), wrap_mod (by omega) (by omega)]
        split <;> split <;> omega

theorem scToFc_ok (np : NX.FftX) (spvec : List (IE × IE)) (N M r c : ℕ) (hM : M ≤ N) (hr : N + 1 ≤ r) (hc : 2 * M + 2 ≤ c) (hl : spvec.length = seg (N + 1) (2 * M + 1)) (q : ℕ) (hq0 : q ≤ N) (hq2 : 2 * q ≤ r) :
    ∃ A, NX.scToFc rnd np spvec N M r c = .ok A ∧ (A.rows = r ∧ A.cols = c) ∧ ∀ m : ℤ, Marked Bd q spvec N M c A m := by
  unfold NX.scToFc npZeros2
  rw [if_neg (by omega)]
  simp only [Except.bind_ok, Int.toNat_natCast]
  have hh : halfTrunc c = ((c / 2 : ℕ) : ℤ) := by unfold halfTrunc; rw [Int.tdiv_eq_ediv_of_nonneg (by omega)]; rfl
  rw [hh]
  obtain ⟨A, eA, pA, qA, -⟩ := loop_all (P := fun A : Arr2 (IE × IE) => A.rows = r ∧ A.cols = c)
    (Q := fun (k : ℤ) A => 0 ≤ k → Marked Bd q spvec N M c A k ∧ Marked Bd q spvec N M c A (-(k + 1)))
    (f := NX.scToFcBody rnd np spvec N M r) (xs := pyRange 0 ((c / 2 : ℕ) : ℤ)) (s := Arr2.ofFn r c (fun _ _ => (0 : IE × IE))) (by
      intro k hk A ⟨ar, ac⟩
      obtain ⟨h1, h2⟩ := mem_pyRange.mp hk
      unfold NX.scToFcBody
      by_cases hk : k < M
      · obtain ⟨B, eB, pB, mB, kB⟩ := col_ok (rnd := rnd) (Bd := Bd) np spvec N M r c hM hr (by omega) hl A ar ac k (by omega) q hq0 hq2
        obtain ⟨C, eC, pC, mC, kC⟩ := col_ok (rnd := rnd) (Bd := Bd) np spvec N M r c hM hr (by omega) hl B pB.1 pB.2 (-(k + 1)) (by omega) q hq0 hq2
        rw [if_pos hk, eB]
        simp only [Except.bind_ok, eC]
        rw [if_neg (by omega)]
        exact ⟨C, rfl, pC, fun _ => ⟨kC _ mB, mC⟩, fun y hy h => ⟨kC _ (kB _ (hy h).1), kC _ (kB _ (hy h).2)⟩⟩
      · rw [if_neg hk]
        simp only [Except.bind_ok]
        by_cases hk2 : k = M
        · obtain ⟨B, eB, pB, mB, kB⟩ := col_ok (rnd := rnd) (Bd := Bd) np spvec N M r c hM hr (by omega) hl A ar ac k (by omega) q hq0 hq2
          rw [if_pos hk2, eB]
          exact ⟨B, rfl, pB, fun _ => ⟨mB, fun h => by omega⟩, fun y hy h => ⟨kB _ (hy h).1, kB _ (hy h).2⟩⟩
        · rw [if_neg hk2]
          exact ⟨A, rfl, ⟨ar, ac⟩, fun _ => ⟨fun h => by omega, fun h => by omega⟩, fun y hy => hy⟩) ⟨rfl, rfl⟩
  refine ⟨A, eA, pA, fun m hm => ?_⟩
  by_cases h : 0 ≤ m
  · exact (qA m (mem_pyRange.mpr (by omega)) h).1 hm
  · have := (qA (-m - 1) (mem_pyRange.mpr (by omega)) (by omega)).2
    rw [show -(-m - 1 + 1) = m by omega] at this
    exact this hm

theorem ispht_ok {np : NX.FftX} (hnp : FftBad Bd np) (c : ScalarCoefs (IE × IE)) (hc : c.WF) (hn : ∃ z ∈ c.vec, Bad Bd z) (nrows ncols : Option Int)
    (h1 : c.nmax < nrows.getD (c.nmax + 2)) (h1' : 2 ≤ nrows.getD (c.nmax + 2)) (h2 : 2 * c.mmax + 2 ≤ ncols.getD (2 * c.mmax + 2)) (h3 : ncols.getD (2 * c.mmax + 2) % 2 = 0) :
    ∃ A, NX.ispht rnd np c nrows ncols = .ok ⟨.arr A⟩ ∧ (A.rows : ℤ) = 2 * nrows.getD (c.nmax + 2) - 2 ∧ (A.cols : ℤ) = ncols.getD (2 * c.mmax + 2) ∧ AllBad Bd A := by
  generalize hnr : nrows.getD (c.nmax + 2) = nr at *
  generalize hnc : ncols.getD (2 * c.mmax + 2) = nc at *
  have m0 := hc.m0
  have mn := hc.mn
  obtain ⟨N, eN⟩ : ∃ N : ℕ, c.nmax = N := ⟨c.nmax.toNat, by omega⟩
  obtain ⟨M, eM⟩ : ∃ M : ℕ, c.mmax = M := ⟨c.mmax.toNat, by omega⟩
  have hl : c.vec.length = seg (N + 1) (2 * M + 1) := by
    have := hc.len'
    rw [eN, eM] at this
    simpa using this
  obtain ⟨r, er⟩ : ∃ r : ℕ, 2 * nr - 2 = r := ⟨(2 * nr - 2).toNat, by omega⟩
  obtain ⟨k, ek⟩ : ∃ k : ℕ, nc = k := ⟨nc.toNat, by omega⟩
  unfold NX.ispht isphtGuards
  rw [hnr, hnc]
  simp only
  rw [if_neg (by omega), if_neg (by omega), if_neg (by omega)]
  simp only [Except.bind_ok, er, ek, eN, eM]
  obtain ⟨F, eF, ⟨rF, cF⟩, nF⟩ := scToFc_ok (rnd := rnd) (Bd := Bd) np c.vec N M r k (by omega) (by omega) (by omega) hl 0 (by omega) (by omega)
  rw [eF]
  simp only [Except.bind_ok]
  obtain ⟨D, eD, rD, cD, nD⟩ := hnp.ifft2 F r k (by omega) (by omega) (by omega) (by omega)
  rw [eD]
  refine ⟨D, rfl, by omega, by omega, nD ?_⟩
  obtain ⟨z, hz, nz⟩ := hn
  obtain ⟨i, hi, rfl⟩ := List.getElem_of_mem hz
  obtain ⟨n, m, hmode, e⟩ := slot_surj hc.m0 hc.mn (j := i) (by rw [← hc.len']; exact hi)
  rw [eN, eM] at hmode
  rw [eN] at e
  have hlt : (m % k).toNat < k := by
    have := Int.emod_lt_of_pos m (show (0 : ℤ) < k by omega)
    have := Int.emod_nonneg m (show (k : ℤ) ≠ 0 by omega)
    omega
  refine ⟨0, (m % k).toNat, by omega, by omega, nF m (by obtain ⟨_, _, _, _⟩ := hmode; have := Int.abs_eq_natAbs m; omega) ⟨n, hmode, ?_⟩⟩
  rw [e]
  simpa [rd, hi] using nz

end NN
end Verif.Props
