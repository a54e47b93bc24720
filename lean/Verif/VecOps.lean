import Verif.TransP
import Verif.VecT
/-!
# The Fourier-domain operators, frequency by frequency
-/
namespace Verif
open Finset

theorem freqList_eq (C : ℕ) (hC : C % 2 = 0) (m : ℤ) (h1 : -(C : ℤ) ≤ 2 * m) (h2 : 2 * m < C) : freqList C (m % C).toNat = m := by
  rw [wrap_mod (by omega) (by omega)]
  unfold freqList
  split <;> split <;> omega

theorem fAt_ofFn (r c : ℕ) (X : ℕ → ℕ → ℂ) (hr : 0 < r) (hc : 0 < c) (m ν : ℤ) :
    fAt (Arr2.ofFn r c X) m ν = X (ν % r).toNat (m % c).toNat := by
  unfold fAt
  exact Arr2.at'_ofFn (slot_lt' hr ν) (slot_lt' hc m)

theorem dphiFc_spec (f : Arr2 ℂ) (hr : 0 < f.rows) (hc : 0 < f.cols) (hC : f.cols % 2 = 0) :
    ∃ g, dphiFc f = .ok g ∧ g.rows = f.rows ∧ g.cols = f.cols ∧
      ∀ m ν : ℤ, fAt g m ν = Complex.I * (freqList f.cols (m % f.cols).toNat : ℂ) * fAt f m ν := by
  unfold dphiFc
  rw [if_neg (by omega)]
  exact ⟨_, rfl, rfl, rfl, fun m ν => fAt_ofFn _ _ _ hr hc m ν⟩

theorem dthetaFc_spec (f : Arr2 ℂ) (hr : 0 < f.rows) (hc : 0 < f.cols) (hR : f.rows % 2 = 0) :
    ∃ g, dthetaFc f = .ok g ∧ g.rows = f.rows ∧ g.cols = f.cols ∧
      ∀ m ν : ℤ, fAt g m ν = Complex.I * (freqList f.rows (ν % f.rows).toNat : ℂ) * fAt f m ν := by
  unfold dthetaFc
  rw [if_neg (by omega)]
  exact ⟨_, rfl, rfl, rfl, fun m ν => fAt_ofFn _ _ _ hr hc m ν⟩

theorem fAt_map (A : Arr2 ℂ) (g : ℂ → ℂ) (hr : 0 < A.rows) (hc : 0 < A.cols) (m ν : ℤ) : fAt (A.map g) m ν = g (fAt A m ν) := by
  unfold fAt
  exact Arr2.at'_map _ _ (slot_lt' hr ν) (slot_lt' hc m)

theorem fAt_zip (A B : Arr2 ℂ) (g : ℂ → ℂ → ℂ) (hr : 0 < A.rows) (hc : 0 < A.cols) (h1 : B.rows = A.rows) (h2 : B.cols = A.cols) (m ν : ℤ) :
    fAt (A.zip g B) m ν = g (fAt A m ν) (fAt B m ν) := by
  unfold Arr2.zip
  rw [fAt_ofFn _ _ _ hr hc]
  unfold fAt
  rw [h1, h2]

theorem fAt_setRow (A : Arr2 ℂ) (R C : ℕ) (hR : A.rows = R) (hC : A.cols = C) (i : ℕ) (row : ℕ → ℂ) (hr : 0 < R) (hc : 0 < C) (m ν : ℤ) :
    fAt (A.setRow i row) m ν = if (ν % R).toNat = i then row (m % C).toNat else fAt A m ν := by
  subst hR hC
  unfold Arr2.setRow
  rw [fAt_ofFn _ _ _ hr hc]
  rfl

theorem foldl_range_inv {σ : Type} (P : ℕ → σ → Prop) (step : σ → ℕ → σ) (n : ℕ) (s : σ) (h0 : P 0 s)
    (hs : ∀ j s, j < n → P j s → P (j + 1) (step s j)) : P n ((List.range n).foldl step s) := by
  induction n with
  | zero => exact h0
  | succ n ih =>
    rw [List.range_succ, List.foldl_append]
    exact hs n _ (by omega) (ih fun j s hj => hs j s (by omega))

theorem wrap_eq_mod {R : ℕ} {ν : ℤ} (h1 : -(R : ℤ) ≤ ν) (h2 : ν < R) : Arr2.wrap R ν = (ν % R).toNat := by
  rw [wrap_mod h1 h2]; unfold Arr2.wrap; split <;> rfl

/-- `divsin_fc`: if `f = sin θ · h` with `h` of band `≤ M - 2`, the result is `h`. -/
theorem divsinFc_spec (f : Arr2 ℂ) (M : ℕ) (hR : f.rows = 2 * M) (hM : 1 ≤ M) (hc : 0 < f.cols) (h : ℤ → ℤ → ℂ)
    (hsup : ∀ m ν : ℤ, (M : ℤ) - 1 ≤ |ν| → h m ν = 0)
    (hrec : ∀ m ν : ℤ, |ν| ≤ (M : ℤ) - 1 → h m (ν - 1) - h m (ν + 1) = 2 * Complex.I * fAt f m ν) :
    ∃ g, divsinFc f = .ok g ∧ g.rows = f.rows ∧ g.cols = f.cols ∧ ∀ m ν : ℤ, |ν| ≤ M → fAt g m ν = h m ν := by
  unfold divsinFc
  rw [if_neg (by omega)]
  simp only
  have hr : 0 < f.rows := by omega
  have hL : (f.rows : ℤ) / 2 = M := by omega
  rw [hL]
  set L2 : ℤ := (M : ℤ) - 2 with hL2
  unfold pyRangeNeg
  rw [List.foldl_map]
  have wr : ∀ ν μ : ℤ, -(M : ℤ) ≤ ν → ν < M → -(M : ℤ) ≤ μ → μ < M → ((ν % f.rows).toNat = (μ % f.rows).toNat ↔ ν = μ) := by
    intro ν μ h1 h2 h3 h4
    rw [wrap_mod (by omega) (by omega), wrap_mod (by omega) (by omega)]
    split <;> split <;> omega
  refine ⟨_, rfl, ?_⟩
  have key := foldl_range_inv
    (P := fun j (g : Arr2 ℂ) => g.rows = f.rows ∧ g.cols = f.cols ∧ ∀ m ν : ℤ, -(M : ℤ) ≤ ν → ν < M → fAt g m ν = if L2 - j ≤ ν then h m ν else 0)
    (step := fun g k => divsinStep f g (L2 - 1 * (k : ℤ))) (n := ((L2 - -L2 + 1 - 1) / 1).toNat)
    (s := (Arr2.ofFn f.rows f.cols fun _ _ => (0 : ℂ)).setRow (Arr2.wrap (Arr2.ofFn f.rows f.cols fun _ _ => (0 : ℂ)).rows L2)
      fun j => 2 * Complex.I * f.at' (Arr2.wrap f.rows ((M : ℤ) - 1)) j)
    ⟨rfl, rfl, fun m ν h1 h2 => ?_⟩ ?_
  · obtain ⟨k1, k2, k3⟩ := key
    refine ⟨k1, k2, fun m ν hν => ?_⟩
    rw [abs_le] at hν
    have wall : ∀ ν : ℤ, -(M : ℤ) ≤ ν → ν < M → (if L2 - (((L2 - -L2 + 1 - 1) / 1).toNat : ℤ) ≤ ν then h m ν else 0) = h m ν := by
      intro ν h1 h2
      split
      · rfl
      · rw [hsup m ν]
        rw [le_abs]; omega
    by_cases hn : ν = M
    · have e : ∀ g : Arr2 ℂ, g.rows = f.rows → fAt g m ν = fAt g m (-(M : ℤ)) := by
        intro g hg
        unfold fAt
        rw [hg, show (ν % (f.rows : ℤ)) = (-(M : ℤ)) % f.rows by
          rw [hn, show (M : ℤ) = -(M : ℤ) + f.rows by omega, Int.add_emod_right]; congr 1; omega]
      rw [e _ k1, k3 m _ (by omega) (by omega), wall _ (by omega) (by omega), hsup m _ (by rw [le_abs]; omega), hsup m _ (by rw [le_abs]; omega)]
    · rw [k3 m ν (by omega) (by omega), wall _ (by omega) (by omega)]
  · rw [fAt_setRow (Arr2.ofFn f.rows f.cols fun _ _ => (0 : ℂ)) f.rows f.cols rfl rfl _ _ hr hc, Arr2.rows_ofFn,
      wrap_eq_mod (R := f.rows) (ν := L2) (by omega) (by omega), wrap_eq_mod (R := f.rows) (by omega) (by omega), fAt_ofFn _ _ _ hr hc]
    simp only [wr ν L2 h1 h2 (by omega) (by omega)]
    have hf : 2 * Complex.I * f.at' (((M : ℤ) - 1) % f.rows).toNat (m % f.cols).toNat = h m L2 := by
      have := hrec m ((M : ℤ) - 1) (by rw [abs_le]; omega)
      rw [hsup m ((M : ℤ) - 1 + 1) (by rw [le_abs]; omega), sub_zero] at this
      rw [hL2, show (M : ℤ) - 2 = M - 1 - 1 by ring, this]
      rfl
    rw [hf]
    by_cases hv : ν = L2
    · rw [if_pos hv, if_pos (by omega), hv]
    · rw [if_neg hv]
      split
      · rw [hsup m ν]; rw [le_abs]; omega
      · rfl
  · rintro j g hj ⟨g1, g2, g3⟩
    have hjj : (j : ℤ) < 2 * L2 := by omega
    refine ⟨by unfold divsinStep Arr2.setRow; simpa using g1, by unfold divsinStep Arr2.setRow; simpa using g2, fun m ν h1 h2 => ?_⟩
    unfold divsinStep
    rw [fAt_setRow _ f.rows f.cols g1 g2 _ _ (by omega) (by omega), g1]
    rw [wrap_eq_mod (R := f.rows) (ν := L2 - 1 * j - 1) (by omega) (by omega), wrap_eq_mod (R := f.rows) (ν := L2 - 1 * j) (by omega) (by omega),
      wrap_eq_mod (R := f.rows) (ν := L2 - 1 * j + 1) (by omega) (by omega)]
    simp only [wr ν (L2 - 1 * j - 1) h1 h2 (by omega) (by omega)]
    have hg := g3 m (L2 - 1 * j + 1) (by omega) (by omega)
    unfold fAt at hg
    rw [g1, g2, if_pos (by omega)] at hg
    have hr' := hrec m (L2 - 1 * j) (by rw [abs_le]; omega)
    unfold fAt at hr'
    rw [hg, ← hr']
    by_cases hv : ν = L2 - 1 * j - 1
    · rw [if_pos hv, if_pos (by push_cast; omega), hv]; ring
    · rw [if_neg hv, g3 m ν h1 h2]
      by_cases hw : L2 - j ≤ ν
      · rw [if_pos hw, if_pos (by push_cast; omega)]
      · rw [if_neg hw, if_neg (by push_cast; omega)]

/-- `L_fc` on data `f` with `m f = sin θ · h`. -/
theorem lFc_spec (f : Arr2 ℂ) (M : ℕ) (hR : f.rows = 2 * M) (hM : 1 ≤ M) (hc : 0 < f.cols) (hC : f.cols % 2 = 0) (h : ℤ → ℤ → ℂ)
    (hsup : ∀ m ν : ℤ, (M : ℤ) - 1 ≤ |ν| → h m ν = 0)
    (hrec : ∀ m ν : ℤ, |ν| ≤ (M : ℤ) - 1 → (h m (ν - 1) - h m (ν + 1)) / (2 * Complex.I) = (freqList f.cols (m % f.cols).toNat : ℂ) * fAt f m ν) :
    ∃ g, lFc f = .ok g ∧ g.1.rows = f.rows ∧ g.1.cols = f.cols ∧ g.2.rows = f.rows ∧ g.2.cols = f.cols ∧
      (∀ m ν : ℤ, |ν| ≤ M → fAt g.1 m ν = -h m ν) ∧
      (∀ m ν : ℤ, fAt g.2 m ν = (freqList f.rows (ν % f.rows).toNat : ℂ) * fAt f m ν) := by
  have hI : (2 * Complex.I) ≠ 0 := mul_ne_zero two_ne_zero Complex.I_ne_zero
  obtain ⟨a, ea, a1, a2, a3⟩ := dphiFc_spec f (by omega) hc hC
  obtain ⟨d, ed, d1, d2, d3⟩ := divsinFc_spec a M (by omega) hM (by omega) (fun m ν => Complex.I * h m ν)
    (fun m ν hν => by rw [hsup m ν hν, mul_zero]) (fun m ν hν => by
      have := hrec m ν hν
      rw [div_eq_iff hI] at this
      rw [a3]
      linear_combination Complex.I * this)
  obtain ⟨b, eb, b1, b2, b3⟩ := dthetaFc_spec f (by omega) hc (by omega)
  unfold lFc
  rw [ea]
  simp only [Except.bind_ok]
  rw [ed, eb]
  simp only [Except.bind_ok]
  refine ⟨_, rfl, by simp; omega, by simp; omega, by simp; omega, by simp; omega, fun m ν hν => ?_, fun m ν => ?_⟩
  · rw [fAt_map _ _ (by omega) (by omega), d3 m ν hν]
    linear_combination (h m ν) * Complex.I_sq
  · rw [fAt_map _ _ (by omega) (by omega), b3 m ν]
    linear_combination (-((freqList f.rows (ν % f.rows).toNat : ℂ) * fAt f m ν)) * Complex.I_sq

/-- `sinLdot_fc` on padded data. -/
theorem sinLdotFc_spec (T P : Arr2 ℂ) (M : ℕ) (hT : T.rows = 2 * (M + 1)) (hP : P.rows = 2 * (M + 1)) (hM : 1 ≤ M) (hTP : P.cols = T.cols)
    (hc : 0 < T.cols) (hC : T.cols % 2 = 0) (p : ℤ → ℤ → ℂ)
    (hp : ∀ m ν : ℤ, |ν| ≤ M + 1 → fAt P m ν = p m ν) (hp0 : ∀ m ν, (M : ℤ) ≤ |ν| → p m ν = 0) (ht0 : ∀ m : ℤ, fAt T m (M + 1) = 0) :
    ∃ G, sinLdotFc T P = .ok G ∧ G.rows = T.rows ∧ G.cols = T.cols ∧
      (∀ m ν : ℤ, |ν| ≤ M → fAt G m ν =
        -((freqList T.cols (m % T.cols).toNat : ℂ) * fAt T m ν) + ν * ((p m (ν - 1) - p m (ν + 1)) / (2 * Complex.I))) ∧
      ∀ m, fAt G m (G.rows / 2) = 0 := by
  obtain ⟨t, et, t1, t2, t3⟩ := dphiFc_spec T (by omega) hc hC
  obtain ⟨s, es, s1, s2, s3⟩ := sinFc_spec P M hP hM p hp hp0 (by omega)
  obtain ⟨d, ed, d1, d2, d3⟩ := dthetaFc_spec s (by omega) (by omega) (by omega)
  unfold sinLdotFc
  rw [et, es]
  simp only [Except.bind_ok]
  rw [ed]
  simp only [Except.bind_ok]
  refine ⟨_, rfl, t1, t2, fun m ν hν => ?_, fun m => ?_⟩
  · rw [fAt_zip _ _ _ (by omega) (by omega) (by omega) (by omega), t3, d3, s3 m ν (by omega)]
    rw [abs_le] at hν
    rw [freqList_eq s.rows (by omega) ν (by omega) (by omega)]
    linear_combination ((freqList T.cols (m % T.cols).toNat : ℂ) * fAt T m ν - ν * ((p m (ν - 1) - p m (ν + 1)) / (2 * Complex.I))) * Complex.I_sq
  · have hh : ((t.zip (fun a b => Complex.I * (a - b)) d).rows : ℤ) / 2 = (M : ℤ) + 1 := by
      have : (t.zip (fun a b => Complex.I * (a - b)) d).rows = t.rows := rfl
      rw [this]; omega
    rw [hh, fAt_zip _ _ _ (by omega) (by omega) (by omega) (by omega), t3, d3, s3 m _ (by rw [abs_of_nonneg (by omega)]), ht0,
      hp0 m _ (by rw [abs_of_nonneg (by omega)]; omega), hp0 m _ (by rw [abs_of_nonneg (by omega)]; omega)]
    simp

end Verif
