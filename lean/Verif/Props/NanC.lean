import Verif.NanC
import Verif.KissDft
import Verif.Props.NanX2
/-!
# C132: kiss_fft spreads a NaN over its whole output
-/
namespace Verif.Props
open Verif Finset
namespace NC
variable {rnd : ℝ → ℝ} {Bd : IE → Prop} [Sticky Bd]

theorem csub_r {z : IE × IE} (w : IE × IE) (h : Bad Bd z) : Bad Bd (NX.csub rnd w z) := by
  rcases h with h | h
  · exact .inl (NN.bsub_r _ h)
  · exact .inr (NN.bsub_r _ h)

theorem addI_l {z : IE × IE} (w : IE × IE) (h : Bad Bd z) : Bad Bd (NX.addI rnd z w) := by
  rcases h with h | h
  · exact .inl (NN.bsub_l _ h)
  · exact .inr (Sticky.add_l _ h)

theorem addI_r {z : IE × IE} (w : IE × IE) (h : Bad Bd z) : Bad Bd (NX.addI rnd w z) := by
  rcases h with h | h
  · exact .inr (Sticky.add_r _ h)
  · exact .inl (NN.bsub_r _ h)

theorem subI_l {z : IE × IE} (w : IE × IE) (h : Bad Bd z) : Bad Bd (NX.subI rnd z w) := by
  rcases h with h | h
  · exact .inl (Sticky.add_l _ h)
  · exact .inr (NN.bsub_l _ h)

theorem subI_r {z : IE × IE} (w : IE × IE) (h : Bad Bd z) : Bad Bd (NX.subI rnd w z) := by
  rcases h with h | h
  · exact .inr (NN.bsub_r _ h)
  · exact .inl (Sticky.add_r _ h)

theorem div_l (b : IE) : IE.div rnd .nan b = .nan := by cases b <;> rfl
theorem neg_nan : IE.neg .nan = .nan := rfl

/-- One butterfly iteration `u`: a NaN among its inputs makes all its outputs NaN. -/
structure Body (Bd : IE → Prop) (p fo m u : ℕ) (F F' : List (IE × IE)) : Prop where
  len : F'.length = F.length
  nan : (∃ q, q < p ∧ Bad Bd (rd F (fo + q * m + u))) → ∀ r, r < p → Bad Bd (rd F' (fo + r * m + u))
  other : ∀ i, (∀ r, r < p → i ≠ fo + r * m + u) → rd F' i = rd F i

theorem bfly_loop (p fo m len : ℕ) (body : List (IE × IE) → Int → Res (List (IE × IE))) (F : List (IE × IE)) (hF : F.length = len)
    (hb : ∀ (G : List (IE × IE)) (u : ℕ), G.length = len → u < m → ∃ G', body G (u : Int) = .ok G' ∧ Body Bd p fo m u G G') :
    ∃ F', forM' (pyRange 0 (m : Int)) F body = .ok F' ∧ F'.length = len ∧
      (∀ u, u < m → (∃ q, q < p ∧ Bad Bd (rd F (fo + q * m + u))) → ∀ r, r < p → Bad Bd (rd F' (fo + r * m + u))) ∧
      ∀ i, i < fo ∨ fo + p * m ≤ i → rd F' i = rd F i := by
  obtain ⟨F', e, hi⟩ := forM'_range_inv (a := 0) (b := (m : Int)) (by omega) F body
    (fun k G => G.length = len ∧
      (∀ u : ℕ, u < m → (u : Int) < k → (∃ q, q < p ∧ Bad Bd (rd F (fo + q * m + u))) → ∀ r, r < p → Bad Bd (rd G (fo + r * m + u))) ∧
      (∀ u : ℕ, u < m → k ≤ (u : Int) → ∀ r, r < p → rd G (fo + r * m + u) = rd F (fo + r * m + u)) ∧
      ∀ i, i < fo ∨ fo + p * m ≤ i → rd G i = rd F i)
    ⟨hF, fun u _ h => by omega, fun u _ _ r _ => rfl, fun i _ => rfl⟩
    (by
      intro k G h1 h2 ⟨gl, gv, gk, go⟩
      obtain ⟨u0, rfl⟩ := Int.eq_ofNat_of_zero_le h1
      have hu0 : u0 < m := by omega
      obtain ⟨G', e, ok⟩ := hb G u0 gl hu0
      refine ⟨G', e, by rw [ok.len, gl], fun u hu huk hq r hr => ?_, fun u hu huk r hr => ?_, fun i hi => ?_⟩
      · by_cases hc : u = u0
        · subst hc
          obtain ⟨q, hq, hn⟩ := hq
          exact ok.nan ⟨q, hq, by rw [gk u hu (by omega) q hq]; exact hn⟩ r hr
        · rw [ok.other _ (fun r' _ => idx_ne hu hu0 hc)]
          exact gv u hu (by omega) hq r hr
      · rw [ok.other _ (fun r' _ => idx_ne hu hu0 (by omega)), gk u hu (by omega) r hr]
      · rw [ok.other, go i hi]
        intro r hr he
        have : r * m + m ≤ p * m := by
          calc r * m + m = (r + 1) * m := by ring
            _ ≤ p * m := Nat.mul_le_mul_right _ hr
        omega)
  exact ⟨F', e, hi.1, fun u hu hq r hr => hi.2.1 u hu (by omega) hq r hr, hi.2.2.2⟩

theorem get {F : List (IE × IE)} {j : ℕ} (hj : j < F.length) {i : Int} (hi : i = (j : Int)) : cGet F i = .ok (rd F j) := by
  subst hi; exact cGet_ok hj

theorem set {F : List (IE × IE)} {j : ℕ} (hj : j < F.length) {i : Int} {v : IE × IE} (hi : i = (j : Int)) : cSet F i v = .ok (F.set j v) := by
  subst hi; exact cSet_ok hj

theorem bfly2_ok (tw : List (IE × IE)) {N : ℕ} (h : tw.length = N) (fo fs m len : ℕ) (hN : fs * (2 * m) = N) (hNpos : 0 < N) (hfo : fo + 2 * m ≤ len) (G : List (IE × IE)) (u : ℕ)
    (hG : G.length = len) (hu : u < m) : ∃ G', NX.kfBfly2Body rnd tw fo fs m G u = .ok G' ∧ Body Bd 2 fo m u G G' := by
  unfold NX.kfBfly2Body
  rw [get (j := fo + 1 * m + u) (by omega) (by push_cast; ring)]
  simp only [Except.bind_ok]
  rw [get (by rw [h]; exact tw_lt hN hNpos (q := 1) (by omega) hu) (by push_cast; ring)]
  simp only [Except.bind_ok]
  rw [get (j := fo + 0 * m + u) (by omega) (by push_cast; ring)]
  simp only [Except.bind_ok]
  rw [set (j := fo + 1 * m + u) (by omega) (by push_cast; ring)]
  simp only [Except.bind_ok]
  rw [set (j := fo + 0 * m + u) (by simp; omega) (by push_cast; ring)]
  refine ⟨_, rfl, by simp, ?_, ?_⟩
  · rintro ⟨q, hq, hn⟩ r hr
    rw [rd_set' _ _ _ _ (by simp; omega), rd_set' _ _ _ _ (by omega)]
    interval_cases r
    · rw [if_pos rfl]
      interval_cases q
      · exact NN.cadd_l _ hn
      · exact NN.cadd_r _ (NN.cmul_l _ hn)
    · rw [if_neg (by omega), if_pos rfl]
      interval_cases q
      · exact NN.csub_l _ hn
      · exact csub_r _ (NN.cmul_l _ hn)
  · intro i hi
    rw [rd_set' _ _ _ _ (by simp; omega), rd_set' _ _ _ _ (by omega), if_neg (hi 0 (by omega)), if_neg (hi 1 (by omega))]

theorem out3 {e f a1 w1 a2 w2 : IE × IE} (h : Bad Bd f ∨ Bad Bd a1 ∨ Bad Bd a2) :
    Bad Bd (NX.kfOut3 rnd e f a1 w1 a2 w2).1 ∧ Bad Bd (NX.kfOut3 rnd e f a1 w1 a2 w2).2.1 ∧ Bad Bd (NX.kfOut3 rnd e f a1 w1 a2 w2).2.2 := by
  have key : ∀ (s3 : IE × IE), Bad Bd f ∨ Bad Bd s3 → Bad Bd ((IE.sub rnd f.1 (IE.mul rnd s3.1 (.fin 0.5)), IE.sub rnd f.2 (IE.mul rnd s3.2 (.fin 0.5))) : IE × IE) := by
    rintro s3 ((h | h) | (h | h))
    · exact .inl (NN.bsub_l _ h)
    · exact .inr (NN.bsub_l _ h)
    · exact .inl (NN.bsub_r _ (Sticky.mul_l _ h))
    · exact .inr (NN.bsub_r _ (Sticky.mul_l _ h))
  have h3 : Bad Bd f ∨ Bad Bd (IE.cadd rnd (IE.cmul rnd a1 w1) (IE.cmul rnd a2 w2)) := by
    rcases h with h | h | h
    · exact .inl h
    · exact .inr (NN.cadd_l _ (NN.cmul_l _ h))
    · exact .inr (NN.cadd_r _ (NN.cmul_l _ h))
  refine ⟨?_, addI_l _ (key _ h3), subI_l _ (key _ h3)⟩
  rcases h3 with h | h
  · exact NN.cadd_l _ h
  · exact NN.cadd_r _ h

theorem bfly3_ok (tw : List (IE × IE)) (epi : IE × IE) {N : ℕ} (h : tw.length = N) (fo fs m len : ℕ) (hN : fs * (3 * m) = N) (hNpos : 0 < N) (hfo : fo + 3 * m ≤ len) (G : List (IE × IE)) (u : ℕ)
    (hG : G.length = len) (hu : u < m) : ∃ G', NX.kfBfly3Body rnd tw epi fo fs m G u = .ok G' ∧ Body Bd 3 fo m u G G' := by
  unfold NX.kfBfly3Body
  rw [get (j := fo + 1 * m + u) (by omega) (by push_cast; ring)]
  simp only [Except.bind_ok]
  rw [get (by rw [h]; exact tw_lt hN hNpos (q := 1) (by omega) hu) (by push_cast; ring)]
  simp only [Except.bind_ok]
  rw [get (j := fo + 2 * m + u) (by omega) (by push_cast; ring)]
  simp only [Except.bind_ok]
  rw [get (by rw [h]; exact tw_lt hN hNpos (q := 2) (by omega) hu) (by push_cast; ring)]
  simp only [Except.bind_ok]
  rw [get (j := fo + 0 * m + u) (by omega) (by push_cast; ring)]
  simp only [Except.bind_ok]
  rw [set (j := fo + 0 * m + u) (by omega) (by push_cast; ring)]
  simp only [Except.bind_ok]
  rw [set (j := fo + 2 * m + u) (by simp; omega) (by push_cast; ring)]
  simp only [Except.bind_ok]
  rw [set (j := fo + 1 * m + u) (by simp; omega) (by push_cast; ring)]
  refine ⟨_, rfl, by simp, ?_, ?_⟩
  · rintro ⟨q, hq, hn⟩ r hr
    rw [rd_set' _ _ _ _ (by simp; omega), rd_set' _ _ _ _ (by simp; omega), rd_set' _ _ _ _ (by omega)]
    have hh : Bad Bd (rd G (fo + 0 * m + u)) ∨ Bad Bd (rd G (fo + 1 * m + u)) ∨ Bad Bd (rd G (fo + 2 * m + u)) := by
      interval_cases q
      · exact .inl hn
      · exact .inr (.inl hn)
      · exact .inr (.inr hn)
    obtain ⟨o0, o1, o2⟩ := out3 (rnd := rnd) (e := epi) (w1 := rd tw (fs * (1 * u))) (w2 := rd tw (fs * (2 * u))) hh
    interval_cases r
    · rw [if_neg (by omega), if_neg (by omega), if_pos rfl]; exact o0
    · rw [if_pos rfl]; exact o1
    · rw [if_neg (by omega), if_pos rfl]; exact o2
  · intro i hi
    rw [rd_set' _ _ _ _ (by simp; omega), rd_set' _ _ _ _ (by simp; omega), rd_set' _ _ _ _ (by omega), if_neg (hi 1 (by omega)),
      if_neg (hi 2 (by omega)), if_neg (hi 0 (by omega))]

theorem out4 (inv : Bool) {f a1 w1 a2 w2 a3 w3 : IE × IE} (h : Bad Bd f ∨ Bad Bd a1 ∨ Bad Bd a2 ∨ Bad Bd a3) :
    Bad Bd (NX.kfOut4 rnd inv f a1 w1 a2 w2 a3 w3).1 ∧ Bad Bd (NX.kfOut4 rnd inv f a1 w1 a2 w2 a3 w3).2.1 ∧ Bad Bd (NX.kfOut4 rnd inv f a1 w1 a2 w2 a3 w3).2.2.1 ∧
      Bad Bd (NX.kfOut4 rnd inv f a1 w1 a2 w2 a3 w3).2.2.2 := by
  have hc : (Bad Bd (NX.csub rnd f (IE.cmul rnd a2 w2)) ∧ Bad Bd (IE.cadd rnd f (IE.cmul rnd a2 w2))) ∨
      (Bad Bd (IE.cadd rnd (IE.cmul rnd a1 w1) (IE.cmul rnd a3 w3)) ∧ Bad Bd (NX.csub rnd (IE.cmul rnd a1 w1) (IE.cmul rnd a3 w3))) := by
    rcases h with h | h | h | h
    · exact .inl ⟨NN.csub_l _ h, NN.cadd_l _ h⟩
    · exact .inr ⟨NN.cadd_l _ (NN.cmul_l _ h), NN.csub_l _ (NN.cmul_l _ h)⟩
    · exact .inl ⟨csub_r _ (NN.cmul_l _ h), NN.cadd_r _ (NN.cmul_l _ h)⟩
    · exact .inr ⟨NN.cadd_r _ (NN.cmul_l _ h), csub_r _ (NN.cmul_l _ h)⟩
  cases inv
  · rcases hc with ⟨x, y⟩ | ⟨x, y⟩
    · exact ⟨NN.cadd_l _ y, subI_l _ x, NN.csub_l _ y, addI_l _ x⟩
    · exact ⟨NN.cadd_r _ x, subI_r _ y, csub_r _ x, addI_r _ y⟩
  · rcases hc with ⟨x, y⟩ | ⟨x, y⟩
    · exact ⟨NN.cadd_l _ y, addI_l _ x, NN.csub_l _ y, subI_l _ x⟩
    · exact ⟨NN.cadd_r _ x, addI_r _ y, csub_r _ x, subI_r _ y⟩

theorem bfly4_ok (tw : List (IE × IE)) (inv : Bool) {N : ℕ} (h : tw.length = N) (fo fs m len : ℕ) (hN : fs * (4 * m) = N) (hNpos : 0 < N) (hfo : fo + 4 * m ≤ len) (G : List (IE × IE)) (u : ℕ)
    (hG : G.length = len) (hu : u < m) : ∃ G', NX.kfBfly4Body rnd tw inv fo fs m G u = .ok G' ∧ Body Bd 4 fo m u G G' := by
  unfold NX.kfBfly4Body
  rw [get (j := fo + 1 * m + u) (by omega) (by push_cast; ring)]
  simp only [Except.bind_ok]
  rw [get (by rw [h]; exact tw_lt hN hNpos (q := 1) (by omega) hu) (by push_cast; ring)]
  simp only [Except.bind_ok]
  rw [get (j := fo + 2 * m + u) (by omega) (by push_cast; ring)]
  simp only [Except.bind_ok]
  rw [get (by rw [h]; exact tw_lt hN hNpos (q := 2) (by omega) hu) (by push_cast; ring)]
  simp only [Except.bind_ok]
  rw [get (j := fo + 3 * m + u) (by omega) (by push_cast; ring)]
  simp only [Except.bind_ok]
  rw [get (by rw [h]; exact tw_lt hN hNpos (q := 3) (by omega) hu) (by push_cast; ring)]
  simp only [Except.bind_ok]
  rw [get (j := fo + 0 * m + u) (by omega) (by push_cast; ring)]
  simp only [Except.bind_ok]
  rw [set (j := fo + 2 * m + u) (by omega) (by push_cast; ring)]
  simp only [Except.bind_ok]
  rw [set (j := fo + 0 * m + u) (by simp; omega) (by push_cast; ring)]
  simp only [Except.bind_ok]
  rw [set (j := fo + 1 * m + u) (by simp; omega) (by push_cast; ring)]
  simp only [Except.bind_ok]
  rw [set (j := fo + 3 * m + u) (by simp; omega) (by push_cast; ring)]
  refine ⟨_, rfl, by simp, ?_, ?_⟩
  · rintro ⟨q, hq, hn⟩ r hr
    rw [rd_set' _ _ _ _ (by simp; omega), rd_set' _ _ _ _ (by simp; omega), rd_set' _ _ _ _ (by simp; omega), rd_set' _ _ _ _ (by omega)]
    have hh : Bad Bd (rd G (fo + 0 * m + u)) ∨ Bad Bd (rd G (fo + 1 * m + u)) ∨ Bad Bd (rd G (fo + 2 * m + u)) ∨ Bad Bd (rd G (fo + 3 * m + u)) := by
      interval_cases q
      · exact .inl hn
      · exact .inr (.inl hn)
      · exact .inr (.inr (.inl hn))
      · exact .inr (.inr (.inr hn))
    obtain ⟨o0, o1, o2, o3⟩ := out4 (rnd := rnd) inv (w1 := rd tw (fs * (1 * u))) (w2 := rd tw (fs * (2 * u))) (w3 := rd tw (fs * (3 * u))) hh
    interval_cases r
    · rw [if_neg (by omega), if_neg (by omega), if_pos rfl]; exact o0
    · rw [if_neg (by omega), if_pos rfl]; exact o1
    · rw [if_neg (by omega), if_neg (by omega), if_neg (by omega), if_pos rfl]; exact o2
    · rw [if_pos rfl]; exact o3
  · intro i hi
    rw [rd_set' _ _ _ _ (by simp; omega), rd_set' _ _ _ _ (by simp; omega), rd_set' _ _ _ _ (by simp; omega), rd_set' _ _ _ _ (by omega), if_neg (hi 3 (by omega)), if_neg (hi 1 (by omega)),
      if_neg (hi 0 (by omega)), if_neg (hi 2 (by omega))]

end NC
end Verif.Props
