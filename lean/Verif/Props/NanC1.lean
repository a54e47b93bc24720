import Verif.Props.NanC
/-!
# C132: kiss_fft spreads a NaN over its whole output (2)
-/
namespace Verif.Props
open Verif Finset
namespace NC
variable {rnd : ℝ → ℝ} {Bd : IE → Prop} [Sticky Bd]

theorem comb {s0 s7 s8 : IE × IE} (a b : IE) (h : Bad Bd s0 ∨ Bad Bd s7 ∨ Bad Bd s8) :
    Bad Bd ((IE.add rnd (IE.add rnd s0.1 (IE.mul rnd s7.1 a)) (IE.mul rnd s8.1 b), IE.add rnd (IE.add rnd s0.2 (IE.mul rnd s7.2 a)) (IE.mul rnd s8.2 b)) : IE × IE) := by
  rcases h with (h | h) | (h | h) | (h | h)
  · exact .inl (Sticky.add_l _ (Sticky.add_l _ h))
  · exact .inr (Sticky.add_l _ (Sticky.add_l _ h))
  · exact .inl (Sticky.add_l _ (Sticky.add_r _ (Sticky.mul_l _ h)))
  · exact .inr (Sticky.add_l _ (Sticky.add_r _ (Sticky.mul_l _ h)))
  · exact .inl (Sticky.add_r _ (Sticky.mul_l _ h))
  · exact .inr (Sticky.add_r _ (Sticky.mul_l _ h))

theorem out5 {ya yb s0 a1 w1 a2 w2 a3 w3 a4 w4 : IE × IE} (h : Bad Bd s0 ∨ Bad Bd a1 ∨ Bad Bd a2 ∨ Bad Bd a3 ∨ Bad Bd a4) :
    let o := NX.kfOut5 rnd ya yb s0 a1 w1 a2 w2 a3 w3 a4 w4
    Bad Bd o.1 ∧ Bad Bd o.2.1 ∧ Bad Bd o.2.2.1 ∧ Bad Bd o.2.2.2.1 ∧ Bad Bd o.2.2.2.2 := by
  have h3 : Bad Bd s0 ∨ Bad Bd (IE.cadd rnd (IE.cmul rnd a1 w1) (IE.cmul rnd a4 w4)) ∨ Bad Bd (IE.cadd rnd (IE.cmul rnd a2 w2) (IE.cmul rnd a3 w3)) := by
    rcases h with h | h | h | h | h
    · exact .inl h
    · exact .inr (.inl (NN.cadd_l _ (NN.cmul_l _ h)))
    · exact .inr (.inr (NN.cadd_l _ (NN.cmul_l _ h)))
    · exact .inr (.inr (NN.cadd_r _ (NN.cmul_l _ h)))
    · exact .inr (.inl (NN.cadd_r _ (NN.cmul_l _ h)))
  intro o
  refine ⟨?_, NN.csub_l _ (comb _ _ h3), NN.cadd_l _ (comb _ _ h3), NN.csub_l _ (comb _ _ h3), NN.cadd_l _ (comb _ _ h3)⟩
  simp only [o, NX.kfOut5]
  rcases h3 with (h | h) | (h | h) | (h | h)
  · exact .inl (Sticky.add_l _ h)
  · exact .inr (Sticky.add_l _ h)
  · exact .inl (Sticky.add_r _ (Sticky.add_l _ h))
  · exact .inr (Sticky.add_r _ (Sticky.add_l _ h))
  · exact .inl (Sticky.add_r _ (Sticky.add_r _ h))
  · exact .inr (Sticky.add_r _ (Sticky.add_r _ h))

theorem bfly5_ok (tw : List (IE × IE)) (ya yb : IE × IE) {N : ℕ} (h : tw.length = N) (fo fs m len : ℕ) (hN : fs * (5 * m) = N) (hNpos : 0 < N) (hfo : fo + 5 * m ≤ len) (G : List (IE × IE)) (u : ℕ)
    (hG : G.length = len) (hu : u < m) : ∃ G', NX.kfBfly5Body rnd tw ya yb fo fs m G u = .ok G' ∧ Body Bd 5 fo m u G G' := by
  unfold NX.kfBfly5Body
  rw [get (j := fo + 0 * m + u) (by omega) (by push_cast; ring)]
  simp only [Except.bind_ok]
  rw [get (j := fo + 1 * m + u) (by omega) (by push_cast; ring)]
  simp only [Except.bind_ok]
  rw [get (by rw [h]; exact tw_lt hN hNpos (q := 1) (by omega) hu) (by push_cast; ring)]
  simp only [Except.bind_ok]
  rw [get (j := fo + 2 * m + u) (by omega) (by push_cast; ring)]
  simp only [Except.bind_ok]
  rw [get (by rw [h]; exact tw_lt hN hNpos (q := 2) (by omega) hu) (by push_cast; ring)]
  simp only [Except.bind_ok]
  rw [get (j := fo + 3 * m + u) (by omega) (by push_cast; ring)]
  simp only [Except.bind_ok]
  rw [get (by rw [h]; exact tw_lt hN hNpos (q := 3) (by omega) hu) (by push_cast; ring)]
  simp only [Except.bind_ok]
  rw [get (j := fo + 4 * m + u) (by omega) (by push_cast; ring)]
  simp only [Except.bind_ok]
  rw [get (by rw [h]; exact tw_lt hN hNpos (q := 4) (by omega) hu) (by push_cast; ring)]
  simp only [Except.bind_ok]
  rw [set (j := fo + 0 * m + u) (by omega) (by push_cast; ring)]
  simp only [Except.bind_ok]
  rw [set (j := fo + 1 * m + u) (by simp; omega) (by push_cast; ring)]
  simp only [Except.bind_ok]
  rw [set (j := fo + 4 * m + u) (by simp; omega) (by push_cast; ring)]
  simp only [Except.bind_ok]
  rw [set (j := fo + 2 * m + u) (by simp; omega) (by push_cast; ring)]
  simp only [Except.bind_ok]
  rw [set (j := fo + 3 * m + u) (by simp; omega) (by push_cast; ring)]
  refine ⟨_, rfl, by simp, ?_, ?_⟩
  · rintro ⟨q, hq, hn⟩ r hr
    rw [rd_set' _ _ _ _ (by simp; omega), rd_set' _ _ _ _ (by simp; omega), rd_set' _ _ _ _ (by simp; omega), rd_set' _ _ _ _ (by simp; omega), rd_set' _ _ _ _ (by omega)]
    have hh : Bad Bd (rd G (fo + 0 * m + u)) ∨ Bad Bd (rd G (fo + 1 * m + u)) ∨ Bad Bd (rd G (fo + 2 * m + u)) ∨ Bad Bd (rd G (fo + 3 * m + u)) ∨ Bad Bd (rd G (fo + 4 * m + u)) := by
      interval_cases q
      · exact .inl hn
      · exact .inr (.inl hn)
      · exact .inr (.inr (.inl hn))
      · exact .inr (.inr (.inr (.inl hn)))
      · exact .inr (.inr (.inr (.inr hn)))
    obtain ⟨o0, o1, o2, o3, o4⟩ := out5 (rnd := rnd) (ya := ya) (yb := yb) (w1 := rd tw (fs * (1 * u))) (w2 := rd tw (fs * (2 * u))) (w3 := rd tw (fs * (3 * u))) (w4 := rd tw (fs * (4 * u))) hh
    interval_cases r
    · rw [if_neg (by omega), if_neg (by omega), if_neg (by omega), if_neg (by omega), if_pos rfl]; exact o0
    · rw [if_neg (by omega), if_neg (by omega), if_neg (by omega), if_pos rfl]; exact o1
    · rw [if_neg (by omega), if_pos rfl]; exact o2
    · rw [if_pos rfl]; exact o3
    · rw [if_neg (by omega), if_neg (by omega), if_pos rfl]; exact o4
  · intro i hi
    rw [rd_set' _ _ _ _ (by simp; omega), rd_set' _ _ _ _ (by simp; omega), rd_set' _ _ _ _ (by simp; omega), rd_set' _ _ _ _ (by simp; omega), rd_set' _ _ _ _ (by omega),
      if_neg (hi 3 (by omega)), if_neg (hi 2 (by omega)), if_neg (hi 4 (by omega)), if_neg (hi 1 (by omega)), if_neg (hi 0 (by omega))]

theorem bflyGen_ok (tw : List (IE × IE)) {N : ℕ} (h : tw.length = N) (p fo fs m len : ℕ) (hp : 1 ≤ p) (hN : fs * (p * m) = N) (hNpos : 0 < N)
    (hfo : fo + p * m ≤ len) (G : List (IE × IE)) (u : ℕ) (hG : G.length = len) (hu : u < m) :
    ∃ G', NX.kfBflyGenBody rnd tw N fo fs m p G u = .ok G' ∧ Body Bd p fo m u G G' := by
  have hidx : ∀ q, q < p → q * m + u < p * m := by
    intro q hq
    calc q * m + u < q * m + m := by omega
      _ = (q + 1) * m := by ring
      _ ≤ p * m := Nat.mul_le_mul_right _ hq
  have hfs : 0 < fs := Nat.pos_of_mul_pos_right (pos_fm hN hNpos)
  unfold NX.kfBflyGenBody
  rw [mapM'_ok _ _ (fun q : Int => rd G (fo + q.toNat * m + u)) (by
    intro x hx
    have hx' := mem_pyRange.mp hx
    obtain ⟨q, rfl⟩ := Int.eq_ofNat_of_zero_le hx'.1
    have := hidx q (by omega)
    rw [get (j := fo + q * m + u) (by omega) (by push_cast; ring)]
    rfl)]
  simp only [Except.bind_ok]
  have hsl : ((pyRange 0 (p : Int)).map (fun q : Int => rd G (fo + q.toNat * m + u))).length = p := by
    simp [length_pyRange]
  have hsv : ∀ q, q < p → rd ((pyRange 0 (p : Int)).map (fun q : Int => rd G (fo + q.toNat * m + u))) q = rd G (fo + q * m + u) := by
    intro q hq
    have h1 : q < (pyRange 0 (p : Int)).length := by rw [length_pyRange]; omega
    have : q < ((pyRange 0 (p : Int)).map (fun q : Int => rd G (fo + q.toNat * m + u))).length := by rw [hsl]; exact hq
    have key : ∀ (l : List (IE × IE)) (i : ℕ) (hi : i < l.length), rd l i = l[i] := by
      intro l i hi; unfold rd; rw [List.getD_eq_getElem?_getD, List.getElem?_eq_getElem hi, Option.getD_some]
    rw [key _ _ this, List.getElem_map, getElem_pyRange]
    simp
  generalize (pyRange 0 (p : Int)).map (fun q : Int => rd G (fo + q.toNat * m + u)) = scratch at hsl hsv
  obtain ⟨F', e, hi⟩ := forM'_range_inv (a := 0) (b := (p : Int)) (by omega) G
    (fun F q1 =>
      let k := (u : Int) + q1 * m
      (cGet scratch 0).bind fun x0 =>
      (forM' (pyRange 1 p) (x0, (0 : Int)) (NX.kfGenInner rnd tw scratch N fs k)).bind fun s =>
      cSet F (fo + k) s.1)
    (fun q F => F.length = len ∧
      (∀ r : ℕ, (r : Int) < q → (∃ q, q < p ∧ Bad Bd (rd G (fo + q * m + u))) → Bad Bd (rd F (fo + r * m + u))) ∧
      ∀ i, (∀ r, r < p → i ≠ fo + r * m + u) → rd F i = rd G i)
    ⟨hG, fun r hr => by omega, fun i _ => rfl⟩
    (by
      intro q F h1 h2 ⟨fl, fv, fother⟩
      obtain ⟨r, rfl⟩ := Int.eq_ofNat_of_zero_le h1
      have hr : r < p := by omega
      have hk := hidx r hr
      have hfk : fs * (u + r * m) < N := by
        rw [← hN]; exact Nat.mul_lt_mul_of_pos_left (by omega) hfs
      simp only
      rw [show (0 : Int) = ((0 : ℕ) : Int) from rfl, cGet_ok (l := scratch) (i := 0) (by rw [hsl]; omega)]
      simp only [Except.bind_ok, Nat.cast_zero]
      obtain ⟨s, es, hs⟩ := forM'_range_inv (a := 1) (b := (p : Int)) (by omega) (rd scratch 0, (0 : Int))
        (NX.kfGenInner rnd tw scratch N fs ((u : Int) + (r : Int) * m))
        (fun q s => ((∃ q' : ℕ, (q' : ℤ) < q ∧ Bad Bd (rd G (fo + q' * m + u))) → Bad Bd s.1) ∧ 0 ≤ s.2 ∧ s.2 < N)
        ⟨by
          rintro ⟨q', hq', hn⟩
          have : q' = 0 := by omega
          subst this
          rw [hsv 0 (by omega)]
          exact hn, by simp, by simpa using hNpos⟩
        (by
          intro q s h1 h2 ⟨s1, s2, s3⟩
          obtain ⟨q', rfl⟩ := Int.eq_ofNat_of_zero_le (show 0 ≤ q by omega)
          unfold NX.kfGenInner
          simp only
          rw [get (F := scratch) (j := q') (by rw [hsl]; omega) rfl]
          simp only [Except.bind_ok]
          have hmul : (fs : Int) * ((u : Int) + r * m) = ((fs * (u + r * m) : ℕ) : Int) := by push_cast; ring
          rw [hmul]
          obtain ⟨t, ht⟩ : ∃ t, t = (if s.2 + ((fs * (u + r * m) : ℕ) : Int) ≥ N then s.2 + ((fs * (u + r * m) : ℕ) : Int) - N else s.2 + ((fs * (u + r * m) : ℕ) : Int)) := ⟨_, rfl⟩
          rw [← ht]
          have ht0 : 0 ≤ t ∧ t < N := by rw [ht]; split <;> omega
          rw [get (F := tw) (j := t.toNat) (by omega) (by omega)]
          refine ⟨_, rfl, ?_, ht0⟩
          rintro ⟨q2, hq2, hn⟩
          by_cases hc : q2 = q'
          · subst hc
            refine NN.cadd_r _ (NN.cmul_l _ ?_)
            rw [hsv q2 (by omega)]; exact hn
          · exact NN.cadd_l _ (s1 ⟨q2, by omega, hn⟩))
      rw [es]
      simp only [Except.bind_ok]
      rw [set (j := fo + r * m + u) (by omega) (by push_cast; ring)]
      refine ⟨_, rfl, by simpa using fl, fun r' hr' hx => ?_, fun i hi => ?_⟩
      · rw [rd_set' _ _ _ _ (by omega)]
        split
        · obtain ⟨q, hq, hn⟩ := hx
          exact hs.1 ⟨q, by omega, hn⟩
        · rename_i hne
          exact fv r' (by
            by_contra hcc
            have : r' = r := by omega
            exact hne (by rw [this])) hx
      · rw [rd_set' _ _ _ _ (by omega), if_neg (hi r hr), fother i hi])
  exact ⟨F', e, by rw [hi.1, hG], fun hx r hr => hi.2.1 r (by omega) hx, hi.2.2⟩

theorem kfBfly_ok {cfg : NX.KissCfg} {N : ℕ} (hn : cfg.nfft = N) (h : cfg.twiddles.length = N) (p fo fs m len : ℕ) (hp : 1 ≤ p) (hm : 1 ≤ m) (hN : fs * (p * m) = N) (hNpos : 0 < N)
    (hfo : fo + p * m ≤ len) (F : List (IE × IE)) (hF : F.length = len) :
    ∃ F', NX.kfBfly rnd cfg F fo fs m p = .ok F' ∧ F'.length = len ∧
      (∀ u, u < m → (∃ q, q < p ∧ Bad Bd (rd F (fo + q * m + u))) → ∀ r, r < p → Bad Bd (rd F' (fo + r * m + u))) ∧
      ∀ i, i < fo ∨ fo + p * m ≤ i → rd F' i = rd F i := by
  unfold NX.kfBfly
  have hfm := pos_fm hN hNpos
  by_cases h2 : p = 2
  · subst h2
    simp only [Nat.cast_ofNat, if_true]
    exact bfly_loop 2 fo m len _ F hF fun G u hG hu => bfly2_ok _ h fo fs m len hN hNpos hfo G u hG hu
  by_cases h3 : p = 3
  · subst h3
    have hlt : fs * m < N := by rw [← hN, show fs * (3 * m) = 3 * (fs * m) by ring]; omega
    simp only [Nat.cast_ofNat, if_true, show ¬ ((3 : Int) = 2) by omega, if_false]
    rw [get (F := cfg.twiddles) (by rw [h]; exact hlt) (by push_cast; rfl)]
    exact bfly_loop 3 fo m len _ F hF fun G u hG hu => bfly3_ok _ _ h fo fs m len hN hNpos hfo G u hG hu
  by_cases h4 : p = 4
  · subst h4
    simp only [Nat.cast_ofNat, if_true, show ¬ ((4 : Int) = 2) by omega, show ¬ ((4 : Int) = 3) by omega, if_false]
    exact bfly_loop 4 fo m len _ F hF fun G u hG hu => bfly4_ok _ _ h fo fs m len hN hNpos hfo G u hG hu
  by_cases h5 : p = 5
  · subst h5
    have hlt : fs * m < N := by rw [← hN, show fs * (5 * m) = 5 * (fs * m) by ring]; omega
    have hlt2 : fs * 2 * m < N := by
      rw [← hN, show fs * (5 * m) = 5 * (fs * m) by ring, show fs * 2 * m = 2 * (fs * m) by ring]; omega
    simp only [Nat.cast_ofNat, if_true, show ¬ ((5 : Int) = 2) by omega, show ¬ ((5 : Int) = 3) by omega,
      show ¬ ((5 : Int) = 4) by omega, if_false]
    rw [get (F := cfg.twiddles) (by rw [h]; exact hlt) (by push_cast; rfl), get (F := cfg.twiddles) (by rw [h]; exact hlt2) (by push_cast; rfl)]
    exact bfly_loop 5 fo m len _ F hF fun G u hG hu => bfly5_ok _ _ _ h fo fs m len hN hNpos hfo G u hG hu
  simp only [show ¬ ((p : Int) = 2) by omega, show ¬ ((p : Int) = 3) by omega,
      show ¬ ((p : Int) = 4) by omega, show ¬ ((p : Int) = 5) by omega, if_false]
  rw [hn]
  exact bfly_loop p fo m len _ F hF fun G u hG hu => bflyGen_ok _ h p fo fs m len hp hN hNpos hfo G u hG hu

/-- A sub-transform of length `n` reading `fin[fi + fs*j]` and writing `F[fo + k]`: a NaN it reads makes everything it writes NaN. -/
structure Work (Bd : IE → Prop) (fin : List (IE × IE)) (n fo fi fs : ℕ) (F F' : List (IE × IE)) : Prop where
  len : F'.length = F.length
  nan : (∃ j, j < n ∧ Bad Bd (rd fin (fi + fs * j))) → ∀ k, k < n → Bad Bd (rd F' (fo + k))
  other : ∀ i, i < fo ∨ fo + n ≤ i → rd F' i = rd F i

theorem kfWork_ok {cfg : NX.KissCfg} {N : ℕ} (hnf : cfg.nfft = N) (h : cfg.twiddles.length = N) (hNpos : 0 < N) (fin : List (IE × IE)) : ∀ (fac : List Int) (n : ℕ), Stages n fac →
    ∀ (F : List (IE × IE)) (fo fi fs : ℕ), fs * n = N → fo + n ≤ F.length → fi + fs * (n - 1) < fin.length →
    ∃ F', NX.kfWork rnd cfg fin fac F fo fi fs = .ok F' ∧ Work Bd fin n fo fi fs F F'
  | p :: m :: rest, n, hs, F, fo, fi, fs, hfs, hfo, hfi => by
    obtain ⟨p, m, rfl, rfl, hp, hpm, hcase⟩ := hs
    have hm : 1 ≤ m := by rcases hcase with ⟨h1, _⟩ | ⟨h1, _⟩ <;> omega
    unfold NX.kfWork
    rw [if_neg (by omega)]
    have hn1 : ∀ q j : ℕ, q < p → j < m → q + p * j ≤ n - 1 := by
      intro q j hq hj
      have : q + p * j + 1 ≤ p * m := by
        calc q + p * j + 1 ≤ p + p * j := by omega
          _ = p * (j + 1) := by ring
          _ ≤ p * m := Nat.mul_le_mul_left _ hj
      omega
    have hqm : ∀ q, q < p → q * m + m ≤ n := by
      intro q hq
      calc q * m + m = (q + 1) * m := by ring
        _ ≤ p * m := Nat.mul_le_mul_right _ hq
        _ = n := hpm
    have hsub : ∃ G, (if (m : Int) = 1 then
        forM' (pyRange 0 p) F (fun F j => (cGet fin (fi + fs * j)).bind fun x => cSet F (fo + j) x)
      else
        forM' (pyRange 0 p) F (fun F j => NX.kfWork rnd cfg fin rest F (fo + j * m) (fi + fs * j) (fs * p))) = .ok G ∧
      G.length = F.length ∧
      (∀ q u, q < p → u < m → (∃ j, j < m ∧ Bad Bd (rd fin (fi + fs * (q + p * j)))) → Bad Bd (rd G (fo + q * m + u))) ∧
      ∀ i, i < fo ∨ fo + n ≤ i → rd G i = rd F i := by
      rcases hcase with ⟨rfl, -⟩ | ⟨hm1, hst⟩
      · rw [if_pos (by simp)]
        obtain ⟨G, e, hi⟩ := forM'_range_inv (a := 0) (b := (p : Int)) (by omega) F
          (fun F j => (cGet fin ((fi : Int) + fs * j)).bind fun x => cSet F ((fo : Int) + j) x)
          (fun k G => G.length = F.length ∧ (∀ q : ℕ, (q : Int) < k → rd G (fo + q) = rd fin (fi + fs * q)) ∧
            ∀ i, i < fo ∨ fo + n ≤ i → rd G i = rd F i)
          ⟨rfl, fun q hq => by omega, fun i _ => rfl⟩
          (by
            intro k G h1 h2 ⟨gl, gv, go⟩
            obtain ⟨q, rfl⟩ := Int.eq_ofNat_of_zero_le h1
            have hb : fs * q ≤ fs * (n - 1) := Nat.mul_le_mul_left _ (by have := hn1 q 0 (by omega) (by omega); omega)
            have hq := hqm q (by omega)
            rw [get (j := fi + fs * q) (by omega) (by push_cast; ring)]
            simp only [Except.bind_ok]
            rw [set (j := fo + q) (by omega) (by push_cast; ring)]
            refine ⟨_, rfl, by simpa using gl, fun q' hq' => ?_, fun i hi => ?_⟩
            · rw [rd_set' _ _ _ _ (by omega)]
              by_cases hc : q' = q
              · subst hc; rw [if_pos rfl]
              · rw [if_neg (by omega), gv q' (by omega)]
            · rw [rd_set' _ _ _ _ (by omega), if_neg (by omega), go i hi])
        refine ⟨G, e, hi.1, fun q u hq hu => ?_, hi.2.2⟩
        have : u = 0 := by omega
        subst this
        rintro ⟨j, hj, hn⟩
        have : j = 0 := by omega
        subst this
        rw [mul_one, add_zero, hi.2.1 q (by omega)]
        simpa using hn
      · rw [if_neg (by omega)]
        obtain ⟨G, e, hi⟩ := forM'_range_inv (a := 0) (b := (p : Int)) (by omega) F
          (fun F j => NX.kfWork rnd cfg fin rest F ((fo : Int) + j * m) ((fi : Int) + fs * j) ((fs : Int) * p))
          (fun k G => G.length = F.length ∧ (∀ q u : ℕ, (q : Int) < k → u < m → (∃ j, j < m ∧ Bad Bd (rd fin (fi + fs * (q + p * j)))) → Bad Bd (rd G (fo + q * m + u))) ∧
            ∀ i, i < fo ∨ fo + n ≤ i → rd G i = rd F i)
          ⟨rfl, fun q u hq => by omega, fun i _ => rfl⟩
          (by
            intro k G h1 h2 ⟨gl, gv, go⟩
            obtain ⟨q, rfl⟩ := Int.eq_ofNat_of_zero_le h1
            have hq := hqm q (by omega)
            have hb : fs * (q + p * (m - 1)) ≤ fs * (n - 1) := Nat.mul_le_mul_left _ (hn1 q (m - 1) (by omega) (by omega))
            obtain ⟨G', e', ok⟩ := kfWork_ok hnf h hNpos fin rest m hst G (fo + q * m) (fi + fs * q) (fs * p)
              (by rw [← hfs, ← hpm]; ring) (by omega) (by
                have : fs * q + fs * p * (m - 1) = fs * (q + p * (m - 1)) := by ring
                omega)
            push_cast at e'
            refine ⟨G', e', by rw [ok.len, gl], fun q' u hq' hu hx => ?_, fun i hi => ?_⟩
            · by_cases hc : q' = q
              · subst hc
                obtain ⟨j, hj, hn⟩ := hx
                refine ok.nan ⟨j, hj, ?_⟩ u hu
                rw [show fi + fs * q' + fs * p * j = fi + fs * (q' + p * j) by ring]
                exact hn
              · have hlt : q' < q := by omega
                rw [ok.other _ (by
                  left
                  have : q' * m + m ≤ q * m := by
                    calc q' * m + m = (q' + 1) * m := by ring
                      _ ≤ q * m := Nat.mul_le_mul_right _ hlt
                  omega)]
                exact gv q' u (by omega) hu hx
            · rw [ok.other i (by omega), go i hi])
        exact ⟨G, e, hi.1, fun q u hq hu => hi.2.1 q u (by omega) hu, hi.2.2⟩
    obtain ⟨G, eG, gl, gv, go⟩ := hsub
    rw [eG]
    simp only [Except.bind_ok]
    obtain ⟨F', e', fl, fv, fother⟩ := kfBfly_ok (rnd := rnd) (Bd := Bd) hnf h p fo fs m F.length hp hm (by rw [hpm]; exact hfs) hNpos
      (by rw [hpm]; exact hfo) G gl
    refine ⟨F', e', fl, fun hx k hk => ?_, fun i hi => ?_⟩
    · obtain ⟨r, u, hr, hu, rfl⟩ : ∃ r u, r < p ∧ u < m ∧ k = r * m + u := by
        refine ⟨k / m, k % m, ?_, Nat.mod_lt _ (by omega), ?_⟩
        · rw [Nat.div_lt_iff_lt_mul (by omega), hpm]; exact hk
        · rw [mul_comm]; exact (Nat.div_add_mod k m).symm
      rw [← add_assoc]
      obtain ⟨j, hj, hn⟩ := hx
      refine fv u hu ⟨j % p, Nat.mod_lt _ (by omega), gv _ u (Nat.mod_lt _ (by omega)) hu ⟨j / p, ?_, ?_⟩⟩ r hr
      · rw [Nat.div_lt_iff_lt_mul (by omega), mul_comm, hpm]; exact hj
      · rw [Nat.mod_add_div]; exact hn
    · rw [fother i (by rw [hpm]; exact hi), go i hi]
  | [], _, hs, _, _, _, _, _, _, _ => hs.elim
  | [_], _, hs, _, _, _, _, _, _, _ => hs.elim

/-- A configuration `kiss_fft_alloc` builds for length `N`. -/
structure CfgOK (cfg : NX.KissCfg) (N : ℕ) : Prop where
  nfft : cfg.nfft = N
  len : cfg.twiddles.length = N
  st : Stages N cfg.factors

theorem kissAlloc_ok (lm : Fl.LibM) (n : ℕ) (inv : Bool) (hn : 1 ≤ n) (hn2 : n < 2 ^ 32) : ∃ cfg, NX.kissAlloc rnd lm n inv = .ok cfg ∧ CfgOK cfg n := by
  obtain ⟨fac, e, hs, -⟩ := kfFactor_spec n hn hn2
  unfold NX.kissAlloc
  rw [if_neg (by omega), e]
  exact ⟨_, rfl, rfl, by simp, hs⟩

theorem kissFft_ok {cfg : NX.KissCfg} {N : ℕ} (h : CfgOK cfg N) (hN : 0 < N) (buf : List (IE × IE)) (hb : buf.length = N) (junk : ℕ → IE × IE) :
    ∃ out, NX.kissFft rnd cfg buf junk = .ok out ∧ out.length = N ∧ ((∃ i, i < N ∧ Bad Bd (rd buf i)) → ∀ k, k < N → Bad Bd (rd out k)) := by
  unfold NX.kissFft cMalloc
  rw [h.nfft, if_neg (by omega)]
  simp only [Except.bind_ok, Int.toNat_natCast]
  obtain ⟨F', e, ok⟩ := kfWork_ok (rnd := rnd) (Bd := Bd) h.nfft h.len hN buf cfg.factors N h.st (tab N junk) 0 0 1 (by omega) (by simp) (by omega)
  have e' : NX.kfWork rnd cfg buf cfg.factors (tab N junk) 0 0 1 = .ok F' := by exact_mod_cast e
  rw [e']
  simp only [Except.bind_ok]
  rw [if_pos (by omega), hb]
  refine ⟨_, rfl, by simp, fun hx k hk => ?_⟩
  rw [rd_tab hk, if_pos (by omega)]
  obtain ⟨j, hj, hn⟩ := hx
  have := ok.nan ⟨j, hj, by simpa using hn⟩ k hk
  simpa using this

end NC
end Verif.Props
