import Verif.CSphi
import Verif.SphiY
import Verif.SphiQ
import Verif.SphiH
import Verif.KissDft
/-!
# C extension: ynunm, FindQ, SData
-/
namespace Verif
open Finset

theorem forM'_congr {σ ι : Type} (P : σ → Prop) (f g : σ → ι → Res σ) (xs : List ι) (s : σ) (hP : P s)
    (h : ∀ x ∈ xs, ∀ s, P s → f s x = g s x) (hpres : ∀ x ∈ xs, ∀ s s', P s → g s x = .ok s' → P s') :
    forM' xs s f = forM' xs s g := by
  induction xs generalizing s with
  | nil => rfl
  | cons x xs ih =>
    simp only [forM']
    rw [h x (by simp) s hP]
    match hg : g s x with
    | .error e => rfl
    | .ok s' =>
      simp only [Except.bind_ok]
      exact ih s' (hpres x (by simp) s s' hP hg) (fun y hy => h y (by simp [hy])) (fun y hy => hpres y (by simp [hy]))

theorem cGet_eq_getIdx {α : Type} (l : List α) (i : Int) (h0 : 0 ≤ i) (h1 : i < l.length) : cGet l i = getIdx l i := by
  rw [getIdx_of_lt h0 h1]
  unfold cGet
  rw [if_pos h0, List.getElem?_eq_getElem (by omega)]

theorem cSet_eq_setIdx {α : Type} (l : List α) (i : Int) (v : α) (h0 : 0 ≤ i) (h1 : i < l.length) : cSet l i v = setIdx l i v := by
  rw [setIdx_of_lt h0 h1]
  unfold cSet
  rw [if_pos ⟨h0, h1⟩]

theorem setIdx_length {α : Type} {l l' : List α} {i : Int} {v : α} (h : setIdx l i v = .ok l') : l'.length = l.length := by
  unfold setIdx at h
  simp only at h
  split_ifs at h <;> first | (simp only [Except.ok.injEq] at h; rw [← h]; simp) | simp at h

/-- A loop filling `l[0..n)` with values that depend only on the part not yet overwritten. -/
theorem fill_ok {α : Type} [Zero α] (l : List α) (n : ℕ) (hn : n ≤ l.length) (body : List α → Int → Res (List α)) (v : ℕ → α)
    (h : ∀ (k : ℕ) (l' : List α), k < n → l'.length = l.length → (∀ i, k ≤ i → rd l' i = rd l i) →
      body l' k = .ok (l'.set k (v k))) :
    forM' (pyRange 0 n) l body = .ok (tab l.length fun i => if i < n then v i else rd l i) := by
  obtain ⟨s, e, hi⟩ := forM'_range_inv (a := 0) (b := (n : Int)) (by omega) l body
    (fun k s => s.length = l.length ∧ ∀ i : ℕ, rd s i = if (i : Int) < k then v i else rd l i)
    ⟨rfl, fun i => by rw [if_neg (by omega)]⟩
    (by
      intro k s h1 h2 ⟨sl, sv⟩
      obtain ⟨k, rfl⟩ := Int.eq_ofNat_of_zero_le h1
      refine ⟨_, h k s (by omega) sl (fun i hi => by rw [sv, if_neg (by omega)]), by simpa using sl, fun i => ?_⟩
      rw [rd_set' _ _ _ _ (by omega)]
      by_cases hik : i = k
      · subst hik; rw [if_pos rfl, if_pos (by omega)]
      · rw [if_neg hik, sv]
        by_cases hlt : (i : Int) < k
        · rw [if_pos hlt, if_pos (by omega)]
        · rw [if_neg hlt, if_neg (by omega)])
  rw [e]
  congr 1
  refine list_ext_rd (by simpa using hi.1) fun i hil => ?_
  rw [hi.2, rd_tab (by rw [← hi.1]; exact hil)]
  by_cases hc : i < n
  · rw [if_pos (by omega), if_pos hc]
  · rw [if_neg (by omega), if_neg hc]

theorem cYnnm_eq (n m : Int) : cYnnm n m = ynnm n m := by
  unfold cYnnm ynnm
  have e1 : (fun (o : ℝ) (k : Int) => Real.sqrt ((2.0 * (k : ℝ) + 1) / (8.0 * k)) * o) =
      (fun (o : ℝ) (k : Int) => o * Real.sqrt ((2.0 * (k : ℝ) + 1.0) / 8.0 / k)) := by
    funext o k
    rw [mul_comm, div_div]; norm_num
  have e2 : (fun (o : ℝ) (k : Int) => Real.sqrt (1.0 * ((n : ℝ) + k + 1.0) / ((n : ℝ) - k)) * o) =
      (fun (o : ℝ) (k : Int) => o * Real.sqrt (((n : ℝ) + k + 1.0) / ((n : ℝ) - k))) := by
    funext o k
    rw [mul_comm]; norm_num
  rw [e1, e2]

/-- In range, the C `ynunm` writes what the Python `ynunm` returns. -/
theorem cYnunm_eq (n : ℕ) (m : ℤ) (y : List ℝ) (len : ℕ) (hn : n < len) (hy : y.length = len) :
    cYnunm n m y len = ynunm n m len := by
  unfold cYnunm ynunm npFull
  rw [if_neg (by omega)]
  rw [fill_ok y len (by omega) _ (fun _ => 0) (by
    intro k l' hk hl _
    exact cSet_ok (by omega))]
  simp only [Except.bind_ok]
  have e0 : (tab y.length fun i => if i < len then (0 : ℝ) else rd y i) = List.replicate (len : Int).toNat 0 := by
    refine list_ext_rd (by simp [hy]) fun i hi => ?_
    rw [length_tab] at hi
    rw [rd_tab hi, if_pos (by omega), rd_replicate_zero]
  rw [e0]
  by_cases hm : |m| ≤ (n : Int)
  · rw [if_pos hm, if_pos hm, cYnnm_eq, cSet_eq_setIdx _ _ _ (by omega) (by simp; omega)]
    match h1 : setIdx (List.replicate (len : Int).toNat (0 : ℝ)) (n : Int) (ynnm n m) with
    | .error e => rfl
    | .ok y1 =>
      have l1 : y1.length = len := by rw [setIdx_length h1]; simp
      simp only [Except.bind_ok]
      by_cases hk : (n : Int) - 2 ≥ 0
      · rw [if_pos hk, if_pos hk, cGet_eq_getIdx _ _ (by omega) (by omega)]
        match getIdx y1 ((n : Int) - 2 + 2) with
        | .error e => rfl
        | .ok y2 =>
          simp only [Except.bind_ok]
          rw [cSet_eq_setIdx _ _ _ (by omega) (by omega)]
          have ev : (cB (n : Int) (((n : Int) - 2 : Int) + 1.0) + cB (n : Int) (((n : Int) - 2 : Int) + 2.0) - 4.0 * (m : ℝ) * m) * y2 / cB (n : Int) ((n : Int) - 2 : Int) =
              (((((n : ℕ) : ℤ) : ℝ) - ((n : Int) - 2 : Int) - 1.0) * ((((n : ℕ) : ℤ) : ℝ) + ((n : Int) - 2 : Int) + 2.0) + (((((n : ℕ) : ℤ) : ℝ) - ((n : Int) - 2 : Int) - 2.0) * ((((n : ℕ) : ℤ) : ℝ) + ((n : Int) - 2 : Int) + 3.0) - 4.0 * (m : ℝ) ^ 2)) * y2 /
                (((((n : ℕ) : ℤ) : ℝ) - ((n : Int) - 2 : Int)) * ((((n : ℕ) : ℤ) : ℝ) + ((n : Int) - 2 : Int) + 1.0)) := by
            unfold cB; norm_num; congr 1; ring
          rw [ev]
          match h3 : setIdx y1 ((n : Int) - 2) _ with
          | .error e => rfl
          | .ok y3 =>
            have l3 : y3.length = len := by rw [setIdx_length h3, l1]
            simp only [Except.bind_ok]
            rw [show (n : Int) - 2 - 2 = n - 4 by ring]
            refine forM'_congr (fun y => y.length = len) _ _ _ _ l3 ?_ ?_
            · intro k hk' y hyl
              have hkr : 0 ≤ k ∧ k ≤ (n : Int) - 4 := by
                unfold pyRangeNeg at hk'
                simp only [List.mem_map, List.mem_range] at hk'
                obtain ⟨j, hj, rfl⟩ := hk'
                omega
              unfold cYnunmStep ynunmStep
              rw [cGet_eq_getIdx _ _ (by omega) (by omega), cGet_eq_getIdx _ _ (by omega) (by omega)]
              simp only
              congr 1
              funext o2
              congr 1
              funext o4
              rw [cSet_eq_setIdx _ _ _ (by omega) (by omega)]
              congr 1
              unfold cB
              norm_num
              congr 1
              ring
            · intro k _ y y' hyl hg
              unfold ynunmStep at hg
              simp only at hg
              match hg1 : getIdx y (k + 2), hg2 : getIdx y (k + 4) with
              | .error e, _ => rw [hg1] at hg; simp at hg
              | .ok a, .error e => rw [hg1, hg2] at hg; simp at hg
              | .ok a, .ok b =>
                rw [hg1, hg2] at hg
                simp only [Except.bind_ok] at hg
                rw [setIdx_length hg, hyl]
      · rw [if_neg hk, if_neg hk]
  · rw [if_neg hm, if_neg hm]

theorem findQ_loopEq : LoopEq [2, 3, 5] cFindQLoop := by
  have hmod : ∀ (A p : ℕ), (A : Int).tmod p = ((A % p : ℕ) : Int) := fun A p => by
    rw [Int.tmod_eq_emod_of_nonneg (by omega)]; rfl
  have hdiv : ∀ (A p : ℕ), (A : Int).tdiv p = ((A / p : ℕ) : Int) := fun A p => by
    rw [Int.tdiv_eq_ediv_of_nonneg (by omega)]; rfl
  constructor
  · intro Q; rw [cFindQLoop]; simp
  · intro A Q hA
    have m2 := hmod A 2
    have m3 := hmod A 3
    have m5 := hmod A 5
    push_cast at m2 m3 m5
    rw [cFindQLoop, if_neg (by omega)]
    split
    · exact .inl ⟨2, by simp, by decide, by omega, by rw [← hdiv]; rfl⟩
    split
    · exact .inl ⟨3, by simp, by decide, by omega, by rw [← hdiv]; rfl⟩
    split
    · exact .inl ⟨5, by simp, by decide, by omega, by rw [← hdiv]; rfl⟩
    · refine .inr ⟨?_, rfl⟩
      intro p hp
      simp only [List.mem_cons, List.not_mem_nil, or_false] at hp
      rcases hp with rfl | rfl | rfl <;> omega

theorem cFindQ_spec (S : ℕ) (hS : 1 ≤ S) (hS2 : S ≤ 2 ^ 30) : ∃ Q : ℕ, cFindQ S = some (Q : Int) ∧ S ≤ Q ∧ Q ≤ 2 ^ 30 := by
  obtain ⟨R, h1, h2, -, h4⟩ := findQ_loopEq.least (by simp) S hS
  refine ⟨R, h1, h2, ?_⟩
  by_contra hc
  exact h4 (2 ^ 30) hS2 (by omega) (smooth_pow_two (by simp) 30)

theorem cSData_spec (s : List ℂ) (L1 Nmax Q : ℕ) (hL : L1 % 2 = 0) (hL0 : 0 < L1) (hQ : L1 + Nmax ≤ Q) (hs : s.length = Q) :
    ∃ s', cSData s Q L1 Nmax = .ok s' ∧ KernTable L1 Nmax Q s' := by
  unfold cSData cMemset0
  rw [if_pos (by omega)]
  simp only [Except.bind_ok]
  have hmm : (L1 : Int).tdiv 2 = ((L1 / 2 : ℕ) : Int) := by rw [Int.tdiv_eq_ediv_of_nonneg (by omega)]; rfl
  rw [hmm]
  have hval : ∀ (x : ℝ), (⟨0, -1 / x⟩ : ℂ) = -Complex.I / (x : ℂ) := by
    intro x
    rw [show -Complex.I / (x : ℂ) = ((-1 / x : ℝ) : ℂ) * Complex.I by push_cast; ring]
    apply Complex.ext <;> simp
  obtain ⟨s1, e1, hi1⟩ := forM'_range_inv (a := ((L1 / 2 : ℕ) : Int)) (b := ((L1 / 2 : ℕ) : Int) + ((Nmax : Int) + 1)) (by omega)
    (tab s.length fun i => if (i : Int) < (Q : Int) then (0 : ℂ) else rd s i)
    (fun s k => if k.tmod 2 = 1 then (cGet s (k - ((L1 / 2 : ℕ) : Int))).bind fun z => cSet s (k - ((L1 / 2 : ℕ) : Int)) ⟨z.re, -1 / (k : ℝ)⟩ else .ok s)
    (fun v s => s.length = Q ∧ ∀ j : ℕ, j < Q → rd s j = if (j : Int) + ((L1 / 2 : ℕ) : Int) < v then Skern (j + ((L1 / 2 : ℕ) : Int)) else 0)
    ⟨by simpa using hs, fun j hj => by rw [rd_tab (by omega), if_pos (by omega), if_neg (by omega)]⟩
    (by
      intro v s h1 h2 ⟨sl, sv⟩
      obtain ⟨j0, hj0⟩ : ∃ j0 : ℕ, v - ((L1 / 2 : ℕ) : Int) = j0 := ⟨(v - ((L1 / 2 : ℕ) : Int)).toNat, by omega⟩
      have hmod : v.tmod 2 = v % 2 := Int.tmod_eq_emod_of_nonneg (by omega)
      simp only [hmod]
      by_cases hv : v % 2 = 1
      · rw [if_pos hv, hj0, cGet_ok (by omega)]
        simp only [Except.bind_ok]
        rw [cSet_ok (by omega), sv j0 (by omega), if_neg (by omega)]
        refine ⟨_, rfl, by simpa using sl, fun j hj => ?_⟩
        rw [rd_set' _ _ _ _ (by omega)]
        by_cases hjj : j = j0
        · subst hjj
          rw [if_pos rfl, if_pos (by omega), show (j : Int) + ((L1 / 2 : ℕ) : Int) = v by omega]
          unfold Skern
          rw [if_pos hv, Complex.zero_re, hval]; push_cast; rfl
        · rw [if_neg hjj, sv j hj]
          by_cases hlt : (j : Int) + ((L1 / 2 : ℕ) : Int) < v
          · rw [if_pos hlt, if_pos (by omega)]
          · rw [if_neg hlt, if_neg (by omega)]
      · rw [if_neg hv]
        refine ⟨s, rfl, sl, fun j hj => ?_⟩
        rw [sv j hj]
        by_cases hlt : (j : Int) + ((L1 / 2 : ℕ) : Int) < v
        · rw [if_pos hlt, if_pos (by omega)]
        · rw [if_neg hlt]
          split
          · unfold Skern; rw [if_neg (by omega)]
          · rfl)
  rw [e1]
  simp only [Except.bind_ok]
  obtain ⟨s2, e2, hi2⟩ := forM'_range_inv (a := -((L1 / 2 : ℕ) : Int)) (b := ((L1 / 2 : ℕ) : Int)) (by omega) s1
    (fun s k => if (|k|).tmod 2 = 1 then (cGet s ((Q : Int) + k - ((L1 / 2 : ℕ) : Int))).bind fun z =>
      cSet s ((Q : Int) + k - ((L1 / 2 : ℕ) : Int)) ⟨z.re, -1 / (k : ℝ)⟩ else .ok s)
    (fun v s => s.length = Q ∧ (∀ j : ℕ, j < Q → (rd s j).re = 0) ∧
      (∀ j : ℕ, j < Nmax → rd s j = Skern (j + ((L1 / 2 : ℕ) : Int))) ∧
      (∀ j : ℕ, Q - L1 < j → j < Q → (j : Int) - Q + ((L1 / 2 : ℕ) : Int) < v → rd s j = Skern ((j : Int) - Q + ((L1 / 2 : ℕ) : Int))) ∧
      ∀ j : ℕ, Nmax < j → j < Q → v ≤ (j : Int) - Q + ((L1 / 2 : ℕ) : Int) → rd s j = 0)
    ⟨hi1.1, fun j hj => by
      rw [hi1.2 j hj]
      split
      · unfold Skern; split
        · rw [show (-Complex.I / (((j : Int) + ((L1 / 2 : ℕ) : Int) : ℤ) : ℂ)) = -Complex.I / ((((j : Int) + ((L1 / 2 : ℕ) : Int) : ℤ) : ℝ) : ℂ) by push_cast; rfl, ← hval]
        · rfl
      · rfl,
      fun j hj => by rw [hi1.2 j (by omega), if_pos (by omega)],
      fun j h1 h2 h3 => by omega,
      fun j h1 h2 h3 => by rw [hi1.2 j h2, if_neg (by omega)]⟩
    (by
      intro v s h1 h2 ⟨sl, sre, slo, shi, sz⟩
      obtain ⟨j0, hj0⟩ : ∃ j0 : ℕ, (Q : Int) + v - ((L1 / 2 : ℕ) : Int) = j0 := ⟨((Q : Int) + v - ((L1 / 2 : ℕ) : Int)).toNat, by omega⟩
      have hmod : (|v|).tmod 2 = v % 2 := by
        rw [Int.tmod_eq_emod_of_nonneg (abs_nonneg _), Int.abs_eq_natAbs]; omega
      simp only [hmod]
      by_cases hv : v % 2 = 1
      · rw [if_pos hv, hj0, cGet_ok (by omega)]
        simp only [Except.bind_ok]
        rw [cSet_ok (by omega), sre j0 (by omega)]
        refine ⟨_, rfl, by simpa using sl, fun j hj => ?_, fun j hj => ?_, fun j a b c => ?_, fun j a b c => ?_⟩
        · rw [rd_set' _ _ _ _ (by omega)]
          split
          · rfl
          · exact sre j hj
        · rw [rd_set' _ _ _ _ (by omega), if_neg (by omega), slo j hj]
        · rw [rd_set' _ _ _ _ (by omega)]
          by_cases hjj : j = j0
          · subst hjj
            rw [if_pos rfl, show (j : Int) - Q + ((L1 / 2 : ℕ) : Int) = v - ((L1 / 2 : ℕ) : Int) + ((L1 / 2 : ℕ) : Int) by omega, show v - ((L1 / 2 : ℕ) : Int) + ((L1 / 2 : ℕ) : Int) = v by ring]
            unfold Skern
            rw [if_pos hv, hval]; push_cast; rfl
          · rw [if_neg hjj, shi j a b (by omega)]
        · rw [rd_set' _ _ _ _ (by omega), if_neg (by omega), sz j a b (by omega)]
      · rw [if_neg hv]
        refine ⟨s, rfl, sl, sre, slo, fun j a b c => ?_, fun j a b c => sz j a b (by omega)⟩
        by_cases hlt : (j : Int) - Q + ((L1 / 2 : ℕ) : Int) < v
        · exact shi j a b hlt
        · have hjv : (j : Int) - Q + ((L1 / 2 : ℕ) : Int) = v := by omega
          rw [sz j (by omega) b (by omega), hjv]
          unfold Skern; rw [if_neg hv])
  refine ⟨s2, e2, hi2.1, fun j h1 h2 => ?_⟩
  rw [wrap_mod (by omega) (by omega)]
  by_cases hj : j < 0
  · rw [if_pos hj, hi2.2.2.2.1 _ (by omega) (by omega) (by omega)]
    congr 1; omega
  · rw [if_neg hj, hi2.2.2.1 _ (by omega)]
    congr 1; omega

end Verif
