import Verif.Props.FloatKiss3
/-!
# kiss_fft in doubles: the generic butterfly and the recursion
-/
namespace Verif.Props
open Verif Finset

variable {rnd : ℝ → ℝ}

namespace FK

variable {cfg : Fl.KissCfg rnd} {N : ℕ} {B P : ℝ}

theorem bflyGen (hr : IsRounding rnd) (hs : Scale B P) (p : ℕ) (hpP : (p : ℝ) ≤ P) (hp31 : p ≤ 2 ^ 31) (h : Tw cfg N) (fo fs m len : ℕ) (hp : 1 ≤ p)
    (hN : fs * (p * m) = N) (hNpos : 0 < N) (hfo : fo + p * m ≤ len) (G : List (FC rnd)) (u : ℕ) (hG : G.length = len) (hu : u < m) :
    ∃ G', Fl.kfBflyGenBody rnd cfg.twiddles cfg.nfft fo fs m p G u = .ok G' ∧
      Body p fo m u (fun j => twd cfg.inverse N ((fs * j : ℕ) : ℤ)) B G G' := by
  have hidx : ∀ q, q < p → q * m + u < p * m := by
    intro q hq
    calc q * m + u < q * m + m := by omega
      _ = (q + 1) * m := by ring
      _ ≤ p * m := Nat.mul_le_mul_right _ hq
  have hfs : 0 < fs := Nat.pos_of_mul_pos_right (pos_fm hN hNpos)
  unfold Fl.kfBflyGenBody
  rw [mapM'_ok _ _ (fun q : Int => rd G (fo + q.toNat * m + u)) (by
    intro x hx
    have hx' := mem_pyRange.mp hx
    obtain ⟨q, rfl⟩ := Int.eq_ofNat_of_zero_le hx'.1
    have := hidx q (by omega)
    rw [g_get (j := fo + q * m + u) (by omega) (by push_cast; ring)]
    rfl)]
  simp only [Except.bind_ok]
  have hsl : ((pyRange 0 (p : Int)).map (fun q : Int => rd G (fo + q.toNat * m + u))).length = p := by
    simp [length_pyRange]
  have hsv : ∀ q, q < p → rd ((pyRange 0 (p : Int)).map (fun q : Int => rd G (fo + q.toNat * m + u))) q = rd G (fo + q * m + u) := by
    intro q hq
    have h1 : q < (pyRange 0 (p : Int)).length := by rw [length_pyRange]; omega
    have : q < ((pyRange 0 (p : Int)).map (fun q : Int => rd G (fo + q.toNat * m + u))).length := by rw [hsl]; exact hq
    have key : ∀ (l : List (FC rnd)) (i : ℕ) (hi : i < l.length), rd l i = l[i] := by
      intro l i hi; unfold rd; rw [List.getD_eq_getElem?_getD, List.getElem?_eq_getElem hi, Option.getD_some]
    rw [key _ _ this, List.getElem_map, getElem_pyRange]
    simp
  set scratch := (pyRange 0 (p : Int)).map (fun q : Int => rd G (fo + q.toNat * m + u)) with hsc
  obtain ⟨F', e, hi⟩ := forM'_range_inv (a := 0) (b := (p : Int)) (by omega) G
    (fun F q1 =>
      let k := (u : Int) + q1 * m
      (cGet scratch 0).bind fun x0 =>
      (forM' (pyRange 1 p) (x0, (0 : Int)) (Fl.kfGenInner rnd cfg.twiddles scratch cfg.nfft fs k)).bind fun s =>
      cSet F (fo + k) s.1)
    (fun q F => F.length = len ∧
      ((∀ q, q < p → ‖FS.val (rd G (fo + q * m + u))‖ ≤ B) → ∀ r : ℕ, (r : Int) < q →
        ‖FS.val (rd F (fo + r * m + u)) - ∑ q ∈ range p, FS.val (rd G (fo + q * m + u)) * twd cfg.inverse N ((fs * (q * (u + r * m)) : ℕ) : ℤ)‖ ≤ cost p * (uu * B)) ∧
      ∀ i, (∀ r, r < p → i ≠ fo + r * m + u) → rd F i = rd G i)
    ⟨hG, fun _ r hr => by omega, fun i _ => rfl⟩
    (by
      intro q F h1 h2 ⟨fl, fv, fother⟩
      obtain ⟨r, rfl⟩ := Int.eq_ofNat_of_zero_le h1
      have hr' : r < p := by omega
      have hk := hidx r hr'
      have hfk : fs * (u + r * m) < N := by
        rw [← hN]; exact Nat.mul_lt_mul_of_pos_left (by omega) hfs
      simp only
      rw [show (0 : Int) = ((0 : ℕ) : Int) from rfl, cGet_ok (l := scratch) (i := 0) (by rw [hsl]; omega)]
      simp only [Except.bind_ok, Nat.cast_zero]
      obtain ⟨s, es, hsI⟩ := forM'_range_inv (a := 1) (b := (p : Int)) (by omega) (rd scratch 0, (0 : Int))
        (Fl.kfGenInner rnd cfg.twiddles scratch cfg.nfft fs ((u : Int) + (r : Int) * m))
        (fun q s => ((∀ q, q < p → ‖FS.val (rd G (fo + q * m + u))‖ ≤ B) →
            Ap B s.1 (∑ q' ∈ range q.toNat, FS.val (rd G (fo + q' * m + u)) * twd cfg.inverse N ((fs * (q' * (u + r * m)) : ℕ) : ℤ)) (q.toNat : ℝ)
              (40 * (q.toNat : ℝ) + 4 * (q.toNat : ℝ) * (q.toNat : ℝ))) ∧
          0 ≤ s.2 ∧ s.2 < N ∧ twd cfg.inverse N s.2 = twd cfg.inverse N ((q - 1) * (fs * (u + r * m) : ℕ)))
        ⟨by
          intro hb
          rw [show (1 : Int).toNat = 1 by rfl, sum_range_one, hsv 0 (by omega)]
          have := Ap.self (hb 0 (by omega))
          simp only [Nat.zero_mul, Nat.mul_zero, Nat.cast_zero, twd_zero, mul_one, Nat.cast_one]
          simp only [Nat.zero_mul] at this
          exact ⟨this.err.trans (mul_le_mul_of_nonneg_right (by norm_num) (mul_pos uu_pos hs.pos).le), this.bd⟩, by simp, by simpa using hNpos, by simp⟩
        (by
          intro q s h1 h2 ⟨s1, s2, s3, s4⟩
          obtain ⟨q', rfl⟩ := Int.eq_ofNat_of_zero_le (show 0 ≤ q by omega)
          unfold Fl.kfGenInner
          simp only [h.nfft]
          rw [g_get (F := scratch) (j := q') (by rw [hsl]; omega) rfl]
          simp only [Except.bind_ok]
          have hmul : (fs : Int) * ((u : Int) + r * m) = ((fs * (u + r * m) : ℕ) : Int) := by push_cast; ring
          rw [hmul]
          obtain ⟨t, ht⟩ : ∃ t, t = (if s.2 + ((fs * (u + r * m) : ℕ) : Int) ≥ N then s.2 + ((fs * (u + r * m) : ℕ) : Int) - N else s.2 + ((fs * (u + r * m) : ℕ) : Int)) := ⟨_, rfl⟩
          rw [← ht]
          have ht0 : 0 ≤ t ∧ t < N := by rw [ht]; split <;> omega
          have htw : twd cfg.inverse N t = twd cfg.inverse N ((q' : Int) * (fs * (u + r * m) : ℕ)) := by
            have hb : twd cfg.inverse N (s.2 + ((fs * (u + r * m) : ℕ) : Int)) = twd cfg.inverse N ((q' : Int) * (fs * (u + r * m) : ℕ)) := by
              rw [twd_add, s4, ← twd_add]; congr 1; ring
            rw [ht]
            split
            · rw [← hb, ← twd_period _ N (s.2 + ((fs * (u + r * m) : ℕ) : Int)) (-1)]
              congr 1; ring
            · exact hb
          obtain ⟨t', rfl⟩ := Int.eq_ofNat_of_zero_le ht0.1
          obtain ⟨w, ew, hw⟩ := tw_get h (j := t') (by omega) (i := (t' : Int)) rfl
          rw [ew]
          refine ⟨_, rfl, ?_, by omega, by omega, ?_⟩
          · intro hb
            rw [show ((q' : Int) + 1).toNat = q' + 1 by omega, sum_range_succ, hsv q' (by omega)]
            have h1' := s1 hb
            simp only [Int.toNat_natCast] at h1'
            rw [htw] at hw
            have := genSum hr hs hpP hp31 (q := q') (by omega) (by omega) h1' (hb q' (by omega)) hw (twd_norm _ _ _)
            rw [show (q' : Int) * ((fs * (u + r * m) : ℕ) : Int) = ((fs * (q' * (u + r * m)) : ℕ) : Int) by push_cast; ring] at this
            exact this
          · rw [htw]; congr 1; ring)
      rw [es]
      simp only [Except.bind_ok]
      rw [g_set (j := fo + r * m + u) (by omega) (by push_cast; ring)]
      refine ⟨_, rfl, by simpa using fl, fun hb r' hr' => ?_, fun i hi => ?_⟩
      · rw [rd_set' _ _ _ _ (by omega)]
        by_cases hrr : r' = r
        · subst hrr
          rw [if_pos rfl]
          have := (hsI.1 hb).weak hs.pos (e' := cost p) (by
            rw [Int.toNat_natCast]
            unfold cost
            have : (1 : ℝ) ≤ p := by exact_mod_cast hp
            nlinarith)
          rw [Int.toNat_natCast] at this
          exact this
        · have hne : fo + r' * m + u ≠ fo + r * m + u := by
            intro he
            have : r' * m = r * m := by omega
            exact hrr (Nat.eq_of_mul_eq_mul_right (by omega) this)
          rw [if_neg hne]
          exact fv hb r' (by omega)
      · rw [rd_set' _ _ _ _ (by omega), if_neg (hi r (by omega)), fother i hi])
  exact ⟨F', e, by rw [hi.1, hG], fun hb r hr => hi.2.1 hb r (by omega), hi.2.2⟩

/-- One stage of the transform. -/
theorem kfBfly_err (hr : IsRounding rnd) (h : Tw cfg N) (p fo fs m len : ℕ) (hs : Scale B (p + 9)) (hp : 1 ≤ p) (hp31 : p ≤ 2 ^ 31) (hN : fs * (p * m) = N) (hNpos : 0 < N)
    (hfo : fo + p * m ≤ len) (F : List (FC rnd)) (hF : F.length = len) (hB : ∀ i, fo ≤ i → i < fo + p * m → ‖FS.val (rd F i)‖ ≤ B) :
    ∃ F', Fl.kfBfly rnd cfg F fo fs m p = .ok F' ∧ F'.length = len ∧
      (∀ u, u < m → ∀ r, r < p → ‖FS.val (rd F' (fo + r * m + u)) - ∑ q ∈ range p, FS.val (rd F (fo + q * m + u)) *
        twd cfg.inverse N ((fs * (q * (u + r * m)) : ℕ) : ℤ)‖ ≤ cost p * (uu * B)) ∧
      ∀ i, i < fo ∨ fo + p * m ≤ i → rd F' i = rd F i := by
  unfold Fl.kfBfly
  have hfm := pos_fm hN hNpos
  have hP : (9 : ℝ) ≤ p + 9 := by have : (0 : ℝ) ≤ p := by positivity
                                  linarith
  by_cases h2 : p = 2
  · clear hp31; subst h2
    simp only [Nat.cast_ofNat, if_true]
    have key := loop 2 fo m len _ B _ F hF hB fun G u hG hu => bfly2 hr hs hP h fo fs m len hN hNpos hfo G u hG hu
    simp only [Nat.cast_ofNat] at key
    exact key
  by_cases h3 : p = 3
  · clear hp31; subst h3
    have hlt : fs * m < N := by rw [← hN, show fs * (3 * m) = 3 * (fs * m) by ring]; omega
    have e : twd cfg.inverse N ((fs * m : ℕ) : ℤ) = twd cfg.inverse 3 1 := by
      have := twd_reduce cfg.inverse N 3 (fs * m) (by rw [← hN]; ring) hfm 1
      simpa using this
    simp only [Nat.cast_ofNat, if_true, show ¬ ((3 : Int) = 2) by omega, if_false]
    obtain ⟨w, ew, hw⟩ := tw_get h hlt (i := (fs : Int) * m) (by push_cast; rfl)
    rw [e] at hw
    rw [ew]
    have key := loop 3 fo m len _ B _ F hF hB fun G u hG hu => bfly3 hr hs hP h hw fo fs m len hN hNpos hfo G u hG hu
    simp only [Nat.cast_ofNat] at key
    exact key
  by_cases h4 : p = 4
  · clear hp31; subst h4
    simp only [Nat.cast_ofNat, if_true, show ¬ ((4 : Int) = 2) by omega, show ¬ ((4 : Int) = 3) by omega, if_false]
    have key := loop 4 fo m len _ B _ F hF hB fun G u hG hu => bfly4 hr hs hP h fo fs m len hN hNpos hfo G u hG hu
    simp only [Nat.cast_ofNat] at key
    exact key
  by_cases h5 : p = 5
  · clear hp31; subst h5
    have hlt : fs * m < N := by rw [← hN, show fs * (5 * m) = 5 * (fs * m) by ring]; omega
    have hlt2 : fs * 2 * m < N := by
      rw [← hN, show fs * (5 * m) = 5 * (fs * m) by ring, show fs * 2 * m = 2 * (fs * m) by ring]; omega
    have e : twd cfg.inverse N ((fs * m : ℕ) : ℤ) = twd cfg.inverse 5 1 := by
      have := twd_reduce cfg.inverse N 5 (fs * m) (by rw [← hN]; ring) hfm 1
      simpa using this
    have e2 : twd cfg.inverse N ((fs * 2 * m : ℕ) : ℤ) = twd cfg.inverse 5 2 := by
      have := twd_reduce cfg.inverse N 5 (fs * m) (by rw [← hN]; ring) hfm 2
      rw [← this]; congr 1; push_cast; ring
    simp only [Nat.cast_ofNat, if_true, show ¬ ((5 : Int) = 2) by omega, show ¬ ((5 : Int) = 3) by omega,
      show ¬ ((5 : Int) = 4) by omega, if_false]
    obtain ⟨w, ew, hw⟩ := tw_get h hlt (i := (fs : Int) * m) (by push_cast; rfl)
    obtain ⟨w2, ew2, hw2⟩ := tw_get h hlt2 (i := (fs : Int) * 2 * m) (by push_cast; rfl)
    rw [e] at hw
    rw [e2] at hw2
    rw [ew, ew2]
    have key := loop 5 fo m len _ B _ F hF hB fun G u hG hu => bfly5 hr hs hP h hw hw2 fo fs m len hN hNpos hfo G u hG hu
    simp only [Nat.cast_ofNat] at key
    exact key
  simp only [show ¬ ((p : Int) = 2) by omega, show ¬ ((p : Int) = 3) by omega,
      show ¬ ((p : Int) = 4) by omega, show ¬ ((p : Int) = 5) by omega, if_false]
  have hpP : (p : ℝ) ≤ p + 9 := by linarith
  have key := fun (G : List (FC rnd)) (u : ℕ) (hG : G.length = len) (hu : u < m) => bflyGen hr hs p hpP hp31 h fo fs m len hp hN hNpos hfo G u hG hu
  have k2 := loop p fo m len _ B _ F hF hB key
  obtain ⟨F', a, b, c, d⟩ := k2
  exact ⟨F', a, b, c, d⟩

end FK
end Verif.Props
