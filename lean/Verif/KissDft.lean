import Verif.KissWork
/-!
# kiss_fft computes the DFT
-/
namespace Verif
open Finset
variable {cfg : KissCfg} {N : ℕ}

theorem bflyGen_ok (h : TwOK cfg N) (p fo fs m len : ℕ) (hp : 1 ≤ p) (hN : fs * (p * m) = N) (hNpos : 0 < N)
    (hfo : fo + p * m ≤ len) (G : List ℂ) (u : ℕ) (hG : G.length = len) (hu : u < m) :
    ∃ G', kfBflyGenBody cfg.twiddles cfg.nfft fo fs m p G u = .ok G' ∧
      BodyOK p fo m u (fun j => twd cfg.inverse N ((fs * j : ℕ) : ℤ)) G G' := by
  have hidx : ∀ q, q < p → q * m + u < p * m := by
    intro q hq
    calc q * m + u < q * m + m := by omega
      _ = (q + 1) * m := by ring
      _ ≤ p * m := Nat.mul_le_mul_right _ hq
  have hfs : 0 < fs := Nat.pos_of_mul_pos_right (pos_fm hN hNpos)
  unfold kfBflyGenBody
  rw [mapM'_ok _ _ (fun q : Int => rd G (fo + q.toNat * m + u)) (by
    intro x hx
    have hx' := mem_pyRange.mp hx
    obtain ⟨q, rfl⟩ := Int.eq_ofNat_of_zero_le hx'.1
    have := hidx q (by omega)
    rw [f_get (j := fo + q * m + u) (by omega) (by push_cast; ring)]
    rfl)]
  simp only [Except.bind_ok]
  have hsl : ((pyRange 0 (p : Int)).map (fun q : Int => rd G (fo + q.toNat * m + u))).length = p := by
    simp [length_pyRange]
  have hsv : ∀ q, q < p → rd ((pyRange 0 (p : Int)).map (fun q : Int => rd G (fo + q.toNat * m + u))) q = rd G (fo + q * m + u) := by
    intro q hq
    have h1 : q < (pyRange 0 (p : Int)).length := by rw [length_pyRange]; omega
    have : q < ((pyRange 0 (p : Int)).map (fun q : Int => rd G (fo + q.toNat * m + u))).length := by rw [hsl]; exact hq
    have key : ∀ (l : List ℂ) (i : ℕ) (hi : i < l.length), rd l i = l[i] := by
      intro l i hi; unfold rd; rw [List.getD_eq_getElem?_getD, List.getElem?_eq_getElem hi, Option.getD_some]
    rw [key _ _ this, List.getElem_map, getElem_pyRange]
    simp
  set scratch := (pyRange 0 (p : Int)).map (fun q : Int => rd G (fo + q.toNat * m + u)) with hsc
  obtain ⟨F', e, hi⟩ := forM'_range_inv (a := 0) (b := (p : Int)) (by omega) G
    (fun F q1 =>
      let k := (u : Int) + q1 * m
      (cGet scratch 0).bind fun x0 =>
      (forM' (pyRange 1 p) (x0, (0 : Int)) (kfGenInner cfg.twiddles scratch cfg.nfft fs k)).bind fun s =>
      cSet F (fo + k) s.1)
    (fun q F => F.length = len ∧
      (∀ r : ℕ, (r : Int) < q → rd F (fo + r * m + u) = ∑ q ∈ range p, rd G (fo + q * m + u) * twd cfg.inverse N ((fs * (q * (u + r * m)) : ℕ) : ℤ)) ∧
      ∀ i, (∀ r, r < p → i ≠ fo + r * m + u) → rd F i = rd G i)
    ⟨hG, fun r hr => by omega, fun i _ => rfl⟩
    (by
      intro q F h1 h2 ⟨fl, fv, fother⟩
      obtain ⟨r, rfl⟩ := Int.eq_ofNat_of_zero_le h1
      have hr : r < p := by omega
      have hk := hidx r hr
      have hfk : fs * (u + r * m) < N := by
        rw [← hN]; exact Nat.mul_lt_mul_of_pos_left (by omega) hfs
      simp only
      rw [show (0 : Int) = ((0 : ℕ) : Int) from rfl, cGet_ok (l := scratch) (i := 0) (by rw [hsl]; omega)]
      simp only [Except.bind_ok, Nat.cast_zero]
      obtain ⟨s, es, hs⟩ := forM'_range_inv (a := 1) (b := (p : Int)) (by omega) (rd scratch 0, (0 : Int))
        (kfGenInner cfg.twiddles scratch cfg.nfft fs ((u : Int) + (r : Int) * m))
        (fun q s => s.1 = ∑ q' ∈ range q.toNat, rd G (fo + q' * m + u) * twd cfg.inverse N ((fs * (q' * (u + r * m)) : ℕ) : ℤ) ∧
          0 ≤ s.2 ∧ s.2 < N ∧ twd cfg.inverse N s.2 = twd cfg.inverse N ((q - 1) * (fs * (u + r * m) : ℕ)))
        ⟨by
          rw [show (1 : Int).toNat = 1 by rfl, sum_range_one, hsv 0 (by omega)]
          simp [twd_zero], by simp, by simpa using hNpos, by simp⟩
        (by
          intro q s h1 h2 ⟨s1, s2, s3, s4⟩
          obtain ⟨q', rfl⟩ := Int.eq_ofNat_of_zero_le (show 0 ≤ q by omega)
          unfold kfGenInner
          simp only [h.nfft]
          rw [f_get (F := scratch) (j := q') (by rw [hsl]; omega) rfl]
          simp only [Except.bind_ok]
          have hmul : (fs : Int) * ((u : Int) + r * m) = ((fs * (u + r * m) : ℕ) : Int) := by push_cast; ring
          rw [hmul]
          obtain ⟨t, ht⟩ : ∃ t, t = (if s.2 + ((fs * (u + r * m) : ℕ) : Int) ≥ N then s.2 + ((fs * (u + r * m) : ℕ) : Int) - N else s.2 + ((fs * (u + r * m) : ℕ) : Int)) := ⟨_, rfl⟩
          rw [← ht]
          have ht0 : 0 ≤ t ∧ t < N := by rw [ht]; split <;> omega
          have htw : twd cfg.inverse N t = twd cfg.inverse N ((q' : Int) * (fs * (u + r * m) : ℕ)) := by
            have hb : twd cfg.inverse N (s.2 + ((fs * (u + r * m) : ℕ) : Int)) = twd cfg.inverse N ((q' : Int) * (fs * (u + r * m) : ℕ)) := by
              rw [twd_add, s4, ← twd_add]; congr 1; ring
            rw [ht]
            split
            · rw [← hb, ← twd_period _ N (s.2 + ((fs * (u + r * m) : ℕ) : Int)) (-1)]
              congr 1; ring
            · exact hb
          obtain ⟨t', rfl⟩ := Int.eq_ofNat_of_zero_le ht0.1
          rw [tw_get h (j := t') (by omega) rfl]
          refine ⟨_, rfl, ?_, by omega, by omega, ?_⟩
          · rw [show ((q' : Int) + 1).toNat = q' + 1 by omega, sum_range_succ, s1, htw, hsv q' (by omega)]
            simp only [Int.toNat_natCast]
            congr 3
            push_cast; ring
          · rw [htw]; congr 1; ring)
      rw [es]
      simp only [Except.bind_ok]
      rw [f_set (j := fo + r * m + u) (by omega) (by push_cast; ring)]
      refine ⟨_, rfl, by simpa using fl, fun r' hr' => ?_, fun i hi => ?_⟩
      · rw [rd_set' _ _ _ _ (by omega)]
        by_cases hrr : r' = r
        · subst hrr
          rw [if_pos rfl, hs.1, Int.toNat_natCast]
        · have hne : fo + r' * m + u ≠ fo + r * m + u := by
            intro he
            have : r' * m = r * m := by omega
            exact hrr (Nat.eq_of_mul_eq_mul_right (by omega) this)
          rw [if_neg hne, fv r' (by omega)]
      · rw [rd_set' _ _ _ _ (by omega), if_neg (hi r hr), fother i hi])
  exact ⟨F', e, by rw [hi.1, hG], fun r hr => hi.2.1 r (by omega), hi.2.2⟩

theorem kfBfly_ok (h : TwOK cfg N) (p fo fs m len : ℕ) (hp : 1 ≤ p) (hm : 1 ≤ m) (hN : fs * (p * m) = N) (hNpos : 0 < N)
    (hfo : fo + p * m ≤ len) (F : List ℂ) (hF : F.length = len) :
    ∃ F', kfBfly cfg F fo fs m p = .ok F' ∧ F'.length = len ∧
      (∀ u, u < m → ∀ r, r < p → rd F' (fo + r * m + u) = ∑ q ∈ range p, rd F (fo + q * m + u) *
        twd cfg.inverse N ((fs * (q * (u + r * m)) : ℕ) : ℤ)) ∧
      ∀ i, i < fo ∨ fo + p * m ≤ i → rd F' i = rd F i := by
  unfold kfBfly
  have hfm := pos_fm hN hNpos
  by_cases h2 : p = 2
  · subst h2
    simp only [Nat.cast_ofNat, if_true]
    exact bfly_loop 2 fo m len _ _ F hF fun G u hG hu => bfly2_ok h fo fs m len hN hNpos hfo G u hG hu
  by_cases h3 : p = 3
  · subst h3
    have hlt : fs * m < N := by rw [← hN, show fs * (3 * m) = 3 * (fs * m) by ring]; omega
    have e : twd cfg.inverse N ((fs * m : ℕ) : ℤ) = twd cfg.inverse 3 1 := by
      have := twd_reduce cfg.inverse N 3 (fs * m) (by rw [← hN]; ring) hfm 1
      simpa using this
    simp only [Nat.cast_ofNat, if_true, show ¬ ((3 : Int) = 2) by omega, if_false]
    rw [tw_get h hlt (by push_cast; rfl), e]
    exact bfly_loop 3 fo m len _ _ F hF fun G u hG hu => bfly3_ok h fo fs m len hN hNpos hfo G u hG hu
  by_cases h4 : p = 4
  · subst h4
    simp only [Nat.cast_ofNat, if_true, show ¬ ((4 : Int) = 2) by omega, show ¬ ((4 : Int) = 3) by omega, if_false]
    exact bfly_loop 4 fo m len _ _ F hF fun G u hG hu => bfly4_ok h fo fs m len hN hNpos hfo G u hG hu
  by_cases h5 : p = 5
  · subst h5
    have hlt : fs * m < N := by rw [← hN, show fs * (5 * m) = 5 * (fs * m) by ring]; omega
    have hlt2 : fs * 2 * m < N := by
      rw [← hN, show fs * (5 * m) = 5 * (fs * m) by ring, show fs * 2 * m = 2 * (fs * m) by ring]; omega
    have e : twd cfg.inverse N ((fs * m : ℕ) : ℤ) = twd cfg.inverse 5 1 := by
      have := twd_reduce cfg.inverse N 5 (fs * m) (by rw [← hN]; ring) hfm 1
      simpa using this
    have e2 : twd cfg.inverse N ((fs * 2 * m : ℕ) : ℤ) = twd cfg.inverse 5 2 := by
      have := twd_reduce cfg.inverse N 5 (fs * m) (by rw [← hN]; ring) hfm 2
      rw [← this]; congr 1; push_cast; ring
    simp only [Nat.cast_ofNat, if_true, show ¬ ((5 : Int) = 2) by omega, show ¬ ((5 : Int) = 3) by omega,
      show ¬ ((5 : Int) = 4) by omega, if_false]
    rw [tw_get h hlt (by push_cast; rfl), tw_get h hlt2 (by push_cast; rfl), e, e2]
    exact bfly_loop 5 fo m len _ _ F hF fun G u hG hu => bfly5_ok h fo fs m len hN hNpos hfo G u hG hu
  simp only [show ¬ ((p : Int) = 2) by omega, show ¬ ((p : Int) = 3) by omega,
      show ¬ ((p : Int) = 4) by omega, show ¬ ((p : Int) = 5) by omega, if_false]
  exact bfly_loop p fo m len _ _ F hF fun G u hG hu => bflyGen_ok h p fo fs m len hp hN hNpos hfo G u hG hu

theorem sum_split (p m : ℕ) (f : ℕ → ℂ) : ∑ i ∈ range (p * m), f i = ∑ q ∈ range p, ∑ j ∈ range m, f (q + p * j) := by
  induction m with
  | zero => simp
  | succ m ih =>
    rw [Nat.mul_succ, sum_range_add, ih]
    simp only [sum_range_succ]
    rw [sum_add_distrib]
    congr 1
    exact sum_congr rfl fun q _ => by rw [add_comm]

/-- Result of a sub-transform of length `n` reading `fin[fi + fs*j]` and writing `F[fo + k]`. -/
structure WorkOK (inv : Bool) (N : ℕ) (fin : List ℂ) (n fo fi fs : ℕ) (F F' : List ℂ) : Prop where
  len : F'.length = F.length
  val : ∀ k, k < n → rd F' (fo + k) = ∑ j ∈ range n, rd fin (fi + fs * j) * twd inv N ((fs * (j * k) : ℕ) : ℤ)
  other : ∀ i, i < fo ∨ fo + n ≤ i → rd F' i = rd F i

theorem kfWork_ok (h : TwOK cfg N) (hNpos : 0 < N) (fin : List ℂ) : ∀ (fac : List Int) (n : ℕ), Stages n fac →
    ∀ (F : List ℂ) (fo fi fs : ℕ), fs * n = N → fo + n ≤ F.length → fi + fs * (n - 1) < fin.length →
    ∃ F', kfWork cfg fin fac F fo fi fs = .ok F' ∧ WorkOK cfg.inverse N fin n fo fi fs F F'
  | p :: m :: rest, n, hs, F, fo, fi, fs, hfs, hfo, hfi => by
    obtain ⟨p, m, rfl, rfl, hp, hpm, hcase⟩ := hs
    have hm : 1 ≤ m := by rcases hcase with ⟨h1, _⟩ | ⟨h1, _⟩ <;> omega
    unfold kfWork
    rw [if_neg (by omega)]
    have hn1 : ∀ q j : ℕ, q < p → j < m → q + p * j ≤ n - 1 := by
      intro q j hq hj
      have : q + p * j + 1 ≤ p * m := by
        calc q + p * j + 1 ≤ p + p * j := by omega
          _ = p * (j + 1) := by ring
          _ ≤ p * m := Nat.mul_le_mul_left _ hj
      omega
    have hqm : ∀ q, q < p → q * m + m ≤ n := by
      intro q hq
      calc q * m + m = (q + 1) * m := by ring
        _ ≤ p * m := Nat.mul_le_mul_right _ hq
        _ = n := hpm
    have hsub : ∃ G, (if (m : Int) = 1 then
        forM' (pyRange 0 p) F (fun F j => (cGet fin (fi + fs * j)).bind fun x => cSet F (fo + j) x)
      else
        forM' (pyRange 0 p) F (fun F j => kfWork cfg fin rest F (fo + j * m) (fi + fs * j) (fs * p))) = .ok G ∧
      G.length = F.length ∧
      (∀ q u, q < p → u < m → rd G (fo + q * m + u) = ∑ j ∈ range m, rd fin (fi + fs * (q + p * j)) * twd cfg.inverse N ((fs * p * (j * u) : ℕ) : ℤ)) ∧
      ∀ i, i < fo ∨ fo + n ≤ i → rd G i = rd F i := by
      rcases hcase with ⟨rfl, -⟩ | ⟨hm1, hst⟩
      · rw [if_pos (by simp)]
        obtain ⟨G, e, hi⟩ := forM'_range_inv (a := 0) (b := (p : Int)) (by omega) F
          (fun F j => (cGet fin ((fi : Int) + fs * j)).bind fun x => cSet F ((fo : Int) + j) x)
          (fun k G => G.length = F.length ∧ (∀ q : ℕ, (q : Int) < k → rd G (fo + q) = rd fin (fi + fs * q)) ∧
            ∀ i, i < fo ∨ fo + n ≤ i → rd G i = rd F i)
          ⟨rfl, fun q hq => by omega, fun i _ => rfl⟩
          (by
            intro k G h1 h2 ⟨gl, gv, go⟩
            obtain ⟨q, rfl⟩ := Int.eq_ofNat_of_zero_le h1
            have hb : fs * q ≤ fs * (n - 1) := Nat.mul_le_mul_left _ (by have := hn1 q 0 (by omega) (by omega); omega)
            have hq := hqm q (by omega)
            rw [f_get (j := fi + fs * q) (by omega) (by push_cast; ring)]
            simp only [Except.bind_ok]
            rw [f_set (j := fo + q) (by omega) (by push_cast; ring)]
            refine ⟨_, rfl, by simpa using gl, fun q' hq' => ?_, fun i hi => ?_⟩
            · rw [rd_set' _ _ _ _ (by omega)]
              by_cases hc : q' = q
              · subst hc; rw [if_pos rfl]
              · rw [if_neg (by omega), gv q' (by omega)]
            · rw [rd_set' _ _ _ _ (by omega), if_neg (by omega), go i hi])
        refine ⟨G, e, hi.1, fun q u hq hu => ?_, hi.2.2⟩
        have : u = 0 := by omega
        subst this
        rw [sum_range_one, mul_one, add_zero, hi.2.1 q (by omega)]
        simp [twd_zero]
      · rw [if_neg (by omega)]
        obtain ⟨G, e, hi⟩ := forM'_range_inv (a := 0) (b := (p : Int)) (by omega) F
          (fun F j => kfWork cfg fin rest F ((fo : Int) + j * m) ((fi : Int) + fs * j) ((fs : Int) * p))
          (fun k G => G.length = F.length ∧ (∀ q u : ℕ, (q : Int) < k → u < m → rd G (fo + q * m + u) =
              ∑ j ∈ range m, rd fin (fi + fs * (q + p * j)) * twd cfg.inverse N ((fs * p * (j * u) : ℕ) : ℤ)) ∧
            ∀ i, i < fo ∨ fo + n ≤ i → rd G i = rd F i)
          ⟨rfl, fun q u hq => by omega, fun i _ => rfl⟩
          (by
            intro k G h1 h2 ⟨gl, gv, go⟩
            obtain ⟨q, rfl⟩ := Int.eq_ofNat_of_zero_le h1
            have hq := hqm q (by omega)
            have hb : fs * (q + p * (m - 1)) ≤ fs * (n - 1) := Nat.mul_le_mul_left _ (hn1 q (m - 1) (by omega) (by omega))
            obtain ⟨G', e', ok⟩ := kfWork_ok h hNpos fin rest m hst G (fo + q * m) (fi + fs * q) (fs * p)
              (by rw [← hfs, ← hpm]; ring) (by omega) (by
                have : fs * q + fs * p * (m - 1) = fs * (q + p * (m - 1)) := by ring
                omega)
            push_cast at e'
            refine ⟨G', e', by rw [ok.len, gl], fun q' u hq' hu => ?_, fun i hi => ?_⟩
            · by_cases hc : q' = q
              · subst hc
                rw [ok.val u hu]
                refine sum_congr rfl fun j _ => ?_
                congr 2
                ring
              · have hlt : q' < q := by omega
                rw [ok.other _ (by
                  left
                  have : q' * m + m ≤ q * m := by
                    calc q' * m + m = (q' + 1) * m := by ring
                      _ ≤ q * m := Nat.mul_le_mul_right _ hlt
                  omega), gv q' u (by omega) hu]
            · rw [ok.other i (by omega), go i hi])
        exact ⟨G, e, hi.1, fun q u hq hu => hi.2.1 q u (by omega) hu, hi.2.2⟩
    obtain ⟨G, eG, gl, gv, go⟩ := hsub
    rw [eG]
    simp only [Except.bind_ok]
    obtain ⟨F', e', fl, fv, fother⟩ := kfBfly_ok h p fo fs m F.length hp hm (by rw [hpm]; exact hfs) hNpos
      (by rw [hpm]; exact hfo) G gl
    refine ⟨F', e', fl, fun k hk => ?_, fun i hi => ?_⟩
    · obtain ⟨r, u, hr, hu, rfl⟩ : ∃ r u, r < p ∧ u < m ∧ k = r * m + u := by
        refine ⟨k / m, k % m, ?_, Nat.mod_lt _ (by omega), ?_⟩
        · rw [Nat.div_lt_iff_lt_mul (by omega), hpm]; exact hk
        · rw [mul_comm]; exact (Nat.div_add_mod k m).symm
      rw [← add_assoc, fv u hu r hr]
      conv_rhs => rw [← hpm, sum_split]
      refine sum_congr rfl fun q hq => ?_
      rw [gv q u (mem_range.mp hq) hu, sum_mul]
      refine sum_congr rfl fun j _ => ?_
      rw [mul_assoc, ← twd_add]
      congr 1
      rw [← twd_period cfg.inverse N _ (j * r : ℕ)]
      congr 1
      rw [← hfs, ← hpm]
      push_cast
      ring
    · rw [fother i (by rw [hpm]; exact hi), go i hi]
  | [], _, hs, _, _, _, _, _, _, _ => hs.elim
  | [_], _, hs, _, _, _, _, _, _, _ => hs.elim

theorem kissAlloc_ok (n : ℕ) (inv : Bool) (hn : 1 ≤ n) (hn2 : n < 2 ^ 32) :
    ∃ cfg, kissAlloc n inv = .ok cfg ∧ cfg.inverse = inv ∧ TwOK cfg n ∧ Stages n cfg.factors := by
  obtain ⟨fac, e, hs, -⟩ := kfFactor_spec n hn hn2
  unfold kissAlloc
  rw [if_neg (by omega), e]
  refine ⟨_, rfl, rfl, ⟨rfl, by simp, fun j hj => ?_⟩, hs⟩
  simp only
  rw [rd_tab (by omega)]
  unfold twd root
  have hn' : (n : ℂ) ≠ 0 := by exact_mod_cast (show n ≠ 0 by omega)
  have key : ∀ x : ℝ, (⟨Real.cos x, Real.sin x⟩ : ℂ) = Complex.exp (x * Complex.I) := by
    intro x
    rw [Complex.exp_mul_I, ← Complex.ofReal_cos, ← Complex.ofReal_sin]
    apply Complex.ext
    · simp only [Complex.add_re, Complex.ofReal_re, Complex.mul_re, Complex.I_re, Complex.I_im, Complex.ofReal_im]; ring
    · simp only [Complex.add_im, Complex.ofReal_re, Complex.mul_im, Complex.I_re, Complex.I_im, Complex.ofReal_im]; ring
  rw [key]
  congr 1
  cases inv <;> simp only [if_true, if_false, Bool.false_eq_true] <;> push_cast <;> field_simp

theorem kissFft_ok (h : TwOK cfg N) (hNpos : 0 < N) (hs : Stages N cfg.factors) (buf : List ℂ) (hb : buf.length = N) (junk : ℕ → ℂ) :
    kissFft cfg buf junk = .ok (tab N fun k => ∑ j ∈ range N, rd buf j * twd cfg.inverse N ((j * k : ℕ) : ℤ)) := by
  unfold kissFft cMalloc
  rw [h.nfft, if_neg (by omega)]
  simp only [Except.bind_ok, Int.toNat_natCast]
  obtain ⟨F', e, ok⟩ := kfWork_ok h hNpos buf cfg.factors N hs (tab N junk) 0 0 1 (by omega) (by simp) (by omega)
  have e' : kfWork cfg buf cfg.factors (tab N junk) 0 0 1 = .ok F' := by exact_mod_cast e
  rw [e']
  simp only [Except.bind_ok]
  rw [if_pos (by omega), hb]
  congr 1
  refine list_ext_rd (by simp) fun i hi => ?_
  rw [length_tab] at hi
  rw [rd_tab hi, rd_tab hi, if_pos (by omega)]
  have := ok.val i hi
  simpa using this

end Verif
