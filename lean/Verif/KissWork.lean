import Verif.KissFactor
import Mathlib.Tactic.IntervalCases
/-!
# `kf_work` computes the DFT
-/
namespace Verif
open Finset

/-- Twiddle factor: `e^{∓2πi j/N}`. -/
noncomputable def twd (inv : Bool) (N : ℕ) (j : ℤ) : ℂ := root N (if inv then j else -j)

theorem twd_add (inv : Bool) (N : ℕ) (a b : ℤ) : twd inv N (a + b) = twd inv N a * twd inv N b := by
  unfold twd; cases inv <;> simp only [if_true, if_false, Bool.false_eq_true]
  · rw [neg_add, root_add]
  · rw [root_add]

theorem twd_zero (inv : Bool) (N : ℕ) : twd inv N 0 = 1 := by
  unfold twd; cases inv <;> simp [root_zero]

theorem twd_mul_self (inv : Bool) (N : ℕ) (b : ℤ) : twd inv N (N * b) = 1 := by
  unfold twd; cases inv <;> simp only [if_true, if_false, Bool.false_eq_true]
  · rw [← mul_neg, root_mul_self]
  · rw [root_mul_self]

theorem twd_reduce (inv : Bool) (N p a : ℕ) (h : p * a = N) (ha : 0 < a) (j : ℤ) : twd inv N (a * j) = twd inv p j := by
  unfold twd root
  have ha' : (a : ℂ) ≠ 0 := by exact_mod_cast ha.ne'
  subst h
  by_cases hp : p = 0
  · subst hp; simp
  · have hp' : (p : ℂ) ≠ 0 := by exact_mod_cast hp
    cases inv <;> simp only [if_true, if_false, Bool.false_eq_true] <;> congr 1 <;> push_cast <;> field_simp

theorem twd_period (inv : Bool) (N : ℕ) (a b : ℤ) : twd inv N (a + N * b) = twd inv N a := by
  rw [twd_add, twd_mul_self, mul_one]

/-- The configuration is what `kiss_fft_alloc` builds for length `N`. -/
structure TwOK (cfg : KissCfg) (N : ℕ) : Prop where
  nfft : cfg.nfft = N
  len : cfg.twiddles.length = N
  val : ∀ j, j < N → rd cfg.twiddles j = twd cfg.inverse N j

/-- One butterfly iteration `u` is correct. -/
structure BodyOK (p fo m u : ℕ) (W : ℕ → ℂ) (F F' : List ℂ) : Prop where
  len : F'.length = F.length
  val : ∀ r, r < p → rd F' (fo + r * m + u) = ∑ q ∈ range p, rd F (fo + q * m + u) * W (q * (u + r * m))
  other : ∀ i, (∀ r, r < p → i ≠ fo + r * m + u) → rd F' i = rd F i

theorem idx_ne {m u u' r r' fo : ℕ} (hu : u < m) (hu' : u' < m) (h : u ≠ u') : fo + r * m + u ≠ fo + r' * m + u' := by
  intro e
  have e1 : u + m * r = u' + m * r' := by nlinarith
  have := congrArg (· % m) e1
  simp only [Nat.add_mul_mod_self_left, Nat.mod_eq_of_lt hu, Nat.mod_eq_of_lt hu'] at this
  exact h this

theorem bfly_loop (p fo m len : ℕ) (W : ℕ → ℂ) (body : List ℂ → Int → Res (List ℂ)) (F : List ℂ) (hF : F.length = len)
    (hb : ∀ (G : List ℂ) (u : ℕ), G.length = len → u < m → ∃ G', body G (u : Int) = .ok G' ∧ BodyOK p fo m u W G G') :
    ∃ F', forM' (pyRange 0 (m : Int)) F body = .ok F' ∧ F'.length = len ∧
      (∀ u, u < m → ∀ r, r < p → rd F' (fo + r * m + u) = ∑ q ∈ range p, rd F (fo + q * m + u) * W (q * (u + r * m))) ∧
      ∀ i, i < fo ∨ fo + p * m ≤ i → rd F' i = rd F i := by
  obtain ⟨F', e, hi⟩ := forM'_range_inv (a := 0) (b := (m : Int)) (by omega) F body
    (fun k G => G.length = len ∧
      (∀ u : ℕ, u < m → ∀ r, r < p → rd G (fo + r * m + u) = if (u : Int) < k then
        ∑ q ∈ range p, rd F (fo + q * m + u) * W (q * (u + r * m)) else rd F (fo + r * m + u)) ∧
      ∀ i, i < fo ∨ fo + p * m ≤ i → rd G i = rd F i)
    ⟨hF, fun u _ r _ => by rw [if_neg (by omega)], fun i _ => rfl⟩
    (by
      intro k G h1 h2 ⟨gl, gv, go⟩
      obtain ⟨u0, rfl⟩ := Int.eq_ofNat_of_zero_le h1
      have hu0 : u0 < m := by omega
      obtain ⟨G', e, ok⟩ := hb G u0 gl hu0
      refine ⟨G', e, by rw [ok.len, gl], fun u hu r hr => ?_, fun i hi => ?_⟩
      · by_cases hc : u = u0
        · subst hc
          rw [if_pos (by omega), ok.val r hr]
          refine sum_congr rfl fun q hq => ?_
          rw [gv u hu q (mem_range.mp hq), if_neg (by omega)]
        · rw [ok.other _ (fun r' _ => idx_ne hu hu0 hc), gv u hu r hr]
          by_cases h3 : (u : Int) < u0
          · rw [if_pos h3, if_pos (by omega)]
          · rw [if_neg h3, if_neg (by omega)]
      · rw [ok.other, go i hi]
        intro r hr he
        have : r * m + m ≤ p * m := by
          calc r * m + m = (r + 1) * m := by ring
            _ ≤ p * m := Nat.mul_le_mul_right _ hr
        omega)
  exact ⟨F', e, hi.1, fun u hu r hr => by rw [hi.2.1 u hu r hr, if_pos (by omega)], hi.2.2⟩

/-! ### Special roots of unity -/

theorem twd2 (inv : Bool) : twd inv 2 1 = -1 := by
  unfold twd root
  cases inv <;> simp only [if_true, if_false, Bool.false_eq_true]
  · rw [show (2 * (Real.pi : ℂ) * Complex.I * ((-1 : ℤ) : ℂ) / ((2 : ℕ) : ℂ)) = -(Real.pi * Complex.I) by push_cast; ring,
      Complex.exp_neg, Complex.exp_pi_mul_I]; norm_num
  · rw [show (2 * (Real.pi : ℂ) * Complex.I * ((1 : ℤ) : ℂ) / ((2 : ℕ) : ℂ)) = (Real.pi * Complex.I) by push_cast; ring,
      Complex.exp_pi_mul_I]

theorem twd4 (inv : Bool) : twd inv 4 1 = if inv then Complex.I else -Complex.I := by
  unfold twd root
  cases inv <;> simp only [if_true, if_false, Bool.false_eq_true]
  · rw [show (2 * (Real.pi : ℂ) * Complex.I * ((-1 : ℤ) : ℂ) / ((4 : ℕ) : ℂ)) = -(Real.pi / 2 * Complex.I) by push_cast; ring,
      Complex.exp_neg, Complex.exp_pi_div_two_mul_I]; simp
  · rw [show (2 * (Real.pi : ℂ) * Complex.I * ((1 : ℤ) : ℂ) / ((4 : ℕ) : ℂ)) = (Real.pi / 2 * Complex.I) by push_cast; ring,
      Complex.exp_pi_div_two_mul_I]

/-- Twiddles on the unit circle: the inverse is the conjugate. -/
theorem twd_conj (inv : Bool) (N : ℕ) (j : ℤ) : twd inv N (-j) = (starRingEnd ℂ) (twd inv N j) := by
  unfold twd root
  rw [← Complex.exp_conj]
  congr 1
  cases inv <;> simp [map_ofNat]

theorem twd3 (inv : Bool) : twd inv 3 1 = ⟨-1 / 2, (twd inv 3 1).im⟩ := by
  apply Complex.ext
  · have h1 : twd inv 3 1 * twd inv 3 1 = (starRingEnd ℂ) (twd inv 3 1) := by
      rw [← twd_add, ← twd_conj, ← twd_period inv 3 (-1) 1]; norm_num
    have h2 : twd inv 3 1 * (starRingEnd ℂ) (twd inv 3 1) = 1 := by
      rw [← twd_conj, ← twd_add]; simpa using twd_zero inv 3
    have hne : twd inv 3 1 ≠ 1 := by
      intro h
      have := (root_eq_one_iff (n := 3) (by norm_num) (if inv then 1 else -1)).mp h
      cases inv <;> simp at this
    have hr := congrArg Complex.re h1
    have hi := congrArg Complex.im h1
    have hn := congrArg Complex.re h2
    simp at hr hi hn
    set x := (twd inv 3 1).re
    set y := (twd inv 3 1).im
    by_cases hy : y = 0
    · exfalso
      apply hne
      have hx : x = 1 := by
        rw [hy] at hr hn
        have h3 : x * (x - 1) = 0 := by linear_combination hr
        rcases mul_eq_zero.mp h3 with h | h
        · rw [h] at hn; norm_num at hn
        · linarith
      exact Complex.ext hx hy
    · have h4 : y * (2 * x + 1) = 0 := by linear_combination hi
      rcases mul_eq_zero.mp h4 with h | h
      · exact absurd h hy
      · simp only [x] at h ⊢; linarith
  · rfl

/-! ### The five butterflies -/

variable {cfg : KissCfg} {N : ℕ}

theorem tw_get (h : TwOK cfg N) {j : ℕ} (hj : j < N) {i : Int} (hi : i = (j : Int)) :
    cGet cfg.twiddles i = .ok (twd cfg.inverse N j) := by
  subst hi; rw [cGet_ok (by rw [h.len]; exact hj), h.val j hj]

theorem f_get {F : List ℂ} {j : ℕ} (hj : j < F.length) {i : Int} (hi : i = (j : Int)) : cGet F i = .ok (rd F j) := by
  subst hi; exact cGet_ok hj

theorem f_set {F : List ℂ} {j : ℕ} (hj : j < F.length) {i : Int} {v : ℂ} (hi : i = (j : Int)) : cSet F i v = .ok (F.set j v) := by
  subst hi; exact cSet_ok hj

theorem twd_split (inv : Bool) (N fs m p : ℕ) (h : fs * (p * m) = N) (hpos : 0 < fs * m) (q u r : ℕ) :
    twd inv N ((fs * (q * (u + r * m)) : ℕ) : ℤ) = twd inv N ((fs * (q * u) : ℕ) : ℤ) * twd inv p ((q * r : ℕ) : ℤ) := by
  rw [← twd_reduce inv N p (fs * m) (by rw [← h]; ring) hpos, ← twd_add]
  congr 1
  push_cast; ring

theorem pos_fm {fs p m N : ℕ} (hN : fs * (p * m) = N) (hNpos : 0 < N) : 0 < fs * m := by
  rcases Nat.eq_zero_or_pos (fs * m) with h0 | h0
  · have : fs * (p * m) = 0 := by rw [show fs * (p * m) = p * (fs * m) by ring, h0, mul_zero]
    omega
  · exact h0

theorem tw_lt {fs p m N : ℕ} (hN : fs * (p * m) = N) (hNpos : 0 < N) {q u : ℕ} (hq : q < p) (hu : u < m) :
    fs * (q * u) < N := by
  have h1 : 0 < fs := Nat.pos_of_mul_pos_right (pos_fm hN hNpos)
  rw [← hN]
  apply Nat.mul_lt_mul_of_pos_left _ h1
  calc q * u ≤ q * m := Nat.mul_le_mul_left _ hu.le
    _ < p * m := Nat.mul_lt_mul_of_pos_right hq (by omega)

theorem bfly2_ok (h : TwOK cfg N) (fo fs m len : ℕ) (hN : fs * (2 * m) = N) (hNpos : 0 < N) (hfo : fo + 2 * m ≤ len) (G : List ℂ) (u : ℕ)
    (hG : G.length = len) (hu : u < m) :
    ∃ G', kfBfly2Body cfg.twiddles fo fs m G u = .ok G' ∧
      BodyOK 2 fo m u (fun j => twd cfg.inverse N ((fs * j : ℕ) : ℤ)) G G' := by
  have hfs := pos_fm hN hNpos
  unfold kfBfly2Body
  rw [f_get (j := fo + 1 * m + u) (by omega) (by push_cast; ring)]
  simp only [Except.bind_ok]
  rw [tw_get h (tw_lt hN hNpos (q := 1) (by omega) hu) (by push_cast; ring)]
  simp only [Except.bind_ok]
  rw [f_get (j := fo + 0 * m + u) (by omega) (by push_cast; ring)]
  simp only [Except.bind_ok]
  rw [f_set (j := fo + 1 * m + u) (by omega) (by push_cast; ring)]
  simp only [Except.bind_ok]
  rw [f_set (j := fo + 0 * m + u) (by simp; omega) (by push_cast; ring)]
  refine ⟨_, rfl, by simp, ?_, ?_⟩
  · intro r hr
    rw [rd_set' _ _ _ _ (by simp; omega), rd_set' _ _ _ _ (by omega)]
    simp only [twd_split cfg.inverse N fs m 2 hN hfs]
    rw [sum_range_succ, sum_range_succ, sum_range_zero]
    interval_cases r
    · rw [if_pos rfl]; simp [twd_zero]
    · rw [if_neg (by omega), if_pos rfl]
      have : twd cfg.inverse 2 ((1 * 1 : ℕ) : ℤ) = -1 := by exact_mod_cast twd2 cfg.inverse
      rw [this]
      simp [twd_zero]; ring
  · intro i hi
    rw [rd_set' _ _ _ _ (by simp; omega), rd_set' _ _ _ _ (by omega), if_neg (hi 0 (by omega)), if_neg (hi 1 (by omega))]

theorem bfly3_ok (h : TwOK cfg N) (fo fs m len : ℕ) (hN : fs * (3 * m) = N) (hNpos : 0 < N) (hfo : fo + 3 * m ≤ len) (G : List ℂ) (u : ℕ)
    (hG : G.length = len) (hu : u < m) :
    ∃ G', kfBfly3Body cfg.twiddles (twd cfg.inverse 3 1) fo fs m G u = .ok G' ∧
      BodyOK 3 fo m u (fun j => twd cfg.inverse N ((fs * j : ℕ) : ℤ)) G G' := by
  have hfs := pos_fm hN hNpos
  unfold kfBfly3Body
  rw [f_get (j := fo + 1 * m + u) (by omega) (by push_cast; ring)]
  simp only [Except.bind_ok]
  rw [tw_get h (tw_lt hN hNpos (q := 1) (by omega) hu) (by push_cast; ring)]
  simp only [Except.bind_ok]
  rw [f_get (j := fo + 2 * m + u) (by omega) (by push_cast; ring)]
  simp only [Except.bind_ok]
  rw [tw_get h (tw_lt hN hNpos (q := 2) (by omega) hu) (by push_cast; ring)]
  simp only [Except.bind_ok]
  rw [f_get (j := fo + 0 * m + u) (by omega) (by push_cast; ring)]
  simp only [Except.bind_ok]
  rw [f_set (j := fo + 0 * m + u) (by omega) (by push_cast; ring)]
  simp only [Except.bind_ok]
  rw [f_set (j := fo + 2 * m + u) (by simp; omega) (by push_cast; ring)]
  simp only [Except.bind_ok]
  rw [f_set (j := fo + 1 * m + u) (by simp; omega) (by push_cast; ring)]
  refine ⟨_, rfl, by simp, ?_, ?_⟩
  · intro r hr
    rw [rd_set' _ _ _ _ (by simp; omega), rd_set' _ _ _ _ (by simp; omega), rd_set' _ _ _ _ (by omega)]
    simp only [twd_split cfg.inverse N fs m 3 hN hfs]
    rw [sum_range_succ, sum_range_succ, sum_range_succ, sum_range_zero]
    have z1 : twd cfg.inverse 3 1 = ⟨-1 / 2, (twd cfg.inverse 3 1).im⟩ := twd3 _
    have z2 : twd cfg.inverse 3 2 = ⟨-1 / 2, -(twd cfg.inverse 3 1).im⟩ := by
      rw [← twd_period _ 3 2 (-1)]
      have : (2 : ℤ) + (3 : ℕ) * (-1) = -1 := by norm_num
      rw [this, twd_conj, z1]; rfl
    have z4 : twd cfg.inverse 3 4 = twd cfg.inverse 3 1 := by
      rw [← twd_period _ 3 1 1]; norm_num
    have z0 := twd_zero cfg.inverse 3
    interval_cases r
    · rw [if_neg (by omega), if_neg (by omega), if_pos rfl]; simp [twd_zero]; ring
    · rw [if_pos rfl]
      simp only [Nat.zero_mul, Nat.mul_zero, Nat.mul_one, Nat.one_mul, Nat.cast_zero, Nat.cast_one, Nat.cast_ofNat, twd_zero, z2, mul_one]
      conv_rhs => rw [z1]
      apply Complex.ext <;> simp <;> ring
    · rw [if_neg (by omega), if_pos rfl]
      simp only [Nat.zero_mul, Nat.mul_zero, Nat.mul_one, Nat.one_mul, Nat.cast_zero, Nat.cast_one, Nat.cast_ofNat, twd_zero, mul_one,
        show ((2 * 2 : ℕ) : ℤ) = 4 by norm_num, z4, z2]
      conv_rhs => rw [z1]
      apply Complex.ext <;> simp <;> ring
  · intro i hi
    rw [rd_set' _ _ _ _ (by simp; omega), rd_set' _ _ _ _ (by simp; omega), rd_set' _ _ _ _ (by omega), if_neg (hi 1 (by omega)),
      if_neg (hi 2 (by omega)), if_neg (hi 0 (by omega))]

theorem bfly4_ok (h : TwOK cfg N) (fo fs m len : ℕ) (hN : fs * (4 * m) = N) (hNpos : 0 < N) (hfo : fo + 4 * m ≤ len) (G : List ℂ) (u : ℕ)
    (hG : G.length = len) (hu : u < m) :
    ∃ G', kfBfly4Body cfg.twiddles cfg.inverse fo fs m G u = .ok G' ∧
      BodyOK 4 fo m u (fun j => twd cfg.inverse N ((fs * j : ℕ) : ℤ)) G G' := by
  have hfs := pos_fm hN hNpos
  unfold kfBfly4Body
  rw [f_get (j := fo + 1 * m + u) (by omega) (by push_cast; ring)]
  simp only [Except.bind_ok]
  rw [tw_get h (tw_lt hN hNpos (q := 1) (by omega) hu) (by push_cast; ring)]
  simp only [Except.bind_ok]
  rw [f_get (j := fo + 2 * m + u) (by omega) (by push_cast; ring)]
  simp only [Except.bind_ok]
  rw [tw_get h (tw_lt hN hNpos (q := 2) (by omega) hu) (by push_cast; ring)]
  simp only [Except.bind_ok]
  rw [f_get (j := fo + 3 * m + u) (by omega) (by push_cast; ring)]
  simp only [Except.bind_ok]
  rw [tw_get h (tw_lt hN hNpos (q := 3) (by omega) hu) (by push_cast; ring)]
  simp only [Except.bind_ok]
  rw [f_get (j := fo + 0 * m + u) (by omega) (by push_cast; ring)]
  simp only [Except.bind_ok]
  rw [f_set (j := fo + 2 * m + u) (by omega) (by push_cast; ring)]
  simp only [Except.bind_ok]
  rw [f_set (j := fo + 0 * m + u) (by simp; omega) (by push_cast; ring)]
  simp only [Except.bind_ok]
  have key : ∀ (a b : ℂ), (∀ r, r < 4 → (if r = 3 then b else if r = 1 then a else if r = 0 then
        rd G (fo + 0 * m + u) + rd G (fo + 2 * m + u) * twd cfg.inverse N ((fs * (2 * u) : ℕ) : ℤ) +
          (rd G (fo + 1 * m + u) * twd cfg.inverse N ((fs * (1 * u) : ℕ) : ℤ) + rd G (fo + 3 * m + u) * twd cfg.inverse N ((fs * (3 * u) : ℕ) : ℤ))
        else rd G (fo + 0 * m + u) + rd G (fo + 2 * m + u) * twd cfg.inverse N ((fs * (2 * u) : ℕ) : ℤ) -
          (rd G (fo + 1 * m + u) * twd cfg.inverse N ((fs * (1 * u) : ℕ) : ℤ) + rd G (fo + 3 * m + u) * twd cfg.inverse N ((fs * (3 * u) : ℕ) : ℤ))) =
        ∑ q ∈ range 4, rd G (fo + q * m + u) * twd cfg.inverse N ((fs * (q * (u + r * m)) : ℕ) : ℤ)) →
      BodyOK 4 fo m u (fun j => twd cfg.inverse N ((fs * j : ℕ) : ℤ)) G
        ((((G.set (fo + 2 * m + u) (rd G (fo + 0 * m + u) + rd G (fo + 2 * m + u) * twd cfg.inverse N ((fs * (2 * u) : ℕ) : ℤ) -
          (rd G (fo + 1 * m + u) * twd cfg.inverse N ((fs * (1 * u) : ℕ) : ℤ) + rd G (fo + 3 * m + u) * twd cfg.inverse N ((fs * (3 * u) : ℕ) : ℤ)))).set
          (fo + 0 * m + u) (rd G (fo + 0 * m + u) + rd G (fo + 2 * m + u) * twd cfg.inverse N ((fs * (2 * u) : ℕ) : ℤ) +
          (rd G (fo + 1 * m + u) * twd cfg.inverse N ((fs * (1 * u) : ℕ) : ℤ) + rd G (fo + 3 * m + u) * twd cfg.inverse N ((fs * (3 * u) : ℕ) : ℤ)))).set
          (fo + 1 * m + u) a).set (fo + 3 * m + u) b) := by
    intro a b hab
    refine ⟨by simp, fun r hr => ?_, fun i hi => ?_⟩
    · rw [← hab r hr, rd_set' _ _ _ _ (by simp; omega), rd_set' _ _ _ _ (by simp; omega), rd_set' _ _ _ _ (by simp; omega),
        rd_set' _ _ _ _ (by omega)]
      interval_cases r
      · rw [if_neg (by omega), if_neg (by omega), if_pos rfl]; simp
      · rw [if_neg (by omega), if_pos rfl]; simp
      · rw [if_neg (by omega), if_neg (by omega), if_neg (by omega), if_pos rfl]; simp
      · rw [if_pos rfl]; simp
    · rw [rd_set' _ _ _ _ (by simp; omega), rd_set' _ _ _ _ (by simp; omega), rd_set' _ _ _ _ (by simp; omega),
        rd_set' _ _ _ _ (by omega), if_neg (hi 3 (by omega)), if_neg (hi 1 (by omega)), if_neg (hi 0 (by omega)),
        if_neg (hi 2 (by omega))]
  have z1 := twd4 cfg.inverse
  have z2 : twd cfg.inverse 4 2 = -1 := by
    rw [show (2 : ℤ) = 1 + 1 by norm_num, twd_add, z1]; cases cfg.inverse <;> simp
  have z3 : twd cfg.inverse 4 3 = - twd cfg.inverse 4 1 := by
    rw [show (3 : ℤ) = 2 + 1 by norm_num, twd_add, z2]; ring
  have z4 : twd cfg.inverse 4 4 = 1 := by
    rw [show (4 : ℤ) = 2 + 2 by norm_num, twd_add, z2]; ring
  have z6 : twd cfg.inverse 4 6 = -1 := by
    rw [show (6 : ℤ) = 4 + 2 by norm_num, twd_add, z2, z4]; ring
  have z9 : twd cfg.inverse 4 9 = twd cfg.inverse 4 1 := by
    rw [show (9 : ℤ) = 4 + 4 + 1 by norm_num, twd_add, twd_add, z4]; ring
  have e22 : ((2 * 2 : ℕ) : ℤ) = 4 := by norm_num
  have e32 : ((3 * 2 : ℕ) : ℤ) = 6 := by norm_num
  have e23 : ((2 * 3 : ℕ) : ℤ) = 6 := by norm_num
  have e33 : ((3 * 3 : ℕ) : ℤ) = 9 := by norm_num
  by_cases hinv : cfg.inverse = true
  · rw [if_pos hinv, f_set (j := fo + 1 * m + u) (by simp; omega) (by push_cast; ring)]
    simp only [Except.bind_ok]
    rw [f_set (j := fo + 3 * m + u) (by simp; omega) (by push_cast; ring)]
    refine ⟨_, rfl, key _ _ ?_⟩
    intro r hr
    simp only [twd_split cfg.inverse N fs m 4 hN hfs]
    rw [sum_range_succ, sum_range_succ, sum_range_succ, sum_range_succ, sum_range_zero]
    rw [if_pos hinv] at z1
    interval_cases r <;>
      simp only [Nat.zero_mul, Nat.mul_zero, Nat.mul_one, Nat.one_mul, Nat.cast_zero, Nat.cast_one, Nat.cast_ofNat, twd_zero, mul_one,
        e22, e32, e23, e33, z4, z6, z9, z2, z3, z1, if_true, OfNat.ofNat_ne_zero, OfNat.zero_ne_ofNat, zero_ne_one, one_ne_zero,
        if_false, show ¬ ((1 : ℕ) = 3) by omega, show ¬ ((2 : ℕ) = 3) by omega, show ¬ ((2 : ℕ) = 1) by omega]
    · ring
    · apply Complex.ext <;> simp <;> ring
    · ring
    · apply Complex.ext <;> simp <;> ring
  · rw [if_neg hinv, f_set (j := fo + 1 * m + u) (by simp; omega) (by push_cast; ring)]
    simp only [Except.bind_ok]
    rw [f_set (j := fo + 3 * m + u) (by simp; omega) (by push_cast; ring)]
    refine ⟨_, rfl, key _ _ ?_⟩
    intro r hr
    simp only [twd_split cfg.inverse N fs m 4 hN hfs]
    rw [sum_range_succ, sum_range_succ, sum_range_succ, sum_range_succ, sum_range_zero]
    rw [if_neg hinv] at z1
    interval_cases r <;>
      simp only [Nat.zero_mul, Nat.mul_zero, Nat.mul_one, Nat.one_mul, Nat.cast_zero, Nat.cast_one, Nat.cast_ofNat, twd_zero, mul_one,
        e22, e32, e23, e33, z4, z6, z9, z2, z3, z1, if_true, OfNat.ofNat_ne_zero, OfNat.zero_ne_ofNat, zero_ne_one, one_ne_zero,
        if_false, show ¬ ((1 : ℕ) = 3) by omega, show ¬ ((2 : ℕ) = 3) by omega, show ¬ ((2 : ℕ) = 1) by omega]
    · ring
    · apply Complex.ext <;> simp <;> ring
    · ring
    · apply Complex.ext <;> simp <;> ring

theorem bfly5_ok (h : TwOK cfg N) (fo fs m len : ℕ) (hN : fs * (5 * m) = N) (hNpos : 0 < N) (hfo : fo + 5 * m ≤ len) (G : List ℂ) (u : ℕ)
    (hG : G.length = len) (hu : u < m) :
    ∃ G', kfBfly5Body cfg.twiddles (twd cfg.inverse 5 1) (twd cfg.inverse 5 2) fo fs m G u = .ok G' ∧
      BodyOK 5 fo m u (fun j => twd cfg.inverse N ((fs * j : ℕ) : ℤ)) G G' := by
  have hfs := pos_fm hN hNpos
  unfold kfBfly5Body
  rw [f_get (j := fo + 0 * m + u) (by omega) (by push_cast; ring)]
  simp only [Except.bind_ok]
  rw [f_get (j := fo + 1 * m + u) (by omega) (by push_cast; ring)]
  simp only [Except.bind_ok]
  rw [tw_get h (tw_lt hN hNpos (q := 1) (by omega) hu) (by push_cast; ring)]
  simp only [Except.bind_ok]
  rw [f_get (j := fo + 2 * m + u) (by omega) (by push_cast; ring)]
  simp only [Except.bind_ok]
  rw [tw_get h (tw_lt hN hNpos (q := 2) (by omega) hu) (by push_cast; ring)]
  simp only [Except.bind_ok]
  rw [f_get (j := fo + 3 * m + u) (by omega) (by push_cast; ring)]
  simp only [Except.bind_ok]
  rw [tw_get h (tw_lt hN hNpos (q := 3) (by omega) hu) (by push_cast; ring)]
  simp only [Except.bind_ok]
  rw [f_get (j := fo + 4 * m + u) (by omega) (by push_cast; ring)]
  simp only [Except.bind_ok]
  rw [tw_get h (tw_lt hN hNpos (q := 4) (by omega) hu) (by push_cast; ring)]
  simp only [Except.bind_ok]
  rw [f_set (j := fo + 0 * m + u) (by omega) (by push_cast; ring)]
  simp only [Except.bind_ok]
  rw [f_set (j := fo + 1 * m + u) (by simp; omega) (by push_cast; ring)]
  simp only [Except.bind_ok]
  rw [f_set (j := fo + 4 * m + u) (by simp; omega) (by push_cast; ring)]
  simp only [Except.bind_ok]
  rw [f_set (j := fo + 2 * m + u) (by simp; omega) (by push_cast; ring)]
  simp only [Except.bind_ok]
  rw [f_set (j := fo + 3 * m + u) (by simp; omega) (by push_cast; ring)]
  have per : ∀ a : ℤ, twd cfg.inverse 5 (a + 5) = twd cfg.inverse 5 a := fun a => by
    have := twd_period cfg.inverse 5 a 1; simpa using this
  have z3 : twd cfg.inverse 5 3 = (starRingEnd ℂ) (twd cfg.inverse 5 2) := by
    rw [← twd_conj, ← per (-2)]; norm_num
  have z4 : twd cfg.inverse 5 4 = (starRingEnd ℂ) (twd cfg.inverse 5 1) := by
    rw [← twd_conj, ← per (-1)]; norm_num
  have z6 : twd cfg.inverse 5 6 = twd cfg.inverse 5 1 := by rw [← per 1]; norm_num
  have z8 : twd cfg.inverse 5 8 = (starRingEnd ℂ) (twd cfg.inverse 5 2) := by rw [← z3, ← per 3]; norm_num
  have z9 : twd cfg.inverse 5 9 = (starRingEnd ℂ) (twd cfg.inverse 5 1) := by rw [← z4, ← per 4]; norm_num
  have z12 : twd cfg.inverse 5 12 = twd cfg.inverse 5 2 := by
    rw [← per 2, show (2 : ℤ) + 5 = 7 by norm_num, ← per 7]; norm_num
  have z16 : twd cfg.inverse 5 16 = twd cfg.inverse 5 1 := by
    rw [← z6, ← per 6, show (6 : ℤ) + 5 = 11 by norm_num, ← per 11]; norm_num
  have e22 : ((2 * 2 : ℕ) : ℤ) = 4 := by norm_num
  have e32 : ((3 * 2 : ℕ) : ℤ) = 6 := by norm_num
  have e42 : ((4 * 2 : ℕ) : ℤ) = 8 := by norm_num
  have e23 : ((2 * 3 : ℕ) : ℤ) = 6 := by norm_num
  have e33 : ((3 * 3 : ℕ) : ℤ) = 9 := by norm_num
  have e43 : ((4 * 3 : ℕ) : ℤ) = 12 := by norm_num
  have e24 : ((2 * 4 : ℕ) : ℤ) = 8 := by norm_num
  have e34 : ((3 * 4 : ℕ) : ℤ) = 12 := by norm_num
  have e44 : ((4 * 4 : ℕ) : ℤ) = 16 := by norm_num
  refine ⟨_, rfl, by simp, ?_, ?_⟩
  · intro r hr
    rw [rd_set' _ _ _ _ (by simp; omega), rd_set' _ _ _ _ (by simp; omega), rd_set' _ _ _ _ (by simp; omega),
      rd_set' _ _ _ _ (by simp; omega), rd_set' _ _ _ _ (by omega)]
    simp only [twd_split cfg.inverse N fs m 5 hN hfs]
    rw [sum_range_succ, sum_range_succ, sum_range_succ, sum_range_succ, sum_range_succ, sum_range_zero]
    interval_cases r
    · rw [if_neg (by omega), if_neg (by omega), if_neg (by omega), if_neg (by omega), if_pos rfl]
      simp only [Nat.zero_mul, Nat.mul_zero, Nat.cast_zero, twd_zero, mul_one]
      apply Complex.ext <;> simp <;> ring
    · rw [if_neg (by omega), if_neg (by omega), if_neg (by omega), if_pos rfl]
      simp only [Nat.zero_mul, Nat.mul_zero, Nat.mul_one, Nat.one_mul, Nat.cast_zero, Nat.cast_one, Nat.cast_ofNat, twd_zero, mul_one,
        z3, z4]
      apply Complex.ext <;> simp <;> ring
    · rw [if_neg (by omega), if_pos rfl]
      simp only [Nat.zero_mul, Nat.mul_zero, Nat.mul_one, Nat.one_mul, Nat.cast_zero, Nat.cast_one, Nat.cast_ofNat, twd_zero, mul_one,
        e22, e32, e42, z4, z6, z8]
      apply Complex.ext <;> simp <;> ring
    · rw [if_pos rfl]
      simp only [Nat.zero_mul, Nat.mul_zero, Nat.mul_one, Nat.one_mul, Nat.cast_zero, Nat.cast_one, Nat.cast_ofNat, twd_zero, mul_one,
        e23, e33, e43, z3, z6, z9, z12]
      apply Complex.ext <;> simp <;> ring
    · rw [if_neg (by omega), if_neg (by omega), if_pos rfl]
      simp only [Nat.zero_mul, Nat.mul_zero, Nat.mul_one, Nat.one_mul, Nat.cast_zero, Nat.cast_one, Nat.cast_ofNat, twd_zero, mul_one,
        e24, e34, e44, z4, z8, z12, z16]
      apply Complex.ext <;> simp <;> ring
  · intro i hi
    rw [rd_set' _ _ _ _ (by simp; omega), rd_set' _ _ _ _ (by simp; omega), rd_set' _ _ _ _ (by simp; omega),
      rd_set' _ _ _ _ (by simp; omega), rd_set' _ _ _ _ (by omega), if_neg (hi 3 (by omega)), if_neg (hi 2 (by omega)),
      if_neg (hi 4 (by omega)), if_neg (hi 1 (by omega)), if_neg (hi 0 (by omega))]

end Verif
