import Verif.Props.FloatKiss2
/-!
# kiss_fft in doubles: one stage
-/
namespace Verif.Props
open Verif Finset

variable {rnd : ℝ → ℝ}

namespace FK

/-- The configuration is what `kiss_fft_alloc` builds for length `N`, the twiddle factors being within `32 u` of the exact ones. -/
structure Tw (cfg : Fl.KissCfg rnd) (N : ℕ) : Prop where
  nfft : cfg.nfft = N
  len : cfg.twiddles.length = N
  val : ∀ j, j < N → ‖FS.val (rd cfg.twiddles j) - twd cfg.inverse N j‖ ≤ 32 * uu

theorem twd_norm (inv : Bool) (N : ℕ) (j : ℤ) : ‖twd inv N j‖ ≤ 1 := by
  unfold twd root
  have : ∀ k : ℤ, (2 * Real.pi * Complex.I * k / N : ℂ) = ((2 * Real.pi * k / N : ℝ) : ℂ) * Complex.I := fun k => by push_cast; ring
  rw [this, Complex.norm_exp_ofReal_mul_I]

/-- One butterfly iteration `u`. -/
structure Body (p fo m u : ℕ) (W : ℕ → ℂ) (B : ℝ) (F F' : List (FC rnd)) : Prop where
  len : F'.length = F.length
  val : (∀ q, q < p → ‖FS.val (rd F (fo + q * m + u))‖ ≤ B) → ∀ r, r < p →
    ‖FS.val (rd F' (fo + r * m + u)) - ∑ q ∈ range p, FS.val (rd F (fo + q * m + u)) * W (q * (u + r * m))‖ ≤ cost p * (uu * B)
  other : ∀ i, (∀ r, r < p → i ≠ fo + r * m + u) → rd F' i = rd F i

theorem loop (p fo m len : ℕ) (W : ℕ → ℂ) (B : ℝ) (body : List (FC rnd) → Int → Res (List (FC rnd))) (F : List (FC rnd)) (hF : F.length = len)
    (hB : ∀ i, fo ≤ i → i < fo + p * m → ‖FS.val (rd F i)‖ ≤ B)
    (hb : ∀ (G : List (FC rnd)) (u : ℕ), G.length = len → u < m → ∃ G', body G (u : Int) = .ok G' ∧ Body p fo m u W B G G') :
    ∃ F', forM' (pyRange 0 (m : Int)) F body = .ok F' ∧ F'.length = len ∧
      (∀ u, u < m → ∀ r, r < p →
        ‖FS.val (rd F' (fo + r * m + u)) - ∑ q ∈ range p, FS.val (rd F (fo + q * m + u)) * W (q * (u + r * m))‖ ≤ cost p * (uu * B)) ∧
      ∀ i, i < fo ∨ fo + p * m ≤ i → rd F' i = rd F i := by
  have hin : ∀ r u, r < p → u < m → r * m + u < p * m := by
    intro r u hr hu
    calc r * m + u < r * m + m := by omega
      _ = (r + 1) * m := by ring
      _ ≤ p * m := Nat.mul_le_mul_right _ hr
  obtain ⟨F', e, hi⟩ := forM'_range_inv (a := 0) (b := (m : Int)) (by omega) F body
    (fun k G => G.length = len ∧
      (∀ u : ℕ, u < m → ∀ r, r < p → if (u : Int) < k then
        ‖FS.val (rd G (fo + r * m + u)) - ∑ q ∈ range p, FS.val (rd F (fo + q * m + u)) * W (q * (u + r * m))‖ ≤ cost p * (uu * B)
        else rd G (fo + r * m + u) = rd F (fo + r * m + u)) ∧
      ∀ i, i < fo ∨ fo + p * m ≤ i → rd G i = rd F i)
    ⟨hF, fun u _ r _ => by rw [if_neg (by omega)], fun i _ => rfl⟩
    (by
      intro k G h1 h2 ⟨gl, gv, go⟩
      obtain ⟨u0, rfl⟩ := Int.eq_ofNat_of_zero_le h1
      have hu0 : u0 < m := by omega
      obtain ⟨G', e, ok⟩ := hb G u0 gl hu0
      refine ⟨G', e, by rw [ok.len, gl], fun u hu r hr => ?_, fun i hi => ?_⟩
      · by_cases hc : u = u0
        · subst hc
          rw [if_pos (by omega)]
          have gq : ∀ q, q < p → rd G (fo + q * m + u) = rd F (fo + q * m + u) := fun q hq => by
            have := gv u hu q hq
            rwa [if_neg (by omega)] at this
          have := ok.val (fun q hq => by
            rw [gq q hq]
            have := hin q u hq hu
            exact hB _ (by omega) (by omega)) r hr
          rw [sum_congr rfl fun q hq => by rw [gq q (mem_range.mp hq)]] at this
          exact this
        · rw [ok.other _ (fun r' _ => idx_ne hu hu0 hc)]
          have := gv u hu r hr
          by_cases h3 : (u : Int) < u0
          · rw [if_pos h3] at this; rw [if_pos (by omega)]; exact this
          · rw [if_neg h3] at this; rw [if_neg (by omega)]; exact this
      · rw [ok.other, go i hi]
        intro r hr he
        have := hin r u0 hr hu0
        omega)
  exact ⟨F', e, hi.1, fun u hu r hr => by have := hi.2.1 u hu r hr; rwa [if_pos (by omega)] at this, hi.2.2⟩

variable {cfg : Fl.KissCfg rnd} {N : ℕ} {B P : ℝ}

theorem tw_get (h : Tw cfg N) {j : ℕ} (hj : j < N) {i : Int} (hi : i = (j : Int)) :
    ∃ w, cGet cfg.twiddles i = .ok w ∧ ‖FS.val w - twd cfg.inverse N j‖ ≤ 32 * uu := by
  subst hi; exact ⟨_, cGet_ok (by rw [h.len]; exact hj), h.val j hj⟩

theorem g_get {F : List (FC rnd)} {j : ℕ} (hj : j < F.length) {i : Int} (hi : i = (j : Int)) : cGet F i = .ok (rd F j) := by
  subst hi; exact cGet_ok hj

theorem g_set {F : List (FC rnd)} {j : ℕ} (hj : j < F.length) {i : Int} {v : FC rnd} (hi : i = (j : Int)) : cSet F i v = .ok (F.set j v) := by
  subst hi; exact cSet_ok hj

theorem bfly2 (hr : IsRounding rnd) (hs : Scale B P) (hP : 9 ≤ P) (h : Tw cfg N) (fo fs m len : ℕ) (hN : fs * (2 * m) = N) (hNpos : 0 < N) (hfo : fo + 2 * m ≤ len)
    (G : List (FC rnd)) (u : ℕ) (hG : G.length = len) (hu : u < m) :
    ∃ G', Fl.kfBfly2Body rnd cfg.twiddles fo fs m G u = .ok G' ∧ Body 2 fo m u (fun j => twd cfg.inverse N ((fs * j : ℕ) : ℤ)) B G G' := by
  have hfs := pos_fm hN hNpos
  unfold Fl.kfBfly2Body
  rw [g_get (j := fo + 1 * m + u) (by omega) (by push_cast; ring)]
  simp only [Except.bind_ok]
  obtain ⟨w1, ew1, hw1⟩ := tw_get h (tw_lt hN hNpos (q := 1) (by omega) hu) (i := (u : Int) * fs) (by push_cast; ring)
  rw [ew1]
  simp only [Except.bind_ok]
  rw [g_get (j := fo + 0 * m + u) (by omega) (by push_cast; ring)]
  simp only [Except.bind_ok]
  rw [g_set (j := fo + 1 * m + u) (by omega) (by push_cast; ring)]
  simp only [Except.bind_ok]
  rw [g_set (j := fo + 0 * m + u) (by simp; omega) (by push_cast; ring)]
  refine ⟨_, rfl, by simp, ?_, ?_⟩
  · intro hb r hrr
    obtain ⟨o1, o0⟩ := out2 hr hs hP (hb 0 (by omega)) (hb 1 (by omega)) hw1 (twd_norm _ _ _)
    rw [rd_set' _ _ _ _ (by simp; omega), rd_set' _ _ _ _ (by omega)]
    simp only [twd_split cfg.inverse N fs m 2 hN hfs]
    rw [sum_range_succ, sum_range_succ, sum_range_zero]
    interval_cases r
    · rw [if_pos rfl]
      refine (le_of_eq ?_).trans o0
      congr 2
      simp [twd_zero]
    · rw [if_neg (by omega), if_pos rfl]
      have : twd cfg.inverse 2 ((1 * 1 : ℕ) : ℤ) = -1 := by exact_mod_cast twd2 cfg.inverse
      rw [this]
      refine (le_of_eq ?_).trans o1
      congr 2
      simp [twd_zero]; ring
  · intro i hi
    rw [rd_set' _ _ _ _ (by simp; omega), rd_set' _ _ _ _ (by omega), if_neg (hi 0 (by omega)), if_neg (hi 1 (by omega))]

theorem bfly3 (hr : IsRounding rnd) (hs : Scale B P) (hP : 9 ≤ P) (h : Tw cfg N) {ep : FC rnd} (hep : ‖FS.val ep - twd cfg.inverse 3 1‖ ≤ 32 * uu)
    (fo fs m len : ℕ) (hN : fs * (3 * m) = N) (hNpos : 0 < N) (hfo : fo + 3 * m ≤ len) (G : List (FC rnd)) (u : ℕ) (hG : G.length = len) (hu : u < m) :
    ∃ G', Fl.kfBfly3Body rnd cfg.twiddles ep fo fs m G u = .ok G' ∧ Body 3 fo m u (fun j => twd cfg.inverse N ((fs * j : ℕ) : ℤ)) B G G' := by
  have hfs := pos_fm hN hNpos
  unfold Fl.kfBfly3Body
  rw [g_get (j := fo + 1 * m + u) (by omega) (by push_cast; ring)]
  simp only [Except.bind_ok]
  obtain ⟨w1, ew1, hw1⟩ := tw_get h (tw_lt hN hNpos (q := 1) (by omega) hu) (i := (u : Int) * fs) (by push_cast; ring)
  rw [ew1]
  simp only [Except.bind_ok]
  rw [g_get (j := fo + 2 * m + u) (by omega) (by push_cast; ring)]
  simp only [Except.bind_ok]
  obtain ⟨w2, ew2, hw2⟩ := tw_get h (tw_lt hN hNpos (q := 2) (by omega) hu) (i := (u : Int) * (fs * 2)) (by push_cast; ring)
  rw [ew2]
  simp only [Except.bind_ok]
  rw [g_get (j := fo + 0 * m + u) (by omega) (by push_cast; ring)]
  simp only [Except.bind_ok]
  rw [g_set (j := fo + 0 * m + u) (by omega) (by push_cast; ring)]
  simp only [Except.bind_ok]
  rw [g_set (j := fo + 2 * m + u) (by simp; omega) (by push_cast; ring)]
  simp only [Except.bind_ok]
  rw [g_set (j := fo + 1 * m + u) (by simp; omega) (by push_cast; ring)]
  refine ⟨_, rfl, by simp, ?_, ?_⟩
  · intro hb r hrr
    obtain ⟨o0, o1, o2⟩ := out3 hr hs hP (hb 0 (by omega)) (hb 1 (by omega)) (hb 2 (by omega)) hw1 (twd_norm _ _ _) hw2 (twd_norm _ _ _) hep (twd_norm _ _ _)
    rw [rd_set' _ _ _ _ (by simp; omega), rd_set' _ _ _ _ (by simp; omega), rd_set' _ _ _ _ (by omega)]
    simp only [twd_split cfg.inverse N fs m 3 hN hfs]
    rw [sum_range_succ, sum_range_succ, sum_range_succ, sum_range_zero]
    have z1 : twd cfg.inverse 3 1 = ⟨-1 / 2, (twd cfg.inverse 3 1).im⟩ := twd3 _
    have z2 : twd cfg.inverse 3 2 = ⟨-1 / 2, -(twd cfg.inverse 3 1).im⟩ := by
      rw [← twd_period _ 3 2 (-1)]
      have : (2 : ℤ) + (3 : ℕ) * (-1) = -1 := by norm_num
      rw [this, twd_conj, z1]; rfl
    have z4 : twd cfg.inverse 3 4 = twd cfg.inverse 3 1 := by
      rw [← twd_period _ 3 1 1]; norm_num
    have z0 := twd_zero cfg.inverse 3
    interval_cases r
    · rw [if_neg (by omega), if_neg (by omega), if_pos rfl]
      refine (le_of_eq ?_).trans o0
      congr 2
      simp [twd_zero]; ring
    · rw [if_pos rfl]
      refine (le_of_eq ?_).trans o1
      congr 2
      simp only [Nat.zero_mul, Nat.mul_zero, Nat.mul_one, Nat.one_mul, Nat.cast_zero, Nat.cast_one, Nat.cast_ofNat, twd_zero, z2, mul_one]
      conv_lhs => rw [z1]
      apply Complex.ext <;> simp <;> ring
    · rw [if_neg (by omega), if_pos rfl]
      refine (le_of_eq ?_).trans o2
      congr 2
      simp only [Nat.zero_mul, Nat.mul_zero, Nat.mul_one, Nat.one_mul, Nat.cast_zero, Nat.cast_one, Nat.cast_ofNat, twd_zero, mul_one,
        show ((2 * 2 : ℕ) : ℤ) = 4 by norm_num, z4, z2]
      conv_lhs => rw [z1]
      apply Complex.ext <;> simp <;> ring
  · intro i hi
    rw [rd_set' _ _ _ _ (by simp; omega), rd_set' _ _ _ _ (by simp; omega), rd_set' _ _ _ _ (by omega), if_neg (hi 1 (by omega)),
      if_neg (hi 2 (by omega)), if_neg (hi 0 (by omega))]

theorem bfly4 (hr : IsRounding rnd) (hs : Scale B P) (hP : 9 ≤ P) (h : Tw cfg N) (fo fs m len : ℕ) (hN : fs * (4 * m) = N) (hNpos : 0 < N) (hfo : fo + 4 * m ≤ len)
    (G : List (FC rnd)) (u : ℕ) (hG : G.length = len) (hu : u < m) :
    ∃ G', Fl.kfBfly4Body rnd cfg.twiddles cfg.inverse fo fs m G u = .ok G' ∧ Body 4 fo m u (fun j => twd cfg.inverse N ((fs * j : ℕ) : ℤ)) B G G' := by
  have hfs := pos_fm hN hNpos
  unfold Fl.kfBfly4Body
  rw [g_get (j := fo + 1 * m + u) (by omega) (by push_cast; ring)]
  simp only [Except.bind_ok]
  obtain ⟨w1, ew1, hw1⟩ := tw_get h (tw_lt hN hNpos (q := 1) (by omega) hu) (i := (u : Int) * fs) (by push_cast; ring)
  rw [ew1]
  simp only [Except.bind_ok]
  rw [g_get (j := fo + 2 * m + u) (by omega) (by push_cast; ring)]
  simp only [Except.bind_ok]
  obtain ⟨w2, ew2, hw2⟩ := tw_get h (tw_lt hN hNpos (q := 2) (by omega) hu) (i := (u : Int) * (fs * 2)) (by push_cast; ring)
  rw [ew2]
  simp only [Except.bind_ok]
  rw [g_get (j := fo + 3 * m + u) (by omega) (by push_cast; ring)]
  simp only [Except.bind_ok]
  obtain ⟨w3, ew3, hw3⟩ := tw_get h (tw_lt hN hNpos (q := 3) (by omega) hu) (i := (u : Int) * (fs * 3)) (by push_cast; ring)
  rw [ew3]
  simp only [Except.bind_ok]
  rw [g_get (j := fo + 0 * m + u) (by omega) (by push_cast; ring)]
  simp only [Except.bind_ok]
  rw [g_set (j := fo + 2 * m + u) (by omega) (by push_cast; ring)]
  simp only [Except.bind_ok]
  rw [g_set (j := fo + 0 * m + u) (by simp; omega) (by push_cast; ring)]
  simp only [Except.bind_ok]
  rw [g_set (j := fo + 1 * m + u) (by simp; omega) (by push_cast; ring)]
  simp only [Except.bind_ok]
  rw [g_set (j := fo + 3 * m + u) (by simp; omega) (by push_cast; ring)]
  refine ⟨_, rfl, by simp, ?_, ?_⟩
  · intro hb r hrr
    obtain ⟨o0, o1, o2, o3⟩ := out4 hr hs hP cfg.inverse (hb 0 (by omega)) (hb 1 (by omega)) (hb 2 (by omega)) (hb 3 (by omega)) hw1 (twd_norm _ _ _)
      hw2 (twd_norm _ _ _) hw3 (twd_norm _ _ _)
    rw [rd_set' _ _ _ _ (by simp; omega), rd_set' _ _ _ _ (by simp; omega), rd_set' _ _ _ _ (by simp; omega), rd_set' _ _ _ _ (by omega)]
    simp only [twd_split cfg.inverse N fs m 4 hN hfs]
    rw [sum_range_succ, sum_range_succ, sum_range_succ, sum_range_succ, sum_range_zero]
    have z1 := twd4 cfg.inverse
    have z2 : twd cfg.inverse 4 2 = -1 := by
      rw [show (2 : ℤ) = 1 + 1 by norm_num, twd_add, z1]; cases cfg.inverse <;> simp
    have z3 : twd cfg.inverse 4 3 = - twd cfg.inverse 4 1 := by
      rw [show (3 : ℤ) = 2 + 1 by norm_num, twd_add, z2]; ring
    have z4 : twd cfg.inverse 4 4 = 1 := by
      rw [show (4 : ℤ) = 2 + 2 by norm_num, twd_add, z2]; ring
    have z6 : twd cfg.inverse 4 6 = -1 := by
      rw [show (6 : ℤ) = 4 + 2 by norm_num, twd_add, z2, z4]; ring
    have z9 : twd cfg.inverse 4 9 = twd cfg.inverse 4 1 := by
      rw [show (9 : ℤ) = 4 + 4 + 1 by norm_num, twd_add, twd_add, z4]; ring
    have e22 : ((2 * 2 : ℕ) : ℤ) = 4 := by norm_num
    have e32 : ((3 * 2 : ℕ) : ℤ) = 6 := by norm_num
    have e23 : ((2 * 3 : ℕ) : ℤ) = 6 := by norm_num
    have e33 : ((3 * 3 : ℕ) : ℤ) = 9 := by norm_num
    interval_cases r
    · rw [if_neg (by omega), if_neg (by omega), if_pos rfl]
      refine (le_of_eq ?_).trans o0
      congr 2
      simp only [Nat.zero_mul, Nat.mul_zero, Nat.mul_one, Nat.one_mul, Nat.cast_zero, Nat.cast_one, Nat.cast_ofNat, twd_zero, mul_one]
      ring
    · rw [if_neg (by omega), if_pos rfl]
      refine (le_of_eq ?_).trans o1
      congr 2
      simp only [Nat.zero_mul, Nat.mul_zero, Nat.mul_one, Nat.one_mul, Nat.cast_zero, Nat.cast_one, Nat.cast_ofNat, twd_zero, mul_one, z2, z3]
      rw [z1]
      ring
    · rw [if_neg (by omega), if_neg (by omega), if_neg (by omega), if_pos rfl]
      refine (le_of_eq ?_).trans o2
      congr 2
      simp only [Nat.zero_mul, Nat.mul_zero, Nat.mul_one, Nat.one_mul, Nat.cast_zero, Nat.cast_one, Nat.cast_ofNat, twd_zero, mul_one, e22, e32, z2, z4, z6]
      ring
    · rw [if_pos rfl]
      refine (le_of_eq ?_).trans o3
      congr 2
      simp only [Nat.zero_mul, Nat.mul_zero, Nat.mul_one, Nat.one_mul, Nat.cast_zero, Nat.cast_one, Nat.cast_ofNat, twd_zero, mul_one, e23, e33, z3, z6, z9]
      rw [z1]
      ring
  · intro i hi
    rw [rd_set' _ _ _ _ (by simp; omega), rd_set' _ _ _ _ (by simp; omega), rd_set' _ _ _ _ (by simp; omega), rd_set' _ _ _ _ (by omega), if_neg (hi 3 (by omega)),
      if_neg (hi 1 (by omega)), if_neg (hi 0 (by omega)), if_neg (hi 2 (by omega))]

theorem bfly5 (hr : IsRounding rnd) (hs : Scale B P) (hP : 9 ≤ P) (h : Tw cfg N) {ya yb : FC rnd} (hya : ‖FS.val ya - twd cfg.inverse 5 1‖ ≤ 32 * uu)
    (hyb : ‖FS.val yb - twd cfg.inverse 5 2‖ ≤ 32 * uu) (fo fs m len : ℕ) (hN : fs * (5 * m) = N) (hNpos : 0 < N) (hfo : fo + 5 * m ≤ len)
    (G : List (FC rnd)) (u : ℕ) (hG : G.length = len) (hu : u < m) :
    ∃ G', Fl.kfBfly5Body rnd cfg.twiddles ya yb fo fs m G u = .ok G' ∧ Body 5 fo m u (fun j => twd cfg.inverse N ((fs * j : ℕ) : ℤ)) B G G' := by
  have hfs := pos_fm hN hNpos
  unfold Fl.kfBfly5Body
  rw [g_get (j := fo + 0 * m + u) (by omega) (by push_cast; ring)]
  simp only [Except.bind_ok]
  rw [g_get (j := fo + 1 * m + u) (by omega) (by push_cast; ring)]
  simp only [Except.bind_ok]
  obtain ⟨w1, ew1, hw1⟩ := tw_get h (tw_lt hN hNpos (q := 1) (by omega) hu) (i := (u : Int) * fs) (by push_cast; ring)
  rw [ew1]
  simp only [Except.bind_ok]
  rw [g_get (j := fo + 2 * m + u) (by omega) (by push_cast; ring)]
  simp only [Except.bind_ok]
  obtain ⟨w2, ew2, hw2⟩ := tw_get h (tw_lt hN hNpos (q := 2) (by omega) hu) (i := 2 * (u : Int) * fs) (by push_cast; ring)
  rw [ew2]
  simp only [Except.bind_ok]
  rw [g_get (j := fo + 3 * m + u) (by omega) (by push_cast; ring)]
  simp only [Except.bind_ok]
  obtain ⟨w3, ew3, hw3⟩ := tw_get h (tw_lt hN hNpos (q := 3) (by omega) hu) (i := 3 * (u : Int) * fs) (by push_cast; ring)
  rw [ew3]
  simp only [Except.bind_ok]
  rw [g_get (j := fo + 4 * m + u) (by omega) (by push_cast; ring)]
  simp only [Except.bind_ok]
  obtain ⟨w4, ew4, hw4⟩ := tw_get h (tw_lt hN hNpos (q := 4) (by omega) hu) (i := 4 * (u : Int) * fs) (by push_cast; ring)
  rw [ew4]
  simp only [Except.bind_ok]
  rw [g_set (j := fo + 0 * m + u) (by omega) (by push_cast; ring)]
  simp only [Except.bind_ok]
  rw [g_set (j := fo + 1 * m + u) (by simp; omega) (by push_cast; ring)]
  simp only [Except.bind_ok]
  rw [g_set (j := fo + 4 * m + u) (by simp; omega) (by push_cast; ring)]
  simp only [Except.bind_ok]
  rw [g_set (j := fo + 2 * m + u) (by simp; omega) (by push_cast; ring)]
  simp only [Except.bind_ok]
  rw [g_set (j := fo + 3 * m + u) (by simp; omega) (by push_cast; ring)]
  have per : ∀ a : ℤ, twd cfg.inverse 5 (a + 5) = twd cfg.inverse 5 a := fun a => by
    have := twd_period cfg.inverse 5 a 1; simpa using this
  have z3 : twd cfg.inverse 5 3 = (starRingEnd ℂ) (twd cfg.inverse 5 2) := by
    rw [← twd_conj, ← per (-2)]; norm_num
  have z4 : twd cfg.inverse 5 4 = (starRingEnd ℂ) (twd cfg.inverse 5 1) := by
    rw [← twd_conj, ← per (-1)]; norm_num
  have z6 : twd cfg.inverse 5 6 = twd cfg.inverse 5 1 := by rw [← per 1]; norm_num
  have z8 : twd cfg.inverse 5 8 = (starRingEnd ℂ) (twd cfg.inverse 5 2) := by rw [← z3, ← per 3]; norm_num
  have z9 : twd cfg.inverse 5 9 = (starRingEnd ℂ) (twd cfg.inverse 5 1) := by rw [← z4, ← per 4]; norm_num
  have z12 : twd cfg.inverse 5 12 = twd cfg.inverse 5 2 := by
    rw [← per 2, show (2 : ℤ) + 5 = 7 by norm_num, ← per 7]; norm_num
  have z16 : twd cfg.inverse 5 16 = twd cfg.inverse 5 1 := by
    rw [← z6, ← per 6, show (6 : ℤ) + 5 = 11 by norm_num, ← per 11]; norm_num
  have e22 : ((2 * 2 : ℕ) : ℤ) = 4 := by norm_num
  have e32 : ((3 * 2 : ℕ) : ℤ) = 6 := by norm_num
  have e42 : ((4 * 2 : ℕ) : ℤ) = 8 := by norm_num
  have e23 : ((2 * 3 : ℕ) : ℤ) = 6 := by norm_num
  have e33 : ((3 * 3 : ℕ) : ℤ) = 9 := by norm_num
  have e43 : ((4 * 3 : ℕ) : ℤ) = 12 := by norm_num
  have e24 : ((2 * 4 : ℕ) : ℤ) = 8 := by norm_num
  have e34 : ((3 * 4 : ℕ) : ℤ) = 12 := by norm_num
  have e44 : ((4 * 4 : ℕ) : ℤ) = 16 := by norm_num
  refine ⟨_, rfl, by simp, ?_, ?_⟩
  · intro hb r hrr
    obtain ⟨o0, o1, o2, o3, o4⟩ := out5 hr hs hP (hb 0 (by omega)) (hb 1 (by omega)) (hb 2 (by omega)) (hb 3 (by omega)) (hb 4 (by omega)) hw1 (twd_norm _ _ _)
      hw2 (twd_norm _ _ _) hw3 (twd_norm _ _ _) hw4 (twd_norm _ _ _) hya (twd_norm _ _ _) hyb (twd_norm _ _ _)
    rw [rd_set' _ _ _ _ (by simp; omega), rd_set' _ _ _ _ (by simp; omega), rd_set' _ _ _ _ (by simp; omega),
      rd_set' _ _ _ _ (by simp; omega), rd_set' _ _ _ _ (by omega)]
    simp only [twd_split cfg.inverse N fs m 5 hN hfs]
    rw [sum_range_succ, sum_range_succ, sum_range_succ, sum_range_succ, sum_range_succ, sum_range_zero]
    interval_cases r
    · rw [if_neg (by omega), if_neg (by omega), if_neg (by omega), if_neg (by omega), if_pos rfl]
      refine (le_of_eq ?_).trans o0
      congr 2
      simp only [Nat.zero_mul, Nat.mul_zero, Nat.cast_zero, twd_zero, mul_one]
      apply Complex.ext <;> simp <;> ring
    · rw [if_neg (by omega), if_neg (by omega), if_neg (by omega), if_pos rfl]
      refine (le_of_eq ?_).trans o1
      congr 2
      simp only [Nat.zero_mul, Nat.mul_zero, Nat.mul_one, Nat.one_mul, Nat.cast_zero, Nat.cast_one, Nat.cast_ofNat, twd_zero, mul_one,
        z3, z4]
      apply Complex.ext <;> simp <;> ring
    · rw [if_neg (by omega), if_pos rfl]
      refine (le_of_eq ?_).trans o2
      congr 2
      simp only [Nat.zero_mul, Nat.mul_zero, Nat.mul_one, Nat.one_mul, Nat.cast_zero, Nat.cast_one, Nat.cast_ofNat, twd_zero, mul_one,
        e22, e32, e42, z4, z6, z8]
      apply Complex.ext <;> simp <;> ring
    · rw [if_pos rfl]
      refine (le_of_eq ?_).trans o3
      congr 2
      simp only [Nat.zero_mul, Nat.mul_zero, Nat.mul_one, Nat.one_mul, Nat.cast_zero, Nat.cast_one, Nat.cast_ofNat, twd_zero, mul_one,
        e23, e33, e43, z3, z6, z9, z12]
      apply Complex.ext <;> simp <;> ring
    · rw [if_neg (by omega), if_neg (by omega), if_pos rfl]
      refine (le_of_eq ?_).trans o4
      congr 2
      simp only [Nat.zero_mul, Nat.mul_zero, Nat.mul_one, Nat.one_mul, Nat.cast_zero, Nat.cast_one, Nat.cast_ofNat, twd_zero, mul_one,
        e24, e34, e44, z4, z8, z12, z16]
      apply Complex.ext <;> simp <;> ring
  · intro i hi
    rw [rd_set' _ _ _ _ (by simp; omega), rd_set' _ _ _ _ (by simp; omega), rd_set' _ _ _ _ (by simp; omega),
      rd_set' _ _ _ _ (by simp; omega), rd_set' _ _ _ _ (by omega), if_neg (hi 3 (by omega)), if_neg (hi 2 (by omega)),
      if_neg (hi 4 (by omega)), if_neg (hi 1 (by omega)), if_neg (hi 0 (by omega))]

end FK
end Verif.Props
