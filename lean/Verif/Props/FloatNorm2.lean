import Verif.Props.FloatNorm
/-!
# Property C111: the theorems
-/
namespace Verif.Props
open Verif
variable {rnd : ℝ → ℝ}

namespace FN

/-- The exact distance of two `complex128` values. -/
noncomputable def fcDist (a b : FC rnd) : ℝ := Real.sqrt ((a.re - b.re) ^ 2 + (a.im - b.im) ^ 2)

/-- A double difference below the normal range is exact, so rounding a difference of doubles has a purely relative error. -/
theorem sub_rel (hr : IsRounding rnd) {x y : ℝ} (hx : IsDouble x) (hy : IsDouble y) (hb : |x - y| ≤ 2 ^ (1022 : ℤ)) :
    |rnd (x - y) - (x - y)| ≤ uu * |x - y| := by
  by_cases h : (2 : ℝ) ^ (-1022 : ℤ) ≤ |x - y|
  · rcases le_total 0 (x - y) with h0 | h0
    · rw [abs_of_nonneg h0] at h hb ⊢
      exact rnd_rel hr h hb
    · have hb' : |x - y| ≤ 2 ^ 1023 := le_trans hb (by
        rw [← zpow_natCast]; exact zpow_le_zpow_right₀ (by norm_num) (by norm_num))
      have e := hr.odd (x - y) hb'
      rw [abs_of_nonpos h0] at h hb ⊢
      have := rnd_rel hr h hb
      rw [e] at this
      rw [abs_sub_comm]
      convert this using 1
      congr 1; ring
  · push Not at h
    obtain ⟨m, e, _, e1, _, rfl⟩ := hx
    obtain ⟨m', e', _, e1', _, rfl⟩ := hy
    have hp : (0 : ℝ) < 2 ^ (-1074 : ℤ) := by positivity
    have key : ∀ (m e : ℤ), -1074 ≤ e → ∃ k : ℤ, (m : ℝ) * 2 ^ e = k * 2 ^ (-1074 : ℤ) := by
      intro m e he
      obtain ⟨j, hj⟩ := Int.eq_ofNat_of_zero_le (show 0 ≤ e + 1074 by omega)
      refine ⟨m * 2 ^ j, ?_⟩
      rw [show e = (j : ℤ) + -1074 by omega, zpow_add₀ (by norm_num), zpow_natCast]
      push_cast
      ring
    obtain ⟨k, hk⟩ := key m e e1
    obtain ⟨k', hk'⟩ := key m' e' e1'
    rw [hk, hk', ← sub_mul] at h ⊢
    have hd : IsDouble (((k : ℝ) - k') * 2 ^ (-1074 : ℤ)) := by
      refine ⟨k - k', -1074, ?_, by norm_num, by norm_num, by push_cast; ring⟩
      rw [abs_mul, abs_of_pos hp] at h
      have h2 : |(k : ℝ) - k'| < 2 ^ (52 : ℤ) := by
        have e : (2 : ℝ) ^ (-1022 : ℤ) = 2 ^ (52 : ℤ) * 2 ^ (-1074 : ℤ) := by rw [← zpow_add₀ (by norm_num)]; norm_num
        rw [e] at h
        exact lt_of_mul_lt_mul_right h hp.le
      have h3 : ((|k - k'| : ℤ) : ℝ) < ((2 ^ 52 : ℤ) : ℝ) := by
        push_cast
        refine lt_of_lt_of_le h2 (le_of_eq (by norm_num))
      have : |k - k'| < 2 ^ 52 := by exact_mod_cast h3
      omega
    rw [rnd_double hr hd (by
      refine le_trans h.le ?_
      rw [← zpow_natCast]
      exact zpow_le_zpow_right₀ (by norm_num) (by norm_num)), sub_self, abs_zero]
    exact mul_nonneg uu_pos.le (abs_nonneg _)

theorem fcAbs_nonneg (z : FC rnd) : 0 ≤ fcAbs z := Real.sqrt_nonneg _

theorem abs_re_le_dist (a b : FC rnd) : |a.re - b.re| ≤ fcDist a b := Real.abs_le_sqrt (by nlinarith [sq_nonneg (a.im - b.im)])
theorem abs_im_le_dist (a b : FC rnd) : |a.im - b.im| ≤ fcDist a b := Real.abs_le_sqrt (by nlinarith [sq_nonneg (a.re - b.re)])

/-- The magnitude of a computed difference. -/
theorem sub_abs (hr : IsRounding rnd) {a b : FC rnd} (da : IsDouble a.re ∧ IsDouble a.im) (db : IsDouble b.re ∧ IsDouble b.im)
    (hb : fcDist a b ≤ 2 ^ (1022 : ℤ)) : (1 - uu) * fcDist a b ≤ fcAbs (a - b) ∧ fcAbs (a - b) ≤ (1 + uu) * fcDist a b := by
  have u0 := uu_pos
  have u1 := uu_lt
  have h1 := sub_rel hr da.1 db.1 (le_trans (abs_re_le_dist a b) hb)
  have h2 := sub_rel hr da.2 db.2 (le_trans (abs_im_le_dist a b) hb)
  have up : ∀ {x r : ℝ}, |r - x| ≤ uu * |x| → r ^ 2 ≤ (1 + uu) ^ 2 * x ^ 2 := by
    intro x r h
    rw [← sq_abs r, ← sq_abs x, ← mul_pow]
    refine pow_le_pow_left₀ (abs_nonneg _) ?_ 2
    have := abs_sub_abs_le_abs_sub r x
    linarith
  have lo : ∀ {x r : ℝ}, |r - x| ≤ uu * |x| → (1 - uu) ^ 2 * x ^ 2 ≤ r ^ 2 := by
    intro x r h
    rw [← sq_abs r, ← sq_abs x, ← mul_pow]
    refine pow_le_pow_left₀ (mul_nonneg (by linarith) (abs_nonneg _)) ?_ 2
    have := abs_sub_abs_le_abs_sub x r
    rw [abs_sub_comm] at h
    linarith
  have hD : fcDist a b ^ 2 = (a.re - b.re) ^ 2 + (a.im - b.im) ^ 2 := Real.sq_sqrt (by positivity)
  have hD0 : 0 ≤ fcDist a b := Real.sqrt_nonneg _
  clear hb
  unfold fcAbs
  rw [fc_sub]
  constructor
  · apply Real.le_sqrt_of_sq_le
    rw [mul_pow, hD, mul_add]
    exact add_le_add (lo h1) (lo h2)
  · apply Real.sqrt_le_iff.mpr
    refine ⟨by positivity, ?_⟩
    rw [mul_pow, hD, mul_add]
    exact add_le_add (up h1) (up h2)

theorem sum_toList {α : Type} [Zero α] (A : Arr2 α) (f : α → ℝ) :
    (A.toList.map f).sum = ∑ i ∈ Finset.range A.rows, ∑ j ∈ Finset.range A.cols, f (A.at' i j) := by
  unfold Arr2.toList
  rw [List.map_flatMap]
  have k : ∀ (n : Nat) (g : Nat → ℝ), ((List.range n).map g).sum = ∑ i ∈ Finset.range n, g i := by
    intro n g
    induction n with
    | zero => rfl
    | succ n ih => rw [List.range_succ, List.map_append, List.sum_append, ih, Finset.sum_range_succ]; simp
  have k2 : ∀ (xs : List Nat) (g : Nat → List ℝ), (xs.flatMap g).sum = (xs.map fun i => (g i).sum).sum := by
    intro xs g
    induction xs with
    | nil => rfl
    | cons x xs ih => simp [List.flatMap_cons, ih]
  rw [k2, k]
  refine Finset.sum_congr rfl fun i _ => ?_
  rw [List.map_map, k]; rfl

theorem length_toList {α : Type} [Zero α] (A : Arr2 α) : A.toList.length = A.rows * A.cols := by
  unfold Arr2.toList
  simp [List.length_flatMap]

theorem mem_toList {α : Type} [Zero α] (A : Arr2 α) {x : α} : x ∈ A.toList ↔ ∃ i j, i < A.rows ∧ j < A.cols ∧ x = A.at' i j := by
  unfold Arr2.toList
  simp only [List.mem_flatMap, List.mem_range, List.mem_map]
  constructor
  · rintro ⟨i, hi, j, hj, rfl⟩; exact ⟨i, j, hi, hj, rfl⟩
  · rintro ⟨i, j, hi, hj, rfl⟩; exact ⟨i, hi, j, hj, rfl⟩

theorem hyp_rng {h : FC rnd → ℝ} (hh : IsHypot rnd h) {z : FC rnd} (hz : InRange z) : Rng (h z) ∧ |h z - fcAbs z| ≤ 2 * uu * fcAbs z := by
  have u0 := uu_pos
  have u1 := uu_lt
  rcases hz with rfl | ⟨h1, h2⟩
  · rw [hh.zero, fcAbs_zero]; simp [Rng]
  · have hc := hh.close z h1 (le_trans h2 (zpow_le_zpow_right₀ (by norm_num) (by norm_num)))
    change |h z - fcAbs z| ≤ _ * fcAbs z at hc
    rw [two_uu] at hc
    have hA0 : 0 < fcAbs z := lt_of_lt_of_le (by positivity) h1
    refine ⟨Or.inr ?_, hc⟩
    have hc' := abs_le.mp hc
    have a1 : 1 / 2 * fcAbs z ≤ h z := by nlinarith [hc'.1]
    have a2 : h z ≤ 2 * fcAbs z := by nlinarith [hc'.2]
    constructor
    · have : (2 : ℝ) ^ (-502 : ℤ) ≤ 1 / 2 * 2 ^ (-500 : ℤ) := by
        rw [show (1 / 2 : ℝ) = 2 ^ (-1 : ℤ) by norm_num, ← zpow_add₀ (by norm_num)]
        exact zpow_le_zpow_right₀ (by norm_num) (by norm_num)
      exact le_trans (le_trans this (mul_le_mul_of_nonneg_left h1 (by norm_num))) a1
    · have : 2 * (2 : ℝ) ^ (400 : ℤ) ≤ 2 ^ (500 : ℤ) := by
        rw [← zpow_one_add₀ (by norm_num)]
        exact zpow_le_zpow_right₀ (by norm_num) (by norm_num)
      exact le_trans a2 (le_trans (mul_le_mul_of_nonneg_left h2 (by norm_num)) this)

/-- The largest magnitude of a list. -/
def IsPeak (l : List (FC rnd)) (E : ℝ) : Prop := (∃ z ∈ l, E = fcAbs z) ∧ ∀ z ∈ l, fcAbs z ≤ E

theorem linf_list {h : FC rnd → ℝ} (hh : IsHypot rnd h) {l : List (FC rnd)} (hl : ∀ z ∈ l, InRange z) {v E : ℝ}
    (hv : npMax (l.map h) = .ok v) (hE : IsPeak l E) : Rng v ∧ 0 ≤ E ∧ |v - E| ≤ 2 * uu * E := by
  have u0 := uu_pos
  have u1 := uu_lt
  have hne : l.map h ≠ [] := by
    intro e; rw [e] at hv; cases hv
  obtain ⟨v', e, hm, hx⟩ := npMax_spec hne
  rw [hv] at e; cases e
  obtain ⟨z, hz, rfl⟩ := List.mem_map.mp hm
  obtain ⟨⟨w, hw, rfl⟩, hmax⟩ := hE
  obtain ⟨r1, c1⟩ := hyp_rng hh (hl z hz)
  obtain ⟨r2, c2⟩ := hyp_rng hh (hl w hw)
  refine ⟨r1, fcAbs_nonneg _, ?_⟩
  rw [abs_le] at c1 c2 ⊢
  have hzw := hmax z hz
  have hwz := hx (h w) (List.mem_map_of_mem hw)
  have hu : 0 ≤ uu * (fcAbs w - fcAbs z) := mul_nonneg u0.le (by linarith)
  constructor
  · linarith [c2.1]
  · linarith [c1.2]

end FN

open FN

/-- C111, `L2_patt` of a scalar pattern of at most `2^50` samples, each 0 or of a magnitude between `2^-500` and `2^400`: off by at most
`(N + 8) 2^-52` relative, `N` the number of samples. -/
theorem c111_l2_patt (hr : IsRounding rnd) (h : FC rnd → ℝ) (hh : IsHypot rnd h) (p : SPatt (FC rnd)) (A : Arr2 (FC rnd)) (hA : p.dsphere = .ok A)
    (hl : ∀ i j, i < A.rows → j < A.cols → InRange (A.at' i j)) (hN : A.rows * A.cols ≤ 2 ^ 50) (s E : ℝ) (hs : FloatL2Patt rnd h p s)
    (hE : E = Real.sqrt (∑ i ∈ Finset.range A.rows, ∑ j ∈ Finset.range A.cols, fcAbs (A.at' i j) ^ 2)) :
    |s - E| ≤ ((A.rows * A.cols : ℕ) + 8) * 2 ^ (-52 : ℤ) * E := by
  obtain ⟨B, hB, hs⟩ := hs
  rw [hA] at hB; cases hB
  have := (l2_list hr hh (l := A.toList) (by
    intro z hz
    obtain ⟨i, j, hi, hj, rfl⟩ := (mem_toList A).mp hz
    exact hl i j hi hj) (by rw [length_toList]; exact hN) hs).2
  unfold ssq at this
  rw [sum_toList, ← hE, length_toList] at this
  exact this

/-- C111, `L2_patt` of a transverse pattern. -/
theorem c111_l2_tpatt (hr : IsRounding rnd) (sq : ℝ → ℝ) (hq : IsSquare sq) (h : FC rnd → ℝ) (hh : IsHypot rnd h) (p : TPatt (FC rnd))
    (hsh : p.td.rows = p.pd.rows ∧ p.td.cols = p.pd.cols)
    (hl : ∀ i j, i < p.td.rows → j < p.td.cols → InRange (p.td.at' i j) ∧ InRange (p.pd.at' i j)) (hN : p.td.rows * p.td.cols ≤ 2 ^ 50) (s E : ℝ)
    (hs : FloatL2TPatt rnd sq h p s)
    (hE : E = Real.sqrt (∑ i ∈ Finset.range p.td.rows, ∑ j ∈ Finset.range p.td.cols, (fcAbs (p.td.at' i j) ^ 2 + fcAbs (p.pd.at' i j) ^ 2))) :
    |s - E| ≤ ((p.td.rows * p.td.cols : ℕ) + 12) * 2 ^ (-52 : ℤ) * E := by
  obtain ⟨l1, l2, h1, h2, rfl⟩ := hs
  have := comb_l2 hr hq hh (a := p.td.toList) (b := p.pd.toList) (by
    intro z hz
    obtain ⟨i, j, hi, hj, rfl⟩ := (mem_toList _).mp hz
    exact (hl i j hi hj).1) (by
    intro z hz
    obtain ⟨i, j, hi, hj, rfl⟩ := (mem_toList _).mp hz
    exact (hl i j (by omega) (by omega)).2) (p.td.rows * p.td.cols) (by rw [length_toList]) (by rw [length_toList, hsh.1, hsh.2]) hN h1 h2
  have e : ssq p.td.toList + ssq p.pd.toList =
      ∑ i ∈ Finset.range p.td.rows, ∑ j ∈ Finset.range p.td.cols, (fcAbs (p.td.at' i j) ^ 2 + fcAbs (p.pd.at' i j) ^ 2) := by
    unfold ssq
    rw [sum_toList, sum_toList, ← hsh.1, ← hsh.2, ← Finset.sum_add_distrib]
    exact Finset.sum_congr rfl fun i _ => by rw [← Finset.sum_add_distrib]
  rw [e, ← hE] at this
  exact this

/-- C111, `L2_coef` of a vector set, as written: within `(N + 12) 2^-52` of the square root of 2 times the norm of the first component. -/
theorem c111_l2_vcoef (hr : IsRounding rnd) (sq : ℝ → ℝ) (hq : IsSquare sq) (h : FC rnd → ℝ) (hh : IsHypot rnd h) (c : VectorCoefs (FC rnd))
    (hl : ∀ z ∈ c.scoef1.vec, InRange z) (hN : c.scoef1.vec.length ≤ 2 ^ 50) (s E : ℝ) (hs : FloatL2VC rnd sq h c s)
    (hE : E = Real.sqrt (2 * c.scoef1.power fcAbs)) : |s - E| ≤ (c.scoef1.vec.length + 12) * 2 ^ (-52 : ℤ) * E := by
  obtain ⟨l1, l2, h1, h2, rfl⟩ := hs
  have := comb_l2 hr hq hh hl hl c.scoef1.vec.length le_rfl le_rfl hN h1 h2
  rw [← two_mul] at this
  rw [hE]
  exact this

/-- C111, `LInf_coef` of a scalar set: off by at most one unit in the last place. -/
theorem c111_linf_coef (h : FC rnd → ℝ) (hh : IsHypot rnd h) (c : ScalarCoefs (FC rnd)) (hl : ∀ z ∈ c.vec, InRange z)
    (s E : ℝ) (hs : floatLInfSC h c = .ok s) (hE : IsPeak c.vec E) : |s - E| ≤ 2 ^ (-52 : ℤ) * E := by
  rw [two_uu]; exact (linf_list hh hl hs hE).2.2

/-- C111, `LInf_patt` of a scalar pattern. -/
theorem c111_linf_patt (h : FC rnd → ℝ) (hh : IsHypot rnd h) (p : SPatt (FC rnd)) (A : Arr2 (FC rnd)) (hA : p.dsphere = .ok A)
    (hl : ∀ i j, i < A.rows → j < A.cols → InRange (A.at' i j)) (s E : ℝ) (hs : floatLInfPatt h p = .ok s)
    (hE : (∃ i j, i < A.rows ∧ j < A.cols ∧ E = fcAbs (A.at' i j)) ∧ ∀ i j, i < A.rows → j < A.cols → fcAbs (A.at' i j) ≤ E) :
    |s - E| ≤ 2 ^ (-52 : ℤ) * E := by
  unfold floatLInfPatt at hs
  rw [hA] at hs
  rw [two_uu]
  refine (linf_list hh ?_ hs ⟨?_, ?_⟩).2.2
  · intro z hz
    obtain ⟨i, j, hi, hj, rfl⟩ := (mem_toList A).mp hz
    exact hl i j hi hj
  · obtain ⟨i, j, hi, hj, e⟩ := hE.1
    exact ⟨_, (mem_toList A).mpr ⟨i, j, hi, hj, rfl⟩, e⟩
  · intro z hz
    obtain ⟨i, j, hi, hj, rfl⟩ := (mem_toList A).mp hz
    exact hE.2 i j hi hj

theorem FN.linf_comb (hr : IsRounding rnd) {sq : ℝ → ℝ} (hq : IsSquare sq) {h : FC rnd → ℝ} (hh : IsHypot rnd h) {a b : List (FC rnd)}
    (ha : ∀ z ∈ a, InRange z) (hb : ∀ z ∈ b, InRange z) {s E1 E2 : ℝ}
    (hs : ((npMax (a.map h)).bind fun x => (npMax (b.map h)).bind fun y => .ok (floatComb rnd sq x y)) = .ok s) (h1 : IsPeak a E1) (h2 : IsPeak b E2) :
    |s - Real.sqrt (E1 ^ 2 + E2 ^ 2)| ≤ 5 * 2 ^ (-52 : ℤ) * Real.sqrt (E1 ^ 2 + E2 ^ 2) := by
  cases hx : npMax (a.map h) with
  | error e => rw [hx] at hs; cases hs
  | ok x =>
  cases hy : npMax (b.map h) with
  | error e => rw [hx, hy] at hs; cases hs
  | ok y =>
  rw [hx, hy] at hs
  cases hs
  obtain ⟨r1, p1, d1⟩ := linf_list hh ha hx h1
  obtain ⟨r2, p2, d2⟩ := linf_list hh hb hy h2
  have := comb_bound hr hq r1 r2 p1 p2 (by linarith [uu_pos]) (by linarith [uu_lt]) d1 d2
  refine le_trans this (le_of_eq ?_)
  rw [two_uu]; ring

/-- C111, `LInf_coef` of a vector set: the two largest magnitudes combined, within five units in the last place. -/
theorem c111_linf_vcoef (hr : IsRounding rnd) (sq : ℝ → ℝ) (hq : IsSquare sq) (h : FC rnd → ℝ) (hh : IsHypot rnd h) (c : VectorCoefs (FC rnd))
    (h1 : ∀ z ∈ c.scoef1.vec, InRange z) (h2 : ∀ z ∈ c.scoef2.vec, InRange z) (s E1 E2 : ℝ) (hs : floatLInfVC sq h c = .ok s)
    (hE1 : IsPeak c.scoef1.vec E1) (hE2 : IsPeak c.scoef2.vec E2) :
    |s - Real.sqrt (E1 ^ 2 + E2 ^ 2)| ≤ 5 * 2 ^ (-52 : ℤ) * Real.sqrt (E1 ^ 2 + E2 ^ 2) :=
  FN.linf_comb hr hq hh h1 h2 hs hE1 hE2

/-- C111, `LInf_patt` of a transverse pattern. -/
theorem c111_linf_tpatt (hr : IsRounding rnd) (sq : ℝ → ℝ) (hq : IsSquare sq) (h : FC rnd → ℝ) (hh : IsHypot rnd h) (p : TPatt (FC rnd))
    (h1 : ∀ z ∈ p.td.toList, InRange z) (h2 : ∀ z ∈ p.pd.toList, InRange z) (s E1 E2 : ℝ) (hs : floatLInfTPatt sq h p = .ok s)
    (hE1 : IsPeak p.td.toList E1) (hE2 : IsPeak p.pd.toList E2) :
    |s - Real.sqrt (E1 ^ 2 + E2 ^ 2)| ≤ 5 * 2 ^ (-52 : ℤ) * Real.sqrt (E1 ^ 2 + E2 ^ 2) :=
  FN.linf_comb hr hq hh h1 h2 hs hE1 hE2

end Verif.Props
