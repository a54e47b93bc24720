import Verif.Props.FloatYnm3
import Verif.Math.TableStab3
/-!
# Property C92: every entry of the harmonic tables is accurate in double precision
-/
namespace Verif.Props
open Verif
variable {rnd : ℝ → ℝ}

/-- Error of one rounding, without a lower limit on the argument. -/
theorem rnd_err (hr : IsRounding rnd) {x : ℝ} (hx : |x| ≤ 2 ^ (1022 : ℤ)) : |rnd x - x| ≤ uu * |x| + tiny / 2 := by
  have t0 := tiny_pos
  have u0 := uu_pos
  have big : (2 : ℝ) ^ (1022 : ℤ) ≤ 2 ^ 1023 := by
    rw [← zpow_natCast (2 : ℝ) 1023]; exact zpow_le_zpow_right₀ (by norm_num) (by norm_num)
  have key : ∀ x : ℝ, 0 ≤ x → x ≤ 2 ^ (1022 : ℤ) → |rnd x - x| ≤ uu * x + tiny / 2 := by
    intro x h0 h1
    by_cases hx : (2 : ℝ) ^ (-1022 : ℤ) ≤ x
    · have := rnd_rel hr hx h1
      linarith
    · rw [not_le] at hx
      have hb : |x| ≤ 2 ^ 1023 := by rw [abs_of_nonneg h0]; exact h1.trans big
      set z : ℤ := round (x / tiny) with hz
      have hd : |x / tiny - z| ≤ 1 / 2 := abs_sub_round _
      have hq : x / tiny < 2 ^ 52 := by
        rw [div_lt_iff₀ t0]
        refine lt_of_lt_of_le hx (le_of_eq ?_)
        unfold tiny
        rw [show (2 : ℝ) ^ 52 = 2 ^ (52 : ℤ) by norm_num, ← zpow_add₀ (by norm_num)]; norm_num
      have hq0 : 0 ≤ x / tiny := div_nonneg h0 t0.le
      have hzd : IsDouble (z * tiny) := by
        refine ⟨z, -1074, ?_, by norm_num, by norm_num, rfl⟩
        have h := abs_le.mp hd
        have z1 : (z : ℝ) < 2 ^ 53 := by norm_num at hq ⊢; linarith
        have z2 : (-(2 ^ 53) : ℝ) < z := by norm_num; linarith
        rw [abs_lt]
        constructor
        · exact_mod_cast z2
        · exact_mod_cast z1
      have hn := hr.nearest x hb _ hzd
      have : |x - z * tiny| ≤ tiny / 2 := by
        have e : x - z * tiny = (x / tiny - z) * tiny := by field_simp
        rw [e, abs_mul, abs_of_pos t0]
        calc |x / tiny - z| * tiny ≤ 1 / 2 * tiny := mul_le_mul_of_nonneg_right hd t0.le
          _ = tiny / 2 := by ring
      rw [abs_sub_comm]
      have := mul_nonneg u0.le h0
      linarith
  rcases le_total 0 x with h | h
  · rw [abs_of_nonneg h] at hx ⊢
    exact key x h hx
  · have := key (-x) (by linarith) (by rwa [abs_of_nonpos h] at hx)
    rw [hr.odd x (hx.trans big)] at this
    rw [abs_of_nonpos h, ← abs_neg, show -(rnd x - x) = -rnd x - -x by ring]
    exact this

/-- The leading coefficient of the recursion as an integer. -/
def leadInt (n m k : ℤ) : ℤ := bInt n (k + 1) + bInt n (k + 2) - 4 * m ^ 2

/-- The entries `n, n - 2, n - 4, …` that the rounded recursion computes, with exact integer coefficients. -/
noncomputable def wseq (rnd : ℝ → ℝ) (n m : ℤ) (top : ℝ) : ℕ → ℝ
  | 0 => top
  | 1 => rnd (rnd (leadInt n m (n - 2) * wseq rnd n m top 0) / bInt n (n - 2))
  | i + 2 => rnd (rnd (rnd (leadInt n m (n - 2 * (i + 2)) * wseq rnd n m top (i + 1)) -
      rnd (bInt n (n - 2 * (i + 2) + 3) * wseq rnd n m top i)) / bInt n (n - 2 * (i + 2)))

theorem tmp4_eq (hr : IsRounding rnd) {n k : ℤ} (hn : 0 ≤ n ∧ n ≤ 2 ^ 20) (hk : 0 ≤ k ∧ k ≤ n) : Fl.tmp4 rnd n k = (bInt n k : ℤ) := by
  unfold Fl.tmp4
  rw [ofInt_eq hr (z := n - k) (abs_lt.mpr (by constructor <;> omega)), ofInt_eq hr (z := n + k) (abs_lt.mpr (by constructor <;> omega)),
    rnd_int hr (x := ((n + k : ℤ) : ℝ) + 1) (n + k + 1) (by push_cast; ring) (abs_lt.mpr (by constructor <;> omega)),
    rnd_int hr (bInt n k) (by unfold bInt; push_cast; ring) (lt_of_le_of_lt (bInt_small hn (by omega)) (by norm_num))]

/-- State of the array after `c` steps of the recursion. -/
def WInv (n : ℕ) (L : ℕ) (w : ℕ → ℝ) (c : ℕ) (out : List ℝ) : Prop :=
  out.length = L ∧ ∀ j : ℕ, out.getD j 0 = if j ≤ n ∧ (n - j) % 2 = 0 ∧ (n - j) / 2 ≤ c then w ((n - j) / 2) else 0

theorem WInv.set {n L : ℕ} {w : ℕ → ℝ} {c : ℕ} {out : List ℝ} (h : WInv n L w c out) (hL : n < L) (hc : 2 * (c + 1) ≤ n) :
    setIdx out ((n : ℤ) - 2 * ((c + 1 : ℕ) : ℤ)) (w (c + 1)) = .ok (out.set (n - 2 * (c + 1)) (w (c + 1))) ∧
      WInv n L w (c + 1) (out.set (n - 2 * (c + 1)) (w (c + 1))) := by
  obtain ⟨hl, hv⟩ := h
  refine ⟨?_, by simpa using hl, fun j => ?_⟩
  · rw [setIdx_of_lt (by omega) (by omega)]
    congr 2
    omega
  · by_cases e : j = n - 2 * (c + 1)
    · subst e
      rw [List.getD_eq_getElem?_getD, List.getElem?_set_self (by omega), Option.getD_some, if_pos (by omega)]
      congr 1; omega
    · rw [List.getD_eq_getElem?_getD, List.getElem?_set_ne (by omega), ← List.getD_eq_getElem?_getD, hv]
      refine if_congr (by omega) rfl rfl

theorem WInv.get {n L : ℕ} {w : ℕ → ℝ} {c : ℕ} {out : List ℝ} (h : WInv n L w c out) (hL : n < L) {i : ℕ} (hi : i ≤ c) (hc : 2 * i ≤ n) (k : ℤ)
    (hk : k = n - 2 * i) : getIdx out k = .ok (w i) := by
  obtain ⟨hl, hv⟩ := h
  rw [getIdx_getD (by omega) (by omega), hv, if_pos (by omega)]
  congr 2; omega

theorem table_loop (hr : IsRounding rnd) (n : ℕ) (m : ℤ) (L : ℕ) (hL : n < L) (hm : |m| ≤ n) (hn : n ≤ 2 ^ 20) (c : ℕ) (hc : 2 * c ≤ n) (hc1 : 1 ≤ c)
    (out : List ℝ) (h : WInv n L (wseq rnd n m (Fl.ynnm rnd n m)) 1 out) :
    ∃ out', forM' ((List.range (c - 1)).map (fun (k : Nat) => ((n : Int) - 4) - 2 * (k : Int))) out (Fl.ynunmStep rnd n m)
      = .ok out' ∧ WInv n L (wseq rnd n m (Fl.ynnm rnd n m)) c out' := by
  induction c with
  | zero => omega
  | succ c ih =>
    by_cases hc0 : c = 0
    · subst hc0
      exact ⟨out, rfl, h⟩
    · obtain ⟨o1, e1, i1⟩ := ih (by omega) (by omega)
      rw [show c + 1 - 1 = (c - 1) + 1 by omega, List.range_succ, List.map_append, forM'_append, e1]
      simp only [List.map_cons, List.map_nil, Except.bind_ok, forM']
      have ek : ((n : Int) - 4) - 2 * ((c - 1 : ℕ) : Int) = (n : Int) - 2 * ((c + 1 : ℕ) : Int) := by omega
      rw [ek]
      obtain ⟨s1, s2⟩ := i1.set hL (by omega)
      refine ⟨_, ?_, s2⟩
      unfold Fl.ynunmStep
      rw [i1.get hL (i := c) le_rfl (by omega) _ (by push_cast; ring), i1.get hL (i := c - 1) (by omega) (by omega) _ (by omega)]
      simp only [Except.bind_ok]
      have hnb : 0 ≤ (n : ℤ) ∧ (n : ℤ) ≤ 2 ^ 20 := by omega
      have t3 := tmp_eq hr hnb (k := (n : Int) - 2 * ((c + 1 : ℕ) : Int)) (by omega) 3 (by norm_num)
      norm_num at t3
      obtain ⟨d, rfl⟩ : ∃ d, c = d + 1 := ⟨c - 1, by omega⟩
      have := (lead_eq hr hnb (k := (n : Int) - 2 * ((d + 1 + 1 : ℕ) : Int)) (by omega) hm).1
      rw [this, tmp4_eq hr hnb (by omega)]
      push_cast at t3 s1 ⊢
      rw [t3]
      have e : wseq rnd n m (Fl.ynnm rnd n m) (d + 1 + 1) = rnd (rnd (rnd (leadInt n m (n - 2 * (d + 2)) * wseq rnd n m (Fl.ynnm rnd n m) (d + 1)) -
        rnd (bInt n (n - 2 * (d + 2) + 3) * wseq rnd n m (Fl.ynnm rnd n m) d)) / bInt n (n - 2 * (d + 2))) := by
        rw [wseq]
      unfold leadInt at e
      push_cast at e
      rw [e] at s1 ⊢
      simp only [show (d : ℤ) + 1 + 1 = d + 2 by ring] at s1 ⊢
      rw [s1]
      rfl

/-- The array that `ynunm` returns, entry by entry. -/
theorem table_seq (hr : IsRounding rnd) (n : ℕ) (m : ℤ) (L : ℕ) (hL : n < L) (hm : |m| ≤ n) (hn : n ≤ 2 ^ 20) :
    ∃ out, Fl.ynunm rnd n m L = .ok out ∧ out.length = L ∧ ∀ j : ℕ, out.getD j 0 =
      if j ≤ n ∧ (n - j) % 2 = 0 then wseq rnd n m (Fl.ynnm rnd n m) ((n - j) / 2) else 0 := by
  suffices hs : ∃ y, Fl.ynunm rnd n m L = .ok y ∧ WInv n L (wseq rnd n m (Fl.ynnm rnd n m)) (n / 2) y by
    obtain ⟨y, h1, h2, h3⟩ := hs
    refine ⟨y, h1, h2, fun j => (h3 j).trans (if_congr (by omega) rfl rfl)⟩
  unfold Fl.ynunm npFull
  rw [if_neg (by omega)]
  simp only [Except.bind_ok, Int.toNat_natCast]
  rw [if_pos hm, setIdx_of_lt (by omega) (by simp; omega)]
  simp only [Except.bind_ok, Int.toNat_natCast]
  have i1 : WInv n L (wseq rnd n m (Fl.ynnm rnd n m)) 0 ((List.replicate L (0 : ℝ)).set n (Fl.ynnm rnd n m)) := by
    refine ⟨by simp, fun j => ?_⟩
    by_cases e : j = n
    · subst e
      rw [List.getD_eq_getElem?_getD, List.getElem?_set_self (by simpa using hL), Option.getD_some, if_pos (by omega)]
      simp [wseq]
    · rw [List.getD_eq_getElem?_getD, List.getElem?_set_ne (by omega), if_neg (by omega), List.getElem?_replicate]
      split <;> rfl
  have hnb : 0 ≤ (n : ℤ) ∧ (n : ℤ) ≤ 2 ^ 20 := by omega
  by_cases h2 : (n : Int) - 2 ≥ 0
  · rw [if_pos h2, i1.get hL (i := 0) le_rfl (by omega) _ (by push_cast; ring)]
    simp only [Except.bind_ok]
    obtain ⟨s1, s2⟩ := i1.set hL (by omega)
    have e3 : pyRangeNeg ((n : Int) - 4) (-1) 2 =
        (List.range (n / 2 - 1)).map (fun (k : Nat) => ((n : Int) - 4) - 2 * (k : Int)) := by
      unfold pyRangeNeg
      rw [show (((n : Int) - 4 - (-1) + 2 - 1) / 2).toNat = n / 2 - 1 by omega]
    obtain ⟨y, ey, iy⟩ := table_loop hr n m L hL hm hn (n / 2) (by omega) (by omega) _ s2
    refine ⟨y, ?_, iy⟩
    rw [e3, (lead_eq hr hnb (k := (n : Int) - 2) (by omega) hm).1, tmp4_eq hr hnb (by omega)]
    have e : wseq rnd n m (Fl.ynnm rnd n m) (0 + 1) = rnd (rnd (leadInt n m (n - 2) * wseq rnd n m (Fl.ynnm rnd n m) 0) / bInt n (n - 2)) := rfl
    unfold leadInt at e
    rw [e] at s1 ey
    norm_num at s1 ey ⊢
    rw [s1]
    exact ey
  · rw [if_neg h2]
    refine ⟨_, rfl, ?_⟩
    rwa [show n / 2 = 0 by omega]

end Verif.Props
