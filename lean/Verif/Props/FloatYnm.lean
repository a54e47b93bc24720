import Verif.FloatYnm
import Verif.CSphiY
import Verif.Props.FloatPower
/-!
# Properties C86, C87: the tables of the spherical harmonics in double precision
-/
namespace Verif.Props
open Verif
variable {rnd : ℝ → ℝ}

theorem isDouble_int {z : ℤ} (h : |z| < 2 ^ 53) : IsDouble (z : ℝ) := ⟨z, 0, h, by norm_num, by norm_num, by simp⟩

theorem int_small {z : ℤ} (h : |z| < 2 ^ 53) : |(z : ℝ)| ≤ 2 ^ 1023 := by
  have h1 : ((|z| : ℤ) : ℝ) ≤ ((2 ^ 53 : ℤ) : ℝ) := by exact_mod_cast h.le
  rw [Int.cast_abs] at h1
  refine le_trans h1 ?_
  have : (2 : ℝ) ^ 53 ≤ 2 ^ 1023 := pow_le_pow_right₀ (by norm_num) (by norm_num)
  refine le_trans (le_of_eq ?_) this
  norm_num

theorem rnd_int (hr : IsRounding rnd) {x : ℝ} (z : ℤ) (hx : x = z) (h : |z| < 2 ^ 53) : rnd x = z := by
  rw [hx]; exact rnd_double hr (isDouble_int h) (int_small h)

theorem ofInt_eq (hr : IsRounding rnd) {z : ℤ} (h : |z| < 2 ^ 53) : Fl.ofInt rnd z = z := rnd_int hr z rfl h

/-- `B(n, v)`. -/
def bInt (n v : ℤ) : ℤ := (n - v) * (n + v + 1)

theorem abs_mul_lt {a b : ℤ} (ha : |a| ≤ 2 ^ 22) (hb : |b| ≤ 2 ^ 22) : |a * b| ≤ 2 ^ 44 := by
  rw [abs_mul]
  calc |a| * |b| ≤ 2 ^ 22 * 2 ^ 22 := mul_le_mul ha hb (abs_nonneg _) (by norm_num)
    _ = 2 ^ 44 := by norm_num

variable {n m k : ℤ}

theorem bInt_small (hn : 0 ≤ n ∧ n ≤ 2 ^ 20) (hk : 0 ≤ k ∧ k ≤ n + 8) : |bInt n k| ≤ 2 ^ 44 :=
  abs_mul_lt (abs_le.mpr (by constructor <;> omega)) (abs_le.mpr (by constructor <;> omega))

theorem tmp_eq (hr : IsRounding rnd) (hn : 0 ≤ n ∧ n ≤ 2 ^ 20) (hk : 0 ≤ k ∧ k ≤ n) (c : ℤ) (hc : 0 ≤ c ∧ c ≤ 8) :
    Fl.tmp rnd n k c (c + 1) = (bInt n (k + c) : ℤ) := by
  unfold Fl.tmp
  rw [ofInt_eq hr (z := n - k) (abs_lt.mpr (by constructor <;> omega)), ofInt_eq hr (z := n + k) (abs_lt.mpr (by constructor <;> omega)),
    rnd_int hr (x := ((n - k : ℤ) : ℝ) - c) (n - k - c) (by push_cast; ring) (abs_lt.mpr (by constructor <;> omega)),
    rnd_int hr (x := ((n + k : ℤ) : ℝ) + (c + 1)) (n + k + c + 1) (by push_cast; ring) (abs_lt.mpr (by constructor <;> omega)),
    rnd_int hr (bInt n (k + c)) (by unfold bInt; push_cast; ring) (lt_of_le_of_lt (bInt_small hn (by omega)) (by norm_num))]

theorem cBd_eq (hr : IsRounding rnd) (hn : 0 ≤ n ∧ n ≤ 2 ^ 20) (hk : 0 ≤ k ∧ k ≤ n) (c : ℤ) (hc : 0 ≤ c ∧ c ≤ 8) :
    Fl.cBd rnd n k c = (bInt n (k + c) : ℤ) := by
  unfold Fl.cBd
  rw [ofInt_eq hr (z := n) (abs_lt.mpr (by constructor <;> omega)), ofInt_eq hr (z := k) (abs_lt.mpr (by constructor <;> omega)),
    rnd_int hr (x := (k : ℝ) + c) (k + c) (by push_cast; ring) (abs_lt.mpr (by constructor <;> omega)),
    rnd_int hr (x := (n : ℝ) - ((k + c : ℤ) : ℝ)) (n - k - c) (by push_cast; ring) (abs_lt.mpr (by constructor <;> omega)),
    rnd_int hr (x := (n : ℝ) + ((k + c : ℤ) : ℝ)) (n + k + c) (by push_cast; ring) (abs_lt.mpr (by constructor <;> omega)),
    rnd_int hr (x := ((n + k + c : ℤ) : ℝ) + 1) (n + k + c + 1) (by push_cast; ring) (abs_lt.mpr (by constructor <;> omega)),
    rnd_int hr (bInt n (k + c)) (by unfold bInt; push_cast; ring) (lt_of_le_of_lt (bInt_small hn (by omega)) (by norm_num))]

theorem lead_eq (hr : IsRounding rnd) (hn : 0 ≤ n ∧ n ≤ 2 ^ 20) (hk : 0 ≤ k ∧ k ≤ n) (hm : |m| ≤ n) :
    rnd (Fl.tmp rnd n k 1 2 + Fl.tmp2 rnd n m k) = ((bInt n (k + 1) + bInt n (k + 2) - 4 * m ^ 2 : ℤ) : ℝ) ∧
      Fl.cLead rnd n m k = ((bInt n (k + 1) + bInt n (k + 2) - 4 * m ^ 2 : ℤ) : ℝ) := by
  have b1 := abs_le.mp (bInt_small (k := k + 1) hn (by omega))
  have b2 := abs_le.mp (bInt_small (k := k + 2) hn (by omega))
  have hm' := abs_le.mp hm
  have hmm : |m * m| ≤ 2 ^ 44 := abs_mul_lt (abs_le.mpr (by constructor <;> omega)) (abs_le.mpr (by constructor <;> omega))
  have hmm' := abs_le.mp hmm
  have hsq : m ^ 2 = m * m := sq m
  have t1 := tmp_eq hr hn hk 1 (by norm_num)
  have t2 := tmp_eq hr hn hk 2 (by norm_num)
  have c1 := cBd_eq hr hn hk 1 (by norm_num)
  have c2 := cBd_eq hr hn hk 2 (by norm_num)
  norm_num at t1 t2 c1 c2
  constructor
  · unfold Fl.tmp2
    rw [t1, t2, ofInt_eq hr (z := m ^ 2) (abs_lt.mpr (by rw [hsq]; constructor <;> omega)),
      rnd_int hr (x := 4 * ((m ^ 2 : ℤ) : ℝ)) (4 * m ^ 2) (by push_cast; ring) (abs_lt.mpr (by rw [hsq]; constructor <;> omega)),
      rnd_int hr (x := (bInt n (k + 2) : ℝ) - ((4 * m ^ 2 : ℤ) : ℝ)) (bInt n (k + 2) - 4 * m ^ 2) (by push_cast; ring)
        (abs_lt.mpr (by rw [hsq]; constructor <;> omega)),
      rnd_int hr (bInt n (k + 1) + bInt n (k + 2) - 4 * m ^ 2) (by push_cast; ring) (abs_lt.mpr (by rw [hsq]; constructor <;> omega))]
  · unfold Fl.cLead
    rw [c1, c2, ofInt_eq hr (z := m) (abs_lt.mpr (by constructor <;> omega)),
      rnd_int hr (x := 4 * (m : ℝ)) (4 * m) (by push_cast; ring) (abs_lt.mpr (by constructor <;> omega)),
      rnd_int hr (x := ((4 * m : ℤ) : ℝ) * m) (4 * m ^ 2) (by push_cast; ring) (abs_lt.mpr (by rw [hsq]; constructor <;> omega)),
      rnd_int hr (x := (bInt n (k + 1) : ℝ) + bInt n (k + 2)) (bInt n (k + 1) + bInt n (k + 2)) (by push_cast; ring)
        (abs_lt.mpr (by constructor <;> omega)),
      rnd_int hr (bInt n (k + 1) + bInt n (k + 2) - 4 * m ^ 2) (by push_cast; ring) (abs_lt.mpr (by rw [hsq]; constructor <;> omega))]

theorem tmp3_eq (hr : IsRounding rnd) (hn : 0 ≤ n ∧ n ≤ 2 ^ 20) (hk : 0 ≤ k ∧ k ≤ n) : Fl.cBd rnd n k 3 = Fl.tmp rnd n k 3 4 := by
  have t := tmp_eq hr hn hk 3 (by norm_num)
  have c := cBd_eq hr hn hk 3 (by norm_num)
  norm_num at t c
  rw [t, c]

theorem fac1_arg (hr : IsRounding rnd) (hk : 1 ≤ k ∧ k ≤ 2 ^ 20) :
    Fl.fac1 rnd k = rnd (Real.sqrt (rnd ((2 * k + 1) / (8 * k)))) ∧ Fl.cFac1 rnd k = rnd (Real.sqrt (rnd ((2 * k + 1) / (8 * k)))) := by
  have d8 : rnd (((2 * k + 1 : ℤ) : ℝ) / 8) = (2 * k + 1) / 8 := by
    rw [rnd_double hr ⟨2 * k + 1, -3, abs_lt.mpr (by constructor <;> omega), by norm_num, by norm_num, by norm_num; ring⟩]
    · push_cast; ring
    · rw [abs_div]
      refine le_trans (div_le_self (abs_nonneg _) (by norm_num)) (int_small (abs_lt.mpr (by constructor <;> omega)))
  constructor
  · unfold Fl.fac1
    rw [ofInt_eq hr (z := k) (abs_lt.mpr (by constructor <;> omega)),
      rnd_int hr (x := 2 * (k : ℝ)) (2 * k) (by push_cast; ring) (abs_lt.mpr (by constructor <;> omega)),
      rnd_int hr (x := ((2 * k : ℤ) : ℝ) + 1) (2 * k + 1) (by push_cast; ring) (abs_lt.mpr (by constructor <;> omega)), d8, div_div]
  · unfold Fl.cFac1
    rw [ofInt_eq hr (z := k) (abs_lt.mpr (by constructor <;> omega)),
      rnd_int hr (x := 2 * (k : ℝ)) (2 * k) (by push_cast; ring) (abs_lt.mpr (by constructor <;> omega)),
      rnd_int hr (x := ((2 * k : ℤ) : ℝ) + 1) (2 * k + 1) (by push_cast; ring) (abs_lt.mpr (by constructor <;> omega)),
      rnd_int hr (x := 8 * (k : ℝ)) (8 * k) (by push_cast; ring) (abs_lt.mpr (by constructor <;> omega))]
    push_cast; rfl

theorem fac2_arg (hr : IsRounding rnd) (hn : 0 ≤ n ∧ n ≤ 2 ^ 20) (hk : 0 ≤ k ∧ k ≤ n) :
    Fl.fac2 rnd n k = rnd (Real.sqrt (rnd ((n + k + 1) / (n - k)))) ∧ Fl.cFac2 rnd n k = rnd (Real.sqrt (rnd ((n + k + 1) / (n - k)))) := by
  have e1 : rnd (Fl.ofInt rnd (n + k) + 1) = ((n + k + 1 : ℤ) : ℝ) := by
    rw [ofInt_eq hr (z := n + k) (abs_lt.mpr (by constructor <;> omega)),
      rnd_int hr (x := ((n + k : ℤ) : ℝ) + 1) (n + k + 1) (by push_cast; ring) (abs_lt.mpr (by constructor <;> omega))]
  have e2 : Fl.ofInt rnd (n - k) = ((n - k : ℤ) : ℝ) := ofInt_eq hr (abs_lt.mpr (by constructor <;> omega))
  constructor
  · unfold Fl.fac2
    rw [e1, e2]; push_cast; rfl
  · unfold Fl.cFac2
    rw [e1, e2, one_mul, rnd_int hr (n + k + 1) rfl (abs_lt.mpr (by constructor <;> omega))]; push_cast; rfl

theorem foldl_congr' {α β : Type} (l : List β) (f g : α → β → α) (a : α) (h : ∀ x ∈ l, ∀ o, f o x = g o x) : l.foldl f a = l.foldl g a := by
  induction l generalizing a with
  | nil => rfl
  | cons x l ih =>
    rw [List.foldl_cons, List.foldl_cons, h x (by simp)]
    exact ih _ fun y hy => h y (by simp [hy])

theorem mem_neg {a b : Int} (h : k ∈ pyRangeNeg a b 1) : b < k ∧ k ≤ a := by
  unfold pyRangeNeg at h
  simp only [List.mem_map, List.mem_range] at h
  obtain ⟨j, hj, rfl⟩ := h
  omega

/-- C87: the C function `ynnm` returns the same double as the Python function. -/
theorem c87_ynnm (hr : IsRounding rnd) (n m : ℤ) (hn : n ≤ 2 ^ 20) : Fl.cYnnm rnd n m = Fl.ynnm rnd n m := by
  unfold Fl.cYnnm Fl.ynnm
  by_cases h1 : n < |m|
  · rw [if_pos h1, if_pos h1]
  by_cases h2 : n = 0
  · rw [if_neg h1, if_neg h1, if_pos h2, if_pos h2]
  have hm0 := abs_nonneg m
  rw [if_neg h1, if_neg h1, if_neg h2, if_neg h2]
  have e1 : (pyRange 1 (n + 1)).foldl (fun (o : ℝ) (k : Int) => rnd (Fl.cFac1 rnd k * o)) (Fl.a rnd) =
      (pyRange 1 (n + 1)).foldl (fun (o : ℝ) (k : Int) => rnd (o * Fl.fac1 rnd k)) (Fl.a rnd) := by
    refine foldl_congr' _ _ _ _ fun k hk o => ?_
    rw [mem_pyRange] at hk
    have := fac1_arg hr (k := k) (by omega)
    rw [this.1, this.2, mul_comm]
  simp only [e1]
  by_cases h3 : n ≠ |m|
  · rw [if_pos h3, if_pos h3]
    refine foldl_congr' _ _ _ _ fun k hk o => ?_
    have hk' := mem_neg hk
    have := fac2_arg hr (n := n) (k := k) (by omega) (by omega)
    rw [this.1, this.2, mul_comm]
  · rw [if_neg h3, if_neg h3]

/-- C87: on a work array of the declared length, the C function `ynunm` leaves the same doubles as the Python function returns, bit for bit. -/
theorem c87_backends (hr : IsRounding rnd) (n : ℕ) (m : ℤ) (y : List ℝ) (len : ℕ) (hn : n < len) (hy : y.length = len) (hb : n ≤ 2 ^ 20) :
    Fl.cYnunm rnd n m y len = Fl.ynunm rnd n m len := by
  unfold Fl.cYnunm Fl.ynunm npFull
  rw [if_neg (by omega)]
  rw [fill_ok y len (by omega) _ (fun _ => 0) (by
    intro k l' hk hl _
    exact cSet_ok (by omega))]
  simp only [Except.bind_ok]
  have e0 : (tab y.length fun i => if i < len then (0 : ℝ) else rd y i) = List.replicate (len : Int).toNat 0 := by
    refine list_ext_rd (by simp [hy]) fun i hi => ?_
    rw [length_tab] at hi
    rw [rd_tab hi, if_pos (by omega), rd_replicate_zero]
  rw [e0]
  have hnb : 0 ≤ (n : ℤ) ∧ (n : ℤ) ≤ 2 ^ 20 := by omega
  by_cases hm : |m| ≤ (n : Int)
  · rw [if_pos hm, if_pos hm, c87_ynnm hr _ _ hnb.2, cSet_eq_setIdx _ _ _ (by omega) (by simp; omega)]
    match h1 : setIdx (List.replicate (len : Int).toNat (0 : ℝ)) (n : Int) (Fl.ynnm rnd n m) with
    | .error e => rfl
    | .ok y1 =>
      have l1 : y1.length = len := by rw [setIdx_length h1]; simp
      simp only [Except.bind_ok]
      by_cases hk : (n : Int) - 2 ≥ 0
      · rw [if_pos hk, if_pos hk, cGet_eq_getIdx _ _ (by omega) (by omega)]
        match getIdx y1 ((n : Int) - 2 + 2) with
        | .error e => rfl
        | .ok y2 =>
          simp only [Except.bind_ok]
          have el := lead_eq hr hnb (k := (n : ℤ) - 2) (by omega) hm
          rw [cSet_eq_setIdx _ _ _ (by omega) (by omega), el.1, el.2]
          change (setIdx y1 ((n : Int) - 2) _).bind _ = (setIdx y1 ((n : Int) - 2) _).bind _
          rw [show Fl.cBi rnd n (n - 2) = Fl.tmp4 rnd n (n - 2) from rfl]
          match h3 : setIdx y1 ((n : Int) - 2) _ with
          | .error e => rfl
          | .ok y3 =>
            have l3 : y3.length = len := by rw [setIdx_length h3, l1]
            simp only [Except.bind_ok]
            rw [show (n : Int) - 2 - 2 = n - 4 by ring]
            refine forM'_congr (fun y => y.length = len) _ _ _ _ l3 ?_ ?_
            · intro k hk' y hyl
              have hkr : 0 ≤ k ∧ k ≤ (n : Int) - 4 := by
                unfold pyRangeNeg at hk'
                simp only [List.mem_map, List.mem_range] at hk'
                obtain ⟨j, hj, rfl⟩ := hk'
                omega
              unfold Fl.cYnunmStep Fl.ynunmStep
              have el := lead_eq hr hnb (k := k) (by omega) hm
              rw [cGet_eq_getIdx _ _ (by omega) (by omega), cGet_eq_getIdx _ _ (by omega) (by omega), el.1, el.2,
                tmp3_eq hr hnb (by omega)]
              congr 1
              funext o2
              congr 1
              funext o4
              rw [cSet_eq_setIdx _ _ _ (by omega) (by omega)]
              rfl
            · intro k hk' s s' hs e
              unfold Fl.ynunmStep at e
              match hg1 : getIdx s (k + 2), hg2 : getIdx s (k + 4) with
              | .error e', _ => rw [hg1] at e; simp at e
              | .ok a, .error e' => rw [hg1, hg2] at e; simp at e
              | .ok a, .ok b =>
                rw [hg1, hg2] at e
                simp only [Except.bind_ok] at e
                rw [setIdx_length e, hs]
      · rw [if_neg hk, if_neg hk]
  · rw [if_neg hm, if_neg hm]

end Verif.Props
