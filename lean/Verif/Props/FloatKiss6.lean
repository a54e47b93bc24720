import Verif.Props.FloatKiss5
import Mathlib.Data.Nat.Factors
/-!
# kiss_fft in doubles: the radices chosen by `kf_factor` and the twiddle table
-/
namespace Verif.Props
open Verif Finset

variable {rnd : ℝ → ℝ}

namespace FK

/-- What is known about the remaining number `n` when `kf_factor` tries `p`. -/
def Tried (n p : ℕ) : Prop := p = 4 ∨ p = 2 ∨ (3 ≤ p ∧ p % 2 = 1 ∧ ∀ t : ℕ, t.Prime → t ∣ n → p ≤ t)

theorem prime_of_tried {n p : ℕ} (hd : p ∣ n) (h : 3 ≤ p ∧ p % 2 = 1 ∧ ∀ t : ℕ, t.Prime → t ∣ n → p ≤ t) : p.Prime := by
  obtain ⟨h1, -, h3⟩ := h
  have h4 := h3 p.minFac (Nat.minFac_prime (by omega)) ((Nat.minFac_dvd p).trans hd)
  have h5 := Nat.minFac_le (n := p) (by omega)
  have : p.minFac = p := by omega
  rw [← this]
  exact Nat.minFac_prime (by omega)

theorem prime_of_skip {n fs p : ℕ} (hn : 2 ≤ n) (hfs : n < (fs + 1) ^ 2) (hp : fs < p) (h : ∀ t : ℕ, t.Prime → t ∣ n → p ≤ t) : n.Prime := by
  by_contra hc
  have h1 := Nat.minFac_sq_le_self (by omega) hc
  have h2 := h n.minFac (Nat.minFac_prime (by omega)) (Nat.minFac_dvd n)
  have : (fs + 1) ^ 2 ≤ n.minFac ^ 2 := Nat.pow_le_pow_left (by omega) 2
  omega

theorem kfNext_odd (n : ℕ) (hn : 2 ≤ n) (fs : ℕ) (hfs : n < (fs + 1) ^ 2) (p : ℕ) (h : 3 ≤ p ∧ p % 2 = 1 ∧ ∀ t : ℕ, t.Prime → t ∣ n → p ≤ t) :
    ∃ q : ℕ, kfNext n fs p = some (q : Int) ∧ q ∣ n ∧ (q = 4 ∨ q.Prime) ∧ (q = n ∨ Tried n q) := by
  obtain ⟨d, hd⟩ : ∃ d : ℕ, d = fs + 1 - p := ⟨_, rfl⟩
  induction d using Nat.strong_induction_on generalizing p with
  | _ d ih =>
    obtain ⟨h1, h2, h3⟩ := h
    by_cases hdv : (n : Int).tmod p = 0
    · have hdn : p ∣ n := by exact_mod_cast Int.dvd_of_tmod_eq_zero hdv
      exact ⟨p, by rw [kfNext, if_pos hdv], hdn, .inr (prime_of_tried hdn ⟨h1, h2, h3⟩), .inr (.inr (.inr ⟨h1, h2, h3⟩))⟩
    · have hnd : ¬ p ∣ n := fun hc => hdv (by
        have : (p : Int) ∣ n := by exact_mod_cast hc
        exact Int.tmod_eq_zero_of_dvd this)
      have h4 : ∀ t : ℕ, t.Prime → t ∣ n → p + 2 ≤ t := by
        intro t ht htn
        have h5 := h3 t ht htn
        rcases ht.eq_two_or_odd with e | e
        · omega
        · have : t ≠ p := fun e => hnd (e ▸ htn)
          omega
      rw [kfNext, if_neg hdv]
      simp only [show ¬ ((p : Int) = 4) by omega, show ¬ ((p : Int) = 2) by omega, if_false]
      by_cases hc : (p : Int) + 2 > fs
      · rw [if_pos hc]
        exact ⟨n, kfNext_self _ _, dvd_refl _, .inr (prime_of_skip hn hfs (p := p + 2) (by omega) h4), .inl rfl⟩
      · rw [if_neg hc]
        have := ih (fs + 1 - (p + 2)) (by omega) (p + 2) ⟨by omega, by omega, h4⟩ rfl
        exact_mod_cast this

theorem kfNext_prime (n : ℕ) (hn : 2 ≤ n) (fs : ℕ) (hfs : n < (fs + 1) ^ 2) (p : ℕ) (h : Tried n p) :
    ∃ q : ℕ, kfNext n fs p = some (q : Int) ∧ q ∣ n ∧ (q = 4 ∨ q.Prime) ∧ (q = n ∨ Tried n q) := by
  have h2 : ∃ q : ℕ, kfNext n fs 2 = some (q : Int) ∧ q ∣ n ∧ (q = 4 ∨ q.Prime) ∧ (q = n ∨ Tried n q) := by
    by_cases hdv : (n : Int).tmod 2 = 0
    · refine ⟨2, by rw [kfNext, if_pos hdv]; rfl, ?_, .inr Nat.prime_two, .inr (.inr (.inl rfl))⟩
      exact_mod_cast Int.dvd_of_tmod_eq_zero hdv
    · have hodd : n % 2 = 1 := by
        rcases Nat.mod_two_eq_zero_or_one n with e | e
        · exact absurd (Int.tmod_eq_zero_of_dvd (by omega)) hdv
        · exact e
      have h3 : ∀ t : ℕ, t.Prime → t ∣ n → 3 ≤ t := by
        intro t ht htn
        have := ht.two_le
        have : t ≠ 2 := by rintro rfl; omega
        omega
      rw [kfNext, if_neg hdv]
      simp only [show ¬ ((2 : Int) = 4) by omega, if_false, if_true]
      split
      · rename_i hc
        exact ⟨n, kfNext_self _ _, dvd_refl _, .inr (prime_of_skip hn hfs (p := 3) (by omega) h3), .inl rfl⟩
      · exact_mod_cast kfNext_odd n hn fs hfs 3 ⟨by omega, by omega, h3⟩
  rcases h with rfl | rfl | h
  · by_cases hdv : (n : Int).tmod (4 : ℕ) = 0
    · refine ⟨4, by rw [kfNext, if_pos hdv], ?_, .inl rfl, .inr (.inl rfl)⟩
      exact_mod_cast Int.dvd_of_tmod_eq_zero hdv
    · rw [kfNext, if_neg hdv]
      simp only [show (((4 : ℕ) : Int) = 4) by norm_num, if_true]
      split
      · rename_i hc
        refine ⟨n, kfNext_self _ _, dvd_refl _, .inr (prime_of_skip hn hfs (p := 2) (by omega) fun t ht _ => ht.two_le), .inl rfl⟩
      · exact h2
  · exact_mod_cast h2
  · exact kfNext_odd n hn fs hfs p h

/-- Rounding units of a transform of length `n`: `165 + 5 p` for every prime factor `p` of `n`, with multiplicity. -/
noncomputable def fftUnits (n : ℕ) : ℝ := (n.primeFactorsList.map fun p : ℕ => 165 + 5 * (p : ℝ)).sum

theorem units_mul {a b : ℕ} (ha : a ≠ 0) (hb : b ≠ 0) : fftUnits (a * b) = fftUnits a + fftUnits b := by
  unfold fftUnits
  rw [((Nat.perm_primeFactorsList_mul ha hb).map _).sum_eq, List.map_append, List.sum_append]

theorem units_prime {p : ℕ} (hp : p.Prime) : fftUnits p = 165 + 5 * (p : ℝ) := by
  unfold fftUnits
  rw [Nat.primeFactorsList_prime hp]; simp

theorem units_nonneg (n : ℕ) : 0 ≤ fftUnits n := by
  unfold fftUnits
  refine List.sum_nonneg fun x hx => ?_
  obtain ⟨p, -, rfl⟩ := List.mem_map.mp hx
  positivity

theorem units_radix {q : ℕ} (h : q = 4 ∨ q.Prime) : 165 + 5 * (q : ℝ) ≤ fftUnits q := by
  rcases h with rfl | h
  · have : fftUnits 4 = fftUnits 2 + fftUnits 2 := units_mul (a := 2) (b := 2) (by norm_num) (by norm_num)
    rw [this, units_prime Nat.prime_two]
    norm_num
  · rw [units_prime h]

theorem units_list_le : ∀ l : List ℕ, (∀ p ∈ l, 2 ≤ p) → (l.map fun p : ℕ => 165 + 5 * (p : ℝ)).sum ≤ 175 * ((l.prod : ℕ) : ℝ) - 175 ∧ 1 ≤ l.prod
  | [], _ => by simp
  | p :: l, h => by
    obtain ⟨h1, h2⟩ := units_list_le l fun q hq => h q (by simp [hq])
    have hp : 2 ≤ p := h p (by simp)
    have hp' : (2 : ℝ) ≤ p := by exact_mod_cast hp
    have h2' : (1 : ℝ) ≤ (l.prod : ℕ) := by exact_mod_cast h2
    refine ⟨?_, ?_⟩
    · rw [List.map_cons, List.sum_cons, List.prod_cons]
      push_cast at h1 h2' ⊢
      nlinarith
    · rw [List.prod_cons]; nlinarith

theorem units_le {n : ℕ} (hn : 1 ≤ n) : fftUnits n ≤ 175 * (n : ℝ) := by
  have h := (units_list_le n.primeFactorsList fun p hp => (Nat.prime_of_mem_primeFactorsList hp).two_le).1
  rw [Nat.prod_primeFactorsList (by omega)] at h
  unfold fftUnits
  linarith

theorem smooth_list : ∀ l : List ℕ, (∀ p ∈ l, 2 ≤ p ∧ p ≤ 5) → (l.map fun p : ℕ => 165 + 5 * (p : ℝ)).sum ≤ 190 * (l.length : ℝ) ∧ 2 ^ l.length ≤ l.prod
  | [], _ => by simp
  | p :: l, h => by
    obtain ⟨h1, h2⟩ := smooth_list l fun q hq => h q (by simp [hq])
    obtain ⟨hp, hp5⟩ := h p (by simp)
    have hp' : (p : ℝ) ≤ 5 := by exact_mod_cast hp5
    refine ⟨?_, ?_⟩
    · rw [List.map_cons, List.sum_cons, List.length_cons]
      push_cast
      linarith
    · rw [List.prod_cons, List.length_cons, pow_succ, mul_comm]; exact Nat.mul_le_mul hp h2

/-- For lengths with no prime factor above 5: at most 190 units per binary digit. -/
theorem units_smooth {n : ℕ} (hn : 1 ≤ n) (h : ∀ p : ℕ, p.Prime → p ∣ n → p ≤ 5) : fftUnits n ≤ 190 * (Nat.log 2 n : ℝ) := by
  obtain ⟨h1, h2⟩ := smooth_list n.primeFactorsList fun p hp =>
    ⟨(Nat.prime_of_mem_primeFactorsList hp).two_le, h p (Nat.prime_of_mem_primeFactorsList hp) (Nat.dvd_of_mem_primeFactorsList hp)⟩
  rw [Nat.prod_primeFactorsList (by omega)] at h2
  have h3 : n.primeFactorsList.length ≤ Nat.log 2 n := Nat.le_log_of_pow_le (by norm_num) h2
  have h4 : (n.primeFactorsList.length : ℝ) ≤ (Nat.log 2 n : ℝ) := by exact_mod_cast h3
  unfold fftUnits
  linarith

theorem loop_cost (n : ℕ) (hn : 2 ≤ n) (fs : ℕ) (hfs : n < (fs + 1) ^ 2) (p : ℕ) (h : Tried n p) (buf fac : List Int)
    (hb : buf.length + 2 * Nat.log 2 n ≤ 64) (e : kfFactorLoop n fs p buf = some (.ok (buf ++ fac))) : stageCost fac ≤ fftUnits n := by
  induction n using Nat.strong_induction_on generalizing p buf fac with
  | _ n ih =>
    obtain ⟨q, hq, ⟨k, hk⟩, hqp, hnext⟩ := kfNext_prime n hn fs hfs p h
    have hq2 : 2 ≤ q := by
      rcases hqp with h | h
      · omega
      · exact h.two_le
    have hkp : 1 ≤ k := by
      rcases Nat.eq_zero_or_pos k with h | h
      · subst h; omega
      · exact h
    rw [kfFactorLoop, hq] at e
    have hdiv : (n : Int).tdiv q = (k : Int) := by
      rw [hk]; push_cast
      rw [Int.mul_tdiv_cancel_left _ (by omega)]
    simp only [hdiv] at e
    split_ifs at e with c1 c2
    · simp [cUB] at e
    · have hk1 : k ≠ 1 := by omega
      have hlt : k < n := by rw [hk]; nlinarith
      have hT : Tried k q := by
        rcases hnext with rfl | h
        · have : q * k = q * 1 := by omega
          exact absurd (Nat.eq_of_mul_eq_mul_left (by omega) this) hk1
        · rcases h with h | h | ⟨h1, h2, h3⟩
          · exact .inl h
          · exact .inr (.inl h)
          · exact .inr (.inr ⟨h1, h2, fun t ht htk => h3 t ht (htk.trans ⟨q, by rw [hk]; ring⟩)⟩)
      have hbk : (buf ++ [(q : Int), (k : Int)]).length + 2 * Nat.log 2 k ≤ 64 := by
        have hlog2 : Nat.log 2 k + 1 ≤ Nat.log 2 n := by
          rw [← Nat.log_mul_base (by omega) (by omega)]
          exact Nat.log_mono_right (by rw [hk]; nlinarith)
        simp; omega
      have hpre : ∃ fac', fac = (q : Int) :: (k : Int) :: fac' := by
        have hcons : ∃ r, buf ++ fac = (buf ++ [(q : Int), (k : Int)]) ++ r := by
          obtain ⟨r, er, -, -⟩ := kfFactorLoop_spec k (by omega) fs q hq2 (buf ++ [(q : Int), (k : Int)]) hbk
          rw [er] at e
          exact ⟨r, by simpa using e.symm⟩
        obtain ⟨r, er⟩ := hcons
        rw [List.append_assoc] at er
        exact ⟨r, List.append_cancel_left er⟩
      obtain ⟨fac', rfl⟩ := hpre
      have := ih k hlt (by omega) (by nlinarith) q hT (buf ++ [(q : Int), (k : Int)]) fac' hbk (by rw [e]; simp)
      rw [stageCost, hk, units_mul (by omega) (by omega)]
      have := units_radix hqp
      push_cast
      linarith
    · have hk1 : k = 1 := by omega
      subst hk1
      have : fac = [(q : Int), ((1 : ℕ) : Int)] := by simpa using e.symm
      subst this
      have e0 : stageCost ([] : List Int) = 0 := by unfold stageCost; rfl
      rw [stageCost, e0, hk, mul_one]
      have := units_radix hqp
      push_cast
      linarith

/-- The radices `kf_factor` chooses. -/
theorem kfFactor_cost (n : ℕ) (hn : 2 ≤ n) (hn2 : n < 2 ^ 32) :
    ∃ fac, kfFactor n = some (.ok fac) ∧ Stages n fac ∧ stageCost fac ≤ fftUnits n := by
  have hlog : Nat.log 2 n < 32 := Nat.log_lt_of_lt_pow (by omega) hn2
  obtain ⟨fac, e, hs, -⟩ := kfFactorLoop_spec n hn (Nat.sqrt n) 4 (by omega) [] (by simp; omega)
  have hc := loop_cost n hn (Nat.sqrt n) (by rw [sq]; exact Nat.lt_succ_sqrt n) 4 (.inl rfl) [] fac (by simp; omega) e
  exact ⟨fac, by unfold kfFactor; rw [Int.toNat_natCast]; exact e, hs, hc⟩

end FK

/-- The C library computes `cos` and `sin` to 2 units (one ulp of 1) on `[-7, 7]`. -/
structure LibMWithin (lm : Fl.LibM) : Prop where
  cos : ∀ x : ℝ, |x| ≤ 7 → |lm.cos x - Real.cos x| ≤ 2 * uu
  sin : ∀ x : ℝ, |x| ≤ 7 → |lm.sin x - Real.sin x| ≤ 2 * uu

namespace FK

theorem tiny_le_uu : tiny ≤ uu / 1000 := by
  have := FA.tiny_Q (C := 1) (R := 1) (by
    rw [show (1 : ℝ) = 2 ^ (0 : ℤ) by simp]
    exact zpow_le_zpow_right₀ (by norm_num) (by norm_num)) (by norm_num)
  linarith

theorem small_le {x : ℝ} (h : |x| ≤ 2 ^ 40) : |x| ≤ 2 ^ (1022 : ℤ) := by
  refine h.trans ?_
  rw [← zpow_natCast]
  exact zpow_le_zpow_right₀ (by norm_num) (by norm_num)

theorem kissPi_err (hr : IsRounding rnd) : |Fl.kissPi rnd - Real.pi| ≤ 3.15 * uu := by
  have u0 := uu_pos
  have t := tiny_le_uu
  have p1 := Real.pi_gt_d20
  have p2 := Real.pi_lt_d20
  have hu : 1 / 10 ^ 19 ≤ uu / 1000 := by
    unfold uu
    rw [show (2 : ℝ) ^ (-53 : ℤ) = 1 / 2 ^ 53 by rw [zpow_neg]; norm_num]
    norm_num
  obtain ⟨L, hL⟩ : ∃ L : ℝ, L = 3141592653589793238462643383279502884197169399375105820974944 / 10 ^ 60 := ⟨_, rfl⟩
  have l1 : 3.14159265358979323846 ≤ L := by rw [hL]; norm_num
  have l2 : L ≤ 3.14159265358979323847 := by rw [hL]; norm_num
  have e := rnd_err hr (x := L) (small_le (by rw [abs_le]; constructor <;> norm_num <;> linarith))
  unfold Fl.kissPi
  rw [← hL]
  rw [abs_of_pos (a := L) (by linarith)] at e
  have h2 : |L - Real.pi| ≤ uu / 1000 := by
    rw [abs_le]; constructor <;> linarith
  have h3 : |rnd L - Real.pi| ≤ |rnd L - L| + |L - Real.pi| := by
    have := abs_add_le (rnd L - L) (L - Real.pi)
    rwa [sub_add_sub_cancel] at this
  have h4 : uu * L ≤ uu * 3.142 := mul_le_mul_of_nonneg_left (by linarith) u0.le
  linarith

/-- One rounded operation: `y` approximates `x` to `e` units, so does `rnd y` to `|x| (1+..) + e` units. -/
theorem rnd_step (hr : IsRounding rnd) {x y e b : ℝ} (he : |y - x| ≤ e * uu) (hx : |x| ≤ b) (hb : b ≤ 2 ^ 39) (he0 : e ≤ 2 ^ 38) :
    |rnd y - x| ≤ (e * (1 + uu) + b + 1 / 1000) * uu := by
  have u0 := uu_pos
  have u1 := uu_le16
  have t := tiny_le_uu
  have hy : |y| ≤ b + e * uu := by
    have := abs_add_le (y - x) x
    rw [sub_add_cancel] at this
    linarith
  have hyb : |y| ≤ 2 ^ 40 := by
    have : e * uu ≤ 2 ^ 38 * 1 := by
      by_cases h0 : 0 ≤ e
      · exact mul_le_mul he0 (by linarith) u0.le (by positivity)
      · have : e * uu ≤ 0 := mul_nonpos_of_nonpos_of_nonneg (by linarith) u0.le
        linarith [show (0:ℝ) ≤ 2 ^ 38 * 1 by positivity]
    norm_num at this hb ⊢
    linarith
  have h1 := rnd_err hr (small_le hyb)
  have h2 : |rnd y - x| ≤ |rnd y - y| + |y - x| := by
    have := abs_add_le (rnd y - y) (y - x)
    rwa [sub_add_sub_cancel] at this
  have h3 : uu * |y| ≤ uu * (b + e * uu) := mul_le_mul_of_nonneg_left hy u0.le
  nlinarith

/-- The phase of twiddle `i`. -/
theorem phase_err (hr : IsRounding rnd) {n i : ℕ} (hi : i < n) (hn : n < 2 ^ 32) :
    |rnd (rnd (rnd (-2 * Fl.kissPi rnd) * i) / n) - -(2 * Real.pi * i / n)| ≤ 26 * uu ∧
      |rnd (rnd (-2 * Fl.kissPi rnd) * i) / n| ≤ 7 := by
  have u0 := uu_pos
  have u1 := uu_le16
  have p1 := Real.pi_gt_d20
  have p2 := Real.pi_lt_d20
  have hn0 : (0 : ℝ) < n := by exact_mod_cast (show 0 < n by omega)
  have hi0 : (0 : ℝ) ≤ i := Nat.cast_nonneg i
  have hin : (i : ℝ) ≤ n := by exact_mod_cast hi.le
  have hnb : (n : ℝ) ≤ 2 ^ 32 := by exact_mod_cast hn.le
  have e0 := kissPi_err hr
  have e1 : |-2 * Fl.kissPi rnd - -(2 * Real.pi)| ≤ 6.3 * uu := by
    have : -2 * Fl.kissPi rnd - -(2 * Real.pi) = -2 * (Fl.kissPi rnd - Real.pi) := by ring
    rw [this, abs_mul]
    norm_num
    linarith
  have e2 := rnd_step hr (b := 6.2832) e1 (by rw [abs_neg, abs_of_pos (by linarith)]; linarith) (by norm_num) (by norm_num)
  have e2' : |rnd (-2 * Fl.kissPi rnd) - -(2 * Real.pi)| ≤ 12.6 * uu := e2.trans (mul_le_mul_of_nonneg_right (by linarith) u0.le)
  have e3 : |rnd (-2 * Fl.kissPi rnd) * i - -(2 * Real.pi) * i| ≤ (12.6 * n) * uu := by
    rw [← sub_mul, abs_mul, abs_of_nonneg hi0]
    calc _ ≤ (12.6 * uu) * n := mul_le_mul e2' hin hi0 (by positivity)
      _ = _ := by ring
  have e4 := rnd_step hr (b := 6.2832 * n) e3 (by
    rw [abs_mul, abs_neg, abs_of_pos (by linarith), abs_of_nonneg hi0]
    exact mul_le_mul (by linarith) hin hi0 (by norm_num)) (by linarith) (by linarith)
  have n1 : (1 : ℝ) ≤ n := by exact_mod_cast (show 1 ≤ n by omega)
  have e4' : |rnd (rnd (-2 * Fl.kissPi rnd) * i) - -(2 * Real.pi) * i| ≤ (19 * n) * uu := e4.trans (mul_le_mul_of_nonneg_right (by nlinarith) u0.le)
  have e5 : |rnd (rnd (-2 * Fl.kissPi rnd) * i) / n - -(2 * Real.pi * i / n)| ≤ 19 * uu := by
    have : rnd (rnd (-2 * Fl.kissPi rnd) * i) / n - -(2 * Real.pi * i / n) = (rnd (rnd (-2 * Fl.kissPi rnd) * i) - -(2 * Real.pi) * i) / n := by
      field_simp
    rw [this, abs_div, abs_of_pos hn0, div_le_iff₀ hn0]
    linarith
  have hb : |-(2 * Real.pi * i / n)| ≤ 6.2832 := by
    rw [abs_neg, abs_of_nonneg (by positivity), div_le_iff₀ hn0]
    exact mul_le_mul (by linarith) hin hi0 (by norm_num)
  have e6 := rnd_step hr (b := 6.2832) e5 hb (by norm_num) (by norm_num)
  refine ⟨?_, ?_⟩
  on_goal 2 =>
    have := abs_add_le (rnd (rnd (-2 * Fl.kissPi rnd) * i) / n - -(2 * Real.pi * i / n)) (-(2 * Real.pi * i / n))
    rw [sub_add_cancel] at this
    linarith
  exact e6.trans (mul_le_mul_of_nonneg_right (by linarith) u0.le)

theorem cis_sub (x y : ℝ) : ‖Complex.exp (x * Complex.I) - Complex.exp (y * Complex.I)‖ ≤ |x - y| := by
  have h : Complex.exp (x * Complex.I) - Complex.exp (y * Complex.I) =
      Complex.exp (y * Complex.I) * (Complex.exp (Complex.I * ((x - y : ℝ) : ℂ)) - 1) := by
    rw [mul_sub, ← Complex.exp_add, mul_one]
    congr 2
    push_cast; ring
  rw [h, norm_mul, Complex.norm_exp_ofReal_mul_I, one_mul]
  exact Real.norm_exp_I_mul_ofReal_sub_one_le

/-- The computed point on the circle. -/
theorem libm_cis {lm : Fl.LibM} (hl : LibMWithin lm) {x y : ℝ} (hx : |x| ≤ 7) (hy : |x - y| ≤ 26 * uu) :
    ‖(⟨lm.cos x, lm.sin x⟩ : ℂ) - Complex.exp (y * Complex.I)‖ ≤ 32 * uu := by
  have h1 : ‖(⟨lm.cos x, lm.sin x⟩ : ℂ) - Complex.exp (x * Complex.I)‖ ≤ 2 * uu + 2 * uu := by
    refine (Complex.norm_le_abs_re_add_abs_im _).trans (add_le_add ?_ ?_)
    · rw [Complex.sub_re, Complex.exp_ofReal_mul_I_re]; exact hl.cos x hx
    · rw [Complex.sub_im, Complex.exp_ofReal_mul_I_im]; exact hl.sin x hx
  have h2 := cis_sub x y
  have h3 := norm_add_le ((⟨lm.cos x, lm.sin x⟩ : ℂ) - Complex.exp (x * Complex.I)) (Complex.exp (x * Complex.I) - Complex.exp (y * Complex.I))
  rw [sub_add_sub_cancel] at h3
  linarith [uu_pos]

theorem kissTw_err (hr : IsRounding rnd) {lm : Fl.LibM} (hl : LibMWithin lm) {n i : ℕ} (inv : Bool) (hi : i < n) (hn : n < 2 ^ 32) :
    ‖FS.val (Fl.kissTw rnd lm n inv i) - twd inv n i‖ ≤ 32 * uu := by
  obtain ⟨hp, hz⟩ := phase_err hr hi hn
  have u0 := uu_pos
  have u1 := uu_le16
  have hn0 : (0 : ℝ) < n := by exact_mod_cast (show 0 < n by omega)
  have hn' : (n : ℂ) ≠ 0 := by exact_mod_cast (show n ≠ 0 by omega)
  obtain ⟨c, hc⟩ : ∃ c, c = rnd (rnd (rnd (-2 * Fl.kissPi rnd) * i) / n) := ⟨_, rfl⟩
  rw [← hc] at hp
  have hcy : |c| ≤ 7 := by
    have h1 : |-(2 * Real.pi * i / n)| ≤ 6.2832 := by
      have hin : (i : ℝ) ≤ n := by exact_mod_cast hi.le
      have p2 := Real.pi_lt_d20
      have p1 := Real.pi_gt_d20
      rw [abs_neg, abs_of_nonneg (by positivity), div_le_iff₀ hn0]
      exact mul_le_mul (by linarith) hin (Nat.cast_nonneg i) (by norm_num)
    have := abs_add_le (c - -(2 * Real.pi * i / n)) (-(2 * Real.pi * i / n))
    rw [sub_add_cancel] at this
    linarith
  have h7 : (7 : ℝ) ≤ 2 ^ 1023 := by
    calc (7 : ℝ) ≤ 2 ^ 3 := by norm_num
      _ ≤ 2 ^ 1023 := pow_le_pow_right₀ (by norm_num) (by norm_num)
  cases inv
  · have e : Fl.kissTw rnd lm n false i = ⟨lm.cos c, lm.sin c⟩ := by
      unfold Fl.kissTw
      simp only [Bool.false_eq_true, if_false, Int.cast_natCast]
      rw [hc]
    rw [e]
    have := libm_cis hl hcy (y := -(2 * Real.pi * i / n)) hp
    refine (le_of_eq ?_).trans this
    congr 2
    unfold twd root
    simp only [Bool.false_eq_true, if_false]
    push_cast
    congr 1
    field_simp
  · have hd : rnd (c * -1) = -c := by
      rw [mul_neg_one]
      refine rnd_double hr (isDouble_neg ?_) (by rw [abs_neg]; exact hcy.trans h7)
      rw [hc]
      exact hr.double _ (hz.trans h7)
    have e : Fl.kissTw rnd lm n true i = ⟨lm.cos (-c), lm.sin (-c)⟩ := by
      unfold Fl.kissTw
      simp only [if_true, Int.cast_natCast]
      rw [← hc, hd]
    rw [e]
    have := libm_cis hl (x := -c) (by rwa [abs_neg]) (y := 2 * Real.pi * i / n) (by rw [← abs_neg]; refine (le_of_eq ?_).trans hp; congr 1; ring)
    refine (le_of_eq ?_).trans this
    congr 2
    unfold twd root
    simp only [if_true]
    push_cast
    congr 1
    field_simp

end FK
end Verif.Props
