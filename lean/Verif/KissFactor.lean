import Verif.Kiss
import Mathlib.Data.Nat.Log
/-!
# `kf_factor`
-/
namespace Verif

/-- The stages `p1,m1,p2,m2,...`: `p_i * m_i = m_{i-1}`, `m_0 = n`, the last `m` is 1 and the others are > 1. -/
def Stages : ℕ → List Int → Prop
  | n, p :: m :: rest => ∃ p' m' : ℕ, p = p' ∧ m = m' ∧ 1 ≤ p' ∧ p' * m' = n ∧
      ((m' = 1 ∧ rest = []) ∨ (1 < m' ∧ Stages m' rest))
  | _, _ => False

theorem kfNext_self (n fs : Int) : kfNext n fs n = some n := by
  rw [kfNext, if_pos]; simp

theorem kfNext_ge3 (n : ℕ) (hn : 2 ≤ n) (fs : Int) (p : ℕ) (hp : 3 ≤ p) (h4 : p ≠ 4) :
    ∃ q : ℕ, kfNext n fs p = some (q : Int) ∧ 2 ≤ q ∧ q ∣ n := by
  obtain ⟨d, hd⟩ : ∃ d : ℕ, d = (fs + 1 - p).toNat := ⟨_, rfl⟩
  induction d using Nat.strong_induction_on generalizing p with
  | _ d ih =>
    by_cases hdv : (n : Int).tmod p = 0
    · refine ⟨p, by rw [kfNext, if_pos hdv], by omega, ?_⟩
      exact_mod_cast Int.dvd_of_tmod_eq_zero hdv
    · rw [kfNext, if_neg hdv]
      simp only [show ¬ ((p : Int) = 4) by omega, show ¬ ((p : Int) = 2) by omega, if_false]
      by_cases hc : (p : Int) + 2 > fs
      · rw [if_pos hc]
        exact ⟨n, kfNext_self _ _, hn, dvd_refl _⟩
      · rw [if_neg hc]
        have := ih (fs + 1 - ((p + 2 : ℕ) : Int)).toNat (by omega) (p + 2) (by omega) (by omega) rfl
        exact_mod_cast this

theorem kfNext_ge2 (n : ℕ) (hn : 2 ≤ n) (fs : Int) (p : ℕ) (hp : 2 ≤ p) :
    ∃ q : ℕ, kfNext n fs p = some (q : Int) ∧ 2 ≤ q ∧ q ∣ n := by
  have h2 : ∃ q : ℕ, kfNext n fs 2 = some (q : Int) ∧ 2 ≤ q ∧ q ∣ n := by
    by_cases hdv : (n : Int).tmod 2 = 0
    · refine ⟨2, by rw [kfNext, if_pos hdv]; rfl, by omega, ?_⟩
      exact_mod_cast Int.dvd_of_tmod_eq_zero hdv
    · rw [kfNext, if_neg hdv]
      simp only [show ¬ ((2 : Int) = 4) by omega, if_false, if_true]
      split
      · exact ⟨n, kfNext_self _ _, hn, dvd_refl _⟩
      · exact_mod_cast kfNext_ge3 n hn fs 3 (by omega) (by omega)
  by_cases e4 : p = 4
  · subst e4
    by_cases hdv : (n : Int).tmod (4 : ℕ) = 0
    · refine ⟨4, by rw [kfNext, if_pos hdv], by omega, ?_⟩
      exact_mod_cast Int.dvd_of_tmod_eq_zero hdv
    · rw [kfNext, if_neg hdv]
      simp only [show (((4 : ℕ) : Int) = 4) by norm_num, if_true]
      split
      · exact ⟨n, kfNext_self _ _, hn, dvd_refl _⟩
      · exact h2
  · by_cases e2 : p = 2
    · subst e2; exact_mod_cast h2
    · exact kfNext_ge3 n hn fs p (by omega) e4

theorem kfFactorLoop_spec (n : ℕ) (hn : 2 ≤ n) (fs : Int) (p : ℕ) (hp : 2 ≤ p) (buf : List Int)
    (hb : buf.length + 2 * Nat.log 2 n ≤ 64) :
    ∃ fac, kfFactorLoop n fs p buf = some (.ok (buf ++ fac)) ∧ Stages n fac ∧ fac.length ≤ 2 * Nat.log 2 n := by
  induction n using Nat.strong_induction_on generalizing p buf with
  | _ n ih =>
    obtain ⟨q, hq, hq2, k, hk⟩ := kfNext_ge2 n hn fs p hp
    have hkp : 1 ≤ k := by
      rcases Nat.eq_zero_or_pos k with h | h
      · subst h; omega
      · exact h
    have hlog : 1 ≤ Nat.log 2 n := Nat.log_pos (by omega) hn
    have hlog2 : Nat.log 2 k + 1 ≤ Nat.log 2 n := by
      rw [← Nat.log_mul_base (by omega) (by omega)]
      exact Nat.log_mono_right (by rw [hk]; nlinarith)
    rw [kfFactorLoop, hq]
    have hdiv : (n : Int).tdiv q = (k : Int) := by
      rw [hk]; push_cast
      rw [Int.mul_tdiv_cancel_left _ (by omega)]
    simp only [hdiv]
    rw [if_neg (by omega)]
    by_cases h1 : k = 1
    · subst h1
      rw [if_neg (by omega)]
      refine ⟨[(q : Int), ((1 : ℕ) : Int)], rfl, ⟨q, 1, rfl, rfl, by omega, by omega, .inl ⟨rfl, rfl⟩⟩, ?_⟩
      simp; omega
    · rw [if_pos (by omega)]
      have hlt : k < n := by rw [hk]; nlinarith
      obtain ⟨fac, e, hs, hl⟩ := ih k hlt (by omega) q hq2 (buf ++ [(q : Int), (k : Int)]) (by simp; omega)
      refine ⟨(q : Int) :: (k : Int) :: fac, by rw [e]; simp, ⟨q, k, rfl, rfl, by omega, hk.symm, .inr ⟨by omega, hs⟩⟩, ?_⟩
      simp; omega

theorem kfFactor_spec (n : ℕ) (hn : 1 ≤ n) (hn2 : n < 2 ^ 32) :
    ∃ fac, kfFactor n = some (.ok fac) ∧ Stages n fac ∧ fac.length ≤ 64 := by
  unfold kfFactor
  by_cases h1 : n = 1
  · subst h1
    refine ⟨[1, 1], ?_, ⟨1, 1, rfl, rfl, by omega, rfl, .inl ⟨rfl, rfl⟩⟩, by simp⟩
    have e : kfNext ((1 : ℕ) : Int) ((Nat.sqrt (((1 : ℕ) : Int).toNat) : ℕ) : Int) 4 = some 1 := by
      rw [kfNext, if_neg (by decide)]
      exact kfNext_self _ _
    rw [kfFactorLoop, e]
    simp
  · have hlog : Nat.log 2 n < 32 := Nat.log_lt_of_lt_pow (by omega) hn2
    obtain ⟨fac, e, hs, hl⟩ := kfFactorLoop_spec n (by omega) (Nat.sqrt ((n : Int).toNat)) 4 (by omega) [] (by simp; omega)
    exact ⟨fac, e, hs, by omega⟩

end Verif
