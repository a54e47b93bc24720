import Verif.Sphi
import Mathlib.Data.Nat.Prime.Basic
import Mathlib.Data.Nat.Prime.Pow
/-!
# The FFT length search loop
-/
namespace Verif

/-- Every prime factor of `A` is in `ps`. -/
def SmoothOver (ps : List ℕ) (A : ℕ) : Prop := ∀ p, p.Prime → p ∣ A → p ∈ ps

/-- One unrolling of the search loop over the primes `ps`. -/
structure LoopEq (ps : List ℕ) (f : Int → Int → Option Int) : Prop where
  one : ∀ Q, f 1 Q = some Q
  step : ∀ (A : ℕ) (Q : Int), 2 ≤ A →
    (∃ p ∈ ps, p.Prime ∧ p ∣ A ∧ f A Q = f ((A / p : ℕ) : Int) Q) ∨
    ((∀ p ∈ ps, ¬ p ∣ A) ∧ f A Q = f (Q + 1) (Q + 1))

open Classical in
theorem LoopEq.reduce {ps : List ℕ} {f : Int → Int → Option Int} (h : LoopEq ps f) (A : ℕ) (hA : 1 ≤ A) (Q : Int) :
    f A Q = if SmoothOver ps A then some Q else f (Q + 1) (Q + 1) := by
  induction A using Nat.strong_induction_on with
  | _ A ih =>
    by_cases h1 : A = 1
    · subst h1
      have hs : SmoothOver ps 1 := fun p hp hd => absurd (Nat.dvd_one.mp hd) hp.one_lt.ne'
      rw [if_pos hs]
      exact_mod_cast h.one Q
    · rcases h.step A Q (by omega) with ⟨p, hp, hpr, hd, e⟩ | ⟨hn, e⟩
      · have hlt : A / p < A := Nat.div_lt_self (by omega) hpr.one_lt
        have hpos : 1 ≤ A / p := Nat.div_pos (Nat.le_of_dvd (by omega) hd) hpr.pos
        rw [e, ih (A / p) hlt hpos]
        have hiff : SmoothOver ps (A / p) ↔ SmoothOver ps A := by
          obtain ⟨c, rfl⟩ := hd
          rw [Nat.mul_div_cancel_left c hpr.pos]
          constructor
          · intro hs q hq hqd
            rcases (Nat.Prime.dvd_mul hq).mp hqd with hh | hh
            · rwa [(Nat.prime_dvd_prime_iff_eq hq hpr).mp hh]
            · exact hs q hq hh
          · intro hs q hq hqd
            exact hs q hq (Dvd.dvd.mul_left hqd p)
        by_cases hs : SmoothOver ps A
        · rw [if_pos hs, if_pos (hiff.mpr hs)]
        · rw [if_neg hs, if_neg (fun h0 => hs (hiff.mp h0))]
      · rw [if_neg, e]
        intro hs
        have := hs A.minFac (Nat.minFac_prime h1) (Nat.minFac_dvd A)
        exact hn _ this (Nat.minFac_dvd A)

theorem smooth_pow_two {ps : List ℕ} (h2 : 2 ∈ ps) (k : ℕ) : SmoothOver ps (2 ^ k) := by
  intro p hp hd
  have := (Nat.prime_dvd_prime_iff_eq hp Nat.prime_two).mp (hp.dvd_of_dvd_pow hd)
  rwa [this]

/-- The search loop finds the least `ps`-smooth number `≥ Q`. -/
theorem LoopEq.least {ps : List ℕ} {f : Int → Int → Option Int} (h : LoopEq ps f) (h2 : 2 ∈ ps) (Q : ℕ) (hQ : 1 ≤ Q) :
    ∃ R : ℕ, f Q Q = some (R : Int) ∧ Q ≤ R ∧ SmoothOver ps R ∧ ∀ S, Q ≤ S → S < R → ¬ SmoothOver ps S := by
  obtain ⟨T, hT, hTs⟩ : ∃ T, Q ≤ T ∧ SmoothOver ps T := ⟨2 ^ Q, Nat.lt_two_pow_self.le, smooth_pow_two h2 Q⟩
  obtain ⟨d, rfl⟩ : ∃ d, T = Q + d := ⟨T - Q, by omega⟩
  clear hT
  induction d generalizing Q with
  | zero =>
    refine ⟨Q, ?_, le_rfl, by simpa using hTs, fun S h1 h2 => by omega⟩
    rw [h.reduce Q hQ, if_pos (by simpa using hTs)]
  | succ d ih =>
    by_cases hs : SmoothOver ps Q
    · exact ⟨Q, by rw [h.reduce Q hQ, if_pos hs], le_rfl, hs, fun S h1 h2 => by omega⟩
    · obtain ⟨R, h1, h3, h4, h5⟩ := ih (Q + 1) (by omega) (by rwa [show Q + 1 + d = Q + (d + 1) by ring])
      refine ⟨R, ?_, by omega, h4, fun S hS hR => ?_⟩
      · rw [h.reduce Q hQ, if_neg hs]; exact_mod_cast h1
      · by_cases e : S = Q
        · rwa [e]
        · exact h5 S (by omega) hR

theorem spf_loopEq : LoopEq [2, 3, 5, 7] spfLoop := by
  constructor
  · intro Q; rw [spfLoop]; simp
  · intro A Q hA
    rw [spfLoop, if_neg (by omega)]
    split
    · exact .inl ⟨2, by simp, by decide, by omega, by push_cast; rfl⟩
    split
    · exact .inl ⟨3, by simp, by decide, by omega, by push_cast; rfl⟩
    split
    · exact .inl ⟨5, by simp, by decide, by omega, by push_cast; rfl⟩
    split
    · exact .inl ⟨7, by simp, by decide, by omega, by push_cast; rfl⟩
    · refine .inr ⟨?_, rfl⟩
      intro p hp
      simp only [List.mem_cons, List.not_mem_nil, or_false] at hp
      rcases hp with rfl | rfl | rfl | rfl <;> omega

/-- For `Q ≤ 0` the loop never ends. -/
theorem spf_diverges (Q : Int) (hQ : Q ≤ 0) : smallestPrimeFactor Q = none := by
  have key : ∀ A Q r, spfLoop A Q = some r → A ≤ 0 → Q ≤ 0 → (Q = 0 → A = 0) → False := by
    refine spfLoop.partial_correctness (fun A Q r => A ≤ 0 → Q ≤ 0 → (Q = 0 → A = 0) → False) ?_
    intro f ih A Q r h hA hQ h0
    simp only [show A ≠ 1 by omega, if_false] at h
    split at h
    · exact ih _ _ _ h (by omega) hQ (by omega)
    split at h
    · exact ih _ _ _ h (by omega) hQ (by omega)
    split at h
    · exact ih _ _ _ h (by omega) hQ (by omega)
    split at h
    · exact ih _ _ _ h (by omega) hQ (by omega)
    · exact ih _ _ _ h (by omega) (by omega) (by omega)
  unfold smallestPrimeFactor
  match h : spfLoop Q Q with
  | none => rfl
  | some r => exact (key _ _ _ h hQ hQ (fun h => h)).elim

end Verif
