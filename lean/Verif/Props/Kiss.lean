import Verif.KissDft
/-!
# Properties C47, C48: kiss_fft
-/
namespace Verif.Props
open Verif Finset

/-- C47: for every length and every input, forward and inverse, whatever garbage `malloc` returns: `kiss_fft` (in
place) succeeds without undefined behaviour and stores the DFT (unnormalised in the inverse direction). -/
theorem c47_kiss_dft (n : ℕ) (inverse : Bool) (hn : 1 ≤ n) (hn2 : n < 2 ^ 31) :
    ∃ cfg, kissAlloc n inverse = .ok cfg ∧ ∀ (buf : List ℂ) (junk : ℕ → ℂ), buf.length = n →
      ∃ out, kissFft cfg buf junk = .ok out ∧ out.length = n ∧ ∀ k, k < n →
        rd out k = ∑ j ∈ range n, rd buf j *
          Complex.exp ((if inverse then 1 else -1) * (2 * Real.pi * Complex.I * (j * k) / n)) := by
  obtain ⟨cfg, e, hi, htw, hs⟩ := kissAlloc_ok n inverse hn (by omega)
  refine ⟨cfg, e, fun buf junk hb => ⟨_, kissFft_ok htw (by omega) hs buf hb junk, by simp, fun k hk => ?_⟩⟩
  rw [rd_tab hk, hi]
  refine sum_congr rfl fun j _ => ?_
  congr 1
  unfold twd root
  congr 1
  cases inverse <;> simp only [if_true, if_false, Bool.false_eq_true] <;> push_cast <;> ring

/-- The forward `kiss_fft` is NumPy's `fft`. -/
theorem c47_kiss_is_numpy_fft (n : ℕ) (hn : 1 ≤ n) (hn2 : n < 2 ^ 31) :
    ∃ cfg, kissAlloc n false = .ok cfg ∧ ∀ (buf : List ℂ) (junk : ℕ → ℂ), buf.length = n →
      kissFft cfg buf junk = npFft buf := by
  obtain ⟨cfg, e, hi, htw, hs⟩ := kissAlloc_ok n false hn (by omega)
  refine ⟨cfg, e, fun buf junk hb => ?_⟩
  rw [kissFft_ok htw (by omega) hs buf hb junk, npFft, if_neg (by omega), hb, hi]
  congr 2

/-- Witness: length 60 = 4*3*5. -/
example : ∃ cfg, kissAlloc (60 : ℕ) true = .ok cfg := by
  obtain ⟨cfg, e, -⟩ := c47_kiss_dft 60 true (by omega) (by omega); exact ⟨cfg, e⟩

/-- A factor buffer `p1,m1,p2,m2,...` describes a complete mixed-radix decomposition of `n`. -/
def Decomposition : ℕ → List Int → Prop
  | n, p :: m :: rest => 1 ≤ p ∧ p * m = n ∧ ((m = 1 ∧ rest = []) ∨ (1 < m ∧ Decomposition m.toNat rest))
  | _, _ => False

theorem stages_decomposition : ∀ (n : ℕ) (l : List Int), Stages n l → Decomposition n l
  | n, p :: m :: rest, h => by
    obtain ⟨p', m', rfl, rfl, h1, h2, h3⟩ := h
    refine ⟨by exact_mod_cast h1, by exact_mod_cast h2, ?_⟩
    rcases h3 with ⟨a, b⟩ | ⟨a, b⟩
    · exact .inl ⟨by exact_mod_cast a, b⟩
    · exact .inr ⟨by exact_mod_cast a, stages_decomposition m' rest b⟩
  | _, [], h => h.elim
  | _, [_], h => h.elim

/-- C48: `kf_factor` terminates for every positive `int`, never writes past the 64 ints of the factor buffer, and
leaves a complete decomposition of `n` there. -/
theorem c48_factor_buffer (n : ℕ) (hn : 1 ≤ n) (hn2 : n < 2 ^ 31) :
    ∃ fac, kfFactor n = some (.ok fac) ∧ fac.length ≤ 64 ∧ Decomposition n fac := by
  obtain ⟨fac, e, hs, hl⟩ := kfFactor_spec n hn (by omega)
  exact ⟨fac, e, hl, stages_decomposition _ _ hs⟩

example : ∃ fac, kfFactor (360 : ℕ) = some (.ok fac) ∧ Decomposition 360 fac := by
  obtain ⟨fac, e, -, h⟩ := c48_factor_buffer 360 (by omega) (by omega); exact ⟨fac, e, h⟩

end Verif.Props
