import Verif.Props.FloatKiss6
/-!
# C99: kiss_fft in double precision
-/
namespace Verif.Props
open Verif Finset

variable {rnd : ℝ → ℝ}

namespace FK

/-- The forward (`inv = false`) or unnormalised backward DFT coefficient. -/
noncomputable def dft (inv : Bool) (n : ℕ) (x : ℕ → ℂ) (k : ℕ) : ℂ :=
  ∑ j ∈ range n, x j * Complex.exp ((if inv then 1 else -1) * (2 * Real.pi * Complex.I * (j * k) / n))

theorem dft_twd (inv : Bool) (n : ℕ) (x : ℕ → ℂ) (k : ℕ) : dft inv n x k = ∑ j ∈ range n, x j * twd inv n ((j * k : ℕ) : ℤ) := by
  unfold dft twd root
  refine sum_congr rfl fun j _ => ?_
  congr 2
  cases inv <;> simp only [if_true, if_false, Bool.false_eq_true] <;> push_cast <;> ring

theorem alloc_err (hr : IsRounding rnd) {lm : Fl.LibM} (hl : LibMWithin lm) (n : ℕ) (inv : Bool) (hn : 2 ≤ n) (hn2 : n < 2 ^ 32) :
    ∃ cfg, Fl.kissAlloc rnd lm n inv = .ok cfg ∧ cfg.inverse = inv ∧ Tw cfg n ∧ Stages n cfg.factors ∧ stageCost cfg.factors ≤ fftUnits n := by
  obtain ⟨fac, e, hs, hc⟩ := kfFactor_cost n hn hn2
  unfold Fl.kissAlloc
  rw [if_neg (by omega), e]
  refine ⟨⟨n, inv, fac, tab n (Fl.kissTw rnd lm n inv)⟩, rfl, rfl, ⟨rfl, by simp, fun j hj => ?_⟩, hs, hc⟩
  simp only
  rw [rd_tab (by omega)]
  exact kissTw_err hr hl inv hj hn2

theorem units_uu {n : ℕ} (hn : 1 ≤ n) (hn2 : n ≤ 2 ^ 31) : fftUnits n * uu ≤ 1 / 100 := by
  have h1 := units_le hn
  have h2 : (n : ℝ) ≤ 2 ^ 31 := by exact_mod_cast hn2
  have u0 := uu_pos
  have u1 := uu_le16
  calc fftUnits n * uu ≤ (175 * 2 ^ 31) * (12 / 10 ^ 17) := mul_le_mul (by linarith) u1 u0.le (by positivity)
    _ ≤ 1 / 100 := by norm_num

theorem fft_one (lm : Fl.LibM) (inv : Bool) (x : FC rnd) (junk : ℕ → FC rnd) :
    ∃ cfg, Fl.kissAlloc rnd lm 1 inv = .ok cfg ∧ Fl.kissFft rnd cfg [x] junk = .ok [x] := by
  have e : kfFactor ((1 : ℕ) : Int) = some (.ok [1, 1]) := by
    unfold kfFactor
    have e : kfNext ((1 : ℕ) : Int) ((Nat.sqrt (((1 : ℕ) : Int).toNat) : ℕ) : Int) 4 = some 1 := by
      rw [kfNext, if_neg (by decide)]
      exact kfNext_self _ _
    rw [kfFactorLoop, e]
    simp
  unfold Fl.kissAlloc
  rw [Nat.cast_one] at e
  rw [if_neg (by norm_num), e]
  refine ⟨_, rfl, ?_⟩
  simp only [Fl.kissFft, Fl.kfWork, Fl.kfBfly]
  simp [cMalloc, pyRange, forM', cGet, cSet, tab, rd, Except.bind_ok]
  simp [Fl.kfBflyGenBody, pyRange, forM', mapM', cGet, cSet, rd, Except.bind_ok]

/-- kiss_fft on a configuration allocated for the length of the buffer. -/
theorem fft_all (hr : IsRounding rnd) {lm : Fl.LibM} (hl : LibMWithin lm) (n : ℕ) (inv : Bool) (hn : 1 ≤ n) (hn2 : n ≤ 2 ^ 31)
    (buf : List (FC rnd)) (hb : buf.length = n) {X : ℝ} (hX : 2 ^ (-900 : ℤ) ≤ X) (hX' : X ≤ 2 ^ (900 : ℤ)) (hbuf : ∀ i, i < n → ‖FS.val (rd buf i)‖ ≤ X)
    (junk : ℕ → FC rnd) :
    ∃ cfg out, Fl.kissAlloc rnd lm n inv = .ok cfg ∧ Fl.kissFft rnd cfg buf junk = .ok out ∧ out.length = n ∧ ∀ k, k < n →
      ‖FS.val (rd out k) - dft inv n (fun j => FS.val (rd buf j)) k‖ ≤ n * X * (fftUnits n * uu) := by
  have X0 : 0 < X := lt_of_lt_of_le (by positivity) hX
  by_cases h1 : n = 1
  · subst h1
    obtain ⟨x, rfl⟩ := List.length_eq_one_iff.mp hb
    obtain ⟨cfg, e1, e2⟩ := fft_one lm inv x junk
    refine ⟨cfg, [x], e1, e2, rfl, fun k hk => ?_⟩
    have : k = 0 := by omega
    subst this
    rw [dft_twd, sum_range_one]
    simp only [mul_zero, Nat.cast_zero, twd_zero, mul_one, sub_self, norm_zero]
    have := units_nonneg 1
    have := uu_pos
    positivity
  · obtain ⟨cfg, e, hi, ht, hs, hc⟩ := alloc_err hr hl n inv (by omega) (by omega)
    have u0 := uu_pos
    have hc' : stageCost cfg.factors * uu ≤ 1 / 100 := (mul_le_mul_of_nonneg_right hc u0.le).trans (units_uu hn hn2)
    obtain ⟨out, e2, l, hv⟩ := fft_err hr ht (by omega) hn2 hs hc' buf hb hX hX' hbuf junk
    refine ⟨cfg, out, e, e2, l, fun k hk => ?_⟩
    rw [dft_twd, ← hi]
    exact (hv k hk).trans (mul_le_mul_of_nonneg_left (mul_le_mul_of_nonneg_right hc u0.le) (by positivity))

end FK

/-- C99. `kiss_fft_alloc` followed by `kiss_fft` in double precision: for every length `n ≤ 2^31`, both directions, whatever the freshly allocated
buffer holds, every output is within `n X u` times the sum of `165 + 5 p` over the prime factors `p` of `n` (with multiplicity) of the exact
discrete Fourier transform of the input, `X` bounding the input's entries. -/
theorem c99_kiss (hr : IsRounding rnd) {lm : Fl.LibM} (hl : LibMWithin lm) (n : ℕ) (inv : Bool) (hn : 1 ≤ n) (hn2 : n ≤ 2 ^ 31)
    (buf : List (FC rnd)) (hb : buf.length = n) {X : ℝ} (hX : 2 ^ (-900 : ℤ) ≤ X) (hX' : X ≤ 2 ^ (900 : ℤ))
    (hbuf : ∀ i, i < n → ‖FS.val (rd buf i)‖ ≤ X) (junk : ℕ → FC rnd) :
    ∃ cfg out, Fl.kissAlloc rnd lm n inv = .ok cfg ∧ Fl.kissFft rnd cfg buf junk = .ok out ∧ out.length = n ∧ ∀ k, k < n →
      ‖FS.val (rd out k) - FK.dft inv n (fun j => FS.val (rd buf j)) k‖ ≤
        n * X * ((n.primeFactorsList.map fun p : ℕ => 165 + 5 * (p : ℝ)).sum * 2 ^ (-53 : ℤ)) :=
  FK.fft_all hr hl n inv hn hn2 buf hb hX hX' hbuf junk

/-- C99, for lengths without a prime factor above 5 (such as the one the convolution pads to): `190 log₂ n` units. -/
theorem c99_smooth (hr : IsRounding rnd) {lm : Fl.LibM} (hl : LibMWithin lm) (n : ℕ) (inv : Bool) (hn : 1 ≤ n) (hn2 : n ≤ 2 ^ 31)
    (h5 : ∀ p : ℕ, p.Prime → p ∣ n → p ≤ 5) (buf : List (FC rnd)) (hb : buf.length = n) {X : ℝ} (hX : 2 ^ (-900 : ℤ) ≤ X)
    (hX' : X ≤ 2 ^ (900 : ℤ)) (hbuf : ∀ i, i < n → ‖FS.val (rd buf i)‖ ≤ X) (junk : ℕ → FC rnd) :
    ∃ cfg out, Fl.kissAlloc rnd lm n inv = .ok cfg ∧ Fl.kissFft rnd cfg buf junk = .ok out ∧ out.length = n ∧ ∀ k, k < n →
      ‖FS.val (rd out k) - FK.dft inv n (fun j => FS.val (rd buf j)) k‖ ≤ n * X * (190 * Nat.log 2 n * 2 ^ (-53 : ℤ)) := by
  obtain ⟨cfg, out, e1, e2, l, h⟩ := FK.fft_all hr hl n inv hn hn2 buf hb hX hX' hbuf junk
  have X0 : 0 < X := lt_of_lt_of_le (by positivity) hX
  exact ⟨cfg, out, e1, e2, l, fun k hk => (h k hk).trans
    (mul_le_mul_of_nonneg_left (mul_le_mul_of_nonneg_right (FK.units_smooth hn h5) uu_pos.le) (by positivity))⟩

/-- Rounding the exact cosine and sine meets the assumption on the C library. -/
theorem libMWithin_rnd (hr : IsRounding rnd) : LibMWithin ⟨fun x => rnd (Real.cos x), fun x => rnd (Real.sin x)⟩ := by
  have key : ∀ y : ℝ, |y| ≤ 1 → |rnd y - y| ≤ 2 * uu := by
    intro y hy
    have h1 := rnd_err hr (x := y) (FK.small_le (hy.trans (by norm_num)))
    have u0 := uu_pos
    have t := FK.tiny_le_uu
    have : uu * |y| ≤ uu * 1 := mul_le_mul_of_nonneg_left hy u0.le
    linarith
  exact ⟨fun x _ => key _ (Real.abs_cos_le_one x), fun x _ => key _ (Real.abs_sin_le_one x)⟩

/-- A rounding, a library and a buffer of 30 entries (radices 2, 3 and 5) with arbitrary scratch memory. -/
example : ∃ rnd : ℝ → ℝ, ∃ lm : Fl.LibM, IsRounding rnd ∧ LibMWithin lm ∧ ∀ junk : ℕ → FC rnd,
    ∃ cfg out, Fl.kissAlloc rnd lm (30 : ℕ) false = .ok cfg ∧ Fl.kissFft rnd cfg (tab 30 fun i => ⟨i, 1⟩) junk = .ok out ∧ out.length = 30 ∧ ∀ k, k < 30 →
      ‖FS.val (rd out k) - FK.dft false 30 (fun j => ⟨if j < 30 then j else 0, if j < 30 then 1 else 0⟩) k‖ ≤ 30 * 30 * (190 * 4 * 2 ^ (-53 : ℤ)) := by
  obtain ⟨rnd, hr⟩ := noOverflow_exists
  refine ⟨rnd, _, hr.toIsRounding, libMWithin_rnd hr.toIsRounding, fun junk => ?_⟩
  have hv : ∀ i, i < 30 → FS.val (rd (tab 30 fun i => (⟨i, 1⟩ : FC rnd)) i) = ⟨i, 1⟩ := fun i hi => by
    rw [rd_tab hi]; rfl
  have h5 : ∀ p : ℕ, p.Prime → p ∣ 30 → p ≤ 5 := by
    intro p hp hd
    rw [show 30 = 2 * (3 * 5) by norm_num, hp.dvd_mul, hp.dvd_mul] at hd
    rcases hd with h | h | h <;> have := Nat.le_of_dvd (by norm_num) h <;> omega
  obtain ⟨cfg, out, e1, e2, l, h⟩ := c99_smooth hr.toIsRounding (libMWithin_rnd hr.toIsRounding) 30 false (by norm_num) (by norm_num) h5
    (tab 30 fun i => (⟨i, 1⟩ : FC rnd)) (by simp) (X := 30)
    ((zpow_le_zpow_right₀ (by norm_num) (show (-900 : ℤ) ≤ 0 by norm_num)).trans (by norm_num))
    ((show (30 : ℝ) ≤ 2 ^ (5 : ℤ) by norm_num).trans (zpow_le_zpow_right₀ (by norm_num) (by norm_num)))
    (fun i hi => by
      rw [hv i hi]
      refine (Complex.norm_le_abs_re_add_abs_im _).trans ?_
      have : (i : ℝ) ≤ 29 := by exact_mod_cast (show i ≤ 29 by omega)
      simp only [Nat.abs_cast, abs_one]
      linarith) junk
  refine ⟨cfg, out, e1, e2, l, fun k hk => ?_⟩
  have hlog : Nat.log 2 30 = 4 := by decide
  have := h k hk
  rw [hlog] at this
  have e : FK.dft false 30 (fun j => FS.val (rd (tab 30 fun i => (⟨i, 1⟩ : FC rnd)) j)) k =
      FK.dft false 30 (fun j => ⟨if j < 30 then j else 0, if j < 30 then 1 else 0⟩) k := by
    unfold FK.dft
    refine sum_congr rfl fun j hj => ?_
    have hj := mem_range.mp hj
    simp only []
    rw [hv j hj, if_pos hj, if_pos hj]
  rw [e] at this
  exact_mod_cast this

end Verif.Props
