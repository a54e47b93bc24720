import Verif.Props.FloatUser8
/-!
# C124: repeated round trips in doubles

A program that works alternately on samples and on coefficients (a filter applied in steps, a time stepping scheme) synthesises and analyses the same field
again and again.  Here any list of scalar round trips is run, each on its own grid and with its own choice of backend for the synthesis and for the analysis;
the drift of every coefficient is at most the sum of the bounds of C107 for the single trips.
-/
namespace Verif.Props
open Verif Finset
variable {rnd : ℝ → ℝ}

/-- One round trip: the grid, the backend of `ispht` and the backend of `spht` (the Python routines, or the compiled extension with what its allocations contain). -/
structure Trip where
  nr : ℤ
  nc : ℤ
  synth : Backend
  anal : Option (ℕ → CJunk)

/-- `spht(ispht(c, nr, nc), c.nmax, c.mmax)`, spherepy.py 2015-2080 and 1831-1900, in doubles: one round trip. -/
noncomputable def Trip.run (rnd : ℝ → ℝ) (lm : Fl.Libm) (lm' : Fl.LibM) (np : Fl.Fft1 rnd) (sum : List (FC rnd) → FC rnd) (t : Trip) (c : ScalarCoefs (FC rnd)) : Res (ScalarCoefs (FC rnd)) :=
  (Fl.ispht rnd (Fl.pow1j rnd lm) (Fl.ifft2Scaled rnd np) t.synth c (some t.nr) (some t.nc)).bind fun p =>
  match t.anal with
  | none => Fl.spht rnd (Fl.npLib rnd lm np sum) .py p (some c.nmax) (some c.mmax)
  | some J => Fl.kSpht rnd (Fl.npLib rnd lm np sum) lm' J p (some c.nmax) (some c.mmax)

/-- A list of round trips, one after the other. -/
noncomputable def runTrips (rnd : ℝ → ℝ) (lm : Fl.Libm) (lm' : Fl.LibM) (np : Fl.Fft1 rnd) (sum : List (FC rnd) → FC rnd) : List Trip → ScalarCoefs (FC rnd) → Res (ScalarCoefs (FC rnd))
  | [], c => .ok c
  | t :: ts, c => (t.run rnd lm lm' np sum c).bind (runTrips rnd lm lm' np sum ts)

/-- The bound of C107 for one round trip. -/
noncomputable def Trip.err (t : Trip) (N M : ℕ) (κ C : ℝ) (n : ℤ) : ℝ :=
  match t.anal with
  | none => usrtErr (2 * t.nr - 2).toNat N M κ C n
  | some _ => uksrtErr (2 * t.nr - 2).toNat N M κ C n

/-- What C107 asks of one round trip: a grid that is fine enough and not astronomically large, and one-dimensional FFTs of relative error `κ`. -/
structure Trip.OK (t : Trip) (np : Fl.Fft1 rnd) (N M : ℕ) (κ : ℝ) : Prop where
  rows : (N : ℤ) + 2 ≤ t.nr
  cols : 2 * (M : ℤ) + 2 ≤ t.nc
  even : t.nc % 2 = 0
  size : t.nr ≤ 2 ^ 27
  size2 : (2 * t.nr - 2) * t.nc < 2 ^ 53
  small : 213 * Nat.log 2 (4 * (2 * t.nr - 2).toNat) * Real.sqrt (((2 * t.nr - 2).toNat : ℝ) + 1) * κ ≤ 1
  fft : FftOK np κ (2 * t.nr - 2).toNat t.nc.toNat

namespace FT

theorem err_nonneg (t : Trip) (N M : ℕ) (κ C : ℝ) (hκ : 0 ≤ κ) (hC : 0 ≤ C) (n : ℤ) (hn : 0 ≤ n) : 0 ≤ t.err N M κ C n := by
  have h : (0 : ℝ) ≤ n := by exact_mod_cast hn
  have hu : 0 ≤ uisphtErr N M κ C := by unfold uisphtErr; positivity
  unfold Trip.err
  cases t.anal
  · simp only []; unfold usrtErr; positivity
  · simp only []; unfold uksrtErr; positivity

theorem step (hrd : NoOverflow rnd) (lm : Fl.Libm) (hl : LibmOK lm) (lm' : Fl.LibM) (hl' : LibMWithin lm') (np : Fl.Fft1 rnd) (sum : List (FC rnd) → FC rnd) (hsum : SumOK sum)
    (t : Trip) (c : ScalarCoefs (FC rnd)) (hc : c.WellFormed) (N M : ℕ) (hn : c.nmax = N) (hm : c.mmax = M) (hN : N ≤ 1000) (w : ℤ → ℤ → FC rnd)
    (hw : ∀ n m, IsMode c.nmax c.mmax n m → readMap c n m = some (w n m)) (C : ℝ) (hC : 2 ^ (-690 : ℤ) ≤ C) (hC' : C ≤ 2 ^ (300 : ℤ))
    (hwC : ∀ n m, IsMode c.nmax c.mmax n m → |(w n m).re| ≤ C ∧ |(w n m).im| ≤ C)
    (κ : ℝ) (hκ : 2 ^ (-45 : ℤ) ≤ κ) (hκ' : κ ≤ 2 ^ (-23 : ℤ)) (ht : t.OK np N M κ) :
    ∃ ch, t.run rnd lm lm' np sum c = .ok ch ∧ ch.WellFormed ∧ ch.nmax = c.nmax ∧ ch.mmax = c.mmax ∧ ∀ n m : ℤ, IsMode c.nmax c.mmax n m → ∃ z, readMap ch n m = some z ∧
      ‖FS.val z - FS.val (w n m)‖ ≤ t.err N M κ C n := by
  have hr := ht.rows
  have hcn : c.mmax ≤ c.nmax := hc.mmax_le
  obtain ⟨nr, nc, sy, an⟩ := t
  cases an with
  | none =>
    obtain ⟨p, ch, e1, e2, e3, e4, e5, e6⟩ := c107_round_trip hrd lm hl np sum hsum sy c hc N M hn hm hN w hw C hC hC' hwC nr nc (by rw [hn]; exact ht.rows) (by rw [hm]; exact ht.cols)
      ht.even ht.size ht.size2 κ hκ hκ' ht.small ht.fft
    refine ⟨ch, ?_, e3, e4, e5, e6⟩
    unfold Trip.run
    simp only [e1]
    exact e2
  | some J =>
    have κ0 : 0 < κ := lt_of_lt_of_le (by positivity) hκ
    have h12 : 12 * Real.sqrt (((2 * nr - 2).toNat : ℝ) + 1) * κ ≤ 1 := by
      have L3 := FU.log3 (r := (2 * nr - 2).toNat) (by simp only at hr; omega)
      have hs := ht.small
      simp only at hs
      have h : 3 * (Real.sqrt (((2 * nr - 2).toNat : ℝ) + 1) * κ) ≤ Nat.log 2 (4 * (2 * nr - 2).toNat) * (Real.sqrt (((2 * nr - 2).toNat : ℝ) + 1) * κ) := mul_le_mul_of_nonneg_right L3 (by positivity)
      have h0 : 0 ≤ Real.sqrt (((2 * nr - 2).toNat : ℝ) + 1) * κ := by positivity
      clear hC hC' hκ hκ'
      linarith
    obtain ⟨p, ch, e1, e2, e3, e4, e5, e6⟩ := c107_kround_trip hrd hl' J np (Fl.npLib rnd lm np sum) rfl sy c hc N M hn hm
      (fun _ => (pow1j_near hrd lm hl).mono (by omega)) hN w hw C hC hC' hwC nr nc (by rw [hn]; exact ht.rows) (by rw [hm]; exact ht.cols)
      ht.even ht.size ht.size2 κ hκ hκ' h12 ht.fft.rows ht.fft.cols
    refine ⟨ch, ?_, e3, e4, e5, e6⟩
    have e1' : Fl.ispht rnd (Fl.pow1j rnd lm) (Fl.ifft2Scaled rnd np) sy c (some nr) (some nc) = .ok p := e1
    unfold Trip.run
    simp only [e1']
    exact e2

theorem drift (hrd : NoOverflow rnd) (lm : Fl.Libm) (hl : LibmOK lm) (lm' : Fl.LibM) (hl' : LibMWithin lm') (np : Fl.Fft1 rnd) (sum : List (FC rnd) → FC rnd) (hsum : SumOK sum)
    (N M : ℕ) (hN : N ≤ 1000) (C : ℝ) (hC : 2 ^ (-690 : ℤ) ≤ C) (hC' : 2 * C ≤ 2 ^ (300 : ℤ)) (κ : ℝ) (hκ : 2 ^ (-45 : ℤ) ≤ κ) (hκ' : κ ≤ 2 ^ (-23 : ℤ))
    (v : ℤ → ℤ → FC rnd) (hv : ∀ n m, IsMode N M n m → |(v n m).re| ≤ C ∧ |(v n m).im| ≤ C) (ts : List Trip) :
    ∀ (c : ScalarCoefs (FC rnd)) (S : ℤ → ℝ), c.WellFormed → c.nmax = N → c.mmax = M → (∀ t ∈ ts, t.OK np N M κ) →
    (∀ n m, IsMode N M n m → ∃ z, readMap c n m = some z ∧ ‖FS.val z - FS.val (v n m)‖ ≤ S n) →
    (∀ n : ℤ, 0 ≤ n → n ≤ N → S n + (ts.map fun t => t.err N M κ (2 * C) n).sum ≤ C) →
    ∃ ch, runTrips rnd lm lm' np sum ts c = .ok ch ∧ ch.WellFormed ∧ ch.nmax = N ∧ ch.mmax = M ∧
      ∀ n m, IsMode N M n m → ∃ z, readMap ch n m = some z ∧ ‖FS.val z - FS.val (v n m)‖ ≤ S n + (ts.map fun t => t.err N M κ (2 * C) n).sum := by
  have C0 : 0 < C := lt_of_lt_of_le (by positivity) hC
  have κ0 : 0 < κ := lt_of_lt_of_le (by positivity) hκ
  have hC2 : 2 ^ (-690 : ℤ) ≤ 2 * C := hC.trans (by clear hC hC' hκ hκ'; linarith)
  induction ts with
  | nil =>
    intro c S hc hn hm _ hS _
    exact ⟨c, rfl, hc, hn, hm, by simpa using hS⟩
  | cons t ts ih =>
    intro c S hc hn hm hok hS hsm
    have hrest : ∀ n : ℤ, 0 ≤ n → 0 ≤ (ts.map fun t => t.err N M κ (2 * C) n).sum := by
      intro n h0
      apply List.sum_nonneg
      intro x hx
      obtain ⟨t', -, rfl⟩ := List.mem_map.mp hx
      exact err_nonneg t' N M κ (2 * C) κ0.le (by positivity) n h0
    have hS' : ∀ n m, IsMode c.nmax c.mmax n m → readMap c n m = some ((readMap c n m).getD 0) ∧ ‖FS.val ((readMap c n m).getD 0) - FS.val (v n m)‖ ≤ S n := by
      intro n m h
      rw [hn, hm] at h
      obtain ⟨z, h1, h2⟩ := hS n m h
      rw [h1]
      exact ⟨rfl, h2⟩
    obtain ⟨ch, e1, e2, e3, e4, e5⟩ := step hrd lm hl lm' hl' np sum hsum t c hc N M hn hm hN (fun n m => (readMap c n m).getD 0) (fun n m h => (hS' n m h).1) (2 * C) hC2 hC'
      (fun n m h => by
        have h2 := (hS' n m h).2
        rw [hn, hm] at h
        have hs := hsm n h.1 h.2.1
        rw [List.map_cons, List.sum_cons] at hs
        have he := err_nonneg t N M κ (2 * C) κ0.le (by positivity) n h.1
        have hr := hrest n h.1
        obtain ⟨v1, v2⟩ := hv n m h
        have a1 := Complex.abs_re_le_norm (FS.val ((readMap c n m).getD 0) - FS.val (v n m))
        have a2 := Complex.abs_im_le_norm (FS.val ((readMap c n m).getD 0) - FS.val (v n m))
        have b1 : |((readMap c n m).getD 0).re - (v n m).re| ≤ C := by
          refine (show _ = |(FS.val ((readMap c n m).getD 0) - FS.val (v n m)).re| from rfl).le.trans (a1.trans (h2.trans ?_))
          clear hC hC' hκ hκ' hC2
          linarith
        have b2 : |((readMap c n m).getD 0).im - (v n m).im| ≤ C := by
          refine (show _ = |(FS.val ((readMap c n m).getD 0) - FS.val (v n m)).im| from rfl).le.trans (a2.trans (h2.trans ?_))
          clear hC hC' hκ hκ' hC2
          linarith
        clear hC hC' hκ hκ' hC2
        rw [abs_le] at v1 v2 b1 b2
        beta_reduce
        rw [abs_le, abs_le]
        exact ⟨⟨by linarith, by linarith⟩, by linarith, by linarith⟩)
      κ hκ hκ' (hok t (List.mem_cons_self ..))
    obtain ⟨cf, f1, f2, f3, f4, f5⟩ := ih ch (fun n => S n + t.err N M κ (2 * C) n) e2 (e3.trans hn) (e4.trans hm) (fun t' h => hok t' (List.mem_cons_of_mem _ h))
      (fun n m h => by
        obtain ⟨z, h1, h2⟩ := e5 n m (by rw [hn, hm]; exact h)
        refine ⟨z, h1, ?_⟩
        have h3 := (hS' n m (by rw [hn, hm]; exact h)).2
        have := norm_sub_le_norm_sub_add_norm_sub (FS.val z) (FS.val ((readMap c n m).getD 0)) (FS.val (v n m))
        clear hC hC' hκ hκ' hC2
        beta_reduce at h2 ⊢
        linarith)
      (fun n h0 h1 => by
        have := hsm n h0 h1
        rw [List.map_cons, List.sum_cons] at this
        clear hC hC' hκ hκ' hC2
        linarith)
    refine ⟨cf, ?_, f2, f3, f4, fun n m h => ?_⟩
    · unfold runTrips
      rw [e1]
      exact f1
    · obtain ⟨z, h1, h2⟩ := f5 n m h
      refine ⟨z, h1, h2.trans (le_of_eq ?_)⟩
      rw [List.map_cons, List.sum_cons]
      ring

end FT

/-- C124: repeated round trips.  Whatever the number of trips, their grids and their backends: if the bounds of C107 (taken at twice the size of the initial coefficients)
add up to at most the size of the initial coefficients, every trip succeeds, the limits never change and no coefficient has drifted by more than that sum. -/
theorem c124_drift (hrd : NoOverflow rnd) (lm : Fl.Libm) (hl : LibmOK lm) (lm' : Fl.LibM) (hl' : LibMWithin lm') (np : Fl.Fft1 rnd) (sum : List (FC rnd) → FC rnd) (hsum : SumOK sum)
    (c : ScalarCoefs (FC rnd)) (hc : c.WellFormed) (N M : ℕ) (hn : c.nmax = N) (hm : c.mmax = M) (hN : N ≤ 1000) (w : ℤ → ℤ → FC rnd)
    (hw : ∀ n m, IsMode c.nmax c.mmax n m → readMap c n m = some (w n m)) (C : ℝ) (hC : 2 ^ (-690 : ℤ) ≤ C) (hC' : 2 * C ≤ 2 ^ (300 : ℤ))
    (hwC : ∀ n m, IsMode c.nmax c.mmax n m → |(w n m).re| ≤ C ∧ |(w n m).im| ≤ C)
    (κ : ℝ) (hκ : 2 ^ (-45 : ℤ) ≤ κ) (hκ' : κ ≤ 2 ^ (-23 : ℤ)) (ts : List Trip) (hts : ∀ t ∈ ts, t.OK np N M κ)
    (hsm : ∀ n : ℤ, 0 ≤ n → n ≤ N → (ts.map fun t => t.err N M κ (2 * C) n).sum ≤ C) :
    ∃ ch, runTrips rnd lm lm' np sum ts c = .ok ch ∧ ch.WellFormed ∧ ch.nmax = c.nmax ∧ ch.mmax = c.mmax ∧
      ∀ n m, IsMode c.nmax c.mmax n m → ∃ z, readMap ch n m = some z ∧ ‖FS.val z - FS.val (w n m)‖ ≤ (ts.map fun t => t.err N M κ (2 * C) n).sum := by
  obtain ⟨ch, e1, e2, e3, e4, e5⟩ := FT.drift hrd lm hl lm' hl' np sum hsum N M hN C hC hC' κ hκ hκ' w (by rw [← hn, ← hm]; exact hwC) ts c (fun _ => 0) hc hn hm hts
    (fun n m h => ⟨w n m, hw n m (by rw [hn, hm]; exact h), by simp⟩) (by simpa using hsm)
  refine ⟨ch, e1, e2, by rw [e3, hn], by rw [e4, hm], fun n m h => ?_⟩
  obtain ⟨z, h1, h2⟩ := e5 n m (by rw [← hn, ← hm]; exact h)
  exact ⟨z, h1, by simpa using h2⟩

namespace FT

theorem err58 (t : Trip) (hr : t.nr = 5) (n : ℤ) (h0 : 0 ≤ n) (h1 : n ≤ 2) : t.err 2 1 (2 ^ (-45 : ℤ)) (2 * 8) n ≤ 2 ^ (-16 : ℤ) := by
  have n0 : (0 : ℝ) ≤ n := by exact_mod_cast h0
  have n1 : (n : ℝ) ≤ 2 := by exact_mod_cast h1
  have s1 := FU.row_le n1
  have s2 := FU.row_le (x := ((2 : ℕ) : ℝ)) (by norm_num)
  have hp : ((n : ℝ) + 4) ^ 3 ≤ 6 ^ 3 := pow_le_pow_left₀ (by linarith) (by linarith) 3
  have hx : ((n : ℝ) + 1) * ((n : ℝ) + 4) ^ 3 ≤ 3 * 6 ^ 3 := mul_le_mul (by linarith) hp (by positivity) (by norm_num)
  have e45 : (2 : ℝ) ^ (-45 : ℤ) = 1 / 35184372088832 := by norm_num
  have e43 : (2 : ℝ) ^ (-43 : ℤ) = 1 / 8796093022208 := by norm_num
  have e34 : (2 : ℝ) ^ (-34 : ℤ) = 1 / 17179869184 := by norm_num
  have e16 : (2 : ℝ) ^ (-16 : ℤ) = 1 / 65536 := by norm_num
  have s0 : 0 ≤ uisphtErr 2 1 (2 ^ (-45 : ℤ)) (2 * 8) := by unfold uisphtErr; positivity
  have si : uisphtErr 2 1 (2 ^ (-45 : ℤ)) (2 * 8) ≤ 1 / 500000000 := by
    unfold uisphtErr
    generalize Real.sqrt ((2 * ((2 : ℕ) : ℝ) + 1) / (4 * Real.pi)) = R at s2
    norm_num
    linarith
  have h8 : (2 * t.nr - 2).toNat = 8 := by rw [hr]; rfl
  unfold Trip.err
  cases t.anal
  · simp only [h8]
    unfold usrtErr
    rw [FU.r9, FU.l9]
    generalize uisphtErr 2 1 (2 ^ (-45 : ℤ)) (2 * 8) = E at *
    refine (mul_le_mul s1 le_rfl (by positivity) (by norm_num)).trans ?_
    rw [e45, e43, e16]
    push_cast
    nlinarith
  · simp only [h8]
    unfold uksrtErr
    rw [FU.r9, FU.l9]
    generalize uisphtErr 2 1 (2 ^ (-45 : ℤ)) (2 * 8) = E at *
    refine (mul_le_mul s1 le_rfl (by positivity) (by norm_num)).trans ?_
    rw [e45, e43, e34, e16]
    push_cast
    nlinarith

theorem sum_le_len {α : Type*} (f : α → ℝ) (b : ℝ) (ts : List α) (h : ∀ t ∈ ts, f t ≤ b) : (ts.map f).sum ≤ ts.length * b := by
  have := List.sum_le_card_nsmul (ts.map f) b (by
    intro x hx
    obtain ⟨t, ht, rfl⟩ := List.mem_map.mp hx
    exact h t ht)
  rwa [List.length_map, nsmul_eq_mul] at this

end FT

/-- Not vacuous: seven complex coefficients are sent through any number `k ≤ 2^19` of round trips over a 5 by 8 grid, in any mixture of backends, and have then drifted by at
most `k · 2^-16`, if the one-dimensional FFTs round the exact transform. -/
theorem c124_example : ∃ (rnd : ℝ → ℝ) (lm : Fl.Libm) (lm' : Fl.LibM) (np : Fl.Fft1 rnd) (sum : List (FC rnd) → FC rnd) (c : ScalarCoefs (FC rnd)) (w : ℤ → ℤ → FC rnd),
    NoOverflow rnd ∧ LibmOK lm ∧ LibMWithin lm' ∧ SumOK sum ∧ c.WellFormed ∧ w 2 (-1) = ⟨4, 1⟩ ∧ (∀ n m : ℤ, IsMode 2 1 n m → readMap c n m = some (w n m)) ∧
    ∀ ts : List Trip, (∀ t ∈ ts, t.nr = 5 ∧ t.nc = 8) → ts.length ≤ 2 ^ 19 →
      ∃ ch, runTrips rnd lm lm' np sum ts c = .ok ch ∧ ∀ n m : ℤ, IsMode 2 1 n m → ∃ z, readMap ch n m = some z ∧ ‖FS.val z - FS.val (w n m)‖ ≤ ts.length * 2 ^ (-16 : ℤ) := by
  obtain ⟨rnd, h⟩ := noOverflow_exists
  have hr := h.toIsRounding
  have hl := FU.libmOK_rnd hr
  have hl' := libMWithin_rnd hr
  have ok := FU.fftOK_good hr
  obtain ⟨C7, -⟩ := FU.c8
  have C8 : 2 * (8 : ℝ) ≤ 2 ^ (300 : ℤ) := by
    refine (show 2 * (8 : ℝ) ≤ 2 ^ (4 : ℤ) by norm_num).trans (zpow_le_zpow_right₀ (by norm_num) (by norm_num))
  obtain ⟨c, hcd⟩ : ∃ c : ScalarCoefs (FC rnd), c = ⟨[⟨0, 1⟩, ⟨1, 1⟩, ⟨2, 1⟩, ⟨3, 1⟩, ⟨4, 1⟩, ⟨5, 1⟩, ⟨6, 1⟩], 2, 1⟩ := ⟨_, rfl⟩
  have hw : c.WF := by subst hcd; exact ⟨by norm_num, by norm_num, rfl⟩
  have hn : c.nmax = ((2 : ℕ) : ℤ) := by subst hcd; rfl
  have hm : c.mmax = ((1 : ℕ) : ℤ) := by subst hcd; rfl
  have hrd : ∀ n m, IsMode c.nmax c.mmax n m → readMap c n m = some ((readMap c n m).getD 0) := by
    intro n m hmo
    rw [readMap_eq hw, ScalarCoefs.absMap_mode hw hmo]; rfl
  have hbd : ∀ n m, IsMode c.nmax c.mmax n m → |((readMap c n m).getD 0).re| ≤ 8 ∧ |((readMap c n m).getD 0).im| ≤ 8 := by
    intro n m hmo
    rw [readMap_eq hw, ScalarCoefs.absMap_mode hw hmo, Option.getD_some]
    have hmem := List.getElem_mem (h := hw.slot_lt hmo)
    have hall : ∀ z ∈ c.vec, |z.re| ≤ 8 ∧ |z.im| ≤ 8 := by
      subst hcd
      intro z hz
      simp only [List.mem_cons, List.not_mem_nil, or_false] at hz
      rcases hz with rfl | rfl | rfl | rfl | rfl | rfl | rfl <;> norm_num
    exact hall _ hmem
  have hcw := ScalarCoefs.wf_iff.mp hw
  refine ⟨rnd, _, _, FP.goodFft rnd, (FA.goodLib rnd).sum, c, fun n m => (readMap c n m).getD 0, h, hl, hl', FA.goodLib_sum, hcw, by subst hcd; rfl, by rw [hn, hm] at hrd; exact hrd, fun ts hts hlen => ?_⟩
  have hle : ∀ n : ℤ, 0 ≤ n → n ≤ 2 → (ts.map fun t => t.err 2 1 (2 ^ (-45 : ℤ)) (2 * 8) n).sum ≤ ts.length * 2 ^ (-16 : ℤ) := fun n h0 h1 =>
    FT.sum_le_len _ _ ts fun t ht => FT.err58 t (hts t ht).1 n h0 h1
  obtain ⟨ch, e1, -, -, -, e5⟩ := c124_drift h _ hl _ hl' (FP.goodFft rnd) (FA.goodLib rnd).sum FA.goodLib_sum c hcw 2 1 hn hm (by norm_num) _ hrd 8 C7 C8 hbd (2 ^ (-45 : ℤ)) le_rfl
    (zpow_le_zpow_right₀ (by norm_num) (by norm_num)) ts
    (fun t ht => by
      obtain ⟨a, b⟩ := hts t ht
      refine ⟨by rw [a]; norm_num, by rw [b]; norm_num, by rw [b]; norm_num, by rw [a]; norm_num, by rw [a, b]; norm_num, ?_, by rw [a, b]; exact ok⟩
      rw [a]
      show 213 * (Nat.log 2 (4 * 8) : ℝ) * Real.sqrt (((8 : ℕ) : ℝ) + 1) * 2 ^ (-45 : ℤ) ≤ 1
      rw [FU.r9, FU.l9]; norm_num)
    (fun n h0 h1 => (hle n h0 h1).trans (by
      have : (ts.length : ℝ) ≤ 2 ^ 19 := by exact_mod_cast hlen
      calc (ts.length : ℝ) * 2 ^ (-16 : ℤ) ≤ 2 ^ 19 * 2 ^ (-16 : ℤ) := mul_le_mul_of_nonneg_right this (by positivity)
        _ = 8 := by norm_num))
  refine ⟨ch, e1, fun n m hmo => ?_⟩
  rw [hn, hm] at e5
  obtain ⟨z, k1, k2⟩ := e5 n m hmo
  exact ⟨z, k1, k2.trans (hle n hmo.1 hmo.2.1)⟩

end Verif.Props
