import Verif.Props.FloatTrips
/-!
# C124: repeated round trips of vector sets in doubles
-/
namespace Verif.Props
open Verif Finset
variable {rnd : ℝ → ℝ}

/-- `vspht(vispht(c, nr, nc), c.nmax, c.mmax)`, spherepy.py 2082-2140 and 1902-1966, in doubles: one round trip of a vector set. -/
noncomputable def Trip.runV (rnd : ℝ → ℝ) (lm : Fl.Libm) (lm' : Fl.LibM) (np : Fl.Fft1 rnd) (sum : List (FC rnd) → FC rnd) (t : Trip) (c : VectorCoefs (FC rnd)) : Res (VectorCoefs (FC rnd)) :=
  (Fl.vispht rnd (Fl.pow1j rnd lm) (Fl.visphtPost rnd (Fl.ifft2Scaled rnd np)) t.synth c (some t.nr) (some t.nc)).bind fun p =>
  match t.anal with
  | none => Fl.vspht rnd (Fl.npLib rnd lm np sum) .py p (some c.nmax) (some c.mmax)
  | some J => Fl.kVspht rnd (Fl.npLib rnd lm np sum) lm' J p (some c.nmax) (some c.mmax)

/-- A list of vector round trips, one after the other. -/
noncomputable def runTripsV (rnd : ℝ → ℝ) (lm : Fl.Libm) (lm' : Fl.LibM) (np : Fl.Fft1 rnd) (sum : List (FC rnd) → FC rnd) : List Trip → VectorCoefs (FC rnd) → Res (VectorCoefs (FC rnd))
  | [], c => .ok c
  | t :: ts, c => (t.runV rnd lm lm' np sum c).bind (runTripsV rnd lm lm' np sum ts)

/-- The bound of C107 for one vector round trip. -/
noncomputable def Trip.errV (t : Trip) (N M : ℕ) (κ C : ℝ) (n : ℤ) : ℝ :=
  match t.anal with
  | none => uvrtErr (2 * t.nr - 2).toNat t.nc.toNat N M κ C n
  | some _ => ukvrtErr (2 * t.nr - 2).toNat t.nc.toNat N M κ C n

/-- What C107 asks of one vector round trip of coefficients of modulus at most `C` in each part. -/
structure Trip.OKV (t : Trip) (np : Fl.Fft1 rnd) (N M : ℕ) (κ C : ℝ) : Prop where
  rows : (N : ℤ) + 2 ≤ t.nr
  cols : 2 * (M : ℤ) + 2 ≤ t.nc
  even : t.nc % 2 = 0
  size : t.nr ≤ 2 ^ 27
  size2 : (2 * t.nr - 2) * t.nc < 2 ^ 53
  synth : uvisphtErr (2 * t.nr - 2).toNat t.nc.toNat N M κ C ≤ (N + 1) ^ 2 * C / 5
  small : 400 * Nat.log 2 (4 * (2 * t.nr - 2).toNat) * Real.sqrt (((2 * t.nr - 2).toNat : ℝ) + 1) * κ ≤ 1
  fft : FftOK np κ (2 * t.nr - 2).toNat t.nc.toNat

namespace FT

theorem errV_nonneg (t : Trip) (N M : ℕ) (κ C : ℝ) (hκ : 0 ≤ κ) (hC : 0 ≤ C) (n : ℤ) (hn : 0 ≤ n) : 0 ≤ t.errV N M κ C n := by
  have h : (0 : ℝ) ≤ n := by exact_mod_cast hn
  have hu : 0 ≤ uvisphtErr (2 * t.nr - 2).toNat t.nc.toNat N M κ C := by unfold uvisphtErr; positivity
  unfold Trip.errV
  cases t.anal
  · simp only []; unfold uvrtErr; positivity
  · simp only []; unfold ukvrtErr; positivity

theorem stepV (hrd : NoOverflow rnd) (lm : Fl.Libm) (hl : LibmOK lm) (lm' : Fl.LibM) (hl' : LibMWithin lm') (np : Fl.Fft1 rnd) (sum : List (FC rnd) → FC rnd) (hsum : SumOK sum)
    (t : Trip) (c : VectorCoefs (FC rnd)) (hc : c.WellFormed) (N M : ℕ) (hn : c.nmax = N) (hm : c.mmax = M) (hN : N ≤ 1000) (v w : ℤ → ℤ → FC rnd)
    (hvw : ∀ n m, IsMode c.nmax c.mmax n m → n ≠ 0 → readMapV c n m = some (v n m, w n m)) (C : ℝ) (hC : 2 ^ (-690 : ℤ) ≤ C) (hC' : C ≤ 2 ^ (300 : ℤ))
    (hvC : ∀ n m, IsMode c.nmax c.mmax n m → n ≠ 0 → |(v n m).re| ≤ C ∧ |(v n m).im| ≤ C) (hwC : ∀ n m, IsMode c.nmax c.mmax n m → n ≠ 0 → |(w n m).re| ≤ C ∧ |(w n m).im| ≤ C)
    (κ : ℝ) (hκ : 2 ^ (-45 : ℤ) ≤ κ) (ht : t.OKV np N M κ C) :
    ∃ ch, t.runV rnd lm lm' np sum c = .ok ch ∧ ch.WellFormed ∧ ch.nmax = c.nmax ∧ ch.mmax = c.mmax ∧ ∀ n m : ℤ, IsMode c.nmax c.mmax n m → n ≠ 0 → ∃ z, readMapV ch n m = some z ∧
      ‖FS.val z.1 - FS.val (v n m)‖ ≤ t.errV N M κ C n ∧ ‖FS.val z.2 - FS.val (w n m)‖ ≤ t.errV N M κ C n := by
  have hr := ht.rows
  have hcn : M ≤ N := by have := hc.wf1.wf.mn; have := hc.n1; have := hc.m1; omega
  obtain ⟨nr, nc, sy, an⟩ := t
  cases an with
  | none =>
    obtain ⟨p, ch, e1, e2, e3, e4, e5, e6⟩ := c107_vround_trip hrd lm hl np sum hsum sy c hc N M hn hm hN v w hvw C hC hC' hvC hwC nr nc (by rw [hn]; exact ht.rows) (by rw [hm]; exact ht.cols)
      ht.even ht.size ht.size2 κ hκ ht.synth ht.small ht.fft
    refine ⟨ch, ?_, e3, e4, e5, e6⟩
    unfold Trip.runV
    simp only [e1]
    exact e2
  | some J =>
    have κ0 : 0 < κ := lt_of_lt_of_le (by positivity) hκ
    have h12 : 1200 * Real.sqrt (((2 * nr - 2).toNat : ℝ) + 1) * κ ≤ 1 := by
      have L3 := FU.log3 (r := (2 * nr - 2).toNat) (by simp only at hr; omega)
      have hs := ht.small
      simp only at hs
      have h : 3 * (Real.sqrt (((2 * nr - 2).toNat : ℝ) + 1) * κ) ≤ Nat.log 2 (4 * (2 * nr - 2).toNat) * (Real.sqrt (((2 * nr - 2).toNat : ℝ) + 1) * κ) := mul_le_mul_of_nonneg_right L3 (by positivity)
      have h0 : 0 ≤ Real.sqrt (((2 * nr - 2).toNat : ℝ) + 1) * κ := by positivity
      clear hC hC' hκ
      linarith
    obtain ⟨p, ch, e1, e2, e3, e4, e5, e6⟩ := c107_kvround_trip hrd hl' J np (Fl.npLib rnd lm np sum) rfl sy c hc N M hn hm
      (fun _ => (pow1j_near hrd lm hl).mono (by omega)) hN v w hvw C hC hC' hvC hwC nr nc (by rw [hn]; exact ht.rows) (by rw [hm]; exact ht.cols)
      ht.even ht.size ht.size2 κ hκ ht.synth h12 ht.fft.rows ht.fft.cols
    refine ⟨ch, ?_, e3, e4, e5, e6⟩
    have e1' : Fl.vispht rnd (Fl.pow1j rnd lm) (Fl.visphtPost rnd (Fl.ifft2Scaled rnd np)) sy c (some nr) (some nc) = .ok p := e1
    unfold Trip.runV
    simp only [e1']
    exact e2

/-- A number close to a small one is small. -/
theorem near_small {z v : FC rnd} {d C : ℝ} (h : ‖FS.val z - FS.val v‖ ≤ d) (hd : d ≤ C) (hv : |v.re| ≤ C ∧ |v.im| ≤ C) : |z.re| ≤ 2 * C ∧ |z.im| ≤ 2 * C := by
  have a1 := (show |z.re - v.re| = |(FS.val z - FS.val v).re| from rfl).le.trans ((Complex.abs_re_le_norm (FS.val z - FS.val v)).trans (h.trans hd))
  have a2 := (show |z.im - v.im| = |(FS.val z - FS.val v).im| from rfl).le.trans ((Complex.abs_im_le_norm (FS.val z - FS.val v)).trans (h.trans hd))
  obtain ⟨v1, v2⟩ := hv
  rw [abs_le] at *
  rw [abs_le]
  exact ⟨⟨by linarith, by linarith⟩, by linarith, by linarith⟩

theorem driftV (hrd : NoOverflow rnd) (lm : Fl.Libm) (hl : LibmOK lm) (lm' : Fl.LibM) (hl' : LibMWithin lm') (np : Fl.Fft1 rnd) (sum : List (FC rnd) → FC rnd) (hsum : SumOK sum)
    (N M : ℕ) (hN : N ≤ 1000) (C : ℝ) (hC : 2 ^ (-690 : ℤ) ≤ C) (hC' : 2 * C ≤ 2 ^ (300 : ℤ)) (κ : ℝ) (hκ : 2 ^ (-45 : ℤ) ≤ κ)
    (v w : ℤ → ℤ → FC rnd) (hv : ∀ n m, IsMode N M n m → n ≠ 0 → |(v n m).re| ≤ C ∧ |(v n m).im| ≤ C) (hw : ∀ n m, IsMode N M n m → n ≠ 0 → |(w n m).re| ≤ C ∧ |(w n m).im| ≤ C) (ts : List Trip) :
    ∀ (c : VectorCoefs (FC rnd)) (S : ℤ → ℝ), c.WellFormed → c.nmax = N → c.mmax = M → (∀ t ∈ ts, t.OKV np N M κ (2 * C)) →
    (∀ n m, IsMode N M n m → n ≠ 0 → ∃ z, readMapV c n m = some z ∧ ‖FS.val z.1 - FS.val (v n m)‖ ≤ S n ∧ ‖FS.val z.2 - FS.val (w n m)‖ ≤ S n) →
    (∀ n : ℤ, 1 ≤ n → n ≤ N → S n + (ts.map fun t => t.errV N M κ (2 * C) n).sum ≤ C) →
    ∃ ch, runTripsV rnd lm lm' np sum ts c = .ok ch ∧ ch.WellFormed ∧ ch.nmax = N ∧ ch.mmax = M ∧
      ∀ n m, IsMode N M n m → n ≠ 0 → ∃ z, readMapV ch n m = some z ∧ ‖FS.val z.1 - FS.val (v n m)‖ ≤ S n + (ts.map fun t => t.errV N M κ (2 * C) n).sum ∧
        ‖FS.val z.2 - FS.val (w n m)‖ ≤ S n + (ts.map fun t => t.errV N M κ (2 * C) n).sum := by
  have C0 : 0 < C := lt_of_lt_of_le (by positivity) hC
  have κ0 : 0 < κ := lt_of_lt_of_le (by positivity) hκ
  have hC2 : 2 ^ (-690 : ℤ) ≤ 2 * C := hC.trans (by clear hC hC' hκ; linarith)
  induction ts with
  | nil =>
    intro c S hc hn hm _ hS _
    exact ⟨c, rfl, hc, hn, hm, by simpa using hS⟩
  | cons t ts ih =>
    intro c S hc hn hm hok hS hsm
    have hrest : ∀ n : ℤ, 0 ≤ n → 0 ≤ (ts.map fun t => t.errV N M κ (2 * C) n).sum := by
      intro n h0
      apply List.sum_nonneg
      intro x hx
      obtain ⟨t', -, rfl⟩ := List.mem_map.mp hx
      exact errV_nonneg t' N M κ (2 * C) κ0.le (by positivity) n h0
    have hS' : ∀ n m, IsMode c.nmax c.mmax n m → n ≠ 0 → readMapV c n m = some (((readMapV c n m).getD (0, 0)).1, ((readMapV c n m).getD (0, 0)).2) ∧
        ‖FS.val ((readMapV c n m).getD (0, 0)).1 - FS.val (v n m)‖ ≤ S n ∧ ‖FS.val ((readMapV c n m).getD (0, 0)).2 - FS.val (w n m)‖ ≤ S n := by
      intro n m h n0
      rw [hn, hm] at h
      obtain ⟨z, h1, h2⟩ := hS n m h n0
      rw [h1]
      exact ⟨rfl, h2⟩
    have hSC : ∀ n m, IsMode c.nmax c.mmax n m → n ≠ 0 → S n ≤ C := by
      intro n m h n0
      rw [hn, hm] at h
      have hs := hsm n (by have := h.1; omega) h.2.1
      rw [List.map_cons, List.sum_cons] at hs
      have he := errV_nonneg t N M κ (2 * C) κ0.le (by positivity) n h.1
      have hr := hrest n h.1
      clear hC hC' hκ hC2
      linarith
    obtain ⟨ch, e1, e2, e3, e4, e5⟩ := stepV hrd lm hl lm' hl' np sum hsum t c hc N M hn hm hN (fun n m => ((readMapV c n m).getD (0, 0)).1) (fun n m => ((readMapV c n m).getD (0, 0)).2)
      (fun n m h n0 => (hS' n m h n0).1) (2 * C) hC2 hC'
      (fun n m h n0 => near_small (hS' n m h n0).2.1 (hSC n m h n0) (hv n m (by rw [← hn, ← hm]; exact h) n0))
      (fun n m h n0 => near_small (hS' n m h n0).2.2 (hSC n m h n0) (hw n m (by rw [← hn, ← hm]; exact h) n0))
      κ hκ (hok t (List.mem_cons_self ..))
    obtain ⟨cf, f1, f2, f3, f4, f5⟩ := ih ch (fun n => S n + t.errV N M κ (2 * C) n) e2 (e3.trans hn) (e4.trans hm) (fun t' h => hok t' (List.mem_cons_of_mem _ h))
      (fun n m h n0 => by
        obtain ⟨z, h1, h2, h2'⟩ := e5 n m (by rw [hn, hm]; exact h) n0
        obtain ⟨-, h3, h3'⟩ := hS' n m (by rw [hn, hm]; exact h) n0
        have t1 := norm_sub_le_norm_sub_add_norm_sub (FS.val z.1) (FS.val ((readMapV c n m).getD (0, 0)).1) (FS.val (v n m))
        have t2 := norm_sub_le_norm_sub_add_norm_sub (FS.val z.2) (FS.val ((readMapV c n m).getD (0, 0)).2) (FS.val (w n m))
        clear hC hC' hκ hC2
        beta_reduce at h2 h2' ⊢
        exact ⟨z, h1, by linarith, by linarith⟩)
      (fun n h0 h1 => by
        have := hsm n h0 h1
        rw [List.map_cons, List.sum_cons] at this
        clear hC hC' hκ hC2
        linarith)
    refine ⟨cf, ?_, f2, f3, f4, fun n m h n0 => ?_⟩
    · unfold runTripsV
      rw [e1]
      exact f1
    · obtain ⟨z, h1, h2, h3⟩ := f5 n m h n0
      have he : S n + ((t :: ts).map fun t => t.errV N M κ (2 * C) n).sum = S n + t.errV N M κ (2 * C) n + (ts.map fun t => t.errV N M κ (2 * C) n).sum := by
        rw [List.map_cons, List.sum_cons]
        ring
      rw [he]
      exact ⟨z, h1, h2, h3⟩

end FT

/-- C124 for vector sets: whatever the number of trips, their grids and their backends, every trip succeeds, the limits never change and no coefficient of either part has
drifted by more than the sum of the bounds of C107 for the single trips, as long as that sum is at most the size of the initial coefficients. -/
theorem c124_vdrift (hrd : NoOverflow rnd) (lm : Fl.Libm) (hl : LibmOK lm) (lm' : Fl.LibM) (hl' : LibMWithin lm') (np : Fl.Fft1 rnd) (sum : List (FC rnd) → FC rnd) (hsum : SumOK sum)
    (c : VectorCoefs (FC rnd)) (hc : c.WellFormed) (N M : ℕ) (hn : c.nmax = N) (hm : c.mmax = M) (hN : N ≤ 1000) (v w : ℤ → ℤ → FC rnd)
    (hvw : ∀ n m, IsMode c.nmax c.mmax n m → n ≠ 0 → readMapV c n m = some (v n m, w n m)) (C : ℝ) (hC : 2 ^ (-690 : ℤ) ≤ C) (hC' : 2 * C ≤ 2 ^ (300 : ℤ))
    (hvC : ∀ n m, IsMode c.nmax c.mmax n m → n ≠ 0 → |(v n m).re| ≤ C ∧ |(v n m).im| ≤ C) (hwC : ∀ n m, IsMode c.nmax c.mmax n m → n ≠ 0 → |(w n m).re| ≤ C ∧ |(w n m).im| ≤ C)
    (κ : ℝ) (hκ : 2 ^ (-45 : ℤ) ≤ κ) (ts : List Trip) (hts : ∀ t ∈ ts, t.OKV np N M κ (2 * C))
    (hsm : ∀ n : ℤ, 1 ≤ n → n ≤ N → (ts.map fun t => t.errV N M κ (2 * C) n).sum ≤ C) :
    ∃ ch, runTripsV rnd lm lm' np sum ts c = .ok ch ∧ ch.WellFormed ∧ ch.nmax = c.nmax ∧ ch.mmax = c.mmax ∧
      ∀ n m, IsMode c.nmax c.mmax n m → n ≠ 0 → ∃ z, readMapV ch n m = some z ∧ ‖FS.val z.1 - FS.val (v n m)‖ ≤ (ts.map fun t => t.errV N M κ (2 * C) n).sum ∧
        ‖FS.val z.2 - FS.val (w n m)‖ ≤ (ts.map fun t => t.errV N M κ (2 * C) n).sum := by
  obtain ⟨ch, e1, e2, e3, e4, e5⟩ := FT.driftV hrd lm hl lm' hl' np sum hsum N M hN C hC hC' κ hκ v w (by rw [← hn, ← hm]; exact hvC) (by rw [← hn, ← hm]; exact hwC) ts c (fun _ => 0) hc hn hm hts
    (fun n m h n0 => ⟨_, hvw n m (by rw [hn, hm]; exact h) n0, by simp⟩) (by simpa using hsm)
  refine ⟨ch, e1, e2, by rw [e3, hn], by rw [e4, hm], fun n m h n0 => ?_⟩
  obtain ⟨z, h1, h2⟩ := e5 n m (by rw [← hn, ← hm]; exact h) n0
  exact ⟨z, h1, by simpa using h2⟩

namespace FT

theorem si58 : 0 ≤ uvisphtErr 8 8 1 1 (2 ^ (-45 : ℤ)) (2 * 8) ∧ uvisphtErr 8 8 1 1 (2 ^ (-45 : ℤ)) (2 * 8) ≤ 1 / 40000000 := by
  have s2 := FU.row_le (x := ((1 : ℕ) : ℝ)) (by norm_num)
  have s20 : 0 ≤ Real.sqrt ((2 * ((1 : ℕ) : ℝ) + 1) / (4 * Real.pi)) := Real.sqrt_nonneg _
  refine ⟨by unfold uvisphtErr; positivity, ?_⟩
  unfold uvisphtErr
  generalize Real.sqrt ((2 * ((1 : ℕ) : ℝ) + 1) / (4 * Real.pi)) = R at s2 s20
  norm_num
  linarith

theorem errV58 (t : Trip) (hr : t.nr = 5) (hc : t.nc = 8) (n : ℤ) (h0 : 1 ≤ n) (h1 : n ≤ 1) : t.errV 1 1 (2 ^ (-45 : ℤ)) (2 * 8) n ≤ 2 ^ (-11 : ℤ) := by
  obtain rfl : n = 1 := by omega
  obtain ⟨s0, si⟩ := si58
  have e45 : (2 : ℝ) ^ (-45 : ℤ) = 1 / 35184372088832 := by norm_num
  have e42 : (2 : ℝ) ^ (-42 : ℤ) = 1 / 4398046511104 := by norm_num
  have e34 : (2 : ℝ) ^ (-34 : ℤ) = 1 / 17179869184 := by norm_num
  have e12 : (2 : ℝ) ^ (-11 : ℤ) = 1 / 2048 := by norm_num
  have s1 := FU.row_le (x := ((1 : ℤ) : ℝ)) (by norm_num)
  have v1 : 1 / Real.sqrt (((1 : ℤ) : ℝ) * (((1 : ℤ) : ℝ) + 1)) ≤ 1 := by
    rw [div_le_one (by positivity), Real.one_le_sqrt]
    norm_num
  have h8 : (2 * t.nr - 2).toNat = 8 := by rw [hr]; rfl
  have h8' : t.nc.toNat = 8 := by rw [hc]; rfl
  unfold Trip.errV
  cases t.anal
  · simp only [h8, h8']
    unfold uvrtErr
    rw [FU.r9, FU.l9]
    generalize uvisphtErr 8 8 1 1 (2 ^ (-45 : ℤ)) (2 * 8) = E at *
    refine (mul_le_mul v1 (mul_le_mul s1 le_rfl (by positivity) (by norm_num)) (by positivity) (by norm_num)).trans ?_
    rw [e45, e42, e12]
    push_cast
    norm_num
    linarith
  · simp only [h8, h8']
    unfold ukvrtErr
    rw [FU.r9, FU.l9]
    generalize uvisphtErr 8 8 1 1 (2 ^ (-45 : ℤ)) (2 * 8) = E at *
    refine (mul_le_mul v1 (mul_le_mul s1 le_rfl (by positivity) (by norm_num)) (by positivity) (by norm_num)).trans ?_
    rw [e45, e42, e34, e12]
    push_cast
    norm_num
    linarith

end FT

/-- Not vacuous: a vector set is sent through any number `k ≤ 2^14` of round trips over a 5 by 8 grid, in any mixture of backends, and has then drifted by at most `k · 2^-11`. -/
theorem c124_vexample : ∃ (rnd : ℝ → ℝ) (lm : Fl.Libm) (lm' : Fl.LibM) (np : Fl.Fft1 rnd) (sum : List (FC rnd) → FC rnd) (c : VectorCoefs (FC rnd)) (v w : ℤ → ℤ → FC rnd),
    NoOverflow rnd ∧ LibmOK lm ∧ LibMWithin lm' ∧ SumOK sum ∧ c.WellFormed ∧ v 1 (-1) = ⟨2, 1⟩ ∧ w 1 1 = ⟨7, 1⟩ ∧
    (∀ n m : ℤ, IsMode 1 1 n m → n ≠ 0 → readMapV c n m = some (v n m, w n m)) ∧
    ∀ ts : List Trip, (∀ t ∈ ts, t.nr = 5 ∧ t.nc = 8) → ts.length ≤ 2 ^ 14 →
      ∃ ch, runTripsV rnd lm lm' np sum ts c = .ok ch ∧ ∀ n m : ℤ, IsMode 1 1 n m → n ≠ 0 → ∃ z, readMapV ch n m = some z ∧
        ‖FS.val z.1 - FS.val (v n m)‖ ≤ ts.length * 2 ^ (-11 : ℤ) ∧ ‖FS.val z.2 - FS.val (w n m)‖ ≤ ts.length * 2 ^ (-11 : ℤ) := by
  obtain ⟨rnd, h⟩ := noOverflow_exists
  have hr := h.toIsRounding
  have hl := FU.libmOK_rnd hr
  have hl' := libMWithin_rnd hr
  have ok := FU.fftOK_good hr
  obtain ⟨C7, -⟩ := FU.c8
  have C8 : 2 * (8 : ℝ) ≤ 2 ^ (300 : ℤ) := by
    refine (show 2 * (8 : ℝ) ≤ 2 ^ (4 : ℤ) by norm_num).trans (zpow_le_zpow_right₀ (by norm_num) (by norm_num))
  obtain ⟨c, hcd⟩ : ∃ c : VectorCoefs (FC rnd), c = ⟨⟨[⟨0, 1⟩, ⟨1, 1⟩, ⟨2, 1⟩, ⟨3, 1⟩], 1, 1⟩, ⟨[⟨4, 1⟩, ⟨5, 1⟩, ⟨6, 1⟩, ⟨7, 1⟩], 1, 1⟩, 1, 1⟩ := ⟨_, rfl⟩
  have w1 : c.scoef1.WF := by subst hcd; exact ⟨by norm_num, by norm_num, rfl⟩
  have w2 : c.scoef2.WF := by subst hcd; exact ⟨by norm_num, by norm_num, rfl⟩
  have hn : c.nmax = ((1 : ℕ) : ℤ) := by subst hcd; rfl
  have hm : c.mmax = ((1 : ℕ) : ℤ) := by subst hcd; rfl
  have hc : c.WellFormed := ⟨ScalarCoefs.wf_iff.mp w1, ScalarCoefs.wf_iff.mp w2, by subst hcd; rfl, by subst hcd; rfl, by subst hcd; rfl, by subst hcd; rfl⟩
  have hx : ∀ n m, IsMode c.nmax c.mmax n m → n ≠ 0 → ∃ x y, readMapV c n m = some (x, y) ∧ x ∈ c.scoef1.vec ∧ y ∈ c.scoef2.vec := by
    intro n m hmo n0
    have m1 : IsMode c.scoef1.nmax c.scoef1.mmax n m := by rw [hc.n1, hc.m1]; exact hmo
    have m2 : IsMode c.scoef2.nmax c.scoef2.mmax n m := by rw [hc.n2, hc.m2]; exact hmo
    rw [readMapV_eq hc, if_neg n0, ScalarCoefs.absMap_mode w1 m1, ScalarCoefs.absMap_mode w2 m2]
    exact ⟨_, _, rfl, List.getElem_mem _, List.getElem_mem _⟩
  have hall : (∀ z ∈ c.scoef1.vec, |z.re| ≤ 8 ∧ |z.im| ≤ 8) ∧ ∀ z ∈ c.scoef2.vec, |z.re| ≤ 8 ∧ |z.im| ≤ 8 := by
    subst hcd
    constructor <;> intro z hz <;> simp only [List.mem_cons, List.not_mem_nil, or_false] at hz <;> rcases hz with rfl | rfl | rfl | rfl <;> norm_num
  have hvw : ∀ n m, IsMode c.nmax c.mmax n m → n ≠ 0 → readMapV c n m = some (((readMapV c n m).getD (0, 0)).1, ((readMapV c n m).getD (0, 0)).2) := by
    intro n m a1 a2
    obtain ⟨x, y, h1, -, -⟩ := hx n m a1 a2
    rw [h1]; rfl
  have hvC : ∀ n m, IsMode c.nmax c.mmax n m → n ≠ 0 → |((readMapV c n m).getD (0, 0)).1.re| ≤ 8 ∧ |((readMapV c n m).getD (0, 0)).1.im| ≤ 8 := by
    intro n m a1 a2
    obtain ⟨x, y, h1, h2, -⟩ := hx n m a1 a2
    simp only [h1]; exact hall.1 x h2
  have hwC : ∀ n m, IsMode c.nmax c.mmax n m → n ≠ 0 → |((readMapV c n m).getD (0, 0)).2.re| ≤ 8 ∧ |((readMapV c n m).getD (0, 0)).2.im| ≤ 8 := by
    intro n m a1 a2
    obtain ⟨x, y, h1, -, h2⟩ := hx n m a1 a2
    simp only [h1]; exact hall.2 y h2
  refine ⟨rnd, _, _, FP.goodFft rnd, (FA.goodLib rnd).sum, c, fun n m => ((readMapV c n m).getD (0, 0)).1, fun n m => ((readMapV c n m).getD (0, 0)).2, h, hl, hl', FA.goodLib_sum, hc,
    by subst hcd; rfl, by subst hcd; rfl, by rw [hn, hm] at hvw; exact hvw, fun ts hts hlen => ?_⟩
  have hle : ∀ n : ℤ, 1 ≤ n → n ≤ 1 → (ts.map fun t => t.errV 1 1 (2 ^ (-45 : ℤ)) (2 * 8) n).sum ≤ ts.length * 2 ^ (-11 : ℤ) := fun n h0 h1 =>
    FT.sum_le_len _ _ ts fun t ht => FT.errV58 t (hts t ht).1 (hts t ht).2 n h0 h1
  obtain ⟨ch, e1, -, -, -, e5⟩ := c124_vdrift h _ hl _ hl' (FP.goodFft rnd) (FA.goodLib rnd).sum FA.goodLib_sum c hc 1 1 hn hm (by norm_num) _ _ hvw 8 C7 C8 hvC hwC (2 ^ (-45 : ℤ)) le_rfl ts
    (fun t ht => by
      obtain ⟨a, b⟩ := hts t ht
      refine ⟨by rw [a]; norm_num, by rw [b]; norm_num, by rw [b]; norm_num, by rw [a]; norm_num, by rw [a, b]; norm_num, ?_, ?_, by rw [a, b]; exact ok⟩
      · rw [a, b]
        exact FT.si58.2.trans (by norm_num)
      · rw [a]
        show 400 * (Nat.log 2 (4 * 8) : ℝ) * Real.sqrt (((8 : ℕ) : ℝ) + 1) * 2 ^ (-45 : ℤ) ≤ 1
        rw [FU.r9, FU.l9]; norm_num)
    (fun n h0 h1 => (hle n h0 (by exact_mod_cast h1)).trans (by
      have : (ts.length : ℝ) ≤ 2 ^ 14 := by exact_mod_cast hlen
      calc (ts.length : ℝ) * 2 ^ (-11 : ℤ) ≤ 2 ^ 14 * 2 ^ (-11 : ℤ) := mul_le_mul_of_nonneg_right this (by positivity)
        _ = 8 := by norm_num))
  refine ⟨ch, e1, fun n m hmo n0 => ?_⟩
  rw [hn, hm] at e5
  obtain ⟨z, k1, k2, k3⟩ := e5 n m hmo n0
  have n1 : 1 ≤ n := by have := hmo.1; omega
  exact ⟨z, k1, k2.trans (hle n n1 (by exact_mod_cast hmo.2.1)), k3.trans (hle n n1 (by exact_mod_cast hmo.2.1))⟩

end Verif.Props
