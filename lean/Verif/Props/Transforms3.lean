import Verif.Props.Transforms2
/-!
# Properties C28, C29, C36: the C extension and the argument checks of `ispht`
-/
namespace Verif.Props
open Verif Finset

/-! ## C28 -/

/-- C28: `spht` gives the same result (value or exception) with the C extension, whatever uninitialised memory contains,
as with pure Python. -/
theorem c28_spht (J : ℕ → CJunk) (D : Arr2 ℂ) (hR : D.rows % 2 = 0) (hR0 : 0 < D.rows) (hsz : D.rows ≤ 2 ^ 29) (n m : ℤ) (h0 : 0 ≤ m) :
    spht (.c J) ⟨.arr D⟩ (some n) (some m) = spht .py ⟨.arr D⟩ (some n) (some m) := by
  by_cases hg : m > n ∨ n > ((D.rows / 2 + 1 : ℕ) : ℤ) - 2 ∨ 2 * m ≥ D.cols ∨ D.cols % 2 = 1
  · have key : ∃ e, sphtGuards (.ok (D.rows / 2 + 1)) (.ok D.cols) n m = .error e := by
      by_contra hne
      obtain ⟨msg, h⟩ := c35_rejects .py D n m hg
      cases hq : sphtGuards (.ok (D.rows / 2 + 1)) (.ok D.cols) n m with
      | error e => exact hne ⟨e, hq⟩
      | ok _ =>
        have : m ≤ n ∧ n < ((D.rows / 2 + 1 : ℕ) : ℤ) - 1 ∧ 2 * m < D.cols ∧ ¬ D.cols % 2 = 1 := by
          unfold sphtGuards at hq
          simp only [Except.bind_ok] at hq
          split at hq
          · cases hq
          split at hq
          · cases hq
          split at hq
          · cases hq
          split at hq
          · cases hq
          omega
        omega
    obtain ⟨e, he⟩ := key
    have hall : ∀ b : Backend, spht b ⟨.arr D⟩ (some n) (some m) = .error e := by
      intro b
      unfold spht
      have e1 : SPatt.nrows (⟨.arr D⟩ : SPatt ℂ) = .ok (D.rows / 2 + 1) := rfl
      have e2 : SPatt.ncols (⟨.arr D⟩ : SPatt ℂ) = .ok D.cols := rfl
      have e3 : sphtArgs (SPatt.nrows (⟨.arr D⟩ : SPatt ℂ)) (SPatt.ncols (⟨.arr D⟩ : SPatt ℂ)) (some n) (some m) = .ok (n, m) := rfl
      rw [e3, e1, e2]
      simp only [Except.bind_ok]
      rw [he]; rfl
    rw [hall, hall]
  · obtain ⟨n', rfl⟩ := Int.eq_ofNat_of_zero_le (show 0 ≤ n by omega)
    obtain ⟨m', rfl⟩ := Int.eq_ofNat_of_zero_le h0
    have hm := fun b : Backend => spht_main b D hR hR0 (by omega) (some (n' : ℤ)) (some (m' : ℤ)) n' m' rfl (by omega) (by omega) (by omega)
      (by unfold Backend.SizeOK; cases b <;> simp only
          norm_num at hsz ⊢; omega)
    obtain ⟨c, e, c1, c2, cw, cv⟩ := hm (.c J)
    obtain ⟨d, e', d1, d2, dw, dv⟩ := hm .py
    rw [e, e']
    congr 1
    refine ScalarCoefs.ext_modes cw dw (by omega) (by omega) fun k l hk => ?_
    rw [c1, c2] at hk
    rw [cv k l hk, dv k l hk]

/-- C28: whenever `spht` returns, `spht_slow` returns the same set. -/
theorem c28_spht_slow (p : SPatt ℂ) (n m : ℤ) (c : ScalarCoefs ℂ) (hR : ∀ D, p.ds = .arr D → D.rows % 2 = 0)
    (h : spht .py p (some n) (some m) = .ok c) : sphtSlow p n m = .ok c := by
  unfold spht at h
  simp only [sphtArgs, Except.bind_ok] at h
  obtain ⟨_, hg, h⟩ := (res_bind_ok _ _ _).mp h
  obtain ⟨D, hD, h⟩ := (res_bind_ok _ _ _).mp h
  have hp : p.ds = .arr D := by
    unfold SPatt.dsphere at hD
    split at hD
    · rename_i A hA; cases hD; exact hA
    · cases hD
  obtain ⟨f, hf, h⟩ := (res_bind_ok _ _ _).mp h
  obtain ⟨g, hgg, h⟩ := (res_bind_ok _ _ _).mp h
  obtain ⟨z, hz, h⟩ := (res_bind_ok _ _ _).mp h
  unfold sphtGuards at hg
  have e1 : p.nrows = .ok (D.rows / 2 + 1) := by unfold SPatt.nrows; rw [hD]; rfl
  have e2 : p.ncols = .ok D.cols := by unfold SPatt.ncols; rw [hD]; rfl
  rw [e1, e2] at hg
  simp only [Except.bind_ok] at hg
  unfold sphtSlow
  split at hg
  · cases hg
  rename_i g1
  split at hg
  · cases hg
  split at hg
  · cases hg
  split at hg
  · cases hg
  rename_i g4
  rw [if_neg g1, hD]
  simp only [Except.bind_ok]
  rw [if_neg (by have := hR D hp; omega), hf]
  simp only [Except.bind_ok]
  rw [hgg]
  simp only [Except.bind_ok]
  exact h

/-- C28: `ispht` gives the same result with the C extension as with pure Python, except for `nmax = 0`, `nrows = 1`
(see `c29_ispht_counterexample`). -/
theorem c28_ispht (J : ℕ → CJunk) (c : ScalarCoefs ℂ) (hc : c.WellFormed) (nr nc : ℤ) (hx : ¬ (c.nmax = 0 ∧ nr = 1)) :
    ispht (.c J) c (some nr) (some nc) = ispht .py c (some nr) (some nc) := by
  have hw := hc.wf
  have h0 : 0 ≤ c.nmax := le_trans hw.m0 hw.mn
  have hm0 := hw.m0
  have hmn := hw.mn
  unfold ispht
  simp only [Option.getD_some]
  cases hg : isphtGuards c.nmax c.mmax nr nc with
  | error e => rfl
  | ok u =>
    simp only [Except.bind_ok]
    have : c.nmax < nr ∧ 2 * c.mmax + 2 ≤ nc := by
      unfold isphtGuards at hg
      split at hg
      · cases hg
      split at hg
      · cases hg
      omega
    obtain ⟨n, hn⟩ := Int.eq_ofNat_of_zero_le h0
    obtain ⟨m, hm⟩ := Int.eq_ofNat_of_zero_le hm0
    obtain ⟨r, hr⟩ := Int.eq_ofNat_of_zero_le (show 0 ≤ 2 * nr - 2 by omega)
    obtain ⟨k, hk⟩ := Int.eq_ofNat_of_zero_le (show 0 ≤ nc by omega)
    have hlen : c.vec.length = seg (n + 1) (2 * m + 1) := by
      have := hw.len
      have e := ncFormula_eq (nmax := n) (mmax := m) (by omega) (by omega)
      rw [hn, hm, e, show ((n : ℤ) + 1).toNat = n + 1 by omega, Int.toNat_natCast] at this
      exact_mod_cast this
    have hb := fun b : Backend => scToFc_backend b 0 c.vec n m r k (by omega) (by omega) (by omega) hlen
    obtain ⟨A, eA, hA⟩ := hb (.c J)
    obtain ⟨B, eB, hB⟩ := hb .py
    rw [hn, hm, hr, hk, eA, eB, hA.ext hB]

/-- C28: whenever `ispht` returns, `ispht_slow` returns the same pattern. -/
theorem c28_ispht_slow (c : ScalarCoefs ℂ) (nr nc : ℤ) (p : SPatt ℂ) (h : ispht .py c (some nr) (some nc) = .ok p) :
    isphtSlow c nr nc = .ok p := by
  unfold ispht at h
  simp only [Option.getD_some] at h
  obtain ⟨_, hg, h⟩ := (res_bind_ok _ _ _).mp h
  unfold isphtGuards at hg
  split at hg
  · cases hg
  split at hg
  · cases hg
  split at hg
  · cases hg
  rename_i g
  unfold isphtSlow
  simp only
  rw [if_neg g]
  exact h

/-! ## C29 -/

/-- C29: `spht` never makes the C code touch memory outside its buffers. -/
theorem c29_spht (J : ℕ → CJunk) (D : Arr2 ℂ) (hR : D.rows % 2 = 0) (hR0 : 0 < D.rows) (hsz : D.rows ≤ 2 ^ 29) (n m : ℤ) (h0 : 0 ≤ m) :
    ¬ Res.Raises (spht (.c J) ⟨.arr D⟩ (some n) (some m)) .undefinedBehaviour := by
  rintro ⟨msg, h⟩
  by_cases hg : m > n ∨ n > ((D.rows / 2 + 1 : ℕ) : ℤ) - 2 ∨ 2 * m ≥ D.cols ∨ D.cols % 2 = 1
  · obtain ⟨msg', h'⟩ := c35_rejects (.c J) D n m hg
    rw [h] at h'; cases h'
  · obtain ⟨c, h', -⟩ := c35_accepts (.c J) D hR hR0 hsz n m h0 (by omega) (by omega) (by omega) (by omega)
    rw [h] at h'; cases h'

/-- C29: `ispht` never makes the C code touch memory outside its buffers, except for `nmax = 0`, `nrows = 1`. -/
theorem c29_ispht (J : ℕ → CJunk) (c : ScalarCoefs ℂ) (hc : c.WellFormed) (nr nc : ℤ) (hx : ¬ (c.nmax = 0 ∧ nr = 1)) :
    ¬ Res.Raises (ispht (.c J) c (some nr) (some nc)) .undefinedBehaviour := by
  have hw := hc.wf
  have h0 : 0 ≤ c.nmax := le_trans hw.m0 hw.mn
  have hm0 := hw.m0
  have hmn := hw.mn
  rintro ⟨msg, h⟩
  unfold ispht at h
  simp only [Option.getD_some] at h
  cases hg : isphtGuards c.nmax c.mmax nr nc with
  | error e =>
    rw [hg] at h
    unfold isphtGuards at hg
    split at hg
    · cases hg; cases h
    split at hg
    · cases hg; cases h
    split at hg
    · cases hg; cases h
    · cases hg
  | ok u =>
    rw [hg] at h
    simp only [Except.bind_ok] at h
    have : c.nmax < nr ∧ 2 * c.mmax + 2 ≤ nc := by
      unfold isphtGuards at hg
      split at hg
      · cases hg
      split at hg
      · cases hg
      omega
    obtain ⟨n, hn⟩ := Int.eq_ofNat_of_zero_le h0
    obtain ⟨m, hm⟩ := Int.eq_ofNat_of_zero_le hm0
    obtain ⟨r, hr⟩ := Int.eq_ofNat_of_zero_le (show 0 ≤ 2 * nr - 2 by omega)
    obtain ⟨k, hk⟩ := Int.eq_ofNat_of_zero_le (show 0 ≤ nc by omega)
    have hlen : c.vec.length = seg (n + 1) (2 * m + 1) := by
      have := hw.len
      have e := ncFormula_eq (nmax := n) (mmax := m) (by omega) (by omega)
      rw [hn, hm, e, show ((n : ℤ) + 1).toNat = n + 1 by omega, Int.toNat_natCast] at this
      exact_mod_cast this
    obtain ⟨A, eA, hA⟩ := scToFc_backend (.c J) 0 c.vec n m r k (by omega) (by omega) (by omega) hlen
    rw [hn, hm, hr, hk, eA] at h
    simp only [Except.bind_ok] at h
    obtain ⟨D, eD, -⟩ := invFourier_spec A r k hA.rows hA.cols (by omega) (by omega)
    rw [eD] at h
    cases h

end Verif.Props
