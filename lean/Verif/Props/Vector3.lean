import Verif.Props.Vector2
import Verif.Props.Transforms3
/-!
# Properties C28, C29, C35, C36 for the vector transforms
-/
namespace Verif.Props
open Verif Finset

/-! ## C35: `vspht` -/

/-- C35: `vspht` accepts the arguments that satisfy the conditions; the result has exactly the requested limits. -/
theorem c35_vspht_accepts (b : Backend) (T P : Arr2 ℂ) (hr : P.rows = T.rows) (hc : P.cols = T.cols) (hR : T.rows % 2 = 0) (hR0 : 0 < T.rows)
    (hsz : T.rows ≤ 2 ^ 29) (n m : ℤ) (h0 : 0 ≤ m)
    (h1 : m ≤ n) (h2 : n ≤ ((T.rows / 2 + 1 : ℕ) : ℤ) - 2) (h3 : 2 * m < T.cols) (h4 : T.cols % 2 = 0) :
    ∃ c, vspht b ⟨T, P⟩ (some n) (some m) = .ok c ∧ c.nmax = n ∧ c.mmax = m ∧ c.WellFormed := by
  obtain ⟨n', rfl⟩ := Int.eq_ofNat_of_zero_le (show 0 ≤ n by omega)
  obtain ⟨m', rfl⟩ := Int.eq_ofNat_of_zero_le h0
  obtain ⟨c, e, e1, e2, hw, -⟩ := vspht_main b T P hR hR0 h4 hr hc (some (n' : ℤ)) (some (m' : ℤ)) n' m' rfl (by omega) (by omega) (by omega)
    (by unfold Backend.SizeOK; cases b <;> simp only
        norm_num at hsz ⊢; omega)
  exact ⟨c, e, e1, e2, hw⟩

theorem guards_reject (R C : ℕ) (n m : ℤ) (h : m > n ∨ n > ((R : ℕ) : ℤ) - 2 ∨ 2 * m ≥ C ∨ C % 2 = 1) :
    ∃ msg, sphtGuards (.ok R) (.ok C) n m = .error ⟨.valueError, msg⟩ := by
  unfold sphtGuards
  by_cases a1 : m > n
  · rw [if_pos a1]; exact ⟨_, rfl⟩
  rw [if_neg a1]
  simp only [Except.bind_ok]
  by_cases a2 : n ≥ ((R : ℕ) : ℤ) - 1
  · rw [if_pos a2]; exact ⟨_, rfl⟩
  rw [if_neg a2]
  by_cases a3 : 2 * m ≥ C
  · rw [if_pos a3]; exact ⟨_, rfl⟩
  rw [if_neg a3, if_pos (by omega)]; exact ⟨_, rfl⟩

theorem vspht_reject (b : Backend) (T P : Arr2 ℂ) (n m : ℤ) {e : PyErr} (h : sphtGuards (.ok (T.rows / 2 + 1)) (.ok T.cols) n m = .error e) :
    vspht b ⟨T, P⟩ (some n) (some m) = .error e := by
  have e3 : sphtArgs (.ok (TPatt.nrows (⟨T, P⟩ : TPatt ℂ))) (.ok (TPatt.ncols (⟨T, P⟩ : TPatt ℂ))) (some n) (some m) = .ok (n, m) := rfl
  have e1 : TPatt.nrows (⟨T, P⟩ : TPatt ℂ) = T.rows / 2 + 1 := rfl
  have e2 : TPatt.ncols (⟨T, P⟩ : TPatt ℂ) = T.cols := rfl
  unfold vspht
  rw [e3]
  simp only [Except.bind_ok]
  rw [e1, e2, h]
  rfl

/-- C35: anything else raises ValueError. -/
theorem c35_vspht_rejects (b : Backend) (T P : Arr2 ℂ) (n m : ℤ)
    (h : m > n ∨ n > ((T.rows / 2 + 1 : ℕ) : ℤ) - 2 ∨ 2 * m ≥ T.cols ∨ T.cols % 2 = 1) :
    Res.Raises (vspht b ⟨T, P⟩ (some n) (some m)) .valueError := by
  obtain ⟨msg, hmsg⟩ := guards_reject (T.rows / 2 + 1) T.cols n m h
  exact ⟨msg, vspht_reject b T P n m hmsg⟩

/-- C35 for `vspht`, the exact criterion. -/
theorem c35_vspht_iff (b : Backend) (T P : Arr2 ℂ) (hr : P.rows = T.rows) (hc : P.cols = T.cols) (hR : T.rows % 2 = 0) (hR0 : 0 < T.rows)
    (hsz : T.rows ≤ 2 ^ 29) (n m : ℤ) (h0 : 0 ≤ m) :
    Res.Raises (vspht b ⟨T, P⟩ (some n) (some m)) .valueError ↔
      m > n ∨ n > ((T.rows / 2 + 1 : ℕ) : ℤ) - 2 ∨ 2 * m ≥ T.cols ∨ T.cols % 2 = 1 := by
  refine ⟨fun ⟨msg, h⟩ => ?_, c35_vspht_rejects b T P n m⟩
  by_contra hcon
  obtain ⟨c, e, -⟩ := c35_vspht_accepts b T P hr hc hR hR0 hsz n m h0 (by omega) (by omega) (by omega) (by omega)
  rw [e] at h
  cases h

/-- C35 for `vspht`: what omitted arguments mean. -/
theorem c35_vspht_defaults (b : Backend) (T P : Arr2 ℂ) (n : ℤ) (mm : Option ℤ) :
    vspht b ⟨T, P⟩ none mm = vspht b ⟨T, P⟩ (some (((T.rows / 2 + 1 : ℕ) : ℤ) - 2)) (some (((T.cols / 2 : ℕ) : ℤ) - 1)) ∧
    vspht b ⟨T, P⟩ (some n) none = vspht b ⟨T, P⟩ (some n) (some n) := ⟨rfl, rfl⟩

/-! ## C36: `vispht` -/

/-- C36 for `vispht`: ValueError exactly for the documented reasons, otherwise a pattern with exactly the requested
shape. -/
theorem c36_vispht (b : Backend) (c : VectorCoefs ℂ) (hc : c.WellFormed) (nr nc : ℤ) :
    (Res.Raises (vispht b c (some nr) (some nc)) .valueError ↔ nr < c.nmax + 2 ∨ nc < 2 * c.mmax + 2 ∨ nc % 2 = 1) ∧
    (¬ (nr < c.nmax + 2 ∨ nc < 2 * c.mmax + 2 ∨ nc % 2 = 1) →
      ∃ p, vispht b c (some nr) (some nc) = .ok p ∧ p.nrows = nr ∧ p.ncols = nc ∧ p.pd.rows = p.td.rows ∧ p.pd.cols = p.td.cols) := by
  have acc : ¬ (nr < c.nmax + 2 ∨ nc < 2 * c.mmax + 2 ∨ nc % 2 = 1) →
      ∃ p, vispht b c (some nr) (some nc) = .ok p ∧ p.nrows = nr ∧ p.ncols = nc ∧ p.pd.rows = p.td.rows ∧ p.pd.cols = p.td.cols := by
    intro h
    have ⟨_, _, _, _, _⟩ := vlimits hc
    obtain ⟨p, e, e1, e2, e3, e4, -⟩ := c37_vispht b c hc nr nc (by omega) (by omega) (by omega)
    refine ⟨p, e, ?_, e2, by omega, by omega⟩
    unfold TPatt.nrows; omega
  refine ⟨⟨fun ⟨msg, h⟩ => ?_, fun h => ?_⟩, acc⟩
  · by_contra hcon
    obtain ⟨p, e, -⟩ := acc hcon
    rw [e] at h; cases h
  · unfold vispht
    simp only [Option.getD_some]
    have key : ∃ msg, visphtGuards c.nmax c.mmax nr nc = .error ⟨.valueError, msg⟩ := by
      unfold visphtGuards
      by_cases a1 : nr < c.nmax + 2
      · rw [if_pos a1]; exact ⟨_, rfl⟩
      rw [if_neg a1]
      by_cases a2 : nc < 2 * c.mmax + 2
      · rw [if_pos a2]; exact ⟨_, rfl⟩
      rw [if_neg a2, if_pos (by omega)]; exact ⟨_, rfl⟩
    obtain ⟨msg, hmsg⟩ := key
    exact ⟨msg, by rw [hmsg]; rfl⟩

/-! ## C28 -/

theorem sc_ext {s t : ScalarCoefs ℂ} (ws : s.WF) (wt : t.WF) (e1 : s.nmax = t.nmax) (e2 : s.mmax = t.mmax)
    (h : ∀ n m : ℤ, IsMode s.nmax s.mmax n m → s.cf n m = t.cf n m) : s = t := by
  refine ScalarCoefs.ext_modes ws wt e1 e2 fun n m hm => ?_
  have hmt : IsMode t.nmax t.mmax n m := by rw [← e1, ← e2]; exact hm
  have hh := h n m hm
  unfold ScalarCoefs.cf at hh
  rw [ScalarCoefs.absMap_mode ws hm, ScalarCoefs.absMap_mode wt hmt] at hh ⊢
  exact congrArg some hh

/-- C28: `vspht` gives the same result with the C extension as with pure Python. -/
theorem c28_vspht (J : ℕ → CJunk) (T P : Arr2 ℂ) (hr : P.rows = T.rows) (hc : P.cols = T.cols) (hR : T.rows % 2 = 0) (hR0 : 0 < T.rows)
    (hsz : T.rows ≤ 2 ^ 29) (n m : ℤ) (h0 : 0 ≤ m) :
    vspht (.c J) ⟨T, P⟩ (some n) (some m) = vspht .py ⟨T, P⟩ (some n) (some m) := by
  by_cases hg : m > n ∨ n > ((T.rows / 2 + 1 : ℕ) : ℤ) - 2 ∨ 2 * m ≥ T.cols ∨ T.cols % 2 = 1
  · obtain ⟨msg, hmsg⟩ := guards_reject (T.rows / 2 + 1) T.cols n m hg
    rw [vspht_reject _ T P n m hmsg, vspht_reject _ T P n m hmsg]
  · obtain ⟨n', rfl⟩ := Int.eq_ofNat_of_zero_le (show 0 ≤ n by omega)
    obtain ⟨m', rfl⟩ := Int.eq_ofNat_of_zero_le h0
    have hh := fun b => vspht_main b T P hR hR0 (by omega) hr hc (some (n' : ℤ)) (some (m' : ℤ)) n' m' rfl (by omega) (by omega) (by omega)
      (by unfold Backend.SizeOK; cases b <;> simp only
          norm_num at hsz ⊢; omega)
    obtain ⟨c, e, c1, c2, cw, cv⟩ := hh (.c J)
    obtain ⟨d, e', d1, d2, dw, dv⟩ := hh .py
    rw [e, e']
    congr 1
    obtain ⟨s1, s2, _, _⟩ := c
    obtain ⟨t1, t2, _, _⟩ := d
    obtain ⟨a1, a2, a3, a4, a5, a6⟩ := cw
    obtain ⟨b1, b2, b3, b4, b5, b6⟩ := dw
    simp only at *
    subst c1 c2 d1 d2
    rw [sc_ext a1.wf b1.wf (a3.trans b3.symm) (a5.trans b5.symm) fun k l hk => by
        rw [a3, a5] at hk
        rw [(cv k l hk).1, (dv k l hk).1],
      sc_ext a2.wf b2.wf (a4.trans b4.symm) (a6.trans b6.symm) fun k l hk => by
        rw [a4, a6] at hk
        rw [(cv k l hk).2, (dv k l hk).2]]

/-- C28: `vispht` gives the same result with the C extension as with pure Python. -/
theorem c28_vispht (J : ℕ → CJunk) (c : VectorCoefs ℂ) (hc : c.WellFormed) (nr nc : ℤ) :
    vispht (.c J) c (some nr) (some nc) = vispht .py c (some nr) (some nc) := by
  by_cases hg : nr < c.nmax + 2 ∨ nc < 2 * c.mmax + 2 ∨ nc % 2 = 1
  · have key : ∃ e, visphtGuards c.nmax c.mmax nr nc = .error e := by
      unfold visphtGuards
      by_cases a1 : nr < c.nmax + 2
      · rw [if_pos a1]; exact ⟨_, rfl⟩
      rw [if_neg a1]
      by_cases a2 : nc < 2 * c.mmax + 2
      · rw [if_pos a2]; exact ⟨_, rfl⟩
      rw [if_neg a2, if_pos (by omega)]; exact ⟨_, rfl⟩
    obtain ⟨e, he⟩ := key
    unfold vispht
    simp only [Option.getD_some]
    rw [he]; rfl
  · obtain ⟨nmax, mmax, hn, hm, hmn⟩ := vlimits hc
    obtain ⟨r, rfl⟩ := Int.eq_ofNat_of_zero_le (show 0 ≤ nr by omega)
    obtain ⟨k, rfl⟩ := Int.eq_ofNat_of_zero_le (show 0 ≤ nc by omega)
    have hh := fun b => vispht_field b c hc nmax mmax r k hn hm (by omega) (by omega) (by omega)
    obtain ⟨p, e, t1, t2, t3, t4, v1, v2⟩ := hh (.c J)
    obtain ⟨q, e', u1, u2, u3, u4, w1, w2⟩ := hh .py
    rw [e, e']
    obtain ⟨T, P⟩ := p
    obtain ⟨T', P'⟩ := q
    simp only at *
    rw [pat_ext (2 * (r - 1)) k t1 t2 u1 u2 fun i j hi hj => by rw [v1 i j hi hj, w1 i j hi hj],
      pat_ext (2 * (r - 1)) k t3 t4 u3 u4 fun i j hi hj => by rw [v2 i j hi hj, w2 i j hi hj]]

/-! ## C29 -/

/-- C29: `vspht` never makes the C code touch memory outside its buffers. -/
theorem c29_vspht (J : ℕ → CJunk) (T P : Arr2 ℂ) (hr : P.rows = T.rows) (hc : P.cols = T.cols) (hR : T.rows % 2 = 0) (hR0 : 0 < T.rows)
    (hsz : T.rows ≤ 2 ^ 29) (n m : ℤ) (h0 : 0 ≤ m) :
    ¬ Res.Raises (vspht (.c J) ⟨T, P⟩ (some n) (some m)) .undefinedBehaviour := by
  rintro ⟨msg, h⟩
  by_cases hg : m > n ∨ n > ((T.rows / 2 + 1 : ℕ) : ℤ) - 2 ∨ 2 * m ≥ T.cols ∨ T.cols % 2 = 1
  · obtain ⟨msg', h'⟩ := c35_vspht_rejects (.c J) T P n m hg
    rw [h] at h'; cases h'
  · obtain ⟨c, h', -⟩ := c35_vspht_accepts (.c J) T P hr hc hR hR0 hsz n m h0 (by omega) (by omega) (by omega) (by omega)
    rw [h] at h'; cases h'

/-- C29: `vispht` never makes the C code touch memory outside its buffers. -/
theorem c29_vispht (J : ℕ → CJunk) (c : VectorCoefs ℂ) (hc : c.WellFormed) (nr nc : ℤ) :
    ¬ Res.Raises (vispht (.c J) c (some nr) (some nc)) .undefinedBehaviour := by
  rintro ⟨msg, h⟩
  by_cases hg : nr < c.nmax + 2 ∨ nc < 2 * c.mmax + 2 ∨ nc % 2 = 1
  · obtain ⟨msg', h'⟩ := ((c36_vispht (.c J) c hc nr nc).1).mpr hg
    rw [h] at h'; cases h'
  · obtain ⟨p, h', -⟩ := ((c36_vispht (.c J) c hc nr nc).2) hg
    rw [h] at h'; cases h'

example : vcsample.WellFormed ∧ ¬ ((4 : ℤ) < vcsample.nmax + 2 ∨ (4 : ℤ) < 2 * vcsample.mmax + 2 ∨ (4 : ℤ) % 2 = 1) :=
  ⟨vcsample_wf, by decide⟩

end Verif.Props
