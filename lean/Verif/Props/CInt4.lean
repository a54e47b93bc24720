import Verif.Props.CInt3
/-!
# C89: the exact threshold for `vspht` and `vispht`
-/
namespace Verif.Props
open Verif XI

/-- C89: for an accepted `vspht` call with `mmax ≥ 1`, the C extension overflows an `int` exactly when the padded components have more than 2^31 samples. -/
theorem c89_vspht_iff (J : ℕ → CJunk) (T P : Arr2 ℂ) (hr : P.rows = T.rows) (hc : P.cols = T.cols) (hR : T.rows % 2 = 0) (hR0 : 0 < T.rows) (hsz : T.rows ≤ 2 ^ 29) (n m : ℤ) (h0 : 1 ≤ m)
    (hmn : m ≤ n) (hn : n ≤ ((T.rows / 2 + 1 : ℕ) : ℤ) - 2) (hm : 2 * m < T.cols) (hC : T.cols % 2 = 0) :
    Res.Raises (xVspht J ⟨T, P⟩ (some n) (some m)) .undefinedBehaviour ↔ 2 ^ 31 < (T.rows + 2) * T.cols := by
  obtain ⟨c, ec, -⟩ := c35_vspht_accepts (.c J) T P hr hc hR hR0 hsz n m (by omega) hmn hn (by omega) (by omega)
  constructor
  · rintro ⟨msg, h⟩
    by_contra hlt
    rw [c89_vspht J T P hr hc hR hR0 hsz (by omega) n m (by omega), ← c28_vspht J T P hr hc hR hR0 hsz n m (by omega), ec] at h
    cases h
  · intro hbig
    have hs : Sim (xVspht J ⟨T, P⟩ (some n) (some m)) (vspht (.c J) ⟨T, P⟩ (some n) (some m)) := by
      unfold xVspht vspht
      exact Sim.bindc fun _ => Sim.bindc fun _ => Sim.bindc fun _ => Sim.bindc fun _ => Sim.bindc fun _ => Sim.bindc fun _ =>
        Sim.bind (sBackendFcToSc ..) fun _ => Sim.bind (sBackendFcToSc ..) fun _ => .inl rfl
    rcases hs with hs | hs
    · exfalso
      rw [ec] at hs
      unfold xVspht at hs
      have e1 : TPatt.nrows (⟨T, P⟩ : TPatt ℂ) = T.rows / 2 + 1 := rfl
      have e2 : TPatt.ncols (⟨T, P⟩ : TPatt ℂ) = T.cols := rfl
      have e4 : sphtArgs (.ok (T.rows / 2 + 1)) (.ok T.cols) (some n) (some m) = .ok (n, m) := rfl
      obtain ⟨n, rfl⟩ := Int.eq_ofNat_of_zero_le (show 0 ≤ n by omega)
      obtain ⟨m, rfl⟩ := Int.eq_ofNat_of_zero_le (show 0 ≤ m by omega)
      rw [e1, e2, e4] at hs
      simp only [Except.bind_ok] at hs
      obtain ⟨E, eE, hEr, hEc, -⟩ := extFourier_spec T hR hR0 (by omega)
      rw [eE] at hs
      simp only [Except.bind_ok] at hs
      obtain ⟨_, -, hs⟩ := (res_bind_ok _ _ _).mp hs
      obtain ⟨_, -, hs⟩ := (res_bind_ok _ _ _).mp hs
      obtain ⟨l1, hl1, hs⟩ := (res_bind_ok _ _ _).mp hs
      obtain ⟨_, -, hs⟩ := (res_bind_ok _ _ _).mp hs
      obtain ⟨v, hs, -⟩ := (res_bind_ok _ _ _).mp hs
      obtain ⟨a1, a2⟩ := sinLdot_shape hl1
      unfold xBackendFcToSc at hs
      obtain ⟨_, -, hs⟩ := (res_bind_ok _ _ _).mp hs
      obtain ⟨_, -, hs⟩ := (res_bind_ok _ _ _).mp hs
      have := fcToSc_bound (by omega) (by omega) (by omega) hs
      rw [a1, a2, hEr, hEc, mul_comm] at this
      have : (T.rows + 2) * T.cols ≤ 2 ^ 31 := by exact_mod_cast this
      omega
    · exact hs

/-- C89: for an accepted `vispht` call with `mmax ≥ 1`, the C extension overflows an `int` exactly when the doubled grid has more than 2^31 samples. -/
theorem c89_vispht_iff (J : ℕ → CJunk) (c : VectorCoefs ℂ) (hc : c.WellFormed) (nr nc : ℤ) (hm : 1 ≤ c.mmax) (h1 : c.nmax + 2 ≤ nr) (h2 : 2 * c.mmax + 2 ≤ nc) (h3 : nc % 2 = 0) :
    Res.Raises (xVispht J c (some nr) (some nc)) .undefinedBehaviour ↔ 2 ^ 31 < (2 * nr - 2) * nc := by
  obtain ⟨p, ep, -⟩ := c37_vispht (.c J) c hc nr nc h1 h2 h3
  constructor
  · rintro ⟨msg, h⟩
    by_contra hlt
    rw [c89_vispht J c hc nr nc (by omega), ← c28_vispht J c hc nr nc, ep] at h
    cases h
  · intro hbig
    have hs : Sim (xVispht J c (some nr) (some nc)) (vispht (.c J) c (some nr) (some nc)) := by
      unfold xVispht vispht
      exact Sim.bindc fun _ => Sim.bindc fun _ => Sim.bindc fun _ => Sim.bindc fun _ => Sim.bindc fun _ => Sim.bindc fun _ =>
        Sim.bind (sBackendScToFc ..) fun _ => Sim.bind (sBackendScToFc ..) fun _ => .inl rfl
    rcases hs with hs | hs
    · exfalso
      rw [ep] at hs
      obtain ⟨n, m, hn, hm', hmn⟩ := vlimits hc
      obtain ⟨r, hr⟩ := Int.eq_ofNat_of_zero_le (show 0 ≤ 2 * nr - 2 by omega)
      obtain ⟨k, hk⟩ := Int.eq_ofNat_of_zero_le (show 0 ≤ nc by omega)
      obtain ⟨w, ew, hwl, hwv⟩ := nvec_spec n
      obtain ⟨d1, ed1, dw1, d11, d12, -⟩ := windowed_spec hc.wf1.wf (hc.n1.trans hn) hwl hwv
      obtain ⟨d2, ed2, dw2, d21, d22, -⟩ := windowed_spec hc.wf2.wf (hc.n2.trans hn) hwl hwv
      unfold xVispht at hs
      simp only [Option.getD_some] at hs
      obtain ⟨_, -, hs⟩ := (res_bind_ok _ _ _).mp hs
      rw [hn, ew, scopy_wf hc.wf1.wf, scopy_wf hc.wf2.wf] at hs
      simp only [Except.bind_ok] at hs
      rw [ed1, ed2] at hs
      simp only [Except.bind_ok] at hs
      obtain ⟨v, hs, -⟩ := (res_bind_ok _ _ _).mp hs
      unfold xBackendScToFc at hs
      obtain ⟨z, hz, hs⟩ := (res_bind_ok _ _ _).mp hs
      obtain ⟨_, -, hs⟩ := (res_bind_ok _ _ _).mp hs
      obtain ⟨_, hs, -⟩ := (res_bind_ok _ _ _).mp hs
      have hz' : z.rows = r ∧ z.cols = k := by
        unfold npZeros2 at hz
        rw [hr, hk, if_neg (by omega)] at hz
        cases hz
        exact ⟨by simp, by simp⟩
      rw [hz'.1, hz'.2, d11, d12, hc.n1, hc.m1, hn, hm'] at hs
      have := scToFc_bound (by omega) (by omega) (by omega) hs
      rw [hr, hk, mul_comm] at hbig
      omega
    · exact hs

/-- Not vacuous: a set with `nmax = mmax = 1` on a 32770 by 32770 grid overflows, on a 32768 by 32768 grid it does not. -/
theorem c89_vexample (J : ℕ → CJunk) : ∃ c : VectorCoefs ℂ, c.WellFormed ∧ c.nmax = 1 ∧ c.mmax = 1 ∧ readMapV c 1 (-1) = some (3, 7) ∧
    Res.Raises (xVispht J c (some 32770) (some 32770)) .undefinedBehaviour ∧ ¬ Res.Raises (xVispht J c (some 32768) (some 32768)) .undefinedBehaviour := by
  obtain ⟨c, hcd⟩ : ∃ c : VectorCoefs ℂ, c = ⟨⟨[1, 2, 3, 4], 1, 1⟩, ⟨[5, 6, 7, 8], 1, 1⟩, 1, 1⟩ := ⟨_, rfl⟩
  have w1 : c.scoef1.WF := by subst hcd; exact ⟨by norm_num, by norm_num, rfl⟩
  have w2 : c.scoef2.WF := by subst hcd; exact ⟨by norm_num, by norm_num, rfl⟩
  have hc : c.WellFormed := ⟨ScalarCoefs.wf_iff.mp w1, ScalarCoefs.wf_iff.mp w2, by subst hcd; rfl, by subst hcd; rfl, by subst hcd; rfl, by subst hcd; rfl⟩
  have hn : c.nmax = 1 := by subst hcd; rfl
  have hm : c.mmax = 1 := by subst hcd; rfl
  refine ⟨c, hc, hn, hm, by subst hcd; rfl, (c89_vispht_iff J c hc _ _ (by omega) (by omega) (by omega) (by norm_num)).mpr (by norm_num), fun h => ?_⟩
  have := (c89_vispht_iff J c hc _ _ (by omega) (by omega) (by omega) (by norm_num)).mp h
  norm_num at this

end Verif.Props
