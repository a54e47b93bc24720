import Verif.Wrap
import Verif.Props.CInt2
import Verif.Props.Transforms5
/-!
# C108: integer types of the limits and the boundary to the C extension
-/
namespace Verif.Props
open Verif XI
namespace WR

theorem asInt_int {v : ℤ} (h : InInt v) : swigAsInt (.int v) = .ok (v, false) := by
  have hl : InLong v := by unfold InInt at h; unfold InLong; omega
  unfold swigAsInt swigAsLong
  simp only
  rw [if_pos hl]
  simp only [Except.bind_ok]
  rw [if_pos h]

theorem asInt_np (v : ℤ) : swigAsInt (.npInt v) = .error ⟨.typeError, "argument of type 'int'"⟩ := rfl

theorem castInt_eq {x : ℕ} (h : x < 2 ^ 31) : castInt x = x := by
  unfold castInt
  exact Int.bmod_eq_of_le (by omega) (by norm_num; omega)

theorem arr2_ok (a : Arr2 ℂ) : swigArr2 (.arr2 a .complex128 true) = .ok a := rfl
theorem arr1_ok (a : List ℂ) : swigArr1 (.arr1 a .complex128 true) = .ok a := rfl

theorem obj_py {l : Lim} (h : l.np = false) : l.obj = .int l.val := by
  unfold Lim.obj; rw [h]; rfl

theorem obj_np {l : Lim} (h : l.np = true) : l.obj = .npInt l.val := by
  unfold Lim.obj; rw [h]; rfl

theorem fc_py (J : ℕ → CJunk) (call : ℕ) (f : Arr2 ℂ) (n m : Lim) (hn : n.np = false) (hm : m.np = false) (in1 : InInt n.val) (in2 : InInt m.val)
    (hr : f.rows < 2 ^ 31) (hc : f.cols < 2 ^ 31) (hl : ncFormula n.val m.val < 2 ^ 31) :
    (Back.c J).fcToSc call f n m = xBackendFcToSc J call f n.val m.val := by
  unfold Back.fcToSc xBackendFcToSc
  simp only
  refine bindv fun sc hsc => ?_
  have hs : (sc.length : ℤ) < 2 ^ 31 := by
    unfold npFull at hsc
    split at hsc
    · cases hsc
    · cases hsc
      rw [List.length_replicate]
      omega
  rw [cks_bind (by
    intro x hx
    simp only [List.mem_cons, List.not_mem_nil, or_false] at hx
    unfold InInt
    rcases hx with rfl | rfl | rfl <;> omega)]
  unfold wrapFcToSc
  rw [arr2_ok, arr1_ok, obj_py hn, obj_py hm, asInt_int in1, asInt_int in2]
  simp only [Except.bind_ok, castInt_eq hr, castInt_eq hc, swigReturn, Bool.or_self, Bool.false_eq_true, if_false]
  cases xFcToSc f.flat f.rows f.cols sc n.val m.val (J call) <;> rfl

theorem fc_np (J : ℕ → CJunk) (call : ℕ) (f : Arr2 ℂ) (n m : Lim) (h : n.np = true ∨ m.np = true) (in1 : InInt n.val) {sc : List ℂ}
    (hsc : npFull (ncFormula n.val m.val) (0 : ℂ) = .ok sc) :
    (Back.c J).fcToSc call f n m = .error ⟨.typeError, "argument of type 'int'"⟩ := by
  unfold Back.fcToSc
  simp only
  rw [hsc]
  simp only [Except.bind_ok]
  unfold wrapFcToSc
  rw [arr2_ok, arr1_ok]
  simp only [Except.bind_ok]
  cases hn : n.np with
  | true => rw [obj_np hn, asInt_np]; rfl
  | false =>
    rw [obj_py hn, asInt_int in1]
    simp only [Except.bind_ok]
    rw [obj_np (h.resolve_left (by rw [hn]; simp)), asInt_np]
    rfl

theorem sc_py (J : ℕ → CJunk) (call : ℕ) (vec : List ℂ) (n m : Lim) (hn : n.np = false) (hm : m.np = false) (in1 : InInt n.val) (in2 : InInt m.val)
    (dn nc : ℤ) (hr : dn < 2 ^ 31) (hc : nc < 2 ^ 31) (hl : vec.length < 2 ^ 31) :
    (Back.c J).scToFc call vec .complex128 true n m dn nc = xBackendScToFc J call vec n.val m.val dn nc := by
  unfold Back.scToFc xBackendScToFc
  simp only
  refine bindv fun z hz => ?_
  have hz' : z.rows < 2 ^ 31 ∧ z.cols < 2 ^ 31 := by
    unfold npZeros2 at hz
    split at hz
    · cases hz
    · cases hz
      simp only [Arr2.rows_ofFn, Arr2.cols_ofFn]
      omega
  rw [cks_bind (by
    intro x hx
    simp only [List.mem_cons, List.not_mem_nil, or_false] at hx
    unfold InInt
    rcases hx with rfl | rfl | rfl <;> omega)]
  unfold wrapScToFc
  rw [arr2_ok, arr1_ok, obj_py hn, obj_py hm, asInt_int in1, asInt_int in2]
  simp only [Except.bind_ok, castInt_eq hz'.1, castInt_eq hz'.2, swigReturn, Bool.or_self, Bool.false_eq_true, if_false]
  cases xScToFc z.flat z.rows z.cols vec n.val m.val (J call) <;> rfl

/-- What the wrapper refuses in a call of `sc_to_fc`. -/
theorem sc_bad (J : ℕ → CJunk) (call : ℕ) (vec : List ℂ) (dt : DType) (contig : Bool) (n m : Lim) (in1 : InInt n.val) (dn nc : ℤ)
    (h : dt ≠ .complex128 ∨ contig = false ∨ n.np = true ∨ m.np = true) {z : Arr2 ℂ} (hz : npZeros2 dn nc = .ok z) :
    Res.Raises ((Back.c J).scToFc call vec dt contig n m dn nc) .typeError := by
  unfold Back.scToFc
  simp only
  rw [hz]
  simp only [Except.bind_ok]
  unfold wrapScToFc
  rw [arr2_ok]
  simp only [Except.bind_ok]
  unfold swigArr1 swigArray1
  simp only
  by_cases hd : dt = .complex128
  · rw [if_neg (by simp [hd])]
    cases hcg : contig with
    | false => exact ⟨_, rfl⟩
    | true =>
      simp only [Bool.true_eq_false, if_false, Except.bind_ok]
      cases hn : n.np with
      | true => rw [obj_np hn, asInt_np]; exact ⟨_, rfl⟩
      | false =>
        have hm : m.np = true := by
          rcases h with h | h | h | h
          · exact absurd hd h
          · rw [hcg] at h; cases h
          · rw [hn] at h; cases h
          · exact h
        rw [obj_py hn, asInt_int in1, obj_np hm, asInt_np]
        exact ⟨_, rfl⟩
  · rw [if_pos hd]; exact ⟨_, rfl⟩

end WR
open WR

namespace WR

theorem nc_lt {n m : ℤ} {r c : ℕ} (h0 : 0 ≤ m) (hmn : m ≤ n) (hr : n + 2 ≤ r) (hc : 2 * m + 1 ≤ c) (h : r * c ≤ 2 ^ 31) : ncFormula n m < 2 ^ 31 := by
  obtain ⟨n, rfl⟩ := Int.eq_ofNat_of_zero_le (show 0 ≤ n by omega)
  obtain ⟨m, rfl⟩ := Int.eq_ofNat_of_zero_le h0
  rw [nc_seg n m (by omega)]
  have h1 := seg_le (n + 1) (2 * m + 1)
  have h2 : (n + 1) * (2 * m + 1) ≤ (n + 1) * c := Nat.mul_le_mul_left _ (by omega)
  have h3 : (n + 1 + 1) * c ≤ r * c := Nat.mul_le_mul_right _ (by omega)
  rw [Nat.add_mul (n + 1) 1 c, Nat.one_mul] at h3
  omega

theorem cols_lt {r c : ℕ} (hr : 2 ≤ r) (h : r * c ≤ 2 ^ 31) : c < 2 ^ 31 := by
  have : 2 * c ≤ r * c := Nat.mul_le_mul_right _ hr
  omega

theorem args (nrows ncols : Res ℕ) (n m : Lim) : limArgs nrows ncols (some n) (some m) = .ok (n, m) := rfl

theorem bassoc {α β γ : Type} (x : Res α) (f : α → Res β) (g : β → Res γ) : (x.bind f).bind g = x.bind fun a => (f a).bind g := by
  cases x <;> rfl

theorem wspht_py (p : SPatt ℂ) (n m : Lim) : wSpht .py p (some n) (some m) =
    (spht .py p (some n.val) (some m.val)).bind fun c => .ok ⟨c.vec, .complex128, true, n, m⟩ := by
  unfold wSpht spht
  simp only [args, sphtArgs, Except.bind_ok, bassoc]
  rfl

theorem wvspht_py (p : TPatt ℂ) (n m : Lim) : wVspht .py p (some n) (some m) =
    (vspht .py p (some n.val) (some m.val)).bind fun c => .ok ⟨c, n.np, m.np⟩ := by
  unfold wVspht vspht
  simp only [args, sphtArgs, Except.bind_ok, bassoc]
  rfl

end WR

/-- C108: `spht` with the C extension and with the Python routines, for limits of either integer type.  With Python `int`s the two do the same; a NumPy integer is refused by
the C extension with TypeError in every call the Python routines carry out; calls the Python routines refuse are refused with the same exception. -/
theorem c108_spht_partial (J : ℕ → CJunk) (D : Arr2 ℂ) (hR : D.rows % 2 = 0) (hR0 : 0 < D.rows) (hsz : D.rows ≤ 2 ^ 29)
    (h31 : (D.rows + 2) * D.cols ≤ 2 ^ 31) (n m : Lim) (h0 : 0 ≤ m.val) :
    (n.np = false → m.np = false → wSpht (.c J) ⟨.arr D⟩ (some n) (some m) = wSpht .py ⟨.arr D⟩ (some n) (some m)) ∧
    (n.np = true ∨ m.np = true → ∀ c, wSpht .py ⟨.arr D⟩ (some n) (some m) = .ok c → (wSpht (.c J) ⟨.arr D⟩ (some n) (some m)).Raises .typeError) ∧
    ∀ e, wSpht .py ⟨.arr D⟩ (some n) (some m) = .error e → wSpht (.c J) ⟨.arr D⟩ (some n) (some m) = .error e := by
  have e1 : SPatt.nrows (⟨.arr D⟩ : SPatt ℂ) = .ok (D.rows / 2 + 1) := rfl
  have e2 : SPatt.ncols (⟨.arr D⟩ : SPatt ℂ) = .ok D.cols := rfl
  have e3 : SPatt.dsphere (⟨.arr D⟩ : SPatt ℂ) = .ok D := rfl
  cases hg : sphtGuards (.ok (D.rows / 2 + 1)) (.ok D.cols) n.val m.val with
  | error e =>
    have hb : ∀ b, wSpht b ⟨.arr D⟩ (some n) (some m) = .error e := by
      intro b
      unfold wSpht
      rw [args]
      simp only [Except.bind_ok]
      rw [e1, e2, hg]
      rfl
    refine ⟨fun _ _ => by rw [hb, hb], fun _ c hc => ?_, fun e' he => by rw [← he, hb, hb]⟩
    rw [hb] at hc; cases hc
  | ok u =>
    have hg' := guards_inv hg
    obtain ⟨E, eE, hEr, hEc, hEv⟩ := extFourier_spec D hR hR0 (by omega)
    obtain ⟨G, eG, hGr, hGc, -⟩ := sinFc_spec E (D.rows / 2) (by omega) (by omega) (fhat D) hEv (fhat_outer D) (by omega)
    have hGr' : G.rows = D.rows + 2 := by omega
    have hGc' : G.cols = D.cols := by omega
    have h31' : G.rows * G.cols ≤ 2 ^ 31 := by rw [hGr', hGc']; exact h31
    have hnc : ncFormula n.val m.val < 2 ^ 31 := nc_lt h0 hg'.1 (r := G.rows) (c := G.cols) (by omega) (by omega) h31'
    have hcl := cols_lt (by omega) h31'
    have in1 : InInt n.val := by unfold InInt; omega
    have in2 : InInt m.val := by unfold InInt; omega
    obtain ⟨c, ec, -⟩ := c35_accepts .py D hR hR0 hsz n.val m.val h0 hg'.1 hg'.2.1 hg'.2.2.1 hg'.2.2.2
    have pyok : wSpht .py ⟨.arr D⟩ (some n) (some m) = .ok ⟨c.vec, .complex128, true, n, m⟩ := by rw [wspht_py, ec]; rfl
    have hC : wSpht (.c J) ⟨.arr D⟩ (some n) (some m) = (npFull (ncFormula n.val m.val) (0 : ℂ)).bind fun _ => ((Back.c J).fcToSc 0 G n m).bind fun sc =>
        (ScalarCoefs.init (.arr sc) n.val m.val).bind fun c => .ok ⟨c.vec, .complex128, true, n, m⟩ := by
      unfold wSpht
      rw [args]
      simp only [Except.bind_ok]
      rw [e1, e2, e3, hg]
      simp only [Except.bind_ok]
      rw [eE]
      simp only [Except.bind_ok]
      rw [eG]
      rfl
    refine ⟨fun hn hm => ?_, fun h c' _ => ?_, fun e he => ?_⟩
    · have hx := c89_spht J D hR hR0 hsz h31 n.val m.val h0
      rw [pyok, hC, fc_py J 0 G n m hn hm in1 in2 (by omega) hcl hnc]
      rw [ec] at hx
      unfold xSpht at hx
      rw [show sphtArgs (SPatt.nrows (⟨.arr D⟩ : SPatt ℂ)) (SPatt.ncols (⟨.arr D⟩ : SPatt ℂ)) (some n.val) (some m.val) = .ok (n.val, m.val) from rfl] at hx
      simp only [Except.bind_ok] at hx
      rw [e1, e2, e3, hg] at hx
      simp only [Except.bind_ok] at hx
      rw [eE] at hx
      simp only [Except.bind_ok] at hx
      rw [eG] at hx
      simp only [Except.bind_ok] at hx
      obtain ⟨s0, hs0, hx⟩ := (res_bind_ok _ _ _).mp hx
      obtain ⟨s1, hs1, hx⟩ := (res_bind_ok _ _ _).mp hx
      rw [hs0, hs1]
      simp only [Except.bind_ok]
      rw [hx]
      rfl
    · rw [hC]
      have hex := ec
      unfold spht at hex
      obtain ⟨_, -, hex⟩ := (res_bind_ok _ _ _).mp hex
      obtain ⟨_, -, hex⟩ := (res_bind_ok _ _ _).mp hex
      obtain ⟨s0, hs0⟩ : ∃ s, npFull (ncFormula n.val m.val) (0 : ℂ) = .ok s := by
        unfold npFull
        rw [if_neg]
        · exact ⟨_, rfl⟩
        · obtain ⟨n', hn'⟩ := Int.eq_ofNat_of_zero_le (show 0 ≤ n.val by omega)
          obtain ⟨m', hm'⟩ := Int.eq_ofNat_of_zero_le h0
          rw [hn', hm', nc_seg n' m' (by omega)]
          omega
      rw [hs0]
      simp only [Except.bind_ok]
      rw [fc_np J 0 G n m h in1 hs0]
      exact ⟨_, rfl⟩
    · rw [pyok] at he; cases he

theorem WR.npFull_ok {n m : ℤ} (h0 : 0 ≤ m) (hmn : m ≤ n) : ∃ s, npFull (ncFormula n m) (0 : ℂ) = .ok s := by
  unfold npFull
  rw [if_neg]
  · exact ⟨_, rfl⟩
  · obtain ⟨n', hn'⟩ := Int.eq_ofNat_of_zero_le (show 0 ≤ n by omega)
    obtain ⟨m', hm'⟩ := Int.eq_ofNat_of_zero_le h0
    rw [hn', hm', nc_seg n' m' (by omega)]
    omega

/-- C108: `vspht`. -/
theorem c108_vspht_partial (J : ℕ → CJunk) (T P : Arr2 ℂ) (hr : P.rows = T.rows) (hc : P.cols = T.cols) (hR : T.rows % 2 = 0) (hR0 : 0 < T.rows) (hsz : T.rows ≤ 2 ^ 29)
    (h31 : (T.rows + 2) * T.cols ≤ 2 ^ 31) (n m : Lim) (h0 : 0 ≤ m.val) :
    (n.np = false → m.np = false → wVspht (.c J) ⟨T, P⟩ (some n) (some m) = wVspht .py ⟨T, P⟩ (some n) (some m)) ∧
    (n.np = true ∨ m.np = true → ∀ c, wVspht .py ⟨T, P⟩ (some n) (some m) = .ok c → (wVspht (.c J) ⟨T, P⟩ (some n) (some m)).Raises .typeError) ∧
    ∀ e, wVspht .py ⟨T, P⟩ (some n) (some m) = .error e → wVspht (.c J) ⟨T, P⟩ (some n) (some m) = .error e := by
  have e1 : TPatt.nrows (⟨T, P⟩ : TPatt ℂ) = T.rows / 2 + 1 := rfl
  have e2 : TPatt.ncols (⟨T, P⟩ : TPatt ℂ) = T.cols := rfl
  cases hg : sphtGuards (.ok (T.rows / 2 + 1)) (.ok T.cols) n.val m.val with
  | error e =>
    have hb : ∀ b, wVspht b ⟨T, P⟩ (some n) (some m) = .error e := by
      intro b
      unfold wVspht
      rw [args]
      simp only [Except.bind_ok]
      rw [e1, e2, hg]
      rfl
    refine ⟨fun _ _ => by rw [hb, hb], fun _ c hc => ?_, fun e' he => by rw [← he, hb, hb]⟩
    rw [hb] at hc; cases hc
  | ok u =>
    have hg' := guards_inv hg
    obtain ⟨E, eE, hEr, hEc, -⟩ := extFourier_spec T hR hR0 (by omega)
    obtain ⟨F, eF, hFr, hFc, -⟩ := extFourier_spec P (by omega) (by omega) (by omega)
    obtain ⟨c, ec, -⟩ := c35_vspht_accepts .py T P hr hc hR hR0 hsz n.val m.val h0 hg'.1 hg'.2.1 hg'.2.2.1 hg'.2.2.2
    have pyok : wVspht .py ⟨T, P⟩ (some n) (some m) = .ok ⟨c, n.np, m.np⟩ := by rw [wvspht_py, ec]; rfl
    have hx := c89_vspht J T P hr hc hR hR0 hsz h31 n.val m.val h0
    rw [ec] at hx
    unfold xVspht at hx
    rw [e1, e2, show sphtArgs (.ok (T.rows / 2 + 1)) (.ok T.cols) (some n.val) (some m.val) = .ok (n.val, m.val) from rfl] at hx
    simp only [Except.bind_ok] at hx
    rw [hg] at hx
    unfold vspht.extFourier' at hx
    rw [eE, if_pos ⟨hr.symm, hc.symm⟩, eF] at hx
    simp only [Except.bind_ok] at hx
    obtain ⟨l1, hl1, hx⟩ := (res_bind_ok _ _ _).mp hx
    obtain ⟨l2, hl2, hx⟩ := (res_bind_ok _ _ _).mp hx
    obtain ⟨a1, a2⟩ := sinLdot_shape hl1
    obtain ⟨b1, b2⟩ := sinLdot_shape hl2
    simp only [Arr2.rows_map, Arr2.cols_map] at b1 b2
    have q1 : l1.rows = T.rows + 2 ∧ l1.cols = T.cols := by omega
    have q2 : l2.rows = T.rows + 2 ∧ l2.cols = T.cols := by omega
    have hnc : ncFormula n.val m.val < 2 ^ 31 := nc_lt h0 hg'.1 (r := T.rows + 2) (c := T.cols) (by push_cast; omega) (by omega) h31
    have hcl := cols_lt (by omega) h31
    have in1 : InInt n.val := by unfold InInt; omega
    have in2 : InInt m.val := by unfold InInt; omega
    have hC : wVspht (.c J) ⟨T, P⟩ (some n) (some m) = ((Back.c J).fcToSc 0 l1 n m).bind fun sc1 => ((Back.c J).fcToSc 1 l2 n m).bind fun sc2 =>
        (VectorCoefs.init (.arr sc1) (.arr sc2) n.val m.val).bind fun vc => (nvec n.val).bind fun w => (vc.scoef1.windowed w).bind fun s1 =>
        (vc.scoef2.windowed w).bind fun s2 => .ok ⟨{ vc with scoef1 := s1, scoef2 := s2 }, n.np, m.np⟩ := by
      unfold wVspht
      rw [args]
      simp only [Except.bind_ok]
      rw [e1, e2, hg]
      unfold vspht.extFourier'
      rw [eE, if_pos ⟨hr.symm, hc.symm⟩, eF]
      simp only [Except.bind_ok]
      rw [hl1]
      simp only [Except.bind_ok]
      rw [hl2]
      rfl
    refine ⟨fun hn hm => ?_, fun h c' _ => ?_, fun e he => ?_⟩
    · rw [pyok, hC, fc_py J 0 l1 n m hn hm in1 in2 (by omega) (by omega) hnc, fc_py J 1 l2 n m hn hm in1 in2 (by omega) (by omega) hnc]
      obtain ⟨s0, hs0, hx⟩ := (res_bind_ok _ _ _).mp hx
      obtain ⟨s1, hs1, hx⟩ := (res_bind_ok _ _ _).mp hx
      obtain ⟨v, hv, hx⟩ := (res_bind_ok _ _ _).mp hx
      obtain ⟨w, hw, hx⟩ := (res_bind_ok _ _ _).mp hx
      obtain ⟨d1, hd1, hx⟩ := (res_bind_ok _ _ _).mp hx
      obtain ⟨d2, hd2, hx⟩ := (res_bind_ok _ _ _).mp hx
      cases hx
      rw [hs0, hs1]
      simp only [Except.bind_ok]
      rw [hv]
      simp only [Except.bind_ok]
      rw [hw]
      simp only [Except.bind_ok]
      rw [hd1, hd2]
      rfl
    · obtain ⟨s0, hs0⟩ := npFull_ok h0 hg'.1
      rw [hC, fc_np J 0 l1 n m h in1 hs0]
      exact ⟨_, rfl⟩
    · rw [pyok] at he; cases he

/-- C108: `ispht`.  A set whose array is complex and contiguous and whose limits are Python `int`s is treated alike by the two backends; any other set is refused by the C
extension with TypeError in every call the Python routines carry out. -/
theorem c108_ispht_partial (J : ℕ → CJunk) (c : LSet) (hc : c.coefs.WellFormed) (nr nc : ℤ) (hx : ¬ (c.nmax.val = 0 ∧ nr = 1)) (h31 : (2 * nr - 2) * nc ≤ 2 ^ 31) :
    (c.dt = .complex128 ∧ c.contig = true ∧ c.nmax.np = false ∧ c.mmax.np = false → wIspht (.c J) c (some nr) (some nc) = wIspht .py c (some nr) (some nc)) ∧
    (¬ (c.dt = .complex128 ∧ c.contig = true ∧ c.nmax.np = false ∧ c.mmax.np = false) → ∀ p, wIspht .py c (some nr) (some nc) = .ok p →
      (wIspht (.c J) c (some nr) (some nc)).Raises .typeError) ∧
    ∀ e, wIspht .py c (some nr) (some nc) = .error e → wIspht (.c J) c (some nr) (some nc) = .error e := by
  have hw := hc.wf
  have hm0 : 0 ≤ c.mmax.val := hw.m0
  have hmn : c.mmax.val ≤ c.nmax.val := hw.mn
  cases hg : isphtGuards c.nmax.val c.mmax.val nr nc with
  | error e =>
    have hb : ∀ b, wIspht b c (some nr) (some nc) = .error e := by
      intro b
      unfold wIspht
      simp only [Option.getD_some]
      rw [hg]
      rfl
    refine ⟨fun _ => by rw [hb, hb], fun _ p hp => ?_, fun e' he => by rw [← he, hb, hb]⟩
    rw [hb] at hp; cases hp
  | ok u =>
    have hg' : c.nmax.val < nr ∧ 2 * c.mmax.val + 2 ≤ nc := by
      unfold isphtGuards at hg
      split at hg
      · cases hg
      split at hg
      · cases hg
      omega
    obtain ⟨r, hr⟩ := Int.eq_ofNat_of_zero_le (show 0 ≤ 2 * nr - 2 by omega)
    obtain ⟨k, hk⟩ := Int.eq_ofNat_of_zero_le (show 0 ≤ nc by omega)
    have h31' : r * k ≤ 2 ^ 31 := by rw [hr, hk] at h31; exact_mod_cast h31
    have hkl := cols_lt (by omega) h31'
    have hrl := half_le (by omega) h31'
    have in1 : InInt c.nmax.val := by unfold InInt; omega
    have in2 : InInt c.mmax.val := by unfold InInt; omega
    have hlen : c.vec.length < 2 ^ 31 := by
      obtain ⟨n, hn⟩ := Int.eq_ofNat_of_zero_le (show 0 ≤ c.nmax.val by omega)
      obtain ⟨m, hm⟩ := Int.eq_ofNat_of_zero_le hm0
      have := hw.len
      rw [show c.coefs.nmax = n from hn, show c.coefs.mmax = m from hm, nc_seg n m (by omega)] at this
      have h1 := seg_le (n + 1) (2 * m + 1)
      have h2 : (n + 1) * (2 * m + 1 + 1) ≤ r * k := Nat.mul_le_mul (by omega) (by omega)
      rw [Nat.mul_add (n + 1) (2 * m + 1) 1] at h2
      have h3 : c.coefs.vec.length = seg (n + 1) (2 * m + 1) := by exact_mod_cast this
      have h4 : c.vec.length = seg (n + 1) (2 * m + 1) := h3
      omega
    have hx' := c89_ispht J c.coefs hc nr nc hx h31
    have hpy : wIspht .py c (some nr) (some nc) = ispht .py c.coefs (some nr) (some nc) := rfl
    refine ⟨fun ⟨h1, h2, h3, h4⟩ => ?_, fun h p hp => ?_, fun e he => ?_⟩
    · rw [hpy, ← hx']
      unfold wIspht xIspht
      simp only [Option.getD_some]
      refine bindv fun _ _ => ?_
      rw [h1, h2, sc_py J 0 c.vec c.nmax c.mmax h3 h4 in1 in2 _ _ (by omega) (by omega) hlen]
      rfl
    · unfold wIspht
      simp only [Option.getD_some]
      rw [hg]
      simp only [Except.bind_ok]
      obtain ⟨z, hz⟩ : ∃ z : Arr2 ℂ, npZeros2 (2 * nr - 2) nc = .ok z := by
        unfold npZeros2
        rw [if_neg (by omega)]
        exact ⟨_, rfl⟩
      have hbad : c.dt ≠ .complex128 ∨ c.contig = false ∨ c.nmax.np = true ∨ c.mmax.np = true := by
        by_contra hne
        push Not at hne
        exact h ⟨hne.1, by simpa using hne.2.1, by simpa using hne.2.2.1, by simpa using hne.2.2.2⟩
      obtain ⟨msg, hm⟩ := sc_bad J 0 c.vec c.dt c.contig c.nmax c.mmax in1 (2 * nr - 2) nc hbad hz
      rw [hm]
      exact ⟨_, rfl⟩
    · exfalso
      have hev : nc % 2 = 0 := by
        unfold isphtGuards at hg
        split at hg
        · cases hg
        split at hg
        · cases hg
        split at hg
        · cases hg
        omega
      obtain ⟨p, hp⟩ : ∃ p, ispht .py c.coefs (some nr) (some nc) = .ok p := by
        by_cases h2 : c.nmax.val + 2 ≤ nr
        · obtain ⟨p, hp, -⟩ := c36_accepts .py c.coefs hc nr nc h2 hg'.2 hev
          exact ⟨p, hp⟩
        · obtain ⟨p, A, hp, -⟩ := c36_actual .py c.coefs hc _ (hasCoefs_cf hc) (show 1 ≤ c.nmax.val by omega) nc hg'.2 hev
          rw [show c.coefs.nmax + 1 = nr by change c.nmax.val + 1 = nr; omega] at hp
          exact ⟨p, hp⟩
      rw [hpy, hp] at he
      cases he

/-- C108: `vispht`. -/
theorem c108_vispht_partial (J : ℕ → CJunk) (c : LVSet) (hc : c.c.WellFormed) (nr nc : ℤ) (h31 : (2 * nr - 2) * nc ≤ 2 ^ 31) :
    (c.npN = false ∧ c.npM = false → wVispht (.c J) c (some nr) (some nc) = wVispht .py c (some nr) (some nc)) ∧
    (¬ (c.npN = false ∧ c.npM = false) → ∀ p, wVispht .py c (some nr) (some nc) = .ok p → (wVispht (.c J) c (some nr) (some nc)).Raises .typeError) ∧
    ∀ e, wVispht .py c (some nr) (some nc) = .error e → wVispht (.c J) c (some nr) (some nc) = .error e := by
  obtain ⟨n, m, hn, hm, hmn⟩ := vlimits hc
  have hpy : wVispht .py c (some nr) (some nc) = vispht .py c.c (some nr) (some nc) := rfl
  cases hg : visphtGuards c.c.nmax c.c.mmax nr nc with
  | error e =>
    have hb : ∀ b, wVispht b c (some nr) (some nc) = .error e := by
      intro b
      unfold wVispht
      simp only [Option.getD_some]
      rw [hg]
      rfl
    refine ⟨fun _ => by rw [hb, hb], fun _ p hp => ?_, fun e' he => by rw [← he, hb, hb]⟩
    rw [hb] at hp; cases hp
  | ok u =>
    have hg' : c.c.nmax + 2 ≤ nr ∧ 2 * c.c.mmax + 2 ≤ nc ∧ nc % 2 = 0 := by
      unfold visphtGuards at hg
      split at hg
      · cases hg
      split at hg
      · cases hg
      split at hg
      · cases hg
      omega
    obtain ⟨p0, hp0, -⟩ := (c36_vispht .py c.c hc nr nc).2 (by omega)
    obtain ⟨r, hr⟩ := Int.eq_ofNat_of_zero_le (show 0 ≤ 2 * nr - 2 by omega)
    obtain ⟨k, hk⟩ := Int.eq_ofNat_of_zero_le (show 0 ≤ nc by omega)
    have h31' : r * k ≤ 2 ^ 31 := by rw [hr, hk] at h31; exact_mod_cast h31
    have hkl := cols_lt (by omega) h31'
    have hrl := half_le (by omega) h31'
    have in1 : InInt (n : ℤ) := by unfold InInt; omega
    have in2 : InInt (m : ℤ) := by unfold InInt; omega
    obtain ⟨w, ew, hwl, hwv⟩ := nvec_spec n
    have n1 := hc.n1; have n2 := hc.n2; have m1 := hc.m1; have m2 := hc.m2
    obtain ⟨d1, ed1, dw1, d11, d12, -⟩ := windowed_spec hc.wf1.wf (n1.trans hn) hwl hwv
    obtain ⟨d2, ed2, dw2, d21, d22, -⟩ := windowed_spec hc.wf2.wf (n2.trans hn) hwl hwv
    have hseg : seg (n + 1) (2 * m + 1) < 2 ^ 31 := by
      have h1 := seg_le (n + 1) (2 * m + 1)
      have h2 : (n + 1) * (2 * m + 1 + 1) ≤ r * k := Nat.mul_le_mul (by omega) (by omega)
      rw [Nat.mul_add (n + 1) (2 * m + 1) 1] at h2
      omega
    have l1 : d1.vec.length < 2 ^ 31 := by
      have := dw1.len
      rw [d11, d12, n1, m1, hn, hm, nc_seg n m hmn] at this
      omega
    have l2 : d2.vec.length < 2 ^ 31 := by
      have := dw2.len
      rw [d21, d22, n2, m2, hn, hm, nc_seg n m hmn] at this
      omega
    refine ⟨fun ⟨h1, h2⟩ => ?_, fun h p hp => ?_, fun e he => ?_⟩
    · rw [hpy, ← c89_vispht J c.c hc nr nc h31]
      unfold wVispht xVispht
      simp only [Option.getD_some]
      refine bindv fun _ _ => ?_
      rw [hn, ew, scopy_wf hc.wf1.wf, scopy_wf hc.wf2.wf]
      simp only [Except.bind_ok]
      rw [ed1, ed2]
      simp only [Except.bind_ok]
      rw [h1, h2, d11, d12, n1, m1, hn, hm, sc_py J 0 d1.vec ⟨false, n⟩ ⟨false, m⟩ rfl rfl in1 in2 _ _ (by omega) (by omega) l1,
        sc_py J 1 d2.vec ⟨false, n⟩ ⟨false, m⟩ rfl rfl in1 in2 _ _ (by omega) (by omega) l2]
    · unfold wVispht
      simp only [Option.getD_some]
      rw [hg]
      simp only [Except.bind_ok]
      rw [hn, ew, scopy_wf hc.wf1.wf, scopy_wf hc.wf2.wf]
      simp only [Except.bind_ok]
      rw [ed1, ed2]
      simp only [Except.bind_ok]
      obtain ⟨z, hz⟩ : ∃ z : Arr2 ℂ, npZeros2 (2 * nr - 2) nc = .ok z := by
        unfold npZeros2
        rw [if_neg (by omega)]
        exact ⟨_, rfl⟩
      have hbad : DType.complex128 ≠ .complex128 ∨ true = false ∨ c.npN = true ∨ c.npM = true := by
        by_contra hne
        push Not at hne
        exact h ⟨by simpa using hne.2.2.1, by simpa using hne.2.2.2⟩
      rw [d11, d12, n1, m1, hn, hm]
      obtain ⟨msg, hm⟩ := sc_bad J 0 d1.vec .complex128 true ⟨c.npN, n⟩ ⟨c.npM, m⟩ in1 (2 * nr - 2) nc hbad hz
      rw [hm]
      exact ⟨_, rfl⟩
    · rw [hpy, hp0] at he
      cases he

/-- C108: omitted limits are Python `int`s; an omitted `mmax` is the object passed as `nmax`. -/
theorem c108_defaults (b : Back) (D T P : Arr2 ℂ) (n : Lim) (mm : Option Lim) :
    wSpht b ⟨.arr D⟩ none mm = wSpht b ⟨.arr D⟩ (some ⟨false, ((D.rows / 2 + 1 : ℕ) : ℤ) - 2⟩) (some ⟨false, ((D.cols / 2 : ℕ) : ℤ) - 1⟩) ∧
    wSpht b ⟨.arr D⟩ (some n) none = wSpht b ⟨.arr D⟩ (some n) (some n) ∧
    wVspht b ⟨T, P⟩ none mm = wVspht b ⟨T, P⟩ (some ⟨false, ((T.rows / 2 + 1 : ℕ) : ℤ) - 2⟩) (some ⟨false, ((T.cols / 2 : ℕ) : ℤ) - 1⟩) ∧
    wVspht b ⟨T, P⟩ (some n) none = wVspht b ⟨T, P⟩ (some n) (some n) ∧
    (∀ (c : LSet) (nr nc : Option ℤ), wIspht b c nr nc = wIspht b c (some (nr.getD (c.nmax.val + 2))) (some (nc.getD (2 * c.mmax.val + 2)))) ∧
    (∀ (c : LVSet) (nr nc : Option ℤ), wVispht b c nr nc = wVispht b c (some (nr.getD (c.c.nmax + 2))) (some (nc.getD (2 * c.c.mmax + 2)))) :=
  ⟨rfl, rfl, rfl, rfl, fun _ _ _ => rfl, fun _ _ _ => rfl⟩

/-- C108: with the Python routines the types of the limits change nothing: the values are those of the transforms of `Transforms.lean` on the integers themselves, and the
result stores the objects that were passed. -/
theorem c108_values (p : SPatt ℂ) (q : TPatt ℂ) (n m : Lim) (c : LSet) (d : LVSet) (nr nc : Option ℤ) :
    wSpht .py p (some n) (some m) = (spht .py p (some n.val) (some m.val)).bind (fun c => .ok ⟨c.vec, .complex128, true, n, m⟩) ∧
    wVspht .py q (some n) (some m) = (vspht .py q (some n.val) (some m.val)).bind (fun c => .ok ⟨c, n.np, m.np⟩) ∧
    wIspht .py c nr nc = ispht .py c.coefs nr nc ∧ wVispht .py d nr nc = vispht .py d.c nr nc :=
  ⟨wspht_py p n m, wvspht_py q n m, rfl, rfl⟩

namespace WR

theorem arr2_inv {o : PyObj} {f : Arr2 ℂ} (h : swigArr2 o = .ok f) : o = .arr2 f .complex128 true := by
  cases o with
  | arr2 a dt contig =>
    simp only [swigArr2, swigArray1] at h
    split at h
    · cases h
    · rename_i h1
      split at h
      · cases h
      · rename_i h2
        cases h
        rw [not_not.mp h1, show contig = true by simpa using h2]
  | _ => cases h

theorem arr1_inv {o : PyObj} {f : List ℂ} (h : swigArr1 o = .ok f) : o = .arr1 f .complex128 true := by
  cases o with
  | arr1 a dt contig =>
    simp only [swigArr1, swigArray1] at h
    split at h
    · cases h
    · rename_i h1
      split at h
      · cases h
      · rename_i h2
        cases h
        rw [not_not.mp h1, show contig = true by simpa using h2]
  | _ => cases h

theorem asInt_inv {o : PyObj} {n : ℤ} (h : swigAsInt o = .ok (n, false)) : o = .int n ∧ InInt n := by
  cases o with
  | int v =>
    unfold swigAsInt swigAsLong at h
    simp only at h
    split at h
    · simp only [Except.bind_ok] at h
      split at h
      · cases h; exact ⟨rfl, by assumption⟩
      · cases h
    · simp only [Except.bind_ok] at h
      split at h
      · cases h
      · cases h
  | _ => cases h

end WR

/-- C108: the wrapper hands a call of `fc_to_sc` or `sc_to_fc` to C and returns normally exactly for contiguous complex arrays and Python `int`s of 32 bits, and C then receives
exactly those values (the dimensions modulo 2^32). -/
theorem c108_wrapper (o0 o1 o2 o3 : PyObj) (J : CJunk) (l : List ℂ) :
    (wrapFcToSc o0 o1 o2 o3 J = .ok l ↔ ∃ f sc n m, o0 = .arr2 f .complex128 true ∧ o1 = .arr1 sc .complex128 true ∧ o2 = .int n ∧ o3 = .int m ∧
      InInt n ∧ InInt m ∧ xFcToSc f.flat (castInt f.rows) (castInt f.cols) sc n m J = .ok l) ∧
    (wrapScToFc o0 o1 o2 o3 J = .ok l ↔ ∃ f sc n m, o0 = .arr2 f .complex128 true ∧ o1 = .arr1 sc .complex128 true ∧ o2 = .int n ∧ o3 = .int m ∧
      InInt n ∧ InInt m ∧ xScToFc f.flat (castInt f.rows) (castInt f.cols) sc n m J = .ok l) := by
  constructor
  · constructor
    · intro h
      unfold wrapFcToSc at h
      obtain ⟨f, hf, h⟩ := (res_bind_ok _ _ _).mp h
      obtain ⟨sc, hsc, h⟩ := (res_bind_ok _ _ _).mp h
      obtain ⟨⟨n, p⟩, hn, h⟩ := (res_bind_ok _ _ _).mp h
      obtain ⟨⟨m, q⟩, hm, h⟩ := (res_bind_ok _ _ _).mp h
      obtain ⟨l', hl, h⟩ := (res_bind_ok _ _ _).mp h
      unfold swigReturn at h
      split at h
      · cases h
      · rename_i hpq
        cases h
        simp only [Bool.or_eq_true, not_or, Bool.not_eq_true] at hpq
        obtain ⟨rfl, rfl⟩ := hpq
        obtain ⟨a1, a2⟩ := asInt_inv hn
        obtain ⟨b1, b2⟩ := asInt_inv hm
        exact ⟨f, sc, n, m, arr2_inv hf, arr1_inv hsc, a1, b1, a2, b2, hl⟩
    · rintro ⟨f, sc, n, m, rfl, rfl, rfl, rfl, in1, in2, h⟩
      unfold wrapFcToSc
      rw [arr2_ok, arr1_ok, asInt_int in1, asInt_int in2]
      simp only [Except.bind_ok]
      rw [h]
      rfl
  · constructor
    · intro h
      unfold wrapScToFc at h
      obtain ⟨f, hf, h⟩ := (res_bind_ok _ _ _).mp h
      obtain ⟨sc, hsc, h⟩ := (res_bind_ok _ _ _).mp h
      obtain ⟨⟨n, p⟩, hn, h⟩ := (res_bind_ok _ _ _).mp h
      obtain ⟨⟨m, q⟩, hm, h⟩ := (res_bind_ok _ _ _).mp h
      obtain ⟨l', hl, h⟩ := (res_bind_ok _ _ _).mp h
      unfold swigReturn at h
      split at h
      · cases h
      · rename_i hpq
        cases h
        simp only [Bool.or_eq_true, not_or, Bool.not_eq_true] at hpq
        obtain ⟨rfl, rfl⟩ := hpq
        obtain ⟨a1, a2⟩ := asInt_inv hn
        obtain ⟨b1, b2⟩ := asInt_inv hm
        exact ⟨f, sc, n, m, arr2_inv hf, arr1_inv hsc, a1, b1, a2, b2, hl⟩
    · rintro ⟨f, sc, n, m, rfl, rfl, rfl, rfl, in1, in2, h⟩
      unfold wrapScToFc
      rw [arr2_ok, arr1_ok, asInt_int in1, asInt_int in2]
      simp only [Except.bind_ok]
      rw [h]
      rfl

namespace WR

theorem berr {α β : Type} (e : PyErr) (f : α → Res β) : (Except.error e : Res α).bind f = .error e := rfl

theorem wrap_gen (f : Arr2 ℂ) (sc : List ℂ) (o2 o3 : PyObj) (n m : ℤ) (p : Bool) (h2 : swigAsInt o2 = .ok (n, p)) (h3 : swigAsInt o3 = .ok (m, false)) (J : CJunk) :
    wrapFcToSc (.arr2 f .complex128 true) (.arr1 sc .complex128 true) o2 o3 J = (xFcToSc f.flat (castInt f.rows) (castInt f.cols) sc n m J).bind fun l => swigReturn p l := by
  unfold wrapFcToSc
  rw [arr2_ok, arr1_ok, h2, h3]
  simp only [Except.bind_ok, Bool.or_false]

theorem inInt_m1 : InInt (-1) := ⟨by norm_num, by norm_num⟩

theorem asInt_huge {v : ℤ} (h : ¬ InLong v) : swigAsInt (.int v) = .ok (-1, true) := by
  have e : swigAsLong (.int v) = .ok (-1, true) := by
    unfold swigAsLong
    exact if_neg h
  unfold swigAsInt
  rw [e]
  simp only [Except.bind_ok]
  exact if_pos inInt_m1

theorem asInt_over {v : ℤ} (h : InLong v) (h' : ¬ InInt v) : swigAsInt (.int v) = .error ⟨.exception, "OverflowError"⟩ := by
  have e : swigAsLong (.int v) = .ok (v, false) := by
    unfold swigAsLong
    exact if_pos h
  unfold swigAsInt
  rw [e]
  simp only [Except.bind_ok]
  exact if_neg h'

end WR

/-- C108, a defect of the wrapper: a Python `int` that does not fit 64 bits is not refused; C runs with -1 in its place, and only afterwards the call fails with SystemError.
One that fits 64 bits but not 32 is refused with OverflowError before C runs. -/
theorem c108_huge_limits (f : Arr2 ℂ) (sc : List ℂ) (v m : ℤ) (hm : InInt m) (J : CJunk) :
    ((v < -2 ^ 63 ∨ 2 ^ 63 ≤ v) → wrapFcToSc (.arr2 f .complex128 true) (.arr1 sc .complex128 true) (.int v) (.int m) J =
      (xFcToSc f.flat (castInt f.rows) (castInt f.cols) sc (-1) m J).bind fun l => swigReturn true l) ∧ (∀ l : List ℂ, swigReturn true l = .error ⟨.exception, "SystemError"⟩) ∧
    (-2 ^ 63 ≤ v → v < 2 ^ 63 → (v < -2 ^ 31 ∨ 2 ^ 31 ≤ v) → wrapFcToSc (.arr2 f .complex128 true) (.arr1 sc .complex128 true) (.int v) (.int m) J = .error ⟨.exception, "OverflowError"⟩) := by
  refine ⟨?_, fun _ => rfl, ?_⟩
  · intro h
    exact wrap_gen f sc (.int v) (.int m) (-1) m true (asInt_huge (by unfold InLong; omega)) (asInt_int hm) J
  · intro h1 h2 h3
    unfold wrapFcToSc
    rw [arr2_ok, arr1_ok, asInt_over (v := v) (by unfold InLong; omega) (by unfold InInt; omega)]
    simp only [Except.bind_ok]
    exact berr _ _

/-- C108, counterexample and non-vacuity: on a pattern of 3 by 4 samples, `spht(p, 1, 1)` does the same with both backends and returns coefficients; with `np.int64(1)` for either
limit the Python routines return the same coefficients and the C extension raises TypeError.  A set made with NumPy limits cannot be synthesised by the C extension. -/
theorem c108_counterexample (J : ℕ → CJunk) : ∃ (D : Arr2 ℂ) (c : ScalarCoefs ℂ), D.rows = 4 ∧ D.cols = 4 ∧ c.WellFormed ∧
    wSpht (.c J) ⟨.arr D⟩ (some ⟨false, 1⟩) (some ⟨false, 1⟩) = .ok ⟨c.vec, .complex128, true, ⟨false, 1⟩, ⟨false, 1⟩⟩ ∧
    wSpht .py ⟨.arr D⟩ (some ⟨true, 1⟩) (some ⟨false, 1⟩) = .ok ⟨c.vec, .complex128, true, ⟨true, 1⟩, ⟨false, 1⟩⟩ ∧
    (wSpht (.c J) ⟨.arr D⟩ (some ⟨true, 1⟩) (some ⟨false, 1⟩)).Raises .typeError ∧
    (wSpht (.c J) ⟨.arr D⟩ (some ⟨false, 1⟩) (some ⟨true, 1⟩)).Raises .typeError ∧
    (∃ p, wIspht .py ⟨c.vec, .complex128, true, ⟨true, 1⟩, ⟨false, 1⟩⟩ (some 3) (some 4) = .ok p) ∧
    (wIspht (.c J) ⟨c.vec, .complex128, true, ⟨true, 1⟩, ⟨false, 1⟩⟩ (some 3) (some 4)).Raises .typeError := by
  obtain ⟨D, hD⟩ : ∃ D : Arr2 ℂ, D = Arr2.ofFn 4 4 fun i j => (i : ℂ) + j := ⟨_, rfl⟩
  have r4 : D.rows = 4 := by rw [hD]; rfl
  have c4 : D.cols = 4 := by rw [hD]; rfl
  have K := fun n m h => c108_spht_partial J D (by rw [r4]) (by rw [r4]; norm_num) (by rw [r4]; norm_num) (by rw [r4, c4]; norm_num) n m h
  obtain ⟨c, ec, en, em, hw⟩ := c35_accepts .py D (by rw [r4]) (by rw [r4]; norm_num) (by rw [r4]; norm_num) 1 1 (by norm_num) (by norm_num) (by rw [r4]; norm_num) (by rw [c4]; norm_num) (by rw [c4])
  have P : ∀ a b, wSpht .py ⟨.arr D⟩ (some ⟨a, 1⟩) (some ⟨b, 1⟩) = .ok ⟨c.vec, .complex128, true, ⟨a, 1⟩, ⟨b, 1⟩⟩ := by
    intro a b
    rw [wspht_py, show (⟨a, 1⟩ : Lim).val = 1 from rfl, ec]
    rfl
  have ecs : (LSet.mk c.vec .complex128 true ⟨true, 1⟩ ⟨false, 1⟩).coefs = c := by
    cases c; cases en; cases em; rfl
  obtain ⟨p, hp, -⟩ := c36_accepts .py c hw 3 4 (by rw [en]; norm_num) (by rw [em]; norm_num) (by norm_num)
  have hp' : wIspht .py ⟨c.vec, .complex128, true, ⟨true, 1⟩, ⟨false, 1⟩⟩ (some 3) (some 4) = .ok p := by
    show ispht .py (LSet.mk c.vec .complex128 true ⟨true, 1⟩ ⟨false, 1⟩).coefs (some 3) (some 4) = _
    rw [ecs, hp]
  refine ⟨D, c, r4, c4, hw, ?_, P true false, ?_, ?_, ⟨p, hp'⟩, ?_⟩
  · rw [(K ⟨false, 1⟩ ⟨false, 1⟩ (by norm_num)).1 rfl rfl, P]
  · exact (K ⟨true, 1⟩ ⟨false, 1⟩ (by norm_num)).2.1 (.inl rfl) _ (P true false)
  · exact (K ⟨false, 1⟩ ⟨true, 1⟩ (by norm_num)).2.1 (.inr rfl) _ (P false true)
  · refine (c108_ispht_partial J _ (by rw [ecs]; exact hw) 3 4 (by norm_num) (by norm_num)).2.1 ?_ p hp'
    simp

end Verif.Props
