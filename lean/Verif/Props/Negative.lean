import Verif.Props.Transforms5
import Verif.Props.Vector4
/-!
# Property C29 continued: exactly which accepted calls leave the memory of the C extension
-/
namespace Verif.Props
open Verif Finset

/-- For `S ≤ 0` the loop of `FindQ` never ends. -/
theorem c25_c_diverges (S : Int) (hS : S ≤ 0) : cFindQ S = none := by
  have key : ∀ A Q r, cFindQLoop A Q = some r → A ≤ 0 → Q ≤ 0 → (Q = 0 → A = 0) → False := by
    refine cFindQLoop.partial_correctness (fun A Q r => A ≤ 0 → Q ≤ 0 → (Q = 0 → A = 0) → False) ?_
    intro f ih A Q r h hA hQ h0
    simp only [show A ≠ 1 by omega, if_false] at h
    have hd : ∀ k : Int, 0 < k → A.tdiv k ≤ 0 := fun k hk => by
      have := Int.tdiv_nonneg (show 0 ≤ -A by omega) hk.le
      rw [Int.neg_tdiv] at this; omega
    have hz : ∀ k : Int, (Q = 0 → A.tdiv k = 0) := fun k hq => by rw [h0 hq, Int.zero_tdiv]
    split at h
    · exact ih _ _ _ h (hd 2 (by omega)) hQ (hz 2)
    split at h
    · exact ih _ _ _ h (hd 3 (by omega)) hQ (hz 3)
    split at h
    · exact ih _ _ _ h (hd 5 (by omega)) hQ (hz 5)
    · rename_i h1 h2 h3
      have : Q ≠ 0 := fun hq => by rw [h0 hq] at h1; exact h1 rfl
      exact ih _ _ _ h (by omega) (by omega) (by omega)
  unfold cFindQ
  match h : cFindQLoop S S with
  | none => rfl
  | some r => exact (key _ _ _ h hS hS (fun h => h)).elim

/-- The length of the coefficient vector for limits with `mmax < 0` is non-negative only for `nmax < 0`. -/
theorem nc_neg {n m : ℤ} (hm : m < 0) (hnc : 0 ≤ ncFormula n m) : n ≤ -1 := by
  unfold ncFormula at hnc
  simp only at hnc
  by_contra hn
  have h1 : m * (2 * (n + 1) - m - 1) ≤ -1 * (2 * (n + 1) - m - 1) := by
    apply mul_le_mul_of_nonneg_right (by omega) (by omega)
  omega

/-- The C routine on negative limits. -/
theorem cFcToSc_neg (fdata : List ℂ) (R Ncol : ℤ) (sc : List ℂ) (n m : ℤ) (hn : n ≤ -1) (hm : m < 0) (hR : R ≤ 2 ^ 30) (J : CJunk) :
    (1 ≤ R + n → cFcToSc fdata R Ncol sc n m J = cUB) ∧
    (R + n ≤ 0 → cFcToSc fdata R Ncol sc n m J = .error ⟨.nonTermination, "does not terminate"⟩) := by
  constructor
  · intro h1
    unfold cFcToSc
    obtain ⟨S, hS⟩ := Int.eq_ofNat_of_zero_le (show 0 ≤ R + n by omega)
    obtain ⟨Q, eQ, hQ1, hQ2⟩ := cFindQ_spec S (by omega) (by omega)
    rw [hS, eQ]
    simp only [orDiverge, Except.bind_ok]
    have mal : ∀ J : ℕ → ℂ, cMalloc (Q : ℤ) J = .ok (tab Q J) := by
      intro J
      unfold cMalloc; rw [if_neg (by omega), Int.toNat_natCast]
    rw [mal, mal]
    simp only [Except.bind_ok]
    rcases cSData_okOrUB (tab Q (J.c (-1))) Q (by simp) R n with h | ⟨s, h, hs⟩
    · rw [h]; rfl
    rw [h]
    simp only [Except.bind_ok]
    obtain ⟨fw, efw, f1, f2, f3⟩ := kissAlloc_ok Q false (by omega) (by omega)
    obtain ⟨bw, ebw, b1, b2, b3⟩ := kissAlloc_ok Q true (by omega) (by omega)
    have hfw : KissOK fw false Q := ⟨f1, f2, f3⟩
    rw [efw, ebw]
    simp only [Except.bind_ok]
    rw [hfw.fft (by omega) s hs]
    simp only [Except.bind_ok]
    by_cases h2 : n + 1 < 0
    · have m1 : cMalloc (n + 1) (J.c (-9)) = cUB := by unfold cMalloc; rw [if_pos h2]
      rw [m1]; rfl
    have hn1 : n + 1 = 0 := by omega
    have m1 : cMalloc (n + 1) (J.c (-9)) = .ok [] := by rw [hn1]; rfl
    have m2 : cMalloc (n + 1) J.r = .ok [] := by rw [hn1]; rfl
    have m3 : cMalloc (2 * m + 1) J.i = cUB := by unfold cMalloc; rw [if_pos (by omega)]
    rw [m1, m2, m3]
    rfl
  · intro h1
    unfold cFcToSc
    rw [c25_c_diverges _ h1]
    rfl

/-- What the C extension does with negative limits that pass the checks. -/
theorem fcToSc_neg (J : ℕ → CJunk) (call : ℕ) (G : Arr2 ℂ) (n m : ℤ) (hm : m < 0) (hR : G.rows ≤ 2 ^ 30) :
    (Res.Raises (Backend.fcToSc (.c J) call G n m) .undefinedBehaviour ↔ 0 ≤ ncFormula n m ∧ 1 ≤ G.rows + n) ∧
    (Res.Raises (Backend.fcToSc (.c J) call G n m) .nonTermination ↔ 0 ≤ ncFormula n m ∧ G.rows + n ≤ 0) ∧
    (Res.Raises (Backend.fcToSc (.c J) call G n m) .valueError ↔ ncFormula n m < 0) := by
  unfold Backend.fcToSc
  simp only
  unfold npFull
  by_cases hnc : ncFormula n m < 0
  · rw [if_pos hnc]
    refine ⟨⟨?_, fun h => by omega⟩, ⟨?_, fun h => by omega⟩, ⟨fun _ => hnc, fun _ => ⟨_, rfl⟩⟩⟩
    all_goals rintro ⟨msg, h⟩; cases h
  · rw [if_neg hnc]
    simp only [Except.bind_ok]
    obtain ⟨k1, k2⟩ := cFcToSc_neg G.flat G.rows G.cols (List.replicate (ncFormula n m).toNat 0) n m (nc_neg hm (by omega)) hm
      (by exact_mod_cast hR) (J call)
    by_cases h1 : 1 ≤ (G.rows : ℤ) + n
    · rw [k1 h1]
      refine ⟨⟨fun _ => ⟨by omega, h1⟩, fun _ => ⟨_, rfl⟩⟩, ⟨?_, fun h => by omega⟩, ⟨?_, fun h => by omega⟩⟩
      all_goals rintro ⟨msg, h⟩; cases h
    · rw [k2 (by omega)]
      refine ⟨⟨?_, fun h => by omega⟩, ⟨fun _ => ⟨by omega, by omega⟩, fun _ => ⟨_, rfl⟩⟩, ⟨?_, fun h => by omega⟩⟩
      all_goals rintro ⟨msg, h⟩; cases h

theorem raises_bind {α β : Type} {x : Res α} {f : α → Res β} {k : Exc} (h : Res.Raises x k) : Res.Raises (x.bind f) k := by
  obtain ⟨msg, rfl⟩ := h
  exact ⟨msg, rfl⟩

/-- An error of one of the three kinds is passed on. -/
theorem raises_bind_iff {α β : Type} {x : Res α} {f : α → Res β} (hx : ∃ k, Res.Raises x k) (k : Exc) :
    Res.Raises (x.bind f) k ↔ Res.Raises x k := by
  obtain ⟨k', msg, rfl⟩ := hx
  constructor
  · rintro ⟨msg', h⟩; exact ⟨msg', by cases h; rfl⟩
  · rintro ⟨msg', h⟩; exact ⟨msg', by cases h; rfl⟩

theorem fcToSc_neg_raises (J : ℕ → CJunk) (call : ℕ) (G : Arr2 ℂ) (n m : ℤ) (hm : m < 0) (hR : G.rows ≤ 2 ^ 30) :
    ∃ k, Res.Raises (Backend.fcToSc (.c J) call G n m) k := by
  obtain ⟨h1, h2, h3⟩ := fcToSc_neg J call G n m hm hR
  by_cases hnc : ncFormula n m < 0
  · exact ⟨_, h3.mpr hnc⟩
  by_cases hr : 1 ≤ (G.rows : ℤ) + n
  · exact ⟨_, h1.mpr ⟨by omega, hr⟩⟩
  · exact ⟨_, h2.mpr ⟨by omega, by omega⟩⟩

/-- C29 for `spht`, exactly: with the C extension a call uses memory it did not get if and only if both limits are
negative, pass the checks, and the vector length computed from them, `(nmax+1) + mmax*(2*(nmax+1) - mmax - 1)`, is not
negative (unless `nmax` is below minus the number of rows of the padded data, when the call does not return). -/
theorem c29_spht_iff (J : ℕ → CJunk) (D : Arr2 ℂ) (hR : D.rows % 2 = 0) (hR0 : 0 < D.rows) (hsz : D.rows ≤ 2 ^ 29)
    (hC0 : 0 < D.cols) (n m : ℤ) :
    (Res.Raises (spht (.c J) ⟨.arr D⟩ (some n) (some m)) .undefinedBehaviour ↔
      m < 0 ∧ m ≤ n ∧ n < 0 ∧ D.cols % 2 = 0 ∧ 0 ≤ (n + 1) + m * (2 * (n + 1) - m - 1) ∧ -((D.rows : ℤ) + 2) < n) ∧
    (Res.Raises (spht (.c J) ⟨.arr D⟩ (some n) (some m)) .nonTermination ↔
      m < 0 ∧ m ≤ n ∧ n < 0 ∧ D.cols % 2 = 0 ∧ 0 ≤ (n + 1) + m * (2 * (n + 1) - m - 1) ∧ n ≤ -((D.rows : ℤ) + 2)) := by
  by_cases hg : m > n ∨ n > ((D.rows / 2 + 1 : ℕ) : ℤ) - 2 ∨ 2 * m ≥ D.cols ∨ D.cols % 2 = 1
  · obtain ⟨msg', h'⟩ := c35_rejects (.c J) D n m hg
    rw [h']
    refine ⟨⟨?_, fun h => by omega⟩, ⟨?_, fun h => by omega⟩⟩
    all_goals rintro ⟨msg, h⟩; cases h
  by_cases h0 : 0 ≤ m
  · obtain ⟨c, h', -⟩ := c35_accepts (.c J) D hR hR0 hsz n m h0 (by omega) (by omega) (by omega) (by omega)
    rw [h']
    refine ⟨⟨?_, fun h => by omega⟩, ⟨?_, fun h => by omega⟩⟩
    all_goals rintro ⟨msg, h⟩; cases h
  have hm : m < 0 := by omega
  have h4 : D.cols % 2 = 0 := by omega
  obtain ⟨E, eE, hEr, hEc, hEv⟩ := extFourier_spec D hR hR0 hC0
  obtain ⟨G, eG, hGr, hGc, -⟩ := sinFc_spec E (D.rows / 2) (by omega) (by omega) (fhat D) hEv (fhat_outer D) (by omega)
  have hrows : (G.rows : ℤ) = D.rows + 2 := by omega
  have hR30 : G.rows ≤ 2 ^ 30 := by norm_num at hsz ⊢; omega
  have key : ∀ k, Res.Raises (spht (.c J) ⟨.arr D⟩ (some n) (some m)) k ↔ Res.Raises (Backend.fcToSc (.c J) 0 G n m) k := by
    intro k
    have hrun : spht (.c J) ⟨.arr D⟩ (some n) (some m) = (Backend.fcToSc (.c J) 0 G n m).bind fun sc => ScalarCoefs.init (.arr sc) n m := by
      unfold spht
      have e1 : SPatt.nrows (⟨.arr D⟩ : SPatt ℂ) = .ok (D.rows / 2 + 1) := rfl
      have e2 : SPatt.ncols (⟨.arr D⟩ : SPatt ℂ) = .ok D.cols := rfl
      have e4 : SPatt.dsphere (⟨.arr D⟩ : SPatt ℂ) = .ok D := rfl
      have e3 : sphtArgs (SPatt.nrows (⟨.arr D⟩ : SPatt ℂ)) (SPatt.ncols (⟨.arr D⟩ : SPatt ℂ)) (some n) (some m) = .ok (n, m) := rfl
      rw [e3, e1, e2, e4]
      simp only [Except.bind_ok]
      rw [sphtGuards_ok _ _ _ _ (by omega) (by omega) (by omega) h4]
      simp only [Except.bind_ok]
      rw [eE]
      simp only [Except.bind_ok]
      rw [eG]
      simp only [Except.bind_ok]
      unfold Backend.fcToSc npFull
      by_cases hnc : ncFormula n m < 0
      · simp only [if_pos hnc]; rfl
      · simp only [if_neg hnc]; rfl
    rw [hrun]
    exact raises_bind_iff (fcToSc_neg_raises J 0 G n m hm hR30) k
  obtain ⟨k1, k2, -⟩ := fcToSc_neg J 0 G n m hm hR30
  rw [key, key, k1, k2]
  have hnn : 0 ≤ ncFormula n m → n < 0 := fun h => by have := nc_neg hm h; omega
  have hform : ncFormula n m = (n + 1) + m * (2 * (n + 1) - m - 1) := rfl
  rw [hform] at hnn ⊢
  constructor
  · exact ⟨fun h => ⟨hm, by omega, hnn h.1, h4, h.1, by omega⟩, fun h => ⟨h.2.2.2.2.1, by omega⟩⟩
  · exact ⟨fun h => ⟨hm, by omega, hnn h.1, h4, h.1, by omega⟩, fun h => ⟨h.2.2.2.2.1, by omega⟩⟩

/-- The condition is met, for instance, by `spht(p, -k, -k)` for every `1 ≤ k` up to the number of rows. -/
example (k : ℤ) (h : 1 ≤ k) : 0 ≤ (-k + 1) + -k * (2 * (-k + 1) - -k - 1) := by nlinarith [sq_nonneg (k - 1)]

/-- C29 for `ispht`, exactly: a single coefficient synthesised on one row. -/
theorem c29_ispht_iff (J : ℕ → CJunk) (c : ScalarCoefs ℂ) (hc : c.WellFormed) (nr nc : ℤ) :
    Res.Raises (ispht (.c J) c (some nr) (some nc)) .undefinedBehaviour ↔ c.nmax = 0 ∧ nr = 1 ∧ nc % 2 = 0 ∧ 2 ≤ nc := by
  have hw := hc.wf
  have hm0 := hw.m0
  have hmn := hw.mn
  constructor
  · intro h
    by_cases hx : c.nmax = 0 ∧ nr = 1
    · obtain ⟨msg, h⟩ := h
      refine ⟨hx.1, hx.2, ?_⟩
      by_contra hn
      obtain ⟨msg', h'⟩ := c36_rejects (.c J) c nr nc (by omega)
      rw [h] at h'; cases h'
    · exact absurd h (c29_ispht J c hc nr nc hx)
  · rintro ⟨h1, rfl, h3, h4⟩
    have hm : c.mmax = 0 := by omega
    obtain ⟨k, rfl⟩ := Int.eq_ofNat_of_zero_le (show 0 ≤ nc by omega)
    obtain ⟨q, hq⟩ : ∃ q : ℕ, k = 2 * (q + 1) := ⟨k / 2 - 1, by omega⟩
    have hlen : c.vec.length = 1 := by
      have := hw.len
      rw [h1, hm] at this
      have e : ncFormula 0 0 = 1 := rfl
      omega
    obtain ⟨x, hx⟩ := List.length_eq_one_iff.mp hlen
    unfold ispht
    simp only [Option.getD_some]
    rw [isphtGuards_ok _ _ _ _ (by omega) (by omega) (by omega)]
    simp only [Except.bind_ok]
    have e1 : npZeros2 (2 * 1 - 2) (k : ℤ) = .ok (Arr2.ofFn 0 k fun _ _ => (0 : ℂ)) := by
      unfold npZeros2
      simp
    have e2 : (Arr2.ofFn 0 k fun _ _ => (0 : ℂ)).flat = [] := by
      simp [Arr2.flat, Arr2.ofFn]; rfl
    have e3 : cScToFc [] 0 (k : ℤ) [x] 0 0 (J 0) = cUB := by
      have r1 : pyRange 0 1 = [0] := by decide
      have r0 : pyRange 1 1 = [] := by decide
      have rk : ∃ t, pyRange 0 ((k : ℤ).tdiv 2 + 1) = 0 :: t := by
        refine ⟨pyRange 1 ((k : ℤ).tdiv 2 + 1), ?_⟩
        have : 0 ≤ (k : ℤ).tdiv 2 := Int.tdiv_nonneg (by omega) (by omega)
        unfold pyRange
        rw [show ((k : ℤ).tdiv 2 + 1 - 0).toNat = ((k : ℤ).tdiv 2 + 1 - 1).toNat + 1 by omega, List.range_succ_eq_map]
        simp [Function.comp_def, add_comm]
      obtain ⟨t, ht⟩ := rk
      have hmr : ∀ f : ℕ → ℝ, tab 1 f = [f 0] := fun f => rfl
      have hi : ∀ f : ℕ → ℤ, tab 1 f = [f 0] := fun f => rfl
      unfold cScToFc cMalloc cMemset0 cInds
      rw [ht]
      simp [hmr, hi, r0, r1, forM', cSet, cGet, cFcvecMSc, cFcvecAcc, cYnunm, cUB]
    unfold Backend.scToFc
    simp only [e1, Except.bind_ok, e2, Arr2.rows_ofFn, Arr2.cols_ofFn, h1, hm, hx]
    rw [show ((0 : ℕ) : ℤ) = 0 from rfl, e3]
    exact ⟨_, rfl⟩

/-- C29 for `vspht`, exactly (same condition as for `spht`). -/
theorem c29_vspht_iff (J : ℕ → CJunk) (T P : Arr2 ℂ) (hPr : P.rows = T.rows) (hPc : P.cols = T.cols) (hR : T.rows % 2 = 0)
    (hR0 : 0 < T.rows) (hsz : T.rows ≤ 2 ^ 29) (hC0 : 0 < T.cols) (n m : ℤ) :
    (Res.Raises (vspht (.c J) ⟨T, P⟩ (some n) (some m)) .undefinedBehaviour ↔
      m < 0 ∧ m ≤ n ∧ n < 0 ∧ T.cols % 2 = 0 ∧ 0 ≤ (n + 1) + m * (2 * (n + 1) - m - 1) ∧ -((T.rows : ℤ) + 2) < n) ∧
    (Res.Raises (vspht (.c J) ⟨T, P⟩ (some n) (some m)) .nonTermination ↔
      m < 0 ∧ m ≤ n ∧ n < 0 ∧ T.cols % 2 = 0 ∧ 0 ≤ (n + 1) + m * (2 * (n + 1) - m - 1) ∧ n ≤ -((T.rows : ℤ) + 2)) := by
  by_cases hg : m > n ∨ n > ((T.rows / 2 + 1 : ℕ) : ℤ) - 2 ∨ 2 * m ≥ T.cols ∨ T.cols % 2 = 1
  · obtain ⟨msg', h'⟩ := c35_vspht_rejects (.c J) T P n m hg
    rw [h']
    refine ⟨⟨?_, fun h => by omega⟩, ⟨?_, fun h => by omega⟩⟩
    all_goals rintro ⟨msg, h⟩; cases h
  by_cases h0 : 0 ≤ m
  · obtain ⟨c, h', -⟩ := c35_vspht_accepts (.c J) T P hPr hPc hR hR0 hsz n m h0 (by omega) (by omega) (by omega) (by omega)
    rw [h']
    refine ⟨⟨?_, fun h => by omega⟩, ⟨?_, fun h => by omega⟩⟩
    all_goals rintro ⟨msg, h⟩; cases h
  have hm : m < 0 := by omega
  have h4 : T.cols % 2 = 0 := by omega
  obtain ⟨E, eE, hEr, hEc, hEv⟩ := extFourier_spec T hR hR0 (by omega)
  obtain ⟨F, eF, hFr, hFc, hFv⟩ := extFourier_spec P (by omega) (by omega) (by omega)
  have hny : ∀ (D : Arr2 ℂ) (m : ℤ), D.rows = T.rows → fhat D m ((T.rows / 2 : ℕ) + 1) = 0 := by
    intro D m hD
    exact fhat_outer D m _ (by rw [hD, abs_of_nonneg (by omega)]; omega)
  obtain ⟨G1, e1, g11, g12, -, -⟩ := sinLdotFc_spec E F (T.rows / 2) (by omega) (by omega) (by omega) (by omega) (by omega) (by omega)
    (fhat P) (fun m ν hν => hFv m ν (by rw [hPr]; exact hν)) (fun m ν hν => fhat_outer P m ν (by rw [hPr]; exact hν))
    (fun m => by rw [hEv m _ (by rw [abs_of_nonneg (by omega)]), hny T m rfl])
  obtain ⟨G2, e2, g21, g22, -, -⟩ := sinLdotFc_spec (F.map fun x => -Complex.I * x) (E.map fun x => Complex.I * x) (T.rows / 2)
    (by simp only [Arr2.rows_map]; omega) (by simp only [Arr2.rows_map]; omega) (by omega) (by simp only [Arr2.cols_map]; omega)
    (by simp only [Arr2.cols_map]; omega) (by simp only [Arr2.cols_map]; omega)
    (fun m ν => Complex.I * fhat T m ν) (fun m ν hν => by rw [fAt_map _ _ (by omega) (by omega), hEv m ν hν])
    (fun m ν hν => by rw [fhat_outer T m ν hν, mul_zero])
    (fun m => by
      rw [fAt_map _ _ (by omega) (by omega), hFv m _ (by rw [hPr, abs_of_nonneg (by omega)]), hny P m hPr, mul_zero])
  have hrows : (G1.rows : ℤ) = T.rows + 2 := by omega
  have hR30 : G1.rows ≤ 2 ^ 30 := by norm_num at hsz ⊢; omega
  have key : ∀ k, Res.Raises (vspht (.c J) ⟨T, P⟩ (some n) (some m)) k ↔ Res.Raises (Backend.fcToSc (.c J) 0 G1 n m) k := by
    intro k
    have e3 : sphtArgs (.ok (TPatt.nrows (⟨T, P⟩ : TPatt ℂ))) (.ok (TPatt.ncols (⟨T, P⟩ : TPatt ℂ))) (some n) (some m) = .ok (n, m) := rfl
    have e1' : TPatt.nrows (⟨T, P⟩ : TPatt ℂ) = T.rows / 2 + 1 := rfl
    have e2' : TPatt.ncols (⟨T, P⟩ : TPatt ℂ) = T.cols := rfl
    unfold vspht vspht.extFourier'
    rw [e3]
    simp only [Except.bind_ok]
    rw [e1', e2', sphtGuards_ok _ _ _ _ (by omega) (by omega) (by omega) h4]
    simp only [Except.bind_ok]
    rw [eE, if_pos ⟨hPr.symm, hPc.symm⟩, eF]
    simp only [Except.bind_ok]
    rw [e1]
    simp only [Except.bind_ok]
    rw [e2]
    simp only [Except.bind_ok]
    exact raises_bind_iff (fcToSc_neg_raises J 0 G1 n m hm hR30) k
  obtain ⟨k1, k2, -⟩ := fcToSc_neg J 0 G1 n m hm hR30
  rw [key, key, k1, k2]
  have hnn : 0 ≤ ncFormula n m → n < 0 := fun h => by have := nc_neg hm h; omega
  have hform : ncFormula n m = (n + 1) + m * (2 * (n + 1) - m - 1) := rfl
  rw [hform] at hnn ⊢
  constructor
  · exact ⟨fun h => ⟨hm, by omega, hnn h.1, h4, h.1, by omega⟩, fun h => ⟨h.2.2.2.2.1, by omega⟩⟩
  · exact ⟨fun h => ⟨hm, by omega, hnn h.1, h4, h.1, by omega⟩, fun h => ⟨h.2.2.2.2.1, by omega⟩⟩

end Verif.Props
