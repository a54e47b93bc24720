import Verif.CInt
import Verif.CSphiB
import Verif.CSphiS
import Verif.TransS
import Verif.TransF
import Verif.VecTrans
/-!
# No `int` of csphi.c overflows
-/
namespace Verif.Props
open Verif
namespace XI

theorem cks_ok {l : List Int} (h : ∀ x ∈ l, InInt x) : cks l = .ok () := by unfold cks; rw [if_pos h]

theorem cks_bind {α : Type} {l : List Int} (h : ∀ x ∈ l, InInt x) (f : Unit → Res α) : (cks l).bind f = f () := by rw [cks_ok h]; rfl

theorem forM'_ext {σ ι : Type} {f g : σ → ι → Res σ} {xs : List ι} (h : ∀ x ∈ xs, ∀ s, f s x = g s x) (s : σ) : forM' xs s f = forM' xs s g :=
  forM'_congr (fun _ => True) f g xs s trivial (fun x hx s _ => h x hx s) (fun _ _ _ _ _ _ => trivial)

theorem forM'_unit {ι : Type} {f : Unit → ι → Res Unit} {xs : List ι} (h : ∀ x ∈ xs, f () x = .ok ()) : forM' xs () f = .ok () := by
  induction xs with
  | nil => rfl
  | cons x xs ih =>
    unfold forM'
    rw [h x (by simp)]
    exact ih fun y hy => h y (by simp [hy])

theorem pyRange_cons {a b : Int} (h : a < b) : pyRange a b = a :: pyRange (a + 1) b := by
  unfold pyRange
  rw [show (b - a).toNat = (b - (a + 1)).toNat + 1 by omega, List.range_succ_eq_map]
  simp only [List.map_cons, List.map_map]
  congr 1
  · simp
  · apply List.map_congr_left
    intro i _
    simp only [Function.comp]
    push_cast; ring

theorem bindc {α β : Type} {x : Res α} {f g : α → Res β} (h : ∀ a, f a = g a) : x.bind f = x.bind g := by rw [funext h]

theorem forM'_rangeC {σ : Type} {f g : σ → Int → Res σ} (I : Int → σ → Prop) {a b : Int} (hab : a ≤ b) (s : σ) (h0 : I a s)
    (h : ∀ k, a ≤ k → k < b → ∀ s, I k s → f s k = g s k ∧ ∀ s', g s k = .ok s' → I (k + 1) s') : forM' (pyRange a b) s f = forM' (pyRange a b) s g := by
  obtain ⟨n, rfl⟩ : ∃ n : ℕ, b = a + n := ⟨(b - a).toNat, by omega⟩
  induction n generalizing a s with
  | zero =>
    have : pyRange a (a + (0 : ℕ)) = [] := by
      apply List.eq_nil_iff_forall_not_mem.mpr
      intro x hx
      have := mem_pyRange.mp hx
      omega
    rw [this]; rfl
  | succ n ih =>
    have e : pyRange a (a + ((n + 1 : ℕ) : ℤ)) = a :: pyRange (a + 1) (a + ((n + 1 : ℕ) : ℤ)) := pyRange_cons (by omega)
    rw [e]
    unfold forM'
    obtain ⟨h1, h2⟩ := h a (by omega) (by omega) s h0
    rw [h1]
    cases hg : g s a with
    | error => rfl
    | ok s' =>
      simp only [Except.bind_ok]
      have := ih (a := a + 1) s' (h2 s' hg) (by omega) (fun k hk hk' => h k (by omega) (by omega))
      rw [show a + 1 + (n : ℤ) = a + ((n + 1 : ℕ) : ℤ) by push_cast; ring] at this
      exact this

macro "ints" : tactic => `(tactic| (simp only [List.mem_cons, List.not_mem_nil, or_false, forall_eq_or_imp, forall_eq, InInt]; omega))

theorem xYnnm_eq (n m : Int) (hm : m.natAbs ≤ 2 ^ 30) (hn : n ≤ 2 ^ 30) : xYnnm n m = .ok (cYnnm n m) := by
  have habs : |m| = (m.natAbs : ℤ) := Int.abs_eq_natAbs m
  unfold xYnnm
  rw [habs, cks_bind (by ints)]
  split
  · rfl
  · rw [forM'_unit (fun k hk => cks_ok (by have := mem_pyRange.mp hk; ints))]
    simp only [Except.bind_ok]
    split
    · rw [cks_bind (by ints), forM'_unit (fun k hk => cks_ok (by
        have : (m.natAbs : ℤ) - 1 < k ∧ k ≤ n - 1 := by
          unfold pyRangeNeg at hk
          simp only [List.mem_map, List.mem_range] at hk
          obtain ⟨j, hj, rfl⟩ := hk
          omega
        ints))]
      rfl
    · rfl

theorem xYnunm_eq (n m : Int) (y : List ℝ) (len : Int) (hm : m.natAbs ≤ 2 ^ 30) (hn : n ≤ 2 ^ 30) (hn0 : 0 ≤ n) (hl : len ≤ 2 ^ 30 + 1) : xYnunm n m y len = cYnunm n m y len := by
  have habs : |m| = (m.natAbs : ℤ) := Int.abs_eq_natAbs m
  unfold xYnunm cYnunm
  rw [forM'_ext (g := fun y k => cSet y k 0) (fun k hk s => by
    have := mem_pyRange.mp hk
    rw [cks_bind (by ints)])]
  refine bindc fun y => ?_
  rw [cks_bind (by rw [habs]; ints), xYnnm_eq n m hm hn]
  simp only [Except.bind_ok]
  split
  · refine bindc fun y => ?_
    rw [cks_bind (by ints)]
    split
    · refine bindc fun y2 => ?_
      rw [cks_bind (by ints)]
      refine bindc fun y => ?_
      refine forM'_ext (fun k hk s => ?_) y
      have : 0 ≤ k ∧ k ≤ n - 4 := by
        unfold pyRangeNeg at hk
        simp only [List.mem_map, List.mem_range] at hk
        obtain ⟨j, hj, rfl⟩ := hk
        omega
      unfold xYnunmStep
      rw [cks_bind (by ints)]
    · rfl
  · rfl

theorem xFindQ_eq (S : ℕ) (h1 : 1 ≤ S) (h2 : S ≤ 2 ^ 30) : xFindQ S = orDiverge (cFindQ S) := by
  obtain ⟨Q, e, hQ, hQ'⟩ := cFindQ_spec S h1 h2
  unfold xFindQ
  rw [cks_bind (by ints), e]
  simp only [orDiverge, Except.bind_ok]
  rw [cks_bind (by ints)]

theorem xSData_eq (s : List ℂ) (Q Nrow Nmax : ℕ) (hQ : Q ≤ 2 ^ 30) (h : Nrow + Nmax ≤ 2 ^ 30) : xSData s Q Nrow Nmax = cSData s Q Nrow Nmax := by
  unfold xSData cSData
  rw [cks_bind (by ints)]
  simp only
  refine bindc fun s => ?_
  rw [Int.tdiv_eq_ediv_of_nonneg (by omega), cks_bind (by ints)]
  rw [forM'_ext (g := fun s k => if k.tmod 2 = 1 then (cGet s (k - (Nrow : ℤ) / 2)).bind fun z => cSet s (k - (Nrow : ℤ) / 2) ⟨z.re, -1 / (k : ℝ)⟩ else .ok s) (fun k hk s => by
    have := mem_pyRange.mp hk
    rw [cks_bind (by ints)])]
  refine bindc fun s => ?_
  refine forM'_ext (fun k hk s => ?_) s
  have := mem_pyRange.mp hk
  rw [cks_bind (by rw [Int.abs_eq_natAbs]; ints)]

theorem prod_lt {a c r M : ℕ} (hc : M < c) (ha : a < r) (h : r * c ≤ 2 ^ 31) : c * a + M ≤ 2147483647 := by
  have : c * (a + 1) ≤ c * r := Nat.mul_le_mul_left c (by omega)
  rw [Nat.mul_add, mul_one] at this
  rw [Nat.mul_comm r c] at h
  omega

theorem prod_in {a : Int} {c r M : ℕ} (hc : M < c) (ha0 : 0 ≤ a) (ha : a < r) (h : r * c ≤ 2 ^ 31) :
    InInt ((c : ℤ) * a) ∧ InInt ((c : ℤ) * a + M) ∧ InInt (a * (c : ℤ)) := by
  obtain ⟨a, rfl⟩ := Int.eq_ofNat_of_zero_le ha0
  have := prod_lt (a := a) hc (by omega) h
  have e : (c : ℤ) * (a : ℤ) = ((c * a : ℕ) : ℤ) := by push_cast; ring
  rw [mul_comm (a : ℤ), e]
  unfold InInt
  omega

theorem xHkmFc_eq (g : List ℂ) (r c : ℕ) (m : ℤ) (hkm : List ℂ) (len : Int) (ss : List ℂ) (Q : Int) (ff : List ℂ) (fw bw : KissCfg) (J : CJunk)
    (hm : m.natAbs < c) (h : r * c ≤ 2 ^ 31) (hr : r ≤ 2 ^ 30) (hc : c < 2 ^ 31) (hQ : Q ≤ 2 ^ 30) (hl : len ≤ 2 ^ 30 + 1) :
    xHkmFc g r c m hkm len ss Q ff fw bw J = cHkmFc g r c m hkm len ss Q ff fw bw J := by
  unfold xHkmFc cHkmFc
  obtain ⟨i, hi, hic⟩ : ∃ i : ℕ, (if m ≥ 0 then m else (c : ℤ) + m) = i ∧ i < c := by
    split
    · exact ⟨m.toNat, by omega, by omega⟩
    · exact ⟨((c : ℤ) + m).toNat, by omega, by omega⟩
  simp only [hi]
  refine bindc fun ff => bindc fun hkm => ?_
  rw [cks_bind (by ints), Int.tdiv_eq_ediv_of_nonneg (by omega)]
  rw [forM'_ext (g := fun ff k =>
    (cGet g ((c : ℤ) * ((r : ℤ) / 2 + k) + i)).bind fun a =>
    (cSet ff k a).bind fun ff =>
    (cGet g ((c : ℤ) * k + i)).bind fun b =>
    cSet ff ((r : ℤ) / 2 + k) b) (fun k hk s => by
      have := mem_pyRange.mp hk
      obtain ⟨p1, p2, -⟩ := prod_in (a := (r : ℤ) / 2 + k) hic (by omega) (by omega) h
      obtain ⟨p3, p4, -⟩ := prod_in (a := k) hic (by omega) (by omega) h
      rw [cks_bind (by
        simp only [List.mem_cons, List.not_mem_nil, or_false, forall_eq_or_imp, forall_eq]
        refine ⟨?_, p1, p2, p3, p4, ?_⟩ <;> unfold InInt <;> omega)])]
  refine bindc fun ff => bindc fun ff => ?_
  rw [forM'_ext (g := fun ff k => (cGet ff k).bind fun f => (cGet ss k).bind fun s =>
    cSet ff k ⟨s.re * f.re - s.im * f.im, s.re * f.im + s.im * f.re⟩) (fun k hk s => by
      have := mem_pyRange.mp hk
      rw [cks_bind (by ints)])]
  refine bindc fun ff => bindc fun ff => ?_
  rw [forM'_ext (g := fun hkm k => (cGet ff k).bind fun f =>
    cSet hkm k ⟨4.0 * Real.pi * f.re / Q, 4.0 * Real.pi * f.im / Q⟩) (fun k hk s => by
      have := mem_pyRange.mp hk
      rw [cks_bind (by ints)])]

theorem xBnmBody_eq (m : Int) (off : Int) (hkm : List ℂ) (Ly : Int) (st : List ℂ × List ℝ) (n : Int) (hm : m.natAbs ≤ 2 ^ 30) (hn : n ≤ 2 ^ 30) (hn0 : 0 ≤ n) (hl : Ly ≤ 2 ^ 30 + 1) :
    xBnmBody m off hkm Ly st n = cBnmBody m off hkm Ly st n := by
  unfold xBnmBody cBnmBody
  rw [xYnunm_eq n m _ _ hm hn hn0 hl]
  refine bindc fun y => ?_
  rw [cks_bind (by rw [Int.abs_eq_natAbs]; ints)]
  refine bindc fun h0 => bindc fun y0 => bindc fun sc => ?_
  rw [forM'_ext (g := fun sc k => (cGet sc (off + (n - |m|))).bind fun v => (cGet hkm k).bind fun h => (cGet y k).bind fun yk =>
    cSet sc (off + (n - |m|)) ⟨v.re + 2.0 * h.re * yk, v.im + 2.0 * h.im * yk⟩) (fun k hk s => by
      have := mem_pyRange.mp hk
      rw [cks_bind (by ints)])]

theorem xBnmFc_eq (g : List ℂ) (r c Nmax : ℕ) (m off : Int) (ss : List ℂ) (Q Lhkm Ly : Int) (fw bw : KissCfg) (J : CJunk) (w : CWork)
    (hm : m.natAbs < c) (hm' : m.natAbs ≤ 2 ^ 30) (h : r * c ≤ 2 ^ 31) (hr : r + Nmax ≤ 2 ^ 30) (hc : c < 2 ^ 31) (hQ : Q ≤ 2 ^ 30) (hl : Lhkm ≤ 2 ^ 30 + 1) (hl' : Ly ≤ 2 ^ 30 + 1) :
    xBnmFc g r c Nmax m off ss Q Lhkm Ly fw bw J w = cBnmFc g r c Nmax m off ss Q Lhkm Ly fw bw J w := by
  unfold xBnmFc cBnmFc
  rw [cks_bind (by rw [Int.abs_eq_natAbs]; ints), xHkmFc_eq g r c m _ _ _ _ _ _ _ _ hm h (by omega) hc hQ hl]
  refine bindc fun hf => ?_
  rw [forM'_ext (g := cBnmBody m off hf.1 Ly) (fun n hn s => by
    have := mem_pyRange.mp hn
    rw [Int.abs_eq_natAbs] at this
    exact xBnmBody_eq m off hf.1 Ly s n hm' (by omega) (by omega) hl')]

theorem seg_le (N o : ℕ) : seg N o ≤ N * o := by
  induction o with
  | zero => simp [seg]
  | succ o ih => rw [seg_succ, Nat.mul_succ]; omega

theorem xInds_eq (N M : ℕ) (hM : M ≤ N) (h : seg (N + 1) (2 * M + 1) < 2 ^ 31) (hN : N < 2 ^ 30) (inds : List Int) : xInds N M inds = cInds N M inds := by
  unfold xInds cInds
  refine bindc fun inds => ?_
  rw [forM'_rangeC (fun m (s : List Int × Int × Int) => s.2.1 = ((seg (N + 1) (2 * m.toNat - 1) : ℕ) : ℤ) ∧ s.2.2 = N + 1 - m) (by omega) _ ⟨by simp [seg_succ, seg], by simp⟩
    (g := fun (s : List Int × Int × Int) m =>
    (cSet s.1 (2 * m - 1) s.2.1).bind fun inds =>
    (cSet inds (2 * m) (s.2.1 + s.2.2)).bind fun inds =>
    .ok (inds, s.2.1 + s.2.2 + s.2.2, s.2.2 - 1)) (by
      rintro m h1 h2 ⟨l, A, B⟩ ⟨hA, hB⟩
      simp only at hA hB
      obtain ⟨k, rfl⟩ := Int.eq_ofNat_of_zero_le (show 0 ≤ m by omega)
      rw [Int.toNat_natCast] at hA
      have s1 : seg (N + 1) (2 * k) = seg (N + 1) (2 * k - 1) + (N + 1 - k) := by
        conv_lhs => rw [show 2 * k = (2 * k - 1) + 1 by omega]
        rw [seg_succ]; congr 2; omega
      have s2 : seg (N + 1) (2 * k + 1) = seg (N + 1) (2 * k) + (N + 1 - k) := by
        rw [seg_succ]; congr 2; omega
      have s3 := seg_mono (N + 1) (show 2 * k + 1 ≤ 2 * M + 1 by omega)
      have t1 : 2 * ((k : ℤ) + 1).toNat - 1 = 2 * k + 1 := by omega
      refine ⟨?_, ?_⟩
      · simp only
        rw [cks_bind (by ints)]
      · intro s' hs
        simp only at hs
        cases e1 : cSet l (2 * (k : ℤ) - 1) A with
        | error => rw [e1] at hs; cases hs
        | ok l1 =>
          rw [e1] at hs
          simp only [Except.bind_ok] at hs
          cases e2 : cSet l1 (2 * (k : ℤ)) (A + B) with
          | error => rw [e2] at hs; cases hs
          | ok l2 =>
            rw [e2] at hs
            simp only [Except.bind_ok] at hs
            cases hs
            refine ⟨?_, ?_⟩
            · show A + B + B = ((seg (N + 1) (2 * ((k : ℤ) + 1).toNat - 1) : ℕ) : ℤ)
              rw [t1, s2, s1, hA, hB]; push_cast; omega
            · simp only; omega)]

theorem orDiverge_bind {α β : Type} (q : α) (f : α → Res β) : (orDiverge (some q)).bind f = f q := rfl

theorem xFcToSc_eq (g : List ℂ) (r c : ℕ) (sc : List ℂ) (N M : ℕ) (J : CJunk) (hM : M ≤ N) (hr : N + 2 ≤ r) (hc : 2 * M + 1 ≤ c) (h : r * c ≤ 2 ^ 31) (hsz : r + N ≤ 2 ^ 30) :
    xFcToSc g r c sc N M J = cFcToSc g r c sc N M J := by
  have hc1 : c < 2 ^ 31 := by
    have : 2 * c ≤ r * c := Nat.mul_le_mul_right c (by omega)
    omega
  have hseg : seg (N + 1) (2 * M + 1) < 2 ^ 31 := by
    have h1 := seg_le (N + 1) (2 * M + 1)
    have h2 : (N + 1) * (2 * M + 1) ≤ (N + 1) * c := Nat.mul_le_mul_left _ hc
    have h3 : (N + 1 + 1) * c ≤ r * c := Nat.mul_le_mul_right c hr
    rw [Nat.add_mul (N + 1) 1 c, Nat.one_mul] at h3
    omega
  obtain ⟨Q, eQ, hQ, hQ'⟩ := cFindQ_spec (r + N) (by omega) hsz
  unfold xFcToSc cFcToSc
  have hf := xFindQ_eq (r + N) (by omega) hsz
  rw [Nat.cast_add] at hf eQ
  rw [cks_bind (by ints), hf, eQ]
  rw [orDiverge_bind, orDiverge_bind]
  refine bindc fun s => ?_
  rw [xSData_eq s Q r N hQ' hsz]
  refine bindc fun s => bindc fun fw => bindc fun bw => bindc fun s => bindc fun hkm => bindc fun y => bindc fun ff => bindc fun inds => bindc fun inds => ?_
  rw [xInds_eq N M hM hseg (by omega)]
  refine bindc fun inds => ?_
  rw [xBnmFc_eq g r c N 0 0 s Q _ _ fw bw J _ (show (0 : ℤ).natAbs < c by rw [Int.natAbs_zero]; omega) (Nat.zero_le _) h hsz hc1 (by omega) (by omega) (by omega)]
  refine bindc fun w => ?_
  rw [forM'_ext (g := fun w m =>
    (cGet inds (2 * m - 1)).bind fun o1 =>
    (cBnmFc g r c N (-m) o1 s Q ((N : ℤ) + 1) ((N : ℤ) + 1) fw bw J w).bind fun w =>
    (cGet inds (2 * m)).bind fun o2 =>
    cBnmFc g r c N m o2 s Q ((N : ℤ) + 1) ((N : ℤ) + 1) fw bw J w) (fun m hm w => by
      have := mem_pyRange.mp hm
      rw [cks_bind (by rw [Int.abs_eq_natAbs]; ints)]
      refine bindc fun o1 => ?_
      rw [xBnmFc_eq g r c N (-m) o1 s Q _ _ fw bw J _ (by omega) (by omega) h hsz hc1 (by omega) (by omega) (by omega)]
      refine bindc fun w => bindc fun o2 => ?_
      rw [xBnmFc_eq g r c N m o2 s Q _ _ fw bw J _ (by omega) (by omega) h hsz hc1 (by omega) (by omega) (by omega)])]

theorem xFcvecAcc_eq (sc : List ℂ) (off m : Int) (N r c M : ℕ) (st : List ℂ × List ℝ) (n : Int) (hn0 : 0 ≤ n) (hn : n ≤ N) (hm : m.natAbs ≤ N) (hr : N + 1 ≤ r) (hr' : r ≤ 2 ^ 30) (hM : M < c) (h : r * c ≤ 2 ^ 31) :
    xFcvecAcc sc off m N c M ((N : ℤ) + 1) st n = cFcvecAcc sc off m N c M ((N : ℤ) + 1) st n := by
  unfold xFcvecAcc cFcvecAcc
  rw [cks_bind (by rw [Int.abs_eq_natAbs]; ints), xYnunm_eq n m _ _ (by omega) (by omega) hn0 (by omega)]
  refine bindc fun y => ?_
  rw [forM'_ext (g := fun F k =>
    (cGet F (k * (c : ℤ) + M)).bind fun t =>
    (cGet sc (off + (n - |m|))).bind fun v =>
    (cGet y k).bind fun yk =>
    cSet F (k * (c : ℤ) + M) ⟨t.re + v.re * yk, t.im + v.im * yk⟩) (fun k hk s => by
      have := mem_pyRange.mp hk
      obtain ⟨-, -, p⟩ := prod_in (a := k) hM (by omega) (by omega) h
      rw [cks_bind (by
        simp only [List.mem_cons, List.not_mem_nil, or_false, forall_eq_or_imp, forall_eq]
        refine ⟨p, ?_⟩; unfold InInt; omega)])]

theorem xFcvecMSc_eq (sc : List ℂ) (off m : Int) (N r c M : ℕ) (st : List ℂ × List ℝ) (hm : m.natAbs ≤ N) (hr : N + 1 ≤ r) (hr' : r ≤ 2 ^ 30) (hM : M < c) (h : r * c ≤ 2 ^ 31) :
    xFcvecMSc sc off m N r c M ((N : ℤ) + 1) st = cFcvecMSc sc off m N r c M ((N : ℤ) + 1) st := by
  unfold xFcvecMSc cFcvecMSc
  rw [cks_bind (by rw [Int.abs_eq_natAbs, Int.tdiv_eq_ediv_of_nonneg (by omega)]; ints)]
  rw [forM'_ext (g := cFcvecAcc sc off m N c M ((N : ℤ) + 1)) (fun n hn s => by
    have := mem_pyRange.mp hn
    rw [Int.abs_eq_natAbs] at this
    exact xFcvecAcc_eq sc off m N r c M s n (by omega) (by omega) hm hr hr' hM h)]
  refine bindc fun st => ?_
  rw [forM'_ext (g := fun F k => (cGet F (k * (c : ℤ) + M)).bind fun t => cSet F (k * (c : ℤ) + M) (cMulIPow m t)) (fun k hk s => by
      have := mem_pyRange.mp hk
      obtain ⟨-, -, p⟩ := prod_in (a := k) hM (by omega) (by omega) h
      rw [cks_bind (by
        simp only [List.mem_cons, List.not_mem_nil, or_false, forall_eq_or_imp, forall_eq]
        refine ⟨p, ?_⟩; unfold InInt; omega)])]
  refine bindc fun F => ?_
  simp only
  have hH : (if (r : ℤ).tmod 2 = 0 then (r : ℤ).tdiv 2 - 1 else ((r : ℤ) - 1).tdiv 2) < r := by
    rw [Int.tmod_eq_emod_of_nonneg (by omega), Int.tdiv_eq_ediv_of_nonneg (by omega), Int.tdiv_eq_ediv_of_nonneg (by omega)]
    split <;> omega
  generalize (if (r : ℤ).tmod 2 = 0 then (r : ℤ).tdiv 2 - 1 else ((r : ℤ) - 1).tdiv 2) = H at hH ⊢
  rw [forM'_ext (g := fun F k =>
    (cGet F ((c : ℤ) * (k + 1) + M)).bind fun t =>
    cSet F ((c : ℤ) * ((r : ℤ) - 1 - k) + M) ⟨(-1 : ℝ) ^ m * t.re, (-1 : ℝ) ^ m * t.im⟩) (fun k hk s => by
      have := mem_pyRange.mp hk
      obtain ⟨p1, p2, -⟩ := prod_in (a := (r : ℤ) - 1 - k) hM (by omega) (by omega) h
      obtain ⟨p3, p4, -⟩ := prod_in (a := k + 1) hM (by omega) (by omega) h
      rw [cks_bind (by
        simp only [List.mem_cons, List.not_mem_nil, or_false, forall_eq_or_imp, forall_eq]
        refine ⟨?_, p1, p2, ?_, p3, p4⟩ <;> unfold InInt <;> omega)])]

theorem xScToFc_eq (fd : List ℂ) (r c : ℕ) (sc : List ℂ) (N M : ℕ) (J : CJunk) (hM : M ≤ N) (hr2 : 2 ≤ r) (hr : N + 1 ≤ r) (hr' : r ≤ 2 ^ 30) (hc : 2 * M + 2 ≤ c) (h : r * c ≤ 2 ^ 31) :
    xScToFc fd r c sc N M J = cScToFc fd r c sc N M J := by
  have hc2 : c < 2 ^ 31 := by
    have : 2 * c ≤ r * c := Nat.mul_le_mul_right c (by omega)
    omega
  have hseg : seg (N + 1) (2 * M + 1) < 2 ^ 31 := by
    have h1 := seg_le (N + 1) (2 * M + 1)
    have h2 : (N + 1) * (2 * M + 1 + 1) ≤ r * c := Nat.mul_le_mul hr hc
    rw [Nat.mul_add (N + 1) (2 * M + 1) 1] at h2
    omega
  unfold xScToFc cScToFc
  rw [cks_bind (by ints)]
  refine bindc fun y => bindc fun inds => bindc fun inds => ?_
  rw [xInds_eq N M hM hseg (by omega)]
  refine bindc fun inds => ?_
  rw [forM'_ext (g := fun st k =>
    if k < (M : ℤ) then
      (cGet inds (2 * k)).bind fun o1 =>
      (cFcvecMSc sc o1 k N r c k ((N : ℤ) + 1) st).bind fun st =>
      (cGet inds (2 * (k + 1) - 1)).bind fun o2 =>
      cFcvecMSc sc o2 (-(k + 1)) N r c ((c : ℤ) - 1 - k) ((N : ℤ) + 1) st
    else if k = (M : ℤ) then
      (cGet inds (2 * k)).bind fun o =>
      cFcvecMSc sc o k N r c k ((N : ℤ) + 1) st
    else .ok st) (fun k hk st => by
      have hk' := mem_pyRange.mp hk
      rw [Int.tdiv_eq_ediv_of_nonneg (by omega)] at hk'
      obtain ⟨k, rfl⟩ := Int.eq_ofNat_of_zero_le hk'.1
      rw [cks_bind (by ints)]
      by_cases h1 : (k : ℤ) < M
      · rw [if_pos h1, if_pos h1, cks_bind (by ints)]
        refine bindc fun o1 => ?_
        rw [xFcvecMSc_eq sc o1 k N r c k st (by omega) hr hr' (by omega) h]
        refine bindc fun st => bindc fun o2 => ?_
        have := xFcvecMSc_eq sc o2 (-((k : ℤ) + 1)) N r c (c - 1 - k) st (by omega) hr hr' (by omega) h
        rw [show ((c - 1 - k : ℕ) : ℤ) = (c : ℤ) - 1 - k by omega] at this
        exact this
      · rw [if_neg h1, if_neg h1]
        by_cases h2 : (k : ℤ) = M
        · rw [if_pos h2, if_pos h2, cks_bind (by ints)]
          refine bindc fun o1 => ?_
          rw [xFcvecMSc_eq sc o1 k N r c k st (by omega) hr hr' (by omega) h]
        · rw [if_neg h2, if_neg h2])]

end XI
end Verif.Props
