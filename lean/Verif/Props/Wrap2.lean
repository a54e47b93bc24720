import Verif.Wrap2
import Verif.Props.Wrap
import Verif.Props.Negative
/-!
# C130: the helper routines of the compiled extension, called directly
-/
namespace Verif.Props
open Verif XI
namespace WR

theorem xYnnm_eq' (n m : Int) (hm : m.natAbs < 2 ^ 31) (hn : n ≤ 2 ^ 30) : xYnnm n m = .ok (cYnnm n m) := by
  have habs : |m| = (m.natAbs : ℤ) := Int.abs_eq_natAbs m
  unfold xYnnm
  rw [habs, cks_bind (by ints)]
  split
  · rfl
  · rw [forM'_unit (fun k hk => cks_ok (by have := mem_pyRange.mp hk; ints))]
    simp only [Except.bind_ok]
    split
    · rw [cks_bind (by ints), forM'_unit (fun k hk => cks_ok (by
        have : (m.natAbs : ℤ) - 1 < k ∧ k ≤ n - 1 := by
          unfold pyRangeNeg at hk
          simp only [List.mem_map, List.mem_range] at hk
          obtain ⟨j, hj, rfl⟩ := hk
          omega
        ints))]
      rfl
    · rfl

theorem asInt_bad {o : PyObj} (h : ∀ v, o ≠ .int v) : swigAsInt o = .error ⟨.typeError, "argument of type 'int'"⟩ := by
  cases o with
  | int v => exact absurd rfl (h v)
  | _ => rfl

/-- The conversion of an `int` argument, all cases. -/
theorem asInt_cases (o : PyObj) : ((∀ v, o ≠ .int v) ∧ swigAsInt o = .error ⟨.typeError, "argument of type 'int'"⟩) ∨
    (∃ v, o = .int v ∧ InInt v ∧ swigAsInt o = .ok (v, false)) ∨
    (∃ v, o = .int v ∧ InLong v ∧ ¬ InInt v ∧ swigAsInt o = .error ⟨.exception, "OverflowError"⟩) ∨
    ∃ v, o = .int v ∧ ¬ InLong v ∧ swigAsInt o = .ok (-1, true) := by
  by_cases h : ∃ v, o = .int v
  · obtain ⟨v, rfl⟩ := h
    by_cases h1 : InInt v
    · exact .inr (.inl ⟨v, rfl, h1, asInt_int h1⟩)
    · by_cases h2 : InLong v
      · exact .inr (.inr (.inl ⟨v, rfl, h2, h1, asInt_over h2 h1⟩))
      · exact .inr (.inr (.inr ⟨v, rfl, h2, asInt_huge h2⟩))
  · push Not at h
    exact .inl ⟨h, asInt_bad h⟩

theorem dbl_ok (a : List ℂ) : swigDbl1 (.arr1 a .float64 true) = .ok (a.map Complex.re) := rfl

theorem dbl_inv {o : PyObj} {y : List ℝ} (h : swigDbl1 o = .ok y) : ∃ a, o = .arr1 a .float64 true ∧ y = a.map Complex.re := by
  cases o with
  | arr1 a dt contig =>
    simp only [swigDbl1] at h
    split at h
    · cases h
    · rename_i h1
      split at h
      · cases h
      · rename_i h2
        cases h
        exact ⟨a, by rw [not_not.mp h1, show contig = true by simpa using h2], rfl⟩
  | _ => cases h

theorem dbl_bad {o : PyObj} (h : ∀ a, o ≠ .arr1 a .float64 true) : (swigDbl1 o).Raises .typeError := by
  cases hh : swigDbl1 o with
  | ok y => obtain ⟨a, ha, -⟩ := dbl_inv hh; exact absurd ha (h a)
  | error e =>
    cases o with
    | arr1 a dt contig =>
      simp only [swigDbl1] at hh
      split at hh
      · cases hh; exact ⟨_, rfl⟩
      · split at hh
        · cases hh; exact ⟨_, rfl⟩
        · cases hh
    | _ => cases hh; exact ⟨_, rfl⟩

theorem arr1_bad {o : PyObj} (h : ∀ a, o ≠ .arr1 a .complex128 true) : (swigArr1 o).Raises .typeError := by
  cases hh : swigArr1 o with
  | ok y => exact absurd (arr1_inv hh) (h y)
  | error e =>
    cases o with
    | arr1 a dt contig =>
      simp only [swigArr1, swigArray1] at hh
      split at hh
      · cases hh; exact ⟨_, rfl⟩
      · split at hh
        · cases hh; exact ⟨_, rfl⟩
        · cases hh
    | _ => cases hh; exact ⟨_, rfl⟩

theorem bind_raises {α β : Type} {x : Res α} {k : Exc} (h : x.Raises k) (f : α → Res β) : Res.Raises (x.bind f) k := by
  obtain ⟨m, hm⟩ := h
  exact ⟨m, by rw [hm]; rfl⟩

end WR

/-- The kernel table, independently of the programs: entry `j` holds the kernel value `-1j/nu` (odd `nu`; 0 for even `nu`) of `nu = j + rows/2` for `j <= nmax`, of
`nu = j - q + rows/2` for the last `rows` entries, and 0 in between. -/
noncomputable def kernEntry (rows nmax q : ℕ) (j : ℕ) : ℂ :=
  if j ≤ nmax then Skern ((j : ℤ) + (rows / 2 : ℕ))
  else if q ≤ j + rows then Skern ((j : ℤ) - q + (rows / 2 : ℕ))
  else 0

namespace WR

theorem sData_full (L1 Nmax Q : ℕ) (hL : L1 % 2 = 0) (hQ : L1 + Nmax < Q) : sData L1 Nmax Q = .ok (tab Q (kernEntry L1 Nmax Q)) := by
  unfold sData
  rw [if_neg (by omega)]
  unfold npFull
  rw [if_neg (by omega)]
  simp only [Except.bind_ok, Int.toNat_natCast]
  obtain ⟨s, e, hl, hi⟩ := forM'_range_inv (a := -((L1 : ℤ) / 2)) (b := (L1 : ℤ) / 2 + Nmax + 1) (by omega)
    (List.replicate Q (0 : ℂ)) (fun s nu =>
      if nu % 2 = 1 then setIdx s (nu - (L1 : ℤ) / 2) (-Complex.I / nu) else .ok s)
    (fun v s => s.length = Q ∧ ∀ j : ℕ, j < Q →
      rd s j = if j ≤ Nmax ∧ (j : ℤ) + L1 / 2 < v then Skern ((j : ℤ) + L1 / 2)
        else if Nmax < j ∧ (Q : ℤ) ≤ j + L1 ∧ (j : ℤ) - Q + L1 / 2 < v then Skern ((j : ℤ) - Q + L1 / 2) else 0)
    ⟨by simp, fun j h1 => by rw [rd_replicate_zero, if_neg (by omega), if_neg (by omega)]⟩
    (by
      intro v s h1 h2 ⟨hl, hr⟩
      obtain ⟨j0, hj0, hlt, hw⟩ : ∃ j0 : ℕ, (((v - (L1 : ℤ) / 2) % (Q : ℤ)).toNat = j0) ∧ j0 < Q ∧ (v = j0 + (L1 : ℤ) / 2 ∧ j0 ≤ Nmax ∨ v = (j0 : ℤ) - Q + (L1 : ℤ) / 2 ∧ Nmax < j0 ∧ (Q : ℤ) ≤ j0 + L1) := by
        refine ⟨_, rfl, ?_⟩
        rw [wrap_mod (by omega) (by omega)]
        by_cases hn : v - (L1 : ℤ) / 2 < 0
        · rw [if_pos hn]; exact ⟨by omega, .inr (by omega)⟩
        · rw [if_neg hn]; exact ⟨by omega, .inl (by omega)⟩
      by_cases hv : v % 2 = 1
      · simp only [hv, if_true]
        rw [setIdx_wrap _ (by omega) (by omega), hl, hj0]
        refine ⟨_, rfl, by simpa using hl, fun j hj => ?_⟩
        rw [rd_set _ _ _ _ (by omega)]
        by_cases hje : j = j0
        · subst hje
          rw [if_pos rfl]
          rcases hw with ⟨ha, hb⟩ | ⟨ha, hb, hc⟩
          · rw [if_pos ⟨hb, by omega⟩, ← ha]
            unfold Skern
            rw [if_pos hv]
          · rw [if_neg (by omega), if_pos ⟨hb, hc, by omega⟩, ← ha]
            unfold Skern
            rw [if_pos hv]
        · rw [if_neg (by omega), hr j hj]
          by_cases hA : j ≤ Nmax
          · have : ((j : ℤ) + L1 / 2 < v + 1) ↔ ((j : ℤ) + L1 / 2 < v) := by omega
            simp only [this, show ¬ Nmax < j by omega, false_and]
          · have : (Q : ℤ) ≤ j + L1 → (((j : ℤ) - Q + L1 / 2 < v + 1) ↔ ((j : ℤ) - Q + L1 / 2 < v)) := by omega
            simp only [hA, false_and, if_false]
            by_cases hB : (Q : ℤ) ≤ j + L1
            · simp only [this hB]
            · simp only [hB, false_and, and_false]
      · simp only [hv, if_false]
        refine ⟨s, rfl, hl, fun j hj => ?_⟩
        rw [hr j hj]
        by_cases hA : j ≤ Nmax
        · by_cases hB : (j : ℤ) + L1 / 2 = v
          · rw [if_neg (by omega), if_neg (by omega), if_pos ⟨hA, by omega⟩]
            unfold Skern
            rw [if_neg (by omega)]
          · have : ((j : ℤ) + L1 / 2 < v + 1) ↔ ((j : ℤ) + L1 / 2 < v) := by omega
            simp only [this, show ¬ Nmax < j by omega, false_and]
        · simp only [hA, false_and, if_false]
          by_cases hB : (j : ℤ) - Q + L1 / 2 = v
          · rw [if_neg (by omega)]
            split
            · unfold Skern
              rw [if_neg (by omega)]
            · rfl
          · have : ((j : ℤ) - Q + L1 / 2 < v + 1) ↔ ((j : ℤ) - Q + L1 / 2 < v) := by omega
            simp only [this])
  rw [e]
  congr 1
  refine list_ext_rd (by rw [length_tab, hl]) fun j hj => ?_
  rw [hl] at hj
  rw [rd_tab hj, hi j hj]
  unfold kernEntry
  have hc : ((L1 / 2 : ℕ) : ℤ) = (L1 : ℤ) / 2 := by push_cast; rfl
  rw [hc]
  by_cases hA : j ≤ Nmax
  · rw [if_pos hA, if_pos ⟨hA, by omega⟩]
  · rw [if_neg hA, if_neg (by omega)]
    by_cases hB : Q ≤ j + L1
    · rw [if_pos hB, if_pos (by omega)]
    · rw [if_neg hB, if_neg (by omega)]

theorem iy (x : ℝ) : (⟨0, -1 / x⟩ : ℂ) = -Complex.I / (x : ℂ) := by
  rw [show -Complex.I / (x : ℂ) = ((-1 / x : ℝ) : ℂ) * Complex.I by push_cast; ring]
  apply Complex.ext <;> simp

theorem cSData_full (s : List ℂ) (L1 Nmax Q : ℕ) (hL : L1 % 2 = 0) (hQ : L1 + Nmax < Q) (hs : s.length = Q) :
    cSData s Q L1 Nmax = .ok (tab Q (kernEntry L1 Nmax Q)) := by
  unfold cSData cMemset0
  rw [if_pos (by omega)]
  simp only [Except.bind_ok]
  have hmm : (L1 : Int).tdiv 2 = ((L1 / 2 : ℕ) : Int) := by rw [Int.tdiv_eq_ediv_of_nonneg (by omega)]; rfl
  rw [hmm]
  obtain ⟨M, hM⟩ : ∃ M, M = L1 / 2 := ⟨_, rfl⟩
  rw [← hM]
  obtain ⟨s1, e1, l1, hi1⟩ := forM'_range_inv (a := (M : Int)) (b := (M : Int) + ((Nmax : Int) + 1)) (by omega)
    (tab s.length fun i => if (i : Int) < (Q : Int) then (0 : ℂ) else rd s i)
    (fun s k => if k.tmod 2 = 1 then (cGet s (k - (M : Int))).bind fun z => cSet s (k - (M : Int)) ⟨z.re, -1 / (k : ℝ)⟩ else .ok s)
    (fun v s => s.length = Q ∧ ∀ j : ℕ, j < Q → rd s j = if (j : Int) + M < v then Skern (j + M) else 0)
    ⟨by simpa using hs, fun j hj => by rw [rd_tab (by omega), if_pos (by omega), if_neg (by omega)]⟩
    (by
      intro v s h1 h2 ⟨sl, sv⟩
      obtain ⟨j0, hj0⟩ : ∃ j0 : ℕ, v - (M : Int) = j0 := ⟨(v - (M : Int)).toNat, by omega⟩
      have hmod : v.tmod 2 = v % 2 := Int.tmod_eq_emod_of_nonneg (by omega)
      simp only [hmod]
      by_cases hv : v % 2 = 1
      · rw [if_pos hv, hj0, cGet_ok (by omega)]
        simp only [Except.bind_ok]
        rw [cSet_ok (by omega), sv j0 (by omega), if_neg (by omega)]
        refine ⟨_, rfl, by simpa using sl, fun j hj => ?_⟩
        rw [rd_set' _ _ _ _ (by omega)]
        by_cases hjj : j = j0
        · subst hjj
          rw [if_pos rfl, if_pos (by omega), show (j : Int) + (M : Int) = v by omega]
          unfold Skern
          rw [if_pos hv, Complex.zero_re, iy]; push_cast; rfl
        · rw [if_neg hjj, sv j hj]
          by_cases hlt : (j : Int) + (M : Int) < v
          · rw [if_pos hlt, if_pos (by omega)]
          · rw [if_neg hlt, if_neg (by omega)]
      · rw [if_neg hv]
        refine ⟨s, rfl, sl, fun j hj => ?_⟩
        rw [sv j hj]
        by_cases hlt : (j : Int) + (M : Int) < v
        · rw [if_pos hlt, if_pos (by omega)]
        · rw [if_neg hlt]
          split
          · unfold Skern; rw [if_neg (by omega)]
          · rfl)
  rw [e1]
  simp only [Except.bind_ok]
  obtain ⟨s2, e2, l2, hi2⟩ := forM'_range_inv (a := -(M : Int)) (b := (M : Int)) (by omega) s1
    (fun s k => if (|k|).tmod 2 = 1 then (cGet s ((Q : Int) + k - (M : Int))).bind fun z =>
      cSet s ((Q : Int) + k - (M : Int)) ⟨z.re, -1 / (k : ℝ)⟩ else .ok s)
    (fun v s => s.length = Q ∧ ∀ j : ℕ, j < Q → rd s j = if (Q : ℤ) ≤ j + L1 ∧ (j : ℤ) - Q + M < v then Skern ((j : ℤ) - Q + M) else
      if j ≤ Nmax then Skern (j + M) else 0)
    ⟨l1, fun j hj => by
      rw [hi1 j hj]
      by_cases hA : j ≤ Nmax
      · rw [if_pos (by omega), if_neg (by omega), if_pos hA]
      · rw [if_neg (by omega), if_neg (by omega), if_neg hA]⟩
    (by
      intro v s h1 h2 ⟨sl, sv⟩
      obtain ⟨j0, hj0⟩ : ∃ j0 : ℕ, (Q : Int) + v - (M : Int) = j0 := ⟨((Q : Int) + v - (M : Int)).toNat, by omega⟩
      have hmod : (|v|).tmod 2 = v % 2 := by
        rw [Int.tmod_eq_emod_of_nonneg (abs_nonneg _), Int.abs_eq_natAbs]; omega
      simp only [hmod]
      by_cases hv : v % 2 = 1
      · rw [if_pos hv, hj0, cGet_ok (by omega)]
        simp only [Except.bind_ok]
        rw [cSet_ok (by omega), sv j0 (by omega), if_neg (by omega), if_neg (by omega)]
        refine ⟨_, rfl, by simpa using sl, fun j hj => ?_⟩
        rw [rd_set' _ _ _ _ (by omega)]
        by_cases hjj : j = j0
        · subst hjj
          rw [if_pos rfl, if_pos (by omega), show (j : Int) - Q + M = v by omega]
          unfold Skern
          rw [if_pos hv, Complex.zero_re, iy]; push_cast; rfl
        · rw [if_neg hjj, sv j hj]
          have : ((j : ℤ) - Q + M < v + 1) ↔ ((j : ℤ) - Q + M < v) := by omega
          simp only [this]
      · rw [if_neg hv]
        refine ⟨s, rfl, sl, fun j hj => ?_⟩
        rw [sv j hj]
        by_cases hB : (j : ℤ) - Q + M = v
        · rw [if_neg (by omega), if_neg (by omega), if_pos (by omega)]
          unfold Skern
          rw [if_neg (by omega)]
        · have : ((j : ℤ) - Q + M < v + 1) ↔ ((j : ℤ) - Q + M < v) := by omega
          simp only [this])
  rw [e2]
  congr 1
  refine list_ext_rd (by rw [length_tab, l2]) fun j hj => ?_
  rw [l2] at hj
  rw [rd_tab hj, hi2 j hj]
  unfold kernEntry
  rw [← hM]
  by_cases hA : j ≤ Nmax
  · rw [if_neg (by omega), if_pos hA, if_pos hA]
  · rw [if_neg hA, if_neg hA]
    by_cases hB : Q ≤ j + L1
    · rw [if_pos (by omega), if_pos hB]
    · rw [if_neg (by omega), if_neg hB]

theorem inInt_of {x : ℤ} (h1 : -2 ^ 31 ≤ x) (h2 : x < 2 ^ 31) : InInt x := by unfold InInt; omega

theorem xYnunm_eq' (n : ℕ) (m : Int) (y : List ℝ) (hm : m.natAbs < 2 ^ 31) (hn : n ≤ 2 ^ 30) (hl : y.length ≤ 2 ^ 30 + 1) :
    xYnunm n m y y.length = cYnunm n m y y.length := by
  by_cases h : m.natAbs ≤ 2 ^ 30
  · exact xYnunm_eq n m y _ h (by omega) (by omega) (by omega)
  · have habs : |m| = (m.natAbs : ℤ) := Int.abs_eq_natAbs m
    unfold xYnunm cYnunm
    rw [forM'_ext (g := fun y k => cSet y k 0) (fun k hk s => by
      have := mem_pyRange.mp hk
      rw [cks_bind (by ints)])]
    refine bindc fun y => ?_
    rw [cks_bind (by rw [habs]; ints), if_neg (by omega), if_neg (by omega)]

end WR

namespace WR

theorem sdata_gen (s : List ℂ) (r n : ℤ) (hr : InInt r) (hn : InInt n) :
    wrapSData [.arr1 s .complex128 true, .int r, .int n] = (xSData s (castInt s.length) r n).bind fun l => swigReturn false l := by
  simp only [wrapSData]
  rw [arr1_ok, asInt_int hr, asInt_int hn]
  simp only [Except.bind_ok, Bool.or_false]

theorem ynunm_gen (y : List ℂ) (n m : ℤ) (hn : InInt n) (hm : InInt m) :
    wrapYnunm [.int n, .int m, .arr1 y .float64 true] = (xYnunm n m (y.map Complex.re) (castInt (y.map Complex.re).length)).bind fun l => swigReturn false l := by
  have key : ∀ (c : ℕ → ℤ) (d : PyObj → Res (List ℝ)) (o : PyObj) (y : List ℝ) (_ : d o = .ok y), ((swigAsInt (.int n)).bind fun n => (swigAsInt (.int m)).bind fun m => (d o).bind fun y =>
      (xYnunm n.1 m.1 y (c y.length)).bind fun l => swigReturn (n.2 || m.2) l) = (xYnunm n m y (c y.length)).bind fun l => swigReturn false l := by
    intro c d o y hd
    rw [hd, asInt_int hn, asInt_int hm]
    rfl
  exact key castInt swigDbl1 _ _ (dbl_ok y)

end WR
open WR

/-- C130: `csphi.ynnm(n, m)` returns what `pysphi.ynnm(n, m)` returns. -/
theorem c130_ynnm (n m : ℤ) (hn0 : -2 ^ 31 ≤ n) (hn : n ≤ 2 ^ 30) (hm : |m| < 2 ^ 31) : wrapYnnm [.int n, .int m] = .ok (ynnm n m) := by
  rw [abs_lt] at hm
  simp only [wrapYnnm]
  rw [asInt_int (inInt_of hn0 (by omega)), asInt_int (inInt_of (by omega) hm.2)]
  simp only [Except.bind_ok]
  rw [xYnnm_eq' n m (by omega) hn, cYnnm_eq]
  rfl

/-- C130: `csphi.ynunm(n, m, y)` on a `float64` array longer than `n` leaves in it what `pysphi.ynunm(n, m, len(y))` returns, whatever it held before. -/
theorem c130_ynunm (n : ℕ) (m : ℤ) (y : List ℂ) (hn : n < y.length) (hl : y.length ≤ 2 ^ 30 + 1) (hm : |m| < 2 ^ 31) :
    ∃ out, wrapYnunm [.int n, .int m, .arr1 y .float64 true] = .ok out ∧ ynunm n m y.length = .ok out ∧ out.length = y.length := by
  rw [abs_lt] at hm
  rw [ynunm_gen _ _ _ (inInt_of (by omega) (by omega)) (inInt_of (by omega) hm.2)]
  rw [castInt_eq (by rw [List.length_map]; omega), xYnunm_eq' n m _ (by omega) (by omega) (by rw [List.length_map]; omega),
    cYnunm_eq n m _ _ (by rw [List.length_map]; omega) rfl, List.length_map]
  by_cases h : m.natAbs ≤ n
  · obtain ⟨out, e, l, -⟩ := c26_ynunm n m y.length h hn
    refine ⟨out, ?_, e, l⟩
    rw [e]; rfl
  · refine ⟨_, ?_, c26_no_mode n m y.length (by omega), by simp⟩
    rw [c26_no_mode n m y.length (by omega)]; rfl

/-- C130, a defect: on an array not longer than `n`, where `pysphi.ynunm` raises IndexError, `csphi.ynunm` writes outside the array. -/
theorem c130_ynunm_overrun (n : ℕ) (m : ℤ) (y : List ℂ) (hn : y.length ≤ n) (hn' : n ≤ 2 ^ 30) (hm : |m| ≤ n) :
    (wrapYnunm [.int n, .int m, .arr1 y .float64 true]).Raises .undefinedBehaviour ∧ (ynunm n m y.length).Raises .indexError := by
  have hm2 := hm
  rw [abs_le] at hm
  constructor
  · rw [ynunm_gen _ _ _ (inInt_of (by omega) (by omega)) (inInt_of (by omega) (by omega))]
    rw [castInt_eq (by rw [List.length_map]; omega), xYnunm_eq' n m _ (by omega) (by omega) (by rw [List.length_map]; omega)]
    refine bind_raises ?_ _
    unfold cYnunm
    rw [fill_ok (y.map Complex.re) (y.map Complex.re).length le_rfl _ (fun _ => 0) (by
      intro k l' hk hl _
      exact cSet_ok (by omega))]
    simp only [Except.bind_ok]
    rw [if_pos hm2]
    refine bind_raises ?_ _
    unfold cSet
    rw [if_neg (by rw [length_tab, List.length_map]; omega)]
    exact ⟨_, rfl⟩
  · unfold ynunm npFull
    rw [if_neg (by omega)]
    simp only [Except.bind_ok, Int.toNat_natCast]
    rw [if_pos hm2]
    refine bind_raises ?_ _
    unfold setIdx
    rw [if_neg (by omega), if_neg (by rw [List.length_replicate]; omega)]
    exact ⟨_, rfl⟩

/-- C130: `csphi.FindQ(S)` returns the least number from `S` on without prime factors beyond 5; for `S <= 0` it does not return. -/
theorem c130_findq (S : ℤ) :
    (1 ≤ S → S ≤ 2 ^ 30 → ∃ Q : ℕ, wrapFindQ [.int S] = .ok (Q : ℤ) ∧ S ≤ Q ∧ (∀ p : ℕ, p.Prime → p ∣ Q → p = 2 ∨ p = 3 ∨ p = 5) ∧
      ∀ T : ℕ, S ≤ T → T < Q → ∃ p : ℕ, p.Prime ∧ p ∣ T ∧ 5 < p) ∧
    (-2 ^ 31 ≤ S → S ≤ 0 → (wrapFindQ [.int S]).Raises .nonTermination) := by
  constructor
  · intro h1 h2
    obtain ⟨s, rfl⟩ := Int.eq_ofNat_of_zero_le (show 0 ≤ S by omega)
    obtain ⟨Q, e, q1, q2, q3⟩ := c25_c s (by omega)
    refine ⟨Q, ?_, by omega, q2, fun T hT hQ => q3 T (by omega) hQ⟩
    simp only [wrapFindQ]
    rw [asInt_int (inInt_of (by omega) (by omega))]
    simp only [Except.bind_ok]
    rw [xFindQ_eq s (by omega) (by omega), e]
    rfl
  · intro h1 h2
    simp only [wrapFindQ]
    rw [asInt_int (inInt_of h1 (by omega))]
    simp only [Except.bind_ok]
    unfold xFindQ
    rw [cks_bind (by ints), c25_c_diverges S h2]
    exact ⟨_, rfl⟩

/-- C130: `csphi.SData(s, rows, nmax)` leaves in `s`, whatever it held before, the table `pysphi.s_data(rows, nmax, len(s))` returns, if `len(s) > rows + nmax` (as the
documentation of `s_data` demands) and `rows` is even. -/
theorem c130_sdata (rows nmax : ℕ) (s : List ℂ) (hr : rows % 2 = 0) (hq : rows + nmax < s.length) (hl : s.length ≤ 2 ^ 30) :
    ∃ out, wrapSData [.arr1 s .complex128 true, .int rows, .int nmax] = .ok out ∧ sData rows nmax s.length = .ok out ∧ out.length = s.length ∧
      ∀ j, j < s.length → rd out j = kernEntry rows nmax s.length j := by
  refine ⟨tab s.length (kernEntry rows nmax s.length), ?_, sData_full rows nmax s.length hr hq, length_tab _ _, fun j hj => rd_tab hj⟩
  rw [sdata_gen _ _ _ (inInt_of (by omega) (by omega)) (inInt_of (by omega) (by omega))]
  have h31 : s.length < 2 ^ 31 := by omega
  have hrn : rows + nmax ≤ 2 ^ 30 := by omega
  rw [castInt_eq h31, xSData_eq s s.length rows nmax hl hrn, cSData_full s rows nmax s.length hr hq rfl]
  simp only [Except.bind_ok, swigReturn, Bool.false_eq_true, if_false]

/-- C130, the boundary: with `len(s) = rows + nmax` (a length `FindQ` may return) the two tables need not agree: entry `nmax` is written twice, in a different order.
For 2 rows, nmax = 0 the C routine leaves `[1j, 0]`, the Python routine `[-1j, 0]`.  (No transform uses that entry with a nonzero factor.) -/
theorem c130_sdata_boundary (a b : ℂ) :
    wrapSData [.arr1 [a, b] .complex128 true, .int 2, .int 0] = .ok [Complex.I, 0] ∧ sData 2 0 2 = .ok [-Complex.I, 0] := by
  have p1 : pyRange 1 2 = [1] := by decide
  have p2 : pyRange (-1) 1 = [-1, 0] := by decide
  have p3 : pyRange (-1) 2 = [-1, 0, 1] := by decide
  constructor
  · rw [sdata_gen _ _ _ (inInt_of (by omega) (by omega)) (inInt_of (by omega) (by omega))]
    rw [castInt_eq (by simp)]
    have := xSData_eq [a, b] 2 2 0 (by norm_num) (by norm_num)
    simp only [Nat.cast_ofNat, Nat.cast_zero] at this
    simp only [List.length_cons, List.length_nil, Nat.cast_ofNat, zero_add, Nat.reduceAdd]
    rw [this]
    unfold cSData
    simp only [show (2 : ℤ).tdiv 2 = 1 by decide, zero_add, show (1 : ℤ) + 1 = 2 by norm_num]
    rw [p1, p2]
    simp [cMemset0, forM', cGet, cSet, tab, swigReturn]
    rw [show List.range 2 = [0, 1] from rfl]
    simp
    exact Complex.ext (by simp) (by simp)
  · unfold sData npFull
    simp only [show ¬ (2 % 2 = 1) by decide, if_false, show ¬ ((2 : ℤ) < 0) by decide, Except.bind_ok, show (((2 : ℕ) : ℤ) / 2) = 1 by decide, show (1 : ℤ) + 0 + 1 = 2 by norm_num]
    rw [p3]
    simp [forM', setIdx]

namespace WR

theorem asInt_two {o : PyObj} (h : ∀ v, o = .int v → ¬ (InLong v ∧ ¬ InInt v)) :
    (swigAsInt o).Raises .typeError ∨ ∃ r, swigAsInt o = .ok r := by
  rcases asInt_cases o with ⟨-, e⟩ | ⟨v, -, -, e⟩ | ⟨v, h1, h2, h3, -⟩ | ⟨v, -, -, e⟩
  · exact .inl ⟨_, e⟩
  · exact .inr ⟨_, e⟩
  · exact absurd ⟨h2, h3⟩ (h v h1)
  · exact .inr ⟨_, e⟩

theorem step_type {α β : Type} {x : Res α} {f : α → Res β} (h : x.Raises .typeError ∨ ∃ r, x = .ok r ∧ (f r).Raises .typeError) : Res.Raises (x.bind f) .typeError := by
  rcases h with h | ⟨r, h, h'⟩
  · exact bind_raises h f
  · rw [h]; exact h'

end WR

/-- C130: wrong arguments.  The wrong number, or an argument that is not a Python `int` (a NumPy integer, a float, ...) or not a contiguous array of the required type: TypeError,
provided no `int` argument lies between 32 and 64 bits (those give OverflowError). -/
theorem c130_types (o0 o1 o2 : PyObj) :
    (∀ args : List PyObj, args.length ≠ 2 → (wrapYnnm args).Raises .typeError) ∧ (∀ args : List PyObj, args.length ≠ 3 → (wrapYnunm args).Raises .typeError) ∧
    (∀ args : List PyObj, args.length ≠ 1 → (wrapFindQ args).Raises .typeError) ∧ (∀ args : List PyObj, args.length ≠ 3 → (wrapSData args).Raises .typeError) ∧
    ((∀ o ∈ [o0, o1, o2], ∀ v, o = .int v → ¬ (InLong v ∧ ¬ InInt v)) →
      ((∀ v, o0 ≠ .int v) ∨ (∀ v, o1 ≠ .int v) → (wrapYnnm [o0, o1]).Raises .typeError) ∧
      ((∀ v, o0 ≠ .int v) ∨ (∀ v, o1 ≠ .int v) ∨ (∀ a, o2 ≠ .arr1 a .float64 true) → (wrapYnunm [o0, o1, o2]).Raises .typeError) ∧
      ((∀ v, o0 ≠ .int v) → (wrapFindQ [o0]).Raises .typeError) ∧
      ((∀ a, o0 ≠ .arr1 a .complex128 true) ∨ (∀ v, o1 ≠ .int v) ∨ (∀ v, o2 ≠ .int v) → (wrapSData [o0, o1, o2]).Raises .typeError)) := by
  refine ⟨?_, ?_, ?_, ?_, fun hin => ?_⟩
  · intro args h
    match args with
    | [] | [_] | _ :: _ :: _ :: _ => exact ⟨_, rfl⟩
    | [_, _] => exact absurd rfl h
  · intro args h
    match args with
    | [] | [_] | [_, _] | _ :: _ :: _ :: _ :: _ => exact ⟨_, rfl⟩
    | [_, _, _] => exact absurd rfl h
  · intro args h
    match args with
    | [] | _ :: _ :: _ => exact ⟨_, rfl⟩
    | [_] => exact absurd rfl h
  · intro args h
    match args with
    | [] | [_] | [_, _] | _ :: _ :: _ :: _ :: _ => exact ⟨_, rfl⟩
    | [_, _, _] => exact absurd rfl h
  have b : ∀ {o}, (∀ v, o ≠ .int v) → (swigAsInt o).Raises .typeError := fun h => ⟨_, asInt_bad h⟩
  have t0 := asInt_two (hin o0 (by simp))
  have t1 := asInt_two (hin o1 (by simp))
  have t2 := asInt_two (hin o2 (by simp))
  refine ⟨fun h => ?_, fun h => ?_, fun h => ?_, fun h => ?_⟩
  · simp only [wrapYnnm]
    refine step_type (t0.imp_right fun ⟨r, e⟩ => ⟨r, e, bind_raises (b (h.resolve_left fun h0 => ?_)) _⟩)
    rw [asInt_bad h0] at e; cases e
  · simp only [wrapYnunm]
    refine step_type (t0.imp_right fun ⟨r, e⟩ => ⟨r, e, ?_⟩)
    replace h := h.resolve_left fun h0 => by rw [asInt_bad h0] at e; cases e
    refine step_type (t1.imp_right fun ⟨r, e⟩ => ⟨r, e, bind_raises (dbl_bad (h.resolve_left fun h0 => ?_)) _⟩)
    rw [asInt_bad h0] at e; cases e
  · simp only [wrapFindQ]
    exact bind_raises (b h) _
  · simp only [wrapSData]
    by_cases ha : ∀ a, o0 ≠ .arr1 a .complex128 true
    · exact bind_raises (arr1_bad ha) _
    · replace h := h.resolve_left ha
      push Not at ha
      obtain ⟨a, rfl⟩ := ha
      rw [arr1_ok]
      simp only [Except.bind_ok]
      refine step_type (t1.imp_right fun ⟨r, e⟩ => ⟨r, e, bind_raises (b (h.resolve_left fun h0 => ?_)) _⟩)
      rw [asInt_bad h0] at e; cases e

/-- C130: Python `int`s out of range: OverflowError up to 64 bits; beyond, C runs on -1 and the call then fails with SystemError (`FindQ(-1)` never returns). -/
theorem c130_overflow (v m : ℤ) (hm : |m| < 2 ^ 31) :
    (-2 ^ 63 ≤ v → v < 2 ^ 63 → (v < -2 ^ 31 ∨ 2 ^ 31 ≤ v) → wrapYnnm [.int v, .int m] = .error ⟨.exception, "OverflowError"⟩ ∧ wrapFindQ [.int v] = .error ⟨.exception, "OverflowError"⟩) ∧
    ((v < -2 ^ 63 ∨ 2 ^ 63 ≤ v) → wrapYnnm [.int v, .int m] = .error ⟨.exception, "SystemError"⟩ ∧ (wrapFindQ [.int v]).Raises .nonTermination) := by
  rw [abs_lt] at hm
  constructor
  · intro h1 h2 h3
    simp only [wrapYnnm, wrapFindQ]
    rw [asInt_over (v := v) (by unfold InLong; omega) (by unfold InInt; omega)]
    exact ⟨rfl, rfl⟩
  · intro h
    simp only [wrapYnnm, wrapFindQ]
    rw [asInt_huge (v := v) (by unfold InLong; omega), asInt_int (inInt_of (by omega) hm.2)]
    simp only [Except.bind_ok]
    rw [xYnnm_eq' (-1) m (by omega) (by norm_num)]
    refine ⟨rfl, ?_⟩
    unfold xFindQ
    rw [cks_bind (by ints), c25_c_diverges (-1) (by norm_num)]
    exact ⟨_, rfl⟩

/-- C130: the calls that return normally: exactly those with the right number of arguments, all `int`s Python `int`s of 32 bits, arrays contiguous and of the right type, for
which the C routine, run on exactly these values (the length modulo 2^32), returns. -/
theorem c130_returns (args : List PyObj) :
    (∀ v, wrapYnnm args = .ok v ↔ ∃ n m, args = [.int n, .int m] ∧ InInt n ∧ InInt m ∧ xYnnm n m = .ok v) ∧
    (∀ l, wrapYnunm args = .ok l ↔ ∃ n m y, args = [.int n, .int m, .arr1 y .float64 true] ∧ InInt n ∧ InInt m ∧
      xYnunm n m (y.map Complex.re) (castInt (y.map Complex.re).length) = .ok l) ∧
    (∀ Q, wrapFindQ args = .ok Q ↔ ∃ S, args = [.int S] ∧ InInt S ∧ xFindQ S = .ok Q) ∧
    (∀ l, wrapSData args = .ok l ↔ ∃ s r n, args = [.arr1 s .complex128 true, .int r, .int n] ∧ InInt r ∧ InInt n ∧ xSData s (castInt s.length) r n = .ok l) := by
  have ret : ∀ {α : Type} {b : Bool} {x y : α}, swigReturn b x = .ok y → b = false ∧ x = y := by
    intro α b x y h
    unfold swigReturn at h
    split at h
    · cases h
    · cases h
      exact ⟨by simpa using ‹¬ b = true›, rfl⟩
  refine ⟨fun v => ⟨fun h => ?_, ?_⟩, fun l => ⟨fun h => ?_, ?_⟩, fun Q => ⟨fun h => ?_, ?_⟩, fun l => ⟨fun h => ?_, ?_⟩⟩
  · match args with
    | [] | [_] | _ :: _ :: _ :: _ => cases h
    | [o0, o1] =>
      simp only [wrapYnnm] at h
      obtain ⟨⟨n, p⟩, hn, h⟩ := (res_bind_ok _ _ _).mp h
      obtain ⟨⟨m, q⟩, hm, h⟩ := (res_bind_ok _ _ _).mp h
      obtain ⟨x, hx, h⟩ := (res_bind_ok _ _ _).mp h
      obtain ⟨hb, rfl⟩ := ret h
      simp only [Bool.or_eq_false_iff] at hb
      obtain ⟨rfl, rfl⟩ := hb
      obtain ⟨rfl, i1⟩ := asInt_inv hn
      obtain ⟨rfl, i2⟩ := asInt_inv hm
      exact ⟨n, m, rfl, i1, i2, hx⟩
  · rintro ⟨n, m, rfl, i1, i2, hx⟩
    simp only [wrapYnnm]
    rw [asInt_int i1, asInt_int i2]
    simp only [Except.bind_ok]
    rw [hx]
    rfl
  · match args with
    | [] | [_] | [_, _] | _ :: _ :: _ :: _ :: _ => cases h
    | [o0, o1, o2] =>
      simp only [wrapYnunm] at h
      obtain ⟨⟨n, p⟩, hn, h⟩ := (res_bind_ok _ _ _).mp h
      obtain ⟨⟨m, q⟩, hm, h⟩ := (res_bind_ok _ _ _).mp h
      obtain ⟨y, hy, h⟩ := (res_bind_ok _ _ _).mp h
      obtain ⟨x, hx, h⟩ := (res_bind_ok _ _ _).mp h
      obtain ⟨hb, rfl⟩ := ret h
      simp only [Bool.or_eq_false_iff] at hb
      obtain ⟨rfl, rfl⟩ := hb
      obtain ⟨rfl, i1⟩ := asInt_inv hn
      obtain ⟨rfl, i2⟩ := asInt_inv hm
      obtain ⟨a, rfl, rfl⟩ := dbl_inv hy
      exact ⟨n, m, a, rfl, i1, i2, hx⟩
  · rintro ⟨n, m, y, rfl, i1, i2, hx⟩
    rw [ynunm_gen y n m i1 i2, hx]
    rfl
  · match args with
    | [] | _ :: _ :: _ => cases h
    | [o0] =>
      simp only [wrapFindQ] at h
      obtain ⟨⟨n, p⟩, hn, h⟩ := (res_bind_ok _ _ _).mp h
      obtain ⟨x, hx, h⟩ := (res_bind_ok _ _ _).mp h
      obtain ⟨hb, rfl⟩ := ret h
      simp only at hb
      subst hb
      obtain ⟨rfl, i1⟩ := asInt_inv hn
      exact ⟨n, rfl, i1, hx⟩
  · rintro ⟨S, rfl, i1, hx⟩
    simp only [wrapFindQ]
    rw [asInt_int i1]
    simp only [Except.bind_ok]
    rw [hx]
    rfl
  · match args with
    | [] | [_] | [_, _] | _ :: _ :: _ :: _ :: _ => cases h
    | [o0, o1, o2] =>
      simp only [wrapSData] at h
      obtain ⟨s, hs, h⟩ := (res_bind_ok _ _ _).mp h
      obtain ⟨⟨n, p⟩, hn, h⟩ := (res_bind_ok _ _ _).mp h
      obtain ⟨⟨m, q⟩, hm, h⟩ := (res_bind_ok _ _ _).mp h
      obtain ⟨x, hx, h⟩ := (res_bind_ok _ _ _).mp h
      obtain ⟨hb, rfl⟩ := ret h
      simp only [Bool.or_eq_false_iff] at hb
      obtain ⟨rfl, rfl⟩ := hb
      obtain ⟨rfl, i1⟩ := asInt_inv hn
      obtain ⟨rfl, i2⟩ := asInt_inv hm
      exact ⟨s, n, m, by rw [arr1_inv hs], i1, i2, hx⟩
  · rintro ⟨s, r, n, rfl, i1, i2, hx⟩
    rw [sdata_gen s r n i1 i2, hx]
    rfl

/-- Non-vacuity: `csphi.FindQ(11)` is 12; `csphi.ynunm(3, -2, y)` on an array of 4. -/
theorem c130_example (y : List ℂ) (h : y.length = 4) : wrapFindQ [.int 11] = .ok 12 ∧
    ∃ out, wrapYnunm [.int 3, .int (-2), .arr1 y .float64 true] = .ok out ∧ ynunm 3 (-2) 4 = .ok out ∧ out.length = 4 := by
  constructor
  · obtain ⟨Q, e, h1, h2, h3⟩ := (c130_findq 11).1 (by norm_num) (by norm_num)
    have : Q = 12 := by
      by_contra hne
      rcases lt_or_gt_of_ne hne with hlt | hgt
      · have : Q = 11 := by omega
        have := h2 11 (by decide) (by rw [this])
        omega
      · obtain ⟨p, hp, hd, h5⟩ := h3 12 (by norm_num) (by omega)
        have hle := Nat.le_of_dvd (by norm_num) hd
        interval_cases p <;> revert hp hd <;> decide
    rw [e, this]; rfl
  · obtain ⟨out, h1, h2, h3⟩ := c130_ynunm 3 (-2) y (by omega) (by omega) (by decide)
    rw [h] at h2 h3
    exact ⟨out, h1, h2, h3⟩

end Verif.Props
