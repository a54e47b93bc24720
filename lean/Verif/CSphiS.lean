import Verif.CSphiB
import Verif.SphiS
/-!
# C extension: `sc_to_fc` stays in bounds and agrees with the Python routine
-/
namespace Verif
open Finset

/-- `F` is the row-major content of the `r × c` matrix `X`. -/
def FlatIs {α : Type} [Zero α] (r c : ℕ) (X : ℕ → ℕ → α) (F : List α) : Prop :=
  F.length = r * c ∧ ∀ i j, i < r → j < c → rd F (c * i + j) = X i j

theorem flat_inj {c i i' j j' : ℕ} (hj : j < c) (hj' : j' < c) (h : c * i + j = c * i' + j') : i = i' ∧ j = j' := by
  have h1 : (c * i + j) / c = i := by rw [Nat.mul_add_div (by omega), Nat.div_eq_of_lt hj, add_zero]
  have h2 : (c * i' + j') / c = i' := by rw [Nat.mul_add_div (by omega), Nat.div_eq_of_lt hj', add_zero]
  have h3 : i = i' := by rw [← h1, ← h2, h]
  subst h3
  exact ⟨rfl, by omega⟩

theorem FlatIs.get {α : Type} [Zero α] {r c : ℕ} {X : ℕ → ℕ → α} {F : List α} (h : FlatIs r c X F) {i j : ℕ} (hi : i < r) (hj : j < c) {p : Int}
    (hp : p = (c * i + j : ℕ)) : cGet F p = .ok (X i j) := by
  rw [cGet_at (j := c * i + j) (by rw [h.1]; exact flat_idx hi hj) hp, h.2 i j hi hj]

theorem FlatIs.set {α : Type} [Zero α] {r c : ℕ} {X : ℕ → ℕ → α} {F : List α} (h : FlatIs r c X F) {i j : ℕ} (hi : i < r) (hj : j < c) {p : Int} (v : α)
    (hp : p = (c * i + j : ℕ)) : ∃ F', cSet F p v = .ok F' ∧ FlatIs r c (fun a b => if a = i ∧ b = j then v else X a b) F' := by
  have hlt : c * i + j < F.length := by rw [h.1]; exact flat_idx hi hj
  refine ⟨_, cSet_at hlt hp, by simpa using h.1, fun a b ha hb => ?_⟩
  rw [rd_set' _ _ _ _ hlt]
  beta_reduce
  by_cases e : a = i ∧ b = j
  · rw [if_pos (by rw [e.1, e.2]), if_pos e]
  · rw [if_neg (fun h => e (flat_inj hb hj h)), if_neg e, h.2 a b ha hb]

theorem FlatIs.congr {α : Type} [Zero α] {r c : ℕ} {X Y : ℕ → ℕ → α} {F : List α} (h : FlatIs r c X F) (e : ∀ i j, i < r → j < c → X i j = Y i j) : FlatIs r c Y F :=
  ⟨h.1, fun i j hi hj => by rw [h.2 i j hi hj, e i j hi hj]⟩

theorem cFcvecAcc_spec (sc : List ℂ) (off : ℕ) (m : ℤ) (nmax r c M : ℕ) (hr : nmax + 1 ≤ r) (hMc : M < c) (n : ℕ) (hn : m.natAbs ≤ n) (hn2 : n ≤ nmax)
    (hsc : off + (n - m.natAbs) < sc.length) (X : ℕ → ℕ → ℂ) (F : List ℂ) (hF : FlatIs r c X F) (y : List ℝ) (hy : y.length = nmax + 1) :
    ∃ F' y', cFcvecAcc sc off m nmax c M ((nmax : Int) + 1) (F, y) n = .ok (F', y') ∧ y'.length = nmax + 1 ∧
      FlatIs r c (fun i j => if j = M then X i j + rd sc (off + (n - m.natAbs)) * ycoef n m i else X i j) F' := by
  unfold cFcvecAcc
  have h1 := cYnunm_eq n m y (nmax + 1) (by omega) hy
  obtain ⟨y', ey, yl, yv⟩ := ynunm_spec n m (nmax + 1) hn (by omega)
  rw [ey] at h1
  push_cast at h1
  simp only
  rw [h1]
  simp only [Except.bind_ok]
  have habs : |m| = (m.natAbs : ℤ) := Int.abs_eq_natAbs m
  have hp : (off : Int) + ((n : Int) - |m|) = ((off + (n - m.natAbs) : ℕ) : Int) := by rw [habs]; omega
  rw [hp]
  obtain ⟨F', e, hF'⟩ := forM'_range_inv (a := 0) (b := (nmax : Int) + 1) (by omega) F
    (fun F k => (cGet F (k * (c : Int) + M)).bind fun t =>
      (cGet sc ((off + (n - m.natAbs) : ℕ) : Int)).bind fun v =>
      (cGet y' k).bind fun yk =>
      cSet F (k * (c : Int) + M) ⟨t.re + v.re * yk, t.im + v.im * yk⟩)
    (fun k F => FlatIs r c (fun i j => if j = M ∧ (i : ℤ) < k then X i j + rd sc (off + (n - m.natAbs)) * ycoef n m i else X i j) F)
    (hF.congr fun i j _ _ => by rw [if_neg (by omega)])
    (by
      intro k F h1 h2 hF
      obtain ⟨k, rfl⟩ := Int.eq_ofNat_of_zero_le h1
      have ep : (k : ℤ) * (c : ℤ) + M = ((c * k + M : ℕ) : ℤ) := by push_cast; ring
      rw [hF.get (i := k) (j := M) (by omega) hMc ep, cGet_ok hsc, cGet_ok (by omega)]
      simp only [Except.bind_ok]
      rw [if_neg (by omega)]
      have hv : ∀ (t v : ℂ) (x : ℝ), (⟨t.re + v.re * x, t.im + v.im * x⟩ : ℂ) = t + v * (x : ℂ) := by
        intro t v x
        rw [mul_comm v]
        apply Complex.ext
        · rw [Complex.add_re, Complex.re_ofReal_mul]; simp only; ring
        · rw [Complex.add_im, Complex.im_ofReal_mul]; simp only; ring
      rw [hv]
      obtain ⟨F', e, hF'⟩ := hF.set (i := k) (j := M) (by omega) hMc (X k M + rd sc (off + (n - m.natAbs)) * ((rd y' k : ℝ) : ℂ)) ep
      refine ⟨F', e, hF'.congr fun i j hi hj => ?_⟩
      have yv' : ((rd y' k : ℝ) : ℂ) = ycoef n m k := yv k
      by_cases e1 : i = k ∧ j = M
      · obtain ⟨rfl, rfl⟩ := e1
        rw [if_pos ⟨rfl, rfl⟩, if_pos ⟨rfl, by omega⟩, yv']
      · rw [if_neg e1]
        by_cases e2 : j = M ∧ (i : ℤ) < k
        · rw [if_pos e2, if_pos (by omega)]
        · rw [if_neg e2, if_neg (by omega)])
  rw [e]
  refine ⟨_, _, rfl, yl, hF'.congr fun i j hi hj => ?_⟩
  by_cases e1 : j = M
  · by_cases e2 : i < nmax + 1
    · rw [if_pos (by omega), if_pos e1]
    · rw [if_neg (by omega), if_pos e1, ycoef_support n m i (by rw [abs_of_nonneg (by omega)]; omega), mul_zero, add_zero]
  · rw [if_neg (by omega), if_neg e1]

theorem cFcvecMSc_spec (sc : List ℂ) (v : ℤ → ℕ → ℂ) (off : ℕ) (m : ℤ) (nmax r c M : ℕ) (hr : nmax + 1 ≤ r) (hMc : M < c) (hm : m.natAbs ≤ nmax)
    (hsc : off + (nmax - m.natAbs) < sc.length) (hv : ∀ n, m.natAbs ≤ n → n ≤ nmax → rd sc (off + (n - m.natAbs)) = v m n)
    (X : ℕ → ℕ → ℂ) (hX : ∀ i, i < r → X i M = 0) (F : List ℂ) (hF : FlatIs r c X F) (y : List ℝ) (hy : y.length = nmax + 1) :
    ∃ F' y', cFcvecMSc sc off m nmax r c M ((nmax : Int) + 1) (F, y) = .ok (F', y') ∧ y'.length = nmax + 1 ∧
      FlatIs r c (fun i j => if j = M then colEntry (Gval v nmax m) r i else X i j) F' := by
  unfold cFcvecMSc
  have habs : |m| = (m.natAbs : ℤ) := Int.abs_eq_natAbs m
  rw [habs]
  obtain ⟨⟨F1, y1⟩, e1, hy1, hF1⟩ := forM'_range_inv (a := (m.natAbs : ℤ)) (b := (nmax : Int) + 1) (by omega) (F, y)
    (cFcvecAcc sc off m nmax c M ((nmax : Int) + 1))
    (fun k st => st.2.length = nmax + 1 ∧ FlatIs r c (fun i j => if j = M then ∑ n ∈ Ico m.natAbs k.toNat, v m n * ycoef n m i else X i j) st.1)
    ⟨hy, hF.congr fun i j hi _ => by
      by_cases e : j = M
      · subst e; rw [if_pos rfl, hX i hi]; simp
      · rw [if_neg e]⟩
    (by
      rintro k ⟨F, y⟩ h1 h2 ⟨yl, hF⟩
      obtain ⟨n, rfl⟩ := Int.eq_ofNat_of_zero_le (show 0 ≤ k by omega)
      obtain ⟨F', y', e, yl', hF'⟩ := cFcvecAcc_spec sc off m nmax r c M hr hMc n (by omega) (by omega) (by omega) _ F hF y yl
      refine ⟨_, e, yl', hF'.congr fun i j _ _ => ?_⟩
      by_cases e : j = M
      · rw [if_pos e, if_pos e, if_pos e, hv n (by omega) (by omega), show ((n : ℤ) + 1).toNat = n + 1 by omega, sum_Ico_succ_top (by omega), Int.toNat_natCast]
      · rw [if_neg e, if_neg e, if_neg e])
  rw [e1]
  simp only [Except.bind_ok]
  have hI : Ico m.natAbs ((nmax : ℤ) + 1).toNat = Icc m.natAbs nmax := by ext x; simp only [mem_Ico, mem_Icc]; omega
  rw [hI] at hF1
  obtain ⟨F2, e2, hF2⟩ := forM'_range_inv (a := 0) (b := (nmax : Int) + 1) (by omega) F1
    (fun F k => (cGet F (k * (c : Int) + M)).bind fun t => cSet F (k * (c : Int) + M) (cMulIPow m t))
    (fun k F => FlatIs r c (fun i j => if j = M then (if (i : ℤ) < k then Gval v nmax m i else ∑ n ∈ Icc m.natAbs nmax, v m n * ycoef n m i) else X i j) F)
    (hF1.congr fun i j _ _ => by
      by_cases e : j = M
      · rw [if_pos e, if_pos e, if_neg (by omega)]
      · rw [if_neg e, if_neg e])
    (by
      intro k F h1 h2 hF
      obtain ⟨k, rfl⟩ := Int.eq_ofNat_of_zero_le h1
      have ep : (k : ℤ) * (c : ℤ) + M = ((c * k + M : ℕ) : ℤ) := by push_cast; ring
      rw [hF.get (i := k) (j := M) (by omega) hMc ep]
      simp only [Except.bind_ok, if_true]
      rw [if_neg (by omega), cMulIPow_eq]
      obtain ⟨F', e, hF'⟩ := hF.set (i := k) (j := M) (by omega) hMc (Gval v nmax m k) ep
      refine ⟨F', e, hF'.congr fun i j hi hj => ?_⟩
      by_cases e1 : i = k ∧ j = M
      · obtain ⟨rfl, rfl⟩ := e1
        rw [if_pos ⟨rfl, rfl⟩, if_pos rfl, if_pos (by omega)]
      · rw [if_neg e1]
        by_cases e2 : j = M
        · rw [if_pos e2, if_pos e2]
          by_cases e3 : (i : ℤ) < k
          · rw [if_pos e3, if_pos (by omega)]
          · rw [if_neg e3, if_neg (by omega)]
        · rw [if_neg e2, if_neg e2])
  rw [e2]
  simp only [Except.bind_ok]
  have hF2' : FlatIs r c (fun i j => if j = M then Gval v nmax m i else X i j) F2 := hF2.congr fun i j _ _ => by
    by_cases e : j = M
    · rw [if_pos e, if_pos e]
      by_cases e3 : (i : ℤ) < (nmax : ℤ) + 1
      · rw [if_pos e3]
      · rw [if_neg e3, Gval_support _ _ _ _ (by rw [abs_of_nonneg (by omega)]; omega), sum_eq_zero]
        intro n hn
        have := mem_Icc.mp hn
        rw [ycoef_support n m i (by rw [abs_of_nonneg (by omega)]; omega), mul_zero]
    · rw [if_neg e, if_neg e]
  obtain ⟨H, hH⟩ : ∃ H : ℕ, H = (if r % 2 = 0 then r / 2 - 1 else (r - 1) / 2) := ⟨_, rfl⟩
  have hHc : (if (r : ℤ).tmod 2 = 0 then (r : ℤ).tdiv 2 - 1 else ((r : ℤ) - 1).tdiv 2) = (H : ℤ) := by
    rw [Int.tmod_eq_emod_of_nonneg (by omega), Int.tdiv_eq_ediv_of_nonneg (by omega), Int.tdiv_eq_ediv_of_nonneg (by omega), hH]
    split <;> split <;> omega
  have hHr : 2 * H + 1 ≤ r := by rw [hH]; split <;> omega
  rw [hHc]
  obtain ⟨F3, e3, hF3⟩ := forM'_range_inv (a := 0) (b := (H : Int)) (by omega) F2
    (fun F k => (cGet F ((c : Int) * (k + 1) + M)).bind fun t =>
      cSet F ((c : Int) * ((r : Int) - 1 - k) + M) ⟨(-1 : ℝ) ^ m * t.re, (-1 : ℝ) ^ m * t.im⟩)
    (fun k F => FlatIs r c (fun i j => if j = M then (if (r : ℤ) - k ≤ i then Gval v nmax m ((i : ℤ) - r) else Gval v nmax m i) else X i j) F)
    (hF2'.congr fun i j hi _ => by
      by_cases e : j = M
      · rw [if_pos e, if_pos e, if_neg (by omega)]
      · rw [if_neg e, if_neg e])
    (by
      intro k F h1 h2 hF
      obtain ⟨k, rfl⟩ := Int.eq_ofNat_of_zero_le h1
      rw [hF.get (i := k + 1) (j := M) (by omega) hMc (by push_cast; ring)]
      simp only [Except.bind_ok, if_true]
      rw [if_neg (by omega)]
      have hs : ∀ t : ℂ, (⟨(-1 : ℝ) ^ m * t.re, (-1 : ℝ) ^ m * t.im⟩ : ℂ) = (-1) ^ m * t := by
        intro t
        rw [show ((-1 : ℂ)) ^ m = (((-1 : ℝ) ^ m : ℝ) : ℂ) by push_cast; rfl]
        apply Complex.ext
        · rw [Complex.re_ofReal_mul]
        · rw [Complex.im_ofReal_mul]
      rw [hs, ← Gval_symm]
      obtain ⟨F', e, hF'⟩ := hF.set (i := r - 1 - k) (j := M) (by omega) hMc (Gval v nmax m (-((k + 1 : ℕ) : ℤ))) (p := (c : Int) * ((r : Int) - 1 - k) + M) (by
        rw [show (r : Int) - 1 - k = ((r - 1 - k : ℕ) : ℤ) by omega]; push_cast; ring)
      refine ⟨F', e, hF'.congr fun i j hi hj => ?_⟩
      by_cases e1 : i = r - 1 - k ∧ j = M
      · obtain ⟨rfl, rfl⟩ := e1
        rw [if_pos ⟨rfl, rfl⟩, if_pos rfl, if_pos (by omega)]
        congr 1; omega
      · rw [if_neg e1]
        by_cases e2 : j = M
        · rw [if_pos e2, if_pos e2]
          by_cases e3 : (r : ℤ) - k ≤ i
          · rw [if_pos e3, if_pos (by omega)]
          · rw [if_neg e3, if_neg (by omega)]
        · rw [if_neg e2, if_neg e2])
  rw [e3]
  refine ⟨_, _, rfl, hy1, hF3.congr fun i j hi hj => ?_⟩
  unfold colEntry
  rw [← hH]
  by_cases e : j = M
  · rw [if_pos e, if_pos e]
    by_cases e3 : (r : ℤ) - H ≤ i
    · rw [if_pos e3, if_pos (by omega)]
    · rw [if_neg e3, if_neg (by omega)]
  · rw [if_neg e, if_neg e]

theorem cScToFc_spec (spvec : List ℂ) (nmax mmax r c : ℕ) (hM : mmax ≤ nmax) (hr : nmax + 1 ≤ r)
    (hc : 2 * mmax + 2 ≤ c) (hl : spvec.length = seg (nmax + 1) (2 * mmax + 1)) (J : CJunk) (fd : List ℂ)
    (hfd : FlatIs r c (fun _ _ => 0) fd) :
    ∃ F, cScToFc fd r c spvec nmax mmax J = .ok F ∧ IsSynth spvec nmax mmax r c (Arr2.ofFn r c fun i j => rd F (c * i + j)) ∧
      F.length = r * c := by
  unfold cScToFc
  have mal : ∀ {α : Type} (n : ℕ) (j : ℕ → α), cMalloc (n : ℤ) j = .ok (tab n j) := by
    intro α n j; unfold cMalloc; rw [if_neg (by omega), Int.toNat_natCast]
  have m2 := fun (j : ℕ → ℝ) => mal (nmax + 1) j
  have m3 := fun (j : ℕ → ℤ) => mal (2 * mmax + 1) j
  push_cast at m2 m3
  rw [m2, m3]
  simp only [Except.bind_ok]
  have m4 := cMemset0_ok (tab (2 * mmax + 1) J.i) (2 * mmax + 1) (by simp)
  push_cast at m4
  rw [m4]
  simp only [Except.bind_ok]
  obtain ⟨inds, ei, il, iv⟩ := cInds_spec nmax mmax hM (tab (2 * mmax + 1) fun _ => 0) (by simp)
  rw [ei]
  simp only [Except.bind_ok]
  have blk : ∀ (m : ℤ) (M : ℤ) (X : ℕ → ℕ → ℂ) (F : List ℂ) (y : List ℝ), m.natAbs ≤ mmax → M = ((m % c).toNat : ℤ) → FlatIs r c X F → y.length = nmax + 1 →
      (∀ i, i < r → X i (m % c).toNat = 0) →
      ∃ F' y', cFcvecMSc spvec (seg (nmax + 1) (ord m) : ℕ) m nmax r c M ((nmax : Int) + 1) (F, y) = .ok (F', y') ∧ y'.length = nmax + 1 ∧
        FlatIs r c (fun i j => if j = (m % c).toNat then colEntry (Gval (cfOf spvec nmax) nmax m) r i else X i j) F' := by
    intro m M X F y hm hMM hF hy hX
    subst hMM
    have h4 : seg (nmax + 1) (ord m + 1) ≤ seg (nmax + 1) (2 * mmax + 1) := seg_mono _ (by have := ord_le m; omega)
    rw [seg_succ, ← natAbs_eq_ord m] at h4
    exact cFcvecMSc_spec spvec (cfOf spvec nmax) (seg (nmax + 1) (ord m)) m nmax r c (m % c).toNat hr (slot_lt' (by omega) _) (by omega) (by omega)
      (fun n _ _ => rfl) X hX F hF y hy
  have hh : (c : ℤ).tdiv 2 = ((c / 2 : ℕ) : ℤ) := by rw [Int.tdiv_eq_ediv_of_nonneg (by omega)]; rfl
  rw [hh]
  obtain ⟨⟨F, y⟩, eA, -, hi⟩ := forM'_range_inv (a := 0) (b := ((c / 2 : ℕ) : ℤ) + 1) (by omega) (fd, tab (nmax + 1) J.r)
    (fun st k =>
    if k < (mmax : ℤ) then
      (cGet inds (2 * k)).bind fun o1 =>
      (cFcvecMSc spvec o1 k nmax r c k ((nmax : ℤ) + 1) st).bind fun st =>
      (cGet inds (2 * (k + 1) - 1)).bind fun o2 =>
      cFcvecMSc spvec o2 (-(k + 1)) nmax r c ((c : ℤ) - 1 - k) ((nmax : ℤ) + 1) st
    else if k = (mmax : ℤ) then
      (cGet inds (2 * k)).bind fun o =>
      cFcvecMSc spvec o k nmax r c k ((nmax : ℤ) + 1) st
    else .ok st)
    (fun k st => st.2.length = nmax + 1 ∧ ∃ X, FlatIs r c X st.1 ∧
      (∀ (m : ℤ) (i : ℕ), m.natAbs ≤ mmax → i < r → X i (m % c).toNat =
        if -k ≤ m ∧ m < k then colEntry (Gval (cfOf spvec nmax) nmax m) r i else 0) ∧
      ∀ i j : ℕ, mmax < j → j + mmax < c → X i j = 0)
    ⟨by simp, _, hfd, fun m i hm hi => by rw [if_neg (by omega)], fun i j h1 h2 => rfl⟩
    (by
      rintro k ⟨F, y⟩ h1 h2 ⟨yl, X, hF, av, az⟩
      have hz : ∀ (m : ℤ) (X : ℕ → ℕ → ℂ), m.natAbs ≤ mmax → (∀ i j : ℕ, mmax < j → j + mmax < c → X i j = 0) →
          ∀ i j : ℕ, mmax < j → j + mmax < c → (if j = (m % c).toNat then colEntry (Gval (cfOf spvec nmax) nmax m) r i else X i j) = 0 := by
        intro m X hm hB i j h1 h2
        rw [if_neg, hB i j h1 h2]
        rw [wrap_mod (by omega) (by omega)]; split <;> omega
      have o2 : ord k = 2 * k.toNat := by unfold ord; split_ifs <;> omega
      have o1 : ord (-(k + 1)) = 2 * (k + 1).toNat - 1 := by unfold ord; rw [if_neg (by omega), if_pos (by omega)]; omega
      by_cases hk : k < mmax
      · rw [if_pos hk]
        rw [cGet_at (j := 2 * k.toNat) (by omega) (by omega), iv _ (by omega), ← o2]
        simp only [Except.bind_ok]
        obtain ⟨F1, y1, e1, yl1, hF1⟩ := blk k k X F y (by omega) (by rw [wrap_mod (by omega) (by omega)]; split <;> omega) hF yl (fun i hi => by
          rw [av k i (by omega) hi, if_neg (by omega)])
        rw [e1]
        simp only [Except.bind_ok]
        rw [cGet_at (j := 2 * (k + 1).toNat - 1) (by omega) (by omega), iv _ (by omega), ← o1]
        simp only [Except.bind_ok]
        obtain ⟨F2, y2, e2, yl2, hF2⟩ := blk (-(k + 1)) ((c : ℤ) - 1 - k) _ F1 y1 (by omega) (by rw [wrap_mod (by omega) (by omega)]; split <;> omega) hF1 yl1 (fun i hi => by
          rw [if_neg (fun h => absurd (slotcol_inj (m := -(k + 1)) (m' := k) (by omega : 2 * mmax < c) (by omega) (by omega) h) (by omega)), av _ i (by omega) hi, if_neg (by omega)])
        refine ⟨_, e2, yl2, _, hF2, fun m i hm hi => ?_, hz _ _ (by omega) (hz _ _ (by omega) az)⟩
        by_cases e1 : m = -(k + 1)
        · subst e1; rw [if_pos rfl, if_pos (by omega)]
        · rw [if_neg (fun h => e1 (slotcol_inj (by omega : 2 * mmax < c) hm (by omega) h))]
          by_cases e2 : m = k
          · subst e2; rw [if_pos rfl, if_pos (by omega)]
          · rw [if_neg (fun h => e2 (slotcol_inj (by omega : 2 * mmax < c) hm (by omega) h)), av m i hm hi]
            by_cases h3 : -k ≤ m ∧ m < k
            · rw [if_pos h3, if_pos (by omega)]
            · rw [if_neg h3, if_neg (by omega)]
      · rw [if_neg hk]
        by_cases hk2 : k = mmax
        · rw [if_pos hk2]
          rw [cGet_at (j := 2 * k.toNat) (by omega) (by omega), iv _ (by omega), ← o2]
          simp only [Except.bind_ok]
          obtain ⟨F1, y1, e1, yl1, hF1⟩ := blk k k X F y (by omega) (by rw [wrap_mod (by omega) (by omega)]; split <;> omega) hF yl (fun i hi => by
            rw [av k i (by omega) hi, if_neg (by omega)])
          refine ⟨_, e1, yl1, _, hF1, fun m i hm hi => ?_, hz _ _ (by omega) az⟩
          by_cases e2 : m = k
          · subst e2; rw [if_pos rfl, if_pos (by omega)]
          · rw [if_neg (fun h => e2 (slotcol_inj (by omega : 2 * mmax < c) hm (by omega) h)), av m i hm hi]
            by_cases h3 : -k ≤ m ∧ m < k
            · rw [if_pos h3, if_pos (by omega)]
            · rw [if_neg h3, if_neg (by omega)]
        · rw [if_neg hk2]
          refine ⟨_, rfl, yl, X, hF, fun m i hm hi => ?_, az⟩
          rw [av m i hm hi]
          by_cases h3 : -k ≤ m ∧ m < k
          · rw [if_pos h3, if_pos (by omega)]
          · rw [if_neg h3, if_neg (by omega)])
  rw [eA]
  obtain ⟨X, hX, hv, hz⟩ := hi
  refine ⟨F, rfl, ⟨rfl, rfl, fun m i hm h => ?_, fun i j h1 h2 => ?_⟩, hX.1⟩
  · rw [Arr2.at'_ofFn h (slot_lt' (by omega) _), hX.2 _ _ h (slot_lt' (by omega) _), hv m i hm h, if_pos (by omega)]
  · by_cases h : i < r
    · rw [Arr2.at'_ofFn h (by omega), hX.2 _ _ h (by omega), hz i j h1 h2]
    · rw [Arr2.at'_of_not]; simp only [Arr2.rows_ofFn]; omega

theorem IsSynth.ext {spvec : List ℂ} {nmax mmax r c : ℕ} {A B : Arr2 ℂ} (hA : IsSynth spvec nmax mmax r c A) (hB : IsSynth spvec nmax mmax r c B) : A = B := by
  refine Arr2.ext' (by rw [hA.rows, hB.rows]) (by rw [hA.cols, hB.cols]) fun i j hi hj => ?_
  rw [hA.rows] at hi
  rw [hA.cols] at hj
  by_cases h1 : j ≤ mmax
  · have e : ((j : ℤ) % c).toNat = j := by rw [wrap_mod (by omega) (by omega), if_neg (by omega)]; omega
    have := hA.val j i (by omega) hi
    rw [e] at this
    have h' := hB.val j i (by omega) hi
    rw [e] at h'
    rw [this, h']
  · by_cases h2 : j + mmax < c
    · rw [hA.zero i j (by omega) h2, hB.zero i j (by omega) h2]
    · have e : (((j : ℤ) - c) % c).toNat = j := by rw [wrap_mod (by omega) (by omega), if_pos (by omega)]; omega
      have := hA.val ((j : ℤ) - c) i (by omega) hi
      rw [e] at this
      have h' := hB.val ((j : ℤ) - c) i (by omega) hi
      rw [e] at h'
      rw [this, h']

/-- With the same coefficients, and a zero array to fill, the C routine produces the array of the Python routine. -/
theorem cScToFc_eq (spvec : List ℂ) (nmax mmax r c : ℕ) (hM : mmax ≤ nmax) (hr : nmax + 1 ≤ r)
    (hc : 2 * mmax + 2 ≤ c) (hl : spvec.length = seg (nmax + 1) (2 * mmax + 1)) (J : CJunk) :
    ∃ A, scToFc spvec nmax mmax r c = .ok A ∧ A.rows = r ∧ A.cols = c ∧
      cScToFc (Arr2.ofFn r c fun _ _ => (0 : ℂ)).flat r c spvec nmax mmax J = .ok A.flat := by
  obtain ⟨A, e, hA⟩ := scToFc_spec spvec nmax mmax r c hM hr hc hl
  refine ⟨A, e, hA.rows, hA.cols, ?_⟩
  obtain ⟨F, e', hF, hlen⟩ := cScToFc_spec spvec nmax mmax r c hM hr hc hl J (Arr2.ofFn r c fun _ _ => (0 : ℂ)).flat
    ⟨by rw [Arr2.length_flat]; rfl, fun i j hi hj => by
      rw [show c * i + j = (Arr2.ofFn r c fun _ _ => (0 : ℂ)).cols * i + j from rfl, Arr2.rd_flat _ hi hj, Arr2.at'_ofFn hi hj]⟩
  rw [e', hA.ext hF]
  congr 1
  refine list_ext_rd (by rw [Arr2.length_flat]; simpa using hlen) fun p hp => ?_
  rw [hlen] at hp
  have hc0 : 0 < c := by omega
  have h1 : p / c < r := (Nat.div_lt_iff_lt_mul hc0).mpr hp
  have h2 : p % c < c := Nat.mod_lt _ hc0
  have h3 : c * (p / c) + p % c = p := Nat.div_add_mod _ _
  have := Arr2.rd_flat (Arr2.ofFn r c fun i j => rd F (c * i + j)) (i := p / c) (j := p % c) h1 h2
  rw [Arr2.at'_ofFn h1 h2, h3] at this
  rw [← this]
  congr 1

end Verif
