import Verif.Props.FloatUser4
/-!
# C107: synthesis and the round trip in doubles, over NumPy's one-dimensional FFTs
-/
namespace Verif.Props
open Verif Finset
variable {rnd : ℝ → ℝ}

namespace FU

theorem card_near (r N : ℕ) : ((range r).filter fun i => i ≤ N ∨ r - i ≤ N).card ≤ 2 * N + 1 := by
  have : ((range r).filter fun i => i ≤ N ∨ r - i ≤ N) ⊆ range (N + 1) ∪ Ico (r - N) r := by
    intro i hi
    obtain ⟨h1, h2⟩ := mem_filter.mp hi
    rw [mem_range] at h1
    rw [mem_union, mem_range, mem_Ico]
    omega
  refine (card_le_card this).trans ((card_union_le _ _).trans ?_)
  rw [card_range, Nat.card_Ico]
  omega

/-- A sum over an array that vanishes off a frame. -/
theorem frame_sum {r k N M : ℕ} {f : ℕ → ℕ → ℝ} {E : ℝ} (hE : 0 ≤ E) (h : ∀ i j, i < r → j < k → f i j ≤ if (i ≤ N ∨ r - i ≤ N) ∧ (j ≤ M ∨ k - j ≤ M) then E else 0) :
    ∑ i ∈ range r, ∑ j ∈ range k, f i j ≤ (2 * N + 1) * (2 * M + 1) * E := by
  have h1 : ∀ i ∈ range r, ∑ j ∈ range k, f i j ≤ if i ≤ N ∨ r - i ≤ N then (2 * M + 1) * E else 0 := by
    intro i hi
    refine (sum_le_sum fun j hj => h i j (mem_range.mp hi) (mem_range.mp hj)).trans ?_
    by_cases a : i ≤ N ∨ r - i ≤ N
    · rw [if_pos a]
      simp only [a, true_and]
      rw [← sum_filter, sum_const, nsmul_eq_mul]
      refine mul_le_mul_of_nonneg_right ?_ hE
      exact_mod_cast card_near k M
    · simp only [a, false_and, if_false, sum_const_zero, le_refl]
  refine (sum_le_sum h1).trans ?_
  rw [← sum_filter, sum_const, nsmul_eq_mul, mul_assoc]
  refine mul_le_mul_of_nonneg_right ?_ (by positivity)
  exact_mod_cast card_near r N

theorem Gval_le (v : ℤ → ℕ → ℂ) (N : ℕ) (m k : ℤ) {η : ℝ} (hη : 0 ≤ η) (h : ∀ n, m.natAbs ≤ n → n ≤ N → ‖v m n‖ ≤ η) :
    ‖Gval v N m k‖ ≤ if k.natAbs ≤ N then (N + 1) * (η * FS.rowMax N) else 0 := by
  by_cases hk : k.natAbs ≤ N
  · rw [if_pos hk]
    have := FV.Gval_diff v (fun _ _ => 0) N m k hη (fun n a b => by rw [sub_zero]; exact h n a b)
    have z : Gval (fun _ _ => 0) N m k = 0 := by
      unfold Gval
      simp
    rwa [z, sub_zero] at this
  · rw [if_neg hk]
    have z : Gval v N m k = 0 := by
      unfold Gval
      rw [sum_eq_zero, mul_zero]
      intro n hn
      have := (mem_Icc.mp hn).2
      rw [ycoef_support n m k (by rw [Int.abs_eq_natAbs]; omega)]
      simp
    rw [z, norm_zero]

/-- One entry of the array of Fourier coefficients. -/
theorem entry_le (hrd : NoOverflow rnd) {K : ℕ} {jp : Int → FC rnd} (hj : PowNear K jp) {N : ℕ} (hN : N ≤ 1000) {C : ℝ} (hC : 2 ^ (-900 : ℤ) ≤ C) (hC' : C ≤ 2 ^ (900 : ℤ))
    (v : ℤ → ℕ → FC rnd) {m : ℤ} (hm : m.natAbs ≤ N) (hm' : |m| ≤ K) (hv : ∀ n, m.natAbs ≤ n → n ≤ N → |(v m n).re| ≤ C ∧ |(v m n).im| ≤ C) (r i : ℕ) (hi : i < r) :
    ‖FS.val (FS.entryF jp v N m r i)‖ ≤ if i ≤ N ∨ r - i ≤ N then 3 * ((N + 1) * C * FS.rowMax N) else 0 := by
  have h1 := FS.entry_err hrd hj hN hC hC' v hm hm' hv r i hi
  have C0 : 0 < C := lt_of_lt_of_le (by positivity) hC
  obtain ⟨-, -, hE, -, -⟩ := FV.ent_num (M := 0) hN (by norm_num) hC hC'
  have G0 := FS.rowMax_ge N
  have hc : FS.coefErr N C ≤ (N + 1) * C * FS.rowMax N := by
    have : FS.coefErr N C ≤ FV.entE N C := by
      unfold FV.entE
      have := uu_pos
      have : 0 ≤ ((N : ℝ) + 1) * (12 * uu * C * FS.rowMax N) := by positivity
      linarith
    refine this.trans (hE.trans ?_)
    unfold FV.entG
    have : 0 ≤ ((N : ℝ) + 1) * C * FS.rowMax N := by positivity
    linarith
  have hvn : ∀ n, m.natAbs ≤ n → n ≤ N → ‖FS.val (v m n)‖ ≤ 2 * C := fun n a b => by
    obtain ⟨h, h'⟩ := hv n a b
    refine (Complex.norm_le_abs_re_add_abs_im _).trans ?_
    show |(v m n).re| + |(v m n).im| ≤ _
    linarith
  have h2 : ‖colEntry (Gval (fun m n => FS.val (v m n)) N m) r i‖ ≤ if i ≤ N ∨ r - i ≤ N then 2 * ((N + 1) * C * FS.rowMax N) else 0 := by
    have key : ∀ k : ℤ, (k.natAbs ≤ N → i ≤ N ∨ r - i ≤ N) → ‖Gval (fun m n => FS.val (v m n)) N m k‖ ≤ if i ≤ N ∨ r - i ≤ N then 2 * ((N + 1) * C * FS.rowMax N) else 0 := by
      intro k hk
      refine (Gval_le _ N m k (by positivity) hvn).trans ?_
      have P : 0 ≤ 2 * (((N : ℝ) + 1) * C * FS.rowMax N) := by positivity
      by_cases a : k.natAbs ≤ N
      · rw [if_pos a, if_pos (hk a)]
        exact le_of_eq (by ring)
      · rw [if_neg a]
        split
        · exact P
        · exact le_rfl
    unfold colEntry
    generalize r - (if r % 2 = 0 then r / 2 - 1 else (r - 1) / 2) = a
    by_cases h : a ≤ i
    · rw [if_pos h]; exact key ((i : ℤ) - r) (by omega)
    · rw [if_neg h]; exact key (i : ℤ) (by omega)
  have h3 := norm_add_le (FS.val (FS.entryF jp v N m r i) - colEntry (Gval (fun m n => FS.val (v m n)) N m) r i) (colEntry (Gval (fun m n => FS.val (v m n)) N m) r i)
  rw [sub_add_cancel] at h3
  refine h3.trans ((add_le_add h1 h2).trans ?_)
  split
  · linarith
  · norm_num

/-- The array of Fourier coefficients, summed. -/
theorem synth_sum (hrd : NoOverflow rnd) {jp : Int → FC rnd} {N M r k : ℕ} (hj : PowNear M jp) (hN : N ≤ 1000) (hMN : M ≤ N) {C : ℝ}
    (hC : 2 ^ (-900 : ℤ) ≤ C) (hC' : C ≤ 2 ^ (900 : ℤ)) (vec : List (FC rnd))
    (hv : ∀ (m : ℤ) (n : ℕ), m.natAbs ≤ n → n ≤ N → m.natAbs ≤ M → |(FS.cfF vec N m n).re| ≤ C ∧ |(FS.cfF vec N m n).im| ≤ C) {Ah : Arr2 (FC rnd)}
    (hAh : FS.IsSynthF jp vec N M r k Ah) :
    ∑ i ∈ range Ah.rows, ∑ j ∈ range Ah.cols, ‖FS.val (Ah.at' i j)‖ ≤ (2 * N + 1) * (2 * M + 1) * (3 * ((N + 1) * C * FS.rowMax N)) := by
  have C0 : 0 < C := lt_of_lt_of_le (by positivity) hC
  have G0 := FS.rowMax_ge N
  rw [hAh.rows, hAh.cols]
  refine frame_sum (by positivity) fun i j hi hj' => ?_
  by_cases hjM : j ≤ M ∨ k - j ≤ M
  · obtain ⟨m, hm, he⟩ : ∃ m : ℤ, m.natAbs ≤ M ∧ (m % k).toNat = j := by
      rcases hjM with h | h
      · exact ⟨j, by omega, by rw [Int.emod_eq_of_lt (by omega) (by omega)]; omega⟩
      · refine ⟨(j : ℤ) - k, by omega, ?_⟩
        rw [← Int.add_emod_right, Int.emod_eq_of_lt (by omega) (by omega)]; omega
    rw [← he, hAh.val m i hm hi, he]
    simp only [hjM, and_true]
    exact entry_le hrd hj hN hC hC' (FS.cfF vec N) (by omega) (by rw [Int.abs_eq_natAbs]; omega) (fun n a b => hv m n a b hm) r i hi
  · rw [if_neg (by tauto), hAh.zero i j (by omega) (by omega), FS.val_zero, norm_zero]

/-- `np.fft.ifft2` on what the synthesis hands it. -/
theorem spost_aux (hrd : NoOverflow rnd) {jp : Int → FC rnd} (b : Backend) (c : ScalarCoefs (FC rnd)) (hc : c.WellFormed)
    (N M : ℕ) (hn : c.nmax = N) (hm : c.mmax = M) (hj : PowFor b M jp) (hN : N ≤ 1000) (w : ℤ → ℤ → FC rnd)
    (hw : ∀ n m, IsMode c.nmax c.mmax n m → readMap c n m = some (w n m)) (C : ℝ) (hC : 2 ^ (-690 : ℤ) ≤ C) (hC' : C ≤ 2 ^ (700 : ℤ))
    (hwC : ∀ n m, IsMode c.nmax c.mmax n m → |(w n m).re| ≤ C ∧ |(w n m).im| ≤ C) (nr nc : ℤ) (h1 : c.nmax + 2 ≤ nr) (h2 : 2 * c.mmax + 2 ≤ nc) (h3 : nc % 2 = 0)
    (np : Fl.Fft1 rnd) (κ : ℝ) (hκ : 2 ^ (-45 : ℤ) ≤ κ) (hκ' : κ ≤ 1 / 4) (hsz : (2 * nr - 2) * nc < 2 ^ 53) (hp1 : Fft1Within np κ (2 * nr - 2).toNat) (hp2 : Fft1Within np κ nc.toNat)
    (f : Arr2 (FC rnd)) (hf : Fl.backendScToFc rnd jp b 0 c.vec c.nmax c.mmax (2 * nr - 2) nc = .ok f) :
    FftWithin (Fl.ifft2Scaled rnd np) (3 * κ * ((2 * N + 1) * (2 * M + 1) * (3 * ((N + 1) * C * FS.rowMax N)))) f (2 * nr - 2) nc := by
  have hwf := hc.wf
  have hm0 := hwf.m0
  have hmn := hwf.mn
  have C0 : 0 < C := lt_of_lt_of_le (by positivity) hC
  have hC9 : 2 ^ (-900 : ℤ) ≤ C := (zpow_le_zpow_right₀ (by norm_num) (by norm_num)).trans hC
  have hC9' : C ≤ 2 ^ (900 : ℤ) := hC'.trans (zpow_le_zpow_right₀ (by norm_num) (by norm_num))
  obtain ⟨r, rfl⟩ := Int.eq_ofNat_of_zero_le (show 0 ≤ nr by omega)
  obtain ⟨k, rfl⟩ := Int.eq_ofNat_of_zero_le (show 0 ≤ nc by omega)
  have hlen : c.vec.length = seg (N + 1) (2 * M + 1) := by
    have := hwf.len
    rw [ncFormula_eq (nmax := c.nmax) (mmax := c.mmax) (by omega) (by omega), hn, hm, show ((N : ℤ) + 1).toNat = N + 1 by omega, Int.toNat_natCast] at this
    exact_mod_cast this
  obtain ⟨Ah, eAh, hAh⟩ := FS.scToFc_spec jp c.vec N M (2 * r - 2) k (by omega) (by omega) (by omega) hlen
  have eB : Fl.backendScToFc rnd jp b 0 c.vec c.nmax c.mmax (2 * (r : ℤ) - 2) k = .ok Ah := by
    have epy : Fl.backendScToFc rnd jp .py 0 c.vec c.nmax c.mmax (2 * (r : ℤ) - 2) k = .ok Ah := by
      rw [hn, hm, show 2 * (r : ℤ) - 2 = ((2 * r - 2 : ℕ) : ℤ) by omega]
      exact eAh
    cases b with
    | py => exact epy
    | c J => rw [FS.py_eq_c hrd (hj.2 (by simp)) J 0 c hwf (by omega) (by omega) _ _ (by omega) (by omega), epy]
  rw [eB] at hf
  have hf' := Except.ok.inj hf
  subst hf'
  have hvC : ∀ (m : ℤ) (n : ℕ), m.natAbs ≤ n → n ≤ N → m.natAbs ≤ M → |(FS.cfF c.vec N m n).re| ≤ C ∧ |(FS.cfF c.vec N m n).im| ≤ C := by
    intro m n a1 a2 a3
    have hmo : IsMode c.nmax c.mmax n m := ⟨by omega, by omega, by rw [Int.abs_eq_natAbs]; omega, by rw [Int.abs_eq_natAbs]; omega⟩
    have := hw n m hmo
    rw [FS.cfF_eq hwf hn hm a1 a2 a3] at this
    rw [Option.some.inj this]
    exact hwC n m hmo
  have hs := synth_sum (k := k) hrd hj.1 hN (by omega) hC9 hC9' c.vec hvC hAh
  have e1 : (2 * (r : ℤ) - 2).toNat = 2 * r - 2 := by omega
  rw [e1] at hp1
  rw [Int.toNat_natCast] at hp2
  have G0 := FS.rowMax_ge N
  have G1 : FS.rowMax N ≤ 16 := rowMax_le hN
  have n1 : (N : ℝ) ≤ 1000 := by exact_mod_cast hN
  have m1 : (M : ℝ) ≤ 1000 := by exact_mod_cast (by omega : M ≤ 1000)
  have n0 : (0 : ℝ) ≤ N := by positivity
  have m0 : (0 : ℝ) ≤ M := by positivity
  have hsz' : (2 * r - 2) * k < 2 ^ 53 := by
    have : (((2 * r - 2 : ℕ) : ℤ) * k) < 2 ^ 53 := by rw [show ((2 * r - 2 : ℕ) : ℤ) = 2 * (r : ℤ) - 2 by omega]; exact hsz
    exact_mod_cast this
  refine ifft2_within hrd np Ah _ _ (by rw [hAh.rows]; omega) (by rw [hAh.cols]) (by rw [hAh.rows]; omega) (by rw [hAh.cols]; omega) (by rw [hAh.rows, hAh.cols]; exact hsz') κ _ hκ hκ'
    (by rw [hAh.rows]; exact hp1) (by rw [hAh.cols]; exact hp2) ?_ ?_ hs
  · calc (2 : ℝ) ^ (-700 : ℤ) ≤ 1 / 4 * 2 ^ (-690 : ℤ) := by
          rw [show (-700 : ℤ) = -10 + -690 by norm_num, zpow_add₀ (by norm_num)]
          exact mul_le_mul_of_nonneg_right (by norm_num) (by positivity)
      _ ≤ 1 / 4 * C := mul_le_mul_of_nonneg_left hC (by norm_num)
      _ ≤ (2 * 0 + 1) * (2 * 0 + 1) * (3 * ((0 + 1) * C * (1 / 4))) := by clear hC hC' hC9 hC9' hκ; linarith
      _ ≤ _ := by gcongr
  · calc (2 * N + 1) * (2 * M + 1) * (3 * ((N + 1) * C * FS.rowMax N)) ≤ (2 * 1000 + 1) * (2 * 1000 + 1) * (3 * ((1000 + 1) * 2 ^ (700 : ℤ) * 16)) := by gcongr
      _ = ((2 * 1000 + 1) * (2 * 1000 + 1) * (3 * (1000 + 1) * 16)) * 2 ^ (700 : ℤ) := by ring
      _ ≤ 2 ^ (100 : ℤ) * 2 ^ (700 : ℤ) := mul_le_mul_of_nonneg_right (by norm_num) (by positivity)
      _ = 2 ^ (800 : ℤ) := by rw [← zpow_add₀ (by norm_num)]; norm_num

theorem spost (hrd : NoOverflow rnd) {jp : Int → FC rnd} (b : Backend) (c : ScalarCoefs (FC rnd)) (hc : c.WellFormed)
    (N M : ℕ) (hn : c.nmax = N) (hm : c.mmax = M) (hj : PowOK b M jp) (hN : N ≤ 1000) (w : ℤ → ℤ → FC rnd)
    (hw : ∀ n m, IsMode c.nmax c.mmax n m → readMap c n m = some (w n m)) (C : ℝ) (hC : 2 ^ (-690 : ℤ) ≤ C) (hC' : C ≤ 2 ^ (700 : ℤ))
    (hwC : ∀ n m, IsMode c.nmax c.mmax n m → |(w n m).re| ≤ C ∧ |(w n m).im| ≤ C) (nr nc : ℤ) (h1 : c.nmax + 2 ≤ nr) (h2 : 2 * c.mmax + 2 ≤ nc) (h3 : nc % 2 = 0)
    (np : Fl.Fft1 rnd) (κ : ℝ) (hκ : 2 ^ (-45 : ℤ) ≤ κ) (hκ' : κ ≤ 1 / 4) (hsz : (2 * nr - 2) * nc < 2 ^ 53) (hp1 : Fft1Within np κ (2 * nr - 2).toNat) (hp2 : Fft1Within np κ nc.toNat)
    (f : Arr2 (FC rnd)) (hf : Fl.backendScToFc rnd jp b 0 c.vec c.nmax c.mmax (2 * nr - 2) nc = .ok f) :
    FftWithin (Fl.ifft2Scaled rnd np) (3 * κ * ((2 * N + 1) * (2 * M + 1) * (3 * ((N + 1) * C * FS.rowMax N)))) f (2 * nr - 2) nc := by
  cases b with
  | py => exact spost_aux hrd .py c hc N M hn hm (hj rfl).for hN w hw C hC hC' hwC nr nc h1 h2 h3 np κ hκ hκ' hsz hp1 hp2 f hf
  | c J => exact spost_aux hrd (jp := fun m => ⟨(Complex.I ^ m).re, (Complex.I ^ m).im⟩) (.c J) c hc N M hn hm (PowExactTo.for fun _ _ => rfl) hN w hw C hC hC' hwC nr nc h1 h2 h3 np κ hκ hκ' hsz hp1 hp2 f hf

end FU

end Verif.Props
