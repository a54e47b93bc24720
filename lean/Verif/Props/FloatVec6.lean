import Verif.Props.FloatVec5
/-!
# `vspht` in doubles: from the Fourier arrays to the weighted coefficients
-/
namespace Verif.Props
open Verif Finset

variable {rnd : ℝ → ℝ}

namespace FV

theorem hval_diff_col {A A' : Arr2 ℂ} {r K : ℕ} (hr : r % 2 = 0) (a1 : A.rows = r + 2) (a2 : A.cols = K) (b1 : A'.rows = r + 2) (b2 : A'.cols = K) {ε : ℝ} (m k : ℤ)
    (h : ∀ i, i < r + 2 → ‖A.at' i (m % K).toNat - A'.at' i (m % K).toNat‖ ≤ ε) : ‖hval A m k - hval A' m k‖ ≤ 20 * (Real.sqrt ((r : ℝ) + 1) * ε) := by
  have hε : 0 ≤ ε := (norm_nonneg _).trans (h 0 (by omega))
  unfold hval
  rw [a1, b1, ← mul_sub, ← sum_sub_distrib]
  have e : ∀ ν, fAt A m ν * Skern (k - ν) - fAt A' m ν * Skern (k - ν) = (fAt A m ν - fAt A' m ν) * Skern (k - ν) := fun ν => by ring
  simp only [e]
  refine FA.kern_l2 _ (fun ν => fAt A m ν - fAt A' m ν) k (by positivity) ?_
  have hc : (Ioo (-(((r + 2 : ℕ) : ℤ) / 2)) (((r + 2 : ℕ) : ℤ) / 2)).card = r + 1 := by
    rw [Int.card_Ioo]; omega
  rw [mul_pow, Real.sq_sqrt (by positivity)]
  refine (sum_le_card_nsmul _ _ (ε ^ 2) fun ν _ => ?_).trans (le_of_eq ?_)
  · unfold fAt
    rw [a1, a2, b1, b2]
    exact pow_le_pow_left₀ (norm_nonneg _) (h _ (slot_lt' (by omega) _)) 2
  · rw [hc, nsmul_eq_mul]; push_cast; ring

/-- The squares of `sldot` add up. -/
theorem sldot_l2 (t p : ℤ → ℂ) (m : ℤ) (L : ℕ) {C : ℝ} (ht : ∀ s : Finset ℤ, ∑ ν ∈ s, ‖t ν‖ ^ 2 ≤ C ^ 2) (hp : ∀ s : Finset ℤ, ∑ ν ∈ s, ‖p ν‖ ^ 2 ≤ C ^ 2)
    (s : Finset ℤ) (hs : ∀ ν ∈ s, |ν| ≤ (L : ℤ)) : ∑ ν ∈ s, ‖sldot m t p ν‖ ^ 2 ≤ ((m.natAbs + L : ℝ) * C) ^ 2 := by
  have one : ∀ ν ∈ s, ‖sldot m t p ν‖ ^ 2 ≤ ((m.natAbs : ℝ) + L) * (m.natAbs * ‖t ν‖ ^ 2 + L * (‖p (ν - 1)‖ ^ 2 / 2 + ‖p (ν + 1)‖ ^ 2 / 2)) := by
    intro ν hν
    have hl : |(ν : ℝ)| ≤ L := by exact_mod_cast hs ν hν
    have hm : |(m : ℝ)| = m.natAbs := by rw [Nat.cast_natAbs]; simp
    have a0 : (0 : ℝ) ≤ m.natAbs := Nat.cast_nonneg _
    have l0 : (0 : ℝ) ≤ L := Nat.cast_nonneg _
    have h1 : ‖sldot m t p ν‖ ≤ m.natAbs * ‖t ν‖ + L * ((‖p (ν - 1)‖ + ‖p (ν + 1)‖) / 2) := by
      unfold sldot
      refine (norm_add_le _ _).trans (add_le_add (le_of_eq ?_) ?_)
      · rw [norm_neg, norm_mul, Complex.norm_intCast, hm]
      · rw [norm_mul, Complex.norm_intCast, norm_div, norm_mul, Complex.norm_I, Complex.norm_ofNat, mul_one]
        exact mul_le_mul hl (div_le_div_of_nonneg_right (norm_sub_le _ _) (by norm_num)) (by positivity) l0
    refine (pow_le_pow_left₀ (norm_nonneg _) h1 2).trans ?_
    generalize (m.natAbs : ℝ) = a at a0 ⊢
    generalize (L : ℝ) = l at l0 ⊢
    generalize ‖t ν‖ = x
    generalize ‖p (ν - 1)‖ = y
    generalize ‖p (ν + 1)‖ = z
    have h2 : (a * x + l * ((y + z) / 2)) ^ 2 ≤ (a + l) * (a * x ^ 2 + l * ((y + z) / 2) ^ 2) := by
      nlinarith [mul_nonneg (mul_nonneg a0 l0) (sq_nonneg (x - (y + z) / 2))]
    have h3 : ((y + z) / 2) ^ 2 ≤ y ^ 2 / 2 + z ^ 2 / 2 := by nlinarith [sq_nonneg (y - z)]
    refine h2.trans (mul_le_mul_of_nonneg_left ?_ (by linarith))
    have := mul_le_mul_of_nonneg_left h3 l0
    linarith
  refine (sum_le_sum one).trans ?_
  rw [← mul_sum, sum_add_distrib, ← mul_sum, ← mul_sum, sum_add_distrib, ← sum_div, ← sum_div]
  have s1 := hp (s.image fun ν => ν - 1)
  have s2 := hp (s.image fun ν => ν + 1)
  rw [sum_image (fun a _ b _ e => by simpa using e)] at s1 s2
  have s3 := ht s
  have a0 : (0 : ℝ) ≤ m.natAbs := Nat.cast_nonneg _
  have l0 : (0 : ℝ) ≤ L := Nat.cast_nonneg _
  calc _ ≤ ((m.natAbs : ℝ) + L) * (m.natAbs * C ^ 2 + L * (C ^ 2 / 2 + C ^ 2 / 2)) := by gcongr
    _ = _ := by ring

/-- From the Fourier array to the vector of coefficients, with either backend. -/
theorem analyse (hrd : NoOverflow rnd) (lib : Fl.NumLib rnd) (hsum : SumOK lib.sum) (b : Backend) (call : ℕ) (G : Arr2 (FC rnd)) (G' : Arr2 ℂ) (r K N M : ℕ)
    (hr : r % 2 = 0) (hj : PowOK b M lib.jp) (hN : N ≤ 1000) (hMN : M ≤ N) (hMK : 2 * M < K) (g1 : G.rows = r + 2) (g2 : G.cols = K) (g1' : G'.rows = r + 2) (g2' : G'.cols = K) {ε S δ : ℝ}
    (hS : 2 ^ (-900 : ℤ) ≤ S) (hS' : S ≤ 2 ^ (480 : ℤ)) (hsm : δ + 20 * (Real.sqrt ((r : ℝ) + 1) * ε) ≤ 12 * S)
    (he : ∀ i (m : ℤ), i < r + 2 → m.natAbs ≤ M → ‖FS.val (G.at' i (m % K).toNat) - G'.at' i (m % K).toNat‖ ≤ ε)
    (hny : ∀ j, j < K → FS.val (G.at' (r / 2 + 1) j) = 0)
    (hl2 : ∀ m : ℤ, m.natAbs ≤ M → ∑ ν ∈ Ioo (-(((r + 2 : ℕ) : ℤ) / 2)) (((r + 2 : ℕ) : ℤ) / 2), ‖fAt G' m ν‖ ^ 2 ≤ S ^ 2)
    (hconv : ∀ m : ℤ, |m| ≤ M → ConvWithin lib.conv δ G N m) :
    ∃ v, Fl.backendFcToSc rnd lib b call G N M = .ok v ∧
      FA.SegAll (N + 1) v (2 * M + 1) (fun m n z => ‖FS.val z - bval G' m n‖ ≤ FS.coefErr n (64 * S) + (2 * (n : ℝ) + 1) * FS.rowMax n * (δ + 20 * (Real.sqrt ((r : ℝ) + 1) * ε)) ∧
        ‖bval G' m n‖ ≤ (2 * (n : ℝ) + 1) * FS.rowMax n * (20 * S)) := by
  have S0 : 0 ≤ S := le_trans (by positivity) hS
  have hK0 : 0 < K := by omega
  have hmapv : ∀ i j, i < r + 2 → j < K → (G.map FS.val).at' i j = FS.val (G.at' i j) := fun i j hi hj => Arr2.at'_map _ _ (by omega) (by omega)
  have mr : (G.map FS.val).rows = r + 2 := g1
  have mc : (G.map FS.val).cols = K := g2
  have hny' : ∀ m, fAt (G.map FS.val) m ((G.map FS.val).rows / 2) = 0 := by
    intro m
    unfold fAt
    rw [mr, mc, hmapv _ _ (slot_lt' (by omega) _) (slot_lt' hK0 _)]
    convert hny _ (slot_lt' hK0 m)
    rw [Int.emod_eq_of_lt (by omega) (by omega)]
    omega
  have hd : ∀ m k, m.natAbs ≤ M → ‖hval (G.map FS.val) m k - hval G' m k‖ ≤ 20 * (Real.sqrt ((r : ℝ) + 1) * ε) := fun m k hm =>
    hval_diff_col hr mr mc g1' g2' m k fun i hi => by rw [hmapv i _ hi (slot_lt' hK0 _)]; exact he i m hi hm
  have hl : ∀ m k, m.natAbs ≤ M → ‖hval G' m k‖ ≤ 20 * S := fun m k hm => by
    unfold hval
    rw [g1']
    exact FA.kern_l2 _ (fun ν => fAt G' m ν) k S0 (hl2 m hm)
  have conv : ∀ m : ℤ, ∃ h, m.natAbs ≤ M → lib.conv G N m = .ok h ∧ FA.HOK h N (64 * S) ∧
      ∀ k : ℕ, k ≤ N → ‖FS.val (rd h k) - hval G' m k‖ ≤ δ + 20 * (Real.sqrt ((r : ℝ) + 1) * ε) := by
    intro m
    by_cases hm : m.natAbs ≤ M
    swap
    · exact ⟨[], fun h => absurd h hm⟩
    obtain ⟨h, h', e1, e2, ll, hv⟩ := hconv m (by rw [Int.abs_eq_natAbs]; omega)
    obtain ⟨h'', e3, l3, v3⟩ := FA.conv_exact (G.map FS.val) N m (by omega) (by omega) (by omega) (by omega) (hny' m)
    rw [e2] at e3
    cases e3
    have err : ∀ k : ℕ, k ≤ N → ‖FS.val (rd h k) - hval G' m k‖ ≤ δ + 20 * (Real.sqrt ((r : ℝ) + 1) * ε) := by
      intro k hk
      have a1 := (hv k (by omega)).2
      rw [v3 k hk] at a1
      have a2 := hd m k hm
      have := norm_sub_le_norm_sub_add_norm_sub (FS.val (rd h k)) (hval (G.map FS.val) m k) (hval G' m k)
      linarith
    refine ⟨h, fun _ => ⟨e1, ⟨by omega, fun i hi => (hv i (by omega)).1, fun i hi => ?_⟩, err⟩⟩
    have a1 := err i hi
    have a2 := hl m i hm
    have a3 := norm_add_le (FS.val (rd h i) - hval G' m i) (hval G' m i)
    rw [sub_add_cancel] at a3
    have a4 : ‖FS.val (rd h i)‖ ≤ 64 * S / 2 := by linarith
    exact ⟨(Complex.abs_re_le_norm _).trans a4, (Complex.abs_im_le_norm _).trans a4⟩
  choose h hh using conv
  have P1 : 2 ^ (-900 : ℤ) ≤ 64 * S := hS.trans (by linarith)
  have P2 : 64 * S ≤ 2 ^ (500 : ℤ) := by
    calc 64 * S ≤ 2 ^ (20 : ℤ) * 2 ^ (480 : ℤ) := mul_le_mul (by norm_num) hS' S0 (by positivity)
      _ = 2 ^ (500 : ℤ) := by rw [← zpow_add₀ (by norm_num)]; norm_num
  have hNC := ncFormula_eq (nmax := N) (mmax := M) (by omega) (by omega)
  rw [show ((N : ℤ) + 1).toNat = N + 1 by omega, Int.toNat_natCast] at hNC
  have full : npFull (ncFormula N M) (0 : FC rnd) = .ok (List.replicate (seg (N + 1) (2 * M + 1)) 0) := by
    unfold npFull
    rw [hNC, if_neg (by omega), Int.toNat_natCast]
  have vec : ∃ v, Fl.backendFcToSc rnd lib b call G N M = .ok v ∧
      FA.SegAll (N + 1) v (2 * M + 1) (fun m n z => ‖FS.val z - FA.tgt (h m) m n‖ ≤ FS.coefErr n (64 * S)) := by
    cases b with
    | py =>
      exact FA.fcToSc_py lib hrd (hj rfl) hsum hN hMN P1 (P2.trans (zpow_le_zpow_right₀ (by norm_num) (by norm_num))) fun m hm => ⟨(hh m hm).1, (hh m hm).2.1⟩
    | c J =>
      unfold Fl.backendFcToSc
      simp only
      rw [full]
      simp only [Except.bind_ok]
      exact FA.fcToSc_c lib hrd hN hMN P1 P2 (fun m hm => ⟨(hh m hm).1, (hh m hm).2.1⟩) _ (by simp) (J call)
  obtain ⟨v, ev, hvl, hvv⟩ := vec
  refine ⟨v, ev, hvl, fun m n h1 h2 h3 => ?_⟩
  have hm : m.natAbs ≤ M := by have := natAbs_eq_ord m; omega
  constructor
  · have b1 := hvv m n h1 h2 h3
    have b2 := FA.tgt_bval (A := G') (h := h m) (n := n) (m := m) h2 fun k hk => (hh m hm).2.2 k (by omega)
    have b3 := norm_sub_le_norm_sub_add_norm_sub (FS.val (rd v (seg (N + 1) (ord m) + (n - m.natAbs)))) (FA.tgt (h m) m n) (bval G' m n)
    exact b3.trans (add_le_add b1 b2)
  · have b2 := FA.tgt_bval (A := G') (h := ([] : List (FC rnd))) (n := n) (m := m) h2 (η := 20 * S) fun k hk => by
      have : rd ([] : List (FC rnd)) k = 0 := by simp [rd]
      rw [this, FS.val_zero, zero_sub, norm_neg]
      exact hl m k hm
    have : FA.tgt ([] : List (FC rnd)) m n = 0 := by
      unfold FA.tgt
      have : ∀ k, rd ([] : List (FC rnd)) k = 0 := fun k => by simp [rd]
      simp [this, FS.val_zero]
    rwa [this, zero_sub, norm_neg] at b2

/-- `VectorCoefs.__init__` on two vectors of the right length. -/
theorem vinitF {α : Type} [Zero α] {n m : ℕ} {v u : List α} (hmn : m ≤ n) (hv : v.length = seg (n + 1) (2 * m + 1)) (hu : u.length = seg (n + 1) (2 * m + 1)) :
    ∃ s1 s2 : ScalarCoefs α, VectorCoefs.init (.arr v) (.arr u) n m = .ok ⟨s1, s2, n, m⟩ ∧ s1.WF ∧ s2.WF ∧ s1.nmax = n ∧ s1.mmax = m ∧ s2.nmax = n ∧ s2.mmax = m ∧
      ∀ n' m' : ℤ, IsMode n m n' m' → n' ≠ 0 → s1.absMap n' m' = some (rd v (seg (n + 1) (ord m') + (n'.toNat - m'.natAbs))) ∧
        s2.absMap n' m' = some (rd u (seg (n + 1) (ord m') + (n'.toNat - m'.natAbs))) := by
  obtain ⟨ev, wv, rv⟩ := segvec_obj hmn (v := v) (f := fun m' n' => rd v (seg (n + 1) (ord m') + (n' - m'.natAbs))) ⟨hv, fun _ _ _ _ _ => rfl⟩
  obtain ⟨eu, wu, ru⟩ := segvec_obj hmn (v := u) (f := fun m' n' => rd u (seg (n + 1) (ord m') + (n' - m'.natAbs))) ⟨hu, fun _ _ _ _ _ => rfl⟩
  have lv := wv.len
  have lu := wu.len
  simp only at lv lu
  have hlen := ncFormula_eq (nmax := n) (mmax := m) (by omega) (by omega)
  rw [show ((n : ℤ) + 1).toNat = n + 1 by omega, Int.toNat_natCast] at hlen
  have hpos : 0 < seg (n + 1) (2 * m + 1) := by
    have h1 := seg_mono (n + 1) (show 0 + 1 ≤ 2 * m + 1 by omega)
    have h2 := seg_succ (n + 1) 0
    have h3 : n + 1 - (0 + 1) / 2 = n + 1 := by simp
    omega
  have wset : ∀ (l : List α), (ScalarCoefs.mk l (n : ℤ) (m : ℤ)).WF → (ScalarCoefs.mk (l.set 0 0) (n : ℤ) (m : ℤ)).WF :=
    fun l w => ⟨w.m0, w.mn, by have := w.len; simpa using this⟩
  have rset : ∀ (l : List α), (ScalarCoefs.mk l (n : ℤ) (m : ℤ)).WF → ∀ n' m' : ℤ, IsMode n m n' m' → n' ≠ 0 →
      (ScalarCoefs.mk (l.set 0 0) (n : ℤ) (m : ℤ)).absMap n' m' = (ScalarCoefs.mk l (n : ℤ) (m : ℤ)).absMap n' m' := by
    intro l w n' m' hm hn'
    have hm' := isMode_iff.mp hm
    have hs := slot_ne_zero (nmax := n) (n := n') (m := m') (by omega) (by omega) (by omega)
    rw [ScalarCoefs.absMap_mode w hm, ScalarCoefs.absMap_mode (wset l w) hm]
    simp only [Option.some.injEq]
    exact List.getElem_set_ne (Ne.symm hs) _
  refine ⟨⟨v.set 0 0, n, m⟩, ⟨u.set 0 0, n, m⟩, ?_, wset v wv, wset u wu, rfl, rfl, rfl, rfl, fun n' m' hm hn' => ⟨?_, ?_⟩⟩
  · unfold VectorCoefs.init
    simp only
    rw [if_neg (by omega), if_neg (by omega), if_neg (by omega)]
    have e1 : setIdx v 0 0 = .ok (v.set 0 0) := by
      rw [← cSet_eq_setIdx _ _ _ (by omega) (by omega)]; exact cSet_ok (i := 0) (by omega)
    have e2 : setIdx u 0 0 = .ok (u.set 0 0) := by
      rw [← cSet_eq_setIdx _ _ _ (by omega) (by omega)]; exact cSet_ok (i := 0) (by omega)
    rw [e1, e2]
    simp only [Except.bind_ok]
    have w1 := wset v wv
    have w2 := wset u wu
    rw [ScalarCoefs.init_wf w1.m0 w1.mn w1.len.symm, ScalarCoefs.init_wf w2.m0 w2.mn w2.len.symm]
    rfl
  · rw [rset v wv n' m' hm hn', rv n' m' hm]
  · rw [rset u wu n' m' hm hn', ru n' m' hm]

/-- The arithmetic of the weighted coefficient. -/
theorem vfinal (hrd : NoOverflow rnd) {n : ℕ} (h1n : 1 ≤ n) (hn : n ≤ 1000) {S τ : ℝ} (hS : 2 ^ (-900 : ℤ) ≤ S) (hS' : S ≤ 2 ^ (480 : ℤ)) (hτ : τ ≤ 12 * S) {z : FC rnd} {b : ℂ}
    (hz : ‖FS.val z - b‖ ≤ FS.coefErr n (64 * S) + (2 * (n : ℝ) + 1) * FS.rowMax n * τ) (hb : ‖b‖ ≤ (2 * (n : ℝ) + 1) * FS.rowMax n * (20 * S)) :
    ‖FS.val (z * (⟨wF rnd n, 0⟩ : FC rnd)) - wdeg n * b‖ ≤ 1 / Real.sqrt ((n : ℝ) * ((n : ℝ) + 1)) * (FS.rowMax n *
      (((n : ℝ) + 1) * ((n : ℝ) + 4) ^ 3 * 2 ^ (-42 : ℤ) * S + (2 * n + 1) * τ)) := by
  have n1 : (1 : ℝ) ≤ n := by exact_mod_cast h1n
  have n2 : (n : ℝ) ≤ 1000 := by exact_mod_cast hn
  have S0 : 0 < S := lt_of_lt_of_le (by positivity) hS
  have u0 := uu_pos
  have u1 := FA.uu_le
  obtain ⟨ρ, hρ⟩ : ∃ ρ, ρ = FS.rowMax n := ⟨_, rfl⟩
  have ρ1 : 1 / 4 ≤ ρ := hρ ▸ FS.rowMax_ge n
  have ρ2 : ρ ≤ 1000 := by
    rw [hρ]
    unfold FS.rowMax
    rw [Real.sqrt_le_left (by norm_num), div_le_iff₀ (by positivity)]
    nlinarith [Real.pi_gt_three]
  obtain ⟨C, hC⟩ : ∃ C, C = 64 * ((n : ℝ) + 1) * ρ * S := ⟨_, rfl⟩
  have k1 : (16 : ℝ) ≤ 64 * ((n : ℝ) + 1) * ρ := by nlinarith
  have C1 : S ≤ C := by rw [hC]; nlinarith
  have C2 : C ≤ 2 ^ (900 : ℤ) := by
    rw [hC]
    calc 64 * ((n : ℝ) + 1) * ρ * S ≤ 2 ^ (40 : ℤ) * 2 ^ (480 : ℤ) := by
          refine mul_le_mul ?_ hS' S0.le (by positivity)
          calc 64 * ((n : ℝ) + 1) * ρ ≤ 64 * (1000 + 1) * 1000 := by gcongr
            _ ≤ 2 ^ (40 : ℤ) := by norm_num
      _ = 2 ^ (520 : ℤ) := by rw [← zpow_add₀ (by norm_num)]; norm_num
      _ ≤ _ := zpow_le_zpow_right₀ (by norm_num) (by norm_num)
  have eq49 : (2 : ℝ) ^ (-49 : ℤ) = 16 * uu := by unfold uu; norm_num
  have eq42 : (2 : ℝ) ^ (-42 : ℤ) = 2048 * uu := by unfold uu; norm_num
  have hz' : ‖FS.val z - b‖ ≤ ((n : ℝ) + 1) * ((n : ℝ) + 4) ^ 3 * (1024 * uu) * S * ρ + (2 * (n : ℝ) + 1) * ρ * τ := by
    refine hz.trans (le_of_eq ?_)
    unfold FS.coefErr
    rw [eq49, hρ]; ring
  rw [← hρ] at hb
  have Cn : ‖FS.val z‖ ≤ C := by
    have := norm_add_le (FS.val z - b) b
    rw [sub_add_cancel] at this
    refine this.trans ((add_le_add hz' hb).trans ?_)
    have x1 : ((n : ℝ) + 4) ^ 3 * (1024 * uu) ≤ 1 / 500 := by
      have : ((n : ℝ) + 4) ^ 3 ≤ 1004 ^ 3 := pow_le_pow_left₀ (by linarith) (by linarith) 3
      have hu : uu ≤ 1 / 10 ^ 15 := by unfold uu; norm_num
      calc ((n : ℝ) + 4) ^ 3 * (1024 * uu) ≤ 1004 ^ 3 * (1024 * (1 / 10 ^ 15)) := by gcongr
        _ ≤ 1 / 500 := by norm_num
    have Sρ : 0 < S * ρ := by positivity
    have x2 : ((n : ℝ) + 1) * ((n : ℝ) + 4) ^ 3 * (1024 * uu) * S * ρ ≤ ((n : ℝ) + 1) * (1 / 500) * (S * ρ) := by
      calc _ = ((n : ℝ) + 1) * (((n : ℝ) + 4) ^ 3 * (1024 * uu)) * (S * ρ) := by ring
        _ ≤ _ := by gcongr
    have x3 : (2 * (n : ℝ) + 1) * ρ * τ ≤ (2 * (n : ℝ) + 1) * ρ * (12 * S) := mul_le_mul_of_nonneg_left hτ (by positivity)
    rw [hC]
    have x4 : ((n : ℝ) + 1) * (1 / 500) * (S * ρ) ≤ 32 * (S * ρ) := by
      refine mul_le_mul_of_nonneg_right ?_ Sρ.le
      linarith
    nlinarith
  obtain ⟨-, -, w⟩ := weight_err hrd hn (hS.trans C1) C2 ((Complex.abs_re_le_norm (FS.val z)).trans Cn) ((Complex.abs_im_le_norm (FS.val z)).trans Cn)
  clear hS hS' C2
  have hw : wdeg n = ((1 / Real.sqrt ((n : ℝ) * ((n : ℝ) + 1)) : ℝ) : ℂ) := by unfold wdeg; rw [if_neg (by omega)]
  obtain ⟨ω, hω⟩ : ∃ ω, ω = 1 / Real.sqrt ((n : ℝ) * ((n : ℝ) + 1)) := ⟨_, rfl⟩
  have ω0 : 0 ≤ ω := by rw [hω]; positivity
  have ω1 : 1 ≤ ω * ((n : ℝ) + 4) ^ 3 := by
    rw [hω, one_div_mul_eq_div, le_div_iff₀ (by positivity), one_mul, Real.sqrt_le_left (by positivity)]
    have : ((n : ℝ) + 4) ^ 2 ≤ (((n : ℝ) + 4) ^ 3) ^ 2 := pow_le_pow_left₀ (by linarith) (le_self_pow₀ (by linarith) (by norm_num)) 2
    nlinarith
  rw [hw, ← hω] at w ⊢
  rw [← hρ, eq42]
  have e1 : ‖((ω : ℝ) : ℂ) * FS.val z - (ω : ℂ) * b‖ ≤ ω * (((n : ℝ) + 1) * ((n : ℝ) + 4) ^ 3 * (1024 * uu) * S * ρ + (2 * (n : ℝ) + 1) * ρ * τ) := by
    rw [← mul_sub, norm_mul, Complex.norm_real, Real.norm_of_nonneg ω0]
    exact mul_le_mul_of_nonneg_left hz' ω0
  have e2 := norm_sub_le_norm_sub_add_norm_sub (FS.val (z * (⟨wF rnd n, 0⟩ : FC rnd))) ((ω : ℂ) * FS.val z) ((ω : ℂ) * b)
  refine e2.trans ((add_le_add w e1).trans ?_)
  have e3 : 12 * uu * C ≤ ω * ((n : ℝ) + 4) ^ 3 * (((n : ℝ) + 1) * (1024 * uu) * S * ρ) := by
    have : 12 * uu * C ≤ 1 * (((n : ℝ) + 1) * (1024 * uu) * S * ρ) := by
      rw [hC]
      have : 0 ≤ uu * (((n : ℝ) + 1) * ρ * S) := by positivity
      nlinarith
    exact this.trans (mul_le_mul_of_nonneg_right ω1 (by positivity))
  nlinarith

end FV
end Verif.Props
