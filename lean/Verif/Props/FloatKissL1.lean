import Verif.Props.FloatKiss7
/-!
# kiss_fft in doubles: error relative to the sum of the moduli of the inputs
-/
namespace Verif.Props
open Verif Finset

variable {rnd : ℝ → ℝ}

namespace FK

/-- The accumulated cost of the stages `p1,m1,p2,m2,...` relative to the sum of the moduli of the inputs: `p (165 + 5 p)` units for radix `p`. -/
noncomputable def stageL1 : List Int → ℝ
  | p :: _ :: rest => p * (165 + 5 * (p : ℝ)) + stageL1 rest
  | _ => 0

theorem stageL1_nonneg : ∀ (n : ℕ) (l : List Int), Stages n l → 0 ≤ stageL1 l
  | n, p :: m :: rest, h => by
    obtain ⟨p', m', rfl, rfl, h1, h2, h3⟩ := h
    unfold stageL1
    have : (0 : ℝ) ≤ ((p' : ℤ) : ℝ) := by exact_mod_cast Nat.zero_le p'
    have h0 : 0 ≤ stageL1 rest := by
      rcases h3 with ⟨-, rfl⟩ | ⟨-, h⟩
      · unfold stageL1; exact le_refl _
      · exact stageL1_nonneg m' rest h
    positivity
  | _, [], h => h.elim
  | _, [_], h => h.elim

theorem sum_tw_w {n : ℕ} {f w : ℕ → ℂ} {x : ℕ → ℝ} (hf : ∀ j, j < n → ‖f j‖ ≤ x j) (hw : ∀ j, ‖w j‖ ≤ 1) : ‖∑ j ∈ range n, f j * w j‖ ≤ ∑ j ∈ range n, x j := by
  refine (norm_sum_le _ _).trans (sum_le_sum fun j hj => ?_)
  rw [norm_mul]
  have h1 := hf j (mem_range.mp hj)
  calc ‖f j‖ * ‖w j‖ ≤ x j * 1 := mul_le_mul h1 (hw j) (norm_nonneg _) ((norm_nonneg _).trans h1)
    _ = x j := mul_one _

theorem sum_split_real {p m : ℕ} (f : ℕ → ℝ) : ∑ j ∈ range (p * m), f j = ∑ q ∈ range p, ∑ j ∈ range m, f (q + p * j) := by
  have h : (∑ j ∈ range (p * m), (f j : ℂ)) = ∑ q ∈ range p, ∑ j ∈ range m, (f (q + p * j) : ℂ) := sum_split _ _ _
  exact_mod_cast h

theorem scale_l1 {T : ℝ} {n p : ℕ} (hT1 : 2 ^ (-900 : ℤ) ≤ T) (hT2 : T ≤ n * 2 ^ (900 : ℤ)) (hp : 1 ≤ p) (hp' : p ≤ 2 ^ 31) (hn : n ≤ 2 ^ 31) :
    Scale (101 / 100 * T) ((p : ℝ) + 9) := by
  have T0 : 0 < T := lt_of_lt_of_le (by positivity) hT1
  have t := FA.tiny_Q (R := 101 / 100) hT1 (by norm_num)
  rw [mul_comm T] at t
  refine ⟨by positivity, t, ?_⟩
  have hp1 : (p : ℝ) ≤ 2 ^ 31 := by exact_mod_cast hp'
  have h2 : ((p : ℝ) + 9) * (101 / 100) ≤ 2 ^ (33 : ℤ) := by
    have : (2 : ℝ) ^ (33 : ℤ) = 4 * 2 ^ 31 := by norm_num
    rw [this]
    linarith
  have h3 : T ≤ 2 ^ (931 : ℤ) := by
    refine hT2.trans ?_
    have : (n : ℝ) ≤ 2 ^ (31 : ℤ) := by exact_mod_cast hn
    calc (n : ℝ) * 2 ^ (900 : ℤ) ≤ 2 ^ (31 : ℤ) * 2 ^ (900 : ℤ) := mul_le_mul_of_nonneg_right this (by positivity)
      _ = 2 ^ (931 : ℤ) := by rw [← zpow_add₀ (by norm_num)]; norm_num
  calc ((p : ℝ) + 9) * (101 / 100 * T) = ((p : ℝ) + 9) * (101 / 100) * T := by ring
    _ ≤ 2 ^ (33 : ℤ) * 2 ^ (931 : ℤ) := mul_le_mul h2 h3 T0.le (by positivity)
    _ = 2 ^ (964 : ℤ) := by rw [← zpow_add₀ (by norm_num)]; norm_num
    _ ≤ 2 ^ (1000 : ℤ) := zpow_le_zpow_right₀ (by norm_num) (by norm_num)

variable {cfg : Fl.KissCfg rnd} {N : ℕ}

theorem work_l1 (hr : IsRounding rnd) (h : Tw cfg N) (hNpos : 0 < N) (hN31 : N ≤ 2 ^ 31) (fin : List (FC rnd)) (w : ℕ → ℝ) (hX : ∀ i, 2 ^ (-900 : ℤ) ≤ w i) (hX' : ∀ i, w i ≤ 2 ^ (900 : ℤ))
    (hfin : ∀ i, ‖FS.val (rd fin i)‖ ≤ w i) : ∀ (fac : List Int) (n : ℕ), Stages n fac → stageL1 fac * uu ≤ 1 / 100 →
    ∀ (F : List (FC rnd)) (fo fi fs : ℕ), fs * n = N → fo + n ≤ F.length → fi + fs * (n - 1) < fin.length →
    ∃ F', Fl.kfWork rnd cfg fin fac F fo fi fs = .ok F' ∧ Work cfg.inverse N fin n fo fi fs ((∑ j ∈ range n, w (fi + fs * j)) * (stageL1 fac * uu)) F F'
  | p :: m :: rest, n, hs, hc, F, fo, fi, fs, hfs, hfo, hfi => by
    obtain ⟨p, m, rfl, rfl, hp, hpm, hcase⟩ := hs
    have w0 : ∀ i, 0 < w i := fun i => lt_of_lt_of_le (by positivity) (hX i)
    have u0 := uu_pos
    have hm : 1 ≤ m := by rcases hcase with ⟨h1, _⟩ | ⟨h1, _⟩ <;> omega
    have hpr : (1 : ℝ) ≤ p := by exact_mod_cast hp
    have hnN : n ≤ N := by
      rw [← hfs]
      refine Nat.le_mul_of_pos_left _ ?_
      rcases Nat.eq_zero_or_pos fs with h0 | h0
      · rw [h0, zero_mul] at hfs; omega
      · exact h0
    have hcr0 : 0 ≤ stageL1 rest := by
      rcases hcase with ⟨-, rfl⟩ | ⟨-, hst⟩
      · unfold stageL1; exact le_refl _
      · exact stageL1_nonneg m rest hst
    have hcs : stageL1 ((p : Int) :: (m : Int) :: rest) = p * (165 + 5 * (p : ℝ)) + stageL1 rest := by
      rw [stageL1]; push_cast; ring
    have hcr : stageL1 rest * uu ≤ 1 / 100 := by
      rw [hcs, add_mul] at hc
      have : 0 ≤ (p : ℝ) * (165 + 5 * (p : ℝ)) * uu := by positivity
      linarith
    unfold Fl.kfWork
    rw [if_neg (by omega)]
    have hn1 : ∀ q j : ℕ, q < p → j < m → q + p * j ≤ n - 1 := by
      intro q j hq hj
      have : q + p * j + 1 ≤ p * m := by
        calc q + p * j + 1 ≤ p + p * j := by omega
          _ = p * (j + 1) := by ring
          _ ≤ p * m := Nat.mul_le_mul_left _ hj
      omega
    have hqm : ∀ q, q < p → q * m + m ≤ n := by
      intro q hq
      calc q * m + m = (q + 1) * m := by ring
        _ ≤ p * m := Nat.mul_le_mul_right _ hq
        _ = n := hpm
    have hsub : ∃ G, (if (m : Int) = 1 then
        forM' (pyRange 0 p) F (fun F j => (cGet fin (fi + fs * j)).bind fun x => cSet F (fo + j) x)
      else
        forM' (pyRange 0 p) F (fun F j => Fl.kfWork rnd cfg fin rest F (fo + j * m) (fi + fs * j) (fs * p))) = .ok G ∧
      G.length = F.length ∧
      (∀ q u, q < p → u < m → ‖FS.val (rd G (fo + q * m + u)) -
        ∑ j ∈ range m, FS.val (rd fin (fi + fs * (q + p * j))) * twd cfg.inverse N ((fs * p * (j * u) : ℕ) : ℤ)‖ ≤ (∑ j ∈ range m, w (fi + fs * (q + p * j))) * (stageL1 rest * uu)) ∧
      ∀ i, i < fo ∨ fo + n ≤ i → rd G i = rd F i := by
      rcases hcase with ⟨rfl, -⟩ | ⟨hm1, hst⟩
      · rw [if_pos (by simp)]
        obtain ⟨G, e, hi⟩ := forM'_range_inv (a := 0) (b := (p : Int)) (by omega) F
          (fun F j => (cGet fin ((fi : Int) + fs * j)).bind fun x => cSet F ((fo : Int) + j) x)
          (fun k G => G.length = F.length ∧ (∀ q : ℕ, (q : Int) < k → rd G (fo + q) = rd fin (fi + fs * q)) ∧
            ∀ i, i < fo ∨ fo + n ≤ i → rd G i = rd F i)
          ⟨rfl, fun q hq => by omega, fun i _ => rfl⟩
          (by
            intro k G h1 h2 ⟨gl, gv, go⟩
            obtain ⟨q, rfl⟩ := Int.eq_ofNat_of_zero_le h1
            have hb : fs * q ≤ fs * (n - 1) := Nat.mul_le_mul_left _ (by have := hn1 q 0 (by omega) (by omega); omega)
            have hq := hqm q (by omega)
            rw [g_get (j := fi + fs * q) (by omega) (by push_cast; ring)]
            simp only [Except.bind_ok]
            rw [g_set (j := fo + q) (by omega) (by push_cast; ring)]
            refine ⟨_, rfl, by simpa using gl, fun q' hq' => ?_, fun i hi => ?_⟩
            · rw [rd_set' _ _ _ _ (by omega)]
              by_cases hc : q' = q
              · subst hc; rw [if_pos rfl]
              · rw [if_neg (by omega), gv q' (by omega)]
            · rw [rd_set' _ _ _ _ (by omega), if_neg (by omega), go i hi])
        refine ⟨G, e, hi.1, fun q u hq hu => ?_, hi.2.2⟩
        have : u = 0 := by omega
        subst this
        rw [sum_range_one, mul_one, add_zero, hi.2.1 q (by omega)]
        simp only [mul_zero, add_zero, Nat.cast_zero, twd_zero, mul_one, sub_self, norm_zero]
        refine mul_nonneg (sum_nonneg fun _ _ => (w0 _).le) (mul_nonneg hcr0 u0.le)
      · rw [if_neg (by omega)]
        obtain ⟨G, e, hi⟩ := forM'_range_inv (a := 0) (b := (p : Int)) (by omega) F
          (fun F j => Fl.kfWork rnd cfg fin rest F ((fo : Int) + j * m) ((fi : Int) + fs * j) ((fs : Int) * p))
          (fun k G => G.length = F.length ∧ (∀ q u : ℕ, (q : Int) < k → u < m → ‖FS.val (rd G (fo + q * m + u)) -
              ∑ j ∈ range m, FS.val (rd fin (fi + fs * (q + p * j))) * twd cfg.inverse N ((fs * p * (j * u) : ℕ) : ℤ)‖ ≤ (∑ j ∈ range m, w (fi + fs * (q + p * j))) * (stageL1 rest * uu)) ∧
            ∀ i, i < fo ∨ fo + n ≤ i → rd G i = rd F i)
          ⟨rfl, fun q u hq => by omega, fun i _ => rfl⟩
          (by
            intro k G h1 h2 ⟨gl, gv, go⟩
            obtain ⟨q, rfl⟩ := Int.eq_ofNat_of_zero_le h1
            have hq := hqm q (by omega)
            have hb : fs * (q + p * (m - 1)) ≤ fs * (n - 1) := Nat.mul_le_mul_left _ (hn1 q (m - 1) (by omega) (by omega))
            obtain ⟨G', e', ok⟩ := work_l1 hr h hNpos hN31 fin w hX hX' hfin rest m hst hcr G (fo + q * m) (fi + fs * q) (fs * p)
              (by rw [← hfs, ← hpm]; ring) (by omega) (by
                have : fs * q + fs * p * (m - 1) = fs * (q + p * (m - 1)) := by ring
                omega)
            push_cast at e'
            refine ⟨G', e', by rw [ok.len, gl], fun q' u hq' hu => ?_, fun i hi => ?_⟩
            · by_cases hc : q' = q
              · subst hc
                have := ok.val u hu
                have hww : ∑ j ∈ range m, w (fi + fs * q' + fs * p * j) = ∑ j ∈ range m, w (fi + fs * (q' + p * j)) :=
                  sum_congr rfl fun j _ => by congr 1; ring
                rw [hww] at this
                refine (le_of_eq ?_).trans this
                congr 2
                refine sum_congr rfl fun j _ => ?_
                congr 3
                ring
              · have hlt : q' < q := by omega
                rw [ok.other _ (by
                  left
                  have : q' * m + m ≤ q * m := by
                    calc q' * m + m = (q' + 1) * m := by ring
                      _ ≤ q * m := Nat.mul_le_mul_right _ hlt
                  omega)]
                exact gv q' u (by omega) hu
            · rw [ok.other i (by omega), go i hi])
        exact ⟨G, e, hi.1, fun q u hq hu => hi.2.1 q u (by omega) hu, hi.2.2⟩
    obtain ⟨G, eG, gl, gv, go⟩ := hsub
    rw [eG]
    simp only [Except.bind_ok]
    obtain ⟨T, hT⟩ : ∃ T, T = ∑ j ∈ range n, w (fi + fs * j) := ⟨_, rfl⟩
    have hTs : T = ∑ q ∈ range p, ∑ j ∈ range m, w (fi + fs * (q + p * j)) := by
      rw [hT, ← hpm, sum_split_real (fun j => w (fi + fs * j))]
    have hqT : ∀ q, q < p → ∑ j ∈ range m, w (fi + fs * (q + p * j)) ≤ T := by
      intro q hq
      rw [hTs]
      exact single_le_sum (f := fun q => ∑ j ∈ range m, w (fi + fs * (q + p * j))) (fun _ _ => sum_nonneg fun _ _ => (w0 _).le) (mem_range.mpr hq)
    have hn0 : 1 ≤ n := by rw [← hpm]; exact Nat.mul_pos (by omega) (by omega)
    have hT1 : 2 ^ (-900 : ℤ) ≤ T := by
      rw [hT]
      exact (hX (fi + fs * 0)).trans (single_le_sum (f := fun j => w (fi + fs * j)) (fun _ _ => (w0 _).le) (mem_range.mpr hn0))
    have hT2 : T ≤ n * 2 ^ (900 : ℤ) := by
      rw [hT]
      refine (sum_le_sum fun j _ => hX' (fi + fs * j)).trans (le_of_eq ?_)
      rw [sum_const, card_range, nsmul_eq_mul]
    have T0 : 0 < T := lt_of_lt_of_le (by positivity) hT1
    have hGB : ∀ i, fo ≤ i → i < fo + p * m → ‖FS.val (rd G i)‖ ≤ 101 / 100 * T := by
      intro i h1 h2
      obtain ⟨q, u, hq, hu, rfl⟩ : ∃ q u, q < p ∧ u < m ∧ i = fo + q * m + u := by
        refine ⟨(i - fo) / m, (i - fo) % m, ?_, Nat.mod_lt _ (by omega), ?_⟩
        · rw [Nat.div_lt_iff_lt_mul (by omega)]; omega
        · have := Nat.div_add_mod (i - fo) m
          rw [mul_comm] at this
          omega
      have e1 := gv q u hq hu
      have e2 : ‖∑ j ∈ range m, FS.val (rd fin (fi + fs * (q + p * j))) * twd cfg.inverse N ((fs * p * (j * u) : ℕ) : ℤ)‖ ≤ T :=
        (sum_tw_w (fun j _ => hfin _) (fun j => twd_norm _ _ _)).trans (hqT q hq)
      have e3 := norm_add_le (FS.val (rd G (fo + q * m + u)) - ∑ j ∈ range m, FS.val (rd fin (fi + fs * (q + p * j))) * twd cfg.inverse N ((fs * p * (j * u) : ℕ) : ℤ))
        (∑ j ∈ range m, FS.val (rd fin (fi + fs * (q + p * j))) * twd cfg.inverse N ((fs * p * (j * u) : ℕ) : ℤ))
      rw [sub_add_cancel] at e3
      have e4 : (∑ j ∈ range m, w (fi + fs * (q + p * j))) * (stageL1 rest * uu) ≤ T * (1 / 100) := mul_le_mul (hqT q hq) hcr (mul_nonneg hcr0 u0.le) T0.le
      linarith
    have hsc : Scale (101 / 100 * T) ((p : ℝ) + 9) := scale_l1 hT1 hT2 hp (Nat.le_trans (by rw [← hpm]; exact Nat.le_mul_of_pos_right _ (by omega)) (hnN.trans hN31)) (hnN.trans hN31)
    have hp31 : p ≤ 2 ^ 31 := by
      have : p ≤ n := by rw [← hpm]; exact Nat.le_mul_of_pos_right _ (by omega)
      omega
    obtain ⟨F', e', fl, fv, fother⟩ := kfBfly_err hr h p fo fs m F.length hsc hp hp31 (by rw [hpm]; exact hfs) hNpos
      (by rw [hpm]; exact hfo) G gl hGB
    refine ⟨F', e', fl, fun k hk => ?_, fun i hi => ?_⟩
    · obtain ⟨r, u, hrr, hu, rfl⟩ : ∃ r u, r < p ∧ u < m ∧ k = r * m + u := by
        refine ⟨k / m, k % m, ?_, Nat.mod_lt _ (by omega), ?_⟩
        · rw [Nat.div_lt_iff_lt_mul (by omega), hpm]; exact hk
        · rw [mul_comm]; exact (Nat.div_add_mod k m).symm
      have f1 := fv u hu r hrr
      have hD : ∑ j ∈ range n, FS.val (rd fin (fi + fs * j)) * twd cfg.inverse N ((fs * (j * (r * m + u)) : ℕ) : ℤ) =
          ∑ q ∈ range p, (∑ j ∈ range m, FS.val (rd fin (fi + fs * (q + p * j))) * twd cfg.inverse N ((fs * p * (j * u) : ℕ) : ℤ)) *
            twd cfg.inverse N ((fs * (q * (u + r * m)) : ℕ) : ℤ) := by
        rw [← hpm, sum_split]
        refine sum_congr rfl fun q hq => ?_
        rw [sum_mul]
        refine sum_congr rfl fun j _ => ?_
        rw [mul_assoc, ← twd_add]
        congr 1
        symm
        rw [← twd_period cfg.inverse N _ (j * r : ℕ)]
        congr 1
        rw [← hfs, ← hpm]
        push_cast
        ring
      rw [hD, ← add_assoc]
      have f2 : ‖∑ q ∈ range p, (FS.val (rd G (fo + q * m + u)) -
          ∑ j ∈ range m, FS.val (rd fin (fi + fs * (q + p * j))) * twd cfg.inverse N ((fs * p * (j * u) : ℕ) : ℤ)) *
            twd cfg.inverse N ((fs * (q * (u + r * m)) : ℕ) : ℤ)‖ ≤ T * (stageL1 rest * uu) := by
        rw [hTs, sum_mul]
        exact sum_tw_w (w := fun q => twd cfg.inverse N ((fs * (q * (u + r * m)) : ℕ) : ℤ)) (fun q hq => gv q u hq hu) (fun q => twd_norm _ _ _)
      have f3 := norm_add_le _ _ |>.trans (add_le_add f1 f2)
      refine le_trans (le_of_eq ?_) (f3.trans ?_)
      · congr 1
        simp only [sub_mul, sum_sub_distrib]
        ring
      · rw [hcs, ← hT]
        unfold cost
        have q1 : 0 ≤ (p : ℝ) * T * uu := by positivity
        have q2 : 0 ≤ (p : ℝ) * p * T * uu := by positivity
        nlinarith
    · rw [fother i (by rw [hpm]; exact hi), go i hi]
  | [], _, hs, _, _, _, _, _, _, _, _ => hs.elim
  | [_], _, hs, _, _, _, _, _, _, _, _ => hs.elim

/-- `kiss_fft` in doubles. -/
theorem fft_l1 (hr : IsRounding rnd) (h : Tw cfg N) (hNpos : 0 < N) (hN31 : N ≤ 2 ^ 31) (hs : Stages N cfg.factors) (hc : stageL1 cfg.factors * uu ≤ 1 / 100)
    (buf : List (FC rnd)) (hb : buf.length = N) (w : ℕ → ℝ) (hX : ∀ i, 2 ^ (-900 : ℤ) ≤ w i) (hX' : ∀ i, w i ≤ 2 ^ (900 : ℤ)) (hbuf : ∀ i, i < N → ‖FS.val (rd buf i)‖ ≤ w i)
    (junk : ℕ → FC rnd) :
    ∃ out, Fl.kissFft rnd cfg buf junk = .ok out ∧ out.length = N ∧ ∀ k, k < N →
      ‖FS.val (rd out k) - ∑ j ∈ range N, FS.val (rd buf j) * twd cfg.inverse N ((j * k : ℕ) : ℤ)‖ ≤ (∑ j ∈ range N, w j) * (stageL1 cfg.factors * uu) := by
  unfold Fl.kissFft cMalloc
  rw [h.nfft, if_neg (by omega)]
  simp only [Except.bind_ok, Int.toNat_natCast]
  have hall : ∀ i, ‖FS.val (rd buf i)‖ ≤ w i := by
    intro i
    by_cases hi : i < N
    · exact hbuf i hi
    · have : rd buf i = 0 := by
        unfold rd
        rw [List.getD_eq_getElem?_getD, List.getElem?_eq_none (by omega)]; rfl
      rw [this, FS.val_zero, norm_zero]; exact le_trans (by positivity) (hX i)
  obtain ⟨F', e, ok⟩ := work_l1 hr h hNpos hN31 buf w hX hX' hall cfg.factors N hs hc (tab N junk) 0 0 1 (by omega) (by simp) (by omega)
  have e' : Fl.kfWork rnd cfg buf cfg.factors (tab N junk) 0 0 1 = .ok F' := by exact_mod_cast e
  rw [e']
  simp only [Except.bind_ok]
  rw [if_pos (by omega), hb]
  refine ⟨_, rfl, by simp, fun k hk => ?_⟩
  rw [rd_tab hk, if_pos (by omega)]
  have := ok.val k hk
  simpa using this

theorem loop_l1 (n : ℕ) (hn : 2 ≤ n) (fs : ℕ) (hfs : n < (fs + 1) ^ 2) (p : ℕ) (h : Tried n p) (h5 : ∀ t : ℕ, t.Prime → t ∣ n → t ≤ 5) (buf fac : List Int)
    (hb : buf.length + 2 * Nat.log 2 n ≤ 64) (e : kfFactorLoop n fs p buf = some (.ok (buf ++ fac))) : stageL1 fac ≤ 5 * stageCost fac := by
  induction n using Nat.strong_induction_on generalizing p buf fac with
  | _ n ih =>
    obtain ⟨q, hq, ⟨k, hk⟩, hqp, hnext⟩ := kfNext_prime n hn fs hfs p h
    have hq2 : 2 ≤ q := by
      rcases hqp with h | h
      · omega
      · exact h.two_le
    have hq5 : (q : ℝ) ≤ 5 := by
      have : q ≤ 5 := by
        rcases hqp with h | h
        · omega
        · exact h5 q h ⟨k, hk⟩
      exact_mod_cast this
    have hqc : (q : ℝ) * (165 + 5 * q) ≤ 5 * (165 + 5 * q) := mul_le_mul_of_nonneg_right hq5 (by positivity)
    have hkp : 1 ≤ k := by
      rcases Nat.eq_zero_or_pos k with h | h
      · subst h; omega
      · exact h
    rw [kfFactorLoop, hq] at e
    have hdiv : (n : Int).tdiv q = (k : Int) := by
      rw [hk]; push_cast
      rw [Int.mul_tdiv_cancel_left _ (by omega)]
    simp only [hdiv] at e
    split_ifs at e with c1 c2
    · simp [cUB] at e
    · have hk1 : k ≠ 1 := by omega
      have hlt : k < n := by rw [hk]; nlinarith
      have hT : Tried k q := by
        rcases hnext with rfl | h
        · have : q * k = q * 1 := by omega
          exact absurd (Nat.eq_of_mul_eq_mul_left (by omega) this) hk1
        · rcases h with h | h | ⟨h1, h2, h3⟩
          · exact .inl h
          · exact .inr (.inl h)
          · exact .inr (.inr ⟨h1, h2, fun t ht htk => h3 t ht (htk.trans ⟨q, by rw [hk]; ring⟩)⟩)
      have hbk : (buf ++ [(q : Int), (k : Int)]).length + 2 * Nat.log 2 k ≤ 64 := by
        have hlog2 : Nat.log 2 k + 1 ≤ Nat.log 2 n := by
          rw [← Nat.log_mul_base (by omega) (by omega)]
          exact Nat.log_mono_right (by rw [hk]; nlinarith)
        simp; omega
      have hpre : ∃ fac', fac = (q : Int) :: (k : Int) :: fac' := by
        have hcons : ∃ r, buf ++ fac = (buf ++ [(q : Int), (k : Int)]) ++ r := by
          obtain ⟨r, er, -, -⟩ := kfFactorLoop_spec k (by omega) fs q hq2 (buf ++ [(q : Int), (k : Int)]) hbk
          rw [er] at e
          exact ⟨r, by simpa using e.symm⟩
        obtain ⟨r, er⟩ := hcons
        rw [List.append_assoc] at er
        exact ⟨r, List.append_cancel_left er⟩
      obtain ⟨fac', rfl⟩ := hpre
      have := ih k hlt (by omega) (by nlinarith) q hT (fun t ht htk => h5 t ht (htk.trans ⟨q, by rw [hk]; ring⟩)) (buf ++ [(q : Int), (k : Int)]) fac' hbk (by rw [e]; simp)
      rw [stageCost, stageL1]
      push_cast
      linarith
    · have hk1 : k = 1 := by omega
      subst hk1
      have : fac = [(q : Int), ((1 : ℕ) : Int)] := by simpa using e.symm
      subst this
      have e0 : stageCost ([] : List Int) = 0 := by unfold stageCost; rfl
      have e1 : stageL1 ([] : List Int) = 0 := by unfold stageL1; rfl
      rw [stageCost, stageL1, e0, e1]
      push_cast
      linarith


theorem alloc_l1 (hr : IsRounding rnd) {lm : Fl.LibM} (hl : LibMWithin lm) (n : ℕ) (inv : Bool) (hn : 2 ≤ n) (hn2 : n < 2 ^ 32) (h5 : ∀ t : ℕ, t.Prime → t ∣ n → t ≤ 5) :
    ∃ cfg, Fl.kissAlloc rnd lm n inv = .ok cfg ∧ cfg.inverse = inv ∧ Tw cfg n ∧ Stages n cfg.factors ∧ stageL1 cfg.factors ≤ 950 * Nat.log 2 n := by
  obtain ⟨cfg, e, h1, h2, h3, h4⟩ := alloc_err hr hl n inv hn hn2
  refine ⟨cfg, e, h1, h2, h3, ?_⟩
  have hf : kfFactor n = some (.ok cfg.factors) := by
    unfold Fl.kissAlloc at e
    rw [if_neg (by omega)] at e
    obtain ⟨fac, ef, -, -⟩ := kfFactor_cost n hn hn2
    rw [ef] at e ⊢
    cases e
    rfl
  have hlog : Nat.log 2 n < 32 := Nat.log_lt_of_lt_pow (by omega) hn2
  unfold kfFactor at hf
  rw [Int.toNat_natCast] at hf
  have := loop_l1 n hn (Nat.sqrt n) (by rw [sq]; exact Nat.lt_succ_sqrt n) 4 (.inl rfl) h5 [] cfg.factors (by simp; omega) hf
  have := units_smooth (by omega : 1 ≤ n) h5
  linarith

theorem l1_uu {n : ℕ} (hn2 : n < 2 ^ 32) : 950 * (Nat.log 2 n : ℝ) * uu ≤ 1 / 100 := by
  have hlog : (Nat.log 2 n : ℝ) ≤ 32 := by
    rcases Nat.eq_zero_or_pos n with rfl | h
    · simp
    · exact_mod_cast (Nat.log_lt_of_lt_pow (by omega) hn2).le
  have u1 := uu_le16
  have u0 := uu_pos
  calc 950 * (Nat.log 2 n : ℝ) * uu ≤ 950 * 32 * (12 / 10 ^ 17) := mul_le_mul (by linarith) u1 u0.le (by norm_num)
    _ ≤ 1 / 100 := by norm_num

/-- kiss_fft on a length without a prime factor above 5, weights `w` bounding the inputs. -/
theorem fft_all_l1 (hr : IsRounding rnd) {lm : Fl.LibM} (hl : LibMWithin lm) (n : ℕ) (inv : Bool) (hn : 2 ≤ n) (hn2 : n ≤ 2 ^ 31) (h5 : ∀ t : ℕ, t.Prime → t ∣ n → t ≤ 5) :
    ∃ cfg, Fl.kissAlloc rnd lm n inv = .ok cfg ∧ ∀ (buf : List (FC rnd)), buf.length = n → ∀ w : ℕ → ℝ, (∀ i, 2 ^ (-900 : ℤ) ≤ w i) → (∀ i, w i ≤ 2 ^ (900 : ℤ)) →
      (∀ i, i < n → ‖FS.val (rd buf i)‖ ≤ w i) → ∀ junk : ℕ → FC rnd, ∃ out, Fl.kissFft rnd cfg buf junk = .ok out ∧ out.length = n ∧ ∀ k, k < n →
        ‖FS.val (rd out k) - ∑ j ∈ range n, FS.val (rd buf j) * twd inv n ((j * k : ℕ) : ℤ)‖ ≤ (∑ j ∈ range n, w j) * (950 * Nat.log 2 n * uu) := by
  obtain ⟨cfg, e, hi, ht, hs, hc⟩ := alloc_l1 hr hl n inv hn (by omega) h5
  have u0 := uu_pos
  refine ⟨cfg, e, fun buf hb w hX hX' hbuf junk => ?_⟩
  have w0 : ∀ i, 0 ≤ w i := fun i => le_trans (by positivity) (hX i)
  have hc' : stageL1 cfg.factors * uu ≤ 1 / 100 := (mul_le_mul_of_nonneg_right hc u0.le).trans (l1_uu (by omega))
  obtain ⟨out, e2, l, hv⟩ := fft_l1 hr ht (by omega) hn2 hs hc' buf hb w hX hX' hbuf junk
  refine ⟨out, e2, l, fun k hk => ?_⟩
  rw [← hi]
  exact (hv k hk).trans (mul_le_mul_of_nonneg_left (mul_le_mul_of_nonneg_right hc u0.le) (sum_nonneg fun _ _ => w0 _))

end FK

/-- C99, relative to the sum of the moduli of the inputs: for a length without a prime factor above 5, every output is within
`950 log₂ n` units of the sum of the moduli (plus `n 2^-900`, which covers inputs that underflow). -/
theorem c99_sum (hr : IsRounding rnd) {lm : Fl.LibM} (hl : LibMWithin lm) (n : ℕ) (inv : Bool) (hn : 2 ≤ n) (hn2 : n ≤ 2 ^ 31)
    (h5 : ∀ p : ℕ, p.Prime → p ∣ n → p ≤ 5) (buf : List (FC rnd)) (hb : buf.length = n)
    (hbuf : ∀ i, i < n → ‖FS.val (rd buf i)‖ ≤ 2 ^ (899 : ℤ)) (junk : ℕ → FC rnd) :
    ∃ cfg out, Fl.kissAlloc rnd lm n inv = .ok cfg ∧ Fl.kissFft rnd cfg buf junk = .ok out ∧ out.length = n ∧ ∀ k, k < n →
      ‖FS.val (rd out k) - FK.dft inv n (fun j => FS.val (rd buf j)) k‖ ≤
        (∑ j ∈ range n, ‖FS.val (rd buf j)‖ + n * 2 ^ (-900 : ℤ)) * (950 * Nat.log 2 n * 2 ^ (-53 : ℤ)) := by
  obtain ⟨cfg, e, h⟩ := FK.fft_all_l1 hr hl n inv hn hn2 h5
  obtain ⟨out, e2, l, hv⟩ := h buf hb (fun i => if i < n then ‖FS.val (rd buf i)‖ + 2 ^ (-900 : ℤ) else 1)
    (fun i => by
      split
      · exact le_add_of_nonneg_left (norm_nonneg _)
      · exact zpow_le_one_of_nonpos₀ (by norm_num) (by norm_num))
    (fun i => by
      split
      · next hi =>
        refine (add_le_add (hbuf i hi) (zpow_le_zpow_right₀ (by norm_num) (show (-900 : ℤ) ≤ 899 by norm_num))).trans (le_of_eq ?_)
        rw [show (900 : ℤ) = 899 + 1 by norm_num, zpow_add₀ (by norm_num), zpow_one]
        ring
      · exact one_le_zpow₀ (by norm_num) (by norm_num))
    (fun i hi => by rw [if_pos hi]; exact le_add_of_nonneg_right (by positivity)) junk
  refine ⟨cfg, out, e, e2, l, fun k hk => ?_⟩
  rw [FK.dft_twd]
  refine (hv k hk).trans (le_of_eq ?_)
  have : ∑ j ∈ range n, (if j < n then ‖FS.val (rd buf j)‖ + 2 ^ (-900 : ℤ) else 1) = ∑ j ∈ range n, ‖FS.val (rd buf j)‖ + n * 2 ^ (-900 : ℤ) := by
    rw [sum_congr rfl fun j hj => if_pos (mem_range.mp hj), sum_add_distrib, sum_const, card_range, nsmul_eq_mul]
  rw [this]
  rfl

end Verif.Props
