import Verif.Props.FloatKiss4
import Verif.Props.FloatAnal
/-!
# kiss_fft in doubles: the recursion
-/
namespace Verif.Props
open Verif Finset

variable {rnd : ℝ → ℝ}

namespace FK

/-- The accumulated cost of the stages `p1,m1,p2,m2,...`: `165 + 5 p` units for radix `p`. -/
noncomputable def stageCost : List Int → ℝ
  | p :: _ :: rest => (165 + 5 * (p : ℝ)) + stageCost rest
  | _ => 0

theorem stageCost_nonneg : ∀ (n : ℕ) (l : List Int), Stages n l → 0 ≤ stageCost l
  | n, p :: m :: rest, h => by
    obtain ⟨p', m', rfl, rfl, h1, h2, h3⟩ := h
    unfold stageCost
    have : (0 : ℝ) ≤ ((p' : ℤ) : ℝ) := by exact_mod_cast Nat.zero_le p'
    have h0 : 0 ≤ stageCost rest := by
      rcases h3 with ⟨-, rfl⟩ | ⟨-, h⟩
      · unfold stageCost; exact le_refl _
      · exact stageCost_nonneg m' rest h
    linarith
  | _, [], h => h.elim
  | _, [_], h => h.elim

variable {cfg : Fl.KissCfg rnd} {N : ℕ}

/-- Result of a sub-transform of length `n` reading `fin[fi + fs*j]` and writing `F[fo + k]`: error at most `n X K u`. -/
structure Work (inv : Bool) (N : ℕ) (fin : List (FC rnd)) (n fo fi fs : ℕ) (E : ℝ) (F F' : List (FC rnd)) : Prop where
  len : F'.length = F.length
  val : ∀ k, k < n → ‖FS.val (rd F' (fo + k)) - ∑ j ∈ range n, FS.val (rd fin (fi + fs * j)) * twd inv N ((fs * (j * k) : ℕ) : ℤ)‖ ≤ E
  other : ∀ i, i < fo ∨ fo + n ≤ i → rd F' i = rd F i

theorem sum_tw_le {n : ℕ} {f w : ℕ → ℂ} {X : ℝ} (hf : ∀ j, j < n → ‖f j‖ ≤ X) (hw : ∀ j, ‖w j‖ ≤ 1) : ‖∑ j ∈ range n, f j * w j‖ ≤ n * X := by
  refine (norm_sum_le _ _).trans ?_
  calc ∑ j ∈ range n, ‖f j * w j‖ ≤ ∑ _j ∈ range n, X := sum_le_sum fun j hj => by
        rw [norm_mul]
        have h1 := hf j (mem_range.mp hj)
        calc ‖f j‖ * ‖w j‖ ≤ X * 1 := mul_le_mul h1 (hw j) (norm_nonneg _) ((norm_nonneg _).trans h1)
          _ = X := mul_one _
    _ = n * X := by rw [sum_const, card_range, nsmul_eq_mul]

theorem scale_of {X : ℝ} (hX : 2 ^ (-900 : ℤ) ≤ X) (hX' : X ≤ 2 ^ (900 : ℤ)) {p m : ℕ} (hm : 1 ≤ m) (hp : 1 ≤ p) (hpm : p * m ≤ 2 ^ 32) :
    Scale (101 / 100 * (m * X)) ((p : ℝ) + 9) := by
  have X0 : 0 < X := lt_of_lt_of_le (by positivity) hX
  have m1 : (1 : ℝ) ≤ m := by exact_mod_cast hm
  have p1 : (1 : ℝ) ≤ p := by exact_mod_cast hp
  have t := FA.tiny_Q (R := 101 / 100 * (m : ℝ)) hX (by linarith)
  have e : X * (101 / 100 * (m : ℝ)) = 101 / 100 * (m * X) := by ring
  rw [e] at t
  refine ⟨by positivity, t, ?_⟩
  have h1 : (p : ℝ) * m ≤ 2 ^ 32 := by exact_mod_cast hpm
  have h2 : ((p : ℝ) + 9) * (101 / 100 * m) ≤ 2 ^ (37 : ℤ) := by
    have : (m : ℝ) ≤ p * m := by nlinarith
    have : (2 : ℝ) ^ (37 : ℤ) = 32 * 2 ^ 32 := by norm_num
    rw [this]
    nlinarith
  calc ((p : ℝ) + 9) * (101 / 100 * (m * X)) = ((p : ℝ) + 9) * (101 / 100 * m) * X := by ring
    _ ≤ 2 ^ (37 : ℤ) * 2 ^ (900 : ℤ) := mul_le_mul h2 hX' X0.le (by positivity)
    _ = 2 ^ (937 : ℤ) := by rw [← zpow_add₀ (by norm_num)]; norm_num
    _ ≤ 2 ^ (1000 : ℤ) := zpow_le_zpow_right₀ (by norm_num) (by norm_num)

theorem work_err (hr : IsRounding rnd) (h : Tw cfg N) (hNpos : 0 < N) (hN31 : N ≤ 2 ^ 31) (fin : List (FC rnd)) {X : ℝ} (hX : 2 ^ (-900 : ℤ) ≤ X) (hX' : X ≤ 2 ^ (900 : ℤ))
    (hfin : ∀ i, ‖FS.val (rd fin i)‖ ≤ X) : ∀ (fac : List Int) (n : ℕ), Stages n fac → stageCost fac * uu ≤ 1 / 100 →
    ∀ (F : List (FC rnd)) (fo fi fs : ℕ), fs * n = N → fo + n ≤ F.length → fi + fs * (n - 1) < fin.length →
    ∃ F', Fl.kfWork rnd cfg fin fac F fo fi fs = .ok F' ∧ Work cfg.inverse N fin n fo fi fs (n * X * (stageCost fac * uu)) F F'
  | p :: m :: rest, n, hs, hc, F, fo, fi, fs, hfs, hfo, hfi => by
    obtain ⟨p, m, rfl, rfl, hp, hpm, hcase⟩ := hs
    have X0 : 0 < X := lt_of_lt_of_le (by positivity) hX
    have u0 := uu_pos
    have hm : 1 ≤ m := by rcases hcase with ⟨h1, _⟩ | ⟨h1, _⟩ <;> omega
    have hpr : (1 : ℝ) ≤ p := by exact_mod_cast hp
    have hnN : n ≤ N := by
      rw [← hfs]
      refine Nat.le_mul_of_pos_left _ ?_
      rcases Nat.eq_zero_or_pos fs with h0 | h0
      · rw [h0, zero_mul] at hfs; omega
      · exact h0
    have hcr0 : 0 ≤ stageCost rest := by
      rcases hcase with ⟨-, rfl⟩ | ⟨-, hst⟩
      · unfold stageCost; exact le_refl _
      · exact stageCost_nonneg m rest hst
    have hcs : stageCost ((p : Int) :: (m : Int) :: rest) = (165 + 5 * (p : ℝ)) + stageCost rest := by
      rw [stageCost]; push_cast; ring
    have hcr : stageCost rest * uu ≤ 1 / 100 := by
      rw [hcs] at hc
      nlinarith
    unfold Fl.kfWork
    rw [if_neg (by omega)]
    have hn1 : ∀ q j : ℕ, q < p → j < m → q + p * j ≤ n - 1 := by
      intro q j hq hj
      have : q + p * j + 1 ≤ p * m := by
        calc q + p * j + 1 ≤ p + p * j := by omega
          _ = p * (j + 1) := by ring
          _ ≤ p * m := Nat.mul_le_mul_left _ hj
      omega
    have hqm : ∀ q, q < p → q * m + m ≤ n := by
      intro q hq
      calc q * m + m = (q + 1) * m := by ring
        _ ≤ p * m := Nat.mul_le_mul_right _ hq
        _ = n := hpm
    have hsub : ∃ G, (if (m : Int) = 1 then
        forM' (pyRange 0 p) F (fun F j => (cGet fin (fi + fs * j)).bind fun x => cSet F (fo + j) x)
      else
        forM' (pyRange 0 p) F (fun F j => Fl.kfWork rnd cfg fin rest F (fo + j * m) (fi + fs * j) (fs * p))) = .ok G ∧
      G.length = F.length ∧
      (∀ q u, q < p → u < m → ‖FS.val (rd G (fo + q * m + u)) -
        ∑ j ∈ range m, FS.val (rd fin (fi + fs * (q + p * j))) * twd cfg.inverse N ((fs * p * (j * u) : ℕ) : ℤ)‖ ≤ m * X * (stageCost rest * uu)) ∧
      ∀ i, i < fo ∨ fo + n ≤ i → rd G i = rd F i := by
      rcases hcase with ⟨rfl, -⟩ | ⟨hm1, hst⟩
      · rw [if_pos (by simp)]
        obtain ⟨G, e, hi⟩ := forM'_range_inv (a := 0) (b := (p : Int)) (by omega) F
          (fun F j => (cGet fin ((fi : Int) + fs * j)).bind fun x => cSet F ((fo : Int) + j) x)
          (fun k G => G.length = F.length ∧ (∀ q : ℕ, (q : Int) < k → rd G (fo + q) = rd fin (fi + fs * q)) ∧
            ∀ i, i < fo ∨ fo + n ≤ i → rd G i = rd F i)
          ⟨rfl, fun q hq => by omega, fun i _ => rfl⟩
          (by
            intro k G h1 h2 ⟨gl, gv, go⟩
            obtain ⟨q, rfl⟩ := Int.eq_ofNat_of_zero_le h1
            have hb : fs * q ≤ fs * (n - 1) := Nat.mul_le_mul_left _ (by have := hn1 q 0 (by omega) (by omega); omega)
            have hq := hqm q (by omega)
            rw [g_get (j := fi + fs * q) (by omega) (by push_cast; ring)]
            simp only [Except.bind_ok]
            rw [g_set (j := fo + q) (by omega) (by push_cast; ring)]
            refine ⟨_, rfl, by simpa using gl, fun q' hq' => ?_, fun i hi => ?_⟩
            · rw [rd_set' _ _ _ _ (by omega)]
              by_cases hc : q' = q
              · subst hc; rw [if_pos rfl]
              · rw [if_neg (by omega), gv q' (by omega)]
            · rw [rd_set' _ _ _ _ (by omega), if_neg (by omega), go i hi])
        refine ⟨G, e, hi.1, fun q u hq hu => ?_, hi.2.2⟩
        have : u = 0 := by omega
        subst this
        rw [sum_range_one, mul_one, add_zero, hi.2.1 q (by omega)]
        simp only [mul_zero, add_zero, Nat.cast_zero, twd_zero, mul_one, sub_self, norm_zero]
        positivity
      · rw [if_neg (by omega)]
        obtain ⟨G, e, hi⟩ := forM'_range_inv (a := 0) (b := (p : Int)) (by omega) F
          (fun F j => Fl.kfWork rnd cfg fin rest F ((fo : Int) + j * m) ((fi : Int) + fs * j) ((fs : Int) * p))
          (fun k G => G.length = F.length ∧ (∀ q u : ℕ, (q : Int) < k → u < m → ‖FS.val (rd G (fo + q * m + u)) -
              ∑ j ∈ range m, FS.val (rd fin (fi + fs * (q + p * j))) * twd cfg.inverse N ((fs * p * (j * u) : ℕ) : ℤ)‖ ≤ m * X * (stageCost rest * uu)) ∧
            ∀ i, i < fo ∨ fo + n ≤ i → rd G i = rd F i)
          ⟨rfl, fun q u hq => by omega, fun i _ => rfl⟩
          (by
            intro k G h1 h2 ⟨gl, gv, go⟩
            obtain ⟨q, rfl⟩ := Int.eq_ofNat_of_zero_le h1
            have hq := hqm q (by omega)
            have hb : fs * (q + p * (m - 1)) ≤ fs * (n - 1) := Nat.mul_le_mul_left _ (hn1 q (m - 1) (by omega) (by omega))
            obtain ⟨G', e', ok⟩ := work_err hr h hNpos hN31 fin hX hX' hfin rest m hst hcr G (fo + q * m) (fi + fs * q) (fs * p)
              (by rw [← hfs, ← hpm]; ring) (by omega) (by
                have : fs * q + fs * p * (m - 1) = fs * (q + p * (m - 1)) := by ring
                omega)
            push_cast at e'
            refine ⟨G', e', by rw [ok.len, gl], fun q' u hq' hu => ?_, fun i hi => ?_⟩
            · by_cases hc : q' = q
              · subst hc
                have := ok.val u hu
                refine (le_of_eq ?_).trans this
                congr 2
                refine sum_congr rfl fun j _ => ?_
                congr 3
                ring
              · have hlt : q' < q := by omega
                rw [ok.other _ (by
                  left
                  have : q' * m + m ≤ q * m := by
                    calc q' * m + m = (q' + 1) * m := by ring
                      _ ≤ q * m := Nat.mul_le_mul_right _ hlt
                  omega)]
                exact gv q' u (by omega) hu
            · rw [ok.other i (by omega), go i hi])
        exact ⟨G, e, hi.1, fun q u hq hu => hi.2.1 q u (by omega) hu, hi.2.2⟩
    obtain ⟨G, eG, gl, gv, go⟩ := hsub
    rw [eG]
    simp only [Except.bind_ok]
    have mX0 : 0 ≤ (m : ℝ) * X := by positivity
    have hGB : ∀ i, fo ≤ i → i < fo + p * m → ‖FS.val (rd G i)‖ ≤ 101 / 100 * (m * X) := by
      intro i h1 h2
      obtain ⟨q, u, hq, hu, rfl⟩ : ∃ q u, q < p ∧ u < m ∧ i = fo + q * m + u := by
        refine ⟨(i - fo) / m, (i - fo) % m, ?_, Nat.mod_lt _ (by omega), ?_⟩
        · rw [Nat.div_lt_iff_lt_mul (by omega)]; omega
        · have := Nat.div_add_mod (i - fo) m
          rw [mul_comm] at this
          omega
      have e1 := gv q u hq hu
      have e2 : ‖∑ j ∈ range m, FS.val (rd fin (fi + fs * (q + p * j))) * twd cfg.inverse N ((fs * p * (j * u) : ℕ) : ℤ)‖ ≤ m * X :=
        sum_tw_le (fun j _ => hfin _) (fun j => twd_norm _ _ _)
      have e3 := norm_add_le (FS.val (rd G (fo + q * m + u)) - ∑ j ∈ range m, FS.val (rd fin (fi + fs * (q + p * j))) * twd cfg.inverse N ((fs * p * (j * u) : ℕ) : ℤ))
        (∑ j ∈ range m, FS.val (rd fin (fi + fs * (q + p * j))) * twd cfg.inverse N ((fs * p * (j * u) : ℕ) : ℤ))
      rw [sub_add_cancel] at e3
      have e4 : (m : ℝ) * X * (stageCost rest * uu) ≤ m * X * (1 / 100) := mul_le_mul_of_nonneg_left hcr mX0
      linarith
    have hsc : Scale (101 / 100 * (m * X)) ((p : ℝ) + 9) := scale_of hX hX' hm hp (by rw [hpm]; omega)
    have hp31 : p ≤ 2 ^ 31 := by
      have : p ≤ n := by rw [← hpm]; exact Nat.le_mul_of_pos_right _ (by omega)
      omega
    obtain ⟨F', e', fl, fv, fother⟩ := kfBfly_err hr h p fo fs m F.length hsc hp hp31 (by rw [hpm]; exact hfs) hNpos
      (by rw [hpm]; exact hfo) G gl hGB
    refine ⟨F', e', fl, fun k hk => ?_, fun i hi => ?_⟩
    · obtain ⟨r, u, hrr, hu, rfl⟩ : ∃ r u, r < p ∧ u < m ∧ k = r * m + u := by
        refine ⟨k / m, k % m, ?_, Nat.mod_lt _ (by omega), ?_⟩
        · rw [Nat.div_lt_iff_lt_mul (by omega), hpm]; exact hk
        · rw [mul_comm]; exact (Nat.div_add_mod k m).symm
      have f1 := fv u hu r hrr
      have hD : ∑ j ∈ range n, FS.val (rd fin (fi + fs * j)) * twd cfg.inverse N ((fs * (j * (r * m + u)) : ℕ) : ℤ) =
          ∑ q ∈ range p, (∑ j ∈ range m, FS.val (rd fin (fi + fs * (q + p * j))) * twd cfg.inverse N ((fs * p * (j * u) : ℕ) : ℤ)) *
            twd cfg.inverse N ((fs * (q * (u + r * m)) : ℕ) : ℤ) := by
        rw [← hpm, sum_split]
        refine sum_congr rfl fun q hq => ?_
        rw [sum_mul]
        refine sum_congr rfl fun j _ => ?_
        rw [mul_assoc, ← twd_add]
        congr 1
        symm
        rw [← twd_period cfg.inverse N _ (j * r : ℕ)]
        congr 1
        rw [← hfs, ← hpm]
        push_cast
        ring
      rw [hD, ← add_assoc]
      have f2 : ‖∑ q ∈ range p, (FS.val (rd G (fo + q * m + u)) -
          ∑ j ∈ range m, FS.val (rd fin (fi + fs * (q + p * j))) * twd cfg.inverse N ((fs * p * (j * u) : ℕ) : ℤ)) *
            twd cfg.inverse N ((fs * (q * (u + r * m)) : ℕ) : ℤ)‖ ≤ p * (m * X * (stageCost rest * uu)) :=
        sum_tw_le (w := fun q => twd cfg.inverse N ((fs * (q * (u + r * m)) : ℕ) : ℤ)) (fun q hq => gv q u hq hu) (fun q => twd_norm _ _ _)
      have f3 := norm_add_le _ _ |>.trans (add_le_add f1 f2)
      refine le_trans (le_of_eq ?_) (f3.trans ?_)
      · congr 1
        simp only [sub_mul, sum_sub_distrib]
        ring
      · rw [hcs]
        have hn : (n : ℝ) = p * m := by rw [← hpm]; push_cast; ring
        rw [hn]
        unfold cost
        have q1 : 0 ≤ (p : ℝ) * (m * X) * uu := by positivity
        nlinarith
    · rw [fother i (by rw [hpm]; exact hi), go i hi]
  | [], _, hs, _, _, _, _, _, _, _, _ => hs.elim
  | [_], _, hs, _, _, _, _, _, _, _, _ => hs.elim

/-- `kiss_fft` in doubles. -/
theorem fft_err (hr : IsRounding rnd) (h : Tw cfg N) (hNpos : 0 < N) (hN31 : N ≤ 2 ^ 31) (hs : Stages N cfg.factors) (hc : stageCost cfg.factors * uu ≤ 1 / 100)
    (buf : List (FC rnd)) (hb : buf.length = N) {X : ℝ} (hX : 2 ^ (-900 : ℤ) ≤ X) (hX' : X ≤ 2 ^ (900 : ℤ)) (hbuf : ∀ i, i < N → ‖FS.val (rd buf i)‖ ≤ X)
    (junk : ℕ → FC rnd) :
    ∃ out, Fl.kissFft rnd cfg buf junk = .ok out ∧ out.length = N ∧ ∀ k, k < N →
      ‖FS.val (rd out k) - ∑ j ∈ range N, FS.val (rd buf j) * twd cfg.inverse N ((j * k : ℕ) : ℤ)‖ ≤ N * X * (stageCost cfg.factors * uu) := by
  have X0 : 0 ≤ X := le_trans (by positivity) hX
  unfold Fl.kissFft cMalloc
  rw [h.nfft, if_neg (by omega)]
  simp only [Except.bind_ok, Int.toNat_natCast]
  have hall : ∀ i, ‖FS.val (rd buf i)‖ ≤ X := by
    intro i
    by_cases hi : i < N
    · exact hbuf i hi
    · have : rd buf i = 0 := by
        unfold rd
        rw [List.getD_eq_getElem?_getD, List.getElem?_eq_none (by omega)]; rfl
      rw [this, FS.val_zero, norm_zero]; exact X0
  obtain ⟨F', e, ok⟩ := work_err hr h hNpos hN31 buf hX hX' hall cfg.factors N hs hc (tab N junk) 0 0 1 (by omega) (by simp) (by omega)
  have e' : Fl.kfWork rnd cfg buf cfg.factors (tab N junk) 0 0 1 = .ok F' := by exact_mod_cast e
  rw [e']
  simp only [Except.bind_ok]
  rw [if_pos (by omega), hb]
  refine ⟨_, rfl, by simp, fun k hk => ?_⟩
  rw [rd_tab hk, if_pos (by omega)]
  have := ok.val k hk
  simpa using this

end FK
end Verif.Props
