import Verif.Props.FloatKiss13
import Mathlib.Analysis.Complex.ExponentialBounds
import Mathlib.Algebra.Order.Chebyshev
/-!
# The accuracy of the convolution of the C extension
-/
namespace Verif.Props
open Verif Finset

variable {rnd : ℝ → ℝ}

namespace FK

theorem kConv_within (hrd : NoOverflow rnd) {lm : Fl.LibM} {R N Q : ℕ} {t' ss : List (FC rnd)} {fw bw : Fl.KissCfg rnd} {s : List ℂ}
    (h : Ready (rnd := rnd) lm R N Q t' ss fw bw s) (hQ30 : Q ≤ 2 ^ 30) (G : Arr2 (FC rnd)) (hG : G.rows = R) (hR : R % 2 = 0) (hR0 : 0 < R) (m : ℤ)
    (hm1 : -(G.cols : ℤ) ≤ m) (hm2 : m < G.cols) (hny : fAt (G.map FS.val) m (G.rows / 2) = 0) {X : ℝ} (hX : 2 ^ (-900 : ℤ) ≤ X) (hX' : X ≤ 2 ^ (800 : ℤ))
    (hA : ∑ i ∈ range R, ‖FS.val (G.at' i (m % G.cols).toNat)‖ + Q * 2 ^ (-900 : ℤ) ≤ X) :
    ConvWithin (kConv rnd lm) (40 * (3 * (1 + Real.log Q) * X * (950 * Nat.log 2 Q * uu))) G N m := by
  have hge := h.ge
  have l0 : 0 ≤ Real.log Q := Real.log_natCast_nonneg Q
  have q0 : (1 : ℝ) ≤ Q := by exact_mod_cast (show 1 ≤ Q by omega)
  have l1 : Real.log Q ≤ 30 := by
    have : (Q : ℝ) ≤ 2 ^ 30 := by exact_mod_cast hQ30
    have h1 := Real.log_le_log (by linarith) this
    rw [Real.log_pow] at h1
    have := Real.log_two_lt_d9
    push_cast at h1
    linarith
  have k1 : (1 : ℝ) ≤ Nat.log 2 Q := by exact_mod_cast Nat.log_pos (by norm_num) (by omega)
  obtain ⟨hh, ff', e, hl, -, hv⟩ := hkm_err hrd G N Q m s ss (by omega) (by omega) (by omega) hQ30 (by rw [hG]; exact h.kern) (σ := 3 * (1 + Real.log Q)) (κ := 950 * Nat.log 2 Q * uu) (X := X)
    (by linarith) (by linarith) h.sum (mul_le_mul_of_nonneg_right (by linarith) uu_pos.le) (l1_uu (by omega)) h.len h.acc hm1 hm2 hny hX hX'
    (by rw [hG]; exact hA) (tab (N + 1) fun _ => 0) (tab Q fun _ => 0) (by simp) (by simp) fw bw h.fok h.bok (fun _ _ => 0)
  obtain ⟨h', e', l', v'⟩ := FA.conv_exact (G.map FS.val) N m (by show G.rows % 2 = 0; omega) (by show 0 < G.rows; omega) hm1 hm2 hny
  refine ⟨hh, h', ?_, e', by rw [hl, l'], fun i hi => ?_⟩
  · rw [kConv_eq h G hG]
    rw [hG] at e
    rw [e]
    rfl
  · obtain ⟨a, b⟩ := hv i (by omega)
    rw [v' i (by omega)]
    exact ⟨a, b⟩

theorem sum_ioo (M : ℕ) (hM : 1 ≤ M) (f : ℕ → ℝ) (h0 : f M = 0) :
    ∑ i ∈ range (2 * M), f i = ∑ ν ∈ Ioo (-(M : ℤ)) (M : ℤ), f (ν % ((2 * M : ℕ) : ℤ)).toNat := by
  have wm : ∀ ν : ℤ, -(M : ℤ) < ν → ν < M → (ν % ((2 * M : ℕ) : ℤ)).toNat = (if ν < 0 then ν + ((2 * M : ℕ) : ℤ) else ν).toNat := fun ν h1 h2 =>
    wrap_mod (by push_cast; omega) (by push_cast; omega)
  rw [← sum_erase (range (2 * M)) h0]
  refine sum_nbij' (fun i => if i < M then (i : ℤ) else (i : ℤ) - 2 * M) (fun ν => (ν % ((2 * M : ℕ) : ℤ)).toNat) ?_ ?_ ?_ ?_ ?_
  · intro i hi
    rw [mem_erase, mem_range] at hi
    rw [mem_Ioo]
    split <;> omega
  · intro ν hν
    rw [mem_Ioo] at hν
    rw [mem_erase, mem_range, wm ν hν.1 hν.2]
    split <;> push_cast <;> omega
  · intro i hi
    rw [mem_erase, mem_range] at hi
    rw [wm _ (by split <;> omega) (by split <;> omega)]
    push_cast
    split <;> split <;> omega
  · intro ν hν
    rw [mem_Ioo] at hν
    rw [wm ν hν.1 hν.2]
    push_cast
    split <;> split <;> omega
  · intro i hi
    rw [mem_erase, mem_range] at hi
    congr 1
    rw [wm _ (by split <;> omega) (by split <;> omega)]
    push_cast
    split <;> split <;> omega

/-- The sum of the moduli of a column near one of known energy. -/
theorem col_sum (r K : ℕ) (hr : r % 2 = 0) (G : Arr2 (FC rnd)) (G' : Arr2 ℂ) (g1 : G.rows = r + 2) (g2 : G.cols = K) (hK : 0 < K) (g1' : G'.rows = r + 2) (g2' : G'.cols = K) {ε S : ℝ} (hS : 0 ≤ S) (m : ℤ)
    (he : ∀ i, i < r + 2 → ‖FS.val (G.at' i (m % K).toNat) - G'.at' i (m % K).toNat‖ ≤ ε) (hny : FS.val (G.at' (r / 2 + 1) (m % K).toNat) = 0)
    (hl2 : ∑ ν ∈ Ioo (-(((r + 2 : ℕ) : ℤ) / 2)) (((r + 2 : ℕ) : ℤ) / 2), ‖fAt G' m ν‖ ^ 2 ≤ S ^ 2) :
    ∑ i ∈ range (r + 2), ‖FS.val (G.at' i (m % K).toNat)‖ ≤ Real.sqrt ((r : ℝ) + 1) * (S + Real.sqrt ((r : ℝ) + 1) * ε) := by
  obtain ⟨M, hM⟩ : ∃ M, r + 2 = 2 * M := ⟨r / 2 + 1, by omega⟩
  have hMr : r / 2 + 1 = M := by omega
  rw [hMr] at hny
  rw [hM] at hl2 he ⊢
  have e1 : ((2 * M : ℕ) : ℤ) / 2 = M := by push_cast; omega
  rw [e1] at hl2
  rw [sum_ioo M (by omega) _ (by rw [hny, norm_zero])]
  have hcard : ((Ioo (-(M : ℤ)) (M : ℤ)).card : ℝ) = (r : ℝ) + 1 := by
    rw [Int.card_Ioo]
    have : ((M : ℤ) - -(M : ℤ) - 1).toNat = r + 1 := by omega
    rw [this]; push_cast; ring
  have r0 : (0 : ℝ) ≤ (r : ℝ) + 1 := by positivity
  have p1 : ∀ ν ∈ Ioo (-(M : ℤ)) (M : ℤ), ‖FS.val (G.at' (ν % ((2 * M : ℕ) : ℤ)).toNat (m % K).toNat)‖ ≤ ‖fAt G' m ν‖ + ε := by
    intro ν hν
    rw [mem_Ioo] at hν
    have hlt : (ν % ((2 * M : ℕ) : ℤ)).toNat < 2 * M := slot_lt' (by omega) _
    have h2 := he _ hlt
    have h3 : fAt G' m ν = G'.at' (ν % ((2 * M : ℕ) : ℤ)).toNat (m % K).toNat := by
      unfold fAt; rw [g1', g2', hM]
    rw [h3]
    have := norm_add_le (FS.val (G.at' (ν % ((2 * M : ℕ) : ℤ)).toNat (m % K).toNat) - G'.at' (ν % ((2 * M : ℕ) : ℤ)).toNat (m % K).toNat) (G'.at' (ν % ((2 * M : ℕ) : ℤ)).toNat (m % K).toNat)
    rw [sub_add_cancel] at this
    linarith
  refine (sum_le_sum p1).trans ?_
  rw [sum_add_distrib, sum_const, nsmul_eq_mul, hcard]
  have cs := sq_sum_le_card_mul_sum_sq (s := Ioo (-(M : ℤ)) (M : ℤ)) (f := fun ν => ‖fAt G' m ν‖)
  rw [hcard] at cs
  have cs2 : ∑ ν ∈ Ioo (-(M : ℤ)) (M : ℤ), ‖fAt G' m ν‖ ≤ Real.sqrt ((r : ℝ) + 1) * S := by
    refine abs_le_of_sq_le_sq' ?_ (by positivity) |>.2
    rw [mul_pow, Real.sq_sqrt r0]
    exact cs.trans (mul_le_mul_of_nonneg_left hl2 r0)
  have e2 : Real.sqrt ((r : ℝ) + 1) * (S + Real.sqrt ((r : ℝ) + 1) * ε) = Real.sqrt ((r : ℝ) + 1) * S + ((r : ℝ) + 1) * ε := by
    rw [mul_add, ← mul_assoc, Real.mul_self_sqrt r0]
  rw [e2]
  linarith

/-- The error of the convolution: `r` rows of samples, a column of energy at most `S²`. -/
noncomputable def convErr (r : ℕ) (S : ℝ) : ℝ := 2 ^ (-35 : ℤ) * (Nat.log 2 (4 * r)) ^ 2 * Real.sqrt ((r : ℝ) + 1) * S

theorem conv_col (hrd : NoOverflow rnd) {lm : Fl.LibM} (r K N : ℕ) (hr : r % 2 = 0) (hr0 : 0 < r) (hsz : r ≤ 2 ^ 28) (hNr : N < r / 2) (G : Arr2 (FC rnd)) (G' : Arr2 ℂ) (g1 : G.rows = r + 2) (g2 : G.cols = K)
    {Q : ℕ} {t' ss : List (FC rnd)} {fw bw : Fl.KissCfg rnd} {s : List ℂ} (h : Ready (rnd := rnd) lm (r + 2) N Q t' ss fw bw s)
    (hK : 0 < K) (g1' : G'.rows = r + 2) (g2' : G'.cols = K) {ε S : ℝ} (hS : 2 ^ (-700 : ℤ) ≤ S) (hS' : S ≤ 2 ^ (700 : ℤ)) (m : ℤ) (hm1 : -(K : ℤ) ≤ m) (hm2 : m < K)
    (he : ∀ i, i < r + 2 → ‖FS.val (G.at' i (m % K).toNat) - G'.at' i (m % K).toNat‖ ≤ ε) (hny : FS.val (G.at' (r / 2 + 1) (m % K).toNat) = 0)
    (hl2 : ∑ ν ∈ Ioo (-(((r + 2 : ℕ) : ℤ) / 2)) (((r + 2 : ℕ) : ℤ) / 2), ‖fAt G' m ν‖ ^ 2 ≤ S ^ 2) (hε : Real.sqrt ((r : ℝ) + 1) * ε ≤ 39 / 100 * S) :
    ConvWithin (kConv rnd lm) (convErr r S) G N m := by
  have hge := h.ge
  have hlt := h.lt
  have S0 : 0 < S := lt_of_lt_of_le (by positivity) hS
  obtain ⟨q, hq⟩ : ∃ q, q = Real.sqrt ((r : ℝ) + 1) := ⟨_, rfl⟩
  have r1 : (1 : ℝ) ≤ r := by exact_mod_cast hr0
  have q1 : 1 ≤ q := by rw [hq, Real.one_le_sqrt]; linarith
  have q2 : q ≤ 2 ^ 15 := by
    rw [hq, Real.sqrt_le_left (by norm_num)]
    have : (r : ℝ) ≤ 2 ^ 28 := by exact_mod_cast hsz
    linarith
  have cs := col_sum r K hr G G' g1 g2 hK g1' g2' S0.le m he hny hl2
  rw [← hq] at cs hε
  have hqS : 0 < q * S := by positivity
  have f1 : (Q : ℝ) * 2 ^ (-900 : ℤ) ≤ 1 / 100 * (q * S) := by
    have a1 : (Q : ℝ) ≤ 2 ^ (30 : ℤ) := by exact_mod_cast (show Q ≤ 2 ^ 30 by omega)
    calc (Q : ℝ) * 2 ^ (-900 : ℤ) ≤ 2 ^ (30 : ℤ) * 2 ^ (-900 : ℤ) := mul_le_mul_of_nonneg_right a1 (by positivity)
      _ = 2 ^ (-870 : ℤ) := by rw [← zpow_add₀ (by norm_num)]; norm_num
      _ ≤ 2 ^ (-7 : ℤ) * 2 ^ (-700 : ℤ) := by rw [← zpow_add₀ (by norm_num)]; exact zpow_le_zpow_right₀ (by norm_num) (by norm_num)
      _ ≤ 2 ^ (-7 : ℤ) * S := mul_le_mul_of_nonneg_left hS (by positivity)
      _ ≤ 1 / 100 * S := mul_le_mul_of_nonneg_right (by norm_num) S0.le
      _ ≤ 1 / 100 * (q * S) := by
        have : S ≤ q * S := le_mul_of_one_le_left S0.le q1
        clear hS hS'
        linarith
  have f2 : q * (S + q * ε) ≤ q * (1.39 * S) := mul_le_mul_of_nonneg_left (by clear hS hS' f1; linarith) (by linarith)
  have f3 : q * S ≤ 2 ^ (15 : ℤ) * 2 ^ (700 : ℤ) := mul_le_mul (by exact_mod_cast q2) hS' S0.le (by positivity)
  have hny' : fAt (G.map FS.val) m (G.rows / 2) = 0 := by
    unfold fAt
    rw [show (G.map FS.val).rows = r + 2 from g1, show (G.map FS.val).cols = K from g2, Arr2.at'_map _ _ (by rw [g1]; exact slot_lt' (by omega) _) (by rw [g2]; exact slot_lt' hK _), g1]
    convert hny using 3
    rw [Int.emod_eq_of_lt (by omega) (by omega)]
    omega
  have key := kConv_within hrd h (by omega) G g1 (by omega) (by omega) m (by omega) (by omega) hny' (X := 1.4 * (q * S))
    (by
      refine (zpow_le_zpow_right₀ (by norm_num) (show (-900 : ℤ) ≤ -700 by norm_num)).trans (hS.trans ?_)
      have : S ≤ q * S := le_mul_of_one_le_left S0.le q1
      clear hS hS' f1 f3
      linarith)
    (by
      rw [← zpow_add₀ (by norm_num)] at f3
      refine le_trans (by clear f1 hS hS' f3; linarith : 1.4 * (q * S) ≤ 4 * (q * S)) ?_
      exact (four_le f3 (j := 717) (by norm_num)).trans (zpow_le_zpow_right₀ (by norm_num) (by norm_num)))
    (by
      rw [g2]
      refine (add_le_add (cs.trans f2) f1).trans ?_
      clear f1 hS hS' f3
      linarith)
  obtain ⟨hh, h', e1, e2, e3, e4⟩ := key
  refine ⟨hh, h', e1, e2, e3, fun i hi => ⟨(e4 i hi).1, (e4 i hi).2.trans ?_⟩⟩
  -- the constants
  obtain ⟨L, hL⟩ : ∃ L : ℕ, L = Nat.log 2 (4 * r) := ⟨_, rfl⟩
  have hL3 : 3 ≤ L := by
    rw [hL]
    exact Nat.le_log_of_pow_le (by norm_num) (by omega)
  have hQ4 : Q ≤ 4 * r := by omega
  have hLQ : Nat.log 2 Q ≤ L := by rw [hL]; exact Nat.log_mono_right hQ4
  have hlog : Real.log Q ≤ ((L : ℝ) + 1) * 0.6932 := by
    have a1 : Q ≤ 2 ^ (L + 1) := by
      have := Nat.lt_pow_succ_log_self (b := 2) (by norm_num) (4 * r)
      rw [← hL] at this
      omega
    have a2 : (Q : ℝ) ≤ 2 ^ (L + 1) := by exact_mod_cast a1
    have a3 := Real.log_le_log (by exact_mod_cast (show 0 < Q by omega)) a2
    rw [Real.log_pow] at a3
    have a4 := Real.log_two_lt_d9
    push_cast at a3
    refine a3.trans (mul_le_mul_of_nonneg_left (by linarith) (by positivity))
  have l3 : (3 : ℝ) ≤ L := by exact_mod_cast hL3
  have lq : (Nat.log 2 Q : ℝ) ≤ L := by exact_mod_cast hLQ
  have l0 : 0 ≤ Real.log Q := Real.log_natCast_nonneg Q
  have b1 : 3 * (1 + Real.log Q) ≤ 3.8 * L := by linarith
  have u0 := uu_pos
  unfold convErr
  rw [← hL, ← hq]
  have b2 : 3 * (1 + Real.log Q) * (1.4 * (q * S)) * (950 * Nat.log 2 Q * uu) ≤ 3.8 * L * (1.4 * (q * S)) * (950 * L * uu) := by
    gcongr
  have b3 : (2 : ℝ) ^ (-35 : ℤ) = 2 ^ 18 * uu := by unfold uu; rw [← zpow_natCast, ← zpow_add₀ (by norm_num)]; norm_num
  rw [b3]
  have b4 : 0 ≤ (L : ℝ) ^ 2 * (q * S) * uu := by positivity
  calc 40 * (3 * (1 + Real.log Q) * (1.4 * (q * S)) * (950 * Nat.log 2 Q * uu)) ≤ 40 * (3.8 * L * (1.4 * (q * S)) * (950 * L * uu)) := mul_le_mul_of_nonneg_left b2 (by norm_num)
    _ = 202160 * ((L : ℝ) ^ 2 * (q * S) * uu) := by ring
    _ ≤ 2 ^ 18 * ((L : ℝ) ^ 2 * (q * S) * uu) := mul_le_mul_of_nonneg_right (by norm_num) b4
    _ = 2 ^ 18 * uu * (L : ℝ) ^ 2 * q * S := by ring

/-- A convolution that is within `err S` on every column of energy at most `S²` of the array that `r` rows of samples lead to. -/
def ColWithin (conv : Arr2 (FC rnd) → Int → Int → Res (List (FC rnd))) (err : ℝ → ℝ) (r N : ℕ) : Prop :=
  ∀ (K : ℕ) (G : Arr2 (FC rnd)) (G' : Arr2 ℂ), G.rows = r + 2 → G.cols = K → 0 < K → G'.rows = r + 2 → G'.cols = K → ∀ (ε S : ℝ), 2 ^ (-700 : ℤ) ≤ S → S ≤ 2 ^ (700 : ℤ) →
    ∀ m : ℤ, -(K : ℤ) ≤ m → m < K → (∀ i, i < r + 2 → ‖FS.val (G.at' i (m % K).toNat) - G'.at' i (m % K).toNat‖ ≤ ε) → FS.val (G.at' (r / 2 + 1) (m % K).toNat) = 0 →
    ∑ ν ∈ Ioo (-(((r + 2 : ℕ) : ℤ) / 2)) (((r + 2 : ℕ) : ℤ) / 2), ‖fAt G' m ν‖ ^ 2 ≤ S ^ 2 → Real.sqrt ((r : ℝ) + 1) * ε ≤ 39 / 100 * S → ConvWithin conv (err S) G N m

theorem kCol (hrd : NoOverflow rnd) {lm : Fl.LibM} (hl : LibMWithin lm) (r N : ℕ) (hr : r % 2 = 0) (hr0 : 0 < r) (hsz : r ≤ 2 ^ 28) (hNr : N < r / 2) :
    ColWithin (kConv rnd lm) (convErr r) r N := by
  obtain ⟨Q, t', ss, fw, bw, s, h⟩ := ready (rnd := rnd) hrd.toIsRounding hl (r + 2) N (by omega) (by omega) (by omega)
  intro K G G' g1 g2 hK g1' g2' ε S hS hS' m hm1 hm2 he hny hl2 hε
  exact conv_col hrd r K N hr hr0 hsz hNr G G' g1 g2 h hK g1' g2' hS hS' m hm1 hm2 he hny hl2 hε

end FK
end Verif.Props
