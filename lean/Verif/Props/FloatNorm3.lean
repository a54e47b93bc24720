import Verif.Props.FloatNorm2
/-!
# Property C111: `compare_relative` and tests for equality
-/
namespace Verif.Props
open Verif
variable {rnd : ℝ → ℝ}

namespace FN

/-- A sum of non-negative values that are each off by at most `a` roundings. -/
theorem lin_bound (hr : IsRounding rnd) {β : Type} (l : List β) (f g : β → ℝ) (a : ℕ) (ha : a ≤ 8) (hg : ∀ x ∈ l, 0 ≤ g x ∧ g x ≤ 2 ^ (401 : ℤ))
    (hf : ∀ x ∈ l, Sizable (f x) ∧ (1 - uu) ^ a * g x ≤ f x ∧ f x ≤ (1 + uu) ^ a * g x) (hN : l.length ≤ 2 ^ 48) {s : ℝ}
    (hs : NpSum rnd (l.map f) s) :
    Sizable s ∧ (1 - uu) ^ (l.length + a) * (l.map g).sum ≤ s ∧ s ≤ (1 + uu) ^ (l.length + a) * (l.map g).sum ∧ s ≤ 2 ^ (460 : ℤ) := by
  have u0 := uu_pos
  have u1 := uu_lt
  set G := (l.map g).sum with hG
  have hG0 : 0 ≤ G := List.sum_nonneg (by
    intro x hx
    obtain ⟨z, hz, rfl⟩ := List.mem_map.mp hx
    exact (hg z hz).1)
  have hGb : G ≤ 2 ^ (449 : ℤ) := by
    have : G ≤ (l.map fun _ => (2 : ℝ) ^ (401 : ℤ)).sum := List.sum_le_sum fun z hz => (hg z hz).2
    refine le_trans this ?_
    rw [List.map_const', List.sum_replicate, nsmul_eq_mul]
    calc (l.length : ℝ) * 2 ^ (401 : ℤ) ≤ 2 ^ (48 : ℤ) * 2 ^ (401 : ℤ) := by
          refine mul_le_mul_of_nonneg_right ?_ (by positivity)
          have : ((l.length : ℕ) : ℝ) ≤ ((2 ^ 48 : ℕ) : ℝ) := by exact_mod_cast hN
          refine le_trans this (le_of_eq (by norm_num))
      _ = 2 ^ (449 : ℤ) := by rw [← zpow_add₀ (by norm_num)]; norm_num
  have hsum : (1 - uu) ^ a * G ≤ (l.map f).sum ∧ (l.map f).sum ≤ (1 + uu) ^ a * G := by
    rw [hG, ← List.sum_map_mul_left, ← List.sum_map_mul_left]
    exact ⟨List.sum_le_sum fun z hz => (hf z hz).2.1, List.sum_le_sum fun z hz => (hf z hz).2.2⟩
  have hNu : ((l.length + a : ℕ) : ℝ) * uu ≤ 1 / 2 := by
    have h1 : ((l.length + a : ℕ) : ℝ) ≤ 2 ^ (49 : ℤ) := by
      have : ((l.length + a : ℕ) : ℝ) ≤ ((2 ^ 49 : ℕ) : ℝ) := by
        have : l.length + a ≤ 2 ^ 49 := by omega
        exact_mod_cast this
      refine le_trans this (le_of_eq (by norm_num))
    calc ((l.length + a : ℕ) : ℝ) * uu ≤ 2 ^ (49 : ℤ) * uu := mul_le_mul_of_nonneg_right h1 u0.le
      _ = 1 / 16 := by unfold uu; rw [← zpow_add₀ (by norm_num)]; norm_num
      _ ≤ 1 / 2 := by norm_num
  have hp2 : (1 + uu) ^ (l.length + a) ≤ 2 := by
    have := pow_upper hNu
    linarith
  have h2G : (1 + uu) ^ (l.length + a) * G ≤ 2 ^ (460 : ℤ) := by
    calc (1 + uu) ^ (l.length + a) * G ≤ 2 * 2 ^ (449 : ℤ) := mul_le_mul hp2 hGb hG0 (by norm_num)
      _ ≤ 2 ^ (460 : ℤ) := by
          rw [← zpow_one_add₀ (by norm_num)]
          exact zpow_le_zpow_right₀ (by norm_num) (by norm_num)
  obtain ⟨n1, hsz, k1, k2⟩ := npSum_bound hr hs (by
    intro x hx
    obtain ⟨z, hz, rfl⟩ := List.mem_map.mp hx
    exact (hf z hz).1) (by
    rw [List.length_map]
    refine le_trans ?_ (le_trans h2G (zpow_le_zpow_right₀ (by norm_num) (by norm_num)))
    calc (l.map f).sum * (1 + uu) ^ l.length ≤ (1 + uu) ^ a * G * (1 + uu) ^ l.length := mul_le_mul_of_nonneg_right hsum.2 (by positivity)
      _ = _ := by rw [pow_add]; ring)
  rw [List.length_map] at n1 k1 k2
  have up : s ≤ (1 + uu) ^ (l.length + a) * G := by
    refine le_trans k2 ?_
    calc (1 + uu) ^ (l.length - 1) * (l.map f).sum ≤ (1 + uu) ^ l.length * ((1 + uu) ^ a * G) :=
          mul_le_mul (pow_le_pow_right₀ (by linarith) (by omega)) hsum.2
            (List.sum_nonneg (by
              intro x hx
              obtain ⟨z, hz, rfl⟩ := List.mem_map.mp hx
              exact sizable_nonneg (hf z hz).1)) (by positivity)
      _ = _ := by rw [pow_add]; ring
  refine ⟨hsz, le_trans ?_ k1, up, le_trans up h2G⟩
  calc (1 - uu) ^ (l.length + a) * G = (1 - uu) ^ l.length * ((1 - uu) ^ a * G) := by rw [pow_add]; ring
    _ ≤ (1 - uu) ^ (l.length - 1) * (l.map f).sum :=
        mul_le_mul (pow_le_pow_of_le_one (by linarith) (by linarith) (by omega)) hsum.1
          (mul_nonneg (pow_nonneg (by linarith) _) hG0) (pow_nonneg (by linarith) _)

theorem hyp_bound {h : FC rnd → ℝ} (hh : IsHypot rnd h) {z : FC rnd} (hz : InRange z) :
    Sizable (h z) ∧ (1 - uu) ^ 3 * fcAbs z ≤ h z ∧ h z ≤ (1 + uu) ^ 3 * fcAbs z := by
  have u0 := uu_pos
  have u1 := uu_lt
  obtain ⟨r, d⟩ := hyp_rng hh hz
  rw [abs_le] at d
  have a0 := fcAbs_nonneg z
  refine ⟨?_, ?_, ?_⟩
  · rcases r with e | ⟨e, _⟩
    · exact Or.inl e
    · exact Or.inr (le_trans (zpow_le_zpow_right₀ (by norm_num) (by norm_num)) e)
  · have : (1 - uu) ^ 3 ≤ 1 - 2 * uu := by nlinarith [pow_pos u0 3]
    have := mul_le_mul_of_nonneg_right this a0
    linarith [d.1]
  · have : 1 + 2 * uu ≤ (1 + uu) ^ 3 := by nlinarith [pow_pos u0 3, pow_pos u0 2]
    have := mul_le_mul_of_nonneg_right this a0
    linarith [d.2]

/-- Equal, or at a distance between `2^-499` and `2^399`. -/
def Apart (a b : FC rnd) : Prop := fcDist a b = 0 ∨ ((2 : ℝ) ^ (-499 : ℤ) ≤ fcDist a b ∧ fcDist a b ≤ 2 ^ (399 : ℤ))

/-- Both parts are doubles. -/
def Dbl (a : FC rnd) : Prop := IsDouble a.re ∧ IsDouble a.im

theorem fcDist_zero {a b : FC rnd} (h : fcDist a b = 0) : a = b := by
  have h1 := abs_re_le_dist a b
  have h2 := abs_im_le_dist a b
  rw [h] at h1 h2
  ext
  · have := abs_nonpos_iff.mp h1; linarith
  · have := abs_nonpos_iff.mp h2; linarith

theorem fcDist_nonneg (a b : FC rnd) : 0 ≤ fcDist a b := Real.sqrt_nonneg _

theorem diff_hyp (hr : IsRounding rnd) {h : FC rnd → ℝ} (hh : IsHypot rnd h) {a b : FC rnd} (da : Dbl a) (db : Dbl b) (hab : Apart a b) :
    Sizable (h (a - b)) ∧ (1 - uu) ^ 4 * fcDist a b ≤ h (a - b) ∧ h (a - b) ≤ (1 + uu) ^ 4 * fcDist a b := by
  have u0 := uu_pos
  have u1 := uu_lt
  have hb : fcDist a b ≤ 2 ^ (1022 : ℤ) := by
    rcases hab with e | ⟨_, e⟩
    · rw [e]; positivity
    · exact le_trans e (zpow_le_zpow_right₀ (by norm_num) (by norm_num))
  obtain ⟨s1, s2⟩ := sub_abs hr da db hb
  have hin : InRange (a - b) := by
    rcases hab with e | ⟨e1, e2⟩
    · left
      rw [fcDist_zero e]; exact fc_sub_self hr b
    · right
      constructor
      · have : (2 : ℝ) ^ (-500 : ℤ) = 2 ^ (-1 : ℤ) * 2 ^ (-499 : ℤ) := by rw [← zpow_add₀ (by norm_num)]; norm_num
        rw [this]
        refine le_trans (mul_le_mul ?_ e1 (by positivity) (by linarith)) s1
        norm_num; linarith
      · have : (2 : ℝ) ^ (400 : ℤ) = 2 ^ (1 : ℤ) * 2 ^ (399 : ℤ) := by rw [← zpow_add₀ (by norm_num)]; norm_num
        rw [this]
        refine le_trans s2 (mul_le_mul ?_ e2 (fcDist_nonneg _ _) (by positivity))
        norm_num; linarith
  obtain ⟨q1, q2, q3⟩ := hyp_bound hh hin
  refine ⟨q1, le_trans ?_ q2, le_trans q3 ?_⟩
  · calc (1 - uu) ^ 4 * fcDist a b = (1 - uu) ^ 3 * ((1 - uu) * fcDist a b) := by ring
      _ ≤ _ := mul_le_mul_of_nonneg_left s1 (pow_nonneg (by linarith) _)
  · calc (1 + uu) ^ 3 * fcAbs (a - b) ≤ (1 + uu) ^ 3 * ((1 + uu) * fcDist a b) := mul_le_mul_of_nonneg_left s2 (by positivity)
      _ = _ := by ring

theorem apart_sum {l : List (FC rnd × FC rnd)} (h : ∀ p ∈ l, Apart p.1 p.2) :
    (l.map fun p => fcDist p.1 p.2).sum = 0 ∨ (2 : ℝ) ^ (-499 : ℤ) ≤ (l.map fun p => fcDist p.1 p.2).sum := by
  induction l with
  | nil => left; rfl
  | cons p l ih =>
    rw [List.map_cons, List.sum_cons]
    have h0 : 0 ≤ (l.map fun p => fcDist p.1 p.2).sum := List.sum_nonneg (by
      intro x hx
      obtain ⟨z, _, rfl⟩ := List.mem_map.mp hx
      exact fcDist_nonneg _ _)
    rcases h p (by simp) with e | ⟨e, _⟩
    · rw [e, zero_add]; exact ih fun q hq => h q (by simp [hq])
    · right; exact le_trans e (le_add_of_nonneg_right h0)

/-- A quotient of two sums. -/
theorem quot_bound (hr : IsRounding rnd) {n d A B : ℝ} {M : ℕ} (hM : ((3 * M + 1 : ℕ) : ℝ) * uu ≤ 1 / 2) (sd : Sizable d)
    (hd0 : d ≠ 0) (hA0 : 0 ≤ A) (hB0 : 0 ≤ B)
    (n1 : (1 - uu) ^ M * A ≤ n) (n2 : n ≤ (1 + uu) ^ M * A) (d1 : (1 - uu) ^ M * B ≤ d) (d2 : d ≤ (1 + uu) ^ M * B)
    (hq : Sizable (n / d)) (hqb : n / d ≤ 2 ^ (1022 : ℤ)) :
    |rnd (n / d) - A / B| ≤ (3 * M + 1 : ℕ) * 2 ^ (-52 : ℤ) * (A / B) := by
  have u0 := uu_pos
  have u1 := uu_lt
  have hd : 0 < d := lt_of_le_of_ne (sizable_nonneg sd) (Ne.symm hd0)
  have hp : (0 : ℝ) < (1 + uu) ^ M := by positivity
  have hm : (0 : ℝ) < (1 - uu) ^ M := pow_pos (by linarith) _
  have hB : 0 < B := by
    rcases hB0.eq_or_lt with e | e
    · rw [← e, mul_zero] at d2; exact absurd d2 (not_le.mpr hd)
    · exact e
  obtain ⟨_, r1, r2⟩ := sizable_rnd hr hq hqb
  have hQ0 : 0 ≤ A / B := by positivity
  have inv : (1 : ℝ) ≤ (1 - uu) ^ M * (1 + uu) ^ (2 * M) := by
    rw [pow_mul, ← mul_pow]
    refine one_le_pow₀ ?_
    nlinarith [pow_pos u0 2, pow_pos u0 3]
  have inv' : (1 - uu) ^ M * (1 + uu) ^ M ≤ 1 := by
    rw [← mul_pow]
    refine pow_le_one₀ (mul_nonneg (by linarith) (by linarith)) ?_
    nlinarith [pow_pos u0 2]
  have up : n / d ≤ (1 + uu) ^ (3 * M) * (A / B) := by
    rw [div_le_iff₀ hd]
    refine le_trans n2 ?_
    calc (1 + uu) ^ M * A = (1 + uu) ^ M * A * 1 := (mul_one _).symm
      _ ≤ (1 + uu) ^ M * A * ((1 - uu) ^ M * (1 + uu) ^ (2 * M)) := mul_le_mul_of_nonneg_left inv (by positivity)
      _ = (1 + uu) ^ (3 * M) * (A / B) * ((1 - uu) ^ M * B) := by
          rw [show 3 * M = M + 2 * M by ring, pow_add]
          field_simp
      _ ≤ _ := mul_le_mul_of_nonneg_left d1 (by positivity)
  have lo : (1 - uu) ^ (2 * M) * (A / B) ≤ n / d := by
    rw [le_div_iff₀ hd]
    refine le_trans ?_ n1
    calc (1 - uu) ^ (2 * M) * (A / B) * d ≤ (1 - uu) ^ (2 * M) * (A / B) * ((1 + uu) ^ M * B) :=
          mul_le_mul_of_nonneg_left d2 (mul_nonneg (pow_nonneg (by linarith) _) hQ0)
      _ = (1 - uu) ^ M * A * ((1 - uu) ^ M * (1 + uu) ^ M) := by
          rw [show 2 * M = M + M by ring, pow_add]
          field_simp
      _ ≤ (1 - uu) ^ M * A * 1 := mul_le_mul_of_nonneg_left inv' (mul_nonneg hm.le hA0)
      _ = _ := mul_one _
  have f2 : rnd (n / d) ≤ (1 + uu) ^ (3 * M + 1) * (A / B) := by
    refine le_trans r2 (le_trans (mul_le_mul_of_nonneg_left up (by linarith)) (le_of_eq ?_))
    rw [pow_succ]; ring
  have f1 : (1 - uu) ^ (3 * M + 1) * (A / B) ≤ rnd (n / d) := by
    refine le_trans ?_ r1
    calc (1 - uu) ^ (3 * M + 1) * (A / B) = (1 - uu) * ((1 - uu) ^ (3 * M) * (A / B)) := by rw [pow_succ]; ring
      _ ≤ (1 - uu) * ((1 - uu) ^ (2 * M) * (A / B)) := mul_le_mul_of_nonneg_left
          (mul_le_mul_of_nonneg_right (pow_le_pow_of_le_one (by linarith) (by linarith) (by omega)) hQ0) (by linarith)
      _ ≤ _ := mul_le_mul_of_nonneg_left lo (by linarith)
  have w1 := mul_le_mul_of_nonneg_right (pow_upper hM) hQ0
  have w2 := mul_le_mul_of_nonneg_right (pow_lower (3 * M + 1)) hQ0
  rw [two_uu]
  generalize hk : (((3 * M + 1 : ℕ) : ℝ)) = k at *
  have hk0 : 0 ≤ k := by rw [← hk]; positivity
  have hkQ : 0 ≤ k * uu * (A / B) := by positivity
  clear hqb
  rw [abs_le]
  constructor
  · refine le_trans ?_ (sub_le_sub_right (le_trans w2 f1) _)
    linarith
  · refine le_trans (sub_le_sub_right (le_trans f2 w1) _) ?_
    linarith

end FN

open FN

/-- C111, `compare_relative(c, d)`: for sets of equal limits with at most `2^48` values, all values of `c` 0 or of a magnitude between
`2^-500` and `2^400`, corresponding values equal or at a distance between `2^-499` and `2^399`: the quotient returned is off by
at most `(3 N + 13) 2^-52` relative, and it is 0 exactly when the two sets are equal. -/
theorem c111_compare (hr : IsRounding rnd) (h : FC rnd → ℝ) (hh : IsHypot rnd h) (c d : ScalarCoefs (FC rnd)) (hlen : c.vec.length = d.vec.length)
    (hN : c.vec.length ≤ 2 ^ 48) (hc : ∀ z ∈ c.vec, InRange z ∧ Dbl z) (hd : ∀ z ∈ d.vec, Dbl z)
    (hcd : ∀ i (h1 : i < c.vec.length) (h2 : i < d.vec.length), Apart c.vec[i] d.vec[i]) (q : ℝ) (hq : FloatCompare rnd h c d q) (num den : ℝ)
    (hnum : num = (List.zipWith fcDist c.vec d.vec).sum) (hden : den = (c.vec.map fcAbs).sum) :
    |q - num / den| ≤ (3 * c.vec.length + 13) * 2 ^ (-52 : ℤ) * (num / den) ∧ (q = 0 ↔ c.vec = d.vec) := by
  have u0 := uu_pos
  have u1 := uu_lt
  obtain ⟨v, n, dn, hv, hn, hdn, hdn0, rfl⟩ := hq
  unfold bcast at hv
  rw [if_pos hlen] at hv
  cases hv
  have hmem : ∀ p ∈ c.vec.zip d.vec, Dbl p.1 ∧ Dbl p.2 ∧ Apart p.1 p.2 := by
    intro p hp
    obtain ⟨i, hi, rfl⟩ := List.mem_iff_getElem.mp hp
    rw [List.length_zip] at hi
    rw [List.getElem_zip]
    exact ⟨(hc _ (List.getElem_mem _)).2, hd _ (List.getElem_mem _), hcd i (by omega) (by omega)⟩
  have hn' : NpSum rnd ((c.vec.zip d.vec).map fun p => h (p.1 - p.2)) n := by
    convert hn using 1
    rw [List.zip, List.map_zipWith, List.map_zipWith]
  have hA : num = ((c.vec.zip d.vec).map fun p => fcDist p.1 p.2).sum := by
    rw [hnum, List.zip, List.map_zipWith]
  have hzl : (c.vec.zip d.vec).length = c.vec.length := by rw [List.length_zip]; omega
  obtain ⟨ns, n1, n2, nb⟩ := lin_bound hr (c.vec.zip d.vec) (fun p => h (p.1 - p.2)) (fun p => fcDist p.1 p.2) 4 (by norm_num) (by
    intro p hp
    refine ⟨fcDist_nonneg _ _, ?_⟩
    rcases (hmem p hp).2.2 with e | ⟨_, e⟩
    · show fcDist p.1 p.2 ≤ _
      rw [e]; positivity
    · exact le_trans e (zpow_le_zpow_right₀ (by norm_num) (by norm_num))) (by
    intro p hp
    obtain ⟨a, b, e⟩ := hmem p hp
    exact diff_hyp hr hh a b e) (by omega) hn'
  obtain ⟨ds, d1, d2, db⟩ := lin_bound hr c.vec h fcAbs 4 (by norm_num) (by
    intro z hz
    refine ⟨fcAbs_nonneg _, ?_⟩
    rcases (hc z hz).1 with e | ⟨_, e⟩
    · rw [e, fcAbs_zero]; positivity
    · exact le_trans e (zpow_le_zpow_right₀ (by norm_num) (by norm_num))) (by
    intro z hz
    obtain ⟨a, b, e⟩ := hyp_bound hh (hc z hz).1
    have a0 := fcAbs_nonneg z
    refine ⟨a, le_trans ?_ b, le_trans e ?_⟩
    · exact mul_le_mul_of_nonneg_right (pow_le_pow_of_le_one (by linarith) (by linarith) (by norm_num)) a0
    · exact mul_le_mul_of_nonneg_right (pow_le_pow_right₀ (by linarith) (by norm_num)) a0) hN hdn
  rw [hzl, ← hA] at n1 n2
  rw [← hden] at d1 d2
  have hA0 : 0 ≤ num := by
    rw [hA]
    refine List.sum_nonneg ?_
    intro x hx
    obtain ⟨z, _, rfl⟩ := List.mem_map.mp hx
    exact fcDist_nonneg _ _
  have hB0 : 0 ≤ den := by
    rw [hden]
    refine List.sum_nonneg ?_
    intro x hx
    obtain ⟨z, _, rfl⟩ := List.mem_map.mp hx
    exact fcAbs_nonneg _
  have hMu : ((3 * (c.vec.length + 4) + 1 : ℕ) : ℝ) * uu ≤ 1 / 8 := by
    have h1 : ((3 * (c.vec.length + 4) + 1 : ℕ) : ℝ) ≤ 2 ^ (50 : ℤ) := by
      have : ((3 * (c.vec.length + 4) + 1 : ℕ) : ℝ) ≤ ((2 ^ 50 : ℕ) : ℝ) := by
        have : 3 * (c.vec.length + 4) + 1 ≤ 2 ^ 50 := by omega
        exact_mod_cast this
      refine le_trans this (le_of_eq (by norm_num))
    calc _ ≤ 2 ^ (50 : ℤ) * uu := mul_le_mul_of_nonneg_right h1 u0.le
      _ = 1 / 8 := by unfold uu; rw [← zpow_add₀ (by norm_num)]; norm_num
  have dpos : 0 < dn := lt_of_le_of_ne (sizable_nonneg ds) (Ne.symm hdn0)
  have nlow : n = 0 ∨ (2 : ℝ) ^ (-500 : ℤ) ≤ n := by
    rcases apart_sum (l := c.vec.zip d.vec) (fun p hp => (hmem p hp).2.2) with e | e
    · left
      rw [← hA] at e
      rw [e, mul_zero] at n2
      exact le_antisymm n2 (sizable_nonneg ns)
    · right
      rw [← hA] at e
      refine le_trans ?_ n1
      have e1 : (2 : ℝ) ^ (-500 : ℤ) = 2 ^ (-1 : ℤ) * 2 ^ (-499 : ℤ) := by rw [← zpow_add₀ (by norm_num)]; norm_num
      rw [e1]
      refine mul_le_mul ?_ e (by positivity) (pow_nonneg (by linarith) _)
      refine le_trans ?_ (pow_lower _)
      have h3 : ((c.vec.length + 4 : ℕ) : ℝ) * uu ≤ ((3 * (c.vec.length + 4) + 1 : ℕ) : ℝ) * uu := by
        refine mul_le_mul_of_nonneg_right ?_ u0.le
        have : c.vec.length + 4 ≤ 3 * (c.vec.length + 4) + 1 := by omega
        exact_mod_cast this
      have h4 : (2 : ℝ) ^ (-1 : ℤ) = 1 / 2 := by norm_num
      rw [h4]
      clear e e1 nb db
      linarith
  have dlow : (2 : ℝ) ^ (-510 : ℤ) ≤ dn := by
    by_contra hc'
    push Not at hc'
    -- every magnitude of `c` is 0, or the sum is large
    have key : ∀ l : List (FC rnd), (∀ z ∈ l, InRange z) → (l.map fcAbs).sum = 0 ∨ (2 : ℝ) ^ (-500 : ℤ) ≤ (l.map fcAbs).sum := by
      intro l hl
      induction l with
      | nil => left; rfl
      | cons a l ih =>
        rw [List.map_cons, List.sum_cons]
        have h0 : 0 ≤ (l.map fcAbs).sum := List.sum_nonneg (by
          intro x hx
          obtain ⟨z, _, rfl⟩ := List.mem_map.mp hx
          exact fcAbs_nonneg _)
        rcases hl a (by simp) with e | ⟨e, _⟩
        · rw [e, fcAbs_zero, zero_add]; exact ih fun z hz => hl z (by simp [hz])
        · right; exact le_trans e (le_add_of_nonneg_right h0)
    rcases key c.vec (fun z hz => (hc z hz).1) with e | e
    · rw [← hden] at e
      rw [e, mul_zero] at d2
      exact absurd d2 (not_le.mpr dpos)
    · rw [← hden] at e
      have : (2 : ℝ) ^ (-510 : ℤ) ≤ dn := by
        refine le_trans ?_ d1
        have e1 : (2 : ℝ) ^ (-510 : ℤ) ≤ 2 ^ (-1 : ℤ) * 2 ^ (-500 : ℤ) := by
          rw [← zpow_add₀ (by norm_num)]; exact zpow_le_zpow_right₀ (by norm_num) (by norm_num)
        refine le_trans e1 (mul_le_mul ?_ e (by positivity) (pow_nonneg (by linarith) _))
        refine le_trans ?_ (pow_lower _)
        have h3 : ((c.vec.length + 4 : ℕ) : ℝ) * uu ≤ ((3 * (c.vec.length + 4) + 1 : ℕ) : ℝ) * uu := by
          refine mul_le_mul_of_nonneg_right ?_ u0.le
          have : c.vec.length + 4 ≤ 3 * (c.vec.length + 4) + 1 := by omega
          exact_mod_cast this
        have h4 : (2 : ℝ) ^ (-1 : ℤ) = 1 / 2 := by norm_num
        rw [h4]
        clear e e1 nb db nlow hc'
        linarith
      exact absurd hc' (not_lt.mpr this)
  have qs : Sizable (n / dn) := by
    rcases nlow with e | e
    · left; rw [e, zero_div]
    · right
      rw [le_div_iff₀ dpos]
      refine le_trans (mul_le_mul_of_nonneg_left db (by positivity)) (le_trans ?_ e)
      rw [← zpow_add₀ (by norm_num)]
      exact zpow_le_zpow_right₀ (by norm_num) (by norm_num)
  have qb : n / dn ≤ 2 ^ (1022 : ℤ) := by
    rw [div_le_iff₀ dpos]
    refine le_trans nb (le_trans ?_ (mul_le_mul_of_nonneg_left dlow (by positivity)))
    rw [← zpow_add₀ (by norm_num)]
    exact zpow_le_zpow_right₀ (by norm_num) (by norm_num)
  have main := quot_bound hr (M := c.vec.length + 4) (le_trans hMu (by norm_num)) ds hdn0 hA0 hB0 n1 n2 d1 d2 qs qb
  have e13 : ((3 * (c.vec.length + 4) + 1 : ℕ) : ℝ) = 3 * c.vec.length + 13 := by push_cast; ring
  refine ⟨by rw [← e13]; exact main, ?_⟩
  constructor
  · intro hz
    rw [hz, zero_sub, abs_neg, two_uu] at main
    have hQ0 : 0 ≤ num / den := by positivity
    rw [abs_of_nonneg hQ0] at main
    have hk : ((3 * (c.vec.length + 4) + 1 : ℕ) : ℝ) * (2 * uu) * (num / den) ≤ 1 / 4 * (num / den) :=
      mul_le_mul_of_nonneg_right (by linarith) hQ0
    have hQ : num / den = 0 := by
      clear nb db nlow dlow qb qs
      linarith
    have hBne : den ≠ 0 := by
      intro e
      rw [e, mul_zero] at d2
      exact absurd d2 (not_le.mpr dpos)
    have hnum0 : num = 0 := by
      rcases div_eq_zero_iff.mp hQ with e | e
      · exact e
      · exact absurd e hBne
    apply List.ext_getElem hlen
    intro i h1 h2
    apply fcDist_zero
    rw [hnum] at hnum0
    refine le_antisymm ?_ (fcDist_nonneg _ _)
    rw [← hnum0]
    refine List.single_le_sum ?_ _ ?_
    · intro x hx
      obtain ⟨k, hk, rfl⟩ := List.mem_iff_getElem.mp hx
      rw [List.getElem_zipWith]
      exact fcDist_nonneg _ _
    · rw [List.mem_iff_getElem]
      exact ⟨i, by rw [List.length_zipWith]; omega, by rw [List.getElem_zipWith]⟩
  · intro e
    have hnum0 : num = 0 := by
      rw [hnum, e, List.zipWith_self]
      refine List.sum_eq_zero ?_
      intro x hx
      obtain ⟨z, _, rfl⟩ := List.mem_map.mp hx
      unfold fcDist; simp
    rw [hnum0, zero_div, sub_zero, mul_zero] at main
    exact abs_nonpos_iff.mp main

end Verif.Props
