import Verif.Props.FloatVec1
import Verif.VecOps
/-!
# `divsin_fc` and `L_fc` in doubles against the exact operators
-/
namespace Verif.Props
open Verif Finset

variable {rnd : ℝ → ℝ}

namespace FV

/-- How many of the frequencies `-N..N` lie above `ν`. -/
def cnt (N : ℕ) (ν : ℤ) : ℕ := min ((N : ℤ) - ν).toNat (2 * N + 1)

/-- `divsin_fc` in doubles: the recursion accumulates at most one rounding error per nonzero row; a column of zeros stays zero. -/
theorem divsin_err (hrd : NoOverflow rnd) (f : Arr2 (FC rnd)) (N L : ℕ) (hR : f.rows = 2 * L) (hL : N + 1 ≤ L) (hN : N ≤ 1000) (hc : 0 < f.cols) (a h : ℤ → ℤ → ℂ) {A ea : ℝ}
    (hA : 0 ≤ A) (ht : tiny ≤ uu * A / 1000) (hA' : (2 * N + 2) * A ≤ 2 ^ (1000 : ℤ)) (hea : ea ≤ A / 100)
    (ha : ∀ m ν : ℤ, |ν| ≤ (L : ℤ) - 1 → ‖a m ν‖ ≤ A ∧ ‖FS.val (fA f m ν) - a m ν‖ ≤ ea)
    (hz : ∀ m ν : ℤ, (N : ℤ) < |ν| → |ν| ≤ (L : ℤ) - 1 → fA f m ν = 0 ∧ a m ν = 0)
    (hsup : ∀ m ν : ℤ, (L : ℤ) - 1 ≤ |ν| → h m ν = 0)
    (hrec : ∀ m ν : ℤ, |ν| ≤ (L : ℤ) - 1 → h m (ν - 1) - h m (ν + 1) = 2 * Complex.I * a m ν) :
    ∃ g, Fl.divsinFc rnd f = .ok g ∧ g.rows = f.rows ∧ g.cols = f.cols ∧ (∀ m ν : ℤ, -(L : ℤ) ≤ ν → ν < L → FS.Fix (fA g m ν) ∧
      ‖FS.val (fA g m ν) - h m ν‖ ≤ (2 * N + 1) * stepErr A ea (2 * N + 2) ∧ ‖h m ν‖ ≤ (2 * N + 1) * (2 * A)) ∧
      ∀ m : ℤ, (∀ ν, fA f m ν = 0) → ∀ ν : ℤ, -(L : ℤ) ≤ ν → ν < L → fA g m ν = 0 := by
  have fix0 : FS.Fix (0 : FC rnd) := ⟨FS.rnd0 hrd, FS.rnd0 hrd⟩
  have e0 : 0 ≤ stepErr A ea (2 * N + 2) := by
    have := (norm_nonneg _).trans (ha 0 0 (by simp; omega)).2
    have := uu_pos
    unfold stepErr; positivity
  unfold Fl.divsinFc
  rw [if_neg (by omega)]
  simp only
  have hr : 0 < f.rows := by omega
  have hL' : (f.rows : ℤ) / 2 = L := by omega
  rw [hL']
  set L2 : ℤ := (L : ℤ) - 2 with hL2
  unfold pyRangeNeg
  rw [List.foldl_map]
  have wr : ∀ ν μ : ℤ, -(L : ℤ) ≤ ν → ν < L → -(L : ℤ) ≤ μ → μ < L → ((ν % f.rows).toNat = (μ % f.rows).toNat ↔ ν = μ) := by
    intro ν μ h1 h2 h3 h4
    rw [wrap_mod (by omega) (by omega), wrap_mod (by omega) (by omega)]
    split <;> split <;> omega
  -- what holds of a finished entry
  let Good : Arr2 (FC rnd) → ℤ → ℤ → Prop := fun g m ν => FS.Fix (fA g m ν) ∧ ‖FS.val (fA g m ν) - h m ν‖ ≤ (cnt N ν : ℕ) * stepErr A ea (2 * N + 2) ∧
    ‖h m ν‖ ≤ (cnt N ν : ℕ) * (2 * A) ∧ ((∀ ν, fA f m ν = 0) → fA g m ν = 0)
  -- one step
  have step : ∀ (x g : FC rnd) (m k : ℤ), |k| ≤ (L : ℤ) - 1 → x = fA f m k → FS.Fix g → ‖FS.val g - h m (k + 1)‖ ≤ (cnt N (k + 1) : ℕ) * stepErr A ea (2 * N + 2) →
      ‖h m (k + 1)‖ ≤ (cnt N (k + 1) : ℕ) * (2 * A) → ((∀ ν, fA f m ν = 0) → g = 0) →
      FS.Fix ((2 : FC rnd) * ⟨0, 1⟩ * x + g) ∧ ‖FS.val ((2 : FC rnd) * ⟨0, 1⟩ * x + g) - h m (k - 1)‖ ≤ (cnt N (k - 1) : ℕ) * stepErr A ea (2 * N + 2) ∧
      ‖h m (k - 1)‖ ≤ (cnt N (k - 1) : ℕ) * (2 * A) ∧ ((∀ ν, fA f m ν = 0) → (2 : FC rnd) * ⟨0, 1⟩ * x + g = 0) := by
    intro x g m k hk hx hf hg hh hg0
    have hzero : (∀ ν, fA f m ν = 0) → (2 : FC rnd) * ⟨0, 1⟩ * x + g = 0 := fun hall => by
      rw [hg0 hall, hx, hall, two_i hrd, im_mul_zero hrd]
      exact zero_add_fix fix0
    have hr' := hrec m k hk
    have hh' : h m (k - 1) = 2 * Complex.I * a m k + h m (k + 1) := by rw [← hr']; ring
    by_cases hkN : |k| ≤ N
    · have hcn : cnt N (k + 1) + 1 ≤ cnt N (k - 1) := by
        unfold cnt
        rw [abs_le] at hkN
        omega
      have hcn' : ((cnt N (k + 1) : ℕ) : ℝ) + 1 ≤ (cnt N (k - 1) : ℕ) := by exact_mod_cast hcn
      have hK : ((cnt N (k + 1) : ℕ) : ℝ) + 1 ≤ 2 * N + 2 := by
        have : cnt N (k + 1) ≤ 2 * N + 1 := min_le_right _ _
        have : ((cnt N (k + 1) : ℕ) : ℝ) ≤ 2 * N + 1 := by exact_mod_cast this
        linarith
      have hN' : (N : ℝ) ≤ 1000 := by exact_mod_cast hN
      obtain ⟨s1, s2⟩ := step_err hrd (x := x) (g := g) (a := a m k) (h := h m (k + 1)) hK (by norm_num; linarith) hA ht hA' hea (ha m k hk).1 (by rw [hx]; exact (ha m k hk).2) hg hh
      rw [← hh'] at s1 s2
      exact ⟨add_fix hrd _ _, s1.trans (mul_le_mul_of_nonneg_right hcn' e0), s2.trans (mul_le_mul_of_nonneg_right hcn' (by positivity)), hzero⟩
    · obtain ⟨z1, z2⟩ := hz m k (by omega) hk
      have hcn : cnt N (k + 1) ≤ cnt N (k - 1) := by unfold cnt; omega
      have hcn' : ((cnt N (k + 1) : ℕ) : ℝ) ≤ (cnt N (k - 1) : ℕ) := by exact_mod_cast hcn
      have e : (2 : FC rnd) * ⟨0, 1⟩ * x + g = g := by
        rw [hx, z1, two_i hrd, im_mul_zero hrd]
        exact zero_add_fix hf
      rw [z2, mul_zero, zero_add] at hh'
      rw [e] at hzero ⊢
      rw [hh']
      exact ⟨hf, hg.trans (mul_le_mul_of_nonneg_right hcn' e0), hh.trans (mul_le_mul_of_nonneg_right hcn' (by positivity)), hzero⟩
  have triv : ∀ m ν : ℤ, h m ν = 0 → ∀ g : Arr2 (FC rnd), fA g m ν = 0 → Good g m ν := by
    intro m ν hh g hg
    refine ⟨by rw [hg]; exact fix0, ?_, ?_, fun _ => hg⟩
    · rw [hg, hh, FS.val_zero, sub_zero, norm_zero]; positivity
    · rw [hh, norm_zero]; positivity
  have key := foldl_range_inv
    (P := fun j (g : Arr2 (FC rnd)) => g.rows = f.rows ∧ g.cols = f.cols ∧ ∀ m ν : ℤ, -(L : ℤ) ≤ ν → ν < L → (L2 - j ≤ ν → Good g m ν) ∧ (ν < L2 - j → fA g m ν = 0))
    (step := fun g k => Fl.divsinStep rnd f g (L2 - 1 * (k : ℤ))) (n := ((L2 - -L2 + 1 - 1) / 1).toNat)
    (s := (Arr2.ofFn f.rows f.cols fun _ _ => (0 : FC rnd)).setRow (Arr2.wrap (Arr2.ofFn f.rows f.cols fun _ _ => (0 : FC rnd)).rows L2)
      fun j => (2 : FC rnd) * ⟨0, 1⟩ * f.at' (Arr2.wrap f.rows ((L : ℤ) - 1)) j)
    ⟨rfl, rfl, fun m ν h1 h2 => ?_⟩ ?_
  · obtain ⟨k1, k2, k3⟩ := key
    have fin : ∀ g : Arr2 (FC rnd), (∀ m ν : ℤ, -(L : ℤ) ≤ ν → ν < L → (L2 - (((L2 - -L2 + 1 - 1) / 1).toNat : ℤ) ≤ ν → Good g m ν) ∧
        (ν < L2 - (((L2 - -L2 + 1 - 1) / 1).toNat : ℤ) → fA g m ν = 0)) → ∀ m ν : ℤ, -(L : ℤ) ≤ ν → ν < L → Good g m ν := by
      intro g hg m ν h1 h2
      obtain ⟨x1, x2⟩ := hg m ν h1 h2
      by_cases hx : L2 - (((L2 - -L2 + 1 - 1) / 1).toNat : ℤ) ≤ ν
      · exact x1 hx
      · exact triv m ν (hsup m ν (by rw [le_abs]; omega)) _ (x2 (by omega))
    replace fin := fin _ k3
    refine ⟨_, rfl, k1, k2, fun m ν h1 h2 => ?_, fun m hall ν h1 h2 => (fin m ν h1 h2).2.2.2 hall⟩
    obtain ⟨f1, f2, f3, -⟩ := fin m ν h1 h2
    have hcn : cnt N ν ≤ 2 * N + 1 := min_le_right _ _
    have hcn' : ((cnt N ν : ℕ) : ℝ) ≤ 2 * N + 1 := by exact_mod_cast hcn
    exact ⟨f1, f2.trans (mul_le_mul_of_nonneg_right hcn' e0), f3.trans (mul_le_mul_of_nonneg_right hcn' (by positivity))⟩
  · -- the first row
    have hrow : ∀ ν : ℤ, -(L : ℤ) ≤ ν → ν < L → fA ((Arr2.ofFn f.rows f.cols fun _ _ => (0 : FC rnd)).setRow (Arr2.wrap (Arr2.ofFn f.rows f.cols fun _ _ => (0 : FC rnd)).rows L2)
      fun j => (2 : FC rnd) * ⟨0, 1⟩ * f.at' (Arr2.wrap f.rows ((L : ℤ) - 1)) j) m ν = if ν = L2 then (2 : FC rnd) * ⟨0, 1⟩ * fA f m ((L : ℤ) - 1) else 0 := by
      intro ν h1 h2
      rw [fA_setRow (Arr2.ofFn f.rows f.cols fun _ _ => (0 : FC rnd)) f.rows f.cols rfl rfl _ _ hr hc, Arr2.rows_ofFn,
        wrap_eq_mod (R := f.rows) (ν := L2) (by omega) (by omega), wrap_eq_mod (R := f.rows) (by omega) (by omega), fA_ofFn _ _ _ hr hc]
      simp only [wr ν L2 h1 h2 (by omega) (by omega)]
      rfl
    constructor
    · intro hge
      by_cases hv : ν = L2
      · have hs := step (fA f m ((L : ℤ) - 1)) 0 m ((L : ℤ) - 1) (by rw [abs_le]; omega) rfl fix0
          (by rw [FS.val_zero, hsup m _ (by rw [le_abs]; omega), sub_zero, norm_zero]; positivity)
          (by rw [hsup m _ (by rw [le_abs]; omega), norm_zero]; positivity) (fun _ => rfl)
        have e : ∀ z : FC rnd, FS.Fix z → z + 0 = z := by
          intro z hz'
          show (⟨rnd (z.re + 0), rnd (z.im + 0)⟩ : FC rnd) = z
          rw [add_zero, add_zero, hz'.1, hz'.2]
        rw [e _ (by rw [two_i hrd]; exact im_mul_fix hrd _ _), show (L : ℤ) - 1 - 1 = ν by omega] at hs
        have := hrow ν h1 h2
        rw [if_pos hv] at this
        refine ⟨?_, ?_, ?_, ?_⟩
        · rw [this]; exact hs.1
        · rw [this]; exact hs.2.1
        · exact hs.2.2.1
        · rw [this]; exact hs.2.2.2
      · exact triv m ν (hsup m ν (by rw [le_abs]; omega)) _ (by rw [hrow ν h1 h2, if_neg hv])
    · intro hlt
      rw [hrow ν h1 h2, if_neg (by omega)]
  · rintro j g hj ⟨g1, g2, g3⟩
    have hjj : (j : ℤ) < 2 * L2 := by omega
    refine ⟨by unfold Fl.divsinStep Arr2.setRow; simpa using g1, by unfold Fl.divsinStep Arr2.setRow; simpa using g2, fun m ν h1 h2 => ?_⟩
    set k : ℤ := L2 - 1 * j with hk
    have hrow : ∀ ν : ℤ, -(L : ℤ) ≤ ν → ν < L → fA (Fl.divsinStep rnd f g k) m ν = if ν = k - 1 then (2 : FC rnd) * ⟨0, 1⟩ * fA f m k + fA g m (k + 1) else fA g m ν := by
      intro ν h1 h2
      unfold Fl.divsinStep
      rw [fA_setRow _ f.rows f.cols g1 g2 _ _ (by omega) (by omega), g1]
      rw [wrap_eq_mod (R := f.rows) (ν := k - 1) (by omega) (by omega), wrap_eq_mod (R := f.rows) (ν := k) (by omega) (by omega),
        wrap_eq_mod (R := f.rows) (ν := k + 1) (by omega) (by omega)]
      simp only [wr ν (k - 1) h1 h2 (by omega) (by omega)]
      unfold fA
      rw [g1, g2]
    constructor
    · intro hge
      by_cases hv : ν = k - 1
      · obtain ⟨p1, p2, p3, p4⟩ := (g3 m (k + 1) (by omega) (by omega)).1 (by omega)
        have hs := step (fA f m k) (fA g m (k + 1)) m k (by rw [abs_le]; omega) rfl p1 p2 p3 p4
        have := hrow ν h1 h2
        rw [if_pos hv] at this
        rw [← hv] at hs
        refine ⟨?_, ?_, ?_, ?_⟩
        · rw [this]; exact hs.1
        · rw [this]; exact hs.2.1
        · exact hs.2.2.1
        · rw [this]; exact hs.2.2.2
      · have := hrow ν h1 h2
        rw [if_neg hv] at this
        obtain ⟨p1, p2, p3, p4⟩ := (g3 m ν h1 h2).1 (by push_cast at hge; omega)
        exact ⟨by rw [this]; exact p1, by rw [this]; exact p2, p3, by rw [this]; exact p4⟩
    · intro hlt
      push_cast at hlt
      rw [hrow ν h1 h2, if_neg (by omega)]
      exact (g3 m ν h1 h2).2 (by omega)

theorem ofInt_fix (hrd : NoOverflow rnd) (q : ℤ) : rnd (Fl.ofInt rnd q) = Fl.ofInt rnd q := hrd.idem _

/-- An entry of `dphi_fc` or `dtheta_fc`. -/
theorem deriv_err (hrd : NoOverflow rnd) {q : ℤ} {x : FC rnd} {z : ℂ} {Γ E : ℝ} {Q : ℕ} (hQ : Q ≤ 2 ^ 40) (hE : E ≤ Γ / 100) (ht : tiny ≤ uu * Γ / 1000) (hG0 : 0 ≤ Γ)
    (hB : (Q + 1) * Γ ≤ 2 ^ (1000 : ℤ)) (hz : ‖z‖ ≤ Γ) (hx : ‖FS.val x - z‖ ≤ E) (h0 : (Q : ℤ) < |q| → x = 0 ∧ z = 0) :
    FS.Fix ((⟨0, 1⟩ : FC rnd) * ⟨Fl.ofInt rnd q, 0⟩ * x) ∧ ‖FS.val ((⟨0, 1⟩ : FC rnd) * ⟨Fl.ofInt rnd q, 0⟩ * x) - Complex.I * q * z‖ ≤ (Q + 1) * (E + 4 * uu * Γ) ∧
      ‖Complex.I * q * z‖ ≤ (Q + 1) * Γ ∧ (x = 0 → (⟨0, 1⟩ : FC rnd) * ⟨Fl.ofInt rnd q, 0⟩ * x = 0) := by
  have E0 : 0 ≤ E := (norm_nonneg _).trans hx
  have u0 := uu_pos
  rw [iq_eq hrd (ofInt_fix hrd q)]
  have hx0 : x = 0 → (⟨0, Fl.ofInt rnd q⟩ : FC rnd) * x = 0 := fun h => by rw [h, im_mul_zero hrd]
  refine ⟨im_mul_fix hrd _ _, ?_, ?_, hx0⟩
  · by_cases hq : (Q : ℤ) < |q|
    · obtain ⟨a, b⟩ := h0 hq
      rw [hx0 a, b, mul_zero, FS.val_zero, sub_zero, norm_zero]
      positivity
    · have e : Fl.ofInt rnd q = q := ofInt_eq hrd.toIsRounding (by omega)
      rw [e]
      have hq' : |(q : ℝ)| ≤ Q + 1 := by
        have : |q| ≤ (Q : ℤ) := by omega
        have : |(q : ℝ)| ≤ Q := by exact_mod_cast this
        linarith
      have q1 : (1 : ℝ) ≤ Q + 1 := by
        have : (0 : ℝ) ≤ Q := Nat.cast_nonneg Q
        linarith
      have := im_err hrd (q := (q : ℝ)) (x := x) (z := z) (E := E) (Q := Q + 1) hq' (by linarith) ht hG0 q1 hB hz hx
      simpa using this
  · by_cases hq : (Q : ℤ) < |q|
    · rw [(h0 hq).2, mul_zero, norm_zero]; positivity
    · rw [norm_mul, norm_mul, Complex.norm_I, one_mul, Complex.norm_intCast]
      refine mul_le_mul ?_ hz (norm_nonneg _) (by positivity)
      have : |q| ≤ (Q : ℤ) := by omega
      have : |(q : ℝ)| ≤ Q := by exact_mod_cast this
      linarith

/-- `L_fc` in doubles against `L_fc`, on arrays whose entries differ by at most `E` and have modulus at most `Γ`. -/
theorem lFc_err (hrd : NoOverflow rnd) (fh : Arr2 (FC rnd)) (f : Arr2 ℂ) (N M L k : ℕ) (hR : fh.rows = 2 * L) (hR' : f.rows = 2 * L) (hC : fh.cols = k) (hC' : f.cols = k)
    (hk : 0 < k) (hk2 : k % 2 = 0) (hL : N + 1 ≤ L) (hN : N ≤ 1000) (hM : M ≤ 1000) {Γ E : ℝ} (hG0 : 0 ≤ Γ) (ht : tiny ≤ uu * Γ / 1000) (hB : (2 * N + 2) * ((M + 1) * Γ) ≤ 2 ^ (1000 : ℤ))
    (hE : E ≤ Γ / 1000) (h : ℤ → ℤ → ℂ) (hf : ∀ m ν : ℤ, ‖fAt f m ν‖ ≤ Γ ∧ ‖FS.val (fA fh m ν) - fAt f m ν‖ ≤ E)
    (hrow : ∀ m ν : ℤ, -(L : ℤ) ≤ ν → ν < L → (N : ℤ) < |ν| → fA fh m ν = 0 ∧ fAt f m ν = 0)
    (hcol : ∀ m ν : ℤ, (M : ℤ) < |freqList k (m % k).toNat| → fA fh m ν = 0 ∧ fAt f m ν = 0 ∧ h m ν = 0)
    (hsup : ∀ m ν : ℤ, (L : ℤ) - 1 ≤ |ν| → h m ν = 0)
    (hrec : ∀ m ν : ℤ, |ν| ≤ (L : ℤ) - 1 → (h m (ν - 1) - h m (ν + 1)) / (2 * Complex.I) = (freqList k (m % k).toNat : ℂ) * fAt f m ν) :
    ∃ gh g, Fl.lFc rnd fh = .ok gh ∧ lFc f = .ok g ∧ gh.1.rows = 2 * L ∧ gh.1.cols = k ∧ gh.2.rows = 2 * L ∧ gh.2.cols = k ∧
      g.1.rows = 2 * L ∧ g.1.cols = k ∧ g.2.rows = 2 * L ∧ g.2.cols = k ∧ ∀ m ν : ℤ, -(L : ℤ) ≤ ν → ν < L → FS.Fix (fA gh.1 m ν) ∧ FS.Fix (fA gh.2 m ν) ∧
        ‖fAt g.1 m ν‖ ≤ (2 * N + 1) * (2 * ((M + 1) * Γ)) ∧ ‖fAt g.2 m ν‖ ≤ (N + 1) * Γ ∧
        ‖FS.val (fA gh.1 m ν) - fAt g.1 m ν‖ ≤ (2 * N + 1) * stepErr ((M + 1) * Γ) ((M + 1) * (E + 4 * uu * Γ)) (2 * N + 2) ∧
        ‖FS.val (fA gh.2 m ν) - fAt g.2 m ν‖ ≤ (N + 1) * (E + 4 * uu * Γ) ∧
        ((M : ℤ) < |freqList k (m % k).toNat| → fA gh.1 m ν = 0 ∧ fA gh.2 m ν = 0 ∧ fAt g.1 m ν = 0 ∧ fAt g.2 m ν = 0) := by
  have u0 := uu_pos
  have u1 := FA.uu_le
  have hN1 : (0 : ℝ) ≤ N := Nat.cast_nonneg N
  have hM1 : (0 : ℝ) ≤ M := Nat.cast_nonneg M
  have hI : (2 * Complex.I) ≠ 0 := mul_ne_zero two_ne_zero Complex.I_ne_zero
  have MG : Γ ≤ (M + 1) * Γ := le_mul_of_one_le_left hG0 (by linarith)
  have MG0 : 0 ≤ (M + 1) * Γ := by positivity
  have hBM : ((M : ℝ) + 1) * Γ ≤ 2 ^ (1000 : ℤ) := le_trans (le_mul_of_one_le_left MG0 (by linarith)) hB
  have hBN : ((N : ℝ) + 1) * Γ ≤ 2 ^ (1000 : ℤ) := by
    refine le_trans ?_ hB
    have : ((N : ℝ) + 1) * Γ ≤ (2 * N + 2) * Γ := mul_le_mul_of_nonneg_right (by linarith) hG0
    exact this.trans (mul_le_mul_of_nonneg_left MG (by positivity))
  have uG : uu * Γ ≤ Γ / 10 ^ 9 := by
    have := mul_le_mul_of_nonneg_right u1 hG0
    linarith
  -- the exact operator
  obtain ⟨g, eg, r1, c1, r2, c2, v1, v2⟩ := lFc_spec f L hR' (by omega) (by omega) (by omega) h hsup (by rw [hC']; exact hrec)
  -- dphi in doubles
  have ea : Fl.dphiFc rnd fh = .ok (Arr2.ofFn fh.rows fh.cols fun i j => (⟨0, 1⟩ : FC rnd) * ⟨Fl.ofInt rnd (freqList fh.cols j), 0⟩ * fh.at' i j) := by
    unfold Fl.dphiFc
    rw [if_neg (by omega)]
  set a := Arr2.ofFn fh.rows fh.cols fun i j => (⟨0, 1⟩ : FC rnd) * ⟨Fl.ofInt rnd (freqList fh.cols j), 0⟩ * fh.at' i j with hadef
  have hav : ∀ m ν : ℤ, fA a m ν = (⟨0, 1⟩ : FC rnd) * ⟨Fl.ofInt rnd (freqList k (m % k).toNat), 0⟩ * fA fh m ν := by
    intro m ν
    rw [hadef, fA_ofFn _ _ _ (by omega) (by omega)]
    unfold fA
    rw [hC]
  have had := fun (m ν : ℤ) => deriv_err hrd (q := freqList k (m % k).toNat) (x := fA fh m ν) (z := fAt f m ν) (Q := M) (by omega) (by linarith) ht hG0 hBM (hf m ν).1 (hf m ν).2
    (fun hq => ⟨(hcol m ν hq).1, (hcol m ν hq).2.1⟩)
  -- divsin in doubles
  obtain ⟨d, ed, d1, d2, d3, d4⟩ := divsin_err hrd a N L hR hL hN (by show 0 < fh.cols; omega) (fun m ν => Complex.I * (freqList k (m % k).toNat : ℂ) * fAt f m ν) (fun m ν => Complex.I * h m ν)
    (A := (M + 1) * Γ) (ea := (M + 1) * (E + 4 * uu * Γ)) MG0 (by
      have := mul_le_mul_of_nonneg_left MG u0.le
      linarith) hB (by
      rw [mul_div_assoc]
      exact mul_le_mul_of_nonneg_left (by linarith) (by positivity))
    (fun m ν _ => ⟨(had m ν).2.2.1, by rw [hav]; exact (had m ν).2.1⟩)
    (fun m ν h1 h2 => by
      obtain ⟨z1, z2⟩ := hrow m ν (by rw [abs_le] at h2; omega) (by rw [abs_le] at h2; omega) h1
      exact ⟨by rw [hav]; exact (had m ν).2.2.2 z1, by rw [z2, mul_zero]⟩)
    (fun m ν hν => by rw [hsup m ν hν, mul_zero])
    (fun m ν hν => by
      have := hrec m ν hν
      rw [div_eq_iff hI] at this
      linear_combination Complex.I * this)
  -- dtheta in doubles
  have eb : Fl.dthetaFc rnd fh = .ok (Arr2.ofFn fh.rows fh.cols fun i j => (⟨0, 1⟩ : FC rnd) * ⟨Fl.ofInt rnd (freqList fh.rows i), 0⟩ * fh.at' i j) := by
    unfold Fl.dthetaFc
    rw [if_neg (by omega)]
  set b := Arr2.ofFn fh.rows fh.cols fun i j => (⟨0, 1⟩ : FC rnd) * ⟨Fl.ofInt rnd (freqList fh.rows i), 0⟩ * fh.at' i j with hbdef
  have hbv : ∀ m ν : ℤ, -(L : ℤ) ≤ ν → ν < L → fA b m ν = (⟨0, 1⟩ : FC rnd) * ⟨Fl.ofInt rnd ν, 0⟩ * fA fh m ν := by
    intro m ν h1 h2
    rw [hbdef, fA_ofFn _ _ _ (by omega) (by omega), freqList_eq _ (by omega) ν (by omega) (by omega)]
    rfl
  have hbd := fun (m ν : ℤ) (h1 : -(L : ℤ) ≤ ν) (h2 : ν < L) => deriv_err hrd (q := ν) (x := fA fh m ν) (z := fAt f m ν) (Q := N) (by omega) (by linarith) ht hG0 hBN (hf m ν).1 (hf m ν).2
    (hrow m ν h1 h2)
  have ar : 0 < d.rows := by rw [d1]; show 0 < fh.rows; omega
  have ac : 0 < d.cols := by rw [d2]; show 0 < fh.cols; omega
  have br : 0 < b.rows := by show 0 < fh.rows; omega
  have bc : 0 < b.cols := by show 0 < fh.cols; omega
  refine ⟨(d.map fun x => (⟨0, 1⟩ : FC rnd) * x, b.map fun x => (⟨0, -1⟩ : FC rnd) * x), g, ?_, eg, ?_, ?_, ?_, ?_, by omega, by omega, by omega, by omega, fun m ν h1 h2 => ?_⟩
  · unfold Fl.lFc
    rw [ea]
    simp only [Except.bind_ok]
    rw [ed, eb]
    rfl
  · show d.rows = _; rw [d1]; exact hR
  · show d.cols = _; rw [d2]; exact hC
  · exact hR
  · exact hC
  · have hν : |ν| ≤ L := by rw [abs_le]; omega
    obtain ⟨p1, p2, p3⟩ := d3 m ν h1 h2
    obtain ⟨q1, q2, q3, q4⟩ := hbd m ν h1 h2
    rw [← hbv m ν h1 h2] at q1 q2
    obtain ⟨i1, i2⟩ := val_i hrd p1
    obtain ⟨j1, j2⟩ := val_negi hrd q1
    have I2 := Complex.I_mul_I
    have nI : ∀ z : ℂ, ‖Complex.I * z‖ = ‖z‖ := fun z => by rw [norm_mul, Complex.norm_I, one_mul]
    have nI' : ∀ z : ℂ, ‖-Complex.I * z‖ = ‖z‖ := fun z => by rw [norm_mul, norm_neg, Complex.norm_I, one_mul]
    simp only
    rw [fA_map _ _ ar ac, fA_map _ _ br bc, v1 m ν hν, v2 m ν, hR', freqList_eq _ (by omega) ν (by push_cast; omega) (by push_cast; omega)]
    refine ⟨i2, j2, ?_, ?_, ?_, ?_, fun hq => ?_⟩
    · rw [norm_neg, ← nI]; exact p3
    · rw [← nI, ← mul_assoc]; exact q3
    · rw [i1, show Complex.I * FS.val (fA d m ν) - -h m ν = Complex.I * (FS.val (fA d m ν) - Complex.I * h m ν) by linear_combination (h m ν) * I2, nI]
      exact p2
    · rw [j1, show -Complex.I * FS.val (fA b m ν) - ν * fAt f m ν = -Complex.I * (FS.val (fA b m ν) - Complex.I * ν * fAt f m ν) by
        linear_combination (-(ν * fAt f m ν)) * I2, nI']
      exact q2
    · have z := fun ν => hcol m ν hq
      have zd : fA d m ν = 0 := d4 m (fun ν => by rw [hav]; exact (had m ν).2.2.2 (z ν).1) ν h1 h2
      have zb : fA b m ν = 0 := by rw [hbv m ν h1 h2]; exact q4 (z ν).1
      rw [zd, zb, im_mul_zero hrd, im_mul_zero hrd, (z ν).2.1, (z ν).2.2, mul_zero, neg_zero]
      exact ⟨rfl, rfl, rfl, rfl⟩

end FV
end Verif.Props
