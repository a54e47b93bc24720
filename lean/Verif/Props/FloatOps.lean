import Verif.Props.FloatSym
import Verif.Props.Coefs1
/-!
# Property C84: which arithmetic identities hold exactly in double precision

The overloaded operators of `ScalarCoefs` and `ScalarPatternUniform` run on `complex128`; here their model is instantiated with the
rounded arithmetic of `FloatArith.lean`.
-/
namespace Verif.Props
open Verif
variable {rnd : ℝ → ℝ}

theorem fc_sub (a b : FC rnd) : a - b = ⟨rnd (a.re - b.re), rnd (a.im - b.im)⟩ := rfl

theorem fc_sub_self (hr : IsRounding rnd) (a : FC rnd) : a - a = 0 := by
  rw [fc_sub, sub_self, sub_self, rnd_zero hr]; rfl

theorem fc_add_zero (hr : IsRounding rnd) {x : FC rnd} (hx : Moderate x) : x + 0 = x := by
  obtain ⟨d1, d2, b1, b2⟩ := hx
  rw [fc_add, fc_zero_re, fc_zero_im, add_zero, add_zero, rnd_mod hr d1 b1, rnd_mod hr d2 b2]

theorem fc_sub_zero (hr : IsRounding rnd) {x : FC rnd} (hx : Moderate x) : x - 0 = x := by
  obtain ⟨d1, d2, b1, b2⟩ := hx
  rw [fc_sub, fc_zero_re, fc_zero_im, sub_zero, sub_zero, rnd_mod hr d1 b1, rnd_mod hr d2 b2]

theorem fc_one_mul (hr : IsRounding rnd) {x : FC rnd} (hx : Moderate x) : 1 * x = x := by
  have := fc_sign_mul hr (ε := 1) (Or.inl rfl) hx
  rw [one_mul, one_mul] at this
  exact this

theorem fc_neg_one_mul (hr : IsRounding rnd) {x : FC rnd} (hx : Moderate x) : (⟨-1, 0⟩ : FC rnd) * x = -x := by
  rw [fc_sign_mul hr (Or.inr rfl) hx, neg_one_mul, neg_one_mul]; rfl

theorem fc_mul_one (hr : IsRounding rnd) {x : FC rnd} (hx : Moderate x) : x * 1 = x := by
  rw [fc_mul_comm]; exact fc_one_mul hr hx

theorem rnd_one (hr : IsRounding rnd) : rnd 1 = 1 := by
  have h := isDouble_pow 0 (by norm_num) (by norm_num)
  rw [zpow_zero] at h
  exact rnd_double hr h (by rw [abs_one]; exact one_le_pow₀ (by norm_num))

theorem fc_div_one (hr : IsRounding rnd) {x : FC rnd} (hx : Moderate x) : x / 1 = x := by
  obtain ⟨d1, d2, b1, b2⟩ := hx
  show (if |(0 : ℝ)| ≤ |(1 : ℝ)| then _ else _) = _
  rw [if_pos (by norm_num)]
  simp only [show (1 : FC rnd).re = 1 from rfl, show (1 : FC rnd).im = 0 from rfl, zero_div, rnd_zero hr, mul_zero, add_zero,
    sub_zero, rnd_one hr, div_one, mul_one, rnd_mod hr d1 b1, rnd_mod hr d2 b2]

theorem rnd_two_mul (hr : IsRounding rnd) {x : ℝ} (hx : IsDouble x) (hb : |x| < 2 ^ 500) : rnd (2 * x) = 2 * x :=
  rnd_double hr (isDouble_two_mul hx hb) (by
    rw [abs_mul, abs_two]
    exact le_trans (by linarith) big')

theorem fc_two_mul (hr : IsRounding rnd) {x : FC rnd} (hx : Moderate x) : 2 * x = ⟨2 * x.re, 2 * x.im⟩ := by
  obtain ⟨d1, d2, b1, b2⟩ := hx
  rw [fc_mul]
  simp only [show (2 : FC rnd).re = 2 from rfl, show (2 : FC rnd).im = 0 from rfl, zero_mul, rnd_zero hr, sub_zero, add_zero,
    rnd_two_mul hr d1 b1, rnd_two_mul hr d2 b2]

theorem fc_add_self (hr : IsRounding rnd) {x : FC rnd} (hx : Moderate x) : x + x = 2 * x := by
  rw [fc_two_mul hr hx, fc_add, ← two_mul, ← two_mul, rnd_two_mul hr hx.1 hx.2.2.1, rnd_two_mul hr hx.2.1 hx.2.2.2]

theorem fc_two_mul_div (hr : IsRounding rnd) {x : FC rnd} (hx : Moderate x) : 2 * x / 2 = x := by
  have ⟨d1, d2, b1, b2⟩ := hx
  rw [fc_two_mul hr hx, fc_div_two hr _ (rnd_two_mul hr d1 b1) (rnd_two_mul hr d2 b2)]
  ext
  · show rnd (2 * x.re * (1 / 2)) = x.re
    rw [show 2 * x.re * (1 / 2) = x.re by ring, rnd_mod hr d1 b1]
  · show rnd (2 * x.im * (1 / 2)) = x.im
    rw [show 2 * x.im * (1 / 2) = x.im by ring, rnd_mod hr d2 b2]

theorem fc_sub_neg (hr : IsRounding rnd) {x y : FC rnd} (hx : Moderate x) (hy : Moderate y) : y - x = -(x - y) := by
  obtain ⟨-, -, b1, b2⟩ := hx
  obtain ⟨-, -, b3, b4⟩ := hy
  rw [fc_sub, fc_sub]
  ext
  · show rnd (y.re - x.re) = -rnd (x.re - y.re)
    rw [← hr.odd _ (diff_bound b1 b3 big'), neg_sub]
  · show rnd (y.im - x.im) = -rnd (x.im - y.im)
    rw [← hr.odd _ (diff_bound b2 b4 big'), neg_sub]

/-! ### Coefficient sets -/

/-- Every stored value is a double below `2^500` in magnitude. -/
def ModerateSet (c : ScalarCoefs (FC rnd)) : Prop := ∀ x ∈ c.vec, Moderate x

theorem init_of_wf {c : ScalarCoefs (FC rnd)} (hc : c.WellFormed) (l : List (FC rnd)) (hl : l.length = c.vec.length) :
    ScalarCoefs.init (.arr l) c.nmax c.mmax = .ok ⟨l, c.nmax, c.mmax⟩ :=
  ScalarCoefs.init_wf hc.wf.m0 hc.wf.mn (by rw [hl]; exact hc.wf.len.symm)

theorem map_self {c : ScalarCoefs (FC rnd)} (hm : ModerateSet c) (f : FC rnd → FC rnd) (hf : ∀ x, Moderate x → f x = x) :
    c.vec.map f = c.vec := by
  rw [List.map_congr_left (fun x hx => hf x (hm x hx)), List.map_id']

/-- C84, commutativity: `a + b = b + a` and `a * b = b * a` for sets with the same limits and for a set and a number, bit for bit. -/
theorem c84_commute (a b : ScalarCoefs (FC rnd)) (hn : a.nmax = b.nmax) (hm : a.mmax = b.mmax) (x : FC rnd) :
    a.opLeft .add (.obj b) = b.opLeft .add (.obj a) ∧ a.opLeft .mul (.obj b) = b.opLeft .mul (.obj a) ∧
    a.opLeft .add (.num x) = a.opRight .add (.num x) ∧ a.opLeft .mul (.num x) = a.opRight .mul (.num x) := by
  have hz : ∀ f : FC rnd → FC rnd → FC rnd, (∀ x y, f x y = f y x) → List.zipWith f a.vec b.vec = List.zipWith f b.vec a.vec := by
    intro f hf
    rw [List.zipWith_comm]
    congr 1
    funext x y; exact hf y x
  unfold ScalarCoefs.opLeft ScalarCoefs.opRight opNum opNumR
  refine ⟨?_, ?_, ?_, ?_⟩
  · simp only [Op.eval, hn, hm, eq_comm (a := b.vec.length), hz _ fc_add_comm]
  · simp only [Op.eval, hn, hm, eq_comm (a := b.vec.length), hz _ fc_mul_comm]
  · simp only [Op.eval, reduceCtorEq, false_and, if_false, fc_add_comm x]
  · simp only [Op.eval, reduceCtorEq, false_and, if_false, fc_mul_comm x]

/-- C84, cancellation: every entry of `a - a` is exactly 0. -/
theorem c84_cancel (hr : IsRounding rnd) (a : ScalarCoefs (FC rnd)) (ha : a.WellFormed) :
    ∃ z, a.opLeft .sub (.obj a) = .ok z ∧ z.nmax = a.nmax ∧ z.mmax = a.mmax ∧
      ∀ n m, IsMode a.nmax a.mmax n m → readMap z n m = some 0 := by
  have hz : List.zipWith (Op.sub.eval (α := FC rnd)) a.vec a.vec = List.replicate a.vec.length 0 := by
    rw [List.zipWith_self]
    refine (List.map_congr_left (g := fun _ => (0 : FC rnd)) (fun x _ => fc_sub_self hr x)).trans ?_
    exact List.map_const'
  have e : a.opLeft .sub (.obj a) = .ok ⟨List.replicate a.vec.length 0, a.nmax, a.mmax⟩ := by
    unfold ScalarCoefs.opLeft
    simp only [if_true, hz]
    exact init_of_wf ha _ (by simp)
  refine ⟨_, e, rfl, rfl, fun n m hm => ?_⟩
  have hw : (⟨List.replicate a.vec.length 0, a.nmax, a.mmax⟩ : ScalarCoefs (FC rnd)).WF :=
    ⟨ha.wf.m0, ha.wf.mn, by simpa using ha.wf.len⟩
  rw [readMap_eq hw, ScalarCoefs.absMap_mode hw hm]
  simp

/-- C84, neutral elements: `a + 0`, `0 + a`, `a - 0`, `a * 1`, `1 * a`, `a / 1` and `a + zeros_coefs(nmax, mmax)` give back `a`, bit for bit
(values below `2^500`). -/
theorem c84_neutral (hr : IsRounding rnd) (a : ScalarCoefs (FC rnd)) (ha : a.WellFormed) (hm : ModerateSet a) :
    a.opLeft .add (.num 0) = .ok a ∧ a.opRight .add (.num 0) = .ok a ∧ a.opLeft .sub (.num 0) = .ok a ∧
    a.opLeft .mul (.num 1) = .ok a ∧ a.opRight .mul (.num 1) = .ok a ∧ a.opLeft .div (.num 1) = .ok a ∧
    ∃ z, fullCoefs (0 : FC rnd) a.nmax a.mmax = .ok z ∧ a.opLeft .add (.obj z) = .ok a := by
  have h10 : (1 : FC rnd) ≠ 0 := by
    intro h
    have : (1 : ℝ) = 0 := congrArg FC.re h
    norm_num at this
  unfold ScalarCoefs.opLeft ScalarCoefs.opRight opNum opNumR
  refine ⟨?_, ?_, ?_, ?_, ?_, ?_, ?_⟩
  · simp only [Op.eval, reduceCtorEq, false_and, if_false, map_self hm _ fun x hx => fc_add_zero hr hx, init_of_wf ha]
  · simp only [Op.eval, fc_add_comm 0, map_self hm _ fun x hx => fc_add_zero hr hx, init_of_wf ha]
  · simp only [Op.eval, reduceCtorEq, false_and, if_false, map_self hm _ fun x hx => fc_sub_zero hr hx, init_of_wf ha]
  · simp only [Op.eval, reduceCtorEq, false_and, if_false, map_self hm _ fun x hx => fc_mul_one hr hx, init_of_wf ha]
  · simp only [Op.eval, map_self hm _ fun x hx => fc_one_mul hr hx, init_of_wf ha]
  · simp only [Op.eval, h10, and_false, if_false, map_self hm _ fun x hx => fc_div_one hr hx, init_of_wf ha]
  · have hl : lFormula a.nmax a.mmax = a.vec.length := by rw [lFormula_eq]; exact ha.wf.len.symm
    refine ⟨⟨List.replicate a.vec.length 0, a.nmax, a.mmax⟩, ?_, ?_⟩
    · unfold fullCoefs npFull
      rw [if_neg (by have := ha.wf.mn; omega), hl, if_neg (by omega)]
      simp only [Except.bind_ok, Int.toNat_natCast]
      exact init_of_wf ha _ (by simp)
    · have : List.zipWith (Op.add.eval (α := FC rnd)) a.vec (List.replicate a.vec.length 0) = a.vec := by
        rw [← List.map_const' (l := a.vec) (b := (0 : FC rnd)), List.zipWith_map_right, List.zipWith_self]
        exact map_self hm _ fun x hx => fc_add_zero hr hx
      simp only [List.length_replicate, if_true, this]
      exact init_of_wf ha _ rfl

/-- C84, doubling: `a + a = 2 * a` and `(2 * a) / 2 = a`, bit for bit. -/
theorem c84_double (hr : IsRounding rnd) (a : ScalarCoefs (FC rnd)) (ha : a.WellFormed) (hm : ModerateSet a) :
    ∃ d, a.opLeft .add (.obj a) = .ok d ∧ a.opRight .mul (.num 2) = .ok d ∧ d.opLeft .div (.num 2) = .ok a := by
  have h20 : (2 : FC rnd) ≠ 0 := by
    intro h
    have : (2 : ℝ) = 0 := congrArg FC.re h
    norm_num at this
  refine ⟨⟨a.vec.map (2 * ·), a.nmax, a.mmax⟩, ?_, ?_, ?_⟩
  · unfold ScalarCoefs.opLeft
    have : List.zipWith (Op.add.eval (α := FC rnd)) a.vec a.vec = a.vec.map (2 * ·) := by
      rw [List.zipWith_self]
      exact List.map_congr_left fun x hx => fc_add_self hr (hm x hx)
    simp only [if_true, this]
    exact init_of_wf ha _ (by simp)
  · unfold ScalarCoefs.opRight opNumR
    simp only [Op.eval]
    exact init_of_wf ha _ (by simp)
  · unfold ScalarCoefs.opLeft opNum
    simp only [Op.eval, h20, and_false, if_false, List.map_map]
    have : a.vec.map ((fun x => x / 2) ∘ (2 * ·)) = a.vec := map_self hm _ fun x hx => fc_two_mul_div hr hx
    rw [this]
    exact init_of_wf ha _ rfl

/-- C84, sign: `b - a` is `a - b` with every sign changed, bit for bit. -/
theorem c84_antisymmetric (hr : IsRounding rnd) (a b : ScalarCoefs (FC rnd)) (ha : a.WellFormed) (hn : a.nmax = b.nmax)
    (hm : a.mmax = b.mmax) (hl : a.vec.length = b.vec.length) (h1 : ModerateSet a) (h2 : ModerateSet b) :
    ∃ d, a.opLeft .sub (.obj b) = .ok d ∧ b.opLeft .sub (.obj a) = .ok ⟨d.vec.map (fun x => -x), d.nmax, d.mmax⟩ := by
  refine ⟨⟨List.zipWith (Op.sub.eval (α := FC rnd)) a.vec b.vec, a.nmax, a.mmax⟩, ?_, ?_⟩
  · unfold ScalarCoefs.opLeft
    simp only [hl, if_true]
    exact init_of_wf ha _ (by simp [hl])
  · unfold ScalarCoefs.opLeft
    simp only [hl, if_true, ← hn, ← hm]
    have : List.zipWith (Op.sub.eval (α := FC rnd)) b.vec a.vec =
        (List.zipWith (Op.sub.eval (α := FC rnd)) a.vec b.vec).map (fun x => -x) := by
      apply List.ext_getElem (by simp [hl])
      intro i hi hj
      simp only [List.length_zipWith] at hi
      simp only [List.getElem_zipWith, List.getElem_map]
      exact fc_sub_neg hr (h1 _ (List.getElem_mem _)) (h2 _ (List.getElem_mem _))
    rw [this]
    exact init_of_wf ha _ (by simp [hl])

/-- A set meeting the hypotheses: `nmax = mmax = 1`, the values 1, 2, 1, 2. -/
example : ∃ rnd : ℝ → ℝ, IsRounding rnd ∧ (⟨[1, 2, 1, 2], 1, 1⟩ : ScalarCoefs (FC rnd)).WellFormed ∧
    ModerateSet (⟨[1, 2, 1, 2], 1, 1⟩ : ScalarCoefs (FC rnd)) := by
  obtain ⟨rnd, hr⟩ := isRounding_exists
  refine ⟨rnd, hr, ?_, ?_⟩
  · rw [← ScalarCoefs.wf_iff]
    refine ⟨show (0 : ℤ) ≤ 1 by decide, show (1 : ℤ) ≤ 1 by decide, show (4 : ℤ) = ncFormula 1 1 by decide⟩
  · have m1 : Moderate (1 : FC rnd) := by
      refine ⟨?_, isDouble_zero, ?_, ?_⟩
      · have := isDouble_pow 0 (by norm_num) (by norm_num); rwa [zpow_zero] at this
      · show |(1 : ℝ)| < _
        rw [abs_one]; exact one_lt_pow₀ (by norm_num) (by norm_num)
      · show |(0 : ℝ)| < _
        rw [abs_zero]; positivity
    have m2 : Moderate (2 : FC rnd) := by
      refine ⟨?_, isDouble_zero, ?_, ?_⟩
      · have := isDouble_pow 1 (by norm_num) (by norm_num); rwa [zpow_one] at this
      · show |(2 : ℝ)| < _
        rw [abs_two]
        calc (2 : ℝ) = 2 ^ 1 := by norm_num
          _ < 2 ^ 500 := pow_lt_pow_right₀ (by norm_num) (by norm_num)
      · show |(0 : ℝ)| < _
        rw [abs_zero]; positivity
    intro x hx
    simp only [List.mem_cons, List.not_mem_nil, or_false] at hx
    rcases hx with rfl | rfl | rfl | rfl <;> assumption

end Verif.Props
