import Verif.Math.TableStab
import Mathlib.Tactic.Positivity
/-!
# The table recurrence for the spherical harmonics: error bounds
-/
namespace Verif.Tab

/-- The coefficients at the table positions `n - 2i` and `n - 2i + 1`. -/
noncomputable def pp (n i : ℕ) : ℝ := 2 * i * (2 * n - 2 * i + 1)
noncomputable def qq (n i : ℕ) : ℝ := (2 * i - 1) * (2 * n - 2 * i + 2)

theorem links (n : ℕ) : Links (pp n) (qq n) (n / 2) := by
  have hb : ∀ i < n / 2, 2 * (i : ℝ) + 2 ≤ n := fun i hi => by exact_mod_cast (by omega : 2 * i + 2 ≤ n)
  refine ⟨by simp [pp], fun i hi => ?_, fun i hi => ?_, fun i hi => ?_⟩
  all_goals
    have h1 := hb i hi
    have h2 : (0 : ℝ) ≤ i := Nat.cast_nonneg i
    simp only [pp, qq]
    push_cast
  · nlinarith
  · nlinarith
  · exact mul_pos (by linarith) (by linarith)

theorem qq_le (n i : ℕ) : qq n (i + 1) ≤ (n + 1) ^ 2 := by
  unfold qq
  push_cast
  nlinarith [sq_nonneg ((n : ℝ) - 2 * i)]

/-- The recurrence with errors `η`. -/
structure Rec (p q : ℕ → ℝ) (s : ℝ) (N : ℕ) (η y : ℕ → ℝ) : Prop where
  first : 0 < N → p 1 * y 1 = (q 1 + p 0 - s) * y 0 + η 1
  next : ∀ i, i + 1 < N → p (i + 2) * y (i + 2) = (q (i + 2) + p (i + 1) - s) * y (i + 1) - q (i + 1) * y i + η (i + 2)

/-- The second component of the first-order system. -/
noncomputable def snd (p q z : ℕ → ℝ) : ℕ → ℝ
  | 0 => 0
  | i + 1 => p (i + 1) * z (i + 1) + q (i + 1) * z i

theorem Rec.sol {p q : ℕ → ℝ} {s : ℝ} {N : ℕ} {η y : ℕ → ℝ} (hp : p 0 = 0) (h : Rec p q s N η y) :
    Sol p q s N (fun i => (-1) ^ i * η i) (fun i => (-1) ^ i * y i) (snd p q fun i => (-1) ^ i * y i) := by
  refine ⟨rfl, fun i hi => ?_, fun i hi => ?_⟩
  · rcases i with _ | i
    · have := h.first hi
      simp only [snd, hp, zero_add, pow_one, pow_zero] at this ⊢
      linarith
    · have := h.next i hi
      simp only [snd, pow_succ] at this ⊢
      linear_combination (-1) ^ i * this
  · simp only [snd]; ring

theorem snd_sub (p q z w : ℕ → ℝ) (i : ℕ) : snd p q (fun i => z i - w i) i = snd p q z i - snd p q w i := by
  cases i <;> simp [snd]; ring

theorem Sol.sub {p q : ℕ → ℝ} {s : ℝ} {N : ℕ} {η ζ z Z w W : ℕ → ℝ} (h : Sol p q s N η z Z) (h' : Sol p q s N ζ w W) :
    Sol p q s N (fun i => η i - ζ i) (fun i => z i - w i) (fun i => Z i - W i) :=
  ⟨by rw [h.z0, h'.z0, sub_zero], fun i hi => by rw [h.up i hi, h'.up i hi]; ring, fun i hi => by rw [mul_sub, h.dn i hi, h'.dn i hi]; ring⟩

/-- The size of the terms of step `i + 1`. -/
noncomputable def terms (p q : ℕ → ℝ) (s : ℝ) (y : ℕ → ℝ) : ℕ → ℝ
  | 0 => |q 1 + p 0 - s| * |y 0|
  | i + 1 => |q (i + 2) + p (i + 1) - s| * |y (i + 1)| + q (i + 1) * |y i|

theorem abs_alt (i : ℕ) (x : ℝ) : |(-1) ^ i * x| = |x| := by rw [abs_mul, abs_pow, abs_neg, abs_one, one_pow, one_mul]

theorem num1 {m r n : ℝ} (m1 : 1 ≤ m) (r1 : 1 ≤ r) (h : m + r ≤ 2 * (n + 1)) : r ^ 2 + m ^ 2 ≤ (n + 1) * (2 * m) * r := by
  have h1 : r ^ 2 ≤ m * r ^ 2 := le_mul_of_one_le_left (sq_nonneg r) m1
  have h2 : m ^ 2 ≤ r * m ^ 2 := le_mul_of_one_le_left (sq_nonneg m) r1
  have h3 := mul_le_mul_of_nonneg_right h (show 0 ≤ m * r by positivity)
  linarith

theorem num2 {m r X : ℝ} (m1 : 1 ≤ m) (r1 : 1 ≤ r) (h : r ^ 2 = X) : 2 * m ^ 2 + 2 * X ≤ 2 * m * (m + r) * r := by
  have h1 : r ^ 2 ≤ m * r ^ 2 := le_mul_of_one_le_left (sq_nonneg r) m1
  have h2 : m ^ 2 ≤ r * m ^ 2 := le_mul_of_one_le_left (sq_nonneg m) r1
  rw [← h]; linarith

theorem num3 {p q s z m Z X : ℝ} (hs : s = 4 * m ^ 2) (hX : X = q - m ^ 2) (hz : 0 < z) (h0 : 0 ≤ Z) (h1 : Z ≤ 2 * (p * z)) (h2 : p * z ≤ q * z)
    (h3 : 0 ≤ X) : |s * z - Z - s * z / 2| ≤ (2 * m ^ 2 + 2 * X) * z := by
  have h4 : 0 ≤ X * z := by positivity
  have h5 : 0 ≤ m ^ 2 * z := by positivity
  have h6 : X * z = q * z - m ^ 2 * z := by rw [hX]; ring
  rw [abs_le, hs]
  constructor <;> linarith

/-- The energy of the exact solution when the growth ends. -/
theorem egy_start {s z Z' m X n r q : ℝ} (hs : s = 4 * m ^ 2) (hX : X = q - s / 4) (m1 : 1 ≤ m) (r1 : 1 ≤ r) (hr : r ^ 2 = X) (h : m + r ≤ 2 * (n + 1)) (hz : 0 < z)
    (hZ : |Z' - s * z / 2| ≤ (2 * m ^ 2 + 2 * X) * z) : egy s q z Z' ≤ ((2 * n + 3) * z * (2 * m)) ^ 2 := by
  unfold egy
  rw [← hX]
  have hX0 : 0 < X := by rw [← hr]; positivity
  have h3 : (Z' - s * z / 2) ^ 2 ≤ ((2 * m ^ 2 + 2 * X) * z) ^ 2 := by
    rw [← sq_abs]; exact pow_le_pow_left₀ (abs_nonneg _) hZ 2
  have h4 : (Z' - s * z / 2) ^ 2 / X ≤ ((2 * m) * (m + r) * z) ^ 2 := by
    rw [div_le_iff₀ hX0]
    refine h3.trans ?_
    have h5 : (2 * m ^ 2 + 2 * X) * z ≤ (2 * m) * (m + r) * r * z := mul_le_mul_of_nonneg_right (num2 m1 r1 hr) hz.le
    have h6 := pow_le_pow_left₀ (by positivity) h5 2
    calc _ ≤ _ := h6
      _ = _ := by rw [← hr]; ring
  have h7 : s * z ^ 2 = (2 * m * z) ^ 2 := by rw [hs]; ring
  have h8 : (2 * m) * (m + r) * z ≤ (2 * m) * (2 * (n + 1)) * z := by
    have := mul_le_mul_of_nonneg_left h (show (0 : ℝ) ≤ 2 * m * z by positivity)
    linarith
  have h9 := pow_le_pow_left₀ (show 0 ≤ (2 * m) * (m + r) * z by positivity) h8 2
  have h10 : 0 ≤ (2 * m * z) ^ 2 := sq_nonneg _
  have h11 : 0 ≤ n * (2 * m * z) ^ 2 := mul_nonneg (by linarith) h10
  have : ((2 * m) * (2 * (n + 1)) * z) ^ 2 + (2 * m * z) ^ 2 ≤ ((2 * n + 3) * z * (2 * m)) ^ 2 := by
    rw [show ((2 * n + 3) * z * (2 * m)) ^ 2 = ((2 * m) * (2 * (n + 1)) * z) ^ 2 + (2 * m * z) ^ 2 + 4 * (n * (2 * m * z) ^ 2) + 4 * (2 * m * z) ^ 2 by ring]
    linarith
  linarith

set_option maxHeartbeats 2000000 in
/-- Error bound for orders `m ≠ 0`. -/
theorem main (n m : ℕ) (hm : 1 ≤ m) (hmn : m ≤ n) (κ τ a Y : ℝ) (hκ : 0 < κ) {y w η : ℕ → ℝ}
    (hy : Rec (pp n) (qq n) (4 * (m : ℝ) ^ 2) (n / 2) (fun _ => 0) y) (hw : Rec (pp n) (qq n) (4 * (m : ℝ) ^ 2) (n / 2) η w) (y0 : 0 < y 0)
    (hY : ∀ i ≤ n / 2, |y i| ≤ Y) (ha0 : 0 ≤ a) (ha : |w 0 - y 0| ≤ a * y 0) (hτ : τ ≤ κ * y 0)
    (hη : ∀ i < n / 2, |η (i + 1)| ≤ κ * terms (pp n) (qq n) (4 * (m : ℝ) ^ 2) w i + τ)
    (hsm : (a + 7 * κ * ((n / 2 : ℕ) * ((n / 2 : ℕ) + 1) / 2)) * (2 * n + 3) + 7 / 2 * κ * (n / 2 : ℕ) * n + 9 * κ * (n + 1) * ((n / 2 : ℕ) + 1) ≤ 1) :
    ∀ i ≤ n / 2, |w i - y i| ≤
      ((a + 7 * κ * ((n / 2 : ℕ) * ((n / 2 : ℕ) + 1) / 2)) * (2 * n + 3) + 7 / 2 * κ * (n / 2 : ℕ) * n + 9 * κ * (n + 1) * ((n / 2 : ℕ) + 1)) * Y := by
  set s : ℝ := 4 * (m : ℝ) ^ 2 with hsdef
  set N := n / 2 with hN
  have m1 : (1 : ℝ) ≤ m := by exact_mod_cast hm
  have mn : (m : ℝ) ≤ n := by exact_mod_cast hmn
  have hs : 0 < s := by rw [hsdef]; positivity
  have hs4 : s / 4 = (m : ℝ) ^ 2 := by rw [hsdef]; ring
  have hss : Real.sqrt s = 2 * m := by
    rw [hsdef, show 4 * (m : ℝ) ^ 2 = (2 * m) ^ 2 by ring]; exact Real.sqrt_sq (by positivity)
  have L := links n
  have Y0 : 0 < Y := lt_of_lt_of_le y0 ((le_abs_self _).trans (hY 0 (by omega)))
  -- alternating signs
  set z : ℕ → ℝ := fun i => (-1) ^ i * y i with hz
  set e : ℕ → ℝ := fun i => (-1) ^ i * w i - z i with he
  have Sz0 := hy.sol L.p0
  have Sz : Sol (pp n) (qq n) s N (fun _ => 0) z (snd (pp n) (qq n) z) := ⟨Sz0.z0, fun i hi => by have := Sz0.up i hi; simpa using this, Sz0.dn⟩
  have Se0 := (hw.sol L.p0).sub Sz
  set Z := snd (pp n) (qq n) z with hZ
  set η' : ℕ → ℝ := fun i => (-1) ^ i * η i with hη'
  set E : ℕ → ℝ := fun i => snd (pp n) (qq n) (fun i => (-1) ^ i * w i) i - Z i with hE
  have Se : Sol (pp n) (qq n) s N η' e E := ⟨Se0.z0, fun i hi => by have := Se0.up i hi; simpa using this, Se0.dn⟩
  have eabs : ∀ i, |e i| = |w i - y i| := fun i => by
    simp only [he, hz]; rw [← mul_sub, abs_alt]
  have zabs : ∀ i, |z i| = |y i| := fun i => abs_alt i _
  have ηabs : ∀ i, |η' i| = |η i| := fun i => abs_alt i _
  have wle : ∀ i, |w i| ≤ |z i| + |e i| := fun i => by
    rw [zabs, eabs]
    have := abs_add_le (y i) (w i - y i)
    simpa using this
  have z0 : z 0 = y 0 := by simp [hz]
  -- where the growth ends
  obtain ⟨I, hIN, hgrow, hend⟩ : ∃ I ≤ N, (∀ i < I, qq n (i + 1) ≤ s / 4) ∧ (I < N → s / 4 < qq n (I + 1)) := by
    classical
    by_cases hex : ∃ i, i < N ∧ s / 4 < qq n (i + 1)
    · refine ⟨Nat.find hex, (Nat.find_spec hex).1.le, fun i hi => ?_, fun _ => (Nat.find_spec hex).2⟩
      have := Nat.find_min hex hi
      rw [not_and] at this
      exact not_lt.mp (this (hi.trans (Nat.find_spec hex).1))
    · refine ⟨N, le_rfl, fun i hi => ?_, fun h => absurd h (lt_irrefl _)⟩
      by_contra h
      exact hex ⟨i, hi, not_le.mp h⟩
  have hIr : (I : ℝ) ≤ (N : ℕ) := by exact_mod_cast hIN
  have I0 : (0 : ℝ) ≤ I := Nat.cast_nonneg I
  set c := 7 * κ with hc
  have c0 : 0 ≤ c := by rw [hc]; linarith
  set A := a + 7 * κ * ((N : ℝ) * ((N : ℝ) + 1) / 2) with hA
  have hIA : ∀ i ≤ N, a + c * ((i : ℝ) * (i + 1) / 2) ≤ A := by
    intro i hi
    have h1 : (i : ℝ) ≤ N := by exact_mod_cast hi
    have h2 : (i : ℝ) * (i + 1) ≤ N * (N + 1) := by nlinarith [(Nat.cast_nonneg i : (0 : ℝ) ≤ i)]
    rw [hA, hc]
    nlinarith
  have A0 : 0 ≤ A := by rw [hA]; positivity
  have hn0 : (0 : ℝ) ≤ n := Nat.cast_nonneg n
  have hN0 : (0 : ℝ) ≤ (N : ℕ) := Nat.cast_nonneg N
  have rest0 : 0 ≤ 7 / 2 * κ * (N : ℝ) * n + 9 * κ * (n + 1) * ((N : ℝ) + 1) := by positivity
  have AA : A ≤ A * (2 * n + 3) := le_mul_of_one_le_right A0 (by linarith)
  have A1 : A ≤ 1 := by linarith
  obtain ⟨g, g'⟩ := grow L hs Sz (by rw [z0]; exact y0) I hIN hgrow
  -- lower bound for the leading term in the growing part
  have pz : ∀ i < I, y 0 ≤ pp n (i + 1) * z (i + 1) := by
    intro i hi
    have h1 : ∀ j, j < I → 2 * y 0 ≤ Z (j + 1) := by
      intro j
      induction j with
      | zero =>
        intro hj
        have := (g' 0 hj).2.1
        rw [z0] at this
        have : s / 2 * y 0 ≥ 2 * y 0 := mul_le_mul_of_nonneg_right (by rw [hsdef]; nlinarith) y0.le
        linarith
      | succ j ih => intro hj; linarith [(g' (j + 1) hj).1, ih (by omega)]
    have := (g (i + 1) (by omega)).2.2
    linarith [h1 i hi]
  have tz : ∀ i < I, terms (pp n) (qq n) s z i ≤ 3 * (pp n (i + 1) * z (i + 1)) := by
    intro i hi
    obtain ⟨a1, a2, a3⟩ := g i hi.le
    obtain ⟨b1, b2, b3⟩ := g (i + 1) (by omega)
    obtain ⟨c1, c2, c3⟩ := g' i hi
    have u1 := Sz.up i (by omega)
    have u2 := Sz.dn i (by omega)
    rcases i with _ | i
    · have e0 : Z 0 = 0 := Sz.z0
      simp only [terms, zero_add] at *
      rw [← abs_mul]
      have : (qq n 1 + pp n 0 - s) * z 0 = -(pp n 1 * z 1) := by rw [u2, u1, e0, L.p0]; ring
      rw [this, abs_neg, abs_of_nonneg (by linarith)]
      linarith
    · have eZ : Z (i + 1) = pp n (i + 1) * z (i + 1) + qq n (i + 1) * z i := rfl
      have ai := (g i (by omega)).1
      have hq0 := mul_nonneg (L.q0 i (by omega)).le ai.le
      have hP : 0 ≤ pp n (i + 2) * z (i + 2) := by
        show 0 ≤ pp n (i + 1 + 1) * z (i + 1 + 1); linarith
      simp only [terms]
      rw [abs_of_pos ai, ← abs_mul]
      have : (qq n (i + 2) + pp n (i + 1) - s) * z (i + 1) = -(pp n (i + 2) * z (i + 2) + qq n (i + 1) * z i) := by
        simp only [add_zero] at u1
        have : pp n (i + 2) * z (i + 2) = _ := u2
        rw [this, u1, eZ]; ring
      rw [this, abs_neg, abs_of_nonneg (by linarith)]
      have : Z (i + 1) - pp n (i + 1) * z (i + 1) ≤ pp n (i + 2) * z (i + 2) := c3
      show _ ≤ 3 * (pp n (i + 2) * z (i + 2))
      linarith
  have tmono : ∀ i < N, (∀ j ≤ i, |e j| ≤ |z j|) → terms (pp n) (qq n) s w i ≤ 2 * terms (pp n) (qq n) s z i := by
    intro i hi hj
    have hw2 : ∀ j ≤ i, |w j| ≤ 2 * |z j| := fun j h => by linarith [wle j, hj j h]
    rcases i with _ | i
    · simp only [terms]
      have := mul_le_mul_of_nonneg_left (hw2 0 le_rfl) (abs_nonneg (qq n 1 + pp n 0 - s))
      linarith
    · simp only [terms]
      have h1 := mul_le_mul_of_nonneg_left (hw2 (i + 1) le_rfl) (abs_nonneg (qq n (i + 2) + pp n (i + 1) - s))
      have h2 := mul_le_mul_of_nonneg_left (hw2 i (by omega)) (L.q0 i (by omega)).le
      linarith
  have G := grow_err L hs Sz Se (by rw [z0]; exact y0) I hIN hgrow a c c0 (by rw [eabs, z0]; exact ha)
    ((hIA I hIN).trans A1) (fun i hi hj => by
      rw [ηabs]
      have h1 := hη i (by omega)
      have h2 := tmono i (by omega) hj
      have h3 := tz i hi
      have h4 := pz i hi
      have h5 : κ * terms (pp n) (qq n) s w i ≤ κ * (6 * (pp n (i + 1) * z (i + 1))) := mul_le_mul_of_nonneg_left (by linarith) hκ.le
      have h6 : κ * y 0 ≤ κ * (pp n (i + 1) * z (i + 1)) := mul_le_mul_of_nonneg_left h4 hκ.le
      rw [hc]; linarith)
  have Gabs : ∀ i ≤ I, |e i| ≤ A * |z i| := by
    intro i hi
    obtain ⟨ε, e1, e2, -⟩ := G i hi
    rw [e1, abs_mul]
    exact mul_le_mul_of_nonneg_right (e2.trans (hIA i (by omega))) (abs_nonneg _)
  have zY : ∀ i ≤ N, |z i| ≤ Y := fun i hi => by rw [zabs]; exact hY i hi
  intro i hi
  rw [← eabs]
  rcases Nat.lt_or_ge I i with hlt | hge
  swap
  · refine (Gabs i hge).trans (mul_le_mul (by linarith) (zY i hi) (abs_nonneg _) (by linarith))
  -- the oscillating part
  have hI : I < N := by omega
  have hq := hend hI
  set X := qq n (I + 1) - s / 4 with hX
  have hX1 : ∀ i < N, s / 4 < qq n (i + 1) → 1 ≤ qq n (i + 1) - s / 4 := by
    intro i _ h
    rw [hs4] at h ⊢
    unfold qq at h ⊢
    have e : ((2 * ((i + 1 : ℕ) : ℝ) - 1) * (2 * n - 2 * ((i + 1 : ℕ) : ℝ) + 2)) = (((2 * ((i + 1 : ℕ) : ℤ) - 1) * (2 * n - 2 * ((i + 1 : ℕ) : ℤ) + 2) : ℤ) : ℝ) := by
      push_cast; ring
    rw [e] at h ⊢
    have h' : (m : ℤ) ^ 2 < ((2 * ((i + 1 : ℕ) : ℤ) - 1) * (2 * n - 2 * ((i + 1 : ℕ) : ℤ) + 2)) := by exact_mod_cast h
    have h'' : (m : ℤ) ^ 2 + 1 ≤ ((2 * ((i + 1 : ℕ) : ℤ) - 1) * (2 * n - 2 * ((i + 1 : ℕ) : ℤ) + 2)) := h'
    have : ((((m : ℤ) ^ 2 + 1 : ℤ)) : ℝ) ≤ _ := Int.cast_le.mpr h''
    push_cast at this ⊢
    linarith
  have hroot : ∀ i < N, s / 4 < qq n (i + 1) → 1 ≤ Real.sqrt (qq n (i + 1) - s / 4) ∧ m + Real.sqrt (qq n (i + 1) - s / 4) ≤ 2 * (n + 1) ∧
      Real.sqrt (qq n (i + 1) - s / 4) ^ 2 = qq n (i + 1) - m ^ 2 := by
    intro i hi h
    have h1 := hX1 i hi h
    refine ⟨Real.one_le_sqrt.mpr h1, ?_, ?_⟩
    · have : Real.sqrt (qq n (i + 1) - s / 4) ≤ n + 1 := by
        rw [Real.sqrt_le_left (by linarith)]
        have := qq_le n i
        linarith
      linarith
    · rw [Real.sq_sqrt (by linarith), hs4]
  -- errors of one step
  have step : ∀ i < N, s / 4 < qq n (i + 1) → (∀ j ≤ i, |e j| ≤ Y) → |η' (i + 1)| ≤ 9 * κ * Y * qq n (i + 1) := by
    intro i hi h hj
    have hw2 : ∀ j ≤ i, |w j| ≤ 2 * Y := fun j h => by linarith [wle j, hj j h, zY j (by omega)]
    have h1 := hη i hi
    rw [ηabs]
    have hq1 : 1 ≤ qq n (i + 1) := by have := hX1 i hi h; linarith
    have hτ' : τ ≤ κ * Y * qq n (i + 1) := by
      have h2 : κ * y 0 ≤ κ * Y := mul_le_mul_of_nonneg_left ((le_abs_self _).trans (hY 0 (by omega))) hκ.le
      have h3 : κ * Y ≤ κ * Y * qq n (i + 1) := le_mul_of_one_le_right (by positivity) hq1
      linarith
    have ht : terms (pp n) (qq n) s w i ≤ 8 * Y * qq n (i + 1) := by
      have habs : |qq n (i + 1) + pp n i - s| ≤ 3 * qq n (i + 1) := by
        have h2 := L.pq i hi
        have h3 := L.p_nonneg i hi.le
        rw [abs_le]; constructor <;> linarith
      rcases i with _ | i
      · simp only [terms, zero_add] at *
        have := mul_le_mul habs (hw2 0 le_rfl) (abs_nonneg _) (by linarith)
        nlinarith
      · simp only [terms]
        have h2 := mul_le_mul habs (hw2 (i + 1) le_rfl) (abs_nonneg _) (by linarith)
        have h3 := mul_le_mul_of_nonneg_left (hw2 i (by omega)) (L.q0 i (by omega)).le
        have h4 : qq n (i + 1) ≤ qq n (i + 1 + 1) := (L.qp i (by omega)).trans (L.pq (i + 1) hi)
        have h5 : qq n (i + 1) * (2 * Y) ≤ qq n (i + 1 + 1) * (2 * Y) := mul_le_mul_of_nonneg_right h4 (by linarith)
        show |qq n (i + 1 + 1) + pp n (i + 1) - s| * |w (i + 1)| + _ ≤ 8 * Y * qq n (i + 1 + 1)
        linarith
    have := mul_le_mul_of_nonneg_left ht hκ.le
    linarith
  have step2 : ∀ i < N, s / 4 < qq n (i + 1) → (∀ j ≤ i, |e j| ≤ Y) →
      |η' (i + 1)| ≤ 9 * κ * Y * (n + 1) * Real.sqrt s * Real.sqrt (qq n (i + 1) - s / 4) := by
    intro i hi h hj
    refine (step i hi h hj).trans ?_
    obtain ⟨r1, r2, r3⟩ := hroot i hi h
    set r := Real.sqrt (qq n (i + 1) - s / 4)
    have hk : qq n (i + 1) ≤ (n + 1) * (2 * m) * r := by
      have h3 : qq n (i + 1) = r ^ 2 + m ^ 2 := by rw [r3]; ring
      rw [h3]
      exact num1 m1 r1 r2
    rw [hss]
    have : 0 ≤ 9 * κ * Y := by positivity
    have := mul_le_mul_of_nonneg_left hk this
    linarith
  have hold : ∀ j ≤ I, |e j| ≤ Y := fun j hj =>
    (Gabs j hj).trans ((mul_le_mul A1 (zY j (by omega)) (abs_nonneg _) zero_le_one).trans (by rw [one_mul]))
  obtain ⟨ε, e1, e2, e3⟩ := G I le_rfl
  obtain ⟨gI1, gI2, gI3⟩ := g I le_rfl
  obtain ⟨r1, r2, r3⟩ := hroot I hI hq
  have hup := Se.up I hI
  have zup := Sz.up I hI
  simp only [add_zero] at zup
  have hX0 : 1 ≤ X := hX1 I hI hq
  set r := Real.sqrt X with hr
  have hr2 : r ^ 2 = X := Real.sq_sqrt (by linarith)
  have hC : Real.sqrt (egy s (qq n (I + 1)) (e I) (E (I + 1))) ≤ (A * (2 * n + 3) + 7 / 2 * κ * N * n + 9 * κ * (n + 1)) * Y * Real.sqrt s := by
    have eE : E (I + 1) = ε * Z (I + 1) + (η' (I + 1) - (E I - ε * Z I)) := by rw [hup, zup, e1]; ring
    rw [eE]
    refine (egy_pert hs.le hq).trans ?_
    have k1 : Real.sqrt (egy s (qq n (I + 1)) (e I) (ε * Z (I + 1))) ≤ A * (2 * n + 3) * Y * Real.sqrt s := by
      have h1 : egy s (qq n (I + 1)) (e I) (ε * Z (I + 1)) = ε ^ 2 * egy s (qq n (I + 1)) (z I) (Z (I + 1)) := by
        unfold egy; rw [e1]; ring
      have hp : pp n I ≤ qq n (I + 1) := L.pq I hI
      have hpz : pp n I * z I ≤ qq n (I + 1) * z I := mul_le_mul_of_nonneg_right hp gI1.le
      have hZ1 : |Z (I + 1) - s * z I / 2| ≤ (2 * m ^ 2 + 2 * X) * z I := by
        rw [zup]
        exact num3 hsdef (by rw [hX, hs4]) gI1 gI2 gI3 hpz (by linarith)
      have h2 : egy s (qq n (I + 1)) (z I) (Z (I + 1)) ≤ ((2 * n + 3) * z I * (2 * m)) ^ 2 :=
        egy_start hsdef hX m1 r1 hr2 r2 gI1 hZ1
      rw [h1, Real.sqrt_mul (sq_nonneg ε), Real.sqrt_sq_eq_abs]
      have h3 : Real.sqrt (egy s (qq n (I + 1)) (z I) (Z (I + 1))) ≤ (2 * n + 3) * z I * (2 * m) := by
        rw [Real.sqrt_le_left (by positivity)]; exact h2
      have hzI : z I ≤ Y := (le_abs_self _).trans (zY I hI.le)
      have h4 := mul_le_mul (e2.trans (hIA I hIN)) h3 (Real.sqrt_nonneg _) A0
      refine h4.trans ?_
      rw [hss]
      have : A * (2 * n + 3) * (2 * m) * z I ≤ A * (2 * n + 3) * (2 * m) * Y := mul_le_mul_of_nonneg_left hzI (by positivity)
      linarith
    have k2 : |η' (I + 1) - (E I - ε * Z I)| / Real.sqrt (qq n (I + 1) - s / 4) ≤ (7 / 2 * κ * N * n + 9 * κ * (n + 1)) * Y * Real.sqrt s := by
      rw [div_le_iff₀ (by linarith)]
      refine (abs_sub _ _).trans ?_
      have h1 := step2 I hI hq hold
      have h2 : |E I - ε * Z I| ≤ 7 / 2 * κ * N * n * Y * Real.sqrt s * r := by
        refine e3.trans ?_
        have h3 : Z I - pp n I * z I ≤ m ^ 2 * Y := by
          rcases Nat.eq_zero_or_pos I with h0 | h0
          · rw [h0, Sz.z0, L.p0]; simp; positivity
          · obtain ⟨k, hk⟩ : ∃ k, I = k + 1 := ⟨I - 1, by omega⟩
            have h4 := hgrow k (by omega)
            have h5 := (g k (by omega)).1
            have : Z I - pp n I * z I = qq n (k + 1) * z k := by
              rw [hk]; show _ + _ - _ = _; ring
            rw [this]
            rw [hs4] at h4
            exact mul_le_mul h4 ((le_abs_self _).trans (zY k (by omega))) h5.le (by positivity)
        have h4 : (I : ℝ) * c * (Z I - pp n I * z I) ≤ N * c * (m ^ 2 * Y) := by
          have h5 : (I : ℝ) * c * (Z I - pp n I * z I) ≤ I * c * (m ^ 2 * Y) := mul_le_mul_of_nonneg_left h3 (by positivity)
          have h6 : (I : ℝ) * (c * (m ^ 2 * Y)) ≤ N * (c * (m ^ 2 * Y)) := mul_le_mul_of_nonneg_right hIr (by positivity)
          linarith
        refine h4.trans ?_
        rw [hss, hc]
        have h7 : (m : ℝ) ^ 2 ≤ n * m * r := by
          have : (m : ℝ) * m ≤ n * m := mul_le_mul_of_nonneg_right mn (by linarith)
          have h8 : (n : ℝ) * m ≤ n * m * r := le_mul_of_one_le_right (by positivity) r1
          nlinarith
        have h8 := mul_le_mul_of_nonneg_left h7 (show 0 ≤ (N : ℝ) * (7 * κ) * Y by positivity)
        linarith
      have h3 : Real.sqrt (qq n (I + 1) - s / 4) = r := rfl
      rw [h3] at h1 ⊢
      linarith
    linarith
  have fin := osc L hs Se I hI hq ((A * (2 * n + 3) + 7 / 2 * κ * N * n + 9 * κ * (n + 1)) * Y) (9 * κ * Y * (n + 1)) (by positivity) hC Y (by
      have : (A * (2 * n + 3) + 7 / 2 * κ * N * n + 9 * κ * (n + 1) * (N + 1)) * Y ≤ 1 * Y := mul_le_mul_of_nonneg_right hsm Y0.le
      linarith) hold (fun i hi hIi hj => by
        have hqi : s / 4 < qq n (i + 1) := by
          have : ∀ d, I + d < N → s / 4 < qq n (I + d + 1) := by
            intro d
            induction d with
            | zero => intro _; exact hq
            | succ d ih => intro hd; exact lt_of_lt_of_le (ih (by omega)) ((L.qp _ (by omega)).trans (L.pq (I + d + 1) (by omega)))
          have h2 := this (i - I) (by omega)
          rw [show I + (i - I) = i by omega] at h2
          exact h2
        exact step2 i hi hqi hj) i hlt hi
  refine fin.trans ?_
  have hiN : (i : ℝ) ≤ N := by exact_mod_cast hi
  have : 9 * κ * Y * (n + 1) * i ≤ 9 * κ * Y * (n + 1) * N := mul_le_mul_of_nonneg_left hiN (by positivity)
  linarith

end Verif.Tab
