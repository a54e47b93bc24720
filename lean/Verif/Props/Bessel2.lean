import Verif.Props.Bessel
import Verif.Props.Norms
import Verif.BesselEnd
import Verif.BesselSum
import Verif.BesselTest
/-!
# Properties C46 (continued) and C66: the Bessel routines never hang, and the Bessel test routines
-/
namespace Verif.Props
open Verif Classical Filter Topology

/-! ## C46: termination for general arguments, error of every entry -/

/-- **C46, no endless loop**.  For every `x ≠ 0` that is not a zero of `j_{N-1}` or `j_{N-2}`, and every `N ≥ 2`,
`sbesselj(x, N)` returns a vector of length `N` or raises ZeroDivisionError (no bound on `|x|`). -/
theorem c46_never_hangs (x : ℝ) (hx : x ≠ 0) (N : ℕ) (hN : 2 ≤ N) (h1 : sphJ (N - 1) x ≠ 0) (h2 : sphJ (N - 2) x ≠ 0) :
    (∃ out, sbesselj x N = .ok out ∧ out.length = N) ∨ (sbesselj x N).Raises .zeroDivisionError := by
  obtain ⟨M, rfl⟩ : ∃ M : ℕ, N = M + 1 := ⟨N - 1, by omega⟩
  rcases sbjLoop_ends_or hx M (by omega) (by simpa using h2) (by simpa using h1) with ⟨w, e⟩ | ⟨m, e⟩
  · left
    obtain ⟨r, out, e', hl, _⟩ := sbesselj_of_loop x M (by omega) w e
    exact ⟨out, by rw [← e']; push_cast; rfl, hl⟩
  · right
    refine ⟨m, ?_⟩
    unfold sbesselj
    have hf : npFull ((M + 1 : ℕ) : Int) (0 : ℝ) = .ok (List.replicate (M + 1) 0) := by
      unfold npFull
      rw [if_neg (by omega)]
      simp
    simp only [hf, Except.bind_ok]
    rw [show (0 : Int) = ((0 : ℕ) : Int) by rfl, setIdxR 0 _ (by simp)]
    simp only [Except.bind_ok, show (((M + 1 : ℕ) : Int) - 1) = (M : Int) by push_cast; ring]
    rw [e]
    rfl

/-- Non-vacuity: `x = π/2`, `N = 2`. -/
example : (Real.pi / 2 : ℝ) ≠ 0 ∧ sphJ (2 - 1) (Real.pi / 2) ≠ 0 ∧ sphJ (2 - 2) (Real.pi / 2) ≠ 0 := by
  have hp := Real.pi_pos
  refine ⟨by positivity, ?_, ?_⟩
  · simp [sphJ, hp.ne']
  · simp [sphJ, hp.ne']

/-- **C46, error of every entry**.  For `0 < |x| ≤ N - 1/2` (no division by zero in the downward pass) the entry `n` of
`sbesselj(x, N)` differs from `j_n(x)` by at most the start-ratio budget times the solution of the recurrence that
vanishes at the normalisation index `i`. -/
theorem c46_error (x : ℝ) (hx : x ≠ 0) (N : ℕ) (hN : 3 ≤ N) (hxN : |x| ≤ N - 1 / 2) (j : List ℝ)
    (hj : sbesselj x N = .ok j) (hp : NoPole j) (hp1 : rd j 1 = 0 → rd j 0 = 0 ∨ |sphJ 0 x| < |sphJ 1 x|)
    (i : ℕ) (hi : i = if |sphJ 0 x| < |sphJ 1 x| then 1 else 0) (n : ℕ) (hn : i ≤ n) (hn' : n < N) :
    |rd j n - sphJ n x| * |sphJ i x| ≤
      besselEps x * x ^ 2 * |rd j (N - 1) * sphJ (N - 2) x| * |sphJ i x * sphN n x - sphN i x * sphJ n x| := by
  obtain ⟨_, h0, hrec, hbr⟩ := c46_recurrence x N (by omega) j hj hp
  have hi1 : i ≤ 1 := by rw [hi]; split <;> omega
  have hji : rd j i = sphJ i x := by
    rcases hbr with ⟨hlt, h1⟩ | ⟨hle, _⟩
    · rw [hi, if_pos hlt, h1]
    · rw [hi, if_neg (not_lt.2 hle), h0]
  have hrec' : ∀ k, i + 1 ≤ k → k + 1 < N → rd j (k + 1) = (2 * (k : ℝ) + 1) / x * rd j k - rd j (k - 1) := by
    intro k hk1 hk2
    by_cases hk : 2 ≤ k
    · linarith [hrec k hk hk2]
    · have k1 : k = 1 := by omega
      have i0 : i = 0 := by omega
      rcases hbr with ⟨hlt, _⟩ | ⟨hle, h2⟩
      · rw [hi, if_pos hlt] at i0; omega
      · have := h2 (by omega) (fun hz => (hp1 hz).resolve_right (not_lt.2 hle))
        subst k1
        norm_num
        linarith
  set C := rd j (i + 1) * sphJ i x - sphJ (i + 1) x * rd j i with hC
  -- the cross product of computed and exact values is constant
  have cas : ∀ d, i + d + 1 < N → rd j (i + d + 1) * sphJ (i + d) x - sphJ (i + d + 1) x * rd j (i + d) = C := by
    intro d
    induction d with
    | zero => intro _; simp [hC]
    | succ d ih =>
      intro hd
      rw [← ih (by omega)]
      have e1 := hrec' (i + d + 1) (by omega) (by omega)
      have e2 := sphJ_succ (i + d + 1) (by omega) (x := x)
      simp only [Nat.add_sub_cancel] at e1 e2
      rw [show i + (d + 1) = i + d + 1 by ring, e1, e2]; ring
  have hCb : |C| ≤ besselEps x * |rd j (N - 1) * sphJ (N - 2) x| := by
    have h1 := cas (1 - i) (by omega)
    have h2 := c46_accuracy x hx N hN hxN j hj hp 1 (le_refl _) (by omega)
    rw [show i + (1 - i) = 1 by omega] at h1
    rw [← h1]; exact h2
  have hcross := sph_cross i hx
  have key : ∀ d, i + d < N →
      (rd j (i + d) - sphJ (i + d) x) * sphJ i x = -(C * x ^ 2) * (sphJ i x * sphN (i + d) x - sphN i x * sphJ (i + d) x) := by
    intro d
    induction d using Nat.twoStepInduction with
    | zero => intro _; rw [Nat.add_zero, hji]; ring
    | one =>
      intro _
      have hx2 : x ^ 2 * (1 / x ^ 2) = 1 := by field_simp
      rw [← hcross] at hx2
      rw [hC, hji]
      linear_combination (-(rd j (i + 1) - sphJ (i + 1) x) * sphJ i x) * hx2
    | more d ih1 ih2 =>
      intro hd
      have a1 := ih1 (by omega)
      have a2 := ih2 (by omega)
      have e1 := hrec' (i + d + 1) (by omega) (by omega)
      have e2 := sphJ_succ (i + d + 1) (by omega) (x := x)
      have e3 := sphN_succ (i + d + 1) (by omega) (x := x)
      simp only [Nat.add_sub_cancel] at e1 e2 e3
      rw [show i + (d + 2) = i + d + 1 + 1 by ring, e1, e2, e3]
      rw [show i + (d + 1) = i + d + 1 by ring] at a2
      linear_combination ((2 * ((i + d + 1 : ℕ) : ℝ) + 1) / x) * a2 - a1
  have hk := key (n - i) (by omega)
  rw [show i + (n - i) = n by omega] at hk
  rw [← abs_mul, hk, abs_mul, abs_neg, abs_mul, abs_of_nonneg (sq_nonneg x)]
  refine (mul_le_mul_of_nonneg_right (mul_le_mul_of_nonneg_right hCb (sq_nonneg x)) (abs_nonneg _)).trans (le_of_eq ?_)
  ring

/-! ## C66: arrays of values -/

theorem forM'_append' {σ ι : Type} (xs ys : List ι) (s : σ) (body : σ → ι → Res σ) :
    forM' (xs ++ ys) s body = (forM' xs s body).bind fun s => forM' ys s body := by
  induction xs generalizing s with
  | nil => rfl
  | cons x xs ih =>
    simp only [List.cons_append, forM']
    cases h : body s x with
    | error e => rfl
    | ok s' => simp only [Except.bind_ok]; exact ih s'

theorem stackRows_ok (f : ℝ → Res (List ℝ)) (v : ℝ → List ℝ) (L : ℕ) (xs : List ℝ) (hf : ∀ x ∈ xs, f x = .ok (v x))
    (hl : ∀ x ∈ xs, (v x).length = L) :
    stackRows f xs = .ok (if xs = [] then none else some (xs.map v)) := by
  induction xs using List.reverseRecOn with
  | nil => rfl
  | append_singleton xs x ih =>
    have h1 := ih (fun y hy => hf y (by simp [hy])) (fun y hy => hl y (by simp [hy]))
    unfold stackRows at h1 ⊢
    rw [forM'_append', h1]
    simp only [Except.bind_ok, forM', hf x (by simp)]
    by_cases hxs : xs = []
    · simp [hxs]
    · have hall : ∀ r ∈ xs.map v, r.length = (v x).length := by
        intro r hr
        obtain ⟨y, hy, rfl⟩ := List.mem_map.1 hr
        rw [hl y (by simp [hy]), hl x (by simp)]
      rw [if_neg hxs]
      simp only [if_pos hall, Except.bind_ok]
      rw [if_neg (by simp)]
      simp

theorem stackRows_error (f : ℝ → Res (List ℝ)) (v : ℝ → List ℝ) (L : ℕ) (pre : List ℝ) (x : ℝ) (post : List ℝ) (e : PyErr)
    (hf : ∀ y ∈ pre, f y = .ok (v y)) (hl : ∀ y ∈ pre, (v y).length = L) (he : f x = .error e) :
    stackRows f (pre ++ x :: post) = .error e := by
  have h1 := stackRows_ok f v L pre hf hl
  unfold stackRows at h1 ⊢
  rw [forM'_append', h1]
  simp only [Except.bind_ok, forM', he]
  rfl

/-- What it means that `A` tabulates the vectors `f x` for `x` in `xs`: column `i` is `f (xs[i])`. -/
def Columns (A : Arr2 ℝ) (xs : List ℝ) (N : ℕ) (f : ℝ → List ℝ) : Prop :=
  A.rows = N ∧ A.cols = xs.length ∧ ∀ i (hi : i < xs.length), ∀ n, n < N → A.at' n i = rd (f xs[i]) n

theorem stack_columns (xs : List ℝ) (hxs : xs ≠ []) (v : ℝ → List ℝ) (N : ℕ) (hl : ∀ x ∈ xs, (v x).length = N) :
    ∃ A, stackT (some (xs.map v)) = .ok A ∧ Columns A xs N v := by
  refine ⟨_, rfl, ?_⟩
  have hr : ((xs.map v).headD []).length = N := by
    cases xs with
    | nil => exact absurd rfl hxs
    | cons x xs => simpa using hl x (by simp)
  refine ⟨hr, by show (xs.map v).length = _; simp, ?_⟩
  intro i hi n hn
  rw [Arr2.at'_ofFn (by rw [hr]; exact hn) (by simpa using hi)]
  simp [rd, hi]

/-- `sbesselj` returns vectors of length `N`. -/
theorem sbesselj_length (x : ℝ) (N : ℕ) (hN : 2 ≤ N) (out : List ℝ) (h : sbesselj x N = .ok out) : out.length = N := by
  obtain ⟨M, rfl⟩ : ∃ M : ℕ, N = M + 1 := ⟨N - 1, by omega⟩
  obtain ⟨w, hw⟩ := loop_of_sbesselj x _ out h
  simp only [show (((M + 1 : ℕ) : Int) - 1) = (M : Int) by push_cast; ring] at hw
  obtain ⟨r, out', e, hl, _⟩ := sbesselj_of_loop x M (by omega) w hw
  rw [show ((M + 1 : ℕ) : Int) = (M : Int) + 1 by push_cast; ring, e] at h
  rw [← Except.ok.inj h]; exact hl

/-- **C66, arrays**.  For every non-empty list of arguments and every `N ≥ 2`, `sbessely_array` returns the `N` by `len(xvec)`
array whose column `i` is `sbessely(xvec[i], N)`; so does `sbesselj_array` with `sbesselj` when all its calls return, and
otherwise it raises the exception of the first call that fails.  An empty list raises an exception. -/
theorem c66_arrays (xs : List ℝ) (N : ℕ) (hN : 2 ≤ N) :
    (xs ≠ [] → ∃ A v, sbesselyArray xs N = .ok A ∧ (∀ x ∈ xs, sbessely x N = .ok (v x)) ∧ Columns A xs N v) ∧
    (∀ v : ℝ → List ℝ, xs ≠ [] → (∀ x ∈ xs, sbesselj x N = .ok (v x)) → ∃ A, sbesseljArray xs N = .ok A ∧ Columns A xs N v) ∧
    (∀ pre x post e (v : ℝ → List ℝ), xs = pre ++ x :: post → (∀ y ∈ pre, sbesselj y N = .ok (v y)) → sbesselj x N = .error e →
      sbesseljArray xs N = .error e) ∧
    (∃ e, sbesseljArray [] N = .error e) ∧ ∃ e, sbesselyArray [] N = .error e := by
  refine ⟨?_, ?_, ?_, ⟨_, rfl⟩, ⟨_, rfl⟩⟩
  · intro hxs
    have hy : ∀ x : ℝ, ∃ out, sbessely x N = .ok out ∧ out.length = N := fun x => by
      obtain ⟨out, e, hl, _⟩ := sbessely_eq x N hN
      exact ⟨out, e, hl⟩
    choose v hv hl using hy
    obtain ⟨A, hA, hc⟩ := stack_columns xs hxs v N (fun x _ => hl x)
    refine ⟨A, v, ?_, fun x _ => hv x, hc⟩
    unfold sbesselyArray
    rw [stackRows_ok _ v N xs (fun x _ => hv x) (fun x _ => hl x), if_neg hxs]
    exact hA
  · intro v hxs hv
    have hl : ∀ x ∈ xs, (v x).length = N := fun x hx => sbesselj_length x N hN _ (hv x hx)
    obtain ⟨A, hA, hc⟩ := stack_columns xs hxs v N hl
    refine ⟨A, ?_, hc⟩
    unfold sbesseljArray
    rw [stackRows_ok _ v N xs hv hl, if_neg hxs]
    exact hA
  · rintro pre x post e v rfl hv he
    unfold sbesseljArray
    rw [stackRows_error _ v N pre x post e hv (fun y hy => sbesselj_length y N hN _ (hv y hy)) he]
    rfl

/-! ## C66: the test routines -/

theorem pyRange_len (N : ℕ) : pyRange 0 (N : Int) = (List.range N).map (fun n : ℕ => (n : Int)) := by
  simp [pyRange]

theorem sum_tab_real (N : ℕ) (f : ℕ → ℝ) : (tab N f).sum = ∑ n ∈ Finset.range N, f n := by
  induction N with
  | zero => simp [tab]
  | succ N ih =>
    unfold tab at ih ⊢
    rw [List.range_succ, List.map_append, List.sum_append, ih, Finset.sum_range_succ]
    simp

/-- **C66, sum test**.  `sbesselj_sum(z, N)` returns `|(S - 1)/S| + 2^-52` for `S = Σ (2n+1) b_n^2`, `b = sbesselj(z, N)`; and
for exact values `b_n = j_n(z)` the sum `S` differs from 1 by at most `|z|^(2N) / (1·3···(2N+1) · 1·3···(2N-1))`. -/
theorem c66_sum (z : ℝ) (N : ℕ) (hN : 2 ≤ N) (b : List ℝ) (hb : sbesselj z N = .ok b) :
    ∃ S, S = ∑ n ∈ Finset.range N, (2 * (n : ℝ) + 1) * rd b n ^ 2 ∧ sbesseljSum z N = .ok (|(S - 1) / S| + 2 ^ (-52 : ℤ)) ∧
      (z ≠ 0 → (∀ n, n < N → rd b n = sphJ n z) → |S - 1| ≤ |z| ^ (2 * N) / (oddFact N * oddFact (N - 1))) := by
  refine ⟨_, rfl, ?_, ?_⟩
  · have hl := sbesselj_length z N hN b hb
    unfold sbesseljSum
    simp only [hb, Except.bind_ok]
    have hlen : ((pyRange 0 (N : Int)).map (fun n : Int => 2.0 * (n : ℝ) + 1.0)).length = (b.map (fun v => v ^ 2)).length := by
      simp [pyRange_len, hl]
    rw [ScalarCoefs.bcast_eq _ hlen]
    simp only [Except.bind_ok]
    have hz : List.zipWith (· * ·) ((pyRange 0 (N : Int)).map (fun n : Int => 2.0 * (n : ℝ) + 1.0)) (b.map (fun v => v ^ 2)) =
        tab N (fun n => (2 * (n : ℝ) + 1) * rd b n ^ 2) := by
      refine list_ext_rd (by simp [pyRange_len, hl]) fun i hi => ?_
      have hi' : i < N := by simpa [pyRange_len, hl] using hi
      have hi2 : i < b.length := by omega
      rw [rd_tab hi']
      simp [rd, pyRange_len, hi', hi2]
      norm_num
    rw [hz, (List.mergeSort_perm _ _).sum_eq, sum_tab_real]
    norm_num
  · intro hz hex
    have e : (∑ n ∈ Finset.range N, (2 * (n : ℝ) + 1) * rd b n ^ 2) = sphS N z := by
      unfold sphS
      exact Finset.sum_congr rfl fun n hn => by rw [hex n (Finset.mem_range.1 hn)]
    rw [e]
    exact sphS_near_one N (by omega) hz

/-- **C66, cross-product test**.  `sbessel_test_cross_product(z, N)` returns the largest of the `N` relative deviations
`|z^2 (j_{n+1} y_n - j_n y_{n+1}) - 1|`, `n = 0, ..., N-1`, of the vectors `sbesselj(z, N+1)`, `sbessely(z, N+1)`. -/
theorem c66_cross (z : ℝ) (hz : z ≠ 0) (N : ℕ) (hN : 1 ≤ N) (j y : List ℝ)
    (hj : sbesselj z (N + 1 : ℕ) = .ok j) (hy : sbessely z (N + 1 : ℕ) = .ok y) :
    ∃ r, sbesselTestCross z N = .ok r ∧
      (∃ n, n < N ∧ r = |z ^ 2 * (rd j (n + 1) * rd y n - rd j n * rd y (n + 1)) - 1|) ∧
      ∀ n, n < N → |z ^ 2 * (rd j (n + 1) * rd y n - rd j n * rd y (n + 1)) - 1| ≤ r := by
  have hl := sbesselj_length z (N + 1) (by omega) j hj
  have hly : y.length = N + 1 := by
    obtain ⟨y', ey, h, _⟩ := sbessely_eq z (N + 1) (by omega)
    rw [ey] at hy
    rw [← Except.ok.inj hy]; exact h
  have hz2 : 0 < z ^ 2 := by positivity
  set f : ℕ → ℝ := fun n => |z ^ 2 * (rd j (n + 1) * rd y n - rd j n * rd y (n + 1)) - 1| with hf
  have main : sbesselTestCross z N = npMax (tab N f) := by
    unfold sbesselTestCross
    rw [show (N : Int) + 1 = ((N + 1 : ℕ) : Int) by push_cast; ring, hj, hy]
    simp only [Except.bind_ok]
    have l1 : y.dropLast.length = (j.drop 1).length := by simp [hl, hly]
    have l2 : j.dropLast.length = (y.drop 1).length := by simp [hl, hly]
    rw [ScalarCoefs.bcast_eq _ l1]
    simp only [Except.bind_ok]
    rw [ScalarCoefs.bcast_eq _ l2]
    simp only [Except.bind_ok]
    have l3 : (List.zipWith (· * ·) y.dropLast (j.drop 1)).length = (List.zipWith (· * ·) j.dropLast (y.drop 1)).length := by
      simp [hl, hly]
    rw [ScalarCoefs.bcast_eq _ l3]
    have hfull : npFull (N : Int) (1 : ℝ) = .ok (List.replicate N 1) := by
      unfold npFull
      rw [if_neg (by omega)]
      simp
    simp only [Except.bind_ok, hfull]
    rw [ScalarCoefs.bcast_eq _ (by simp [hl, hly])]
    simp only [Except.bind_ok]
    congr 1
    refine list_ext_rd (by simp [hl, hly]) fun i hi => ?_
    have hi' : i < N := by
      have : i < min (min N N) N := by simpa [hl, hly] using hi
      omega
    rw [rd_tab hi']
    have a1 : i < j.length := by omega
    have a2 : i + 1 < j.length := by omega
    have a3 : i < y.length := by omega
    have a4 : i + 1 < y.length := by omega
    have a5 : i < j.length - 1 := by omega
    have a6 : i < y.length - 1 := by omega
    simp only [rd, hf]
    simp [List.getElem?_zipWith, List.getElem?_dropLast, hi', a1, a2, a3, a4, a5, a6, add_comm 1 i]
    rw [show (1.0 : ℝ) = 1 by norm_num]
    have e : y[i] * j[i + 1] - j[i] * y[i + 1] - 1 / z ^ 2 = (z ^ 2 * (j[i + 1] * y[i] - j[i] * y[i + 1]) - 1) / z ^ 2 := by
      field_simp
    rw [e, abs_div, abs_of_pos hz2]
    field_simp
  have hne : tab N f ≠ [] := by
    intro h
    have := congrArg List.length h
    simp at this
    omega
  obtain ⟨r, hr, hmem, hmax⟩ := npMax_spec hne
  refine ⟨r, by rw [main]; exact hr, ?_, ?_⟩
  · obtain ⟨n, hn, rfl⟩ := List.mem_map.1 hmem
    exact ⟨n, List.mem_range.1 hn, rfl⟩
  · intro n hn
    exact hmax _ (List.mem_map.2 ⟨n, List.mem_range.2 hn, rfl⟩)

/-- **C66, cross-product test, value**.  For `0 < |z| ≤ N + 1/2` the returned deviation is within the error budget of C46. -/
theorem c66_cross_small (z : ℝ) (hz : z ≠ 0) (N : ℕ) (hN : 2 ≤ N) (hzN : |z| ≤ N + 1 / 2) (j y : List ℝ)
    (hj : sbesselj z (N + 1 : ℕ) = .ok j) (hy : sbessely z (N + 1 : ℕ) = .ok y)
    (hp : NoPole j) (hp1 : rd j 1 = 0 → rd j 0 = 0 ∨ |sphJ 0 z| < |sphJ 1 z|) :
    ∃ r i, sbesselTestCross z N = .ok r ∧ (i = if |sphJ 0 z| < |sphJ 1 z| then 1 else 0) ∧
      r * |sphJ i z| ≤ besselEps z * z ^ 2 * |rd j N * sphJ (N - 1) z * rd y i| := by
  obtain ⟨r, hr, ⟨n, hn, he⟩, _⟩ := c66_cross z hz N (by omega) j y hj hy
  refine ⟨r, _, hr, rfl, ?_⟩
  rw [he]
  set i := if |sphJ 0 z| < |sphJ 1 z| then 1 else 0 with hi
  have hcp := fun n h1 h2 => c46_cross_product z hz (N + 1) (by omega) (by push_cast; linarith) j y hj hy hp hp1 n h1 h2
  rcases Nat.eq_zero_or_pos n with rfl | hn0
  · obtain ⟨_, h0, hrec, hbr⟩ := c46_recurrence z (N + 1) (by omega) j hj hp
    obtain ⟨y', ey, hyl, hyv⟩ := sbessely_eq z (N + 1) (by omega)
    have : y' = y := by rw [ey] at hy; exact Except.ok.inj hy
    subst this
    rcases hbr with ⟨hlt, h1⟩ | ⟨hle, h2⟩
    · have e : z ^ 2 * (rd j (0 + 1) * rd y' 0 - rd j 0 * rd y' (0 + 1)) - 1 = 0 := by
        rw [h0, hyv 0 (by omega), hyv (0 + 1) (by omega), show rd j (0 + 1) = sphJ (0 + 1) z from h1, sph_cross 0 hz]
        field_simp
        ring
      rw [e, abs_zero, zero_mul]
      unfold besselEps
      positivity
    · obtain ⟨i', hi', hb⟩ := hcp 1 (le_refl _) (by omega)
      have hrec1 := h2 (by omega) (fun hz => (hp1 hz).resolve_right (not_lt.2 hle))
      have e : rd j (0 + 1) * rd y' 0 - rd j 0 * rd y' (0 + 1) = rd j (1 + 1) * rd y' 1 - rd j 1 * rd y' (1 + 1) := by
        have q := sphN_succ 1 (le_refl _) (x := z)
        rw [hyv 0 (by omega), hyv (0 + 1) (by omega), hyv (1 + 1) (by omega), q]
        have : rd j (1 + 1) = 3 / z * rd j 1 - rd j 0 := by show rd j 2 = _; linarith
        rw [this]
        norm_num
        ring
      rw [e]
      rw [← hi] at hi'
      rw [← hi']
      simpa using hb
  · obtain ⟨i', hi', hb⟩ := hcp n hn0 (by omega)
    rw [← hi] at hi'
    rw [← hi']
    simpa using hb

/-- Non-vacuity of the C66 theorems: `z = 1`, `N = 5`. -/
example : ∃ j y, sbesselj 1 (5 + 1 : ℕ) = .ok j ∧ sbessely 1 (5 + 1 : ℕ) = .ok y ∧ j.length = 6 := by
  obtain ⟨j, hj, hl⟩ := c46_terminates 1 one_ne_zero (5 + 1) (by omega) (by norm_num)
  obtain ⟨y, hy, _⟩ := sbessely_eq 1 (5 + 1) (by omega)
  exact ⟨j, y, hj, hy, hl⟩

end Verif.Props
