import Verif.Props.FloatTurn4
import Verif.Props.FloatRepro
/-!
# C127: multiplying by -1, 1j or -1j commutes exactly with the transforms in double precision

Rounding treats `x` and `-x` alike and the real and imaginary parts alike, so multiplying the data by a unit `u` with `u^4 = 1` multiplies every result by exactly `u`: no error bound,
equality of doubles.  This holds for every pattern and every coefficient set, for both backends, provided NumPy's one-dimensional FFTs and `np.sum` have the same symmetry.
-/
namespace Verif.Props
open Verif
variable {rnd : ℝ → ℝ}

/-- `B` is `A` multiplied by `u`, exactly. -/
def TimesUnit (u : ℂ) (A B : Arr2 (FC rnd)) : Prop :=
  B.rows = A.rows ∧ B.cols = A.cols ∧ ∀ i j, i < A.rows → j < A.cols → FS.val (B.at' i j) = u * FS.val (A.at' i j)

/-- The pattern `q` is the pattern `p` multiplied by `u`, exactly (all of the stored double cover). -/
def PattTimes (u : ℂ) (p q : SPatt (FC rnd)) : Prop := ∃ A B, p.dsphere = .ok A ∧ q.dsphere = .ok B ∧ TimesUnit u A B

/-- The same for transverse patterns. -/
def PattTimesV (u : ℂ) (p q : TPatt (FC rnd)) : Prop := TimesUnit u p.td q.td ∧ TimesUnit u p.pd q.pd

/-- The coefficient set `d` is `c` multiplied by `u`, exactly: the same sizes, the same modes present, every `d[n, m]` equal to `u * c[n, m]`. -/
def CoefsTimes (u : ℂ) (c d : ScalarCoefs (FC rnd)) : Prop :=
  d.nmax = c.nmax ∧ d.mmax = c.mmax ∧ ∀ n m, (readMap d n m).map FS.val = (readMap c n m).map fun z => u * FS.val z

/-- The same for vector coefficient sets. -/
def CoefsTimesV (u : ℂ) (c d : VectorCoefs (FC rnd)) : Prop :=
  d.nmax = c.nmax ∧ d.mmax = c.mmax ∧ CoefsTimes u c.scoef1 d.scoef1 ∧ CoefsTimes u c.scoef2 d.scoef2

/-- `y` is `x` with every entry multiplied by `1j`, exactly. -/
def ListI (x y : List (FC rnd)) : Prop := y.length = x.length ∧ ∀ i : ℕ, i < x.length → FS.val (rd y i) = Complex.I * FS.val (rd x i)

/-- The library treats the real and the imaginary part alike: NumPy's one-dimensional FFTs and `np.sum` of `1j * x` are `1j` times those of `x` (and fail on the same inputs). -/
structure Env.Symmetric (e : Env rnd) : Prop where
  fft : ∀ x y X, ListI x y → e.np.fft x = .ok X → ∃ Y, e.np.fft y = .ok Y ∧ ListI X Y
  fft_err : ∀ x y r, ListI x y → e.np.fft x = .error r → e.np.fft y = .error r
  ifft : ∀ x y X, ListI x y → e.np.ifft x = .ok X → ∃ Y, e.np.ifft y = .ok Y ∧ ListI X Y
  ifft_err : ∀ x y r, ListI x y → e.np.ifft x = .error r → e.np.ifft y = .error r
  sum : ∀ x y, ListI x y → FS.val (e.sum y) = Complex.I * FS.val (e.sum x)

namespace TN

theorem val_turn (z : FC rnd) : FS.val (turn z) = Complex.I * FS.val z := by
  apply Complex.ext <;> simp [FS.val, turn]

theorem val_inj {a b : FC rnd} (h : FS.val a = FS.val b) : a = b := FC.ext (congrArg Complex.re h) (congrArg Complex.im h)

theorem val_iter (k : ℕ) (z : FC rnd) : FS.val (turn^[k] z) = Complex.I ^ k * FS.val z := by
  induction k with
  | zero => simp
  | succ k ih => rw [Function.iterate_succ_apply', val_turn, ih, pow_succ']; ring

theorem iter_zero (k : ℕ) : turn^[k] (0 : FC rnd) = 0 := Function.iterate_fixed turn_zero k

theorem listI_iff (x y : List (FC rnd)) : ListI x y ↔ y = x.map turn := by
  constructor
  · rintro ⟨h1, h2⟩
    refine list_ext_rd (by simp [h1]) fun i hi => ?_
    rw [rd_map turn_zero]
    exact val_inj ((h2 i (by omega)).trans (val_turn _).symm)
  · rintro rfl
    exact ⟨by simp, fun i _ => by rw [rd_map turn_zero, val_turn]⟩

theorem turns_of {g : List (FC rnd) → Res (List (FC rnd))} (h1 : ∀ x y X, ListI x y → g x = .ok X → ∃ Y, g y = .ok Y ∧ ListI X Y) (h2 : ∀ x y r, ListI x y → g x = .error r → g y = .error r) :
    Turns g := by
  intro l
  have hl := (listI_iff l (l.map turn)).2 rfl
  cases h : g l with
  | error r => rw [h2 _ _ r hl h]; rfl
  | ok X =>
    obtain ⟨Y, e, hY⟩ := h1 _ _ X hl h
    rw [e, (listI_iff X Y).1 hY]; rfl

theorem of_turns {g : List (FC rnd) → Res (List (FC rnd))} (h : Turns g) :
    (∀ x y X, ListI x y → g x = .ok X → ∃ Y, g y = .ok Y ∧ ListI X Y) ∧ ∀ x y r, ListI x y → g x = .error r → g y = .error r := by
  refine ⟨fun x y X hxy hX => ⟨X.map turn, ?_, (listI_iff _ _).2 rfl⟩, fun x y r hxy hX => ?_⟩
  · rw [(listI_iff x y).1 hxy, h x, hX]; rfl
  · rw [(listI_iff x y).1 hxy, h x, hX]; rfl

theorem map_iter {α : Type} (t : α → α) (A : Arr2 α) (k : ℕ) : (A.map t^[k]).map t = A.map t^[k + 1] := by
  rw [map_mapA]
  congr 1
  funext x
  rw [Function.iterate_succ_apply']

theorem arr2_ext {A B : Arr2 (FC rnd)} (h1 : A.rows = B.rows) (h2 : A.cols = B.cols) (h : ∀ i j, i < A.rows → j < A.cols → A.at' i j = B.at' i j) : A = B := by
  obtain ⟨r, c, f⟩ := A
  obtain ⟨r', c', g⟩ := B
  obtain rfl : r = r' := h1
  obtain rfl : c = c' := h2
  congr 1
  funext i j
  have := h i j i.2 j.2
  simpa [Arr2.at', i.2, j.2] using this

theorem times_iff (k : ℕ) (A B : Arr2 (FC rnd)) : TimesUnit (Complex.I ^ k) A B ↔ B = A.map turn^[k] := by
  constructor
  · rintro ⟨h1, h2, h3⟩
    refine arr2_ext h1 h2 fun i j hi hj => ?_
    rw [at'_map (iter_zero k)]
    exact val_inj ((h3 i j (by omega) (by omega)).trans (val_iter k _).symm)
  · rintro rfl
    exact ⟨rfl, rfl, fun i j _ _ => by rw [at'_map (iter_zero k), val_iter]⟩

theorem readMap_cmap (t : FC rnd → FC rnd) (c : ScalarCoefs (FC rnd)) (n m : Int) : readMap (cmap t c) n m = (readMap c n m).map t := by
  unfold readMap
  rw [getitem_nm, getitem_nm]
  have h : Tr t (c.getNM n m) ((cmap t c).getNM n m) := by
    unfold ScalarCoefs.getNM cmap
    exact Tr.ite Iff.rfl (fun _ => Tr.err _) fun _ => Tr.ite Iff.rfl (fun _ => Tr.err _) fun _ => Tr.same fun i => getIdx_tr t c.vec _
  unfold Tr at h
  rw [h]
  cases c.getNM n m <;> rfl

theorem coefs_cmap (k : ℕ) (c : ScalarCoefs (FC rnd)) : CoefsTimes (Complex.I ^ k) c (cmap turn^[k] c) := by
  refine ⟨rfl, rfl, fun n m => ?_⟩
  rw [readMap_cmap, Option.map_map]
  congr 1
  funext z
  exact val_iter k z

theorem coefs_iff (k : ℕ) {c d : ScalarCoefs (FC rnd)} (hc : c.WF) (hd : d.WF) (h : CoefsTimes (Complex.I ^ k) c d) : d = cmap turn^[k] c := by
  obtain ⟨h1, h2, h3⟩ := h
  have hw : (cmap turn^[k] c).WF := by
    have := hc
    rw [ScalarCoefs.wf_iff] at this ⊢
    exact ⟨this.1, this.2, by rw [show (cmap turn^[k] c).vec.length = c.vec.length by simp [cmap]]; exact this.3⟩
  refine ScalarCoefs.ext_modes hd hw h1 h2 fun n m _ => ?_
  rw [← readMap_eq hd, ← readMap_eq hw]
  have e := (h3 n m).trans ((coefs_cmap k c).2.2 n m).symm
  exact Option.map_injective (fun a b h => val_inj h) e

/-- The units. -/
theorem unit_pow {u : ℂ} (hu : u ^ 4 = 1) : ∃ k : ℕ, u = Complex.I ^ k := by
  have h : (u - 1) * (u + 1) * ((u - Complex.I) * (u + Complex.I)) = 0 := by
    have e : (u - Complex.I) * (u + Complex.I) = u ^ 2 + 1 := by
      have := Complex.I_sq
      linear_combination -this
    rw [e]
    linear_combination hu
  rcases mul_eq_zero.1 h with h | h <;> rcases mul_eq_zero.1 h with h | h
  · exact ⟨0, by rw [pow_zero]; exact sub_eq_zero.1 h⟩
  · exact ⟨2, by rw [Complex.I_sq]; exact eq_neg_of_add_eq_zero_left h⟩
  · exact ⟨1, by rw [pow_one]; exact sub_eq_zero.1 h⟩
  · exact ⟨3, by rw [pow_succ, Complex.I_sq, neg_one_mul]; exact eq_neg_of_add_eq_zero_left h⟩

/-- One quarter turn of the results gives all of them. -/
theorem iterate {α β : Type} (F : α → Res β) (t : α → α) (t' : β → β) (P : α → Prop) (hP : ∀ a, P a → P (t a)) (h : ∀ a b, P a → F a = .ok b → F (t a) = .ok (t' b)) (k : ℕ) (a : α) (b : β)
    (ha : P a) (hb : F a = .ok b) : F (t^[k] a) = .ok (t'^[k] b) := by
  have : P (t^[k] a) ∧ F (t^[k] a) = .ok (t'^[k] b) := by
    induction k with
    | zero => exact ⟨ha, hb⟩
    | succ k ih =>
      rw [Function.iterate_succ_apply', Function.iterate_succ_apply']
      exact ⟨hP _ ih.1, h _ _ ih.1 ih.2⟩
  exact this.2

theorem turned_iter (k : ℕ) (A : Arr2 (FC rnd)) : SPatt.turned^[k] ⟨.arr A⟩ = ⟨.arr (A.map turn^[k])⟩ := by
  induction k with
  | zero => rfl
  | succ k ih => rw [Function.iterate_succ_apply', ih, ← map_iter]; rfl

theorem vturned_iter (k : ℕ) (p : TPatt (FC rnd)) : TPatt.turned^[k] p = ⟨p.td.map turn^[k], p.pd.map turn^[k]⟩ := by
  induction k with
  | zero => rfl
  | succ k ih => rw [Function.iterate_succ_apply', ih, ← map_iter, ← map_iter]; rfl

theorem cmap_iter (k : ℕ) (c : ScalarCoefs (FC rnd)) : (cmap turn)^[k] c = cmap turn^[k] c := by
  induction k with
  | zero => simp [cmap]
  | succ k ih =>
    rw [Function.iterate_succ_apply', ih]
    simp only [cmap, List.map_map, Function.iterate_succ']

theorem vmap_iter (k : ℕ) (c : VectorCoefs (FC rnd)) : (vmap turn)^[k] c = vmap turn^[k] c := by
  induction k with
  | zero => simp [vmap, cmap]
  | succ k ih =>
    rw [Function.iterate_succ_apply', ih]
    simp only [vmap, cmap, List.map_map, Function.iterate_succ']

theorem tr_ok {α β : Type} {t : α → β} {x : Res α} {y : Res β} (h : Tr t x y) {a : α} (ha : x = .ok a) : y = .ok (t a) := by
  unfold Tr at h
  rw [h, ha]; rfl

theorem patt_iff (k : ℕ) {p q : SPatt (FC rnd)} (h : PattTimes (Complex.I ^ k) p q) : ∃ A, p = ⟨.arr A⟩ ∧ q = SPatt.turned^[k] p := by
  obtain ⟨A, B, e1, e2, h⟩ := h
  obtain ⟨ds⟩ := p
  obtain ⟨ds'⟩ := q
  cases ds with
  | exc => cases e1
  | arr A' =>
    cases ds' with
    | exc => cases e2
    | arr B' =>
      injection e1 with e1
      injection e2 with e2
      subst e1 e2
      exact ⟨_, rfl, by rw [turned_iter, (times_iff k _ _).1 h]⟩

theorem patt_turned (k : ℕ) {p : SPatt (FC rnd)} {A : Arr2 (FC rnd)} (h : p.dsphere = .ok A) : PattTimes (Complex.I ^ k) p (SPatt.turned^[k] p) := by
  obtain ⟨ds⟩ := p
  cases ds with
  | exc => cases h
  | arr A' => exact ⟨A', A'.map turn^[k], rfl, by rw [turned_iter]; rfl, (times_iff k _ _).2 rfl⟩

end TN

open TN

/-- **C127 (scalar analysis).** If the pattern is multiplied by `-1`, `1j` or `-1j`, every coefficient is multiplied by exactly that number; and the call succeeds whenever it did. -/
theorem c127_spht (hrd : NoOverflow rnd) (e : Env rnd) (hs : e.Symmetric) (hl : LibMWithin e.clm) (x : Bool) (u : ℂ) (hu : u ^ 4 = 1) (p q : SPatt (FC rnd)) (hpq : PattTimes u p q)
    (D : Arr2 (FC rnd)) (hD : p.dsphere = .ok D) (hR : D.rows % 2 = 0) (N M : ℕ) (hsz : D.rows + N ≤ 2 ^ 28) (c : ScalarCoefs (FC rnd)) (hc : e.spht x p N M = .ok c) :
    ∃ d, e.spht x q N M = .ok d ∧ CoefsTimes u c d := by
  obtain ⟨k, rfl⟩ := unit_pow hu
  obtain ⟨A, rfl, rfl⟩ := patt_iff k hpq
  obtain rfl : A = D := by injection hD
  have hf := turns_of hs.fft hs.fft_err
  have hi := turns_of hs.ifft hs.ifft_err
  have hsum : ∀ l, e.sum (l.map turn) = turn (e.sum l) := fun l => val_inj ((hs.sum _ _ ((listI_iff l _).2 rfl)).trans (val_turn _).symm)
  refine ⟨(cmap turn)^[k] c, ?_, by rw [cmap_iter]; exact coefs_cmap k c⟩
  refine iterate (fun p => e.spht x p N M) SPatt.turned (cmap turn) (fun p => ∃ B : Arr2 (FC rnd), p = ⟨.arr B⟩ ∧ B.rows = A.rows) ?_ ?_ k _ _ ⟨A, rfl, rfl⟩ hc
  · rintro _ ⟨B, rfl, hB⟩
    exact ⟨B.map turn, rfl, hB⟩
  · rintro _ b ⟨B, rfl, hB⟩ hb
    unfold Env.spht at hb ⊢
    cases x with
    | false => exact tr_ok (spht_py_tr hrd.neg e.lm e.np e.sum hf hi hsum _ _ _) hb
    | true =>
      have h := tr_ok (kSpht_tr hrd.neg (Fl.npLib rnd e.lm e.np e.sum) (fft2Norm_tr hrd.neg e.np hf) e.clm e.J ⟨.arr B⟩ (some N) (some M)) hb
      exact c100_fresh hrd _ hl _ e.J (B.map turn) (by show B.rows % 2 = 0; omega) N M (by show B.rows + N ≤ 2 ^ 28; omega) _ h

/-- **C127 (vector analysis).** -/
theorem c127_vspht (hrd : NoOverflow rnd) (e : Env rnd) (hs : e.Symmetric) (hl : LibMWithin e.clm) (x : Bool) (u : ℂ) (hu : u ^ 4 = 1) (p q : TPatt (FC rnd)) (hpq : PattTimesV u p q)
    (hR : p.td.rows % 2 = 0) (N M : ℕ) (hsz : p.td.rows + N ≤ 2 ^ 28) (c : VectorCoefs (FC rnd)) (hc : e.vspht x p N M = .ok c) :
    ∃ d, e.vspht x q N M = .ok d ∧ CoefsTimesV u c d := by
  obtain ⟨k, rfl⟩ := unit_pow hu
  have hq : q = TPatt.turned^[k] p := by
    obtain ⟨T, P⟩ := q
    rw [vturned_iter, ← (times_iff k _ _).1 hpq.1, ← (times_iff k _ _).1 hpq.2]
  subst hq
  have hf := turns_of hs.fft hs.fft_err
  have hi := turns_of hs.ifft hs.ifft_err
  have hsum : ∀ l, e.sum (l.map turn) = turn (e.sum l) := fun l => val_inj ((hs.sum _ _ ((listI_iff l _).2 rfl)).trans (val_turn _).symm)
  refine ⟨(vmap turn)^[k] c, ?_, by rw [vmap_iter]; exact ⟨rfl, rfl, coefs_cmap k c.scoef1, coefs_cmap k c.scoef2⟩⟩
  refine iterate (fun p => e.vspht x p N M) TPatt.turned (vmap turn) (fun q => q.td.rows = p.td.rows) (fun a h => h) ?_ k _ _ rfl hc
  rintro ⟨T, P⟩ b hB hb
  unfold Env.vspht at hb ⊢
  cases x with
  | false => exact tr_ok (vspht_py_tr hrd.neg e.lm e.np e.sum hf hi hsum _ _ _) hb
  | true =>
    have h := tr_ok (kVspht_tr hrd.neg (Fl.npLib rnd e.lm e.np e.sum) (fft2Norm_tr hrd.neg e.np hf) e.clm e.J ⟨T, P⟩ (some N) (some M)) hb
    have hB : T.rows = p.td.rows := hB
    exact c101_fresh hrd _ hl _ e.J (T.map turn) (P.map turn) (by show T.rows % 2 = 0; omega) N M (by show T.rows + N ≤ 2 ^ 28; omega) _ h

/-- **C127 (scalar synthesis).** If the coefficients are multiplied by such a number, every sample of the pattern is multiplied by exactly that number. -/
theorem c127_ispht (hrd : NoOverflow rnd) (e : Env rnd) (hs : e.Symmetric) (jp : Int → FC rnd) (b : Backend) (u : ℂ) (hu : u ^ 4 = 1) (c d : ScalarCoefs (FC rnd)) (hc : c.WellFormed) (hd : d.WellFormed)
    (hcd : CoefsTimes u c d) (nr nc : Option Int) (p : SPatt (FC rnd)) (hp : Fl.ispht rnd jp (Fl.ifft2Scaled rnd e.np) b c nr nc = .ok p) :
    ∃ q, Fl.ispht rnd jp (Fl.ifft2Scaled rnd e.np) b d nr nc = .ok q ∧ PattTimes u p q := by
  obtain ⟨k, rfl⟩ := unit_pow hu
  obtain rfl := coefs_iff k (ScalarCoefs.wf_iff.2 hc) (ScalarCoefs.wf_iff.2 hd) hcd
  have hi := turns_of hs.ifft hs.ifft_err
  have h := iterate (fun c => Fl.ispht rnd jp (Fl.ifft2Scaled rnd e.np) b c nr nc) (cmap turn) SPatt.turned (fun _ => True) (fun _ _ => trivial)
    (fun a p _ h => tr_ok (ispht_tr hrd.neg jp _ (ifft2Scaled_tr hrd.neg e.np hi) b a nr nc) h) k c p trivial hp
  rw [cmap_iter] at h
  refine ⟨_, h, ?_⟩
  unfold Fl.ispht at hp
  obtain ⟨_, -, hp⟩ := FK.bind_inv hp
  obtain ⟨f, -, hp⟩ := FK.bind_inv hp
  obtain ⟨ds, -, hp⟩ := FK.bind_inv hp
  have hp : (Except.ok (⟨.arr ds⟩ : SPatt (FC rnd)) : Res (SPatt (FC rnd))) = .ok p := hp
  injection hp with hp
  subst hp
  exact patt_turned k (A := ds) rfl

/-- **C127 (vector synthesis).** -/
theorem c127_vispht (hrd : NoOverflow rnd) (e : Env rnd) (hs : e.Symmetric) (jp : Int → FC rnd) (b : Backend) (u : ℂ) (hu : u ^ 4 = 1) (c d : VectorCoefs (FC rnd)) (hc : c.WellFormed) (hd : d.WellFormed)
    (hcd : CoefsTimesV u c d) (nr nc : Option Int) (p : TPatt (FC rnd)) (hp : Fl.vispht rnd jp (Fl.visphtPost rnd (Fl.ifft2Scaled rnd e.np)) b c nr nc = .ok p) :
    ∃ q, Fl.vispht rnd jp (Fl.visphtPost rnd (Fl.ifft2Scaled rnd e.np)) b d nr nc = .ok q ∧ PattTimesV u p q := by
  obtain ⟨k, rfl⟩ := unit_pow hu
  have hdc : d = vmap turn^[k] c := by
    obtain ⟨d1, d2, n, m⟩ := d
    obtain ⟨h1, h2, h3, h4⟩ := hcd
    have e1 := coefs_iff k (ScalarCoefs.wf_iff.2 hc.wf1) (ScalarCoefs.wf_iff.2 hd.wf1) h3
    have e2 := coefs_iff k (ScalarCoefs.wf_iff.2 hc.wf2) (ScalarCoefs.wf_iff.2 hd.wf2) h4
    simp only at h1 h2 e1 e2
    rw [e1, e2, h1, h2]
    rfl
  subst hdc
  have hi := turns_of hs.ifft hs.ifft_err
  have h := iterate (fun c => Fl.vispht rnd jp (Fl.visphtPost rnd (Fl.ifft2Scaled rnd e.np)) b c nr nc) (vmap turn) TPatt.turned (fun _ => True) (fun _ _ => trivial)
    (fun a p _ h => tr_ok (vispht_tr hrd.neg jp _ (ifft2Scaled_tr hrd.neg e.np hi) b a nr nc) h) k c p trivial hp
  rw [vmap_iter, vturned_iter] at h
  exact ⟨_, h, (times_iff k _ _).2 rfl, (times_iff k _ _).2 rfl⟩

/-- **C127 (patterns from data).** The same for the construction of a pattern from an array of samples, spherepy.py 990-995, including the treatment of the poles. -/
theorem c127_new (hrd : NoOverflow rnd) (u : ℂ) (hu : u ^ 4 = 1) (A B : Arr2 (FC rnd)) (hAB : TimesUnit u A B) (ds : Bool) (p : SPatt (FC rnd)) (hp : SPatt.init (.arr A) ds = .ok p) :
    ∃ q, SPatt.init (.arr B) ds = .ok q ∧ PattTimes u p q := by
  obtain ⟨k, rfl⟩ := unit_pow hu
  obtain rfl := (times_iff k _ _).1 hAB
  have h := iterate (fun A : Arr2 (FC rnd) => SPatt.init (.arr A) ds) (Arr2.map turn) SPatt.turned (fun _ => True) (fun _ _ => trivial) (fun a p _ h => tr_ok (sinit_tr hrd.neg a ds) h) k A p trivial hp
  have e : (Arr2.map turn)^[k] A = A.map turn^[k] := by
    clear hAB h hu
    induction k with
    | zero => rfl
    | succ k ih => rw [Function.iterate_succ_apply', ih, map_iter]
  rw [e] at h
  refine ⟨_, h, ?_⟩
  cases ds with
  | true =>
    injection hp with hp
    subst hp
    exact patt_turned k (A := A) rfl
  | false =>
    unfold SPatt.init at hp
    obtain ⟨d, -, hp⟩ := FK.bind_inv hp
    injection hp with hp
    subst hp
    exact patt_turned k (A := d) rfl

/-- **C127 (transverse patterns from data)**, spherepy.py 1173-1183. -/
theorem c127_newv (hrd : NoOverflow rnd) (u : ℂ) (hu : u ^ 4 = 1) (A B A' B' : Arr2 (FC rnd)) (h1 : TimesUnit u A A') (h2 : TimesUnit u B B') (ds : Bool) (p : TPatt (FC rnd))
    (hp : TPatt.init (.arr A) (.arr B) ds = .ok p) : ∃ q, TPatt.init (.arr A') (.arr B') ds = .ok q ∧ PattTimesV u p q := by
  obtain ⟨k, rfl⟩ := unit_pow hu
  obtain rfl := (times_iff k _ _).1 h1
  obtain rfl := (times_iff k _ _).1 h2
  have h := iterate (fun A : Arr2 (FC rnd) × Arr2 (FC rnd) => TPatt.init (.arr A.1) (.arr A.2) ds) (fun A => (A.1.map turn, A.2.map turn)) TPatt.turned (fun _ => True) (fun _ _ => trivial)
    (fun a p _ h => tr_ok (tinit_tr hrd.neg a.1 a.2 ds) h) k (A, B) p trivial hp
  have e : (fun A : Arr2 (FC rnd) × Arr2 (FC rnd) => (A.1.map turn, A.2.map turn))^[k] (A, B) = (A.map turn^[k], B.map turn^[k]) := by
    clear h1 h2 h hu
    induction k with
    | zero => rfl
    | succ k ih => rw [Function.iterate_succ_apply', ih, ← map_iter, ← map_iter]
  rw [e, vturned_iter] at h
  exact ⟨_, h, (times_iff k _ _).2 rfl, (times_iff k _ _).2 rfl⟩

/-- A value that a `complex128` can hold, as the rounding sees it. -/
def Held (z : FC rnd) : Prop := rnd z.re = z.re ∧ rnd z.im = z.im

/-- **C127 (how a user multiplies).** `p * u` on a pattern of doubles, for `u` one of `-1`, `1j`, `-1j` (spherepy.py 1126-1134), is the exact multiple. -/
theorem c127_times (hrd : NoOverflow rnd) (u : FC rnd) (hu : FS.val u ^ 4 = 1) (p : SPatt (FC rnd)) (D : Arr2 (FC rnd)) (hD : p.dsphere = .ok D) (hh : ∀ i j, Held (D.at' i j)) :
    ∃ q, p.opLeft .mul (.num u) = .ok q ∧ PattTimes (FS.val u) p q := by
  have r0 : rnd 0 = 0 := rnd_zero hrd.toIsRounding
  obtain ⟨k, hk⟩ := unit_pow hu
  have hm : ∀ z : FC rnd, Held z → FS.val (z * u) = FS.val u * FS.val z := by
    rintro ⟨a, b⟩ ⟨h1, h2⟩
    simp only at h1 h2
    have cases4 : u = ⟨1, 0⟩ ∨ u = ⟨0, 1⟩ ∨ u = ⟨-1, 0⟩ ∨ u = ⟨0, -1⟩ := by
      have e4 : Complex.I ^ 4 = 1 := Complex.I_pow_four
      have h : Complex.I ^ k = Complex.I ^ (k % 4) := by
        conv_lhs => rw [← Nat.div_add_mod k 4, pow_add, pow_mul, e4, one_pow, one_mul]
      rw [h] at hk
      have hlt : k % 4 < 4 := Nat.mod_lt _ (by norm_num)
      generalize k % 4 = r at hk hlt
      interval_cases r
      · refine .inl (val_inj (hk.trans ?_)); apply Complex.ext <;> simp [FS.val]
      · refine .inr (.inl (val_inj (hk.trans ?_))); apply Complex.ext <;> simp [FS.val]
      · refine .inr (.inr (.inl (val_inj (hk.trans ?_)))); rw [Complex.I_sq]; apply Complex.ext <;> simp [FS.val]
      · refine .inr (.inr (.inr (val_inj (hk.trans ?_)))); rw [pow_succ, Complex.I_sq]; apply Complex.ext <;> simp [FS.val]
    have e : (⟨a, b⟩ : FC rnd) * u = ⟨rnd (rnd (a * u.re) - rnd (b * u.im)), rnd (rnd (a * u.im) + rnd (b * u.re))⟩ := rfl
    rw [e]
    have n1 : rnd (-a) = -a := by rw [hrd.neg, h1]
    have n2 : rnd (-b) = -b := by rw [hrd.neg, h2]
    rcases cases4 with rfl | rfl | rfl | rfl <;> apply Complex.ext <;> simp [FS.val, r0, h1, h2, n1, n2]
  obtain ⟨ds⟩ := p
  cases ds with
  | exc => cases hD
  | arr A =>
    obtain rfl : A = D := by injection hD
    refine ⟨⟨.arr (A.map fun x => x * u)⟩, rfl, A, A.map fun x => x * u, rfl, rfl, rfl, rfl, fun i j hi hj => ?_⟩
    have e : (A.map fun x => x * u).at' i j = A.at' i j * u := by
      unfold Arr2.at'
      have hij : i < A.rows ∧ j < A.cols := ⟨hi, hj⟩
      have hij' : i < (A.map fun x => x * u).rows ∧ j < (A.map fun x => x * u).cols := hij
      rw [dif_pos hij, dif_pos hij']; rfl
    rw [e]
    exact hm _ (hh i j)

namespace TN

theorem goodFft_turns (hn : ∀ x, rnd (-x) = -rnd x) : Turns (FP.goodFft rnd).fft ∧ Turns (FP.goodFft rnd).ifft := by
  have hval : ∀ l : List (FC rnd), (l.map turn).map FS.val = (l.map FS.val).map (Complex.I * ·) := fun l => by
    rw [List.map_map, List.map_map]
    congr 1
    funext z
    exact val_turn z
  have hrd : ∀ z : ℂ, (⟨rnd (Complex.I * z).re, rnd (Complex.I * z).im⟩ : FC rnd) = turn ⟨rnd z.re, rnd z.im⟩ := fun z => by
    rw [turn_mk]
    exact fc_mk (by rw [← hn]; simp) (by simp)
  have hr : ∀ (l : List ℂ) j, rd (l.map (Complex.I * ·)) j = Complex.I * rd l j := fun l j => rd_map (t := (Complex.I * ·)) (by simp) l j
  have h1 : ∀ l : List ℂ, npFft (l.map (Complex.I * ·)) = rmap (List.map (Complex.I * ·)) (npFft l) := by
    intro l
    show Tr _ _ _
    unfold npFft
    simp only [List.length_map, hr]
    refine Tr.ite Iff.rfl (fun _ => Tr.err _) fun _ => Tr.ok _ ?_
    rw [map_tab]
    congr 1
    funext k
    rw [Finset.mul_sum]
    exact Finset.sum_congr rfl fun j _ => by ring
  have h2 : ∀ l : List ℂ, npIfft (l.map (Complex.I * ·)) = rmap (List.map (Complex.I * ·)) (npIfft l) := by
    intro l
    show Tr _ _ _
    unfold npIfft
    simp only [List.length_map, hr]
    refine Tr.ite Iff.rfl (fun _ => Tr.err _) fun _ => Tr.ok _ ?_
    rw [map_tab]
    congr 1
    funext k
    rw [← mul_div_assoc, Finset.mul_sum]
    congr 1
    exact Finset.sum_congr rfl fun j _ => by ring
  constructor
  · intro l
    show Tr _ _ _
    unfold FP.goodFft
    simp only
    rw [hval]
    refine Tr.bind (h1 _) fun y => Tr.ok _ ?_
    rw [List.map_map, List.map_map]
    congr 1
    funext z
    exact hrd z
  · intro l
    show Tr _ _ _
    unfold FP.goodFft
    simp only
    rw [hval]
    refine Tr.bind (h2 _) fun y => Tr.ok _ ?_
    rw [List.map_map, List.map_map]
    congr 1
    funext z
    exact hrd z

theorem sumF_neg (hn : ∀ x, rnd (-x) = -rnd x) : ∀ l : List ℝ, FA.sumF rnd (l.map (-·)) = -FA.sumF rnd l
  | [] => by simp [FA.sumF]
  | [x] => by simp [FA.sumF]
  | x :: y :: l => by
    have ih := sumF_neg hn (y :: l)
    simp only [List.map_cons, FA.sumF] at ih ⊢
    rw [ih, ← neg_add, hn]

theorem good_symmetric (hn : ∀ x, rnd (-x) = -rnd x) (lm : Fl.Libm) (clm : Fl.LibM) (J : ℕ → CJunk) : (Env.mk (FP.goodFft rnd) (FA.goodLib rnd).sum lm clm J).Symmetric := by
  obtain ⟨h1, h2⟩ := goodFft_turns (rnd := rnd) hn
  refine ⟨(of_turns h1).1, (of_turns h1).2, (of_turns h2).1, (of_turns h2).2, fun x y hxy => ?_⟩
  rw [(listI_iff x y).1 hxy, ← val_turn]
  congr 1
  show (⟨FA.sumF rnd ((x.map turn).map FC.re), FA.sumF rnd ((x.map turn).map FC.im)⟩ : FC rnd) = turn ⟨FA.sumF rnd (x.map FC.re), FA.sumF rnd (x.map FC.im)⟩
  rw [turn_mk, ← sumF_neg hn, List.map_map, List.map_map, List.map_map]
  rfl

end TN

/-- Not vacuous: the 5 by 8 array with entries `(i+1) + (j+1) 1j` and the same array times `1j`, on the compiled extension with different memory contents possible, `nmax = 3`, `mmax = 2`:
both analyses succeed, and every coefficient of the second is exactly `1j` times that of the first. -/
theorem c127_example : ∃ (rnd : ℝ → ℝ) (e : Env rnd) (A B : Arr2 (FC rnd)) (p q : SPatt (FC rnd)) (c d : ScalarCoefs (FC rnd)),
    NoOverflow rnd ∧ e.Symmetric ∧ e.OK (2 ^ (-45 : ℤ)) 8 8 ∧ A.at' 3 5 = ⟨4, 6⟩ ∧ B.at' 3 5 = ⟨-6, 4⟩ ∧ SPatt.init (.arr A) false = .ok p ∧ SPatt.init (.arr B) false = .ok q ∧
    e.spht true p 3 2 = .ok c ∧ e.spht true q 3 2 = .ok d ∧ c.nmax = 3 ∧ c.mmax = 2 ∧ CoefsTimes Complex.I c d := by
  obtain ⟨rnd, h⟩ := noOverflow_exists
  have hr := h.toIsRounding
  obtain ⟨C7, C8⟩ := FU.c16
  have hA : UserArr (FU.arr rnd 1 1) 16 := FU.arr_ok 1 1 (by norm_num) (by norm_num)
  have ok : ∀ J, (Env.mk (FP.goodFft rnd) (FA.goodLib rnd).sum ⟨rnd (Real.pi / 2), fun x => rnd (Real.cos x), fun x => rnd (Real.sin x)⟩ _ J).OK (2 ^ (-45 : ℤ)) 8 8 :=
    fun J => ⟨FU.fftOK_good hr, FA.goodLib_sum, FU.libmOK_rnd hr, libMWithin_rnd hr⟩
  have J : ℕ → CJunk := fun _ => ⟨fun _ => 1, fun _ => 7, fun _ => 3⟩
  have hs := TN.good_symmetric (rnd := rnd) h.neg ⟨rnd (Real.pi / 2), fun x => rnd (Real.cos x), fun x => rnd (Real.sin x)⟩ ⟨fun x => rnd (Real.cos x), fun x => rnd (Real.sin x)⟩ J
  obtain ⟨_, p, _, c, -, e1, -, e2, -, n1, m1, -⟩ := FU.env_spht h _ true (FU.arr rnd 1 1) 16 hA C7 C8
    (by show 5 ≤ 2 ^ 27; norm_num) (by show (2 * 5 - 2) * 8 < 2 ^ 53; norm_num) (by show 8 % 2 = 0; norm_num) 3 2 (by norm_num) (by norm_num) (by show 3 < 5 - 1; norm_num) (by show 2 * 2 < 8; norm_num) (2 ^ (-45 : ℤ)) le_rfl
    (by show 1200 * (Nat.log 2 (4 * (2 * 5 - 2)) : ℝ) * Real.sqrt (((2 * 5 - 2 : ℕ) : ℝ) + 1) * 2 ^ (-45 : ℤ) ≤ 1
        rw [FU.r8, FU.l8]; norm_num) (ok J)
  have hAB : TimesUnit Complex.I (FU.arr rnd 1 1) ((FU.arr rnd 1 1).map turn) := by
    have := (TN.times_iff 1 (FU.arr rnd 1 1) _).2 rfl
    simpa using this
  have hu : Complex.I ^ 4 = 1 := Complex.I_pow_four
  obtain ⟨q, e3, hpq⟩ := c127_new h Complex.I hu _ _ hAB false p e1
  obtain ⟨D, B, hD, hB, hDB⟩ := hpq
  have hrows : D.rows = 8 := by
    unfold SPatt.init at e1
    obtain ⟨d, hd, e1⟩ := FK.bind_inv e1
    injection e1 with e1
    subst e1
    injection hD with hD
    subst hD
    unfold continueSphere at hd
    obtain ⟨z, hz, hd⟩ := FK.bind_inv hd
    injection hd with hd
    subst hd
    have hz : (Except.ok _ : Res (Arr2 (FC rnd))) = .ok z := hz
    injection hz with hz
    subst hz
    rfl
  obtain ⟨d, e4, hcd⟩ := c127_spht h _ hs (ok J).clm true Complex.I hu p q ⟨D, B, hD, hB, hDB⟩ D hD (by omega) 3 2 (by omega) c e2
  refine ⟨rnd, _, FU.arr rnd 1 1, (FU.arr rnd 1 1).map turn, p, q, c, d, h, hs, ok J, ?_, ?_, e1, e3, e2, e4, n1, m1, hcd⟩
  · unfold FU.arr
    rw [Arr2.at'_ofFn (by norm_num) (by norm_num)]
    norm_num
  · rw [TN.at'_map TN.turn_zero]
    unfold FU.arr
    rw [Arr2.at'_ofFn (by norm_num) (by norm_num)]
    norm_num [turn]

end Verif.Props
