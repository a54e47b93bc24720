import Verif.Props.FloatTurn1
/-!
# C127, part 2: the arithmetic, windows, double covers and synthesis
-/
namespace Verif.Props
open Verif
variable {rnd : ℝ → ℝ}
namespace TN

/-! ### Windows -/

theorem setCol_tr {α β : Type} (t : α → β) (c : ScalarCoefs α) (m : Int) (v : List α) : ETr t (c.setCol m (.seq v)) ((cmap t c).setCol m (.seq (v.map t))) := by
  unfold ScalarCoefs.setCol cmap
  simp only
  split
  · exact ⟨rfl, rfl⟩
  cases mindx m c.nmax c.mmax with
  | error e => exact ⟨rfl, rfl⟩
  | ok s =>
    simp only [getSlice_map, List.length_map]
    split
    · exact ⟨rfl, rfl⟩
    have hs : ∀ lo hi : Int, Tr (List.map t) (setSlice c.vec lo hi v) (setSlice (c.vec.map t) lo hi (v.map t)) := by
      intro lo hi
      unfold setSlice
      simp only [List.length_map]
      refine Tr.ite Iff.rfl (fun _ => Tr.ok _ (by simp [List.map_take, List.map_drop])) fun _ => ?_
      match v with
      | [] => exact Tr.err _
      | [x] => exact Tr.ok _ (by simp [List.map_take, List.map_drop])
      | _ :: _ :: _ => exact Tr.err _
    have := hs s (s + c.nmax - iabs m + 1)
    unfold Tr at this
    rw [this]
    cases setSlice c.vec s (s + c.nmax - iabs m + 1) v with
    | error e => exact ⟨rfl, rfl⟩
    | ok l => exact ⟨rfl, rfl⟩

theorem getCol_tr {α β : Type} (t : α → β) (c : ScalarCoefs α) (m : Int) : Tr (List.map t) (c.getCol m) ((cmap t c).getCol m) := by
  unfold ScalarCoefs.getCol cmap
  exact Tr.ite Iff.rfl (fun _ => Tr.err _) fun _ => Tr.same fun s => Tr.ok _ (getSlice_map _ _ _ _)

theorem windowCol_tr {α β : Type} [Mul α] [Mul β] (t : α → β) (w : List α) (w' : List β) (hw : ∀ l : List α, Tr (List.map t) (bcast (· * ·) l w) (bcast (· * ·) (l.map t) w'))
    (c : ScalarCoefs α) (m : Int) : ETr t (c.windowCol m w) ((cmap t c).windowCol m w') := by
  unfold ScalarCoefs.windowCol
  have h := getCol_tr t c m
  unfold Tr at h
  rw [h]
  cases c.getCol m with
  | error e => exact ⟨rfl, rfl⟩
  | ok col =>
    have h2 := hw col
    unfold Tr at h2
    simp only [rmap, h2]
    cases bcast (· * ·) col w with
    | error e => exact ⟨rfl, rfl⟩
    | ok v => exact setCol_tr t c m v

/-- `c.window(w)` commutes with a map that commutes with multiplication on the right. -/
theorem windowed_tr {α : Type} [Zero α] [Mul α] (t : α → α) (hm : ∀ a b, t a * b = t (a * b)) (c : ScalarCoefs α) (w : List α) : Tr (cmap t) (c.windowed w) ((cmap t c).windowed w) := by
  have hb : ∀ w l : List α, Tr (List.map t) (bcast (· * ·) l w) (bcast (· * ·) (l.map t) w) := fun w l => bcast_tr t t hm l w
  have h : ETr t (c.window w) ((cmap t c).window w) := by
    unfold ScalarCoefs.window
    refine (windowCol_tr t w w (hb w) c 0).andThen fun c0 => ?_
    exact ETr.forEach (fun c k => (windowCol_tr t _ _ (hb _) c _).andThen fun c => windowCol_tr t _ _ (hb _) c _) _ c0
  unfold ScalarCoefs.windowed
  simp only
  rw [h.2, h.1]
  cases (c.window w).err <;> rfl

/-! ### Arithmetic -/

theorem fc_mk {a b c d : ℝ} (h : a = c) (h' : b = d) : (⟨a, b⟩ : FC rnd) = ⟨c, d⟩ := by rw [h, h']

theorem turn_zero : turn (0 : FC rnd) = 0 := by
  show (⟨-(0 : ℝ), 0⟩ : FC rnd) = ⟨0, 0⟩
  rw [neg_zero]

section arith
variable (hn : ∀ x, rnd (-x) = -rnd x)
include hn

theorem turn_add (a b : FC rnd) : turn (a + b) = turn a + turn b := by
  show (⟨-rnd (a.im + b.im), rnd (a.re + b.re)⟩ : FC rnd) = ⟨rnd (-a.im + -b.im), rnd (a.re + b.re)⟩
  rw [← neg_add, hn]

theorem turn_sub (a b : FC rnd) : turn (a - b) = turn a - turn b := by
  show (⟨-rnd (a.im - b.im), rnd (a.re - b.re)⟩ : FC rnd) = ⟨rnd (-a.im - -b.im), rnd (a.re - b.re)⟩
  rw [← hn, neg_sub, sub_neg_eq_add, add_comm, ← sub_eq_add_neg]

theorem turn_mul (a b : FC rnd) : turn a * b = turn (a * b) := by
  show (⟨rnd (rnd (-a.im * b.re) - rnd (a.re * b.im)), rnd (rnd (-a.im * b.im) + rnd (a.re * b.re))⟩ : FC rnd) =
    ⟨-rnd (rnd (a.re * b.im) + rnd (a.im * b.re)), rnd (rnd (a.re * b.re) - rnd (a.im * b.im))⟩
  refine fc_mk ?_ ?_
  · refine .trans (congrArg rnd ?_) (hn _); rw [neg_mul, hn (a.im * b.re)]; ring
  · rw [neg_mul, hn (a.im * b.im)]; congr 1; ring

theorem mul_turn (a b : FC rnd) : a * turn b = turn (a * b) := by
  show (⟨rnd (rnd (a.re * -b.im) - rnd (a.im * b.re)), rnd (rnd (a.re * b.re) + rnd (a.im * -b.im))⟩ : FC rnd) =
    ⟨-rnd (rnd (a.re * b.im) + rnd (a.im * b.re)), rnd (rnd (a.re * b.re) - rnd (a.im * b.im))⟩
  refine fc_mk ?_ ?_
  · refine .trans (congrArg rnd ?_) (hn _); rw [mul_neg, hn (a.re * b.im)]; ring
  · rw [mul_neg, hn (a.im * b.im), ← sub_eq_add_neg]

theorem turn_div (a b : FC rnd) : turn a / b = turn (a / b) := by
  show (if |b.im| ≤ |b.re| then _ else _ : FC rnd) = turn (if |b.im| ≤ |b.re| then _ else _)
  split
  · refine fc_mk ?_ ?_
    · show rnd (rnd (-a.im + rnd (a.re * _)) * _) = -rnd (rnd (a.im - rnd (a.re * _)) * _)
      rw [← hn, ← neg_mul, ← hn]
      congr 3; ring
    · show rnd (rnd (a.re - rnd (-a.im * _)) * _) = rnd (rnd (a.re + rnd (a.im * _)) * _)
      rw [neg_mul, hn (a.im * _), sub_neg_eq_add]
  · refine fc_mk ?_ ?_
    · show rnd (rnd (rnd (-a.im * _) + a.re) * _) = -rnd (rnd (rnd (a.im * _) - a.re) * _)
      refine .trans (congrArg rnd ?_) (hn _)
      rw [← neg_mul]
      refine congrArg (· * _) (.trans (congrArg rnd ?_) (hn _))
      rw [neg_mul, hn (a.im * _)]; ring
    · show rnd (rnd (rnd (a.re * _) - -a.im) * _) = rnd (rnd (rnd (a.re * _) + a.im) * _)
      rw [sub_neg_eq_add]

/-! ### Double covers -/

theorem mul_zero_iff (s t : FC rnd) : turn s * turn t = 0 ↔ s * t = 0 := by
  rw [turn_mul hn, mul_turn hn]
  generalize s * t = z
  have e : turn (turn z) = ⟨-z.re, -z.im⟩ := rfl
  rw [e]
  constructor
  · intro h
    have h1 := congrArg FC.re h
    have h2 := congrArg FC.im h
    have h1 : -z.re = 0 := h1
    have h2 : -z.im = 0 := h2
    ext
    · exact neg_eq_zero.mp h1
    · exact neg_eq_zero.mp h2
  · rintro rfl
    show (⟨-0, -0⟩ : FC rnd) = ⟨0, 0⟩
    rw [neg_zero]

theorem dsCell_turn (s t : FC rnd) : dsCell (turn s) (turn t) = turn (dsCell s t) := by
  unfold dsCell
  by_cases h : s * t = 0
  · rw [if_pos h, if_pos ((mul_zero_iff hn s t).2 h), turn_add hn]
  · rw [if_neg h, if_neg (fun h' => h ((mul_zero_iff hn s t).1 h')), ← turn_div hn, turn_add hn]

theorem continueSphere_tr (A : Arr2 (FC rnd)) (sym : FC rnd) : Tr (Arr2.map turn) (continueSphere A sym) (continueSphere (A.map turn) sym) := by
  unfold continueSphere
  refine Tr.bind (t := Arr2.map turn) ?_ fun z => Tr.ok _ ?_
  · unfold npFull2
    simp only [Arr2.rows_map, Arr2.cols_map]
    refine Tr.ite Iff.rfl (fun _ => Tr.err _) fun _ => Tr.ok _ ?_
    rw [ofFn_map]
    simp only [turn_zero]
  · have e : vcat (A.map turn) (z.map turn) = (vcat A z).map turn := by
      unfold vcat
      rw [ofFn_map]
      simp only [Arr2.rows_map, Arr2.cols_map, at'_map turn_zero]
      congr 1
      funext i j
      split <;> rfl
    rw [e]
    unfold doubleSphere
    rw [ofFn_map]
    simp only [Arr2.rows_map, Arr2.cols_map, at'_map turn_zero, mul_turn hn, dsCell_turn hn]

/-- A pattern with every sample multiplied by `1j`. -/
def _root_.Verif.Props.SPatt.turned (p : SPatt (FC rnd)) : SPatt (FC rnd) :=
  match p.ds with
  | .arr A => ⟨.arr (A.map turn)⟩
  | .exc => ⟨.exc⟩

/-- A transverse pattern with every sample multiplied by `1j`. -/
def _root_.Verif.Props.TPatt.turned (p : TPatt (FC rnd)) : TPatt (FC rnd) := ⟨p.td.map turn, p.pd.map turn⟩

omit hn in
theorem dsphere_tr (p : SPatt (FC rnd)) : Tr (Arr2.map turn) p.dsphere (SPatt.turned p).dsphere := by
  obtain ⟨ds⟩ := p
  cases ds with
  | arr A => rfl
  | exc => rfl

theorem sinit_tr (A : Arr2 (FC rnd)) (b : Bool) : Tr SPatt.turned (SPatt.init (.arr A) b) (SPatt.init (.arr (A.map turn)) b) := by
  cases b with
  | true => exact Tr.ok _ rfl
  | false =>
    unfold SPatt.init
    exact Tr.bind (continueSphere_tr hn A 1) fun d => Tr.ok _ rfl

theorem tinit_tr (A B : Arr2 (FC rnd)) (b : Bool) : Tr TPatt.turned (TPatt.init (.arr A) (.arr B) b) (TPatt.init (.arr (A.map turn)) (.arr (B.map turn)) b) := by
  unfold TPatt.init
  simp only [Arr2.rows_map, Arr2.cols_map]
  refine Tr.ite Iff.rfl (fun _ => Tr.err _) fun _ => ?_
  cases b with
  | true => exact Tr.ok _ rfl
  | false => exact Tr.bind (continueSphere_tr hn A _) fun d => Tr.bind (continueSphere_tr hn B _) fun d => Tr.ok _ rfl

/-! ### Synthesis -/

theorem fcvecMSc_tr (jp : Int → FC rnd) (vec : List (FC rnd)) (m nmax nrows : Int) :
    Tr (List.map turn) (Fl.fcvecMSc rnd jp vec m nmax nrows) (Fl.fcvecMSc rnd jp (vec.map turn) m nmax nrows) := by
  unfold Fl.fcvecMSc
  have z := npFull_tr turn nrows (0 : FC rnd)
  rw [turn_zero] at z
  refine Tr.bind z fun F => Tr.bind (Tr.forAll _ (fun F n => ?_) F) fun F => ?_
  · unfold Fl.fcvecBody
    refine Tr.same fun y => Tr.bind (getIdx_tr turn vec _) fun v => ?_
    have := addPrefix_tr turn_zero (turn_add hn) F (nmax + 1) (List.map (fun (y : ℝ) => v * (⟨y, 0⟩ : FC rnd)) y)
    rw [List.map_map] at this
    have e : (turn ∘ fun (y : ℝ) => v * (⟨y, 0⟩ : FC rnd)) = fun (y : ℝ) => turn v * (⟨y, 0⟩ : FC rnd) := by
      funext y
      rw [turn_mul hn]; rfl
    rwa [e] at this
  · refine Tr.ok _ ?_
    have e : (tab (F.map turn).length fun i => if i < clampIdx (F.map turn).length (nmax + 1) then rd (F.map turn) i * jp m else rd (F.map turn) i) =
        (tab F.length fun i => if i < clampIdx F.length (nmax + 1) then rd F i * jp m else rd F i).map turn := by
      rw [map_tab]
      simp only [List.length_map, rd_map turn_zero]
      congr 1
      funext j
      split
      · rw [turn_mul hn]
      · rfl
    simp only [e]
    generalize (tab F.length fun i => if i < clampIdx F.length (nmax + 1) then rd F i * jp m else rd F i) = G
    simp only [map_tab turn, rd_map turn_zero, List.length_map]
    congr 1
    funext i
    split
    · split
      · rw [mul_turn hn]
      · rfl
    · split
      · rw [mul_turn hn]
      · rfl

theorem scToFc_tr (jp : Int → FC rnd) (vec : List (FC rnd)) (nmax mmax nrows ncols : Int) :
    Tr (Arr2.map turn) (Fl.scToFc rnd jp vec nmax mmax nrows ncols) (Fl.scToFc rnd jp (vec.map turn) nmax mmax nrows ncols) := by
  have col : ∀ (A : Arr2 (FC rnd)) (k : Int), Tr (Arr2.map turn) (Fl.scToFcCol rnd jp vec nmax mmax nrows A k) (Fl.scToFcCol rnd jp (vec.map turn) nmax mmax nrows (A.map turn) k) := by
    intro A k
    unfold Fl.scToFcCol
    refine Tr.same fun ind => ?_
    rw [getSlice_map]
    exact Tr.bind (fcvecMSc_tr hn jp _ k nmax nrows) fun F => setColumn_tr turn_zero A k F
  unfold Fl.scToFc
  refine Tr.bind (npZeros2_tr turn_zero nrows ncols) fun A => Tr.forAll _ (fun A k => ?_) A
  unfold Fl.scToFcBody
  refine Tr.bind (t := Arr2.map turn) ?_ fun A => Tr.ite Iff.rfl (fun _ => col A k) fun _ => Tr.ok _ rfl
  exact Tr.ite Iff.rfl (fun _ => Tr.bind (col A k) fun A => col A _) fun _ => Tr.ok _ rfl

/-- The state of the C loops: complex data turned, real work array as it is. -/
def fy (st : List (FC rnd) × List ℝ) : List (FC rnd) × List ℝ := (st.1.map turn, st.2)

theorem scale_turn (a t v : FC rnd) (c : ℝ) (ha : a = ⟨rnd (t.re + rnd (v.re * c)), rnd (t.im + rnd (v.im * c))⟩) :
    (⟨rnd ((turn t).re + rnd ((turn v).re * c)), rnd ((turn t).im + rnd ((turn v).im * c))⟩ : FC rnd) = turn a := by
  subst ha
  show (⟨rnd (-t.im + rnd (-v.im * c)), rnd (t.re + rnd (v.re * c))⟩ : FC rnd) = ⟨-rnd (t.im + rnd (v.im * c)), rnd (t.re + rnd (v.re * c))⟩
  rw [neg_mul, hn, ← neg_add, hn]

theorem cMulIPow_turn (m : Int) (v : FC rnd) : Fl.cMulIPow rnd m (turn v) = turn (Fl.cMulIPow rnd m v) := by
  unfold Fl.cMulIPow
  split
  · show (⟨rnd (_ * v.re), rnd (_ * -v.im)⟩ : FC rnd) = ⟨-rnd (_ * v.re), rnd (_ * v.im)⟩
    refine fc_mk ?_ ?_
    · rw [← hn]; congr 1; ring
    · congr 1; ring
  · show (⟨rnd (_ * -v.im), rnd (_ * v.re)⟩ : FC rnd) = ⟨-rnd (_ * v.im), rnd (_ * v.re)⟩
    refine fc_mk ?_ rfl
    rw [← hn]; congr 1; ring

theorem cFcvecMSc_tr (sc : List (FC rnd)) (off m Nmax Nrow Ncol M len : Int) (st : List (FC rnd) × List ℝ) :
    Tr fy (Fl.cFcvecMSc rnd sc off m Nmax Nrow Ncol M len st) (Fl.cFcvecMSc rnd (sc.map turn) off m Nmax Nrow Ncol M len (fy st)) := by
  unfold Fl.cFcvecMSc
  refine Tr.bind (Tr.forAll _ (fun st n => ?_) st) fun st => ?_
  · unfold Fl.cFcvecAcc
    refine Tr.same fun y => Tr.bind (Tr.forAll _ (fun F k => ?_) st.1) fun F => Tr.ok _ rfl
    refine Tr.bind (cGet_tr turn F _) fun t => Tr.bind (cGet_tr turn sc _) fun v => Tr.same fun yk => ?_
    have := cSet_tr turn F (k * Ncol + M) ⟨rnd (t.re + rnd (v.re * yk)), rnd (t.im + rnd (v.im * yk))⟩
    rwa [← scale_turn hn _ t v yk rfl] at this
  · refine Tr.bind (Tr.forAll _ (fun F k => ?_) st.1) fun F => Tr.bind (Tr.forAll _ (fun F k => ?_) F) fun F => Tr.ok _ rfl
    · refine Tr.bind (cGet_tr turn F _) fun t => ?_
      rw [cMulIPow_turn hn]
      exact cSet_tr turn F _ _
    · refine Tr.bind (cGet_tr turn F _) fun t => ?_
      have := cSet_tr turn F (Ncol * (Nrow - 1 - k) + M) ⟨rnd ((-1 : ℝ) ^ m * t.re), rnd ((-1 : ℝ) ^ m * t.im)⟩
      have e : turn (⟨rnd ((-1 : ℝ) ^ m * t.re), rnd ((-1 : ℝ) ^ m * t.im)⟩ : FC rnd) = ⟨rnd ((-1 : ℝ) ^ m * (turn t).re), rnd ((-1 : ℝ) ^ m * (turn t).im)⟩ := by
        show (⟨-rnd ((-1 : ℝ) ^ m * t.im), rnd ((-1 : ℝ) ^ m * t.re)⟩ : FC rnd) = ⟨rnd ((-1 : ℝ) ^ m * -t.im), rnd ((-1 : ℝ) ^ m * t.re)⟩
        rw [mul_neg, hn]
      rwa [e] at this

theorem cScToFc_tr (F : List (FC rnd)) (Nrow Ncol : Int) (sc : List (FC rnd)) (Nmax Mmax : Int) (J : CJunk) :
    Tr (List.map turn) (Fl.cScToFc rnd F Nrow Ncol sc Nmax Mmax J) (Fl.cScToFc rnd (F.map turn) Nrow Ncol (sc.map turn) Nmax Mmax J) := by
  unfold Fl.cScToFc
  refine Tr.same fun y => Tr.same fun inds => Tr.same fun inds => Tr.same fun inds => Tr.bind (Tr.forAll (t := fy) _ (fun st k => ?_) (F, y)) fun st => Tr.ok _ rfl
  refine Tr.ite Iff.rfl (fun _ => Tr.same fun o1 => Tr.bind (cFcvecMSc_tr hn _ _ _ _ _ _ _ _ _) fun st => Tr.same fun o2 => cFcvecMSc_tr hn _ _ _ _ _ _ _ _ _) fun _ => ?_
  exact Tr.ite Iff.rfl (fun _ => Tr.same fun o => cFcvecMSc_tr hn _ _ _ _ _ _ _ _ _) fun _ => Tr.ok _ rfl

theorem backendScToFc_tr (jp : Int → FC rnd) (b : Backend) (call : ℕ) (vec : List (FC rnd)) (nmax mmax nrows ncols : Int) :
    Tr (Arr2.map turn) (Fl.backendScToFc rnd jp b call vec nmax mmax nrows ncols) (Fl.backendScToFc rnd jp b call (vec.map turn) nmax mmax nrows ncols) := by
  cases b with
  | py => exact scToFc_tr hn jp vec nmax mmax nrows ncols
  | c J =>
    unfold Fl.backendScToFc
    refine Tr.bind (npZeros2_tr turn_zero nrows ncols) fun z => ?_
    rw [flat_map turn_zero]
    exact Tr.bind (cScToFc_tr hn _ _ _ vec nmax mmax (J call)) fun l => Tr.ok _ (unflat_map turn_zero _ _ l)

/-- `ispht` commutes with `turn` if the inverse FFT does. -/
theorem ispht_tr (jp : Int → FC rnd) (post : Arr2 (FC rnd) → Int → Int → Res (Arr2 (FC rnd))) (hp : ∀ A r c, Tr (Arr2.map turn) (post A r c) (post (A.map turn) r c))
    (b : Backend) (c : ScalarCoefs (FC rnd)) (nr nc : Option Int) : Tr SPatt.turned (Fl.ispht rnd jp post b c nr nc) (Fl.ispht rnd jp post b (cmap turn c) nr nc) := by
  unfold Fl.ispht
  refine Tr.same fun _ => Tr.bind (backendScToFc_tr hn jp b 0 c.vec _ _ _ _) fun f => Tr.bind (hp f _ _) fun ds => sinit_tr hn ds true

/-! ### Vector operators -/

theorem sinFc_tr (f : Arr2 (FC rnd)) : Tr (Arr2.map turn) (Fl.sinFc rnd f) (Fl.sinFc rnd (f.map turn)) := by
  unfold Fl.sinFc
  refine Tr.ite Iff.rfl (fun _ => Tr.err _) fun _ => Tr.ok _ ?_
  have e1 : ∀ (A : Arr2 (FC rnd)) i, (A.map turn).setRow i (fun _ => 0) = (A.setRow i fun _ => 0).map turn := fun A i => by
    rw [← setRow_map turn_zero]; simp only [turn_zero]
  simp only [e1, Arr2.rows_map, Arr2.cols_map, at'_map turn_zero]
  rw [ofFn_map]
  simp only [← turn_sub hn, mul_turn hn]

theorem dthetaFc_tr (f : Arr2 (FC rnd)) : Tr (Arr2.map turn) (Fl.dthetaFc rnd f) (Fl.dthetaFc rnd (f.map turn)) := by
  unfold Fl.dthetaFc
  refine Tr.ite Iff.rfl (fun _ => Tr.err _) fun _ => Tr.ok _ ?_
  rw [ofFn_map]
  simp only [Arr2.rows_map, Arr2.cols_map, at'_map turn_zero, mul_turn hn]

theorem dphiFc_tr (f : Arr2 (FC rnd)) : Tr (Arr2.map turn) (Fl.dphiFc rnd f) (Fl.dphiFc rnd (f.map turn)) := by
  unfold Fl.dphiFc
  refine Tr.ite Iff.rfl (fun _ => Tr.err _) fun _ => Tr.ok _ ?_
  rw [ofFn_map]
  simp only [Arr2.rows_map, Arr2.cols_map, at'_map turn_zero, mul_turn hn]

omit hn in
theorem zip_turn (f : FC rnd → FC rnd → FC rnd) (h : ∀ a b, f (turn a) (turn b) = turn (f a b)) (A B : Arr2 (FC rnd)) : (A.map turn).zip f (B.map turn) = (A.zip f B).map turn := by
  unfold Arr2.zip
  rw [ofFn_map]
  simp only [Arr2.rows_map, Arr2.cols_map, at'_map turn_zero, h]

theorem sinLdotFc_tr (a b : Arr2 (FC rnd)) : Tr (Arr2.map turn) (Fl.sinLdotFc rnd a b) (Fl.sinLdotFc rnd (a.map turn) (b.map turn)) := by
  unfold Fl.sinLdotFc
  refine Tr.bind (dphiFc_tr hn a) fun a => Tr.bind (sinFc_tr hn b) fun b => Tr.bind (dthetaFc_tr hn b) fun b => Tr.ok _ ?_
  exact zip_turn _ (fun a b => by rw [← turn_sub hn, mul_turn hn]) a b

theorem divsinFc_tr (f : Arr2 (FC rnd)) : Tr (Arr2.map turn) (Fl.divsinFc rnd f) (Fl.divsinFc rnd (f.map turn)) := by
  unfold Fl.divsinFc
  refine Tr.ite Iff.rfl (fun _ => Tr.err _) fun _ => Tr.ok _ ?_
  have step : ∀ (g : Arr2 (FC rnd)) k, Fl.divsinStep rnd (f.map turn) (g.map turn) k = (Fl.divsinStep rnd f g k).map turn := by
    intro g k
    unfold Fl.divsinStep
    rw [← setRow_map turn_zero]
    simp only [Arr2.rows_map, at'_map turn_zero, mul_turn hn, turn_add hn]
  have fold : ∀ (ks : List Int) (g : Arr2 (FC rnd)), ks.foldl (Fl.divsinStep rnd (f.map turn)) (g.map turn) = (ks.foldl (Fl.divsinStep rnd f) g).map turn := by
    intro ks
    induction ks with
    | nil => intro g; rfl
    | cons k ks ih => intro g; rw [List.foldl_cons, List.foldl_cons, step, ih]
  rw [← fold]
  congr 1
  rw [← setRow_map turn_zero, ofFn_map]
  simp only [Arr2.rows_map, Arr2.cols_map, at'_map turn_zero, mul_turn hn, turn_zero]

/-- The pair of component arrays, both turned. -/
def two (p : Arr2 (FC rnd) × Arr2 (FC rnd)) : Arr2 (FC rnd) × Arr2 (FC rnd) := (p.1.map turn, p.2.map turn)

theorem lFc_tr (f : Arr2 (FC rnd)) : Tr two (Fl.lFc rnd f) (Fl.lFc rnd (f.map turn)) := by
  unfold Fl.lFc
  refine Tr.bind (dphiFc_tr hn f) fun a => Tr.bind (divsinFc_tr hn a) fun a => Tr.bind (dthetaFc_tr hn f) fun b => Tr.ok _ ?_
  simp only [two, map_mapA, mul_turn hn]

theorem visphtPost_tr (inv : Arr2 (FC rnd) → Int → Int → Res (Arr2 (FC rnd))) (hp : ∀ A r c, Tr (Arr2.map turn) (inv A r c) (inv (A.map turn) r c)) (f1 f2 : Arr2 (FC rnd)) (dn nc : Int) :
    Tr TPatt.turned (Fl.visphtPost rnd inv f1 f2 dn nc) (Fl.visphtPost rnd inv (f1.map turn) (f2.map turn) dn nc) := by
  unfold Fl.visphtPost
  refine Tr.bind (lFc_tr hn f1) fun l1 => Tr.bind (lFc_tr hn f2) fun l2 => ?_
  have e1 := zip_turn (fun a b => a - (⟨0, 1⟩ : FC rnd) * b) (fun a b => by rw [mul_turn hn, turn_sub hn]) l1.1 l2.2
  have e2 := zip_turn (fun a b => a + (⟨0, 1⟩ : FC rnd) * b) (fun a b => by rw [mul_turn hn, turn_add hn]) l1.2 l2.1
  simp only [two, e1, e2]
  exact Tr.bind (hp _ _ _) fun dt => Tr.bind (hp _ _ _) fun dp => tinit_tr hn dt dp true

/-- `vispht` commutes with `turn` if the inverse FFT does. -/
theorem vispht_tr (jp : Int → FC rnd) (inv : Arr2 (FC rnd) → Int → Int → Res (Arr2 (FC rnd))) (hp : ∀ A r c, Tr (Arr2.map turn) (inv A r c) (inv (A.map turn) r c))
    (b : Backend) (c : VectorCoefs (FC rnd)) (nr nc : Option Int) :
    Tr TPatt.turned (Fl.vispht rnd jp (Fl.visphtPost rnd inv) b c nr nc) (Fl.vispht rnd jp (Fl.visphtPost rnd inv) b (vmap turn c) nr nc) := by
  unfold Fl.vispht
  refine Tr.same fun _ => Tr.same fun w => Tr.bind (init_tr turn c.scoef1.vec _ _) fun s1 => Tr.bind (init_tr turn c.scoef2.vec _ _) fun s2 =>
    Tr.bind (windowed_tr turn (turn_mul hn) s1 w) fun s1 => Tr.bind (windowed_tr turn (turn_mul hn) s2 w) fun s2 =>
    Tr.bind (backendScToFc_tr hn jp b 0 s1.vec _ _ _ _) fun f1 => Tr.bind (t := Arr2.map turn) ?_ fun f2 => visphtPost_tr hn inv hp f1 f2 _ _
  cases b with
  | py => exact backendScToFc_tr hn jp _ 1 s2.vec _ _ _ _
  | c J => exact backendScToFc_tr hn jp _ 1 s2.vec _ _ _ _

end arith
end TN
end Verif.Props
