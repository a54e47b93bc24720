import Verif.Props.FloatPad
import Verif.Props.FloatKiss17
/-!
# C110, analysis: orders that are not asked for change no bit of the others
-/
namespace Verif.Props
open Verif Finset
variable {rnd : ℝ → ℝ}

namespace FD
open FK (bind_inv)

theorem forM'_sim {σ τ ι : Type} {R : σ → τ → Prop} {f : σ → ι → Res σ} {g : τ → ι → Res τ} {xs : List ι}
    (h : ∀ x ∈ xs, ∀ s t s', R s t → f s x = .ok s' → ∃ t', g t x = .ok t' ∧ R s' t') {s s1 : σ} {t : τ} (h0 : R s t) (e : forM' xs s f = .ok s1) :
    ∃ t1, forM' xs t g = .ok t1 ∧ R s1 t1 := by
  induction xs generalizing s t with
  | nil => cases e; exact ⟨t, rfl, h0⟩
  | cons x xs ih =>
    simp only [forM'] at e ⊢
    obtain ⟨a, e1, e2⟩ := bind_inv e
    obtain ⟨t', e3, h1⟩ := h x (by simp) s t a h0 e1
    rw [e3]
    exact ih (fun y hy => h y (by simp [hy])) h1 e2

theorem forM'_keep {σ ι : Type} {P : σ → Prop} {f : σ → ι → Res σ} {xs : List ι} (h : ∀ x ∈ xs, ∀ s s', P s → f s x = .ok s' → P s') {s s1 : σ} (h0 : P s)
    (e : forM' xs s f = .ok s1) : P s1 := by
  induction xs generalizing s with
  | nil => cases e; exact h0
  | cons x xs ih =>
    simp only [forM'] at e
    obtain ⟨a, e1, e2⟩ := bind_inv e
    exact ih (fun y hy => h y (by simp [hy])) (h x (by simp) s a h0 e1) e2

theorem range_split {a b c : ℤ} (h : a ≤ b) (h' : b ≤ c) : pyRange a c = pyRange a b ++ pyRange b c := by
  unfold pyRange
  obtain ⟨n, hn⟩ : ∃ n : ℕ, b = a + n := ⟨(b - a).toNat, by omega⟩
  obtain ⟨k, hk⟩ : ∃ k : ℕ, c = b + k := ⟨(c - b).toNat, by omega⟩
  subst hn
  subst hk
  rw [show (a + n + k - a).toNat = n + k by omega, show (a + n - a).toNat = n by omega, show (a + n + k - (a + n)).toNat = k by omega, List.range_add]
  simp only [List.map_append, List.map_map]
  congr 1
  refine List.map_congr_left fun x _ => ?_
  simp only [Function.comp_apply]
  push_cast
  ring

theorem mem_range {a b x : ℤ} (h : x ∈ pyRange a b) : a ≤ x ∧ x < b := by
  unfold pyRange at h
  simp only [List.mem_map, List.mem_range] at h
  obtain ⟨k, h1, h2⟩ := h
  omega

/-! ### Python -/

/-- `fc_to_sc` of pysphi.py: fewer orders give a prefix. -/
theorem py_prefix (lib : Fl.NumLib rnd) (G : Arr2 (FC rnd)) {N M M' : ℤ} (h0 : 0 ≤ M) (hM : M ≤ M') {v v' : List (FC rnd)} (e : Fl.fcToSc rnd lib G N M = .ok v)
    (e' : Fl.fcToSc rnd lib G N M' = .ok v') : v <+: v' := by
  unfold Fl.fcToSc at e e'
  obtain ⟨c, h1, e⟩ := bind_inv e
  rw [h1] at e'
  simp only [Except.bind_ok] at e'
  rw [range_split (a := 1) (b := M + 1) (c := M' + 1) (by omega) (by omega), forM'_append, e] at e'
  simp only [Except.bind_ok] at e'
  refine forM'_keep (P := fun l => v <+: l) (fun x _ s s' hs es => ?_) List.prefix_rfl e'
  obtain ⟨a, _, es⟩ := bind_inv es
  obtain ⟨b, _, es⟩ := bind_inv es
  cases es
  rw [List.append_assoc]
  exact hs.trans (List.prefix_append _ _)

/-! ### C -/

theorem cGet_app {α : Type} {l : List α} (t : List α) {i : ℤ} {v : α} (e : cGet l i = .ok v) : cGet (l ++ t) i = .ok v := by
  unfold cGet at e ⊢
  split_ifs at e ⊢ with h
  · cases h1 : l[i.toNat]? with
    | none => rw [h1] at e; cases e
    | some a =>
      rw [h1] at e
      rw [List.getElem?_append_left (List.getElem?_eq_some_iff.mp h1).1, h1]
      exact e
  · cases e

theorem cSet_app {α : Type} {l : List α} (t : List α) {i : ℤ} {v : α} {l' : List α} (e : cSet l i v = .ok l') : cSet (l ++ t) i v = .ok (l' ++ t) := by
  unfold cSet at e ⊢
  split_ifs at e with h
  · cases e
    rw [if_pos (by rw [List.length_append]; omega), List.set_append_left _ _ (by omega)]
  · cases e

theorem cSet_take {α : Type} {l : List α} {L : ℕ} {i : ℤ} {v : α} {l' : List α} (e : cSet l i v = .ok l') (h : (L : ℤ) ≤ i) : l'.take L = l.take L := by
  unfold cSet at e
  split_ifs at e with h1
  · cases e
    rw [List.take_set_of_le (by omega)]
  · cases e

theorem cSet_length {α : Type} {l : List α} {i : ℤ} {v : α} {l' : List α} (e : cSet l i v = .ok l') : l'.length = l.length := by
  unfold cSet at e
  split_ifs at e
  · cases e; simp
  · cases e

theorem body_app {m off Ly n : ℤ} {h : List (FC rnd)} {s : List (FC rnd) × List ℝ} (t : List (FC rnd)) {s' : List (FC rnd) × List ℝ}
    (e : Fl.cBnmBody rnd m off h Ly s n = .ok s') : Fl.cBnmBody rnd m off h Ly (s.1 ++ t, s.2) n = .ok (s'.1 ++ t, s'.2) := by
  unfold Fl.cBnmBody at e ⊢
  obtain ⟨y, e1, e⟩ := bind_inv e
  obtain ⟨h0, e2, e⟩ := bind_inv e
  obtain ⟨y0, e3, e⟩ := bind_inv e
  obtain ⟨s1, e4, e⟩ := bind_inv e
  obtain ⟨s2, e5, e⟩ := bind_inv e
  obtain ⟨v, e6, e⟩ := bind_inv e
  obtain ⟨s3, e7, e⟩ := bind_inv e
  cases e
  simp only
  rw [e1]
  simp only [Except.bind_ok]
  rw [e2, e3]
  simp only [Except.bind_ok]
  rw [cSet_app t e4]
  simp only [Except.bind_ok]
  obtain ⟨t1, k1, k2⟩ := forM'_sim (R := fun a b => b = a ++ t) (g := fun sc k =>
    (cGet sc (off + (n - |m|))).bind fun v => (cGet h k).bind fun h => (cGet y k).bind fun yk =>
    cSet sc (off + (n - |m|)) ⟨rnd (v.re + rnd (rnd (2 * h.re) * yk)), rnd (v.im + rnd (rnd (2 * h.im) * yk))⟩) (fun k _ a b a' hab ea => by
      subst hab
      obtain ⟨v, f1, ea⟩ := bind_inv ea
      obtain ⟨hk, f2, ea⟩ := bind_inv ea
      obtain ⟨yk, f3, ea⟩ := bind_inv ea
      rw [cGet_app t f1]
      simp only [Except.bind_ok]
      rw [f2, f3]
      exact ⟨_, cSet_app t ea, rfl⟩) rfl e5
  subst k2
  rw [k1]
  simp only [Except.bind_ok]
  rw [cGet_app t e6]
  simp only [Except.bind_ok]
  rw [cSet_app t e7]
  rfl

theorem body_keep {m off Ly n : ℤ} {h : List (FC rnd)} {s : List (FC rnd) × List ℝ} {s' : List (FC rnd) × List ℝ} {L : ℕ} (hL : (L : ℤ) ≤ off + (n - |m|))
    (e : Fl.cBnmBody rnd m off h Ly s n = .ok s') : s'.1.take L = s.1.take L := by
  unfold Fl.cBnmBody at e
  obtain ⟨y, e1, e⟩ := bind_inv e
  obtain ⟨h0, e2, e⟩ := bind_inv e
  obtain ⟨y0, e3, e⟩ := bind_inv e
  obtain ⟨s1, e4, e⟩ := bind_inv e
  obtain ⟨s2, e5, e⟩ := bind_inv e
  obtain ⟨v, e6, e⟩ := bind_inv e
  obtain ⟨s3, e7, e⟩ := bind_inv e
  cases e
  simp only
  rw [cSet_take e7 hL, ← cSet_take e4 hL]
  refine forM'_keep (P := fun l => l.take L = s1.take L) (fun k _ a a' ha ea => ?_) rfl e5
  obtain ⟨v, f1, ea⟩ := bind_inv ea
  obtain ⟨hk, f2, ea⟩ := bind_inv ea
  obtain ⟨yk, f3, ea⟩ := bind_inv ea
  rw [cSet_take ea hL, ha]

theorem body_length {m off Ly n : ℤ} {h : List (FC rnd)} {s : List (FC rnd) × List ℝ} {s' : List (FC rnd) × List ℝ}
    (e : Fl.cBnmBody rnd m off h Ly s n = .ok s') : s'.1.length = s.1.length := by
  unfold Fl.cBnmBody at e
  obtain ⟨y, e1, e⟩ := bind_inv e
  obtain ⟨h0, e2, e⟩ := bind_inv e
  obtain ⟨y0, e3, e⟩ := bind_inv e
  obtain ⟨s1, e4, e⟩ := bind_inv e
  obtain ⟨s2, e5, e⟩ := bind_inv e
  obtain ⟨v, e6, e⟩ := bind_inv e
  obtain ⟨s3, e7, e⟩ := bind_inv e
  cases e
  simp only
  rw [cSet_length e7, ← cSet_length e4]
  refine forM'_keep (P := fun l => l.length = s1.length) (fun k _ a a' ha ea => ?_) rfl e5
  obtain ⟨v, f1, ea⟩ := bind_inv ea
  obtain ⟨hk, f2, ea⟩ := bind_inv ea
  obtain ⟨yk, f3, ea⟩ := bind_inv ea
  rw [cSet_length ea, ha]

/-- The work memory with a longer coefficient array. -/
def longer (w : Fl.CWork rnd) (t : List (FC rnd)) : Fl.CWork rnd := ⟨w.sc ++ t, w.hkm, w.ff, w.y⟩

theorem bnm_app {f ss : List (FC rnd)} {Nr Nc N m off Q Lh Ly : ℤ} {fw bw : Fl.KissCfg rnd} {J : ℤ → ℕ → FC rnd} {w w' : Fl.CWork rnd} (t : List (FC rnd))
    (e : Fl.kBnmFc rnd f Nr Nc N m off ss Q Lh Ly fw bw J w = .ok w') : Fl.kBnmFc rnd f Nr Nc N m off ss Q Lh Ly fw bw J (longer w t) = .ok (longer w' t) := by
  unfold Fl.kBnmFc at e ⊢
  obtain ⟨hf, e1, e⟩ := bind_inv e
  obtain ⟨sy, e2, e⟩ := bind_inv e
  cases e
  have e3 : Fl.cHkmFc rnd f Nr Nc m (longer w t).hkm Lh ss Q (longer w t).ff fw bw J = .ok hf := e1
  rw [e3]
  simp only [Except.bind_ok]
  obtain ⟨t1, k1, k2⟩ := forM'_sim (R := fun a b => b = (a.1 ++ t, a.2)) (g := Fl.cBnmBody rnd m off hf.1 Ly) (fun k _ a b a' hab ea => by
    subst hab
    exact ⟨_, body_app t ea, rfl⟩) (t := (w.sc ++ t, w.y)) rfl e2
  have k3 : forM' (pyRange |m| (N + 1)) ((longer w t).sc, (longer w t).y) (Fl.cBnmBody rnd m off hf.1 Ly) = .ok t1 := k1
  rw [k3]
  subst k2
  rfl

theorem bnm_keep {f ss : List (FC rnd)} {Nr Nc N m off Q Lh Ly : ℤ} {fw bw : Fl.KissCfg rnd} {J : ℤ → ℕ → FC rnd} {w w' : Fl.CWork rnd} {L : ℕ} (hL : (L : ℤ) ≤ off)
    (e : Fl.kBnmFc rnd f Nr Nc N m off ss Q Lh Ly fw bw J w = .ok w') : w'.sc.take L = w.sc.take L := by
  unfold Fl.kBnmFc at e
  obtain ⟨hf, e1, e⟩ := bind_inv e
  obtain ⟨sy, e2, e⟩ := bind_inv e
  cases e
  refine forM'_keep (P := fun l => l.1.take L = w.sc.take L) (fun k hk a a' ha ea => ?_) rfl e2
  rw [body_keep (by have := mem_range hk; omega) ea, ha]

theorem bnm_length {f ss : List (FC rnd)} {Nr Nc N m off Q Lh Ly : ℤ} {fw bw : Fl.KissCfg rnd} {J : ℤ → ℕ → FC rnd} {w w' : Fl.CWork rnd}
    (e : Fl.kBnmFc rnd f Nr Nc N m off ss Q Lh Ly fw bw J w = .ok w') : w'.sc.length = w.sc.length := by
  unfold Fl.kBnmFc at e
  obtain ⟨hf, e1, e⟩ := bind_inv e
  obtain ⟨sy, e2, e⟩ := bind_inv e
  cases e
  refine forM'_keep (P := fun l => l.1.length = w.sc.length) (fun k hk a a' ha ea => ?_) rfl e2
  rw [body_length ea, ha]

theorem inds_of {N M : ℕ} (hMN : M ≤ N) {J : CJunk} {i0 i1 i2 : List ℤ} (e0 : cMalloc (2 * (M : ℤ) + 1) J.i = .ok i0) (e1 : cMemset0 i0 (2 * (M : ℤ) + 1) = .ok i1)
    (e2 : cInds N M i1 = .ok i2) : ∀ j : ℕ, j ≤ 2 * M → cGet i2 j = .ok (seg (N + 1) j : ℤ) := by
  have l0 : i0.length = 2 * M + 1 := by
    unfold cMalloc at e0
    rw [if_neg (by omega)] at e0
    cases e0
    simp; omega
  have l1 : i1.length = 2 * M + 1 := by
    unfold cMemset0 at e1
    split_ifs at e1
    · cases e1; simp [l0]
    · cases e1
  obtain ⟨inds, ei, il, iv⟩ := cInds_spec N M hMN i1 l1
  rw [e2] at ei
  cases ei
  intro j hj
  rw [cGet_at (j := j) (by omega) (by omega), iv _ (by omega)]

/-- `fc_to_sc` of csphi.c: fewer orders give a prefix. -/
theorem c_prefix (lm : Fl.LibM) (J : ℕ → CJunk) (call : ℕ) (G : Arr2 (FC rnd)) {N M M' : ℕ} (hM : M ≤ M') (hN : M' ≤ N) {v v' : List (FC rnd)}
    (e : Fl.kExtFcToSc rnd lm J call G N M = .ok v) (e' : Fl.kExtFcToSc rnd lm J call G N M' = .ok v') : v <+: v' := by
  unfold Fl.kExtFcToSc Fl.kFcToSc at e e'
  have nf : ∀ K : ℕ, K ≤ N → ncFormula (N : ℤ) (K : ℤ) = (seg (N + 1) (2 * K + 1) : ℕ) := by
    intro K hK
    rw [ncFormula_eq (by omega) (by omega)]
    congr 2
  rw [nf M (by omega)] at e
  rw [nf M' hN] at e'
  obtain ⟨L, hL⟩ : ∃ L, L = seg (N + 1) (2 * M + 1) := ⟨_, rfl⟩
  have hLL : seg (N + 1) (2 * M + 1) ≤ seg (N + 1) (2 * M' + 1) := seg_mono _ (by omega)
  obtain ⟨d, hd⟩ := Nat.exists_eq_add_of_le hLL
  have zr : ∀ n : ℕ, npFull (n : ℤ) (0 : FC rnd) = .ok (List.replicate n 0) := fun n => by unfold npFull; rw [if_neg (by omega), Int.toNat_natCast]
  rw [zr] at e e'
  simp only [Except.bind_ok] at e e'
  obtain ⟨Q, a1, e⟩ := bind_inv e
  obtain ⟨s0, a2, e⟩ := bind_inv e
  obtain ⟨s1, a3, e⟩ := bind_inv e
  obtain ⟨fw, a4, e⟩ := bind_inv e
  obtain ⟨bw, a5, e⟩ := bind_inv e
  obtain ⟨s2, a6, e⟩ := bind_inv e
  obtain ⟨hkm, a7, e⟩ := bind_inv e
  obtain ⟨y, a8, e⟩ := bind_inv e
  obtain ⟨ff, a9, e⟩ := bind_inv e
  obtain ⟨i0, b0, e⟩ := bind_inv e
  obtain ⟨i1, b1, e⟩ := bind_inv e
  obtain ⟨i2, b2, e⟩ := bind_inv e
  obtain ⟨w0, b3, e⟩ := bind_inv e
  obtain ⟨w1, b4, e⟩ := bind_inv e
  cases e
  rw [a1] at e'
  simp only [Except.bind_ok] at e'
  rw [a2] at e'
  simp only [Except.bind_ok] at e'
  rw [a3] at e'
  simp only [Except.bind_ok] at e'
  rw [a4, a5] at e'
  simp only [Except.bind_ok] at e'
  rw [a6, a7, a8, a9] at e'
  simp only [Except.bind_ok] at e'
  obtain ⟨k0, c0, e'⟩ := bind_inv e'
  obtain ⟨k1, c1, e'⟩ := bind_inv e'
  obtain ⟨k2, c2, e'⟩ := bind_inv e'
  have g1 := inds_of (by omega) b0 b1 b2
  have g2 := inds_of hN c0 c1 c2
  rw [hd, List.replicate_add] at e'
  have z := bnm_app (List.replicate d (0 : FC rnd)) b3
  unfold longer at z
  simp only at z
  rw [z] at e'
  simp only [Except.bind_ok] at e'
  rw [range_split (a := 1) (b := (M : ℤ) + 1) (c := (M' : ℤ) + 1) (by omega) (by omega), forM'_append] at e'
  obtain ⟨u, eu, e'⟩ := bind_inv e'
  cases e'
  obtain ⟨u1, eu1, eu2⟩ := bind_inv eu
  have gi : ∀ {i : ℤ} (K : ℕ) (is : List ℤ), (∀ j : ℕ, j ≤ 2 * K → cGet is j = .ok (seg (N + 1) j : ℤ)) → 0 ≤ i → i ≤ 2 * K → cGet is i = .ok (seg (N + 1) i.toNat : ℤ) := by
    intro i K is h h0 h1
    obtain ⟨j, rfl⟩ := Int.eq_ofNat_of_zero_le h0
    rw [h j (by omega), Int.toNat_natCast]
  obtain ⟨t1, k1', k2'⟩ := forM'_sim (R := fun a b => b = longer a (List.replicate d (0 : FC rnd))) (g := fun w m =>
    (cGet k2 (2 * m - 1)).bind fun o1 =>
    (Fl.kBnmFc rnd G.flat G.rows G.cols N (-m) o1 s2 Q (N + 1) (N + 1) fw bw (Fl.junkC rnd (J call)) w).bind fun w =>
    (cGet k2 (2 * m)).bind fun o2 =>
    Fl.kBnmFc rnd G.flat G.rows G.cols N m o2 s2 Q (N + 1) (N + 1) fw bw (Fl.junkC rnd (J call)) w) (fun m hm a b a' hab ea => by
      subst hab
      have hr := mem_range hm
      rw [gi M i2 g1 (by omega) (by omega)] at ea
      simp only [Except.bind_ok] at ea
      obtain ⟨x1, f1, ea⟩ := bind_inv ea
      rw [gi M i2 g1 (by omega) (by omega)] at ea
      simp only [Except.bind_ok] at ea
      rw [gi M' k2 g2 (by omega) (by omega)]
      simp only [Except.bind_ok]
      rw [bnm_app _ f1]
      simp only [Except.bind_ok]
      rw [gi M' k2 g2 (by omega) (by omega)]
      exact ⟨_, bnm_app _ ea, rfl⟩) (t := longer w0 (List.replicate d (0 : FC rnd))) rfl b4
  have l0 := bnm_length b3
  have l1 : w1.sc.length = L := by
    rw [hL]
    refine forM'_keep (P := fun w => w.sc.length = seg (N + 1) (2 * M + 1)) (fun m hm a a' ha ea => ?_) (by rw [l0]; simp) b4
    obtain ⟨o1, _, ea⟩ := bind_inv ea
    obtain ⟨x1, f1, ea⟩ := bind_inv ea
    obtain ⟨o2, _, ea⟩ := bind_inv ea
    rw [bnm_length ea, bnm_length f1, ha]
  have hu1 : u1 = longer w1 (List.replicate d (0 : FC rnd)) := by
    have : forM' (pyRange 1 ((M : ℤ) + 1)) (longer w0 (List.replicate d (0 : FC rnd))) _ = .ok u1 := eu1
    rw [k1'] at this
    cases this
    exact k2'
  have hk : u.sc.take L = w1.sc := by
    refine forM'_keep (P := fun w => w.sc.take L = w1.sc) (fun m hm a a' ha ea => ?_) (by rw [hu1]; unfold longer; simp [← l1]) eu2
    have hr := mem_range hm
    rw [gi M' k2 g2 (by omega) (by omega)] at ea
    simp only [Except.bind_ok] at ea
    obtain ⟨x1, f1, ea⟩ := bind_inv ea
    rw [gi M' k2 g2 (by omega) (by omega)] at ea
    simp only [Except.bind_ok] at ea
    have m1 : seg (N + 1) (2 * M + 1) ≤ seg (N + 1) (2 * m - 1).toNat := seg_mono _ (by omega)
    have m2 : seg (N + 1) (2 * M + 1) ≤ seg (N + 1) (2 * m).toNat := seg_mono _ (by omega)
    rw [bnm_keep (L := L) (by omega) ea, bnm_keep (L := L) (by omega) f1, ha]
  rw [← hk]
  exact List.take_prefix _ _

/-! ### Reading the coefficients -/

theorem init_inv {v : List (FC rnd)} {n m : ℤ} {c : ScalarCoefs (FC rnd)} (h0 : 0 ≤ m) (h : ScalarCoefs.init (.arr v) n m = .ok c) : c.WF ∧ c = ⟨v, n, m⟩ := by
  unfold ScalarCoefs.init at h
  simp only at h
  split_ifs at h with h1 h2
  cases h
  push Not at h1 h2
  exact ⟨⟨h0, h1, h2.symm⟩, rfl⟩

theorem abs_prefix {c d : ScalarCoefs (FC rnd)} (hc : c.WF) (hd : d.WF) (hn : d.nmax = c.nmax) (hm : c.mmax ≤ d.mmax) (hp : c.vec <+: d.vec) {n m : ℤ} (h : IsMode c.nmax c.mmax n m) :
    d.absMap n m = c.absMap n m := by
  have h' : IsMode d.nmax d.mmax n m := ⟨h.1, by have := h.2.1; omega, h.2.2.1, by have := h.2.2.2; omega⟩
  rw [ScalarCoefs.absMap_mode hc h, ScalarCoefs.absMap_mode hd h', Option.some.injEq]
  have : slot d.nmax n m = slot c.nmax n m := by rw [hn]
  simp only [this]
  exact (hp.getElem (hc.slot_lt h)).symm

theorem guards_le {r c : Res ℕ} {n m' : ℤ} {u : Unit} (e : sphtGuards r c n m' = .ok u) : m' ≤ n := by
  unfold sphtGuards at e
  split_ifs at e with h1
  omega

theorem setIdx_zero {l l' : List (FC rnd)} {x : FC rnd} (h : setIdx l 0 x = .ok l') : l' = l.set 0 x := by
  unfold setIdx at h
  simp only [lt_irrefl, if_false, Int.toNat_zero] at h
  split_ifs at h
  · cases h; rfl

theorem prefix_set {l l' : List (FC rnd)} {x : FC rnd} (h : l <+: l') (hl : l ≠ []) : l.set 0 x <+: l'.set 0 x := by
  obtain ⟨t, rfl⟩ := h
  rw [List.set_append_left _ _ (List.length_pos_iff.mpr hl)]
  exact List.prefix_append _ _

/-- What `vspht` does after `fc_to_sc`. -/
noncomputable def vtail (rnd : ℝ → ℝ) (n m : ℤ) (sc1 sc2 : List (FC rnd)) : Res (VectorCoefs (FC rnd)) :=
  (VectorCoefs.init (.arr sc1) (.arr sc2) n m).bind fun vc =>
  (Fl.nvec rnd n).bind fun w =>
  (vc.scoef1.windowed w).bind fun s1 =>
  (vc.scoef2.windowed w).bind fun s2 =>
  .ok { vc with scoef1 := s1, scoef2 := s2 }

theorem vtail_spec {N M : ℕ} {v u : List (FC rnd)} {c : VectorCoefs (FC rnd)} (e : vtail rnd N M v u = .ok c) :
    ∃ s1 s2 : ScalarCoefs (FC rnd), s1 = ⟨v.set 0 0, N, M⟩ ∧ s2 = ⟨u.set 0 0, N, M⟩ ∧ s1.WF ∧ s2.WF ∧ v ≠ [] ∧ u ≠ [] ∧ c.WellFormed ∧ c.nmax = N ∧ c.mmax = M ∧
      ∀ n m, IsMode N M n m → c.scoef1.absMap n m = (s1.absMap n m).map (· * ⟨FV.wF rnd n.toNat, 0⟩) ∧ c.scoef2.absMap n m = (s2.absMap n m).map (· * ⟨FV.wF rnd n.toNat, 0⟩) := by
  unfold vtail at e
  obtain ⟨vc, e1, e⟩ := bind_inv e
  obtain ⟨w, e2, e⟩ := bind_inv e
  obtain ⟨w', f1, lw, gw⟩ := FV.nvecF_spec (rnd := rnd) N
  rw [e2] at f1
  cases f1
  unfold VectorCoefs.init at e1
  simp only at e1
  split_ifs at e1 with h1 h2 h3
  push Not at h1 h2 h3
  obtain ⟨l1, g1, e1⟩ := bind_inv e1
  obtain ⟨l2, g2, e1⟩ := bind_inv e1
  obtain ⟨s1, g3, e1⟩ := bind_inv e1
  obtain ⟨s2, g4, e1⟩ := bind_inv e1
  cases e1
  simp only at e
  obtain ⟨w1, q1⟩ := init_inv (by omega) g3
  obtain ⟨w2, q2⟩ := init_inv (by omega) g4
  have a1 := setIdx_zero g1
  have a2 := setIdx_zero g2
  have n1 : s1.nmax = N := by rw [q1]
  have n2 : s2.nmax = N := by rw [q2]
  have m1 : s1.mmax = M := by rw [q1]
  have m2 : s2.mmax = M := by rw [q2]
  have pos : 0 < v.length := by
    unfold setIdx at g1
    simp only [lt_irrefl, if_false, Int.toNat_zero] at g1
    split_ifs at g1 with hp
    exact hp
  obtain ⟨er1, wf1, p1, p2, p3⟩ := ScalarCoefs.window_eq w1 (w := w) (by omega)
  obtain ⟨er2, wf2, r1, r2, r3⟩ := ScalarCoefs.window_eq w2 (w := w) (by omega)
  have u1 : s1.windowed w = .ok (s1.window w).st := by unfold ScalarCoefs.windowed; simp only [er1]
  have u2 : s2.windowed w = .ok (s2.window w).st := by unfold ScalarCoefs.windowed; simp only [er2]
  rw [u1, u2] at e
  cases e
  refine ⟨s1, s2, by rw [q1, a1], by rw [q2, a2], w1, w2, List.length_pos_iff.mp pos, List.length_pos_iff.mp (by omega),
    ⟨ScalarCoefs.wf_iff.mp wf1, ScalarCoefs.wf_iff.mp wf2, by rw [p1, n1], by rw [r1, n2], by rw [p2, m1], by rw [r2, m2]⟩, rfl, rfl, fun n m h => ?_⟩
  have hn : n.toNat ≤ N := by have := h.2.1; omega
  simp only
  rw [p3 n m (by rw [n1, m1]; exact h), r3 n m (by rw [n2, m2]; exact h), gw _ hn]
  constructor
  · cases s1.absMap n m <;> rfl
  · cases s2.absMap n m <;> rfl

theorem vtail_prefix {N M M' : ℕ} (hM : M ≤ M') {v v' u u' : List (FC rnd)} {c c' : VectorCoefs (FC rnd)} (e : vtail rnd N M v u = .ok c) (e' : vtail rnd N M' v' u' = .ok c')
    (hv : v <+: v') (hu : u <+: u') {n m : ℤ} (h : IsMode N M n m) : readMapV c' n m = readMapV c n m := by
  obtain ⟨s1, s2, q1, q2, w1, w2, x1, x2, wc, -, -, hc⟩ := vtail_spec e
  obtain ⟨s1', s2', q1', q2', w1', w2', -, -, wc', -, -, hc'⟩ := vtail_spec e'
  have h' : IsMode N M' n m := ⟨h.1, h.2.1, h.2.2.1, by have := h.2.2.2; omega⟩
  rw [readMapV_eq wc, readMapV_eq wc', (hc n m h).1, (hc n m h).2, (hc' n m h').1, (hc' n m h').2]
  rw [abs_prefix w1 w1' (by rw [q1, q1']) (by rw [q1, q1']; exact Int.ofNat_le.mpr hM) (by rw [q1, q1']; exact prefix_set hv x1) (by rw [q1]; exact h),
    abs_prefix w2 w2' (by rw [q2, q2']) (by rw [q2, q2']; exact Int.ofNat_le.mpr hM) (by rw [q2, q2']; exact prefix_set hu x2) (by rw [q2]; exact h)]

end FD

open FD FK in
/-- C110: `spht(p, N, M)` and `spht(p, N, M')` with `M ≤ M'`, Python backend, whatever the FFT and summation of NumPy compute: every coefficient that both have is the
same double. -/
theorem c110_spht (lib : Fl.NumLib rnd) (p : SPatt (FC rnd)) (N M M' : ℕ) (hM : M ≤ M') (c c' : ScalarCoefs (FC rnd))
    (e : Fl.spht rnd lib .py p (some N) (some M) = .ok c) (e' : Fl.spht rnd lib .py p (some N) (some M') = .ok c') (n m : ℤ) (h : IsMode N M n m) :
    ∃ z, readMap c n m = some z ∧ readMap c' n m = some z := by
  unfold Fl.spht at e e'
  have e4 : ∀ (a b : Res ℕ) (K : ℕ) {β : Type} (f : Int × Int → Res β), (sphtArgs a b (some (N : ℤ)) (some (K : ℤ))).bind f = f ((N : ℤ), (K : ℤ)) := fun _ _ _ _ _ => rfl
  rw [e4] at e e'
  simp only at e e'
  obtain ⟨a, -, e⟩ := bind_inv e
  obtain ⟨D, h2, e⟩ := bind_inv e
  obtain ⟨G, h3, e⟩ := bind_inv e
  obtain ⟨-, -, e⟩ := bind_inv e
  obtain ⟨v, h5, e⟩ := bind_inv e
  obtain ⟨a', -, e'⟩ := bind_inv e'
  rw [h2] at e'
  simp only [Except.bind_ok] at e'
  rw [h3] at e'
  simp only [Except.bind_ok] at e'
  obtain ⟨-, -, e'⟩ := bind_inv e'
  obtain ⟨v', h5', e'⟩ := bind_inv e'
  have hp := py_prefix lib G (by omega) (by omega) h5 h5'
  obtain ⟨w1, q1⟩ := init_inv (by omega) e
  obtain ⟨w2, q2⟩ := init_inv (by omega) e'
  have hh := abs_prefix w1 w2 (by rw [q1, q2]) (by rw [q1, q2]; exact Int.ofNat_le.mpr hM) (by rw [q1, q2]; exact hp) (n := n) (m := m) (by rw [q1]; exact h)
  rw [readMap_eq w1, readMap_eq w2, hh]
  exact ⟨_, ScalarCoefs.absMap_mode w1 (by rw [q1]; exact h), ScalarCoefs.absMap_mode w1 (by rw [q1]; exact h)⟩

open FD FK in
/-- C110: the same with the compiled extension and its kiss_fft; the content of fresh memory may differ between the two calls. -/
theorem c110_kspht (hrd : NoOverflow rnd) (lib : Fl.NumLib rnd) {lm : Fl.LibM} (hl : LibMWithin lm) (J J' : ℕ → CJunk) (D : Arr2 (FC rnd)) (hR : D.rows % 2 = 0)
    (N M M' : ℕ) (hsz : D.rows + N ≤ 2 ^ 28) (hM : M ≤ M') (c c' : ScalarCoefs (FC rnd))
    (e : Fl.kSpht rnd lib lm J ⟨.arr D⟩ (some N) (some M) = .ok c) (e' : Fl.kSpht rnd lib lm J' ⟨.arr D⟩ (some N) (some M') = .ok c') (n m : ℤ) (h : IsMode N M n m) :
    ∃ z, readMap c n m = some z ∧ readMap c' n m = some z := by
  have e' := c100_fresh hrd lib hl J' J D hR N M' hsz c' e'
  unfold Fl.kSpht at e e'
  have e4 : ∀ (a b : Res ℕ) (K : ℕ) {β : Type} (f : Int × Int → Res β), (sphtArgs a b (some (N : ℤ)) (some (K : ℤ))).bind f = f ((N : ℤ), (K : ℤ)) := fun _ _ _ _ _ => rfl
  rw [e4] at e e'
  simp only at e e'
  obtain ⟨a, -, e⟩ := bind_inv e
  obtain ⟨D, h2, e⟩ := bind_inv e
  obtain ⟨G, h3, e⟩ := bind_inv e
  obtain ⟨-, -, e⟩ := bind_inv e
  obtain ⟨v, h5, e⟩ := bind_inv e
  obtain ⟨a', hg, e'⟩ := bind_inv e'
  rw [h2] at e'
  simp only [Except.bind_ok] at e'
  rw [h3] at e'
  simp only [Except.bind_ok] at e'
  obtain ⟨-, -, e'⟩ := bind_inv e'
  obtain ⟨v', h5', e'⟩ := bind_inv e'
  have hN := guards_le hg
  have hp := c_prefix lm J 0 G hM (by omega) h5 h5'
  obtain ⟨w1, q1⟩ := init_inv (by omega) e
  obtain ⟨w2, q2⟩ := init_inv (by omega) e'
  have hh := abs_prefix w1 w2 (by rw [q1, q2]) (by rw [q1, q2]; exact Int.ofNat_le.mpr hM) (by rw [q1, q2]; exact hp) (n := n) (m := m) (by rw [q1]; exact h)
  rw [readMap_eq w1, readMap_eq w2, hh]
  exact ⟨_, ScalarCoefs.absMap_mode w1 (by rw [q1]; exact h), ScalarCoefs.absMap_mode w1 (by rw [q1]; exact h)⟩

open FD FK in
/-- C110: `vspht(p, N, M)` and `vspht(p, N, M')`, Python backend. -/
theorem c110_vspht (lib : Fl.NumLib rnd) (p : TPatt (FC rnd)) (N M M' : ℕ) (hM : M ≤ M') (c c' : VectorCoefs (FC rnd))
    (e : Fl.vspht rnd lib .py p (some N) (some M) = .ok c) (e' : Fl.vspht rnd lib .py p (some N) (some M') = .ok c') (n m : ℤ) (h : IsMode N M n m) :
    readMapV c' n m = readMapV c n m := by
  unfold Fl.vspht at e e'
  have e4 : ∀ (a b : Res ℕ) (K : ℕ) {β : Type} (f : Int × Int → Res β), (sphtArgs a b (some (N : ℤ)) (some (K : ℤ))).bind f = f ((N : ℤ), (K : ℤ)) := fun _ _ _ _ _ => rfl
  rw [e4] at e e'
  simp only at e e'
  obtain ⟨a, -, e⟩ := bind_inv e
  obtain ⟨ft, h2, e⟩ := bind_inv e
  obtain ⟨pt, h3, e⟩ := bind_inv e
  obtain ⟨l1, h4, e⟩ := bind_inv e
  obtain ⟨l2, h5, e⟩ := bind_inv e
  obtain ⟨v1, h6, e⟩ := bind_inv e
  obtain ⟨v2, h7, e⟩ := bind_inv e
  obtain ⟨a', -, e'⟩ := bind_inv e'
  rw [h2, h3] at e'
  simp only [Except.bind_ok] at e'
  rw [h4, h5] at e'
  simp only [Except.bind_ok] at e'
  obtain ⟨v1', h6', e'⟩ := bind_inv e'
  obtain ⟨v2', h7', e'⟩ := bind_inv e'
  exact vtail_prefix hM e e' (py_prefix lib l1 (by omega) (by omega) h6 h6') (py_prefix lib l2 (by omega) (by omega) h7 h7') h

open FD FK in
/-- C110: the same with the compiled extension and its kiss_fft. -/
theorem c110_kvspht (hrd : NoOverflow rnd) (lib : Fl.NumLib rnd) {lm : Fl.LibM} (hl : LibMWithin lm) (J J' : ℕ → CJunk) (T P : Arr2 (FC rnd)) (hR : T.rows % 2 = 0)
    (N M M' : ℕ) (hsz : T.rows + N ≤ 2 ^ 28) (hM : M ≤ M') (c c' : VectorCoefs (FC rnd))
    (e : Fl.kVspht rnd lib lm J ⟨T, P⟩ (some N) (some M) = .ok c) (e' : Fl.kVspht rnd lib lm J' ⟨T, P⟩ (some N) (some M') = .ok c') (n m : ℤ) (h : IsMode N M n m) :
    readMapV c' n m = readMapV c n m := by
  have e' := c101_fresh hrd lib hl J' J T P hR N M' hsz c' e'
  unfold Fl.kVspht at e e'
  have e4 : ∀ (a b : Res ℕ) (K : ℕ) {β : Type} (f : Int × Int → Res β), (sphtArgs a b (some (N : ℤ)) (some (K : ℤ))).bind f = f ((N : ℤ), (K : ℤ)) := fun _ _ _ _ _ => rfl
  rw [e4] at e e'
  simp only at e e'
  obtain ⟨a, -, e⟩ := bind_inv e
  obtain ⟨ft, h2, e⟩ := bind_inv e
  obtain ⟨pt, h3, e⟩ := bind_inv e
  obtain ⟨l1, h4, e⟩ := bind_inv e
  obtain ⟨l2, h5, e⟩ := bind_inv e
  obtain ⟨v1, h6, e⟩ := bind_inv e
  obtain ⟨v2, h7, e⟩ := bind_inv e
  obtain ⟨a', hg, e'⟩ := bind_inv e'
  rw [h2, h3] at e'
  simp only [Except.bind_ok] at e'
  rw [h4, h5] at e'
  simp only [Except.bind_ok] at e'
  obtain ⟨v1', h6', e'⟩ := bind_inv e'
  obtain ⟨v2', h7', e'⟩ := bind_inv e'
  have hN := guards_le hg
  exact vtail_prefix hM e e' (c_prefix lm J 0 l1 hM (by omega) h6 h6') (c_prefix lm J 1 l2 hM (by omega) h7 h7') h

/-- C110 is not vacuous: a set of seven different coefficients (`nmax = 2`, `mmax = 1`), the same padded with zeros to `nmax = 3`, `mmax = 2`, and the two patterns on 5 by 8 samples. -/
theorem c110_example (rnd : ℝ → ℝ) (hrd : NoOverflow rnd) (jp : Int → FC rnd) (post : Arr2 (FC rnd) → Int → Int → Res (Arr2 (FC rnd))) :
    ∃ c d : ScalarCoefs (FC rnd), c.WellFormed ∧ d.WellFormed ∧ ZeroPadded c d ∧ c.nmax = 2 ∧ c.mmax = 1 ∧ d.nmax = 3 ∧ d.mmax = 2 ∧ readMap d 2 (-1) = some ⟨4, 1⟩ ∧ readMap d 3 1 = some 0 ∧
      readMap d 2 2 = some 0 ∧ Fl.ispht rnd jp post .py d (some 5) (some 8) = Fl.ispht rnd jp post .py c (some 5) (some 8) := by
  have hw : (ScalarCoefs.mk (α := FC rnd) [⟨0, 1⟩, ⟨1, 1⟩, ⟨2, 1⟩, ⟨3, 1⟩, ⟨4, 1⟩, ⟨5, 1⟩, ⟨6, 1⟩] 2 1).WF := ⟨by norm_num, by norm_num, rfl⟩
  have hw' : (ScalarCoefs.mk (α := FC rnd) [⟨0, 1⟩, ⟨1, 1⟩, ⟨2, 1⟩, 0, ⟨3, 1⟩, ⟨4, 1⟩, 0, ⟨5, 1⟩, ⟨6, 1⟩, 0, 0, 0, 0, 0] 3 2).WF := ⟨by norm_num, by norm_num, rfl⟩
  have hp : ZeroPadded (ScalarCoefs.mk (α := FC rnd) [⟨0, 1⟩, ⟨1, 1⟩, ⟨2, 1⟩, ⟨3, 1⟩, ⟨4, 1⟩, ⟨5, 1⟩, ⟨6, 1⟩] 2 1)
      (ScalarCoefs.mk (α := FC rnd) [⟨0, 1⟩, ⟨1, 1⟩, ⟨2, 1⟩, 0, ⟨3, 1⟩, ⟨4, 1⟩, 0, ⟨5, 1⟩, ⟨6, 1⟩, 0, 0, 0, 0, 0] 3 2) := by
    refine ⟨by norm_num, by norm_num, fun n m h => ?_, fun n m h h' => ?_⟩
    · rw [readMap_eq hw, readMap_eq hw']
      obtain ⟨a, b, c, d⟩ := isMode_iff.mp h
      simp only at b d
      have hn : n = 0 ∨ n = 1 ∨ n = 2 := by omega
      have hm : m = -1 ∨ m = 0 ∨ m = 1 := by omega
      rcases hn with rfl | rfl | rfl <;> rcases hm with rfl | rfl | rfl <;> first | rfl | omega
    · rw [readMap_eq hw']
      obtain ⟨a, b, c, d⟩ := isMode_iff.mp h
      rw [isMode_iff] at h'
      simp only at b d h'
      have hn : n = 0 ∨ n = 1 ∨ n = 2 ∨ n = 3 := by omega
      have hm : m = -2 ∨ m = -1 ∨ m = 0 ∨ m = 1 ∨ m = 2 := by omega
      rcases hn with rfl | rfl | rfl | rfl <;> rcases hm with rfl | rfl | rfl | rfl | rfl <;> first | rfl | omega
  refine ⟨_, _, ScalarCoefs.wf_iff.mp hw, ScalarCoefs.wf_iff.mp hw', hp, rfl, rfl, rfl, rfl, rfl, rfl, rfl, ?_⟩
  exact c110_ispht hrd jp post .py _ _ (ScalarCoefs.wf_iff.mp hw) (ScalarCoefs.wf_iff.mp hw') hp (fun h => absurd rfl h) 5 8 (by norm_num) (by norm_num) (by norm_num)

/-- The analysis part is not vacuous: an 8 by 8 array of different samples, analysed to degree 3 with orders up to 1 and up to 2, with the extension. -/
theorem c110_kexample : ∃ (rnd : ℝ → ℝ) (lib : Fl.NumLib rnd) (lm : Fl.LibM) (D : Arr2 (FC rnd)) (c c' : ScalarCoefs (FC rnd)), NoOverflow rnd ∧ LibMWithin lm ∧ D.rows = 8 ∧ D.cols = 8 ∧ D.at' 3 5 = ⟨3, 5⟩ ∧
    Fl.kSpht rnd lib lm (fun _ => ⟨fun _ _ => 7, fun _ => 8, fun _ => 9⟩) ⟨.arr D⟩ (some 3) (some 1) = .ok c ∧
    Fl.kSpht rnd lib lm (fun _ => ⟨fun _ _ => 0, fun _ => 0, fun _ => 0⟩) ⟨.arr D⟩ (some 3) (some 2) = .ok c' ∧
    ∀ n m : ℤ, IsMode 3 1 n m → ∃ z, readMap c n m = some z ∧ readMap c' n m = some z := by
  obtain ⟨rnd, h⟩ := noOverflow_exists
  obtain ⟨D, eD⟩ : ∃ D : Arr2 (FC rnd), D = Arr2.ofFn 8 8 fun i j => ⟨(i : ℝ), (j : ℝ)⟩ := ⟨_, rfl⟩
  have hr : D.rows = 8 := by rw [eD]; rfl
  have hc : D.cols = 8 := by rw [eD]; rfl
  have hC : (2 : ℝ) ^ (-700 : ℤ) ≤ 16 := (zpow_le_zpow_right₀ (by norm_num) (show (-700 : ℤ) ≤ 4 by norm_num)).trans (by norm_num)
  have hC' : (16 : ℝ) ≤ 2 ^ (400 : ℤ) := le_trans (by norm_num) (zpow_le_zpow_right₀ (by norm_num) (show (4 : ℤ) ≤ 400 by norm_num))
  have hD : ∀ i j, i < D.rows → j < D.cols → ‖FS.val (D.at' i j)‖ ≤ 16 := by
    intro i j hi hj
    rw [hr] at hi
    rw [hc] at hj
    rw [eD, Arr2.at'_ofFn hi hj]
    refine (Complex.norm_le_abs_re_add_abs_im _).trans ?_
    show |(i : ℝ)| + |(j : ℝ)| ≤ 16
    rw [abs_of_nonneg (by positivity), abs_of_nonneg (by positivity)]
    have a : (i : ℝ) ≤ 8 := by exact_mod_cast hi.le
    have b : (j : ℝ) ≤ 8 := by exact_mod_cast hj.le
    linarith
  have hl := libMWithin_rnd h.toIsRounding
  obtain ⟨-, c, -, e1, -⟩ := c100_spht h (FA.goodLib rnd) hl (fun _ => ⟨fun _ _ => 7, fun _ => 8, fun _ => 9⟩) D (by omega) (by omega)
    (by omega) (by omega) 3 1 (by norm_num) (by norm_num) (by omega) (by omega) 16 hC hC' hD 0 (by norm_num) (FA.goodLib_fft D (by omega) (by omega))
  obtain ⟨-, c', -, e2, -⟩ := c100_spht h (FA.goodLib rnd) hl (fun _ => ⟨fun _ _ => 0, fun _ => 0, fun _ => 0⟩) D (by omega) (by omega)
    (by omega) (by omega) 3 2 (by norm_num) (by norm_num) (by omega) (by omega) 16 hC hC' hD 0 (by norm_num) (FA.goodLib_fft D (by omega) (by omega))
  exact ⟨rnd, FA.goodLib rnd, _, D, c, c', h, hl, hr, hc, by subst eD; rfl, e1, e2,
    fun n m hm => c110_kspht h _ hl _ _ D (by omega) 3 1 2 (by omega) (by norm_num) c c' e1 e2 n m hm⟩

end Verif.Props
