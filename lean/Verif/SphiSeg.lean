import Verif.SphiB
/-!
# `fc_to_sc` fills every mode slot with its analysis coefficient
-/
namespace Verif
open Finset

/-- `v` holds `f m n` at the slots of the first `o` orders (in storage order 0, -1, 1, -2, 2, ...). -/
def SegVec {α : Type} [Zero α] (N : ℕ) (v : List α) (o : ℕ) (f : ℤ → ℕ → α) : Prop :=
  v.length = seg N o ∧ ∀ (m : ℤ) (n : ℕ), ord m < o → m.natAbs ≤ n → n < N →
    rd v (seg N (ord m) + (n - m.natAbs)) = f m n

theorem rd_append {α : Type} [Zero α] (u v : List α) (i : ℕ) : rd (u ++ v) i = if i < u.length then rd u i else rd v (i - u.length) := by
  unfold rd
  simp only [List.getD_eq_getElem?_getD]
  split
  · rename_i h; rw [List.getElem?_append_left h]
  · rename_i h; rw [List.getElem?_append_right (by omega)]

theorem SegVec.append {α : Type} [Zero α] {N : ℕ} {v u : List α} {f : ℤ → ℕ → α} (m : ℤ) (h : SegVec N v (ord m) f)
    (hm : m.natAbs < N) (hu : u.length = N - m.natAbs) (hv : ∀ n, m.natAbs ≤ n → n < N → rd u (n - m.natAbs) = f m n) :
    SegVec N (v ++ u) (ord m + 1) f := by
  have hord : (ord m + 1) / 2 = m.natAbs := by unfold ord; split; omega; split <;> omega
  refine ⟨by rw [List.length_append, h.1, hu, seg_succ, hord], fun k n hk hn hN => ?_⟩
  rw [rd_append, h.1]
  by_cases e : ord k = ord m
  · have e' : k = m := by revert e; unfold ord; split <;> split <;> (try split) <;> (try split) <;> omega
    subst e'
    rw [if_neg (by omega), ← hv n hn hN]
    congr 1; omega
  · have hlt : ord k < ord m := by omega
    have h1 := slot_lt_seg (nmax := (N : ℤ) - 1) (n := n) (m := k) (by omega) (by omega)
    unfold slot at h1
    rw [show ((N : ℤ) - 1 + 1).toNat = N by omega, Int.toNat_natCast] at h1
    have h2 : seg N (ord k + 1) ≤ seg N (ord m) := seg_mono N (by omega)
    rw [if_pos (by omega)]
    exact h.2 k n hlt hn hN

theorem fcToSc_spec (A : Arr2 ℂ) (Nmax Mmax : ℕ) (hL : A.rows % 2 = 0) (hL0 : 0 < A.rows)
    (hM : Mmax ≤ Nmax) (hc : Mmax < A.cols) (hny : ∀ m, fAt A m (A.rows / 2) = 0) :
    ∃ v, fcToSc A Nmax Mmax = .ok v ∧ SegVec (Nmax + 1) v (2 * Mmax + 1) (bval A) := by
  unfold fcToSc
  have blk : ∀ m : ℤ, m.natAbs ≤ Mmax → ∀ v, SegVec (Nmax + 1) v (ord m) (bval A) →
      ∃ u, bnmVecFc A Nmax m = .ok u ∧ SegVec (Nmax + 1) (v ++ u) (ord m + 1) (bval A) := by
    intro m hm v hv
    obtain ⟨u, eu, ul, uv⟩ := bnmVecFc_spec A Nmax m hL hL0 (by omega) (by omega) (hny m) (by omega)
    exact ⟨u, eu, hv.append m (by omega) (by omega) fun n h1 h2 => uv n h1 (by omega)⟩
  obtain ⟨u, eu, hu⟩ := blk 0 (by simp) [] ⟨rfl, fun m n h => absurd h (by simp [ord])⟩
  rw [eu]
  simp only [Except.bind_ok]
  rw [List.nil_append] at hu
  obtain ⟨w, ew, hw⟩ := forM'_range_inv (a := 1) (b := (Mmax : ℤ) + 1) (by omega) u
    (fun c m => (bnmVecFc A Nmax (-m)).bind fun a => (bnmVecFc A Nmax m).bind fun b => .ok (c ++ a ++ b))
    (fun k v => SegVec (Nmax + 1) v (2 * k.toNat - 1) (bval A)) hu (by
      intro i v h1 h2 hv
      have o1 : ord (-i) = 2 * i.toNat - 1 := by unfold ord; rw [if_neg (by omega), if_pos (by omega)]; omega
      have o2 : ord i = 2 * i.toNat := by unfold ord; rw [if_pos (by omega)]; omega
      obtain ⟨a, ea, ha⟩ := blk (-i) (by omega) v (by rwa [o1])
      obtain ⟨b, eb, hb⟩ := blk i (by omega) (v ++ a) (by rw [o2]; convert ha using 1; omega)
      rw [ea, eb]
      refine ⟨_, rfl, ?_⟩
      convert hb using 1
      omega)
  exact ⟨w, ew, by convert hw using 1; omega⟩

end Verif
