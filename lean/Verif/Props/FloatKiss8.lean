import Verif.Props.FloatKiss7
/-!
# kiss_fft in doubles: the result does not depend on the contents of fresh memory
-/
namespace Verif.Props
open Verif Finset

variable {rnd : ℝ → ℝ}

namespace FK

/-- If `x` succeeds so does `y`, with related results. -/
def SimR {α β : Type} (R : α → β → Prop) (x : Res α) (y : Res β) : Prop := ∀ a, x = .ok a → ∃ b, y = .ok b ∧ R a b

theorem SimR.bind {α β γ δ : Type} {R : α → β → Prop} {S : γ → δ → Prop} {x : Res α} {y : Res β} {f : α → Res γ} {g : β → Res δ} (h : SimR R x y)
    (hf : ∀ a b, R a b → SimR S (f a) (g b)) : SimR S (x.bind f) (y.bind g) := by
  intro c hc
  cases x with
  | error e => cases hc
  | ok a =>
    obtain ⟨b, eb, r⟩ := h a rfl
    rw [eb]
    exact hf a b r c hc

theorem SimR.bind_eq {α γ δ : Type} {S : γ → δ → Prop} {x y : Res α} {f : α → Res γ} {g : α → Res δ} (h : x = y)
    (hf : ∀ a, SimR S (f a) (g a)) : SimR S (x.bind f) (y.bind g) :=
  SimR.bind (R := Eq) (fun a ha => ⟨a, by rw [← h, ha], rfl⟩) (by rintro a _ rfl; exact hf a)

theorem SimR.mono {α β : Type} {R S : α → β → Prop} {x : Res α} {y : Res β} (h : SimR R x y) (hRS : ∀ a b, R a b → S a b) : SimR S x y := by
  intro a ha
  obtain ⟨b, eb, r⟩ := h a ha
  exact ⟨b, eb, hRS _ _ r⟩

theorem SimR.forM {α β : Type} (I : Int → α → β → Prop) {f : α → Int → Res α} {g : β → Int → Res β} (p : ℕ)
    (hstep : ∀ (k : ℕ) a b, k < p → I k a b → SimR (I (k + 1)) (f a k) (g b k)) (a : α) (b : β) (h : I 0 a b) :
    SimR (I p) (forM' (pyRange 0 p) a f) (forM' (pyRange 0 p) b g) := by
  induction p with
  | zero =>
    rw [pyRange_nil (by simp)]
    intro x hx
    cases hx
    exact ⟨b, rfl, h⟩
  | succ p ih =>
    have e : ((p + 1 : ℕ) : Int) = (p : Int) + 1 := by push_cast; rfl
    rw [e, pyRange_succ (by omega), forM'_append, forM'_append]
    refine SimR.bind (ih fun k a b hk h => hstep k a b (by omega) h) fun a' b' h' => ?_
    simp only [forM']
    refine SimR.bind (hstep p a' b' (by omega) h') fun x y hxy => ?_
    intro z hz
    cases hz
    exact ⟨y, rfl, hxy⟩

/-- Lists of the same length agreeing on `S`. -/
def Agree (S : Set ℕ) (F G : List (FC rnd)) : Prop := F.length = G.length ∧ ∀ i ∈ S, rd F i = rd G i

theorem Agree.get {S : Set ℕ} {F G : List (FC rnd)} (h : Agree S F G) {i : Int} {j : ℕ} (hi : i = j) (hj : j ∈ S) : cGet F i = cGet G i := by
  subst hi
  by_cases hl : j < F.length
  · rw [cGet_ok hl, cGet_ok (by rw [← h.1]; exact hl), h.2 j hj]
  · unfold cGet
    rw [if_pos (by omega), if_pos (by omega), Int.toNat_natCast, List.getElem?_eq_none (by omega), List.getElem?_eq_none (by rw [← h.1]; omega)]

theorem Agree.set {S : Set ℕ} {F G : List (FC rnd)} (h : Agree S F G) (i : Int) (v : FC rnd) :
    SimR (fun F' G' => Agree (S ∪ {i.toNat}) F' G') (cSet F i v) (cSet G i v) := by
  intro F' hF'
  unfold cSet at hF' ⊢
  rw [← h.1]
  split_ifs at hF' ⊢ with hc
  swap
  · cases hF'
  cases hF'
  refine ⟨_, rfl, by simp [h.1], fun k hk => ?_⟩
  have hb : i.toNat < F.length := by omega
  rw [rd_set' _ _ _ _ hb, rd_set' _ _ _ _ (by rw [← h.1]; exact hb)]
  split
  · rfl
  · rename_i hne
    rcases hk with hk | hk
    · exact h.2 k hk
    · exact absurd hk hne

theorem Agree.set' {S : Set ℕ} {F G : List (FC rnd)} (h : Agree S F G) (i : Int) (v : FC rnd) :
    SimR (fun F' G' => Agree S F' G') (cSet F i v) (cSet G i v) :=
  (h.set i v).mono fun _ _ h => ⟨h.1, fun i hi => h.2 i (.inl hi)⟩

variable {cfg : Fl.KissCfg rnd} {S : Set ℕ}

/-- `S` contains the block `fo + q m + u`. -/
theorem sim2 (fo fs m : ℕ) (tw : List (FC rnd)) (F G : List (FC rnd)) (u : ℕ) (hS : ∀ q, q < 2 → fo + q * m + u ∈ S) (h : Agree S F G) :
    SimR (Agree S) (Fl.kfBfly2Body rnd tw fo fs m F u) (Fl.kfBfly2Body rnd tw fo fs m G u) := by
  unfold Fl.kfBfly2Body
  refine SimR.bind_eq (h.get (by push_cast; ring) (hS 1 (by omega))) fun a => SimR.bind_eq rfl fun w => SimR.bind_eq (h.get (by push_cast; ring) (hS 0 (by omega))) fun f => ?_
  exact SimR.bind (h.set' _ _) fun F' G' h => h.set' _ _

theorem sim3 (fo fs m : ℕ) (tw : List (FC rnd)) (ep : FC rnd) (F G : List (FC rnd)) (u : ℕ) (hS : ∀ q, q < 3 → fo + q * m + u ∈ S) (h : Agree S F G) :
    SimR (Agree S) (Fl.kfBfly3Body rnd tw ep fo fs m F u) (Fl.kfBfly3Body rnd tw ep fo fs m G u) := by
  unfold Fl.kfBfly3Body
  refine SimR.bind_eq (h.get (by push_cast; ring) (hS 1 (by omega))) fun a1 => SimR.bind_eq rfl fun w1 =>
    SimR.bind_eq (h.get (by push_cast; ring) (hS 2 (by omega))) fun a2 => SimR.bind_eq rfl fun w2 =>
    SimR.bind_eq (h.get (by push_cast; ring) (hS 0 (by omega))) fun f => ?_
  exact SimR.bind (h.set' _ _) fun F' G' h => SimR.bind (h.set' _ _) fun F' G' h => h.set' _ _

theorem sim4 (fo fs m : ℕ) (tw : List (FC rnd)) (inv : Bool) (F G : List (FC rnd)) (u : ℕ) (hS : ∀ q, q < 4 → fo + q * m + u ∈ S) (h : Agree S F G) :
    SimR (Agree S) (Fl.kfBfly4Body rnd tw inv fo fs m F u) (Fl.kfBfly4Body rnd tw inv fo fs m G u) := by
  unfold Fl.kfBfly4Body
  refine SimR.bind_eq (h.get (by push_cast; ring) (hS 1 (by omega))) fun a1 => SimR.bind_eq rfl fun w1 =>
    SimR.bind_eq (h.get (by push_cast; ring) (hS 2 (by omega))) fun a2 => SimR.bind_eq rfl fun w2 =>
    SimR.bind_eq (h.get (by push_cast; ring) (hS 3 (by omega))) fun a3 => SimR.bind_eq rfl fun w3 =>
    SimR.bind_eq (h.get (by push_cast; ring) (hS 0 (by omega))) fun f => ?_
  exact SimR.bind (h.set' _ _) fun F' G' h => SimR.bind (h.set' _ _) fun F' G' h => SimR.bind (h.set' _ _) fun F' G' h => h.set' _ _

theorem sim5 (fo fs m : ℕ) (tw : List (FC rnd)) (ya yb : FC rnd) (F G : List (FC rnd)) (u : ℕ) (hS : ∀ q, q < 5 → fo + q * m + u ∈ S) (h : Agree S F G) :
    SimR (Agree S) (Fl.kfBfly5Body rnd tw ya yb fo fs m F u) (Fl.kfBfly5Body rnd tw ya yb fo fs m G u) := by
  unfold Fl.kfBfly5Body
  refine SimR.bind_eq (h.get (by push_cast; ring) (hS 0 (by omega))) fun f =>
    SimR.bind_eq (h.get (by push_cast; ring) (hS 1 (by omega))) fun a1 => SimR.bind_eq rfl fun w1 =>
    SimR.bind_eq (h.get (by push_cast; ring) (hS 2 (by omega))) fun a2 => SimR.bind_eq rfl fun w2 =>
    SimR.bind_eq (h.get (by push_cast; ring) (hS 3 (by omega))) fun a3 => SimR.bind_eq rfl fun w3 =>
    SimR.bind_eq (h.get (by push_cast; ring) (hS 4 (by omega))) fun a4 => SimR.bind_eq rfl fun w4 => ?_
  exact SimR.bind (h.set' _ _) fun F' G' h => SimR.bind (h.set' _ _) fun F' G' h => SimR.bind (h.set' _ _) fun F' G' h =>
    SimR.bind (h.set' _ _) fun F' G' h => h.set' _ _

theorem mapM'_congr {α β : Type} {f g : α → Res β} : ∀ (l : List α), (∀ x ∈ l, f x = g x) → mapM' l f = mapM' l g
  | [], _ => rfl
  | x :: l, h => by
    simp only [mapM']
    rw [h x (by simp), mapM'_congr l fun y hy => h y (by simp [hy])]

theorem simGen (fo fs m p : ℕ) (tw : List (FC rnd)) (nfft : Int) (F G : List (FC rnd)) (u : ℕ) (hS : ∀ q, q < p → fo + q * m + u ∈ S) (h : Agree S F G) :
    SimR (Agree S) (Fl.kfBflyGenBody rnd tw nfft fo fs m p F u) (Fl.kfBflyGenBody rnd tw nfft fo fs m p G u) := by
  unfold Fl.kfBflyGenBody
  refine SimR.bind_eq (mapM'_congr _ fun q hq => ?_) fun scratch => ?_
  · have hq' := mem_pyRange.mp hq
    obtain ⟨q, rfl⟩ := Int.eq_ofNat_of_zero_le hq'.1
    exact h.get (j := fo + q * m + u) (by push_cast; ring) (hS q (by omega))
  · refine SimR.forM (fun _ => Agree S) p (fun k F G _ h => ?_) F G h
    exact SimR.bind_eq rfl fun x0 => SimR.bind_eq rfl fun s => h.set' _ _

theorem simBfly (fo fs m p : ℕ) (F G : List (FC rnd)) (hS : ∀ i, fo ≤ i → i < fo + p * m → i ∈ S) (h : Agree S F G) :
    SimR (Agree S) (Fl.kfBfly rnd cfg F fo fs m p) (Fl.kfBfly rnd cfg G fo fs m p) := by
  have hb : ∀ u, u < m → ∀ q, q < p → fo + q * m + u ∈ S := by
    intro u hu q hq
    have : q * m + m ≤ p * m := by
      calc q * m + m = (q + 1) * m := by ring
        _ ≤ p * m := Nat.mul_le_mul_right _ hq
    exact hS _ (by omega) (by omega)
  unfold Fl.kfBfly
  simp only
  split_ifs with h2 h3 h4 h5
  · have e : p = 2 := by omega
    subst e
    exact SimR.forM (fun _ => Agree S) m (fun k F G hk h => sim2 fo fs m _ F G k (hb k hk) h) F G h
  · have e : p = 3 := by omega
    subst e
    refine SimR.bind_eq rfl fun ep => ?_
    exact SimR.forM (fun _ => Agree S) m (fun k F G hk h => sim3 fo fs m _ ep F G k (hb k hk) h) F G h
  · have e : p = 4 := by omega
    subst e
    exact SimR.forM (fun _ => Agree S) m (fun k F G hk h => sim4 fo fs m _ _ F G k (hb k hk) h) F G h
  · have e : p = 5 := by omega
    subst e
    refine SimR.bind_eq rfl fun ya => SimR.bind_eq rfl fun yb => ?_
    exact SimR.forM (fun _ => Agree S) m (fun k F G hk h => sim5 fo fs m _ ya yb F G k (hb k hk) h) F G h
  · exact SimR.forM (fun _ => Agree S) m (fun k F G hk h => simGen fo fs m p _ _ F G k (hb k hk) h) F G h

/-- After `kf_work` the output block is determined by the input. -/
theorem simWork (fin : List (FC rnd)) : ∀ (fac : List Int) (n : ℕ), Stages n fac → ∀ (S : Set ℕ) (F G : List (FC rnd)) (fo fi fs : ℕ), Agree S F G →
    SimR (Agree (S ∪ {i | fo ≤ i ∧ i < fo + n})) (Fl.kfWork rnd cfg fin fac F fo fi fs) (Fl.kfWork rnd cfg fin fac G fo fi fs)
  | p :: m :: rest, n, hs, S, F, G, fo, fi, fs, h => by
    obtain ⟨p, m, rfl, rfl, hp, hpm, hcase⟩ := hs
    unfold Fl.kfWork
    split_ifs with h1 h2
    · intro a ha; cases ha
    · have hm1 : m = 1 := by omega
      subst hm1
      refine SimR.bind (R := Agree (S ∪ {i | fo ≤ i ∧ i < fo + n})) ?_ fun F G h => simBfly fo fs 1 p F G (fun i h1 h2 => .inr ⟨h1, by omega⟩) h
      have := SimR.forM (fun k F G => Agree (S ∪ {i | fo ≤ i ∧ (i : Int) < fo + k}) F G)
        (f := fun F j => (cGet fin ((fi : Int) + fs * j)).bind fun x => cSet F ((fo : Int) + j) x)
        (g := fun F j => (cGet fin ((fi : Int) + fs * j)).bind fun x => cSet F ((fo : Int) + j) x) p
        (fun k F G _ h => SimR.bind_eq rfl fun x => (h.set _ _).mono fun a b h => ⟨h.1, fun i hi => h.2 i (by
          rcases hi with hi | ⟨h3, h4⟩
          · exact .inl (.inl hi)
          · by_cases he : (i : Int) < fo + k
            · exact .inl (.inr ⟨h3, he⟩)
            · right
              show i = ((fo : Int) + k).toNat
              omega)⟩) F G ⟨h.1, fun i hi => h.2 i (by
          rcases hi with hi | ⟨h3, h4⟩
          · exact hi
          · omega)⟩
      refine this.mono fun a b h => ⟨h.1, fun i hi => h.2 i ?_⟩
      rcases hi with hi | ⟨h3, h4⟩
      · exact .inl hi
      · exact .inr ⟨h3, by omega⟩
    · rcases hcase with ⟨hm1, -⟩ | ⟨hm1, hst⟩
      · omega
      refine SimR.bind (R := Agree (S ∪ {i | fo ≤ i ∧ i < fo + n})) ?_ fun F G h => simBfly fo fs m p F G (fun i h1 h2 => .inr ⟨h1, by omega⟩) h
      have := SimR.forM (fun k F G => Agree (S ∪ {i | fo ≤ i ∧ (i : Int) < fo + k * m}) F G)
        (f := fun F j => Fl.kfWork rnd cfg fin rest F ((fo : Int) + j * m) ((fi : Int) + fs * j) ((fs : Int) * p))
        (g := fun F j => Fl.kfWork rnd cfg fin rest F ((fo : Int) + j * m) ((fi : Int) + fs * j) ((fs : Int) * p)) p
        (fun k F G _ h => by
          have := simWork fin rest m hst _ F G (fo + k * m) (fi + fs * k) (fs * p) h
          push_cast at this
          refine this.mono fun a b h => ⟨h.1, fun i hi => h.2 i (by
            rcases hi with hi | ⟨h3, h4⟩
            · exact .inl (.inl hi)
            · by_cases he : (i : Int) < fo + k * m
              · exact .inl (.inr ⟨h3, he⟩)
              · refine .inr ⟨by zify; omega, ?_⟩
                rw [add_mul, one_mul] at h4
                zify; omega)⟩) F G ⟨h.1, fun i hi => h.2 i (by
          rcases hi with hi | ⟨h3, h4⟩
          · exact hi
          · omega)⟩
      refine this.mono fun a b h => ⟨h.1, fun i hi => h.2 i ?_⟩
      rcases hi with hi | ⟨h3, h4⟩
      · exact .inl hi
      · refine .inr ⟨h3, ?_⟩
        rw [← hpm] at h4
        exact_mod_cast h4
  | [], _, hs, _, _, _, _, _, _, _ => hs.elim
  | [_], _, hs, _, _, _, _, _, _, _ => hs.elim

/-- `kiss_fft` with other fresh memory. -/
theorem fft_fresh {n : ℕ} (hn : cfg.nfft = n) (hs : Stages n cfg.factors) (buf : List (FC rnd)) (hb : buf.length = n) (junk junk' : ℕ → FC rnd) {out : List (FC rnd)}
    (h : Fl.kissFft rnd cfg buf junk = .ok out) : Fl.kissFft rnd cfg buf junk' = .ok out := by
  unfold Fl.kissFft cMalloc at h ⊢
  rw [hn, if_neg (by omega)] at h ⊢
  simp only [Except.bind_ok, Int.toNat_natCast] at h ⊢
  have hsim := simWork (cfg := cfg) buf cfg.factors n hs ∅ (tab n junk) (tab n junk') 0 0 1 ⟨by simp, fun i hi => hi.elim⟩
  have := SimR.bind (S := Eq) hsim
    (f := fun tmp => if (n : Int) ≤ buf.length then .ok (tab buf.length fun i => if (i : Int) < (n : Int) then rd tmp i else rd buf i) else cUB)
    (g := fun tmp => if (n : Int) ≤ buf.length then .ok (tab buf.length fun i => if (i : Int) < (n : Int) then rd tmp i else rd buf i) else cUB)
    (fun F G hag => by
      rw [if_pos (by omega), if_pos (by omega)]
      intro a ha
      refine ⟨a, ?_, rfl⟩
      rw [← ha]
      congr 1
      refine list_ext_rd (by simp) fun i hi => ?_
      rw [length_tab] at hi
      rw [rd_tab hi, rd_tab hi, if_pos (by omega), if_pos (by omega), hag.2 i (.inr ⟨by omega, by omega⟩)])
  obtain ⟨b, eb, rfl⟩ := this out (by exact_mod_cast h)
  exact_mod_cast eb

end FK
end Verif.Props
