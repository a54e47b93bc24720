import Verif.Props.Filter
/-!
# Property C115 for tangential fields
-/
namespace Verif.Props
open Verif Finset

/-- C115 (transverse): filtering the two components of a vector set with windows `f` and `g` commutes with turning the field: there is one filtered
field `G`, and for every orthogonal `Q` the chain `vspht`, `scoef1.window`, `scoef2.window`, `vispht` applied to the samples of the field turned by `Q` gives
the samples of `G` turned by `Q`, on every pair of grids that resolve the degree. -/
theorem c115_transverse (f g : ℕ → ℂ) (N : ℕ) (v w : ℤ → ℤ → ℂ) (E : (Fin 3 → ℝ) → Fin 3 → ℂ) (hE : FieldCoefs N N v w E) :
    ∃ G : (Fin 3 → ℝ) → Fin 3 → ℂ, FieldCoefs N N (fun n m => v n m * f n.toNat) (fun n m => w n m * g n.toNat) G ∧
      ∀ (Q : Matrix (Fin 3) (Fin 3) ℝ), Q.transpose * Q = 1 → ∀ (b b' : Backend) (nr nc nr' nc' : ℕ),
        N + 2 ≤ nr → 2 * N + 2 ≤ nc → nc % 2 = 0 → nr ≤ 2 ^ 28 → N + 2 ≤ nr' → 2 * N + 2 ≤ nc' → nc' % 2 = 0 →
        ∃ p c d₁ d₂ q, TPatt.init (.arr (sampleTheta nr nc (turned Q E))) (.arr (samplePhi nr nc (turned Q E))) false = .ok p ∧
          vspht b p (some N) (some N) = .ok c ∧
          c.scoef1.window (degreeWindow N f) = ⟨d₁, none⟩ ∧ c.scoef2.window (degreeWindow N g) = ⟨d₂, none⟩ ∧
          vispht b' { c with scoef1 := d₁, scoef2 := d₂ } (some nr') (some nc') = .ok q ∧
          q.theta = sampleTheta nr' nc' (turned Q G) ∧ q.phi = samplePhi nr' nc' (turned Q G) := by
  obtain ⟨G, hG⟩ := field_exists N (fun n m => v n m * f n.toNat) (fun n m => w n m * g n.toNat)
  refine ⟨G, hG, fun Q hQ b b' nr nc nr' nc' g1 g2 g3 g4 k1 k2 k3 => ?_⟩
  choose W hW using fun n => Rot.wigner n Q hQ
  obtain ⟨p, c, e1, e2, e3, e4, e5, e6, -, -⟩ := c91_sampled b N N (by omega) le_rfl _ _ _ (turned_field hQ (fun n => (hW n).1) N v w E hE) nr nc
    (by exact_mod_cast g1) (by exact_mod_cast g2) g3 g4
  obtain ⟨d₁, a1, a2, a3, a4, a5⟩ := window_coefs c.scoef1 e3.wf1 _ (hasCoefs_cf e3.wf1) f
  obtain ⟨d₂, b1, b2, b3, b4, b5⟩ := window_coefs c.scoef2 e3.wf2 _ (hasCoefs_cf e3.wf2) g
  rw [e3.n1] at a1 a3
  rw [e3.m1] at a4
  rw [e3.n2] at b1 b3
  rw [e3.m2] at b4
  have hd : ({ c with scoef1 := d₁, scoef2 := d₂ } : VectorCoefs ℂ).WellFormed := ⟨a2, b2, a3, b3, a4, b4⟩
  have hT := turned_field hQ (fun n => (hW n).1) N _ _ G hG
  have hv : HasCoefsV { c with scoef1 := d₁, scoef2 := d₂ }
      (fun k l => Q.det * ∑ m ∈ Icc (-k) k, v k m * f k.toNat * W k.toNat m l) (fun k l => ∑ m ∈ Icc (-k) k, w k m * g k.toNat * W k.toNat m l) := by
    intro n m hm hn
    replace hm : IsMode c.nmax c.mmax n m := hm
    have x1 := a5 n m (by rw [a3, a4]; exact hm)
    have x2 := b5 n m (by rw [b3, b4]; exact hm)
    rw [readMap_eq a2.wf] at x1
    rw [readMap_eq b2.wf] at x2
    rw [readMapV_eq hd, if_neg hn]
    show (d₁.absMap n m).bind _ = _
    rw [x1]
    show (d₂.absMap n m).map _ = _
    rw [x2]
    obtain ⟨y1, y2⟩ := e6.cf e3 hm hn
    show some (_, _) = _
    beta_reduce
    rw [y1, y2, mul_assoc, sum_mul, sum_mul]
    congr 2
    · congr 1
      exact sum_congr rfl fun k _ => by ring
    · exact sum_congr rfl fun k _ => by ring
  obtain ⟨q, q1, q2, q3⟩ := vispht_samples b' _ hd _ _ hv _ _ (by
    show JacksonField c.nmax c.mmax _ _ _ _
    rw [e4, e5]; exact hT) nr' nc' (by show c.nmax + 2 ≤ nr'; omega) (by show 2 * c.mmax + 2 ≤ nc'; omega) k3
  rw [e4] at a1 b1
  exact ⟨p, c, d₁, d₂, q, e1, e2, a1, b1, q1, q2, q3⟩

/-- A field with both components, and a rotation that is not the identity. -/
example : ∃ (Q : Matrix (Fin 3) (Fin 3) ℝ) (E : (Fin 3 → ℝ) → Fin 3 → ℂ), Q.transpose * Q = 1 ∧ Q ≠ 1 ∧
    FieldCoefs (2 : ℕ) (2 : ℕ) (fun n m => n + m * Complex.I) (fun n m => n * m) E := by
  obtain ⟨E, hE⟩ := field_exists 2 (fun n m => n + m * Complex.I) (fun n m => n * m)
  refine ⟨!![0, -1, 0; 1, 0, 0; 0, 0, 1], E, ?_, fun h => ?_, hE⟩
  · ext i j; fin_cases i <;> fin_cases j <;> simp [Matrix.mul_apply, Fin.sum_univ_three]
  · have := congrFun (congrFun h 0) 0
    simp at this

end Verif.Props
