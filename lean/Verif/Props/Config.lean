import Verif.Config
import Verif.Props.Transforms3
import Verif.Props.Vector3
/-!
# C49: the flag `use_cext` in pkg_info.json
-/
namespace Verif.Props

/-- The JSON values Python counts as false. -/
def FalseValue (v : PyJson) : Prop :=
  v = .null ∨ v = .bool false ∨ v = .int 0 ∨ v = .float 0 ∨ v = .str "" ∨ v = .arr [] ∨ v = .obj []

theorem truthy_iff (v : PyJson) : v.truthy = false ↔ FalseValue v := by
  unfold FalseValue
  cases v with
  | null => simp [PyJson.truthy]
  | bool b => cases b <;> simp [PyJson.truthy]
  | int i => simp [PyJson.truthy]
  | float q => simp [PyJson.truthy]
  | nonfinite => simp [PyJson.truthy]
  | str s => simp [PyJson.truthy]
  | arr l => cases l <;> simp [PyJson.truthy]
  | obj l => cases l <;> simp [PyJson.truthy]

theorem getKey_edited (v : PyJson) : (editedInfo v).getKey "use_cext" = .ok v := rfl

/-- **C49**, part that holds: writing JSON `false` (or null, 0, an empty string, list or object) as the value of
`use_cext` selects the pure-Python routines.  Missing: a *string* that says false — and the shipped file uses a string —
does not (`c49_counterexample`). -/
theorem c49_partial (J : ℕ → CJunk) (v : PyJson) (hv : FalseValue v) : backendOf (editedInfo v) J = .ok .py := by
  unfold backendOf
  rw [getKey_edited, Except.bind_ok, (truthy_iff v).2 hv]; rfl

/-- **C49**, exact behaviour: the Python routines are selected by the JSON values that Python counts as false and by no
other; every other value selects the C extension. -/
theorem c49_exact (J : ℕ → CJunk) (v : PyJson) :
    (backendOf (editedInfo v) J = .ok .py ↔ FalseValue v) ∧ (backendOf (editedInfo v) J = .ok (.c J) ↔ ¬ FalseValue v) := by
  unfold backendOf
  rw [getKey_edited, Except.bind_ok, ← truthy_iff]
  cases v.truthy <;> simp

/-- **C49**, violation: replacing the shipped `"True"` by `"False"` — or by any other non-empty string — still selects
the C extension. -/
theorem c49_counterexample (J : ℕ → CJunk) :
    backendOf (editedInfo (.str "False")) J = .ok (.c J) ∧
    ∀ s : String, s ≠ "" → backendOf (editedInfo (.str s)) J = .ok (.c J) := by
  have h : ∀ s : String, s ≠ "" → backendOf (editedInfo (.str s)) J = .ok (.c J) := fun s hs =>
    (c49_exact J (.str s)).2.2 (by
      unfold FalseValue
      simp [hs])
  exact ⟨h _ (by decide), h⟩

/-- The shipped file selects the C extension, and a file without the entry `use_cext` cannot be imported. -/
theorem c49_shipped (J : ℕ → CJunk) :
    backendOf shippedInfo J = .ok (.c J) ∧
    ∀ l : List (String × PyJson), (∀ p ∈ l, p.1 ≠ "use_cext") → (backendOf (.obj l) J).Fails := by
  refine ⟨(c49_counterexample J).2 "True" (by decide), fun l hl => ?_⟩
  unfold backendOf PyJson.getKey
  have : (l.reverse.find? fun p : String × PyJson => p.1 == "use_cext") = none := by
    rw [List.find?_eq_none]
    intro p hp
    simpa using hl p (List.mem_reverse.1 hp)
  simp only [this]
  exact ⟨_, rfl⟩

/-- Whatever the file says, an import that succeeds selects one of the two backends, and the transforms then return the
same results: the flag changes speed, not values (on the domain of C28). -/
theorem c49_same_results (J : ℕ → CJunk) (info : PyJson) (b : Backend) (hb : backendOf info J = .ok b) :
    (∀ (D : Arr2 ℂ) (n m : ℤ), D.rows % 2 = 0 → 0 < D.rows → D.rows ≤ 2 ^ 29 → 0 ≤ m →
      spht b ⟨.arr D⟩ (some n) (some m) = spht .py ⟨.arr D⟩ (some n) (some m)) ∧
    (∀ (c : ScalarCoefs ℂ) (nr nc : ℤ), c.WellFormed → ¬ (c.nmax = 0 ∧ nr = 1) →
      ispht b c (some nr) (some nc) = ispht .py c (some nr) (some nc)) ∧
    (∀ (T P : Arr2 ℂ) (n m : ℤ), P.rows = T.rows → P.cols = T.cols → T.rows % 2 = 0 → 0 < T.rows → T.rows ≤ 2 ^ 29 → 0 ≤ m →
      vspht b ⟨T, P⟩ (some n) (some m) = vspht .py ⟨T, P⟩ (some n) (some m)) ∧
    (∀ (c : VectorCoefs ℂ) (nr nc : ℤ), c.WellFormed →
      vispht b c (some nr) (some nc) = vispht .py c (some nr) (some nc)) := by
  have h : b = .py ∨ b = .c J := by
    unfold backendOf at hb
    cases hk : info.getKey "use_cext" with
    | error e => rw [hk] at hb; cases hb
    | ok v =>
      rw [hk, Except.bind_ok] at hb
      cases ht : v.truthy <;> rw [ht] at hb <;> cases hb
      · exact .inl rfl
      · exact .inr rfl
  rcases h with rfl | rfl
  · exact ⟨fun _ _ _ _ _ _ _ => rfl, fun _ _ _ _ _ => rfl, fun _ _ _ _ _ _ _ _ _ _ => rfl, fun _ _ _ _ => rfl⟩
  · exact ⟨fun D n m h1 h2 h3 h4 => c28_spht J D h1 h2 h3 n m h4, fun c nr nc hc hx => c28_ispht J c hc nr nc hx,
      fun T P n m h1 h2 h3 h4 h5 h6 => c28_vspht J T P h1 h2 h3 h4 h5 n m h6, fun c nr nc hc => c28_vispht J c hc nr nc⟩

/-- Non-vacuity: `{"use_cext": false}` selects Python, `{"use_cext": "False"}` does not; a later duplicate key wins. -/
example (J : ℕ → CJunk) : FalseValue (.bool false) ∧ ¬ FalseValue (.str "False") ∧
    backendOf (.obj [("use_cext", .bool true), ("use_cext", .int 0)]) J = .ok .py :=
  ⟨.inr (.inl rfl), by unfold FalseValue; simp, rfl⟩

end Verif.Props
