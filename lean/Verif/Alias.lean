import Verif.Coefs
/-!
# Views: columns of a coefficient set as live windows on its array

`c[:, m]` returns `self._vec[idx_start:idx_stop]` (spherepy.py 455-458), a NumPy *view*: no data is copied.  `Coefs.lean`
models the values such a read shows; here the view itself is modelled, and the methods of `ScalarCoefs` when such a view
is passed back to the same object, so that the array they read changes while they write.
-/
namespace Verif

/-- A 1-D NumPy view of a buffer: the buffer positions it shows, in order (NumPy runtime; made at spherepy.py 458). -/
abbrev View := List Nat

/-- The current content of a view (NumPy runtime; reads at spherepy.py 266-269, 391-394, 416). -/
def View.read {α : Type} (v : View) (buf : List α) : List α := v.filterMap fun i => buf[i]?

/-- `view[k] = x`: writes into the buffer (NumPy runtime; the view made at spherepy.py 458). -/
def View.write {α : Type} (v : View) (buf : List α) (k : Int) (x : α) : Res (List α) :=
  (getIdx v k).bind fun i => .ok (buf.set i x)

namespace ScalarCoefs
variable {α : Type}

/-- `c[:, m]` as an object: the view `self._vec[idx_start:idx_stop]`, spherepy.py 444-458. -/
def colView (c : ScalarCoefs α) (m : Int) : Res View :=
  if iabs m > c.mmax then .error (raise .attributeError "m_out_bound")
  else (mindx m c.nmax c.mmax).bind fun s =>
    .ok (getSlice (List.range c.vec.length) s (s + c.nmax - iabs m + 1))

/-- `v[k] = x` through a view `v` of `c`'s own array (NumPy runtime; view of spherepy.py 458). -/
def pokeView (c : ScalarCoefs α) (v : View) (k : Int) (x : α) : Eff (ScalarCoefs α) :=
  match v.write c.vec k x with
  | .error e => ⟨c, some e⟩
  | .ok l => ⟨{ c with vec := l }, none⟩

/-- `c[n, :] = v` where `v` is a view of `c`'s own array, spherepy.py 398-419: the loop reads `val[k]` (line 416) from the
array it is writing to. -/
def setRowView (c : ScalarCoefs α) (n : Int) (v : View) : Eff (ScalarCoefs α) :=
  if n > c.nmax ∨ n < 0 then ⟨c, some (raise .attributeError "n_out_bound")⟩
  else if ((v.read c.vec).length : Int) ≠ 2 * n + 1 then ⟨c, some (raise .attributeError "dim_no_mtch")⟩
  else
    let nn := c.rowHalf n
    Eff.forEach (pyRange 0 (2 * nn + 1)) c (fun c' k =>
      match getIdx (v.read c'.vec) k with
      | .error e => ⟨c', some e⟩
      | .ok x => c'.setNM n (k - nn) (.num x))

/-- `c[arg] = v` where `v` is a view of `c`'s own array, spherepy.py 371-437.  `c[:, m] = v` is one NumPy slice assignment
(line 394), which NumPy carries out as if `v` had been copied first; `c[n, m] = v` and unsupported indices raise
before anything is written. -/
def setitemView (c : ScalarCoefs α) (arg : List Arg) (v : View) : Eff (ScalarCoefs α) :=
  match arg with
  | [.int n, .slice .none .none .none] => c.setRowView n v
  | _ => c.setitem arg (.seq (v.read c.vec))

/-- `c.window(v)` where `v` is a view of `c`'s own array, spherepy.py 264-269: `vec` and `vec[m:]` are read again for every
column. -/
def windowView [Mul α] (c : ScalarCoefs α) (v : View) : Eff (ScalarCoefs α) :=
  (c.windowCol 0 (v.read c.vec)).andThen fun c0 =>
  Eff.forEach (pyRange 1 (c.mmax + 1)) c0 (fun c' m =>
    (c'.windowCol (-m) (getSlice (v.read c'.vec) m (v.read c'.vec).length)).andThen fun c'' =>
    c''.windowCol m (getSlice (v.read c''.vec) m (v.read c''.vec).length))

end ScalarCoefs
end Verif
