import Verif.Bessel
import Verif.Pattern
/-!
# Helper and test routines of spherepy/sbessel.py (lines 128-209)

Real arithmetic.  `xvec` is a list of Python floats.  Simplification: in the last line of `sbesselj_sum` a NumPy division by
zero (`inf` with a warning) is 0 here.
-/
namespace Verif
open Classical

/-- The loop shared by `sbesselj_array` and `sbessely_array`, sbessel.py 138-145, 160-167: the rows collected so far (`none`:
the name `out` is not bound yet).  `np.concatenate` raises ValueError for rows of different lengths. -/
def stackRows (f : ℝ → Res (List ℝ)) (xvec : List ℝ) : Res (Option (List (List ℝ))) :=
  forM' xvec none fun out x =>
    (f x).bind fun a =>
    match out with
    | none => .ok (some [a])
    | some rows =>
      if ∀ r ∈ rows, r.length = a.length then .ok (some (rows ++ [a]))
      else .error ⟨.valueError, "all the input array dimensions must match"⟩

/-- `out.T`, sbessel.py 147, 169; reading the unbound name raises UnboundLocalError. -/
noncomputable def stackT (out : Option (List (List ℝ))) : Res (Arr2 ℝ) :=
  match out with
  | none => .error ⟨.exception, "UnboundLocalError"⟩
  | some rows => .ok (Arr2.ofFn (rows.headD []).length rows.length (fun n i => (rows.getD i []).getD n 0))

/-- `sbesselj_array(xvec, N)`, sbessel.py 128-147. -/
noncomputable def sbesseljArray (xvec : List ℝ) (N : Int) : Res (Arr2 ℝ) :=
  (stackRows (fun x => sbesselj x N) xvec).bind stackT

/-- `sbessely_array(xvec, N)`, sbessel.py 149-169. -/
noncomputable def sbesselyArray (xvec : List ℝ) (N : Int) : Res (Arr2 ℝ) :=
  (stackRows (fun x => sbessely x N) xvec).bind stackT

/-- `sbesselj_sum(z, N)`, sbessel.py 171-190; `np.spacing(1) = 2^-52`. -/
noncomputable def sbesseljSum (z : ℝ) (N : Int) : Res ℝ :=
  (sbesselj z N).bind fun b =>
  let vvv := (pyRange 0 N).map (fun n : Int => 2.0 * (n : ℝ) + 1.0)
  (bcast (· * ·) vvv (b.map (fun v => v ^ 2))).bind fun p =>
  let sm := (p.mergeSort (fun a b => decide (a ≤ b))).sum
  .ok (|(sm - 1.0) / sm| + 2 ^ (-52 : Int))

/-- `sbessel_test_cross_product(z, N)`, sbessel.py 192-209. -/
noncomputable def sbesselTestCross (z : ℝ) (N : Int) : Res ℝ :=
  (sbessely z (N + 1)).bind fun y1 =>
  (sbesselj z (N + 1)).bind fun j1 =>
  (bcast (· * ·) y1.dropLast (j1.drop 1)).bind fun a =>
  (bcast (· * ·) j1.dropLast (y1.drop 1)).bind fun b =>
  (bcast (· - ·) a b).bind fun w =>
  (npFull N (1 : ℝ)).bind fun ones =>
  let wp := ones.map (fun o => 1.0 / (z * o) ^ 2)
  (bcast (fun u v => |u - v| / v) w wp).bind npMax

end Verif
