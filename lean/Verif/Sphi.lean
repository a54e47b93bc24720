import Verif.Coefs
import Verif.Fourier
import Mathlib.Analysis.SpecialFunctions.Pow.Real
import Mathlib.Analysis.SpecialFunctions.Trigonometric.Basic
/-!
# Low-level numerical routines (spherepy/pysphi.py)

Exact real/complex arithmetic in place of float64/complex128 (rounding is not modelled).
-/
namespace Verif

/-- `xrange(a, b, -s)` for `s > 0`.
    Python runtime; pysphi.py 71, 92. -/
def pyRangeNeg (a b s : Int) : List Int :=
  (List.range ((a - b + s - 1) / s).toNat).map (fun (k : Nat) => a - s * (k : Int))

/-- `ynnm(n, m)`, pysphi.py 54-73. -/
noncomputable def ynnm (n m : Int) : ℝ :=
  let a : ℝ := 1.0 / Real.sqrt (4.0 * Real.pi)
  let pm : Int := |m|
  if n < pm then 0
  else if n = 0 then a
  else
    let out := (pyRange 1 (n + 1)).foldl (fun (o : ℝ) (k : Int) => o * Real.sqrt ((2.0 * (k : ℝ) + 1.0) / 8.0 / k)) a
    if n ≠ pm then
      (pyRangeNeg (n - 1) (pm - 1) 1).foldl
        (fun (o : ℝ) (k : Int) => o * Real.sqrt (((n : ℝ) + k + 1.0) / ((n : ℝ) - k))) out
    else out

/-- One pass of the recursion loop of `ynunm`, pysphi.py 93-98. -/
noncomputable def ynunmStep (n m : Int) (out : List ℝ) (k : Int) : Res (List ℝ) :=
  let tmp1 : ℝ := ((n : ℝ) - k - 1.0) * ((n : ℝ) + k + 2.0)
  let tmp2 : ℝ := ((n : ℝ) - k - 2.0) * ((n : ℝ) + k + 3.0) - 4.0 * (m : ℝ) ^ 2
  let tmp3 : ℝ := ((n : ℝ) - k - 3.0) * ((n : ℝ) + k + 4.0)
  let tmp4 : ℝ := ((n : ℝ) - k) * ((n : ℝ) + k + 1.0)
  (getIdx out (k + 2)).bind fun o2 => (getIdx out (k + 4)).bind fun o4 =>
  setIdx out k (((tmp1 + tmp2) * o2 - tmp3 * o4) / tmp4)

/-- `ynunm(n, m, L)`, pysphi.py 75-99. -/
noncomputable def ynunm (n m L : Int) : Res (List ℝ) :=
  (npFull L (0 : ℝ)).bind fun out =>
  if |m| ≤ n then
    (setIdx out n (ynnm n m)).bind fun out =>
    let k := n - 2
    if k ≥ 0 then
      let tmp1 : ℝ := ((n : ℝ) - k - 1.0) * ((n : ℝ) + k + 2.0)
      let tmp2 : ℝ := ((n : ℝ) - k - 2.0) * ((n : ℝ) + k + 3.0) - 4.0 * (m : ℝ) ^ 2
      let tmp4 : ℝ := ((n : ℝ) - k) * ((n : ℝ) + k + 1.0)
      (getIdx out (k + 2)).bind fun o2 =>
      (setIdx out k ((tmp1 + tmp2) * o2 / tmp4)).bind fun out =>
      forM' (pyRangeNeg (n - 4) (-1) 2) out (ynunmStep n m)
    else .ok out
  else .ok out

/-- The `while` loop of `smallest_prime_factor`, pysphi.py 105-117, from state `(A, Q)`; `none` means the loop
never ends.  `A / 2` etc. are exact (the dividend is divisible; float division is exact below `2^53`).
`np.mod` is the floored modulus. -/
def spfLoop (A Q : Int) : Option Int :=
  if A = 1 then some Q
  else if A % 2 = 0 then spfLoop (A / 2) Q
  else if A % 3 = 0 then spfLoop (A / 3) Q
  else if A % 5 = 0 then spfLoop (A / 5) Q
  else if A % 7 = 0 then spfLoop (A / 7) Q
  else spfLoop (Q + 1) (Q + 1)
partial_fixpoint

/-- `smallest_prime_factor(Q)`, pysphi.py 101-119. -/
def smallestPrimeFactor (Q : Int) : Option Int := spfLoop Q Q

/-- A diverging call inside a larger computation: the call never returns a value.
    Calls of smallest_prime_factor, pysphi.py 101-119, 174. -/
def orDiverge {α : Type} (o : Option α) : Res α :=
  match o with
  | some a => .ok a
  | none => .error ⟨.nonTermination, "does not terminate"⟩

/-- `s_data(nrows_fdata, Nmax, Q)`, pysphi.py 121-147. -/
noncomputable def sData (L1 : Nat) (Nmax Q : Int) : Res (List ℂ) :=
  if L1 % 2 = 1 then .error ⟨.exception, "nrows_fdata must be even."⟩
  else
    (npFull Q (0 : ℂ)).bind fun s =>
    let MM : Int := L1 / 2
    forM' (pyRange (-MM) (MM + Nmax + 1)) s (fun s nu =>
      if nu % 2 = 1 then setIdx s (nu - MM) (-Complex.I / nu) else .ok s)

/-- `fdata[:, m]`, NumPy column selection (negative `m` counts from the end). -/
def colOf (A : Arr2 ℂ) (m : Int) : Res (List ℂ) :=
  if -(A.cols : Int) ≤ m ∧ m < A.cols then .ok (tab A.rows fun i => A.at' i (Arr2.wrap A.cols m))
  else .error ⟨.indexError, "index"⟩

/-- `hkm_fc(fdata, Nmax, m, s)`, pysphi.py 149-169.  The two copy loops write disjoint slots of `ff` once each:
`ff[n] = f[n - MM]` for `MM ≤ n < L1`, `ff[n] = f[n + MM]` for `n < MM` (IndexError if `ff` is too short). -/
noncomputable def hkmFc (fdata : Arr2 ℂ) (Nmax m : Int) (s : List ℂ) : Res (List ℂ) :=
  (colOf fdata m).bind fun f =>
  let L1 := f.length
  let MM := L1 / 2
  let Q := s.length
  if L1 > Q then .error ⟨.indexError, "index"⟩
  else
    let ff := tab Q fun n => if n < MM then rd f (n + MM) else if n < L1 then rd f (n - MM) else 0
    (npFft ff).bind fun F =>
    (npFft s).bind fun S =>
    (bcast (· * ·) F S).bind fun FS =>
    (npIfft FS).bind fun out =>
    .ok (getSlice (out.map (fun x => 4 * Real.pi * x)) 0 (Nmax + 1))

/-- The loop body of `bnm_vec_fc`, pysphi.py 182-189. -/
noncomputable def bnmBody (h : List ℂ) (m : Int) (out : List ℂ) (n : Int) : Res (List ℂ) :=
  (ynunm n m (n + 1)).bind fun ynm =>
  (getIdx h 0).bind fun h0 =>
  (getIdx ynm 0).bind fun y0 =>
  (setIdx out (n - |m|) (Complex.I ^ (-m) * h0 * y0)).bind fun out =>
  if n ≠ 0 then
    (bcast (fun (a : ℂ) (b : ℝ) => a * (b : ℂ)) (getSlice h 1 (n + 1)) (getSlice ynm 1 (n + 1))).bind fun p =>
    (getIdx out (n - |m|)).bind fun o =>
    setIdx out (n - |m|) (o + Complex.I ^ (-m) * 2 * p.sum)
  else .ok out

/-- `bnm_vec_fc(fdata, Nmax, m)`, pysphi.py 171-191. -/
noncomputable def bnmVecFc (fdata : Arr2 ℂ) (Nmax m : Int) : Res (List ℂ) :=
  (orDiverge (smallestPrimeFactor (fdata.rows + Nmax))).bind fun Q =>
  (sData fdata.rows Nmax Q).bind fun s =>
  (hkmFc fdata Nmax m s).bind fun h =>
  (npFull (Nmax - |m| + 1) (0 : ℂ)).bind fun out =>
  forM' (pyRange |m| (Nmax + 1)) out (bnmBody h m)

/-- `fc_to_sc(gcoef, Nmax, Mmax)`, pysphi.py 193-203. -/
noncomputable def fcToSc (gcoef : Arr2 ℂ) (Nmax Mmax : Int) : Res (List ℂ) :=
  (bnmVecFc gcoef Nmax 0).bind fun c =>
  forM' (pyRange 1 (Mmax + 1)) c (fun c m =>
    (bnmVecFc gcoef Nmax (-m)).bind fun a =>
    (bnmVecFc gcoef Nmax m).bind fun b => .ok (c ++ a ++ b))

/-- `F[0:K] += v` (NumPy in-place add: `v` has the length of the slice or length 1). -/
def addPrefix {α : Type} [Zero α] [Add α] (F : List α) (K : Int) (v : List α) : Res (List α) :=
  let k := clampIdx F.length K
  if v.length = k then .ok (tab F.length fun i => if i < k then rd F i + rd v i else rd F i)
  else if v.length = 1 then .ok (tab F.length fun i => if i < k then rd F i + rd v 0 else rd F i)
  else .error ⟨.valueError, "broadcast"⟩

/-- The loop body of `fcvec_m_sc`, pysphi.py 232-236. -/
noncomputable def fcvecBody (vec : List ℂ) (m nmax : Int) (F : List ℂ) (n : Int) : Res (List ℂ) :=
  (ynunm n m (nmax + 1)).bind fun ynm =>
  (getIdx vec (n - |m|)).bind fun v =>
  addPrefix F (nmax + 1) (List.map (fun (y : ℝ) => v * (y : ℂ)) ynm)

/-- `fcvec_m_sc(vec, m, nmax, nrows)`, pysphi.py 227-249.  The final symmetry loop reads entries `1..H` and writes
entries `nrows-H..nrows-1`, which are disjoint, so it is a comprehension. -/
noncomputable def fcvecMSc (vec : List ℂ) (m nmax nrows : Int) : Res (List ℂ) :=
  (npFull nrows (0 : ℂ)).bind fun F =>
  (forM' (pyRange |m| (nmax + 1)) F (fcvecBody vec m nmax)).bind fun F =>
  let k := clampIdx F.length (nmax + 1)
  let F := tab F.length fun i => if i < k then rd F i * Complex.I ^ m else rd F i
  let mm : ℂ := (-1) ^ m
  let r := F.length
  let H := if r % 2 = 0 then r / 2 - 1 else (r - 1) / 2
  .ok (tab r fun i => if r - H ≤ i then mm * rd F (r - i) else rd F i)

/-- `fdata[:, kk] = F`.
    NumPy runtime; pysphi.py 256-270. -/
def setColumn {α : Type} [Zero α] (A : Arr2 α) (kk : Int) (F : List α) : Res (Arr2 α) :=
  if ¬ (-(A.cols : Int) ≤ kk ∧ kk < A.cols) then .error ⟨.indexError, "index"⟩
  else if F.length ≠ A.rows ∧ F.length ≠ 1 then .error ⟨.valueError, "broadcast"⟩
  else .ok (Arr2.ofFn A.rows A.cols fun i j =>
    if j = Arr2.wrap A.cols kk then rd F (if F.length = A.rows then i else 0) else A.at' i j)

/-- The block repeated three times in `sc_to_fc` (pysphi.py 258-261, 263-266, 269-272). -/
noncomputable def scToFcCol (spvec : List ℂ) (nmax mmax nrows : Int) (fdata : Arr2 ℂ) (kk : Int) : Res (Arr2 ℂ) :=
  (mindx kk nmax mmax).bind fun ind =>
  (fcvecMSc (getSlice spvec ind (ind + nmax - |kk| + 1)) kk nmax nrows).bind fun F =>
  setColumn fdata kk F

/-- The loop body of `sc_to_fc`, pysphi.py 256-272. -/
noncomputable def scToFcBody (spvec : List ℂ) (nmax mmax nrows : Int) (fdata : Arr2 ℂ) (k : Int) : Res (Arr2 ℂ) :=
  (if k < mmax then
    (scToFcCol spvec nmax mmax nrows fdata k).bind fun fdata =>
    scToFcCol spvec nmax mmax nrows fdata (-(k + 1))
  else .ok fdata).bind fun fdata =>
  if k = mmax then scToFcCol spvec nmax mmax nrows fdata k else .ok fdata

/-- `np.zeros([r, c])`.
    NumPy runtime; pysphi.py 254. -/
def npZeros2 {α : Type} [Zero α] (r c : Int) : Res (Arr2 α) :=
  if r < 0 ∨ c < 0 then .error ⟨.valueError, "negative dimensions"⟩
  else .ok (Arr2.ofFn r.toNat c.toNat (fun _ _ => 0))

/-- `int(x / 2)` for an integer `x`: true division then truncation towards zero.
    Python runtime; pysphi.py 141, 154, 242-244, 256. -/
def halfTrunc (x : Int) : Int := x.tdiv 2

/-- `sc_to_fc(spvec, nmax, mmax, nrows, ncols)`, pysphi.py 251-274. -/
noncomputable def scToFc (spvec : List ℂ) (nmax mmax nrows ncols : Int) : Res (Arr2 ℂ) :=
  (npZeros2 nrows ncols).bind fun fdata =>
  forM' (pyRange 0 (halfTrunc ncols)) fdata (scToFcBody spvec nmax mmax nrows)

end Verif
