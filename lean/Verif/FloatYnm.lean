import Verif.FloatArith
import Verif.Sphi
import Verif.CSphi
/-!
# The tables of the spherical harmonics in double precision

`ynnm` and `ynunm` of pysphi.py (54-99) and of csphi.c (50-106) with every operation rounded (`IsRounding`, FloatArith.lean): `np.sqrt` and C's `sqrt` are
correctly rounded, integers are rounded when they meet a double.  C is assumed to evaluate doubles as doubles (no excess precision, no fused
multiply-add).
-/
namespace Verif
namespace Fl

noncomputable section
variable (rnd : ℝ → ℝ)

/-- An `int` used in an operation with a double, e.g. pysphi.py 69, 72, 88-91; csphi.c 67, 71, 101. -/
def ofInt (k : Int) : ℝ := rnd (k : ℝ)

/-- `1.0 / np.sqrt(4.0 * np.pi)`, pysphi.py 56, and `1.0/sqrt(4.0*PI)`, csphi.c 55: `np.pi` and csphi.h 57 are the double nearest to π. -/
def a : ℝ := rnd (1 / rnd (Real.sqrt (rnd (4 * rnd Real.pi))))

/-- `np.sqrt((2.0 * k + 1.0) / 8.0 / k)`, pysphi.py 68. -/
def fac1 (k : Int) : ℝ := rnd (Real.sqrt (rnd (rnd (rnd (rnd (2 * ofInt rnd k) + 1) / 8) / ofInt rnd k)))

/-- `np.sqrt((n + k + 1.0) / (n - k))`, pysphi.py 72. -/
def fac2 (n k : Int) : ℝ := rnd (Real.sqrt (rnd (rnd (ofInt rnd (n + k) + 1) / ofInt rnd (n - k))))

/-- `ynnm(n, m)`, pysphi.py 54-73, in doubles. -/
def ynnm (n m : Int) : ℝ :=
  let pm : Int := |m|
  if n < pm then 0
  else if n = 0 then a rnd
  else
    let out := (pyRange 1 (n + 1)).foldl (fun (o : ℝ) (k : Int) => rnd (o * fac1 rnd k)) (a rnd)
    if n ≠ pm then (pyRangeNeg (n - 1) (pm - 1) 1).foldl (fun (o : ℝ) (k : Int) => rnd (o * fac2 rnd n k)) out
    else out

/-- `(n - k - c1) * (n + k + c2)` in pysphi.py 88-91, 94-97. -/
def tmp (n k : Int) (c1 c2 : ℝ) : ℝ := rnd (rnd (ofInt rnd (n - k) - c1) * rnd (ofInt rnd (n + k) + c2))

/-- `tmp2`, pysphi.py 89, 95. -/
def tmp2 (n m k : Int) : ℝ := rnd (tmp rnd n k 2 3 - rnd (4 * ofInt rnd (m ^ 2)))

/-- `tmp4`, pysphi.py 90, 97. -/
def tmp4 (n k : Int) : ℝ := rnd (ofInt rnd (n - k) * rnd (ofInt rnd (n + k) + 1))

/-- One pass of the recursion loop of `ynunm`, pysphi.py 93-98. -/
def ynunmStep (n m : Int) (out : List ℝ) (k : Int) : Res (List ℝ) :=
  (getIdx out (k + 2)).bind fun o2 => (getIdx out (k + 4)).bind fun o4 =>
  setIdx out k (rnd (rnd (rnd (rnd (tmp rnd n k 1 2 + tmp2 rnd n m k) * o2) - rnd (tmp rnd n k 3 4 * o4)) / tmp4 rnd n k))

/-- `ynunm(n, m, L)`, pysphi.py 75-99, in doubles. -/
def ynunm (n m L : Int) : Res (List ℝ) :=
  (npFull L (0 : ℝ)).bind fun out =>
  if |m| ≤ n then
    (setIdx out n (ynnm rnd n m)).bind fun out =>
    let k := n - 2
    if k ≥ 0 then
      (getIdx out (k + 2)).bind fun o2 =>
      (setIdx out k (rnd (rnd (rnd (tmp rnd n k 1 2 + tmp2 rnd n m k) * o2) / tmp4 rnd n k))).bind fun out =>
      forM' (pyRangeNeg (n - 4) (-1) 2) out (ynunmStep rnd n m)
    else .ok out
  else .ok out

/-- `sqrt((2.0*k+1)/(8.0*k))`, csphi.c 67. -/
def cFac1 (k : Int) : ℝ := rnd (Real.sqrt (rnd (rnd (rnd (2 * ofInt rnd k) + 1) / rnd (8 * ofInt rnd k))))

/-- `sqrt(1.0*(n+k+1.0)/(n-k))`, csphi.c 71. -/
def cFac2 (n k : Int) : ℝ := rnd (Real.sqrt (rnd (rnd (1 * rnd (ofInt rnd (n + k) + 1)) / ofInt rnd (n - k))))

/-- `ynnm(n, m)`, csphi.c 50-76, in doubles. -/
def cYnnm (n m : Int) : ℝ :=
  let pm : Int := |m|
  if n < pm then 0
  else if n = 0 then a rnd
  else
    let o := (pyRange 1 (n + 1)).foldl (fun (o : ℝ) (k : Int) => rnd (cFac1 rnd k * o)) (a rnd)
    if n ≠ pm then (pyRangeNeg (n - 1) (pm - 1) 1).foldl (fun (o : ℝ) (k : Int) => rnd (cFac2 rnd n k * o)) o
    else o

/-- `B(en, k + c)`, csphi.c 36 as used at 101, 103: the second argument is the double `k + c`. -/
def cBd (n k : Int) (c : ℝ) : ℝ :=
  rnd (rnd (ofInt rnd n - rnd (ofInt rnd k + c)) * rnd (rnd (ofInt rnd n + rnd (ofInt rnd k + c)) + 1))

/-- `B(en, k)`, csphi.c 36 as used at 101, 103: both arguments are `int`. -/
def cBi (n k : Int) : ℝ := rnd (ofInt rnd (n - k) * rnd (ofInt rnd (n + k) + 1))

/-- `B(en,k+1.0)+B(en,k+2.0) - 4.0*em*em`, csphi.c 101, 103. -/
def cLead (n m k : Int) : ℝ := rnd (rnd (cBd rnd n k 1 + cBd rnd n k 2) - rnd (rnd (4 * ofInt rnd m) * ofInt rnd m))

/-- Body of the recursion loop of `ynunm`, csphi.c 101-103. -/
def cYnunmStep (en em : Int) (y : List ℝ) (k : Int) : Res (List ℝ) :=
  (cGet y (k + 2)).bind fun y2 => (cGet y (k + 4)).bind fun y4 =>
  cSet y k (rnd (rnd (rnd (cLead rnd en em k * y2) - rnd (cBd rnd en k 3 * y4)) / cBi rnd en k))

/-- `ynunm(en, em, y, len)`, csphi.c 90-106, in doubles: fills `y` in place. -/
def cYnunm (en em : Int) (y : List ℝ) (len : Int) : Res (List ℝ) :=
  (forM' (pyRange 0 len) y (fun y k => cSet y k 0)).bind fun y =>
  if |em| ≤ en then
    (cSet y en (cYnnm rnd en em)).bind fun y =>
    let k := en - 2
    if k ≥ 0 then
      (cGet y (k + 2)).bind fun y2 =>
      (cSet y k (rnd (rnd (cLead rnd en em k * y2) / cBi rnd en k))).bind fun y =>
      forM' (pyRangeNeg (k - 2) (-1) 2) y (cYnunmStep rnd en em)
    else .ok y
  else .ok y

end
end Fl
end Verif
