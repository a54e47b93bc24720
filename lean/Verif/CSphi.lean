import Verif.Kiss
import Verif.Sphi
/-!
# The C extension (src/csphi.c)

2-D arrays arrive as row-major buffers (SWIG `INPLACE_ARRAY2`, src/csphi.i 16).  Pointers into an array are the array
and an offset.  Every access is bounds checked (`cGet`, `cSet`); `malloc`ed memory has arbitrary content (`CJunk`),
different for every allocation.  `int` arithmetic is unbounded (32-bit version: CInt.lean); `SFLOAT` arithmetic is exact.
`free` is omitted (each buffer is freed once, at the end).
-/
namespace Verif

/-- Row-major content of a 2-D array, the buffer SWIG passes to C (src/csphi.i 16). -/
def Arr2.flat {α : Type} [Zero α] (A : Arr2 α) : List α := tab (A.rows * A.cols) fun p => A.at' (p / A.cols) (p % A.cols)

/-- The 2-D array with a given row-major buffer.
    The reverse of the SWIG typemap, src/csphi.i 16-22. -/
def unflat {α : Type} [Zero α] (r c : Nat) (l : List α) : Arr2 α := Arr2.ofFn r c fun i j => rd l (c * i + j)

/-- Arbitrary content of `malloc`ed memory: complex, real and int buffers; the first argument tells allocations
apart.
    `malloc` (C runtime) at src/csphi.c 336-348, 509-510. -/
structure CJunk where
  c : Int → Nat → ℂ
  r : Nat → ℝ
  i : Nat → Int

/-- `B(n,v)`, csphi.c 35. -/
noncomputable def cB (n v : ℝ) : ℝ := (n - v) * (n + v + 1.0)

/-- `ynnm(n, m)`, csphi.c 50-76. -/
noncomputable def cYnnm (n m : Int) : ℝ :=
  let a : ℝ := 1.0 / Real.sqrt (4.0 * Real.pi)
  let pm : Int := |m|
  if n < pm then 0
  else if n = 0 then a
  else
    let o := (pyRange 1 (n + 1)).foldl (fun (o : ℝ) (k : Int) => Real.sqrt ((2.0 * (k : ℝ) + 1) / (8.0 * k)) * o) a
    if n ≠ pm then
      (pyRangeNeg (n - 1) (pm - 1) 1).foldl
        (fun (o : ℝ) (k : Int) => Real.sqrt (1.0 * ((n : ℝ) + k + 1.0) / ((n : ℝ) - k)) * o) o
    else o

/-- Body of the recursion loop of `ynunm`, csphi.c 101-103. -/
noncomputable def cYnunmStep (en em : Int) (y : List ℝ) (k : Int) : Res (List ℝ) :=
  (cGet y (k + 2)).bind fun y2 => (cGet y (k + 4)).bind fun y4 =>
  cSet y k (((cB en (k + 1.0) + cB en (k + 2.0) - 4.0 * em * em) * y2 - cB en (k + 3.0) * y4) / cB en k)

/-- `ynunm(en, em, y, len)`, csphi.c 90-106: fills `y` in place. -/
noncomputable def cYnunm (en em : Int) (y : List ℝ) (len : Int) : Res (List ℝ) :=
  (forM' (pyRange 0 len) y (fun y k => cSet y k 0)).bind fun y =>
  if |em| ≤ en then
    (cSet y en (cYnnm en em)).bind fun y =>
    let k := en - 2
    if k ≥ 0 then
      (cGet y (k + 2)).bind fun y2 =>
      (cSet y k ((cB en (k + 1.0) + cB en (k + 2.0) - 4.0 * em * em) * y2 / cB en k)).bind fun y =>
      forM' (pyRangeNeg (k - 2) (-1) 2) y (cYnunmStep en em)
    else .ok y
  else .ok y

/-- The `while` loop of `FindQ`, csphi.c 122-135 (`none` = never ends); `%`, `/` are C's truncated operations. -/
def cFindQLoop (A Q : Int) : Option Int :=
  if A = 1 then some Q
  else if A.tmod 2 = 0 then cFindQLoop (A.tdiv 2) Q
  else if A.tmod 3 = 0 then cFindQLoop (A.tdiv 3) Q
  else if A.tmod 5 = 0 then cFindQLoop (A.tdiv 5) Q
  else cFindQLoop (Q + 1) (Q + 1)
partial_fixpoint

/-- `FindQ(S)`, csphi.c 116-138. -/
def cFindQ (S : Int) : Option Int := cFindQLoop S S

/-- `SData(s, Q, Nrows, Nmax)`, csphi.c 148-164. -/
noncomputable def cSData (s : List ℂ) (Q Nrows Nmax : Int) : Res (List ℂ) :=
  let nn := Nmax + 1
  (cMemset0 s Q).bind fun s =>
  let mm := Nrows.tdiv 2
  (forM' (pyRange mm (mm + nn)) s (fun s k =>
    if k.tmod 2 = 1 then (cGet s (k - mm)).bind fun z => cSet s (k - mm) ⟨z.re, -1 / (k : ℝ)⟩ else .ok s)).bind fun s =>
  forM' (pyRange (-mm) mm) s (fun s k =>
    if (|k|).tmod 2 = 1 then (cGet s (Q + k - mm)).bind fun z => cSet s (Q + k - mm) ⟨z.re, -1 / (k : ℝ)⟩ else .ok s)

/-- `hkm_fc`, csphi.c 186-232: fills `hkm` (`len` values) using the work array `ff`; returns `(hkm, ff)`. -/
noncomputable def cHkmFc (gcoef : List ℂ) (Nrow Ncol m : Int) (hkm : List ℂ) (len : Int) (ss : List ℂ) (Q : Int)
    (ff : List ℂ) (fw bw : KissCfg) (J : CJunk) : Res (List ℂ × List ℂ) :=
  (cMemset0 ff Q).bind fun ff =>
  (cMemset0 hkm len).bind fun hkm =>
  let ind := if m ≥ 0 then m else Ncol + m
  let mm := Nrow.tdiv 2
  (forM' (pyRange 0 mm) ff (fun ff k =>
    (cGet gcoef (Ncol * (mm + k) + ind)).bind fun a =>
    (cSet ff k a).bind fun ff =>
    (cGet gcoef (Ncol * k + ind)).bind fun b =>
    cSet ff (mm + k) b)).bind fun ff =>
  (kissFft fw ff (J.c (4 * m + 1))).bind fun ff =>
  (forM' (pyRange 0 Q) ff (fun ff k =>
    (cGet ff k).bind fun f => (cGet ss k).bind fun s =>
    cSet ff k ⟨s.re * f.re - s.im * f.im, s.re * f.im + s.im * f.re⟩)).bind fun ff =>
  (kissFft bw ff (J.c (4 * m + 2))).bind fun ff =>
  (forM' (pyRange 0 len) hkm (fun hkm k =>
    (cGet ff k).bind fun f =>
    cSet hkm k ⟨4.0 * Real.pi * f.re / Q, 4.0 * Real.pi * f.im / Q⟩)).bind fun hkm =>
  .ok (hkm, ff)

/-- `pow(-1.0, e)` for an `int` exponent.
    C runtime; src/csphi.c 294-300, 460-466, 474. -/
noncomputable def cPowNegOne (e : Int) : ℝ := (-1 : ℝ) ^ e

/-- `i**(-m) * v` as `bnm_fc` computes it, csphi.c 291-301. -/
noncomputable def cMulIPowNeg (m : Int) (v : ℂ) : ℂ :=
  if (|m|).tmod 2 = 1 then
    ⟨cPowNegOne ((m - 1).tdiv 2) * v.im, -cPowNegOne ((m - 1).tdiv 2) * v.re⟩
  else ⟨cPowNegOne (m.tdiv 2) * v.re, cPowNegOne (m.tdiv 2) * v.im⟩

/-- Body of the `n` loop of `bnm_fc`, csphi.c 276-302; `vec` is `sc` at offset `off`; state `(sc, y)`. -/
noncomputable def cBnmBody (m : Int) (off : Int) (hkm : List ℂ) (Ly : Int) (st : List ℂ × List ℝ) (n : Int) :
    Res (List ℂ × List ℝ) :=
  (cYnunm n m st.2 Ly).bind fun y =>
  let p := off + (n - |m|)
  (cGet hkm 0).bind fun h0 => (cGet y 0).bind fun y0 =>
  (cSet st.1 p ⟨h0.re * y0, h0.im * y0⟩).bind fun sc =>
  (forM' (pyRange 1 (n + 1)) sc (fun sc k =>
    (cGet sc p).bind fun v => (cGet hkm k).bind fun h => (cGet y k).bind fun yk =>
    cSet sc p ⟨v.re + 2.0 * h.re * yk, v.im + 2.0 * h.im * yk⟩)).bind fun sc =>
  (cGet sc p).bind fun v =>
  (cSet sc p (cMulIPowNeg m v)).bind fun sc =>
  .ok (sc, y)

/-- Work arrays of `fc_to_sc`: the output `sc` and `hkm`, `ff`, `y`.
    src/csphi.c 336-348. -/
structure CWork where
  sc : List ℂ
  hkm : List ℂ
  ff : List ℂ
  y : List ℝ

/-- `bnm_fc`, csphi.c 254-303. -/
noncomputable def cBnmFc (fdata : List ℂ) (Nrow Ncol Nmax m off : Int) (ss : List ℂ) (Q Lhkm Ly : Int)
    (fw bw : KissCfg) (J : CJunk) (w : CWork) : Res CWork :=
  (cHkmFc fdata Nrow Ncol m w.hkm Lhkm ss Q w.ff fw bw J).bind fun hf =>
  (forM' (pyRange |m| (Nmax + 1)) (w.sc, w.y) (cBnmBody m off hf.1 Ly)).bind fun sy =>
  .ok ⟨sy.1, hf.1, hf.2, sy.2⟩

/-- The index set-up loop of `fc_to_sc` and `sc_to_fc`, csphi.c 352-361, 513-522; state `(inds, N, QQ)`. -/
def cInds (Nmax Mmax : Int) (inds : List Int) : Res (List Int) :=
  (cSet inds 0 0).bind fun inds =>
  (forM' (pyRange 1 (Mmax + 1)) (inds, Nmax + 1, Nmax) (fun (s : List Int × Int × Int) m =>
    (cSet s.1 (2 * m - 1) s.2.1).bind fun inds =>
    let N := s.2.1 + s.2.2
    (cSet inds (2 * m) N).bind fun inds =>
    .ok (inds, N + s.2.2, s.2.2 - 1))).bind fun s => .ok s.1

/-- `fc_to_sc(fdata, Nrow, Ncol, sc, L, Nmax, Mmax)`, csphi.c 317-408: the final content of `sc`. -/
noncomputable def cFcToSc (fdata : List ℂ) (Nrow Ncol : Int) (sc : List ℂ) (Nmax Mmax : Int) (J : CJunk) :
    Res (List ℂ) :=
  (orDiverge (cFindQ (Nrow + Nmax))).bind fun Q =>
  (cMalloc Q (J.c (-1))).bind fun s =>
  (cSData s Q Nrow Nmax).bind fun s =>
  (kissAlloc Q false).bind fun fw =>
  (kissAlloc Q true).bind fun bw =>
  (kissFft fw s (J.c (-5))).bind fun s =>
  (cMalloc (Nmax + 1) (J.c (-9))).bind fun hkm =>
  (cMalloc (Nmax + 1) J.r).bind fun y =>
  (cMalloc Q (J.c (-13))).bind fun ff =>
  (cMalloc (2 * Mmax + 1) J.i).bind fun inds =>
  (cMemset0 inds (2 * Mmax + 1)).bind fun inds =>
  (cInds Nmax Mmax inds).bind fun inds =>
  (cBnmFc fdata Nrow Ncol Nmax 0 0 s Q (Nmax + 1) (Nmax + 1) fw bw J ⟨sc, hkm, ff, y⟩).bind fun w =>
  (forM' (pyRange 1 (Mmax + 1)) w (fun w m =>
    (cGet inds (2 * m - 1)).bind fun o1 =>
    (cBnmFc fdata Nrow Ncol Nmax (-m) o1 s Q (Nmax + 1) (Nmax + 1) fw bw J w).bind fun w =>
    (cGet inds (2 * m)).bind fun o2 =>
    cBnmFc fdata Nrow Ncol Nmax m o2 s Q (Nmax + 1) (Nmax + 1) fw bw J w)).bind fun w =>
  .ok w.sc

/-- `i**m * v` as `fcvec_m_sc` computes it, csphi.c 456-467. -/
noncomputable def cMulIPow (m : Int) (v : ℂ) : ℂ :=
  if (|m|).tmod 2 = 1 then
    ⟨-cPowNegOne ((m - 1).tdiv 2) * v.im, cPowNegOne ((m - 1).tdiv 2) * v.re⟩
  else ⟨cPowNegOne (m.tdiv 2) * v.re, cPowNegOne (m.tdiv 2) * v.im⟩

/-- Body of the accumulation loop of `fcvec_m_sc`, csphi.c 436-449; state `(fdata, y)`. -/
noncomputable def cFcvecAcc (sc : List ℂ) (off m Nmax Ncol M len : Int) (st : List ℂ × List ℝ) (n : Int) :
    Res (List ℂ × List ℝ) :=
  (cYnunm n m st.2 len).bind fun y =>
  (forM' (pyRange 0 (Nmax + 1)) st.1 (fun F k =>
    (cGet F (k * Ncol + M)).bind fun t =>
    (cGet sc (off + (n - |m|))).bind fun v =>
    (cGet y k).bind fun yk =>
    cSet F (k * Ncol + M) ⟨t.re + v.re * yk, t.im + v.im * yk⟩)).bind fun F =>
  .ok (F, y)

/-- `fcvec_m_sc(vec, m, Nmax, fdata, Nrow, Ncol, M, y, len)`, csphi.c 423-486; `vec` is `sc` at offset `off`. -/
noncomputable def cFcvecMSc (sc : List ℂ) (off m Nmax Nrow Ncol M len : Int) (st : List ℂ × List ℝ) :
    Res (List ℂ × List ℝ) :=
  (forM' (pyRange |m| (Nmax + 1)) st (cFcvecAcc sc off m Nmax Ncol M len)).bind fun st =>
  (forM' (pyRange 0 (Nmax + 1)) st.1 (fun F k =>
    (cGet F (k * Ncol + M)).bind fun t => cSet F (k * Ncol + M) (cMulIPow m t))).bind fun F =>
  let mm : ℝ := (-1 : ℝ) ^ m
  let H := if Nrow.tmod 2 = 0 then Nrow.tdiv 2 - 1 else (Nrow - 1).tdiv 2
  (forM' (pyRange 0 H) F (fun F k =>
    (cGet F (Ncol * (k + 1) + M)).bind fun t =>
    cSet F (Ncol * (Nrow - 1 - k) + M) ⟨mm * t.re, mm * t.im⟩)).bind fun F =>
  .ok (F, st.2)

/-- `sc_to_fc(fdata, Nrow, Ncol, sc, L, Nmax, Mmax)`, csphi.c 499-552: the final content of `fdata`. -/
noncomputable def cScToFc (fdata : List ℂ) (Nrow Ncol : Int) (sc : List ℂ) (Nmax Mmax : Int) (J : CJunk) :
    Res (List ℂ) :=
  (cMalloc (Nmax + 1) J.r).bind fun y =>
  (cMalloc (2 * Mmax + 1) J.i).bind fun inds =>
  (cMemset0 inds (2 * Mmax + 1)).bind fun inds =>
  (cInds Nmax Mmax inds).bind fun inds =>
  (forM' (pyRange 0 (Ncol.tdiv 2 + 1)) (fdata, y) (fun st k =>
    if k < Mmax then
      (cGet inds (2 * k)).bind fun o1 =>
      (cFcvecMSc sc o1 k Nmax Nrow Ncol k (Nmax + 1) st).bind fun st =>
      (cGet inds (2 * (k + 1) - 1)).bind fun o2 =>
      cFcvecMSc sc o2 (-(k + 1)) Nmax Nrow Ncol (Ncol - 1 - k) (Nmax + 1) st
    else if k = Mmax then
      (cGet inds (2 * k)).bind fun o =>
      cFcvecMSc sc o k Nmax Nrow Ncol k (Nmax + 1) st
    else .ok st)).bind fun st => .ok st.1

end Verif
