import Verif.Transforms
/-!
# 32-bit `int` arithmetic in src/csphi.c

The routines of csphi.c with every value of an `int` expression checked to lie in the range of a 32-bit signed integer; leaving it is undefined behaviour.
Each function is the one of CSphi.lean preceded, at every statement, by `cks` on the `int` expressions the statement evaluates (loop variables after their
increment included).  Not `int` arithmetic, hence not checked: pointer arithmetic (`y + k + 2`, `sc + inds[2*k]`), `Q*sizeof(...)` (`size_t`), expressions
with a double operand.  kiss_fft.c is not re-modelled: its products are of type `size_t` or bounded by `nfft`.
-/
namespace Verif

/-- The range of a 32-bit `int`.  C runtime; `int` in src/csphi.c. -/
def InInt (x : Int) : Prop := -2147483648 ≤ x ∧ x ≤ 2147483647

instance (x : Int) : Decidable (InInt x) := by unfold InInt; infer_instance

/-- The values of the `int` expressions of one statement.  C runtime; src/csphi.c. -/
def cks (l : List Int) : Res Unit := if ∀ x ∈ l, InInt x then .ok () else .error ⟨.undefinedBehaviour, "signed overflow"⟩

noncomputable section

/-- `ynnm(n, m)`, csphi.c 50-76 (the `double` value is that of `cYnnm`). -/
def xYnnm (n m : Int) : Res ℝ :=
  (cks [|m|]).bind fun _ =>
  (if n < |m| ∨ n = 0 then .ok ()
  else
    (forM' (pyRange 1 (n + 1)) () fun _ k => cks [k + 1]).bind fun _ =>
    if n ≠ |m| then
      (cks [n - 1]).bind fun _ => forM' (pyRangeNeg (n - 1) (|m| - 1) 1) () fun _ k => cks [n + k, n - k, k - 1]
    else .ok ()).bind fun _ => .ok (cYnnm n m)

/-- Body of the recursion loop of `ynunm`, csphi.c 101-103. -/
def xYnunmStep (en em : Int) (y : List ℝ) (k : Int) : Res (List ℝ) :=
  (cks [en - k, en + k, k - 2]).bind fun _ => cYnunmStep en em y k

/-- `ynunm(en, em, y, len)`, csphi.c 90-106. -/
def xYnunm (en em : Int) (y : List ℝ) (len : Int) : Res (List ℝ) :=
  (forM' (pyRange 0 len) y (fun y k => (cks [k + 1]).bind fun _ => cSet y k 0)).bind fun y =>
  (cks [|em|]).bind fun _ =>
  if |em| ≤ en then
    (xYnnm en em).bind fun v =>
    (cSet y en v).bind fun y =>
    (cks [en - 2]).bind fun _ =>
    let k := en - 2
    if k ≥ 0 then
      (cGet y (k + 2)).bind fun y2 =>
      (cks [en - k, en + k, k - 2]).bind fun _ =>
      (cSet y k ((cB en (k + 1.0) + cB en (k + 2.0) - 4.0 * em * em) * y2 / cB en k)).bind fun y =>
      forM' (pyRangeNeg (k - 2) (-1) 2) y (xYnunmStep en em)
    else .ok y
  else .ok y

/-- `FindQ(S)`, csphi.c 116-138.  `Q` only grows, by 1 at a time, and `A ≤ Q`: an overflow on the way is the same as a final value out of range. -/
def xFindQ (S : Int) : Res Int :=
  (cks [S]).bind fun _ => (orDiverge (cFindQ S)).bind fun Q => (cks [Q]).bind fun _ => .ok Q

/-- `SData(s, Q, Nrows, Nmax)`, csphi.c 148-164. -/
def xSData (s : List ℂ) (Q Nrows Nmax : Int) : Res (List ℂ) :=
  (cks [Nmax + 1]).bind fun _ =>
  let nn := Nmax + 1
  (cMemset0 s Q).bind fun s =>
  let mm := Nrows.tdiv 2
  (cks [mm + nn, mm + nn - 1, -mm]).bind fun _ =>
  (forM' (pyRange mm (mm + nn)) s (fun s k =>
    (cks [k - mm, k + 1]).bind fun _ =>
    if k.tmod 2 = 1 then (cGet s (k - mm)).bind fun z => cSet s (k - mm) ⟨z.re, -1 / (k : ℝ)⟩ else .ok s)).bind fun s =>
  forM' (pyRange (-mm) mm) s (fun s k =>
    (cks [|k|, Q + k, Q + k - mm, k + 1]).bind fun _ =>
    if (|k|).tmod 2 = 1 then (cGet s (Q + k - mm)).bind fun z => cSet s (Q + k - mm) ⟨z.re, -1 / (k : ℝ)⟩ else .ok s)

/-- `hkm_fc`, csphi.c 186-232. -/
def xHkmFc (gcoef : List ℂ) (Nrow Ncol m : Int) (hkm : List ℂ) (len : Int) (ss : List ℂ) (Q : Int)
    (ff : List ℂ) (fw bw : KissCfg) (J : CJunk) : Res (List ℂ × List ℂ) :=
  (cMemset0 ff Q).bind fun ff =>
  (cMemset0 hkm len).bind fun hkm =>
  let ind := if m ≥ 0 then m else Ncol + m
  (cks [ind]).bind fun _ =>
  let mm := Nrow.tdiv 2
  (forM' (pyRange 0 mm) ff (fun ff k =>
    (cks [mm + k, Ncol * (mm + k), Ncol * (mm + k) + ind, Ncol * k, Ncol * k + ind, k + 1]).bind fun _ =>
    (cGet gcoef (Ncol * (mm + k) + ind)).bind fun a =>
    (cSet ff k a).bind fun ff =>
    (cGet gcoef (Ncol * k + ind)).bind fun b =>
    cSet ff (mm + k) b)).bind fun ff =>
  (kissFft fw ff (J.c (4 * m + 1))).bind fun ff =>
  (forM' (pyRange 0 Q) ff (fun ff k =>
    (cks [k + 1]).bind fun _ =>
    (cGet ff k).bind fun f => (cGet ss k).bind fun s =>
    cSet ff k ⟨s.re * f.re - s.im * f.im, s.re * f.im + s.im * f.re⟩)).bind fun ff =>
  (kissFft bw ff (J.c (4 * m + 2))).bind fun ff =>
  (forM' (pyRange 0 len) hkm (fun hkm k =>
    (cks [k + 1]).bind fun _ =>
    (cGet ff k).bind fun f =>
    cSet hkm k ⟨4.0 * Real.pi * f.re / Q, 4.0 * Real.pi * f.im / Q⟩)).bind fun hkm =>
  .ok (hkm, ff)

/-- Body of the `n` loop of `bnm_fc`, csphi.c 276-302. -/
def xBnmBody (m : Int) (off : Int) (hkm : List ℂ) (Ly : Int) (st : List ℂ × List ℝ) (n : Int) :
    Res (List ℂ × List ℝ) :=
  (xYnunm n m st.2 Ly).bind fun y =>
  (cks [n - |m|, n + 1, m - 1]).bind fun _ =>
  let p := off + (n - |m|)
  (cGet hkm 0).bind fun h0 => (cGet y 0).bind fun y0 =>
  (cSet st.1 p ⟨h0.re * y0, h0.im * y0⟩).bind fun sc =>
  (forM' (pyRange 1 (n + 1)) sc (fun sc k =>
    (cks [k + 1]).bind fun _ =>
    (cGet sc p).bind fun v => (cGet hkm k).bind fun h => (cGet y k).bind fun yk =>
    cSet sc p ⟨v.re + 2.0 * h.re * yk, v.im + 2.0 * h.im * yk⟩)).bind fun sc =>
  (cGet sc p).bind fun v =>
  (cSet sc p (cMulIPowNeg m v)).bind fun sc =>
  .ok (sc, y)

/-- `bnm_fc`, csphi.c 254-303. -/
def xBnmFc (fdata : List ℂ) (Nrow Ncol Nmax m off : Int) (ss : List ℂ) (Q Lhkm Ly : Int)
    (fw bw : KissCfg) (J : CJunk) (w : CWork) : Res CWork :=
  (cks [|m|]).bind fun _ =>
  (xHkmFc fdata Nrow Ncol m w.hkm Lhkm ss Q w.ff fw bw J).bind fun hf =>
  (forM' (pyRange |m| (Nmax + 1)) (w.sc, w.y) (xBnmBody m off hf.1 Ly)).bind fun sy =>
  .ok ⟨sy.1, hf.1, hf.2, sy.2⟩

/-- The index set-up loop of `fc_to_sc` and `sc_to_fc`, csphi.c 352-361, 513-522. -/
def xInds (Nmax Mmax : Int) (inds : List Int) : Res (List Int) :=
  (cSet inds 0 0).bind fun inds =>
  (forM' (pyRange 1 (Mmax + 1)) (inds, Nmax + 1, Nmax) (fun (s : List Int × Int × Int) m =>
    (cks [2 * m, 2 * m - 1, s.2.1 + s.2.2, s.2.1 + s.2.2 + s.2.2, s.2.2 - 1, m + 1]).bind fun _ =>
    (cSet s.1 (2 * m - 1) s.2.1).bind fun inds =>
    let N := s.2.1 + s.2.2
    (cSet inds (2 * m) N).bind fun inds =>
    .ok (inds, N + s.2.2, s.2.2 - 1))).bind fun s => .ok s.1

/-- `fc_to_sc(fdata, Nrow, Ncol, sc, L, Nmax, Mmax)`, csphi.c 317-408. -/
def xFcToSc (fdata : List ℂ) (Nrow Ncol : Int) (sc : List ℂ) (Nmax Mmax : Int) (J : CJunk) :
    Res (List ℂ) :=
  (cks [Nmax + 1, Nrow + Nmax, 2 * Mmax, 2 * Mmax + 1]).bind fun _ =>
  (xFindQ (Nrow + Nmax)).bind fun Q =>
  (cMalloc Q (J.c (-1))).bind fun s =>
  (xSData s Q Nrow Nmax).bind fun s =>
  (kissAlloc Q false).bind fun fw =>
  (kissAlloc Q true).bind fun bw =>
  (kissFft fw s (J.c (-5))).bind fun s =>
  (cMalloc (Nmax + 1) (J.c (-9))).bind fun hkm =>
  (cMalloc (Nmax + 1) J.r).bind fun y =>
  (cMalloc Q (J.c (-13))).bind fun ff =>
  (cMalloc (2 * Mmax + 1) J.i).bind fun inds =>
  (cMemset0 inds (2 * Mmax + 1)).bind fun inds =>
  (xInds Nmax Mmax inds).bind fun inds =>
  (xBnmFc fdata Nrow Ncol Nmax 0 0 s Q (Nmax + 1) (Nmax + 1) fw bw J ⟨sc, hkm, ff, y⟩).bind fun w =>
  (forM' (pyRange 1 (Mmax + 1)) w (fun w m =>
    (cks [2 * m, 2 * m - 1, -m, |m|, Nmax - |m|, Nmax - |m| + 1, m + 1]).bind fun _ =>
    (cGet inds (2 * m - 1)).bind fun o1 =>
    (xBnmFc fdata Nrow Ncol Nmax (-m) o1 s Q (Nmax + 1) (Nmax + 1) fw bw J w).bind fun w =>
    (cGet inds (2 * m)).bind fun o2 =>
    xBnmFc fdata Nrow Ncol Nmax m o2 s Q (Nmax + 1) (Nmax + 1) fw bw J w)).bind fun w =>
  .ok w.sc

/-- Body of the accumulation loop of `fcvec_m_sc`, csphi.c 436-449. -/
def xFcvecAcc (sc : List ℂ) (off m Nmax Ncol M len : Int) (st : List ℂ × List ℝ) (n : Int) :
    Res (List ℂ × List ℝ) :=
  (cks [n - |m|, n + 1]).bind fun _ =>
  (xYnunm n m st.2 len).bind fun y =>
  (forM' (pyRange 0 (Nmax + 1)) st.1 (fun F k =>
    (cks [k * Ncol, k + 1]).bind fun _ =>
    (cGet F (k * Ncol + M)).bind fun t =>
    (cGet sc (off + (n - |m|))).bind fun v =>
    (cGet y k).bind fun yk =>
    cSet F (k * Ncol + M) ⟨t.re + v.re * yk, t.im + v.im * yk⟩)).bind fun F =>
  .ok (F, y)

/-- `fcvec_m_sc(vec, m, Nmax, fdata, Nrow, Ncol, M, y, len)`, csphi.c 423-486. -/
def xFcvecMSc (sc : List ℂ) (off m Nmax Nrow Ncol M len : Int) (st : List ℂ × List ℝ) :
    Res (List ℂ × List ℝ) :=
  (cks [Nmax + 1, |m|, m - 1, Nrow.tdiv 2 - 1, Nrow - 1]).bind fun _ =>
  (forM' (pyRange |m| (Nmax + 1)) st (xFcvecAcc sc off m Nmax Ncol M len)).bind fun st =>
  (forM' (pyRange 0 (Nmax + 1)) st.1 (fun F k =>
    (cks [k * Ncol, k + 1]).bind fun _ =>
    (cGet F (k * Ncol + M)).bind fun t => cSet F (k * Ncol + M) (cMulIPow m t))).bind fun F =>
  let mm : ℝ := (-1 : ℝ) ^ m
  let H := if Nrow.tmod 2 = 0 then Nrow.tdiv 2 - 1 else (Nrow - 1).tdiv 2
  (forM' (pyRange 0 H) F (fun F k =>
    (cks [Nrow - 1 - k, Ncol * (Nrow - 1 - k), Ncol * (Nrow - 1 - k) + M, k + 1, Ncol * (k + 1), Ncol * (k + 1) + M]).bind fun _ =>
    (cGet F (Ncol * (k + 1) + M)).bind fun t =>
    cSet F (Ncol * (Nrow - 1 - k) + M) ⟨mm * t.re, mm * t.im⟩)).bind fun F =>
  .ok (F, st.2)

/-- `sc_to_fc(fdata, Nrow, Ncol, sc, L, Nmax, Mmax)`, csphi.c 499-552. -/
def xScToFc (fdata : List ℂ) (Nrow Ncol : Int) (sc : List ℂ) (Nmax Mmax : Int) (J : CJunk) :
    Res (List ℂ) :=
  (cks [Nmax + 1, 2 * Mmax, 2 * Mmax + 1]).bind fun _ =>
  (cMalloc (Nmax + 1) J.r).bind fun y =>
  (cMalloc (2 * Mmax + 1) J.i).bind fun inds =>
  (cMemset0 inds (2 * Mmax + 1)).bind fun inds =>
  (xInds Nmax Mmax inds).bind fun inds =>
  (forM' (pyRange 0 (Ncol.tdiv 2 + 1)) (fdata, y) (fun st k =>
    (cks [k + 1]).bind fun _ =>
    if k < Mmax then
      (cks [2 * k, 2 * (k + 1), 2 * (k + 1) - 1, -(k + 1), Ncol - 1, Ncol - 1 - k]).bind fun _ =>
      (cGet inds (2 * k)).bind fun o1 =>
      (xFcvecMSc sc o1 k Nmax Nrow Ncol k (Nmax + 1) st).bind fun st =>
      (cGet inds (2 * (k + 1) - 1)).bind fun o2 =>
      xFcvecMSc sc o2 (-(k + 1)) Nmax Nrow Ncol (Ncol - 1 - k) (Nmax + 1) st
    else if k = Mmax then
      (cks [2 * k]).bind fun _ =>
      (cGet inds (2 * k)).bind fun o =>
      xFcvecMSc sc o k Nmax Nrow Ncol k (Nmax + 1) st
    else .ok st)).bind fun st => .ok st.1

/-- `csphi.fc_to_sc` called as in spherepy.py 1892-1896, 1943-1950, with 32-bit `int`s: the dimensions of the array must fit (numpy.i
casts them; a dimension that does not fit is reported as undefined behaviour too). -/
def xBackendFcToSc (J : Nat → CJunk) (call : Nat) (f : Arr2 ℂ) (nmax mmax : Int) : Res (List ℂ) :=
  (npFull (ncFormula nmax mmax) (0 : ℂ)).bind fun sc =>
  (cks [(f.rows : Int), (f.cols : Int), (sc.length : Int)]).bind fun _ => xFcToSc f.flat f.rows f.cols sc nmax mmax (J call)

/-- `csphi.sc_to_fc` called as in spherepy.py 2066-2070, 2113-2119, with 32-bit `int`s. -/
def xBackendScToFc (J : Nat → CJunk) (call : Nat) (vec : List ℂ) (nmax mmax dnrows ncols : Int) : Res (Arr2 ℂ) :=
  (npZeros2 dnrows ncols).bind fun z =>
  (cks [(z.rows : Int), (z.cols : Int), (vec.length : Int)]).bind fun _ =>
  (xScToFc z.flat z.rows z.cols vec nmax mmax (J call)).bind fun l =>
  .ok (unflat z.rows z.cols l)

/-- `spht` with the C extension, spherepy.py 1831-1900, with 32-bit `int`s in C. -/
def xSpht (J : Nat → CJunk) (p : SPatt ℂ) (nmax mmax : Option Int) : Res (ScalarCoefs ℂ) :=
  (sphtArgs p.nrows p.ncols nmax mmax).bind fun (n, m) =>
  (sphtGuards p.nrows p.ncols n m).bind fun _ =>
  p.dsphere.bind fun ds =>
  (extFourier ds).bind fun f =>
  (sinFc f).bind fun f =>
  (npFull (ncFormula n m) (0 : ℂ)).bind fun _ =>
  (xBackendFcToSc J 0 f n m).bind fun sc =>
  ScalarCoefs.init (.arr sc) n m

/-- `vspht` with the C extension, spherepy.py 1902-1966, with 32-bit `int`s in C. -/
def xVspht (J : Nat → CJunk) (p : TPatt ℂ) (nmax mmax : Option Int) : Res (VectorCoefs ℂ) :=
  (sphtArgs (.ok p.nrows) (.ok p.ncols) nmax mmax).bind fun (n, m) =>
  (sphtGuards (.ok p.nrows) (.ok p.ncols) n m).bind fun _ =>
  (extFourier p.td).bind fun ft =>
  (vspht.extFourier' p.td p.pd).bind fun pt =>
  (sinLdotFc ft pt).bind fun l1 =>
  (sinLdotFc (pt.map fun x => -Complex.I * x) (ft.map fun x => Complex.I * x)).bind fun l2 =>
  (xBackendFcToSc J 0 l1 n m).bind fun sc1 =>
  (xBackendFcToSc J 1 l2 n m).bind fun sc2 =>
  (VectorCoefs.init (.arr sc1) (.arr sc2) n m).bind fun vc =>
  (nvec n).bind fun w =>
  (vc.scoef1.windowed w).bind fun s1 =>
  (vc.scoef2.windowed w).bind fun s2 =>
  .ok { vc with scoef1 := s1, scoef2 := s2 }

/-- `ispht` with the C extension, spherepy.py 2020-2079, with 32-bit `int`s in C. -/
def xIspht (J : Nat → CJunk) (c : ScalarCoefs ℂ) (nrows ncols : Option Int) : Res (SPatt ℂ) :=
  let nr := nrows.getD (c.nmax + 2)
  let nc := ncols.getD (2 * c.mmax + 2)
  (isphtGuards c.nmax c.mmax nr nc).bind fun _ =>
  let dn := 2 * nr - 2
  (xBackendScToFc J 0 c.vec c.nmax c.mmax dn nc).bind fun f =>
  (invFourier f dn nc).bind fun ds =>
  SPatt.init (.arr ds) true

/-- `vispht` with the C extension, spherepy.py 2081-2139, with 32-bit `int`s in C. -/
def xVispht (J : Nat → CJunk) (c : VectorCoefs ℂ) (nrows ncols : Option Int) : Res (TPatt ℂ) :=
  let nr := nrows.getD (c.nmax + 2)
  let nc := ncols.getD (2 * c.mmax + 2)
  (visphtGuards c.nmax c.mmax nr nc).bind fun _ =>
  let dn := 2 * nr - 2
  (nvec c.nmax).bind fun w =>
  c.scoef1.copy.bind fun s1 =>
  c.scoef2.copy.bind fun s2 =>
  (s1.windowed w).bind fun s1 =>
  (s2.windowed w).bind fun s2 =>
  (xBackendScToFc J 0 s1.vec s1.nmax s1.mmax dn nc).bind fun f1 =>
  (xBackendScToFc J 1 s2.vec s1.nmax s1.mmax dn nc).bind fun f2 =>
  (lFc f1).bind fun l1 =>
  (lFc f2).bind fun l2 =>
  let ftheta := l1.1.zip (fun a b => a - Complex.I * b) l2.2
  let fphi := l1.2.zip (fun a b => a + Complex.I * b) l2.1
  (invFourier ftheta dn nc).bind fun dt =>
  (invFourier fphi dn nc).bind fun dp =>
  TPatt.init (.arr dt) (.arr dp) true

end
end Verif
