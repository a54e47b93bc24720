import Verif.NanX
import Verif.FloatKiss
/-!
# Not-a-number through the compiled extension

kiss_fft (src/kiss_fft.c) and `fc_to_sc`, `sc_to_fc` of src/csphi.c with `spht` and `ispht` above them, in IEEE arithmetic with infinities, NaN and signed zeros
(`IE`).  The tables that do not depend on the data (twiddle factors, the values of `SData` and `ynunm`, the scale factor) are the rounded values of FloatKiss.lean / FloatYnm.lean
converted with `IE.lit`, so the sign of a zero in them is not represented.  Fresh memory has any content (also NaN).  Index arithmetic and memory as in Kiss.lean and
CSphi.lean; C is assumed to evaluate doubles as doubles.
-/
namespace Verif
namespace NX

/-- Arbitrary content of `malloc`ed memory, as `CJunk`, with any double in the complex buffers.
    `malloc` (C runtime) at src/csphi.c 336-348, 509-510. -/
structure JunkX where
  c : Int → Nat → CX
  r : Nat → ℝ
  i : Nat → Int

/-- `struct kiss_fft_state`, guts.h 29-34. -/
structure KissCfg where
  nfft : Int
  inverse : Bool
  factors : List Int
  twiddles : List CX

noncomputable section
variable (rnd : ℝ → ℝ)

/-- `kiss_fft_alloc(nfft, inverse_fft, 0, 0)`, kiss_fft.c 329-361: the twiddle factors are finite doubles. -/
def kissAlloc (lm : Fl.LibM) (nfft : Int) (inverse : Bool) : Res KissCfg :=
  if nfft < 1 then cUB
  else
    match kfFactor nfft with
    | none => .error ⟨.nonTermination, "kf_factor"⟩
    | some r => r.bind fun fac => .ok ⟨nfft, inverse, fac, tab nfft.toNat fun i => litC (Fl.kissTw rnd lm nfft inverse i)⟩

/-- Loop body of `kf_bfly2`, kiss_fft.c 33-42. -/
def kfBfly2Body (tw : List CX) (fo fstride m : Int) (F : List CX) (u : Int) : Res (List CX) :=
  (cGet F (fo + m + u)).bind fun f2 =>
  (cGet tw (u * fstride)).bind fun w =>
  let t := IE.cmul rnd f2 w
  (cGet F (fo + u)).bind fun f =>
  (cSet F (fo + m + u) (csub rnd f t)).bind fun F =>
  cSet F (fo + u) (IE.cadd rnd f t)

/-- `⟨a.r + b.i, a.i - b.r⟩`, kiss_fft.c 83-88, 125-131. -/
def subI (a b : CX) : CX := (IE.add rnd a.1 b.2, IE.sub rnd a.2 b.1)

/-- `⟨a.r - b.i, a.i + b.r⟩`, kiss_fft.c 78-82, 125-131. -/
def addI (a b : CX) : CX := (IE.sub rnd a.1 b.2, IE.add rnd a.2 b.1)

/-- The four results of one iteration of `kf_bfly4`, kiss_fft.c 65-88. -/
def kfOut4 (inverse : Bool) (f a1 w1 a2 w2 a3 w3 : CX) : CX × CX × CX × CX :=
  let s0 := IE.cmul rnd a1 w1
  let s1 := IE.cmul rnd a2 w2
  let s2 := IE.cmul rnd a3 w3
  let s5 := csub rnd f s1
  let f := IE.cadd rnd f s1
  let s3 := IE.cadd rnd s0 s2
  let s4 := csub rnd s0 s2
  let o2 := csub rnd f s3
  let o0 := IE.cadd rnd f s3
  if inverse then (o0, addI rnd s5 s4, o2, subI rnd s5 s4) else (o0, subI rnd s5 s4, o2, addI rnd s5 s4)

/-- Loop body of `kf_bfly4`, kiss_fft.c 61-91. -/
def kfBfly4Body (tw : List CX) (inverse : Bool) (fo fstride m : Int) (F : List CX) (u : Int) : Res (List CX) :=
  let m2 := 2 * m
  let m3 := 3 * m
  (cGet F (fo + u + m)).bind fun a1 => (cGet tw (u * fstride)).bind fun w1 =>
  (cGet F (fo + u + m2)).bind fun a2 => (cGet tw (u * (fstride * 2))).bind fun w2 =>
  (cGet F (fo + u + m3)).bind fun a3 => (cGet tw (u * (fstride * 3))).bind fun w3 =>
  (cGet F (fo + u)).bind fun f =>
  let o := kfOut4 rnd inverse f a1 w1 a2 w2 a3 w3
  (cSet F (fo + u + m2) o.2.2.1).bind fun F =>
  (cSet F (fo + u) o.1).bind fun F =>
  (cSet F (fo + u + m) o.2.1).bind fun F =>
  cSet F (fo + u + m3) o.2.2.2

/-- The three results of one iteration of `kf_bfly3`, kiss_fft.c 113-131. -/
def kfOut3 (epi3 f a1 w1 a2 w2 : CX) : CX × CX × CX :=
  let s1 := IE.cmul rnd a1 w1
  let s2 := IE.cmul rnd a2 w2
  let s3 := IE.cadd rnd s1 s2
  let s0 := csub rnd s1 s2
  let fm : CX := (IE.sub rnd f.1 (IE.mul rnd s3.1 (.fin 0.5)), IE.sub rnd f.2 (IE.mul rnd s3.2 (.fin 0.5)))
  let s0 : CX := (IE.mul rnd s0.1 epi3.2, IE.mul rnd s0.2 epi3.2)
  (IE.cadd rnd f s3, addI rnd fm s0, subI rnd fm s0)

/-- Loop body of `kf_bfly3`, kiss_fft.c 110-134. -/
def kfBfly3Body (tw : List CX) (epi3 : CX) (fo fstride m : Int) (F : List CX) (u : Int) : Res (List CX) :=
  let m2 := 2 * m
  (cGet F (fo + u + m)).bind fun a1 => (cGet tw (u * fstride)).bind fun w1 =>
  (cGet F (fo + u + m2)).bind fun a2 => (cGet tw (u * (fstride * 2))).bind fun w2 =>
  (cGet F (fo + u)).bind fun f =>
  let o := kfOut3 rnd epi3 f a1 w1 a2 w2
  (cSet F (fo + u) o.1).bind fun F =>
  (cSet F (fo + u + m2) o.2.2).bind fun F =>
  cSet F (fo + u + m) o.2.1

/-- The five results of one iteration of `kf_bfly5`, kiss_fft.c 163-193. -/
def kfOut5 (ya yb s0 a1 w1 a2 w2 a3 w3 a4 w4 : CX) : CX × CX × CX × CX × CX :=
  let s1 := IE.cmul rnd a1 w1
  let s2 := IE.cmul rnd a2 w2
  let s3 := IE.cmul rnd a3 w3
  let s4 := IE.cmul rnd a4 w4
  let s7 := IE.cadd rnd s1 s4
  let s10 := csub rnd s1 s4
  let s8 := IE.cadd rnd s2 s3
  let s9 := csub rnd s2 s3
  let o0 : CX := (IE.add rnd s0.1 (IE.add rnd s7.1 s8.1), IE.add rnd s0.2 (IE.add rnd s7.2 s8.2))
  let s5 : CX := (IE.add rnd (IE.add rnd s0.1 (IE.mul rnd s7.1 ya.1)) (IE.mul rnd s8.1 yb.1), IE.add rnd (IE.add rnd s0.2 (IE.mul rnd s7.2 ya.1)) (IE.mul rnd s8.2 yb.1))
  let s6 : CX := (IE.add rnd (IE.mul rnd s10.2 ya.2) (IE.mul rnd s9.2 yb.2), IE.sub rnd (IE.neg (IE.mul rnd s10.1 ya.2)) (IE.mul rnd s9.1 yb.2))
  let s11 : CX := (IE.add rnd (IE.add rnd s0.1 (IE.mul rnd s7.1 yb.1)) (IE.mul rnd s8.1 ya.1), IE.add rnd (IE.add rnd s0.2 (IE.mul rnd s7.2 yb.1)) (IE.mul rnd s8.2 ya.1))
  let s12 : CX := (IE.add rnd (IE.neg (IE.mul rnd s10.2 yb.2)) (IE.mul rnd s9.2 ya.2), IE.sub rnd (IE.mul rnd s10.1 yb.2) (IE.mul rnd s9.1 ya.2))
  (o0, csub rnd s5 s6, IE.cadd rnd s11 s12, csub rnd s11 s12, IE.cadd rnd s5 s6)

/-- Loop body of `kf_bfly5`, kiss_fft.c 161-196. -/
def kfBfly5Body (tw : List CX) (ya yb : CX) (fo fstride m : Int) (F : List CX) (u : Int) : Res (List CX) :=
  (cGet F (fo + u)).bind fun s0 =>
  (cGet F (fo + m + u)).bind fun a1 => (cGet tw (u * fstride)).bind fun w1 =>
  (cGet F (fo + 2 * m + u)).bind fun a2 => (cGet tw (2 * u * fstride)).bind fun w2 =>
  (cGet F (fo + 3 * m + u)).bind fun a3 => (cGet tw (3 * u * fstride)).bind fun w3 =>
  (cGet F (fo + 4 * m + u)).bind fun a4 => (cGet tw (4 * u * fstride)).bind fun w4 =>
  let o := kfOut5 rnd ya yb s0 a1 w1 a2 w2 a3 w3 a4 w4
  (cSet F (fo + u) o.1).bind fun F =>
  (cSet F (fo + m + u) o.2.1).bind fun F =>
  (cSet F (fo + 4 * m + u) o.2.2.2.2).bind fun F =>
  (cSet F (fo + 2 * m + u) o.2.2.1).bind fun F =>
  cSet F (fo + 3 * m + u) o.2.2.2.1

/-- Innermost loop of `kf_bfly_generic`, kiss_fft.c 227-232: state `(Fout[k], twidx)`. -/
def kfGenInner (tw scratch : List CX) (nfft fstride k : Int) (s : CX × Int) (q : Int) : Res (CX × Int) :=
  let twidx := s.2 + fstride * k
  let twidx := if twidx ≥ nfft then twidx - nfft else twidx
  (cGet scratch q).bind fun x => (cGet tw twidx).bind fun w => .ok (IE.cadd rnd s.1 (IE.cmul rnd x w), twidx)

/-- Loop body of `kf_bfly_generic`, kiss_fft.c 215-236. -/
def kfBflyGenBody (tw : List CX) (nfft fo fstride m p : Int) (F : List CX) (u : Int) : Res (List CX) :=
  (mapM' (pyRange 0 p) (fun q1 => cGet F (fo + (u + q1 * m)))).bind fun scratch =>
  forM' (pyRange 0 p) F (fun F q1 =>
    let k := u + q1 * m
    (cGet scratch 0).bind fun x0 =>
    (forM' (pyRange 1 p) (x0, (0 : Int)) (kfGenInner rnd tw scratch nfft fstride k)).bind fun s =>
    cSet F (fo + k) s.1)

/-- The `switch (p)` of `kf_work` with the five butterflies, kiss_fft.c 287-293. -/
def kfBfly (cfg : KissCfg) (F : List CX) (fo fstride m p : Int) : Res (List CX) :=
  let tw := cfg.twiddles
  if p = 2 then forM' (pyRange 0 m) F (kfBfly2Body rnd tw fo fstride m)
  else if p = 3 then
    (cGet tw (fstride * m)).bind fun epi3 => forM' (pyRange 0 m) F (kfBfly3Body rnd tw epi3 fo fstride m)
  else if p = 4 then forM' (pyRange 0 m) F (kfBfly4Body rnd tw cfg.inverse fo fstride m)
  else if p = 5 then
    (cGet tw (fstride * m)).bind fun ya => (cGet tw (fstride * 2 * m)).bind fun yb =>
    forM' (pyRange 0 m) F (kfBfly5Body rnd tw ya yb fo fstride m)
  else forM' (pyRange 0 m) F (kfBflyGenBody rnd tw cfg.nfft fo fstride m p)

/-- `kf_work`, kiss_fft.c 242-294. -/
def kfWork (cfg : KissCfg) (fin : List CX) : List Int → List CX → Int → Int → Int → Res (List CX)
  | p :: m :: factors, F, fo, fi, fstride =>
    if p < 1 ∨ m < 1 then cUB
    else
      (if m = 1 then
        forM' (pyRange 0 p) F (fun F j => (cGet fin (fi + fstride * j)).bind fun x => cSet F (fo + j) x)
      else
        forM' (pyRange 0 p) F (fun F j => kfWork cfg fin factors F (fo + j * m) (fi + fstride * j) (fstride * p))).bind fun F =>
      kfBfly rnd cfg F fo fstride m p
  | _, _, _, _, _ => cUB

/-- `kiss_fft(cfg, buf, buf)` (in place), kiss_fft.c 364-383. -/
def kissFft (cfg : KissCfg) (buf : List CX) (junk : Nat → CX) : Res (List CX) :=
  (cMalloc cfg.nfft junk).bind fun tmp =>
  (kfWork rnd cfg buf cfg.factors tmp 0 0 1).bind fun tmp =>
  if cfg.nfft ≤ buf.length then .ok (tab buf.length fun i => if (i : Int) < cfg.nfft then rd tmp i else rd buf i)
  else cUB

/-- `SData(s, Q, Nrows, Nmax)`, csphi.c 148-164. -/
def cSData (s : List CX) (Q Nrows Nmax : Int) : Res (List CX) :=
  let nn := Nmax + 1
  (cMemset0 s Q).bind fun s =>
  let mm := Nrows.tdiv 2
  (forM' (pyRange mm (mm + nn)) s (fun s k =>
    if k.tmod 2 = 1 then (cGet s (k - mm)).bind fun z => cSet s (k - mm) (z.1, IE.lit (rnd (-1 / (k : ℝ)))) else .ok s)).bind fun s =>
  forM' (pyRange (-mm) mm) s (fun s k =>
    if (|k|).tmod 2 = 1 then (cGet s (Q + k - mm)).bind fun z => cSet s (Q + k - mm) (z.1, IE.lit (rnd (-1 / (k : ℝ)))) else .ok s)

/-- `hkm_fc`, csphi.c 186-232: fills `hkm` (`len` values) using the work array `ff`; returns `(hkm, ff)`. -/
def cHkmFc (gcoef : List CX) (Nrow Ncol m : Int) (hkm : List CX) (len : Int) (ss : List CX) (Q : Int)
    (ff : List CX) (fw bw : KissCfg) (J : Int → Nat → CX) : Res (List CX × List CX) :=
  (cMemset0 ff Q).bind fun ff =>
  (cMemset0 hkm len).bind fun hkm =>
  let ind := if m ≥ 0 then m else Ncol + m
  let mm := Nrow.tdiv 2
  (forM' (pyRange 0 mm) ff (fun ff k =>
    (cGet gcoef (Ncol * (mm + k) + ind)).bind fun a =>
    (cSet ff k a).bind fun ff =>
    (cGet gcoef (Ncol * k + ind)).bind fun b =>
    cSet ff (mm + k) b)).bind fun ff =>
  (kissFft rnd fw ff (J (4 * m + 1))).bind fun ff =>
  (forM' (pyRange 0 Q) ff (fun ff k =>
    (cGet ff k).bind fun f => (cGet ss k).bind fun s => cSet ff k (IE.cmul rnd s f))).bind fun ff =>
  (kissFft rnd bw ff (J (4 * m + 2))).bind fun ff =>
  (forM' (pyRange 0 len) hkm (fun hkm k =>
    (cGet ff k).bind fun f =>
    cSet hkm k (IE.div rnd (IE.mul rnd (IE.lit (Fl.fourPi rnd)) f.1) (IE.lit Q), IE.div rnd (IE.mul rnd (IE.lit (Fl.fourPi rnd)) f.2) (IE.lit Q)))).bind fun hkm =>
  .ok (hkm, ff)

/-- Work arrays of `fc_to_sc`: the output `sc` and `hkm`, `ff`, `y`.
    src/csphi.c 336-348. -/
structure CWork where
  sc : List CX
  hkm : List CX
  ff : List CX
  y : List ℝ

/-- `i**(-m) * v` as `bnm_fc` computes it, csphi.c 291-301. -/
def cMulIPowNeg (m : Int) (v : CX) : CX :=
  if (|m|).tmod 2 = 1 then
    (IE.mul rnd (.fin (cPowNegOne ((m - 1).tdiv 2))) v.2, IE.mul rnd (.fin (-cPowNegOne ((m - 1).tdiv 2))) v.1)
  else (IE.mul rnd (.fin (cPowNegOne (m.tdiv 2))) v.1, IE.mul rnd (.fin (cPowNegOne (m.tdiv 2))) v.2)

/-- Body of the `n` loop of `bnm_fc`, csphi.c 276-302; `vec` is `sc` at offset `off`; state `(sc, y)`. -/
def cBnmBody (m : Int) (off : Int) (hkm : List CX) (Ly : Int) (st : List CX × List ℝ) (n : Int) : Res (List CX × List ℝ) :=
  (Fl.cYnunm rnd n m st.2 Ly).bind fun y =>
  let p := off + (n - |m|)
  (cGet hkm 0).bind fun h0 => (cGet y 0).bind fun y0 =>
  (cSet st.1 p (IE.mul rnd h0.1 (IE.lit y0), IE.mul rnd h0.2 (IE.lit y0))).bind fun sc =>
  (forM' (pyRange 1 (n + 1)) sc (fun sc k =>
    (cGet sc p).bind fun v => (cGet hkm k).bind fun h => (cGet y k).bind fun yk =>
    cSet sc p (IE.add rnd v.1 (IE.mul rnd (IE.mul rnd (.fin 2) h.1) (IE.lit yk)), IE.add rnd v.2 (IE.mul rnd (IE.mul rnd (.fin 2) h.2) (IE.lit yk))))).bind fun sc =>
  (cGet sc p).bind fun v =>
  (cSet sc p (cMulIPowNeg rnd m v)).bind fun sc =>
  .ok (sc, y)

/-- `bnm_fc`, csphi.c 254-303, with its work arrays. -/
def kBnmFc (fdata : List CX) (Nrow Ncol Nmax m off : Int) (ss : List CX) (Q Lhkm Ly : Int)
    (fw bw : KissCfg) (J : Int → Nat → CX) (w : CWork) : Res CWork :=
  (cHkmFc rnd fdata Nrow Ncol m w.hkm Lhkm ss Q w.ff fw bw J).bind fun hf =>
  (forM' (pyRange |m| (Nmax + 1)) (w.sc, w.y) (cBnmBody rnd m off hf.1 Ly)).bind fun sy =>
  .ok ⟨sy.1, hf.1, hf.2, sy.2⟩

/-- `fc_to_sc(fdata, Nrow, Ncol, sc, L, Nmax, Mmax)`, csphi.c 317-408, with kiss_fft: the final content of `sc`. -/
def kFcToSc (lm : Fl.LibM) (fdata : List CX) (Nrow Ncol : Int) (sc : List CX) (Nmax Mmax : Int) (J : JunkX) : Res (List CX) :=
  (orDiverge (cFindQ (Nrow + Nmax))).bind fun Q =>
  (cMalloc Q (J.c (-1))).bind fun s =>
  (cSData rnd s Q Nrow Nmax).bind fun s =>
  (kissAlloc rnd lm Q false).bind fun fw =>
  (kissAlloc rnd lm Q true).bind fun bw =>
  (kissFft rnd fw s (J.c (-5))).bind fun s =>
  (cMalloc (Nmax + 1) (J.c (-9))).bind fun hkm =>
  (cMalloc (Nmax + 1) J.r).bind fun y =>
  (cMalloc Q (J.c (-13))).bind fun ff =>
  (cMalloc (2 * Mmax + 1) J.i).bind fun inds =>
  (cMemset0 inds (2 * Mmax + 1)).bind fun inds =>
  (cInds Nmax Mmax inds).bind fun inds =>
  (kBnmFc rnd fdata Nrow Ncol Nmax 0 0 s Q (Nmax + 1) (Nmax + 1) fw bw J.c ⟨sc, hkm, ff, y⟩).bind fun w =>
  (forM' (pyRange 1 (Mmax + 1)) w (fun w m =>
    (cGet inds (2 * m - 1)).bind fun o1 =>
    (kBnmFc rnd fdata Nrow Ncol Nmax (-m) o1 s Q (Nmax + 1) (Nmax + 1) fw bw J.c w).bind fun w =>
    (cGet inds (2 * m)).bind fun o2 =>
    kBnmFc rnd fdata Nrow Ncol Nmax m o2 s Q (Nmax + 1) (Nmax + 1) fw bw J.c w)).bind fun w =>
  .ok w.sc

/-- `csphi.fc_to_sc` on `sc = np.zeros(NC)`, spherepy.py 1891-1896. -/
def kExtFcToSc (lm : Fl.LibM) (J : JunkX) (f : Arr2 CX) (nmax mmax : Int) : Res (List CX) :=
  (npFull (ncFormula nmax mmax) (0 : CX)).bind fun sc => kFcToSc rnd lm f.flat f.rows f.cols sc nmax mmax J

/-- `spht(ssphere, nmax, mmax)`, spherepy.py 1831-1900, with the compiled extension and its kiss_fft; of `np` only `np.fft.fft2` is used. -/
def kSpht (np : FftX) (lm : Fl.LibM) (J : JunkX) (p : SPatt CX) (nmax mmax : Option Int) : Res (ScalarCoefs CX) :=
  (sphtArgs p.nrows p.ncols nmax mmax).bind fun (n, m) =>
  (sphtGuards p.nrows p.ncols n m).bind fun _ =>
  p.dsphere.bind fun ds =>
  (np.fft2 ds).bind fun f =>
  (fixEvenRow f).bind fun f =>
  (padRows f (ds.rows + 2)).bind fun f =>
  (sinFc rnd f).bind fun f =>
  (kExtFcToSc rnd lm J f n m).bind fun sc =>
  ScalarCoefs.init (.arr sc) n m

/-! ### Synthesis -/

/-- `i**m * v` as `fcvec_m_sc` computes it, csphi.c 456-467. -/
def cMulIPow (m : Int) (v : CX) : CX :=
  if (|m|).tmod 2 = 1 then
    (IE.mul rnd (.fin (-cPowNegOne ((m - 1).tdiv 2))) v.2, IE.mul rnd (.fin (cPowNegOne ((m - 1).tdiv 2))) v.1)
  else (IE.mul rnd (.fin (cPowNegOne (m.tdiv 2))) v.1, IE.mul rnd (.fin (cPowNegOne (m.tdiv 2))) v.2)

/-- Body of the accumulation loop of `fcvec_m_sc`, csphi.c 436-449; state `(fdata, y)`. -/
def cFcvecAcc (sc : List CX) (off m Nmax Ncol M len : Int) (st : List CX × List ℝ) (n : Int) : Res (List CX × List ℝ) :=
  (Fl.cYnunm rnd n m st.2 len).bind fun y =>
  (forM' (pyRange 0 (Nmax + 1)) st.1 (fun F k =>
    (cGet F (k * Ncol + M)).bind fun t =>
    (cGet sc (off + (n - |m|))).bind fun v =>
    (cGet y k).bind fun yk =>
    cSet F (k * Ncol + M) (IE.add rnd t.1 (IE.mul rnd v.1 (IE.lit yk)), IE.add rnd t.2 (IE.mul rnd v.2 (IE.lit yk))))).bind fun F =>
  .ok (F, y)

/-- `fcvec_m_sc(vec, m, Nmax, fdata, Nrow, Ncol, M, y, len)`, csphi.c 423-486; `vec` is `sc` at offset `off`. -/
def cFcvecMSc (sc : List CX) (off m Nmax Nrow Ncol M len : Int) (st : List CX × List ℝ) : Res (List CX × List ℝ) :=
  (forM' (pyRange |m| (Nmax + 1)) st (cFcvecAcc rnd sc off m Nmax Ncol M len)).bind fun st =>
  (forM' (pyRange 0 (Nmax + 1)) st.1 (fun F k =>
    (cGet F (k * Ncol + M)).bind fun t => cSet F (k * Ncol + M) (cMulIPow rnd m t))).bind fun F =>
  let mm : IE := .fin ((-1 : ℝ) ^ m)
  let H := if Nrow.tmod 2 = 0 then Nrow.tdiv 2 - 1 else (Nrow - 1).tdiv 2
  (forM' (pyRange 0 H) F (fun F k =>
    (cGet F (Ncol * (k + 1) + M)).bind fun t =>
    cSet F (Ncol * (Nrow - 1 - k) + M) (IE.mul rnd mm t.1, IE.mul rnd mm t.2))).bind fun F =>
  .ok (F, st.2)

/-- `sc_to_fc(fdata, Nrow, Ncol, sc, L, Nmax, Mmax)`, csphi.c 499-552: the final content of `fdata`. -/
def cScToFc (fdata : List CX) (Nrow Ncol : Int) (sc : List CX) (Nmax Mmax : Int) (J : JunkX) : Res (List CX) :=
  (cMalloc (Nmax + 1) J.r).bind fun y =>
  (cMalloc (2 * Mmax + 1) J.i).bind fun inds =>
  (cMemset0 inds (2 * Mmax + 1)).bind fun inds =>
  (cInds Nmax Mmax inds).bind fun inds =>
  (forM' (pyRange 0 (Ncol.tdiv 2 + 1)) (fdata, y) (fun st k =>
    if k < Mmax then
      (cGet inds (2 * k)).bind fun o1 =>
      (cFcvecMSc rnd sc o1 k Nmax Nrow Ncol k (Nmax + 1) st).bind fun st =>
      (cGet inds (2 * (k + 1) - 1)).bind fun o2 =>
      cFcvecMSc rnd sc o2 (-(k + 1)) Nmax Nrow Ncol (Ncol - 1 - k) (Nmax + 1) st
    else if k = Mmax then
      (cGet inds (2 * k)).bind fun o =>
      cFcvecMSc rnd sc o k Nmax Nrow Ncol k (Nmax + 1) st
    else .ok st)).bind fun st => .ok st.1

/-- `ispht(scoefs, nrows, ncols)`, spherepy.py 2020-2079, with the compiled extension. -/
def cIspht (np : FftX) (J : JunkX) (c : ScalarCoefs CX) (nrows ncols : Option Int) : Res (SPatt CX) :=
  let nr := nrows.getD (c.nmax + 2)
  let nc := ncols.getD (2 * c.mmax + 2)
  (isphtGuards c.nmax c.mmax nr nc).bind fun _ =>
  let dn := 2 * nr - 2
  (npZeros2 dn nc).bind fun z =>
  (cScToFc rnd z.flat z.rows z.cols c.vec c.nmax c.mmax J).bind fun l =>
  (np.ifft2 (unflat z.rows z.cols l) dn nc).bind fun ds =>
  .ok ⟨.arr ds⟩

end
end NX
end Verif
