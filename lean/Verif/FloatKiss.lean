import Verif.FloatVec
import Verif.CSphi
/-!
# kiss_fft and the convolution of the C extension in double precision

src/kiss_fft.c, src/_kiss_fft_guts.h and `SData`, `hkm_fc`, `bnm_fc`, `fc_to_sc` of src/csphi.c with every floating-point operation rounded
(`C_MUL`, `C_ADD`, `C_SUB`, `C_ADDTO`, guts.h 88-126, are the operations of `FC`).  The C library's `cos` and `sin` are parameters.  C is assumed
to evaluate doubles as doubles (no excess precision, no fused multiply-add).  Index arithmetic and memory as in Kiss.lean and CSphi.lean.
-/
namespace Verif
namespace Fl

/-- The C library's `cos` and `sin` (guts.h 143-144). -/
structure LibM where
  cos : ℝ → ℝ
  sin : ℝ → ℝ

noncomputable section
variable (rnd : ℝ → ℝ)

/-- `struct kiss_fft_state`, guts.h 29-34, in doubles. -/
structure KissCfg where
  nfft : Int
  inverse : Bool
  factors : List Int
  twiddles : List (FC rnd)

/-- The literal of `pi` in `kiss_fft_alloc`, kiss_fft.c 349 (the compiler rounds it to the nearest double). -/
def kissPi : ℝ := rnd (3141592653589793238462643383279502884197169399375105820974944 / 10 ^ 60)

/-- The loop body of `kiss_fft_alloc`, kiss_fft.c 348-354: twiddle number `i`. -/
def kissTw (lm : LibM) (nfft : Int) (inverse : Bool) (i : Nat) : FC rnd :=
  let phase : ℝ := rnd (rnd (rnd (-2 * kissPi rnd) * i) / nfft)
  let phase := if inverse then rnd (phase * -1) else phase
  ⟨lm.cos phase, lm.sin phase⟩

/-- `kiss_fft_alloc(nfft, inverse_fft, 0, 0)`, kiss_fft.c 329-361, in doubles. -/
def kissAlloc (lm : LibM) (nfft : Int) (inverse : Bool) : Res (KissCfg rnd) :=
  if nfft < 1 then cUB
  else
    match kfFactor nfft with
    | none => .error ⟨.nonTermination, "kf_factor"⟩
    | some r => r.bind fun fac => .ok ⟨nfft, inverse, fac, tab nfft.toNat (kissTw rnd lm nfft inverse)⟩

/-- Loop body of `kf_bfly2`, kiss_fft.c 33-42 (iteration `u`; `Fout` at offset `fo`), in doubles. -/
def kfBfly2Body (tw : List (FC rnd)) (fo fstride m : Int) (F : List (FC rnd)) (u : Int) : Res (List (FC rnd)) :=
  (cGet F (fo + m + u)).bind fun f2 =>
  (cGet tw (u * fstride)).bind fun w =>
  let t := f2 * w
  (cGet F (fo + u)).bind fun f =>
  (cSet F (fo + m + u) (f - t)).bind fun F =>
  cSet F (fo + u) (f + t)

/-- The four results of one iteration of `kf_bfly4`, kiss_fft.c 65-88, in doubles: `Fout[0]`, `Fout[m]`, `Fout[m2]`, `Fout[m3]`. -/
def kfOut4 (inverse : Bool) (f a1 w1 a2 w2 a3 w3 : FC rnd) : FC rnd × FC rnd × FC rnd × FC rnd :=
  let s0 := a1 * w1
  let s1 := a2 * w2
  let s2 := a3 * w3
  let s5 := f - s1
  let f := f + s1
  let s3 := s0 + s2
  let s4 := s0 - s2
  let o2 := f - s3
  let o0 := f + s3
  if inverse then
    (o0, ⟨rnd (s5.re - s4.im), rnd (s5.im + s4.re)⟩, o2, ⟨rnd (s5.re + s4.im), rnd (s5.im - s4.re)⟩)
  else
    (o0, ⟨rnd (s5.re + s4.im), rnd (s5.im - s4.re)⟩, o2, ⟨rnd (s5.re - s4.im), rnd (s5.im + s4.re)⟩)

/-- Loop body of `kf_bfly4`, kiss_fft.c 61-91, in doubles. -/
def kfBfly4Body (tw : List (FC rnd)) (inverse : Bool) (fo fstride m : Int) (F : List (FC rnd)) (u : Int) : Res (List (FC rnd)) :=
  let m2 := 2 * m
  let m3 := 3 * m
  (cGet F (fo + u + m)).bind fun a1 => (cGet tw (u * fstride)).bind fun w1 =>
  (cGet F (fo + u + m2)).bind fun a2 => (cGet tw (u * (fstride * 2))).bind fun w2 =>
  (cGet F (fo + u + m3)).bind fun a3 => (cGet tw (u * (fstride * 3))).bind fun w3 =>
  (cGet F (fo + u)).bind fun f =>
  let o := kfOut4 rnd inverse f a1 w1 a2 w2 a3 w3
  (cSet F (fo + u + m2) o.2.2.1).bind fun F =>
  (cSet F (fo + u) o.1).bind fun F =>
  (cSet F (fo + u + m) o.2.1).bind fun F =>
  cSet F (fo + u + m3) o.2.2.2

/-- The three results of one iteration of `kf_bfly3`, kiss_fft.c 113-131, in doubles: `Fout[0]`, `Fout[m]`, `Fout[m2]`. -/
def kfOut3 (epi3 f a1 w1 a2 w2 : FC rnd) : FC rnd × FC rnd × FC rnd :=
  let s1 := a1 * w1
  let s2 := a2 * w2
  let s3 := s1 + s2
  let s0 := s1 - s2
  let fm : FC rnd := ⟨rnd (f.re - rnd (s3.re * 0.5)), rnd (f.im - rnd (s3.im * 0.5))⟩
  let s0 : FC rnd := ⟨rnd (s0.re * epi3.im), rnd (s0.im * epi3.im)⟩
  (f + s3, ⟨rnd (fm.re - s0.im), rnd (fm.im + s0.re)⟩, ⟨rnd (fm.re + s0.im), rnd (fm.im - s0.re)⟩)

/-- Loop body of `kf_bfly3`, kiss_fft.c 110-134, in doubles. -/
def kfBfly3Body (tw : List (FC rnd)) (epi3 : FC rnd) (fo fstride m : Int) (F : List (FC rnd)) (u : Int) : Res (List (FC rnd)) :=
  let m2 := 2 * m
  (cGet F (fo + u + m)).bind fun a1 => (cGet tw (u * fstride)).bind fun w1 =>
  (cGet F (fo + u + m2)).bind fun a2 => (cGet tw (u * (fstride * 2))).bind fun w2 =>
  (cGet F (fo + u)).bind fun f =>
  let o := kfOut3 rnd epi3 f a1 w1 a2 w2
  (cSet F (fo + u) o.1).bind fun F =>
  (cSet F (fo + u + m2) o.2.2).bind fun F =>
  cSet F (fo + u + m) o.2.1

/-- The five results of one iteration of `kf_bfly5`, kiss_fft.c 163-193, in doubles. -/
def kfOut5 (ya yb s0 a1 w1 a2 w2 a3 w3 a4 w4 : FC rnd) : FC rnd × FC rnd × FC rnd × FC rnd × FC rnd :=
  let s1 := a1 * w1
  let s2 := a2 * w2
  let s3 := a3 * w3
  let s4 := a4 * w4
  let s7 := s1 + s4
  let s10 := s1 - s4
  let s8 := s2 + s3
  let s9 := s2 - s3
  let o0 : FC rnd := ⟨rnd (s0.re + rnd (s7.re + s8.re)), rnd (s0.im + rnd (s7.im + s8.im))⟩
  let s5 : FC rnd := ⟨rnd (rnd (s0.re + rnd (s7.re * ya.re)) + rnd (s8.re * yb.re)), rnd (rnd (s0.im + rnd (s7.im * ya.re)) + rnd (s8.im * yb.re))⟩
  let s6 : FC rnd := ⟨rnd (rnd (s10.im * ya.im) + rnd (s9.im * yb.im)), rnd (-rnd (s10.re * ya.im) - rnd (s9.re * yb.im))⟩
  let s11 : FC rnd := ⟨rnd (rnd (s0.re + rnd (s7.re * yb.re)) + rnd (s8.re * ya.re)), rnd (rnd (s0.im + rnd (s7.im * yb.re)) + rnd (s8.im * ya.re))⟩
  let s12 : FC rnd := ⟨rnd (-rnd (s10.im * yb.im) + rnd (s9.im * ya.im)), rnd (rnd (s10.re * yb.im) - rnd (s9.re * ya.im))⟩
  (o0, s5 - s6, s11 + s12, s11 - s12, s5 + s6)

/-- Loop body of `kf_bfly5`, kiss_fft.c 161-196, in doubles. -/
def kfBfly5Body (tw : List (FC rnd)) (ya yb : FC rnd) (fo fstride m : Int) (F : List (FC rnd)) (u : Int) : Res (List (FC rnd)) :=
  (cGet F (fo + u)).bind fun s0 =>
  (cGet F (fo + m + u)).bind fun a1 => (cGet tw (u * fstride)).bind fun w1 =>
  (cGet F (fo + 2 * m + u)).bind fun a2 => (cGet tw (2 * u * fstride)).bind fun w2 =>
  (cGet F (fo + 3 * m + u)).bind fun a3 => (cGet tw (3 * u * fstride)).bind fun w3 =>
  (cGet F (fo + 4 * m + u)).bind fun a4 => (cGet tw (4 * u * fstride)).bind fun w4 =>
  let o := kfOut5 rnd ya yb s0 a1 w1 a2 w2 a3 w3 a4 w4
  (cSet F (fo + u) o.1).bind fun F =>
  (cSet F (fo + m + u) o.2.1).bind fun F =>
  (cSet F (fo + 4 * m + u) o.2.2.2.2).bind fun F =>
  (cSet F (fo + 2 * m + u) o.2.2.1).bind fun F =>
  cSet F (fo + 3 * m + u) o.2.2.2.1

/-- Innermost loop of `kf_bfly_generic`, kiss_fft.c 227-232: state `(Fout[k], twidx)`, in doubles. -/
def kfGenInner (tw scratch : List (FC rnd)) (nfft fstride k : Int) (s : FC rnd × Int) (q : Int) : Res (FC rnd × Int) :=
  let twidx := s.2 + fstride * k
  let twidx := if twidx ≥ nfft then twidx - nfft else twidx
  (cGet scratch q).bind fun x => (cGet tw twidx).bind fun w => .ok (s.1 + x * w, twidx)

/-- Loop body of `kf_bfly_generic`, kiss_fft.c 215-236, in doubles. -/
def kfBflyGenBody (tw : List (FC rnd)) (nfft fo fstride m p : Int) (F : List (FC rnd)) (u : Int) : Res (List (FC rnd)) :=
  (mapM' (pyRange 0 p) (fun q1 => cGet F (fo + (u + q1 * m)))).bind fun scratch =>
  forM' (pyRange 0 p) F (fun F q1 =>
    let k := u + q1 * m
    (cGet scratch 0).bind fun x0 =>
    (forM' (pyRange 1 p) (x0, (0 : Int)) (kfGenInner rnd tw scratch nfft fstride k)).bind fun s =>
    cSet F (fo + k) s.1)

/-- The `switch (p)` of `kf_work` with the five butterflies, kiss_fft.c 287-293, in doubles. -/
def kfBfly (cfg : KissCfg rnd) (F : List (FC rnd)) (fo fstride m p : Int) : Res (List (FC rnd)) :=
  let tw := cfg.twiddles
  if p = 2 then forM' (pyRange 0 m) F (kfBfly2Body rnd tw fo fstride m)
  else if p = 3 then
    (cGet tw (fstride * m)).bind fun epi3 => forM' (pyRange 0 m) F (kfBfly3Body rnd tw epi3 fo fstride m)
  else if p = 4 then forM' (pyRange 0 m) F (kfBfly4Body rnd tw cfg.inverse fo fstride m)
  else if p = 5 then
    (cGet tw (fstride * m)).bind fun ya => (cGet tw (fstride * 2 * m)).bind fun yb =>
    forM' (pyRange 0 m) F (kfBfly5Body rnd tw ya yb fo fstride m)
  else forM' (pyRange 0 m) F (kfBflyGenBody rnd tw cfg.nfft fo fstride m p)

/-- `kf_work`, kiss_fft.c 242-294, in doubles. -/
def kfWork (cfg : KissCfg rnd) (fin : List (FC rnd)) : List Int → List (FC rnd) → Int → Int → Int → Res (List (FC rnd))
  | p :: m :: factors, F, fo, fi, fstride =>
    if p < 1 ∨ m < 1 then cUB
    else
      (if m = 1 then
        forM' (pyRange 0 p) F (fun F j => (cGet fin (fi + fstride * j)).bind fun x => cSet F (fo + j) x)
      else
        forM' (pyRange 0 p) F (fun F j => kfWork cfg fin factors F (fo + j * m) (fi + fstride * j) (fstride * p))).bind fun F =>
      kfBfly rnd cfg F fo fstride m p
  | _, _, _, _, _ => cUB

/-- `kiss_fft(cfg, buf, buf)` (in place), kiss_fft.c 364-383, in doubles. -/
def kissFft (cfg : KissCfg rnd) (buf : List (FC rnd)) (junk : Nat → FC rnd) : Res (List (FC rnd)) :=
  (cMalloc cfg.nfft junk).bind fun tmp =>
  (kfWork rnd cfg buf cfg.factors tmp 0 0 1).bind fun tmp =>
  if cfg.nfft ≤ buf.length then .ok (tab buf.length fun i => if (i : Int) < cfg.nfft then rd tmp i else rd buf i)
  else cUB

/-- `SData(s, Q, Nrows, Nmax)`, csphi.c 148-164, in doubles. -/
def cSData (s : List (FC rnd)) (Q Nrows Nmax : Int) : Res (List (FC rnd)) :=
  let nn := Nmax + 1
  (cMemset0 s Q).bind fun s =>
  let mm := Nrows.tdiv 2
  (forM' (pyRange mm (mm + nn)) s (fun s k =>
    if k.tmod 2 = 1 then (cGet s (k - mm)).bind fun z => cSet s (k - mm) ⟨z.re, rnd (-1 / (k : ℝ))⟩ else .ok s)).bind fun s =>
  forM' (pyRange (-mm) mm) s (fun s k =>
    if (|k|).tmod 2 = 1 then (cGet s (Q + k - mm)).bind fun z => cSet s (Q + k - mm) ⟨z.re, rnd (-1 / (k : ℝ))⟩ else .ok s)

/-- `4.0*PI`, csphi.c 228 with the literal of csphi.h 57. -/
def fourPi : ℝ := rnd (4 * rnd (314159265358979323846 / 10 ^ 20))

/-- `hkm_fc`, csphi.c 186-232, in doubles: fills `hkm` (`len` values) using the work array `ff`; returns `(hkm, ff)`. -/
def cHkmFc (gcoef : List (FC rnd)) (Nrow Ncol m : Int) (hkm : List (FC rnd)) (len : Int) (ss : List (FC rnd)) (Q : Int)
    (ff : List (FC rnd)) (fw bw : KissCfg rnd) (J : Int → Nat → FC rnd) : Res (List (FC rnd) × List (FC rnd)) :=
  (cMemset0 ff Q).bind fun ff =>
  (cMemset0 hkm len).bind fun hkm =>
  let ind := if m ≥ 0 then m else Ncol + m
  let mm := Nrow.tdiv 2
  (forM' (pyRange 0 mm) ff (fun ff k =>
    (cGet gcoef (Ncol * (mm + k) + ind)).bind fun a =>
    (cSet ff k a).bind fun ff =>
    (cGet gcoef (Ncol * k + ind)).bind fun b =>
    cSet ff (mm + k) b)).bind fun ff =>
  (kissFft rnd fw ff (J (4 * m + 1))).bind fun ff =>
  (forM' (pyRange 0 Q) ff (fun ff k =>
    (cGet ff k).bind fun f => (cGet ss k).bind fun s => cSet ff k (s * f))).bind fun ff =>
  (kissFft rnd bw ff (J (4 * m + 2))).bind fun ff =>
  (forM' (pyRange 0 len) hkm (fun hkm k =>
    (cGet ff k).bind fun f =>
    cSet hkm k ⟨rnd (rnd (fourPi rnd * f.re) / Q), rnd (rnd (fourPi rnd * f.im) / Q)⟩)).bind fun hkm =>
  .ok (hkm, ff)

/-- Work arrays of `fc_to_sc`: the output `sc` and `hkm`, `ff`, `y`.
    src/csphi.c 336-348. -/
structure CWork where
  sc : List (FC rnd)
  hkm : List (FC rnd)
  ff : List (FC rnd)
  y : List ℝ

/-- `bnm_fc`, csphi.c 254-303, in doubles, with its work arrays. -/
def kBnmFc (fdata : List (FC rnd)) (Nrow Ncol Nmax m off : Int) (ss : List (FC rnd)) (Q Lhkm Ly : Int)
    (fw bw : KissCfg rnd) (J : Int → Nat → FC rnd) (w : CWork rnd) : Res (CWork rnd) :=
  (cHkmFc rnd fdata Nrow Ncol m w.hkm Lhkm ss Q w.ff fw bw J).bind fun hf =>
  (forM' (pyRange |m| (Nmax + 1)) (w.sc, w.y) (Fl.cBnmBody rnd m off hf.1 Ly)).bind fun sy =>
  .ok ⟨sy.1, hf.1, hf.2, sy.2⟩

/-- Arbitrary content of a `malloc`ed complex buffer.
    src/csphi.c 336-348. -/
def junkC (J : CJunk) (k : Int) (i : Nat) : FC rnd := ⟨(J.c k i).re, (J.c k i).im⟩

/-- `fc_to_sc(fdata, Nrow, Ncol, sc, L, Nmax, Mmax)`, csphi.c 317-408, in doubles, with kiss_fft: the final content of `sc`. -/
def kFcToSc (lm : LibM) (fdata : List (FC rnd)) (Nrow Ncol : Int) (sc : List (FC rnd)) (Nmax Mmax : Int) (J : CJunk) :
    Res (List (FC rnd)) :=
  (orDiverge (cFindQ (Nrow + Nmax))).bind fun Q =>
  (cMalloc Q (junkC rnd J (-1))).bind fun s =>
  (cSData rnd s Q Nrow Nmax).bind fun s =>
  (kissAlloc rnd lm Q false).bind fun fw =>
  (kissAlloc rnd lm Q true).bind fun bw =>
  (kissFft rnd fw s (junkC rnd J (-5))).bind fun s =>
  (cMalloc (Nmax + 1) (junkC rnd J (-9))).bind fun hkm =>
  (cMalloc (Nmax + 1) J.r).bind fun y =>
  (cMalloc Q (junkC rnd J (-13))).bind fun ff =>
  (cMalloc (2 * Mmax + 1) J.i).bind fun inds =>
  (cMemset0 inds (2 * Mmax + 1)).bind fun inds =>
  (cInds Nmax Mmax inds).bind fun inds =>
  (kBnmFc rnd fdata Nrow Ncol Nmax 0 0 s Q (Nmax + 1) (Nmax + 1) fw bw (junkC rnd J) ⟨sc, hkm, ff, y⟩).bind fun w =>
  (forM' (pyRange 1 (Mmax + 1)) w (fun w m =>
    (cGet inds (2 * m - 1)).bind fun o1 =>
    (kBnmFc rnd fdata Nrow Ncol Nmax (-m) o1 s Q (Nmax + 1) (Nmax + 1) fw bw (junkC rnd J) w).bind fun w =>
    (cGet inds (2 * m)).bind fun o2 =>
    kBnmFc rnd fdata Nrow Ncol Nmax m o2 s Q (Nmax + 1) (Nmax + 1) fw bw (junkC rnd J) w)).bind fun w =>
  .ok w.sc

/-- `csphi.fc_to_sc` on `sc = np.zeros(NC)`, spherepy.py 1891-1896 and 1945-1951, in doubles: call number `call` of the extension. -/
def kExtFcToSc (lm : LibM) (J : Nat → CJunk) (call : Nat) (f : Arr2 (FC rnd)) (nmax mmax : Int) : Res (List (FC rnd)) :=
  (npFull (ncFormula nmax mmax) (0 : FC rnd)).bind fun sc => kFcToSc rnd lm f.flat f.rows f.cols sc nmax mmax (J call)

/-- `spht(ssphere, nmax, mmax)`, spherepy.py 1831-1900, in doubles, with the compiled extension and its kiss_fft; of `lib` only `np.fft.fft2` is used. -/
def kSpht (lib : NumLib rnd) (lm : LibM) (J : Nat → CJunk) (p : SPatt (FC rnd)) (nmax mmax : Option Int) : Res (ScalarCoefs (FC rnd)) :=
  (sphtArgs p.nrows p.ncols nmax mmax).bind fun (n, m) =>
  (sphtGuards p.nrows p.ncols n m).bind fun _ =>
  p.dsphere.bind fun ds =>
  (Fl.sphtPre rnd lib ds).bind fun f =>
  (npFull (ncFormula n m) (0 : FC rnd)).bind fun _ =>
  (kExtFcToSc rnd lm J 0 f n m).bind fun sc =>
  ScalarCoefs.init (.arr sc) n m

/-- `vspht(vsphere, nmax, mmax)`, spherepy.py 1902-1966, in doubles, with the compiled extension and its kiss_fft; of `lib` only `np.fft.fft2` is used. -/
def kVspht (lib : NumLib rnd) (lm : LibM) (J : Nat → CJunk) (p : TPatt (FC rnd)) (nmax mmax : Option Int) : Res (VectorCoefs (FC rnd)) :=
  (sphtArgs (.ok p.nrows) (.ok p.ncols) nmax mmax).bind fun (n, m) =>
  (sphtGuards (.ok p.nrows) (.ok p.ncols) n m).bind fun _ =>
  (Fl.extFourier rnd lib p.td).bind fun ft =>
  (if p.td.rows = p.pd.rows ∧ p.td.cols = p.pd.cols then Fl.extFourier rnd lib p.pd else .error ⟨.valueError, "broadcast"⟩).bind fun pt =>
  (Fl.sinLdotFc rnd ft pt).bind fun l1 =>
  (Fl.sinLdotFc rnd (pt.map fun x => (⟨0, -1⟩ : FC rnd) * x) (ft.map fun x => (⟨0, 1⟩ : FC rnd) * x)).bind fun l2 =>
  (kExtFcToSc rnd lm J 0 l1 n m).bind fun sc1 =>
  (kExtFcToSc rnd lm J 1 l2 n m).bind fun sc2 =>
  (VectorCoefs.init (.arr sc1) (.arr sc2) n m).bind fun vc =>
  (Fl.nvec rnd n).bind fun w =>
  (vc.scoef1.windowed w).bind fun s1 =>
  (vc.scoef2.windowed w).bind fun s2 =>
  .ok { vc with scoef1 := s1, scoef2 := s2 }

end
end Fl
end Verif
