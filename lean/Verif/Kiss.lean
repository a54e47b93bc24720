import Verif.CMem
/-!
# kiss_fft (src/kiss_fft.c, src/_kiss_fft_guts.h)

Floating-point (`kiss_fft_scalar = double`, kiss_fft.h 46) non-OpenMP, non-SIMD configuration; exact complex
arithmetic; `C_FIXDIV` is a no-op (guts.h 91).  `C_MUL`, `C_ADD`, `C_SUB`, `C_ADDTO` (guts.h 88-126) are complex
multiplication, addition, subtraction.
-/
namespace Verif

/-- `struct kiss_fft_state`, guts.h 29-34.  `factors` holds the ints written by `kf_factor` (reading further is
reading uninitialised memory). -/
structure KissCfg where
  nfft : Int
  inverse : Bool
  factors : List Int
  twiddles : List ℂ

/-- The inner `while (n % p)` of `kf_factor`, kiss_fft.c 307-315; `none` = never ends. `%` is C's truncated remainder. -/
def kfNext (n floorSqrt p : Int) : Option Int :=
  if n.tmod p = 0 then some p
  else
    let p := if p = 4 then 2 else if p = 2 then 3 else p + 2
    kfNext n floorSqrt (if p > floorSqrt then n else p)
partial_fixpoint

/-- The outer `do ... while (n > 1)` of `kf_factor`, kiss_fft.c 306-319; `facbuf` has `2*MAXFACTORS = 64` ints
(guts.h 21, 32), a write past it is undefined behaviour. -/
def kfFactorLoop (n floorSqrt p : Int) (facbuf : List Int) : Option (Res (List Int)) :=
  match kfNext n floorSqrt p with
  | none => none
  | some p =>
    let n := n.tdiv p
    if facbuf.length + 2 > 64 then some cUB
    else
      let facbuf := facbuf ++ [p, n]
      if n > 1 then kfFactorLoop n floorSqrt p facbuf else some (.ok facbuf)
partial_fixpoint

/-- `kf_factor(n, facbuf)`, kiss_fft.c 298-320.  `floor(sqrt((double) n))` is the integer square root (exact for 32-bit
`n`). -/
def kfFactor (n : Int) : Option (Res (List Int)) := kfFactorLoop n (Nat.sqrt n.toNat) 4 []

/-- `kiss_fft_alloc(nfft, inverse_fft, 0, 0)`, kiss_fft.c 329-361. `pi` is exact. -/
noncomputable def kissAlloc (nfft : Int) (inverse : Bool) : Res KissCfg :=
  if nfft < 1 then cUB
  else
    let tw : List ℂ := tab nfft.toNat fun (i : Nat) =>
      let phase : ℝ := -2 * Real.pi * i / nfft
      let phase := if inverse then phase * -1 else phase
      ⟨Real.cos phase, Real.sin phase⟩
    match kfFactor nfft with
    | none => .error ⟨.nonTermination, "kf_factor"⟩
    | some r => r.bind fun fac => .ok ⟨nfft, inverse, fac, tw⟩

/-- Loop body of `kf_bfly2`, kiss_fft.c 33-42 (iteration `u`; `Fout` at offset `fo`). -/
noncomputable def kfBfly2Body (tw : List ℂ) (fo fstride m : Int) (F : List ℂ) (u : Int) : Res (List ℂ) :=
  (cGet F (fo + m + u)).bind fun f2 =>
  (cGet tw (u * fstride)).bind fun w =>
  let t := f2 * w
  (cGet F (fo + u)).bind fun f =>
  (cSet F (fo + m + u) (f - t)).bind fun F =>
  cSet F (fo + u) (f + t)

/-- Loop body of `kf_bfly4`, kiss_fft.c 61-91. -/
noncomputable def kfBfly4Body (tw : List ℂ) (inverse : Bool) (fo fstride m : Int) (F : List ℂ) (u : Int) : Res (List ℂ) :=
  let m2 := 2 * m
  let m3 := 3 * m
  (cGet F (fo + u + m)).bind fun a1 => (cGet tw (u * fstride)).bind fun w1 =>
  (cGet F (fo + u + m2)).bind fun a2 => (cGet tw (u * (fstride * 2))).bind fun w2 =>
  (cGet F (fo + u + m3)).bind fun a3 => (cGet tw (u * (fstride * 3))).bind fun w3 =>
  (cGet F (fo + u)).bind fun f =>
  let s0 := a1 * w1
  let s1 := a2 * w2
  let s2 := a3 * w3
  let s5 := f - s1
  let f := f + s1
  let s3 := s0 + s2
  let s4 := s0 - s2
  (cSet F (fo + u + m2) (f - s3)).bind fun F =>
  (cSet F (fo + u) (f + s3)).bind fun F =>
  if inverse then
    (cSet F (fo + u + m) ⟨s5.re - s4.im, s5.im + s4.re⟩).bind fun F =>
    cSet F (fo + u + m3) ⟨s5.re + s4.im, s5.im - s4.re⟩
  else
    (cSet F (fo + u + m) ⟨s5.re + s4.im, s5.im - s4.re⟩).bind fun F =>
    cSet F (fo + u + m3) ⟨s5.re - s4.im, s5.im + s4.re⟩

/-- Loop body of `kf_bfly3`, kiss_fft.c 110-134. -/
noncomputable def kfBfly3Body (tw : List ℂ) (epi3 : ℂ) (fo fstride m : Int) (F : List ℂ) (u : Int) : Res (List ℂ) :=
  let m2 := 2 * m
  (cGet F (fo + u + m)).bind fun a1 => (cGet tw (u * fstride)).bind fun w1 =>
  (cGet F (fo + u + m2)).bind fun a2 => (cGet tw (u * (fstride * 2))).bind fun w2 =>
  (cGet F (fo + u)).bind fun f =>
  let s1 := a1 * w1
  let s2 := a2 * w2
  let s3 := s1 + s2
  let s0 := s1 - s2
  let fm : ℂ := ⟨f.re - s3.re * 0.5, f.im - s3.im * 0.5⟩
  let s0 : ℂ := ⟨s0.re * epi3.im, s0.im * epi3.im⟩
  (cSet F (fo + u) (f + s3)).bind fun F =>
  (cSet F (fo + u + m2) ⟨fm.re + s0.im, fm.im - s0.re⟩).bind fun F =>
  cSet F (fo + u + m) ⟨fm.re - s0.im, fm.im + s0.re⟩

/-- Loop body of `kf_bfly5`, kiss_fft.c 161-196. -/
noncomputable def kfBfly5Body (tw : List ℂ) (ya yb : ℂ) (fo fstride m : Int) (F : List ℂ) (u : Int) : Res (List ℂ) :=
  (cGet F (fo + u)).bind fun s0 =>
  (cGet F (fo + m + u)).bind fun a1 => (cGet tw (u * fstride)).bind fun w1 =>
  (cGet F (fo + 2 * m + u)).bind fun a2 => (cGet tw (2 * u * fstride)).bind fun w2 =>
  (cGet F (fo + 3 * m + u)).bind fun a3 => (cGet tw (3 * u * fstride)).bind fun w3 =>
  (cGet F (fo + 4 * m + u)).bind fun a4 => (cGet tw (4 * u * fstride)).bind fun w4 =>
  let s1 := a1 * w1
  let s2 := a2 * w2
  let s3 := a3 * w3
  let s4 := a4 * w4
  let s7 := s1 + s4
  let s10 := s1 - s4
  let s8 := s2 + s3
  let s9 := s2 - s3
  (cSet F (fo + u) ⟨s0.re + (s7.re + s8.re), s0.im + (s7.im + s8.im)⟩).bind fun F =>
  let s5 : ℂ := ⟨s0.re + s7.re * ya.re + s8.re * yb.re, s0.im + s7.im * ya.re + s8.im * yb.re⟩
  let s6 : ℂ := ⟨s10.im * ya.im + s9.im * yb.im, -(s10.re * ya.im) - s9.re * yb.im⟩
  (cSet F (fo + m + u) (s5 - s6)).bind fun F =>
  (cSet F (fo + 4 * m + u) (s5 + s6)).bind fun F =>
  let s11 : ℂ := ⟨s0.re + s7.re * yb.re + s8.re * ya.re, s0.im + s7.im * yb.re + s8.im * ya.re⟩
  let s12 : ℂ := ⟨-(s10.im * yb.im) + s9.im * ya.im, s10.re * yb.im - s9.re * ya.im⟩
  (cSet F (fo + 2 * m + u) (s11 + s12)).bind fun F =>
  cSet F (fo + 3 * m + u) (s11 - s12)

/-- Innermost loop of `kf_bfly_generic`, kiss_fft.c 227-232: state `(Fout[k], twidx)`. -/
noncomputable def kfGenInner (tw scratch : List ℂ) (nfft fstride k : Int) (s : ℂ × Int) (q : Int) : Res (ℂ × Int) :=
  let twidx := s.2 + fstride * k
  let twidx := if twidx ≥ nfft then twidx - nfft else twidx
  (cGet scratch q).bind fun x => (cGet tw twidx).bind fun w => .ok (s.1 + x * w, twidx)

/-- Loop body of `kf_bfly_generic`, kiss_fft.c 215-236: gather `p` values into `scratch`, then write `p` sums. -/
noncomputable def kfBflyGenBody (tw : List ℂ) (nfft fo fstride m p : Int) (F : List ℂ) (u : Int) : Res (List ℂ) :=
  (mapM' (pyRange 0 p) (fun q1 => cGet F (fo + (u + q1 * m)))).bind fun scratch =>
  forM' (pyRange 0 p) F (fun F q1 =>
    let k := u + q1 * m
    (cGet scratch 0).bind fun x0 =>
    (forM' (pyRange 1 p) (x0, (0 : Int)) (kfGenInner tw scratch nfft fstride k)).bind fun s =>
    cSet F (fo + k) s.1)

/-- The `switch (p)` of `kf_work` with the five butterflies, kiss_fft.c 287-293. -/
noncomputable def kfBfly (cfg : KissCfg) (F : List ℂ) (fo fstride m p : Int) : Res (List ℂ) :=
  let tw := cfg.twiddles
  if p = 2 then forM' (pyRange 0 m) F (kfBfly2Body tw fo fstride m)
  else if p = 3 then
    (cGet tw (fstride * m)).bind fun epi3 => forM' (pyRange 0 m) F (kfBfly3Body tw epi3 fo fstride m)
  else if p = 4 then forM' (pyRange 0 m) F (kfBfly4Body tw cfg.inverse fo fstride m)
  else if p = 5 then
    (cGet tw (fstride * m)).bind fun ya => (cGet tw (fstride * 2 * m)).bind fun yb =>
    forM' (pyRange 0 m) F (kfBfly5Body tw ya yb fo fstride m)
  else forM' (pyRange 0 m) F (kfBflyGenBody tw cfg.nfft fo fstride m p)

/-- `kf_work`, kiss_fft.c 242-294, with `in_stride = 1`: writes `F[fo .. fo + p*m)`.  `Fout`, `f` are the arrays `F`,
`fin` at offsets `fo`, `fi`. The `do ... while` loops run `p` times (`p, m ≥ 1`; otherwise undefined behaviour). -/
noncomputable def kfWork (cfg : KissCfg) (fin : List ℂ) : List Int → List ℂ → Int → Int → Int → Res (List ℂ)
  | p :: m :: factors, F, fo, fi, fstride =>
    if p < 1 ∨ m < 1 then cUB
    else
      (if m = 1 then
        forM' (pyRange 0 p) F (fun F j => (cGet fin (fi + fstride * j)).bind fun x => cSet F (fo + j) x)
      else
        forM' (pyRange 0 p) F (fun F j => kfWork cfg fin factors F (fo + j * m) (fi + fstride * j) (fstride * p))).bind fun F =>
      kfBfly cfg F fo fstride m p
  | _, _, _, _, _ => cUB

/-- `kiss_fft(cfg, buf, buf)` (in place), kiss_fft.c 364-383: transform into a temporary buffer, then copy `nfft`
values back. -/
noncomputable def kissFft (cfg : KissCfg) (buf : List ℂ) (junk : Nat → ℂ) : Res (List ℂ) :=
  (cMalloc cfg.nfft junk).bind fun tmp =>
  (kfWork cfg buf cfg.factors tmp 0 0 1).bind fun tmp =>
  if cfg.nfft ≤ buf.length then .ok (tab buf.length fun i => if (i : Int) < cfg.nfft then rd tmp i else rd buf i)
  else cUB

end Verif
