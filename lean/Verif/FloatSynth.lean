import Verif.FloatYnm
import Verif.Transforms
/-!
# Synthesis in double precision

`fcvec_m_sc` and `sc_to_fc` of pysphi.py (227-274) and of csphi.c (423-552), and `ispht` (spherepy.py 2020-2079), with every operation rounded.
`np.fft.ifft2` and the scaling that follows it are one parameter (`post`): both backends call the same NumPy code on the array of Fourier coefficients.
C is assumed to evaluate doubles as doubles (no excess precision, no fused multiply-add), and `pow(-1.0, e)` to be exactly ±1.
-/
namespace Verif
namespace Fl

noncomputable section
variable (rnd : ℝ → ℝ)

/-- The loop body of `fcvec_m_sc`, pysphi.py 232-236: the real table is converted to complex128 before the product. -/
def fcvecBody (vec : List (FC rnd)) (m nmax : Int) (F : List (FC rnd)) (n : Int) : Res (List (FC rnd)) :=
  (Fl.ynunm rnd n m (nmax + 1)).bind fun ynm =>
  (getIdx vec (n - |m|)).bind fun v =>
  addPrefix F (nmax + 1) (List.map (fun (y : ℝ) => v * (⟨y, 0⟩ : FC rnd)) ynm)

/-- `fcvec_m_sc(vec, m, nmax, nrows)`, pysphi.py 227-249; `jp m` is the value CPython computes for `1j ** m` (line 238). -/
def fcvecMSc (jp : Int → FC rnd) (vec : List (FC rnd)) (m nmax nrows : Int) : Res (List (FC rnd)) :=
  (npFull nrows (0 : FC rnd)).bind fun F =>
  (forM' (pyRange |m| (nmax + 1)) F (Fl.fcvecBody rnd vec m nmax)).bind fun F =>
  let k := clampIdx F.length (nmax + 1)
  let F := tab F.length fun i => if i < k then rd F i * jp m else rd F i
  let mm : FC rnd := ⟨(-1) ^ m, 0⟩
  let r := F.length
  let H := if r % 2 = 0 then r / 2 - 1 else (r - 1) / 2
  .ok (tab r fun i => if r - H ≤ i then mm * rd F (r - i) else rd F i)

/-- The block repeated three times in `sc_to_fc` (pysphi.py 258-261, 263-266, 269-272). -/
def scToFcCol (jp : Int → FC rnd) (spvec : List (FC rnd)) (nmax mmax nrows : Int) (fdata : Arr2 (FC rnd)) (kk : Int) : Res (Arr2 (FC rnd)) :=
  (mindx kk nmax mmax).bind fun ind =>
  (Fl.fcvecMSc rnd jp (getSlice spvec ind (ind + nmax - |kk| + 1)) kk nmax nrows).bind fun F =>
  setColumn fdata kk F

/-- The loop body of `sc_to_fc`, pysphi.py 256-272. -/
def scToFcBody (jp : Int → FC rnd) (spvec : List (FC rnd)) (nmax mmax nrows : Int) (fdata : Arr2 (FC rnd)) (k : Int) : Res (Arr2 (FC rnd)) :=
  (if k < mmax then
    (Fl.scToFcCol rnd jp spvec nmax mmax nrows fdata k).bind fun fdata =>
    Fl.scToFcCol rnd jp spvec nmax mmax nrows fdata (-(k + 1))
  else .ok fdata).bind fun fdata =>
  if k = mmax then Fl.scToFcCol rnd jp spvec nmax mmax nrows fdata k else .ok fdata

/-- `sc_to_fc(spvec, nmax, mmax, nrows, ncols)`, pysphi.py 251-274. -/
def scToFc (jp : Int → FC rnd) (spvec : List (FC rnd)) (nmax mmax nrows ncols : Int) : Res (Arr2 (FC rnd)) :=
  (npZeros2 nrows ncols).bind fun fdata =>
  forM' (pyRange 0 (halfTrunc ncols)) fdata (Fl.scToFcBody rnd jp spvec nmax mmax nrows)

/-- `i**m * v` as `fcvec_m_sc` computes it, csphi.c 456-467. -/
def cMulIPow (m : Int) (v : FC rnd) : FC rnd :=
  if (|m|).tmod 2 = 1 then
    ⟨rnd (-cPowNegOne ((m - 1).tdiv 2) * v.im), rnd (cPowNegOne ((m - 1).tdiv 2) * v.re)⟩
  else ⟨rnd (cPowNegOne (m.tdiv 2) * v.re), rnd (cPowNegOne (m.tdiv 2) * v.im)⟩

/-- Body of the accumulation loop of `fcvec_m_sc`, csphi.c 436-449; state `(fdata, y)`. -/
def cFcvecAcc (sc : List (FC rnd)) (off m Nmax Ncol M len : Int) (st : List (FC rnd) × List ℝ) (n : Int) :
    Res (List (FC rnd) × List ℝ) :=
  (Fl.cYnunm rnd n m st.2 len).bind fun y =>
  (forM' (pyRange 0 (Nmax + 1)) st.1 (fun F k =>
    (cGet F (k * Ncol + M)).bind fun t =>
    (cGet sc (off + (n - |m|))).bind fun v =>
    (cGet y k).bind fun yk =>
    cSet F (k * Ncol + M) ⟨rnd (t.re + rnd (v.re * yk)), rnd (t.im + rnd (v.im * yk))⟩)).bind fun F =>
  .ok (F, y)

/-- `fcvec_m_sc(vec, m, Nmax, fdata, Nrow, Ncol, M, y, len)`, csphi.c 423-486; `vec` is `sc` at offset `off`. -/
def cFcvecMSc (sc : List (FC rnd)) (off m Nmax Nrow Ncol M len : Int) (st : List (FC rnd) × List ℝ) :
    Res (List (FC rnd) × List ℝ) :=
  (forM' (pyRange |m| (Nmax + 1)) st (Fl.cFcvecAcc rnd sc off m Nmax Ncol M len)).bind fun st =>
  (forM' (pyRange 0 (Nmax + 1)) st.1 (fun F k =>
    (cGet F (k * Ncol + M)).bind fun t => cSet F (k * Ncol + M) (Fl.cMulIPow rnd m t))).bind fun F =>
  let mm : ℝ := (-1 : ℝ) ^ m
  let H := if Nrow.tmod 2 = 0 then Nrow.tdiv 2 - 1 else (Nrow - 1).tdiv 2
  (forM' (pyRange 0 H) F (fun F k =>
    (cGet F (Ncol * (k + 1) + M)).bind fun t =>
    cSet F (Ncol * (Nrow - 1 - k) + M) ⟨rnd (mm * t.re), rnd (mm * t.im)⟩)).bind fun F =>
  .ok (F, st.2)

/-- `sc_to_fc(fdata, Nrow, Ncol, sc, L, Nmax, Mmax)`, csphi.c 499-552: the final content of `fdata`. -/
def cScToFc (fdata : List (FC rnd)) (Nrow Ncol : Int) (sc : List (FC rnd)) (Nmax Mmax : Int) (J : CJunk) :
    Res (List (FC rnd)) :=
  (cMalloc (Nmax + 1) J.r).bind fun y =>
  (cMalloc (2 * Mmax + 1) J.i).bind fun inds =>
  (cMemset0 inds (2 * Mmax + 1)).bind fun inds =>
  (cInds Nmax Mmax inds).bind fun inds =>
  (forM' (pyRange 0 (Ncol.tdiv 2 + 1)) (fdata, y) (fun st k =>
    if k < Mmax then
      (cGet inds (2 * k)).bind fun o1 =>
      (Fl.cFcvecMSc rnd sc o1 k Nmax Nrow Ncol k (Nmax + 1) st).bind fun st =>
      (cGet inds (2 * (k + 1) - 1)).bind fun o2 =>
      Fl.cFcvecMSc rnd sc o2 (-(k + 1)) Nmax Nrow Ncol (Ncol - 1 - k) (Nmax + 1) st
    else if k = Mmax then
      (cGet inds (2 * k)).bind fun o =>
      Fl.cFcvecMSc rnd sc o k Nmax Nrow Ncol k (Nmax + 1) st
    else .ok st)).bind fun st => .ok st.1

/-- `csphi.sc_to_fc` on `np.zeros([dnrows, ncols])` or `pysphi.sc_to_fc`, spherepy.py 2066-2074, 2113-2129. -/
def backendScToFc (jp : Int → FC rnd) (b : Backend) (call : Nat) (vec : List (FC rnd)) (nmax mmax dnrows ncols : Int) : Res (Arr2 (FC rnd)) :=
  match b with
  | .py => Fl.scToFc rnd jp vec nmax mmax dnrows ncols
  | .c J =>
    (npZeros2 dnrows ncols).bind fun z =>
    (Fl.cScToFc rnd z.flat z.rows z.cols vec nmax mmax (J call)).bind fun l =>
    .ok (unflat z.rows z.cols l)

/-- `ispht(scoefs, nrows, ncols)`, spherepy.py 2020-2079, in doubles; `post` is line 2077. -/
def ispht (jp : Int → FC rnd) (post : Arr2 (FC rnd) → Int → Int → Res (Arr2 (FC rnd))) (b : Backend) (c : ScalarCoefs (FC rnd)) (nrows ncols : Option Int) :
    Res (SPatt (FC rnd)) :=
  let nr := nrows.getD (c.nmax + 2)
  let nc := ncols.getD (2 * c.mmax + 2)
  (isphtGuards c.nmax c.mmax nr nc).bind fun _ =>
  let dn := 2 * nr - 2
  (Fl.backendScToFc rnd jp b 0 c.vec c.nmax c.mmax dn nc).bind fun f =>
  (post f dn nc).bind fun ds =>
  SPatt.init (.arr ds) true

/-- `nvec` of `vispht`, spherepy.py 2103-2105, in doubles: `1.0 / np.sqrt(n * (n + 1.0))` stored as complex128. -/
def nvec (nmax : Int) : Res (List (FC rnd)) :=
  (npFull (nmax + 1) (0 : FC rnd)).bind fun v =>
  forM' (pyRange 1 (nmax + 1)) v fun v n => setIdx v n ⟨rnd (1 / rnd (Real.sqrt (rnd (ofInt rnd n * rnd (ofInt rnd n + 1))))), 0⟩

/-- `vispht(vcoefs, nrows, ncols)`, spherepy.py 2081-2139, in doubles; `post` is lines 2130-2139 (`L_fc`, `np.fft.ifft2`), where the backends do not differ. -/
def vispht (jp : Int → FC rnd) (post : Arr2 (FC rnd) → Arr2 (FC rnd) → Int → Int → Res (TPatt (FC rnd))) (b : Backend) (c : VectorCoefs (FC rnd))
    (nrows ncols : Option Int) : Res (TPatt (FC rnd)) :=
  let nr := nrows.getD (c.nmax + 2)
  let nc := ncols.getD (2 * c.mmax + 2)
  (visphtGuards c.nmax c.mmax nr nc).bind fun _ =>
  let dn := 2 * nr - 2
  (Fl.nvec rnd c.nmax).bind fun w =>
  c.scoef1.copy.bind fun s1 =>
  c.scoef2.copy.bind fun s2 =>
  (s1.windowed w).bind fun s1 =>
  (s2.windowed w).bind fun s2 =>
  (Fl.backendScToFc rnd jp b 0 s1.vec s1.nmax s1.mmax dn nc).bind fun f1 =>
  (match b with
    | .py => Fl.backendScToFc rnd jp b 1 s2.vec s2.nmax s2.mmax dn nc
    | .c _ => Fl.backendScToFc rnd jp b 1 s2.vec s1.nmax s1.mmax dn nc).bind fun f2 =>
  post f1 f2 dn nc

end
end Fl
end Verif
