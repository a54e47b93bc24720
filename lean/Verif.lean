import Verif.Py
import Verif.Arr2
import Verif.Coefs
import Verif.Spec
import Verif.CoefsLemmas
import Verif.CoefsLemmas2
import Verif.CoefsFn
import Verif.CoefsLemmas3
import Verif.Props.Coefs1
import Verif.Props.Coefs2
import Verif.Pattern
import Verif.Props.Patterns
import Verif.Math.Legendre
import Verif.Math.Trig
import Verif.Math.Theta
import Verif.Math.Ortho
import Verif.SpecSH
import Verif.Fourier
import Verif.Sphi
import Verif.SphiY
import Verif.SphiQ
import Verif.SphiH
import Verif.SphiB
import Verif.SphiSeg
import Verif.SphiS
import Verif.SphiProj
import Verif.CMem
import Verif.Kiss
import Verif.KissFactor
import Verif.KissWork
import Verif.KissDft
import Verif.Props.Harmonics
import Verif.Props.Kiss
import Verif.Ops
import Verif.CSphi
import Verif.CSphiY
import Verif.CSphiA
import Verif.CSphiB
import Verif.CSphiS
import Verif.Transforms
import Verif.TransF
import Verif.TransS
import Verif.TransI
import Verif.TransP
import Verif.Props.Transforms
import Verif.Props.Transforms2
import Verif.Props.Transforms3
import Verif.Props.Transforms4
import Verif.VecT
import Verif.VecOps
import Verif.VecTrans
import Verif.VecRound
import Verif.VecField
import Verif.Props.Vector
import Verif.Props.Vector2
import Verif.Props.Vector3
import Verif.Props.Vector4
import Verif.Props.Operators
import Verif.Props.Linear
import Verif.Props.HarmTp
import Verif.BesselMath
import Verif.Bessel
import Verif.BesselRun
import Verif.Props.Bessel
import Verif.File
import Verif.FileLemmas
import Verif.FloatText
import Verif.Props.Files
import Verif.Heap
import Verif.HeapLemmas
import Verif.HeapOps
import Verif.HeapTrans
import Verif.SpecHeap
import Verif.Props.Heap
import Verif.Props.Norms
import Verif.Verify
import Verif.Props.Verify
import Verif.Props.Coefs3
import Verif.Config
import Verif.Props.Config
import Verif.Plot
import Verif.Props.Plot
import Verif.FloatArith
import Verif.Props.FloatSym
import Verif.BesselEnd
import Verif.BesselSum
import Verif.BesselTest
import Verif.Props.Bessel2
import Verif.Props.Symmetry
import Verif.Props.Symmetry2
import Verif.Props.Symmetry3
import Verif.CoefsText
import Verif.Props.CoefsText
import Verif.Math.Addition
import Verif.Math.Bessel
import Verif.StabMath
import Verif.Props.Stability
import Verif.Props.Exact
import Verif.Math.VecHarm
import Verif.StabMathV
import Verif.Props.Stability2
import Verif.Alias
import Verif.Props.Alias
import Verif.PatternView
import Verif.Props.PatternView
import Verif.Typed
import Verif.Props.Typed
import Verif.Props.Spectrum
import Verif.Props.FloatOps
import Verif.FloatSum
import Verif.Props.FloatPower
import Verif.FloatYnm
import Verif.Props.FloatYnm
import Verif.Props.FloatYnm2
import Verif.Props.FloatYnm3
import Verif.Props.FloatYnm4
import Verif.Props.Transforms5
import Verif.Props.Negative
import Verif.FloatSynth
import Verif.Props.FloatSynth
import Verif.CInt
import Verif.Props.CInt
import Verif.Props.CInt2
import Verif.Props.CInt3
import Verif.Props.CInt4
import Verif.Math.Rotation
import Verif.Props.Rotation
import Verif.Math.RotationV
import Verif.Props.RotationV
import Verif.Math.TableStab
import Verif.Math.TableStab2
import Verif.Math.TableStab3
import Verif.Props.FloatTable
import Verif.Props.FloatTable2
import Verif.Props.FloatTable3
import Verif.Props.FloatSynth2
import Verif.Props.FloatSynth3
import Verif.FloatAnal
import Verif.Props.FloatAnal
import Verif.Props.FloatAnal2
import Verif.Props.FloatAnal3
import Verif.Props.FloatAnal4
import Verif.Props.FloatAnal5
import Verif.Props.FloatRound
import Verif.FloatVec
import Verif.Props.FloatVec1
import Verif.Props.FloatVec2
import Verif.Props.FloatVec3
import Verif.Props.FloatVec4
import Verif.Props.FloatVec5
import Verif.Props.FloatVec6
import Verif.Props.FloatVec7
import Verif.Props.FloatVec8
import Verif.Props.FloatKiss7
import Verif.Props.FloatKissL1
import Verif.Props.FloatKiss16
import Verif.Props.FloatKiss18
import Verif.Props.FloatBes13
import Verif.Props.FloatBes14
import Verif.Props.FloatBesY3
import Verif.FloatPyConv
import Verif.Props.FloatPy4
import Verif.FloatPow
import Verif.Props.FloatPow
import Verif.FloatFft2
import Verif.Props.FloatFft2
import Verif.Props.FloatFft3
import Verif.Props.FloatUser1
import Verif.Props.FloatUser2
import Verif.Props.FloatUser3
import Verif.Props.FloatUser4
import Verif.Props.FloatUser5
import Verif.Props.FloatUser6
import Verif.Props.FloatUser7
import Verif.Props.FloatUser8
import Verif.Wrap
import Verif.Props.Wrap
import Verif.Props.FloatRepro
import Verif.Props.FloatPad
import Verif.Props.FloatPad2
import Verif.FloatNorm
import Verif.Props.FloatNorm
import Verif.Props.FloatNorm2
import Verif.Props.FloatNorm3
import Verif.Props.FloatNorm4
import Verif.Math.Product
import Verif.Props.Calculus
import Verif.Props.Calculus2
import Verif.Props.Product
import Verif.Props.Product2
import Verif.Props.Filter
import Verif.Props.Helmholtz
import Verif.Props.FilterV
import Verif.Math.Addition2
import Verif.Props.Zonal
import Verif.FileX
import Verif.Props.FilesX
import Verif.BesselX
import Verif.Props.BesselX
import Verif.Props.Crash
import Verif.Threads
import Verif.ThreadRun
import Verif.ThreadPar
import Verif.ThreadSim
import Verif.Props.Threads
import Verif.Props.Switch
import Verif.Props.FloatTrips
import Verif.Props.FloatTrips2
import Verif.Props.FilesV
import Verif.Props.FilesP
import Verif.Props.FloatTurn5
import Verif.FloatSlow
import Verif.Props.Slow
import Verif.FloatTp
import Verif.Props.FloatTp
import Verif.Wrap2
import Verif.Props.Wrap2
import Verif.NanX
import Verif.Props.NanX
import Verif.Props.NanX2
import Verif.NanC
import Verif.Props.NanC
import Verif.Props.NanC1
import Verif.Props.NanC2
import Verif.Props.NanC3
import Verif.Props.NanC4
import Verif.NanV
import Verif.Props.NanV
import Verif.Props.NanV2
import Verif.Props.InfX
import Verif.Props.FloatPower2
import Verif.Props.FloatParseval
import Verif.Props.FloatParseval2
import Verif.Props.VecParseval
import Verif.Props.FloatParseval3
import Verif.Props.VecSpectrum
import Verif.Props.Dirichlet
import Verif.Props.BestApprox
import Verif.Props.BestApproxV
import Verif.Props.NearBest
import Verif.Props.NearBestV
import Verif.Props.Truncate
