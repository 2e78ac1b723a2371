import Verif.Base
import Verif.Defs
import Verif.State
import Verif.Coag
import Verif.Mech
import Verif.Model
import Verif.Sect
import Verif.Inv
import Verif.SectInv
import Verif.Logn
import Verif.Props.State
import Verif.Props.Coag
import Verif.Props.Kernels
import Verif.Props.Mech
import Verif.Props.Rates
import Verif.Props.Ex
import Verif.Props.Mono
import Verif.Props.MonoPah
import Verif.Props.MonoTar
import Verif.Bio
import Verif.Props.Bio
import Verif.Props.Sect
import Verif.Props.SectModel
import Verif.Props.SectStatic
import Verif.Props.Logn
import Verif.Qmom
import Verif.Props.QmomInv
import Verif.Props.QmomRound
import Verif.Props.Qmom
import Verif.MomInv
import Verif.Props.QmomModel
import Verif.Props.QmomDown
import Verif.Momic
import Verif.Props.MomicInterp
import Verif.Props.MomicVals
import Verif.Props.Momic
import Verif.Props.MomicModel
import Verif.Props.MomicExact
import Verif.Props.Compose
import Verif.Hmom
import Verif.Props.Hmom
import Verif.Interp
import Verif.Props.Interp
import Verif.Names
import Verif.Props.Names
import Verif.CIface
import Verif.Props.CIface
import Verif.Props.Orders
import Verif.Props.LognColl
import Verif.Props.Docs
import Verif.Fort
import Verif.Props.Fort
import Verif.Props.Ctor
import Verif.Own
import Verif.Props.Own
import Verif.Trace
import Verif.Props.Safe
import Verif.Props.Trace
import Verif.Props.HmomModes
import Verif.Props.SectEq
import Verif.Props.Pure
import Verif.Props.Reads
import Verif.Burner
import Verif.Props.Burner
import Verif.Props.BurnerTar
import Verif.Fp
import Verif.Props.Fp
import Verif.Props.FpCoag
import Verif.Props.Agree
import Verif.Props.BurnerMomic
import Verif.Props.QmomExact
import Verif.Props.TarLaws
import Verif.Props.BioTable
import Verif.Props.Drain
import Verif.Props.Scaling
import Verif.Simple
import Verif.Props.Simple
import Verif.FlameFile
import Verif.Props.FlameFile
import Verif.Props.Regimes
import Verif.Props.SectRound
import Verif.Props.CoagDocs
import Verif.MomicDown
import Verif.Props.MomicDown
import Verif.FpMass
import Verif.Props.FpMass
import Verif.Props.Realis
import Verif.Props.MomicPoly
import Verif.Props.MomicEq
import Verif.Props.SectOrder
import Verif.FpSect
import Verif.Props.FpSect
import Verif.Props.FpSectCoag
import Verif.Props.Reactor
import Verif.Props.Interleave
import Verif.Props.FpKernelAcc
import Verif.Props.Continuity
import Verif.Props.RateAccuracy
import Verif.Props.MonoAccuracy
import Verif.Props.HacaSites
import Verif.Props.SourceCont
import Verif.Props.SectCont
import Verif.Props.LognCont
import Verif.Props.PahCont
import Verif.Props.MomicCont
import Verif.Props.Evolution
import Verif.Props.SectEvolution
import Verif.Props.MonoRun
import Verif.Props.LognRun
import Verif.Props.LognRealis
import Verif.Props.LognGlobal
import Verif.FpLogn
import Verif.Props.FpLogn
import Verif.Props.LognAccuracy
import Verif.Props.MonoGlobal
import Verif.Props.SectLong
import Verif.FpSectAll
import Verif.Props.FpSectErr
import Verif.Props.FpSectSum
import Verif.Props.SectAccuracy
import Verif.Props.GasLen
import Verif.Props.SootLen
import Verif.Props.PahNucl
import Verif.Props.PahVanish
import Verif.Props.LognPahCont
import Verif.Props.MomicPahCont
import Verif.Props.Inert
