import Verif.Props.Csc
import Verif.Props.Doid
import Verif.Props.MatCheck
import Verif.Props.Overflow
import Verif.Props.Dense
import Verif.Props.Ell
import Verif.Props.Csrmv
import Verif.Props.CsrmvSym
import Verif.Props.CsrOpt
import Verif.Props.Dia
import Verif.Props.Bsr
import Verif.Props.Bsrmv
import Verif.Props.BlkCsr
import Verif.Props.Trsv
import Verif.Props.CsrAdd
import Verif.Props.Sp2m
import Verif.Props.Csrmm
import Verif.Model.Expand
import Verif.Proofs.Expand
import Verif.Proofs.Expand2
import Verif.Proofs.Expand3
import Verif.Props.Expand
import Verif.Model.Level1
import Verif.Proofs.Level1
import Verif.Props.Level1
import Verif.Model.Sp2md
import Verif.Proofs.Sp2md
import Verif.Props.Sp2md
import Verif.Proofs.Br4
import Verif.Proofs.EllMv512
import Verif.Proofs.Mv
import Verif.Proofs.Mv2
import Verif.Proofs.Mv3
import Verif.Proofs.Mv4
import Verif.Props.Mv
import Verif.Model.Dotmv
import Verif.Props.Dotmv
import Verif.Model.Ilu
import Verif.Spec.Ilu
import Verif.Proofs.Ilu
import Verif.Proofs.Ilu2
import Verif.Props.Ilu
import Verif.Model.Symgs
import Verif.Spec.Smooth
import Verif.Props.TrsvH
import Verif.Proofs.Symgs
import Verif.Proofs.Sor
import Verif.Props.Symgs
import Verif.Props.Update
import Verif.Props.History
import Verif.Model.Own
import Verif.Spec.Own
import Verif.Proofs.Own
import Verif.Proofs.Own2
import Verif.Proofs.Own3
import Verif.Props.Own
import Verif.Props.OwnEx
import Verif.Props.Descr
import Verif.Props.Hints
import Verif.Props.Conc
import Verif.Props.Dispatch
import Verif.Props.Opts
import Verif.Props.CgCases
import Verif.Props.Tcsr
import Verif.Props.Convert
import Verif.Props.Syrk
import Verif.Props.Sypr
import Verif.Props.Syrkd
import Verif.Props.Trsm
import Verif.Model.GmTalk
import Verif.Spec.Gmres
import Verif.Spec.GmExact
import Verif.Props.Gmres
import Verif.Props.GmExact
import Verif.Props.GmReal
import Verif.Props.GmCases
import Verif.Props.GmDirect
import Verif.Model.Csrsv
import Verif.Proofs.Csrsv
import Verif.Props.Csrsv
import Verif.Spec.Rounding
import Verif.Model.Rounded
import Verif.Proofs.Rounding
import Verif.Proofs.Rounded
import Verif.Props.Rounded
import Verif.Spec.RoundedSolve
import Verif.Model.RoundedTrsv
import Verif.Proofs.RoundedTrsv
import Verif.Proofs.RoundedTrsv2
import Verif.Proofs.RoundedSolve
import Verif.Props.RoundedTrsv
import Verif.Spec.Sgs
import Verif.Model.CgGs
import Verif.Proofs.CgGs
import Verif.Proofs.SgsSpd
import Verif.Props.CgGs
import Verif.Model.GmIlu
import Verif.Spec.LuProduct
import Verif.Proofs.GmIlu
import Verif.Proofs.GmRefused
import Verif.Props.GmIlu
import Verif.Model.RoundedIlu
import Verif.Spec.RoundedIlu
import Verif.Proofs.RoundedIlu
import Verif.Proofs.RoundedIlu2
import Verif.Proofs.RoundedIlu3
import Verif.Props.RoundedIlu
import Verif.Model.KtLanes
import Verif.Spec.KtLanes
import Verif.Proofs.KtLanes
import Verif.Proofs.KtLoads
import Verif.Props.KtLanes
import Verif.Model.Life
import Verif.Proofs.Life
import Verif.Props.Life
import Verif.Model.SpTypes
import Verif.Props.Types
import Verif.Model.ConcDiag
import Verif.Proofs.ConcDiag
import Verif.Props.ConcDiag
import Verif.Model.Oom
import Verif.Proofs.Oom
import Verif.Proofs.Oom2
import Verif.Proofs.Oom3
import Verif.Proofs.Oom4
import Verif.Props.Oom
import Verif.Spec.RoundedMm
import Verif.Proofs.RoundedSp2m
import Verif.Proofs.RoundedSp2m2
import Verif.Proofs.RoundedSp2m3
import Verif.Props.RoundedSp2m
import Verif.Model.OomSp2m
import Verif.Proofs.OomSp2m
import Verif.Proofs.OomAdd
import Verif.Props.OomSp2m
import Verif.Core.Sched
import Verif.Model.Sched
import Verif.Proofs.Sched
import Verif.Proofs.AddExact
import Verif.Proofs.AddExact2
import Verif.Proofs.SchedAdd
import Verif.Props.Sched
import Verif.Spec.RoundedAdd
import Verif.Proofs.AddStored
import Verif.Props.RoundedAdd
import Verif.Core.SchedRows
import Verif.Model.SchedMm
import Verif.Proofs.SchedMm
import Verif.Proofs.SchedMm2
import Verif.Proofs.SchedMm3
import Verif.Props.SchedMm
import Verif.Spec.MmExact
import Verif.Proofs.MmExact
import Verif.Proofs.MmExact2
import Verif.Proofs.MmExact3
import Verif.Proofs.MmExact4
import Verif.Spec.Contract
import Verif.Proofs.MmRound
import Verif.Props.MmExact
import Verif.Core.Crit
import Verif.Spec.MvtExact
import Verif.Model.SchedMvt
import Verif.Proofs.SchedMvt
import Verif.Proofs.MvtRound
import Verif.Props.SchedMvt
import Verif.Model.SchedMv
import Verif.Proofs.SchedMv
import Verif.Props.SchedMv
import Verif.Spec.MvErr
import Verif.Proofs.Shadow
import Verif.Proofs.ShadowMv
import Verif.Proofs.ShadowTri
import Verif.Proofs.ShadowFmt
import Verif.Proofs.ShadowSym
import Verif.Props.MvRound
import Verif.Spec.MdExact
import Verif.Proofs.MdExact
import Verif.Props.MdExact
import Verif.Spec.BsrExact
import Verif.Proofs.BsrExact
import Verif.Props.BsrExact
import Verif.Spec.DiaExact
import Verif.Proofs.DiaExact
import Verif.Props.DiaExact
import Verif.Spec.Level1Exact
import Verif.Props.Level1Exact
import Verif.Spec.BlkCsrExact
import Verif.Proofs.BlkCsrExact
import Verif.Props.BlkCsrExact
import Verif.Spec.SyprdExact
import Verif.Proofs.SyprdExact
import Verif.Props.SyprdExact
import Verif.Spec.SyrkdExact
import Verif.Proofs.SyrkdExact
import Verif.Props.SyrkdExact
import Verif.Model.RoundedTrsm
import Verif.Proofs.RoundedTrsm
import Verif.Props.RoundedTrsm
import Verif.Proofs.TrsvBits
import Verif.Props.TrsmBits
import Verif.Model.RoundedSor
import Verif.Proofs.RoundedSor
import Verif.Props.RoundedSor
import Verif.Model.CsrmvtInt
import Verif.Props.CsrmvtInt
import Verif.Model.SyrkInt
import Verif.Props.SyrkInt
import Verif.Model.MvStats
import Verif.Props.MvStats
import Verif.Model.BsrInt
import Verif.Props.BsrInt
import Verif.Model.GmresInt
import Verif.Props.GmresInt
import Verif.Model.PrefixInt
import Verif.Props.PrefixInt
import Verif.Model.DiaInt
import Verif.Props.DiaInt
import Verif.Model.EllInt
import Verif.Props.EllInt
import Verif.Model.ElltInt
import Verif.Props.ElltInt
