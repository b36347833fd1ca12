import Verif.Model.CCl2
import Verif.Model.CCl3
import Verif.Model.CCl4
import Verif.Model.CCl5
import Verif.Model.CCl6
import Verif.Model.CLi2
import Verif.Model.CLi3
import Verif.Model.CLi4
import Verif.Model.CLi5
import Verif.Model.CLi6
import Verif.Model.CLog
import Verif.Model.CReduce
import Verif.Model.Cl
import Verif.Model.Cl1
import Verif.Model.Cl2
import Verif.Model.Cl3
import Verif.Model.Cl4
import Verif.Model.Cl5
import Verif.Model.Cl6
import Verif.Model.ClReduce
import Verif.Model.FCl
import Verif.Model.FLi2
import Verif.Model.FLi3
import Verif.Model.FLi4
import Verif.Model.FLi5
import Verif.Model.FLi6
import Verif.Model.FLog
import Verif.Model.Horner
import Verif.Model.Li
import Verif.Model.Li2
import Verif.Model.Li3
import Verif.Model.Li4
import Verif.Model.Li5
import Verif.Model.Li6
import Verif.Model.Ops
import Verif.Model.Sl
import Verif.Model.Tables
import Verif.Proofs.Approx
import Verif.Proofs.Bern
import Verif.Proofs.BernSer
import Verif.Proofs.BserTab
import Verif.Proofs.BserVals
import Verif.Proofs.CertClD
import Verif.Proofs.CertClHi
import Verif.Proofs.CertClLo
import Verif.Proofs.CertLi2
import Verif.Proofs.CertLi34
import Verif.Proofs.ClApx
import Verif.Proofs.ClApxTab
import Verif.Proofs.ClBTab
import Verif.Proofs.ClCoef
import Verif.Proofs.ClLip
import Verif.Proofs.ClMid
import Verif.Proofs.ClTab
import Verif.Proofs.Clausen
import Verif.Proofs.CoefCert
import Verif.Proofs.CutIm
import Verif.Proofs.Dup
import Verif.Proofs.Euler
import Verif.Proofs.EulerCert
import Verif.Proofs.Glaisher
import Verif.Proofs.Harmonic
import Verif.Proofs.Inversion
import Verif.Proofs.LiTaylor
import Verif.Proofs.LogRegion
import Verif.Proofs.NegSeries
import Verif.Proofs.PLiLip
import Verif.Proofs.Pi
import Verif.Proofs.PolyCert
import Verif.Proofs.PolylogBasic
import Verif.Proofs.PolylogCut
import Verif.Proofs.PowSer
import Verif.Proofs.RealLi
import Verif.Proofs.RealLi34
import Verif.Proofs.Unity
import Verif.Proofs.UnityAcc
import Verif.Proofs.UnityCut
import Verif.Proofs.UnityNeg
import Verif.Proofs.Zeta
import Verif.Props.C04
import Verif.Props.C13
import Verif.Props.C14
import Verif.Props.C15
import Verif.Props.C16
import Verif.Props.C23
import Verif.Props.C47
import Verif.Props.C48
import Verif.Props.C49
import Verif.Props.CAcc
import Verif.Props.CClReal
import Verif.Props.CCx
import Verif.Props.CLi2Cx
import Verif.Props.CLi2FPBr
import Verif.Props.CLi2FPGeo
import Verif.Props.CLi2FPInst
import Verif.Props.CLi2FPMain
import Verif.Props.CReal
import Verif.Props.Cl1Real
import Verif.Props.Cl2FP
import Verif.Props.Cl2Real
import Verif.Props.Cl3FP
import Verif.Props.Cl3Real
import Verif.Props.Cl4FP
import Verif.Props.Cl4Real
import Verif.Props.Cl5FP
import Verif.Props.Cl5Real
import Verif.Props.Cl6FP
import Verif.Props.Cl6Real
import Verif.Props.ClFPEx
import Verif.Props.ClFPGen
import Verif.Props.ClGen
import Verif.Props.ClMidAcc
import Verif.Props.ClMidFP
import Verif.Props.ClMidFP2
import Verif.Props.ClMidFP3
import Verif.Props.ClMidFP4
import Verif.Props.ClMidFP5
import Verif.Props.ClMidFP6
import Verif.Props.ClMidFP7
import Verif.Props.ClMidReal
import Verif.Props.ClMin
import Verif.Props.ClogFP
import Verif.Props.Conj
import Verif.Props.Cost
import Verif.Props.CostBound
import Verif.Props.CutFP
import Verif.Props.CxLibEx
import Verif.Props.EtaVals
import Verif.Props.Examples
import Verif.Props.FClReal
import Verif.Props.FLi2Cx
import Verif.Props.FLiCx
import Verif.Props.FLiCxMain
import Verif.Props.FLiReal
import Verif.Props.FPDepth
import Verif.Props.FPHang
import Verif.Props.FPNan
import Verif.Props.FPParity
import Verif.Props.FPRange
import Verif.Props.FPSeries
import Verif.Props.FPSeriesReal
import Verif.Props.FPSeriesSmall
import Verif.Props.FPSpecial
import Verif.Props.Horner
import Verif.Props.InvFac
import Verif.Props.Li2Cx
import Verif.Props.Li2FP
import Verif.Props.Li2FPFin
import Verif.Props.Li2FPMain
import Verif.Props.Li2Real
import Verif.Props.Li34FPApp
import Verif.Props.Li34FPCert
import Verif.Props.Li34FPOne
import Verif.Props.Li3Cx
import Verif.Props.Li3FPMain
import Verif.Props.Li3Real
import Verif.Props.Li4Cx
import Verif.Props.Li4FPMain
import Verif.Props.Li4Real
import Verif.Props.Li5Cx
import Verif.Props.Li6Cx
import Verif.Props.LiAxis
import Verif.Props.LiCxGen
import Verif.Props.LiCxInv
import Verif.Props.LiDispatch
import Verif.Props.LiFPBr
import Verif.Props.LiFPCx
import Verif.Props.LiFPGeo
import Verif.Props.LiFPInst
import Verif.Props.LiFPLong
import Verif.Props.LiFPMain
import Verif.Props.LiInvAcc
import Verif.Props.LiNegAcc
import Verif.Props.LiNegLimit
import Verif.Props.LiNegRec
import Verif.Props.LiReal28
import Verif.Props.LiSeriesAcc
import Verif.Props.LiUB
import Verif.Props.LiUnityAcc
import Verif.Props.PortCx
import Verif.Props.PortFP
import Verif.Props.PortFPInst
import Verif.Props.PortFPLi2
import Verif.Props.PortFPLong
import Verif.Props.PortTiny
import Verif.Props.SerFP
import Verif.Props.SerFPK
import Verif.Props.SerFPMain
import Verif.Props.SlFP
import Verif.Props.SlFPGen
import Verif.Props.SlGen
import Verif.Props.SlPoly
import Verif.Props.SlSeries
import Verif.Props.TablesUB
import Verif.Props.UnityStop
import Verif.Props.UnityStop2
import Verif.Props.ZetaVals
import Verif.Sem.Attr
import Verif.Sem.CEHorner
import Verif.Sem.CEReify
import Verif.Sem.CxLib
import Verif.Sem.FPAbsorb
import Verif.Sem.FPC
import Verif.Sem.FPCE
import Verif.Sem.FPExpr
import Verif.Sem.FPFast
import Verif.Sem.FPNear
import Verif.Sem.FPProg
import Verif.Sem.FPReify
import Verif.Sem.FPVal
import Verif.Sem.IEEE
import Verif.Sem.IEEELemmas
import Verif.Sem.Lit
import Verif.Sem.LitBits
import Verif.Sem.Real
import Verif.Sem.RealLemmas
import Verif.Spec.Polylog
