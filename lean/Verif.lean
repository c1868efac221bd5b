import Verif.Basic
import Verif.BasicLemmas
import Verif.Gtlv
import Verif.GtlvLemmas
import Verif.SpecTlv
import Verif.PropsTlv
import Verif.DecEnc
import Verif.DecEncLemmas
import Verif.EncLemmas
import Verif.OrdLemmas
import Verif.SpecDecEnc
import Verif.PropsDecEnc
import Verif.PropsDecEnc2
import Verif.SpecOrd
import Verif.OrdSpec
import Verif.PropsOrd
import Verif.Ies
import Verif.SpecIes
import Verif.IesLemmas
import Verif.IesLemmas2
import Verif.IesLemmas3
import Verif.IesLemmas4
import Verif.PropsIes
import Verif.Tables
import Verif.Msg
import Verif.SpecMsg
import Verif.MsgLemmas
import Verif.AppendLemmas
import Verif.HdrLemmas
import Verif.PropsMsg
import Verif.RxLemmas
import Verif.PropsMsg2
import Verif.Endpoint
import Verif.EndpointSteps
import Verif.SpecEndpoint
import Verif.EndpointLife
import Verif.EndpointTally
import Verif.PropsEndpoint
import Verif.EndpointRx
import Verif.EndpointSeq
import Verif.PropsEndpoint2
import Verif.EndpointLog
import Verif.PropsEndpoint3
import Verif.PropsEndpoint4
import Verif.EndpointTime
import Verif.PropsEndpoint5
import Verif.Peer
import Verif.SpecPeer
import Verif.EndpointUse
import Verif.EndpointPeer
import Verif.EndpointPeer2
import Verif.PropsPeer
import Verif.EndpointRetry
import Verif.PropsRetry
import Verif.ValueStrs
import Verif.Strs
import Verif.SpecStrs
import Verif.StrsLemmas
import Verif.PropsStrs
import Verif.SpecSafe
import Verif.EndpointSafe
import Verif.PropsSafe
import Verif.SizeLemmas
import Verif.PropsSize
import Verif.SpecReads
import Verif.PropsReads
import Verif.SpecClosed
import Verif.PropsClosed
import Verif.Gen
import Verif.SpecGen
import Verif.GenLemmas
import Verif.GenPfcp
import Verif.PropsGen
import Verif.PropsGen2
import Verif.SpecMeaning
import Verif.Meaning
import Verif.PropsMeaning
import Verif.SpecConform
import Verif.PropsConform
import Verif.SpecNet
import Verif.NetLemmas
import Verif.NetExec
import Verif.PropsNet
import Verif.SpecTimed
import Verif.TimedLemmas
import Verif.TimedNet
import Verif.TimedExec
import Verif.PropsTimed
import Verif.PropsTime
import Verif.Layout
import Verif.SpecLayout
import Verif.LayoutLemmas
import Verif.LayoutSim
import Verif.LayoutDec
import Verif.LayoutOrd
import Verif.LayoutEnc
import Verif.PropsLayout
import Verif.GenLayout
import Verif.SpecGenLayout
import Verif.GenLayoutLemmas
import Verif.PfcpLayout
import Verif.PropsGenLayout
import Verif.RecordedPfcp
import Verif.RecordedGtlv
import Verif.RecordedDecEnc
import Verif.Lifetime
import Verif.SpecLifetime
import Verif.PropsLifetime
import Verif.LayoutStr
import Verif.SpecLayoutStr
import Verif.LayoutStrLemmas
import Verif.AsInC
import Verif.GenLayoutStr
import Verif.PropsLayoutStr
import Verif.PropsExact
import Verif.PropsExact2
import Verif.PropsCloseIn
import Verif.PropsFreeIn
import Verif.PropsRoundTrip
import Verif.PropsGenText
import Verif.PropsRoom
import Verif.Report
import Verif.ReportLemmas
import Verif.SpecReport
import Verif.ReportBlame
import Verif.ReportBlame2
import Verif.ReportBlame3
import Verif.ReportBlame4
import Verif.ReportOrd
import Verif.ReportEnc
import Verif.PropsReport
import Verif.PropsAssoc
import Verif.PropsOrdAll
import Verif.PropsAnyOrd
import Verif.PropsWrite
import Verif.PropsSurvive
import Verif.PropsExact3
import Verif.PropsExact4
import Verif.PropsExact5
import Verif.PropsAlike
import Verif.PropsMoves
import Verif.PropsFormat
import Verif.PropsAddr
import Verif.PropsMove
import Verif.PropsRest
import Verif.PropsCursor
import Verif.PropsExact6
import Verif.PropsGen3
import Verif.EndpointOwn
import Verif.PropsOwn
import Verif.SpecTrace
import Verif.PropsTrace
import Verif.SpecEcho
import Verif.EndpointQuiet
import Verif.PropsEcho
import Verif.SpecTouch
import Verif.PropsTouch
import Verif.PropsOnce
import Verif.SpecNoise
import Verif.EndpointRen
import Verif.PropsNoise
import Verif.PropsNoise2
import Verif.PropsBundle
import Verif.EndpointShift
import Verif.PropsShift
import Verif.PropsOrder
import Verif.PropsNew
