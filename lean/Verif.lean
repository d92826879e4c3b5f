import Verif.Base
import Verif.Ra2
import Verif.RaaPrime
import Verif.Proof.RaaPrime
import Verif.Proof.RaaPrimeSafe
import Verif.Props.Raa
import Verif.KernelRfl
import Verif.Spec.Sync
import Verif.Spec.Demux
import Verif.Demux
import Verif.Proof.Demux
import Verif.Props.Demux
import Verif.DemuxRe
import Verif.Spec.DemuxRe
import Verif.Proof.DemuxRe
import Verif.Props.DemuxRe
import Verif.Proof.Sym
import Verif.OldTrauFrame
import Verif.Props.OldTrau
import Verif.Mux
import Verif.Proof.Mux
import Verif.Props.Mux
import Verif.Spec.TrauSync
import Verif.TrauSync
import Verif.Proof.TrauSync
import Verif.Props.TrauSync
import Verif.TrauSyncRe
import Verif.Proof.TrauSyncRe
import Verif.Props.TrauSyncRe
import Verif.TrauFrame
import Verif.Spec.TrauFrame
import Verif.Proof.TrauFrame
import Verif.Proof.TrauSym
import Verif.Props.TrauFrame
import Verif.Props.TrauClass
import Verif.Props.SyncPat
import Verif.RtpConv
import Verif.Spec.RtpConv
import Verif.Proof.RtpConv
import Verif.Proof.RtpFr
import Verif.Proof.RtpEfr
import Verif.Proof.RtpHr
import Verif.Proof.RtpData
import Verif.Proof.Safe
import Verif.Props.RtpFr
import Verif.Props.RtpEfr
import Verif.Props.RtpHr
import Verif.Props.RtpData
import Verif.Props.RtpSafe
import Verif.Props.RtpE2e
import Verif.Props.RtpBugs
import Verif.Ericsson
import Verif.Spec.Ericsson
import Verif.Proof.Ericsson
import Verif.Proof.EricssonCrc
import Verif.Props.Ericsson16
import Verif.Props.Ericsson64
import Verif.Props.Ericsson64Dec
import Verif.Props.Ericsson64Enc
import Verif.Props.Ericsson64Bugs
import Verif.Props.EricssonErr
import Verif.Lapd
import Verif.Spec.Lapd
import Verif.Proof.Lapd
import Verif.Proof.LapdTab
import Verif.Proof.LapdRx
import Verif.Props.Lapd
import Verif.Props.LapdHist
import Verif.E1Input
import Verif.Spec.E1
import Verif.Proof.E1
import Verif.Proof.E1Tr
import Verif.Proof.E1Step
import Verif.Proof.E1StepTr
import Verif.Proof.E1Hist
import Verif.Proof.E1Msgs
import Verif.Props.E1Hist
import Verif.Props.E1
import Verif.Props.E1Cfg
import Verif.Props.E1Fair
import Verif.Props.E1Retype
import Verif.Props.E1Create
import Verif.Pcap
import Verif.Spec.Pcap
import Verif.Props.Pcap
import Verif.Props.PcapFail
import Verif.Props.IpaClient
import Verif.Props.IpaServer
import Verif.Props.IpaKeepalive
import Verif.Rs232
import Verif.Spec.Rs232
import Verif.Props.Rs232
import Verif.Props.Rs232NoCb
import Verif.Unixsocket
import Verif.Spec.Unixsocket
import Verif.Props.Unixsocket
import Verif.IpaProxy
import Verif.Spec.IpaProxy
import Verif.Proof.IpaProxy
import Verif.Props.IpaProxy
import Verif.Ortp
import Verif.Spec.Ortp
import Verif.Props.Ortp
import Verif.IpAccess
import Verif.Spec.IpAccess
import Verif.Proof.IpAccess
import Verif.Proof.IpAccessTx
import Verif.Proof.IpAccessStep
import Verif.Proof.IpAccessSafe
import Verif.Props.IpAccess
import Verif.IpAccessBts
import Verif.Spec.IpAccessBts
import Verif.Proof.IpAccessBts
import Verif.Proof.IpAccessBtsStep
import Verif.Proof.IpAccessBtsRun
import Verif.Props.IpAccessBts
import Verif.E1Vty
import Verif.Spec.E1Vty
import Verif.Proof.E1Vty
import Verif.Props.E1Show
import Verif.Props.E1Vty
import Verif.IpAccessCfg
import Verif.Props.IpAccessCfg
import Verif.LineTrace
import Verif.Spec.LineTrace
import Verif.Props.LineTrace
import Verif.E1d
import Verif.Spec.E1d
import Verif.Proof.E1d
import Verif.Proof.E1dActs
import Verif.Proof.E1dPend
import Verif.Props.E1d
import Verif.Props.E1dAlarm
import Verif.Dahdi
import Verif.Spec.Dahdi
import Verif.Proof.Dahdi
import Verif.Proof.DahdiRun
import Verif.Props.Dahdi
import Verif.Misdn
import Verif.Spec.Misdn
import Verif.Proof.Misdn
import Verif.Proof.MisdnUpd
import Verif.Proof.MisdnRun
import Verif.Proof.MisdnLink
import Verif.Props.Misdn
import Verif.Spec.Chain
import Verif.Props.Chain
import Verif.IpaCcm
import Verif.Spec.IpaCcm
import Verif.Props.IpaCcm
import Verif.Props.ChainEr
import Verif.Props.E1Pcap
import Verif.Props.LapdParams
import Verif.Props.ChainIpa
import Verif.Spec.MuxAny
import Verif.Proof.MuxAny
import Verif.Props.MuxAny
import Verif.Props.TrauExact
import Verif.Props.LapdExact
import Verif.Props.DefectExtent
import Verif.Props.DemuxReinit
import Verif.Props.IpAccessSafe
import Verif.Rs232Drv
import Verif.Spec.Rs232Drv
import Verif.Props.Rs232Drv
import Verif.IpaProxyCfg
import Verif.Props.IpaProxyCfg
import Verif.IpaProxyNet
import Verif.Spec.IpaProxyNet
import Verif.Props.IpaProxyNet
import Verif.OrtpNet
import Verif.Spec.OrtpNet
import Verif.Props.OrtpLog
import Verif.Props.OrtpNet
import Verif.Props.IpaProxyPair
import Verif.Props.OrtpStat
import Verif.Gateway
import Verif.Spec.Gateway
import Verif.Proof.Gateway
import Verif.Props.Gateway
import Verif.GatewayLine
import Verif.Spec.GatewayLine
import Verif.Props.GatewayLine
import Verif.Props.GatewayDead
import Verif.Props.E1Stuck
import Verif.Props.IpAccessDup
