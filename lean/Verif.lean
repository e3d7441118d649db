import Verif.Basic
import Verif.CircBuf
import Verif.CircBufLemmas
import Verif.Props.CircBuf
import Verif.Props.PtrList
import Verif.Props.Proto
import Verif.Props.Pub
import Verif.Props.Sub
import Verif.Props.Conn
import Verif.Props.PubCtxRead
import Verif.Props.PubCtxFlow
import Verif.Props.PubCtxTime
import Verif.Props.PubCtxMisc
import Verif.Props.PubCtxPoll
import Verif.Props.SubCtxDeliver
import Verif.Props.SubCtxAck
import Verif.Props.SubCtxMem
import Verif.Props.SubCtxConn
import Verif.Props.SubCtxPoll
import Verif.Props.Settings
import Verif.SubCtxFaults
import Verif.Props.SubCtxReady
import Verif.Props.SubCtxCalls
import Verif.Props.PubCtxCb
import Verif.SubLang
import Verif.Props.SubCtxTcp
import Verif.SubLink
import Verif.PubLink
import Verif.FrameStream
import Verif.SysLemmas
import Verif.BadRead
import Verif.PubBad
import Verif.SysPub
import Verif.SysSub
import Verif.System
import Verif.SysInv
import Verif.SysDrain
import Verif.Props.Sys
import Verif.SubReadInv
import Verif.Props.SubCtxStream
import Verif.Props.PubCtxStream
import Verif.Fds
import Verif.Props.Fds
import Verif.Props.Codes
import Verif.Props.SubCodes
import Verif.Log
import Verif.Props.Log
import Verif.Life
import Verif.Props.Life
import Verif.Dissect
import Verif.Props.Dissect
import Verif.OpRes
import Verif.Props.OpRes
import Verif.SysLive
import Verif.Props.SysLive
import Verif.Net
import Verif.NetInv
import Verif.NetLive
import Verif.Props.Net
import Verif.SysCtl
import Verif.Props.SysCtl
import Verif.Props.NetJoin
import Verif.Props.NetFirst
import Verif.Access
import Verif.Props.SubCtxUser
import Verif.Props.Access
import Verif.Props.SubCtxIndex
import Verif.Told
import Verif.Props.PubCtxTold
import Verif.Serve
import Verif.Props.Serve
import Verif.Props.PubCtxBlock
import Verif.SysFair
import Verif.Props.SysFair
import Verif.Props.SysIdle
import Verif.Props.PubCtxOnce
import Verif.Epoll
import Verif.Props.SubCtxEpoll
import Verif.Props.PubCtxEpoll
import Verif.Selftest
import Verif.Props.Selftest
import Verif.Loop
import Verif.Props.Loop
import Verif.TestSub
import Verif.Props.TestSub
import Verif.TestPub
import Verif.Props.TestPub
import Verif.Props.SelfLive
import Verif.CmdLine
import Verif.Props.CmdLine
import Verif.NetFair
import Verif.Props.NetFair
import Verif.Props.NetIdle
import Verif.Props.SelfMany
import Verif.Props.SelfIdle
import Verif.Props.SelfGroup
import Verif.UnitTests
import Verif.Props.UnitTests
import Verif.Props.UnitChecks
import Verif.SysBreak
import Verif.Props.SysBreak
import Verif.Props.NetBreak
import Verif.Props.SysAgain
import Verif.Props.SysGap
import Verif.Stats
import Verif.Props.Stats
