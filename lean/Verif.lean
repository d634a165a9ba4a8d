import Verif.Basic
import Verif.Acct.Body
import Verif.Acct.Cases
import Verif.Acct.Counter
import Verif.Acct.Full
import Verif.Acct.Inv
import Verif.Acct.Keep
import Verif.Acct.Local
import Verif.Acct.Model
import Verif.Acct.Off
import Verif.Acct.Props
import Verif.Acct.Row
import Verif.Acct.RowLemmas
import Verif.Acct.RowProps
import Verif.Acct.RowSpec
import Verif.Acct.Spec
import Verif.Acct.Steps
import Verif.Addr.Model
import Verif.Addr.Props
import Verif.Analyze.Jitter
import Verif.Analyze.Model
import Verif.Analyze.Props
import Verif.Bindaddr.Model
import Verif.Bindaddr.Props
import Verif.Cksum.Model
import Verif.Cksum.Props
import Verif.Cli.Cases
import Verif.Cli.Init
import Verif.Cli.Loop
import Verif.Cli.Model
import Verif.Cli.Props
import Verif.Cli.Spec
import Verif.Cmd.Parse
import Verif.Cmd.ParseProps
import Verif.Cmd.Rcache
import Verif.Cmd.RcacheProps
import Verif.Cmd.Reply
import Verif.Cmd.ReplyProps
import Verif.Cmd.Split
import Verif.Cmd.SplitProps
import Verif.Cmd.Stream
import Verif.Cmd.StreamProps
import Verif.Cmd.Swar
import Verif.Cmd.SwarProps
import Verif.Conns.Cases
import Verif.Conns.Init
import Verif.Conns.LockProps
import Verif.Conns.Locks
import Verif.Conns.Model
import Verif.Conns.Props
import Verif.Conns.Round
import Verif.Conns.Spec
import Verif.Conns.Sweep
import Verif.Copy.Cases
import Verif.Copy.Count
import Verif.Copy.Counter
import Verif.Copy.Flow
import Verif.Copy.Good
import Verif.Copy.Install
import Verif.Copy.Model
import Verif.Copy.Project
import Verif.Copy.Props
import Verif.Copy.Spec
import Verif.Copy.Sys
import Verif.Copy.Undo
import Verif.Counters.Model
import Verif.Counters.Props
import Verif.Counters.Sessions
import Verif.Ctl.Cases
import Verif.Ctl.Closed
import Verif.Ctl.Lemmas
import Verif.Ctl.Model
import Verif.Ctl.Props
import Verif.Ctl.Spec
import Verif.Dtimer.Cases
import Verif.Dtimer.Model
import Verif.Dtimer.Props
import Verif.Dtmf.Cases
import Verif.Dtmf.Ctl
import Verif.Dtmf.CtlProps
import Verif.Dtmf.Model
import Verif.Dtmf.Props
import Verif.Dtmf.Ring
import Verif.Dtmf.Trace
import Verif.Eaud.Cases
import Verif.Eaud.Chans
import Verif.Eaud.DecCases
import Verif.Eaud.DecProps
import Verif.Eaud.Decoder
import Verif.Eaud.Ends
import Verif.Eaud.File
import Verif.Eaud.Load
import Verif.Eaud.Mix
import Verif.Eaud.MixCases
import Verif.Eaud.MixProps
import Verif.Eaud.Model
import Verif.Eaud.Order
import Verif.Eaud.Props
import Verif.Eaud.Render
import Verif.Ended.Cases
import Verif.Ended.Inv
import Verif.Ended.Model
import Verif.Ended.Props
import Verif.Ended.Spec
import Verif.Ended.Step
import Verif.Ended.Times
import Verif.G711.Model
import Verif.G711.Props
import Verif.Genuid.Props
import Verif.Hash.Lemmas
import Verif.Hash.Model
import Verif.Hash.Props
import Verif.Hash.Purge
import Verif.Hash.Spec
import Verif.Heard.Cases
import Verif.Heard.Inv
import Verif.Heard.Model
import Verif.Heard.Props
import Verif.Heard.Run
import Verif.Heard.Spec
import Verif.Hep.Cases
import Verif.Hep.Config
import Verif.Hep.Decode
import Verif.Hep.Handle
import Verif.Hep.Lemmas
import Verif.Hep.Model
import Verif.Hep.Props
import Verif.Hep.Spec
import Verif.Icecand.Cases
import Verif.Icecand.Inv
import Verif.Icecand.Model
import Verif.Icecand.Props
import Verif.Icecand.Spec
import Verif.Icecand.Whole
import Verif.Latch.Model
import Verif.Latch.Props
import Verif.Log.Cases
import Verif.Log.Inv
import Verif.Log.Model
import Verif.Log.Props
import Verif.Log.Spec
import Verif.Log.Steps
import Verif.Log.Ticket
import Verif.Log.TicketProps
import Verif.Modman.Cases
import Verif.Modman.Count
import Verif.Modman.Free
import Verif.Modman.Hist
import Verif.Modman.Load
import Verif.Modman.LoadProps
import Verif.Modman.Logs
import Verif.Modman.Model
import Verif.Modman.Mods
import Verif.Modman.Props
import Verif.Modman.Rank
import Verif.Modman.Spec
import Verif.Netaddr.Cases
import Verif.Netaddr.Inv
import Verif.Netaddr.Model
import Verif.Netaddr.Props
import Verif.Netaddr.Spec
import Verif.Netio.Cases
import Verif.Netio.Counter
import Verif.Netio.Inv
import Verif.Netio.Model
import Verif.Netio.Order
import Verif.Netio.Props
import Verif.Netio.Spec
import Verif.Netio.Steps
import Verif.Notify.Cases
import Verif.Notify.Model
import Verif.Notify.Props
import Verif.Notify.Spec
import Verif.Notify.Step
import Verif.Num.Model
import Verif.Num.Props
import Verif.Packetport.Flush
import Verif.Packetport.Model
import Verif.Packetport.Props
import Verif.Pcount.Model
import Verif.Pcount.Props
import Verif.Pearson.Model
import Verif.Pearson.Props
import Verif.Plane.Cases
import Verif.Plane.Chain
import Verif.Plane.Counter
import Verif.Plane.Effs
import Verif.Plane.Inv
import Verif.Plane.Model
import Verif.Plane.Own
import Verif.Plane.PropsDtls
import Verif.Plane.PropsIce
import Verif.Plane.PropsIce2
import Verif.Plane.PropsOwn
import Verif.Plane.Spec
import Verif.Plane.Steps
import Verif.Play.Cases
import Verif.Play.Count
import Verif.Play.Counter
import Verif.Play.Facts
import Verif.Play.Inv
import Verif.Play.Model
import Verif.Play.Props
import Verif.Play.Safe
import Verif.Play.Spec
import Verif.Play.Step
import Verif.Play.Trans
import Verif.Player.Cases
import Verif.Player.Inv
import Verif.Player.Model
import Verif.Player.Props
import Verif.Player.Spec
import Verif.Player.Step
import Verif.Port.Lemmas
import Verif.Port.Model
import Verif.Port.Props
import Verif.Pproc.Model
import Verif.Pproc.Props
import Verif.Pproc.Refs
import Verif.Query.Cases
import Verif.Query.Lemmas
import Verif.Query.Model
import Verif.Query.Props
import Verif.Query.Spec
import Verif.Queue.Lemmas
import Verif.Queue.Model
import Verif.Queue.Props
import Verif.Queue.Spec
import Verif.Record.Ctl
import Verif.Record.CtlProps
import Verif.Record.Ether
import Verif.Record.Frame
import Verif.Record.Model
import Verif.Record.Names
import Verif.Record.Props
import Verif.Record.Spec
import Verif.Refcnt.Lemmas
import Verif.Refcnt.Model
import Verif.Refcnt.Props
import Verif.Refcnt.Spec
import Verif.Resizer.Clock
import Verif.Resizer.Lemmas
import Verif.Resizer.Loop
import Verif.Resizer.Model
import Verif.Resizer.Order
import Verif.Resizer.Props
import Verif.Resizer.Run
import Verif.Resizer.Spec
import Verif.Resizer.Trace
import Verif.Ringbuf.Model
import Verif.Ringbuf.Props
import Verif.Rtcp.Cases
import Verif.Rtcp.Json
import Verif.Rtcp.Loop
import Verif.Rtcp.Model
import Verif.Rtcp.Props
import Verif.Rtcp.Read
import Verif.Rtcp.Spec
import Verif.Rtcp.Text
import Verif.Rtp.Model
import Verif.Rtp.Props
import Verif.Rtp.SamplesProps
import Verif.Rwlock.Lemmas
import Verif.Rwlock.Model
import Verif.Rwlock.Props
import Verif.Sbuf.Model
import Verif.Sbuf.Props
import Verif.Sess.Lemmas
import Verif.Sess.Model
import Verif.Sess.Props
import Verif.Sess.Spec
import Verif.Sess.Steps
import Verif.Sess.TtlProps
import Verif.Setup.Cases
import Verif.Setup.Lemmas
import Verif.Setup.Model
import Verif.Setup.Props
import Verif.Setup.Spec
import Verif.Sinfo.Cases
import Verif.Sinfo.Inv
import Verif.Sinfo.Model
import Verif.Sinfo.Props
import Verif.Sinfo.Spec
import Verif.Sinfo.Steps
import Verif.Sinfo.World
import Verif.Spmc.Model
import Verif.Spmc.Props
import Verif.Spmc.Relaxed
import Verif.Spmc.Spec
import Verif.Srtp.Cases
import Verif.Srtp.Keys
import Verif.Srtp.Model
import Verif.Srtp.Props
import Verif.Srtp.Shake
import Verif.Srtp.Spec
import Verif.Start.Cases
import Verif.Start.Lemmas
import Verif.Start.Model
import Verif.Start.Props
import Verif.Stats.Cases
import Verif.Stats.Model
import Verif.Stats.Props
import Verif.Stats.Reply
import Verif.Stats.Spec
import Verif.Stats.Steps
import Verif.Str.Mem
import Verif.Str.Num
import Verif.Str.NumProps
import Verif.Str.Strlcpy
import Verif.Str.StrlcpyProps
import Verif.Str.Url
import Verif.Str.UrlProps
import Verif.Subc.Cases
import Verif.Subc.Model
import Verif.Subc.Props
import Verif.Subc.Spec
import Verif.Timed.Model
import Verif.Timed.Props
import Verif.Timed.Spec
import Verif.Tset.Cases
import Verif.Tset.Inv
import Verif.Tset.Model
import Verif.Tset.Props
import Verif.Tset.Spec
import Verif.Tset.Step
import Verif.Ulopt.Model
import Verif.Ulopt.Props
import Verif.Util.Dec
import Verif.Util.Tot
import Verif.Wake.Cases
import Verif.Wake.Counter
import Verif.Wake.Inv
import Verif.Wake.Model
import Verif.Wake.Props
import Verif.Wake.Spec
import Verif.Wake.Step
import Verif.Weakref.Model
import Verif.Weakref.Props
import Verif.Wref.Lemmas
import Verif.Wref.Model
import Verif.Wref.Props
import Verif.Audit
