import Verif.Props.Filter
import Verif.Props.Ring
import Verif.Props.Recover
import Verif.Props.Fmt
import Verif.Props.FmtDays
import Verif.Props.FileDays
import Verif.Props.Stream
import Verif.Props.Values
import Verif.Props.Config
import Verif.Props.Document
import Verif.Props.Texts
import Verif.Props.Load
import Verif.Props.Life
import Verif.Props.File
import Verif.Props.Path
import Verif.Props.Statement
import Verif.Props.Names
import Verif.Props.Output
import Verif.Props.Threads
import Verif.Props.Weak
import Verif.Props.WeakThreads
import Verif.Props.Tally
import Verif.Props.Dirs
import Verif.Props.Start
import Verif.Props.HotRead
import Verif.Props.Inode
import Verif.Props.Macros
import Verif.Props.Fleet
import Verif.Props.Hook
import Verif.Props.Setters
import Verif.Props.Stalled
import Verif.Props.Flush
import Verif.Props.Counters
import Verif.Props.Shut
import Verif.Props.Serial
import Verif.Props.Durable
import Verif.Props.Fresh
import Verif.Props.Capstone
import Verif.Props.Unload
import Verif.Props.Numbers
import Verif.Props.Wide
import Verif.Props.Api
import Verif.Props.Live
import Verif.Props.LiveStop
import Verif.Props.LiveStopSync
import Verif.Props.Reach
import Verif.Props.Races
import Verif.Props.Sessions
import Verif.Props.ApiLog
import Verif.Props.Nest
import Verif.Props.Late
import Verif.Props.Share
import Verif.Props.Amounts
import Verif.Props.Move
import Verif.Props.Diag
import Verif.Props.Writers
import Verif.Props.UdpIn
import Verif.Props.Counts
import Verif.Props.Bridge
import Verif.Props.Crash
import Verif.Props.Follow
import Verif.Props.Reload
import Verif.Props.CatchUp
import Verif.Props.UdpOut
import Verif.Props.PrefixDays
import Verif.Props.FileUse
import Verif.Props.Dump
import Verif.Props.HostName
import Verif.Props.LineDays
import Verif.Props.PrefixChanges
import Verif.Props.Changes
import Verif.Props.Stuffed
import Verif.Props.FileCall
import Verif.Props.Periods
import Verif.Props.Rotating
import Verif.Props.RotatingThreads
import Verif.Props.RotatingText
