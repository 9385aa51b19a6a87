import Verif.Model.Basic
import Verif.Model.RangeSet
import Verif.Spec.RangeSet
import Verif.Proof.RangeSet
import Verif.Props.RangeSet
import Verif.Model.Storage
import Verif.Model.Memory
import Verif.Model.Temp
import Verif.Model.Bounded
import Verif.Model.Adaptive
import Verif.Spec.Storage
import Verif.Proof.Memory
import Verif.Proof.Temp
import Verif.Proof.Bounded
import Verif.Spec.Queue
import Verif.Spec.ByteMap
import Verif.Proof.BoundedTotal
import Verif.Proof.ByteMap
import Verif.Props.Bounded
import Verif.Props.Broken
import Verif.Props.Storage
import Verif.Model.System
import Verif.Spec.System
import Verif.Proof.Sys.Frame
import Verif.Proof.Slice
import Verif.Proof.Sys.Trans
import Verif.Proof.Sys.Full
import Verif.Proof.Sys.Token
import Verif.Proof.Sys.End
import Verif.Proof.Sys.Forward
import Verif.Proof.Sys.Reads
import Verif.Proof.Sys.Window
import Verif.Proof.Sys.Windowed
import Verif.Proof.Sys.WinReads
import Verif.Proof.Adaptive
import Verif.Spec.Providers
import Verif.Proof.Providers
import Verif.Proof.Positional
import Verif.Proof.Sys.Pos
import Verif.Proof.Sys.Run
import Verif.Proof.Sys.ReadLog
import Verif.Props.Reads
import Verif.Proof.Sys.Calls
import Verif.Proof.Sys.Ending
import Verif.Proof.Sys.Release
import Verif.Proof.Sys.CallState
import Verif.Proof.Sys.CallEvents
import Verif.Proof.Sys.CallLog
import Verif.Props.Calls
import Verif.Props.Ending
import Verif.Proof.Ring
import Verif.Proof.Sys.Task
import Verif.Proof.Sys.Panic
import Verif.Props.Task
import Verif.Props.Panic
import Verif.Spec.Log
import Verif.Proof.Sys.Chunks
import Verif.Props.Chunks
import Verif.Proof.Sys.Complete
import Verif.Props.Complete
import Verif.Spec.Wait
import Verif.Proof.Sys.Wake
import Verif.Props.Wake
import Verif.Proof.Sys.Stop
import Verif.Props.Stop
import Verif.Proof.Sys.Sure
import Verif.Proof.Sys.Trunc
import Verif.Props.Limits
import Verif.Model.Http
import Verif.Spec.Http
import Verif.Proof.Http
import Verif.Props.Http
import Verif.Model.Registry
import Verif.Spec.Registry
import Verif.Proof.Registry
import Verif.Props.Registry
import Verif.Model.Process
import Verif.Spec.Process
import Verif.Props.Process
import Verif.Model.Settings
import Verif.Props.Settings
import Verif.Model.Readers
import Verif.Spec.Readers
import Verif.Props.Readers
import Verif.Model.HttpSystem
import Verif.Spec.HttpSystem
import Verif.Proof.HttpSystem
import Verif.Props.HttpSystem
import Verif.Proof.Sys.Whole
import Verif.Props.ReadAll
import Verif.Spec.Live
import Verif.Proof.Sys.Live
import Verif.Proof.Sys.LiveTask
import Verif.Props.Live
import Verif.Props.Stored
import Verif.Spec.Ends
import Verif.Proof.Sys.WholeUnknown
import Verif.Props.ReadAllUnknown
import Verif.Model.SourceSystem
import Verif.Spec.SourceSystem
import Verif.Proof.SourceSystem
import Verif.Props.SourceSystem
import Verif.Model.Create
import Verif.Props.Create
import Verif.Proof.RingCells
import Verif.Proof.Sys.WinSeek
import Verif.Proof.Sys.WinSeekLen
import Verif.Proof.Sys.WinSeekLog
import Verif.Props.Jump
import Verif.Props.HttpJump
import Verif.Model.ProcessSystem
import Verif.Spec.ProcessSystem
import Verif.Proof.ProcessSystem
import Verif.Props.ProcessSystem
import Verif.Model.CreateProcess
import Verif.Props.CreateProcess
import Verif.Proof.Sys.Finish
import Verif.Proof.Sys.FinishWin
import Verif.Proof.Sys.Progress
import Verif.Proof.Sys.Behind
import Verif.Props.Finish
import Verif.Props.NeverEnds
import Verif.Props.Endless
import Verif.Spec.LiveSystem
import Verif.Proof.LiveSystem
import Verif.Props.LiveSystem
import Verif.Props.EndlessHttp
import Verif.Props.LiveProcess
import Verif.Model.Tso
import Verif.Spec.Tso
import Verif.Proof.Tso
import Verif.Proof.TsoLive
import Verif.Proof.TsoWake
import Verif.Props.Tso
import Verif.Model.Weak
import Verif.Spec.Weak
import Verif.Proof.Weak
import Verif.Proof.WeakLive
import Verif.Proof.WeakWake
import Verif.Props.Weak
import Verif.Model.Abort
import Verif.Spec.Abort
import Verif.Proof.Abort
import Verif.Props.Abort
import Verif.Spec.Cancel
import Verif.Proof.Sys.Cancel
import Verif.Proof.Cancel
import Verif.Props.Cancel
import Verif.Spec.Calm
import Verif.Spec.CalmSystem
import Verif.Proof.Calm
import Verif.Proof.Sys.Even
import Verif.Proof.CalmSystem
import Verif.Props.Calm
import Verif.Props.CalmSystem
import Verif.Model.Faulty
import Verif.Model.Short
import Verif.Proof.Faulty
import Verif.Proof.ShortOps
import Verif.Proof.Short
import Verif.Props.Faulty
import Verif.Props.Short
import Verif.Model.Timed
import Verif.Spec.Timed
import Verif.Proof.Timed
import Verif.Props.Timed
import Verif.Props.Requests
import Verif.Props.Twice
import Verif.Props.RequestsSource
import Verif.Props.Files
import Verif.Props.Middleware
import Verif.Props.AnyServer
import Verif.Props.Received
import Verif.Props.AnySource
import Verif.Props.AnyBounded
import Verif.Props.ShortAny
import Verif.Props.ReadAllAny
import Verif.Proof.Gentle
import Verif.Proof.Sys.ReaderPanic
import Verif.Props.ReaderPanic
import Verif.Props.ReturnValue
import Verif.Props.SequentialPanic
