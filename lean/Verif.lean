import Verif.Props.Memory
import Verif.Props.Persist
import Verif.Props.Trigger
import Verif.Props.Cron
import Verif.Props.Steady
import Verif.Props.SchedPass
import Verif.Props.SchedHistory
import Verif.Props.SchedTrigger
import Verif.Props.SchedTasks
import Verif.Props.SchedRun
import Verif.Props.SchedLife
import Verif.Props.SchedWake
import Verif.Props.SchedStart
import Verif.Props.SchedStop
import Verif.Props.Executor
import Verif.Props.TaskObj
import Verif.Props.Listeners
import Verif.Props.SchedCount
import Verif.Props.Listing
import Verif.Props.Config
import Verif.Props.Locks
import Verif.Props.Workers
import Verif.Props.CallArgs
import Verif.Props.Crontab
import Verif.Props.Dash
import Verif.Props.History
import Verif.Props.Web
import Verif.Props.DateString
import Verif.Props.Cli
import Verif.Props.Shapes
import Verif.Props.Remote
import Verif.Props.Pages
import Verif.Props.Edit
import Verif.Props.Plugins
import Verif.Props.Decor
import Verif.Props.Loops
import Verif.Props.Pool
import Verif.Props.Logs
import Verif.Props.Install
import Verif.Props.Deadlock
import Verif.Props.EndToEnd
import Verif.Props.AddToRun
import Verif.Props.Punctual
import Verif.Props.CliRun
import Verif.Props.SchedInfo
import Verif.Props.CliLoop
import Verif.Props.CliStart
import Verif.Model.TrigTree
import Verif.Props.TrigTree
import Verif.Props.TrigRounds
import Verif.Spec.DashWeb
import Verif.Model.DashWeb
import Verif.Props.DashWeb
import Verif.Props.Facets
import Verif.Spec.CliLife
import Verif.Model.CliLife
import Verif.Props.CliLife
import Verif.Model.PoolLog
import Verif.Props.PoolLog
import Verif.Spec.ShapeObj
import Verif.Spec.ShapeCalls
import Verif.Model.ShapeObj
import Verif.Props.ShapeObj
import Verif.Model.FileRace
import Verif.Props.FileRace
import Verif.Model.ListPages
import Verif.Spec.ListPages
import Verif.Props.ListPages
import Verif.Lemmas.Home
import Verif.Model.RuntimePage
import Verif.Props.RuntimePage
import Verif.Model.Settings
import Verif.Spec.Settings
import Verif.Props.Settings
import Verif.Model.TaskPage
import Verif.Props.TaskPage
import Verif.Model.Asgi
import Verif.Props.Asgi
import Verif.Spec.CronText
import Verif.Props.CronText
import Verif.Props.HistoryDetails
import Verif.Model.Crash
import Verif.Props.Crash
import Verif.Props.FileCrash
import Verif.Props.RemoteHttp
import Verif.Model.RemoteClient
import Verif.Spec.RemoteClient
import Verif.Props.RemoteClient
import Verif.Props.CalmRun
import Verif.Props.Timeline
import Verif.Props.PreviewJitter
import Verif.Lemmas.SchedStore3
import Verif.Lemmas.OpsAgree
import Verif.Lemmas.TrigCodec
import Verif.Props.BuiltinStores
import Verif.Props.BuiltinStores2
import Verif.Model.Flow
import Verif.Props.Flow
import Verif.Props.FlowStores
import Verif.Props.HistoryOrigin
import Verif.Props.FlowResult
import Verif.Props.CalmCrash
import Verif.Props.FlowCalm
import Verif.Props.OnTime
import Verif.Props.OnTimeStores
import Verif.Model.CronEq
import Verif.Props.CronEq
import Verif.Model.Describe
import Verif.Props.Describe
import Verif.Props.ShapeCalls
import Verif.Spec.CliOut
import Verif.Model.CliOut
import Verif.Props.CliOut
