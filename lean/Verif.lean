import Verif.Decimal
import Verif.Ingest.Accept
import Verif.Ingest.AcceptAll
import Verif.Ingest.AcceptDates
import Verif.Ingest.AcceptProps
import Verif.Ingest.AcceptSend
import Verif.Ingest.AcceptTrack
import Verif.Ingest.Apart
import Verif.Ingest.ApartProps
import Verif.Ingest.Body
import Verif.Ingest.BodyProps
import Verif.Ingest.BodySpec
import Verif.Ingest.Calls
import Verif.Ingest.Cart
import Verif.Ingest.CartProps
import Verif.Ingest.Catalogue
import Verif.Ingest.CatalogueProps
import Verif.Ingest.CountRows
import Verif.Ingest.EventNameProps
import Verif.Ingest.Generator
import Verif.Ingest.GeneratorProps
import Verif.Ingest.GroupEvents
import Verif.Ingest.GroupEventsProps
import Verif.Ingest.GroupRows
import Verif.Ingest.Hist
import Verif.Ingest.IdentifyProps
import Verif.Ingest.IngestProps
import Verif.Ingest.MakeProp
import Verif.Ingest.Model
import Verif.Ingest.NewProp
import Verif.Ingest.Numbers
import Verif.Ingest.NumbersProps
import Verif.Ingest.OneId
import Verif.Ingest.People
import Verif.Ingest.PeopleProps
import Verif.Ingest.PropRows
import Verif.Ingest.PropRowsProps
import Verif.Ingest.Rows
import Verif.Ingest.Scenario
import Verif.Ingest.ScenarioProps
import Verif.Ingest.ScenarioStory
import Verif.Ingest.SessionEnd
import Verif.Ingest.SessionEndProps
import Verif.Ingest.Setup
import Verif.Ingest.SetupInv
import Verif.Ingest.SetupProject
import Verif.Ingest.SetupProps
import Verif.Ingest.TrackProps
import Verif.Ingest.Transform
import Verif.Ingest.TransformProps
import Verif.Ingest.ValueProps
import Verif.Ingest.WorldInv
import Verif.Ingest.Worlds
import Verif.Meta.Apart
import Verif.Meta.AttachProps
import Verif.Meta.Backups
import Verif.Meta.BackupsProps
import Verif.Meta.BookmarksProps
import Verif.Meta.Coll
import Verif.Meta.CollProps
import Verif.Meta.Columns
import Verif.Meta.ColumnsProps
import Verif.Meta.Conc
import Verif.Meta.ConcProps
import Verif.Meta.Custom
import Verif.Meta.CustomProps
import Verif.Meta.Dicts
import Verif.Meta.DictsProps
import Verif.Meta.EventKept
import Verif.Meta.EventNames
import Verif.Meta.Frame
import Verif.Meta.GroupTypesProps
import Verif.Meta.Groups
import Verif.Meta.GroupsProps
import Verif.Meta.Keys
import Verif.Meta.KeysProps
import Verif.Meta.Kv
import Verif.Meta.Listing
import Verif.Meta.ListingProps
import Verif.Meta.Members
import Verif.Meta.MembersProps
import Verif.Meta.Modules
import Verif.Meta.Modules2
import Verif.Meta.Projects
import Verif.Meta.ProjectsProps
import Verif.Meta.PropCache
import Verif.Meta.PropCacheProps
import Verif.Meta.Records
import Verif.Meta.Records2
import Verif.Meta.RecordsProps
import Verif.Meta.Sessions
import Verif.Meta.SessionsProps
import Verif.Meta.Stays
import Verif.Meta.StaysTop
import Verif.Meta.System
import Verif.Meta.SystemProps
import Verif.Meta.SystemReach
import Verif.Meta.Twin
import Verif.Meta.TwinCalls
import Verif.Meta.UpdateProps
import Verif.Meta.Wire
import Verif.Platform.Access
import Verif.Platform.AccessProps
import Verif.Platform.AdminApi
import Verif.Platform.AdminApiProps
import Verif.Platform.AdminApiSpec
import Verif.Platform.Answer
import Verif.Platform.AnswerProps
import Verif.Platform.ApartBase
import Verif.Platform.ApartProps
import Verif.Platform.Auth
import Verif.Platform.AuthChangeProps
import Verif.Platform.AuthInv
import Verif.Platform.AuthProps
import Verif.Platform.Chart
import Verif.Platform.ChartAnswer
import Verif.Platform.ChartAnswerLemmas
import Verif.Platform.ChartAnswerProps
import Verif.Platform.ChartColsProps
import Verif.Platform.ChartCountProps
import Verif.Platform.ChartDecodeProps
import Verif.Platform.ChartDemo
import Verif.Platform.ChartFix
import Verif.Platform.ChartLemmas
import Verif.Platform.ChartMeaning
import Verif.Platform.ChartProps
import Verif.Platform.ChartRowsProps
import Verif.Platform.ChartUniqueProps
import Verif.Platform.ChartsAnswer
import Verif.Platform.ChartsAnswerProps
import Verif.Platform.CompactAnswer
import Verif.Platform.CompactAnswerProps
import Verif.Platform.Decode
import Verif.Platform.EventSearchProps
import Verif.Platform.FilterFitProps
import Verif.Platform.FunnelAnswerProps
import Verif.Platform.FunnelColsProps
import Verif.Platform.FunnelMeaning
import Verif.Platform.FunnelPlan
import Verif.Platform.FunnelReqProps
import Verif.Platform.FunnelRowsProps
import Verif.Platform.GroupSearchProps
import Verif.Platform.QueryApart
import Verif.Platform.QueryApartProps
import Verif.Platform.Records
import Verif.Platform.RecordsAnswer
import Verif.Platform.RecordsColumns
import Verif.Platform.RecordsDemo
import Verif.Platform.RecordsNamesProps
import Verif.Platform.RecordsWay
import Verif.Platform.ReportApi
import Verif.Platform.ReportApiProps
import Verif.Platform.Request
import Verif.Platform.RequestDemo
import Verif.Platform.RequestLemmas
import Verif.Platform.RequestSpec
import Verif.Platform.Routes
import Verif.Platform.RoutesBase
import Verif.Platform.RoutesProps
import Verif.Platform.Scalars
import Verif.Platform.ScalarsProps
import Verif.Platform.Scheduler
import Verif.Platform.SchedulerBase
import Verif.Platform.SchedulerProps
import Verif.Platform.SchedulerSpec
import Verif.Platform.SchemaApi
import Verif.Platform.SchemaApiProps
import Verif.Platform.SchemaApiSpec
import Verif.Platform.SchemaDemoProps
import Verif.Platform.SchemaKindsProps
import Verif.Platform.SearchColsProps
import Verif.Platform.SecretProps
import Verif.Platform.Secrets
import Verif.Platform.Serve
import Verif.Platform.ServeBase
import Verif.Platform.ServeProps
import Verif.Platform.SettingsApi
import Verif.Platform.SettingsApiProps
import Verif.Platform.Single
import Verif.Platform.SingleProps
import Verif.Platform.Start
import Verif.Platform.StartBase
import Verif.Platform.StartMake
import Verif.Platform.StartProps
import Verif.Platform.Values
import Verif.Platform.ValuesProps
import Verif.Proto
import Verif.Query.Agg
import Verif.Query.AggLemmas
import Verif.Query.AggProps
import Verif.Query.Average
import Verif.Query.AverageProps
import Verif.Query.Calendar
import Verif.Query.CountProps
import Verif.Query.Filter
import Verif.Query.FilterProps
import Verif.Query.Funnel
import Verif.Query.FunnelAdd
import Verif.Query.FunnelCompleteProps
import Verif.Query.FunnelFilterProps
import Verif.Query.FunnelLemmas
import Verif.Query.FunnelProps
import Verif.Query.FunnelRun
import Verif.Query.FunnelUniqueProps
import Verif.Query.FunnelUserProps
import Verif.Query.PerUserProps
import Verif.Query.PivotProps
import Verif.Query.Plan
import Verif.Query.PlanProps
import Verif.Query.ResultProps
import Verif.Query.Segment
import Verif.Query.SegmentAgg
import Verif.Query.SegmentAggProps
import Verif.Query.SegmentProps
import Verif.Query.Table
import Verif.Query.TableProps
import Verif.Query.Time
import Verif.Query.TimeProps
import Verif.Query.UniqueProps
import Verif.Storage.ArrowTypes
import Verif.Storage.ArrowTypesProps
import Verif.Storage.Backup
import Verif.Storage.BackupProps
import Verif.Storage.Bytes
import Verif.Storage.Chunk
import Verif.Storage.Compact
import Verif.Storage.CompactConc
import Verif.Storage.CompactConcInv
import Verif.Storage.CompactConcProps
import Verif.Storage.CompactCrash
import Verif.Storage.CompactCrashProps
import Verif.Storage.CompactProps
import Verif.Storage.Conc
import Verif.Storage.ConcProps
import Verif.Storage.Disk
import Verif.Storage.DiskProps
import Verif.Storage.Fs
import Verif.Storage.FsProps
import Verif.Storage.Get
import Verif.Storage.GetProps
import Verif.Storage.Insert
import Verif.Storage.InsertProps
import Verif.Storage.LevelsProps
import Verif.Storage.Log
import Verif.Storage.LogProps
import Verif.Storage.Manifest
import Verif.Storage.ManifestProps
import Verif.Storage.Memtable
import Verif.Storage.Merge
import Verif.Storage.MergeProps
import Verif.Storage.NewestLogProps
import Verif.Storage.PMerge
import Verif.Storage.PMergeCols
import Verif.Storage.PMergeIndex
import Verif.Storage.PMergeProps
import Verif.Storage.PMergeRows
import Verif.Storage.Scan
import Verif.Storage.ScanProps
import Verif.Storage.Start
import Verif.Storage.StartProps
import Verif.Storage.Value
import Verif.Util
