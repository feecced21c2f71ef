import Verif.MemCache.Props
import Verif.MemCache.Concurrent
import Verif.Json.Props
import Verif.Humanize.Props
import Verif.GridSpec.Props2
import Verif.Config.Props4
import Verif.Index.Props3
import Verif.Regrid.Props3
import Verif.Mir.GriddefProps
import Verif.Mir.ExactProps
import Verif.DiskCache.TableProps3
import Verif.DiskCache.CreateProps2
import Verif.DiskCache.QueueProps
import Verif.DiskCache.QueueProps2
import Verif.DiskCache.LocksProps
import Verif.DiskCache.PolicyProps
import Verif.DiskCache.StepProps
import Verif.DiskCache.DownloadProps
import Verif.Builder.Props2
import Verif.Xarray.Props2
import Verif.Race.Props
import Verif.Remote.Props3
import Verif.Process.Props
import Verif.Config.ThreadsProps
import Verif.Docs.UsableProps
import Verif.Mir.ObjectsProps
import Verif.Index.SubsetDiskProps
import Verif.Config.MigrateProps
import Verif.Xarray.WeightsProps
import Verif.DiskCache.SwitchProps
import Verif.Config.ThreadsProps2
import Verif.DiskCache.UseProps
import Verif.DiskCache.WorkProps
import Verif.Config.BootProps
import Verif.Config.Show
import Verif.MemCache.Props2
import Verif.DiskCache.TableProps4
import Verif.DiskCache.LifeProps
import Verif.DiskCache.TableProps5
import Verif.Config.SaveAs
import Verif.Builder.CampaignProps
import Verif.Builder.CampaignProps2
import Verif.DiskCache.Usage
import Verif.DiskCache.TableProps6
import Verif.Regrid.Args
import Verif.Regrid.ArgsProps
import Verif.Regrid.ArgsProps2
import Verif.Xarray.Dtype
import Verif.Xarray.DtypeProps
import Verif.Regrid.Float
import Verif.Regrid.FloatProps
import Verif.MemCache.Memory
import Verif.MemCache.MemoryProps
import Verif.Testing.Model
import Verif.Testing.Props
import Verif.Builder.MergeTool
import Verif.Builder.MergeToolProps
import Verif.Docs.ConfigTable
import Verif.Docs.ConfigTableProps
import Verif.Temporary.Model
import Verif.Temporary.Props
import Verif.Builder.Opened
import Verif.Builder.OpenedProps
import Verif.Regrid.ArgsProps3
import Verif.GridSpec.MatchProps
import Verif.GridSpec.Plain
import Verif.Index.PlainProps
import Verif.Index.RefreshProps
import Verif.Regrid.PlainProps
import Verif.Humanize.Double
import Verif.Humanize.FloatProps
import Verif.Regrid.Ieee
import Verif.Regrid.IeeeProps
import Verif.GridSpec.LonDouble
import Verif.DiskCache.UsageDouble
import Verif.DiskCache.PurgeDoc
import Verif.GridSpec.GlobalDouble
import Verif.Regrid.PlainDouble
import Verif.Regrid.FieldsDouble
import Verif.DiskCache.TableProps7
import Verif.DiskCache.TableProps8
import Verif.DiskCache.CreateProps3
import Verif.Xarray.StoredProps
import Verif.Regrid.StrictProps
import Verif.Regrid.ThreadsProps
import Verif.Remote.DoubleProps
import Verif.DiskCache.SwitchProps2
import Verif.Remote.Shared
import Verif.Remote.SharedProps
import Verif.DiskCache.LocksProps2
import Verif.Json.Dates
import Verif.Json.DatesProps
import Verif.Testing.Fetch
import Verif.Testing.FetchProps
import Verif.Docs.Output
import Verif.Docs.OutputProps
import Verif.Index.RetryProps
import Verif.Config.SaveText
import Verif.Config.SaveTextProps
import Verif.Json.Load
import Verif.Json.LoadLemmas
import Verif.Json.LoadNumbers
import Verif.Json.LoadProps
import Verif.Docs.Xref
import Verif.Docs.XrefProps
import Verif.Config.Html
import Verif.Config.HtmlProps
import Verif.Index.SubsetCmd
import Verif.Index.SubsetCmdProps
import Verif.Builder.MergeCmd
import Verif.Builder.MergeCmdProps
import Verif.Regrid.Replaced
import Verif.Regrid.ReplacedProps
import Verif.Config.Book
import Verif.GridSpec.PageProps
import Verif.Builder.UidProps
import Verif.Remote.RepeatProps
import Verif.DiskCache.MethodsProps
import Verif.GridSpec.ColumnsProps
import Verif.DiskCache.LimitProps
import Verif.GridSpec.PointsProps
import Verif.Builder.MemoryProps
import Verif.Mir.ReadProps
import Verif.Regrid.OrderProps
import Verif.Builder.RoomProps
import Verif.DiskCache.LimitProps2
import Verif.DiskCache.KillProps
import Verif.DiskCache.KillProps2
import Verif.Index.SubsetOrder
import Verif.Index.SubsetRaw
import Verif.Index.SubsetDiskProps2
import Verif.Testing.Plane
import Verif.Index.RawIndex
import Verif.Builder.VersionProps
import Verif.Remote.RepeatProps2
import Verif.Config.FlagProps
import Verif.DiskCache.PurgeProps
import Verif.Index.RawIndexProps
import Verif.Regrid.Builtins
