import Verif.Osm.Props
import Verif.Float.Props
import Verif.Time.Props
import Verif.Attr.Props
import Verif.Strings.Props
import Verif.Input.Props
import Verif.Pbf.Props
import Verif.Pbf.BlobProps
import Verif.Pbf.FileProps
import Verif.Xml.Props
import Verif.Xml.DocProps
import Verif.Xml.MoreProps
import Verif.Input.HeapProps
import Verif.Input.ReaderHeap
import Verif.Storage.MmapProps
import Verif.Handler.Chain
import Verif.Handler.Coordinates
import Verif.Handler.History
import Verif.Handler.Bbox
import Verif.Storage.ObjectStore
import Verif.Relations.FileProps
import Verif.Multipolygon.BuildProps
import Verif.Multipolygon.GeometryProps
import Verif.Multipolygon.RepairProps
import Verif.Multipolygon.WholeProps
import Verif.OsmFile.Props
import Verif.OsmFile.FdProps
import Verif.OsmFile.Factory
import Verif.Tags.Props
import Verif.Geometry.Props
import Verif.Geometry.ShpProps
import Verif.Export.Utf8Props
import Verif.Export.SizeProps
import Verif.Geometry.Haversine
import Verif.Pbf.Crash
import Verif.Time.ParseProps
import Verif.Convert.Model
import Verif.Convert.Props
import Verif.Convert.Spec
import Verif.Convert.Chain
import Verif.Export.Table
import Verif.Handler.Debug
import Verif.Handler.Progress
import Verif.Pbf.MeaningSpec
import Verif.Pbf.Meaning
import Verif.Pbf.Size
import Verif.Xml.MeaningSpec
import Verif.Xml.Meaning
import Verif.Javascript.UnicodeProps
import Verif.Javascript.WrapperProps
import Verif.Javascript.Script
import Verif.Javascript.Osmjs
import Verif.Javascript.Exports
import Verif.Javascript.ExportsProps
import Verif.Multipolygon.WholeNesting
import Verif.Multipolygon.ClosestProps
import Verif.Handler.ProgressRates
import Verif.Geometry.HaversineAccuracy
import Verif.Handler.LocatedFile
import Verif.Multipolygon.Pipeline
import Verif.Examples.NodeDensity
import Verif.Examples.NodeDensityProps
import Verif.Examples.RelationMembers
import Verif.Examples.RelationMembersProps
import Verif.Examples.ToShape
import Verif.Examples.ToShapeProps
import Verif.Examples.NumberG
import Verif.Examples.Small
import Verif.Examples.SmallProps
import Verif.Examples.ToOgr
import Verif.Examples.ToOgrProps
import Verif.Examples.Areas
import Verif.Examples.AreasProps
import Verif.Examples.Versions
import Verif.Examples.VersionsProps
import Verif.Osm.AreaMemory
import Verif.Osm.AreaMemoryProps
import Verif.Javascript.Lifetime
import Verif.Javascript.LifetimeProps
import Verif.Examples.ConvertMain
import Verif.Examples.ConvertMainProps
import Verif.Examples.DebugMain
import Verif.Pbf.Buffers
import Verif.Pbf.BuffersProps
import Verif.Pbf.Dates
import Verif.Xml.Coords
import Verif.Storage.Memory
import Verif.Storage.MemoryProps
import Verif.OsmFile.Read
import Verif.OsmFile.ReadProps
import Verif.OsmFile.Child
import Verif.OsmFile.ChildProps
import Verif.Relations.Available
import Verif.Float.Degrees
import Verif.Xml.Chunks
import Verif.Xml.ChunksProps
import Verif.Input.Deliver
import Verif.Pbf.Skip
import Verif.Pbf.SkipProps
import Verif.Xml.Text
import Verif.Xml.TextLemmas
import Verif.Xml.TextRun
import Verif.Xml.TextFile
import Verif.Xml.TextProps
import Verif.Xml.Flush
import Verif.Xml.FlushProps
import Verif.Javascript.Osm2shape
import Verif.Javascript.Osm2shapeProps
import Verif.Javascript.Osm2shapeRun
import Verif.Javascript.Scripts
import Verif.Javascript.ScriptsProps
import Verif.Javascript.ShapeExport
import Verif.Javascript.ShapeExportProps
import Verif.Javascript.ScriptShapes
import Verif.Javascript.ScriptShapesProps
import Verif.Javascript.ScriptAreas
import Verif.Javascript.ScriptAreasProps
import Verif.Javascript.Listing
import Verif.Javascript.ListingProps
import Verif.Javascript.ListingRead
import Verif.Javascript.ListingFile
import Verif.Javascript.AreaScript
import Verif.Javascript.AreaScriptProps
import Verif.Javascript.CallbackTestProps
import Verif.Javascript.GeomScript
import Verif.Javascript.GeomScriptProps
import Verif.Handler.ProgressScreen
import Verif.Handler.ProgressScreenProps
import Verif.Storage.Usage
import Verif.Storage.UsageProps
import Verif.Relations.Usage
import Verif.Osm.Printed
import Verif.Osm.PrintedProps
import Verif.Examples.OgrPrograms
import Verif.Examples.OgrProgramsProps
import Verif.Examples.DebugBounds
import Verif.Multipolygon.Interrupted
import Verif.Examples.AreasInterrupted
import Verif.Multipolygon.Messages
import Verif.Multipolygon.Announcements
import Verif.Multipolygon.NestingThrows
import Verif.Multipolygon.Reports
import Verif.Multipolygon.RepairMessages
import Verif.Examples.ToShapeMessages
import Verif.Pbf.Pieces
import Verif.Examples.TwoPassProps
import Verif.Pbf.ReadErrors
import Verif.Examples.OnePassProps
import Verif.Examples.RangeProgram
import Verif.Examples.PipeWitness
import Verif.Multipolygon.PolygonMessages
import Verif.Pbf.Witness
import Verif.Storage.Witness
import Verif.Pbf.CStrings
import Verif.Pbf.FullReader
import Verif.Convert.ReadFailure
