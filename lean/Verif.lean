import Verif.Py.Basic
import Verif.Model.Classes
import Verif.Model.Classify
import Verif.Model.CsvExport
import Verif.Model.CsvImport
import Verif.Model.CsvImportState
import Verif.Model.Export
import Verif.Model.Graph
import Verif.Model.Import
import Verif.Model.ImportState
import Verif.Model.LayoutMetrics
import Verif.Model.LayoutState
import Verif.Model.Layouter
import Verif.Model.Metrics
import Verif.Model.Rep
import Verif.Model.Visualizer
import Verif.Model.Xml
import Verif.Spec.Abstract
import Verif.Spec.Accept
import Verif.Spec.Again
import Verif.Spec.Analyses
import Verif.Spec.BlockPaths
import Verif.Spec.Blocks
import Verif.Spec.Classes
import Verif.Spec.Consistent
import Verif.Spec.Csv
import Verif.Spec.CsvDrawn
import Verif.Spec.CsvEnds
import Verif.Spec.CsvFiled
import Verif.Spec.CsvFlat
import Verif.Spec.CsvImport
import Verif.Spec.CsvLoops
import Verif.Spec.Dangling
import Verif.Spec.Decisions
import Verif.Spec.DocInOrder
import Verif.Spec.Document
import Verif.Spec.DrawnMetrics
import Verif.Spec.Elements
import Verif.Spec.EndsMetrics
import Verif.Spec.FlatProcess
import Verif.Spec.Geometry
import Verif.Spec.GotoTable
import Verif.Spec.Grid
import Verif.Spec.Layout
import Verif.Spec.Loaded
import Verif.Spec.LoopTable
import Verif.Spec.Loops
import Verif.Spec.Merge
import Verif.Spec.Named
import Verif.Spec.Optional
import Verif.Spec.OptionalEnd
import Verif.Spec.OptionalExport
import Verif.Spec.OptionalProcess
import Verif.Spec.OptionalTable
import Verif.Spec.PageSize
import Verif.Spec.Processes
import Verif.Spec.RoundTrip
import Verif.Spec.Sane
import Verif.Spec.Savable
import Verif.Spec.Saved
import Verif.Spec.SavedAgain
import Verif.Spec.Segments
import Verif.Spec.Session
import Verif.Spec.Setters
import Verif.Spec.Shapes
import Verif.Spec.SharedEnds
import Verif.Spec.Structured
import Verif.Spec.TableGateways
import Verif.Spec.TableMetrics
import Verif.Spec.TreeProcess
import Verif.Spec.Width
import Verif.Spec.Xml
import Verif.Spec.XmlNames
import Verif.Lemmas.Again
import Verif.Lemmas.AgainLoad
import Verif.Lemmas.AgainPlane
import Verif.Lemmas.AllTrees
import Verif.Lemmas.BlockLines
import Verif.Lemmas.Blocks
import Verif.Lemmas.Classify
import Verif.Lemmas.Clear
import Verif.Lemmas.Consistent
import Verif.Lemmas.Construct
import Verif.Lemmas.Crossings
import Verif.Lemmas.CsvAccept
import Verif.Lemmas.CsvBlocks
import Verif.Lemmas.CsvClean
import Verif.Lemmas.CsvCond
import Verif.Lemmas.CsvEnds
import Verif.Lemmas.CsvExact
import Verif.Lemmas.CsvExport
import Verif.Lemmas.CsvFiled
import Verif.Lemmas.CsvFill
import Verif.Lemmas.CsvFinal
import Verif.Lemmas.CsvFinish
import Verif.Lemmas.CsvFlat
import Verif.Lemmas.CsvFlatExport
import Verif.Lemmas.CsvFlatImport
import Verif.Lemmas.CsvGoto
import Verif.Lemmas.CsvGotoAccept
import Verif.Lemmas.CsvGotoExact
import Verif.Lemmas.CsvHead
import Verif.Lemmas.CsvImportState
import Verif.Lemmas.CsvKinds
import Verif.Lemmas.CsvLoops
import Verif.Lemmas.CsvNext
import Verif.Lemmas.CsvOrders
import Verif.Lemmas.CsvReload
import Verif.Lemmas.CsvRetry
import Verif.Lemmas.CsvRun
import Verif.Lemmas.CsvSays
import Verif.Lemmas.CsvShape
import Verif.Lemmas.CsvState
import Verif.Lemmas.CsvSteps
import Verif.Lemmas.CsvTable
import Verif.Lemmas.CsvTree
import Verif.Lemmas.Dict
import Verif.Lemmas.DocInOrder
import Verif.Lemmas.Drawing
import Verif.Lemmas.DrawnMetrics
import Verif.Lemmas.Elements
import Verif.Lemmas.ExportTree
import Verif.Lemmas.FailedLoad
import Verif.Lemmas.FailedTable
import Verif.Lemmas.FlatProcess
import Verif.Lemmas.Geometry
import Verif.Lemmas.Graph
import Verif.Lemmas.Grid
import Verif.Lemmas.GridLog
import Verif.Lemmas.GridPlan
import Verif.Lemmas.ImportAccept
import Verif.Lemmas.ImportContent
import Verif.Lemmas.ImportDoc
import Verif.Lemmas.ImportEvents
import Verif.Lemmas.ImportFlows
import Verif.Lemmas.ImportInv
import Verif.Lemmas.ImportLists
import Verif.Lemmas.ImportLoop
import Verif.Lemmas.ImportNode
import Verif.Lemmas.ImportRel
import Verif.Lemmas.ImportState
import Verif.Lemmas.ImportStep
import Verif.Lemmas.ImportView
import Verif.Lemmas.Labels
import Verif.Lemmas.Layout
import Verif.Lemmas.LayoutBudget
import Verif.Lemmas.LayoutState
import Verif.Lemmas.LoopJoins
import Verif.Lemmas.LoopTable
import Verif.Lemmas.Merge
import Verif.Lemmas.MergeFrame
import Verif.Lemmas.MergeSave
import Verif.Lemmas.Metrics
import Verif.Lemmas.NodeOps
import Verif.Lemmas.OptionalTable
import Verif.Lemmas.Orderly
import Verif.Lemmas.Paths
import Verif.Lemmas.Placing
import Verif.Lemmas.Query
import Verif.Lemmas.Restore
import Verif.Lemmas.RoundTrip
import Verif.Lemmas.SameMetrics
import Verif.Lemmas.Savable
import Verif.Lemmas.Saved
import Verif.Lemmas.SavedAgain
import Verif.Lemmas.SeqFlow
import Verif.Lemmas.Session
import Verif.Lemmas.Setters
import Verif.Lemmas.SharedEnds
import Verif.Lemmas.SortNeeds
import Verif.Lemmas.Squeeze
import Verif.Lemmas.Stable
import Verif.Lemmas.Structured
import Verif.Lemmas.TopoSort
import Verif.Lemmas.TreeTable
import Verif.Lemmas.TwinPaths
import Verif.Lemmas.Twins
import Verif.Lemmas.Xml
import Verif.Lemmas.XmlNames
import Verif.Props.Again
import Verif.Props.Analyses
import Verif.Props.BlockPaths
import Verif.Props.Blocks
import Verif.Props.Construction
import Verif.Props.CsvAccept
import Verif.Props.CsvDrawn
import Verif.Props.CsvEnds
import Verif.Props.CsvExport
import Verif.Props.CsvFiled
import Verif.Props.CsvFlat
import Verif.Props.CsvGoto
import Verif.Props.CsvImport
import Verif.Props.CsvKinds
import Verif.Props.CsvLoops
import Verif.Props.CsvReload
import Verif.Props.CsvResult
import Verif.Props.CsvRows
import Verif.Props.Dangling
import Verif.Props.Decisions
import Verif.Props.DocInOrder
import Verif.Props.Drawing
import Verif.Props.DrawnMetrics
import Verif.Props.Elements
import Verif.Props.EndsMetrics
import Verif.Props.FailedLoad
import Verif.Props.FailedTable
import Verif.Props.FlatProcess
import Verif.Props.GotoAccept
import Verif.Props.GotoConsistent
import Verif.Props.GotoFlows
import Verif.Props.GotoLayout
import Verif.Props.GotoLoops
import Verif.Props.Grid
import Verif.Props.GridLimits
import Verif.Props.LayoutMetrics
import Verif.Props.LayoutNeeds
import Verif.Props.LayoutState
import Verif.Props.Layouter
import Verif.Props.LoopGrid
import Verif.Props.LoopJoins
import Verif.Props.LoopTable
import Verif.Props.Merge
import Verif.Props.Metrics
import Verif.Props.Optional
import Verif.Props.OptionalEnd
import Verif.Props.OptionalExport
import Verif.Props.OptionalFiled
import Verif.Props.OptionalProcess
import Verif.Props.OptionalTable
import Verif.Props.PageSize
import Verif.Props.Placing
import Verif.Props.Processes
import Verif.Props.Savable
import Verif.Props.SavedAgain
import Verif.Props.Session
import Verif.Props.Setters
import Verif.Props.Shapes
import Verif.Props.SharedEnds
import Verif.Props.Structured
import Verif.Props.TableDrawing
import Verif.Props.TableGateways
import Verif.Props.TableMetrics
import Verif.Props.TreeAgain
import Verif.Props.TreeFiled
import Verif.Props.TreeProcess
import Verif.Props.Width
import Verif.Props.Workflow
import Verif.Props.Xml
import Verif.Props.XmlAccept
import Verif.Props.XmlContent
import Verif.Props.XmlDetails
import Verif.Props.XmlLoaded
import Verif.Props.XmlLosses
import Verif.Props.XmlNames
import Verif.Props.XmlPools
import Verif.Props.XmlShapes
import Verif.Axioms
