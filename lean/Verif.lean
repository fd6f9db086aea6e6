import Verif.Astar.Abs
import Verif.Astar.AbsProof
import Verif.Astar.Model
import Verif.Astar.PathLemmas
import Verif.Astar.Props
import Verif.Astar.Sim
import Verif.Build.Edges
import Verif.Build.Examples
import Verif.Build.Maps
import Verif.Build.Marks
import Verif.Build.Model
import Verif.Build.Props
import Verif.Build.Routes
import Verif.Build.Spec
import Verif.Conn.CleanLemmas
import Verif.Conn.Final
import Verif.Conn.MergeLemmas
import Verif.Conn.MergeModel
import Verif.Conn.MergeNet
import Verif.Conn.MergeSpec
import Verif.Conn.Model
import Verif.Conn.NodeLemmas
import Verif.Conn.Props
import Verif.Conn.SearchLemmas
import Verif.Conn.SearchModel
import Verif.Conn.SearchSpec
import Verif.Conn.Spec
import Verif.Cost.Blocked
import Verif.Cost.Cuts
import Verif.Cost.HistSpec
import Verif.Cost.History
import Verif.Cost.Model
import Verif.Cost.Nodes
import Verif.Cost.Planar
import Verif.Cost.Spec
import Verif.Cost.Via
import Verif.Cost.ViaEol
import Verif.Cost.Which
import Verif.Cut58.Ex
import Verif.Cut58.Lemmas
import Verif.Cut58.Model
import Verif.Cut58.Props
import Verif.Cut58.ReadEx
import Verif.Cut58.ReadModel
import Verif.Cut58.ReadProps
import Verif.Cut58.ReadSpec
import Verif.Cut58.Spec
import Verif.CutIn.Model
import Verif.CutIn.Props
import Verif.CutIn.Spec
import Verif.Def.Cases
import Verif.Def.File
import Verif.Def.Model
import Verif.Def.Props
import Verif.Def.Spec
import Verif.Def.Stages
import Verif.Def.Sweep
import Verif.DrPin.Lemmas
import Verif.DrPin.Model
import Verif.DrPin.Props
import Verif.DrPin.Spec
import Verif.DrPin.Term
import Verif.Echo.Comp
import Verif.Echo.CompProps
import Verif.Echo.Defs
import Verif.Echo.DefsProps
import Verif.Echo.DefsSpec
import Verif.Echo.Doc
import Verif.Echo.DocProps
import Verif.Echo.DocSpec
import Verif.Echo.File
import Verif.Echo.FileProps
import Verif.Echo.FileSpec
import Verif.Echo.Grid
import Verif.Echo.GridProps
import Verif.Echo.GridSpec
import Verif.Echo.Lemmas
import Verif.Echo.Ndr
import Verif.Echo.NdrProps
import Verif.Echo.NdrSpec
import Verif.Echo.Net
import Verif.Echo.NetProps
import Verif.Echo.NetSpec
import Verif.Echo.Num
import Verif.Echo.NumLemmas
import Verif.Echo.Pin
import Verif.Echo.PinProps
import Verif.Echo.PinSpec
import Verif.Echo.SNet
import Verif.Echo.SNetProps
import Verif.Echo.SNetSpec
import Verif.Echo.Sec
import Verif.Echo.SecProps
import Verif.Echo.Spec
import Verif.Echo.Tok
import Verif.Echo.Via
import Verif.Echo.ViaProps
import Verif.Echo.ViaSpec
import Verif.First.Guides
import Verif.First.Lemmas
import Verif.First.Model
import Verif.First.Props
import Verif.First.Spec
import Verif.First.Wires
import Verif.GC.Corner
import Verif.GC.CornerEx
import Verif.GC.CornerLemmas
import Verif.GC.CornerProps
import Verif.GC.CornerSpec
import Verif.GC.Cut.Model
import Verif.GC.Cut.Props
import Verif.GC.Cut.Spec
import Verif.GC.Edges
import Verif.GC.Eol.Model
import Verif.GC.Eol.Props
import Verif.GC.Eol.Spec
import Verif.GC.Examples
import Verif.GC.Layer
import Verif.GC.Lemmas
import Verif.GC.Model
import Verif.GC.Props
import Verif.GC.Rects.Flags
import Verif.GC.Rects.Lemmas
import Verif.GC.Rects.Model
import Verif.GC.Rects.Props
import Verif.GC.Rects.RectOnly
import Verif.GC.Rects.Spec
import Verif.GC.Shape
import Verif.GC.ShapeProps
import Verif.GC.ShapeSpec
import Verif.GC.Spec
import Verif.GCell.Lemmas
import Verif.GCell.Props
import Verif.GFinal.Main
import Verif.GFinal.Model
import Verif.GFinal.Props
import Verif.GFinal.Spec
import Verif.GFinal.Tree
import Verif.GFinal.Trim
import Verif.GcDb.Find
import Verif.GcDb.FindProps
import Verif.GcDb.FindSpec
import Verif.GcDb.Follow
import Verif.GcDb.Lemmas
import Verif.GcDb.Model
import Verif.GcDb.Props
import Verif.GcDb.Spec
import Verif.GcEdge.CornProps
import Verif.GcEdge.Model
import Verif.GcEdge.Props
import Verif.GcEdge.Spec
import Verif.Geom.Props
import Verif.Guide.Attempt
import Verif.Guide.IvLemmas
import Verif.Guide.Link
import Verif.Guide.Model
import Verif.Guide.Props
import Verif.Guide.Search
import Verif.Guide.Spec
import Verif.Guide.Split
import Verif.Hist.Lemmas
import Verif.Hist.Model
import Verif.Hist.Nodes
import Verif.Hist.Props
import Verif.Hist.Record
import Verif.Hist.Spec
import Verif.Hole.Area
import Verif.Hole.Model
import Verif.Hole.Props
import Verif.Hole.Spec
import Verif.Ids.Lemmas
import Verif.Ids.Made
import Verif.Ids.Model
import Verif.Ids.Props
import Verif.Ids.Spec
import Verif.Lay.Model
import Verif.Lay.Props
import Verif.Lay.Spec
import Verif.Lay.TextProps
import Verif.LefVia.Model
import Verif.LefVia.Props
import Verif.LefVia.Rule
import Verif.LefVia.RuleProps
import Verif.LefVia.RuleSpec
import Verif.LefVia.Spec
import Verif.Maze.CounterProps
import Verif.Maze.EdgeProps
import Verif.Maze.LabelProps
import Verif.NetCost.Block
import Verif.NetCost.Clear
import Verif.NetCost.Drc
import Verif.NetCost.FlagRun
import Verif.NetCost.Flags
import Verif.NetCost.Ledger
import Verif.NetCost.Model
import Verif.NetCost.Props
import Verif.NetCost.Run
import Verif.NetCost.Shape
import Verif.NetCost.Spec
import Verif.NetCost.Stretch
import Verif.NetOrd.Model
import Verif.NetOrd.Props
import Verif.Opt.Model
import Verif.Opt.Props
import Verif.Opt.Spec
import Verif.PA.CMap
import Verif.PA.Lib.Props
import Verif.PA.Pattern.Cell
import Verif.PA.Pattern.Lemmas
import Verif.PA.Pattern.Model
import Verif.PA.Pattern.Props
import Verif.PA.Pattern.Spec
import Verif.PA.Point.Lemmas
import Verif.PA.Point.Model
import Verif.PA.Point.Props
import Verif.PA.Point.Rank
import Verif.PA.Point.Spec
import Verif.PA.Track.Model
import Verif.PA.Track.Props
import Verif.PA.Track.Range
import Verif.PA.Track.RangeProps
import Verif.PA.Track.RangeSpec
import Verif.PA.Track.Spec
import Verif.PA.Try.Model
import Verif.PA.Try.Props
import Verif.PA.Try.Spec
import Verif.PaRun.Model
import Verif.PaRun.RunProps
import Verif.PaRun.Spec
import Verif.PaRun.ViaProps
import Verif.Patch.Area
import Verif.Patch.Choice
import Verif.Patch.Examples
import Verif.Patch.Geo
import Verif.Patch.Halves
import Verif.Patch.Lemmas
import Verif.Patch.Model
import Verif.Patch.Props
import Verif.Patch.Spec
import Verif.PinCell.Lemmas
import Verif.PinCell.Model
import Verif.PinCell.Props
import Verif.PinCell.Spec
import Verif.RQueue.Lemmas
import Verif.RQueue.Model
import Verif.RQueue.Props
import Verif.RQueue.Spec
import Verif.Read.Accept
import Verif.Read.Inv
import Verif.Read.Lef
import Verif.Read.Lemmas
import Verif.Read.Model
import Verif.Read.Nets
import Verif.Read.Props
import Verif.Read.Props2
import Verif.Read.Query
import Verif.Read.Spec
import Verif.Read.Store
import Verif.Read.Tracks
import Verif.Read.Vias
import Verif.Region.Comp
import Verif.Region.Model
import Verif.Region.Nodes
import Verif.Region.Pieces
import Verif.Region.Props
import Verif.Region.Reroute
import Verif.Region.Spec
import Verif.Region.Worker
import Verif.RouteNet.AimProps
import Verif.RouteNet.AimSpec
import Verif.RouteNet.Model
import Verif.RouteNet.Props
import Verif.Rpt.Model
import Verif.Rpt.Props
import Verif.Rpt.Spec
import Verif.Run.Pins
import Verif.Run.PinsEx
import Verif.Run.PinsLemmas
import Verif.Run.PinsProps
import Verif.Run.PinsSpec
import Verif.Run.Schedule
import Verif.Run.ScheduleLemmas
import Verif.Run.ScheduleProps
import Verif.Run.ScheduleSpec
import Verif.Scale.Model
import Verif.Scale.Props
import Verif.Scale.Spec
import Verif.Seek.Costs
import Verif.Seek.Examples
import Verif.Seek.Hist
import Verif.Seek.Model
import Verif.Seek.Near
import Verif.Seek.NearInv
import Verif.Seek.NearLoop
import Verif.Seek.Props
import Verif.Seek.Sim
import Verif.Seek.Spec
import Verif.Seek.Tables
import Verif.Setup.GcModel
import Verif.Setup.GcProps
import Verif.Setup.GcSpec
import Verif.Setup.RefModel
import Verif.Setup.RefProps
import Verif.Setup.Steps
import Verif.Setup.TextLemmas
import Verif.Setup.TextModel
import Verif.Setup.TextProps
import Verif.Setup.TextSpec
import Verif.Setup.ViaModel
import Verif.Setup.ViaProps
import Verif.Setup.ViaSpec
import Verif.TA.Lemmas
import Verif.TA.Model
import Verif.TA.Props
import Verif.TA.Spec
import Verif.TaInit.Fixed
import Verif.TaInit.Grid
import Verif.TaInit.Lemmas
import Verif.TaInit.Model
import Verif.TaInit.Pass
import Verif.TaInit.Props
import Verif.TaInit.Runs
import Verif.TaInit.Spec
import Verif.TaWork.Blocks
import Verif.TaWork.Cuts
import Verif.TaWork.Inv
import Verif.TaWork.Later
import Verif.TaWork.Lemmas
import Verif.TaWork.Model
import Verif.TaWork.Pass
import Verif.TaWork.Props
import Verif.TaWork.Spec
import Verif.TaWork.Store
import Verif.Tech.Cut
import Verif.Tech.Gf14
import Verif.Tech.Model
import Verif.Tech.Props
import Verif.Tech.Spec
import Verif.Thr.Lemmas
import Verif.Thr.Model
import Verif.Thr.Props
import Verif.Thr.Spec
import Verif.Thr.TaProps
import Verif.Track.Props
import Verif.WB.End
import Verif.WB.Lemmas
import Verif.WB.Merge
import Verif.WB.Model
import Verif.WB.Props
import Verif.WB.Spec
import Verif.Whole.DocProps
import Verif.Whole.DocSpec
import Verif.Whole.Flow
import Verif.Whole.Model
import Verif.Whole.Props
import Verif.Whole.Spec
import Verif.Wq.Model
import Verif.Wq.Props
import Verif.Wq.Spec
import Verif.Audit
