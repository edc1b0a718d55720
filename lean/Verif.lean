import Verif.Assign
import Verif.Border
import Verif.CellDocx
import Verif.Collection
import Verif.Color
import Verif.Columns
import Verif.Converter
import Verif.ConverterHistory
import Verif.ConverterLemmas
import Verif.ConverterMulti
import Verif.Detect
import Verif.Docx
import Verif.Draw
import Verif.Format
import Verif.Frames
import Verif.Full
import Verif.Geom
import Verif.Graph
import Verif.Images
import Verif.Lattice
import Verif.Layout
import Verif.Lines
import Verif.NestedFrames
import Verif.Num
import Verif.Page
import Verif.Para
import Verif.Path
import Verif.Pipe
import Verif.Pose
import Verif.Props.Assign
import Verif.Props.Border
import Verif.Props.CellDocx
import Verif.Props.CellPlaces
import Verif.Props.Color
import Verif.Props.Columns
import Verif.Props.Converter
import Verif.Props.ConverterExtra
import Verif.Props.ConverterMulti
import Verif.Props.Decor
import Verif.Props.Detect
import Verif.Props.Distances
import Verif.Props.Docx
import Verif.Props.Draw
import Verif.Props.DrawCells
import Verif.Props.DrawFill
import Verif.Props.DrawPlain
import Verif.Props.DrawTable
import Verif.Props.DrawnFrames
import Verif.Props.Element
import Verif.Props.Flow
import Verif.Props.Format
import Verif.Props.FrameShapes
import Verif.Props.Frames
import Verif.Props.Full
import Verif.Props.FullBorders
import Verif.Props.FullCells
import Verif.Props.FullColours
import Verif.Props.FullColumn
import Verif.Props.FullColumns
import Verif.Props.FullGrid
import Verif.Props.FullLattice
import Verif.Props.FullMarks
import Verif.Props.FullPage
import Verif.Props.FullPaint
import Verif.Props.FullShade
import Verif.Props.FullShapes
import Verif.Props.FullStyle
import Verif.Props.FullTable
import Verif.Props.FullTableEx
import Verif.Props.FullText
import Verif.Props.Graph
import Verif.Props.Images
import Verif.Props.Lattice
import Verif.Props.Layout
import Verif.Props.LayoutC84
import Verif.Props.LayoutExact
import Verif.Props.LayoutOnce
import Verif.Props.LineBreaks
import Verif.Props.Lines
import Verif.Props.NestedFrames
import Verif.Props.OnePage
import Verif.Props.Page
import Verif.Props.Para
import Verif.Props.Path
import Verif.Props.PathCurves
import Verif.Props.Pipe
import Verif.Props.PipePlain
import Verif.Props.Pose
import Verif.Props.PoseColumns
import Verif.Props.Positions
import Verif.Props.RowPlaces
import Verif.Props.Ruled
import Verif.Props.RuledGrid
import Verif.Props.RuledPage
import Verif.Props.Run
import Verif.Props.Settings
import Verif.Props.ShadeBorders
import Verif.Props.Shapes
import Verif.Props.Sound
import Verif.Props.Source
import Verif.Props.Spacing
import Verif.Props.Store
import Verif.Props.StoreDocx
import Verif.Props.Stream
import Verif.Props.StreamCollect
import Verif.Props.StreamOverlap
import Verif.Props.StreamTight
import Verif.Props.Styled
import Verif.Props.StyledSound
import Verif.Props.StyledText
import Verif.Props.Sweep
import Verif.Props.Table
import Verif.Props.TableFlow
import Verif.Props.TablePlaces
import Verif.Props.TableRows
import Verif.Props.TableSect
import Verif.Props.TableText
import Verif.Props.TextSpan
import Verif.Props.Tight
import Verif.Props.TightBorder
import Verif.Props.TightContent
import Verif.Props.TightTable
import Verif.Props.Turned
import Verif.Props.Whole
import Verif.Props.WholeClean
import Verif.Props.WholeColumns
import Verif.Props.WholePlain
import Verif.Props.WholeShade
import Verif.Props.WholeTable
import Verif.Props.WholeText
import Verif.Props.WholeWork
import Verif.Props.Write
import Verif.Py
import Verif.Run
import Verif.Settings
import Verif.Shapes
import Verif.Sort
import Verif.Source
import Verif.Spacing
import Verif.Spec.BorderMarks
import Verif.Spec.CellDocx
import Verif.Spec.CellStyle
import Verif.Spec.Colours
import Verif.Spec.Columns
import Verif.Spec.Converter
import Verif.Spec.Detect
import Verif.Spec.Docx
import Verif.Spec.Draw
import Verif.Spec.DrawFill
import Verif.Spec.DrawnFrames
import Verif.Spec.Flow
import Verif.Spec.Format
import Verif.Spec.Frames
import Verif.Spec.FullColumns
import Verif.Spec.FullShade
import Verif.Spec.FullTable
import Verif.Spec.FullText
import Verif.Spec.Geom
import Verif.Spec.Graph
import Verif.Spec.Images
import Verif.Spec.Layout
import Verif.Spec.LineBreaks
import Verif.Spec.Lines
import Verif.Spec.NestedFrames
import Verif.Spec.Path
import Verif.Spec.Pipe
import Verif.Spec.PipePlain
import Verif.Spec.Pose
import Verif.Spec.Positions
import Verif.Spec.RowPlaces
import Verif.Spec.Ruled
import Verif.Spec.RuledGrid
import Verif.Spec.RuledPage
import Verif.Spec.Run
import Verif.Spec.Sound
import Verif.Spec.Source
import Verif.Spec.Spacing
import Verif.Spec.Store
import Verif.Spec.Stream
import Verif.Spec.StreamCollect
import Verif.Spec.Styled
import Verif.Spec.StyledSound
import Verif.Spec.StyledText
import Verif.Spec.Table
import Verif.Spec.TablePlaces
import Verif.Spec.TableRows
import Verif.Spec.Turned
import Verif.Spec.Whole
import Verif.Spec.WholeColumns
import Verif.Spec.WholePlain
import Verif.Spec.WholeShade
import Verif.Store
import Verif.Stream
import Verif.Styled
import Verif.Sweep
import Verif.SweepLemmas
import Verif.Table
import Verif.TextSpan
import Verif.Whole
import Verif.Write
