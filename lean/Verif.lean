import Verif.Unit.Props
import Verif.Ole.SizingProps
import Verif.Ole.TokProps
import Verif.Ole.Props
import Verif.Cells.Props
import Verif.Sst.Props
import Verif.Rows.Props
import Verif.Rows.IndexProps
import Verif.Rows.Find
import Verif.Sheet.LinkProps
import Verif.Note.Group
import Verif.Book.Create
import Verif.Save.File
import Verif.Hpsf.Props
import Verif.Num.Props
import Verif.Sheet.Window
import Verif.Formula.CellProps
import Verif.Xf.Props
import Verif.Font.Props
import Verif.Palette.Props
import Verif.NumFmt.Props
import Verif.NumFmt.Builtin
import Verif.Styles.Props
import Verif.Range.Props
import Verif.Store.Enough
import Verif.Whole.Sizes
import Verif.Text.Props
import Verif.Look.Plain
import Verif.Links.Props
import Verif.Page.Plain
import Verif.Page.RowSpec
import Verif.Page.Rows
import Verif.Page.RowProps
import Verif.Prog.Plain
import Verif.Formula.StackProps
import Verif.Whole.StackFile
import Verif.Ask.Props
import Verif.Desk.Model
import Verif.Desk.Spec
import Verif.Desk.Lemmas
import Verif.Desk.Keep
import Verif.Desk.Read
import Verif.Desk.Props
import Verif.Desk.Draw
import Verif.Desk.Stall
import Verif.Desk.Boxes
import Verif.Page.Steady
import Verif.Again.Model
import Verif.Again.Spec
import Verif.Again.Lemmas
import Verif.Again.Props
import Verif.Again.Shapes
import Verif.Area.Model
import Verif.Area.Spec
import Verif.Area.Count
import Verif.Area.Sim
import Verif.Area.Loop
import Verif.Area.Run
import Verif.Area.Props
import Verif.Live.Model
import Verif.Live.Spec
import Verif.Live.Lemmas
import Verif.Live.Props
import Verif.Life.Model
import Verif.Life.Spec
import Verif.Life.Props
import Verif.Bridge.Model
import Verif.Bridge.Spec
import Verif.Bridge.Lemmas
import Verif.Bridge.Props
import Verif.Mirror.Props
import Verif.Tree.Kept
import Verif.Mem.Props
import Verif.Dir.Props
import Verif.Free.Props
import Verif.Free.More
import Verif.Touch.Props
import Verif.Life.Trace
import Verif.Life.Index
import Verif.Free.Trace
import Verif.Bridge.Free
import Verif.Xf.Mode
import Verif.Xf.Same
import Verif.Formula.Union
import Verif.Formula.Kinds
import Verif.NumFmt.Shop
import Verif.Styles.Tally
