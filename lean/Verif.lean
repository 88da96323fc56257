import Verif.Props.Compile
import Verif.Props.Info
import Verif.Props.Escape
import Verif.Props.Protect
import Verif.Props.Split
import Verif.Props.DocRefs
import Verif.Props.DocPages
import Verif.Props.DocMarks
import Verif.Props.DocShared
import Verif.Props.OutlineTree
import Verif.Props.Units
import Verif.Props.Cmap
import Verif.Props.CmapChars
import Verif.Props.CharMap
import Verif.Props.ToUnicode
import Verif.Props.Embed
import Verif.Spec.FontComplete
import Verif.Lemmas.Embed.Total
import Verif.Props.EmbedTotal
import Verif.Props.EmbedProgram
import Verif.Props.PNG
import Verif.Props.Balance
import Verif.Props.Join
import Verif.Props.Measure
import Verif.Props.Align
import Verif.Props.MultiCell
import Verif.Props.CompressLevel
import Verif.Props.Rectangle
import Verif.Props.PlaceHolder
import Verif.Props.Arabic
import Verif.Props.Container
import Verif.Props.Table
import Verif.Props.Canvas
import Verif.Props.ImageSize
import Verif.Props.Decor
import Verif.Props.PageBytes
import Verif.Props.Objects
import Verif.Props.FilePages
import Verif.Props.FileGraph
import Verif.Props.FileSample
import Verif.Props.FileExample
import Verif.Props.FileExample2
import Verif.Props.InfoDate
import Verif.Props.InfoFile
import Verif.Props.Program
import Verif.Props.ProgramResources
import Verif.Props.ProgramText
import Verif.Props.ProgramExample
import Verif.Spec.Used
import Verif.Spec.Shows
import Verif.Lemmas.Program.Figures
import Verif.Props.ProgramFigures
import Verif.Props.FiguresExample
import Verif.Spec.Request
import Verif.Lemmas.Program.Request
import Verif.Model.Placing
import Verif.Spec.Placing
import Verif.Lemmas.Program.Placing
import Verif.Lemmas.Program.Heights
import Verif.Lemmas.Objects.Places
import Verif.Props.Placing
import Verif.Props.PlacingExample
import Verif.Model.TTFTables
import Verif.Model.Typeset
import Verif.Lemmas.Content.Fonts
import Verif.Lemmas.Program.Typeset
import Verif.Spec.Typeset
import Verif.Lemmas.Embed.Metrics
import Verif.Lemmas.Program.Wishes
import Verif.Props.Typeset
import Verif.Props.TypesetExample
import Verif.Spec.FontMetrics
import Verif.Lemmas.Embed.Info
import Verif.Model.TypesetMeasure
import Verif.Spec.Runs
import Verif.Lemmas.Program.Runs
import Verif.Props.TypesetMeasure
import Verif.Props.TypesetMeasureExample
import Verif.Props.TypesetDescriptor
import Verif.Props.TypesetRuns
import Verif.Props.TypesetRunsExample
import Verif.Spec.Pictures
import Verif.Model.Pictures
import Verif.Lemmas.Pictures.Image
import Verif.Lemmas.Pictures.Png
import Verif.Lemmas.Pictures.Same
import Verif.Props.ProgramPictures
import Verif.Props.PicturesExample
import Verif.Model.Layout
import Verif.Spec.Layout
import Verif.Lemmas.Layout.Log
import Verif.Lemmas.Layout.Split
import Verif.Lemmas.Layout.Same
import Verif.Lemmas.Layout.Fits
import Verif.Lemmas.Layout.Rel
import Verif.Lemmas.Layout.Run
import Verif.Props.Layout
import Verif.Props.LayoutExample
import Verif.Spec.TextLook
import Verif.Lemmas.Program.Letters
import Verif.Lemmas.Program.Spell
import Verif.Lemmas.Program.Inked
import Verif.Props.TextLook
import Verif.Props.TextLookExample
import Verif.Lemmas.Program.Place
import Verif.Props.TextPlace
import Verif.Model.Pool
import Verif.Lemmas.Pool
import Verif.Props.Pool
import Verif.Props.Caller
import Verif.Props.TypesetContains
import Verif.Props.TypesetContainsExample
import Verif.Model.Import
import Verif.Spec.Import
import Verif.Props.Import
import Verif.Props.ImportExample
import Verif.Spec.FontAccept
import Verif.Lemmas.Embed.Accept
import Verif.Lemmas.Embed.Panic
import Verif.Props.TypesetAccept
import Verif.Props.TypesetAcceptExample
import Verif.Model.Restart
import Verif.Lemmas.Restart
import Verif.Lemmas.RestartCount
import Verif.Props.Restart
import Verif.Spec.Column
import Verif.Lemmas.Layout.Ruler
import Verif.Props.Column
import Verif.Props.ColumnExample
import Verif.Props.TableColumn
import Verif.Props.Hyphen
import Verif.Props.TableBuild
import Verif.Model.Holder
import Verif.Spec.Holder
import Verif.Props.Holder
import Verif.Props.HolderExample
import Verif.Model.Options
import Verif.Spec.Options
import Verif.Props.Options
import Verif.Spec.Panics
import Verif.Lemmas.Doc.Panic
import Verif.Lemmas.Panics
import Verif.Lemmas.Layout.Answer
import Verif.Props.Panics
import Verif.Props.PanicsLayout
import Verif.Props.PanicsExample
import Verif.Props.Filled
import Verif.Spec.TextTint
import Verif.Lemmas.Content.Exts
import Verif.Lemmas.Program.Tint
import Verif.Lemmas.Program.TintStep
import Verif.Lemmas.Program.TintSteps
import Verif.Props.TextTint
import Verif.Props.TextTintExample
import Verif.Spec.Errors
import Verif.Lemmas.Doc.OnlySpaces
import Verif.Lemmas.Doc.Errors
import Verif.Props.Errors
import Verif.Props.ErrorsText
import Verif.Props.FontMaker
import Verif.Props.FontMakerExample
import Verif.Props.FontMakerDesc
import Verif.Props.FontMakerDescExample
import Verif.Props.FontMakerObjs
