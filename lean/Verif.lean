import Verif.Props.Pitch
import Verif.Props.Values
import Verif.Props.RepeatSet
import Verif.Props.Queries
import Verif.Props.Project
import Verif.Props.Undo
import Verif.Props.Tuple
import Verif.Props.Text
import Verif.Props.Chunk
import Verif.Props.Render
import Verif.Props.RenderError
import Verif.Props.Clipboard
import Verif.Props.Paste
import Verif.Props.Edit
import Verif.Props.File
import Verif.Props.Rates
import Verif.Props.Parts
import Verif.Props.Counting
import Verif.Props.FieldError
import Verif.Props.Jump
import Verif.Props.Structure
import Verif.Props.Figures
import Verif.Props.Flow
import Verif.Props.Adding
import Verif.Props.AddJump
import Verif.Props.AddEndings
import Verif.Props.Ordinary
import Verif.Props.Fewest
import Verif.Props.Stored
import Verif.Props.Times
import Verif.Props.Undone
import Verif.Props.TupleAgain
import Verif.Props.Afresh
import Verif.Props.Moments
import Verif.Props.BarByBar
import Verif.Props.Listen
import Verif.Props.ClipText
import Verif.Props.Strings
import Verif.Props.RateText
import Verif.Props.Announce
import Verif.Props.JsonGrammar
import Verif.Props.ErrorText
import Verif.UnitTests.Values
import Verif.UnitTests.Notes
import Verif.UnitTests.Project
import Verif.UnitTests.Repeat
import Verif.Props.Marks
import Verif.Props.Release
import Verif.Props.ReleaseTuple
import Verif.Props.ReleaseRender
import Verif.Props.Unheard
import Verif.Props.Portions
import Verif.Props.Places
import Verif.Props.Stretch
import Verif.Props.Steps
import Verif.Props.Moving
import Verif.Props.Cut
