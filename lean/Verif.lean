import Verif.Model.Unicode
import Verif.Model.Bxs
import Verif.Spec.Text
import Verif.Spec.Db
import Verif.Lemmas.Text
import Verif.Lemmas.TextPos
import Verif.Lemmas.TextSplit
import Verif.Lemmas.BxsOps
import Verif.Lemmas.BxsOps2
import Verif.Props.Text
import Verif.Model.Tools
import Verif.Spec.Tools
import Verif.Lemmas.Tools
import Verif.Lemmas.Tools2
import Verif.Props.Tools
import Verif.Props.Ident
import Verif.Model.Types
import Verif.Model.Input
import Verif.Lemmas.Input
import Verif.Props.Input
import Verif.Model.Shape
import Verif.Model.Generate
import Verif.Spec.Layout
import Verif.Spec.Sample
import Verif.Lemmas.Precalc
import Verif.Lemmas.Meet
import Verif.Lemmas.Assemble
import Verif.Lemmas.Box
import Verif.Props.Precalc
import Verif.Props.Assemble
import Verif.Spec.Box
import Verif.Lemmas.Output
import Verif.Props.Output
import Verif.Model.Main
import Verif.Spec.Main
import Verif.Lemmas.Main
import Verif.Props.Main
import Verif.Props.Cache
import Verif.Lemmas.Cache
import Verif.Model.Detect
import Verif.Model.Remove
import Verif.Spec.Detect
import Verif.Spec.Remove
import Verif.Lemmas.Detect
import Verif.Lemmas.Remove
import Verif.Lemmas.RemoveLine
import Verif.Props.Remove
import Verif.Props.Detect
import Verif.Model.Program
import Verif.Lemmas.Program
import Verif.Props.Program
import Verif.Model.Parse
import Verif.Spec.Parse
import Verif.Lemmas.Parse
import Verif.Lemmas.ParseInv
import Verif.Lemmas.ParseFill
import Verif.Props.Parse
import Verif.Spec.Config
import Verif.Lemmas.Config
import Verif.Lemmas.Config2
import Verif.Lemmas.Config3
import Verif.Props.Config
import Verif.Spec.Query
import Verif.Spec.Discovery
import Verif.Spec.Merge
import Verif.Model.Query
import Verif.Model.Discovery
import Verif.Model.Merge
import Verif.Lemmas.Query
import Verif.Lemmas.Listing
import Verif.Props.Query
import Verif.Props.Discovery
import Verif.Props.Merge
import Verif.Model.Cmdline
import Verif.Spec.Cmdline
import Verif.Lemmas.Cmdline
import Verif.Lemmas.Cmdline2
import Verif.Props.Cmdline
import Verif.Props.Options
import Verif.Model.Lexer
import Verif.Spec.Lexer
import Verif.Props.Lexer
import Verif.Model.Scanner
import Verif.Spec.Scanner
import Verif.Lemmas.Scanner
import Verif.Lemmas.Grammar
import Verif.Lemmas.Tokens
import Verif.Lemmas.TokensBack
import Verif.Lemmas.Readable
import Verif.Props.Scanner
import Verif.Spec.SampleBlock
import Verif.Props.SampleBlock
import Verif.Props.Chars
import Verif.Spec.Match
import Verif.Lemmas.Match
import Verif.Props.Match
import Verif.Spec.Side
import Verif.Props.Side
import Verif.Model.Details
import Verif.Spec.Details
import Verif.Props.Details
import Verif.Spec.Hits
import Verif.Props.Hits
import Verif.Model.Build
import Verif.Spec.Build
import Verif.Props.Build
import Verif.Spec.Print
import Verif.Props.Print
import Verif.Model.Whole
import Verif.Spec.Whole
import Verif.Lemmas.Whole
import Verif.Props.Whole
import Verif.Spec.Ready
import Verif.Lemmas.Total
import Verif.Props.Total
import Verif.Spec.RoundTrip
import Verif.Lemmas.RoundTrip
import Verif.Props.RoundTrip
import Verif.Lemmas.Assembled
import Verif.Lemmas.ReadBack
import Verif.Lemmas.Drawn
import Verif.Props.DrawRemove
import Verif.Props.Restored
import Verif.Model.Logging
import Verif.Spec.Logging
import Verif.Props.Logging
import Verif.Model.Regex
import Verif.Spec.Rules
import Verif.Props.Rules
import Verif.Props.Regex
import Verif.Spec.Rewriting
import Verif.Props.Rewriting
import Verif.Lemmas.Mend
import Verif.Props.Mend
import Verif.Spec.Pipe
import Verif.Lemmas.Pipe
import Verif.Props.Pipe
import Verif.Model.Getopt
import Verif.Model.Complete
import Verif.Spec.Getopt
import Verif.Lemmas.Getopt
import Verif.Props.Getopt
import Verif.Props.Complete
import Verif.Props.Tabs
import Verif.Spec.Ends
import Verif.Lemmas.Ends
import Verif.Props.Ends
import Verif.Lemmas.Alike
import Verif.Spec.Found
import Verif.Lemmas.Found
import Verif.Lemmas.Trace
import Verif.Props.Found
import Verif.Props.Traces
import Verif.Spec.FoundPipe
import Verif.Props.FoundPipe
import Verif.Spec.Coloured
import Verif.Lemmas.DrawnText
import Verif.Props.Coloured
import Verif.Model.Insert
import Verif.Spec.Insert
import Verif.Props.Insert
import Verif.Lemmas.Visible
import Verif.Props.ColouredPipe
import Verif.Props.ColouredMend
import Verif.Model.Capacity
import Verif.Spec.Capacity
import Verif.Lemmas.Capacity
import Verif.Props.Capacity
import Verif.Spec.SameShown
import Verif.Lemmas.SameShown
import Verif.Props.SameShown
import Verif.Spec.Recoloured
import Verif.Lemmas.Recoloured
import Verif.Props.Recoloured
import Verif.Spec.InColour
import Verif.Lemmas.InColour
import Verif.Props.InColour
import Verif.Lemmas.DrawnColour
import Verif.Props.DrawColour
import Verif.Spec.ColoursOff
import Verif.Lemmas.ColoursOff
import Verif.Props.ColoursOff
import Verif.Spec.Nested
import Verif.Lemmas.Nested
import Verif.Props.Nested
import Verif.Spec.Edited
import Verif.Lemmas.Edited
import Verif.Props.Edited
import Verif.Spec.NoBox
import Verif.Lemmas.NoBox
import Verif.Props.NoBox
import Verif.Model.Help
import Verif.Spec.Help
import Verif.Lemmas.Defaults
import Verif.Props.Help
import Verif.Props.MendBare
import Verif.Spec.Names
import Verif.Lemmas.Names
import Verif.Props.Names
import Verif.Props.MendTwice
import Verif.Spec.MendAny
import Verif.Lemmas.MendAny
import Verif.Props.MendAny
import Verif.Model.Messages
import Verif.Spec.Messages
import Verif.Lemmas.Messages
import Verif.Props.Messages
import Verif.Spec.Size
import Verif.Lemmas.Size
import Verif.Props.Size
import Verif.Spec.Trailing
import Verif.Lemmas.Trailing
import Verif.Props.Trailing
import Verif.Spec.Others
import Verif.Lemmas.Others
import Verif.Props.Others
import Verif.Spec.Moved
import Verif.Lemmas.Moved
import Verif.Props.Moved
import Verif.Spec.Order
import Verif.Lemmas.Order
import Verif.Props.Order
