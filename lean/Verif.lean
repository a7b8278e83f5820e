import Verif.Spec
import Verif.Select
import Verif.Document
import Verif.Text
import Verif.Serialiser
import Verif.Parser
import Verif.Conformance
import Verif.Props.Tables
import Verif.Props.Stores
import Verif.Props.Escape
import Verif.Props.Attributes
import Verif.Props.Declarations
import Verif.Props.Elements
import Verif.Tree
import Verif.Decide
import Verif.Props.Tree
import Verif.Props.Builders
import Verif.Props.Spans
import Verif.View
import Verif.Props.Select
import Verif.Props.Ancestors
import Verif.Props.Query
import Verif.Props.Features
import Verif.Props.Layers
import Verif.Props.Text
import Verif.Props.Serialise
import Verif.Props.Parser
import Verif.Props.Provenance
import Verif.Props.RoundTrip
import Verif.Props.RoundBody
import Verif.Props.RoundStable
import Verif.Props.Indent
import Verif.Props.Lookup
import Verif.Accept
import Verif.Props.Accept
import Verif.Props.Source
import Verif.Props.New
import Verif.Props.Traced
import Verif.Props.Head
import Verif.Props.ById
import Verif.Props.Chars
import Verif.Props.TextRound
import Verif.Props.TextFrame
import Verif.Props.TextEdit
import Verif.Props.XmlFrame
import Verif.Calls
import Verif.Props.Calls
import Verif.Props.Safe
import Verif.Props.SafeParse
import Verif.Tools
import Verif.Props.Tools
import Verif.Props.SafeLookup
import Verif.Props.LintTwice
import Verif.Props.SourceText
import Verif.Props.Show
import Verif.Props.SourceQuery
import Verif.Props.AddQuery
import Verif.Props.MoveQuery
import Verif.Props.MoveAncestors
