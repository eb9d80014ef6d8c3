import Verif.Model.Ast
import Verif.Model.Basic
import Verif.Model.Context
import Verif.Model.Display
import Verif.Model.ErrorInfo
import Verif.Model.Escape
import Verif.Model.Helpers
import Verif.Model.Json
import Verif.Model.Lexer
import Verif.Model.Message
import Verif.Model.Output
import Verif.Model.Parser
import Verif.Model.Registry
import Verif.Model.Render
import Verif.Lemmas.Alike
import Verif.Lemmas.Args
import Verif.Lemmas.Basic
import Verif.Lemmas.Braces
import Verif.Lemmas.CallWF
import Verif.Lemmas.Comments
import Verif.Lemmas.Core
import Verif.Lemmas.CoreExpr
import Verif.Lemmas.CoreTm
import Verif.Lemmas.CustomFrame
import Verif.Lemmas.Direct
import Verif.Lemmas.Eval
import Verif.Lemmas.ExHost
import Verif.Lemmas.Examples
import Verif.Lemmas.Filled
import Verif.Lemmas.Frame
import Verif.Lemmas.FullMain
import Verif.Lemmas.FullTm
import Verif.Lemmas.Handlers
import Verif.Lemmas.Holdings
import Verif.Lemmas.Inline
import Verif.Lemmas.Io
import Verif.Lemmas.KeyOrder
import Verif.Lemmas.Layout
import Verif.Lemmas.Mono
import Verif.Lemmas.Named
import Verif.Lemmas.NodeWF
import Verif.Lemmas.ParseCall
import Verif.Lemmas.ParseLit
import Verif.Lemmas.ParseNode
import Verif.Lemmas.ParsePath
import Verif.Lemmas.ParseStr
import Verif.Lemmas.ParseTm
import Verif.Lemmas.ParserMono
import Verif.Lemmas.ParserTri
import Verif.Lemmas.ParserWF
import Verif.Lemmas.Reads
import Verif.Lemmas.Relabel
import Verif.Lemmas.Rewrite
import Verif.Lemmas.Robust
import Verif.Lemmas.RobustTree
import Verif.Lemmas.Source
import Verif.Lemmas.Tame
import Verif.Lemmas.Tied
import Verif.Lemmas.Tokens
import Verif.Lemmas.TreeWF
import Verif.Lemmas.Unescaped
import Verif.Lemmas.Unfilled
import Verif.Lemmas.Uses
import Verif.Lemmas.Write
import Verif.Spec.Alone
import Verif.Spec.Balanced
import Verif.Spec.Blocks
import Verif.Spec.Braces
import Verif.Spec.Branch
import Verif.Spec.Calls
import Verif.Spec.Comments
import Verif.Spec.Core
import Verif.Spec.Custom
import Verif.Spec.Direct
import Verif.Spec.Faults
import Verif.Spec.Files
import Verif.Spec.Filled
import Verif.Spec.Full
import Verif.Spec.Handlers
import Verif.Spec.Helper
import Verif.Spec.Holdings
import Verif.Spec.Html
import Verif.Spec.Inline
import Verif.Spec.Io
import Verif.Spec.JsonText
import Verif.Spec.KeyOrder
import Verif.Spec.Layout
import Verif.Spec.Lexer
import Verif.Spec.Log
import Verif.Spec.Lookup
import Verif.Spec.Mentions
import Verif.Spec.Message
import Verif.Spec.Named
import Verif.Spec.Nodes
import Verif.Spec.Number
import Verif.Spec.Partials
import Verif.Spec.Print
import Verif.Spec.Reads
import Verif.Spec.Registry
import Verif.Spec.Relabel
import Verif.Spec.Rewrite
import Verif.Spec.Robust
import Verif.Spec.Snippet
import Verif.Spec.Step
import Verif.Spec.Surface
import Verif.Spec.Tags
import Verif.Spec.Tame
import Verif.Spec.Terminates
import Verif.Spec.Tree
import Verif.Spec.Unescaped
import Verif.Spec.Unfilled
import Verif.Spec.Uses
import Verif.Spec.Where
import Verif.Props.Alone
import Verif.Props.Balanced
import Verif.Props.Blocks
import Verif.Props.Braces
import Verif.Props.Branch
import Verif.Props.Calls
import Verif.Props.Comments
import Verif.Props.Compare
import Verif.Props.Computed
import Verif.Props.Context
import Verif.Props.Core
import Verif.Props.Custom
import Verif.Props.Direct
import Verif.Props.Display
import Verif.Props.Escape
import Verif.Props.Evaluate
import Verif.Props.Files
import Verif.Props.Filled
import Verif.Props.Fresh
import Verif.Props.Full
import Verif.Props.Handlers
import Verif.Props.Hash
import Verif.Props.Helpers
import Verif.Props.Holdings
import Verif.Props.Included
import Verif.Props.Inline
import Verif.Props.Invoke
import Verif.Props.Io
import Verif.Props.Items
import Verif.Props.JsonText
import Verif.Props.JsonUnique
import Verif.Props.KeyOrder
import Verif.Props.Layout
import Verif.Props.Lexer
import Verif.Props.Links
import Verif.Props.Lint
import Verif.Props.Literals
import Verif.Props.Locals
import Verif.Props.Log
import Verif.Props.Lookup
import Verif.Props.Message
import Verif.Props.Named
import Verif.Props.Nodes
import Verif.Props.Parents
import Verif.Props.ParserTotal
import Verif.Props.Partials
import Verif.Props.Plain
import Verif.Props.Reads
import Verif.Props.Registry
import Verif.Props.Relabel
import Verif.Props.Rewrite
import Verif.Props.Robust
import Verif.Props.Roundtrip
import Verif.Props.Scopes
import Verif.Props.Snippet
import Verif.Props.Tags
import Verif.Props.Tame
import Verif.Props.Termination
import Verif.Props.Tree
import Verif.Props.Unescaped
import Verif.Props.Unfilled
import Verif.Props.Unless
import Verif.Props.Uses
import Verif.Props.Values
import Verif.Props.Where
import Verif.Props.Whole
import Verif.Props.Written
import Verif.Tests
