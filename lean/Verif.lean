import Verif.Model.Str
import Verif.Model.Regex
import Verif.Model.Escape
import Verif.Model.Map
import Verif.Model.Dom
import Verif.Model.Serialize
import Verif.Model.ParseTree
import Verif.Model.Parse
import Verif.Spec.Escape
import Verif.Proofs.Str
import Verif.Proofs.Regex
import Verif.Proofs.Escape
import Verif.Proofs.Unescape
import Verif.Proofs.EscInverse
import Verif.Props.Escape
import Verif.Spec.Order
import Verif.Spec.Equal
import Verif.Spec.Layout
import Verif.Spec.Dom
import Verif.Proofs.Order
import Verif.Proofs.Equal
import Verif.Proofs.Layout
import Verif.Proofs.Dom
import Verif.Proofs.Edit
import Verif.Props.Serialize
import Verif.Props.Dom
import Verif.Spec.Lex
import Verif.Proofs.Lex
import Verif.Proofs.Tokens
import Verif.Spec.Arena
import Verif.Proofs.Arena
import Verif.Proofs.Strip
import Verif.Proofs.Safe
import Verif.Spec.Reach
import Verif.Proofs.Panic
import Verif.Proofs.Invariant
import Verif.Props.Lex
import Verif.Props.Arena
import Verif.Props.Parse
import Verif.Spec.Tree
import Verif.Proofs.Grammar
import Verif.Proofs.Accept
import Verif.Proofs.Shape
import Verif.Proofs.Nest
import Verif.Proofs.Scope
import Verif.Proofs.Outer
import Verif.Proofs.Where
import Verif.Props.Document
import Verif.Model.Io
import Verif.Proofs.Misc
import Verif.Props.Misc
import Verif.Spec.Syntax
import Verif.Proofs.Written
import Verif.Proofs.Syntax
import Verif.Proofs.SyntaxCheck
import Verif.Proofs.SyntaxExact
import Verif.Proofs.Unambiguous
import Verif.Props.Concrete
import Verif.Spec.Conform
import Verif.Proofs.RoundTrip
import Verif.Proofs.ConformCheck
import Verif.Proofs.TokenCheck
import Verif.Proofs.Reread
import Verif.Proofs.RoundTripExact
import Verif.Props.RoundTrip
import Verif.Props.Injective
import Verif.Spec.Source
import Verif.Proofs.Source
import Verif.Proofs.TagNames
import Verif.Props.Source
import Verif.Spec.Errors
import Verif.Proofs.Faults
import Verif.Props.Errors
import Verif.Proofs.Build
import Verif.Props.Build
import Verif.Spec.Crash
import Verif.Proofs.UnescapeExact
import Verif.Proofs.Reader
import Verif.Proofs.Steps
import Verif.Proofs.Complete
import Verif.Props.Prefix
import Verif.Props.Verdict
import Verif.Proofs.XmlChars
import Verif.Proofs.Accessor
import Verif.Props.Xml
import Verif.Props.XmlRead
import Verif.Props.XmlExact
import Verif.Model.Mut
import Verif.Spec.Mut
import Verif.Proofs.Mut
import Verif.Props.Mut
import Verif.Tests.Repo
import Verif.Tests.NoPanic
import Verif.Tests.Docs
import Verif.Spec.Scope
import Verif.Proofs.ScopeExact
import Verif.Props.Scope
import Verif.Model.Message
import Verif.Spec.Message
import Verif.Proofs.Message
import Verif.Props.Message
import Verif.Spec.Roots
import Verif.Proofs.Roots
import Verif.Proofs.RootsParse
import Verif.Props.Roots
import Verif.Model.Warn
import Verif.Spec.Warn
import Verif.Proofs.Warn
import Verif.Props.Warn
import Verif.Model.Fs
import Verif.Spec.Fs
import Verif.Proofs.Fs
import Verif.Props.Fs
import Verif.Model.Hash
import Verif.Proofs.Hash
import Verif.Props.Hash
import Verif.Spec.Edit
import Verif.Proofs.Plain
import Verif.Props.Built
import Verif.Spec.Congr
import Verif.Proofs.Congr
import Verif.Props.Congr
import Verif.Spec.Local
import Verif.Proofs.Local
import Verif.Props.Local
import Verif.Proofs.Single
import Verif.Props.Reread
import Verif.Spec.Space
import Verif.Props.Space
import Verif.Spec.Variant
import Verif.Proofs.Variant
import Verif.Proofs.Expand
import Verif.Props.Variant
import Verif.Props.Accessor
import Verif.Model.InPlace
import Verif.Model.Machine
import Verif.Proofs.InPlace
import Verif.Props.Node
import Verif.Spec.Xml
import Verif.Proofs.XmlCheck
import Verif.Proofs.Xml
import Verif.Proofs.XmlRef
import Verif.Proofs.Reject
import Verif.Proofs.CongrExact
import Verif.Proofs.XmlRead
import Verif.Proofs.XmlExact
import Verif.Spec.Size
import Verif.Proofs.Size
import Verif.Proofs.SizeNs
import Verif.Proofs.SizeOut
import Verif.Proofs.Machine
import Verif.Props.Size
import Verif.Props.Machine
import Verif.Model.Cost
import Verif.Spec.Cost
import Verif.Proofs.Cost
import Verif.Proofs.CostSame
import Verif.Proofs.CostUpper
import Verif.Proofs.CostLower
import Verif.Props.Cost
import Verif.Model.Depth
import Verif.Proofs.Depth
import Verif.Props.Depth
import Verif.Model.WriteCost
import Verif.Proofs.WriteCost
import Verif.Props.WriteCost
import Verif.Model.AppendCost
import Verif.Proofs.AppendCost
import Verif.Props.AppendCost
import Verif.Model.Iter
import Verif.Spec.Iter
import Verif.Proofs.Iter
import Verif.Props.Iter
import Verif.Spec.Undo
import Verif.Proofs.Undo
import Verif.Props.Undo
import Verif.Model.AnyOrder
import Verif.Spec.AnyOrder
import Verif.Proofs.AnyOrder
import Verif.Proofs.AnyOrderParse
import Verif.Proofs.AnyOrderCalls
import Verif.Props.AnyOrder
import Verif.Model.Foreign
import Verif.Spec.Foreign
import Verif.Proofs.Foreign
import Verif.Proofs.ForeignRead
import Verif.Props.Foreign
import Verif.Model.Keys
import Verif.Spec.Keys
import Verif.Proofs.Keys
import Verif.Props.Keys
import Verif.Spec.Splice
import Verif.Proofs.Splice
import Verif.Props.Splice
import Verif.Model.Ask
import Verif.Spec.Ask
import Verif.Proofs.Ask
import Verif.Props.Ask
import Verif.Spec.PutIn
import Verif.Proofs.PutIn
import Verif.Props.PutIn
import Verif.Spec.Retag
import Verif.Proofs.Retag
import Verif.Proofs.AddAttr
import Verif.Props.Retag
import Verif.Spec.SourceEdit
import Verif.Proofs.SourceEdit
import Verif.Props.SourceEdit
import Verif.Spec.Pattern
import Verif.Model.Pattern
import Verif.Proofs.Pattern
import Verif.Props.Pattern
import Verif.Spec.Prolog
import Verif.Proofs.Prolog
import Verif.Props.Prolog
import Verif.Proofs.Content
import Verif.Props.Content
import Verif.Spec.Removal
import Verif.Proofs.Removal
import Verif.Props.Removal
import Verif.Model.RemoveCost
import Verif.Proofs.RemoveCost
import Verif.Props.RemoveCost
import Verif.Spec.Untrusted
import Verif.Proofs.Untrusted
import Verif.Props.Untrusted
import Verif.Proofs.CutOff
import Verif.Props.CutOff
import Verif.Spec.Doctype
import Verif.Proofs.Doctype
import Verif.Props.Doctype
import Verif.Spec.Respace
import Verif.Proofs.Respace
import Verif.Proofs.RespaceParse
import Verif.Props.Respace
import Verif.Spec.W3Ns
import Verif.Proofs.W3Ns
import Verif.Props.W3Ns
import Verif.Spec.Encoding
import Verif.Proofs.Encoding
import Verif.Props.Encoding
import Verif.Spec.Events
import Verif.Proofs.Events
import Verif.Props.Events
import Verif.Spec.Prefixes
import Verif.Proofs.Prefixes
import Verif.Proofs.NewTag
import Verif.Props.Prefixes
import Verif.Spec.SizeNs
import Verif.Proofs.StoredNs
import Verif.Props.StoredNs
import Verif.Model.MergeCost
import Verif.Spec.MergeCost
import Verif.Proofs.MergeCost
import Verif.Props.MergeCost
import Verif.Model.Compile
import Verif.Spec.Compile
import Verif.Proofs.CompileSame
import Verif.Proofs.Compile
import Verif.Proofs.CompileUpper
import Verif.Proofs.CompileSource
import Verif.Props.Compile
import Verif.Model.CopyCost
import Verif.Spec.CopyCost
import Verif.Proofs.CopyCost
import Verif.Props.CopyCost
import Verif.Model.DigitCost
import Verif.Proofs.DigitCost
import Verif.Props.DigitCost
