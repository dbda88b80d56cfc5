import Verif.Model.Parser
import Verif.Props.Containers
import Verif.Props.Types
import Verif.Spec.Eval
import Verif.Lemmas.Sim4
import Verif.Props.Meaning
import Verif.Props.Messages
import Verif.Props.Parsing
import Verif.Props.Writing
import Verif.Props.Operators
import Verif.Props.Layout
import Verif.Props.Literals
import Verif.Props.Scope
import Verif.Props.Access
import Verif.Props.Order
import Verif.Props.Include
import Verif.Props.Depth
import Verif.Props.Display
import Verif.Props.Ids
import Verif.Props.Identity
import Verif.Props.RenameNames
import Verif.Props.Inline
import Verif.Props.Repeat
import Verif.Props.Stack
import Verif.Props.Alloc
import Verif.Props.Extend
import Verif.Props.Cut
import Verif.Props.Convert
import Verif.Props.Refs
import Verif.Props.Closed
import Verif.Props.CharStream
import Verif.Props.World
import Verif.Props.Api
import Verif.Conformance.Errors
import Verif.Conformance.Integration
import Verif.Conformance.Readme
import Verif.Props.Paths
import Verif.Props.Moved
import Verif.Props.Reorder
import Verif.Props.Project
import Verif.Props.Histories
import Verif.Props.Lines
import Verif.Props.ReorderDeep
import Verif.Props.ReorderProject
import Verif.Props.Kinds
import Verif.Props.Laws
import Verif.Props.Formulas
import Verif.Props.Linked
import Verif.Props.Edited
import Verif.Props.Fold
import Verif.Props.FoldFiles
import Verif.Props.Shown
import Verif.Props.ShownFiles
