import Verif.Basic
import Verif.Model.Syntax
import Verif.Model.Text
import Verif.Model.Name
import Verif.Model.Options
import Verif.Model.Decl
import Verif.Model.CharData
import Verif.Model.Heap
import Verif.Model.Node
import Verif.Model.Namespaced
import Verif.Model.Element
import Verif.Model.Document
import Verif.Model.Clone
import Verif.Model.Display
import Verif.Model.Parser
import Verif.Model.Ops
import Verif.Model.Access
import Verif.Spec.Chars
import Verif.Spec.Text
import Verif.Spec.Tree
import Verif.Spec.History
import Verif.Spec.Attr
import Verif.Spec.Namespaces
import Verif.Spec.Create
import Verif.Spec.Normal
import Verif.Spec.Walk
import Verif.Spec.Footprint
import Verif.Spec.Serial
import Verif.Spec.Reader
import Verif.Spec.Parse
import Verif.Spec.Stream
import Verif.Spec.Shown
import Verif.Spec.Access
import Verif.Spec.Undo
import Verif.Spec.Trip
import Verif.Lemmas.Bytes
import Verif.Lemmas.Chars
import Verif.Lemmas.Split
import Verif.Lemmas.Name
import Verif.Lemmas.Heap
import Verif.Lemmas.Tree
import Verif.Lemmas.Text
import Verif.Lemmas.Step
import Verif.Lemmas.OpSteps
import Verif.Lemmas.Witness
import Verif.Lemmas.Invariants
import Verif.Lemmas.Guarded
import Verif.Lemmas.Attr
import Verif.Lemmas.Fuel
import Verif.Lemmas.Walk
import Verif.Lemmas.Footprint
import Verif.Lemmas.Serial
import Verif.Lemmas.RoundTrip
import Verif.Lemmas.Parse
import Verif.Lemmas.ParseTree
import Verif.Lemmas.ParseDoc
import Verif.Lemmas.ParseCalm
import Verif.Lemmas.Value
import Verif.Lemmas.Stream
import Verif.Lemmas.Shown
import Verif.Props.CharData
import Verif.Props.Simple
import Verif.Props.Name
import Verif.Props.Text
import Verif.Props.Tree
import Verif.Props.History
import Verif.Props.Ids
import Verif.Props.Exact
import Verif.Props.Create
import Verif.Props.Split
import Verif.Props.Normalize
import Verif.Props.Attr
import Verif.Props.Namespaces
import Verif.Props.Walk
import Verif.Props.Footprint
import Verif.Props.Clone
import Verif.Props.Serial
import Verif.Props.Reader
import Verif.Props.Stream
import Verif.Props.Shown
import Verif.Props.Access
import Verif.Props.Undo
import Verif.Props.Display
import Verif.Props.Trip
import Verif.Spec.Outcome
import Verif.Spec.Order
import Verif.Spec.Extra
import Verif.Props.Outcome
import Verif.Props.Resolve
import Verif.Props.Links
import Verif.Props.SetAttr
import Verif.Props.Family
import Verif.Props.Order
import Verif.Props.Extra
import Verif.Spec.Document
import Verif.Lemmas.DocTrip
import Verif.Props.Document
import Verif.Model.Cell
import Verif.Lemmas.Cell
import Verif.Lemmas.CellAttr
import Verif.Lemmas.CellParse
import Verif.Props.Cell
import Verif.Conformance.Units
import Verif.Audit
