import Lean.Elab.Command
import Lean.Util.CollectAxioms
import Verif.Props.Trip
import Verif.Props.Outcome
import Verif.Props.Resolve
import Verif.Props.Links
import Verif.Props.Ids
import Verif.Props.Exact
import Verif.Props.SetAttr
import Verif.Props.Family
import Verif.Props.Order
import Verif.Props.Extra
import Verif.Props.Display
import Verif.Props.Undo
import Verif.Props.Access
import Verif.Props.Reader
import Verif.Props.Stream
import Verif.Props.Shown
import Verif.Props.Document
import Verif.Props.Serial
import Verif.Props.Clone
import Verif.Props.Footprint
import Verif.Props.Cell

/-!
# Axioms of the property theorems

The build stops here if a theorem of this development uses an axiom other than `propext`,
`Classical.choice` and `Quot.sound`.
-/

open Lean Elab Command

run_cmd do
  let env ← getEnv
  let mut count := 0
  for (n, c) in env.constants.map₁.toList do
    if (`XmlDom).isPrefixOf n && c matches .thmInfo _ then
      let axs ← liftCoreM (collectAxioms n)
      for a in axs do
        unless a ∈ [``propext, ``Classical.choice, ``Quot.sound] do
          throwError "{n} uses the axiom {a}"
      count := count + 1
  if count < 1000 then throwError "only {count} theorems found"
