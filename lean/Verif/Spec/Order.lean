import Verif.Spec.History
import Verif.Spec.Attr

/-!
# Vocabulary for independence of the iteration order
-/

namespace XmlDom
namespace Spec

/-- The environments differ in nothing but the iteration order of hash maps. -/
def SameButOrder (e e' : Env) : Prop :=
  e'.uni = e.uni ∧ e'.overflowChecks = e.overflowChecks

/-- A call that removes an attribute by name finds at most one. -/
def RemovesOne (h : Heap) : Op → Prop
  | .removeAttribute n s => OneNamed h n s
  | .removeAttributeNs n uri s => OneNamedNs h n uri s
  | _ => True

/-- The same calls in two rows of environments. -/
def Parallel : List (Env × Env × Op) → List (Env × Op) × List (Env × Op)
  | [] => ([], [])
  | (e, e', op) :: rest => ((e, op) :: (Parallel rest).1, (e', op) :: (Parallel rest).2)

end Spec
end XmlDom
