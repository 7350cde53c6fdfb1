import Verif.Spec.Tree
import Verif.Spec.Normal

/-!
# Vocabulary for calls that undo each other
-/

namespace XmlDom
namespace Spec

/-- No reading method sees a difference between the two states, at any node. -/
def Unchanged (h h' : Heap) : Prop := OnlyLinks h h' (fun _ => False) (fun _ => False)

/-- What a list of nodes says, text by text: a text for a text node, the node itself for
any other. -/
def blocks (h : Heap) (l : List NodeId) : List (NodeId ⊕ Str) :=
  l.map fun c => if nodeType h c = .text then .inr (textOf h c) else .inl c

end Spec
end XmlDom
