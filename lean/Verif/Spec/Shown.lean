import Verif.Spec.Serial
import Verif.Spec.Stream
import Mathlib.Logic.Relation

/-!
# Which nodes the text form of a node shows
-/

namespace XmlDom
namespace Spec

/-- The text form of `n` contains that of `m`: attributes, children of elements, documents and
fragments, the document type, and the declarations of a document type. -/
inductive Part (h : Heap) (n : NodeId) : NodeId → Prop
  | attr {k : Name} {a : NodeId} (ht : nodeType h n = .element)
      (ha : (k, a) ∈ attributes h n) : Part h n a
  | child {c : NodeId} (ht : nodeType h n = .element ∨ nodeType h n = .document ∨
      nodeType h n = .documentFragment) (hc : c ∈ childNodes h n) : Part h n c
  | docType {t : NodeId} (ht : nodeType h n = .document) (hd : docType h n = some t) : Part h n t
  | declaration {x : DocTypeExt} {k : Name} {a : NodeId} (ht : nodeType h n = .documentType)
      (hx : (h.get n).ext = .documentType x) (ha : (k, a) ∈ x.entities ∨ (k, a) ∈ x.notations) :
      Part h n a

/-- The nodes shown: the node, its parts, their parts and so on. -/
def Shown (h : Heap) : NodeId → NodeId → Prop := Relation.ReflTransGen (Part h)

/-- An attribute with children whose text has no value, because it contains an entity reference
or a reference to no character. -/
def Unreadable (u : Uni) (h : Heap) (a : NodeId) : Prop :=
  nodeType h a = .attribute ∧ childNodes h a ≠ [] ∧
    ∃ s, RawText h (childNodes h a) s ∧ ValueSays u s none

end Spec
end XmlDom
