import Mathlib.Logic.Relation
import Verif.Model.Ops

/-!
# Vocabulary for properties of whole histories

Everything here is stated with the reading calls of the API (`childNodes`, `parentNode`,
`nodeType` and so on) and with histories of calls.
-/

namespace XmlDom
namespace Spec

/-! ## Child lists -/

/-- The node types that may be children, by the type of the parent. This is the table at
the beginning of section 1.1.1 of the DOM Level 2 Core recommendation. -/
def childTypes : NodeType → List NodeType
  | .document => [.element, .processingInstruction, .comment, .documentType]
  | .documentFragment | .entityReference | .element | .entity =>
    [.element, .processingInstruction, .comment, .text, .cdata, .entityReference]
  | .attribute => [.text, .entityReference]
  | .documentType | .processingInstruction | .comment | .text | .cdata | .notationNode => []

/-- `c` is listed among the children of the live node `p`. -/
def Child (h : Heap) (p c : NodeId) : Prop := h.live p = true ∧ c ∈ childNodes h p

/-- `d` is a proper descendant of `a`. -/
def Descendant (h : Heap) (a d : NodeId) : Prop := Relation.TransGen (Child h) a d

/-- No node is its own descendant. -/
def Acyclic (h : Heap) : Prop := ∀ n, ¬ Descendant h n n

/-! ## Restricted histories -/

/-- Every call of the history satisfies `G` in the state in which it is made. -/
def Obeys (G : Heap → Op → Prop) : List (Env × Op) → Heap → Prop
  | [], _ => True
  | (e, op) :: rest, h => G h op ∧ Obeys G rest (exec e op h)

/-- The states that histories of calls satisfying `G` reach. -/
def ReachableBy (G : Heap → Op → Prop) (h : Heap) : Prop :=
  ∃ ops : List (Env × Op), (∀ x ∈ ops, x.1.Ok) ∧ Obeys G ops Heap.empty ∧
    h = run ops Heap.empty

/-- The call keeps away from what is known to break the links between parents and
children:
* `set_value` and `unset_value` are called on attributes only;
* `remove_attribute_node` is called with an attribute;
* the children of an attribute are not removed one by one, and a child of an attribute is
  only inserted elsewhere if it knows its parent;
* a deep clone is made of nodes without children only. -/
def TidyCall (h : Heap) : Op → Prop
  | .setValue a _ | .unsetValue a => nodeType h a = .attribute
  | .removeAttributeNode _ a => nodeType h a = .attribute
  | .removeChild s _ | .normalize s => nodeType h s ≠ .attribute
  | .insertBefore _ n _ | .appendChild _ n =>
    ∀ a, h.live a = true → nodeType h a = .attribute → n ∈ childNodes h a → parentNode h n = some a
  | .replaceChild s n _ => nodeType h s ≠ .attribute ∧
    ∀ a, h.live a = true → nodeType h a = .attribute → n ∈ childNodes h a → parentNode h n = some a
  | .cloneNode n true _ => childNodes h n = []
  | _ => True

/-- Values are set and unset on attributes only. -/
def ValuesOfAttributes (h : Heap) : Op → Prop
  | .setValue a _ | .unsetValue a => nodeType h a = .attribute
  | _ => True

/-- The call does not insert a node into one of its own descendants. -/
def NoAncestorInserted (h : Heap) : Op → Prop
  | .insertBefore s n _ | .appendChild s n | .replaceChild s n _ => ¬ Descendant h n s
  | _ => True

/-- The call does not clone a whole document. -/
def NoDocumentClone (h : Heap) : Op → Prop
  | .cloneNode n true _ => nodeType h n ≠ .document
  | _ => True

/-- The call does not clone a document, not even without its children. -/
def NoDocumentCopy (h : Heap) : Op → Prop
  | .cloneNode n _ _ => nodeType h n ≠ .document
  | _ => True

/-- The call does not share attribute nodes: an attribute that another element holds is
not set, and elements that may have attributes are not cloned. -/
def NoSharedAttribute (h : Heap) : Op → Prop
  | .setAttributeNode n a =>
    ∀ e, h.live e = true → (∃ k, (k, a) ∈ attributes h e) → e = n
  | .cloneNode n deep _ => attributes h n = [] ∧ (deep = true → childNodes h n = [])
  | _ => True

/-- The call sets an attribute of the element `e`. -/
def SetsAttributeOf (e : NodeId) : Op → Prop
  | .setAttribute n _ _ | .setAttributeNs n _ _ _ | .setAttributeNode n _ => n = e
  | _ => False

/-- The document a node belongs to: a document belongs to itself. -/
def home (h : Heap) (n : NodeId) : Option NodeId :=
  if nodeType h n = .document then some n else ownerDocument h n

end Spec
end XmlDom
