import Verif.Model.Clone

/-!
# Vocabulary for whole sub-trees

A heap may contain cycles and sharing, a `Forest` does not. The properties about walks say
what a walk does on a list of nodes that unfolds to a forest.
-/

namespace XmlDom
namespace Spec

/-- An ordered forest of node ids: the first node, the forest of its children, the
following nodes with theirs. -/
inductive Forest
  | nil
  | cons (n : NodeId) (kids rest : Forest)

/-- The nodes of the list and everything below them are the forest. -/
inductive Unfolds (h : Heap) : List NodeId → Forest → Prop
  | nil : Unfolds h [] .nil
  | cons {n : NodeId} {l : List NodeId} {kids rest : Forest}
      (hk : Unfolds h (childNodes h n) kids) (hr : Unfolds h l rest) :
      Unfolds h (n :: l) (.cons n kids rest)

namespace Forest

/-- All nodes in document order. -/
def preorder : Forest → List NodeId
  | .nil => []
  | .cons n kids rest => n :: (preorder kids ++ preorder rest)

/-- The elements in document order, where only elements are entered. -/
def elements (h : Heap) : Forest → List NodeId
  | .nil => []
  | .cons n kids rest =>
    if nodeType h n = .element then n :: (elements h kids ++ elements h rest)
    else elements h rest

/-- The number of levels. -/
def height : Forest → Nat
  | .nil => 0
  | .cons _ kids rest => max (height kids + 1) (height rest)

end Forest

/-- The second forest, read in `h'`, is a copy of the first, read in `h`: the same shape and
at corresponding places the same type, name, value, owner document, attributes and
document type; no copy has a parent. -/
inductive Copies (h h' : Heap) : Forest → Forest → Prop
  | nil : Copies h h' .nil .nil
  | cons {n m : NodeId} {kids kids' rest rest' : Forest}
      (ntype : nodeType h' m = nodeType h n) (name : nodeName h' m = nodeName h n)
      (value : nodeValue h' m = nodeValue h n)
      (owner : ownerDocument h' m = ownerDocument h n)
      (attrs : attributes h' m = attributes h n)
      (dtd : docType h' m = docType h n)
      (parent : parentNode h' m = none)
      (hk : Copies h h' kids kids') (hr : Copies h h' rest rest') :
      Copies h h' (.cons n kids rest) (.cons m kids' rest')

/-- A tag name pattern matches a qualified name. -/
def TagMatches (h : Heap) (tag : Str) (n : NodeId) : Prop :=
  tag = c! "*" ∨ (nodeName h n).display = tag

/-- A pair of patterns matches a namespace and local name. -/
def TagMatchesNs (h : Heap) (uri loc : Str) (n : NodeId) : Prop :=
  (uri = c! "*" ∨ (nodeName h n).namespaceUri = some uri) ∧
    (loc = c! "*" ∨ (nodeName h n).localName = loc)

/-- What the code takes for a match: an element in the namespace `*` matches every namespace. -/
def StarMatchesNs (h : Heap) (uri loc : Str) (n : NodeId) : Prop :=
  (uri = c! "*" ∨ (nodeName h n).namespaceUri = some uri ∨
      (nodeName h n).namespaceUri = some (c! "*")) ∧
    (loc = c! "*" ∨ (nodeName h n).localName = loc)

instance (h : Heap) (tag : Str) (n : NodeId) : Decidable (TagMatches h tag n) := by
  unfold TagMatches; infer_instance

instance (h : Heap) (uri loc : Str) (n : NodeId) : Decidable (TagMatchesNs h uri loc n) := by
  unfold TagMatchesNs; infer_instance

instance (h : Heap) (uri loc : Str) (n : NodeId) : Decidable (StarMatchesNs h uri loc n) := by
  unfold StarMatchesNs; infer_instance

end Spec
end XmlDom
