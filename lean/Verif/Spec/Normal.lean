import Verif.Model.Node

/-!
# Vocabulary for `normalize`
-/

namespace XmlDom
namespace Spec

/-- The text of a node, the empty string when there is none. -/
def textOf (h : Heap) (c : NodeId) : Str := (nodeValue h c).getD []

/-- In this list of nodes no text is empty and no two texts are neighbours. -/
structure NormalList (h : Heap) (l : List NodeId) : Prop where
  full : ∀ c ∈ l, nodeType h c = .text → textOf h c ≠ []
  apart : ∀ a x y b, l = a ++ x :: y :: b → ¬ (nodeType h x = .text ∧ nodeType h y = .text)

/-- The children of `n` are normal. -/
def NormalAt (h : Heap) (n : NodeId) : Prop := NormalList h (childNodes h n)

/-- What a list of nodes says: the characters of the texts and the other nodes, in order.
Where one text ends and the next begins is not recorded. -/
def content (h : Heap) (l : List NodeId) : List (NodeId ⊕ Char) :=
  l.flatMap fun c => if nodeType h c = .text then (textOf h c).map .inr else [.inl c]

/-- `n` has no child twice and is the parent of each of its children. -/
structure ConsistentAt (h : Heap) (n : NodeId) : Prop where
  nodup : (childNodes h n).Nodup
  parent : ∀ c ∈ childNodes h n, parentNode h c = some n

/-- Only text below `n` was touched on the way from `h` to `h'`: text children can have
new text or be gone, and nothing else differs. -/
structure OnlyText (h h' : Heap) (n : NodeId) : Prop where
  live : h'.live = h.live
  next : h'.next = h.next
  fields : h'.get n = { h.get n with children := (h'.get n).children }
  sub : (childNodes h' n).Sublist (childNodes h n)
  gone : ∀ c ∈ childNodes h n, c ∉ childNodes h' n →
    nodeType h c = .text ∧ h'.get c = { h.get c with parent := none }
  kept : ∀ c ∈ childNodes h' n,
    h'.get c = { h.get c with value := (h'.get c).value } ∧
    (nodeType h c ≠ .text → h'.get c = h.get c)
  others : ∀ c, c ≠ n → c ∉ childNodes h n → h'.get c = h.get c

end Spec
end XmlDom
