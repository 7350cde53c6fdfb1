import Verif.Model.Node

/-!
# Vocabulary for the tree editing properties

List operations that the properties talk about, and observations of a state.
-/

namespace XmlDom
namespace Spec

/-- `l'` is `l` with `x` taken out and then put directly in front of `ref`. -/
def PlacedBefore {α : Type} [DecidableEq α] (l : List α) (x ref : α) (l' : List α) : Prop :=
  ∃ a b, l.erase x = a ++ ref :: b ∧ ref ∉ a ∧ l' = a ++ x :: ref :: b

/-- `x` stands somewhere in front of `y` in `l`. -/
def Before {α : Type} (l : List α) (x y : α) : Prop := ∃ a b c, l = a ++ x :: (b ++ y :: c)

/-- The observable links of `n` agree: `n` is in the child list of exactly the live node
that `parent_node()` returns. -/
def LinksAgreeAt (h : Heap) (n : NodeId) : Prop :=
  ∀ p, h.live p = true → (n ∈ childNodes h p ↔ parentNode h n = some p)

/-- No live node has a child twice. -/
def ChildrenNodup (h : Heap) : Prop := ∀ p, h.live p = true → (childNodes h p).Nodup

/-- Nothing about the node can be seen to differ, apart from its child list and its parent
link. -/
structure SameButLinks (h h' : Heap) (n : NodeId) : Prop where
  ntype : nodeType h' n = nodeType h n
  name : nodeName h' n = nodeName h n
  value : nodeValue h' n = nodeValue h n
  owner : ownerDocument h' n = ownerDocument h n
  ext : (h'.get n).ext = (h.get n).ext

/-- A call changed nothing but the child lists of the nodes in `lists` and the parent
links of the nodes in `links`. -/
structure OnlyLinks (h h' : Heap) (lists links : NodeId → Prop) : Prop where
  same : ∀ m, SameButLinks h h' m
  children : ∀ m, ¬ lists m → childNodes h' m = childNodes h m
  parent : ∀ m, ¬ links m → parentNode h' m = parentNode h m
  live : ∀ m, h'.live m = h.live m
  next : h'.next = h.next

end Spec
end XmlDom
