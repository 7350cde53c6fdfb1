import Verif.Spec.History

/-!
# Vocabulary for the outcomes of the tree editing calls
-/

namespace XmlDom
namespace Spec

/-- The type of `new` is one that `insert_before` takes below `self`: a child type of DOM Level
2, except that a document does not take a document type. -/
def Fits (h : Heap) (self new : NodeId) : Prop :=
  nodeType h new ∈ childTypes (nodeType h self) ∧
    ¬ (nodeType h self = .document ∧ nodeType h new = .documentType)

/-- `new` would be one element too many below the document `self`, whose children are `l`. -/
def OneTooMany (h : Heap) (self new : NodeId) (l : List NodeId) : Prop :=
  nodeType h self = .document ∧ nodeType h new = .element ∧ ∃ c ∈ l, nodeType h c = .element

/-- `ref` is given and is not among the nodes `l`. -/
def Missing (ref : Option NodeId) (l : List NodeId) : Prop := ∃ r, ref = some r ∧ r ∉ l

/-- The parent link of `new` leads to a node that does not have it as a child. -/
def Stale (h : Heap) (new : NodeId) : Prop := ∃ p, parentNode h new = some p ∧ new ∉ childNodes h p

/-- The outcome of inserting `new` below `self` in front of `ref`, all cases. -/
inductive InsertSays (h : Heap) (self new : NodeId) (ref : Option NodeId) : Outcome NodeId → Prop
  | hierarchy (hf : ¬ Fits h self new ∨ OneTooMany h self new (childNodes h self)) :
      InsertSays h self new ref (.err .hierarchyRequest)
  | missing (hf : Fits h self new) (ho : ¬ OneTooMany h self new (childNodes h self))
      (hm : Missing ref (childNodes h self)) : InsertSays h self new ref (.err .notFound)
  | gone (hf : Fits h self new) (ho : ¬ OneTooMany h self new (childNodes h self))
      (hm : ¬ Missing ref (childNodes h self))
      (hd : home h self = none ∨ ownerDocument h new = none) :
      InsertSays h self new ref (.panic .unwrap)
  | foreign {d d' : NodeId} (hf : Fits h self new)
      (ho : ¬ OneTooMany h self new (childNodes h self)) (hm : ¬ Missing ref (childNodes h self))
      (hs : home h self = some d) (hn : ownerDocument h new = some d') (hd : d ≠ d') :
      InsertSays h self new ref (.err .wrongDocument)
  | stale {d : NodeId} (hf : Fits h self new) (ho : ¬ OneTooMany h self new (childNodes h self))
      (hm : ¬ Missing ref (childNodes h self)) (hs : home h self = some d)
      (hn : ownerDocument h new = some d) (ht : Stale h new) :
      InsertSays h self new ref (.err .notFound)
  | itself {d : NodeId} (hf : Fits h self new) (ho : ¬ OneTooMany h self new (childNodes h self))
      (hm : ¬ Missing ref (childNodes h self)) (hs : home h self = some d)
      (hn : ownerDocument h new = some d) (ht : ¬ Stale h new) (he : self = new) :
      InsertSays h self new ref (.panic .borrow)
  | done {d : NodeId} (hf : Fits h self new) (ho : ¬ OneTooMany h self new (childNodes h self))
      (hm : ¬ Missing ref (childNodes h self)) (hs : home h self = some d)
      (hn : ownerDocument h new = some d) (ht : ¬ Stale h new) (he : self ≠ new) :
      InsertSays h self new ref (.ok new)

/-- The children of `p` when `old` is no longer below `self`. -/
def without (h : Heap) (self old p : NodeId) : List NodeId :=
  if p = self then (childNodes h p).erase old else childNodes h p

/-- The parent link of `new`, which is not the node just removed, leads to a node that does not
have it as a child any more. -/
def StaleWithout (h : Heap) (self old new : NodeId) : Prop :=
  new ≠ old ∧ ∃ p, parentNode h new = some p ∧ new ∉ without h self old p

/-- The outcome of replacing `old` by `new` below `self`, all cases. -/
inductive ReplaceSays (h : Heap) (self new old : NodeId) : Outcome NodeId → Prop
  | type (hf : ¬ Fits h self new) : ReplaceSays h self new old (.err .hierarchyRequest)
  | missing (hf : Fits h self new) (hm : old ∉ childNodes h self) :
      ReplaceSays h self new old (.err .notFound)
  | second (hf : Fits h self new) (hm : old ∈ childNodes h self)
      (ho : OneTooMany h self new (without h self old self)) :
      ReplaceSays h self new old (.err .hierarchyRequest)
  | lost (hf : Fits h self new) (hm : old ∈ childNodes h self)
      (ho : ¬ OneTooMany h self new (without h self old self))
      (hl : Missing (nextSibling h old) (without h self old self)) :
      ReplaceSays h self new old (.err .notFound)
  | gone (hf : Fits h self new) (hm : old ∈ childNodes h self)
      (ho : ¬ OneTooMany h self new (without h self old self))
      (hl : ¬ Missing (nextSibling h old) (without h self old self))
      (hd : home h self = none ∨ ownerDocument h new = none) :
      ReplaceSays h self new old (.panic .unwrap)
  | foreign {d d' : NodeId} (hf : Fits h self new) (hm : old ∈ childNodes h self)
      (ho : ¬ OneTooMany h self new (without h self old self))
      (hl : ¬ Missing (nextSibling h old) (without h self old self))
      (hs : home h self = some d) (hn : ownerDocument h new = some d') (hd : d ≠ d') :
      ReplaceSays h self new old (.err .wrongDocument)
  | stale {d : NodeId} (hf : Fits h self new) (hm : old ∈ childNodes h self)
      (ho : ¬ OneTooMany h self new (without h self old self))
      (hl : ¬ Missing (nextSibling h old) (without h self old self))
      (hs : home h self = some d) (hn : ownerDocument h new = some d)
      (ht : StaleWithout h self old new) : ReplaceSays h self new old (.err .notFound)
  | itself {d : NodeId} (hf : Fits h self new) (hm : old ∈ childNodes h self)
      (ho : ¬ OneTooMany h self new (without h self old self))
      (hl : ¬ Missing (nextSibling h old) (without h self old self))
      (hs : home h self = some d) (hn : ownerDocument h new = some d)
      (ht : ¬ StaleWithout h self old new) (he : self = new) :
      ReplaceSays h self new old (.panic .borrow)
  | done {d : NodeId} (hf : Fits h self new) (hm : old ∈ childNodes h self)
      (ho : ¬ OneTooMany h self new (without h self old self))
      (hl : ¬ Missing (nextSibling h old) (without h self old self))
      (hs : home h self = some d) (hn : ownerDocument h new = some d)
      (ht : ¬ StaleWithout h self old new) (he : self ≠ new) :
      ReplaceSays h self new old (.ok old)

end Spec
end XmlDom
