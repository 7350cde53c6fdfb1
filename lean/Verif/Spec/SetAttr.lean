import Verif.Spec.Attr
import Verif.Spec.Shown
import Verif.Spec.Outcome

/-!
# The outcome of setting an attribute node
-/

namespace XmlDom
namespace Spec

/-- How a call ends: with this value, with this error, or by a panic. -/
inductive Ending (α : Type)
  | accept (x : α)
  | refuse (e : DomError)
  | crash

/-- The outcome is of this kind. -/
def EndsAs {α : Type} (o : Outcome α) : Ending α → Prop
  | .accept x => o = .ok x
  | .refuse e => o = .err e
  | .crash => o.Panics

/-- The value of the attribute `a` can be read and is `w`. -/
def Valued (u : Uni) (h : Heap) (a : NodeId) (w : Str) : Prop :=
  childNodes h a ≠ [] ∧ ∃ s, RawText h (childNodes h a) s ∧ ValueSays u s (some w)

/-- The name of a namespace declaration. -/
def DeclaresNs (k : Name) : Prop :=
  k.namespaceUri = some (c! "http://www.w3.org/2000/xmlns/") ∧
    ((k.pfx = none ∧ k.localName = c! "xmlns") ∨ k.pfx = some (c! "xmlns"))

/-- The attribute `a` is taken for an id by the document `d`. -/
def TakenForId (h : Heap) (d a : NodeId) : Prop :=
  nodeType h d = .document ∧ IsIdName (AssumesIds h d) (nodeName h a)

/-- How setting the attribute `a` on `n` ends, all cases. -/
inductive SetNodeSays (u : Uni) (h : Heap) (n a : NodeId) : Ending NodeId → Prop
  | types (ht : ¬ (nodeType h n = .element ∧ nodeType h a = .attribute)) :
      SetNodeSays u h n a (.refuse .invalidState)
  | gone (ht : nodeType h n = .element ∧ nodeType h a = .attribute)
      (hd : ownerDocument h n = none ∨ ownerDocument h a = none) : SetNodeSays u h n a .crash
  | foreign {d d' : NodeId} (ht : nodeType h n = .element ∧ nodeType h a = .attribute)
      (hn : ownerDocument h n = some d) (ha : ownerDocument h a = some d') (hd : d ≠ d') :
      SetNodeSays u h n a (.refuse .wrongDocument)
  | noUri {d : NodeId} (ht : nodeType h n = .element ∧ nodeType h a = .attribute)
      (hn : ownerDocument h n = some d) (ha : ownerDocument h a = some d)
      (hk : DeclaresNs (nodeName h a)) (hv : ∀ w, ¬ Valued u h a w) : SetNodeSays u h n a .crash
  | itself (ht : nodeType h n = .element ∧ nodeType h a = .attribute)
      (hn : ownerDocument h n = some n) (ha : ownerDocument h a = some n) :
      SetNodeSays u h n a .crash
  | noId {d : NodeId} (ht : nodeType h n = .element ∧ nodeType h a = .attribute)
      (hn : ownerDocument h n = some d) (ha : ownerDocument h a = some d)
      (hi : TakenForId h d a) (hv : ∀ w, ¬ Valued u h a w) : SetNodeSays u h n a .crash
  | taken {d : NodeId} {w : Str} (ht : nodeType h n = .element ∧ nodeType h a = .attribute)
      (hn : ownerDocument h n = some d) (ha : ownerDocument h a = some d)
      (hi : TakenForId h d a) (hv : Valued u h a w) (hr : Registered h d w) :
      SetNodeSays u h n a (.refuse .syntax)
  | newId {d : NodeId} {w : Str} (ht : nodeType h n = .element ∧ nodeType h a = .attribute)
      (hn : ownerDocument h n = some d) (ha : ownerDocument h a = some d)
      (hi : TakenForId h d a) (hv : Valued u h a w) (hr : ¬ Registered h d w) :
      SetNodeSays u h n a (.accept a)
  | plain {d : NodeId} (ht : nodeType h n = .element ∧ nodeType h a = .attribute)
      (hn : ownerDocument h n = some d) (ha : ownerDocument h a = some d) (hd : d ≠ n)
      (hk : DeclaresNs (nodeName h a) → ∃ w, Valued u h a w) (hi : ¬ TakenForId h d a) :
      SetNodeSays u h n a (.accept a)

/-- An attribute of this name is taken for an id by the document `d`. -/
def NameTakenForId (h : Heap) (d : NodeId) (k : Name) : Prop :=
  nodeType h d = .document ∧ IsIdName (AssumesIds h d) k

/-- How setting an attribute of the element `n` by name ends, all cases: `name` is what checking
the name gave. -/
inductive SetNamedSays (u : Uni) (h : Heap) (n : NodeId) (v : Str) (name : Outcome Name) :
    Ending Unit → Prop
  | name {x : DomError} (hk : name = .err x) : SetNamedSays u h n v name (.refuse x)
  | slice (hk : name.Panics) : SetNamedSays u h n v name .crash
  | gone {k : Name} (hk : name = .ok k) (hd : ownerDocument h n = none) :
      SetNamedSays u h n v name .crash
  | itself {k : Name} (hk : name = .ok k) (hd : ownerDocument h n = some n) :
      SetNamedSays u h n v name .crash
  | noValue {k : Name} {d : NodeId} (hk : name = .ok k) (hd : ownerDocument h n = some d)
      (hi : DeclaresNs k ∨ NameTakenForId h d k) (hv : ValueSays u v none) :
      SetNamedSays u h n v name .crash
  | taken {k : Name} {d : NodeId} {w : Str} (hk : name = .ok k) (hd : ownerDocument h n = some d)
      (hi : NameTakenForId h d k) (hv : ValueSays u v (some w)) (hr : Registered h d w) :
      SetNamedSays u h n v name (.refuse .syntax)
  | newId {k : Name} {d : NodeId} {w : Str} (hk : name = .ok k) (hd : ownerDocument h n = some d)
      (hi : NameTakenForId h d k) (hv : ValueSays u v (some w)) (hr : ¬ Registered h d w) :
      SetNamedSays u h n v name (.accept ())
  | plain {k : Name} {d : NodeId} (hk : name = .ok k) (hd : ownerDocument h n = some d)
      (hn : d ≠ n) (hv : DeclaresNs k → ∃ w, ValueSays u v (some w))
      (hi : ¬ NameTakenForId h d k) : SetNamedSays u h n v name (.accept ())

end Spec
end XmlDom
