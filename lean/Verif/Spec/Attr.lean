import Verif.Model.Element
import Verif.Spec.Text

/-!
# Vocabulary for attributes
-/

namespace XmlDom
namespace Spec

/-- `a` is an attribute of `n` whose qualified name reads `s`. -/
def HasNamed (h : Heap) (n : NodeId) (s : Str) (a : NodeId) : Prop :=
  ∃ k, (k, a) ∈ attributes h n ∧ k.display = s

/-- `a` is an attribute of `n` with this namespace and local name. -/
def HasNamedNs (h : Heap) (n : NodeId) (uri loc : Str) (a : NodeId) : Prop :=
  ∃ k, (k, a) ∈ attributes h n ∧ k.namespaceUri = some uri ∧ k.localName = loc

/-- At most one attribute of `n` has this qualified name. -/
def OneNamed (h : Heap) (n : NodeId) (s : Str) : Prop :=
  ∀ a b, HasNamed h n s a → HasNamed h n s b → a = b

/-- At most one attribute of `n` has this namespace and local name. -/
def OneNamedNs (h : Heap) (n : NodeId) (uri loc : Str) : Prop :=
  ∀ a b, HasNamedNs h n uri loc a → HasNamedNs h n uri loc b → a = b

/-- `w` is `r` without the spaces at its ends. -/
def Trimmed (r w : Str) : Prop :=
  (∃ a b, r = List.replicate a ' ' ++ w ++ List.replicate b ' ') ∧
    w.head? ≠ some ' ' ∧ w.getLast? ≠ some ' '

/-- Section 3.3.3 turns the value `v`, which has no entity references and no percent sign,
into `r` (before the step for types other than CDATA). -/
def Normalizes (v r : Str) : Prop :=
  '%' ∉ v ∧ ∃ m, EolNorm v m ∧ AttrNorm m r

/-- What the children of an attribute say, one after the other: texts and entity references
their value, other nodes nothing. -/
inductive RawText (h : Heap) : List NodeId → Str → Prop
  | nil : RawText h [] []
  | text {c : NodeId} {l : List NodeId} {s t : Str} (hc : nodeType h c = .text)
      (hv : nodeValue h c = some s) (ht : RawText h l t) : RawText h (c :: l) (s ++ t)
  | reference {c : NodeId} {l : List NodeId} {s t : Str} (hc : nodeType h c = .entityReference)
      (hv : nodeValue h c = some s) (ht : RawText h l t) : RawText h (c :: l) (s ++ t)
  | missing {c : NodeId} {l : List NodeId} {t : Str} (hv : nodeValue h c = none)
      (ht : RawText h l t) : RawText h (c :: l) t
  | other {c : NodeId} {l : List NodeId} {t : Str} (h1 : nodeType h c ≠ .text)
      (h2 : nodeType h c ≠ .entityReference) (ht : RawText h l t) : RawText h (c :: l) t

/-- The name of an id attribute: `id` when the document assumes so, `xml:id` always. -/
def IsIdName (assume : Bool) (k : Name) : Prop :=
  k.localName = c! "id" ∧
    (assume = true ∨ k.namespaceUri = some Syn.xmlNsUri ∨ k.pfx = some (c! "xml"))

/-- The document `d` has the id registered, for whatever element. -/
def Registered (h : Heap) (d : NodeId) (id : Str) : Prop :=
  ∃ x el, (h.get d).ext = .document x ∧ (id, el) ∈ x.idMap

/-- The options of the document. -/
def AssumesIds (h : Heap) (d : NodeId) : Bool :=
  match (h.get d).ext with
  | .document x => x.options.hasAssumeIds
  | _ => false

/-- The element `e` has an attribute that the document `d` takes for an id, with this value. -/
def HasId (u : Uni) (h : Heap) (d e : NodeId) (id : Str) : Prop :=
  ∃ k a, (k, a) ∈ attributes h e ∧ IsIdName (AssumesIds h d) k ∧ attrValue u h a = .ok (some id)

end Spec
end XmlDom
