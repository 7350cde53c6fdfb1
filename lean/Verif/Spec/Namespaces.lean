import Mathlib.Logic.Relation
import Verif.Model.Element

/-!
# Vocabulary for namespaces
-/

namespace XmlDom
namespace Spec

/-- The element `m` itself maps the prefix (`none` is the default) to `uri`. -/
def Declares (h : Heap) (m : NodeId) (pfx : Option Str) (uri : Str) : Prop :=
  nodeType h m = .element ∧
    ∃ attrs nss, (h.get m).ext = .element attrs nss ∧ (pfx, uri) ∈ nss

/-- `Ancestry h n l`: `l` lists `n`, its parent, the parent of that, and so on to a node
without parent. -/
inductive Ancestry (h : Heap) : NodeId → List NodeId → Prop
  | root {n : NodeId} (hp : parentNode h n = none) : Ancestry h n [n]
  | up {n p : NodeId} {l : List NodeId} (hp : parentNode h n = some p) (ht : Ancestry h p l) :
      Ancestry h n (n :: l)

/-- `r` is what the first entry of `l` that maps the prefix maps it to. -/
def IsNearest (h : Heap) (l : List NodeId) (pfx : Option Str) : Option Str → Prop
  | some uri => ∃ a m b, l = a ++ m :: b ∧ Declares h m pfx uri ∧
      ∀ x ∈ a, ∀ v, ¬ Declares h x pfx v
  | none => ∀ x ∈ l, ∀ v, ¬ Declares h x pfx v

/-- The owner document of the node has the add-namespaces option. -/
def NamespacesOn (h : Heap) (n : NodeId) : Prop :=
  ∃ d x, ownerDocument h n = some d ∧ (h.get d).ext = .document x ∧
    x.options.hasAddNamespaces = true

/-- The links are such that no ancestor was dropped: a node that has a parent link has a
parent. -/
def ParentKept (h : Heap) (m : NodeId) : Prop :=
  (h.get m).parent ≠ none → parentNode h m ≠ none

/-- The parent links have no cycle. -/
def ParentsAcyclic (h : Heap) : Prop :=
  ∀ n, ¬ Relation.TransGen (fun a b => parentNode h a = some b) n n

/-- What the answer of a prefix lookup stands for. -/
def prefixMeaning : NamespacePrefix → Option (Option Str)
  | .none => none
  | .default => some none
  | .some k => some (some k)

/-- A uri that an attribute stores as it is: no markup, no white space, no percent sign. -/
def PlainUri (v : Str) : Prop :=
  ∀ c ∈ v, c ∉ c! "&'><\"% \t\n\r\u0085\u2028"

end Spec
end XmlDom
