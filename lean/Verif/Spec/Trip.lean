import Mathlib.Data.List.Forall2
import Verif.Spec.Parse

/-!
# Trees up to the order of attributes
-/

namespace XmlDom
namespace Spec

/-- The value `w` that an attribute written as `v` has: normalized, and trimmed as for types
other than CDATA. -/
def ValueOf (v w : Str) : Prop := ∃ r, Normalizes v r ∧ Trimmed r w

/-- The same attribute, with the value it has. -/
def SameAttr (a b : Str × Str) : Prop := b.1 = a.1 ∧ ValueOf a.2 b.2

/-- The same content: the attributes of each element are those of the other in some order,
with the values they have, and nothing else differs. -/
inductive Xml.Like : Xml → Xml → Prop
  | nil : Like .nil .nil
  | leaf {l : Leaf} {r r' : Xml} (hr : Like r r') : Like (.leaf l r) (.leaf l r')
  | element {n : Str} {as bs cs : List (Str × Str)} {k k' r r' : Xml} (hp : bs.Perm as)
      (ha : List.Forall₂ SameAttr bs cs) (hk : Like k k') (hr : Like r r') :
      Like (.element n as k r) (.element n cs k' r')

/-- What is written for a declaration, if there is one. -/
def declText : Option XmlDecl → Str
  | none => []
  | some d => printDecl d

end Spec
end XmlDom
