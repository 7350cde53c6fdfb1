import Verif.Model.Parser
import Verif.Spec.Attr
import Verif.Spec.Reader

/-!
# What the events of a document mean

`Events` is the event stream of a tree, `Held` says that the nodes of a heap are that tree.
Nothing here uses a function of the reader.
-/

namespace XmlDom
namespace Spec

/-- XML 1.0 [16]: the text of a processing instruction is its target, or the target, white
space and the data. -/
inductive PiText : Str → Str → Option Str → Prop
  | bare {t : Str} (ht : ∀ c ∈ t, ¬ Space c) : PiText t t none
  | blank {t w : Str} {c : Char} (ht : ∀ c ∈ t, ¬ Space c) (hc : Space c)
      (hw : ∀ c ∈ w, Space c) : PiText (t ++ c :: w) t none
  | data {t w d : Str} {c x : Char} (ht : ∀ c ∈ t, ¬ Space c) (hc : Space c)
      (hw : ∀ c ∈ w, Space c) (hx : ¬ Space x) :
      PiText (t ++ c :: (w ++ x :: d)) t (some (x :: d))

/-- The target is followed by a space, not by other white space, and the data neither
starts nor ends with white space in the sense of Unicode. -/
def PiTame (u : Uni) (text target : Str) (data : Option Str) : Prop :=
  PiText text target data ∧ (∀ c r, text = target ++ c :: r → c = ' ') ∧
    ∀ d, data = some d → ∀ c, d.head? = some c ∨ d.getLast? = some c → u.white c = false

/-- The events of content: start and end tags or an empty tag for an element, one event for
everything else. `pi` says which text a processing instruction may have. -/
inductive Events (pi : Str → Str → Option Str → Prop) : Xml → List Event → Prop
  | nil : Events pi .nil []
  | text {s : Str} {rest : Xml} {evs : List Event} (hr : Events pi rest evs) :
      Events pi (.leaf (.text s) rest) (.text (some s) :: evs)
  | cdata {s : Str} {rest : Xml} {evs : List Event} (hr : Events pi rest evs) :
      Events pi (.leaf (.cdata s) rest) (.cdata (some s) :: evs)
  | comment {s : Str} {rest : Xml} {evs : List Event} (hr : Events pi rest evs) :
      Events pi (.leaf (.comment s) rest) (.comment (some s) :: evs)
  | pi {s t : Str} {d : Option Str} {rest : Xml} {evs : List Event} (hp : pi s t d)
      (hr : Events pi rest evs) : Events pi (.leaf (.pi t d) rest) (.pi (some s) :: evs)
  | element {n : Str} {as : List (Str × Str)} {kids rest : Xml} {ks evs : List Event}
      (hk : Events pi kids ks) (hr : Events pi rest evs) :
      Events pi (.element n as kids rest)
        (.start (some n) (as.map fun a => .good a.1 a.2) :: (ks ++ .close :: evs))
  | empty {n : Str} {as : List (Str × Str)} {rest : Xml} {evs : List Event}
      (hr : Events pi rest evs) :
      Events pi (.element n as .nil rest)
        (.empty (some n) (as.map fun a => .good a.1 a.2) :: evs)

/-- The version as it is written. -/
def versionText : XmlVersion → Str
  | .v10 => c! "1.0"
  | .v11 => c! "1.1"

/-- The event of the XML declaration, if there is one. -/
inductive DeclEvents : Option XmlDecl → List Event → Prop
  | none : DeclEvents none []
  | some {d : XmlDecl} (he : ∀ x, d.encoding = .some x → IsEncName x) :
      DeclEvents (.some d) [.decl (.some (versionText d.version)) (d.encoding.map .some)
        (d.standalone.map fun b => .some (if b then c! "yes" else c! "no"))]

namespace Xml

/-- At the top there are only comments, processing instructions and elements. -/
def Outer : Xml → Prop
  | .nil => True
  | .leaf l rest => ((∃ s, l = .comment s) ∨ ∃ t d, l = .pi t d) ∧ Outer rest
  | .element _ _ _ rest => Outer rest
  | _ => False

/-- The number of elements at the top. -/
def roots : Xml → Nat
  | .element _ _ _ rest => roots rest + 1
  | .leaf _ rest => roots rest
  | _ => 0

/-- The element and attribute names satisfy `p`, the processing instruction targets `t`. -/
def Named (p t : Str → Prop) : Xml → Prop
  | .nil => True
  | .leaf l rest => (∀ x d, l = .pi x d → t x) ∧ Named p t rest
  | .element n as kids rest => p n ∧ (∀ a ∈ as, p a.1) ∧ Named p t kids ∧ Named p t rest
  | _ => False

/-- The values of the `xml:id` attributes, in document order. -/
def ids : Xml → List Str
  | .nil => []
  | .leaf _ rest => ids rest
  | .element _ as kids rest =>
    (as.filter fun a => decide (a.1 = c! "xml:id")).map (·.2) ++ (ids kids ++ ids rest)
  | _ => []

end Xml

/-- XML 1.0 [17]: not the reserved target. -/
def Unreserved (t : Str) : Prop :=
  ∀ a b c, t = [a, b, c] → (a = 'x' ∨ a = 'X') → (b = 'm' ∨ b = 'M') → (c = 'l' ∨ c = 'L') → False

/-- A document: comments, processing instructions and one element, with qualified names and
no attribute twice on an element. -/
structure WellFormed (x : Xml) : Prop where
  outer : x.Outer
  root : x.roots = 1
  names : x.Named IsQName fun t => IsNcName t ∧ Unreserved t
  attrs : x.AttrLists fun as => (as.map (·.1)).Nodup

/-- The name has no part that starts outside ASCII. -/
def AsciiParts (s : Str) : Prop := (AsciiStart s ∧ ':' ∉ s) ∨
  ∃ p l, s = p ++ ':' :: l ∧ AsciiStart p ∧ AsciiStart l

/-- The events of a whole document: the declaration, the content and the end. -/
def DocumentEvents (pi : Str → Str → Option Str → Prop) (decl : Option XmlDecl) (x : Xml)
    (evs : List Event) : Prop :=
  ∃ ds es tail, DeclEvents decl ds ∧ Events pi x es ∧ (tail = [] ∨ ∃ t, tail = .eof :: t) ∧
    evs = ds ++ (es ++ tail)

/-- `b` is an attribute of `n` with this qualified name, whose only child is a text with
this value. -/
structure AttrHeld (h : Heap) (d n b : NodeId) (name value : Str) : Prop where
  ntype : nodeType h b = .attribute
  name : (nodeName h b).display = name
  element : ownerElement h b = some n
  document : ownerDocument h b = some d
  value : ∃ t, childNodes h b = [t] ∧ nodeType h t = .text ∧ nodeValue h t = some value

/-- The children `ns` of `p`, all of the document `d`, and what is below them are this
tree. Attributes are compared as sets. -/
inductive Held (e : Env) (h : Heap) (d : NodeId) : NodeId → List NodeId → Xml → Prop
  | nil {p : NodeId} : Held e h d p [] .nil
  | leaf {p n : NodeId} {ns : List NodeId} {l : Leaf} {rest : Xml} (hl : LeafOf e h n l)
      (hp : parentNode h n = some p) (ho : ownerDocument h n = some d)
      (hc : childNodes h n = []) (hr : Held e h d p ns rest) :
      Held e h d p (n :: ns) (.leaf l rest)
  | element {p n : NodeId} {ns : List NodeId} {name : Str} {as : List (Str × Str)}
      {kids rest : Xml} (ht : nodeType h n = .element) (hn : (nodeName h n).display = name)
      (hp : parentNode h n = some p) (ho : ownerDocument h n = some d)
      (hl : (attributes h n).length = as.length)
      (ha : ∀ a ∈ as, ∃ k b, (k, b) ∈ attributes h n ∧ k.display = a.1 ∧
        AttrHeld h d n b a.1 a.2)
      (hk : Held e h d n (childNodes h n) kids) (hr : Held e h d p ns rest) :
      Held e h d p (n :: ns) (.element name as kids rest)

/-- The node is a document with this declaration and content. -/
structure IsDocument (e : Env) (h : Heap) (d : NodeId) (decl : Option XmlDecl) (x : Xml) :
    Prop where
  ntype : nodeType h d = .document
  parent : parentNode h d = none
  decl : xmlDeclaration h d = decl
  docType : docType h d = none
  content : Held e h d d (childNodes h d) x

/-! ## Streams that are not documents -/

/-- The stream has an error or an unexpected event at the given depth of open elements, or
ends inside an element. -/
def Faulty : Nat → List Event → Prop
  | depth, [] => 0 < depth
  | depth, .eof :: _ => 0 < depth
  | _, .readError :: _ => True
  | _, .other :: _ => True
  | depth, .start n as :: rest => n = none ∨ .undecodable ∈ as ∨ Faulty (depth + 1) rest
  | depth, .empty n as :: rest => n = none ∨ .undecodable ∈ as ∨ Faulty depth rest
  | depth, .close :: rest => depth = 0 ∨ Faulty (depth - 1) rest
  | depth, .text t :: rest => t = none ∨ depth = 0 ∨ Faulty depth rest
  | depth, .cdata t :: rest => t = none ∨ depth = 0 ∨ Faulty depth rest
  | depth, .comment t :: rest => t = none ∨ Faulty depth rest
  | depth, .pi t :: rest => t = none ∨ Faulty depth rest
  | depth, .decl _ _ _ :: rest => 0 < depth ∨ Faulty depth rest

/-- An event that cannot follow the declaration `decl` and `roots` elements at the top of a
document. -/
inductive Misplaced (decl : Option XmlDecl) (roots : Nat) : Event → Prop
  | readError : Misplaced decl roots .readError
  | other : Misplaced decl roots .other
  | text (t : Option Str) : Misplaced decl roots (.text t)
  | cdata (t : Option Str) : Misplaced decl roots (.cdata t)
  | comment : Misplaced decl roots (.comment none)
  | pi : Misplaced decl roots (.pi none)
  | start (as : List AttrEvent) : Misplaced decl roots (.start none as)
  | empty (as : List AttrEvent) : Misplaced decl roots (.empty none as)
  | second (n : Str) (as : List AttrEvent) (hr : roots = 1) (hq : IsQName n) (ha : AsciiParts n) :
      Misplaced decl roots (.start (some n) as)
  | secondEmpty (n : Str) (as : List AttrEvent) (hr : roots = 1) (hq : IsQName n)
      (ha : AsciiParts n) : Misplaced decl roots (.empty (some n) as)
  | decl (v : Option Str) (en sa : Option (Option Str)) (hd : decl.isSome = true) :
      Misplaced decl roots (.decl v en sa)

/-- An event that cannot occur inside an element. -/
inductive Stray : Event → Prop
  | readError : Stray .readError
  | other : Stray .other
  | decl (v : Option Str) (en sa : Option (Option Str)) : Stray (.decl v en sa)
  | text : Stray (.text none)
  | cdata : Stray (.cdata none)
  | comment : Stray (.comment none)
  | pi : Stray (.pi none)
  | start (as : List AttrEvent) : Stray (.start none as)
  | empty (as : List AttrEvent) : Stray (.empty none as)

/-- No part of the name starts outside ASCII with a character that can start a name. -/
def NarrowParts (s : Str) : Prop :=
  ¬ WideStart s ∧ ∀ p l, s = p ++ ':' :: l → ¬ WideStart p ∧ ¬ WideStart l

/-- An attribute that the reader can take or refuse: the iterator has no error, the name has
no wide start, and an id normalizes. -/
inductive CalmAttr : AttrEvent → Prop
  | undecodable : CalmAttr .undecodable
  | good {k v : Str} (hk : NarrowParts k)
      (hv : k = c! "xml:id" → ∃ r, Normalizes v r) : CalmAttr (.good k v)

/-- An event that the reader can take or refuse. -/
inductive Calm (u : Uni) : Event → Prop
  | decl {v : XmlVersion} {en sa : Option (Option Str)}
      (he : ∀ x, en = some x → ∃ y, x = some y ∧ IsEncName y) (hs : sa ≠ some none) :
      Calm u (.decl (some (versionText v)) en sa)
  | start {n : Str} {as : List AttrEvent} (hq : IsQName n) (ha : AsciiParts n)
      (has : ∀ a ∈ as, CalmAttr a) : Calm u (.start (some n) as)
  | noStart {as : List AttrEvent} : Calm u (.start none as)
  | empty {n : Str} {as : List AttrEvent} (hq : IsQName n) (ha : AsciiParts n)
      (has : ∀ a ∈ as, CalmAttr a) : Calm u (.empty (some n) as)
  | noEmpty {as : List AttrEvent} : Calm u (.empty none as)
  | close : Calm u .close
  | text {t : Option Str} : Calm u (.text t)
  | cdata {t : Option Str} : Calm u (.cdata t)
  | comment {t : Option Str} : Calm u (.comment t)
  | pi {s t : Str} {d : Option Str} (hp : PiTame u s t d) (hq : IsQName t) (ha : AsciiParts t)
      (hu : Unreserved t) : Calm u (.pi (some s))
  | noPi : Calm u (.pi none)
  | other : Calm u .other
  | eof : Calm u .eof
  | readError : Calm u .readError

end Spec
end XmlDom
