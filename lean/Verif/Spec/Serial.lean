import Verif.Model.Display
import Verif.Spec.Chars

/-!
# The text form of a tree

`Xml` is an XML tree without a heap. `Shows` says that nodes of a heap, read through the
getters of the interface, are such a tree. `Xml.print` is the serialization. None of the
formatting functions of the model is used here.
-/

namespace XmlDom
namespace Spec

/-- The five characters with a meaning in markup are written as decimal references. -/
def escChar (c : Char) : Str :=
  if c = '"' then c! "&#34;"
  else if c = '&' then c! "&#38;"
  else if c = '\'' then c! "&#39;"
  else if c = '<' then c! "&#60;"
  else if c = '>' then c! "&#62;"
  else [c]

/-- Character data as it is written. -/
def esc (s : Str) : Str := s.flatMap escChar

/-- Nodes without content. `blank` is a text, comment or CDATA node without data. -/
inductive Leaf
  | blank
  | text (s : Str)
  | comment (s : Str)
  | cdata (s : Str)
  | pi (target : Str) (data : Option Str)
  | entityRef (name : Str)
  | attribute (name value : Str)
  | entity (name : Str) (value publicId systemId notationName : Option Str)
  | notation (name : Str) (publicId systemId : Option Str)
  deriving DecidableEq

/-- A list of trees: the first one with its content, and the following ones. -/
inductive Xml
  | nil
  | leaf (l : Leaf) (rest : Xml)
  | element (name : Str) (attrs : List (Str × Str)) (kids rest : Xml)
  | docType (name : Str) (publicId systemId subset : Option Str) (decls rest : Xml)
  | document (decl : Option XmlDecl) (dtd kids rest : Xml)
  | fragment (name : Str) (kids rest : Xml)
  deriving DecidableEq

/-- A string in double quotes. -/
def quoted (s : Str) : Str := '"' :: (s ++ ['"'])

/-- A keyword in front of a quoted string, when there is one. -/
def keyed (key : Str) : Option Str → Str
  | none => []
  | some s => ' ' :: (key ++ ' ' :: quoted s)

/-- The external identifier of an entity or notation. -/
def externalId : Option Str → Option Str → Str
  | none, none => []
  | none, some s => keyed (c! "SYSTEM") (some s)
  | some p, none => keyed (c! "PUBLIC") (some p)
  | some p, some s => keyed (c! "PUBLIC") (some p) ++ ' ' :: quoted s

/-- One attribute, as in a tag. -/
def printAttr (a : Str × Str) : Str := a.1 ++ '=' :: quoted (esc a.2)

/-- The attributes of a tag, each after a space. -/
def printAttrs (as : List (Str × Str)) : Str := as.flatMap fun a => ' ' :: printAttr a

/-- Nodes without content, in their fixed forms. -/
def Leaf.print : Leaf → Str
  | .blank => []
  | .text s => esc s
  | .comment s => c! "<!--" ++ esc s ++ c! "-->"
  | .cdata s => c! "<![CDATA[ " ++ s ++ c! " ]]>"
  | .pi t none => c! "<?" ++ t ++ c! "?>"
  | .pi t (some d) => c! "<?" ++ t ++ ' ' :: d ++ c! "?>"
  | .entityRef n => '&' :: n ++ c! ";"
  | .attribute n v => printAttr (n, v)
  | .entity n v p s nn =>
    c! "<!ENTITY " ++ n ++
      (if p = none ∧ s = none then ' ' :: quoted (v.getD []) else externalId p s) ++
      (match nn with
        | none => []
        | some x => ' ' :: x) ++ c! ">"
  | .notation n p s => c! "<!NOTATION " ++ n ++ externalId p s ++ c! ">"

/-- The XML declaration. -/
def printDecl (d : XmlDecl) : Str :=
  c! "<?xml version=" ++ quoted (match d.version with
    | .v10 => c! "1.0"
    | .v11 => c! "1.1") ++
  (match d.encoding with
    | none => []
    | some x => c! " encoding=" ++ quoted x) ++
  (match d.standalone with
    | none => []
    | some true => c! " standalone=\"yes\""
    | some false => c! " standalone=\"no\"") ++ c! "?>"

namespace Xml

/-- There is nothing. -/
def isNil : Xml → Bool
  | .nil => true
  | _ => false

/-- The serialization. -/
def print : Xml → Str
  | .nil => []
  | .leaf l rest => l.print ++ print rest
  | .element n as kids rest =>
    '<' :: n ++ printAttrs as ++ '>' :: print kids ++ c! "</" ++ n ++ '>' :: print rest
  | .docType n p s sub decls rest =>
    c! "<!DOCTYPE " ++ n ++ keyed (c! "PUBLIC") p ++ keyed (c! "SYSTEM") s ++
      (if decls.isNil = true ∧ sub = none then []
        else '[' :: print decls ++ sub.getD [] ++ c! "]") ++ '>' :: print rest
  | .document decl dtd kids rest =>
    (match decl with
      | none => []
      | some d => printDecl d) ++ print dtd ++ print kids ++ print rest
  | .fragment n kids rest => c! "<![CDATA[" ++ n ++ ' ' :: print kids ++ c! "]]>" ++ print rest

/-- The number of levels. -/
def height : Xml → Nat
  | .nil => 0
  | .leaf _ rest => max 1 (height rest)
  | .element _ _ kids rest => max (height kids + 1) (height rest)
  | .docType _ _ _ _ decls rest => max (height decls + 1) (height rest)
  | .document _ dtd kids rest => max (max (height dtd) (height kids) + 1) (height rest)
  | .fragment _ kids rest => max (height kids + 1) (height rest)

end Xml

/-- The node is an attribute with this qualified name and value. The value is what its
`value()` says before escaping, empty when it has none. -/
structure AttrOf (e : Env) (h : Heap) (a : NodeId) (name value : Str) : Prop where
  ntype : nodeType h a = .attribute
  name : (nodeName h a).display = name
  value : attrValue e.uni h a = .ok (some (esc value)) ∨
    attrValue e.uni h a = .ok none ∧ value = []

/-- The nodes are attributes with these qualified names and values. -/
inductive AttrsOf (e : Env) (h : Heap) : List NodeId → List (Str × Str) → Prop
  | nil : AttrsOf e h [] []
  | cons {a : NodeId} {l : List NodeId} {n v : Str} {as : List (Str × Str)}
      (ha : AttrOf e h a n v) (hl : AttrsOf e h l as) : AttrsOf e h (a :: l) ((n, v) :: as)

/-- The node has no content of its own and is this. -/
inductive LeafOf (e : Env) (h : Heap) (n : NodeId) : Leaf → Prop
  | blank (ht : nodeType h n = .text ∨ nodeType h n = .comment ∨ nodeType h n = .cdata)
      (hv : nodeValue h n = none) : LeafOf e h n .blank
  | text {s : Str} (ht : nodeType h n = .text) (hv : nodeValue h n = some s) :
      LeafOf e h n (.text s)
  | comment {s : Str} (ht : nodeType h n = .comment) (hv : nodeValue h n = some s) :
      LeafOf e h n (.comment s)
  | cdata {s : Str} (ht : nodeType h n = .cdata) (hv : nodeValue h n = some s) :
      LeafOf e h n (.cdata s)
  | pi (ht : nodeType h n = .processingInstruction) :
      LeafOf e h n (.pi (nodeName h n).display (nodeValue h n))
  | entityRef (ht : nodeType h n = .entityReference) :
      LeafOf e h n (.entityRef (nodeName h n).display)
  | attribute {name value : Str} (ha : AttrOf e h n name value) :
      LeafOf e h n (.attribute name value)
  | entity {p s nn : Option Str} (ht : nodeType h n = .entity)
      (hx : (h.get n).ext = .entity p s nn) :
      LeafOf e h n (.entity (nodeName h n).display (nodeValue h n) p s nn)
  | notation {p s : Option Str} (ht : nodeType h n = .notationNode)
      (hx : (h.get n).ext = .notation p s) :
      LeafOf e h n (.notation (nodeName h n).display p s)

/-- The nodes of the list and what is below them, in the iteration order of the maps. -/
inductive Shows (e : Env) (h : Heap) : List NodeId → Xml → Prop
  | nil : Shows e h [] .nil
  | leaf {n : NodeId} {ns : List NodeId} {l : Leaf} {rest : Xml} (hl : LeafOf e h n l)
      (hr : Shows e h ns rest) : Shows e h (n :: ns) (.leaf l rest)
  | element {n : NodeId} {ns : List NodeId} {as : List (Str × Str)} {kids rest : Xml}
      (ht : nodeType h n = .element)
      (ha : AttrsOf e h ((e.attrOrder n (attributes h n)).map (·.2)) as)
      (hk : Shows e h (childNodes h n) kids) (hr : Shows e h ns rest) :
      Shows e h (n :: ns) (.element (nodeName h n).display as kids rest)
  | docType {n : NodeId} {ns : List NodeId} {x : DocTypeExt} {decls rest : Xml}
      (ht : nodeType h n = .documentType) (hx : (h.get n).ext = .documentType x)
      (hd : Shows e h ((e.attrOrder n x.entities ++ e.attrOrder n x.notations).map (·.2)) decls)
      (hr : Shows e h ns rest) :
      Shows e h (n :: ns)
        (.docType (nodeName h n).display x.publicId x.systemId x.internalSubset decls rest)
  | document {n : NodeId} {ns : List NodeId} {dtd kids rest : Xml}
      (ht : nodeType h n = .document) (hd : Shows e h (docType h n).toList dtd)
      (hk : Shows e h (childNodes h n) kids) (hr : Shows e h ns rest) :
      Shows e h (n :: ns) (.document (xmlDeclaration h n) dtd kids rest)
  | fragment {n : NodeId} {ns : List NodeId} {kids rest : Xml}
      (ht : nodeType h n = .documentFragment) (hk : Shows e h (childNodes h n) kids)
      (hr : Shows e h ns rest) :
      Shows e h (n :: ns) (.fragment (nodeName h n).display kids rest)

end Spec
end XmlDom
