import Verif.Model.Text

/-!
# Model of `/repo/src/shared/name.rs`
-/

namespace XmlDom

/-- `Name`, `/repo/src/shared/name.rs` 57-62. -/
structure Name where
  namespaceUri : Option Str
  pfx : Option Str
  localName : Str
  deriving DecidableEq, Repr

namespace Name

/-- `Display for Name`, `/repo/src/shared/name.rs` 68-75. -/
def display (n : Name) : Str :=
  match n.pfx with
  | some p => p ++ Syn.nsSeparator :: n.localName
  | none => n.localName

/-- `Name::new`, `/repo/src/shared/name.rs` 142-168. -/
def new (localName : Str) (pfx : Option Str) (namespaceUri : Option Str) : Outcome Name :=
  if localName = [] then .err .syntax
  else if pfx = some [] then .err .syntax
  else if namespaceUri = some [] then .err .syntax
  else .ok { namespaceUri := namespaceUri, pfx := pfx, localName := localName }

/-- `Name::check_part`, `/repo/src/shared/name.rs` 170-179. -/
def checkPart (part : Str) : Outcome Str :=
  if part = [] then .err .syntax
  else (isXmlName part).bind fun b => if b then .ok part else .err .invalidCharacter

/-- `FromStr for Name`, `/repo/src/shared/name.rs` 79-101. Rust evaluates the local
part before the prefix. -/
def fromStr (value : Str) : Outcome Name :=
  if value = [] then .err .syntax
  else
    match splitOn Syn.nsSeparator value with
    | [l] => (checkPart l).bind fun l => new l none none
    | [p, l] => (checkPart l).bind fun l => (checkPart p).bind fun p => new l (some p) none
    | _ => .err .syntax

/-- `TryFrom<&[u8]> for Name`, `/repo/src/shared/name.rs` 105-117. The standard library's
`from_utf8` is Lean's decoder. -/
def tryFromBytes (b : ByteArray) : Outcome Name :=
  match b.utf8Decode? with
  | some s => fromStr s.toList
  | none => .err .invalidCharacter

/-- `Name::check_namespace_uri`, `/repo/src/shared/name.rs` 181-208. -/
def checkNamespaceUri (namespaceUri : Str) (pfx : Option Str) (loc : Str) : Outcome Str :=
  if namespaceUri = [] then .err .syntax
  else if (pfx = some Syn.xmlPrefix ∧ namespaceUri ≠ Syn.xmlNsUri)
      ∨ (pfx = some Syn.xmlnsPrefix ∧ namespaceUri ≠ Syn.xmlnsNsUri) then .err .namespace
  else if (loc = Syn.xmlPrefix ∧ namespaceUri ≠ Syn.xmlNsUri)
      ∨ (loc = Syn.xmlnsPrefix ∧ namespaceUri ≠ Syn.xmlnsNsUri) then .err .namespace
  else .ok namespaceUri

/-- `Name::new_ns`, `/repo/src/shared/name.rs` 127-135. -/
def newNs (namespaceUri qualifiedName : Str) : Outcome Name :=
  (fromStr qualifiedName).bind fun parsed =>
    (checkNamespaceUri namespaceUri parsed.pfx parsed.localName).bind fun uri =>
      .ok { parsed with namespaceUri := some uri }

/-- A name without prefix and namespace, as built by the `for_*` functions. -/
def plain (s : Str) : Name := { namespaceUri := none, pfx := none, localName := s }

/-- `Name::for_cdata`, `/repo/src/shared/name.rs` 213-219. -/
def forCdata : Name := plain Syn.nameCdata
/-- `Name::for_comment`, `/repo/src/shared/name.rs` 224-230. -/
def forComment : Name := plain Syn.nameComment
/-- `Name::for_document`, `/repo/src/shared/name.rs` 235-241. -/
def forDocument : Name := plain Syn.nameDocument
/-- `Name::for_document_fragment`, `/repo/src/shared/name.rs` 246-252. -/
def forDocumentFragment : Name := plain Syn.nameDocumentFragment
/-- `Name::for_text`, `/repo/src/shared/name.rs` 257-263. -/
def forText : Name := plain Syn.nameText

/-- `Name::is_namespace_attribute`, `/repo/src/shared/name.rs` 302-308. -/
def isNamespaceAttribute (n : Name) : Bool :=
  decide (n.namespaceUri = some Syn.xmlnsNsUri
    ∧ ((n.localName = Syn.xmlnsPrefix ∧ n.pfx = none) ∨ n.pfx = some Syn.xmlnsPrefix))

/-- `Name::is_id_attribute`, `/repo/src/shared/name.rs` 325-340. -/
def isIdAttribute (n : Name) (lax : Bool) : Bool :=
  if lax then decide (n.localName = Syn.idAttr)
  else decide (n.localName = Syn.idAttr
    ∧ (n.namespaceUri = some Syn.xmlNsUri ∨ n.pfx = some Syn.xmlPrefix))

/-- `Name::for_namespace`, `/repo/src/shared/name.rs` 313-320 (`unwrap` on the result of
`Name::new`). -/
def forNamespace (pfx : Option Str) : Outcome Name :=
  match pfx with
  | none => (new Syn.xmlnsPrefix none (some Syn.xmlnsNsUri)).unwrap
  | some p => (new p (some Syn.xmlnsPrefix) (some Syn.xmlnsNsUri)).unwrap

/-- `Name::for_xml_id`, `/repo/src/shared/name.rs` 345-351. -/
def forXmlId : Name :=
  { namespaceUri := some Syn.xmlNsUri, pfx := some Syn.xmlPrefix, localName := Syn.idAttr }

end Name
end XmlDom
