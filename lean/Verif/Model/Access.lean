import Verif.Model.Document

/-!
# Model of the reading methods and conversions

The default methods of the traits in `/repo/src/level2/traits.rs`, the accessors of
document types, entities and notations, the conversion functions of
`/repo/src/level2/convert.rs` and `/repo/src/level2/ext/convert.rs`, the methods of
`NamespacePrefix` and of detached names, and the error enumeration.
-/

namespace XmlDom

/-! ## Names of nodes -/

/-- `Node::namespace_uri`, `/repo/src/level2/traits.rs` 1652-1654. -/
def nodeNamespaceUri (h : Heap) (n : NodeId) : Option Str := (nodeName h n).namespaceUri

/-- `Node::local_name`, `/repo/src/level2/traits.rs` 1664-1666. -/
def nodeLocalName (h : Heap) (n : NodeId) : Str := (nodeName h n).localName

/-- `Node::prefix`, `/repo/src/level2/traits.rs` 1695-1697. -/
def nodePrefix (h : Heap) (n : NodeId) : Option Str := (nodeName h n).pfx

/-- `Element::tag_name`, `/repo/src/level2/traits.rs` 898-900. -/
def tagName (h : Heap) (n : NodeId) : Str := (nodeName h n).display

/-- `ProcessingInstruction::target`, `/repo/src/level2/traits.rs` 1791-1793. -/
def piTarget (h : Heap) (n : NodeId) : Str := (nodeName h n).display

/-- `ProcessingInstruction::data`, `/repo/src/level2/traits.rs` 1768-1770. -/
def piData (h : Heap) (n : NodeId) : Option Str := nodeValue h n

/-- `ProcessingInstruction::length`, `/repo/src/level2/traits.rs` 1750-1755. -/
def piLength (h : Heap) (n : NodeId) : Nat :=
  match piData h n with
  | none => 0
  | some s => byteLen s

/-- `ProcessingInstruction::set_data`, `/repo/src/level2/traits.rs` 1774-1776. -/
def piSetData (h : Heap) (n : NodeId) (s : Str) : Result Unit := setNodeValue h n s

/-- `ProcessingInstruction::unset_data`, `/repo/src/level2/traits.rs` 1780-1782. -/
def piUnsetData (h : Heap) (n : NodeId) : Result Unit := unsetNodeValue h n

/-- `CharacterData::set_data`, `/repo/src/level2/traits.rs` 171-173. -/
def charSetData (h : Heap) (n : NodeId) (s : Str) : Result Unit := setNodeValue h n s

/-- `CharacterData::unset_data`, `/repo/src/level2/traits.rs` 177-179. -/
def charUnsetData (h : Heap) (n : NodeId) : Result Unit := unsetNodeValue h n

/-- `Attribute::specified`, `/repo/src/level2/traits.rs` 64-66. -/
def attrSpecified (_h : Heap) (_n : NodeId) : Bool := true

/-- `Element::set_attribute_node_ns`, `/repo/src/level2/trait_impls.rs` 674-676. -/
def setAttributeNodeNs (e : Env) (h : Heap) (n a : NodeId) : Result NodeId :=
  setAttributeNode e h n a

/-- `Node::is_supported`, `/repo/src/level2/trait_impls.rs` 1097-1099. -/
def isSupported (_h : Heap) (_n : NodeId) (feature version : Str) : Bool :=
  hasFeature feature version

/-- `MutNamespaced::normalize_mappings`, `/repo/src/level2/ext/namespaced.rs` 248-254:
`unimplemented!()` when the document keeps mappings. -/
def normalizeMappings (h : Heap) (n : NodeId) : Result Unit :=
  if addNamespaces h n = false then (.ok (), h) else (.panic .explicit, h)

/-! ## Document types, entities and notations

`unwrap_extension_field!`, `/repo/src/level2/trait_impls.rs` 18-29, yields the default of
the type when the extension is a different one. -/

/-- `DocumentType::entities`, `/repo/src/level2/trait_impls.rs` 372-374. -/
def dtEntities (h : Heap) (n : NodeId) : List (Name × NodeId) :=
  match (h.get n).ext with
  | .documentType x => x.entities
  | _ => []

/-- `DocumentType::notations`, `/repo/src/level2/trait_impls.rs` 376-378. -/
def dtNotations (h : Heap) (n : NodeId) : List (Name × NodeId) :=
  match (h.get n).ext with
  | .documentType x => x.notations
  | _ => []

/-- `DocumentType::public_id`, `/repo/src/level2/trait_impls.rs` 380-382. -/
def dtPublicId (h : Heap) (n : NodeId) : Option Str :=
  match (h.get n).ext with
  | .documentType x => x.publicId
  | _ => none

/-- `DocumentType::system_id`, `/repo/src/level2/trait_impls.rs` 384-386. -/
def dtSystemId (h : Heap) (n : NodeId) : Option Str :=
  match (h.get n).ext with
  | .documentType x => x.systemId
  | _ => none

/-- `DocumentType::internal_subset`, `/repo/src/level2/trait_impls.rs` 388-390. -/
def dtInternalSubset (h : Heap) (n : NodeId) : Option Str :=
  match (h.get n).ext with
  | .documentType x => x.internalSubset
  | _ => none

/-- `Entity::public_id`, `/repo/src/level2/trait_impls.rs` 763-765. -/
def entityPublicId (h : Heap) (n : NodeId) : Option Str :=
  match (h.get n).ext with
  | .entity p _ _ => p
  | _ => none

/-- `Entity::system_id`, `/repo/src/level2/trait_impls.rs` 767-769. -/
def entitySystemId (h : Heap) (n : NodeId) : Option Str :=
  match (h.get n).ext with
  | .entity _ s _ => s
  | _ => none

/-- `Entity::notation_name`, `/repo/src/level2/trait_impls.rs` 771-773. -/
def entityNotationName (h : Heap) (n : NodeId) : Option Str :=
  match (h.get n).ext with
  | .entity _ _ nn => nn
  | _ => none

/-- `Notation::public_id`, `/repo/src/level2/trait_impls.rs` 1109-1111. -/
def notationPublicId (h : Heap) (n : NodeId) : Option Str :=
  match (h.get n).ext with
  | .notation p _ => p
  | _ => none

/-- `Notation::system_id`, `/repo/src/level2/trait_impls.rs` 1113-1115. -/
def notationSystemId (h : Heap) (n : NodeId) : Option Str :=
  match (h.get n).ext with
  | .notation _ s => s
  | _ => none

/-- `Document::implementation`, `/repo/src/level2/trait_impls.rs` 240-250. There is one
implementation object, so only the panic on anything but a document is interesting. -/
def docImplementation (h : Heap) (n : NodeId) : Outcome Unit :=
  match (h.get n).ext with
  | .document _ => .ok ()
  | _ => .panic .explicit

/-! ## Conversions -/

/-- The target types of the conversion functions, one for each
`make_is_as_functions!` in `/repo/src/level2/convert.rs` 59-209 and
`/repo/src/level2/ext/convert.rs` 27-41, and `CharacterData`. -/
inductive View
  | «attribute» | element | characterData | text | cdataSection | entityReference | entity
  | processingInstruction | comment | document | documentType | documentFragment | notationNode
  | documentDecl | namespaced
  deriving DecidableEq, Repr

/-- The `is_*` functions, `/repo/src/shared/convert.rs` 18-76 instantiated in
`/repo/src/level2/convert.rs` 59-209; `is_character_data`, 81-86. -/
def isView (h : Heap) (n : NodeId) : View → Bool
  | .attribute => decide ((h.get n).ntype = .attribute)
  | .element => decide ((h.get n).ntype = .element)
  | .characterData => isCharacterData (h.get n).ntype
  | .text => decide ((h.get n).ntype = .text)
  | .cdataSection => decide ((h.get n).ntype = .cdata)
  | .entityReference => decide ((h.get n).ntype = .entityReference)
  | .entity => decide ((h.get n).ntype = .entity)
  | .processingInstruction => decide ((h.get n).ntype = .processingInstruction)
  | .comment => decide ((h.get n).ntype = .comment)
  | .document => decide ((h.get n).ntype = .document)
  | .documentType => decide ((h.get n).ntype = .documentType)
  | .documentFragment => decide ((h.get n).ntype = .documentFragment)
  | .notationNode => decide ((h.get n).ntype = .notationNode)
  | .documentDecl => decide ((h.get n).ntype = .document)
  | .namespaced => decide ((h.get n).ntype = .element)

/-- The `as_*` and `as_*_mut` functions of the same macros: the same node on success. -/
def asView (h : Heap) (n : NodeId) (v : View) : Outcome NodeId :=
  if isView h n v then .ok n else .err .invalidState

/-! ## Detached names and prefixes -/

/-- `Name::set_prefix`, `/repo/src/shared/name.rs` 377-380. -/
def Name.setPrefix (n : Name) (p : Option Str) : Name := { n with pfx := p }

/-- `Name::for_public_id`, `/repo/src/shared/name.rs` 268-274. -/
def Name.forPublicId : Name := Name.plain Syn.doctypePublic
/-- `Name::for_system_id`, `/repo/src/shared/name.rs` 279-285. -/
def Name.forSystemId : Name := Name.plain Syn.doctypeSystem

namespace NamespacePrefix

/-- `NamespacePrefix::is_none`, `/repo/src/level2/ext/namespaced.rs` 56-58. -/
def isNone : NamespacePrefix → Bool
  | .none => true
  | _ => false

/-- `NamespacePrefix::is_default`, `/repo/src/level2/ext/namespaced.rs` 63-65. -/
def isDefault : NamespacePrefix → Bool
  | .default => true
  | _ => false

/-- `NamespacePrefix::is_some`, `/repo/src/level2/ext/namespaced.rs` 70-72. -/
def isSome : NamespacePrefix → Bool
  | .some _ => true
  | _ => false

/-- `NamespacePrefix::some`, `/repo/src/level2/ext/namespaced.rs` 78-83. -/
def some? : NamespacePrefix → Option Str
  | .some s => Option.some s
  | _ => Option.none

end NamespacePrefix

/-! ## Character references in hexadecimal -/

/-- An upper case hexadecimal digit, as `{:X}` writes it. -/
def hexDigit (d : Nat) : Char :=
  if d < 10 then Char.ofNat (48 + d) else Char.ofNat (55 + d)

/-- The digits of a 16-bit number without leading zeros, as `{:X}` writes it. -/
def hexDigits16 (n : Nat) : Str :=
  if n < 16 then [hexDigit n]
  else if n < 256 then [hexDigit (n / 16), hexDigit (n % 16)]
  else if n < 4096 then [hexDigit (n / 256), hexDigit (n / 16 % 16), hexDigit (n % 16)]
  else [hexDigit (n / 4096), hexDigit (n / 256 % 16), hexDigit (n / 16 % 16), hexDigit (n % 16)]

/-- `to_entity_hex`, `/repo/src/shared/text.rs` 212-217. -/
def toEntityHex (c : Char) : Str :=
  c! "&#x" ++ hexDigits16 (c.toNat % 65536) ++ Syn.entityrefEnd

/-! ## Numbers and messages of the enumerations -/

/-- The discriminants of `Error`, `/repo/src/shared/error.rs` 22-62. -/
def DomError.code : DomError → Nat
  | .indexSize => 1 | .stringSize => 2 | .hierarchyRequest => 3 | .wrongDocument => 4
  | .invalidCharacter => 5 | .noDataAllowed => 6 | .noModificationAllowed => 7 | .notFound => 8
  | .notSupported => 9 | .inUseAttribute => 10 | .invalidState => 11 | .syntax => 12
  | .invalidModification => 13 | .namespace => 14 | .invalidAccess => 15

/-- `Display for Error`, `/repo/src/shared/error.rs` 114-135. -/
def DomError.display : DomError → Str
  | .indexSize =>
    c! "Either `index` or `size` is negative, or greater than the allowed value"
  | .stringSize => c! "The specified range of text does not fit into a DOMString"
  | .hierarchyRequest => c! "An attempt insert a node somewhere it doesn't belong"
  | .wrongDocument =>
    c! "An attempt to use a node in a different document than the one that created it"
  | .invalidCharacter =>
    c! "An invalid or illegal character was specified, such as in a name"
  | .noDataAllowed => c! "An attempt to add data for a node which does not support data"
  | .noModificationAllowed =>
    c! "An attempt is made to modify an object where modifications are not allowed"
  | .notFound =>
    c! "An attempt is made to reference a node in a context where it does not exist"
  | .notSupported =>
    c! "The implementation does not support the requested type of object or operation"
  | .inUseAttribute =>
    c! "An attempt was made to add an attribute that is already in use elsewhere"
  | .invalidState =>
    c! "An attempt is made to use an object that is not, or is no longer, usable"
  | .syntax => c! "An invalid or illegal string was specified"
  | .invalidModification =>
    c! "An attempt was made to modify the type of the underlying object"
  | .namespace =>
    c! "An attempt was made to create or change an object in a way which is incorrect with regard to namespaces"
  | .invalidAccess =>
    c! "A parameter or an operation is not supported by the underlying object"

/-- The discriminants of `NodeType`, `/repo/src/level2/traits.rs` 1851-1878. -/
def NodeType.code : NodeType → Nat
  | .element => 1 | .attribute => 2 | .text => 3 | .cdata => 4 | .entityReference => 5
  | .entity => 6 | .processingInstruction => 7 | .comment => 8 | .document => 9
  | .documentType => 10 | .documentFragment => 11 | .notationNode => 12

end XmlDom
