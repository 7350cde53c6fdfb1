import Verif.Model.Access

/-!
# Vocabulary for reading methods and conversions
-/

namespace XmlDom
namespace Spec

/-- `p` and `l` are the prefix and the local part of the qualified name `q`. -/
def QNameParts (q : Str) (p : Option Str) (l : Str) : Prop :=
  (p = none ∧ l = q ∧ ':' ∉ q) ∨ ∃ w, p = some w ∧ q = w ++ ':' :: l ∧ ':' ∉ w ∧ ':' ∉ l

/-- The node types that implement an interface of the DOM (section 1.2 of the Level 2 Core
recommendation: `Text` and `Comment` are `CharacterData`, a CDATA section is a `Text`
there, but this crate keeps `Text` and `CDataSection` apart). -/
def viewTypes : View → List NodeType
  | .attribute => [.attribute]
  | .element | .namespaced => [.element]
  | .characterData => [.text, .comment, .cdata]
  | .text => [.text]
  | .cdataSection => [.cdata]
  | .entityReference => [.entityReference]
  | .entity => [.entity]
  | .processingInstruction => [.processingInstruction]
  | .comment => [.comment]
  | .document | .documentDecl => [.document]
  | .documentType => [.documentType]
  | .documentFragment => [.documentFragment]
  | .notationNode => [.notationNode]

/-- The views that stand for one node type each. -/
def typeViews : List View :=
  [.element, .attribute, .text, .cdataSection, .entityReference, .entity, .processingInstruction,
    .comment, .document, .documentType, .documentFragment, .notationNode]

/-- The exception codes of the DOM Level 2 Core recommendation in their order. The crate
puts them one after the other, beginning with `INDEX_SIZE_ERR` = 1. -/
def domErrors : List DomError :=
  [.indexSize, .stringSize, .hierarchyRequest, .wrongDocument, .invalidCharacter, .noDataAllowed,
    .noModificationAllowed, .notFound, .notSupported, .inUseAttribute, .invalidState, .syntax,
    .invalidModification, .namespace, .invalidAccess]

/-- The node type constants of the DOM Level 2 Core recommendation in their order,
beginning with `ELEMENT_NODE` = 1. -/
def domNodeTypes : List NodeType :=
  [.element, .attribute, .text, .cdata, .entityReference, .entity, .processingInstruction,
    .comment, .document, .documentType, .documentFragment, .notationNode]

/-- The option flags by bit number, with the names the text form uses. -/
def optionNames : List (Nat × Str) :=
  [(0, c! "AssumeIDs"), (1, c! "ParseEntities"), (2, c! "AddNamespaces")]

/-- The names separated by a comma and a space. -/
def commaList : List Str → Str
  | [] => []
  | s :: ss => s ++ ss.flatMap fun t => c! ", " ++ t

end Spec
end XmlDom
