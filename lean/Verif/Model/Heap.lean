import Verif.Model.Name
import Verif.Model.Options
import Verif.Model.Decl
import Verif.Model.CharData

/-!
# Nodes and the heap

`Rc<RefCell<NodeImpl>>` handles are natural numbers, the `RefCell` contents live in a
heap. Strong references (child lists, attribute maps, the document type of a document)
and weak references (parent, owner document, owner element, id map) are both node ids;
upgrading a weak reference checks the `live` flag.
-/

namespace XmlDom

/-- A node identity: `RefNode` compares by `Rc::ptr_eq`,
`/repo/src/shared/rc_cell.rs` 45-50. -/
abbrev NodeId := Nat

/-- `NodeType`, `/repo/src/level2/traits.rs` 1853-1878. -/
inductive NodeType
  | element | attribute | text | cdata | entityReference | entity
  | processingInstruction | comment | document | documentType | documentFragment
  | notationNode
  deriving DecidableEq, Repr

/-- `Extension::Document`, `/repo/src/level2/node_impl.rs` 45-51. Simplification:
`i_implementation` is left out, there is only one implementation object. -/
structure DocExt where
  xmlDecl : Option XmlDecl
  docType : Option NodeId
  idMap : List (Str × NodeId)
  options : Options
  deriving DecidableEq, Repr

/-- `Extension::DocumentType`, `/repo/src/level2/node_impl.rs` 52-58. -/
structure DocTypeExt where
  entities : List (Name × NodeId)
  notations : List (Name × NodeId)
  publicId : Option Str
  systemId : Option Str
  internalSubset : Option Str
  deriving DecidableEq, Repr

/-- `Extension`, `/repo/src/level2/node_impl.rs` 40-72. -/
inductive Ext
  | none
  | attribute (ownerElement : Option NodeId)
  | document (d : DocExt)
  | documentType (d : DocTypeExt)
  | element (attrs : List (Name × NodeId)) (nss : List (Option Str × Str))
  | entity (publicId systemId notationName : Option Str)
  | notation (publicId systemId : Option Str)
  deriving DecidableEq, Repr

/-- `NodeImpl`, `/repo/src/level2/node_impl.rs` 81-89. -/
structure Node where
  ntype : NodeType
  name : Name
  value : Option Str
  parent : Option NodeId
  owner : Option NodeId
  children : List NodeId
  ext : Ext
  deriving DecidableEq, Repr

/-- What an unused cell holds; never observable because ids at or above `next` are not
handed out. -/
def Node.blank : Node :=
  { ntype := .text, name := Name.forText, value := none, parent := none, owner := none,
    children := [], ext := .none }

/-- All nodes. `next` is the first unused id. -/
structure Heap where
  next : NodeId
  live : NodeId → Bool
  get : NodeId → Node

namespace Heap

/-- No node exists. -/
def empty : Heap := { next := 0, live := fun _ => false, get := fun _ => Node.blank }

/-- Overwrite one node. -/
def set (h : Heap) (n : NodeId) (x : Node) : Heap :=
  { h with get := fun m => if m = n then x else h.get m }

/-- `RefNode::new`: a fresh cell. -/
def alloc (h : Heap) (x : Node) : NodeId × Heap :=
  (h.next,
    { next := h.next + 1,
      live := fun m => if m = h.next then true else h.live m,
      get := fun m => if m = h.next then x else h.get m })

/-- `WeakRefCell::upgrade`, `/repo/src/shared/rc_cell.rs` 54-115. -/
def upgrade (h : Heap) (w : Option NodeId) : Option NodeId :=
  match w with
  | some n => if h.live n then some n else none
  | none => none

end Heap

/-- Everything the real program gets from its surroundings: Unicode tables, the build
profile, and the iteration order of every hash map (a fresh choice at every call,
because a history supplies an environment per call). -/
structure Env where
  uni : Uni
  overflowChecks : Bool
  attrOrder : NodeId → List (Name × NodeId) → List (Name × NodeId)
  nsOrder : NodeId → List (Option Str × Str) → List (Option Str × Str)

/-- The assumptions about the environment: the Unicode classes agree with ASCII, and
iterating over a hash map yields its entries in some order. -/
structure Env.Ok (e : Env) : Prop where
  uni : e.uni.Ascii
  attrOrder : ∀ n m, (e.attrOrder n m).Perm m
  nsOrder : ∀ n m, (e.nsOrder n m).Perm m

/-! ## Node constructors -/

namespace Node

/-- `NodeImpl::new_element`, `/repo/src/level2/node_impl.rs` 104-117. -/
def newElement (owner : NodeId) (name : Name) : Node :=
  { ntype := .element, name := name, value := none, parent := none, owner := some owner,
    children := [], ext := .element [] [] }

/-- `NodeImpl::new_text`, `/repo/src/level2/node_impl.rs` 140-150. -/
def newText (owner : NodeId) (data : Str) : Node :=
  { ntype := .text, name := Name.forText, value := some data, parent := none,
    owner := some owner, children := [], ext := .none }

/-- `NodeImpl::new_cdata`, `/repo/src/level2/node_impl.rs` 151-161. -/
def newCdata (owner : NodeId) (data : Str) : Node :=
  { ntype := .cdata, name := Name.forCdata, value := some data, parent := none,
    owner := some owner, children := [], ext := .none }

/-- `NodeImpl::new_processing_instruction`, `/repo/src/level2/node_impl.rs` 162-176. -/
def newProcessingInstruction (owner : NodeId) (target : Name) (data : Option Str) : Node :=
  { ntype := .processingInstruction, name := target, value := data, parent := none,
    owner := some owner, children := [], ext := .none }

/-- `NodeImpl::new_comment`, `/repo/src/level2/node_impl.rs` 177-187. -/
def newComment (owner : NodeId) (data : Str) : Node :=
  { ntype := .comment, name := Name.forComment, value := some data, parent := none,
    owner := some owner, children := [], ext := .none }

/-- `NodeImpl::new_document`, `/repo/src/level2/node_impl.rs` 188-204. -/
def newDocument (docType : Option NodeId) (options : Options) : Node :=
  { ntype := .document, name := Name.forDocument, value := none, parent := none,
    owner := none, children := [],
    ext := .document { xmlDecl := none, docType := docType, idMap := [], options := options } }

/-- `NodeImpl::new_document_fragment`, `/repo/src/level2/node_impl.rs` 205-215. -/
def newDocumentFragment (owner : NodeId) : Node :=
  { ntype := .documentFragment, name := Name.forDocumentFragment, value := none,
    parent := none, owner := some owner, children := [], ext := .none }

/-- `NodeImpl::new_document_type`, `/repo/src/level2/node_impl.rs` 216-237. -/
def newDocumentType (owner : Option NodeId) (name : Name) (publicId systemId : Option Str) :
    Node :=
  { ntype := .documentType, name := name, value := none, parent := owner, owner := owner,
    children := [],
    ext := .documentType
      { entities := [], notations := [], publicId := publicId, systemId := systemId,
        internalSubset := none } }

/-- `NodeImpl::new_entity_reference`, `/repo/src/level2/node_impl.rs` 238-248. -/
def newEntityReference (owner : NodeId) (name : Name) : Node :=
  { ntype := .entityReference, name := name, value := none, parent := none,
    owner := some owner, children := [], ext := .none }

/-- `NodeImpl::new_entity`, `/repo/src/level2/node_impl.rs` 249-268. -/
def newEntity (owner : Option NodeId) (name : Name) (publicId systemId : Option Str) : Node :=
  { ntype := .entity, name := name, value := none, parent := none, owner := owner,
    children := [], ext := .entity publicId systemId none }

/-- `NodeImpl::new_internal_entity`, `/repo/src/level2/node_impl.rs` 269-287. -/
def newInternalEntity (owner : Option NodeId) (name : Name) (value : Str) : Node :=
  { ntype := .entity, name := name, value := some value, parent := none, owner := owner,
    children := [], ext := .entity none none none }

/-- `NodeImpl::new_notation`, `/repo/src/level2/node_impl.rs` 288-306. -/
def newNotation (owner : Option NodeId) (name : Name) (publicId systemId : Option Str) : Node :=
  { ntype := .notationNode, name := name, value := none, parent := none, owner := owner,
    children := [], ext := .notation publicId systemId }

end Node

/-- `RefNode::new(NodeImpl::new_attribute(..))`, `/repo/src/level2/node_impl.rs` 118-139:
a value becomes one text child whose parent link is not set. -/
def Heap.newAttribute (h : Heap) (owner : NodeId) (name : Name) (value : Option Str) :
    NodeId × Heap :=
  match value with
  | some v =>
    let r := h.alloc (Node.newText owner v)
    r.2.alloc
      { ntype := .attribute, name := name, value := none, parent := none,
        owner := some owner, children := [r.1], ext := .attribute none }
  | none =>
    h.alloc
      { ntype := .attribute, name := name, value := none, parent := none,
        owner := some owner, children := [], ext := .attribute none }

end XmlDom
