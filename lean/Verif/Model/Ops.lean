import Verif.Model.Parser

/-!
# Histories of API calls

An `Op` is one mutating call of the public API (or the release of the last handle of a
node). Reading calls do not change the heap and therefore do not appear. A history is a
list of calls, each with its own environment, so hash map iteration orders may differ
from call to call.
-/

namespace XmlDom

/-- One call of the public API that can change the heap. The traits `Document`, `Element`,
`Attribute`, `CharacterData` and so on are all implemented for `RefNode`
(`/repo/src/level2/trait_impls.rs`), so the compiler accepts every call on every node and
the model does not restrict the type of the receiver either. -/
inductive Op
  /-- `create_document` and `create_document_with_options` -/
  | createDocument (uri qname : Option Str) (docType : Option NodeId) (options : Options)
  | createDocumentType (qname : Str) (publicId systemId : Option Str)
  | createElement (doc : NodeId) (tag : Str)
  | createElementNs (doc : NodeId) (uri qname : Str)
  | createAttribute (doc : NodeId) (name : Str)
  | createAttributeWith (doc : NodeId) (name value : Str)
  | createAttributeNs (doc : NodeId) (uri qname : Str)
  | createCdataSection (doc : NodeId) (data : Str)
  | createDocumentFragment (doc : NodeId)
  | createEntityReference (doc : NodeId) (name : Str)
  | createComment (doc : NodeId) (data : Str)
  | createProcessingInstruction (doc : NodeId) (target : Str) (data : Option Str)
  | createTextNode (doc : NodeId) (data : Str)
  | createNotation (doc : NodeId) (name : Str) (publicId systemId : Option Str)
  | createEntity (doc : NodeId) (name : Str) (publicId systemId : Option Str)
  | createInternalEntity (doc : NodeId) (name value : Str)
  | insertBefore (self new : NodeId) (ref : Option NodeId)
  | appendChild (self new : NodeId)
  | replaceChild (self new old : NodeId)
  | removeChild (self old : NodeId)
  /-- `clone_node`; the fuel is an upper bound for the depth of the recursion -/
  | cloneNode (n : NodeId) (deep : Bool) (fuel : Nat)
  | normalize (n : NodeId)
  /-- `set_node_value` and `set_data` -/
  | setNodeValue (n : NodeId) (v : Str)
  /-- `unset_node_value` and `unset_data` -/
  | unsetNodeValue (n : NodeId)
  | appendData (n : NodeId) (s : Str)
  | insertData (n : NodeId) (offset : Nat) (s : Str)
  | deleteData (n : NodeId) (offset count : Nat)
  | replaceData (n : NodeId) (offset count : Nat) (s : Str)
  | split (n : NodeId) (offset : Nat)
  | setValue (a : NodeId) (v : Str)
  | unsetValue (a : NodeId)
  | setAttribute (n : NodeId) (name value : Str)
  | setAttributeNs (n : NodeId) (uri qname value : Str)
  /-- `set_attribute_node` and `set_attribute_node_ns` -/
  | setAttributeNode (n a : NodeId)
  | removeAttribute (n : NodeId) (name : Str)
  | removeAttributeNs (n : NodeId) (uri loc : Str)
  | removeAttributeNode (n a : NodeId)
  | setXmlDeclaration (doc : NodeId) (d : XmlDecl)
  /-- `read_xml` and `read_reader` -/
  | readXml (evs : List Event)
  /-- the last handle of the node goes out of scope -/
  | drop (n : NodeId)

/-- The node handles that a call takes. -/
def Op.args : Op → List NodeId
  | .createDocument _ _ dt _ => dt.toList
  | .createDocumentType _ _ _ => []
  | .createElement d _ | .createElementNs d _ _ | .createAttribute d _
  | .createAttributeWith d _ _ | .createAttributeNs d _ _ | .createCdataSection d _
  | .createDocumentFragment d | .createEntityReference d _ | .createComment d _
  | .createProcessingInstruction d _ _ | .createTextNode d _ | .createNotation d _ _ _
  | .createEntity d _ _ _ | .createInternalEntity d _ _ => [d]
  | .insertBefore s n r => s :: n :: r.toList
  | .appendChild s n => [s, n]
  | .replaceChild s n o => [s, n, o]
  | .removeChild s o => [s, o]
  | .cloneNode n _ _ | .normalize n | .setNodeValue n _ | .unsetNodeValue n
  | .appendData n _ | .insertData n _ _ | .deleteData n _ _ | .replaceData n _ _ _
  | .split n _ | .setValue n _ | .unsetValue n | .setAttribute n _ _
  | .setAttributeNs n _ _ _ | .removeAttribute n _ | .removeAttributeNs n _ _
  | .setXmlDeclaration n _ | .drop n => [n]
  | .setAttributeNode n a | .removeAttributeNode n a => [n, a]
  | .readXml _ => []

/-- The strong references (`Rc`) a node holds: the `RefNode` fields of `NodeImpl` and
`Extension`, `/repo/src/level2/node_impl.rs` 40-89. -/
def strongRefs (x : Node) : List NodeId :=
  x.children ++
    match x.ext with
    | .element attrs _ => attrs.map (·.2)
    | .document d => d.docType.toList
    | .documentType d => d.entities.map (·.2) ++ d.notations.map (·.2)
    | _ => []

/-- Some live node holds a strong reference to `n`. -/
def stronglyReferenced (h : Heap) (n : NodeId) : Bool :=
  (List.range h.next).any fun m => h.live m && (strongRefs (h.get m)).contains n

/-- `Rc` drops the value when the last strong reference is gone. The history says when a
handle goes out of scope; a node that is still referenced stays. -/
def dropNode (h : Heap) (n : NodeId) : Heap :=
  if stronglyReferenced h n then h
  else { h with live := fun m => if m = n then false else h.live m }

/-- The heap an operation leaves behind. Unbounded recursion kills the real program; the
history goes on as if the call had not been made. -/
def leftBehind {α : Type} (h : Heap) (r : Result α) : Heap :=
  match r with
  | (.diverge, _) => h
  | (_, h') => h'

/-- The effect of one call whose arguments are live. -/
def Op.apply (e : Env) (h : Heap) : Op → Heap
  | .createDocument uri q dt o => leftBehind h (XmlDom.createDocumentWithOptions h uri q dt o)
  | .createDocumentType q p s => leftBehind h (XmlDom.createDocumentType h q p s)
  | .createElement d t => leftBehind h (XmlDom.createElement h d t)
  | .createElementNs d u q => leftBehind h (XmlDom.createElementNs h d u q)
  | .createAttribute d n => leftBehind h (XmlDom.createAttribute h d n)
  | .createAttributeWith d n v => leftBehind h (XmlDom.createAttributeWith h d n v)
  | .createAttributeNs d u q => leftBehind h (XmlDom.createAttributeNs h d u q)
  | .createCdataSection d s => leftBehind h (XmlDom.createCdataSection h d s)
  | .createDocumentFragment d => leftBehind h (XmlDom.createDocumentFragment h d)
  | .createEntityReference d n => leftBehind h (XmlDom.createEntityReference h d n)
  | .createComment d s => leftBehind h (XmlDom.createComment h d s)
  | .createProcessingInstruction d t s =>
    leftBehind h (XmlDom.createProcessingInstruction h d t s)
  | .createTextNode d s => leftBehind h (XmlDom.createTextNode h d s)
  | .createNotation d n p s => leftBehind h (XmlDom.createNotation h d n p s)
  | .createEntity d n p s => leftBehind h (XmlDom.createEntity h d n p s)
  | .createInternalEntity d n v => leftBehind h (XmlDom.createInternalEntity h d n v)
  | .insertBefore s n r => leftBehind h (XmlDom.insertBefore h s n r)
  | .appendChild s n => leftBehind h (XmlDom.appendChild h s n)
  | .replaceChild s n o => leftBehind h (XmlDom.replaceChild h s n o)
  | .removeChild s o => leftBehind h (XmlDom.removeChild h s o)
  | .cloneNode n deep fuel => leftBehind h (XmlDom.cloneNode fuel h n deep)
  | .normalize n => leftBehind h (XmlDom.normalize h n)
  | .setNodeValue n v => leftBehind h (XmlDom.setNodeValue h n v)
  | .unsetNodeValue n => leftBehind h (XmlDom.unsetNodeValue h n)
  | .appendData n s => leftBehind h (nodeAppendData h n s)
  | .insertData n o s => leftBehind h (nodeInsertData e.overflowChecks h n o s)
  | .deleteData n o c => leftBehind h (nodeDeleteData e.overflowChecks h n o c)
  | .replaceData n o c s => leftBehind h (nodeReplaceData e.overflowChecks h n o c s)
  | .split n o => leftBehind h (splitText e.overflowChecks h n o)
  | .setValue a v => leftBehind h (XmlDom.setValue h a v)
  | .unsetValue a => leftBehind h (XmlDom.unsetValue h a)
  | .setAttribute n k v => leftBehind h (XmlDom.setAttribute e h n k v)
  | .setAttributeNs n u q v => leftBehind h (XmlDom.setAttributeNs e h n u q v)
  | .setAttributeNode n a => leftBehind h (XmlDom.setAttributeNode e h n a)
  | .removeAttribute n k => leftBehind h (XmlDom.removeAttribute e h n k)
  | .removeAttributeNs n u l => leftBehind h (XmlDom.removeAttributeNs e h n u l)
  | .removeAttributeNode n a => leftBehind h (XmlDom.removeAttributeNode h n a)
  | .setXmlDeclaration d x => leftBehind h (XmlDom.setXmlDeclaration h d x)
  | .readXml evs => leftBehind h (XmlDom.readXml e h evs)
  | .drop n => dropNode h n

/-- One step of a history. A program only calls through handles, and a handle keeps its
node alive, so a call with a dead argument does not happen. -/
def exec (e : Env) (op : Op) (h : Heap) : Heap :=
  if op.args.all h.live then op.apply e h else h

/-- A history: the calls in order, each with its environment. -/
def run : List (Env × Op) → Heap → Heap
  | [], h => h
  | (e, op) :: rest, h => run rest (exec e op h)

/-- The states a program can reach. -/
def Reachable (h : Heap) : Prop :=
  ∃ ops : List (Env × Op), (∀ x ∈ ops, x.1.Ok) ∧ h = run ops Heap.empty

end XmlDom
