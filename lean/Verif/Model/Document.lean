import Verif.Model.Element

/-!
# Model of the `Document`, `DOMImplementation` and `DocumentDecl` implementations and of
the creation functions of `/repo/src/level2/ext/dom_impl.rs`
-/

namespace XmlDom

/-- Allocate a node once its name is known to be valid. -/
def createNamed (h : Heap) (name : Outcome Name) (mk : Name → Node) : Result NodeId :=
  match name with
  | .ok nm => let r := h.alloc (mk nm); (.ok r.1, r.2)
  | .err e => (.err e, h)
  | .panic k => (.panic k, h)
  | .diverge => (.diverge, h)

/-- Allocate an attribute once its name is known to be valid. -/
def createAttr (h : Heap) (doc : NodeId) (name : Outcome Name) (value : Option Str) :
    Result NodeId :=
  match name with
  | .ok nm => let r := h.newAttribute doc nm value; (.ok r.1, r.2)
  | .err e => (.err e, h)
  | .panic k => (.panic k, h)
  | .diverge => (.diverge, h)

/-- `Document::create_attribute`, `/repo/src/level2/trait_impls.rs` 252-256. -/
def createAttribute (h : Heap) (doc : NodeId) (name : Str) : Result NodeId :=
  createAttr h doc (Name.fromStr name) none

/-- `Document::create_attribute_with`, `/repo/src/level2/trait_impls.rs` 258-262. -/
def createAttributeWith (h : Heap) (doc : NodeId) (name value : Str) : Result NodeId :=
  createAttr h doc (Name.fromStr name) (some value)

/-- `Document::create_attribute_ns`, `/repo/src/level2/trait_impls.rs` 264-268. -/
def createAttributeNs (h : Heap) (doc : NodeId) (uri qname : Str) : Result NodeId :=
  createAttr h doc (Name.newNs uri qname) none

/-- `Document::create_cdata_section`, `/repo/src/level2/trait_impls.rs` 270-273. -/
def createCdataSection (h : Heap) (doc : NodeId) (data : Str) : Result NodeId :=
  let r := h.alloc (Node.newCdata doc data); (.ok r.1, r.2)

/-- `Document::create_document_fragment`, `/repo/src/level2/trait_impls.rs` 275-278. -/
def createDocumentFragment (h : Heap) (doc : NodeId) : Result NodeId :=
  let r := h.alloc (Node.newDocumentFragment doc); (.ok r.1, r.2)

/-- `Document::create_entity_reference`, `/repo/src/level2/trait_impls.rs` 280-284. -/
def createEntityReference (h : Heap) (doc : NodeId) (name : Str) : Result NodeId :=
  createNamed h (Name.fromStr name) (Node.newEntityReference doc)

/-- `Document::create_comment`, `/repo/src/level2/trait_impls.rs` 286-289. -/
def createComment (h : Heap) (doc : NodeId) (data : Str) : Result NodeId :=
  let r := h.alloc (Node.newComment doc data); (.ok r.1, r.2)

/-- `Document::create_element`, `/repo/src/level2/trait_impls.rs` 291-295. -/
def createElement (h : Heap) (doc : NodeId) (tag : Str) : Result NodeId :=
  createNamed h (Name.fromStr tag) (Node.newElement doc)

/-- `Document::create_element_ns`, `/repo/src/level2/trait_impls.rs` 297-301. -/
def createElementNs (h : Heap) (doc : NodeId) (uri qname : Str) : Result NodeId :=
  createNamed h (Name.newNs uri qname) (Node.newElement doc)

/-- `Document::create_processing_instruction`, `/repo/src/level2/trait_impls.rs`
303-316. -/
def createProcessingInstruction (h : Heap) (doc : NodeId) (target : Str) (data : Option Str) :
    Result NodeId :=
  if target.map asciiLower = Syn.piReserved then (.err .syntax, h)
  else createNamed h (Name.fromStr target) fun nm => Node.newProcessingInstruction doc nm data

/-- `Document::create_text_node`, `/repo/src/level2/trait_impls.rs` 318-321. -/
def createTextNode (h : Heap) (doc : NodeId) (data : Str) : Result NodeId :=
  let r := h.alloc (Node.newText doc data); (.ok r.1, r.2)

/-- `create_notation`, `/repo/src/level2/ext/dom_impl.rs` 46-56. -/
def createNotation (h : Heap) (doc : NodeId) (name : Str) (publicId systemId : Option Str) :
    Result NodeId :=
  createNamed h (Name.fromStr name) fun nm => Node.newNotation (some doc) nm publicId systemId

/-- `create_entity`, `/repo/src/level2/ext/dom_impl.rs` 64-74. -/
def createEntity (h : Heap) (doc : NodeId) (name : Str) (publicId systemId : Option Str) :
    Result NodeId :=
  createNamed h (Name.fromStr name) fun nm => Node.newEntity (some doc) nm publicId systemId

/-- `create_internal_entity`, `/repo/src/level2/ext/dom_impl.rs` 82-90. -/
def createInternalEntity (h : Heap) (doc : NodeId) (name value : Str) : Result NodeId :=
  createNamed h (Name.fromStr name) fun nm => Node.newInternalEntity (some doc) nm value

/-- `DOMImplementation::create_document_type`, `/repo/src/level2/trait_impls.rs`
409-418. -/
def createDocumentType (h : Heap) (qname : Str) (publicId systemId : Option Str) :
    Result NodeId :=
  createNamed h (Name.fromStr qname) fun nm => Node.newDocumentType none nm publicId systemId

/-- `create_document_with_options`, `/repo/src/level2/trait_impls.rs` 1323-1356. -/
def createDocumentWithOptions (h : Heap) (uri qname : Option Str) (docType : Option NodeId)
    (options : Options) : Result NodeId :=
  let r := h.alloc (Node.newDocument docType options)
  let attach (q : Result NodeId) : Result NodeId :=
    match q with
    | (.ok el, h1) =>
      match appendChild h1 r.1 el with
      | (.ok _, h2) => (.ok r.1, h2)
      | x => x
    | x => x
  match uri, qname with
  | some u, some q => attach (createElementNs r.2 r.1 u q)
  | none, some q => attach (createElement r.2 r.1 q)
  | some _, none => (.err .namespace, r.2)
  | none, none => (.ok r.1, r.2)

/-- `DOMImplementation::create_document`, `/repo/src/level2/trait_impls.rs` 398-407. -/
def createDocument (h : Heap) (uri qname : Option Str) (docType : Option NodeId) :
    Result NodeId :=
  createDocumentWithOptions h uri qname docType Options.new.setAddNamespaces

/-- `DOMImplementation::has_feature`, `/repo/src/level2/trait_impls.rs` 420-423, also
`Node::is_supported`, 1097-1099. -/
def hasFeature (feature version : Str) : Bool :=
  (decide (feature = Syn.featureCore) || decide (feature = Syn.featureXml))
    && (decide (version = Syn.featureV1) || decide (version = Syn.featureV2))

/-- `Document::doc_type`, `/repo/src/level2/trait_impls.rs` 232-234. -/
def docType (h : Heap) (doc : NodeId) : Option NodeId :=
  match (h.get doc).ext with
  | .document x => x.docType
  | _ => none

/-- `Document::document_element`, `/repo/src/level2/trait_impls.rs` 236-238. -/
def documentElement (h : Heap) (doc : NodeId) : Option NodeId := (h.get doc).children.head?

/-- `Document::get_element_by_id`, `/repo/src/level2/trait_impls.rs` 323-340. -/
def getElementById (h : Heap) (doc : NodeId) (id : Str) : Option NodeId :=
  match (h.get doc).ext with
  | .document x => h.upgrade (mapGet id x.idMap)
  | _ => none

/-- `Document::get_elements_by_tag_name`, `/repo/src/level2/trait_impls.rs` 342-351. -/
def docGetElementsByTagName (h : Heap) (fuel : Nat) (doc : NodeId) (tag : Str) :
    Outcome (List NodeId) :=
  match documentElement h doc with
  | some root => getElementsByTagName h fuel root tag
  | none => .ok []

/-- `Document::get_elements_by_tag_name_ns`, `/repo/src/level2/trait_impls.rs` 353-362. -/
def docGetElementsByTagNameNs (h : Heap) (fuel : Nat) (doc : NodeId) (uri loc : Str) :
    Outcome (List NodeId) :=
  match documentElement h doc with
  | some root => getElementsByTagNameNs h fuel root uri loc
  | none => .ok []

/-- `DocumentDecl::xml_declaration`, `/repo/src/level2/ext/trait_impls.rs` 14-25. -/
def xmlDeclaration (h : Heap) (doc : NodeId) : Option XmlDecl :=
  match (h.get doc).ext with
  | .document x => x.xmlDecl
  | _ => none

/-- `DocumentDecl::set_xml_declaration`, `/repo/src/level2/ext/trait_impls.rs` 27-40. -/
def setXmlDeclaration (h : Heap) (doc : NodeId) (d : XmlDecl) : Result Unit :=
  match (h.get doc).ext with
  | .document x =>
    (.ok (), h.set doc { h.get doc with ext := .document { x with xmlDecl := some d } })
  | _ => (.err .invalidState, h)

end XmlDom
