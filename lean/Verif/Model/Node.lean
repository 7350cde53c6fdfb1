import Verif.Model.Heap

/-!
# The `Node`, `CharacterData`, `Text` and `Attribute` operations of
`/repo/src/level2/trait_impls.rs`

Every function returns the outcome together with the heap left behind; after a panic
the heap is what the real program would leave behind if the panic is caught.
-/

namespace XmlDom

/-- The result of an operation on the heap. -/
abbrev Result (α : Type) := Outcome α × Heap

/-! ## Reading -/

/-- `Node::node_name`, `/repo/src/level2/trait_impls.rs` 785-788. -/
def nodeName (h : Heap) (n : NodeId) : Name := (h.get n).name

/-- `Node::node_value`, `/repo/src/level2/trait_impls.rs` 790-793. -/
def nodeValue (h : Heap) (n : NodeId) : Option Str := (h.get n).value

/-- `Node::node_type`, `/repo/src/level2/trait_impls.rs` 807-810. -/
def nodeType (h : Heap) (n : NodeId) : NodeType := (h.get n).ntype

/-- `Node::parent_node`, `/repo/src/level2/trait_impls.rs` 812-821. -/
def parentNode (h : Heap) (n : NodeId) : Option NodeId :=
  if (h.get n).ntype = .attribute then none else h.upgrade (h.get n).parent

/-- `Node::child_nodes`, `/repo/src/level2/trait_impls.rs` 823-826. -/
def childNodes (h : Heap) (n : NodeId) : List NodeId := (h.get n).children

/-- `Node::first_child`, `/repo/src/level2/trait_impls.rs` 828-831. -/
def firstChild (h : Heap) (n : NodeId) : Option NodeId := (h.get n).children.head?

/-- `Node::last_child`, `/repo/src/level2/trait_impls.rs` 833-836. -/
def lastChild (h : Heap) (n : NodeId) : Option NodeId := (h.get n).children.getLast?

/-- `Node::has_child_nodes`, `/repo/src/level2/trait_impls.rs` 1062-1064. -/
def hasChildNodes (h : Heap) (n : NodeId) : Bool := !(h.get n).children.isEmpty

/-- `Iterator::position(|child| child == x)`. -/
def position (x : NodeId) : List NodeId → Option Nat
  | [] => none
  | y :: ys => if y = x then some 0 else (position x ys).map (· + 1)

/-- `Node::previous_sibling`, `/repo/src/level2/trait_impls.rs` 838-869. -/
def previousSibling (h : Heap) (n : NodeId) : Option NodeId :=
  if (h.get n).ntype = .attribute then none
  else match (h.get n).parent with
    | none => none
    | some w =>
      match h.upgrade (some w) with
      | none => none
      | some p =>
        match position n (h.get p).children with
        | none => none
        | some i => if i = 0 then none else (h.get p).children[i - 1]?

/-- `Node::next_sibling`, `/repo/src/level2/trait_impls.rs` 871-898. -/
def nextSibling (h : Heap) (n : NodeId) : Option NodeId :=
  if (h.get n).ntype = .attribute then none
  else match (h.get n).parent with
    | none => none
    | some w =>
      match h.upgrade (some w) with
      | none => none
      | some p =>
        match position n (h.get p).children with
        | none => none
        | some i => (h.get p).children[i + 1]?

/-- `Node::owner_document`, `/repo/src/level2/trait_impls.rs` 909-915. -/
def ownerDocument (h : Heap) (n : NodeId) : Option NodeId := h.upgrade (h.get n).owner

/-- `Node::attributes`, `/repo/src/level2/trait_impls.rs` 900-907: the entries of the
returned map. -/
def attributes (h : Heap) (n : NodeId) : List (Name × NodeId) :=
  if (h.get n).ntype = .element then
    match (h.get n).ext with
    | .element attrs _ => attrs
    | _ => []
  else []

/-- `Node::has_attributes`, `/repo/src/level2/trait_impls.rs` 1101-1103. -/
def hasAttributes (h : Heap) (n : NodeId) : Bool := !(attributes h n).isEmpty

/-- `Attribute::owner_element`, `/repo/src/level2/trait_impls.rs` 116-134. -/
def ownerElement (h : Heap) (n : NodeId) : Option NodeId :=
  match (h.get n).ext with
  | .attribute w => h.upgrade w
  | _ => none

/-! ## Tree editing -/

/-- `is_child_allowed`, `/repo/src/level2/trait_impls.rs` 1267-1321. -/
def isChildAllowed (parent child : NodeType) : Bool :=
  match parent with
  | .element | .entityReference | .entity | .documentFragment =>
    match child with
    | .element | .text | .comment | .processingInstruction | .cdata | .entityReference => true
    | _ => false
  | .attribute =>
    match child with
    | .text | .entityReference => true
    | _ => false
  | .document =>
    match child with
    | .element | .comment | .processingInstruction => true
    | _ => false
  | .text | .cdata | .processingInstruction | .comment | .documentType | .notationNode => false

/-- `check_same_document`, `/repo/src/level2/trait_impls.rs` 1212-1245. -/
def checkSameDocument (h : Heap) (self newChild : NodeId) : Outcome Unit :=
  if (h.get self).ntype = .document then
    match (h.get newChild).owner with
    | none => .ok ()
    | some d =>
      if h.live d then
        if self = d then .ok () else .err .wrongDocument
      else .panic .unwrap
  else
    match (h.get self).owner, (h.get newChild).owner with
    | none, none => .ok ()
    | some _, none => .ok ()
    | none, some _ => .err .wrongDocument
    | some a, some b =>
      if h.live a then
        if h.live b then
          if a = b then .ok () else .err .wrongDocument
        else .panic .unwrap
      else .panic .unwrap

/-- `Node::remove_child`, `/repo/src/level2/trait_impls.rs` 1033-1056. -/
def removeChild (h : Heap) (self oldChild : NodeId) : Result NodeId :=
  match position oldChild (h.get self).children with
  | none => (.err .notFound, h)
  | some i =>
    let h1 := h.set self { h.get self with children := (h.get self).children.eraseIdx i }
    let h2 := h1.set oldChild { h1.get oldChild with parent := none }
    (.ok oldChild, h2)

/-- `insert_or_append` inside `insert_before`, `/repo/src/level2/trait_impls.rs` 918-929.
`Vec::insert` panics past the end. -/
def insertOrAppend (h : Heap) (parent newChild : NodeId) (pos : Option Nat) : Result Unit :=
  match pos with
  | none =>
    (.ok (), h.set parent { h.get parent with children := (h.get parent).children ++ [newChild] })
  | some i =>
    if i ≤ (h.get parent).children.length then
      (.ok (), h.set parent
        { h.get parent with children := (h.get parent).children.insertIdx i newChild })
    else (.panic .index, h)

/-- The document fragment loop of `insert_before`, `/repo/src/level2/trait_impls.rs`
1000-1005; `index` is the loop counter. -/
def insertFragment (h : Heap) (parent : NodeId) (pos : Option Nat) (index : Nat) :
    List NodeId → Result Unit
  | [] => (.ok (), h)
  | c :: cs =>
    match insertOrAppend h parent c (pos.map (· + index)) with
    | (.ok _, h1) => insertFragment h1 parent pos (index + 1) cs
    | r => r

/-- The part of `insert_before` after the detach step, `/repo/src/level2/trait_impls.rs`
981-1011. Borrowing `self` while mutably borrowing `new_child` panics when they are the
same node. -/
def placeChild (h : Heap) (self newChild : NodeId) (pos : Option Nat) : Result NodeId :=
  if self = newChild then (.panic .borrow, h)
  else
    let owner := if (h.get self).ntype = .document then some self else (h.get self).owner
    let h1 := h.set newChild { h.get newChild with parent := some self, owner := owner }
    let r :=
      if (h1.get newChild).ntype = .documentFragment then
        insertFragment h1 self pos 0 (h1.get newChild).children
      else insertOrAppend h1 self newChild pos
    match r with
    | (.ok _, h2) => (.ok newChild, h2)
    | (.err e, h2) => (.err e, h2)
    | (.panic k, h2) => (.panic k, h2)
    | (.diverge, h2) => (.diverge, h2)

/-- Where `insert_before` will insert, `/repo/src/level2/trait_impls.rs` 951-966: `none`
when the reference child is given but not among the children. -/
def insertPosition (h : Heap) (self : NodeId) (refChild : Option NodeId) : Option (Option Nat) :=
  match refChild with
  | none => some none
  | some r =>
    match position r (h.get self).children with
    | none => none
    | some i => some (some i)

/-- `Node::insert_before`, `/repo/src/level2/trait_impls.rs` 917-1012. -/
def insertBefore (h : Heap) (self newChild : NodeId) (refChild : Option NodeId) :
    Result NodeId :=
  if isChildAllowed (h.get self).ntype (h.get newChild).ntype = false then
    (.err .hierarchyRequest, h)
  else if (h.get self).ntype = .document ∧ (h.get newChild).ntype = .element
      ∧ (h.get self).children.any (fun c => decide ((h.get c).ntype = .element)) = true then
    (.err .hierarchyRequest, h)
  else
    match insertPosition h self refChild with
    | none => (.err .notFound, h)
    | some pos =>
      match checkSameDocument h self newChild with
      | .err e => (.err e, h)
      | .panic k => (.panic k, h)
      | .diverge => (.diverge, h)
      | .ok _ =>
        match parentNode h newChild with
        | none => placeChild h self newChild pos
        | some p =>
          match removeChild h p newChild with
          | (.ok _, h1) => placeChild h1 self newChild pos
          | r => r

/-- `Node::append_child`, `/repo/src/level2/trait_impls.rs` 1058-1060. -/
def appendChild (h : Heap) (self newChild : NodeId) : Result NodeId :=
  insertBefore h self newChild none

/-- `Node::replace_child`, `/repo/src/level2/trait_impls.rs` 1014-1031. -/
def replaceChild (h : Heap) (self newChild oldChild : NodeId) : Result NodeId :=
  if isChildAllowed (h.get self).ntype (h.get newChild).ntype = false then
    (.err .hierarchyRequest, h)
  else if oldChild ∈ (h.get self).children then
    let nextNode := nextSibling h oldChild
    match removeChild h self oldChild with
    | (.ok removed, h1) =>
      match insertBefore h1 self newChild nextNode with
      | (.ok _, h2) => (.ok removed, h2)
      | r => r
    | r => r
  else (.err .notFound, h)

/-! ## Values and character data -/

/-- `Node::set_node_value`, `/repo/src/level2/trait_impls.rs` 795-799. -/
def setNodeValue (h : Heap) (n : NodeId) (v : Str) : Result Unit :=
  (.ok (), h.set n { h.get n with value := some v })

/-- `Node::unset_node_value`, `/repo/src/level2/trait_impls.rs` 801-805. -/
def unsetNodeValue (h : Heap) (n : NodeId) : Result Unit :=
  (.ok (), h.set n { h.get n with value := none })

/-- `CharacterData::data`, `/repo/src/level2/traits.rs` 157-168. -/
def charData (h : Heap) (n : NodeId) : Option Str :=
  match (h.get n).value with
  | none => none
  | some v =>
    if (h.get n).ntype = .text ∨ (h.get n).ntype = .comment then some (escape v) else some v

/-- `CharacterData::length`, `/repo/src/level2/traits.rs` 132-137. -/
def charLength (h : Heap) (n : NodeId) : Nat :=
  match charData h n with
  | none => 0
  | some s => byteLen s

/-- Store a new value if one was computed. -/
def storeValue (h : Heap) (n : NodeId) (r : Outcome (Option Str)) : Result Unit :=
  match r with
  | .ok v => (.ok (), h.set n { h.get n with value := v })
  | .err e => (.err e, h)
  | .panic k => (.panic k, h)
  | .diverge => (.diverge, h)

/-- `CharacterData::substring_data` on a node, `/repo/src/level2/trait_impls.rs`
144-165. -/
def nodeSubstringData (ov : Bool) (h : Heap) (n : NodeId) (offset count : Nat) : Outcome Str :=
  substringData ov (h.get n).value offset count

/-- `CharacterData::append_data` on a node, `/repo/src/level2/trait_impls.rs` 167-177. -/
def nodeAppendData (h : Heap) (n : NodeId) (data : Str) : Result Unit :=
  (.ok (), h.set n { h.get n with value := appendData (h.get n).value data })

/-- `CharacterData::insert_data` on a node, `/repo/src/level2/trait_impls.rs` 179-184. -/
def nodeInsertData (ov : Bool) (h : Heap) (n : NodeId) (offset : Nat) (data : Str) :
    Result Unit :=
  storeValue h n (insertData ov (h.get n).value offset data)

/-- `CharacterData::delete_data` on a node, `/repo/src/level2/trait_impls.rs` 186-192. -/
def nodeDeleteData (ov : Bool) (h : Heap) (n : NodeId) (offset count : Nat) : Result Unit :=
  storeValue h n (deleteData ov (h.get n).value offset count)

/-- `CharacterData::replace_data` on a node, `/repo/src/level2/trait_impls.rs` 194-222. -/
def nodeReplaceData (ov : Bool) (h : Heap) (n : NodeId) (offset count : Nat) (data : Str) :
    Result Unit :=
  storeValue h n (replaceData ov (h.get n).value offset count data)

/-- The loop of `Node::normalize`, `/repo/src/level2/trait_impls.rs` 1072-1095, over the
snapshot of the child list taken at the start. -/
def normalizeLoop (self : NodeId) : List NodeId → Heap → Result Unit
  | [], h => (.ok (), h)
  | c :: cs, h =>
    if (h.get c).ntype = .text then
      if charLength h c = 0 then
        match removeChild h self c with
        | (.ok _, h1) => normalizeLoop self cs h1
        | (_, h1) => (.panic .explicit, h1)
      else
        match previousSibling h c with
        | none => normalizeLoop self cs h
        | some l =>
          if (h.get l).ntype = .text then
            match (h.get c).value with
            | none => (.panic .unwrap, h)
            | some v =>
              let h1 := (nodeAppendData h l v).2
              match removeChild h1 self c with
              | (.ok _, h2) => normalizeLoop self cs h2
              | (_, h2) => (.panic .explicit, h2)
          else normalizeLoop self cs h
    else normalizeLoop self cs h

/-- `Node::normalize`, `/repo/src/level2/trait_impls.rs` 1072-1095. -/
def normalize (h : Heap) (self : NodeId) : Result Unit :=
  normalizeLoop self (h.get self).children h

/-- The second half of `Text::split`, `/repo/src/level2/trait_impls.rs` 1141-1165: create
the new node and insert it after `self`. -/
def splitTail (h : Heap) (self : NodeId) (newData : Str) : Result NodeId :=
  let mk (x : Node) : Result NodeId :=
    let r := h.alloc x
    match parentNode r.2 self with
    | none => (.ok r.1, r.2)
    | some p =>
      match insertBefore r.2 p r.1 (nextSibling r.2 self) with
      | (.ok _, h2) => (.ok r.1, h2)
      | q => q
  match (h.get self).ntype with
  | .text =>
    match (h.get self).owner with
    | none => (.panic .unwrap, h)
    | some d => mk (Node.newText d newData)
  | .cdata =>
    match (h.get self).owner with
    | none => (.panic .unwrap, h)
    | some d => mk (Node.newCdata d newData)
  | _ => (.err .syntax, h)

/-- `as_character_data` and `as_character_data_mut` accept these types,
`/repo/src/level2/convert.rs` 81-113. -/
def isCharacterData (t : NodeType) : Bool :=
  match t with
  | .cdata | .comment | .text => true
  | _ => false

/-- `Text::split`, `/repo/src/level2/trait_impls.rs` 1124-1166. -/
def splitText (ov : Bool) (h : Heap) (self : NodeId) (offset : Nat) : Result NodeId :=
  if isCharacterData (h.get self).ntype = false then (.err .invalidState, h)
  else
    let length := charLength h self
    if length ≤ offset then splitTail h self []
    else
      let count := length - offset
      match nodeSubstringData ov h self offset count with
      | .err e => (.err e, h)
      | .panic k => (.panic k, h)
      | .diverge => (.diverge, h)
      | .ok newData =>
        match nodeDeleteData ov h self offset count with
        | (.ok _, h1) => splitTail h1 self newData
        | (.err e, h1) => (.err e, h1)
        | (.panic k, h1) => (.panic k, h1)
        | (.diverge, h1) => (.diverge, h1)

/-! ## Attribute values -/

/-- What one child contributes to the value, `/repo/src/level2/trait_impls.rs` 83-96. -/
def attrChildText (x : Node) : Str :=
  if x.ntype = .entityReference then
    match x.value with
    | some v => v
    | none => []
  else if x.ntype = .text then
    match x.value with
    | some v => v
    | none => []
  else []

/-- The raw concatenation in `Attribute::value`, `/repo/src/level2/trait_impls.rs`
82-97. -/
def attrRaw (h : Heap) (a : NodeId) : Str :=
  (h.get a).children.flatMap fun c => attrChildText (h.get c)

/-- The document type that `EntityResolver::resolve` looks at,
`/repo/src/level2/entity_resolver.rs` 15-28. `as_document(..).unwrap()` panics when the
owner is not a document. -/
def resolverDocType (h : Heap) (n : NodeId) : Outcome (Option NodeId) :=
  let docTypeOf (d : NodeId) : Option NodeId :=
    match (h.get d).ext with
    | .document x => x.docType
    | _ => none
  match (h.get n).ntype with
  | .documentType => .ok (some n)
  | .document => .ok (docTypeOf n)
  | _ =>
    match ownerDocument h n with
    | none => .ok none
    | some d => if (h.get d).ntype = .document then .ok (docTypeOf d) else .panic .unwrap

/-- `EntityResolver::resolve`, `/repo/src/level2/entity_resolver.rs` 14-41. -/
def resolveEntity (h : Heap) (n : NodeId) (entity : Str) : Outcome (Option Str) :=
  (resolverDocType h n).bind fun dt =>
    match dt with
    | none => .ok none
    | some t =>
      if (h.get t).ntype = .documentType then
        match Name.fromStr entity with
        | .ok name =>
          match (h.get t).ext with
          | .documentType x =>
            match mapGet name x.entities with
            | none => .ok none
            | some e => .ok (h.get e).value
          | _ => .ok none
        | .err _ => .panic .unwrap
        | .panic k => .panic k
        | .diverge => .diverge
      else .panic .unwrap

/-- `Attribute::value`, `/repo/src/level2/trait_impls.rs` 80-103. One level of fuel for
nested replacement texts is enough because `resolveEntity` never yields a replacement
text for the references the scanner finds (lemma `resolveEntity_ne_some`). -/
def attrValue (u : Uni) (h : Heap) (a : NodeId) : Outcome (Option Str) :=
  if (h.get a).children = [] then .ok none
  else
    (normalizeAttrValue u (resolveEntity h a) false 1 (attrRaw h a)).map fun s =>
      some (escape s)

/-- `Attribute::unset_value`, `/repo/src/level2/trait_impls.rs` 111-115. The children
keep their parent links. -/
def unsetValue (h : Heap) (a : NodeId) : Result Unit :=
  (.ok (), h.set a { h.get a with children := [] })

/-- `Attribute::set_value`, `/repo/src/level2/trait_impls.rs` 104-110. -/
def setValue (h : Heap) (a : NodeId) (v : Str) : Result Unit :=
  let h1 := (unsetValue h a).2
  match ownerDocument h1 a with
  | none => (.panic .unwrap, h1)
  | some d =>
    if (h1.get d).ntype = .document then
      let r := h1.alloc (Node.newText d v)
      match appendChild r.2 a r.1 with
      | (.ok _, h2) => (.ok (), h2)
      | (.err e, h2) => (.err e, h2)
      | (.panic k, h2) => (.panic k, h2)
      | (.diverge, h2) => (.diverge, h2)
    else (.panic .unwrap, h1)

end XmlDom
