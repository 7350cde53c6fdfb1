import Verif.Model.Ops
import Verif.Model.Display

/-!
# The calls with their `RefCell` guards

Every node lives in a `RefCell`. `borrow()` panics while an exclusive guard of the same
cell is alive and `borrow_mut()` panics while any guard of it is alive
(`/repo/src/shared/rc_cell.rs` 65-71). The other model files write the outcome of a call
as a function of the heap and put a panic where such a conflict is expected. This file
writes the calls again, statement by statement, with every guard the source takes and for
as long as the source keeps it. `Verif/Props/Cell.lean` proves that both agree.

A guard is an entry of a list that is passed down: no function of the crate returns or
stores a guard, so guards are released in the reverse order of taking them, at the end of
the block that took them, also when the block is left early. `warn!` lines are left out.
-/

namespace XmlDom.Cell

/-- A live guard: the cell and whether the guard is exclusive (`RefMut`). -/
abbrev Guard := NodeId × Bool

/-- A piece of the program: given the live guards and the heap, an outcome and a heap. -/
def Prog (α : Type) := List Guard → Heap → Result α

/-- Sequencing; `?` passes errors on and a panic unwinds. -/
def Prog.bind {α β : Type} (p : Prog α) (f : α → Prog β) : Prog β := fun g h =>
  match p g h with
  | (.ok a, h1) => f a g h1
  | (.err e, h1) => (.err e, h1)
  | (.panic k, h1) => (.panic k, h1)
  | (.diverge, h1) => (.diverge, h1)

instance : Monad Prog where
  pure a := fun _ h => (.ok a, h)
  bind := Prog.bind

/-- Go on with an outcome computed without touching a node. -/
def lift {α : Type} (o : Outcome α) : Prog α := fun _ h => (o, h)

/-- Return an error. -/
def fail {α : Type} (e : DomError) : Prog α := lift (.err e)

/-- Panic. -/
def abort {α : Type} (k : PanicKind) : Prog α := lift (.panic k)

/-- `RcRefCell::borrow`, `/repo/src/shared/rc_cell.rs` 65-67, with the block in which the
guard lives. -/
def withRef {α : Type} (n : NodeId) (p : Prog α) : Prog α := fun g h =>
  if (n, true) ∈ g then (.panic .borrow, h) else p ((n, false) :: g) h

/-- `RcRefCell::borrow_mut`, `/repo/src/shared/rc_cell.rs` 69-71, with the block in which
the guard lives. -/
def withMut {α : Type} (n : NodeId) (p : Prog α) : Prog α := fun g h =>
  if (n, true) ∈ g ∨ (n, false) ∈ g then (.panic .borrow, h) else p ((n, true) :: g) h

/-- Look at a node through a guard of it. Without a guard the Rust program would not
compile. -/
def load (n : NodeId) : Prog Node := fun g h =>
  if (n, true) ∈ g ∨ (n, false) ∈ g then (.ok (h.get n), h) else (.panic .explicit, h)

/-- Overwrite a node through an exclusive guard of it. -/
def store (n : NodeId) (x : Node) : Prog Unit := fun g h =>
  if (n, true) ∈ g then (.ok (), h.set n x) else (.panic .explicit, h)

/-- `WeakRefCell::upgrade`, `/repo/src/shared/rc_cell.rs` 91-93; takes no guard. -/
def upgrade (w : Option NodeId) : Prog (Option NodeId) := fun _ h => (.ok (h.upgrade w), h)

/-- `RefNode::new`. -/
def alloc (x : Node) : Prog NodeId := fun _ h => (.ok (h.alloc x).1, (h.alloc x).2)

/-- `Option::unwrap`. -/
def unwrapSome {α : Type} : Option α → Prog α
  | some a => pure a
  | none => abort .unwrap

/-- `Result::unwrap` on the result of a call. -/
def unwrapOk {α : Type} (p : Prog α) : Prog α := fun g h =>
  match p g h with
  | (.err _, h1) => (.panic .unwrap, h1)
  | r => r

/-- `if call.is_err() { panic!(..) }`. -/
def orPanic {α : Type} (p : Prog α) : Prog Unit := fun g h =>
  match p g h with
  | (.ok _, h1) => (.ok (), h1)
  | (.err _, h1) => (.panic .explicit, h1)
  | (.panic k, h1) => (.panic k, h1)
  | (.diverge, h1) => (.diverge, h1)

/-- `let ref_self = self.borrow(); ref_self.i_field.clone()`. -/
def read {α : Type} (n : NodeId) (f : Node → α) : Prog α :=
  withRef n do
    let x ← load n
    pure (f x)

/-! ## Conversions, `/repo/src/shared/convert.rs` 17-76 and
`/repo/src/level2/convert.rs` 81-121 -/

/-- The `is_*` functions. -/
def isType (t : NodeType) (n : NodeId) : Prog Bool := read n fun x => decide (x.ntype = t)

/-- The `as_*` functions; the guard is a temporary of the `if` condition. -/
def asType (t : NodeType) (n : NodeId) : Prog Unit := do
  if ← isType t n then pure () else fail .invalidState

/-- `as_character_data` and `as_character_data_mut`. -/
def asCharacterData (n : NodeId) : Prog Unit := do
  if ← read n fun x => isCharacterData x.ntype then pure () else fail .invalidState

/-! ## `Node`, reading part, `/repo/src/level2/trait_impls.rs` 785-915 -/

/-- `Node::node_name`, `/repo/src/level2/trait_impls.rs` 785-788. -/
def nodeName (n : NodeId) : Prog Name := read n (·.name)

/-- `Node::node_value`, `/repo/src/level2/trait_impls.rs` 790-793. -/
def nodeValue (n : NodeId) : Prog (Option Str) := read n (·.value)

/-- `Node::node_type`, `/repo/src/level2/trait_impls.rs` 807-810. -/
def nodeType (n : NodeId) : Prog NodeType := read n (·.ntype)

/-- `Node::parent_node`, `/repo/src/level2/trait_impls.rs` 812-821. -/
def parentNode (n : NodeId) : Prog (Option NodeId) := do
  if ← isType .attribute n then pure none
  else withRef n do
    let x ← load n
    match x.parent with
    | none => pure none
    | some w => upgrade (some w)

/-- `Node::child_nodes`, `/repo/src/level2/trait_impls.rs` 823-826. -/
def childNodes (n : NodeId) : Prog (List NodeId) := read n (·.children)

/-- `Node::first_child`, `/repo/src/level2/trait_impls.rs` 828-831. -/
def firstChild (n : NodeId) : Prog (Option NodeId) := read n (·.children.head?)

/-- `Node::last_child`, `/repo/src/level2/trait_impls.rs` 833-836. -/
def lastChild (n : NodeId) : Prog (Option NodeId) := read n (·.children.getLast?)

/-- `Node::previous_sibling`, `/repo/src/level2/trait_impls.rs` 838-869: the guard of the
node is kept while the parent is borrowed. -/
def previousSibling (n : NodeId) : Prog (Option NodeId) := do
  if ← isType .attribute n then pure none
  else withRef n do
    let x ← load n
    match x.parent with
    | none => pure none
    | some w =>
      match ← upgrade (some w) with
      | none => pure none
      | some p => withRef p do
        let y ← load p
        match position n y.children with
        | none => pure none
        | some i => if i = 0 then pure none else pure y.children[i - 1]?

/-- `Node::next_sibling`, `/repo/src/level2/trait_impls.rs` 871-898. -/
def nextSibling (n : NodeId) : Prog (Option NodeId) := do
  if ← isType .attribute n then pure none
  else withRef n do
    let x ← load n
    match x.parent with
    | none => pure none
    | some w =>
      match ← upgrade (some w) with
      | none => pure none
      | some p => withRef p do
        let y ← load p
        match position n y.children with
        | none => pure none
        | some i => pure y.children[i + 1]?

/-- `Node::attributes`, `/repo/src/level2/trait_impls.rs` 900-907. -/
def attributes (n : NodeId) : Prog (List (Name × NodeId)) := do
  if ← isType .element n then
    read n fun x => match x.ext with
      | .element attrs _ => attrs
      | _ => []
  else pure []

/-- `Node::owner_document`, `/repo/src/level2/trait_impls.rs` 909-915. -/
def ownerDocument (n : NodeId) : Prog (Option NodeId) :=
  withRef n do
    let x ← load n
    match x.owner with
    | none => pure none
    | some w => upgrade (some w)

/-- `Node::has_child_nodes`, `/repo/src/level2/trait_impls.rs` 1062-1064. -/
def hasChildNodes (n : NodeId) : Prog Bool := do
  let cs ← childNodes n
  pure (!cs.isEmpty)

/-- `Node::has_attributes`, `/repo/src/level2/trait_impls.rs` 1101-1103. -/
def hasAttributes (n : NodeId) : Prog Bool := do
  let m ← attributes n
  pure (!m.isEmpty)

/-- `Attribute::owner_element`, `/repo/src/level2/trait_impls.rs` 116-134. -/
def ownerElement (n : NodeId) : Prog (Option NodeId) :=
  withRef n do
    let x ← load n
    match x.ext with
    | .attribute w => upgrade w
    | _ => pure none

/-! ## Tree editing, `/repo/src/level2/trait_impls.rs` 917-1060 and 1212-1321 -/

/-- `is_child_allowed`, `/repo/src/level2/trait_impls.rs` 1267-1321: both guards live to
the end of the function. -/
def isChildAllowed (parent child : NodeId) : Prog Bool :=
  withRef parent do
    let x ← load parent
    withRef child do
      let y ← load child
      pure (XmlDom.isChildAllowed x.ntype y.ntype)

/-- `check_same_document`, `/repo/src/level2/trait_impls.rs` 1212-1245. -/
def checkSameDocument (self newChild : NodeId) : Prog Unit := do
  if (← nodeType self) = .document then
    withRef newChild do
      let x ← load newChild
      match x.owner with
      | none => pure ()
      | some w =>
        let d ← unwrapSome (← upgrade (some w))
        if self = d then pure () else fail .wrongDocument
  else
    withRef self do
      let s ← load self
      withRef newChild do
        let x ← load newChild
        match s.owner, x.owner with
        | none, none => pure ()
        | some _, none => pure ()
        | none, some _ => fail .wrongDocument
        | some v, some w =>
          let a ← unwrapSome (← upgrade (some v))
          let b ← unwrapSome (← upgrade (some w))
          if a = b then pure () else fail .wrongDocument

/-- `Node::remove_child`, `/repo/src/level2/trait_impls.rs` 1033-1056. -/
def removeChild (self oldChild : NodeId) : Prog NodeId := do
  let pos ← read self fun x => position oldChild x.children
  match pos with
  | none => fail .notFound
  | some i =>
    withMut self do
      let x ← load self
      store self { x with children := x.children.eraseIdx i }
    withMut oldChild do
      let y ← load oldChild
      store oldChild { y with parent := none }
      pure oldChild

/-- `insert_or_append`, `/repo/src/level2/trait_impls.rs` 918-929. -/
def insertOrAppend (parent newChild : NodeId) (pos : Option Nat) : Prog Unit :=
  withMut parent do
    let x ← load parent
    match pos with
    | none => store parent { x with children := x.children ++ [newChild] }
    | some i =>
      if i ≤ x.children.length then
        store parent { x with children := x.children.insertIdx i newChild }
      else abort .index

/-- The fragment loop, `/repo/src/level2/trait_impls.rs` 1001-1006. -/
def insertFragment (parent : NodeId) (pos : Option Nat) (index : Nat) :
    List NodeId → Prog Unit
  | [] => pure ()
  | c :: cs => do
    insertOrAppend parent c (pos.map (· + index))
    insertFragment parent pos (index + 1) cs

/-- The test of the child types of a document, `/repo/src/level2/trait_impls.rs` 941-944:
each `node_type` is a guard of its own; `any` stops at the first element. -/
def anyElement : List NodeId → Prog Bool
  | [] => pure false
  | c :: cs => do
    if (← nodeType c) = .element then pure true else anyElement cs

/-- The test for a second element of a document, `/repo/src/level2/trait_impls.rs`
939-948. -/
def secondElement (self newChild : NodeId) : Prog Bool := do
  if ← isType .document self then
    if ← isType .element newChild then anyElement (← childNodes self) else pure false
  else pure false

/-- The search for the reference child, `/repo/src/level2/trait_impls.rs` 953-967. -/
def insertPosition (self : NodeId) (refChild : Option NodeId) : Prog (Option Nat) :=
  match refChild with
  | none => pure none
  | some r => withRef self do
    let x ← load self
    match position r x.children with
    | none => fail .notFound
    | some i => pure (some i)

/-- Lines 984-1011 of `insert_before`: the shared guard of `self` is alive when the
exclusive guard of the new child is taken. -/
def placeChild (self newChild : NodeId) (pos : Option Nat) : Prog NodeId := do
  withRef self do
    let s ← load self
    withMut newChild do
      let x ← load newChild
      store newChild { x with parent := some self }
      if ← isType .document self then
        let x ← load newChild
        store newChild { x with owner := some self }
      else
        let x ← load newChild
        store newChild { x with owner := s.owner }
  if ← isType .documentFragment newChild then
    insertFragment self pos 0 (← childNodes newChild)
  else insertOrAppend self newChild pos
  pure newChild

/-- `Node::insert_before`, `/repo/src/level2/trait_impls.rs` 917-1012. -/
def insertBefore (self newChild : NodeId) (refChild : Option NodeId) : Prog NodeId := do
  if ← isChildAllowed self newChild then
    if ← secondElement self newChild then fail .hierarchyRequest
    else
      let pos ← insertPosition self refChild
      checkSameDocument self newChild
      match ← parentNode newChild with
      | none => placeChild self newChild pos
      | some p =>
        let _ ← removeChild p newChild
        placeChild self newChild pos
  else fail .hierarchyRequest

/-- `Node::append_child`, `/repo/src/level2/trait_impls.rs` 1058-1060. -/
def appendChild (self newChild : NodeId) : Prog NodeId := insertBefore self newChild none

/-- `Node::replace_child`, `/repo/src/level2/trait_impls.rs` 1014-1031. -/
def replaceChild (self newChild oldChild : NodeId) : Prog NodeId := do
  if ← isChildAllowed self newChild then
    if ← read self fun x => decide (oldChild ∈ x.children) then
      let next ← nextSibling oldChild
      let removed ← removeChild self oldChild
      let _ ← insertBefore self newChild next
      pure removed
    else fail .notFound
  else fail .hierarchyRequest

/-! ## Values and character data -/

/-- `Node::set_node_value`, `/repo/src/level2/trait_impls.rs` 795-799. -/
def setNodeValue (n : NodeId) (v : Str) : Prog Unit :=
  withMut n do
    let x ← load n
    store n { x with value := some v }

/-- `Node::unset_node_value`, `/repo/src/level2/trait_impls.rs` 801-805. -/
def unsetNodeValue (n : NodeId) : Prog Unit :=
  withMut n do
    let x ← load n
    store n { x with value := none }

/-- `CharacterData::data`, `/repo/src/level2/traits.rs` 157-168. -/
def charData (n : NodeId) : Prog (Option Str) := do
  let t ← nodeType n
  match ← nodeValue n with
  | none => pure none
  | some v => if t = .text ∨ t = .comment then pure (some (escape v)) else pure (some v)

/-- `CharacterData::length`, `/repo/src/level2/traits.rs` 132-137. -/
def charLength (n : NodeId) : Prog Nat := do
  match ← charData n with
  | none => pure 0
  | some s => pure (byteLen s)

/-- `CharacterData::substring_data`, `/repo/src/level2/trait_impls.rs` 144-165.
Simplification here and in the three functions below: the guard is taken before the tests
that can return early, so the real program conflicts at most as often. -/
def substringData (ov : Bool) (n : NodeId) (offset count : Nat) : Prog Str :=
  withRef n do
    let x ← load n
    lift (XmlDom.substringData ov x.value offset count)

/-- `CharacterData::append_data`, `/repo/src/level2/trait_impls.rs` 167-177. -/
def appendData (n : NodeId) (data : Str) : Prog Unit :=
  withMut n do
    let x ← load n
    store n { x with value := XmlDom.appendData x.value data }

/-- `CharacterData::insert_data`, `/repo/src/level2/trait_impls.rs` 179-184. -/
def insertData (ov : Bool) (n : NodeId) (offset : Nat) (data : Str) : Prog Unit :=
  withMut n do
    let x ← load n
    let v ← lift (XmlDom.insertData ov x.value offset data)
    store n { x with value := v }

/-- `CharacterData::delete_data`, `/repo/src/level2/trait_impls.rs` 186-192. -/
def deleteData (ov : Bool) (n : NodeId) (offset count : Nat) : Prog Unit :=
  withMut n do
    let x ← load n
    let v ← lift (XmlDom.deleteData ov x.value offset count)
    store n { x with value := v }

/-- `CharacterData::replace_data`, `/repo/src/level2/trait_impls.rs` 194-222. -/
def replaceData (ov : Bool) (n : NodeId) (offset count : Nat) (data : Str) : Prog Unit :=
  withMut n do
    let x ← load n
    let v ← lift (XmlDom.replaceData ov x.value offset count data)
    store n { x with value := v }

/-- The loop of `Node::normalize`, `/repo/src/level2/trait_impls.rs` 1073-1094. -/
def normalizeLoop (self : NodeId) : List NodeId → Prog Unit
  | [] => pure ()
  | c :: cs => do
    if ← isType .text c then
      if (← charLength c) = 0 then
        orPanic (removeChild self c)
        normalizeLoop self cs
      else
        match ← previousSibling c with
        | none => normalizeLoop self cs
        | some l =>
          if ← isType .text l then
            let v ← unwrapSome (← nodeValue c)
            orPanic (appendData l v)
            orPanic (removeChild self c)
            normalizeLoop self cs
          else normalizeLoop self cs
    else normalizeLoop self cs

/-- `Node::normalize`, `/repo/src/level2/trait_impls.rs` 1072-1095. -/
def normalize (self : NodeId) : Prog Unit := do
  normalizeLoop self (← childNodes self)

/-- The data of the new node in `Text::split`, `/repo/src/level2/trait_impls.rs`
1126-1137. -/
def splitData (ov : Bool) (self : NodeId) (offset : Nat) : Prog Str := do
  asCharacterData self
  let length ← charLength self
  if length ≤ offset then pure []
  else
    let newData ← substringData ov self offset (length - offset)
    deleteData ov self offset (length - offset)
    pure newData

/-- The new node of `Text::split` and its insertion, `/repo/src/level2/trait_impls.rs`
1139-1164: the exclusive guard ends with the block that makes the node. -/
def splitTail (self : NodeId) (newData : Str) : Prog NodeId := do
  let newNode ← withMut self do
    let x ← load self
    match x.ntype with
    | .text => do
      let d ← unwrapSome x.owner
      pure (Node.newText d newData)
    | .cdata => do
      let d ← unwrapSome x.owner
      pure (Node.newCdata d newData)
    | _ => fail .syntax
  let new ← alloc newNode
  match ← parentNode self with
  | none => pure new
  | some p =>
    let next ← nextSibling self
    let _ ← insertBefore p new next
    pure new

/-- `Text::split`, `/repo/src/level2/trait_impls.rs` 1124-1165. -/
def splitText (ov : Bool) (self : NodeId) (offset : Nat) : Prog NodeId := do
  splitTail self (← splitData ov self offset)

/-! ## Attribute values -/

/-- `Document::doc_type`, `/repo/src/level2/trait_impls.rs` 232-234. -/
def docType (n : NodeId) : Prog (Option NodeId) := read n fun x =>
  match x.ext with
  | .document d => d.docType
  | _ => none

/-- The document type `EntityResolver::resolve` looks at,
`/repo/src/level2/entity_resolver.rs` 15-28. -/
def resolverDocType (n : NodeId) : Prog (Option NodeId) := do
  match ← nodeType n with
  | .documentType => pure (some n)
  | .document => do
    unwrapOk (asType .document n)
    docType n
  | _ => do
    match ← ownerDocument n with
    | none => pure none
    | some d =>
      unwrapOk (asType .document d)
      docType d

/-- `DocumentType::entities`, `/repo/src/level2/trait_impls.rs` 372-374. -/
def entities (n : NodeId) : Prog (List (Name × NodeId)) := read n fun x =>
  match x.ext with
  | .documentType d => d.entities
  | _ => []

/-- `EntityResolver::resolve`, `/repo/src/level2/entity_resolver.rs` 14-41. -/
def resolveEntity (n : NodeId) (entity : Str) : Prog (Option Str) := do
  match ← resolverDocType n with
  | none => pure none
  | some t =>
    unwrapOk (asType .documentType t)
    let name ← unwrapOk (lift (Name.fromStr entity))
    match mapGet name (← entities t) with
    | none => pure none
    | some e => nodeValue e

/-- The concatenation loop of `Attribute::value`, `/repo/src/level2/trait_impls.rs`
83-97. -/
def attrRaw : List NodeId → Prog Str
  | [] => pure []
  | c :: cs => do
    let s ← (do
      if (← nodeType c) = .entityReference then
        match ← nodeValue c with
        | some v => pure v
        | none => pure []
      else if (← nodeType c) = .text then
        withRef c do
          let x ← load c
          match x.value with
          | some v => pure v
          | none => pure []
      else pure [])
    let t ← attrRaw cs
    pure (s ++ t)

/-- The normalization of the raw value of an attribute, `/repo/src/shared/text.rs` 40-75:
the scan borrows nothing itself, the resolver it is given borrows the nodes it looks at. -/
def normalizeValue (u : Uni) (a : NodeId) (raw : Str) : Prog Str := fun g h =>
  (normalizeAttrValue u (fun m => (resolveEntity a m g h).1) false 1 raw, h)

/-- `Attribute::value`, `/repo/src/level2/trait_impls.rs` 80-103. The resolver runs under
the guards that are alive when the value is asked for. -/
def attrValue (u : Uni) (a : NodeId) : Prog (Option Str) := do
  if ← hasChildNodes a then
    let raw ← attrRaw (← childNodes a)
    let s ← normalizeValue u a raw
    pure (some (escape s))
  else pure none

/-- `Attribute::unset_value`, `/repo/src/level2/trait_impls.rs` 111-115. -/
def unsetValue (a : NodeId) : Prog Unit :=
  withMut a do
    let x ← load a
    store a { x with children := [] }

/-- `Attribute::set_value`, `/repo/src/level2/trait_impls.rs` 104-110. -/
def setValue (a : NodeId) (v : Str) : Prog Unit := do
  unsetValue a
  let d ← unwrapSome (← ownerDocument a)
  unwrapOk (asType .document d)
  let t ← alloc (Node.newText d v)
  let _ ← appendChild a t
  pure ()

/-! ## Namespaces, `/repo/src/level2/ext/namespaced.rs` 88-246 -/

/-- `add_namespaces`, `/repo/src/level2/ext/namespaced.rs` 88-98. -/
def addNamespaces (n : NodeId) : Prog Bool := do
  match ← ownerDocument n with
  | none => pure false
  | some d => read d fun x =>
    match x.ext with
    | .document y => y.options.hasAddNamespaces
    | _ => false

/-- The namespace map read through one guard. -/
def nsMapOf (x : Node) : Option (List (Option Str × Str)) :=
  if x.ntype = .element then
    match x.ext with
    | .element _ nss => some nss
    | _ => none
  else none

/-- `Namespaced::contains_mapping`, `/repo/src/level2/ext/namespaced.rs` 101-117. -/
def containsMapping (n : NodeId) (pfx : Option Str) : Prog Bool := do
  if ← addNamespaces n then
    read n fun x => match nsMapOf x with
      | some m => (mapGet pfx m).isSome
      | none => false
  else pure false

/-- `Namespaced::get_namespace`, `/repo/src/level2/ext/namespaced.rs` 119-136. -/
def getNamespace (n : NodeId) (pfx : Option Str) : Prog (Option Str) := do
  if ← addNamespaces n then
    read n fun x => match nsMapOf x with
      | some m => mapGet pfx m
      | none => none
  else pure none

/-- `Namespaced::resolve_namespace`, `/repo/src/level2/ext/namespaced.rs` 138-156: the
guard of every node on the way up is kept until the walk ends. -/
def resolveNamespace : Nat → NodeId → Option Str → Prog (Option Str)
  | 0, _, _ => lift .diverge
  | fuel + 1, n, pfx => do
    if ← addNamespaces n then
      match ← getNamespace n pfx with
      | some u => pure (some u)
      | none => withRef n do
        let x ← load n
        match x.parent with
        | none => pure none
        | some w =>
          let p ← unwrapSome (← upgrade (some w))
          resolveNamespace fuel p pfx
    else pure none

/-- `Namespaced::get_prefix`, `/repo/src/level2/ext/namespaced.rs` 162-184. -/
def getPrefix (e : Env) (n : NodeId) (uri : Str) : Prog NamespacePrefix := do
  if ← addNamespaces n then
    read n fun x => match nsMapOf x with
      | some m =>
        match (e.nsOrder n m).find? (fun kv => decide (kv.2 = uri)) with
        | none => .none
        | some (some k, _) => .some k
        | some (none, _) => .default
      | none => .none
  else pure .none

/-- `Namespaced::resolve_prefix`, `/repo/src/level2/ext/namespaced.rs` 186-204. -/
def resolvePrefix (e : Env) : Nat → NodeId → Str → Prog NamespacePrefix
  | 0, _, _ => lift .diverge
  | fuel + 1, n, uri => do
    if ← addNamespaces n then
      match ← getPrefix e n uri with
      | .none => withRef n do
        let x ← load n
        match x.parent with
        | none => pure .none
        | some w =>
          let p ← unwrapSome (← upgrade (some w))
          resolvePrefix e fuel p uri
      | found => pure found
    else pure .none

/-- `MutNamespaced::insert_mapping`, `/repo/src/level2/ext/namespaced.rs` 208-228. -/
def insertMapping (n : NodeId) (pfx : Option Str) (uri : Str) : Prog Unit := do
  if ← addNamespaces n then
    withMut n do
      let x ← load n
      if x.ntype = .element then
        match x.ext with
        | .element attrs nss => store n { x with ext := .element attrs (mapInsert pfx uri nss) }
        | _ => fail .invalidState
      else fail .invalidState
  else pure ()

/-! ## Elements, `/repo/src/level2/trait_impls.rs` 428-757 -/

/-- `Element::get_attribute_node`, `/repo/src/level2/trait_impls.rs` 459-484. -/
def getAttributeNode (e : Env) (n : NodeId) (name : Str) : Prog (Option NodeId) := do
  if ← isType .element n then
    match Name.fromStr name with
    | .ok nm => read n fun x =>
      match x.ext with
      | .element attrs _ =>
        ((e.attrOrder n attrs).find? fun kv => decide (kv.1.display = nm.display)).map (·.2)
      | _ => none
    | .err _ => pure none
    | .panic k => abort k
    | .diverge => lift .diverge
  else pure none

/-- `Element::get_attribute_node_ns`, `/repo/src/level2/trait_impls.rs` 643-672. -/
def getAttributeNodeNs (e : Env) (n : NodeId) (uri localName : Str) : Prog (Option NodeId) := do
  if ← isType .element n then
    match Name.newNs uri localName with
    | .ok _ => read n fun x =>
      match x.ext with
      | .element attrs _ =>
        ((e.attrOrder n attrs).find? fun kv =>
          decide (kv.1.namespaceUri = some uri ∧ kv.1.localName = localName)).map (·.2)
      | _ => none
    | .err _ => pure none
    | .panic k => abort k
    | .diverge => lift .diverge
  else pure none

/-- The value part of `get_attribute` and `get_attribute_ns`,
`/repo/src/level2/trait_impls.rs` 430-439 and 609-618. -/
def attributeNodeValue (e : Env) : Option NodeId → Prog (Option Str)
  | none => pure none
  | some a => do
    if ← isType .attribute a then attrValue e.uni a else pure none

/-- `Element::get_attribute`, `/repo/src/level2/trait_impls.rs` 429-440. -/
def getAttribute (e : Env) (n : NodeId) (name : Str) : Prog (Option Str) := do
  attributeNodeValue e (← getAttributeNode e n name)

/-- `Element::get_attribute_ns`, `/repo/src/level2/trait_impls.rs` 608-619. -/
def getAttributeNs (e : Env) (n : NodeId) (uri localName : Str) : Prog (Option Str) := do
  attributeNodeValue e (← getAttributeNodeNs e n uri localName)

/-- `Element::has_attribute`, `/repo/src/level2/trait_impls.rs` 708-731. -/
def hasAttribute (e : Env) (n : NodeId) (name : Str) : Prog Bool := do
  if ← isType .element n then
    match Name.fromStr name with
    | .ok nm => read n fun x =>
      match x.ext with
      | .element attrs _ =>
        (e.attrOrder n attrs).any fun kv => decide (kv.1.display = nm.display)
      | _ => false
    | .err _ => pure false
    | .panic k => abort k
    | .diverge => lift .diverge
  else pure false

/-- `Element::has_attribute_ns`, `/repo/src/level2/trait_impls.rs` 733-757. -/
def hasAttributeNs (e : Env) (n : NodeId) (uri localName : Str) : Prog Bool := do
  if ← isType .element n then
    match Name.newNs uri localName with
    | .ok nm => read n fun x =>
      match x.ext with
      | .element attrs _ =>
        (e.attrOrder n attrs).any fun kv =>
          decide (kv.1.namespaceUri = nm.namespaceUri ∧ kv.1.localName = nm.localName)
      | _ => false
    | .err _ => pure false
    | .panic k => abort k
    | .diverge => lift .diverge
  else pure false

/-- Lines 505-520 of `set_attribute_node`: the namespace mapping. -/
def recordNamespace (u : Uni) (self attr : NodeId) (name : Name) : Prog Unit := do
  if name.isNamespaceAttribute then
    unwrapOk (asType .attribute attr)
    let uri ← unwrapSome (← attrValue u attr)
    unwrapOk (asType .element self)
    insertMapping self name.pfx uri
  else pure ()

/-- Lines 525-556 of `set_attribute_node`, run while `mut_self` is alive: the owner
document is borrowed exclusively and the value is computed under that guard as well. -/
def recordId (u : Uni) (self attr : NodeId) (name : Name) : Prog Unit := do
  unwrapOk (asType .attribute attr)
  let d ← unwrapSome (← ownerDocument attr)
  withMut d do
    let y ← load d
    let lax := match y.ext with
      | .document z => z.options.hasAssumeIds
      | _ => false
    if name.isIdAttribute lax then
      match y.ext with
      | .document z =>
        let id ← unwrapSome (← attrValue u attr)
        if (mapGet id z.idMap).isSome then fail .syntax
        else store d { y with ext := .document { z with idMap := mapInsert id self z.idMap } }
      | _ => pure ()
    else pure ()

/-- `Element::set_attribute_node`, `/repo/src/level2/trait_impls.rs` 486-565. -/
def setAttributeNode (e : Env) (self attr : NodeId) : Prog NodeId := do
  if ← isType .element self then
    if ← isType .attribute attr then
      checkSameDocument self attr
      withMut attr do
        let x ← load attr
        match x.ext with
        | .attribute _ => store attr { x with ext := .attribute (some self) }
        | _ => abort .explicit
      let name ← nodeName attr
      recordNamespace e.uni self attr name
      withMut self do
        let x ← load self
        match x.ext with
        | .element attrs nss =>
          let k ← nodeName attr
          store self { x with ext := .element (mapInsert k attr attrs) nss }
          recordId e.uni self attr name
          pure attr
        | _ => fail .syntax
    else fail .invalidState
  else fail .invalidState

/-- `NodeImpl::new_attribute`, `/repo/src/level2/node_impl.rs` 118-139: nodes are created
and nothing is borrowed. -/
def newAttribute (d : NodeId) (nm : Name) (value : Option Str) : Prog NodeId := fun _ h =>
  (.ok (h.newAttribute d nm value).1, (h.newAttribute d nm value).2)

/-- The creation part of `set_attribute` and `set_attribute_ns`,
`/repo/src/level2/trait_impls.rs` 443-449 and 627-633. -/
def setAttributeNamed (e : Env) (self : NodeId) (name : Outcome Name) (value : Str) :
    Prog Unit := do
  let nm ← lift name
  let d ← withMut self do
    let x ← load self
    unwrapSome x.owner
  let a ← newAttribute d nm (some value)
  let _ ← setAttributeNode e self a
  pure ()

/-- `Element::set_attribute`, `/repo/src/level2/trait_impls.rs` 442-450. -/
def setAttribute (e : Env) (self : NodeId) (name value : Str) : Prog Unit :=
  setAttributeNamed e self (Name.fromStr name) value

/-- `Element::set_attribute_ns`, `/repo/src/level2/trait_impls.rs` 621-634. -/
def setAttributeNs (e : Env) (self : NodeId) (uri qname value : Str) : Prog Unit :=
  setAttributeNamed e self (Name.newNs uri qname) value

/-- `Element::remove_attribute_node`, `/repo/src/level2/trait_impls.rs` 567-586: the name
of the attribute is read, and the attribute is borrowed, while `mut_self` is alive. -/
def removeAttributeNode (self old : NodeId) : Prog NodeId := do
  if ← isType .element self then
    withMut self do
      let x ← load self
      match x.ext with
      | .element attrs nss =>
        let k ← nodeName old
        store self { x with ext := .element (mapRemove k attrs) nss }
        withMut old do
          let y ← load old
          store old { y with parent := none }
          pure old
      | _ => fail .syntax
  else fail .invalidState

/-- `Element::remove_attribute`, `/repo/src/level2/trait_impls.rs` 452-457. -/
def removeAttribute (e : Env) (self : NodeId) (name : Str) : Prog Unit := do
  match ← getAttributeNode e self name with
  | none => pure ()
  | some a =>
    let _ ← removeAttributeNode self a
    pure ()

/-- `Element::remove_attribute_ns`, `/repo/src/level2/trait_impls.rs` 636-641. -/
def removeAttributeNs (e : Env) (self : NodeId) (uri localName : Str) : Prog Unit := do
  match ← getAttributeNodeNs e self uri localName with
  | none => pure ()
  | some a =>
    let _ ← removeAttributeNode self a
    pure ()

/-- The recursion of `Element::get_elements_by_tag_name` and its `_ns` variant,
`/repo/src/level2/trait_impls.rs` 588-606 and 678-706: the guard of every element on the
way down is kept. -/
def collect (m : Name → Bool) : Nat → NodeId → Prog (List NodeId)
  | 0, _ => lift .diverge
  | fuel + 1, n => do
    if ← isType .element n then
      withRef n do
        let x ← load n
        let rest ← collectList (collect m fuel) x.children
        pure ((if m x.name then [n] else []) ++ rest)
    else pure []
where
  /-- The loop over the children. -/
  collectList (r : NodeId → Prog (List NodeId)) : List NodeId → Prog (List NodeId)
    | [] => pure []
    | c :: cs => do
      if ← isType .element c then
        let a ← r c
        let b ← collectList r cs
        pure (a ++ b)
      else collectList r cs

/-! ## Documents -/

/-- `Document::document_element`, `/repo/src/level2/trait_impls.rs` 236-238. -/
def documentElement (n : NodeId) : Prog (Option NodeId) := do
  let cs ← childNodes n
  pure cs.head?

/-- `Document::get_element_by_id`, `/repo/src/level2/trait_impls.rs` 323-340. -/
def getElementById (n : NodeId) (id : Str) : Prog (Option NodeId) :=
  withRef n do
    let x ← load n
    match x.ext with
    | .document d => upgrade (mapGet id d.idMap)
    | _ => pure none

/-- `Document::get_elements_by_tag_name` and its `_ns` variant,
`/repo/src/level2/trait_impls.rs` 342-362. -/
def docCollect (m : Name → Bool) (fuel : Nat) (n : NodeId) : Prog (List NodeId) := do
  match ← documentElement n with
  | some root => collect m fuel root
  | none => pure []

/-- `create_document_with_options`, `/repo/src/level2/trait_impls.rs` 1323-1356. -/
def createDocumentWithOptions (uri qname : Option Str) (docType : Option NodeId)
    (options : Options) : Prog NodeId := do
  let doc ← alloc (Node.newDocument docType options)
  asType .document doc
  let element : Option NodeId ← (match uri, qname with
    | some u, some q => do
      let nm ← lift (Name.newNs u q)
      let el ← alloc (Node.newElement doc nm)
      pure (some el)
    | none, some q => do
      let nm ← lift (Name.fromStr q)
      let el ← alloc (Node.newElement doc nm)
      pure (some el)
    | some _, none => fail .namespace
    | none, none => pure none)
  match element with
  | none => pure doc
  | some el =>
    asType .document doc
    let _ ← appendChild doc el
    pure doc

/-- `DocumentDecl::xml_declaration`, `/repo/src/level2/ext/trait_impls.rs` 14-25. -/
def xmlDeclaration (n : NodeId) : Prog (Option XmlDecl) := read n fun x =>
  match x.ext with
  | .document d => d.xmlDecl
  | _ => none

/-- `DocumentDecl::set_xml_declaration`, `/repo/src/level2/ext/trait_impls.rs` 27-40. -/
def setXmlDeclaration (n : NodeId) (d : XmlDecl) : Prog Unit :=
  withMut n do
    let x ← load n
    match x.ext with
    | .document y => store n { x with ext := .document { y with xmlDecl := some d } }
    | _ => fail .invalidState

/-! ## Copies -/

/-- The children of a copy, `/repo/src/level2/node_impl.rs` 352-358. -/
def cloneList (r : NodeId → Prog NodeId) : List NodeId → Prog (List NodeId)
  | [] => pure []
  | c :: cs => do
    let c' ← r c
    let cs' ← cloneList r cs
    pure (c' :: cs')

/-- `Node::clone_node`, `/repo/src/level2/trait_impls.rs` 1066-1070: the guard of the
node is kept while its children are copied. -/
def cloneNode : Nat → NodeId → Bool → Prog NodeId
  | 0, _, _ => lift .diverge
  | fuel + 1, n, deep =>
    withRef n do
      let x ← load n
      if deep then
        let cs ← cloneList (fun c => cloneNode fuel c true) x.children
        alloc { x with parent := none, children := cs }
      else alloc { x with parent := none, children := [] }

/-- Drop the value of a call. -/
def void {α : Type} (p : Prog α) : Prog Unit := do
  let _ ← p
  pure ()

/-- A call that takes no guard: the `create_*` calls make a node that points to
`self.clone().downgrade()`, which does not borrow. -/
def still {α : Type} (f : Heap → Result α) : Prog α := fun _ h => f h

/-! ## The parser, `/repo/src/parser/mod.rs` 121-404 -/

/-- The attribute loop of `handle_start`, `/repo/src/parser/mod.rs` 260-266. -/
def handleAttributes (e : Env) (doc el : NodeId) : List AttrEvent → Prog NodeId
  | [] => pure el
  | .bad :: _ => abort .unwrap
  | .undecodable :: _ => fail .syntax
  | .good k v :: as => do
    let a ← still fun h => createAttributeWith h doc k v
    let _ ← setAttributeNode e el a
    handleAttributes e doc el as

/-- `handle_start`, `/repo/src/parser/mod.rs` 243-269: `as_document_mut` checks the type and
keeps no guard. -/
def handleStart (e : Env) (doc parent : NodeId) (name : Option Str) (attrs : List AttrEvent) :
    Prog NodeId := do
  unwrapOk (asType .document doc)
  match name with
  | none => fail .syntax
  | some nm =>
    let el ← unwrapOk (still fun h => createElement h doc nm)
    let el ← appendChild parent el
    handleAttributes e doc el attrs

/-- `handle_comment`, `handle_text` and `handle_cdata`, `/repo/src/parser/mod.rs` 284-328:
check the document, create the node and append it. -/
def handleData (doc parent : NodeId) (create : Str → Heap → Result NodeId) (t : Option Str) :
    Prog NodeId := do
  unwrapOk (asType .document doc)
  match t with
  | none => fail .syntax
  | some s =>
    let n ← still (create s)
    appendChild parent n

/-- `handle_pi`, `/repo/src/parser/mod.rs` 330-364. -/
def handlePi (e : Env) (doc parent : NodeId) (t : Option Str) : Prog NodeId := do
  unwrapOk (asType .document doc)
  match t with
  | none => fail .syntax
  | some s =>
    let n ← unwrapOk (still fun h =>
      createProcessingInstruction h doc (splitPi e.uni s).1 (splitPi e.uni s).2)
    appendChild parent n

/-- The declaration that is stored, `/repo/src/parser/mod.rs` 137-143. -/
def readDecl (version : Option Str) (encoding standalone : Option (Option Str)) :
    Outcome XmlDecl :=
  (makeDecl version encoding standalone).bind fun d =>
    match XmlVersion.fromStr d.1 with
    | none => .panic .unwrap
    | some v => XmlDecl.new v d.2.1 d.2.2

/-- The `Decl` arm of `document`, `/repo/src/parser/mod.rs` 128-145: the document is borrowed
exclusively for the whole arm. -/
def handleDecl (doc : NodeId) (version : Option Str)
    (encoding standalone : Option (Option Str)) : Prog Unit :=
  withMut doc do
    let x ← load doc
    match x.ext with
    | .document z =>
      if z.xmlDecl.isSome then fail .syntax
      else
        let d ← lift (readDecl version encoding standalone)
        store doc { x with ext := .document { z with xmlDecl := some d } }
    | _ => pure ()

/-- `element`, `/repo/src/parser/mod.rs` 198-239, compare `XmlDom.parseElement`; no guard is
alive when a handler is called. -/
def parseElement (e : Env) (doc : NodeId) : Nat → NodeId → List Event → Heap → ParseResult
  | 0, _, evs, h => ⟨.diverge, evs, h⟩
  | fuel + 1, parent, evs, h =>
    let go (r : Result NodeId) (rest : List Event) : ParseResult :=
      match r with
      | (.ok _, h1) => parseElement e doc fuel parent rest h1
      | (o, h1) => ⟨o, rest, h1⟩
    match evs with
    | [] => ⟨.err .syntax, [], h⟩
    | .start name attrs :: rest =>
      match handleStart e doc parent name attrs [] h with
      | (.ok el, h1) =>
        match parseElement e doc fuel el rest h1 with
        | ⟨.ok _, rest2, h2⟩ => parseElement e doc fuel parent rest2 h2
        | r => r
      | (o, h1) => ⟨o, rest, h1⟩
    | .empty name attrs :: rest => go (handleStart e doc parent name attrs [] h) rest
    | .close :: rest => ⟨.ok parent, rest, h⟩
    | .comment t :: rest =>
      go (handleData doc parent (fun s h => createComment h doc s) t [] h) rest
    | .pi t :: rest => go (handlePi e doc parent t [] h) rest
    | .text t :: rest =>
      go (handleData doc parent (fun s h => createTextNode h doc s) t [] h) rest
    | .cdata t :: rest =>
      go (handleData doc parent (fun s h => createCdataSection h doc s) t [] h) rest
    | .decl _ _ _ :: rest => ⟨.err .syntax, rest, h⟩
    | .other :: rest => ⟨.err .syntax, rest, h⟩
    | .eof :: rest => ⟨.err .syntax, rest, h⟩
    | .readError :: rest => ⟨.err .syntax, rest, h⟩

/-- The loop of `document`, `/repo/src/parser/mod.rs` 125-184, compare
`XmlDom.parseLoop`. -/
def parseLoop (e : Env) (doc : NodeId) : Nat → List Event → Heap → Result NodeId
  | 0, _, h => (.diverge, h)
  | fuel + 1, evs, h =>
    let go (r : Result NodeId) (rest : List Event) : Result NodeId :=
      match r with
      | (.ok _, h1) => parseLoop e doc fuel rest h1
      | r => r
    match evs with
    | [] => (.ok doc, h)
    | .decl v enc sa :: rest =>
      match handleDecl doc v enc sa [] h with
      | (.ok _, h1) => parseLoop e doc fuel rest h1
      | (.err er, h1) => (.err er, h1)
      | (.panic k, h1) => (.panic k, h1)
      | (.diverge, h1) => (.diverge, h1)
    | .start name attrs :: rest =>
      match handleStart e doc doc name attrs [] h with
      | (.ok el, h1) =>
        match parseElement e doc (rest.length + 1) el rest h1 with
        | ⟨.ok _, rest2, h2⟩ => parseLoop e doc fuel rest2 h2
        | ⟨.err _, rest2, h2⟩ => parseLoop e doc fuel rest2 h2
        | ⟨.panic k, _, h2⟩ => (.panic k, h2)
        | ⟨.diverge, _, h2⟩ => (.diverge, h2)
      | r => r
    | .empty name attrs :: rest => go (handleStart e doc doc name attrs [] h) rest
    | .close :: rest => parseLoop e doc fuel rest h
    | .comment t :: rest => go (handleData doc doc (fun s h => createComment h doc s) t [] h) rest
    | .pi t :: rest => go (handlePi e doc doc t [] h) rest
    | .eof :: _ => (.ok doc, h)
    | .text _ :: _ => (.err .syntax, h)
    | .cdata _ :: _ => (.err .syntax, h)
    | .other :: _ => (.err .syntax, h)
    | .readError :: _ => (.err .syntax, h)

/-- `document`, `/repo/src/parser/mod.rs` 121-185, behind `read_xml` and `read_reader`. -/
def readXml (e : Env) (evs : List Event) : Prog NodeId := do
  let doc ← unwrapOk (createDocumentWithOptions none none none Options.new.setAddNamespaces)
  still (parseLoop e doc (evs.length + 1) evs)

/-! ## One step of a history -/

/-- One call of the history with its guards. Dropping the last handle of a node runs no code
of the crate. -/
def call (e : Env) : Op → Prog Unit
  | .createDocumentType q p s => void (still fun h => createDocumentType h q p s)
  | .createElement d t => void (still fun h => createElement h d t)
  | .createElementNs d u q => void (still fun h => createElementNs h d u q)
  | .createAttribute d n => void (still fun h => createAttribute h d n)
  | .createAttributeWith d n v => void (still fun h => createAttributeWith h d n v)
  | .createAttributeNs d u q => void (still fun h => createAttributeNs h d u q)
  | .createCdataSection d s => void (still fun h => createCdataSection h d s)
  | .createDocumentFragment d => void (still fun h => createDocumentFragment h d)
  | .createEntityReference d n => void (still fun h => createEntityReference h d n)
  | .createComment d s => void (still fun h => createComment h d s)
  | .createProcessingInstruction d t x =>
    void (still fun h => createProcessingInstruction h d t x)
  | .createTextNode d s => void (still fun h => createTextNode h d s)
  | .createNotation d n p s => void (still fun h => createNotation h d n p s)
  | .createEntity d n p s => void (still fun h => createEntity h d n p s)
  | .createInternalEntity d n v => void (still fun h => createInternalEntity h d n v)
  | .createDocument uri q dt o => void (createDocumentWithOptions uri q dt o)
  | .insertBefore s n r => void (insertBefore s n r)
  | .appendChild s n => void (appendChild s n)
  | .replaceChild s n o => void (replaceChild s n o)
  | .removeChild s o => void (removeChild s o)
  | .cloneNode n deep fuel => void (cloneNode fuel n deep)
  | .normalize n => normalize n
  | .setNodeValue n v => setNodeValue n v
  | .unsetNodeValue n => unsetNodeValue n
  | .appendData n s => appendData n s
  | .insertData n o s => insertData e.overflowChecks n o s
  | .deleteData n o c => deleteData e.overflowChecks n o c
  | .replaceData n o c s => replaceData e.overflowChecks n o c s
  | .split n o => void (splitText e.overflowChecks n o)
  | .setValue a v => setValue a v
  | .unsetValue a => unsetValue a
  | .setAttribute n k v => setAttribute e n k v
  | .setAttributeNs n u q v => setAttributeNs e n u q v
  | .setAttributeNode n a => void (setAttributeNode e n a)
  | .removeAttribute n k => removeAttribute e n k
  | .removeAttributeNs n u l => removeAttributeNs e n u l
  | .removeAttributeNode n a => void (removeAttributeNode n a)
  | .setXmlDeclaration d x => setXmlDeclaration d x
  | .readXml evs => void (readXml e evs)
  | .drop n => fun _ h => (.ok (), (Op.drop n).apply e h)

/-- One step of a history, compare `XmlDom.exec`; no guard is alive between calls. -/
def exec (e : Env) (op : Op) (h : Heap) : Heap :=
  if op.args.all h.live then leftBehind h (call e op [] h) else h

/-- A history, compare `XmlDom.run`. -/
def run : List (Env × Op) → Heap → Heap
  | [], h => h
  | (e, op) :: rest, h => run rest (exec e op h)

end XmlDom.Cell
