import Verif.Model.Namespaced

/-!
# Model of the `Element` implementation of `/repo/src/level2/trait_impls.rs`
-/

namespace XmlDom

/-! ## Attributes -/

/-- `Element::get_attribute_node`, `/repo/src/level2/trait_impls.rs` 459-484. -/
def getAttributeNode (e : Env) (h : Heap) (n : NodeId) (name : Str) : Outcome (Option NodeId) :=
  if (h.get n).ntype = .element then
    match Name.fromStr name with
    | .ok nm =>
      match (h.get n).ext with
      | .element attrs _ =>
        .ok (((e.attrOrder n attrs).find? fun kv => decide (kv.1.display = nm.display)).map (·.2))
      | _ => .ok none
    | .err _ => .ok none
    | .panic k => .panic k
    | .diverge => .diverge
  else .ok none

/-- `Element::get_attribute_node_ns`, `/repo/src/level2/trait_impls.rs` 643-672. The
name is only checked for validity; the search compares the local name with the raw
argument. -/
def getAttributeNodeNs (e : Env) (h : Heap) (n : NodeId) (uri localName : Str) :
    Outcome (Option NodeId) :=
  if (h.get n).ntype = .element then
    match Name.newNs uri localName with
    | .ok _ =>
      match (h.get n).ext with
      | .element attrs _ =>
        .ok (((e.attrOrder n attrs).find? fun kv =>
          decide (kv.1.namespaceUri = some uri ∧ kv.1.localName = localName)).map (·.2))
      | _ => .ok none
    | .err _ => .ok none
    | .panic k => .panic k
    | .diverge => .diverge
  else .ok none

/-- The value part shared by `get_attribute` and `get_attribute_ns`,
`/repo/src/level2/trait_impls.rs` 430-439 and 609-618. -/
def attributeNodeValue (e : Env) (h : Heap) (r : Outcome (Option NodeId)) : Outcome (Option Str) :=
  r.bind fun a =>
    match a with
    | none => .ok none
    | some a => if (h.get a).ntype = .attribute then attrValue e.uni h a else .ok none

/-- `Element::get_attribute`, `/repo/src/level2/trait_impls.rs` 429-440. -/
def getAttribute (e : Env) (h : Heap) (n : NodeId) (name : Str) : Outcome (Option Str) :=
  attributeNodeValue e h (getAttributeNode e h n name)

/-- `Element::get_attribute_ns`, `/repo/src/level2/trait_impls.rs` 608-619. -/
def getAttributeNs (e : Env) (h : Heap) (n : NodeId) (uri localName : Str) :
    Outcome (Option Str) :=
  attributeNodeValue e h (getAttributeNodeNs e h n uri localName)

/-- `Element::has_attribute`, `/repo/src/level2/trait_impls.rs` 708-731. -/
def hasAttribute (e : Env) (h : Heap) (n : NodeId) (name : Str) : Outcome Bool :=
  if (h.get n).ntype = .element then
    match Name.fromStr name with
    | .ok nm =>
      match (h.get n).ext with
      | .element attrs _ =>
        .ok ((e.attrOrder n attrs).any fun kv => decide (kv.1.display = nm.display))
      | _ => .ok false
    | .err _ => .ok false
    | .panic k => .panic k
    | .diverge => .diverge
  else .ok false

/-- `Element::has_attribute_ns`, `/repo/src/level2/trait_impls.rs` 733-757. Unlike
`get_attribute_node_ns` this compares with the local part of the parsed name. -/
def hasAttributeNs (e : Env) (h : Heap) (n : NodeId) (uri localName : Str) : Outcome Bool :=
  if (h.get n).ntype = .element then
    match Name.newNs uri localName with
    | .ok nm =>
      match (h.get n).ext with
      | .element attrs _ =>
        .ok ((e.attrOrder n attrs).any fun kv =>
          decide (kv.1.namespaceUri = nm.namespaceUri ∧ kv.1.localName = nm.localName))
      | _ => .ok false
    | .err _ => .ok false
    | .panic k => .panic k
    | .diverge => .diverge
  else .ok false

/-- The id map update at the end of `set_attribute_node`,
`/repo/src/level2/trait_impls.rs` 525-556. `mut_self` is still borrowed, so an owner
document that is the element itself panics. The document is mutably borrowed while the
value is computed; the only effect is that an entity reference in the value, which
panics anyway, panics with a different message. -/
def recordId (u : Uni) (h : Heap) (self attr : NodeId) (name : Name) : Result NodeId :=
  match ownerDocument h attr with
  | none => (.panic .unwrap, h)
  | some d =>
    if d = self then (.panic .borrow, h)
    else
      let lax := match (h.get d).ext with
        | .document x => x.options.hasAssumeIds
        | _ => false
      if name.isIdAttribute lax then
        match (h.get d).ext with
        | .document x =>
          match attrValue u h attr with
          | .err e => (.err e, h)
          | .panic k => (.panic k, h)
          | .diverge => (.diverge, h)
          | .ok none => (.panic .unwrap, h)
          | .ok (some id) =>
            if (mapGet id x.idMap).isSome then (.err .syntax, h)
            else
              (.ok attr, h.set d
                { h.get d with ext := .document { x with idMap := mapInsert id self x.idMap } })
        | _ => (.ok attr, h)
      else (.ok attr, h)

/-- The namespace mapping update of `set_attribute_node`,
`/repo/src/level2/trait_impls.rs` 505-520. -/
def recordNamespace (u : Uni) (h : Heap) (self attr : NodeId) (name : Name) : Result Unit :=
  if name.isNamespaceAttribute then
    match attrValue u h attr with
    | .err e => (.err e, h)
    | .panic k => (.panic k, h)
    | .diverge => (.diverge, h)
    | .ok none => (.panic .unwrap, h)
    | .ok (some uri) => insertMapping h self name.pfx uri
  else (.ok (), h)

/-- The insertion into the attribute map in `set_attribute_node`,
`/repo/src/level2/trait_impls.rs` 522-562. -/
def storeAttribute (u : Uni) (h : Heap) (self attr : NodeId) (name : Name) : Result NodeId :=
  match (h.get self).ext with
  | .element attrs nss =>
    let h1 := h.set self
      { h.get self with ext := .element (mapInsert (h.get attr).name attr attrs) nss }
    recordId u h1 self attr name
  | _ => (.err .syntax, h)

/-- `Element::set_attribute_node`, `/repo/src/level2/trait_impls.rs` 486-565. -/
def setAttributeNode (e : Env) (h : Heap) (self attr : NodeId) : Result NodeId :=
  if (h.get self).ntype = .element ∧ (h.get attr).ntype = .attribute then
    match checkSameDocument h self attr with
    | .err x => (.err x, h)
    | .panic k => (.panic k, h)
    | .diverge => (.diverge, h)
    | .ok _ =>
      match (h.get attr).ext with
      | .attribute _ =>
        let h1 := h.set attr { h.get attr with ext := .attribute (some self) }
        let name := (h1.get attr).name
        match recordNamespace e.uni h1 self attr name with
        | (.err x, h2) => (.err x, h2)
        | (.panic k, h2) => (.panic k, h2)
        | (.diverge, h2) => (.diverge, h2)
        | (.ok _, h2) => storeAttribute e.uni h2 self attr name
      | _ => (.panic .explicit, h)
  else (.err .invalidState, h)

/-- Drop the value of a result. -/
def Result.void {α : Type} (r : Result α) : Result Unit :=
  (r.1.map fun _ => (), r.2)

/-- `set_attribute` after the name check, `/repo/src/level2/trait_impls.rs` 444-449 and
628-633. -/
def setAttributeNamed (e : Env) (h : Heap) (self : NodeId) (name : Outcome Name) (value : Str) :
    Result Unit :=
  match name with
  | .err x => (.err x, h)
  | .panic k => (.panic k, h)
  | .diverge => (.diverge, h)
  | .ok nm =>
    match (h.get self).owner with
    | none => (.panic .unwrap, h)
    | some d =>
      let r := h.newAttribute d nm (some value)
      (setAttributeNode e r.2 self r.1).void

/-- `Element::set_attribute`, `/repo/src/level2/trait_impls.rs` 442-450. -/
def setAttribute (e : Env) (h : Heap) (self : NodeId) (name value : Str) : Result Unit :=
  setAttributeNamed e h self (Name.fromStr name) value

/-- `Element::set_attribute_ns`, `/repo/src/level2/trait_impls.rs` 621-634. -/
def setAttributeNs (e : Env) (h : Heap) (self : NodeId) (uri qname value : Str) : Result Unit :=
  setAttributeNamed e h self (Name.newNs uri qname) value

/-- `Element::remove_attribute_node`, `/repo/src/level2/trait_impls.rs` 567-586. The
borrow of `old_attribute` while `self` is mutably borrowed panics when they are the same
node. -/
def removeAttributeNode (h : Heap) (self old : NodeId) : Result NodeId :=
  if (h.get self).ntype = .element then
    match (h.get self).ext with
    | .element attrs nss =>
      if old = self then (.panic .borrow, h)
      else
        let h1 := h.set self
          { h.get self with ext := .element (mapRemove (h.get old).name attrs) nss }
        let h2 := h1.set old { h1.get old with parent := none }
        (.ok old, h2)
    | _ => (.err .syntax, h)
  else (.err .invalidState, h)

/-- The tail shared by `remove_attribute` and `remove_attribute_ns`,
`/repo/src/level2/trait_impls.rs` 453-456 and 637-640. -/
def removeFound (h : Heap) (self : NodeId) (found : Outcome (Option NodeId)) : Result Unit :=
  match found with
  | .err x => (.err x, h)
  | .panic k => (.panic k, h)
  | .diverge => (.diverge, h)
  | .ok none => (.ok (), h)
  | .ok (some a) => (removeAttributeNode h self a).void

/-- `Element::remove_attribute`, `/repo/src/level2/trait_impls.rs` 452-457. -/
def removeAttribute (e : Env) (h : Heap) (self : NodeId) (name : Str) : Result Unit :=
  removeFound h self (getAttributeNode e h self name)

/-- `Element::remove_attribute_ns`, `/repo/src/level2/trait_impls.rs` 636-641. -/
def removeAttributeNs (e : Env) (h : Heap) (self : NodeId) (uri localName : Str) : Result Unit :=
  removeFound h self (getAttributeNodeNs e h self uri localName)

/-! ## Queries -/

/-- `WILD_CARD`, `/repo/src/level2/trait_impls.rs` 1180. -/
def wildCard : Str := c! "*"

/-- `tag_name_match`, `/repo/src/level2/trait_impls.rs` 1182-1184. -/
def tagNameMatch (test against : Str) : Bool :=
  decide (test = against) || decide (test = wildCard) || decide (against = wildCard)

/-- `namespaced_name_match`, `/repo/src/level2/trait_impls.rs` 1186-1206. -/
def namespacedNameMatch (testNs : Option Str) (testLocal againstNs againstLocal : Str) : Bool :=
  match testNs with
  | none =>
    decide (againstNs = wildCard)
      && (decide (testLocal = againstLocal) || decide (testLocal = wildCard)
        || decide (againstLocal = wildCard))
  | some ns =>
    (decide (ns = againstNs) || decide (ns = wildCard) || decide (againstNs = wildCard))
      && (decide (testLocal = againstLocal) || decide (testLocal = wildCard)
        || decide (againstLocal = wildCard))

/-- The recursion shared by `Element::get_elements_by_tag_name` and its `_ns` variant,
`/repo/src/level2/trait_impls.rs` 588-606 and 678-706: `m` is the match on the element's
own name. Running out of fuel means the child lists form a cycle. -/
def collect (m : Name → Bool) (h : Heap) : Nat → NodeId → Outcome (List NodeId)
  | 0, _ => .diverge
  | fuel + 1, n =>
    if (h.get n).ntype = .element then
      let own := if m (h.get n).name then [n] else []
      (collectList (collect m h fuel) h (h.get n).children).map fun rest => own ++ rest
    else .ok []
where
  /-- The loop over the children. -/
  collectList (g : NodeId → Outcome (List NodeId)) (h : Heap) :
      List NodeId → Outcome (List NodeId)
    | [] => .ok []
    | c :: cs =>
      if (h.get c).ntype = .element then
        (g c).bind fun a => (collectList g h cs).map fun b => a ++ b
      else collectList g h cs

/-- `Element::get_elements_by_tag_name`, `/repo/src/level2/trait_impls.rs` 588-606. -/
def getElementsByTagName (h : Heap) (fuel : Nat) (n : NodeId) (tag : Str) :
    Outcome (List NodeId) :=
  collect (fun nm => tagNameMatch nm.display tag) h fuel n

/-- `Element::get_elements_by_tag_name_ns`, `/repo/src/level2/trait_impls.rs` 678-706. -/
def getElementsByTagNameNs (h : Heap) (fuel : Nat) (n : NodeId) (uri loc : Str) :
    Outcome (List NodeId) :=
  collect (fun nm => namespacedNameMatch nm.namespaceUri nm.localName uri loc) h fuel n

end XmlDom
