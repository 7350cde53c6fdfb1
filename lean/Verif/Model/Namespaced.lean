import Verif.Model.Node

/-!
# Model of `/repo/src/level2/ext/namespaced.rs`
-/

namespace XmlDom

/-- `NamespacePrefix`, `/repo/src/level2/ext/namespaced.rs` 18-27. -/
inductive NamespacePrefix
  | none
  | default
  | some (p : Str)
  deriving DecidableEq, Repr

/-- `add_namespaces`, `/repo/src/level2/ext/namespaced.rs` 88-98. -/
def addNamespaces (h : Heap) (n : NodeId) : Bool :=
  match ownerDocument h n with
  | none => false
  | some d =>
    match (h.get d).ext with
    | .document x => x.options.hasAddNamespaces
    | _ => false

/-- The namespace map of an element; `none` for anything that is not an element with an
element extension (both tests appear in each function of
`/repo/src/level2/ext/namespaced.rs` 100-246). -/
def nsMap (h : Heap) (n : NodeId) : Option (List (Option Str × Str)) :=
  if (h.get n).ntype = .element then
    match (h.get n).ext with
    | .element _ nss => some nss
    | _ => none
  else none

/-- `Namespaced::contains_mapping`, `/repo/src/level2/ext/namespaced.rs` 101-117. -/
def containsMapping (h : Heap) (n : NodeId) (pfx : Option Str) : Bool :=
  if addNamespaces h n = false then false
  else match nsMap h n with
    | some m => (mapGet pfx m).isSome
    | none => false

/-- `Namespaced::get_namespace`, `/repo/src/level2/ext/namespaced.rs` 119-136. -/
def getNamespace (h : Heap) (n : NodeId) (pfx : Option Str) : Option Str :=
  if addNamespaces h n = false then none
  else match nsMap h n with
    | some m => mapGet pfx m
    | none => none

/-- `Namespaced::resolve_namespace`, `/repo/src/level2/ext/namespaced.rs` 138-156. The
fuel bounds the walk to the root; running out of it means the parent links form a
cycle. -/
def resolveNamespace (h : Heap) : Nat → NodeId → Option Str → Outcome (Option Str)
  | 0, _, _ => .diverge
  | fuel + 1, n, pfx =>
    if addNamespaces h n = false then .ok none
    else match getNamespace h n pfx with
      | some u => .ok (some u)
      | none =>
        match (h.get n).parent with
        | none => .ok none
        | some w =>
          match h.upgrade (some w) with
          | none => .panic .unwrap
          | some p => resolveNamespace h fuel p pfx

/-- `Namespaced::get_prefix`, `/repo/src/level2/ext/namespaced.rs` 162-184. The search
goes through the map in iteration order. -/
def getPrefix (e : Env) (h : Heap) (n : NodeId) (uri : Str) : NamespacePrefix :=
  if addNamespaces h n = false then .none
  else match nsMap h n with
    | some m =>
      match (e.nsOrder n m).find? (fun kv => decide (kv.2 = uri)) with
      | none => .none
      | some (some k, _) => .some k
      | some (none, _) => .default
    | none => .none

/-- `Namespaced::contains_mapped_namespace`, `/repo/src/level2/ext/namespaced.rs`
158-160. -/
def containsMappedNamespace (e : Env) (h : Heap) (n : NodeId) (uri : Str) : Bool :=
  decide (getPrefix e h n uri ≠ .none)

/-- `Namespaced::resolve_prefix`, `/repo/src/level2/ext/namespaced.rs` 186-204. -/
def resolvePrefix (e : Env) (h : Heap) : Nat → NodeId → Str → Outcome NamespacePrefix
  | 0, _, _ => .diverge
  | fuel + 1, n, uri =>
    if addNamespaces h n = false then .ok .none
    else match getPrefix e h n uri with
      | .none =>
        match (h.get n).parent with
        | none => .ok .none
        | some w =>
          match h.upgrade (some w) with
          | none => .panic .unwrap
          | some p => resolvePrefix e h fuel p uri
      | found => .ok found

/-- `MutNamespaced::insert_mapping`, `/repo/src/level2/ext/namespaced.rs` 208-228.
Simplification: the returned old value is dropped, its only caller ignores it. -/
def insertMapping (h : Heap) (n : NodeId) (pfx : Option Str) (uri : Str) : Result Unit :=
  if addNamespaces h n = false then (.ok (), h)
  else if (h.get n).ntype = .element then
    match (h.get n).ext with
    | .element attrs nss =>
      (.ok (), h.set n { h.get n with ext := .element attrs (mapInsert pfx uri nss) })
    | _ => (.err .invalidState, h)
  else (.err .invalidState, h)

/-- `MutNamespaced::remove_mapping`, `/repo/src/level2/ext/namespaced.rs` 230-246
(crate-private and called by tests only). -/
def removeMapping (h : Heap) (n : NodeId) (pfx : Option Str) : Result Unit :=
  if addNamespaces h n = false then (.ok (), h)
  else if (h.get n).ntype = .element then
    match (h.get n).ext with
    | .element attrs nss =>
      (.ok (), h.set n { h.get n with ext := .element attrs (mapRemove pfx nss) })
    | _ => (.err .invalidState, h)
  else (.err .invalidState, h)

end XmlDom
