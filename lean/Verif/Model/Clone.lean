import Verif.Model.Document

/-!
# Model of `NodeImpl::clone_node` and `Node::clone_node`
-/

namespace XmlDom

/-- The `map(..).collect()` over the children in `clone_node`,
`/repo/src/level2/node_impl.rs` 352-358. -/
def cloneList (g : Heap → NodeId → Result NodeId) : Heap → List NodeId → Result (List NodeId)
  | h, [] => (.ok [], h)
  | h, c :: cs =>
    match g h c with
    | (.ok c', h1) =>
      match cloneList g h1 cs with
      | (.ok cs', h2) => (.ok (c' :: cs'), h2)
      | r => r
    | (.err e, h1) => (.err e, h1)
    | (.panic k, h1) => (.panic k, h1)
    | (.diverge, h1) => (.diverge, h1)

/-- `Node::clone_node`, `/repo/src/level2/trait_impls.rs` 1066-1070, with
`NodeImpl::clone_node`, `/repo/src/level2/node_impl.rs` 308-366. The extension is copied
field by field, so maps of references are shared with the original. The recursion over
the child lists is bounded by fuel; running out means the child lists form a cycle. -/
def cloneNode : Nat → Heap → NodeId → Bool → Result NodeId
  | 0, h, _, _ => (.diverge, h)
  | fuel + 1, h, n, deep =>
    let x := h.get n
    if deep then
      match cloneList (fun h c => cloneNode fuel h c true) h x.children with
      | (.ok cs, h1) =>
        let r := h1.alloc { x with parent := none, children := cs }
        (.ok r.1, r.2)
      | (.err e, h1) => (.err e, h1)
      | (.panic k, h1) => (.panic k, h1)
      | (.diverge, h1) => (.diverge, h1)
    else
      let r := h.alloc { x with parent := none, children := [] }
      (.ok r.1, r.2)

end XmlDom
