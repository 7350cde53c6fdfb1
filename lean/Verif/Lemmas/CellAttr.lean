import Verif.Lemmas.Cell
import Verif.Lemmas.Attr
import Verif.Lemmas.Footprint
import Verif.Props.Text

/-!
# Running the attribute and namespace calls with their guards
-/

namespace XmlDom

/-- Forget which panic it was. -/
def Outcome.blur {α : Type} : Outcome α → Outcome α
  | .panic _ => .panic .explicit
  | o => o

/-- What `Result::unwrap` makes of an outcome. -/
def Outcome.unwrapped {α : Type} : Outcome α → Outcome α
  | .err _ => .panic .unwrap
  | o => o

namespace Cell

variable {α β : Type} {g : List Guard}

/-! ## Values -/

theorem unwrapOk_run {p : Prog α} {h h1 : Heap} {o : Outcome α} (hp : p g h = (o, h1)) :
    unwrapOk p g h = (o.unwrapped, h1) := by
  unfold unwrapOk
  rw [hp]
  cases o <;> rfl

theorem unwrapAsType_run {n : NodeId} (hn : (n, true) ∉ g) (t : NodeType) (h : Heap) :
    unwrapOk (asType t n) g h =
      (if (h.get n).ntype = t then .ok () else .panic .unwrap, h) := by
  rw [unwrapOk_run (asType_run hn t h)]
  by_cases ht : (h.get n).ntype = t
  · rw [if_pos ht, if_pos ht]; rfl
  · rw [if_neg ht, if_neg ht]; rfl

theorem resolverDocType_run {n : NodeId} (s : Shared g) (h : Heap) :
    resolverDocType n g h = (XmlDom.resolverDocType h n, h) := by
  rw [resolverDocType, bind_ok (nodeType_run (s n) h)]
  unfold XmlDom.resolverDocType XmlDom.nodeType
  have own : (ownerDocument n >>= fun o => match o with
      | none => (pure none : Prog (Option NodeId))
      | some d => unwrapOk (asType .document d) >>= fun _ => docType d) g h =
      (match XmlDom.ownerDocument h n with
        | none => .ok none
        | some d => if (h.get d).ntype = .document then .ok (XmlDom.docType h d)
          else .panic .unwrap, h) := by
    rw [bind_ok (ownerDocument_run (s n) h)]
    cases XmlDom.ownerDocument h n with
    | none => rfl
    | some d =>
      simp only
      rw [bind_run, unwrapAsType_run (s d)]
      by_cases ht : (h.get d).ntype = .document
      · simp only [ht, if_true]
        exact docType_run (s d) h
      · simp [ht]
  cases ht : (h.get n).ntype with
  | documentType => rfl
  | document =>
    simp only
    rw [bind_run, unwrapAsType_run (s n), if_pos ht]
    exact docType_run (s n) h
  | _ => exact own

theorem resolveEntity_run {n : NodeId} (s : Shared g) (m : Str) (h : Heap) :
    resolveEntity n m g h = (XmlDom.resolveEntity h n m, h) := by
  rw [resolveEntity, bind_run, resolverDocType_run s]
  unfold XmlDom.resolveEntity
  cases XmlDom.resolverDocType h n with
  | err e => rfl
  | panic k => rfl
  | diverge => rfl
  | ok dt =>
    simp only [Outcome.bind_ok]
    cases dt with
    | none => rfl
    | some t =>
      simp only
      rw [bind_run, unwrapAsType_run (s t)]
      by_cases ht : (h.get t).ntype = .documentType
      · simp only [ht, if_true]
        rw [bind_run, unwrapOk_run (lift_run ..)]
        cases Name.fromStr m with
        | err e => rfl
        | panic k => rfl
        | diverge => rfl
        | ok nm =>
          simp only [Outcome.unwrapped]
          rw [entities, bind_ok (read_run (s t) _ _)]
          cases (h.get t).ext with
          | documentType x =>
            simp only
            cases mapGet nm x.entities with
            | none => rfl
            | some e => exact nodeValue_run (s e) h
          | _ => rfl
      · simp [ht]

theorem attrRaw_run (cs : List NodeId) (h : Heap) (hc : ∀ c ∈ cs, (c, true) ∉ g) :
    attrRaw cs g h = (.ok (cs.flatMap fun c => attrChildText (h.get c)), h) := by
  induction cs with
  | nil => rfl
  | cons c cs ih =>
    have h1 := hc c (by simp)
    rw [attrRaw, bind_ok (a := attrChildText (h.get c)) (h1 := h)]
    · rw [bind_ok (ih fun x hx => hc x (by simp [hx]))]
      simp
    · rw [bind_ok (nodeType_run h1 h)]
      unfold attrChildText XmlDom.nodeType
      by_cases he : (h.get c).ntype = .entityReference
      · simp only [he, if_true]
        rw [bind_ok (nodeValue_run h1 h)]
        unfold XmlDom.nodeValue
        cases (h.get c).value <;> simp
      · simp only [he, if_false]
        rw [bind_ok (nodeType_run h1 h)]
        unfold XmlDom.nodeType
        by_cases ht : (h.get c).ntype = .text
        · simp only [ht, if_true]
          rw [withRef_run h1, bind_ok (load_run ..)]
          cases (h.get c).value <;> simp
        · simp [ht]

/-- The value of an attribute under any guards that leave the attribute and its children
readable; only the resolver depends on the guards. -/
theorem attrValue_guarded (u : Uni) {a : NodeId} (ha : (a, true) ∉ g) (h : Heap)
    (hc : ∀ c ∈ (h.get a).children, (c, true) ∉ g) :
    attrValue u a g h = (if (h.get a).children = [] then .ok none
      else (normalizeAttrValue u (fun m => (resolveEntity a m g h).1) false 1
        (XmlDom.attrRaw h a)).map fun s => some (escape s), h) := by
  rw [attrValue, bind_ok (hasChildNodes_run ha h)]
  by_cases hn : (h.get a).children = []
  · simp [hn]
  · rw [if_neg hn, if_pos (by simpa using hn), bind_ok (childNodes_run ha h),
      show XmlDom.childNodes h a = (h.get a).children from rfl,
      bind_ok (attrRaw_run _ h hc), bind_run]
    unfold XmlDom.attrRaw normalizeValue
    cases normalizeAttrValue u (fun m => (resolveEntity a m g h).1) false 1
      ((h.get a).children.flatMap fun c => attrChildText (h.get c)) <;> rfl

theorem attrValue_run (u : Uni) {a : NodeId} (s : Shared g) (h : Heap) :
    attrValue u a g h = (XmlDom.attrValue u h a, h) := by
  rw [attrValue_guarded u (s a) h fun c _ => s c]
  have : (fun m => (resolveEntity a m g h).1) = XmlDom.resolveEntity h a := by
    funext m
    rw [resolveEntity_run s]
  rw [this]
  rfl

/-! ## A value that is computed while its document is locked -/

theorem blur_map {o o' : Outcome α} (f : α → β) (ho : o.blur = o'.blur) :
    (o.map f).blur = (o'.map f).blur := by
  cases o <;> cases o' <;> simp_all [Outcome.blur, Outcome.map]

theorem blur_bind {o o' : Outcome α} {f f' : α → Outcome β} (ho : o.blur = o'.blur)
    (hf : ∀ a, (f a).blur = (f' a).blur) : (o.bind f).blur = (o'.bind f').blur := by
  cases o <;> cases o' <;> simp_all [Outcome.blur, Outcome.bind]

theorem matchEntity_head {u : Uni} {s m rest : Str} (hm : matchEntity u s = some (m, rest)) :
    ∃ x m', m = x :: m' ∧ (x = '&' ∨ x = '%') := by
  unfold matchEntity at hm
  split at hm
  · split at hm
    · rename_i hx
      split at hm
      · cases hm
        exact ⟨_, _, rfl, hx.1⟩
      · cases hm
    · cases hm
  · cases hm

theorem scanAttr_blur {u : Uni} {ent ent' : Str → Outcome Str}
    (he : ∀ x m, x = '&' ∨ x = '%' → (ent (x :: m)).blur = (ent' (x :: m)).blur) :
    ∀ n s, (scanAttr u ent n s).blur = (scanAttr u ent' n s).blur := by
  intro n
  induction n with
  | zero => intro s; rfl
  | succ n ih =>
    intro s
    cases s with
    | nil => rfl
    | cons c cs =>
      unfold scanAttr
      split
      · rename_i m rest hm
        obtain ⟨x, m', rfl, hx⟩ := matchEntity_head hm
        exact blur_bind (he x m' hx) fun r => blur_map _ (ih rest)
      · split
        · exact blur_bind rfl fun r => blur_map _ (ih _)
        · split
          · exact blur_bind rfl fun r => blur_map _ (ih _)
          · split
            · exact blur_map _ (ih cs)
            · exact blur_map _ (ih cs)

/-- A resolver that always panics gives the same value as the document's own, up to the
panic: the document never supplies a replacement text. -/
theorem normalize_locked (u : Uni) (h : Heap) (a : NodeId) (r : Str → Outcome (Option Str))
    (hr : ∀ m, ∃ k, r m = .panic k) (b : Bool) (v : Str) :
    (normalizeAttrValue u r b 1 v).blur =
      (normalizeAttrValue u (XmlDom.resolveEntity h a) b 1 v).blur := by
  unfold normalizeAttrValue
  simp only
  refine blur_map _ ?_
  split
  · rfl
  · refine scanAttr_blur ?_ _ _
    intro x m hx
    obtain ⟨k, hk⟩ := hr (x :: m)
    rw [hk]
    rcases XmlDom.Props.resolveEntity_ne_some h a x m hx with h1 | h1
    · rw [h1]; rfl
    · cases hq : XmlDom.resolveEntity h a (x :: m) <;> rw [hq] at h1 <;> simp at h1 <;> rfl

/-! ## Namespaces -/

theorem addNamespaces_run {n : NodeId} (s : Shared g) (h : Heap) :
    addNamespaces n g h = (.ok (XmlDom.addNamespaces h n), h) := by
  rw [addNamespaces, bind_ok (ownerDocument_run (s n) h)]
  unfold XmlDom.addNamespaces
  cases XmlDom.ownerDocument h n with
  | none => rfl
  | some d =>
    simp only
    rw [read_run (s d)]
    cases (h.get d).ext <;> rfl

theorem nsMapOf_get (h : Heap) (n : NodeId) : nsMapOf (h.get n) = nsMap h n := rfl

theorem containsMapping_run {n : NodeId} (s : Shared g) (p : Option Str) (h : Heap) :
    containsMapping n p g h = (.ok (XmlDom.containsMapping h n p), h) := by
  rw [containsMapping, bind_ok (addNamespaces_run s h)]
  unfold XmlDom.containsMapping
  cases XmlDom.addNamespaces h n with
  | false => rfl
  | true =>
    simp only [if_true, Bool.true_eq_false, if_false]
    rw [read_run (s n), nsMapOf_get]
    cases nsMap h n <;> rfl

theorem getNamespace_run {n : NodeId} (s : Shared g) (p : Option Str) (h : Heap) :
    getNamespace n p g h = (.ok (XmlDom.getNamespace h n p), h) := by
  rw [getNamespace, bind_ok (addNamespaces_run s h)]
  unfold XmlDom.getNamespace
  cases XmlDom.addNamespaces h n with
  | false => rfl
  | true =>
    simp only [if_true, Bool.true_eq_false, if_false]
    rw [read_run (s n), nsMapOf_get]
    cases nsMap h n <;> rfl

theorem getPrefix_run {n : NodeId} (s : Shared g) (e : Env) (uri : Str) (h : Heap) :
    getPrefix e n uri g h = (.ok (XmlDom.getPrefix e h n uri), h) := by
  rw [getPrefix, bind_ok (addNamespaces_run s h)]
  unfold XmlDom.getPrefix
  cases XmlDom.addNamespaces h n with
  | false => rfl
  | true =>
    simp only [if_true, Bool.true_eq_false, if_false]
    rw [read_run (s n), nsMapOf_get]
    cases nsMap h n with
    | none => rfl
    | some m =>
      simp only
      cases (e.nsOrder n m).find? (fun kv => decide (kv.2 = uri)) with
      | none => rfl
      | some kv => rcases kv with ⟨k, v⟩; cases k <;> rfl

theorem resolveNamespace_run (p : Option Str) (h : Heap) (fuel : Nat) :
    ∀ {n : NodeId} {g : List Guard}, Shared g →
      resolveNamespace fuel n p g h = (XmlDom.resolveNamespace h fuel n p, h) := by
  induction fuel with
  | zero => intro n g _; rfl
  | succ fuel ih =>
    intro n g s
    rw [resolveNamespace, bind_ok (addNamespaces_run s h)]
    unfold XmlDom.resolveNamespace
    cases XmlDom.addNamespaces h n with
    | false => rfl
    | true =>
      simp only [if_true, Bool.true_eq_false, if_false]
      rw [bind_ok (getNamespace_run s p h)]
      cases XmlDom.getNamespace h n p with
      | some u => rfl
      | none =>
        simp only
        rw [withRef_run (s n), bind_ok (load_run ..)]
        cases (h.get n).parent with
        | none => rfl
        | some w =>
          simp only
          rw [unwrap_upgrade, ih (s.cons n)]
          cases hl : h.live w <;> simp [Heap.upgrade, hl]

theorem resolvePrefix_run (e : Env) (uri : Str) (h : Heap) (fuel : Nat) :
    ∀ {n : NodeId} {g : List Guard}, Shared g →
      resolvePrefix e fuel n uri g h = (XmlDom.resolvePrefix e h fuel n uri, h) := by
  induction fuel with
  | zero => intro n g _; rfl
  | succ fuel ih =>
    intro n g s
    rw [resolvePrefix, bind_ok (addNamespaces_run s h)]
    unfold XmlDom.resolvePrefix
    cases XmlDom.addNamespaces h n with
    | false => rfl
    | true =>
      simp only [if_true, Bool.true_eq_false, if_false]
      rw [bind_ok (getPrefix_run s e uri h)]
      cases XmlDom.getPrefix e h n uri with
      | default => rfl
      | some k => rfl
      | none =>
        simp only
        rw [withRef_run (s n), bind_ok (load_run ..)]
        cases (h.get n).parent with
        | none => rfl
        | some w =>
          simp only
          rw [unwrap_upgrade, ih (s.cons n)]
          cases hl : h.live w <;> simp [Heap.upgrade, hl]

theorem insertMapping_run (n : NodeId) (p : Option Str) (uri : Str) (h : Heap) :
    insertMapping n p uri [] h = XmlDom.insertMapping h n p uri := by
  rw [insertMapping, bind_ok (addNamespaces_run shared_nil h)]
  unfold XmlDom.insertMapping
  cases XmlDom.addNamespaces h n with
  | false => rfl
  | true =>
    simp only [if_true, Bool.true_eq_false, if_false]
    rw [withMut_run (by simp) (by simp), bind_ok (load_run ..)]
    by_cases ht : (h.get n).ntype = .element
    · simp only [ht, if_true]
      cases (h.get n).ext <;> simp
    · simp [ht]

/-! ## Elements -/

theorem getAttributeNode_run {n : NodeId} (s : Shared g) (e : Env) (name : Str) (h : Heap) :
    getAttributeNode e n name g h = (XmlDom.getAttributeNode e h n name, h) := by
  rw [getAttributeNode, bind_ok (isType_run (s n) _ h)]
  unfold XmlDom.getAttributeNode
  by_cases ht : (h.get n).ntype = .element
  · simp only [ht, decide_true, if_true]
    cases Name.fromStr name with
    | ok nm =>
      simp only
      rw [read_run (s n)]
      cases (h.get n).ext <;> rfl
    | err e => rfl
    | panic k => rfl
    | diverge => rfl
  · simp [ht]

theorem getAttributeNodeNs_run {n : NodeId} (s : Shared g) (e : Env) (uri loc : Str) (h : Heap) :
    getAttributeNodeNs e n uri loc g h = (XmlDom.getAttributeNodeNs e h n uri loc, h) := by
  rw [getAttributeNodeNs, bind_ok (isType_run (s n) _ h)]
  unfold XmlDom.getAttributeNodeNs
  by_cases ht : (h.get n).ntype = .element
  · simp only [ht, decide_true, if_true]
    cases Name.newNs uri loc with
    | ok nm =>
      simp only
      rw [read_run (s n)]
      cases (h.get n).ext <;> rfl
    | err e => rfl
    | panic k => rfl
    | diverge => rfl
  · simp [ht]

theorem hasAttribute_run {n : NodeId} (s : Shared g) (e : Env) (name : Str) (h : Heap) :
    hasAttribute e n name g h = (XmlDom.hasAttribute e h n name, h) := by
  rw [hasAttribute, bind_ok (isType_run (s n) _ h)]
  unfold XmlDom.hasAttribute
  by_cases ht : (h.get n).ntype = .element
  · simp only [ht, decide_true, if_true]
    cases Name.fromStr name with
    | ok nm =>
      simp only
      rw [read_run (s n)]
      cases (h.get n).ext <;> rfl
    | err e => rfl
    | panic k => rfl
    | diverge => rfl
  · simp [ht]

theorem hasAttributeNs_run {n : NodeId} (s : Shared g) (e : Env) (uri loc : Str) (h : Heap) :
    hasAttributeNs e n uri loc g h = (XmlDom.hasAttributeNs e h n uri loc, h) := by
  rw [hasAttributeNs, bind_ok (isType_run (s n) _ h)]
  unfold XmlDom.hasAttributeNs
  by_cases ht : (h.get n).ntype = .element
  · simp only [ht, decide_true, if_true]
    cases Name.newNs uri loc with
    | ok nm =>
      simp only
      rw [read_run (s n)]
      cases (h.get n).ext <;> rfl
    | err e => rfl
    | panic k => rfl
    | diverge => rfl
  · simp [ht]

theorem attributeNodeValue_run (s : Shared g) (e : Env) (o : Outcome (Option NodeId)) (h : Heap) :
    (lift o >>= attributeNodeValue e) g h = (XmlDom.attributeNodeValue e h o, h) := by
  rw [bind_run]
  unfold XmlDom.attributeNodeValue
  cases o with
  | err e => rfl
  | panic k => rfl
  | diverge => rfl
  | ok a =>
    cases a with
    | none => rfl
    | some a =>
      simp only [lift_run, Outcome.bind_ok]
      rw [attributeNodeValue, bind_ok (isType_run (s a) _ h)]
      by_cases ht : (h.get a).ntype = .attribute
      · simp only [ht, decide_true, if_true]
        exact attrValue_run _ s h
      · simp [ht]

theorem getAttribute_run {n : NodeId} (s : Shared g) (e : Env) (name : Str) (h : Heap) :
    getAttribute e n name g h = (XmlDom.getAttribute e h n name, h) := by
  have := attributeNodeValue_run s e (XmlDom.getAttributeNode e h n name) h
  rw [bind_run, lift_run] at this
  rw [getAttribute, bind_run, getAttributeNode_run s]
  exact this

theorem getAttributeNs_run {n : NodeId} (s : Shared g) (e : Env) (uri loc : Str) (h : Heap) :
    getAttributeNs e n uri loc g h = (XmlDom.getAttributeNs e h n uri loc, h) := by
  have := attributeNodeValue_run s e (XmlDom.getAttributeNodeNs e h n uri loc) h
  rw [bind_run, lift_run] at this
  rw [getAttributeNs, bind_run, getAttributeNodeNs_run s]
  exact this

theorem collectList_run {r : NodeId → Prog (List NodeId)} {q : NodeId → Outcome (List NodeId)}
    {h : Heap} (s : Shared g) (hr : ∀ c, r c g h = (q c, h)) (cs : List NodeId) :
    collect.collectList r cs g h = (XmlDom.collect.collectList q h cs, h) := by
  induction cs with
  | nil => rfl
  | cons c cs ih =>
    rw [collect.collectList, bind_ok (isType_run (s c) _ h)]
    unfold XmlDom.collect.collectList
    by_cases ht : (h.get c).ntype = .element
    · simp only [ht, decide_true, if_true]
      rw [bind_run, hr]
      cases q c with
      | ok a =>
        simp only [Outcome.bind_ok]
        rw [bind_run, ih]
        cases XmlDom.collect.collectList q h cs <;> rfl
      | err e => rfl
      | panic k => rfl
      | diverge => rfl
    · simp only [ht, decide_false, if_false, Bool.false_eq_true]
      exact ih

theorem collect_run (m : Name → Bool) (h : Heap) (fuel : Nat) :
    ∀ {n : NodeId} {g : List Guard}, Shared g →
      collect m fuel n g h = (XmlDom.collect m h fuel n, h) := by
  induction fuel with
  | zero => intro n g _; rfl
  | succ fuel ih =>
    intro n g s
    rw [collect, bind_ok (isType_run (s n) _ h)]
    unfold XmlDom.collect
    by_cases ht : (h.get n).ntype = .element
    · simp only [ht, decide_true, if_true]
      rw [withRef_run (s n), bind_ok (load_run ..), bind_run,
        collectList_run (s.cons n) fun c => ih (s.cons n)]
      cases XmlDom.collect.collectList (XmlDom.collect m h fuel) h (h.get n).children <;> rfl
    · simp [ht]

theorem docCollect_run {n : NodeId} (s : Shared g) (m : Name → Bool) (h : Heap) (fuel : Nat) :
    docCollect m fuel n g h = (match XmlDom.documentElement h n with
      | some root => XmlDom.collect m h fuel root
      | none => .ok [], h) := by
  rw [docCollect, bind_ok (documentElement_run (s n) h)]
  cases XmlDom.documentElement h n with
  | none => rfl
  | some root => exact collect_run m h fuel s

/-! ## Editing attributes -/

theorem unsetValue_run (a : NodeId) (h : Heap) :
    unsetValue a [] h = XmlDom.unsetValue h a := by
  rw [unsetValue, withMut_run (by simp) (by simp), bind_ok (load_run ..), store_run]
  rfl

theorem setValue_run (a : NodeId) (v : Str) (h : Heap) :
    setValue a v [] h = XmlDom.setValue h a v := by
  rw [setValue, bind_ok ((unsetValue_run a h).trans rfl)]
  unfold XmlDom.setValue XmlDom.unsetValue
  simp only
  generalize h.set a { h.get a with children := [] } = h1
  rw [bind_ok (ownerDocument_run (by simp) h1)]
  cases XmlDom.ownerDocument h1 a with
  | none => rfl
  | some d =>
    simp only [unwrapSome_some]
    rw [bind_ok (pure_run ..), bind_run, unwrapAsType_run (by simp)]
    by_cases ht : (h1.get d).ntype = .document
    · simp only [ht, if_true]
      rw [bind_ok (alloc_run ..), bind_run, appendChild_run]
      rcases XmlDom.appendChild (h1.alloc (Node.newText d v)).2 a (h1.alloc (Node.newText d v)).1
        with ⟨q, h2⟩
      cases q <;> rfl
    · simp [ht]

theorem recordNamespace_run (u : Uni) (n a : NodeId) (nm : Name) (h : Heap)
    (ha : (h.get a).ntype = .attribute) (hn : (h.get n).ntype = .element) :
    recordNamespace u n a nm [] h = XmlDom.recordNamespace u h n a nm := by
  unfold recordNamespace XmlDom.recordNamespace
  by_cases hns : nm.isNamespaceAttribute = true
  · simp only [hns, if_true]
    rw [bind_run, unwrapAsType_run (by simp), if_pos ha]
    simp only
    rw [bind_run, attrValue_run u shared_nil]
    cases XmlDom.attrValue u h a with
    | ok v =>
      cases v with
      | none => rfl
      | some uri =>
        simp only [unwrapSome_some]
        rw [bind_ok (pure_run ..), bind_run, unwrapAsType_run (by simp), if_pos hn]
        exact insertMapping_run ..
    | err e => rfl
    | panic k => rfl
    | diverge => rfl
  · simp [hns]

/-- Under the guards of `set_attribute_node` the value of the attribute is the same up to
the panic. -/
theorem attrValue_locked (u : Uni) {n a d : NodeId} (h : Heap) (hna : a ≠ n) (hda : a ≠ d)
    (hc : ∀ c ∈ (h.get a).children, c ≠ n ∧ c ≠ d) (ht : (h.get a).ntype = .attribute)
    (ho : XmlDom.ownerDocument h a = some d) :
    ∃ o, attrValue u a [(d, true), (n, true)] h = (o, h) ∧
      o.blur = (XmlDom.attrValue u h a).blur := by
  refine ⟨_, attrValue_guarded u (by simp [hna, hda]) h ?_, ?_⟩
  · intro c hm
    obtain ⟨h1, h2⟩ := hc c hm
    simp [h1, h2]
  · unfold XmlDom.attrValue
    split
    · rfl
    · refine blur_map _ (normalize_locked u h a _ ?_ false _)
      intro m
      refine ⟨.borrow, ?_⟩
      have hg : (a, true) ∉ [(d, true), (n, true)] := by simp [hna, hda]
      rw [resolveEntity, bind_run, resolverDocType, bind_ok (nodeType_run hg h)]
      unfold XmlDom.nodeType
      rw [ht]
      simp only
      rw [bind_ok (ownerDocument_run hg h), ho]
      simp only
      rw [bind_run, unwrapOk_run (o := .panic .borrow) (h1 := h)]
      · rfl
      · rw [asType, bind_run, isType, read_held (by simp)]

theorem recordId_run (u : Uni) {n a : NodeId} (nm : Name) (h : Heap) (hna : a ≠ n)
    (hc : ∀ c ∈ (h.get a).children, c ≠ n ∧ ∀ x, (h.get c).ext ≠ .document x)
    (ht : (h.get a).ntype = .attribute) (hx : ∀ x, (h.get a).ext ≠ .document x) :
    ∃ o, recordId u n a nm [(n, true)] h = (o, (XmlDom.recordId u h n a nm).2) ∧
      (o.map fun _ => a).blur = (XmlDom.recordId u h n a nm).1.blur := by
  have hg : (a, true) ∉ [(n, true)] := by simp [hna]
  rw [recordId, bind_run, unwrapAsType_run hg, if_pos ht]
  simp only
  rw [bind_ok (ownerDocument_run hg h)]
  unfold XmlDom.recordId
  cases ho : XmlDom.ownerDocument h a with
  | none => exact ⟨_, rfl, rfl⟩
  | some d =>
    simp only [unwrapSome_some]
    rw [bind_ok (pure_run ..)]
    by_cases hd : d = n
    · rw [if_pos hd, withMut_held (by simp [hd])]
      exact ⟨_, rfl, rfl⟩
    · rw [if_neg hd, withMut_run (by simp [hd]) (by simp), bind_ok (load_run ..)]
      split
      · rename_i z he
        rw [he]
        simp only
        by_cases hid : nm.isIdAttribute z.options.hasAssumeIds = true
        · rw [if_pos hid, if_pos hid]
          have hda : a ≠ d := by
            intro e; subst e; exact hx z he
          have hc' : ∀ c ∈ (h.get a).children, c ≠ n ∧ c ≠ d := by
            intro c hm
            refine ⟨(hc c hm).1, ?_⟩
            intro e; subst e; exact (hc c hm).2 z he
          obtain ⟨o, h1, h2⟩ := attrValue_locked u h hna hda hc' ht ho
          rw [bind_run, h1]
          generalize hv : XmlDom.attrValue u h a = v at h2 ⊢
          cases o <;> cases v <;> simp only [Outcome.blur] at h2 <;> try cases h2
          · rename_i o
            cases o with
            | none => exact ⟨_, rfl, rfl⟩
            | some id =>
              simp only [unwrapSome_some]
              rw [bind_ok (pure_run ..)]
              by_cases hm : (mapGet id z.idMap).isSome = true
              · rw [if_pos hm, if_pos hm]
                exact ⟨_, rfl, rfl⟩
              · rw [if_neg hm, if_neg hm, store_run]
                exact ⟨_, rfl, rfl⟩
          all_goals exact ⟨_, rfl, rfl⟩
        · rw [if_neg hid, if_neg hid]
          exact ⟨_, rfl, rfl⟩
      · rename_i hne
        generalize hq : (h.get d).ext = q at hne ⊢
        cases q with
        | document z => exact absurd rfl (hne z)
        | _ => simp only [ite_self]; exact ⟨_, rfl, rfl⟩

/-- The children of an attribute are neither elements nor documents. -/
def PlainChildren (h : Heap) (a : NodeId) : Prop :=
  ∀ c ∈ (h.get a).children, (h.get c).ntype ≠ .element ∧ ∀ x, (h.get c).ext ≠ .document x

/-- The same heap and the same outcome up to the kind of panic. -/
def Agree {α β : Type} (p : Outcome α × Heap) (q : Result β) (f : α → β) : Prop :=
  p.2 = q.2 ∧ (p.1.map f).blur = q.1.blur

/-- The heap in which `set_attribute_node` records the id: the attribute knows its element
and, apart from the element, nothing else has changed. -/
def Joined (h h3 : Heap) (n a : NodeId) : Prop :=
  (h3.get n).ntype = .element ∧ (h3.get n).owner = (h.get n).owner ∧
  h3.get a = { h.get a with ext := .attribute (some n) } ∧
  ∀ m, m ≠ n → m ≠ a → h3.get m = h.get m

/-- `set_attribute_node` with its guards agrees with the plain call as far as the recording
of the id does. -/
theorem setAttributeNode_via (e : Env) {n a : NodeId} (h : Heap)
    (R : Outcome NodeId → Outcome NodeId → Prop) (hR : ∀ o, R o o)
    (hrec : ∀ h3, (h.get n).ntype = .element → (h.get a).ntype = .attribute → a ≠ n →
      Joined h h3 n a → ∃ o,
      recordId e.uni n a (h.get a).name [(n, true)] h3 =
        (o, (XmlDom.recordId e.uni h3 n a (h.get a).name).2) ∧
      R (o.map fun _ => a) (XmlDom.recordId e.uni h3 n a (h.get a).name).1) :
    (setAttributeNode e n a [] h).2 = (XmlDom.setAttributeNode e h n a).2 ∧
      R (setAttributeNode e n a [] h).1 (XmlDom.setAttributeNode e h n a).1 := by
  rw [setAttributeNode, bind_ok (isType_run (by simp) _ h)]
  unfold XmlDom.setAttributeNode
  by_cases hn : (h.get n).ntype = .element
  · by_cases ha : (h.get a).ntype = .attribute
    · have hna : a ≠ n := by
        intro e; subst e; rw [hn] at ha; cases ha
      rw [if_pos (by simpa using hn), bind_ok (isType_run (by simp) _ h),
        if_pos (by simpa using ha), if_pos ⟨hn, ha⟩, bind_run,
        checkSameDocument_run (by simp) (by simp)]
      cases XmlDom.checkSameDocument h n a with
      | ok u =>
        simp only
        rw [bind_run, withMut_run (by simp) (by simp), bind_ok (load_run ..)]
        cases hx : (h.get a).ext with
        | «attribute» w =>
          simp only
          rw [store_run]
          simp only
          generalize hh : h.set a { h.get a with ext := .attribute (some n) } = h1
          have g1 : ∀ m, m ≠ a → h1.get m = h.get m := by
            intro m hm
            subst hh
            simp [hm]
          have ga : h1.get a = { h.get a with ext := .attribute (some n) } := by
            subst hh; simp
          have hnm : XmlDom.nodeName h1 a = (h.get a).name := by
            subst hh; simp [XmlDom.nodeName]
          rw [bind_ok (nodeName_run (by simp) h1), hnm,
            show (h1.get a).name = (h.get a).name from hnm]
          generalize hnm' : (h.get a).name = nm at hrec ⊢
          rw [bind_run, recordNamespace_run e.uni n a nm h1 (by rw [ga]; exact ha)
            (by rw [g1 n hna.symm]; exact hn)]
          obtain ⟨-, -, -, -, f1, f2⟩ := recordNamespace_frame e.uni h1 n a nm
          have f0 := fun m => recordNamespace_owner (u := e.uni) (h := h1) (n := n) (a := a) (m := m)
            (nm := nm)
          generalize XmlDom.recordNamespace e.uni h1 n a nm = r at f0 f1 f2 ⊢
          rcases r with ⟨q, h2⟩
          cases q with
          | ok u =>
            simp only
            rw [withMut_run (by simp) (by simp), bind_ok (load_run ..)]
            unfold storeAttribute
            cases hy : (h2.get n).ext with
            | element attrs nss =>
              simp only
              rw [bind_ok (nodeName_run (by simp [hna]) h2), bind_ok (store_run ..)]
              rw [show (h2.get a).name = XmlDom.nodeName h2 a from rfl]
              generalize hk : h2.set n { h2.get n with
                ext := .element (mapInsert (XmlDom.nodeName h2 a) a attrs) nss } = h3
              have k1 : ∀ m, m ≠ n → h3.get m = h1.get m := by
                intro m hm
                subst hk
                rw [Heap.get_set_ne _ _ hm]
                exact f2 m hm
              have kn : (h3.get n).ntype = .element := by
                subst hk
                rw [get_set_same]
                exact (f1 n).trans (by rw [g1 n hna.symm]; exact hn)
              have ko : (h3.get n).owner = (h.get n).owner := by
                subst hk
                rw [get_set_same]
                exact (f0 n).trans (by rw [g1 n hna.symm])
              obtain ⟨o, r1, r2⟩ := hrec h3 hn ha hna ⟨kn, ko, (k1 a hna).trans ga, fun m h1' h2' =>
                (k1 m h1').trans (g1 m h2')⟩
              rw [bind_run, r1]
              cases o <;> exact ⟨rfl, r2⟩
            | _ => exact ⟨rfl, hR _⟩
          | err e => exact ⟨rfl, hR _⟩
          | panic k => exact ⟨rfl, hR _⟩
          | diverge => exact ⟨rfl, hR _⟩
        | _ => exact ⟨rfl, hR _⟩
      | err e => exact ⟨rfl, hR _⟩
      | panic k => exact ⟨rfl, hR _⟩
      | diverge => exact ⟨rfl, hR _⟩
    · rw [if_pos (by simpa using hn), bind_ok (isType_run (by simp) _ h),
        if_neg (by simpa using ha), if_neg fun hh => ha hh.2]
      exact ⟨rfl, hR _⟩
  · rw [if_neg (by simpa using hn), if_neg fun hh => hn hh.1]
    exact ⟨rfl, hR _⟩

/-- An attribute that may be recorded as an id and has a character that can start a
reference: the only case where the value is looked up in the locked document. -/
def LockedLookup (h : Heap) (a : NodeId) : Prop :=
  (h.get a).name.isIdAttribute true = true ∧ ∃ c ∈ XmlDom.attrRaw h a, c = '&' ∨ c = '%'

theorem joined_plain {h h3 : Heap} {n a : NodeId} (hj : Joined h h3 n a)
    (hn : (h.get n).ntype = .element) (hp : PlainChildren h a) :
    ∀ c ∈ (h3.get a).children, c ≠ n ∧ ∀ x, (h3.get c).ext ≠ .document x := by
  intro c hc
  rw [hj.2.2.1] at hc
  obtain ⟨p1, p2⟩ := hp c hc
  have hcn : c ≠ n := by
    intro e; subst e; exact p1 hn
  refine ⟨hcn, ?_⟩
  intro x hx
  by_cases hca : c = a
  · subst hca; rw [hj.2.2.1] at hx; cases hx
  · rw [hj.2.2.2 c hcn hca] at hx; exact p2 x hx

theorem setAttributeNode_run (e : Env) {n a : NodeId} (h : Heap)
    (hp : (h.get a).ntype = .attribute → PlainChildren h a) :
    Agree (setAttributeNode e n a [] h) (XmlDom.setAttributeNode e h n a) id := by
  refine setAttributeNode_via e h (fun o o' => (o.map id).blur = o'.blur) ?_ ?_
  · intro o; cases o <;> rfl
  · intro h3 hn ha hna hj
    obtain ⟨o, h1, h2⟩ := recordId_run e.uni (h.get a).name h3 hna (joined_plain hj hn (hp ha))
      (by rw [hj.2.2.1]; exact ha) (by intro x; rw [hj.2.2.1]; exact fun hh => by cases hh)
    refine ⟨o, h1, ?_⟩
    rw [← h2]
    cases o <;> rfl

theorem mem_normalizeEol {c : Char} (s : Str) : c ∈ normalizeEol s → c ∈ s ∨ c = '\n' := by
  fun_induction normalizeEol s with
  | case1 => intro h; cases h
  | case2 => intro h; simp at h; exact Or.inr h
  | case3 d ds hd ih =>
    intro h
    rcases List.mem_cons.mp h with h | h
    · exact Or.inr h
    · exact (ih h).imp (fun h => by simp [h]) id
  | case4 d ds hd ih =>
    intro h
    rcases List.mem_cons.mp h with h | h
    · exact Or.inr h
    · exact (ih h).imp (fun h => List.mem_cons_of_mem _ h) id
  | case5 c cs h1 h2 ih =>
    intro h
    rcases List.mem_cons.mp h with h | h
    · exact Or.inr h
    · exact (ih h).imp (fun h => List.mem_cons_of_mem _ h) id
  | case6 c cs h1 h2 ih =>
    intro h
    rcases List.mem_cons.mp h with h | h
    · exact Or.inl (by simp [h])
    · exact (ih h).imp (fun h => List.mem_cons_of_mem _ h) id

/-- Without `&` and `%` nothing is looked up. -/
theorem scanAttr_plain {u : Uni} {ent ent' : Str → Outcome Str} :
    ∀ n s, (∀ c ∈ s, c ≠ '&' ∧ c ≠ '%') → scanAttr u ent n s = scanAttr u ent' n s := by
  intro n
  induction n with
  | zero => intro s _; rfl
  | succ n ih =>
    intro s hs
    cases s with
    | nil => rfl
    | cons c cs =>
      obtain ⟨h1, h2⟩ := hs c List.mem_cons_self
      have hcs := ih cs fun x hx => hs x (List.mem_cons_of_mem _ hx)
      have m1 : matchEntity u (c :: cs) = none := by
        cases hm : matchEntity u (c :: cs) with
        | none => rfl
        | some p =>
          exfalso
          unfold matchEntity at hm
          split at hm
          · rename_i he
            cases he
            rw [if_neg fun hh => hh.1.elim h1 h2] at hm
            cases hm
          · cases hm
      have m2 : matchDec u (c :: cs) = none := by
        unfold matchDec
        split
        · rename_i he; cases he; exact absurd rfl h1
        · rfl
      have m3 : matchHex (c :: cs) = none := by
        unfold matchHex
        split
        · rename_i he; cases he; exact absurd rfl h1
        · rfl
      unfold scanAttr
      rw [m1, m2, m3]
      simp only
      rw [hcs]

theorem normalizeAttrValue_plain (u : Uni) (r r' : Str → Outcome (Option Str)) (b : Bool) (v : Str)
    (hv : ∀ c ∈ v, c ≠ '&' ∧ c ≠ '%') :
    normalizeAttrValue u r b 1 v = normalizeAttrValue u r' b 1 v := by
  unfold normalizeAttrValue
  simp only
  refine congrArg (Outcome.map _) ?_
  by_cases hn : normalizeEol v = []
  · rw [if_pos hn, if_pos hn]
  · rw [if_neg hn, if_neg hn]
    refine scanAttr_plain _ _ ?_
    intro c hc
    rcases mem_normalizeEol v hc with h | h
    · exact hv c h
    · subst h; exact ⟨by decide, by decide⟩

theorem recordId_exact (u : Uni) {n a : NodeId} (nm : Name) (h : Heap) (hna : a ≠ n)
    (hc : ∀ c ∈ (h.get a).children, c ≠ n ∧ ∀ x, (h.get c).ext ≠ .document x)
    (ht : (h.get a).ntype = .attribute) (hx : ∀ x, (h.get a).ext ≠ .document x)
    (hk : nm.isIdAttribute true = true → ∀ c ∈ XmlDom.attrRaw h a, c ≠ '&' ∧ c ≠ '%') :
    ∃ o, recordId u n a nm [(n, true)] h = (o, (XmlDom.recordId u h n a nm).2) ∧
      (o.map fun _ => a) = (XmlDom.recordId u h n a nm).1 := by
  have hg : (a, true) ∉ [(n, true)] := by simp [hna]
  rw [recordId, bind_run, unwrapAsType_run hg, if_pos ht]
  simp only
  rw [bind_ok (ownerDocument_run hg h)]
  unfold XmlDom.recordId
  cases ho : XmlDom.ownerDocument h a with
  | none => exact ⟨_, rfl, rfl⟩
  | some d =>
    simp only [unwrapSome_some]
    rw [bind_ok (pure_run ..)]
    by_cases hd : d = n
    · rw [if_pos hd, withMut_held (by simp [hd])]
      exact ⟨_, rfl, rfl⟩
    · rw [if_neg hd, withMut_run (by simp [hd]) (by simp), bind_ok (load_run ..)]
      split
      · rename_i z he
        rw [he]
        simp only
        by_cases hid : nm.isIdAttribute z.options.hasAssumeIds = true
        · rw [if_pos hid, if_pos hid]
          have hda : a ≠ d := by
            intro e; subst e; exact hx z he
          have hid' : nm.isIdAttribute true = true := by
            generalize z.options.hasAssumeIds = b at hid
            cases b with
            | true => exact hid
            | false => simp [Name.isIdAttribute] at hid ⊢; exact hid.1
          have hv : attrValue u a [(d, true), (n, true)] h = (XmlDom.attrValue u h a, h) := by
            rw [attrValue_guarded u (by simp [hna, hda]) h]
            · unfold XmlDom.attrValue
              split
              · rfl
              · rw [normalizeAttrValue_plain u _ (XmlDom.resolveEntity h a) false _ (hk hid')]
            · intro c hm
              obtain ⟨h1, h2⟩ := hc c hm
              have : c ≠ d := by
                intro e; subst e; exact h2 z he
              simp [h1, this]
          rw [bind_run, hv]
          cases XmlDom.attrValue u h a with
          | ok o =>
            cases o with
            | none => exact ⟨_, rfl, rfl⟩
            | some id =>
              simp only [unwrapSome_some]
              rw [bind_ok (pure_run ..)]
              by_cases hm : (mapGet id z.idMap).isSome = true
              · rw [if_pos hm, if_pos hm]
                exact ⟨_, rfl, rfl⟩
              · rw [if_neg hm, if_neg hm, store_run]
                exact ⟨_, rfl, rfl⟩
          | err e => exact ⟨_, rfl, rfl⟩
          | panic k => exact ⟨_, rfl, rfl⟩
          | diverge => exact ⟨_, rfl, rfl⟩
        · rw [if_neg hid, if_neg hid]
          exact ⟨_, rfl, rfl⟩
      · rename_i hne
        generalize hq : (h.get d).ext = q at hne ⊢
        cases q with
        | document z => exact absurd rfl (hne z)
        | _ => simp only [ite_self]; exact ⟨_, rfl, rfl⟩

theorem attrRaw_joined {h h3 : Heap} {n a : NodeId} (hj : Joined h h3 n a)
    (hn : (h.get n).ntype = .element) (hp : PlainChildren h a) :
    XmlDom.attrRaw h3 a = XmlDom.attrRaw h a := by
  unfold XmlDom.attrRaw
  have hcs : (h3.get a).children = (h.get a).children := by rw [hj.2.2.1]
  rw [hcs]
  have : ∀ cs : List NodeId, (∀ c ∈ cs, c ∈ (h.get a).children) →
      cs.flatMap (fun c => attrChildText (h3.get c)) =
        cs.flatMap fun c => attrChildText (h.get c) := by
    intro cs
    induction cs with
    | nil => intro _; rfl
    | cons c cs ih =>
      intro hm
      have hcn : c ≠ n := by
        intro e; subst e; exact (hp c (hm c List.mem_cons_self)).1 hn
      rw [List.flatMap_cons, List.flatMap_cons,
        ih fun x hx => hm x (List.mem_cons_of_mem _ hx)]
      congr 1
      by_cases hca : c = a
      · subst hca; rw [hj.2.2.1]; rfl
      · rw [hj.2.2.2 c hcn hca]
  exact this _ fun _ => id

/-- Outside the case of `LockedLookup` the guards change nothing at all. -/
theorem setAttributeNode_exact (e : Env) {n a : NodeId} (h : Heap)
    (hp : (h.get a).ntype = .attribute → PlainChildren h a) (hk : ¬ LockedLookup h a) :
    setAttributeNode e n a [] h = XmlDom.setAttributeNode e h n a := by
  have := setAttributeNode_via e (n := n) (a := a) h (fun o o' => o = o') (fun _ => rfl) ?_
  · exact Prod.ext this.2 this.1
  · intro h3 hn ha hna hj
    refine recordId_exact e.uni (h.get a).name h3 hna (joined_plain hj hn (hp ha))
      (by rw [hj.2.2.1]; exact ha) (by intro x; rw [hj.2.2.1]; exact fun hh => by cases hh) ?_
    intro hid c hc
    rw [attrRaw_joined hj hn (hp ha)] at hc
    refine ⟨?_, ?_⟩ <;> intro he <;> subst he
    · exact hk ⟨hid, _, hc, Or.inl rfl⟩
    · exact hk ⟨hid, _, hc, Or.inr rfl⟩

theorem newAttribute_plain (h : Heap) (d : NodeId) (nm : Name) (v : Str) :
    PlainChildren (h.newAttribute d nm (some v)).2 (h.newAttribute d nm (some v)).1 := by
  intro c hc
  simp [Heap.newAttribute] at hc
  subst hc
  have : (h.alloc (Node.newText d v)).1 ≠ (h.alloc (Node.newText d v)).2.next :=
    Nat.ne_of_lt (Nat.lt_succ_self _)
  simp [Heap.newAttribute, Heap.get_alloc, Node.newText]

theorem newAttribute_name (h : Heap) (d : NodeId) (nm : Name) (v : Str) :
    ((h.newAttribute d nm (some v)).2.get (h.newAttribute d nm (some v)).1).name = nm ∧
      XmlDom.attrRaw (h.newAttribute d nm (some v)).2 (h.newAttribute d nm (some v)).1 = v := by
  simp [Heap.newAttribute, XmlDom.attrRaw, attrChildText, Node.newText]

/-- `set_attribute` with its guards, unless the value of an id is looked up. -/
theorem setAttributeNamed_exact (e : Env) (n : NodeId) (o : Outcome Name) (v : Str) (h : Heap)
    (hk : ∀ nm, o = .ok nm → nm.isIdAttribute true = true → ∀ c ∈ v, c ≠ '&' ∧ c ≠ '%') :
    setAttributeNamed e n o v [] h = XmlDom.setAttributeNamed e h n o v := by
  unfold setAttributeNamed XmlDom.setAttributeNamed
  rw [bind_run, lift_run]
  cases o with
  | ok nm =>
    simp only
    rw [bind_run, withMut_run (by simp) (by simp), bind_ok (load_run ..)]
    cases (h.get n).owner with
    | none => rfl
    | some d =>
      simp only [unwrapSome_some, pure_run]
      rw [bind_run, newAttribute]
      simp only
      rw [bind_run, setAttributeNode_exact e (n := n) (h.newAttribute d nm (some v)).2
        (a := (h.newAttribute d nm (some v)).1) fun _ => newAttribute_plain h d nm v]
      · generalize XmlDom.setAttributeNode e (h.newAttribute d nm (some v)).2 n
          (h.newAttribute d nm (some v)).1 = q
        rcases q with ⟨q, h2⟩
        cases q <;> rfl
      · rintro ⟨h1, c, hc, hor⟩
        rw [(newAttribute_name h d nm v).1] at h1
        rw [(newAttribute_name h d nm v).2] at hc
        exact hor.elim (hk nm rfl h1 c hc).1 (hk nm rfl h1 c hc).2
  | err x => rfl
  | panic k => rfl
  | diverge => rfl

theorem setAttributeNamed_run (e : Env) (n : NodeId) (o : Outcome Name) (v : Str) (h : Heap) :
    Agree (setAttributeNamed e n o v [] h) (XmlDom.setAttributeNamed e h n o v) id := by
  unfold setAttributeNamed XmlDom.setAttributeNamed
  rw [bind_run, lift_run]
  cases o with
  | ok nm =>
    simp only
    rw [bind_run, withMut_run (by simp) (by simp), bind_ok (load_run ..)]
    cases (h.get n).owner with
    | none => exact ⟨rfl, rfl⟩
    | some d =>
      simp only [unwrapSome_some, pure_run]
      rw [bind_run, newAttribute]
      simp only
      obtain ⟨r1, r2⟩ := setAttributeNode_run e (n := n) (h.newAttribute d nm (some v)).2
        (a := (h.newAttribute d nm (some v)).1) fun _ => newAttribute_plain h d nm v
      rw [bind_run]
      generalize setAttributeNode e n (h.newAttribute d nm (some v)).1 []
        (h.newAttribute d nm (some v)).2 = p at r1 r2 ⊢
      generalize XmlDom.setAttributeNode e (h.newAttribute d nm (some v)).2 n
        (h.newAttribute d nm (some v)).1 = q at r1 r2 ⊢
      rcases p with ⟨p, h1⟩
      rcases q with ⟨q, h2⟩
      change h1 = h2 at r1
      subst r1
      cases p <;> cases q <;> simp [Outcome.blur, Outcome.map] at r2 <;>
        simp [Agree, Result.void, Outcome.map, Outcome.blur, r2]
  | err x => exact ⟨rfl, rfl⟩
  | panic k => exact ⟨rfl, rfl⟩
  | diverge => exact ⟨rfl, rfl⟩

theorem removeAttributeNode_run (n a : NodeId) (h : Heap) :
    removeAttributeNode n a [] h = XmlDom.removeAttributeNode h n a := by
  rw [removeAttributeNode, bind_ok (isType_run (by simp) _ h)]
  unfold XmlDom.removeAttributeNode
  by_cases hn : (h.get n).ntype = .element
  · rw [if_pos (by simpa using hn), if_pos hn, withMut_run (by simp) (by simp),
      bind_ok (load_run ..)]
    cases hx : (h.get n).ext with
    | element attrs nss =>
      simp only
      by_cases ha : a = n
      · rw [if_pos ha, bind_run, nodeName, read_held (by simp [ha])]
      · rw [if_neg ha, bind_ok (nodeName_run (by simp [ha]) h), bind_ok (store_run ..),
          withMut_run (by simp [ha]) (by simp), bind_ok (load_run ..), bind_ok (store_run ..)]
        rfl
    | _ => rfl
  · rw [if_neg (by simpa using hn), if_neg hn]
    rfl

theorem removeFound_run (n : NodeId) (o : Outcome (Option NodeId)) (h : Heap) :
    (lift o >>= fun r => match r with
      | none => pure ()
      | some a => do
        let _ ← removeAttributeNode n a
        pure ()) [] h = removeFound h n o := by
  rw [bind_run, lift_run]
  cases o with
  | ok r =>
    cases r with
    | none => rfl
    | some a =>
      simp only
      rw [bind_run, removeAttributeNode_run]
      unfold removeFound Result.void
      simp only
      rcases XmlDom.removeAttributeNode h n a with ⟨q, h1⟩
      cases q <;> rfl
  | err x => rfl
  | panic k => rfl
  | diverge => rfl

theorem removeAttribute_run (e : Env) (n : NodeId) (k : Str) (h : Heap) :
    removeAttribute e n k [] h = XmlDom.removeAttribute e h n k := by
  have := removeFound_run n (XmlDom.getAttributeNode e h n k) h
  rw [bind_run, lift_run] at this
  rw [removeAttribute, bind_run, getAttributeNode_run shared_nil]
  exact this

theorem removeAttributeNs_run (e : Env) (n : NodeId) (uri l : Str) (h : Heap) :
    removeAttributeNs e n uri l [] h = XmlDom.removeAttributeNs e h n uri l := by
  have := removeFound_run n (XmlDom.getAttributeNodeNs e h n uri l) h
  rw [bind_run, lift_run] at this
  rw [removeAttributeNs, bind_run, getAttributeNodeNs_run shared_nil]
  exact this

/-! ## Documents and copies -/

theorem setXmlDeclaration_run (n : NodeId) (d : XmlDecl) (h : Heap) :
    setXmlDeclaration n d [] h = XmlDom.setXmlDeclaration h n d := by
  rw [setXmlDeclaration, withMut_run (by simp) (by simp), bind_ok (load_run ..)]
  unfold XmlDom.setXmlDeclaration
  cases (h.get n).ext with
  | document y => simp only; rw [store_run]
  | _ => rfl

theorem cloneList_run {r : NodeId → Prog NodeId} {q : Heap → NodeId → Result NodeId}
    {g : List Guard} (hr : ∀ h c, r c g h = q h c) (cs : List NodeId) :
    ∀ h, cloneList r cs g h = XmlDom.cloneList q h cs := by
  induction cs with
  | nil => intro h; rfl
  | cons c cs ih =>
    intro h
    rw [cloneList, bind_run, hr]
    unfold XmlDom.cloneList
    rcases q h c with ⟨o, h1⟩
    cases o with
    | ok c' =>
      simp only
      rw [bind_run, ih]
      rcases XmlDom.cloneList q h1 cs with ⟨o, h2⟩
      cases o <;> rfl
    | err e => rfl
    | panic k => rfl
    | diverge => rfl

theorem cloneNode_run (fuel : Nat) : ∀ {n : NodeId} {deep : Bool} {g : List Guard}, Shared g →
    ∀ h, cloneNode fuel n deep g h = XmlDom.cloneNode fuel h n deep := by
  induction fuel with
  | zero => intros; rfl
  | succ fuel ih =>
    intro n deep g s h
    rw [cloneNode, withRef_run (s n), bind_ok (load_run ..)]
    unfold XmlDom.cloneNode
    cases deep with
    | false => rfl
    | true =>
      simp only [if_true]
      rw [bind_run, cloneList_run (q := fun h c => XmlDom.cloneNode fuel h c true)
        fun h c => ih (s.cons n) h]
      rcases XmlDom.cloneList (fun h c => XmlDom.cloneNode fuel h c true) h (h.get n).children
        with ⟨o, h1⟩
      cases o <;> rfl

theorem createDocumentWithOptions_run (uri q : Option Str) (t : Option NodeId) (o : Options)
    (h : Heap) : createDocumentWithOptions uri q t o [] h =
      XmlDom.createDocumentWithOptions h uri q t o := by
  rw [createDocumentWithOptions, bind_ok (alloc_run ..)]
  unfold XmlDom.createDocumentWithOptions
  simp only
  have hd : ∀ k : Heap, (k.get (h.alloc (Node.newDocument t o)).1).ntype = .document →
      asType .document (h.alloc (Node.newDocument t o)).1 [] k = (.ok (), k) := by
    intro k hk
    rw [asType_run (by simp), if_pos hk]
  have h0 : ((h.alloc (Node.newDocument t o)).2.get (h.alloc (Node.newDocument t o)).1).ntype =
    .document := by simp [Node.newDocument]
  have step : ∀ nm, (asType .document (h.alloc (Node.newDocument t o)).1 >>= fun _ => do
      let _ ← appendChild (h.alloc (Node.newDocument t o)).1
        ((h.alloc (Node.newDocument t o)).2.alloc
          (Node.newElement (h.alloc (Node.newDocument t o)).1 nm)).1
      pure (h.alloc (Node.newDocument t o)).1) []
        ((h.alloc (Node.newDocument t o)).2.alloc
          (Node.newElement (h.alloc (Node.newDocument t o)).1 nm)).2 =
      match XmlDom.appendChild ((h.alloc (Node.newDocument t o)).2.alloc
          (Node.newElement (h.alloc (Node.newDocument t o)).1 nm)).2
          (h.alloc (Node.newDocument t o)).1 ((h.alloc (Node.newDocument t o)).2.alloc
          (Node.newElement (h.alloc (Node.newDocument t o)).1 nm)).1 with
        | (.ok _, h2) => (.ok (h.alloc (Node.newDocument t o)).1, h2)
        | x => x := by
    intro nm
    have hne : (h.alloc (Node.newDocument t o)).1 ≠ (h.alloc (Node.newDocument t o)).2.next :=
      Nat.ne_of_lt (Nat.lt_succ_self _)
    rw [bind_ok (hd _ (by rw [Heap.get_alloc, if_neg hne]; exact h0)), bind_run, appendChild_run]
    rcases XmlDom.appendChild ((h.alloc (Node.newDocument t o)).2.alloc
          (Node.newElement (h.alloc (Node.newDocument t o)).1 nm)).2
          (h.alloc (Node.newDocument t o)).1 ((h.alloc (Node.newDocument t o)).2.alloc
          (Node.newElement (h.alloc (Node.newDocument t o)).1 nm)).1 with ⟨r, h2⟩
    cases r <;> rfl
  rw [bind_ok (hd _ h0)]
  cases q with
  | none => cases uri <;> rfl
  | some q =>
    cases uri with
    | none =>
      simp only
      unfold XmlDom.createElement createNamed
      cases Name.fromStr q with
      | ok nm =>
        simp only
        refine Eq.trans ?_ ((step nm).trans ?_)
        · rfl
        · split <;> simp_all
      | err e => rfl
      | panic k => rfl
      | diverge => rfl
    | some u =>
      simp only
      unfold XmlDom.createElementNs createNamed
      cases Name.newNs u q with
      | ok nm =>
        simp only
        refine Eq.trans ?_ ((step nm).trans ?_)
        · rfl
        · split <;> simp_all
      | err e => rfl
      | panic k => rfl
      | diverge => rfl

end Cell
end XmlDom
