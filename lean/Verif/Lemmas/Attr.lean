import Verif.Lemmas.Guarded
import Verif.Lemmas.Witness
import Verif.Spec.Attr
import Verif.Props.Name
import Verif.Props.Text

/-!
# Attribute maps: what the calls on them change and what they leave
-/

namespace XmlDom

open Spec

/-! ## Looking up in a hash map -/

/-- Searching two lists that agree on what is searched, where at most one entry
qualifies, finds the same. -/
theorem find?_unique {α : Type} {p : α → Bool} {l l' : List α}
    (hm : ∀ x, p x = true → (x ∈ l ↔ x ∈ l'))
    (hu : ∀ x ∈ l, ∀ y ∈ l, p x = true → p y = true → x = y) : l.find? p = l'.find? p := by
  cases h1 : l.find? p with
  | none =>
    symm
    rw [List.find?_eq_none] at h1 ⊢
    intro x hx hp
    exact h1 x ((hm x hp).mpr hx) hp
  | some x =>
    have hp := List.find?_some h1
    have hx := List.mem_of_find?_eq_some h1
    cases h2 : l'.find? p with
    | none => exact absurd hp (List.find?_eq_none.mp h2 x ((hm x hp).mp hx))
    | some y =>
      have hp' := List.find?_some h2
      have hy := List.mem_of_find?_eq_some h2
      rw [hu x hx y ((hm y hp').mpr hy) hp hp']

theorem isSome_find? {α : Type} (p : α → Bool) (l : List α) :
    (l.find? p).isSome = l.any p := by
  rw [Bool.eq_iff_iff, List.find?_isSome, List.any_eq_true]

theorem mapRemove_of_notMem {κ ν : Type} [DecidableEq κ] {k : κ} {m : List (κ × ν)}
    (h : ∀ e ∈ m, e.1 ≠ k) : mapRemove k m = m := by
  unfold mapRemove
  rw [List.filter_eq_self]
  intro e he
  simp [h e he]

/-! ## Lookups in terms of `attributes` -/

theorem attrOrder_nil {e : Env} (he : e.Ok) (n : NodeId) : e.attrOrder n [] = [] :=
  (he.attrOrder n []).eq_nil

theorem getAttributeNode_eq {e : Env} (he : e.Ok) {h : Heap} {n : NodeId} (s : Str)
    (ht : (h.get n).ntype = .element) :
    getAttributeNode e h n s =
      match Name.fromStr s with
      | .ok _ => .ok (((e.attrOrder n (attributes h n)).find? fun kv =>
          decide (kv.1.display = s)).map (·.2))
      | .err _ => .ok none
      | .panic k => .panic k
      | .diverge => .diverge := by
  unfold getAttributeNode attributes
  rw [if_pos ht, if_pos ht]
  cases hf : Name.fromStr s with
  | ok nm =>
    simp only [Props.C28_display_fromStr s nm hf]
    cases (h.get n).ext <;> simp [attrOrder_nil he]
  | err _ => rfl
  | panic _ => rfl
  | diverge => rfl

theorem getAttributeNodeNs_eq {e : Env} (he : e.Ok) {h : Heap} {n : NodeId} (uri s : Str)
    (ht : (h.get n).ntype = .element) :
    getAttributeNodeNs e h n uri s =
      match Name.newNs uri s with
      | .ok _ => .ok (((e.attrOrder n (attributes h n)).find? fun kv =>
          decide (kv.1.namespaceUri = some uri ∧ kv.1.localName = s)).map (·.2))
      | .err _ => .ok none
      | .panic k => .panic k
      | .diverge => .diverge := by
  unfold getAttributeNodeNs attributes
  rw [if_pos ht, if_pos ht]
  cases hf : Name.newNs uri s with
  | ok nm => cases (h.get n).ext <;> simp [attrOrder_nil he]
  | err _ => rfl
  | panic _ => rfl
  | diverge => rfl

/-- In a reachable state an attribute node is listed once on an element. -/
theorem Inv.attr_key {h : Heap} (i : Inv h) {n : NodeId} (hn : h.live n = true) {k : Name}
    {a : NodeId} (hm : (k, a) ∈ attributes h n) :
    (h.get a).ntype = .attribute ∧ (h.get a).name = k ∧ h.live a = true := by
  unfold attributes at hm
  split at hm
  · split at hm
    · rename_i attrs nss hx
      obtain ⟨h1, h2⟩ := (i.attrKeys n attrs nss hn hx).2.2 k a hm
      exact ⟨h1, h2, i.wf.strong n hn a (mem_strongRefs.mpr (Or.inr (Or.inl ⟨_, _, _, hx, hm⟩)))⟩
    · cases hm
  · cases hm

theorem Inv.attributes_nodup {h : Heap} (i : Inv h) {n : NodeId} (hn : h.live n = true) :
    KeysNodup (attributes h n) := by
  unfold attributes
  split
  · split
    · rename_i attrs nss hx
      exact (i.attrKeys n attrs nss hn hx).1
    · exact keysNodup_nil
  · exact keysNodup_nil

/-- Two lookups by qualified name find the same when the entries of that name are the same
and there is at most one. -/
theorem getAttributeNode_congr {e e' : Env} (he : e.Ok) (he' : e'.Ok) {h h' : Heap} {n : NodeId}
    {s : Str} (i : Inv h) (hn : h.live n = true)
    (ht : (h'.get n).ntype = (h.get n).ntype)
    (hm : ∀ k a, k.display = s → ((k, a) ∈ attributes h n ↔ (k, a) ∈ attributes h' n))
    (hu : OneNamed h n s) : getAttributeNode e' h' n s = getAttributeNode e h n s := by
  by_cases h1 : (h.get n).ntype = .element
  · rw [getAttributeNode_eq he s h1, getAttributeNode_eq he' s (ht.trans h1)]
    cases hf : Name.fromStr s with
    | ok nm =>
      simp only
      rw [find?_unique (l := e.attrOrder n (attributes h n))
        (l' := e'.attrOrder n (attributes h' n))]
      · rintro ⟨k, a⟩ hp
        rw [(he.attrOrder _ _).mem_iff, (he'.attrOrder _ _).mem_iff]
        exact hm k a (by simpa using hp)
      · rintro ⟨k, a⟩ hx ⟨k', a'⟩ hy hp hp'
        rw [(he.attrOrder _ _).mem_iff] at hx hy
        simp only [decide_eq_true_eq] at hp hp'
        have : a = a' := hu a a' ⟨k, hx, hp⟩ ⟨k', hy, hp'⟩
        subst this
        rw [← (i.attr_key hn hx).2.1, ← (i.attr_key hn hy).2.1]
    | err _ => rfl
    | panic _ => rfl
    | diverge => rfl
  · unfold getAttributeNode
    rw [if_neg h1, if_neg (by rw [ht]; exact h1)]

theorem getAttributeNodeNs_congr {e e' : Env} (he : e.Ok) (he' : e'.Ok) {h h' : Heap} {n : NodeId}
    {uri s : Str} (i : Inv h) (hn : h.live n = true)
    (ht : (h'.get n).ntype = (h.get n).ntype)
    (hm : ∀ k a, k.namespaceUri = some uri ∧ k.localName = s →
      ((k, a) ∈ attributes h n ↔ (k, a) ∈ attributes h' n))
    (hu : OneNamedNs h n uri s) : getAttributeNodeNs e' h' n uri s = getAttributeNodeNs e h n uri s := by
  by_cases h1 : (h.get n).ntype = .element
  · rw [getAttributeNodeNs_eq he uri s h1, getAttributeNodeNs_eq he' uri s (ht.trans h1)]
    cases hf : Name.newNs uri s with
    | ok nm =>
      simp only
      rw [find?_unique (l := e.attrOrder n (attributes h n))
        (l' := e'.attrOrder n (attributes h' n))]
      · rintro ⟨k, a⟩ hp
        rw [(he.attrOrder _ _).mem_iff, (he'.attrOrder _ _).mem_iff]
        exact hm k a (by simpa using hp)
      · rintro ⟨k, a⟩ hx ⟨k', a'⟩ hy hp hp'
        rw [(he.attrOrder _ _).mem_iff] at hx hy
        simp only [decide_eq_true_eq] at hp hp'
        have : a = a' := hu a a' ⟨k, hx, hp⟩ ⟨k', hy, hp'⟩
        subst this
        rw [← (i.attr_key hn hx).2.1, ← (i.attr_key hn hy).2.1]
    | err _ => rfl
    | panic _ => rfl
    | diverge => rfl
  · unfold getAttributeNodeNs
    rw [if_neg h1, if_neg (by rw [ht]; exact h1)]

/-! ## Frames -/

/-- What an extension keeps when attributes, namespaces and ids are recorded. -/
def SameExt : Ext → Ext → Prop
  | .document a, y => ∃ b, y = .document b ∧ b.docType = a.docType ∧ b.options = a.options
  | .element _ _, y => ∃ a n, y = .element a n
  | .attribute _, y => ∃ w, y = .attribute w
  | x, y => y = x

theorem SameExt.refl (x : Ext) : SameExt x x := by
  cases x <;> simp [SameExt]

theorem SameExt.trans {x y z : Ext} (h1 : SameExt x y) (h2 : SameExt y z) : SameExt x z := by
  cases x <;> simp only [SameExt] at h1 ⊢
  all_goals
    first
    | (subst h1; exact h2)
    | (obtain ⟨b, rfl, h3, h4⟩ := h1
       obtain ⟨c, rfl, h5, h6⟩ := h2
       exact ⟨c, rfl, h5.trans h3, h6.trans h4⟩)
    | (obtain ⟨a, b, rfl⟩ := h1; exact h2)

/-- The nodes of `h` are kept in `h'` except for parent links, attribute maps, namespace
maps, id maps and owner elements. -/
structure Frame (h h' : Heap) : Prop where
  next : h.next ≤ h'.next
  live : ∀ m, m < h.next → h'.live m = h.live m
  ntype : ∀ m, m < h.next → (h'.get m).ntype = (h.get m).ntype
  name : ∀ m, m < h.next → (h'.get m).name = (h.get m).name
  value : ∀ m, m < h.next → (h'.get m).value = (h.get m).value
  owner : ∀ m, m < h.next → (h'.get m).owner = (h.get m).owner
  children : ∀ m, m < h.next → (h'.get m).children = (h.get m).children
  ext : ∀ m, m < h.next → SameExt (h.get m).ext (h'.get m).ext

theorem Frame.refl (h : Heap) : Frame h h :=
  ⟨Nat.le_refl _, fun _ _ => rfl, fun _ _ => rfl, fun _ _ => rfl, fun _ _ => rfl, fun _ _ => rfl,
    fun _ _ => rfl, fun _ _ => .refl _⟩

theorem Frame.trans {a b c : Heap} (f : Frame a b) (g : Frame b c) : Frame a c := by
  have hl : ∀ m, m < a.next → m < b.next := fun m hm => Nat.lt_of_lt_of_le hm f.next
  exact ⟨Nat.le_trans f.next g.next,
    fun m hm => (g.live m (hl m hm)).trans (f.live m hm),
    fun m hm => (g.ntype m (hl m hm)).trans (f.ntype m hm),
    fun m hm => (g.name m (hl m hm)).trans (f.name m hm),
    fun m hm => (g.value m (hl m hm)).trans (f.value m hm),
    fun m hm => (g.owner m (hl m hm)).trans (f.owner m hm),
    fun m hm => (g.children m (hl m hm)).trans (f.children m hm),
    fun m hm => (f.ext m hm).trans (g.ext m (hl m hm))⟩

theorem Frame.set {h : Heap} {n : NodeId} {p : Option NodeId} {x : Ext}
    (hx : SameExt (h.get n).ext x) : Frame h (h.set n { h.get n with parent := p, ext := x }) := by
  constructor <;> (try intro m hm)
  · simp
  all_goals
    by_cases hmn : m = n
    · subst hmn; simp [hx]
    · simp [hmn, SameExt.refl]

theorem Frame.alloc (h : Heap) (x : Node) : Frame h (h.alloc x).2 := by
  constructor
  · exact Nat.le_succ _
  all_goals
    intro m hm
    have : m ≠ h.next := Nat.ne_of_lt hm
    simp [this, SameExt.refl]

theorem Frame.newAttribute (h : Heap) (d : NodeId) (nm : Name) (v : Option Str) :
    Frame h (h.newAttribute d nm v).2 := by
  unfold Heap.newAttribute
  cases v with
  | none => exact .alloc _ _
  | some v => exact (Frame.alloc _ _).trans (.alloc _ _)

/-- Resolving entities reads nothing that a frame changes. -/
theorem Frame.resolveEntity {h h' : Heap} (f : Frame h h') (w : WF h) {a : NodeId}
    (ha : h.live a = true) : resolveEntity h' a = resolveEntity h a := by
  have hlt := w.fresh a ha
  have hdt : ∀ d, d < h.next →
      (match (h'.get d).ext with | .document x => x.docType | _ => none) =
      (match (h.get d).ext with | .document x => x.docType | _ => none) := by
    intro d hd
    have := f.ext d hd
    revert this
    cases (h.get d).ext with
    | document x => rintro ⟨b, hb, h1, _⟩; rw [hb]; exact h1
    | element _ _ => rintro ⟨b, c, hb⟩; rw [hb]
    | «attribute» _ => rintro ⟨b, hb⟩; rw [hb]
    | _ => intro hb; rw [show (h'.get d).ext = _ from hb]
  have hown : ∀ d, ownerDocument h a = some d → d < h.next ∧ h.live d = true := by
    intro d hd
    have := (Heap.upgrade_some.mp hd).2
    exact ⟨w.fresh d this, this⟩
  have howner : ownerDocument h' a = ownerDocument h a := by
    unfold ownerDocument
    rw [f.owner a hlt]
    cases ho : (h.get a).owner with
    | none => rfl
    | some d =>
      have hd : d < h.next := w.weak a ha d (mem_weakRefs.mpr (Or.inr (Or.inl ho)))
      unfold Heap.upgrade
      simp only [f.live d hd]
  have hres : resolverDocType h' a = resolverDocType h a := by
    unfold resolverDocType
    simp only [f.ntype a hlt, howner]
    cases (h.get a).ntype <;> try first | rfl | exact congrArg Outcome.ok (hdt a hlt)
    all_goals
      cases ho : ownerDocument h a with
      | none => rfl
      | some d =>
        simp only [f.ntype d (hown d ho).1]
        split
        · exact congrArg Outcome.ok (hdt d (hown d ho).1)
        · rfl
  have hlive : ∀ t, resolverDocType h a = .ok (some t) → h.live t = true := by
    intro t ht
    unfold resolverDocType at ht
    have key : ∀ d, h.live d = true →
        (match (h.get d).ext with | .document x => x.docType | _ => none) = some t →
        h.live t = true := by
      intro d hd hm
      cases hx : (h.get d).ext with
      | document x =>
        rw [hx] at hm
        exact w.strong d hd t (mem_strongRefs.mpr (Or.inr (Or.inr (Or.inl ⟨x, hx, hm⟩))))
      | _ => rw [hx] at hm; cases hm
    simp only at ht
    split at ht
    · cases ht; exact ha
    · exact key a ha (Outcome.ok.inj ht)
    · split at ht
      · cases ht
      · rename_i d hd
        split at ht
        · exact key d (hown d hd).2 (Outcome.ok.inj ht)
        · cases ht
  funext s
  unfold XmlDom.resolveEntity
  rw [hres]
  cases hr : resolverDocType h a with
  | ok o =>
    cases o with
    | none => rfl
    | some t =>
      have hl := hlive t hr
      have ht := w.fresh t hl
      simp only [Outcome.bind_ok, f.ntype t ht]
      split
      · cases Name.fromStr s with
        | ok nm =>
          simp only
          have := f.ext t ht
          cases hx : (h.get t).ext with
          | documentType x =>
            rw [hx] at this
            rw [show (h'.get t).ext = _ from this]
            simp only
            cases hg : mapGet nm x.entities with
            | none => rfl
            | some e =>
              have he : h.live e = true := w.strong t hl e (mem_strongRefs.mpr
                (Or.inr (Or.inr (Or.inr ⟨x, nm, hx, Or.inl (mapGet_eq_some_mem hg)⟩))))
              simp only [f.value e (w.fresh e he)]
          | document x => rw [hx] at this; obtain ⟨b, hb, _⟩ := this; rw [hb]
          | element _ _ => rw [hx] at this; obtain ⟨b, c, hb⟩ := this; rw [hb]
          | «attribute» _ => rw [hx] at this; obtain ⟨b, hb⟩ := this; rw [hb]
          | none => rw [hx] at this; rw [show (h'.get t).ext = _ from this]
          | entity _ _ _ => rw [hx] at this; rw [show (h'.get t).ext = _ from this]
          | «notation» _ _ => rw [hx] at this; rw [show (h'.get t).ext = _ from this]
        | err _ => rfl
        | panic _ => rfl
        | diverge => rfl
      · rfl
  | err _ => rfl
  | panic _ => rfl
  | diverge => rfl

theorem Frame.attrRaw {h h' : Heap} (f : Frame h h') (w : WF h) {a : NodeId}
    (ha : h.live a = true) : attrRaw h' a = attrRaw h a := by
  unfold XmlDom.attrRaw
  rw [f.children a (w.fresh a ha)]
  rw [List.flatMap_def, List.flatMap_def]
  congr 1
  apply List.map_congr_left
  intro c hc
  have hlt := w.fresh c (w.child ha hc)
  unfold attrChildText
  rw [f.ntype c hlt, f.value c hlt]

/-- The value of an attribute is kept by a frame. -/
theorem Frame.attrValue {h h' : Heap} (f : Frame h h') (w : WF h) (u : Uni) {a : NodeId}
    (ha : h.live a = true) : attrValue u h' a = attrValue u h a := by
  unfold XmlDom.attrValue
  rw [f.resolveEntity w ha, f.attrRaw w ha, f.children a (w.fresh a ha)]

/-! ## What the calls do -/

/-- The attribute map in an extension. -/
def attrsOf : Ext → List (Name × NodeId)
  | .element attrs _ => attrs
  | _ => []

theorem attributes_eq_attrsOf (h : Heap) (n : NodeId) :
    attributes h n = if (h.get n).ntype = .element then attrsOf (h.get n).ext else [] := by
  unfold attributes attrsOf
  rfl

theorem attributes_setExt (h : Heap) (n m : NodeId) (x : Ext) :
    attributes (h.set n { h.get n with ext := x }) m =
      if m = n then (if (h.get n).ntype = .element then attrsOf x else []) else attributes h m := by
  rw [attributes_eq_attrsOf, attributes_eq_attrsOf]
  by_cases hm : m = n
  · subst hm; simp
  · simp [hm]

theorem attributes_keep {h : Heap} {n : NodeId} {x : Ext} (hx : attrsOf x = attrsOf (h.get n).ext)
    (m : NodeId) : attributes (h.set n { h.get n with ext := x }) m = attributes h m := by
  rw [attributes_setExt]
  split
  · rename_i hm; subst hm
    rw [attributes_eq_attrsOf, hx]
  · rfl

/-- The attributes of the nodes other than `n` are kept. -/
def OthersKept (n : NodeId) (h h' : Heap) : Prop :=
  ∀ m, m < h.next → m ≠ n → attributes h' m = attributes h m

/-- `record_namespace` changes no attributes. -/
theorem recordNamespace_frame (u : Uni) (h : Heap) (n a : NodeId) (nm : Name) :
    Frame h (recordNamespace u h n a nm).2 ∧
      (∀ m, attributes (recordNamespace u h n a nm).2 m = attributes h m) ∧
      (recordNamespace u h n a nm).2.next = h.next ∧
      (recordNamespace u h n a nm).2.live = h.live ∧
      (∀ m, ((recordNamespace u h n a nm).2.get m).ntype = (h.get m).ntype) ∧
      ∀ m, m ≠ n → (recordNamespace u h n a nm).2.get m = h.get m := by
  unfold recordNamespace
  split
  · split
    · exact ⟨.refl _, fun _ => rfl, rfl, rfl, fun _ => rfl, fun _ _ => rfl⟩
    · exact ⟨.refl _, fun _ => rfl, rfl, rfl, fun _ => rfl, fun _ _ => rfl⟩
    · exact ⟨.refl _, fun _ => rfl, rfl, rfl, fun _ => rfl, fun _ _ => rfl⟩
    · exact ⟨.refl _, fun _ => rfl, rfl, rfl, fun _ => rfl, fun _ _ => rfl⟩
    · unfold insertMapping
      split
      · exact ⟨.refl _, fun _ => rfl, rfl, rfl, fun _ => rfl, fun _ _ => rfl⟩
      · split
        · split
          · rename_i attrs nss hx
            refine ⟨Frame.set (by rw [hx]; exact ⟨_, _, rfl⟩),
              fun m => attributes_keep (by rw [hx]; rfl) m, rfl, rfl, fun m => ?_,
              fun m hm => Heap.get_set_ne _ _ hm⟩
            by_cases hm : m = n
            · subst hm; simp
            · simp [hm]
          · exact ⟨.refl _, fun _ => rfl, rfl, rfl, fun _ => rfl, fun _ _ => rfl⟩
        · exact ⟨.refl _, fun _ => rfl, rfl, rfl, fun _ => rfl, fun _ _ => rfl⟩
  · exact ⟨.refl _, fun _ => rfl, rfl, rfl, fun _ => rfl, fun _ _ => rfl⟩

/-- `record_id` changes no attributes. -/
theorem recordId_frame (u : Uni) (h : Heap) (n a : NodeId) (nm : Name) :
    Frame h (recordId u h n a nm).2 ∧
      (∀ m, attributes (recordId u h n a nm).2 m = attributes h m) ∧
      (recordId u h n a nm).2.next = h.next := by
  unfold recordId
  split
  · exact ⟨.refl _, fun _ => rfl, rfl⟩
  · rename_i d hd
    simp only
    split
    · exact ⟨.refl _, fun _ => rfl, rfl⟩
    · cases hx : (h.get d).ext with
      | document x =>
        simp only
        split
        · split
          · exact ⟨.refl _, fun _ => rfl, rfl⟩
          · exact ⟨.refl _, fun _ => rfl, rfl⟩
          · exact ⟨.refl _, fun _ => rfl, rfl⟩
          · exact ⟨.refl _, fun _ => rfl, rfl⟩
          · split
            · exact ⟨.refl _, fun _ => rfl, rfl⟩
            · exact ⟨Frame.set (by rw [hx]; exact ⟨_, rfl, rfl, rfl⟩),
                fun m => attributes_keep (by rw [hx]; rfl) m, rfl⟩
        · exact ⟨.refl _, fun _ => rfl, rfl⟩
      | _ =>
        simp only
        split
        · exact ⟨.refl _, fun _ => rfl, rfl⟩
        · exact ⟨.refl _, fun _ => rfl, rfl⟩

/-- The only error of `record_id` is `Syntax`. -/
theorem recordId_err {u : Uni} {h h' : Heap} {n a : NodeId} {nm : Name} {x : DomError}
    (hr : recordId u h n a nm = (.err x, h')) (hv : ∀ y, attrValue u h a ≠ .err y) :
    x = .syntax := by
  unfold recordId at hr
  split at hr
  · cases hr
  · rename_i d hd
    simp only at hr
    split at hr
    · cases hr
    · cases hx : (h.get d).ext with
      | document y =>
        simp only [hx] at hr
        split at hr
        · split at hr
          · rename_i y hy; exact absurd hy (hv y)
          · cases hr
          · cases hr
          · cases hr
          · split at hr
            · cases hr; rfl
            · cases hr
        · cases hr
      | _ =>
        simp only [hx] at hr
        split at hr <;> cases hr

/-- `set_attribute_node` either keeps all attributes, and then does not succeed, or puts
the attribute under its name into the map of the element and changes no other
attributes. -/
theorem setAttributeNode_effect (e : Env) (h : Heap) (n a : NodeId) :
    Frame h (setAttributeNode e h n a).2 ∧ (setAttributeNode e h n a).2.next = h.next ∧
    (((∀ m, attributes (setAttributeNode e h n a).2 m = attributes h m) ∧
        ∀ b, (setAttributeNode e h n a).1 ≠ .ok b) ∨
      ((h.get n).ntype = .element ∧ (h.get a).ntype = .attribute ∧
        attributes (setAttributeNode e h n a).2 n =
          mapInsert (h.get a).name a (attributes h n) ∧
        (∀ m, m ≠ n → attributes (setAttributeNode e h n a).2 m = attributes h m) ∧
        ∃ h3, attributes h3 = attributes (setAttributeNode e h n a).2 ∧ Frame h h3 ∧
          h3.next = h.next ∧ recordId e.uni h3 n a (h.get a).name = setAttributeNode e h n a)) := by
  unfold setAttributeNode
  split
  · rename_i ht
    have hne : n ≠ a := fun hna => by
      subst hna
      rw [ht.1] at ht
      exact absurd ht.2 (by decide)
    split
    · exact ⟨.refl _, rfl, Or.inl ⟨fun _ => rfl, by simp⟩⟩
    · exact ⟨.refl _, rfl, Or.inl ⟨fun _ => rfl, by simp⟩⟩
    · exact ⟨.refl _, rfl, Or.inl ⟨fun _ => rfl, by simp⟩⟩
    · split
      · rename_i w hx
        have f1 : Frame h (h.set a { h.get a with ext := .attribute (some n) }) :=
          Frame.set (by rw [hx]; exact ⟨_, rfl⟩)
        have a1 : ∀ m, attributes (h.set a { h.get a with ext := .attribute (some n) }) m =
            attributes h m := attributes_keep (by rw [hx]; rfl)
        have n1 : ((h.set a { h.get a with ext := .attribute (some n) }).get a).name =
            (h.get a).name := by simp
        have t1 : ((h.set a { h.get a with ext := .attribute (some n) }).get n).ntype =
            .element := by simp [hne, ht.1]
        have x1 : ((h.set a { h.get a with ext := .attribute (some n) }).get n).ext =
            (h.get n).ext := by simp [hne]
        have nx1 : (h.set a { h.get a with ext := .attribute (some n) }).next = h.next := rfl
        simp only [n1]
        generalize h.set a { h.get a with ext := .attribute (some n) } = h1 at *
        obtain ⟨f2, a2, nx2, l2, ty2, g2⟩ := recordNamespace_frame e.uni h1 n a (h.get a).name
        generalize recordNamespace e.uni h1 n a (h.get a).name = q at *
        obtain ⟨o, h2⟩ := q
        simp only at f2 a2 nx2 l2 ty2 g2
        have f12 := f1.trans f2
        have a12 : ∀ m, attributes h2 m = attributes h m := fun m => (a2 m).trans (a1 m)
        have nx12 := nx2.trans nx1
        cases o with
        | err _ => exact ⟨f12, nx12, Or.inl ⟨a12, by simp⟩⟩
        | panic _ => exact ⟨f12, nx12, Or.inl ⟨a12, by simp⟩⟩
        | diverge => exact ⟨f12, nx12, Or.inl ⟨a12, by simp⟩⟩
        | ok _ =>
          simp only
          unfold storeAttribute
          split
          · rename_i attrs nss hx2
            have n2 : (h2.get a).name = (h.get a).name := by
              rw [g2 a hne.symm]; exact n1
            simp only [n2]
            have f3 : Frame h2 (h2.set n { h2.get n with
                ext := .element (mapInsert (h.get a).name a attrs) nss }) :=
              Frame.set (by rw [hx2]; exact ⟨_, _, rfl⟩)
            have t2 : (h2.get n).ntype = .element := (ty2 n).trans t1
            have at2 : attributes h2 n = attrs := by
              unfold attributes; rw [if_pos t2, hx2]
            obtain ⟨f4, a4, nx4⟩ := recordId_frame e.uni (h2.set n { h2.get n with
                ext := .element (mapInsert (h.get a).name a attrs) nss }) n a (h.get a).name
            refine ⟨f12.trans (f3.trans f4), nx4.trans nx12, Or.inr ⟨ht.1, ht.2, ?_, ?_, ?_⟩⟩
            · refine (a4 n).trans ((attributes_setExt h2 n n _).trans ?_)
              rw [if_pos rfl, if_pos t2, ← a12, at2]
              rfl
            · intro m hm
              refine (a4 m).trans ((attributes_setExt h2 n m _).trans ?_)
              rw [if_neg hm]
              exact a12 m
            · refine ⟨_, ?_, f12.trans f3, nx12, rfl⟩
              funext m
              exact (a4 m).symm
          · exact ⟨f12, nx12, Or.inl ⟨a12, by simp⟩⟩
      · exact ⟨.refl _, rfl, Or.inl ⟨fun _ => rfl, by simp⟩⟩
  · exact ⟨.refl _, rfl, Or.inl ⟨fun _ => rfl, by simp⟩⟩

/-- `set_attribute` and `set_attribute_ns`: every old attribute value is kept; either all
attribute maps are kept, and the call does not succeed, or a new attribute that reads `v`
is put under its name. -/
theorem setAttributeNamed_effect (e : Env) (h : Heap) {n : NodeId} (hn : n < h.next) (o : Outcome Name)
    (v : Str) :
    Frame h (setAttributeNamed e h n o v).2 ∧
    (((∀ m, m < h.next → attributes (setAttributeNamed e h n o v).2 m = attributes h m) ∧
        (setAttributeNamed e h n o v).1 ≠ .ok ()) ∨
      ∃ nm a, o = .ok nm ∧ h.next ≤ a ∧ (h.get n).ntype = .element ∧
        ((setAttributeNamed e h n o v).2.get a).ntype = .attribute ∧
        ((setAttributeNamed e h n o v).2.get a).children ≠ [] ∧
        attrRaw (setAttributeNamed e h n o v).2 a = v ∧
        attributes (setAttributeNamed e h n o v).2 n = mapInsert nm a (attributes h n) ∧
        ∀ m, m < h.next → m ≠ n →
          attributes (setAttributeNamed e h n o v).2 m = attributes h m) := by
  unfold setAttributeNamed
  split
  · exact ⟨.refl _, Or.inl ⟨fun _ _ => rfl, by simp⟩⟩
  · exact ⟨.refl _, Or.inl ⟨fun _ _ => rfl, by simp⟩⟩
  · exact ⟨.refl _, Or.inl ⟨fun _ _ => rfl, by simp⟩⟩
  · rename_i nm
    split
    · exact ⟨.refl _, Or.inl ⟨fun _ _ => rfl, by simp⟩⟩
    · rename_i d _
      simp only [Result.void]
      have f1 := Frame.newAttribute h d nm (some v)
      have g1 : ∀ m, m < h.next → (h.newAttribute d nm (some v)).2.get m = h.get m := by
        intro m hm
        have h1 : m ≠ h.next := Nat.ne_of_lt hm
        have h2 : m ≠ h.next + 1 := Nat.ne_of_lt (Nat.lt_succ_of_lt hm)
        simp [Heap.newAttribute, h1, h2]
      have a1 : ∀ m, m < h.next →
          attributes (h.newAttribute d nm (some v)).2 m = attributes h m := by
        intro m hm
        unfold attributes
        rw [g1 m hm]
      have id1 : (h.newAttribute d nm (some v)).1 = h.next + 1 := rfl
      have nx1 : (h.newAttribute d nm (some v)).2.next = h.next + 2 := rfl
      have hne : ((h.next : NodeId) = h.next + 1) = False :=
        eq_false (Nat.ne_of_lt (Nat.lt_succ_self _))
      have node1 : ((h.newAttribute d nm (some v)).2.get (h.next + 1)) =
          { ntype := .attribute, name := nm, value := none, parent := none,
            owner := some d, children := [h.next], ext := .attribute none } := by
        simp [Heap.newAttribute]
      have text1 : ((h.newAttribute d nm (some v)).2.get h.next) = Node.newText d v := by
        simp only [Heap.newAttribute, Heap.get_alloc, Heap.next_alloc, hne, if_false, if_true]
      obtain ⟨f2, nx2, h2⟩ := setAttributeNode_effect e (h.newAttribute d nm (some v)).2 n
        (h.newAttribute d nm (some v)).1
      rw [id1] at f2 nx2 h2 ⊢
      generalize (h.newAttribute d nm (some v)).2 = h1 at *
      rw [node1] at h2
      generalize setAttributeNode e h1 n (h.next + 1) = q at *
      obtain ⟨o, h'⟩ := q
      simp only at f2 nx2 h2 ⊢
      refine ⟨f1.trans f2, ?_⟩
      rcases h2 with ⟨h3, h4⟩ | ⟨h3, _, h5, h6, _⟩
      · refine Or.inl ⟨fun m hm => (h3 m).trans (a1 m hm), ?_⟩
        cases o with
        | ok b => exact absurd rfl (h4 b)
        | err _ => simp
        | panic _ => simp
        | diverge => simp
      · have l1 : h.next + 1 < h1.next := by rw [nx1]; exact Nat.lt_succ_self _
        have l2 : h.next < h1.next := by rw [nx1]; exact Nat.lt_succ_of_lt (Nat.lt_succ_self _)
        refine Or.inr ⟨nm, h.next + 1, rfl, Nat.le_succ _, ?_, ?_, ?_, ?_, ?_, ?_⟩
        · rw [← g1 n hn]; exact h3
        · rw [f2.ntype _ l1, node1]
        · rw [f2.children _ l1, node1]; simp
        · unfold attrRaw
          rw [f2.children _ l1, node1]
          simp only [List.flatMap_cons, List.flatMap_nil, List.append_nil]
          unfold attrChildText
          rw [f2.ntype _ l2, f2.value _ l2, text1]
          rfl
        · rw [h5, a1 n hn]
        · intro m hm hmn
          rw [h6 m hmn, a1 m hm]

/-- `remove_attribute_node`: the entry under the name of the attribute goes, everything
else about attributes stays. -/
theorem removeAttributeNode_effect (h : Heap) (n a : NodeId) :
    Frame h (removeAttributeNode h n a).2 ∧
    (((∀ m, attributes (removeAttributeNode h n a).2 m = attributes h m) ∧
        (∀ b, (removeAttributeNode h n a).1 ≠ .ok b)) ∨
      ((removeAttributeNode h n a).1 = .ok a ∧
        attributes (removeAttributeNode h n a).2 n = mapRemove (h.get a).name (attributes h n) ∧
        ∀ m, m ≠ n → attributes (removeAttributeNode h n a).2 m = attributes h m)) := by
  unfold removeAttributeNode
  split
  · rename_i ht
    split
    · rename_i attrs nss hx
      split
      · exact ⟨.refl _, Or.inl ⟨fun _ => rfl, by simp⟩⟩
      · rename_i hne
        simp only
        have hat : attributes h n = attrs := by
          unfold attributes
          rw [if_pos ht, hx]
        have f1 : Frame h (h.set n { h.get n with
            ext := .element (mapRemove (h.get a).name attrs) nss }) :=
          Frame.set (by rw [hx]; exact ⟨_, _, rfl⟩)
        have a1 := fun m => attributes_setExt h n m (.element (mapRemove (h.get a).name attrs) nss)
        generalize h.set n { h.get n with
          ext := .element (mapRemove (h.get a).name attrs) nss } = h1 at *
        have f2 : Frame h1 (h1.set a { h1.get a with parent := none }) :=
          Frame.set (.refl _)
        have a2 : ∀ m, attributes (h1.set a { h1.get a with parent := none }) m =
            attributes h1 m := by
          intro m
          unfold attributes
          by_cases hm : m = a
          · subst hm; simp
          · simp [hm]
        refine ⟨f1.trans f2, Or.inr ⟨trivial, ?_, fun m hm => ?_⟩⟩
        · rw [a2, a1, if_pos rfl, if_pos ht, hat]; rfl
        · rw [a2, a1, if_neg hm]
    · exact ⟨.refl _, Or.inl ⟨fun _ => rfl, by simp⟩⟩
  · exact ⟨.refl _, Or.inl ⟨fun _ => rfl, by simp⟩⟩

/-! ## Names -/

theorem append_colon_inj {a b c d : Str} (ha : ':' ∉ a) (hc : ':' ∉ c)
    (h : a ++ ':' :: b = c ++ ':' :: d) : a = c ∧ b = d := by
  induction a generalizing c with
  | nil =>
    cases c with
    | nil => exact ⟨rfl, by simpa using h⟩
    | cons x xs =>
      simp only [List.nil_append, List.cons_append, List.cons.injEq] at h
      exact absurd (by rw [← h.1]; simp) hc
  | cons y ys ih =>
    cases c with
    | nil =>
      simp only [List.nil_append, List.cons_append, List.cons.injEq] at h
      exact absurd (by rw [h.1]; simp) ha
    | cons x xs =>
      simp only [List.cons_append, List.cons.injEq] at h
      obtain ⟨h1, h2⟩ := ih (fun hm => ha (by simp [hm])) (fun hm => hc (by simp [hm])) h.2
      exact ⟨by rw [h.1, h1], h2⟩

/-- A valid name is given by its namespace and the way it prints. -/
theorem NameOk.ext {a b : Name} (ha : NameOk a) (hb : NameOk b)
    (hu : a.namespaceUri = b.namespaceUri) (hd : a.display = b.display) : a = b := by
  obtain ⟨ua, pa, la⟩ := a
  obtain ⟨ub, pb, lb⟩ := b
  obtain ⟨ha1, ha2⟩ := ha
  obtain ⟨hb1, hb2⟩ := hb
  simp only at ha1 ha2 hb1 hb2 hu
  subst hu
  unfold Name.display at hd
  cases pa with
  | none =>
    cases pb with
    | none => simp only at hd; rw [hd]
    | some q =>
      simp only at hd
      have : ':' ∈ la := by rw [hd]; simp [Syn.nsSeparator]
      exact absurd this ha1.2
  | some p =>
    cases pb with
    | none =>
      simp only at hd
      have : ':' ∈ lb := by rw [← hd]; simp [Syn.nsSeparator]
      exact absurd this hb1.2
    | some q =>
      simp only at hd
      obtain ⟨h1, h2⟩ := append_colon_inj (ha2 p rfl).2 (hb2 q rfl).2 hd
      rw [h1, h2]

/-! ## Errors and ids -/

theorem charFromEntity_ne_err (s : Str) (x : DomError) : charFromEntity s ≠ .err x := by
  unfold charFromEntity
  intro h
  repeat' split at h
  all_goals cases h

theorem scanAttr_ne_err {u : Uni} {ent : Str → Outcome Str} (he : ∀ s x, ent s ≠ .err x) (x : DomError) :
    ∀ n s, scanAttr u ent n s ≠ .err x := by
  intro n
  induction n with
  | zero => intro s h; cases h
  | succ n ih =>
    intro s
    cases s with
    | nil => intro h; cases h
    | cons c cs =>
      unfold scanAttr
      have key : ∀ {α : Type} (o : Outcome α) (t : Str) (f : α → Str → Str),
          (∀ x, o ≠ .err x) →
          (o.bind fun r => (scanAttr u ent n t).map fun t => f r t) ≠ .err x := by
        intro α o t f ho h
        cases o with
        | ok r =>
          simp only [Outcome.bind_ok] at h
          cases hs : scanAttr u ent n t with
          | err y =>
            rw [hs] at h
            simp only [Outcome.map_err, Outcome.err.injEq] at h
            subst h
            exact ih t hs
          | ok _ => rw [hs] at h; cases h
          | panic _ => rw [hs] at h; cases h
          | diverge => rw [hs] at h; cases h
        | err y => exact ho y rfl
        | panic _ => cases h
        | diverge => cases h
      split
      · exact key _ _ _ (fun y => he _ y)
      · split
        · exact key _ _ _ (fun y => charFromEntity_ne_err _ y)
        · split
          · exact key _ _ _ (fun y => charFromEntity_ne_err _ y)
          · split
            · exact key (.ok ()) cs (fun _ t => ' ' :: t) (by simp)
            · exact key (.ok ()) cs (fun _ t => c :: t) (by simp)

theorem resolveEntity_ne_err (h : Heap) (n : NodeId) (s : Str) (x : DomError) :
    resolveEntity h n s ≠ .err x := by
  intro hr
  unfold resolveEntity at hr
  have hd : ∀ y, resolverDocType h n ≠ .err y := by
    intro y hy
    unfold resolverDocType at hy
    simp only at hy
    repeat' split at hy
    all_goals cases hy
  cases hq : resolverDocType h n with
  | err y => exact hd y hq
  | panic _ => rw [hq] at hr; cases hr
  | diverge => rw [hq] at hr; cases hr
  | ok o =>
    rw [hq] at hr
    simp only [Outcome.bind_ok] at hr
    repeat' split at hr
    all_goals cases hr

/-- Reading an attribute value gives a value or panics, never an error. -/
theorem attrValue_ne_err (u : Uni) (h : Heap) (a : NodeId) (x : DomError) :
    attrValue u h a ≠ .err x := by
  intro hv
  unfold attrValue at hv
  split at hv
  · cases hv
  · unfold normalizeAttrValue at hv
    simp only at hv
    have hent : ∀ s y, ((resolveEntity h a s).bind fun r =>
        match r with
        | none => .panic .explicit
        | some replacement => normalizeAttrValue u (resolveEntity h a) false 0 replacement) ≠
        .err y := by
      intro s y hs
      cases hq : resolveEntity h a s with
      | err z => exact resolveEntity_ne_err h a s z hq
      | panic _ => rw [hq] at hs; cases hs
      | diverge => rw [hq] at hs; cases hs
      | ok o =>
        rw [hq] at hs
        cases o <;> cases hs
    have hscan := scanAttr_ne_err (u := u) hent x ((normalizeEol (attrRaw h a)).length + 1)
      (normalizeEol (attrRaw h a))
    by_cases hnil : normalizeEol (attrRaw h a) = []
    · rw [if_pos hnil] at hv; cases hv
    · rw [if_neg hnil] at hv
      revert hv hscan
      generalize scanAttr u _ _ _ = q
      cases q with
      | err y =>
        intro h2 h1
        exact h1 (by simpa using h2)
      | ok _ => intro h2 _; cases h2
      | panic _ => intro h2 _; cases h2
      | diverge => intro h2 _; cases h2

theorem isIdAttribute_local {n : Name} {lax : Bool} (h : n.isIdAttribute lax = true) :
    n.localName = Syn.idAttr := by
  unfold Name.isIdAttribute at h
  split at h
  · exact of_decide_eq_true h
  · exact (of_decide_eq_true h).1

/-- A failing `set_attribute_node` keeps the attributes, unless the error is `Syntax` for
an attribute whose local name is `id`. -/
theorem setAttributeNode_err {e : Env} {h h' : Heap} {n a : NodeId} {x : DomError}
    (hs : setAttributeNode e h n a = (.err x, h')) :
    (∀ m, attributes h' m = attributes h m) ∨
      (x = .syntax ∧ (h.get a).name.localName = Syn.idAttr ∧
        ∀ m, m ≠ n → attributes h' m = attributes h m) := by
  obtain ⟨_, _, h1⟩ := setAttributeNode_effect e h n a
  rw [hs] at h1
  rcases h1 with h1 | ⟨_, _, _, h2, h3, _, _, _, h4⟩
  · exact Or.inl h1.1
  · refine Or.inr ⟨recordId_err h4 (fun y => attrValue_ne_err _ _ _ y), ?_, h2⟩
    unfold recordId at h4
    split at h4
    · cases h4
    · simp only at h4
      split at h4
      · cases h4
      · rename_i d _ _
        cases hx : (h3.get d).ext with
        | document y =>
          simp only [hx] at h4
          split at h4
          · rename_i hid; exact isIdAttribute_local hid
          · cases h4
        | _ =>
          simp only [hx] at h4
          split at h4 <;> cases h4

/-- When the element and the attribute belong to the same document and the value of a
namespace declaration can be read, `set_attribute_node` gets as far as recording the id. -/
theorem setAttributeNode_reaches {e : Env} {h : Heap} (i : Inv h) {n a d : NodeId}
    (hn : h.live n = true) (ha : h.live a = true) (ht : (h.get n).ntype = .element)
    (hta : (h.get a).ntype = .attribute) (hdn : ownerDocument h n = some d)
    (hda : ownerDocument h a = some d)
    (hv : (h.get a).name.isNamespaceAttribute = true → ∃ v, attrValue e.uni h a = .ok (some v)) :
    ∃ h3, setAttributeNode e h n a = recordId e.uni h3 n a (h.get a).name ∧ Frame h h3 ∧
      h3.next = h.next ∧ (∀ m, m ≠ n → m ≠ a → h3.get m = h.get m) := by
  have hne : n ≠ a := fun hna => by
    subst hna
    rw [ht] at hta
    cases hta
  have ln := i.wf.fresh n hn
  have la := i.wf.fresh a ha
  have hx : ∃ w, (h.get a).ext = .attribute w := by
    have := i.exts a la
    rw [hta] at this
    exact this
  have hxn : ∃ attrs nss, (h.get n).ext = .element attrs nss := by
    have := i.exts n ln
    rw [ht] at this
    exact this
  obtain ⟨w, hx⟩ := hx
  obtain ⟨attrs, nss, hxn⟩ := hxn
  obtain ⟨o1, l1⟩ := Heap.upgrade_some.mp hdn
  obtain ⟨o2, _⟩ := Heap.upgrade_some.mp hda
  have hchk : checkSameDocument h n a = .ok () := by
    unfold checkSameDocument
    rw [ht, o1, o2]
    simp [l1]
  unfold setAttributeNode
  rw [if_pos ⟨ht, hta⟩, hchk]
  simp only [hx]
  have f1 : Frame h (h.set a { h.get a with ext := .attribute (some n) }) :=
    Frame.set (by rw [hx]; exact ⟨_, rfl⟩)
  have g1 : ∀ m, m ≠ a → (h.set a { h.get a with ext := .attribute (some n) }).get m = h.get m :=
    fun m hm => Heap.get_set_ne _ _ hm
  have n1 : ((h.set a { h.get a with ext := .attribute (some n) }).get a).name =
      (h.get a).name := by simp
  have nx1 : (h.set a { h.get a with ext := .attribute (some n) }).next = h.next := rfl
  simp only [n1]
  generalize h.set a { h.get a with ext := .attribute (some n) } = h1 at *
  have hrn : (recordNamespace e.uni h1 n a (h.get a).name).1 = .ok () := by
    unfold recordNamespace
    split
    · rename_i hns
      obtain ⟨v, hv⟩ := hv hns
      have hv1 : attrValue e.uni h1 a = .ok (some v) := (f1.attrValue i.wf _ ha).trans hv
      rw [hv1]
      simp only
      unfold insertMapping
      split
      · rfl
      · rw [g1 n hne, if_pos ht, hxn]
    · rfl
  obtain ⟨f2, _, nx2, _, ty2, g2⟩ := recordNamespace_frame e.uni h1 n a (h.get a).name
  generalize recordNamespace e.uni h1 n a (h.get a).name = q at *
  obtain ⟨o, h2⟩ := q
  simp only at hrn f2 nx2 ty2 g2
  subst hrn
  simp only
  have hx2 : ∃ attrs nss, (h2.get n).ext = .element attrs nss := by
    have h3 := f2.ext n (by rw [nx1]; exact ln)
    rw [g1 n hne, hxn] at h3
    exact h3
  obtain ⟨attrs2, nss2, hx2⟩ := hx2
  unfold storeAttribute
  rw [hx2]
  simp only
  refine ⟨_, rfl, f1.trans (f2.trans (Frame.set (by rw [hx2]; exact ⟨_, _, rfl⟩))), ?_, ?_⟩
  · exact nx2.trans nx1
  · intro m hmn hma
    exact (Heap.get_set_ne _ _ hmn).trans ((g2 m hmn).trans (g1 m hma))

/-- A namespace declaration whose value cannot be read makes `set_attribute_node` panic. -/
theorem setAttributeNode_declaration {e : Env} {h : Heap} (i : Inv h) {n a d : NodeId}
    (ha : h.live a = true) (ht : (h.get n).ntype = .element)
    (hta : (h.get a).ntype = .attribute) (hdn : ownerDocument h n = some d)
    (hda : ownerDocument h a = some d) (hns : (h.get a).name.isNamespaceAttribute = true)
    (hv : attrValue e.uni h a = .ok none ∨ (attrValue e.uni h a).Panics) :
    (setAttributeNode e h n a).1.Panics := by
  have hx : ∃ w, (h.get a).ext = .attribute w := by
    have := i.exts a (i.wf.fresh a ha)
    rw [hta] at this
    exact this
  obtain ⟨w, hx⟩ := hx
  obtain ⟨o1, l1⟩ := Heap.upgrade_some.mp hdn
  obtain ⟨o2, _⟩ := Heap.upgrade_some.mp hda
  have hchk : checkSameDocument h n a = .ok () := by
    unfold checkSameDocument
    rw [ht, o1, o2]
    simp [l1]
  unfold setAttributeNode
  rw [if_pos ⟨ht, hta⟩, hchk]
  simp only [hx]
  have f1 : Frame h (h.set a { h.get a with ext := .attribute (some n) }) :=
    Frame.set (by rw [hx]; exact ⟨_, rfl⟩)
  have n1 : ((h.set a { h.get a with ext := .attribute (some n) }).get a).name =
      (h.get a).name := by simp
  simp only [n1]
  generalize h.set a { h.get a with ext := .attribute (some n) } = h1 at *
  rw [← f1.attrValue i.wf _ ha] at hv
  unfold recordNamespace
  rw [if_pos hns]
  generalize attrValue e.uni h1 a = o at hv ⊢
  rcases hv with rfl | hv
  · simp
  · cases o <;> simp at hv ⊢

end XmlDom
