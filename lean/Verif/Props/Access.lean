import Verif.Spec.Access
import Verif.Props.Create
import Verif.Props.History
import Verif.Props.Attr
import Verif.Props.Namespaces

/-!
# C74-C86: reading methods, conversions, detached values
-/

namespace XmlDom
namespace Props

open Spec

/-- The state after one more call is reachable. -/
theorem reachable_apply {h : Heap} (hr : Reachable h) {op : Op} (ha : op.args.all h.live = true) :
    Reachable (op.apply plainEnv h) := by
  have := Reachable.run hr (ops := [(plainEnv, op)])
    (by intro x hx; cases List.mem_singleton.mp hx; exact plainEnv_ok)
  simp only [run, exec] at this
  rwa [if_pos ha] at this

/-! ## C74 -/

theorem qNameParts_fromStr {s : Str} {n : Name} (h : Name.fromStr s = .ok n) :
    QNameParts s n.pfx n.localName := by
  rcases fromStr_ok h with ⟨rfl, h1, _⟩ | ⟨p, l, rfl, rfl, h1, h2, _⟩
  · exact .inl ⟨rfl, rfl, h1.2⟩
  · exact .inr ⟨p, rfl, rfl, h1.2, h2.2⟩

theorem qNameParts_newNs {u s : Str} {n : Name} (h : Name.newNs u s = .ok n) :
    QNameParts s n.pfx n.localName := by
  obtain ⟨m, h1, _, rfl, _⟩ := (C29_new_ns_ok u s n).mp h
  have := qNameParts_fromStr h1
  exact this

/-- What the reading methods say about a node whose name is known. -/
theorem names_of_history {h : Heap} (hr : Reachable h) {ops : List (Env × Op)}
    (hok : ∀ x ∈ ops, x.1.Ok) {n : NodeId} (hn : h.live n = true) :
    nodeName (run ops h) n = nodeName h n :=
  (C68_type_and_name h hr ops hok n hn).2

/-- C74: whatever is called later, an element made by `create_element` has the tag name it
was made with, no namespace, and the parts of the tag name as prefix and local name. -/
theorem C74_element (h : Heap) (hr : Reachable h) (doc : NodeId) (hd : h.live doc = true)
    (tag : Str) (n : NodeId) (h' : Heap) (hc : createElement h doc tag = (.ok n, h'))
    (ops : List (Env × Op)) (hok : ∀ x ∈ ops, x.1.Ok) :
    tagName (run ops h') n = tag ∧ nodeNamespaceUri (run ops h') n = none ∧
      QNameParts tag (nodePrefix (run ops h') n) (nodeLocalName (run ops h') n) := by
  have hr' : Reachable h' := by
    have := reachable_apply hr (op := .createElement doc tag) (by simpa [Op.args] using hd)
    simpa [Op.apply, hc, leftBehind] using this
  obtain ⟨nm, h1, rfl, rfl⟩ := createNamed_ok hc
  have hl : (h.alloc (Node.newElement doc nm)).2.live h.next = true := by simp
  have hname := names_of_history hr' hok hl
  unfold tagName nodeNamespaceUri nodePrefix nodeLocalName
  rw [hname]
  simp only [nodeName, Heap.get_alloc, if_true, Node.newElement]
  exact ⟨C28_display_fromStr tag nm h1, (C27_only_qnames tag nm h1).2.1, qNameParts_fromStr h1⟩

/-- C74: the same for `create_element_ns`, with the given namespace. -/
theorem C74_element_ns (h : Heap) (hr : Reachable h) (doc : NodeId) (hd : h.live doc = true)
    (uri q : Str) (n : NodeId) (h' : Heap) (hc : createElementNs h doc uri q = (.ok n, h'))
    (ops : List (Env × Op)) (hok : ∀ x ∈ ops, x.1.Ok) :
    tagName (run ops h') n = q ∧ nodeNamespaceUri (run ops h') n = some uri ∧
      QNameParts q (nodePrefix (run ops h') n) (nodeLocalName (run ops h') n) := by
  have hr' : Reachable h' := by
    have := reachable_apply hr (op := .createElementNs doc uri q) (by simpa [Op.args] using hd)
    simpa [Op.apply, hc, leftBehind] using this
  obtain ⟨nm, h1, rfl, rfl⟩ := createNamed_ok hc
  have hl : (h.alloc (Node.newElement doc nm)).2.live h.next = true := by simp
  have hname := names_of_history hr' hok hl
  unfold tagName nodeNamespaceUri nodePrefix nodeLocalName
  rw [hname]
  simp only [nodeName, Heap.get_alloc, if_true, Node.newElement]
  exact ⟨(display_newNs h1).1, (display_newNs h1).2, qNameParts_newNs h1⟩

/-- C74: the same for attributes. -/
theorem C74_attribute (h : Heap) (hr : Reachable h) (doc : NodeId) (hd : h.live doc = true)
    (n : NodeId) (h' : Heap) (ops : List (Env × Op)) (hok : ∀ x ∈ ops, x.1.Ok) :
    (∀ name, createAttribute h doc name = (.ok n, h') →
      (nodeName (run ops h') n).display = name ∧ nodeNamespaceUri (run ops h') n = none ∧
      QNameParts name (nodePrefix (run ops h') n) (nodeLocalName (run ops h') n)) ∧
    (∀ name v, createAttributeWith h doc name v = (.ok n, h') →
      (nodeName (run ops h') n).display = name ∧ nodeNamespaceUri (run ops h') n = none ∧
      QNameParts name (nodePrefix (run ops h') n) (nodeLocalName (run ops h') n)) ∧
    (∀ uri q, createAttributeNs h doc uri q = (.ok n, h') →
      (nodeName (run ops h') n).display = q ∧ nodeNamespaceUri (run ops h') n = some uri ∧
      QNameParts q (nodePrefix (run ops h') n) (nodeLocalName (run ops h') n)) := by
  have key : ∀ (o : Outcome Name) (v : Option Str), createAttr h doc o v = (.ok n, h') →
      Reachable h' → ∃ nm, o = .ok nm ∧ nodeName (run ops h') n = nm := by
    intro o v hc hr'
    unfold createAttr at hc
    cases o with
    | err _ => simp at hc
    | panic _ => simp at hc
    | diverge => simp at hc
    | ok nm =>
      simp only [Prod.mk.injEq, Outcome.ok.injEq] at hc
      obtain ⟨rfl, rfl⟩ := hc
      refine ⟨nm, rfl, ?_⟩
      rw [names_of_history hr' hok (newAttribute_live h doc nm v)]
      unfold nodeName Heap.newAttribute
      cases v <;> simp
  refine ⟨?_, ?_, ?_⟩
  · intro name hc
    have hr' : Reachable h' := by
      have := reachable_apply hr (op := .createAttribute doc name) (by simpa [Op.args] using hd)
      simpa [Op.apply, hc, leftBehind] using this
    obtain ⟨nm, h1, h2⟩ := key _ _ hc hr'
    unfold nodeNamespaceUri nodePrefix nodeLocalName
    rw [h2]
    exact ⟨C28_display_fromStr name nm h1, (C27_only_qnames name nm h1).2.1, qNameParts_fromStr h1⟩
  · intro name v hc
    have hr' : Reachable h' := by
      have := reachable_apply hr (op := .createAttributeWith doc name v)
        (by simpa [Op.args] using hd)
      simpa [Op.apply, hc, leftBehind] using this
    obtain ⟨nm, h1, h2⟩ := key _ _ hc hr'
    unfold nodeNamespaceUri nodePrefix nodeLocalName
    rw [h2]
    exact ⟨C28_display_fromStr name nm h1, (C27_only_qnames name nm h1).2.1, qNameParts_fromStr h1⟩
  · intro uri q hc
    have hr' : Reachable h' := by
      have := reachable_apply hr (op := .createAttributeNs doc uri q) (by simpa [Op.args] using hd)
      simpa [Op.apply, hc, leftBehind] using this
    obtain ⟨nm, h1, h2⟩ := key _ _ hc hr'
    unfold nodeNamespaceUri nodePrefix nodeLocalName
    rw [h2]
    exact ⟨(display_newNs h1).1, (display_newNs h1).2, qNameParts_newNs h1⟩

/-- C74: the target of a processing instruction. -/
theorem C74_target (h : Heap) (hr : Reachable h) (doc : NodeId) (hd : h.live doc = true)
    (target : Str) (data : Option Str) (n : NodeId) (h' : Heap)
    (hc : createProcessingInstruction h doc target data = (.ok n, h'))
    (ops : List (Env × Op)) (hok : ∀ x ∈ ops, x.1.Ok) :
    piTarget (run ops h') n = target := by
  have hr' : Reachable h' := by
    have := reachable_apply hr (op := .createProcessingInstruction doc target data)
      (by simpa [Op.args] using hd)
    simpa [Op.apply, hc, leftBehind] using this
  obtain ⟨hm, _, h3, _⟩ := C67_processing_instruction h hr doc hd target data n h' hc
  unfold piTarget
  rw [names_of_history hr' hok hm.live]
  exact h3

/-- The state the examples of this file use: a document (0) with root (1), an element
`p:b` in the namespace `u` (2), an attribute (3), a processing instruction (4). -/
def namedHeap : Heap := after [mkDoc, .createElementNs 0 (c! "u") (c! "p:b"),
  .createAttribute 0 (c! "q:a"), .createProcessingInstruction 0 (c! "t") (some (c! "d"))]

example : Reachable namedHeap ∧ namedHeap.live 0 = true ∧
    (createElement namedHeap 0 (c! "p:b")).1 = .ok 5 ∧
    (createElementNs namedHeap 0 (c! "u") (c! "p:b")).1 = .ok 5 ∧
    tagName namedHeap 2 = c! "p:b" ∧ nodeLocalName namedHeap 2 = c! "b" ∧
    nodePrefix namedHeap 2 = some (c! "p") ∧ nodeNamespaceUri namedHeap 2 = some (c! "u") ∧
    nodeLocalName namedHeap 3 = c! "a" ∧ piTarget namedHeap 4 = c! "t" :=
  ⟨reachable_after _, by decide⟩

/-! ## C75 -/

/-- An extension that no call changes. -/
def FixedExt (x : Ext) : Prop :=
  match x with
  | .documentType _ | .entity _ _ _ | .notation _ _ | .none => True
  | _ => False

theorem Step.fixedExt {l : Label} {h h' : Heap} (hs : Step l h h') {n : NodeId} (hn : n < h.next)
    (hx : FixedExt (h.get n).ext) : (h'.get n).ext = (h.get n).ext := by
  have hc := hs.ext hn
  generalize (h'.get n).ext = y at hc
  cases hc with
  | keep => rfl
  | attrOwner ha => rw [ha] at hx; cases hx
  | attrPut ha => rw [ha] at hx; cases hx
  | nsPut ha => rw [ha] at hx; cases hx
  | attrDel ha => rw [ha] at hx; cases hx
  | idPut ha => rw [ha] at hx; cases hx
  | decl ha => rw [ha] at hx; cases hx

theorem run_fixedExt : ∀ (ops : List (Env × Op)) (h : Heap), (∀ x ∈ ops, x.1.Ok) → Inv h →
    ∀ n, n < h.next → FixedExt (h.get n).ext → ((run ops h).get n).ext = (h.get n).ext := by
  intro ops
  induction ops with
  | nil => intro h _ _ n _ _; rfl
  | cons x ops ih =>
    intro h hok i n hn hx
    have hs := exec_steps (hok x List.mem_cons_self) x.2 i.wf
    have key : ∀ {P : Heap → Label → Prop} {h h' : Heap}, Steps P h h' → n < h.next →
        FixedExt (h.get n).ext → n < h'.next ∧ (h'.get n).ext = (h.get n).ext := by
      intro P h h' a
      induction a with
      | refl => intro h1 _; exact ⟨h1, rfl⟩
      | step _ hs _ ih =>
        intro h1 h2
        have h3 := Step.fixedExt hs h1 h2
        have := ih (Nat.lt_of_lt_of_le h1 hs.grow.1) (by rw [h3]; exact h2)
        exact ⟨this.1, this.2.trans h3⟩
    obtain ⟨h1, h2⟩ := key hs hn hx
    have := ih (exec x.1 x.2 h) (fun y hy => hok y (List.mem_cons_of_mem _ hy)) (hs.invariant i) n h1
      (by rw [h2]; exact hx)
    exact this.trans h2

/-- C75: whatever is called later, a document type has the identifiers it was made with, and
it never gets entities, notations or an internal subset. -/
theorem C75_document_type (h : Heap) (hr : Reachable h) (q : Str) (p s : Option Str) (n : NodeId)
    (h' : Heap) (hc : createDocumentType h q p s = (.ok n, h'))
    (ops : List (Env × Op)) (hok : ∀ x ∈ ops, x.1.Ok) :
    dtPublicId (run ops h') n = p ∧ dtSystemId (run ops h') n = s ∧
      dtEntities (run ops h') n = [] ∧ dtNotations (run ops h') n = [] ∧
      dtInternalSubset (run ops h') n = none ∧ (nodeName (run ops h') n).display = q := by
  have hr' : Reachable h' := by
    have := reachable_apply hr (op := .createDocumentType q p s) (by simp [Op.args])
    simpa [Op.apply, hc, leftBehind] using this
  obtain ⟨nm, h1, rfl, rfl⟩ := createNamed_ok hc
  have hl : (h.alloc (Node.newDocumentType none nm p s)).2.live h.next = true := by simp
  have hx := run_fixedExt ops _ hok hr'.invariant h.next (Nat.lt_succ_self _)
    (by simp [Node.newDocumentType, FixedExt])
  have hname := names_of_history hr' hok hl
  unfold dtPublicId dtSystemId dtEntities dtNotations dtInternalSubset
  rw [hx, hname]
  simp only [nodeName, Heap.get_alloc, if_true, Node.newDocumentType]
  exact ⟨trivial, trivial, trivial, trivial, trivial, C28_display_fromStr q nm h1⟩

/-- C75: the same for notations. -/
theorem C75_notation (h : Heap) (hr : Reachable h) (doc : NodeId) (hd : h.live doc = true)
    (q : Str) (p s : Option Str) (n : NodeId)
    (h' : Heap) (hc : createNotation h doc q p s = (.ok n, h'))
    (ops : List (Env × Op)) (hok : ∀ x ∈ ops, x.1.Ok) :
    notationPublicId (run ops h') n = p ∧ notationSystemId (run ops h') n = s ∧
      (nodeName (run ops h') n).display = q := by
  have hr' : Reachable h' := by
    have := reachable_apply hr (op := .createNotation doc q p s) (by simpa [Op.args] using hd)
    simpa [Op.apply, hc, leftBehind] using this
  obtain ⟨nm, h1, rfl, rfl⟩ := createNamed_ok hc
  have hl : (h.alloc (Node.newNotation (some doc) nm p s)).2.live h.next = true := by simp
  have hx := run_fixedExt ops _ hok hr'.invariant h.next (Nat.lt_succ_self _)
    (by simp [Node.newNotation, FixedExt])
  have hname := names_of_history hr' hok hl
  unfold notationPublicId notationSystemId
  rw [hx, hname]
  simp only [nodeName, Heap.get_alloc, if_true, Node.newNotation]
  exact ⟨trivial, trivial, C28_display_fromStr q nm h1⟩

/-- C75: the same for entities; an entity made with a value has the value and no identifiers. -/
theorem C75_entity (h : Heap) (hr : Reachable h) (doc : NodeId) (hd : h.live doc = true)
    (q : Str) (n : NodeId) (h' : Heap) (ops : List (Env × Op)) (hok : ∀ x ∈ ops, x.1.Ok) :
    (∀ p s, createEntity h doc q p s = (.ok n, h') →
      entityPublicId (run ops h') n = p ∧ entitySystemId (run ops h') n = s ∧
      entityNotationName (run ops h') n = none ∧ (nodeName (run ops h') n).display = q ∧
      nodeValue h' n = none) ∧
    (∀ v, createInternalEntity h doc q v = (.ok n, h') →
      entityPublicId (run ops h') n = none ∧ entitySystemId (run ops h') n = none ∧
      entityNotationName (run ops h') n = none ∧ (nodeName (run ops h') n).display = q ∧
      nodeValue h' n = some v) := by
  constructor
  · intro p s hc
    have hr' : Reachable h' := by
      have := reachable_apply hr (op := .createEntity doc q p s) (by simpa [Op.args] using hd)
      simpa [Op.apply, hc, leftBehind] using this
    obtain ⟨nm, h1, rfl, rfl⟩ := createNamed_ok hc
    have hl : (h.alloc (Node.newEntity (some doc) nm p s)).2.live h.next = true := by simp
    have hx := run_fixedExt ops _ hok hr'.invariant h.next (Nat.lt_succ_self _)
      (by simp [Node.newEntity, FixedExt])
    have hname := names_of_history hr' hok hl
    unfold entityPublicId entitySystemId entityNotationName
    rw [hx, hname]
    simp only [nodeName, nodeValue, Heap.get_alloc, if_true, Node.newEntity]
    exact ⟨trivial, trivial, trivial, C28_display_fromStr q nm h1, trivial⟩
  · intro v hc
    have hr' : Reachable h' := by
      have := reachable_apply hr (op := .createInternalEntity doc q v) (by simpa [Op.args] using hd)
      simpa [Op.apply, hc, leftBehind] using this
    obtain ⟨nm, h1, rfl, rfl⟩ := createNamed_ok hc
    have hl : (h.alloc (Node.newInternalEntity (some doc) nm v)).2.live h.next = true := by simp
    have hx := run_fixedExt ops _ hok hr'.invariant h.next (Nat.lt_succ_self _)
      (by simp [Node.newInternalEntity, FixedExt])
    have hname := names_of_history hr' hok hl
    unfold entityPublicId entitySystemId entityNotationName
    rw [hx, hname]
    simp only [nodeName, nodeValue, Heap.get_alloc, if_true, Node.newInternalEntity]
    exact ⟨trivial, trivial, trivial, C28_display_fromStr q nm h1, trivial⟩

/-- C75: on a node of another type the methods answer with nothing; and no document type of
a reachable state has an entity or a notation. -/
theorem C75_elsewhere (h : Heap) (hr : Reachable h) (n : NodeId) (hn : h.live n = true) :
    (dtEntities h n = [] ∧ dtNotations h n = [] ∧ dtInternalSubset h n = none) ∧
    (nodeType h n ≠ .documentType → dtPublicId h n = none ∧ dtSystemId h n = none) ∧
    (nodeType h n ≠ .entity → entityPublicId h n = none ∧ entitySystemId h n = none ∧
      entityNotationName h n = none) ∧
    (nodeType h n ≠ .notationNode → notationPublicId h n = none ∧ notationSystemId h n = none) := by
  have i := hr.invariant
  have hx := i.exts n (i.wf.fresh n hn)
  unfold dtEntities dtNotations dtInternalSubset dtPublicId dtSystemId entityPublicId
    entitySystemId entityNotationName notationPublicId notationSystemId nodeType
  unfold ExtFor at hx
  cases ht : (h.get n).ntype <;> rw [ht] at hx <;> simp only at hx
  case element => obtain ⟨_, _, hx⟩ := hx; simp [hx]
  case «attribute» => obtain ⟨_, hx⟩ := hx; simp [hx]
  case document => obtain ⟨_, hx⟩ := hx; simp [hx]
  case documentType => obtain ⟨_, _, hx⟩ := hx; simp [hx]
  case entity => obtain ⟨_, _, hx⟩ := hx; simp [hx]
  case notationNode => obtain ⟨_, _, hx⟩ := hx; simp [hx]
  all_goals simp [hx]

/-- C75: no entity reference in an attribute value is ever replaced: the resolver finds no
replacement text in any reachable state, because no call puts an entity into a document
type. -/
theorem C75_never_resolved (h : Heap) (hr : Reachable h) (n : NodeId) (hn : h.live n = true)
    (entity v : Str) : resolveEntity h n entity ≠ .ok (some v) := by
  have i := hr.invariant
  have key : ∀ t x, h.live t = true → (h.get t).ext = .documentType x → x.entities = [] := by
    intro t x ht hx
    have := (C75_elsewhere h hr t ht).1.1
    unfold dtEntities at this
    rw [hx] at this
    exact this
  have hdt : ∀ t, resolverDocType h n = .ok (some t) → h.live t = true := by
    intro t ht
    have hdoc : ∀ d, h.live d = true → (match (h.get d).ext with
        | .document x => x.docType | _ => none) = some t → h.live t = true := by
      intro d hd hx
      split at hx
      · rename_i x hx'; exact i.docTypes d x t hd hx' hx
      · cases hx
    unfold resolverDocType at ht
    simp only at ht
    split at ht
    · cases ht; exact hn
    · exact hdoc n hn (Outcome.ok.inj ht)
    · split at ht
      · cases ht
      · rename_i d hd
        split at ht
        · exact hdoc d (Heap.upgrade_some.mp hd).2 (Outcome.ok.inj ht)
        · cases ht
  intro hf
  unfold resolveEntity at hf
  cases h1 : resolverDocType h n with
  | err _ => rw [h1] at hf; cases hf
  | panic _ => rw [h1] at hf; cases hf
  | diverge => rw [h1] at hf; cases hf
  | ok dt =>
    rw [h1] at hf
    simp only [Outcome.bind_ok] at hf
    cases dt with
    | none => cases hf
    | some t =>
      simp only at hf
      split at hf
      · split at hf
        · split at hf
          · rename_i x hx
            rw [key t x (hdt t h1) hx] at hf
            simp [mapGet] at hf
          · cases hf
        · cases hf
        · cases hf
        · cases hf
      · cases hf

example : Reachable (after [.createDocumentType (c! "t") (some (c! "p")) none]) ∧
    dtPublicId (after [.createDocumentType (c! "t") (some (c! "p")) none]) 0 = some (c! "p") ∧
    (createDocumentType Heap.empty (c! "t") (some (c! "p")) none).1 = .ok 0 ∧
    (createNotation namedHeap 0 (c! "n") none (some (c! "s"))).1 = .ok 5 ∧
    (createEntity namedHeap 0 (c! "n") none (some (c! "s"))).1 = .ok 5 ∧
    (createInternalEntity namedHeap 0 (c! "n") (c! "v")).1 = .ok 5 ∧ namedHeap.live 1 = true :=
  ⟨reachable_after _, by decide⟩

/-! ## C76 -/

/-- C76: a conversion accepts exactly the nodes of its types. -/
theorem C76_accepts (h : Heap) (n : NodeId) (v : View) :
    isView h n v = true ↔ nodeType h n ∈ viewTypes v := by
  unfold nodeType
  cases ht : (h.get n).ntype <;> cases v <;> simp [isView, ht, viewTypes, isCharacterData]

/-- C76: converting gives the node itself or fails with InvalidState, and nothing else. -/
theorem C76_as (h : Heap) (n : NodeId) (v : View) :
    (nodeType h n ∈ viewTypes v → asView h n v = .ok n) ∧
    (nodeType h n ∉ viewTypes v → asView h n v = .err .invalidState) := by
  unfold asView
  rw [← C76_accepts]
  constructor <;> intro hv <;> simp [hv]

/-- C76: every node has exactly one of the views that stand for a node type. -/
theorem C76_exactly_one (h : Heap) (n : NodeId) :
    ∃ v ∈ typeViews, isView h n v = true ∧ ∀ w ∈ typeViews, isView h n w = true → w = v := by
  have key : ∀ t : NodeType, ∃ v ∈ typeViews, t ∈ viewTypes v ∧
      ∀ w ∈ typeViews, t ∈ viewTypes w → w = v := by
    intro t; cases t <;> decide
  obtain ⟨v, h1, h2, h3⟩ := key (nodeType h n)
  exact ⟨v, h1, (C76_accepts h n v).mpr h2, fun w hw hx => h3 w hw ((C76_accepts h n w).mp hx)⟩

/-- C76: a conversion that succeeds once succeeds for ever, and one that fails fails for
ever. -/
theorem C76_stays (h : Heap) (hr : Reachable h) (ops : List (Env × Op)) (hok : ∀ x ∈ ops, x.1.Ok)
    (n : NodeId) (hn : h.live n = true) (v : View) :
    asView (run ops h) n v = asView h n v := by
  have ht := (C68_type_and_name h hr ops hok n hn).1
  by_cases hv : nodeType h n ∈ viewTypes v
  · rw [(C76_as h n v).1 hv, (C76_as (run ops h) n v).1 (ht ▸ hv)]
  · rw [(C76_as h n v).2 hv, (C76_as (run ops h) n v).2 (ht ▸ hv)]

/-- C76: the calls that only make sense on one view check for it: on a node without the
view they fail or panic, and change nothing. -/
theorem C76_calls (e : Env) (h : Heap) (hr : Reachable h) (n : NodeId) (hn : h.live n = true) :
    (isView h n .document = true ↔ docImplementation h n = .ok ()) ∧
    (isView h n .document = false ↔ (docImplementation h n).Panics) ∧
    (∀ d, isView h n .documentDecl = false →
      setXmlDeclaration h n d = (.err .invalidState, h)) ∧
    (∀ d, isView h n .documentDecl = true →
      ∃ h', setXmlDeclaration h n d = (.ok (), h') ∧ xmlDeclaration h' n = some d) ∧
    (∀ a, isView h n .element = false → setAttributeNode e h n a = (.err .invalidState, h)) ∧
    (∀ a, isView h a .attribute = false → setAttributeNode e h n a = (.err .invalidState, h)) ∧
    (∀ a, isView h n .element = false → removeAttributeNode h n a = (.err .invalidState, h)) ∧
    (∀ ov o, isView h n .characterData = false → splitText ov h n o = (.err .invalidState, h)) := by
  have i := hr.invariant
  have hx := i.exts n (i.wf.fresh n hn)
  have hdoc : isView h n .document = true ↔ ∃ x, (h.get n).ext = .document x := by
    simp only [isView, decide_eq_true_eq]
    constructor
    · intro ht; rw [ht] at hx; exact hx
    · rintro ⟨x, hx'⟩
      unfold ExtFor at hx
      rw [hx'] at hx
      cases ht : (h.get n).ntype <;> rw [ht] at hx <;> simp at hx
  refine ⟨?_, ?_, ?_, ?_, ?_, ?_, ?_, ?_⟩
  · rw [hdoc]
    unfold docImplementation
    constructor
    · rintro ⟨x, hx'⟩; rw [hx']
    · intro h1
      split at h1
      · exact ⟨_, by assumption⟩
      · cases h1
  · rw [← Bool.not_eq_true, hdoc]
    unfold docImplementation
    constructor
    · intro h1
      split
      · rename_i x hx'; exact absurd ⟨x, hx'⟩ h1
      · trivial
    · rintro h1 ⟨x, hx'⟩
      rw [hx'] at h1
      exact h1
  · intro d hv
    have : ¬ ∃ x, (h.get n).ext = .document x := by
      rw [← hdoc]; simpa [isView] using hv
    unfold setXmlDeclaration
    split
    · rename_i x hx'; exact absurd ⟨x, hx'⟩ this
    · rfl
  · intro d hv
    obtain ⟨x, hx'⟩ := hdoc.mp (by simpa [isView] using hv)
    refine ⟨_, by unfold setXmlDeclaration; rw [hx'], ?_⟩
    simp [xmlDeclaration]
  · intro a hv
    unfold setAttributeNode
    rw [if_neg (by simp only [isView, decide_eq_false_iff_not] at hv; exact fun hh => hv hh.1)]
  · intro a hv
    unfold setAttributeNode
    rw [if_neg (by simp only [isView, decide_eq_false_iff_not] at hv; exact fun hh => hv hh.2)]
  · intro a hv
    unfold removeAttributeNode
    rw [if_neg (by simpa [isView] using hv)]
  · intro ov o hv
    unfold splitText
    rw [if_pos (by simpa [isView] using hv)]

example : Reachable namedHeap ∧ asView namedHeap 2 .element = .ok 2 ∧
    asView namedHeap 2 .document = .err .invalidState ∧ namedHeap.live 2 = true ∧
    isView namedHeap 0 .documentDecl = true ∧ isView namedHeap 3 .attribute = true :=
  ⟨reachable_after _, by decide⟩

/-! ## C77 -/

/-- C77: the questions about children give the same answer. -/
theorem C77_children (h : Heap) (n : NodeId) :
    (hasChildNodes h n = true ↔ ∃ c, c ∈ childNodes h n) ∧
    (hasChildNodes h n = true ↔ firstChild h n ≠ none) ∧
    (hasChildNodes h n = true ↔ lastChild h n ≠ none) := by
  unfold hasChildNodes childNodes firstChild lastChild
  cases hc : (h.get n).children with
  | nil => simp
  | cons x xs => simp

/-- C77: the questions about attributes give the same answer: only elements have attributes,
and whatever a lookup finds is one of them. -/
theorem C77_attributes (e : Env) (h : Heap) (he : e.Ok) (n : NodeId) :
    (hasAttributes h n = true ↔ ∃ k a, (k, a) ∈ attributes h n) ∧
    (hasAttributes h n = true → nodeType h n = .element) ∧
    (∀ s a, getAttributeNode e h n s = .ok (some a) → hasAttributes h n = true) ∧
    (∀ u s a, getAttributeNodeNs e h n u s = .ok (some a) → hasAttributes h n = true) := by
  have h1 : hasAttributes h n = true ↔ ∃ k a, (k, a) ∈ attributes h n := by
    unfold hasAttributes
    cases hc : attributes h n with
    | nil => simp
    | cons x xs => simp; exact ⟨x.1, x.2, Or.inl rfl⟩
  refine ⟨h1, ?_, ?_, ?_⟩
  · intro hh
    obtain ⟨k, a, hm⟩ := h1.mp hh
    unfold attributes at hm
    split at hm
    · assumption
    · cases hm
  · intro s a hg
    rw [h1]
    by_cases ht : (h.get n).ntype = .element
    · rw [getAttributeNode_eq he s ht] at hg
      split at hg
      · simp only [Outcome.ok.injEq, Option.map_eq_some_iff] at hg
        obtain ⟨x, hx, _⟩ := hg
        exact ⟨x.1, x.2, (he.attrOrder n _).mem_iff.mp (List.mem_of_find?_eq_some hx)⟩
      all_goals cases hg
    · unfold getAttributeNode at hg
      rw [if_neg ht] at hg
      cases hg
  · intro u s a hg
    rw [h1]
    by_cases ht : (h.get n).ntype = .element
    · rw [getAttributeNodeNs_eq he u s ht] at hg
      split at hg
      · simp only [Outcome.ok.injEq, Option.map_eq_some_iff] at hg
        obtain ⟨x, hx, _⟩ := hg
        exact ⟨x.1, x.2, (he.attrOrder n _).mem_iff.mp (List.mem_of_find?_eq_some hx)⟩
      all_goals cases hg
    · unfold getAttributeNodeNs at hg
      rw [if_neg ht] at hg
      cases hg

/-- The owner element of a live attribute is an element. -/
theorem _root_.XmlDom.Reachable.ownerIsElement {h : Heap} (hr : Reachable h) : ∀ a e, h.live a = true →
    (h.get a).ext = .attribute (some e) → (h.get e).ntype = .element := by
  have : Inv h ∧ ∀ a e, h.live a = true →
    (h.get a).ext = .attribute (some e) → (h.get e).ntype = .element := by
    refine hr.inv (I := fun h => Inv h ∧ ∀ a e, h.live a = true →
      (h.get a).ext = .attribute (some e) → (h.get e).ntype = .element) ⟨Inv.empty, ?_⟩ ?_
    · intro a e hl; cases hl
    · intro e op h he hi
      refine (exec_steps he op hi.1.wf).inv (fun h => Inv h ∧ ∀ a e, h.live a = true →
        (h.get a).ext = .attribute (some e) → (h.get e).ntype = .element) ?_ hi
      intro h l h' hi _ hs
      refine ⟨hs.inv hi.1, ?_⟩
      intro a e hl hx
      have hold : ∀ b, h.live b = true → (h.get b).ext = .attribute (some e) →
          (h'.get e).ntype = .element := by
        intro b hb hbx
        have he : e < h.next := hi.1.wf.weak b hb e (by simp [weakRefs, hbx])
        rw [(hs.ident hi.1.wf hi.1.ownerNone he).1]
        exact hi.2 b e hb hbx
      rcases hs.newNode ((hs.inv hi.1).wf.fresh a hl) with hlt | hnew
      · have hc := hs.ext hlt
        have hlb := hs.grow.2 a hlt hl
        rw [hx] at hc
        generalize hy : Ext.attribute (some e) = y at hc
        cases hc with
        | keep => exact hold a hlb hy.symm
        | attrOwner ha he het =>
          cases hy
          rw [(hs.ident hi.1.wf hi.1.ownerNone (hi.1.wf.fresh _ he)).1]
          exact het
        | attrPut => cases hy
        | nsPut => cases hy
        | attrDel => cases hy
        | idPut => cases hy
        | decl => cases hy
      · cases hnew with
        | fresh hf _ hg =>
          have := hf.ext
          rw [← hg, hx] at this
          unfold FreshExt at this
          split at this <;> simp at this
        | attrText _ _ hg => rw [hg] at hx; cases hx
        | attr _ _ _ hg => rw [hg] at hx; cases hx
        | copy hm _ _ _ hg => rw [hg] at hx; exact hold _ hm hx
  exact this.2

/-- After `set_attribute_node` the attribute knows its element. -/
theorem setAttributeNode_owner {e : Env} {h h' : Heap} {n a b : NodeId}
    (hc : setAttributeNode e h n a = (.ok b, h')) : (h'.get a).ext = .attribute (some n) := by
  unfold setAttributeNode at hc
  split at hc
  · rename_i ht
    have hne : a ≠ n := fun hna => by
      subst hna
      rw [ht.1] at ht
      exact absurd ht.2 (by decide)
    split at hc
    · cases hc
    · cases hc
    · cases hc
    split at hc
    · simp only at hc
      have hx1 : ((h.set a { h.get a with ext := .attribute (some n) }).get a).ext =
          .attribute (some n) := by simp
      generalize h.set a { h.get a with ext := .attribute (some n) } = h1 at hc hx1
      obtain ⟨_, _, _, _, _, g2⟩ := recordNamespace_frame e.uni h1 n a (h1.get a).name
      generalize recordNamespace e.uni h1 n a (h1.get a).name = q at hc g2
      obtain ⟨o, h2⟩ := q
      have hx2 : (h2.get a).ext = .attribute (some n) := by rw [g2 a hne]; exact hx1
      cases o with
      | err _ => cases hc
      | panic _ => cases hc
      | diverge => cases hc
      | ok _ =>
        simp only at hc
        unfold storeAttribute at hc
        split at hc
        · rename_i attrs nss _
          simp only at hc
          have hx3 : ((h2.set n { h2.get n with
              ext := .element (mapInsert (h2.get a).name a attrs) nss }).get a).ext =
              .attribute (some n) := by simp [hne, hx2]
          generalize h2.set n { h2.get n with
              ext := .element (mapInsert (h2.get a).name a attrs) nss } = h3 at hc hx3
          unfold recordId at hc
          split at hc
          · cases hc
          · rename_i d hd
            simp only at hc
            split at hc
            · cases hc
            · cases hxd : (h3.get d).ext with
              | document x =>
                have hda : a ≠ d := fun hh => by rw [← hh, hx3] at hxd; cases hxd
                rw [hxd] at hc
                simp only at hc
                split at hc
                · split at hc
                  · cases hc
                  · cases hc
                  · cases hc
                  · cases hc
                  · split at hc
                    · cases hc
                    · cases hc
                      rw [Heap.get_set_ne _ _ hda]; exact hx3
                · cases hc; exact hx3
              | _ =>
                rw [hxd] at hc
                simp only at hc
                split at hc <;> (cases hc; exact hx3)
        · cases hc
    · cases hc
  · cases hc

/-- C77: an attribute that knows its element is among the attributes of that element. -/
def C77_full : Prop :=
  ∀ h, Reachable h → ∀ a e, h.live a = true → ownerElement h a = some e →
    ∃ k, (k, a) ∈ attributes h e

/-- C77 does not hold for owner elements: removing an attribute leaves its owner element. -/
theorem C77_full_false : ¬ C77_full := by
  intro hf
  have := hf (after [mkDoc, .createAttributeWith 0 (c! "a") (c! "v"), .setAttributeNode 1 3,
    .removeAttributeNode 1 3]) (reachable_after _) 3 1 (by decide) (by decide)
  obtain ⟨k, hk⟩ := this
  have h0 : attributes (after [mkDoc, .createAttributeWith 0 (c! "a") (c! "v"),
    .setAttributeNode 1 3, .removeAttributeNode 1 3]) 1 = [] := by decide
  rw [h0] at hk
  cases hk

/-- C77 (partial: what is missing is that removing or replacing an attribute clears its owner
element): the owner element of an attribute is always a live element, only attributes have
one, and after `set_attribute_node` it is the element whose attribute map holds the
attribute. -/
theorem C77_owner_partial (h : Heap) (hr : Reachable h) (a : NodeId) (ha : h.live a = true) :
    (∀ e, ownerElement h a = some e → nodeType h a = .attribute ∧ nodeType h e = .element ∧
      h.live e = true) ∧
    (∀ env n b h', h.live n = true → setAttributeNode env h n a = (.ok b, h') →
      ownerElement h' a = some n ∧ (nodeName h a, a) ∈ attributes h' n) := by
  have i := hr.invariant
  constructor
  · intro e he
    unfold ownerElement at he
    split at he
    · rename_i w hx
      obtain ⟨h1, h2⟩ := Heap.upgrade_some.mp he
      subst h1
      refine ⟨?_, hr.ownerIsElement a e ha hx, h2⟩
      have := i.exts a (i.wf.fresh a ha)
      rw [hx] at this
      unfold ExtFor at this
      unfold nodeType
      cases ht : (h.get a).ntype <;> rw [ht] at this <;> simp at this
    · cases he
  · intro env n b h' hn hc
    have h1 := setAttributeNode_owner hc
    obtain ⟨f, _, h3⟩ := setAttributeNode_effect env h n a
    rw [hc] at h3 f
    constructor
    · unfold ownerElement
      rw [h1]
      exact Heap.upgrade_some.mpr ⟨rfl, by rw [f.live n (i.wf.fresh n hn)]; exact hn⟩
    · rcases h3 with ⟨_, h3⟩ | ⟨_, _, h3, _⟩
      · exact absurd rfl (h3 b)
      · simp only at h3
        rw [h3]
        exact mem_mapInsert.mpr (Or.inl rfl)

example : Reachable (after [mkDoc, .createAttributeWith 0 (c! "a") (c! "v")]) ∧
    (setAttributeNode plainEnv (after [mkDoc, .createAttributeWith 0 (c! "a") (c! "v")]) 1 3).1
      = .ok 3 ∧
    ownerElement (after [mkDoc, .createAttributeWith 0 (c! "a") (c! "v"),
      .setAttributeNode 1 3]) 3 = some 1 ∧
    hasAttributes (after [mkDoc, .createAttributeWith 0 (c! "a") (c! "v"),
      .setAttributeNode 1 3]) 1 = true :=
  ⟨reachable_after _, by decide⟩

/-! ## C78 -/

/-- C78: the error codes are those of the DOM, in order and without gaps, and no two errors
have the same code or the same message. -/
theorem C78_errors :
    (∀ e, domErrors[DomError.code e - 1]? = some e ∧ 0 < DomError.code e) ∧
    (∀ a b, DomError.code a = DomError.code b → a = b) ∧
    (∀ a b, DomError.display a = DomError.display b → a = b) := by
  refine ⟨?_, ?_, ?_⟩
  · intro e; cases e <;> decide
  · intro a b; cases a <;> cases b <;> decide
  · intro a b
    cases a <;> cases b <;> decide

/-- C78: the node type codes are those of the DOM. -/
theorem C78_node_types :
    (∀ t, domNodeTypes[NodeType.code t - 1]? = some t ∧ 0 < NodeType.code t) ∧
    ∀ a b, NodeType.code a = NodeType.code b → a = b := by
  refine ⟨?_, ?_⟩
  · intro e; cases e <;> decide
  · intro a b; cases a <;> cases b <;> decide

/-! ## C79 -/

/-- C79: the text form of `SpaceHandling` reads back. -/
def C79_full : Prop := ∀ s, SpaceHandling.fromStr s.display = some s

/-- C79 does not hold: `Display` writes a whole attribute, `FromStr` reads its value. -/
theorem C79_full_false : ¬ C79_full := by
  intro hf
  exact absurd (hf .default) (by decide)

/-- C79 (partial: the value has to be cut out of the text form): the text form is
`xml:space="v"` for the one `v` that reads back as the same value, and nothing but the two
values is accepted. -/
theorem C79_value_partial (s : SpaceHandling) :
    (∃ v, s.display = c! "xml:space=\"" ++ v ++ c! "\"" ∧
      ∀ w, SpaceHandling.fromStr w = some s ↔ w = v) := by
  cases s
  · refine ⟨c! "default", by decide, ?_⟩
    intro w
    unfold SpaceHandling.fromStr
    split
    · rename_i h; simp [h]
    · rename_i h
      split
      · simpa using h
      · simpa using h
  · refine ⟨c! "preserve", by decide, ?_⟩
    intro w
    unfold SpaceHandling.fromStr
    split
    · rename_i h; simp [h]
    · rename_i h
      split
      · rename_i h2; simpa using h2
      · rename_i h2; simpa using h2

/-! ## C80 -/

/-- C80: setting the prefix of a name keeps the name well formed. -/
def C80_full : Prop :=
  ∀ u q n p, Name.newNs u q = .ok n → ∃ m, Name.newNs u (n.setPrefix p).display = .ok m ∧
    m = n.setPrefix p

/-- C80 does not hold: `set_prefix` checks nothing. -/
theorem C80_full_false : ¬ C80_full := by
  intro hf
  obtain ⟨m, h1, _⟩ := hf (c! "u") (c! "a") ⟨some (c! "u"), none, c! "a"⟩ (some (c! "1:")) (by decide)
  have : Name.newNs (c! "u") (Name.setPrefix ⟨some (c! "u"), none, c! "a"⟩ (some (c! "1:"))).display
    = .err .syntax := by decide
  rw [this] at h1
  cases h1

/-- C80 (partial: the new prefix is an NCName starting in ASCII and is not `xml` or `xmlns` in
a foreign namespace, and the local name starts in ASCII): the name with the new prefix is the
one that parsing its text form in the same namespace gives. Always: only the prefix
changes, and the last prefix set counts. -/
theorem C80_set_prefix_partial (u q : Str) (n : Name) (p : Option Str)
    (hn : Name.newNs u q = .ok n)
    (hp : ∀ w, p = some w → IsNcName w ∧ AsciiStart w ∧ ¬ ForeignUse w u) :
    Name.newNs u (n.setPrefix p).display = .ok (n.setPrefix p) := by
  obtain ⟨m, h1, h2, rfl, _, h4⟩ := (C29_new_ns_ok u q n).mp hn
  rw [C29_new_ns_ok]
  have hl : IsNcName m.localName ∧ AsciiStart m.localName := by
    rcases fromStr_ok h1 with ⟨rfl, a, b⟩ | ⟨_, _, _, rfl, _, a, _, b⟩ <;> exact ⟨a, b⟩
  cases p with
  | none =>
    exact ⟨_, C27_accepts_partial.1 _ hl.1 hl.2, h2, rfl, (by rintro ⟨_, h, _⟩; cases h), h4⟩
  | some w =>
    obtain ⟨p1, p2, p3⟩ := hp w rfl
    exact ⟨_, C27_accepts_partial.2 _ _ p1 hl.1 p2 hl.2, h2, rfl,
      (by rintro ⟨_, h, hf⟩; cases h; exact p3 hf), h4⟩

example : Name.newNs (c! "u") (c! "p:a") = .ok ⟨some (c! "u"), some (c! "p"), c! "a"⟩ ∧
    Name.setPrefix ⟨some (c! "u"), some (c! "p"), c! "a"⟩ (some (c! "q"))
      = ⟨some (c! "u"), some (c! "q"), c! "a"⟩ := by decide

/-- C80: `set_prefix` changes the prefix and nothing else; the last call counts. -/
theorem C80_only_prefix (n : Name) (p p' : Option Str) :
    (n.setPrefix p).pfx = p ∧ (n.setPrefix p).localName = n.localName ∧
      (n.setPrefix p).namespaceUri = n.namespaceUri ∧
      (n.setPrefix p).setPrefix p' = n.setPrefix p' ∧ n.setPrefix n.pfx = n :=
  ⟨rfl, rfl, rfl, rfl, rfl⟩

/-! ## C81 -/

/-- What `insert_mapping` and `remove_mapping` do to the element and to nothing else. -/
theorem mapping_effect {h : Heap} (hr : Reachable h) {n : NodeId} (hn : h.live n = true)
    (hel : nodeType h n = .element) (hon : NamespacesOn h n) :
    ∃ attrs nss, (h.get n).ext = .element attrs nss ∧ KeysNodup nss ∧
      (∀ p u, insertMapping h n p u = (.ok (),
        h.set n { h.get n with ext := .element attrs (mapInsert p u nss) })) ∧
      (∀ p, removeMapping h n p = (.ok (),
        h.set n { h.get n with ext := .element attrs (mapRemove p nss) })) := by
  have i := hr.invariant
  have hxe := i.exts n (i.wf.fresh n hn)
  unfold nodeType at hel
  rw [hel] at hxe
  obtain ⟨attrs, nss, hx⟩ := hxe
  refine ⟨attrs, nss, hx, (i.attrKeys n attrs nss hn hx).2.1, ?_, ?_⟩
  · intro p u
    unfold insertMapping
    rw [if_neg (by rw [addNamespaces_iff.mpr hon]; decide), if_pos hel, hx]
  · intro p
    unfold removeMapping
    rw [if_neg (by rw [addNamespaces_iff.mpr hon]; decide), if_pos hel, hx]

theorem declares_set {h : Heap} {n : NodeId} (hel : nodeType h n = .element) {attrs nss}
    (m : NodeId) (q : Option Str) (v : Str) :
    Declares (h.set n { h.get n with ext := .element attrs nss }) m q v ↔
      (m = n ∧ (q, v) ∈ nss) ∨ (m ≠ n ∧ Declares h m q v) := by
  unfold nodeType at hel
  unfold Declares nodeType
  by_cases hm : m = n
  · subst hm
    simp only [Heap.get_set_self, hel, true_and, ne_eq, not_true, false_and, or_false]
    constructor
    · rintro ⟨a, b, h1, h2⟩; cases h1; exact h2
    · intro h2; exact ⟨_, _, rfl, h2⟩
  · simp only [Heap.get_set_ne _ _ hm, hm, false_and, false_or, ne_eq, not_false_iff, true_and]

/-- C81: with the option on, after `insert_mapping` the element maps the prefix to the uri and
to nothing else; every other mapping, of the element and of all other nodes, is what it
was. -/
theorem C81_insert (h : Heap) (hr : Reachable h) (n : NodeId) (hn : h.live n = true)
    (hel : nodeType h n = .element) (hon : NamespacesOn h n) (p : Option Str) (u : Str) :
    ∃ h', insertMapping h n p u = (.ok (), h') ∧
      ∀ m q v, Declares h' m q v ↔
        (m = n ∧ q = p ∧ v = u) ∨ (¬ (m = n ∧ q = p) ∧ Declares h m q v) := by
  obtain ⟨attrs, nss, hx, hk, h1, _⟩ := mapping_effect hr hn hel hon
  refine ⟨_, h1 p u, ?_⟩
  intro m q v
  rw [declares_set hel, mem_mapInsert]
  have hd : ∀ q v, Declares h n q v ↔ (q, v) ∈ nss := by
    intro q v
    constructor
    · rintro ⟨_, a, b, e, hm⟩; rw [hx] at e; cases e; exact hm
    · intro hm; exact ⟨hel, _, _, hx, hm⟩
  by_cases hm : m = n
  · subst hm
    rw [hd]
    constructor
    · rintro (⟨_, h2⟩ | ⟨h2, _⟩)
      · rcases h2 with h2 | ⟨h2, h3⟩
        · cases h2; exact .inl ⟨rfl, rfl, rfl⟩
        · exact .inr ⟨fun hh => h3 hh.2, h2⟩
      · exact absurd rfl h2
    · rintro (⟨_, rfl, rfl⟩ | ⟨h2, h3⟩)
      · exact .inl ⟨rfl, .inl rfl⟩
      · exact .inl ⟨rfl, .inr ⟨h3, fun hh => h2 ⟨rfl, hh⟩⟩⟩
  · simp [hm]

/-- C81: after `remove_mapping` the element does not map the prefix; every other mapping is
what it was. -/
theorem C81_remove (h : Heap) (hr : Reachable h) (n : NodeId) (hn : h.live n = true)
    (hel : nodeType h n = .element) (hon : NamespacesOn h n) (p : Option Str) :
    ∃ h', removeMapping h n p = (.ok (), h') ∧
      ∀ m q v, Declares h' m q v ↔ ¬ (m = n ∧ q = p) ∧ Declares h m q v := by
  obtain ⟨attrs, nss, hx, hk, _, h1⟩ := mapping_effect hr hn hel hon
  refine ⟨_, h1 p, ?_⟩
  intro m q v
  rw [declares_set hel, mem_mapRemove]
  have hd : ∀ q v, Declares h n q v ↔ (q, v) ∈ nss := by
    intro q v
    constructor
    · rintro ⟨_, a, b, e, hm⟩; rw [hx] at e; cases e; exact hm
    · intro hm; exact ⟨hel, _, _, hx, hm⟩
  by_cases hm : m = n
  · subst hm
    rw [hd]
    simp [and_comm]
  · simp [hm]

/-- C81: with the option off, or on anything but an element, neither call changes anything. -/
theorem C81_no_effect (h : Heap) (n : NodeId) (hoff : ¬ NamespacesOn h n ∨ nodeType h n ≠ .element)
    (p : Option Str) (u : Str) :
    (insertMapping h n p u).2 = h ∧ (removeMapping h n p).2 = h ∧
      (¬ NamespacesOn h n → (insertMapping h n p u).1 = .ok () ∧
        (removeMapping h n p).1 = .ok ()) ∧
      (NamespacesOn h n → (insertMapping h n p u).1 = .err .invalidState ∧
        (removeMapping h n p).1 = .err .invalidState) := by
  unfold insertMapping removeMapping
  by_cases hon : NamespacesOn h n
  · have hel : (h.get n).ntype ≠ .element := by
      rcases hoff with h1 | h1
      · exact absurd hon h1
      · exact h1
    have := addNamespaces_iff.mpr hon
    simp [this, hel, hon]
  · have : addNamespaces h n = false := by
      cases hb : addNamespaces h n with
      | false => rfl
      | true => exact absurd (addNamespaces_iff.mp hb) hon
    simp [this, hon]

example : Reachable (after [mkDoc]) ∧ nodeType (after [mkDoc]) 1 = .element ∧
    NamespacesOn (after [mkDoc]) 1 ∧
    ¬ NamespacesOn (after [.createDocument none (some (c! "r")) none Options.new]) 1 :=
  ⟨reachable_after _, by decide, addNamespaces_iff.mp (by decide),
    by rw [← addNamespaces_iff]; decide⟩

/-! ## C82 -/

/-- C82: the data of a processing instruction is what was set last, whatever the target is;
its length is the number of bytes; unsetting leaves no data and length 0; nothing else
changes. -/
theorem C82_data (h : Heap) (n : NodeId) (s t : Str) :
    ∃ h1 h2, piSetData h n s = (.ok (), h1) ∧ piData h1 n = some s ∧
      piLength h1 n = (s.map Char.utf8Size).sum ∧ nodeName h1 n = nodeName h n ∧
      nodeType h1 n = nodeType h n ∧ (∀ m, m ≠ n → h1.get m = h.get m) ∧
      (∀ m, (piSetData h1 n t).2.get m = (piSetData h n t).2.get m) ∧
      piUnsetData h1 n = (.ok (), h2) ∧ piData h2 n = none ∧ piLength h2 n = 0 ∧
      (∀ m, m ≠ n → h2.get m = h.get m) := by
  refine ⟨_, _, rfl, ?_, ?_, ?_, ?_, ?_, ?_, rfl, ?_, ?_, ?_⟩
  · simp [piData, nodeValue]
  · have : ∀ t : Str, byteLen t = (t.map Char.utf8Size).sum := by
      intro t
      induction t with
      | nil => rfl
      | cons c cs ih => simp [ih]
    simp [piLength, piData, nodeValue, this]
  · simp [nodeName]
  · simp [nodeType]
  · intro m hm; exact Heap.get_set_ne _ _ hm
  · intro m
    unfold piSetData setNodeValue
    by_cases hm : m = n
    · subst hm; simp
    · simp [hm]
  · simp [piData, nodeValue]
  · simp [piLength, piData, nodeValue]
  · intro m hm
    simp [hm]

/-! ## C83 -/

theorem joinComma_eq : ∀ l : List Str, Options.joinComma l = commaList l
  | [] => rfl
  | [s] => by simp [Options.joinComma, commaList]
  | s :: t :: ss => by
    rw [Options.joinComma, joinComma_eq (t :: ss)]
    simp [commaList]

/-- C83: the text form of the options lists the names of the flags that are set, lowest bit
first. -/
theorem C83_display (o : Options) :
    o.display = c! "ProcessingOptions {" ++
      commaList ((optionNames.filter fun f => o.bits.getLsbD f.1).map (·.2)) ++ c! "}" := by
  have h0 : o.hasAssumeIds = o.bits.getLsbD 0 := by
    obtain ⟨b⟩ := o; revert b; decide
  have h1 : o.hasParseEntities = o.bits.getLsbD 1 := by
    obtain ⟨b⟩ := o; revert b; decide
  have h2 : o.hasAddNamespaces = o.bits.getLsbD 2 := by
    obtain ⟨b⟩ := o; revert b; decide
  unfold Options.display optionNames
  rw [joinComma_eq, h0, h1, h2]
  simp only [List.filter_cons, List.filter_nil]
  cases o.bits.getLsbD 0 <;> cases o.bits.getLsbD 1 <;> cases o.bits.getLsbD 2 <;> rfl

/-- C83: two option sets have the same text form exactly when they agree on the three flags. -/
theorem C83_injective (a b : Options) :
    a.display = b.display ↔ a.hasAssumeIds = b.hasAssumeIds ∧
      a.hasParseEntities = b.hasParseEntities ∧ a.hasAddNamespaces = b.hasAddNamespaces := by
  unfold Options.display
  generalize a.hasAssumeIds = a0
  generalize a.hasParseEntities = a1
  generalize a.hasAddNamespaces = a2
  generalize b.hasAssumeIds = b0
  generalize b.hasParseEntities = b1
  generalize b.hasAddNamespaces = b2
  revert a0 a1 a2 b0 b1 b2
  decide

/-! ## C84 -/

/-- C84: the document element is the element among the children of the document. -/
def C84_full : Prop :=
  ∀ h, Reachable h → ∀ d, h.live d = true → nodeType h d = .document → ∀ e,
    documentElement h d = some e ↔ e ∈ childNodes h d ∧ nodeType h e = .element

/-- C84 does not hold: the first child is taken, whatever it is. -/
theorem C84_full_false : ¬ C84_full := by
  intro hf
  have := hf (after [mkDoc, .createComment 0 (c! "x"), .insertBefore 0 2 (some 1)])
    (reachable_after _) 0 (by decide) (by decide) 2
  exact absurd this (by decide)

/-- C84 (partial: nothing may precede the element): if the first child of the document is an
element, or there is no child, then the document element is the element among the
children. -/
theorem C84_first_partial (h : Heap) (hr : Reachable h) (d : NodeId) (hd : h.live d = true)
    (ht : nodeType h d = .document)
    (hfirst : ∀ c cs, childNodes h d = c :: cs → nodeType h c = .element) (e : NodeId) :
    documentElement h d = some e ↔ e ∈ childNodes h d ∧ nodeType h e = .element := by
  have i := hr.invariant
  have h1 := i.oneElement d hd ht
  unfold documentElement
  unfold childNodes at hfirst ⊢
  unfold nodeType at hfirst ⊢
  cases hc : (h.get d).children with
  | nil => simp
  | cons c cs =>
    have hce := hfirst c cs hc
    rw [hc] at h1
    rw [List.filter_cons_of_pos (by simpa using hce)] at h1
    simp only [List.head?_cons, Option.some.injEq]
    constructor
    · rintro rfl; exact ⟨by simp, hce⟩
    · rintro ⟨hm, he⟩
      rcases List.mem_cons.mp hm with rfl | hm
      · rfl
      · exfalso
        have : e ∈ cs.filter fun c => decide ((h.get c).ntype = .element) :=
          List.mem_filter.mpr ⟨hm, by simpa using he⟩
        have := List.length_pos_of_mem this
        simp only [List.length_cons] at h1
        omega

/-- C84: for any document, `document_element` is the first child, and a document has at most
one element child. -/
theorem C84_at_most_one (h : Heap) (hr : Reachable h) (d : NodeId) (hd : h.live d = true)
    (ht : nodeType h d = .document) :
    (documentElement h d = none ↔ childNodes h d = []) ∧
    (∀ e, documentElement h d = some e ↔ ∃ cs, childNodes h d = e :: cs) ∧
    (∀ a b, a ∈ childNodes h d → b ∈ childNodes h d → nodeType h a = .element →
      nodeType h b = .element → a = b) := by
  have i := hr.invariant
  have h1 := i.oneElement d hd ht
  unfold documentElement childNodes
  refine ⟨by simp, ?_, ?_⟩
  · intro e; rw [List.head?_eq_some_iff]
  · intro a b ha hb hea heb
    have ma : a ∈ (h.get d).children.filter fun c => decide ((h.get c).ntype = .element) :=
      List.mem_filter.mpr ⟨ha, decide_eq_true hea⟩
    have mb : b ∈ (h.get d).children.filter fun c => decide ((h.get c).ntype = .element) :=
      List.mem_filter.mpr ⟨hb, decide_eq_true heb⟩
    generalize (h.get d).children.filter (fun c => decide ((h.get c).ntype = .element)) = l
      at h1 ma mb
    match l, h1 with
    | [], _ => cases ma
    | [x], _ => rw [List.mem_singleton.mp ma, List.mem_singleton.mp mb]
    | _ :: _ :: _, h1 => simp at h1

example : Reachable (after [mkDoc]) ∧ (after [mkDoc]).live 0 = true ∧
    documentElement (after [mkDoc]) 0 = some 1 := ⟨reachable_after _, by decide⟩

/-! ## C85 -/

theorem decVal_digitChar (d : Nat) (hd : d < 10) :
    decVal (Nat.digitChar d) = d ∧ IsDec (Nat.digitChar d) := by
  have : ∀ d : Fin 10, decVal (Nat.digitChar d) = d ∧ IsDec (Nat.digitChar d) := by decide
  exact this ⟨d, hd⟩

theorem toDigits_spec (n : Nat) : Nat.toDigits 10 n ≠ [] ∧ (∀ d ∈ Nat.toDigits 10 n, IsDec d) ∧
    digitsValue 10 decVal (Nat.toDigits 10 n) = n := by
  induction n using Nat.strongRecOn with
  | _ n ih =>
    rw [Nat.toDigits_eq_if (by decide)]
    by_cases hn : n < 10
    · rw [if_pos hn]
      obtain ⟨h1, h2⟩ := decVal_digitChar n hn
      exact ⟨by simp, by simpa using h2, by simp [digitsValue, h1]⟩
    · rw [if_neg hn]
      obtain ⟨h1, h2, h3⟩ := ih (n / 10) (by omega)
      obtain ⟨h4, h5⟩ := decVal_digitChar (n % 10) (by omega)
      refine ⟨by simp, ?_, ?_⟩
      · intro d hd
        rcases List.mem_append.mp hd with hd | hd
        · exact h2 d hd
        · rw [List.mem_singleton.mp hd]; exact h5
      · unfold digitsValue at h3 ⊢
        rw [List.foldl_append, h3]
        simp only [List.foldl_cons, List.foldl_nil, h4]
        omega

theorem hexDigit_spec (d : Nat) (hd : d < 16) : hexVal (hexDigit d) = d ∧ IsHex (hexDigit d) := by
  have : ∀ d : Fin 16, hexVal (hexDigit d) = d ∧ IsHex (hexDigit d) := by decide
  exact this ⟨d, hd⟩

theorem hexDigits16_spec (n : Nat) (hn : n < 65536) : hexDigits16 n ≠ [] ∧
    (∀ d ∈ hexDigits16 n, IsHex d) ∧ digitsValue 16 hexVal (hexDigits16 n) = n := by
  unfold hexDigits16
  have h0 := fun d => hexDigit_spec d
  split
  · rename_i h1
    exact ⟨by simp, by simpa using (h0 n h1).2, by simp [digitsValue, (h0 n h1).1]⟩
  split
  · have a := h0 (n / 16) (by omega)
    have b := h0 (n % 16) (by omega)
    refine ⟨by simp, by simp [a.2, b.2], ?_⟩
    simp only [digitsValue, List.foldl_cons, List.foldl_nil, a.1, b.1]
    omega
  split
  · have a := h0 (n / 256) (by omega)
    have b := h0 (n / 16 % 16) (by omega)
    have c := h0 (n % 16) (by omega)
    refine ⟨by simp, by simp [a.2, b.2, c.2], ?_⟩
    simp only [digitsValue, List.foldl_cons, List.foldl_nil, a.1, b.1, c.1]
    omega
  · have a := h0 (n / 4096) (by omega)
    have b := h0 (n / 256 % 16) (by omega)
    have c := h0 (n / 16 % 16) (by omega)
    have d := h0 (n % 16) (by omega)
    refine ⟨by simp, by simp [a.2, b.2, c.2, d.2], ?_⟩
    simp only [digitsValue, List.foldl_cons, List.foldl_nil, a.1, b.1, c.1, d.1]
    omega

theorem hexDigits16_upper (n : Nat) (hn : n < 65536) :
    ∀ d ∈ hexDigits16 n, d ∈ c! "0123456789ABCDEF" := by
  have h0 : ∀ d, d < 16 → hexDigit d ∈ c! "0123456789ABCDEF" := by decide
  unfold hexDigits16
  intro d hd
  split at hd
  · obtain rfl := List.mem_singleton.mp hd
    exact h0 _ (by omega)
  split at hd
  · simp only [List.mem_cons, List.not_mem_nil, or_false] at hd
    rcases hd with rfl | rfl <;> exact h0 _ (by omega)
  split at hd
  · simp only [List.mem_cons, List.not_mem_nil, or_false] at hd
    rcases hd with rfl | rfl | rfl <;> exact h0 _ (by omega)
  · simp only [List.mem_cons, List.not_mem_nil, or_false] at hd
    rcases hd with rfl | rfl | rfl | rfl <;> exact h0 _ (by omega)

/-- C85: the reference that `to_entity` and `to_entity_hex` write for a character stands for
that character. -/
def C85_full : Prop :=
  ∀ c : Char, charFromEntity (toEntity c) = .ok [c] ∧ charFromEntity (toEntityHex c) = .ok [c]

/-- C85 does not hold: the character number is cut to 16 bits. -/
theorem C85_full_false : ¬ C85_full := by
  intro hf
  exact absurd (hf (Char.ofNat 0x1F600)).1 (by decide)

/-- C85 (partial: the character is below U+10000): what the two functions write is a decimal
and a hexadecimal reference to the character, and `char_from_entity` reads both back. -/
theorem C85_bmp_partial (c : Char) (hc : c.toNat < 65536) :
    (∃ ds, DecRef ds c ∧ toEntity c = '&' :: '#' :: (ds ++ [';'])) ∧
    (∃ ds, HexRef ds c ∧ (∀ d ∈ ds, d ∈ c! "0123456789ABCDEF") ∧
      toEntityHex c = '&' :: '#' :: 'x' :: (ds ++ [';'])) ∧
    charFromEntity (toEntity c) = .ok [c] ∧ charFromEntity (toEntityHex c) = .ok [c] := by
  have hm : c.toNat % 65536 = c.toNat := Nat.mod_eq_of_lt hc
  have h1 : DecRef (Nat.toDigits 10 c.toNat) c := toDigits_spec c.toNat
  have h2 : HexRef (hexDigits16 c.toNat) c := hexDigits16_spec c.toNat hc
  have e1 : toEntity c = '&' :: '#' :: (Nat.toDigits 10 c.toNat ++ [';']) := by
    unfold toEntity; rw [hm]; rfl
  have e2 : toEntityHex c = '&' :: '#' :: 'x' :: (hexDigits16 c.toNat ++ [';']) := by
    unfold toEntityHex; rw [hm]; rfl
  refine ⟨⟨_, h1, e1⟩, ⟨_, h2, hexDigits16_upper _ hc, e2⟩, ?_, ?_⟩
  · rw [e1]; exact charFromEntity_dec h1
  · rw [e2]; exact charFromEntity_hex h2

example : toEntity 'é' = c! "&#233;" ∧ toEntityHex 'é' = c! "&#xE9;" := by decide

/-! ## C86 -/

/-- C86: `for_namespace` makes the name of the attribute that declares the prefix: in the
xmlns namespace, written `xmlns` or `xmlns:p`, recognised by `is_namespace_attribute`; it
panics for the empty prefix and for nothing else. -/
theorem C86_for_namespace (p : Option Str) :
    (p = some [] → Name.forNamespace p = .panic .unwrap) ∧
    (p ≠ some [] → ∃ n, Name.forNamespace p = .ok n ∧ n.namespaceUri = some Syn.xmlnsNsUri ∧
      n.display = declarationName p ∧ n.isNamespaceAttribute = true) := by
  cases p with
  | none =>
    exact ⟨fun h => (by cases h), fun _ => ⟨_, rfl, rfl, rfl, by decide⟩⟩
  | some w =>
    constructor
    · intro h; cases h; decide
    · intro h
      have hw : w ≠ [] := fun e => h (by rw [e])
      refine ⟨⟨some Syn.xmlnsNsUri, some Syn.xmlnsPrefix, w⟩, ?_, rfl, rfl, ?_⟩
      · unfold Name.forNamespace
        simp only
        unfold Name.new
        rw [if_neg hw, if_neg (by decide), if_neg (by decide)]
        rfl
      · unfold Name.isNamespaceAttribute
        simp

/-- C86: different prefixes have different declaration names. -/
theorem C86_injective (p q : Option Str) (n : Name) (hp : Name.forNamespace p = .ok n)
    (hq : Name.forNamespace q = .ok n) : p = q := by
  have key : ∀ r, Name.forNamespace r = .ok n →
      (r = none ∧ n.pfx = none) ∨ ∃ w, r = some w ∧ n.pfx = some Syn.xmlnsPrefix ∧ n.localName = w := by
    intro r hr
    cases r with
    | none => cases hr; exact .inl ⟨rfl, rfl⟩
    | some w =>
      right
      by_cases hw : w = []
      · rw [(C86_for_namespace (some w)).1 (by rw [hw])] at hr; cases hr
      · unfold Name.forNamespace at hr
        simp only at hr
        unfold Name.new at hr
        rw [if_neg hw, if_neg (by decide), if_neg (by decide)] at hr
        cases hr
        exact ⟨w, rfl, rfl, rfl⟩
  rcases key p hp with ⟨rfl, h1⟩ | ⟨w, rfl, h1, h2⟩ <;>
    rcases key q hq with ⟨rfl, h3⟩ | ⟨v, rfl, h3, h4⟩
  · rfl
  · rw [h1] at h3; cases h3
  · rw [h1] at h3; cases h3
  · rw [← h2, ← h4]

/-- C86: a name is a namespace declaration exactly when it is in the xmlns namespace and reads
`xmlns` or `xmlns:…`; it is an id exactly when it is `id` in the xml namespace or written
`xml:id`, and with the lax option exactly when the local name is `id`. -/
theorem C86_classes (n : Name) :
    (n.isNamespaceAttribute = true ↔ n.namespaceUri = some (c! "http://www.w3.org/2000/xmlns/") ∧
      ((n.pfx = none ∧ n.localName = c! "xmlns") ∨ n.pfx = some (c! "xmlns"))) ∧
    (n.isIdAttribute false = true ↔ n.localName = c! "id" ∧
      (n.namespaceUri = some (c! "http://www.w3.org/XML/1998/namespace") ∨
        n.pfx = some (c! "xml"))) ∧
    (n.isIdAttribute true = true ↔ n.localName = c! "id") ∧
    (n.isIdAttribute false = true → n.isIdAttribute true = true) := by
  have hu : Syn.xmlnsNsUri = c! "http://www.w3.org/2000/xmlns/" := by decide
  have hv : Syn.xmlNsUri = c! "http://www.w3.org/XML/1998/namespace" := by decide
  have hp : Syn.xmlnsPrefix = c! "xmlns" := by decide
  have hq : Syn.xmlPrefix = c! "xml" := by decide
  have hi : Syn.idAttr = c! "id" := by decide
  unfold Name.isNamespaceAttribute Name.isIdAttribute
  rw [hu, hv, hp, hq, hi]
  refine ⟨?_, ?_, ?_, ?_⟩
  · simp only [decide_eq_true_eq]
    exact and_congr Iff.rfl (or_congr and_comm Iff.rfl)
  · simp
  · simp
  · simp only [Bool.false_eq_true, if_false, if_true, decide_eq_true_eq]
    exact fun h => h.1

/-- C86: the name made by `for_xml_id` is an id under both options and reads `xml:id`; the
names of nodes without a name of their own are neither ids nor namespace declarations. -/
theorem C86_fixed_names :
    Name.forXmlId.display = c! "xml:id" ∧ (∀ lax, Name.forXmlId.isIdAttribute lax = true) ∧
    [Name.forCdata, Name.forComment, Name.forDocument, Name.forDocumentFragment, Name.forText,
      Name.forPublicId, Name.forSystemId].map Name.display = [c! "#cdata-section", c! "#comment",
      c! "#document", c! "#document-fragment", c! "#text", c! "PUBLIC", c! "SYSTEM"] ∧
    ∀ n ∈ [Name.forCdata, Name.forComment, Name.forDocument, Name.forDocumentFragment,
      Name.forText, Name.forPublicId, Name.forSystemId],
      n.isNamespaceAttribute = false ∧ ∀ lax, n.isIdAttribute lax = false := by
  decide

/-- C86: exactly one of the three questions about a looked up prefix has the answer yes, and
`some` yields a prefix exactly for the third. -/
theorem C86_prefix_kinds (p : NamespacePrefix) :
    (p.isNone = true ↔ prefixMeaning p = none) ∧
    (p.isDefault = true ↔ prefixMeaning p = some none) ∧
    (∀ w, p.some? = some w ↔ prefixMeaning p = some (some w)) ∧
    (p.isSome = true ↔ p.some?.isSome = true) := by
  cases p <;> simp [NamespacePrefix.isNone, NamespacePrefix.isDefault, NamespacePrefix.isSome,
    NamespacePrefix.some?, prefixMeaning]

end Props
end XmlDom
