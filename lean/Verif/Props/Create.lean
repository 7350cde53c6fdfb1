import Verif.Lemmas.Guarded
import Verif.Lemmas.Witness
import Verif.Spec.Create
import Verif.Props.Name
import Verif.Props.CharData

/-!
# C54, C66, C67, C69: making nodes and setting values
-/

namespace XmlDom
namespace Props

open Spec

/-! ## Lemmas -/

theorem alone_of_refs {h : Heap} {n : NodeId} (hr : ∀ m, h.live m = true → m ≠ n →
    n ∉ strongRefs (h.get m) ∧ n ∉ weakRefs (h.get m)) : Alone h n := by
  have hs : ∀ m, h.live m = true → m ≠ n → _ := fun m h1 h2 => (hr m h1 h2).1
  have hw : ∀ m, h.live m = true → m ≠ n → _ := fun m h1 h2 => (hr m h1 h2).2
  constructor
  · intro m h1 h2 hm; exact hs m h1 h2 (mem_strongRefs.mpr (Or.inl hm))
  · intro m h1 h2 hm
    exact hw m h1 h2 (mem_weakRefs.mpr (Or.inl (parentNode_eq_some.mp hm).2.1))
  · intro m h1 h2 hm
    exact hw m h1 h2 (mem_weakRefs.mpr (Or.inr (Or.inl (Heap.upgrade_some.mp hm).1)))
  · intro m h1 h2 k hm
    refine hs m h1 h2 (mem_strongRefs.mpr (Or.inr (Or.inl ?_)))
    unfold attributes at hm
    split at hm
    · split at hm
      · rename_i attrs nss hx; exact ⟨attrs, nss, k, hx, hm⟩
      · cases hm
    · cases hm
  · intro m h1 h2 hm
    refine hw m h1 h2 (mem_weakRefs.mpr (Or.inr (Or.inr (Or.inl ?_))))
    unfold ownerElement at hm
    split at hm
    · rename_i w hx; rw [hx, (Heap.upgrade_some.mp hm).1]
    · cases hm
  · intro m h1 h2 hm
    refine hs m h1 h2 (mem_strongRefs.mpr (Or.inr (Or.inr (Or.inl ?_))))
    unfold docType at hm
    split at hm
    · rename_i x hx; exact ⟨x, hx, hm⟩
    · cases hm
  · intro m h1 h2 s hm
    refine hw m h1 h2 (mem_weakRefs.mpr (Or.inr (Or.inr (Or.inr ?_))))
    unfold getElementById at hm
    split at hm
    · rename_i x hx; exact ⟨x, s, hx, mapGet_eq_some_mem (Heap.upgrade_some.mp hm).1⟩
    · cases hm

theorem untouched_alloc (h : Heap) (x : Node) : Untouched h (h.alloc x).2 := by
  refine ⟨Nat.le_succ _, ?_, ?_⟩
  · intro m hm; rw [Heap.get_alloc, if_neg (Nat.ne_of_lt hm)]
  · intro m hm; rw [Heap.live_alloc, if_neg (Nat.ne_of_lt hm)]

theorem _root_.XmlDom.Spec.Untouched.refl (h : Heap) : Untouched h h :=
  ⟨Nat.le_refl _, fun _ _ => rfl, fun _ _ => rfl⟩

theorem _root_.XmlDom.Spec.Untouched.trans {a b c : Heap} (x : Untouched a b) (y : Untouched b c) : Untouched a c := by
  refine ⟨Nat.le_trans x.next y.next, ?_, ?_⟩
  · intro m hm; rw [y.get m (Nat.lt_of_lt_of_le hm x.next), x.get m hm]
  · intro m hm; rw [y.live m (Nat.lt_of_lt_of_le hm x.next), x.live m hm]

theorem alone_alloc {h : Heap} (w : WF h) (x : Node) : Alone (h.alloc x).2 h.next := by
  refine alone_of_refs fun m hm hne => ?_
  rw [Heap.live_alloc, if_neg hne] at hm
  rw [Heap.get_alloc, if_neg hne]
  exact ⟨fun hr => Nat.lt_irrefl _ (w.fresh _ (w.strong m hm _ hr)),
    fun hr => Nat.lt_irrefl _ (w.weak m hm _ hr)⟩

theorem unused_next {h : Heap} (w : WF h) : h.live h.next = false := by
  cases hl : h.live h.next with
  | false => rfl
  | true => exact absurd (w.fresh _ hl) (Nat.lt_irrefl _)

theorem made_alloc {h : Heap} (w : WF h) {doc : NodeId} (hd : h.live doc = true) {x : Node}
    (hp : x.parent = none) (hc : x.children = []) (ho : x.owner = some doc)
    (hx : ∀ attrs nss, x.ext = .element attrs nss → attrs = []) :
    Made h (h.alloc x).2 doc h.next := by
  have hg : (h.alloc x).2.get h.next = x := by rw [Heap.get_alloc, if_pos rfl]
  refine ⟨unused_next w, by simp, ?_, ?_, ?_, ?_, alone_alloc w x, untouched_alloc h x, rfl, rfl⟩
  · unfold parentNode; rw [hg, hp]; split <;> rfl
  · unfold childNodes; rw [hg, hc]
  · unfold ownerDocument
    rw [hg, ho]
    refine Heap.upgrade_some.mpr ⟨rfl, ?_⟩
    rw [Heap.live_alloc]
    split
    · rfl
    · exact hd
  · unfold attributes
    rw [hg]
    split
    · split
      · rename_i attrs nss he; exact hx attrs nss he
      · rfl
    · rfl

/-- What `createNamed` does. -/
theorem createNamed_ok {h : Heap} {o : Outcome Name} {mk : Name → Node} {n : NodeId} {h' : Heap}
    (hok : createNamed h o mk = (.ok n, h')) :
    ∃ nm, o = .ok nm ∧ n = h.next ∧ h' = (h.alloc (mk nm)).2 := by
  unfold createNamed at hok
  cases o with
  | ok nm => simp only [Prod.mk.injEq] at hok; exact ⟨nm, rfl, by cases hok.1; rfl, hok.2.symm⟩
  | err _ => simp at hok
  | panic _ => simp at hok
  | diverge => simp at hok

theorem createNamed_fails {h : Heap} {o : Outcome Name} {mk : Name → Node}
    (hf : ∀ n, (createNamed h o mk).1 ≠ .ok n) : (createNamed h o mk).2 = h := by
  unfold createNamed at *
  cases o with
  | ok nm => exact absurd rfl (hf _)
  | err _ => rfl
  | panic _ => rfl
  | diverge => rfl

/-! ## C67 -/

/-- C67: `create_element`. -/
theorem C67_element (h : Heap) (hr : Reachable h) (doc : NodeId) (hd : h.live doc = true)
    (tag : Str) (n : NodeId) (h' : Heap) (hok : createElement h doc tag = (.ok n, h')) :
    Made h h' doc n ∧ nodeType h' n = .element ∧ (nodeName h' n).display = tag ∧
      (nodeName h' n).namespaceUri = none ∧ nodeValue h' n = none := by
  obtain ⟨nm, h1, rfl, rfl⟩ := createNamed_ok hok
  refine ⟨made_alloc hr.wf hd rfl rfl rfl (by intro a b hx; cases hx; rfl), ?_⟩
  simp only [nodeType, nodeName, nodeValue, Heap.get_alloc, if_true, Node.newElement]
  exact ⟨trivial, C28_display_fromStr tag nm h1, (C27_only_qnames tag nm h1).2.1, trivial⟩

theorem display_newNs {uri q : Str} {nm : Name} (hn : Name.newNs uri q = .ok nm) :
    nm.display = q ∧ nm.namespaceUri = some uri := by
  obtain ⟨m, h1, _, rfl, _⟩ := (C29_new_ns_ok uri q nm).mp hn
  exact ⟨C28_display_fromStr q m h1, rfl⟩

/-- C67: `create_element_ns`. -/
theorem C67_element_ns (h : Heap) (hr : Reachable h) (doc : NodeId) (hd : h.live doc = true)
    (uri q : Str) (n : NodeId) (h' : Heap) (hok : createElementNs h doc uri q = (.ok n, h')) :
    Made h h' doc n ∧ nodeType h' n = .element ∧ (nodeName h' n).display = q ∧
      (nodeName h' n).namespaceUri = some uri ∧ nodeValue h' n = none := by
  obtain ⟨nm, h1, rfl, rfl⟩ := createNamed_ok hok
  refine ⟨made_alloc hr.wf hd rfl rfl rfl (by intro a b hx; cases hx; rfl), ?_⟩
  simp only [nodeType, nodeName, nodeValue, Heap.get_alloc, if_true, Node.newElement]
  exact ⟨trivial, (display_newNs h1).1, (display_newNs h1).2, trivial⟩

/-- C67: `create_text_node`. -/
theorem C67_text (h : Heap) (hr : Reachable h) (doc : NodeId) (hd : h.live doc = true)
    (data : Str) :
    ∃ n h', createTextNode h doc data = (.ok n, h') ∧ Made h h' doc n ∧ nodeType h' n = .text ∧
      (nodeName h' n).display = c! "#text" ∧ nodeValue h' n = some data := by
  refine ⟨_, _, rfl, made_alloc hr.wf hd rfl rfl rfl (by intro a b hx; cases hx), ?_⟩
  simp only [nodeType, nodeName, nodeValue, Heap.alloc, if_true, Node.newText]
  exact ⟨trivial, by decide, trivial⟩

/-- C67: `create_cdata_section`. -/
theorem C67_cdata (h : Heap) (hr : Reachable h) (doc : NodeId) (hd : h.live doc = true)
    (data : Str) :
    ∃ n h', createCdataSection h doc data = (.ok n, h') ∧ Made h h' doc n ∧
      nodeType h' n = .cdata ∧ (nodeName h' n).display = c! "#cdata-section" ∧
      nodeValue h' n = some data := by
  refine ⟨_, _, rfl, made_alloc hr.wf hd rfl rfl rfl (by intro a b hx; cases hx), ?_⟩
  simp only [nodeType, nodeName, nodeValue, Heap.alloc, if_true, Node.newCdata]
  exact ⟨trivial, by decide, trivial⟩

/-- C67: `create_comment`. -/
theorem C67_comment (h : Heap) (hr : Reachable h) (doc : NodeId) (hd : h.live doc = true)
    (data : Str) :
    ∃ n h', createComment h doc data = (.ok n, h') ∧ Made h h' doc n ∧ nodeType h' n = .comment ∧
      (nodeName h' n).display = c! "#comment" ∧ nodeValue h' n = some data := by
  refine ⟨_, _, rfl, made_alloc hr.wf hd rfl rfl rfl (by intro a b hx; cases hx), ?_⟩
  simp only [nodeType, nodeName, nodeValue, Heap.alloc, if_true, Node.newComment]
  exact ⟨trivial, by decide, trivial⟩

/-- C67: `create_document_fragment`. -/
theorem C67_fragment (h : Heap) (hr : Reachable h) (doc : NodeId) (hd : h.live doc = true) :
    ∃ n h', createDocumentFragment h doc = (.ok n, h') ∧ Made h h' doc n ∧
      nodeType h' n = .documentFragment ∧ (nodeName h' n).display = c! "#document-fragment" ∧
      nodeValue h' n = none := by
  refine ⟨_, _, rfl, made_alloc hr.wf hd rfl rfl rfl (by intro a b hx; cases hx), ?_⟩
  simp only [nodeType, nodeName, nodeValue, Heap.alloc, if_true, Node.newDocumentFragment]
  exact ⟨trivial, by decide, trivial⟩

/-- C67: `create_entity_reference`. -/
theorem C67_entity_reference (h : Heap) (hr : Reachable h) (doc : NodeId) (hd : h.live doc = true)
    (name : Str) (n : NodeId) (h' : Heap) (hok : createEntityReference h doc name = (.ok n, h')) :
    Made h h' doc n ∧ nodeType h' n = .entityReference ∧ (nodeName h' n).display = name ∧
      nodeValue h' n = none := by
  obtain ⟨nm, h1, rfl, rfl⟩ := createNamed_ok hok
  refine ⟨made_alloc hr.wf hd rfl rfl rfl (by intro a b hx; cases hx), ?_⟩
  simp only [nodeType, nodeName, nodeValue, Heap.get_alloc, if_true, Node.newEntityReference]
  exact ⟨trivial, C28_display_fromStr name nm h1, trivial⟩

/-- C67: `create_processing_instruction`. -/
theorem C67_processing_instruction (h : Heap) (hr : Reachable h) (doc : NodeId)
    (hd : h.live doc = true) (target : Str) (data : Option Str) (n : NodeId) (h' : Heap)
    (hok : createProcessingInstruction h doc target data = (.ok n, h')) :
    Made h h' doc n ∧ nodeType h' n = .processingInstruction ∧
      (nodeName h' n).display = target ∧ nodeValue h' n = data := by
  unfold createProcessingInstruction at hok
  split at hok
  · simp at hok
  obtain ⟨nm, h1, rfl, rfl⟩ := createNamed_ok hok
  refine ⟨made_alloc hr.wf hd rfl rfl rfl (by intro a b hx; cases hx), ?_⟩
  simp only [nodeType, nodeName, nodeValue, Heap.get_alloc, if_true,
    Node.newProcessingInstruction]
  exact ⟨trivial, C28_display_fromStr target nm h1, trivial⟩

/-- C67: `create_attribute` and `create_attribute_ns` make an attribute without value. -/
theorem C67_attribute (h : Heap) (hr : Reachable h) (doc : NodeId) (hd : h.live doc = true)
    (n : NodeId) (h' : Heap) :
    (∀ name, createAttribute h doc name = (.ok n, h') →
      Made h h' doc n ∧ nodeType h' n = .attribute ∧ (nodeName h' n).display = name ∧
      (nodeName h' n).namespaceUri = none ∧ nodeValue h' n = none ∧ ownerElement h' n = none) ∧
    (∀ uri name, createAttributeNs h doc uri name = (.ok n, h') →
      Made h h' doc n ∧ nodeType h' n = .attribute ∧ (nodeName h' n).display = name ∧
      (nodeName h' n).namespaceUri = some uri ∧ nodeValue h' n = none ∧
      ownerElement h' n = none) := by
  have key : ∀ o, createAttr h doc o none = (.ok n, h') → ∃ nm, o = .ok nm ∧ Made h h' doc n ∧
      nodeType h' n = .attribute ∧ nodeName h' n = nm ∧ nodeValue h' n = none ∧
      ownerElement h' n = none := by
    intro o hok
    unfold createAttr at hok
    cases o with
    | ok nm =>
      simp only [Heap.newAttribute, Prod.mk.injEq, Outcome.ok.injEq] at hok
      obtain ⟨rfl, rfl⟩ := hok
      refine ⟨nm, rfl, made_alloc hr.wf hd rfl rfl rfl (by intro a b hx; cases hx), ?_⟩
      simp [nodeType, nodeName, nodeValue, ownerElement, Heap.alloc, Heap.upgrade]
    | err _ => simp at hok
    | panic _ => simp at hok
    | diverge => simp at hok
  constructor
  · intro name hok
    obtain ⟨nm, h1, h2, h3, h4, h5⟩ := key _ hok
    rw [h4]
    exact ⟨h2, h3, C28_display_fromStr name nm h1, (C27_only_qnames name nm h1).2.1, h5⟩
  · intro uri name hok
    obtain ⟨nm, h1, h2, h3, h4, h5⟩ := key _ hok
    rw [h4]
    exact ⟨h2, h3, (display_newNs h1).1, (display_newNs h1).2, h5⟩

/-- C67: `create_attribute_with` makes an attribute and its one text child. -/
theorem C67_attribute_with (h : Heap) (hr : Reachable h) (doc : NodeId) (hd : h.live doc = true)
    (name value : Str) (n : NodeId) (h' : Heap)
    (hok : createAttributeWith h doc name value = (.ok n, h')) :
    ∃ t, t ≠ n ∧ h.live n = false ∧ h.live t = false ∧ h'.live n = true ∧ h'.live t = true ∧
      Untouched h h' ∧ nodeType h' n = .attribute ∧ (nodeName h' n).display = name ∧
      nodeValue h' n = none ∧ parentNode h' n = none ∧ ownerDocument h' n = some doc ∧
      ownerElement h' n = none ∧ Alone h' n ∧ childNodes h' n = [t] ∧
      nodeType h' t = .text ∧ nodeValue h' t = some value ∧ ownerDocument h' t = some doc ∧
      childNodes h' t = [] := by
  have w := hr.wf
  unfold createAttributeWith createAttr at hok
  cases hq : Name.fromStr name with
  | err _ => rw [hq] at hok; simp at hok
  | panic _ => rw [hq] at hok; simp at hok
  | diverge => rw [hq] at hok; simp at hok
  | ok nm =>
    rw [hq] at hok
    simp only [Prod.mk.injEq, Outcome.ok.injEq] at hok
    have e1 : n = h.next + 1 := hok.1.symm
    have e2 : h' = (h.newAttribute doc nm (some value)).2 := hok.2.symm
    clear hok
    subst e1 e2
    have hl0 : h.live h.next = false := unused_next w
    have hl1 : h.live (h.next + 1) = false := by
      cases hl : h.live (h.next + 1) with
      | false => rfl
      | true => exact absurd (w.fresh _ hl) (Nat.not_lt_of_le (Nat.le_succ _))
    have hdn := w.fresh doc hd
    have hne : h.next ≠ h.next + 1 := Nat.ne_of_lt (Nat.lt_succ_self _)
    have gt : (h.newAttribute doc nm (some value)).2.get h.next = Node.newText doc value := by
      simp [Heap.newAttribute]
    have ga : (h.newAttribute doc nm (some value)).2.get (h.next + 1) =
        Node.newAttr doc nm [h.next] := by simp [Heap.newAttribute, Node.newAttr]
    have lv : ∀ m, (h.newAttribute doc nm (some value)).2.live m =
        if m = h.next + 1 then true else if m = h.next then true else h.live m := by
      intro m; simp [Heap.newAttribute, Heap.live_alloc]
    have ld : (h.newAttribute doc nm (some value)).2.live doc = true := by
      rw [lv]; simp [hd]
    have un : Untouched h (h.newAttribute doc nm (some value)).2 :=
      ⟨Nat.le_succ_of_le (Nat.le_succ _), fun m hm => (newAttribute_old h _ _ _ hm).1,
        fun m hm => (newAttribute_old h _ _ _ hm).2⟩
    refine ⟨h.next, hne, hl1, hl0, by rw [lv]; simp, by rw [lv]; simp, un, ?_, ?_, ?_, ?_, ?_, ?_,
      ?_, ?_, ?_, ?_, ?_, ?_⟩
    · unfold nodeType; rw [ga]; rfl
    · unfold nodeName; rw [ga]; exact C28_display_fromStr name nm hq
    · unfold nodeValue; rw [ga]; rfl
    · unfold parentNode; rw [ga]; rfl
    · unfold ownerDocument; rw [ga]; exact Heap.upgrade_some.mpr ⟨rfl, ld⟩
    · unfold ownerElement; rw [ga]; rfl
    · refine alone_of_refs fun m hm hne => ?_
      rw [lv, if_neg hne] at hm
      by_cases ht : m = h.next
      · subst ht
        rw [gt]
        refine ⟨by simp [strongRefs, Node.newText], ?_⟩
        simp only [weakRefs, Node.newText, Option.toList, List.nil_append, List.append_nil,
          List.mem_singleton]
        exact fun he => Nat.not_lt_of_le (Nat.le_succ _) (he ▸ hdn)
      · rw [if_neg ht] at hm
        rw [un.get m (w.fresh m hm)]
        exact ⟨fun hr => Nat.not_lt_of_le (Nat.le_succ _) (w.fresh _ (w.strong m hm _ hr)),
          fun hr => Nat.not_lt_of_le (Nat.le_succ _) (w.weak m hm _ hr)⟩
    · unfold childNodes; rw [ga]; rfl
    · unfold nodeType; rw [gt]; rfl
    · unfold nodeValue; rw [gt]; rfl
    · unfold ownerDocument; rw [gt]; exact Heap.upgrade_some.mpr ⟨rfl, ld⟩
    · unfold childNodes; rw [gt]; rfl

/-- C67: a create call that does not return a node leaves the heap alone. -/
theorem C67_failure (h : Heap) (doc : NodeId) :
    (∀ s, (∀ n, (createElement h doc s).1 ≠ .ok n) → (createElement h doc s).2 = h) ∧
    (∀ u s, (∀ n, (createElementNs h doc u s).1 ≠ .ok n) → (createElementNs h doc u s).2 = h) ∧
    (∀ s, (∀ n, (createAttribute h doc s).1 ≠ .ok n) → (createAttribute h doc s).2 = h) ∧
    (∀ s v, (∀ n, (createAttributeWith h doc s v).1 ≠ .ok n) →
      (createAttributeWith h doc s v).2 = h) ∧
    (∀ u s, (∀ n, (createAttributeNs h doc u s).1 ≠ .ok n) →
      (createAttributeNs h doc u s).2 = h) ∧
    (∀ s, (∀ n, (createEntityReference h doc s).1 ≠ .ok n) →
      (createEntityReference h doc s).2 = h) ∧
    (∀ s x, (∀ n, (createProcessingInstruction h doc s x).1 ≠ .ok n) →
      (createProcessingInstruction h doc s x).2 = h) := by
  have at_ : ∀ o v, (∀ n, (createAttr h doc o v).1 ≠ .ok n) → (createAttr h doc o v).2 = h := by
    intro o v hf
    unfold createAttr at *
    cases o with
    | ok nm => exact absurd rfl (hf _)
    | err _ => rfl
    | panic _ => rfl
    | diverge => rfl
  refine ⟨fun s => createNamed_fails, fun u s => createNamed_fails, fun s => at_ _ _,
    fun s v => at_ _ _, fun u s => at_ _ _, fun s => createNamed_fails, fun s x => ?_⟩
  unfold createProcessingInstruction
  split
  · intro _; rfl
  · exact createNamed_fails

/-- C67: which names are refused is decided by the name alone: a create call returns a
node exactly when its name parses. -/
theorem C67_accepts (h : Heap) (doc : NodeId) (s : Str) :
    ((∃ n, (createElement h doc s).1 = .ok n) ↔ ∃ nm, Name.fromStr s = .ok nm) ∧
    ((∃ n, (createAttribute h doc s).1 = .ok n) ↔ ∃ nm, Name.fromStr s = .ok nm) ∧
    ((∃ n, (createEntityReference h doc s).1 = .ok n) ↔ ∃ nm, Name.fromStr s = .ok nm) := by
  unfold createElement createAttribute createEntityReference createNamed createAttr
  cases Name.fromStr s <;> simp

example : Reachable (after [mkDoc]) ∧ (after [mkDoc]).live 0 = true ∧
    (createElement (after [mkDoc]) 0 (c! "p:a")).1 = .ok 2 ∧
    (createElementNs (after [mkDoc]) 0 (c! "urn:u") (c! "p:a")).1 = .ok 2 ∧
    (createAttributeWith (after [mkDoc]) 0 (c! "a") (c! "v")).1 = .ok 3 ∧
    (createAttribute (after [mkDoc]) 0 (c! "a")).1 = .ok 2 ∧
    (createEntityReference (after [mkDoc]) 0 (c! "amp")).1 = .ok 2 ∧
    (createProcessingInstruction (after [mkDoc]) 0 (c! "t") (some (c! "d"))).1 = .ok 2 ∧
    (createElement (after [mkDoc]) 0 (c! "1")).1 = .err .invalidCharacter :=
  ⟨reachable_after _, by decide⟩

/-! ## C66 -/

theorem appendRoot {h : Heap} {d r : NodeId} (hne : d ≠ r) (hd : h.live d = true)
    (td : (h.get d).ntype = .document) (cd : (h.get d).children = [])
    (tr : (h.get r).ntype = .element) (pr : (h.get r).parent = none)
    (owr : (h.get r).owner = some d) : appendChild h d r = (.ok r, h.link d r none) := by
  unfold appendChild
  rw [insertBefore_eq]
  have h1 : isChildAllowed (h.get d).ntype (h.get r).ntype = true := by rw [td, tr]; rfl
  have h2 : checkSameDocument h d r = .ok () := by
    unfold checkSameDocument; rw [if_pos td, owr]; simp [hd]
  have h3 : parentNode h r = none := by unfold parentNode; rw [pr]; split <;> rfl
  rw [if_neg (by rw [h1]; simp), if_neg (by rw [cd]; simp), h2, h3]
  simp only [insertPosition]
  rw [if_neg hne]

/-- What `create_document` is expected to return: a new document without parent and owner,
with the given document type, no declaration and the given options; its only child is the
requested root. -/
structure NewDocument (h h' : Heap) (uri qname : Option Str) (dt : Option NodeId) (o : Options)
    (d : NodeId) : Prop where
  unused : h.live d = false
  live : h'.live d = true
  ntype : nodeType h' d = .document
  parent : parentNode h' d = none
  owner : ownerDocument h' d = none
  docType : docType h' d = dt
  decl : xmlDeclaration h' d = none
  options : ∃ x, (h'.get d).ext = .document x ∧ x.options = o ∧ x.idMap = []
  others : Untouched h h'
  alone : ∀ m, h'.live m = true → m ≠ d → d ∉ childNodes h' m
  noRoot : qname = none → childNodes h' d = []
  root : ∀ q, qname = some q → ∃ r, r ≠ d ∧ childNodes h' d = [r] ∧ h.live r = false ∧
    h'.live r = true ∧ nodeType h' r = .element ∧ (nodeName h' r).display = q ∧
    (nodeName h' r).namespaceUri = uri ∧ nodeValue h' r = none ∧ childNodes h' r = [] ∧
    attributes h' r = [] ∧ parentNode h' r = some d ∧ ownerDocument h' r = some d

theorem createDocument_root {h : Heap} (w : WF h) {dt : Option NodeId} {o : Options}
    {nm : Name} : ∃ h2,
    appendChild ((h.alloc (Node.newDocument dt o)).2.alloc (Node.newElement h.next nm)).2 h.next
      (h.next + 1) = (.ok (h.next + 1), h2) ∧
    ∀ uri q, nm.display = q → nm.namespaceUri = uri → NewDocument h h2 uri (some q) dt o h.next := by
  have hne : h.next ≠ h.next + 1 := Nat.ne_of_lt (Nat.lt_succ_self _)
  have key := appendRoot
    (h := ((h.alloc (Node.newDocument dt o)).2.alloc (Node.newElement h.next nm)).2) (d := h.next)
    (r := h.next + 1) hne (by simp [Heap.alloc]) (by simp [Heap.alloc, Node.newDocument])
    (by simp [Heap.alloc, Node.newDocument]) (by simp [Heap.alloc, Node.newElement])
    (by simp [Heap.alloc, Node.newElement]) (by simp [Heap.alloc, Node.newElement])
  refine ⟨_, key, ?_⟩
  rintro uri q hq hu
  clear key
  generalize hh : ((h.alloc (Node.newDocument dt o)).2.alloc (Node.newElement h.next nm)).2 = h1
  have gd : h1.get h.next = Node.newDocument dt o := by rw [← hh]; simp [Heap.alloc]
  have gr : h1.get (h.next + 1) = Node.newElement h.next nm := by rw [← hh]; simp [Heap.alloc]
  have gl := get_link h1 (pos := none) hne
  have un1 : Untouched h h1 := by
    rw [← hh]; exact (untouched_alloc _ _).trans (untouched_alloc _ _)
  have hl : ∀ m, (h1.link h.next (h.next + 1) none).live m =
      if m = h.next + 1 then true else if m = h.next then true else h.live m := by
    intro m; rw [live_link, ← hh]; simp [Heap.live_alloc]
  have hl1 : h.live (h.next + 1) = false := by
    cases hl : h.live (h.next + 1) with
    | false => rfl
    | true => exact absurd (w.fresh _ hl) (Nat.not_lt_of_le (Nat.le_succ _))
  have ows : ownerFor h1 h.next = some h.next := by
    unfold ownerFor; rw [gd]; rfl
  have fd : (h1.link h.next (h.next + 1) none).get h.next =
      { Node.newDocument dt o with children := [h.next + 1] } := by
    rw [gl, gd]
    simp [Node.newDocument, insertAt]
  have fr : (h1.link h.next (h.next + 1) none).get (h.next + 1) =
      { Node.newElement h.next nm with parent := some h.next } := by
    rw [gl, gr, ows]
    simp [Node.newElement]
  have ld : (h1.link h.next (h.next + 1) none).live h.next = true := by rw [hl]; simp
  have fo : ∀ m, m < h.next → (h1.link h.next (h.next + 1) none).get m = h.get m := by
    intro m hm
    have e1 : m ≠ h.next := Nat.ne_of_lt hm
    have e2 : m ≠ h.next + 1 := Nat.ne_of_lt (Nat.lt_succ_of_lt hm)
    rw [gl, un1.get m hm]
    simp [e1, e2]
  refine ⟨unused_next w, ld, ?_, ?_, ?_, ?_, ?_, ?_, ?_, ?_, ?_, ?_⟩
  · unfold nodeType; rw [fd]; rfl
  · unfold parentNode; rw [fd]; rfl
  · unfold ownerDocument; rw [fd]; rfl
  · unfold docType; rw [fd]; rfl
  · unfold xmlDeclaration; rw [fd]; rfl
  · exact ⟨_, by rw [fd]; rfl, rfl, rfl⟩
  · refine ⟨?_, fo, ?_⟩
    · rw [next_link]; exact un1.next
    · intro m hm; rw [live_link]; exact un1.live m hm
  · intro m hm hmd hc
    rw [hl] at hm
    by_cases e : m = h.next + 1
    · subst e; unfold childNodes at hc; rw [fr] at hc; cases hc
    · rw [if_neg e, if_neg hmd] at hm
      unfold childNodes at hc
      rw [fo m (w.fresh m hm)] at hc
      exact Nat.lt_irrefl _ (w.fresh _ (w.child hm hc))
  · intro hc; cases hc
  · intro q' hq'
    cases hq'
    refine ⟨h.next + 1, hne.symm, by unfold childNodes; rw [fd], hl1, by rw [hl]; simp, ?_, ?_,
      ?_, ?_, ?_, ?_, ?_, ?_⟩
    · unfold nodeType; rw [fr]; rfl
    · unfold nodeName; rw [fr]; exact hq
    · unfold nodeName; rw [fr]; exact hu
    · unfold nodeValue; rw [fr]; rfl
    · unfold childNodes; rw [fr]; rfl
    · unfold attributes; rw [fr]; rfl
    · exact parentNode_eq_some.mpr ⟨by rw [fr]; simp [Node.newElement], by rw [fr], ld⟩
    · unfold ownerDocument; rw [fr]; exact Heap.upgrade_some.mpr ⟨rfl, ld⟩

/-- C66: what `create_document` returns. -/
theorem C66_ok (h : Heap) (hr : Reachable h) (uri qname : Option Str) (dt : Option NodeId)
    (o : Options) (d : NodeId) (h' : Heap)
    (hok : createDocumentWithOptions h uri qname dt o = (.ok d, h')) :
    NewDocument h h' uri qname dt o d := by
  have w := hr.wf
  unfold createDocumentWithOptions at hok
  have root : ∀ {nm : Name} {q : Str}, nm.display = q → nm.namespaceUri = uri → qname = some q →
      (match appendChild ((h.alloc (Node.newDocument dt o)).2.alloc
          (Node.newElement h.next nm)).2 h.next (h.next + 1) with
        | (.ok _, h2) => ((.ok h.next, h2) : Result NodeId)
        | x => x) = (.ok d, h') → NewDocument h h' uri qname dt o d := by
    intro nm q hq hu hqn hx
    obtain ⟨h2, e1, e2⟩ := createDocument_root (h := h) w (dt := dt) (o := o) (nm := nm)
    rw [e1] at hx
    simp only [Prod.mk.injEq, Outcome.ok.injEq] at hx
    obtain ⟨rfl, rfl⟩ := hx
    rw [hqn]
    exact e2 uri q hq hu
  cases uri with
  | none =>
    cases qname with
    | none =>
      simp only [Prod.mk.injEq, Outcome.ok.injEq] at hok
      obtain ⟨e1, rfl⟩ := hok
      have e1 : d = h.next := e1.symm
      subst e1
      have g : (h.alloc (Node.newDocument dt o)).2.get h.next = Node.newDocument dt o := by
        simp [Heap.alloc]
      refine ⟨unused_next w, by simp [Heap.alloc], ?_, ?_, ?_, ?_, ?_, ?_, untouched_alloc _ _,
        fun m h1 h2 => (alone_alloc w _).child m h1 h2, ?_, ?_⟩
      · unfold nodeType; rw [g]; rfl
      · unfold parentNode; rw [g]; rfl
      · unfold ownerDocument; rw [g]; rfl
      · unfold docType; rw [g]; rfl
      · unfold xmlDeclaration; rw [g]; rfl
      · exact ⟨_, by rw [g]; rfl, rfl, rfl⟩
      · intro _; unfold childNodes; rw [g]; rfl
      · intro q hq; cases hq
    | some q =>
      simp only [createElement, createNamed] at hok
      cases hn : Name.fromStr q with
      | ok nm =>
        rw [hn] at hok
        exact root (C28_display_fromStr q nm hn) (C27_only_qnames q nm hn).2.1 rfl hok
      | err _ => rw [hn] at hok; simp at hok
      | panic _ => rw [hn] at hok; simp at hok
      | diverge => rw [hn] at hok; simp at hok
  | some u =>
    cases qname with
    | none => simp at hok
    | some q =>
      simp only [createElementNs, createNamed] at hok
      cases hn : Name.newNs u q with
      | ok nm =>
        rw [hn] at hok
        exact root (display_newNs hn).1 (display_newNs hn).2 rfl hok
      | err _ => rw [hn] at hok; simp at hok
      | panic _ => rw [hn] at hok; simp at hok
      | diverge => rw [hn] at hok; simp at hok

/-- C66: `create_document` succeeds exactly when there is no root name and no namespace,
or the root name is valid with the namespace; a namespace without a name is refused with
`Namespace`, a bad name with the error of the name. -/
theorem C66_outcome (h : Heap) (hr : Reachable h) (dt : Option NodeId) (o : Options) :
    (∃ d, (createDocumentWithOptions h none none dt o).1 = .ok d) ∧
    (∀ u, (createDocumentWithOptions h (some u) none dt o).1 = .err .namespace) ∧
    (∀ q, ((∃ d, (createDocumentWithOptions h none (some q) dt o).1 = .ok d) ↔
      ∃ nm, Name.fromStr q = .ok nm) ∧
      ∀ e, (createDocumentWithOptions h none (some q) dt o).1 = .err e ↔
        Name.fromStr q = .err e) ∧
    (∀ u q, ((∃ d, (createDocumentWithOptions h (some u) (some q) dt o).1 = .ok d) ↔
      ∃ nm, Name.newNs u q = .ok nm) ∧
      ∀ e, (createDocumentWithOptions h (some u) (some q) dt o).1 = .err e ↔
        Name.newNs u q = .err e) := by
  have w := hr.wf
  refine ⟨⟨_, rfl⟩, fun u => rfl, fun q => ?_, fun u q => ?_⟩
  all_goals
    unfold createDocumentWithOptions
    simp only [createElement, createElementNs, createNamed]
  · cases hn : Name.fromStr q with
    | ok nm =>
      obtain ⟨h2, e1, _⟩ := createDocument_root (h := h) w (dt := dt) (o := o) (nm := nm)
      simp only [Heap.alloc] at e1 ⊢
      rw [e1]
      simp
    | err _ => simp
    | panic _ => simp
    | diverge => simp
  · cases hn : Name.newNs u q with
    | ok nm =>
      obtain ⟨h2, e1, _⟩ := createDocument_root (h := h) w (dt := dt) (o := o) (nm := nm)
      simp only [Heap.alloc] at e1 ⊢
      rw [e1]
      simp
    | err _ => simp
    | panic _ => simp
    | diverge => simp

/-- C66: whatever `create_document` returns, no existing node changes. -/
theorem C66_untouched (h : Heap) (hr : Reachable h) (uri qname : Option Str) (dt : Option NodeId)
    (o : Options) : Untouched h (createDocumentWithOptions h uri qname dt o).2 := by
  have w := hr.wf
  have u1 := untouched_alloc h (Node.newDocument dt o)
  have good : ∀ d h', createDocumentWithOptions h uri qname dt o = (.ok d, h') → Untouched h h' :=
    fun d h' hok => (C66_ok h hr uri qname dt o d h' hok).others
  generalize hq : createDocumentWithOptions h uri qname dt o = q at *
  obtain ⟨r, h'⟩ := q
  cases r with
  | ok d => exact good d h' rfl
  | _ =>
    unfold createDocumentWithOptions at hq
    cases uri <;> cases qname <;> simp only [createElement, createElementNs, createNamed] at hq
    case none.none => simp at hq
    case some.none =>
      simp only [Prod.mk.injEq] at hq
      rw [← hq.2]
      exact u1
    all_goals
      rename_i q
      first
      | (rename_i u; cases hn : Name.newNs u q with
        | ok nm =>
          rw [hn] at hq
          obtain ⟨h2, e1, _⟩ := createDocument_root (h := h) w (dt := dt) (o := o) (nm := nm)
          simp only [Heap.alloc] at e1 hq
          rw [e1] at hq
          simp at hq
        | _ =>
          rw [hn] at hq
          simp only [Prod.mk.injEq] at hq
          rw [← hq.2]
          exact u1)
      | (cases hn : Name.fromStr q with
        | ok nm =>
          rw [hn] at hq
          obtain ⟨h2, e1, _⟩ := createDocument_root (h := h) w (dt := dt) (o := o) (nm := nm)
          simp only [Heap.alloc] at e1 hq
          rw [e1] at hq
          simp at hq
        | _ =>
          rw [hn] at hq
          simp only [Prod.mk.injEq] at hq
          rw [← hq.2]
          exact u1)

example : Reachable Heap.empty ∧
    (createDocument Heap.empty (some (c! "urn:u")) (some (c! "p:r")) none).1 = .ok 0 :=
  ⟨⟨[], by simp, rfl⟩, by decide⟩

/-! ## C54 -/

/-- C54: a shallow clone is one new node with the type, name, value and owner document of
the original, without parent and children. -/
theorem C54_shallow (h : Heap) (hr : Reachable h) (n : NodeId) (hn : h.live n = true)
    (fuel : Nat) (hf : fuel ≠ 0) :
    ∃ m h', cloneNode fuel h n false = (.ok m, h') ∧ h.live m = false ∧ h'.live m = true ∧
      nodeType h' m = nodeType h n ∧ nodeName h' m = nodeName h n ∧
      nodeValue h' m = nodeValue h n ∧ ownerDocument h' m = ownerDocument h n ∧
      attributes h' m = attributes h n ∧ parentNode h' m = none ∧ childNodes h' m = [] ∧
      Alone h' m ∧ Untouched h h' ∧ h'.next = h.next + 1 := by
  have w := hr.wf
  cases fuel with
  | zero => exact absurd rfl hf
  | succ f =>
    refine ⟨_, _, rfl, unused_next w, by simp [Heap.alloc], ?_, ?_, ?_, ?_, ?_, ?_, ?_,
      alone_alloc w _, untouched_alloc _ _, rfl⟩
    · simp [nodeType, Heap.alloc]
    · simp [nodeName, Heap.alloc]
    · simp [nodeValue, Heap.alloc]
    · unfold ownerDocument
      simp only [Heap.alloc, if_true]
      cases ho : (h.get n).owner with
      | none => rfl
      | some d =>
        have : d < h.next := w.weak n hn d (by simp [weakRefs, ho])
        simp [Heap.upgrade, Nat.ne_of_lt this]
    · simp [attributes, Heap.alloc]
    · simp [parentNode, Heap.alloc, Heap.upgrade]
    · simp [childNodes, Heap.alloc]

example : Reachable (after [mkDoc]) ∧ (after [mkDoc]).live 1 = true ∧
    (cloneNode 1 (after [mkDoc]) 0 false).1 = .ok 2 ∧
    childNodes (cloneNode 1 (after [mkDoc]) 0 false).2 2 = [] := ⟨reachable_after _, by decide⟩

/-! ## C69 -/

/-- C69: `set_node_value` and `unset_node_value` write the value of the node and nothing
else. -/
theorem C69_set (h : Heap) (n : NodeId) (v : Str) :
    ∃ h', setNodeValue h n v = (.ok (), h') ∧ nodeValue h' n = some v ∧
      h'.get n = { h.get n with value := some v } ∧ (∀ m, m ≠ n → h'.get m = h.get m) ∧
      h'.live = h.live ∧ h'.next = h.next ∧
      charData h' n = some (if nodeType h n = .text ∨ nodeType h n = .comment
        then escape v else v) := by
  refine ⟨_, rfl, by simp [nodeValue], by simp, ?_, rfl, rfl, ?_⟩
  · intro m hm; simp [hm]
  · unfold charData nodeType
    by_cases ht : (h.get n).ntype = .text ∨ (h.get n).ntype = .comment <;> simp [ht]

theorem C69_unset (h : Heap) (n : NodeId) :
    ∃ h', unsetNodeValue h n = (.ok (), h') ∧ nodeValue h' n = none ∧ charData h' n = none ∧
      h'.get n = { h.get n with value := none } ∧ (∀ m, m ≠ n → h'.get m = h.get m) ∧
      h'.live = h.live ∧ h'.next = h.next := by
  refine ⟨_, rfl, by simp [nodeValue], by simp [charData], by simp, ?_, rfl, rfl⟩
  intro m hm; simp [hm]

/-- C69: setting or unsetting the value of one node does not show at another. -/
theorem C69_independent (h : Heap) (n m : NodeId) (v : Str) (hne : m ≠ n) :
    nodeValue (setNodeValue h n v).2 m = nodeValue h m ∧
    nodeValue (unsetNodeValue h n).2 m = nodeValue h m := by
  simp [setNodeValue, unsetNodeValue, nodeValue, hne]

example : nodeValue (setNodeValue (after [mkDoc]) 1 (c! "<")).2 1 = some (c! "<") := by decide

/-! ## C16-C18 on nodes -/

/-- C16: on a node, `substring_data` reads the value that `node_value` shows. -/
theorem C16_node (ov : Bool) (h : Heap) (n : NodeId) (a m b : Str) (hm : m ≠ [])
    (hv : nodeValue h n = some (a ++ m ++ b)) (hlen : byteLen (a ++ m ++ b) < usizeLimit) :
    nodeSubstringData ov h n (byteLen a) (byteLen m) = .ok m := by
  have hv' : (h.get n).value = some (a ++ m ++ b) := hv
  unfold nodeSubstringData
  rw [hv', C16_substring_range ov a m b hm hlen]

/-- C17: on a node, `replace_data` changes the value and nothing else. -/
theorem C17_node (ov : Bool) (h : Heap) (n : NodeId) (a m b r : Str) (hmb : m ++ b ≠ [])
    (hv : nodeValue h n = some (a ++ m ++ b)) (hlen : byteLen (a ++ m ++ b) < usizeLimit) :
    ∃ h', nodeReplaceData ov h n (byteLen a) (byteLen m) r = (.ok (), h') ∧
      nodeValue h' n = some (a ++ r ++ b) ∧
      h'.get n = { h.get n with value := nodeValue h' n } ∧ (∀ x, x ≠ n → h'.get x = h.get x) ∧
      h'.live = h.live ∧ h'.next = h.next := by
  have hv' : (h.get n).value = some (a ++ m ++ b) := hv
  unfold nodeReplaceData
  rw [hv', C17_replace_range ov a m b r hmb hlen]
  exact ⟨_, rfl, by simp [nodeValue], by simp [nodeValue], fun x hx => by simp [hx], rfl, rfl⟩

/-- C17: a call on a node that does not succeed changes nothing. -/
theorem C17_node_failed (ov : Bool) (h : Heap) (n : NodeId) (offset count : Nat) (s : Str) :
    ((nodeReplaceData ov h n offset count s).1 ≠ .ok () →
      (nodeReplaceData ov h n offset count s).2 = h) ∧
    ((nodeInsertData ov h n offset s).1 ≠ .ok () → (nodeInsertData ov h n offset s).2 = h) ∧
    ((nodeDeleteData ov h n offset count).1 ≠ .ok () →
      (nodeDeleteData ov h n offset count).2 = h) := by
  have key : ∀ r, (storeValue h n r).1 ≠ .ok () → (storeValue h n r).2 = h := by
    intro r
    cases r <;> simp [storeValue]
  exact ⟨key _, key _, key _⟩

/-- C18: on a node, `append_data`, `insert_data` and `delete_data` change the value as they
should and nothing else. -/
theorem C18_node_append (h : Heap) (n : NodeId) (s : Str) :
    ∃ h', nodeAppendData h n s = (.ok (), h') ∧
      (∀ old, nodeValue h n = some old → nodeValue h' n = some (old ++ s)) ∧
      (nodeValue h n = none → nodeValue h' n = if s = [] then none else some s) ∧
      h'.get n = { h.get n with value := nodeValue h' n } ∧ (∀ x, x ≠ n → h'.get x = h.get x) ∧
      h'.live = h.live ∧ h'.next = h.next := by
  refine ⟨_, rfl, ?_, ?_, by simp [nodeValue], fun x hx => by simp [hx], rfl, rfl⟩
  · intro old ho
    simpa [nodeValue] using (C18_append (h.get n).value s).1 old ho
  · intro ho
    simpa [nodeValue] using (C18_append (h.get n).value s).2 ho

theorem C18_node_insert (ov : Bool) (h : Heap) (n : NodeId) (a b s : Str) (hb : b ≠ [])
    (hv : nodeValue h n = some (a ++ b)) (hlen : byteLen (a ++ b) < usizeLimit) :
    ∃ h', nodeInsertData ov h n (byteLen a) s = (.ok (), h') ∧
      nodeValue h' n = some (a ++ s ++ b) ∧
      h'.get n = { h.get n with value := nodeValue h' n } ∧ (∀ x, x ≠ n → h'.get x = h.get x) ∧
      h'.live = h.live ∧ h'.next = h.next := by
  have hv' : (h.get n).value = some (a ++ b) := hv
  unfold nodeInsertData
  rw [hv', C18_insert ov a b s hb hlen]
  exact ⟨_, rfl, by simp [nodeValue], by simp [nodeValue], fun x hx => by simp [hx], rfl, rfl⟩

theorem C18_node_delete (ov : Bool) (h : Heap) (n : NodeId) (a m b : Str) (hmb : m ++ b ≠ [])
    (hv : nodeValue h n = some (a ++ m ++ b)) (hlen : byteLen (a ++ m ++ b) < usizeLimit) :
    ∃ h', nodeDeleteData ov h n (byteLen a) (byteLen m) = (.ok (), h') ∧
      nodeValue h' n = some (a ++ b) ∧
      h'.get n = { h.get n with value := nodeValue h' n } ∧ (∀ x, x ≠ n → h'.get x = h.get x) ∧
      h'.live = h.live ∧ h'.next = h.next := by
  have hv' : (h.get n).value = some (a ++ m ++ b) := hv
  unfold nodeDeleteData
  rw [hv', C18_delete ov a m b hmb hlen]
  exact ⟨_, rfl, by simp [nodeValue], by simp [nodeValue], fun x hx => by simp [hx], rfl, rfl⟩

example : nodeValue (after [mkDoc, .createTextNode 0 (c! "abc")]) 2 = some (c! "a" ++ c! "bc") ∧
    nodeValue (nodeAppendData (after [mkDoc, .createTextNode 0 (c! "abc")]) 2 (c! "d")).2 2 =
      some (c! "abcd") ∧
    nodeValue (nodeInsertData true (after [mkDoc, .createTextNode 0 (c! "abc")]) 2 1 (c! "x")).2 2 =
      some (c! "axbc") := by decide

end Props
end XmlDom
