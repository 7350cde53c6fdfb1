import Verif.Lemmas.Guarded
import Verif.Lemmas.Witness

/-!
# C07-C12, C15, C31, C42, C44, C45, C68, C70: what holds after any history of calls
-/

namespace XmlDom
namespace Props

open Spec

/-- A history of plain calls is one of calls with environments. -/
theorem reachableBy_after {G : Heap → Op → Prop} {ops : List Op}
    (hg : Obeys G (ops.map fun op => (plainEnv, op)) Heap.empty) : ReachableBy G (after ops) := by
  refine ⟨_, ?_, hg, rfl⟩
  intro x hx
  obtain ⟨op, _, rfl⟩ := List.mem_map.mp hx
  exact plainEnv_ok

/-! ## C07 -/

/-- C07: a node is among the children of `p` exactly when `p` is its parent. -/
def C07_full : Prop :=
  ∀ h, Reachable h → ∀ p c, h.live p = true → h.live c = true →
    (c ∈ childNodes h p ↔ parentNode h c = some p)

/-- C07 does not hold: the text child of a new attribute does not know its parent. -/
theorem C07_full_false : ¬ C07_full := by
  intro hf
  have := hf (after [mkDoc, .createAttributeWith 0 (c! "a") (c! "v")]) (reachable_after _) 3 2
    (by decide) (by decide)
  exact absurd this (by decide)

/-- C07 also fails for an ordinary child list, after a deep clone. -/
theorem C07_clone_false : ¬ ∀ h, Reachable h → ∀ p c, h.live p = true → h.live c = true →
    nodeType h p = .element → (c ∈ childNodes h p → parentNode h c = some p) := by
  intro hf
  have := hf (after [mkDoc, .createElement 0 (c! "a"), .appendChild 1 2, .cloneNode 1 true 5])
    (reachable_after _) 4 3 (by decide) (by decide) (by decide)
  exact absurd this (by decide)

/-- C07 also fails in the other direction, after `unset_value` on an element. -/
theorem C07_unset_false : ¬ ∀ h, Reachable h → ∀ p c, h.live p = true → h.live c = true →
    nodeType h p = .element → (parentNode h c = some p → c ∈ childNodes h p) := by
  intro hf
  have := hf (after [mkDoc, .createElement 0 (c! "a"), .appendChild 1 2, .unsetValue 1])
    (reachable_after _) 1 2 (by decide) (by decide) (by decide)
  exact absurd this (by decide)

/-- C07 (partial: tidy histories, and parents that are not attributes). -/
theorem C07_links_partial (h : Heap) (hr : ReachableBy TidyCall h) (p c : NodeId)
    (hp : h.live p = true) (hc : h.live c = true) (ht : nodeType h p ≠ .attribute) :
    c ∈ childNodes h p ↔ parentNode h c = some p := by
  have i := hr.reachable.invariant
  have k := hr.links
  constructor
  · intro hm
    refine parentNode_eq_some.mpr ⟨?_, k.up p c hp ht hm, hp⟩
    intro hta
    have := i.allowed p hp c hm
    rw [hta, isChildAllowed_attribute] at this
    cases this
  · intro hm
    obtain ⟨_, h1, _⟩ := parentNode_eq_some.mp hm
    exact k.down p c hp hc ht h1

/-- A tidy history: a root with two children, one of them moved into the other. -/
def tidyOps : List Op :=
  [mkDoc, .createElement 0 (c! "a"), .createElement 0 (c! "b"), .appendChild 1 2,
   .appendChild 1 3, .appendChild 2 3, .removeChild 1 2]

theorem tidyOps_tidy : ReachableBy TidyCall (after tidyOps) := by
  apply reachableBy_after
  have key : ∀ (ops : List Op) (n : NodeId) (k : Nat), (after ops).next = k →
      (∀ a, a < k → nodeType (after ops) a = .attribute → n ∈ childNodes (after ops) a →
        parentNode (after ops) n = some a) →
      ∀ a, (after ops).live a = true → nodeType (after ops) a = .attribute →
        n ∈ childNodes (after ops) a → parentNode (after ops) n = some a :=
    fun ops n k hk h1 => forall_live (reachable_after ops) hk h1
  refine ⟨trivial, trivial, trivial, ?_, ?_, ?_, ?_, trivial⟩
  · exact key [mkDoc, .createElement 0 (c! "a"), .createElement 0 (c! "b")] 2 4 rfl (by decide)
  · exact key [mkDoc, .createElement 0 (c! "a"), .createElement 0 (c! "b"), .appendChild 1 2]
      3 4 rfl (by decide)
  · exact key [mkDoc, .createElement 0 (c! "a"), .createElement 0 (c! "b"), .appendChild 1 2,
      .appendChild 1 3] 3 4 rfl (by decide)
  · show nodeType (after [mkDoc, .createElement 0 (c! "a"), .createElement 0 (c! "b"),
      .appendChild 1 2, .appendChild 1 3, .appendChild 2 3]) 1 ≠ .attribute
    decide

example : ReachableBy TidyCall (after tidyOps) ∧ (after tidyOps).live 2 = true ∧
    nodeType (after tidyOps) 2 ≠ .attribute ∧ childNodes (after tidyOps) 2 = [3] ∧
    parentNode (after tidyOps) 3 = some 2 ∧ parentNode (after tidyOps) 2 = none :=
  ⟨tidyOps_tidy, by decide⟩

/-! ## C08 -/

/-- C08: no node is listed twice, in one child list or in two. -/
def C08_full : Prop :=
  ∀ h, Reachable h → (∀ p, h.live p = true → (childNodes h p).Nodup) ∧
    ∀ p q c, h.live p = true → h.live q = true → c ∈ childNodes h p → c ∈ childNodes h q → p = q

/-- A deep clone (4) of the root (1), whose child (3) is then appended to the root. -/
def sharedOps : List Op :=
  [mkDoc, .createElement 0 (c! "a"), .appendChild 1 2, .cloneNode 1 true 5, .appendChild 1 3]

/-- C08 does not hold: a child of a deep clone can be inserted elsewhere without leaving
the clone. -/
theorem C08_full_false : ¬ C08_full := by
  intro hf
  have := (hf (after sharedOps) (reachable_after _)).2 1 4 3 (by decide) (by decide) (by decide)
    (by decide)
  exact absurd this (by decide)

/-- C08 fails for a single list as well: a child of a deep clone can be appended to the
clone again. -/
theorem C08_twice_false : ¬ ∀ h, Reachable h → ∀ p, h.live p = true → (childNodes h p).Nodup := by
  intro hf
  have := hf (after [mkDoc, .createElement 0 (c! "a"), .appendChild 1 2, .cloneNode 1 true 5,
    .appendChild 4 3]) (reachable_after _) 4 (by decide)
  exact absurd this (by decide)

/-- C08 (partial: tidy histories). -/
theorem C08_once_partial (h : Heap) (hr : ReachableBy TidyCall h) :
    (∀ p, h.live p = true → (childNodes h p).Nodup) ∧
    ∀ p q c, h.live p = true → h.live q = true → c ∈ childNodes h p → c ∈ childNodes h q →
      p = q :=
  ⟨hr.links.nodup, fun _ _ _ hp hq => hr.links.uniq hp hq⟩

example : ReachableBy TidyCall (after tidyOps) ∧ childNodes (after tidyOps) 1 = [] :=
  ⟨tidyOps_tidy, by decide⟩

/-! ## C09 -/

/-- C09: there are no cycles, and an insertion that would make one is refused. -/
def C09_full : Prop :=
  (∀ h, Reachable h → Acyclic h) ∧
    ∀ h self new ref, Reachable h → (new = self ∨ Descendant h new self) →
      insertBefore h self new ref = (.err .hierarchyRequest, h)

/-- Two elements, each appended to the other. -/
def cyclicOps : List Op :=
  [mkDoc, .createElement 0 (c! "a"), .createElement 0 (c! "b"), .appendChild 2 3,
   .appendChild 3 2]

/-- C09 does not hold: a node can be appended to its own child. -/
theorem C09_full_false : ¬ C09_full := by
  intro hf
  refine hf.1 (after cyclicOps) (reachable_after _) 2 ?_
  exact .tail (.single (b := 3) ⟨by decide, by decide⟩) ⟨by decide, by decide⟩

/-- C09 also fails for a node that is to be inserted into itself: the call panics instead
of returning an error. -/
theorem C09_self_false : ¬ ∀ h n, Reachable h → h.live n = true →
    nodeType h n = .element → (insertBefore h n n none).1 = .err .hierarchyRequest := by
  intro hf
  have := hf (after [mkDoc, .createElement 0 (c! "a")]) 2 (reachable_after _) (by decide)
    (by decide)
  exact absurd this (by decide)

/-- C09 (partial: no node is inserted into one of its descendants). -/
theorem C09_acyclic_partial (h : Heap) (hr : ReachableBy NoAncestorInserted h) : Acyclic h :=
  hr.acyclic

/-- C09: whatever the state, a node never becomes its own child. -/
theorem C09_own_child (h : Heap) (n : NodeId) (ref : Option NodeId) (r : NodeId) (h' : Heap) :
    insertBefore h n n ref ≠ (.ok r, h') := by
  intro hok
  obtain ⟨_, hne, _⟩ := insertBefore_ok hok
  exact hne rfl

/-- C09: no node is among its own children in any state. -/
theorem C09_never_own_child (h : Heap) (hr : Reachable h) (n : NodeId) (hn : h.live n = true) :
    n ∉ childNodes h n := hr.notOwnChild n hn

/-- A leaf has no descendants. -/
theorem no_descendant {h : Heap} {n m : NodeId} (hc : childNodes h n = []) : ¬ Descendant h n m := by
  intro hd
  have : m = n := reach_leaf (fun _ => hc) hd.to_reflTransGen
  subst this
  cases hd with
  | single h1 => have := h1.2; rw [hc] at this; cases this
  | tail h1 h2 =>
    have : _ = m := reach_leaf (fun _ => hc) h1.to_reflTransGen
    subst this
    have := h2.2; rw [hc] at this; cases this

theorem tidyOps_acyclic : ReachableBy NoAncestorInserted (after tidyOps) := by
  apply reachableBy_after
  refine ⟨trivial, trivial, trivial, ?_, ?_, ?_, trivial, trivial⟩
  · exact no_descendant (by
      show childNodes (after [mkDoc, .createElement 0 (c! "a"), .createElement 0 (c! "b")]) 2 = []
      decide)
  · exact no_descendant (by
      show childNodes (after [mkDoc, .createElement 0 (c! "a"), .createElement 0 (c! "b"),
        .appendChild 1 2]) 3 = []
      decide)
  · exact no_descendant (by
      show childNodes (after [mkDoc, .createElement 0 (c! "a"), .createElement 0 (c! "b"),
        .appendChild 1 2, .appendChild 1 3]) 3 = []
      decide)

example : ReachableBy NoAncestorInserted (after tidyOps) ∧ Descendant (after tidyOps) 2 3 :=
  ⟨tidyOps_acyclic, .single ⟨by decide, by decide⟩⟩

/-! ## C10 and C11 -/

/-- C10: the type of a child is one that the DOM table allows under the type of its
parent. -/
theorem C10_child_types (h : Heap) (hr : Reachable h) (p c : NodeId) (hp : h.live p = true)
    (hc : c ∈ childNodes h p) : nodeType h c ∈ childTypes (nodeType h p) := by
  have h1 := hr.invariant.allowed p hp c hc
  unfold nodeType
  generalize (h.get p).ntype = t at h1 ⊢
  generalize (h.get c).ntype = u at h1 ⊢
  cases t <;> cases u <;> simp_all [isChildAllowed, childTypes]

example : Reachable (after tidyOps) ∧ (after tidyOps).live 2 = true ∧
    3 ∈ childNodes (after tidyOps) 2 := ⟨reachable_after _, by decide⟩

/-- C11: a document has at most one element child. -/
theorem C11_one_element (h : Heap) (hr : Reachable h) (d : NodeId) (hd : h.live d = true)
    (ht : nodeType h d = .document) :
    ((childNodes h d).filter fun c => decide (nodeType h c = .element)).length ≤ 1 :=
  hr.invariant.oneElement d hd ht

/-- C11: two element children of a document are the same node at the same place. -/
theorem C11_unique (h : Heap) (hr : Reachable h) (d : NodeId) (hd : h.live d = true)
    (ht : nodeType h d = .document) (i j : Nat) (hi : i < (childNodes h d).length)
    (hj : j < (childNodes h d).length) (ei : nodeType h (childNodes h d)[i] = .element)
    (ej : nodeType h (childNodes h d)[j] = .element) : i = j := by
  have h1 := C11_one_element h hr d hd ht
  generalize childNodes h d = l at *
  have key : ∀ (l : List NodeId), (l.filter fun c => decide (nodeType h c = .element)).length ≤ 1 →
      ∀ i j (hi : i < l.length) (hj : j < l.length), nodeType h l[i] = .element →
      nodeType h l[j] = .element → i < j → False := by
    intro l
    induction l with
    | nil => intro _ i _ hi; cases hi
    | cons x xs ih =>
      intro hl i j hi hj ei ej hij
      cases j with
      | zero => exact Nat.not_lt_zero _ hij
      | succ j =>
        cases i with
        | succ i =>
          refine ih ?_ i j (Nat.lt_of_succ_lt_succ hi) (Nat.lt_of_succ_lt_succ hj) ei ej
            (Nat.lt_of_succ_lt_succ hij)
          refine Nat.le_trans (List.Sublist.length_le ?_) hl
          exact (List.sublist_cons_self x xs).filter _
        | zero =>
          have ei' : nodeType h x = .element := ei
          rw [List.filter_cons, if_pos (by simpa using ei')] at hl
          have hj' : j < xs.length := Nat.lt_of_succ_lt_succ hj
          have hm : xs[j] ∈ xs.filter fun c => decide (nodeType h c = .element) :=
            List.mem_filter.mpr ⟨List.getElem_mem _, by simpa using ej⟩
          have := List.length_pos_of_mem hm
          simp only [List.length_cons] at hl
          omega
  rcases Nat.lt_trichotomy i j with h2 | h2 | h2
  · exact (key l h1 i j hi hj ei ej h2).elim
  · exact h2
  · exact (key l h1 j i hj hi ej ei h2).elim

example : Reachable (after tidyOps) ∧ (after tidyOps).live 0 = true ∧
    nodeType (after tidyOps) 0 = .document ∧ childNodes (after tidyOps) 0 = [1] ∧
    nodeType (after tidyOps) 1 = .element := ⟨reachable_after _, by decide⟩

/-! ## C12 -/

/-- C12: nodes of another document are refused, and children belong to the document of
their parent. -/
def C12_full : Prop :=
  (∀ h self new ref d d', home h self = some d → ownerDocument h new = some d' → d ≠ d' →
    ∃ e, insertBefore h self new ref = (.err e, h)) ∧
  ∀ h, Reachable h → ∀ p c, h.live p = true → c ∈ childNodes h p →
    ∀ d, home h p = some d → home h c = some d

/-- C12 does not hold: the children of a cloned document belong to the original. -/
theorem C12_full_false : ¬ C12_full := by
  intro hf
  have := hf.2 (after [mkDoc, .cloneNode 0 true 5]) (reachable_after _) 3 2 (by decide)
    (by decide) 3 (by decide)
  exact absurd this (by decide)

theorem home_check {h : Heap} {self new d d' : NodeId} (hs : home h self = some d)
    (hn : ownerDocument h new = some d') (hne : d ≠ d') :
    checkSameDocument h self new = .err .wrongDocument := by
  obtain ⟨o2, l2⟩ := Heap.upgrade_some.mp hn
  unfold home at hs
  unfold checkSameDocument
  split at hs
  · rename_i ht
    cases hs
    rw [if_pos (show (h.get self).ntype = .document from ht), o2]
    simp [l2, hne]
  · rename_i ht
    obtain ⟨o1, l1⟩ := Heap.upgrade_some.mp hs
    rw [if_neg (show ¬ (h.get self).ntype = .document from ht), o1, o2]
    simp [l1, l2, hne]

/-- C12: `insert_before` refuses a node of another document and changes nothing. When
nothing else is wrong with the call the error is `WrongDocument`. -/
theorem C12_insert_refused (h : Heap) (self new : NodeId) (ref : Option NodeId) (d d' : NodeId)
    (hs : home h self = some d) (hn : ownerDocument h new = some d') (hne : d ≠ d') :
    (insertBefore h self new ref = (.err .wrongDocument, h) ∨
      insertBefore h self new ref = (.err .hierarchyRequest, h) ∨
      insertBefore h self new ref = (.err .notFound, h)) ∧
    (nodeType h new ∈ childTypes (nodeType h self) →
      (nodeType h self = .document → nodeType h new ≠ .element ∧ nodeType h new ≠ .documentType) →
      (∀ r, ref = some r → r ∈ childNodes h self) →
      insertBefore h self new ref = (.err .wrongDocument, h)) := by
  rw [insertBefore_eq, home_check hs hn hne]
  constructor
  · split
    · exact Or.inr (Or.inl rfl)
    · split
      · exact Or.inr (Or.inl rfl)
      · cases insertPosition h self ref with
        | none => exact Or.inr (Or.inr rfl)
        | some pos => exact Or.inl rfl
  · intro hallow hdoc href
    have h1 : isChildAllowed (h.get self).ntype (h.get new).ntype = true := by
      unfold nodeType at hallow hdoc
      generalize (h.get self).ntype = t at hallow hdoc ⊢
      generalize (h.get new).ntype = u at hallow hdoc ⊢
      cases t <;> cases u <;> simp_all [isChildAllowed, childTypes]
    rw [if_neg (by rw [h1]; simp), if_neg (fun hc => (hdoc hc.1).1 hc.2.1)]
    cases hp : insertPosition h self ref with
    | some pos => rfl
    | none =>
      exfalso
      unfold insertPosition at hp
      cases ref with
      | none => cases hp
      | some r =>
        simp only at hp
        have hm := href r rfl
        have : position r (h.get self).children ≠ none := by
          rw [Ne, position_eq_none]; exact fun hn => hn hm
        cases hq : position r (h.get self).children with
        | none => exact this hq
        | some i => rw [hq] at hp; cases hp

/-- C12: `append_child` refuses a node of another document. -/
theorem C12_append_refused (h : Heap) (self new d d' : NodeId) (hs : home h self = some d)
    (hn : ownerDocument h new = some d') (hne : d ≠ d') :
    ∃ e, appendChild h self new = (.err e, h) := by
  rcases (C12_insert_refused h self new none d d' hs hn hne).1 with h1 | h1 | h1
  · exact ⟨_, h1⟩
  · exact ⟨_, h1⟩
  · exact ⟨_, h1⟩

/-- C12: `set_attribute_node` refuses an attribute of another document. -/
theorem C12_attribute_refused (env : Env) (h : Heap) (e a d d' : NodeId)
    (ht : nodeType h e = .element) (ha : nodeType h a = .attribute)
    (hs : ownerDocument h e = some d) (hn : ownerDocument h a = some d') (hne : d ≠ d') :
    setAttributeNode env h e a = (.err .wrongDocument, h) := by
  unfold setAttributeNode
  rw [if_pos ⟨ht, ha⟩, home_check (d := d) ?_ hn hne]
  unfold home
  rw [if_neg (by rw [ht]; simp)]
  exact hs

/-- C12: a child of a node other than a document has the same owner document as the
node. -/
theorem C12_same_document (h : Heap) (hr : Reachable h) (p c : NodeId) (hp : h.live p = true)
    (ht : nodeType h p ≠ .document) (hc : c ∈ childNodes h p) :
    ownerDocument h c = ownerDocument h p := by
  unfold ownerDocument
  rw [hr.invariant.sameOwner p hp ht c hc]

/-- C12 (partial: no document is cloned with its children). A child of a document belongs
to that document. -/
theorem C12_document_partial (h : Heap) (hr : ReachableBy NoDocumentClone h) (d c : NodeId)
    (hd : h.live d = true) (ht : nodeType h d = .document) (hc : c ∈ childNodes h d) :
    ownerDocument h c = some d := by
  unfold ownerDocument
  rw [hr.docOwns d c hd ht hc]
  exact Heap.upgrade_some.mpr ⟨rfl, hd⟩

/-- Two documents 0 and 2 with the roots 1 and 3, an element 4 of the second. -/
def twoRoots : List Op := [mkDoc, mkDoc, .createElement 2 (c! "x")]

example : ReachableBy NoDocumentClone (after twoRoots) ∧ childNodes (after twoRoots) 2 = [3] ∧
    home (after twoRoots) 1 = some 0 ∧ ownerDocument (after twoRoots) 4 = some 2 ∧
    nodeType (after twoRoots) 4 ∈ childTypes (nodeType (after twoRoots) 1) :=
  ⟨reachableBy_after ⟨trivial, trivial, trivial, trivial⟩, by decide⟩

/-! ## C15 and C68 -/

/-- C15: whatever is called, the owner document of a node stays what it is, until the
document is dropped. -/
theorem C15_owner_fixed (h : Heap) (hr : Reachable h) (ops : List (Env × Op))
    (hok : ∀ x ∈ ops, x.1.Ok) (n : NodeId) (hn : h.live n = true) :
    (∀ d, ownerDocument h n = some d →
      ownerDocument (run ops h) n = if (run ops h).live d then some d else none) ∧
    (ownerDocument h n = none → ownerDocument (run ops h) n = none) := by
  have i := hr.invariant
  obtain ⟨_, k⟩ := run_inv ops h hok i
  have hlt := i.wf.fresh n hn
  have ho := k.owner n hlt
  unfold ownerDocument
  rw [ho]
  cases hw : (h.get n).owner with
  | none =>
    constructor
    · intro d hd; cases hd
    · intro _; rfl
  | some w =>
    have hlw : w < h.next := i.wf.weak n hn w (by simp [weakRefs, hw])
    constructor
    · intro d hd
      obtain ⟨h1, _⟩ := Heap.upgrade_some.mp hd
      cases h1
      rfl
    · intro hd
      have : h.live w = false := by
        cases hl : h.live w with
        | false => rfl
        | true => rw [Heap.upgrade_some.mpr ⟨rfl, hl⟩] at hd; cases hd
      cases hu : (run ops h).upgrade (some w) with
      | none => rfl
      | some x =>
        obtain ⟨h1, h2⟩ := Heap.upgrade_some.mp hu
        cases h1
        rw [k.live w hlw h2] at this; cases this

/-- C68: whatever is called, the type and the name of a node stay what they are. -/
theorem C68_type_and_name (h : Heap) (hr : Reachable h) (ops : List (Env × Op))
    (hok : ∀ x ∈ ops, x.1.Ok) (n : NodeId) (hn : h.live n = true) :
    nodeType (run ops h) n = nodeType h n ∧ nodeName (run ops h) n = nodeName h n := by
  have i := hr.invariant
  obtain ⟨_, k⟩ := run_inv ops h hok i
  exact ⟨k.ntype n (i.wf.fresh n hn), k.name n (i.wf.fresh n hn)⟩

example : Reachable (after [mkDoc]) ∧ (after [mkDoc]).live 1 = true ∧
    ownerDocument (after [mkDoc]) 1 = some 0 ∧ ownerDocument (after [mkDoc, .drop 0]) 1 = none ∧
    ownerDocument (after [mkDoc, .createElement 0 (c! "a"), .appendChild 1 2]) 2 = some 0 :=
  ⟨reachable_after _, by decide⟩

/-! ## C31 -/

/-- The spellings of `xml`. -/
def xmlSpellings : List Str :=
  [c! "xml", c! "xmL", c! "xMl", c! "xML", c! "Xml", c! "XmL", c! "XMl", c! "XML"]

/-- C31: the names of elements, attributes, entity references and processing instructions
are made of XML names, and a processing instruction target is not `xml`. -/
theorem C31_names (h : Heap) (hr : Reachable h) (n : NodeId) (hn : h.live n = true)
    (ht : nodeType h n ∈ [.element, .attribute, .entityReference, .processingInstruction,
      .entity, .notationNode, .documentType]) :
    IsNcName (nodeName h n).localName ∧ (∀ p, (nodeName h n).pfx = some p → IsNcName p) ∧
    IsQName (nodeName h n).display ∧
    (nodeType h n = .processingInstruction → (nodeName h n).display ∉ xmlSpellings) := by
  have i := hr.invariant
  have h1 := i.names n (i.wf.fresh n hn)
  have qn : ∀ {x : Name}, NameOk x → IsQName x.display := by
    intro x hx
    unfold Name.display
    cases hp : x.pfx with
    | none => exact Or.inl hx.loc
    | some p => exact Or.inr ⟨p, x.localName, rfl, hx.pfx p hp, hx.loc⟩
  have pi : ∀ {x : Name}, x.display.map asciiLower ≠ Syn.piReserved → x.display ∉ xmlSpellings := by
    intro x hx hm
    have : ∀ s ∈ xmlSpellings, s.map asciiLower = Syn.piReserved := by decide
    exact hx (this _ hm)
  unfold nodeType at ht ⊢
  unfold nodeName
  generalize (h.get n).ntype = t at ht h1 ⊢
  cases t <;> simp only [NameFor] at h1 <;> simp at ht
  case processingInstruction => exact ⟨h1.1.loc, h1.1.pfx, qn h1.1, fun _ => pi h1.2⟩
  all_goals exact ⟨h1.loc, h1.pfx, qn h1, by simp⟩

/-- C31: the other types of nodes have fixed names. -/
theorem C31_fixed_names (h : Heap) (hr : Reachable h) (n : NodeId) (hn : h.live n = true) :
    (nodeType h n = .text → (nodeName h n).display = c! "#text") ∧
    (nodeType h n = .cdata → (nodeName h n).display = c! "#cdata-section") ∧
    (nodeType h n = .comment → (nodeName h n).display = c! "#comment") ∧
    (nodeType h n = .document → (nodeName h n).display = c! "#document") ∧
    (nodeType h n = .documentFragment → (nodeName h n).display = c! "#document-fragment") := by
  have i := hr.invariant
  have h1 := i.names n (i.wf.fresh n hn)
  unfold nodeType nodeName
  generalize (h.get n).ntype = t at h1 ⊢
  generalize (h.get n).name = m at h1 ⊢
  cases t <;> simp only [NameFor] at h1 <;>
    first
    | (subst h1; decide)
    | simp

/-- An attribute, a processing instruction and a text node. -/
def namedOps : List Op :=
  [mkDoc, .createAttribute 0 (c! "p:a"), .createProcessingInstruction 0 (c! "xmlx") none,
   .createTextNode 0 (c! "t")]

example : Reachable (after namedOps) ∧ (after namedOps).live 2 = true ∧
    nodeType (after namedOps) 2 = .attribute ∧ nodeType (after namedOps) 3 = .processingInstruction ∧
    nodeType (after namedOps) 4 = .text := ⟨reachable_after _, by decide⟩

/-! ## C42 -/

/-- C42: attribute maps are well formed. -/
def C42_full : Prop :=
  ∀ h, Reachable h → ∀ e, h.live e = true → ∀ k a, (k, a) ∈ attributes h e →
    nodeType h a = .attribute ∧ nodeName h a = k ∧
    (∀ b, (k, b) ∈ attributes h e → b = a) ∧ ownerElement h a = some e

/-- C42 does not hold: one attribute can be set on two elements. -/
theorem C42_full_false : ¬ C42_full := by
  intro hf
  have hm : ∃ k, (k, 3) ∈ attributes (after [mkDoc, .createElement 0 (c! "e"),
      .createAttribute 0 (c! "a"), .setAttributeNode 1 3, .setAttributeNode 2 3]) 1 :=
    ⟨_, List.mem_cons_self⟩
  obtain ⟨k, hm⟩ := hm
  have := (hf _ (reachable_after _) 1 (by decide) k 3 hm).2.2.2
  exact absurd this (by decide)

/-- C42 (partial: without the claim about `owner_element`). -/
theorem C42_entries_partial (h : Heap) (hr : Reachable h) (e : NodeId) (he : h.live e = true)
    (k : Name) (a : NodeId) (hm : (k, a) ∈ attributes h e) :
    nodeType h a = .attribute ∧ nodeName h a = k ∧ h.live a = true ∧
    ∀ b, (k, b) ∈ attributes h e → b = a := by
  have i := hr.invariant
  have hx : ∃ attrs nss, (h.get e).ext = .element attrs nss := by
    unfold attributes at hm
    split at hm
    · split at hm
      · rename_i attrs nss hx; exact ⟨attrs, nss, hx⟩
      · cases hm
    · cases hm
  obtain ⟨attrs, nss, hx⟩ := hx
  rw [attributes_eq i he hx] at hm ⊢
  obtain ⟨h1, _, h2⟩ := i.attrKeys e attrs nss he hx
  refine ⟨(h2 k a hm).1, (h2 k a hm).2, ?_, ?_⟩
  · exact i.wf.strong e he a (mem_strongRefs.mpr (Or.inr (Or.inl ⟨attrs, nss, k, hx, hm⟩)))
  · intro b hb
    have e1 := (mapGet_eq_some h1).mpr hm
    have e2 := (mapGet_eq_some h1).mpr hb
    rw [e1] at e2
    cases e2; rfl

/-- C42 (partial: no attribute node is shared between elements). -/
theorem C42_owner_partial (h : Heap) (hr : ReachableBy NoSharedAttribute h) (e : NodeId)
    (he : h.live e = true) (k : Name) (a : NodeId) (hm : (k, a) ∈ attributes h e) :
    ownerElement h a = some e := by
  have i := hr.reachable.invariant
  have hx : ∃ attrs nss, (h.get e).ext = .element attrs nss := by
    unfold attributes at hm
    split at hm
    · split at hm
      · rename_i attrs nss hx; exact ⟨attrs, nss, hx⟩
      · cases hm
    · cases hm
  obtain ⟨attrs, nss, hx⟩ := hx
  rw [attributes_eq i he hx] at hm
  unfold ownerElement
  rw [hr.attrsOwned e attrs nss k a he hx hm]
  exact Heap.upgrade_some.mpr ⟨rfl, he⟩

example : ReachableBy NoSharedAttribute (after [mkDoc, .setAttribute 1 (c! "a") (c! "v")]) ∧
    (after [mkDoc, .setAttribute 1 (c! "a") (c! "v")]).live 1 = true ∧
    (attributes (after [mkDoc, .setAttribute 1 (c! "a") (c! "v")]) 1).map (·.2) = [3] ∧
    ownerElement (after [mkDoc, .setAttribute 1 (c! "a") (c! "v")]) 3 = some 1 :=
  ⟨reachableBy_after ⟨trivial, trivial, trivial⟩, by decide⟩

/-! ## C44 and C45 -/

/-- C44: an id stays bound to its first element, whatever is called, as long as the
element exists. -/
theorem C44_id_stays (h : Heap) (hr : Reachable h) (ops : List (Env × Op))
    (hok : ∀ x ∈ ops, x.1.Ok) (d : NodeId) (hd : h.live d = true) (id : Str) (e : NodeId)
    (he : getElementById h d id = some e) :
    getElementById (run ops h) d id = if (run ops h).live e then some e else none := by
  have i := hr.invariant
  obtain ⟨_, k⟩ := run_inv ops h hok i
  unfold getElementById at he
  split at he
  · rename_i x hx
    obtain ⟨h1, h2⟩ := Heap.upgrade_some.mp he
    obtain ⟨y, hy, _, _, hids⟩ := k.ids d x (i.wf.fresh d hd) hx
    unfold getElementById
    rw [hy]
    simp only
    rw [hids id e h1]
    rfl
  · cases he

/-- An id attribute, then another element that claims the same id. -/
def idOps : List Op :=
  [.createDocument none (some (c! "r")) none Options.new.setAssumeIds,
   .setAttribute 1 (c! "id") (c! "x"), .createElement 0 (c! "e"),
   .setAttribute 4 (c! "id") (c! "x")]

example : Reachable (after (idOps.take 2)) ∧ (after (idOps.take 2)).live 0 = true ∧
    getElementById (after (idOps.take 2)) 0 (c! "x") = some 1 ∧
    getElementById (after idOps) 0 (c! "x") = some 1 := ⟨reachable_after _, by decide⟩

/-- C45: the element found by its id has the id, and belongs to the document. -/
def C45_full : Prop :=
  ∀ h, Reachable h → ∀ d id e, h.live d = true → getElementById h d id = some e →
    nodeType h e = .element ∧ ownerDocument h e = some d ∧
    ∃ k a, (k, a) ∈ attributes h e ∧ k.localName = c! "id" ∧
      attrValue plainEnv.uni h a = .ok (some id)

/-- C45 does not hold: the id stays registered when the attribute is removed. -/
theorem C45_full_false : ¬ C45_full := by
  intro hf
  obtain ⟨_, _, k, a, hm, _⟩ := hf (after (idOps.take 2 ++ [.removeAttribute 1 (c! "id")]))
    (reachable_after _) 0 (c! "x") 1 (by decide) (by decide)
  have : attributes (after (idOps.take 2 ++ [.removeAttribute 1 (c! "id")])) 1 = [] := by decide
  rw [this] at hm
  cases hm

/-- C45 fails even for the document: a cloned document finds the elements of the
original. -/
theorem C45_document_false : ¬ ∀ h, Reachable h → ∀ d id e, h.live d = true →
    getElementById h d id = some e → ownerDocument h e = some d := by
  intro hf
  have := hf (after (idOps.take 2 ++ [.cloneNode 0 false 5])) (reachable_after _) 4 (c! "x") 1
    (by decide) (by decide)
  exact absurd this (by decide)

/-- C45 (partial: without the claim about the attribute). The result is a live element. -/
theorem C45_element_partial (h : Heap) (hr : Reachable h) (d : NodeId) (id : Str) (e : NodeId)
    (hd : h.live d = true) (he : getElementById h d id = some e) :
    nodeType h e = .element ∧ h.live e = true := by
  unfold getElementById at he
  split at he
  · rename_i x hx
    obtain ⟨h1, h2⟩ := Heap.upgrade_some.mp he
    exact ⟨(hr.invariant.ids d x hd hx).2 id e (mapGet_eq_some_mem h1), h2⟩
  · cases he

/-- C45 (partial: no document is cloned). The result belongs to the document. -/
theorem C45_document_partial (h : Heap) (hr : ReachableBy NoDocumentCopy h) (d : NodeId) (id : Str)
    (e : NodeId) (hd : h.live d = true) (he : getElementById h d id = some e) :
    ownerDocument h e = some d := by
  unfold getElementById at he
  split at he
  · rename_i x hx
    obtain ⟨h1, h2⟩ := Heap.upgrade_some.mp he
    unfold ownerDocument
    rw [hr.idsOwned d x id e hd hx (mapGet_eq_some_mem h1)]
    exact Heap.upgrade_some.mpr ⟨rfl, hd⟩
  · cases he

example : ReachableBy NoDocumentCopy (after idOps) ∧
    getElementById (after idOps) 0 (c! "x") = some 1 :=
  ⟨reachableBy_after ⟨trivial, trivial, trivial, trivial, trivial⟩, by decide⟩

/-! ## C70 -/

/-- C70: every node that can be found from a live node is alive. -/
theorem C70_no_dangling (h : Heap) (hr : Reachable h) (n : NodeId) (hn : h.live n = true) :
    (∀ m ∈ childNodes h n, h.live m = true) ∧
    (∀ k m, (k, m) ∈ attributes h n → h.live m = true) ∧
    (∀ m, docType h n = some m → h.live m = true) ∧
    (∀ m, parentNode h n = some m → h.live m = true) ∧
    (∀ m, ownerDocument h n = some m → h.live m = true) ∧
    (∀ m, ownerElement h n = some m → h.live m = true) ∧
    (∀ id m, getElementById h n id = some m → h.live m = true) ∧
    (∀ m, firstChild h n = some m → h.live m = true) ∧
    (∀ m, lastChild h n = some m → h.live m = true) ∧
    (∀ m, previousSibling h n = some m → h.live m = true) ∧
    (∀ m, nextSibling h n = some m → h.live m = true) := by
  have w := hr.wf
  refine ⟨fun m hm => w.child hn hm, ?_, ?_, ?_, ?_, ?_, ?_, ?_, ?_, ?_, ?_⟩
  · exact fun k m hm => (C42_entries_partial h hr n hn k m hm).2.2.1
  · intro m hm
    unfold docType at hm
    split at hm
    · rename_i x hx; exact hr.invariant.docTypes n x m hn hx hm
    · cases hm
  · exact fun m hm => (parentNode_eq_some.mp hm).2.2
  · exact fun m hm => (Heap.upgrade_some.mp hm).2
  · intro m hm
    unfold ownerElement at hm
    split at hm
    · exact (Heap.upgrade_some.mp hm).2
    · cases hm
  · exact fun id m hm => (C45_element_partial h hr n id m hn hm).2
  · exact fun m hm => w.child hn (List.mem_of_mem_head? hm)
  · exact fun m hm => w.child hn (List.mem_of_getLast? hm)
  · intro m hm
    unfold previousSibling at hm
    split at hm
    · cases hm
    · split at hm
      · cases hm
      · split at hm
        · cases hm
        · rename_i p hp
          split at hm
          · cases hm
          · split at hm
            · cases hm
            · exact w.child (Heap.upgrade_some.mp hp).2 (List.mem_of_getElem? hm)
  · intro m hm
    unfold nextSibling at hm
    split at hm
    · cases hm
    · split at hm
      · cases hm
      · split at hm
        · cases hm
        · rename_i p hp
          split at hm
          · cases hm
          · exact w.child (Heap.upgrade_some.mp hp).2 (List.mem_of_getElem? hm)

/-- C70: when a node is dropped, the nodes that had it as parent or as document lose just
that link; all other answers stay. -/
theorem C70_dropped (env : Env) (h : Heap) (p : NodeId)
    (hgone : (exec env (.drop p) h).live p = false) (n : NodeId) :
    parentNode (exec env (.drop p) h) n =
      (if parentNode h n = some p then none else parentNode h n) ∧
    ownerDocument (exec env (.drop p) h) n =
      (if ownerDocument h n = some p then none else ownerDocument h n) := by
  have up : ∀ w, (exec env (.drop p) h).upgrade w =
      if h.upgrade w = some p then none else h.upgrade w := by
    intro w
    unfold exec at hgone ⊢
    by_cases hp : h.live p = true
    · rw [if_pos (by simp [Op.args, hp])] at hgone ⊢
      simp only [Op.apply, dropNode] at hgone ⊢
      split at hgone
      · rw [hp] at hgone; cases hgone
      · rename_i hsr
        rw [if_neg hsr]
        cases w with
        | none => simp [Heap.upgrade]
        | some m =>
          simp only [Heap.upgrade]
          by_cases hm : m = p
          · simp [hm, hp]
          · by_cases hl : h.live m = true <;> simp [hm, hl]
    · rw [if_neg (by simp [Op.args, hp])]
      have : h.upgrade w ≠ some p := fun hu => hp (Heap.upgrade_some.mp hu).2
      rw [if_neg this]
  have hg : ∀ m, (exec env (.drop p) h).get m = h.get m := by
    intro m
    unfold exec
    split
    · simp only [Op.apply, dropNode]; split <;> rfl
    · rfl
  constructor
  · unfold parentNode
    rw [hg n, up]
    split
    · simp
    · rfl
  · unfold ownerDocument
    rw [hg n, up]

/-- C70: a node that is gone stays gone. -/
theorem C70_gone (h : Heap) (hr : Reachable h) (ops : List (Env × Op))
    (hok : ∀ x ∈ ops, x.1.Ok) (n : NodeId) (hn : n < h.next) (hl : h.live n = false) :
    (run ops h).live n = false := by
  obtain ⟨_, k⟩ := run_inv ops h hok hr.invariant
  cases hl' : (run ops h).live n with
  | false => rfl
  | true => rw [k.live n hn hl'] at hl; cases hl

example : Reachable (after [mkDoc]) ∧ (after [mkDoc]).live 1 = true ∧
    parentNode (after [mkDoc]) 1 = some 0 ∧
    (exec plainEnv (.drop 0) (after [mkDoc])).live 0 = false ∧
    parentNode (after [mkDoc, .drop 0]) 1 = none := ⟨reachable_after _, by decide⟩

end Props
end XmlDom
