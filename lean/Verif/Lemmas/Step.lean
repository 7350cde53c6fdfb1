import Verif.Lemmas.Name
import Verif.Lemmas.Tree
import Verif.Model.Ops

/-!
# Primitive steps

Every call of the API changes the heap by a sequence of primitive steps. Invariants are
proved once per primitive step and then hold along every history. The label of a step
says what kind of step it is; a predicate on labels restricts the steps of a sequence.
-/

namespace XmlDom

/-- A name that name parsing accepts: its parts are XML names without colon. -/
structure NameOk (n : Name) : Prop where
  loc : Spec.IsNcName n.localName
  pfx : ∀ p, n.pfx = some p → Spec.IsNcName p

/-- The name that goes with a node type. -/
def NameFor (t : NodeType) (n : Name) : Prop :=
  match t with
  | .text => n = Name.forText
  | .cdata => n = Name.forCdata
  | .comment => n = Name.forComment
  | .document => n = Name.forDocument
  | .documentFragment => n = Name.forDocumentFragment
  | .processingInstruction => NameOk n ∧ n.display.map asciiLower ≠ Syn.piReserved
  | _ => NameOk n

/-- The extension of a newly made node. -/
def FreshExt (h : Heap) (t : NodeType) (x : Ext) : Prop :=
  match t with
  | .element => x = .element [] []
  | .attribute => x = .attribute none
  | .document => ∃ dt o, x = .document { xmlDecl := none, docType := dt, idMap := [], options := o }
      ∧ ∀ t, dt = some t → h.live t = true
  | .documentType => ∃ p s, x = .documentType
      { entities := [], notations := [], publicId := p, systemId := s, internalSubset := none }
  | .entity => ∃ p s, x = .entity p s none
  | .notationNode => ∃ p s, x = .notation p s
  | _ => x = .none

/-- An owner that a new node can get: a live node, or the owner of a live node. -/
def OwnerOk (h : Heap) (d : NodeId) : Prop :=
  h.live d = true ∨ ∃ m, h.live m = true ∧ (h.get m).owner = some d

/-- A node as the constructors make it. -/
structure FreshNode (h : Heap) (x : Node) : Prop where
  parent : x.parent = none
  children : x.children = []
  owner : (∃ d, x.owner = some d ∧ OwnerOk h d ∧ x.ntype ≠ .document) ∨
    (x.owner = none ∧ (x.ntype = .document ∨ x.ntype = .documentType))
  name : NameFor x.ntype x.name
  ext : FreshExt h x.ntype x.ext

/-- What kind of primitive step it is. -/
inductive Label
  | alloc (x : Node)
  | allocAttr (d : NodeId) (nm : Name) (v : Str)
  | clone (n : NodeId) (cs : List NodeId)
  | value (n : NodeId) (v : Option Str)
  | unlink (p c : NodeId)
  | link (p c : NodeId) (pos : Option Nat)
  | clear (a : NodeId)
  | attrOwner (a e : NodeId)
  | attrPut (e a : NodeId)
  | nsPut (e : NodeId) (pfx : Option Str) (uri : Str)
  | attrDel (e : NodeId) (k : Name)
  | orphan (a : NodeId)
  | idPut (d : NodeId) (id : Str) (e : NodeId)
  | decl (d : NodeId) (x : XmlDecl)
  | dealloc (n : NodeId)

/-- One primitive step. -/
inductive Step : Label → Heap → Heap → Prop
  | alloc {h : Heap} {x : Node} (hx : FreshNode h x) : Step (.alloc x) h (h.alloc x).2
  | allocAttr {h : Heap} {d : NodeId} {nm : Name} {v : Str} (hd : OwnerOk h d) (hn : NameOk nm) :
      Step (.allocAttr d nm v) h (h.newAttribute d nm (some v)).2
  | clone {h : Heap} {n : NodeId} {cs : List NodeId} (hn : h.live n = true)
      (hlive : ∀ c ∈ cs, h.live c = true)
      (hcs : cs = [] ∨ cs.map (fun c => ((h.get c).ntype, (h.get c).owner)) =
        (h.get n).children.map (fun c => ((h.get c).ntype, (h.get c).owner))) :
      Step (.clone n cs) h (h.alloc { h.get n with parent := none, children := cs }).2
  | value {h : Heap} {n : NodeId} {v : Option Str} :
      Step (.value n v) h (h.set n { h.get n with value := v })
  | unlink {h : Heap} {p c : NodeId} (hp : h.live p = true) (hc : c ∈ (h.get p).children) :
      Step (.unlink p c) h (h.unlink p c)
  | link {h : Heap} {p c : NodeId} {pos : Option Nat} (hp : h.live p = true)
      (hc : h.live c = true) (hne : p ≠ c)
      (hallow : isChildAllowed (h.get p).ntype (h.get c).ntype = true)
      (hdoc : (h.get p).ntype = .document → (h.get c).ntype = .element →
        ∀ x ∈ (h.get p).children, (h.get x).ntype ≠ .element)
      (hsame : checkSameDocument h p c = .ok ())
      (hparent : parentNode h c = none)
      (hpos : PosOk (h.get p).children pos) :
      Step (.link p c pos) h (h.link p c pos)
  | clear {h : Heap} {a : NodeId} : Step (.clear a) h (h.set a { h.get a with children := [] })
  | attrOwner {h : Heap} {a e : NodeId} {w : Option NodeId} (ha : (h.get a).ext = .attribute w)
      (he : h.live e = true) (het : (h.get e).ntype = .element) :
      Step (.attrOwner a e) h (h.set a { h.get a with ext := .attribute (some e) })
  | attrPut {h : Heap} {e a : NodeId} {attrs : List (Name × NodeId)}
      {nss : List (Option Str × Str)} (hext : (h.get e).ext = .element attrs nss)
      (ht : (h.get e).ntype = .element) (hat : (h.get a).ntype = .attribute)
      (hae : h.live e = true) (ha : h.live a = true)
      (hsame : checkSameDocument h e a = .ok ()) (hown : (h.get a).ext = .attribute (some e)) :
      Step (.attrPut e a) h
        (h.set e { h.get e with ext := .element (mapInsert (h.get a).name a attrs) nss })
  | nsPut {h : Heap} {e : NodeId} {p : Option Str} {u : Str} {attrs : List (Name × NodeId)}
      {nss : List (Option Str × Str)} (hext : (h.get e).ext = .element attrs nss) :
      Step (.nsPut e p u) h (h.set e { h.get e with ext := .element attrs (mapInsert p u nss) })
  | attrDel {h : Heap} {e : NodeId} {k : Name} {attrs : List (Name × NodeId)}
      {nss : List (Option Str × Str)} (hext : (h.get e).ext = .element attrs nss) :
      Step (.attrDel e k) h (h.set e { h.get e with ext := .element (mapRemove k attrs) nss })
  | orphan {h : Heap} {a : NodeId} : Step (.orphan a) h (h.set a { h.get a with parent := none })
  | idPut {h : Heap} {d : NodeId} {id : Str} {e : NodeId} {x : DocExt}
      (hext : (h.get d).ext = .document x) (hnew : mapGet id x.idMap = none)
      (he : h.live e = true) (het : (h.get e).ntype = .element)
      (how : (h.get e).owner = some d) :
      Step (.idPut d id e) h
        (h.set d { h.get d with ext := .document { x with idMap := mapInsert id e x.idMap } })
  | decl {h : Heap} {d : NodeId} {x : DocExt} {v : XmlDecl} (hext : (h.get d).ext = .document x) :
      Step (.decl d v) h
        (h.set d { h.get d with ext := .document { x with xmlDecl := some v } })
  | dealloc {h : Heap} {n : NodeId} (hs : stronglyReferenced h n = false) :
      Step (.dealloc n) h { h with live := fun m => if m = n then false else h.live m }

/-- A sequence of primitive steps, each of an allowed kind in the state it starts in. -/
inductive Steps (P : Heap → Label → Prop) : Heap → Heap → Prop
  | refl (h : Heap) : Steps P h h
  | step {h h1 h2 : Heap} {l : Label} (hp : P h l) (hs : Step l h h1) (ht : Steps P h1 h2) :
      Steps P h h2

namespace Steps
variable {P Q : Heap → Label → Prop}

theorem trans {h h1 h2 : Heap} (a : Steps P h h1) (b : Steps P h1 h2) : Steps P h h2 := by
  induction a with
  | refl => exact b
  | step hp hs _ ih => exact .step hp hs (ih b)

theorem one {h h1 : Heap} {l : Label} (hp : P h l) (hs : Step l h h1) : Steps P h h1 :=
  .step hp hs (.refl _)

theorem mono {h h1 : Heap} (hPQ : ∀ h l, P h l → Q h l) (a : Steps P h h1) : Steps Q h h1 := by
  induction a with
  | refl => exact .refl _
  | step hp hs _ ih => exact .step (hPQ _ _ hp) hs ih

/-- An invariant of the single steps is an invariant of the sequence. -/
theorem inv {h h1 : Heap} (I : Heap → Prop) (hI : ∀ h l h', I h → P h l → Step l h h' → I h')
    (a : Steps P h h1) (h0 : I h) : I h1 := by
  induction a with
  | refl => exact h0
  | step hp hs _ ih => exact ih (hI _ _ _ h0 hp hs)

/-- Steps that preserve an invariant may use it. -/
theorem withInv {h h1 : Heap} (I : Heap → Prop) (hI : ∀ h l h', I h → P h l → Step l h h' → I h')
    (a : Steps P h h1) (h0 : I h) : Steps (fun h l => P h l ∧ I h) h h1 := by
  induction a with
  | refl => exact .refl _
  | step hp hs _ ih => exact .step ⟨hp, h0⟩ hs (ih (hI _ _ _ h0 hp hs))

/-- A reflexive and transitive relation between heaps that every step respects holds
between the ends of a sequence. -/
theorem rel {h h1 : Heap} (R : Heap → Heap → Prop) (hrefl : ∀ h, R h h)
    (htrans : ∀ a b c, R a b → R b c → R a c) (hR : ∀ h l h', P h l → Step l h h' → R h h')
    (a : Steps P h h1) : R h h1 := by
  induction a with
  | refl => exact hrefl _
  | step hp hs _ ih => exact htrans _ _ _ (hR _ _ _ hp hs) ih

end Steps

/-! ## The steps of each call -/

/-- Any step except deallocation. -/
def NoDealloc (_ : Heap) (l : Label) : Prop := ∀ n, l ≠ .dealloc n

/-- Live nodes stay live when nothing is deallocated. -/
theorem Step.live_mono {l : Label} {h h' : Heap} (hs : Step l h h') (hl : ∀ n, l ≠ .dealloc n)
    {n : NodeId} (hn : h.live n = true) : h'.live n = true := by
  cases hs with
  | alloc => simp [hn]
  | allocAttr => simp [Heap.newAttribute, hn]
  | clone => simp [hn]
  | dealloc => exact absurd rfl (hl _)
  | value => exact hn
  | unlink => exact hn
  | link => exact hn
  | clear => exact hn
  | attrOwner => exact hn
  | attrPut => exact hn
  | nsPut => exact hn
  | attrDel => exact hn
  | orphan => exact hn
  | idPut => exact hn
  | decl => exact hn

theorem Steps.live_mono {P : Heap → Label → Prop} (hP : ∀ h l, P h l → NoDealloc h l) {h h' : Heap}
    (a : Steps P h h') {n : NodeId} (hn : h.live n = true) : h'.live n = true :=
  Steps.inv (fun h => h.live n = true) (fun _ _ _ h1 h2 h3 => h3.live_mono (hP _ _ h2) h1) a hn

/-! ## References stay inside the heap -/

/-- The weak references of a node. -/
def weakRefs (x : Node) : List NodeId :=
  x.parent.toList ++ x.owner.toList ++
    match x.ext with
    | .attribute w => w.toList
    | .document d => d.idMap.map (·.2)
    | _ => []

/-- Ids at or above `next` are unused, and strong references of live nodes point to live
nodes. -/
structure WF (h : Heap) : Prop where
  fresh : ∀ n, h.live n = true → n < h.next
  strong : ∀ n, h.live n = true → ∀ m ∈ strongRefs (h.get n), h.live m = true
  weak : ∀ n, h.live n = true → ∀ m ∈ weakRefs (h.get n), m < h.next

theorem WF.empty : WF Heap.empty := by
  constructor <;> intro n hn <;> simp [Heap.empty] at hn

theorem WF.child {h : Heap} (w : WF h) {n c : NodeId} (hn : h.live n = true)
    (hc : c ∈ (h.get n).children) : h.live c = true :=
  w.strong n hn c (by simp [strongRefs, hc])

/-- Overwriting a node preserves `WF` when its new references are good. -/
theorem WF.set {h : Heap} (w : WF h) {n : NodeId} {x : Node}
    (hs : h.live n = true → ∀ m ∈ strongRefs x, h.live m = true)
    (hw : h.live n = true → ∀ m ∈ weakRefs x, m < h.next) : WF (h.set n x) := by
  refine ⟨fun m hm => w.fresh m hm, ?_, ?_⟩
  · intro m hm
    rw [Heap.get_set]
    split
    · rename_i he; subst he; exact hs hm
    · exact w.strong m hm
  · intro m hm
    rw [Heap.get_set]
    split
    · rename_i he; subst he; exact hw hm
    · exact w.weak m hm

/-- A new node preserves `WF` when its references are good. -/
theorem WF.alloc {h : Heap} (w : WF h) {x : Node}
    (hs : ∀ m ∈ strongRefs x, h.live m = true) (hw : ∀ m ∈ weakRefs x, m < h.next) :
    WF (h.alloc x).2 := by
  refine ⟨?_, ?_, ?_⟩
  · intro m hm
    rw [Heap.live_alloc] at hm
    rw [Heap.next_alloc]
    split at hm
    · rename_i he; rw [he]; exact Nat.lt_succ_self _
    · exact Nat.lt_succ_of_lt (w.fresh m hm)
  · intro m hm k hk
    rw [Heap.live_alloc] at hm ⊢
    rw [Heap.get_alloc] at hk
    split
    · rfl
    · split at hk
      · exact hs k hk
      · rename_i hne
        rw [if_neg hne] at hm
        exact w.strong m hm k hk
  · intro m hm k hk
    rw [Heap.live_alloc] at hm
    rw [Heap.get_alloc] at hk
    rw [Heap.next_alloc]
    split at hk
    · exact Nat.lt_succ_of_lt (hw k hk)
    · rename_i hne
      rw [if_neg hne] at hm
      exact Nat.lt_succ_of_lt (w.weak m hm k hk)

theorem OwnerOk.lt {h : Heap} (w : WF h) {d : NodeId} (hd : OwnerOk h d) : d < h.next := by
  rcases hd with hd | ⟨m, hm, ho⟩
  · exact w.fresh d hd
  · exact w.weak m hm d (by simp [weakRefs, ho])

theorem mem_strongRefs {x : Node} {m : NodeId} : m ∈ strongRefs x ↔
    m ∈ x.children ∨ (∃ attrs nss k, x.ext = .element attrs nss ∧ (k, m) ∈ attrs) ∨
      (∃ d, x.ext = .document d ∧ d.docType = some m) ∨
      (∃ d k, x.ext = .documentType d ∧ ((k, m) ∈ d.entities ∨ (k, m) ∈ d.notations)) := by
  unfold strongRefs
  rw [List.mem_append]
  cases x.ext <;> simp [exists_or]

theorem mem_weakRefs {x : Node} {m : NodeId} : m ∈ weakRefs x ↔
    x.parent = some m ∨ x.owner = some m ∨ x.ext = .attribute (some m) ∨
      (∃ d k, x.ext = .document d ∧ (k, m) ∈ d.idMap) := by
  unfold weakRefs
  rw [List.mem_append, List.mem_append]
  cases x.ext <;> simp [or_assoc]

/-- The references of a new node. -/
theorem FreshNode.strong {h : Heap} {x : Node} (hx : FreshNode h x) :
    ∀ m ∈ strongRefs x, h.live m = true := by
  intro m hm
  have he := hx.ext
  rcases mem_strongRefs.mp hm with h1 | ⟨attrs, nss, k, h1, h2⟩ | ⟨d, h1, h2⟩ | ⟨d, k, h1, h2⟩
  · rw [hx.children] at h1; simp at h1
  all_goals
    rw [h1] at he
    unfold FreshExt at he
    split at he <;> simp at he
  · rw [he.1] at h2; simp at h2
  · obtain ⟨dt, ⟨o, h3⟩, h4⟩ := he
    exact h4 m (by rw [h3] at h2; exact h2)
  · obtain ⟨p, s, h3⟩ := he
    rw [h3] at h2; simp at h2

theorem FreshNode.weak {h : Heap} (w : WF h) {x : Node} (hx : FreshNode h x) :
    ∀ m ∈ weakRefs x, m < h.next := by
  intro m hm
  have he := hx.ext
  rcases mem_weakRefs.mp hm with h1 | h1 | h1 | ⟨d, k, h1, h2⟩
  · rw [hx.parent] at h1; simp at h1
  · rcases hx.owner with ⟨d, h2, h3, _⟩ | ⟨h2, _⟩
    · rw [h1] at h2; cases h2; exact h3.lt w
    · rw [h1] at h2; cases h2
  all_goals
    rw [h1] at he
    unfold FreshExt at he
    split at he <;> simp at he
  · obtain ⟨dt, ⟨o, h3⟩, h4⟩ := he
    rw [h3] at h2; simp at h2

theorem Step.wf {l : Label} {h h' : Heap} (hs : Step l h h') (w : WF h) : WF h' := by
  cases hs with
  | alloc hx => exact w.alloc hx.strong (hx.weak w)
  | @allocAttr _ d nm v hd hn =>
    have w1 : WF (h.alloc (Node.newText d v)).2 := by
      refine w.alloc ?_ ?_
      · intro m hm; simp [strongRefs, Node.newText] at hm
      · intro m hm; simp [weakRefs, Node.newText] at hm; subst hm; exact hd.lt w
    refine w1.alloc ?_ ?_
    · intro m hm; simp [strongRefs] at hm; subst hm; simp
    · intro m hm; simp [weakRefs] at hm; subst hm
      exact Nat.lt_succ_of_lt (hd.lt w)
  | @clone _ n cs hn hlive hcs =>
    refine w.alloc ?_ ?_
    · intro m hm
      rcases mem_strongRefs.mp hm with h1 | h1
      · exact hlive m h1
      · exact w.strong n hn m (mem_strongRefs.mpr (Or.inr h1))
    · intro m hm
      rcases mem_weakRefs.mp hm with h1 | h1
      · simp at h1
      · exact w.weak n hn m (mem_weakRefs.mpr (Or.inr h1))
  | @value _ n v => exact w.set (fun hn => w.strong n hn) (fun hn => w.weak n hn)
  | @unlink _ p c _ hc =>
    refine WF.set (w.set ?_ ?_) ?_ ?_
    · intro hn m hm
      rcases mem_strongRefs.mp hm with h1 | h1
      · exact w.child hn (List.mem_of_mem_erase h1)
      · exact w.strong p hn m (mem_strongRefs.mpr (Or.inr h1))
    · exact fun hn => w.weak p hn
    · intro hn m hm
      rcases mem_strongRefs.mp hm with h1 | h1
      · simp only [Heap.get_set] at h1
        split at h1
        · rename_i he; subst he; exact w.child hn (List.mem_of_mem_erase h1)
        · exact w.child hn h1
      · simp only [Heap.get_set] at h1
        refine w.strong c hn m (mem_strongRefs.mpr (Or.inr ?_))
        split at h1
        · rename_i he; subst he; exact h1
        · exact h1
    · intro hn m hm
      rcases mem_weakRefs.mp hm with h1 | h1
      · simp at h1
      · simp only [Heap.get_set] at h1
        refine w.weak c hn m (mem_weakRefs.mpr (Or.inr ?_))
        split at h1
        · rename_i he; subst he; exact h1
        · exact h1
  | @link _ p c pos hp hc hne _ _ _ _ _ =>
    refine WF.set (w.set ?_ ?_) ?_ ?_
    · intro hn m hm
      exact w.strong c hn m hm
    · intro hn m hm
      rcases mem_weakRefs.mp hm with h1 | h1 | h1
      · simp at h1; subst h1; exact w.fresh _ hp
      · simp only at h1
        unfold ownerFor at h1
        split at h1
        · cases h1; exact w.fresh _ hp
        · exact w.weak p hp m (mem_weakRefs.mpr (Or.inr (Or.inl h1)))
      · exact w.weak c hn m (mem_weakRefs.mpr (Or.inr (Or.inr h1)))
    · intro hn m hm
      simp only [Heap.get_set, if_neg hne] at hm
      rcases mem_strongRefs.mp hm with h1 | h1
      · rcases mem_insertAt_imp h1 with rfl | h1
        · exact hc
        · exact w.child hp h1
      · exact w.strong p hp m (mem_strongRefs.mpr (Or.inr h1))
    · intro hn m hm
      simp only [Heap.get_set, if_neg hne] at hm
      exact w.weak p hp m hm
  | @clear _ a =>
    refine w.set ?_ (fun hn => w.weak a hn)
    intro hn m hm
    rcases mem_strongRefs.mp hm with h1 | h1
    · simp at h1
    · exact w.strong a hn m (mem_strongRefs.mpr (Or.inr h1))
  | @attrOwner _ a e _ ha he _ =>
    refine w.set ?_ ?_
    · intro hn m hm
      rcases mem_strongRefs.mp hm with h1 | h1
      · exact w.child hn h1
      · simp at h1
    · intro hn m hm
      rcases mem_weakRefs.mp hm with h1 | h1 | h1 | h1
      · exact w.weak a hn m (mem_weakRefs.mpr (Or.inl h1))
      · exact w.weak a hn m (mem_weakRefs.mpr (Or.inr (Or.inl h1)))
      · simp at h1; subst h1; exact w.fresh _ he
      · simp at h1
  | @attrPut _ e a attrs nss hext ht hat hae ha _ _ =>
    refine w.set ?_ ?_
    · intro hn m hm
      rcases mem_strongRefs.mp hm with h1 | ⟨attrs', nss', k, h1, h2⟩ | h1 | h1
      · exact w.child hn h1
      · simp only [Ext.element.injEq] at h1
        rw [← h1.1] at h2
        rcases mem_mapInsert.mp h2 with h3 | ⟨h3, _⟩
        · rw [Prod.mk.injEq] at h3; rw [h3.2]; exact ha
        · exact w.strong e hn m (mem_strongRefs.mpr (Or.inr (Or.inl ⟨attrs, nss, k, hext, h3⟩)))
      · simp at h1
      · simp at h1
    · intro hn m hm
      rcases mem_weakRefs.mp hm with h1 | h1 | h1 | h1
      · exact w.weak e hn m (mem_weakRefs.mpr (Or.inl h1))
      · exact w.weak e hn m (mem_weakRefs.mpr (Or.inr (Or.inl h1)))
      · simp at h1
      · simp at h1
  | @nsPut _ e p u attrs nss hext =>
    refine w.set ?_ ?_
    · intro hn m hm
      rcases mem_strongRefs.mp hm with h1 | ⟨attrs', nss', k, h1, h2⟩ | h1 | h1
      · exact w.child hn h1
      · simp only [Ext.element.injEq] at h1
        rw [← h1.1] at h2
        exact w.strong e hn m (mem_strongRefs.mpr (Or.inr (Or.inl ⟨attrs, nss, k, hext, h2⟩)))
      · simp at h1
      · simp at h1
    · intro hn m hm
      rcases mem_weakRefs.mp hm with h1 | h1 | h1 | h1
      · exact w.weak e hn m (mem_weakRefs.mpr (Or.inl h1))
      · exact w.weak e hn m (mem_weakRefs.mpr (Or.inr (Or.inl h1)))
      · simp at h1
      · simp at h1
  | @attrDel _ e k attrs nss hext =>
    refine w.set ?_ ?_
    · intro hn m hm
      rcases mem_strongRefs.mp hm with h1 | ⟨attrs', nss', k, h1, h2⟩ | h1 | h1
      · exact w.child hn h1
      · simp only [Ext.element.injEq] at h1
        rw [← h1.1] at h2
        exact w.strong e hn m
          (mem_strongRefs.mpr (Or.inr (Or.inl ⟨attrs, nss, k, hext, (mem_mapRemove.mp h2).1⟩)))
      · simp at h1
      · simp at h1
    · intro hn m hm
      rcases mem_weakRefs.mp hm with h1 | h1 | h1 | h1
      · exact w.weak e hn m (mem_weakRefs.mpr (Or.inl h1))
      · exact w.weak e hn m (mem_weakRefs.mpr (Or.inr (Or.inl h1)))
      · simp at h1
      · simp at h1
  | @orphan _ a =>
    refine w.set (fun hn => w.strong a hn) ?_
    intro hn m hm
    rcases mem_weakRefs.mp hm with h1 | h1
    · simp at h1
    · exact w.weak a hn m (mem_weakRefs.mpr (Or.inr h1))
  | @idPut _ d id e x hext hnew he _ _ =>
    refine w.set ?_ ?_
    · intro hn m hm
      rcases mem_strongRefs.mp hm with h1 | h1 | ⟨y, h1, h2⟩ | h1
      · exact w.child hn h1
      · simp at h1
      · simp only [Ext.document.injEq] at h1
        rw [← h1] at h2
        exact w.strong d hn m (mem_strongRefs.mpr (Or.inr (Or.inr (Or.inl ⟨x, hext, h2⟩))))
      · simp at h1
    · intro hn m hm
      rcases mem_weakRefs.mp hm with h1 | h1 | h1 | ⟨y, k, h1, h2⟩
      · exact w.weak d hn m (mem_weakRefs.mpr (Or.inl h1))
      · exact w.weak d hn m (mem_weakRefs.mpr (Or.inr (Or.inl h1)))
      · simp at h1
      · simp only [Ext.document.injEq] at h1
        rw [← h1] at h2
        rcases mem_mapInsert.mp h2 with h3 | ⟨h3, _⟩
        · rw [Prod.mk.injEq] at h3; rw [h3.2]; exact w.fresh _ he
        · exact w.weak d hn m (mem_weakRefs.mpr (Or.inr (Or.inr (Or.inr ⟨x, k, hext, h3⟩))))
  | @decl _ d x v hext =>
    refine w.set ?_ ?_
    · intro hn m hm
      rcases mem_strongRefs.mp hm with h1 | h1 | ⟨y, h1, h2⟩ | h1
      · exact w.child hn h1
      · simp at h1
      · simp only [Ext.document.injEq] at h1
        rw [← h1] at h2
        exact w.strong d hn m (mem_strongRefs.mpr (Or.inr (Or.inr (Or.inl ⟨x, hext, h2⟩))))
      · simp at h1
    · intro hn m hm
      rcases mem_weakRefs.mp hm with h1 | h1 | h1 | ⟨y, k, h1, h2⟩
      · exact w.weak d hn m (mem_weakRefs.mpr (Or.inl h1))
      · exact w.weak d hn m (mem_weakRefs.mpr (Or.inr (Or.inl h1)))
      · simp at h1
      · simp only [Ext.document.injEq] at h1
        rw [← h1] at h2
        exact w.weak d hn m (mem_weakRefs.mpr (Or.inr (Or.inr (Or.inr ⟨x, k, hext, h2⟩))))
  | @dealloc _ n hnot =>
    have hlive : ∀ m, (if m = n then false else h.live m) = true → m ≠ n ∧ h.live m = true := by
      intro m hm
      split at hm
      · cases hm
      · rename_i hne; exact ⟨hne, hm⟩
    refine ⟨?_, ?_, ?_⟩
    · intro m hm; exact w.fresh m (hlive m hm).2
    · intro m hm k hk
      have h1 := (hlive m hm).2
      have h2 := w.strong m h1 k hk
      show (if k = n then false else h.live k) = true
      split
      · rename_i he
        subst he
        have : stronglyReferenced h k = true := by
          unfold stronglyReferenced
          rw [List.any_eq_true]
          exact ⟨m, List.mem_range.mpr (w.fresh m h1), by
            rw [h1, Bool.true_and]; exact List.contains_iff_mem.mpr hk⟩
        rw [this] at hnot; cases hnot
      · exact h2
    · intro m hm k hk; exact w.weak m (hlive m hm).2 k hk

theorem Steps.wf {P : Heap → Label → Prop} {h h' : Heap} (a : Steps P h h') (w : WF h) : WF h' :=
  a.inv WF (fun _ _ _ h1 _ h3 => h3.wf h1) w

/-- The receiver and the new child of a call that inserts a node of the caller. -/
def Op.inserts : Op → Option (NodeId × NodeId)
  | .insertBefore s n _ => some (s, n)
  | .appendChild s n => some (s, n)
  | .replaceChild s n _ => some (s, n)
  | _ => none

/-- The call neither inserts or attaches a node of the caller nor clones. -/
def Op.plain : Op → Bool
  | .insertBefore _ _ _ | .appendChild _ _ | .replaceChild _ _ _ | .cloneNode _ _ _
  | .setAttributeNode _ _ => false
  | _ => true

/-- The call may register an id. -/
def Op.registers : Op → Bool
  | .setAttribute _ _ _ | .setAttributeNs _ _ _ _ | .setAttributeNode _ _ | .readXml _ => true
  | _ => false

/-- Which steps a call may take. -/
def StepsOf (op : Op) (h : Heap) (l : Label) : Prop :=
  match l with
  | .unlink p c => (h.get c).parent = some p ∨
      (op = .removeChild p c ∨ (∃ n, op = .replaceChild p n c) ∨ op = .normalize p)
  | .link p c _ => op.inserts = some (p, c) ∨
      (op.plain = true ∧ (h.get c).children = [] ∧ c + 1 = h.next)
  | .clear a => (∃ v, op = .setValue a v) ∨ op = .unsetValue a
  | .orphan a => (∃ n, op = .removeAttributeNode n a) ∨
      ∃ n attrs nss k, h.live n = true ∧ (h.get n).ext = .element attrs nss ∧ (k, a) ∈ attrs
  | .clone m cs => ∃ n deep f, op = .cloneNode n deep f ∧
      ((m = n ∧ cs = []) ∨ (deep = true ∧ (h.get n).children ≠ [])) ∧
      (m = n ∨ ∃ p, h.live p = true ∧ m ∈ (h.get p).children)
  | .attrOwner a e => (h.get a).ext = .attribute none ∨ op = .setAttributeNode e a
  | .attrPut e _ => op.plain = true ∨ ∃ a, op = .setAttributeNode e a
  | .dealloc n => op = .drop n
  | .idPut _ _ _ => op.registers = true
  | _ => True

end XmlDom
