import Verif.Lemmas.OpSteps

/-!
# Invariants of the primitive steps

`Inv` holds in every reachable state, whatever the calls were. The lemmas `Step.ident`,
`Step.children` and `Step.extOf` say what a step can do to a node.
-/

namespace XmlDom

/-- The owner field of a node that has none: it is a document or a document type. -/
def OwnerNone (h : Heap) : Prop := ∀ n, n < h.next → (h.get n).owner = none →
  (h.get n).ntype = .document ∨ (h.get n).ntype = .documentType

theorem isChildAllowed_owned {t c : NodeType} (hc : isChildAllowed t c = true) :
    c ≠ .document ∧ c ≠ .documentType := by
  cases t <;> cases c <;> simp_all [isChildAllowed]

/-- A node that passes the tests of an insertion already has the owner it gets. -/
theorem link_owner {h : Heap} (j : OwnerNone h) {p c : NodeId} (hc : c < h.next)
    (hallow : isChildAllowed (h.get p).ntype (h.get c).ntype = true)
    (hsame : checkSameDocument h p c = .ok ()) : ownerFor h p = (h.get c).owner := by
  cases ho : (h.get c).owner with
  | none =>
    have := isChildAllowed_owned hallow
    rcases j c hc ho with h1 | h1
    · exact absurd h1 this.1
    · exact absurd h1 this.2
  | some d =>
    unfold ownerFor
    by_cases hd : (h.get p).ntype = .document
    · rw [if_pos hd]
      unfold checkSameDocument at hsame
      rw [if_pos hd, ho] at hsame
      simp only at hsame
      split at hsame
      · split at hsame
        · rename_i he; rw [he]
        · cases hsame
      · cases hsame
    · rw [if_neg hd]
      exact checkSameDocument_owner hd ho hsame

/-- The attribute that `newAttribute` makes for a value. -/
def Node.newAttr (d : NodeId) (nm : Name) (cs : List NodeId) : Node :=
  { ntype := .attribute, name := nm, value := none, parent := none, owner := some d,
    children := cs, ext := .attribute none }

theorem newAttribute_old (h : Heap) (d : NodeId) (nm : Name) (v : Str) {n : NodeId}
    (hn : n < h.next) : (h.newAttribute d nm (some v)).2.get n = h.get n ∧
      (h.newAttribute d nm (some v)).2.live n = h.live n := by
  have h1 : n ≠ h.next := Nat.ne_of_lt hn
  have h2 : n ≠ h.next + 1 := Nat.ne_of_lt (Nat.lt_succ_of_lt hn)
  simp [Heap.newAttribute, h1, h2]

/-- Type, name and owner of a node never change. -/
theorem Step.ident {l : Label} {h h' : Heap} (_w : WF h) (j : OwnerNone h) (hs : Step l h h')
    {n : NodeId} (hn : n < h.next) :
    (h'.get n).ntype = (h.get n).ntype ∧ (h'.get n).name = (h.get n).name ∧
      (h'.get n).owner = (h.get n).owner := by
  have key : ∀ (m : NodeId) (x : Node), x.ntype = (h.get m).ntype → x.name = (h.get m).name →
      x.owner = (h.get m).owner → ((h.set m x).get n).ntype = (h.get n).ntype ∧
      ((h.set m x).get n).name = (h.get n).name ∧ ((h.set m x).get n).owner = (h.get n).owner := by
    intro m x h1 h2 h3
    rw [Heap.get_set]
    split
    · rename_i he; subst he; exact ⟨h1, h2, h3⟩
    · exact ⟨rfl, rfl, rfl⟩
  cases hs with
  | alloc => rw [Heap.get_alloc, if_neg (Nat.ne_of_lt hn)]; exact ⟨rfl, rfl, rfl⟩
  | allocAttr =>
    rw [(newAttribute_old h _ _ _ hn).1]
    exact ⟨rfl, rfl, rfl⟩
  | clone => rw [Heap.get_alloc, if_neg (Nat.ne_of_lt hn)]; exact ⟨rfl, rfl, rfl⟩
  | unlink => rw [get_unlink]; exact ⟨rfl, rfl, rfl⟩
  | @link _ p c pos hp hc hne hallow _ hsame _ _ =>
    rw [get_link _ _ hne]
    refine ⟨rfl, rfl, ?_⟩
    simp only
    split
    · rename_i he; subst he; exact link_owner j hn hallow hsame
    · rfl
  | dealloc => exact ⟨rfl, rfl, rfl⟩
  | value => exact key _ _ rfl rfl rfl
  | clear => exact key _ _ rfl rfl rfl
  | attrOwner => exact key _ _ rfl rfl rfl
  | attrPut => exact key _ _ rfl rfl rfl
  | nsPut => exact key _ _ rfl rfl rfl
  | attrDel => exact key _ _ rfl rfl rfl
  | orphan => exact key _ _ rfl rfl rfl
  | idPut => exact key _ _ rfl rfl rfl
  | decl => exact key _ _ rfl rfl rfl

/-- What a step does to the set of nodes. -/
theorem Step.grow {l : Label} {h h' : Heap} (hs : Step l h h') : h.next ≤ h'.next ∧
    ∀ n, n < h.next → h'.live n = true → h.live n = true := by
  cases hs with
  | alloc =>
    refine ⟨Nat.le_succ _, fun n hn => ?_⟩
    rw [Heap.live_alloc, if_neg (Nat.ne_of_lt hn)]; exact id
  | allocAttr =>
    refine ⟨Nat.le_succ_of_le (Nat.le_succ _), fun n hn => ?_⟩
    rw [(newAttribute_old h _ _ _ hn).2]; exact id
  | clone =>
    refine ⟨Nat.le_succ _, fun n hn => ?_⟩
    rw [Heap.live_alloc, if_neg (Nat.ne_of_lt hn)]; exact id
  | @dealloc _ m _ =>
    refine ⟨Nat.le_refl _, fun n _ => ?_⟩
    simp only
    split
    · intro h; cases h
    · exact id
  | value => exact ⟨Nat.le_refl _, fun _ _ => id⟩
  | unlink => exact ⟨Nat.le_refl _, fun _ _ => id⟩
  | link => exact ⟨Nat.le_refl _, fun _ _ => id⟩
  | clear => exact ⟨Nat.le_refl _, fun _ _ => id⟩
  | attrOwner => exact ⟨Nat.le_refl _, fun _ _ => id⟩
  | attrPut => exact ⟨Nat.le_refl _, fun _ _ => id⟩
  | nsPut => exact ⟨Nat.le_refl _, fun _ _ => id⟩
  | attrDel => exact ⟨Nat.le_refl _, fun _ _ => id⟩
  | orphan => exact ⟨Nat.le_refl _, fun _ _ => id⟩
  | idPut => exact ⟨Nat.le_refl _, fun _ _ => id⟩
  | decl => exact ⟨Nat.le_refl _, fun _ _ => id⟩

/-- The nodes that a step makes. -/
inductive NewNode (h h' : Heap) (n : NodeId) : Label → Prop
  | fresh {x : Node} (hx : FreshNode h x) (hn : n = h.next) (hg : h'.get n = x) :
      NewNode h h' n (.alloc x)
  | attrText {d : NodeId} {nm : Name} {v : Str} (hd : OwnerOk h d) (hn : n = h.next)
      (hg : h'.get n = Node.newText d v) : NewNode h h' n (.allocAttr d nm v)
  | attr {d : NodeId} {nm : Name} {v : Str} (hd : OwnerOk h d) (hnm : NameOk nm)
      (hn : n = h.next + 1)
      (hg : h'.get n = Node.newAttr d nm [h.next])
      (ht : h'.get h.next = Node.newText d v) : NewNode h h' n (.allocAttr d nm v)
  | copy {m : NodeId} {cs : List NodeId} (hm : h.live m = true)
      (hlive : ∀ c ∈ cs, h.live c = true)
      (hcs : cs = [] ∨ cs.map (typeOwner h) = (h.get m).children.map (typeOwner h))
      (hn : n = h.next) (hg : h'.get n = { h.get m with parent := none, children := cs }) :
      NewNode h h' n (.clone m cs)

/-- A node after a step was there before, or the step made it. -/
theorem Step.newNode {l : Label} {h h' : Heap} (hs : Step l h h') {n : NodeId}
    (hn : n < h'.next) : n < h.next ∨ NewNode h h' n l := by
  cases hs with
  | alloc hx =>
    rcases Nat.lt_succ_iff_lt_or_eq.mp hn with h1 | h1
    · exact Or.inl h1
    · refine Or.inr (.fresh hx h1 ?_)
      rw [Heap.get_alloc, if_pos h1]
  | @allocAttr _ d nm v hd hnm =>
    rcases Nat.lt_succ_iff_lt_or_eq.mp hn with h1 | h1
    · rcases Nat.lt_succ_iff_lt_or_eq.mp h1 with h1 | h1
      · exact Or.inl h1
      · refine Or.inr (.attrText hd h1 ?_)
        subst h1
        simp [Heap.newAttribute]
    · refine Or.inr (.attr hd hnm h1 ?_ ?_)
      · subst h1; simp [Heap.newAttribute, Node.newAttr]
      · simp [Heap.newAttribute]
  | clone hm hlive hcs =>
    rcases Nat.lt_succ_iff_lt_or_eq.mp hn with h1 | h1
    · exact Or.inl h1
    · refine Or.inr (.copy hm hlive hcs h1 ?_)
      rw [Heap.get_alloc, if_pos h1]
  | dealloc => exact Or.inl hn
  | value => exact Or.inl hn
  | unlink => exact Or.inl hn
  | link => exact Or.inl hn
  | clear => exact Or.inl hn
  | attrOwner => exact Or.inl hn
  | attrPut => exact Or.inl hn
  | nsPut => exact Or.inl hn
  | attrDel => exact Or.inl hn
  | orphan => exact Or.inl hn
  | idPut => exact Or.inl hn
  | decl => exact Or.inl hn

/-- The child list of an existing node after a step. -/
theorem Step.children {l : Label} {h h' : Heap} (hs : Step l h h') {p : NodeId}
    (hn : p < h.next) : (h'.get p).children =
      match l with
      | .unlink q c => if p = q then (h.get p).children.erase c else (h.get p).children
      | .link q c pos => if p = q then insertAt (h.get p).children c pos else (h.get p).children
      | .clear a => if p = a then [] else (h.get p).children
      | _ => (h.get p).children := by
  have key : ∀ (m : NodeId) (x : Node), x.children = (h.get m).children →
      ((h.set m x).get p).children = (h.get p).children := by
    intro m x h1
    rw [Heap.get_set]
    split
    · rename_i he; subst he; exact h1
    · rfl
  cases hs with
  | alloc => rw [Heap.get_alloc, if_neg (Nat.ne_of_lt hn)]
  | allocAttr =>
    rw [(newAttribute_old h _ _ _ hn).1]
  | clone => rw [Heap.get_alloc, if_neg (Nat.ne_of_lt hn)]
  | unlink => rw [get_unlink]
  | link _ _ hne => rw [get_link _ _ hne]
  | clear => rw [Heap.get_set]; simp only; split <;> rfl
  | dealloc => rfl
  | value => exact key _ _ rfl
  | attrOwner => exact key _ _ rfl
  | attrPut => exact key _ _ rfl
  | nsPut => exact key _ _ rfl
  | attrDel => exact key _ _ rfl
  | orphan => exact key _ _ rfl
  | idPut => exact key _ _ rfl
  | decl => exact key _ _ rfl

/-- The parent field of an existing node after a step. -/
theorem Step.parent {l : Label} {h h' : Heap} (hs : Step l h h') {n : NodeId}
    (hn : n < h.next) : (h'.get n).parent =
      match l with
      | .unlink _ c => if n = c then none else (h.get n).parent
      | .link q c _ => if n = c then some q else (h.get n).parent
      | .orphan a => if n = a then none else (h.get n).parent
      | _ => (h.get n).parent := by
  have key : ∀ (m : NodeId) (x : Node), x.parent = (h.get m).parent →
      ((h.set m x).get n).parent = (h.get n).parent := by
    intro m x h1
    rw [Heap.get_set]
    split
    · rename_i he; subst he; exact h1
    · rfl
  cases hs with
  | alloc => rw [Heap.get_alloc, if_neg (Nat.ne_of_lt hn)]
  | allocAttr =>
    rw [(newAttribute_old h _ _ _ hn).1]
  | clone => rw [Heap.get_alloc, if_neg (Nat.ne_of_lt hn)]
  | unlink => rw [get_unlink]
  | link _ _ hne => rw [get_link _ _ hne]
  | orphan => rw [Heap.get_set]; simp only; split <;> rfl
  | dealloc => rfl
  | value => exact key _ _ rfl
  | clear => exact key _ _ rfl
  | attrOwner => exact key _ _ rfl
  | attrPut => exact key _ _ rfl
  | nsPut => exact key _ _ rfl
  | attrDel => exact key _ _ rfl
  | idPut => exact key _ _ rfl
  | decl => exact key _ _ rfl

/-- How a step changes the extension of an existing node. -/
inductive ExtChange (h : Heap) (n : NodeId) : Label → Ext → Prop
  | keep {l : Label} : ExtChange h n l (h.get n).ext
  | attrOwner {e : NodeId} {w : Option NodeId} (ha : (h.get n).ext = .attribute w)
      (he : h.live e = true) (het : (h.get e).ntype = .element) :
      ExtChange h n (.attrOwner n e) (.attribute (some e))
  | attrPut {a : NodeId} {attrs : List (Name × NodeId)} {nss : List (Option Str × Str)}
      (hext : (h.get n).ext = .element attrs nss) (hat : (h.get a).ntype = .attribute)
      (ha : h.live a = true) (hown : (h.get a).ext = .attribute (some n)) :
      ExtChange h n (.attrPut n a) (.element (mapInsert (h.get a).name a attrs) nss)
  | nsPut {p : Option Str} {u : Str} {attrs : List (Name × NodeId)} {nss : List (Option Str × Str)}
      (hext : (h.get n).ext = .element attrs nss) :
      ExtChange h n (.nsPut n p u) (.element attrs (mapInsert p u nss))
  | attrDel {k : Name} {attrs : List (Name × NodeId)} {nss : List (Option Str × Str)}
      (hext : (h.get n).ext = .element attrs nss) :
      ExtChange h n (.attrDel n k) (.element (mapRemove k attrs) nss)
  | idPut {id : Str} {e : NodeId} {x : DocExt} (hext : (h.get n).ext = .document x)
      (hnew : mapGet id x.idMap = none) (he : h.live e = true)
      (het : (h.get e).ntype = .element) (how : (h.get e).owner = some n) :
      ExtChange h n (.idPut n id e) (.document { x with idMap := mapInsert id e x.idMap })
  | decl {v : XmlDecl} {x : DocExt} (hext : (h.get n).ext = .document x) :
      ExtChange h n (.decl n v) (.document { x with xmlDecl := some v })

theorem Step.ext {l : Label} {h h' : Heap} (hs : Step l h h') {n : NodeId}
    (hn : n < h.next) : ExtChange h n l (h'.get n).ext := by
  have key : ∀ (l : Label) (m : NodeId) (x : Node), x.ext = (h.get m).ext →
      ExtChange h n l ((h.set m x).get n).ext := by
    intro l m x h1
    rw [Heap.get_set]
    split
    · rename_i he; subst he; rw [h1]; exact .keep
    · exact .keep
  cases hs with
  | alloc => rw [Heap.get_alloc, if_neg (Nat.ne_of_lt hn)]; exact .keep
  | allocAttr =>
    rw [(newAttribute_old h _ _ _ hn).1]; exact .keep
  | clone => rw [Heap.get_alloc, if_neg (Nat.ne_of_lt hn)]; exact .keep
  | unlink => rw [get_unlink]; exact .keep
  | link _ _ hne => rw [get_link _ _ hne]; exact .keep
  | dealloc => exact .keep
  | value => exact key _ _ _ rfl
  | clear => exact key _ _ _ rfl
  | orphan => exact key _ _ _ rfl
  | attrOwner ha he het =>
    rw [Heap.get_set]
    split
    · rename_i he'; subst he'; exact .attrOwner ha he het
    · exact .keep
  | attrPut hext ht hat hae ha hsame hown =>
    rw [Heap.get_set]
    split
    · rename_i he'; subst he'; exact .attrPut hext hat ha hown
    · exact .keep
  | nsPut hext =>
    rw [Heap.get_set]
    split
    · rename_i he'; subst he'; exact .nsPut hext
    · exact .keep
  | attrDel hext =>
    rw [Heap.get_set]
    split
    · rename_i he'; subst he'; exact .attrDel hext
    · exact .keep
  | idPut hext hnew he het how =>
    rw [Heap.get_set]
    split
    · rename_i he'; subst he'; exact .idPut hext hnew he het how
    · exact .keep
  | decl hext =>
    rw [Heap.get_set]
    split
    · rename_i he'; subst he'; exact .decl hext
    · exact .keep

/-! ## The invariant -/

/-- The extension has the shape that goes with the node type. -/
def ExtFor (t : NodeType) (x : Ext) : Prop :=
  match t with
  | .element => ∃ attrs nss, x = .element attrs nss
  | .attribute => ∃ w, x = .attribute w
  | .document => ∃ d, x = .document d
  | .documentType => ∃ p s, x = .documentType
      { entities := [], notations := [], publicId := p, systemId := s, internalSubset := none }
  | .entity => ∃ p s, x = .entity p s none
  | .notationNode => ∃ p s, x = .notation p s
  | _ => x = .none

/-- What holds in every reachable state. -/
structure Inv (h : Heap) : Prop where
  wf : WF h
  ownerNone : OwnerNone h
  docOwner : ∀ n, n < h.next → (h.get n).ntype = .document → (h.get n).owner = none
  names : ∀ n, n < h.next → NameFor (h.get n).ntype (h.get n).name
  exts : ∀ n, n < h.next → ExtFor (h.get n).ntype (h.get n).ext
  allowed : ∀ p, h.live p = true → ∀ c ∈ (h.get p).children,
    isChildAllowed (h.get p).ntype (h.get c).ntype = true
  sameOwner : ∀ p, h.live p = true → (h.get p).ntype ≠ .document →
    ∀ c ∈ (h.get p).children, (h.get c).owner = (h.get p).owner
  oneElement : ∀ p, h.live p = true → (h.get p).ntype = .document →
    ((h.get p).children.filter fun c => decide ((h.get c).ntype = .element)).length ≤ 1
  attrKeys : ∀ p attrs nss, h.live p = true → (h.get p).ext = .element attrs nss →
    KeysNodup attrs ∧ KeysNodup nss ∧
      ∀ k a, (k, a) ∈ attrs → (h.get a).ntype = .attribute ∧ (h.get a).name = k
  ids : ∀ d x, h.live d = true → (h.get d).ext = .document x →
    KeysNodup x.idMap ∧ ∀ id e, (id, e) ∈ x.idMap → (h.get e).ntype = .element
  docTypes : ∀ d x t, h.live d = true → (h.get d).ext = .document x → x.docType = some t →
    h.live t = true

theorem Inv.empty : Inv Heap.empty := by
  refine ⟨WF.empty, ?_, ?_, ?_, ?_, ?_, ?_, ?_, ?_, ?_, ?_⟩
  · intro n hn; exact absurd hn (Nat.not_lt_zero _)
  · intro n hn; exact absurd hn (Nat.not_lt_zero _)
  · intro n hn; exact absurd hn (Nat.not_lt_zero _)
  · intro n hn; exact absurd hn (Nat.not_lt_zero _)
  · intro p hn; simp [Heap.empty] at hn
  · intro p hn; simp [Heap.empty] at hn
  · intro p hn; simp [Heap.empty] at hn
  · intro p _ _ hn; simp [Heap.empty] at hn
  · intro p _ hn; simp [Heap.empty] at hn
  · intro p _ _ hn; simp [Heap.empty] at hn

theorem FreshExt.extFor {h : Heap} {t : NodeType} {x : Ext} (hx : FreshExt h t x) :
    ExtFor t x := by
  unfold FreshExt at hx
  unfold ExtFor
  cases t <;> simp only at hx ⊢
  · exact ⟨_, _, hx⟩
  · exact ⟨_, hx⟩
  all_goals first
    | exact hx
    | (obtain ⟨dt, o, h1, _⟩ := hx; exact ⟨_, h1⟩)

/-- Inserting splits the list. -/
theorem insertAt_split {l : List NodeId} {c : NodeId} {pos : Option Nat} (hp : PosOk l pos) :
    ∃ a b, l = a ++ b ∧ insertAt l c pos = a ++ c :: b := by
  cases pos with
  | none => exact ⟨l, [], by simp, rfl⟩
  | some i =>
    simp only [insertAt]
    replace hp : i ≤ l.length := hp
    induction l generalizing i with
    | nil =>
      cases i with
      | zero => exact ⟨[], [], rfl, rfl⟩
      | succ i => simp at hp
    | cons y ys ih =>
      cases i with
      | zero => exact ⟨[], y :: ys, rfl, rfl⟩
      | succ i =>
        obtain ⟨a, b, h1, h2⟩ := ih i (by simpa using hp)
        exact ⟨y :: a, b, by rw [h1]; rfl, by rw [List.insertIdx_succ_cons, h2]; rfl⟩

theorem filter_insertAt {q : NodeId → Bool} {l : List NodeId} {c : NodeId} {pos : Option Nat}
    (hp : PosOk l pos) : ((insertAt l c pos).filter q).length =
      (l.filter q).length + if q c then 1 else 0 := by
  obtain ⟨a, b, rfl, h2⟩ := insertAt_split (c := c) hp
  rw [h2]
  simp only [List.filter_append, List.length_append, List.filter_cons]
  cases q c <;> simp <;> omega

/-- Where the children of a node come from. -/
inductive ChildFrom (h h' : Heap) (p c : NodeId) : Label → Prop
  | old {l : Label} (hp : p < h.next) (hl : h.live p = true) (hc : c ∈ (h.get p).children) :
      ChildFrom h h' p c l
  | linked {pos : Option Nat} (hp : h.live p = true) (hc : h.live c = true)
      (hallow : isChildAllowed (h.get p).ntype (h.get c).ntype = true)
      (hsame : checkSameDocument h p c = .ok ()) : ChildFrom h h' p c (.link p c pos)
  | attrText {d : NodeId} {nm : Name} {v : Str} (hc : c = h.next) (hp : p = h.next + 1)
      (hgc : h'.get c = Node.newText d v) (hgp : h'.get p = Node.newAttr d nm [c]) :
      ChildFrom h h' p c (.allocAttr d nm v)
  | copied {m : NodeId} {cs : List NodeId} (hp : p = h.next) (hm : h.live m = true) (hc : c ∈ cs)
      (hlc : h.live c = true)
      (hcs : cs.map (typeOwner h) = (h.get m).children.map (typeOwner h))
      (hg : h'.get p = { h.get m with parent := none, children := cs }) :
      ChildFrom h h' p c (.clone m cs)

theorem Step.childFrom {l : Label} {h h' : Heap} (w : WF h) (hs : Step l h h') {p c : NodeId}
    (hp : h'.live p = true) (hc : c ∈ (h'.get p).children) : ChildFrom h h' p c l := by
  have w' := hs.wf w
  rcases hs.newNode (w'.fresh p hp) with hlt | hnew
  · have hl := hs.grow.2 p hlt hp
    have he := hs.children hlt
    rw [he] at hc
    cases hs with
    | @unlink _ q d _ _ =>
      simp only at hc
      split at hc
      · exact .old hlt hl (List.mem_of_mem_erase hc)
      · exact .old hlt hl hc
    | @link _ q d pos hpl hdl hne hallow _ hsame _ hpos =>
      simp only at hc
      split at hc
      · rename_i he; subst he
        rcases (mem_insertAt hpos).mp hc with rfl | hc
        · exact .linked hpl hdl hallow hsame
        · exact .old hlt hl hc
      · exact .old hlt hl hc
    | clear =>
      simp only at hc
      split at hc
      · cases hc
      · exact .old hlt hl hc
    | alloc => exact .old hlt hl hc
    | allocAttr => exact .old hlt hl hc
    | clone => exact .old hlt hl hc
    | dealloc => exact .old hlt hl hc
    | value => exact .old hlt hl hc
    | attrOwner => exact .old hlt hl hc
    | attrPut => exact .old hlt hl hc
    | nsPut => exact .old hlt hl hc
    | attrDel => exact .old hlt hl hc
    | orphan => exact .old hlt hl hc
    | idPut => exact .old hlt hl hc
    | decl => exact .old hlt hl hc
  · cases hnew with
    | fresh hx hn hg => rw [hg, hx.children] at hc; cases hc
    | attrText hd hn hg => rw [hg] at hc; cases hc
    | attr hd hnm hn hg ht =>
      rw [hg] at hc
      simp only [Node.newAttr, List.mem_singleton] at hc
      subst hc
      exact .attrText rfl hn ht hg
    | copy hm hlive hcs hn hg =>
      rw [hg] at hc
      rcases hcs with rfl | hcs
      · cases hc
      · exact .copied hn hm hc (hlive c hc) hcs hg

/-- The invariant is preserved by every step. -/
theorem Step.inv {l : Label} {h h' : Heap} (hs : Step l h h') (i : Inv h) : Inv h' := by
  have w' := hs.wf i.wf
  have id : ∀ {n}, n < h.next → _ := fun {n} hn => hs.ident i.wf i.ownerNone (n := n) hn
  have lt : ∀ {n}, h.live n = true → n < h.next := fun {n} hn => i.wf.fresh n hn
  have cf : ∀ {p c}, h'.live p = true → c ∈ (h'.get p).children → ChildFrom h h' p c l :=
    fun hp hc => hs.childFrom i.wf hp hc
  refine ⟨w', ?_, ?_, ?_, ?_, ?_, ?_, ?_, ?_, ?_, ?_⟩
  · -- ownerNone
    intro n hn ho
    rcases hs.newNode hn with hlt | hnew
    · rw [(id hlt).2.2] at ho
      rw [(id hlt).1]
      exact i.ownerNone n hlt ho
    · cases hnew with
      | fresh hx hn hg =>
        rw [hg] at ho ⊢
        rcases hx.owner with ⟨d, h1, _⟩ | ⟨_, h1⟩
        · rw [ho] at h1; cases h1
        · exact h1
      | attrText hd hn hg => rw [hg] at ho; cases ho
      | attr hd hnm hn hg ht => rw [hg] at ho; cases ho
      | copy hm hlive hcs hn hg =>
        rw [hg] at ho ⊢
        exact i.ownerNone _ (lt hm) ho
  · -- docOwner
    intro n hn ht
    rcases hs.newNode hn with hlt | hnew
    · rw [(id hlt).1] at ht
      rw [(id hlt).2.2]
      exact i.docOwner n hlt ht
    · cases hnew with
      | fresh hx hn hg =>
        rw [hg] at ht ⊢
        rcases hx.owner with ⟨d, _, _, h1⟩ | ⟨h1, _⟩
        · exact absurd ht h1
        · exact h1
      | attrText hd hn hg => rw [hg] at ht; cases ht
      | attr hd hnm hn hg h2 => rw [hg] at ht; cases ht
      | copy hm hlive hcs hn hg =>
        rw [hg] at ht ⊢
        exact i.docOwner _ (lt hm) ht
  · -- names
    intro n hn
    rcases hs.newNode hn with hlt | hnew
    · rw [(id hlt).1, (id hlt).2.1]
      exact i.names n hlt
    · cases hnew with
      | fresh hx hn hg => rw [hg]; exact hx.name
      | attrText hd hn hg => rw [hg]; rfl
      | attr hd hnm hn hg ht => rw [hg]; exact hnm
      | copy hm hlive hcs hn hg => rw [hg]; exact i.names _ (lt hm)
  · -- exts
    intro n hn
    rcases hs.newNode hn with hlt | hnew
    · rw [(id hlt).1]
      have h0 := i.exts n hlt
      have hx := hs.ext hlt
      generalize (h'.get n).ext = x at hx
      cases hx with
      | keep => exact h0
      | attrOwner ha _ _ =>
        rw [ha] at h0
        unfold ExtFor at h0 ⊢
        split at h0 <;> simp_all
      | attrPut hext _ _ _ =>
        rw [hext] at h0
        unfold ExtFor at h0 ⊢
        split at h0 <;> simp_all
      | nsPut hext =>
        rw [hext] at h0
        unfold ExtFor at h0 ⊢
        split at h0 <;> simp_all
      | attrDel hext =>
        rw [hext] at h0
        unfold ExtFor at h0 ⊢
        split at h0 <;> simp_all
      | idPut hext _ _ _ _ =>
        rw [hext] at h0
        unfold ExtFor at h0 ⊢
        split at h0 <;> simp_all
      | decl hext =>
        rw [hext] at h0
        unfold ExtFor at h0 ⊢
        split at h0 <;> simp_all
    · cases hnew with
      | fresh hx hn hg => rw [hg]; exact hx.ext.extFor
      | attrText hd hn hg => rw [hg]; rfl
      | attr hd hnm hn hg ht => rw [hg]; exact ⟨_, rfl⟩
      | copy hm hlive hcs hn hg => rw [hg]; exact i.exts _ (lt hm)
  · -- allowed
    intro p hp c hc
    have hclt := fun (hp : h.live p = true) (hc : c ∈ (h.get p).children) => lt (i.wf.child hp hc)
    cases cf hp hc with
    | old hlt hl hc => rw [(id hlt).1, (id (hclt hl hc)).1]; exact i.allowed p hl c hc
    | linked hpl hcl hallow _ => rw [(id (lt hpl)).1, (id (lt hcl)).1]; exact hallow
    | attrText _ _ hgc hgp => rw [hgc, hgp]; rfl
    | @copied m cs _ hm hc hlc hcs hg =>
      rw [hg, (id (lt hlc)).1]
      have : typeOwner h c ∈ (h.get m).children.map (typeOwner h) := by
        rw [← hcs]; exact List.mem_map_of_mem hc
      obtain ⟨c0, h0, h1⟩ := List.mem_map.mp this
      have := i.allowed m hm c0 h0
      rw [show (h.get c0).ntype = (h.get c).ntype from congrArg Prod.fst h1] at this
      exact this
  · -- sameOwner
    intro p hp ht c hc
    cases cf hp hc with
    | old hlt hl hc =>
      rw [(id hlt).1] at ht
      rw [(id hlt).2.2, (id (lt (i.wf.child hl hc))).2.2]; exact i.sameOwner p hl ht c hc
    | linked hpl hcl hallow hsame =>
      rw [(id (lt hpl)).1] at ht
      rw [(id (lt hpl)).2.2, (id (lt hcl)).2.2, ← link_owner i.ownerNone (lt hcl) hallow hsame]
      unfold ownerFor; rw [if_neg ht]
    | attrText _ _ hgc hgp => rw [hgc, hgp]; rfl
    | @copied m cs _ hm hc hlc hcs hg =>
      rw [hg] at ht ⊢
      rw [(id (lt hlc)).2.2]
      have : typeOwner h c ∈ (h.get m).children.map (typeOwner h) := by
        rw [← hcs]; exact List.mem_map_of_mem hc
      obtain ⟨c0, h0, h1⟩ := List.mem_map.mp this
      have := i.sameOwner m hm ht c0 h0
      rw [show (h.get c0).owner = (h.get c).owner from congrArg Prod.snd h1] at this
      exact this
  · -- oneElement
    intro p hp ht
    have same : ∀ l : List NodeId, (∀ c ∈ l, h.live c = true) →
        (l.filter fun c => decide ((h'.get c).ntype = .element)) =
          l.filter fun c => decide ((h.get c).ntype = .element) := by
      intro l hl
      apply List.filter_congr
      intro c hc
      rw [(id (lt (hl c hc))).1]
    rcases hs.newNode (w'.fresh p hp) with hlt | hnew
    · have hl := hs.grow.2 p hlt hp
      rw [(id hlt).1] at ht
      have h0 := i.oneElement p hl ht
      have hch : ∀ c ∈ (h.get p).children, h.live c = true := fun c hc => i.wf.child hl hc
      have he := hs.children hlt
      have keep : (h'.get p).children = (h.get p).children →
          ((h'.get p).children.filter fun c => decide ((h'.get c).ntype = .element)).length ≤ 1 := by
        intro he; rw [he, same _ hch]; exact h0
      cases l with
      | unlink q d =>
        simp only at he
        by_cases hq : p = q
        · rw [if_pos hq] at he
          rw [he, same _ (fun c hc => hch c (List.mem_of_mem_erase hc))]
          exact Nat.le_trans ((List.erase_sublist.filter _).length_le) h0
        · rw [if_neg hq] at he; exact keep he
      | link q d pos =>
        simp only at he
        by_cases hq : p = q
        · rw [if_pos hq] at he
          subst hq
          cases hs with
          | link hpl hdl hne hallow hdoc hsame _ hpos =>
            rw [he, same _ (fun c hc => by
              rcases (mem_insertAt hpos).mp hc with rfl | hc
              · exact hdl
              · exact hch c hc), filter_insertAt hpos]
            by_cases hel : (h.get d).ntype = .element
            · have : ((h.get p).children.filter fun c => decide ((h.get c).ntype = .element)) =
                  [] := by
                rw [List.filter_eq_nil_iff]
                intro x hx
                simpa using hdoc ht hel x hx
              rw [this]; simp [hel]
            · simpa [hel] using h0
        · rw [if_neg hq] at he; exact keep he
      | clear a =>
        simp only at he
        by_cases hq : p = a
        · rw [if_pos hq] at he
          rw [he]; simp
        · rw [if_neg hq] at he; exact keep he
      | alloc _ => exact keep he
      | allocAttr _ _ _ => exact keep he
      | clone _ _ => exact keep he
      | dealloc _ => exact keep he
      | value _ _ => exact keep he
      | attrOwner _ _ => exact keep he
      | attrPut _ _ => exact keep he
      | nsPut _ _ _ => exact keep he
      | attrDel _ _ => exact keep he
      | orphan _ => exact keep he
      | idPut _ _ _ => exact keep he
      | decl _ _ => exact keep he
    · cases hnew with
      | fresh hx hn hg => rw [hg, hx.children]; simp
      | attrText hd hn hg => rw [hg] at ht; cases ht
      | attr hd hnm hn hg h2 => rw [hg] at ht; cases ht
      | @copy m cs hm hlive hcs hn hg =>
        rw [hg] at ht ⊢
        simp only at ht ⊢
        rw [same cs hlive]
        rcases hcs with rfl | hcs
        · simp
        · have h0 := i.oneElement m hm ht
          have e : ∀ l : List NodeId,
              (l.filter fun c => decide ((h.get c).ntype = .element)).length =
              ((l.map (typeOwner h)).filter fun t => decide (t.1 = .element)).length := by
            intro l; rw [List.filter_map, List.length_map]; rfl
          rw [e, hcs, ← e]; exact h0
  · -- attrKeys
    intro p attrs nss hp hx
    have old : ∀ attrs : List (Name × NodeId), (∀ k a, (k, a) ∈ attrs → h.live a = true ∧
        (h.get a).ntype = .attribute ∧ (h.get a).name = k) →
        ∀ k a, (k, a) ∈ attrs → (h'.get a).ntype = .attribute ∧ (h'.get a).name = k := by
      intro attrs ha k a hm
      obtain ⟨h1, h2, h3⟩ := ha k a hm
      rw [(id (lt h1)).1, (id (lt h1)).2.1]; exact ⟨h2, h3⟩
    have get : ∀ q attrs nss, h.live q = true → (h.get q).ext = .element attrs nss →
        KeysNodup attrs ∧ KeysNodup nss ∧ (∀ k a, (k, a) ∈ attrs → h.live a = true ∧
          (h.get a).ntype = .attribute ∧ (h.get a).name = k) := by
      intro q attrs nss hq hx
      obtain ⟨h1, h2, h3⟩ := i.attrKeys q attrs nss hq hx
      refine ⟨h1, h2, fun k a hm => ⟨?_, h3 k a hm⟩⟩
      exact i.wf.strong q hq a (mem_strongRefs.mpr (Or.inr (Or.inl ⟨attrs, nss, k, hx, hm⟩)))
    rcases hs.newNode (w'.fresh p hp) with hlt | hnew
    · have hl := hs.grow.2 p hlt hp
      have hc := hs.ext hlt
      rw [hx] at hc
      generalize hy : Ext.element attrs nss = y at hc
      cases hc with
      | keep =>
        obtain ⟨h1, h2, h3⟩ := get p attrs nss hl hy.symm
        exact ⟨h1, h2, old _ h3⟩
      | attrOwner => cases hy
      | @attrPut a attrs0 nss0 hext hat ha hown =>
        cases hy
        obtain ⟨h1, h2, h3⟩ := get p attrs0 nss hl hext
        refine ⟨keysNodup_mapInsert h1, h2, old _ ?_⟩
        intro k b hm
        rcases mem_mapInsert.mp hm with he | ⟨hm, _⟩
        · rw [Prod.mk.injEq] at he
          rw [he.1, he.2]; exact ⟨ha, hat, rfl⟩
        · exact h3 k b hm
      | @nsPut q u attrs0 nss0 hext =>
        cases hy
        obtain ⟨h1, h2, h3⟩ := get p attrs nss0 hl hext
        exact ⟨h1, keysNodup_mapInsert h2, old _ h3⟩
      | @attrDel k0 attrs0 nss0 hext =>
        cases hy
        obtain ⟨h1, h2, h3⟩ := get p attrs0 nss hl hext
        exact ⟨keysNodup_mapRemove h1, h2, old _ fun k a hm => h3 k a (mem_mapRemove.mp hm).1⟩
      | idPut => cases hy
      | decl => cases hy
    · cases hnew with
      | fresh hxf hn hg =>
        have he := hxf.ext
        rw [hg] at hx
        rw [hx] at he
        unfold FreshExt at he
        split at he <;> simp at he
        rw [he.1, he.2]
        exact ⟨keysNodup_nil, keysNodup_nil, by simp⟩
      | attrText hd hn hg => rw [hg] at hx; cases hx
      | attr hd hnm hn hg h2 => rw [hg] at hx; cases hx
      | copy hm hlive hcs hn hg =>
        rw [hg] at hx
        obtain ⟨h1, h2, h3⟩ := get _ attrs nss hm hx
        exact ⟨h1, h2, old _ h3⟩
  · -- ids
    intro d x hd hx
    have old : ∀ m : List (Str × NodeId), (∀ id e, (id, e) ∈ m → e < h.next ∧
        (h.get e).ntype = .element) → ∀ id e, (id, e) ∈ m → (h'.get e).ntype = .element := by
      intro m hm k e he
      obtain ⟨h1, h2⟩ := hm k e he
      rw [(id h1).1]; exact h2
    have get : ∀ q x, h.live q = true → (h.get q).ext = .document x →
        KeysNodup x.idMap ∧ ∀ id e, (id, e) ∈ x.idMap → e < h.next ∧ (h.get e).ntype = .element := by
      intro q x hq hx
      obtain ⟨h1, h2⟩ := i.ids q x hq hx
      refine ⟨h1, fun k e hm => ⟨?_, h2 k e hm⟩⟩
      exact i.wf.weak q hq e (mem_weakRefs.mpr (Or.inr (Or.inr (Or.inr ⟨x, k, hx, hm⟩))))
    rcases hs.newNode (w'.fresh d hd) with hlt | hnew
    · have hl := hs.grow.2 d hlt hd
      have hc := hs.ext hlt
      rw [hx] at hc
      generalize hy : Ext.document x = y at hc
      cases hc with
      | keep =>
        obtain ⟨h1, h2⟩ := get d x hl hy.symm
        exact ⟨h1, old _ h2⟩
      | attrOwner => cases hy
      | attrPut => cases hy
      | nsPut => cases hy
      | attrDel => cases hy
      | @idPut k e x0 hext hnew he het how =>
        cases hy
        obtain ⟨h1, h2⟩ := get d x0 hl hext
        refine ⟨keysNodup_mapInsert h1, old _ ?_⟩
        intro k' e' hm
        rcases mem_mapInsert.mp hm with hm | ⟨hm, _⟩
        · rw [Prod.mk.injEq] at hm
          rw [hm.2]; exact ⟨lt he, het⟩
        · exact h2 k' e' hm
      | @decl v x0 hext =>
        cases hy
        obtain ⟨h1, h2⟩ := get d x0 hl hext
        exact ⟨h1, old _ h2⟩
    · cases hnew with
      | fresh hxf hn hg =>
        have he := hxf.ext
        rw [hg] at hx
        rw [hx] at he
        unfold FreshExt at he
        split at he <;> simp at he
        obtain ⟨dt, ⟨o, h1⟩, _⟩ := he
        rw [h1]
        exact ⟨keysNodup_nil, by simp⟩
      | attrText hd hn hg => rw [hg] at hx; cases hx
      | attr hd hnm hn hg h2 => rw [hg] at hx; cases hx
      | copy hm hlive hcs hn hg =>
        rw [hg] at hx
        obtain ⟨h1, h2⟩ := get _ x hm hx
        exact ⟨h1, old _ h2⟩
  · -- docTypes
    intro d x t hd hx ht
    exact w'.strong d hd t (mem_strongRefs.mpr (Or.inr (Or.inr (Or.inl ⟨x, hx, ht⟩))))

theorem Steps.invariant {P : Heap → Label → Prop} {h h' : Heap} (a : Steps P h h') (i : Inv h) :
    Inv h' := Steps.inv Inv (fun _ _ _ h1 _ h3 => h3.inv h1) a i

theorem Reachable.invariant {h : Heap} (hr : Reachable h) : Inv h :=
  hr.inv Inv.empty fun _ op _ he i => (exec_steps he op i.wf).invariant i

/-- No node is among its own children. -/
theorem Reachable.notOwnChild {h : Heap} (hr : Reachable h) :
    ∀ n, h.live n = true → n ∉ (h.get n).children := by
  refine hr.stepInv (I := fun h => ∀ n, h.live n = true → n ∉ (h.get n).children) ?_ ?_
  · intro n hn; cases hn
  · intro _ h l h' w hI _ hs n hn hc
    have hf := hs.childFrom w hn hc
    cases hf with
    | old hp hl hc => exact hI n hl hc
    | linked hp hc => cases hs with | link _ _ hne => exact hne rfl
    | attrText hc hp => exact Nat.ne_of_lt (Nat.lt_succ_self _) (hc.symm.trans hp)
    | copied hp _ _ hlc => exact Nat.lt_irrefl _ (hp ▸ w.fresh n hlc)

/-! ## What a whole history keeps -/

/-- Type, name and owner of the nodes are the same, and nothing comes back to life. -/
structure Keeps (h h' : Heap) : Prop where
  next : h.next ≤ h'.next
  ntype : ∀ n, n < h.next → (h'.get n).ntype = (h.get n).ntype
  name : ∀ n, n < h.next → (h'.get n).name = (h.get n).name
  owner : ∀ n, n < h.next → (h'.get n).owner = (h.get n).owner
  live : ∀ n, n < h.next → h'.live n = true → h.live n = true
  ids : ∀ d x, d < h.next → (h.get d).ext = .document x → ∃ y, (h'.get d).ext = .document y ∧
    y.docType = x.docType ∧ y.options = x.options ∧
      ∀ id e, mapGet id x.idMap = some e → mapGet id y.idMap = some e

theorem Keeps.refl (h : Heap) : Keeps h h :=
  ⟨Nat.le_refl _, fun _ _ => rfl, fun _ _ => rfl, fun _ _ => rfl, fun _ _ => id,
    fun _ x _ hx => ⟨x, hx, rfl, rfl, fun _ _ => id⟩⟩

theorem Keeps.trans {a b c : Heap} (x : Keeps a b) (y : Keeps b c) : Keeps a c := by
  have l : ∀ {n}, n < a.next → n < b.next := fun hn => Nat.lt_of_lt_of_le hn x.next
  refine ⟨Nat.le_trans x.next y.next, ?_, ?_, ?_, ?_, ?_⟩
  · intro n hn; rw [y.ntype n (l hn), x.ntype n hn]
  · intro n hn; rw [y.name n (l hn), x.name n hn]
  · intro n hn; rw [y.owner n (l hn), x.owner n hn]
  · intro n hn hl; exact x.live n hn (y.live n (l hn) hl)
  · intro d u hd hu
    obtain ⟨v, h1, h2, h3, h4⟩ := x.ids d u hd hu
    obtain ⟨w, k1, k2, k3, k4⟩ := y.ids d v (l hd) h1
    exact ⟨w, k1, k2.trans h2, k3.trans h3, fun id e he => k4 id e (h4 id e he)⟩

theorem Step.keeps {l : Label} {h h' : Heap} (hs : Step l h h') (i : Inv h) : Keeps h h' := by
  refine ⟨hs.grow.1, fun n hn => (hs.ident i.wf i.ownerNone hn).1,
    fun n hn => (hs.ident i.wf i.ownerNone hn).2.1, fun n hn => (hs.ident i.wf i.ownerNone hn).2.2,
    hs.grow.2, ?_⟩
  intro d x hd hx
  have hc := hs.ext hd
  generalize (h'.get d).ext = y at hc
  cases hc with
  | keep => exact ⟨x, hx, rfl, rfl, fun _ _ => id⟩
  | attrOwner ha _ _ => rw [hx] at ha; cases ha
  | attrPut ha _ _ _ => rw [hx] at ha; cases ha
  | nsPut ha => rw [hx] at ha; cases ha
  | attrDel ha => rw [hx] at ha; cases ha
  | @idPut id e x0 ha hnew _ _ _ =>
    rw [hx] at ha; cases ha
    refine ⟨_, rfl, rfl, rfl, ?_⟩
    intro k v hk
    rw [mapGet_mapInsert]
    split
    · rename_i he; subst he; rw [hnew] at hk; cases hk
    · exact hk
  | decl ha => rw [hx] at ha; cases ha; exact ⟨_, rfl, rfl, rfl, fun _ _ => id⟩

theorem Steps.keeps {P : Heap → Label → Prop} {h h' : Heap} (a : Steps P h h') (i : Inv h) :
    Keeps h h' := by
  induction a with
  | refl => exact .refl _
  | step _ hs _ ih => exact (hs.keeps i).trans (ih (hs.inv i))

theorem run_inv : ∀ (ops : List (Env × Op)) (h : Heap), (∀ x ∈ ops, x.1.Ok) → Inv h →
    Inv (run ops h) ∧ Keeps h (run ops h) := by
  intro ops
  induction ops with
  | nil => intro h _ i; exact ⟨i, .refl _⟩
  | cons x ops ih =>
    intro h hok i
    have hs := exec_steps (hok x List.mem_cons_self) x.2 i.wf
    have := ih (exec x.1 x.2 h) (fun y hy => hok y (List.mem_cons_of_mem _ hy)) (hs.invariant i)
    exact ⟨this.1, (hs.keeps i).trans this.2⟩

theorem Reachable.run {h : Heap} (hr : Reachable h) {ops : List (Env × Op)}
    (hok : ∀ x ∈ ops, x.1.Ok) : Reachable (XmlDom.run ops h) := by
  obtain ⟨ops0, hok0, rfl⟩ := hr
  refine ⟨ops0 ++ ops, ?_, ?_⟩
  · intro x hx
    rcases List.mem_append.mp hx with hx | hx
    · exact hok0 x hx
    · exact hok x hx
  · have : ∀ (a b : List (Env × Op)) (h : Heap), XmlDom.run (a ++ b) h = XmlDom.run b (XmlDom.run a h) := by
      intro a
      induction a with
      | nil => intro b h; rfl
      | cons x a ih => intro b h; exact ih b _
    exact (this _ _ _).symm

end XmlDom
