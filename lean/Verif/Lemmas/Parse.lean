import Verif.Props.Attr
import Verif.Props.Simple
import Verif.Spec.Parse

/-!
# The reader, event by event
-/

namespace XmlDom
open Spec Props

/-- Where the reader is: in the document `d`, adding children to `p`. -/
structure Ctx (h : Heap) (d p : NodeId) : Prop where
  dlt : d < h.next
  dlive : h.live d = true
  dtype : (h.get d).ntype = .document
  dext : ∃ x, (h.get d).ext = .document x ∧ x.options.hasAssumeIds = false
  plt : p < h.next
  plive : h.live p = true
  where_ : p = d ∨ (p ≠ d ∧ (h.get p).ntype = .element ∧ (h.get p).owner = some d ∧
    ∃ attrs nss, (h.get p).ext = .element attrs nss)

/-- What happens to the heap while children are added to `p`: nothing to the other nodes,
except for the ids recorded in `d`. -/
structure Grow (h h' : Heap) (d p : NodeId) : Prop where
  next : h.next ≤ h'.next
  live : ∀ m, m < h.next → h'.live m = h.live m
  others : ∀ m, m < h.next → m ≠ p → m ≠ d → h'.get m = h.get m
  par : p ≠ d → h'.get p = { h.get p with children := (h'.get p).children }
  doc : ∃ x ids, (h.get d).ext = .document x ∧
    h'.get d = { h.get d with children := (h'.get d).children, ext := .document { x with idMap := ids } }
  docKids : p ≠ d → (h'.get d).children = (h.get d).children

/-- The ids recorded in the document. -/
def idsOf (h : Heap) (d : NodeId) : List Str :=
  match (h.get d).ext with
  | .document x => x.idMap.map (·.1)
  | _ => []

theorem Grow.refl {h : Heap} {d p : NodeId} (c : Ctx h d p) : Grow h h d p := by
  obtain ⟨x, hx, _⟩ := c.dext
  refine ⟨Nat.le_refl _, fun _ _ => rfl, fun _ _ _ _ => rfl, fun _ => rfl, ⟨x, x.idMap, hx, ?_⟩,
    fun _ => rfl⟩
  rw [← hx]

theorem Grow.trans {a b c : Heap} {d p : NodeId} (x : Grow a b d p) (y : Grow b c d p) :
    Grow a c d p := by
  have hl : ∀ m, m < a.next → m < b.next := fun m hm => Nat.lt_of_lt_of_le hm x.next
  refine ⟨Nat.le_trans x.next y.next, fun m hm => (y.live m (hl m hm)).trans (x.live m hm),
    fun m hm h1 h2 => (y.others m (hl m hm) h1 h2).trans (x.others m hm h1 h2), ?_, ?_, ?_⟩
  · intro hne
    have h1 := x.par hne
    have h2 := y.par hne
    rw [h1] at h2
    exact h2
  · obtain ⟨v, i, h1, h2⟩ := x.doc
    obtain ⟨w, j, h3, h4⟩ := y.doc
    refine ⟨v, j, h1, ?_⟩
    rw [h2] at h3
    simp only at h3
    cases h3
    rw [h2] at h4
    exact h4
  · intro hne; rw [y.docKids hne, x.docKids hne]

/-- Adding below a node that was not there before. -/
theorem Grow.below {a b c : Heap} {d p q : NodeId} (x : Grow a b d p) (y : Grow b c d q)
    (hd : d < a.next) (hp : p < a.next) (hq : a.next ≤ q) :
    Grow a c d p ∧ (c.get p).children = (b.get p).children := by
  have hl : ∀ m, m < a.next → m < b.next := fun m hm => Nat.lt_of_lt_of_le hm x.next
  have hne : ∀ m, m < a.next → m ≠ q := fun m hm => Nat.ne_of_lt (Nat.lt_of_lt_of_le hm hq)
  have hdq : q ≠ d := (hne d hd).symm
  have hk : (c.get p).children = (b.get p).children := by
    by_cases hpd : p = d
    · subst hpd; exact y.docKids hdq
    · rw [y.others p (hl p hp) (hne p hp) hpd]
  refine ⟨⟨Nat.le_trans x.next y.next, fun m hm => (y.live m (hl m hm)).trans (x.live m hm),
    fun m hm h1 h2 => (y.others m (hl m hm) (hne m hm) h2).trans (x.others m hm h1 h2), ?_, ?_, ?_⟩, hk⟩
  · intro hpd
    rw [y.others p (hl p hp) (hne p hp) hpd]
    exact x.par hpd
  · obtain ⟨v, i, h1, h2⟩ := x.doc
    obtain ⟨w, j, h3, h4⟩ := y.doc
    refine ⟨v, j, h1, ?_⟩
    rw [h2] at h3
    simp only at h3
    cases h3
    rw [h2] at h4
    exact h4
  · intro hpd; rw [y.docKids hdq, x.docKids hpd]

theorem Ctx.grow {h h' : Heap} {d p q : NodeId} (c : Ctx h d p) (g : Grow h h' d q) :
    Ctx h' d p := by
  obtain ⟨x, hx, ho⟩ := c.dext
  obtain ⟨y, i, hy, hd⟩ := g.doc
  rw [hx] at hy
  cases hy
  refine ⟨Nat.lt_of_lt_of_le c.dlt g.next, (g.live d c.dlt).trans c.dlive, by rw [hd]; exact c.dtype,
    ⟨{ x with idMap := i }, by rw [hd], ho⟩, Nat.lt_of_lt_of_le c.plt g.next, (g.live p c.plt).trans c.plive, ?_⟩
  rcases c.where_ with h1 | ⟨h1, h2, h3, h4⟩
  · exact Or.inl h1
  · refine Or.inr ⟨h1, ?_⟩
    by_cases hq : p = q
    · subst hq
      have := g.par h1
      rw [this]
      exact ⟨h2, h3, h4⟩
    · rw [g.others p c.plt hq h1]
      exact ⟨h2, h3, h4⟩

/-! ## A new child -/

/-- The heap after appending a new node `x` to `p`. -/
structure Added (h h' : Heap) (p : NodeId) (x : Node) : Prop where
  next : h'.next = h.next + 1
  live : ∀ m, h'.live m = if m = h.next then true else h.live m
  node : h'.get h.next = { x with parent := some p }
  par : h'.get p = { h.get p with children := (h.get p).children ++ [h.next] }
  others : ∀ m, m < h.next → m ≠ p → h'.get m = h.get m

theorem append_new {h : Heap} {d p : NodeId} (c : Ctx h d p) {x : Node} (hp : x.parent = none)
    (ho : x.owner = some d)
    (ha : isChildAllowed (h.get p).ntype x.ntype = true)
    (hr : p = d → x.ntype = .element → ∀ m ∈ (h.get d).children,
      ((h.alloc x).2.get m).ntype ≠ .element) :
    ∃ h', appendChild (h.alloc x).2 p h.next = (.ok h.next, h') ∧ Added h h' p x := by
  have hpn : p ≠ h.next := Nat.ne_of_lt c.plt
  have gp : (h.alloc x).2.get p = h.get p := by simp [hpn]
  have gn : (h.alloc x).2.get h.next = x := by simp
  have own : ownerFor (h.alloc x).2 p = some d := by
    unfold ownerFor
    rw [gp]
    rcases c.where_ with h1 | ⟨_, h2, h3, _⟩
    · subst h1; rw [if_pos c.dtype]
    · rw [if_neg (by rw [h2]; decide), h3]
  have hl : (h.alloc x).2.live d = true := by simp [Nat.ne_of_lt c.dlt, c.dlive]
  have chk : checkSameDocument (h.alloc x).2 p h.next = .ok () := by
    unfold checkSameDocument
    rw [gp, gn, ho]
    rcases c.where_ with h1 | ⟨_, h2, h3, _⟩
    · subst h1; rw [if_pos c.dtype]; simp only [hl, if_true]
    · rw [if_neg (by rw [h2]; decide), h3]; simp only [hl, if_true]
  have hpar : parentNode (h.alloc x).2 h.next = none := by
    unfold parentNode
    rw [gn, hp]
    split <;> rfl
  refine ⟨(h.alloc x).2.link p h.next none, ?_, ?_⟩
  · unfold appendChild
    rw [insertBefore_eq, gp, gn, if_neg (by rw [ha]; simp), if_neg, chk, hpar]
    · simp only [insertPosition]
      rw [if_neg hpn]
    · rintro ⟨h1, h2, h3⟩
      have hpd : p = d := by
        rcases c.where_ with h4 | ⟨_, h4, _⟩
        · exact h4
        · rw [h1] at h4; cases h4
      subst hpd
      obtain ⟨m, hm, ht⟩ := List.any_eq_true.mp h3
      exact hr rfl h2 m hm (of_decide_eq_true ht)
  · have gl := get_link (h.alloc x).2 none hpn
    refine ⟨rfl, fun m => rfl, ?_, ?_, ?_⟩
    · rw [gl, gn]
      simp [hpn.symm, own, ho]
    · rw [gl, gp]
      simp [hpn, insertAt]
    · intro m hm hmp
      have : m ≠ h.next := Nat.ne_of_lt hm
      rw [gl]
      simp [this, hmp]

theorem Added.grow {h h' : Heap} {d p : NodeId} {x : Node} (a : Added h h' p x) (c : Ctx h d p) :
    Grow h h' d p ∧ idsOf h' d = idsOf h d := by
  obtain ⟨y, hy, _⟩ := c.dext
  have hd : h'.get d = { h.get d with children := (h'.get d).children } := by
    by_cases hpd : d = p
    · subst hpd; rw [a.par]
    · rw [a.others d c.dlt hpd]
  refine ⟨⟨by rw [a.next]; exact Nat.le_succ _, ?_, fun m hm h1 _ => a.others m hm h1, ?_,
    ⟨y, y.idMap, hy, by rw [← hy]; exact hd⟩, ?_⟩, ?_⟩
  · intro m hm
    rw [a.live, if_neg (Nat.ne_of_lt hm)]
  · intro _; rw [a.par]
  · intro hpd; rw [a.others d c.dlt hpd.symm]
  · unfold idsOf; rw [hd]

theorem Added.ctx {h h' : Heap} {d p : NodeId} {x : Node} (a : Added h h' p x) (c : Ctx h d p)
    (ht : x.ntype = .element) (ho : x.owner = some d) (hx : ∃ at_ ns, x.ext = .element at_ ns) :
    Ctx h' d h.next := by
  have c' := c.grow (a.grow c).1
  refine ⟨c'.dlt, c'.dlive, c'.dtype, c'.dext, by rw [a.next]; exact Nat.lt_succ_self _,
    by rw [a.live]; simp, Or.inr ⟨(Nat.ne_of_lt c.dlt).symm, ?_⟩⟩
  rw [a.node]
  exact ⟨ht, ho, hx⟩

/-! ## One attribute -/

/-- A new attribute with the text child `t`. -/
def attrNode (d : NodeId) (nm : Name) (t : NodeId) (w : Option NodeId) : Node :=
  { ntype := .attribute, name := nm, value := none, parent := none, owner := some d,
    children := [t], ext := .attribute w }

/-- The heap after a new attribute with the value `v` was put on `el`. -/
structure AttrAdded (h h' : Heap) (d el : NodeId) (nm : Name) (v : Str) : Prop where
  next : h'.next = h.next + 2
  live : ∀ m, h'.live m = if m = h.next + 1 then true else if m = h.next then true else h.live m
  text : h'.get h.next = Node.newText d v
  attr : h'.get (h.next + 1) = attrNode d nm h.next (some el)
  elem : ∃ attrs nss, (h.get el).ext = .element attrs nss ∧
    h'.get el = { h.get el with ext := .element (mapInsert nm (h.next + 1) attrs) nss }
  others : ∀ m, m < h.next → m ≠ el → h'.get m = h.get m

theorem attr_new {e : Env} {h : Heap} {d el : NodeId} (c : Ctx h d el) (hne : el ≠ d) {k v : Str}
    {nm : Name} (hk : Name.fromStr k = .ok nm) :
    ∃ h1 h3, createAttributeWith h d k v = (.ok (h.next + 1), h1) ∧ AttrAdded h h3 d el nm v ∧
      setAttributeNode e h1 el (h.next + 1) = recordId e.uni h3 el (h.next + 1) nm := by
  rcases c.where_ with h1 | ⟨_, te, oe, attrs, nss, xe⟩
  · exact absurd h1 hne
  have e1 : el ≠ h.next := Nat.ne_of_lt c.plt
  have e2 : el ≠ h.next + 1 := Nat.ne_of_lt (Nat.lt_succ_of_lt c.plt)
  have d1 : d ≠ h.next := Nat.ne_of_lt c.dlt
  have d2 : d ≠ h.next + 1 := Nat.ne_of_lt (Nat.lt_succ_of_lt c.dlt)
  have n1 : h.next ≠ h.next + 1 := Nat.ne_of_lt (Nat.lt_succ_self _)
  have hc : createAttributeWith h d k v = (.ok (h.next + 1), (h.newAttribute d nm (some v)).2) := by
    unfold createAttributeWith createAttr
    rw [hk]
    rfl
  refine ⟨_, ((h.newAttribute d nm (some v)).2.set (h.next + 1) (attrNode d nm h.next (some el))).set el
      { h.get el with ext := .element (mapInsert nm (h.next + 1) attrs) nss }, hc, ?_, ?_⟩
  · refine ⟨rfl, fun m => ?_, ?_, ?_, ⟨attrs, nss, xe, ?_⟩, ?_⟩
    · simp [Heap.newAttribute]
    · simp [Heap.newAttribute, e1.symm]
    · simp [e2.symm]
    · simp
    · intro m hm hme
      have : m ≠ h.next := Nat.ne_of_lt hm
      have h2 : m ≠ h.next + 1 := Nat.ne_of_lt (Nat.lt_succ_of_lt hm)
      simp [Heap.newAttribute, this, h2, hme]
  · have gel : (h.newAttribute d nm (some v)).2.get el = h.get el := by
      simp [Heap.newAttribute, e1, e2]
    have ga : (h.newAttribute d nm (some v)).2.get (h.next + 1) = attrNode d nm h.next none := by
      simp [Heap.newAttribute, attrNode]
    have ld : (h.newAttribute d nm (some v)).2.live d = true := by
      simp [Heap.newAttribute, c.dlive]
    generalize (h.newAttribute d nm (some v)).2 = h1 at *
    have chk : checkSameDocument h1 el (h.next + 1) = .ok () := by
      unfold checkSameDocument
      rw [gel, ga, te, oe]
      simp [attrNode, ld]
    unfold setAttributeNode
    rw [gel, ga, if_pos ⟨te, rfl⟩, chk]
    have hns : ∀ u hh, recordNamespace u hh el (h.next + 1) nm = (.ok (), hh) := by
      intro u hh
      unfold recordNamespace
      have : nm.isNamespaceAttribute = false := by
        unfold Name.isNamespaceAttribute
        have : nm.namespaceUri = none := by
          rcases fromStr_ok hk with ⟨rfl, _⟩ | ⟨p, l, _, rfl, _⟩ <;> rfl
        rw [this]
        simp
      rw [this]
      rfl
    simp only [attrNode, Heap.get_set, if_pos, hns]
    unfold storeAttribute
    simp only [Heap.get_set, if_neg e2, gel, xe, if_pos]

/-- What recording the id of a new attribute does. -/
theorem recordId_new {u : Uni} {h : Heap} {d el a : NodeId} (c : Ctx h d el) (hne : el ≠ d)
    {nm : Name} {k : Str} (hk : Name.fromStr k = .ok nm) (ho : (h.get a).owner = some d) :
    (k ≠ c! "xml:id" → recordId u h el a nm = (.ok a, h)) ∧
    (k = c! "xml:id" → ∀ id, attrValue u h a = .ok (some id) →
      (id ∈ idsOf h d → recordId u h el a nm = (.err .syntax, h)) ∧
      (id ∉ idsOf h d → ∃ x, (h.get d).ext = .document x ∧ recordId u h el a nm = (.ok a, h.set d
        { h.get d with ext := .document { x with idMap := mapInsert id el x.idMap } }))) := by
  obtain ⟨x, hx, hopt⟩ := c.dext
  have hown : ownerDocument h a = some d := Heap.upgrade_some.mpr ⟨ho, c.dlive⟩
  have key : nm.isIdAttribute false = true ↔ k = c! "xml:id" := by
    unfold Name.isIdAttribute
    simp only [Bool.false_eq_true, if_false, decide_eq_true_eq]
    rcases fromStr_ok hk with ⟨rfl, h1, _⟩ | ⟨p, l, rfl, rfl, h1, h2, _⟩
    · constructor
      · rintro ⟨_, h3 | h3⟩ <;> cases h3
      · rintro rfl
        exact absurd h1.2 (by decide)
    · simp only [reduceCtorEq, false_or, Option.some.injEq]
      constructor
      · rintro ⟨rfl, rfl⟩; rfl
      · intro h3
        have h4 : p ++ ':' :: l = Syn.xmlPrefix ++ ':' :: Syn.idAttr := h3
        obtain ⟨h5, h6⟩ := append_colon_inj h1.2 (by decide) h4
        exact ⟨h6, h5⟩
  unfold recordId
  rw [hown]
  simp only [if_neg hne.symm, hx, hopt]
  constructor
  · intro hkn
    rw [if_neg (by rw [key]; exact hkn)]
  · intro hkx id hid
    rw [if_pos (key.mpr hkx), hid]
    simp only
    constructor
    · intro hm
      rw [if_pos]
      unfold idsOf at hm
      rw [hx] at hm
      cases hg : mapGet id x.idMap with
      | some _ => rfl
      | none =>
        obtain ⟨y, hy, hy2⟩ := List.mem_map.mp hm
        exact absurd hy2 (mapGet_eq_none.mp hg y hy)
    · intro hm
      refine ⟨x, rfl, ?_⟩
      rw [if_neg]
      cases hg : mapGet id x.idMap with
      | none => simp
      | some w =>
        exfalso
        apply hm
        unfold idsOf
        rw [hx]
        exact List.mem_map.mpr ⟨_, mapGet_eq_some_mem hg, rfl⟩

end XmlDom
