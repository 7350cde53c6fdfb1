import Verif.Lemmas.Heap

/-!
# Normal forms of the tree editing calls

`unlink` and `link` are the two effects that the tree editing calls are made of; the
lemmas say which of them happen, and when.
-/

namespace XmlDom

/-- Take the first occurrence of `c` out of the child list of `p` and clear the parent
link of `c`. -/
def Heap.unlink (h : Heap) (p c : NodeId) : Heap :=
  let h1 := h.set p { h.get p with children := (h.get p).children.erase c }
  h1.set c { h1.get c with parent := none }

/-- Put `c` into a child list, at an index or at the end. -/
def insertAt (l : List NodeId) (c : NodeId) : Option Nat → List NodeId
  | none => l ++ [c]
  | some i => l.insertIdx i c

/-- The owner document that a child of `p` gets. -/
def ownerFor (h : Heap) (p : NodeId) : Option NodeId :=
  if (h.get p).ntype = .document then some p else (h.get p).owner

/-- Set the parent and owner links of `c` and put it into the child list of `p`. -/
def Heap.link (h : Heap) (p c : NodeId) (pos : Option Nat) : Heap :=
  let h1 := h.set c { h.get c with parent := some p, owner := ownerFor h p }
  h1.set p { h1.get p with children := insertAt (h1.get p).children c pos }

theorem removeChild_eq (h : Heap) (p c : NodeId) :
    removeChild h p c =
      if c ∈ (h.get p).children then (.ok c, h.unlink p c) else (.err .notFound, h) := by
  unfold removeChild
  cases hp : position c (h.get p).children with
  | none => simp [position_eq_none.mp hp]
  | some i =>
    have hm : c ∈ (h.get p).children := by
      obtain ⟨a, b, h1, _, _⟩ := position_eq_some.mp hp
      rw [h1]; simp
    simp only [hm, if_true]
    rw [eraseIdx_position hp]
    rfl

theorem get_unlink (h : Heap) (p c m : NodeId) :
    (h.unlink p c).get m =
      { h.get m with
        children := if m = p then (h.get m).children.erase c else (h.get m).children
        parent := if m = c then none else (h.get m).parent } := by
  unfold Heap.unlink
  by_cases h1 : m = p
  · by_cases h2 : m = c
    · subst h1; subst h2; simp
    · subst h1; simp [h2]
  · by_cases h2 : m = c
    · subst h2; simp [h1]
    · simp [h1, h2]

@[simp] theorem live_unlink (h : Heap) (p c : NodeId) : (h.unlink p c).live = h.live := rfl
@[simp] theorem next_unlink (h : Heap) (p c : NodeId) : (h.unlink p c).next = h.next := rfl
@[simp] theorem upgrade_unlink (h : Heap) (p c : NodeId) (w : Option NodeId) :
    (h.unlink p c).upgrade w = h.upgrade w := rfl

theorem get_link (h : Heap) {p c : NodeId} (pos : Option Nat) (hpc : p ≠ c) (m : NodeId) :
    (h.link p c pos).get m =
      { h.get m with
        children := if m = p then insertAt (h.get m).children c pos else (h.get m).children
        parent := if m = c then some p else (h.get m).parent
        owner := if m = c then ownerFor h p else (h.get m).owner } := by
  unfold Heap.link
  by_cases h1 : m = p
  · subst h1; simp [hpc]
  · by_cases h2 : m = c
    · subst h2; simp [h1]
    · simp [h1, h2]

@[simp] theorem live_link (h : Heap) (p c : NodeId) (i : Option Nat) :
    (h.link p c i).live = h.live := rfl
@[simp] theorem next_link (h : Heap) (p c : NodeId) (i : Option Nat) :
    (h.link p c i).next = h.next := rfl
@[simp] theorem upgrade_link (h : Heap) (p c : NodeId) (i : Option Nat) (w : Option NodeId) :
    (h.link p c i).upgrade w = h.upgrade w := rfl

theorem ownerFor_unlink (h : Heap) (p c q : NodeId) : ownerFor (h.unlink p c) q = ownerFor h q := by
  unfold ownerFor; simp [get_unlink]

/-- The type test refuses a document fragment everywhere. -/
theorem isChildAllowed_fragment (t : NodeType) : isChildAllowed t .documentFragment = false := by
  cases t <;> rfl

/-- An index that `Vec::insert` accepts. -/
def PosOk (l : List NodeId) : Option Nat → Prop
  | none => True
  | some i => i ≤ l.length

theorem placeChild_eq (h : Heap) (self new : NodeId) (pos : Option Nat)
    (hf : (h.get new).ntype ≠ .documentFragment) (hpos : PosOk (h.get self).children pos) :
    placeChild h self new pos =
      if self = new then (.panic .borrow, h) else (.ok new, h.link self new pos) := by
  unfold placeChild
  by_cases hs : self = new
  · simp [hs]
  · simp only [if_neg hs]
    have h1 : ((h.set new { h.get new with parent := some self, owner :=
        if (h.get self).ntype = .document then some self else (h.get self).owner }).get new).ntype
        ≠ .documentFragment := by simpa using hf
    rw [if_neg h1]
    unfold insertOrAppend
    cases pos with
    | none => rfl
    | some i =>
      have hi : i ≤ (h.get self).children.length := hpos
      have hi' : i ≤ ((h.set new { h.get new with parent := some self, owner :=
          if (h.get self).ntype = .document then some self else (h.get self).owner }).get
            self).children.length := by simpa [hs] using hi
      simp only [if_pos hi']
      rfl

/-- `insert_before`, without its dead and unreachable branches. -/
theorem insertBefore_eq (h : Heap) (self new : NodeId) (ref : Option NodeId) :
    insertBefore h self new ref =
      if isChildAllowed (h.get self).ntype (h.get new).ntype = false then
        (.err .hierarchyRequest, h)
      else if (h.get self).ntype = .document ∧ (h.get new).ntype = .element
          ∧ (h.get self).children.any (fun c => decide ((h.get c).ntype = .element)) = true then
        (.err .hierarchyRequest, h)
      else
        match insertPosition h self ref with
        | none => (.err .notFound, h)
        | some pos =>
          match checkSameDocument h self new with
          | .err e => (.err e, h)
          | .panic k => (.panic k, h)
          | .diverge => (.diverge, h)
          | .ok _ =>
            match parentNode h new with
            | none => if self = new then (.panic .borrow, h) else (.ok new, h.link self new pos)
            | some p =>
              if new ∈ (h.get p).children then
                if self = new then (.panic .borrow, h.unlink p new)
                else (.ok new, (h.unlink p new).link self new pos)
              else (.err .notFound, h) := by
  unfold insertBefore
  split
  · rfl
  · rename_i hallow
    have hf : (h.get new).ntype ≠ .documentFragment := by
      intro hc; rw [hc, isChildAllowed_fragment] at hallow; exact hallow rfl
    split
    · rfl
    · cases hp : insertPosition h self ref with
      | none => rfl
      | some pos =>
        have hlen : ∀ i, pos = some i → i < (h.get self).children.length := by
          intro i hi
          subst hi
          unfold insertPosition at hp
          cases ref with
          | none => simp at hp
          | some r =>
            cases hq : position r (h.get self).children with
            | none => simp [hq] at hp
            | some j =>
              simp [hq] at hp; subst hp
              exact position_lt hq
        cases hc : checkSameDocument h self new with
        | err e => rfl
        | panic k => rfl
        | diverge => rfl
        | ok u =>
          cases hpn : parentNode h new with
          | none =>
            have : PosOk (h.get self).children pos := by
              cases pos with
              | none => trivial
              | some i => exact Nat.le_of_lt (hlen i rfl)
            simp only [placeChild_eq h self new pos hf this]
          | some p =>
            simp only [removeChild_eq]
            by_cases hm : new ∈ (h.get p).children
            · simp only [if_pos hm]
              apply placeChild_eq
              · simpa [get_unlink] using hf
              · cases pos with
                | none => trivial
                | some i =>
                  have := hlen i rfl
                  show i ≤ ((h.unlink p new).get self).children.length
                  rw [get_unlink]
                  by_cases hsp : self = p
                  · subst hsp
                    simp only [if_true, List.length_erase, hm]
                    omega
                  · simp only [if_neg hsp]; omega
            · simp only [if_neg hm]

/-- What `insert_before` does when it succeeds. -/
theorem insertBefore_ok {h : Heap} {self new : NodeId} {ref : Option NodeId} {r : NodeId}
    {h' : Heap} (hok : insertBefore h self new ref = (.ok r, h')) :
    r = new ∧ self ≠ new
    ∧ isChildAllowed (h.get self).ntype (h.get new).ntype = true
    ∧ ¬ ((h.get self).ntype = .document ∧ (h.get new).ntype = .element
          ∧ (h.get self).children.any (fun c => decide ((h.get c).ntype = .element)) = true)
    ∧ checkSameDocument h self new = .ok ()
    ∧ ∃ pos, insertPosition h self ref = some pos
      ∧ ((parentNode h new = none ∧ h' = h.link self new pos)
        ∨ ∃ p, parentNode h new = some p ∧ new ∈ (h.get p).children
            ∧ h' = (h.unlink p new).link self new pos) := by
  rw [insertBefore_eq] at hok
  split at hok
  · simp at hok
  · rename_i hallow
    split at hok
    · simp at hok
    · rename_i hdoc
      split at hok
      · simp at hok
      · rename_i pos hpos
        split at hok
        · simp at hok
        · simp at hok
        · simp at hok
        · rename_i u hchk
          split at hok
          · rename_i hpn
            split at hok
            · simp at hok
            · rename_i hne
              simp only [Prod.mk.injEq, Outcome.ok.injEq] at hok
              exact ⟨hok.1.symm, hne, by simpa using hallow, hdoc, hchk, pos, hpos,
                Or.inl ⟨hpn, hok.2.symm⟩⟩
          · rename_i p hpn
            split at hok
            · rename_i hm
              split at hok
              · simp at hok
              · rename_i hne
                simp only [Prod.mk.injEq, Outcome.ok.injEq] at hok
                exact ⟨hok.1.symm, hne, by simpa using hallow, hdoc, hchk, pos, hpos,
                  Or.inr ⟨p, hpn, hm, hok.2.symm⟩⟩
            · simp at hok

/-- What `insert_before` leaves behind when it does not succeed: nothing changed, or the
self-insertion panic after the node was detached. -/
theorem insertBefore_not_ok {h : Heap} {self new : NodeId} {ref : Option NodeId}
    {o : Outcome NodeId} {h' : Heap} (hr : insertBefore h self new ref = (o, h'))
    (hno : ¬ o.IsOk) :
    h' = h ∨ (o = .panic .borrow ∧ self = new ∧ ∃ p, parentNode h new = some p ∧
      new ∈ (h.get p).children ∧ h' = h.unlink p new) := by
  rw [insertBefore_eq] at hr
  split at hr
  · simp at hr; left; exact hr.2.symm
  · split at hr
    · simp at hr; left; exact hr.2.symm
    · split at hr
      · simp at hr; left; exact hr.2.symm
      · split at hr
        · simp at hr; left; exact hr.2.symm
        · simp at hr; left; exact hr.2.symm
        · simp at hr; left; exact hr.2.symm
        · split at hr
          · split at hr
            · simp at hr; left; exact hr.2.symm
            · simp only [Prod.mk.injEq] at hr; exact absurd (by rw [← hr.1]; simp) hno
          · rename_i p hpn
            split at hr
            · rename_i hm
              split at hr
              · rename_i he
                simp only [Prod.mk.injEq] at hr
                right; exact ⟨hr.1.symm, he, p, hpn, hm, hr.2.symm⟩
              · simp only [Prod.mk.injEq] at hr; exact absurd (by rw [← hr.1]; simp) hno
            · simp at hr; left; exact hr.2.symm

theorem parentNode_eq_some {h : Heap} {n p : NodeId} :
    parentNode h n = some p ↔
      (h.get n).ntype ≠ .attribute ∧ (h.get n).parent = some p ∧ h.live p = true := by
  unfold parentNode
  split
  · rename_i h1; simp [h1]
  · rename_i h1
    rw [Heap.upgrade_some]
    simp [h1]

theorem isChildAllowed_attribute (t : NodeType) : isChildAllowed t .attribute = false := by
  cases t <;> rfl

theorem insertAt_position_fst {a b : List NodeId} {c : NodeId} :
    insertAt (a ++ b) c (some a.length) = a ++ c :: b := by
  show (a ++ b).insertIdx a.length c = a ++ c :: b
  induction a with
  | nil => rfl
  | cons x xs ih =>
    simp only [List.cons_append, List.length_cons, List.insertIdx_succ_cons]
    rw [ih]

theorem mem_insertAt {l : List NodeId} {c x : NodeId} {pos : Option Nat} (hp : PosOk l pos) :
    x ∈ insertAt l c pos ↔ x = c ∨ x ∈ l := by
  cases pos with
  | none => simp [insertAt, or_comm]
  | some i =>
    have hi : i ≤ l.length := hp
    simp only [insertAt]
    rw [List.mem_insertIdx hi]

/-- Without a bound on the index `insertAt` may also drop the node. -/
theorem mem_insertAt_imp {l : List NodeId} {c x : NodeId} {pos : Option Nat}
    (hx : x ∈ insertAt l c pos) : x = c ∨ x ∈ l := by
  cases pos with
  | none => simpa [insertAt, or_comm] using hx
  | some i =>
    simp only [insertAt] at hx
    by_cases hi : i ≤ l.length
    · exact (List.mem_insertIdx hi).mp hx
    · rw [List.insertIdx_of_length_lt (by omega)] at hx
      exact Or.inr hx

theorem insertPosition_some {h : Heap} {self : NodeId} {ref : Option NodeId} {pos : Option Nat} :
    insertPosition h self ref = some pos ↔
      (ref = none ∧ pos = none) ∨ ∃ r a b, ref = some r ∧ (h.get self).children = a ++ r :: b ∧
        r ∉ a ∧ pos = some a.length := by
  unfold insertPosition
  cases ref with
  | none => simp [eq_comm]
  | some r =>
    cases hp : position r (h.get self).children with
    | none =>
      simp only [hp, reduceCtorEq, false_and, false_or, Option.some.injEq, false_iff]
      rintro ⟨r', a, b, rfl, h2, _, _⟩
      have := position_eq_none.mp hp
      rw [h2] at this; simp at this
    | some i =>
      obtain ⟨a, b, h1, h2, h3⟩ := position_eq_some.mp hp
      simp only [hp, Option.some.injEq, reduceCtorEq, false_and, false_or]
      constructor
      · intro he; exact ⟨r, a, b, rfl, h1, h2, by rw [← he, h3]⟩
      · rintro ⟨r', a', b', rfl, h1', h2', h3'⟩
        have := position_append (b := b') h2'
        rw [← h1', hp] at this
        rw [h3', Option.some.inj this]

end XmlDom
