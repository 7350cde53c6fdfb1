import Verif.Lemmas.Tree
import Verif.Lemmas.Witness
import Verif.Spec.Tree

/-!
# C01-C06, C13, C14: the tree editing calls
-/

namespace XmlDom
namespace Props

open Spec

/-! ## Lists -/

theorem erase_split {x : NodeId} {a b : List NodeId} (h : x ∉ a) : (a ++ x :: b).erase x = a ++ b := by
  rw [List.erase_append_right _ h]; simp

theorem nodup_split {x : NodeId} {a b : List NodeId} (h : (a ++ x :: b).Nodup) : x ∉ a ∧ x ∉ b := by
  rw [List.nodup_append] at h
  obtain ⟨_, h2, h3⟩ := h
  exact ⟨fun hx => h3 x hx x (by simp) rfl, (List.nodup_cons.mp h2).1⟩

/-! ## The child list after an insertion -/

/-- The child list of the receiver after a successful `insert_before`. -/
theorem insertBefore_children {h : Heap} {self new : NodeId} {ref : Option NodeId} {r : NodeId}
    {h' : Heap} (hok : insertBefore h self new ref = (.ok r, h')) :
    ∃ pos, insertPosition h self ref = some pos ∧
      childNodes h' self = insertAt (if parentNode h new = some self
        then (childNodes h self).erase new else childNodes h self) new pos := by
  obtain ⟨_, hne, _, _, _, pos, hpos, h1 | ⟨p, hp, hm, rfl⟩⟩ := insertBefore_ok hok
  · obtain ⟨hp, rfl⟩ := h1
    refine ⟨pos, hpos, ?_⟩
    simp [childNodes, get_link _ _ hne, hp]
  · refine ⟨pos, hpos, ?_⟩
    simp only [childNodes, get_link _ _ hne, get_unlink, hp, if_true, Option.some.injEq]
    by_cases hsp : self = p
    · simp [hsp]
    · simp [hsp, Ne.symm hsp]

/-! ## C01 -/

/-- C01: a successful `insert_before` puts the node directly in front of the
reference. -/
def C01_full : Prop :=
  ∀ (h : Heap) (self new ref r : NodeId) (h' : Heap), Reachable h →
    h.live self = true → h.live new = true → h.live ref = true → new ≠ ref →
    insertBefore h self new (some ref) = (.ok r, h') →
    PlacedBefore (childNodes h self) new ref (childNodes h' self)

/-- A root with the children 2, 3, 4. -/
def threeChildren : List Op :=
  [mkDoc, .createElement 0 (c! "a"), .createElement 0 (c! "b"), .createElement 0 (c! "c"),
   .appendChild 1 2, .appendChild 1 3, .appendChild 1 4]

/-- C01 does not hold: with the children 2, 3, 4, inserting 2 before 4 gives 3, 4, 2. -/
theorem C01_full_false : ¬ C01_full := by
  intro hf
  have hr : insertBefore (after threeChildren) 1 2 (some 4) =
      (.ok 2, (insertBefore (after threeChildren) 1 2 (some 4)).2) := Prod.ext (by decide) rfl
  obtain ⟨a, b, h1, h2, h3⟩ := hf (after threeChildren) 1 2 4 2 _ (reachable_after _) (by decide)
    (by decide) (by decide) (by decide) hr
  have e1 : (childNodes (after threeChildren) 1).erase 2 = [3, 4] := by decide
  have e2 : childNodes (insertBefore (after threeChildren) 1 2 (some 4)).2 1 = [3, 4, 2] := by decide
  rw [e1] at h1; rw [e2] at h3
  rcases a with _ | ⟨x, _ | ⟨y, a⟩⟩
  · simp at h3
  · simp at h1 h3
  · simp at h1

/-- C01 (partial: the new child is not in front of the reference in the same child list
already, and its links agree). The receiver's child list is the old one with the node
taken out and placed immediately before the reference. -/
theorem C01_insert_partial (h : Heap) (self new ref r : NodeId) (h' : Heap)
    (hself : h.live self = true) (hlinks : LinksAgreeAt h new) (hne : new ≠ ref)
    (hbefore : ¬ Before (childNodes h self) new ref)
    (hok : insertBefore h self new (some ref) = (.ok r, h')) :
    PlacedBefore (childNodes h self) new ref (childNodes h' self) := by
  obtain ⟨pos, hpos, hc⟩ := insertBefore_children hok
  rcases insertPosition_some.mp hpos with ⟨h1, _⟩ | ⟨r', a, b, h1, h2, h3, h4⟩
  · cases h1
  cases h1
  have h2' : childNodes h self = a ++ ref :: b := h2
  have hna : new ∉ a := by
    intro hm
    obtain ⟨x, y, rfl⟩ := List.append_of_mem hm
    exact hbefore ⟨x, y, b, by rw [h2']; simp⟩
  subst h4
  by_cases hp : parentNode h new = some self
  · rw [if_pos hp] at hc
    have e : (childNodes h self).erase new = a ++ ref :: b.erase new := by
      rw [h2', List.erase_append_right _ hna, List.erase_cons_tail (by simpa using Ne.symm hne)]
    rw [e] at hc
    exact ⟨a, b.erase new, e, h3, by rw [hc, insertAt_position_fst]⟩
  · rw [if_neg hp] at hc
    have hnm : new ∉ childNodes h self := fun hm => hp ((hlinks self hself).mp hm)
    refine ⟨a, b, by rw [List.erase_of_not_mem hnm, h2'], h3, ?_⟩
    rw [hc, h2', insertAt_position_fst]

/-- C01: with no reference child the node becomes the last child. -/
theorem C01_insert_last (h : Heap) (self new r : NodeId) (h' : Heap)
    (hself : h.live self = true) (hlinks : LinksAgreeAt h new)
    (hok : insertBefore h self new none = (.ok r, h')) :
    childNodes h' self = (childNodes h self).erase new ++ [new] := by
  obtain ⟨pos, hpos, hc⟩ := insertBefore_children hok
  rcases insertPosition_some.mp hpos with ⟨_, rfl⟩ | ⟨r', a, b, h1, _⟩
  · by_cases hp : parentNode h new = some self
    · rw [if_pos hp] at hc; exact hc
    · rw [if_neg hp] at hc
      rw [List.erase_of_not_mem fun hm => hp ((hlinks self hself).mp hm)]
      exact hc
  · cases h1

/-- C01: inserting a child before itself leaves the list alone. -/
theorem C01_insert_before_itself (h : Heap) (self new r : NodeId) (h' : Heap)
    (hself : h.live self = true) (hlinks : LinksAgreeAt h new)
    (hok : insertBefore h self new (some new) = (.ok r, h')) :
    childNodes h' self = childNodes h self := by
  obtain ⟨pos, hpos, hc⟩ := insertBefore_children hok
  rcases insertPosition_some.mp hpos with ⟨h1, _⟩ | ⟨r', a, b, h1, h2, h3, rfl⟩
  · cases h1
  cases h1
  have h2' : childNodes h self = a ++ new :: b := h2
  have hp : parentNode h new = some self := (hlinks self hself).mp (by rw [h2']; simp)
  rw [if_pos hp, h2', erase_split h3, insertAt_position_fst] at hc
  rw [hc, h2']

/-- What happens in the case that C01 misses: the node lands directly behind the
reference. -/
theorem C01_earlier_sibling (h : Heap) (self new ref r : NodeId) (h' : Heap)
    (hself : h.live self = true) (hlinks : LinksAgreeAt h new) (a b c : List NodeId)
    (hl : childNodes h self = a ++ new :: (b ++ ref :: c)) (hnodup : (childNodes h self).Nodup)
    (hok : insertBefore h self new (some ref) = (.ok r, h')) :
    childNodes h' self = a ++ (b ++ ref :: new :: c) := by
  obtain ⟨pos, hpos, hc⟩ := insertBefore_children hok
  rcases insertPosition_some.mp hpos with ⟨h1, _⟩ | ⟨r', x, y, h1, h2, h3, rfl⟩
  · cases h1
  cases h1
  have hna : new ∉ a := (nodup_split (hl ▸ hnodup)).1
  have hp : parentNode h new = some self := (hlinks self hself).mp (by rw [hl]; simp)
  have hx : x = a ++ new :: b := by
    have e : childNodes h self = (a ++ new :: b) ++ ref :: c := by rw [hl]; simp
    have hr := nodup_split (e ▸ hnodup)
    have p1 := position_append (x := ref) (b := c) hr.1
    have p2 := position_append (x := ref) (b := y) h3
    have h2' : childNodes h self = x ++ ref :: y := h2
    rw [← e] at p1; rw [← h2', p1] at p2
    have hlen := Option.some.inj p2
    exact ((List.append_inj (h2'.symm.trans e) hlen.symm).1)
  rw [if_pos hp, hl, erase_split hna] at hc
  have hpos' : x.length = (a ++ (b ++ [ref])).length := by rw [hx]; simp
  have : a ++ (b ++ ref :: c) = (a ++ (b ++ [ref])) ++ c := by simp
  rw [hpos', this, insertAt_position_fst] at hc
  rw [hc]; simp

/-- C01: a node that has no parent link to the receiver, child or not, is put in front of the
reference and nothing is taken out. -/
theorem C01_unlinked (h : Heap) (self new ref r : NodeId) (h' : Heap)
    (hp : parentNode h new ≠ some self)
    (hok : insertBefore h self new (some ref) = (.ok r, h')) :
    ∃ a b, childNodes h self = a ++ ref :: b ∧ ref ∉ a ∧
      childNodes h' self = a ++ new :: ref :: b := by
  obtain ⟨pos, hpos, hc⟩ := insertBefore_children hok
  rcases insertPosition_some.mp hpos with ⟨h1, _⟩ | ⟨r', a, b, h1, h2, h3, rfl⟩
  · cases h1
  cases h1
  have h2' : childNodes h self = a ++ ref :: b := h2
  rw [if_neg hp, h2', insertAt_position_fst] at hc
  exact ⟨a, b, h2', h3, hc⟩

/-- The child of a deep clone can be inserted a second time. -/
example : childNodes (after [mkDoc, .createElement 0 (c! "a"), .appendChild 1 2, .cloneNode 1 true 9,
      .createElement 0 (c! "b"), .appendChild 4 5]) 4 = [3, 5] ∧
    parentNode (after [mkDoc, .createElement 0 (c! "a"), .appendChild 1 2, .cloneNode 1 true 9,
      .createElement 0 (c! "b"), .appendChild 4 5]) 3 ≠ some 4 ∧
    (insertBefore (after [mkDoc, .createElement 0 (c! "a"), .appendChild 1 2, .cloneNode 1 true 9,
      .createElement 0 (c! "b"), .appendChild 4 5]) 4 3 (some 5)).1 = .ok 3 := by decide

/-- Moving the last child of three in front of the first one meets the hypotheses of
`C01_insert_partial`. -/
example : LinksAgreeAt (after threeChildren) 4 ∧
    (insertBefore (after threeChildren) 1 4 (some 2)).1 = .ok 4 ∧
    ¬ Before (childNodes (after threeChildren) 1) 4 2 ∧
    childNodes (insertBefore (after threeChildren) 1 4 (some 2)).2 1 = [4, 2, 3] := by
  refine ⟨?_, by decide, ?_, by decide⟩
  · exact forall_live (reachable_after _) (n := 5) rfl (by decide)
  · rintro ⟨a, b, c, h⟩
    have e : childNodes (after threeChildren) 1 = [2, 3, 4] := by decide
    rw [e] at h
    rcases a with _ | ⟨x, _ | ⟨y, _ | ⟨z, a⟩⟩⟩ <;> simp at h

/-! ## Frames -/

theorem onlyLinks_unlink (h : Heap) (p c : NodeId) :
    OnlyLinks h (h.unlink p c) (fun m => m = p) (fun m => m = c) := by
  refine ⟨fun m => ⟨?_, ?_, ?_, ?_, ?_⟩, ?_, ?_, fun _ => rfl, rfl⟩
  all_goals try simp only [nodeType, nodeName, nodeValue, ownerDocument, get_unlink, upgrade_unlink]
  · intro m hm; simp [childNodes, get_unlink, hm]
  · intro m hm; simp [parentNode, get_unlink, hm]

theorem onlyLinks_link (h : Heap) {p c : NodeId} (pos : Option Nat) (hpc : p ≠ c)
    (ho : h.upgrade (ownerFor h p) = ownerDocument h c) :
    OnlyLinks h (h.link p c pos) (fun m => m = p) (fun m => m = c) := by
  refine ⟨fun m => ⟨?_, ?_, ?_, ?_, ?_⟩, ?_, ?_, fun _ => rfl, rfl⟩
  all_goals try simp only [nodeType, nodeName, nodeValue, get_link _ _ hpc]
  · simp only [ownerDocument, get_link _ _ hpc, upgrade_link]
    split
    · rename_i he; subst he; exact ho
    · rfl
  · intro m hm; simp [childNodes, get_link _ _ hpc, hm]
  · intro m hm; simp [parentNode, get_link _ _ hpc, hm]

theorem _root_.XmlDom.Spec.OnlyLinks.trans {h h1 h2 : Heap} {l1 p1 l2 p2 : NodeId → Prop} (a : OnlyLinks h h1 l1 p1)
    (b : OnlyLinks h1 h2 l2 p2) :
    OnlyLinks h h2 (fun m => l1 m ∨ l2 m) (fun m => p1 m ∨ p2 m) := by
  refine ⟨fun m => ⟨?_, ?_, ?_, ?_, ?_⟩, ?_, ?_, ?_, ?_⟩
  · exact (b.same m).ntype.trans (a.same m).ntype
  · exact (b.same m).name.trans (a.same m).name
  · exact (b.same m).value.trans (a.same m).value
  · exact (b.same m).owner.trans (a.same m).owner
  · exact (b.same m).ext.trans (a.same m).ext
  · intro m hm
    exact (b.children m fun h => hm (Or.inr h)).trans (a.children m fun h => hm (Or.inl h))
  · intro m hm
    exact (b.parent m fun h => hm (Or.inr h)).trans (a.parent m fun h => hm (Or.inl h))
  · intro m; exact (b.live m).trans (a.live m)
  · exact b.next.trans a.next

theorem _root_.XmlDom.Spec.OnlyLinks.mono {h h' : Heap} {l1 p1 l2 p2 : NodeId → Prop} (a : OnlyLinks h h' l1 p1)
    (hl : ∀ m, l1 m → l2 m) (hp : ∀ m, p1 m → p2 m) : OnlyLinks h h' l2 p2 :=
  ⟨a.same, fun m hm => a.children m fun h => hm (hl m h),
    fun m hm => a.parent m fun h => hm (hp m h), a.live, a.next⟩

/-- A node that passes the document test and has an owner is already owned by what its
new parent hands down. -/
theorem owner_of_check {h : Heap} {self new : NodeId} (_hself : h.live self = true)
    (hown : ownerDocument h new ≠ none) (hc : checkSameDocument h self new = .ok ()) :
    h.upgrade (ownerFor h self) = ownerDocument h new := by
  unfold ownerDocument at hown ⊢
  unfold checkSameDocument at hc
  unfold ownerFor
  cases hn : (h.get new).owner with
  | none => rw [hn] at hown; simp [Heap.upgrade] at hown
  | some d =>
    rw [hn] at hc
    split at hc
    · rename_i ht
      rw [if_pos ht]
      simp only at hc
      split at hc
      · split at hc
        · rename_i he; rw [he]
        · simp at hc
      · simp at hc
    · rename_i ht
      rw [if_neg ht]
      cases hs : (h.get self).owner with
      | none => rw [hs] at hc; simp at hc
      | some a =>
        rw [hs] at hc
        simp only at hc
        split at hc
        · split at hc
          · split at hc
            · rename_i he; rw [he]
            · simp at hc
          · simp at hc
        · simp at hc

/-- The frame of a successful insertion. -/
theorem insertBefore_frame {h : Heap} {self new r : NodeId} {ref : Option NodeId} {h' : Heap}
    (hself : h.live self = true) (hown : ownerDocument h new ≠ none)
    (hok : insertBefore h self new ref = (.ok r, h')) :
    OnlyLinks h h' (fun m => m = self ∨ parentNode h new = some m) (fun m => m = new) := by
  obtain ⟨_, hne, _, _, hchk, pos, hpos, h1⟩ := insertBefore_ok hok
  have ho := owner_of_check hself hown hchk
  rcases h1 with ⟨hp, rfl⟩ | ⟨p, hp, hm, rfl⟩
  · exact (onlyLinks_link h pos hne ho).mono (fun m hm => Or.inl hm) fun m hm => hm
  · have ho' : (h.unlink p new).upgrade (ownerFor (h.unlink p new) self) =
        ownerDocument (h.unlink p new) new := by
      rw [ownerFor_unlink, upgrade_unlink, ho]
      exact ((onlyLinks_unlink h p new).same new).owner.symm
    refine ((onlyLinks_unlink h p new).trans (onlyLinks_link _ pos hne ho')).mono ?_ ?_
    · rintro m (rfl | rfl)
      · exact Or.inr hp
      · exact Or.inl rfl
    · rintro m (rfl | rfl) <;> rfl

/-- After a successful insertion the new node is a child of the receiver and of no other
live node. -/
theorem insertBefore_membership {h : Heap} {self new r : NodeId} {ref : Option NodeId} {h' : Heap}
    (hself : h.live self = true) (hlinks : LinksAgreeAt h new) (hnd : ChildrenNodup h)
    (hok : insertBefore h self new ref = (.ok r, h')) :
    parentNode h' new = some self ∧
      ∀ p, h.live p = true → p ≠ self →
        childNodes h' p = (childNodes h p).erase new ∧ new ∉ childNodes h' p := by
  obtain ⟨_, hne, hallow, _, hchk, pos, hpos, h1⟩ := insertBefore_ok hok
  have hna : (h.get new).ntype ≠ .attribute := by
    intro ha; rw [ha, isChildAllowed_attribute] at hallow; cases hallow
  refine ⟨?_, ?_⟩
  · rw [parentNode_eq_some]
    rcases h1 with ⟨_, rfl⟩ | ⟨p, _, _, rfl⟩
    · simp [get_link _ _ hne, hna, hself]
    · simp [get_link _ _ hne, get_unlink, hna, hself]
  · intro q hq hqs
    have hc : childNodes h' q =
        if parentNode h new = some q then (childNodes h q).erase new else childNodes h q := by
      rcases h1 with ⟨hp, rfl⟩ | ⟨p, hp, _, rfl⟩
      · simp [childNodes, get_link _ _ hne, hqs, hp]
      · simp only [childNodes, get_link _ _ hne, if_neg hqs, get_unlink, hp, Option.some.injEq]
        by_cases hpq : q = p
        · simp [hpq]
        · simp [hpq, Ne.symm hpq]
    by_cases hp : parentNode h new = some q
    · rw [if_pos hp] at hc
      exact ⟨hc, by rw [hc]; exact (hnd q hq).not_mem_erase⟩
    · rw [if_neg hp] at hc
      have hnm : new ∉ childNodes h q := fun hm => hp ((hlinks q hq).mp hm)
      exact ⟨by rw [hc, List.erase_of_not_mem hnm], by rw [hc]; exact hnm⟩

/-! ## C02 -/

/-- C02: `append_child` makes the node the last child of the receiver, links it, takes it
out of the child list of its former parent, and changes nothing else. -/
theorem C02_append_child (h : Heap) (self new r : NodeId) (h' : Heap)
    (hself : h.live self = true) (hlinks : LinksAgreeAt h new) (hnd : ChildrenNodup h)
    (hown : ownerDocument h new ≠ none) (hok : appendChild h self new = (.ok r, h')) :
    r = new ∧ childNodes h' self = (childNodes h self).erase new ++ [new] ∧
      parentNode h' new = some self ∧
      (∀ p, h.live p = true → p ≠ self →
        childNodes h' p = (childNodes h p).erase new ∧ new ∉ childNodes h' p) ∧
      OnlyLinks h h' (fun m => m = self ∨ parentNode h new = some m) (fun m => m = new) := by
  have h1 := insertBefore_membership hself hlinks hnd hok
  exact ⟨(insertBefore_ok hok).1, C01_insert_last h self new r h' hself hlinks hok, h1.1, h1.2,
    insertBefore_frame hself hown hok⟩

/-- C02: the same frame holds for `insert_before`. -/
theorem C02_insert_before (h : Heap) (self new r : NodeId) (ref : Option NodeId) (h' : Heap)
    (hself : h.live self = true) (hlinks : LinksAgreeAt h new) (hnd : ChildrenNodup h)
    (hown : ownerDocument h new ≠ none) (hok : insertBefore h self new ref = (.ok r, h')) :
    r = new ∧ parentNode h' new = some self ∧ new ∈ childNodes h' self ∧
      (∀ p, h.live p = true → p ≠ self →
        childNodes h' p = (childNodes h p).erase new ∧ new ∉ childNodes h' p) ∧
      OnlyLinks h h' (fun m => m = self ∨ parentNode h new = some m) (fun m => m = new) := by
  have h1 := insertBefore_membership hself hlinks hnd hok
  refine ⟨(insertBefore_ok hok).1, h1.1, ?_, h1.2, insertBefore_frame hself hown hok⟩
  obtain ⟨pos, hpos, hc⟩ := insertBefore_children hok
  rw [hc]
  rcases insertPosition_some.mp hpos with ⟨_, rfl⟩ | ⟨x, a, b, _, h2, h3, rfl⟩
  · simp [insertAt]
  · refine (mem_insertAt ?_).mpr (Or.inl rfl)
    have hl : childNodes h self = a ++ x :: b := h2
    show a.length ≤ _
    split
    · rw [List.length_erase]; rw [hl]; simp; split <;> omega
    · rw [hl]; simp

/-- Moving a node from one element to another meets the hypotheses of
`C02_append_child`. -/
example : LinksAgreeAt (after threeChildren) 4 ∧ ChildrenNodup (after threeChildren) ∧
    ownerDocument (after threeChildren) 4 ≠ none ∧
    (appendChild (after threeChildren) 2 4).1 = .ok 4 ∧
    childNodes (appendChild (after threeChildren) 2 4).2 1 = [2, 3] := by
  refine ⟨?_, ?_, by decide, by decide, by decide⟩
  · exact forall_live (reachable_after _) (n := 5) rfl (by decide)
  · exact forall_live (reachable_after _) (n := 5) rfl (by decide)

/-! ## C03 -/

/-- C03: `remove_child` of a node that is not a child returns `NotFound` and changes
nothing. -/
theorem C03_not_a_child (h : Heap) (self old : NodeId) :
    (removeChild h self old).1 = .err .notFound ↔ old ∉ childNodes h self := by
  rw [removeChild_eq]
  by_cases hm : old ∈ (h.get self).children
  · simp [hm, childNodes]
  · simp [hm, childNodes]

/-- C03: `remove_child` of a child returns it, clears its parent, takes exactly its first
occurrence out of the child list and changes nothing else. -/
theorem C03_remove_child (h : Heap) (self old : NodeId) (a b : List NodeId)
    (hl : childNodes h self = a ++ old :: b) (ha : old ∉ a) :
    ∃ h', removeChild h self old = (.ok old, h') ∧ childNodes h' self = a ++ b ∧
      parentNode h' old = none ∧
      OnlyLinks h h' (fun m => m = self) (fun m => m = old) := by
  have hm : old ∈ (h.get self).children := by
    have : old ∈ childNodes h self := by rw [hl]; simp
    exact this
  refine ⟨h.unlink self old, by rw [removeChild_eq, if_pos hm], ?_, parentNode_unlink_self _ _ _,
    onlyLinks_unlink h self old⟩
  have : childNodes (h.unlink self old) self = (childNodes h self).erase old := by
    simp [childNodes, get_unlink]
  rw [this, hl, erase_split ha]

/-- C03: a failing `remove_child` changes nothing, and there is no other outcome. -/
theorem C03_remove_child_cases (h : Heap) (self old : NodeId) :
    removeChild h self old = (.err .notFound, h) ∨ ∃ h', removeChild h self old = (.ok old, h') := by
  rw [removeChild_eq]
  split
  · exact Or.inr ⟨_, rfl⟩
  · exact Or.inl rfl

example : childNodes (after threeChildren) 1 = [2] ++ 3 :: [4] := by decide

/-! ## C04 -/

/-- C04: after a successful `replace_child` the new node is where the old one was. -/
def C04_full : Prop :=
  ∀ (h : Heap) (self new old r : NodeId) (h' : Heap) (a b : List NodeId), Reachable h →
    h.live self = true → h.live new = true → h.live old = true → new ≠ old →
    childNodes h self = a ++ old :: b → old ∉ a →
    replaceChild h self new old = (.ok r, h') →
    childNodes h' self = a.erase new ++ new :: b.erase new

/-- C04 does not hold: with the children 2, 3, 4, replacing 3 by 2 gives 4, 2. -/
theorem C04_full_false : ¬ C04_full := by
  intro hf
  have hr : replaceChild (after threeChildren) 1 2 3 =
      (.ok 3, (replaceChild (after threeChildren) 1 2 3).2) := Prod.ext (by decide) rfl
  have := hf (after threeChildren) 1 2 3 3 _ [2] [4] (reachable_after _) (by decide)
    (by decide) (by decide) (by decide) (by decide) (by decide) hr
  revert this
  decide

/-- What a successful `replace_child` is made of. -/
theorem replaceChild_ok {h : Heap} {self new old r : NodeId} {h' : Heap}
    (hok : replaceChild h self new old = (.ok r, h')) :
    r = old ∧ old ∈ childNodes h self ∧
      ∃ x, insertBefore (h.unlink self old) self new (nextSibling h old) = (.ok x, h') := by
  unfold replaceChild at hok
  split at hok
  · simp at hok
  · split at hok
    · rename_i hm
      simp only at hok
      rw [removeChild_eq, if_pos hm] at hok
      simp only at hok
      generalize hi : insertBefore (h.unlink self old) self new (nextSibling h old) = q at hok
      obtain ⟨o, h2⟩ := q
      cases o with
      | ok x =>
        simp only [Prod.mk.injEq, Outcome.ok.injEq] at hok
        exact ⟨hok.1.symm, hm, x, by rw [hok.2]⟩
      | err _ => simp at hok
      | panic _ => simp at hok
      | diverge => simp at hok
    · simp at hok

/-- The next sibling of a node with a parent link. -/
theorem nextSibling_eq {h : Heap} {n p : NodeId} {a b : List NodeId}
    (hp : parentNode h n = some p) (hl : childNodes h p = a ++ n :: b) (ha : n ∉ a) :
    nextSibling h n = b.head? := by
  obtain ⟨h1, h2, h3⟩ := parentNode_eq_some.mp hp
  have hl' : (h.get p).children = a ++ n :: b := hl
  have hu : h.upgrade (some p) = some p := by simp [Heap.upgrade, h3]
  unfold nextSibling
  rw [if_neg h1, h2]
  simp only [hu, hl', position_append ha]
  rw [List.getElem?_append_right (by omega)]
  rw [show a.length + 1 - a.length = 1 by omega]
  cases b <;> rfl

/-- The previous sibling of a node with a parent link. -/
theorem previousSibling_eq {h : Heap} {n p : NodeId} {a b : List NodeId}
    (hp : parentNode h n = some p) (hl : childNodes h p = a ++ n :: b) (ha : n ∉ a) :
    previousSibling h n = a.getLast? := by
  obtain ⟨h1, h2, h3⟩ := parentNode_eq_some.mp hp
  have hl' : (h.get p).children = a ++ n :: b := hl
  have hu : h.upgrade (some p) = some p := by simp [Heap.upgrade, h3]
  unfold previousSibling
  rw [if_neg h1, h2]
  simp only [hu, hl', position_append ha]
  by_cases he : a.length = 0
  · rw [if_pos he]
    have : a = [] := List.length_eq_zero_iff.mp he
    subst this; rfl
  · rw [if_neg he, List.getElem?_append_left (by omega), List.getLast?_eq_getElem?]

/-- Taking another node out keeps the links of a node in agreement. -/
theorem linksAgreeAt_unlink {h : Heap} {p c n : NodeId} (hl : LinksAgreeAt h n) (hne : n ≠ c) :
    LinksAgreeAt (h.unlink p c) n := by
  intro q hq
  have e : parentNode (h.unlink p c) n = parentNode h n := (onlyLinks_unlink h p c).parent n hne
  rw [e, ← hl q hq]
  unfold childNodes
  rw [get_unlink]
  simp only
  split
  · rw [List.mem_erase_of_ne hne]
  · rfl

/-- C04 (partial: the new child is not in front of the old one in the same child list,
unless the old one is last; the links of both agree). The new node takes the place of the
old one, which is returned and has no parent any more. -/
theorem C04_replace_partial (h : Heap) (self new old r : NodeId) (h' : Heap) (a b : List NodeId)
    (hself : h.live self = true) (hlinks : LinksAgreeAt h new)
    (hold : parentNode h old = some self) (hne : new ≠ old)
    (hl : childNodes h self = a ++ old :: b) (hnodup : (childNodes h self).Nodup)
    (hbefore : new ∉ a ∨ b = [])
    (hok : replaceChild h self new old = (.ok r, h')) :
    r = old ∧ childNodes h' self = a.erase new ++ new :: b.erase new ∧
      parentNode h' new = some self ∧ parentNode h' old = none := by
  obtain ⟨hr, _, x, hi⟩ := replaceChild_ok hok
  have ha := (nodup_split (hl ▸ hnodup)).1
  have hb := (nodup_split (hl ▸ hnodup)).2
  have hn := nextSibling_eq hold hl ha
  have hc1 : childNodes (h.unlink self old) self = a ++ b := by
    have : childNodes (h.unlink self old) self = (childNodes h self).erase old := by
      simp [childNodes, get_unlink]
    rw [this, hl, erase_split ha]
  have hnd1 : (a ++ b).Nodup := by
    have : (a ++ b).Sublist (a ++ old :: b) := (List.Sublist.refl a).append (List.sublist_cons_self _ _)
    exact (hl ▸ hnodup).sublist this
  have hlinks1 := linksAgreeAt_unlink (p := self) hlinks hne
  have hself1 : (h.unlink self old).live self = true := hself
  rw [hn] at hi
  have hpar : parentNode h' new = some self ∧ parentNode h' old = none := by
    obtain ⟨_, hne2, hallow, _, hchk, pos, hpos, h1⟩ := insertBefore_ok hi
    have hna : ((h.unlink self old).get new).ntype ≠ .attribute := by
      intro hat; rw [hat, isChildAllowed_attribute] at hallow; cases hallow
    have hpo := parentNode_unlink_self h self old
    constructor
    · rw [parentNode_eq_some]
      rcases h1 with ⟨_, rfl⟩ | ⟨p, _, _, rfl⟩
      · rw [get_link _ _ hne2]; exact ⟨hna, by simp, hself⟩
      · rw [get_link _ _ hne2]
        exact ⟨by rw [get_unlink]; exact hna, by simp, hself⟩
    · rcases h1 with ⟨_, rfl⟩ | ⟨p, _, _, rfl⟩
      · unfold parentNode
        rw [get_link _ _ hne2]
        simp only [if_neg (Ne.symm hne), upgrade_link]
        exact hpo
      · unfold parentNode
        rw [get_link _ _ hne2]
        simp only [if_neg (Ne.symm hne), upgrade_link, get_unlink _ p, upgrade_unlink]
        exact hpo
  refine ⟨hr, ?_, hpar⟩
  cases b with
  | nil =>
    have := C01_insert_last _ self new x h' hself1 hlinks1 hi
    rw [this, hc1]; simp
  | cons ref b' =>
    have hna : new ∉ a := by rcases hbefore with h | h; exact h; cases h
    rw [List.erase_of_not_mem hna]
    have hrefa : ref ∉ a := by
      intro hm
      rw [List.nodup_append] at hnd1
      exact hnd1.2.2 ref hm ref (by simp) rfl
    by_cases hnr : new = ref
    · subst hnr
      have := C01_insert_before_itself _ self new x h' hself1 hlinks1 hi
      rw [this, hc1]; simp
    · have hp := C01_insert_partial _ self new ref x h' hself1 hlinks1 hnr ?_ hi
      · obtain ⟨u, v, h1, h2, h3⟩ := hp
        rw [hc1, List.erase_append_right _ hna, List.erase_cons_tail (by simpa using Ne.symm hnr)]
          at h1
        have hu : u = a := by
          have p1 := position_append (x := ref) (b := b'.erase new) hrefa
          have p2 := position_append (x := ref) (b := v) h2
          rw [h1, p2] at p1
          exact (List.append_inj h1 (Option.some.inj p1).symm).1.symm
        subst hu
        have hv := List.append_cancel_left h1
        simp only [List.cons.injEq, true_and] at hv
        rw [h3, ← hv]
        rw [List.erase_cons_tail (by simpa using Ne.symm hnr)]
      · rintro ⟨u, v, w, hu⟩
        rw [hc1] at hu
        have hrb : ref ∉ b' := by
          rw [List.nodup_append] at hnd1
          exact (List.nodup_cons.mp hnd1.2.1).1
        have e1 : a ++ ref :: b' = (u ++ new :: v) ++ ref :: w := by rw [hu]; simp
        have hnd2 := e1 ▸ hnd1
        have p1 := position_append (x := ref) (b := b') hrefa
        have p2 := position_append (x := ref) (b := w) (nodup_split hnd2).1
        rw [e1, p2] at p1
        have := (List.append_inj e1 (Option.some.inj p1).symm).1
        exact hna (by rw [this]; simp)

/-- C04: replacing a child by itself leaves the child list alone. -/
theorem C04_replace_itself (h : Heap) (self old r : NodeId) (h' : Heap) (a b : List NodeId)
    (hold : parentNode h old = some self)
    (hl : childNodes h self = a ++ old :: b) (hnodup : (childNodes h self).Nodup)
    (hok : replaceChild h self old old = (.ok r, h')) :
    r = old ∧ childNodes h' self = childNodes h self := by
  obtain ⟨hr, _, x, hi⟩ := replaceChild_ok hok
  have ha := (nodup_split (hl ▸ hnodup)).1
  have hb := (nodup_split (hl ▸ hnodup)).2
  have hn := nextSibling_eq hold hl ha
  have hc1 : childNodes (h.unlink self old) self = a ++ b := by
    have : childNodes (h.unlink self old) self = (childNodes h self).erase old := by
      simp [childNodes, get_unlink]
    rw [this, hl, erase_split ha]
  refine ⟨hr, ?_⟩
  obtain ⟨pos, hpos, hc⟩ := insertBefore_children hi
  rw [parentNode_unlink_self, if_neg (by simp), hc1] at hc
  rw [hc, hl]
  rw [hn] at hpos
  rcases insertPosition_some.mp hpos with ⟨h1, rfl⟩ | ⟨y, u, v, h1, h2, h3, rfl⟩
  · have : b = [] := by simpa using h1
    subst this
    simp [insertAt]
  · cases b with
    | nil => simp at h1
    | cons ref b' =>
      simp only [List.head?_cons, Option.some.injEq] at h1
      subst h1
      have h2' : a ++ ref :: b' = u ++ ref :: v := by rw [← hc1]; exact h2
      have hnd1 : (a ++ ref :: b').Nodup := by
        have : (a ++ ref :: b').Sublist (a ++ old :: ref :: b') :=
          (List.Sublist.refl a).append (List.sublist_cons_self _ _)
        exact (hl ▸ hnodup).sublist this
      have p1 := position_append (x := ref) (b := b') (nodup_split hnd1).1
      have p2 := position_append (x := ref) (b := v) h3
      rw [h2', p2] at p1
      rw [Option.some.inj p1, insertAt_position_fst]

/-- What happens in the case that C04 misses: the new child lands behind the next sibling of
the old one. -/
theorem C04_earlier_sibling (h : Heap) (self new old next r : NodeId) (h' : Heap)
    (hself : h.live self = true) (hlinks : LinksAgreeAt h new)
    (hold : parentNode h old = some self) (a b c : List NodeId)
    (hl : childNodes h self = a ++ new :: (b ++ old :: next :: c))
    (hnodup : (childNodes h self).Nodup)
    (hok : replaceChild h self new old = (.ok r, h')) :
    r = old ∧ childNodes h' self = a ++ (b ++ next :: new :: c) := by
  obtain ⟨hr, _, x, hi⟩ := replaceChild_ok hok
  have hl2 : childNodes h self = (a ++ new :: b) ++ old :: next :: c := by rw [hl]; simp
  have ho := (nodup_split (hl2 ▸ hnodup)).1
  rw [nextSibling_eq hold hl2 ho] at hi
  have hne : new ≠ old := by
    rintro rfl
    exact ho (by simp)
  have hc1 : childNodes (h.unlink self old) self = a ++ new :: (b ++ next :: c) := by
    have : childNodes (h.unlink self old) self = (childNodes h self).erase old := by
      simp [childNodes, get_unlink]
    rw [this, hl2, erase_split ho]; simp
  refine ⟨hr, C01_earlier_sibling (h.unlink self old) self new next x h' hself
    (linksAgreeAt_unlink hlinks hne) a b c hc1 ?_ hi⟩
  rw [show childNodes (h.unlink self old) self = (childNodes h self).erase old by
    simp [childNodes, get_unlink]]
  exact hnodup.sublist List.erase_sublist

/-- C04: an old child without a parent link, such as a child of a deep clone, is taken out and
the new child is put at the end. -/
theorem C04_unlinked (h : Heap) (self new old r : NodeId) (h' : Heap) (a b : List NodeId)
    (hself : h.live self = true) (hlinks : LinksAgreeAt h new) (hne : new ≠ old)
    (hold : parentNode h old = none) (hl : childNodes h self = a ++ old :: b) (ha : old ∉ a)
    (hok : replaceChild h self new old = (.ok r, h')) :
    r = old ∧ childNodes h' self = (a ++ b).erase new ++ [new] := by
  obtain ⟨hr, _, x, hi⟩ := replaceChild_ok hok
  have hn : nextSibling h old = none := by
    unfold nextSibling
    unfold parentNode at hold
    split
    · rfl
    · rename_i hat
      rw [if_neg hat] at hold
      cases hw : (h.get old).parent with
      | none => rfl
      | some w => rw [hw] at hold; simp only [hold]
  rw [hn] at hi
  have hc1 : childNodes (h.unlink self old) self = a ++ b := by
    have : childNodes (h.unlink self old) self = (childNodes h self).erase old := by
      simp [childNodes, get_unlink]
    rw [this, hl, erase_split ha]
  refine ⟨hr, ?_⟩
  rw [C01_insert_last (h.unlink self old) self new x h' hself (linksAgreeAt_unlink hlinks hne) hi, hc1]

/-- The first child of a deep clone is replaced: the new one is last. -/
example : childNodes (after [mkDoc, .createElement 0 (c! "a"), .appendChild 1 2,
      .createElement 0 (c! "b"), .appendChild 1 3, .cloneNode 1 true 9, .createElement 0 (c! "c")]) 6
      = [] ++ 4 :: [5] ∧
    parentNode (after [mkDoc, .createElement 0 (c! "a"), .appendChild 1 2,
      .createElement 0 (c! "b"), .appendChild 1 3, .cloneNode 1 true 9, .createElement 0 (c! "c")]) 4
      = none ∧
    (replaceChild (after [mkDoc, .createElement 0 (c! "a"), .appendChild 1 2,
      .createElement 0 (c! "b"), .appendChild 1 3, .cloneNode 1 true 9, .createElement 0 (c! "c")])
      6 7 4).1 = .ok 4 := by decide

/-- Replacing the first child by the last one meets the hypotheses of
`C04_replace_partial`. -/
example : parentNode (after threeChildren) 2 = some 1 ∧
    childNodes (after threeChildren) 1 = [] ++ 2 :: [3, 4] ∧
    (replaceChild (after threeChildren) 1 4 2).1 = .ok 2 ∧
    childNodes (replaceChild (after threeChildren) 1 4 2).2 1 = [4, 3] := by decide

/-! ## C05 and C06 -/

/-- C05: `insert_before` that returns an error changes nothing. -/
theorem C05_insert_before (h : Heap) (self new : NodeId) (ref : Option NodeId) (e : DomError)
    (h' : Heap) (hr : insertBefore h self new ref = (.err e, h')) : h' = h := by
  rcases insertBefore_not_ok hr (by simp) with h1 | ⟨h1, _⟩
  · exact h1
  · cases h1

/-- C05: `append_child` that returns an error changes nothing. -/
theorem C05_append_child (h : Heap) (self new : NodeId) (e : DomError)
    (h' : Heap) (hr : appendChild h self new = (.err e, h')) : h' = h :=
  C05_insert_before h self new none e h' hr

/-- C05: `remove_child` that returns an error changes nothing. -/
theorem C05_remove_child (h : Heap) (self old : NodeId) (e : DomError)
    (h' : Heap) (hr : removeChild h self old = (.err e, h')) : h' = h := by
  rw [removeChild_eq] at hr
  split at hr
  · simp at hr
  · simp only [Prod.mk.injEq] at hr; exact hr.2.symm

/-- A second document. -/
def twoDocs : List Op := threeChildren ++ [mkDoc, .createElement 5 (c! "x")]

example : (insertBefore (after twoDocs) 1 7 (some 3)).1 = .err .wrongDocument := by decide
example : (removeChild (after twoDocs) 1 7).1 = .err .notFound := by decide

/-- C06: `replace_child` that returns an error changes nothing. -/
def C06_full : Prop :=
  ∀ (h : Heap) (self new old : NodeId) (e : DomError) (h' : Heap), Reachable h →
    h.live self = true → h.live new = true → h.live old = true →
    replaceChild h self new old = (.err e, h') → h' = h

/-- C06 does not hold: replacing by a node of another document fails with
`WrongDocument`, but the old child is gone. -/
theorem C06_full_false : ¬ C06_full := by
  intro hf
  have hr : replaceChild (after twoDocs) 1 7 3 =
      (.err .wrongDocument, (replaceChild (after twoDocs) 1 7 3).2) := Prod.ext (by decide) rfl
  have := hf (after twoDocs) 1 7 3 _ _ (reachable_after _) (by decide) (by decide) (by decide) hr
  have h2 : childNodes (replaceChild (after twoDocs) 1 7 3).2 1 = childNodes (after twoDocs) 1 := by
    rw [this]
  revert h2
  decide

/-- C06 (partial): a failing `replace_child` changes nothing when the new node has a type
that is not allowed or the old node is not a child; in all other cases the only change is
the removal of the old child. -/
theorem C06_replace_partial (h : Heap) (self new old : NodeId) (e : DomError) (h' : Heap)
    (hr : replaceChild h self new old = (.err e, h')) :
    (h' = h ∧ (isChildAllowed (nodeType h self) (nodeType h new) = false ∨
        old ∉ childNodes h self)) ∨
      (old ∈ childNodes h self ∧ removeChild h self old = (.ok old, h')) := by
  unfold replaceChild at hr
  split at hr
  · rename_i ha
    simp only [Prod.mk.injEq] at hr
    exact Or.inl ⟨hr.2.symm, Or.inl ha⟩
  · split at hr
    · rename_i hm
      simp only at hr
      rw [removeChild_eq, if_pos hm] at hr ⊢
      simp only at hr
      generalize hi : insertBefore (h.unlink self old) self new (nextSibling h old) = q at hr
      obtain ⟨o, h2⟩ := q
      cases o with
      | ok x => simp at hr
      | err x =>
        have := C05_insert_before _ _ _ _ _ _ hi
        simp only [Prod.mk.injEq] at hr
        exact Or.inr ⟨hm, by rw [← hr.2, this]⟩
      | panic _ => simp at hr
      | diverge => simp at hr
    · rename_i hm
      simp only [Prod.mk.injEq] at hr
      exact Or.inl ⟨hr.2.symm, Or.inr hm⟩

example : (replaceChild (after twoDocs) 1 7 3).1 = .err .wrongDocument ∧
    (replaceChild (after twoDocs) 1 0 3).1 = .err .hierarchyRequest ∧
    (replaceChild (after twoDocs) 1 3 7).1 = .err .notFound := by decide

/-! ## C13 -/

/-- C13: for a node whose parent link points to the node that has it as a child, the
siblings are its neighbours in the child list. -/
theorem C13_siblings (h : Heap) (p n : NodeId) (a b : List NodeId)
    (hl : childNodes h p = a ++ n :: b) (hnodup : (childNodes h p).Nodup)
    (hp : parentNode h n = some p) :
    previousSibling h n = a.getLast? ∧ nextSibling h n = b.head? :=
  ⟨previousSibling_eq hp hl (nodup_split (hl ▸ hnodup)).1,
    nextSibling_eq hp hl (nodup_split (hl ▸ hnodup)).1⟩

/-- C13: by index. -/
theorem C13_siblings_by_index (h : Heap) (p n : NodeId) (i : Nat)
    (hi : (childNodes h p)[i]? = some n) (hnodup : (childNodes h p).Nodup)
    (hp : parentNode h n = some p) :
    nextSibling h n = (childNodes h p)[i + 1]? ∧
      previousSibling h n = if i = 0 then none else (childNodes h p)[i - 1]? := by
  obtain ⟨hlt, he⟩ := List.getElem?_eq_some_iff.mp hi
  have hl : childNodes h p = (childNodes h p).take i ++ n :: (childNodes h p).drop (i + 1) := by
    rw [← he]; simp
  obtain ⟨h1, h2⟩ := C13_siblings h p n _ _ hl hnodup hp
  refine ⟨?_, ?_⟩
  · rw [h2, List.head?_drop]
  · rw [h1]
    by_cases h0 : i = 0
    · subst h0; simp
    · rw [if_neg h0, List.getLast?_eq_getElem?, List.length_take, Nat.min_eq_left (by omega),
        List.getElem?_take, if_pos (by omega)]

/-- C13: next and previous are inverse to each other. -/
theorem C13_inverse (h : Heap) (p n m : NodeId) (hnodup : (childNodes h p).Nodup)
    (hn : n ∈ childNodes h p) (hm : m ∈ childNodes h p)
    (hpn : parentNode h n = some p) (hpm : parentNode h m = some p) :
    nextSibling h n = some m ↔ previousSibling h m = some n := by
  obtain ⟨a, b, hab⟩ := List.append_of_mem hn
  obtain ⟨c, d, hcd⟩ := List.append_of_mem hm
  rw [(C13_siblings h p n a b hab hnodup hpn).2, (C13_siblings h p m c d hcd hnodup hpm).1]
  constructor
  · intro hb
    obtain ⟨b', rfl⟩ : ∃ b', b = m :: b' := by cases b <;> simp at hb ⊢; exact hb
    have e : c ++ m :: d = (a ++ [n]) ++ m :: b' := by rw [← hcd, hab]; simp
    have p1 := position_append (x := m) (b := d) (nodup_split (hcd ▸ hnodup)).1
    have p2 := position_append (x := m) (b := b') (nodup_split (e ▸ hcd ▸ hnodup)).1
    rw [e, p2] at p1
    rw [(List.append_inj e (Option.some.inj p1).symm).1]
    simp
  · intro hc
    obtain ⟨c', rfl⟩ : ∃ c', c = c' ++ [n] := by
      rcases List.eq_nil_or_concat c with rfl | ⟨c', x, rfl⟩
      · simp at hc
      · simp at hc; exact ⟨c', by rw [hc]; simp⟩
    have e : a ++ n :: b = c' ++ n :: (m :: d) := by rw [← hab, hcd]; simp
    have p1 := position_append (x := n) (b := b) (nodup_split (hab ▸ hnodup)).1
    have p2 := position_append (x := n) (b := m :: d) (nodup_split (e ▸ hab ▸ hnodup)).1
    rw [e, p2] at p1
    have := (List.append_inj e (Option.some.inj p1).symm).2
    simp only [List.cons.injEq, true_and] at this
    rw [this]; rfl

/-- C13: the first and the last child are the ends of the child list, and having children
means having a first one. -/
theorem C13_first_last (h : Heap) (n : NodeId) :
    firstChild h n = (childNodes h n)[0]? ∧
      lastChild h n = (childNodes h n)[(childNodes h n).length - 1]? ∧
      (hasChildNodes h n = true ↔ firstChild h n ≠ none) := by
  refine ⟨?_, ?_, ?_⟩
  · unfold firstChild childNodes; cases (h.get n).children <;> rfl
  · unfold lastChild childNodes; rw [List.getLast?_eq_getElem?]
  · unfold firstChild hasChildNodes; cases (h.get n).children <;> simp

/-- C13: an attribute has no parent and no siblings. -/
theorem C13_attribute (h : Heap) (n : NodeId) (ht : nodeType h n = .attribute) :
    parentNode h n = none ∧ previousSibling h n = none ∧ nextSibling h n = none := by
  have ht' : (h.get n).ntype = .attribute := ht
  simp [parentNode, previousSibling, nextSibling, ht']

example : childNodes (after threeChildren) 1 = [2] ++ 3 :: [4] ∧
    (childNodes (after threeChildren) 1).Nodup ∧ parentNode (after threeChildren) 3 = some 1 ∧
    parentNode (after threeChildren) 4 = some 1 := by decide

/-! ## C14 -/

/-- The owner document of a node, if it has one, is alive. -/
def OwnerAlive (h : Heap) (n : NodeId) : Prop := ∀ d, (h.get n).owner = some d → h.live d = true

theorem checkSameDocument_returns {h : Heap} {self new : NodeId} (hs : OwnerAlive h self)
    (hn : OwnerAlive h new) : (checkSameDocument h self new).Returns := by
  unfold checkSameDocument
  split
  · split
    · trivial
    · rename_i d hd
      rw [if_pos (hn d hd)]
      split <;> trivial
  · split
    · trivial
    · trivial
    · trivial
    · rename_i a b ha hb
      rw [if_pos (hs a ha), if_pos (hn b hb)]
      split <;> trivial

/-- C14: `insert_before` returns when the owner documents are alive and the node is not
inserted into itself. -/
theorem C14_insert_before (h : Heap) (self new : NodeId) (ref : Option NodeId)
    (hs : OwnerAlive h self) (hn : OwnerAlive h new) (hne : self ≠ new) :
    (insertBefore h self new ref).1.Returns := by
  have hc := checkSameDocument_returns hs hn
  rw [insertBefore_eq]
  split
  · trivial
  · split
    · trivial
    · split
      · trivial
      · split
        · trivial
        · rename_i hk; rw [hk] at hc; exact hc.elim
        · rename_i hk; rw [hk] at hc; exact hc.elim
        · split
          · trivial
          · split
            · trivial
            · trivial

/-- C14: likewise `append_child`. -/
theorem C14_append_child (h : Heap) (self new : NodeId)
    (hs : OwnerAlive h self) (hn : OwnerAlive h new) (hne : self ≠ new) :
    (appendChild h self new).1.Returns := C14_insert_before h self new none hs hn hne

/-- C14: `remove_child` always returns. -/
theorem C14_remove_child (h : Heap) (self old : NodeId) : (removeChild h self old).1.Returns := by
  rw [removeChild_eq]; split <;> trivial

/-- C14: likewise `replace_child`. -/
theorem C14_replace_child (h : Heap) (self new old : NodeId)
    (hs : OwnerAlive h self) (hn : OwnerAlive h new) (hne : self ≠ new) :
    (replaceChild h self new old).1.Returns := by
  unfold replaceChild
  split
  · trivial
  · split
    · rename_i hm
      simp only
      rw [removeChild_eq, if_pos hm]
      simp only
      have hs' : OwnerAlive (h.unlink self old) self := by
        intro d hd; exact hs d (by rw [get_unlink] at hd; exact hd)
      have hn' : OwnerAlive (h.unlink self old) new := by
        intro d hd; exact hn d (by rw [get_unlink] at hd; exact hd)
      have := C14_insert_before (h.unlink self old) self new (nextSibling h old) hs' hn' hne
      generalize insertBefore (h.unlink self old) self new (nextSibling h old) = q at this
      obtain ⟨o, h2⟩ := q
      cases o with
      | ok _ => trivial
      | err _ => trivial
      | panic _ => exact this.elim
      | diverge => exact this.elim
    · trivial

/-- C14: appending an element or entity reference to itself panics, and it has been taken
out of the child list of its parent. -/
theorem C14_insert_into_itself (h : Heap) (n : NodeId)
    (ht : nodeType h n = .element ∨ nodeType h n = .entityReference) (hn : OwnerAlive h n)
    (hlinks : ∀ p, parentNode h n = some p → n ∈ childNodes h p) :
    (appendChild h n n).1.Panics ∧
      (parentNode h n = none → (appendChild h n n).2 = h) ∧
      (∀ p, parentNode h n = some p →
        removeChild h p n = (.ok n, (appendChild h n n).2)) := by
  have ht' : (h.get n).ntype = .element ∨ (h.get n).ntype = .entityReference := ht
  have hallow : isChildAllowed (h.get n).ntype (h.get n).ntype = true := by
    rcases ht' with h1 | h1 <;> rw [h1] <;> rfl
  have hdoc : (h.get n).ntype ≠ .document := by
    rcases ht' with h1 | h1 <;> rw [h1] <;> simp
  have hchk : checkSameDocument h n n = .ok () := by
    unfold checkSameDocument
    rw [if_neg hdoc]
    cases ho : (h.get n).owner with
    | none => rfl
    | some d => simp [hn d ho]
  have e : appendChild h n n = match parentNode h n with
      | none => (.panic .borrow, h)
      | some p => (.panic .borrow, h.unlink p n) := by
    unfold appendChild
    rw [insertBefore_eq, if_neg (by simp [hallow]), if_neg (fun hc => hdoc hc.1), hchk]
    simp only [insertPosition]
    cases hp : parentNode h n with
    | none => simp
    | some p =>
      have : n ∈ (h.get p).children := hlinks p hp
      simp [this]
  rw [e]
  cases hp : parentNode h n with
  | none => simp
  | some p =>
    have : n ∈ (h.get p).children := hlinks p hp
    refine ⟨trivial, by simp, ?_⟩
    rintro q hq
    cases hq
    rw [removeChild_eq, if_pos this]

/-- C14: a node of any other type is refused with `HierarchyRequest`. -/
theorem C14_insert_into_itself_refused (h : Heap) (n : NodeId) (ref : Option NodeId)
    (ht : nodeType h n ≠ .element ∧ nodeType h n ≠ .entityReference) :
    insertBefore h n n ref = (.err .hierarchyRequest, h) := by
  have ht' : (h.get n).ntype ≠ .element ∧ (h.get n).ntype ≠ .entityReference := ht
  have : isChildAllowed (h.get n).ntype (h.get n).ntype = false := by
    obtain ⟨h1, h2⟩ := ht'
    revert h1 h2
    cases (h.get n).ntype <;> simp [isChildAllowed]
  rw [insertBefore_eq, if_pos this]

/-- C14: a dropped owner document makes the insertion of its node panic. -/
theorem C14_dropped_document (h : Heap) (self new d : NodeId)
    (ht : nodeType h self = .element) (hallow : isChildAllowed .element (nodeType h new) = true)
    (hs : OwnerAlive h self) (hso : (h.get self).owner ≠ none)
    (hd : (h.get new).owner = some d) (hdead : h.live d = false) :
    appendChild h self new = (.panic .unwrap, h) := by
  have ht' : (h.get self).ntype = .element := ht
  have hallow' : isChildAllowed .element (h.get new).ntype = true := hallow
  unfold appendChild
  rw [insertBefore_eq, ht', if_neg (by simp [hallow']), if_neg (by simp)]
  have hchk : checkSameDocument h self new = .panic .unwrap := by
    unfold checkSameDocument
    rw [if_neg (by simp [ht']), hd]
    cases ho : (h.get self).owner with
    | none => exact absurd ho hso
    | some a => simp [hs a ho, hdead]
  rw [hchk]
  simp [insertPosition]

example : (appendChild (after threeChildren) 3 3).1.Panics ∧
    childNodes (appendChild (after threeChildren) 3 3).2 1 = [2, 4] := by decide

/-- C14: likewise when the node is put into a document. -/
theorem C14_dropped_document_root (h : Heap) (self new d : NodeId)
    (ht : nodeType h self = .document) (hallow : isChildAllowed .document (nodeType h new) = true)
    (hone : nodeType h new = .element → ∀ c ∈ childNodes h self, nodeType h c ≠ .element)
    (hd : (h.get new).owner = some d) (hdead : h.live d = false) :
    appendChild h self new = (.panic .unwrap, h) := by
  have ht' : (h.get self).ntype = .document := ht
  have hallow' : isChildAllowed .document (h.get new).ntype = true := hallow
  unfold appendChild
  rw [insertBefore_eq, ht', if_neg (by simp [hallow']), if_neg ?_]
  · have hchk : checkSameDocument h self new = .panic .unwrap := by
      unfold checkSameDocument
      rw [if_pos ht', hd]
      simp [hdead]
    rw [hchk]
    simp [insertPosition]
  · rintro ⟨_, h2, h3⟩
    simp only [List.any_eq_true, decide_eq_true_eq] at h3
    obtain ⟨c, hc, h4⟩ := h3
    exact hone h2 c hc h4

end Props
end XmlDom
