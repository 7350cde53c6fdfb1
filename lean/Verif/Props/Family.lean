import Verif.Props.Walk
import Verif.Props.History

/-!
# C95 and C96: members of a sub-tree, and the way up
-/

namespace XmlDom
namespace Props

open Spec Relation

/-! ## Sub-trees -/

/-- The nodes of the forest are the nodes of the list and their descendants. -/
theorem mem_preorder {h : Heap} (w : WF h) {l : List NodeId} {f : Forest} (hf : Unfolds h l f)
    (hl : ∀ n ∈ l, h.live n = true) (m : NodeId) :
    m ∈ f.preorder ↔ ∃ n ∈ l, ReflTransGen (Child h) n m := by
  induction hf with
  | nil => simp [Forest.preorder]
  | @cons n l kids rest hk hr ih1 ih2 =>
    have hn := hl n (by simp)
    have hkids : ∀ c ∈ childNodes h n, h.live c = true := fun c hc => w.child hn hc
    simp only [Forest.preorder, List.mem_cons, List.mem_append, ih1 hkids,
      ih2 (fun x hx => hl x (List.mem_cons_of_mem _ hx)), exists_eq_or_imp]
    have : ReflTransGen (Child h) n m ↔ m = n ∨ ∃ c ∈ childNodes h n, ReflTransGen (Child h) c m := by
      rw [ReflTransGen.cases_head_iff]
      refine or_congr eq_comm ⟨?_, ?_⟩
      · rintro ⟨c, h1, h2⟩; exact ⟨c, h1.2, h2⟩
      · rintro ⟨c, h1, h2⟩; exact ⟨c, ⟨hn, h1⟩, h2⟩
    rw [this, or_assoc]

/-- A descendant is live. -/
theorem live_below {h : Heap} (w : WF h) {n m : NodeId} (hn : h.live n = true)
    (hd : ReflTransGen (Child h) n m) : h.live m = true := by
  induction hd with
  | refl => exact hn
  | tail _ h2 _ => exact w.child h2.1 h2.2

/-- With unique parents, the ancestors of a node are in line. -/
theorem ancestors_line {h : Heap}
    (uniq : ∀ p q c, h.live p = true → h.live q = true → c ∈ childNodes h p →
      c ∈ childNodes h q → p = q) {x y m : NodeId} (hx : ReflTransGen (Child h) x m)
    (hy : ReflTransGen (Child h) y m) :
    ReflTransGen (Child h) x y ∨ ReflTransGen (Child h) y x := by
  induction hx with
  | refl => exact Or.inr hy
  | @tail b c h1 h2 ih =>
    rcases hy.cases_tail with rfl | ⟨d, h3, h4⟩
    · exact Or.inl (h1.tail h2)
    · obtain rfl := uniq b d c h2.1 h4.1 h2.2 h4.2
      exact ih h3

/-- With unique parents and no cycles, no node occurs twice in a forest. -/
theorem preorder_nodup {h : Heap} (w : WF h) (ac : Acyclic h)
    (nd : ∀ p, h.live p = true → (childNodes h p).Nodup)
    (uniq : ∀ p q c, h.live p = true → h.live q = true → c ∈ childNodes h p →
      c ∈ childNodes h q → p = q) {l : List NodeId} {f : Forest} (hf : Unfolds h l f)
    (hl : ∀ n ∈ l, h.live n = true) (hnd : l.Nodup)
    (hanti : ∀ x ∈ l, ∀ y ∈ l, ¬ Descendant h x y) : f.preorder.Nodup := by
  induction hf with
  | nil => exact List.nodup_nil
  | @cons n l kids rest hk hr ih1 ih2 =>
    have hn := hl n (by simp)
    have hl' : ∀ x ∈ l, h.live x = true := fun x hx => hl x (List.mem_cons_of_mem _ hx)
    have hkids : ∀ c ∈ childNodes h n, h.live c = true := fun c hc => w.child hn hc
    obtain ⟨hnl, hnd'⟩ := List.nodup_cons.mp hnd
    have k1 := ih1 hkids (nd n hn) (by
      intro x hx y hy hxy
      obtain ⟨z, h1, h2⟩ := TransGen.tail'_iff.mp hxy
      obtain rfl := uniq z n y h2.1 hn h2.2 hy
      exact ac z (TransGen.head' ⟨hn, hx⟩ h1))
    have k2 := ih2 hl' hnd' fun x hx y hy =>
      hanti x (List.mem_cons_of_mem _ hx) y (List.mem_cons_of_mem _ hy)
    have below : ∀ m ∈ kids.preorder, Descendant h n m := by
      intro m hm
      obtain ⟨c, hc, hcm⟩ := (mem_preorder w hk hkids m).mp hm
      exact TransGen.head' ⟨hn, hc⟩ hcm
    have apart : ∀ m, ReflTransGen (Child h) n m → m ∉ rest.preorder := by
      intro m hm hm'
      obtain ⟨y, hy, hym⟩ := (mem_preorder w hr hl' m).mp hm'
      have hyn : y ≠ n := fun e => hnl (e ▸ hy)
      rcases ancestors_line uniq hm hym with h1 | h1
      · rcases reflTransGen_iff_eq_or_transGen.mp h1 with h2 | h2
        · exact hyn h2
        · exact hanti n (by simp) y (List.mem_cons_of_mem _ hy) h2
      · rcases reflTransGen_iff_eq_or_transGen.mp h1 with h2 | h2
        · exact hyn h2.symm
        · exact hanti y (List.mem_cons_of_mem _ hy) n (by simp) h2
    simp only [Forest.preorder, List.nodup_cons, List.mem_append, not_or, List.nodup_append]
    refine ⟨⟨fun hh => ac n (below n hh), apart n .refl⟩, k1, k2, ?_⟩
    intro x hx y hy hxy
    subst hxy
    exact apart x (below x hx).to_reflTransGen hy

/-- The elements of a forest are among its nodes, in the same order. -/
theorem elements_sublist (h : Heap) (f : Forest) : (f.elements h).Sublist f.preorder := by
  induction f with
  | nil => exact List.Sublist.refl _
  | cons n kids rest ih1 ih2 =>
    by_cases ht : (h.get n).ntype = .element
    · rw [elements_elem ht]
      exact (ih1.append ih2).cons_cons _
    · rw [elements_other ht]
      exact (ih2.trans (List.sublist_append_right _ _)).cons _

/-- When whatever is no element has no children, all elements are found. -/
theorem mem_elements {h : Heap} {l : List NodeId} {f : Forest} (hf : Unfolds h l f)
    (hleaf : ∀ m ∈ f.preorder, nodeType h m ≠ .element → childNodes h m = []) (m : NodeId) :
    m ∈ f.elements h ↔ m ∈ f.preorder ∧ nodeType h m = .element := by
  induction hf with
  | nil => simp [Forest.preorder, Forest.elements]
  | @cons n l kids rest hk hr ih1 ih2 =>
    have hk' := ih1 fun x hx => hleaf x (by simp [Forest.preorder, hx])
    have hr' := ih2 fun x hx => hleaf x (by simp [Forest.preorder, hx])
    by_cases ht : nodeType h n = .element
    · rw [elements_elem ht]
      simp only [Forest.preorder, List.mem_cons, List.mem_append, hk', hr']
      constructor
      · rintro (rfl | ⟨h1, h2⟩ | ⟨h1, h2⟩)
        · exact ⟨Or.inl rfl, ht⟩
        · exact ⟨Or.inr (Or.inl h1), h2⟩
        · exact ⟨Or.inr (Or.inr h1), h2⟩
      · rintro ⟨h1 | h1 | h1, h2⟩
        · exact Or.inl h1
        · exact Or.inr (Or.inl ⟨h1, h2⟩)
        · exact Or.inr (Or.inr ⟨h1, h2⟩)
    · rw [elements_other ht, hr']
      have hc := hleaf n (by simp [Forest.preorder]) ht
      rw [hc] at hk
      cases hk
      simp only [Forest.preorder, List.nil_append, List.mem_cons]
      constructor
      · rintro ⟨h1, h2⟩; exact ⟨Or.inr h1, h2⟩
      · rintro ⟨h1 | h1, h2⟩
        · exact absurd (h1 ▸ h2) ht
        · exact ⟨h1, h2⟩

/-! ## C95 -/

/-- C95: the query returns the matching elements among the descendants, each once. -/
def C95_full : Prop :=
  ∀ (h : Heap) (n : NodeId) (tag : Str) (fuel : Nat) (l : List NodeId), Reachable h →
    h.live n = true → nodeType h n = .element → getElementsByTagName h fuel n tag = .ok l →
    l.Nodup ∧ ∀ m, m ∈ l ↔ Descendant h n m ∧ nodeType h m = .element ∧ TagMatches h tag m

/-- C95 does not hold: the element itself is returned as well. -/
theorem C95_full_false : ¬ C95_full := by
  intro hf
  have := ((hf (after [mkDoc]) 1 (c! "r") 1 [1] (reachable_after _) (by decide) (by decide)
    (by decide)).2 1).mp (by decide)
  exact no_descendant (by decide) this.1

/-- C95 (partial: the element itself is included, there are no cycles, and entity references
have no children): the query returns exactly the matching elements of the sub-tree. -/
theorem C95_members_partial (h : Heap) (n : NodeId) (tag : Str) (hr : Reachable h)
    (ac : Acyclic h) (hn : h.live n = true) (ht : nodeType h n = .element)
    (href : ∀ p, Descendant h n p → nodeType h p = .entityReference → childNodes h p = []) :
    ∃ l, getElementsByTagName h (h.next + 1) n tag = .ok l ∧
      ∀ m, m ∈ l ↔ (m = n ∨ Descendant h n m) ∧ nodeType h m = .element ∧ TagMatches h tag m := by
  have i := hr.invariant
  obtain ⟨f, h1, h2⟩ := unfolds_of_acyclic i.wf ac hn
  refine ⟨_, C51_elements h n f tag _ hr hn h1 h2, fun m => ?_⟩
  have hl : ∀ x ∈ [n], h.live x = true := by simpa using hn
  have hpre : ∀ x, x ∈ f.preorder ↔ x = n ∨ Descendant h n x := by
    intro x
    rw [mem_preorder i.wf h1 hl]
    simp only [List.mem_singleton, exists_eq_left]
    exact reflTransGen_iff_eq_or_transGen
  rw [List.mem_filter, decide_eq_true_iff, mem_elements h1, hpre, and_assoc]
  intro x hx hxt
  have hlive := h1.live i.wf hl x hx
  rcases (hpre x).mp hx with rfl | hd
  · exact absurd ht hxt
  obtain ⟨p, _, hp⟩ := TransGen.tail'_iff.mp hd
  have hal := i.allowed p hp.1 x hp.2
  by_cases her : nodeType h x = .entityReference
  · exact href x hd her
  have key : ∀ c, c ∉ childNodes h x := by
    intro c hc
    have hal' := i.allowed x hlive c hc
    have a1 : (h.get x).ntype ≠ .element := hxt
    have a2 : (h.get x).ntype ≠ .entityReference := her
    revert hal hal' a1 a2
    generalize (h.get p).ntype = t
    generalize (h.get x).ntype = u
    generalize (h.get c).ntype = v
    cases t <;> cases u <;> cases v <;> simp [isChildAllowed]
  exact List.eq_nil_iff_forall_not_mem.mpr key

/-- C95 (partial: tidy histories without cycles): no element is returned twice. -/
theorem C95_once_partial (h : Heap) (n : NodeId) (tag : Str) (hr : ReachableBy TidyCall h)
    (ac : Acyclic h) (hn : h.live n = true) :
    ∃ l, getElementsByTagName h (h.next + 1) n tag = .ok l ∧ l.Nodup := by
  have i := hr.reachable.invariant
  obtain ⟨f, h1, h2⟩ := unfolds_of_acyclic i.wf ac hn
  refine ⟨_, C51_elements h n f tag _ hr.reachable hn h1 h2, ?_⟩
  obtain ⟨k1, k2⟩ := C08_once_partial h hr
  have := preorder_nodup i.wf ac k1 k2 h1 (by simpa using hn) (by simp)
    (by
      intro x hx y hy
      simp only [List.mem_singleton] at hx hy
      subst hx hy
      exact ac y)
  exact ((elements_sublist h f).nodup this).filter _

/-- C95: without the restriction an element can be returned twice. -/
theorem C95_twice : ¬ ∀ (h : Heap) (n : NodeId) (tag : Str) (fuel : Nat) (l : List NodeId),
    Reachable h → getElementsByTagName h fuel n tag = .ok l → l.Nodup := by
  intro hf
  have := hf (after [mkDoc, .createElement 0 (c! "a"), .appendChild 1 2, .cloneNode 1 true 5,
    .appendChild 4 3]) 4 (c! "a") 3 [3, 3] (reachable_after _) (by decide)
  exact absurd this (by decide)

example : ReachableBy TidyCall (after tidyOps) ∧ Acyclic (after tidyOps) ∧
    (after tidyOps).live 2 = true ∧ nodeType (after tidyOps) 2 = .element ∧
    (∀ p, Descendant (after tidyOps) 2 p → nodeType (after tidyOps) p = .entityReference →
      childNodes (after tidyOps) p = []) ∧
    getElementsByTagName (after tidyOps) 5 2 (c! "*") = .ok [2, 3] := by
  refine ⟨tidyOps_tidy, tidyOps_acyclic.acyclic, by decide, by decide, ?_, by decide⟩
  intro p hd
  refine forall_live (P := fun p => nodeType (after tidyOps) p = .entityReference →
      childNodes (after tidyOps) p = []) (reachable_after tidyOps) (n := 4) rfl (by decide) p ?_
  exact live_below (reachable_after tidyOps).wf (by decide) hd.to_reflTransGen

/-! ## C96 -/

/-- `n` is reached from `m` with `parent_node`. -/
def Ascends (h : Heap) (m n : NodeId) : Prop :=
  ReflTransGen (fun a b => parentNode h a = some b) m n

/-- C96: a node is below another exactly if the parents lead from it to the other. -/
def C96_full : Prop :=
  ∀ (h : Heap) (n m : NodeId), Reachable h → h.live n = true → h.live m = true →
    nodeType h n ≠ .attribute → ((m = n ∨ Descendant h n m) ↔ Ascends h m n)

/-- C96 does not hold: the children of a deep clone have no parent. -/
theorem C96_full_false : ¬ C96_full := by
  intro hf
  have := (hf (after [mkDoc, .createElement 0 (c! "a"), .appendChild 1 2, .cloneNode 1 true 5])
    4 3 (reachable_after _) (by decide) (by decide) (by decide)).mp
    (Or.inr (.single ⟨by decide, by decide⟩))
  rcases ReflTransGen.cases_head this with h1 | ⟨c, h1, _⟩
  · exact absurd h1 (by decide)
  · have h2 : parentNode (after [mkDoc, .createElement 0 (c! "a"), .appendChild 1 2,
      .cloneNode 1 true 5]) 3 = none := by decide
    rw [h2] at h1
    cases h1

/-- C96 (partial: tidy histories). -/
theorem C96_up_down_partial (h : Heap) (n m : NodeId) (hr : ReachableBy TidyCall h)
    (hn : h.live n = true) (hm : h.live m = true) (ht : nodeType h n ≠ .attribute) :
    (m = n ∨ Descendant h n m) ↔ Ascends h m n := by
  have i := hr.reachable.invariant
  unfold Descendant
  rw [← reflTransGen_iff_eq_or_transGen]
  constructor
  · intro hd
    clear hm
    unfold Ascends
    induction hd with
    | refl => exact .refl
    | @tail b c h1 h2 ih =>
      have hc := i.wf.child h2.1 h2.2
      have hb : nodeType h b ≠ .attribute := by
        rcases h1.cases_tail with rfl | ⟨a, _, ha⟩
        · exact ht
        · intro hba
          have := i.allowed a ha.1 b ha.2
          rw [show (h.get b).ntype = .attribute from hba, isChildAllowed_attribute] at this
          cases this
      exact .head ((C07_links_partial h hr b c h2.1 hc hb).mp h2.2) ih
  · intro ha
    unfold Ascends at ha
    induction ha using ReflTransGen.head_induction_on with
    | refl => exact .refl
    | @head a c h1 h2 ih =>
      obtain ⟨_, _, hlc⟩ := parentNode_eq_some.mp h1
      have hct : nodeType h c ≠ .attribute := by
        rcases h2.cases_head with rfl | ⟨b, hb, _⟩
        · exact ht
        · exact fun hca => (parentNode_eq_some.mp hb).1 hca
      exact (ih hlc).tail ⟨hlc, (C07_links_partial h hr c a hlc hm hct).mpr h1⟩

/-- C96: the root of a tree is reached from everywhere in it by following the
parents, and in no other way: two roots of one node are the same. -/
theorem C96_one_root (h : Heap) (m a b : NodeId) (ha : Ascends h m a) (hb : Ascends h m b)
    (ra : parentNode h a = none) (rb : parentNode h b = none) : a = b := by
  unfold Ascends at ha hb
  induction ha using ReflTransGen.head_induction_on with
  | refl =>
    rcases hb.cases_head with h1 | ⟨c, h1, _⟩
    · exact h1
    · rw [ra] at h1; cases h1
  | @head x c h1 h2 ih =>
    rcases hb.cases_head with h3 | ⟨d, h3, h4⟩
    · subst h3; rw [rb] at h1; cases h1
    · rw [h1] at h3
      cases h3
      exact ih h4

example : ReachableBy TidyCall (after tidyOps) ∧ Ascends (after tidyOps) 3 2 ∧
    Descendant (after tidyOps) 2 3 :=
  ⟨tidyOps_tidy, .single (by decide), .single ⟨by decide, by decide⟩⟩

end Props
end XmlDom
