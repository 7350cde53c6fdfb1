import Verif.Props.Attr
import Verif.Lemmas.Fuel
import Verif.Spec.Namespaces

/-!
# C47-C50: namespaces
-/

namespace XmlDom
namespace Props

open Spec

/-! ## Tools -/

theorem addNamespaces_iff {h : Heap} {n : NodeId} : addNamespaces h n = true ↔ NamespacesOn h n := by
  unfold addNamespaces NamespacesOn
  cases hd : ownerDocument h n with
  | none => simp
  | some d =>
    simp only
    cases hx : (h.get d).ext with
    | document x =>
      simp only
      constructor
      · intro ho; exact ⟨d, x, rfl, hx, ho⟩
      · rintro ⟨d', x', h1, h2, h3⟩
        cases h1
        rw [hx] at h2
        cases h2
        exact h3
    | _ =>
      simp only [Bool.false_eq_true, false_iff]
      rintro ⟨d', x', h1, h2, _⟩
      cases h1
      rw [hx] at h2
      cases h2

/-- A node type that no node takes as a child. -/
def NeverChild (t : NodeType) : Prop := ∀ p, isChildAllowed p t = false

/-- The parent link of a node that cannot be a child is never set. -/
theorem noParent {h : Heap} (hr : Reachable h) : ∀ n, n < h.next → NeverChild (h.get n).ntype →
    (h.get n).parent = none := by
  refine hr.stepInv (I := fun h => ∀ n, n < h.next → NeverChild (h.get n).ntype →
    (h.get n).parent = none) ?_ ?_
  · intro n hn; exact absurd hn (Nat.not_lt_zero _)
  · intro op h l h' w ih _ hs n
    have set : ∀ (m : NodeId) (x : Node), x.ntype = (h.get m).ntype →
        (x.parent = (h.get m).parent ∨ x.parent = none) → n < h.next →
        NeverChild ((h.set m x).get n).ntype → ((h.set m x).get n).parent = none := by
      intro m x h1 h2 hn ht
      by_cases hm : n = m
      · subst hm
        simp only [Heap.get_set, if_true] at ht ⊢
        rcases h2 with h2 | h2
        · rw [h2]; exact ih n hn (h1 ▸ ht)
        · exact h2
      · simp only [Heap.get_set, if_neg hm] at ht ⊢
        exact ih n hn ht
    have alloc : ∀ (h : Heap) (x : Node), x.parent = none →
        (n < h.next → NeverChild (h.get n).ntype → (h.get n).parent = none) →
        n < (h.alloc x).2.next →
        NeverChild ((h.alloc x).2.get n).ntype → ((h.alloc x).2.get n).parent = none := by
      intro h x hx ih hn ht
      by_cases hm : n = h.next
      · subst hm
        simp only [Heap.get_alloc, if_true] at ht ⊢
        exact hx
      · simp only [Heap.get_alloc, if_neg hm] at ht ⊢
        exact ih (Nat.lt_of_le_of_ne (Nat.le_of_lt_succ hn) hm) ht
    cases hs with
    | alloc hx => exact alloc h _ hx.parent (ih n)
    | allocAttr _ _ =>
      unfold Heap.newAttribute
      exact alloc _ _ rfl (alloc h _ rfl (ih n))
    | clone _ _ _ => exact alloc h _ rfl (ih n)
    | value => exact set _ _ rfl (Or.inl rfl)
    | @unlink _ p c hp hc =>
      intro hn ht
      rw [get_unlink] at ht ⊢
      simp only at ht ⊢
      split
      · rfl
      · exact ih n hn ht
    | @link _ p c pos hp hc hne hallow _ _ _ _ =>
      intro hn ht
      rw [get_link _ _ hne] at ht ⊢
      simp only at ht ⊢
      split
      · rename_i hnc
        subst hnc
        rw [ht] at hallow
        cases hallow
      · exact ih n hn ht
    | clear => exact set _ _ rfl (Or.inl rfl)
    | attrOwner _ _ _ => exact set _ _ rfl (Or.inl rfl)
    | attrPut _ _ _ _ _ _ _ => exact set _ _ rfl (Or.inl rfl)
    | nsPut _ => exact set _ _ rfl (Or.inl rfl)
    | attrDel _ => exact set _ _ rfl (Or.inl rfl)
    | orphan => exact set _ _ rfl (Or.inr rfl)
    | idPut _ _ _ _ _ => exact set _ _ rfl (Or.inl rfl)
    | decl _ => exact set _ _ rfl (Or.inl rfl)
    | dealloc _ => exact ih n


theorem docParent {h : Heap} (hr : Reachable h) (n : NodeId) (hn : n < h.next)
    (ht : (h.get n).ntype = .document) : (h.get n).parent = none :=
  noParent hr n hn (by rw [ht]; intro p; cases p <;> rfl)

theorem attr_noParent {h : Heap} (hr : Reachable h) {n w : NodeId} (hn : h.live n = true)
    (hw : (h.get n).parent = some w) : (h.get n).ntype ≠ .attribute := by
  intro ht
  have := noParent hr n (hr.wf.fresh n hn) (by rw [ht]; intro p; cases p <;> rfl)
  rw [hw] at this
  cases this

/-! ## C47 -/

theorem parentNode_up {h : Heap} {n p : NodeId} (hp : parentNode h n = some p) :
    (h.get n).parent = some p ∧ h.live p = true := by
  unfold parentNode at hp
  split at hp
  · cases hp
  · exact Heap.upgrade_some.mp hp

theorem nsMap_eq {h : Heap} {n : NodeId} {m : List (Option Str × Str)} (hm : nsMap h n = some m)
    (pfx : Option Str) (uri : Str) : Declares h n pfx uri ↔ (pfx, uri) ∈ m := by
  unfold nsMap at hm
  split at hm
  · rename_i ht
    split at hm
    · rename_i attrs nss hx
      cases hm
      constructor
      · rintro ⟨_, a, b, h1, h2⟩
        rw [hx] at h1
        cases h1
        exact h2
      · intro h1; exact ⟨ht, attrs, m, hx, h1⟩
    · cases hm
  · cases hm

theorem nsMap_none {h : Heap} {n : NodeId} (hm : nsMap h n = none) (pfx : Option Str) (uri : Str) :
    ¬ Declares h n pfx uri := by
  rintro ⟨ht, a, b, h1, h2⟩
  unfold nsMap at hm
  rw [if_pos (show (h.get n).ntype = .element from ht), h1] at hm
  cases hm

/-- What an element with the option on answers about itself. -/
theorem getNamespace_iff {h : Heap} (i : Inv h) {n : NodeId} (hn : h.live n = true)
    (hon : addNamespaces h n = true) (pfx : Option Str) :
    ∀ u, getNamespace h n pfx = some u ↔ Declares h n pfx u := by
  intro u
  unfold getNamespace
  rw [if_neg (by simp [hon])]
  cases hm : nsMap h n with
  | none => exact ⟨fun h1 => by simp at h1, fun h1 => absurd h1 (nsMap_none hm _ _)⟩
  | some m =>
    simp only
    rw [nsMap_eq hm]
    have hk : KeysNodup m := by
      unfold nsMap at hm
      split at hm
      · split at hm
        · rename_i attrs nss hx
          cases hm
          exact (i.attrKeys n attrs m hn hx).2.1
        · cases hm
      · cases hm
    exact mapGet_eq_some hk

/-- A document is not in a namespace and declares none. -/
theorem document_off {h : Heap} (i : Inv h) {n : NodeId} (hn : h.live n = true)
    (ht : nodeType h n = .document) :
    addNamespaces h n = false ∧ ∀ p u, ¬ Declares h n p u := by
  constructor
  · unfold addNamespaces ownerDocument
    rw [i.docOwner n (i.wf.fresh n hn) ht]
    rfl
  · rintro p u ⟨h1, _⟩
    rw [ht] at h1
    cases h1

theorem _root_.XmlDom.Spec.IsNearest.cons {h : Heap} {l : List NodeId} {pfx : Option Str}
    {r : Option Str} {n : NodeId} (hn : ∀ u, ¬ Declares h n pfx u) (hr : IsNearest h l pfx r) :
    IsNearest h (n :: l) pfx r := by
  cases r with
  | none =>
    intro x hx
    rcases List.mem_cons.mp hx with rfl | hx
    · exact hn
    · exact hr x hx
  | some u =>
    obtain ⟨a, m, b, rfl, h1, h2⟩ := hr
    refine ⟨n :: a, m, b, rfl, h1, ?_⟩
    intro x hx
    rcases List.mem_cons.mp hx with rfl | hx
    · exact hn
    · exact h2 x hx

/-- C47: the nearest declaration is found. -/
def C47_full : Prop :=
  ∀ (h : Heap) (n : NodeId) (l : List NodeId) (pfx : Option Str) (fuel : Nat), Reachable h →
    h.live n = true → Ancestry h n l →
    (∀ m ∈ l, nodeType h m = .document ∨ NamespacesOn h m) → l.length ≤ fuel →
    ∃ r, resolveNamespace h fuel n pfx = .ok r ∧ IsNearest h l pfx r

/-- Two elements, one in the other; then the outer one goes out of scope. -/
def droppedOps : List Op :=
  [mkDoc, .createElement 0 (c! "a"), .createElement 0 (c! "b"), .appendChild 2 3, .drop 2]

/-- C47 does not hold: the walk panics when the parent was dropped. -/
theorem C47_full_false : ¬ C47_full := by
  intro hf
  obtain ⟨r, hr, _⟩ := hf (after droppedOps) 3 [3] none 1 (reachable_after _) (by decide)
    (.root (by decide)) (by
      intro m hm
      cases List.mem_singleton.mp hm
      exact Or.inr (addNamespaces_iff.mp (by decide))) (by decide)
  have : resolveNamespace (after droppedOps) 1 3 none = .panic .unwrap := by decide
  rw [this] at hr
  cases hr

/-- C47 (partial: no node of the chain has lost its parent). -/
theorem C47_nearest_partial (h : Heap) (n : NodeId) (l : List NodeId) (pfx : Option Str) (fuel : Nat)
    (hr : Reachable h) (hn : h.live n = true) (ha : Ancestry h n l)
    (hon : ∀ m ∈ l, nodeType h m = .document ∨ NamespacesOn h m)
    (hkept : ∀ m ∈ l, ParentKept h m) (hfuel : l.length ≤ fuel) :
    ∃ r, resolveNamespace h fuel n pfx = .ok r ∧ IsNearest h l pfx r := by
  have i := hr.invariant
  induction fuel generalizing n l with
  | zero =>
    cases ha with
    | root => simp at hfuel
    | up => simp at hfuel
  | succ fuel ih =>
    unfold resolveNamespace
    have hmem : n ∈ l := by cases ha <;> simp
    by_cases hd : nodeType h n = .document
    · -- the chain ends here
      obtain ⟨h1, h2⟩ := document_off i hn hd
      have hp := docParent hr n (i.wf.fresh n hn) hd
      have hl : l = [n] := by
        cases ha with
        | root => rfl
        | up h3 _ =>
          exact absurd (parentNode_up h3).1 (by simp [hp])
      rw [if_pos h1, hl]
      refine ⟨none, rfl, ?_⟩
      intro x hx
      cases List.mem_singleton.mp hx
      exact h2 pfx
    · have ho : addNamespaces h n = true := by
        rcases hon n hmem with h1 | h1
        · exact absurd h1 hd
        · exact addNamespaces_iff.mpr h1
      have hget := getNamespace_iff i hn ho pfx
      rw [if_neg (by simp [ho])]
      cases hg : getNamespace h n pfx with
      | some u =>
        simp only
        refine ⟨some u, rfl, ?_⟩
        cases ha with
        | root => exact ⟨[], n, [], rfl, (hget u).mp hg, by simp⟩
        | @up _ p l _ _ => exact ⟨[], n, l, rfl, (hget u).mp hg, by simp⟩
      | none =>
        have hno : ∀ u, ¬ Declares h n pfx u := by
          intro u hu
          have := (hget u).mpr hu
          rw [hg] at this
          cases this
        simp only
        cases ha with
        | root hp =>
          have : (h.get n).parent = none := by
            cases hw : (h.get n).parent with
            | none => rfl
            | some w =>
              exact absurd hp (hkept n hmem (by rw [hw]; simp))
          rw [this]
          refine ⟨none, rfl, ?_⟩
          intro x hx
          cases List.mem_singleton.mp hx
          exact hno
        | @up _ p l hp ht =>
          obtain ⟨h1, h2⟩ := parentNode_up hp
          rw [h1]
          simp only [show h.upgrade (some p) = some p from Heap.upgrade_some.mpr ⟨rfl, h2⟩]
          obtain ⟨r, h3, h4⟩ := ih p l h2 ht (fun m hm => hon m (List.mem_cons_of_mem _ hm))
            (fun m hm => hkept m (List.mem_cons_of_mem _ hm)) (by simpa using hfuel)
          exact ⟨r, h3, h4.cons hno⟩

/-- C47, termination: with acyclic parent links the chain of ancestors of a node is finite,
no longer than the number of nodes ever made. -/
theorem C47_terminates (h : Heap) (n : NodeId) (hr : Reachable h) (hn : h.live n = true)
    (hac : ParentsAcyclic h) : ∃ l, Ancestry h n l ∧ l.length ≤ h.next := by
  have w := hr.wf
  have step : ∀ k n, h.live n = true → (∃ l, Ancestry h n l) ∨
      ∃ l, IsPath (fun a b => parentNode h a = some b) (n :: l) ∧ l.length = k ∧
        ∀ x ∈ n :: l, x < h.next := by
    intro k
    induction k with
    | zero => intro n hn; exact Or.inr ⟨[], trivial, rfl, by simpa using w.fresh n hn⟩
    | succ k ih =>
      intro n hn
      cases hp : parentNode h n with
      | none => exact Or.inl ⟨_, .root hp⟩
      | some p =>
        rcases ih p (parentNode_up hp).2 with ⟨l, hl⟩ | ⟨l, h1, h2, h3⟩
        · exact Or.inl ⟨_, .up hp hl⟩
        · refine Or.inr ⟨p :: l, ⟨hp, h1⟩, by simp [h2], ?_⟩
          intro x hx
          rcases List.mem_cons.mp hx with rfl | hx
          · exact w.fresh _ hn
          · exact h3 x hx
  have path : ∀ {n l}, Ancestry h n l → h.live n = true →
      IsPath (fun a b => parentNode h a = some b) l ∧ (∀ x ∈ l, x < h.next) ∧ ∃ t, l = n :: t := by
    intro n l hl
    induction hl with
    | root _ => intro hn; exact ⟨trivial, by simpa using w.fresh _ hn, _, rfl⟩
    | up hp _ ih =>
      intro hn
      obtain ⟨h1, h2, t, rfl⟩ := ih (parentNode_up hp).2
      refine ⟨⟨hp, h1⟩, ?_, _, rfl⟩
      intro x hx
      rcases List.mem_cons.mp hx with rfl | hx
      · exact w.fresh _ hn
      · exact h2 x hx
  rcases step h.next n hn with ⟨l, hl⟩ | ⟨l, h1, h2, h3⟩
  · obtain ⟨h1, h2, _⟩ := path hl hn
    exact ⟨l, hl, h1.length_le hac h2⟩
  · have := h1.length_le hac h3
    rw [List.length_cons, h2] at this
    exact absurd this (Nat.not_succ_le_self _)

/-- Three levels with declarations at the top and in the middle. -/
def nsOps : List Op :=
  [mkDoc, .createElement 0 (c! "a"), .createElement 0 (c! "b"), .appendChild 2 3, .appendChild 1 2,
    .setAttributeNs 1 Syn.xmlnsNsUri (c! "xmlns") (c! "u"),
    .setAttributeNs 2 Syn.xmlnsNsUri (c! "xmlns") (c! "v")]

/-- The hypotheses can be met. -/
example : Ancestry (after nsOps) 3 [3, 2, 1, 0] ∧
    (∀ m ∈ [3, 2, 1, 0], nodeType (after nsOps) m = .document ∨ NamespacesOn (after nsOps) m) ∧
    (∀ m ∈ [3, 2, 1, 0], ParentKept (after nsOps) m) ∧
    resolveNamespace (after nsOps) 4 3 none = .ok (some (c! "v")) ∧
    resolveNamespace (after nsOps) 4 3 (some (c! "p")) = .ok none := by
  refine ⟨.up (by decide) (.up (by decide) (.up (by decide) (.root (by decide)))), ?_, ?_,
    by decide, by decide⟩
  · have : ∀ m ∈ [3, 2, 1, 0], nodeType (after nsOps) m = .document ∨
        addNamespaces (after nsOps) m = true := by decide
    exact fun m hm => (this m hm).imp id addNamespaces_iff.mp
  · unfold ParentKept
    decide

/-! ## C48 -/

/-- What an element with the option on answers about itself, in every iteration order. -/
theorem getPrefix_sound {e : Env} (he : e.Ok) {h : Heap} {n : NodeId} {uri : Str} :
    (∀ p, prefixMeaning (getPrefix e h n uri) = some p → Declares h n p uri) ∧
    (addNamespaces h n = true → getPrefix e h n uri = .none → ∀ p, ¬ Declares h n p uri) := by
  unfold getPrefix
  by_cases ho : addNamespaces h n = false
  · rw [if_pos ho]
    exact ⟨fun p hp => (by simp [prefixMeaning] at hp), fun h1 => by rw [ho] at h1; cases h1⟩
  · rw [if_neg ho]
    cases hm : nsMap h n with
    | none =>
      exact ⟨fun p hp => (by simp [prefixMeaning] at hp), fun _ _ p => nsMap_none hm p uri⟩
    | some m =>
      simp only
      have hperm := he.nsOrder n m
      cases hf : (e.nsOrder n m).find? (fun kv => decide (kv.2 = uri)) with
      | none =>
        refine ⟨fun p hp => (by simp [prefixMeaning] at hp), fun _ _ p hd => ?_⟩
        rw [nsMap_eq hm] at hd
        have := List.find?_eq_none.mp hf _ (hperm.mem_iff.mpr hd)
        simp at this
      | some kv =>
        obtain ⟨k, v⟩ := kv
        have h1 := List.find?_some hf
        have h2 := hperm.mem_iff.mp (List.mem_of_find?_eq_some hf)
        simp only [decide_eq_true_eq] at h1
        subst h1
        cases k with
        | none =>
          refine ⟨fun p hp => ?_, fun _ h3 => by cases h3⟩
          simp only [prefixMeaning, Option.some.injEq] at hp
          subst hp
          exact (nsMap_eq hm _ _).mpr h2
        | some k =>
          refine ⟨fun p hp => ?_, fun _ h3 => by cases h3⟩
          simp only [prefixMeaning, Option.some.injEq] at hp
          subst hp
          exact (nsMap_eq hm _ _).mpr h2

/-- C48, `get_prefix`: a prefix that is returned is mapped to the uri by the element, and
nothing is returned only when the element maps nothing to the uri. -/
theorem C48_get_prefix (e : Env) (h : Heap) (n : NodeId) (uri : Str) (he : e.Ok) :
    (∀ p, prefixMeaning (getPrefix e h n uri) = some p → Declares h n p uri) ∧
    (NamespacesOn h n → getPrefix e h n uri = .none → ∀ p, ¬ Declares h n p uri) :=
  ⟨(getPrefix_sound he).1, fun h1 => (getPrefix_sound he).2 (addNamespaces_iff.mpr h1)⟩

/-- C48, `contains_mapped_namespace` says whether the element maps something to the uri. -/
theorem C48_contains_mapped (e : Env) (h : Heap) (n : NodeId) (uri : Str) (he : e.Ok)
    (hon : NamespacesOn h n) :
    containsMappedNamespace e h n uri = true ↔ ∃ p, Declares h n p uri := by
  obtain ⟨h1, h2⟩ := C48_get_prefix e h n uri he
  unfold containsMappedNamespace
  rw [decide_eq_true_eq]
  constructor
  · intro h3
    cases hg : getPrefix e h n uri with
    | none => exact absurd hg h3
    | default => exact ⟨none, h1 none (by rw [hg]; rfl)⟩
    | some k => exact ⟨some k, h1 (some k) (by rw [hg]; rfl)⟩
  · rintro ⟨p, hp⟩ h3
    exact h2 hon h3 p hp

/-- C48, `resolve_prefix`: whatever the iteration order, a prefix that is returned is mapped
to the uri by the nearest inclusive ancestor that maps anything to it, and `None` is returned
only when no inclusive ancestor maps anything to the uri. -/
theorem C48_resolve_prefix (e : Env) (h : Heap) (n : NodeId) (l : List NodeId) (uri : Str)
    (fuel : Nat) (r : NamespacePrefix) (he : e.Ok) (hr : Reachable h) (hn : h.live n = true)
    (ha : Ancestry h n l) (hon : ∀ m ∈ l, nodeType h m = .document ∨ NamespacesOn h m)
    (hok : resolvePrefix e h fuel n uri = .ok r) :
    match prefixMeaning r with
    | some p => ∃ a m b, l = a ++ m :: b ∧ Declares h m p uri ∧
        ∀ x ∈ a, ∀ q, ¬ Declares h x q uri
    | none => ∀ m ∈ l, ∀ q, ¬ Declares h m q uri := by
  have i := hr.invariant
  induction fuel generalizing n l with
  | zero => cases hok
  | succ fuel ih =>
    unfold resolvePrefix at hok
    have hmem : n ∈ l := by cases ha <;> simp
    obtain ⟨t, hl⟩ : ∃ t, l = n :: t := by cases ha <;> exact ⟨_, rfl⟩
    by_cases hd : nodeType h n = .document
    · obtain ⟨h1, h2⟩ := document_off i hn hd
      have hp := docParent hr n (i.wf.fresh n hn) hd
      have hl : l = [n] := by
        cases ha with
        | root => rfl
        | up h3 _ => exact absurd (parentNode_up h3).1 (by simp [hp])
      rw [if_pos h1] at hok
      cases hok
      simp only [prefixMeaning]
      rw [hl]
      intro m hm q
      cases List.mem_singleton.mp hm
      exact h2 q uri
    · have ho : addNamespaces h n = true := by
        rcases hon n hmem with h1 | h1
        · exact absurd h1 hd
        · exact addNamespaces_iff.mpr h1
      rw [if_neg (by simp [ho])] at hok
      obtain ⟨h1, h2⟩ := getPrefix_sound (n := n) (h := h) (uri := uri) he
      cases hg : getPrefix e h n uri with
      | default =>
        rw [hg] at hok h1
        cases hok
        exact ⟨[], n, t, hl, h1 none rfl, by simp⟩
      | some k =>
        rw [hg] at hok h1
        cases hok
        exact ⟨[], n, t, hl, h1 (some k) rfl, by simp⟩
      | none =>
        have hno := h2 ho hg
        rw [hg] at hok
        simp only at hok
        cases ha with
        | root hp =>
          split at hok
          · cases hok
            simp only [prefixMeaning]
            intro m hm q
            cases List.mem_singleton.mp hm
            exact hno q
          · rename_i w hw
            split at hok
            · cases hok
            · rename_i p hu
              obtain ⟨hu1, hu2⟩ := Heap.upgrade_some.mp hu
              cases hu1
              exfalso
              have : (h.get n).ntype = .attribute := by
                by_cases ht : (h.get n).ntype = .attribute
                · exact ht
                · rw [parentNode_eq_some.mpr ⟨ht, hw, hu2⟩] at hp
                  cases hp
              exact absurd this (attr_noParent hr hn hw)
        | @up _ p l hp ht =>
          obtain ⟨h3, h4⟩ := parentNode_up hp
          rw [h3] at hok
          simp only [show h.upgrade (some p) = some p from Heap.upgrade_some.mpr ⟨rfl, h4⟩] at hok
          have := ih p l h4 ht (fun m hm => hon m (List.mem_cons_of_mem _ hm)) hok
          cases hm : prefixMeaning r with
          | none =>
            rw [hm] at this
            intro m hm
            rcases List.mem_cons.mp hm with rfl | hm
            · exact hno
            · exact this m hm
          | some q =>
            rw [hm] at this
            obtain ⟨a, m, b, rfl, h5, h6⟩ := this
            refine ⟨n :: a, m, b, rfl, h5, ?_⟩
            intro x hx
            rcases List.mem_cons.mp hx with rfl | hx
            · exact hno
            · exact h6 x hx

/-- The hypotheses can be met, with an answer and without. -/
example : Ancestry (after nsOps) 3 [3, 2, 1, 0] ∧
    resolvePrefix backEnv (after nsOps) 4 3 (c! "u") = .ok .default ∧
    resolvePrefix backEnv (after nsOps) 4 3 (c! "w") = .ok .none :=
  ⟨.up (by decide) (.up (by decide) (.up (by decide) (.root (by decide)))), by decide, by decide⟩

/-! ## Namespace maps and attributes -/

/-- The namespace map in an extension. -/
def nssOf : Ext → Option (List (Option Str × Str))
  | .element _ nss => some nss
  | _ => none

theorem nsMap_eq_nssOf (h : Heap) (n : NodeId) :
    nsMap h n = if (h.get n).ntype = .element then nssOf (h.get n).ext else none := by
  unfold nsMap
  split
  · cases (h.get n).ext <;> rfl
  · rfl

theorem nsMap_setExt (h : Heap) (n m : NodeId) (x : Ext) :
    nsMap (h.set n { h.get n with ext := x }) m =
      if m = n then (if (h.get n).ntype = .element then nssOf x else none) else nsMap h m := by
  rw [nsMap_eq_nssOf, nsMap_eq_nssOf h m]
  by_cases hm : m = n
  · subst hm; simp
  · simp [hm]

theorem nsMap_keep {h : Heap} {n : NodeId} {x : Ext} (hx : nssOf x = nssOf (h.get n).ext)
    (m : NodeId) : nsMap (h.set n { h.get n with ext := x }) m = nsMap h m := by
  rw [nsMap_setExt]
  split
  · rename_i hm
    subst hm
    rw [nsMap_eq_nssOf, hx]
  · rfl

theorem _root_.XmlDom.Frame.addNamespaces {h h' : Heap} (f : Frame h h') (w : WF h) {n : NodeId}
    (hn : h.live n = true) : addNamespaces h' n = addNamespaces h n := by
  have hlt := w.fresh n hn
  unfold XmlDom.addNamespaces ownerDocument
  rw [f.owner n hlt]
  cases ho : (h.get n).owner with
  | none => rfl
  | some d =>
    have hd : d < h.next := w.weak n hn d (by simp [weakRefs, ho])
    have hu : h'.upgrade (some d) = h.upgrade (some d) := by
      unfold Heap.upgrade
      simp only [f.live d hd]
    rw [hu]
    cases hq : h.upgrade (some d) with
    | none => rfl
    | some d' =>
      obtain ⟨h1, _⟩ := Heap.upgrade_some.mp hq
      cases h1
      simp only
      have := f.ext d hd
      revert this
      cases (h.get d).ext with
      | document x => rintro ⟨b, hb, _, h1⟩; rw [hb]; simp only [h1]
      | element _ _ => rintro ⟨b, c, hb⟩; rw [hb]
      | «attribute» _ => rintro ⟨b, hb⟩; rw [hb]
      | _ => intro hb; rw [show (h'.get d).ext = _ from hb]

/-- `record_id` changes no namespace map. -/
theorem recordId_nsMap (u : Uni) (h : Heap) (n a : NodeId) (nm : Name) (m : NodeId) :
    nsMap (recordId u h n a nm).2 m = nsMap h m := by
  unfold recordId
  split
  · rfl
  · rename_i d hd
    simp only
    split
    · rfl
    · cases hx : (h.get d).ext with
      | document x =>
        simp only
        split
        · split
          · rfl
          · rfl
          · rfl
          · rfl
          · split
            · rfl
            · exact nsMap_keep (by rw [hx]; rfl) m
        · rfl
      | _ =>
        simp only
        split <;> rfl

/-- What `set_attribute_node` does to the namespace maps: nothing to those of other nodes,
nothing at all without the option or for an attribute that is no namespace attribute, and
otherwise the prefix part of the name is mapped to the value. -/
theorem setAttributeNode_nsMap (e : Env) (h : Heap) (w : WF h) (n a : NodeId)
    (hn : h.live n = true) (ha : h.live a = true) :
    (∀ m, m ≠ n → nsMap (setAttributeNode e h n a).2 m = nsMap h m) ∧
    (addNamespaces h n = false → nsMap (setAttributeNode e h n a).2 n = nsMap h n) ∧
    ((h.get a).name.isNamespaceAttribute = false →
      nsMap (setAttributeNode e h n a).2 n = nsMap h n) ∧
    ∀ b uri nss, (setAttributeNode e h n a).1 = .ok b → addNamespaces h n = true →
      (h.get a).name.isNamespaceAttribute = true → attrValue e.uni h a = .ok (some uri) →
      nsMap h n = some nss →
      nsMap (setAttributeNode e h n a).2 n = some (mapInsert (h.get a).name.pfx uri nss) := by
  unfold setAttributeNode
  split
  · rename_i ht
    have hne : n ≠ a := fun hna => by
      subst hna
      rw [ht.1] at ht
      exact absurd ht.2 (by decide)
    split
    · exact ⟨fun _ _ => rfl, fun _ => rfl, fun _ => rfl, fun _ _ _ h1 => by cases h1⟩
    · exact ⟨fun _ _ => rfl, fun _ => rfl, fun _ => rfl, fun _ _ _ h1 => by cases h1⟩
    · exact ⟨fun _ _ => rfl, fun _ => rfl, fun _ => rfl, fun _ _ _ h1 => by cases h1⟩
    · split
      · rename_i o hx
        have f1 : Frame h (h.set a { h.get a with ext := .attribute (some n) }) :=
          Frame.set (by rw [hx]; exact ⟨_, rfl⟩)
        have m1 : ∀ m, nsMap (h.set a { h.get a with ext := .attribute (some n) }) m = nsMap h m :=
          nsMap_keep (by rw [hx]; rfl)
        have n1 : ((h.set a { h.get a with ext := .attribute (some n) }).get a).name =
            (h.get a).name := by simp
        have t1 : ((h.set a { h.get a with ext := .attribute (some n) }).get n).ntype =
            .element := by simp [hne, ht.1]
        simp only [n1]
        have v1 := f1.attrValue w e.uni ha
        have o1 := f1.addNamespaces w hn
        generalize h.set a { h.get a with ext := .attribute (some n) } = h1 at *
        -- the effect of recording the namespace
        have hrec : (∀ m, m ≠ n → nsMap (recordNamespace e.uni h1 n a (h.get a).name).2 m = nsMap h m) ∧
            (XmlDom.addNamespaces h n = false →
              nsMap (recordNamespace e.uni h1 n a (h.get a).name).2 n = nsMap h n) ∧
            ((h.get a).name.isNamespaceAttribute = false →
              nsMap (recordNamespace e.uni h1 n a (h.get a).name).2 n = nsMap h n) ∧
            ∀ uri nss, (recordNamespace e.uni h1 n a (h.get a).name).1 = .ok () →
              XmlDom.addNamespaces h n = true →
              (h.get a).name.isNamespaceAttribute = true → attrValue e.uni h a = .ok (some uri) →
              nsMap h n = some nss →
              nsMap (recordNamespace e.uni h1 n a (h.get a).name).2 n =
                some (mapInsert (h.get a).name.pfx uri nss) := by
          unfold recordNamespace
          split
          · rename_i hisn
            rw [v1]
            split
            · exact ⟨fun m _ => m1 m, fun _ => m1 n, fun _ => m1 n, fun _ _ h1 => by cases h1⟩
            · exact ⟨fun m _ => m1 m, fun _ => m1 n, fun _ => m1 n, fun _ _ h1 => by cases h1⟩
            · exact ⟨fun m _ => m1 m, fun _ => m1 n, fun _ => m1 n, fun _ _ h1 => by cases h1⟩
            · exact ⟨fun m _ => m1 m, fun _ => m1 n, fun _ => m1 n, fun _ _ h1 => by cases h1⟩
            · rename_i uri hv
              unfold insertMapping
              rw [o1]
              split
              · rename_i hoff
                exact ⟨fun m _ => m1 m, fun _ => m1 n, fun _ => m1 n,
                  fun _ _ _ h2 => by rw [hoff] at h2; cases h2⟩
              · rename_i hon
                split
                · rename_i attrs nss hx1
                  refine ⟨fun m hm => ?_, fun h2 => absurd h2 hon,
                    fun h2 => (by rw [hisn] at h2; cases h2), ?_⟩
                  · exact (nsMap_setExt _ _ _ _).trans ((if_neg hm).trans (m1 m))
                  · intro uri' nss' _ _ _ huri hnss
                    rw [hv] at huri
                    cases huri
                    have : nsMap h1 n = some nss := by rw [nsMap_eq_nssOf, if_pos t1, hx1]; rfl
                    rw [m1, hnss] at this
                    cases this
                    refine (nsMap_setExt _ _ _ _).trans ((if_pos rfl).trans ?_)
                    rw [if_pos t1]
                    rfl
                · exact ⟨fun m _ => m1 m, fun _ => m1 n, fun _ => m1 n, fun _ _ h1 => by cases h1⟩
          · rename_i hisn
            exact ⟨fun m _ => m1 m, fun _ => m1 n, fun _ => m1 n,
              fun _ _ _ _ h2 => absurd h2 hisn⟩
        generalize recordNamespace e.uni h1 n a (h.get a).name = q at *
        obtain ⟨o, h2⟩ := q
        simp only at hrec
        obtain ⟨r1, r2, r3, r4⟩ := hrec
        cases o with
        | err _ => exact ⟨r1, r2, r3, fun _ _ _ h1 => by cases h1⟩
        | panic _ => exact ⟨r1, r2, r3, fun _ _ _ h1 => by cases h1⟩
        | diverge => exact ⟨r1, r2, r3, fun _ _ _ h1 => by cases h1⟩
        | ok _ =>
          simp only
          have st : ∀ m, nsMap (storeAttribute e.uni h2 n a (h.get a).name).2 m = nsMap h2 m := by
            intro m
            unfold storeAttribute
            split
            · rename_i attrs nss hx2
              simp only
              rw [recordId_nsMap]
              exact nsMap_keep (by rw [hx2]; rfl) m
            · rfl
          refine ⟨fun m hm => (st m).trans (r1 m hm), fun ho => (st n).trans (r2 ho),
            fun hi => (st n).trans (r3 hi), ?_⟩
          intro b uri nss _ ho hi hv hm
          exact (st n).trans (r4 uri nss rfl ho hi hv hm)
      · exact ⟨fun _ _ => rfl, fun _ => rfl, fun _ => rfl, fun _ _ _ h1 => by cases h1⟩
  · exact ⟨fun _ _ => rfl, fun _ => rfl, fun _ => rfl, fun _ _ _ h1 => by cases h1⟩

/-- The same for `set_attribute` and `set_attribute_ns`. -/
theorem setAttributeNamed_nsMap (e : Env) (h : Heap) (he : e.Ok) (i : Inv h) (n : NodeId)
    (o : Outcome Name) (ho : ∀ nm, o = .ok nm → NameOk nm) (v : Str) (hn : h.live n = true) :
    (∀ m, m < h.next → m ≠ n → nsMap (setAttributeNamed e h n o v).2 m = nsMap h m) ∧
    (addNamespaces h n = false → nsMap (setAttributeNamed e h n o v).2 n = nsMap h n) ∧
    ∀ nm r, (setAttributeNamed e h n o v).1 = .ok () → addNamespaces h n = true → o = .ok nm →
      nm.isNamespaceAttribute = true → Normalizes v r →
      ∃ nss w, nsMap h n = some nss ∧ Trimmed r w ∧
        nsMap (setAttributeNamed e h n o v).2 n = some (mapInsert nm.pfx (escape w) nss) := by
  have ln := i.wf.fresh n hn
  unfold setAttributeNamed
  split
  · exact ⟨fun _ _ _ => rfl, fun _ => rfl, fun _ _ h1 => by cases h1⟩
  · exact ⟨fun _ _ _ => rfl, fun _ => rfl, fun _ _ h1 => by cases h1⟩
  · exact ⟨fun _ _ _ => rfl, fun _ => rfl, fun _ _ h1 => by cases h1⟩
  · rename_i nm
    split
    · exact ⟨fun _ _ _ => rfl, fun _ => rfl, fun _ _ h1 => by cases h1⟩
    · rename_i d on
      simp only [Result.void]
      have hsteps := newAttribute_steps (v := some v) (Or.inr ⟨n, hn, on⟩ : OwnerOk h d) (ho nm rfl)
      have i1 := hsteps.invariant i
      have f1 := Frame.newAttribute h d nm (some v)
      have hl1 := newAttribute_live h d nm (some v)
      have hne : ((h.next : NodeId) = h.next + 1) = False :=
        eq_false (Nat.ne_of_lt (Nat.lt_succ_self _))
      have node1 : ((h.newAttribute d nm (some v)).2.get (h.newAttribute d nm (some v)).1) =
          { ntype := .attribute, name := nm, value := none, parent := none,
            owner := some d, children := [h.next], ext := .attribute none } := by
        simp [Heap.newAttribute]
      have text1 : ((h.newAttribute d nm (some v)).2.get h.next) = Node.newText d v := by
        simp only [Heap.newAttribute, Heap.get_alloc, Heap.next_alloc, hne, if_false, if_true]
      have g1 : ∀ m, m < h.next → (h.newAttribute d nm (some v)).2.get m = h.get m := by
        intro m hm
        have h1 : m ≠ h.next := Nat.ne_of_lt hm
        have h2 : m ≠ h.next + 1 := Nat.ne_of_lt (Nat.lt_succ_of_lt hm)
        simp [Heap.newAttribute, h1, h2]
      have m1 : ∀ m, m < h.next → nsMap (h.newAttribute d nm (some v)).2 m = nsMap h m := by
        intro m hm
        unfold nsMap
        rw [g1 m hm]
      generalize (h.newAttribute d nm (some v)).2 = h1 at *
      generalize (h.newAttribute d nm (some v)).1 = a at *
      have hraw : attrRaw h1 a = v := by
        unfold attrRaw
        rw [node1]
        simp only [List.flatMap_cons, List.flatMap_nil, List.append_nil]
        unfold attrChildText
        rw [text1]
        rfl
      have o1 := f1.addNamespaces i.wf hn
      obtain ⟨k1, k2, _, k3⟩ := setAttributeNode_nsMap e h1 i1.wf n a ((f1.live n ln).trans hn) hl1
      refine ⟨fun m hm hmn => (k1 m hmn).trans (m1 m hm), fun hoff => (k2 (o1.trans hoff)).trans (m1 n ln), ?_⟩
      intro nm' r hok hon hnm hisn hv
      cases hnm
      obtain ⟨w, hw1, hw2⟩ := attrValue_normalizes (h := h1) (a := a) he.uni
        (by rw [node1]; simp) hraw hv
      have hok' : ∃ b, (setAttributeNode e h1 n a).1 = .ok b := by
        revert hok
        cases (setAttributeNode e h1 n a).1 <;> simp [Outcome.map]
      obtain ⟨b, hb⟩ := hok'
      have ht : (h.get n).ntype = .element := by
        unfold setAttributeNode at hb
        split at hb
        · rename_i ht; rw [← g1 n ln]; exact ht.1
        · cases hb
      obtain ⟨attrs, nss, hx⟩ : ∃ attrs nss, (h.get n).ext = .element attrs nss := by
        have := i.exts n ln
        rw [ht] at this
        exact this
      have hns : nsMap h n = some nss := by rw [nsMap_eq_nssOf, if_pos ht, hx]; rfl
      refine ⟨nss, w, hns, hw1, ?_⟩
      have := k3 b (escape w) nss hb (o1.trans hon) (by rw [node1]; exact hisn) hw2
        ((m1 n ln).trans hns)
      rw [node1] at this
      exact this

/-! ## C49 -/

/-- The name of the attribute that declares a prefix. -/
def declarationName : Option Str → Str
  | none => c! "xmlns"
  | some p => c! "xmlns:" ++ p

/-- C49: a declaration maps its prefix, with `set_attribute` and with
`set_attribute_ns`. -/
def C49_full : Prop :=
  ∀ (e : Env) (h h' : Heap) (n : NodeId) (pfx : Option Str) (uri : Str), e.Ok → Reachable h →
    h.live n = true → NamespacesOn h n → PlainUri uri → (∀ p, pfx = some p → IsNcName p) →
    (setAttribute e h n (declarationName pfx) uri = (.ok (), h') ∨
      setAttributeNs e h n Syn.xmlnsNsUri (declarationName pfx) uri = (.ok (), h')) →
    Declares h' n pfx uri

theorem plain_u : PlainUri (c! "u") := by
  intro c hc
  cases List.mem_singleton.mp hc
  decide

theorem declares_iff (h : Heap) (n : NodeId) (p : Option Str) (u : Str) :
    Declares h n p u ↔ ∃ m, nsMap h n = some m ∧ (p, u) ∈ m := by
  constructor
  · intro hd
    cases hm : nsMap h n with
    | none => exact absurd hd (nsMap_none hm _ _)
    | some m => exact ⟨m, rfl, (nsMap_eq hm _ _).mp hd⟩
  · rintro ⟨m, hm, h1⟩
    exact (nsMap_eq hm _ _).mpr h1

/-- C47: `contains_mapping` and `get_namespace` look at the element itself. -/
theorem C47_own_mapping (h : Heap) (n : NodeId) (p : Option Str) :
    (containsMapping h n p = true ↔ NamespacesOn h n ∧ ∃ u, Declares h n p u) ∧
    (∀ u, getNamespace h n p = some u → NamespacesOn h n ∧ Declares h n p u) ∧
    (NamespacesOn h n → getNamespace h n p = none → ∀ u, ¬ Declares h n p u) := by
  unfold containsMapping getNamespace
  simp only [declares_iff, ← addNamespaces_iff]
  cases addNamespaces h n with
  | false => simp
  | true =>
    simp only [Bool.true_eq_false, if_false, true_and]
    cases nsMap h n with
    | none => simp
    | some m =>
      simp only [Option.some.injEq, exists_eq_left']
      refine ⟨?_, fun u hu => mapGet_eq_some_mem hu, fun _ hg u hu => mapGet_eq_none.mp hg _ hu rfl⟩
      cases hg : mapGet p m with
      | none => simpa using fun u hu => mapGet_eq_none.mp hg _ hu rfl
      | some u => simpa using ⟨u, mapGet_eq_some_mem hg⟩

/-- C49 does not hold for `set_attribute`: the attribute is not in the xmlns namespace and
nothing is recorded. -/
theorem C49_full_false : ¬ C49_full := by
  intro hf
  have := hf plainEnv (after [mkDoc])
    (setAttribute plainEnv (after [mkDoc]) 1 (c! "xmlns") (c! "u")).2 1 none (c! "u") plainEnv_ok (reachable_after _) (by decide)
    (addNamespaces_iff.mp (by decide)) plain_u (by simp)
    (Or.inl (Prod.ext (by decide :
      (setAttribute plainEnv (after [mkDoc]) 1 (c! "xmlns") (c! "u")).1 = .ok ()) rfl))
  rw [declares_iff] at this
  obtain ⟨m, hm, h1⟩ := this
  have h2 : nsMap (setAttribute plainEnv (after [mkDoc]) 1 (c! "xmlns") (c! "u")).2 1 = some [] := by
    decide
  rw [h2] at hm
  cases hm
  cases h1

/-- C49 does not hold for `set_attribute_ns` either: `xmlns:p` maps the prefix `xmlns`
instead of `p`. -/
theorem C49_ns_full_false :
    Reachable (after [mkDoc]) ∧ NamespacesOn (after [mkDoc]) 1 ∧ ∃ h',
      setAttributeNs plainEnv (after [mkDoc]) 1 Syn.xmlnsNsUri (c! "xmlns:p") (c! "u") = (.ok (), h') ∧
      ¬ Declares h' 1 (some (c! "p")) (c! "u") ∧ Declares h' 1 (some (c! "xmlns")) (c! "u") := by
  refine ⟨reachable_after _, addNamespaces_iff.mp (by decide),
    (setAttributeNs plainEnv (after [mkDoc]) 1 Syn.xmlnsNsUri (c! "xmlns:p") (c! "u")).2,
    Prod.ext (by decide : (setAttributeNs plainEnv (after [mkDoc]) 1 Syn.xmlnsNsUri (c! "xmlns:p") (c! "u")).1 = .ok ()) rfl,
    ?_⟩
  have hm : nsMap (setAttributeNs plainEnv (after [mkDoc]) 1 Syn.xmlnsNsUri (c! "xmlns:p")
    (c! "u")).2 1 = some [(some (c! "xmlns"), c! "u")] := by decide
  rw [nsMap_eq hm, nsMap_eq hm]
  decide

/-- Plain uris are normal, trimmed and not escaped. -/
theorem _root_.XmlDom.Spec.PlainUri.normalizes {v : Str} (hv : PlainUri v) :
    Normalizes v v ∧ escape v = v ∧ ∀ w, Trimmed v w → w = v := by
  have hno : ∀ c, c ∈ (c! "&'><\"% \t\n\r\u0085\u2028") → c ∉ v := fun c hc hcv => hv c hcv hc
  refine ⟨⟨hno _ (by decide), v, ?_, ?_⟩, (C33_identity v).mpr ⟨hno _ (by decide),
    hno _ (by decide), hno _ (by decide), hno _ (by decide), hno _ (by decide)⟩, ?_⟩
  · rw [C34_spec]
    exact normalizeEol_clean (hno _ (by decide)) (hno _ (by decide)) (hno _ (by decide))
  · clear hno
    induction v with
    | nil => exact .nil
    | cons c v ih =>
      have h1 := hv c (by simp)
      refine .other c v v ?_ (ih fun d hd => hv d (List.mem_cons_of_mem _ hd))
      refine ⟨?_, ?_, ?_, ?_, ?_⟩ <;>
        · intro hc; subst hc; exact h1 (by decide)
  · rintro w ⟨⟨a, b, hw⟩, _, _⟩
    have hsp := hno ' ' (by decide)
    rw [hw] at hsp
    simp only [List.mem_append, List.mem_replicate, not_or, and_true, Decidable.not_not] at hsp
    rw [hw, hsp.1.1, hsp.2]
    simp

/-- The element answers its own declaration. -/
theorem resolve_own {h : Heap} {n : NodeId} {m : List (Option Str × Str)} {p : Option Str} {u : Str}
    (hon : addNamespaces h n = true) (hm : nsMap h n = some m) (hu : mapGet p m = some u)
    (fuel : Nat) : resolveNamespace h (fuel + 1) n p = .ok (some u) := by
  unfold resolveNamespace getNamespace
  rw [hon, hm]
  simp only [hu]
  simp

/-- C49 (partial: `set_attribute_ns` for the default prefix). The uri that is recorded is the
normalized, trimmed and escaped value. -/
theorem C49_default_partial (e : Env) (h h' : Heap) (n : NodeId) (v r : Str) (he : e.Ok)
    (hr : Reachable h) (hn : h.live n = true) (hon : NamespacesOn h n)
    (hs : setAttributeNs e h n Syn.xmlnsNsUri (declarationName none) v = (.ok (), h'))
    (hv : Normalizes v r) :
    ∃ w, Trimmed r w ∧ Declares h' n none (escape w) ∧
      ∀ fuel, resolveNamespace h' (fuel + 1) n none = .ok (some (escape w)) := by
  have i := hr.invariant
  have ho := addNamespaces_iff.mpr hon
  have hnm : Name.newNs Syn.xmlnsNsUri (declarationName none) =
    .ok ⟨some Syn.xmlnsNsUri, none, Syn.xmlnsPrefix⟩ := by decide
  obtain ⟨_, _, h3⟩ := setAttributeNamed_nsMap e h he i n
    (Name.newNs Syn.xmlnsNsUri (declarationName none)) (fun nm hh => nameOk_newNs hh) v hn
  have hf := (setAttributeNamed_effect e h (i.wf.fresh n hn)
    (Name.newNs Syn.xmlnsNsUri (declarationName none)) v).1
  rw [show setAttributeNamed e h n (Name.newNs Syn.xmlnsNsUri (declarationName none)) v =
    (.ok (), h') from hs] at h3 hf
  obtain ⟨nss, w, h4, h5, h6⟩ := h3 _ r rfl ho hnm (by decide) hv
  refine ⟨w, h5, (nsMap_eq h6 _ _).mpr (mem_mapInsert.mpr (Or.inl rfl)), fun fuel => ?_⟩
  exact resolve_own ((hf.addNamespaces i.wf hn).trans ho) h6 (by rw [mapGet_mapInsert, if_pos rfl]) fuel

/-- C49 for plain uris (partial: `set_attribute_ns` for the default prefix). -/
theorem C49_default_plain_partial (e : Env) (h h' : Heap) (n : NodeId) (uri : Str) (he : e.Ok)
    (hr : Reachable h) (hn : h.live n = true) (hon : NamespacesOn h n) (hp : PlainUri uri)
    (hs : setAttributeNs e h n Syn.xmlnsNsUri (declarationName none) uri = (.ok (), h')) :
    Declares h' n none uri ∧ ∀ fuel, resolveNamespace h' (fuel + 1) n none = .ok (some uri) := by
  obtain ⟨h1, h2, h3⟩ := hp.normalizes
  obtain ⟨w, h4, h5, h6⟩ := C49_default_partial e h h' n uri uri he hr hn hon hs h1
  rw [h3 w h4, h2] at h5 h6
  exact ⟨h5, h6⟩

/-- What `set_attribute_ns` does for the other prefixes: whatever the declared prefix is, the
prefix `xmlns` is mapped. -/
theorem C49_prefixed (e : Env) (h h' : Heap) (n : NodeId) (p uri : Str) (he : e.Ok)
    (hr : Reachable h) (hn : h.live n = true) (hon : NamespacesOn h n) (hp : PlainUri uri)
    (hs : setAttributeNs e h n Syn.xmlnsNsUri (declarationName (some p)) uri = (.ok (), h')) :
    Declares h' n (some (c! "xmlns")) uri ∧
      ∀ q u, q ≠ some (c! "xmlns") → (Declares h' n q u ↔ Declares h n q u) := by
  have i := hr.invariant
  have ho := addNamespaces_iff.mpr hon
  obtain ⟨_, _, h3⟩ := setAttributeNamed_nsMap e h he i n
    (Name.newNs Syn.xmlnsNsUri (declarationName (some p))) (fun nm hh => nameOk_newNs hh) uri hn
  rw [show setAttributeNamed e h n (Name.newNs Syn.xmlnsNsUri (declarationName (some p))) uri =
    (.ok (), h') from hs] at h3
  obtain ⟨nm, hnm⟩ : ∃ nm, Name.newNs Syn.xmlnsNsUri (declarationName (some p)) = .ok nm := by
    unfold setAttributeNs setAttributeNamed at hs
    cases hq : Name.newNs Syn.xmlnsNsUri (declarationName (some p)) with
    | ok nm => exact ⟨nm, rfl⟩
    | err _ => rw [hq] at hs; cases hs
    | panic _ => rw [hq] at hs; cases hs
    | diverge => rw [hq] at hs; cases hs
  obtain ⟨m, h4, _, h5, _, _⟩ := (C29_new_ns_ok _ _ _).mp hnm
  obtain ⟨_, _, h6⟩ := C27_only_qnames _ _ h4
  have hpfx : m.pfx = some (c! "xmlns") := by
    have hd : declarationName (some p) = (c! "xmlns") ++ ':' :: p := rfl
    rw [hd] at h6
    rcases h6 with ⟨_, h7⟩ | ⟨q, h7, h8⟩
    · have := (nameOk_fromStr h4).loc.2
      rw [h7] at this
      exact absurd (by simp) this
    · have hq := (nameOk_fromStr h4).pfx q h7
      rw [h7, ← (append_colon_inj (by decide) hq.2 h8).1]
  have hisn : nm.isNamespaceAttribute = true := by
    rw [h5]
    unfold Name.isNamespaceAttribute
    simp only [hpfx]
    exact decide_eq_true ⟨trivial, Or.inr rfl⟩
  obtain ⟨p1, p2, p3⟩ := hp.normalizes
  obtain ⟨nss, w, h7, h8, h9⟩ := h3 nm uri rfl ho hnm hisn p1
  rw [p3 w h8, p2, show nm.pfx = some (c! "xmlns") by rw [h5]; exact hpfx] at h9
  refine ⟨(nsMap_eq h9 _ _).mpr (mem_mapInsert.mpr (Or.inl rfl)), ?_⟩
  intro q u hq
  rw [nsMap_eq h9, nsMap_eq h7, mem_mapInsert]
  constructor
  · rintro (h1 | h1)
    · cases h1; exact absurd rfl hq
    · exact h1.1
  · intro h1; exact Or.inr ⟨h1, hq⟩

/-- The hypotheses can be met. -/
example : NamespacesOn (after [mkDoc]) 1 ∧ PlainUri (c! "u") ∧
    (setAttributeNs plainEnv (after [mkDoc]) 1 Syn.xmlnsNsUri (declarationName none) (c! "u")).1 =
      .ok () ∧
    (setAttributeNs plainEnv (after [mkDoc]) 1 Syn.xmlnsNsUri (declarationName (some (c! "p")))
      (c! "u")).1 = .ok () :=
  ⟨addNamespaces_iff.mp (by decide), plain_u, by decide, by decide⟩

/-! ## C50 -/

/-- C50, queries: without the option every namespace query returns nothing. -/
theorem C50_queries (e : Env) (h : Heap) (n : NodeId) (hoff : ¬ NamespacesOn h n)
    (pfx : Option Str) (uri : Str) :
    containsMapping h n pfx = false ∧ getNamespace h n pfx = none ∧
    (∀ fuel, resolveNamespace h (fuel + 1) n pfx = .ok none) ∧
    getPrefix e h n uri = .none ∧ containsMappedNamespace e h n uri = false ∧
    ∀ fuel, resolvePrefix e h (fuel + 1) n uri = .ok .none := by
  have ho : addNamespaces h n = false := by
    cases hh : addNamespaces h n with
    | false => rfl
    | true => exact absurd (addNamespaces_iff.mp hh) hoff
  have hg : getPrefix e h n uri = .none := by unfold getPrefix; rw [if_pos ho]
  refine ⟨?_, ?_, ?_, hg, ?_, ?_⟩
  · unfold containsMapping; rw [if_pos ho]
  · unfold getNamespace; rw [if_pos ho]
  · intro fuel; unfold resolveNamespace; rw [if_pos ho]
  · unfold containsMappedNamespace; rw [hg]; rfl
  · intro fuel; unfold resolvePrefix; rw [if_pos ho]

/-- C50, declarations: without the option setting attributes records nothing, whether the call
succeeds or not. -/
theorem C50_declarations (e : Env) (h h' : Heap) (n : NodeId) (he : e.Ok) (hr : Reachable h)
    (hn : h.live n = true) (hoff : ¬ NamespacesOn h n)
    (hs : (∃ name v, h' = (setAttribute e h n name v).2) ∨
      (∃ uri name v, h' = (setAttributeNs e h n uri name v).2) ∨
      ∃ a, h.live a = true ∧ h' = (setAttributeNode e h n a).2) :
    ∀ m p u, m < h.next → (Declares h' m p u ↔ Declares h m p u) := by
  have i := hr.invariant
  have ho : addNamespaces h n = false := by
    cases hh : addNamespaces h n with
    | false => rfl
    | true => exact absurd (addNamespaces_iff.mp hh) hoff
  have key : ∀ m, m < h.next → nsMap h' m = nsMap h m := by
    intro m hm
    rcases hs with ⟨name, v, rfl⟩ | ⟨uri, name, v, rfl⟩ | ⟨a, ha, rfl⟩
    · obtain ⟨h1, h2, _⟩ := setAttributeNamed_nsMap e h he i n (Name.fromStr name)
        (fun nm hh => nameOk_fromStr hh) v hn
      by_cases hmn : m = n
      · subst hmn; exact h2 ho
      · exact h1 m hm hmn
    · obtain ⟨h1, h2, _⟩ := setAttributeNamed_nsMap e h he i n (Name.newNs uri name)
        (fun nm hh => nameOk_newNs hh) v hn
      by_cases hmn : m = n
      · subst hmn; exact h2 ho
      · exact h1 m hm hmn
    · obtain ⟨h1, h2, _⟩ := setAttributeNode_nsMap e h i.wf n a hn ha
      by_cases hmn : m = n
      · subst hmn; exact h2 ho
      · exact h1 m hmn
  intro m p u hm
  rw [declares_iff, declares_iff, key m hm]

/-- The hypotheses can be met: a document without the option, an element with a
declaration. -/
example : ¬ NamespacesOn (after [.createDocument none (some (c! "r")) none Options.new]) 1 ∧
    (setAttributeNs plainEnv (after [.createDocument none (some (c! "r")) none Options.new]) 1
      Syn.xmlnsNsUri (c! "xmlns") (c! "u")).1 = .ok () :=
  ⟨by rw [← addNamespaces_iff]; decide, by decide⟩

end Props
end XmlDom
