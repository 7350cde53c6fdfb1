import Verif.Lemmas.Invariants
import Verif.Spec.Footprint

/-!
# Footprints: what the calls leave alone
-/

namespace XmlDom

open Spec

theorem _root_.XmlDom.Spec.IdsOnly.trans {x y z : Node} (a : IdsOnly x y) (b : IdsOnly y z) :
    IdsOnly x z := by
  obtain ⟨d, ids, h1, rfl⟩ := a
  obtain ⟨d', ids', h2, rfl⟩ := b
  simp only [Ext.document.injEq] at h2
  subst h2
  exact ⟨d, ids', h1, rfl⟩

/-- Parents and children of nodes of the set are in the set. -/
def Closed (F : NodeId → Prop) (h : Heap) : Prop :=
  ∀ m, F m → m < h.next → (∀ p, (h.get m).parent = some p → F p) ∧ ∀ c ∈ (h.get m).children, F c

/-- Only nodes in `F` change, except for the id maps of documents in `D`, and `F` stays
closed under parents and children. -/
structure Only (F D : NodeId → Prop) (h h' : Heap) : Prop where
  next : h.next ≤ h'.next
  live : ∀ m, m < h.next → h'.live m = h.live m
  get : ∀ m, m < h.next → ¬ F m → h'.get m = h.get m ∨ (D m ∧ IdsOnly (h.get m) (h'.get m))
  closed : Closed F h → Closed F h'

variable {F D : NodeId → Prop}

theorem Only.refl (h : Heap) : Only F D h h :=
  ⟨Nat.le_refl _, fun _ _ => rfl, fun _ _ _ => Or.inl rfl, id⟩

theorem Only.trans {a b c : Heap} (x : Only F D a b) (y : Only F D b c) : Only F D a c := by
  refine ⟨Nat.le_trans x.next y.next, ?_, ?_, fun h => y.closed (x.closed h)⟩
  · intro m hm
    rw [y.live m (Nat.lt_of_lt_of_le hm x.next), x.live m hm]
  · intro m hm hF
    rcases x.get m hm hF with h1 | ⟨hD, h1⟩ <;>
      rcases y.get m (Nat.lt_of_lt_of_le hm x.next) hF with h2 | ⟨hD', h2⟩
    · exact Or.inl (h2.trans h1)
    · exact Or.inr ⟨hD', h1 ▸ h2⟩
    · exact Or.inr ⟨hD, h2 ▸ h1⟩
    · exact Or.inr ⟨hD, h1.trans h2⟩

theorem Only.set {h : Heap} {n : NodeId} {x : Node} (hn : F n)
    (hp : Closed F h → n < h.next → ∀ p, x.parent = some p → F p)
    (hc : Closed F h → n < h.next → ∀ c ∈ x.children, F c) : Only F D h (h.set n x) := by
  refine ⟨Nat.le_refl _, fun _ _ => rfl, ?_, ?_⟩
  · intro m _ hF
    rw [Heap.get_set, if_neg (fun (he : m = n) => hF (he ▸ hn))]
    exact Or.inl rfl
  · intro hcl m hF hm
    rw [Heap.get_set]
    split
    · rename_i he
      subst he
      exact ⟨hp hcl hm, hc hcl hm⟩
    · exact hcl m hF hm

/-- Changing anything but parent and children. -/
theorem Only.keep {h : Heap} {n : NodeId} {x : Node} (hn : F n)
    (hp : x.parent = (h.get n).parent) (hc : x.children = (h.get n).children) :
    Only F D h (h.set n x) :=
  .set hn (fun hcl hm p h1 => (hcl n hn hm).1 p (hp ▸ h1))
    (fun hcl hm c h1 => (hcl n hn hm).2 c (hc ▸ h1))

theorem Only.ids {h : Heap} {d : NodeId} {x : DocExt} {ids : List (Str × NodeId)} (hD : D d)
    (hx : (h.get d).ext = .document x) :
    Only F D h (h.set d { h.get d with ext := .document { x with idMap := ids } }) := by
  refine ⟨Nat.le_refl _, fun _ _ => rfl, ?_, ?_⟩
  · intro m _ _
    rw [Heap.get_set]
    split
    · rename_i he
      subst he
      exact Or.inr ⟨hD, x, ids, hx, rfl⟩
    · exact Or.inl rfl
  · intro hcl m hF hm
    rw [Heap.get_set]
    split
    · rename_i he
      subst he
      exact hcl m hF hm
    · exact hcl m hF hm

theorem Only.alloc {h : Heap} {x : Node} (hp : x.parent = none) (hc : ∀ c ∈ x.children, F c) :
    Only F D h (h.alloc x).2 := by
  refine ⟨Nat.le_succ _, ?_, ?_, ?_⟩
  · intro m hm
    rw [Heap.live_alloc, if_neg (Nat.ne_of_lt hm)]
  · intro m hm _
    rw [Heap.get_alloc, if_neg (Nat.ne_of_lt hm)]
    exact Or.inl rfl
  · intro hcl m hF hm
    rw [Heap.get_alloc]
    split
    · exact ⟨fun p h1 => (by rw [hp] at h1; cases h1), hc⟩
    · rename_i hne
      refine hcl m hF (Nat.lt_of_le_of_ne (Nat.le_of_lt_succ hm) hne)

theorem Only.newAttribute {h : Heap} {d : NodeId} {nm : Name} {v : Option Str}
    (hn : F h.next) : Only F D h (h.newAttribute d nm v).2 := by
  unfold Heap.newAttribute
  split
  · refine (Only.alloc rfl (by simp [Node.newText])).trans (.alloc rfl ?_)
    intro c hc
    simp only [List.mem_singleton] at hc
    subst hc
    exact hn
  · exact .alloc rfl (by simp)

/-! ## Tree editing -/

theorem only_removeChild {h : Heap} {s o : NodeId} (hs : F s) (ho : F o) :
    Only F D h (removeChild h s o).2 := by
  unfold removeChild
  split
  · exact .refl _
  · refine (Only.set hs ?_ ?_).trans (.set ho ?_ ?_)
    · exact fun hcl hm p h1 => (hcl s hs hm).1 p h1
    · exact fun hcl hm c h1 => (hcl s hs hm).2 c (List.mem_of_mem_eraseIdx h1)
    · exact fun _ _ p h1 => by cases h1
    · exact fun hcl hm c h1 => (hcl o ho hm).2 c h1

theorem only_insertOrAppend {h : Heap} {s c : NodeId} {pos : Option Nat} (hs : F s) (hc : F c) :
    Only F D h (insertOrAppend h s c pos).2 := by
  unfold insertOrAppend
  split
  · refine .set hs (fun hcl hm => (hcl s hs hm).1) ?_
    intro hcl hm x hx
    rcases List.mem_append.mp hx with hx | hx
    · exact (hcl s hs hm).2 x hx
    · cases List.mem_singleton.mp hx; exact hc
  · split
    · rename_i hi
      refine .set hs (fun hcl hm => (hcl s hs hm).1) ?_
      intro hcl hm x hx
      rcases (List.mem_insertIdx hi).mp hx with rfl | hx
      · exact hc
      · exact (hcl s hs hm).2 x hx
    · exact .refl _

theorem only_placeChild {h : Heap} {s n : NodeId} {pos : Option Nat} (hs : F s) (hn : F n)
    (hnf : (h.get n).ntype ≠ .documentFragment) : Only F D h (placeChild h s n pos).2 := by
  unfold placeChild
  split
  · exact .refl _
  · simp only [Heap.get_set, if_true, if_neg hnf]
    have h1 : Only F D h (h.set n { h.get n with
        parent := some s
        owner := if (h.get s).ntype = .document then some s else (h.get s).owner }) := by
      refine .set hn ?_ (fun hcl hm => (hcl n hn hm).2)
      rintro _ _ p h1
      cases h1
      exact hs
    refine h1.trans ?_
    have h2 := only_insertOrAppend (D := D) (h := h.set n { h.get n with
        parent := some s
        owner := if (h.get s).ntype = .document then some s else (h.get s).owner }) (pos := pos) hs hn
    generalize insertOrAppend _ s n pos = q at h2 ⊢
    obtain ⟨o, h3⟩ := q
    cases o <;> exact h2

theorem notFragment_of_allowed {t : NodeType} {u : NodeType} (h : isChildAllowed t u = true) :
    u ≠ .documentFragment := by
  rintro rfl
  cases t <;> simp [isChildAllowed] at h

theorem only_insertBefore {h : Heap} {s n : NodeId} {r : Option NodeId} (hs : F s) (hn : F n)
    (hp : ∀ p, (h.get n).parent = some p → F p) : Only F D h (insertBefore h s n r).2 := by
  unfold insertBefore
  split
  · exact .refl _
  · rename_i ha
    have hnf := notFragment_of_allowed (by simpa using ha)
    split
    · exact .refl _
    · cases insertPosition h s r with
      | none => exact .refl _
      | some pos =>
        simp only
        cases checkSameDocument h s n with
        | ok _ =>
          simp only
          cases hq : parentNode h n with
          | none => exact only_placeChild hs hn hnf
          | some p =>
            simp only
            have hFp : F p := by
              unfold parentNode at hq
              split at hq
              · cases hq
              · exact hp p (Heap.upgrade_some.mp hq).1
            have h1 := only_removeChild (D := D) (h := h) hFp hn
            have ht : ∀ h1, (removeChild h p n).2 = h1 → (h1.get n).ntype ≠ .documentFragment := by
              rintro _ rfl
              unfold removeChild
              split
              · exact hnf
              · simp only [Heap.get_set]
                simp only [if_true]
                split
                · rename_i he; rw [← he]; exact hnf
                · exact hnf
            generalize removeChild h p n = q at h1 ht ⊢
            obtain ⟨o, h2⟩ := q
            cases o with
            | ok _ => exact h1.trans (only_placeChild hs hn (ht _ rfl))
            | err _ => exact h1
            | panic _ => exact h1
            | diverge => exact h1
        | err _ => exact .refl _
        | panic _ => exact .refl _
        | diverge => exact .refl _

theorem only_appendChild {h : Heap} {s n : NodeId} (hs : F s) (hn : F n)
    (hp : ∀ p, (h.get n).parent = some p → F p) : Only F D h (appendChild h s n).2 :=
  only_insertBefore hs hn hp

/-- After a removal a node has the parent it had, or none. -/
theorem removeChild_parent {h : Heap} {s o m p : NodeId}
    (hp : ((removeChild h s o).2.get m).parent = some p) : (h.get m).parent = some p := by
  unfold removeChild at hp
  split at hp
  · exact hp
  · simp only [Heap.get_set] at hp
    split at hp
    · cases hp
    · split at hp
      · rename_i he; rw [he]; exact hp
      · exact hp

theorem only_replaceChild {h : Heap} {s n o : NodeId} (hs : F s) (hn : F n) (ho : F o)
    (hp : ∀ p, (h.get n).parent = some p → F p) : Only F D h (replaceChild h s n o).2 := by
  unfold replaceChild
  split
  · exact .refl _
  · split
    · simp only
      have h1 := only_removeChild (D := D) (h := h) hs ho
      have h2 : ∀ h1, (removeChild h s o).2 = h1 → ∀ p, (h1.get n).parent = some p → F p := by
        rintro _ rfl p hq
        exact hp p (removeChild_parent hq)
      generalize removeChild h s o = q at h1 h2 ⊢
      obtain ⟨x, h3⟩ := q
      cases x with
      | ok _ =>
        simp only
        have h4 := only_insertBefore (D := D) (h := h3) (r := nextSibling h o) hs hn (h2 _ rfl)
        generalize insertBefore h3 s n (nextSibling h o) = q at h4 ⊢
        obtain ⟨y, h5⟩ := q
        cases y <;> exact h1.trans h4
      | err _ => exact h1
      | panic _ => exact h1
      | diverge => exact h1
    · exact .refl _

/-! ## Values -/

theorem only_storeValue {h : Heap} {n : NodeId} {r : Outcome (Option Str)} (hn : F n) :
    Only F D h (storeValue h n r).2 := by
  unfold storeValue
  cases r with
  | ok v => exact .keep hn rfl rfl
  | err _ => exact .refl _
  | panic _ => exact .refl _
  | diverge => exact .refl _

/-- The parent links and child lists of `h'` are among those of `h`. -/
def Fewer (h h' : Heap) : Prop :=
  (∀ m p, (h'.get m).parent = some p → (h.get m).parent = some p) ∧
    ∀ m, ∀ c ∈ (h'.get m).children, c ∈ (h.get m).children

theorem Fewer.refl (h : Heap) : Fewer h h := ⟨fun _ _ h => h, fun _ _ h => h⟩

theorem Fewer.trans {a b c : Heap} (x : Fewer a b) (y : Fewer b c) : Fewer a c :=
  ⟨fun m p h => x.1 m p (y.1 m p h), fun m z h => x.2 m z (y.2 m z h)⟩

theorem fewer_removeChild (h : Heap) (s o : NodeId) : Fewer h (removeChild h s o).2 := by
  refine ⟨fun m p h1 => removeChild_parent h1, ?_⟩
  intro m c hc
  unfold removeChild at hc
  split at hc
  · exact hc
  · simp only [Heap.get_set] at hc
    split at hc
    · rename_i he
      subst he
      split at hc
      · rename_i he
        subst he
        exact List.mem_of_mem_eraseIdx hc
      · exact hc
    · split at hc
      · rename_i he
        subst he
        exact List.mem_of_mem_eraseIdx hc
      · exact hc

theorem fewer_value (h : Heap) (n : NodeId) (v : Option Str) :
    Fewer h (h.set n { h.get n with value := v }) := by
  refine ⟨?_, ?_⟩
  · intro m p hp
    rw [Heap.get_set] at hp
    split at hp
    · rename_i he; subst he; exact hp
    · exact hp
  · intro m c hc
    rw [Heap.get_set] at hc
    split at hc
    · rename_i he; subst he; exact hc
    · exact hc

/-- A previous sibling is a child of the parent. -/
theorem previousSibling_sub {h : Heap} {c l : NodeId} (hl : previousSibling h c = some l) :
    ∃ p, (h.get c).parent = some p ∧ l ∈ (h.get p).children := by
  unfold previousSibling at hl
  split at hl
  · cases hl
  · cases hw : (h.get c).parent with
    | none => rw [hw] at hl; cases hl
    | some w =>
      rw [hw] at hl
      simp only at hl
      cases hu : h.upgrade (some w) with
      | none => rw [hu] at hl; cases hl
      | some p =>
        have hp := (Heap.upgrade_some.mp hu).1
        cases hp
        rw [hu] at hl
        simp only at hl
        cases hi : position c (h.get w).children with
        | none => rw [hi] at hl; cases hl
        | some i =>
          rw [hi] at hl
          simp only at hl
          split at hl
          · cases hl
          · exact ⟨w, rfl, List.mem_of_getElem? hl⟩

theorem only_normalizeLoop {self : NodeId} (hs : F self) : ∀ (cs : List NodeId) (h : Heap),
    (∀ c ∈ cs, F c) → (∀ c ∈ cs, ∀ p, (h.get c).parent = some p → ∀ x ∈ (h.get p).children, F x) →
    Only F D h (normalizeLoop self cs h).2 := by
  intro cs
  induction cs with
  | nil => intro h _ _; exact .refl _
  | cons c cs ih =>
    intro h hcs hsib
    have hc := hcs c (by simp)
    have next : ∀ h', Fewer h h' → Only F D h h' → Only F D h (normalizeLoop self cs h').2 := by
      intro h' hf ho
      refine ho.trans (ih h' (fun x hx => hcs x (List.mem_cons_of_mem _ hx)) ?_)
      intro x hx p hp y hy
      exact hsib x (List.mem_cons_of_mem _ hx) p (hf.1 x p hp) y (hf.2 p y hy)
    unfold normalizeLoop
    split
    · split
      · have h1 := only_removeChild (D := D) (h := h) hs hc
        have h2 := fewer_removeChild h self c
        generalize removeChild h self c = q at h1 h2 ⊢
        obtain ⟨o, h3⟩ := q
        cases o with
        | ok _ => exact next h3 h2 h1
        | err _ => exact h1
        | panic _ => exact h1
        | diverge => exact h1
      · cases hp : previousSibling h c with
        | none => exact next h (.refl h) (.refl h)
        | some l =>
          simp only
          split
          · cases hv : (h.get c).value with
            | none => exact .refl _
            | some v =>
              simp only
              obtain ⟨p, h1, h2⟩ := previousSibling_sub hp
              have hl : F l := hsib c (by simp) p h1 l h2
              have o1 : Only F D h (nodeAppendData h l v).2 := .keep hl rfl rfl
              have f1 : Fewer h (nodeAppendData h l v).2 := fewer_value h l _
              have o2 := only_removeChild (D := D) (h := (nodeAppendData h l v).2) hs hc
              have f2 := fewer_removeChild (nodeAppendData h l v).2 self c
              generalize removeChild (nodeAppendData h l v).2 self c = q at o2 f2 ⊢
              obtain ⟨o, h3⟩ := q
              cases o with
              | ok _ => exact next h3 (f1.trans f2) (o1.trans o2)
              | err _ => exact o1.trans o2
              | panic _ => exact o1.trans o2
              | diverge => exact o1.trans o2
          · exact next h (.refl h) (.refl h)
    · exact next h (.refl h) (.refl h)

theorem only_splitTail {h : Heap} {n : NodeId} {s : Str} (hn : n < h.next)
    (hp : ∀ p, (h.get n).parent = some p → F p) (hnew : F h.next) :
    Only F D h (splitTail h n s).2 := by
  have mk : ∀ x : Node, x.parent = none → x.children = [] →
      Only F D h (match parentNode (h.alloc x).2 n with
        | none => ((.ok (h.alloc x).1, (h.alloc x).2) : Result NodeId)
        | some p =>
          match insertBefore (h.alloc x).2 p (h.alloc x).1 (nextSibling (h.alloc x).2 n) with
          | (.ok _, h2) => (.ok (h.alloc x).1, h2)
          | q => q).2 := by
    intro x h1 h2
    have o1 : Only F D h (h.alloc x).2 := .alloc h1 (by rw [h2]; simp)
    cases hq : parentNode (h.alloc x).2 n with
    | none => exact o1
    | some p =>
      simp only
      have hFp : F p := by
        unfold parentNode at hq
        split at hq
        · cases hq
        · have := (Heap.upgrade_some.mp hq).1
          rw [Heap.get_alloc, if_neg (Nat.ne_of_lt hn)] at this
          exact hp p this
      have o2 := only_insertBefore (D := D) (h := (h.alloc x).2) (s := p) (n := (h.alloc x).1)
        (r := nextSibling (h.alloc x).2 n) hFp hnew (by
          intro q hq'
          simp [h1] at hq')
      generalize insertBefore (h.alloc x).2 p (h.alloc x).1 (nextSibling (h.alloc x).2 n) = q
        at o2 ⊢
      obtain ⟨o, h3⟩ := q
      cases o <;> exact o1.trans o2
  unfold splitTail
  cases (h.get n).ntype with
  | text =>
    simp only
    cases (h.get n).owner with
    | none => exact .refl _
    | some d => exact mk (Node.newText d s) rfl rfl
  | cdata =>
    simp only
    cases (h.get n).owner with
    | none => exact .refl _
    | some d => exact mk (Node.newCdata d s) rfl rfl
  | _ => exact .refl _

theorem only_splitText {ov : Bool} {h : Heap} {n : NodeId} {i : Nat} (hn : n < h.next) (hF : F n)
    (hp : ∀ p, (h.get n).parent = some p → F p) (hnew : F h.next) :
    Only F D h (splitText ov h n i).2 := by
  unfold splitText
  split
  · exact .refl _
  · simp only
    split
    · exact only_splitTail hn hp hnew
    · cases nodeSubstringData ov h n i (charLength h n - i) with
      | ok s =>
        simp only
        have o1 : Only F D h (nodeDeleteData ov h n i (charLength h n - i)).2 :=
          only_storeValue hF
        have f1 : Fewer h (nodeDeleteData ov h n i (charLength h n - i)).2 := by
          unfold nodeDeleteData storeValue
          split
          · exact fewer_value _ _ _
          all_goals exact .refl _
        have n1 : (nodeDeleteData ov h n i (charLength h n - i)).2.next = h.next := by
          unfold nodeDeleteData storeValue
          split <;> rfl
        generalize nodeDeleteData ov h n i (charLength h n - i) = q at o1 f1 n1 ⊢
        obtain ⟨o, h1⟩ := q
        simp only at o1 f1 n1
        cases o with
        | ok _ =>
          refine o1.trans (only_splitTail (n1 ▸ hn) (fun p h2 => hp p (f1.1 n p h2)) ?_)
          rw [n1]; exact hnew
        | err _ => exact o1
        | panic _ => exact o1
        | diverge => exact o1
      | err _ => exact .refl _
      | panic _ => exact .refl _
      | diverge => exact .refl _

theorem only_unsetValue {h : Heap} {a : NodeId} (ha : F a) : Only F D h (unsetValue h a).2 :=
  .set ha (fun hcl hm => (hcl a ha hm).1) (fun _ _ _ h1 => by cases h1)

theorem only_setValue {h : Heap} {a : NodeId} {v : Str} (ha : F a) (hnew : F h.next) :
    Only F D h (setValue h a v).2 := by
  unfold setValue
  have o1 := only_unsetValue (D := D) (h := h) ha
  have n1 : (unsetValue h a).2.next = h.next := rfl
  generalize (unsetValue h a).2 = h1 at o1 n1 ⊢
  simp only
  cases ownerDocument h1 a with
  | none => exact o1
  | some d =>
    simp only
    split
    · refine o1.trans ?_
      have o2 : Only F D h1 (h1.alloc (Node.newText d v)).2 := .alloc rfl (by simp [Node.newText])
      have o3 := only_appendChild (D := D) (h := (h1.alloc (Node.newText d v)).2) (s := a)
        (n := (h1.alloc (Node.newText d v)).1) ha (by rw [Heap.alloc_fst, n1]; exact hnew) (by
          intro q hq; simp [Node.newText] at hq)
      generalize appendChild (h1.alloc (Node.newText d v)).2 a (h1.alloc (Node.newText d v)).1 = q
        at o3 ⊢
      obtain ⟨o, h3⟩ := q
      cases o <;> exact o2.trans o3
    · exact o1

/-! ## Attributes -/

theorem only_insertMapping {h : Heap} {n : NodeId} {p : Option Str} {u : Str} (hn : F n) :
    Only F D h (insertMapping h n p u).2 := by
  unfold insertMapping
  split
  · exact .refl _
  · split
    · split
      · exact .keep hn rfl rfl
      · exact .refl _
    · exact .refl _

theorem only_recordNamespace {u : Uni} {h : Heap} {n a : NodeId} {nm : Name} (hn : F n) :
    Only F D h (recordNamespace u h n a nm).2 := by
  unfold recordNamespace
  split
  · cases attrValue u h a with
    | ok v =>
      cases v with
      | none => exact .refl _
      | some s => exact only_insertMapping hn
    | err _ => exact .refl _
    | panic _ => exact .refl _
    | diverge => exact .refl _
  · exact .refl _

theorem insertMapping_owner {h : Heap} {n m : NodeId} {p : Option Str} {u : Str} :
    ((insertMapping h n p u).2.get m).owner = (h.get m).owner := by
  unfold insertMapping
  split
  · rfl
  · split
    · split
      · simp only [Heap.get_set]
        split
        · rename_i he; rw [he]
        · rfl
      · rfl
    · rfl

theorem recordNamespace_owner {u : Uni} {h : Heap} {n a m : NodeId} {nm : Name} :
    ((recordNamespace u h n a nm).2.get m).owner = (h.get m).owner := by
  unfold recordNamespace
  split
  · cases attrValue u h a with
    | ok v =>
      cases v with
      | none => rfl
      | some s => exact insertMapping_owner
    | err _ => rfl
    | panic _ => rfl
    | diverge => rfl
  · rfl

theorem only_recordId {u : Uni} {h : Heap} {n a : NodeId} {nm : Name}
    (hD : ∀ d, (h.get a).owner = some d → D d) : Only F D h (recordId u h n a nm).2 := by
  unfold recordId
  cases ho : ownerDocument h a with
  | none => exact .refl _
  | some d =>
    have hd := hD d (Heap.upgrade_some.mp ho).1
    simp only
    split
    · exact .refl _
    · cases hx : (h.get d).ext with
      | document x =>
        simp only
        split
        · cases attrValue u h a with
          | ok v =>
            cases v with
            | none => exact .refl _
            | some s =>
              simp only
              split
              · exact .refl _
              · exact .ids hd hx
          | err _ => exact .refl _
          | panic _ => exact .refl _
          | diverge => exact .refl _
        · exact .refl _
      | _ => simp only; split <;> exact .refl _

theorem only_storeAttribute {u : Uni} {h : Heap} {n a : NodeId} {nm : Name} (hn : F n)
    (hD : ∀ d, (h.get a).owner = some d → D d) : Only F D h (storeAttribute u h n a nm).2 := by
  unfold storeAttribute
  cases hx : (h.get n).ext with
  | element attrs nss =>
    simp only
    refine Only.trans (Only.keep (x := { h.get n with
      ext := .element (mapInsert (h.get a).name a attrs) nss }) hn rfl rfl) (only_recordId ?_)
    intro d hd
    rw [Heap.get_set] at hd
    split at hd
    · rename_i he; subst he; exact hD d hd
    · exact hD d hd
  | _ => exact .refl _

theorem only_setAttributeNode {e : Env} {h : Heap} {n a : NodeId} (hn : F n) (ha : F a)
    (hD : ∀ d, (h.get a).owner = some d → D d) : Only F D h (setAttributeNode e h n a).2 := by
  unfold setAttributeNode
  split
  · cases checkSameDocument h n a with
    | ok _ =>
      simp only
      cases hx : (h.get a).ext with
      | «attribute» w =>
        simp only
        have o1 : Only F D h (h.set a { h.get a with ext := .attribute (some n) }) :=
          .keep ha rfl rfl
        have w1 : ((h.set a { h.get a with ext := .attribute (some n) }).get a).owner =
            (h.get a).owner := by simp [Heap.get_set]
        generalize h.set a { h.get a with ext := .attribute (some n) } = h1 at o1 w1 ⊢
        have o2 := only_recordNamespace (D := D) (u := e.uni) (h := h1) (a := a)
          (nm := (h1.get a).name) hn
        have w2 := recordNamespace_owner (u := e.uni) (h := h1) (n := n) (a := a) (m := a)
          (nm := (h1.get a).name)
        generalize recordNamespace e.uni h1 n a (h1.get a).name = q at o2 w2 ⊢
        obtain ⟨o, h2⟩ := q
        cases o with
        | ok _ =>
          refine o1.trans (o2.trans (only_storeAttribute hn ?_))
          intro d hd
          exact hD d (w1 ▸ w2 ▸ hd)
        | err _ => exact o1.trans o2
        | panic _ => exact o1.trans o2
        | diverge => exact o1.trans o2
      | _ => exact .refl _
    | err _ => exact .refl _
    | panic _ => exact .refl _
    | diverge => exact .refl _
  · exact .refl _

theorem newAttribute_fst (h : Heap) (d : NodeId) (nm : Name) (v : Option Str) :
    h.next ≤ (h.newAttribute d nm v).1 := by
  unfold Heap.newAttribute
  cases v with
  | none => exact Nat.le_refl _
  | some s => exact Nat.le_succ _

theorem newAttribute_owner (h : Heap) (d : NodeId) (nm : Name) (v : Option Str) :
    ((h.newAttribute d nm v).2.get (h.newAttribute d nm v).1).owner = some d := by
  unfold Heap.newAttribute
  cases v <;> simp

theorem only_setAttributeNamed {e : Env} {h : Heap} {n : NodeId} {o : Outcome Name} {v : Str}
    (hn : F n) (hnew : ∀ m, h.next ≤ m → F m) (hD : ∀ d, (h.get n).owner = some d → D d) :
    Only F D h (setAttributeNamed e h n o v).2 := by
  unfold setAttributeNamed
  cases o with
  | ok nm =>
    simp only
    cases ho : (h.get n).owner with
    | none => exact .refl _
    | some d =>
      simp only
      refine Only.trans (Only.newAttribute (d := d) (nm := nm) (v := some v)
        (hnew _ (Nat.le_refl _))) ?_
      refine only_setAttributeNode hn (hnew _ (newAttribute_fst _ _ _ _)) ?_
      intro d' hd
      rw [newAttribute_owner] at hd
      cases hd
      exact hD d ho
  | err _ => exact .refl _
  | panic _ => exact .refl _
  | diverge => exact .refl _

theorem Only.noop {h : Heap} {n : NodeId} {x : Node} (hx : x = h.get n) :
    Only F D h (h.set n x) := by
  subst hx
  have hg : ∀ m, (h.set n (h.get n)).get m = h.get m := by
    intro m
    rw [Heap.get_set]
    split
    · rename_i he; rw [he]
    · rfl
  exact ⟨Nat.le_refl _, fun _ _ => rfl, fun m _ _ => Or.inl (hg m),
    fun hcl m hm hlt => by rw [hg]; exact hcl m hm hlt⟩

/-- Removing an attribute node changes the node itself only if it has a parent link. -/
theorem only_removeAttributeNode {h : Heap} {n a : NodeId} (hn : F n)
    (ha : F a ∨ (h.get a).parent = none) : Only F D h (removeAttributeNode h n a).2 := by
  unfold removeAttributeNode
  split
  · cases hx : (h.get n).ext with
    | element attrs nss =>
      simp only
      split
      · exact .refl _
      · rename_i hne
        have o1 : Only F D h (h.set n { h.get n with
          ext := .element (mapRemove (h.get a).name attrs) nss }) := .keep hn rfl rfl
        refine o1.trans ?_
        rcases ha with ha | ha
        · exact .set ha (fun _ _ _ h1 => by cases h1) (fun hcl hm => (hcl a ha hm).2)
        · refine .noop ?_
          simp only [Heap.get_set, if_neg hne]
          rw [← ha]
    | _ => exact .refl _
  · exact .refl _

theorem only_removeFound {h : Heap} {n : NodeId} {o : Outcome (Option NodeId)} (hn : F n)
    (ha : ∀ a, o = .ok (some a) → (h.get a).parent = none) : Only F D h (removeFound h n o).2 := by
  unfold removeFound
  cases o with
  | ok v =>
    cases v with
    | none => exact .refl _
    | some a => exact only_removeAttributeNode hn (Or.inr (ha a rfl))
  | err _ => exact .refl _
  | panic _ => exact .refl _
  | diverge => exact .refl _

/-! ## Creation -/

theorem only_createNamed {h : Heap} {o : Outcome Name} {mk : Name → Node}
    (hp : ∀ nm, (mk nm).parent = none) (hc : ∀ nm, (mk nm).children = []) :
    Only F D h (createNamed h o mk).2 := by
  unfold createNamed
  cases o with
  | ok nm => exact .alloc (hp nm) (by rw [hc]; simp)
  | err _ => exact .refl _
  | panic _ => exact .refl _
  | diverge => exact .refl _

theorem only_createAttr {h : Heap} {d : NodeId} {o : Outcome Name} {v : Option Str}
    (hnew : F h.next) : Only F D h (createAttr h d o v).2 := by
  unfold createAttr
  cases o with
  | ok nm => exact .newAttribute hnew
  | err _ => exact .refl _
  | panic _ => exact .refl _
  | diverge => exact .refl _

theorem only_createProcessingInstruction {h : Heap} {d : NodeId} {t : Str} {x : Option Str} :
    Only F D h (createProcessingInstruction h d t x).2 := by
  unfold createProcessingInstruction
  split
  · exact .refl _
  · exact only_createNamed (fun _ => rfl) (fun _ => rfl)

/-- A node just created has no parent link. -/
theorem createNamed_parent {h h' : Heap} {o : Outcome Name} {mk : Name → Node} {n : NodeId}
    (hp : ∀ nm, (mk nm).parent = none) (hok : createNamed h o mk = (.ok n, h')) :
    n = h.next ∧ (h'.get n).parent = none := by
  unfold createNamed at hok
  cases o with
  | ok nm =>
    simp only [Prod.mk.injEq, Outcome.ok.injEq] at hok
    obtain ⟨rfl, rfl⟩ := hok
    exact ⟨rfl, by simp [hp]⟩
  | err _ => simp at hok
  | panic _ => simp at hok
  | diverge => simp at hok

theorem only_createDocument {h : Heap} {u q : Option Str} {dt : Option NodeId} {o : Options}
    (hnew : ∀ m, h.next ≤ m → F m) : Only F D h (createDocumentWithOptions h u q dt o).2 := by
  have o1 : Only F D h (h.alloc (Node.newDocument dt o)).2 := .alloc rfl (by simp [Node.newDocument])
  have attach : ∀ q : Result NodeId, Only F D (h.alloc (Node.newDocument dt o)).2 q.2 →
      (∀ n, q.1 = .ok n → h.next ≤ n ∧ (q.2.get n).parent = none) →
      Only F D h (match q with
        | (.ok el, h1) =>
          match appendChild h1 h.next el with
          | (.ok _, h2) => ((.ok h.next, h2) : Result NodeId)
          | x => x
        | x => x).2 := by
    intro q h1 h2
    obtain ⟨x, h3⟩ := q
    cases x with
    | ok el =>
      simp only at h1 h2 ⊢
      obtain ⟨h4, h5⟩ := h2 el rfl
      have o3 := only_appendChild (D := D) (h := h3) (hnew h.next (Nat.le_refl _)) (hnew el h4)
        (by intro p hp; rw [h5] at hp; cases hp)
      generalize appendChild h3 h.next el = y at o3 ⊢
      obtain ⟨z, h6⟩ := y
      cases z <;> exact o1.trans (h1.trans o3)
    | err _ => exact o1.trans h1
    | panic _ => exact o1.trans h1
    | diverge => exact o1.trans h1
  have made : ∀ (nm : Outcome Name) (mk : Name → Node) n,
      (∀ nm, (mk nm).parent = none) →
      (createNamed (h.alloc (Node.newDocument dt o)).2 nm mk).1 = .ok n →
      h.next ≤ n ∧
        ((createNamed (h.alloc (Node.newDocument dt o)).2 nm mk).2.get n).parent = none := by
    intro nm mk n hmk hok
    obtain ⟨h1, h2⟩ := createNamed_parent hmk (Prod.ext hok rfl)
    exact ⟨by rw [h1]; exact Nat.le_succ _, h2⟩
  unfold createDocumentWithOptions
  cases u with
  | none =>
    cases q with
    | none => exact o1
    | some q =>
      exact attach _ (only_createNamed (fun _ => rfl) (fun _ => rfl))
        (fun n hn => made _ _ n (fun _ => rfl) hn)
  | some u =>
    cases q with
    | none => exact o1
    | some q =>
      exact attach _ (only_createNamed (fun _ => rfl) (fun _ => rfl))
        (fun n hn => made _ _ n (fun _ => rfl) hn)

/-! ## Cloning -/

theorem only_cloneList {g : Heap → NodeId → Result NodeId} {k : Nat}
    (hg : ∀ h c, k ≤ h.next → Only F D h (g h c).2 ∧ ∀ r, (g h c).1 = .ok r → h.next ≤ r) :
    ∀ (cs : List NodeId) (h : Heap), k ≤ h.next → Only F D h (cloneList g h cs).2 ∧
      ∀ rs, (cloneList g h cs).1 = .ok rs → ∀ r ∈ rs, h.next ≤ r := by
  intro cs
  induction cs with
  | nil =>
    intro h _
    refine ⟨.refl _, ?_⟩
    intro rs hrs
    simp only [cloneList, Outcome.ok.injEq] at hrs
    subst hrs
    simp
  | cons c cs ih =>
    intro h hk
    obtain ⟨h1, h2⟩ := hg h c hk
    unfold cloneList
    generalize g h c = q at h1 h2
    obtain ⟨o, hh⟩ := q
    cases o with
    | ok c' =>
      simp only at h1 h2 ⊢
      obtain ⟨h3, h4⟩ := ih hh (Nat.le_trans hk h1.next)
      generalize cloneList g hh cs = q at h3 h4
      obtain ⟨o2, hh2⟩ := q
      cases o2 with
      | ok cs' =>
        refine ⟨h1.trans h3, ?_⟩
        intro rs hrs r hr
        simp only [Outcome.ok.injEq] at hrs
        subst hrs
        rcases List.mem_cons.mp hr with rfl | hr
        · exact h2 _ rfl
        · exact Nat.le_trans h1.next (h4 _ rfl r hr)
      | err _ => exact ⟨h1.trans h3, fun _ h => by cases h⟩
      | panic _ => exact ⟨h1.trans h3, fun _ h => by cases h⟩
      | diverge => exact ⟨h1.trans h3, fun _ h => by cases h⟩
    | err _ => exact ⟨h1, fun _ h => by cases h⟩
    | panic _ => exact ⟨h1, fun _ h => by cases h⟩
    | diverge => exact ⟨h1, fun _ h => by cases h⟩

theorem only_cloneNode {k : Nat} (hnew : ∀ m, k ≤ m → F m) (deep : Bool) :
    ∀ (fuel : Nat) (h : Heap) (n : NodeId), k ≤ h.next →
      Only F D h (cloneNode fuel h n deep).2 ∧
        ∀ r, (cloneNode fuel h n deep).1 = .ok r → h.next ≤ r := by
  cases deep with
  | false =>
    intro fuel h n _
    cases fuel with
    | zero => exact ⟨.refl _, fun _ h => by cases h⟩
    | succ f =>
      unfold cloneNode
      simp only [Bool.false_eq_true, if_false]
      refine ⟨.alloc rfl (by simp), ?_⟩
      intro r hr
      cases hr
      exact Nat.le_refl _
  | true =>
    intro fuel
    induction fuel with
    | zero => intro h n _; exact ⟨.refl _, fun _ h => by cases h⟩
    | succ fuel ih =>
      intro h n hk
      unfold cloneNode
      simp only
      rw [if_pos trivial]
      obtain ⟨h1, h2⟩ := only_cloneList (g := fun h c => cloneNode fuel h c true) (k := k)
        (fun h c hk => ih h c hk) (h.get n).children h hk
      generalize cloneList (fun h c => cloneNode fuel h c true) h (h.get n).children = q at h1 h2
      obtain ⟨o, hh⟩ := q
      cases o with
      | ok cs =>
        simp only at h1 h2 ⊢
        refine ⟨h1.trans (.alloc rfl ?_), ?_⟩
        · intro c hc
          exact hnew c (Nat.le_trans hk (h2 _ rfl c hc))
        · intro r hr
          cases hr
          exact h1.next
      | err _ => exact ⟨h1, fun _ h => by cases h⟩
      | panic _ => exact ⟨h1, fun _ h => by cases h⟩
      | diverge => exact ⟨h1, fun _ h => by cases h⟩

/-! ## The reader -/

/-- Appending a node that was just made. -/
theorem only_appendNew {h : Heap} {q : Result NodeId} {p : NodeId} (hp : F p)
    (o1 : Only F D h q.2) (hn : ∀ n, q.1 = .ok n → F n ∧ (q.2.get n).parent = none) :
    Only F D h (match q with
      | (.ok n, h1) => appendChild h1 p n
      | r => r).2 := by
  obtain ⟨o, h1⟩ := q
  cases o with
  | ok n =>
    obtain ⟨h2, h3⟩ := hn n rfl
    exact o1.trans (only_appendChild hp h2 (by
      intro x hx
      simp only at h3
      rw [h3] at hx
      cases hx))
  | err _ => exact o1
  | panic _ => exact o1
  | diverge => exact o1

section
variable {k : Nat} {e : Env} {doc : NodeId}

theorem only_handleAttributes (hnew : ∀ m, k ≤ m → F m) (hd : D doc) {el : NodeId} (he : F el) :
    ∀ (as : List AttrEvent) (h : Heap), k ≤ h.next →
      Only F D h (handleAttributes e doc el as h).2 := by
  intro as
  induction as with
  | nil => intro h _; exact .refl _
  | cons a as ih =>
    intro h hk
    cases a with
    | bad => exact .refl _
    | undecodable => exact .refl _
    | good key v =>
      unfold handleAttributes
      unfold createAttributeWith createAttr
      cases Name.fromStr key with
      | ok nm =>
        simp only
        have o1 : Only F D h (h.newAttribute doc nm (some v)).2 := .newAttribute (hnew _ hk)
        have o2 := only_setAttributeNode (e := e) (F := F) (D := D)
          (h := (h.newAttribute doc nm (some v)).2)
          (a := (h.newAttribute doc nm (some v)).1) he
          (hnew _ (Nat.le_trans hk (newAttribute_fst _ _ _ _))) (by
            intro d hd'
            rw [newAttribute_owner] at hd'
            cases hd'
            exact hd)
        generalize setAttributeNode e (h.newAttribute doc nm (some v)).2 el
          (h.newAttribute doc nm (some v)).1 = q at o2 ⊢
        obtain ⟨o, h1⟩ := q
        cases o with
        | ok _ =>
          simp only at o2 ⊢
          exact (o1.trans o2).trans (ih h1 (Nat.le_trans hk (o1.trans o2).next))
        | err _ => exact o1.trans o2
        | panic _ => exact o1.trans o2
        | diverge => exact o1.trans o2
      | err _ => exact .refl _
      | panic _ => exact .refl _
      | diverge => exact .refl _

theorem only_handleStart (hnew : ∀ m, k ≤ m → F m) (hd : D doc) {p : NodeId} (hp : F p)
    {nm : Option Str} {as : List AttrEvent} {h : Heap} (hk : k ≤ h.next) :
    Only F D h (handleStart e doc p nm as h).2 ∧
      ∀ n, (handleStart e doc p nm as h).1 = .ok n → F n := by
  unfold handleStart
  cases nm with
  | none => exact ⟨.refl _, fun _ h => by cases h⟩
  | some nm =>
    simp only
    have o1 : Only F D h (createElement h doc nm).2 :=
      only_createNamed (fun _ => rfl) (fun _ => rfl)
    have made : ∀ n, (createElement h doc nm).1 = .ok n → n = h.next ∧
        ((createElement h doc nm).2.get n).parent = none :=
      fun n hn => createNamed_parent (mk := Node.newElement doc) (fun _ => rfl) (Prod.ext hn rfl)
    generalize createElement h doc nm = q at o1 made ⊢
    obtain ⟨o, h1⟩ := q
    cases o with
    | ok el =>
      simp only at o1 made ⊢
      obtain ⟨rfl, h3⟩ := made el rfl
      have o2 := only_appendChild (D := D) (h := h1) hp (hnew _ hk) (by
        intro x hx; rw [h3] at hx; cases hx)
      have hres : ∀ r h2, appendChild h1 p h.next = (.ok r, h2) → r = h.next :=
        fun r h2 hr => insertBefore_result hr
      generalize appendChild h1 p h.next = q at o2 hres ⊢
      obtain ⟨o, h2⟩ := q
      cases o with
      | ok r =>
        have := hres r h2 rfl
        subst this
        simp only at o2 ⊢
        have o3 := only_handleAttributes (e := e) hnew hd (hnew _ hk) as h2
          (Nat.le_trans hk (o1.trans o2).next)
        refine ⟨(o1.trans o2).trans o3, ?_⟩
        intro n hn
        have : ∀ (as : List AttrEvent) (h' : Heap) n,
            (handleAttributes e doc h.next as h').1 = .ok n → n = h.next := by
          intro as
          induction as with
          | nil => intro h' n hn; cases hn; rfl
          | cons a as ih =>
            intro h' n hn
            cases a with
            | bad => cases hn
            | undecodable => cases hn
            | good key v =>
              unfold handleAttributes at hn
              generalize createAttributeWith h' doc key v = q at hn
              obtain ⟨o, h4⟩ := q
              cases o with
              | ok a =>
                simp only at hn
                generalize setAttributeNode e h4 h.next a = q at hn
                obtain ⟨o, h5⟩ := q
                cases o with
                | ok _ => exact ih h5 n hn
                | err _ => cases hn
                | panic _ => cases hn
                | diverge => cases hn
              | err _ => cases hn
              | panic _ => cases hn
              | diverge => cases hn
        rw [this as h2 n hn]
        exact hnew _ hk
      | err _ => exact ⟨o1.trans o2, fun _ h => by cases h⟩
      | panic _ => exact ⟨o1.trans o2, fun _ h => by cases h⟩
      | diverge => exact ⟨o1.trans o2, fun _ h => by cases h⟩
    | err _ => exact ⟨o1, fun _ h => by cases h⟩
    | panic _ => exact ⟨o1, fun _ h => by cases h⟩
    | diverge => exact ⟨o1, fun _ h => by cases h⟩

theorem only_handleComment (hnew : ∀ m, k ≤ m → F m) {p : NodeId} (hp : F p) {t : Option Str}
    {h : Heap} (hk : k ≤ h.next) : Only F D h (handleComment doc p t h).2 := by
  unfold handleComment
  cases t with
  | none => exact .refl _
  | some s =>
    exact only_appendNew (q := createComment h doc s) hp
      (.alloc rfl (by simp [Node.newComment])) (by
        intro n hn; cases hn; exact ⟨hnew _ hk, by simp [createComment, Heap.alloc, Node.newComment]⟩)

theorem only_handleText (hnew : ∀ m, k ≤ m → F m) {p : NodeId} (hp : F p) {t : Option Str}
    {h : Heap} (hk : k ≤ h.next) : Only F D h (handleText doc p t h).2 := by
  unfold handleText
  cases t with
  | none => exact .refl _
  | some s =>
    exact only_appendNew (q := createTextNode h doc s) hp
      (.alloc rfl (by simp [Node.newText])) (by
        intro n hn; cases hn; exact ⟨hnew _ hk, by simp [createTextNode, Heap.alloc, Node.newText]⟩)

theorem only_handleCdata (hnew : ∀ m, k ≤ m → F m) {p : NodeId} (hp : F p) {t : Option Str}
    {h : Heap} (hk : k ≤ h.next) : Only F D h (handleCdata doc p t h).2 := by
  unfold handleCdata
  cases t with
  | none => exact .refl _
  | some s =>
    exact only_appendNew (q := createCdataSection h doc s) hp
      (.alloc rfl (by simp [Node.newCdata])) (by
        intro n hn; cases hn
        exact ⟨hnew _ hk, by simp [createCdataSection, Heap.alloc, Node.newCdata]⟩)

theorem only_handlePi (hnew : ∀ m, k ≤ m → F m) {p : NodeId} (hp : F p) {t : Option Str}
    {h : Heap} (hk : k ≤ h.next) : Only F D h (handlePi e doc p t h).2 := by
  unfold handlePi
  cases t with
  | none => exact .refl _
  | some s =>
    simp only
    have o1 : Only F D h
        (createProcessingInstruction h doc (splitPi e.uni s).1 (splitPi e.uni s).2).2 :=
      only_createProcessingInstruction
    have made : ∀ n, (createProcessingInstruction h doc (splitPi e.uni s).1
        (splitPi e.uni s).2).1 = .ok n → n = h.next ∧ ((createProcessingInstruction h doc
          (splitPi e.uni s).1 (splitPi e.uni s).2).2.get n).parent = none := by
      intro n hn
      unfold createProcessingInstruction at hn ⊢
      split at hn
      · cases hn
      · rename_i hc
        rw [if_neg hc]
        exact createNamed_parent
          (mk := fun nm => Node.newProcessingInstruction doc nm (splitPi e.uni s).2)
          (fun _ => rfl) (Prod.ext hn rfl)
    generalize createProcessingInstruction h doc (splitPi e.uni s).1 (splitPi e.uni s).2 = q
      at o1 made ⊢
    obtain ⟨o, h1⟩ := q
    cases o with
    | ok n =>
      obtain ⟨rfl, h3⟩ := made n rfl
      exact o1.trans (only_appendChild hp (hnew _ hk) (by
        intro x hx
        simp only at h3
        rw [h3] at hx
        cases hx))
    | err _ => exact o1
    | panic _ => exact o1
    | diverge => exact o1

theorem only_handleDecl (hF : F doc) {v : Option Str} {enc sa : Option (Option Str)} {h : Heap} :
    Only F D h (handleDecl doc v enc sa h).2 := by
  unfold handleDecl
  cases hx : (h.get doc).ext with
  | document x =>
    simp only
    split
    · exact .refl _
    · split
      · exact .keep hF rfl rfl
      all_goals exact .refl _
  | _ => exact .refl _

theorem only_parseElement (hnew : ∀ m, k ≤ m → F m) (hd : D doc) :
    ∀ (fuel : Nat) (p : NodeId) (evs : List Event) (h : Heap), F p → k ≤ h.next →
      Only F D h (parseElement e doc fuel p evs h).heap := by
  intro fuel
  induction fuel with
  | zero => intro p evs h _ _; exact .refl _
  | succ fuel ih =>
    intro p evs h hp hk
    have go : ∀ (r : Result NodeId) (rest : List Event), Only F D h r.2 →
        Only F D h (match r with
          | (.ok _, h1) => parseElement e doc fuel p rest h1
          | (o, h1) => (⟨o, rest, h1⟩ : ParseResult)).heap := by
      intro r rest o1
      obtain ⟨o, h1⟩ := r
      cases o with
      | ok _ => exact o1.trans (ih p rest h1 hp (Nat.le_trans hk o1.next))
      | err _ => exact o1
      | panic _ => exact o1
      | diverge => exact o1
    unfold parseElement
    cases evs with
    | nil => exact .refl _
    | cons ev rest =>
      cases ev with
      | start nm as =>
        simp only
        obtain ⟨o1, hF⟩ := only_handleStart (e := e) (doc := doc) hnew hd hp (nm := nm) (as := as) hk
        generalize handleStart e doc p nm as h = q at o1 hF ⊢
        obtain ⟨o, h1⟩ := q
        cases o with
        | ok el =>
          simp only at o1 hF ⊢
          have o2 := ih el rest h1 (hF el rfl) (Nat.le_trans hk o1.next)
          generalize parseElement e doc fuel el rest h1 = r at o2 ⊢
          obtain ⟨o, rest2, h2⟩ := r
          cases o with
          | ok _ =>
            simp only at o2 ⊢
            exact (o1.trans o2).trans (ih p rest2 h2 hp (Nat.le_trans hk (o1.trans o2).next))
          | err _ => exact o1.trans o2
          | panic _ => exact o1.trans o2
          | diverge => exact o1.trans o2
        | err _ => exact o1
        | panic _ => exact o1
        | diverge => exact o1
      | empty nm as => exact go _ _ (only_handleStart hnew hd hp hk).1
      | close => exact .refl _
      | comment t => exact go _ _ (only_handleComment hnew hp hk)
      | pi t => exact go _ _ (only_handlePi hnew hp hk)
      | text t => exact go _ _ (only_handleText hnew hp hk)
      | cdata t => exact go _ _ (only_handleCdata hnew hp hk)
      | decl _ _ _ => exact .refl _
      | other => exact .refl _
      | eof => exact .refl _
      | readError => exact .refl _

theorem only_parseLoop (hnew : ∀ m, k ≤ m → F m) (hd : D doc) (hF : F doc) :
    ∀ (fuel : Nat) (evs : List Event) (h : Heap), k ≤ h.next →
      Only F D h (parseLoop e doc fuel evs h).2 := by
  intro fuel
  induction fuel with
  | zero => intro evs h _; exact .refl _
  | succ fuel ih =>
    intro evs h hk
    have go : ∀ (r : Result NodeId) (rest : List Event), Only F D h r.2 →
        Only F D h (match r with
          | (.ok _, h1) => parseLoop e doc fuel rest h1
          | r => r).2 := by
      intro r rest o1
      obtain ⟨o, h1⟩ := r
      cases o with
      | ok _ => exact o1.trans (ih rest h1 (Nat.le_trans hk o1.next))
      | err _ => exact o1
      | panic _ => exact o1
      | diverge => exact o1
    unfold parseLoop
    cases evs with
    | nil => exact .refl _
    | cons ev rest =>
      cases ev with
      | decl v enc sa =>
        simp only
        have o1 := only_handleDecl (D := D) hF (v := v) (enc := enc) (sa := sa) (h := h)
        generalize handleDecl doc v enc sa h = q at o1 ⊢
        obtain ⟨o, h1⟩ := q
        cases o with
        | ok _ => exact o1.trans (ih rest h1 (Nat.le_trans hk o1.next))
        | err _ => exact o1
        | panic _ => exact o1
        | diverge => exact o1
      | start nm as =>
        simp only
        obtain ⟨o1, hF'⟩ := only_handleStart (e := e) (doc := doc) hnew hd hF (nm := nm) (as := as) hk
        generalize handleStart e doc doc nm as h = q at o1 hF' ⊢
        obtain ⟨o, h1⟩ := q
        cases o with
        | ok el =>
          simp only at o1 hF' ⊢
          have o2 := only_parseElement (e := e) (doc := doc) hnew hd (rest.length + 1) el rest h1
            (hF' el rfl) (Nat.le_trans hk o1.next)
          generalize parseElement e doc (rest.length + 1) el rest h1 = r at o2 ⊢
          obtain ⟨o, rest2, h2⟩ := r
          have o3 := fun rest => ih rest h2 (Nat.le_trans hk (o1.trans o2).next)
          cases o with
          | ok _ => exact (o1.trans o2).trans (o3 _)
          | err _ => exact (o1.trans o2).trans (o3 _)
          | panic _ => exact o1.trans o2
          | diverge => exact o1.trans o2
        | err _ => exact o1
        | panic _ => exact o1
        | diverge => exact o1
      | empty nm as => exact go _ _ (only_handleStart hnew hd hF hk).1
      | close => exact ih rest h hk
      | comment t => exact go _ _ (only_handleComment hnew hF hk)
      | pi t => exact go _ _ (only_handlePi hnew hF hk)
      | text t => exact .refl _
      | cdata t => exact .refl _
      | other => exact .refl _
      | eof => exact .refl _
      | readError => exact .refl _

theorem only_readXml {h : Heap} (hnew : ∀ m, h.next ≤ m → F m) (hd : ∀ m, h.next ≤ m → D m)
    (evs : List Event) : Only F D h (readXml e h evs).2 := by
  unfold readXml
  have o1 : Only F D h (createDocument h none none none).2 := only_createDocument hnew
  have hdoc : (createDocument h none none none).1 = .ok h.next := rfl
  generalize createDocument h none none none = q at o1 hdoc ⊢
  obtain ⟨o, h1⟩ := q
  cases o with
  | ok d =>
    cases hdoc
    exact o1.trans (only_parseLoop hnew (hd _ (Nat.le_refl _)) (hnew _ (Nat.le_refl _)) _ _ _ o1.next)
  | err _ => exact o1
  | panic _ => exact o1
  | diverge => exact o1

end

end XmlDom
