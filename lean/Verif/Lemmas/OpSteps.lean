import Verif.Lemmas.Step

/-!
# Every call is a sequence of primitive steps
-/

namespace XmlDom

/-- The steps that most calls are made of: an unlinking step follows the parent link, a
linked node is the newest node and has no children, an attribute that gets an owner element had none, and there
is no clearing, orphaning, cloning or deallocation. -/
def BasicL (h : Heap) (l : Label) : Prop :=
  match l with
  | .unlink p c => (h.get c).parent = some p
  | .link _ c _ => (h.get c).children = [] ∧ c + 1 = h.next
  | .clear _ => False
  | .orphan _ => False
  | .clone _ _ => False
  | .dealloc _ => False
  | .attrOwner a _ => (h.get a).ext = .attribute none
  | _ => True

/-- The basic steps that register no id. -/
def QuietL (h : Heap) (l : Label) : Prop :=
  match l with
  | .unlink p c => (h.get c).parent = some p
  | .link _ c _ => (h.get c).children = [] ∧ c + 1 = h.next
  | .clear _ => False
  | .orphan _ => False
  | .clone _ _ => False
  | .dealloc _ => False
  | .idPut _ _ _ => False
  | .attrOwner a _ => (h.get a).ext = .attribute none
  | _ => True

theorem QuietL.basic {h : Heap} {l : Label} (hq : QuietL h l) : BasicL h l := by
  cases l <;> first | exact hq | exact False.elim hq

theorem Steps.loud {h h' : Heap} (a : Steps QuietL h h') : Steps BasicL h h' :=
  a.mono fun _ _ => QuietL.basic

theorem BasicL.noDealloc {h : Heap} {l : Label} (hb : BasicL h l) : NoDealloc h l := by
  intro n hn; subst hn; exact hb

theorem Steps.basic_live {h h' : Heap} (a : Steps BasicL h h') {n : NodeId}
    (hn : h.live n = true) : h'.live n = true :=
  a.live_mono (fun _ _ hb => hb.noDealloc) hn

/-! ## Tree edits -/

theorem checkSameDocument_congr {h h' : Heap} {s n : NodeId} (hl : h'.live = h.live)
    (ht : (h'.get s).ntype = (h.get s).ntype) (ho : (h'.get s).owner = (h.get s).owner)
    (hn : (h'.get n).owner = (h.get n).owner) :
    checkSameDocument h' s n = checkSameDocument h s n := by
  unfold checkSameDocument
  rw [ht, ho, hn, hl]

theorem checkSameDocument_unlink (h : Heap) (p c s n : NodeId) :
    checkSameDocument (h.unlink p c) s n = checkSameDocument h s n := by
  apply checkSameDocument_congr
  · rfl
  all_goals rw [get_unlink]

theorem parentNode_unlink_self (h : Heap) (p c : NodeId) : parentNode (h.unlink p c) c = none := by
  unfold parentNode
  simp [get_unlink, Heap.upgrade]

/-- The steps of an insertion. -/
def InsertL (self new : NodeId) (h : Heap) (l : Label) : Prop :=
  (∃ p, l = .unlink p new ∧ (h.get new).parent = some p) ∨ ∃ pos, l = .link self new pos

theorem insertBefore_insertSteps {h : Heap} {self new : NodeId} {ref : Option NodeId}
    (hself : h.live self = true) (hnew : h.live new = true) :
    Steps (InsertL self new) h (insertBefore h self new ref).2 := by
  generalize hr : insertBefore h self new ref = r
  obtain ⟨o, h'⟩ := r
  by_cases ho : o.IsOk
  · obtain ⟨x, rfl⟩ : ∃ x, o = .ok x := by cases o <;> simp at ho ⊢
    obtain ⟨_, hne, hallow, hdoc, hchk, pos, hpos, h1⟩ := insertBefore_ok hr
    have hdoc' : ∀ (l : List NodeId), (∀ x ∈ l, x ∈ (h.get self).children) →
        (h.get self).ntype = .document → (h.get new).ntype = .element →
        ∀ x ∈ l, (h.get x).ntype ≠ .element := by
      intro l hl h1 h2 x hx h3
      refine hdoc ⟨h1, h2, ?_⟩
      rw [List.any_eq_true]
      exact ⟨x, hl x hx, by simpa using h3⟩
    have hlen : ∀ i, pos = some i → i < (h.get self).children.length := by
      rintro i rfl
      rcases insertPosition_some.mp hpos with ⟨_, h2⟩ | ⟨r, a, b, _, h2, _, h4⟩
      · cases h2
      · cases h4; rw [h2]; simp
    rcases h1 with ⟨hpn, rfl⟩ | ⟨p, hpn, hm, rfl⟩
    · refine .one (l := .link self new pos) (Or.inr ⟨_, rfl⟩) (.link hself hnew hne hallow (hdoc' _ fun _ h => h) hchk hpn ?_)
      cases pos with
      | none => trivial
      | some i => exact Nat.le_of_lt (hlen i rfl)
    · have hp := parentNode_eq_some.mp hpn
      refine .step (l := .unlink p new) (Or.inl ⟨p, rfl, hp.2.1⟩) (.unlink hp.2.2 hm)
        (.one (l := .link self new pos) (Or.inr ⟨_, rfl⟩) (.link hself hnew hne ?_ ?_ ?_ ?_ ?_))
      · simpa only [get_unlink] using hallow
      · simp only [get_unlink]
        refine hdoc' _ ?_
        intro x hx
        split at hx
        · exact List.mem_of_mem_erase hx
        · exact hx
      · rw [checkSameDocument_unlink]; exact hchk
      · exact parentNode_unlink_self _ _ _
      · cases pos with
        | none => trivial
        | some i =>
          have := hlen i rfl
          show i ≤ ((h.unlink p new).get self).children.length
          rw [get_unlink]
          by_cases hsp : self = p
          · subst hsp
            simp only [if_true, List.length_erase, hm]
            omega
          · simp only [if_neg hsp]; omega
  · rcases insertBefore_not_ok hr ho with rfl | ⟨_, _, p, hpn, hm, rfl⟩
    · exact .refl _
    · have hp := parentNode_eq_some.mp hpn
      exact .one (l := .unlink p new) (Or.inl ⟨p, rfl, hp.2.1⟩) (.unlink hp.2.2 hm)

/-- Inserting a node without children. -/
theorem insertBefore_steps {h : Heap} {self new : NodeId} {ref : Option NodeId}
    (hself : h.live self = true) (hnew : h.live new = true) (hc : (h.get new).children = [] ∧ new + 1 = h.next) :
    Steps QuietL h (insertBefore h self new ref).2 := by
  have := insertBefore_insertSteps (ref := ref) hself hnew
  generalize (insertBefore h self new ref).2 = h' at this
  induction this with
  | refl => exact .refl _
  | @step h0 h1 h2 l hp hs _ ih =>
    have hn1 : h1.next = h0.next := by
      rcases hp with ⟨p, rfl, _⟩ | ⟨pos, rfl⟩ <;> cases hs <;> rfl
    have hc1 : (h1.get new).children = [] := by
      rcases hp with ⟨p, rfl, _⟩ | ⟨pos, rfl⟩
      · cases hs
        rw [get_unlink]
        simp only [hc]
        split <;> rfl
      · cases hs with
        | link _ _ hne => rw [get_link _ _ hne]; simp [hc, Ne.symm hne]
    refine .step ?_ hs (ih ?_ ?_ ⟨hc1, hn1 ▸ hc.2⟩)
    · rcases hp with ⟨p, rfl, h1⟩ | ⟨pos, rfl⟩
      · exact h1
      · exact hc
    · exact hs.live_mono (by rintro n rfl; rcases hp with ⟨_, h1, _⟩ | ⟨_, h1⟩ <;> cases h1) hself
    · exact hs.live_mono (by rintro n rfl; rcases hp with ⟨_, h1, _⟩ | ⟨_, h1⟩ <;> cases h1) hnew

/-- The newest node, without children. -/
def Leaf (h : Heap) (n : NodeId) : Prop :=
  h.live n = true ∧ (h.get n).children = [] ∧ n + 1 = h.next

theorem appendChild_steps {h : Heap} {self new : NodeId}
    (hself : h.live self = true) (hnew : h.live new = true) (hc : (h.get new).children = [] ∧ new + 1 = h.next) :
    Steps QuietL h (appendChild h self new).2 := insertBefore_steps hself hnew hc

theorem insertBefore_result {h h' : Heap} {self new r : NodeId} {ref : Option NodeId}
    (hok : insertBefore h self new ref = (.ok r, h')) : r = new := (insertBefore_ok hok).1

/-! ## Creation -/

theorem nameOk_fromStr {s : Str} {n : Name} (h : Name.fromStr s = .ok n) : NameOk n := by
  rcases fromStr_ok h with ⟨rfl, h1, _⟩ | ⟨p, l, _, rfl, h1, h2, _⟩
  · exact ⟨h1, fun p hp => by cases hp⟩
  · exact ⟨h2, fun q hq => by cases hq; exact h1⟩

theorem nameOk_newNs {u s : Str} {n : Name} (h : Name.newNs u s = .ok n) : NameOk n := by
  unfold Name.newNs at h
  cases h1 : Name.fromStr s with
  | ok m =>
    rw [h1] at h
    simp only [Outcome.bind_ok] at h
    cases h2 : Name.checkNamespaceUri u m.pfx m.localName with
    | ok v =>
      rw [h2] at h
      simp only [Outcome.bind_ok, Outcome.ok.injEq] at h
      have := nameOk_fromStr h1
      subst h
      exact ⟨this.loc, this.pfx⟩
    | err _ => rw [h2] at h; simp at h
    | panic _ => rw [h2] at h; simp at h
    | diverge => rw [h2] at h; simp at h
  | err _ => rw [h1] at h; simp at h
  | panic _ => rw [h1] at h; simp at h
  | diverge => rw [h1] at h; simp at h

theorem display_fromStr {s : Str} {n : Name} (h : Name.fromStr s = .ok n) : n.display = s := by
  rcases fromStr_ok h with ⟨rfl, h1, _⟩ | ⟨p, l, rfl, rfl, h1, h2, _⟩ <;> rfl

/-- A created node is fresh, live and the only change. -/
theorem createNamed_steps {h : Heap} {o : Outcome Name} {mk : Name → Node}
    (hmk : ∀ nm, o = .ok nm → FreshNode h (mk nm)) : Steps QuietL h (createNamed h o mk).2 := by
  cases o with
  | ok nm => exact .one (l := .alloc (mk nm)) trivial (.alloc (hmk nm rfl))
  | err _ => exact .refl _
  | panic _ => exact .refl _
  | diverge => exact .refl _

theorem freshNode_element {h : Heap} {d : NodeId} {nm : Name} (hd : OwnerOk h d) (hn : NameOk nm) :
    FreshNode h (Node.newElement d nm) :=
  ⟨rfl, rfl, Or.inl ⟨d, rfl, hd, by simp [Node.newElement]⟩, hn, rfl⟩

theorem freshNode_text {h : Heap} {d : NodeId} {s : Str} (hd : OwnerOk h d) :
    FreshNode h (Node.newText d s) :=
  ⟨rfl, rfl, Or.inl ⟨d, rfl, hd, by simp [Node.newText]⟩, rfl, rfl⟩

theorem freshNode_cdata {h : Heap} {d : NodeId} {s : Str} (hd : OwnerOk h d) :
    FreshNode h (Node.newCdata d s) :=
  ⟨rfl, rfl, Or.inl ⟨d, rfl, hd, by simp [Node.newCdata]⟩, rfl, rfl⟩

theorem freshNode_comment {h : Heap} {d : NodeId} {s : Str} (hd : OwnerOk h d) :
    FreshNode h (Node.newComment d s) :=
  ⟨rfl, rfl, Or.inl ⟨d, rfl, hd, by simp [Node.newComment]⟩, rfl, rfl⟩

theorem createElement_steps {h : Heap} {d : NodeId} {t : Str} (hd : h.live d = true) :
    Steps QuietL h (createElement h d t).2 :=
  createNamed_steps fun _ hnm => freshNode_element (Or.inl hd) (nameOk_fromStr hnm)

theorem createElementNs_steps {h : Heap} {d : NodeId} {u t : Str} (hd : h.live d = true) :
    Steps QuietL h (createElementNs h d u t).2 :=
  createNamed_steps fun _ hnm => freshNode_element (Or.inl hd) (nameOk_newNs hnm)

theorem newAttribute_steps {h : Heap} {d : NodeId} {nm : Name} {v : Option Str} (hd : OwnerOk h d)
    (hn : NameOk nm) : Steps QuietL h (h.newAttribute d nm v).2 := by
  cases v with
  | some v => exact .one (l := .allocAttr d nm v) trivial (.allocAttr hd hn)
  | none =>
    refine .one (l := .alloc _) trivial (.alloc ⟨rfl, rfl, ?_, hn, rfl⟩)
    exact Or.inl ⟨d, rfl, hd, by simp⟩

theorem newAttribute_ext (h : Heap) (d : NodeId) (nm : Name) (v : Option Str) :
    ((h.newAttribute d nm v).2.get (h.newAttribute d nm v).1).ext = .attribute none := by
  cases v <;> simp [Heap.newAttribute]

theorem newAttribute_live (h : Heap) (d : NodeId) (nm : Name) (v : Option Str) :
    (h.newAttribute d nm v).2.live (h.newAttribute d nm v).1 = true := by
  cases v <;> simp [Heap.newAttribute]

theorem createAttr_steps {h : Heap} {d : NodeId} {o : Outcome Name} {v : Option Str}
    (hd : h.live d = true) (hn : ∀ nm, o = .ok nm → NameOk nm) :
    Steps QuietL h (createAttr h d o v).2 := by
  cases o with
  | ok nm => exact newAttribute_steps (Or.inl hd) (hn nm rfl)
  | err _ => exact .refl _
  | panic _ => exact .refl _
  | diverge => exact .refl _

theorem createProcessingInstruction_steps {h : Heap} {d : NodeId} {t : Str} {x : Option Str}
    (hd : h.live d = true) : Steps QuietL h (createProcessingInstruction h d t x).2 := by
  unfold createProcessingInstruction
  split
  · exact .refl _
  · rename_i hne
    refine createNamed_steps fun nm hnm => ⟨rfl, rfl, ?_, ⟨nameOk_fromStr hnm, ?_⟩, rfl⟩
    · exact Or.inl ⟨d, rfl, Or.inl hd, by simp [Node.newProcessingInstruction]⟩
    · show nm.display.map asciiLower ≠ Syn.piReserved
      rw [display_fromStr hnm]; exact hne

/-- The node a creating call returns is a leaf. -/
theorem createNamed_live {h h' : Heap} {o : Outcome Name} {mk : Name → Node} {n : NodeId}
    (hmk : ∀ nm, (mk nm).children = []) (hc : createNamed h o mk = (.ok n, h')) : Leaf h' n := by
  cases o with
  | ok nm =>
    simp only [createNamed, Prod.mk.injEq, Outcome.ok.injEq] at hc
    rw [← hc.1, ← hc.2]; exact ⟨by simp, by simpa using hmk nm⟩
  | err _ => simp [createNamed] at hc
  | panic _ => simp [createNamed] at hc
  | diverge => simp [createNamed] at hc

theorem createDocumentWithOptions_steps {h : Heap} {uri q : Option Str} {dt : Option NodeId}
    {opts : Options} (hdt : ∀ t, dt = some t → h.live t = true) :
    Steps QuietL h (createDocumentWithOptions h uri q dt opts).2 := by
  have h0 : Steps QuietL h (h.alloc (Node.newDocument dt opts)).2 := by
    refine .one (l := .alloc _) trivial (.alloc ⟨rfl, rfl, Or.inr ⟨rfl, Or.inl rfl⟩, rfl, ?_⟩)
    exact ⟨dt, opts, rfl, hdt⟩
  have hd : (h.alloc (Node.newDocument dt opts)).2.live h.next = true := by simp
  have hattach : ∀ (q : Result NodeId),
      Steps QuietL (h.alloc (Node.newDocument dt opts)).2 q.2 →
      (∀ el, q.1 = .ok el → Leaf q.2 el) →
      Steps QuietL h ((match q with
        | (.ok el, h1) =>
          match appendChild h1 (h.alloc (Node.newDocument dt opts)).1 el with
          | (.ok _, h2) => ((.ok (h.alloc (Node.newDocument dt opts)).1, h2) : Result NodeId)
          | x => x
        | x => x) : Result NodeId).2 := by
    rintro ⟨o, h1⟩ hs hl
    cases o with
    | ok el =>
      have hel := hl el rfl
      have := appendChild_steps (hs.loud.basic_live hd) hel.1 hel.2
      have hall := (h0.trans hs).trans this
      simp only [Heap.alloc_fst]
      generalize hr : appendChild h1 h.next el = r at hall
      obtain ⟨o2, h2⟩ := r
      cases o2 <;> exact hall
    | err _ => exact h0.trans hs
    | panic _ => exact h0.trans hs
    | diverge => exact h0.trans hs
  unfold createDocumentWithOptions
  cases uri with
  | some u =>
    cases q with
    | some q =>
      apply hattach
      · exact createElementNs_steps hd
      · intro el hel
        exact createNamed_live (fun _ => rfl) (Prod.ext hel rfl)
    | none => exact h0
  | none =>
    cases q with
    | some q =>
      apply hattach
      · exact createElement_steps hd
      · intro el hel
        exact createNamed_live (fun _ => rfl) (Prod.ext hel rfl)
    | none => exact h0

/-! ## Character data, `split` and attribute values -/

theorem storeValue_steps {h : Heap} {n : NodeId} {r : Outcome (Option Str)} :
    Steps QuietL h (storeValue h n r).2 := by
  cases r with
  | ok v => exact .one (l := .value n v) trivial .value
  | err _ => exact .refl _
  | panic _ => exact .refl _
  | diverge => exact .refl _

theorem splitTail_steps {h : Heap} {self : NodeId} {s : Str} (hself : h.live self = true) :
    Steps QuietL h (splitTail h self s).2 := by
  have key : ∀ x : Node, FreshNode h x → Steps QuietL h
      ((match parentNode (h.alloc x).2 self with
        | none => ((.ok (h.alloc x).1, (h.alloc x).2) : Result NodeId)
        | some p =>
          match insertBefore (h.alloc x).2 p (h.alloc x).1 (nextSibling (h.alloc x).2 self) with
          | (.ok _, h2) => (.ok (h.alloc x).1, h2)
          | q => q) : Result NodeId).2 := by
    intro x hx
    have h0 : Steps QuietL h (h.alloc x).2 := .one (l := .alloc x) trivial (.alloc hx)
    cases hp : parentNode (h.alloc x).2 self with
    | none => exact h0
    | some p =>
      have hpl := (parentNode_eq_some.mp hp).2.2
      have := h0.trans (insertBefore_steps (ref := nextSibling (h.alloc x).2 self) hpl
        (show (h.alloc x).2.live (h.alloc x).1 = true by simp)
        (by simpa using hx.children))
      generalize hr : insertBefore (h.alloc x).2 p (h.alloc x).1 (nextSibling (h.alloc x).2 self) =
        r at this
      obtain ⟨o, h2⟩ := r
      cases o <;> simpa only [hr] using this
  unfold splitTail
  split
  · split
    · exact .refl _
    · rename_i d hd
      exact key _ (freshNode_text (Or.inr ⟨self, hself, hd⟩))
  · split
    · exact .refl _
    · rename_i d hd
      exact key _ (freshNode_cdata (Or.inr ⟨self, hself, hd⟩))
  · exact .refl _

theorem splitText_steps {ov : Bool} {h : Heap} {self : NodeId} {offset : Nat}
    (hself : h.live self = true) : Steps QuietL h (splitText ov h self offset).2 := by
  unfold splitText
  split
  · exact .refl _
  · simp only
    split
    · exact splitTail_steps hself
    · split
      · exact .refl _
      · exact .refl _
      · exact .refl _
      · rename_i newData _
        have h1 : Steps QuietL h (nodeDeleteData ov h self offset (charLength h self - offset)).2 :=
          storeValue_steps
        generalize hr : nodeDeleteData ov h self offset (charLength h self - offset) = r at h1
        obtain ⟨o, h'⟩ := r
        cases o with
        | ok _ => exact h1.trans (splitTail_steps (h1.loud.basic_live hself))
        | err _ => exact h1
        | panic _ => exact h1
        | diverge => exact h1

/-! ## Attributes -/

/-- Two nodes pass the document test, and the new one is not a document: they have the
same owner. -/
theorem checkSameDocument_owner {h : Heap} {s n d : NodeId} (hs : (h.get s).ntype ≠ .document)
    (hd : (h.get n).owner = some d) (hc : checkSameDocument h s n = .ok ()) :
    (h.get s).owner = some d := by
  unfold checkSameDocument at hc
  rw [if_neg hs, hd] at hc
  cases ho : (h.get s).owner with
  | none => rw [ho] at hc; simp at hc
  | some a =>
    rw [ho] at hc
    simp only at hc
    split at hc
    · split at hc
      · split at hc
        · rename_i he; rw [he]
        · simp at hc
      · simp at hc
    · simp at hc

/-- Steps that only write the namespace map of an element or the id map of a document. -/
def MapL (_ : Heap) (l : Label) : Prop :=
  (∃ e p u, l = .nsPut e p u) ∨ ∃ d i e, l = .idPut d i e

theorem MapL.basic {h : Heap} {l : Label} (hl : MapL h l) : BasicL h l := by
  rcases hl with ⟨e, p, u, rfl⟩ | ⟨d, i, e, rfl⟩ <;> trivial

theorem recordId_steps {u : Uni} {h : Heap} {self attr : NodeId} {name : Name}
    (hchk : checkSameDocument h self attr = .ok ()) (ht : (h.get self).ntype = .element)
    (hl : h.live self = true) : Steps MapL h (recordId u h self attr name).2 := by
  unfold recordId
  cases hd : ownerDocument h attr with
  | none => exact .refl _
  | some d =>
    simp only
    split
    · exact .refl _
    · cases hx : (h.get d).ext with
      | document x =>
        simp only
        split
        · split
          · exact .refl _
          · exact .refl _
          · exact .refl _
          · exact .refl _
          · rename_i id _
            split
            · exact .refl _
            · rename_i hnew
              refine .one (l := .idPut d id self) (Or.inr ⟨_, _, _, rfl⟩) (.idPut hx ?_ hl ht ?_)
              · simpa using hnew
              · refine checkSameDocument_owner (n := attr) (by rw [ht]; simp) ?_ hchk
                exact (Heap.upgrade_some.mp hd).1
        · exact .refl _
      | _ => simp only; split <;> exact .refl _

/-- Steps of `set_attribute_node`: the basic ones and one that sets the owner element. -/
theorem setAttributeNode_steps {e : Env} {h : Heap} {self attr : NodeId}
    {P : Heap → Label → Prop} (hP : ∀ h l, MapL h l → P h l) (h0 : P h (.attrOwner attr self))
    (hput : ∀ h, P h (.attrPut self attr))
    (hself : h.live self = true) (hattr : h.live attr = true) :
    Steps P h (setAttributeNode e h self attr).2 := by
  unfold setAttributeNode
  split
  · rename_i ht
    split
    · exact .refl _
    · exact .refl _
    · exact .refl _
    · rename_i hchk
      split
      · rename_i w hext
        have hne : self ≠ attr := by
          intro he; rw [he] at ht; rw [ht.1] at ht; simp at ht
        have s1 : Steps P h (h.set attr { h.get attr with ext := .attribute (some self) }) :=
          .one (l := .attrOwner attr self) h0 (.attrOwner hext hself ht.1)
        generalize hh1 : h.set attr { h.get attr with ext := .attribute (some self) } = h1 at s1 ⊢
        have hchk1 : checkSameDocument h1 self attr = .ok () := by
          rw [← hchk, ← hh1]
          apply checkSameDocument_congr <;> simp [hne]
        have ht1 : (h1.get self).ntype = .element ∧ (h1.get attr).ntype = .attribute := by
          rw [← hh1]; simpa [hne] using ht
        have hl1 : h1.live self = true ∧ h1.live attr = true := by
          rw [← hh1]; exact ⟨hself, hattr⟩
        have hs2 : Steps MapL h1 (recordNamespace e.uni h1 self attr (h1.get attr).name).2 ∧
            (recordNamespace e.uni h1 self attr (h1.get attr).name).2.live = h1.live ∧
            ∀ m, ((recordNamespace e.uni h1 self attr (h1.get attr).name).2.get m).ntype =
                (h1.get m).ntype ∧
              ((recordNamespace e.uni h1 self attr (h1.get attr).name).2.get m).owner =
                (h1.get m).owner ∧
              (m ≠ self → ((recordNamespace e.uni h1 self attr (h1.get attr).name).2.get m).ext =
                (h1.get m).ext) := by
          unfold recordNamespace
          split
          · split
            · exact ⟨.refl _, rfl, fun _ => ⟨rfl, rfl, fun _ => rfl⟩⟩
            · exact ⟨.refl _, rfl, fun _ => ⟨rfl, rfl, fun _ => rfl⟩⟩
            · exact ⟨.refl _, rfl, fun _ => ⟨rfl, rfl, fun _ => rfl⟩⟩
            · exact ⟨.refl _, rfl, fun _ => ⟨rfl, rfl, fun _ => rfl⟩⟩
            · rename_i uri _
              unfold insertMapping
              split
              · exact ⟨.refl _, rfl, fun _ => ⟨rfl, rfl, fun _ => rfl⟩⟩
              · split
                · split
                  · rename_i attrs nss hx
                    refine ⟨.one (l := .nsPut self _ uri) (Or.inl ⟨_, _, _, rfl⟩) (.nsPut hx), rfl, fun m => ?_⟩
                    simp only [Heap.get_set]
                    split
                    · rename_i he; rw [he]; exact ⟨rfl, rfl, fun hn => absurd rfl hn⟩
                    · exact ⟨rfl, rfl, fun _ => rfl⟩
                  · exact ⟨.refl _, rfl, fun _ => ⟨rfl, rfl, fun _ => rfl⟩⟩
                · exact ⟨.refl _, rfl, fun _ => ⟨rfl, rfl, fun _ => rfl⟩⟩
          · exact ⟨.refl _, rfl, fun _ => ⟨rfl, rfl, fun _ => rfl⟩⟩
        generalize hr : recordNamespace e.uni h1 self attr (h1.get attr).name = r at hs2
        obtain ⟨o, h2⟩ := r
        obtain ⟨hs2, hlive2, hsame2⟩ := hs2
        simp only at hs2 hlive2 hsame2
        have s12 := s1.trans (hs2.mono hP)
        simp only [hr]
        cases o with
        | err _ => exact s12
        | panic _ => exact s12
        | diverge => exact s12
        | ok _ =>
          simp only
          have hchk2 : checkSameDocument h2 self attr = .ok () := by
            rw [← hchk1]
            exact checkSameDocument_congr hlive2 (hsame2 self).1 (hsame2 self).2.1
              (hsame2 attr).2.1
          have ht2 : (h2.get self).ntype = .element ∧ (h2.get attr).ntype = .attribute := by
            rw [(hsame2 self).1, (hsame2 attr).1]; exact ht1
          have he2 : (h2.get attr).ext = .attribute (some self) := by
            rw [(hsame2 attr).2.2 (Ne.symm hne), ← hh1]; simp
          have hl2 : h2.live self = true ∧ h2.live attr = true := by rw [hlive2]; exact hl1
          refine s12.trans ?_
          unfold storeAttribute
          split
          · rename_i attrs nss hx
            have s3 : Steps P h2 (h2.set self { h2.get self with
                ext := .element (mapInsert (h2.get attr).name attr attrs) nss }) :=
              .one (l := .attrPut self attr) (hput _)
                (.attrPut hx ht2.1 ht2.2 hl2.1 hl2.2 hchk2 he2)
            refine s3.trans ?_
            have hchk3 : checkSameDocument (h2.set self { h2.get self with
                ext := .element (mapInsert (h2.get attr).name attr attrs) nss }) self attr =
                .ok () := by
              rw [← hchk2]
              apply checkSameDocument_congr <;> simp [Ne.symm hne]
            have ht3 : ((h2.set self { h2.get self with
                ext := .element (mapInsert (h2.get attr).name attr attrs) nss }).get self).ntype =
                .element := by simpa using ht2.1
            have hl3 : (h2.set self { h2.get self with
                ext := .element (mapInsert (h2.get attr).name attr attrs) nss }).live self = true :=
              hl2.1
            exact (recordId_steps hchk3 ht3 hl3).mono hP
          · exact .refl _
      · exact .refl _
  · exact .refl _

theorem setAttributeNamed_steps {e : Env} {h : Heap} {self : NodeId} {o : Outcome Name} {v : Str}
    (hself : h.live self = true) (hn : ∀ nm, o = .ok nm → NameOk nm) :
    Steps BasicL h (setAttributeNamed e h self o v).2 := by
  unfold setAttributeNamed
  split
  · exact .refl _
  · exact .refl _
  · exact .refl _
  · rename_i nm
    split
    · exact .refl _
    · rename_i d hd
      have h1 : Steps BasicL h (h.newAttribute d nm (some v)).2 :=
        (newAttribute_steps (Or.inr ⟨self, hself, hd⟩) (hn nm rfl)).loud
      exact h1.trans (setAttributeNode_steps (fun _ _ => MapL.basic) (newAttribute_ext _ _ _ _)
        (fun _ => trivial)
        (h1.basic_live hself) (newAttribute_live _ _ _ _))

/-- Clearing the parent link of the removed attribute and removing the entry. -/
theorem removeAttributeNode_steps {h : Heap} {self old : NodeId} :
    Steps (fun h' l => (h' = h ∧ l = .orphan old) ∨ ∃ k, l = .attrDel self k) h
      (removeAttributeNode h self old).2 := by
  unfold removeAttributeNode
  split
  · split
    · rename_i attrs nss hx
      split
      · exact .refl _
      · rename_i hne
        have e : ((h.set self { h.get self with
            ext := .element (mapRemove (h.get old).name attrs) nss }).set old
            { (h.set self { h.get self with
              ext := .element (mapRemove (h.get old).name attrs) nss }).get old with
              parent := none }) =
            ((h.set old { h.get old with parent := none }).set self
              { (h.set old { h.get old with parent := none }).get self with
                ext := .element (mapRemove (h.get old).name attrs) nss }) := by
          simp only [Heap.get_set, if_neg hne, if_neg (Ne.symm hne)]
          unfold Heap.set
          congr 1
          funext m
          simp only
          split
          · rename_i he; subst he; rw [if_neg hne]
          · rfl
        simp only [e]
        refine .step (l := .orphan old) (Or.inl ⟨rfl, rfl⟩) .orphan
          (.one (l := .attrDel self (h.get old).name) (Or.inr ⟨_, rfl⟩) (.attrDel ?_))
        simpa [Heap.get_set, Ne.symm hne] using hx
    · exact .refl _
  · exact .refl _

/-- What a lookup by name returns is an entry of the attribute map. -/
theorem getAttributeNode_mem {e : Env} (he : e.Ok) {h : Heap} {n a : NodeId} {s : Str}
    (hg : getAttributeNode e h n s = .ok (some a)) :
    ∃ attrs nss k, (h.get n).ext = .element attrs nss ∧ (k, a) ∈ attrs := by
  unfold getAttributeNode at hg
  split at hg
  · split at hg
    · split at hg
      · rename_i attrs nss hx
        simp only [Outcome.ok.injEq, Option.map_eq_some_iff] at hg
        obtain ⟨⟨k, b⟩, hf, rfl⟩ := hg
        have := (he.attrOrder n attrs).mem_iff.mp (List.mem_of_find?_eq_some hf)
        exact ⟨attrs, nss, k, hx, this⟩
      · simp at hg
    all_goals simp at hg
  · simp at hg

theorem getAttributeNodeNs_mem {e : Env} (he : e.Ok) {h : Heap} {n a : NodeId} {u s : Str}
    (hg : getAttributeNodeNs e h n u s = .ok (some a)) :
    ∃ attrs nss k, (h.get n).ext = .element attrs nss ∧ (k, a) ∈ attrs := by
  unfold getAttributeNodeNs at hg
  split at hg
  · split at hg
    · split at hg
      · rename_i attrs nss hx
        simp only [Outcome.ok.injEq, Option.map_eq_some_iff] at hg
        obtain ⟨⟨k, b⟩, hf, rfl⟩ := hg
        have := (he.attrOrder n attrs).mem_iff.mp (List.mem_of_find?_eq_some hf)
        exact ⟨attrs, nss, k, hx, this⟩
      · simp at hg
    all_goals simp at hg
  · simp at hg

/-! ## The remaining tree edits -/

theorem removeChild_steps {h : Heap} {self old : NodeId} (hself : h.live self = true) :
    Steps (fun _ l => l = .unlink self old) h (removeChild h self old).2 := by
  rw [removeChild_eq]
  split
  · rename_i hm; exact .one rfl (.unlink hself hm)
  · exact .refl _

theorem replaceChild_steps {h : Heap} {self new old : NodeId}
    (hself : h.live self = true) (hnew : h.live new = true) :
    Steps (fun h l => InsertL self new h l ∨ l = .unlink self old) h
      (replaceChild h self new old).2 := by
  unfold replaceChild
  split
  · exact .refl _
  · split
    · rename_i hm
      simp only
      rw [removeChild_eq, if_pos hm]
      simp only
      have h1 : Steps (fun h l => InsertL self new h l ∨ l = .unlink self old) h
          (h.unlink self old) := .one (Or.inr rfl) (.unlink hself hm)
      have h2 : Steps (fun h l => InsertL self new h l ∨ l = .unlink self old) (h.unlink self old)
          (insertBefore (h.unlink self old) self new (nextSibling h old)).2 :=
        (insertBefore_insertSteps (h := h.unlink self old) hself hnew).mono fun _ _ => Or.inl
      have h3 := h1.trans h2
      generalize insertBefore (h.unlink self old) self new (nextSibling h old) = r at h3
      obtain ⟨o, h'⟩ := r
      cases o <;> exact h3
    · exact .refl _

theorem normalizeLoop_steps {self : NodeId} : ∀ (cs : List NodeId) (h : Heap),
    h.live self = true → Steps (fun _ l => (∃ c, l = .unlink self c) ∨ ∃ n v, l = .value n v) h
      (normalizeLoop self cs h).2 := by
  intro cs
  induction cs with
  | nil => intro h _; exact .refl _
  | cons c cs ih =>
    intro h hself
    have hrm : ∀ h : Heap, h.live self = true → Steps (fun _ l => (∃ c, l = .unlink self c) ∨ ∃ n v, l = .value n v) h
        ((match removeChild h self c with
        | (.ok _, h1) => normalizeLoop self cs h1
        | (_, h1) => (.panic .explicit, h1)) : Result Unit).2 := by
      intro h hself
      rw [removeChild_eq]
      by_cases hm : c ∈ (h.get self).children
      · rw [if_pos hm]
        exact .step (l := .unlink self c) (Or.inl ⟨_, rfl⟩) (.unlink hself hm) (ih _ hself)
      · rw [if_neg hm]
        exact .refl _
    unfold normalizeLoop
    split
    · split
      · exact hrm h hself
      · split
        · exact ih _ hself
        · rename_i l _
          split
          · split
            · exact .refl _
            · rename_i v _
              exact .step (l := .value l (appendData (h.get l).value v)) (Or.inr ⟨_, _, rfl⟩)
                .value (hrm _ hself)
          · exact ih _ hself
    · exact ih _ hself

theorem setValue_steps {h : Heap} {a : NodeId} {v : Str} (ha : h.live a = true) :
    Steps (fun h l => QuietL h l ∨ l = .clear a) h (setValue h a v).2 := by
  have h1 : Steps (fun h l => QuietL h l ∨ l = .clear a) h (unsetValue h a).2 :=
    .one (l := .clear a) (Or.inr rfl) .clear
  unfold setValue
  generalize hh : (unsetValue h a).2 = h0 at h1 ⊢
  have ha0 : h0.live a = true := by rw [← hh]; exact ha
  simp only
  cases hd : ownerDocument h0 a with
  | none => exact h1
  | some d =>
    simp only
    split
    · have hdl := (Heap.upgrade_some.mp hd).2
      have h2 : Steps QuietL h0 (h0.alloc (Node.newText d v)).2 :=
        .one (l := .alloc _) trivial (.alloc (freshNode_text (Or.inl hdl)))
      have h3 := h2.trans (appendChild_steps (new := (h0.alloc (Node.newText d v)).1)
        (h2.loud.basic_live ha0) (by simp) (by simp [Node.newText]))
      have h4 := h1.trans (h3.mono fun _ _ => Or.inl)
      generalize appendChild (h0.alloc (Node.newText d v)).2 a
        (h0.alloc (Node.newText d v)).1 = r at h4
      obtain ⟨o, h'⟩ := r
      cases o <;> exact h4
    · exact h1

theorem setXmlDeclaration_steps {h : Heap} {d : NodeId} {x : XmlDecl} :
    Steps QuietL h (setXmlDeclaration h d x).2 := by
  unfold setXmlDeclaration
  split
  · rename_i y hy
    exact .one (l := .decl d x) trivial (.decl hy)
  · exact .refl _

/-! ## Cloning -/

/-- A copy of the node. -/
def CopyOf (n : NodeId) (_ : Heap) (l : Label) : Prop := ∃ cs, l = .clone n cs

/-- A copy of a child of a live node. -/
def CopyOfChild (h : Heap) (l : Label) : Prop :=
  ∃ m cs, l = .clone m cs ∧ ∃ p, h.live p = true ∧ m ∈ (h.get p).children

/-- The steps of a clone: copies of the node and of children. -/
def CloneL (n : NodeId) (h : Heap) (l : Label) : Prop := CopyOf n h l ∨ CopyOfChild h l

theorem CloneL.clone {n : NodeId} {h : Heap} {l : Label} (hl : CloneL n h l) :
    ∃ m cs, l = .clone m cs := by
  rcases hl with ⟨cs, rfl⟩ | ⟨m, cs, rfl, _⟩
  · exact ⟨n, cs, rfl⟩
  · exact ⟨m, cs, rfl⟩

/-- Copying does not touch a node that exists. -/
theorem Step.clone_old {m : NodeId} {cs : List NodeId} {h h' : Heap} (hs : Step (.clone m cs) h h')
    {n : NodeId} (hn : n < h.next) :
    h'.get n = h.get n ∧ h'.live n = h.live n ∧ n < h'.next := by
  cases hs with
  | clone => simp [Nat.ne_of_lt hn]; exact Nat.lt_succ_of_lt hn

/-- The type and the owner of a node. -/
def typeOwner (h : Heap) (n : NodeId) : NodeType × Option NodeId :=
  ((h.get n).ntype, (h.get n).owner)

/-- What is known after a clone. -/
structure CloneRes (P : Heap → Label → Prop) (h h' : Heap) : Prop where
  steps : Steps P h h'
  old : ∀ m, m < h.next → h'.get m = h.get m
  live : ∀ m, h.live m = true → h'.live m = true
  next : h.next ≤ h'.next

theorem CloneRes.refl (P : Heap → Label → Prop) (h : Heap) : CloneRes P h h :=
  ⟨.refl _, fun _ _ => rfl, fun _ h => h, Nat.le_refl _⟩

theorem CloneRes.trans {P : Heap → Label → Prop} {h h1 h2 : Heap} (a : CloneRes P h h1)
    (b : CloneRes P h1 h2) : CloneRes P h h2 :=
  ⟨a.steps.trans b.steps,
    fun m hm => (b.old m (Nat.lt_of_lt_of_le hm a.next)).trans (a.old m hm),
    fun m hm => b.live m (a.live m hm), Nat.le_trans a.next b.next⟩

theorem CloneRes.mono {P Q : Heap → Label → Prop} (hPQ : ∀ h l, P h l → Q h l) {h h1 : Heap}
    (a : CloneRes P h h1) : CloneRes Q h h1 := ⟨a.steps.mono hPQ, a.old, a.live, a.next⟩

/-- Copies of a child are copies of a child as long as its parent is untouched. -/
theorem CloneRes.ofChild {p c : NodeId} {h h1 : Heap} (hp : h.live p = true) (hlt : p < h.next)
    (hc : c ∈ (h.get p).children) (a : CloneRes (CloneL c) h h1) : CloneRes CopyOfChild h h1 := by
  refine ⟨?_, a.old, a.live, a.next⟩
  refine (a.steps.withInv (fun h => h.live p = true ∧ p < h.next ∧ c ∈ (h.get p).children)
    ?_ ⟨hp, hlt, hc⟩).mono ?_
  · rintro h l h' ⟨h1, h2, h3⟩ hl hs
    obtain ⟨m, cs, rfl⟩ := hl.clone
    obtain ⟨e1, e2, e3⟩ := hs.clone_old h2
    exact ⟨by rw [e2]; exact h1, e3, by rw [e1]; exact h3⟩
  · rintro h l ⟨⟨cs, rfl⟩ | hl, h1, _, h3⟩
    · exact ⟨c, cs, rfl, p, h1, h3⟩
    · exact hl

theorem CloneRes.alloc {h : Heap} {n : NodeId} {cs : List NodeId}
    (hn : h.live n = true) (hlive : ∀ c ∈ cs, h.live c = true)
    (hcs : cs = [] ∨ cs.map (typeOwner h) = (h.get n).children.map (typeOwner h)) :
    CloneRes (CloneL n) h (h.alloc { h.get n with parent := none, children := cs }).2 := by
  refine ⟨.one (l := .clone n cs) (Or.inl ⟨cs, rfl⟩) (.clone hn hlive hcs), ?_, ?_, ?_⟩
  · intro m hm
    rw [Heap.get_alloc, if_neg (Nat.ne_of_lt hm)]
  · intro m hm; simp [hm]
  · rw [Heap.next_alloc]; exact Nat.le_succ _

theorem cloneList_res {g : Heap → NodeId → Result NodeId} {p : NodeId}
    (hg : ∀ h c, WF h → h.live c = true → CloneRes (CloneL c) h (g h c).2 ∧
      ∀ r, (g h c).1 = .ok r → (g h c).2.live r = true ∧
        typeOwner (g h c).2 r = typeOwner h c) :
    ∀ (cs : List NodeId) (h : Heap), WF h → h.live p = true →
      (∀ c ∈ cs, h.live c = true ∧ c ∈ (h.get p).children) →
      CloneRes CopyOfChild h (cloneList g h cs).2 ∧
      ∀ rs, (cloneList g h cs).1 = .ok rs → (∀ r ∈ rs, (cloneList g h cs).2.live r = true) ∧
        rs.map (typeOwner (cloneList g h cs).2) = cs.map (typeOwner h) := by
  intro cs
  induction cs with
  | nil =>
    intro h w _ hl
    refine ⟨.refl _ _, ?_⟩
    intro rs hrs
    simp only [cloneList, Outcome.ok.injEq] at hrs
    subst hrs
    simp
  | cons c cs ih =>
    intro h w hp hl
    obtain ⟨h1, h2⟩ := hg h c w (hl c (by simp)).1
    replace h1 := h1.ofChild hp (w.fresh p hp) (hl c (by simp)).2
    unfold cloneList
    generalize g h c = r at h1 h2
    obtain ⟨o, hh⟩ := r
    cases o with
    | ok c' =>
      simp only at h1 h2 ⊢
      have w1 := h1.steps.wf w
      obtain ⟨h3, h4⟩ := ih hh w1 (h1.live p hp) fun x hx => ⟨h1.live x (hl x (by simp [hx])).1, by
        rw [h1.old p (w.fresh p hp)]; exact (hl x (by simp [hx])).2⟩
      generalize cloneList g hh cs = q at h3 h4
      obtain ⟨o2, hh2⟩ := q
      cases o2 with
      | ok cs' =>
        simp only at h3 h4 ⊢
        refine ⟨h1.trans h3, ?_⟩
        intro rs hrs
        simp only [Outcome.ok.injEq] at hrs
        subst hrs
        obtain ⟨h5, h6⟩ := h4 cs' rfl
        obtain ⟨h7, h8⟩ := h2 c' rfl
        refine ⟨?_, ?_⟩
        · intro r hr
          rcases List.mem_cons.mp hr with rfl | hr
          · exact h3.live _ h7
          · exact h5 r hr
        · rw [List.map_cons, List.map_cons, h6, ← h8]
          congr 1
          · unfold typeOwner
            rw [h3.old c' (w1.fresh c' h7)]
          · apply List.map_congr_left
            intro x hx
            unfold typeOwner
            rw [h1.old x (w.fresh x (hl x (by simp [hx])).1)]
      | err _ => exact ⟨h1.trans h3, fun _ h => by cases h⟩
      | panic _ => exact ⟨h1.trans h3, fun _ h => by cases h⟩
      | diverge => exact ⟨h1.trans h3, fun _ h => by cases h⟩
    | err _ => exact ⟨h1, fun _ h => by cases h⟩
    | panic _ => exact ⟨h1, fun _ h => by cases h⟩
    | diverge => exact ⟨h1, fun _ h => by cases h⟩

theorem cloneNode_res : ∀ (fuel : Nat) (h : Heap) (n : NodeId), WF h →
    h.live n = true → CloneRes (CloneL n) h (cloneNode fuel h n true).2 ∧
      ∀ r, (cloneNode fuel h n true).1 = .ok r → (cloneNode fuel h n true).2.live r = true ∧
        typeOwner (cloneNode fuel h n true).2 r = typeOwner h n := by
  intro fuel
  induction fuel with
  | zero => intro h n _ _; exact ⟨.refl _ _, fun _ h => by cases h⟩
  | succ fuel ih =>
    intro h n w hn
    unfold cloneNode
    simp only
    rw [if_pos trivial]
    obtain ⟨h1, h2⟩ := cloneList_res (g := fun h c => cloneNode fuel h c true) (p := n)
      (fun h c w hc => ih h c w hc) (h.get n).children h w hn (fun c hc => ⟨w.child hn hc, hc⟩)
    replace h1 := h1.mono (Q := CloneL n) fun _ _ hl => Or.inr hl
    generalize cloneList (fun h c => cloneNode fuel h c true) h (h.get n).children = q at h1 h2
    obtain ⟨o, hh⟩ := q
    cases o with
    | ok cs =>
      simp only at h1 h2 ⊢
      obtain ⟨h3, h4⟩ := h2 cs rfl
      have e := h1.old n (w.fresh n hn)
      rw [← e]
      refine ⟨h1.trans (.alloc (h1.live n hn) h3 (Or.inr ?_)), ?_⟩
      · rw [h4, e]
        apply List.map_congr_left
        intro x hx
        unfold typeOwner
        rw [h1.old x (w.fresh x (w.child hn hx))]
      · intro r hr
        simp only [Outcome.ok.injEq] at hr
        subst hr
        simp [typeOwner, e]
    | err _ => exact ⟨h1, fun _ h => by cases h⟩
    | panic _ => exact ⟨h1, fun _ h => by cases h⟩
    | diverge => exact ⟨h1, fun _ h => by cases h⟩

/-- The steps of a call of `clone_node`. -/
theorem cloneNode_stepsOf {h : Heap} (w : WF h) {n : NodeId} (hn : h.live n = true) (deep : Bool)
    (fuel : Nat) : Steps (StepsOf (.cloneNode n deep fuel)) h (cloneNode fuel h n deep).2 := by
  have hone : Steps (StepsOf (.cloneNode n deep fuel)) h
      (h.alloc { h.get n with parent := none, children := [] }).2 :=
    .one (l := .clone n []) ⟨n, deep, fuel, rfl, Or.inl ⟨rfl, rfl⟩, Or.inl rfl⟩
      (.clone hn (by simp) (Or.inl rfl))
  cases deep with
  | false =>
    cases fuel with
    | zero => exact .refl _
    | succ f => exact hone
  | true =>
    by_cases hc : (h.get n).children = []
    · cases fuel with
      | zero => exact .refl _
      | succ f =>
        unfold cloneNode
        simp only [if_true, hc, cloneList]
        exact hone
    · refine ((cloneNode_res fuel h n w hn).1.steps.withInv
        (fun h => n < h.next ∧ (h.get n).children ≠ []) ?_ ⟨w.fresh n hn, hc⟩).mono ?_
      · rintro h l h' ⟨h1, h2⟩ hl hs
        obtain ⟨m, cs, rfl⟩ := hl.clone
        obtain ⟨e1, _, e3⟩ := hs.clone_old h1
        exact ⟨e3, by rw [e1]; exact h2⟩
      · rintro h l ⟨⟨cs, rfl⟩ | ⟨m, cs, rfl, hp⟩, _, h2⟩
        · exact ⟨n, true, fuel, rfl, Or.inr ⟨rfl, h2⟩, Or.inl rfl⟩
        · exact ⟨n, true, fuel, rfl, Or.inr ⟨rfl, h2⟩, Or.inr hp⟩

/-! ## Reading a document -/

/-- What is known after a step of the reader: the steps are basic, and the result is
live. -/
def ReadRes (h : Heap) (r : Result NodeId) : Prop :=
  Steps BasicL h r.2 ∧ ∀ n, r.1 = .ok n → r.2.live n = true

theorem ReadRes.of_steps {h h' h2 : Heap} {o : Outcome NodeId} (s : Steps BasicL h h')
    (r : ReadRes h' (o, h2)) : ReadRes h (o, h2) := ⟨s.trans r.1, r.2⟩

/-- The same for a call that registers no id. -/
def QuietRes (h : Heap) (r : Result NodeId) : Prop :=
  Steps QuietL h r.2 ∧ ∀ n, r.1 = .ok n → r.2.live n = true

theorem QuietRes.res {h : Heap} {r : Result NodeId} (q : QuietRes h r) : ReadRes h r :=
  ⟨q.1.loud, q.2⟩

theorem appendChild_quiet {h : Heap} {p c : NodeId} (hp : h.live p = true) (hc : Leaf h c) :
    QuietRes h (appendChild h p c) := by
  have hs := appendChild_steps hp hc.1 hc.2
  refine ⟨hs, ?_⟩
  intro n hn
  have : n = c := insertBefore_result (Prod.ext hn rfl : insertBefore h p c none = (.ok n, _))
  subst this
  exact hs.loud.basic_live hc.1

theorem handleAttributes_res {e : Env} {doc el : NodeId} : ∀ (as : List AttrEvent) (h : Heap),
    h.live doc = true → h.live el = true → ReadRes h (handleAttributes e doc el as h) := by
  intro as
  induction as with
  | nil =>
    intro h _ hel
    exact ⟨.refl _, fun n hn => by cases hn; exact hel⟩
  | cons a as ih =>
    intro h hd hel
    cases a with
    | bad => exact ⟨.refl _, fun _ hn => by cases hn⟩
    | undecodable => exact ⟨.refl _, fun _ hn => by cases hn⟩
    | good k v =>
      unfold handleAttributes
      have h1 : Steps BasicL h (createAttributeWith h doc k v).2 :=
        (createAttr_steps hd fun nm hnm => nameOk_fromStr hnm).loud
      have h1l : ∀ a, (createAttributeWith h doc k v).1 = .ok a →
          (createAttributeWith h doc k v).2.live a = true ∧
          ((createAttributeWith h doc k v).2.get a).ext = .attribute none := by
        intro a ha
        unfold createAttributeWith createAttr at ha ⊢
        cases hn : Name.fromStr k with
        | ok nm =>
          rw [hn] at ha
          simp only [Outcome.ok.injEq] at ha ⊢
          rw [← ha]; exact ⟨newAttribute_live _ _ _ _, newAttribute_ext _ _ _ _⟩
        | err _ => rw [hn] at ha; cases ha
        | panic _ => rw [hn] at ha; cases ha
        | diverge => rw [hn] at ha; cases ha
      generalize createAttributeWith h doc k v = r at h1 h1l
      obtain ⟨o, hh⟩ := r
      cases o with
      | err _ => exact ⟨h1, fun _ hn => by cases hn⟩
      | panic _ => exact ⟨h1, fun _ hn => by cases hn⟩
      | diverge => exact ⟨h1, fun _ hn => by cases hn⟩
      | ok a =>
        simp only at h1 h1l ⊢
        have h2 := setAttributeNode_steps (e := e) (fun _ _ => MapL.basic) (h1l a rfl).2 (fun _ => trivial)
          (h1.basic_live hel) (h1l a rfl).1
        generalize setAttributeNode e hh el a = r2 at h2
        obtain ⟨o2, hh2⟩ := r2
        have h3 := h1.trans h2
        cases o2 with
        | err _ => exact ⟨h3, fun _ hn => by cases hn⟩
        | panic _ => exact ⟨h3, fun _ hn => by cases hn⟩
        | diverge => exact ⟨h3, fun _ hn => by cases hn⟩
        | ok _ =>
          have := ih hh2 (h3.basic_live hd) (h3.basic_live hel)
          exact ⟨h3.trans this.1, this.2⟩

/-- Creating a node and appending it. -/
theorem createAppend_quiet {h : Heap} {p : NodeId} {q : Result NodeId} (hp : h.live p = true)
    (hs : Steps QuietL h q.2) (hl : ∀ n, q.1 = .ok n → Leaf q.2 n) {n : NodeId} {h1 : Heap}
    (hq : q = (.ok n, h1)) : QuietRes h (appendChild h1 p n) := by
  subst hq
  have := appendChild_quiet (hs.loud.basic_live hp) (hl n rfl)
  exact ⟨hs.trans this.1, this.2⟩

theorem handleStart_res {e : Env} {doc parent : NodeId} {nm : Option Str} {as : List AttrEvent}
    {h : Heap} (hd : h.live doc = true) (hp : h.live parent = true) :
    ReadRes h (handleStart e doc parent nm as h) := by
  unfold handleStart
  cases nm with
  | none => exact ⟨.refl _, fun _ hn => by cases hn⟩
  | some nm =>
    have h1 := createElement_steps (t := nm) hd
    have h1l : ∀ n, (createElement h doc nm).1 = .ok n → Leaf (createElement h doc nm).2 n :=
      fun n hn => createNamed_live (fun _ => rfl) (Prod.ext hn rfl)
    simp only
    generalize createElement h doc nm = r at h1 h1l
    obtain ⟨o, hh⟩ := r
    cases o with
    | err _ => exact ⟨h1.loud, fun _ hn => by cases hn⟩
    | panic _ => exact ⟨h1.loud, fun _ hn => by cases hn⟩
    | diverge => exact ⟨h1.loud, fun _ hn => by cases hn⟩
    | ok el =>
      have h2 := (createAppend_quiet hp h1 h1l rfl).res
      simp only
      generalize appendChild hh parent el = r2 at h2
      obtain ⟨o2, hh2⟩ := r2
      cases o2 with
      | err _ => exact h2
      | panic _ => exact h2
      | diverge => exact h2
      | ok el' =>
        have := handleAttributes_res (e := e) as hh2 (h2.1.basic_live hd) (h2.2 el' rfl)
        exact ⟨h2.1.trans this.1, this.2⟩

theorem handleComment_quiet {doc parent : NodeId} {t : Option Str} {h : Heap}
    (hd : h.live doc = true) (hp : h.live parent = true) :
    QuietRes h (handleComment doc parent t h) := by
  cases t with
  | none => exact ⟨.refl _, fun _ hn => by cases hn⟩
  | some s =>
    refine createAppend_quiet (q := createComment h doc s) hp ?_ ?_ rfl
    · exact .one (l := .alloc _) trivial (.alloc (freshNode_comment (Or.inl hd)))
    · intro n hn; cases hn; simp [Leaf, createComment, Node.newComment]

theorem handleText_quiet {doc parent : NodeId} {t : Option Str} {h : Heap}
    (hd : h.live doc = true) (hp : h.live parent = true) :
    QuietRes h (handleText doc parent t h) := by
  cases t with
  | none => exact ⟨.refl _, fun _ hn => by cases hn⟩
  | some s =>
    refine createAppend_quiet (q := createTextNode h doc s) hp ?_ ?_ rfl
    · exact .one (l := .alloc _) trivial (.alloc (freshNode_text (Or.inl hd)))
    · intro n hn; cases hn; simp [Leaf, createTextNode, Node.newText]

theorem handleCdata_quiet {doc parent : NodeId} {t : Option Str} {h : Heap}
    (hd : h.live doc = true) (hp : h.live parent = true) :
    QuietRes h (handleCdata doc parent t h) := by
  cases t with
  | none => exact ⟨.refl _, fun _ hn => by cases hn⟩
  | some s =>
    refine createAppend_quiet (q := createCdataSection h doc s) hp ?_ ?_ rfl
    · exact .one (l := .alloc _) trivial (.alloc (freshNode_cdata (Or.inl hd)))
    · intro n hn; cases hn; simp [Leaf, createCdataSection, Node.newCdata]

theorem createProcessingInstruction_live {h : Heap} {d n : NodeId} {t : Str} {x : Option Str}
    (hc : (createProcessingInstruction h d t x).1 = .ok n) :
    Leaf (createProcessingInstruction h d t x).2 n := by
  unfold createProcessingInstruction at hc ⊢
  split
  · rename_i ht; rw [if_pos ht] at hc; cases hc
  · rename_i ht; rw [if_neg ht] at hc; exact createNamed_live (fun _ => rfl) (Prod.ext hc rfl)

theorem handlePi_quiet {e : Env} {doc parent : NodeId} {t : Option Str} {h : Heap}
    (hd : h.live doc = true) (hp : h.live parent = true) :
    QuietRes h (handlePi e doc parent t h) := by
  unfold handlePi
  cases t with
  | none => exact ⟨.refl _, fun _ hn => by cases hn⟩
  | some s =>
    simp only
    have h1 := (createProcessingInstruction_steps (t := (splitPi e.uni s).1)
      (x := (splitPi e.uni s).2) hd)
    have h1l : ∀ n, (createProcessingInstruction h doc (splitPi e.uni s).1
        (splitPi e.uni s).2).1 = .ok n → Leaf (createProcessingInstruction h doc
        (splitPi e.uni s).1 (splitPi e.uni s).2).2 n := fun n hn => createProcessingInstruction_live hn
    generalize createProcessingInstruction h doc (splitPi e.uni s).1 (splitPi e.uni s).2 = r
      at h1 h1l
    obtain ⟨o, hh⟩ := r
    cases o with
    | err _ => exact ⟨h1, fun _ hn => by cases hn⟩
    | panic _ => exact ⟨h1, fun _ hn => by cases hn⟩
    | diverge => exact ⟨h1, fun _ hn => by cases hn⟩
    | ok n => exact createAppend_quiet hp h1 h1l rfl

theorem handleDecl_quiet {doc : NodeId} {v : Option Str} {enc sa : Option (Option Str)} {h : Heap} :
    Steps QuietL h (handleDecl doc v enc sa h).2 := by
  unfold handleDecl
  split
  · rename_i x hx
    split
    · exact .refl _
    · split
      · exact .one (l := .decl doc _) trivial (.decl hx)
      · exact .refl _
      · exact .refl _
      · exact .refl _
  · exact .refl _

theorem handleComment_res {doc parent : NodeId} {t : Option Str} {h : Heap}
    (hd : h.live doc = true) (hp : h.live parent = true) :
    ReadRes h (handleComment doc parent t h) := (handleComment_quiet hd hp).res

theorem handleText_res {doc parent : NodeId} {t : Option Str} {h : Heap}
    (hd : h.live doc = true) (hp : h.live parent = true) :
    ReadRes h (handleText doc parent t h) := (handleText_quiet hd hp).res

theorem handleCdata_res {doc parent : NodeId} {t : Option Str} {h : Heap}
    (hd : h.live doc = true) (hp : h.live parent = true) :
    ReadRes h (handleCdata doc parent t h) := (handleCdata_quiet hd hp).res

theorem handlePi_res {e : Env} {doc parent : NodeId} {t : Option Str} {h : Heap}
    (hd : h.live doc = true) (hp : h.live parent = true) :
    ReadRes h (handlePi e doc parent t h) := (handlePi_quiet hd hp).res

theorem handleDecl_steps {doc : NodeId} {v : Option Str} {enc sa : Option (Option Str)} {h : Heap} :
    Steps BasicL h (handleDecl doc v enc sa h).2 := handleDecl_quiet.loud

theorem parseElement_steps {e : Env} {doc : NodeId} : ∀ (fuel : Nat) (parent : NodeId)
    (evs : List Event) (h : Heap), h.live doc = true → h.live parent = true →
    Steps BasicL h (parseElement e doc fuel parent evs h).heap := by
  intro fuel
  induction fuel with
  | zero => intro _ _ _ _ _; exact .refl _
  | succ fuel ih =>
    intro parent evs h hd hp
    have go : ∀ (r : Result NodeId) (rest : List Event), ReadRes h r →
        Steps BasicL h ((match r with
          | (.ok _, h1) => parseElement e doc fuel parent rest h1
          | (o, h1) => ⟨o, rest, h1⟩) : ParseResult).heap := by
      rintro ⟨o, h1⟩ rest hr
      cases o with
      | ok n => exact hr.1.trans (ih parent rest h1 (hr.1.basic_live hd) (hr.1.basic_live hp))
      | err _ => exact hr.1
      | panic _ => exact hr.1
      | diverge => exact hr.1
    unfold parseElement
    cases evs with
    | nil => exact .refl _
    | cons ev rest =>
      cases ev with
      | start name attrs =>
        have hr := handleStart_res (e := e) (nm := name) (as := attrs) hd hp
        simp only
        generalize handleStart e doc parent name attrs h = r at hr
        obtain ⟨o, h1⟩ := r
        cases o with
        | err _ => exact hr.1
        | panic _ => exact hr.1
        | diverge => exact hr.1
        | ok el =>
          have h2 := ih el rest h1 (hr.1.basic_live hd) (hr.2 el rfl)
          simp only
          generalize parseElement e doc fuel el rest h1 = q at h2
          obtain ⟨o2, rest2, hh2⟩ := q
          have h3 := hr.1.trans h2
          cases o2 with
          | err _ => exact h3
          | panic _ => exact h3
          | diverge => exact h3
          | ok _ => exact h3.trans (ih parent rest2 hh2 (h3.basic_live hd) (h3.basic_live hp))
      | empty name attrs => exact go _ _ (handleStart_res hd hp)
      | comment t => exact go _ _ (handleComment_res hd hp)
      | pi t => exact go _ _ (handlePi_res hd hp)
      | text t => exact go _ _ (handleText_res hd hp)
      | cdata t => exact go _ _ (handleCdata_res hd hp)
      | decl _ _ _ => exact .refl _
      | close => exact .refl _
      | other => exact .refl _
      | eof => exact .refl _
      | readError => exact .refl _

theorem parseLoop_steps {e : Env} {doc : NodeId} : ∀ (fuel : Nat) (evs : List Event) (h : Heap),
    h.live doc = true → Steps BasicL h (parseLoop e doc fuel evs h).2 := by
  intro fuel
  induction fuel with
  | zero => intro _ _ _; exact .refl _
  | succ fuel ih =>
    intro evs h hd
    have go : ∀ (r : Result NodeId) (rest : List Event), ReadRes h r →
        Steps BasicL h ((match r with
          | (.ok _, h1) => parseLoop e doc fuel rest h1
          | r => r) : Result NodeId).2 := by
      rintro ⟨o, h1⟩ rest hr
      cases o with
      | ok n => exact hr.1.trans (ih rest h1 (hr.1.basic_live hd))
      | err _ => exact hr.1
      | panic _ => exact hr.1
      | diverge => exact hr.1
    unfold parseLoop
    cases evs with
    | nil => exact .refl _
    | cons ev rest =>
      cases ev with
      | decl v enc sa =>
        have hr := handleDecl_steps (doc := doc) (v := v) (enc := enc) (sa := sa) (h := h)
        simp only
        generalize handleDecl doc v enc sa h = r at hr
        obtain ⟨o, h1⟩ := r
        cases o with
        | ok _ => exact hr.trans (ih rest h1 (hr.basic_live hd))
        | err _ => exact hr
        | panic _ => exact hr
        | diverge => exact hr
      | start name attrs =>
        have hr := handleStart_res (e := e) (nm := name) (as := attrs) hd hd
        simp only
        generalize handleStart e doc doc name attrs h = r at hr
        obtain ⟨o, h1⟩ := r
        cases o with
        | err _ => exact hr.1
        | panic _ => exact hr.1
        | diverge => exact hr.1
        | ok el =>
          have h2 := parseElement_steps (e := e) (rest.length + 1) el rest h1
            (hr.1.basic_live hd) (hr.2 el rfl)
          simp only
          generalize parseElement e doc (rest.length + 1) el rest h1 = q at h2
          obtain ⟨o2, rest2, hh2⟩ := q
          have h3 := hr.1.trans h2
          cases o2 with
          | err _ => exact h3.trans (ih rest2 hh2 (h3.basic_live hd))
          | panic _ => exact h3
          | diverge => exact h3
          | ok _ => exact h3.trans (ih rest2 hh2 (h3.basic_live hd))
      | empty name attrs => exact go _ _ (handleStart_res hd hd)
      | comment t => exact go _ _ (handleComment_res hd hd)
      | pi t => exact go _ _ (handlePi_res hd hd)
      | close => exact ih rest h hd
      | text t => exact .refl _
      | cdata t => exact .refl _
      | other => exact .refl _
      | eof => exact .refl _
      | readError => exact .refl _

theorem readXml_steps {e : Env} {h : Heap} {evs : List Event} :
    Steps BasicL h (readXml e h evs).2 := by
  unfold readXml
  have h1 : Steps BasicL h (createDocument h none none none).2 :=
    (createDocumentWithOptions_steps fun _ ht => by cases ht).loud
  have hc : createDocument h none none none =
      (.ok h.next, (h.alloc (Node.newDocument none Options.new.setAddNamespaces)).2) := rfl
  rw [hc] at h1 ⊢
  exact h1.trans (parseLoop_steps _ _ _ (by simp))

/-! ## Every call -/

theorem BasicL.stepsOf {op : Op} (hop : op.plain = true) (hid : op.registers = true) {h : Heap}
    {l : Label} (hb : BasicL h l) : StepsOf op h l := by
  cases l <;> first
    | trivial | exact Or.inl hb | exact Or.inr ⟨hop, hb⟩ | exact Or.inl hop | exact hid
    | exact False.elim hb

theorem QuietL.stepsOf {op : Op} (hop : op.plain = true) {h : Heap} {l : Label}
    (hb : QuietL h l) : StepsOf op h l := by
  cases l <;> first
    | trivial | exact Or.inl hb | exact Or.inr ⟨hop, hb⟩ | exact Or.inl hop | exact False.elim hb

theorem Steps.quiet {op : Op} (hop : op.plain = true := by rfl) {h h' : Heap}
    (a : Steps QuietL h h') : Steps (StepsOf op) h h' :=
  a.mono fun _ _ => QuietL.stepsOf hop

theorem Steps.basic {op : Op} (hop : op.plain = true := by rfl)
    (hid : op.registers = true := by rfl) {h h' : Heap}
    (a : Steps BasicL h h') : Steps (StepsOf op) h h' :=
  a.mono fun _ _ => BasicL.stepsOf hop hid

theorem leftBehind_steps {α : Type} {P : Heap → Label → Prop} {h : Heap} {r : Result α}
    (hs : Steps P h r.2) : Steps P h (leftBehind h r) := by
  obtain ⟨o, h'⟩ := r
  cases o with
  | diverge => exact .refl _
  | ok _ => exact hs
  | err _ => exact hs
  | panic _ => exact hs

theorem removeFound_steps {h : Heap} {self : NodeId} {f : Outcome (Option NodeId)} {op : Op}
    (hself : h.live self = true)
    (hf : ∀ a, f = .ok (some a) →
      ∃ attrs nss k, (h.get self).ext = .element attrs nss ∧ (k, a) ∈ attrs) :
    Steps (StepsOf op) h (removeFound h self f).2 := by
  unfold removeFound
  split
  · exact .refl _
  · exact .refl _
  · exact .refl _
  · exact .refl _
  · rename_i a
    obtain ⟨attrs, nss, k, hx, hm⟩ := hf a rfl
    refine (removeAttributeNode_steps (h := h) (self := self) (old := a)).mono ?_
    rintro h' l (⟨rfl, rfl⟩ | ⟨k, rfl⟩)
    · exact Or.inr ⟨self, attrs, nss, k, hself, hx, hm⟩
    · trivial

theorem apply_steps {e : Env} (he : e.Ok) {op : Op} {h : Heap} (w : WF h)
    (hl : ∀ a ∈ op.args, h.live a = true) : Steps (StepsOf op) h (op.apply e h) := by
  cases op with
  | createDocument uri q dt o =>
    refine leftBehind_steps (Steps.quiet (a := createDocumentWithOptions_steps ?_))
    intro t ht; subst ht; exact hl t (by simp [Op.args])
  | createDocumentType q p s =>
    refine leftBehind_steps (Steps.quiet (a := createNamed_steps fun nm hnm => ?_))
    exact ⟨rfl, rfl, Or.inr ⟨rfl, Or.inr rfl⟩, nameOk_fromStr hnm, ⟨_, _, rfl⟩⟩
  | createElement d t =>
    exact leftBehind_steps (Steps.quiet (a := createElement_steps (hl d (by simp [Op.args]))))
  | createElementNs d u t =>
    exact leftBehind_steps (Steps.quiet (a := createElementNs_steps (hl d (by simp [Op.args]))))
  | createAttribute d n =>
    exact leftBehind_steps (Steps.quiet (a := createAttr_steps (hl d (by simp [Op.args]))
      fun _ => nameOk_fromStr))
  | createAttributeWith d n v =>
    exact leftBehind_steps (Steps.quiet (a := createAttr_steps (hl d (by simp [Op.args]))
      fun _ => nameOk_fromStr))
  | createAttributeNs d u n =>
    exact leftBehind_steps (Steps.quiet (a := createAttr_steps (hl d (by simp [Op.args]))
      fun _ => nameOk_newNs))
  | createCdataSection d s =>
    have hs : Step (.alloc (Node.newCdata d s)) h (h.alloc (Node.newCdata d s)).2 :=
      .alloc (freshNode_cdata (Or.inl (hl d (by simp [Op.args]))))
    exact .one (l := .alloc (Node.newCdata d s)) trivial hs
  | createDocumentFragment d =>
    have hs : Step (.alloc (Node.newDocumentFragment d)) h
        (h.alloc (Node.newDocumentFragment d)).2 :=
      .alloc ⟨rfl, rfl, Or.inl ⟨d, rfl, Or.inl (hl d (by simp [Op.args])),
        by simp [Node.newDocumentFragment]⟩, rfl, rfl⟩
    exact .one (l := .alloc (Node.newDocumentFragment d)) trivial hs
  | createEntityReference d n =>
    refine leftBehind_steps (Steps.quiet (a := createNamed_steps fun nm hnm => ?_))
    exact ⟨rfl, rfl, Or.inl ⟨d, rfl, Or.inl (hl d (by simp [Op.args])),
      by simp [Node.newEntityReference]⟩, nameOk_fromStr hnm, rfl⟩
  | createComment d s =>
    have hs : Step (.alloc (Node.newComment d s)) h (h.alloc (Node.newComment d s)).2 :=
      .alloc (freshNode_comment (Or.inl (hl d (by simp [Op.args]))))
    exact .one (l := .alloc (Node.newComment d s)) trivial hs
  | createProcessingInstruction d t s =>
    exact leftBehind_steps (Steps.quiet
      (a := createProcessingInstruction_steps (hl d (by simp [Op.args]))))
  | createTextNode d s =>
    have hs : Step (.alloc (Node.newText d s)) h (h.alloc (Node.newText d s)).2 :=
      .alloc (freshNode_text (Or.inl (hl d (by simp [Op.args]))))
    exact .one (l := .alloc (Node.newText d s)) trivial hs
  | createNotation d n p s =>
    refine leftBehind_steps (Steps.quiet (a := createNamed_steps fun nm hnm => ?_))
    exact ⟨rfl, rfl, Or.inl ⟨d, rfl, Or.inl (hl d (by simp [Op.args])),
      by simp [Node.newNotation]⟩, nameOk_fromStr hnm, ⟨_, _, rfl⟩⟩
  | createEntity d n p s =>
    refine leftBehind_steps (Steps.quiet (a := createNamed_steps fun nm hnm => ?_))
    exact ⟨rfl, rfl, Or.inl ⟨d, rfl, Or.inl (hl d (by simp [Op.args])),
      by simp [Node.newEntity]⟩, nameOk_fromStr hnm, ⟨_, _, rfl⟩⟩
  | createInternalEntity d n v =>
    refine leftBehind_steps (Steps.quiet (a := createNamed_steps fun nm hnm => ?_))
    exact ⟨rfl, rfl, Or.inl ⟨d, rfl, Or.inl (hl d (by simp [Op.args])),
      by simp [Node.newInternalEntity]⟩, nameOk_fromStr hnm, ⟨_, _, rfl⟩⟩
  | insertBefore s n r =>
    refine leftBehind_steps ((insertBefore_insertSteps (hl s (by simp [Op.args]))
      (hl n (by simp [Op.args]))).mono ?_)
    rintro h l (⟨p, rfl, hp⟩ | ⟨pos, rfl⟩)
    · exact Or.inl hp
    · exact Or.inl rfl
  | appendChild s n =>
    refine leftBehind_steps ((insertBefore_insertSteps (hl s (by simp [Op.args]))
      (hl n (by simp [Op.args]))).mono ?_)
    rintro h l (⟨p, rfl, hp⟩ | ⟨pos, rfl⟩)
    · exact Or.inl hp
    · exact Or.inl rfl
  | replaceChild s n o =>
    refine leftBehind_steps ((replaceChild_steps (hl s (by simp [Op.args]))
      (hl n (by simp [Op.args]))).mono ?_)
    rintro h l ((⟨p, rfl, hp⟩ | ⟨pos, rfl⟩) | rfl)
    · exact Or.inl hp
    · exact Or.inl rfl
    · exact Or.inr (Or.inr (Or.inl ⟨n, rfl⟩))
  | removeChild s o =>
    refine leftBehind_steps ((removeChild_steps (hl s (by simp [Op.args]))).mono ?_)
    rintro h l rfl
    exact Or.inr (Or.inl rfl)
  | cloneNode n deep fuel =>
    exact leftBehind_steps (cloneNode_stepsOf w (hl n (by simp [Op.args])) deep fuel)
  | normalize n =>
    refine leftBehind_steps ((normalizeLoop_steps _ _ (hl n (by simp [Op.args]))).mono ?_)
    rintro h l (⟨c, rfl⟩ | ⟨m, v, rfl⟩)
    · exact Or.inr (Or.inr (Or.inr rfl))
    · trivial
  | setNodeValue n v =>
    have hs : Step (.value n (some v)) h _ := .value
    exact .one (l := .value n (some v)) trivial hs
  | unsetNodeValue n =>
    have hs : Step (.value n none) h _ := .value
    exact .one (l := .value n none) trivial hs
  | appendData n s =>
    have hs : Step (.value n (appendData (h.get n).value s)) h _ := .value
    exact .one (l := .value n (appendData (h.get n).value s)) trivial hs
  | insertData n o s => exact leftBehind_steps (Steps.quiet (a := storeValue_steps))
  | deleteData n o c => exact leftBehind_steps (Steps.quiet (a := storeValue_steps))
  | replaceData n o c s => exact leftBehind_steps (Steps.quiet (a := storeValue_steps))
  | split n o =>
    exact leftBehind_steps (Steps.quiet (a := splitText_steps (hl n (by simp [Op.args]))))
  | setValue a v =>
    refine leftBehind_steps ((setValue_steps (hl a (by simp [Op.args]))).mono ?_)
    rintro h l (hb | rfl)
    · exact hb.stepsOf rfl
    · exact Or.inl ⟨v, rfl⟩
  | unsetValue a =>
    have hs : Step (.clear a) h _ := .clear
    exact .one (l := .clear a) (Or.inr rfl) hs
  | setAttribute n k v =>
    exact leftBehind_steps (Steps.basic (a := setAttributeNamed_steps (hl n (by simp [Op.args]))
      fun _ => nameOk_fromStr))
  | setAttributeNs n u k v =>
    exact leftBehind_steps (Steps.basic (a := setAttributeNamed_steps (hl n (by simp [Op.args]))
      fun _ => nameOk_newNs))
  | setAttributeNode n a =>
    exact leftBehind_steps (setAttributeNode_steps (fun _ _ hl => by
      rcases hl with ⟨e, p, u, rfl⟩ | ⟨d, i, e, rfl⟩ <;> trivial) (Or.inr rfl)
      (fun _ => Or.inr ⟨a, rfl⟩)
      (hl n (by simp [Op.args])) (hl a (by simp [Op.args])))
  | removeAttribute n k =>
    exact leftBehind_steps (removeFound_steps (hl n (by simp [Op.args]))
      fun a => getAttributeNode_mem he)
  | removeAttributeNs n u k =>
    exact leftBehind_steps (removeFound_steps (hl n (by simp [Op.args]))
      fun a => getAttributeNodeNs_mem he)
  | removeAttributeNode n a =>
    refine leftBehind_steps (removeAttributeNode_steps.mono ?_)
    rintro h l (⟨_, rfl⟩ | ⟨k, rfl⟩)
    · exact Or.inl ⟨n, rfl⟩
    · trivial
  | setXmlDeclaration d x => exact leftBehind_steps (Steps.quiet (a := setXmlDeclaration_steps))
  | readXml evs => exact leftBehind_steps (Steps.basic (a := readXml_steps))
  | drop n =>
    show Steps _ h (dropNode h n)
    unfold dropNode
    split
    · exact .refl _
    · rename_i hs
      exact .one (l := .dealloc n) rfl (.dealloc (by simpa using hs))

theorem exec_steps {e : Env} (he : e.Ok) (op : Op) {h : Heap} (w : WF h) :
    Steps (StepsOf op) h (exec e op h) := by
  unfold exec
  split
  · rename_i ha
    rw [List.all_eq_true] at ha
    exact apply_steps he w ha
  · exact .refl _

/-- An invariant of all calls holds in every reachable state. -/
theorem Reachable.inv {I : Heap → Prop} (h0 : I Heap.empty)
    (hI : ∀ e op h, e.Ok → I h → I (exec e op h)) {h : Heap} (hr : Reachable h) : I h := by
  obtain ⟨ops, hok, rfl⟩ := hr
  have key : ∀ (ops : List (Env × Op)) (h : Heap), (∀ x ∈ ops, x.1.Ok) → I h → I (run ops h) := by
    intro ops
    induction ops with
    | nil => intro h _ hi; exact hi
    | cons x ops ih =>
      intro h hok hi
      exact ih _ (fun y hy => hok y (List.mem_cons_of_mem _ hy))
        (hI x.1 x.2 h (hok x List.mem_cons_self) hi)
  exact key ops _ hok h0

/-- References stay inside the heap along every history. -/
theorem Reachable.wf {h : Heap} (hr : Reachable h) : WF h :=
  hr.inv WF.empty fun _ op _ he w => (exec_steps he op w).wf w

/-- An invariant of the primitive steps holds in every reachable state. -/
theorem Reachable.stepInv {I : Heap → Prop} (h0 : I Heap.empty)
    (hI : ∀ op h l h', WF h → I h → StepsOf op h l → Step l h h' → I h') {h : Heap}
    (hr : Reachable h) : I h := by
  have : WF h ∧ I h := hr.inv (I := fun h => WF h ∧ I h) ⟨WF.empty, h0⟩ fun e op h he hi =>
    (exec_steps he op hi.1).inv (fun h => WF h ∧ I h)
      (fun _ _ _ h1 h2 h3 => ⟨h3.wf h1.1, hI op _ _ _ h1.1 h1.2 h2 h3⟩) hi
  exact this.2

end XmlDom
