import Verif.Props.Undo
import Verif.Props.Attr
import Verif.Spec.Outcome

/-!
# C93 and C94: which outcome the editing calls have
-/

namespace XmlDom
namespace Props

open Spec

theorem fits_iff {h : Heap} {self new : NodeId} :
    Fits h self new ↔ isChildAllowed (h.get self).ntype (h.get new).ntype = true := by
  unfold Fits nodeType
  generalize (h.get self).ntype = t
  generalize (h.get new).ntype = u
  cases t <;> cases u <;> simp [isChildAllowed, childTypes]

theorem home_check_iff {h : Heap} {self new d d' : NodeId} (hs : home h self = some d)
    (hn : ownerDocument h new = some d') :
    checkSameDocument h self new = if d = d' then .ok () else .err .wrongDocument := by
  by_cases he : d = d'
  · subst he
    rw [if_pos rfl]
    obtain ⟨o2, l2⟩ := Heap.upgrade_some.mp hn
    unfold home at hs
    unfold checkSameDocument
    split at hs
    · rename_i ht
      cases hs
      rw [if_pos (show (h.get self).ntype = .document from ht), o2]
      simp [l2]
    · rename_i ht
      obtain ⟨o1, _⟩ := Heap.upgrade_some.mp hs
      rw [if_neg (show (h.get self).ntype ≠ .document from ht), o1, o2]
      simp [l2]
  · rw [if_neg he, home_check hs hn he]

theorem missing_iff {h : Heap} {self : NodeId} {ref : Option NodeId} :
    Missing ref (childNodes h self) ↔ insertPosition h self ref = none := by
  unfold Missing insertPosition
  cases ref with
  | none => simp
  | some r =>
    simp only [Option.some.injEq, exists_eq_left']
    change r ∉ (h.get self).children ↔ _
    rw [← position_eq_none]
    cases position r (h.get self).children <;> simp

/-- C93: `insert_before` fails with `HierarchyRequest` exactly for a node of a wrong type, a
second element of a document, and a node that is or contains the new parent. -/
def C93_full : Prop :=
  ∀ (h : Heap) (self new d d' : NodeId) (ref : Option NodeId), Reachable h →
    h.live self = true → h.live new = true → home h self = some d →
    ownerDocument h new = some d' →
    ((insertBefore h self new ref).1 = .err .hierarchyRequest ↔
      ¬ Fits h self new ∨ OneTooMany h self new ((childNodes h self).erase new) ∨
        self = new ∨ Descendant h new self)

/-- C93 does not hold: a node can be put below one of its descendants. -/
theorem C93_full_false : ¬ C93_full := by
  intro hf
  have := (hf (after [mkDoc, .createElement 0 (c! "a"), .createElement 0 (c! "b"),
    .appendChild 2 3]) 3 2 0 0 none (reachable_after _) (by decide) (by decide) (by decide)
    (by decide)).mpr
    (Or.inr (Or.inr (Or.inr (.single ⟨by decide, by decide⟩))))
  exact absurd this (by decide)

/-- C93 (partial: a node is not inserted into itself, and the check for ancestors is missing):
the outcome of `insert_before`. A document refuses every element when it has one, even its own
element. -/
theorem C93_insert_partial (h : Heap) (self new d d' : NodeId) (ref : Option NodeId)
    (hs : home h self = some d) (hn : ownerDocument h new = some d') (hne : self ≠ new)
    (hl : ∀ p, parentNode h new = some p → new ∈ childNodes h p) :
    ((insertBefore h self new ref).1 = .err .hierarchyRequest ↔
      ¬ Fits h self new ∨ OneTooMany h self new (childNodes h self)) ∧
    ((insertBefore h self new ref).1 = .err .notFound ↔
      Fits h self new ∧ ¬ OneTooMany h self new (childNodes h self) ∧
        Missing ref (childNodes h self)) ∧
    ((insertBefore h self new ref).1 = .err .wrongDocument ↔
      Fits h self new ∧ ¬ OneTooMany h self new (childNodes h self) ∧
        ¬ Missing ref (childNodes h self) ∧ d ≠ d') ∧
    ((insertBefore h self new ref).1 = .ok new ↔
      Fits h self new ∧ ¬ OneTooMany h self new (childNodes h self) ∧
        ¬ Missing ref (childNodes h self) ∧ d = d') := by
  have hany : ((h.get self).ntype = .document ∧ (h.get new).ntype = .element ∧
      (h.get self).children.any (fun c => decide ((h.get c).ntype = .element)) = true) ↔
      OneTooMany h self new (childNodes h self) := by
    unfold OneTooMany nodeType childNodes
    simp
  rw [insertBefore_eq, home_check_iff hs hn, fits_iff, missing_iff]
  by_cases h1 : isChildAllowed (h.get self).ntype (h.get new).ntype = true
  · rw [if_neg (by simp [h1])]
    by_cases h2 : OneTooMany h self new (childNodes h self)
    · rw [if_pos (hany.mpr h2)]
      simp [h1, h2]
    · rw [if_neg (fun hc => h2 (hany.mp hc))]
      cases hp : insertPosition h self ref with
      | none => simp [h1, h2]
      | some pos =>
        by_cases hd : d = d'
        · simp only [hd, if_true]
          cases hq : parentNode h new with
          | none => simp [h1, h2, hne]
          | some p =>
            have : new ∈ (h.get p).children := hl p hq
            simp [h1, h2, hne, this]
        · simp [h1, h2, hd]
  · rw [if_pos (by simpa using h1)]
    simp [h1]

/-- C93 (partial, as above): the outcome of `replace_child` for a new node other than the old
one. -/
theorem C93_replace_partial (h : Heap) (self new old d d' : NodeId)
    (hs : home h self = some d) (hn : ownerDocument h new = some d') (hne : self ≠ new)
    (hno : new ≠ old) (hl : ∀ p, parentNode h new = some p → new ∈ childNodes h p)
    (hold : old ∈ childNodes h self → parentNode h old = some self) :
    ((replaceChild h self new old).1 = .err .hierarchyRequest ↔
      ¬ Fits h self new ∨ old ∈ childNodes h self ∧
        OneTooMany h self new ((childNodes h self).erase old)) ∧
    ((replaceChild h self new old).1 = .err .notFound ↔
      Fits h self new ∧ old ∉ childNodes h self) ∧
    ((replaceChild h self new old).1 = .err .wrongDocument ↔
      Fits h self new ∧ old ∈ childNodes h self ∧
        ¬ OneTooMany h self new ((childNodes h self).erase old) ∧ d ≠ d') ∧
    ((replaceChild h self new old).1 = .ok old ↔
      Fits h self new ∧ old ∈ childNodes h self ∧
        ¬ OneTooMany h self new ((childNodes h self).erase old) ∧ d = d') := by
  unfold replaceChild
  by_cases hf : Fits h self new
  rotate_left
  · have : isChildAllowed (h.get self).ntype (h.get new).ntype = false := by
      simpa using fun hc => hf (fits_iff.mpr hc)
    rw [if_pos this]
    simp [hf]
  rw [if_neg (by rw [fits_iff.mp hf]; simp)]
  by_cases hm : old ∈ (h.get self).children
  rotate_left
  · rw [if_neg hm]
    have hm' : old ∉ childNodes h self := hm
    simp [hf, hm']
  rw [if_pos hm]
  have hm' : old ∈ childNodes h self := hm
  obtain ⟨a, b, hab, ha⟩ : ∃ a b, childNodes h self = a ++ old :: b ∧ old ∉ a :=
    List.eq_append_cons_of_mem hm'
  obtain ⟨h1, e1, e2, e3, o⟩ := C03_remove_child h self old a b hab ha
  have her : (childNodes h self).erase old = a ++ b := by rw [hab, erase_split ha]
  have hsn := nextSibling_eq (hold hm') hab ha
  have key := C93_insert_partial h1 self new d d' b.head? (by rw [home_onlyLinks o]; exact hs)
    (by rw [(o.same new).owner]; exact hn) hne (by
      intro p hp
      rw [o.parent new (fun e => hno e)] at hp
      have := hl p hp
      by_cases hps : p = self
      · subst hps
        rw [e2]
        rw [hab] at this
        simp only [List.mem_append, List.mem_cons] at this ⊢
        rcases this with h3 | rfl | h3
        · exact Or.inl h3
        · exact absurd rfl hno
        · exact Or.inr h3
      · rw [o.children p hps]; exact this)
  have hfit : Fits h1 self new := by
    unfold Fits; rw [(o.same self).ntype, (o.same new).ntype]; exact hf
  have hone : OneTooMany h1 self new (childNodes h1 self) ↔
      OneTooMany h self new ((childNodes h self).erase old) := by
    unfold OneTooMany
    rw [(o.same self).ntype, (o.same new).ntype, e2, her]
    simp only [(o.same _).ntype]
  have hmiss : ¬ Missing b.head? (childNodes h1 self) := by
    rintro ⟨r, hr, hn⟩
    rw [e2] at hn
    exact hn (List.mem_append_right _ (List.mem_of_mem_head? hr))
  simp only [hfit, hone, hmiss, not_true, false_or, true_and, and_false, not_false_eq_true,
    iff_false] at key
  obtain ⟨k1, k2, k3, k4⟩ := key
  simp only [hsn, e1, hf, hm', not_true, false_or, true_and, and_false, iff_false]
  generalize hi : insertBefore h1 self new b.head? = q at *
  obtain ⟨x, h2⟩ := q
  simp only at k1 k2 k3 k4
  cases x with
  | ok y =>
    have hy : y = new := (insertBefore_ok hi).1
    subst hy
    simp_all
  | err y => simp_all
  | panic y => simp_all
  | diverge => simp_all

example : home (after twoRoots) 1 = some 0 ∧ ownerDocument (after twoRoots) 4 = some 2 ∧
    Fits (after twoRoots) 1 4 ∧ (insertBefore (after twoRoots) 1 4 none).1 = .err .wrongDocument ∧
    (insertBefore (after twoRoots) 3 4 (some 4)).1 = .err .notFound ∧
    (insertBefore (after twoRoots) 3 4 none).1 = .ok 4 ∧
    (insertBefore (after twoRoots) 2 4 none).1 = .err .hierarchyRequest :=
  ⟨by decide, by decide, by unfold Fits; decide, by decide, by decide, by decide, by decide⟩

/-! ## Every outcome of `insert_before` and `replace_child` -/

/-- The check of the documents, all cases. -/
theorem home_check_all {h : Heap} (i : Inv h) {self new : NodeId} (hs : self < h.next)
    (hn : new < h.next) (hf : Fits h self new) :
    checkSameDocument h self new =
      match home h self, ownerDocument h new with
      | some d, some d' => if d = d' then .ok () else .err .wrongDocument
      | _, _ => .panic .unwrap := by
  have hal := fits_iff.mp hf
  obtain ⟨b, hb⟩ : ∃ b, (h.get new).owner = some b := by
    cases ho : (h.get new).owner with
    | some b => exact ⟨b, rfl⟩
    | none =>
      rcases i.ownerNone new hn ho with h1 | h1
      · exact absurd h1 (isChildAllowed_owned hal).1
      · exact absurd h1 (isChildAllowed_owned hal).2
  unfold checkSameDocument home ownerDocument nodeType
  by_cases hd : (h.get self).ntype = .document
  · rw [if_pos hd, if_pos hd, hb]
    cases hl : h.live b with
    | true => simp [Heap.upgrade, hl]
    | false => simp [Heap.upgrade, hl]
  · rw [if_neg hd, if_neg hd, hb]
    obtain ⟨a, ha⟩ : ∃ a, (h.get self).owner = some a := by
      cases ho : (h.get self).owner with
      | some b => exact ⟨b, rfl⟩
      | none =>
        rcases i.ownerNone self hs ho with h1 | h1
        · exact absurd h1 hd
        · rw [h1] at hal
          cases hal
    rw [ha]
    cases hl : h.live a <;> cases hl' : h.live b <;> simp [Heap.upgrade, hl, hl']

/-- One of the cases holds and has this outcome. -/
theorem insert_says {h : Heap} (i : Inv h) {self new : NodeId} {ref : Option NodeId}
    (hs : self < h.next) (hn : new < h.next) :
    InsertSays h self new ref (insertBefore h self new ref).1 := by
  have hany : ((h.get self).ntype = .document ∧ (h.get new).ntype = .element ∧
      (h.get self).children.any (fun c => decide ((h.get c).ntype = .element)) = true) ↔
      OneTooMany h self new (childNodes h self) := by
    unfold OneTooMany nodeType childNodes
    simp
  rw [insertBefore_eq]
  by_cases hf : Fits h self new
  rotate_left
  · rw [if_pos (by simpa using fun hc => hf (fits_iff.mpr hc))]
    exact .hierarchy (Or.inl hf)
  rw [if_neg (by rw [fits_iff.mp hf]; simp)]
  by_cases ho : OneTooMany h self new (childNodes h self)
  · rw [if_pos (hany.mpr ho)]
    exact .hierarchy (Or.inr ho)
  rw [if_neg (fun hc => ho (hany.mp hc)), home_check_all i hs hn hf]
  cases hp : insertPosition h self ref with
  | none => exact .missing hf ho (missing_iff.mpr hp)
  | some pos =>
    have hm : ¬ Missing ref (childNodes h self) := by rw [missing_iff, hp]; simp
    cases h1 : home h self with
    | none => exact .gone hf ho hm (Or.inl h1)
    | some d =>
      cases h2 : ownerDocument h new with
      | none => exact .gone hf ho hm (Or.inr h2)
      | some d' =>
        by_cases hd : d = d'
        rotate_left
        · simp only [if_neg hd]
          exact .foreign hf ho hm h1 h2 hd
        subst hd
        simp only [if_true]
        cases hq : parentNode h new with
        | none =>
          have ht : ¬ Stale h new := by rintro ⟨p, hp, _⟩; rw [hq] at hp; cases hp
          by_cases he : self = new
          · simp only [if_pos he]
            exact .itself hf ho hm h1 h2 ht he
          · simp only [if_neg he]
            exact .done hf ho hm h1 h2 ht he
        | some p =>
          by_cases hmem : new ∈ (h.get p).children
          rotate_left
          · simp only [if_neg hmem]
            exact .stale hf ho hm h1 h2 ⟨p, hq, hmem⟩
          have ht : ¬ Stale h new := by
            rintro ⟨p', hp', hx⟩
            rw [hq] at hp'
            cases hp'
            exact hx hmem
          by_cases he : self = new
          · simp only [if_pos hmem, if_pos he]
            exact .itself hf ho hm h1 h2 ht he
          · simp only [if_pos hmem, if_neg he]
            exact .done hf ho hm h1 h2 ht he

/-- At most one of the cases holds. -/
theorem insertSays_unique {h : Heap} {self new : NodeId} {ref : Option NodeId}
    {o o' : Outcome NodeId} (h1 : InsertSays h self new ref o) (h2 : InsertSays h self new ref o') :
    o = o' := by
  cases h1 <;> cases h2 <;> first | rfl | (exfalso; simp_all)

/-- C93: every outcome of `insert_before` on live nodes of a reachable state, whatever the
links. -/
theorem C93_insert_exact (h : Heap) (hr : Reachable h) (self new : NodeId) (ref : Option NodeId)
    (hs : h.live self = true) (hn : h.live new = true) (o : Outcome NodeId) :
    (insertBefore h self new ref).1 = o ↔ InsertSays h self new ref o := by
  have i := hr.invariant
  have h1 := insert_says (ref := ref) i (i.wf.fresh self hs) (i.wf.fresh new hn)
  exact ⟨fun h2 => h2 ▸ h1, fun h2 => insertSays_unique h1 h2⟩

theorem replace_says {h : Heap} (hr : Reachable h) {self new old : NodeId}
    (hs : h.live self = true) (hn : h.live new = true) :
    ReplaceSays h self new old (replaceChild h self new old).1 := by
  unfold replaceChild
  by_cases hf : Fits h self new
  rotate_left
  · rw [if_pos (by simpa using fun hc => hf (fits_iff.mpr hc))]
    exact .type hf
  rw [if_neg (by rw [fits_iff.mp hf]; simp)]
  by_cases hm : old ∈ (h.get self).children
  rotate_left
  · rw [if_neg hm]
    exact .missing hf hm
  rw [if_pos hm]
  simp only
  rw [removeChild_eq, if_pos hm]
  simp only
  have o := onlyLinks_unlink h self old
  have hch : ∀ p, childNodes (h.unlink self old) p = without h self old p := by
    intro p
    unfold without childNodes
    rw [get_unlink]
  have hpar : ∀ p, parentNode (h.unlink self old) new = some p ↔
      new ≠ old ∧ parentNode h new = some p := by
    intro p
    by_cases he : new = old
    · subst he
      rw [parentNode_unlink_self]; simp
    · rw [o.parent new he]; simp [he]
  have hfit : Fits (h.unlink self old) self new ↔ Fits h self new := by
    unfold Fits; rw [(o.same self).ntype, (o.same new).ntype]
  have hone : OneTooMany (h.unlink self old) self new (childNodes (h.unlink self old) self) ↔
      OneTooMany h self new (without h self old self) := by
    unfold OneTooMany
    rw [(o.same self).ntype, (o.same new).ntype, hch]
    simp only [(o.same _).ntype]
  have hst : Stale (h.unlink self old) new ↔ StaleWithout h self old new := by
    unfold Stale StaleWithout
    simp only [hpar, hch]
    constructor
    · rintro ⟨p, ⟨h1, h2⟩, h3⟩; exact ⟨h1, p, h2, h3⟩
    · rintro ⟨h1, p, h2, h3⟩; exact ⟨p, ⟨h1, h2⟩, h3⟩
  have hho : home (h.unlink self old) self = home h self := home_onlyLinks o self
  have how : ownerDocument (h.unlink self old) new = ownerDocument h new := (o.same new).owner
  have iu : Inv (h.unlink self old) := by
    have hold : h.live old = true := hr.invariant.wf.child hs hm
    have h1 : Reachable ((Op.removeChild self old).apply plainEnv h) :=
      reachable_apply hr (by simp [Op.args, hs, hold])
    have h2 : (Op.removeChild self old).apply plainEnv h = h.unlink self old := by
      change leftBehind h (removeChild h self old) = _
      rw [removeChild_eq, if_pos hm]
      rfl
    exact h2 ▸ h1.invariant
  have key := insert_says (ref := nextSibling h old) iu (self := self) (new := new)
    (iu.wf.fresh self hs) (iu.wf.fresh new hn)
  generalize insertBefore (h.unlink self old) self new (nextSibling h old) = q at key ⊢
  obtain ⟨x, h2⟩ := q
  simp only at key
  cases key with
  | hierarchy hx =>
    rcases hx with hx | hx
    · exact absurd (hfit.mpr hf) hx
    · exact .second hf hm (hone.mp hx)
  | missing _ ho hx => exact .lost hf hm (fun hc => ho (hone.mpr hc)) (hch self ▸ hx)
  | gone _ ho hx hd =>
    exact .gone hf hm (fun hc => ho (hone.mpr hc)) (hch self ▸ hx) (by rw [← hho, ← how]; exact hd)
  | foreign _ ho hx h1 h2 hd =>
    exact .foreign hf hm (fun hc => ho (hone.mpr hc)) (hch self ▸ hx) (hho ▸ h1) (how ▸ h2) hd
  | stale _ ho hx h1 h2 ht =>
    exact .stale hf hm (fun hc => ho (hone.mpr hc)) (hch self ▸ hx) (hho ▸ h1) (how ▸ h2)
      (hst.mp ht)
  | itself _ ho hx h1 h2 ht he =>
    exact .itself hf hm (fun hc => ho (hone.mpr hc)) (hch self ▸ hx) (hho ▸ h1) (how ▸ h2)
      (fun hc => ht (hst.mpr hc)) he
  | done _ ho hx h1 h2 ht he =>
    exact .done hf hm (fun hc => ho (hone.mpr hc)) (hch self ▸ hx) (hho ▸ h1) (how ▸ h2)
      (fun hc => ht (hst.mpr hc)) he

theorem replaceSays_unique {h : Heap} {self new old : NodeId}
    {o o' : Outcome NodeId} (h1 : ReplaceSays h self new old o) (h2 : ReplaceSays h self new old o') :
    o = o' := by
  cases h1 <;> cases h2 <;> first | rfl | (exfalso; simp_all)

/-- C93: every outcome of `replace_child` on live nodes of a reachable state, whatever the
links. -/
theorem C93_replace_exact (h : Heap) (hr : Reachable h) (self new old : NodeId)
    (hs : h.live self = true) (hn : h.live new = true) (o : Outcome NodeId) :
    (replaceChild h self new old).1 = o ↔ ReplaceSays h self new old o := by
  have h1 := replace_says (old := old) hr hs hn
  exact ⟨fun h2 => h2 ▸ h1, fun h2 => replaceSays_unique h1 h2⟩

/-- A stale link: an attribute text whose attribute lost it by `unset_value`. -/
example : InsertSays (after [mkDoc, .createAttributeWith 0 (c! "a") (c! "v"), .setValue 3 (c! "w"),
    .unsetValue 3]) 1 4 none (.err .notFound) := by
  have hr : Reachable (after [mkDoc, .createAttributeWith 0 (c! "a") (c! "v"),
    .setValue 3 (c! "w"), .unsetValue 3]) := reachable_after _
  exact (C93_insert_exact _ hr 1 4 none (by decide) (by decide) _).mp (by decide)

/-- The child of a deep clone is replaced by a node of another document. -/
example : ReplaceSays (after [mkDoc, .createElement 0 (c! "a"), .appendChild 1 2,
    .cloneNode 1 true 9, mkDoc]) 4 6 3
    (.err .wrongDocument) :=
  (C93_replace_exact _ (reachable_after _) 4 6 3 (by decide) (by decide) _).mp (by decide)

/-! ## C94 -/

/-- C94: an attribute in use elsewhere is refused, and only an attribute that the element has
can be removed from it. -/
def C94_full : Prop :=
  ∀ (e : Env) (h : Heap) (n a d : NodeId), e.Ok → Reachable h → h.live n = true →
    h.live a = true → nodeType h n = .element → nodeType h a = .attribute →
    ownerDocument h n = some d → ownerDocument h a = some d →
    ((setAttributeNode e h n a).1 = .err .inUseAttribute ↔
      ∃ m k, m ≠ n ∧ h.live m = true ∧ (k, a) ∈ attributes h m) ∧
    ((removeAttributeNode h n a).1 = .err .notFound ↔ ∀ k, (k, a) ∉ attributes h n)

/-- An element with an attribute that is then given to another element as well. -/
def inUseOps : List Op :=
  [mkDoc, .createElement 0 (c! "b"), .createAttributeWith 0 (c! "x") (c! "1"),
    .setAttributeNode 1 4]

/-- C94 does not hold: neither error is ever returned. -/
theorem C94_full_false : ¬ C94_full := by
  intro hf
  have := (hf plainEnv (after inUseOps) 2 4 0 plainEnv_ok (reachable_after _) (by decide)
    (by decide) (by decide) (by decide) (by decide) (by decide)).1.mpr
    ⟨1, ⟨none, none, c! "x"⟩, by decide, by decide, by decide⟩
  exact absurd this (by decide)

/-- C94 (partial: the check for attributes in use is missing): the outcome of
`set_attribute_node` for an attribute whose value can be read. -/
theorem C94_set_partial (e : Env) (h : Heap) (hr : Reachable h) (n a d d' : NodeId) (v : Str)
    (hn : h.live n = true) (ha : h.live a = true) (hdn : home h n = some d)
    (hda : ownerDocument h a = some d') (hdt : nodeType h d' = .document)
    (hv : attrValue e.uni h a = .ok (some v)) :
    ((setAttributeNode e h n a).1 = .err .invalidState ↔
      ¬ (nodeType h n = .element ∧ nodeType h a = .attribute)) ∧
    ((setAttributeNode e h n a).1 = .err .wrongDocument ↔
      (nodeType h n = .element ∧ nodeType h a = .attribute) ∧ d ≠ d') ∧
    ((setAttributeNode e h n a).1 = .err .syntax ↔
      (nodeType h n = .element ∧ nodeType h a = .attribute) ∧ d = d' ∧
        IsIdName (AssumesIds h d) (nodeName h a) ∧ Registered h d v) ∧
    ((setAttributeNode e h n a).1 = .ok a ↔
      (nodeType h n = .element ∧ nodeType h a = .attribute) ∧ d = d' ∧
        ¬ (IsIdName (AssumesIds h d) (nodeName h a) ∧ Registered h d v)) := by
  have i := hr.invariant
  by_cases ht : nodeType h n = .element ∧ nodeType h a = .attribute
  rotate_left
  · have : setAttributeNode e h n a = (.err .invalidState, h) := by
      unfold setAttributeNode
      exact if_neg ht
    simp [this, ht]
  have ht' : (h.get n).ntype = .element ∧ (h.get a).ntype = .attribute := ht
  by_cases hd : d = d'
  rotate_left
  · have : setAttributeNode e h n a = (.err .wrongDocument, h) := by
      unfold setAttributeNode
      rw [if_pos ht', home_check hdn hda hd]
    simp [this, ht, hd]
  subst hd
  have hon : ownerDocument h n = some d := by
    unfold home at hdn
    rw [if_neg (by rw [ht.1]; simp)] at hdn
    exact hdn
  by_cases hid : IsIdName (AssumesIds h d) (nodeName h a)
  · obtain ⟨k1, k2⟩ := C46_set_attribute_node e h hr n a d v hn ha ht.1 ht.2 hon hda hdt hid hv
    by_cases hreg : Registered h d v
    · simp [(k1 hreg).1, ht, hid, hreg]
    · simp [(k2 hreg).1, ht, hreg]
  · have hok : (setAttributeNode e h n a).1 = .ok a := by
      obtain ⟨h3, heq, f3, nx3, g3⟩ := setAttributeNode_reaches (e := e) i hn ha ht'.1 ht'.2 hon hda
        (fun _ => ⟨_, hv⟩)
      have hdn' : d ≠ n := fun hh => by subst hh; rw [hdt] at ht; cases ht.1
      have hda' : d ≠ a := fun hh => by subst hh; rw [hdt] at ht; cases ht.2
      obtain ⟨od, ld⟩ := Heap.upgrade_some.mp hda
      have hod3 : ownerDocument h3 a = some d :=
        Heap.upgrade_some.mpr ⟨(f3.owner a (i.wf.fresh a ha)).trans od,
          (f3.live d (i.wf.fresh d ld)).trans ld⟩
      rw [heq]
      unfold recordId
      rw [hod3]
      have hlax : (h.get a).name.isIdAttribute (AssumesIds h d) = false := by
        rw [← Bool.not_eq_true, isIdAttribute_iff]; exact hid
      unfold AssumesIds at hlax
      simp only [if_neg hdn', g3 d hdn' hda']
      rw [if_neg (by rw [← Bool.not_eq_true] at hlax; exact hlax)]
    simp [hok, ht, hid]

/-- C94 (partial, as above): `set_attribute_node_ns` succeeds under the same condition, and then
the element has the attribute. -/
theorem C94_set_ns_partial (e : Env) (h : Heap) (hr : Reachable h) (n a d d' : NodeId) (v : Str)
    (hn : h.live n = true) (ha : h.live a = true) (hdn : home h n = some d)
    (hda : ownerDocument h a = some d') (hdt : nodeType h d' = .document)
    (hv : attrValue e.uni h a = .ok (some v)) :
    ((setAttributeNodeNs e h n a).1 = .ok a ↔
      (nodeType h n = .element ∧ nodeType h a = .attribute) ∧ d = d' ∧
        ¬ (IsIdName (AssumesIds h d) (nodeName h a) ∧ Registered h d v)) ∧
    ((setAttributeNodeNs e h n a).1 = .ok a →
      (nodeName h a, a) ∈ attributes (setAttributeNodeNs e h n a).2 n) := by
  refine ⟨(C94_set_partial e h hr n a d d' v hn ha hdn hda hdt hv).2.2.2, fun hok => ?_⟩
  exact ((C77_owner_partial h hr a ha).2 e n a _ hn (Prod.ext hok rfl)).2

example : (setAttributeNodeNs plainEnv (after [mkDoc, .createAttributeWith 0 (c! "a") (c! "v")])
    1 3).1 = .ok 3 := by decide

/-- C94 (partial: it is not checked that the element has the attribute): the outcome of
`remove_attribute_node`. -/
theorem C94_remove_partial (h : Heap) (hr : Reachable h) (n a : NodeId) (hn : h.live n = true) :
    ((removeAttributeNode h n a).1 = .err .invalidState ↔ nodeType h n ≠ .element) ∧
    ((removeAttributeNode h n a).1 = .ok a ↔ nodeType h n = .element ∧ a ≠ n) ∧
    ((removeAttributeNode h n a).1 = .panic .borrow ↔ nodeType h n = .element ∧ a = n) := by
  unfold removeAttributeNode
  by_cases ht : nodeType h n = .element
  · have ht' : (h.get n).ntype = .element := ht
    obtain ⟨attrs, nss, hx⟩ : ∃ attrs nss, (h.get n).ext = .element attrs nss := by
      have := hr.invariant.exts n (hr.invariant.wf.fresh n hn)
      rw [ht'] at this
      exact this
    rw [if_pos ht', hx]
    simp only
    by_cases ha : a = n <;> simp [ha, ht]
  · rw [if_neg (show (h.get n).ntype ≠ .element from ht)]
    simp [ht]

example : Reachable (after inUseOps) ∧ home (after inUseOps) 2 = some 0 ∧
    ownerDocument (after inUseOps) 4 = some 0 ∧
    attrValue plainEnv.uni (after inUseOps) 4 = .ok (some (c! "1")) ∧
    (setAttributeNode plainEnv (after inUseOps) 2 4).1 = .ok 4 ∧
    (setAttributeNode plainEnv (after inUseOps) 4 2).1 = .err .invalidState ∧
    (removeAttributeNode (after inUseOps) 2 4).1 = .ok 4 ∧
    (removeAttributeNode (after inUseOps) 2 2).1 = .panic .borrow :=
  ⟨reachable_after _, by decide⟩

end Props
end XmlDom
