import Verif.Spec.Undo
import Verif.Props.Tree
import Verif.Props.History
import Verif.Props.Split
import Verif.Props.Normalize
import Verif.Props.Attr
import Verif.Props.Namespaces
import Verif.Props.Access

/-!
# C87-C89: calls that undo or override each other
-/

namespace XmlDom
namespace Props

open Spec

/-! ## C87 -/

/-- Two changes of links that leave the lists and the links as they were change nothing. -/
theorem unchanged_of {h h1 h2 : Heap} {l1 p1 l2 p2 : NodeId → Prop} (a : OnlyLinks h h1 l1 p1)
    (b : OnlyLinks h1 h2 l2 p2) (hl : ∀ m, l1 m ∨ l2 m → childNodes h2 m = childNodes h m)
    (hp : ∀ m, p1 m ∨ p2 m → parentNode h2 m = parentNode h m) : Unchanged h h2 := by
  have c := a.trans b
  refine ⟨c.same, ?_, ?_, c.live, c.next⟩
  · intro m _
    by_cases hm : l1 m ∨ l2 m
    · exact hl m hm
    · exact c.children m hm
  · intro m _
    by_cases hm : p1 m ∨ p2 m
    · exact hp m hm
    · exact c.parent m hm

/-- C87: `remove_child` undoes an insertion of a node that had no parent. -/
theorem C87_insert_remove (h : Heap) (self new r : NodeId) (ref : Option NodeId) (h' : Heap)
    (hself : h.live self = true) (hlinks : LinksAgreeAt h new)
    (hfree : parentNode h new = none) (hown : ownerDocument h new ≠ none)
    (hok : insertBefore h self new ref = (.ok r, h')) :
    ∃ h'', removeChild h' self new = (.ok new, h'') ∧ Unchanged h h'' := by
  have hf := insertBefore_frame hself hown hok
  obtain ⟨pos, hpos, hc⟩ := insertBefore_children hok
  have hn : new ∉ childNodes h self := fun hm => by
    have := (hlinks self hself).mp hm
    rw [hfree] at this
    cases this
  rw [if_neg (by rw [hfree]; simp)] at hc
  obtain ⟨a, b, hab, hch⟩ : ∃ a b, childNodes h self = a ++ b ∧ childNodes h' self = a ++ new :: b := by
    rcases insertPosition_some.mp hpos with ⟨_, rfl⟩ | ⟨x, a, b, _, h2, _, rfl⟩
    · exact ⟨childNodes h self, [], by simp, by rw [hc]; rfl⟩
    · refine ⟨a, x :: b, h2, ?_⟩
      rw [hc, show childNodes h self = a ++ x :: b from h2]
      exact insertAt_position_fst
  obtain ⟨h'', h1, h2, h3, h4⟩ := C03_remove_child h' self new a b hch
    (fun hm => hn (by rw [hab]; simp [hm]))
  refine ⟨h'', h1, unchanged_of hf h4 ?_ ?_⟩
  · rintro m ((rfl | hm) | rfl)
    · rw [h2, hab]
    · rw [hfree] at hm; cases hm
    · rw [h2, hab]
  · rintro m (rfl | rfl) <;> rw [h3, hfree]

/-- Where nothing stands in the way, an insertion takes place. -/
theorem insert_succeeds {g : Heap} {self new d : NodeId} {a b : List NodeId}
    (hself : g.live self = true) (hne : self ≠ new)
    (hallow : isChildAllowed (g.get self).ntype (g.get new).ntype = true)
    (hone : nodeType g self = .document → nodeType g new = .element →
      ∀ x ∈ a ++ b, nodeType g x ≠ .element)
    (hl : childNodes g self = a ++ b) (hnd : (a ++ b).Nodup)
    (hhome : home g self = some d) (hown : ownerDocument g new = some d)
    (hfree : parentNode g new = none) :
    ∃ g', insertBefore g self new b.head? = (.ok new, g') ∧ childNodes g' self = a ++ new :: b ∧
      parentNode g' new = some self ∧ OnlyLinks g g' (fun m => m = self) (fun m => m = new) := by
  have hl' : (g.get self).children = a ++ b := hl
  have hd : g.live d = true := (Heap.upgrade_some.mp hown).2
  have hod : (g.get new).owner = some d := (Heap.upgrade_some.mp hown).1
  have hchk : checkSameDocument g self new = .ok () := by
    unfold checkSameDocument
    unfold home at hhome
    split
    · rename_i hdoc
      rw [if_pos (show nodeType g self = .document from hdoc)] at hhome
      cases hhome
      simp [hod, hself]
    · rename_i hdoc
      rw [if_neg (show ¬ nodeType g self = .document from hdoc)] at hhome
      rw [(Heap.upgrade_some.mp hhome).1, hod]
      simp [hd]
  have hpos : ∃ pos, insertPosition g self b.head? = some pos ∧
      insertAt (a ++ b) new pos = a ++ new :: b := by
    cases b with
    | nil => exact ⟨none, rfl, by simp [insertAt]⟩
    | cons x b =>
      refine ⟨some a.length, insertPosition_some.mpr (.inr ⟨x, a, b, rfl, hl', ?_, rfl⟩),
        insertAt_position_fst⟩
      exact (nodup_split hnd).1
  obtain ⟨pos, hpos, hins⟩ := hpos
  have hfrag : (g.get new).ntype ≠ .documentFragment := fun hf => by
    rw [hf, isChildAllowed_fragment] at hallow; cases hallow
  have hpok : PosOk (g.get self).children pos := by
    rcases insertPosition_some.mp hpos with ⟨_, rfl⟩ | ⟨x, p, q, _, h2, _, rfl⟩
    · trivial
    · show p.length ≤ _
      rw [h2]; simp
  have hcall : insertBefore g self new b.head? = (.ok new, g.link self new pos) := by
    unfold insertBefore
    rw [if_neg (by rw [hallow]; decide), if_neg, hpos]
    · simp only
      rw [hchk]
      simp only
      rw [hfree]
      simp only
      rw [placeChild_eq _ _ _ _ hfrag hpok, if_neg hne]
    · rintro ⟨h1, h2, h3⟩
      obtain ⟨x, hx, he⟩ := List.any_eq_true.mp h3
      rw [hl'] at hx
      exact hone h1 h2 x hx (of_decide_eq_true he)
  have ho : g.upgrade (ownerFor g self) = ownerDocument g new :=
    owner_of_check hself (by rw [hown]; simp) hchk
  refine ⟨_, hcall, ?_, ?_, onlyLinks_link g pos hne ho⟩
  · show ((g.link self new pos).get self).children = _
    rw [get_link _ _ hne]
    simp only [if_true]
    rw [hl', hins]
  · refine parentNode_eq_some.mpr ⟨?_, ?_, hself⟩
    · rw [get_link _ _ hne]
      exact fun hf => by rw [hf, isChildAllowed_attribute] at hallow; cases hallow
    · rw [get_link _ _ hne]; simp

/-- Beside an element there is no other element below a document. -/
theorem no_other_element {h : Heap} (i : Inv h) {self old : NodeId} {a b : List NodeId}
    (hself : h.live self = true) (hd : nodeType h self = .document)
    (he : nodeType h old = .element) (hl : childNodes h self = a ++ old :: b) :
    ∀ x ∈ a ++ b, nodeType h x ≠ .element := by
  intro x hx hxe
  have h1 := i.oneElement self hself hd
  have he' : decide ((h.get old).ntype = .element) = true := decide_eq_true he
  have hxe' : decide ((h.get x).ntype = .element) = true := decide_eq_true hxe
  rw [show (h.get self).children = a ++ old :: b from hl, List.filter_append,
    List.filter_cons, if_pos he'] at h1
  have hx' : x ∈ (a.filter fun c => decide ((h.get c).ntype = .element)) ++
      (b.filter fun c => decide ((h.get c).ntype = .element)) := by
    rw [← List.filter_append]
    exact List.mem_filter.mpr ⟨hx, hxe'⟩
  have := List.length_pos_of_mem hx'
  simp only [List.length_append, List.length_cons] at h1 this
  omega

theorem home_onlyLinks {h h' : Heap} {l p : NodeId → Prop} (f : OnlyLinks h h' l p) (n : NodeId) :
    home h' n = home h n := by
  unfold home
  rw [(f.same n).ntype, (f.same n).owner]

/-- C87: inserting a removed child again in front of the node that followed it undoes the
removal. -/
theorem C87_remove_insert (h : Heap) (hr : Reachable h) (self old d : NodeId)
    (hself : h.live self = true) (hp : parentNode h old = some self)
    (hm : old ∈ childNodes h self) (hnd : (childNodes h self).Nodup)
    (hhome : home h self = some d) (hown : ownerDocument h old = some d) :
    ∃ h' h'', removeChild h self old = (.ok old, h') ∧
      insertBefore h' self old (nextSibling h old) = (.ok old, h'') ∧ Unchanged h h'' := by
  have i := hr.invariant
  obtain ⟨a, b, hl⟩ := List.append_of_mem hm
  obtain ⟨ha, hb⟩ := nodup_split (hl ▸ hnd)
  obtain ⟨h', h1, h2, h3, h4⟩ := C03_remove_child h self old a b hl ha
  have hne : self ≠ old := fun he => hr.notOwnChild self hself (by rw [he] at hm ⊢; exact hm)
  have hone : nodeType h' self = .document → nodeType h' old = .element →
      ∀ x ∈ a ++ b, nodeType h' x ≠ .element := by
    intro hd he x hx hxe
    rw [(h4.same _).ntype] at hd he hxe
    exact no_other_element i hself hd he hl x hx hxe
  have hnd' : (a ++ b).Nodup := by
    rw [hl] at hnd
    exact hnd.sublist (by simp)
  obtain ⟨h'', e1, e2, e3, e4⟩ := insert_succeeds (g := h') (self := self) (new := old) (d := d)
    (a := a) (b := b) (by rw [h4.live]; exact hself) hne
    (by
      have := i.allowed self hself old hm
      rw [show (h'.get self).ntype = _ from (h4.same self).ntype,
        show (h'.get old).ntype = _ from (h4.same old).ntype]
      exact this)
    hone h2 hnd' (by rw [home_onlyLinks h4]; exact hhome) (by rw [(h4.same old).owner]; exact hown)
    h3
  rw [← nextSibling_eq hp hl ha] at e1
  refine ⟨h', h'', h1, e1, unchanged_of h4 e4 ?_ ?_⟩
  · rintro m (rfl | rfl) <;> rw [e2, hl]
  · rintro m (rfl | rfl) <;> rw [e3, hp]

/-- C87: replacing a child by a node that had no parent is undone by replacing that node by
the child. -/
theorem C87_replace_replace (h : Heap) (hr : Reachable h) (self old new r d : NodeId) (h' : Heap)
    (hself : h.live self = true) (hp : parentNode h old = some self)
    (hnd : (childNodes h self).Nodup) (hlinks : LinksAgreeAt h new)
    (hfree : parentNode h new = none)
    (hhome : home h self = some d) (hown : ownerDocument h old = some d)
    (hownn : ownerDocument h new = some d)
    (hok : replaceChild h self new old = (.ok r, h')) :
    ∃ h'', replaceChild h' self old new = (.ok new, h'') ∧ Unchanged h h'' := by
  have i := hr.invariant
  obtain ⟨_, hm, x, hi⟩ := replaceChild_ok hok
  obtain ⟨a, b, hl⟩ := List.append_of_mem hm
  obtain ⟨ha, hb⟩ := nodup_split (hl ▸ hnd)
  have hnn : new ∉ childNodes h self := fun hm => by
    have := (hlinks self hself).mp hm
    rw [hfree] at this
    cases this
  have hnab : new ∉ a ∧ new ∉ b ∧ new ≠ old := by
    rw [hl] at hnn
    simp only [List.mem_append, List.mem_cons, not_or] at hnn
    exact ⟨hnn.1, hnn.2.2, hnn.2.1⟩
  have hnd' : (a ++ b).Nodup := by
    rw [hl] at hnd
    exact hnd.sublist (by simp)
  have hne : self ≠ old := fun he => hr.notOwnChild self hself (by rw [he] at hm ⊢; exact hm)
  -- the first replacement
  have f0 := onlyLinks_unlink h self old
  have c0 : childNodes (h.unlink self old) self = a ++ b := by
    show ((h.unlink self old).get self).children = _
    rw [get_unlink]
    simp only [if_true]
    rw [show (h.get self).children = a ++ old :: b from hl, erase_split ha]
  have p0 : parentNode (h.unlink self old) new = none := by
    rw [f0.parent new hnab.2.2]; exact hfree
  have o0 : ownerDocument (h.unlink self old) new = some d := by
    rw [(f0.same new).owner]; exact hownn
  have f1 := insertBefore_frame (by rw [f0.live]; exact hself) (by rw [o0]; simp) hi
  obtain ⟨pos, hpos, hc⟩ := insertBefore_children hi
  obtain ⟨_, hsn, hal, _⟩ := insertBefore_ok hi
  rw [if_neg (by rw [p0]; simp), c0] at hc
  have c1 : childNodes h' self = a ++ new :: b := by
    rw [nextSibling_eq hp hl ha] at hpos
    rw [hc]
    cases b with
    | nil => cases hpos; simp [insertAt]
    | cons y b =>
      have : insertPosition (h.unlink self old) self (some y) = some (some a.length) :=
        insertPosition_some.mpr (.inr ⟨y, a, b, rfl, c0, (nodup_split hnd').1, rfl⟩)
      rw [List.head?_cons, this] at hpos
      cases hpos
      exact insertAt_position_fst
  have p1 : parentNode h' new = some self := by
    obtain ⟨_, _, _, _, _, pos', _, h1 | ⟨p, hp', _⟩⟩ := insertBefore_ok hi
    · obtain ⟨_, rfl⟩ := h1
      refine parentNode_eq_some.mpr ⟨?_, ?_, ?_⟩
      · rw [get_link _ _ hsn]
        exact fun hf => by rw [hf, isChildAllowed_attribute] at hal; cases hal
      · rw [get_link _ _ hsn]; simp
      · exact hself
    · rw [p0] at hp'; cases hp'
  have f2 := f0.trans f1
  have hself' : h'.live self = true := by rw [f2.live]; exact hself
  -- the second replacement
  obtain ⟨h1, r1, r2, r3, r4⟩ := C03_remove_child h' self new a b c1 hnab.1
  have f3 := f2.trans r4
  have po : parentNode h1 old = none := by
    rw [r4.parent old (fun he => hnab.2.2 he.symm), f1.parent old (fun he => hnab.2.2 he.symm)]
    unfold parentNode
    rw [get_unlink]
    simp [Heap.upgrade]
  have hone : nodeType h1 self = .document → nodeType h1 old = .element →
      ∀ x ∈ a ++ b, nodeType h1 x ≠ .element := by
    intro hd he x hx hxe
    rw [(f3.same _).ntype] at hd he hxe
    exact no_other_element i hself hd he hl x hx hxe
  have hallow : isChildAllowed (h.get self).ntype (h.get old).ntype = true :=
    i.allowed self hself old hm
  obtain ⟨h2, e1, e2, e3, e4⟩ := insert_succeeds (g := h1) (self := self) (new := old) (d := d)
    (a := a) (b := b) (by rw [f3.live]; exact hself) hne
    (by
      rw [show (h1.get self).ntype = _ from (f3.same self).ntype,
        show (h1.get old).ntype = _ from (f3.same old).ntype]
      exact hallow)
    hone r2 hnd' (by rw [home_onlyLinks f3]; exact hhome) (by rw [(f3.same old).owner]; exact hown)
    po
  have hns : nextSibling h' new = b.head? := nextSibling_eq p1 c1 hnab.1
  refine ⟨h2, ?_, unchanged_of f3 e4 ?_ ?_⟩
  · unfold replaceChild
    rw [if_neg, if_pos, hns]
    · simp only
      rw [r1]
      simp only
      rw [e1]
    · show new ∈ childNodes h' self
      rw [c1]; simp
    · rw [show (h'.get self).ntype = _ from (f2.same self).ntype,
        show (h'.get old).ntype = _ from (f2.same old).ntype]
      show ¬ isChildAllowed (h.get self).ntype (h.get old).ntype = false
      rw [hallow]; decide
  · have key : ∀ m, m = self → childNodes h2 m = childNodes h m := by
      rintro m rfl; rw [e2, hl]
    rintro m (((rfl | (rfl | hm)) | rfl) | rfl)
    · exact key _ rfl
    · exact key _ rfl
    · rw [p0] at hm; cases hm
    · exact key _ rfl
    · exact key _ rfl
  · have ko : parentNode h2 old = parentNode h old := by rw [e3, hp]
    have kn : parentNode h2 new = parentNode h new := by
      rw [e4.parent new hnab.2.2, r3, hfree]
    rintro m (((rfl | rfl) | rfl) | rfl)
    · exact ko
    · exact kn
    · exact kn
    · exact ko

/-! ## C88 -/

/-- The characters and nodes of one block. -/
def blockContent : NodeId ⊕ Str → List (NodeId ⊕ Char)
  | .inl c => [.inl c]
  | .inr s => s.map .inr

/-- No empty text and no two texts in a row. -/
def NormalBlocks : List (NodeId ⊕ Str) → Prop
  | [] => True
  | .inl _ :: t => NormalBlocks t
  | .inr s :: t => s ≠ [] ∧ NormalBlocks t ∧ ∀ s' t', t ≠ .inr s' :: t'

theorem text_prefix {s s' : Str} {t t' : List (NodeId ⊕ Char)} (ht : ∀ c r, t ≠ .inr c :: r)
    (ht' : ∀ c r, t' ≠ .inr c :: r)
    (he : s.map Sum.inr ++ t = s'.map Sum.inr ++ t') : s = s' ∧ t = t' := by
  induction s generalizing s' with
  | nil =>
    cases s' with
    | nil => exact ⟨rfl, he⟩
    | cons c s' => exact absurd he (ht c _)
  | cons c s ih =>
    cases s' with
    | nil => exact absurd he.symm (ht' c _)
    | cons c' s' =>
      simp only [List.map_cons, List.cons_append, List.cons.injEq, Sum.inr.injEq] at he
      obtain ⟨rfl, he⟩ := he
      obtain ⟨rfl, h2⟩ := ih he
      exact ⟨rfl, h2⟩

theorem flat_noText {t : List (NodeId ⊕ Str)} (hn : NormalBlocks t)
    (ht : ∀ s' t', t ≠ .inr s' :: t') : ∀ c r, t.flatMap blockContent ≠ .inr c :: r := by
  intro c r he
  match t, hn with
  | [], _ => cases he
  | .inl x :: t, _ => cases he
  | .inr s :: t, _ => exact ht s t rfl

/-- There is one normal list of blocks for given content. -/
theorem normalBlocks_unique : ∀ (b b' : List (NodeId ⊕ Str)), NormalBlocks b → NormalBlocks b' →
    b.flatMap blockContent = b'.flatMap blockContent → b = b'
  | [], [], _, _, _ => rfl
  | [], .inl c :: t, _, _, he => by cases he
  | [], .inr s :: t, _, h', he => by
    have hs := h'.1
    cases s with
    | nil => exact absurd rfl hs
    | cons c s => cases he
  | .inl c :: t, [], _, _, he => by cases he
  | .inr s :: t, [], h, _, he => by
    have hs := h.1
    cases s with
    | nil => exact absurd rfl hs
    | cons c s => cases he
  | .inl c :: t, .inl c' :: t', h, h', he => by
    simp only [List.flatMap_cons, blockContent, List.singleton_append, List.cons.injEq,
      Sum.inl.injEq] at he
    rw [he.1, normalBlocks_unique t t' h h' he.2]
  | .inl c :: t, .inr s :: t', _, h', he => by
    have hs := h'.1
    cases s with
    | nil => exact absurd rfl hs
    | cons c s => cases he
  | .inr s :: t, .inl c :: t', h, _, he => by
    have hs := h.1
    cases s with
    | nil => exact absurd rfl hs
    | cons c s => cases he
  | .inr s :: t, .inr s' :: t', h, h', he => by
    simp only [List.flatMap_cons, blockContent] at he
    obtain ⟨h1, h2⟩ := text_prefix (flat_noText h.2.1 h.2.2) (flat_noText h'.2.1 h'.2.2) he
    rw [h1, normalBlocks_unique t t' h.2.1 h'.2.1 h2]

theorem content_blocks (h : Heap) (l : List NodeId) :
    content h l = (blocks h l).flatMap blockContent := by
  unfold content blocks
  rw [List.flatMap_map]
  congr 1
  funext c
  split <;> rfl

theorem normalBlocks_of {h : Heap} {l : List NodeId} (hn : NormalList h l) :
    NormalBlocks (blocks h l) := by
  induction l with
  | nil => trivial
  | cons c l ih =>
    have hl : NormalList h l := ⟨fun x hx => hn.full x (by simp [hx]),
      fun a x y b he => hn.apart (c :: a) x y b (by rw [he]; rfl)⟩
    show NormalBlocks ((if nodeType h c = .text then .inr (textOf h c) else .inl c) :: blocks h l)
    by_cases hc : nodeType h c = .text
    · rw [if_pos hc]
      refine ⟨hn.full c (by simp) hc, ih hl, ?_⟩
      intro s' t' he
      cases l with
      | nil => cases he
      | cons d l =>
        have hd : nodeType h d ≠ .text := fun hd => hn.apart [] c d l rfl ⟨hc, hd⟩
        unfold blocks at he
        rw [List.map_cons, if_neg hd] at he
        cases he
    · rw [if_neg hc]
      exact ih hl

/-- C88: the normal form is unique: two normal child lists, of whatever states, with the same
characters and other nodes in the same order have the same texts. -/
theorem C88_unique (h h' : Heap) (l l' : List NodeId) (hn : NormalList h l)
    (hn' : NormalList h' l') (hc : content h l = content h' l') : blocks h l = blocks h' l' :=
  normalBlocks_unique _ _ (normalBlocks_of hn) (normalBlocks_of hn')
    (by rw [← content_blocks, ← content_blocks]; exact hc)

/-- C88: `normalize` undoes `split`: the texts and other nodes below the parent are what they
were. -/
theorem C88_split_normalize (ov : Bool) (h : Heap) (hr : Reachable h) (n p : NodeId)
    (hn : h.live n = true) (ht : nodeType h n = .text) (hp : parentNode h n = some p)
    (hm : n ∈ childNodes h p) (hc : ConsistentAt h p) (hN : NormalAt h p) (offset : Nat)
    (hlen : charLength h n < usizeLimit) (m : NodeId) (h' : Heap)
    (hok : splitText ov h n offset = (.ok m, h')) :
    ∃ h'', normalize h' p = (.ok (), h'') ∧
      blocks h'' (childNodes h'' p) = blocks h (childNodes h p) := by
  have i := hr.invariant
  have hs := C22_split ov h hr n hn offset hlen m h' hok
  have hpl : h.live p = true := (parentNode_eq_some.mp hp).2.2
  have hr' : Reachable h' := by
    have := Reachable.run hr (ops := [({ plainEnv with overflowChecks := ov }, .split n offset)])
      (by intro x hx; cases List.mem_singleton.mp hx; exact
        ⟨plainEnv_ok.uni, plainEnv_ok.attrOrder, plainEnv_ok.nsOrder⟩)
    simp only [run, exec] at this
    rw [if_pos (by simpa [Op.args] using hn)] at this
    simpa [Op.apply, hok, leftBehind] using this
  obtain ⟨a, b, hl⟩ := List.append_of_mem hm
  obtain ⟨h1, h2⟩ := hs.next p a b hp hl hc.nodup
  have hlc : ∀ x ∈ childNodes h p, h.live x = true := fun x hx => i.wf.child hpl hx
  have hmn : m ∉ childNodes h p := fun hx => by
    have := hlc m hx
    rw [hs.unused] at this; cases this
  have hc' : ConsistentAt h' p := by
    constructor
    · rw [h1]
      have hnd := hc.nodup
      rw [hl] at hnd hmn
      have hp : (a ++ n :: m :: b).Perm (m :: (a ++ n :: b)) := by
        have := List.perm_middle (a := m) (l₁ := a ++ [n]) (l₂ := b)
        simpa using this
      exact hp.nodup_iff.mpr (List.nodup_cons.mpr ⟨hmn, hnd⟩)
    · intro x hx
      rw [h1] at hx
      by_cases hxm : x = m
      · rw [hxm]; exact h2
      · have hxp : x ∈ childNodes h p := by
          rw [hl]
          simp only [List.mem_append, List.mem_cons] at hx ⊢
          rcases hx with hx | hx | hx | hx
          · exact .inl hx
          · exact .inr (.inl hx)
          · exact absurd hx hxm
          · exact .inr (.inr hx)
        obtain ⟨t1, _, _, _, _, t6, _, t8⟩ := hs.others x (hlc x hxp)
        obtain ⟨q1, q2, q3⟩ := parentNode_eq_some.mp (hc.parent x hxp)
        exact parentNode_eq_some.mpr ⟨by rw [show (h'.get x).ntype = _ from t1]; exact q1,
          by rw [t6]; exact q2, by rw [(hs.others p hpl).2.2.2.2.2.2.2]; exact hpl⟩
  have hct : content h' (childNodes h' p) = content h (childNodes h p) := by
    have keep : ∀ l : List NodeId, (∀ x ∈ l, x ∈ childNodes h p ∧ x ≠ n) →
        content h' l = content h l := by
      intro l hl'
      refine content_congr (fun x hx => (hs.others x (hlc x (hl' x hx).1)).1) (fun x hx => ?_)
      unfold textOf
      rw [(hs.others x (hlc x (hl' x hx).1)).2.2.1 (hl' x hx).2]
    obtain ⟨ha, hb⟩ := nodup_split (hl ▸ hc.nodup)
    rw [h1, hl, content_append, content_append,
      keep a (fun x hx => ⟨by rw [hl]; simp [hx], fun e => ha (e ▸ hx)⟩),
      content_text (by rw [(hs.others n hn).1]; exact ht),
      content_text (by rw [hs.ntype]; exact ht), content_text ht,
      keep b (fun x hx => ⟨by rw [hl]; simp [hx], fun e => hb (e ▸ hx)⟩), 
      show textOf h n = textOf h' n ++ textOf h' m from hs.data, List.map_append]
    simp
  obtain ⟨h'', e1, e2, e3, _⟩ := C24_normalize h' hr' p
    (by rw [(hs.others p hpl).2.2.2.2.2.2.2]; exact hpl) hc'
  exact ⟨h'', e1, C88_unique h'' h _ _ e2 hN (by rw [e3, hct])⟩

/-- A root (1) with a text (2) and a comment (3); a free element (4). -/
def undoHeap : Heap := after [mkDoc, .createTextNode 0 (c! "ab"), .createComment 0 (c! "c"),
  .appendChild 1 2, .appendChild 1 3, .createElement 0 (c! "e")]

theorem reachable_undoHeap : Reachable undoHeap := reachable_after _

example : Reachable undoHeap ∧ LinksAgreeAt undoHeap 4 ∧ parentNode undoHeap 4 = none ∧
    ownerDocument undoHeap 4 = some 0 ∧ home undoHeap 1 = some 0 ∧
    (insertBefore undoHeap 1 4 (some 3)).1 = .ok 4 ∧ (replaceChild undoHeap 1 4 2).1 = .ok 2 ∧
    parentNode undoHeap 2 = some 1 ∧ (childNodes undoHeap 1).Nodup ∧
    ownerDocument undoHeap 2 = some 0 :=
  ⟨reachable_undoHeap, forall_live reachable_undoHeap (n := 5) rfl (by decide), by decide⟩

example : ConsistentAt undoHeap 1 ∧ NormalAt undoHeap 1 ∧ nodeType undoHeap 2 = .text ∧
    charLength undoHeap 2 < usizeLimit ∧ (splitText true undoHeap 2 1).1 = .ok 5 := by
  have hc : childNodes undoHeap 1 = [2, 3] := by decide
  refine ⟨⟨by decide, by decide⟩, ?_, by decide, by decide, by decide⟩
  unfold NormalAt
  rw [hc]
  refine ⟨by decide, ?_⟩
  intro a x y b hl
  rcases a with _ | ⟨z, _ | ⟨w, a⟩⟩
  · cases hl; decide
  · have := congrArg List.length hl; simp at this
  · have := congrArg List.length hl; simp at this

/-! ## C89 -/

/-- C89: `value` reads what `set_value` wrote. -/
def C89_full : Prop :=
  ∀ u h, u.Ascii → Reachable h → ∀ a v h', h.live a = true → nodeType h a = .attribute →
    setValue h a v = (.ok (), h') → attrValue u h' a = .ok (some v)

/-- C89 does not hold: the value is normalized and escaped when it is read. -/
theorem C89_full_false : ¬ C89_full := by
  intro hf
  have := hf asciiUni (after [mkDoc, .createAttribute 0 (c! "a")]) asciiUni_ascii
    (reachable_after _) 2 (c! "<") _ (by decide) (by decide)
    (Prod.ext (by decide : (setValue (after [mkDoc, .createAttribute 0 (c! "a")]) 2 (c! "<")).1
      = .ok ()) rfl)
  exact absurd this (by decide)

/-- What `set_value` does: the attribute of a document gets one new text child with the
value, and nothing else changes. -/
theorem setValue_effect {h : Heap} (hr : Reachable h) {a d : NodeId} (ha : h.live a = true)
    (ht : nodeType h a = .attribute) (hd : ownerDocument h a = some d)
    (hdt : nodeType h d = .document) (v : Str) :
    ∃ h', setValue h a v = (.ok (), h') ∧ childNodes h' a = [h.next] ∧
      nodeType h' h.next = .text ∧ nodeValue h' h.next = some v ∧
      (∀ m, h.live m = true → m ≠ a → h'.get m = h.get m) ∧
      h'.get a = { h.get a with children := [h.next] } ∧ h'.next = h.next + 1 ∧
      (∀ m, h.live m = true → h'.live m = true) := by
  have i := hr.invariant
  have ltA := i.wf.fresh a ha
  obtain ⟨od, ld⟩ := Heap.upgrade_some.mp hd
  have ltD := i.wf.fresh d ld
  have hda : d ≠ a := fun e => by rw [e, ht] at hdt; cases hdt
  have han : a ≠ h.next := Nat.ne_of_lt ltA
  have hdn : d ≠ h.next := Nat.ne_of_lt ltD
  have ht' : (h.get a).ntype = .attribute := ht
  unfold setValue unsetValue
  simp only
  generalize hh1 : h.set a { h.get a with children := [] } = h1
  have g1 : ∀ m, h1.get m = if m = a then { h.get a with children := [] } else h.get m := by
    intro m; rw [← hh1, Heap.get_set]
  have n1 : h1.next = h.next := by rw [← hh1]; rfl
  have l1 : h1.live = h.live := by rw [← hh1]; rfl
  have o1 : ownerDocument h1 a = some d := by
    unfold ownerDocument
    rw [g1, if_pos rfl]
    exact Heap.upgrade_some.mpr ⟨od, by rw [l1]; exact ld⟩
  rw [o1]
  simp only
  rw [if_pos (by rw [g1, if_neg hda]; exact hdt)]
  generalize hh2 : (h1.alloc (Node.newText d v)).2 = h2
  have e2 : (h1.alloc (Node.newText d v)).1 = h.next := by rw [← n1]; rfl
  rw [e2]
  have g2 : ∀ m, h2.get m = if m = h.next then Node.newText d v else h1.get m := by
    intro m; rw [← hh2, Heap.get_alloc, n1]
  have l2 : ∀ m, h2.live m = (decide (m = h.next) || h.live m) := by
    intro m
    rw [← hh2, ← l1, ← n1]
    simp [Heap.alloc]
  have n2 : h2.next = h.next + 1 := by rw [← hh2, ← n1]; rfl
  have ga : h2.get a = { h.get a with children := [] } := by
    rw [g2, if_neg han, g1, if_pos rfl]
  have gn : h2.get h.next = Node.newText d v := by rw [g2, if_pos rfl]
  have lda : h2.live d = true := by rw [l2, ld]; simp
  have oa : ownerDocument h2 a = some d := by
    unfold ownerDocument; rw [ga]; exact Heap.upgrade_some.mpr ⟨od, lda⟩
  obtain ⟨h3, c1, c2, c3, c4⟩ := insert_succeeds (g := h2) (self := a) (new := h.next) (d := d)
    (a := []) (b := []) (by rw [l2, ha]; simp) han
    (by rw [ga, gn]; show isChildAllowed (h.get a).ntype .text = true; rw [ht']; rfl)
    (by intro _ _ x hx; cases hx) (by unfold childNodes; rw [ga]; rfl) (by simp)
    (by
      unfold home
      rw [if_neg, oa]
      unfold nodeType; rw [ga]; show ¬ (h.get a).ntype = _; rw [ht']; decide)
    (by unfold ownerDocument; rw [gn]; exact Heap.upgrade_some.mpr ⟨rfl, lda⟩)
    (by unfold parentNode; rw [gn]; rfl)
  obtain ⟨_, hne, _, _, _, pos, hpos, k1 | ⟨p, hp, _⟩⟩ := insertBefore_ok c1
  · obtain ⟨_, rfl⟩ := k1
    cases hpos
    have hown : ownerFor h2 a = some d := by
      unfold ownerFor
      rw [ga]
      show (if (h.get a).ntype = _ then _ else (h.get a).owner) = _
      rw [ht', if_neg (by decide), od]
    have gg := get_link h2 (p := a) (c := h.next) none hne
    refine ⟨h2.link a h.next none, ?_, c2, ?_, ?_, ?_, ?_, by rw [c4.next, n2], ?_⟩
    · have : appendChild h2 a h.next = (.ok h.next, h2.link a h.next none) := c1
      rw [this]
    · rw [(c4.same h.next).ntype]; unfold nodeType; rw [gn]; rfl
    · rw [(c4.same h.next).value]; unfold nodeValue; rw [gn]; rfl
    · intro m hm hma
      have hmn : m ≠ h.next := Nat.ne_of_lt (i.wf.fresh m hm)
      rw [gg, if_neg hma, if_neg hmn, if_neg hmn, g2, if_neg hmn, g1, if_neg hma]
    · rw [gg, if_pos rfl, if_neg han, if_neg han, ga]; rfl
    · intro m hm
      rw [c4.live, l2, hm]; simp
  · have : parentNode h2 h.next = none := by unfold parentNode; rw [gn]; rfl
    rw [this] at hp; cases hp

/-- C89 (partial: what is read is the normalized and escaped form, for values that have one;
the attribute belongs to a document): `set_value` succeeds whatever the value was before,
changes no other node, and `value` then reads the new value. -/
theorem C89_set_value_partial (u : Uni) (hu : u.Ascii) (h : Heap) (hr : Reachable h)
    (a d : NodeId) (ha : h.live a = true) (ht : nodeType h a = .attribute)
    (hd : ownerDocument h a = some d) (hdt : nodeType h d = .document) (v : Str) :
    ∃ h', setValue h a v = (.ok (), h') ∧
      (∀ m, h.live m = true → m ≠ a → h'.get m = h.get m) ∧
      (∀ r, Normalizes v r → ∃ w, Trimmed r w ∧ attrValue u h' a = .ok (some (escape w))) ∧
      (PlainUri v → attrValue u h' a = .ok (some v)) := by
  obtain ⟨h', e1, e2, e3, e4, e5, _⟩ := setValue_effect hr ha ht hd hdt v
  have hraw : attrRaw h' a = v := by
    unfold attrRaw
    rw [show (h'.get a).children = [h.next] from e2]
    simp only [List.flatMap_cons, List.flatMap_nil, List.append_nil]
    unfold attrChildText
    rw [show (h'.get h.next).ntype = .text from e3, show (h'.get h.next).value = some v from e4]
    rfl
  have hne : (h'.get a).children ≠ [] := by
    rw [show (h'.get a).children = [h.next] from e2]; simp
  refine ⟨h', e1, e5, fun r hv => attrValue_normalizes hu hne hraw hv, ?_⟩
  intro hp
  obtain ⟨h1, h2, h3⟩ := hp.normalizes
  obtain ⟨w, k1, k2⟩ := attrValue_normalizes hu hne hraw h1
  rw [k2, h3 w k1, h2]

/-- C89: the last value set counts: after a second `set_value` the content of the attribute
is one text node with the second value, as after the second call alone. -/
theorem C89_last_counts (h : Heap) (hr : Reachable h) (a d : NodeId)
    (ha : h.live a = true) (ht : nodeType h a = .attribute) (hd : ownerDocument h a = some d)
    (hdt : nodeType h d = .document) (v v' : Str) :
    ∃ h1 h2 h3 n2 n3, setValue h a v = (.ok (), h1) ∧ setValue h1 a v' = (.ok (), h2) ∧
      setValue h a v' = (.ok (), h3) ∧
      (childNodes h2 a = [n2] ∧ nodeType h2 n2 = .text ∧ nodeValue h2 n2 = some v') ∧
      (childNodes h3 a = [n3] ∧ nodeType h3 n3 = .text ∧ nodeValue h3 n3 = some v') := by
  obtain ⟨h1, e1, e2, e3, e4, e5, e6, e7, e8⟩ := setValue_effect hr ha ht hd hdt v
  obtain ⟨h3, k1, k2, k3, k4, _⟩ := setValue_effect hr ha ht hd hdt v'
  obtain ⟨od, ld⟩ := Heap.upgrade_some.mp hd
  have hda : d ≠ a := fun e => by rw [e, ht] at hdt; cases hdt
  have hr1 : Reachable h1 := by
    have := reachable_apply hr (op := .setValue a v) (by simpa [Op.args] using ha)
    simpa [Op.apply, e1, leftBehind] using this
  obtain ⟨h2, m1, m2, m3, m4, _⟩ := setValue_effect hr1 (e8 a ha)
    (by unfold nodeType; rw [e6]; exact ht)
    (by unfold ownerDocument; rw [e6]; exact Heap.upgrade_some.mpr ⟨od, e8 d ld⟩)
    (by unfold nodeType; rw [e5 d ld hda]; exact hdt) v'
  exact ⟨h1, h2, h3, _, _, e1, m1, k1, ⟨m2, m3, m4⟩, ⟨k2, k3, k4⟩⟩

/-- C89: after `unset_value` there is no value; nothing else changes. -/
theorem C89_unset (u : Uni) (h : Heap) (a : NodeId) :
    ∃ h', unsetValue h a = (.ok (), h') ∧ attrValue u h' a = .ok none ∧
      ∀ m, m ≠ a → h'.get m = h.get m := by
  refine ⟨_, rfl, ?_, fun m hm => Heap.get_set_ne _ _ hm⟩
  simp [attrValue]

example : Reachable (after [mkDoc, .createAttribute 0 (c! "a")]) ∧
    ownerDocument (after [mkDoc, .createAttribute 0 (c! "a")]) 2 = some 0 ∧
    nodeType (after [mkDoc, .createAttribute 0 (c! "a")]) 0 = .document ∧ PlainUri (c! "u") :=
  ⟨reachable_after _, by decide, by decide, plain_u⟩

end Props
end XmlDom
