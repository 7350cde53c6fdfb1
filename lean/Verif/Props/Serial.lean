import Verif.Lemmas.RoundTrip
import Verif.Props.Walk

/-!
# C57-C59: the text form
-/

namespace XmlDom
namespace Props

open Spec

/-! ## C57 -/

/-- C57: the text form of a finite tree is its serialization. -/
theorem C57_display (e : Env) (h : Heap) (n : NodeId) (x : Xml) (fuel : Nat) (he : e.Ok)
    (hx : Shows e h [n] x) (hfuel : x.height + 1 ≤ fuel) : fmtNode e h fuel n = .ok x.print := by
  have := fmtList_shows he hx fuel hfuel
  unfold fmtList at this
  cases hg : fmtNode e h fuel n with
  | ok s =>
    rw [hg] at this
    simpa [fmtList] using this
  | err _ => rw [hg] at this; cases this
  | panic _ => rw [hg] at this; cases this
  | diverge => rw [hg] at this; cases this

/-- C57: every live node of a history that never inserts a node below itself has a text
form. -/
def C57_full : Prop :=
  ∀ (e : Env) (h : Heap) (n : NodeId), e.Ok → ReachableBy NoAncestorInserted h →
    h.live n = true → ∃ s fuel, fmtNode e h fuel n = .ok s

/-- An attribute with an entity reference in its value. -/
def unreadableOps : List Op := [mkDoc, .setAttribute 1 (c! "a") (c! "&lt;")]

theorem unreadable_guarded : ReachableBy NoAncestorInserted (after unreadableOps) := by
  apply reachableBy_after
  exact ⟨trivial, trivial, trivial⟩

/-- C57 does not hold: an element with such an attribute cannot be written. -/
theorem C57_full_false : ¬ C57_full := by
  intro hf
  obtain ⟨s, fuel, hs⟩ := hf plainEnv (after unreadableOps) 1 plainEnv_ok unreadable_guarded
    (by decide)
  have ht : ((after unreadableOps).get 1).ntype = .element := by decide
  have ha : (plainEnv.attrOrder 1 (attributes (after unreadableOps) 1)).map (·.2) = [3] := by decide
  have ht2 : ((after unreadableOps).get 3).ntype = .attribute := by decide
  have hp : fmtAttribute plainEnv (after unreadableOps) 3 = .panic .explicit := by decide
  cases fuel with
  | zero => cases hs
  | succ fuel =>
    unfold fmtNode at hs
    rw [ht] at hs
    simp only [fmtElement, ha] at hs
    cases fuel with
    | zero => cases hs
    | succ fuel =>
      simp only [fmtList] at hs
      rw [show fmtNode plainEnv (after unreadableOps) (fuel + 1) 3 = .panic .explicit by
        unfold fmtNode; rw [ht2]; exact hp] at hs
      cases hs

/-- C57 (partial: the attribute values can be read, and what a document has as document type
is one): every live node has a text form, and it is the serialization of its tree. -/
theorem C57_terminates_partial (e : Env) (h : Heap) (n : NodeId) (f : Forest) (he : e.Ok)
    (hr : Reachable h) (hn : h.live n = true) (hf : Unfolds h [n] f)
    (hread : ∀ m ∈ f.preorder, Readable e h m)
    (hdt : ∀ m ∈ f.preorder, ∀ t, docType h m = some t → nodeType h t = .documentType) :
    ∃ x, Shows e h [n] x ∧ ∀ fuel, f.height + 2 ≤ fuel → fmtNode e h fuel n = .ok x.print := by
  obtain ⟨x, h1, h2⟩ := shows_exists he hr.invariant hf (by simpa using hn) hread hdt
  refine ⟨x, h1, fun fuel hfuel => C57_display e h n x fuel he h1 ?_⟩
  exact Nat.le_trans (Nat.succ_le_succ h2) hfuel

/-- C57: trees of guarded histories are finite. -/
theorem C57_finite (h : Heap) (n : NodeId) (hr : ReachableBy NoAncestorInserted h)
    (hn : h.live n = true) : ∃ f, Unfolds h [n] f ∧ f.height ≤ h.next + 1 :=
  unfolds_of_acyclic hr.reachable.wf hr.acyclic hn

/-- A tree with one node of every kind that goes below an element, and two attributes. -/
def serialOps : List Op :=
  [mkDoc, .setAttribute 1 (c! "a") (c! " <x "), .setAttribute 1 (c! "b") (c! "\"y"),
    .createTextNode 0 (c! "1<2&3"), .createComment 0 (c! "c"), .createCdataSection 0 (c! "<d>"),
    .createProcessingInstruction 0 (c! "p") (some (c! "q")), .createEntityReference 0 (c! "lt"),
    .createElement 0 (c! "s"),
    .appendChild 1 6, .appendChild 1 7, .appendChild 1 8, .appendChild 1 9, .appendChild 1 10,
    .appendChild 1 11]

example : fmtNode plainEnv (after serialOps) 4 1 =
    .ok (c! "<r b=\"&#34;y\" a=\"&#60;x\">1&#60;2&#38;3<!--c--><![CDATA[ <d> ]]><?p q?>&lt;<s></s></r>")
    := by decide

/-- The tree of the text form above. -/
def serialXml : Xml :=
  .element (c! "r") [(c! "b", c! "\"y"), (c! "a", c! "<x")]
    (.leaf (.text (c! "1<2&3")) (.leaf (.comment (c! "c")) (.leaf (.cdata (c! "<d>"))
      (.leaf (.pi (c! "p") (some (c! "q"))) (.leaf (.entityRef (c! "lt"))
        (.element (c! "s") [] .nil .nil)))))) .nil

theorem serial_shows : Shows plainEnv (after serialOps) [1] serialXml :=
  .element (n := 1) (by decide)
    (.cons (a := 5) ⟨by decide, by decide, by decide⟩
      (.cons (a := 3) ⟨by decide, by decide, by decide⟩ .nil))
    (.leaf (n := 6) (.text (by decide) (by decide))
      (.leaf (n := 7) (.comment (by decide) (by decide))
        (.leaf (n := 8) (.cdata (by decide) (by decide))
          (.leaf (n := 9) (.pi (by decide)) (.leaf (n := 10) (.entityRef (by decide))
            (.element (n := 11) (by decide) .nil .nil .nil)))))) .nil

/-- The hypotheses can be met. -/
example : Shows plainEnv (after serialOps) [1] serialXml ∧ serialXml.height + 1 ≤ 3 :=
  ⟨serial_shows, by decide⟩

/-! ## C58 -/

theorem esc_count (s : Str) {c : Char} (hc : c = '<' ∨ c = '>') : (esc s).count c = 0 :=
  List.count_eq_zero.mpr (esc_notMem s (hc.elim Or.inl fun h => Or.inr (Or.inl h)))

theorem qname_count {n : Str} (hn : IsQName n) {c : Char} (hc : c = '<' ∨ c = '>') :
    n.count c = 0 := by
  refine List.count_eq_zero.mpr ?_
  have hno : ¬ NameChar c := by rcases hc with rfl | rfl <;> decide
  have hno' : ¬ NameStartChar c := fun h => hno (Or.inl h)
  obtain ⟨d, ds, rfl, h1, h2⟩ := isQName_isName hn
  intro hm
  rcases List.mem_cons.mp hm with rfl | hm
  · exact hno' h1
  · exact hno (h2 c hm)

theorem printAttrs_count {as : List (Str × Str)} (ha : ∀ a ∈ as, IsQName a.1) {c : Char}
    (hc : c = '<' ∨ c = '>') : (printAttrs as).count c = 0 := by
  induction as with
  | nil => rfl
  | cons a as ih =>
    have e : printAttrs (a :: as) =
        ' ' :: (a.1 ++ '=' :: '"' :: (esc a.2 ++ '"' :: printAttrs as)) := by
      simp [printAttrs, printAttr, quoted]
    have hh : ∀ d : Char, d = ' ' ∨ d = '=' ∨ d = '"' → (d == c) = false := by
      rintro d (rfl | rfl | rfl) <;> rcases hc with rfl | rfl <;> decide
    rw [e]
    simp only [List.count_cons, List.count_append, qname_count (ha a (by simp)) hc, esc_count _ hc,
      ih (fun b hb => ha b (by simp [hb])), hh ' ' (by simp), hh '=' (by simp), hh '"' (by simp)]
    rfl

/-- Every angle bracket of the serialization of element content is a delimiter of a tag,
comment, CDATA section or processing instruction, or in the data of one of the last two. -/
theorem print_count (x : Xml) (hx : x.Content) (hn : x.NamesOk) {c : Char}
    (hc : c = '<' ∨ c = '>') :
    x.print.count c = x.tags + x.foreign c := by
  induction x with
  | nil => rfl
  | leaf l rest ih =>
    have ih := ih hx.2 hn.2
    simp only [Xml.print, List.count_append, ih, Xml.tags, Xml.foreign]
    cases l with
    | blank => simp [Spec.Leaf.print]
    | text s => simp [Spec.Leaf.print, esc_count s hc]
    | comment s =>
      rcases hc with rfl | rfl <;>
        simp [Spec.Leaf.print, List.count_append, esc_count s] <;> omega
    | cdata s =>
      rcases hc with rfl | rfl <;>
        simp [Spec.Leaf.print, List.count_append] <;> omega
    | pi t d =>
      have := qname_count hn.1 hc
      cases d <;> rcases hc with rfl | rfl <;>
        simp [Spec.Leaf.print, List.count_append, this] <;> omega
    | entityRef n =>
      have := qname_count hn.1 hc
      rcases hc with rfl | rfl <;>
        simp [Spec.Leaf.print, List.count_append, this]
    | «attribute» _ _ => exact hx.1.elim
    | entity _ _ _ _ _ => exact hx.1.elim
    | «notation» _ _ _ => exact hx.1.elim
  | element n as kids rest ihk ihr =>
    have ihk := ihk hx.1 hn.2.2.1
    have ihr := ihr hx.2 hn.2.2.2
    have h1 := qname_count hn.1 hc
    have h2 := printAttrs_count hn.2.1 hc
    simp only [Xml.print, Xml.tags, Xml.foreign]
    rcases hc with rfl | rfl <;>
      simp [List.count_append, h1, h2, ihk, ihr] <;> omega
  | docType _ _ _ _ _ _ _ _ => exact hx.elim
  | document _ _ _ _ _ _ _ => exact hx.elim
  | fragment _ _ _ _ _ => exact hx.elim

theorem attributes_live {h : Heap} (w : WF h) {n a : NodeId} {k : Name} (hn : h.live n = true)
    (ha : (k, a) ∈ attributes h n) : h.live a = true := by
  unfold attributes at ha
  split at ha
  · split at ha
    · rename_i attrs nss hx
      exact w.strong n hn a (mem_strongRefs.mpr (Or.inr (Or.inl ⟨attrs, nss, k, hx, ha⟩)))
    · cases ha
  · cases ha

theorem attrsOf_names {e : Env} {h : Heap} (i : Inv h) {l : List NodeId} {as : List (Str × Str)}
    (ha : AttrsOf e h l as) (hl : ∀ a ∈ l, h.live a = true) : ∀ a ∈ as, IsQName a.1 := by
  induction ha with
  | nil => intro a ha; cases ha
  | @cons b l n v as hb _ ih =>
    intro a ha
    rcases List.mem_cons.mp ha with rfl | ha
    · have := i.names b (i.wf.fresh b (hl b (by simp)))
      have ht : (h.get b).ntype = .attribute := hb.ntype
      rw [ht] at this
      have hq := nameOk_qname this
      rwa [show (h.get b).name.display = n from hb.name] at hq
    · exact ih (fun c hc => hl c (by simp [hc])) a ha

/-- The names of a tree of a reachable state are qualified names. -/
theorem shows_names {e : Env} (he : e.Ok) {h : Heap} (i : Inv h) {l : List NodeId} {x : Xml}
    (hx : Shows e h l x) (hl : ∀ m ∈ l, h.live m = true) : x.NamesOk := by
  induction hx with
  | nil => trivial
  | @leaf n ns l rest hlf _ ih =>
    have hn := hl n (by simp)
    have hnm := i.names n (i.wf.fresh n hn)
    refine ⟨?_, ih (fun m hm => hl m (by simp [hm]))⟩
    cases hlf with
    | pi ht =>
      rw [show (h.get n).ntype = _ from ht] at hnm
      exact nameOk_qname hnm.1
    | entityRef ht =>
      rw [show (h.get n).ntype = _ from ht] at hnm
      exact nameOk_qname hnm
    | _ => trivial
  | @element n ns as kids rest ht ha _ _ ihk ihr =>
    have hn := hl n (by simp)
    have hnm := i.names n (i.wf.fresh n hn)
    rw [show (h.get n).ntype = _ from ht] at hnm
    refine ⟨nameOk_qname hnm, attrsOf_names i ha ?_, ihk (fun m hm => i.wf.child hn hm),
      ihr (fun m hm => hl m (by simp [hm]))⟩
    intro a ha
    obtain ⟨⟨k, b⟩, hkb, rfl⟩ := List.mem_map.mp ha
    have hkb := (he.attrOrder n _).mem_iff.mp hkb
    exact attributes_live i.wf hn hkb
  | docType _ _ _ _ _ ihr => exact ihr (fun m hm => hl m (by simp [hm]))
  | @document n ns dtd kids rest ht _ _ _ _ ihk ihr =>
    exact ⟨ihk (fun m hm => i.wf.child (hl n (by simp)) hm), ihr (fun m hm => hl m (by simp [hm]))⟩
  | @fragment n ns kids rest ht _ _ ihk ihr =>
    exact ⟨ihk (fun m hm => i.wf.child (hl n (by simp)) hm), ihr (fun m hm => hl m (by simp [hm]))⟩

/-- What is below an element is element content. -/
theorem shows_content {e : Env} {h : Heap} (i : Inv h) {l : List NodeId} {x : Xml}
    (hx : Shows e h l x) (hl : ∀ m ∈ l, h.live m = true)
    (ht : ∀ m ∈ l, isChildAllowed .element (nodeType h m) = true) : x.Content := by
  induction hx with
  | nil => trivial
  | @leaf n ns l rest hlf _ ih =>
    refine ⟨?_, ih (fun m hm => hl m (by simp [hm])) (fun m hm => ht m (by simp [hm]))⟩
    have htn := ht n (by simp)
    cases hlf with
    | «attribute» ha => rw [ha.ntype] at htn; exact absurd htn (by decide)
    | entity h1 _ => rw [h1] at htn; exact absurd htn (by decide)
    | «notation» h1 _ => rw [h1] at htn; exact absurd htn (by decide)
    | _ => trivial
  | @element n ns as kids rest h1 ha _ _ ihk ihr =>
    have hn := hl n (by simp)
    refine ⟨ihk (fun m hm => i.wf.child hn hm) ?_,
      ihr (fun m hm => hl m (by simp [hm])) (fun m hm => ht m (by simp [hm]))⟩
    intro m hm
    have := i.allowed n hn m hm
    rwa [show (h.get n).ntype = _ from h1] at this
  | @docType n ns _ _ _ h1 _ _ _ _ _ =>
    have htn := ht n (by simp)
    rw [h1] at htn; exact absurd htn (by decide)
  | @document n ns _ _ _ h1 _ _ _ _ _ _ =>
    have htn := ht n (by simp)
    rw [h1] at htn; exact absurd htn (by decide)
  | @fragment n ns _ _ h1 _ _ _ _ =>
    have htn := ht n (by simp)
    rw [h1] at htn; exact absurd htn (by decide)

/-- C58: every angle bracket in the text form of an element is a delimiter of a tag, comment,
CDATA section or processing instruction of its tree, or in the data of a CDATA section or
processing instruction. Text, comments and attribute values contribute none. -/
theorem C58_no_markup (e : Env) (h : Heap) (n : NodeId) (x : Xml) (fuel : Nat) (c : Char)
    (he : e.Ok) (hr : Reachable h) (hn : h.live n = true) (ht : nodeType h n = .element)
    (hx : Shows e h [n] x) (hfuel : x.height + 1 ≤ fuel) (hc : c = '<' ∨ c = '>') :
    ∃ s, fmtNode e h fuel n = .ok s ∧ s.count c = x.tags + x.foreign c := by
  have i := hr.invariant
  refine ⟨_, C57_display e h n x fuel he hx hfuel, ?_⟩
  refine print_count x (shows_content i hx (by simpa using hn) ?_)
    (shows_names he i hx (by simpa using hn)) hc
  intro m hm
  cases List.mem_singleton.mp hm
  rw [ht]; rfl

/-- Four tags, a comment, a CDATA section and a processing instruction, and one bracket of
each kind in the CDATA section. -/
example : serialXml.tags = 7 ∧ serialXml.foreign '<' = 1 ∧ serialXml.foreign '>' = 1 := by decide

/-! ## C59 -/

theorem _root_.XmlDom.Spec.Xml.AttrLists.mono {p q : List (Str × Str) → Prop} {x : Xml}
    (hx : x.AttrLists p) (h : ∀ as, p as → q as) : x.AttrLists q := by
  induction x with
  | nil => trivial
  | leaf l rest ih => exact ih hx
  | element n as kids rest ihk ihr => exact ⟨h _ hx.1, ihk hx.2.1, ihr hx.2.2⟩
  | docType _ _ _ _ _ _ ihk ihr => exact ⟨ihk hx.1, ihr hx.2⟩
  | document _ _ _ _ ihd ihk ihr => exact ⟨ihd hx.1, ihk hx.2.1, ihr hx.2.2⟩
  | fragment _ _ _ ihk ihr => exact ⟨ihk hx.1, ihr hx.2⟩

theorem attrLists_names {p q : List (Str × Str) → Prop} {x : Xml} (hp : x.Simple) (hn : x.NamesOk)
    (hx : x.AttrLists p) (h : ∀ as, p as → (∀ a ∈ as, IsQName a.1) → q as) : x.AttrLists q := by
  induction x with
  | nil => trivial
  | leaf l rest ih => exact ih hp.2 hn.2 hx
  | element n as kids rest ihk ihr =>
    exact ⟨h _ hx.1 hn.2.1, ihk hp.1 hn.2.2.1 hx.2.1, ihr hp.2 hn.2.2.2 hx.2.2⟩
  | docType _ _ _ _ _ _ _ _ => exact hp.elim
  | document _ _ _ _ _ _ _ => exact hp.elim
  | fragment _ _ _ _ _ => exact hp.elim

theorem space_cases {c : Char} (hs : Space c) (h1 : c ≠ '\r') (h2 : c ≠ '\n') (h3 : c ≠ '\t') :
    c = ' ' := by
  obtain ⟨r, hr, a, b⟩ := hs
  have key : ∀ d : Char, d.toNat ≤ c.toNat → c.toNat ≤ d.toNat → c = d := fun d x y =>
    Char.ext (UInt32.toNat_inj.mp (Nat.le_antisymm y x))
  simp only [List.mem_cons, List.not_mem_nil, or_false] at hr
  rcases hr with rfl | rfl | rfl | rfl
  · exact key ' ' a b
  · exact absurd (key '\t' a b) h3
  · exact absurd (key '\r' a b) h1
  · exact absurd (key '\n' a b) h2

theorem not_reserved {nm : Name} (h : nm.display.map asciiLower ≠ Syn.piReserved) :
    Reader.reserved nm.display = false := by
  cases hr : Reader.reserved nm.display with
  | false => rfl
  | true =>
    exfalso
    unfold Reader.reserved at hr
    have hm := of_decide_eq_true hr
    have key : ∀ t ∈ [c! "xml", c! "xmL", c! "xMl", c! "xML", c! "Xml", c! "XmL", c! "XMl",
      c! "XML"], t.map asciiLower = Syn.piReserved := by decide
    exact h (key _ hm)

/-- The targets of processing instructions of a reachable state are not reserved. -/
theorem shows_targets {e : Env} {h : Heap} (i : Inv h) {l : List NodeId} {x : Xml}
    (hx : Shows e h l x) (hl : ∀ m ∈ l, h.live m = true) (hs : x.Simple) : TargetsOk x := by
  induction hx with
  | nil => trivial
  | @leaf n ns l rest hlf _ ih =>
    refine ⟨?_, ih (fun m hm => hl m (by simp [hm])) hs.2⟩
    rintro t d rfl
    have hnm := i.names n (i.wf.fresh n (hl n (by simp)))
    cases hlf with
    | pi ht =>
      rw [show (h.get n).ntype = _ from ht] at hnm
      exact not_reserved hnm.2
  | @element n ns as kids rest ht ha _ _ ihk ihr =>
    exact ⟨ihk (fun m hm => i.wf.child (hl n (by simp)) hm) hs.1,
      ihr (fun m hm => hl m (by simp [hm])) hs.2⟩
  | docType => exact hs.elim
  | document => exact hs.elim
  | fragment => exact hs.elim

/-- What shows an element is one element. -/
theorem shows_element {e : Env} {h : Heap} {n : NodeId} {x : Xml} (ht : nodeType h n = .element)
    (hx : Shows e h [n] x) : ∃ nm as kids, x = .element nm as kids .nil := by
  cases hx with
  | leaf hl _ =>
    exfalso
    cases hl with
    | blank h1 _ => rcases h1 with h1 | h1 | h1 <;> (rw [ht] at h1; cases h1)
    | «attribute» ha => have h1 := ha.ntype; rw [ht] at h1; cases h1
    | text h1 _ => rw [ht] at h1; cases h1
    | comment h1 _ => rw [ht] at h1; cases h1
    | cdata h1 _ => rw [ht] at h1; cases h1
    | pi h1 => rw [ht] at h1; cases h1
    | entityRef h1 => rw [ht] at h1; cases h1
    | entity h1 _ => rw [ht] at h1; cases h1
    | «notation» h1 _ => rw [ht] at h1; cases h1
  | element _ _ _ hr => cases hr; exact ⟨_, _, _, rfl⟩
  | docType h1 _ _ _ => rw [ht] at h1; cases h1
  | document h1 _ _ _ => rw [ht] at h1; cases h1
  | fragment h1 _ _ => rw [ht] at h1; cases h1

theorem writable_append (s t : Str) (hs : Spec.Leaf.Writable (.text s))
    (ht : Spec.Leaf.Writable (.text t)) : Spec.Leaf.Writable (.text (s ++ t)) := by
  intro c hc
  rcases List.mem_append.mp hc with hc | hc
  · exact hs c hc
  · exact ht c hc

/-- What the attributes of a written element are like. -/
def AttrsClean (as : List (Str × Str)) : Prop :=
  (as.map (·.1)).Nodup ∧ ∀ a ∈ as, ∀ c ∈ a.2, Char10 c ∧ c ≠ '\r' ∧ c ≠ '\n' ∧ c ≠ '\t'

theorem attrsClean_kept {x : Xml} (hp : x.Simple) (hn : x.NamesOk) (hattr : x.AttrLists AttrsClean) :
    x.AttrLists fun as => (∀ a ∈ as, AttrKept a) ∧ (as.map (·.1)).Nodup := by
  refine attrLists_names hp hn hattr ?_
  intro as h1 h2
  refine ⟨fun a ha => ⟨h2 a ha, fun c hc hs => ?_⟩, h1.1⟩
  obtain ⟨_, n1, n2, n3⟩ := h1.2 a ha c hc
  exact space_cases hs n1 n2 n3

/-- What the reference reader makes of the text form of content. -/
theorem content_read {x : Xml} (hp : x.Simple) (hn : x.NamesOk) (htg : TargetsOk x)
    (hw : x.Leaves Spec.Leaf.Writable) (hattr : x.AttrLists AttrsClean) (tail : Str)
    (ht : tail = [] ∨ ∃ t, tail = '<' :: '/' :: t) (k : Nat) (hk : (x.print ++ tail).length + 1 ≤ k) :
    Reader.content k (x.print ++ tail) = some (x.merge.mapLeaves Spec.Leaf.asRead, tail) := by
  have hcontent := content_print (merge_normal x hp) (merge_namesOk x hp hn)
    (merge_leaves _ (fun s t _ _ a b h => by cases h) x hp htg)
    (merge_leaves _ writable_append x hp hw)
    (merge_attrLists _ x hp (attrsClean_kept hp hn hattr)) tail ht k (by
      have := size_le_print _ (merge_normal x hp)
      rw [merge_print x hp] at this
      rw [List.length_append] at hk
      omega)
  rwa [merge_print x hp] at hcontent

theorem attrsClean_chars {x : Xml} (hattr : x.AttrLists AttrsClean) :
    x.AttrLists fun as => ∀ a ∈ as, ∀ c ∈ a.2, Char10 c ∧ c ≠ '\r' :=
  hattr.mono fun _ has a ha c hc => ⟨(has.2 a ha c hc).1, (has.2 a ha c hc).2.1⟩

/-- What the reference reader makes of the text form of an element. -/
theorem element_read (e : Env) (h : Heap) (n : NodeId) (x : Xml) (fuel : Nat)
    (he : e.Ok) (hr : Reachable h) (hn : h.live n = true) (ht : nodeType h n = .element)
    (hx : Shows e h [n] x) (hp : x.Simple) (hfuel : x.height + 1 ≤ fuel)
    (hw : x.Leaves Spec.Leaf.Writable) (hattr : x.AttrLists AttrsClean) :
    ∃ s, fmtNode e h fuel n = .ok s ∧
      Reader.read s = some (x.merge.mapLeaves Spec.Leaf.asRead) := by
  have i := hr.invariant
  have hnames := shows_names he i hx (by simpa using hn)
  have htg := shows_targets i hx (by simpa using hn) hp
  refine ⟨_, C57_display e h n x fuel he hx hfuel, ?_⟩
  have hchars := print_chars x hp hnames hw (attrsClean_chars hattr)
  have hcr : '\r' ∉ x.print := fun hm => (hchars _ hm).2 rfl
  unfold Reader.read
  rw [if_pos (fun c hc => (hchars c hc).1), endOfLine_clean hcr]
  have hcontent := content_read hp hnames htg hw hattr [] (Or.inl rfl) (x.print.length + 1) (by simp)
  rw [List.append_nil] at hcontent
  rw [hcontent]
  obtain ⟨nm, as, kids, rfl⟩ := shows_element ht hx
  rw [merge_element, Xml.merge]
  rfl

theorem plain_asRead {x : Xml} (hp : x.Plain) :
    x.merge.mapLeaves Spec.Leaf.asRead = x.merge := by
  refine merge_induction (P := fun x y => x.Plain → y.mapLeaves Spec.Leaf.asRead = y)
    (fun _ => rfl) ?_ ?_ ?_ ?_ ?_ ?_ x (plain_simple hp) hp
  · intro r h hp; exact h hp.2
  · intro r h hp; exact h hp.2
  · intro s t r m _ _ h hp
    have := h hp.2
    simp only [Xml.mapLeaves, Spec.Leaf.asRead, Xml.leaf.injEq, true_and] at this ⊢
    exact this
  · intro s r _ _ h hp
    simp only [Xml.mapLeaves, Spec.Leaf.asRead, Xml.leaf.injEq, true_and]
    exact h hp.2
  · intro l r hl h hp
    rcases hp.1 with ⟨s, rfl⟩ | rfl <;> exact hl.elim
  · intro n as k r hk hr hp
    simp only [Xml.mapLeaves]
    rw [hk hp.1, hr hp.2]

theorem plain_writable {x : Xml} (hp : x.Plain)
    (ht : x.Texts fun s => ∀ c ∈ s, Char10 c ∧ c ≠ '\r') : x.Leaves Spec.Leaf.Writable := by
  induction x with
  | nil => trivial
  | leaf l rest ih =>
    refine ⟨?_, ih hp.2 ht.2⟩
    rcases hp.1 with ⟨s, rfl⟩ | rfl
    · exact ht.1 s rfl
    · trivial
  | element n as kids rest ihk ihr => exact ⟨ihk hp.1 ht.1, ihr hp.2 ht.2⟩
  | docType _ _ _ _ _ _ _ _ => exact hp.elim
  | document _ _ _ _ _ _ _ => exact hp.elim
  | fragment _ _ _ _ _ => exact hp.elim

/-- C59: reading the text form of a tree of elements, attributes and text gives the tree with
adjacent texts joined. -/
def C59_full : Prop :=
  ∀ (e : Env) (h : Heap) (n : NodeId) (x : Xml) (fuel : Nat), e.Ok → Reachable h →
    h.live n = true → nodeType h n = .element → Shows e h [n] x → x.Plain →
    x.height + 1 ≤ fuel → ∃ s, fmtNode e h fuel n = .ok s ∧ Reader.read s = some x.merge

/-- A text with a carriage return. -/
def returnOps : List Op := [mkDoc, .createTextNode 0 (c! "\r"), .appendChild 1 2]

/-- C59 does not hold: a carriage return is written as it is and read as a line feed. -/
theorem C59_full_false : ¬ C59_full := by
  intro hf
  obtain ⟨s, h1, h2⟩ := hf plainEnv (after returnOps) 1
    (.element (c! "r") [] (.leaf (.text (c! "\r")) .nil) .nil) 3 plainEnv_ok (reachable_after _)
    (by decide) (by decide) (.element (n := 1) (by decide) .nil (.leaf (n := 2) (.text (by decide) (by decide)) .nil) .nil)
    ⟨⟨Or.inl ⟨_, rfl⟩, trivial⟩, trivial⟩ (by decide)
  have h3 : fmtNode plainEnv (after returnOps) 3 1 = .ok (c! "<r>\r</r>") := by decide
  rw [h3] at h1
  cases h1
  have h4 : Reader.read (c! "<r>\r</r>") =
      some (.element (c! "r") [] (.leaf (.text (c! "\n")) .nil) .nil) := by decide
  rw [h4] at h2
  have h5 : (Xml.element (c! "r") [] (.leaf (.text (c! "\r")) .nil) .nil).merge =
    .element (c! "r") [] (.leaf (.text (c! "\r")) .nil) .nil := by decide
  rw [h5] at h2
  injection h2 with h2
  injection h2 with _ _ h2 _
  injection h2 with h2 _
  injection h2 with h2
  exact absurd h2 (by decide)

/-- C59 (partial: the characters are allowed in XML, no text has a carriage return, no
attribute value a tab, line feed or carriage return, and the qualified names of the
attributes of an element are distinct). -/
theorem C59_round_trip_partial (e : Env) (h : Heap) (n : NodeId) (x : Xml) (fuel : Nat)
    (he : e.Ok) (hr : Reachable h) (hn : h.live n = true) (ht : nodeType h n = .element)
    (hx : Shows e h [n] x) (hp : x.Plain) (hfuel : x.height + 1 ≤ fuel)
    (htext : x.Texts fun s => ∀ c ∈ s, Char10 c ∧ c ≠ '\r')
    (hattr : x.AttrLists fun as => (as.map (·.1)).Nodup ∧
      ∀ a ∈ as, ∀ c ∈ a.2, Char10 c ∧ c ≠ '\r' ∧ c ≠ '\n' ∧ c ≠ '\t') :
    ∃ s, fmtNode e h fuel n = .ok s ∧ Reader.read s = some x.merge := by
  rw [← plain_asRead hp]
  exact element_read e h n x fuel he hr hn ht hx (plain_simple hp) hfuel
    (plain_writable hp htext) hattr

/-- A tree with adjacent texts and an attribute. -/
def tripOps : List Op :=
  [mkDoc, .setAttribute 1 (c! "a") (c! "x<y"), .createTextNode 0 (c! "1<2"),
    .createTextNode 0 (c! "&"), .createElement 0 (c! "s"), .appendChild 1 4, .appendChild 1 5,
    .appendChild 1 6]

/-- The hypotheses can be met. -/
example : ∃ x, Shows plainEnv (after tripOps) [1] x ∧ x.Plain ∧
    (x.Texts fun s => ∀ c ∈ s, Char10 c ∧ c ≠ '\r') ∧
    (x.AttrLists fun as => (as.map (·.1)).Nodup ∧
      ∀ a ∈ as, ∀ c ∈ a.2, Char10 c ∧ c ≠ '\r' ∧ c ≠ '\n' ∧ c ≠ '\t') ∧
    Reader.read x.print = some (.element (c! "r") [(c! "a", c! "x<y")]
      (.leaf (.text (c! "1<2&")) (.element (c! "s") [] .nil .nil)) .nil) :=
  ⟨.element (c! "r") [(c! "a", c! "x<y")]
      (.leaf (.text (c! "1<2")) (.leaf (.text (c! "&")) (.element (c! "s") [] .nil .nil))) .nil,
    .element (n := 1) (by decide) (.cons (a := 3) ⟨by decide, by decide, by decide⟩ .nil)
      (.leaf (n := 4) (.text (by decide) (by decide)) (.leaf (n := 5) (.text (by decide) (by decide))
        (.element (n := 6) (by decide) .nil .nil .nil))) .nil,
    ⟨⟨Or.inl ⟨_, rfl⟩, Or.inl ⟨_, rfl⟩, trivial, trivial⟩, trivial⟩,
    ⟨⟨(fun s hs => by cases hs; decide), (fun s hs => by cases hs; decide), trivial, trivial⟩,
      trivial⟩,
    ⟨by decide, ⟨by decide, trivial, trivial⟩, trivial⟩, by decide⟩

end Props
end XmlDom
