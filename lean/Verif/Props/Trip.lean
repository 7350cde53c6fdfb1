import Mathlib.Data.List.Perm.Subperm
import Mathlib.Data.List.Perm.Basic
import Verif.Spec.Trip
import Verif.Props.Attr
import Verif.Props.Serial
import Verif.Props.Reader
import Verif.Props.Access
import Verif.Props.Namespaces

/-!
# C92: reading and writing
-/

namespace XmlDom
namespace Props

open Spec

/-- An attribute that holds a value is written with the value it has. -/
theorem attrOf_held {e : Env} (he : e.Ok) {h : Heap} {d n b : NodeId} {k v : Str}
    (ha : AttrHeld h d n b k v) (hv : ∃ r, Normalizes v r) :
    ∃ w, ValueOf v w ∧ AttrOf e h b k w := by
  obtain ⟨t, h1, h2, h3⟩ := ha.value
  obtain ⟨r, hr⟩ := hv
  have hraw : attrRaw h b = v := by
    unfold attrRaw
    rw [show (h.get b).children = [t] from h1]
    simp only [List.flatMap_cons, List.flatMap_nil, List.append_nil]
    unfold attrChildText
    rw [show (h.get t).ntype = .text from h2, show (h.get t).value = some v from h3]
    rfl
  obtain ⟨w, h4, h5⟩ := attrValue_normalizes he.uni
    (by rw [show (h.get b).children = [t] from h1]; simp) hraw hr
  exact ⟨w, ⟨r, hr, h4⟩, ha.ntype, ha.name, Or.inl (by rw [h5, escape_eq_esc])⟩

theorem attrsOf_forall {e : Env} {h : Heap} {l : List NodeId} {as : List (Str × Str)}
    (ha : List.Forall₂ (fun b a => AttrOf e h b a.1 a.2) l as) : AttrsOf e h l as := by
  induction ha with
  | nil => exact .nil
  | cons h1 _ ih => exact .cons h1 ih

/-- What the reader holds shows a tree with the same content. -/
theorem held_shows {e : Env} (he : e.Ok) {h : Heap} {d p : NodeId} {ns : List NodeId} {x : Xml}
    (hx : Held e h d p ns x)
    (ha : x.AttrLists fun as => (as.map (·.1)).Nodup ∧ ∀ a ∈ as, ∃ r, Normalizes a.2 r) :
    ∃ y, x.Like y ∧ Shows e h ns y := by
  induction hx with
  | nil => exact ⟨.nil, .nil, .nil⟩
  | leaf hl _ _ _ _ ih =>
    obtain ⟨y, h1, h2⟩ := ih ha
    exact ⟨_, .leaf h1, .leaf hl h2⟩
  | @element p n ns name as kids rest ht hn _ _ hl hat _ _ ihk ihr =>
    obtain ⟨⟨hnd, hv⟩, hak, har⟩ := ha
    obtain ⟨yk, k1, k2⟩ := ihk hak
    obtain ⟨yr, r1, r2⟩ := ihr har
    -- the entries, in the order of the document
    have key : ∀ bs : List (Str × Str), (∀ a ∈ bs, a ∈ as) →
        ∃ L : List (Name × NodeId), List.Forall₂ (fun a (kb : Name × NodeId) =>
          kb ∈ attributes h n ∧ kb.1.display = a.1 ∧ AttrHeld h d n kb.2 a.1 a.2) bs L := by
      intro bs
      induction bs with
      | nil => intro _; exact ⟨[], .nil⟩
      | cons a bs ih =>
        intro hb
        obtain ⟨L, hL⟩ := ih fun a ha => hb a (by simp [ha])
        obtain ⟨k, b, m1, m2, m3⟩ := hat a (hb a (by simp))
        exact ⟨(k, b) :: L, .cons ⟨m1, m2, m3⟩ hL⟩
    obtain ⟨L, hL⟩ := key as fun _ h => h
    have hnames : L.map (fun kb => kb.1.display) = as.map (·.1) := by
      clear hnd hv hl hat key
      induction hL with
      | nil => rfl
      | cons h1 _ ih => simp [h1.2.1, ih]
    have hLn : L.Nodup := 
      List.Pairwise.of_map (S := (· ≠ ·)) (fun kb : Name × NodeId => kb.1.display)
        (fun _ _ h he => h (congrArg (fun kb : Name × NodeId => kb.1.display) he)) (by rw [hnames]; exact hnd)
    have hLs : L ⊆ attributes h n := by
      clear hnd hv hl hat key hnames hLn
      intro kb hkb
      induction hL with
      | nil => cases hkb
      | cons h1 _ ih =>
        rcases List.mem_cons.mp hkb with rfl | hkb
        · exact h1.1
        · exact ih hkb
    have hperm : L.Perm (attributes h n) := by
      refine (List.subperm_of_subset hLn hLs).perm_of_length_le ?_
      exact Nat.le_of_eq (hl.trans hL.length_eq)
    have hord : (e.attrOrder n (attributes h n)).Perm L := (he.attrOrder n _).trans hperm.symm
    obtain ⟨bs, q1, q2⟩ := List.perm_comp_forall₂ hord hL.flip
    have hvals : ∃ cs, List.Forall₂ SameAttr bs cs ∧
        List.Forall₂ (fun b a => AttrOf e h b a.1 a.2)
          ((e.attrOrder n (attributes h n)).map (·.2)) cs := by
      have hbs : ∀ a ∈ bs, ∃ r, Normalizes a.2 r := fun a ha => hv a (q2.mem_iff.mp ha)
      generalize e.attrOrder n (attributes h n) = M at q1
      clear q2 hord
      induction q1 with
      | nil => exact ⟨[], .nil, .nil⟩
      | @cons kb a _ _ h1 _ ih =>
        obtain ⟨cs, c1, c2⟩ := ih fun a ha => hbs a (by simp [ha])
        obtain ⟨w, w1, w2⟩ := attrOf_held he h1.2.2 (hbs a (by simp))
        exact ⟨(a.1, w) :: cs, .cons ⟨rfl, w1⟩ c1, .cons w2 c2⟩
    obtain ⟨cs, c1, c2⟩ := hvals
    refine ⟨.element name cs yk yr, .element q2 c1 k1 r1, ?_⟩
    rw [← hn]
    exact .element ht (attrsOf_forall c2) k2 r2

theorem _root_.XmlDom.Spec.Xml.Like.plain {x y : Xml} (hl : x.Like y) (hx : x.Plain) : y.Plain := by
  induction hl with
  | nil => trivial
  | leaf _ ih => exact ⟨hx.1, ih hx.2⟩
  | element _ _ _ _ ihk ihr => exact ⟨ihk hx.1, ihr hx.2⟩

theorem _root_.XmlDom.Spec.Xml.Like.texts {x y : Xml} (hl : x.Like y) {p : Str → Prop} (hx : x.Texts p) :
    y.Texts p := by
  induction hl with
  | nil => trivial
  | leaf _ ih => exact ⟨hx.1, ih hx.2⟩
  | element _ _ _ _ ihk ihr => exact ⟨ihk hx.1, ihr hx.2⟩

theorem _root_.XmlDom.Spec.Xml.Like.attrLists {x y : Xml} (hl : x.Like y) {p q : List (Str × Str) → Prop}
    (hpq : ∀ as bs cs, bs.Perm as → List.Forall₂ SameAttr bs cs → p as → q cs)
    (hx : x.AttrLists p) : y.AttrLists q := by
  induction hl with
  | nil => trivial
  | leaf _ ih => exact ih hx
  | element h1 h2 _ _ ihk ihr => exact ⟨hpq _ _ _ h1 h2 hx.1, ihk hx.2.1, ihr hx.2.2⟩

theorem sameAttr_names {bs cs : List (Str × Str)} (h : List.Forall₂ SameAttr bs cs) :
    cs.map (·.1) = bs.map (·.1) := by
  induction h with
  | nil => rfl
  | cons h1 _ ih => simp [h1.1, ih]

theorem sameAttr_mem {bs cs : List (Str × Str)} (h : List.Forall₂ SameAttr bs cs) {c : Str × Str}
    (hc : c ∈ cs) : ∃ b ∈ bs, SameAttr b c := by
  induction h with
  | nil => cases hc
  | cons h1 _ ih =>
    rcases List.mem_cons.mp hc with rfl | hc
    · exact ⟨_, by simp, h1⟩
    · obtain ⟨b, hb, hs⟩ := ih hc
      exact ⟨b, by simp [hb], hs⟩

theorem attrLists_and {p q : List (Str × Str) → Prop} (z : Xml) (hp : z.AttrLists p)
    (hq : z.AttrLists q) : z.AttrLists fun as => p as ∧ q as := by
  induction z with
  | nil => trivial
  | leaf _ _ ih => exact ih hp hq
  | element _ _ _ _ ihk ihr => exact ⟨⟨hp.1, hq.1⟩, ihk hp.2.1 hq.2.1, ihr hp.2.2 hq.2.2⟩
  | docType _ _ _ _ _ _ ih1 ih2 => exact ⟨ih1 hp.1 hq.1, ih2 hp.2 hq.2⟩
  | document _ _ _ _ ih1 ih2 ih3 =>
    exact ⟨ih1 hp.1 hq.1, ih2 hp.2.1 hq.2.1, ih3 hp.2.2 hq.2.2⟩
  | fragment _ _ _ ih1 ih2 => exact ⟨ih1 hp.1 hq.1, ih2 hp.2 hq.2⟩

/-- C92: the document read from the events of a well-formed document is written as its
declaration and content. -/
def C92_full : Prop :=
  ∀ (e : Env) (h : Heap) (decl : Option XmlDecl) (x : Xml) (evs : List Event), e.Ok →
    WellFormed x → DocumentEvents PiText decl x evs →
    ∃ d h' y fuel, readXml e h evs = (.ok d, h') ∧ x.Like y ∧
      fmtNode e h' fuel d = .ok (declText decl ++ y.print)

/-- C92 does not hold: some documents cannot be read at all, see C62. -/
theorem C92_full_false : ¬ C92_full := by
  intro hf
  have hev : DocumentEvents PiText none tabDoc [.pi (some (c! "a\tb")), .empty (some (c! "r")) []] := by
    refine ⟨[], _, [], .none, .pi (d := some (c! "b")) ?_ (.empty (as := []) .nil), Or.inl rfl, rfl⟩
    exact PiText.data (t := c! "a") (w := []) (d := []) (c := '\t') (x := 'b') (by decide)
      (by decide) (by simp) (by decide)
  obtain ⟨d, h', y, fuel, h1, _⟩ := hf plainEnv Heap.empty none tabDoc _ plainEnv_ok
    tabDoc_wellFormed hev
  have h3 : (readXml plainEnv Heap.empty [.pi (some (c! "a\tb")), .empty (some (c! "r")) []]).1 ≠
      .ok 0 ∧ (readXml plainEnv Heap.empty
        [.pi (some (c! "a\tb")), .empty (some (c! "r")) []]).1.IsOk = False := by
    decide
  rw [h1] at h3
  simp at h3

/-- C92 (partial: with the conditions of `C62_builds_partial`, and attribute values that
normalize): writing the document that was read gives its declaration and its content, with
the attributes of each element in some order and with the values they have. -/
theorem C92_written_partial (e : Env) (h : Heap) (decl : Option XmlDecl) (x : Xml)
    (evs : List Event) (he : e.Ok) (hx : WellFormed x) (ha : x.Named AsciiParts AsciiStart)
    (hn : x.ids.Nodup) (hid : ∀ v ∈ x.ids, IsNcName v)
    (hev : DocumentEvents (PiTame e.uni) decl x evs)
    (hv : x.AttrLists fun as => ∀ a ∈ as, ∃ r, Normalizes a.2 r) :
    ∃ d h' y, readXml e h evs = (.ok d, h') ∧ x.Like y ∧
      ∀ fuel, y.height + 2 ≤ fuel → fmtNode e h' fuel d = .ok (declText decl ++ y.print) := by
  obtain ⟨h', h1, h2⟩ := C62_builds_partial e h decl x evs he hx ha hn hid hev
  have hboth : x.AttrLists fun as => (as.map (·.1)).Nodup ∧ ∀ a ∈ as, ∃ r, Normalizes a.2 r :=
    attrLists_and x hx.attrs hv
  obtain ⟨y, hy, hs⟩ := held_shows he h2.content hboth
  refine ⟨h.next, h', y, h1, hy, fun fuel hfuel => ?_⟩
  have hsd : Shows e h' [h.next] (.document (xmlDeclaration h' h.next) .nil y .nil) :=
    .document h2.ntype (by rw [h2.docType]; exact .nil) hs .nil
  rw [h2.decl] at hsd
  rw [C57_display e h' h.next _ fuel he hsd (by simp only [Xml.height]; omega)]
  cases decl <;> simp [Xml.print, declText]

/-- C92 (partial: as above, for documents of elements, attributes and text, with characters
that the text form keeps): what is written for the root of the document that was read is read
by the reference reader as the same content, adjacent texts joined. -/
theorem C92_read_back_partial (e : Env) (h : Heap) (hr : Reachable h) (decl : Option XmlDecl)
    (x : Xml) (evs : List Event) (he : e.Ok) (hx : WellFormed x)
    (ha : x.Named AsciiParts AsciiStart)
    (hn : x.ids.Nodup) (hid : ∀ v ∈ x.ids, IsNcName v)
    (hev : DocumentEvents (PiTame e.uni) decl x evs) (hp : x.Plain)
    (htext : x.Texts fun s => ∀ c ∈ s, Char10 c ∧ c ≠ '\r')
    (hv : x.AttrLists fun as => ∀ a ∈ as, (∃ r, Normalizes a.2 r) ∧
      ∀ w, ValueOf a.2 w → ∀ c ∈ w, Char10 c ∧ c ≠ '\r' ∧ c ≠ '\n' ∧ c ≠ '\t') :
    ∃ d h' r y, readXml e h evs = (.ok d, h') ∧ childNodes h' d = [r] ∧ x.Like y ∧
      ∀ fuel, y.height + 1 ≤ fuel → ∃ s, fmtNode e h' fuel r = .ok s ∧
        Reader.read s = some y.merge := by
  obtain ⟨h', h1, h2⟩ := C62_builds_partial e h decl x evs he hx ha hn hid hev
  have hr' : Reachable h' := by
    have := Reachable.run hr (ops := [(e, .readXml evs)])
      (by intro x hx; cases List.mem_singleton.mp hx; exact he)
    simpa [run, exec, Op.args, Op.apply, h1, leftBehind] using this
  obtain ⟨nm, as, kids, rfl⟩ : ∃ nm as kids, x = .element nm as kids .nil := by
    have ho := hx.outer
    have hroot := hx.root
    cases x with
    | nil => cases hroot
    | leaf l rest =>
      exfalso
      rcases hp.1 with ⟨s, rfl⟩ | rfl
      · rcases ho.1 with ⟨_, q⟩ | ⟨_, _, q⟩ <;> cases q
      · rcases ho.1 with ⟨_, q⟩ | ⟨_, _, q⟩ <;> cases q
    | element nm as kids rest =>
      cases rest with
      | nil => exact ⟨nm, as, kids, rfl⟩
      | leaf l r =>
        exfalso
        rcases hp.2.1 with ⟨s, rfl⟩ | rfl
        · rcases ho.1 with ⟨_, q⟩ | ⟨_, _, q⟩ <;> cases q
        · rcases ho.1 with ⟨_, q⟩ | ⟨_, _, q⟩ <;> cases q
      | element _ _ _ _ => simp [Xml.roots] at hroot
      | docType _ _ _ _ _ _ => exact ho.elim
      | document _ _ _ _ => exact ho.elim
      | fragment _ _ _ => exact ho.elim
    | docType _ _ _ _ _ _ => exact ho.elim
    | document _ _ _ _ => exact ho.elim
    | fragment _ _ _ => exact ho.elim
  have hboth : (Xml.element nm as kids .nil).AttrLists fun as => (as.map (·.1)).Nodup ∧
      ∀ a ∈ as, (∃ r, Normalizes a.2 r) ∧
        ∀ w, ValueOf a.2 w → ∀ c ∈ w, Char10 c ∧ c ≠ '\r' ∧ c ≠ '\n' ∧ c ≠ '\t' :=
    attrLists_and _ hx.attrs hv
  obtain ⟨y, hy, hs⟩ := held_shows he h2.content
    (hboth.mono fun as q => ⟨q.1, fun a ha => (q.2 a ha).1⟩)
  obtain ⟨r, hc, hrt⟩ : ∃ r, childNodes h' h.next = [r] ∧ nodeType h' r = .element := by
    generalize hq : childNodes h' h.next = l
    have hc := h2.content
    rw [hq] at hc
    cases hc with
    | element ht _ _ _ _ _ _ hr => cases hr; exact ⟨_, rfl, ht⟩
  have hrl : h'.live r = true := by
    have : h'.live h.next = true := (C63_document e h h' evs _ h1).2.1
    exact hr'.wf.child this (by rw [show (h'.get h.next).children = [r] from hc]; simp)
  rw [hc] at hs
  refine ⟨h.next, h', r, y, h1, hc, hy, fun fuel hfuel => ?_⟩
  refine C59_round_trip_partial e h' r y fuel he hr' hrl hrt hs (hy.plain hp) hfuel
    (hy.texts htext) (hy.attrLists ?_ hboth)
  intro as bs cs q1 q2 q3
  refine ⟨?_, ?_⟩
  · rw [sameAttr_names q2]
    exact (q1.map _).nodup_iff.mpr q3.1
  · intro c hc
    obtain ⟨b, hb, hs⟩ := sameAttr_mem q2 hc
    exact (q3.2 b (q1.mem_iff.mp hb)).2 _ hs.2

/-- A document that meets the hypotheses. -/
def tripDoc : Xml :=
  .element (c! "r") [(c! "a", c! "u")] (.leaf (.text (c! "1<2")) .nil) .nil

/-- Its events. -/
def tripEvents : List Event :=
  [.start (some (c! "r")) [.good (c! "a") (c! "u")], .text (some (c! "1<2")), .close, .eof]

theorem valueOf_plain {v w : Str} (hp : PlainUri v) (h : ValueOf v w) : w = v := by
  obtain ⟨r, ⟨hpc, m, h1, h2⟩, h3⟩ := h
  clear hpc
  have hno : ∀ c, c ∈ (c! "&'><\"% \t\n\r\u0085\u2028") → c ∉ v := fun c hc hcv => hp c hcv hc
  rw [C34_spec, normalizeEol_clean (hno _ (by decide)) (hno _ (by decide)) (hno _ (by decide))] at h1
  subst h1
  have hr : r = v := by
    clear h3 hno
    induction h2 with
    | nil => rfl
    | dec _ _ _ _ _ _ _ => exact absurd (by decide) (hp '&' (by simp))
    | hex _ _ _ _ _ _ _ => exact absurd (by decide) (hp '&' (by simp))
    | space c _ _ h _ _ =>
      have := hp c (by simp)
      rcases h with rfl | rfl | rfl | rfl <;> exact absurd (by decide) this
    | other c t s _ _ ih => rw [ih fun d hd => hp d (by simp [hd])]
  subst hr
  exact hp.normalizes.2.2 w h3

/-- The hypotheses can be met. -/
example : ∃ d h' r y, readXml plainEnv Heap.empty tripEvents = (.ok d, h') ∧
    childNodes h' d = [r] ∧ tripDoc.Like y ∧
    ∀ fuel, y.height + 1 ≤ fuel → ∃ s, fmtNode plainEnv h' fuel r = .ok s ∧
      Reader.read s = some y.merge := by
  have hq : IsQName (c! "r") ∧ IsQName (c! "a") :=
    ⟨qname (n := ⟨none, none, c! "r"⟩) (by decide), qname (n := ⟨none, none, c! "a"⟩) (by decide)⟩
  have hsingle : ∀ {P : Str × Str → Prop}, P (c! "a", c! "u") → ∀ a ∈ [(c! "a", c! "u")], P a := by
    intro P h a ha
    cases List.mem_singleton.mp ha
    exact h
  refine C92_read_back_partial plainEnv Heap.empty ⟨[], by simp, rfl⟩ none tripDoc tripEvents
    plainEnv_ok ⟨trivial, rfl, ⟨hq.1, hsingle hq.2, ⟨?_, trivial⟩, trivial⟩,
      ⟨by decide, trivial, trivial⟩⟩
    ⟨Or.inl ⟨asciiStart_cons (by decide), by decide⟩,
      hsingle (Or.inl ⟨asciiStart_cons (by decide), by decide⟩), ⟨?_, trivial⟩, trivial⟩
    (by decide) (fun v hv => by cases hv) ⟨[], _, [.eof], .none, .element (.text .nil) .nil,
      Or.inr ⟨[], rfl⟩, rfl⟩
    ⟨⟨Or.inl ⟨_, rfl⟩, trivial⟩, trivial⟩
    ⟨⟨fun s hs => by cases hs; decide, trivial⟩, trivial⟩
    ⟨hsingle ⟨⟨_, plain_u.normalizes.1⟩, fun w hw => ?_⟩, trivial, trivial⟩
  · intro t d h; cases h
  · intro t d h; cases h
  · rw [valueOf_plain plain_u hw]; decide

end Props
end XmlDom
