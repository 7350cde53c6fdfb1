import Verif.Lemmas.Stream
import Verif.Lemmas.Witness

/-!
# C109: the reader on any stream of events

`Spec.Means` says for every stream what the reader makes of it. From it follow the exact
conditions under which the reader panics (C65) and reports an error (C64), and with the values of
attributes the exact condition under which reading one panics (C36).
-/

namespace XmlDom
namespace Props
open Spec

/-! ## Names and values -/

/-- C27: what parsing a name says, for every string: accepted, refused with this error, or a
panic. -/
theorem C27_verdict (s : Str) : (∃ o, NameSays s o) ∧
    (NameSays s .accept ↔ ∃ nm, Name.fromStr s = .ok nm) ∧
    (∀ er, NameSays s (.refuse er) ↔ Name.fromStr s = .err er) ∧
    (NameSays s .crash ↔ (Name.fromStr s).Panics) := by
  obtain ⟨o, ho⟩ := nameSays_total s
  have h1 := nameSays ho
  refine ⟨⟨o, ho⟩, ⟨nameSays, ?_⟩, fun er => ⟨nameSays, ?_⟩, ⟨?_, ?_⟩⟩
  · rintro ⟨nm, h2⟩
    cases o with
    | accept => exact ho
    | refuse er => have h1 : Name.fromStr s = .err er := h1; rw [h2] at h1; cases h1
    | crash => obtain ⟨k, h1⟩ := h1; rw [h2] at h1; cases h1
  · intro h2
    cases o with
    | accept => obtain ⟨k, h1⟩ := h1; rw [h2] at h1; cases h1
    | refuse er' =>
      have h1 : Name.fromStr s = .err er' := h1
      rw [h2] at h1
      cases h1
      exact ho
    | crash => obtain ⟨k, h1⟩ := h1; rw [h2] at h1; cases h1
  · intro h
    obtain ⟨k, h2⟩ := nameSays h
    rw [h2]; trivial
  · intro h
    cases o with
    | accept => obtain ⟨k, h1⟩ := h1; rw [h1] at h; exact h.elim
    | refuse er => have h1 : Name.fromStr s = .err er := h1; rw [h1] at h; exact h.elim
    | crash => exact ho

example : NameSays (c! "a:") (.refuse .syntax) ∧ NameSays (c! "é") .crash :=
  ⟨(C27_verdict _).2.2.1 _ |>.mpr (by decide), (C27_verdict _).2.2.2.mpr (by decide)⟩

/-- C36: reading an attribute whose children say `s`, for every `s`: the value, or a panic. -/
theorem C36_exact (u : Uni) (hu : u.Ascii) (h : Heap) (a : NodeId) (s : Str)
    (hc : childNodes h a ≠ []) (hs : RawText h (childNodes h a) s) :
    (∃ r, ValueSays u s r) ∧
    (∀ w, ValueSays u s (some w) ↔ attrValue u h a = .ok (some w)) ∧
    (ValueSays u s none ↔ (attrValue u h a).Panics) := by
  have hraw : attrRaw h a = s := (rawText_iff h a s).mp hs
  have gives : ∀ {r}, ValueSays u s r → ReadsAs (attrValue u h a) r := fun hr =>
    attrValue_gives hu hc hraw hr
  obtain ⟨r, hr⟩ := valueOf_total u s
  have hg := gives hr
  refine ⟨⟨r, hr⟩, fun w => ⟨fun h => gives h, fun h1 => ?_⟩, ⟨fun h => gives h, fun h1 => ?_⟩⟩
  · cases r with
    | none => rw [h1] at hg; exact hg.elim
    | some w' =>
      have hg : attrValue u h a = .ok (some w') := hg
      rw [h1] at hg
      cases hg
      exact hr
  · cases r with
    | none => exact hr
    | some w' =>
      have hg : attrValue u h a = .ok (some w') := hg
      rw [hg] at h1
      exact h1.elim

/-- A value that is no text of a value in XML and is read all the same. -/
example : ValueSays asciiUni (c! "a&b %c; ") none ∧
    ValueSays asciiUni (c! " a&b&#x41;") (some (c! "a&#38;bA")) := by
  constructor
  · refine .crash (m := c! "a&b %c; ") ?_ ?_
    · repeat' first | exact .nil | refine .other _ _ _ ?_ (by decide) (by decide) (by decide)
    · have hn : ∀ (c : Char) (t : Str), c ≠ '&' → c ≠ '%' → ¬ RefStart asciiUni (c :: t) := by
        intro c t h1 h2 h
        cases h with
        | entity ha _ _ => rcases ha with rfl | rfl <;> contradiction
        | dec => exact h1 rfl
        | hex => exact h1 rfl
      refine .other (r := none) (by decide) (hn _ _ (by decide) (by decide)) ?_
      refine .other (r := none) (by decide) ?_ ?_
      · intro h
        generalize ht : (c! "&b %c; ") = t at h
        have ht' : t = c! "&b %c; " := ht.symm
        cases h with
        | @entity a b cs t ha hb hcs =>
          cases cs with
          | nil => exact absurd ht' (by simp)
          | cons x cs =>
            simp only [List.cons_append, List.cons.injEq] at ht'
            have := hcs x (by simp)
            rw [ht'.2.2.1] at this
            exact absurd this (by unfold RefChar; decide)
        | dec => simp at ht'
        | hex => simp at ht'
      · refine .other (r := none) (by decide) (hn _ _ (by decide) (by decide)) ?_
        refine .other (r := none) (by decide) (hn _ _ (by decide) (by decide)) ?_
        exact .entity (cs := []) (t := c! " ") (Or.inr rfl) (Or.inl (by decide)) (by simp)
  · have h : attrValue asciiUni
        (after [mkDoc, .createAttributeWith 0 (c! "k") (c! " a&b&#x41;")]) 3 =
          .ok (some (c! "a&#38;bA")) := by decide
    exact ((C36_exact asciiUni asciiUni_ascii (after [mkDoc, .createAttributeWith 0 (c! "k")
      (c! " a&b&#x41;")]) 3 (c! " a&b&#x41;") (by decide)
      ((rawText_iff _ _ _).mpr (by decide))).2.1 _).mpr h

/-! ## C109 -/

/-- C109: every stream of events has a meaning, and the reader does what it says: it returns a new
document with this declaration and content, it returns this error, or it panics. -/
theorem C109_reader (e : Env) (he : e.Ok) (h : Heap) (evs : List Event) :
    (∃ x dc o, Means e.uni evs x dc o) ∧ ∀ x dc o, Means e.uni evs x dc o →
      (o = .accept → (readXml e h evs).1 = .ok h.next ∧
        IsDocument e (readXml e h evs).2 h.next dc x) ∧
      (∀ er, o = .refuse er → (readXml e h evs).1 = .err er) ∧
      (o = .crash → (readXml e h evs).1.Panics) := by
  refine ⟨whole_total e.uni evs.length evs (Nat.le_refl _) _ _ _, ?_⟩
  intro x dc o hm
  obtain ⟨q1, q2⟩ := readXml_says he.uni h hm
  refine ⟨?_, ?_, ?_⟩
  · rintro rfl; exact ⟨q1.accept, q2 rfl⟩
  · rintro er rfl; exact q1.refuse
  · rintro rfl
    obtain ⟨k, hk⟩ := q1.crash
    rw [hk]; trivial

/-- C109: the stream alone decides whether the reader returns a document, which error it returns
and whether it panics. -/
theorem C109_outcome (e : Env) (he : e.Ok) (h : Heap) (evs : List Event) :
    ((∃ d, (readXml e h evs).1 = .ok d) ↔ ∃ x dc, Means e.uni evs x dc .accept) ∧
    (∀ er, (readXml e h evs).1 = .err er ↔ ∃ x dc, Means e.uni evs x dc (.refuse er)) ∧
    ((readXml e h evs).1.Panics ↔ ∃ x dc, Means e.uni evs x dc .crash) := by
  obtain ⟨⟨x, dc, o, hm⟩, hall⟩ := C109_reader e he h evs
  refine ⟨⟨?_, ?_⟩, fun er => ⟨?_, ?_⟩, ⟨?_, ?_⟩⟩
  · rintro ⟨d, hd⟩
    cases o with
    | accept => exact ⟨x, dc, hm⟩
    | refuse er => have := (hall _ _ _ hm).2.1 er rfl; rw [hd] at this; cases this
    | crash => have := (hall _ _ _ hm).2.2 rfl; rw [hd] at this; exact this.elim
  · rintro ⟨x, dc, hm⟩; exact ⟨_, ((hall _ _ _ hm).1 rfl).1⟩
  · intro hd
    cases o with
    | accept => have := ((hall _ _ _ hm).1 rfl).1; rw [hd] at this; cases this
    | refuse er' =>
      have := (hall _ _ _ hm).2.1 er' rfl
      rw [hd] at this
      cases this
      exact ⟨x, dc, hm⟩
    | crash => have := (hall _ _ _ hm).2.2 rfl; rw [hd] at this; exact this.elim
  · rintro ⟨x, dc, hm⟩; exact (hall _ _ _ hm).2.1 er rfl
  · intro hd
    cases o with
    | accept => have := ((hall _ _ _ hm).1 rfl).1; rw [this] at hd; exact hd.elim
    | refuse er => have := (hall _ _ _ hm).2.1 er rfl; rw [this] at hd; exact hd.elim
    | crash => exact ⟨x, dc, hm⟩
  · rintro ⟨x, dc, hm⟩; exact (hall _ _ _ hm).2.2 rfl

/-- C64: the reader reports an error exactly for the streams whose meaning is that error. -/
theorem C64_exact (e : Env) (he : e.Ok) (h : Heap) (evs : List Event) (er : DomError) :
    (readXml e h evs).1 = .err er ↔ ∃ x dc, Means e.uni evs x dc (.refuse er) :=
  (C109_outcome e he h evs).2.1 er

/-- C65: the reader panics exactly for the streams whose meaning is a panic. -/
theorem C65_exact (e : Env) (he : e.Ok) (h : Heap) (evs : List Event) :
    (readXml e h evs).1.Panics ↔ ∃ x dc, Means e.uni evs x dc .crash :=
  (C109_outcome e he h evs).2.2

theorem accepts {s : Str} {nm : Name} (h : Name.fromStr s = .ok nm) : NameSays s .accept :=
  (C27_verdict s).2.1.mpr ⟨nm, h⟩

/-- `<r><a k="1" k="2"/>x` and the end: the document is returned with what was read so far. -/
example : Means asciiUni [.start (some (c! "r")) [], .empty (some (c! "a"))
    [.good (c! "k") (c! "1"), .good (c! "k") (c! "2")], .text (some (c! "x")), .eof,
    .comment (some (c! "y"))]
    (.element (c! "r") [] (.element (c! "a") [(c! "k", c! "2")] .nil (.leaf (.text (c! "x")) .nil))
      (.leaf (.comment (c! "y")) .nil)) none .accept := by
  have hr : NameSays (c! "r") .accept := accepts (nm := ⟨none, none, c! "r"⟩) (by decide)
  have ha : NameSays (c! "a") .accept := accepts (nm := ⟨none, none, c! "a"⟩) (by decide)
  have hk : NameSays (c! "k") .accept := accepts (nm := ⟨none, none, c! "k"⟩) (by decide)
  refine .element (o' := .refuse .syntax) hr .done (.empty ha (.plain hk (by decide)
    (.plain hk (by decide) .done)) (.leaf .text (.breaks .eof))) (by decide) ?_
  exact .leaf .comment nofun .nil

/-- Two elements at the top, and a name that panics. -/
example : Means asciiUni [.empty (some (c! "r")) [], .empty (some (c! "s")) []]
      (.element (c! "r") [] .nil .nil) none (.refuse .hierarchyRequest) ∧
    Means asciiUni [.empty (some (c! "1")) []] .nil none .crash :=
  ⟨.empty (accepts (nm := ⟨none, none, c! "r"⟩) (by decide)) .done
    (.second (Or.inr rfl) (accepts (nm := ⟨none, none, c! "s"⟩) (by decide))),
   .badName (o := .refuse .invalidCharacter) (Or.inr rfl)
    ((C27_verdict _).2.2.1 _ |>.mpr (by decide)) (by decide)⟩

/-! ## What follows for the document -/

theorem whole_outer {u : Uni} {dc dc' : Option XmlDecl} {b : Bool} {ids : List Str}
    {evs : List Event} {x : Xml} {o : Verdict} (hw : Whole u dc b ids evs x dc' o) :
    x.Outer ∧ x.roots ≤ (if b then 0 else 1) := by
  induction hw with
  | nil => exact ⟨trivial, Nat.zero_le _⟩
  | eof => exact ⟨trivial, Nat.zero_le _⟩
  | stops => exact ⟨trivial, Nat.zero_le _⟩
  | close _ ih => exact ih
  | decl _ _ ih => exact ih
  | badDecl => exact ⟨trivial, Nat.zero_le _⟩
  | secondDecl => exact ⟨trivial, Nat.zero_le _⟩
  | leaf hl hs _ ih =>
    refine ⟨⟨?_, ih.1⟩, ih.2⟩
    cases hl with
    | text => exact absurd .text hs
    | cdata => exact absurd .cdata hs
    | comment => exact Or.inl ⟨_, rfl⟩
    | pi => exact Or.inr ⟨_, _, rfl⟩
  | badPi => exact ⟨trivial, Nat.zero_le _⟩
  | badName => exact ⟨trivial, Nat.zero_le _⟩
  | second => exact ⟨trivial, Nat.zero_le _⟩
  | badAttrs => exact ⟨trivial, Nat.le_refl _⟩
  | empty _ _ _ ih => exact ⟨ih.1, Nat.succ_le_succ ih.2⟩
  | crashed => exact ⟨trivial, Nat.le_refl _⟩
  | element _ _ _ _ _ ih => exact ⟨ih.1, Nat.succ_le_succ ih.2⟩

/-- C109: whatever the events, a document that the reader returns has at its top only comments,
processing instructions and at most one element. -/
theorem C109_shape (e : Env) (he : e.Ok) (h : Heap) (evs : List Event) (d : NodeId)
    (hd : (readXml e h evs).1 = .ok d) :
    ∃ dc x, IsDocument e (readXml e h evs).2 d dc x ∧ x.Outer ∧ x.roots ≤ 1 := by
  obtain ⟨x, dc, hm⟩ := (C109_outcome e he h evs).1.mp ⟨d, hd⟩
  obtain ⟨h1, h2⟩ := ((C109_reader e he h evs).2 x dc _ hm).1 rfl
  rw [hd] at h1
  cases h1
  exact ⟨dc, x, h2, (whole_outer hm).1, (whole_outer hm).2⟩

end Props
end XmlDom
