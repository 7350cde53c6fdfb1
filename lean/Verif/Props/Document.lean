import Verif.Lemmas.DocTrip
import Verif.Props.Trip

/-!
# C102, C103: the text form of elements and documents is read back
-/

namespace XmlDom
namespace Props

open Spec

instance (s : Str) : Decidable (Clean s) := by unfold Clean; infer_instance

instance (c : Char) : Decidable (Predefined c) := by unfold Predefined; infer_instance

/-! ## C102 -/

/-- C102: reading the text form of an element of elements, text, comments, CDATA sections and
processing instructions that XML has a form for gives the tree, with adjacent texts joined. -/
def C102_full : Prop :=
  ∀ (e : Env) (h : Heap) (n : NodeId) (x : Xml) (fuel : Nat), e.Ok → Reachable h →
    h.live n = true → nodeType h n = .element → Shows e h [n] x → x.Simple →
    x.Leaves Spec.Leaf.Writable → x.AttrLists AttrsClean → x.height + 1 ≤ fuel →
    ∃ s, fmtNode e h fuel n = .ok s ∧ Reader.read s = some x.merge

/-- An element with a CDATA section. -/
def cdataOps : List Op := [mkDoc, .createCdataSection 0 (c! "a"), .appendChild 1 2]

/-- Its tree. -/
def cdataXml : Xml := .element (c! "r") [] (.leaf (.cdata (c! "a")) .nil) .nil

theorem cdata_shows : Shows plainEnv (after cdataOps) [1] cdataXml :=
  .element (n := 1) (by decide) .nil (.leaf (n := 2) (.cdata (by decide) (by decide)) .nil) .nil

/-- C102 does not hold: a CDATA section is read with a space more on either side. -/
theorem C102_full_false : ¬ C102_full := by
  intro hf
  obtain ⟨s, h1, h2⟩ := hf plainEnv (after cdataOps) 1 cdataXml 3 plainEnv_ok (reachable_after _)
    (by decide) (by decide) cdata_shows ⟨⟨trivial, trivial⟩, trivial⟩
    ⟨⟨⟨by decide, by decide⟩, trivial⟩, trivial⟩ ⟨⟨by decide, by decide⟩, trivial, trivial⟩ (by decide)
  have h3 : fmtNode plainEnv (after cdataOps) 3 1 = .ok (c! "<r><![CDATA[ a ]]></r>") := by decide
  rw [h3] at h1
  cases h1
  have h4 : Reader.read (c! "<r><![CDATA[ a ]]></r>") =
      some (.element (c! "r") [] (.leaf (.cdata (c! " a ")) .nil) .nil) := by decide
  rw [h4] at h2
  exact absurd h2 (by decide)

/-- C102 (partial: up to what `Leaf.asRead` says): the text form is read as the tree with
escaped comments, spaces around CDATA sections and without white space in front of the data of
processing instructions. -/
theorem C102_content_partial (e : Env) (h : Heap) (n : NodeId) (x : Xml) (fuel : Nat) (he : e.Ok)
    (hr : Reachable h) (hn : h.live n = true) (ht : nodeType h n = .element)
    (hx : Shows e h [n] x) (hp : x.Simple) (hw : x.Leaves Spec.Leaf.Writable)
    (ha : x.AttrLists AttrsClean) (hfuel : x.height + 1 ≤ fuel) :
    ∃ s, fmtNode e h fuel n = .ok s ∧
      Reader.read s = some (x.merge.mapLeaves Spec.Leaf.asRead) :=
  element_read e h n x fuel he hr hn ht hx hp hfuel hw ha

/-- A leaf that is written as it is: not a CDATA section, no character of a comment is
escaped, and the data of a processing instruction start with something else than white
space. -/
def AsIs : Spec.Leaf → Prop
  | .comment s => ∀ c ∈ s, ¬ Predefined c
  | .cdata _ => False
  | .pi _ (some d) => ∃ c t, d = c :: t ∧ ¬ Space c
  | _ => True

theorem esc_asIs {s : Str} (h : ∀ c ∈ s, ¬ Predefined c) : esc s = s := by
  induction s with
  | nil => rfl
  | cons c s ih =>
    rw [esc_cons, ih fun d hd => h d (by simp [hd])]
    have hc := h c (by simp)
    have : escChar c = [c] := by
      unfold escChar
      by_cases h1 : c = '"'
      · subst h1; exact absurd (by decide) hc
      by_cases h2 : c = '&'
      · subst h2; exact absurd (by decide) hc
      by_cases h3 : c = '\''
      · subst h3; exact absurd (by decide) hc
      by_cases h4 : c = '<'
      · subst h4; exact absurd (by decide) hc
      by_cases h5 : c = '>'
      · subst h5; exact absurd (by decide) hc
      simp [h1, h2, h3, h4, h5]
    rw [this]
    rfl

theorem asIs_asRead {l : Spec.Leaf} (h : AsIs l) : l.asRead = l := by
  cases l with
  | comment s => simp only [Spec.Leaf.asRead]; rw [esc_asIs h]
  | cdata _ => exact h.elim
  | pi t d =>
    cases d with
    | none => rfl
    | some d =>
      obtain ⟨c, u, rfl, hc⟩ := h
      simp only [Spec.Leaf.asRead]
      rw [skip_cons hc]
      simp
  | _ => rfl

theorem asIs_mapLeaves {x : Xml} (h : x.Leaves AsIs) : x.mapLeaves Spec.Leaf.asRead = x := by
  induction x with
  | nil => rfl
  | leaf l rest ih => simp only [Xml.mapLeaves]; rw [asIs_asRead h.1, ih h.2]
  | element n as k r ihk ihr => simp only [Xml.mapLeaves]; rw [ihk h.1, ihr h.2]
  | docType n p s sub d r ihd ihr => simp only [Xml.mapLeaves]; rw [ihd h.1, ihr h.2]
  | document d dtd k r ih1 ih2 ih3 => simp only [Xml.mapLeaves]; rw [ih1 h.1, ih2 h.2.1, ih3 h.2.2]
  | fragment n k r ihk ihr => simp only [Xml.mapLeaves]; rw [ihk h.1, ihr h.2]

/-- C102: a tree of leaves that are written as they are is read back. -/
theorem C102_same (e : Env) (h : Heap) (n : NodeId) (x : Xml) (fuel : Nat) (he : e.Ok)
    (hr : Reachable h) (hn : h.live n = true) (ht : nodeType h n = .element)
    (hx : Shows e h [n] x) (hp : x.Simple) (hw : x.Leaves Spec.Leaf.Writable) (hs : x.Leaves AsIs)
    (ha : x.AttrLists AttrsClean) (hfuel : x.height + 1 ≤ fuel) :
    ∃ s, fmtNode e h fuel n = .ok s ∧ Reader.read s = some x.merge := by
  rw [← asIs_mapLeaves (merge_leaves AsIs (fun _ _ _ _ => trivial) x hp hs)]
  exact element_read e h n x fuel he hr hn ht hx hp hfuel hw ha

/-- The hypotheses can be met, with a comment and a processing instruction. -/
example : ∃ s, fmtNode plainEnv (after [mkDoc, .createComment 0 (c! "x"),
      .createProcessingInstruction 0 (c! "p") (some (c! "q")), .appendChild 1 2, .appendChild 1 3])
        3 1 = .ok s ∧
    Reader.read s = some (.element (c! "r") [] (.leaf (.comment (c! "x"))
      (.leaf (.pi (c! "p") (some (c! "q"))) .nil)) .nil) :=
  C102_same plainEnv (after [mkDoc, .createComment 0 (c! "x"),
      .createProcessingInstruction 0 (c! "p") (some (c! "q")), .appendChild 1 2, .appendChild 1 3]) 1
    (.element (c! "r") [] (.leaf (.comment (c! "x")) (.leaf (.pi (c! "p") (some (c! "q"))) .nil)) .nil)
    3 plainEnv_ok (reachable_after _) (by decide) (by decide)
    (.element (n := 1) (by decide) .nil (.leaf (n := 2) (.comment (by decide) (by decide))
      (.leaf (n := 3) (.pi (by decide)) .nil)) .nil)
    ⟨⟨trivial, trivial, trivial⟩, trivial⟩
    ⟨⟨⟨by decide, by decide, by decide⟩, ⟨by decide, by decide⟩, trivial⟩, trivial⟩
    ⟨⟨by unfold AsIs; decide, ⟨'q', [], rfl, by decide⟩, trivial⟩, trivial⟩
    ⟨⟨by decide, by decide⟩, trivial, trivial⟩ (by decide)

/-! ## C103 -/

/-- The declaration has an encoding name if it has an encoding. -/
def DeclOk (decl : Option XmlDecl) : Prop :=
  ∀ d x, decl = some d → d.encoding = some x → IsEncName x

/-- A literal that can stand between double quotes. -/
def Quotable (s : Str) : Prop := Clean s ∧ '"' ∉ s

/-- No document type, or one with ids that can be quoted and without declarations. -/
def DtdOk (dtd : Xml) : Prop :=
  dtd = .nil ∨ ∃ n p s, dtd = .docType n p s none .nil .nil ∧
    (∀ x, p = some x → Quotable x) ∧ ∀ x, s = some x → Quotable x

/-- C103: reading the text form of a document that XML has a form for gives the declaration,
the document type and the tree, with adjacent texts joined. -/
def C103_full : Prop :=
  ∀ (e : Env) (h : Heap) (n : NodeId) (decl : Option XmlDecl) (dtd kids : Xml) (fuel : Nat), e.Ok →
    Reachable h → h.live n = true → nodeType h n = .document →
    Shows e h [n] (.document decl dtd kids .nil) → DeclOk decl → DtdOk dtd → kids.Simple →
    kids.roots = 1 → kids.Leaves Spec.Leaf.Writable → kids.AttrLists AttrsClean →
    dtd.height + kids.height + 3 ≤ fuel →
    ∃ s, fmtNode e h fuel n = .ok s ∧ Reader.document s = some (decl, dtd.append kids.merge)

/-- A document with a public and a system id. -/
def publicOps : List Op :=
  [.createDocumentType (c! "r") (some (c! "p")) (some (c! "s")),
    .createDocument none (some (c! "r")) (some 0) Options.new]

/-- Its tree. -/
def publicDtd : Xml := .docType (c! "r") (some (c! "p")) (some (c! "s")) none .nil .nil

theorem public_shows : Shows plainEnv (after publicOps) [1]
    (.document none publicDtd (.element (c! "r") [] .nil .nil) .nil) :=
  .document (n := 1) (by decide)
    (.docType (n := 0) (x := ⟨[], [], some (c! "p"), some (c! "s"), none⟩) (by decide) (by decide) .nil .nil)
    (.element (n := 2) (by decide) .nil .nil .nil) .nil

/-- C103 does not hold: a document type with a public id is not written as XML. -/
theorem C103_full_false : ¬ C103_full := by
  intro hf
  obtain ⟨s, h1, h2⟩ := hf plainEnv (after publicOps) 1 none publicDtd
    (.element (c! "r") [] .nil .nil) 9 plainEnv_ok (reachable_after _)
    (by decide) (by decide) public_shows (fun _ _ h => by cases h)
    (Or.inr ⟨_, _, _, rfl, fun x hx => by cases hx; exact ⟨by decide, by decide⟩,
      fun x hx => by cases hx; exact ⟨by decide, by decide⟩⟩)
    ⟨trivial, trivial⟩ rfl ⟨trivial, trivial⟩ ⟨⟨by decide, by decide⟩, trivial, trivial⟩ (by decide)
  have h3 : fmtNode plainEnv (after publicOps) 9 1 =
      .ok (c! "<!DOCTYPE r PUBLIC \"p\" SYSTEM \"s\"><r></r>") := by decide
  rw [h3] at h1
  cases h1
  have h4 : Reader.document (c! "<!DOCTYPE r PUBLIC \"p\" SYSTEM \"s\"><r></r>") = none := by decide
  rw [h4] at h2
  cases h2

/-- The children of a document are elements, comments and processing instructions. -/
theorem shows_top {e : Env} {h : Heap} {l : List NodeId} {x : Xml} (hx : Shows e h l x)
    (ht : ∀ m ∈ l, isChildAllowed .document (nodeType h m) = true) (hs : x.Simple) :
    x.merge.Top := by
  induction hx with
  | nil => rw [Xml.merge]; trivial
  | @leaf n ns l rest hlf _ ih =>
    have ih := ih (fun m hm => ht m (by simp [hm])) hs.2
    have htn := ht n (by simp)
    cases hlf with
    | blank h1 _ => rw [merge_blank]; exact ih
    | comment h1 _ => rw [merge_marked (l := .comment _) trivial]; exact ⟨trivial, by simp, ih⟩
    | pi h1 => rw [merge_marked (l := .pi _ _) trivial]; exact ⟨trivial, by simp, ih⟩
    | text h1 _ => rw [h1] at htn; exact absurd htn (by decide)
    | cdata h1 _ => rw [h1] at htn; exact absurd htn (by decide)
    | entityRef h1 => exact hs.1.elim
    | «attribute» ha => exact hs.1.elim
    | entity h1 _ => exact hs.1.elim
    | «notation» h1 _ => exact hs.1.elim
  | element _ _ _ _ _ ihr =>
    rw [merge_element]
    exact ihr (fun m hm => ht m (by simp [hm])) hs.2
  | docType => exact hs.elim
  | document => exact hs.elim
  | fragment => exact hs.elim

theorem roots_merge {x : Xml} (hp : x.Simple) : x.merge.roots = x.roots := by
  refine merge_induction (P := fun x y => y.roots = x.roots) rfl ?_ ?_ ?_ ?_ ?_ ?_ x hp
  · intro r h; exact h
  · intro r h; exact h
  · intro s t r m _ _ h; exact h
  · intro s r _ _ h; exact h
  · intro l r _ h; exact h
  · intro n as k r _ hr; simp only [Xml.roots]; rw [hr]

theorem append_mapLeaves_nil (y : Xml) : Xml.append .nil y = y := rfl

/-- The parts of a shown document. -/
theorem shows_document {e : Env} {h : Heap} {n : NodeId} {decl : Option XmlDecl} {dtd kids : Xml}
    (hx : Shows e h [n] (.document decl dtd kids .nil)) :
    decl = xmlDeclaration h n ∧ Shows e h (docType h n).toList dtd ∧
      Shows e h (childNodes h n) kids := by
  cases hx with
  | document _ hd hk _ => exact ⟨rfl, hd, hk⟩

theorem shown_docType_live {h : Heap} (i : Inv h) {n m : NodeId} (hn : h.live n = true)
    (hm : m ∈ (docType h n).toList) : h.live m = true := by
  unfold docType at hm
  cases hx : (h.get n).ext with
  | document x =>
    rw [hx] at hm
    simp only [Option.mem_toList] at hm
    exact i.docTypes n x m hn hx hm
  | _ => rw [hx] at hm; simp at hm

/-- The name of a shown document type. -/
theorem shows_docType {e : Env} {h : Heap} (i : Inv h) {n : NodeId} (hn : h.live n = true)
    {q : Str} {p s sub : Option Str} {ds r : Xml}
    (hsd : Shows e h (docType h n).toList (.docType q p s sub ds r)) : IsQName q := by
  generalize hz : (docType h n).toList = l at hsd
  generalize hd : Xml.docType q p s sub ds r = y at hsd
  cases hsd with
  | @docType m ns x decls rest ht' hx' hd' hr' =>
    have hml : h.live m = true := shown_docType_live i hn (by rw [hz]; simp)
    have hnm := i.names m (i.wf.fresh m hml)
    rw [show (h.get m).ntype = _ from ht'] at hnm
    injection hd with h1
    rw [h1]
    exact nameOk_qname hnm
  | _ => cases hd

theorem encName_clean {x : Str} (hx : IsEncName x) : Clean x := by
  obtain ⟨c, cs, rfl, h2, h3⟩ := hx
  have rng : ∀ r ∈ [(0x41, 0x5A), (0x61, 0x7A), (0x30, 0x39), (0x2E, 0x2E),
      (0x5F, 0x5F), (0x2D, 0x2D)], 0x20 ≤ r.1 ∧ r.2 ≤ 0xD7FF := by decide
  have key : ∀ d, InRanges [(0x41, 0x5A), (0x61, 0x7A), (0x30, 0x39), (0x2E, 0x2E),
      (0x5F, 0x5F), (0x2D, 0x2D)] d → Char10 d ∧ d ≠ '\r' := by
    rintro d ⟨r, hr, a, b⟩
    have := rng r hr
    refine ⟨⟨(0x20, 0xD7FF), by decide, Nat.le_trans this.1 a, Nat.le_trans b this.2⟩, ?_⟩
    rintro rfl
    exact absurd (Nat.le_trans this.1 a) (by decide)
  intro d hd
  rcases List.mem_cons.mp hd with rfl | hd
  · refine key d ?_
    obtain ⟨r, hr, a, b⟩ := h2
    refine ⟨r, ?_, a, b⟩
    simp only [List.mem_cons, List.not_mem_nil, or_false] at hr
    rcases hr with rfl | rfl <;> simp
  · exact key d (h3 d hd)

theorem declText_clean {decl : Option XmlDecl} (hdecl : DeclOk decl) : Clean (declText decl) := by
  cases decl with
  | none => intro c hc; cases hc
  | some d =>
    obtain ⟨v, en, sa⟩ := d
    have hen : Clean (encText en) := by
      cases en with
      | none => intro c hc; cases hc
      | some x =>
        have h1 := encName_clean (hdecl _ x rfl rfl)
        have e1 : encText (some x) = (c! " encoding=\"") ++ (x ++ (c! "\"")) := by
          simp [encText, quoted]
        rw [e1]
        unfold Clean at *
        simp only [List.forall_mem_append]
        exact ⟨by decide, h1, by decide⟩
    have e1 : declText (some ⟨v, en, sa⟩) = (c! "<?xml version=\"") ++ (verText v ++ ((c! "\"") ++
        (encText en ++ (saText sa ++ (c! "?>"))))) := by
      unfold declText printDecl verText encText saText quoted
      cases v <;> cases en <;> cases sa <;> (try rename_i b; cases b) <;> simp
    rw [e1]
    unfold Clean at *
    simp only [List.forall_mem_append]
    refine ⟨by decide, ?_, by decide, hen, ?_, by decide⟩
    · cases v <;> decide
    · cases sa with
      | none => decide
      | some b => cases b <;> decide

/-- C103 (partial: no public id, and up to what `Leaf.asRead` says). -/
theorem C103_document_partial (e : Env) (h : Heap) (n : NodeId) (decl : Option XmlDecl)
    (dtd kids : Xml) (fuel : Nat) (he : e.Ok) (hr : Reachable h) (hn : h.live n = true)
    (ht : nodeType h n = .document) (hx : Shows e h [n] (.document decl dtd kids .nil))
    (hdecl : DeclOk decl) (hdtd : DtdOk dtd)
    (hpub : ∀ q p s sub ds r, dtd = .docType q p s sub ds r → p = none)
    (hp : kids.Simple) (hroot : kids.roots = 1) (hw : kids.Leaves Spec.Leaf.Writable)
    (ha : kids.AttrLists AttrsClean) (hfuel : dtd.height + kids.height + 3 ≤ fuel) :
    ∃ s, fmtNode e h fuel n = .ok s ∧
      Reader.document s = some (decl, dtd.append (kids.merge.mapLeaves Spec.Leaf.asRead)) := by
  have i := hr.invariant
  obtain ⟨_, hsd, hsk⟩ := shows_document hx
  have hkl : ∀ m ∈ childNodes h n, h.live m = true := fun m hm => i.wf.child hn hm
  have hnames := shows_names he i hsk hkl
  have htg := shows_targets i hsk hkl hp
  have htop := shows_top hsk (fun m hm => by
    have := i.allowed n hn m hm
    rwa [show (h.get n).ntype = _ from ht] at this) hp
  have hchars := print_chars kids hp hnames hw (attrsClean_chars ha)
  have hnorm := merge_normal kids hp
  have hnm := merge_namesOk kids hp hnames
  have htm := merge_leaves _ (fun s t _ _ a b h => by cases h) kids hp htg
  have houter := outer_print htop hnorm hnm htm (merge_leaves _ writable_append kids hp hw)
    (merge_attrLists _ kids hp (attrsClean_kept hp hnames ha))
  rw [merge_print kids hp] at houter
  have hsize := size_le_print _ hnorm
  rw [merge_print kids hp] at hsize
  have hshape := shape_top htop 0
  rw [roots_merge hp] at hshape
  refine ⟨_, C57_display e h n _ fuel he hx (by simp only [Xml.height]; omega), ?_⟩
  have hprint : (Xml.document decl dtd kids .nil).print =
      declText decl ++ (dtd.print ++ kids.print) := by
    simp only [Xml.print, List.append_nil, List.append_assoc]
    cases decl <;> rfl
  rw [hprint]
  -- the part after the declaration
  have key : Clean dtd.print ∧ (∀ t, dtd.print ++ kids.print = (c! "<?xml") ++ t →
        Reader.space t = none) ∧
      Reader.outer ((dtd.print ++ kids.print).length + 1) (dtd.print ++ kids.print) =
        some (dtd.append (kids.merge.mapLeaves Spec.Leaf.asRead)) ∧
      Reader.shape 0 0 (dtd.append (kids.merge.mapLeaves Spec.Leaf.asRead)) = true := by
    rcases hdtd with rfl | ⟨q, p, s, rfl, _, hs⟩
    · refine ⟨fun c hc => (by cases hc), fun t h => ?_, houter _ ?_, ?_⟩
      · refine top_not_decl htop hnm htm t ?_
        rw [merge_print kids hp]
        exact h
      · have : Xml.nil.print ++ kids.print = kids.print := rfl
        rw [this]
        omega
      · rw [append_mapLeaves_nil, shape_mapLeaves]
        exact hshape 0 (by omega)
    · have hpn := hpub _ _ _ _ _ _ rfl
      subst hpn
      have hq := shows_docType i hn hsd
      have hpr : (Xml.docType q none s none .nil .nil).print =
          (c! "<!DOCTYPE") ++ (' ' :: (q ++ (keyed (c! "SYSTEM") s ++ ['>']))) := by
        simp [Xml.print, Xml.isNil, keyed]
      have hcl : Clean (keyed (c! "SYSTEM") s) := by
        cases s with
        | none => intro c hc; cases hc
        | some x =>
          have e1 : keyed (c! "SYSTEM") (some x) = (c! " SYSTEM \"") ++ (x ++ (c! "\"")) := by
            simp [keyed, quoted]
          rw [e1]
          unfold Clean
          simp only [List.forall_mem_append]
          exact ⟨by decide, (hs x rfl).1, by decide⟩
      have htext : (Xml.docType q none s none .nil .nil).print ++ kids.print =
          '<' :: ((c! "!DOCTYPE") ++ (' ' :: (q ++ (keyed (c! "SYSTEM") s ++ '>' :: kids.print)))) := by
        rw [hpr]; simp
      refine ⟨?_, ?_, ?_, ?_⟩
      · rw [hpr, show ' ' :: (q ++ (keyed (c! "SYSTEM") s ++ ['>'])) =
          [' '] ++ (q ++ (keyed (c! "SYSTEM") s ++ ['>'])) from rfl]
        unfold Clean
        simp only [List.forall_mem_append]
        exact ⟨by decide, by decide, char10_of_name hq, hcl, by decide⟩
      · intro t h
        rw [htext] at h
        simp at h
      · rw [htext]
        unfold Reader.outer
        rw [skip_cons (by decide)]
        simp only
        rw [if_pos trivial, if_neg (by simp [List.isPrefixOf]), if_neg (by simp),
          if_pos (by simp [List.isPrefixOf])]
        rw [show ((c! "!DOCTYPE") ++ (' ' :: (q ++ (keyed (c! "SYSTEM") s ++ '>' :: kids.print)))).drop 8 =
          ' ' :: (q ++ (keyed (c! "SYSTEM") s ++ '>' :: kids.print)) from rfl,
          docType_print hq (fun x hx => (hs x hx).2)]
        simp only [Option.bind_some]
        rw [houter _ (by simp only [List.length_cons, List.length_append]; omega)]
        rfl
      · simp only [Xml.append, Reader.shape]
        rw [shape_mapLeaves, shape_top htop 0 1 (by rw [roots_merge hp]; omega)]
        rfl
  obtain ⟨k1, k2, k3, k4⟩ := key
  have hdc := declText_clean hdecl
  have hall : Clean (declText decl ++ (dtd.print ++ kids.print)) := by
    unfold Clean
    simp only [List.forall_mem_append]
    exact ⟨hdc, k1, hchars⟩
  have hstart : Reader.start (declText decl ++ (dtd.print ++ kids.print)) =
      some (decl, dtd.print ++ kids.print) := by
    cases decl with
    | none => exact start_none k2
    | some d => exact declaration_print (fun x hx => hdecl d x rfl hx) _
  unfold Reader.document
  rw [if_pos (fun c hc => (hall c hc).1), endOfLine_clean (fun hm => (hall _ hm).2 rfl), hstart]
  simp only [Option.bind_some]
  rw [k3]
  simp only [Option.bind_some]
  rw [if_pos k4]

/-- C103: a tree of leaves that are written as they are is read back. -/
theorem C103_same (e : Env) (h : Heap) (n : NodeId) (decl : Option XmlDecl)
    (dtd kids : Xml) (fuel : Nat) (he : e.Ok) (hr : Reachable h) (hn : h.live n = true)
    (ht : nodeType h n = .document) (hx : Shows e h [n] (.document decl dtd kids .nil))
    (hdecl : DeclOk decl) (hdtd : DtdOk dtd)
    (hpub : ∀ q p s sub ds r, dtd = .docType q p s sub ds r → p = none)
    (hp : kids.Simple) (hroot : kids.roots = 1) (hw : kids.Leaves Spec.Leaf.Writable)
    (hs : kids.Leaves AsIs) (ha : kids.AttrLists AttrsClean)
    (hfuel : dtd.height + kids.height + 3 ≤ fuel) :
    ∃ s, fmtNode e h fuel n = .ok s ∧ Reader.document s = some (decl, dtd.append kids.merge) := by
  rw [← asIs_mapLeaves (merge_leaves AsIs (fun _ _ _ _ => trivial) kids hp hs)]
  exact C103_document_partial e h n decl dtd kids fuel he hr hn ht hx hdecl hdtd hpub hp hroot hw ha
    hfuel

/-- C103: what is written for a document type with a public id is never a document. -/
theorem C103_public (e : Env) (h : Heap) (n : NodeId) (decl : Option XmlDecl)
    (q p : Str) (sys : Option Str) (kids : Xml) (fuel : Nat) (he : e.Ok) (hr : Reachable h)
    (hn : h.live n = true)
    (hx : Shows e h [n] (.document decl (.docType q (some p) sys none .nil .nil) kids .nil))
    (hdecl : DeclOk decl) (hq : '"' ∉ p) (hfuel : kids.height + 3 ≤ fuel) :
    ∃ s, fmtNode e h fuel n = .ok s ∧ ('\r' ∉ s → Reader.document s = none) := by
  have i := hr.invariant
  obtain ⟨_, hsd, hsk⟩ := shows_document hx
  have hqn := shows_docType i hn hsd
  refine ⟨_, C57_display e h n _ fuel he hx (by simp only [Xml.height]; omega), ?_⟩
  intro hcr
  have hprint : (Xml.document decl (.docType q (some p) sys none .nil .nil) kids .nil).print =
      declText decl ++ ('<' :: ((c! "!DOCTYPE") ++ (' ' :: (q ++ (keyed (c! "PUBLIC") (some p) ++
        (keyed (c! "SYSTEM") sys ++ '>' :: kids.print)))))) := by
    cases decl <;> simp [Xml.print, Xml.isNil, declText]
  rw [hprint] at hcr ⊢
  have hout : ∀ k, Reader.outer k ('<' :: ((c! "!DOCTYPE") ++ (' ' :: (q ++
      (keyed (c! "PUBLIC") (some p) ++ (keyed (c! "SYSTEM") sys ++ '>' :: kids.print)))))) =
      none := by
    intro k
    cases k with
    | zero => rfl
    | succ k =>
      unfold Reader.outer
      rw [skip_cons (by decide)]
      simp only
      rw [if_pos trivial, if_neg (by simp [List.isPrefixOf]), if_neg (by simp),
        if_pos (by simp [List.isPrefixOf]),
        show ((c! "!DOCTYPE") ++ (' ' :: (q ++ (keyed (c! "PUBLIC") (some p) ++
          (keyed (c! "SYSTEM") sys ++ '>' :: kids.print))))).drop 8 = ' ' :: (q ++
          (keyed (c! "PUBLIC") (some p) ++ (keyed (c! "SYSTEM") sys ++ '>' :: kids.print))) from rfl,
        docType_public hqn hq]
      rfl
  generalize hT : '<' :: ((c! "!DOCTYPE") ++ (' ' :: (q ++ (keyed (c! "PUBLIC") (some p) ++
        (keyed (c! "SYSTEM") sys ++ '>' :: kids.print))))) = T at *
  have hstart : Reader.start (declText decl ++ T) = some (decl, T) := by
    cases decl with
    | none =>
      refine start_none ?_
      intro t ht
      rw [← hT] at ht
      simp [declText] at ht
    | some d => exact declaration_print (fun x hx => hdecl d x rfl hx) _
  unfold Reader.document
  rw [endOfLine_clean hcr, hstart]
  simp only [Option.bind_some]
  rw [hout]
  split <;> rfl

/-- The hypotheses of `C103_same` can be met, with a document type. -/
example : ∃ s, fmtNode plainEnv (after [.createDocumentType (c! "r") none (some (c! "s")),
      .createDocument none (some (c! "r")) (some 0) Options.new]) 9 1 = .ok s ∧
    Reader.document s = some (none, .docType (c! "r") none (some (c! "s")) none .nil
      (.element (c! "r") [] .nil .nil)) := by
  refine C103_same plainEnv (after [.createDocumentType (c! "r") none (some (c! "s")),
      .createDocument none (some (c! "r")) (some 0) Options.new]) 1 none
    (.docType (c! "r") none (some (c! "s")) none .nil .nil) (.element (c! "r") [] .nil .nil) 9
    plainEnv_ok (reachable_after _) (by decide) (by decide) ?_ (fun _ _ h => by cases h)
    (Or.inr ⟨_, _, _, rfl, fun x hx => (by cases hx), fun x hx => ?_⟩) ?_
    ⟨trivial, trivial⟩ rfl ⟨trivial, trivial⟩ ⟨trivial, trivial⟩
    ⟨⟨by decide, by decide⟩, trivial, trivial⟩ (by decide)
  · exact .document (n := 1) (by decide)
      (.docType (n := 0) (x := ⟨[], [], none, some (c! "s"), none⟩) (by decide) (by decide) .nil .nil)
      (.element (n := 2) (by decide) .nil .nil .nil) .nil
  · cases hx; exact ⟨by decide, by decide⟩
  · intro q p s sub ds r h; cases h; rfl

/-- And those of `C103_public`. -/
example : ∃ s, fmtNode plainEnv (after publicOps) 9 1 = .ok s ∧
    ('\r' ∉ s → Reader.document s = none) :=
  C103_public plainEnv (after publicOps) 1 none (c! "r") (c! "p") (some (c! "s")) _ 9 plainEnv_ok
    (reachable_after _) (by decide) public_shows (fun _ _ h => by cases h) (by decide) (by decide)

/-! ## C104 -/

/-- Ids that XML has a form for: [12] and [11]. -/
def IdsOk (p s : Option Str) : Prop :=
  (∀ x, p = some x → ∀ c ∈ x, Reader.PubidChar c) ∧ ∀ x, s = some x → '"' ∉ x

/-- C104: the text forms of document types, entities and notations with ids and values that
XML has a form for are declarations of [28], [71] and [82] with the same name, ids and value. -/
def C104_full : Prop :=
  ∀ (e : Env) (h : Heap) (n : NodeId), e.Ok → Reachable h → h.live n = true →
    (nodeType h n = .documentType → IdsOk (dtPublicId h n) (dtSystemId h n) →
      ∃ t, fmtNode e h 2 n = .ok (c! "<!DOCTYPE" ++ t) ∧ Reader.docType t =
        some (((nodeName h n).display, dtPublicId h n, dtSystemId h n), [])) ∧
    (nodeType h n = .entity → IdsOk (entityPublicId h n) (entitySystemId h n) →
      ('"' ∉ (nodeValue h n).getD [] ∧
        Reader.entityValue ((nodeValue h n).getD []).length ((nodeValue h n).getD []) = true) →
      ∃ t, fmtNode e h 2 n = .ok (c! "<!ENTITY" ++ t) ∧ Reader.entityDecl t =
        some (((nodeName h n).display,
          if entityPublicId h n = none ∧ entitySystemId h n = none
            then .value ((nodeValue h n).getD [])
            else .ids (entityPublicId h n) (entitySystemId h n) none), [])) ∧
    (nodeType h n = .notationNode → IdsOk (notationPublicId h n) (notationSystemId h n) →
      ∃ t, fmtNode e h 2 n = .ok (c! "<!NOTATION" ++ t) ∧ Reader.notationDecl t =
        some (((nodeName h n).display, notationPublicId h n, notationSystemId h n), []))

/-- C104 does not hold: a notation without ids is written as if there could be one. -/
theorem C104_full_false : ¬ C104_full := by
  intro hf
  obtain ⟨t, h1, h2⟩ := (hf plainEnv (after [mkDoc, .createNotation 0 (c! "n") none none]) 2
    plainEnv_ok (reachable_after _) (by decide)).2.2 (by decide)
    ⟨fun x hx => (by cases hx), fun x hx => (by cases hx)⟩
  have h3 : fmtNode plainEnv (after [mkDoc, .createNotation 0 (c! "n") none none]) 2 2 =
      .ok ((c! "<!NOTATION") ++ (c! " n>")) := by decide
  rw [h3] at h1
  injection h1 with h1
  rw [← List.append_cancel_left h1] at h2
  exact absurd h2 (by decide)

/-- C104 for document types, exactly: a public id makes the text form unreadable. -/
theorem C104_document_type (e : Env) (h : Heap) (n : NodeId) (he : e.Ok) (hr : Reachable h)
    (hn : h.live n = true) (ht : nodeType h n = .documentType)
    (hid : IdsOk (dtPublicId h n) (dtSystemId h n)) :
    ∃ t, fmtNode e h 2 n = .ok (c! "<!DOCTYPE" ++ t) ∧ Reader.docType t =
      if dtPublicId h n = none
        then some (((nodeName h n).display, dtPublicId h n, dtSystemId h n), []) else none := by
  have i := hr.invariant
  have hx := i.exts n (i.wf.fresh n hn)
  have hnm := i.names n (i.wf.fresh n hn)
  rw [show (h.get n).ntype = _ from ht] at hx hnm
  have hq : IsQName (nodeName h n).display := nameOk_qname hnm
  obtain ⟨p, s, hx⟩ := hx
  have hp : dtPublicId h n = p := by unfold dtPublicId; rw [hx]
  have hs : dtSystemId h n = s := by unfold dtSystemId; rw [hx]
  rw [hp, hs] at hid ⊢
  have hsh : Shows e h [n] (.docType (nodeName h n).display p s none .nil .nil) := by
    refine .docType ht hx ?_ .nil
    have := (he.attrOrder n []).eq_nil
    simp only [this]
    exact .nil
  refine ⟨' ' :: ((nodeName h n).display ++ (keyed (c! "PUBLIC") p ++ (keyed (c! "SYSTEM") s ++
    '>' :: []))), ?_, ?_⟩
  · rw [C57_display e h n _ 2 he hsh (by simp [Xml.height])]
    simp [Xml.print, Xml.isNil]
  · cases p with
    | none =>
      rw [show keyed (c! "PUBLIC") none = [] from rfl, List.nil_append, docType_print hq hid.2]
      rfl
    | some x =>
      rw [docType_public hq (pubid_noQuote (hid.1 x rfl))]
      rfl

/-- C104 for entities, exactly: an entity with a public id needs a system id. -/
theorem C104_entity (e : Env) (h : Heap) (n : NodeId) (he : e.Ok) (hr : Reachable h)
    (hn : h.live n = true) (ht : nodeType h n = .entity)
    (hid : IdsOk (entityPublicId h n) (entitySystemId h n))
    (hv : '"' ∉ (nodeValue h n).getD []) :
    ∃ t, fmtNode e h 2 n = .ok (c! "<!ENTITY" ++ t) ∧ Reader.entityDecl t =
      if entityPublicId h n = none ∧ entitySystemId h n = none then
        if Reader.entityValue ((nodeValue h n).getD []).length ((nodeValue h n).getD [])
          then some (((nodeName h n).display, .value ((nodeValue h n).getD [])), []) else none
      else if entitySystemId h n = none then none
      else some (((nodeName h n).display, .ids (entityPublicId h n) (entitySystemId h n) none), []) := by
  have i := hr.invariant
  have hx := i.exts n (i.wf.fresh n hn)
  have hnm := i.names n (i.wf.fresh n hn)
  rw [show (h.get n).ntype = _ from ht] at hx hnm
  have hq : IsQName (nodeName h n).display := nameOk_qname hnm
  obtain ⟨p, s, hx⟩ := hx
  have hp : entityPublicId h n = p := by unfold entityPublicId; rw [hx]
  have hs : entitySystemId h n = s := by unfold entitySystemId; rw [hx]
  rw [hp, hs] at hid ⊢
  have hsh : Shows e h [n] (.leaf (.entity (nodeName h n).display (nodeValue h n) p s none) .nil) :=
    .leaf (.entity ht hx) .nil
  have hd := C57_display e h n _ 2 he hsh (by simp [Xml.height])
  by_cases hps : p = none ∧ s = none
  · refine ⟨' ' :: ((nodeName h n).display ++ (' ' :: quoted ((nodeValue h n).getD []) ++ '>' :: [])),
      ?_, ?_⟩
    · rw [hd]
      simp [Xml.print, Spec.Leaf.print, hps]
    · rw [entityDecl_value hq hv, if_pos hps]
  · refine ⟨' ' :: ((nodeName h n).display ++ (externalId p s ++ '>' :: [])), ?_, ?_⟩
    · rw [hd]
      simp only [Xml.print, Spec.Leaf.print, if_neg hps]
      simp
    · rw [entityDecl_ids hq hid.1 hid.2 hps, if_neg hps]

/-- C104 for notations, exactly: a notation needs an id. -/
theorem C104_notation (e : Env) (h : Heap) (n : NodeId) (he : e.Ok) (hr : Reachable h)
    (hn : h.live n = true) (ht : nodeType h n = .notationNode)
    (hid : IdsOk (notationPublicId h n) (notationSystemId h n)) :
    ∃ t, fmtNode e h 2 n = .ok (c! "<!NOTATION" ++ t) ∧ Reader.notationDecl t =
      if notationPublicId h n = none ∧ notationSystemId h n = none then none
      else some (((nodeName h n).display, notationPublicId h n, notationSystemId h n), []) := by
  have i := hr.invariant
  have hx := i.exts n (i.wf.fresh n hn)
  have hnm := i.names n (i.wf.fresh n hn)
  rw [show (h.get n).ntype = _ from ht] at hx hnm
  have hq : IsQName (nodeName h n).display := nameOk_qname hnm
  obtain ⟨p, s, hx⟩ := hx
  have hp : notationPublicId h n = p := by unfold notationPublicId; rw [hx]
  have hs : notationSystemId h n = s := by unfold notationSystemId; rw [hx]
  rw [hp, hs] at hid ⊢
  have hsh : Shows e h [n] (.leaf (.notation (nodeName h n).display p s) .nil) :=
    .leaf (.notation ht hx) .nil
  refine ⟨' ' :: ((nodeName h n).display ++ (externalId p s ++ '>' :: [])), ?_,
    notationDecl_print hq hid.1 hid.2 []⟩
  rw [C57_display e h n _ 2 he hsh (by simp [Xml.height])]
  simp [Xml.print, Spec.Leaf.print]

/-- A document type, an entity with both ids, one with a value and a notation, which meet the
hypotheses of the three theorems. -/
example :
    let h := after [mkDoc, .createDocumentType (c! "t") none (some (c! "s")),
      .createEntity 0 (c! "x") (some (c! "p")) (some (c! "s")),
      .createInternalEntity 0 (c! "y") (c! "v&lt;"), .createNotation 0 (c! "n") (some (c! "p")) none]
    nodeType h 2 = .documentType ∧ nodeType h 3 = .entity ∧ nodeType h 4 = .entity ∧
      nodeType h 5 = .notationNode ∧
    IdsOk (dtPublicId h 2) (dtSystemId h 2) ∧ IdsOk (entityPublicId h 3) (entitySystemId h 3) ∧
    IdsOk (entityPublicId h 4) (entitySystemId h 4) ∧ '"' ∉ (nodeValue h 4).getD [] ∧
    Reader.entityValue ((nodeValue h 4).getD []).length ((nodeValue h 4).getD []) = true ∧
    IdsOk (notationPublicId h 5) (notationSystemId h 5) := by
  refine ⟨by decide, by decide, by decide, by decide, ⟨fun x hx => ?_, fun x hx => ?_⟩,
    ⟨fun x hx => ?_, fun x hx => ?_⟩, ⟨fun x hx => ?_, fun x hx => ?_⟩, by decide, by decide,
    ⟨fun x hx => ?_, fun x hx => ?_⟩⟩ <;> cases hx <;> decide

/-! ## C105 -/

/-- C105: a document without document type is written and read again by the crate: when the
written text stands for the tree `z`, the reader of the crate makes the same document of the
events of `z`. -/
def C105_full : Prop :=
  ∀ (e : Env) (h : Heap) (n : NodeId) (decl : Option XmlDecl) (kids : Xml) (fuel : Nat), e.Ok →
    Reachable h → h.live n = true → nodeType h n = .document →
    Shows e h [n] (.document decl .nil kids .nil) → DeclOk decl → kids.Simple →
    kids.roots = 1 → kids.Leaves Spec.Leaf.Writable → kids.AttrLists AttrsClean →
    kids.ids.Nodup → (∀ v ∈ kids.ids, IsNcName v) →
    kids.Named AsciiParts (fun t => AsciiStart t ∧ ':' ∉ t) → kids.height + 3 ≤ fuel →
    ∃ s z, fmtNode e h fuel n = .ok s ∧ Reader.document s = some (decl, z) ∧
      ∀ evs, DocumentEvents (PiTame e.uni) decl z evs →
        ∃ h', readXml e h evs = (.ok h.next, h') ∧ IsDocument e h' h.next decl kids.merge

theorem named_merge {p t : Str → Prop} {x : Xml} (hs : x.Simple) :
    x.Named p t → x.merge.Named p t := by
  refine merge_induction (P := fun x y => x.Named p t → y.Named p t) id ?_ ?_ ?_ ?_ ?_ ?_ x hs
  · intro r h hn; exact h hn.2
  · intro r h hn; exact h hn.2
  · intro s u r m _ _ h hn
    exact ⟨fun _ _ hq => (by cases hq), (h hn.2).2⟩
  · intro s r _ _ h hn; exact ⟨hn.1, h hn.2⟩
  · intro l r _ h hn; exact ⟨hn.1, h hn.2⟩
  · intro n as k r h1 h2 hn; exact ⟨hn.1, hn.2.1, h1 hn.2.2.1, h2 hn.2.2.2⟩

theorem ids_merge {x : Xml} (hs : x.Simple) : x.merge.ids = x.ids := by
  refine merge_induction (P := fun x y => y.ids = x.ids) rfl ?_ ?_ ?_ ?_ ?_ ?_ x hs
  · intro r h; exact h
  · intro r h; exact h
  · intro s u r m _ _ h; exact h
  · intro s r _ _ h; exact h
  · intro l r _ h; exact h
  · intro n as k r h1 h2; simp only [Xml.ids]; rw [h1, h2]

theorem named_asRead {p t : Str → Prop} {x : Xml} (h : x.Named p t) :
    (x.mapLeaves Spec.Leaf.asRead).Named p t := by
  induction x with
  | nil => trivial
  | leaf l rest ih =>
    refine ⟨?_, ih h.2⟩
    intro a d hl
    cases l with
    | pi u d' =>
      cases d' with
      | none => cases hl; exact h.1 _ _ rfl
      | some d' => injection hl with e1 _; exact h.1 a (some d') (by rw [e1])
    | _ => cases hl
  | element n as k r ihk ihr => exact ⟨h.1, h.2.1, ihk h.2.2.1, ihr h.2.2.2⟩
  | docType _ _ _ _ _ _ _ _ => exact h.elim
  | document _ _ _ _ _ _ _ => exact h.elim
  | fragment _ _ _ _ _ => exact h.elim

theorem ids_mapLeaves (f : Spec.Leaf → Spec.Leaf) (x : Xml) : (x.mapLeaves f).ids = x.ids := by
  induction x with
  | nil => rfl
  | leaf l rest ih => exact ih
  | element n as k r ihk ihr => simp only [Xml.mapLeaves, Xml.ids]; rw [ihk, ihr]
  | _ => rfl

theorem roots_mapLeaves (f : Spec.Leaf → Spec.Leaf) (x : Xml) : (x.mapLeaves f).roots = x.roots := by
  induction x with
  | nil => rfl
  | leaf l rest ih => exact ih
  | element n as k r _ ihr => simp only [Xml.mapLeaves, Xml.roots]; rw [ihr]
  | _ => rfl

theorem attrLists_mapLeaves {p : List (Str × Str) → Prop} (f : Spec.Leaf → Spec.Leaf) {x : Xml}
    (h : x.AttrLists p) : (x.mapLeaves f).AttrLists p := by
  induction x with
  | nil => trivial
  | leaf _ _ ih => exact ih h
  | element _ _ _ _ ihk ihr => exact ⟨h.1, ihk h.2.1, ihr h.2.2⟩
  | docType _ _ _ _ _ _ ih1 ih2 => exact ⟨ih1 h.1, ih2 h.2⟩
  | document _ _ _ _ ih1 ih2 ih3 => exact ⟨ih1 h.1, ih2 h.2.1, ih3 h.2.2⟩
  | fragment _ _ _ ih1 ih2 => exact ⟨ih1 h.1, ih2 h.2⟩

theorem outer_top {x : Xml} (h : x.Top) : (x.mapLeaves Spec.Leaf.asRead).Outer := by
  induction x with
  | nil => trivial
  | leaf l rest ih =>
    refine ⟨?_, ih h.2.2⟩
    have h1 := h.1
    cases l with
    | comment s => exact Or.inl ⟨_, rfl⟩
    | cdata s => exact absurd rfl (h.2.1 s)
    | pi t d => cases d <;> exact Or.inr ⟨_, _, rfl⟩
    | _ => exact h1.elim
  | element n as k r _ ihr => exact ihr h
  | docType _ _ _ _ _ _ _ _ => exact h.elim
  | document _ _ _ _ _ _ _ => exact h.elim
  | fragment _ _ _ _ _ => exact h.elim

theorem named_join {p q : Str → Prop} {x : Xml} (hn : x.NamesOk) (htg : TargetsOk x)
    (h : x.Named p fun t => q t ∧ ':' ∉ t) :
    x.Named IsQName (fun t => IsNcName t ∧ Unreserved t) ∧ x.Named p q := by
  induction x with
  | nil => exact ⟨trivial, trivial⟩
  | leaf l rest ih =>
    obtain ⟨a, b⟩ := ih hn.2 htg.2 h.2
    refine ⟨⟨?_, a⟩, ⟨fun t d hl => (h.1 t d hl).1, b⟩⟩
    rintro t d rfl
    have hq := isQName_isName hn.1
    refine ⟨⟨hq, (h.1 t d rfl).2⟩, ?_⟩
    have hres := htg.1 t d rfl
    rintro a b c rfl ha hb hc
    revert hres
    rcases ha with rfl | rfl <;> rcases hb with rfl | rfl <;> rcases hc with rfl | rfl <;> decide
  | element n as k r ihk ihr =>
    obtain ⟨h1, h2, h3, h4⟩ := h
    obtain ⟨a, b⟩ := ihk hn.2.2.1 htg.1 h3
    obtain ⟨c, d⟩ := ihr hn.2.2.2 htg.2 h4
    exact ⟨⟨hn.1, hn.2.1, a, c⟩, h1, h2, b, d⟩
  | docType _ _ _ _ _ _ _ _ => exact h.elim
  | document _ _ _ _ _ _ _ => exact h.elim
  | fragment _ _ _ _ _ => exact h.elim

/-- C105 (partial: up to what `Leaf.asRead` says). -/
theorem C105_reread_partial (e : Env) (h : Heap) (n : NodeId) (decl : Option XmlDecl) (kids : Xml)
    (fuel : Nat) (he : e.Ok) (hr : Reachable h) (hn : h.live n = true)
    (ht : nodeType h n = .document) (hx : Shows e h [n] (.document decl .nil kids .nil))
    (hdecl : DeclOk decl) (hp : kids.Simple) (hroot : kids.roots = 1)
    (hw : kids.Leaves Spec.Leaf.Writable) (ha : kids.AttrLists AttrsClean) (hids : kids.ids.Nodup)
    (hnc : ∀ v ∈ kids.ids, IsNcName v)
    (hnames : kids.Named AsciiParts fun t => AsciiStart t ∧ ':' ∉ t) (hfuel : kids.height + 3 ≤ fuel) :
    ∃ s, fmtNode e h fuel n = .ok s ∧
      Reader.document s = some (decl, kids.merge.mapLeaves Spec.Leaf.asRead) ∧
      ∀ evs, DocumentEvents (PiTame e.uni) decl (kids.merge.mapLeaves Spec.Leaf.asRead) evs →
        ∃ h', readXml e h evs = (.ok h.next, h') ∧
          IsDocument e h' h.next decl (kids.merge.mapLeaves Spec.Leaf.asRead) := by
  obtain ⟨s, h1, h2⟩ := C103_document_partial e h n decl .nil kids fuel he hr hn ht hx hdecl
    (Or.inl rfl) (fun _ _ _ _ _ _ h => by cases h) hp hroot hw ha
    (by simp only [Xml.height]; omega)
  refine ⟨s, h1, h2, fun evs hev => ?_⟩
  have i := hr.invariant
  obtain ⟨_, _, hsk⟩ := shows_document hx
  have hkl : ∀ m ∈ childNodes h n, h.live m = true := fun m hm => i.wf.child hn hm
  obtain ⟨n1, n2⟩ := named_join (shows_names he i hsk hkl) (shows_targets i hsk hkl hp) hnames
  have htop := shows_top hsk (fun m hm => by
    have := i.allowed n hn m hm
    rwa [show (h.get n).ntype = _ from ht] at this) hp
  have hwf : WellFormed (kids.merge.mapLeaves Spec.Leaf.asRead) :=
    ⟨outer_top htop, by rw [roots_mapLeaves, roots_merge hp, hroot],
      named_asRead (named_merge hp n1),
      attrLists_mapLeaves _ (merge_attrLists _ kids hp (ha.mono fun _ q => q.1))⟩
  refine C62_builds_partial e h decl _ evs he hwf (named_asRead (named_merge hp n2)) ?_ ?_ hev
  · rw [ids_mapLeaves, ids_merge hp]; exact hids
  · rw [ids_mapLeaves, ids_merge hp]; exact hnc

/-- C105: documents of leaves that are written as they are survive. -/
theorem C105_same (e : Env) (h : Heap) (n : NodeId) (decl : Option XmlDecl) (kids : Xml)
    (fuel : Nat) (he : e.Ok) (hr : Reachable h) (hn : h.live n = true)
    (ht : nodeType h n = .document) (hx : Shows e h [n] (.document decl .nil kids .nil))
    (hdecl : DeclOk decl) (hp : kids.Simple) (hroot : kids.roots = 1)
    (hw : kids.Leaves Spec.Leaf.Writable) (hs : kids.Leaves AsIs) (ha : kids.AttrLists AttrsClean)
    (hids : kids.ids.Nodup) (hnc : ∀ v ∈ kids.ids, IsNcName v)
    (hnames : kids.Named AsciiParts fun t => AsciiStart t ∧ ':' ∉ t) (hfuel : kids.height + 3 ≤ fuel) :
    ∃ s, fmtNode e h fuel n = .ok s ∧ Reader.document s = some (decl, kids.merge) ∧
      ∀ evs, DocumentEvents (PiTame e.uni) decl kids.merge evs →
        ∃ h', readXml e h evs = (.ok h.next, h') ∧ IsDocument e h' h.next decl kids.merge := by
  have := C105_reread_partial e h n decl kids fuel he hr hn ht hx hdecl hp hroot hw ha hids hnc hnames
    hfuel
  rwa [asIs_mapLeaves (merge_leaves AsIs (fun _ _ _ _ => trivial) kids hp hs)] at this

theorem cdata_document_shows : Shows plainEnv (after cdataOps) [0]
    (.document none .nil cdataXml .nil) :=
  .document (n := 0) (by decide) .nil cdata_shows .nil

/-- The names of the sample. -/
theorem r_named : AsciiParts (c! "r") := Or.inl ⟨asciiStart_cons (by decide), by decide⟩

/-- C105 does not hold: every time a CDATA section is written and read it gets two spaces. -/
theorem C105_full_false : ¬ C105_full := by
  intro hf
  obtain ⟨s, z, h1, h2, h3⟩ := hf plainEnv (after cdataOps) 0 none cdataXml 9 plainEnv_ok
    (reachable_after _) (by decide) (by decide) cdata_document_shows (fun _ _ h => by cases h)
    ⟨⟨trivial, trivial⟩, trivial⟩ rfl ⟨⟨⟨by decide, by decide⟩, trivial⟩, trivial⟩
    ⟨⟨by decide, by decide⟩, trivial, trivial⟩ (by decide) (fun v hv => by cases hv)
    ⟨r_named, fun a ha => (by cases ha), ⟨fun t d h => (by cases h), trivial⟩, trivial⟩ (by decide)
  have h4 : fmtNode plainEnv (after cdataOps) 9 0 = .ok (c! "<r><![CDATA[ a ]]></r>") := by decide
  rw [h4] at h1
  cases h1
  have h5 : Reader.document (c! "<r><![CDATA[ a ]]></r>") =
      some (none, .element (c! "r") [] (.leaf (.cdata (c! " a ")) .nil) .nil) := by decide
  rw [h5] at h2
  cases h2
  obtain ⟨h', r1, r2⟩ := h3 [.start (some (c! "r")) [], .cdata (some (c! " a ")), .close]
    ⟨[], _, [], .none, .element (as := []) (.cdata .nil) .nil, Or.inl rfl, rfl⟩
  have hh : h' = (readXml plainEnv (after cdataOps)
      [.start (some (c! "r")) [], .cdata (some (c! " a ")), .close]).2 := by rw [r1]
  have c1 := r2.content
  have k1 : childNodes h' (after cdataOps).next = [4] := by rw [hh]; decide
  rw [k1] at c1
  have k2 : childNodes h' 4 = [5] := by rw [hh]; decide
  have k3 : nodeValue h' 5 = some (c! " a ") := by rw [hh]; decide
  have hm : cdataXml.merge = cdataXml := by decide
  rw [hm] at c1
  cases c1 with
  | element _ _ _ _ _ _ hk _ =>
    rw [k2] at hk
    cases hk with
    | leaf hl _ _ _ _ =>
      cases hl with
      | cdata _ hv => rw [k3] at hv; exact absurd hv (by decide)

/-- The hypotheses of `C105_same` can be met. -/
example : ∃ s, fmtNode plainEnv (after [mkDoc]) 9 0 = .ok s ∧
    Reader.document s = some (none, .element (c! "r") [] .nil .nil) ∧
    ∀ evs, DocumentEvents (PiTame plainEnv.uni) none (.element (c! "r") [] .nil .nil) evs →
      ∃ h', readXml plainEnv (after [mkDoc]) evs = (.ok (after [mkDoc]).next, h') ∧
        IsDocument plainEnv h' (after [mkDoc]).next none (.element (c! "r") [] .nil .nil) :=
  C105_same plainEnv (after [mkDoc]) 0 none (.element (c! "r") [] .nil .nil) 9 plainEnv_ok
    (reachable_after _) (by decide) (by decide)
    (.document (n := 0) (by decide) .nil (.element (n := 1) (by decide) .nil .nil .nil) .nil)
    (fun _ _ h => by cases h) ⟨trivial, trivial⟩ rfl ⟨trivial, trivial⟩ ⟨trivial, trivial⟩
    ⟨⟨by decide, by decide⟩, trivial, trivial⟩ (by decide) (fun v hv => by cases hv)
    ⟨r_named, fun a ha => (by cases ha), trivial, trivial⟩ (by decide)

/-! ## C92 -/

theorem _root_.XmlDom.Spec.Xml.Like.simple {x y : Xml} (hl : x.Like y) (hx : x.Simple) : y.Simple := by
  induction hl with
  | nil => trivial
  | leaf _ ih => exact ⟨hx.1, ih hx.2⟩
  | element _ _ _ _ ihk ihr => exact ⟨ihk hx.1, ihr hx.2⟩

theorem _root_.XmlDom.Spec.Xml.Like.leaves {x y : Xml} (hl : x.Like y) {p : Spec.Leaf → Prop}
    (hx : x.Leaves p) : y.Leaves p := by
  induction hl with
  | nil => trivial
  | leaf _ ih => exact ⟨hx.1, ih hx.2⟩
  | element _ _ _ _ ihk ihr => exact ⟨ihk hx.1, ihr hx.2⟩

theorem _root_.XmlDom.Spec.Xml.Like.roots {x y : Xml} (hl : x.Like y) : y.roots = x.roots := by
  induction hl with
  | nil => rfl
  | leaf _ ih => exact ih
  | element _ _ _ _ _ ihr => simp only [Xml.roots]; rw [ihr]

/-- C92 (partial: with the conditions of `C92_written_partial`, and characters that the text
form keeps): what is written for the document that was read is read by the reference reader
as the same declaration and content, up to what `Leaf.asRead` says. -/
theorem C92_document_partial (e : Env) (h : Heap) (hr : Reachable h) (decl : Option XmlDecl)
    (x : Xml) (evs : List Event) (he : e.Ok) (hx : WellFormed x)
    (ha : x.Named AsciiParts AsciiStart)
    (hn : x.ids.Nodup) (hid : ∀ v ∈ x.ids, IsNcName v)
    (hev : DocumentEvents (PiTame e.uni) decl x evs) (hp : x.Simple)
    (hw : x.Leaves Spec.Leaf.Writable)
    (hv : x.AttrLists fun as => ∀ a ∈ as, (∃ r, Normalizes a.2 r) ∧
      ∀ w, ValueOf a.2 w → ∀ c ∈ w, Char10 c ∧ c ≠ '\r' ∧ c ≠ '\n' ∧ c ≠ '\t') :
    ∃ d h' y, readXml e h evs = (.ok d, h') ∧ x.Like y ∧
      ∀ fuel, y.height + 3 ≤ fuel → ∃ s, fmtNode e h' fuel d = .ok s ∧
        Reader.document s = some (decl, y.merge.mapLeaves Spec.Leaf.asRead) := by
  obtain ⟨h', h1, h2⟩ := C62_builds_partial e h decl x evs he hx ha hn hid hev
  have hr' : Reachable h' := by
    have := Reachable.run hr (ops := [(e, .readXml evs)])
      (by intro x hx; cases List.mem_singleton.mp hx; exact he)
    simpa [run, exec, Op.args, Op.apply, h1, leftBehind] using this
  have hboth : x.AttrLists fun as => (as.map (·.1)).Nodup ∧
      ∀ a ∈ as, (∃ r, Normalizes a.2 r) ∧
        ∀ w, ValueOf a.2 w → ∀ c ∈ w, Char10 c ∧ c ≠ '\r' ∧ c ≠ '\n' ∧ c ≠ '\t' :=
    attrLists_and _ hx.attrs hv
  obtain ⟨y, hy, hs⟩ := held_shows he h2.content
    (hboth.mono fun as q => ⟨q.1, fun a ha => (q.2 a ha).1⟩)
  have hsd : Shows e h' [h.next] (.document (xmlDeclaration h' h.next) .nil y .nil) :=
    .document h2.ntype (by rw [h2.docType]; exact .nil) hs .nil
  rw [h2.decl] at hsd
  have hdecl : DeclOk decl := by
    obtain ⟨ds, _, _, hd, _⟩ := hev
    cases hd with
    | none => intro _ _ q; cases q
    | some q => intro d x q1 q2; cases q1; exact q x q2
  refine ⟨h.next, h', y, h1, hy, fun fuel hfuel => ?_⟩
  refine C103_document_partial e h' h.next decl .nil y fuel he hr' (C63_document e h h' evs _ h1).2.1
    h2.ntype hsd hdecl (Or.inl rfl) (fun _ _ _ _ _ _ q => by cases q) (hy.simple hp)
    (by rw [hy.roots, hx.root]) (hy.leaves hw) (hy.attrLists ?_ hboth)
    (by simp only [Xml.height]; omega)
  intro as bs cs q1 q2 q3
  refine ⟨?_, ?_⟩
  · rw [sameAttr_names q2]
    exact (q1.map _).nodup_iff.mpr q3.1
  · intro c hc
    obtain ⟨b, hb, hs⟩ := sameAttr_mem q2 hc
    exact (q3.2 b (q1.mem_iff.mp hb)).2 _ hs.2

/-- The hypotheses can be met. -/
example : ∃ d h' y, readXml plainEnv Heap.empty tripEvents = (.ok d, h') ∧ tripDoc.Like y ∧
    ∀ fuel, y.height + 3 ≤ fuel → ∃ s, fmtNode plainEnv h' fuel d = .ok s ∧
      Reader.document s = some (none, y.merge.mapLeaves Spec.Leaf.asRead) := by
  have hq : IsQName (c! "r") ∧ IsQName (c! "a") :=
    ⟨qname (n := ⟨none, none, c! "r"⟩) (by decide), qname (n := ⟨none, none, c! "a"⟩) (by decide)⟩
  have hsingle : ∀ {P : Str × Str → Prop}, P (c! "a", c! "u") → ∀ a ∈ [(c! "a", c! "u")], P a := by
    intro P h a ha
    cases List.mem_singleton.mp ha
    exact h
  refine C92_document_partial plainEnv Heap.empty ⟨[], by simp, rfl⟩ none tripDoc tripEvents
    plainEnv_ok ⟨trivial, rfl, ⟨hq.1, hsingle hq.2, ⟨?_, trivial⟩, trivial⟩,
      ⟨by decide, trivial, trivial⟩⟩
    ⟨Or.inl ⟨asciiStart_cons (by decide), by decide⟩,
      hsingle (Or.inl ⟨asciiStart_cons (by decide), by decide⟩), ⟨?_, trivial⟩, trivial⟩
    (by decide) (fun v hv => by cases hv) ⟨[], _, [.eof], .none, .element (.text .nil) .nil,
      Or.inr ⟨[], rfl⟩, rfl⟩
    ⟨⟨trivial, trivial⟩, trivial⟩ ⟨⟨by unfold Spec.Leaf.Writable; decide, trivial⟩, trivial⟩
    ⟨hsingle ⟨⟨_, plain_u.normalizes.1⟩, fun w hw => ?_⟩, trivial, trivial⟩
  · intro t d h; cases h
  · intro t d h; cases h
  · rw [valueOf_plain plain_u hw]; decide

end Props
end XmlDom
