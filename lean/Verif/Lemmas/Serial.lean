import Verif.Spec.Serial
import Verif.Lemmas.Text
import Verif.Lemmas.Walk
import Verif.Lemmas.Invariants

/-! # The formatting functions write the serialization -/

namespace XmlDom

open Spec

theorem escape_eq_esc (s : Str) : escape s = esc s := by
  obtain ⟨e1, e2, e3, e4, e5⟩ := toEntity_special
  induction s with
  | nil => rfl
  | cons c cs ih =>
    rw [escape.eq_2, ih, e1, e2, e3, e4, e5]
    unfold esc
    rw [List.flatMap_cons]
    congr 1
    unfold escChar
    by_cases h1 : c = '&'
    · subst h1; rfl
    by_cases h2 : c = '\''
    · subst h2; rfl
    by_cases h3 : c = '>'
    · subst h3; rfl
    by_cases h4 : c = '<'
    · subst h4; rfl
    by_cases h5 : c = '"'
    · subst h5; rfl
    simp [h1, h2, h3, h4, h5]

theorem fmtList_append (g : NodeId → Outcome Str) {a b : List NodeId} {s t : Str}
    (ha : fmtList g a = .ok s) (hb : fmtList g b = .ok t) : fmtList g (a ++ b) = .ok (s ++ t) := by
  induction a generalizing s with
  | nil => cases ha; exact hb
  | cons c cs ih =>
    rw [List.cons_append]
    unfold fmtList at ha ⊢
    cases hg : g c with
    | ok x =>
      rw [hg] at ha
      cases hf : fmtList g cs with
      | ok y =>
        rw [hf] at ha
        simp only [Outcome.bind_ok, Outcome.map_ok, Outcome.ok.injEq] at ha
        simp only [Outcome.bind_ok, ih hf, Outcome.map_ok, ← ha, List.append_assoc]
      | err _ => rw [hf] at ha; cases ha
      | panic _ => rw [hf] at ha; cases ha
      | diverge => rw [hf] at ha; cases ha
    | err _ => rw [hg] at ha; cases ha
    | panic _ => rw [hg] at ha; cases ha
    | diverge => rw [hg] at ha; cases ha

theorem fmtList_split (g : NodeId → Outcome Str) {a b : List NodeId} {s : Str}
    (h : fmtList g (a ++ b) = .ok s) :
    ∃ x y, fmtList g a = .ok x ∧ fmtList g b = .ok y ∧ s = x ++ y := by
  induction a generalizing s with
  | nil => exact ⟨[], s, rfl, h, rfl⟩
  | cons c cs ih =>
    rw [List.cons_append] at h
    unfold fmtList at h
    rw [show fmtList g (c :: cs) = (g c).bind fun a => (fmtList g cs).map fun b => a ++ b from rfl]
    cases hg : g c with
    | ok x =>
      rw [hg] at h
      cases hf : fmtList g (cs ++ b) with
      | ok y =>
        obtain ⟨x', y', h1, h2, h3⟩ := ih hf
        rw [hf] at h
        simp only [Outcome.bind_ok, Outcome.map_ok, Outcome.ok.injEq] at h
        refine ⟨x ++ x', y', by simp [h1], h2, ?_⟩
        rw [← h, h3, List.append_assoc]
      | err _ => rw [hf] at h; cases h
      | panic _ => rw [hf] at h; cases h
      | diverge => rw [hf] at h; cases h
    | err _ => rw [hg] at h; cases h
    | panic _ => rw [hg] at h; cases h
    | diverge => rw [hg] at h; cases h

theorem fmtAttribute_of {e : Env} {h : Heap} {a : NodeId} {n v : Str} (ha : AttrOf e h a n v) :
    fmtAttribute e h a = .ok (printAttr (n, v)) := by
  unfold fmtAttribute printAttr quoted
  have hn : (h.get a).name.display = n := ha.name
  rcases ha.value with hv | ⟨hv, rfl⟩
  · rw [hv, hn]; simp
  · rw [hv, hn]; simp [esc]

theorem fmtNode_attribute {e : Env} {h : Heap} {a : NodeId} {n v : Str} (ha : AttrOf e h a n v)
    {fuel : Nat} (hf : 1 ≤ fuel) : fmtNode e h fuel a = .ok (printAttr (n, v)) := by
  cases fuel with
  | zero => exact absurd hf (Nat.not_succ_le_zero 0)
  | succ k =>
    have ht : (h.get a).ntype = .attribute := ha.ntype
    unfold fmtNode
    rw [ht]
    exact fmtAttribute_of ha

theorem fmtAttrs_of {e : Env} {h : Heap} {l : List NodeId} {as : List (Str × Str)}
    (ha : AttrsOf e h l as) {fuel : Nat} (hf : 1 ≤ fuel) :
    fmtList (fun a => (fmtNode e h fuel a).map fun s => ' ' :: s) l = .ok (printAttrs as) := by
  induction ha with
  | nil => rfl
  | cons ha _ ih =>
    unfold fmtList
    rw [fmtNode_attribute ha hf, ih]
    simp [printAttrs]

theorem fmtNode_leaf {e : Env} {h : Heap} {n : NodeId} {l : Spec.Leaf} (hl : LeafOf e h n l)
    {fuel : Nat} (hf : 1 ≤ fuel) : fmtNode e h fuel n = .ok l.print := by
  cases fuel with
  | zero => exact absurd hf (Nat.not_succ_le_zero 0)
  | succ k =>
    cases hl with
    | blank ht hv =>
      replace hv : (h.get n).value = none := hv
      rcases ht with ht | ht | ht <;>
      · replace ht : (h.get n).ntype = _ := ht
        unfold fmtNode
        rw [ht]
        simp [fmtText, fmtComment, fmtCdata, charData, hv, Spec.Leaf.print]
    | text ht hv =>
      replace hv : (h.get n).value = _ := hv
      replace ht : (h.get n).ntype = _ := ht
      unfold fmtNode
      rw [ht]
      simp [fmtText, charData, hv, ht, Spec.Leaf.print, escape_eq_esc]
    | comment ht hv =>
      replace hv : (h.get n).value = _ := hv
      replace ht : (h.get n).ntype = _ := ht
      unfold fmtNode
      rw [ht]
      simp [fmtComment, charData, hv, ht, Spec.Leaf.print, escape_eq_esc, Syn.commentStart,
        Syn.commentEnd]
    | cdata ht hv =>
      replace hv : (h.get n).value = _ := hv
      replace ht : (h.get n).ntype = _ := ht
      unfold fmtNode
      rw [ht]
      simp [fmtCdata, charData, hv, ht, Spec.Leaf.print, Syn.cdataStart, Syn.cdataEnd]
    | pi ht =>
      replace ht : (h.get n).ntype = _ := ht
      unfold fmtNode
      rw [ht]
      simp only [fmtProcessingInstruction, nodeValue, nodeName]
      cases (h.get n).value <;> simp [Spec.Leaf.print, Syn.piStart, Syn.piEnd]
    | entityRef ht =>
      replace ht : (h.get n).ntype = _ := ht
      unfold fmtNode
      rw [ht]
      simp [fmtEntityReference, nodeName, Spec.Leaf.print, Syn.entityrefStart, Syn.entityrefEnd]
    | «attribute» ha => exact fmtNode_attribute ha hf
    | @entity p s nn ht hx =>
      replace ht : (h.get n).ntype = _ := ht
      unfold fmtNode
      rw [ht]
      simp only [fmtEntity, hx, nodeValue, nodeName]
      cases p <;> cases s <;> cases nn <;>
        simp [Spec.Leaf.print, externalId, keyed, quoted, Syn.entityStart, Syn.entityEnd,
          Syn.doctypePublic, Syn.doctypeSystem]
    | @«notation» p s ht hx =>
      replace ht : (h.get n).ntype = _ := ht
      unfold fmtNode
      rw [ht]
      simp only [fmtNotation, hx, nodeName]
      cases p <;> cases s <;>
        simp [Spec.Leaf.print, externalId, keyed, quoted, Syn.notationStart, Syn.notationEnd,
          Syn.doctypePublic, Syn.doctypeSystem]

theorem display_printDecl (d : XmlDecl) : d.display = printDecl d := by
  obtain ⟨v, x, s⟩ := d
  unfold XmlDecl.display printDecl
  cases v <;> cases x <;> rcases s with _ | _ | _ <;>
    simp [XmlVersion.display, quoted, Syn.declStart, Syn.declVersion, Syn.version10,
      Syn.version11, Syn.declEncoding, Syn.declStandalone, Syn.standaloneYes, Syn.standaloneNo,
      Syn.declEnd]

theorem Spec.Shows.isNil {e : Env} {h : Heap} {ns : List NodeId} {x : Xml} (hs : Shows e h ns x) :
    x.isNil = true ↔ ns = [] := by
  cases hs <;> simp [Xml.isNil]

/-- The formatting functions write the serialization of what they are given. -/
theorem fmtList_shows {e : Env} {h : Heap} (he : e.Ok) {ns : List NodeId} {x : Xml}
    (hs : Shows e h ns x) :
    ∀ fuel, x.height + 1 ≤ fuel → fmtList (fmtNode e h fuel) ns = .ok x.print := by
  induction hs with
  | nil => intro _ _; rfl
  | leaf hl _ ih =>
    intro fuel hf
    simp only [Xml.height] at hf
    unfold fmtList
    rw [fmtNode_leaf hl (by omega), ih fuel (by omega)]
    simp [Xml.print]
  | @element n ns as kids rest ht ha _ _ ihk ihr =>
    intro fuel hf
    simp only [Xml.height] at hf
    cases fuel with
    | zero => omega
    | succ fuel =>
      replace ht : (h.get n).ntype = _ := ht
      have hk : fmtList (fmtNode e h fuel) (h.get n).children = .ok kids.print :=
        ihk fuel (by omega)
      unfold fmtList
      rw [ihr (fuel + 1) (by omega)]
      unfold fmtNode
      simp only [ht]
      unfold fmtElement
      rw [fmtAttrs_of ha (by omega), Outcome.bind_ok, hk]
      simp [Xml.print, nodeName, Syn.elementStartStart, Syn.elementStartEnd, Syn.elementEndStart,
        Syn.elementEndEnd]
  | @docType n ns x decls rest ht hx hd _ ihd ihr =>
    intro fuel hf
    simp only [Xml.height] at hf
    cases fuel with
    | zero => omega
    | succ fuel =>
      replace ht : (h.get n).ntype = _ := ht
      have hd' := ihd fuel (by omega)
      rw [List.map_append] at hd'
      obtain ⟨s1, s2, h1, h2, h3⟩ := fmtList_split _ hd'
      unfold fmtList
      rw [ihr (fuel + 1) (by omega)]
      unfold fmtNode
      simp only [ht]
      have hnil : decls.isNil = true ↔ x.entities = [] ∧ x.notations = [] := by
        rw [hd.isNil, List.map_eq_nil_iff, List.append_eq_nil_iff]
        have p1 := he.attrOrder n x.entities
        have p2 := he.attrOrder n x.notations
        constructor
        · rintro ⟨h4, h5⟩
          rw [h4] at p1; rw [h5] at p2
          exact ⟨p1.symm.eq_nil, p2.symm.eq_nil⟩
        · rintro ⟨h4, h5⟩
          rw [h4] at p1; rw [h5] at p2
          exact ⟨by rw [h4]; exact p1.eq_nil, by rw [h5]; exact p2.eq_nil⟩
      have hcond : (0 < x.entities.length + x.notations.length ∨ x.internalSubset.isSome = true) ↔
          ¬ (decls.isNil = true ∧ x.internalSubset = none) := by
        rw [hnil]
        cases x.entities <;> cases x.notations <;> cases x.internalSubset <;> simp <;> omega
      unfold fmtDocumentType
      simp only [hx]
      by_cases hc : decls.isNil = true ∧ x.internalSubset = none
      · rw [if_neg (fun h' => (hcond.mp h') hc)]
        cases x.publicId <;> cases x.systemId <;>
          simp [Xml.print, nodeName, hc, keyed, quoted, Syn.doctypeStart, Syn.doctypePublic,
            Syn.doctypeSystem, Syn.doctypeEnd]
      · rw [if_pos (hcond.mpr hc), h1, h2]
        cases x.publicId <;> cases x.systemId <;>
          simp [Xml.print, nodeName, if_neg hc, keyed, quoted, Syn.doctypeStart,
            Syn.doctypePublic, Syn.doctypeSystem, Syn.doctypeEnd, Syn.doctypeEntityStart,
            Syn.doctypeEntityEnd, h3]
  | @document n ns dtd kids rest ht _ _ _ ihd ihk ihr =>
    intro fuel hf
    simp only [Xml.height] at hf
    cases fuel with
    | zero => omega
    | succ fuel =>
      replace ht : (h.get n).ntype = _ := ht
      have hk : fmtList (fmtNode e h fuel) (h.get n).children = .ok kids.print :=
        ihk fuel (by omega)
      have hd := ihd fuel (by omega)
      have hone : ∀ t, docType h n = some t → fmtNode e h fuel t = .ok dtd.print := by
        intro t hdo
        rw [hdo] at hd
        simp only [Option.toList, fmtList] at hd
        cases hg : fmtNode e h fuel t with
        | ok s => rw [hg] at hd; simpa using hd
        | err _ => rw [hg] at hd; cases hd
        | panic _ => rw [hg] at hd; cases hd
        | diverge => rw [hg] at hd; cases hd
      unfold fmtList
      rw [ihr (fuel + 1) (by omega)]
      unfold fmtNode
      simp only [ht]
      unfold fmtDocument
      rw [hk]
      cases hdo : docType h n with
      | none =>
        rw [hdo] at hd
        have hp : dtd.print = [] := by simpa [fmtList] using hd.symm
        cases xmlDeclaration h n <;> simp [Xml.print, display_printDecl, hp]
      | some t =>
        simp only [hone t hdo]
        cases xmlDeclaration h n <;> simp [Xml.print, display_printDecl]
  | @fragment n ns kids rest ht _ _ ihk ihr =>
    intro fuel hf
    simp only [Xml.height] at hf
    cases fuel with
    | zero => omega
    | succ fuel =>
      replace ht : (h.get n).ntype = _ := ht
      have hk : fmtList (fmtNode e h fuel) (h.get n).children = .ok kids.print :=
        ihk fuel (by omega)
      unfold fmtList
      rw [ihr (fuel + 1) (by omega)]
      unfold fmtNode
      simp only [ht]
      unfold fmtDocumentFragment
      rw [hk]
      simp [Xml.print, nodeName, Syn.cdataStart, Syn.cdataEnd]


/-! ## Finite trees have a text form -/

/-- The values of the attributes of the node, and its own if it is one, can be read. -/
def Readable (e : Env) (h : Heap) (m : NodeId) : Prop :=
  (nodeType h m = .attribute → (attrValue e.uni h m).IsOk) ∧
    ∀ k a, (k, a) ∈ attributes h m → (attrValue e.uni h a).IsOk

/-- A value that is read is an escaped string. -/
theorem attrValue_esc {u : Uni} {h : Heap} {a : NodeId} (hv : (attrValue u h a).IsOk) :
    ∃ v, attrValue u h a = .ok (some (esc v)) ∨ attrValue u h a = .ok none ∧ v = [] := by
  unfold attrValue at hv ⊢
  split
  · exact ⟨[], Or.inr ⟨rfl, rfl⟩⟩
  · rename_i hc
    rw [if_neg hc] at hv
    cases hx : normalizeAttrValue u (resolveEntity h a) false 1 (attrRaw h a) with
    | ok s => exact ⟨s, Or.inl (by simp [escape_eq_esc])⟩
    | err _ => rw [hx] at hv; exact absurd hv (by simp)
    | panic _ => rw [hx] at hv; exact absurd hv (by simp)
    | diverge => rw [hx] at hv; exact absurd hv (by simp)

theorem attrOf_exists {e : Env} {h : Heap} {a : NodeId} (ht : nodeType h a = .attribute)
    (hv : (attrValue e.uni h a).IsOk) : ∃ v, AttrOf e h a (nodeName h a).display v := by
  obtain ⟨v, hv⟩ := attrValue_esc hv
  exact ⟨v, ht, rfl, hv⟩

theorem attrsOf_exists {e : Env} {h : Heap} (l : List NodeId)
    (hl : ∀ a ∈ l, nodeType h a = .attribute ∧ (attrValue e.uni h a).IsOk) :
    ∃ as, AttrsOf e h l as := by
  induction l with
  | nil => exact ⟨[], .nil⟩
  | cons a l ih =>
    obtain ⟨h1, h2⟩ := hl a (by simp)
    obtain ⟨v, hv⟩ := attrOf_exists h1 h2
    obtain ⟨as, has⟩ := ih (fun b hb => hl b (by simp [hb]))
    exact ⟨_, .cons hv has⟩

/-- A finite tree of a reachable state whose attribute values can be read has a text form. -/
theorem shows_exists {e : Env} (he : e.Ok) {h : Heap} (i : Inv h) {l : List NodeId} {f : Forest}
    (hf : Unfolds h l f) (hl : ∀ m ∈ l, h.live m = true)
    (hread : ∀ m ∈ f.preorder, Readable e h m)
    (hdt : ∀ m ∈ f.preorder, ∀ t, docType h m = some t → nodeType h t = .documentType) :
    ∃ x, Shows e h l x ∧ x.height ≤ f.height + 1 := by
  induction hf with
  | nil => exact ⟨.nil, .nil, Nat.zero_le _⟩
  | @cons n l kids rest hk hr ihk ihr =>
    have hn := hl n (by simp)
    obtain ⟨xk, k1, k2⟩ := ihk (fun m hm => i.wf.child hn hm)
      (fun m hm => hread m (by simp [Forest.preorder, hm]))
      (fun m hm => hdt m (by simp [Forest.preorder, hm]))
    obtain ⟨xr, r1, r2⟩ := ihr (fun m hm => hl m (by simp [hm]))
      (fun m hm => hread m (by simp [Forest.preorder, hm]))
      (fun m hm => hdt m (by simp [Forest.preorder, hm]))
    obtain ⟨q1, q2⟩ := hread n (by simp [Forest.preorder])
    have hd := hdt n (by simp [Forest.preorder])
    have hx := i.exts n (i.wf.fresh n hn)
    have leaf : ∀ y, LeafOf e h n y →
        ∃ x, Shows e h (n :: l) x ∧ x.height ≤ (Forest.cons n kids rest).height + 1 := by
      intro y hy
      refine ⟨_, .leaf hy r1, ?_⟩
      simp only [Xml.height, Forest.height]
      omega
    cases ht : (h.get n).ntype with
    | element =>
      obtain ⟨as, has⟩ := attrsOf_exists ((e.attrOrder n (attributes h n)).map (·.2)) (by
        intro a ha
        obtain ⟨⟨k, b⟩, hkb, rfl⟩ := List.mem_map.mp ha
        have hkb := (he.attrOrder n _).mem_iff.mp hkb
        refine ⟨?_, q2 k b hkb⟩
        rw [ht] at hx
        obtain ⟨attrs, nss, hx⟩ := hx
        have hat : attributes h n = attrs := by
          unfold attributes
          rw [if_pos ht, hx]
        rw [hat] at hkb
        exact ((i.attrKeys n attrs nss hn hx).2.2 k b hkb).1)
      refine ⟨_, .element ht has k1 r1, ?_⟩
      simp only [Xml.height, Forest.height]
      omega
    | «attribute» =>
      obtain ⟨v, hv⟩ := attrOf_exists ht (q1 ht)
      exact leaf _ (.attribute hv)
    | text =>
      cases hv : (h.get n).value with
      | none => exact leaf _ (.blank (Or.inl ht) hv)
      | some s => exact leaf _ (.text ht hv)
    | cdata =>
      cases hv : (h.get n).value with
      | none => exact leaf _ (.blank (Or.inr (Or.inr ht)) hv)
      | some s => exact leaf _ (.cdata ht hv)
    | comment =>
      cases hv : (h.get n).value with
      | none => exact leaf _ (.blank (Or.inr (Or.inl ht)) hv)
      | some s => exact leaf _ (.comment ht hv)
    | processingInstruction => exact leaf _ (.pi ht)
    | entityReference => exact leaf _ (.entityRef ht)
    | entity =>
      rw [ht] at hx
      obtain ⟨p, s, hx⟩ := hx
      exact leaf _ (.entity ht hx)
    | notationNode =>
      rw [ht] at hx
      obtain ⟨p, s, hx⟩ := hx
      exact leaf _ (.notation ht hx)
    | documentType =>
      rw [ht] at hx
      obtain ⟨p, s, hx⟩ := hx
      have hnil : Shows e h (((e.attrOrder n []) ++ (e.attrOrder n [])).map (·.2)) .nil := by
        rw [(he.attrOrder n []).eq_nil]; exact .nil
      refine ⟨_, .docType ht hx hnil r1, ?_⟩
      simp only [Xml.height, Forest.height]
      omega
    | documentFragment =>
      refine ⟨_, .fragment ht k1 r1, ?_⟩
      simp only [Xml.height, Forest.height]
      omega
    | document =>
      have hd : ∃ y, Shows e h (docType h n).toList y ∧ y.height ≤ 1 := by
        cases hdo : docType h n with
        | none => exact ⟨.nil, .nil, Nat.zero_le _⟩
        | some t =>
          have htt : (h.get t).ntype = .documentType := hd t hdo
          have htl : h.live t = true := by
            rw [ht] at hx
            obtain ⟨x, hx⟩ := hx
            refine i.docTypes n x t hn hx ?_
            unfold docType at hdo
            rw [hx] at hdo
            exact hdo
          have hxt := i.exts t (i.wf.fresh t htl)
          rw [htt] at hxt
          obtain ⟨p, s, hxt⟩ := hxt
          have hnil : Shows e h (((e.attrOrder t []) ++ (e.attrOrder t [])).map (·.2)) .nil := by
            rw [(he.attrOrder t []).eq_nil]; exact .nil
          exact ⟨_, .docType htt hxt hnil .nil, by simp [Xml.height]⟩
      obtain ⟨y, d1, d2⟩ := hd
      refine ⟨_, .document ht d1 k1 r1, ?_⟩
      simp only [Xml.height, Forest.height]
      omega

end XmlDom
