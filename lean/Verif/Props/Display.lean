import Verif.Props.Clone
import Verif.Props.Normalize
import Verif.Props.Serial
import Verif.Lemmas.RoundTrip

/-!
# C90, C91: what normalizing and cloning do to the text form
-/

namespace XmlDom
namespace Props

open Spec

/-! ## Attribute values in two states -/

/-- Two nodes of the same type, name, owner and extension. -/
structure SameKind (x y : Node) : Prop where
  ntype : y.ntype = x.ntype
  name : y.name = x.name
  owner : y.owner = x.owner
  ext : y.ext = x.ext

theorem SameKind.symm {x y : Node} (s : SameKind x y) : SameKind y x :=
  ⟨s.ntype.symm, s.name.symm, s.owner.symm, s.ext.symm⟩

theorem resolveEntity_same {h h' : Heap} (i : Inv h)
    (hlive : ∀ m, m < h.next → h'.live m = h.live m)
    (hkind : ∀ m, h.live m = true → SameKind (h.get m) (h'.get m)) {n n' : NodeId}
    (hn : h.live n = true) (hk : SameKind (h.get n) (h'.get n')) (hnn : nodeType h n = .attribute)
    (s : Str) : resolveEntity h' n' s = resolveEntity h n s := by
  have ht : (h.get n).ntype = .attribute := hnn
  have ho : ownerDocument h' n' = ownerDocument h n := by
    unfold ownerDocument
    rw [hk.owner]
    cases hx : (h.get n).owner with
    | none => rfl
    | some d =>
      simp only [Heap.upgrade]
      rw [hlive d (i.wf.weak n hn d (by simp [weakRefs, hx]))]
  have hd : resolverDocType h' n' = resolverDocType h n := by
    unfold resolverDocType
    simp only
    rw [hk.ntype, ht, ho]
    simp only
    cases hx : ownerDocument h n with
    | none => rfl
    | some d =>
      have ld := (Heap.upgrade_some.mp hx).2
      simp only
      rw [(hkind d ld).ntype, (hkind d ld).ext]
  have hlt : ∀ t, resolverDocType h n = .ok (some t) → h.live t = true := by
    intro t hx
    unfold resolverDocType at hx
    simp only [ht] at hx
    cases ho : ownerDocument h n with
    | none => rw [ho] at hx; cases hx
    | some d =>
      have ld := (Heap.upgrade_some.mp ho).2
      rw [ho] at hx
      simp only at hx
      split at hx
      · cases hq : (h.get d).ext with
        | document x =>
          rw [hq] at hx
          simp only [Outcome.ok.injEq] at hx
          exact i.docTypes d x t ld hq hx
        | _ => rw [hq] at hx; simp at hx
      · cases hx
  unfold resolveEntity
  rw [hd]
  cases hx : resolverDocType h n with
  | ok o =>
    simp only [Outcome.bind_ok]
    cases o with
    | none => rfl
    | some t =>
      have lt := hlt t hx
      simp only
      rw [(hkind t lt).ntype, (hkind t lt).ext]
      split
      · rename_i htt
        have := i.exts t (i.wf.fresh t lt)
        rw [htt] at this
        obtain ⟨p, s, hq⟩ := this
        rw [hq]
        cases Name.fromStr _ <;> rfl
      · rfl
  | err _ => rfl
  | panic _ => rfl
  | diverge => rfl

theorem normalizeAttrValue_nil (u : Uni) (r : Str → Outcome (Option Str)) :
    normalizeAttrValue u r false 1 [] = .ok [] := by
  unfold normalizeAttrValue
  simp [normalizeEol, trimSpaces]

/-- The value as it is written depends on the raw text only. -/
theorem attrText_same {u : Uni} {h h' : Heap} {a a' : NodeId}
    (hr : ∀ s, resolveEntity h' a' s = resolveEntity h a s) (hraw : attrRaw h' a' = attrRaw h a) :
    (attrValue u h' a').map (fun v => v.getD []) = (attrValue u h a).map (fun v => v.getD []) := by
  have key : ∀ (g : Heap) (b : NodeId), (attrValue u g b).map (fun v => v.getD []) =
      (normalizeAttrValue u (resolveEntity g b) false 1 (attrRaw g b)).map escape := by
    intro g b
    unfold attrValue
    split
    · rename_i hc
      have : attrRaw g b = [] := by unfold attrRaw; rw [hc]; rfl
      rw [this, normalizeAttrValue_nil]
      rfl
    · cases normalizeAttrValue u (resolveEntity g b) false 1 (attrRaw g b) <;> rfl
  rw [key, key, hraw, show resolveEntity h' a' = resolveEntity h a from funext hr]

theorem fmtAttribute_same {e : Env} {h h' : Heap} {a a' : NodeId}
    (hn : (h'.get a').name = (h.get a).name)
    (ht : (attrValue e.uni h' a').map (fun v => v.getD []) =
      (attrValue e.uni h a).map (fun v => v.getD [])) :
    fmtAttribute e h' a' = fmtAttribute e h a := by
  have key : ∀ (g : Heap) (b : NodeId), fmtAttribute e g b =
      ((attrValue e.uni g b).map (fun v => v.getD [])).map fun v =>
        (g.get b).name.display ++ c! "=\"" ++ v ++ c! "\"" := by
    intro g b
    unfold fmtAttribute
    cases attrValue e.uni g b <;> rfl
  rw [key, key, ht, hn]

/-! ## C90 -/

theorem flatMap_same {α β : Type} {f g : α → List β} {l : List α} (h : ∀ x ∈ l, f x = g x) :
    l.flatMap f = l.flatMap g := by
  induction l with
  | nil => rfl
  | cons x l ih =>
    rw [List.flatMap_cons, List.flatMap_cons, h x (by simp), ih fun y hy => h y (by simp [hy])]

/-- What is written for a list of characters and nodes. -/
inductive Writes (g : NodeId → Outcome Str) : List (NodeId ⊕ Char) → Str → Prop
  | nil : Writes g [] []
  | node {c : NodeId} {l : List (NodeId ⊕ Char)} {a b : Str} (h : g c = .ok a)
      (hl : Writes g l b) : Writes g (.inl c :: l) (a ++ b)
  | char {c : Char} {l : List (NodeId ⊕ Char)} {b : Str} (hl : Writes g l b) :
      Writes g (.inr c :: l) (escChar c ++ b)

theorem Writes.chars {g : NodeId → Outcome Str} (s : Str) {l : List (NodeId ⊕ Char)} {b : Str}
    (hl : Writes g l b) : Writes g (s.map .inr ++ l) (esc s ++ b) := by
  induction s with
  | nil => exact hl
  | cons c s ih =>
    rw [esc_cons, List.append_assoc]
    exact .char ih

theorem Writes.chars_inv {g : NodeId → Outcome Str} (s : Str) {l : List (NodeId ⊕ Char)} {t : Str}
    (hl : Writes g (s.map .inr ++ l) t) : ∃ b, t = esc s ++ b ∧ Writes g l b := by
  induction s generalizing t with
  | nil => exact ⟨t, rfl, hl⟩
  | cons c s ih =>
    cases hl with
    | char hl =>
      obtain ⟨b, h1, h2⟩ := ih hl
      exact ⟨b, by rw [h1, esc_cons, List.append_assoc], h2⟩

theorem content_cons (h : Heap) (c : NodeId) (l : List NodeId) : content h (c :: l) =
    (if nodeType h c = .text then (textOf h c).map .inr else [.inl c]) ++ content h l := rfl

theorem fmtList_ok_cons {g : NodeId → Outcome Str} {c : NodeId} {l : List NodeId} {s : Str}
    (h : fmtList g (c :: l) = .ok s) : ∃ a b, g c = .ok a ∧ fmtList g l = .ok b ∧ s = a ++ b := by
  unfold fmtList at h
  cases h1 : g c with
  | ok a =>
    rw [h1] at h
    cases h2 : fmtList g l with
    | ok b =>
      rw [h2] at h
      simp only [Outcome.bind_ok, Outcome.map_ok, Outcome.ok.injEq] at h
      exact ⟨a, b, rfl, rfl, h.symm⟩
    | _ => rw [h2] at h; simp at h
  | _ => rw [h1] at h; simp at h

theorem fmtList_cons_ok {g : NodeId → Outcome Str} {c : NodeId} {l : List NodeId} {a b : Str}
    (h1 : g c = .ok a) (h2 : fmtList g l = .ok b) : fmtList g (c :: l) = .ok (a ++ b) := by
  unfold fmtList
  rw [h1, h2]
  rfl

theorem writes_of_fmtList {h : Heap} {g g' : NodeId → Outcome Str} : ∀ (l : List NodeId) (s : Str),
    (∀ c ∈ l, nodeType h c = .text → ∀ t, g c = .ok t → t = esc (textOf h c)) →
    (∀ c ∈ l, nodeType h c ≠ .text → ∀ t, g c = .ok t → g' c = .ok t) →
    fmtList g l = .ok s → Writes g' (content h l) s := by
  intro l
  induction l with
  | nil => intro s _ _ hs; cases hs; exact .nil
  | cons c l ih =>
    intro s h1 h2 hs
    obtain ⟨a, b, ha, hb, rfl⟩ := fmtList_ok_cons hs
    have hw := ih b (fun c hc => h1 c (by simp [hc])) (fun c hc => h2 c (by simp [hc])) hb
    rw [content_cons]
    by_cases ht : nodeType h c = .text
    · rw [if_pos ht, h1 c (by simp) ht a ha]
      exact hw.chars _
    · rw [if_neg ht]
      exact .node (h2 c (by simp) ht a ha) hw

theorem fmtList_of_writes {h : Heap} {g : NodeId → Outcome Str} : ∀ (l : List NodeId) (s : Str),
    (∀ c ∈ l, nodeType h c = .text → g c = .ok (esc (textOf h c))) →
    Writes g (content h l) s → fmtList g l = .ok s := by
  intro l
  induction l with
  | nil => intro s _ hs; cases hs; rfl
  | cons c l ih =>
    intro s h1 hs
    rw [content_cons] at hs
    by_cases ht : nodeType h c = .text
    · rw [if_pos ht] at hs
      obtain ⟨b, rfl, hw⟩ := hs.chars_inv
      exact fmtList_cons_ok (h1 c (by simp) ht) (ih b (fun c hc => h1 c (by simp [hc])) hw)
    · rw [if_neg ht] at hs
      cases hs with
      | node ha hw => exact fmtList_cons_ok ha (ih _ (fun c hc => h1 c (by simp [hc])) hw)

theorem fmtList_le {g g' : NodeId → Outcome Str} : ∀ (l : List NodeId) (s : Str),
    (∀ c ∈ l, ∀ t, g c = .ok t → g' c = .ok t) → fmtList g l = .ok s → fmtList g' l = .ok s := by
  intro l
  induction l with
  | nil => intro s _ hs; exact hs
  | cons c l ih =>
    intro s h1 hs
    obtain ⟨a, b, ha, hb, rfl⟩ := fmtList_ok_cons hs
    exact fmtList_cons_ok (h1 c (by simp) a ha) (ih b (fun c hc => h1 c (by simp [hc])) hb)

theorem fmtNode_text {e : Env} {h : Heap} {c : NodeId} (ht : nodeType h c = .text) (f : Nat) :
    fmtNode e h (f + 1) c = .ok (esc (textOf h c)) := by
  have ht' : (h.get c).ntype = .text := ht
  unfold fmtNode
  rw [ht']
  simp only [fmtText, charData]
  cases hv : (h.get c).value with
  | none => simp [textOf, nodeValue, hv, esc]
  | some v => simp [textOf, nodeValue, hv, ht', escape_eq_esc]

/-- Text was moved between the text children `T` of `n`, and nothing else. -/
structure TextMoved (h h' : Heap) (n : NodeId) (T : NodeId → Prop) : Prop where
  inv : Inv h
  text : ∀ c, T c → nodeType h c = .text
  live : h'.live = h.live
  kind : ∀ m, SameKind (h.get m) (h'.get m)
  value : ∀ m, ¬ T m → (h'.get m).value = (h.get m).value
  kids : ∀ m, m ≠ n → (h'.get m).children = (h.get m).children
  same : content h' (childNodes h' n) = content h (childNodes h n)
  alone : ∀ m, h.live m = true → m ≠ n → ∀ c ∈ childNodes h m, ¬ T c
  docType : ∀ d t, h.live d = true → docType h d = some t → ¬ T t

theorem TextMoved.attrRaw {h h' : Heap} {n : NodeId} {T : NodeId → Prop} (t : TextMoved h h' n T)
    {a : NodeId} (ha : h.live a = true) : attrRaw h' a = attrRaw h a := by
  have same : ∀ c, ¬ T c → attrChildText (h'.get c) = attrChildText (h.get c) := by
    intro c hc
    unfold attrChildText
    rw [(t.kind c).ntype, t.value c hc]
  by_cases han : a = n
  · subst han
    have key : ∀ (g : Heap) (l : List NodeId), l.flatMap (fun c => attrChildText (g.get c)) =
        (content g l).flatMap (Sum.elim (fun c => attrChildText (g.get c)) fun x => [x]) := by
      intro g l
      induction l with
      | nil => rfl
      | cons c l ih =>
        rw [content_cons, List.flatMap_append, ← ih, List.flatMap_cons]
        congr 1
        by_cases ht : nodeType g c = .text
        · rw [if_pos ht]
          have ht' : (g.get c).ntype = .text := ht
          unfold attrChildText
          rw [ht']
          simp only [List.flatMap_map, Sum.elim_inr]
          cases hv : (g.get c).value with
          | none => simp [textOf, nodeValue, hv]
          | some v => simp [textOf, nodeValue, hv]
        · rw [if_neg ht]
          simp
    unfold XmlDom.attrRaw
    rw [key, key, show content h' (h'.get a).children = content h (h.get a).children from t.same]
    refine flatMap_same fun x hx => ?_
    cases x with
    | inr _ => rfl
    | inl c =>
      simp only [Sum.elim_inl]
      refine same c fun hT => ?_
      have hc := t.text c hT
      unfold content at hx
      obtain ⟨d, _, hd⟩ := List.mem_flatMap.mp hx
      by_cases hdt : nodeType h d = .text
      · rw [if_pos hdt] at hd
        obtain ⟨_, _, hq⟩ := List.mem_map.mp hd
        cases hq
      · rw [if_neg hdt] at hd
        cases List.mem_singleton.mp hd
        exact hdt hc
  · unfold XmlDom.attrRaw
    rw [t.kids a han]
    exact flatMap_same fun c hc => same c (t.alone a ha han c hc)

theorem TextMoved.fmt {e : Env} (he : e.Ok) {h h' : Heap} {n : NodeId} {T : NodeId → Prop}
    (t : TextMoved h h' n T) : ∀ (f : Nat) (q : NodeId), h.live q = true → ¬ T q → ∀ s,
      fmtNode e h f q = .ok s → fmtNode e h' (f + 1) q = .ok s := by
  intro f
  induction f with
  | zero => intro q _ _ s hs; cases hs
  | succ f ih =>
    intro q hq hT s hs
    have i := t.inv
    have hk := t.kind q
    have hv := t.value q hT
    have body : ∀ b, fmtList (fmtNode e h f) (h.get q).children = .ok b →
        fmtList (fmtNode e h' (f + 1)) (h'.get q).children = .ok b := by
      intro b hb
      by_cases hqn : q = n
      · subst hqn
        refine fmtList_of_writes (h := h') _ _ (fun c _ hc => fmtNode_text hc f) ?_
        show Writes _ (content h' (childNodes h' q)) b
        rw [t.same]
        refine writes_of_fmtList (g := fmtNode e h f) _ _ ?_ ?_ hb
        · intro c _ hc u hu
          cases f with
          | zero => cases hu
          | succ f => rw [fmtNode_text hc] at hu; cases hu; rfl
        · intro c hc hct u hu
          exact ih c (i.wf.child hq hc) (fun hTc => hct (t.text c hTc)) u hu
      · rw [t.kids q hqn]
        exact fmtList_le _ _
          (fun c hc u hu => ih c (i.wf.child hq hc) (t.alone q hq hqn c hc) u hu) hb
    unfold fmtNode at hs ⊢
    rw [hk.ntype]
    have hx := i.exts q (i.wf.fresh q hq)
    cases ht : (h.get q).ntype with
    | element =>
      rw [ht] at hs hx
      obtain ⟨attrs, nss, hx⟩ := hx
      simp only [fmtElement] at hs ⊢
      have hat : attributes h' q = attributes h q := by
        unfold attributes; rw [hk.ntype, hk.ext]
      cases ha : fmtList (fun a => (fmtNode e h f a).map fun s => ' ' :: s)
          ((e.attrOrder q (attributes h q)).map (·.2)) with
      | ok as =>
        rw [ha] at hs
        simp only [Outcome.bind_ok] at hs
        cases hb : fmtList (fmtNode e h f) (h.get q).children with
        | ok b =>
          rw [hb] at hs
          have ha' : fmtList (fun a => (fmtNode e h' (f + 1) a).map fun s => ' ' :: s)
              ((e.attrOrder q (attributes h q)).map (·.2)) = .ok as := by
            refine fmtList_le _ _ ?_ ha
            intro c hc u hu
            obtain ⟨⟨k, d⟩, hkd, rfl⟩ := List.mem_map.mp hc
            have hkd := (he.attrOrder q _).mem_iff.mp hkd
            have hatt : attributes h q = attrs := by
              unfold attributes; rw [if_pos ht, hx]
            have hty : (h.get d).ntype = .attribute :=
              ((i.attrKeys q attrs nss hq hx).2.2 k d (hatt ▸ hkd)).1
            have hld : h.live d = true := attributes_live i.wf hq hkd
            cases hg : fmtNode e h f d with
            | ok w =>
              rw [hg] at hu
              show (fmtNode e h' (f + 1) d).map _ = _
              rw [ih d hld (fun hTd => by
                have := t.text d hTd
                rw [show nodeType h d = .attribute from hty] at this
                cases this) w hg]
              exact hu
            | _ => rw [hg] at hu; cases hu
          rw [hat, ha', body b hb, hk.name]
          exact hs
        | _ => rw [hb] at hs; cases hs
      | _ => rw [ha] at hs; cases hs
    | «attribute» =>
      rw [ht] at hs
      simp only at hs ⊢
      rw [fmtAttribute_same hk.name (attrText_same
        (fun s => resolveEntity_same i (fun m _ => by rw [t.live]) (fun m _ => t.kind m) hq hk ht s)
        (t.attrRaw hq))]
      exact hs
    | document =>
      rw [ht] at hs
      simp only [fmtDocument] at hs ⊢
      have hd : XmlDom.docType h' q = XmlDom.docType h q := by unfold XmlDom.docType; rw [hk.ext]
      have hxd : xmlDeclaration h' q = xmlDeclaration h q := by
        unfold xmlDeclaration; rw [hk.ext]
      rw [hd, hxd]
      have key : ∀ (o o' : Outcome Str), (∀ u, o = .ok u → o' = .ok u) →
          (o.bind fun dt => (fmtList (fmtNode e h f) (h.get q).children).map fun body =>
            (match xmlDeclaration h q with
              | none => []
              | some d => d.display) ++ dt ++ body) = .ok s →
          (o'.bind fun dt => (fmtList (fmtNode e h' (f + 1)) (h'.get q).children).map fun body =>
            (match xmlDeclaration h q with
              | none => []
              | some d => d.display) ++ dt ++ body) = .ok s := by
        intro o o' hoo hs
        cases o with
        | ok u =>
          simp only [Outcome.bind_ok] at hs
          cases hb : fmtList (fmtNode e h f) (h.get q).children with
          | ok b =>
            rw [hb] at hs
            rw [hoo u rfl, body b hb]
            exact hs
          | _ => rw [hb] at hs; cases hs
        | _ => cases hs
      cases hdq : XmlDom.docType h q with
      | none => rw [hdq] at hs; exact key _ _ (fun _ h => h) hs
      | some d =>
        rw [hdq] at hs
        refine key _ _ ?_ hs
        refine ih d ?_ (t.docType q d hq hdq)
        unfold XmlDom.docType at hdq
        cases hxq : (h.get q).ext with
        | document x => rw [hxq] at hdq; exact i.docTypes q x d hq hxq hdq
        | _ => rw [hxq] at hdq; cases hdq
    | documentFragment =>
      rw [ht] at hs
      simp only [fmtDocumentFragment] at hs ⊢
      cases hb : fmtList (fmtNode e h f) (h.get q).children with
      | ok b =>
        rw [hb] at hs
        rw [body b hb, hk.name]
        exact hs
      | _ => rw [hb] at hs; cases hs
    | documentType =>
      rw [ht] at hs hx
      obtain ⟨p, s', hx⟩ := hx
      simp only [fmtDocumentType] at hs ⊢
      rw [hk.ext, hk.name, hx]
      rw [hx] at hs
      simpa using hs
    | text => rw [ht] at hs; simp only [fmtText, charData] at hs ⊢; rw [hk.ntype, hv]; exact hs
    | cdata => rw [ht] at hs; simp only [fmtCdata, charData] at hs ⊢; rw [hk.ntype, hv]; exact hs
    | comment => rw [ht] at hs; simp only [fmtComment, charData] at hs ⊢; rw [hk.ntype, hv]; exact hs
    | processingInstruction =>
      rw [ht] at hs; simp only [fmtProcessingInstruction] at hs ⊢; rw [hk.name, hv]; exact hs
    | entity => rw [ht] at hs; simp only [fmtEntity] at hs ⊢; rw [hk.name, hk.ext, hv]; exact hs
    | entityReference =>
      rw [ht] at hs; simp only [fmtEntityReference] at hs ⊢; rw [hk.name]; exact hs
    | notationNode =>
      rw [ht] at hs; simp only [fmtNotation] at hs ⊢; rw [hk.name, hk.ext]; exact hs

/-- C90: `normalize` keeps the text form of every node other than the text children of the
normalized node. The links at that node agree, its texts are children of no other node, and
doc types are document types. -/
theorem C90_display (h : Heap) (hr : Reachable h) (n : NodeId) (hn : h.live n = true)
    (hc : ConsistentAt h n)
    (halone : ∀ p, h.live p = true → p ≠ n → ∀ c ∈ childNodes h p, nodeType h c = .text →
      c ∉ childNodes h n)
    (hdt : ∀ d t, h.live d = true → docType h d = some t → nodeType h t = .documentType) :
    ∃ h', normalize h n = (.ok (), h') ∧ ∀ (e : Env), e.Ok → ∀ q, h.live q = true →
      ¬ (nodeType h q = .text ∧ q ∈ childNodes h n) → ∀ s,
        (∃ f, fmtNode e h f q = .ok s) ↔ ∃ f, fmtNode e h' f q = .ok s := by
  obtain ⟨h', e1, _, e3, o, _⟩ := C24_normalize h hr n hn hc
  have hown := hr.notOwnChild n hn
  have hr' : Reachable h' := by
    have := Reachable.run hr (ops := [(plainEnv, .normalize n)])
      (by intro x hx; cases List.mem_singleton.mp hx; exact plainEnv_ok)
    simpa [run, exec, Op.args, hn, Op.apply, e1, leftBehind] using this
  have hfield : ∀ m, SameKind (h.get m) (h'.get m) ∧
      (¬ (nodeType h m = .text ∧ m ∈ childNodes h n) → (h'.get m).value = (h.get m).value) ∧
      (m ≠ n → (h'.get m).children = (h.get m).children) := by
    intro m
    by_cases hmn : m = n
    · subst hmn
      refine ⟨?_, fun _ => by rw [o.fields], fun hne => absurd rfl hne⟩
      constructor <;> rw [o.fields]
    · by_cases hmc : m ∈ childNodes h n
      · by_cases hmk : m ∈ childNodes h' n
        · obtain ⟨k1, k2⟩ := o.kept m hmk
          refine ⟨?_, fun hT => ?_, fun _ => by rw [k1]⟩
          · constructor <;> rw [k1]
          · rw [k2 fun ht => hT ⟨ht, hmc⟩]
        · obtain ⟨k1, k2⟩ := o.gone m hmc hmk
          refine ⟨?_, fun _ => by rw [k2], fun _ => by rw [k2]⟩
          constructor <;> rw [k2]
      · rw [o.others m hmn hmc]
        exact ⟨⟨rfl, rfl, rfl, rfl⟩, fun _ => rfl, fun _ => rfl⟩
  have nt : ∀ c, nodeType h' c = nodeType h c := fun c => (hfield c).1.ntype
  have t1 : TextMoved h h' n fun c => nodeType h c = .text ∧ c ∈ childNodes h n :=
    { inv := hr.invariant
      text := fun c hc => hc.1
      live := o.live
      kind := fun m => (hfield m).1
      value := fun m => (hfield m).2.1
      kids := fun m => (hfield m).2.2
      same := e3
      alone := fun m hm hmn c hc hT => halone m hm hmn c hc hT.1 hT.2
      docType := fun d t hd ht hT => by
        have := hdt d t hd ht
        rw [hT.1] at this
        cases this }
  have t2 : TextMoved h' h n fun c => nodeType h c = .text ∧ c ∈ childNodes h n :=
    { inv := hr'.invariant
      text := fun c hc => by rw [nt]; exact hc.1
      live := o.live.symm
      kind := fun m => (hfield m).1.symm
      value := fun m hT => ((hfield m).2.1 hT).symm
      kids := fun m hm => ((hfield m).2.2 hm).symm
      same := e3.symm
      alone := fun m hm hmn c hc hT => by
        rw [o.live] at hm
        refine halone m hm hmn c ?_ hT.1 hT.2
        unfold childNodes at hc ⊢
        rwa [(hfield m).2.2 hmn] at hc
      docType := fun d t hd ht hT => by
        rw [o.live] at hd
        have := hdt d t hd (by unfold docType at ht ⊢; rwa [(hfield d).1.ext] at ht)
        rw [hT.1] at this
        cases this }
  refine ⟨h', e1, fun e he q hq hT s => ⟨?_, ?_⟩⟩
  · rintro ⟨f, hf⟩
    exact ⟨_, t1.fmt he f q hq hT s hf⟩
  · rintro ⟨f, hf⟩
    exact ⟨_, t2.fmt he f q (by rw [o.live]; exact hq) hT s hf⟩

/-- C90: in a history of tidy calls only the doc types remain as a condition. -/
theorem C90_tidy (h : Heap) (hr : ReachableBy TidyCall h) (n : NodeId) (hn : h.live n = true)
    (ht : nodeType h n ≠ .attribute)
    (hdt : ∀ d t, h.live d = true → docType h d = some t → nodeType h t = .documentType) :
    ∃ h', normalize h n = (.ok (), h') ∧ ∀ (e : Env), e.Ok → ∀ q, h.live q = true →
      ¬ (nodeType h q = .text ∧ q ∈ childNodes h n) → ∀ s,
        (∃ f, fmtNode e h f q = .ok s) ↔ ∃ f, fmtNode e h' f q = .ok s := by
  refine C90_display h hr.reachable n hn (C24_tidy h hr n hn ht) ?_ hdt
  intro p hp hpn c hc _ hcn
  have h1 := hr.links.up n c hn ht hcn
  by_cases hpa : nodeType h p = .attribute
  · rcases hr.links.attr p c hp hpa hc with h2 | ⟨h2, _⟩
    · rw [h1] at h2; cases h2; exact hpn rfl
    · rw [h1] at h2; cases h2
  · have h2 := hr.links.up p c hp hpa hc
    rw [h1] at h2
    cases h2
    exact hpn rfl

/-- The hypotheses can be met, and the text form of the root stays. -/
example : Reachable (after mixedOps) ∧ ConsistentAt (after mixedOps) 1 ∧
    (∀ p, (after mixedOps).live p = true → p ≠ 1 → ∀ c ∈ childNodes (after mixedOps) p,
      nodeType (after mixedOps) c = .text → c ∉ childNodes (after mixedOps) 1) ∧
    (∀ d, (after mixedOps).live d = true → ∀ t, docType (after mixedOps) d = some t →
      nodeType (after mixedOps) t = .documentType) ∧
    fmtNode plainEnv (after mixedOps) 3 1 = .ok (c! "<r>ab<e></e>cd</r>") ∧
    fmtNode plainEnv (normalize (after mixedOps) 1).2 3 1 = .ok (c! "<r>ab<e></e>cd</r>") :=
  ⟨reachable_after _, ⟨by decide, by decide⟩,
    forall_live (n := 8) (reachable_after _) (by decide) (by
      have : ∀ q : Nat, q < 8 → q = 1 ∨
          ∀ c ∈ childNodes (after mixedOps) q, c ∉ childNodes (after mixedOps) 1 := by decide
      intro q hq hq1 c hc _
      exact (this q hq).resolve_left hq1 c hc),
    forall_live (n := 8) (reachable_after _) (by decide) (by
      have : ∀ d, d < 8 → docType (after mixedOps) d = none := by decide
      intro d hd t ht
      rw [this d hd] at ht
      cases ht), by decide, by decide⟩

/-! ## C91 -/

/-- The text forms of two nodes that agree in everything that is written. -/
theorem fmtNode_step {e : Env} (he : e.Ok) {h h' : Heap} {f : Nat} {n n' : NodeId}
    (hx : ExtFor (h.get n).ntype (h.get n).ext)
    (hk : SameKind (h.get n) (h'.get n')) (hv : (h'.get n').value = (h.get n).value)
    (hord : e.attrOrder n' = e.attrOrder n)
    (hattr : (h.get n).ntype = .attribute → fmtAttribute e h' n' = fmtAttribute e h n)
    (hat : ∀ k a, (k, a) ∈ attributes h n → fmtNode e h' f a = fmtNode e h f a)
    (hdt : ∀ t, docType h n = some t → fmtNode e h' f t = fmtNode e h f t)
    (hb : fmtList (fmtNode e h' f) (h'.get n').children =
      fmtList (fmtNode e h f) (h.get n).children) :
    fmtNode e h' (f + 1) n' = fmtNode e h (f + 1) n := by
  unfold fmtNode
  rw [hk.ntype]
  have fcong : ∀ (g g' : NodeId → Outcome Str) (l : List NodeId), (∀ c ∈ l, g c = g' c) →
      fmtList g l = fmtList g' l := by
    intro g g' l
    induction l with
    | nil => intro _; rfl
    | cons c l ih =>
      intro hc
      unfold fmtList
      rw [hc c (by simp), ih fun c hc' => hc c (by simp [hc'])]
  cases ht : (h.get n).ntype with
  | element =>
    simp only [fmtElement]
    have : attributes h' n' = attributes h n := by unfold attributes; rw [hk.ntype, hk.ext]
    rw [hb, hk.name, this, hord]
    rw [fcong (fun a => (fmtNode e h' f a).map fun s => ' ' :: s)
      (fun a => (fmtNode e h f a).map fun s => ' ' :: s)]
    intro c hc
    obtain ⟨⟨k, d⟩, hkd, rfl⟩ := List.mem_map.mp hc
    rw [hat k d ((he.attrOrder n _).mem_iff.mp hkd)]
  | «attribute» => exact hattr ht
  | document =>
    simp only [fmtDocument]
    have h1 : docType h' n' = docType h n := by unfold docType; rw [hk.ext]
    have h2 : xmlDeclaration h' n' = xmlDeclaration h n := by unfold xmlDeclaration; rw [hk.ext]
    rw [h1, h2, hb]
    cases hd : docType h n with
    | none => rfl
    | some t => simp only; rw [hdt t hd]
  | documentFragment => simp only [fmtDocumentFragment]; rw [hb, hk.name]
  | documentType =>
    rw [ht] at hx
    obtain ⟨p, s, hx⟩ := hx
    simp only [fmtDocumentType]
    rw [hk.ext, hk.name, hx]
    simp
  | text => simp only [fmtText, charData]; rw [hk.ntype, hv]
  | cdata => simp only [fmtCdata, charData]; rw [hk.ntype, hv]
  | comment => simp only [fmtComment, charData]; rw [hk.ntype, hv]
  | processingInstruction => simp only [fmtProcessingInstruction]; rw [hk.name, hv]
  | entity => simp only [fmtEntity]; rw [hk.name, hk.ext, hv]
  | entityReference => simp only [fmtEntityReference]; rw [hk.name]
  | notationNode => simp only [fmtNotation]; rw [hk.name, hk.ext]

theorem docType_live {h : Heap} (i : Inv h) {d t : NodeId} (hd : h.live d = true)
    (ht : docType h d = some t) : h.live t = true := by
  unfold docType at ht
  cases hx : (h.get d).ext with
  | document x => rw [hx] at ht; exact i.docTypes d x t hd hx ht
  | _ => rw [hx] at ht; cases ht

/-- New nodes do not change the text form of old ones. -/
theorem fmtNode_untouched {e : Env} (he : e.Ok) {h h' : Heap} (i : Inv h) (u : Untouched h h') :
    ∀ (f : Nat) (n : NodeId), h.live n = true → fmtNode e h' f n = fmtNode e h f n := by
  intro f
  induction f with
  | zero => intro n _; rfl
  | succ f ih =>
    intro n hn
    have g := u.get n (i.wf.fresh n hn)
    have kind : ∀ m, h.live m = true → SameKind (h.get m) (h'.get m) := by
      intro m hm
      rw [u.get m (i.wf.fresh m hm)]
      exact ⟨rfl, rfl, rfl, rfl⟩
    refine fmtNode_step he (i.exts n (i.wf.fresh n hn)) (kind n hn) (by rw [g]) rfl ?_ ?_ ?_ ?_
    · intro ht
      refine fmtAttribute_same (by rw [g]) (attrText_same
        (fun s => resolveEntity_same i u.live kind hn (kind n hn) ht s) ?_)
      unfold attrRaw
      rw [g]
      refine flatMap_same fun c hc => ?_
      rw [u.get c (i.wf.fresh c (i.wf.child hn hc))]
    · exact fun k a ha => ih a (attributes_live i.wf hn ha)
    · exact fun t ht => ih t (docType_live i hn ht)
    · rw [g]
      have : ∀ l : List NodeId, (∀ c ∈ l, h.live c = true) →
          fmtList (fmtNode e h' f) l = fmtList (fmtNode e h f) l := by
        intro l
        induction l with
        | nil => intro _; rfl
        | cons c l ihl =>
          intro hl
          unfold fmtList
          rw [ih c (hl c (by simp)), ihl fun c hc => hl c (by simp [hc])]
      exact this _ fun c hc => i.wf.child hn hc

/-- Copies have the text form of what they are copies of. -/
theorem fmtList_copies {e : Env} (he : e.Ok) (hord : ∀ n m, e.attrOrder n = e.attrOrder m)
    {h h' : Heap} (i : Inv h) (u : Untouched h h') : ∀ (f : Nat) (F F' : Forest) (l l' : List NodeId),
      RawCopies h h' F F' → Unfolds h l F → Unfolds h' l' F' → (∀ n ∈ F.preorder, h.live n = true) →
      fmtList (fmtNode e h' f) l' = fmtList (fmtNode e h f) l := by
  intro f
  induction f with
  | zero =>
    intro F F' l l' hc hu hu' _
    cases hc with
    | nil => cases hu; cases hu'; rfl
    | cons _ _ _ => cases hu; cases hu'; rfl
  | succ f ih =>
    intro F F' l l' hc
    induction hc generalizing l l' with
    | nil => intro hu hu' _; cases hu; cases hu'; rfl
    | @cons n m kids kids' rest rest' cs hg hk hr _ ihr =>
      intro hu hu' hl
      cases hu with
      | cons uk ur =>
        cases hu' with
        | cons uk' ur' =>
          have hn := hl n (by simp [Forest.preorder])
          have kind : SameKind (h.get n) (h'.get m) := by rw [hg]; exact ⟨rfl, rfl, rfl, rfl⟩
          have kinds : ∀ q, h.live q = true → SameKind (h.get q) (h'.get q) := by
            intro q hq
            rw [u.get q (i.wf.fresh q hq)]
            exact ⟨rfl, rfl, rfl, rfl⟩
          have hkl : ∀ q ∈ kids.preorder, h.live q = true :=
            fun q hq => hl q (by simp [Forest.preorder, hq])
          have hnode : fmtNode e h' (f + 1) m = fmtNode e h (f + 1) n := by
            refine fmtNode_step he (i.exts n (i.wf.fresh n hn)) kind (by rw [hg]) (hord m n)
              ?_ ?_ ?_ ?_
            · intro ht
              refine fmtAttribute_same kind.name (attrText_same
                (fun s => resolveEntity_same i u.live kinds hn kind ht s) ?_)
              have : ∀ (K K' : Forest) (a a' : List NodeId), RawCopies h h' K K' → Unfolds h a K →
                  Unfolds h' a' K' → a'.flatMap (fun c => attrChildText (h'.get c)) =
                    a.flatMap (fun c => attrChildText (h.get c)) := by
                intro K K' a a' hc
                induction hc generalizing a a' with
                | nil => intro x y; cases x; cases y; rfl
                | cons hg _ _ _ ih =>
                  intro x y
                  cases x with
                  | cons _ x =>
                    cases y with
                    | cons _ y =>
                      rw [List.flatMap_cons, List.flatMap_cons, ih _ _ x y]
                      congr 1
                      unfold attrChildText
                      rw [hg]
              exact this kids kids' _ _ hk uk uk'
            · exact fun k a ha => fmtNode_untouched he i u f a (attributes_live i.wf hn ha)
            · exact fun t ht => fmtNode_untouched he i u f t (docType_live i hn ht)
            · exact ih kids kids' _ _ hk uk uk' hkl
          unfold fmtList
          rw [hnode, ihr _ _ ur ur' fun q hq => hl q (by simp [Forest.preorder, hq])]

/-- C91: a deep clone has the text form of the original, in an environment where a cloned map
is iterated in the order of the original. -/
theorem C91_display (e : Env) (he : e.Ok) (hord : ∀ n m, e.attrOrder n = e.attrOrder m) (h : Heap)
    (hr : Reachable h) (n : NodeId) (hn : h.live n = true) (F : Forest) (hf : Unfolds h [n] F)
    (fuel : Nat) (hfuel : F.height ≤ fuel) :
    ∃ m h', cloneNode fuel h n true = (.ok m, h') ∧ ∀ f, fmtNode e h' f m = fmtNode e h f n := by
  have i := hr.invariant
  have hl : ∀ x ∈ F.preorder, h.live x = true := hf.live i.wf (by simpa using hn)
  obtain ⟨l', h', F', e1, u, un, rc, _, _, len⟩ := cloneList_copies hf h fuel (.refl h)
    (fun x hx => i.wf.fresh x (hl x hx)) hfuel
  unfold cloneList cloneList at e1
  generalize hq : cloneNode fuel h n true = q at e1
  obtain ⟨o, h1⟩ := q
  cases o with
  | ok m =>
    simp only [Prod.mk.injEq, Outcome.ok.injEq] at e1
    obtain ⟨rfl, rfl⟩ := e1
    refine ⟨m, h1, rfl, fun f => ?_⟩
    have := fmtList_copies he hord i u f F F' [n] [m] rc hf un hl
    simp only [fmtList] at this
    revert this
    cases fmtNode e h1 f m <;> cases fmtNode e h f n <;> simp
  | err _ => simp at e1
  | panic _ => simp at e1
  | diverge => simp at e1

/-- C91: a clone without children has the text form of an element without children. -/
theorem C91_shallow (e : Env) (he : e.Ok) (hord : ∀ n m, e.attrOrder n = e.attrOrder m) (h : Heap)
    (hr : Reachable h) (n : NodeId) (hn : h.live n = true) (hc : childNodes h n = []) (k : Nat) :
    ∃ m h', cloneNode (k + 1) h n false = (.ok m, h') ∧ ∀ f, fmtNode e h' f m = fmtNode e h f n := by
  obtain ⟨m, h', h1, h2⟩ := C91_display e he hord h hr n hn (.cons n .nil .nil)
    (.cons (by rw [hc]; exact .nil) .nil) (k + 1) (by simp [Forest.height])
  refine ⟨m, h', ?_, h2⟩
  rw [← h1]
  have hc' : (h.get n).children = [] := hc
  unfold cloneNode
  simp [hc', cloneList]

example : Reachable (after walkOps) ∧ (∀ n m, plainEnv.attrOrder n = plainEnv.attrOrder m) ∧
    (cloneNode 3 (after walkOps) 1 true).1 = .ok 10 ∧
    fmtNode plainEnv (cloneNode 3 (after walkOps) 1 true).2 4 10 =
      .ok (c! "<r><a><b></b>t</a><b></b></r>") :=
  ⟨reachable_after _, fun _ _ => rfl, by decide, by decide⟩

end Props
end XmlDom
