import Verif.Spec.Normal
import Verif.Spec.History
import Verif.Props.Split
import Verif.Props.History

/-!
# C24-C26: `normalize`
-/

namespace XmlDom
namespace Props

open Spec

/-! ## Lemmas -/

theorem NormalList_congr {h h' : Heap} {l : List NodeId}
    (ht : ∀ c ∈ l, nodeType h' c = nodeType h c)
    (hv : ∀ c ∈ l, nodeType h c = .text → textOf h' c = [] → textOf h c = [])
    (hn : NormalList h l) : NormalList h' l := by
  constructor
  · intro c hc h1 h2
    rw [ht c hc] at h1
    exact hn.full c hc h1 (hv c hc h1 h2)
  · intro a x y b hl hxy
    rw [ht x (by rw [hl]; simp), ht y (by rw [hl]; simp)] at hxy
    exact hn.apart a x y b hl hxy

theorem NormalList_snoc {h : Heap} {l : List NodeId} {c : NodeId} (hn : NormalList h l)
    (hc : nodeType h c = .text → textOf h c ≠ [])
    (hl : ∀ x, l.getLast? = some x → ¬ (nodeType h x = .text ∧ nodeType h c = .text)) :
    NormalList h (l ++ [c]) := by
  constructor
  · intro x hx ht
    rcases List.mem_append.mp hx with hx | hx
    · exact hn.full x hx ht
    · rw [List.mem_singleton] at hx; subst hx; exact hc ht
  · intro a x y b he hxy
    rcases List.eq_nil_or_concat b with rfl | ⟨b', z, rfl⟩
    · have : l ++ [c] = (a ++ [x]) ++ [y] := by rw [he]; simp
      obtain ⟨h1, h2⟩ := List.append_inj' this rfl
      cases h2
      exact hl x (by rw [h1]; simp) hxy
    · have : l ++ [c] = (a ++ x :: y :: b') ++ [z] := by rw [he]; simp
      obtain ⟨h1, _⟩ := List.append_inj' this rfl
      exact hn.apart a x y b' h1 hxy

theorem content_congr {h h' : Heap} {l : List NodeId}
    (ht : ∀ c ∈ l, nodeType h' c = nodeType h c) (hv : ∀ c ∈ l, textOf h' c = textOf h c) :
    content h' l = content h l := by
  unfold content
  induction l with
  | nil => rfl
  | cons c l ih =>
    simp only [List.flatMap_cons]
    rw [ih (fun x hx => ht x (by simp [hx])) (fun x hx => hv x (by simp [hx])),
      ht c (by simp), hv c (by simp)]

theorem content_append (h : Heap) (a b : List NodeId) :
    content h (a ++ b) = content h a ++ content h b := by simp [content]

theorem content_text {h : Heap} {c : NodeId} (ht : nodeType h c = .text) (l : List NodeId) :
    content h (c :: l) = (textOf h c).map .inr ++ content h l := by simp [content, ht]

theorem charLength_text {h : Heap} {c : NodeId} (ht : (h.get c).ntype = .text) :
    charLength h c = 0 ↔ textOf h c = [] := by
  unfold charLength charData textOf nodeValue
  cases hv : (h.get c).value with
  | none => simp
  | some v =>
    simp only [ht, true_or, if_true, byteLen_eq_zero, Option.getD_some]
    constructor
    · intro he
      have := byteLen_le_escape v
      rw [he] at this
      exact byteLen_eq_zero.mp (Nat.le_zero.mp this)
    · rintro rfl; rfl

/-- What the loop of `normalize` does to the rest of the child list, when the part before
it is done. -/
theorem normalizeLoop_spec (self : NodeId) : ∀ (rest : List NodeId) (h : Heap)
    (done : List NodeId), (h.get self).children = done ++ rest → (done ++ rest).Nodup →
    (∀ c ∈ done ++ rest, parentNode h c = some self) → self ∉ done ++ rest → NormalList h done →
    ∃ h', normalizeLoop self rest h = (.ok (), h') ∧ OnlyText h h' self ∧
      (∀ c ∈ done, c ∈ childNodes h' self) ∧ NormalAt h' self ∧
      content h' (childNodes h' self) = content h (done ++ rest) := by
  intro rest
  induction rest with
  | nil =>
    intro h done hc hnd hp hs hn
    refine ⟨h, rfl, ?_, ?_, ?_, ?_⟩
    · exact ⟨rfl, rfl, rfl, List.Sublist.refl _, fun c h1 h2 => absurd h1 h2,
        fun c _ => ⟨rfl, fun _ => rfl⟩, fun c _ _ => rfl⟩
    · intro c hc'; unfold childNodes; rw [hc]; simpa using hc'
    · unfold NormalAt childNodes; rw [hc]; simpa using hn
    · unfold childNodes; rw [hc]
  | cons c cs ih =>
    intro h done hc hnd hp hs hn
    have hcp := hp c (by simp)
    obtain ⟨k1, k2, k3⟩ := parentNode_eq_some.mp hcp
    have hcd : c ∉ done := (nodup_split hnd).1
    have hcc : c ∉ cs := (nodup_split hnd).2
    have hcs : c ≠ self := by rintro rfl; exact hs (by simp)
    have hnd' : (done ++ cs).Nodup := by
      rw [List.nodup_append] at hnd ⊢
      exact ⟨hnd.1, (List.nodup_cons.mp hnd.2.1).2, fun a ha b hb => hnd.2.2 a ha b (by simp [hb])⟩
    have herase : (done ++ c :: cs).erase c = done ++ cs := by
      rw [List.erase_append_right _ hcd]; simp
    -- going on with `c` kept
    have keep : NormalList h (done ++ [c]) → ∃ h', normalizeLoop self cs h = (.ok (), h') ∧
        OnlyText h h' self ∧ (∀ x ∈ done, x ∈ childNodes h' self) ∧ NormalAt h' self ∧
        content h' (childNodes h' self) = content h (done ++ c :: cs) := by
      intro hn'
      obtain ⟨h', e1, e2, e3, e4, e5⟩ := ih h (done ++ [c]) (by rw [hc]; simp) (by simpa using hnd)
        (by simpa using hp) (by simpa using hs) hn'
      exact ⟨h', e1, e2, fun x hx => e3 x (by simp [hx]), e4, by rw [e5]; simp⟩
    -- going on with `c` taken out, when text of nodes in `done` may have grown
    have drop : ∀ h1 : Heap, h1.live = h.live → h1.next = h.next → nodeType h c = .text →
        (h1.get self = h.get self) → (h1.get c = h.get c) →
        (∀ x, h1.get x = { h.get x with value := (h1.get x).value }) →
        (∀ x, x ∉ done → h1.get x = h.get x) →
        (∀ x, nodeType h x ≠ .text → h1.get x = h.get x) →
        (∀ x ∈ done, nodeType h x = .text → textOf h1 x = [] → textOf h x = []) →
        content h1 (done ++ cs) = content h (done ++ c :: cs) →
        ∃ h', normalizeLoop self cs (h1.unlink self c) = (.ok (), h') ∧ OnlyText h h' self ∧
        (∀ x ∈ done, x ∈ childNodes h' self) ∧ NormalAt h' self ∧
        content h' (childNodes h' self) = content h (done ++ c :: cs) := by
      intro h1 hlv hnx ht hself hc1 hval hout hnt hgrow hcont
      have gt : ∀ x, nodeType (h1.unlink self c) x = nodeType h x := by
        intro x; unfold nodeType; rw [get_unlink, hval x]
      have gv : ∀ x, textOf (h1.unlink self c) x = textOf h1 x := by
        intro x; unfold textOf nodeValue; rw [get_unlink]
      have hc2 : ((h1.unlink self c).get self).children = done ++ cs := by
        rw [get_unlink, hself, hc]; simp [herase]
      obtain ⟨h', e1, e2, e3, e4, e5⟩ := ih (h1.unlink self c) done hc2 hnd' (by
          intro x hx
          obtain ⟨j1, j2, j3⟩ := parentNode_eq_some.mp (hp x (by
            rcases List.mem_append.mp hx with hx | hx <;> simp [hx]))
          have hxc : x ≠ c := by
            rintro rfl
            rcases List.mem_append.mp hx with hx | hx
            · exact hcd hx
            · exact hcc hx
          refine parentNode_eq_some.mpr ⟨?_, ?_, ?_⟩
          · rw [get_unlink, hval x]; exact j1
          · rw [get_unlink, hval x]; simp [hxc, j2]
          · rw [live_unlink, hlv]; exact j3)
        (by intro hx; exact hs (by rcases List.mem_append.mp hx with hx | hx <;> simp [hx]))
        (NormalList_congr (fun x _ => gt x) (fun x hx h1' h2' =>
          hgrow x hx h1' (by rw [← gv]; exact h2')) hn)
      have hch : childNodes h self = done ++ c :: cs := hc
      have hch2 : childNodes (h1.unlink self c) self = done ++ cs := hc2
      have hcno : c ∉ childNodes h' self := by
        intro hx
        have := e2.sub.subset hx
        rw [hch2] at this
        rcases List.mem_append.mp this with hx | hx
        · exact hcd hx
        · exact hcc hx
      refine ⟨h', e1, ⟨?_, ?_, ?_, ?_, ?_, ?_, ?_⟩, e3, e4, ?_⟩
      · rw [e2.live, live_unlink, hlv]
      · rw [e2.next, next_unlink, hnx]
      · rw [e2.fields, get_unlink, hself]; simp [hcs.symm]
      · refine e2.sub.trans ?_
        rw [hch, hch2]
        exact List.Sublist.append_left (List.sublist_cons_self c cs) done
      · intro x hx hx'
        by_cases e : x = c
        · subst e
          refine ⟨ht, ?_⟩
          rw [e2.others x hcs (by rw [hch2]; simp [hcd, hcc]), get_unlink, hc1]
          simp [hcs]
        · have hx2 : x ∈ childNodes (h1.unlink self c) self := by
            rw [hch] at hx; rw [hch2]
            rcases List.mem_append.mp hx with hx | hx
            · simp [hx]
            · rcases List.mem_cons.mp hx with hx | hx
              · exact absurd hx e
              · simp [hx]
          obtain ⟨f1, f2⟩ := e2.gone x hx2 hx'
          rw [gt] at f1
          refine ⟨f1, ?_⟩
          have hxd : x ∉ done := fun hxd => hx' (e3 x hxd)
          have hxs : x ≠ self := by rintro rfl; rw [hch] at hx; exact hs hx
          rw [f2, get_unlink, hout x hxd]
          simp [hxs]
      · intro x hx
        obtain ⟨f1, f2⟩ := e2.kept x hx
        have hxc : x ≠ c := by rintro rfl; exact hcno hx
        have hxs : x ≠ self := by
          rintro rfl
          have := e2.sub.subset hx
          rw [hch2] at this
          exact hs (by rcases List.mem_append.mp this with hx | hx <;> simp [hx])
        constructor
        · rw [f1, get_unlink, hval x]; simp [hxc, hxs]
        · intro hxt
          rw [f2 (by rw [gt]; exact hxt), get_unlink, hnt x hxt]; simp [hxc, hxs]
      · intro x hxs hx
        have hxc : x ≠ c := by rintro rfl; rw [hch] at hx; simp at hx
        have hx2 : x ∉ childNodes (h1.unlink self c) self := by
          rw [hch] at hx; rw [hch2]
          intro hx'
          exact hx (by rcases List.mem_append.mp hx' with hx' | hx' <;> simp [hx'])
        have hxd : x ∉ done := by intro hx'; rw [hch] at hx; exact hx (by simp [hx'])
        rw [e2.others x hxs hx2, get_unlink, hout x hxd]; simp [hxc, hxs]
      · rw [e5, ← hcont]
        exact content_congr (fun x _ => by
          rw [gt]; unfold nodeType; rw [hval x]) (fun x _ => gv x)
    unfold normalizeLoop
    by_cases ht : (h.get c).ntype = .text
    · rw [if_pos ht]
      by_cases hlen : charLength h c = 0
      · rw [if_pos hlen]
        have hrm : removeChild h self c = (.ok c, h.unlink self c) := by
          rw [removeChild_eq, if_pos (by rw [hc]; simp)]
        rw [hrm]
        refine drop h rfl rfl ht rfl rfl (fun x => rfl) (fun x _ => rfl) (fun x _ => rfl)
          (fun x _ _ h1 => h1) ?_
        rw [content_append, content_append, content_text ht, (charLength_text ht).mp hlen]
        simp
      · rw [if_neg hlen]
        have htx : textOf h c ≠ [] := fun e => hlen ((charLength_text ht).mpr e)
        have hps : previousSibling h c = done.getLast? := previousSibling_eq hcp hc hcd
        rw [hps]
        cases hl : done.getLast? with
        | none =>
          simp only
          exact keep (NormalList_snoc hn (fun _ => htx) (by intro x hx; rw [hl] at hx; cases hx))
        | some l =>
          simp only
          by_cases hlt : (h.get l).ntype = .text
          · rw [if_pos hlt]
            obtain ⟨d0, rfl⟩ : ∃ d0, done = d0 ++ [l] := by
              rcases List.eq_nil_or_concat done with rfl | ⟨d0, z, rfl⟩
              · simp at hl
              · simp at hl; subst hl; exact ⟨d0, by simp⟩
            have hld : l ∉ d0 := by
              rw [List.append_assoc] at hnd
              exact (nodup_split hnd).1
            have hls : l ≠ self := by rintro rfl; exact hs (by simp)
            have hlc : l ≠ c := by rintro rfl; exact hcd (by simp)
            have hlcs : l ∉ cs := by
              rw [List.append_assoc] at hnd'
              exact (nodup_split hnd').2
            cases hv : (h.get c).value with
            | none => exfalso; exact htx (by unfold textOf nodeValue; rw [hv]; rfl)
            | some v =>
              simp only
              have hvt : textOf h c = v := by unfold textOf nodeValue; rw [hv]; rfl
              have g1 : ∀ x, (nodeAppendData h l v).2.get x = if x = l then
                  { h.get l with value := appendData (h.get l).value v } else h.get x := by
                intro x; unfold nodeAppendData; rw [Heap.get_set]
              have hself1 : (nodeAppendData h l v).2.get self = h.get self := by
                rw [g1, if_neg hls.symm]
              have hrm : removeChild (nodeAppendData h l v).2 self c =
                  (.ok c, (nodeAppendData h l v).2.unlink self c) := by
                rw [removeChild_eq, if_pos (by rw [hself1, hc]; simp)]
              rw [hrm]
              have htl : textOf (nodeAppendData h l v).2 l = textOf h l ++ v := by
                unfold textOf nodeValue
                rw [g1, if_pos rfl]
                unfold appendData
                cases hvl : (h.get l).value <;> by_cases e : v = [] <;> simp [e]
              have hto : ∀ x, x ≠ l → textOf (nodeAppendData h l v).2 x = textOf h x := by
                intro x hx; unfold textOf nodeValue; rw [g1, if_neg hx]
              have htt : ∀ x, nodeType (nodeAppendData h l v).2 x = nodeType h x := by
                intro x; unfold nodeType; rw [g1]; split
                · rename_i e; rw [e]
                · rfl
              refine drop _ rfl rfl ht hself1 (by rw [g1, if_neg hlc.symm]) ?_ ?_ ?_ ?_ ?_
              · intro x; rw [g1]; split
                · rename_i e; subst e; rfl
                · rfl
              · intro x hx
                rw [g1, if_neg (by rintro rfl; exact hx (by simp))]
              · intro x hx
                rw [g1, if_neg (by rintro rfl; exact hx hlt)]
              · intro x _ _ hx
                by_cases e : x = l
                · subst e; rw [htl] at hx; exact (List.append_eq_nil_iff.mp hx).1
                · rw [← hto x e]; exact hx
              · have hlt' : nodeType h l = .text := hlt
                have ht' : nodeType h c = .text := ht
                rw [show d0 ++ [l] ++ cs = d0 ++ l :: cs from by simp,
                  show d0 ++ [l] ++ c :: cs = d0 ++ l :: c :: cs from by simp, content_append,
                  content_append, content_text (by rw [htt]; exact hlt'), content_text hlt', content_text ht',
                  htl, hvt,
                  content_congr (h := h) (l := d0) (fun x _ => htt x) (fun x hx => hto x (by
                    rintro rfl; exact hld hx)),
                  content_congr (h := h) (l := cs) (fun x _ => htt x) (fun x hx => hto x (by
                    rintro rfl; exact hlcs hx))]
                simp
          · rw [if_neg hlt]
            exact keep (NormalList_snoc hn (fun _ => htx) (by
              intro x hx hxx; rw [hl] at hx; cases hx; exact hlt hxx.1))
    · rw [if_neg ht]
      exact keep (NormalList_snoc hn (fun h1 => absurd h1 ht) (fun x _ hx => ht hx.2))

/-! ## C24 -/

/-- C24: `normalize` returns, leaves no empty and no adjacent text among the children,
keeps the text and the other children in their order, and touches only text children. -/
theorem C24_normalize (h : Heap) (hr : Reachable h) (n : NodeId) (hn : h.live n = true)
    (hc : ConsistentAt h n) :
    ∃ h', normalize h n = (.ok (), h') ∧ NormalAt h' n ∧
      content h' (childNodes h' n) = content h (childNodes h n) ∧ OnlyText h h' n ∧
      ConsistentAt h' n := by
  have hs := hr.notOwnChild n hn
  obtain ⟨h', e1, e2, _, e4, e5⟩ := normalizeLoop_spec n (h.get n).children h [] (by simp)
    hc.nodup hc.parent hs
    ⟨by simp, by intro a x y b hl; simp at hl⟩
  refine ⟨h', e1, e4, by rw [e5]; rfl, e2, ⟨e2.sub.nodup hc.nodup, ?_⟩⟩
  intro c hcc
  obtain ⟨k1, k2, k3⟩ := parentNode_eq_some.mp (hc.parent c (e2.sub.subset hcc))
  have hk := (e2.kept c hcc).1
  exact parentNode_eq_some.mpr ⟨by rw [hk]; exact k1, by rw [hk]; exact k2, by rw [e2.live]; exact k3⟩

theorem content_others (h : Heap) (l : List NodeId) :
    (content h l).filterMap (fun x => x.getLeft?) =
      l.filter fun c => decide (nodeType h c ≠ .text) := by
  induction l with
  | nil => rfl
  | cons c l ih =>
    rw [show c :: l = [c] ++ l from rfl, content_append, List.filterMap_append, ih,
      List.filter_append]
    congr 1
    unfold content
    by_cases ht : nodeType h c = .text
    · simp [ht, List.filterMap_map, Function.comp_def]
    · simp [ht]

theorem content_chars (h : Heap) (l : List NodeId) :
    (content h l).filterMap (fun x => x.getRight?) =
      (l.filter fun c => decide (nodeType h c = .text)).flatMap (textOf h) := by
  induction l with
  | nil => rfl
  | cons c l ih =>
    rw [show c :: l = [c] ++ l from rfl, content_append, List.filterMap_append, ih,
      List.filter_append, List.flatMap_append]
    congr 1
    unfold content
    by_cases ht : nodeType h c = .text
    · simp [ht, List.filterMap_map, Function.comp_def]
    · simp [ht]

/-- C24: in particular the children that are not text are the same in the same order, and
the whole text is the same. -/
theorem C24_sequences (h : Heap) (hr : Reachable h) (n : NodeId) (hn : h.live n = true)
    (hc : ConsistentAt h n) (h' : Heap) (hok : normalize h n = (.ok (), h')) :
    (childNodes h' n).filter (fun c => decide (nodeType h' c ≠ .text)) =
      (childNodes h n).filter (fun c => decide (nodeType h c ≠ .text)) ∧
    ((childNodes h' n).filter (fun c => decide (nodeType h' c = .text))).flatMap (textOf h') =
      ((childNodes h n).filter (fun c => decide (nodeType h c = .text))).flatMap (textOf h) := by
  obtain ⟨h1, e1, _, e3, _⟩ := C24_normalize h hr n hn hc
  rw [e1] at hok
  cases hok
  rw [← content_others, ← content_chars, e3, content_others, content_chars]
  exact ⟨rfl, rfl⟩

/-- C24: in a history of tidy calls every node that is not an attribute has the links that
`C24_normalize` asks for. -/
theorem C24_tidy (h : Heap) (hr : ReachableBy TidyCall h) (n : NodeId) (hn : h.live n = true)
    (ht : nodeType h n ≠ .attribute) : ConsistentAt h n := by
  have i := hr.reachable.invariant
  refine ⟨hr.links.nodup n hn, fun c hc => parentNode_eq_some.mpr ⟨?_, hr.links.up n c hn ht hc, hn⟩⟩
  intro hta
  have := i.allowed n hn c hc
  rw [hta, isChildAllowed_attribute] at this
  cases this

/-- Text (2, 3, 5), an element (4), empty text (6) and text (7) under the root. -/
def mixedOps : List Op :=
  [mkDoc, .createTextNode 0 (c! "a"), .createTextNode 0 (c! "b"), .createElement 0 (c! "e"),
    .createTextNode 0 (c! "c"), .createTextNode 0 [], .createTextNode 0 (c! "d"),
    .appendChild 1 2, .appendChild 1 3, .appendChild 1 4, .appendChild 1 5, .appendChild 1 6,
    .appendChild 1 7]

example : Reachable (after mixedOps) ∧ (after mixedOps).live 1 = true ∧
    ConsistentAt (after mixedOps) 1 ∧
    childNodes (normalize (after mixedOps) 1).2 1 = [2, 4, 5] ∧
    nodeValue (normalize (after mixedOps) 1).2 2 = some (c! "ab") ∧
    nodeValue (normalize (after mixedOps) 1).2 5 = some (c! "cd") :=
  ⟨reachable_after _, by decide, ⟨by decide, by decide⟩, by decide, by decide, by decide⟩

/-! ## C25 -/

theorem normalizeLoop_normal (self : NodeId) (h : Heap) : ∀ (rest done : List NodeId),
    (h.get self).children = done ++ rest → (done ++ rest).Nodup →
    (∀ c ∈ rest, parentNode h c = some self) → NormalList h (done ++ rest) →
    normalizeLoop self rest h = (.ok (), h) := by
  intro rest
  induction rest with
  | nil => intros; rfl
  | cons c cs ih =>
    intro done hc hnd hp hn
    have go := ih (done ++ [c]) (by rw [hc]; simp) (by simpa using hnd)
      (fun x hx => hp x (by simp [hx])) (by simpa using hn)
    unfold normalizeLoop
    by_cases ht : (h.get c).ntype = .text
    · rw [if_pos ht, if_neg (fun e => hn.full c (by simp) ht ((charLength_text ht).mp e))]
      rw [previousSibling_eq (hp c (by simp)) hc (nodup_split hnd).1]
      cases hl : done.getLast? with
      | none => exact go
      | some l =>
        simp only
        rw [if_neg]
        · exact go
        · intro hlt
          obtain ⟨d0, rfl⟩ : ∃ d0, done = d0 ++ [l] := by
            rcases List.eq_nil_or_concat done with rfl | ⟨d0, z, rfl⟩
            · simp at hl
            · simp at hl; subst hl; exact ⟨d0, by simp⟩
          exact hn.apart d0 l c cs (by simp) ⟨hlt, ht⟩
    · rw [if_neg ht]; exact go

/-- C25: a second `normalize` does nothing. -/
theorem C25_idempotent (h : Heap) (hr : Reachable h) (n : NodeId) (hn : h.live n = true)
    (hc : ConsistentAt h n) (h' : Heap) (hok : normalize h n = (.ok (), h')) :
    normalize h' n = (.ok (), h') := by
  obtain ⟨h1, e1, e2, _, _, e3⟩ := C24_normalize h hr n hn hc
  rw [e1] at hok
  cases hok
  exact normalizeLoop_normal n h' _ [] (by simp) e3.nodup e3.parent e2

/-- C25: `normalize` does nothing exactly where there is nothing to do. -/
theorem C25_fixed (h : Heap) (hr : Reachable h) (n : NodeId) (hn : h.live n = true)
    (hc : ConsistentAt h n) : normalize h n = (.ok (), h) ↔ NormalAt h n := by
  constructor
  · intro he
    obtain ⟨h1, e1, e2, _⟩ := C24_normalize h hr n hn hc
    rw [e1] at he
    cases he
    exact e2
  · intro hN
    exact normalizeLoop_normal n h _ [] (by simp) hc.nodup hc.parent hN

example : (normalize (after mixedOps) 1).1 = .ok () ∧ ConsistentAt (after mixedOps) 1 :=
  ⟨by decide, ⟨by decide, by decide⟩⟩

/-! ## C26 -/

/-- C26, as documented: the whole sub-tree is normal after `normalize`. -/
def C26_full : Prop :=
  ∀ h, ReachableBy TidyCall h → ∀ n, h.live n = true → nodeType h n ≠ .attribute →
    ∀ h', normalize h n = (.ok (), h') → ∀ d, Descendant h' n d → NormalAt h' d

/-- Two texts (3, 4) below an element (2) below the root. -/
def deepText : List Op :=
  [mkDoc, .createElement 0 (c! "e"), .createTextNode 0 (c! "a"), .createTextNode 0 (c! "b"),
    .appendChild 2 3, .appendChild 2 4, .appendChild 1 2]

theorem deepText_tidy : ReachableBy TidyCall (after deepText) := by
  apply reachableBy_after
  have key : ∀ (ops : List Op) (n : NodeId) (k : Nat), (after ops).next = k →
      (∀ a, a < k → nodeType (after ops) a = .attribute → n ∈ childNodes (after ops) a →
        parentNode (after ops) n = some a) →
      ∀ a, (after ops).live a = true → nodeType (after ops) a = .attribute →
        n ∈ childNodes (after ops) a → parentNode (after ops) n = some a :=
    fun ops n k hk h1 => forall_live (reachable_after ops) hk h1
  refine ⟨trivial, trivial, trivial, trivial, ?_, ?_, ?_, trivial⟩
  · exact key (deepText.take 4) 3 5 rfl (by decide)
  · exact key (deepText.take 5) 4 5 rfl (by decide)
  · exact key (deepText.take 6) 2 5 rfl (by decide)

/-- C26: `normalize` does not go below the children. -/
theorem C26_full_false : ¬ C26_full := by
  intro hf
  have hc : childNodes (after deepText) 1 = [2] := by decide
  have hN : NormalAt (after deepText) 1 := by
    unfold NormalAt
    rw [hc]
    refine ⟨by decide, ?_⟩
    intro a x y b hl
    have := congrArg List.length hl
    simp at this
    omega
  have h1 := hf (after deepText) deepText_tidy 1 (by decide) (by decide) (after deepText)
    ((C25_fixed _ (reachable_after _) 1 (by decide) ⟨by decide, by decide⟩).mpr hN) 2
    (.single ⟨by decide, by decide⟩)
  exact h1.apart [] 3 4 [] (by decide) (by decide)

/-- C26 (partial): the children of the node are normal, and the whole sub-tree is if
everything below the node was normal before. Missing: `normalize` does not go further
down. -/
theorem C26_direct_partial (h : Heap) (hr : Reachable h) (n : NodeId) (hn : h.live n = true)
    (hc : ConsistentAt h n) (h' : Heap) (hok : normalize h n = (.ok (), h'))
    (hsub : ∀ d, Descendant h n d → d ≠ n → ConsistentAt h d ∧ NormalAt h d) :
    NormalAt h' n ∧ ∀ d, Descendant h' n d → NormalAt h' d := by
  obtain ⟨h1, e1, e2, _, e4, _⟩ := C24_normalize h hr n hn hc
  rw [e1] at hok
  cases hok
  refine ⟨e2, ?_⟩
  have hch : ∀ d, d ≠ n → childNodes h' d = childNodes h d := by
    intro d hd
    unfold childNodes
    by_cases h1 : d ∈ childNodes h n
    · by_cases h2 : d ∈ childNodes h' n
      · rw [(e4.kept d h2).1]
      · rw [(e4.gone d h1 h2).2]
    · rw [e4.others d hd h1]
  have hdesc : ∀ d, Descendant h' n d → Descendant h n d := by
    intro d hd
    refine Relation.TransGen.mono ?_ n d hd
    rintro p c ⟨hp, hpc⟩
    rw [e4.live] at hp
    refine ⟨hp, ?_⟩
    by_cases hpn : p = n
    · subst hpn; exact e4.sub.subset hpc
    · rw [hch p hpn] at hpc; exact hpc
  intro d hd
  by_cases hdn : d = n
  · subst hdn; exact e2
  · obtain ⟨h2, h3⟩ := hsub d (hdesc d hd) hdn
    unfold NormalAt at h3 ⊢
    rw [hch d hdn]
    have same : ∀ c ∈ childNodes h d, nodeType h' c = nodeType h c ∧ textOf h' c = textOf h c := by
      intro c hcd
      have hp := h2.parent c hcd
      have hcn : c ∉ childNodes h n := by
        intro hx
        have := hc.parent c hx
        rw [this] at hp
        exact hdn (Option.some.inj hp).symm
      by_cases hcs : c = n
      · subst hcs
        unfold nodeType textOf nodeValue
        rw [e4.fields]
        exact ⟨rfl, rfl⟩
      · unfold nodeType textOf nodeValue
        rw [e4.others c hcs hcn]
        exact ⟨rfl, rfl⟩
    exact NormalList_congr (fun c hc => (same c hc).1) (fun c hc _ h5 => by
      rw [(same c hc).2] at h5; exact h5) h3

/-- C26: exactly when the whole sub-tree is normal afterwards: when everything below the node
was normal before. Below its children `normalize` leaves everything as it was. -/
theorem C26_exact (h : Heap) (hr : Reachable h) (n : NodeId) (hn : h.live n = true)
    (hc : ConsistentAt h n) (h' : Heap) (hok : normalize h n = (.ok (), h'))
    (hsub : ∀ d, Descendant h n d → d ≠ n → ConsistentAt h d) :
    (∀ d, d ≠ n → childNodes h' d = childNodes h d) ∧
    ((∀ d, Descendant h' n d → NormalAt h' d) ↔
      ∀ d, Descendant h n d → d ≠ n → NormalAt h d) := by
  obtain ⟨h1, e1, e2, _, e4, _⟩ := C24_normalize h hr n hn hc
  have hok' := hok
  rw [e1] at hok'
  cases hok'
  have i := hr.invariant
  have hch : ∀ d, d ≠ n → childNodes h' d = childNodes h d := by
    intro d hd
    unfold childNodes
    by_cases h1 : d ∈ childNodes h n
    · by_cases h2 : d ∈ childNodes h' n
      · rw [(e4.kept d h2).1]
      · rw [(e4.gone d h1 h2).2]
    · rw [e4.others d hd h1]
  have hedge : ∀ p c, h.live p = true → c ∈ childNodes h p →
      (h'.live p = true ∧ c ∈ childNodes h' p) ∨ childNodes h c = [] := by
    intro p c hp hpc
    by_cases hpn : p = n
    · subst hpn
      by_cases hk : c ∈ childNodes h' p
      · exact Or.inl ⟨by rw [e4.live]; exact hp, hk⟩
      · refine Or.inr (List.eq_nil_iff_forall_not_mem.mpr fun x hx => ?_)
        have := i.allowed c (i.wf.child hp hpc) x hx
        rw [show (h.get c).ntype = .text from (e4.gone c hpc hk).1] at this
        cases this
    · exact Or.inl ⟨by rw [e4.live]; exact hp, by rw [hch p hpn]; exact hpc⟩
  have hdesc : ∀ d, Descendant h n d → Descendant h' n d ∨ childNodes h d = [] := by
    intro d hd
    induction hd with
    | single he =>
      rcases hedge _ _ he.1 he.2 with h2 | h2
      · exact Or.inl (.single h2)
      · exact Or.inr h2
    | tail _ he ih =>
      rcases ih with h2 | h2
      · rcases hedge _ _ he.1 he.2 with h3 | h3
        · exact Or.inl (.tail h2 h3)
        · exact Or.inr h3
      · have := he.2
        rw [show childNodes h _ = [] from h2] at this
        cases this
  refine ⟨hch, ?_, fun h2 => (C26_direct_partial h hr n hn hc h' hok fun d h3 h4 =>
    ⟨hsub d h3 h4, h2 d h3 h4⟩).2⟩
  intro hall d hd hdn
  rcases hdesc d hd with h2 | h2
  · have h3 := hall d h2
    unfold NormalAt at h3 ⊢
    rw [hch d hdn] at h3
    have same : ∀ c ∈ childNodes h d, nodeType h c = nodeType h' c ∧ textOf h c = textOf h' c := by
      intro c hcd
      have hp := (hsub d hd hdn).parent c hcd
      have hcn : c ∉ childNodes h n := by
        intro hx
        have := hc.parent c hx
        rw [this] at hp
        exact hdn (Option.some.inj hp).symm
      by_cases hcs : c = n
      · subst hcs
        unfold nodeType textOf nodeValue
        rw [e4.fields]
        exact ⟨rfl, rfl⟩
      · unfold nodeType textOf nodeValue
        rw [e4.others c hcs hcn]
        exact ⟨rfl, rfl⟩
    exact NormalList_congr (fun c hc => (same c hc).1) (fun c hc _ h5 => by
      rw [(same c hc).2] at h5; exact h5) h3
  · unfold NormalAt
    rw [h2]
    exact ⟨fun c hc => (by cases hc), fun a x y b hl => by simp at hl⟩

example : ∃ h', normalize (after deepText) 2 = (.ok (), h') ∧ ConsistentAt (after deepText) 2 ∧
    NormalAt (after deepText) 3 :=
  ⟨_, Prod.ext (by decide) rfl, ⟨by decide, by decide⟩, ⟨by decide, by
    intro a x y b hl
    have : childNodes (after deepText) 3 = [] := by decide
    rw [this] at hl
    simp at hl⟩⟩

end Props
end XmlDom
