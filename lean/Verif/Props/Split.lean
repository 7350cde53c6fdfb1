import Verif.Props.CharData
import Verif.Props.Text
import Verif.Props.Create
import Verif.Props.Tree

/-!
# C21-C23: the length of character data, splitting, and failing calls
-/

namespace XmlDom
namespace Props

open Spec

/-! ## Lemmas -/

theorem byteLen_le_escape (s : Str) : byteLen s ≤ byteLen (escape s) := by
  induction s with
  | nil => exact Nat.zero_le _
  | cons c s ih =>
    rcases escape_cons c s with ⟨ds, _, hsp, h2⟩ | ⟨_, h2⟩
    · rw [h2]
      have hc : c.utf8Size ≤ 1 := by
        unfold isSpecial at hsp
        simp only [decide_eq_true_eq] at hsp
        rcases hsp with h | h | h | h | h <;> subst h <;> decide
      simp only [byteLen_cons, byteLen_append]
      have : '&'.utf8Size = 1 := by decide
      omega
    · rw [h2]; simp only [byteLen_cons]; omega

theorem charLength_value (h : Heap) (n : NodeId) {v : Str} (hv : (h.get n).value = some v) :
    byteLen v ≤ charLength h n := by
  unfold charLength charData
  rw [hv]
  by_cases ht : (h.get n).ntype = .text ∨ (h.get n).ntype = .comment
  · simp only [if_pos ht]; exact byteLen_le_escape v
  · simp only [if_neg ht]; exact Nat.le_refl _

theorem charLength_none (h : Heap) (n : NodeId) (hv : (h.get n).value = none) :
    charLength h n = 0 := by
  unfold charLength charData; rw [hv]

/-- What `split` does before it makes the new node. -/
theorem splitText_inside (ov : Bool) (h : Heap) (n : NodeId) {a t : Str}
    (hc : isCharacterData (h.get n).ntype = true) (hv : (h.get n).value = some (a ++ t))
    (ht : t ≠ []) (hlen : charLength h n < usizeLimit) :
    splitText ov h n (byteLen a) = splitTail (h.set n { h.get n with value := some a }) n t := by
  have hle := charLength_value h n hv
  have hp := byteLen_pos ht
  rw [byteLen_append] at hle
  unfold splitText
  rw [if_neg (by rw [hc]; simp)]
  simp only
  rw [if_neg (by omega)]
  have hs : nodeSubstringData ov h n (byteLen a) (charLength h n - byteLen a) = .ok t := by
    unfold nodeSubstringData
    rw [hv]
    exact C16_substring_past_end ov a t _ ht (by omega) (by omega)
  have hd : nodeDeleteData ov h n (byteLen a) (charLength h n - byteLen a) =
      (.ok (), h.set n { h.get n with value := some a }) := by
    unfold nodeDeleteData
    rw [hv, C18_delete_past_end ov a t _ ht (by omega) (by omega)]
    rfl
  rw [hs]
  simp only
  rw [hd]

theorem splitText_past (ov : Bool) (h : Heap) (n : NodeId) {offset : Nat}
    (hc : isCharacterData (h.get n).ntype = true) (ho : charLength h n ≤ offset) :
    splitText ov h n offset = splitTail h n [] := by
  unfold splitText
  rw [if_neg (by rw [hc]; simp)]
  simp only
  rw [if_pos ho]

theorem splitText_window (ov : Bool) (h : Heap) (n : NodeId) {v : Str} {offset : Nat}
    (hc : isCharacterData (h.get n).ntype = true) (hv : (h.get n).value = some v)
    (h1 : byteLen v ≤ offset) (h2 : offset < charLength h n) (hlen : charLength h n < usizeLimit) :
    splitText ov h n offset = (.err .indexSize, h) := by
  unfold splitText
  rw [if_neg (by rw [hc]; simp)]
  simp only
  rw [if_neg (by omega)]
  have hs : nodeSubstringData ov h n offset (charLength h n - offset) = .err .indexSize := by
    unfold nodeSubstringData
    rw [hv]
    exact (C19_index_size_partial ov v [] offset _ (by omega)).2.2.2.1.mpr ⟨by omega, h1⟩
  rw [hs]

theorem splitText_inner (ov : Bool) (h : Heap) (n : NodeId) {v : Str} {offset : Nat}
    (hc : isCharacterData (h.get n).ntype = true) (hv : (h.get n).value = some v)
    (h1 : ¬ Boundary v offset) (h2 : offset < byteLen v) (hlen : charLength h n < usizeLimit) :
    ∃ k, splitText ov h n offset = (.panic k, h) := by
  have hle := charLength_value h n hv
  unfold splitText
  rw [if_neg (by rw [hc]; simp)]
  simp only
  rw [if_neg (by omega)]
  have hs : (nodeSubstringData ov h n offset (charLength h n - offset)).Panics := by
    unfold nodeSubstringData
    rw [hv]
    exact (C20_substring_panics_iff ov v offset _ (by omega)).mpr ⟨by omega, h2, Or.inl h1⟩
  generalize nodeSubstringData ov h n offset (charLength h n - offset) = q at hs
  cases q with
  | panic k => exact ⟨k, rfl⟩
  | ok _ => exact absurd hs (by simp [Outcome.Panics])
  | err _ => exact absurd hs (by simp [Outcome.Panics])
  | diverge => exact absurd hs (by simp [Outcome.Panics])

/-- The ways a call of `split` on character data can go. -/
theorem splitText_cases (ov : Bool) (h : Heap) (n : NodeId) (offset : Nat)
    (hc : isCharacterData (h.get n).ntype = true) (hlen : charLength h n < usizeLimit) :
    (∃ a t, (h.get n).value = some (a ++ t) ∧ t ≠ [] ∧ offset = byteLen a ∧
      splitText ov h n offset = splitTail (h.set n { h.get n with value := some a }) n t) ∨
    (charLength h n ≤ offset ∧ splitText ov h n offset = splitTail h n []) ∨
    (∃ v, (h.get n).value = some v ∧ byteLen v ≤ offset ∧ offset < charLength h n ∧
      splitText ov h n offset = (.err .indexSize, h)) ∨
    (∃ v k, (h.get n).value = some v ∧ offset < byteLen v ∧ ¬ Boundary v offset ∧
      splitText ov h n offset = (.panic k, h)) := by
  by_cases ho : charLength h n ≤ offset
  · exact Or.inr (Or.inl ⟨ho, splitText_past ov h n hc ho⟩)
  · have ho : offset < charLength h n := Nat.lt_of_not_le ho
    cases hv : (h.get n).value with
    | none => rw [charLength_none h n hv] at ho; exact absurd ho (Nat.not_lt_zero _)
    | some v =>
      by_cases h1 : byteLen v ≤ offset
      · exact Or.inr (Or.inr (Or.inl ⟨v, rfl, h1, ho, splitText_window ov h n hc hv h1 ho hlen⟩))
      · have h1 : offset < byteLen v := Nat.lt_of_not_le h1
        by_cases hb : Boundary v offset
        · obtain ⟨a, t, rfl, rfl⟩ := hb
          refine Or.inl ⟨a, t, rfl, ?_, rfl, ?_⟩
          · rintro rfl; simp at h1
          · exact splitText_inside ov h n hc hv (by rintro rfl; simp at h1) hlen
        · obtain ⟨k, hk⟩ := splitText_inner ov h n hc hv hb h1 hlen
          exact Or.inr (Or.inr (Or.inr ⟨v, k, rfl, h1, hb, hk⟩))

/-- The new node of a split. -/
def splitNode (x : Node) (d : NodeId) (s : Str) : Node :=
  if x.ntype = .text then Node.newText d s else Node.newCdata d s

theorem splitNode_fields (x : Node) (d : NodeId) (s : Str)
    (ht : x.ntype = .text ∨ x.ntype = .cdata) :
    (splitNode x d s).ntype = x.ntype ∧ (splitNode x d s).value = some s ∧
      (splitNode x d s).parent = none ∧ (splitNode x d s).owner = some d ∧
      (splitNode x d s).children = [] := by
  unfold splitNode Node.newText Node.newCdata
  rcases ht with h | h <;> rw [h] <;> simp

theorem splitTail_eq (h : Heap) (n : NodeId) (s : Str) {d : NodeId}
    (ht : (h.get n).ntype = .text ∨ (h.get n).ntype = .cdata) (ho : (h.get n).owner = some d) :
    splitTail h n s =
      match parentNode (h.alloc (splitNode (h.get n) d s)).2 n with
      | none => (.ok h.next, (h.alloc (splitNode (h.get n) d s)).2)
      | some p =>
        match insertBefore (h.alloc (splitNode (h.get n) d s)).2 p h.next
            (nextSibling (h.alloc (splitNode (h.get n) d s)).2 n) with
        | (.ok _, h2) => (.ok h.next, h2)
        | q => q := by
  unfold splitTail splitNode
  rcases ht with h1 | h1 <;> rw [h1, ho] <;> rfl

/-- `splitTail` on the two kinds of text, when it returns. -/
theorem splitTail_ok {h : Heap} (w : WF h) {n m : NodeId} (hn : h.live n = true) {s : Str}
    {h' : Heap} (ht : (h.get n).ntype = .text ∨ (h.get n).ntype = .cdata)
    (hok : splitTail h n s = (.ok m, h')) :
    ∃ d, (h.get n).owner = some d ∧ m = h.next ∧
      ((parentNode h n = none ∧ h' = (h.alloc (splitNode (h.get n) d s)).2) ∨
       ∃ p pos, parentNode h n = some p ∧ p ≠ m ∧ ownerFor h p = some d ∧
        insertPosition h p (nextSibling h n) = some pos ∧
        h' = (h.alloc (splitNode (h.get n) d s)).2.link p m pos) := by
  cases ho : (h.get n).owner with
  | none =>
    unfold splitTail at hok
    rcases ht with h1 | h1 <;> rw [h1, ho] at hok <;> simp at hok
  | some d =>
    rw [splitTail_eq h n s ht ho] at hok
    have hnn : n < h.next := w.fresh n hn
    have gn : (h.alloc (splitNode (h.get n) d s)).2.get n = h.get n :=
      (untouched_alloc h _).get n hnn
    have hpn : parentNode (h.alloc (splitNode (h.get n) d s)).2 n = parentNode h n := by
      unfold parentNode
      rw [gn]
      split
      · rfl
      · cases hp : (h.get n).parent with
        | none => rfl
        | some q =>
          have : q < h.next := w.weak n hn q (by simp [weakRefs, hp])
          simp [Heap.upgrade, Nat.ne_of_lt this]
    refine ⟨d, rfl, ?_⟩
    rw [hpn] at hok
    cases hp : parentNode h n with
    | none =>
      rw [hp] at hok
      simp only [Prod.mk.injEq, Outcome.ok.injEq] at hok
      exact ⟨hok.1.symm, Or.inl ⟨rfl, hok.2.symm⟩⟩
    | some p =>
      rw [hp] at hok
      simp only at hok
      obtain ⟨k1, k2, k3⟩ := parentNode_eq_some.mp hp
      have gp : (h.alloc (splitNode (h.get n) d s)).2.get p = h.get p :=
        (untouched_alloc h _).get p (w.fresh p k3)
      have lp : (h.alloc (splitNode (h.get n) d s)).2.live p = true := by
        rw [(untouched_alloc h _).live p (w.fresh p k3), k3]
      have hns : nextSibling (h.alloc (splitNode (h.get n) d s)).2 n = nextSibling h n := by
        unfold nextSibling
        rw [gn, k2]
        simp only [Heap.upgrade, lp, k3, if_true, gp]
      have hip : ∀ r, insertPosition (h.alloc (splitNode (h.get n) d s)).2 p r =
          insertPosition h p r := by
        intro r; unfold insertPosition; rw [gp]
      rw [hns] at hok
      generalize hi : insertBefore (h.alloc (splitNode (h.get n) d s)).2 p h.next
        (nextSibling h n) = q at hok
      obtain ⟨o, h2⟩ := q
      cases o with
      | ok r =>
        simp only [Prod.mk.injEq, Outcome.ok.injEq] at hok
        obtain ⟨rfl, rfl⟩ := hok
        obtain ⟨_, hne, _, _, hsame, pos, hpos, hcase⟩ := insertBefore_ok hi
        rw [hip] at hpos
        have hown : ownerFor h p = some d := by
          unfold checkSameDocument at hsame
          rw [gp, Heap.get_alloc, if_pos rfl, (splitNode_fields _ d s ht).2.2.2.1] at hsame
          unfold ownerFor
          split at hsame
          · rename_i hdoc
            rw [if_pos hdoc]
            simp only at hsame
            split at hsame
            · split at hsame
              · rename_i e; rw [e]
              · cases hsame
            · cases hsame
          · rename_i hdoc
            rw [if_neg hdoc]
            cases hop : (h.get p).owner with
            | none => rw [hop] at hsame; cases hsame
            | some a =>
              rw [hop] at hsame
              simp only at hsame
              split at hsame
              · split at hsame
                · split at hsame
                  · rename_i e; rw [e]
                  · cases hsame
                · cases hsame
              · cases hsame
        refine ⟨rfl, Or.inr ⟨p, pos, rfl, hne, hown, hpos, ?_⟩⟩
        rcases hcase with ⟨_, he⟩ | ⟨p', he, _, _⟩
        · exact he
        · obtain ⟨_, he2, _⟩ := parentNode_eq_some.mp he
          rw [Heap.get_alloc, if_pos rfl, (splitNode_fields _ d s ht).2.2.1] at he2
          cases he2
      | err _ => simp at hok
      | panic _ => simp at hok
      | diverge => simp at hok

theorem isCharacterData_iff (t : NodeType) :
    isCharacterData t = true ↔ t = .text ∨ t = .cdata ∨ t = .comment := by
  cases t <;> simp [isCharacterData]

theorem splitTail_other {h : Heap} {n : NodeId} {s : Str}
    (ht : ¬ ((h.get n).ntype = .text ∨ (h.get n).ntype = .cdata)) :
    splitTail h n s = (.err .syntax, h) := by
  unfold splitTail
  cases hx : (h.get n).ntype <;> simp_all

/-- A split that returns was made on Text or CDATA. -/
theorem splitText_ok {ov : Bool} {h : Heap} {n m : NodeId} {offset : Nat} {h' : Heap}
    (hlen : charLength h n < usizeLimit) (hok : splitText ov h n offset = (.ok m, h')) :
    ((h.get n).ntype = .text ∨ (h.get n).ntype = .cdata) ∧
    ((∃ a t, (h.get n).value = some (a ++ t) ∧ t ≠ [] ∧ offset = byteLen a ∧
      splitTail (h.set n { h.get n with value := some a }) n t = (.ok m, h')) ∨
    (charLength h n ≤ offset ∧ splitTail h n [] = (.ok m, h'))) := by
  by_cases hc : isCharacterData (h.get n).ntype = true
  · by_cases ht : (h.get n).ntype = .text ∨ (h.get n).ntype = .cdata
    · refine ⟨ht, ?_⟩
      rcases splitText_cases ov h n offset hc hlen with ⟨a, t, h1, h2, h3, h4⟩ | ⟨h1, h2⟩ |
        ⟨v, _, _, _, h4⟩ | ⟨v, k, _, _, _, h4⟩
      · rw [h4] at hok; exact Or.inl ⟨a, t, h1, h2, h3, hok⟩
      · rw [h2] at hok; exact Or.inr ⟨h1, hok⟩
      · rw [h4] at hok; simp at hok
      · rw [h4] at hok; simp at hok
    · exfalso
      rcases splitText_cases ov h n offset hc hlen with ⟨a, t, h1, h2, h3, h4⟩ | ⟨h1, h2⟩ |
        ⟨v, _, _, _, h4⟩ | ⟨v, k, _, _, _, h4⟩
      · rw [h4, splitTail_other (by simpa using ht)] at hok; simp at hok
      · rw [h2, splitTail_other ht] at hok; simp at hok
      · rw [h4] at hok; simp at hok
      · rw [h4] at hok; simp at hok
  · unfold splitText at hok
    rw [if_pos (by simpa using hc)] at hok
    simp at hok

/-! ## C22 -/

/-- The data of a node, the empty string when there is none. -/
def dataOf (h : Heap) (n : NodeId) : Str := (nodeValue h n).getD []

/-- What a split at `offset` of node `n` must give: `m` is new and like `n`; `n` keeps the
first `offset` bytes of the data and `m` has the rest; if `n` has a parent then `m` comes
directly behind `n`; nothing else happens. -/
structure Splits (h h' : Heap) (n m : NodeId) (offset : Nat) : Prop where
  kind : nodeType h n = .text ∨ nodeType h n = .cdata
  unused : h.live m = false
  live : h'.live m = true
  ntype : nodeType h' m = nodeType h n
  owner : ownerDocument h' m = ownerDocument h n
  children : childNodes h' m = []
  data : dataOf h n = dataOf h' n ++ dataOf h' m
  first : byteLen (dataOf h' n) = min offset (byteLen (dataOf h n))
  free : parentNode h n = none → parentNode h' m = none
  next : ∀ p l r, parentNode h n = some p → childNodes h p = l ++ n :: r →
    (childNodes h p).Nodup → childNodes h' p = l ++ n :: m :: r ∧ parentNode h' m = some p
  others : ∀ k, h.live k = true → nodeType h' k = nodeType h k ∧ nodeName h' k = nodeName h k ∧
    (k ≠ n → nodeValue h' k = nodeValue h k) ∧ ownerDocument h' k = ownerDocument h k ∧
    (h'.get k).ext = (h.get k).ext ∧ (h'.get k).parent = (h.get k).parent ∧
    (parentNode h n ≠ some k → childNodes h' k = childNodes h k) ∧ h'.live k = h.live k

theorem splitTail_splits {h : Heap} (hi : Inv h) {n m : NodeId} (hn : h.live n = true) {s a : Str}
    {h1 h' : Heap} {offset : Nat} (ht : (h.get n).ntype = .text ∨ (h.get n).ntype = .cdata)
    {v : Option Str} (h1e : h1 = h.set n { h.get n with value := v })
    (hv : v.getD [] = a) (hd : dataOf h n = a ++ s)
    (hoff : byteLen a = min offset (byteLen (a ++ s)))
    (hok : splitTail h1 n s = (.ok m, h')) : Splits h h' n m offset := by
  have w := hi.wf
  have g1 : ∀ k, h1.get k = if k = n then { h.get n with value := v } else h.get k := by
    intro k; rw [h1e, Heap.get_set]
  have gn : h1.get n = { h.get n with value := v } := by rw [g1, if_pos rfl]
  have lv1 : h1.live = h.live := by rw [h1e]; rfl
  have nx1 : h1.next = h.next := by rw [h1e]; rfl
  have w1 : WF h1 := by
    constructor
    · intro k hk; rw [nx1]; exact w.fresh k (lv1 ▸ hk)
    · intro k hk c hc
      rw [lv1] at hk ⊢
      refine w.strong k hk c ?_
      rw [g1] at hc
      split at hc
      · rename_i e; subst e; exact hc
      · exact hc
    · intro k hk c hc
      rw [lv1] at hk
      rw [nx1]
      refine w.weak k hk c ?_
      rw [g1] at hc
      split at hc
      · rename_i e; subst e; exact hc
      · exact hc
  have pn1 : parentNode h1 n = parentNode h n := by
    unfold parentNode Heap.upgrade; rw [gn, lv1]
  have ht1 : (h1.get n).ntype = .text ∨ (h1.get n).ntype = .cdata := by rw [gn]; exact ht
  obtain ⟨d, ho, rfl, hcase⟩ := splitTail_ok w1 (n := n) (lv1 ▸ hn) ht1 hok
  rw [pn1] at hcase
  have hod : (h.get n).owner = some d := by rw [gn] at ho; exact ho
  have hdlt : d < h.next := w.weak n hn d (by simp [weakRefs, hod])
  have hnn : n < h.next := w.fresh n hn
  have hne : n ≠ h.next := Nat.ne_of_lt hnn
  have hxf := splitNode_fields (h1.get n) d s ht1
  have xt : (splitNode (h1.get n) d s).ntype = (h.get n).ntype := by rw [hxf.1, gn]
  generalize hx : splitNode (h1.get n) d s = x at *
  obtain ⟨_, xv, xp, xo, xc⟩ := hxf
  have hne1 : n ≠ h1.next := by rw [nx1]; exact hne
  -- the fields of the result
  have key : ∃ p pos, (h'.get h1.next = { x with parent := p, owner := some d }) ∧
      (∀ k, k ≠ h1.next → h'.get k = { h1.get k with
        children := if p = some k then insertAt (h1.get k).children h1.next pos
          else (h1.get k).children }) ∧
      h'.live = (h1.alloc x).2.live ∧ p = parentNode h n ∧
      (∀ q, p = some q → insertPosition h1 q (nextSibling h1 n) = some pos) := by
    rcases hcase with ⟨hp, rfl⟩ | ⟨p, pos, hp, hpm, hown, hpos, rfl⟩
    · refine ⟨none, none, ?_, ?_, rfl, hp.symm, ?_⟩
      · rw [Heap.get_alloc, if_pos rfl, ← xp, ← xo]
      · intro k hk; rw [Heap.get_alloc, if_neg hk]; simp
      · intro q hq; cases hq
    · obtain ⟨_, hpp, lp⟩ := parentNode_eq_some.mp hp
      have hplt : p < h1.next := by rw [nx1]; exact w.fresh p lp
      have hown' : ownerFor (h1.alloc x).2 p = some d := by
        unfold ownerFor at hown ⊢
        rw [(untouched_alloc h1 x).get p hplt]
        exact hown
      refine ⟨some p, pos, ?_, ?_, rfl, hp.symm, ?_⟩
      · rw [get_link _ _ hpm, Heap.get_alloc, if_pos rfl, if_neg hpm.symm, if_pos rfl, if_pos rfl,
          hown']
      · intro k hk
        rw [get_link _ _ hpm, Heap.get_alloc, if_neg hk, if_neg hk, if_neg hk]
        by_cases e : k = p
        · subst e; simp
        · simp [e, Ne.symm e]
      · intro q hq; cases hq; exact hpos
  clear hcase
  obtain ⟨p, pos, km, ko, kl, kp, kpos⟩ := key
  have lv : ∀ k, h'.live k = if k = h.next then true else h.live k := by
    intro k; rw [kl, Heap.live_alloc, nx1, lv1]
  have hup : ∀ o : Option NodeId, (∀ q, o = some q → q < h.next) → h'.upgrade o = h.upgrade o := by
    intro o ho
    cases o with
    | none => rfl
    | some q => simp [Heap.upgrade, lv, Nat.ne_of_lt (ho q rfl)]
  rw [nx1] at km ko
  have kn : h'.get n = { h.get n with
      value := v
      children := if p = some n then insertAt (h.get n).children h.next pos
        else (h.get n).children } := by rw [ko n hne, gn]
  have e1 : dataOf h' n = a := by unfold dataOf nodeValue; rw [kn]; exact hv
  have e2 : dataOf h' h.next = s := by unfold dataOf nodeValue; rw [km]; simp [xv]
  rw [nx1]
  refine ⟨ht, unused_next w, by rw [lv]; simp, ?_, ?_, ?_, by rw [e1, e2, hd], ?_, ?_, ?_, ?_⟩
  · unfold nodeType; rw [km]; exact xt
  · unfold ownerDocument
    rw [km, hod]
    exact hup _ (by intro q hq; cases hq; exact hdlt)
  · unfold childNodes; rw [km]; exact xc
  · rw [e1, hd]; exact hoff
  · intro hfree
    rw [hfree] at kp
    unfold parentNode
    rw [km, kp]
    split <;> rfl
  · intro q l r hq hc hnd
    rw [hq] at kp
    subst kp
    obtain ⟨k1, k2, k3⟩ := parentNode_eq_some.mp hq
    have hqn : q ≠ h.next := Nat.ne_of_lt (w.fresh q k3)
    have hsplit := nodup_split (hc ▸ hnd)
    have hc1 : childNodes h1 q = l ++ n :: r := by
      unfold childNodes at hc ⊢
      rw [g1]
      split
      · rename_i e; subst e; exact hc
      · exact hc
    have hns : nextSibling h1 n = r.head? := nextSibling_eq (by rw [pn1]; exact hq) hc1 hsplit.1
    have hpos := kpos q rfl
    rw [hns] at hpos
    refine ⟨?_, ?_⟩
    · unfold childNodes
      rw [ko q hqn]
      simp only [if_true]
      have hc1' : (h1.get q).children = l ++ n :: r := hc1
      rcases insertPosition_some.mp hpos with ⟨hr, rfl⟩ | ⟨x', a', b', hr, hab, ha', rfl⟩
      · have : r = [] := by cases r <;> simp_all
        subst this
        rw [hc1']
        simp [insertAt]
      · obtain ⟨r', rfl⟩ : ∃ r', r = x' :: r' := by cases r <;> simp_all
        have hx' : x' ∉ l ++ [n] := by
          have hnd' := hnd
          rw [hc, show l ++ n :: x' :: r' = (l ++ [n]) ++ x' :: r' from by simp] at hnd'
          exact (nodup_split hnd').1
        have hee : a' = l ++ [n] ∧ b' = r' := by
          have h1 := position_append (x := x') (b := b') ha'
          have h2 := position_append (x := x') (b := r') hx'
          rw [← hab, hc1', show l ++ n :: x' :: r' = (l ++ [n]) ++ x' :: r' from by simp, h2] at h1
          have hl := Option.some.inj h1
          have := List.append_inj (s₁ := a') (t₁ := x' :: b') (s₂ := l ++ [n]) (t₂ := x' :: r')
            (by rw [← hab, hc1']; simp) hl.symm
          exact ⟨this.1, (List.cons.inj this.2).2⟩
        rw [hab, insertAt_position_fst, hee.1, hee.2]
        simp
    · refine parentNode_eq_some.mpr ⟨?_, by rw [km], ?_⟩
      · rw [km]
        show x.ntype ≠ .attribute
        rw [xt]
        rcases ht with e | e <;> rw [e] <;> simp
      · rw [lv, if_neg hqn]; exact k3
  · intro k hlk
    have hk : k ≠ h.next := Nat.ne_of_lt (w.fresh k hlk)
    have hg := ko k hk
    rw [g1] at hg
    by_cases e : k = n
    · subst e
      rw [if_pos rfl] at hg
      refine ⟨?_, ?_, fun hc => absurd rfl hc, ?_, ?_, ?_, ?_, by rw [lv, if_neg hk]⟩
      · unfold nodeType; rw [hg]
      · unfold nodeName; rw [hg]
      · unfold ownerDocument
        rw [hg]
        exact hup _ (by intro q hq; rw [hod] at hq; cases hq; exact hdlt)
      · rw [hg]
      · rw [hg]
      · intro hnp
        unfold childNodes
        rw [hg]
        simp [kp, hnp]
    · rw [if_neg e] at hg
      refine ⟨?_, ?_, ?_, ?_, ?_, ?_, ?_, by rw [lv, if_neg hk]⟩
      · unfold nodeType; rw [hg]
      · unfold nodeName; rw [hg]
      · unfold nodeValue; rw [hg]; exact fun _ => rfl
      · unfold ownerDocument
        rw [hg]
        exact hup _ (fun q hq => w.weak k hlk q (mem_weakRefs.mpr (Or.inr (Or.inl hq))))
      · rw [hg]
      · rw [hg]
      · intro hnp
        unfold childNodes
        rw [hg]
        simp [kp, hnp]

theorem set_same (h : Heap) (n : NodeId) :
    h.set n { h.get n with value := (h.get n).value } = h := by
  cases h with
  | mk next live get =>
    unfold Heap.set
    simp only [Heap.mk.injEq, true_and]
    funext k
    by_cases e : k = n
    · subst e; simp
    · simp [e]

/-- C22: a split that returns keeps the first part, gives the rest to a new node of the
same type, and puts it directly behind. -/
theorem C22_split (ov : Bool) (h : Heap) (hr : Reachable h) (n : NodeId) (hn : h.live n = true)
    (offset : Nat) (hlen : charLength h n < usizeLimit) (m : NodeId) (h' : Heap)
    (hok : splitText ov h n offset = (.ok m, h')) : Splits h h' n m offset := by
  obtain ⟨ht, ⟨a, t, h1, h2, h3, h4⟩ | ⟨h1, h2⟩⟩ := splitText_ok hlen hok
  · refine splitTail_splits (a := a) (v := some a) hr.invariant hn ht rfl rfl ?_ ?_ h4
    · unfold dataOf nodeValue; rw [h1]; rfl
    · rw [h3, byteLen_append]; omega
  · refine splitTail_splits (a := dataOf h n) (v := (h.get n).value) (h1 := h) hr.invariant hn ht
      (set_same h n).symm rfl (by simp) ?_ h2
    rw [List.append_nil]
    have : byteLen (dataOf h n) ≤ charLength h n := by
      unfold dataOf nodeValue
      cases hv : (h.get n).value with
      | none => exact Nat.zero_le _
      | some v => exact charLength_value h n hv
    omega

theorem splitTail_returns {h : Heap} (hi : Inv h) {n : NodeId} (hn : h.live n = true) (s : Str)
    (ht : (h.get n).ntype = .text ∨ (h.get n).ntype = .cdata)
    {d : NodeId} (ho : ownerDocument h n = some d)
    (hl : ∀ p, parentNode h n = some p → n ∈ childNodes h p) :
    ∃ h', splitTail h n s = (.ok h.next, h') := by
  have w := hi.wf
  obtain ⟨ho, hd⟩ := Heap.upgrade_some.mp ho
  have hdlt := w.fresh d hd
  have hnn : n < h.next := w.fresh n hn
  rw [splitTail_eq h n s ht ho]
  generalize hx : splitNode (h.get n) d s = x
  have hxf := splitNode_fields (h.get n) d s ht
  rw [hx] at hxf
  obtain ⟨xt, xv, xp, xo, xc⟩ := hxf
  have u := untouched_alloc h x
  cases hp1 : parentNode (h.alloc x).2 n with
  | none => exact ⟨_, rfl⟩
  | some p =>
    obtain ⟨k1, k2, k3⟩ := parentNode_eq_some.mp hp1
    rw [u.get n hnn] at k1 k2
    have hplt : p < h.next := w.weak n hn p (by simp [weakRefs, k2])
    rw [u.live p hplt] at k3
    have hp : parentNode h n = some p := parentNode_eq_some.mpr ⟨k1, k2, k3⟩
    have hmem : n ∈ (h.get p).children := hl p hp
    have hal := hi.allowed p k3 n hmem
    have hnd : (h.get p).ntype ≠ .document := by
      intro e; rw [e] at hal; rcases ht with f | f <;> rw [f] at hal <;> cases hal
    have hso := hi.sameOwner p k3 hnd n hmem
    have gm : (h.alloc x).2.get h.next = x := by rw [Heap.get_alloc, if_pos rfl]
    have hpn : parentNode (h.alloc x).2 h.next = none := by
      unfold parentNode; rw [gm, xp]; split <;> rfl
    have hcs : checkSameDocument (h.alloc x).2 p h.next = .ok () := by
      unfold checkSameDocument
      rw [u.get p hplt, if_neg hnd, ← hso, ho, gm, xo]
      simp [hd]
    have hns : ∃ pos, insertPosition (h.alloc x).2 p (nextSibling (h.alloc x).2 n) = some pos := by
      cases hq : nextSibling (h.alloc x).2 n with
      | none => exact ⟨none, rfl⟩
      | some q =>
        unfold nextSibling at hq
        rw [u.get n hnn, if_neg k1, k2] at hq
        simp only [Heap.upgrade, u.live p hplt, k3, if_true, u.get p hplt] at hq
        split at hq
        · cases hq
        · have hmq := List.mem_of_getElem? hq
          unfold insertPosition
          simp only [u.get p hplt]
          cases hpq : position q (h.get p).children with
          | none => exact absurd hmq (position_eq_none.mp hpq)
          | some i => exact ⟨_, rfl⟩
    obtain ⟨pos, hpos⟩ := hns
    refine ⟨(h.alloc x).2.link p h.next pos, ?_⟩
    simp only
    rw [insertBefore_eq, gm, u.get p hplt, xt, if_neg (by rw [hal]; simp),
      if_neg (fun hc => hnd hc.1), hpos, hcs, hpn]
    simp only
    rw [if_neg (Nat.ne_of_lt hplt)]

/-- C22, as wished: every split of attached or free text at a character boundary returns
and does what `Splits` says. -/
def C22_full : Prop :=
  ∀ (ov : Bool) (h : Heap), Reachable h → ∀ n, h.live n = true →
    (nodeType h n = .text ∨ nodeType h n = .cdata) → ownerDocument h n ≠ none →
    LinksAgreeAt h n → ∀ v, nodeValue h n = some v → byteLen v < usizeLimit →
    ∀ offset, Boundary v offset → ∃ m h', splitText ov h n offset = (.ok m, h') ∧
      Splits h h' n m offset

/-- C22: `split` takes the length of the escaped data, so splitting `<` at its end is
refused. -/
theorem C22_full_false : ¬ C22_full := by
  intro hf
  have hr := reachable_after [mkDoc, .createTextNode 0 (c! "<")]
  obtain ⟨m, h', h1, _⟩ := hf true _ hr 2 (by decide) (by decide) (by decide)
    (by
      refine forall_live hr (n := 3) (by decide) ?_
      decide) (c! "<") (by decide) (by decide) 1 ⟨c! "<", [], rfl, rfl⟩
  have h2 : (splitText true (after [mkDoc, .createTextNode 0 (c! "<")]) 2 1).1 =
    .err .indexSize := by decide
  rw [h1] at h2
  cases h2

/-- C22: a split of Text or CDATA returns whenever the offset is a character boundary
inside the data, or at or behind `length()`. Missing: offsets from the end of the data to
the length of its escaped form (`C22_refused`). -/
theorem C22_returns_partial (ov : Bool) (h : Heap) (hr : Reachable h) (n : NodeId)
    (hn : h.live n = true) (ht : nodeType h n = .text ∨ nodeType h n = .cdata)
    (ho : ownerDocument h n ≠ none)
    (hl : ∀ p, parentNode h n = some p → n ∈ childNodes h p)
    (hlen : charLength h n < usizeLimit) (offset : Nat)
    (hoff : charLength h n ≤ offset ∨
      ∃ v, nodeValue h n = some v ∧ Boundary v offset ∧ offset < byteLen v) :
    ∃ m h', splitText ov h n offset = (.ok m, h') ∧ Splits h h' n m offset := by
  have hc : isCharacterData (h.get n).ntype = true :=
    (isCharacterData_iff _).mpr (ht.imp id Or.inl)
  obtain ⟨d, ho⟩ := Option.ne_none_iff_exists'.mp ho
  have hret : ∃ m h', splitText ov h n offset = (.ok m, h') := by
    rcases hoff with h1 | ⟨v, hv, ⟨a, t, rfl, rfl⟩, h1⟩
    · rw [splitText_past ov h n hc h1]
      exact ⟨_, splitTail_returns hr.invariant hn [] ht ho hl⟩
    · have htne : t ≠ [] := by rintro rfl; simp at h1
      rw [splitText_inside ov h n hc hv htne hlen]
      have hr1 : Reachable (h.set n { h.get n with value := some a }) := by
        have := hr.run (ops := [(plainEnv, Op.setNodeValue n a)]) (by simp [plainEnv_ok])
        simpa [run, exec, Op.args, hn, Op.apply, setNodeValue, leftBehind] using this
      refine ⟨_, splitTail_returns hr1.invariant (n := n) hn t ?_ (d := d) ?_ ?_⟩
      · rw [Heap.get_set, if_pos rfl]; exact ht
      · unfold ownerDocument at ho ⊢; rw [Heap.get_set, if_pos rfl]; exact ho
      · intro p hp
        have : parentNode h n = some p := by
          unfold parentNode at hp ⊢; rw [Heap.get_set, if_pos rfl] at hp; exact hp
        have := hl p this
        unfold childNodes at this ⊢
        rw [Heap.get_set]
        split
        · rename_i e; rw [e] at this; exact this
        · exact this
  obtain ⟨m, h', hok⟩ := hret
  exact ⟨m, h', hok, C22_split ov h hr n hn offset hlen m h' hok⟩

/-- C22: the offsets that `split` does not accept, exactly: between the length of the data
and the length of the escaped data it returns `IndexSize`, inside a character it panics.
In both cases nothing changes. -/
theorem C22_refused (ov : Bool) (h : Heap) (n : NodeId) (v : Str)
    (ht : nodeType h n = .text ∨ nodeType h n = .cdata) (hv : nodeValue h n = some v)
    (hlen : charLength h n < usizeLimit) (offset : Nat) :
    (byteLen v ≤ offset ∧ offset < charLength h n →
      splitText ov h n offset = (.err .indexSize, h)) ∧
    (offset < byteLen v ∧ ¬ Boundary v offset →
      ∃ k, splitText ov h n offset = (.panic k, h)) := by
  have hc : isCharacterData (h.get n).ntype = true :=
    (isCharacterData_iff _).mpr (ht.imp id Or.inl)
  exact ⟨fun h1 => splitText_window ov h n hc hv h1.1 h1.2 hlen,
    fun h1 => splitText_inner ov h n hc hv h1.2 h1.1 hlen⟩

/-- A text node (2) with data under the root element. -/
def oneText : List Op := [mkDoc, .createTextNode 0 (c! "ab<c"), .appendChild 1 2]

example : Reachable (after oneText) ∧ (after oneText).live 2 = true ∧
    nodeType (after oneText) 2 = .text ∧ ownerDocument (after oneText) 2 ≠ none ∧
    parentNode (after oneText) 2 = some 1 ∧ 2 ∈ childNodes (after oneText) 1 ∧
    charLength (after oneText) 2 = 8 ∧
    (splitText true (after oneText) 2 2).1 = .ok 3 ∧
    childNodes (splitText true (after oneText) 2 2).2 1 = [2, 3] ∧
    nodeValue (splitText true (after oneText) 2 2).2 3 = some (c! "<c") :=
  ⟨reachable_after _, by decide⟩

/-! ## C21 -/

/-- C21, as wished: `length()` counts what the other calls address. -/
def C21_full : Prop :=
  ∀ (ov : Bool) (h : Heap), Reachable h → ∀ n, h.live n = true →
    (nodeType h n = .text ∨ nodeType h n = .cdata ∨ nodeType h n = .comment) →
    charLength h n < usizeLimit → ∀ offset, offset < charLength h n →
      (∃ s, nodeSubstringData ov h n offset (charLength h n - offset) = .ok s) ∧
      ∀ s, ∃ h', nodeReplaceData ov h n offset (charLength h n - offset) s = (.ok (), h')

/-- C21: `length()` counts escaped characters, the other calls do not. -/
theorem C21_full_false : ¬ C21_full := by
  intro hf
  obtain ⟨⟨s, h1⟩, _⟩ := hf true _ (reachable_after [mkDoc, .createTextNode 0 (c! "<")]) 2
    (by decide) (by decide) (by decide) 1 (by decide)
  have h2 : nodeSubstringData true (after [mkDoc, .createTextNode 0 (c! "<")]) 2 1 4 =
    .err .indexSize := by decide
  have h3 : charLength (after [mkDoc, .createTextNode 0 (c! "<")]) 2 - 1 = 4 := by decide
  rw [h3, h2] at h1
  cases h1

/-- C21: the length is the number of bytes of the data for CDATA, and of the escaped data
for Text and Comment; the two agree exactly when there is nothing to escape. -/
theorem C21_length (h : Heap) (n : NodeId) (v : Str) (hv : nodeValue h n = some v) :
    (nodeType h n = .cdata → charLength h n = byteLen v) ∧
    (nodeType h n = .text ∨ nodeType h n = .comment → charLength h n = byteLen (escape v)) ∧
    byteLen v ≤ charLength h n := by
  have hv' : (h.get n).value = some v := hv
  refine ⟨?_, ?_, charLength_value h n hv⟩
  · intro ht
    have ht' : (h.get n).ntype = .cdata := ht
    simp [charLength, charData, hv', ht']
  · intro ht
    have ht' : (h.get n).ntype = .text ∨ (h.get n).ntype = .comment := ht
    simp [charLength, charData, hv', ht']

/-- C21: every offset below `length()` that is on a character boundary is accepted when the
node is CDATA or there is nothing to escape. Missing: text with characters that are
escaped (`C21_excess` says what happens there) and offsets inside a character, where the
calls panic (C20). -/
theorem C21_accepts_partial (ov : Bool) (h : Heap) (n : NodeId) (v : Str)
    (hv : nodeValue h n = some v)
    (ht : nodeType h n = .cdata ∨
      ((nodeType h n = .text ∨ nodeType h n = .comment) ∧ escape v = v))
    (hlen : charLength h n < usizeLimit) (offset : Nat) (hoff : offset < charLength h n)
    (hb : Boundary v offset) :
    charLength h n = byteLen v ∧
    (∃ s, nodeSubstringData ov h n offset (charLength h n - offset) = .ok s) ∧
    (∀ s, ∃ h', nodeReplaceData ov h n offset (charLength h n - offset) s = (.ok (), h')) := by
  have hl : charLength h n = byteLen v := by
    rcases ht with ht | ⟨ht, he⟩
    · exact (C21_length h n v hv).1 ht
    · rw [(C21_length h n v hv).2.1 ht, he]
  have hv' : (h.get n).value = some v := hv
  obtain ⟨a, t, rfl, rfl⟩ := hb
  have htne : t ≠ [] := by rintro rfl; rw [hl] at hoff; simp at hoff
  rw [hl] at hlen ⊢
  rw [byteLen_append] at hlen ⊢
  refine ⟨rfl, ⟨t, ?_⟩, fun s => ⟨h.set n { h.get n with value := some (a ++ s) }, ?_⟩⟩
  · unfold nodeSubstringData
    rw [hv']
    exact C16_substring_past_end ov a t _ htne (by omega) (by omega)
  · unfold nodeReplaceData
    rw [hv', C17_replace_past_end ov a t s _ htne (by omega) (by omega)]
    rfl

/-- C21: the offsets that `length()` promises beyond the data are all refused. -/
theorem C21_excess (ov : Bool) (h : Heap) (n : NodeId) (v : Str) (hv : nodeValue h n = some v)
    (hlen : charLength h n < usizeLimit) (offset : Nat) (h1 : byteLen v ≤ offset)
    (h2 : offset < charLength h n) :
    nodeSubstringData ov h n offset (charLength h n - offset) = .err .indexSize ∧
    (∀ s, nodeReplaceData ov h n offset (charLength h n - offset) s = (.err .indexSize, h)) ∧
    (nodeType h n = .text ∨ nodeType h n = .cdata ∨ nodeType h n = .comment →
      splitText ov h n offset = (.err .indexSize, h)) := by
  have hv' : (h.get n).value = some v := hv
  have hs := fun r => C19_index_size_partial ov v r offset (charLength h n - offset) (by omega)
  refine ⟨?_, ?_, ?_⟩
  · unfold nodeSubstringData; rw [hv']; exact (hs []).2.2.2.1.mpr ⟨by omega, h1⟩
  · intro s
    unfold nodeReplaceData
    rw [hv', (hs s).1.mpr h1]
    rfl
  · intro ht
    exact splitText_window ov h n ((isCharacterData_iff _).mpr ht) hv h1 h2 hlen

example : nodeValue (after oneText) 2 = some (c! "ab<c") ∧ charLength (after oneText) 2 = 8 ∧
    nodeType (after [mkDoc, .createCdataSection 0 (c! "a<")]) 2 = .cdata ∧
    charLength (after [mkDoc, .createCdataSection 0 (c! "a<")]) 2 = 2 := by decide

/-! ## C23 -/

/-- C23, as wished. -/
def C23_full : Prop :=
  ∀ (ov : Bool) (h : Heap), Reachable h → ∀ n, h.live n = true → ∀ (offset count : Nat) (s : Str),
    (¬ (nodeInsertData ov h n offset s).1.IsOk → (nodeInsertData ov h n offset s).2 = h) ∧
    (¬ (nodeDeleteData ov h n offset count).1.IsOk → (nodeDeleteData ov h n offset count).2 = h) ∧
    (¬ (nodeReplaceData ov h n offset count s).1.IsOk →
      (nodeReplaceData ov h n offset count s).2 = h) ∧
    (¬ (splitText ov h n offset).1.IsOk → (splitText ov h n offset).2 = h)

/-- C23: splitting a comment cuts its data and then fails. -/
theorem C23_full_false : ¬ C23_full := by
  intro hf
  have h1 := (hf true _ (reachable_after [mkDoc, .createComment 0 (c! "ab")]) 2 (by decide) 1 0
    []).2.2.2 (by decide)
  have h2 : nodeValue (splitText true (after [mkDoc, .createComment 0 (c! "ab")]) 2 1).2 2 =
    some (c! "a") := by decide
  rw [h1] at h2
  exact absurd h2 (by decide)

theorem storeValue_fails {h : Heap} {n : NodeId} {r : Outcome (Option Str)}
    (hf : ¬ (storeValue h n r).1.IsOk) : (storeValue h n r).2 = h := by
  unfold storeValue at *
  cases r with
  | ok _ => exact absurd trivial hf
  | err _ => rfl
  | panic _ => rfl
  | diverge => rfl

/-- C23: a failing call changes nothing: always for the calls on the data (`substring_data`
has no heap to change), and for `split` on Text and CDATA whose owner document is alive and
whose parent has it as a child. Missing: `split` on a comment (`C23_comment`), and on text
whose document is gone. -/
theorem C23_unchanged_partial (ov : Bool) (h : Heap) (n : NodeId) (offset count : Nat) (s : Str) :
    (¬ (nodeInsertData ov h n offset s).1.IsOk → (nodeInsertData ov h n offset s).2 = h) ∧
    (¬ (nodeDeleteData ov h n offset count).1.IsOk → (nodeDeleteData ov h n offset count).2 = h) ∧
    (¬ (nodeReplaceData ov h n offset count s).1.IsOk →
      (nodeReplaceData ov h n offset count s).2 = h) ∧
    (Reachable h → h.live n = true → nodeType h n ≠ .comment → ownerDocument h n ≠ none →
      (∀ p, parentNode h n = some p → n ∈ childNodes h p) → charLength h n < usizeLimit →
      ¬ (splitText ov h n offset).1.IsOk → (splitText ov h n offset).2 = h) := by
  refine ⟨storeValue_fails, storeValue_fails, storeValue_fails, ?_⟩
  intro hr hn hcm ho hl hlen hf
  by_cases hc : isCharacterData (h.get n).ntype = true
  · have ht : nodeType h n = .text ∨ nodeType h n = .cdata := by
      rcases (isCharacterData_iff _).mp hc with e | e | e
      · exact Or.inl e
      · exact Or.inr e
      · exact absurd e hcm
    have hno : ∀ m h', splitText ov h n offset ≠ (.ok m, h') := by
      intro m h' he; rw [he] at hf; exact hf trivial
    rcases splitText_cases ov h n offset hc hlen with ⟨a, t, h1, h2, h3, h4⟩ | ⟨h1, h2⟩ |
      ⟨v, _, _, _, h4⟩ | ⟨v, k, _, _, _, h4⟩
    · obtain ⟨m, h', hok, _⟩ := C22_returns_partial ov h hr n hn ht ho hl hlen offset
        (Or.inr ⟨_, h1, ⟨a, t, rfl, h3.symm⟩, by
          have := byteLen_pos h2; rw [byteLen_append]; omega⟩)
      exact absurd hok (hno m h')
    · obtain ⟨m, h', hok, _⟩ := C22_returns_partial ov h hr n hn ht ho hl hlen offset (Or.inl h1)
      exact absurd hok (hno m h')
    · rw [h4]
    · rw [h4]
  · unfold splitText; rw [if_pos (by simpa using hc)]

/-- C23: what `split` does to a comment: inside the data it cuts the comment and returns
`Syntax`; everywhere else nothing changes. -/
theorem C23_comment (ov : Bool) (h : Heap) (n : NodeId) (offset : Nat)
    (ht : nodeType h n = .comment) (hlen : charLength h n < usizeLimit) :
    (∀ a t, nodeValue h n = some (a ++ t) → t ≠ [] → byteLen a = offset →
      splitText ov h n offset = (.err .syntax, h.set n { h.get n with value := some a })) ∧
    ((∀ a t, nodeValue h n = some (a ++ t) → t ≠ [] → byteLen a ≠ offset) →
      ¬ (splitText ov h n offset).1.IsOk ∧ (splitText ov h n offset).2 = h) := by
  have ht' : (h.get n).ntype = .comment := ht
  have hc : isCharacterData (h.get n).ntype = true := by rw [ht']; rfl
  have hnot : ¬ ((h.get n).ntype = .text ∨ (h.get n).ntype = .cdata) := by rw [ht']; simp
  constructor
  · rintro a t hv htne rfl
    rw [splitText_inside ov h n hc hv htne hlen, splitTail_other (by simpa using hnot)]
  · intro hno
    rcases splitText_cases ov h n offset hc hlen with ⟨a, t, h1, h2, h3, h4⟩ | ⟨h1, h2⟩ |
      ⟨v, _, _, _, h4⟩ | ⟨v, k, _, _, _, h4⟩
    · exact absurd h3.symm (hno a t h1 h2)
    · rw [h2, splitTail_other hnot]; simp [Outcome.IsOk]
    · rw [h4]; simp [Outcome.IsOk]
    · rw [h4]; simp [Outcome.IsOk]

/-- A text node (3) under an element (2) whose document (0) is gone. -/
def orphanText : List Op :=
  [mkDoc, .createElement 0 (c! "e"), .createTextNode 0 (c! "ab"), .appendChild 2 3, .drop 0]

/-- C23: also with the document gone the data is cut and then the call panics. -/
theorem C23_orphan : Reachable (after orphanText) ∧ (after orphanText).live 3 = true ∧
    (splitText true (after orphanText) 3 1).1 = .panic .unwrap ∧
    nodeValue (after orphanText) 3 = some (c! "ab") ∧
    nodeValue (splitText true (after orphanText) 3 1).2 3 = some (c! "a") :=
  ⟨reachable_after _, by decide⟩

example : (nodeInsertData true (after oneText) 2 9 (c! "x")).1 = .err .indexSize ∧
    (splitText true (after oneText) 2 5).1 = .err .indexSize ∧
    (splitText true (after oneText) 2 5).2.get 2 = (after oneText).get 2 := by decide

end Props
end XmlDom
