import Verif.Lemmas.Attr
import Verif.Props.History

/-!
# C37-C41, C43, C46: attributes
-/

namespace XmlDom
namespace Props

open Spec

/-! ## Tools -/

/-- The name of an attribute of an element is a valid name. -/
theorem attr_nameOk {h : Heap} (i : Inv h) {n : NodeId} (hn : h.live n = true) {k : Name}
    {a : NodeId} (hm : (k, a) ∈ attributes h n) : NameOk k := by
  obtain ⟨h1, h2, h3⟩ := i.attr_key hn hm
  have := i.names a (i.wf.fresh a h3)
  rw [h1, h2] at this
  exact this

/-- Parsing a qualified name gives no error (it may panic). -/
theorem fromStr_ne_err {s : Str} (hq : IsQName s) (x : DomError) : Name.fromStr s ≠ .err x := by
  have start : ∀ {t : Str}, IsNcName t → AsciiStart t ∨ WideStart t := fun ht =>
    asciiStart_or_wideStart ht.1
  intro he
  rcases hq with hq | ⟨p, l, rfl, hp, hl⟩
  · rcases start hq with h1 | h1
    · rw [C27_accepts_partial.1 s hq h1] at he; cases he
    · have := (C27_panics_iff s).mpr (Or.inl ⟨hq.2, h1⟩)
      rw [he] at this; exact this
  · rcases start hl with h1 | h1
    · rcases start hp with h2 | h2
      · rw [C27_accepts_partial.2 p l hp hl h2 h1] at he; cases he
      · have := (C27_panics_iff _).mpr (Or.inr ⟨p, l, rfl, hp.2, hl.2, Or.inr ⟨hl.1, h1, h2⟩⟩)
        rw [he] at this; exact this
    · have := (C27_panics_iff _).mpr (Or.inr ⟨p, l, rfl, hp.2, hl.2, Or.inl h1⟩)
      rw [he] at this; exact this

theorem nameOk_qname {k : Name} (hk : NameOk k) : IsQName k.display := by
  unfold Name.display
  cases hp : k.pfx with
  | none => exact Or.inl hk.loc
  | some p => exact Or.inr ⟨p, k.localName, rfl, hk.pfx p hp, hk.loc⟩

/-- Reading the value of what a lookup found is the same in two states when the lookup
is. -/
theorem getAttribute_congr {e e' : Env} (he : e.Ok) (hu : e'.uni = e.uni) {h h' : Heap} (i : Inv h)
    (f : Frame h h') {n : NodeId} (hn : h.live n = true) {s : Str}
    (hg : getAttributeNode e' h' n s = getAttributeNode e h n s) :
    getAttribute e' h' n s = getAttribute e h n s := by
  unfold getAttribute
  rw [hg]
  unfold attributeNodeValue
  cases hr : getAttributeNode e h n s with
  | ok o =>
    cases o with
    | none => rfl
    | some a =>
      obtain ⟨attrs, nss, k, hx, hm⟩ := getAttributeNode_mem he hr
      have ha : h.live a = true :=
        i.wf.strong n hn a (mem_strongRefs.mpr (Or.inr (Or.inl ⟨_, _, _, hx, hm⟩)))
      simp only [Outcome.bind_ok]
      rw [f.ntype a (i.wf.fresh a ha), hu, f.attrValue i.wf e.uni ha]
  | err _ => rfl
  | panic _ => rfl
  | diverge => rfl

/-- What a lookup by qualified name finds, when there is one candidate. -/
theorem getAttributeNode_found {e : Env} (he : e.Ok) {h : Heap} {n a : NodeId} {s : Str} {nm : Name}
    (ht : (h.get n).ntype = .element) (hf : Name.fromStr s = .ok nm) (ha : HasNamed h n s a)
    (hu : OneNamed h n s) : getAttributeNode e h n s = .ok (some a) := by
  rw [getAttributeNode_eq he s ht, hf]
  simp only [Outcome.ok.injEq]
  obtain ⟨k, hm, hd⟩ := ha
  cases hx : (e.attrOrder n (attributes h n)).find? fun kv => decide (kv.1.display = s) with
  | none =>
    have := List.find?_eq_none.mp hx (k, a) ((he.attrOrder _ _).mem_iff.mpr hm)
    exact absurd hd (by simpa using this)
  | some kv =>
    obtain ⟨k', b⟩ := kv
    have h1 := List.find?_some hx
    have h2 := (he.attrOrder _ _).mem_iff.mp (List.mem_of_find?_eq_some hx)
    simp only [decide_eq_true_eq] at h1
    rw [hu a b ⟨k, hm, hd⟩ ⟨k', h2, h1⟩]
    rfl

theorem getAttributeNodeNs_found {e : Env} (he : e.Ok) {h : Heap} {n a : NodeId} {uri s : Str}
    {nm : Name} (ht : (h.get n).ntype = .element) (hf : Name.newNs uri s = .ok nm)
    (ha : HasNamedNs h n uri s a) (hu : OneNamedNs h n uri s) :
    getAttributeNodeNs e h n uri s = .ok (some a) := by
  rw [getAttributeNodeNs_eq he uri s ht, hf]
  simp only [Outcome.ok.injEq]
  obtain ⟨k, hm, hd⟩ := ha
  cases hx : (e.attrOrder n (attributes h n)).find? fun kv =>
      decide (kv.1.namespaceUri = some uri ∧ kv.1.localName = s) with
  | none =>
    have := List.find?_eq_none.mp hx (k, a) ((he.attrOrder _ _).mem_iff.mpr hm)
    exact absurd hd (by simpa using this)
  | some kv =>
    obtain ⟨k', b⟩ := kv
    have h1 := List.find?_some hx
    have h2 := (he.attrOrder _ _).mem_iff.mp (List.mem_of_find?_eq_some hx)
    simp only [decide_eq_true_eq] at h1
    rw [hu a b ⟨k, hm, hd⟩ ⟨k', h2, h1⟩]
    rfl

/-- The value of an attribute whose raw text normalizes. -/
theorem attrValue_normalizes {u : Uni} (hu : u.Ascii) {h : Heap} {a : NodeId} {v r : Str}
    (hc : (h.get a).children ≠ []) (hv : attrRaw h a = v) (hr : Normalizes v r) :
    ∃ w, Trimmed r w ∧ attrValue u h a = .ok (some (escape w)) := by
  obtain ⟨hp, m, h1, h2⟩ := hr
  have hpm : '%' ∉ m := by
    clear h2 hv
    induction h1 with
    | nil => exact hp
    | other c s t _ _ _ _ ih =>
      intro hm
      rcases List.mem_cons.mp hm with h | h
      · exact hp (by rw [h]; simp)
      · exact ih (fun h' => hp (by simp [h'])) h
    | _ =>
      rename_i ih
      intro hm
      rcases List.mem_cons.mp hm with h | h
      · exact absurd h (by decide)
      · exact ih (fun h' => hp (by simp [h'])) h
  refine ⟨trimSpaces r, ?_, ?_⟩
  · obtain ⟨x, y, h3, h4, h5⟩ := C35_trim r
    exact ⟨⟨x, y, h3⟩, h4, h5⟩
  · unfold attrValue
    rw [if_neg hc, hv, C35_normalize_partial u _ false 0 v m r hu h1 h2 (PercentOk.of_notMem hpm)]
    rfl

theorem rawText_iff (h : Heap) (a : NodeId) (s : Str) :
    RawText h (childNodes h a) s ↔ attrRaw h a = s := by
  unfold attrRaw
  change RawText h (h.get a).children s ↔ _
  generalize (h.get a).children = l
  constructor
  · intro hs
    induction hs with
    | nil => rfl
    | text hc hv _ ih =>
      rw [List.flatMap_cons, ih]
      unfold attrChildText
      rw [show (h.get _).ntype = .text from hc, show (h.get _).value = _ from hv]
      rfl
    | reference hc hv _ ih =>
      rw [List.flatMap_cons, ih]
      unfold attrChildText
      rw [show (h.get _).ntype = .entityReference from hc, show (h.get _).value = _ from hv]
      rfl
    | missing hv _ ih =>
      rw [List.flatMap_cons, ih]
      unfold attrChildText
      rw [show (h.get _).value = _ from hv]
      split <;> simp
    | other h1 h2 _ ih =>
      rw [List.flatMap_cons, ih]
      unfold attrChildText
      rw [if_neg (show (h.get _).ntype ≠ .entityReference from h2),
        if_neg (show (h.get _).ntype ≠ .text from h1)]
      rfl
  · rintro rfl
    induction l with
    | nil => exact .nil
    | cons c l ih =>
      rw [List.flatMap_cons]
      cases hv : nodeValue h c with
      | none =>
        have hv' : (h.get c).value = none := hv
        have : attrChildText (h.get c) = [] := by unfold attrChildText; rw [hv']; split <;> simp
        rw [this]
        exact .missing hv ih
      | some v =>
        have hv' : (h.get c).value = some v := hv
        by_cases h2 : nodeType h c = .entityReference
        · have h2' : (h.get c).ntype = .entityReference := h2
          have : attrChildText (h.get c) = v := by unfold attrChildText; rw [if_pos h2', hv']
          rw [this]
          exact .reference h2 hv ih
        · have h2' : (h.get c).ntype ≠ .entityReference := h2
          by_cases h1 : nodeType h c = .text
          · have h1' : (h.get c).ntype = .text := h1
            have : attrChildText (h.get c) = v := by
              unfold attrChildText; rw [if_neg h2', if_pos h1', hv']
            rw [this]
            exact .text h1 hv ih
          · have h1' : (h.get c).ntype ≠ .text := h1
            have : attrChildText (h.get c) = [] := by
              unfold attrChildText; rw [if_neg h2', if_neg h1']
            rw [this]
            exact .other h1 h2 ih

/-- C36: an attribute whose children say, one after the other, a text that normalizes can be
read, and reads as that text normalized, trimmed and escaped. -/
theorem C36_children (u : Uni) (hu : u.Ascii) (h : Heap) (a : NodeId) (s r : Str)
    (hc : childNodes h a ≠ []) (hs : RawText h (childNodes h a) s) (hr : Normalizes s r) :
    ∃ w, Trimmed r w ∧ attrValue u h a = .ok (some (escape w)) :=
  attrValue_normalizes hu hc ((rawText_iff h a s).mp hs) hr

example : RawText (after [mkDoc, .createAttribute 0 (c! "a"), .createTextNode 0 (c! "x"),
      .createTextNode 0 (c! "y"), .appendChild 2 3, .appendChild 2 4]) [3, 4] (c! "xy") ∧
    attrValue plainEnv.uni (after [mkDoc, .createAttribute 0 (c! "a"), .createTextNode 0 (c! "x"),
      .createTextNode 0 (c! "y"), .appendChild 2 3, .appendChild 2 4]) 2 = .ok (some (c! "xy")) :=
  ⟨.text (s := c! "x") (t := c! "y") (by decide) (by decide)
    (.text (s := c! "y") (t := []) (by decide) (by decide) .nil), by decide⟩

/-! ## C37 -/

/-- C37: what was set is read, escaped and normalized, whatever was there before. -/
def C37_full : Prop :=
  ∀ (e e' : Env) (h h' : Heap) (n : NodeId) (name v r : Str), e.Ok → e'.Ok → Reachable h →
    h.live n = true → setAttribute e h n name v = (.ok (), h') → Normalizes v r →
    ∃ w, Trimmed r w ∧ getAttribute e' h' n name = .ok (some (escape w))

/-- The element has `a` in a namespace already. -/
def clashOps : List Op := [mkDoc, .setAttributeNs 1 (c! "u") (c! "a") (c! "1")]

/-- C37 does not hold: with an attribute of the same qualified name in a namespace, some
iteration order reads the old value. -/
theorem C37_full_false : ¬ C37_full := by
  intro hf
  have hn : Normalizes [] [] := ⟨by simp, [], .nil, .nil⟩
  have key : ∀ e' : Env, e'.Ok → getAttribute e'
      (setAttribute plainEnv (after clashOps) 1 (c! "a") []).2 1 (c! "a") = .ok (some []) := by
    intro e' he'
    obtain ⟨w, ⟨⟨x, y, hw⟩, _⟩, h2⟩ := hf plainEnv e' (after clashOps)
      (setAttribute plainEnv (after clashOps) 1 (c! "a") []).2 1 (c! "a") [] [] plainEnv_ok he'
      (reachable_after _) (by decide)
      (Prod.ext (by decide : (setAttribute plainEnv (after clashOps) 1 (c! "a") []).1 = .ok ()) rfl) hn
    have : w = [] := by
      have := hw.symm
      simp only [List.append_eq_nil_iff] at this
      exact this.1.2
    rw [h2, this]
    rfl
  exact absurd (key plainEnv plainEnv_ok) (by
    intro h1
    have h2 := key backEnv backEnv_ok
    revert h1 h2
    decide)

/-- C37 (partial: no attribute of that qualified name is in a namespace). -/
theorem C37_set_get_partial (e e' : Env) (h h' : Heap) (n : NodeId) (name v r : Str) (he' : e'.Ok)
    (hr : Reachable h) (hn : h.live n = true)
    (hno : ∀ k a, (k, a) ∈ attributes h n → k.display = name → k.namespaceUri = none)
    (hs : setAttribute e h n name v = (.ok (), h')) (hv : Normalizes v r) :
    ∃ w, Trimmed r w ∧ getAttribute e' h' n name = .ok (some (escape w)) := by
  have i := hr.invariant
  obtain ⟨f, heff⟩ := setAttributeNamed_effect e h (i.wf.fresh n hn) (Name.fromStr name) v
  have hs' : setAttributeNamed e h n (Name.fromStr name) v = (.ok (), h') := hs
  rw [hs'] at f heff
  rcases heff with ⟨_, h2⟩ | ⟨nm, a, hnm, hfr, ht, hta, hca, hra, hat, _⟩
  · exact absurd rfl h2
  · simp only at f hta hca hra hat
    have hdisp := C28_display_fromStr name nm hnm
    have hns := (C27_only_qnames name nm hnm).2.1
    have hok := nameOk_fromStr hnm
    have hlt := i.wf.fresh n hn
    have hent : ∀ k b, (k, b) ∈ attributes h' n → k.display = name → b = a := by
      intro k b hm hd
      rw [hat, mem_mapInsert] at hm
      rcases hm with h1 | ⟨h1, h2⟩
      · cases h1; rfl
      · exact absurd (NameOk.ext (attr_nameOk i hn h1) hok ((hno k b h1 hd).trans hns.symm)
          (hd.trans hdisp.symm)) h2
    have hone : OneNamed h' n name := by
      rintro x y ⟨k, hx, hdx⟩ ⟨k', hy, hdy⟩
      rw [hent k x hx hdx, hent k' y hy hdy]
    have hfound := getAttributeNode_found he' (a := a) ((f.ntype n hlt).trans ht) hnm
      ⟨nm, by rw [hat]; exact mem_mapInsert.mpr (Or.inl rfl), hdisp⟩ hone
    obtain ⟨w, hw1, hw2⟩ := attrValue_normalizes he'.uni hca hra hv
    refine ⟨w, hw1, ?_⟩
    unfold getAttribute attributeNodeValue
    rw [hfound, Outcome.bind_ok]
    simp only
    rw [if_pos hta, hw2]

/-- The hypotheses can be met, also when the attribute is there already. -/
example : ∃ h', setAttribute plainEnv (after [mkDoc, .setAttribute 1 (c! "a") (c! "1")]) 1 (c! "a")
      (c! " x<y\n") = (.ok (), h') ∧ getAttribute backEnv h' 1 (c! "a") = .ok (some (c! "x&#60;y")) ∧
    (∀ k a, (k, a) ∈ attributes (after [mkDoc, .setAttribute 1 (c! "a") (c! "1")]) 1 →
      k.display = (c! "a") → k.namespaceUri = none) := by
  refine ⟨_, Prod.ext (by decide :
    (setAttribute plainEnv (after [mkDoc, .setAttribute 1 (c! "a") (c! "1")]) 1 (c! "a")
      (c! " x<y\n")).1 = .ok ()) rfl, by decide, ?_⟩
  intro k a hm _
  have : attributes (after [mkDoc, .setAttribute 1 (c! "a") (c! "1")]) 1 =
    [(⟨none, none, c! "a"⟩, 3)] := by decide
  rw [this] at hm
  cases List.mem_singleton.mp hm
  rfl

/-- C37 for the namespace variants (partial: the name has no prefix, and no attribute of
that namespace and local name has a prefix). -/
theorem C37_ns_partial (e e' : Env) (h h' : Heap) (n : NodeId) (uri loc v r : Str) (he' : e'.Ok)
    (hr : Reachable h) (hn : h.live n = true) (hcol : ':' ∉ loc)
    (hno : ∀ k a, (k, a) ∈ attributes h n → k.namespaceUri = some uri → k.localName = loc →
      k.pfx = none)
    (hs : setAttributeNs e h n uri loc v = (.ok (), h')) (hv : Normalizes v r) :
    ∃ w, Trimmed r w ∧ getAttributeNs e' h' n uri loc = .ok (some (escape w)) := by
  have i := hr.invariant
  obtain ⟨f, heff⟩ := setAttributeNamed_effect e h (i.wf.fresh n hn) (Name.newNs uri loc) v
  have hs' : setAttributeNamed e h n (Name.newNs uri loc) v = (.ok (), h') := hs
  rw [hs'] at f heff
  rcases heff with ⟨_, h2⟩ | ⟨nm, a, hnm, hfr, ht, hta, hca, hra, hat, _⟩
  · exact absurd rfl h2
  · simp only at f hta hca hra hat
    obtain ⟨q, hq, _, hnmq, _⟩ := (C29_new_ns_ok uri loc nm).mp hnm
    have hloc : q.pfx = none ∧ q.localName = loc := by
      rcases (C27_only_qnames loc q hq).2.2 with h1 | ⟨p, _, h1⟩
      · exact h1
      · exact absurd (by rw [h1]; simp) hcol
    rw [hloc.1, hloc.2] at hnmq
    subst hnmq
    have hlt := i.wf.fresh n hn
    have hent : ∀ k b, (k, b) ∈ attributes h' n → k.namespaceUri = some uri → k.localName = loc →
        b = a := by
      intro k b hm hu hl
      rw [hat, mem_mapInsert] at hm
      rcases hm with h1 | ⟨h1, h2⟩
      · cases h1; rfl
      · refine absurd ?_ h2
        have hp := hno k b h1 hu hl
        obtain ⟨ku, kp, kl⟩ := k
        simp only at hu hl hp
        rw [hu, hl, hp]
    have hone : OneNamedNs h' n uri loc := by
      rintro x y ⟨k, hx, hdx⟩ ⟨k', hy, hdy⟩
      rw [hent k x hx hdx.1 hdx.2, hent k' y hy hdy.1 hdy.2]
    have hfound := getAttributeNodeNs_found he' (a := a) ((f.ntype n hlt).trans ht) hnm
      ⟨_, by rw [hat]; exact mem_mapInsert.mpr (Or.inl rfl), rfl, rfl⟩ hone
    obtain ⟨w, hw1, hw2⟩ := attrValue_normalizes he'.uni hca hra hv
    refine ⟨w, hw1, ?_⟩
    unfold getAttributeNs attributeNodeValue
    rw [hfound, Outcome.bind_ok]
    simp only
    rw [if_pos hta, hw2]

/-! ## C38 -/

/-- What a call that puts or removes one attribute of `n` leaves alone: the attributes of
other elements, and those of `n` whose qualified name is not touched. -/
structure LeavesOthers (e : Env) (h h' : Heap) (n : NodeId) (touched : Str → Prop) : Prop where
  elements : ∀ m, h.live m = true → m ≠ n → ∀ s, getAttribute e h' m s = getAttribute e h m s
  names : ∀ s, ¬ touched s → getAttribute e h' n s = getAttribute e h n s

/-- C38: setting or removing an attribute leaves the others alone. -/
def C38_full : Prop :=
  ∀ (e : Env) (h : Heap) (n : NodeId) (name v : Str), e.Ok → Reachable h → h.live n = true →
    LeavesOthers e h (setAttribute e h n name v).2 n (· = name) ∧
    LeavesOthers e h (removeAttribute e h n name).2 n (· = name)

/-- An environment that iterates over maps of odd size backwards. -/
def oddEnv : Env :=
  { plainEnv with attrOrder := fun _ m => if m.length % 2 = 0 then m else m.reverse }

theorem oddEnv_ok : oddEnv.Ok := by
  refine ⟨asciiUni_ascii, fun n m => ?_, fun _ _ => List.Perm.refl _⟩
  show (if m.length % 2 = 0 then m else m.reverse).Perm m
  split
  · exact List.Perm.refl _
  · exact List.reverse_perm m

/-- C38 does not hold: when two attributes share a qualified name, adding a third one can
reorder the map and change which of the two is read. -/
theorem C38_full_false : ¬ C38_full := by
  intro hf
  have := (hf oddEnv (after (clashOps ++ [.setAttribute 1 (c! "a") (c! "2")])) 1 (c! "b") (c! "3")
    oddEnv_ok (reachable_after _) (by decide)).1.names (c! "a") (by decide)
  exact absurd this (by decide)

/-- The frame of a call, from its effect on the attribute map. -/
theorem leavesOthers_of {e : Env} (he : e.Ok) {h h' : Heap} (i : Inv h) {n : NodeId}
    (hn : h.live n = true) (f : Frame h h') {touched : Str → Prop}
    (ho : ∀ m, m < h.next → m ≠ n → attributes h' m = attributes h m)
    (hm : ∀ k a, ¬ touched k.display → ((k, a) ∈ attributes h n ↔ (k, a) ∈ attributes h' n)) :
    (∀ m, h.live m = true → m ≠ n → ∀ s, getAttribute e h' m s = getAttribute e h m s) ∧
    (∀ s, OneNamed h n s → ¬ touched s → getAttribute e h' n s = getAttribute e h n s) := by
  constructor
  · intro m hl hmn s
    have hlt := i.wf.fresh m hl
    refine getAttribute_congr he rfl i f hl ?_
    by_cases ht : (h.get m).ntype = .element
    · rw [getAttributeNode_eq he s ht, getAttributeNode_eq he s ((f.ntype m hlt).trans ht),
        ho m hlt hmn]
    · unfold getAttributeNode
      rw [if_neg ht, if_neg (by rw [f.ntype m hlt]; exact ht)]
  · intro s hone hs
    refine getAttribute_congr he rfl i f hn ?_
    refine getAttributeNode_congr he he i hn (f.ntype n (i.wf.fresh n hn)) ?_ hone
    intro k a hd
    exact hm k a (by rw [hd]; exact hs)

theorem leaves_setAttributeNamed {e : Env} (he : e.Ok) {h : Heap} (i : Inv h) {n : NodeId}
    (hn : h.live n = true) (o : Outcome Name) (v : Str) (name : Str)
    (ho : ∀ nm, o = .ok nm → nm.display = name) :
    (∀ m, h.live m = true → m ≠ n → ∀ s,
      getAttribute e (setAttributeNamed e h n o v).2 m s = getAttribute e h m s) ∧
    (∀ s, OneNamed h n s → s ≠ name →
      getAttribute e (setAttributeNamed e h n o v).2 n s = getAttribute e h n s) := by
  have hlt := i.wf.fresh n hn
  obtain ⟨f, heff⟩ := setAttributeNamed_effect e h hlt o v
  rcases heff with ⟨h1, _⟩ | ⟨nm, a, hnm, hfr, ht, _, _, _, hat, hoth⟩
  · exact leavesOthers_of he i hn f (fun m hm _ => h1 m hm) (touched := (· = name))
      (fun k b _ => by rw [h1 n hlt])
  · refine leavesOthers_of he i hn f hoth (touched := (· = name)) ?_
    intro k b hk
    rw [hat, mem_mapInsert]
    constructor
    · intro hm
      refine Or.inr ⟨hm, fun he => hk ?_⟩
      simp only at he
      rw [he, ho nm hnm]
    · rintro (h1 | ⟨h1, _⟩)
      · cases h1; exact absurd (ho nm hnm) hk
      · exact h1

theorem leaves_removeFound {e : Env} (he : e.Ok) {h : Heap} (i : Inv h) {n : NodeId}
    (hn : h.live n = true) (o : Outcome (Option NodeId)) :
    (∀ m, h.live m = true → m ≠ n → ∀ s,
      getAttribute e (removeFound h n o).2 m s = getAttribute e h m s) ∧
    (∀ s, OneNamed h n s → (∀ a, o = .ok (some a) → (h.get a).name.display ≠ s) →
      getAttribute e (removeFound h n o).2 n s = getAttribute e h n s) := by
  unfold removeFound
  split
  · exact ⟨fun _ _ _ _ => rfl, fun _ _ _ => rfl⟩
  · exact ⟨fun _ _ _ _ => rfl, fun _ _ _ => rfl⟩
  · exact ⟨fun _ _ _ _ => rfl, fun _ _ _ => rfl⟩
  · exact ⟨fun _ _ _ _ => rfl, fun _ _ _ => rfl⟩
  · rename_i a
    simp only [Result.void]
    obtain ⟨f, h1⟩ := removeAttributeNode_effect h n a
    have key := leavesOthers_of he i hn f (touched := (· = (h.get a).name.display))
    rcases h1 with ⟨h1, _⟩ | ⟨_, h2, h3⟩
    · obtain ⟨k1, k2⟩ := key (fun m _ _ => h1 m) (fun k b _ => by rw [h1 n])
      exact ⟨k1, fun s hs hne => k2 s hs (fun hx => hne a rfl hx.symm)⟩
    · obtain ⟨k1, k2⟩ := key (fun m _ hm => h3 m hm) (fun k b hk => by
        rw [h2, mem_mapRemove]
        exact ⟨fun hm => ⟨hm, fun hx => hk (by simp only at hx; rw [hx])⟩, fun hm => hm.1⟩)
      exact ⟨k1, fun s hs hne => k2 s hs (fun hx => hne a rfl hx.symm)⟩

/-- A lookup by qualified name finds an attribute of that name. -/
theorem getAttributeNode_named {e : Env} (he : e.Ok) {h : Heap} {n a : NodeId} {s : Str}
    (hg : getAttributeNode e h n s = .ok (some a)) : HasNamed h n s a := by
  by_cases ht : (h.get n).ntype = .element
  · rw [getAttributeNode_eq he s ht] at hg
    split at hg
    · simp only [Outcome.ok.injEq, Option.map_eq_some_iff] at hg
      obtain ⟨⟨k, b⟩, h1, h2⟩ := hg
      have hp := List.find?_some h1
      have hm := (he.attrOrder _ _).mem_iff.mp (List.mem_of_find?_eq_some h1)
      simp only at h2
      subst h2
      exact ⟨k, hm, by simpa using hp⟩
    · cases hg
    · cases hg
    · cases hg
  · unfold getAttributeNode at hg
    rw [if_neg ht] at hg
    cases hg

theorem getAttributeNodeNs_named {e : Env} (he : e.Ok) {h : Heap} {n a : NodeId} {uri s : Str}
    (hg : getAttributeNodeNs e h n uri s = .ok (some a)) : HasNamedNs h n uri s a := by
  by_cases ht : (h.get n).ntype = .element
  · rw [getAttributeNodeNs_eq he uri s ht] at hg
    split at hg
    · simp only [Outcome.ok.injEq, Option.map_eq_some_iff] at hg
      obtain ⟨⟨k, b⟩, h1, h2⟩ := hg
      have hp := List.find?_some h1
      have hm := (he.attrOrder _ _).mem_iff.mp (List.mem_of_find?_eq_some h1)
      simp only at h2
      subst h2
      exact ⟨k, hm, by simpa using hp⟩
    · cases hg
    · cases hg
    · cases hg
  · unfold getAttributeNodeNs at hg
    rw [if_neg ht] at hg
    cases hg

/-- C38, attributes of other elements: no call on `n` changes what is read from them. -/
theorem C38_other_elements (e : Env) (h : Heap) (n : NodeId) (he : e.Ok) (hr : Reachable h)
    (hn : h.live n = true) (m : NodeId) (hm : h.live m = true) (hmn : m ≠ n) (s : Str) :
    (∀ name v, getAttribute e (setAttribute e h n name v).2 m s = getAttribute e h m s) ∧
    (∀ uri q v, getAttribute e (setAttributeNs e h n uri q v).2 m s = getAttribute e h m s) ∧
    (∀ a, getAttribute e (setAttributeNode e h n a).2 m s = getAttribute e h m s) ∧
    (∀ name, getAttribute e (removeAttribute e h n name).2 m s = getAttribute e h m s) ∧
    (∀ uri q, getAttribute e (removeAttributeNs e h n uri q).2 m s = getAttribute e h m s) ∧
    (∀ a, getAttribute e (removeAttributeNode h n a).2 m s = getAttribute e h m s) := by
  have i := hr.invariant
  refine ⟨?_, ?_, ?_, ?_, ?_, ?_⟩
  · intro name v
    exact (leaves_setAttributeNamed he i hn _ v name
      (fun nm hnm => C28_display_fromStr name nm hnm)).1 m hm hmn s
  · intro uri q v
    refine (leaves_setAttributeNamed he i hn _ v q (fun nm hnm => ?_)).1 m hm hmn s
    obtain ⟨x, hx, _, h1, _⟩ := (C29_new_ns_ok uri q nm).mp hnm
    rw [← C28_display_fromStr q x hx, h1]
    rfl
  · intro a
    obtain ⟨f, _, h1⟩ := setAttributeNode_effect e h n a
    refine (leavesOthers_of he i hn f (touched := fun _ => True) ?_ (by simp)).1 m hm hmn s
    intro m _ hmn
    rcases h1 with h1 | h1
    · exact h1.1 m
    · exact h1.2.2.2.1 m hmn
  · intro name
    exact (leaves_removeFound he i hn _).1 m hm hmn s
  · intro uri q
    exact (leaves_removeFound he i hn _).1 m hm hmn s
  · intro a
    obtain ⟨f, h1⟩ := removeAttributeNode_effect h n a
    refine (leavesOthers_of he i hn f (touched := fun _ => True) ?_ (by simp)).1 m hm hmn s
    intro m _ hmn
    rcases h1 with h1 | h1
    · exact h1.1 m
    · exact h1.2.2 m hmn

/-- C38, other attributes of the element (partial: at most one attribute has the name that
is read). -/
theorem C38_other_names_partial (e : Env) (h : Heap) (n : NodeId) (he : e.Ok) (hr : Reachable h)
    (hn : h.live n = true) (s : Str) (hone : OneNamed h n s) :
    (∀ name v, s ≠ name → getAttribute e (setAttribute e h n name v).2 n s = getAttribute e h n s) ∧
    (∀ uri q v, s ≠ q → getAttribute e (setAttributeNs e h n uri q v).2 n s = getAttribute e h n s) ∧
    (∀ name, s ≠ name → getAttribute e (removeAttribute e h n name).2 n s = getAttribute e h n s) ∧
    (∀ uri loc, (∀ a, HasNamedNs h n uri loc a → ¬ HasNamed h n s a) →
      getAttribute e (removeAttributeNs e h n uri loc).2 n s = getAttribute e h n s) := by
  have i := hr.invariant
  refine ⟨?_, ?_, ?_, ?_⟩
  · intro name v hne
    exact (leaves_setAttributeNamed he i hn _ v name
      (fun nm hnm => C28_display_fromStr name nm hnm)).2 s hone hne
  · intro uri q v hne
    refine (leaves_setAttributeNamed he i hn _ v q (fun nm hnm => ?_)).2 s hone hne
    obtain ⟨x, hx, _, h1, _⟩ := (C29_new_ns_ok uri q nm).mp hnm
    rw [← C28_display_fromStr q x hx, h1]
    rfl
  · intro name hne
    refine (leaves_removeFound he i hn _).2 s hone ?_
    intro a ha hd
    obtain ⟨k, hm, hk⟩ := getAttributeNode_named he ha
    rw [(i.attr_key hn hm).2.1, hk] at hd
    exact hne hd.symm
  · intro uri loc hno
    refine (leaves_removeFound he i hn _).2 s hone ?_
    intro a ha hd
    have h1 := getAttributeNodeNs_named he ha
    obtain ⟨k, hm, _⟩ := id h1
    rw [(i.attr_key hn hm).2.1] at hd
    exact hno a h1 ⟨k, hm, hd⟩

/-- The hypotheses can be met with a name that is there. -/
example : Reachable (after [mkDoc, .setAttribute 1 (c! "a") (c! "1")]) ∧
    OneNamed (after [mkDoc, .setAttribute 1 (c! "a") (c! "1")]) 1 (c! "a") ∧
    getAttribute plainEnv (after [mkDoc, .setAttribute 1 (c! "a") (c! "1")]) 1 (c! "a") =
      .ok (some (c! "1")) := by
  refine ⟨reachable_after _, ?_, by decide⟩
  rintro a b ⟨k, h1, _⟩ ⟨k', h2, _⟩
  have : attributes (after [mkDoc, .setAttribute 1 (c! "a") (c! "1")]) 1 =
    [(⟨none, none, c! "a"⟩, 3)] := by decide
  rw [this] at h1 h2
  cases List.mem_singleton.mp h1
  cases List.mem_singleton.mp h2
  rfl

/-- At most one attribute has a name when none of that name is in a namespace. -/
theorem oneNamed_of_plain {h : Heap} (hr : Reachable h) {n : NodeId} (hn : h.live n = true)
    {s : Str} (hno : ∀ k a, (k, a) ∈ attributes h n → k.display = s → k.namespaceUri = none) :
    OneNamed h n s := by
  have i := hr.invariant
  rintro a b ⟨k, h1, hd1⟩ ⟨k', h2, hd2⟩
  have : k = k' := NameOk.ext (attr_nameOk i hn h1) (attr_nameOk i hn h2)
    ((hno k a h1 hd1).trans (hno k' b h2 hd2).symm) (hd1.trans hd2.symm)
  subst this
  exact (i.attributes_nodup hn).eq_of_mem h1 h2

/-! ## C39 -/

/-- C39: after removing a name the element has no attribute of that name. -/
def C39_full : Prop :=
  ∀ (e : Env) (h h' : Heap) (n : NodeId) (name : Str), e.Ok → Reachable h → h.live n = true →
    removeAttribute e h n name = (.ok (), h') → ∀ a, ¬ HasNamed h' n name a

/-- C39 does not hold: of two attributes that share a qualified name one stays. -/
theorem C39_full_false : ¬ C39_full := by
  intro hf
  have := hf plainEnv (after (clashOps ++ [.setAttribute 1 (c! "a") (c! "2")]))
    (removeAttribute plainEnv (after (clashOps ++ [.setAttribute 1 (c! "a") (c! "2")])) 1 (c! "a")).2
    1 (c! "a") plainEnv_ok (reachable_after _) (by decide)
    (Prod.ext (by decide : (removeAttribute plainEnv
      (after (clashOps ++ [.setAttribute 1 (c! "a") (c! "2")])) 1 (c! "a")).1 = .ok ()) rfl)
  have hm : getAttributeNode plainEnv (removeAttribute plainEnv
      (after (clashOps ++ [.setAttribute 1 (c! "a") (c! "2")])) 1 (c! "a")).2 1 (c! "a") =
      .ok (some 3) ∨ getAttributeNode plainEnv (removeAttribute plainEnv
      (after (clashOps ++ [.setAttribute 1 (c! "a") (c! "2")])) 1 (c! "a")).2 1 (c! "a") =
      .ok (some 5) := by decide
  rcases hm with hm | hm
  · exact this _ (getAttributeNode_named plainEnv_ok hm)
  · exact this _ (getAttributeNode_named plainEnv_ok hm)

/-- C39 (partial: at most one attribute has the name). -/
theorem C39_remove_partial (e : Env) (h h' : Heap) (n : NodeId) (name : Str) (he : e.Ok)
    (hr : Reachable h) (hn : h.live n = true) (hone : OneNamed h n name)
    (hs : removeAttribute e h n name = (.ok (), h')) : ∀ a, ¬ HasNamed h' n name a := by
  have i := hr.invariant
  intro a ha
  obtain ⟨k, hm, hd⟩ := ha
  unfold removeAttribute at hs
  have nohit : getAttributeNode e h n name = .ok none → ∀ b, ¬ HasNamed h n name b := by
    rintro hg b ⟨q, hq, hqd⟩
    have ht : (h.get n).ntype = .element := by
      unfold attributes at hq
      split at hq
      · assumption
      · cases hq
    rw [getAttributeNode_eq he name ht] at hg
    split at hg
    · simp only [Outcome.ok.injEq, Option.map_eq_none_iff] at hg
      have := List.find?_eq_none.mp hg (q, b) ((he.attrOrder _ _).mem_iff.mpr hq)
      exact absurd hqd (by simpa using this)
    · rename_i x hx
      exact fromStr_ne_err (hqd ▸ nameOk_qname (attr_nameOk i hn hq)) x hx
    · cases hg
    · cases hg
  unfold removeFound at hs
  split at hs
  · cases hs
  · cases hs
  · cases hs
  · rename_i hg
    cases hs
    exact nohit hg a ⟨k, hm, hd⟩
  · rename_i b hg
    obtain ⟨_, h1⟩ := removeAttributeNode_effect h n b
    simp only [Result.void] at hs
    have hres : (removeAttributeNode h n b).2 = h' := congrArg Prod.snd hs
    rcases h1 with ⟨_, h1⟩ | ⟨_, h1, _⟩
    · have h2 : ((removeAttributeNode h n b).1.map fun _ => ()) = .ok () := congrArg Prod.fst hs
      cases h3 : (removeAttributeNode h n b).1 with
      | ok c => exact absurd h3 (h1 c)
      | _ => rw [h3] at h2; cases h2
    · rw [hres] at h1
      rw [h1, mem_mapRemove] at hm
      have hb := getAttributeNode_named he hg
      have : a = b := hone a b ⟨k, hm.1, hd⟩ hb
      subst this
      exact hm.2 (i.attr_key hn hm.1).2.1.symm

example : removeAttribute backEnv (after [mkDoc, .setAttribute 1 (c! "a") (c! "1")]) 1 (c! "a") =
    (.ok (), (removeAttribute backEnv (after [mkDoc, .setAttribute 1 (c! "a") (c! "1")]) 1
      (c! "a")).2) ∧
    hasAttribute plainEnv (after [mkDoc, .setAttribute 1 (c! "a") (c! "1")]) 1 (c! "a") =
      .ok true :=
  ⟨Prod.ext (by decide : (removeAttribute backEnv
    (after [mkDoc, .setAttribute 1 (c! "a") (c! "1")]) 1 (c! "a")).1 = .ok ()) rfl, by decide⟩

/-- C39, without the restriction: removing takes away one attribute of the name when there
is one, and nothing else. -/
theorem C39_removes_one (e : Env) (h h' : Heap) (n : NodeId) (name : Str) (he : e.Ok)
    (hr : Reachable h) (hn : h.live n = true) (hs : removeAttribute e h n name = (.ok (), h'))
    (hsome : ∃ a, HasNamed h n name a) :
    ∃ k a, (k, a) ∈ attributes h n ∧ k.display = name ∧
      ∀ x, x ∈ attributes h' n ↔ x ∈ attributes h n ∧ x ≠ (k, a) := by
  have i := hr.invariant
  obtain ⟨a0, q, hq, hqd⟩ := hsome
  have ht : (h.get n).ntype = .element := by
    unfold attributes at hq
    split at hq
    · assumption
    · cases hq
  unfold removeAttribute at hs
  unfold removeFound at hs
  split at hs
  · cases hs
  · cases hs
  · cases hs
  · rename_i hg
    exfalso
    rw [getAttributeNode_eq he name ht] at hg
    split at hg
    · simp only [Outcome.ok.injEq, Option.map_eq_none_iff] at hg
      have := List.find?_eq_none.mp hg (q, a0) ((he.attrOrder _ _).mem_iff.mpr hq)
      exact absurd hqd (by simpa using this)
    · rename_i x hx
      exact fromStr_ne_err (hqd ▸ nameOk_qname (attr_nameOk i hn hq)) x hx
    · cases hg
    · cases hg
  · rename_i b hg
    obtain ⟨_, h1⟩ := removeAttributeNode_effect h n b
    simp only [Result.void] at hs
    have hres : (removeAttributeNode h n b).2 = h' := congrArg Prod.snd hs
    obtain ⟨k, hm, hd⟩ := getAttributeNode_named he hg
    refine ⟨k, b, hm, hd, ?_⟩
    rcases h1 with ⟨_, h1⟩ | ⟨_, h1, _⟩
    · have h2 : ((removeAttributeNode h n b).1.map fun _ => ()) = .ok () := congrArg Prod.fst hs
      cases h3 : (removeAttributeNode h n b).1 with
      | ok c => exact absurd h3 (h1 c)
      | _ => rw [h3] at h2; cases h2
    · rw [hres] at h1
      rintro ⟨x, y⟩
      rw [h1, mem_mapRemove, (i.attr_key hn hm).2.1]
      constructor
      · rintro ⟨h2, h3⟩
        refine ⟨h2, fun h4 => h3 ?_⟩
        cases h4; rfl
      · rintro ⟨h2, h3⟩
        refine ⟨h2, fun h4 => h3 ?_⟩
        simp only at h4
        subst h4
        rw [(i.attributes_nodup hn).eq_of_mem h2 hm]

/-! ## C40 -/

/-- C40: `has_attribute` says whether `get_attribute_node` finds something, in all states
and for all names and iteration orders. -/
theorem C40_has_attribute (e : Env) (h : Heap) (n : NodeId) (name : Str) :
    hasAttribute e h n name = (getAttributeNode e h n name).map Option.isSome := by
  unfold hasAttribute getAttributeNode
  split
  · split
    · split
      · simp only [Outcome.map_ok, Option.isSome_map, isSome_find?]
      · rfl
    · rfl
    · rfl
    · rfl
  · rfl

/-- C40 for the namespace variants. -/
def C40_ns_full : Prop :=
  ∀ (e : Env) (h : Heap) (n : NodeId) (uri loc : Str), e.Ok → Reachable h → h.live n = true →
    hasAttributeNs e h n uri loc = (getAttributeNodeNs e h n uri loc).map Option.isSome

/-- C40 does not hold for the namespace variants: with a prefixed name one parses the
argument and the other compares it as it is. -/
theorem C40_ns_full_false : ¬ C40_ns_full := by
  intro hf
  have := hf plainEnv (after [mkDoc, .setAttributeNs 1 (c! "u") (c! "p:a") (c! "1")]) 1 (c! "u")
    (c! "p:a") plainEnv_ok (reachable_after _) (by decide)
  exact absurd this (by decide)

/-- C40 for the namespace variants (partial: the local name has no colon). -/
theorem C40_ns_partial (e : Env) (h : Heap) (n : NodeId) (uri loc : Str) (hcol : ':' ∉ loc) :
    hasAttributeNs e h n uri loc = (getAttributeNodeNs e h n uri loc).map Option.isSome := by
  unfold hasAttributeNs getAttributeNodeNs
  split
  · split
    · rename_i nm hnm
      obtain ⟨q, hq, _, h1, _⟩ := (C29_new_ns_ok uri loc nm).mp hnm
      have hl : q.localName = loc := by
        rcases (C27_only_qnames loc q hq).2.2 with h2 | ⟨p, _, h2⟩
        · exact h2.2
        · exact absurd (by rw [h2]; simp) hcol
      rw [hl] at h1
      subst h1
      split
      · simp only [Outcome.map_ok, Option.isSome_map, isSome_find?]
      · rfl
    · rfl
    · rfl
    · rfl
  · rfl

example : hasAttribute plainEnv (after clashOps) 1 (c! "a") = .ok true ∧
    hasAttributeNs plainEnv (after clashOps) 1 (c! "u") (c! "a") = .ok true ∧
    hasAttributeNs plainEnv (after clashOps) 1 (c! "u") (c! "b") = .ok false := by decide

/-! ## C41 -/

/-- C41: a call that fails keeps the attributes of the element. -/
def C41_full : Prop :=
  ∀ (e : Env) (h : Heap) (n : NodeId), e.Ok → Reachable h → h.live n = true →
    (∀ name v x h', setAttribute e h n name v = (.err x, h') → attributes h' n = attributes h n) ∧
    (∀ uri q v x h', setAttributeNs e h n uri q v = (.err x, h') →
      attributes h' n = attributes h n) ∧
    (∀ a x h', h.live a = true → setAttributeNode e h n a = (.err x, h') →
      attributes h' n = attributes h n)

/-- A document (0) with the root element `r` (1), where `id` attributes are ids. -/
def mkIdDoc : Op := .createDocument none (some (c! "r")) none Options.new.setAssumeIds

/-- A second element, and the id `x` for the root. -/
def dupOps : List Op :=
  [mkIdDoc, .createElement 0 (c! "e"), .setAttribute 1 (c! "id") (c! "x")]

/-- C41 does not hold: a duplicate id is refused after the attribute was put in. -/
theorem C41_full_false : ¬ C41_full := by
  intro hf
  have h1 := (hf plainEnv (after dupOps) 2 plainEnv_ok (reachable_after _) (by decide)).1 (c! "id")
    (c! "x") .syntax _ (Prod.ext (by decide : (setAttribute plainEnv (after dupOps) 2 (c! "id")
      (c! "x")).1 = .err .syntax) rfl)
  have h2 : attributes (after dupOps) 2 = [] := by decide
  have h3 : attributes (setAttribute plainEnv (after dupOps) 2 (c! "id") (c! "x")).2 2 ≠ [] := by
    decide
  rw [h2] at h1
  exact h3 h1

/-- Every other error keeps all attributes of all elements. -/
theorem setAttributeNamed_err {e : Env} {h h' : Heap} {n : NodeId}
    {o : Outcome Name} {v : Str} {x : DomError} (hs : setAttributeNamed e h n o v = (.err x, h'))
    (hx : x ≠ .syntax ∨ ∀ nm, o = .ok nm → nm.localName ≠ Syn.idAttr) :
    ∀ m, m < h.next → attributes h' m = attributes h m := by
  unfold setAttributeNamed at hs
  split at hs
  · cases hs; exact fun _ _ => rfl
  · cases hs
  · cases hs
  · rename_i nm
    split at hs
    · cases hs
    · rename_i d _
      simp only [Result.void] at hs
      have hg : ∀ m, m < h.next → attributes (h.newAttribute d nm (some v)).2 m = attributes h m := by
        intro m hm
        have h1 : m ≠ h.next := Nat.ne_of_lt hm
        have h2 : m ≠ h.next + 1 := Nat.ne_of_lt (Nat.lt_succ_of_lt hm)
        have : (h.newAttribute d nm (some v)).2.get m = h.get m := by
          simp [Heap.newAttribute, h1, h2]
        unfold attributes
        rw [this]
      have hname : ((h.newAttribute d nm (some v)).2.get (h.newAttribute d nm (some v)).1).name =
          nm := by simp [Heap.newAttribute]
      generalize (h.newAttribute d nm (some v)).2 = h1 at *
      generalize (h.newAttribute d nm (some v)).1 = a at *
      generalize hq : setAttributeNode e h1 n a = q at hs
      obtain ⟨o, h2⟩ := q
      cases o with
      | ok _ => cases hs
      | panic _ => cases hs
      | diverge => cases hs
      | err y =>
        cases hs
        rcases setAttributeNode_err hq with h3 | ⟨h3, h4, _⟩
        · exact fun m hm => (h3 m).trans (hg m hm)
        · rcases hx with hx | hx
          · exact absurd h3 hx
          · exact absurd (hname ▸ h4) (hx nm rfl)

/-- C41 (partial: the error is not `Syntax`, or the local name is not `id`). -/
theorem C41_failed_set_partial (e : Env) (h h' : Heap) (hr : Reachable h) (n : NodeId) (x : DomError) (m : NodeId) (hm : h.live m = true) :
    (∀ name v, setAttribute e h n name v = (.err x, h') →
      x ≠ .syntax ∨ (∀ p, name ≠ p ++ c! ":id") ∧ name ≠ c! "id" →
      attributes h' m = attributes h m) ∧
    (∀ uri q v, setAttributeNs e h n uri q v = (.err x, h') →
      x ≠ .syntax ∨ (∀ p, q ≠ p ++ c! ":id") ∧ q ≠ c! "id" →
      attributes h' m = attributes h m) ∧
    (∀ a, setAttributeNode e h n a = (.err x, h') →
      x ≠ .syntax ∨ (nodeName h a).localName ≠ c! "id" →
      attributes h' m = attributes h m) := by
  have i := hr.invariant
  have hlt := i.wf.fresh m hm
  have noid : ∀ {s : Str} {q : Name}, Name.fromStr s = .ok q →
      (∀ p, s ≠ p ++ c! ":id") ∧ s ≠ c! "id" → q.localName ≠ Syn.idAttr := by
    intro s q hq hno hid
    rcases (C27_only_qnames s q hq).2.2 with ⟨_, h1⟩ | ⟨p, _, h1⟩
    · exact hno.2 (h1.symm.trans hid)
    · exact hno.1 p (by rw [h1, hid]; rfl)
  refine ⟨?_, ?_, ?_⟩
  · intro name v hs hx
    refine setAttributeNamed_err hs (hx.imp_right ?_) m hlt
    exact fun hno nm hnm => noid hnm hno
  · intro uri q v hs hx
    refine setAttributeNamed_err hs (hx.imp_right ?_) m hlt
    intro hno nm hnm
    obtain ⟨r, hr', _, h1, _⟩ := (C29_new_ns_ok uri q nm).mp hnm
    rw [h1]
    exact noid (q := r) hr' hno
  · intro a hs hx
    rcases setAttributeNode_err hs with h1 | ⟨h1, h2, _⟩
    · exact h1 m
    · rcases hx with hx | hx
      · exact absurd h1 hx
      · exact absurd h2 hx

/-- The hypotheses can be met: a name that is no name, and an attribute of another
document. -/
example : (setAttribute plainEnv (after [mkDoc]) 1 (c! "1") (c! "v")).1 = .err .invalidCharacter ∧
    (setAttributeNode plainEnv (after [mkDoc, mkDoc, .createAttribute 2 (c! "a")]) 1 4).1 =
      .err .wrongDocument := by decide

/-! ## C43 -/

/-- C43: lookups do not depend on the iteration order. -/
def C43_full : Prop :=
  ∀ (e e' : Env) (h : Heap) (n : NodeId), e.Ok → e'.Ok → e'.uni = e.uni → Reachable h →
    h.live n = true →
    (∀ s, getAttributeNode e' h n s = getAttributeNode e h n s ∧
      getAttribute e' h n s = getAttribute e h n s) ∧
    (∀ uri s, getAttributeNodeNs e' h n uri s = getAttributeNodeNs e h n uri s ∧
      getAttributeNs e' h n uri s = getAttributeNs e h n uri s)

/-- C43 does not hold: the same two attributes, two orders, two answers. -/
theorem C43_full_false : ¬ C43_full := by
  intro hf
  have := ((hf plainEnv backEnv (after (clashOps ++ [.setAttribute 1 (c! "a") (c! "2")])) 1
    plainEnv_ok backEnv_ok rfl (reachable_after _) (by decide)).1 (c! "a")).2
  exact absurd this (by decide)

/-- C43 also fails for the namespace variants: two prefixes for one namespace. -/
theorem C43_ns_full_false : ¬ ∀ (e e' : Env) (h : Heap) (n : NodeId), e.Ok → e'.Ok → Reachable h →
    h.live n = true → ∀ uri s, getAttributeNodeNs e' h n uri s = getAttributeNodeNs e h n uri s := by
  intro hf
  have := hf plainEnv backEnv (after [mkDoc, .setAttributeNs 1 (c! "u") (c! "p:a") (c! "1"),
    .setAttributeNs 1 (c! "u") (c! "q:a") (c! "2")]) 1
    plainEnv_ok backEnv_ok (reachable_after _) (by decide) (c! "u") (c! "a")
  exact absurd this (by decide)

/-- C43 (partial: at most one attribute has the name). -/
theorem C43_lookup_partial (e e' : Env) (h : Heap) (n : NodeId) (he : e.Ok) (he' : e'.Ok)
    (hu : e'.uni = e.uni) (hr : Reachable h) (hn : h.live n = true) :
    (∀ s, OneNamed h n s → getAttributeNode e' h n s = getAttributeNode e h n s ∧
      getAttribute e' h n s = getAttribute e h n s) ∧
    (∀ uri s, OneNamedNs h n uri s →
      getAttributeNodeNs e' h n uri s = getAttributeNodeNs e h n uri s ∧
      getAttributeNs e' h n uri s = getAttributeNs e h n uri s) := by
  have i := hr.invariant
  constructor
  · intro s hone
    have h1 := getAttributeNode_congr he he' i hn (h' := h) rfl (fun _ _ _ => Iff.rfl) hone
    exact ⟨h1, getAttribute_congr he hu i (.refl h) hn h1⟩
  · intro uri s hone
    have h1 := getAttributeNodeNs_congr he he' i hn (h' := h) rfl (fun _ _ _ => Iff.rfl) hone
    refine ⟨h1, ?_⟩
    unfold getAttributeNs attributeNodeValue
    rw [h1, hu]

/-- C43: the exact condition. A lookup of a name that parses is independent of the order
if and only if at most one attribute has the name. -/
theorem C43_iff (h : Heap) (n : NodeId) (s : Str) (nm : Name) (hr : Reachable h)
    (hn : h.live n = true) (ht : nodeType h n = .element) (hs : Name.fromStr s = .ok nm) :
    (∀ e e' : Env, e.Ok → e'.Ok → getAttributeNode e' h n s = getAttributeNode e h n s) ↔
      OneNamed h n s := by
  have i := hr.invariant
  constructor
  · intro hall a b ha hb
    obtain ⟨k, hm, hd⟩ := ha
    obtain ⟨k', hm', hd'⟩ := hb
    -- an order that has the given entry first
    have first : ∀ x ∈ attributes h n, x.1.display = s →
        ∃ e : Env, e.Ok ∧ getAttributeNode e h n s = .ok (some x.2) := by
      intro x hx hxd
      refine ⟨{ plainEnv with
        attrOrder := fun _ m => if x ∈ m then x :: m.erase x else m }, ?_, ?_⟩
      · refine ⟨asciiUni_ascii, fun _ m => ?_, fun _ _ => List.Perm.refl _⟩
        show (if x ∈ m then x :: m.erase x else m).Perm m
        split
        · rename_i hxm; exact (List.perm_cons_erase hxm).symm
        · exact List.Perm.refl _
      · rw [getAttributeNode_eq ?_ s ht, hs]
        · simp only [if_pos hx]
          rw [List.find?_cons_of_pos (by simpa using hxd)]
          rfl
        · refine ⟨asciiUni_ascii, fun _ m => ?_, fun _ _ => List.Perm.refl _⟩
          show (if x ∈ m then x :: m.erase x else m).Perm m
          split
          · rename_i hxm; exact (List.perm_cons_erase hxm).symm
          · exact List.Perm.refl _
    obtain ⟨e1, ho1, h1⟩ := first (k, a) hm hd
    obtain ⟨e2, ho2, h2⟩ := first (k', b) hm' hd'
    have := hall e1 e2 ho1 ho2
    rw [h1, h2] at this
    simpa using this.symm
  · intro hone e e' he he'
    exact getAttributeNode_congr he he' i hn (h' := h) rfl (fun _ _ _ => Iff.rfl) hone

example : Reachable (after [mkDoc]) ∧ nodeType (after [mkDoc]) 1 = .element ∧
    Name.fromStr (c! "a") = .ok ⟨none, none, c! "a"⟩ := ⟨reachable_after _, by decide⟩

/-! ## C46 -/

theorem isIdAttribute_iff {k : Name} {lax : Bool} : k.isIdAttribute lax = true ↔ IsIdName lax k := by
  unfold Name.isIdAttribute IsIdName
  cases lax
  · rw [if_neg (by simp), decide_eq_true_eq]
    simp [Syn.idAttr, Syn.xmlPrefix]
  · rw [if_pos rfl, decide_eq_true_eq]
    simp [Syn.idAttr]

theorem setAttributeNode_id {e : Env} {h : Heap} (i : Inv h) {n a d : NodeId} {id : Str}
    (hn : h.live n = true) (ha : h.live a = true) (ht : (h.get n).ntype = .element)
    (hta : (h.get a).ntype = .attribute) (hdn : ownerDocument h n = some d)
    (hda : ownerDocument h a = some d) (hdt : (h.get d).ntype = .document)
    (hid : IsIdName (AssumesIds h d) (h.get a).name)
    (hv : attrValue e.uni h a = .ok (some id)) :
    (Registered h d id → (setAttributeNode e h n a).1 = .err .syntax ∧
      ∀ j, getElementById (setAttributeNode e h n a).2 d j = getElementById h d j) ∧
    (¬ Registered h d id → (setAttributeNode e h n a).1 = .ok a ∧
      getElementById (setAttributeNode e h n a).2 d id = some n ∧
      ∀ j, j ≠ id → getElementById (setAttributeNode e h n a).2 d j = getElementById h d j) := by
  obtain ⟨od, ld⟩ := Heap.upgrade_some.mp hda
  have lt := i.wf.fresh d ld
  have hx : ∃ x, (h.get d).ext = .document x := by
    have := i.exts d lt
    rw [hdt] at this
    exact this
  obtain ⟨x, hx⟩ := hx
  have hdn' : d ≠ n := fun hh => by subst hh; rw [ht] at hdt; cases hdt
  have hda' : d ≠ a := fun hh => by subst hh; rw [hta] at hdt; cases hdt
  obtain ⟨h3, heq, f3, nx3, g3⟩ := setAttributeNode_reaches (e := e) i hn ha ht hta hdn hda (fun _ => ⟨_, hv⟩)
  rw [heq]
  have hod3 : ownerDocument h3 a = some d := by
    refine Heap.upgrade_some.mpr ⟨(f3.owner a (i.wf.fresh a ha)).trans od, (f3.live d lt).trans ld⟩
  have hv3 : attrValue e.uni h3 a = .ok (some id) := (f3.attrValue i.wf _ ha).trans hv
  have hlax : AssumesIds h d = x.options.hasAssumeIds := by unfold AssumesIds; rw [hx]
  rw [hlax, ← isIdAttribute_iff] at hid
  have hget : ∀ j, getElementById h3 d j = getElementById h d j := by
    intro j
    unfold getElementById
    rw [g3 d hdn' hda', hx]
    simp only
    cases hm : mapGet j x.idMap with
    | none => rfl
    | some el =>
      have : el < h.next := i.wf.weak d ld el (mem_weakRefs.mpr
        (Or.inr (Or.inr (Or.inr ⟨x, j, hx, mapGet_eq_some_mem hm⟩))))
      unfold Heap.upgrade
      simp only [f3.live el this]
  have hrec : recordId e.uni h3 n a (h.get a).name =
      if (mapGet id x.idMap).isSome then (.err .syntax, h3)
      else (.ok a, h3.set d
        { h3.get d with ext := .document { x with idMap := mapInsert id n x.idMap } }) := by
    unfold recordId
    rw [hod3]
    simp only [if_neg hdn', g3 d hdn' hda', hx, hid, if_true, hv3]
  have hreg : Registered h d id ↔ (mapGet id x.idMap).isSome = true := by
    constructor
    · rintro ⟨y, el, h1, h2⟩
      rw [hx] at h1
      cases h1
      cases hm : mapGet id x.idMap with
      | some _ => rfl
      | none => exact absurd rfl (mapGet_eq_none.mp hm _ h2)
    · intro hm
      obtain ⟨el, hm⟩ := Option.isSome_iff_exists.mp hm
      exact ⟨x, el, hx, mapGet_eq_some_mem hm⟩
  rw [hrec]
  constructor
  · intro hr
    rw [if_pos (hreg.mp hr)]
    exact ⟨rfl, hget⟩
  · intro hr
    rw [if_neg (fun hh => hr (hreg.mpr hh))]
    refine ⟨rfl, ?_, ?_⟩
    · unfold getElementById
      simp only [Heap.get_set, if_true, Heap.upgrade_set]
      rw [mapGet_mapInsert, if_pos rfl]
      exact Heap.upgrade_some.mpr ⟨rfl, (f3.live n (i.wf.fresh n hn)).trans hn⟩
    · intro j hj
      rw [← hget j]
      unfold getElementById
      simp only [Heap.get_set, if_true, Heap.upgrade_set]
      rw [mapGet_mapInsert, if_neg (fun hh => hj hh.symm), g3 d hdn' hda', hx]

/-- C46: an id attribute with a value that is registered is refused and nothing is
rebound; a new value is registered for the element. -/
theorem C46_set_attribute_node (e : Env) (h : Heap) (hr : Reachable h) (n a d : NodeId) (id : Str)
    (hn : h.live n = true) (ha : h.live a = true) (ht : nodeType h n = .element)
    (hta : nodeType h a = .attribute) (hdn : ownerDocument h n = some d)
    (hda : ownerDocument h a = some d) (hdt : nodeType h d = .document)
    (hid : IsIdName (AssumesIds h d) (nodeName h a))
    (hv : attrValue e.uni h a = .ok (some id)) :
    (Registered h d id → (setAttributeNode e h n a).1 = .err .syntax ∧
      ∀ j, getElementById (setAttributeNode e h n a).2 d j = getElementById h d j) ∧
    (¬ Registered h d id → (setAttributeNode e h n a).1 = .ok a ∧
      getElementById (setAttributeNode e h n a).2 d id = some n ∧
      ∀ j, j ≠ id → getElementById (setAttributeNode e h n a).2 d j = getElementById h d j) :=
  setAttributeNode_id hr.invariant hn ha ht hta hdn hda hdt hid hv

/-- C46 for `set_attribute`: the id is the normalized, escaped value. -/
theorem C46_set_attribute (e : Env) (h : Heap) (he : e.Ok) (hr : Reachable h) (n d : NodeId)
    (name v r : Str) (nm : Name) (hn : h.live n = true) (ht : nodeType h n = .element)
    (hdn : ownerDocument h n = some d) (hdt : nodeType h d = .document)
    (hnm : Name.fromStr name = .ok nm) (hid : IsIdName (AssumesIds h d) nm)
    (hv : Normalizes v r) :
    ∃ w, Trimmed r w ∧
    (Registered h d (escape w) → (setAttribute e h n name v).1 = .err .syntax ∧
      ∀ j, getElementById (setAttribute e h n name v).2 d j = getElementById h d j) ∧
    (¬ Registered h d (escape w) → (setAttribute e h n name v).1 = .ok () ∧
      getElementById (setAttribute e h n name v).2 d (escape w) = some n ∧
      ∀ j, j ≠ escape w →
        getElementById (setAttribute e h n name v).2 d j = getElementById h d j) := by
  have i := hr.invariant
  obtain ⟨on, ld⟩ := Heap.upgrade_some.mp hdn
  have ln := i.wf.fresh n hn
  have ltd := i.wf.fresh d ld
  have hsteps := newAttribute_steps (v := some v) (Or.inr ⟨n, hn, on⟩ : OwnerOk h d)
    (nameOk_fromStr hnm)
  have i1 := hsteps.invariant i
  have f1 := Frame.newAttribute h d nm (some v)
  have hl1 := newAttribute_live h d nm (some v)
  have hne : ((h.next : NodeId) = h.next + 1) = False :=
    eq_false (Nat.ne_of_lt (Nat.lt_succ_self _))
  have node1 : ((h.newAttribute d nm (some v)).2.get (h.newAttribute d nm (some v)).1) =
      { ntype := .attribute, name := nm, value := none, parent := none,
        owner := some d, children := [h.next], ext := .attribute none } := by
    simp [Heap.newAttribute]
  have text1 : ((h.newAttribute d nm (some v)).2.get h.next) = Node.newText d v := by
    simp only [Heap.newAttribute, Heap.get_alloc, Heap.next_alloc, hne, if_false, if_true]
  have g1 : ∀ m, m < h.next → (h.newAttribute d nm (some v)).2.get m = h.get m := by
    intro m hm
    have h1 : m ≠ h.next := Nat.ne_of_lt hm
    have h2 : m ≠ h.next + 1 := Nat.ne_of_lt (Nat.lt_succ_of_lt hm)
    simp [Heap.newAttribute, h1, h2]
  have hset : setAttribute e h n name v = (setAttributeNode e (h.newAttribute d nm (some v)).2 n
      (h.newAttribute d nm (some v)).1).void := by
    unfold setAttribute setAttributeNamed
    rw [hnm, on]
  rw [hset]
  generalize (h.newAttribute d nm (some v)).2 = h1 at *
  generalize (h.newAttribute d nm (some v)).1 = a at *
  have hraw : attrRaw h1 a = v := by
    unfold attrRaw
    rw [node1]
    simp only [List.flatMap_cons, List.flatMap_nil, List.append_nil]
    unfold attrChildText
    rw [text1]
    rfl
  obtain ⟨w, hw1, hw2⟩ := attrValue_normalizes (h := h1) (a := a) he.uni
    (by rw [node1]; simp) hraw hv
  refine ⟨w, hw1, ?_⟩
  have ld1 : h1.live d = true := (f1.live d ltd).trans ld
  have key := setAttributeNode_id (e := e) (d := d) i1 ((f1.live n ln).trans hn) hl1
    (by rw [g1 n ln]; exact ht) (by rw [node1])
    (Heap.upgrade_some.mpr ⟨by rw [g1 n ln]; exact on, ld1⟩)
    (Heap.upgrade_some.mpr ⟨by rw [node1], ld1⟩) (by rw [g1 d ltd]; exact hdt)
    (by unfold AssumesIds; rw [node1, g1 d ltd]; exact hid) hw2
  have hreg : Registered h1 d (escape w) ↔ Registered h d (escape w) := by
    unfold Registered
    rw [g1 d ltd]
  have hget : ∀ j, getElementById h1 d j = getElementById h d j := by
    intro j
    unfold getElementById
    rw [g1 d ltd]
    split
    · rename_i x hx
      cases hm : mapGet j x.idMap with
      | none => rfl
      | some el =>
        have : el < h.next := i.wf.weak d ld el (mem_weakRefs.mpr
          (Or.inr (Or.inr (Or.inr ⟨x, j, hx, mapGet_eq_some_mem hm⟩))))
        unfold Heap.upgrade
        simp only [f1.live el this]
    · rfl
  rw [hreg] at key
  simp only [hget] at key
  simp only [Result.void]
  constructor
  · intro hh
    obtain ⟨k1, k2⟩ := key.1 hh
    exact ⟨by rw [k1]; rfl, k2⟩
  · intro hh
    obtain ⟨k1, k2⟩ := key.2 hh
    exact ⟨by rw [k1]; rfl, k2⟩

/-- Both cases occur. -/
example : Reachable (after dupOps) ∧ ownerDocument (after dupOps) 2 = some 0 ∧
    nodeType (after dupOps) 0 = .document ∧ AssumesIds (after dupOps) 0 = true ∧
    Name.fromStr (c! "id") = .ok ⟨none, none, c! "id"⟩ ∧
    (setAttribute plainEnv (after dupOps) 2 (c! "id") (c! "x")).1 = .err .syntax ∧
    getElementById (after dupOps) 0 (c! "x") = some 1 ∧
    getElementById (setAttribute plainEnv (after dupOps) 2 (c! "id") (c! "y")).2 0 (c! "y") =
      some 2 := ⟨reachable_after _, by decide⟩

end Props
end XmlDom
