import Verif.Props.Outcome
import Verif.Props.Access
import Verif.Lemmas.Shown
import Verif.Lemmas.Stream
import Verif.Spec.SetAttr

/-!
# C94: every outcome of `set_attribute_node`
-/

namespace XmlDom
namespace Props

open Spec

theorem valued_iff {u : Uni} (hu : u.Ascii) {h : Heap} {a : NodeId} {w : Str} :
    Valued u h a w ↔ attrValue u h a = .ok (some w) := by
  constructor
  · rintro ⟨hc, s, hs, hv⟩
    exact attrValue_gives hu hc ((rawText_iff h a s).mp hs) hv
  · intro hv
    have hc : childNodes h a ≠ [] := fun hc => by
      have hc : (h.get a).children = [] := hc
      unfold attrValue at hv
      rw [if_pos hc] at hv
      cases hv
    obtain ⟨r, hr⟩ := valueOf_total u (attrRaw h a)
    refine ⟨hc, attrRaw h a, (rawText_iff h a _).mpr rfl, ?_⟩
    have hg := attrValue_gives hu hc rfl hr
    rw [hv] at hg
    cases r with
    | none => simp [ReadsAs] at hg
    | some x =>
      have hg : (Outcome.ok (some w) : Outcome (Option Str)) = .ok (some x) := hg
      cases hg
      exact hr

theorem not_valued {u : Uni} (hu : u.Ascii) {h : Heap} {a : NodeId} (hv : ∀ w, ¬ Valued u h a w) :
    attrValue u h a = .ok none ∨ (attrValue u h a).Panics := by
  by_cases hc : (h.get a).children = []
  · left
    unfold attrValue
    rw [if_pos hc]
  obtain ⟨r, hr⟩ := valueOf_total u (attrRaw h a)
  have hg := attrValue_gives hu hc rfl hr
  cases r with
  | none => exact Or.inr hg
  | some w => exact absurd ((valued_iff hu).mpr hg) (hv w)

theorem set_says {e : Env} (he : e.Ok) {h : Heap} (i : Inv h) {n a : NodeId}
    (hn : h.live n = true) (ha : h.live a = true) :
    ∃ v, SetNodeSays e.uni h n a v ∧ EndsAs (setAttributeNode e h n a).1 v := by
  by_cases ht : nodeType h n = .element ∧ nodeType h a = .attribute
  rotate_left
  · refine ⟨_, .types ht, ?_⟩
    unfold setAttributeNode
    rw [if_neg (show ¬ ((h.get n).ntype = .element ∧ (h.get a).ntype = .attribute) from ht)]
    rfl
  have ht' : (h.get n).ntype = .element ∧ (h.get a).ntype = .attribute := ht
  have owned : ∀ m, m < h.next → nodeType h m = .element ∨ nodeType h m = .attribute →
      ∃ b, (h.get m).owner = some b := by
    intro m hm hty
    cases ho : (h.get m).owner with
    | some b => exact ⟨b, rfl⟩
    | none =>
      unfold nodeType at hty
      rcases i.ownerNone m hm ho with h1 | h1 <;> rw [h1] at hty <;> simp at hty
  obtain ⟨b, hb⟩ := owned n (i.wf.fresh n hn) (Or.inl ht.1)
  obtain ⟨b', hb'⟩ := owned a (i.wf.fresh a ha) (Or.inr ht.2)
  have hchk : checkSameDocument h n a = if h.live b then if h.live b' then
      if b = b' then .ok () else .err .wrongDocument else .panic .unwrap else .panic .unwrap := by
    unfold checkSameDocument
    rw [ht'.1, hb, hb']
    simp
  have stop : ∀ {k : PanicKind}, checkSameDocument h n a = .panic k →
      (setAttributeNode e h n a).1.Panics := by
    intro k hk
    unfold setAttributeNode
    rw [if_pos ht', hk]
    simp
  cases l1 : h.live b with
  | false =>
    refine ⟨_, .gone ht (Or.inl ?_), stop (k := .unwrap) (by rw [hchk]; simp [l1])⟩
    unfold ownerDocument
    rw [hb]
    simp [Heap.upgrade, l1]
  | true =>
  cases l2 : h.live b' with
  | false =>
    refine ⟨_, .gone ht (Or.inr ?_), stop (k := .unwrap) (by rw [hchk]; simp [l1, l2])⟩
    unfold ownerDocument
    rw [hb']
    simp [Heap.upgrade, l2]
  | true =>
  have hon : ownerDocument h n = some b := Heap.upgrade_some.mpr ⟨hb, l1⟩
  have hoa : ownerDocument h a = some b' := Heap.upgrade_some.mpr ⟨hb', l2⟩
  by_cases hd : b = b'
  rotate_left
  · refine ⟨_, .foreign ht hon hoa hd, ?_⟩
    unfold setAttributeNode
    rw [if_pos ht', hchk]
    simp [l1, l2, hd, EndsAs]
  subst hd
  have hdecl : (h.get a).name.isNamespaceAttribute = true ↔ DeclaresNs (nodeName h a) :=
    (C86_classes _).1
  by_cases hk : DeclaresNs (nodeName h a) ∧ ∀ w, ¬ Valued e.uni h a w
  · exact ⟨_, .noUri ht hon hoa hk.1 hk.2, setAttributeNode_declaration i ha ht'.1 ht'.2 hon hoa
      (hdecl.mpr hk.1) (not_valued he.uni hk.2)⟩
  have hk : DeclaresNs (nodeName h a) → ∃ w, Valued e.uni h a w := fun hq =>
    Classical.byContradiction fun hn => hk ⟨hq, fun w hw => hn ⟨w, hw⟩⟩
  obtain ⟨h3, heq, f3, nx3, g3⟩ := setAttributeNode_reaches (e := e) i hn ha ht'.1 ht'.2 hon hoa
    (fun hq => by
      obtain ⟨w, hw⟩ := hk (hdecl.mp hq)
      exact ⟨w, (valued_iff he.uni).mp hw⟩)
  have hod3 : ownerDocument h3 a = some b :=
    Heap.upgrade_some.mpr ⟨(f3.owner a (i.wf.fresh a ha)).trans hb',
      (f3.live b (i.wf.fresh b l1)).trans l1⟩
  by_cases hbn : b = n
  · subst hbn
    refine ⟨_, .itself ht hon hoa, ?_⟩
    rw [heq]
    unfold recordId
    rw [hod3]
    simp [EndsAs]
  have hba : b ≠ a ∨ nodeType h b ≠ .document := by
    by_cases hba : b = a
    · right; rw [hba, ht.2]; simp
    · exact Or.inl hba
  have hv3 : attrValue e.uni h3 a = attrValue e.uni h a := f3.attrValue i.wf _ ha
  have hxb := i.exts b (i.wf.fresh b l1)
  by_cases hdt : nodeType h b = .document
  rotate_left
  · refine ⟨_, .plain ht hon hoa hbn hk (fun hh => hdt hh.1), ?_⟩
    have hx3 : ∀ x, (h3.get b).ext ≠ .document x := by
      intro x hx
      have hs := f3.ext b (i.wf.fresh b l1)
      rw [hx] at hs
      have hdt : (h.get b).ntype ≠ .document := hdt
      cases hb0 : (h.get b).ext with
      | document y =>
        rw [hb0] at hxb
        cases hty : (h.get b).ntype <;> rw [hty] at hxb hdt <;> simp_all [ExtFor]
      | _ => rw [hb0] at hs; simp [SameExt] at hs
    rw [heq]
    unfold recordId
    rw [hod3]
    simp only [if_neg hbn]
    cases hx : (h3.get b).ext with
    | document x => exact absurd hx (hx3 x)
    | _ => simp only [ite_self]; rfl
  have hba : b ≠ a := hba.resolve_right (fun hh => hh hdt)
  have hx : ∃ x, (h.get b).ext = .document x := by
    rw [show (h.get b).ntype = .document from hdt] at hxb
    exact hxb
  obtain ⟨x, hx⟩ := hx
  have hlax : AssumesIds h b = x.options.hasAssumeIds := by unfold AssumesIds; rw [hx]
  by_cases hi : TakenForId h b a
  · by_cases hv : ∃ w, Valued e.uni h a w
    · obtain ⟨w, hw⟩ := hv
      have hid := setAttributeNode_id (e := e) i hn ha ht'.1 ht'.2 hon hoa hdt hi.2
        ((valued_iff he.uni).mp hw)
      by_cases hr : Registered h b w
      · exact ⟨_, .taken ht hon hoa hi hw hr, (hid.1 hr).1⟩
      · exact ⟨_, .newId ht hon hoa hi hw hr, (hid.2 hr).1⟩
    · have hv : ∀ w, ¬ Valued e.uni h a w := fun w hw => hv ⟨w, hw⟩
      refine ⟨_, .noId ht hon hoa hi hv, ?_⟩
      have hid := hi.2
      rw [hlax, ← isIdAttribute_iff] at hid
      have hid : (h.get a).name.isIdAttribute x.options.hasAssumeIds = true := hid
      rw [heq]
      unfold recordId
      rw [hod3]
      simp only [if_neg hbn, g3 b hbn hba, hx, hid, if_true, hv3]
      have hnv := not_valued he.uni hv
      generalize attrValue e.uni h a = o at hnv ⊢
      rcases hnv with rfl | hnv
      · simp [EndsAs]
      · cases o <;> simp [EndsAs] at hnv ⊢
  · refine ⟨_, .plain ht hon hoa hbn hk hi, ?_⟩
    have hid : ¬ (h.get a).name.isIdAttribute x.options.hasAssumeIds = true := by
      rw [isIdAttribute_iff, ← hlax]
      exact fun hh => hi ⟨hdt, hh⟩
    rw [heq]
    unfold recordId
    rw [hod3]
    simp only [if_neg hbn, g3 b hbn hba, hx]
    rw [if_neg hid]
    rfl

theorem setSays_unique {u : Uni} (hu : u.Ascii) {h : Heap} {n a : NodeId} {v v' : Ending NodeId}
    (h1 : SetNodeSays u h n a v) (h2 : SetNodeSays u h n a v') : v = v' := by
  have one : ∀ {w w' : Str}, Valued u h a w → Valued u h a w' → w = w' := by
    intro w w' h1 h2
    rw [valued_iff hu] at h1 h2
    rw [h1] at h2
    cases h2
    rfl
  have docn : ∀ {m : NodeId}, nodeType h m = .element → ¬ TakenForId h m a := by
    intro m h1 h2
    rw [h2.1] at h1
    cases h1
  cases h1 <;> cases h2 <;> first | rfl | skip
  all_goals grind

theorem endsAs_unique {α : Type} {o : Outcome α} {v v' : Ending α} (h1 : EndsAs o v)
    (h2 : EndsAs o v') : v = v' := by
  cases v <;> cases v' <;> cases o <;> simp_all [EndsAs]

/-- C94 (all cases): `set_attribute_node` and `set_attribute_node_ns` end as the table says. -/
theorem C94_set_exact (e : Env) (he : e.Ok) (h : Heap) (hr : Reachable h) (n a : NodeId)
    (hn : h.live n = true) (ha : h.live a = true) (v : Ending NodeId) :
    (EndsAs (setAttributeNode e h n a).1 v ↔ SetNodeSays e.uni h n a v) ∧
    (EndsAs (setAttributeNodeNs e h n a).1 v ↔ SetNodeSays e.uni h n a v) := by
  obtain ⟨v', h1, h2⟩ := set_says he hr.invariant hn ha
  have : EndsAs (setAttributeNode e h n a).1 v ↔ SetNodeSays e.uni h n a v :=
    ⟨fun h3 => endsAs_unique h2 h3 ▸ h1, fun h3 => setSays_unique he.uni h1 h3 ▸ h2⟩
  exact ⟨this, this⟩

/-- An `xml:id` without a value. -/
def emptyIdOps : List Op := [mkDoc, .createAttribute 0 (c! "xml:id")]

example : SetNodeSays plainEnv.uni (after emptyIdOps) 1 2 .crash ∧
    (setAttributeNode plainEnv (after emptyIdOps) 1 2).1.Panics :=
  ⟨.noId (d := 0) (by decide) (by decide) (by decide) ⟨by decide, by decide, by decide⟩
    (fun w hw => hw.1 (by decide)), by decide⟩

theorem setNamed_says {e : Env} (he : e.Ok) {h : Heap} (i : Inv h) {n : NodeId} (v : Str)
    {name : Outcome Name} (hn : h.live n = true) (ht : nodeType h n = .element)
    (hok : ∀ k, name = .ok k → NameOk k) (hne : name ≠ .diverge) :
    ∃ o, SetNamedSays e.uni h n v name o ∧ EndsAs (setAttributeNamed e h n name v).1 o := by
  unfold setAttributeNamed
  cases hname : name with
  | err x => exact ⟨_, .name rfl, rfl⟩
  | panic k => exact ⟨_, .slice (by simp), by simp [EndsAs]⟩
  | diverge => exact absurd hname hne
  | ok nm =>
  have ln := i.wf.fresh n hn
  obtain ⟨d, on⟩ : ∃ d, (h.get n).owner = some d := by
    cases ho : (h.get n).owner with
    | some b => exact ⟨b, rfl⟩
    | none =>
      unfold nodeType at ht
      rcases i.ownerNone n ln ho with h1 | h1 <;> rw [h1] at ht <;> simp at ht
  have ltd : d < h.next := i.wf.weak n hn d (mem_weakRefs.mpr (Or.inr (Or.inl on)))
  simp only [on]
  have hsteps := newAttribute_steps (v := some v) (Or.inr ⟨n, hn, on⟩ : OwnerOk h d)
    (hok nm hname)
  have i1 := hsteps.invariant i
  have f1 := Frame.newAttribute h d nm (some v)
  have hl1 := newAttribute_live h d nm (some v)
  have hne : ((h.next : NodeId) = h.next + 1) = False :=
    eq_false (Nat.ne_of_lt (Nat.lt_succ_self _))
  have node1 : ((h.newAttribute d nm (some v)).2.get (h.newAttribute d nm (some v)).1) =
      { ntype := .attribute, name := nm, value := none, parent := none,
        owner := some d, children := [h.next], ext := .attribute none } := by
    simp [Heap.newAttribute]
  have text1 : ((h.newAttribute d nm (some v)).2.get h.next) = Node.newText d v := by
    simp only [Heap.newAttribute, Heap.get_alloc, Heap.next_alloc, hne, if_false, if_true]
  have g1 : ∀ m, m < h.next → (h.newAttribute d nm (some v)).2.get m = h.get m := by
    intro m hm
    have h1 : m ≠ h.next := Nat.ne_of_lt hm
    have h2 : m ≠ h.next + 1 := Nat.ne_of_lt (Nat.lt_succ_of_lt hm)
    simp [Heap.newAttribute, h1, h2]
  generalize (h.newAttribute d nm (some v)).2 = h1 at *
  generalize (h.newAttribute d nm (some v)).1 = a at *
  have hraw : attrRaw h1 a = v := by
    unfold attrRaw
    rw [node1]
    simp only [List.flatMap_cons, List.flatMap_nil, List.append_nil]
    unfold attrChildText
    rw [text1]
    rfl
  have hc : childNodes h1 a ≠ [] := by unfold childNodes; rw [node1]; simp
  have hval : ∀ w, Valued e.uni h1 a w ↔ ValueSays e.uni v (some w) := by
    intro w
    constructor
    · rintro ⟨_, s, hs, hw⟩
      rw [rawText_iff, hraw] at hs
      subst hs
      exact hw
    · exact fun hw => ⟨hc, v, (rawText_iff h1 a v).mpr hraw, hw⟩
  have hnone : (∀ w, ¬ Valued e.uni h1 a w) → ValueSays e.uni v none := by
    intro hv
    obtain ⟨r, hr⟩ := valueOf_total e.uni v
    cases r with
    | none => exact hr
    | some w => exact absurd ((hval w).mpr hr) (hv w)
  have hod : ∀ {x}, ownerDocument h1 n = x → ownerDocument h n = x := by
    intro x hx
    unfold ownerDocument at hx ⊢
    rw [g1 n ln, on] at hx
    rw [on]
    unfold Heap.upgrade at hx ⊢
    simp only [f1.live d ltd] at hx
    exact hx
  have hoda : ownerDocument h1 a = ownerDocument h1 n := by
    unfold ownerDocument
    rw [g1 n ln, on, node1]
  have hdd : ∀ {d'}, ownerDocument h1 n = some d' → d' = d := by
    intro d' hd'
    have := (Heap.upgrade_some.mp hd').1
    rw [g1 n ln, on] at this
    cases this
    rfl
  have hnm : nodeName h1 a = nm := by unfold nodeName; rw [node1]
  have htk : TakenForId h1 d a ↔ NameTakenForId h d nm := by
    unfold TakenForId NameTakenForId AssumesIds nodeType
    rw [hnm, g1 d ltd]
  have hreg : ∀ w, Registered h1 d w ↔ Registered h d w := by
    intro w
    unfold Registered
    rw [g1 d ltd]
  have hty : nodeType h1 n = .element ∧ nodeType h1 a = .attribute := by
    unfold nodeType
    rw [g1 n ln, node1]
    exact ⟨ht, rfl⟩
  have void : ∀ {r : Result NodeId} {x : Ending NodeId} {y : Ending Unit}, EndsAs r.1 x →
      (match x with
        | .accept _ => y = .accept ()
        | .refuse z => y = .refuse z
        | .crash => y = .crash) → EndsAs r.void.1 y := by
    rintro ⟨o, q⟩ x y h1 h2
    cases x <;> simp only at h2 <;> subst h2 <;> simp only [EndsAs, Result.void] at h1 ⊢
    · rw [h1]; rfl
    · rw [h1]; rfl
    · cases o <;> simp at h1 ⊢
  obtain ⟨o, ho, hend⟩ := set_says he i1 (n := n) (a := a) ((f1.live n ln).trans hn) hl1
  cases ho with
  | types h2 => exact absurd hty h2
  | gone _ h2 =>
    rw [hoda, or_self] at h2
    exact ⟨_, .gone rfl (hod h2), void hend rfl⟩
  | foreign _ h2 h3 h4 =>
    rw [hoda, h2] at h3
    exact absurd (Option.some.inj h3) h4
  | noUri _ h2 _ h3 h4 =>
    rw [hnm] at h3
    exact ⟨_, .noValue rfl (hod h2) (Or.inl h3) (hnone h4), void hend rfl⟩
  | itself _ h2 _ => exact ⟨_, .itself rfl (hod h2), void hend rfl⟩
  | noId _ h2 _ h3 h4 =>
    obtain rfl := hdd h2
    exact ⟨_, .noValue rfl (hod h2) (Or.inr (htk.mp h3)) (hnone h4), void hend rfl⟩
  | taken _ h2 _ h3 h4 h5 =>
    obtain rfl := hdd h2
    exact ⟨_, .taken rfl (hod h2) (htk.mp h3) ((hval _).mp h4) ((hreg _).mp h5), void hend rfl⟩
  | newId _ h2 _ h3 h4 h5 =>
    obtain rfl := hdd h2
    exact ⟨_, .newId rfl (hod h2) (htk.mp h3) ((hval _).mp h4) (fun hh => h5 ((hreg _).mpr hh)),
      void hend rfl⟩
  | plain _ h2 _ h3 h4 h5 =>
    obtain rfl := hdd h2
    rw [hnm] at h4
    exact ⟨_, .plain rfl (hod h2) h3 (fun hh => by
      obtain ⟨w, hw⟩ := h4 hh
      exact ⟨w, (hval w).mp hw⟩) (fun hh => h5 (htk.mpr hh)), void hend rfl⟩

theorem valueSays_one {u : Uni} (hu : u.Ascii) {v : Str} {r r' : Option Str}
    (h1 : ValueSays u v r) (h2 : ValueSays u v r') : r = r' := by
  have hne : ((0 : NodeId) = 0 + 1) = False := eq_false (by decide)
  have hc : (((Heap.empty.newAttribute 0 ⟨none, none, []⟩ (some v)).2.get 1).children) ≠ [] := by
    simp [Heap.newAttribute, Heap.empty]
  have hraw : attrRaw (Heap.empty.newAttribute 0 ⟨none, none, []⟩ (some v)).2 1 = v := by
    simp [attrRaw, Heap.newAttribute, Heap.empty, attrChildText, Node.newText]
  have g1 := attrValue_gives hu hc hraw h1
  have g2 := attrValue_gives hu hc hraw h2
  generalize attrValue u _ 1 = o at g1 g2
  cases r <;> cases r' <;> cases o <;> simp_all [ReadsAs]

theorem setNamedSays_unique {u : Uni} (hu : u.Ascii) {h : Heap} {n : NodeId} {v : Str}
    {name : Outcome Name} (ht : nodeType h n = .element) {o o' : Ending Unit}
    (h1 : SetNamedSays u h n v name o) (h2 : SetNamedSays u h n v name o') : o = o' := by
  have one : ∀ {w w' : Str}, ValueSays u v (some w) → ValueSays u v (some w') → w = w' :=
    fun h1 h2 => Option.some.inj (valueSays_one hu h1 h2)
  have both : ∀ {w : Str}, ValueSays u v (some w) → ¬ ValueSays u v none :=
    fun h1 h2 => by cases valueSays_one hu h1 h2
  have docn : ∀ {k : Name}, ¬ NameTakenForId h n k := by
    intro k h2
    rw [h2.1] at ht
    cases ht
  cases h1 <;> cases h2 <;> first | rfl | skip
  all_goals first | grind | simp_all

/-- C94 (all cases): `set_attribute` and `set_attribute_ns` on an element end as the table
says. -/
theorem C94_set_named_exact (e : Env) (he : e.Ok) (h : Heap) (hr : Reachable h) (n : NodeId)
    (hn : h.live n = true) (ht : nodeType h n = .element) (uri name v : Str) (o : Ending Unit) :
    (EndsAs (setAttribute e h n name v).1 o ↔
      SetNamedSays e.uni h n v (Name.fromStr name) o) ∧
    (EndsAs (setAttributeNs e h n uri name v).1 o ↔
      SetNamedSays e.uni h n v (Name.newNs uri name) o) := by
  have main : ∀ k : Outcome Name, (∀ x, k = .ok x → NameOk x) → k ≠ .diverge →
      (EndsAs (setAttributeNamed e h n k v).1 o ↔ SetNamedSays e.uni h n v k o) := by
    intro k h1 h2
    obtain ⟨o', h3, h4⟩ := setNamed_says he hr.invariant v hn ht h1 h2
    exact ⟨fun h5 => endsAs_unique h4 h5 ▸ h3, fun h5 => setNamedSays_unique he.uni ht h3 h5 ▸ h4⟩
  refine ⟨main _ (fun _ => nameOk_fromStr) (fromStr_ne_diverge _),
    main _ (fun _ => nameOk_newNs) ?_⟩
  unfold Name.newNs
  have := fromStr_ne_diverge name
  generalize Name.fromStr name = q at this
  cases q with
  | diverge => exact absurd rfl this
  | err _ => simp
  | panic _ => simp
  | ok k =>
    simp only [Outcome.bind_ok]
    unfold Name.checkNamespaceUri
    repeat' split
    all_goals simp

example : SetNamedSays plainEnv.uni (after [mkDoc, .setAttribute 1 (c! "xml:id") (c! "a")]) 1
      (c! "a") (Name.fromStr (c! "xml:id")) (.refuse .syntax) ∧
    (setAttribute plainEnv (after [mkDoc, .setAttribute 1 (c! "xml:id") (c! "a")]) 1
      (c! "xml:id") (c! "a")).1 = .err .syntax := by
  have hr : (setAttribute plainEnv (after [mkDoc, .setAttribute 1 (c! "xml:id") (c! "a")]) 1
      (c! "xml:id") (c! "a")).1 = .err .syntax := by decide
  exact ⟨((C94_set_named_exact plainEnv plainEnv_ok _ (reachable_after _) 1 (by decide)
    (by decide) [] (c! "xml:id") (c! "a") (.refuse .syntax)).1).mp hr, hr⟩

end Props
end XmlDom
