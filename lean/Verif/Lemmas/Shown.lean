import Verif.Spec.Shown
import Verif.Lemmas.Value
import Verif.Lemmas.Serial
import Verif.Props.Attr

/-!
# When the text form of a node panics
-/

namespace XmlDom
open Spec Props

/-- The outcome of writing `n` fits the attributes that are shown. -/
def Fits57 (u : Uni) (h : Heap) (n : NodeId) : Outcome Str → Prop
  | .ok _ => ∀ a, Shown h n a → ¬ Unreadable u h a
  | .panic _ => ∃ a, Shown h n a ∧ Unreadable u h a
  | .err _ => False
  | .diverge => True

/-- The same for a list of nodes. -/
def FitsList (u : Uni) (h : Heap) (l : List NodeId) : Outcome Str → Prop
  | .ok _ => ∀ n ∈ l, ∀ a, Shown h n a → ¬ Unreadable u h a
  | .panic _ => ∃ n ∈ l, ∃ a, Shown h n a ∧ Unreadable u h a
  | .err _ => False
  | .diverge => True

theorem fitsList {u : Uni} {h : Heap} {g : NodeId → Outcome Str} {l : List NodeId}
    (hg : ∀ n ∈ l, Fits57 u h n (g n)) : FitsList u h l (fmtList g l) := by
  induction l with
  | nil => intro n hn; cases hn
  | cons c cs ih =>
    have h1 := hg c (by simp)
    have h2 := ih (fun n hn => hg n (by simp [hn]))
    unfold fmtList
    generalize g c = o at h1 ⊢
    cases o with
    | ok s =>
      simp only [Outcome.bind_ok]
      generalize fmtList g cs = o at h2 ⊢
      cases o with
      | ok t =>
        intro n hn
        rcases List.mem_cons.mp hn with rfl | hn
        · exact h1
        · exact h2 n hn
      | err _ => exact h2
      | panic _ =>
        obtain ⟨n, hn, h2⟩ := h2
        exact ⟨n, by simp [hn], h2⟩
      | diverge => trivial
    | err _ => exact h1
    | panic _ => exact ⟨c, by simp, h1⟩
    | diverge => trivial

/-- An outcome for the parts of a node is one for the node, if it is no attribute. -/
theorem fits_parts {u : Uni} {h : Heap} {n : NodeId} {l : List NodeId} {o : Outcome Str}
    (hn : nodeType h n ≠ .attribute) (hl : ∀ m, Part h n m ↔ m ∈ l) (ho : FitsList u h l o)
    {o' : Outcome Str} (hm : ∃ f : Str → Str, o' = o.map f) : Fits57 u h n o' := by
  obtain ⟨f, rfl⟩ := hm
  cases o with
  | ok s =>
    intro a ha hb
    rcases Relation.ReflTransGen.cases_head ha with rfl | ⟨m, h1, h2⟩
    · exact hn hb.1
    · exact ho m ((hl m).mp h1) a h2 hb
  | err _ => exact ho
  | panic _ =>
    obtain ⟨m, h1, a, h2, h3⟩ := ho
    exact ⟨a, .head ((hl m).mpr h1) h2, h3⟩
  | diverge => trivial

theorem fmtList_map {g : NodeId → Outcome Str} {k : Str → Str} {l : List NodeId} {u : Uni}
    {h : Heap} (hg : ∀ n ∈ l, Fits57 u h n (g n)) :
    FitsList u h l (fmtList (fun a => (g a).map k) l) := by
  apply fitsList
  intro n hn
  have := hg n hn
  generalize g n = o at this ⊢
  cases o <;> exact this

/-- Two lists one after the other. -/
theorem fits_two {u : Uni} {h : Heap} {l l' : List NodeId} {o o' : Outcome Str}
    (h1 : FitsList u h l o) (h2 : FitsList u h l' o') {k : Str → Str → Str} :
    FitsList u h (l ++ l') (o.bind fun a => o'.map fun b => k a b) := by
  cases o with
  | ok s =>
    cases o' with
    | ok t =>
      intro n hn
      rcases List.mem_append.mp hn with hn | hn
      · exact h1 n hn
      · exact h2 n hn
    | err _ => exact h2
    | panic _ =>
      obtain ⟨n, hn, h2⟩ := h2
      exact ⟨n, by simp [hn], h2⟩
    | diverge => trivial
  | err _ => exact h1
  | panic _ =>
    obtain ⟨n, hn, h1⟩ := h1
    exact ⟨n, by simp [hn], h1⟩
  | diverge => trivial

theorem map_id {o : Outcome Str} : ∃ f : Str → Str, o = o.map f :=
  ⟨id, by cases o <;> rfl⟩

theorem fits_attribute {u : Uni} (hu : u.Ascii) {h : Heap} {n : NodeId} {f : Option Str → Str}
    (hn : nodeType h n = .attribute) : Fits57 u h n ((attrValue u h n).map f) := by
  have hs : ∀ a, Shown h n a → a = n := by
    intro a ha
    rcases Relation.ReflTransGen.cases_head ha with rfl | ⟨m, h1, _⟩
    · rfl
    · cases h1 with
      | attr ht _ => rw [hn] at ht; cases ht
      | child ht _ => rw [hn] at ht; rcases ht with ht | ht | ht <;> cases ht
      | docType ht _ => rw [hn] at ht; cases ht
      | declaration ht _ _ => rw [hn] at ht; cases ht
  by_cases hc : (h.get n).children = []
  · have : attrValue u h n = .ok none := by unfold attrValue; rw [if_pos hc]
    rw [this]
    intro a ha hb
    rw [hs a ha] at hb
    exact hb.2.1 hc
  obtain ⟨r, hr⟩ := valueOf_total u (attrRaw h n)
  have hg := attrValue_gives hu hc rfl hr
  cases r with
  | some w =>
    have hg : attrValue u h n = .ok (some w) := hg
    rw [hg]
    intro a ha hb
    rw [hs a ha] at hb
    obtain ⟨_, _, s, h1, h2⟩ := hb
    have := attrValue_gives hu hc ((rawText_iff h n s).mp h1) h2
    rw [hg] at this
    exact this
  | none =>
    generalize attrValue u h n = o at hg
    cases o <;> try exact (hg : False).elim
    exact ⟨n, .refl, hn, hc, _, (rawText_iff h n _).mpr rfl, hr⟩

theorem fits_leaf {u : Uni} {h : Heap} {n : NodeId} {s : Str} (hn : nodeType h n ≠ .attribute)
    (hp : ∀ m, ¬ Part h n m) : Fits57 u h n (.ok s) :=
  fits_parts (l := []) (o := .ok s) hn (fun m => by simp [hp m]) (by intro n hn; cases hn) map_id

/-- The outcome of writing a node, for any amount of fuel. -/
theorem fmtNode_fits {e : Env} (he : e.Ok) {h : Heap} (fuel : Nat) (n : NodeId) :
    Fits57 e.uni h n (fmtNode e h fuel n) := by
  induction fuel generalizing n with
  | zero => trivial
  | succ fuel ih =>
    have leaf : ∀ s, nodeType h n ≠ .attribute → nodeType h n ≠ .element →
        nodeType h n ≠ .document → nodeType h n ≠ .documentFragment →
        nodeType h n ≠ .documentType → Fits57 e.uni h n (.ok s) := by
      intro s h1 h2 h3 h4 h5
      refine fits_leaf h1 fun m hm => ?_
      cases hm with
      | attr ht _ => exact h2 ht
      | child ht _ => exact ht.elim h2 (fun ht => ht.elim h3 h4)
      | docType ht _ => exact h3 ht
      | declaration ht _ _ => exact h5 ht
    unfold fmtNode
    cases ht : (h.get n).ntype with
    | element =>
      have ht' : nodeType h n = .element := ht
      refine fits_parts (l := (e.attrOrder n (attributes h n)).map (·.2) ++ (h.get n).children)
        (by rw [ht']; simp) ?_ (fits_two (fmtList_map fun m _ => ih m) (fitsList fun m _ => ih m))
        map_id
      intro m
      constructor
      · intro hm
        cases hm with
        | @attr k a _ ha =>
          exact List.mem_append_left _ (List.mem_map.mpr ⟨(k, m), (he.attrOrder n _).mem_iff.mpr ha,
            rfl⟩)
        | child _ hc => exact List.mem_append_right _ hc
        | docType ht _ => rw [ht'] at ht; cases ht
        | declaration ht _ _ => rw [ht'] at ht; cases ht
      · intro hm
        rcases List.mem_append.mp hm with hm | hm
        · obtain ⟨⟨k, a⟩, h1, rfl⟩ := List.mem_map.mp hm
          exact .attr ht' ((he.attrOrder n _).mem_iff.mp h1)
        · exact .child (Or.inl ht') hm
    | «attribute» => exact fits_attribute he.uni ht
    | document =>
      have ht' : nodeType h n = .document := ht
      have hd : FitsList e.uni h (docType h n).toList (match docType h n with
          | none => Outcome.ok []
          | some t => fmtNode e h fuel t) := by
        cases docType h n with
        | none => intro m hm; cases hm
        | some t =>
          have := ih t
          simp only [Option.toList]
          generalize fmtNode e h fuel t = o at this
          cases o with
          | ok s => intro m hm; obtain rfl := List.mem_singleton.mp hm; exact this
          | err _ => exact this
          | panic _ => exact ⟨t, by simp, this⟩
          | diverge => trivial
      refine fits_parts (l := (docType h n).toList ++ (h.get n).children)
        (by rw [ht']; simp) ?_ (fits_two hd (fitsList fun m _ => ih m)) map_id
      intro m
      constructor
      · intro hm
        cases hm with
        | attr ht _ => rw [ht'] at ht; cases ht
        | child _ hc => exact List.mem_append_right _ hc
        | docType _ hd => rw [hd]; simp
        | declaration ht _ _ => rw [ht'] at ht; cases ht
      · intro hm
        rcases List.mem_append.mp hm with hm | hm
        · exact .docType ht' (by simpa using hm)
        · exact .child (Or.inr (Or.inl ht')) hm
    | documentType =>
      have ht' : nodeType h n = .documentType := ht
      have hne : nodeType h n ≠ .attribute := by rw [ht']; simp
      have hparts : ∀ x, (h.get n).ext = .documentType x → ∀ m, Part h n m ↔
          m ∈ (e.attrOrder n x.entities).map (·.2) ++ (e.attrOrder n x.notations).map (·.2) := by
        intro x hx m
        constructor
        · intro hm
          cases hm with
          | attr ht _ => rw [ht'] at ht; cases ht
          | child ht _ => rw [ht'] at ht; rcases ht with ht | ht | ht <;> cases ht
          | docType ht _ => rw [ht'] at ht; cases ht
          | @declaration y k a _ hy ha =>
            rw [hx] at hy
            cases hy
            rcases ha with ha | ha
            · exact List.mem_append_left _ (List.mem_map.mpr
                ⟨(k, m), (he.attrOrder n _).mem_iff.mpr ha, rfl⟩)
            · exact List.mem_append_right _ (List.mem_map.mpr
                ⟨(k, m), (he.attrOrder n _).mem_iff.mpr ha, rfl⟩)
        · intro hm
          rcases List.mem_append.mp hm with hm | hm <;>
            obtain ⟨⟨k, a⟩, h1, rfl⟩ := List.mem_map.mp hm
          · exact .declaration ht' hx (Or.inl ((he.attrOrder n _).mem_iff.mp h1))
          · exact .declaration ht' hx (Or.inr ((he.attrOrder n _).mem_iff.mp h1))
      have hother : (∀ x, (h.get n).ext ≠ .documentType x) → ∀ m, ¬ Part h n m := by
        intro hx m hm
        cases hm with
        | attr ht _ => rw [ht'] at ht; cases ht
        | child ht _ => rw [ht'] at ht; rcases ht with ht | ht | ht <;> cases ht
        | docType ht _ => rw [ht'] at ht; cases ht
        | declaration _ hy _ => exact hx _ hy
      unfold fmtDocumentType
      cases hx : (h.get n).ext with
      | documentType x =>
        simp only
        split
        · exact fits_parts hne (hparts x hx)
            (fits_two (fitsList fun m _ => ih m) (fitsList fun m _ => ih m)) map_id
        · rename_i hc
          refine fits_leaf hne fun m hm => ?_
          have hm := (hparts x hx m).mp hm
          have h1 : x.entities = [] := List.length_eq_zero_iff.mp (by omega)
          have h2 : x.notations = [] := List.length_eq_zero_iff.mp (by omega)
          rw [h1, h2, (he.attrOrder n []).eq_nil] at hm
          cases hm
      | _ => exact fits_leaf hne (hother (by rw [hx]; simp))
    | documentFragment =>
      have ht' : nodeType h n = .documentFragment := ht
      refine fits_parts (l := (h.get n).children) (by rw [ht']; simp) ?_
        (fitsList fun m _ => ih m) ⟨_, rfl⟩
      intro m
      constructor
      · intro hm
        cases hm with
        | attr ht _ => rw [ht'] at ht; cases ht
        | child _ hc => exact hc
        | docType ht _ => rw [ht'] at ht; cases ht
        | declaration ht _ _ => rw [ht'] at ht; cases ht
      · exact fun hm => .child (Or.inr (Or.inr ht')) hm
    | _ =>
      simp only
      exact leaf _ (by unfold nodeType; rw [ht]; simp) (by unfold nodeType; rw [ht]; simp)
        (by unfold nodeType; rw [ht]; simp) (by unfold nodeType; rw [ht]; simp)
        (by unfold nodeType; rw [ht]; simp)

/-! ## Enough fuel -/

theorem fmtList_ends {g : NodeId → Outcome Str} {l : List NodeId} (hg : ∀ n ∈ l, g n ≠ .diverge) :
    fmtList g l ≠ .diverge := by
  induction l with
  | nil => simp [fmtList]
  | cons c cs ih =>
    have h1 := hg c (by simp)
    have h2 := ih (fun n hn => hg n (by simp [hn]))
    unfold fmtList
    generalize g c = o at h1 ⊢
    cases o <;> simp only [Outcome.bind_ok, Outcome.bind_err, Outcome.bind_panic, ne_eq,
      not_true_eq_false, reduceCtorEq, not_false_eq_true] at h1 ⊢
    generalize fmtList g cs = o at h2 ⊢
    cases o <;> simp at h2 ⊢

theorem two_ends {o o' : Outcome Str} (h1 : o ≠ .diverge) (h2 : o' ≠ .diverge)
    {k : Str → Str → Str} : (o.bind fun a => o'.map fun b => k a b) ≠ .diverge := by
  cases o <;> cases o' <;> simp at h1 h2 ⊢

theorem attrValue_ends {u : Uni} (hu : u.Ascii) {h : Heap} {a : NodeId} {f : Option Str → Str} :
    (attrValue u h a).map f ≠ .diverge := by
  by_cases hc : (h.get a).children = []
  · have : attrValue u h a = .ok none := by unfold attrValue; rw [if_pos hc]
    rw [this]; simp
  obtain ⟨r, hr⟩ := valueOf_total u (attrRaw h a)
  have hg := attrValue_gives hu hc rfl hr
  cases r with
  | some w =>
    have hg : attrValue u h a = .ok (some w) := hg
    rw [hg]; simp
  | none =>
    generalize attrValue u h a = o at hg
    cases o <;> first | exact (hg : False).elim | simp

theorem docType_ends {e : Env} (he : e.Ok) {h : Heap} (i : Inv h) {t : NodeId}
    (hl : h.live t = true) (ht : (h.get t).ntype = .documentType) {g : NodeId → Outcome Str} :
    fmtDocumentType e g h t ≠ .diverge := by
  have hx := i.exts t (i.wf.fresh t hl)
  rw [ht] at hx
  obtain ⟨p, s, hx⟩ := hx
  unfold fmtDocumentType
  rw [hx]
  simp only
  split
  · rw [(he.attrOrder t []).eq_nil]
    simp [fmtList]
  · simp

theorem fmtList_unfolds {e : Env} (he : e.Ok) {h : Heap} (i : Inv h) {l : List NodeId} {f : Forest}
    (hf : Unfolds h l f) (hl : ∀ m ∈ l, h.live m = true)
    (hdt : ∀ m ∈ f.preorder, ∀ t, docType h m = some t → nodeType h t = .documentType)
    (fuel : Nat) (hfuel : f.height + 1 ≤ fuel) : ∀ m ∈ l, fmtNode e h fuel m ≠ .diverge := by
  induction hf generalizing fuel with
  | nil => intro m hm; cases hm
  | @cons n l kids rest hk hr ihk ihr =>
    have hn := hl n (by simp)
    simp only [Forest.height] at hfuel
    intro m hm
    rcases List.mem_cons.mp hm with rfl | hm
    · obtain ⟨fuel, rfl⟩ : ∃ k, fuel = k + 1 := ⟨fuel - 1, by omega⟩
      have hkids := ihk (fun c hc => i.wf.child hn hc)
        (fun c hc => hdt c (by simp [Forest.preorder, hc])) fuel (by omega)
      have hpos : ∃ k, fuel = k + 1 := ⟨fuel - 1, by omega⟩
      unfold fmtNode
      cases ht : (h.get m).ntype with
      | element =>
        refine two_ends (fmtList_ends fun a ha => ?_) (fmtList_ends hkids)
        obtain ⟨⟨k, b⟩, hkb, rfl⟩ := List.mem_map.mp ha
        have hkb := (he.attrOrder m _).mem_iff.mp hkb
        have hx := i.exts m (i.wf.fresh m hn)
        rw [ht] at hx
        obtain ⟨attrs, nss, hx⟩ := hx
        have hat : attributes h m = attrs := by
          unfold attributes
          rw [if_pos ht, hx]
        rw [hat] at hkb
        have hb := ((i.attrKeys m attrs nss hn hx).2.2 k b hkb).1
        obtain ⟨k', rfl⟩ := hpos
        unfold fmtNode
        rw [hb]
        simp only [fmtAttribute]
        have := attrValue_ends he.uni (h := h) (a := b)
          (f := fun v => (h.get b).name.display ++ c! "=\"" ++ v.getD [] ++ c! "\"")
        generalize (attrValue e.uni h b).map _ = o at this ⊢
        cases o <;> simp at this ⊢
      | «attribute» => exact attrValue_ends he.uni
      | document =>
        refine two_ends ?_ (fmtList_ends hkids)
        cases hd : docType h m with
        | none => simp
        | some t =>
          simp only
          have htt : (h.get t).ntype = .documentType := hdt m (by simp [Forest.preorder]) t hd
          have htl : h.live t = true := by
            have hx := i.exts m (i.wf.fresh m hn)
            rw [ht] at hx
            obtain ⟨x, hx⟩ := hx
            refine i.docTypes m x t hn hx ?_
            unfold docType at hd
            rw [hx] at hd
            exact hd
          obtain ⟨k', rfl⟩ := hpos
          unfold fmtNode
          rw [htt]
          exact docType_ends he i htl htt
      | documentType => exact docType_ends he i hn ht
      | documentFragment =>
        have := fmtList_ends hkids
        simp only [fmtDocumentFragment]
        have hc : (h.get m).children = childNodes h m := rfl
        rw [hc]
        generalize fmtList _ (childNodes h m) = o at this ⊢
        cases o <;> simp at this ⊢
      | _ => simp
    · exact ihr (fun c hc => hl c (by simp [hc])) (fun c hc => hdt c (by simp [Forest.preorder, hc]))
        fuel (by omega) m hm

end XmlDom
