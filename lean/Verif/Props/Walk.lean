import Verif.Lemmas.Walk
import Verif.Props.Attr

/-!
# C51-C53, C55, C56: walks over sub-trees
-/

namespace XmlDom
namespace Props

open Spec

/-! ## C51 -/

theorem height_pos {h : Heap} {n : NodeId} {f : Forest} (hf : Unfolds h [n] f) : 0 < f.height := by
  cases hf with
  | cons _ _ =>
    simp only [Forest.height]
    exact Nat.lt_of_lt_of_le (Nat.succ_pos _) (Nat.le_max_left _ _)

/-- A valid name part is not the wild card. -/
theorem ncName_ne_star {s : Str} (hs : IsNcName s) : s ≠ c! "*" := by
  rintro rfl
  obtain ⟨⟨c, cs, h1, h2, _⟩, _⟩ := hs
  cases h1
  revert h2
  unfold NameStartChar
  decide

/-- A valid name does not print as the wild card. -/
theorem display_ne_star {nm : Name} (hn : NameOk nm) : nm.display ≠ c! "*" := by
  intro hd
  rcases nameOk_qname hn with hq | ⟨p, l, hq, _⟩
  · exact ncName_ne_star hq hd
  · rw [hd] at hq
    have : ':' ∈ (c! "*") := by rw [hq]; simp
    exact absurd this (by decide)

/-- C51: the query returns the matching elements of the sub-tree in document order. -/
theorem C51_elements (h : Heap) (n : NodeId) (f : Forest) (tag : Str) (fuel : Nat)
    (hr : Reachable h) (hn : h.live n = true) (hf : Unfolds h [n] f) (hfuel : f.height ≤ fuel) :
    getElementsByTagName h fuel n tag =
      .ok ((f.elements h).filter fun m => decide (TagMatches h tag m)) := by
  have i := hr.invariant
  unfold getElementsByTagName
  rw [collect_unfolds _ hf fuel hfuel (Nat.lt_of_lt_of_le (height_pos hf) hfuel)]
  congr 1
  refine List.filter_congr ?_
  intro m hm
  obtain ⟨h1, h2⟩ := elements_sub m hm
  have hl := hf.live i.wf (by simpa using hn) m h1
  have hnm := i.names m (i.wf.fresh m hl)
  rw [h2] at hnm
  have hne := display_ne_star hnm
  unfold tagNameMatch
  rw [Bool.eq_iff_iff]
  simp only [Bool.or_eq_true, decide_eq_true_iff]
  constructor
  · rintro ((h3 | h3) | h3)
    · exact Or.inr h3
    · exact absurd h3 hne
    · exact Or.inl h3
  · rintro (h3 | h3)
    · exact Or.inr h3
    · exact Or.inl (Or.inl h3)

/-- C51: in histories that never insert a node below itself all sub-trees are finite, so the
query returns. -/
theorem C51_terminates (h : Heap) (n : NodeId) (tag : Str) (hr : ReachableBy NoAncestorInserted h)
    (hn : h.live n = true) : ∃ f, Unfolds h [n] f ∧
      getElementsByTagName h (h.next + 1) n tag =
        .ok ((f.elements h).filter fun m => decide (TagMatches h tag m)) := by
  obtain ⟨f, h1, h2⟩ := unfolds_of_acyclic hr.reachable.wf hr.acyclic hn
  exact ⟨f, h1, C51_elements h n f tag _ hr.reachable hn h1 h2⟩

/-- A tree: r(a(b, text), b). -/
def walkOps : List Op :=
  [mkDoc, .createElement 0 (c! "a"), .createElement 0 (c! "b"), .createTextNode 0 (c! "t"),
    .createElementNs 0 (c! "u") (c! "b"), .appendChild 1 2, .appendChild 2 3, .appendChild 2 4,
    .appendChild 1 5]

theorem walk_unfolds : Unfolds (after walkOps) [1]
    (.cons 1 (.cons 2 (.cons 3 .nil (.cons 4 .nil .nil)) (.cons 5 .nil .nil)) .nil) :=
  .cons (.cons (.cons .nil (.cons .nil .nil)) (.cons .nil .nil)) .nil

/-- The hypotheses can be met. -/
example : getElementsByTagName (after walkOps) 3 1 (c! "b") = .ok [3, 5] ∧
    getElementsByTagName (after walkOps) 3 1 (c! "*") = .ok [1, 2, 3, 5] := by decide

/-! ## C52 -/

/-- C52: the same for namespaces. -/
def C52_full : Prop :=
  ∀ (h : Heap) (n : NodeId) (f : Forest) (uri loc : Str) (fuel : Nat), Reachable h →
    h.live n = true → Unfolds h [n] f → f.height ≤ fuel →
    getElementsByTagNameNs h fuel n uri loc =
      .ok ((f.elements h).filter fun m => decide (TagMatchesNs h uri loc m))

/-- C52 does not hold: an element in the namespace `*` matches every namespace. -/
theorem C52_full_false : ¬ C52_full := by
  intro hf
  have := hf (after [mkDoc, .createElementNs 0 (c! "*") (c! "a")]) 2 (.cons 2 .nil .nil) (c! "u")
    (c! "a") 1 (reachable_after _) (by decide) (.cons .nil .nil) (by decide)
  revert this
  decide

/-- C52 (all cases): the matching elements of the sub-tree, where an element in the namespace `*`
matches every namespace. -/
theorem C52_exact (h : Heap) (n : NodeId) (f : Forest) (uri loc : Str) (fuel : Nat)
    (hr : Reachable h) (hn : h.live n = true) (hf : Unfolds h [n] f) (hfuel : f.height ≤ fuel) :
    getElementsByTagNameNs h fuel n uri loc =
      .ok ((f.elements h).filter fun m => decide (StarMatchesNs h uri loc m)) := by
  have i := hr.invariant
  unfold getElementsByTagNameNs
  rw [collect_unfolds _ hf fuel hfuel (Nat.lt_of_lt_of_le (height_pos hf) hfuel)]
  congr 1
  refine List.filter_congr ?_
  intro m hm
  obtain ⟨h1, h2⟩ := elements_sub m hm
  have hl := hf.live i.wf (by simpa using hn) m h1
  have hnm : NameOk (h.get m).name := by
    have := i.names m (i.wf.fresh m hl)
    rw [h2] at this
    exact this
  have hne := ncName_ne_star hnm.loc
  rw [Bool.eq_iff_iff, decide_eq_true_iff]
  unfold namespacedNameMatch StarMatchesNs nodeName
  have hloc : (decide ((h.get m).name.localName = loc) || decide ((h.get m).name.localName = wildCard)
      || decide (loc = wildCard)) = true ↔ loc = (c! "*") ∨ (h.get m).name.localName = loc := by
    simp only [Bool.or_eq_true, decide_eq_true_iff]
    constructor
    · rintro ((h3 | h3) | h3)
      · exact Or.inr h3
      · exact absurd h3 hne
      · exact Or.inl h3
    · rintro (h3 | h3)
      · exact Or.inr h3
      · exact Or.inl (Or.inl h3)
  cases hns : (h.get m).name.namespaceUri with
  | none =>
    simp only [Bool.and_eq_true, hloc, decide_eq_true_iff, reduceCtorEq, or_false]
    rfl
  | some ns =>
    simp only [Bool.and_eq_true, hloc, Bool.or_eq_true, decide_eq_true_iff,
      Option.some.injEq]
    refine and_congr_left fun _ => ?_
    constructor
    · rintro ((h3 | h3) | h3)
      · exact Or.inr (Or.inl h3)
      · exact Or.inr (Or.inr h3)
      · exact Or.inl h3
    · rintro (h3 | h3 | h3)
      · exact Or.inr h3
      · exact Or.inl (Or.inl h3)
      · exact Or.inl (Or.inr h3)

/-- C52 (partial: no element of the sub-tree is in the namespace `*`). -/
theorem C52_elements_partial (h : Heap) (n : NodeId) (f : Forest) (uri loc : Str) (fuel : Nat)
    (hr : Reachable h) (hn : h.live n = true) (hf : Unfolds h [n] f) (hfuel : f.height ≤ fuel)
    (hstar : ∀ m ∈ f.elements h, (nodeName h m).namespaceUri ≠ some (c! "*")) :
    getElementsByTagNameNs h fuel n uri loc =
      .ok ((f.elements h).filter fun m => decide (TagMatchesNs h uri loc m)) := by
  rw [C52_exact h n f uri loc fuel hr hn hf hfuel]
  congr 1
  refine List.filter_congr ?_
  intro m hm
  have := hstar m hm
  rw [decide_eq_decide]
  unfold StarMatchesNs TagMatchesNs
  simp [this]

/-- C52: elements without namespace match only the wildcard namespace. -/
theorem C52_no_namespace (h : Heap) (uri loc : Str) (n : NodeId)
    (hn : (nodeName h n).namespaceUri = none) (hm : TagMatchesNs h uri loc n) : uri = c! "*" := by
  rcases hm.1 with h1 | h1
  · exact h1
  · rw [hn] at h1; cases h1

/-- The hypotheses can be met, and the wildcards are independent. -/
example : (∀ m ∈ [1, 2, 3, 5], (nodeName (after walkOps) m).namespaceUri ≠ some (c! "*")) ∧
    getElementsByTagNameNs (after walkOps) 3 1 (c! "u") (c! "*") = .ok [5] ∧
    getElementsByTagNameNs (after walkOps) 3 1 (c! "*") (c! "b") = .ok [3, 5] := by decide

/-! ## C53 -/

/-- C53: the query of the document returns all its matching elements. -/
def C53_full : Prop :=
  ∀ (h : Heap) (d : NodeId) (f : Forest) (tag : Str) (fuel : Nat), Reachable h →
    h.live d = true → nodeType h d = .document → Unfolds h (childNodes h d) f → f.height ≤ fuel →
    docGetElementsByTagName h fuel d tag =
      .ok ((f.elements h).filter fun m => decide (TagMatches h tag m))

/-- A comment in front of the document element. -/
def commentFirstOps : List Op :=
  [mkDoc, .createComment 0 (c! "c"), .insertBefore 0 2 (some 1)]

/-- C53 does not hold: with a comment in front of the document element nothing is found. -/
theorem C53_full_false : ¬ C53_full := by
  intro hf
  have := hf (after commentFirstOps) 0 (.cons 2 .nil (.cons 1 .nil .nil)) (c! "r") 1
    (reachable_after _) (by decide) (by decide) (.cons .nil (.cons .nil .nil)) (by decide)
  revert this
  decide

/-- Only one child of a document is an element, and elements are found below elements only, so
what is in the other children is no element. -/
theorem elements_of_rest {h : Heap} {l : List NodeId} {f : Forest} (hf : Unfolds h l f)
    (hl : ∀ n ∈ l, (h.get n).ntype ≠ .element) : f.elements h = [] := by
  induction hf with
  | nil => rfl
  | @cons n l kids rest _ _ _ ih2 =>
    rw [elements_other (hl n (by simp))]
    exact ih2 fun m hm => hl m (List.mem_cons_of_mem _ hm)

/-- C53 (partial: the first child of the document is its element, or the document has no
element). -/
theorem C53_document_partial (h : Heap) (d : NodeId) (f : Forest) (tag : Str) (fuel : Nat)
    (hr : Reachable h) (hd : h.live d = true) (ht : nodeType h d = .document)
    (hf : Unfolds h (childNodes h d) f) (hfuel : f.height ≤ fuel)
    (hfirst : ∀ c ∈ childNodes h d, nodeType h c = .element → (childNodes h d).head? = some c) :
    docGetElementsByTagName h fuel d tag =
      .ok ((f.elements h).filter fun m => decide (TagMatches h tag m)) := by
  have i := hr.invariant
  unfold docGetElementsByTagName documentElement
  have hnodup : ∀ c l, childNodes h d = c :: l → (h.get c).ntype = .element →
      ∀ x ∈ l, (h.get x).ntype ≠ .element := by
    intro c l hl hc x hx hxt
    have h1 := i.oneElement d hd ht
    unfold childNodes at hl
    rw [hl, List.filter_cons, if_pos (by simpa using hc), List.length_cons] at h1
    have h2 : x ∈ l.filter (fun c => decide ((h.get c).ntype = .element)) := by
      rw [List.mem_filter]
      exact ⟨hx, decide_eq_true hxt⟩
    have h2 := List.length_pos_of_mem h2
    exact absurd (Nat.le_trans (Nat.succ_le_succ h2) h1) (by decide)
  cases hc : childNodes h d with
  | nil =>
    rw [hc] at hf
    cases hf
    unfold childNodes at hc
    rw [hc]
    rfl
  | cons c l =>
    have hcl : h.live c = true := i.wf.child hd (by
      have : c ∈ childNodes h d := by rw [hc]; simp
      exact this)
    rw [hc] at hf
    obtain ⟨a, b, h1, h2, _, h4, h5⟩ := unfolds_append (l := [c]) (l' := l) hf
    have hc' := hc
    unfold childNodes at hc'
    rw [hc']
    simp only [List.head?_cons]
    rw [C51_elements h c a tag fuel hr hcl h1
      (Nat.le_trans (Nat.le_max_left _ _) (h5 ▸ hfuel)), h4]
    have hb : b.elements h = [] := by
      refine elements_of_rest h2 ?_
      intro x hx hxt
      by_cases hct : (h.get c).ntype = .element
      · exact hnodup c l hc hct x hx hxt
      · have := hfirst x (by rw [hc]; simp [hx]) hxt
        rw [hc] at this
        simp only [List.head?_cons, Option.some.injEq] at this
        rw [this] at hct
        exact hct hxt
    rw [hb, List.append_nil]

/-- C53 (all cases): both queries of a document are queries of its first child, which finds
nothing if that child is no element. -/
theorem C53_exact (h : Heap) (d : NodeId) (tag uri loc : Str) (fuel : Nat)
    (hr : Reachable h) (hd : h.live d = true) :
    (childNodes h d = [] → docGetElementsByTagName h fuel d tag = .ok [] ∧
      docGetElementsByTagNameNs h fuel d uri loc = .ok []) ∧
    (∀ c l f, childNodes h d = c :: l → Unfolds h [c] f → f.height ≤ fuel →
      docGetElementsByTagName h fuel d tag =
        .ok ((f.elements h).filter fun m => decide (TagMatches h tag m)) ∧
      docGetElementsByTagNameNs h fuel d uri loc =
        .ok ((f.elements h).filter fun m => decide (StarMatchesNs h uri loc m)) ∧
      (nodeType h c ≠ .element → f.elements h = [])) := by
  constructor
  · intro hc
    have hc : (h.get d).children = [] := hc
    unfold docGetElementsByTagName docGetElementsByTagNameNs documentElement
    rw [hc]
    exact ⟨rfl, rfl⟩
  · intro c l f hc hf hfuel
    have hc : (h.get d).children = c :: l := hc
    have hcl : h.live c = true := hr.invariant.wf.child hd (by rw [hc]; simp)
    unfold docGetElementsByTagName docGetElementsByTagNameNs documentElement
    rw [hc]
    refine ⟨C51_elements h c f tag fuel hr hcl hf hfuel, C52_exact h c f uri loc fuel hr hcl hf hfuel,
      fun hne => elements_of_rest hf ?_⟩
    intro m hm
    cases List.mem_singleton.mp hm
    exact hne

example : docGetElementsByTagNameNs (after walkOps) 3 0 (c! "*") (c! "b") = .ok [3, 5] ∧
    docGetElementsByTagNameNs (after commentFirstOps) 3 0 (c! "*") (c! "*") = .ok [] := by decide

/-- The hypotheses can be met. -/
example : docGetElementsByTagName (after walkOps) 3 0 (c! "b") = .ok [3, 5] ∧
    (∀ c ∈ childNodes (after walkOps) 0, nodeType (after walkOps) c = .element →
      (childNodes (after walkOps) 0).head? = some c) := by decide

end Props
end XmlDom
