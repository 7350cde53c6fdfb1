import Verif.Props.Namespaces

/-!
# C47 and C48: every outcome of the walks to the root
-/

namespace XmlDom
namespace Props

open Spec

theorem lost_parent {h : Heap} (hr : Reachable h) {n w : NodeId} (hn : h.live n = true)
    (hp : parentNode h n = none) (hw : (h.get n).parent = some w) :
    h.upgrade (some w) = none ∧ ¬ ParentKept h n := by
  refine ⟨?_, fun hk => hk (by rw [hw]; simp) hp⟩
  cases hu : h.upgrade (some w) with
  | none => rfl
  | some p =>
    obtain ⟨hu1, hu2⟩ := Heap.upgrade_some.mp hu
    cases hu1
    rw [parentNode_eq_some.mpr ⟨attr_noParent hr hn hw, hw, hu2⟩] at hp
    cases hp

theorem kept_of_parent {h : Heap} {n p : NodeId} (hp : parentNode h n = some p) :
    ParentKept h n := fun _ => by rw [hp]; simp

theorem kept_of_root {h : Heap} {n : NodeId} (hp : (h.get n).parent = none) :
    ParentKept h n := fun hh => absurd hp hh

/-- The three ways in which the search for a prefix ends. -/
theorem resolve_ends (h : Heap) (n : NodeId) (l : List NodeId) (pfx : Option Str) (fuel : Nat)
    (hr : Reachable h) (hn : h.live n = true) (ha : Ancestry h n l)
    (hon : ∀ m ∈ l, nodeType h m = .document ∨ NamespacesOn h m) (hfuel : l.length ≤ fuel) :
    (∃ u, resolveNamespace h fuel n pfx = .ok (some u) ∧ IsNearest h l pfx (some u)) ∨
    (resolveNamespace h fuel n pfx = .ok none ∧ IsNearest h l pfx none ∧
      ∀ m ∈ l, ParentKept h m) ∨
    (resolveNamespace h fuel n pfx = .panic .unwrap ∧ IsNearest h l pfx none ∧
      ∃ m ∈ l, ¬ ParentKept h m) := by
  have i := hr.invariant
  induction fuel generalizing n l with
  | zero => cases ha <;> simp at hfuel
  | succ fuel ih =>
    unfold resolveNamespace
    have hmem : n ∈ l := by cases ha <;> simp
    by_cases hd : nodeType h n = .document
    · obtain ⟨h1, h2⟩ := document_off i hn hd
      have hp := docParent hr n (i.wf.fresh n hn) hd
      have hl : l = [n] := by
        cases ha with
        | root => rfl
        | up h3 _ => exact absurd (parentNode_up h3).1 (by simp [hp])
      rw [if_pos h1, hl]
      refine Or.inr (Or.inl ⟨rfl, ?_, ?_⟩)
      · intro x hx
        cases List.mem_singleton.mp hx
        exact h2 pfx
      · intro x hx
        cases List.mem_singleton.mp hx
        exact kept_of_root hp
    · have ho : addNamespaces h n = true := by
        rcases hon n hmem with h1 | h1
        · exact absurd h1 hd
        · exact addNamespaces_iff.mpr h1
      have hget := getNamespace_iff i hn ho pfx
      rw [if_neg (by simp [ho])]
      cases hg : getNamespace h n pfx with
      | some u =>
        simp only
        refine Or.inl ⟨u, rfl, ?_⟩
        cases ha with
        | root => exact ⟨[], n, [], rfl, (hget u).mp hg, by simp⟩
        | @up _ p l _ _ => exact ⟨[], n, l, rfl, (hget u).mp hg, by simp⟩
      | none =>
        have hno : ∀ u, ¬ Declares h n pfx u := by
          intro u hu
          have := (hget u).mpr hu
          rw [hg] at this
          cases this
        simp only
        cases ha with
        | root hp =>
          have hnone : IsNearest h [n] pfx none := by
            intro x hx
            cases List.mem_singleton.mp hx
            exact hno
          cases hw : (h.get n).parent with
          | none =>
            refine Or.inr (Or.inl ⟨rfl, hnone, ?_⟩)
            intro x hx
            cases List.mem_singleton.mp hx
            exact kept_of_root hw
          | some w =>
            obtain ⟨h1, h2⟩ := lost_parent hr hn hp hw
            simp only [h1]
            exact Or.inr (Or.inr ⟨trivial, hnone, n, by simp, h2⟩)
        | @up _ p l hp ht =>
          obtain ⟨h1, h2⟩ := parentNode_up hp
          rw [h1]
          simp only [show h.upgrade (some p) = some p from Heap.upgrade_some.mpr ⟨rfl, h2⟩]
          rcases ih p l h2 ht (fun m hm => hon m (List.mem_cons_of_mem _ hm))
            (by simpa using hfuel) with ⟨u, h3, h4⟩ | ⟨h3, h4, h5⟩ | ⟨h3, h4, m, hm, h5⟩
          · exact Or.inl ⟨u, h3, h4.cons hno⟩
          · refine Or.inr (Or.inl ⟨h3, h4.cons hno, ?_⟩)
            intro x hx
            rcases List.mem_cons.mp hx with rfl | hx
            · exact kept_of_parent hp
            · exact h5 x hx
          · exact Or.inr (Or.inr ⟨h3, h4.cons hno, m, List.mem_cons_of_mem _ hm, h5⟩)

theorem nearest_not_none {h : Heap} {l : List NodeId} {pfx : Option Str} {u : Str}
    (h1 : IsNearest h l pfx (some u)) : ¬ IsNearest h l pfx none := by
  obtain ⟨a, m, b, rfl, h2, _⟩ := h1
  exact fun h3 => h3 m (by simp) u h2

theorem first_unique {α : Type} {P : α → Prop} {a b a' b' : List α} {m m' : α}
    (h : a ++ m :: b = a' ++ m' :: b') (h1 : P m) (h1' : P m') (h2 : ∀ x ∈ a, ¬ P x)
    (h2' : ∀ x ∈ a', ¬ P x) : a = a' ∧ m = m' := by
  induction a generalizing a' with
  | nil =>
    cases a' with
    | nil => simp at h; exact ⟨rfl, h.1⟩
    | cons y a' =>
      simp at h
      exact absurd (h.1 ▸ h1) (h2' y (by simp))
  | cons x a ih =>
    cases a' with
    | nil =>
      simp at h
      exact absurd (h.1 ▸ h1') (h2 x (by simp))
    | cons y a' =>
      simp only [List.cons_append, List.cons.injEq] at h
      obtain ⟨h3, h4⟩ := ih h.2 (fun z hz => h2 z (by simp [hz])) (fun z hz => h2' z (by simp [hz]))
      exact ⟨by rw [h.1, h3], h4⟩

theorem declares_unique {h : Heap} (i : Inv h) {m : NodeId} (hm : h.live m = true)
    {p : Option Str} {u v : Str} (h1 : Declares h m p u) (h2 : Declares h m p v) : u = v := by
  obtain ⟨_, a, b, h3, h4⟩ := h1
  obtain ⟨_, a', b', h3', h4'⟩ := h2
  rw [h3] at h3'
  cases h3'
  have k := (i.attrKeys m a b hm h3).2.1
  have e1 := (mapGet_eq_some k).mpr h4
  have e2 := (mapGet_eq_some k).mpr h4'
  rw [e1] at e2
  exact Option.some.inj e2

theorem ancestry_live {h : Heap} {n : NodeId} {l : List NodeId} (ha : Ancestry h n l)
    (hn : h.live n = true) : ∀ m ∈ l, h.live m = true := by
  induction ha with
  | root hp =>
    intro m hm
    cases List.mem_singleton.mp hm
    exact hn
  | up hp _ ih =>
    intro m hm
    rcases List.mem_cons.mp hm with rfl | hm
    · exact hn
    · exact ih (parentNode_up hp).2 m hm

theorem nearest_unique {h : Heap} (i : Inv h) {l : List NodeId} (hl : ∀ m ∈ l, h.live m = true)
    {pfx : Option Str} {u v : Str} (h1 : IsNearest h l pfx (some u))
    (h2 : IsNearest h l pfx (some v)) : u = v := by
  obtain ⟨a, m, b, rfl, h3, h4⟩ := h1
  obtain ⟨a', m', b', he, h3', h4'⟩ := h2
  obtain ⟨_, rfl⟩ := first_unique (P := fun x => ∃ w, Declares h x pfx w) he ⟨u, h3⟩ ⟨v, h3'⟩
    (fun x hx hw => hw.elim (h4 x hx)) (fun x hx hw => hw.elim (h4' x hx))
  exact declares_unique i (hl m (by simp)) h3 h3'

/-- C47 (all cases): where the documents of a node and its ancestors have the option, the nearest
declaration is found if there is one; otherwise there is no answer, by a panic if an ancestor
was dropped. -/
theorem C47_exact (h : Heap) (n : NodeId) (l : List NodeId) (pfx : Option Str) (fuel : Nat)
    (hr : Reachable h) (hn : h.live n = true) (ha : Ancestry h n l)
    (hon : ∀ m ∈ l, nodeType h m = .document ∨ NamespacesOn h m) (hfuel : l.length ≤ fuel) :
    (∀ u, resolveNamespace h fuel n pfx = .ok (some u) ↔ IsNearest h l pfx (some u)) ∧
    (resolveNamespace h fuel n pfx = .ok none ↔
      IsNearest h l pfx none ∧ ∀ m ∈ l, ParentKept h m) ∧
    ((resolveNamespace h fuel n pfx).Panics ↔
      IsNearest h l pfx none ∧ ∃ m ∈ l, ¬ ParentKept h m) := by
  have hl := ancestry_live ha hn
  rcases resolve_ends h n l pfx fuel hr hn ha hon hfuel with ⟨u, h1, h2⟩ | ⟨h1, h2, h3⟩ |
    ⟨h1, h2, h3⟩
  · rw [h1]
    have := nearest_not_none h2
    refine ⟨fun v => ⟨fun hv => by cases hv; exact h2, fun hv => ?_⟩, by simp [this],
      by simp [this]⟩
    rw [nearest_unique hr.invariant hl h2 hv]
  · rw [h1]
    refine ⟨fun v => ⟨fun hv => (by cases hv), fun hv => absurd h2 (nearest_not_none hv)⟩,
      ⟨fun _ => ⟨h2, h3⟩, fun _ => rfl⟩, ⟨fun hp => (by simp at hp), ?_⟩⟩
    rintro ⟨_, m, hm, h4⟩
    exact absurd (h3 m hm) h4
  · rw [h1]
    refine ⟨fun v => ⟨fun hv => (by cases hv), fun hv => absurd h2 (nearest_not_none hv)⟩,
      ⟨fun hv => (by cases hv), ?_⟩, ⟨fun _ => ⟨h2, h3⟩, fun _ => by simp⟩⟩
    rintro ⟨_, h4⟩
    obtain ⟨m, hm, h5⟩ := h3
    exact absurd (h4 m hm) h5

example : Reachable (after droppedOps) ∧ Ancestry (after droppedOps) 3 [3] ∧
    ¬ ParentKept (after droppedOps) 3 ∧
    (resolveNamespace (after droppedOps) 1 3 none).Panics :=
  ⟨reachable_after _, .root (by decide), fun hk => hk (by decide) (by decide), by decide⟩

/-- The nearest ancestor with a prefix for the namespace: `p` is one of its prefixes. -/
def NearestPrefix (h : Heap) (l : List NodeId) (uri : Str) : Option (Option Str) → Prop
  | some p => ∃ a m b, l = a ++ m :: b ∧ Declares h m p uri ∧
      ∀ x ∈ a, ∀ q, ¬ Declares h x q uri
  | none => ∀ m ∈ l, ∀ q, ¬ Declares h m q uri

theorem resolvePrefix_ends (e : Env) (h : Heap) (n : NodeId) (l : List NodeId) (uri : Str)
    (fuel : Nat) (he : e.Ok) (hr : Reachable h) (hn : h.live n = true) (ha : Ancestry h n l)
    (hon : ∀ m ∈ l, nodeType h m = .document ∨ NamespacesOn h m) (hfuel : l.length ≤ fuel) :
    (∃ r, resolvePrefix e h fuel n uri = .ok r ∧ r ≠ .none) ∨
    (resolvePrefix e h fuel n uri = .ok .none ∧ ∀ m ∈ l, ParentKept h m) ∨
    (resolvePrefix e h fuel n uri = .panic .unwrap ∧ NearestPrefix h l uri none ∧
      ∃ m ∈ l, ¬ ParentKept h m) := by
  have i := hr.invariant
  induction fuel generalizing n l with
  | zero => cases ha <;> simp at hfuel
  | succ fuel ih =>
    unfold resolvePrefix
    have hmem : n ∈ l := by cases ha <;> simp
    by_cases hd : nodeType h n = .document
    · obtain ⟨h1, h2⟩ := document_off i hn hd
      have hp := docParent hr n (i.wf.fresh n hn) hd
      have hl : l = [n] := by
        cases ha with
        | root => rfl
        | up h3 _ => exact absurd (parentNode_up h3).1 (by simp [hp])
      rw [if_pos h1, hl]
      refine Or.inr (Or.inl ⟨rfl, ?_⟩)
      intro x hx
      cases List.mem_singleton.mp hx
      exact kept_of_root hp
    · have ho : addNamespaces h n = true := by
        rcases hon n hmem with h1 | h1
        · exact absurd h1 hd
        · exact addNamespaces_iff.mpr h1
      rw [if_neg (by simp [ho])]
      obtain ⟨_, h2⟩ := getPrefix_sound (n := n) (h := h) (uri := uri) he
      cases hg : getPrefix e h n uri with
      | default => exact Or.inl ⟨_, rfl, by simp⟩
      | some k => exact Or.inl ⟨_, rfl, by simp⟩
      | none =>
        have hno := h2 ho hg
        simp only
        cases ha with
        | root hp =>
          cases hw : (h.get n).parent with
          | none =>
            refine Or.inr (Or.inl ⟨rfl, ?_⟩)
            intro x hx
            cases List.mem_singleton.mp hx
            exact kept_of_root hw
          | some w =>
            obtain ⟨h1, h2⟩ := lost_parent hr hn hp hw
            simp only [h1]
            refine Or.inr (Or.inr ⟨trivial, ?_, n, by simp, h2⟩)
            intro x hx
            cases List.mem_singleton.mp hx
            exact hno
        | @up _ p l hp ht =>
          obtain ⟨h1, h2⟩ := parentNode_up hp
          rw [h1]
          simp only [show h.upgrade (some p) = some p from Heap.upgrade_some.mpr ⟨rfl, h2⟩]
          rcases ih p l h2 ht (fun m hm => hon m (List.mem_cons_of_mem _ hm))
            (by simpa using hfuel) with ⟨u, h3, h4⟩ | ⟨h3, h5⟩ | ⟨h3, h4, m, hm, h5⟩
          · exact Or.inl ⟨u, h3, h4⟩
          · refine Or.inr (Or.inl ⟨h3, ?_⟩)
            intro x hx
            rcases List.mem_cons.mp hx with rfl | hx
            · exact kept_of_parent hp
            · exact h5 x hx
          · refine Or.inr (Or.inr ⟨h3, ?_, m, List.mem_cons_of_mem _ hm, h5⟩)
            intro x hx
            rcases List.mem_cons.mp hx with rfl | hx
            · exact hno
            · exact h4 x hx

/-- C48 (all cases): where the documents of a node and its ancestors have the option, the answer
is a prefix of the nearest ancestor that has one for the namespace; if there is none there is no
answer, by a panic if an ancestor was dropped. -/
theorem C48_exact (e : Env) (h : Heap) (n : NodeId) (l : List NodeId) (uri : Str) (fuel : Nat)
    (he : e.Ok) (hr : Reachable h) (hn : h.live n = true) (ha : Ancestry h n l)
    (hon : ∀ m ∈ l, nodeType h m = .document ∨ NamespacesOn h m) (hfuel : l.length ≤ fuel) :
    (∀ r, resolvePrefix e h fuel n uri = .ok r → NearestPrefix h l uri (prefixMeaning r)) ∧
    ((∃ r, resolvePrefix e h fuel n uri = .ok r ∧ r ≠ .none) ↔ ¬ NearestPrefix h l uri none) ∧
    (resolvePrefix e h fuel n uri = .ok .none ↔
      NearestPrefix h l uri none ∧ ∀ m ∈ l, ParentKept h m) ∧
    ((resolvePrefix e h fuel n uri).Panics ↔
      NearestPrefix h l uri none ∧ ∃ m ∈ l, ¬ ParentKept h m) := by
  have found : ∀ r, resolvePrefix e h fuel n uri = .ok r →
      NearestPrefix h l uri (prefixMeaning r) := by
    intro r hok
    have := C48_resolve_prefix e h n l uri fuel r he hr hn ha hon hok
    cases hm : prefixMeaning r <;> rw [hm] at this <;> exact this
  refine ⟨found, ?_⟩
  rcases resolvePrefix_ends e h n l uri fuel he hr hn ha hon hfuel with ⟨r, h1, h2⟩ | ⟨h1, h3⟩ |
    ⟨h1, h2, h3⟩
  · have hs := found r h1
    have hno : ¬ NearestPrefix h l uri none := by
      cases r with
      | none => exact absurd rfl h2
      | _ =>
        obtain ⟨a, m, b, rfl, h4, _⟩ := hs
        exact fun h5 => h5 m (by simp) _ h4
    rw [h1]
    simp [hno, h2]
  · have hs := found _ h1
    have hs : NearestPrefix h l uri none := hs
    rw [h1]
    refine ⟨by simp [hs], ⟨fun _ => ⟨hs, h3⟩, fun _ => rfl⟩, ⟨fun hp => (by simp at hp), ?_⟩⟩
    rintro ⟨_, m, hm, h4⟩
    exact absurd (h3 m hm) h4
  · rw [h1]
    refine ⟨by simp [h2], ⟨fun hv => (by cases hv), ?_⟩, ⟨fun _ => ⟨h2, h3⟩, fun _ => by simp⟩⟩
    rintro ⟨_, h4⟩
    obtain ⟨m, hm, h5⟩ := h3
    exact absurd (h4 m hm) h5

example : (resolvePrefix plainEnv (after droppedOps) 1 3 (c! "u")).Panics := by decide

end Props
end XmlDom
