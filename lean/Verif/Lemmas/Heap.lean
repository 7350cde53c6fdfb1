import Verif.Model.Document

/-!
# Basic facts about heaps, positions and association lists
-/

namespace XmlDom

/-! ## Heap updates -/

namespace Heap

@[simp] theorem get_set (h : Heap) (n : NodeId) (x : Node) (m : NodeId) :
    (h.set n x).get m = if m = n then x else h.get m := rfl

theorem get_set_self (h : Heap) (n : NodeId) (x : Node) : (h.set n x).get n = x := by simp

theorem get_set_ne (h : Heap) {n m : NodeId} (x : Node) (hm : m ≠ n) :
    (h.set n x).get m = h.get m := by simp [hm]

@[simp] theorem live_set (h : Heap) (n : NodeId) (x : Node) : (h.set n x).live = h.live := rfl

@[simp] theorem next_set (h : Heap) (n : NodeId) (x : Node) : (h.set n x).next = h.next := rfl

@[simp] theorem upgrade_set (h : Heap) (n : NodeId) (x : Node) (w : Option NodeId) :
    (h.set n x).upgrade w = h.upgrade w := rfl

@[simp] theorem alloc_fst (h : Heap) (x : Node) : (h.alloc x).1 = h.next := rfl

@[simp] theorem get_alloc (h : Heap) (x : Node) (m : NodeId) :
    (h.alloc x).2.get m = if m = h.next then x else h.get m := rfl

@[simp] theorem live_alloc (h : Heap) (x : Node) (m : NodeId) :
    (h.alloc x).2.live m = if m = h.next then true else h.live m := rfl

@[simp] theorem next_alloc (h : Heap) (x : Node) : (h.alloc x).2.next = h.next + 1 := rfl

theorem upgrade_some {h : Heap} {w : Option NodeId} {n : NodeId} :
    h.upgrade w = some n ↔ w = some n ∧ h.live n = true := by
  cases w with
  | none => simp [upgrade]
  | some m =>
    unfold upgrade
    by_cases hl : h.live m
    · simp [hl]; intro he; subst he; exact hl
    · simp [hl]; intro he; subst he; simpa using hl

theorem upgrade_none {h : Heap} {w : Option NodeId} :
    h.upgrade w = none ↔ ∀ n, w = some n → h.live n = false := by
  cases w with
  | none => simp [upgrade]
  | some m =>
    unfold upgrade
    by_cases hl : h.live m <;> simp [hl]

end Heap

/-! ## Positions in child lists -/

theorem position_eq_none {x : NodeId} {l : List NodeId} : position x l = none ↔ x ∉ l := by
  induction l with
  | nil => simp [position]
  | cons y ys ih =>
    unfold position
    by_cases h : y = x
    · simp [h]
    · have h' : ¬ x = y := fun e => h e.symm
      simp [h, h', ih]

/-- The position of the first occurrence splits the list there. -/
theorem position_eq_some {x : NodeId} {l : List NodeId} {i : Nat} :
    position x l = some i ↔ ∃ a b, l = a ++ x :: b ∧ x ∉ a ∧ a.length = i := by
  induction l generalizing i with
  | nil => simp [position]
  | cons y ys ih =>
    unfold position
    by_cases h : y = x
    · subst h
      simp only [if_true, Option.some.injEq]
      constructor
      · intro hi; exact ⟨[], ys, rfl, by simp, by simpa using hi⟩
      · rintro ⟨a, b, hl, ha, rfl⟩
        cases a with
        | nil => rfl
        | cons c cs =>
          simp only [List.cons_append, List.cons.injEq] at hl
          simp [← hl.1] at ha
    · simp only [if_neg h, Option.map_eq_some_iff]
      constructor
      · rintro ⟨j, hj, rfl⟩
        obtain ⟨a, b, rfl, ha, rfl⟩ := ih.mp hj
        refine ⟨y :: a, b, rfl, ?_, rfl⟩
        simp only [List.mem_cons, not_or]
        exact ⟨fun e => h e.symm, ha⟩
      · rintro ⟨a, b, hl, ha, rfl⟩
        cases a with
        | nil => simp only [List.nil_append, List.cons.injEq] at hl; exact absurd hl.1 h
        | cons c cs =>
          simp only [List.cons_append, List.cons.injEq] at hl
          simp only [List.mem_cons, not_or] at ha
          exact ⟨cs.length, ih.mpr ⟨cs, b, hl.2, ha.2, rfl⟩, rfl⟩

theorem position_of_mem {x : NodeId} {l : List NodeId} (h : x ∈ l) :
    ∃ a b, l = a ++ x :: b ∧ x ∉ a ∧ position x l = some a.length := by
  cases hp : position x l with
  | none => exact absurd h (position_eq_none.mp hp)
  | some i =>
    obtain ⟨a, b, h1, h2, h3⟩ := position_eq_some.mp hp
    exact ⟨a, b, h1, h2, by rw [h3]⟩

theorem position_append {x : NodeId} {a b : List NodeId} (h : x ∉ a) :
    position x (a ++ x :: b) = some a.length :=
  position_eq_some.mpr ⟨a, b, rfl, h, rfl⟩

theorem eraseIdx_position {x : NodeId} {l : List NodeId} {i : Nat} (h : position x l = some i) :
    l.eraseIdx i = l.erase x := by
  obtain ⟨a, b, rfl, ha, rfl⟩ := position_eq_some.mp h
  rw [List.eraseIdx_append_of_length_le (Nat.le_refl _)]
  simp [List.erase_append_right _ ha]

theorem position_lt {x : NodeId} {l : List NodeId} {i : Nat} (h : position x l = some i) :
    i < l.length := by
  obtain ⟨a, b, rfl, ha, rfl⟩ := position_eq_some.mp h
  simp

/-! ## Association lists -/

section Maps
variable {κ ν : Type} [DecidableEq κ]

theorem mapGet_eq_some_mem {k : κ} {v : ν} {m : List (κ × ν)} (h : mapGet k m = some v) :
    (k, v) ∈ m := by
  induction m with
  | nil => simp [mapGet] at h
  | cons e m ih =>
    obtain ⟨k', v'⟩ := e
    unfold mapGet at h
    split at h
    · rename_i hk; subst hk; simp at h; subst h; simp
    · exact List.mem_cons_of_mem _ (ih h)

theorem mapGet_eq_none {k : κ} {m : List (κ × ν)} : mapGet k m = none ↔ ∀ e ∈ m, e.1 ≠ k := by
  induction m with
  | nil => simp [mapGet]
  | cons e m ih =>
    obtain ⟨k', v'⟩ := e
    unfold mapGet
    by_cases hk : k' = k
    · simp [hk]
    · simp [hk, ih]

theorem mem_mapRemove {k : κ} {m : List (κ × ν)} {e : κ × ν} :
    e ∈ mapRemove k m ↔ e ∈ m ∧ e.1 ≠ k := by
  simp [mapRemove]

theorem mem_mapInsert {k : κ} {v : ν} {m : List (κ × ν)} {e : κ × ν} :
    e ∈ mapInsert k v m ↔ e = (k, v) ∨ (e ∈ m ∧ e.1 ≠ k) := by
  simp [mapInsert, mem_mapRemove]

/-- The keys of the list are pairwise different, as in a hash map. -/
def KeysNodup (m : List (κ × ν)) : Prop := (m.map (·.1)).Nodup

omit [DecidableEq κ] in
theorem keysNodup_nil : KeysNodup ([] : List (κ × ν)) := by simp [KeysNodup]

theorem keysNodup_mapRemove {k : κ} {m : List (κ × ν)} (h : KeysNodup m) :
    KeysNodup (mapRemove k m) :=
  List.Nodup.sublist ((List.filter_sublist).map _) h

theorem keysNodup_mapInsert {k : κ} {v : ν} {m : List (κ × ν)} (h : KeysNodup m) :
    KeysNodup (mapInsert k v m) := by
  unfold mapInsert KeysNodup
  rw [List.map_cons, List.nodup_cons]
  refine ⟨?_, keysNodup_mapRemove h⟩
  intro hm
  obtain ⟨e, he, hk⟩ := List.mem_map.mp hm
  exact (mem_mapRemove.mp he).2 hk

omit [DecidableEq κ] in
theorem KeysNodup.eq_of_mem {m : List (κ × ν)} (h : KeysNodup m) {k : κ} {v w : ν}
    (h1 : (k, v) ∈ m) (h2 : (k, w) ∈ m) : v = w := by
  induction m with
  | nil => simp at h1
  | cons e m ih =>
    have hn : e.1 ∉ m.map (·.1) ∧ KeysNodup m := by
      unfold KeysNodup at h; rw [List.map_cons, List.nodup_cons] at h; exact h
    rcases List.mem_cons.mp h1 with h1 | h1 <;> rcases List.mem_cons.mp h2 with h2 | h2
    · rw [← h2] at h1; exact (Prod.mk.inj h1).2
    · exact absurd (List.mem_map.mpr ⟨_, h2, by rw [← h1]⟩) hn.1
    · exact absurd (List.mem_map.mpr ⟨_, h1, by rw [← h2]⟩) hn.1
    · exact ih hn.2 h1 h2

theorem mapGet_eq_some {k : κ} {v : ν} {m : List (κ × ν)} (hm : KeysNodup m) :
    mapGet k m = some v ↔ (k, v) ∈ m := by
  constructor
  · exact mapGet_eq_some_mem
  · intro h
    cases hg : mapGet k m with
    | none => exact absurd rfl (mapGet_eq_none.mp hg _ h)
    | some w => rw [hm.eq_of_mem h (mapGet_eq_some_mem hg)]

theorem mapGet_mapInsert {k k' : κ} {v : ν} {m : List (κ × ν)} :
    mapGet k' (mapInsert k v m) = if k = k' then some v else mapGet k' m := by
  unfold mapInsert
  rw [mapGet]
  split
  · rfl
  · rename_i hne
    unfold mapRemove
    induction m with
    | nil => rfl
    | cons e m ih =>
      obtain ⟨k1, v1⟩ := e
      by_cases h1 : k1 = k
      · subst h1
        rw [List.filter_cons_of_neg (by simp), ih, mapGet, if_neg hne]
      · rw [List.filter_cons_of_pos (by simp [h1]), mapGet, mapGet, ih]

theorem mapGet_mapRemove {k k' : κ} {m : List (κ × ν)} :
    mapGet k' (mapRemove k m) = if k = k' then none else mapGet k' m := by
  unfold mapRemove
  induction m with
  | nil => simp [mapGet]
  | cons e m ih =>
    obtain ⟨k1, v1⟩ := e
    by_cases h1 : k1 = k
    · subst h1
      rw [List.filter_cons_of_neg (by simp), ih, mapGet]
      by_cases h2 : k1 = k' <;> simp [h2]
    · rw [List.filter_cons_of_pos (by simp [h1]), mapGet, mapGet, ih]
      by_cases h2 : k1 = k'
      · subst h2; simp [Ne.symm h1]
      · simp [h2]

end Maps

end XmlDom
