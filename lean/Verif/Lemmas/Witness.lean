import Verif.Lemmas.OpSteps

/-!
# Concrete environments and states for witnesses and examples
-/

namespace XmlDom

/-- ASCII classes. -/
def asciiUni : Uni :=
  { letter := fun c => isAsciiUpper c || isAsciiLower c,
    digit := isAsciiDigit,
    white := fun c => decide (c = ' ' ∨ (9 ≤ c.toNat ∧ c.toNat ≤ 13)) }

theorem asciiUni_ascii : asciiUni.Ascii :=
  ⟨fun _ _ => rfl, fun _ _ => rfl, fun _ _ => rfl⟩

/-- ASCII classes, debug arithmetic, maps iterated in list order. -/
def plainEnv : Env :=
  { uni := asciiUni, overflowChecks := true, attrOrder := fun _ m => m, nsOrder := fun _ m => m }

theorem plainEnv_ok : plainEnv.Ok :=
  ⟨asciiUni_ascii, fun _ _ => List.Perm.refl _, fun _ _ => List.Perm.refl _⟩

/-- As `plainEnv`, but maps are iterated backwards. -/
def backEnv : Env :=
  { uni := asciiUni, overflowChecks := false, attrOrder := fun _ m => m.reverse,
    nsOrder := fun _ m => m.reverse }

theorem backEnv_ok : backEnv.Ok :=
  ⟨asciiUni_ascii, fun _ m => List.reverse_perm m, fun _ m => List.reverse_perm m⟩

/-- A document (0) with the root element `r` (1). -/
def oneElementHeap : Heap := (createDocument Heap.empty none (some (c! "r")) none).2

/-- The state after the given calls in the plain environment. -/
def after (ops : List Op) : Heap := run (ops.map fun op => (plainEnv, op)) Heap.empty

theorem reachable_after (ops : List Op) : Reachable (after ops) := by
  refine ⟨_, ?_, rfl⟩
  intro x hx
  obtain ⟨op, _, rfl⟩ := List.mem_map.mp hx
  exact plainEnv_ok

/-- What holds of all node ids in use holds of all live nodes of a reachable state. -/
theorem forall_live {h : Heap} (hr : Reachable h) {P : NodeId → Prop} {n : Nat} (hn : h.next = n)
    (hP : ∀ q, q < n → P q) : ∀ p, h.live p = true → P p :=
  fun p hp => hP p (hn ▸ hr.wf.fresh p hp)

/-- A document (0) with the root element `r` (1). -/
def mkDoc : Op := .createDocument none (some (c! "r")) none Options.new.setAddNamespaces

end XmlDom
