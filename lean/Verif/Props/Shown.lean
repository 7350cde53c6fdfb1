import Verif.Lemmas.Shown
import Verif.Props.Serial

/-!
# C57: exactly when a node has a text form
-/

namespace XmlDom
namespace Props
open Spec

/-- C57: in every state, and however deep the tree, writing a node that returns has shown only
attributes with a value, writing one that panics has met an attribute without, and there is no
error. -/
theorem C57_outcome (e : Env) (he : e.Ok) (h : Heap) (n : NodeId) (fuel : Nat) :
    (∀ s, fmtNode e h fuel n = .ok s → ∀ a, Shown h n a → ¬ Unreadable e.uni h a) ∧
    ((fmtNode e h fuel n).Panics → ∃ a, Shown h n a ∧ Unreadable e.uni h a) ∧
    ∀ er, fmtNode e h fuel n ≠ .err er := by
  have hf := fmtNode_fits he (h := h) fuel n
  generalize fmtNode e h fuel n = o at hf ⊢
  refine ⟨?_, ?_, ?_⟩
  · rintro s rfl; exact hf
  · intro hp
    cases o <;> first | exact (hp : False).elim | exact hf
  · rintro er rfl; exact hf

/-- C57: a live node of a history that never inserts a node below itself, and in which document
types are document types, is written if every attribute shown has a value, and panics
otherwise. -/
theorem C57_exact (e : Env) (he : e.Ok) (h : Heap) (n : NodeId)
    (hr : ReachableBy NoAncestorInserted h) (hn : h.live n = true)
    (hdt : ∀ m t, docType h m = some t → nodeType h t = .documentType) :
    ∃ fuel₀, ∀ fuel, fuel₀ ≤ fuel →
      ((∃ s, fmtNode e h fuel n = .ok s) ↔ ∀ a, Shown h n a → ¬ Unreadable e.uni h a) ∧
      ((fmtNode e h fuel n).Panics ↔ ∃ a, Shown h n a ∧ Unreadable e.uni h a) := by
  obtain ⟨f, hf, _⟩ := C57_finite h n hr hn
  refine ⟨f.height + 1, fun fuel hfuel => ?_⟩
  have hd := fmtList_unfolds he hr.reachable.invariant hf (by simpa using hn)
    (fun m _ t => hdt m t) fuel hfuel n (by simp)
  obtain ⟨h1, h2, h3⟩ := C57_outcome e he h n fuel
  generalize fmtNode e h fuel n = o at hd h1 h2 h3 ⊢
  cases o with
  | ok s =>
    refine ⟨⟨fun _ => h1 s rfl, fun _ => ⟨s, rfl⟩⟩, ⟨fun hp => (hp : False).elim, ?_⟩⟩
    rintro ⟨a, ha, hb⟩
    exact absurd hb (h1 s rfl a ha)
  | err er => exact absurd rfl (h3 er)
  | panic k =>
    obtain ⟨a, ha, hb⟩ := h2 trivial
    refine ⟨⟨fun ⟨s, hs⟩ => (by cases hs), fun hall => absurd hb (hall a ha)⟩,
      ⟨fun _ => ⟨a, ha, hb⟩, fun _ => trivial⟩⟩
  | diverge => exact absurd rfl hd

/-- The element with the unreadable attribute of `C57_full_false`. -/
example : ReachableBy NoAncestorInserted (after unreadableOps) ∧
    Shown (after unreadableOps) 1 3 ∧ Unreadable plainEnv.uni (after unreadableOps) 3 := by
  refine ⟨unreadable_guarded, .single (.attr (k := ⟨none, none, c! "a"⟩) (by decide) (by decide)),
    by decide, by decide, c! "&lt;", (rawText_iff _ _ _).mpr (by decide), ?_⟩
  refine .crash (m := c! "&lt;") ?_ ?_
  · repeat' first | exact .nil | refine .other _ _ _ ?_ (by decide) (by decide) (by decide)
  · exact .entity (a := '&') (b := 'l') (cs := c! "t") (t := []) (Or.inl rfl) (Or.inl (by decide))
      (by simp [RefChar]; decide)

end Props
end XmlDom
