import Verif.Props.Walk
import Verif.Spec.Order

/-!
# C97: histories do not depend on the order of hash maps
-/

namespace XmlDom

namespace Props

open Spec

theorem setAttributeNode_order {e e' : Env} (hs : SameButOrder e e') (h : Heap) (n a : NodeId) :
    setAttributeNode e' h n a = setAttributeNode e h n a := by
  unfold setAttributeNode
  rw [hs.1]

theorem setAttribute_order {e e' : Env} (hs : SameButOrder e e') (h : Heap) (n : NodeId)
    (k v : Str) : setAttribute e' h n k v = setAttribute e h n k v := by
  unfold setAttribute setAttributeNamed
  simp only [setAttributeNode_order hs]

theorem handleAttributes_order {e e' : Env} (hs : SameButOrder e e') (doc el : NodeId) :
    ∀ (l : List AttrEvent) (h : Heap),
      handleAttributes e' doc el l h = handleAttributes e doc el l h := by
  intro l
  induction l with
  | nil => intro h; rfl
  | cons x l ih =>
    intro h
    cases x with
    | bad => rfl
    | undecodable => rfl
    | good k v =>
      unfold handleAttributes
      simp only [setAttributeNode_order hs, ih]

theorem handleStart_order {e e' : Env} (hs : SameButOrder e e') :
    handleStart e' = handleStart e := by
  funext doc parent name attrs h
  unfold handleStart
  simp only [handleAttributes_order hs]

theorem handlePi_order {e e' : Env} (hs : SameButOrder e e') : handlePi e' = handlePi e := by
  funext doc parent t h
  unfold handlePi
  rw [hs.1]

theorem parseElement_order {e e' : Env} (hs : SameButOrder e e') (doc : NodeId) (fuel : Nat) :
    parseElement e' doc fuel = parseElement e doc fuel := by
  induction fuel with
  | zero => rfl
  | succ fuel ih =>
    funext parent evs h
    unfold parseElement
    rw [handleStart_order hs, handlePi_order hs, ih]

theorem parseLoop_order {e e' : Env} (hs : SameButOrder e e') (doc : NodeId) (fuel : Nat) :
    parseLoop e' doc fuel = parseLoop e doc fuel := by
  induction fuel with
  | zero => rfl
  | succ fuel ih =>
    funext evs h
    unfold parseLoop
    simp only [handleStart_order hs, handlePi_order hs, parseElement_order hs, ih]

/-- `plainEnv` with the iteration order of `backEnv`. -/
def turnedEnv : Env := { backEnv with overflowChecks := plainEnv.overflowChecks }

theorem turnedEnv_ok : turnedEnv.Ok := ⟨backEnv_ok.uni, backEnv_ok.attrOrder, backEnv_ok.nsOrder⟩

/-- C97: a call leaves the same state behind, whatever the iteration orders. -/
def C97_full : Prop :=
  ∀ (e e' : Env) (h : Heap) (op : Op), e.Ok → e'.Ok → SameButOrder e e' → Reachable h →
    exec e' op h = exec e op h

/-- C97 does not hold: which of two attributes with the same name is removed depends on the
order. -/
theorem C97_full_false : ¬ C97_full := by
  intro hf
  have := hf plainEnv turnedEnv (after (clashOps ++ [.setAttribute 1 (c! "a") (c! "2")]))
    (.removeAttribute 1 (c! "a")) plainEnv_ok turnedEnv_ok ⟨rfl, rfl⟩ (reachable_after _)
  have h2 := congrArg (fun h => attributes h 1) this
  revert h2
  decide

/-- C97 (partial: a call that removes an attribute by name finds at most one): the state after
a call does not depend on the iteration order. -/
theorem C97_call_partial (e e' : Env) (h : Heap) (op : Op) (he : e.Ok) (he' : e'.Ok)
    (hs : SameButOrder e e') (hr : Reachable h) (hone : RemovesOne h op) :
    exec e' op h = exec e op h := by
  unfold exec
  split
  rotate_left
  · rfl
  rename_i ha
  have ha' : ∀ a ∈ op.args, h.live a = true := by simpa using ha
  unfold Op.apply
  cases op with
  | removeAttribute n s =>
    simp only
    unfold removeAttribute
    rw [((C43_lookup_partial e e' h n he he' hs.1 hr (ha' n (by simp [Op.args]))).1 s hone).1]
  | removeAttributeNs n uri s =>
    simp only
    unfold removeAttributeNs
    rw [((C43_lookup_partial e e' h n he he' hs.1 hr (ha' n (by simp [Op.args]))).2 uri s hone).1]
  | setAttribute n k v => simp only [setAttribute_order hs]
  | setAttributeNs n u q v =>
    simp only
    unfold setAttributeNs setAttributeNamed
    simp only [setAttributeNode_order hs]
  | setAttributeNode n a => simp only [setAttributeNode_order hs]
  | readXml evs =>
    simp only
    unfold readXml
    simp only [parseLoop_order hs]
  | _ => simp only [hs.2]

/-- C97 (partial, the same restriction): the same calls lead to the same state, whatever the
iteration orders at every call. -/
theorem C97_history_partial (ops : List (Env × Env × Op))
    (hok : ∀ x ∈ ops, x.1.Ok ∧ x.2.1.Ok ∧ SameButOrder x.1 x.2.1)
    (hone : Obeys RemovesOne (Parallel ops).1 Heap.empty) :
    run (Parallel ops).2 Heap.empty = run (Parallel ops).1 Heap.empty := by
  have key : ∀ (ops : List (Env × Env × Op)) (h : Heap), Reachable h →
      (∀ x ∈ ops, x.1.Ok ∧ x.2.1.Ok ∧ SameButOrder x.1 x.2.1) →
      Obeys RemovesOne (Parallel ops).1 h →
      run (Parallel ops).2 h = run (Parallel ops).1 h := by
    intro ops
    induction ops with
    | nil => intro h _ _ _; rfl
    | cons x ops ih =>
      intro h hr hok hob
      obtain ⟨e, e', op⟩ := x
      obtain ⟨h1, h2, h3⟩ := hok (e, e', op) List.mem_cons_self
      obtain ⟨g1, g2⟩ := hob
      simp only at h1 h2 h3
      show run (Parallel ops).2 (exec e' op h) = run (Parallel ops).1 (exec e op h)
      rw [C97_call_partial e e' h op h1 h2 h3 hr g1]
      refine ih _ ?_ (fun y hy => hok y (List.mem_cons_of_mem _ hy)) g2
      exact Reachable.run (ops := [(e, op)]) hr (by simpa using h1)
  exact key ops _ ⟨[], by simp, rfl⟩ hok hone

example : (∀ x ∈ [(plainEnv, turnedEnv, mkDoc), (plainEnv, turnedEnv, .removeAttribute 1 (c! "a"))],
      x.1.Ok ∧ x.2.1.Ok ∧ SameButOrder x.1 x.2.1) ∧
    Obeys RemovesOne (Parallel [(plainEnv, turnedEnv, mkDoc),
      (plainEnv, turnedEnv, .removeAttribute 1 (c! "a"))]).1 Heap.empty := by
  refine ⟨?_, trivial, ?_, trivial⟩
  · intro x hx
    simp only [List.mem_cons, List.not_mem_nil, or_false] at hx
    rcases hx with rfl | rfl <;> exact ⟨plainEnv_ok, turnedEnv_ok, rfl, rfl⟩
  · rintro a b ⟨k, hk, _⟩ _
    have : attributes (exec plainEnv mkDoc Heap.empty) 1 = [] := by decide
    rw [this] at hk
    cases hk

end Props
end XmlDom
