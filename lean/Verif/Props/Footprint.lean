import Verif.Lemmas.Footprint
import Verif.Lemmas.Witness
import Verif.Props.Namespaces

/-!
# What a call leaves alone: C73
-/

namespace XmlDom
namespace Props

open Spec

theorem only_leftBehind {F D : NodeId → Prop} {α : Type} {h : Heap} {r : Result α}
    (o : Only F D h r.2) : Only F D h (leftBehind h r) := by
  obtain ⟨x, h1⟩ := r
  cases x with
  | diverge => exact .refl _
  | ok _ => exact o
  | err _ => exact o
  | panic _ => exact o

/-- Every call except a drop changes only nodes of its footprint. -/
theorem apply_only {F D : NodeId → Prop} {e : Env} (he : e.Ok) {h : Heap} (hr : Reachable h)
    {op : Op} (ha : ∀ n ∈ op.args, h.live n = true) (hd : ∀ n, op ≠ .drop n)
    (hF : ∀ m, MayChange h op m → F m) (hnew : ∀ m, h.next ≤ m → F m)
    (hD : ∀ m, MayRecord h op m → D m) (hDnew : ∀ m, h.next ≤ m → D m) :
    Only F D h (op.apply e h) := by
  have w := hr.wf
  have hn := hnew _ (Nat.le_refl _)
  have removed : ∀ {n : NodeId} {o : Outcome (Option NodeId)}, h.live n = true →
      (∀ a, o = .ok (some a) → ∃ attrs nss k, (h.get n).ext = .element attrs nss ∧ (k, a) ∈ attrs) →
      ∀ a, o = .ok (some a) → (h.get a).parent = none := by
    intro n o hl hm a hoa
    obtain ⟨attrs, nss, k, h1, h2⟩ := hm a hoa
    have hal := w.strong n hl a (mem_strongRefs.mpr (Or.inr (Or.inl ⟨attrs, nss, k, h1, h2⟩)))
    have ht := ((hr.invariant.attrKeys n attrs nss hl h1).2.2 k a h2).1
    cases hp : (h.get a).parent with
    | none => rfl
    | some p => exact absurd ht (attr_noParent hr hal hp)
  cases op with
  | createDocument u q dt o => exact only_leftBehind (only_createDocument hnew)
  | createDocumentType q p s =>
    exact only_leftBehind (only_createNamed (fun _ => rfl) (fun _ => rfl))
  | createElement d t => exact only_leftBehind (only_createNamed (fun _ => rfl) (fun _ => rfl))
  | createElementNs d u q =>
    exact only_leftBehind (only_createNamed (fun _ => rfl) (fun _ => rfl))
  | createAttribute d n => exact only_leftBehind (only_createAttr hn)
  | createAttributeWith d n v => exact only_leftBehind (only_createAttr hn)
  | createAttributeNs d u q => exact only_leftBehind (only_createAttr hn)
  | createCdataSection d s =>
    exact only_leftBehind (r := XmlDom.createCdataSection h d s) (.alloc rfl (by simp [Node.newCdata]))
  | createDocumentFragment d =>
    exact only_leftBehind (r := XmlDom.createDocumentFragment h d) (.alloc rfl (by simp [Node.newDocumentFragment]))
  | createEntityReference d n =>
    exact only_leftBehind (only_createNamed (fun _ => rfl) (fun _ => rfl))
  | createComment d s =>
    exact only_leftBehind (r := XmlDom.createComment h d s) (.alloc rfl (by simp [Node.newComment]))
  | createProcessingInstruction d t s => exact only_leftBehind only_createProcessingInstruction
  | createTextNode d s =>
    exact only_leftBehind (r := XmlDom.createTextNode h d s) (.alloc rfl (by simp [Node.newText]))
  | createNotation d n p s =>
    exact only_leftBehind (only_createNamed (fun _ => rfl) (fun _ => rfl))
  | createEntity d n p s =>
    exact only_leftBehind (only_createNamed (fun _ => rfl) (fun _ => rfl))
  | createInternalEntity d n v =>
    exact only_leftBehind (only_createNamed (fun _ => rfl) (fun _ => rfl))
  | insertBefore s n r =>
    exact only_leftBehind (only_insertBefore (hF _ (Or.inl rfl)) (hF _ (Or.inr (Or.inl rfl)))
      fun p hp => hF p (Or.inr (Or.inr hp)))
  | appendChild s n =>
    exact only_leftBehind (only_appendChild (hF _ (Or.inl rfl)) (hF _ (Or.inr (Or.inl rfl)))
      fun p hp => hF p (Or.inr (Or.inr hp)))
  | replaceChild s n o =>
    exact only_leftBehind (only_replaceChild (hF _ (Or.inl rfl)) (hF _ (Or.inr (Or.inl rfl)))
      (hF _ (Or.inr (Or.inr (Or.inl rfl)))) fun p hp => hF p (Or.inr (Or.inr (Or.inr hp))))
  | removeChild s o =>
    exact only_leftBehind (only_removeChild (hF _ (Or.inl rfl)) (hF _ (Or.inr rfl)))
  | cloneNode n deep fuel =>
    exact only_leftBehind (only_cloneNode hnew deep fuel h n (Nat.le_refl _)).1
  | normalize n =>
    exact only_leftBehind (only_normalizeLoop (hF _ (Or.inl rfl)) _ _
      (fun c hc => hF c (Or.inr (Or.inl hc)))
      fun c hc p hp x hx => hF x (Or.inr (Or.inr ⟨c, p, hc, hp, hx⟩)))
  | setNodeValue n v =>
    exact only_leftBehind (r := XmlDom.setNodeValue h n v) (.keep (hF n rfl) rfl rfl)
  | unsetNodeValue n =>
    exact only_leftBehind (r := XmlDom.unsetNodeValue h n) (.keep (hF n rfl) rfl rfl)
  | appendData n s =>
    exact only_leftBehind (r := nodeAppendData h n s) (.keep (hF n rfl) rfl rfl)
  | insertData n o s => exact only_leftBehind (only_storeValue (hF n rfl))
  | deleteData n o c => exact only_leftBehind (only_storeValue (hF n rfl))
  | replaceData n o c s => exact only_leftBehind (only_storeValue (hF n rfl))
  | split n o =>
    exact only_leftBehind (only_splitText (w.fresh n (ha n (by simp [Op.args])))
      (hF n (Or.inl rfl)) (fun p hp => hF p (Or.inr hp)) hn)
  | setValue a v => exact only_leftBehind (only_setValue (hF a rfl) hn)
  | unsetValue a => exact only_leftBehind (only_unsetValue (hF a rfl))
  | setAttribute n k v => exact only_leftBehind (only_setAttributeNamed (hF n rfl) hnew hD)
  | setAttributeNs n u q v => exact only_leftBehind (only_setAttributeNamed (hF n rfl) hnew hD)
  | setAttributeNode n a =>
    exact only_leftBehind (only_setAttributeNode (hF n (Or.inl rfl)) (hF a (Or.inr rfl)) hD)
  | removeAttribute n k =>
    refine only_leftBehind (only_removeFound (hF n rfl) (removed (ha n (by simp [Op.args])) ?_))
    exact fun a hoa => getAttributeNode_mem he hoa
  | removeAttributeNs n u l =>
    refine only_leftBehind (only_removeFound (hF n rfl) (removed (ha n (by simp [Op.args])) ?_))
    exact fun a hoa => getAttributeNodeNs_mem he hoa
  | removeAttributeNode n a =>
    exact only_leftBehind (only_removeAttributeNode (hF n (Or.inl rfl))
      (Or.inl (hF a (Or.inr rfl))))
  | setXmlDeclaration d x =>
    refine only_leftBehind ?_
    unfold setXmlDeclaration
    cases hx : (h.get d).ext with
    | document x => exact .keep (hF d rfl) rfl rfl
    | _ => exact .refl _
  | readXml evs => exact only_leftBehind (only_readXml hnew hDnew evs)
  | drop n => exact absurd rfl (hd n)

/-- C73: a call leaves every existing node outside its footprint exactly as it was, except
that setting an attribute may record an id in the owner document. -/
theorem C73_footprint (e : Env) (he : e.Ok) (h : Heap) (hr : Reachable h) (op : Op) (m : NodeId)
    (hm : m < h.next) (hc : ¬ MayChange h op m) :
    (exec e op h).get m = h.get m ∨
      (MayRecord h op m ∧ IdsOnly (h.get m) ((exec e op h).get m)) := by
  unfold exec
  split
  · rename_i ha
    by_cases hd : ∃ n, op = .drop n
    · obtain ⟨n, rfl⟩ := hd
      refine Or.inl ?_
      show (dropNode h n).get m = _
      unfold dropNode
      split <;> rfl
    · have o := apply_only (F := fun m => MayChange h op m ∨ h.next ≤ m)
        (D := fun m => MayRecord h op m ∨ h.next ≤ m) he hr (op := op)
        (fun n hn => List.all_eq_true.mp ha n hn) (fun n hn => hd ⟨n, hn⟩)
        (fun _ h1 => Or.inl h1) (fun _ h1 => Or.inr h1) (fun _ h1 => Or.inl h1)
        (fun _ h1 => Or.inr h1)
      rcases o.get m hm (by
        rintro (h1 | h1)
        · exact hc h1
        · exact absurd hm (Nat.not_lt_of_le h1)) with h1 | ⟨h1 | h1, h2⟩
      · exact Or.inl h1
      · exact Or.inr ⟨h1, h2⟩
      · exact absurd hm (Nat.not_lt_of_le h1)
  · exact Or.inl rfl

/-- C73: no call but the release of its last handle ends a node. -/
theorem C73_alive (e : Env) (he : e.Ok) (h : Heap) (hr : Reachable h) (op : Op) (m : NodeId)
    (hm : m < h.next) (hd : op ≠ .drop m) : (exec e op h).live m = h.live m := by
  unfold exec
  split
  · rename_i ha
    by_cases hdr : ∃ n, op = .drop n
    · obtain ⟨n, rfl⟩ := hdr
      show (dropNode h n).live m = _
      unfold dropNode
      split
      · rfl
      · show (if m = n then false else h.live m) = h.live m
        rw [if_neg (fun h1 => hd (by rw [h1]))]
    · exact (apply_only (F := fun m => MayChange h op m ∨ h.next ≤ m) (D := fun _ => True) he hr
        (op := op) (fun n hn => List.all_eq_true.mp ha n hn) (fun n hn => hdr ⟨n, hn⟩)
        (fun _ h1 => Or.inl h1) (fun _ h1 => Or.inr h1) (fun _ _ => trivial)
        (fun _ _ => trivial)).live m hm
  · rfl

/-- The hypotheses can be met: appending an element to the root leaves the document alone. -/
example : Reachable (after [mkDoc, .createElement 0 (c! "a")]) ∧
    0 < (after [mkDoc, .createElement 0 (c! "a")]).next ∧
    ¬ MayChange (after [mkDoc, .createElement 0 (c! "a")]) (.appendChild 1 2) 0 :=
  ⟨reachable_after _, by decide, by
    unfold MayChange; decide⟩

end Props
end XmlDom
