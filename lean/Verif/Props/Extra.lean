import Verif.Props.Access
import Verif.Props.Simple
import Verif.Spec.Extra

/-!
# C98-C101: data, mappings, names from bytes, binary form of the options
-/

namespace XmlDom
namespace Props

open Spec

/-! ## C98 -/

/-- C98: `data` returns what `set_data` stored. -/
def C98_full : Prop :=
  ∀ (h : Heap) (n : NodeId) (s : Str), Reachable h → h.live n = true →
    charData (charSetData h n s).2 n = some s

/-- C98 does not hold: the data of a text is escaped when it is read. -/
theorem C98_full_false : ¬ C98_full := by
  intro hf
  have := hf (after [mkDoc, .createTextNode 0 []]) 2 (c! "<") (reachable_after _) (by decide)
  exact absurd this (by decide)

/-- C98 (partial: text without special characters, or neither text nor comment): the exact
condition under which `data` returns what was stored. What it returns always denotes the stored
data, and `node_value` returns it as it is. -/
theorem C98_data_partial (h : Heap) (n : NodeId) (s : Str) :
    (charSetData h n s).1 = .ok () ∧ nodeValue (charSetData h n s).2 n = some s ∧
    (charData (charSetData h n s).2 n = some s ↔
      (nodeType h n = .text ∨ nodeType h n = .comment) →
        '&' ∉ s ∧ '\'' ∉ s ∧ '>' ∉ s ∧ '<' ∉ s ∧ '"' ∉ s) ∧
    ((nodeType h n = .text ∨ nodeType h n = .comment) →
      ∃ r, charData (charSetData h n s).2 n = some r ∧ Decodes r s) := by
  obtain ⟨h', e1, e2, _, _, _, _, e3⟩ := C69_set h n s
  have e : charSetData h n s = (.ok (), h') := e1
  rw [e]
  refine ⟨rfl, e2, ?_, ?_⟩
  · rw [e3]
    by_cases ht : nodeType h n = .text ∨ nodeType h n = .comment
    · rw [if_pos ht, Option.some.injEq, C33_identity]
      exact ⟨fun hh _ => hh, fun hh => hh ht⟩
    · rw [if_neg ht]
      exact ⟨fun _ hh => absurd hh ht, fun _ => rfl⟩
  · intro ht
    exact ⟨escape s, by rw [e3, if_pos ht], (C33_decode s s).mpr rfl⟩

/-- Reading the data of a node and setting it. -/
def rewriteData (n : NodeId) (h : Heap) : Heap :=
  match charData h n with
  | some s => (charSetData h n s).2
  | none => h

/-- C98: reading the data of a text and setting it again is no identity: doing so `k` times
escapes the text `k` times. -/
theorem C98_copies (n : NodeId) (k : Nat) (h : Heap) (s : Str)
    (ht : nodeType h n = .text ∨ nodeType h n = .comment) (hv : nodeValue h n = some s) :
    nodeValue (times (rewriteData n) k h) n = some (times escape k s) := by
  induction k generalizing h s with
  | zero => exact hv
  | succ k ih =>
    have hd : charData h n = some (escape s) := by
      unfold charData
      rw [show (h.get n).value = some s from hv]
      exact if_pos ht
    obtain ⟨h', e1, e2, e4, _⟩ := C69_set h n (escape s)
    have hr : rewriteData n h = h' := by
      unfold rewriteData
      rw [hd]
      exact congrArg Prod.snd e1
    show nodeValue (times (rewriteData n) k (rewriteData n h)) n = some (times escape k (escape s))
    rw [hr]
    refine ih h' (escape s) ?_ e2
    unfold nodeType
    rw [e4]
    exact ht

/-- C98: no data after `unset_data`. -/
theorem C98_unset (h : Heap) (n : NodeId) :
    (charUnsetData h n).1 = .ok () ∧ charData (charUnsetData h n).2 n = none := by
  obtain ⟨h', e1, _, e3, _⟩ := C69_unset h n
  have e : charUnsetData h n = (.ok (), h') := e1
  rw [e]
  exact ⟨rfl, e3⟩

example : nodeType (after [mkDoc, .createTextNode 0 (c! "<")]) 2 = .text ∧
    nodeValue (times (rewriteData 2) 2 (after [mkDoc, .createTextNode 0 (c! "<")])) 2 =
      some (c! "&#38;#60;") := by decide

/-! ## C99 -/

/-- C99: `normalize_mappings` does not panic. -/
def C99_full : Prop :=
  ∀ (h : Heap) (n : NodeId) (k : PanicKind), Reachable h → h.live n = true →
    (normalizeMappings h n).1 ≠ .panic k

/-- C99 does not hold: it is not implemented. -/
theorem C99_full_false : ¬ C99_full := by
  intro hf
  exact hf (after [mkDoc]) 1 .explicit (reachable_after _) (by decide) (by decide)

/-- C99 (partial: the option is off): the call panics exactly when the option is on, and it
never changes anything. -/
theorem C99_normalize_partial (h : Heap) (n : NodeId) :
    ((∃ k, (normalizeMappings h n).1 = .panic k) ↔ NamespacesOn h n) ∧
    ((normalizeMappings h n).1 = .ok () ↔ ¬ NamespacesOn h n) ∧
    (normalizeMappings h n).2 = h := by
  rw [← addNamespaces_iff]
  unfold normalizeMappings
  cases addNamespaces h n <;> simp

example : NamespacesOn (after [mkDoc]) 1 ∧
    ¬ NamespacesOn (after [.createDocument none (some (c! "r")) none Options.new]) 1 :=
  ⟨addNamespaces_iff.mp (by decide), by rw [← addNamespaces_iff]; decide⟩

/-! ## C100 -/

/-- C100: bytes that are the encoding of a string give what the string gives. -/
theorem C100_encoded (s : Str) : Name.tryFromBytes s.utf8Encode = Name.fromStr s := by
  unfold Name.tryFromBytes
  rw [List.utf8Decode?_utf8Encode]

/-- C100: other bytes are refused. -/
theorem C100_invalid (b : ByteArray) (hb : ∀ s : Str, b ≠ s.utf8Encode) :
    Name.tryFromBytes b = .err .invalidCharacter := by
  unfold Name.tryFromBytes
  cases hd : b.utf8Decode? with
  | none => rfl
  | some a =>
    exact absurd (by
      have := ByteArray.utf8Encode_get_utf8Decode? (b := b) (h := by rw [hd]; rfl)
      rw [← this]) (hb _)

/-- C100: the bytes accepted are the encodings of qualified names with at most one colon and
valid parts. -/
theorem C100_accepts (b : ByteArray) (n : Name) :
    Name.tryFromBytes b = .ok n ↔ ∃ s : Str, b = s.utf8Encode ∧ Name.fromStr s = .ok n := by
  constructor
  · intro h1
    by_cases hb : ∃ s : Str, b = s.utf8Encode
    · obtain ⟨s, rfl⟩ := hb
      exact ⟨s, rfl, by rw [← C100_encoded]; exact h1⟩
    · rw [C100_invalid b (fun s hs => hb ⟨s, hs⟩)] at h1
      cases h1
  · rintro ⟨s, rfl, hs⟩
    rw [C100_encoded]; exact hs

/-- Both kinds of bytes exist. -/
example : Name.fromStr (c! "a") = .ok ⟨none, none, c! "a"⟩ ∧
    ∀ s : Str, ByteArray.mk #[0xFF] ≠ s.utf8Encode := by
  refine ⟨by decide, fun s hs => ?_⟩
  have := List.utf8Decode?_utf8Encode (l := s)
  have h2 : (ByteArray.mk #[0xFF]).utf8Decode? = none := by rfl
  rw [← hs, h2] at this
  cases this

/-! ## C101 -/

/-- C101: the binary form has eight digits that denote the value, behind `0b` in the alternate
form. -/
theorem C101_binary (o : Options) :
    (o.binary false).length = 8 ∧ (∀ c ∈ o.binary false, c = '0' ∨ c = '1') ∧
    binaryValue (o.binary false) = o.bits.toNat ∧ o.binary true = c! "0b" ++ o.binary false := by
  obtain ⟨b⟩ := o
  revert b
  decide

/-- C101: different options have different binary forms. -/
theorem C101_injective (a b : Options) (x : Bool) (hab : a.binary x = b.binary x) : a = b := by
  have key : a.binary false = b.binary false := by
    cases x with
    | false => exact hab
    | true =>
      rw [(C101_binary a).2.2.2, (C101_binary b).2.2.2] at hab
      exact List.append_cancel_left hab
  have h1 := (C101_binary a).2.2.1
  rw [key, (C101_binary b).2.2.1] at h1
  cases a; cases b
  simp only at h1
  rw [BitVec.eq_of_toNat_eq h1]

/-! ## Calls that pass on to others -/

/-- C71: a node supports what the implementation supports. -/
theorem C71_is_supported (h : Heap) (n : NodeId) (feature version : Str) :
    isSupported h n feature version = true ↔
      (feature = c! "Core" ∨ feature = c! "XML") ∧ (version = c! "1.0" ∨ version = c! "2.0") :=
  C71_has_feature feature version

end Props
end XmlDom
