import Verif.Lemmas.Text
import Verif.Lemmas.Witness
import Verif.Model.Element
import Verif.Props.Name
import Verif.Model.Document

/-!
# C32-C36: escaping, end of lines, attribute value normalization
-/

namespace XmlDom
namespace Props

open Spec

/-! ## C32 -/

/-- Text that carries no markup: no `<`, `>`, quote or apostrophe, and every `&` starts a
decimal character reference. -/
def NoMarkup (t : Str) : Prop :=
  '<' ∉ t ∧ '>' ∉ t ∧ '"' ∉ t ∧ '\'' ∉ t ∧
    ∀ a b, t = a ++ '&' :: b → ∃ ds c r, b = '#' :: (ds ++ ';' :: r) ∧ DecRef ds c

/-- C32: escaping leaves no markup, for every string. -/
theorem C32_escape (s : Str) : NoMarkup (escape s) :=
  ⟨escape_no_markup s _ (by simp), escape_no_markup s _ (by simp), escape_no_markup s _ (by simp),
    escape_no_markup s _ (by simp), decodes_amp (decodes_escape s)⟩

/-- C32: `data()` of a Text or Comment node carries no markup. -/
theorem C32_data (h : Heap) (n : NodeId) (s : Str)
    (ht : nodeType h n = .text ∨ nodeType h n = .comment) (hd : charData h n = some s) :
    NoMarkup s := by
  unfold nodeType at ht
  unfold charData at hd
  split at hd
  · cases hd
  · rw [if_pos ht] at hd
    cases hd
    exact C32_escape _

/-- C32: `value()` of an attribute carries no markup. -/
theorem C32_attribute_value (u : Uni) (h : Heap) (a : NodeId) (s : Str)
    (hv : attrValue u h a = .ok (some s)) : NoMarkup s := by
  unfold attrValue at hv
  split at hv
  · cases hv
  · cases hn : normalizeAttrValue u (resolveEntity h a) false 1 (attrRaw h a) with
    | ok r => rw [hn] at hv; cases hv; exact C32_escape _
    | err e => rw [hn] at hv; cases hv
    | panic k => rw [hn] at hv; cases hv
    | diverge => rw [hn] at hv; cases hv

example : escape (c! "a<b&c") = c! "a&#60;b&#38;c" := by decide

/-! ## C33 -/

/-- C33: decoding the references of the escaped text gives the text back, and nothing
else: the reading is unique. -/
theorem C33_decode (s t : Str) : Decodes (escape s) t ↔ t = s :=
  ⟨fun h => decodes_functional h (decodes_escape s), fun h => h ▸ decodes_escape s⟩

/-- C33: escaping is injective. -/
theorem C33_injective (s t : Str) (h : escape s = escape t) : s = t :=
  decodes_functional (decodes_escape s) (h ▸ decodes_escape t)

/-- C33: escaping distributes over concatenation. -/
theorem C33_append (a b : Str) : escape (a ++ b) = escape a ++ escape b := escape_append a b

/-- C33: escaping is the identity exactly on text without the five special characters. -/
theorem C33_identity (s : Str) :
    escape s = s ↔ '&' ∉ s ∧ '\'' ∉ s ∧ '>' ∉ s ∧ '<' ∉ s ∧ '"' ∉ s := by
  constructor
  · intro h
    refine ⟨?_, ?_, ?_, ?_, ?_⟩
    · intro hm
      obtain ⟨a, b, rfl⟩ := List.append_of_mem hm
      have h1 := h
      rw [escape_append] at h1
      have hlen : (escape a ++ escape ('&' :: b)).length = (a ++ '&' :: b).length := by rw [h1]
      have hle : ∀ t : Str, t.length ≤ (escape t).length := by
        intro t
        induction t with
        | nil => simp
        | cons c cs ih =>
          rcases escape_cons c cs with ⟨ds, _, _, h2⟩ | ⟨_, h2⟩
          · rw [h2]; simp; omega
          · rw [h2]; simp; omega
      rcases escape_cons '&' b with ⟨ds, _, _, h2⟩ | ⟨h2, _⟩
      · rw [h2] at hlen
        have h3 := hle a
        have h4 := hle b
        simp at hlen
        omega
      · exact absurd h2 (by decide)
    · rw [← h]; exact escape_no_markup s _ (by simp)
    · rw [← h]; exact escape_no_markup s _ (by simp)
    · rw [← h]; exact escape_no_markup s _ (by simp)
    · rw [← h]; exact escape_no_markup s _ (by simp)
  · rintro ⟨h1, h2, h3, h4, h5⟩
    induction s with
    | nil => rfl
    | cons c cs ih =>
      simp only [List.mem_cons, not_or] at h1 h2 h3 h4 h5
      rcases escape_cons c cs with ⟨ds, _, h6, _⟩ | ⟨_, h6⟩
      · unfold isSpecial at h6
        rw [decide_eq_true_iff] at h6
        rcases h6 with h | h | h | h | h
        · exact absurd h.symm h1.1
        · exact absurd h.symm h2.1
        · exact absurd h.symm h3.1
        · exact absurd h.symm h4.1
        · exact absurd h.symm h5.1
      · rw [h6, ih h1.2 h2.2 h3.2 h4.2 h5.2]

example : Decodes (c! "a&#60;b") (c! "a<b") := by
  have := decodes_escape (c! "a<b")
  exact this

/-! ## C34 -/

/-- C34: the result is the one described by XML 1.1 section 2.11, and it is unique. -/
theorem C34_spec (s t : Str) : EolNorm s t ↔ normalizeEol s = t :=
  ⟨eolNorm_eq, fun h => h ▸ eolNorm_normalizeEol s⟩

/-- C34: only line feeds remain. -/
theorem C34_clean (s : Str) :
    '\r' ∉ normalizeEol s ∧ '\u0085' ∉ normalizeEol s ∧ '\u2028' ∉ normalizeEol s :=
  eolNorm_clean (eolNorm_normalizeEol s)

/-- C34: normalizing twice changes nothing. -/
theorem C34_idempotent (s : Str) : normalizeEol (normalizeEol s) = normalizeEol s := by
  obtain ⟨h1, h2, h3⟩ := C34_clean s
  exact normalizeEol_clean h1 h2 h3

/-- C34: the result is never longer, in characters and in bytes. -/
theorem C34_no_growth (s : Str) :
    (normalizeEol s).length ≤ s.length ∧ byteLen (normalizeEol s) ≤ byteLen s := by
  refine ⟨?_, byteLen_normalizeEol_le s⟩
  have h := eolNorm_normalizeEol s
  generalize normalizeEol s = t at h
  induction h with
  | nil => simp
  | _ => simp_all <;> omega

/-- The characters that take part in line breaks. -/
def isBreakChar (c : Char) : Bool :=
  decide (c = '\r' ∨ c = '\n' ∨ c = '\u0085' ∨ c = '\u2028')

/-- C34: all other characters are kept, in order. -/
theorem C34_keeps_text (s : Str) :
    (normalizeEol s).filter (fun c => !isBreakChar c) = s.filter (fun c => !isBreakChar c) := by
  have h := eolNorm_normalizeEol s
  generalize normalizeEol s = t at h
  have e1 : isBreakChar '\n' = true := by decide
  have e2 : isBreakChar '\r' = true := by decide
  have e3 : isBreakChar '\u0085' = true := by decide
  have e4 : isBreakChar '\u2028' = true := by decide
  induction h with
  | nil => rfl
  | other c s t _ _ _ _ ih => simp only [List.filter_cons, ih]
  | _ => simp_all

example : normalizeEol (c! "a\r\nb\rc\n") = c! "a\nb\nc\n" := by decide

/-! ## C35 -/

/-- C35: for a value without entity references the result is the one of section 3.3.3,
with the further step for types that are not CDATA. -/
def C35_full : Prop :=
  ∀ (u : Uni) (resolve : Str → Outcome (Option Str)) (isCdata : Bool) (depth : Nat) (v m r : Str),
    u.Ascii → EolNorm v m → AttrNorm m r →
    normalizeAttrValue u resolve isCdata (depth + 1) v =
      .ok (if isCdata then r else collapse true r)

/-- C35 does not hold: inner runs of spaces are not collapsed. -/
theorem C35_full_false : ¬ C35_full := by
  intro h
  have h1 : EolNorm (c! "a  b") (c! "a  b") := (C34_spec _ _).mpr (by decide)
  have h2 : AttrNorm (c! "a  b") (c! "a  b") :=
    .other _ _ _ (by decide) (.space _ _ _ (by decide) (.space _ _ _ (by decide)
      (.other _ _ _ (by decide) .nil)))
  have := h asciiUni (fun _ => .ok none) false 0 _ _ _ asciiUni_ascii h1 h2
  exact absurd this (by decide)

/-- C35 also fails on `%name;`, which section 3.3.3 treats as plain text: the code reads
it as an entity reference and panics. -/
theorem C35_full_false_percent :
    EolNorm (c! "%a;") (c! "%a;") ∧ AttrNorm (c! "%a;") (c! "%a;") ∧
      (normalizeAttrValue asciiUni (fun _ => .ok none) true 1 (c! "%a;")).Panics := by
  refine ⟨(C34_spec _ _).mpr (by decide), ?_, by decide⟩
  exact .other _ _ _ (by decide) (.other _ _ _ (by decide) (.other _ _ _ (by decide) .nil))

/-- C35 (partial: no percent sign in front of a letter or underscore; for types that are
not CDATA the spaces at the ends are dropped but inner runs are kept). -/
theorem C35_normalize_partial (u : Uni) (resolve : Str → Outcome (Option Str)) (isCdata : Bool)
    (depth : Nat) (v m r : Str) (hu : u.Ascii) (he : EolNorm v m) (h : AttrNorm m r)
    (hp : PercentOk u m) :
    normalizeAttrValue u resolve isCdata (depth + 1) v =
      .ok (if isCdata then r else trimSpaces r) :=
  normalizeAttrValue_of_attrNorm hu resolve isCdata depth he h hp

/-- What the trimming step leaves: the text between leading and trailing spaces. -/
theorem C35_trim (s : Str) :
    ∃ a b, s = List.replicate a ' ' ++ trimSpaces s ++ List.replicate b ' ' ∧
      (trimSpaces s).head? ≠ some ' ' ∧ (trimSpaces s).getLast? ≠ some ' ' := by
  have key : ∀ t : Str, ∃ n, t = List.replicate n ' ' ++ t.dropWhile (fun c => decide (c = ' ')) ∧
      (t.dropWhile (fun c => decide (c = ' '))).head? ≠ some ' ' := by
    intro t
    induction t with
    | nil => exact ⟨0, by simp, by simp⟩
    | cons c cs ih =>
      obtain ⟨n, h1, h2⟩ := ih
      by_cases hc : c = ' '
      · subst hc
        refine ⟨n + 1, ?_, ?_⟩
        · simp only [List.replicate_succ, List.cons_append, List.dropWhile_cons, decide_true,
            if_true]
          rw [← h1]
        · simpa [List.dropWhile_cons] using h2
      · refine ⟨0, by simp [hc], by simp [hc]⟩
  obtain ⟨a, h1, h2⟩ := key s
  obtain ⟨b, h3, h4⟩ := key (s.dropWhile fun c => decide (c = ' ')).reverse
  refine ⟨a, b, ?_, ?_, ?_⟩
  · unfold trimSpaces
    have h5 := congrArg List.reverse h3
    rw [List.reverse_reverse, List.reverse_append, List.reverse_replicate] at h5
    rw [List.append_assoc, ← h5]
    exact h1
  · unfold trimSpaces
    generalize hd : (s.dropWhile fun c => decide (c = ' ')) = d at *
    have h5 := congrArg List.reverse h3
    rw [List.reverse_reverse, List.reverse_append, List.reverse_replicate] at h5
    generalize (d.reverse.dropWhile fun c => decide (c = ' ')).reverse = e at *
    cases e with
    | nil => simp
    | cons x e =>
      rw [h5] at h2
      simpa using h2
  · unfold trimSpaces
    rw [List.getLast?_reverse]
    exact h4

example : AttrNorm (c! "a&#65;&#x62;\t") (c! "aAb ") :=
  .other _ _ _ (by decide) (.dec (c! "65") 'A' _ _ (by refine ⟨?_, ?_, ?_⟩ <;> decide)
    (.hex (c! "62") 'b' _ _ (by refine ⟨?_, ?_, ?_⟩ <;> decide)
      (.space _ _ _ (by decide) .nil)))

/-! ## C36 -/

/-- C36: an attribute that was set can be read. -/
def C36_full : Prop :=
  ∀ (e : Env) (h h' : Heap) (el : NodeId) (name value : Str), e.Ok →
    setAttribute e h el name value = (.ok (), h') → (getAttribute e h' el name).Returns

/-- C36 does not hold: an accepted value with an entity reference panics when read. -/
theorem C36_full_false : ¬ C36_full := by
  intro h
  have h1 : (setAttribute plainEnv oneElementHeap 1 (c! "a") (c! "&amp;")).1 = .ok () := by decide
  have h2 := h plainEnv oneElementHeap
    (setAttribute plainEnv oneElementHeap 1 (c! "a") (c! "&amp;")).2 1 (c! "a") (c! "&amp;")
    plainEnv_ok (Prod.ext h1 rfl)
  exact absurd h2 (by decide)

/-- C36 (partial: the raw value has no `&` and no `%`): reading returns, and the result
is the value with line ends and white space turned into spaces, trimmed and escaped. -/
theorem C36_read_partial (u : Uni) (h : Heap) (a : NodeId) (hu : u.Ascii)
    (h1 : '&' ∉ attrRaw h a) (h2 : '%' ∉ attrRaw h a) :
    (attrValue u h a).Returns ∧
      (childNodes h a ≠ [] → ∃ r, AttrNorm (normalizeEol (attrRaw h a)) r ∧
        attrValue u h a = .ok (some (escape (trimSpaces r)))) := by
  have hsub : ∀ c, c ∈ normalizeEol (attrRaw h a) → c ∈ attrRaw h a ∨ c = '\n' := by
    have hn := eolNorm_normalizeEol (attrRaw h a)
    generalize normalizeEol (attrRaw h a) = t at hn
    generalize attrRaw h a = s at hn
    intro c
    induction hn with
    | nil => simp
    | other d s t _ _ _ _ ih =>
      intro hc
      rcases List.mem_cons.mp hc with rfl | hc
      · simp
      · rcases ih hc with h | h
        · left; simp [h]
        · right; exact h
    | _ =>
      intro hc
      rename_i ih
      first
        | (rcases List.mem_cons.mp hc with rfl | hc
           · right; rfl
           · rcases ih hc with h | h
             · left; simp [h]
             · right; exact h)
  have hex : ∀ s : Str, '&' ∉ s → ∃ r, AttrNorm s r := by
    intro s
    induction s with
    | nil => intro _; exact ⟨[], .nil⟩
    | cons c cs ih =>
      intro hm
      simp only [List.mem_cons, not_or] at hm
      obtain ⟨r, hr⟩ := ih hm.2
      by_cases hc : c = ' ' ∨ c = '\t' ∨ c = '\n' ∨ c = '\r'
      · exact ⟨_, .space c _ _ hc hr⟩
      · simp only [not_or] at hc
        exact ⟨_, .other c _ _ ⟨fun h => hm.1 h.symm, hc.1, hc.2.1, hc.2.2.1, hc.2.2.2⟩ hr⟩
  have hamp : '&' ∉ normalizeEol (attrRaw h a) := fun hm => (hsub _ hm).elim h1 (by decide)
  have hpct : '%' ∉ normalizeEol (attrRaw h a) := fun hm => (hsub _ hm).elim h2 (by decide)
  obtain ⟨r, hr⟩ := hex _ hamp
  have hval := C35_normalize_partial u (resolveEntity h a) false 0 _ _ r hu
    (eolNorm_normalizeEol (attrRaw h a)) hr (PercentOk.of_notMem hpct)
  unfold attrValue
  by_cases hc : (h.get a).children = []
  · rw [if_pos hc]
    refine ⟨by simp, fun h' => absurd hc h'⟩
  · rw [if_neg hc, hval]
    refine ⟨by simp, fun _ => ⟨r, hr, by simp⟩⟩

/-- The resolver never finds a replacement for what the scanner takes for an entity
reference, because it looks it up with the delimiters still on. -/
theorem resolveEntity_ne_some (h : Heap) (n : NodeId) (x : Char) (m : Str)
    (hx : x = '&' ∨ x = '%') :
    resolveEntity h n (x :: m) = .ok none ∨ (resolveEntity h n (x :: m)).Panics := by
  have hns : ¬ Spec.NameStartChar x := by
    rcases hx with rfl | rfl <;> (unfold Spec.NameStartChar; decide)
  have hname : (Name.fromStr (x :: m)).IsErr ∨ (Name.fromStr (x :: m)).Panics := by
    cases hf : Name.fromStr (x :: m) with
    | ok nm =>
      exfalso
      rcases fromStr_ok hf with ⟨_, ⟨⟨c, cs, he, hc, _⟩, _⟩, _⟩ |
        ⟨p, l, he, _, ⟨⟨c, cs, hp, hc, _⟩, _⟩, _⟩
      · cases he; exact hns hc
      · subst hp; rw [List.cons_append] at he; cases he; exact hns hc
    | err _ => left; simp
    | panic _ => right; simp
    | diverge =>
      exfalso
      rcases fromStr_cases (x :: m) with ⟨_, h'⟩ | ⟨_, _, _, _, _, _, h'⟩ | ⟨_, _, h'⟩ |
        ⟨_, _, _, _, _, h'⟩
      · rw [h'] at hf; cases hf
      · rw [h'] at hf; cases hf
      · rcases h' with ⟨_, _, h'⟩ | ⟨_, h'⟩ | ⟨_, _, h'⟩ <;> rw [h'] at hf <;> cases hf
      · rcases h' with ⟨_, h'⟩ | ⟨_, h'⟩ | ⟨_, _, _, h'⟩ | ⟨_, _, h'⟩
        · rw [h'] at hf; cases hf
        · rw [h'] at hf; cases hf
        · rw [h'] at hf; cases hf
        · rcases h' with ⟨_, h'⟩ | ⟨_, _, h'⟩ | ⟨_, h'⟩ | ⟨_, _, _, h'⟩ <;>
            rw [h'] at hf <;> cases hf
  have hdt : (∃ dt, resolverDocType h n = .ok dt) ∨ (resolverDocType h n).Panics := by
    unfold resolverDocType
    split
    · left; exact ⟨_, rfl⟩
    · left; exact ⟨_, rfl⟩
    · split
      · left; exact ⟨_, rfl⟩
      · split
        · left; exact ⟨_, rfl⟩
        · right; simp
  unfold resolveEntity
  rcases hdt with ⟨dt, hdt⟩ | hdt
  · rw [hdt]
    cases dt with
    | none => left; rfl
    | some t =>
      simp only [Outcome.bind_ok]
      split
      · cases hf : Name.fromStr (x :: m) with
        | ok nm => rw [hf] at hname; simp at hname
        | err _ => right; simp
        | panic _ => right; simp
        | diverge => rw [hf] at hname; simp at hname
      · right; simp
  · cases hr : resolverDocType h n with
    | ok _ => rw [hr] at hdt; simp at hdt
    | err _ => rw [hr] at hdt; simp at hdt
    | panic _ => right; simp
    | diverge => rw [hr] at hdt; simp at hdt

/-- C36: what goes wrong: a value whose first reference is an entity reference panics
when read. -/
theorem C36_entity_reference_panics (u : Uni) (h : Heap) (a : NodeId) (hu : u.Ascii)
    (pre name post : Str) (x b : Char)
    (hraw : normalizeEol (attrRaw h a) = pre ++ x :: b :: (name ++ ';' :: post))
    (hpre : '&' ∉ pre ∧ '%' ∉ pre) (hx : x = '&' ∨ x = '%')
    (hb : u.letter b = true ∨ b = '_') (hname : ∀ c ∈ name, entityNameClass u c = true) :
    (attrValue u h a).Panics := by
  unfold attrValue
  split
  · rename_i hc
    have hnil : attrRaw h a = [] := by unfold attrRaw; rw [hc]; rfl
    rw [hnil] at hraw
    have := congrArg List.length hraw
    simp [normalizeEol] at this
  · unfold normalizeAttrValue
    rw [hraw]
    simp only [List.append_eq_nil_iff, reduceCtorEq, and_false, if_false]
    have hsemi : entityNameClass u ';' = false := by
      unfold entityNameClass
      rw [hu.letter ';' (by decide), hu.digit ';' (by decide)]
      decide
    obtain ⟨t1, t2⟩ := takeWhile_stop (t := post) hname hsemi
    have hme : matchEntity u (x :: b :: (name ++ ';' :: post)) =
        some (x :: b :: (name ++ [';']), post) := by
      unfold matchEntity
      simp only [t1, t2]
      rw [if_pos ⟨hx, hb⟩]
      simp
    have hscan : ∀ (pre : Str), '&' ∉ pre → '%' ∉ pre → ∀ n, pre.length < n →
        (scanAttr u (fun m => (resolveEntity h a m).bind fun r =>
          match r with
          | none => .panic .explicit
          | some replacement => normalizeAttrValue u (resolveEntity h a) false 0 replacement)
          n (pre ++ x :: b :: (name ++ ';' :: post))).Panics := by
      intro pre
      induction pre with
      | nil =>
        intro _ _ n hn
        cases n with
        | zero => omega
        | succ n =>
          rw [List.nil_append]
          unfold scanAttr
          rw [hme]
          simp only
          rcases resolveEntity_ne_some h a x (b :: (name ++ [';'])) hx with hr | hr
          · rw [hr]; simp
          · cases hr' : resolveEntity h a (x :: b :: (name ++ [';'])) <;> rw [hr'] at hr <;>
              simp at hr ⊢
      | cons c cs ih =>
        intro h1 h2 n hn
        simp only [List.mem_cons, not_or] at h1 h2
        cases n with
        | zero => omega
        | succ n =>
          rw [List.cons_append]
          unfold scanAttr
          have hc1 : c ≠ '&' := fun h => h1.1 h.symm
          have hc2 : c ≠ '%' := fun h => h2.1 h.symm
          rw [matchEntity_none (Or.inl (by simp [hc1, hc2])), matchDec_none (Or.inl (by simp [hc1])),
            matchHex_none (Or.inl (by simp [hc1]))]
          simp only
          have := ih h1.2 h2.2 n (by simp at hn; omega)
          generalize scanAttr u _ n _ = o at this
          cases o with
          | ok y => simp at this
          | err _ => simp at this
          | panic _ => split <;> simp
          | diverge => simp at this
    have := hscan pre hpre.1 hpre.2 ((pre ++ x :: b :: (name ++ ';' :: post)).length + 1)
      (by simp; omega)
    generalize scanAttr u _ _ _ = o at this
    cases o with
    | ok y => simp at this
    | err _ => simp at this
    | panic _ => simp
    | diverge => simp at this

/-- The hypotheses are met by an attribute that was set to `x=&lt;`. -/
example : attrRaw (setAttribute plainEnv oneElementHeap 1 (c! "a") (c! "x=&lt;")).2 3 =
    c! "x=" ++ '&' :: 'l' :: (c! "t" ++ ';' :: []) := by decide

/-- Character references to values that are not characters panic as well. -/
example : (getAttribute plainEnv
    (setAttribute plainEnv oneElementHeap 1 (c! "a") (c! "&#55296;")).2 1 (c! "a")).Panics := by
  decide

end Props
end XmlDom
