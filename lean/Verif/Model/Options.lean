import Verif.Basic

/-!
# Model of `/repo/src/level2/ext/options.rs`
-/

namespace XmlDom

/-- `ProcessingOptions(u8)`, `/repo/src/level2/ext/options.rs` 49 (the one-byte newtype
and its derived `Default`). -/
structure Options where
  bits : BitVec 8
  deriving DecidableEq, Repr

namespace Options

/-- `ProcessingOptionFlags::AssumeIDs`, `/repo/src/level2/ext/options.rs` 58-62. -/
def flagAssumeIds : BitVec 8 := 0b00000001#8
/-- `ProcessingOptionFlags::ParseEntities`, `/repo/src/level2/ext/options.rs` 58-62. -/
def flagParseEntities : BitVec 8 := 0b00000010#8
/-- `ProcessingOptionFlags::AddNamespaces`, `/repo/src/level2/ext/options.rs` 58-62. -/
def flagAddNamespaces : BitVec 8 := 0b00000100#8

/-- `ProcessingOptions::new`, `/repo/src/level2/ext/options.rs` 122-180. -/
def new : Options := ⟨0#8⟩
/-- `has_none`, `/repo/src/level2/ext/options.rs` 122-180. -/
def hasNone (o : Options) : Bool := decide (o.bits = 0#8)
/-- `has_assume_ids`, `/repo/src/level2/ext/options.rs` 122-180. -/
def hasAssumeIds (o : Options) : Bool := decide (o.bits &&& flagAssumeIds ≠ 0#8)
/-- `has_parse_entities`, `/repo/src/level2/ext/options.rs` 122-180. -/
def hasParseEntities (o : Options) : Bool := decide (o.bits &&& flagParseEntities ≠ 0#8)
/-- `has_add_namespaces`, `/repo/src/level2/ext/options.rs` 122-180. -/
def hasAddNamespaces (o : Options) : Bool := decide (o.bits &&& flagAddNamespaces ≠ 0#8)
/-- `set_assume_ids`, `/repo/src/level2/ext/options.rs` 122-180. -/
def setAssumeIds (o : Options) : Options := ⟨o.bits ||| flagAssumeIds⟩
/-- `set_parse_entities`, `/repo/src/level2/ext/options.rs` 122-180. -/
def setParseEntities (o : Options) : Options := ⟨o.bits ||| flagParseEntities⟩
/-- `set_add_namespaces`, `/repo/src/level2/ext/options.rs` 122-180. -/
def setAddNamespaces (o : Options) : Options := ⟨o.bits ||| flagAddNamespaces⟩

/-- `BitAnd for ProcessingOptions`, `/repo/src/level2/ext/options.rs` 102-108. -/
def bitAnd (a b : Options) : Options := ⟨a.bits &&& b.bits⟩
/-- `BitOr for ProcessingOptions`, `/repo/src/level2/ext/options.rs` 112-118. -/
def bitOr (a b : Options) : Options := ⟨a.bits ||| b.bits⟩

/-- `slice::join(", ")` on the option names. -/
def joinComma : List Str → Str
  | [] => []
  | [s] => s
  | s :: t :: ss => s ++ c! ", " ++ joinComma (t :: ss)

/-- `Display for ProcessingOptions`, `/repo/src/level2/ext/options.rs` 68-86. -/
def display (o : Options) : Str :=
  c! "ProcessingOptions {" ++
    joinComma
      ((if o.hasAssumeIds then [c! "AssumeIDs"] else []) ++
        (if o.hasParseEntities then [c! "ParseEntities"] else []) ++
        (if o.hasAddNamespaces then [c! "AddNamespaces"] else [])) ++
    c! "}"

/-- `Binary for ProcessingOptions`, `/repo/src/level2/ext/options.rs` 90-98: the eight binary
digits, highest first, behind `0b` in the alternate form. -/
def binary (o : Options) (alternate : Bool) : Str :=
  (if alternate then c! "0b" else []) ++
    (List.range 8).map fun i => if o.bits.getLsbD (7 - i) then '1' else '0'

end Options
end XmlDom
