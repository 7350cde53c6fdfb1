import Verif.Model.Syntax

/-!
# Model of `/repo/src/level2/ext/decl.rs`
-/

namespace XmlDom

/-- `XmlVersion`, `/repo/src/level2/ext/decl.rs` 21-26. -/
inductive XmlVersion
  | v10
  | v11
  deriving DecidableEq, Repr

/-- `Display for XmlVersion`, `/repo/src/level2/ext/decl.rs` 81-92. -/
def XmlVersion.display : XmlVersion → Str
  | .v10 => Syn.version10
  | .v11 => Syn.version11

/-- `FromStr for XmlVersion`, `/repo/src/level2/ext/decl.rs` 96-108. -/
def XmlVersion.fromStr (s : Str) : Option XmlVersion :=
  if s = Syn.version10 then some .v10
  else if s = Syn.version11 then some .v11
  else none

/-- `XmlDecl`, `/repo/src/level2/ext/decl.rs` 47-51. -/
structure XmlDecl where
  version : XmlVersion
  encoding : Option Str
  standalone : Option Bool
  deriving DecidableEq, Repr

/-- `is_encoding_start_char`, `/repo/src/level2/ext/decl.rs` 59-61. -/
def isEncodingStartChar (c : Char) : Bool := isAsciiUpper c || isAsciiLower c

/-- `is_encoding_rest_char`, `/repo/src/level2/ext/decl.rs` 63-65. -/
def isEncodingRestChar (c : Char) : Bool :=
  isAsciiUpper c || isAsciiLower c || isAsciiDigit c || decide (c = '.') || decide (c = '_')

/-- `is_encoding_sub_string`, `/repo/src/level2/ext/decl.rs` 67-69. -/
def isEncodingSubString (s : Str) : Bool := s.all isEncodingRestChar

/-- `is_encoding`, `/repo/src/level2/ext/decl.rs` 71-75. The byte slice `s[1..]` is a
panic if the first character is wider than one byte. -/
def isEncoding (s : Str) : Outcome Bool :=
  match s with
  | [] => .ok false
  | c :: _ =>
    if isEncodingStartChar c then
      match splitAtByte 1 s with
      | none => .panic .slice
      | some (_, rest) => .ok ((splitOn '-' rest).all isEncodingSubString)
    else .ok false

namespace XmlDecl

/-- `Default for XmlDecl`, `/repo/src/level2/ext/decl.rs` 113-121. -/
def default : XmlDecl := { version := .v10, encoding := none, standalone := none }

/-- `XmlDecl::new`, `/repo/src/level2/ext/decl.rs` 157-168. -/
def new (version : XmlVersion) (encoding : Option Str) (standalone : Option Bool) :
    Outcome XmlDecl :=
  match encoding with
  | none => .ok { version, encoding, standalone }
  | some e =>
    (isEncoding e).bind fun b =>
      if b then .ok { version, encoding, standalone } else .panic .explicit

/-- `Display for XmlDecl`, `/repo/src/level2/ext/decl.rs` 125-149. -/
def display (d : XmlDecl) : Str :=
  Syn.declStart ++ c! " " ++ Syn.declVersion ++ c! "=\"" ++ d.version.display ++ c! "\"" ++
    (match d.encoding with
      | none => []
      | some e => c! " " ++ Syn.declEncoding ++ c! "=\"" ++ e ++ c! "\"") ++
    (match d.standalone with
      | none => []
      | some b => c! " " ++ Syn.declStandalone ++ c! "=\"" ++
          (if b then Syn.standaloneYes else Syn.standaloneNo) ++ c! "\"") ++
    Syn.declEnd

end XmlDecl
end XmlDom
