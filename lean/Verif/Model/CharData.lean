import Verif.Model.Text

/-!
# Model of the `CharacterData` operations of `/repo/src/level2/trait_impls.rs`

The functions here work on the node value alone (`i_value : Option<String>`); they are
applied to heap nodes in `Verif/Model/Node.lean`. Offsets are `usize`, modelled as `Nat`
below `2^64` with checked or wrapping addition according to the build profile.
-/

namespace XmlDom

/-- `usize::MAX + 1` on a 64-bit target. -/
def usizeLimit : Nat := 18446744073709551616

/-- `a + b` on `usize`. With overflow checks (debug profile) overflow is a panic,
without (release profile) it wraps. -/
def addUsize (overflowChecks : Bool) (a b : Nat) : Outcome Nat :=
  if a + b < usizeLimit then .ok (a + b)
  else if overflowChecks then .panic .overflow
  else .ok ((a + b) % usizeLimit)

/-- `s[a..b]` seen as the three pieces before, inside and after the range; `none` when
the indices are not ordered or not on character boundaries (a panic in Rust). -/
def sliceRange (s : Str) (a b : Nat) : Option (Str × Str × Str) :=
  if a ≤ b then
    match splitAtByte a s with
    | none => none
    | some (p, r) =>
      match splitAtByte (b - a) r with
      | none => none
      | some (m, q) => some (p, m, q)
  else none

/-- `CharacterData::substring_data`, `/repo/src/level2/trait_impls.rs` 144-165. -/
def substringData (ov : Bool) (v : Option Str) (offset count : Nat) : Outcome Str :=
  (addUsize ov offset count).bind fun sum =>
    if sum = offset then .ok []
    else match v with
      | none => .err .indexSize
      | some data =>
        if byteLen data ≤ offset then .err .indexSize
        else if byteLen data ≤ sum then
          match splitAtByte offset data with
          | none => .panic .slice
          | some (_, tail) => .ok tail
        else
          match sliceRange data offset sum with
          | none => .panic .slice
          | some (_, m, _) => .ok m

/-- `CharacterData::append_data`, `/repo/src/level2/trait_impls.rs` 167-177: the new
value. -/
def appendData (v : Option Str) (newData : Str) : Option Str :=
  if newData = [] then v
  else match v with
    | none => some newData
    | some old => some (old ++ newData)

/-- `CharacterData::replace_data`, `/repo/src/level2/trait_impls.rs` 194-222: the new
value. -/
def replaceData (ov : Bool) (v : Option Str) (offset count : Nat) (data : Str) :
    Outcome (Option Str) :=
  match v with
  | none =>
    (addUsize ov offset count).bind fun sum =>
      if sum ≠ 0 then .err .indexSize else .ok (some data)
  | some old =>
    if byteLen old ≤ offset then .err .indexSize
    else (addUsize ov offset count).bind fun sum =>
      if byteLen old ≤ sum then
        match splitAtByte offset old with
        | none => .panic .slice
        | some (p, _) => .ok (some (p ++ data))
      else
        match sliceRange old offset sum with
        | none => .panic .slice
        | some (p, _, q) => .ok (some (p ++ data ++ q))

/-- `CharacterData::insert_data`, `/repo/src/level2/trait_impls.rs` 179-184. -/
def insertData (ov : Bool) (v : Option Str) (offset : Nat) (data : Str) :
    Outcome (Option Str) :=
  if data = [] then .ok v else replaceData ov v offset 0 data

/-- `CharacterData::delete_data`, `/repo/src/level2/trait_impls.rs` 186-192. -/
def deleteData (ov : Bool) (v : Option Str) (offset count : Nat) : Outcome (Option Str) :=
  (addUsize ov offset count).bind fun sum =>
    if sum = offset then .ok v else replaceData ov v offset count []

end XmlDom
