import Verif.Sync.Svs
import Verif.Codec.Schema
import Verif.Go.Slice

/-!
# Name hashes, number components and full names (`pkg/encoding/name_component.go`, `pkg/encoding/name_pattern.go`)

Here a name is a Go slice over an array that may be shared (`Go/Slice`), because `ToFullName` appends to the slice it is given.
-/

namespace Ndn

open Ndn.Sync (compHashed nameHash)

/-! ## Hashes -/

/-- name_component.go:545-552 `Component.Hash` -/
def compHash (H : Bytes → Nat) (c : Component) : Nat := H (compHashed c)

/-- the loop of name_pattern.go:121-124; `fed` is what has been written to the hash, which `Sum64` does not reset -/
def prefixHashLoop (H : Bytes → Nat) : Bytes → Name → List Nat
  | _, [] => []
  | fed, c :: cs => H (fed ++ compHashed c) :: prefixHashLoop H (fed ++ compHashed c) cs

/-- name_pattern.go:115-126 `Name.PrefixHash` -/
def prefixHash (H : Bytes → Nat) (n : Name) : List Nat := H [] :: prefixHashLoop H [] n

/-! ## Number components -/

/-- name_component.go:609-614 `NewNumberComponent` -/
def newNumberComponent (typ x : Nat) : Component := ⟨typ, natEnc x⟩

/-- name_component.go:536-542 `NumberVal`: `ret << 8 | v` on `uint64` -/
def Component.numberVal (c : Component) : Nat := c.val.foldl (fun ret v => ret * 256 % 2 ^ 64 + v.toNat) 0

/-- what the conventions put into a dictionary: `nil`, `[]byte` or `uint64` (name_component.go:44-45), or anything else -/
inductive MatchVal where
  | nil
  | bytes (b : Bytes)
  | num (x : Nat)
  | other
deriving DecidableEq

/-- `compValFmt.ToMatching`, name_component.go:61-63, 117-119, 151-157, 195-197; `none` stands for `compValFmtInvalid` -/
def toMatchVal (f : Option ValFmt) (val : Bytes) : MatchVal :=
  match f with
  | none => .nil
  | some .text => .bytes val
  | some .hex => .bytes val
  | some .dec => .num (val.foldl (fun x b => x * 256 % 2 ^ 64 + b.toNat) 0)

/-- `compValFmt.FromMatching`, name_component.go:65-67, 121-128, 159-167, 199-206 -/
def fromMatchVal (f : Option ValFmt) (m : MatchVal) : Res Bytes :=
  match f, m with
  | none, _ => .err .format
  | some .text, .bytes b => .ok b
  | some .hex, .bytes b => .ok b
  | some .dec, .num x => .ok (natEnc x)
  | some _, _ => .err .format

/-! ## Slices of components -/

/-- the arrays of components in memory, and a slice of type `Name` -/
abbrev NameMem := Go.Mem Component
abbrev NameSlice := Go.Slice

/-- name_pattern.go:290-304 `ToFullName`; `n[len(n)-1]` panics on an empty name; `sha` is SHA-256 of all that was written -/
def toFullName (sha : Bytes → Bytes) (grow : Nat) (m : NameMem) (s : NameSlice) (raw : Wire) : Res (NameMem × NameSlice) :=
  match (m.read s).getLast? with
  | none => .panic
  | some c => if c.typ = 1 then .ok (m, s) else .ok (m.append ⟨0, []⟩ grow s ⟨1, sha raw.flatten⟩)

/-- name_pattern.go:67-74 `Name.Clone` (the values are not shared either; here values are immutable) -/
def cloneName (m : NameMem) (s : NameSlice) : NameMem × NameSlice := m.make ⟨0, []⟩ (m.read s) (m.read s).length

/-- name_pattern.go:128-146 `NameFromStr` into memory: `make(Name, len(strs))` and all components assigned -/
def nameFromStrMem (m : NameMem) (str : Bytes) : Res (NameMem × NameSlice) :=
  match nameFromStr str with
  | .ok n => .ok (m.make ⟨0, []⟩ n n.length)
  | .err e => .err e
  | .panic => .panic

/-- codegen/fields_name.go:66-92 into memory: `make(enc.Name, l/2+1)`, cut to the components that were read -/
def parsedName (m : NameMem) (l : Nat) (r : BR) : Res (NameMem × NameSlice) :=
  match (Codec.readNameField l r).1 with
  | .ok n => .ok (m.make ⟨0, []⟩ n (l / 2 + 1))
  | .err e => .err e
  | .panic => .panic

end Ndn
