import Verif.Enc.Name

/-!
# Model of the schema tree, `/repo/pkg/schema/base_node.go`, `tree.go` and `interface.go`

A node is given by its address: the indices of the children on the way from the root.  The tree is attached (`Attach` sets `engine` and
`dep` of all nodes; without it `Match` and `Apply` panic), and no node is added afterwards.
-/

namespace Ndn.Schema

/-- `Node`, base_node.go:20-41: the children with their `edge`.  `impl`, `desc` and `log` play no part in matching. -/
inductive STree where
  | node (chd : List (CompPat × STree))

def STree.chd : STree → List (CompPat × STree)
  | .node c => c

/-- the address of a node -/
abbrev Addr := List Nat

/-- `"params-sha256"` and `"sha256digest"`, name_component.go:31-32 -/
def paramsTag : Bytes := "params-sha256".toUTF8.data.toList
def digestTag : Bytes := "sha256digest".toUTF8.data.toList

/-- `TypeParametersSha256DigestComponent` and `TypeImplicitSha256DigestComponent`, name_component.go:17-18 -/
def typParams : Nat := 2
def typDigest : Nat := 1

/-- base_node.go:111-114 -/
def stripParams : Name → Matching → Name × Matching
  | [], m => ([], m)
  | c :: cs, m => if c.typ = typParams then (cs, (paramsTag, c.val) :: m) else (c :: cs, m)

/-- base_node.go:115-118 -/
def stripDigest : Name → Matching → Name × Matching
  | [], m => ([], m)
  | c :: cs, m => if c.typ = typDigest then (cs, (digestTag, c.val) :: m) else (c :: cs, m)

/-- the loop of base_node.go:122-127: the first child whose edge matches -/
def pick (c : Component) : List (CompPat × STree) → Option (Nat × CompPat × STree)
  | [] => none
  | (e, t) :: rest => if e.isMatch c then some (0, e, t) else (pick c rest).map fun p => (p.1 + 1, p.2)

theorem stripParams_le (n : Name) (m : Matching) : (stripParams n m).1.length ≤ n.length := by
  cases n with
  | nil => exact Nat.le_refl _
  | cons c cs => rw [stripParams]; split <;> simp

theorem stripDigest_le (n : Name) (m : Matching) : (stripDigest n m).1.length ≤ n.length := by
  cases n with
  | nil => exact Nat.le_refl _
  | cons c cs => rw [stripDigest]; split <;> simp

/-- `Node.ContinueMatch`, base_node.go:114-133 -/
def continueMatch (t : STree) (name : Name) (m : Matching) : Option (Addr × Matching) :=
  let s1 := stripParams name m
  let s2 := stripDigest s1.1 s1.2
  match h : s2.1 with
  | [] => some ([], s2.2)
  | c :: cs =>
    match pick c t.chd with
    | none => none
    | some (i, e, t') => (continueMatch t' cs (e.match' c s2.2)).map fun p => (i :: p.1, p.2)
termination_by name.length
decreasing_by
  have h1 : s2.1.length ≤ s1.1.length := stripDigest_le _ _
  have h2 : s1.1.length ≤ name.length := stripParams_le _ _
  rw [h] at h1
  simp only [List.length_cons] at h1
  omega

/-- `Node.Match` at the root and `Tree.Match`, base_node.go:88-111 -/
def matchName (pre : Name) (t : STree) (name : Name) : Option (Addr × Matching) :=
  if pre.length > 0 then
    if pre.isPrefix name then continueMatch t (name.drop pre.length) [] else none
  else continueMatch t name []

/-- the edges on the way to a node, and the node (the chain of `par`) -/
def STree.at' : STree → Addr → Option (List CompPat × STree)
  | t, [] => some ([], t)
  | .node chd, i :: is =>
    match chd[i]? with
    | none => none
    | some (e, t') => (t'.at' is).map fun p => (e :: p.1, p.2)

/-- `Node.Apply` and `Node.ConstructName`, base_node.go:147-193.  The outer `none`: there is no such node; the inner one: `Apply` returns nil.
(The components are made from the node upwards, here from the root down; there is an error in one case if there is one in the other.
A digest whose value is nil is left out: values are never nil here.) -/
def apply (pre : Name) (t : STree) (a : Addr) (m : Matching) : Option (Option Name) :=
  (t.at' a).map fun p =>
    match NamePattern.fromMatching p.1 m with
    | .ok n => some (pre ++ n ++ ((m.get paramsTag).map (Component.mk typParams)).toList ++ ((m.get digestTag).map (Component.mk typDigest)).toList)
    | _ => none

/-- `MatchedNode`, interface.go:338-343, as far as matching is concerned -/
structure Matched where
  addr : Addr
  name : Name
  matching : Matching

/-- `MatchedNode.Refine`, interface.go:364-389; `mNode.Name[len(mNode.Name)-1]` panics on the empty name, but that is a prefix of every name. -/
def refine (t : STree) (n : Matched) (name : Name) : Option Matched :=
  if n.name.isPrefix name then
    match t.at' n.addr with
    | none => none
    | some (_, t') => (continueMatch t' (name.drop n.name.length) n.matching).map fun p => ⟨n.addr ++ p.1, name, p.2⟩
  else
    match n.name.getLast? with
    | none => none
    | some c => if c.typ ≠ typDigest ∨ !(Name.equal n.name.dropLast name) then none else some { n with name }

end Ndn.Schema
