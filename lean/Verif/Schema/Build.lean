import Verif.Schema.Tree

/-!
# Model of building a schema tree, `/repo/pkg/schema/base_node.go`, `tree.go` and `representation.go`

A node holds its description (`desc`, with the `impl` made from it) and its children.  What `desc.Create` makes is a whole subtree, because some
descriptions put children below the node they make (rdr.go:47-49, 240-246, 423-429; svs/sync.go:78-88).  Attributes and listeners belong to the
`impl` of one node and play no part here.  Edges are compared with `Equal`; a pointer to a component behaves like the component.
-/

namespace Ndn.Schema

/-- `Node`, base_node.go:20-41 -/
inductive DTree (δ : Type) where
  | node (desc : δ) (chd : List (CompPat × DTree δ))

namespace DTree
variable {δ : Type}

def desc : DTree δ → δ
  | .node d _ => d

def chd : DTree δ → List (CompPat × DTree δ)
  | .node _ c => c

/-- the loop of base_node.go:278-282 and 297-301: the index of the first child with this edge, and the child -/
def find (e : CompPat) : List (CompPat × DTree δ) → Option (Nat × DTree δ)
  | [] => none
  | (e', t) :: rest => if e'.equal e then some (0, t) else (find e rest).map fun p => (p.1 + 1, p.2)

/-- `Node.At`, base_node.go:273-284 -/
def at' : DTree δ → NamePattern → Option (DTree δ)
  | t, [] => some t
  | t, e :: es =>
    match find e t.chd with
    | none => none
    | some (_, c) => at' c es

/-- `n.chd[i] = …` of an existing child (in the code the child itself is changed) -/
def setChild (t : DTree δ) (i : Nat) (c : DTree δ) : DTree δ :=
  match t with
  | .node d chd => .node d (chd.modify i fun p => (p.1, c))

/-- `Node.PutNode`, base_node.go:292-320: the changed node and the address of the new one; `none`: "schema node already exists".
`base` is `BaseNodeDesc`, `sub` is what `desc.Create` makes. -/
def put (base : δ) : DTree δ → NamePattern → DTree δ → Option (DTree δ × Addr)
  | _, [], _ => none
  | t, e :: es, sub =>
    match find e t.chd with
    | some (i, c) => (put base c es sub).map fun p => (t.setChild i p.1, i :: p.2)
    | none =>
      match es with
      | [] => some (.node t.desc (t.chd ++ [(e, sub)]), [t.chd.length])
      | e' :: es' => (put base (.node base []) (e' :: es') sub).map fun p => (.node t.desc (t.chd ++ [(e, p.1)]), t.chd.length :: p.2)

/-- `Tree.PutNode`, tree.go:96-117; `none` is a tree without a root -/
def putTree (base : δ) (t : Option (DTree δ)) (path : NamePattern) (sub : DTree δ) : Option (DTree δ × Addr) :=
  match path with
  | [] => match t with
    | none => some (sub, [])
    | some _ => none
  | e :: es => put base (t.getD (.node base [])) (e :: es) sub

/-- The first loop of `Instantiate`, representation.go:108-139, over the nodes in the order in which `range` gives the map -/
def build (base : δ) : Option (DTree δ) → List (NamePattern × DTree δ) → Option (Option (DTree δ))
  | t, [] => some t
  | t, (p, sub) :: rest =>
    match putTree base t p sub with
    | none => none
    | some (t', _) => build base (some t') rest

/-- without the descriptions: the tree that `Match` and `Apply` walk through -/
def toS : DTree δ → STree
  | .node _ chd => .node (chd.attach.map fun p => (p.1.1, toS p.1.2))
termination_by t => t
decreasing_by
  obtain ⟨⟨e, t⟩, h⟩ := p
  have := List.sizeOf_lt_of_mem h
  simp only [Prod.mk.sizeOf_spec, node.sizeOf_spec] at *
  omega

/-- the path and the node at an address -/
def get : DTree δ → Addr → Option (NamePattern × DTree δ)
  | t, [] => some ([], t)
  | t, i :: is =>
    match t.chd[i]? with
    | none => none
    | some (e, c) => (get c is).map fun p => (e :: p.1, p.2)

end DTree
end Ndn.Schema
