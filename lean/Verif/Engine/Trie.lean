import Verif.Enc.Name

/-!
# Model of `/repo/pkg/engine/basic/simple_trie.go`

A `NameTrie` is a heap of nodes: other code keeps pointers to nodes after they have been unlinked from the tree (the
timeout functions of the PIT do), so a node is a number and the heap maps numbers to records.
-/

namespace Ndn.Engine

/-- `NameTrie`, simple_trie.go:7-13.  `chd` is the map, as a list with distinct keys. -/
structure TNode (V : Type) where
  val : V
  key : Bytes
  par : Option Nat
  dep : Nat
  chd : List (Bytes × Nat)

/-- A heap of nodes; node 0 is the root (`NewNameTrie`, simple_trie.go:142-144), nodes `≥ size` do not exist. -/
structure Trie (V : Type) where
  node : Nat → TNode V
  size : Nat

variable {V : Type}

/-- `n.chd[c]` -/
def TNode.child (n : TNode V) (k : Bytes) : Option Nat := (n.chd.find? (fun e => e.1 == k)).map (·.2)

namespace Trie

/-- `NewNameTrie`, simple_trie.go:142-144; `v0` is the zero value of `V`. -/
def new (v0 : V) : Trie V := ⟨fun _ => ⟨v0, [], none, 0, []⟩, 1⟩

/-- change the record of one node -/
def upd (t : Trie V) (id : Nat) (f : TNode V → TNode V) : Trie V :=
  ⟨fun i => if i = id then f (t.node i) else t.node i, t.size⟩

/-- `SetValue`, simple_trie.go:21-23. -/
def setValue (t : Trie V) (id : Nat) (v : V) : Trie V := t.upd id (fun n => { n with val := v })

/-- `newTrieNode(c, n)` and `n.chd[c] = ch`, simple_trie.go:53-64, 72-76. -/
def addChild (t : Trie V) (v0 : V) (id : Nat) (k : Bytes) : Trie V :=
  ⟨fun i => if i = t.size then ⟨v0, k, some id, (t.node id).dep + 1, []⟩
    else if i = id then { t.node i with chd := (k, t.size) :: (t.node i).chd }
    else t.node i, t.size + 1⟩

/-- `ExactMatch`, simple_trie.go:26-36.  The list is `name[n.dep:]`, each component by its `String()`. -/
def exact (t : Trie V) : Nat → List Bytes → Option Nat
  | id, [] => some id
  | id, k :: ks => match (t.node id).child k with
    | some c => exact t c ks
    | none => none

/-- `PrefixMatch`, simple_trie.go:40-50. -/
def prefixMatch (t : Trie V) : Nat → List Bytes → Nat
  | id, [] => id
  | id, k :: ks => match (t.node id).child k with
    | some c => prefixMatch t c ks
    | none => id

/-- `MatchAlways`, simple_trie.go:67-78. -/
def matchAlways (v0 : V) : Trie V → Nat → List Bytes → Nat × Trie V
  | t, id, [] => (id, t)
  | t, id, k :: ks => match (t.node id).child k with
    | some c => matchAlways v0 t c ks
    | none => matchAlways v0 (t.addChild v0 id k) t.size ks

/-- `FirstSatisfyOrNew`, simple_trie.go:81-92. -/
def firstSatisfyOrNew (v0 : V) (pred : V → Bool) : Trie V → Nat → List Bytes → Nat × Trie V
  | t, id, [] => (id, t)
  | t, id, k :: ks =>
    if pred (t.node id).val then (id, t)
    else match (t.node id).child k with
      | some c => firstSatisfyOrNew v0 pred t c ks
      | none => firstSatisfyOrNew v0 pred (t.addChild v0 id k) t.size ks

/-- `HasChildren`, simple_trie.go:95-97. -/
def hasChildren (t : Trie V) (id : Nat) : Bool := !(t.node id).chd.isEmpty

/-- `DeleteIf`, simple_trie.go:115-129.  The recursion follows `par`; the number bounds the steps (a parent has a smaller
number than its children, see `Trie.WF`, so `id + 1` is enough). -/
def deleteLoop (pred : V → Bool) : Nat → Trie V → Nat → Trie V
  | 0, t, _ => t
  | fuel + 1, t, id =>
    if !pred (t.node id).val then t
    else match (t.node id).par with
      | none => t.upd id (fun n => { n with chd := [] })
      | some p =>
        let t1 := t.upd id (fun n => { n with chd := [] })
        let t2 := t1.upd p (fun n => { n with chd := n.chd.filter (fun e => !(e.1 == (t.node id).key)) })
        if (t2.node p).chd.isEmpty then deleteLoop pred fuel t2 p else t2

/-- `DeleteIf` -/
def deleteIf (pred : V → Bool) (t : Trie V) (id : Nat) : Trie V := deleteLoop pred (id + 1) t id

/-- `Delete`, simple_trie.go:100-112: the same code without the test. -/
def delete (t : Trie V) (id : Nat) : Trie V := deleteIf (fun _ => true) t id

/-- the pointers from a node to the root, `n, n.par, n.par.par, ...`; the number bounds the steps as above -/
def upwards (t : Trie V) : Nat → Nat → List Nat
  | 0, _ => []
  | fuel + 1, id => id :: match (t.node id).par with
    | none => []
    | some p => upwards t fuel p

/-- `for cur := n; cur != nil; cur = cur.Parent()` (simple_trie.go:137-139) -/
def ancestors (t : Trie V) (id : Nat) : List Nat := t.upwards (id + 1) id

end Trie

/-- the map keys of a name: `name[i].String()` -/
def keys (n : Name) : List Bytes := n.map Component.toStr

end Ndn.Engine
