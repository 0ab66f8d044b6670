/-!
# The generic binary heap (`pkg/utils/heap/heap.go`) and the priority queue (`pkg/utils/priority_queue/priority-queue.go`)

`none` is a panic (an index out of range in the methods of the container).  Indices are `Nat`: the int overflow mentioned at
heap.go:104 needs more than 2^62 elements.
-/

namespace Ndn.Util

/-- heap.go:31-35 and `sort.Interface`: the methods of the container -/
structure Iface (σ V : Type) where
  len : σ → Nat
  less : σ → Nat → Nat → Option Bool
  swap : σ → Nat → Nat → Option σ
  push : σ → V → σ
  pop : σ → Option (V × σ)

variable {σ V : Type}

/-- heap.go:89-98 `up`; for `j = 0` Go's `(j-1)/2` is `-1/2 = 0`, the same as here.  The first argument bounds the number of
iterations (the proofs show that it is never reached). -/
def upLoop (I : Iface σ V) : Nat → σ → Nat → Option σ
  | 0, _, _ => none
  | fuel + 1, s, j =>
    if (j - 1) / 2 = j then some s
    else
      match I.less s j ((j - 1) / 2) with
      | none => none
      | some false => some s
      | some true =>
        match I.swap s ((j - 1) / 2) j with
        | none => none
        | some s' => upLoop I fuel s' ((j - 1) / 2)

def up (I : Iface σ V) (s : σ) (j : Nat) : Option σ := upLoop I (j + 1) s j

/-- heap.go:107-110: whether the right child is chosen -/
def rightChild (I : Iface σ V) (s : σ) (j1 n : Nat) : Option Bool := if j1 + 1 < n then I.less s (j1 + 1) j1 else some false

/-- heap.go:100-118 `down`; the flag tells whether an element was moved; bounded as `upLoop` -/
def downLoop (I : Iface σ V) (n i0 : Nat) : Nat → σ → Nat → Option (σ × Bool)
  | 0, _, _ => none
  | fuel + 1, s, i =>
    if 2 * i + 1 ≥ n then some (s, decide (i > i0))
    else
      match rightChild I s (2 * i + 1) n with
      | none => none
      | some r =>
        match I.less s (if r then 2 * i + 2 else 2 * i + 1) i with
        | none => none
        | some false => some (s, decide (i > i0))
        | some true =>
          match I.swap s i (if r then 2 * i + 2 else 2 * i + 1) with
          | none => none
          | some s' => downLoop I n i0 fuel s' (if r then 2 * i + 2 else 2 * i + 1)

def down (I : Iface σ V) (n i0 : Nat) (s : σ) (i : Nat) : Option (σ × Bool) := downLoop I n i0 (n + 1) s i

/-- heap.go:44-46: the loop of `Init`, for `i = k-1, …, 0` -/
def initLoop (I : Iface σ V) (n : Nat) : Nat → σ → Option σ
  | 0, s => some s
  | k + 1, s =>
    match down I n k s k with
    | none => none
    | some (s', _) => initLoop I n k s'

/-- heap.go:41-47 `Init` -/
def init (I : Iface σ V) (s : σ) : Option σ := initLoop I (I.len s) (I.len s / 2) s

/-- heap.go:51-54 `Push` -/
def push (I : Iface σ V) (s : σ) (x : V) : Option σ := up I (I.push s x) (I.len (I.push s x) - 1)

/-- heap.go:59-64 `Pop`; on an empty heap `Swap(0, -1)` panics -/
def pop (I : Iface σ V) (s : σ) : Option (V × σ) :=
  if I.len s = 0 then none
  else
    match I.swap s 0 (I.len s - 1) with
    | none => none
    | some s1 =>
      match down I (I.len s - 1) 0 s1 0 with
      | none => none
      | some (s2, _) => I.pop s2

/-- heap.go:68-77 `Remove`; on an empty heap `Swap(i, -1)` panics -/
def remove (I : Iface σ V) (s : σ) (i : Nat) : Option (V × σ) :=
  if I.len s = 0 then none
  else if I.len s - 1 = i then I.pop s
  else
    match I.swap s i (I.len s - 1) with
    | none => none
    | some s1 =>
      match down I (I.len s - 1) i s1 i with
      | none => none
      | some (s2, true) => I.pop s2
      | some (s2, false) =>
        match up I s2 i with
        | none => none
        | some s3 => I.pop s3

/-- heap.go:83-87 `Fix` -/
def fix (I : Iface σ V) (s : σ) (i : Nat) : Option σ :=
  match down I (I.len s) i s i with
  | none => none
  | some (s', true) => some s'
  | some (s', false) => up I s' i

/-- the usual container, a slice with `Less` given by an order on the elements -/
def sliceIface (lt : V → V → Bool) : Iface (List V) V where
  len := List.length
  less l i j :=
    match l[i]?, l[j]? with
    | some a, some b => some (lt a b)
    | _, _ => none
  swap l i j :=
    match l[i]?, l[j]? with
    | some a, some b => some ((l.set i b).set j a)
    | _, _ => none
  push l x := l ++ [x]
  pop l := l.getLast?.map (fun x => (x, l.dropLast))

/-! ## The priority queue -/

/-- priority-queue.go:8-12 `item`; `id` stands for the identity of the pointer.  An item is reachable only through the queue (and,
inside `Push`, `Pop` and `Update`, through a local variable), so the queue holds the items themselves. -/
structure Item (α P : Type) where
  obj : α
  prio : P
  index : Int
  id : Nat
deriving DecidableEq, Repr

variable {α P : Type}

/-- priority-queue.go:21-49: the methods of `wrapper` -/
def pqIface (lt : P → P → Bool) : Iface (List (Item α P)) (Item α P) where
  len := List.length
  less q i j :=
    match q[i]?, q[j]? with
    | some a, some b => some (lt a.prio b.prio)
    | _, _ => none
  swap q i j :=
    match q[i]?, q[j]? with
    | some a, some b => some ((q.set i { b with index := i }).set j { a with index := j })
    | _, _ => none
  push q x := q ++ [{ x with index := q.length }]
  pop q := q.getLast?.map (fun x => ({ x with index := -1 }, q.dropLast))

/-- the queue, and how many items were created so far (to give each a new identity) -/
structure PQ (α P : Type) where
  q : List (Item α P)
  next : Nat

/-- priority-queue.go:95-97 `New` -/
def PQ.new : PQ α P := ⟨[], 0⟩

/-- reading `it.index` through the pointer -/
def indexOf (q : List (Item α P)) (id : Nat) : Option Int := (q.find? (fun x => x.id == id)).map (·.index)

/-- priority-queue.go:57-64 `Push`: returns the index of the new item -/
def PQ.push (lt : P → P → Bool) (s : PQ α P) (v : α) (p : P) : Option (Int × PQ α P) :=
  match Util.push (pqIface lt) s.q ⟨v, p, 0, s.next⟩ with
  | none => none
  | some q' => (indexOf q' s.next).map (fun i => (i, ⟨q', s.next + 1⟩))

/-- priority-queue.go:67-74 `Peek`, `PeekPriority` -/
def PQ.peek (s : PQ α P) : Option (α × P) := s.q[0]?.map (fun x => (x.obj, x.prio))

/-- priority-queue.go:77-79 `Pop` -/
def PQ.pop (lt : P → P → Bool) (s : PQ α P) : Option (α × PQ α P) :=
  (Util.pop (pqIface lt) s.q).map (fun r => (r.1.obj, ⟨r.2, s.next⟩))

/-- priority-queue.go:83-92 `Update` -/
def PQ.update (lt : P → P → Bool) (s : PQ α P) (index : Int) (v : α) (p : P) : Option (Int × PQ α P) :=
  if index < 0 ∨ index ≥ s.q.length then some (-1, s)
  else
    match s.q[index.toNat]? with
    | none => none
    | some it =>
      match fix (pqIface lt) (s.q.set index.toNat { it with obj := v, prio := p }) it.index.toNat with
      | none => none
      | some q' => (indexOf q' it.id).map (fun i => (i, ⟨q', s.next⟩))

end Ndn.Util
