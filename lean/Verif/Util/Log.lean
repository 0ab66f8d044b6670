import Verif.Go.Slice

/-!
# The logger

`pkg/log`: levels (levels.go), entries with fields (entry.go), the filter and the handlers (logger.go, text.go, pkg.go).

An entry holds a slice of maps.  The slices share arrays where `append` lets them, and the maps are shared by reference: both are modelled.
The order in which `range` visits a map, and the spare room that `append` leaves, are choices of the run.  `V` is the type of the values of fields.

Simplified: time stamps, `%v` and the writing itself are left out, `Fatal` ends the program after it has logged (nothing follows it), and of the
two handlers only what they write of the fields is modelled.
-/

namespace Ndn.Log

/-- the five levels of levels.go:15-22 and every other `int` -/
abbrev Level := Int

/-- levels.go:24-30: an index out of the range panics -/
def levelName (l : Int) : Option String :=
  if l = 0 then some "debug" else if l = 1 then some "info" else if l = 2 then some "warn" else if l = 3 then some "error" else if l = 4 then some "fatal" else none

/-- levels.go:32-39 -/
def levelStrings : List (String × Level) := [("debug", 0), ("info", 1), ("warn", 2), ("warning", 2), ("error", 3), ("fatal", 4)]

/-- `unicode.ToLower`: ASCII letters; U+0130 and U+212A are the two other characters whose lower case is in ASCII; `u` says it for all others -/
def lowerChar (u : Char → Char) (c : Char) : Char :=
  if c.toNat < 128 then c.toLower else if c.toNat = 0x130 then 'i' else if c.toNat = 0x212A then 'k' else u c

/-- `ParseLevel`, levels.go:64-71; `none`: `ErrInvalidLevel` -/
def parseLevel (u : Char → Char) (s : String) : Option Level :=
  levelStrings.lookup (String.ofList (s.toList.map (lowerChar u)))

/-- `bytes.Trim(b, "\"")` -/
def trimQuotes (s : List Char) : List Char := ((s.dropWhile (· = '"')).reverse.dropWhile (· = '"')).reverse

/-- `MarshalJSON`, levels.go:48-50; `none`: panic -/
def marshal (l : Int) : Option (List Char) := (levelName l).map (fun s => '"' :: s.toList ++ ['"'])

/-- `UnmarshalJSON`, levels.go:53-61 -/
def unmarshal (u : Char → Char) (b : List Char) : Option Level := parseLevel u (String.ofList (trimQuotes b))

variable {V : Type}

/-- a map; keys are distinct by construction -/
abbrev Fields (V : Type) := List (String × V)

/-- `f[k] = v` -/
def Fields.put (f : Fields V) (k : String) (v : V) : Fields V :=
  if f.any (·.1 = k) then f.map (fun p => if p.1 = k then (k, v) else p) else f ++ [(k, v)]

/-- `append(s, cs...)`; nothing happens when there is nothing to append -/
def appendAll {α : Type} (zero : α) (grow : Nat) (m : Go.Mem α) (s : Go.Slice) (cs : List α) : Go.Mem α × Go.Slice :=
  if cs = [] then (m, s)
  else if s.len + cs.length ≤ s.cap then
    (m.modify s.arr (fun a => a.take (s.off + s.len) ++ cs ++ a.drop (s.off + s.len + cs.length)), { s with len := s.len + cs.length })
  else (m ++ [m.read s ++ cs ++ List.replicate grow zero], ⟨m.length, 0, s.len + cs.length, s.len + cs.length + grow⟩)

/-- an `Entry` before it is finalised, entry.go:19-27: its `Fields` is nil; `fields` is a slice of maps -/
structure Entry where
  fields : Go.Slice
  message : String

/-- what the handler gets, entry.go:176-184 -/
structure Event (V : Type) where
  level : Level
  message : String
  fields : Fields V

/-- the memory of a program that logs: arrays of references to maps (`none`: the nil map), maps, entries by number, the level of the logger, what the handler got -/
structure State (V : Type) where
  arrays : Go.Mem (Option Nat)
  maps : List (Fields V)
  entries : List Entry
  level : Level
  out : List (Event V)

/-- `NewEntry`, entry.go:35-39: a nil slice.  It is modelled as an empty slice of an array of its own. -/
def newEntry (s : State V) : State V × Entry :=
  let (m, f) := Go.Mem.make none s.arrays [] 0
  ({ s with arrays := m }, ⟨f, ""⟩)

/-- the entry that a call is made on: `none` is the logger itself, logger.go:66-142 -/
def getEntry (s : State V) : Option Nat → Option (State V × Entry)
  | none => some (newEntry s)
  | some i => (s.entries[i]?).map (fun e => (s, e))

/-- `Entry.WithFields`, entry.go:42-50; `g`, `g2`: what the two calls of `append` leave as spare room -/
def withFields (g g2 : Nat) (s : State V) (e : Entry) (m : Option Nat) : State V × Entry :=
  let (a0, f0) := Go.Mem.make none s.arrays [] 0
  let (a1, f1) := appendAll none g a0 f0 (a0.read e.fields)
  let (a2, f2) := Go.Mem.append none g2 a1 f1 m
  ({ s with arrays := a2 }, ⟨f2, ""⟩)

/-- a new map in memory and its address -/
def newMap (s : State V) (f : Fields V) : State V × Nat := ({ s with maps := s.maps ++ [f] }, s.maps.length)

/-- `Entry.mergedFields`, entry.go:168-178; `ord`: in which order `range` visits the entries of a map -/
def mergedFields (ord : Fields V → Fields V) (s : State V) (e : Entry) : Fields V :=
  (s.arrays.read e.fields).foldl (fun f r =>
    (ord ((r.bind (s.maps[·]?)).getD [])).foldl (fun f p => f.put p.1 p.2) f) []

/-- `Logger.log`, logger.go:147-155, with `finalize`, entry.go:181-189 -/
def logAt (ord : Fields V → Fields V) (s : State V) (l : Level) (e : Entry) (msg : String) : State V :=
  if l < s.level then s else { s with out := s.out ++ [⟨l, msg, mergedFields ord s e⟩] }

/-- the calls a program makes -/
inductive Op (V : Type) where
  /-- the program makes a map with these entries -/
  | newMap (kvs : List (String × V))
  /-- the program changes a map that it holds -/
  | put (m : Nat) (k : String) (v : V)
  /-- `WithFields`, entry.go:42-50, logger.go:66-68 -/
  | withFields (e : Option Nat) (m : Nat)
  /-- `WithField`, entry.go:53-55, logger.go:74-76; `WithDuration`, entry.go:59-61; `WithError` of an error without more, entry.go:67-72 -/
  | withField (e : Option Nat) (k : String) (v : V)
  /-- `Debug`, `Info`, `Warn`, `Error`, entry.go:99-117, logger.go:90-107 -/
  | log (e : Option Nat) (l : Level) (msg : String)
  /-- `Trace`, entry.go:147-153 -/
  | trace (e : Option Nat) (msg : String)
  /-- `Stop` without an error (`none`) or with one, entry.go:157-163; the duration is `d` -/
  | stop (e : Nat) (d : V) (err : Option V)
  /-- `SetLevel`, pkg.go:63-67 -/
  | setLevel (l : Level)

/-- one call; a call on an entry or a map that does not exist does nothing.  `g`: the spare room that each `append` leaves -/
def step (ord : Fields V → Fields V) (g : Nat → Nat) (s : State V) : Op V → State V
  | .newMap kvs => (newMap s (kvs.foldl (fun f p => Fields.put f p.1 p.2) [])).1
  | .put m k v => { s with maps := s.maps.modify m (fun f => f.put k v) }
  | .withFields e m =>
    match getEntry s e with
    | none => s
    | some (s, e) =>
      if m < s.maps.length then
        let (s, e') := withFields (g 0) (g 1) s e (some m)
        { s with entries := s.entries ++ [e'] }
      else s
  | .withField e k v =>
    match getEntry s e with
    | none => s
    | some (s, e) =>
      let (s, m) := newMap s [(k, v)]
      let (s, e') := withFields (g 0) (g 1) s e (some m)
      { s with entries := s.entries ++ [e'] }
  | .log e l msg =>
    match getEntry s e with
    | none => s
    | some (s, e) => logAt ord s l e msg
  | .trace e msg =>
    match getEntry s e with
    | none => s
    | some (s, e) =>
      let s := logAt ord s 1 e msg
      let (s, e') := withFields (g 0) (g 1) s e none
      { s with entries := s.entries ++ [{ e' with message := msg }] }
  | .stop i d err =>
    match s.entries[i]? with
    | none => s
    | some e =>
      let (s, m) := newMap s [("duration", d)]
      let (s, e1) := withFields (g 0) (g 1) s e (some m)
      match err with
      | none => logAt ord s 1 e1 e.message
      | some x =>
        let (s, m2) := newMap s [("error", x)]
        let (s, e2) := withFields (g 2) (g 3) s e1 (some m2)
        logAt ord s 3 e2 e.message
  | .setLevel l => { s with level := l }

/-- a run, for any choice of the spare room at each call -/
def run (ord : Fields V → Fields V) : State V → List (Op V × (Nat → Nat)) → State V
  | s, [] => s
  | s, (o, g) :: ops => run ord (step ord g s o) ops

/-- the logger at the start: level `info`, pkg.go:49-52 -/
def init : State V := ⟨[], [], [], 1, []⟩

/-- the fields as the handlers write them: text.go:62, 70-72 with `Names`, logger.go:31-38; pkg.go:28-34, 39-41 -/
def written [Inhabited V] (f : Fields V) : List (String × V) :=
  ((f.map (·.1)).mergeSort (fun a b => decide (a ≤ b))).map (fun k => (k, (f.lookup k).getD default))

end Ndn.Log
