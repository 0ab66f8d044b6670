import Verif.Codec.FrontProps
import Verif.Codec.Emit

/-!
# Comparing what the generator writes with the files in the repository

`go! r#"…"#` holds a piece of Go as one number, its bytes being the digits to the base 256, the first byte being the lowest; that is all the macro does.
`goLines` gets the lines back, without spaces, tabs and blank lines: `gofmt`, which the generator's output goes through, changes only those.
-/

namespace Ndn.Codec.Gen

open Lean in
/-- the number of characters of a literal, and the number that they make -/
macro "go!" s:str : term => do
  let v := s.getString
  let n := v.toList.foldr (fun c a => a * 256 + c.toNat) 0
  `(($(quote v.length), $(quote n)))

/-- the lowest digits to the base 256 -/
def unpack : Nat → Nat → List Nat
  | 0, _ => []
  | k + 1, n => n % 256 :: unpack k (n / 256)

/-- the lines of a text, without spaces and tabs -/
def linesOf : List Nat → List (List Nat)
  | [] => []
  | c :: l =>
    if c = 10 then [] :: linesOf l
    else if c = 32 ∨ c = 9 then linesOf l
    else
      match linesOf l with
      | [] => [[c]]
      | a :: r => (c :: a) :: r

/-- the lines of a literal that are not blank, without spaces and tabs -/
def goLines (g : Nat × Nat) : List (List Nat) := (linesOf (unpack g.1 g.2)).filter fun l => !l.isEmpty

/-- a line that the generator writes, without spaces and tabs -/
def tight (l : Txt) : List Nat := (l.map Char.toNat).filter fun c => !(c == 32 || c == 9)

example : goLines (go! "a b\n\n\tc\n") = [t!"a b", t!"  c"].map tight := by decide

/-- the encoder of the model called `n`, as the generator writes it, is the Go `g` up to space -/
def Same (ms : List TModel) (n : Txt) (g : Nat × Nat) : Prop := ∃ m, (ms.find? fun m => m.name == n) = some m ∧ (encoderText m).map tight = goLines g

def same (ms : List TModel) (n : Txt) (g : Nat × Nat) : Bool :=
  match ms.find? fun m => m.name == n with
  | some m => decide ((encoderText m).map tight = goLines g)
  | none => false

theorem same_spec {ms : List TModel} {n : Txt} {g : Nat × Nat} (h : same ms n g = true) : Same ms n g := by
  unfold same at h
  split at h
  · rename_i m hm; exact ⟨m, hm, of_decide_eq_true h⟩
  · cases h

/-- all the encoders in the list -/
def allSame (src : List DeclSrc) (l : List (Txt × Nat × Nat)) : Bool :=
  match processAll asWritten src with
  | .ok ms => l.all fun p => same ms p.1 p.2
  | _ => false

theorem allSame_spec {src : List DeclSrc} {l : List (Txt × Nat × Nat)} (hs : allSame src l = true) {ord : Nat → List (Txt × Kind)}
    (h : ∀ i, (ord i).Perm classTable) : ∃ ms, processAll ord src = .ok ms ∧ ∀ p ∈ l, Same ms p.1 p.2 := by
  rw [processAll_order h]
  unfold allSame at hs
  split at hs
  · rename_i ms hms
    refine ⟨ms, hms, fun p hp => same_spec ?_⟩
    exact List.all_eq_true.1 hs p hp
  · cases hs

end Ndn.Codec.Gen
