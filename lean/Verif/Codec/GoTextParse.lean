import Verif.Codec.GoText
import Verif.Codec.EmitParse

/-! # Comparing the parsers that the generator writes with the files in the repository -/

namespace Ndn.Codec.Gen

/-- the parser of the model called `n`, as the generator writes it, is the Go `g` up to space -/
def SameParser (ms : List TModel) (n : Txt) (g : Nat × Nat) : Prop :=
  ∃ m, (ms.find? fun m => m.name == n) = some m ∧ (parserText m).map tight = goLines g

def sameParser (ms : List TModel) (n : Txt) (g : Nat × Nat) : Bool :=
  match ms.find? fun m => m.name == n with
  | some m => decide ((parserText m).map tight = goLines g)
  | none => false

theorem sameParser_spec {ms : List TModel} {n : Txt} {g : Nat × Nat} (h : sameParser ms n g = true) : SameParser ms n g := by
  unfold sameParser at h
  split at h
  · rename_i m hm; exact ⟨m, hm, of_decide_eq_true h⟩
  · cases h

/-- all the parsers in the list -/
def allSameParser (src : List DeclSrc) (l : List (Txt × Nat × Nat)) : Bool :=
  match processAll asWritten src with
  | .ok ms => l.all fun p => sameParser ms p.1 p.2
  | _ => false

theorem allSameParser_spec {src : List DeclSrc} {l : List (Txt × Nat × Nat)} (hs : allSameParser src l = true) {ord : Nat → List (Txt × Kind)}
    (h : ∀ i, (ord i).Perm classTable) : ∃ ms, processAll ord src = .ok ms ∧ ∀ p ∈ l, SameParser ms p.1 p.2 := by
  rw [processAll_order h]
  unfold allSameParser at hs
  split at hs
  · rename_i ms hms
    exact ⟨ms, hms, fun p hp => sameParser_spec (List.all_eq_true.1 hs p hp)⟩
  · cases hs

end Ndn.Codec.Gen
