import Verif.Codec.SpecialLemmas
import Verif.Codec.ParseLoop

/-!
# Running the code of all fields of an ordered model
-/

namespace Ndn.Codec.Gen

/-- the code of a field for an element that is there -/
def fieldRead (f : Field) : Sp := (specialRead f.name f.cls).getD (.p (readCode f.name f.cls))

/-- the code of a field for an element that is not there -/
def fieldSkip (f : Field) : Sp := (specialSkip f.name f.cls).getD (.p (skipCode f.name f.num f.cls))

/-- what lives longer than the code of a field: the members of `value`, and the integers and wires in `context` -/
structure CState where
  kvs : List (Txt × GV)
  ints : Txt → Int
  wires : Txt → Wire

/-- the variables when the code of a field begins -/
def CState.enter (c : CState) (startPos l : Nat) (r : BR) : SpState :=
  ⟨{ start (some r) with kvs := c.kvs, startPos := startPos, l := l }, c.ints, c.wires, 0, 0, []⟩

/-- the end of the code of a field.  A `break` or `return` outside of a loop does not occur in the code of fields. -/
def SpOut.leave (r : BR) : SpOut → PR CState
  | .next s =>
    match s.ps.err with
    | none => some (.ok ⟨s.ps.kvs, s.ints, s.wires⟩, s.ps.rd)
    | some x => some (.err x, s.ps.rd)
  | .stuck => none
  | _ => some (.panic, r)

/-- running the code of a field -/
def runRead (E : Env) (f : Field) (startPos l : Nat) (c : CState) (r : BR) : PR CState := ((fieldRead f).exec E (c.enter startPos l r)).leave r

def runSkip (E : Env) (f : Field) (startPos : Nat) (c : CState) (r : BR) : Res CState :=
  match ((fieldSkip f).exec E (c.enter startPos 0 r)).leave r with
  | some (x, _) => x
  | none => .panic

/-- `value := &T{}` -/
def newValue (fs : List Field) (c : CState) : CState := { c with kvs := fs.map fun f => (f.name, zeroCls f.cls) }

/-! ## The same outcome -/

/-- both end in the same way, with the same error or with states that `R` relates and the same place in the input -/
def RelPR {α β : Type} (R : α → β → Prop) : PR α → PR β → Prop
  | none, none => True
  | some (.ok a, r), some (.ok b, r') => r' = r ∧ r.Good ∧ R a b
  | some (.err e, _), some (.err e', _) => e' = e
  | some (.panic, _), some (.panic, _) => True
  | _, _ => False

def RelRes {α β : Type} (R : α → β → Prop) : Res α → Res β → Prop
  | .ok a, .ok b => R a b
  | .err e, .err e' => e' = e
  | .panic, .panic => True
  | _, _ => False

/-- two fields do the same -/
structure SlotRel {α β : Type} (R : α → β → Prop) (a : Packet.Slot α) (b : Packet.Slot β) : Prop where
  typ : a.typ = b.typ
  read : ∀ start l x y r, R x y → r.Good → RelPR R (a.read start l x r) (b.read start l y r)
  skip : ∀ start x y r, R x y → r.Good → RelRes R (a.skip start x r) (b.skip start y r)

def SlotsRel {α β : Type} (R : α → β → Prop) : List (Packet.Slot α) → List (Packet.Slot β) → Prop
  | [], [] => True
  | a :: A, b :: B => SlotRel R a b ∧ SlotsRel R A B
  | _, _ => False

section
variable {α β : Type} {R : α → β → Prop}

theorem slotsRel_get : ∀ {A : List (Packet.Slot α)} {B : List (Packet.Slot β)}, SlotsRel R A B → ∀ i : Nat,
    (A[i]? = none ∧ B[i]? = none) ∨ ∃ a b, A[i]? = some a ∧ B[i]? = some b ∧ SlotRel R a b
  | [], [], _, i => .inl ⟨by simp, by simp⟩
  | a :: A, b :: B, h, 0 => .inr ⟨a, b, by simp, by simp, h.1⟩
  | a :: A, b :: B, h, i + 1 => by simpa using slotsRel_get h.2 i
  | [], _ :: _, h, _ => h.elim
  | _ :: _, [], h, _ => h.elim

theorem slotsRel_typ : ∀ {A : List (Packet.Slot α)} {B : List (Packet.Slot β)}, SlotsRel R A B → A.map Packet.Slot.typ = B.map Packet.Slot.typ
  | [], [], _ => rfl
  | a :: A, b :: B, h => by rw [List.map_cons, List.map_cons, h.1.typ, slotsRel_typ h.2]
  | [], _ :: _, h => h.elim
  | _ :: _, [], h => h.elim

/-- the state of the loop -/
def RelOrd (R : α → β → Prop) (o : Packet.Ord α) (o' : Packet.Ord β) : Prop := o'.left = o.left ∧ o'.handled = o.handled ∧ R o.st o'.st

theorem ordInner_rel (ic : Bool) {A : List (Packet.Slot α)} {B : List (Packet.Slot β)} (h : SlotsRel R A B) (start typ l : Nat) :
    ∀ (k : Nat) (hd : List Nat) (x : α) (y : β) (r : BR), R x y → r.Good →
      RelPR (RelOrd R) (Packet.ordInner ic A start typ l k hd x r) (Packet.ordInner ic B start typ l k hd y r)
  | 0, hd, x, y, r, hx, hr => ⟨rfl, hr, rfl, rfl, hx⟩
  | k + 1, hd, x, y, r, hx, hr => by
    have hlen : B.length = A.length := by have := congrArg List.length (slotsRel_typ h); simpa using this.symm
    have hk : Packet.knows B typ = Packet.knows A typ := by simp only [Packet.knows, slotsRel_typ h]
    have ih := fun hd x y r hx hr => ordInner_rel ic h start typ l k hd x y r hx hr
    unfold Packet.ordInner
    rw [hk, hlen]
    by_cases hkn : Packet.knows A typ = true
    · rw [if_pos hkn, if_pos hkn]
      rcases slotsRel_get h (A.length - k) with ⟨h1, h2⟩ | ⟨a, b, h1, h2, hab⟩
      · rw [h1, h2]; exact ih _ _ _ _ hx hr
      · rw [h1, h2]
        simp only [← hab.typ]
        by_cases ht : a.typ = typ
        · rw [if_pos ht, if_pos ht]
          have := hab.read start l x y r hx hr
          revert this
          rcases a.read start l x r with _ | ⟨_ | _ | _, r1⟩ <;> rcases b.read start l y r with _ | ⟨_ | _ | _, r2⟩ <;> simp only [RelPR, false_implies, implies_true]
          · rintro ⟨rfl, hg, hR⟩; exact ⟨rfl, hg, rfl, rfl, hR⟩
          · rintro rfl; rfl
        · rw [if_neg ht, if_neg ht]
          have := hab.skip start x y r hx hr
          revert this
          rcases a.skip start x r with _ | _ | _ <;> rcases b.skip start y r with _ | _ | _ <;> simp only [RelRes, RelPR, false_implies, implies_true]
          · exact fun hR => ih _ _ _ _ hR hr
          · rintro rfl; rfl
    · rw [if_neg hkn, if_neg hkn]
      split
      · rfl
      · rcases skip_cases (l := toInt l) hr with ⟨r', h1, hg⟩ | ⟨e, r', h1⟩
        · rw [h1]; exact ⟨rfl, hg, rfl, rfl, hx⟩
        · rw [h1]; rfl

theorem ordLoop_rel (ic : Bool) {A : List (Packet.Slot α)} {B : List (Packet.Slot β)} (h : SlotsRel R A B) :
    ∀ (fuel : Nat) (o : Packet.Ord α) (o' : Packet.Ord β) (r : BR), RelOrd R o o' → r.Good →
      RelPR (RelOrd R) (Packet.ordLoop ic A fuel o r) (Packet.ordLoop ic B fuel o' r)
  | 0, _, _, _, _, _ => trivial
  | fuel + 1, o, o', r, ho, hr => by
    unfold Packet.ordLoop
    split
    · exact ⟨rfl, hr, ho⟩
    · rcases tlBoth_cases r hr with ⟨typ, r1, h1, _, _, hg1⟩ | ⟨_, e, r1, h1, _⟩
      · rw [h1]
        rcases tlBoth_cases r1 hg1 with ⟨l, r2, h2, _, _, hg2⟩ | ⟨_, e, r2, h2, _⟩
        · simp only [h2]
          have := ordInner_rel ic h r.pos typ l o.left o.handled o.st o'.st r2 ho.2.2 hg2
          rw [ho.1, ho.2.1]
          revert this
          rcases Packet.ordInner ic A r.pos typ l o.left o.handled o.st r2 with _ | ⟨_ | _ | _, r3⟩ <;>
            rcases Packet.ordInner ic B r.pos typ l o.left o.handled o'.st r2 with _ | ⟨_ | _ | _, r4⟩ <;> simp only [RelPR, false_implies, implies_true]
          · rintro ⟨rfl, hg, hR⟩; exact ordLoop_rel ic h fuel _ _ _ hR hg
          · exact id
        · simp only [h2]; rfl
      · rw [h1]; rfl

theorem ordFinish_rel (handled : List Nat) (r : BR) (hr : r.Good) : ∀ {A : List (Packet.Slot α)} {B : List (Packet.Slot β)}, SlotsRel R A B →
    ∀ (i : Nat) (x : α) (y : β), R x y → RelRes R (Packet.ordFinish handled r i A x) (Packet.ordFinish handled r i B y)
  | [], [], _, _, _, _, hx => hx
  | a :: A, b :: B, h, i, x, y, hx => by
    unfold Packet.ordFinish
    split
    · exact ordFinish_rel handled r hr h.2 _ _ _ hx
    · have := h.1.skip r.pos x y r hx hr
      revert this
      rcases a.skip r.pos x r with _ | _ | _ <;> rcases b.skip r.pos y r with _ | _ | _ <;> simp only [RelRes, Res.bind, false_implies, implies_true]
      · exact fun hR => ordFinish_rel handled r hr h.2 _ _ _ hR
      · exact id
  | [], _ :: _, h, _, _, _, _ => h.elim
  | _ :: _, [], h, _, _, _, _ => h.elim

/-- parsers whose fields do the same do the same -/
theorem ordParse_rel (ic : Bool) (fuel : Nat) {A : List (Packet.Slot α)} {B : List (Packet.Slot β)} (h : SlotsRel R A B) (x : α) (y : β) (hx : R x y) (r : BR) (hr : r.Good) :
    RelPR R (Packet.ordParse ic fuel A x r) (Packet.ordParse ic fuel B y r) := by
  have hlen : B.length = A.length := by have := congrArg List.length (slotsRel_typ h); simpa using this.symm
  unfold Packet.ordParse
  rw [hlen]
  have := ordLoop_rel ic h fuel ⟨A.length + 1, [], x⟩ ⟨A.length + 1, [], y⟩ r ⟨rfl, rfl, hx⟩ hr
  revert this
  rcases Packet.ordLoop ic A fuel ⟨A.length + 1, [], x⟩ r with _ | ⟨o | _ | _, r1⟩ <;>
    rcases Packet.ordLoop ic B fuel ⟨A.length + 1, [], y⟩ r with _ | ⟨o' | _ | _, r2⟩ <;> simp only [RelPR, false_implies, implies_true]
  · rintro ⟨rfl, hg, hR⟩
    rw [hR.2.1]
    have := ordFinish_rel o.handled _ hg h 0 o.st o'.st hR.2.2
    revert this
    rcases Packet.ordFinish o.handled r2 0 A o.st with _ | _ | _ <;> rcases Packet.ordFinish o.handled r2 0 B o'.st with _ | _ | _ <;>
      simp only [RelRes, false_implies, implies_true]
    · exact fun hR => ⟨trivial, hg, hR⟩
    · exact id
  · exact id

end

end Ndn.Codec.Gen
