import Verif.Codec.FrontProps
import Verif.Codec.ParsersOrdered
import Verif.Codec.OrderedOnce

/-!
# C100: the parser that the code generator writes for models with `ordered`

The code of a field is not run here: `rd` and `sk` say what it does, and the theorems hold whatever they are.
-/

namespace Ndn.Codec.Gen

/-! ## The hand-written model -/

/-- **C100, the hand-written model**: running the `Parse` that the generator writes for fields with different names and numbers has the result of `ordParse`, with which
the properties of the parsers of Interest and Data are proved, whatever the fields do.  (With equal names or numbers the Go compiler refuses the code.) -/
theorem C100_frame {σ : Type} (name : Txt) (fs : List Field) (hn : (fs.map Field.name).Nodup) (hnum : ((fs.map Field.num).filter (· ≠ 0)).Nodup) (ic : Bool) (new : σ → σ)
    (rd : Field → Nat → Nat → σ → BR → PR σ) (sk : Field → Nat → σ → BR → Res σ) (fuel : Nat) (st : σ) (r : BR) :
    ((orderedBody name fs).run ic new rd sk fuel (qStart st r false)).result =
      some (Packet.ordParse ic fuel (fs.map fun f => ⟨f.num, rd f, sk f⟩) (new st) r) :=
  body_agrees ic new rd sk fuel name fs hn hnum st r

/-- without reader there is an error -/
theorem C100_nil {σ : Type} (name : Txt) (fs : List Field) (ic : Bool) (new : σ → σ) (rd : Field → Nat → Nat → σ → BR → PR σ) (sk : Field → Nat → σ → BR → Res σ)
    (fuel : Nat) (st : σ) (r : BR) : (orderedBody name fs).run ic new rd sk fuel (qStart st r true) = .ret (.error .overflow) r := rfl

/-- the slot of a field: the one at the same place -/
def slotAt {σ : Type} (fs : List Field) (slots : List (Packet.Slot σ)) (f : Field) : Packet.Slot σ := (slots[fs.findIdx fun g => g.name == f.name]?).getD Packet.argSlot

theorem slots_eq {σ : Type} {fs : List Field} {slots : List (Packet.Slot σ)} (hn : (fs.map Field.name).Nodup) (ht : fs.map Field.num = slots.map Packet.Slot.typ) :
    (fs.map fun f => (⟨f.num, (slotAt fs slots f).read, (slotAt fs slots f).skip⟩ : Packet.Slot σ)) = slots := by
  have hlen : fs.length = slots.length := by simpa using congrArg List.length ht
  apply List.ext_getElem?
  intro i
  rw [List.getElem?_map]
  by_cases hi : i < fs.length
  · have hs : slots[i]? = some (slots[i]'(hlen ▸ hi)) := List.getElem?_eq_getElem _
    have hf : fs[i]? = some fs[i] := List.getElem?_eq_getElem _
    have hidx : (fs.findIdx fun g => g.name == fs[i].name) = i := by
      rw [List.findIdx_eq hi]
      refine ⟨by simp, fun j hj => ?_⟩
      have hjl : j < fs.length := by omega
      rw [beq_eq_false_iff_ne]
      intro hh
      have h1 : (fs.map Field.name)[j]? = (fs.map Field.name)[i]? := by
        rw [List.getElem?_map, List.getElem?_map, List.getElem?_eq_getElem hjl, hf, Option.map_some, Option.map_some, hh]
      have := (List.getElem?_inj (by simpa using hjl) hn).1 h1
      omega
    have htyp : fs[i].num = (slots[i]'(hlen ▸ hi)).typ := by
      have h1 : (fs.map Field.num)[i]? = (slots.map Packet.Slot.typ)[i]? := by rw [ht]
      rw [List.getElem?_map, List.getElem?_map, hf, hs] at h1
      exact Option.some.inj h1
    rw [hf, hs, Option.map_some]
    simp only [slotAt, hidx, hs, Option.getD_some, htyp]
  · rw [List.getElem?_eq_none (by omega), List.getElem?_eq_none (by omega)]
    rfl

theorem allSameOrdered_spec {src : List DeclSrc} {l : List (Txt × Nat × Nat)} (hs : allSameOrdered src l = true) {ord : Nat → List (Txt × Kind)}
    (h : ∀ i, (ord i).Perm classTable) : ∃ ms, processAll ord src = .ok ms ∧ ∀ p ∈ l, SameOrdered ms p.1 p.2 := by
  rw [processAll_order h]
  unfold allSameOrdered at hs
  split at hs
  · rename_i ms hms
    exact ⟨ms, hms, fun p hp => sameOrdered_spec (List.all_eq_true.1 hs p hp)⟩
  · cases hs

/-- **C100, the text**: the parsers of Interest and Data in zz_generated.go are what the generator writes for the declarations, line by line -/
theorem C100_text {ord : Nat → List (Txt × Kind)} (h : ∀ i, (ord i).Perm classTable) :
    ∃ ms, processAll ord specSource = .ok ms ∧ ∀ p ∈ orderedParsers, SameOrdered ms p.1 p.2 := allSameOrdered_spec spec_sameOrdered h

/-- **C100, Interest and Data**: running the `Parse` of zz_generated.go for Interest and Data has the result of the hand-written models, when the code of each field does
what its slot does -/
theorem C100_packets {ord : Nat → List (Txt × Kind)} (h : ∀ i, (ord i).Perm classTable) :
    ∃ int data, modelOf ord specSource t!"Interest" = some int ∧ modelOf ord specSource t!"Data" = some data ∧
      (∀ (ic : Bool) (fuel : Nat) (v : Packet.InterestV) (ctx : Packet.InterestCtx) (r : BR),
        ((orderedBody int.name int.fields).run ic (fun s => ({}, s.2)) (fun f => (slotAt int.fields (Packet.interestSlots ic fuel) f).read)
          (fun f => (slotAt int.fields (Packet.interestSlots ic fuel) f).skip) fuel (qStart (v, ctx) r false)).result = some (Packet.parseInterest ic fuel ctx r)) ∧
      (∀ (ic : Bool) (fuel : Nat) (v : Packet.DataV) (ctx : Packet.DataCtx) (r : BR),
        ((orderedBody data.name data.fields).run ic (fun s => ({}, s.2)) (fun f => (slotAt data.fields (Packet.dataSlots ic fuel) f).read)
          (fun f => (slotAt data.fields (Packet.dataSlots ic fuel) f).skip) fuel (qStart (v, ctx) r false)).result = some (Packet.parseData ic fuel ctx r)) := by
  obtain ⟨int, data, _, hi, hd, _⟩ := C89_packets h true 0
  refine ⟨int, data, hi, hd, ?_, ?_⟩
  · intro ic fuel v ctx r
    obtain ⟨int', _, _, hi', _, _, ht, _⟩ := C89_packets h ic fuel
    obtain rfl : int = int' := Option.some.inj (hi.symm.trans hi')
    have hm : modelOf asWritten specSource t!"Interest" = some int := by
      rw [← hi]; simp only [modelOf, processAll_order h]
    have hnames : ∀ m, modelOf asWritten specSource t!"Interest" = some m → (m.fields.map Field.name).Nodup ∧ ((m.fields.map Field.num).filter (· ≠ 0)).Nodup := by
      decide +kernel
    obtain ⟨h1, h2⟩ := hnames int hm
    rw [C100_frame _ _ h1 h2, slots_eq h1 ht]
    rfl
  · intro ic fuel v ctx r
    obtain ⟨_, data', _, _, hd', _, _, ht, _⟩ := C89_packets h ic fuel
    obtain rfl : data = data' := Option.some.inj (hd.symm.trans hd')
    have hm : modelOf asWritten specSource t!"Data" = some data := by
      rw [← hd]; simp only [modelOf, processAll_order h]
    have hnames : ∀ m, modelOf asWritten specSource t!"Data" = some m → (m.fields.map Field.name).Nodup ∧ ((m.fields.map Field.num).filter (· ≠ 0)).Nodup := by
      decide +kernel
    obtain ⟨h1, h2⟩ := hnames data hm
    rw [C100_frame _ _ h1 h2, slots_eq h1 ht]
    rfl

/-! ## Which fields are read -/

/-- **C100, each field once, in order**: when `Parse` returns a value, each field has been read or skipped, and only once; the fields that have been read have been read
in the order of the declaration, and are no markers or arguments.  `log` is a record that the code of the fields keeps. -/
theorem C100_each_once {σ : Type} (name : Txt) (fs : List Field) (hn : (fs.map Field.name).Nodup) (hnum : ((fs.map Field.num).filter (· ≠ 0)).Nodup) (ic : Bool) (new : σ → σ)
    (rd : Field → Nat → Nat → σ → BR → PR σ) (sk : Field → Nat → σ → BR → Res σ) (log : σ → List (Bool × Field))
    (hrd : ∀ f start l st r st' r', rd f start l st r = some (.ok st', r') → log st' = log st ++ [(true, f)])
    (hsk : ∀ f start st r st', sk f start st r = .ok st' → log st' = log st ++ [(false, f)])
    (fuel : Nat) (st st' : σ) (r r' : BR) (h0 : log (new st) = [])
    (h : (orderedBody name fs).run ic new rd sk fuel (qStart st r false) = .ret (.ok st') r') :
    ((log st').map Prod.snd).Perm fs ∧ (((log st').filter Prod.fst).map Prod.snd).Sublist fs ∧ ∀ p ∈ log st', p.1 = true → p.2.num ≠ 0 := by
  have hx := body_agrees ic new rd sk fuel name fs hn hnum st r
  rw [h] at hx
  exact parse_handled ⟨hrd, hsk⟩ ic fs fuel (new st) st' r r' h0 (Option.some.inj hx).symm

/-! ## Elements that it does not know -/

/-- **C100, critical elements (part)**: a critical element at the start that is not a field is refused, unless `ignoreCritical`.  The full claim is that a critical
element that is not a field is refused wherever it is. -/
theorem C100_critical_partial {σ : Type} (name : Txt) (fs : List Field) (hn : (fs.map Field.name).Nodup) (hnum : ((fs.map Field.num).filter (· ≠ 0)).Nodup) (new : σ → σ)
    (rd : Field → Nat → Nat → σ → BR → PR σ) (sk : Field → Nat → σ → BR → Res σ) (fuel : Nat) (st : σ) (r r1 r2 : BR) (typ l : Nat) (hr : r.pos < r.buf.length)
    (h1 : BR.readTL r = (.ok typ, r1)) (h2 : BR.readTL r1 = (.ok l, r2)) (hc : typ ≤ 31 ∨ typ % 2 = 1) (hu : ∀ f ∈ fs, f.num = 0 ∨ f.num ≠ typ) :
    ((orderedBody name fs).run false new rd sk (fuel + 1) (qStart st r false)).result = some (some (.err (.unrecognized typ), r2)) := by
  rw [C100_frame _ _ hn hnum]
  have hk : Packet.knows (fs.map fun f => (⟨f.num, rd f, sk f⟩ : Packet.Slot σ)) typ = false := by
    rw [Bool.eq_false_iff]
    intro hk
    simp only [Packet.knows, Bool.and_eq_true, bne_iff_ne, List.map_map, List.contains_iff_mem, List.mem_map, Function.comp] at hk
    obtain ⟨h0, f, hf, rfl⟩ := hk
    rcases hu f hf with h | h
    · exact h0 h
    · exact h rfl
  have hcr : (!false && isCritical typ) = true := by simpa [isCritical] using hc
  unfold Packet.ordParse Packet.ordLoop
  rw [if_neg (by omega), h1]
  simp only [h2, Packet.ordInner, hk, Bool.false_eq_true, if_false, hcr, if_true]

/-! ## Examples -/

/-- two fields -/
def twoFields : List Field := [⟨t!"A", 7, .natural false⟩, ⟨t!"M", 0, .offset false⟩, ⟨t!"B", 8, .natural false⟩]

/-- fields that step over their value and keep a record -/
def recRd (f : Field) (_ l : Nat) (st : List (Bool × Field)) (r : BR) : PR (List (Bool × Field)) :=
  if r.pos + l ≤ r.buf.length then some (.ok (st ++ [(true, f)]), { r with pos := r.pos + l }) else some (.err .outOfRange, r)

def recSk (f : Field) (_ : Nat) (st : List (Bool × Field)) (_ : BR) : Res (List (Bool × Field)) := .ok (st ++ [(false, f)])

/-- the record after `Parse` of the bytes, if there is a value: field names, and whether they were read -/
def recOf (b : Bytes) : Option (List (Bool × Txt)) :=
  match (orderedBody t!"T" twoFields).run false (fun _ => []) recRd recSk 10 (qStart [] ⟨b, 0⟩ false) with
  | .ret (.ok st) _ => some (st.map fun p => (p.1, p.2.name))
  | _ => none

example : (twoFields.map Field.name).Nodup ∧ ((twoFields.map Field.num).filter (· ≠ 0)).Nodup := by decide
example : recOf [7, 1, 0, 8, 0] = some [(true, t!"A"), (false, t!"M"), (true, t!"B")] := by decide +kernel
example : recOf [8, 0] = some [(false, t!"A"), (false, t!"M"), (true, t!"B")] := by decide +kernel
example : recOf [7, 0] = some [(true, t!"A"), (false, t!"M"), (false, t!"B")] := by decide +kernel
example : recOf [9, 0] = none := by decide +kernel

/-- the record is kept as `C100_each_once` wants it, and there is a value -/
example : (∀ f start l st r st' r', recRd f start l st r = some (.ok st', r') → st' = st ++ [(true, f)]) ∧
    (∀ f start st r st', recSk f start st r = .ok st' → st' = st ++ [(false, f)]) ∧
    recOf [7, 1, 0, 8, 0] ≠ none := by
  refine ⟨fun f start l st r st' r' h => ?_, fun f start st r st' h => (Res.ok.inj h).symm, by decide +kernel⟩
  unfold recRd at h
  split at h
  · simp only [Option.some.injEq, Prod.mk.injEq, Res.ok.injEq] at h
    exact h.1.symm
  · simp at h

/-- **C100, critical elements are let through**: after a field that is not in its place all elements are let through, also critical ones, and the field is not read -/
theorem C100_critical_violated : isCritical 9 = true ∧ (∀ f ∈ twoFields, f.num ≠ 9) ∧
    recOf [8, 0, 7, 0, 9, 0] = some [(false, t!"A"), (false, t!"M"), (true, t!"B")] := by decide +kernel

/-- **C100, fields are not found**: an element that is not a field takes the place of the next one: the field after it is not read, although it is in its place -/
theorem C100_place_violated : isCritical 32 = false ∧ recOf [32, 0, 7, 0] = some [(false, t!"M"), (false, t!"B"), (false, t!"A")] := by
  refine ⟨by decide, ?_⟩
  have h1 : BR.readTL ⟨[32, 0, 7, 0], 0⟩ = (.ok 32, ⟨[32, 0, 7, 0], 1⟩) := by decide +kernel
  have h2 : BR.readTL ⟨[32, 0, 7, 0], 1⟩ = (.ok 0, ⟨[32, 0, 7, 0], 2⟩) := by decide +kernel
  have h3 : BR.readTL ⟨[32, 0, 7, 0], 2⟩ = (.ok 7, ⟨[32, 0, 7, 0], 3⟩) := by decide +kernel
  have h4 : BR.readTL ⟨[32, 0, 7, 0], 3⟩ = (.ok 0, ⟨[32, 0, 7, 0], 4⟩) := by decide +kernel
  have h5 : BR.skip (toInt 0) ⟨[32, 0, 7, 0], 2⟩ = (.ok (), ⟨[32, 0, 7, 0], 2⟩) := by simp [BR.skip, toInt, wrap64_eq]
  have h6 := C100_frame t!"T" twoFields (by decide) (by decide) false (fun _ => []) recRd recSk 10 [] ⟨[32, 0, 7, 0], 0⟩
  have h7 : Packet.ordParse false 10 (twoFields.map fun f => ⟨f.num, recRd f, recSk f⟩) [] ⟨[32, 0, 7, 0], 0⟩ =
      some (.ok (([twoFields[1], twoFields[2], twoFields[0]]).map fun f => (false, f)), ⟨[32, 0, 7, 0], 4⟩) := by
    simp [Packet.ordParse, Packet.ordLoop, Packet.ordInner, Packet.ordFinish, h1, h2, h3, h4, h5, twoFields, Packet.knows, recSk, isCritical, Res.bind]
  rw [h7] at h6
  unfold recOf
  generalize (orderedBody t!"T" twoFields).run false (fun _ => []) recRd recSk 10 (qStart [] ⟨[32, 0, 7, 0], 0⟩ false) = o at *
  cases o with
  | ret x r =>
    cases x with
    | ok st =>
      simp only [QOut.result, Option.some.injEq, Prod.mk.injEq, Res.ok.injEq] at h6
      rw [h6.1]
      rfl
    | error x => simp [QOut.result] at h6
  | _ => simp [QOut.result] at h6

/-- the theorem for the fields above: an element that is not a field in front of field `A` -/
example : ((orderedBody t!"T" twoFields).run false (fun _ => []) recRd recSk 1 (qStart [] ⟨[9, 0, 7, 0], 0⟩ false)).result = some (some (.err (.unrecognized 9), ⟨[9, 0, 7, 0], 2⟩)) :=
  C100_critical_partial t!"T" twoFields (by decide) (by decide) _ _ _ 0 [] _ ⟨[9, 0, 7, 0], 1⟩ _ 9 0 (by decide) (by decide +kernel) (by decide +kernel) (by decide) (by decide)

end Ndn.Codec.Gen
