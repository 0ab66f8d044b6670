import Verif.Codec.TotalLemmas
import Verif.Codec.Schemas

/-! # Properties of the generated codec: C19, C20, C21, C23, C25 -/

namespace Ndn.Codec
open Schema

mutual
theorem Elem.WF.widths : ∀ (e : Elem), e.WF → e.Widths
  | .nat, _ => trivial
  | .fixed _ _, h => h
  | .time, _ => trivial
  | .bin, _ => trivial
  | .str, _ => trivial
  | .name, _ => trivial
  | .wire, _ => trivial
  | .struct fs, h => Fields.WF.widths fs h
theorem Fields.WF.widths : ∀ (fs : Fields), fs.WF → fs.Widths
  | .nil, _ => trivial
  | .flag _ rest, h => Fields.WF.widths rest h.2.2.2
  | .cons _ _ e rest, h => ⟨Elem.WF.widths e h.2.2.2.1, Fields.WF.widths rest h.2.2.2.2⟩
end

theorem Zip.map {α : Type} {R : α → Bytes → Prop} (f : α → Bytes) (h : ∀ a, R a (f a)) : ∀ l : List α, Zip R l (l.map f)
  | [] => trivial
  | a :: l => ⟨h a, Zip.map f h l⟩

theorem Mixed.refl (U : Bytes → Prop) : ∀ l : List Bytes, Mixed U l l
  | [] => .nil
  | b :: l => .own b (Mixed.refl U l)

theorem Mixed.insert (U : Bytes → Prop) {b : Bytes} (hb : U b) : ∀ (l : List Bytes) (i : Nat),
    Mixed U l (l.take i ++ b :: l.drop i)
  | l, 0 => .junk hb (Mixed.refl U l)
  | [], _ + 1 => .junk hb .nil
  | a :: l, i + 1 => .own a (Mixed.insert U hb l i)

mutual
theorem Elem.body_body (ic : Bool) : ∀ (e : Elem) (v : e.V), e.Body ic v (e.body v)
  | .nat, _ => rfl
  | .fixed _ _, _ => rfl
  | .time, _ => rfl
  | .bin, _ => rfl
  | .str, _ => rfl
  | .name, _ => rfl
  | .wire, _ => rfl
  | .struct fs, v => ⟨_, _, Fields.own_elems ic fs v, Mixed.refl _ _, rfl⟩
theorem Fields.own_elems (ic : Bool) : ∀ (fs : Fields) (v : fs.V), fs.Own ic v (fs.elems v)
  | .nil, _ => rfl
  | .flag _ rest, (_, vs) => ⟨_, Fields.own_elems ic rest vs, rfl⟩
  | .cons _ .req e rest, (v, vs) => ⟨_, _, Elem.body_body ic e v, Fields.own_elems ic rest vs, rfl⟩
  | .cons _ .opt e rest, (none, vs) => Fields.own_elems ic rest vs
  | .cons _ .opt e rest, (some v, vs) => ⟨_, _, Elem.body_body ic e v, Fields.own_elems ic rest vs, rfl⟩
  | .cons _ .seq e rest, (l, vs) =>
    ⟨l.map (Elem.body e), _, Zip.map _ (Elem.body_body ic e) l, Fields.own_elems ic rest vs, by
      show List.map (fun v => tlv _ (Elem.body e v)) l ++ _ = _
      rw [List.map_map]; rfl⟩
end

/-- the steps of the main loop of `fs` on the elements of a message -/
theorem Fields.own_steps (ic : Bool) (fs : Fields) (hw : fs.WF) (v : fs.V) (hv : fs.InRange v) (own : List Bytes)
    (ho : fs.Own ic v own) (F : Nat) (hF : ∀ b ∈ own, b.length ≤ F) :
    Steps ic (fun t => fs.types.contains t) (Fields.dispatch ic F fs) own fs.init (fs.done v) :=
  Fields.steps ic fs v own hw hv ho F (fun t => fs.types.contains t) (Fields.dispatch ic F fs) id
    (fun t h => by simpa using h)
    (fun t _ l st r => by rcases h : fs.dispatch ic F t l st r with _ | ⟨_ | _ | _, _⟩ <;> simp [PR.map, h, Res.map]) hF

theorem Mixed.sub {U : Bytes → Prop} {own items : List Bytes} (h : Mixed U own items) : ∀ b ∈ own, b ∈ items := by
  induction h with
  | nil => exact fun _ h => h
  | own b _ ih =>
    intro x hx
    rcases List.mem_cons.mp hx with h | h
    · simp [h]
    · exact List.mem_cons_of_mem _ (ih x h)
  | junk _ _ ih => exact fun x hx => List.mem_cons_of_mem _ (ih x hx)

theorem length_le_flatten {l : List Bytes} {b : Bytes} (h : b ∈ l) : b.length ≤ l.flatten.length :=
  (List.sublist_flatten_of_mem h).length_le

/-- the parser on a message with ignorable elements put in anywhere -/
theorem Fields.parse_mixed (ic : Bool) (fs : Fields) (hw : fs.WF) (v : fs.V) (hv : fs.InRange v) (own items : List Bytes)
    (ho : fs.Own ic v own) (hm : Mixed (Ignorable ic fs) own items) (hs : items.flatten.length < 2 ^ 43) (fuel : Nat)
    (hf : items.flatten.length < fuel) : ∃ r, fs.parse ic fuel (BR.new items.flatten) = some (.ok v, r) := by
  have h1 := fs.own_steps ic hw v hv own ho fuel (fun b hb => by
    have := length_le_flatten (hm.sub b hb); omega)
  have h2 := (h1.mixed (fun b st h => ignorable_step h) hm).finish rfl hs hf
  refine ⟨(BR.new items.flatten).adv items.flatten.length, ?_⟩
  unfold Fields.parse
  rw [h2]
  show some (fs.finish (fs.done v), _) = _
  rw [Fields.finish_done]

/-! ## C19 -/

/-- C19: for every schema and every value in range, `Encode` succeeds and `Parse` gives the value back.  (Partial: name
components are at most 252 bytes, see `C19_long_component_violated`; messages are under 8 TiB.) -/
theorem C19_codec_roundtrip_partial (fs : Fields) (hw : fs.WF) (v : fs.V) (hv : fs.InRange v)
    (hs : (fs.enc v).length < 2 ^ 43) :
    ∃ b, fs.encode v = .ok b ∧
      ∀ (ic : Bool) (fuel : Nat), b.length < fuel → ∃ r, fs.parse ic fuel (BR.new b) = some (.ok v, r) :=
  ⟨fs.enc v, Fields.encode_eq fs v (Fields.WF.widths fs hw), fun ic fuel hf =>
    fs.parse_mixed ic hw v hv _ _ (Fields.own_elems ic fs v) (Mixed.refl _ _) hs fuel hf⟩

/-- a message with all the field classes, nested three deep -/
def sample : Fields :=
  .cons 0x1b .req .nat <| .cons 0x0a .opt (.fixed 4 false) <| .cons 0x22 .opt (.fixed 1 true) <| .flag 0x21 <|
  .cons 0x0c .opt .time <| .cons 0x1d .opt .bin <| .cons 0x72 .req .str <| .cons 0x07 .seq .name <|
  .cons 0x1c .opt (.struct (.cons 0xca .seq (.struct stateVectorEntry) .nil)) <| .cons 0x50 .opt .wire .nil

def sampleVal : sample.V :=
  ((70000 : Nat), some (5 : Nat), some (255 : Nat), true, some (4000000000 : Int), some ([] : Bytes), ([104, 105] : Bytes),
    [([⟨8, [97]⟩] : Name), ([] : Name)],
    some (([(some ([⟨8, [1]⟩] : Name), (7 : Nat), ()), (none, (2 ^ 64 - 1 : Nat), ())] : List stateVectorEntry.V), ()),
    some ([[1, 2, 3]] : Wire), ())

theorem sample_wf : sample.WF := by simp [sample, stateVectorEntry, Fields.WF, Elem.WF, Fields.types]

example : sample.WF ∧ sample.InRange sampleVal ∧ (sample.enc sampleVal).length < 2 ^ 43 := by
  refine ⟨sample_wf, ?_, by decide⟩
  have small : ∀ x, (⟨8, [x]⟩ : Component).Small := fun x => ⟨show 8 < 2 ^ 64 by decide, show 1 ≤ 252 by decide⟩
  refine ⟨show 70000 < 2 ^ 64 by decide, show 5 < 256 ^ 4 by decide, show 255 < 256 ^ 1 by decide,
    ⟨4000, by decide, by decide⟩, trivial, trivial, ?_, ?_, ⟨_, rfl⟩, trivial⟩
  · intro n hn
    rcases List.mem_cons.mp hn with rfl | hn
    · intro c hc; rcases List.mem_cons.mp hc with rfl | hc
      · exact small _
      · cases hc
    · rcases List.mem_cons.mp hn with rfl | hn
      · intro c hc; cases hc
      · cases hn
  · refine ⟨fun a ha => ?_, trivial⟩
    rcases List.mem_cons.mp ha with rfl | ha
    · refine ⟨?_, show 7 < 2 ^ 64 by decide, trivial⟩
      intro c hc; rcases List.mem_cons.mp hc with rfl | hc
      · exact small _
      · cases hc
    · rcases List.mem_cons.mp ha with rfl | ha
      · exact ⟨trivial, show 2 ^ 64 - 1 < 2 ^ 64 by decide, trivial⟩
      · cases ha

/-- instances for messages of `/repo` -/
example (v : stateVectorAppParam.V) (hv : stateVectorAppParam.InRange v) (hs : (stateVectorAppParam.enc v).length < 2 ^ 43) :
    ∃ b, stateVectorAppParam.encode v = .ok b ∧
      ∀ (ic : Bool) (fuel : Nat), b.length < fuel → ∃ r, stateVectorAppParam.parse ic fuel (BR.new b) = some (.ok v, r) :=
  C19_codec_roundtrip_partial _ stateVectorAppParam_wf v hv hs
example (v : controlResponse.V) (hv : controlResponse.InRange v) (hs : (controlResponse.enc v).length < 2 ^ 43) :
    ∃ b, controlResponse.encode v = .ok b ∧
      ∀ (ic : Bool) (fuel : Nat), b.length < fuel → ∃ r, controlResponse.parse ic fuel (BR.new b) = some (.ok v, r) :=
  C19_codec_roundtrip_partial _ controlResponse_wf v hv hs

theorem readNameSlots_end (slots e : Nat) : ∀ (r r' : BR) (n : Name), r.Good → readNameSlots slots e r = (.ok n, r') →
    r'.pos = e ∧ r'.buf = r.buf := by
  induction slots with
  | zero =>
    intro r r' n _ h
    rw [readNameSlots] at h
    split at h
    · cases h
    · injection h with _ h2; subst h2; exact ⟨by omega, rfl⟩
  | succ s ih =>
    intro r r' n hg h
    rw [readNameSlots] at h
    split at h
    · split at h
      · cases h
      · injection h with _ h2; subst h2; exact ⟨by omega, rfl⟩
    · rcases readComponent_cases r hg with ⟨h0, e'⟩ | ⟨r1, hne, e'⟩ | ⟨t', n1, l, n2, s1, s2, hh⟩
      · rw [e'] at h; cases h
      · rw [e'] at h; cases h
      · rcases hh with ⟨hle, e'⟩ | ⟨_, r1, e'⟩
        · rw [e'] at h
          simp only at h
          split at h
          · rename_i m r2 heq
            injection h with _ h2; subst h2
            exact ih (r.adv (n1 + n2 + l)) _ _ (hg.adv hle) heq
          · cases h
          · cases h
        · rw [e'] at h; cases h

theorem parse_ok_inv {ic : Bool} {fuel : Nat} {fs : Fields} {r r' : BR} {v : fs.V}
    (h : fs.parse ic fuel r = some (.ok v, r')) :
    ∃ st, parseLoop ic (fun t => fs.types.contains t) (Fields.dispatch ic fuel fs) fuel fs.init r = some (.ok st, r') ∧
      fs.finish st = .ok v := by
  unfold Fields.parse at h
  split at h
  · cases h
  · rename_i st r1 heq
    injection h with h
    injection h with h1 h2
    subst h2
    exact ⟨st, heq, h1⟩
  · cases h
  · cases h

/-- C19 fails for names with a component of 253 bytes or more: the generated encoder and parser of a name field do not
agree on any such name.  (`Strategy`, mgmt_2022; every message with a name field behaves the same.) -/
theorem C19_long_component_violated (c : Component) (ht : c.typ < 2 ^ 64) (hl : 252 < c.val.length)
    (hm : c.encLen < 2 ^ 42) (b : Bytes) (hb : strategy.encode (some ([c] : Name), ()) = .ok b) (ic : Bool) (fuel : Nat) (r : BR) :
    strategy.parse ic fuel (BR.new b) ≠ some (.ok (some ([c] : Name), ()), r) := by
  have hb := (Fields.encode_eq strategy (some ([c] : Name), ()) (show True ∧ True from ⟨trivial, trivial⟩)).symm.trans hb
  injection hb with hb
  have hb' : b = tlv 7 c.enc := by
    rw [← hb]; show (tlv 7 (Name.encBody [c]) :: []).flatten = _; simp [Name.encBody]
  clear hb
  subst hb'
  intro hp
  have hlen : c.enc.length < 2 ^ 42 := by rw [Component.enc_length]; exact hm
  have hl7 : (tlv 7 c.enc).length < 2 ^ 43 := by
    rw [tlv_length]; have := tlLen_le 7; have := tlLen_le c.enc.length; omega
  have hr : (BR.new (tlv 7 c.enc)).rest = tlv 7 c.enc ++ [] := by simp
  obtain ⟨e1, e2, e3, e4⟩ := readTL_two hr (by decide) (by omega)
  cases fuel with
  | zero => simp [Fields.parse, parseLoop] at hp
  | succ fuel =>
    obtain ⟨st, hp, hfin⟩ := parse_ok_inv hp
    rw [parseLoop, if_neg (tlv_ne hr), e1] at hp
    simp only at hp
    rw [e2] at hp
    simp only at hp
    rw [if_pos (by decide)] at hp
    have hg2 : (((BR.new (tlv 7 c.enc)).adv (tlLen 7)).adv (tlLen c.enc.length)).Good := by
      rw [BR.adv_adv]
      refine (BR.Good.new (by omega)).adv ?_
      rw [BR.rest_new, tlv_length]; omega
    generalize hr2 : ((BR.new (tlv 7 c.enc)).adv (tlLen 7)).adv (tlLen c.enc.length) = r2 at hp e3 e4 hg2
    rw [List.append_nil] at e3
    have hdisp : ∀ st, Fields.dispatch ic (fuel + 1) strategy 7 c.enc.length st r2 =
        PR.map (fun v => ((some v, ()) : strategy.St)) (some (readNameField c.enc.length r2)) := by
      intro st; rfl
    rw [hdisp] at hp
    cases hx : readNameField c.enc.length r2 with
    | mk x r3 =>
      rw [hx] at hp
      cases x with
      | err e => simp [PR.map, Res.map] at hp
      | panic => simp [PR.map, Res.map] at hp
      | ok n =>
        unfold readNameField at hx
        rw [if_neg (by unfold maxAlloc; omega)] at hx
        have hend := readNameSlots_end _ _ _ _ _ hg2 hx
        have hrl := BR.rest_length r2
        rw [e3] at hrl
        have hcl := c.encLen_ge
        rw [← Component.enc_length] at hcl
        have hr3 : r3.rest = [] := by
          apply List.eq_nil_of_length_eq_zero
          rw [BR.rest_length, hend.1, hend.2]; omega
        have hn : n = [c] := by
          simp only [PR.map, Res.map] at hp
          cases fuel with
          | zero => simp [parseLoop] at hp
          | succ fuel =>
            have hle : parseLoop ic (fun t => strategy.types.contains t) (Fields.dispatch ic (fuel + 1 + 1) strategy) (fuel + 1)
                ((some n, ()) : strategy.St) r3 = some (.ok ((some n, ()) : strategy.St), r3) := parseLoop_end fuel hr3
            have hp := hle.symm.trans hp
            injection hp with hp
            injection hp with hp
            injection hp with hp
            rw [← hp] at hfin
            have hp := hfin
            have hp' : Res.ok ((some n, ()) : strategy.V) = Res.ok ((some ([c] : Name), ()) : strategy.V) := hp
            injection hp' with hp'
            injection hp' with hp' _
            injection hp'
        subst hn
        rw [readNameSlots, if_neg (by omega)] at hx
        rcases readComponent_cases r2 hg2 with ⟨_, e⟩ | ⟨r', _, e⟩ | ⟨t', n1, l, n2, s1, s2, hh⟩
        · rw [e] at hx; cases hx
        · rw [e] at hx; cases hx
        · rcases hh with ⟨hle, e⟩ | ⟨_, r', e⟩
          · rw [e] at hx
            simp only at hx
            have hs1 : TLSplit r2.rest c.typ (tlLen c.typ) := by
              rw [e3, Component.enc, List.append_assoc]; exact tlSplit_tlEnc ht _
            obtain ⟨rfl, rfl⟩ := s1.det hs1
            have hv : l = c.val.length := by
              split at hx
              · injection hx with hx _
                injection hx with hx
                injection hx with hx _
                have := congrArg (fun x : Component => x.val.length) hx
                simp only [List.length_take, List.length_drop] at this
                omega
              · cases hx
              · cases hx
            have h3 := s2.tlLen_le
            have h4 := natLen_lt_tlLen hl
            rw [e3, Component.enc_length, Component.encLen] at hle
            rw [hv] at h3
            omega
          · rw [e] at hx; cases hx

example : (252 : Nat) < (⟨8, List.replicate 300 0⟩ : Component).val.length ∧
    (⟨8, List.replicate 300 0⟩ : Component).encLen < 2 ^ 42 := by
  unfold Component.encLen
  rw [List.length_replicate]; decide

/-! ## C20 -/

/-- C20: writing a message of any schema into a buffer at any position where `length` bytes are left changes exactly those
`length` bytes, to the TLV encoding of the message; in the buffer `Encode` allocates nothing is left over. -/
theorem C20_length_pass (fs : Fields) (hw : fs.Widths) (v : fs.V) :
    (∃ b, fs.encode v = .ok b ∧ b.length = fs.encLen v ∧ b = fs.enc v) ∧
    (∀ (buf : Bytes) (pos : Nat), pos + fs.encLen v ≤ buf.length →
      fs.encodeInto v (buf, pos) =
        .ok (buf.take pos ++ fs.enc v ++ buf.drop (pos + fs.encLen v), pos + fs.encLen v)) := by
  refine ⟨⟨fs.enc v, Fields.encode_eq fs v hw, (Fields.encLen_eq fs v hw).symm, rfl⟩, ?_⟩
  intro buf pos h
  rw [Fields.encLen_eq fs v hw] at h ⊢
  exact Fields.writes fs v hw (buf, pos) h

example : sample.Widths ∧ sample.encode sampleVal = .ok (sample.enc sampleVal) ∧ sample.encLen sampleVal = 63 :=
  ⟨Fields.WF.widths _ sample_wf, Fields.encode_eq _ _ (Fields.WF.widths _ sample_wf), by decide⟩

/-! ## C21 -/

/-- C21: a message of any schema, with elements the schema does not know put in anywhere — between, before and after its
elements and the elements of its nested messages — parses to the same value, if their types are not critical or
`ignoreCritical` is set. -/
theorem C21_unknown_ignored (ic : Bool) (fs : Fields) (hw : fs.WF) (v : fs.V) (hv : fs.InRange v)
    (own items : List Bytes) (ho : fs.Own ic v own) (hm : Mixed (Ignorable ic fs) own items)
    (hs : items.flatten.length < 2 ^ 43) (fuel : Nat) (hf : items.flatten.length < fuel) :
    ∃ r, fs.parse ic fuel (BR.new items.flatten) = some (.ok v, r) :=
  fs.parse_mixed ic hw v hv own items ho hm hs fuel hf

/-- C21 for one element: inserted after the first `i` elements of an encoded message. -/
theorem C21_unknown_ignored_one (ic : Bool) (fs : Fields) (hw : fs.WF) (v : fs.V) (hv : fs.InRange v) (i typ : Nat)
    (body : Bytes) (ht : typ < 2 ^ 64) (hn : typ ∉ fs.types) (hc : ic = true ∨ (31 < typ ∧ typ % 2 = 0))
    (hs : (((fs.elems v).take i).flatten ++ (tlv typ body ++ ((fs.elems v).drop i).flatten)).length < 2 ^ 43)
    (fuel : Nat)
    (hf : (((fs.elems v).take i).flatten ++ (tlv typ body ++ ((fs.elems v).drop i).flatten)).length < fuel) :
    ∃ r, fs.parse ic fuel (BR.new (((fs.elems v).take i).flatten ++ (tlv typ body ++ ((fs.elems v).drop i).flatten))) =
      some (.ok v, r) := by
  have e : ((fs.elems v).take i).flatten ++ (tlv typ body ++ ((fs.elems v).drop i).flatten) =
      ((fs.elems v).take i ++ tlv typ body :: (fs.elems v).drop i).flatten := by simp
  rw [e] at hs hf ⊢
  exact fs.parse_mixed ic hw v hv _ _ (Fields.own_elems ic fs v) (Mixed.insert _ ⟨typ, body, rfl, ht, hn, hc⟩ _ i) hs fuel hf

example : (40 : Nat) ∉ sample.types ∧ 31 < 40 ∧ 40 % 2 = 0 ∧ (sample.elems sampleVal).length = 11 := by decide

/-- C21: without `ignoreCritical`, an element of an unknown critical type inserted after the first `i` elements makes
parsing fail. -/
theorem C21_critical_rejected (fs : Fields) (hw : fs.WF) (v : fs.V) (hv : fs.InRange v) (i typ : Nat)
    (body : Bytes) (ht : typ < 2 ^ 64) (hn : typ ∉ fs.types) (hc : typ ≤ 31 ∨ typ % 2 = 1)
    (hs : (((fs.elems v).take i).flatten ++ (tlv typ body ++ ((fs.elems v).drop i).flatten)).length < 2 ^ 43)
    (fuel : Nat)
    (hf : (((fs.elems v).take i).flatten ++ (tlv typ body ++ ((fs.elems v).drop i).flatten)).length < fuel) :
    ∃ r, fs.parse false fuel
        (BR.new (((fs.elems v).take i).flatten ++ (tlv typ body ++ ((fs.elems v).drop i).flatten))) =
      some (.err (.unrecognized typ), r) := by
  have hall := fs.own_steps false hw v hv _ (Fields.own_elems false fs v) fuel (fun b hb => by
    rw [← List.take_append_drop i (fs.elems v)] at hb
    simp only [List.length_append] at hf
    rcases List.mem_append.mp hb with hb | hb
    · have := length_le_flatten hb; omega
    · have := length_le_flatten hb; omega)
  rw [← List.take_append_drop i (fs.elems v)] at hall
  obtain ⟨st, h1, _⟩ := hall.split
  generalize (fs.elems v).take i = pre at hs hf h1 ⊢
  generalize ((fs.elems v).drop i).flatten = rest at hs hf ⊢
  have hlen := h1.length_le
  rw [List.length_append, List.length_append, tlv_length] at hf
  have htp := tlLen_pos typ
  obtain ⟨k, rfl⟩ : ∃ k, fuel = k + 1 + pre.length := ⟨fuel - 1 - pre.length, by omega⟩
  have hrun := h1.run (BR.new (pre.flatten ++ (tlv typ body ++ rest))) (tlv typ body ++ rest) (k + 1) (.new hs) (by simp)
  have hr2 : ((BR.new (pre.flatten ++ (tlv typ body ++ rest))).adv pre.flatten.length).rest = tlv typ body ++ rest :=
    rest_adv_append (by simp)
  rw [List.length_append, List.length_append, tlv_length] at hs
  obtain ⟨r', hcrit⟩ := parseLoop_critical (known := fun t => fs.types.contains t)
    (read := Fields.dispatch false (k + 1 + pre.length) fs) (st := st) k hr2 ht (by omega) (by simpa using hn) hc
  refine ⟨r', ?_⟩
  unfold Fields.parse
  rw [hrun, hcrit]

example : (41 : Nat) ∉ sample.types ∧ 41 % 2 = 1 ∧ (30 : Nat) ∉ sample.types ∧ 30 ≤ 31 := by decide

/-! ## C23 -/

/-- ten bytes: type 32, length `2^64 - 10` -/
def loopBytes : Bytes := [0x20, 0xff, 0xff, 0xff, 0xff, 0xff, 0xff, 0xff, 0xff, 0xf6]

theorem loopBytes_spin {σ : Type} (ic : Bool) (known : Nat → Bool) (hk : known 32 = false)
    (read : Nat → Nat → σ → BR → PR σ) (st : σ) : ∀ fuel, parseLoop ic known read fuel st (BR.new loopBytes) = none := by
  intro fuel
  induction fuel with
  | zero => rfl
  | succ n ih =>
    have s1 : TLSplit loopBytes 32 1 := .one 0x20 _ (by decide)
    have s2 : TLSplit (loopBytes.drop 1) (2 ^ 64 - 10) 9 := .eight _ (by decide)
    have e1 := readTL_of_split (r := BR.new loopBytes) s1
    have e2 := readTL_of_split (r := (BR.new loopBytes).adv 1) s2
    have hs : BR.skip (toInt (2 ^ 64 - 10)) (((BR.new loopBytes).adv 1).adv 9) = (.ok (), BR.new loopBytes) := by
      unfold BR.skip
      have : wrap64 (((((BR.new loopBytes).adv 1).adv 9).pos : Int) + toInt (2 ^ 64 - 10)) = 0 := by
        rw [toInt_neg (by decide) (by decide), wrap64_id] <;> decide
      rw [this]; rfl
    rw [parseLoop, if_neg (by decide), e1]
    simp only
    rw [e2]
    simp only
    rw [if_neg (by simp [hk]), if_neg (by simp [isCritical]), hs]
    exact ih

/-- C23 fails: every generated `Parse` without a field of type 32 runs forever on these ten bytes (no amount of fuel is
enough). -/
theorem C23_parse_diverges (fs : Fields) (h : 32 ∉ fs.types) (ic : Bool) (fuel : Nat) :
    fs.parse ic fuel (BR.new loopBytes) = none := by
  unfold Fields.parse
  rw [loopBytes_spin ic _ (by simpa using h)]

example : 32 ∉ stateVectorAppParam.types ∧ 32 ∉ controlResponse.types ∧ 32 ∉ lpPacket.types := by decide

/-- C23, C24: every generated `Parse` ends, after at most as many rounds as the buffer has bytes, and does not panic, on
every buffer in which no TLV number is `2^43` or more (`Calm`).  Missing: `Calm`; without it the code may loop
(`C23_parse_diverges`) or panic (`C24_parse_panics`). -/
theorem C23_parse_terminates_partial (fs : Fields) (buf : Bytes) (hm : buf.length < 2 ^ 62) (hc : Calm buf) (ic : Bool)
    (fuel : Nat) (hf : buf.length < fuel) :
    ∃ x r, fs.parse ic fuel (BR.new buf) = some (x, r) ∧ x ≠ .panic := by
  obtain ⟨x, r, h1, h2, _⟩ := fs.parse_tot ic (BR.new buf) (.new hm) hc fuel hf
  exact ⟨x, r, h1, h2⟩

/-- a simple sufficient condition: buffers without the byte `0xff` -/
theorem C23_parse_terminates_no_ff_partial (fs : Fields) (buf : Bytes) (hm : buf.length < 2 ^ 62) (hff : (0xff : UInt8) ∉ buf)
    (ic : Bool) (fuel : Nat) (hf : buf.length < fuel) :
    ∃ x r, fs.parse ic fuel (BR.new buf) = some (x, r) ∧ x ≠ .panic :=
  C23_parse_terminates_partial fs buf hm (calm_no_ff hff) ic fuel hf

example : Calm [0xc9, 2, 0xca, 0] := calm_no_ff (by decide)

/-- C24 fails for generated parsers: a name field of length `2^64 - 1` makes them panic. -/
theorem C24_parse_panics (ic : Bool) (fuel : Nat) (h : 0 < fuel) :
    ∃ r, strategy.parse ic fuel (BR.new [7, 0xff, 0xff, 0xff, 0xff, 0xff, 0xff, 0xff, 0xff, 0xff]) = some (.panic, r) := by
  obtain ⟨n, rfl⟩ : ∃ n, fuel = n + 1 := ⟨fuel - 1, by omega⟩
  have s1 : TLSplit ([7, 0xff, 0xff, 0xff, 0xff, 0xff, 0xff, 0xff, 0xff, 0xff] : Bytes) 7 1 := .one 7 _ (by decide)
  have s2 : TLSplit ([0xff, 0xff, 0xff, 0xff, 0xff, 0xff, 0xff, 0xff, 0xff] : Bytes) (2 ^ 64 - 1) 9 :=
    .eight _ (by decide)
  have e1 := readTL_of_split (r := BR.new [7, 0xff, 0xff, 0xff, 0xff, 0xff, 0xff, 0xff, 0xff, 0xff]) s1
  have e2 := readTL_of_split (r := (BR.new [7, 0xff, 0xff, 0xff, 0xff, 0xff, 0xff, 0xff, 0xff, 0xff]).adv 1) s2
  refine ⟨((BR.new [7, 0xff, 0xff, 0xff, 0xff, 0xff, 0xff, 0xff, 0xff, 0xff]).adv 1).adv 9, ?_⟩
  unfold Fields.parse
  rw [parseLoop, if_neg (by decide), e1]
  simp only
  rw [e2]
  simp only
  rw [if_pos (by decide)]
  have : ∀ st r, Fields.dispatch ic (n + 1) strategy 7 (2 ^ 64 - 1) st r = some (.panic, r) := by
    intro st r
    have : readNameField (2 ^ 64 - 1) r = (.panic, r) := by
      unfold readNameField; rw [if_pos (by decide)]
    show PR.map (fun v => ((some v, ()) : strategy.St)) (some (readNameField (2 ^ 64 - 1) r)) = _
    rw [this]; rfl
  rw [this]

/-! ## C25 -/

theorem read_struct_over (ic : Bool) (F : Nat) (fs : Fields) (l : Nat) (r : BR) (hg : r.Good) (hl : l < 2 ^ 62)
    (ht : r.rest.length < l) : (Elem.struct fs).read ic (F + 1) l r = some (fs.finish fs.init, r) := by
  unfold Elem.read
  rw [toInt_small (by omega), BR.delegate_over hg ht (by omega)]
  simp only
  rw [parseLoop_end F (by rfl)]
  rfl

/-- C25 fails: a `ControlParameters` message that announces five bytes of `ControlArgs` and ends there is accepted, with an
empty `ControlArgs`. -/
theorem C25_truncated_struct_accepted_violated (ic : Bool) (fuel : Nat) (h : 2 ≤ fuel) :
    ∃ (r : BR) (v : controlParameters.V), controlParameters.parse ic fuel (BR.new [0x68, 5]) = some (.ok v, r) ∧
      v.1.isSome := by
  obtain ⟨n, rfl⟩ : ∃ n, fuel = n + 2 := ⟨fuel - 2, by omega⟩
  have s1 : TLSplit ([0x68, 5] : Bytes) 0x68 1 := .one 0x68 _ (by decide)
  have s2 : TLSplit ([5] : Bytes) 5 1 := .one 5 _ (by decide)
  have e1 := readTL_of_split (r := BR.new [0x68, 5]) s1
  have e2 := readTL_of_split (r := (BR.new [0x68, 5]).adv 1) s2
  have hd := read_struct_over ic (n + 1) controlArgs 5 (((BR.new [0x68, 5]).adv 1).adv 1) ⟨by decide, by decide⟩ (by decide)
    (by decide)
  obtain ⟨v, hv⟩ : ∃ v, controlArgs.finish controlArgs.init = .ok v := ⟨_, rfl⟩
  rw [hv] at hd
  have hdisp : Fields.dispatch ic (n + 2) controlParameters 0x68 5 controlParameters.init (((BR.new [0x68, 5]).adv 1).adv 1) =
      some (.ok ((some v, ()) : controlParameters.St), ((BR.new [0x68, 5]).adv 1).adv 1) :=
    congrArg (PR.map (fun v => ((some v, ()) : controlParameters.St))) hd
  refine ⟨((BR.new [0x68, 5]).adv 1).adv 1, ((some v, ()) : controlParameters.V), ?_, rfl⟩
  have hp : parseLoop ic (fun t => controlParameters.types.contains t) (Fields.dispatch ic (n + 2) controlParameters) (n + 2)
      controlParameters.init (BR.new [0x68, 5]) =
      some (.ok ((some v, ()) : controlParameters.St), ((BR.new [0x68, 5]).adv 1).adv 1) := by
    rw [parseLoop, if_neg (by decide), e1]
    simp only
    rw [e2]
    simp only
    rw [if_pos (by decide), hdisp]
    exact parseLoop_end n (by rfl)
  unfold Fields.parse
  rw [hp]
  rfl

/-- the element classes whose parser looks at the announced length: all but `bool` and one-byte integers; a nested message
counts if it has a required field -/
def Elem.Checked : Elem → Prop
  | .fixed w _ => w ≠ 1
  | .struct fs => ∀ v, fs.finish fs.init ≠ .ok v
  | _ => True

theorem finish_init_err (fs : Fields) (h : ∀ v, fs.finish fs.init ≠ .ok v) : ∃ e, fs.finish fs.init = .err e := by
  cases hx : fs.finish fs.init with
  | ok v => exact absurd hx (h v)
  | err e => exact ⟨e, rfl⟩
  | panic => exact absurd hx (finish_no_panic fs fs.init)

theorem readNameSlots_short (slots e : Nat) : ∀ (r : BR), r.Good → Calm r.buf → r.buf.length < e →
    ∃ x r', readNameSlots slots e r = (.err x, r') := by
  induction slots with
  | zero =>
    intro r hg _ he
    rw [readNameSlots, if_pos (by have := hg.1; omega)]; exact ⟨_, _, rfl⟩
  | succ s ih =>
    intro r hg hc he
    rw [readNameSlots, if_neg (by have := hg.1; omega)]
    rcases readComponent_cases r hg with ⟨h0, e'⟩ | ⟨r1, hne, e'⟩ | ⟨t', n1, l, n2, s1, s2, hh⟩
    · rw [e']; exact ⟨_, _, rfl⟩
    · rw [e']; exact ⟨_, _, rfl⟩
    · rcases hh with ⟨hle, e'⟩ | ⟨hbig, r1, e'⟩
      · rw [e']
        obtain ⟨x, r', h⟩ := ih (r.adv (n1 + n2 + l)) (hg.adv hle) hc he
        simp only [h]
        exact ⟨_, _, rfl⟩
      · exfalso
        have hl : l < 2 ^ 43 := by
          unfold BR.rest at s2
          rw [List.drop_drop] at s2
          exact hc.split s2
        have w1 : n1 ≤ 9 := by rcases s1.width with h | h | h | h <;> omega
        have w2 : n2 ≤ 9 := by rcases s2.width with h | h | h | h <;> omega
        have := hg.1; have := hg.2
        omega

/-- C25: an element that announces more bytes than remain is rejected.  (Partial: not for one-byte integers and bools, whose
parsers ignore the length, and not for nested messages without required fields; lengths under 8 TiB.) -/
theorem C25_truncated_rejected_partial (ic : Bool) (F : Nat) (hF : 0 < F) (e : Elem) (he : e.Checked) (l : Nat) (r : BR)
    (hg : r.Good) (hc : Calm r.buf) (hl : l < 2 ^ 43) (ht : r.rest.length < l) :
    ∃ x r', e.read ic F l r = some (.err x, r') := by
  have hint : toInt l = l := toInt_small (by omega)
  have hnat : ∃ x r', readNatural l r = (.err x, r') := by
    unfold readNatural
    rw [hint, Int.toNat_natCast]
    obtain ⟨r', h⟩ := readBeLoop_err l 0 r ht
    exact ⟨_, _, h⟩
  match e, he with
  | .nat, _ =>
    obtain ⟨x, r', h⟩ := hnat
    exact ⟨x, r', congrArg some h⟩
  | .fixed w p, hw =>
    obtain ⟨r', h⟩ := readBeLoop_err l 0 r ht
    refine ⟨.unexpectedEof, r', ?_⟩
    show some (readFixed w p l r) = _
    unfold readFixed
    rw [if_neg hw, hint, Int.toNat_natCast, h]
    rfl
  | .time, _ =>
    obtain ⟨x, r', h⟩ := hnat
    refine ⟨x, r', ?_⟩
    show PR.map (α := Nat) (β := Int) durOfMs (some (readNatural l r)) = _
    rw [h]; rfl
  | .bin, _ =>
    have h1 := BR.rest_length r
    have : ∃ x r', readFull l r = (.err x, r') := by
      unfold readFull
      rw [if_neg (by unfold maxAlloc; omega), if_neg (by omega)]
      by_cases h : r.pos ≥ r.buf.length ∧ l > 0
      · rw [show BR.read l r = (.err .eof, r) from if_pos h]; exact ⟨_, _, rfl⟩
      · rw [show BR.read l r = (.ok (List.take l (List.drop r.pos r.buf)), r.adv (List.take l (List.drop r.pos r.buf)).length)
          from if_neg h]
        simp only
        rw [if_neg (by simp only [List.length_take, List.length_drop]; omega)]
        exact ⟨_, _, rfl⟩
    obtain ⟨x, r', h⟩ := this
    exact ⟨x, r', congrArg some h⟩
  | .str, _ =>
    have h1 := BR.rest_length r
    refine ⟨.eof, r.adv (List.take (toInt l).toNat (List.drop r.pos r.buf)).length, ?_⟩
    show some (copyN l r) = _
    unfold copyN
    simp only
    rw [if_pos]
    · rfl
    · rw [hint, Int.toNat_natCast]
      simp only [List.length_take, List.length_drop]; omega
  | .name, _ =>
    have h1 := BR.rest_length r
    have := hg.1
    obtain ⟨x, r', h⟩ := readNameSlots_short (l / 2 + 1) (r.pos + l) r hg hc (by omega)
    refine ⟨x, r', ?_⟩
    show some (readNameField l r) = _
    unfold readNameField
    rw [if_neg (by unfold maxAlloc; omega), h]
    rfl
  | .wire, _ =>
    obtain ⟨x, h⟩ := BR.readWire_err hg ht (by omega)
    refine ⟨x, r, ?_⟩
    show some (BR.readWire (toInt l) r) = _
    rw [hint, h]; rfl
  | .struct fs, hs =>
    obtain ⟨x, hx⟩ := finish_init_err fs hs
    obtain ⟨n, rfl⟩ : ∃ n, F = n + 1 := ⟨F - 1, by omega⟩
    exact ⟨x, r, (read_struct_over ic n fs l r hg (by omega) ht).trans (by rw [hx]; rfl)⟩

example : (Elem.struct signatureInfo).Checked ∧ (Elem.struct stateVectorEntry).Checked ∧ Elem.name.Checked ∧
    ((BR.new [1, 2]).adv 1).rest.length < 5 := by
  refine ⟨?_, ?_, trivial, by decide⟩
  · intro v h; cases h
  · intro v h; cases h

/-- has the message a required field? -/
def Fields.HasReq : Fields → Prop
  | .nil => False
  | .flag _ rest => rest.HasReq
  | .cons _ m _ rest => m = .req ∨ rest.HasReq

theorem res_map_err {α β : Type} {f : α → β} {x : Res α} : (∃ e, x.map f = .err e) ↔ ∃ e, x = .err e := by
  cases x with
  | ok a => constructor <;> rintro ⟨_, h⟩ <;> exact (nomatch h)
  | err e => exact ⟨fun _ => ⟨e, rfl⟩, fun _ => ⟨e, rfl⟩⟩
  | panic => constructor <;> rintro ⟨_, h⟩ <;> exact (nomatch h)

theorem finish_init_iff : ∀ fs : Fields, (∃ e, fs.finish fs.init = .err e) ↔ fs.HasReq
  | .nil => by
    constructor
    · rintro ⟨e, h⟩; exact (nomatch h)
    · exact False.elim
  | .flag _ rest => res_map_err.trans (finish_init_iff rest)
  | .cons _ .req _ rest => ⟨fun _ => .inl rfl, fun _ => ⟨_, rfl⟩⟩
  | .cons _ .opt _ rest => by
    refine Iff.trans res_map_err ((finish_init_iff rest).trans ⟨.inr, ?_⟩)
    rintro (h | h)
    · exact (nomatch h)
    · exact h
  | .cons _ .seq _ rest => by
    refine Iff.trans res_map_err ((finish_init_iff rest).trans ⟨.inr, ?_⟩)
    rintro (h | h)
    · exact (nomatch h)
    · exact h

/-- C25 for nested messages, exactly: one that announces more bytes than remain is rejected if and only if it has a required field;
otherwise it is accepted as an empty message, and nothing is read. -/
theorem C25_nested_iff (ic : Bool) (F : Nat) (hF : 0 < F) (fs : Fields) (l : Nat) (r : BR) (hg : r.Good) (hl : l < 2 ^ 43)
    (ht : r.rest.length < l) :
    ((∃ x, (Elem.struct fs).read ic F l r = some (.err x, r)) ↔ fs.HasReq) ∧
      (¬ fs.HasReq → ∃ v, fs.finish fs.init = .ok v ∧ (Elem.struct fs).read ic F l r = some (.ok v, r)) := by
  obtain ⟨n, rfl⟩ : ∃ n, F = n + 1 := ⟨F - 1, by omega⟩
  have h := read_struct_over ic n fs l r hg (by omega) ht
  constructor
  · rw [← finish_init_iff, h]
    constructor
    · rintro ⟨x, e⟩; injection e with e; injection e with e _; exact ⟨x, e⟩
    · rintro ⟨x, e⟩; exact ⟨x, by rw [e]; rfl⟩
  · intro hn
    cases hx : fs.finish fs.init with
    | ok v => exact ⟨v, rfl, by rw [h, hx]; rfl⟩
    | err e => exact absurd ((finish_init_iff fs).mp ⟨e, hx⟩) hn
    | panic => exact absurd hx (finish_no_panic fs fs.init)

example : signatureInfo.HasReq ∧ ¬ controlArgs.HasReq ∧ ¬ metaInfo.HasReq := by
  refine ⟨?_, ?_, ?_⟩
  · simp [signatureInfo, Fields.HasReq]
  · simp [controlArgs, Fields.HasReq]
  · simp [metaInfo, Fields.HasReq]

/-- the field with this type number (if any) is `Checked` -/
def Fields.CheckedAt : Fields → Nat → Prop
  | .nil, _ => True
  | .flag t rest, typ => typ ≠ t ∧ rest.CheckedAt typ
  | .cons t _ e rest, typ => (typ = t ∧ e.Checked) ∨ (typ ≠ t ∧ rest.CheckedAt typ)

theorem dispatch_truncated (ic : Bool) (F : Nat) (hF : 0 < F) (l : Nat) (r : BR) (hg : r.Good) (hc : Calm r.buf)
    (hl : l < 2 ^ 43) (ht : r.rest.length < l) (typ : Nat) : ∀ (fs : Fields) (st : fs.St), fs.CheckedAt typ → typ ∈ fs.types →
    ∃ x r', Fields.dispatch ic F fs typ l st r = some (.err x, r')
  | .nil, _, _, hm => by cases hm
  | .flag t rest, (b, st), h, hm => by
    have hm' : typ ∈ rest.types := by
      rcases List.mem_cons.mp (show typ ∈ t :: rest.types from hm) with h' | h'
      · exact absurd h' h.1
      · exact h'
    obtain ⟨x, r', e⟩ := dispatch_truncated ic F hF l r hg hc hl ht typ rest st h.2 hm'
    exact ⟨x, r', (if_neg h.1).trans (congrArg (PR.map _) e)⟩
  | .cons t m e rest, (y, st), h, hm => by
    rcases h with ⟨h1, h2⟩ | ⟨h1, h2⟩
    · obtain ⟨x, r', e'⟩ := C25_truncated_rejected_partial ic F hF e h2 l r hg hc hl ht
      exact ⟨x, r', (if_pos h1).trans (congrArg (PR.map _) e')⟩
    · have hm' : typ ∈ rest.types := by
        rcases List.mem_cons.mp (show typ ∈ t :: rest.types from hm) with h' | h'
        · exact absurd h' h1
        · exact h'
      obtain ⟨x, r', e'⟩ := dispatch_truncated ic F hF l r hg hc hl ht typ rest st h2 hm'
      exact ⟨x, r', (if_neg h1).trans (congrArg (PR.map _) e')⟩

/-- C25 for whole messages: after any number `i` of well-formed elements comes an element, of a `Checked` field or of an
unknown type, that announces more bytes than remain: parsing fails. -/
theorem C25_truncated_message_rejected_partial (ic : Bool) (fs : Fields) (hw : fs.WF) (v : fs.V) (hv : fs.InRange v)
    (i typ l : Nat) (tail buf : Bytes)
    (hbuf : buf = ((fs.elems v).take i).flatten ++ (tlEnc typ ++ (tlEnc l ++ tail)))
    (ht : typ < 2 ^ 64) (hck : fs.CheckedAt typ) (hl : l < 2 ^ 43) (hlong : tail.length < l) (hc : Calm buf)
    (hs : buf.length < 2 ^ 43) (fuel : Nat) (hf : buf.length + (fs.enc v).length < fuel) :
    ∃ e r, fs.parse ic fuel (BR.new buf) = some (.err e, r) := by
  have hall := fs.own_steps ic hw v hv _ (Fields.own_elems ic fs v) fuel (fun b hb => by
    have := length_le_flatten hb; unfold Fields.enc at hf; omega)
  rw [← List.take_append_drop i (fs.elems v)] at hall
  obtain ⟨st, h1, _⟩ := hall.split
  generalize (fs.elems v).take i = pre at hbuf h1 ⊢
  have hlen := h1.length_le
  have hbl : buf.length = pre.flatten.length + (tlLen typ + (tlLen l + tail.length)) := by
    rw [hbuf]; simp only [List.length_append, tlEnc_length]
  have htp := tlLen_pos typ
  have hlp := tlLen_pos l
  obtain ⟨k, rfl⟩ : ∃ k, fuel = k + 1 + pre.length := ⟨fuel - 1 - pre.length, by omega⟩
  have hrun := h1.run (BR.new buf) (tlEnc typ ++ (tlEnc l ++ tail)) (k + 1) (.new hs) (by simpa using hbuf)
  have hr2 : ((BR.new buf).adv pre.flatten.length).rest = tlEnc typ ++ (tlEnc l ++ tail) :=
    rest_adv_append (by simpa using hbuf)
  generalize hrr : (BR.new buf).adv pre.flatten.length = r at hrun hr2
  have hrb : r.buf = buf := by rw [← hrr]; rfl
  have hg : r.Good := by
    rw [← hrr]; exact (BR.Good.new (by omega)).adv (by rw [BR.rest_new]; omega)
  have e1 : r.readTL = (.ok typ, r.adv (tlLen typ)) := readTL_of_split (by rw [hr2]; exact tlSplit_tlEnc ht _)
  have hr3 : (r.adv (tlLen typ)).rest = tlEnc l ++ tail := by
    rw [← tlEnc_length typ]; exact rest_adv_append hr2
  have e2 : (r.adv (tlLen typ)).readTL = (.ok l, (r.adv (tlLen typ)).adv (tlLen l)) :=
    readTL_of_split (by rw [hr3]; exact tlSplit_tlEnc (by omega) _)
  have hr4 : ((r.adv (tlLen typ)).adv (tlLen l)).rest = tail := by
    rw [← tlEnc_length l]; exact rest_adv_append hr3
  have hrl : r.rest.length = tlLen typ + (tlLen l + tail.length) := by
    rw [hr2]; simp only [List.length_append, tlEnc_length]
  have hg4 : ((r.adv (tlLen typ)).adv (tlLen l)).Good := by
    rw [BR.adv_adv]; exact hg.adv (by omega)
  have hne : r.rest ≠ [] := by intro h; rw [h] at hrl; simp at hrl; omega
  have hpos : ¬ r.pos ≥ r.buf.length := by have := BR.rest_length r; omega
  have hfin : ∃ e r', parseLoop ic (fun t => fs.types.contains t) (Fields.dispatch ic (k + 1 + pre.length) fs) (k + 1) st r =
      some (.err e, r') := by
    rw [parseLoop, if_neg hpos, e1]
    simp only
    rw [e2]
    simp only
    by_cases hk : typ ∈ fs.types
    · obtain ⟨x, r', e⟩ := dispatch_truncated ic (k + 1 + pre.length) (by omega) l _ hg4
        (show Calm ((r.adv (tlLen typ)).adv (tlLen l)).buf from hrb ▸ hc) hl (by rw [hr4]; omega) typ fs st hck hk
      rw [if_pos (by simpa using hk), e]
      exact ⟨_, _, rfl⟩
    · rw [if_neg (by simpa using hk)]
      split
      · exact ⟨_, _, rfl⟩
      · rw [toInt_small (by omega), BR.skip_err hg4 (by rw [hr4]; omega) (by omega)]
        exact ⟨_, _, rfl⟩
  obtain ⟨e, r', hfin⟩ := hfin
  refine ⟨e, r', ?_⟩
  unfold Fields.parse
  rw [hrun, hfin]

example : sample.CheckedAt 0x1b ∧ sample.CheckedAt 0x07 ∧ sample.CheckedAt 40 ∧
    ([1, 2] : Bytes).length < 9 ∧ Calm (tlEnc 0x1b ++ (tlEnc 9 ++ [1, 2])) :=
  ⟨.inl ⟨rfl, trivial⟩,
    .inr ⟨by decide, .inr ⟨by decide, .inr ⟨by decide, by decide, .inr ⟨by decide, .inr ⟨by decide, .inr ⟨by decide, .inl ⟨rfl, trivial⟩⟩⟩⟩⟩⟩⟩,
    .inr ⟨by decide, .inr ⟨by decide, .inr ⟨by decide, by decide, .inr ⟨by decide, .inr ⟨by decide, .inr ⟨by decide, .inr ⟨by decide,
      .inr ⟨by decide, .inr ⟨by decide, trivial⟩⟩⟩⟩⟩⟩⟩⟩⟩,
    by decide, calm_no_ff (by decide)⟩

/-! ## C61 -/

/-- a message in which any required field may be missing, as the model with every required field of the message itself optional -/
def Fields.relax : Fields → Fields
  | .nil => .nil
  | .flag t rest => .flag t rest.relax
  | .cons t .req e rest => .cons t .opt e rest.relax
  | .cons t .opt e rest => .cons t .opt e rest.relax
  | .cons t .seq e rest => .cons t .seq e rest.relax

/-- some required field is missing -/
def Fields.Lacks : (fs : Fields) → fs.relax.V → Prop
  | .nil, _ => False
  | .flag _ rest, (_, vs) => rest.Lacks vs
  | .cons _ .req _ rest, (o, vs) => o = none ∨ rest.Lacks vs
  | .cons _ .opt _ rest, (_, vs) => rest.Lacks vs
  | .cons _ .seq _ rest, (_, vs) => rest.Lacks vs

/-- the message with all the required fields present, as a value of the model -/
def Fields.tighten : (fs : Fields) → fs.relax.V → Option fs.V
  | .nil, _ => some ()
  | .flag _ rest, (b, vs) => (rest.tighten vs).map fun ws => (b, ws)
  | .cons _ .req _ rest, (o, vs) => o.bind fun x => (rest.tighten vs).map fun ws => (x, ws)
  | .cons _ .opt _ rest, (o, vs) => (rest.tighten vs).map fun ws => (o, ws)
  | .cons _ .seq _ rest, (l, vs) => (rest.tighten vs).map fun ws => (l, ws)

/-- the parser's variables for the one are those for the other -/
def Fields.back : (fs : Fields) → fs.relax.St → fs.St
  | .nil, _ => ()
  | .flag _ rest, (b, st) => (b, rest.back st)
  | .cons _ .req _ rest, (o, st) => (o, rest.back st)
  | .cons _ .opt _ rest, (o, st) => (o, rest.back st)
  | .cons _ .seq _ rest, (l, st) => (l, rest.back st)

theorem Fields.types_relax : ∀ fs : Fields, fs.relax.types = fs.types
  | .nil => rfl
  | .flag t rest => by simp [Fields.relax, Fields.types, Fields.types_relax rest]
  | .cons t .req e rest => by simp [Fields.relax, Fields.types, Fields.types_relax rest]
  | .cons t .opt e rest => by simp [Fields.relax, Fields.types, Fields.types_relax rest]
  | .cons t .seq e rest => by simp [Fields.relax, Fields.types, Fields.types_relax rest]

theorem Fields.WF.relax : ∀ {fs : Fields}, fs.WF → fs.relax.WF
  | .nil, _ => trivial
  | .flag t rest, ⟨a, b, c, d⟩ => ⟨a, b, by rw [Fields.types_relax]; exact c, Fields.WF.relax d⟩
  | .cons t .req e rest, ⟨a, b, c, d, f⟩ => ⟨a, b, by rw [Fields.types_relax]; exact c, d, Fields.WF.relax f⟩
  | .cons t .opt e rest, ⟨a, b, c, d, f⟩ => ⟨a, b, by rw [Fields.types_relax]; exact c, d, Fields.WF.relax f⟩
  | .cons t .seq e rest, ⟨a, b, c, d, f⟩ => ⟨a, b, by rw [Fields.types_relax]; exact c, d, Fields.WF.relax f⟩

theorem Fields.back_init : ∀ fs : Fields, fs.back fs.relax.init = fs.init
  | .nil => rfl
  | .flag t rest => by show (false, rest.back rest.relax.init) = (false, rest.init); rw [Fields.back_init rest]
  | .cons t .req e rest => by show (none, rest.back rest.relax.init) = (none, rest.init); rw [Fields.back_init rest]
  | .cons t .opt e rest => by show (none, rest.back rest.relax.init) = (none, rest.init); rw [Fields.back_init rest]
  | .cons t .seq e rest => by show (([] : List e.V), rest.back rest.relax.init) = ([], rest.init); rw [Fields.back_init rest]

theorem Fields.dispatch_back (ic : Bool) (F : Nat) : ∀ (fs : Fields) (typ l : Nat) (st : fs.relax.St) (r : BR),
    fs.dispatch ic F typ l (fs.back st) r = PR.map fs.back (fs.relax.dispatch ic F typ l st r)
  | .nil, _, _, _, _ => rfl
  | .flag t rest, typ, l, (b, st), r => by
    have ih := Fields.dispatch_back ic F rest typ l st r
    show (if typ = t then some (Res.ok (true, rest.back st), r) else PR.map (fun st' => (b, st')) (rest.dispatch ic F typ l (rest.back st) r)) =
      PR.map (Fields.back (.flag t rest)) (if typ = t then some (Res.ok (true, st), r) else PR.map (fun st' => (b, st')) (rest.relax.dispatch ic F typ l st r))
    by_cases h : typ = t
    · rw [if_pos h, if_pos h]; rfl
    · rw [if_neg h, if_neg h, ih]
      rcases rest.relax.dispatch ic F typ l st r with _ | ⟨_ | _ | _, _⟩ <;> rfl
  | .cons t .req e rest, typ, l, (x, st), r => by
    have ih := Fields.dispatch_back ic F rest typ l st r
    show (if typ = t then PR.map (fun v => (some v, rest.back st)) (e.read ic F l r) else PR.map (fun st' => (x, st')) (rest.dispatch ic F typ l (rest.back st) r)) =
      PR.map (Fields.back (.cons t .req e rest)) (if typ = t then PR.map (fun v => (some v, st)) (e.read ic F l r) else PR.map (fun st' => (x, st')) (rest.relax.dispatch ic F typ l st r))
    by_cases h : typ = t
    · rw [if_pos h, if_pos h]
      rcases e.read ic F l r with _ | ⟨_ | _ | _, _⟩ <;> rfl
    · rw [if_neg h, if_neg h, ih]
      rcases rest.relax.dispatch ic F typ l st r with _ | ⟨_ | _ | _, _⟩ <;> rfl
  | .cons t .opt e rest, typ, l, (x, st), r => by
    have ih := Fields.dispatch_back ic F rest typ l st r
    show (if typ = t then PR.map (fun v => (some v, rest.back st)) (e.read ic F l r) else PR.map (fun st' => (x, st')) (rest.dispatch ic F typ l (rest.back st) r)) =
      PR.map (Fields.back (.cons t .opt e rest)) (if typ = t then PR.map (fun v => (some v, st)) (e.read ic F l r) else PR.map (fun st' => (x, st')) (rest.relax.dispatch ic F typ l st r))
    by_cases h : typ = t
    · rw [if_pos h, if_pos h]
      rcases e.read ic F l r with _ | ⟨_ | _ | _, _⟩ <;> rfl
    · rw [if_neg h, if_neg h, ih]
      rcases rest.relax.dispatch ic F typ l st r with _ | ⟨_ | _ | _, _⟩ <;> rfl
  | .cons t .seq e rest, typ, l, (x, st), r => by
    have ih := Fields.dispatch_back ic F rest typ l st r
    show (if typ = t then PR.map (fun v => (x ++ [v], rest.back st)) (e.read ic F l r) else PR.map (fun st' => (x, st')) (rest.dispatch ic F typ l (rest.back st) r)) =
      PR.map (Fields.back (.cons t .seq e rest)) (if typ = t then PR.map (fun v => (x ++ [v], st)) (e.read ic F l r) else PR.map (fun st' => (x, st')) (rest.relax.dispatch ic F typ l st r))
    by_cases h : typ = t
    · rw [if_pos h, if_pos h]
      rcases e.read ic F l r with _ | ⟨_ | _ | _, _⟩ <;> rfl
    · rw [if_neg h, if_neg h, ih]
      rcases rest.relax.dispatch ic F typ l st r with _ | ⟨_ | _ | _, _⟩ <;> rfl

/-- what the end of `Parse` makes of it -/
theorem Fields.finish_back : ∀ (fs : Fields) (v : fs.relax.V),
    fs.finish (fs.back (fs.relax.done v)) = (fs.tighten v).elim (.err .skipRequired) .ok
  | .nil, _ => rfl
  | .cons _ .req _ rest, (none, vs) => rfl
  | .flag _ rest, (b, vs) => by
    show Res.map _ (rest.finish (rest.back (rest.relax.done vs))) = ((rest.tighten vs).map _).elim _ _
    rw [Fields.finish_back rest vs]
    cases rest.tighten vs <;> rfl
  | .cons _ .req _ rest, (some v, vs) => by
    show Res.map _ (rest.finish (rest.back (rest.relax.done vs))) = ((rest.tighten vs).map _).elim _ _
    rw [Fields.finish_back rest vs]
    cases rest.tighten vs <;> rfl
  | .cons _ .opt _ rest, (o, vs) => by
    show Res.map _ (rest.finish (rest.back (rest.relax.done vs))) = ((rest.tighten vs).map _).elim _ _
    rw [Fields.finish_back rest vs]
    cases rest.tighten vs <;> rfl
  | .cons _ .seq _ rest, (l, vs) => by
    show Res.map _ (rest.finish (rest.back (rest.relax.done vs))) = ((rest.tighten vs).map _).elim _ _
    rw [Fields.finish_back rest vs]
    cases rest.tighten vs <;> rfl

theorem Fields.lacks_iff : ∀ (fs : Fields) (v : fs.relax.V), fs.Lacks v ↔ fs.tighten v = none
  | .nil, _ => ⟨fun h => h.elim, fun h => nomatch (show some () = none from h)⟩
  | .flag _ rest, (b, vs) => (Fields.lacks_iff rest vs).trans (Option.map_eq_none_iff).symm
  | .cons _ .req _ rest, (none, vs) => ⟨fun _ => rfl, fun _ => .inl rfl⟩
  | .cons _ .req _ rest, (some v, vs) =>
    ⟨fun h => Option.map_eq_none_iff.mpr ((Fields.lacks_iff rest vs).mp (h.resolve_left (by simp))),
      fun h => .inr ((Fields.lacks_iff rest vs).mpr (Option.map_eq_none_iff.mp h))⟩
  | .cons _ .opt _ rest, (o, vs) => (Fields.lacks_iff rest vs).trans (Option.map_eq_none_iff).symm
  | .cons _ .seq _ rest, (l, vs) => (Fields.lacks_iff rest vs).trans (Option.map_eq_none_iff).symm

/-- parsing a message in which required fields may be missing -/
theorem Fields.parse_relaxed (ic : Bool) (fs : Fields) (hw : fs.WF) (v : fs.relax.V) (hv : fs.relax.InRange v) (own items : List Bytes)
    (ho : fs.relax.Own ic v own) (hm : Mixed (Ignorable ic fs) own items) (hs : items.flatten.length < 2 ^ 43) (fuel : Nat)
    (hf : items.flatten.length < fuel) :
    ∃ r, Fields.parse ic fuel fs (BR.new items.flatten) = some (fs.finish (fs.back (fs.relax.done v)), r) := by
  have hst := Fields.steps ic fs.relax v own hw.relax hv ho fuel (fun t => fs.types.contains t) (Fields.dispatch ic fuel fs) fs.back
    (fun t ht => by rw [Fields.types_relax] at ht; simp [ht]) (fun t _ l st r => Fields.dispatch_back ic fuel fs t l st r)
    (fun b hb => by have := length_le_flatten (hm.sub b hb); omega)
  rw [Fields.back_init] at hst
  have h5 := (hst.mixed (fun b st h => ignorable_step h) hm).finish rfl hs hf
  refine ⟨(BR.new items.flatten).adv items.flatten.length, ?_⟩
  unfold Fields.parse
  rw [h5]

/-- C61: a message that lacks a required field is rejected with `ErrSkipRequired`, wherever in its model the field is, whatever the
other fields are, whatever else is missing and whatever ignorable elements it has. -/
theorem C61_required_missing (ic : Bool) (fs : Fields) (hw : fs.WF) (v : fs.relax.V) (hv : fs.relax.InRange v) (hl : fs.Lacks v)
    (own items : List Bytes) (ho : fs.relax.Own ic v own) (hm : Mixed (Ignorable ic fs) own items) (hs : items.flatten.length < 2 ^ 43)
    (fuel : Nat) (hf : items.flatten.length < fuel) :
    ∃ r, Fields.parse ic fuel fs (BR.new items.flatten) = some (.err .skipRequired, r) := by
  obtain ⟨r, h⟩ := Fields.parse_relaxed ic fs hw v hv own items ho hm hs fuel hf
  rw [Fields.finish_back, (Fields.lacks_iff fs v).mp hl] at h
  exact ⟨r, h⟩

/-- C61: and it is rejected for that reason only: with all the required fields there, the same message is accepted with its values. -/
theorem C61_required_present (ic : Bool) (fs : Fields) (hw : fs.WF) (v : fs.relax.V) (hv : fs.relax.InRange v) (hl : ¬fs.Lacks v)
    (own items : List Bytes) (ho : fs.relax.Own ic v own) (hm : Mixed (Ignorable ic fs) own items) (hs : items.flatten.length < 2 ^ 43)
    (fuel : Nat) (hf : items.flatten.length < fuel) :
    ∃ w r, fs.tighten v = some w ∧ Fields.parse ic fuel fs (BR.new items.flatten) = some (.ok w, r) := by
  obtain ⟨r, h⟩ := Fields.parse_relaxed ic fs hw v hv own items ho hm hs fuel hf
  rw [Fields.finish_back] at h
  rw [Fields.lacks_iff] at hl
  obtain ⟨w, hw2⟩ := Option.ne_none_iff_exists'.mp hl
  rw [hw2] at h
  exact ⟨w, r, hw2, h⟩

/-- a Nack header without a reason, with an element of unknown type 40 -/
example : ∃ r, Fields.parse false 9 networkNack (BR.new (tlv 40 [1])) = some (.err .skipRequired, r) := by
  have e : tlv 40 [1] = [tlv 40 [1]].flatten := by simp
  rw [e]
  exact C61_required_missing false networkNack ⟨by decide, by decide, by simp [Fields.types], trivial, trivial⟩
    ((none, ()) : Option Nat × Unit) ⟨trivial, trivial⟩ (.inl rfl) [] _ rfl
    (.junk ⟨40, [1], rfl, by decide, by simp [networkNack, Fields.types], .inr (by decide)⟩ .nil) (by decide) 9 (by decide)

/-- a model with two required fields of which the second is missing -/
example : ∃ r, Fields.parse false 9 (.cons 1 .req .bin (.cons 3 .req .nat .nil)) (BR.new (tlv 1 [7])) = some (.err .skipRequired, r) := by
  have e : tlv 1 [7] = [tlv 1 [7]].flatten := by simp
  rw [e]
  exact C61_required_missing false (.cons 1 .req .bin (.cons 3 .req .nat .nil))
    ⟨by decide, by decide, by simp [Fields.types], trivial, by decide, by decide, by simp [Fields.types], trivial, trivial⟩
    ((some [7], none, ()) : Option Bytes × Option Nat × Unit) ⟨by simp [Mode.All, Elem.InRange], trivial, trivial⟩ (.inr (.inl rfl)) [tlv 1 [7]] _
    ⟨[7], [], rfl, rfl, rfl⟩ (.own _ .nil) (by decide) 9 (by decide)

end Ndn.Codec
