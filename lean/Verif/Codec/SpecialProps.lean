import Verif.Codec.OrderedProps
import Verif.Codec.RunProps
import Verif.Codec.SpecialFields
import Verif.Packet.Props

/-!
# C100: the parsers of Interest and Data in zz_generated.go, statement by statement

Frame and code of the fields are run together: `OrderedProps.lean` is about the frame, with any code of the fields.
-/

namespace Ndn.Codec.Gen

/-- **C100, the text of the fields**: the statements that are run are those that are written -/
theorem C100_fields_text (f : Field) : (fieldRead f).text = readLines f ∧ (fieldSkip f).text = skipLines f := by
  obtain ⟨n, k, c⟩ := f
  cases c <;> exact ⟨rfl, rfl⟩

/-- the member `k` of a Go struct is a value with `Q` -/
def Member (kvs : List (Txt × GV)) (k : Txt) (Q : GV → Prop) : Prop := ∃ g, lookup k kvs = some g ∧ Q g

theorem Member.same {kvs : List (Txt × GV)} {k : Txt} {g : GV} {Q : GV → Prop} (h : Q g) : Member (setKv k g kvs) k Q := ⟨g, lookup_setKv k g kvs, h⟩

theorem Member.other {kvs : List (Txt × GV)} {k f : Txt} {g : GV} {Q : GV → Prop} (hn : k ≠ f) (h : Member kvs k Q) : Member (setKv f g kvs) k Q := by
  obtain ⟨x, h1, h2⟩ := h
  exact ⟨x, by rw [lookup_setKv_ne hn]; exact h1, h2⟩

/-- the members of `value`, a Go `Data`, and of its parsing context stand for a Data and its context -/
def DataStands (ms : List TModel) (s : Packet.DataV × Packet.DataCtx) (c : CState) : Prop :=
  Member c.kvs t!"NameV" (StandsSome ms .name .name s.1.name) ∧
  Member c.kvs t!"MetaInfo" (StandsSome ms (.struct Schema.metaInfo) (.struct t!"MetaInfo" false) s.1.metaInfo) ∧
  Member c.kvs t!"ContentV" (StandsSome ms .wire (.wire true) s.1.content) ∧
  Member c.kvs t!"SignatureInfo" (StandsSome ms (.struct Schema.signatureInfo) (.struct t!"SignatureInfo" false) s.1.sigInfo) ∧
  Member c.kvs t!"SignatureValue" (StandsSome ms .wire (.wire true) s.1.sigValue) ∧
  c.wires t!"sigCovered" = s.2.sigCovered ∧ c.ints t!"sigCoverStart" = s.2.sigCoverStart

/-- the same for `Interest` -/
def InterestStands (ms : List TModel) (s : Packet.InterestV × Packet.InterestCtx) (c : CState) : Prop :=
  Member c.kvs t!"NameV" (StandsSome ms .name .name s.1.name) ∧
  Member c.kvs t!"CanBePrefixV" (· = .bool s.1.canBePrefix) ∧
  Member c.kvs t!"MustBeFreshV" (· = .bool s.1.mustBeFresh) ∧
  Member c.kvs t!"ForwardingHintV" (StandsSome ms (.struct Schema.links) (.struct t!"Links" false) s.1.fwdHint) ∧
  Member c.kvs t!"NonceV" (StandsSome ms (.fixed 4 false) (.fixedUint 4 true) s.1.nonce) ∧
  Member c.kvs t!"InterestLifetimeV" (StandsSome ms .time (.time true) s.1.lifetime) ∧
  Member c.kvs t!"HopLimitV" (StandsSome ms (.fixed 1 true) (.fixedUint 1 true) s.1.hopLimit) ∧
  Member c.kvs t!"ApplicationParameters" (StandsSome ms .wire (.wire true) s.1.appParam) ∧
  Member c.kvs t!"SignatureInfo" (StandsSome ms (.struct Schema.signatureInfo) (.struct t!"SignatureInfo" false) s.1.sigInfo) ∧
  Member c.kvs t!"SignatureValue" (StandsSome ms .wire (.wire true) s.1.sigValue) ∧
  c.wires t!"sigCovered" = s.2.sigCovered ∧ c.wires t!"digestCovered" = s.2.digestCovered ∧
  c.ints t!"sigCoverStart" = s.2.sigCoverStart ∧ c.ints t!"digestCoverStart" = s.2.digestCoverStart

/-- the fields of Data -/
def dataFields : List Field :=
  [⟨t!"sigCovered", 0, .arg t!"enc.Wire"⟩, ⟨t!"sigCoverStart", 0, .offset true⟩, ⟨t!"NameV", 0x07, .name⟩, ⟨t!"MetaInfo", 0x14, .struct t!"MetaInfo" false⟩,
   ⟨t!"ContentV", 0x15, .wire true⟩, ⟨t!"SignatureInfo", 0x16, .struct t!"SignatureInfo" false⟩,
   ⟨t!"SignatureValue", 0x17, .signature t!"sigCoverStart" t!"sigCovered" true⟩]

/-- the fields of Interest -/
def interestFields : List Field :=
  [⟨t!"sigCovered", 0, .arg t!"enc.Wire"⟩, ⟨t!"digestCovered", 0, .arg t!"enc.Wire"⟩, ⟨t!"NameV", 0x07, .interestName t!"sigCovered"⟩, ⟨t!"CanBePrefixV", 0x21, .bool⟩,
   ⟨t!"MustBeFreshV", 0x12, .bool⟩, ⟨t!"ForwardingHintV", 0x1e, .struct t!"Links" false⟩, ⟨t!"NonceV", 0x0a, .fixedUint 4 true⟩, ⟨t!"InterestLifetimeV", 0x0c, .time true⟩,
   ⟨t!"HopLimitV", 0x22, .fixedUint 1 true⟩, ⟨t!"sigCoverStart", 0, .offset true⟩, ⟨t!"digestCoverStart", 0, .offset true⟩, ⟨t!"ApplicationParameters", 0x24, .wire true⟩,
   ⟨t!"SignatureInfo", 0x2c, .struct t!"SignatureInfo" false⟩, ⟨t!"SignatureValue", 0x2e, .signature t!"sigCoverStart" t!"sigCovered" true⟩,
   ⟨t!"digestCoverEnd", 0, .range t!"digestCoverStart" t!"digestCovered" true⟩]

/-- what the declarations are made into -/
theorem packet_fields : ((modelsOf specSource).find? fun m => m.name == t!"Data").map TModel.fields = some dataFields ∧
    ((modelsOf specSource).find? fun m => m.name == t!"Interest").map TModel.fields = some interestFields ∧
    parsableAt (modelsOf specSource) 4 t!"MetaInfo" = true ∧ parsableAt (modelsOf specSource) 4 t!"SignatureInfo" = true ∧ parsableAt (modelsOf specSource) 4 t!"Links" = true ∧
    resolve (modelsOf specSource) 4 t!"MetaInfo" = some Schema.metaInfo ∧ resolve (modelsOf specSource) 4 t!"SignatureInfo" = some Schema.signatureInfo ∧
    resolve (modelsOf specSource) 4 t!"Links" = some Schema.links := by decide +kernel

theorem struct_rel {α : Type} {R : α → CState → Prop} {ms : List TModel} {ic : Bool} {n : Nat} (E : Env) (hE : Calls ms ic E.fuel n E.call) {f t : Txt} {k : Nat} {fs : Fields}
    (hp : parsableAt ms n t = true) (hr : resolve ms n t = some fs) {set : α → Option fs.V → α}
    (hsome : ∀ x y (v : fs.V) g, R x y → Stands ms (.struct fs) (.struct t false) v g → R (set x (some v)) { y with kvs := setKv f g y.kvs })
    (hnone : ∀ x y, R x y → R (set x none) { y with kvs := setKv f .nil y.kvs }) :
    SlotRel R (Packet.elemSlot ic E.fuel k (.struct fs) set) (codeSlot E ⟨f, k, .struct t false⟩) :=
  elem_rel (f := ⟨f, k, .struct t false⟩) E hE rfl rfl hp (by simp [Cls.elem, hr]) rfl hsome hnone

/-- the code of the fields of Data does what the slots do -/
theorem data_slots (E : Env) (ic : Bool) (hE : Calls (modelsOf specSource) ic E.fuel 4 E.call) :
    SlotsRel (DataStands (modelsOf specSource)) (Packet.dataSlots ic E.fuel) (dataFields.map (codeSlot E)) := by
  obtain ⟨-, -, p1, p2, -, r1, r2, -⟩ := packet_fields
  generalize modelsOf specSource = ms at *
  refine ⟨arg_rel E rfl rfl, mark_rel E rfl rfl ?_, elem_rel (f := ⟨t!"NameV", 0x07, .name⟩) (e := .name) E hE rfl rfl rfl rfl rfl ?_ ?_, struct_rel E hE p1 r1 ?_ ?_,
    elem_rel (f := ⟨t!"ContentV", 0x15, .wire true⟩) (e := .wire) E hE rfl rfl rfl rfl rfl ?_ ?_, struct_rel E hE p2 r2 ?_ ?_, sig_rel (f := ⟨t!"SignatureValue", 0x17, .signature t!"sigCoverStart" t!"sigCovered" true⟩) E rfl rfl ?_ ?_ ?_, trivial⟩
  · rintro x y p ⟨h1, h2, h3, h4, h5, h6, h7⟩
    exact ⟨h1, h2, h3, h4, h5, h6, rfl⟩
  · rintro x y v g ⟨h1, h2, h3, h4, h5, h6, h7⟩ hv
    exact ⟨.same hv, .other (by decide) h2, .other (by decide) h3, .other (by decide) h4, .other (by decide) h5, h6, h7⟩
  · rintro x y ⟨h1, h2, h3, h4, h5, h6, h7⟩
    exact ⟨.same rfl, .other (by decide) h2, .other (by decide) h3, .other (by decide) h4, .other (by decide) h5, h6, h7⟩
  · rintro x y v g ⟨h1, h2, h3, h4, h5, h6, h7⟩ hv
    exact ⟨.other (by decide) h1, .same hv, .other (by decide) h3, .other (by decide) h4, .other (by decide) h5, h6, h7⟩
  · rintro x y ⟨h1, h2, h3, h4, h5, h6, h7⟩
    exact ⟨.other (by decide) h1, .same rfl, .other (by decide) h3, .other (by decide) h4, .other (by decide) h5, h6, h7⟩
  · rintro x y v g ⟨h1, h2, h3, h4, h5, h6, h7⟩ hv
    exact ⟨.other (by decide) h1, .other (by decide) h2, .same hv, .other (by decide) h4, .other (by decide) h5, h6, h7⟩
  · rintro x y ⟨h1, h2, h3, h4, h5, h6, h7⟩
    exact ⟨.other (by decide) h1, .other (by decide) h2, .same rfl, .other (by decide) h4, .other (by decide) h5, h6, h7⟩
  · rintro x y v g ⟨h1, h2, h3, h4, h5, h6, h7⟩ hv
    exact ⟨.other (by decide) h1, .other (by decide) h2, .other (by decide) h3, .same hv, .other (by decide) h5, h6, h7⟩
  · rintro x y ⟨h1, h2, h3, h4, h5, h6, h7⟩
    exact ⟨.other (by decide) h1, .other (by decide) h2, .other (by decide) h3, .same rfl, .other (by decide) h5, h6, h7⟩
  · rintro x y ⟨h1, h2, h3, h4, h5, h6, h7⟩
    exact h7
  · rintro x y v w ⟨h1, h2, h3, h4, h5, h6, h7⟩
    exact ⟨.other (by decide) h1, .other (by decide) h2, .other (by decide) h3, .other (by decide) h4, .same ⟨true, rfl, rfl⟩, by simp [ctxUpd, h6], h7⟩
  · rintro x y ⟨h1, h2, h3, h4, h5, h6, h7⟩
    exact ⟨.other (by decide) h1, .other (by decide) h2, .other (by decide) h3, .other (by decide) h4, .same rfl, h6, h7⟩

/-- the code of the fields of Interest does what the slots do -/
theorem interest_slots (E : Env) (ic : Bool) (hE : Calls (modelsOf specSource) ic E.fuel 4 E.call) :
    SlotsRel (InterestStands (modelsOf specSource)) (Packet.interestSlots ic E.fuel) (interestFields.map (codeSlot E)) := by
  obtain ⟨-, -, -, p2, p3, -, r2, r3⟩ := packet_fields
  generalize modelsOf specSource = ms at *
  refine ⟨arg_rel E rfl rfl, arg_rel E rfl rfl, intName_rel (f := ⟨t!"NameV", 0x07, .interestName t!"sigCovered"⟩) (set := fun (s : Packet.InterestV × Packet.InterestCtx) nc => ({ s.1 with name := some nc.1 }, { s.2 with sigCovered := s.2.sigCovered ++ nc.2 })) E rfl rfl ?_ ?_,
    flag_rel (f := ⟨t!"CanBePrefixV", 0x21, .bool⟩) E rfl rfl ?_, flag_rel (f := ⟨t!"MustBeFreshV", 0x12, .bool⟩) E rfl rfl ?_, struct_rel E hE p3 r3 ?_ ?_,
    elem_rel (f := ⟨t!"NonceV", 0x0a, .fixedUint 4 true⟩) (e := .fixed 4 false) E hE rfl rfl rfl rfl rfl ?_ ?_, elem_rel (f := ⟨t!"InterestLifetimeV", 0x0c, .time true⟩) (e := .time) E hE rfl rfl rfl rfl rfl ?_ ?_, elem_rel (f := ⟨t!"HopLimitV", 0x22, .fixedUint 1 true⟩) (e := .fixed 1 true) E hE rfl rfl rfl rfl rfl ?_ ?_, mark_rel E rfl rfl ?_, mark_rel E rfl rfl ?_,
    elem_rel (f := ⟨t!"ApplicationParameters", 0x24, .wire true⟩) (e := .wire) E hE rfl rfl rfl rfl rfl ?_ ?_, struct_rel E hE p2 r2 ?_ ?_, sig_rel (f := ⟨t!"SignatureValue", 0x2e, .signature t!"sigCoverStart" t!"sigCovered" true⟩) E rfl rfl ?_ ?_ ?_,
    range_rel (f := ⟨t!"digestCoverEnd", 0, .range t!"digestCoverStart" t!"digestCovered" true⟩) (from_ := fun (s : Packet.InterestV × Packet.InterestCtx) => s.2.digestCoverStart) (set := fun (s : Packet.InterestV × Packet.InterestCtx) w => (s.1, { s.2 with digestCovered := w })) E rfl rfl (by decide) ?_ ?_, trivial⟩
  all_goals
    first
    | (rintro x y v g ⟨h1, h2, h3, h4, h5, h6, h7, h8, h9, h10, h11, h12, h13, h14⟩ hv
       refine ⟨?_, ?_, ?_, ?_, ?_, ?_, ?_, ?_, ?_, ?_, h11, h12, h13, h14⟩ <;> first | exact .same hv | exact .other (by decide) (by assumption))
    | (rintro x y v w ⟨h1, h2, h3, h4, h5, h6, h7, h8, h9, h10, h11, h12, h13, h14⟩
       refine ⟨?_, ?_, ?_, ?_, ?_, ?_, ?_, ?_, ?_, ?_, ?_, ?_, ?_, ?_⟩ <;>
         first
         | exact .same ⟨true, rfl, rfl⟩
         | exact .same ⟨rfl, rfl⟩
         | exact .other (by decide) (by assumption)
         | assumption
         | exact Eq.trans (if_neg (by decide)) (by assumption)
         | simp [ctxUpd, h11])
    | (rintro x y b ⟨h1, h2, h3, h4, h5, h6, h7, h8, h9, h10, h11, h12, h13, h14⟩
       refine ⟨?_, ?_, ?_, ?_, ?_, ?_, ?_, ?_, ?_, ?_, h11, h12, h13, h14⟩ <;> first | exact .same rfl | exact .other (by decide) (by assumption))
    | (rintro x y p ⟨h1, h2, h3, h4, h5, h6, h7, h8, h9, h10, h11, h12, h13, h14⟩
       exact ⟨h1, h2, h3, h4, h5, h6, h7, h8, h9, h10, h11, h12, by first | rfl | exact h13, by first | rfl | exact h14⟩)
    | (rintro x y ⟨h1, h2, h3, h4, h5, h6, h7, h8, h9, h10, h11, h12, h13, h14⟩
       first
       | exact h13
       | exact h14
       | (refine ⟨?_, ?_, ?_, ?_, ?_, ?_, ?_, ?_, ?_, ?_, h11, h12, h13, h14⟩ <;> first | exact .same rfl | exact .other (by decide) (by assumption)))

/-- what is around the code of the fields: the `Parse` of other models -/
def packetEnv (ms : List TModel) (ic : Bool) (fuel depth : Nat) : Env := ⟨fun t r => parseOf ms ic fuel depth t (some r), ic, fuel, []⟩

/-- running the `Parse` of an ordered model, with the code of all fields -/
def runOrdered (ms : List TModel) (ic : Bool) (fuel depth : Nat) (m : TModel) (c : CState) (r : BR) : Option (PR CState) :=
  ((orderedBody m.name m.fields).run ic (newValue m.fields) (runRead (packetEnv ms ic fuel depth)) (runSkip (packetEnv ms ic fuel depth)) fuel (qStart c r false)).result

/-- **C100, the library**: the lines of zz_generated.go for the parsers of Interest and Data are what the generator writes; and running them, frame, fields and the parsers
of the models inside, gives for every input the outcome of `parseInterest` and `parseData`, with which the properties of packets are proved: the same value, covered parts and
place in the input, or the same error, or a panic, or no end -/
theorem C100_library {ord : Nat → List (Txt × Kind)} (h : ∀ i, (ord i).Perm classTable) : ∃ ms int data, processAll ord specSource = .ok ms ∧
    (∀ p ∈ orderedParsers, SameOrdered ms p.1 p.2) ∧
    (ms.find? fun m => m.name == t!"Interest") = some int ∧ (ms.find? fun m => m.name == t!"Data") = some data ∧
    (∀ (ic : Bool) (fuel depth : Nat) (ctx : Packet.InterestCtx) (c : CState) (r : BR), 4 ≤ depth → r.Good →
      c.wires t!"sigCovered" = ctx.sigCovered → c.wires t!"digestCovered" = ctx.digestCovered → c.ints t!"sigCoverStart" = ctx.sigCoverStart →
      c.ints t!"digestCoverStart" = ctx.digestCoverStart →
      ∃ x, runOrdered ms ic fuel depth int c r = some x ∧ RelPR (InterestStands ms) (Packet.parseInterest ic fuel ctx r) x) ∧
    (∀ (ic : Bool) (fuel depth : Nat) (ctx : Packet.DataCtx) (c : CState) (r : BR), 4 ≤ depth → r.Good →
      c.wires t!"sigCovered" = ctx.sigCovered → c.ints t!"sigCoverStart" = ctx.sigCoverStart →
      ∃ x, runOrdered ms ic fuel depth data c r = some x ∧ RelPR (DataStands ms) (Packet.parseData ic fuel ctx r) x) := by
  obtain ⟨ms, hms, htext⟩ := C100_text h
  have hmo : modelsOf specSource = ms := by
    rw [processAll_order h] at hms
    simp only [modelsOf, hms]
  obtain ⟨f1, f2, -⟩ := packet_fields
  rw [hmo, Option.map_eq_some_iff] at f1 f2
  obtain ⟨data, hd, hdf⟩ := f1
  obtain ⟨int, hi, hif⟩ := f2
  refine ⟨ms, int, data, hms, htext, hi, hd, ?_, ?_⟩
  · intro ic fuel depth ctx c r hdep hr w1 w2 i1 i2
    refine ⟨_, C100_frame _ _ (by rw [hif]; decide +kernel) (by rw [hif]; decide +kernel) _ _ _ _ _ _ _, ?_⟩
    have hs := interest_slots (packetEnv ms ic fuel depth) ic (by rw [hmo]; exact parse_sim ms ic fuel 4 depth hdep)
    rw [hmo, ← hif] at hs
    refine ordParse_rel ic fuel hs _ _ ?_ r hr
    rw [hif]
    exact ⟨⟨.nil, rfl, rfl⟩, ⟨_, rfl, rfl⟩, ⟨_, rfl, rfl⟩, ⟨.nil, rfl, rfl⟩, ⟨.nil, rfl, rfl⟩, ⟨.nil, rfl, rfl⟩, ⟨.nil, rfl, rfl⟩, ⟨.nil, rfl, rfl⟩, ⟨.nil, rfl, rfl⟩,
      ⟨.nil, rfl, rfl⟩, w1, w2, i1, i2⟩
  · intro ic fuel depth ctx c r hdep hr w1 i1
    refine ⟨_, C100_frame _ _ (by rw [hdf]; decide +kernel) (by rw [hdf]; decide +kernel) _ _ _ _ _ _ _, ?_⟩
    have hs := data_slots (packetEnv ms ic fuel depth) ic (by rw [hmo]; exact parse_sim ms ic fuel 4 depth hdep)
    rw [hmo, ← hdf] at hs
    refine ordParse_rel ic fuel hs _ _ ?_ r hr
    rw [hdf]
    exact ⟨⟨.nil, rfl, rfl⟩, ⟨.nil, rfl, rfl⟩, ⟨.nil, rfl, rfl⟩, ⟨.nil, rfl, rfl⟩, ⟨.nil, rfl, rfl⟩, w1, i1⟩

/-- a Data with a name, content and a signature: the code of zz_generated.go reads the signature and the bytes that it covers -/
example : ∃ ms data c', (ms.find? fun m => m.name == t!"Data") = some data ∧
    runOrdered ms false 10 4 data ⟨[], fun _ => 0, fun _ => []⟩ ⟨[7, 3, 8, 1, 65, 21, 2, 1, 2, 23, 1, 5], 0⟩ =
      some (some (.ok c', ⟨[7, 3, 8, 1, 65, 21, 2, 1, 2, 23, 1, 5], 12⟩)) ∧
    lookup t!"NameV" c'.kvs = some (.name [⟨8, [65]⟩]) ∧ lookup t!"MetaInfo" c'.kvs = some .nil ∧ lookup t!"SignatureValue" c'.kvs = some (.wire [[5]]) ∧
    c'.wires t!"sigCovered" = [[7, 3, 8, 1, 65, 21, 2, 1, 2]] := by
  obtain ⟨ms, _, data, _, _, _, hd, _, h⟩ := C100_library (ord := asWritten) fun _ => .refl _
  obtain ⟨x, h1, h2⟩ := h false 10 4 {} ⟨[], fun _ => 0, fun _ => []⟩ ⟨[7, 3, 8, 1, 65, 21, 2, 1, 2, 23, 1, 5], 0⟩ (Nat.le_refl _) ⟨by decide, by decide⟩ rfl rfl
  rw [Packet.signedData_parse] at h2
  rcases x with _ | ⟨c' | _ | _, r'⟩
  · exact h2.elim
  · obtain ⟨rfl, -, ⟨g1, a1, b1⟩, ⟨g2, a2, b2⟩, -, -, ⟨g5, a5, b5⟩, h6, -⟩ := h2
    obtain ⟨-, rfl⟩ : _ ∧ g1 = _ := b1
    obtain rfl : g2 = _ := b2
    obtain ⟨_, -, rfl⟩ : ∃ nc, _ ∧ g5 = _ := b5
    exact ⟨ms, data, c', hd, h1, a1, a2, a5, h6⟩
  · exact h2.elim
  · exact h2.elim

end Ndn.Codec.Gen
