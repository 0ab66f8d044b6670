import Verif.Codec.PacketRunProps

/-!
# `ReadData`, `ReadInterest` and `ReadPacket` on the values of the emitted parser (C101)

The functions of /repo/pkg/ndn/spec_2022/spec.go on what `Parse` of Packet in zz_generated.go returns, a Go struct whose members may be nil, and its contexts.
-/

namespace Ndn.Codec.Gen

/-- a call of `context.Parse` followed by the rest of the function; the rest panics if it is `none`, as where a nil pointer is dereferenced -/
def afterParse {α : Type} (o : XOut PacketCtx) (k : List (Txt × GV) → PacketCtx → Option (Except Packet.PErr α)) : Option (Res (Except Packet.PErr α)) :=
  match o with
  | .ret (.ptr (.struct kvs)) none c =>
    match k kvs c with
    | some x => some (.ok x)
    | none => some .panic
  | .ret _ (some e) _ => some (.ok (.error (.parse e)))
  | .stuck => none
  | _ => some .panic

/-- the members of a struct that a pointer points to -/
def pointee : GV → Option (List (Txt × GV))
  | .ptr (.struct kvs) => some kvs
  | _ => none

/-- `checkInterest`, spec.go:529-556 -/
def codeCheck (sha : Bytes → Bytes) (kvs : List (Txt × GV)) (digestCovered : Wire) : Option (Option Packet.PErr) := do
  let name ← lookup t!"NameV" kvs
  if name.isNil then return some .invalid
  let sig ← lookup t!"SignatureValue" kvs
  let app ← lookup t!"ApplicationParameters" kvs
  if !sig.isNil && app.isNil then return some .incorrectDigest
  if !app.isNil then
    match name with
    | .name n =>
      match (n : List Component).getLast? with
      | none => return some .incorrectDigest
      | some c =>
        if c.typ ≠ 2 then return some .incorrectDigest
        if c.val ≠ sha digestCovered.flatten then return some .incorrectDigest
        return none
    | _ => none
  else return none

/-- `Spec.ReadData`, spec.go:353-367 (in the model, `Packet.readData`) -/
def codeReadData (o : XOut PacketCtx) : Option (Res (Except Packet.PErr (GV × Wire))) :=
  afterParse o fun kvs c => do
    let data ← lookup t!"Data" kvs
    if data.isNil then return .error .wrongType
    let name ← lookup t!"NameV" (← pointee data)
    if name.isNil then return .error .invalid
    return .ok (data, c.dwires t!"sigCovered")

/-- `Spec.ReadInterest`, spec.go:558-575 -/
def codeReadInterest (sha : Bytes → Bytes) (o : XOut PacketCtx) : Option (Res (Except Packet.PErr (GV × Wire))) :=
  afterParse o fun kvs c => do
    let int ← lookup t!"Interest" kvs
    if int.isNil then return .error .wrongType
    match ← codeCheck sha (← pointee int) (c.iwires t!"digestCovered") with
    | some e => return .error e
    | none => return .ok (int, c.iwires t!"sigCovered")

/-- `ReadPacket`, spec.go:593-618 -/
def codeReadPacket (sha : Bytes → Bytes) (o : XOut PacketCtx) : Option (Res (Except Packet.PErr (List (Txt × GV) × PacketCtx))) :=
  afterParse o fun kvs c => do
    let data ← lookup t!"Data" kvs
    let int ← lookup t!"Interest" kvs
    let lp ← lookup t!"LpPacket" kvs
    if !data.isNil then
      let name ← lookup t!"NameV" (← pointee data)
      if name.isNil then return .error .invalid
      return .ok (kvs, c)
    else if !int.isNil then
      match ← codeCheck sha (← pointee int) (c.iwires t!"digestCovered") with
      | some e => return .error e
      | none => return .ok (kvs, c)
    else if !lp.isNil then
      let frag ← lookup t!"Fragment" (← pointee lp)
      if frag.isNil then return .error .invalid
      return .ok (kvs, c)
    else return .error .wrongType

/-- the same outcome: no end, a panic, the same error, or results that stand for each other -/
def SameRead {α β : Type} (R : α → β → Prop) : Option (Res (Except Packet.PErr α)) → Option (Res (Except Packet.PErr β)) → Prop
  | none, y => y = none
  | some .panic, y => y = some .panic
  | some (.err e), y => y = some (.err e)
  | some (.ok (.error e)), y => y = some (.ok (.error e))
  | some (.ok (.ok a)), y => ∃ b, y = some (.ok (.ok b)) ∧ R a b

theorem SameRead.ok {α β : Type} {R : α → β → Prop} {x : Except Packet.PErr α} {y : Option (Res (Except Packet.PErr β))} (h : SameRead R (some (.ok x)) y) :
    ∃ z, y = some (.ok z) := by
  cases x with
  | error e => exact ⟨_, h⟩
  | ok a => obtain ⟨b, h, -⟩ := h; exact ⟨_, h⟩

theorem isNil_nil : GV.nil.isNil = true := rfl

theorem isNil_ptr (g : GV) : (GV.ptr g).isNil = false := rfl

theorem standsSome_nil {ms : List TModel} {e : Elem} {c : Cls} {v : Option e.V} {g : GV} (h : StandsSome ms e c v g) (hn : ∀ x, v = some x → Stands ms e c x g → g.isNil = false) :
    g.isNil = v.isNone := by
  cases v with
  | none => obtain rfl : g = .nil := h; rfl
  | some x => exact hn x rfl h

theorem name_nil {ms : List TModel} {c : Cls} {v : Option Name} {g : GV} (h : StandsSome ms .name c v g) : g.isNil = v.isNone := by
  refine standsSome_nil h fun x _ hx => ?_
  obtain ⟨-, rfl⟩ := hx
  rfl

theorem wire_nil {ms : List TModel} {c : Cls} {v : Option Wire} {g : GV} (h : StandsSome ms .wire c v g) : g.isNil = v.isNone := by
  refine standsSome_nil h fun x _ hx => ?_
  obtain ⟨_, -, rfl⟩ := hx
  rfl

theorem check_same {ms : List TModel} (sha : Bytes → Bytes) {v : Packet.InterestV} {ctx ctx' : Packet.InterestCtx} {c : CState} (h : InterestStands ms (v, ctx') c) {w : Wire}
    (hw : w = ctx.digestCovered) : codeCheck sha c.kvs w = some (Packet.checkInterest sha v ctx) := by
  obtain ⟨⟨g1, a1, b1⟩, -, -, -, -, -, -, ⟨g2, a2, b2⟩, -, ⟨g3, a3, b3⟩, -⟩ := h
  have n1 := name_nil b1
  have n2 := wire_nil b2
  have n3 := wire_nil b3
  subst hw
  unfold codeCheck Packet.checkInterest
  simp only [a1, a2, a3, Option.bind_eq_bind, Option.bind_some, n1, n2, n3]
  cases hn : v.name with
  | none => rfl
  | some n =>
    simp only [hn] at b1
    obtain ⟨-, rfl⟩ : _ ∧ g1 = _ := b1
    cases v.sigValue <;> cases v.appParam <;> simp [pure]
    all_goals
      cases hl : (n : List Component).getLast? with
      | none => simp
      | some c => simp only [Packet.typParamsDigest]; by_cases h2 : c.typ = 2 <;> by_cases h3 : c.val = sha ctx.digestCovered.flatten <;> simp [h2, h3]

theorem stands_opt {ms : List TModel} {t : Nat} {e : Elem} {rest : Fields} : ∀ {fields : List Field} {v : (Fields.cons t .opt e rest).V} {kvs : List (Txt × GV)},
    StandsAll ms (.cons t .opt e rest) fields v kvs → ∃ f l, fields = f :: l ∧ Member kvs f.name (StandsSome ms e f.cls v.1) ∧ StandsAll ms rest l v.2 kvs := by
  intro fields v kvs h
  obtain ⟨x, vs⟩ := v
  cases x with
  | none =>
    rw [StandsAll] at h
    obtain ⟨f, l, h1, -, -, h2, h3⟩ := h
    exact ⟨f, l, h1, ⟨.nil, h2, rfl⟩, h3⟩
  | some x =>
    rw [StandsAll] at h
    obtain ⟨f, l, h1, -, -, h2, h3⟩ := h
    exact ⟨f, l, h1, h2, h3⟩

theorem stands_flag {ms : List TModel} {t : Nat} {rest : Fields} {fields : List Field} {v : (Fields.flag t rest).V} {kvs : List (Txt × GV)}
    (h : StandsAll ms (.flag t rest) fields v kvs) : ∃ f l, fields = f :: l ∧ StandsAll ms rest l v.2 kvs := by
  obtain ⟨x, vs⟩ := v
  rw [StandsAll] at h
  obtain ⟨f, l, h1, -, -, -, h3⟩ := h
  exact ⟨f, l, h1, h3⟩

/-- the member Fragment of an LpPacket -/
theorem lp_fragment {ms : List TModel} {fields : List Field} {v : Schema.lpPacket.V} {kvs : List (Txt × GV)} (h : StandsAll ms Schema.lpPacket fields v kvs)
    (hn : (fields.map Field.name)[13]? = some t!"Fragment") : Member kvs t!"Fragment" fun g => g.isNil = (Packet.lpFragment v).isNone := by
  obtain ⟨_, l1, rfl, -, h⟩ := stands_opt h
  obtain ⟨_, l2, rfl, -, h⟩ := stands_opt h
  obtain ⟨_, l3, rfl, -, h⟩ := stands_opt h
  obtain ⟨_, l4, rfl, -, h⟩ := stands_opt h
  obtain ⟨_, l5, rfl, -, h⟩ := stands_opt h
  obtain ⟨_, l6, rfl, -, h⟩ := stands_opt h
  obtain ⟨_, l7, rfl, -, h⟩ := stands_opt h
  obtain ⟨_, l8, rfl, -, h⟩ := stands_opt h
  obtain ⟨_, l9, rfl, -, h⟩ := stands_opt h
  obtain ⟨_, l10, rfl, -, h⟩ := stands_opt h
  obtain ⟨_, l11, rfl, -, h⟩ := stands_opt h
  obtain ⟨_, l12, rfl, h'⟩ := stands_flag h
  obtain ⟨_, l13, rfl, -, h''⟩ := stands_opt h'
  obtain ⟨f, l14, rfl, ⟨g, hg, hs⟩, -⟩ := stands_opt h''
  have hf : f.name = t!"Fragment" := by simpa using hn
  exact ⟨g, hf ▸ hg, wire_nil hs⟩

section
variable {ms : List TModel} {o : XOut PacketCtx}

theorem afterParse_same {α β : Type} {R : α → β → Prop} {x : PR Packet.PacketSt} (h : SameEnd ms o x) {f : Packet.PacketSt → Except Packet.PErr α}
    {k : List (Txt × GV) → PacketCtx → Option (Except Packet.PErr β)}
    (hk : ∀ s kvs c, PacketStands ms s kvs c → SameRead R (some (.ok (f s))) ((k kvs c).map .ok)) : SameRead R (Packet.finishParse x f) (afterParse o k) := by
  rcases x with _ | ⟨s | e | _, r⟩
  · obtain rfl : o = .stuck := h
    rfl
  · obtain ⟨kvs, c, rfl, hs⟩ := h
    have := hk s kvs c hs
    simp only [Packet.finishParse, afterParse]
    cases hkc : k kvs c with
    | some y => rw [hkc] at this; exact this
    | none =>
      rw [hkc] at this
      revert this
      rcases f s with e | a <;> intro this
      · cases this
      · obtain ⟨_, h, -⟩ := this
        cases h
  · obtain ⟨c, rfl⟩ := h
    rfl
  · obtain rfl : o = .panic := h
    rfl

theorem data_member {v : Option Packet.DataV} {g : GV} (h : DataMember ms v g) : (v = none ∧ g = .nil) ∨
    ∃ d kvs, v = some d ∧ g = .ptr (.struct kvs) ∧ Member kvs t!"NameV" fun n => n.isNil = d.name.isNone := by
  cases v with
  | none => exact .inl ⟨rfl, h⟩
  | some d =>
    obtain ⟨kvs, _, _, _, rfl, ⟨n, hn, hs⟩, -⟩ := h
    exact .inr ⟨d, kvs, rfl, rfl, n, hn, name_nil hs⟩

theorem readData_same {x : PR Packet.PacketSt} (h : SameEnd ms o x) : SameRead (fun p q => DataMember ms (some p.1) q.1 ∧ q.2 = p.2)
    (Packet.finishParse x fun s => match s.data with
      | none => .error .wrongType
      | some d => if d.name.isNone then .error .invalid else .ok (d, s.dctx.sigCovered)) (codeReadData o) := by
  refine afterParse_same h fun s kvs c hs => ?_
  obtain ⟨-, ⟨g, hg, hm⟩, -, -, -, -, -, hw, -⟩ := hs
  rcases data_member hm with ⟨hv, rfl⟩ | ⟨d, dk, hv, rfl, n, hn, hi⟩
  · simp [hv, hg, isNil_nil, pure, SameRead]
  · simp only [hv, hg, Option.bind_eq_bind, Option.bind_some, isNil_ptr, pointee, hn, hi]
    cases d.name with
    | none => rfl
    | some nm => exact ⟨(_, _), rfl, by rw [← hv]; exact hm, hw⟩

theorem readInterest_same (sha : Bytes → Bytes) {x : PR Packet.PacketSt} (h : SameEnd ms o x) : SameRead (fun p q => InterestMember ms (some p.1) q.1 ∧ q.2 = p.2)
    (Packet.finishParse x fun s => match s.interest with
      | none => .error .wrongType
      | some i => match Packet.checkInterest sha i s.ictx with
        | some e => .error e
        | none => .ok (i, s.ictx.sigCovered)) (codeReadInterest sha o) := by
  refine afterParse_same h fun s kvs c hs => ?_
  obtain ⟨⟨g, hg, hm⟩, -, -, hw, hdc, -⟩ := hs
  cases hv : s.interest with
  | none =>
    rw [hv] at hm
    obtain rfl : g = .nil := hm
    simp [hg, isNil_nil, pure, SameRead]
  | some i =>
    rw [hv] at hm
    obtain ⟨ik, _, _, _, rfl, hi⟩ := id hm
    simp only [hg, Option.bind_eq_bind, Option.bind_some, isNil_ptr, pointee]
    rw [check_same sha hi (ctx := s.ictx) hdc]
    simp only [Option.bind_some]
    cases Packet.checkInterest sha i s.ictx with
    | some e => rfl
    | none => exact ⟨_, rfl, hm, hw⟩

theorem readPacket_same (sha : Bytes → Bytes) (hlp : ∀ m, (ms.find? fun m => m.name == t!"LpPacket") = some m → (m.fields.map Field.name)[13]? = some t!"Fragment")
    {x : PR Packet.PacketSt} (h : SameEnd ms o x) : SameRead (fun s q => PacketStands ms s q.1 q.2)
    (Packet.finishParse x fun s => match s.data, s.interest, s.lp with
      | some d, _, _ => if d.name.isNone then .error .invalid else .ok s
      | none, some i, _ =>
        match Packet.checkInterest sha i s.ictx with
        | some e => .error e
        | none => .ok s
      | none, none, some v => if (Packet.lpFragment v).isNone then .error .invalid else .ok s
      | none, none, none => .error .wrongType) (codeReadPacket sha o) := by
  refine afterParse_same h fun s kvs c hs => ?_
  obtain ⟨⟨g1, hg1, hm1⟩, ⟨g2, hg2, hm2⟩, ⟨g3, hg3, hm3⟩, hw, hdc, -⟩ := id hs
  simp only [hg1, hg2, hg3, Option.bind_eq_bind, Option.bind_some]
  rcases data_member hm2 with ⟨hv, rfl⟩ | ⟨d, dk, hv, rfl, n, hn, hi⟩
  · simp only [hv, isNil_nil, Bool.not_true, Bool.false_eq_true, if_false]
    cases hv1 : s.interest with
    | some i =>
      rw [hv1] at hm1
      obtain ⟨ik, _, _, _, rfl, hi⟩ := id hm1
      simp only [isNil_ptr, Bool.not_false, if_true, pointee, Option.bind_some]
      rw [check_same sha hi (ctx := s.ictx) hdc]
      simp only [Option.bind_some]
      cases Packet.checkInterest sha i s.ictx with
      | some e => rfl
      | none => exact ⟨_, rfl, hs⟩
    | none =>
      rw [hv1] at hm1
      obtain rfl : g1 = .nil := hm1
      simp only [isNil_nil, Bool.not_true, Bool.false_eq_true, if_false]
      cases hv3 : s.lp with
      | none =>
        rw [hv3] at hm3
        obtain rfl : g3 = .nil := hm3
        rfl
      | some v =>
        rw [hv3] at hm3
        have hm3' : Stands ms (.struct Schema.lpPacket) (.struct t!"LpPacket" true) v g3 := hm3
        obtain ⟨t, nc, m, lk, hc, hm, -, rfl, hall⟩ := hm3'
        injection hc with hc _
        subst hc
        obtain ⟨fr, hf, hfn⟩ := lp_fragment hall (hlp m hm)
        simp only [isNil_ptr, Bool.not_false, if_true, pointee, Option.bind_some, hf, hfn]
        cases Packet.lpFragment v with
        | none => rfl
        | some _ => exact ⟨_, rfl, hs⟩
  · simp only [hv, Option.bind_some, isNil_ptr, Bool.not_false, if_true, pointee, hn, hi]
    cases d.name with
    | none => rfl
    | some nm => exact ⟨_, rfl, hs⟩

end

theorem lp_names : ((modelsOf specSource).find? fun m => m.name == t!"LpPacket").map (fun m => (m.fields.map Field.name)[13]?) = some (some t!"Fragment") := by decide +kernel

/-- **C101, the functions that read packets**: `ReadData`, `ReadInterest` and `ReadPacket` of spec.go, on the values and contexts that the code of zz_generated.go makes, have for
every input and every hash function the outcome of the models of them: the same error, or Go values that stand for the same Data, Interest or packet, with the same covered bytes -/
theorem C101_read {ord : Nat → List (Txt × Kind)} (h : ∀ i, (ord i).Perm classTable) : ∃ ms packet, processAll ord specSource = .ok ms ∧
    (ms.find? fun m => m.name == t!"Packet") = some packet ∧ ∀ (sha : Bytes → Bytes) (fuel depth : Nat) (r : BR), 4 ≤ depth → r.Good →
      SameRead (fun p q => DataMember ms (some p.1) q.1 ∧ q.2 = p.2) (Packet.readData fuel r) (codeReadData (runPacket ms false fuel depth packet r)) ∧
      SameRead (fun p q => InterestMember ms (some p.1) q.1 ∧ q.2 = p.2) (Packet.readInterest sha fuel r) (codeReadInterest sha (runPacket ms false fuel depth packet r)) ∧
      SameRead (fun s q => PacketStands ms s q.1 q.2) (Packet.readPacket sha fuel r) (codeReadPacket sha (runPacket ms false fuel depth packet r)) := by
  obtain ⟨ms, packet, hms, -, hp, hrun⟩ := C101_library h
  refine ⟨ms, packet, hms, hp, fun sha fuel depth r hd hr => ?_⟩
  have he := hrun false fuel depth r hd hr
  refine ⟨readData_same he, readInterest_same sha he, readPacket_same sha ?_ he⟩
  have hmo : modelsOf specSource = ms := by
    rw [processAll_order h] at hms
    simp only [modelsOf, hms]
  intro m hm
  have := lp_names
  rw [hmo, hm] at this
  simpa using this

/-- **C101, an end**: on every buffer without TLV numbers of `2^43` or more, `ReadData`, `ReadInterest` and `ReadPacket` with the code of zz_generated.go return a packet or an error,
in at most as many rounds as there are bytes.  Missing: other buffers (`C101_diverges`, `C101_panics`). -/
theorem C101_total_partial {ord : Nat → List (Txt × Kind)} (h : ∀ i, (ord i).Perm classTable) : ∃ ms packet, processAll ord specSource = .ok ms ∧
    (ms.find? fun m => m.name == t!"Packet") = some packet ∧ ∀ (sha : Bytes → Bytes) (buf : Bytes), buf.length < 2 ^ 62 → Calm buf → ∀ fuel depth, buf.length < fuel → 4 ≤ depth →
      (∃ x, codeReadData (runPacket ms false fuel depth packet (BR.new buf)) = some (.ok x)) ∧
      (∃ x, codeReadInterest sha (runPacket ms false fuel depth packet (BR.new buf)) = some (.ok x)) ∧
      ∃ x, codeReadPacket sha (runPacket ms false fuel depth packet (BR.new buf)) = some (.ok x) := by
  obtain ⟨ms, packet, hms, hp, hr⟩ := C101_read h
  refine ⟨ms, packet, hms, hp, fun sha buf hb hc fuel depth hf hd => ?_⟩
  obtain ⟨h1, h2, h3⟩ := hr sha fuel depth (BR.new buf) hd (.new hb)
  obtain ⟨⟨x3, e3⟩, ⟨x2, e2⟩, ⟨x1, e1⟩⟩ := Packet.C24_readPacket_total_partial sha buf hb hc fuel hf
  exact ⟨(e1 ▸ h1).ok, (e2 ▸ h2).ok, (e3 ▸ h3).ok⟩

/-- the code of zz_generated.go runs forever on ten bytes -/
theorem C101_diverges {ord : Nat → List (Txt × Kind)} (h : ∀ i, (ord i).Perm classTable) : ∃ ms packet, processAll ord specSource = .ok ms ∧
    (ms.find? fun m => m.name == t!"Packet") = some packet ∧ ∀ fuel depth, 4 ≤ depth → codeReadData (runPacket ms false fuel depth packet (BR.new loopBytes)) = none := by
  obtain ⟨ms, packet, hms, hp, hr⟩ := C101_read h
  refine ⟨ms, packet, hms, hp, fun fuel depth hd => ?_⟩
  obtain ⟨h1, -⟩ := hr id fuel depth (BR.new loopBytes) hd (.new (by decide))
  rw [(Packet.C23_readPacket_diverges id fuel).2.2] at h1
  exact h1

/-- the code of zz_generated.go panics on twelve bytes -/
theorem C101_panics {ord : Nat → List (Txt × Kind)} (h : ∀ i, (ord i).Perm classTable) : ∃ ms packet, processAll ord specSource = .ok ms ∧
    (ms.find? fun m => m.name == t!"Packet") = some packet ∧ ∀ sha fuel depth, 2 ≤ fuel → 4 ≤ depth →
      codeReadInterest sha (runPacket ms false fuel depth packet (BR.new Packet.panicBytes)) = some .panic := by
  obtain ⟨ms, packet, hms, hp, hr⟩ := C101_read h
  refine ⟨ms, packet, hms, hp, fun sha fuel depth hf hd => ?_⟩
  obtain ⟨-, h1, -⟩ := hr sha fuel depth (BR.new Packet.panicBytes) hd (.new (by decide))
  rw [(Packet.C24_readPacket_panics sha fuel hf).2] at h1
  exact h1

/-- **C101, nil**: the `Parse` of any model without `ordered` gives an error for a nil reader -/
theorem C101_nil {σ : Type} (m : TModel) (ic : Bool) (fuel : Nat) (zero : List (Txt × GV)) (call : Txt → Txt → σ → BR → Called × σ) (c : σ) :
    (parseBody m).runX ic fuel zero call (start none) c = .ret .nil (some .overflow) c := by
  simp only [parseBody, P.all]
  rw [P.runX]
  rfl

/-- a signed Data is read, with its covered bytes; two Data give the covered bytes of `C101_context_violated` -/
example : ∃ ms packet g, (ms.find? fun m => m.name == t!"Packet") = some packet ∧
    codeReadData (runPacket ms false 10 4 packet (BR.new [6, 12, 7, 3, 8, 1, 65, 21, 2, 1, 2, 23, 1, 5])) = some (.ok (.ok (g, [[7, 3, 8, 1, 65, 21, 2, 1, 2]]))) := by
  obtain ⟨ms, packet, -, hp, hr⟩ := C101_read (ord := asWritten) fun _ => .refl _
  obtain ⟨h1, -⟩ := hr id 10 4 (BR.new [6, 12, 7, 3, 8, 1, 65, 21, 2, 1, 2, 23, 1, 5]) (Nat.le_refl _) (.new (by simp))
  have e : Packet.readData 10 (BR.new [6, 12, 7, 3, 8, 1, 65, 21, 2, 1, 2, 23, 1, 5]) =
      some (.ok (.ok ({ name := some [⟨8, [65]⟩], content := some [[1, 2]], sigValue := some [[5]] }, [[7, 3, 8, 1, 65, 21, 2, 1, 2]]))) := by
    open Packet in eval_packet [Packet.signedData_parse]
  rw [e] at h1
  obtain ⟨⟨g, w⟩, h1, -, h2⟩ := h1
  obtain rfl : w = _ := h2
  exact ⟨ms, packet, g, hp, h1⟩

end Ndn.Codec.Gen
