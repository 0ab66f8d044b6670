import Verif.Codec.SpecialRun

/-!
# The code of each field does what its slot in the hand-written model does
-/

namespace Ndn.Codec.Gen

/-- the slot of a field whose code is run -/
abbrev codeSlot (E : Env) (f : Field) : Packet.Slot CState := ⟨f.num, runRead E f, runSkip E f⟩

theorem runSkip_plain (E : Env) {f : Field} (hs : specialSkip f.name f.cls = none) {q : P} (hq : skipCode f.name f.num f.cls = q) {startPos : Nat} {c : CState} {r : BR} {g : GV}
    (hx : ∀ s : PS, q.exec E s = .next (s.put f.name g)) : runSkip E f startPos c r = .ok { c with kvs := setKv f.name g c.kvs } := by
  simp only [runSkip, fieldSkip, hs, Option.getD_none, Sp.exec, hq, hx]
  rfl

section
variable {α : Type} {R : α → CState → Prop}

/-- fields of elements that may be missing -/
theorem elem_rel {ms : List TModel} {ic : Bool} {n : Nat} (E : Env) (hE : Calls ms ic E.fuel n E.call) {f : Field} {e : Elem} (hs : specialRead f.name f.cls = none)
    (hs' : specialSkip f.name f.cls = none) (hp : f.cls.parsable (parsableAt ms n) = true) (he : f.cls.elem (resolve ms n) = some (.opt, e)) {typ : Nat} (ht : typ = f.num)
    {set : α → Option e.V → α} (hsome : ∀ x y v g, R x y → Stands ms e f.cls v g → R (set x (some v)) { y with kvs := setKv f.name g y.kvs })
    (hnone : ∀ x y, R x y → R (set x none) { y with kvs := setKv f.name .nil y.kvs }) : SlotRel R (Packet.elemSlot ic E.fuel typ e set) (codeSlot E f) where
  typ := ht
  read := by
    intro startPos l x y r hx hr
    have hy := one_yields E hE f.name hp he (by simp) (y.enter startPos l r).ps rfl hr
    show RelPR R (PR.map (fun v => set x (some v)) (e.read ic E.fuel l r)) (runRead E f startPos l y r)
    have e1 : runRead E f startPos l y r = ((Sp.p (readCode f.name f.cls)).exec E (y.enter startPos l r)).leave r := by simp only [runRead, fieldRead, hs, Option.getD_none]
    rw [e1, Sp.exec]
    revert hy
    generalize (readCode f.name f.cls).exec E (y.enter startPos l r).ps = o
    show Yields _ _ _ o (e.read ic E.fuel l r) → _
    rcases e.read ic E.fuel l r with _ | ⟨v | z | _, r'⟩ <;> intro hy
    · obtain rfl : o = _ := hy; trivial
    · obtain ⟨s', g, rfl, h1, h2, h3, h4, h5, _⟩ := hy
      simp only [SpOut.leave, h1, PR.map, Res.map, RelPR, h2, h4]
      exact ⟨trivial, h3, hsome x y v g hx h5⟩
    · obtain ⟨s', rfl, h1, _⟩ := hy
      simp only [SpOut.leave, h1, PR.map, Res.map, RelPR]
    · obtain rfl : o = _ := hy
      simp only [SpOut.leave, PR.map, Res.map, RelPR]
  skip := by
    intro startPos x y r hx hr
    have h1 : runSkip E f startPos y r = .ok { y with kvs := setKv f.name .nil y.kvs } :=
      runSkip_plain E hs' (skip_of_elem f.name f.num he).1 fun s => rfl
    show RelRes R (.ok (set x none)) (runSkip E f startPos y r)
    rw [h1]
    exact hnone x y hx

/-- flags -/
theorem flag_rel (E : Env) {f : Field} (hc : f.cls = .bool) {typ : Nat} (ht : typ = f.num) {set : α → Bool → α}
    (hset : ∀ x y b, R x y → R (set x b) { y with kvs := setKv f.name (.bool b) y.kvs }) : SlotRel R (Packet.flagSlot typ set) (codeSlot E f) where
  typ := ht
  read := by
    intro startPos l x y r hx hr
    have h1 : runRead E f startPos l y r = some (.ok { y with kvs := setKv f.name (.bool true) y.kvs }, r) := by
      simp only [runRead, fieldRead, hc, specialRead, Option.getD_none, Sp.exec, readCode, P.exec, CState.enter, SpOut.leave, PS.put, start, Option.getD_some]
    show RelPR R (some (.ok (set x true), r)) (runRead E f startPos l y r)
    rw [h1]
    exact ⟨rfl, hr, hset x y true hx⟩
  skip := by
    intro startPos x y r hx hr
    have h1 : runSkip E f startPos y r = .ok { y with kvs := setKv f.name (.bool false) y.kvs } :=
      runSkip_plain E (by rw [hc]; rfl) (by rw [hc, skipCode]) fun s => rfl
    show RelRes R (.ok (set x false)) (runSkip E f startPos y r)
    rw [h1]
    exact hset x y false hx

/-- arguments -/
theorem arg_rel (E : Env) {f : Field} {t : Txt} (hc : f.cls = .arg t) (hn : f.num = 0) : SlotRel R Packet.argSlot (codeSlot E f) where
  typ := hn.symm
  read := by
    intro startPos l x y r hx hr
    have h1 : runRead E f startPos l y r = some (.ok y, r) := by
      simp only [runRead, fieldRead, hc, specialRead, Option.getD_some, Sp.exec]; rfl
    show RelPR R (some (.ok x, r)) (runRead E f startPos l y r)
    rw [h1]
    exact ⟨rfl, hr, hx⟩
  skip := by
    intro startPos x y r hx hr
    have h1 : runSkip E f startPos y r = .ok y := by
      simp only [runSkip, fieldSkip, hc, specialSkip, Option.getD_some, Sp.exec]; rfl
    show RelRes R (.ok x) (runSkip E f startPos y r)
    rw [h1]
    exact hx

/-- offset markers -/
theorem mark_rel (E : Env) {f : Field} {b : Bool} (hc : f.cls = .offset b) (hn : f.num = 0) {set : α → Nat → α}
    (hset : ∀ x y (p : Nat), R x y → R (set x p) { y with ints := ctxUpd y.ints f.name p }) : SlotRel R (Packet.markSlot set) (codeSlot E f) where
  typ := hn.symm
  read := by
    intro startPos l x y r hx hr
    have h1 : runRead E f startPos l y r = some (.ok { y with ints := ctxUpd y.ints f.name startPos }, r) := by
      simp only [runRead, fieldRead, hc, specialRead, Option.getD_some, Sp.exec]; rfl
    show RelPR R (some (.ok (set x startPos), r)) (runRead E f startPos l y r)
    rw [h1]
    exact ⟨rfl, hr, hset x y startPos hx⟩
  skip := by
    intro startPos x y r hx hr
    have h1 : runSkip E f startPos y r = .ok { y with ints := ctxUpd y.ints f.name startPos } := by
      simp only [runSkip, fieldSkip, hc, specialSkip, Option.getD_some, Sp.exec]; rfl
    show RelRes R (.ok (set x startPos)) (runSkip E f startPos y r)
    rw [h1]
    exact hset x y startPos hx

/-- range markers -/
theorem range_rel (E : Env) {f : Field} {start cov : Txt} {b : Bool} (hc : f.cls = .range start cov b) (hn : f.num = 0) (hne : start ≠ f.name) {from_ : α → Nat} {set : α → Wire → α}
    (hfrom : ∀ x y, R x y → y.ints start = from_ x)
    (hset : ∀ x y (p : Nat) w, R x y → R (set x w) { y with ints := ctxUpd y.ints f.name p, wires := ctxUpd y.wires cov w }) :
    SlotRel R ⟨0, fun p _ x r => some (.ok (set x (Packet.rangeOf r (from_ x) p)), r), fun p x r => .ok (set x (Packet.rangeOf r (from_ x) p))⟩ (codeSlot E f) where
  typ := hn.symm
  read := by
    intro startPos l x y r hx hr
    have h1 : runRead E f startPos l y r =
        some (.ok { y with ints := ctxUpd y.ints f.name startPos, wires := ctxUpd y.wires cov (Packet.rangeOf r (from_ x) startPos) }, r) := by
      simp only [runRead, fieldRead, hc, specialRead, Option.getD_some, Sp.all, Sp.exec, SpOut.bind, Packet.rangeOf, ← hfrom x y hx]
      simp only [ctxUpd, if_neg hne]
      rfl
    show RelPR R (some (.ok _, r)) (runRead E f startPos l y r)
    rw [h1]
    exact ⟨rfl, hr, hset x y startPos _ hx⟩
  skip := by
    intro startPos x y r hx hr
    have h1 : runSkip E f startPos y r =
        .ok { y with ints := ctxUpd y.ints f.name startPos, wires := ctxUpd y.wires cov (Packet.rangeOf r (from_ x) startPos) } := by
      simp only [runSkip, fieldSkip, hc, specialSkip, Option.getD_some, Sp.all, Sp.exec, SpOut.bind, Packet.rangeOf, ← hfrom x y hx]
      simp only [ctxUpd, if_neg hne]
      rfl
    show RelRes R (.ok _) (runSkip E f startPos y r)
    rw [h1]
    exact hset x y startPos _ hx

/-- signatures -/
theorem sig_rel (E : Env) {f : Field} {start cov : Txt} {b : Bool} (hc : f.cls = .signature start cov b) {typ : Nat} (ht : typ = f.num) {set : α → Option Wire → α}
    {from_ : α → Nat} {cover : α → Wire → α} (hfrom : ∀ x y, R x y → y.ints start = from_ x)
    (hset : ∀ x y v w, R x y → R (cover (set x (some v)) w) { y with kvs := setKv f.name (.wire v) y.kvs, wires := ctxUpd y.wires cov (y.wires cov ++ w) })
    (hnone : ∀ x y, R x y → R (set x none) { y with kvs := setKv f.name .nil y.kvs }) : SlotRel R (Packet.sigSlot typ set from_ cover) (codeSlot E f) where
  typ := ht
  read := by
    intro startPos l x y r hx hr
    have hw := wire_yields E f.name true (y.enter startPos l r).ps hr
    have e1 : runRead E f startPos l y r = (((Sp.p (.readWire f.name)).exec E (y.enter startPos l r)).bind
        ((Sp.ifOk (.seq (.partFrom start) (.append cov))).exec E)).leave r := by
      simp only [runRead, fieldRead, hc, specialRead, Option.getD_some]; rfl
    show RelPR R (match BR.readWire (toInt l) r with
      | (.ok w, r') => some (.ok (cover (set x (some w)) (Packet.rangeOf r' (from_ x) startPos)), r')
      | (.err e, r') => some (.err e, r')
      | (.panic, r') => some (.panic, r')) (runRead E f startPos l y r)
    rw [e1]
    have e2 : (readCode f.name (.wire true)) = .readWire f.name := rfl
    rw [e2] at hw
    have e3 : BR.readWire (toInt (y.enter startPos l r).ps.l) (y.enter startPos l r).ps.rd = BR.readWire (toInt l) r := rfl
    rw [e3] at hw
    have hx' := hfrom x y hx
    rcases h : BR.readWire (toInt l) r with ⟨v | z | _, r'⟩
    · rw [h] at hw
      obtain ⟨s', g, h0, h1, h2, h3, h4, h5, _⟩ := hw
      have hstart : s'.startPos = startPos := by
        have : (P.readWire f.name).exec E (y.enter startPos l r).ps = .next (({ (y.enter startPos l r).ps with err := none, rd := r' } : PS).put f.name (.wire v)) := by
          have h' : BR.readWire (toInt (y.enter startPos l r).ps.l) (y.enter startPos l r).ps.rd = (.ok v, r') := h
          simp only [P.exec, h']
        rw [this] at h0
        cases h0; rfl
      have h5' : g = .wire v := h5
      have hi : (y.enter startPos l r).ints = y.ints := rfl
      simp only [Sp.exec, h0, SpOut.bind, h1, Option.isNone_none, if_true, SpOut.leave, RelPR, h2, h4, h5', hstart, hi, hx']
      exact ⟨trivial, h3, hset x y v _ hx⟩
    · rw [h] at hw
      obtain ⟨s', h0, h1, _⟩ := hw
      simp only [Sp.exec, h0, SpOut.bind, h1, Option.isNone_some, Bool.false_eq_true, if_false, SpOut.leave, RelPR]
    · rw [h] at hw
      have h0 : (P.readWire f.name).exec E (y.enter startPos l r).ps = .panic := hw
      simp only [Sp.exec, h0, SpOut.bind, SpOut.leave, RelPR]
  skip := by
    intro startPos x y r hx hr
    have h1 : runSkip E f startPos y r = .ok { y with kvs := setKv f.name .nil y.kvs } := by
      simp only [runSkip, fieldSkip, hc, specialSkip, Option.getD_some, Sp.exec, P.exec]; rfl
    show RelRes R (.ok (set x none)) (runSkip E f startPos y r)
    rw [h1]
    exact hnone x y hx

/-- the name of an Interest -/
theorem intName_rel (E : Env) {f : Field} {cov : Txt} (hc : f.cls = .interestName cov) {typ : Nat} (ht : typ = f.num) {set : α → Name × Wire → α} {unset : α → α}
    (hset : ∀ x y n w, R x y → R (set x (n, w)) { y with kvs := setKv f.name (.name n) y.kvs, wires := ctxUpd y.wires cov (y.wires cov ++ w) })
    (hnone : ∀ x y, R x y → R (unset x) { y with kvs := setKv f.name .nil y.kvs }) :
    SlotRel R ⟨typ, fun _ l x r => PR.map (fun nc => set x nc) (some (Packet.readIntName l r)), fun _ x _ => .ok (unset x)⟩ (codeSlot E f) where
  typ := ht
  read := by
    intro startPos l x y r hx hr
    show RelPR R (PR.map (fun nc => set x nc) (some (Packet.readIntName l r))) (runRead E f startPos l y r)
    have e0 : runRead E f startPos l y r = (((Sp.p (.makeName f.name)).exec E (y.enter startPos l r)).bind fun s => ((Sp.p .startName).exec E s).bind fun s =>
        ((Sp.p .endName).exec E s).bind fun s => (Sp.coverEnd.exec E s).bind fun s => ((Sp.overName f.name (intRound f.name)).exec E s).bind fun s =>
          ((Sp.p (.ifNotAt .errOverflow)).exec E s).bind ((Sp.ifOk (.seq .partName (.append cov))).exec E)).leave r := by
      simp only [runRead, fieldRead, hc, specialRead, Option.getD_some]; rfl
    rw [e0]
    by_cases hl : (l / 2 + 1) * 32 > maxAlloc
    · have h1 : ∀ s : SpState, s.ps.l = l → (Sp.p (.makeName f.name)).exec E s = .panic := by
        rintro s rfl; simp only [Sp.exec, P.exec, if_pos hl]
      rw [h1 _ rfl]
      simp only [Packet.readIntName, if_pos hl, PR.map, Res.map, RelPR, SpOut.bind, SpOut.leave]
    · have hl' : l < 2 ^ 62 := by simp only [maxAlloc] at hl; omega
      have hen : wrap64 ((r.pos : Int) + toInt l) = ((r.pos + l : Nat) : Int) := by
        rw [toInt_small hl']
        exact BR.wrap_add (by have := hr.1; have := hr.2; omega) (Nat.le_of_lt hl')
      let s0 : SpState := { y.enter startPos l r with
        ps := { (y.enter startPos l r).ps with startName := r.pos, endName := ((r.pos + l : Nat) : Int) }, coverEnd := ((r.pos + l : Nat) : Int) }
      have e1 : (((Sp.p (.makeName f.name)).exec E (y.enter startPos l r)).bind fun s => ((Sp.p .startName).exec E s).bind fun s =>
          ((Sp.p .endName).exec E s).bind fun s => (Sp.coverEnd.exec E s).bind fun s => ((Sp.overName f.name (intRound f.name)).exec E s).bind fun s =>
            ((Sp.p (.ifNotAt .errOverflow)).exec E s).bind ((Sp.ifOk (.seq .partName (.append cov))).exec E)) =
          ((spUpTo (fun j s => (intRound f.name).exec E { s with ps := { s.ps with j := j } }) (l / 2 + 1) 0
            { s0 with ps := s0.ps.put f.name (.name (List.replicate (l / 2 + 1) ⟨0, []⟩)) }).bind ((Sp.p (.ifNotAt .errOverflow)).exec E)).bind
              ((Sp.ifOk (.seq .partName (.append cov))).exec E) := by
        have hbind : ∀ (o : SpOut) (k1 k2 : SpState → SpOut), (o.bind k1).bind k2 = o.bind fun s => (k1 s).bind k2 := by
          intro o k1 k2; cases o <;> rfl
        have h1 : ∀ s : SpState, s.ps.l = l →
            (Sp.p (.makeName f.name)).exec E s = .next { s with ps := s.ps.put f.name (.name (List.replicate (l / 2 + 1) ⟨0, []⟩)) } := by
          rintro s rfl; simp only [Sp.exec, P.exec, if_neg hl]
        have h2 : ∀ s : SpState, s.ps.rd.pos = r.pos → s.ps.l = l → (((Sp.p .startName).exec E s).bind fun s => ((Sp.p .endName).exec E s).bind fun s => Sp.coverEnd.exec E s) =
            .next { s with ps := { s.ps with startName := r.pos, endName := ((r.pos + l : Nat) : Int) }, coverEnd := ((r.pos + l : Nat) : Int) } := by
          rintro s hs rfl
          simp only [Sp.exec, P.exec, SpOut.bind, hs, hen]
        have h3 : ∀ (s : SpState) (L : Name) (b : Sp), lookup f.name s.ps.kvs = some (.name L) → (Sp.overName f.name b).exec E s =
            spUpTo (fun j s => b.exec E { s with ps := { s.ps with j := j } }) (List.length L) 0 s := by
          intro s L b hs
          simp only [Sp.exec, hs]
        have h2' := h2 { y.enter startPos l r with ps := (y.enter startPos l r).ps.put f.name (.name (List.replicate (l / 2 + 1) ⟨0, []⟩)) } rfl rfl
        rw [h1 _ rfl]
        have h4 : ∀ (t : SpState) (K : SpState → SpOut), (((Sp.p .startName).exec E t).bind fun s => ((Sp.p .endName).exec E s).bind fun s => (Sp.coverEnd.exec E s).bind K) =
            (((Sp.p .startName).exec E t).bind fun s => ((Sp.p .endName).exec E s).bind fun s => Sp.coverEnd.exec E s).bind K := by
          intro t K; simp only [hbind]
        generalize intRound f.name = body
        have hnext : ∀ (s : SpState) (k : SpState → SpOut), (SpOut.next s).bind k = k s := fun _ _ => rfl
        rw [hnext, h4, h2', hnext, h3 _ (List.replicate (l / 2 + 1) ⟨0, []⟩) _ (lookup_setKv _ _ _), List.length_replicate, hbind]
        rfl
      have e2 : Packet.readIntName l r = (match Packet.readIntNameSlots (l / 2 + 1) (r.pos + l) (r.pos + l) r with
          | (.ok (n, cov), r') => (.ok (n, Packet.rangeOf r' r.pos cov), r')
          | (.err e, r') => (.err e, r')
          | (.panic, r') => (.panic, r')) := by
        simp only [Packet.readIntName, if_neg hl]; rfl
      rw [e1, e2]
      have hloop := intLoop E f.name (r.pos + l) (l / 2 + 1) [] (r.pos + l) s0 rfl hr rfl rfl
      have hrd : s0.ps.rd = r := rfl
      simp only [hrd, List.nil_append, List.length_nil] at hloop
      rcases hloop with ⟨nm, cov', r', s', a1, a2, a3, a4, a5, a6, a7, a8, a9, a10⟩ | ⟨e, r', s', a1, a2, a3, a4, a5⟩ | ⟨r', a1, a2⟩
      · rw [a1, a10]
        have b1 : s'.ps.startName = (r.pos : Int) := a6
        have b2 : s'.ints = y.ints := a7
        have b3 : s'.wires = y.wires := a8
        have b4 : s'.ps.kvs = y.kvs := a5
        simp only [SpOut.bind, Sp.exec, PS.put, a3, Option.isNone_none, if_true, SpOut.leave, PR.map, Res.map, RelPR, a4, a9, b1, b2, b3, b4]
        exact ⟨trivial, a2, hset x y nm _ hx⟩
      · rw [a1, a5]
        simp only [SpOut.bind, Sp.exec, a2, Option.isNone_some, Bool.false_eq_true, if_false, SpOut.leave, PR.map, Res.map, RelPR]
      · rw [a1, a2]
        simp only [SpOut.bind, SpOut.leave, PR.map, Res.map, RelPR]
  skip := by
    intro startPos x y r hx hr
    have h1 : runSkip E f startPos y r = .ok { y with kvs := setKv f.name .nil y.kvs } := by
      simp only [runSkip, fieldSkip, hc, specialSkip, Option.getD_some, Sp.exec, P.exec]; rfl
    show RelRes R (.ok (unset x)) (runSkip E f startPos y r)
    rw [h1]
    exact hnone x y hx

end

end Ndn.Codec.Gen
