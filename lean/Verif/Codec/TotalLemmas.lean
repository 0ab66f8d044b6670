import Verif.Codec.ParseLemmas

/-! # The generated parser on arbitrary bytes (lemmas) -/

namespace Ndn.Codec

/-- no TLV number read anywhere in the buffer is 8 TiB or more -/
def Calm (s : Bytes) : Prop := ∀ p v n, parseTL (s.drop p) = .ok (v, n) → v < 2 ^ 43

theorem TLSplit.append {s : Bytes} {v n : Nat} (h : TLSplit s v n) (t : Bytes) : TLSplit (s ++ t) v n := by
  cases h with
  | one b s hb => exact .one b (s ++ t) hb
  | two s hs => have := TLSplit.two (s ++ t) (by simp; omega); rwa [List.take_append_of_le_length hs] at this
  | four s hs => have := TLSplit.four (s ++ t) (by simp; omega); rwa [List.take_append_of_le_length hs] at this
  | eight s hs => have := TLSplit.eight (s ++ t) (by simp; omega); rwa [List.take_append_of_le_length hs] at this

theorem tlSplit_of_parseTL {s : Bytes} {v n : Nat} (h : parseTL s = .ok (v, n)) : TLSplit s v n := by
  rcases readTL_cases ⟨s, 0⟩ with ⟨h0, _⟩ | ⟨_, _, e, _⟩ | ⟨v', n', hs, _, e⟩
  · simp only [BR.rest, List.drop_zero] at h0
    rw [h0] at h; simp [parseTL] at h
  · simp only [BR.rest, List.drop_zero] at e
    rw [e] at h; cases h
  · simp only [BR.rest, List.drop_zero] at e hs
    rw [e] at h
    simp only [Res.ok.injEq, Prod.mk.injEq] at h
    rw [← h.1, ← h.2]; exact hs

theorem Calm.slice {s : Bytes} (h : Calm s) (p l : Nat) : Calm ((s.drop p).take l) := by
  intro q v n e
  have hs := tlSplit_of_parseTL e
  rw [List.drop_take] at hs
  have h2 := TLSplit.append hs (((s.drop p).drop q).drop (l - q))
  rw [List.take_append_drop, List.drop_drop] at h2
  exact h (p + q) v n h2.parseTL

theorem Calm.split {s : Bytes} (h : Calm s) {p v n : Nat} (e : TLSplit (s.drop p) v n) : v < 2 ^ 43 := h p v n e.parseTL

/-- a step on reader `r` ended, without a panic, and did not go back -/
def Tot {α : Type} (r : BR) (x : PR α) : Prop :=
  ∃ y r', x = some (y, r') ∧ y ≠ .panic ∧ (∀ a, y = .ok a → r'.Good ∧ r'.buf = r.buf ∧ r.pos ≤ r'.pos)

theorem Tot.map {α β : Type} {r : BR} {x : PR α} (f : α → β) (h : Tot r x) : Tot r (PR.map f x) := by
  obtain ⟨y, r', rfl, hp, hk⟩ := h
  refine ⟨y.map f, r', rfl, ?_, ?_⟩
  · cases y <;> simp [Res.map] at hp ⊢
  · intro a ha
    cases y with
    | ok b => exact hk b rfl
    | err e => simp [Res.map] at ha
    | panic => simp [Res.map] at ha

theorem Tot.err {α : Type} {r : BR} (e : Err) (r' : BR) : Tot r (some (Res.err e, r') : PR α) :=
  ⟨_, _, rfl, by simp, by simp⟩

theorem Tot.ok {α : Type} {r : BR} (a : α) {r' : BR} (h : r'.Good) (hb : r'.buf = r.buf) (hp : r.pos ≤ r'.pos) :
    Tot r (some (Res.ok a, r') : PR α) :=
  ⟨_, _, rfl, by simp, fun _ _ => ⟨h, hb, hp⟩⟩

theorem Tot.trans {α : Type} {r r1 : BR} {x : PR α} (h : Tot r1 x) (hb : r1.buf = r.buf) (hp : r.pos ≤ r1.pos) : Tot r x := by
  obtain ⟨y, r', hx, hy, hk⟩ := h
  refine ⟨y, r', hx, hy, fun a ha => ?_⟩
  obtain ⟨h1, h2, h3⟩ := hk a ha
  exact ⟨h1, h2.trans hb, by omega⟩

/-- the natural-number loop on any reader: reads `n` bytes or fails at the end -/
theorem readBeLoop_tot (n val : Nat) (r : BR) :
    (r.rest.length < n ∧ ∃ r', readBeLoop BR.readByte n val r = (.err .unexpectedEof, r')) ∨
    (n ≤ r.rest.length ∧ ∃ v, readBeLoop BR.readByte n val r = (.ok v, r.adv n)) := by
  by_cases h : r.rest.length < n
  · exact .inl ⟨h, readBeLoop_err n val r h⟩
  · right
    refine ⟨by omega, ?_⟩
    induction n generalizing val r with
    | zero => exact ⟨val, rfl⟩
    | succ n ih =>
      cases hr : r.rest with
      | nil => rw [hr] at h; simp at h
      | cons b t =>
        rw [readBeLoop, RM.bind_ok (a := b) (s' := r.adv 1) (by simp [RM.onErr, BR.readByte_cons hr])]
        have := ih ((val * 256) % 2 ^ 64 + b.toNat) (r.adv 1) (by rw [BR.rest_adv, hr]; rw [hr] at h; simpa using h)
        rwa [BR.adv_adv, Nat.add_comm 1 n] at this

theorem tot_natural {r : BR} (hg : r.Good) {l : Nat} : Tot r (some (readNatural l r)) := by
  unfold readNatural
  rcases readBeLoop_tot (toInt l).toNat 0 r with ⟨_, r', e⟩ | ⟨h, v, e⟩
  · rw [e]; exact .err _ _
  · rw [e]; exact .ok _ (hg.adv h) rfl (by simp)

theorem tot_fixed {w : Nat} {p : Bool} {r : BR} (hg : r.Good) (hp : 1 ≤ r.pos) {l : Nat} : Tot r (some (readFixed w p l r)) := by
  have hrange : ∀ r' : BR, r'.Good → 1 ≤ r'.pos → ∃ b t, r'.range ((r'.pos : Int) - 1) r'.pos = some ((b :: t) :: []) := by
    intro r' hg' hp'
    have h1 := hg'.1
    unfold BR.range
    rw [if_neg (by omega)]
    have : (List.take ((r'.pos : Int).toNat - ((r'.pos : Int) - 1).toNat) (List.drop ((r'.pos : Int) - 1).toNat r'.buf)).length = 1 := by
      simp only [List.length_take, List.length_drop]; omega
    match hq : List.take ((r'.pos : Int).toNat - ((r'.pos : Int) - 1).toNat) (List.drop ((r'.pos : Int) - 1).toNat r'.buf) with
    | [] => rw [hq] at this; simp at this
    | b :: t => exact ⟨b, t, rfl⟩
  unfold readFixed
  split
  · split
    · by_cases h : r.rest = []
      · have hsk : BR.skip 1 r = (.err .outOfRange, r) := BR.skip_err hg (l := 1) (by rw [h]; simp) (by decide)
        rw [RM.onErr_err hsk]
        obtain ⟨b, t, hbt⟩ := hrange r hg hp
        simp only [hbt]
        exact .err _ _
      · have h1 : 1 ≤ r.rest.length := List.length_pos_iff.mpr h
        have hsk : BR.skip 1 r = (.ok (), r.adv 1) := BR.skip_ok hg (l := 1) h1
        rw [RM.onErr_ok hsk]
        obtain ⟨b, t, hbt⟩ := hrange (r.adv 1) (hg.adv h1) (by simp)
        simp only [hbt]
        exact .ok _ (hg.adv h1) rfl (by simp)
    · cases hr : r.rest with
      | nil => rw [RM.onErr_err (BR.readByte_nil hr)]; exact .err _ _
      | cons b t =>
        rw [RM.onErr_ok (BR.readByte_cons hr)]
        exact .ok _ (hg.adv (by rw [hr]; simp)) rfl (by simp)
  · rcases readBeLoop_tot (toInt l).toNat 0 r with ⟨_, r', e⟩ | ⟨h, v, e⟩
    · rw [e]; exact .err _ _
    · rw [e]; exact .ok _ (hg.adv h) rfl (by simp)

theorem tot_full {r : BR} (hg : r.Good) {l : Nat} (hl : l < 2 ^ 43) : Tot r (some (readFull l r)) := by
  unfold readFull
  rw [if_neg (by unfold maxAlloc; omega)]
  split
  · exact .ok _ hg rfl (by omega)
  · have h2 : (List.take l (List.drop r.pos r.buf)).length ≤ r.rest.length := by
      rw [BR.rest_length]; simp; omega
    by_cases h : r.pos ≥ r.buf.length ∧ l > 0
    · rw [show BR.read l r = (.err .eof, r) from if_pos h]; exact .err _ _
    · rw [show BR.read l r = (.ok (List.take l (List.drop r.pos r.buf)), r.adv (List.take l (List.drop r.pos r.buf)).length)
        from if_neg h]
      simp only
      by_cases h3 : (List.take l (List.drop r.pos r.buf)).length = l
      · rw [if_pos h3]; exact .ok _ (hg.adv h2) rfl (by simp)
      · rw [if_neg h3]; exact .err _ _

theorem tot_copyN {r : BR} (hg : r.Good) {l : Nat} : Tot r (some (copyN l r)) := by
  unfold copyN
  simp only
  have h2 : (List.take (toInt l).toNat (List.drop r.pos r.buf)).length ≤ r.rest.length := by
    rw [BR.rest_length]; simp; omega
  split
  · exact .err _ _
  · exact .ok _ (hg.adv h2) rfl (by simp)

theorem tot_wire {r : BR} (hg : r.Good) {l : Nat} (hl : l < 2 ^ 43) : Tot r (some (BR.readWire (toInt l) r)) := by
  rw [toInt_small (by omega)]
  by_cases h : l ≤ r.rest.length
  · rw [BR.readWire_ok hg h]; exact .ok _ (hg.adv h) rfl (by simp)
  · obtain ⟨e, he⟩ := BR.readWire_err hg (l := l) (by omega) (by omega)
    rw [he]; exact .err _ _

theorem tot_nameSlots (slots endName : Nat) : ∀ (r : BR), r.Good → Calm r.buf →
    Tot r (some (readNameSlots slots endName r)) := by
  induction slots with
  | zero =>
    intro r hg _
    rw [readNameSlots]
    split
    · exact .err _ _
    · exact .ok _ hg rfl (by omega)
  | succ n ih =>
    intro r hg hc
    rw [readNameSlots]
    split
    · split
      · exact .err _ _
      · exact .ok _ hg rfl (by omega)
    · rcases readComponent_cases r hg with ⟨h0, e⟩ | ⟨r', hne, e⟩ | ⟨t', n1, l, n2, s1, s2, h⟩
      · rw [e]; exact .err _ _
      · rw [e]; exact .err _ _
      · rcases h with ⟨hle, e⟩ | ⟨hbig, r', e⟩
        · rw [e]
          simp only
          have := ih (r.adv (n1 + n2 + l)) (hg.adv hle) hc
          obtain ⟨y, r'', hx, hy, hk⟩ := this
          injection hx with hx
          rw [hx]
          cases y with
          | ok n => obtain ⟨a, b, c⟩ := hk n rfl
                    exact .ok _ a b (by simp at c; omega)
          | err e => exact .err _ _
          | panic => exact absurd rfl hy
        · exfalso
          have hl : l < 2 ^ 43 := by
            unfold BR.rest at s2
            rw [List.drop_drop] at s2
            exact hc.split s2
          have w1 : n1 ≤ 9 := by rcases s1.width with h | h | h | h <;> omega
          have w2 : n2 ≤ 9 := by rcases s2.width with h | h | h | h <;> omega
          have := hg.1; have := hg.2
          omega

theorem tot_name {r : BR} (hg : r.Good) (hc : Calm r.buf) {l : Nat} (hl : l < 2 ^ 43) : Tot r (some (readNameField l r)) := by
  unfold readNameField
  rw [if_neg (by unfold maxAlloc; omega)]
  exact tot_nameSlots _ _ r hg hc

/-- the main loop ends and does not panic if reading single elements does -/
theorem parseLoop_total {σ : Type} {ic : Bool} {known : Nat → Bool} {read : Nat → Nat → σ → BR → PR σ} (B : Bytes) (hB : Calm B)
    (hread : ∀ typ l st (r : BR), r.Good → r.buf = B → 1 ≤ r.pos → l < 2 ^ 43 → Tot r (read typ l st r)) :
    ∀ (fuel : Nat) (st : σ) (r : BR), r.Good → r.buf = B → r.rest.length < fuel →
      Tot r (parseLoop ic known read fuel st r) := by
  intro fuel
  induction fuel with
  | zero => intro st r _ _ h; omega
  | succ fuel ih =>
    intro st r hg hb hf
    rw [parseLoop]
    split
    · exact .ok _ hg rfl (by omega)
    · rcases readTL_cases r with ⟨_, e⟩ | ⟨r', e, _, _⟩ | ⟨typ, n1, s1, e, _⟩
      · rw [e]; exact .err _ _
      · rw [e]; exact .err _ _
      · rw [e]
        simp only
        have w1 : 1 ≤ n1 := by rcases s1.width with h | h | h | h <;> omega
        have hg1 := hg.adv s1.le_length
        rcases readTL_cases (r.adv n1) with ⟨_, e⟩ | ⟨r', e, _, _⟩ | ⟨l, n2, s2, e2, _⟩
        · rw [e]; exact .err _ _
        · rw [e]; exact .err _ _
        · rw [e2]
          simp only
          have hl : l < 2 ^ 43 := by
            have s2' := s2
            unfold BR.rest at s2'
            exact hB.split (by rw [← hb]; exact s2')
          have hg2 := hg1.adv s2.le_length
          have hlt : ∀ r3 : BR, r3.Good → r3.buf = r.buf → ((r.adv n1).adv n2).pos ≤ r3.pos → r3.rest.length < fuel := by
            intro r3 h3 hb3 hp3
            rw [BR.rest_length] at hf ⊢
            rw [hb3]
            have := h3.1
            have := s1.le_length
            rw [BR.rest_length] at this
            simp only [BR.adv_pos] at hp3
            omega
          split
          · obtain ⟨y, r3, hx, hy, hk⟩ := hread typ l st ((r.adv n1).adv n2) hg2 hb (by simp; omega) hl
            rw [hx]
            cases y with
            | ok st' =>
              obtain ⟨h1, h2, h3⟩ := hk st' rfl
              simp only
              exact (ih st' r3 h1 (h2.trans hb) (hlt r3 h1 h2 h3)).trans h2 (by simp at h3; omega)
            | err e => exact .err _ _
            | panic => exact absurd rfl hy
          · split
            · exact .err _ _
            · rw [toInt_small (by omega)]
              by_cases hs : l ≤ ((r.adv n1).adv n2).rest.length
              · rw [BR.skip_ok hg2 hs]
                simp only
                have hg3 := hg2.adv hs
                exact (ih st _ hg3 hb (hlt _ hg3 rfl (by simp))).trans rfl (by simp; omega)
              · rw [BR.skip_err hg2 (by omega) (by omega)]
                exact .err _ _

theorem finish_no_panic : ∀ (fs : Fields) (st : fs.St), fs.finish st ≠ .panic
  | .nil, _ => by simp [Fields.finish]
  | .flag _ rest, (b, st) => by
    show Res.map _ (rest.finish st) ≠ _
    have := finish_no_panic rest st
    cases h : rest.finish st <;> simp_all [Res.map]
  | .cons _ .req _ rest, (none, st) => by show Res.err _ ≠ _; simp
  | .cons _ .req _ rest, (some v, st) => by
    show Res.map _ (rest.finish st) ≠ _
    have := finish_no_panic rest st
    cases h : rest.finish st <;> simp_all [Res.map]
  | .cons _ .opt _ rest, (v, st) => by
    show Res.map _ (rest.finish st) ≠ _
    have := finish_no_panic rest st
    cases h : rest.finish st <;> simp_all [Res.map]
  | .cons _ .seq _ rest, (v, st) => by
    show Res.map _ (rest.finish st) ≠ _
    have := finish_no_panic rest st
    cases h : rest.finish st <;> simp_all [Res.map]

theorem Tot.finish {fs : Fields} {r : BR} {x : PR fs.St} (h : Tot r x) :
    Tot r (match x with
      | none => none
      | some (.ok st, r1) => some (fs.finish st, r1)
      | some (.err e, r1) => some (.err e, r1)
      | some (.panic, r1) => some (.panic, r1)) := by
  obtain ⟨y, r', rfl, hy, hk⟩ := h
  cases y with
  | ok st => exact ⟨_, _, rfl, finish_no_panic fs st, fun _ _ => hk st rfl⟩
  | err e => exact .err _ _
  | panic => exact absurd rfl hy

mutual
theorem Elem.read_tot (ic : Bool) (F : Nat) : ∀ (e : Elem) (l : Nat) (r : BR), r.Good → Calm r.buf → 1 ≤ r.pos → l < 2 ^ 43 →
    r.buf.length < F → Tot r (e.read ic F l r)
  | .nat, l, r, hg, _, _, _, _ => tot_natural hg
  | .fixed w p, l, r, hg, _, hp, _, _ => tot_fixed hg hp
  | .time, l, r, hg, _, _, _, _ => (tot_natural hg).map _
  | .bin, l, r, hg, _, _, hl, _ => tot_full hg hl
  | .str, l, r, hg, _, _, _, _ => tot_copyN hg
  | .name, l, r, hg, hc, _, hl, _ => tot_name hg hc hl
  | .wire, l, r, hg, _, _, hl, _ => tot_wire hg hl
  | .struct fs, l, r, hg, hc, _, hl, hF => by
    have key : ∀ (sub r1 : BR), sub.Good → Calm sub.buf → sub.buf.length < F → sub.pos = 0 →
        r1.Good → r1.buf = r.buf → r.pos ≤ r1.pos →
        Tot r (match parseLoop ic (fun t => fs.types.contains t) (Fields.dispatch ic F fs) F fs.init sub with
          | none => none
          | some (.ok st, _) => some (fs.finish st, r1)
          | some (.err e, _) => some (.err e, r1)
          | some (.panic, _) => some (.panic, r1)) := by
      intro sub r1 hs hcs hFs hp0 h1 h2 h3
      obtain ⟨y, r', hx, hy, _⟩ := parseLoop_total (ic := ic) (known := fun t => fs.types.contains t)
        (read := Fields.dispatch ic F fs) sub.buf hcs
        (fun typ l st r hg hb hp hl => Fields.dispatch_tot ic F fs typ l st r hg (hb ▸ hcs) hp hl (hb ▸ hFs))
        F fs.init sub hs rfl (by rw [BR.rest_length]; omega)
      rw [hx]
      cases y with
      | ok st => exact ⟨_, _, rfl, finish_no_panic fs st, fun _ _ => ⟨h1, h2, h3⟩⟩
      | err e => exact .err _ _
      | panic => exact absurd rfl hy
    show Tot r (match BR.delegate (toInt l) r with
      | (.ok sub, r1) =>
        match parseLoop ic (fun t => fs.types.contains t) (Fields.dispatch ic F fs) F fs.init sub with
        | none => none
        | some (.ok st, _) => some (fs.finish st, r1)
        | some (.err e, _) => some (.err e, r1)
        | some (.panic, _) => some (.panic, r1)
      | (.err e, r1) => some (.err e, r1)
      | (.panic, r1) => some (.panic, r1))
    rw [toInt_small (by omega)]
    by_cases h : l ≤ r.rest.length
    · rw [BR.delegate_ok hg h]
      simp only
      have hlen : (r.rest.take l).length ≤ r.buf.length := by
        rw [List.length_take, BR.rest_length]; omega
      refine key _ _ (BR.Good.new (by have := hg.2; omega)) ?_ (by show (r.rest.take l).length < F; omega) rfl (hg.adv h) rfl (by simp)
      exact hc.slice r.pos l
    · rw [BR.delegate_over hg (by omega) (by omega)]
      simp only
      refine key _ _ (BR.Good.new (by simp)) ?_ (by simp; omega) rfl hg rfl (by omega)
      intro p v n e
      simp [parseTL] at e
theorem Fields.dispatch_tot (ic : Bool) (F : Nat) : ∀ (fs : Fields) (typ l : Nat) (st : fs.St) (r : BR), r.Good → Calm r.buf →
    1 ≤ r.pos → l < 2 ^ 43 → r.buf.length < F → Tot r (fs.dispatch ic F typ l st r)
  | .nil, typ, l, st, r, hg, hc, hp, hl, hF => .ok _ hg rfl (by omega)
  | .flag t rest, typ, l, (b, st), r, hg, hc, hp, hl, hF => by
    show Tot r (if typ = t then some (.ok (true, st), r)
      else PR.map (fun st' => (b, st')) (Fields.dispatch ic F rest typ l st r))
    split
    · exact .ok _ hg rfl (by omega)
    · exact (Fields.dispatch_tot ic F rest typ l st r hg hc hp hl hF).map _
  | .cons t m e rest, typ, l, (x, st), r, hg, hc, hp, hl, hF => by
    show Tot r (if typ = t then PR.map (fun v => (m.store x v, st)) (Elem.read ic F e l r)
      else PR.map (fun st' => (x, st')) (Fields.dispatch ic F rest typ l st r))
    split
    · exact (Elem.read_tot ic F e l r hg hc hp hl hF).map _
    · exact (Fields.dispatch_tot ic F rest typ l st r hg hc hp hl hF).map _
end

theorem Fields.parse_tot (ic : Bool) (fs : Fields) (r : BR) (hg : r.Good) (hc : Calm r.buf) (F : Nat) (hF : r.buf.length < F) :
    Tot r (fs.parse ic F r) :=
  (parseLoop_total r.buf hc
    (fun typ l st r' hg' hb hp hl => Fields.dispatch_tot ic F fs typ l st r' hg' (hb ▸ hc) hp hl (hb ▸ hF))
    F fs.init r hg rfl (by rw [BR.rest_length]; omega)).finish

theorem calm_no_ff {s : Bytes} (h : (0xff : UInt8) ∉ s) : Calm s := by
  intro p v n e
  have hs := tlSplit_of_parseTL e
  have hm : (0xff : UInt8) ∉ s.drop p := fun hm => h (List.mem_of_mem_drop hm)
  generalize s.drop p = u at hs hm
  cases hs with
  | one b t h => omega
  | two t h =>
    have h1 := beVal_lt (t.take 2)
    have h2 : 256 ^ (t.take 2).length ≤ 256 ^ 2 := Nat.pow_le_pow_right (by decide) (by simp; omega)
    omega
  | four t h =>
    have h1 := beVal_lt (t.take 4)
    have h2 : 256 ^ (t.take 4).length ≤ 256 ^ 4 := Nat.pow_le_pow_right (by decide) (by simp; omega)
    omega
  | eight t h => simp at hm

end Ndn.Codec
