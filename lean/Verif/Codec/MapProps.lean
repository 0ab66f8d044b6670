import Verif.Codec.Map
import Verif.Codec.Props

/-!
# Map fields

C68.  The specification: a map is a function from keys to values (`mget`), and its bytes are those of its entries in some order.
-/

namespace Ndn.Codec

/-! ## Specification -/

/-- the value of a key -/
def mget {κ α : Type} [DecidableEq κ] (l : List (κ × α)) (k : κ) : Option α := (l.find? fun p => p.1 = k).map (·.2)

/-- the bytes of an entry: an element with the key and one with the value -/
def MapMsg.entryBytes (m : MapMsg) (e : m.Entry) : Bytes :=
  tlv m.keyTyp (m.key.elem.body (m.key.toElem e.1)) ++
    match e.2 with
    | none => []
    | some v => tlv m.valTyp (m.val.body v)

/-- the bytes of a message -/
def MapMsg.bytes (m : MapMsg) (v : m.fs.V) (es : List m.Entry) : Bytes := m.fs.enc v ++ (es.map m.entryBytes).flatten

/-- a message the generator accepts -/
structure MapMsg.WF (m : MapMsg) : Prop where
  fs : m.fs.WF
  key : 0 < m.keyTyp ∧ m.keyTyp < 2 ^ 64 ∧ m.keyTyp ∉ m.fs.types
  valTyp : m.valTyp < 2 ^ 64
  val : m.val.WF

/-- keys and values in the range of their types -/
def MapMsg.EntryOk (m : MapMsg) (p : m.key.V × m.val.V) : Prop := m.key.elem.InRange (m.key.toElem p.1) ∧ m.val.InRange p.2

/-- an element that the message does not know and that may be ignored -/
def MapMsg.Ignorable (m : MapMsg) (ic : Bool) (b : Bytes) : Prop :=
  ∃ typ body, b = tlv typ body ∧ typ < 2 ^ 64 ∧ typ ∉ m.fs.types ∧ typ ≠ m.keyTyp ∧ (ic = true ∨ (31 < typ ∧ typ % 2 = 0))

/-- an entry with a value -/
def full {κ α : Type} (p : κ × α) : κ × Option α := (p.1, some p.2)

/-! ## Encoding -/

theorem KeyClass.elem_wf (k : KeyClass) : k.elem.WF := by cases k <;> trivial
theorem KeyClass.elem_widths (k : KeyClass) : k.elem.Widths := by cases k <;> trivial
theorem KeyClass.of_to (k : KeyClass) (x : k.V) : k.ofElem (k.toElem x) = x := by cases k <;> rfl

theorem MapMsg.entryLen_eq (m : MapMsg) (hw : m.val.Widths) (e : m.Entry) : m.entryLen e = (m.entryBytes e).length := by
  obtain ⟨k, o⟩ := e
  unfold entryLen entryBytes
  rw [Elem.encLen_eq _ _ m.key.elem_widths, List.length_append, tlv_length]
  cases o with
  | none => rfl
  | some v => simp only []; rw [Elem.encLen_eq _ _ hw, tlv_length]

theorem foldl_sum {α : Type} (f : α → Nat) : ∀ (l : List α) (n : Nat), l.foldl (fun acc e => acc + f e) n = n + (l.map f).sum
  | [], n => by simp
  | a :: l, n => by rw [List.foldl_cons, foldl_sum f l]; simp; omega

theorem flatten_length_sum (l : List Bytes) : l.flatten.length = (l.map List.length).sum := by simp

theorem MapMsg.encLen_eq (m : MapMsg) (hf : m.fs.Widths) (hw : m.val.Widths) (v : m.fs.V) (es es' : List m.Entry) (hp : es.Perm es') :
    m.encLen v es = (m.bytes v es').length := by
  unfold encLen bytes
  rw [List.length_append, foldl_sum, Fields.encLen_eq _ _ hf, Nat.zero_add, flatten_length_sum (es'.map _), List.map_map]
  have e : es.map m.entryLen = es.map (List.length ∘ m.entryBytes) := List.map_congr_left fun e _ => m.entryLen_eq hw e
  rw [e, (hp.map _).sum_nat]
  rfl

theorem MapMsg.putEntry_writes (m : MapMsg) (hw : m.val.Widths) (e : m.Entry) : Writes (m.putEntry e) (m.entryBytes e) := by
  obtain ⟨k, o⟩ := e
  have hk := Writes.bind (Writes.put (tlEnc m.keyTyp)) (Elem.writes m.key.elem (m.key.toElem k) m.key.elem_widths)
  cases o with
  | none =>
    exact (Writes.bind hk Writes.done).congr (by simp [entryBytes, tlv])
  | some v =>
    exact (Writes.bind hk (Writes.bind (Writes.put (tlEnc m.valTyp)) (Elem.writes m.val v hw))).congr (by simp [entryBytes, tlv])

/-- C68: encoding does not panic and writes exactly the buffer it allocated, with the entries in the order of the second iteration, whatever the two
orders are and whether or not values are nil. -/
theorem C68_length_pass (m : MapMsg) (hf : m.fs.Widths) (hw : m.val.Widths) (v : m.fs.V) (es es' : List m.Entry) (hp : es.Perm es') :
    m.encode v es es' = .ok (m.bytes v es') := by
  have hl := m.encLen_eq hf hw v es es' hp
  have h : Writes (m.encodeInto v es') (m.bytes v es') := Writes.bind (Fields.writes m.fs v hf) (Writes.putAll es' fun e _ => m.putEntry_writes hw e)
  have h := h (List.replicate (m.encLen v es) 0, 0) (by show 0 + _ ≤ (List.replicate _ _).length; rw [List.length_replicate, hl]; omega)
  unfold MapMsg.encode
  rw [h]
  show Res.ok (splice _ 0 _) = _
  simp [splice, hl]

/-! ## Parsing -/

theorem parseLoop_more {σ : Type} {ic : Bool} {known : Nat → Bool} {read : Nat → Nat → σ → BR → PR σ} {r r' : BR} {typ : Nat} {b t : Bytes} {st st' : σ}
    (fuel : Nat) (hr : r.rest = tlv typ b ++ t) (ht : typ < 2 ^ 64) (hb : b.length < 2 ^ 62) (hk : known typ = true)
    (hread : ∀ r2 : BR, r2.rest = b ++ t → r2.adv b.length = r.adv (tlv typ b).length → r2.buf = r.buf → r2.pos ≤ r2.buf.length →
      read typ b.length st r2 = some (.ok st', r')) :
    parseLoop ic known read (fuel + 1) st r = parseLoop ic known read fuel st' r' := by
  obtain ⟨e1, e2, e3, e4⟩ := readTL_two hr ht hb
  have hp := tlv_ne hr
  have hp2 : ((r.adv (tlLen typ)).adv (tlLen b.length)).pos ≤ ((r.adv (tlLen typ)).adv (tlLen b.length)).buf.length := by
    have h1 := congrArg List.length hr
    rw [BR.rest_length, List.length_append, tlv_length] at h1
    show r.pos + tlLen typ + tlLen b.length ≤ r.buf.length
    omega
  rw [parseLoop, if_neg hp, e1]
  simp only []
  rw [e2]
  simp only [hk, if_true]
  rw [hread _ e3 e4 rfl hp2]

theorem MapMsg.readVal_ok (m : MapMsg) (hm : m.WF) (ic : Bool) (F : Nat) (v : m.val.V) (hv : m.val.InRange v) (b : Bytes) (hb : m.val.Body ic v b) (r : BR)
    (t : Bytes) (hg : Tiny r) (hr : r.rest = tlv m.valTyp b ++ t) (hF : b.length < F) :
    m.readVal ic F r = some (.ok v, r.adv (tlv m.valTyp b).length) := by
  have h1 := hg.rest
  rw [hr, List.length_append, tlv_length] at h1
  obtain ⟨e1, e2, e3, e4⟩ := readTL_two hr hm.valTyp (by omega)
  unfold readVal
  rw [e1]; simp only []
  rw [e2]; simp only [ne_eq, not_true, if_false]
  rw [Elem.read_ok ic m.val v b hm.val hv hb F _ t ?_ e3 hF, e4]
  refine ⟨?_, hg.2⟩
  have h2 := congrArg List.length hr
  rw [BR.rest_length, List.length_append, tlv_length] at h2
  have := tlLen_pos m.valTyp
  show r.pos + tlLen m.valTyp + tlLen b.length ≤ r.buf.length
  omega

/-- one entry -/
theorem MapMsg.entry_step (m : MapMsg) (hm : m.WF) (ic : Bool) (F : Nat) (p : m.key.V × m.val.V) (hp : m.EntryOk p)
    (hF : (m.entryBytes (full p)).length ≤ F) (st : m.fs.St) (es : List (m.key.V × m.val.V)) :
    StepBy ic (fun t => m.fs.types.contains t || t == m.keyTyp) (m.dispatch ic F) (m.entryBytes (full p)) (st, es) (st, assign es p.1 p.2) := by
  obtain ⟨k, v⟩ := p
  have he : m.entryBytes (full (k, v)) = tlv m.keyTyp (m.key.elem.body (m.key.toElem k)) ++ tlv m.valTyp (m.val.body v) := rfl
  rw [he] at hF ⊢
  rw [List.length_append, tlv_length, tlv_length] at hF
  refine ⟨by rw [List.length_append, tlv_length]; have := tlLen_pos m.keyTyp; omega, ?_⟩
  intro r t fuel htiny hr
  rw [List.append_assoc] at hr
  have h1 := htiny.rest
  rw [hr, List.length_append, tlv_length, List.length_append, tlv_length] at h1
  refine parseLoop_more fuel hr hm.key.2.1 (by omega) (by simp) ?_
  intro r2 hr2 e4 hbuf hpos
  have hp1 := tlLen_pos m.keyTyp
  have hp2 := tlLen_pos m.valTyp
  unfold dispatch
  rw [if_pos rfl]
  unfold readEntry
  rw [Elem.read_ok ic m.key.elem (m.key.toElem k) _ m.key.elem_wf hp.1 (Elem.body_body ic _ _) F r2 _ ⟨hpos, hbuf ▸ htiny.2⟩ hr2 (by omega)]
  simp only []
  have hr3 := rest_adv_append hr2
  rw [m.readVal_ok hm ic F v hp.2 _ (Elem.body_body ic _ _) _ t ?_ hr3 (by omega)]
  · show some (Res.ok (st, assign es (m.key.ofElem (m.key.toElem k)) v), _) = _
    rw [m.key.of_to, e4, BR.adv_adv, List.length_append]
  · refine Tiny.adv ⟨hpos, hbuf ▸ htiny.2⟩ ?_
    rw [hr2, List.length_append]; omega

/-- what the assignments give -/
def assignAll {κ α : Type} [DecidableEq κ] (l : List (κ × α)) (es : List (κ × α)) : List (κ × α) := es.foldl (fun l p => assign l p.1 p.2) l

theorem mget_assign {κ α : Type} [DecidableEq κ] (l : List (κ × α)) (k k' : κ) (v : α) :
    mget (assign l k v) k' = if k = k' then some v else mget l k' := by
  unfold mget assign
  by_cases h : k = k'
  · rw [List.find?_cons_of_pos (by simpa using h), if_pos h]; rfl
  · rw [List.find?_cons_of_neg (by simpa using h), if_neg h]
    congr 1
    induction l with
    | nil => rfl
    | cons p l ih =>
      by_cases hp : p.1 = k
      · rw [List.filter_cons_of_neg (by simp [hp]), ih, List.find?_cons_of_neg (by simp [hp, h])]
      · rw [List.filter_cons_of_pos (by simp [hp])]
        by_cases hq : p.1 = k'
        · rw [List.find?_cons_of_pos (by simpa using hq), List.find?_cons_of_pos (by simpa using hq)]
        · rw [List.find?_cons_of_neg (by simpa using hq), List.find?_cons_of_neg (by simpa using hq), ih]

theorem mget_append {κ α : Type} [DecidableEq κ] (l l' : List (κ × α)) (k : κ) : mget (l ++ l') k = (mget l k).or (mget l' k) := by
  unfold mget
  rw [List.find?_append]
  cases List.find? (fun p => decide (p.1 = k)) l <;> rfl

theorem mget_cons {κ α : Type} [DecidableEq κ] (p : κ × α) (l : List (κ × α)) (k : κ) :
    mget (p :: l) k = if p.1 = k then some p.2 else mget l k := by
  unfold mget
  by_cases h : p.1 = k
  · rw [List.find?_cons_of_pos (by simpa using h), if_pos h]; rfl
  · rw [List.find?_cons_of_neg (by simpa using h), if_neg h]

theorem mget_assignAll {κ α : Type} [DecidableEq κ] (k : κ) : ∀ (es l : List (κ × α)), mget (assignAll l es) k = (mget es.reverse k).or (mget l k)
  | [], l => rfl
  | p :: es, l => by
    show mget (assignAll (assign l p.1 p.2) es) k = _
    rw [mget_assignAll k es, mget_assign, List.reverse_cons, mget_append, mget_cons]
    cases mget es.reverse k with
    | some v => rfl
    | none =>
      by_cases h : p.1 = k
      · simp [h]
      · simp [h, mget]

theorem mget_reverse {κ α : Type} [DecidableEq κ] (k : κ) : ∀ (es : List (κ × α)), (es.map (·.1)).Nodup → mget es.reverse k = mget es k
  | [], _ => rfl
  | p :: es, h => by
    rw [List.map_cons, List.nodup_cons] at h
    rw [List.reverse_cons, mget_append, mget_cons, mget_reverse k es h.2, mget_cons]
    by_cases hk : p.1 = k
    · have : mget es k = none := by
        unfold mget
        rw [List.find?_eq_none.mpr]
        · rfl
        · intro q hq hqk
          exact h.1 (List.mem_map.mpr ⟨q, hq, by rw [hk]; simpa using hqk⟩)
      rw [this, if_pos hk, if_pos hk]; rfl
    · simp [hk, mget]

theorem mget_perm {κ α : Type} [DecidableEq κ] (k : κ) {es es' : List (κ × α)} (hp : es.Perm es') : (es.map (·.1)).Nodup → mget es k = mget es' k := by
  induction hp with
  | nil => exact fun _ => rfl
  | cons p _ ih =>
    intro h
    rw [List.map_cons, List.nodup_cons] at h
    rw [mget_cons, mget_cons, ih h.2]
  | swap p q l =>
    intro h
    rw [mget_cons, mget_cons, mget_cons, mget_cons]
    simp only [List.map_cons, List.nodup_cons, List.mem_cons, not_or] at h
    by_cases h1 : p.1 = k
    · have : q.1 ≠ k := fun h2 => h.1.1 (h2.trans h1.symm)
      simp [h1, this]
    · simp [h1]
  | trans h1 _ ih1 ih2 => exact fun h => (ih1 h).trans (ih2 ((h1.map _).nodup_iff.mp h))

theorem MapMsg.entries_steps (m : MapMsg) (hm : m.WF) (ic : Bool) (F : Nat) (st : m.fs.St) :
    ∀ (ps : List (m.key.V × m.val.V)) (es : List (m.key.V × m.val.V)), (∀ p ∈ ps, m.EntryOk p) →
      (∀ p ∈ ps, (m.entryBytes (full p)).length ≤ F) →
      Steps ic (fun t => m.fs.types.contains t || t == m.keyTyp) (m.dispatch ic F) (ps.map fun p => m.entryBytes (full p)) (st, es) (st, assignAll es ps)
  | [], _, _, _ => .nil _
  | p :: ps, es, hok, hF =>
    .cons (m.entry_step hm ic F p (hok p (by simp)) (hF p (by simp)) st es)
      (m.entries_steps hm ic F st ps (assign es p.1 p.2) (fun q hq => hok q (by simp [hq])) (fun q hq => hF q (by simp [hq])))

theorem MapMsg.ignorable_step (m : MapMsg) {σ : Type} {ic : Bool} {read : Nat → Nat → σ → BR → PR σ} {b : Bytes} {st : σ} (h : m.Ignorable ic b) :
    StepBy ic (fun t => m.fs.types.contains t || t == m.keyTyp) read b st st := by
  obtain ⟨typ, body, rfl, ht, hn, hn2, hc⟩ := h
  refine ⟨by rw [tlv_length]; have := tlLen_pos typ; omega, ?_⟩
  intro r t fuel htiny hr
  have h1 := htiny.rest
  rw [hr, List.length_append, tlv_length] at h1
  exact parseLoop_ignore fuel hr htiny.good ht (by omega) (by simp [hn, hn2]) hc

/-- C68: the elements of a message and the entries of a map, in any order of the entries, with repeated keys and with ignorable elements before and behind
any entry: the fields come back, and each key has the value that comes last for it. -/
theorem C68_last_wins (m : MapMsg) (hm : m.WF) (ic : Bool) (v : m.fs.V) (hv : m.fs.InRange v) (own items : List Bytes) (ho : m.fs.Own ic v own)
    (ps : List (m.key.V × m.val.V)) (hps : ∀ p ∈ ps, m.EntryOk p)
    (hmix : Mixed (m.Ignorable ic) (own ++ ps.map fun p => m.entryBytes (full p)) items) (hs : items.flatten.length < 2 ^ 43) (fuel : Nat)
    (hf : items.flatten.length < fuel) :
    ∃ r l, m.parse ic fuel (BR.new items.flatten) = some (.ok (v, l), r) ∧ ∀ k, mget l k = mget ps.reverse k := by
  have hlen : ∀ b ∈ own ++ ps.map (fun p => m.entryBytes (full p)), b.length ≤ fuel := fun b hb => by
    have := length_le_flatten (hmix.sub b hb); omega
  have h1 : Steps ic (fun t => m.fs.types.contains t || t == m.keyTyp) (m.dispatch ic fuel) own (m.fs.init, []) (m.fs.done v, []) :=
    Fields.steps ic m.fs v own hm.fs hv ho fuel _ (m.dispatch ic fuel) (fun st => (st, [])) (fun t h => by simp [h])
      (fun t h l st r => by
        unfold MapMsg.dispatch
        rw [if_neg]
        rintro rfl; exact hm.key.2.2 h)
      (fun b hb => hlen b (by simp [hb]))
  have h2 := m.entries_steps hm ic fuel (m.fs.done v) ps [] hps (fun p hp => hlen _ (List.mem_append_right _ (List.mem_map_of_mem hp)))
  have h3 := ((h1.append h2).mixed (fun b st h => m.ignorable_step h) hmix).finish rfl hs hf
  refine ⟨(BR.new items.flatten).adv items.flatten.length, assignAll [] ps, ?_, ?_⟩
  · unfold MapMsg.parse
    rw [h3]
    show some ((m.fs.finish (m.fs.done v)).map _, _) = _
    rw [Fields.finish_done]
    rfl
  · intro k
    rw [mget_assignAll]
    cases mget ps.reverse k <;> rfl

/-- C68: a map whose values are not nil comes back, whatever the orders of iteration.  Missing: nil values, see `C68_nil_value_violated`; as in C19, name
components are at most 252 bytes and messages under 8 TiB. -/
theorem C68_roundtrip_partial (m : MapMsg) (hm : m.WF) (v : m.fs.V) (hv : m.fs.InRange v) (ps ps1 ps2 : List (m.key.V × m.val.V))
    (hps : ∀ p ∈ ps, m.EntryOk p) (hd : (ps.map (·.1)).Nodup) (h1 : ps.Perm ps1) (h2 : ps.Perm ps2)
    (hs : (m.bytes v (ps.map full)).length < 2 ^ 43) :
    ∃ b, m.encode v (ps1.map full) (ps2.map full) = .ok b ∧ ∀ (ic : Bool) (fuel : Nat), b.length < fuel →
      ∃ r l, m.parse ic fuel (BR.new b) = some (.ok (v, l), r) ∧ ∀ k, mget l k = mget ps k := by
  have hwf := Fields.WF.widths _ hm.fs
  have hwv := Elem.WF.widths _ hm.val
  refine ⟨m.bytes v (ps2.map full), C68_length_pass m hwf hwv v _ _ ((h1.symm.trans h2).map _), ?_⟩
  intro ic fuel hf
  have hl : (m.bytes v (ps2.map full)).length < 2 ^ 43 := by
    rw [← m.encLen_eq hwf hwv v _ _ (h2.map full), m.encLen_eq hwf hwv v _ _ (List.Perm.refl (ps.map full))]; exact hs
  have e : m.bytes v (ps2.map full) = (m.fs.elems v ++ ps2.map fun p => m.entryBytes (full p)).flatten := by
    unfold MapMsg.bytes Fields.enc
    rw [List.flatten_append, List.map_map]; rfl
  rw [e] at hl hf ⊢
  obtain ⟨r, l, g1, g2⟩ := C68_last_wins m hm ic v hv _ _ (Fields.own_elems ic m.fs v) ps2 (fun p hp => hps p (h2.mem_iff.mpr hp)) (Mixed.refl _ _) hl
    fuel hf
  refine ⟨r, l, g1, fun k => ?_⟩
  rw [g2, mget_reverse k ps2 ((h2.map _).nodup_iff.mp hd), mget_perm k h2.symm ((h2.map _).nodup_iff.mp hd)]

/-- tests/encoding/gen_map/definition.go:14-17 `IntStructMap` -/
def intStructMap : MapMsg := ⟨.nil, 0x85, .nat, 0x87, .struct (.cons 1 .req .nat .nil)⟩

theorem intStructMap_wf : intStructMap.WF := by
  refine ⟨trivial, by decide, by decide, ?_⟩
  simp [intStructMap, Elem.WF, Fields.WF, Fields.types]

example : intStructMap.WF ∧ (∀ p ∈ ([((5 : Nat), ((7 : Nat), ())), ((300 : Nat), ((8 : Nat), ()))] : List (intStructMap.key.V × intStructMap.val.V)),
    intStructMap.EntryOk p) := by
  refine ⟨intStructMap_wf, ?_⟩
  intro p hp
  rcases List.mem_cons.mp hp with rfl | hp
  · exact ⟨show 5 < 2 ^ 64 by decide, show 7 < 2 ^ 64 by decide, trivial⟩
  · rcases List.mem_cons.mp hp with rfl | hp
    · exact ⟨show 300 < 2 ^ 64 by decide, show 8 < 2 ^ 64 by decide, trivial⟩
    · cases hp

/-- the reader behind the key -/
theorem MapMsg.parse_key (m : MapMsg) (hm : m.WF) (ic : Bool) (k : m.key.V) (hk : m.key.elem.InRange (m.key.toElem k)) (t : Bytes)
    (hs : (tlv m.keyTyp (m.key.elem.body (m.key.toElem k)) ++ t).length < 2 ^ 43) (fuel : Nat)
    (hf : (tlv m.keyTyp (m.key.elem.body (m.key.toElem k)) ++ t).length < fuel) (e : Err) (r' : BR)
    (h : m.readVal ic fuel ((BR.new (tlv m.keyTyp (m.key.elem.body (m.key.toElem k)) ++ t)).adv
      (tlv m.keyTyp (m.key.elem.body (m.key.toElem k))).length) = some (.err e, r')) :
    m.parse ic fuel (BR.new (tlv m.keyTyp (m.key.elem.body (m.key.toElem k)) ++ t)) = some (.err (.failToParse m.keyTyp e), r') := by
  generalize hb : m.key.elem.body (m.key.toElem k) = b at *
  have hr : (BR.new (tlv m.keyTyp b ++ t)).rest = tlv m.keyTyp b ++ t := by simp
  have hl := hs
  have hl2 := hf
  rw [List.length_append, tlv_length] at hl hl2
  obtain ⟨e1, e2, e3, e4⟩ := readTL_two hr hm.key.2.1 (by omega)
  obtain ⟨f, rfl⟩ : ∃ f, fuel = f + 1 := ⟨fuel - 1, by omega⟩
  unfold MapMsg.parse
  have hp1 := tlLen_pos m.keyTyp
  rw [parseLoop, if_neg (tlv_ne hr), e1]
  simp only []
  rw [e2]
  simp only [beq_self_eq_true, Bool.or_true, if_true]
  have hd : m.dispatch ic (f + 1) m.keyTyp b.length (m.fs.init, []) (((BR.new (tlv m.keyTyp b ++ t)).adv (tlLen m.keyTyp)).adv (tlLen b.length)) =
      some (.err e, r') := by
    unfold dispatch
    rw [if_pos rfl]
    unfold readEntry
    rw [Elem.read_ok ic m.key.elem (m.key.toElem k) b m.key.elem_wf hk (hb ▸ Elem.body_body ic _ _) (f + 1) _ t ?_ e3 (by omega)]
    · simp only []
      rw [e4, h]; rfl
    · refine ⟨?_, hs⟩
      show 0 + tlLen m.keyTyp + tlLen b.length ≤ (tlv m.keyTyp b ++ t).length
      rw [List.length_append, tlv_length]; omega
  rw [hd]

/-- C68 fails for nil values: the encoding of a map with one entry whose value is nil is not parsed, for any key and any types. -/
theorem C68_nil_value_violated (m : MapMsg) (hm : m.WF) (hfs : m.fs = .nil) (v : m.fs.V) (k : m.key.V) (hk : m.key.elem.InRange (m.key.toElem k))
    (hs : (m.bytes v [(k, none)]).length < 2 ^ 43) :
    ∃ b, m.encode v [(k, none)] [(k, none)] = .ok b ∧ ∀ (ic : Bool) (fuel : Nat), b.length < fuel → ∃ e r, m.parse ic fuel (BR.new b) = some (.err e, r) := by
  refine ⟨_, C68_length_pass m (Fields.WF.widths _ hm.fs) (Elem.WF.widths _ hm.val) v _ _ (List.Perm.refl _), ?_⟩
  intro ic fuel hf
  have e : m.bytes v [(k, none)] = tlv m.keyTyp (m.key.elem.body (m.key.toElem k)) ++ [] := by
    obtain ⟨fs, kt, ke, vt, ve⟩ := m
    subst hfs
    show ([] : List Bytes).flatten ++ ((tlv _ _ ++ []) :: []).flatten = _
    simp
  rw [e] at hs hf ⊢
  refine ⟨_, _, m.parse_key hm ic k hk [] hs fuel hf (.failToParse 0 .eof) ?_ ?_⟩
  · exact (BR.new (tlv m.keyTyp (m.key.elem.body (m.key.toElem k)) ++ [])).adv (tlv m.keyTyp (m.key.elem.body (m.key.toElem k))).length
  · generalize m.key.elem.body (m.key.toElem k) = b
    unfold MapMsg.readVal
    have : BR.readTL ((BR.new (tlv m.keyTyp b ++ [])).adv (tlv m.keyTyp b).length) =
        (.err .eof, (BR.new (tlv m.keyTyp b ++ [])).adv (tlv m.keyTyp b).length) := by
      have hnil : ((BR.new (tlv m.keyTyp b ++ [])).adv (tlv m.keyTyp b).length).rest = [] := rest_adv_append (by simp)
      rcases readTL_cases ((BR.new (tlv m.keyTyp b ++ [])).adv (tlv m.keyTyp b).length) with h | h | h
      · exact h.2
      · obtain ⟨_, _, _, h⟩ := h
        exact absurd hnil h
      · obtain ⟨_, _, h, _⟩ := h
        rw [hnil] at h
        cases h
    rw [this]

example : intStructMap.key.elem.InRange (intStructMap.key.toElem (5 : Nat)) ∧ (intStructMap.bytes () [((5 : Nat), none)]).length = 3 :=
  ⟨show 5 < 2 ^ 64 by decide, by decide⟩

/-- C68, evolvability: an element of another type between the key and the value of an entry is refused, even if it may be ignored elsewhere and even with
`ignoreCritical`. -/
theorem C68_between_refused (m : MapMsg) (hm : m.WF) (ic : Bool) (k : m.key.V) (hk : m.key.elem.InRange (m.key.toElem k)) (typ : Nat) (body t : Bytes)
    (ht : typ < 2 ^ 64) (hn : typ ≠ m.valTyp)
    (hs : (tlv m.keyTyp (m.key.elem.body (m.key.toElem k)) ++ (tlv typ body ++ t)).length < 2 ^ 43) (fuel : Nat)
    (hf : (tlv m.keyTyp (m.key.elem.body (m.key.toElem k)) ++ (tlv typ body ++ t)).length < fuel) :
    ∃ e r, m.parse ic fuel (BR.new (tlv m.keyTyp (m.key.elem.body (m.key.toElem k)) ++ (tlv typ body ++ t))) = some (.err e, r) := by
  have hl := hs
  rw [List.length_append, List.length_append, tlv_length typ] at hl
  obtain ⟨e1, e2, e3, e4⟩ := readTL_two (r := (BR.new (tlv m.keyTyp (m.key.elem.body (m.key.toElem k)) ++ (tlv typ body ++ t))).adv
    (tlv m.keyTyp (m.key.elem.body (m.key.toElem k))).length) (b := body) (t := t) (rest_adv_append (by simp)) ht (by omega)
  have h : ∃ r', m.readVal ic fuel ((BR.new (tlv m.keyTyp (m.key.elem.body (m.key.toElem k)) ++ (tlv typ body ++ t))).adv
      (tlv m.keyTyp (m.key.elem.body (m.key.toElem k))).length) = some (.err (.failToParse m.keyTyp (.unrecognized typ)), r') := by
    unfold MapMsg.readVal
    rw [e1]; simp only []
    rw [e2]; simp only [ne_eq, hn, not_false_eq_true, if_true]
    exact ⟨_, rfl⟩
  obtain ⟨r', h⟩ := h
  exact ⟨_, _, m.parse_key hm ic k hk _ hs fuel hf _ _ h⟩

/-- tests/encoding/gen_map/definition.go:4-7 `StringMap` -/
def stringMap : MapMsg := ⟨.nil, 0x85, .str, 0x87, .bin⟩

-- a key without a value, an ignorable element, and the value
example : stringMap.WF ∧ stringMap.Ignorable false (tlv 0x88 [1, 2]) ∧ (0x88 : Nat) ≠ stringMap.valTyp :=
  ⟨⟨trivial, by decide, by decide, trivial⟩, ⟨0x88, [1, 2], rfl, by decide, by decide, by decide, .inr (by decide)⟩, by decide⟩

end Ndn.Codec
