import Verif.Codec.EncLemmas

/-! # Running the generated parser on well-formed messages (lemmas) -/

namespace Ndn.Codec

/-- a reader whose buffer is under 8 TiB -/
def Tiny (r : BR) : Prop := r.pos ≤ r.buf.length ∧ r.buf.length < 2 ^ 43

theorem Tiny.good {r : BR} (h : Tiny r) : r.Good := ⟨h.1, by have := h.2; omega⟩
theorem Tiny.rest {r : BR} (h : Tiny r) : r.rest.length < 2 ^ 43 := by rw [BR.rest_length]; have := h.2; omega
theorem Tiny.adv {r : BR} (h : Tiny r) {l : Nat} (hl : l ≤ r.rest.length) : Tiny (r.adv l) :=
  ⟨(h.good.adv hl).1, h.2⟩
theorem Tiny.new {b : Bytes} (h : b.length < 2 ^ 43) : Tiny (BR.new b) := ⟨by simp, h⟩

theorem rest_adv_append {r : BR} {a t : Bytes} (h : r.rest = a ++ t) : (r.adv a.length).rest = t := by
  rw [BR.rest_adv, h, List.drop_left]

theorem toInt_small {l : Nat} (h : l < 2 ^ 62) : toInt l = l := toInt_of_lt (by omega)

section loop
variable {σ : Type} {ic : Bool} {known : Nat → Bool} {read : Nat → Nat → σ → BR → PR σ}

/-- the two TL numbers in front of an element -/
theorem readTL_two {r : BR} {typ : Nat} {b t : Bytes} (hr : r.rest = tlv typ b ++ t) (ht : typ < 2 ^ 64)
    (hb : b.length < 2 ^ 62) :
    BR.readTL r = (.ok typ, r.adv (tlLen typ)) ∧
    BR.readTL (r.adv (tlLen typ)) = (.ok b.length, (r.adv (tlLen typ)).adv (tlLen b.length)) ∧
    ((r.adv (tlLen typ)).adv (tlLen b.length)).rest = b ++ t ∧
    ((r.adv (tlLen typ)).adv (tlLen b.length)).adv b.length = r.adv (tlv typ b).length := by
  have h1 : r.rest = tlEnc typ ++ (tlEnc b.length ++ (b ++ t)) := by rw [hr]; simp [tlv]
  have h2 : (r.adv (tlLen typ)).rest = tlEnc b.length ++ (b ++ t) := by
    rw [← tlEnc_length]; exact rest_adv_append h1
  refine ⟨readTL_tlEnc ht h1, readTL_tlEnc (by omega) h2, ?_, ?_⟩
  · rw [← tlEnc_length b.length]; exact rest_adv_append h2
  · rw [BR.adv_adv, BR.adv_adv, tlv_length]

theorem tlv_ne {typ : Nat} {b t : Bytes} {r : BR} (hr : r.rest = tlv typ b ++ t) : ¬ r.pos ≥ r.buf.length := by
  have := congrArg List.length hr
  rw [BR.rest_length, List.length_append, tlv_length] at this
  have := tlLen_pos typ
  omega

/-- one round of the main loop on an element the model knows -/
theorem parseLoop_known {r : BR} {typ : Nat} {b t : Bytes} {st st' : σ} (fuel : Nat) (hr : r.rest = tlv typ b ++ t)
    (ht : typ < 2 ^ 64) (hb : b.length < 2 ^ 62) (hk : known typ = true)
    (hread : ∀ r2 : BR, r2.rest = b ++ t → r2.adv b.length = r.adv (tlv typ b).length → r2.buf = r.buf →
      r2.pos ≤ r2.buf.length → read typ b.length st r2 = some (.ok st', r2.adv b.length)) :
    parseLoop ic known read (fuel + 1) st r = parseLoop ic known read fuel st' (r.adv (tlv typ b).length) := by
  obtain ⟨e1, e2, e3, e4⟩ := readTL_two hr ht hb
  have hp := tlv_ne hr
  have hp2 : ((r.adv (tlLen typ)).adv (tlLen b.length)).pos ≤ ((r.adv (tlLen typ)).adv (tlLen b.length)).buf.length := by
    have h5 := congrArg List.length hr
    have h6 := BR.rest_length r
    rw [List.length_append, tlv_length] at h5
    simp only [BR.adv_pos, BR.adv_buf]; omega
  have := hread _ e3 e4 rfl hp2
  rw [parseLoop, if_neg hp, e1]
  simp only
  rw [e2]
  simp only
  rw [if_pos hk, this]
  simp only
  rw [e4]

/-- one round of the main loop on an element the model does not know and may ignore -/
theorem parseLoop_ignore {r : BR} {typ : Nat} {b t : Bytes} {st : σ} (fuel : Nat) (hr : r.rest = tlv typ b ++ t)
    (hg : r.Good) (ht : typ < 2 ^ 64) (hb : b.length < 2 ^ 62) (hk : known typ = false)
    (hc : ic = true ∨ (31 < typ ∧ typ % 2 = 0)) :
    parseLoop ic known read (fuel + 1) st r = parseLoop ic known read fuel st (r.adv (tlv typ b).length) := by
  obtain ⟨e1, e2, e3, e4⟩ := readTL_two hr ht hb
  have hp := tlv_ne hr
  have hlen : (tlv typ b).length ≤ r.rest.length := by rw [hr, List.length_append]; omega
  rw [tlv_length] at hlen
  have hg2 : ((r.adv (tlLen typ)).adv (tlLen b.length)).Good := by
    rw [BR.adv_adv]; exact hg.adv (by omega)
  have hs := BR.skip_ok hg2 (l := b.length) (by rw [e3]; simp)
  rw [← toInt_small hb] at hs
  have hcrit : ¬ ((!ic && isCritical typ) = true) := by
    rcases hc with h | ⟨h1, h2⟩
    · simp [h]
    · unfold isCritical; simp; intro _; omega
  rw [parseLoop, if_neg hp, e1]
  simp only
  rw [e2]
  simp only
  rw [if_neg (by simp [hk]), if_neg hcrit, hs]
  simp only
  rw [e4]

/-- one round of the main loop on a critical element the model does not know -/
theorem parseLoop_critical {r : BR} {typ : Nat} {b t : Bytes} {st : σ} (fuel : Nat) (hr : r.rest = tlv typ b ++ t)
    (ht : typ < 2 ^ 64) (hb : b.length < 2 ^ 62) (hk : known typ = false)
    (hc : typ ≤ 31 ∨ typ % 2 = 1) :
    ∃ r', parseLoop false known read (fuel + 1) st r = some (.err (.unrecognized typ), r') := by
  obtain ⟨e1, e2, e3, e4⟩ := readTL_two hr ht hb
  have hp := tlv_ne hr
  have hcrit : (!false && isCritical typ) = true := by
    unfold isCritical; simp; omega
  refine ⟨(r.adv (tlLen typ)).adv (tlLen b.length), ?_⟩
  rw [parseLoop, if_neg hp, e1]
  simp only
  rw [e2]
  simp only
  rw [if_neg (by simp [hk]), if_pos hcrit]

theorem parseLoop_end {r : BR} {st : σ} (fuel : Nat) (hr : r.rest = []) :
    parseLoop ic known read (fuel + 1) st r = some (.ok st, r) := by
  have : r.pos ≥ r.buf.length := by
    have := BR.rest_length r; rw [hr] at this; simp at this; omega
  rw [parseLoop, if_pos this]

/-- processing the bytes `b` takes the loop from state `st` to `st'` -/
def StepBy (ic : Bool) (known : Nat → Bool) (read : Nat → Nat → σ → BR → PR σ) (b : Bytes) (st st' : σ) : Prop :=
  1 ≤ b.length ∧ ∀ (r : BR) (t : Bytes) (fuel : Nat), Tiny r → r.rest = b ++ t →
    parseLoop ic known read (fuel + 1) st r = parseLoop ic known read fuel st' (r.adv b.length)

/-- the same for a sequence of elements -/
inductive Steps (ic : Bool) (known : Nat → Bool) (read : Nat → Nat → σ → BR → PR σ) : List Bytes → σ → σ → Prop
  | nil (st : σ) : Steps ic known read [] st st
  | cons {b : Bytes} {bs : List Bytes} {st st' st'' : σ} : StepBy ic known read b st st' →
      Steps ic known read bs st' st'' → Steps ic known read (b :: bs) st st''

theorem Steps.append {as bs : List Bytes} {st st' st'' : σ} (h1 : Steps ic known read as st st')
    (h2 : Steps ic known read bs st' st'') : Steps ic known read (as ++ bs) st st'' := by
  induction h1 with
  | nil => exact h2
  | cons h _ ih => exact .cons h (ih h2)

theorem Steps.split {as bs : List Bytes} {st st'' : σ} (h : Steps ic known read (as ++ bs) st st'') :
    ∃ st', Steps ic known read as st st' ∧ Steps ic known read bs st' st'' := by
  induction as generalizing st with
  | nil => exact ⟨st, .nil _, h⟩
  | cons a as ih =>
    cases h with
    | cons h1 h2 =>
      obtain ⟨s, p, q⟩ := ih h2
      exact ⟨s, .cons h1 p, q⟩

theorem Steps.run {bs : List Bytes} {st st' : σ} (h : Steps ic known read bs st st') :
    ∀ (r : BR) (t : Bytes) (fuel : Nat), Tiny r → r.rest = bs.flatten ++ t →
      parseLoop ic known read (fuel + bs.length) st r = parseLoop ic known read fuel st' (r.adv bs.flatten.length) := by
  induction h with
  | nil => intro r t fuel _ _; rfl
  | cons h1 _ ih =>
    rename_i b bs st st' st'' _
    intro r t fuel htiny hr
    have hr' : r.rest = b ++ (bs.flatten ++ t) := by rw [hr]; simp
    rw [List.length_cons, ← Nat.add_assoc, h1.2 r _ _ htiny hr', ih _ t fuel (htiny.adv (by rw [hr']; simp)) (rest_adv_append hr')]
    rw [BR.adv_adv, List.flatten_cons, List.length_append]

theorem Steps.length_le {bs : List Bytes} {st st' : σ} (h : Steps ic known read bs st st') :
    bs.length ≤ bs.flatten.length := by
  induction h with
  | nil => simp
  | cons h1 _ ih => simp only [List.length_cons, List.flatten_cons, List.length_append]; have := h1.1; omega

/-- the whole loop on a sequence of elements -/
theorem Steps.finish {bs : List Bytes} {st st' : σ} (h : Steps ic known read bs st st') {b : Bytes}
    (hb : b = bs.flatten) (hs : b.length < 2 ^ 43) {fuel : Nat} (hf : b.length < fuel) :
    parseLoop ic known read fuel st (BR.new b) = some (.ok st', (BR.new b).adv b.length) := by
  have hl := h.length_le
  obtain ⟨k, rfl⟩ : ∃ k, fuel = k + 1 + bs.length := ⟨fuel - 1 - bs.length, by subst hb; omega⟩
  rw [h.run (BR.new b) [] (k + 1) (.new hs) (by simp [hb]), parseLoop_end, hb]
  rw [BR.rest_adv, BR.rest_new, hb, List.drop_length]

theorem Steps.mixed {U : Bytes → Prop} (hU : ∀ b st, U b → StepBy ic known read b st st) {own items : List Bytes}
    {st st' : σ} (h : Steps ic known read own st st') (hm : Mixed U own items) : Steps ic known read items st st' := by
  induction hm generalizing st with
  | nil => exact h
  | own b _ ih =>
    cases h with
    | cons h1 h2 => exact .cons h1 (ih h2)
  | junk hu _ ih => exact .cons (hU _ _ hu) (ih h)

end loop

/-! ### Reading single elements -/

theorem read_natural {x : Nat} (hx : x < 2 ^ 64) {r : BR} {t : Bytes} (hr : r.rest = natEnc x ++ t) :
    readNatural (natEnc x).length r = (.ok x, r.adv (natEnc x).length) := by
  rw [natEnc_natW] at hr ⊢
  have hw := natW_cases x
  have hx2 : x < 256 ^ natW x := by
    unfold natW; repeat' split
    all_goals omega
  have hp : 256 ^ natW x ≤ 2 ^ 64 := by rcases hw with h | h | h | h <;> rw [h] <;> decide
  unfold readNatural
  rw [be_length, toInt_small (by omega), Int.toNat_natCast, readBeLoop_ok _ _ _ (by rw [hr, List.length_append, be_length]; omega) (by omega)]
  rw [hr, List.take_left' (be_length _ _), beVal_be_of_lt hx2]; simp

theorem read_fixed {w x : Nat} {p : Bool} (hw : w = 1 ∨ w = 2 ∨ w = 4 ∨ w = 8) (hx : x < 256 ^ w) {r : BR} (hg : r.Good)
    {t : Bytes} (hr : r.rest = be w x ++ t) : readFixed w p (be w x).length r = (.ok x, r.adv (be w x).length) := by
  have hp : 256 ^ w ≤ 2 ^ 64 := by rcases hw with h | h | h | h <;> rw [h] <;> decide
  unfold readFixed
  by_cases h1 : w = 1
  · rw [if_pos h1]
    subst h1
    have hb : be 1 x = [UInt8.ofNat x] := by simp [be]
    have hx' : x < 256 := by simpa using hx
    rw [hb] at hr ⊢
    cases p
    · rw [if_neg (by simp), RM.onErr_ok (BR.readByte_cons hr)]
      simp only
      rw [toNat_ofNat_small hx']; rfl
    · rw [if_pos rfl]
      have hsk : BR.skip 1 r = (.ok (), r.adv 1) := BR.skip_ok hg (l := 1) (by rw [hr]; simp)
      rw [RM.onErr_ok (a := ()) (s' := r.adv 1) hsk]
      simp only
      have hrl := BR.rest_length r
      rw [hr] at hrl; simp at hrl
      have hrange : (r.adv 1).range (((r.adv 1).pos : Int) - 1) (r.adv 1).pos = some [[UInt8.ofNat x]] := by
        unfold BR.range
        rw [if_neg (by simp only [BR.adv_pos, BR.adv_buf]; omega)]
        simp only [BR.adv_pos, BR.adv_buf]
        rw [show (((r.pos + 1 : Nat) : Int) - 1).toNat = r.pos by omega, show ((r.pos + 1 : Nat) : Int).toNat - r.pos = 1 by omega]
        show some [List.take 1 r.rest] = _
        rw [hr]; rfl
      rw [hrange]
      simp only
      rw [toNat_ofNat_small hx']; rfl
  · rw [if_neg h1, be_length, toInt_small (by omega), Int.toNat_natCast,
      readBeLoop_ok _ _ _ (by rw [hr, List.length_append, be_length]; omega) (by omega)]
    simp only
    rw [hr, List.take_left' (be_length _ _), beVal_be_of_lt hx]; simp [Nat.mod_eq_of_lt hx]

theorem tdiv_ms (d : Int) : (0 ≤ d ∧ d.tdiv 1000000 = d / 1000000) ∨ (d < 0 ∧ d.tdiv 1000000 = -(-d / 1000000)) := by
  by_cases h : 0 ≤ d
  · exact .inl ⟨h, Int.tdiv_eq_ediv_of_nonneg h⟩
  · refine .inr ⟨by omega, ?_⟩
    have := Int.tdiv_eq_ediv_of_nonneg (a := -d) (b := 1000000) (by omega)
    rw [Int.neg_tdiv] at this
    omega

/-- the milliseconds that are written for a duration of 64 bits are read back as the duration cut to whole milliseconds, towards zero -/
theorem durOfMs_timeMs {d : Int} (h1 : -2 ^ 63 ≤ d) (h2 : d < 2 ^ 63) : durOfMs (timeMs d) = d.tdiv 1000000 * 1000000 := by
  have hq : -2 ^ 63 ≤ d.tdiv 1000000 * 1000000 ∧ d.tdiv 1000000 * 1000000 < 2 ^ 63 := by
    have := tdiv_ms d
    omega
  have hi : toInt (timeMs d) = d.tdiv 1000000 := by
    unfold timeMs toInt
    rw [wrap64_eq]
    omega
  unfold durOfMs
  rw [hi, wrap64_id hq.1 hq.2]

theorem timeMs_lt (d : Int) : timeMs d < 2 ^ 64 := by unfold timeMs; omega

theorem read_full {b t : Bytes} {r : BR} (hg : Tiny r) (hr : r.rest = b ++ t) :
    readFull b.length r = (.ok b, r.adv b.length) := by
  have h1 := hg.rest
  rw [hr, List.length_append] at h1
  unfold readFull
  rw [if_neg (by unfold maxAlloc; omega)]
  by_cases h0 : b.length = 0
  · rw [if_pos h0]
    have : b = [] := List.eq_nil_of_length_eq_zero h0
    subst this; rfl
  · rw [if_neg h0]
    have hrl := BR.rest_length r
    rw [hr, List.length_append] at hrl
    have : BR.read b.length r = (.ok b, r.adv b.length) := by
      unfold BR.read
      rw [if_neg (by omega)]
      have : List.take b.length (List.drop r.pos r.buf) = b := by
        show List.take b.length r.rest = b
        rw [hr, List.take_left]
      rw [this]; rfl
    rw [this]
    simp

theorem read_copyN {b t : Bytes} {r : BR} (hg : Tiny r) (hr : r.rest = b ++ t) :
    copyN b.length r = (.ok b, r.adv b.length) := by
  have h1 := hg.rest
  rw [hr, List.length_append] at h1
  unfold copyN
  rw [toInt_small (by omega), Int.toNat_natCast]
  have : List.take b.length (List.drop r.pos r.buf) = b := by
    show List.take b.length r.rest = b
    rw [hr, List.take_left]
  rw [this]
  simp only
  rw [if_neg (by omega)]; rfl

theorem encBody_length_ge (n : Name) : 2 * n.length ≤ (Name.encBody n).length := by
  induction n with
  | nil => simp
  | cons c n ih =>
    rw [Name.encBody, List.length_append, Component.enc_length, List.length_cons]
    have := Component.encLen_ge c; omega

theorem readNameSlots_enc (n : Name) : ∀ (r : BR) (t : Bytes) (slots : Nat), r.Good → r.rest = Name.encBody n ++ t →
    (∀ c ∈ n, c.Small) → n.length ≤ slots →
    readNameSlots slots (r.pos + (Name.encBody n).length) r = (.ok n, r.adv (Name.encBody n).length) := by
  induction n with
  | nil =>
    intro r t slots hg hr _ hf
    cases slots <;> simp [readNameSlots, Name.encBody]
  | cons c n ih =>
    intro r t slots hg hr hs hf
    cases slots with
    | zero => simp at hf
    | succ f =>
      have hc := hs c (by simp)
      have hr1 : r.rest = c.enc ++ (Name.encBody n ++ t) := by rw [hr, Name.encBody, List.append_assoc]
      have e := readComponent_enc hg hr1 hc.1 hc.2
      have hle : c.encLen ≤ r.rest.length := by rw [hr1, List.length_append, Component.enc_length]; omega
      have hr' : (r.adv c.encLen).rest = Name.encBody n ++ t := by
        rw [← Component.enc_length]; exact rest_adv_append hr1
      have := ih (r.adv c.encLen) t f (hg.adv hle) hr' (fun c hc => hs c (by simp [hc])) (by simpa using hf)
      have hge := Component.encLen_ge c
      have hlen : (Name.encBody (c :: n)).length = c.encLen + (Name.encBody n).length := by
        rw [Name.encBody, List.length_append, Component.enc_length]
      rw [readNameSlots, if_neg (by omega), e]
      simp only
      rw [hlen, ← Nat.add_assoc, show r.pos + c.encLen = (r.adv c.encLen).pos from rfl, this]
      simp only
      rw [BR.adv_adv]

theorem read_name {n : Name} {t : Bytes} {r : BR} (hg : Tiny r) (hr : r.rest = Name.encBody n ++ t) (hs : ∀ c ∈ n, c.Small) :
    readNameField (Name.encBody n).length r = (.ok n, r.adv (Name.encBody n).length) := by
  have h1 := hg.rest
  rw [hr, List.length_append] at h1
  have h2 := encBody_length_ge n
  unfold readNameField
  rw [if_neg (by unfold maxAlloc; omega)]
  exact readNameSlots_enc n r t _ hg.good hr hs (by omega)

/-! ### Whole messages -/

/-- the parser's state at the end -/
def Fields.done : (fs : Fields) → fs.V → fs.St
  | .nil, _ => ()
  | .flag _ rest, (b, vs) => (b, rest.done vs)
  | .cons _ .req _ rest, (v, vs) => (some v, rest.done vs)
  | .cons _ .opt _ rest, (o, vs) => (o, rest.done vs)
  | .cons _ .seq _ rest, (l, vs) => (l, rest.done vs)

theorem Fields.finish_done : ∀ (fs : Fields) (v : fs.V), fs.finish (fs.done v) = .ok v
  | .nil, _ => rfl
  | .flag _ rest, (b, vs) => by
    show Res.map _ (rest.finish (rest.done vs)) = _
    rw [Fields.finish_done rest vs]; rfl
  | .cons _ .req _ rest, (v, vs) => by
    show Res.map _ (rest.finish (rest.done vs)) = _
    rw [Fields.finish_done rest vs]; rfl
  | .cons _ .opt _ rest, (v, vs) => by
    show Res.map _ (rest.finish (rest.done vs)) = _
    rw [Fields.finish_done rest vs]; rfl
  | .cons _ .seq _ rest, (v, vs) => by
    show Res.map _ (rest.finish (rest.done vs)) = _
    rw [Fields.finish_done rest vs]; rfl

theorem PR.map_map {α β γ : Type} (f : α → β) (g : β → γ) (x : PR α) : PR.map g (PR.map f x) = PR.map (g ∘ f) x := by
  rcases x with _ | ⟨_ | _ | _, _⟩ <;> rfl

theorem ignorable_step {σ : Type} {ic : Bool} {read : Nat → Nat → σ → BR → PR σ} {fs : Fields} {b : Bytes} {st : σ}
    (h : Ignorable ic fs b) : StepBy ic (fun t => fs.types.contains t) read b st st := by
  obtain ⟨typ, body, rfl, ht, hn, hc⟩ := h
  refine ⟨by rw [tlv_length]; have := tlLen_pos typ; omega, ?_⟩
  intro r t fuel htiny hr
  have h1 := htiny.rest
  rw [hr, List.length_append, tlv_length] at h1
  exact parseLoop_ignore fuel hr htiny.good ht (by omega) (by simpa using hn) hc

/-- a step for one element of a field -/
theorem elem_step {σ α : Type} {ic : Bool} {known : Nat → Bool} {read : Nat → Nat → σ → BR → PR σ} {typ : Nat}
    {b : Bytes} {st st' : σ} (ht : typ < 2 ^ 64) (hk : known typ = true) (rd : Nat → BR → PR α) (put : α → σ) (a : α)
    (hput : put a = st')
    (hread : ∀ l r, read typ l st r = PR.map put (rd l r))
    (hrd : ∀ r t, Tiny r → r.rest = b ++ t → rd b.length r = some (.ok a, r.adv b.length)) :
    StepBy ic known read (tlv typ b) st st' := by
  refine ⟨by rw [tlv_length]; have := tlLen_pos typ; omega, ?_⟩
  intro r t fuel htiny hr
  have h1 := htiny.rest
  rw [hr, List.length_append, tlv_length] at h1
  refine parseLoop_known fuel hr ht (by omega) hk ?_
  intro r2 hr2 _ hbuf hpos
  rw [hread, hrd r2 t ⟨hpos, hbuf ▸ htiny.2⟩ hr2, ← hput]; rfl

theorem seq_steps {σ α : Type} {ic : Bool} {known : Nat → Bool} {read : Nat → Nat → σ → BR → PR σ} {typ : Nat}
    (ht : typ < 2 ^ 64) (hk : known typ = true) (rd : Nat → BR → PR α) (put : List α → σ)
    (hread : ∀ acc l r, read typ l (put acc) r = PR.map (fun a => put (acc ++ [a])) (rd l r))
    (R : α → Bytes → Prop) (hrd : ∀ a b r t, R a b → Tiny r → r.rest = b ++ t → rd b.length r = some (.ok a, r.adv b.length)) :
    ∀ (l : List α) (bs : List Bytes) (acc : List α), Zip R l bs →
      Steps ic known read (bs.map (tlv typ)) (put acc) (put (acc ++ l))
  | [], [], acc, _ => by simpa using Steps.nil _
  | a :: l, b :: bs, acc, h => by
    have hs : StepBy ic known read (tlv typ b) (put acc) (put (acc ++ [a])) :=
      elem_step ht hk rd (fun a => put (acc ++ [a])) a rfl (hread acc) (fun r t => hrd a b r t h.1)
    have := seq_steps (ic := ic) ht hk rd put hread R hrd l bs (acc ++ [a]) h.2
    rw [List.append_assoc] at this
    exact .cons hs this
  | [], _ :: _, _, h => h.elim
  | _ :: _, [], _, h => h.elim

theorem Zip.weaken {α : Type} {R S : α → Bytes → Prop} : ∀ {l : List α} {bs : List Bytes}, Zip R l bs →
    (∀ a ∈ l, ∀ b ∈ bs, R a b → S a b) → Zip S l bs
  | [], [], _, _ => trivial
  | a :: _, b :: _, h, hrs =>
    ⟨hrs a (by simp) b (by simp) h.1, h.2.weaken fun x hx y hy => hrs x (by simp [hx]) y (by simp [hy])⟩
  | [], _ :: _, h, _ => h.elim
  | _ :: _, [], h, _ => h.elim

mutual
theorem Elem.read_ok (ic : Bool) : ∀ (e : Elem) (v : e.V) (b : Bytes), e.WF → e.InRange v → e.Body ic v b →
    ∀ (F : Nat) (r : BR) (t : Bytes), Tiny r → r.rest = b ++ t → b.length < F →
      e.read ic F b.length r = some (.ok v, r.adv b.length)
  | .nat, (x : Nat), b, _, hv, hb, F, r, t, _, hr, _ => by
    obtain rfl : b = natEnc x := hb
    exact congrArg some (read_natural hv hr)
  | .fixed w p, (x : Nat), b, hw, hv, hb, F, r, t, hg, hr, _ => by
    obtain rfl : b = be w x := hb
    exact congrArg some (read_fixed hw hv hg.good hr)
  | .time, (d : Int), b, _, hv, hb, F, r, t, _, hr, _ => by
    obtain rfl : b = natEnc (timeMs d) := hb
    obtain ⟨ms, h0, h1, h2⟩ := hv
    have e2 : durOfMs (timeMs d) = d := by rw [durOfMs_timeMs h1 h2, h0, Int.mul_tdiv_cancel _ (by decide)]
    show PR.map (α := Nat) (β := Int) durOfMs (some (readNatural _ r)) = _
    rw [read_natural (timeMs_lt d) hr]
    show some (Res.ok (durOfMs (timeMs d)), _) = _
    rw [e2]; rfl
  | .bin, (b' : Bytes), b, _, hv, hb, F, r, t, hg, hr, _ => by
    obtain rfl : b = b' := hb
    exact congrArg some (read_full hg hr)
  | .str, (b' : Bytes), b, _, hv, hb, F, r, t, hg, hr, _ => by
    obtain rfl : b = b' := hb
    exact congrArg some (read_copyN hg hr)
  | .name, (n : Name), b, _, hv, hb, F, r, t, hg, hr, _ => by
    obtain rfl : b = Name.encBody n := hb
    exact congrArg some (read_name hg hr hv)
  | .wire, (w : Wire), b, _, hv, hb, F, r, t, hg, hr, _ => by
    obtain ⟨b', rfl⟩ := hv
    obtain rfl : b = b' := by have : b = List.flatten [b'] := hb; simpa using this
    have h1 := hg.rest
    rw [hr, List.length_append] at h1
    show some (BR.readWire (toInt b.length) r) = _
    rw [toInt_small (by omega), BR.readWire_ok hg.good (by rw [hr]; simp), hr, List.take_left]; rfl
  | .struct fs, v, b, hw, hv, hb, F, r, t, hg, hr, hF => by
    obtain ⟨own, items, ho, hm, rfl⟩ := hb
    have h1 := hg.rest
    rw [hr, List.length_append] at h1
    have hlen : ∀ x ∈ own, x.length ≤ F := by
      intro x hx
      have hx2 : x ∈ items := by
        clear ho hr hF h1
        induction hm with
        | nil => exact hx
        | own b _ ih => rcases List.mem_cons.mp hx with h | h
                        · simp [h]
                        · exact List.mem_cons_of_mem _ (ih h)
        | junk _ _ ih => exact List.mem_cons_of_mem _ (ih hx)
      have := (List.sublist_flatten_of_mem hx2).length_le
      omega
    have hs := Fields.steps ic fs v own hw hv ho F (fun t => fs.types.contains t) (Fields.dispatch ic F fs) id
      (fun t h => by simpa using h) (fun t _ l st r => by rcases h : fs.dispatch ic F t l st r with _ | ⟨_ | _ | _, _⟩ <;> simp [PR.map, h, Res.map]) hlen
    have hs2 := hs.mixed (fun b st h => ignorable_step h) hm
    have hfin := hs2.finish rfl (by omega) hF
    show (match BR.delegate (toInt items.flatten.length) r with
      | (.ok sub, r1) =>
        match parseLoop ic (fun t => fs.types.contains t) (Fields.dispatch ic F fs) F fs.init sub with
        | none => none
        | some (.ok st, _) => some (fs.finish st, r1)
        | some (.err e, _) => some (.err e, r1)
        | some (.panic, _) => some (.panic, r1)
      | (.err e, r1) => some (.err e, r1)
      | (.panic, r1) => some (.panic, r1)) = _
    rw [toInt_small (by omega), BR.delegate_ok hg.good (by rw [hr]; simp), hr, List.take_left]
    simp only
    have hfin' : parseLoop ic (fun t => fs.types.contains t) (Fields.dispatch ic F fs) F fs.init (BR.new items.flatten) = _ := hfin
    rw [hfin']
    exact congrArg (fun x => some (x, r.adv items.flatten.length)) (Fields.finish_done fs v)
theorem Fields.steps (ic : Bool) : ∀ (fs : Fields) (v : fs.V) (own : List Bytes), fs.WF → fs.InRange v → fs.Own ic v own →
    ∀ (F : Nat) {σ : Type} (known : Nat → Bool) (read : Nat → Nat → σ → BR → PR σ) (put : fs.St → σ),
      (∀ typ ∈ fs.types, known typ = true) →
      (∀ typ ∈ fs.types, ∀ l st r, read typ l (put st) r = PR.map put (fs.dispatch ic F typ l st r)) →
      (∀ b ∈ own, b.length ≤ F) →
      Steps ic known read own (put fs.init) (put (fs.done v))
  | .nil, _, own, _, _, ho, F, σ, known, read, put, hk, hread, hl => by
    obtain rfl : own = [] := ho
    exact .nil _
  | .flag typ rest, (b, vs), own, hw, hv, ho, F, σ, known, read, put, hk, hread, hl => by
    obtain ⟨tl, ho2, rfl⟩ := ho
    obtain ⟨h0, h1, h2, h3⟩ := hw
    have hrest : ∀ b : Bool, Steps ic known read tl (put (b, rest.init)) (put (b, rest.done vs)) := fun b =>
      Fields.steps ic rest vs tl h3 hv ho2 F known read (fun st => put (b, st))
        (fun t ht => hk t (by simp [Fields.types, ht]))
        (fun t ht l st r => by
          refine (hread t (by simp [Fields.types, ht]) l (b, st) r).trans ?_
          exact (congrArg (PR.map put) (if_neg (fun h : t = typ => h2 (h ▸ ht)))).trans (PR.map_map _ _ _))
        (fun b hb => hl b (by simp [hb]))
    cases b
    · exact hrest false
    · refine Steps.append (st' := put (true, rest.init)) ?_ (hrest true)
      refine .cons ?_ (.nil _)
      refine elem_step (α := Unit) h1 (hk typ (by simp [Fields.types])) (fun l r => some (.ok (), r)) (fun _ => put (true, rest.init)) () rfl ?_ ?_
      · intro l r
        refine (hread typ (by simp [Fields.types]) l _ r).trans ?_
        show PR.map put (if typ = typ then _ else _) = _
        rw [if_pos rfl]; rfl
      · intro r t _ _; rfl
  | .cons typ .req e rest, (v, vs), own, hw, hv, ho, F, σ, known, read, put, hk, hread, hl => by
    obtain ⟨b, tl, hb, ho2, rfl⟩ := ho
    obtain ⟨h0, h1, h2, h3, h4⟩ := hw
    have hF := hl (tlv typ b) (by simp)
    rw [tlv_length] at hF
    have := tlLen_pos typ
    refine .cons (st' := put (some v, rest.init)) ?_ ?_
    · refine elem_step h1 (hk typ (by simp [Fields.types])) (Elem.read ic F e) (fun a => put (some a, rest.init)) v rfl ?_ ?_
      · intro l r
        refine (hread typ (by simp [Fields.types]) l _ r).trans ?_
        exact (congrArg (PR.map put) (if_pos rfl)).trans (PR.map_map _ _ _)
      · intro r t hg hr
        exact Elem.read_ok ic e v b h3 hv.1 hb F r t hg hr (by omega)
    · exact Fields.steps ic rest vs tl h4 hv.2 ho2 F known read (fun st => put (some v, st))
        (fun t ht => hk t (by simp [Fields.types, ht]))
        (fun t ht l st r => by
          refine (hread t (by simp [Fields.types, ht]) l (some v, st) r).trans ?_
          exact (congrArg (PR.map put) (if_neg (fun h : t = typ => h2 (h ▸ ht)))).trans (PR.map_map _ _ _))
        (fun b hb => hl b (by simp [hb]))
  | .cons typ .opt e rest, (none, vs), own, hw, hv, ho, F, σ, known, read, put, hk, hread, hl => by
    obtain ⟨h0, h1, h2, h3, h4⟩ := hw
    exact Fields.steps ic rest vs own h4 hv.2 ho F known read (fun st => put (none, st))
        (fun t ht => hk t (by simp [Fields.types, ht]))
        (fun t ht l st r => by
          refine (hread t (by simp [Fields.types, ht]) l (none, st) r).trans ?_
          exact (congrArg (PR.map put) (if_neg (fun h : t = typ => h2 (h ▸ ht)))).trans (PR.map_map _ _ _))
        (fun b hb => hl b (by simp [hb]))
  | .cons typ .opt e rest, (some v, vs), own, hw, hv, ho, F, σ, known, read, put, hk, hread, hl => by
    obtain ⟨b, tl, hb, ho2, rfl⟩ := ho
    obtain ⟨h0, h1, h2, h3, h4⟩ := hw
    have hF := hl (tlv typ b) (by simp)
    rw [tlv_length] at hF
    have := tlLen_pos typ
    refine .cons (st' := put (some v, rest.init)) ?_ ?_
    · refine elem_step h1 (hk typ (by simp [Fields.types])) (Elem.read ic F e) (fun a => put (some a, rest.init)) v rfl ?_ ?_
      · intro l r
        refine (hread typ (by simp [Fields.types]) l _ r).trans ?_
        exact (congrArg (PR.map put) (if_pos rfl)).trans (PR.map_map _ _ _)
      · intro r t hg hr
        exact Elem.read_ok ic e v b h3 hv.1 hb F r t hg hr (by omega)
    · exact Fields.steps ic rest vs tl h4 hv.2 ho2 F known read (fun st => put (some v, st))
        (fun t ht => hk t (by simp [Fields.types, ht]))
        (fun t ht l st r => by
          refine (hread t (by simp [Fields.types, ht]) l (some v, st) r).trans ?_
          exact (congrArg (PR.map put) (if_neg (fun h : t = typ => h2 (h ▸ ht)))).trans (PR.map_map _ _ _))
        (fun b hb => hl b (by simp [hb]))
  | .cons typ .seq e rest, (l, vs), own, hw, hv, ho, F, σ, known, read, put, hk, hread, hl => by
    obtain ⟨bs, tl, hb, ho2, rfl⟩ := ho
    obtain ⟨h0, h1, h2, h3, h4⟩ := hw
    refine Steps.append (st' := put (l, rest.init)) ?_ ?_
    · refine seq_steps h1 (hk typ (by simp [Fields.types])) (Elem.read ic F e) (fun l => put (l, rest.init)) ?_
        (fun a b => Elem.Body ic e a b ∧ Elem.InRange e a ∧ b.length < F) ?_ l bs [] ?_
      · intro acc l r
        refine (hread typ (by simp [Fields.types]) l (acc, rest.init) r).trans ?_
        exact (congrArg (PR.map put) (if_pos rfl)).trans (PR.map_map _ _ _)
      · intro a b r t hR hg hr
        exact Elem.read_ok ic e a b h3 hR.2.1 hR.1 F r t hg hr hR.2.2
      · refine hb.weaken fun a ha b hb2 hB => ⟨hB, hv.1 a ha, ?_⟩
        have hF := hl (tlv typ b) (List.mem_append_left _ (List.mem_map_of_mem hb2))
        rw [tlv_length] at hF
        have := tlLen_pos typ
        omega
    · exact Fields.steps ic rest vs tl h4 hv.2 ho2 F known read (fun st => put (l, st))
        (fun t ht => hk t (by simp [Fields.types, ht]))
        (fun t ht l' st r => by
          refine (hread t (by simp [Fields.types, ht]) l' (l, st) r).trans ?_
          exact (congrArg (PR.map put) (if_neg (fun h : t = typ => h2 (h ▸ ht)))).trans (PR.map_map _ _ _))
        (fun b hb => hl b (by simp [hb]))
end

end Ndn.Codec
