import Verif.Codec.RunLemmas

/-! # What `Init` leaves in the encoder, and what the second pass makes of it (lemmas) -/

namespace Ndn.Codec.Gen

mutual
/-- the cells below `p` are as `Init` leaves them for the field `f` -/
def Ready (ms : List TModel) : (e : Elem) → Cls → Txt → e.V → (Path → Nat) → Path → Prop
  | .name, _, f, (n : Name), cells, p => cells (.key (.len f) :: p) = (Name.encBody n).length
  | .wire, _, f, (w : Wire), cells, p => cells (.key (.len f) :: p) = w.flatten.length
  | .struct fs, c, f, v, cells, p => cells (.key .length :: .key (.enc f) :: p) = (Fields.elems fs v).flatten.length ∧
      ∀ t nc m, c = .struct t nc → (ms.find? fun m => m.name == t) = some m → ReadyAll ms fs m.fields v cells (.key (.enc f) :: p)
  | .nat, _, _, _, _, _ => True
  | .fixed _ _, _, _, _, _, _ => True
  | .time, _, _, _, _, _ => True
  | .bin, _, _, _, _, _ => True
  | .str, _, _, _, _, _ => True
def ReadyAll (ms : List TModel) : (fs : Fields) → List Field → fs.V → (Path → Nat) → Path → Prop
  | .nil, _, _, _, _ => True
  | .flag _ rest, fields, (_, vs), cells, p => ∀ f l, fields = f :: l → ReadyAll ms rest l vs cells p
  | .cons _ .req e rest, fields, (v, vs), cells, p => ∀ f l, fields = f :: l → Ready ms e f.cls f.name v cells p ∧ ReadyAll ms rest l vs cells p
  | .cons _ .opt _ rest, fields, (none, vs), cells, p => ∀ f l, fields = f :: l → ReadyAll ms rest l vs cells p
  | .cons _ .opt e rest, fields, (some v, vs), cells, p => ∀ f l, fields = f :: l → Ready ms e f.cls f.name v cells p ∧ ReadyAll ms rest l vs cells p
  | .cons _ .seq e rest, fields, (xs, vs), cells, p => ∀ f l, fields = f :: l →
      (cells (.key (.sub f.name) :: p) = xs.length ∧
        ∀ t sub, f.cls = .sequence t sub → ∀ (i : Nat) (x : e.V), xs[i]? = some x → Ready ms e sub f.name x cells (subPath f.name p i)) ∧
      ReadyAll ms rest l vs cells p
end

/-- the cells of the field `f` of the encoder at `p` -/
def Under (f : Txt) (p q : Path) : Prop := ∃ k, (k = .len f ∨ k = .enc f ∨ k = .sub f) ∧ (.key k :: p) <:+ q

theorem suffix_eq {a b q : Path} (ha : a <:+ q) (hb : b <:+ q) (h : a.length = b.length) : a = b :=
  (List.suffix_of_suffix_length_le ha hb (by omega)).eq_of_length h

theorem Under.suffix {f : Txt} {p q : Path} (h : Under f p q) : p <:+ q := by
  obtain ⟨k, _, hk⟩ := h; exact List.IsSuffix.trans (List.suffix_cons _ _) hk

theorem Under.inj {f g : Txt} {p q : Path} (hf : Under f p q) (hg : Under g p q) : f = g := by
  obtain ⟨k, h1, hk⟩ := hf
  obtain ⟨k', h2, hk'⟩ := hg
  have e := suffix_eq hk hk' (by simp)
  simp only [List.cons.injEq, Acc.key.injEq, and_true] at e
  rcases h1 with rfl | rfl | rfl <;> rcases h2 with rfl | rfl | rfl <;> cases e <;> rfl

theorem under_sub {f : Txt} {p q : Path} {i : Nat} (h : Under f (subPath f p i) q) : Under f p q :=
  ⟨.sub f, by simp, List.IsSuffix.trans (List.suffix_cons _ _) h.suffix⟩

theorem under_sub_inj {f : Txt} {p q : Path} {i j : Nat} (h : Under f (subPath f p i) q) (h' : Under f (subPath f p j) q) : i = j := by
  have e := suffix_eq h.suffix h'.suffix (by simp)
  simpa using e

theorem not_under_long {f : Txt} {p q : Path} (h : q.length ≤ p.length) : ¬ Under f p q := by
  rintro ⟨k, _, hk⟩
  have := hk.length_le
  simp only [List.length_cons] at this; omega

theorem not_under_length {f : Txt} {p : Path} : ¬ Under f p (.key .length :: p) := by
  rintro ⟨k, h1, hk⟩
  have e := suffix_eq hk (List.suffix_refl _) (by simp)
  simp only [List.cons.injEq, Acc.key.injEq, and_true] at e
  subst e
  simp at h1

mutual
theorem Ready.congr (ms : List TModel) : ∀ (e : Elem) (c : Cls) (f : Txt) (v : e.V) (cells cells' : Path → Nat) (p : Path),
    (∀ q, Under f p q → cells' q = cells q) → Ready ms e c f v cells p → Ready ms e c f v cells' p
  | .name, _, f, (n : Name), cells, cells', p, h, r => by
    simp only [Ready] at r ⊢; rw [h _ ⟨_, Or.inl rfl, List.suffix_refl _⟩]; exact r
  | .wire, _, f, (w : Wire), cells, cells', p, h, r => by
    simp only [Ready] at r ⊢; rw [h _ ⟨_, Or.inl rfl, List.suffix_refl _⟩]; exact r
  | .struct fs, c, f, v, cells, cells', p, h, r => by
    simp only [Ready] at r ⊢
    refine ⟨?_, fun t nc m hc hm => ?_⟩
    · rw [h _ ⟨_, Or.inr (Or.inl rfl), List.suffix_cons _ _⟩]; exact r.1
    · exact ReadyAll.congr ms fs m.fields v cells cells' _ (fun f' q hq => h q ⟨_, Or.inr (Or.inl rfl), hq.suffix⟩) (r.2 t nc m hc hm)
  | .nat, _, _, _, _, _, _, _, _ => by simp only [Ready]
  | .fixed _ _, _, _, _, _, _, _, _, _ => by simp only [Ready]
  | .time, _, _, _, _, _, _, _, _ => by simp only [Ready]
  | .bin, _, _, _, _, _, _, _, _ => by simp only [Ready]
  | .str, _, _, _, _, _, _, _, _ => by simp only [Ready]
theorem ReadyAll.congr (ms : List TModel) : ∀ (fs : Fields) (fields : List Field) (v : fs.V) (cells cells' : Path → Nat) (p : Path),
    (∀ f q, Under f p q → cells' q = cells q) → ReadyAll ms fs fields v cells p → ReadyAll ms fs fields v cells' p
  | .nil, _, _, _, _, _, _, _ => by simp only [ReadyAll]
  | .flag _ rest, fields, (_, vs), cells, cells', p, h, r => by
    simp only [ReadyAll] at r ⊢
    exact fun f l e => ReadyAll.congr ms rest l vs cells cells' p h (r f l e)
  | .cons _ .req e rest, fields, (v, vs), cells, cells', p, h, r => by
    simp only [ReadyAll] at r ⊢
    exact fun f l he => ⟨Ready.congr ms e f.cls f.name v cells cells' p (fun q hq => h f.name q hq) (r f l he).1,
      ReadyAll.congr ms rest l vs cells cells' p h (r f l he).2⟩
  | .cons _ .opt _ rest, fields, (none, vs), cells, cells', p, h, r => by
    simp only [ReadyAll] at r ⊢
    exact fun f l e => ReadyAll.congr ms rest l vs cells cells' p h (r f l e)
  | .cons _ .opt e rest, fields, (some v, vs), cells, cells', p, h, r => by
    simp only [ReadyAll] at r ⊢
    exact fun f l he => ⟨Ready.congr ms e f.cls f.name v cells cells' p (fun q hq => h f.name q hq) (r f l he).1,
      ReadyAll.congr ms rest l vs cells cells' p h (r f l he).2⟩
  | .cons _ .seq e rest, fields, (xs, vs), cells, cells', p, h, r => by
    simp only [ReadyAll] at r ⊢
    refine fun f l he => ⟨⟨?_, fun t sub hc i x hx => ?_⟩, ReadyAll.congr ms rest l vs cells cells' p h (r f l he).2⟩
    · rw [h f.name _ ⟨_, Or.inr (Or.inr rfl), List.suffix_refl _⟩]; exact (r f l he).1.1
    · exact Ready.congr ms e sub f.name x cells cells' _ (fun q hq => h f.name q (under_sub hq)) ((r f l he).1.2 t sub hc i x hx)
end

/-! ## The two passes over a field -/

variable {call : Call} {cells : Path → Nat} {p : Path} {kvs : List (Txt × GV)}

theorem boxed_isNil {o : Bool} {g : GV} (h : g.isNil = false) : (boxed o g).isNil = false := by cases o; exact h; rfl

theorem access_eval {o : Bool} {f : Txt} {g : GV} (hf : lookup f kvs = some (boxed o g)) {s : S} (h3 : s.vars .value = .ptr (.struct kvs)) :
    (access o f).eval s = .ok g := by
  cases o <;> simp [access, Ex.eval, fieldOfValue_eq h3 hf, Res.bind, boxed]

theorem Adds.guarded {o : Bool} {f : Txt} {c : Code} {n : Nat} {g : GV} (hf : lookup f kvs = some g) (hg : o = true → g.isNil = false) (hd : c.decls = [])
    (h : Adds call cells p kvs c n) : Adds call cells p kvs (guarded o f c) n := by
  cases o
  · exact h
  · refine (Adds.cond (n := n) true (fun s _ _ h3 => ?_) (by rw [hd]; simp) (fun _ => h)).congr (by simp)
    rw [notNil_eval hf s h3, hg rfl]; rfl

theorem Puts.guarded {o : Bool} {f : Txt} {c : Code} {bs : Bytes} {g : GV} (hf : lookup f kvs = some g) (hg : o = true → g.isNil = false)
    (hd : c.decls = []) (h : Puts call cells p kvs c bs) : Puts call cells p kvs (guarded o f c) bs := by
  cases o
  · exact h
  · refine (Puts.cond (bs := bs) true (fun s _ _ h3 => ?_) hd (fun _ => h)).congr (by simp)
    rw [notNil_eval hf s h3, hg rfl]; rfl

theorem Adds.nil {f : Txt} {c : Code} (hf : lookup f kvs = some .nil) (hd : c.decls = []) : Adds call cells p kvs (Gen.guarded true f c) 0 :=
  (Adds.cond (n := 0) false (fun s _ _ h3 => notNil_eval hf s h3) (by rw [hd]; simp) (fun h => by cases h)).congr (by simp)

theorem Puts.nil {f : Txt} {c : Code} (hf : lookup f kvs = some .nil) (hd : c.decls = []) : Puts call cells p kvs (Gen.guarded true f c) [] :=
  (Puts.cond (bs := []) false (fun s _ _ h3 => notNil_eval hf s h3) hd (fun h => by cases h)).congr (by simp)

theorem IsNum.conv_uint {e : Ex} {n : Nat} (h : IsNum cells p kvs e n) (hn : n < 2 ^ 64) : IsNum cells p kvs (.conv .uint e) n := by
  intro s h1 h2 h3
  simp only [Ex.eval, h s h1 h2 h3, Res.bind, Ty.conv, Ty.bits, Nat.mod_eq_of_lt hn]

theorem IsNum.own {k : Key} {n : Nat} (h : cells (.key k :: p) = n) : IsNum cells p kvs (.own k) n := by
  intro s h1 h2 _
  simp only [Ex.eval, h2, h1, h]

theorem IsNum.own2 {k k' : Key} {n : Nat} (h : cells (.key k' :: .key k :: p) = n) : IsNum cells p kvs (.own2 k k') n := by
  intro s h1 h2 _
  simp only [Ex.eval, h2, h1, h]

theorem IsNum.len {o : Bool} {f : Txt} {b : Bytes} (hf : lookup f kvs = some (boxed o (.bytes b))) : IsNum cells p kvs (.len (access o f)) b.length := by
  intro s _ _ h3
  simp only [Ex.eval, access_eval hf h3, Res.bind, GV.len]

theorem IsNum.access {o : Bool} {f : Txt} {n : Nat} (hf : lookup f kvs = some (boxed o (.num n))) : IsNum cells p kvs (access o f) n :=
  fun _ _ _ h3 => access_eval hf h3

theorem IsNum.millis {o : Bool} {f : Txt} {d : Int} (hf : lookup f kvs = some (boxed o (.dur d))) :
    IsNum cells p kvs (.conv .u64 (.millis (Gen.access o f))) (timeMs d) := by
  intro s _ _ h3
  simp only [Ex.eval, access_eval hf h3, Res.bind, Ty.conv, Ty.bits, timeMs]

theorem nil_adds {f : Txt} {n : Nat} {c : Cls} (hc : c.optional = true) (hf : lookup f kvs = some .nil) :
    Adds call cells p kvs (lengthCode f n c) 0 := by
  cases c <;> simp only [Cls.optional, Bool.false_eq_true] at hc <;> simp only [lengthCode] <;> try subst hc
  all_goals exact Adds.nil hf (by simp only [decls_append]; rfl)

theorem nil_puts {f : Txt} {n : Nat} {c : Cls} (hc : c.optional = true) (hf : lookup f kvs = some .nil) :
    Puts call cells p kvs (intoCode f n c) [] := by
  cases c <;> simp only [Cls.optional, Bool.false_eq_true] at hc <;> simp only [intoCode] <;> try subst hc
  all_goals exact Puts.nil hf (by simp only [decls_append, encodeTypeNum_decls, fixedEncode_decls]; rfl)

theorem name_sum (n : Nat) (v : Name) : tlLen n + (if true then tlLen (Name.encBody v).length else 1 + natW (Name.encBody v).length) +
    (Name.encBody v).length = tlLen n + (tlLen (Name.encLen v) + Name.encLen v) := by simp [Name.encLen_eq, Nat.add_assoc]

theorem wire_sum (n : Nat) (w : Wire) : tlLen n + (if true then tlLen w.flatten.length else 1 + natW w.flatten.length) + w.flatten.length =
    tlLen n + (tlLen (Wire.byteLen w) + Wire.byteLen w) := by
  rw [Wire.byteLen_eq_join]; simp [Nat.add_assoc, Wire.join]

theorem natural_tlv (n x : Nat) : tlEnc n ++ (if false then tlEnc x else UInt8.ofNat (natW x) :: be (natW x) x) = tlv n (natEnc x) := by
  simp only [Bool.false_eq_true, if_false, natural_bytes, tlv, List.append_assoc]

theorem fixed_tlv (n x : Nat) {w : Nat} (hw : w = 1 ∨ w = 2 ∨ w = 4 ∨ w = 8) : tlEnc n ++ (UInt8.ofNat w :: be w x) = tlv n (be w x) := by
  rw [tlv, Codec.be_length, ← tlEnc_u8 (w := w) (by rcases hw with h | h | h | h <;> omega), List.append_assoc]; rfl

theorem Puts.assoc {a b c : Code} {bs : Bytes} (h : Puts call cells p kvs (a ++ (b ++ c)) bs) : Puts call cells p kvs (a ++ b ++ c) bs := by
  intro s off x h1 h2 h3 h4 h5 h6 h7
  rw [← h s off x h1 h2 h3 h4 h5 h6 h7]
  simp only [exec_append, bind_assoc]
  congr 1
  funext s1
  exact (exec_append call b c s1).symm

/-- the length pass over one field, or one element -/
theorem elem_adds (ms : List TModel) (e : Elem) (c : Cls) (f : Txt) (n : Nat) (v : e.V) (g : GV) (hs : Stands ms e c v g)
    (hr : Ready ms e c f v cells p) (hf : lookup f kvs = some g) (hw : e.Widths) (hl : (e.body v).length < 2 ^ 64) :
    Adds call cells p kvs (lengthCode f n c) (tlv n (e.body v)).length := by
  rw [tlv_length, ← Elem.encLen_eq e v hw]
  cases e with
  | nat =>
    obtain ⟨o, rfl, rfl⟩ := hs
    exact Adds.guarded hf (fun _ => boxed_isNil rfl) rfl (((Adds.typeNum n).append (Adds.natural (.access hf) false)).congr rfl)
  | fixed w b =>
    obtain ⟨o, rfl, rfl⟩ := hs
    exact Adds.guarded hf (fun _ => boxed_isNil rfl) rfl (((Adds.typeNum n).append (Adds.inc (n := 1 + w) (fun _ _ _ _ => rfl))).congr rfl)
  | time =>
    obtain ⟨o, rfl, rfl⟩ := hs
    exact Adds.guarded hf (fun _ => boxed_isNil rfl) rfl (((Adds.typeNum n).append (Adds.natural (.millis hf) false)).congr rfl)
  | bin =>
    obtain ⟨rfl, rfl⟩ := hs
    refine Adds.guarded hf (fun _ => rfl) rfl ((((Adds.typeNum n).append (Adds.natural (.len (o := false) hf) true)).append
      (Adds.inc (.conv_uint (.len (o := false) hf) hl))).congr ?_)
    simp [Elem.encLen, Nat.add_assoc]
  | str =>
    obtain ⟨o, rfl, rfl⟩ := hs
    refine Adds.guarded hf (fun _ => boxed_isNil rfl) rfl ((((Adds.typeNum n).append (Adds.natural (.len hf) true)).append
      (Adds.inc (.conv_uint (.len hf) hl))).congr ?_)
    simp [Elem.encLen, Nat.add_assoc]
  | name =>
    obtain ⟨rfl, rfl⟩ := hs
    simp only [Ready] at hr
    refine Adds.guarded hf (fun _ => rfl) rfl ((((Adds.typeNum n).append (Adds.natural (.own hr) true)).append (Adds.inc (.own hr))).congr ?_)
    exact name_sum n v
  | wire =>
    obtain ⟨nc, rfl, rfl⟩ := hs
    simp only [Ready] at hr
    refine Adds.guarded hf (fun _ => rfl) rfl ((((Adds.typeNum n).append (Adds.natural (.own hr) true)).append (Adds.inc (.own hr))).congr ?_)
    exact wire_sum n v
  | struct fs =>
    obtain ⟨t, nc, m, kv, rfl, hm, _, rfl, _⟩ := hs
    simp only [Ready] at hr
    refine Adds.guarded hf (fun _ => rfl) rfl ((((Adds.typeNum n).append (Adds.natural (.own2 hr.1) true)).append (Adds.inc (.own2 hr.1))).congr ?_)
    simp only [Elem.encLen, Nat.add_assoc, Fields.encLen_eq fs v hw]; rfl

/-- calls of `EncodeInto` write the messages of depth below `d` -/
def GoodInto (ms : List TModel) (call : Call) (d : Nat) : Prop :=
  ∀ (fs : Fields) (t : Txt) (m : TModel) (v : fs.V) (kvs : List (Txt × GV)), Fields.depth fs < d → (ms.find? fun m => m.name == t) = some m →
    StandsAll ms fs m.fields v kvs → fs.Widths → ∀ (p : Path) (cells : Path → Nat) (off : Nat) (mem : Bytes), ReadyAll ms fs m.fields v cells p →
    off + (fs.elems v).flatten.length ≤ mem.length → mem.length < 2 ^ 64 →
    call t false (.ptr (.struct kvs)) p off cells mem = .ok (cells, splice mem off (fs.elems v).flatten)

/-- the second pass over one field, or one element -/
theorem elem_puts (ms : List TModel) (d : Nat) (hg : GoodInto ms call d) (e : Elem) (c : Cls) (f : Txt) (n : Nat) (v : e.V) (g : GV)
    (hs : Stands ms e c v g) (hr : Ready ms e c f v cells p) (hf : lookup f kvs = some g) (hw : e.Widths) (hd : Elem.depth e ≤ d) :
    Puts call cells p kvs (intoCode f n c) (tlv n (e.body v)) := by
  cases e with
  | nat =>
    obtain ⟨o, rfl, rfl⟩ := hs
    exact Puts.guarded hf (fun _ => boxed_isNil rfl) (by simp only [decls_append, encodeTypeNum_decls]; rfl)
      (((Puts.typeNum n).append (Puts.natural (.access hf) false)).congr (natural_tlv n v))
  | fixed w b =>
    obtain ⟨o, rfl, rfl⟩ := hs
    exact Puts.guarded hf (fun _ => boxed_isNil rfl) (by simp only [decls_append, encodeTypeNum_decls, fixedEncode_decls]; rfl)
      (((Puts.typeNum n).append (Puts.fixed (.access hf) hw)).congr (fixed_tlv n v hw))
  | time =>
    obtain ⟨o, rfl, rfl⟩ := hs
    exact Puts.guarded hf (fun _ => boxed_isNil rfl) (by simp only [decls_append, encodeTypeNum_decls]; rfl)
      (((Puts.typeNum n).append (Puts.natural (.millis hf) false)).congr (natural_tlv n (timeMs v)))
  | bin =>
    obtain ⟨rfl, rfl⟩ := hs
    have := ((Puts.typeNum (call := call) (cells := cells) (p := p) (kvs := kvs) n).append (Puts.natural (.len (o := false) hf) true)).append
      (Puts.copy (e := access false f) fun s h3 => access_eval hf h3)
    exact Puts.guarded hf (fun _ => rfl) (by simp only [decls_append, encodeTypeNum_decls]; rfl) this.assoc
  | str =>
    obtain ⟨o, rfl, rfl⟩ := hs
    have := ((Puts.typeNum (call := call) (cells := cells) (p := p) (kvs := kvs) n).append (Puts.natural (.len hf) true)).append
      (Puts.copy (e := access o f) fun s h3 => access_eval hf h3)
    exact Puts.guarded hf (fun _ => boxed_isNil rfl) (by simp only [decls_append, encodeTypeNum_decls]; rfl) this.assoc
  | name =>
    obtain ⟨rfl, rfl⟩ := hs
    simp only [Ready] at hr
    refine Puts.guarded hf (fun _ => rfl) (by simp only [decls_append, encodeTypeNum_decls]; rfl)
      ((((Puts.typeNum n).append (Puts.natural (.own hr) true)).append (Puts.components hf)).congr ?_)
    simp only [if_true, tlv, Elem.body]
  | wire =>
    obtain ⟨nc, rfl, rfl⟩ := hs
    simp only [Ready] at hr
    refine Puts.guarded hf (fun _ => rfl) (by simp only [decls_append, encodeTypeNum_decls]; rfl)
      ((((Puts.typeNum n).append (Puts.natural (.own hr) true)).append (Puts.buffers hf)).congr ?_)
    simp only [if_true, tlv, Elem.body]
  | struct fs =>
    obtain ⟨t, nc, m, kv, rfl, hm, hn, rfl, hk⟩ := hs
    simp only [Ready] at hr
    have hrec := hr.2 t nc m rfl hm
    refine Puts.guarded hf (fun _ => rfl) (by simp only [decls_append, encodeTypeNum_decls]; rfl)
      ((((Puts.typeNum n).append (Puts.natural (.own2 hr.1) true)).append (Puts.cond (bs := (Fields.elems fs v).flatten)
        (decide (0 < (Fields.elems fs v).flatten.length)) ?_ rfl ?_)).congr ?_)
    · intro s h1 h2 h3
      simp only [Cond.eval, evalNum_of (IsNum.own2 hr.1 s h1 h2 h3), Res.map]
    · intro _ s off a h1 h2 h3 h4 h5 h6 h7
      rw [exec_append, exec_of]
      simp only [Atom.exec, fieldOfValue_eq h3 hf, Res.bind, S.cursor, h4, h5, h2]
      rw [if_pos (by omega), h1, hg fs t m v kv (by simp only [Elem.depth] at hd; omega) hm hk hw _ _ _ _ hrec h6 h7]
      simp only [Res.map]
      rw [exec_of]
      simp only [Atom.exec, Res.bind, Ex.evalNum, Ex.eval, h2, hr.1, h5]
      rw [Nat.mod_eq_of_lt (by omega)]
    · simp only [if_true, tlv, Elem.body]
      congr 1
      rcases Nat.eq_zero_or_pos (Fields.elems fs v).flatten.length with h | h
      · rw [List.length_eq_zero_iff.1 h]; rfl
      · rw [if_pos (by simpa using h)]

/-! ## `Init` -/

/-- the code prepares the cells of the field `f`, changes no others, and leaves everything else as it was -/
def Inits (call : Call) (p : Path) (kvs : List (Txt × GV)) (c : Code) (f : Txt) (R : (Path → Nat) → Prop) : Prop :=
  ∀ s : S, s.vars .encoder = .ref p → s.vars .value = .ptr (.struct kvs) →
    ∃ cells', c.exec call s = .ok { s with cells := cells' } ∧ (∀ q, ¬ Under f p q → cells' q = s.cells q) ∧ R cells'

theorem Inits.done {f : Txt} : Inits call p kvs .done f fun _ => True := fun s _ _ => ⟨s.cells, rfl, fun _ _ => rfl, trivial⟩

theorem Inits.mono {c : Code} {f : Txt} {R R' : (Path → Nat) → Prop} (h : Inits call p kvs c f R) (hr : ∀ x, R x → R' x) : Inits call p kvs c f R' := by
  intro s h1 h2
  obtain ⟨c', e1, e2, e3⟩ := h s h1 h2
  exact ⟨c', e1, e2, hr _ e3⟩

theorem Inits.cond {f g : Txt} {b : Code} {R : (Path → Nat) → Prop} {v : GV} (hf : lookup g kvs = some v) (hv : v.isNil = false) (hd : b.decls = [])
    (h : Inits call p kvs b f R) : Inits call p kvs (.cond (.notNil g) b .done) f R := by
  intro s h1 h2
  obtain ⟨c', e1, e2, e3⟩ := h s h1 h2
  refine ⟨c', ?_, e2, e3⟩
  simp only [Code.exec, notNil_eval hf s h2, hv, Res.bind, Bool.not_false, if_true, e1, Res.map, hd]
  rw [leave_own]
  intro u _; rfl

theorem Inits.nil {f g : Txt} {b : Code} (hf : lookup g kvs = some .nil) : Inits call p kvs (.cond (.notNil g) b .done) f fun _ => True := by
  intro s h1 h2
  refine ⟨s.cells, ?_, fun _ _ => rfl, trivial⟩
  simp only [Code.exec, notNil_eval hf s h2, GV.isNil, Res.bind, Bool.not_true, Bool.false_eq_true, if_false]

/-- a loop that adds to a cell -/
theorem loop_cell {α : Type} (body : Nat → GV → S → Res S) (G : α → GV) (B : α → Nat) (s : S) (C : Path → Nat) (k : Path) :
    ∀ (l : List α) (a n : Nat), (∀ (i : Nat) (x : α) (a' : Nat), x ∈ l → a' + B x < 2 ^ 64 →
        body i (G x) { s with cells := updCell C k a' } = .ok { s with cells := updCell C k (a' + B x) }) →
      a + (l.map B).sum < 2 ^ 64 →
      loop body n (l.map G) { s with cells := updCell C k a } = .ok { s with cells := updCell C k (a + (l.map B).sum) } := by
  intro l
  induction l with
  | nil => intro a n _ _; simp [loop]
  | cons x l ih =>
    intro a n hb h
    simp only [List.map_cons, List.sum_cons] at h ⊢
    simp only [loop]
    rw [hb n x a (by simp) (by omega)]
    simp only [Res.bind]
    rw [ih (a + B x) (n + 1) (fun i y a' hy => hb i y a' (by simp [hy])) (by omega), Nat.add_assoc]

theorem updCell_updCell (C : Path → Nat) (k : Path) (a b : Nat) : updCell (updCell C k a) k b = updCell C k b := by
  funext q; simp only [updCell]; split <;> rfl

/-- the sum of the sizes of the parts of a field -/
theorem Inits.total {α : Type} {f : Txt} {g : GV} {e : Ex} (G : α → GV) (B : α → Nat) (l : List α) (hf : lookup f kvs = some g)
    (hg : g.elems = .ok (l.map G)) (he : ∀ (s : S) x, s.vars .c = G x → e.eval s = .ok (.num (B x))) (hl : (l.map B).sum < 2 ^ 64) :
    Inits call p kvs (.of (.setKey (.len f) (.num 0)) ++ .each .c (.field f) (.of (.incKey (.len f) (.conv .uint e))) .done) f
      fun C => C (.key (.len f) :: p) = (l.map B).sum := by
  intro s h1 h2
  refine ⟨updCell s.cells (.key (.len f) :: p) (l.map B).sum, ?_, ?_, by simp [updCell]⟩
  · rw [exec_append, exec_of]
    simp only [Atom.exec, Ex.evalNum, Ex.eval, Res.bind, h1, Code.exec]
    rw [fieldOfValue_eq (kvs := kvs) (by exact h2) hf]
    simp only [hg]
    rw [loop_cell _ G B s s.cells (.key (.len f) :: p) l 0 0 ?_ (by omega), Nat.zero_add]
    intro i x a' hx ha
    rw [exec_of]
    simp only [Atom.exec, Ex.evalNum, Ex.eval]
    rw [he _ x (by simp [upd])]
    simp only [Res.bind, Ty.conv, Ty.bits]
    rw [show upd s.vars .c (G x) .encoder = .ref p by simpa [upd] using h1]
    simp only [Res.map]
    rw [leave_own]
    · simp only [updCell_updCell]
      rw [Nat.mod_eq_of_lt (show B x < 2 ^ 64 by omega)]
      simp only [updCell, if_true]
      rw [Nat.mod_eq_of_lt ha]
    · intro u hu
      have : u ≠ .c := fun e => hu (by simp [e])
      simp [upd, this]
  · intro q hq
    have : q ≠ .key (.len f) :: p := fun e => hq ⟨_, Or.inl rfl, e ▸ List.suffix_refl _⟩
    simp [updCell, this]

/-- calls of `Init` prepare the encoders of the messages of depth below `d` -/
def GoodInit (ms : List TModel) (call : Call) (d : Nat) : Prop :=
  ∀ (fs : Fields) (t : Txt) (m : TModel) (v : fs.V) (kvs : List (Txt × GV)), Fields.depth fs < d → (ms.find? fun m => m.name == t) = some m →
    Named m.fields → StandsAll ms fs m.fields v kvs → fs.Widths → (fs.elems v).flatten.length < 2 ^ 64 →
    ∀ (p : Path) (cells : Path → Nat) (mem : Bytes), ∃ cells', call t true (.ptr (.struct kvs)) p 0 cells mem = .ok (cells', mem) ∧
      (∀ q, ¬ p <:+ q → cells' q = cells q) ∧ cells' (.key .length :: p) = (fs.elems v).flatten.length ∧ ReadyAll ms fs m.fields v cells' p

theorem nil_inits {f : Txt} {c : Cls} (hc : c.optional = true) (hf : lookup f kvs = some .nil) : Inits call p kvs (initCode f c) f fun _ => True := by
  cases c <;> simp only [Cls.optional, Bool.false_eq_true] at hc <;> simp only [initCode] <;> first | exact Inits.done | exact Inits.nil hf

theorem comp_sum (n : Name) : (n.map Component.encLen).sum = (Name.encBody n).length := by
  induction n with
  | nil => rfl
  | cons c n ih => simp only [List.map_cons, List.sum_cons, ih, Name.encBody, List.length_append, Component.enc_length]

theorem wire_total (w : Wire) : (w.map List.length).sum = w.flatten.length := by rw [List.length_flatten]

theorem Inits.name {f : Txt} (n : Name) (hf : lookup f kvs = some (.name n)) (hl : (Name.encBody n).length < 2 ^ 64) :
    Inits call p kvs (initCode f .name) f fun C => C (.key (.len f) :: p) = (Name.encBody n).length := by
  rw [← comp_sum] at hl ⊢
  exact Inits.cond hf rfl rfl (Inits.total (e := .size .c) GV.comp Component.encLen n hf rfl (fun s x hx => by simp only [Ex.eval, hx]) hl)

theorem Inits.wire {f : Txt} {b : Bool} (w : Wire) (hf : lookup f kvs = some (.wire w)) (hl : w.flatten.length < 2 ^ 64) :
    Inits call p kvs (initCode f (.wire b)) f fun C => C (.key (.len f) :: p) = w.flatten.length := by
  rw [← wire_total] at hl ⊢
  exact Inits.cond hf rfl rfl (Inits.total (e := .len (.var .c)) GV.bytes List.length w hf rfl
    (fun s x hx => by simp only [Ex.eval, hx, Res.bind, GV.len]) hl)

theorem elem_inits (ms : List TModel) (d : Nat) (hg : GoodInit ms call d) (e : Elem) (c : Cls) (f : Txt) (v : e.V) (g : GV)
    (hs : Stands ms e c v g) (hf : lookup f kvs = some g) (hw : e.Widths) (hd : Elem.depth e ≤ d) (hl : (e.body v).length < 2 ^ 64) :
    Inits call p kvs (initCode f c) f fun C => Ready ms e c f v C p := by
  cases e with
  | nat => obtain ⟨o, rfl, rfl⟩ := hs; exact Inits.done.mono fun _ _ => by simp only [Ready]
  | fixed w b => obtain ⟨o, rfl, rfl⟩ := hs; exact Inits.done.mono fun _ _ => by simp only [Ready]
  | time => obtain ⟨o, rfl, rfl⟩ := hs; exact Inits.done.mono fun _ _ => by simp only [Ready]
  | bin => obtain ⟨rfl, rfl⟩ := hs; exact Inits.done.mono fun _ _ => by simp only [Ready]
  | str => obtain ⟨o, rfl, rfl⟩ := hs; exact Inits.done.mono fun _ _ => by simp only [Ready]
  | name =>
    obtain ⟨rfl, rfl⟩ := hs
    simp only [Ready]
    exact Inits.name v hf hl
  | wire =>
    obtain ⟨nc, rfl, rfl⟩ := hs
    simp only [Ready]
    exact Inits.wire v hf hl
  | struct fs =>
    obtain ⟨t, nc, m, kv, rfl, hm, hn, rfl, hk⟩ := hs
    refine Inits.cond hf rfl rfl ?_
    intro s h1 h2
    obtain ⟨C, e1, e2, e3, e4⟩ := hg fs t m v kv (by simp only [Elem.depth] at hd; omega) hm hn hk hw hl (.key (.enc f) :: p) s.cells s.mem
    refine ⟨C, ?_, ?_, ?_⟩
    · rw [exec_of]
      simp only [Atom.exec, fieldOfValue_eq h2 hf, Res.bind, h1, e1, Res.map]
    · intro q hq
      exact e2 q fun h => hq ⟨_, Or.inr (Or.inl rfl), h⟩
    · simp only [Ready]
      refine ⟨e3, ?_⟩
      intro t' nc' m' ht hm'
      cases ht
      rw [hm] at hm'; cases hm'
      exact e4

theorem initCode_sequence (f t : Txt) (sub : Cls) : initCode f (.sequence t sub) =
    .block (.of (.decl (.count f) (.len (.field f))) ++ .of (.makeSub f (memberTexts f sub)) ++
      .times (.count f) (pseudoBody f t .i (.item f .i) (initCode f sub)) .done) .done := rfl

theorem Inits.sequence {α : Type} {f t : Txt} {sub : Cls} {g : GV} (G : α → GV) (R : α → (Path → Nat) → Path → Prop) (l : List α)
    (hf : lookup f kvs = some g) (hgs : IsSeq g (l.map G))
    (hR : ∀ x C C' q, (∀ r, Under f q r → C' r = C r) → R x C q → R x C' q)
    (hc : ∀ (i : Nat) x, l[i]? = some x → Inits call (subPath f p i) [(f, G x)] (initCode f sub) f fun C => R x C (subPath f p i)) :
    Inits call p kvs (initCode f (.sequence t sub)) f fun C =>
      C (.key (.sub f) :: p) = l.length ∧ ∀ (i : Nat) x, l[i]? = some x → R x C (subPath f p i) := by
  intro s h1 h2
  let C0 := clear s.cells (.key (.sub f) :: p) l.length
  let V := upd s.vars (.count f) (.num l.length)
  have hlen : (Ex.len (.field f)).eval s = .ok (.num l.length) := by
    simp only [Ex.eval, fieldOfValue_eq h2 hf, Res.bind]
    rcases hgs with rfl | ⟨rfl, h⟩
    · simp [GV.len]
    · have : l = [] := by simpa using h
      subst this; rfl
  have hloop : ∀ (k n : Nat), n + k = l.length → ∀ C : Path → Nat, C (.key (.sub f) :: p) = l.length →
      (∀ (i : Nat) x, i < n → l[i]? = some x → R x C (subPath f p i)) →
      ∃ C', loop (fun n _ s => ((pseudoBody f t .i (.item f .i) (initCode f sub)).exec call { s with vars := upd s.vars .i (.num n) }).map
          (leave (.i :: (pseudoBody f t .i (.item f .i) (initCode f sub)).decls) s)) n (List.replicate k .nil) ⟨C, s.mem, V⟩ = .ok ⟨C', s.mem, V⟩ ∧
        (∀ q, ¬ (∃ i, Under f (subPath f p i) q) → C' q = C q) ∧ (∀ (i : Nat) x, l[i]? = some x → R x C' (subPath f p i)) := by
    intro k
    induction k with
    | zero =>
      intro n hn C _ hC
      refine ⟨C, rfl, fun _ _ => rfl, fun i x hx => hC i x ?_ hx⟩
      rcases Nat.lt_or_ge i l.length with h | h
      · omega
      · rw [List.getElem?_eq_none h] at hx; cases hx
    | succ k ih =>
      intro n hn C hC0 hC
      have hnl : n < l.length := by omega
      have hx : l[n]? = some l[n] := List.getElem?_eq_getElem hnl
      have hga : g = .arr (l.map G) := by
        rcases hgs with h | ⟨_, h⟩
        · exact h
        · have : l = [] := by simpa using h
          subst this; simp at hnl
      obtain ⟨vars, C1, M1, e1, e2, hM, i2, i3⟩ := @exec_pseudo' call p f t .i (.item f .i) (initCode f sub) ⟨C, s.mem, upd V .i (.num n)⟩ n (G l[n]) (V .l) .l
        (fun C1 M1 => M1 = s.mem ∧ (∀ q, ¬ Under f (subPath f p n) q → C1 q = C q) ∧ R l[n] C1 (subPath f p n))
        (by simpa [upd, V] using h1) (by simp [upd]) (by show n < C _; rw [hC0]; exact hnl) (by
          intro r
          simp only [Ex.eval]
          rw [fieldOfValue_eq (kvs := kvs) (by simpa [upd, V] using h2) hf, hga]
          simp [Res.bind, upd, hx]) (initCode_decls f sub) (by decide) (by
          intro s' c1 c2 c3 c4 c5
          obtain ⟨C1, i1, i2, i3⟩ := hc n l[n] hx s' c3 c4
          refine ⟨C1, s.mem, ?_, rfl, fun q hq => by rw [i2 q hq, c1], i3⟩
          rw [i1, ← show s'.mem = s.mem from c2, upd_self]
          rw [c5 _ (by decide)]; simp [upd])
      subst hM
      have hC1 : C1 (.key (.sub f) :: p) = l.length := by
        rw [i2 _ (not_under_long (by simp))]; exact hC0
      obtain ⟨C', j1, j2, j3⟩ := ih (n + 1) (by omega) C1 hC1 (by
        intro i x hi hxi
        rcases Nat.lt_or_ge i n with h | h
        · refine hR x C C1 _ (fun r hr => i2 r fun hr' => ?_) (hC i x h hxi)
          have := under_sub_inj hr hr'; omega
        · have : i = n := by omega
          subst this
          rw [hx] at hxi; cases hxi
          exact i3)
      refine ⟨C', ?_, ?_, j3⟩
      · rw [List.replicate_succ]
        simp only [loop]
        rw [e1, pseudoBody_decls]
        simp only [Res.map, Res.bind]
        rw [leave_own]
        · exact j1
        · intro y hy
          have : y ≠ .i ∧ y ≠ .pseudoEncoder ∧ y ≠ .pseudoValue := by simpa using hy
          simp only
          rw [e2 y (by simpa using ⟨this.2.1, this.2.2⟩)]
          by_cases hyl : y = .l
          · subst hyl; simp [upd]
          · simp [upd, this.1, hyl]
      · intro q hq
        rw [j2 q hq, i2 q fun h => hq ⟨n, h⟩]
  obtain ⟨C', j1, j2, j3⟩ := hloop l.length 0 (by omega) C0 (by simp [C0, clear]) (by intro i x hi; omega)
  refine ⟨C', ?_, ?_, ?_, j3⟩
  · rw [initCode_sequence]
    simp only [Code.exec]
    rw [exec_append, exec_append, exec_of]
    simp only [Atom.exec, hlen, Res.map, Res.bind]
    rw [exec_of]
    simp only [Atom.exec]
    rw [show upd s.vars (.count f) (.num l.length) .encoder = .ref p by simpa [upd] using h1]
    simp only [upd_same, Code.exec]
    have j1' := j1
    simp only [V, C0] at j1'
    rw [j1']
    simp only [Res.bind]
    rw [leave_own]
    intro u hu
    have : u ≠ .count f := fun e => hu (by rw [e, decls_append, decls_append]; simp [Code.of, Code.decls])
    simp [upd, this]
  · intro q hq
    rw [j2 q fun ⟨i, h⟩ => hq (under_sub h)]
    have h1' : ¬ (.key (.sub f) :: p) <:+ q := fun h => hq ⟨_, Or.inr (Or.inr rfl), h⟩
    have h2' : q ≠ .key (.sub f) :: p := fun h => h1' (h ▸ List.suffix_refl _)
    simp [C0, clear, h1', h2']
  · rw [j2 _ fun ⟨i, h⟩ => not_under_long (by simp) h]; simp [C0, clear]

/-! ## All fields -/

theorem flag_adds {f : Txt} {n : Nat} {b : Bool} (hf : lookup f kvs = some (.bool b)) :
    Adds call cells p kvs (lengthCode f n .bool) (if b then [tlv n []] else []).flatten.length := by
  refine (Adds.cond (n := tlLen n + tlLen 0) b (fun s _ _ h3 => ?_) (by simp [decls_append, typeNumLen, Code.of, Code.decls])
    (fun _ => (Adds.typeNum n).append (Adds.typeNum 0))).congr ?_
  · simp only [Cond.eval, fieldOfValue_eq h3 hf, Res.bind]
  · cases b
    · rfl
    · simp [tlv_length]

theorem flag_puts {f : Txt} {n : Nat} {b : Bool} (hf : lookup f kvs = some (.bool b)) :
    Puts call cells p kvs (intoCode f n .bool) (if b then [tlv n []] else []).flatten := by
  refine (Puts.cond (bs := tlEnc n ++ tlEnc 0) b (fun s _ _ h3 => ?_) (by simp [decls_append, encodeTypeNum_decls])
    (fun _ => (Puts.typeNum n).append (Puts.typeNum 0))).congr ?_
  · simp only [Cond.eval, fieldOfValue_eq h3 hf, Res.bind]
  · cases b
    · rfl
    · simp [tlv]

/-- the elements of a sequence with their values -/
theorem zip_fst {α β : Type} : ∀ {l : List α} {l' : List β}, l'.length = l.length → (l.zip l').map Prod.fst = l
  | [], [], _ => rfl
  | a :: l, b :: l', h => by
    simp only [List.length_cons, Nat.add_right_cancel_iff] at h
    simp [zip_fst h]

theorem zip_snd {α β : Type} : ∀ {l : List α} {l' : List β}, l'.length = l.length → (l.zip l').map Prod.snd = l'
  | [], [], _ => rfl
  | a :: l, b :: l', h => by
    simp only [List.length_cons, Nat.add_right_cancel_iff] at h
    simp [zip_snd h]

theorem zip_get {α β : Type} {l : List α} {l' : List β} {i : Nat} {x : α × β} (h : (l.zip l')[i]? = some x) : l[i]? = some x.1 ∧ l'[i]? = some x.2 := by
  exact List.getElem?_zip_eq_some.1 h

theorem length_map_flatten {α : Type} (l : List α) (B : α → Bytes) : (l.map B).flatten.length = (l.map fun x => (B x).length).sum := by
  rw [List.length_flatten, List.map_map]; rfl

theorem le_sum {l : List Nat} {n : Nat} (h : n ∈ l) : n ≤ l.sum := by
  induction l with
  | nil => cases h
  | cons a l ih =>
    rw [List.sum_cons]
    rcases List.mem_cons.1 h with rfl | h
    · omega
    · have := ih h; omega

theorem body_le {l : List Bytes} {t : Nat} {b : Bytes} (h : tlv t b ∈ l) (hl : l.flatten.length < 2 ^ 64) : b.length < 2 ^ 64 := by
  have : (tlv t b).length ≤ l.flatten.length := by
    rw [List.length_flatten]
    exact le_sum (List.mem_map.2 ⟨_, h, rfl⟩)
  rw [tlv_length] at this; omega

theorem allFields_cons (g : Field → Code) (f : Field) (l : List Field) : allFields g (f :: l) = g f ++ allFields g l := rfl

theorem all_adds (ms : List TModel) : ∀ (fs : Fields) (fields : List Field) (v : fs.V), StandsAll ms fs fields v kvs → ReadyAll ms fs fields v cells p →
    fs.Widths → (fs.elems v).flatten.length < 2 ^ 64 →
    Adds call cells p kvs (allFields (fun f => lengthCode f.name f.num f.cls) fields) (fs.elems v).flatten.length
  | .nil, fields, v, hs, _, _, _ => by
    simp only [StandsAll] at hs; subst hs; exact Adds.done
  | .flag t rest, fields, (b, vs), hs, hr, hw, hl => by
    simp only [StandsAll] at hs
    obtain ⟨f, l, rfl, rfl, hc, hf, hs⟩ := hs
    simp only [ReadyAll] at hr
    simp only [Fields.elems, List.flatten_append, List.length_append] at hl ⊢
    rw [allFields_cons]
    refine Adds.append ?_ (all_adds ms rest l vs hs (hr f l rfl) hw (by omega))
    simp only [hc]; exact flag_adds hf
  | .cons t .req e rest, fields, (v, vs), hs, hr, hw, hl => by
    simp only [StandsAll] at hs
    obtain ⟨f, l, rfl, rfl, _, ⟨g, hf, hg⟩, hs⟩ := hs
    simp only [ReadyAll] at hr
    simp only [Fields.elems, List.flatten_cons, List.length_append] at hl ⊢
    rw [allFields_cons]
    exact Adds.append (elem_adds ms e f.cls f.name f.num v g hg (hr f l rfl).1 hf hw.1 (by rw [tlv_length] at hl; omega))
      (all_adds ms rest l vs hs (hr f l rfl).2 hw.2 (by omega))
  | .cons t .opt e rest, fields, (none, vs), hs, hr, hw, hl => by
    simp only [StandsAll] at hs
    obtain ⟨f, l, rfl, rfl, hc, hf, hs⟩ := hs
    simp only [ReadyAll] at hr
    simp only [Fields.elems] at hl ⊢
    rw [allFields_cons]
    exact (Adds.append (nil_adds hc hf) (all_adds ms rest l vs hs (hr f l rfl) hw.2 hl)).congr (by omega)
  | .cons t .opt e rest, fields, (some v, vs), hs, hr, hw, hl => by
    simp only [StandsAll] at hs
    obtain ⟨f, l, rfl, rfl, _, ⟨g, hf, hg⟩, hs⟩ := hs
    simp only [ReadyAll] at hr
    simp only [Fields.elems, List.flatten_cons, List.length_append] at hl ⊢
    rw [allFields_cons]
    exact Adds.append (elem_adds ms e f.cls f.name f.num v g hg (hr f l rfl).1 hf hw.1 (by rw [tlv_length] at hl; omega))
      (all_adds ms rest l vs hs (hr f l rfl).2 hw.2 (by omega))
  | .cons t .seq e rest, fields, (xs, vs), hs, hr, hw, hl => by
    simp only [StandsAll] at hs
    obtain ⟨f, l, rfl, rfl, ⟨ty, sub, hc, g, gs, hf, hg, hlen, hx⟩, hs⟩ := hs
    simp only [ReadyAll] at hr
    obtain ⟨⟨hr1, hr2⟩, hr3⟩ := hr f l rfl
    simp only [Fields.elems, List.flatten_append, List.length_append] at hl ⊢
    rw [allFields_cons]
    refine Adds.append ?_ (all_adds ms rest l vs hs hr3 hw.2 (by omega))
    have hz : (xs.map fun v => tlv f.num (e.body v)).flatten.length = ((xs.zip gs).map fun z => (tlv f.num (e.body z.1)).length).sum := by
      rw [length_map_flatten]
      conv => lhs; rw [← zip_fst hlen, List.map_map]
      rfl
    rw [hz]
    simp only [hc, lengthCode]
    refine Adds.general (fun z : e.V × GV => z.2) (fun z => (tlv f.num (e.body z.1)).length) (xs.zip gs) hf (by
      rw [show (fun z : e.V × GV => z.2) = Prod.snd from rfl, zip_snd hlen]; exact hg) (by
      rw [hr1, ← zip_fst hlen, List.length_map, zip_fst hlen]) (lengthCode_decls _ _ _) ?_
    intro i z hzi
    obtain ⟨z1, z2⟩ := zip_get hzi
    refine elem_adds ms e sub f.name f.num z.1 z.2 (hx i z.1 z.2 z1 z2) (hr2 ty sub hc i z.1 z1) (by simp [lookup]) hw.1 ?_
    exact body_le (l := xs.map fun v => tlv f.num (e.body v)) (t := f.num) (List.mem_map.2 ⟨z.1, List.mem_of_getElem? z1, rfl⟩) (by omega)

theorem all_puts (ms : List TModel) (d : Nat) (hg : GoodInto ms call d) : ∀ (fs : Fields) (fields : List Field) (v : fs.V), StandsAll ms fs fields v kvs →
    ReadyAll ms fs fields v cells p → fs.Widths → Fields.depth fs ≤ d →
    Puts call cells p kvs (allFields (fun f => intoCode f.name f.num f.cls) fields) (fs.elems v).flatten
  | .nil, fields, v, hs, _, _, _ => by
    simp only [StandsAll] at hs; subst hs; exact Puts.done
  | .flag t rest, fields, (b, vs), hs, hr, hw, hd => by
    simp only [StandsAll] at hs
    obtain ⟨f, l, rfl, rfl, hc, hf, hs⟩ := hs
    simp only [ReadyAll] at hr
    simp only [Fields.elems, List.flatten_append]
    rw [allFields_cons]
    refine Puts.append ?_ (all_puts ms d hg rest l vs hs (hr f l rfl) hw hd)
    simp only [hc]; exact flag_puts hf
  | .cons t .req e rest, fields, (v, vs), hs, hr, hw, hd => by
    simp only [StandsAll] at hs
    obtain ⟨f, l, rfl, rfl, _, ⟨g, hf, hgv⟩, hs⟩ := hs
    simp only [ReadyAll] at hr
    simp only [Fields.depth] at hd
    simp only [Fields.elems, List.flatten_cons]
    rw [allFields_cons]
    exact Puts.append (elem_puts ms d hg e f.cls f.name f.num v g hgv (hr f l rfl).1 hf hw.1 (by omega))
      (all_puts ms d hg rest l vs hs (hr f l rfl).2 hw.2 (by omega))
  | .cons t .opt e rest, fields, (none, vs), hs, hr, hw, hd => by
    simp only [StandsAll] at hs
    obtain ⟨f, l, rfl, rfl, hc, hf, hs⟩ := hs
    simp only [ReadyAll] at hr
    simp only [Fields.depth] at hd
    simp only [Fields.elems]
    rw [allFields_cons]
    exact (Puts.append (nil_puts hc hf) (all_puts ms d hg rest l vs hs (hr f l rfl) hw.2 (by omega))).congr rfl
  | .cons t .opt e rest, fields, (some v, vs), hs, hr, hw, hd => by
    simp only [StandsAll] at hs
    obtain ⟨f, l, rfl, rfl, _, ⟨g, hf, hgv⟩, hs⟩ := hs
    simp only [ReadyAll] at hr
    simp only [Fields.depth] at hd
    simp only [Fields.elems, List.flatten_cons]
    rw [allFields_cons]
    exact Puts.append (elem_puts ms d hg e f.cls f.name f.num v g hgv (hr f l rfl).1 hf hw.1 (by omega))
      (all_puts ms d hg rest l vs hs (hr f l rfl).2 hw.2 (by omega))
  | .cons t .seq e rest, fields, (xs, vs), hs, hr, hw, hd => by
    simp only [StandsAll] at hs
    obtain ⟨f, l, rfl, rfl, ⟨ty, sub, hc, g, gs, hf, hgs, hlen, hx⟩, hs⟩ := hs
    simp only [ReadyAll] at hr
    simp only [Fields.depth] at hd
    obtain ⟨⟨hr1, hr2⟩, hr3⟩ := hr f l rfl
    simp only [Fields.elems, List.flatten_append]
    rw [allFields_cons]
    refine Puts.append ?_ (all_puts ms d hg rest l vs hs hr3 hw.2 (by omega))
    have hz : (xs.map fun v => tlv f.num (e.body v)).flatten = ((xs.zip gs).map fun z => tlv f.num (e.body z.1)).flatten := by
      conv => lhs; rw [← zip_fst hlen, List.map_map]
      rfl
    rw [hz]
    simp only [hc, intoCode]
    refine Puts.general (fun z : e.V × GV => z.2) (fun z => tlv f.num (e.body z.1)) (xs.zip gs) hf (by
      rw [show (fun z : e.V × GV => z.2) = Prod.snd from rfl, zip_snd hlen]; exact hgs) (by
      rw [hr1, ← zip_fst hlen, List.length_map, zip_fst hlen]) (intoCode_decls _ _ _) ?_
    intro i z hzi
    obtain ⟨z1, z2⟩ := zip_get hzi
    exact elem_puts ms d hg e sub f.name f.num z.1 z.2 (hx i z.1 z.2 z1 z2) (hr2 ty sub hc i z.1 z1) (by simp [lookup]) hw.1 (by omega)

/-- all fields are prepared, and no other cells change -/
def InitsAll (call : Call) (p : Path) (kvs : List (Txt × GV)) (c : Code) (fields : List Field) (R : (Path → Nat) → Prop) : Prop :=
  ∀ s : S, s.vars .encoder = .ref p → s.vars .value = .ptr (.struct kvs) →
    ∃ cells', c.exec call s = .ok { s with cells := cells' } ∧ (∀ q, (¬ ∃ f ∈ fields, Under f.name p q) → cells' q = s.cells q) ∧ R cells'

theorem InitsAll.cons {f : Field} {l : List Field} {c d : Code} {R Q : (Path → Nat) → Prop} (hc : Inits call p kvs c f.name R)
    (hd : InitsAll call p kvs d l Q) (hn : Named (f :: l)) (hR : ∀ C C', (∀ q, Under f.name p q → C' q = C q) → R C → R C') :
    InitsAll call p kvs (c ++ d) (f :: l) fun C => R C ∧ Q C := by
  intro s h1 h2
  obtain ⟨C1, e1, e2, e3⟩ := hc s h1 h2
  obtain ⟨C2, e4, e5, e6⟩ := hd { s with cells := C1 } h1 h2
  refine ⟨C2, ?_, ?_, ?_, e6⟩
  · rw [exec_append, e1]
    exact e4
  · intro q hq
    rw [e5 q fun ⟨g, hg, hu⟩ => hq ⟨g, by simp [hg], hu⟩]
    exact e2 q fun hu => hq ⟨f, by simp, hu⟩
  · refine hR C1 C2 (fun q hq => e5 q ?_) e3
    rintro ⟨g, hg, hu⟩
    have : g.name = f.name := hu.inj hq
    simp only [Named, List.map_cons, List.nodup_cons] at hn
    exact hn.1 (this ▸ List.mem_map.2 ⟨g, hg, rfl⟩)

theorem InitsAll.mono {c : Code} {l : List Field} {R R' : (Path → Nat) → Prop} (h : InitsAll call p kvs c l R) (hr : ∀ x, R x → R' x) :
    InitsAll call p kvs c l R' := by
  intro s h1 h2
  obtain ⟨c', e1, e2, e3⟩ := h s h1 h2
  exact ⟨c', e1, e2, hr _ e3⟩

theorem all_inits (ms : List TModel) (d : Nat) (hg : GoodInit ms call d) : ∀ (fs : Fields) (fields : List Field) (v : fs.V), Named fields →
    StandsAll ms fs fields v kvs → fs.Widths → Fields.depth fs ≤ d → (fs.elems v).flatten.length < 2 ^ 64 →
    InitsAll call p kvs (allFields (fun f => initCode f.name f.cls) fields) fields fun C => ReadyAll ms fs fields v C p
  | .nil, fields, v, hn, hs, _, _, _ => by
    simp only [StandsAll] at hs; subst hs
    intro s _ _
    exact ⟨s.cells, rfl, fun _ _ => rfl, by simp only [ReadyAll]⟩
  | .flag t rest, fields, (b, vs), hn, hs, hw, hd, hl => by
    simp only [StandsAll] at hs
    obtain ⟨f, l, rfl, rfl, hc, hf, hs⟩ := hs
    simp only [Fields.elems, List.flatten_append, List.length_append] at hl
    rw [allFields_cons]
    refine (InitsAll.cons (R := fun _ => True) ?_ (all_inits ms d hg rest l vs (List.nodup_cons.1 hn).2 hs hw hd (by omega)) hn (fun _ _ _ _ => trivial)).mono ?_
    · simp only [hc]; exact Inits.done
    · intro C h; simp only [ReadyAll]; rintro f' l' e; cases e; exact h.2
  | .cons t .req e rest, fields, (v, vs), hn, hs, hw, hd, hl => by
    simp only [StandsAll] at hs
    obtain ⟨f, l, rfl, rfl, _, ⟨g, hf, hgv⟩, hs⟩ := hs
    simp only [Fields.depth] at hd
    simp only [Fields.elems, List.flatten_cons, List.length_append, tlv_length] at hl
    rw [allFields_cons]
    refine (InitsAll.cons (elem_inits ms d hg e f.cls f.name v g hgv hf hw.1 (by omega) (by omega))
      (all_inits ms d hg rest l vs (List.nodup_cons.1 hn).2 hs hw.2 (by omega) (by omega)) hn
      (fun C C' h r => Ready.congr ms e f.cls f.name v C C' p h r)).mono ?_
    intro C h; simp only [ReadyAll]; rintro f' l' e; cases e; exact h
  | .cons t .opt e rest, fields, (none, vs), hn, hs, hw, hd, hl => by
    simp only [StandsAll] at hs
    obtain ⟨f, l, rfl, rfl, hc, hf, hs⟩ := hs
    simp only [Fields.depth] at hd
    simp only [Fields.elems] at hl
    rw [allFields_cons]
    refine (InitsAll.cons (nil_inits hc hf) (all_inits ms d hg rest l vs (List.nodup_cons.1 hn).2 hs hw.2 (by omega) hl) hn (fun _ _ _ _ => trivial)).mono ?_
    intro C h; simp only [ReadyAll]; rintro f' l' e; cases e; exact h.2
  | .cons t .opt e rest, fields, (some v, vs), hn, hs, hw, hd, hl => by
    simp only [StandsAll] at hs
    obtain ⟨f, l, rfl, rfl, _, ⟨g, hf, hgv⟩, hs⟩ := hs
    simp only [Fields.depth] at hd
    simp only [Fields.elems, List.flatten_cons, List.length_append, tlv_length] at hl
    rw [allFields_cons]
    refine (InitsAll.cons (elem_inits ms d hg e f.cls f.name v g hgv hf hw.1 (by omega) (by omega))
      (all_inits ms d hg rest l vs (List.nodup_cons.1 hn).2 hs hw.2 (by omega) (by omega)) hn
      (fun C C' h r => Ready.congr ms e f.cls f.name v C C' p h r)).mono ?_
    intro C h; simp only [ReadyAll]; rintro f' l' e; cases e; exact h
  | .cons t .seq e rest, fields, (xs, vs), hn, hs, hw, hd, hl => by
    simp only [StandsAll] at hs
    obtain ⟨f, l, rfl, rfl, ⟨ty, sub, hc, g, gs, hf, hgs, hlen, hx⟩, hs⟩ := hs
    simp only [Fields.depth] at hd
    simp only [Fields.elems, List.flatten_append, List.length_append] at hl
    rw [allFields_cons]
    have key : Inits call p kvs (initCode f.name f.cls) f.name fun C => C (.key (.sub f.name) :: p) = (xs.zip gs).length ∧
        ∀ (i : Nat) (z : e.V × GV), (xs.zip gs)[i]? = some z → Ready ms e sub f.name z.1 C (subPath f.name p i) := by
      rw [hc]
      refine Inits.sequence (fun z : e.V × GV => z.2) (fun z C q => Ready ms e sub f.name z.1 C q) (xs.zip gs) hf (by
        rw [show (fun z : e.V × GV => z.2) = Prod.snd from rfl, zip_snd hlen]; exact hgs)
        (fun z C C' q h r => Ready.congr ms e sub f.name z.1 C C' q h r) ?_
      intro i z hzi
      obtain ⟨z1, z2⟩ := zip_get hzi
      refine elem_inits ms d hg e sub f.name z.1 z.2 (hx i z.1 z.2 z1 z2) (by simp [lookup]) hw.1 (by omega) ?_
      exact body_le (l := xs.map fun v => tlv f.num (e.body v)) (t := f.num) (List.mem_map.2 ⟨z.1, List.mem_of_getElem? z1, rfl⟩) (by omega)
    refine (InitsAll.cons key (all_inits ms d hg rest l vs (List.nodup_cons.1 hn).2 hs hw.2 (by omega) (by omega)) hn ?_).mono ?_
    · intro C C' h r
      refine ⟨?_, fun i z hz => Ready.congr ms e sub f.name z.1 C C' _ (fun q hq => h q (under_sub hq)) (r.2 i z hz)⟩
      rw [h _ ⟨_, Or.inr (Or.inr rfl), List.suffix_refl _⟩]; exact r.1
    · intro C h
      simp only [ReadyAll]
      rintro f' l' e'
      cases e'
      refine ⟨⟨?_, ?_⟩, h.2⟩
      · rw [h.1.1, ← zip_fst hlen, List.length_map, zip_fst hlen]
      · intro t' sub' hc' i x hxi
        rw [hc] at hc'; cases hc'
        have hi : i < gs.length := by
          rw [hlen]
          rcases Nat.lt_or_ge i xs.length with h | h
          · exact h
          · rw [List.getElem?_eq_none h] at hxi; cases hxi
        exact h.1.2 i (x, gs[i]) (List.getElem?_zip_eq_some.2 ⟨hxi, List.getElem?_eq_getElem hi⟩)

/-! ## Calls -/

theorem good_call (ms : List TModel) : ∀ d : Nat, GoodInit ms (callOf ms d) d ∧ GoodInto ms (callOf ms d) d
  | 0 => ⟨fun _ _ _ _ _ h => absurd h (by omega), fun _ _ _ _ _ h => absurd h (by omega)⟩
  | d + 1 => by
    obtain ⟨ih1, ih2⟩ := good_call ms d
    constructor
    · intro fs t m v kvs hd hm hn hs hw hl p cells mem
      obtain ⟨C, e1, e2, e3⟩ := all_inits (p := p) (kvs := kvs) ms d ih1 fs m.fields v hn hs hw (by omega) hl ⟨cells, mem, entry (.ptr (.struct kvs)) p 0⟩
        (by simp [entry, upd]) (by simp [entry, upd])
      have e4 := all_adds (call := callOf ms d) (cells := C) (p := p) (kvs := kvs) ms fs m.fields v hs e3 hw hl
        ⟨C, mem, upd (entry (.ptr (.struct kvs)) p 0) .l (.num 0)⟩ 0 rfl (by simp [entry, upd]) (by simp [entry, upd]) (by simp [upd]) (by omega)
      refine ⟨updCell C (.key .length :: p) (fs.elems v).flatten.length, ?_, ?_, by simp [updCell], ?_⟩
      · simp only [callOf, hm, if_true, initBody]
        rw [exec_append, exec_append, exec_append, e1]
        simp only [Res.bind]
        rw [exec_of]
        simp only [Atom.exec, Ex.eval, Res.bind, Ty.conv, Res.map, Nat.zero_mod]
        rw [e4]
        simp only
        rw [exec_of]
        simp only [Atom.exec, Ex.evalNum, Ex.eval, Res.bind]
        simp [upd, entry]
      · intro q hq
        have h1 : q ≠ .key .length :: p := fun e => hq (e ▸ List.suffix_cons _ _)
        simp only [updCell, h1, if_false]
        exact e2 q fun ⟨f, _, hu⟩ => hq hu.suffix
      · refine ReadyAll.congr ms fs m.fields v C _ p (fun f q hu => ?_) e3
        have h1 : q ≠ .key .length :: p := fun e => not_under_length (e ▸ hu)
        simp only [updCell, h1, if_false]
    · intro fs t m v kvs hd hm hs hw p cells off mem hr hl hl'
      have e1 := all_puts (call := callOf ms d) (cells := cells) (p := p) (kvs := kvs) ms d ih2 fs m.fields v hs hr hw (by omega)
        ⟨cells, mem, upd (entry (.ptr (.struct kvs)) p off) .pos (.num 0)⟩ off 0 rfl (by simp [entry, upd]) (by simp [entry, upd]) (by simp [entry, upd])
        (by simp [upd]) (by simpa using hl) hl'
      simp only [callOf, hm, Bool.false_eq_true, if_false, intoBody]
      rw [exec_append, exec_of]
      simp only [Atom.exec, Ex.eval, Res.bind, Ty.conv, Res.map, Nat.zero_mod]
      rw [e1]
      simp

end Ndn.Codec.Gen
