import Verif.Codec.Spec

/-! # The two passes of the generated encoder agree (lemmas) -/

namespace Ndn.Codec

/-- the writer `m` writes exactly `bs` whenever they fit -/
def Writes (m : WS → Res WS) (bs : Bytes) : Prop :=
  ∀ s : WS, s.2 + bs.length ≤ s.1.length → m s = .ok (splice s.1 s.2 bs, s.2 + bs.length)

theorem splice_length {buf : Bytes} {pos : Nat} {bs : Bytes} (h : pos + bs.length ≤ buf.length) :
    (splice buf pos bs).length = buf.length := by
  simp only [splice, List.length_append, List.length_take, List.length_drop]; omega

theorem splice_splice {buf : Bytes} {pos : Nat} {a b : Bytes} (h : pos + (a ++ b).length ≤ buf.length) :
    splice (splice buf pos a) (pos + a.length) b = splice buf pos (a ++ b) := by
  rw [List.length_append] at h
  have hp : (buf.take pos ++ a).length = pos + a.length := by
    simp only [List.length_append, List.length_take]; omega
  have h1 : (buf.take pos ++ a ++ buf.drop (pos + a.length)).take (pos + a.length) = buf.take pos ++ a :=
    List.take_left' hp
  have h2 : (buf.take pos ++ a ++ buf.drop (pos + a.length)).drop (pos + a.length + b.length) =
      buf.drop (pos + (a ++ b).length) := by
    rw [← List.drop_drop, List.drop_left' hp, List.drop_drop, List.length_append, Nat.add_assoc]
  unfold splice
  rw [h1, h2]; simp [List.append_assoc]

theorem Writes.put (bs : Bytes) : Writes (put bs) bs := by
  intro s h; unfold Codec.put; rw [if_pos h]

theorem Writes.putCopy (bs : Bytes) : Writes (putCopy bs) bs := by
  intro s h; unfold Codec.putCopy
  rw [if_pos (by omega), List.take_of_length_le (by omega)]

theorem splice_nil (buf : Bytes) (pos : Nat) : splice buf pos [] = buf := by simp [splice]

theorem Writes.done : Writes (fun s => .ok s) [] := by
  intro s _; simp [splice_nil]

theorem Writes.bind {m k : WS → Res WS} {a b : Bytes} (hm : Writes m a) (hk : Writes k b) :
    Writes (fun s => (m s).bind k) (a ++ b) := by
  intro s h
  have h' := h
  rw [List.length_append] at h'
  show (m s).bind k = _
  rw [hm s (by omega)]
  show k _ = _
  rw [hk _ (by show _ ≤ (splice _ _ _).length; rw [splice_length (by omega)]; show s.2 + a.length + b.length ≤ _; omega)]
  show Res.ok (splice (splice s.1 s.2 a) (s.2 + a.length) b, _) = _
  rw [splice_splice h, List.length_append, Nat.add_assoc]

theorem Writes.putAll {α : Type} {f : α → WS → Res WS} {g : α → Bytes} (l : List α) (h : ∀ a ∈ l, Writes (f a) (g a)) :
    Writes (putAll f l) (l.map g).flatten := by
  induction l with
  | nil => exact Writes.done
  | cons a l ih =>
    exact Writes.bind (h a (by simp)) (ih fun b hb => h b (by simp [hb]))


theorem flatten_foldl_len {α : Type} (l : List α) (g : α → Bytes) (f : α → Nat) (h : ∀ a ∈ l, (g a).length = f a) (n : Nat) :
    l.foldl (fun acc v => acc + f v) n = n + ((l.map g).flatten).length := by
  induction l generalizing n with
  | nil => simp
  | cons a l ih =>
    rw [List.foldl_cons, ih (fun b hb => h b (by simp [hb]))]
    simp only [List.map_cons, List.flatten_cons, List.length_append]
    rw [h a (by simp)]; omega

theorem tlv_length (t : Nat) (b : Bytes) : (tlv t b).length = tlLen t + (tlLen b.length + b.length) := by
  simp only [tlv, List.length_append, tlEnc_length]; omega

theorem be_length (n v : Nat) : (be n v).length = n := by
  induction n generalizing v with
  | zero => rfl
  | succ n ih => simp [be, ih]

theorem natW_cases (x : Nat) : natW x = 1 ∨ natW x = 2 ∨ natW x = 4 ∨ natW x = 8 := by
  unfold natW; repeat' split
  all_goals simp

theorem natEnc_natW (x : Nat) : natEnc x = be (natW x) x := by
  unfold natEnc natW; repeat' split
  · simp [be]
  · rfl
  · rfl
  · rfl

theorem tlLen_small {n : Nat} (h : n ≤ 8) : tlLen n = 1 := by
  unfold tlLen; rw [if_pos (by omega)]

theorem encBody_flatten (n : Name) : (n.map Component.enc).flatten = Name.encBody n := by
  induction n with
  | nil => rfl
  | cons c n ih => simp [Name.encBody, ih]

mutual
/-- the length pass: an element -/
theorem Elem.encLen_eq : ∀ (e : Elem) (v : e.V), e.Widths → e.encLen v = tlLen (e.body v).length + (e.body v).length
  | .nat, (x : Nat), _ => by
    show 1 + natW x = tlLen (natEnc x).length + (natEnc x).length
    rw [natEnc_natW, be_length, tlLen_small]; rcases natW_cases x with h | h | h | h <;> omega
  | .fixed w _, (x : Nat), hw => by
    show 1 + w = tlLen (be w x).length + (be w x).length
    rw [be_length, tlLen_small]; rcases hw with h | h | h | h <;> omega
  | .time, (d : Int), _ => by
    show 1 + natW (timeMs d) = tlLen (natEnc (timeMs d)).length + (natEnc (timeMs d)).length
    rw [natEnc_natW, be_length, tlLen_small]; rcases natW_cases (timeMs d) with h | h | h | h <;> omega
  | .bin, (b : Bytes), _ => rfl
  | .str, (b : Bytes), _ => rfl
  | .name, (n : Name), _ => by
    show tlLen (Name.encLen n) + Name.encLen n = tlLen (Name.encBody n).length + (Name.encBody n).length
    rw [Name.encLen_eq]
  | .wire, (w : Wire), _ => by
    show tlLen (Wire.byteLen w) + Wire.byteLen w = tlLen (List.flatten w).length + (List.flatten w).length
    rw [Wire.byteLen_eq_join]; rfl
  | .struct fs, v, hw => by
    show tlLen (Fields.encLen fs v) + Fields.encLen fs v =
      tlLen (Fields.elems fs v).flatten.length + (Fields.elems fs v).flatten.length
    rw [Fields.encLen_eq fs v hw]
/-- the length pass -/
theorem Fields.encLen_eq : ∀ (fs : Fields) (v : fs.V), fs.Widths → fs.encLen v = (fs.elems v).flatten.length
  | .nil, _, _ => rfl
  | .flag typ rest, (b, vs), hw => by
    show (if b then tlLen typ + 1 else 0) + Fields.encLen rest vs =
      ((if b then [tlv typ []] else []) ++ Fields.elems rest vs).flatten.length
    rw [Fields.encLen_eq rest vs hw]
    cases b
    · simp
    · simp [tlv_length, tlLen]
  | .cons typ .req e rest, (v, vs), hw => by
    show (tlLen typ + Elem.encLen e v) + Fields.encLen rest vs = (tlv typ (Elem.body e v) :: Fields.elems rest vs).flatten.length
    rw [Fields.encLen_eq rest vs hw.2, Elem.encLen_eq e v hw.1, List.flatten_cons, List.length_append, tlv_length]
  | .cons typ .opt e rest, (none, vs), hw => by
    show Fields.encLen rest vs = (Fields.elems rest vs).flatten.length
    exact Fields.encLen_eq rest vs hw.2
  | .cons typ .opt e rest, (some v, vs), hw => by
    show (tlLen typ + Elem.encLen e v) + Fields.encLen rest vs = (tlv typ (Elem.body e v) :: Fields.elems rest vs).flatten.length
    rw [Fields.encLen_eq rest vs hw.2, Elem.encLen_eq e v hw.1, List.flatten_cons, List.length_append, tlv_length]
  | .cons typ .seq e rest, (l, vs), hw => by
    show List.foldl (fun acc v => acc + (tlLen typ + Elem.encLen e v)) 0 l + Fields.encLen rest vs =
      (List.map (fun v => tlv typ (Elem.body e v)) l ++ Fields.elems rest vs).flatten.length
    rw [Fields.encLen_eq rest vs hw.2, flatten_foldl_len l (fun v => tlv typ (Elem.body e v)) _ (fun v _ => ?_)]
    · rw [List.flatten_append, List.length_append]; omega
    · rw [tlv_length, Elem.encLen_eq e v hw.1]
end

theorem tlEnc_u8 {w : Nat} (h : w ≤ 8) : [UInt8.ofNat w] = tlEnc w := by
  rw [tlEnc_small (by omega)]

theorem Writes.congr {m : WS → Res WS} {a b : Bytes} (h : Writes m a) (e : a = b) : Writes m b := e ▸ h

theorem Writes.natural (x : Nat) : Writes (putNat x) (tlEnc (natEnc x).length ++ natEnc x) := by
  refine (Writes.put _).congr ?_
  rw [natEnc_natW, be_length, ← tlEnc_u8 (by rcases natW_cases x with h | h | h | h <;> omega)]; rfl

theorem Writes.component (c : Component) : Writes (putComponent c) c.enc :=
  Writes.bind (Writes.bind (Writes.put _) (Writes.put _)) (Writes.putCopy _)

mutual
theorem Elem.writes : ∀ (e : Elem) (v : e.V), e.Widths →
    Writes (e.encodeInto v) (tlEnc (e.body v).length ++ e.body v)
  | .nat, (x : Nat), _ => Writes.natural x
  | .fixed w _, (x : Nat), hw => by
    refine (Writes.put (UInt8.ofNat w :: be w x)).congr ?_
    show _ = tlEnc (be w x).length ++ be w x
    rw [be_length, ← tlEnc_u8 (by rcases hw with h | h | h | h <;> omega)]; rfl
  | .time, (d : Int), _ => Writes.natural (timeMs d)
  | .bin, (b : Bytes), _ => Writes.bind (Writes.put _) (Writes.putCopy _)
  | .str, (b : Bytes), _ => Writes.bind (Writes.put _) (Writes.putCopy _)
  | .name, (n : Name), _ => by
    refine (Writes.bind (Writes.put (tlEnc (Name.encLen n))) (Writes.putAll n (fun c _ => Writes.component c))).congr ?_
    rw [Name.encLen_eq, encBody_flatten]; rfl
  | .wire, (w : Wire), _ => by
    refine (Writes.bind (Writes.put (tlEnc (Wire.byteLen w))) (Writes.putAll (g := id) w (fun c _ => Writes.putCopy c))).congr ?_
    rw [Wire.byteLen_eq_join, List.map_id]; rfl
  | .struct fs, v, hw => by
    have h1 := Fields.encLen_eq fs v hw
    have h2 := Fields.writes fs v hw
    show Writes (fun s => (put (tlEnc (Fields.encLen fs v)) s).bind fun s1 =>
      if Fields.encLen fs v > 0 then
        (Fields.encodeInto fs v s1).bind fun s2 => .ok (s2.1, s1.2 + Fields.encLen fs v)
      else .ok s1) (tlEnc (Fields.elems fs v).flatten.length ++ (Fields.elems fs v).flatten)
    rw [← h1]
    refine Writes.bind (Writes.put _) ?_
    intro s hs
    show (if Fields.encLen fs v > 0 then
        (Fields.encodeInto fs v s).bind fun s2 => .ok (s2.1, s.2 + Fields.encLen fs v)
      else .ok s) = _
    split
    · rw [h2 s hs]; rw [h1]; rfl
    · rename_i h0
      have : (Fields.elems fs v).flatten = [] := List.eq_nil_of_length_eq_zero (by omega)
      rw [this]; simp [splice_nil]
theorem Fields.writes : ∀ (fs : Fields) (v : fs.V), fs.Widths → Writes (fs.encodeInto v) (fs.elems v).flatten
  | .nil, _, _ => Writes.done
  | .flag typ rest, (b, vs), hw => by
    have h := Fields.writes rest vs hw
    show Writes (fun s => (if b then (put (tlEnc typ) s).bind (put [0]) else .ok s).bind (Fields.encodeInto rest vs))
      ((if b then [tlv typ []] else []) ++ Fields.elems rest vs).flatten
    cases b
    · exact (Writes.bind Writes.done h).congr (by simp)
    · exact (Writes.bind (Writes.bind (Writes.put (tlEnc typ)) (Writes.put [0])) h).congr (by simp [tlv]; rfl)
  | .cons typ .req e rest, (v, vs), hw =>
    (Writes.bind (Writes.bind (Writes.put (tlEnc typ)) (Elem.writes e v hw.1)) (Fields.writes rest vs hw.2)).congr (by
      show _ = (tlv typ (Elem.body e v) :: Fields.elems rest vs).flatten
      simp [tlv])
  | .cons typ .opt e rest, (none, vs), hw => Fields.writes rest vs hw.2
  | .cons typ .opt e rest, (some v, vs), hw =>
    (Writes.bind (Writes.bind (Writes.put (tlEnc typ)) (Elem.writes e v hw.1)) (Fields.writes rest vs hw.2)).congr (by
      show _ = (tlv typ (Elem.body e v) :: Fields.elems rest vs).flatten
      simp [tlv])
  | .cons typ .seq e rest, (l, vs), hw =>
    (Writes.bind (Writes.putAll (f := fun v s => (put (tlEnc typ) s).bind (Elem.encodeInto e v)) l
        (fun v _ => Writes.bind (Writes.put (tlEnc typ)) (Elem.writes e v hw.1)))
      (Fields.writes rest vs hw.2)).congr (by
      show _ = (List.map (fun v => tlv typ (Elem.body e v)) l ++ Fields.elems rest vs).flatten
      rw [List.flatten_append]
      simp [tlv])
end

theorem Fields.encode_eq (fs : Fields) (v : fs.V) (hw : fs.Widths) : fs.encode v = .ok (fs.enc v) := by
  have h := Fields.writes fs v hw (List.replicate (fs.encLen v) 0, 0)
    (by show 0 + _ ≤ (List.replicate _ _).length; rw [List.length_replicate, Fields.encLen_eq fs v hw]; omega)
  unfold Fields.encode
  rw [h]
  show Res.ok (splice _ 0 _) = _
  simp [splice, Fields.enc, Fields.encLen_eq fs v hw]

end Ndn.Codec
