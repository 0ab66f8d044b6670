import Verif.Packet.MakeData

/-! # What MakeInterest makes (lemmas) -/

namespace Ndn.Packet
open Ndn.Codec Ndn.Codec.Schema

/-- position of the last component's value in the encoded name -/
def lastPos (n : Name) : Nat := (tlEnc 7 ++ tlEnc (Name.encBody n).length).length + (Name.encBody n.dropLast).length + 2

theorem encBody_flatten : ∀ n : Name, (n.map Component.enc).flatten = Name.encBody n
  | [] => rfl
  | c :: n => by rw [List.map_cons, List.flatten_cons, encBody_flatten n]; rfl

theorem encBody_concat (n : Name) (c : Component) : Name.encBody (n ++ [c]) = Name.encBody n ++ c.enc := by
  rw [← encBody_flatten, ← encBody_flatten]; simp

theorem nil_or_snoc {α : Type} (n : List α) : n = [] ∨ ∃ m c, n = m ++ [c] := by
  rcases List.eq_nil_or_concat n with h | ⟨m, c, h⟩
  · exact .inl h
  · exact .inr ⟨m, c, by simpa using h⟩

/-- the name of an Interest -/
theorem step_iname {start : Nat} {n : Name} {need : Bool} {fs : List NF} {s : ES}
    (h : At s [] [] (wirePlan 0 (.iname n need :: fs))) :
    ∃ s', NF.encodeInto start (.iname n need) s = .ok s' ∧ At s' [] (tlv 7 (Name.encBody n)) (wirePlan (tlv 7 (Name.encBody n)).length fs) ∧
      s'.coverIdx = s.coverIdx ∧ s'.covered = s.covered ++ [Name.encBody (if need then n.dropLast else n)] ∧
      s'.namePos = if n = [] then s.namePos else lastPos n := by
  rw [wirePlan_plain (f := .iname n need) trivial, NF.len_eq (f := .iname n need) trivial (by simp), Nat.zero_add] at h
  have hb : NF.bytes (.iname n need) = tlv 7 (Name.encBody n) := rfl
  rw [hb] at h
  have hpos : 0 < (tlv 7 (Name.encBody n)).length := by rw [tlv_length]; have := tlLen_pos 7; omega
  obtain ⟨p, ps, hp, hle⟩ := wirePlan_pos fs _ hpos
  rw [hp] at h ⊢
  have hlen : (tlv 7 (Name.encBody n)).length = (tlEnc 7 ++ tlEnc (Name.encBody n).length).length + (Name.encBody n).length := by
    rw [tlv, List.length_append]
  obtain ⟨s1, g1, g2, g3, g4, g5⟩ := write_at (Writes.bind (Writes.put (tlEnc 7)) (Writes.put (tlEnc (Name.encLen n)))) h (by
    rw [Name.encLen_eq, List.length_nil]; omega)
  rw [Name.encLen_eq] at g2
  have hdl : (Name.encBody n.dropLast).length ≤ (Name.encBody n).length := by
    rcases nil_or_snoc n with rfl | ⟨m, c, rfl⟩
    · simp
    · rw [List.dropLast_concat, encBody_concat]; simp
  obtain ⟨s2, k1, k2, k3, k4, k5⟩ := write_at (Writes.putAll n.dropLast fun c _ => Writes.component c) g2 (by
    rw [encBody_flatten, List.nil_append]; omega)
  rw [List.nil_append] at g2
  rw [List.nil_append, encBody_flatten] at k2
  have key : ∃ s3, (match n.getLast? with
          | none => Res.ok s2
          | some c => ({ s2 with namePos := s2.pos + 2 } : ES).write (putComponent c)) = .ok s3 ∧
        At s3 [] (tlv 7 (Name.encBody n)) (p :: ps) ∧ s3.coverIdx = s2.coverIdx ∧ s3.covered = s2.covered ∧
        s3.namePos = if n = [] then s2.namePos else lastPos n := by
    rcases nil_or_snoc n with rfl | ⟨m, c, rfl⟩
    · exact ⟨s2, rfl, by simpa [tlv, Name.encBody] using k2, rfl, rfl, rfl⟩
    · have hat : At ({ s2 with namePos := s2.pos + 2 } : ES) [] (tlEnc 7 ++ tlEnc (Name.encBody (m ++ [c])).length ++ Name.encBody (m ++ [c]).dropLast) (p :: ps) :=
        ⟨k2.wire, k2.idx, k2.pos⟩
      obtain ⟨s3, q1, q2, q3, q4, q5⟩ := write_at (Writes.component c) hat (by
        rw [List.dropLast_concat]
        rw [encBody_concat] at hlen hle ⊢
        simp only [List.length_append] at *
        omega)
      refine ⟨s3, ?_, ?_, q3, q4, ?_⟩
      · simp only [List.getLast?_append, List.getLast?_singleton, Option.some_or]
        exact q1
      · have e : tlEnc 7 ++ tlEnc (Name.encBody (m ++ [c])).length ++ Name.encBody (m ++ [c]).dropLast ++ c.enc =
            tlv 7 (Name.encBody (m ++ [c])) := by
          rw [List.dropLast_concat, tlv, encBody_concat]
          simp
        rw [← e]; exact q2
      · rw [q5, if_neg (by simp)]
        show s2.pos + 2 = _
        rw [k2.pos, lastPos, List.length_append]
  obtain ⟨s3, q1, q2, q3, q4, q5⟩ := key
  have hbuf : s3.buf = tlv 7 (Name.encBody n) ++ List.replicate (p - (tlv 7 (Name.encBody n)).length) 0 := by
    rw [ES.buf, q2.wire, q2.idx]; rfl
  have p1 : s1.pos = (tlEnc 7 ++ tlEnc (Name.encBody n).length).length := g2.pos
  have p2 : s2.pos = (tlEnc 7 ++ tlEnc (Name.encBody n).length).length + (Name.encBody n.dropLast).length := by
    rw [k2.pos, List.length_append]
  have p3 : s3.pos = (tlv 7 (Name.encBody n)).length := q2.pos
  have hsl : sliceOf s3.buf s1.pos (if need then s2.pos else s3.pos) = .ok (Name.encBody (if need then n.dropLast else n)) := by
    rw [hbuf, p1, p2, p3]
    cases need with
    | true =>
      simp only [if_true]
      rw [sliceOf_ok (by omega) (Nat.le_trans (by omega : _ ≤ (tlv 7 (Name.encBody n)).length) (by simp))]
      congr 1
      rcases nil_or_snoc n with rfl | ⟨m, c, rfl⟩
      · simp [Name.encBody]
      · rw [List.dropLast_concat, tlv, encBody_concat]
        rw [← List.append_assoc, List.append_assoc (tlEnc 7 ++ tlEnc _ ++ Name.encBody m), List.take_left' (by simp; omega), List.drop_left' rfl]
    | false =>
      simp only [Bool.false_eq_true, if_false]
      rw [sliceOf_ok (by omega) (by simp), List.take_left' rfl, tlv, List.drop_left' rfl]
  refine ⟨{ s3 with covered := s3.covered ++ [Name.encBody (if need then n.dropLast else n)] }, ?_, ⟨q2.wire, q2.idx, q2.pos⟩, ?_, ?_, ?_⟩
  · show (s.write _).bind _ = _
    rw [g1]
    show (s1.write _).bind _ = _
    rw [k1]
    simp only [Res.bind]
    cases hg : n.getLast? with
    | none =>
      simp only [hg] at q1 ⊢
      injection q1 with q1; subst q1
      rw [hsl]; rfl
    | some c =>
      simp only [hg] at q1 ⊢
      rw [q1]
      simp only
      rw [hsl]; rfl
  · exact q3.trans (k3.trans g3)
  · show s3.covered ++ _ = _
    rw [q4, k4, g4]
  · show s3.namePos = _
    rw [q5, k5, g5]

theorem coverStart_mark {fs gs : List NF} (h : NF.mark ∉ fs) (l : Nat) : coverStart l (fs ++ .mark :: gs) = l + encLength fs := by
  induction fs generalizing l with
  | nil => rfl
  | cons f fs ih =>
    have e : coverStart l (f :: (fs ++ .mark :: gs)) = coverStart (l + f.len) (fs ++ .mark :: gs) := by
      cases f with
      | mark => exact absurd (by simp) h
      | _ => rfl
    rw [List.cons_append, e, ih (fun hm => h (by simp [hm])), encLength_cons]; omega

/-- the fields between the name and the parameters -/
def midFields (v : InterestV) : List NF :=
  (if v.canBePrefix then [.flag 0x21] else []) ++ (if v.mustBeFresh then [.flag 0x12] else []) ++
    optElem 0x1e (.struct links) v.fwdHint ++ optElem 0x0a (.fixed 4 false) v.nonce ++ optElem 0x0c .time v.lifetime ++
    optElem 0x22 (.fixed 1 true) v.hopLimit

theorem interestFields_eq (v : InterestV) (n : Name) (hn : v.name = some n) (need : Bool) (est : Nat) :
    interestFields v need est = [.iname n need] ++ (midFields v ++ .mark :: (optWire 0x24 v.appParam ++ (optElem 0x2c (.struct signatureInfo) v.sigInfo ++ optSig 0x2e est))) := by
  simp only [interestFields, midFields, hn, List.append_assoc, List.cons_append, List.nil_append]

theorem midFields_mem {v : InterestV} {f : NF} (h : f ∈ midFields v) : f.Plain ∧ f ≠ .mark ∧ ∀ n need, f ≠ .iname n need := by
  simp only [midFields, List.mem_append] at h
  rcases h with ((((h | h) | h) | h) | h) | h
  · split at h
    · simp only [List.mem_singleton] at h; subst h; exact ⟨trivial, by simp, by simp⟩
    · exact absurd h (by simp)
  · split at h
    · simp only [List.mem_singleton] at h; subst h; exact ⟨trivial, by simp, by simp⟩
    · exact absurd h (by simp)
  · obtain ⟨x, rfl⟩ := mem_optElem h
    exact ⟨Fields.WF.widths _ links_wf, by simp, by simp⟩
  · obtain ⟨x, rfl⟩ := mem_optElem h
    exact ⟨by simp [NF.Plain, Elem.Widths], by simp, by simp⟩
  · obtain ⟨x, rfl⟩ := mem_optElem h
    exact ⟨trivial, by simp, by simp⟩
  · obtain ⟨x, rfl⟩ := mem_optElem h
    exact ⟨by simp [NF.Plain, Elem.Widths], by simp, by simp⟩

/-- the bytes before the parameters, with a given name -/
theorem head_bytes (v : InterestV) (n : Name) (hn : v.name = some n) :
    bytesOf v.bodies.head = tlv 7 (Name.encBody n) ++ fieldBytes (midFields v) := by
  have h3 := fieldBytes_optElem 5 0x1e (.struct links) v.fwdHint
  have h4 := fieldBytes_optElem 6 0x0a (.fixed 4 false) v.nonce
  have h5 := fieldBytes_optElem 7 0x0c .time v.lifetime
  have h6 := fieldBytes_optElem 8 0x22 (.fixed 1 true) v.hopLimit
  have h0 : bytesOf (ownIt 2 0x07 v.bodies.name) = tlv 7 (Name.encBody n) := by
    have e : v.bodies.name = some (Name.encBody n) := (congrArg (Option.map (Elem.body .name)) hn : _)
    rw [e]; simp [ownIt, bytesOf, It.bytes]
  have h1 : bytesOf (ownIt 3 0x21 (if v.bodies.canBePrefix then some [] else none)) = fieldBytes (if v.canBePrefix then [.flag 0x21] else []) := by
    show bytesOf (ownIt 3 0x21 (if v.canBePrefix then some [] else none)) = _
    cases v.canBePrefix <;> rfl
  have h2 : bytesOf (ownIt 4 0x12 (if v.bodies.mustBeFresh then some [] else none)) = fieldBytes (if v.mustBeFresh then [.flag 0x12] else []) := by
    show bytesOf (ownIt 4 0x12 (if v.mustBeFresh then some [] else none)) = _
    cases v.mustBeFresh <;> rfl
  simp only [midFields, fieldBytes_append, InterestB.head, bytesOf_append, h0, h1, h2]
  erw [h3, h4, h5, h6]
  simp only [List.append_assoc]
  rfl

theorem params_bytes (v : InterestV) :
    bytesOf v.bodies.params = fieldBytes (optWire 0x24 v.appParam) ++ fieldBytes (optElem 0x2c (.struct signatureInfo) v.sigInfo) := by
  have h3 := fieldBytes_optWire 11 0x24 v.appParam
  have h4 := fieldBytes_optElem 12 0x2c (.struct signatureInfo) v.sigInfo
  simp only [InterestB.params, bytesOf_append]
  erw [h3, h4]
  rfl

/-- the fields from the parameters on, without the signature value -/
def tailFields (v : InterestV) : List NF := .mark :: (optWire 0x24 v.appParam ++ optElem 0x2c (.struct signatureInfo) v.sigInfo)

theorem interestFields_eq' {v : InterestV} {n : Name} (hn : v.name = some n) (need : Bool) (est : Nat) :
    interestFields v need est = (.iname n need :: midFields v) ++ (tailFields v ++ optSig 0x2e est) := by
  simp [interestFields_eq v n hn, tailFields]

theorem tailFields_mem {v : InterestV} {f : NF} (h : f ∈ (tailFields v).tail) :
    f.Ok ∧ (∀ n need, f ≠ .iname n need) ∧ (∀ t e, f ≠ .sig t e) ∧ f ≠ .mark := by
  simp only [tailFields, List.tail_cons, List.mem_append] at h
  rcases h with h | h
  · obtain ⟨x, rfl⟩ := mem_optWire h
    exact ⟨trivial, by simp, by simp, by simp⟩
  · obtain ⟨x, rfl⟩ := mem_optElem h
    exact ⟨Fields.WF.widths _ signatureInfo_wf, by simp, by simp, by simp⟩

theorem tailFields_nsig (v : InterestV) : ∀ f ∈ tailFields v, f.Ok ∧ ∀ t e, f ≠ .sig t e := by
  intro f hf
  rcases List.mem_cons.mp hf with rfl | hf
  · exact ⟨trivial, by simp⟩
  · exact ⟨(tailFields_mem hf).1, (tailFields_mem hf).2.2.1⟩

theorem tailFields_bytes (v : InterestV) : fieldBytes (tailFields v) = bytesOf v.bodies.params := by
  rw [params_bytes, tailFields, fieldBytes_cons, fieldBytes_append]; rfl

theorem midFields_nsig (v : InterestV) : ∀ f ∈ midFields v, f.Ok ∧ ∀ t e, f ≠ .sig t e :=
  fun _ hf => ⟨(midFields_mem hf).1.ok, (midFields_mem hf).1.nsig⟩

theorem headFields_length {v : InterestV} {n : Name} (hn : v.name = some n) (need : Bool) :
    encLength (.iname n need :: midFields v) = (bytesOf v.bodies.head).length := by
  rw [encLength_eq, head_bytes v n hn]
  · rfl
  · intro f hf
    rcases List.mem_cons.mp hf with rfl | hf
    · exact ⟨trivial, by simp⟩
    · exact midFields_nsig v f hf

/-- the run of the encoder -/
theorem interest_run {v : InterestV} {n : Name} (hn : v.name = some n) (need : Bool) (est : Nat) :
    ∃ s, encodeFields (coverStart 0 (interestFields v need est)) (interestFields v need est)
      { wire := alloc (wirePlan 0 (interestFields v need est)) } = .ok s ∧
      s.wire = chunks (bytesOf v.bodies.head) (tailFields v ++ optSig 0x2e est) ∧
      s.covered.flatten = Name.encBody (if need then n.dropLast else n) ++
        coverOf (bytesOf v.bodies.head).length (bytesOf v.bodies.head) (tailFields v ++ optSig 0x2e est) ∧
      s.namePos = if n = [] then 0 else lastPos n := by
  rw [interestFields_eq' hn]
  have hm : NF.mark ∉ (.iname n need :: midFields v) := by
    intro hm
    rcases List.mem_cons.mp hm with h | h
    · exact (nomatch h)
    · exact (midFields_mem h).2.1 rfl
  have hcs : coverStart 0 ((.iname n need :: midFields v) ++ (tailFields v ++ optSig 0x2e est)) = (bytesOf v.bodies.head).length := by
    refine (coverStart_mark hm 0).trans ?_
    rw [headFields_length hn]; omega
  rw [hcs, encodeFields_append]
  obtain ⟨s1, a1, a2, a3, a4, a5⟩ := step_iname (start := (bytesOf v.bodies.head).length) (n := n) (need := need)
    (fs := midFields v ++ (tailFields v ++ optSig 0x2e est))
    (s := { wire := alloc (wirePlan 0 (.iname n need :: midFields v ++ (tailFields v ++ optSig 0x2e est))) })
    ⟨by rw [alloc_fill]; rfl, rfl, rfl⟩
  obtain ⟨s2, b1, b2, b3, b4, b5⟩ := run_plain (start := (bytesOf v.bodies.head).length) (midFields v) (tailFields v ++ optSig 0x2e est)
    (fun f hf => midFields_mem hf) a2
  rw [← head_bytes v n hn] at b2
  obtain ⟨s3, c1, c2, c3, c4⟩ := run_fields (start := (bytesOf v.bodies.head).length) (tailFields v ++ optSig 0x2e est)
    (by
      intro f hf
      rcases List.mem_append.mp hf with hf | hf
      · rcases List.mem_cons.mp hf with rfl | hf
        · exact ⟨trivial, by simp⟩
        · exact ⟨(tailFields_mem hf).1, (tailFields_mem hf).2.1⟩
      · unfold optSig at hf
        split at hf
        · simp only [List.mem_singleton] at hf; subst hf; exact ⟨trivial, by simp⟩
        · exact absurd hf (by simp)) b2 (b3.trans a3)
    (by
      intro _
      refine ⟨rfl, rfl, fun hm => ?_⟩
      have hm : NF.mark ∈ (tailFields v).tail ++ optSig 0x2e est := hm
      rcases List.mem_append.mp hm with hm | hm
      · exact (tailFields_mem hm).2.2.2 rfl
      · unfold optSig at hm
        split at hm <;> simp at hm)
    (by simp)
  refine ⟨s3, ?_, by simpa using c2, ?_, ?_⟩
  · have : encodeFields (bytesOf v.bodies.head).length (.iname n need :: midFields v)
        { wire := alloc (wirePlan 0 (.iname n need :: midFields v ++ (tailFields v ++ optSig 0x2e est))) } = .ok s2 := by
      show Res.bind _ _ = _
      rw [a1]; exact b1
    rw [this]; exact c1
  · rw [c3, b4, a4]; simp
  · rw [c4, b5, a5]

/-- an Interest without parameters -/
theorem interest_plain {v : InterestV} {n : Name} (hn : v.name = some n) (ha : v.appParam = none) (hs : v.sigInfo = none) (need : Bool) :
    ∃ w s, packetEncode 5 (interestFields v need 0) = .ok (w, s) ∧ w.flatten = tlv 5 (bytesOf v.bodies.head) := by
  obtain ⟨s, h1, h2, _⟩ := interest_run hn need 0
  have ht : tailFields v = [.mark] := by rw [tailFields, ha, hs]; rfl
  have hH : bytesOf v.bodies.head ≠ [] := by
    rw [head_bytes v n hn, tlv]
    intro h
    exact tlEnc_ne 7 (List.append_eq_nil_iff.mp (List.append_eq_nil_iff.mp (List.append_eq_nil_iff.mp h).1).1).1
  have hw : s.wire = [bytesOf v.bodies.head] := by
    rw [h2, ht, optSig_zero]
    show chunks (bytesOf v.bodies.head ++ []) [] = _
    rw [List.append_nil, chunks, if_neg hH]
  have hlen : encLength (interestFields v need 0) = (bytesOf v.bodies.head).length := by
    rw [interestFields_eq' hn, encLength_append, headFields_length hn, ht, optSig_zero]; rfl
  refine ⟨_, s, packetEncode_eq (by rw [hlen]; exact List.length_pos_iff.mpr hH) h1 (by rw [hw]; simp), ?_⟩
  rw [before_flatten (by rw [hw]; simp), hw, hlen]
  simp [tlv]

/-- an Interest with parameters and no signature value -/
theorem interest_params {v : InterestV} {n : Name} (hn : v.name = some n) {a : Wire} (ha : v.appParam = some a) (need : Bool) :
    ∃ s bs, packetEncode 5 (interestFields v need 0) = .ok ((tlEnc 5 ++ tlEnc ((bytesOf v.bodies.head).length + (bytesOf v.bodies.params).length) ++
        (bytesOf v.bodies.head ++ (tlEnc 0x24 ++ tlEnc a.flatten.length))) :: bs, s) ∧
      (tlEnc 0x24 ++ tlEnc a.flatten.length) ++ bs.flatten = bytesOf v.bodies.params ∧ s.namePos = if n = [] then 0 else lastPos n := by
  obtain ⟨s, h1, h2, _, h3⟩ := interest_run hn need 0
  rw [optSig_zero, List.append_nil] at h2
  have hw : s.wire = (bytesOf v.bodies.head ++ (tlEnc 0x24 ++ tlEnc a.flatten.length)) :: (a ++ chunks [] (optElem 0x2c (.struct signatureInfo) v.sigInfo)) := by
    rw [h2, tailFields, ha]
    show (bytesOf v.bodies.head ++ [] ++ _) :: _ = _
    rw [List.append_nil]; rfl
  have hfl := chunks_flatten (fun f hf => (tailFields_nsig v f hf).2) (bytesOf v.bodies.head)
  rw [← h2, hw, tailFields_bytes, List.flatten_cons, List.append_assoc] at hfl
  have hfl := List.append_cancel_left hfl
  have hlen : encLength (interestFields v need 0) = (bytesOf v.bodies.head).length + (bytesOf v.bodies.params).length := by
    rw [interestFields_eq' hn, encLength_append, headFields_length hn, optSig_zero, List.append_nil, encLength_eq (tailFields_nsig v), tailFields_bytes]
  have hpos : 0 < (bytesOf v.bodies.params).length := by
    rw [← hfl, List.length_append, List.length_append, tlEnc_length]
    have := tlLen_pos 0x24
    omega
  refine ⟨s, _, (packetEncode_eq (by rw [hlen]; omega) h1 (by rw [hw]; simp)).trans ?_, hfl, h3⟩
  rw [hw, hlen]; rfl

/-- an Interest with parameters and a signature value: the signature value is put in -/
theorem interest_signed {v : InterestV} {n : Name} (hn : v.name = some n) {a : Wire} (ha : v.appParam = some a) (need : Bool) {est : Nat}
    (he : 0 < est) (h252 : est ≤ 252) :
    ∃ s w i, packetEncode 5 (interestFields v need est) = .ok (w, s) ∧ sigIdx 0 (interestFields v need est) = some i ∧
      (s.namePos = if n = [] then 0 else lastPos n) ∧
      s.covered.flatten = Name.encBody (if need then n.dropLast else n) ++ bytesOf v.bodies.params ∧
      ∀ sig : Bytes, sig.length ≤ est → ∃ bs, patchSig w i sig = .ok ((tlEnc 5 ++ tlEnc ((bytesOf v.bodies.head).length +
          (bytesOf v.bodies.params ++ tlv 0x2e sig).length + (est - sig.length)) ++
          (bytesOf v.bodies.head ++ (tlEnc 0x24 ++ tlEnc a.flatten.length))) :: bs) ∧
        (tlEnc 0x24 ++ tlEnc a.flatten.length) ++ bs.flatten = bytesOf v.bodies.params ++ tlv 0x2e sig := by
  obtain ⟨s, h1, h2, hc, h3⟩ := interest_run hn need est
  rw [optSig_pos he] at h2 hc
  have hns := fun f hf => (tailFields_nsig v f hf).2
  rw [coverOf_sig hns, List.drop_left, tailFields_bytes] at hc
  obtain ⟨X, last, g1, g2, g3⟩ := chunks_sig (fs := optElem 0x2c (.struct signatureInfo) v.sigInfo)
    (by intro f hf t e; obtain ⟨x, rfl⟩ := mem_optElem hf; simp) 0x2e est []
  have hw : s.wire = ((bytesOf v.bodies.head ++ (tlEnc 0x24 ++ tlEnc a.flatten.length)) :: (a ++ X)) ++ [last ++ (tlEnc 0x2e ++ tlEnc est), []] := by
    rw [h2, tailFields, ha]
    show (bytesOf v.bodies.head ++ [] ++ _) :: (a ++ chunks [] (optElem 0x2c (.struct signatureInfo) v.sigInfo ++ [.sig 0x2e est])) = _
    rw [List.append_nil, g1]; simp
  have hlen : encLength (interestFields v need est) = (bytesOf v.bodies.head).length + (bytesOf v.bodies.params).length + tlvLen 0x2e est := by
    rw [interestFields_eq' hn, encLength_append, headFields_length hn, optSig_pos he, encLength_append, encLength_eq (tailFields_nsig v), tailFields_bytes]
    simp [encLength, NF.len]; omega
  have hidx : sigIdx 0 (interestFields v need est) = some (((bytesOf v.bodies.head ++ (tlEnc 0x24 ++ tlEnc a.flatten.length)) :: (a ++ X)).length + 1) := by
    have skip : ∀ (fs gs : List NF), (∀ f ∈ fs, f.Plain) → sigIdx 0 (fs ++ gs) = sigIdx 0 gs := by
      intro fs gs hf
      induction fs with
      | nil => rfl
      | cons f fs ih =>
        have hp := hf f (by simp)
        rw [List.cons_append, ← ih fun g hg => hf g (by simp [hg])]
        cases f <;> first | rfl | exact absurd hp id
    rw [interestFields_eq' hn, skip, tailFields, ha, optSig_pos he]
    · show sigIdx (0 + 1 + a.length) (optElem 0x2c (.struct signatureInfo) v.sigInfo ++ [.sig 0x2e est]) = _
      rw [g3]; simp; omega
    · intro f hf
      rcases List.mem_cons.mp hf with rfl | hf
      · trivial
      · exact (midFields_mem hf).1
  refine ⟨s, _, _, packetEncode_eq (by rw [hlen]; simp [tlvLen]; omega) h1 (by rw [hw]; simp), hidx, h3, hc, ?_⟩
  intro sig hle
  rw [hw, patchSig_eq _ _ _ _ _ _ hle (.inl h252), hlen]
  have hx : (tlEnc 0x24 ++ tlEnc a.flatten.length) ++ (a ++ X ++ [last ++ (tlEnc 0x2e ++ tlEnc sig.length), sig]).flatten =
      bytesOf v.bodies.params ++ tlv 0x2e sig := by
    rw [params_bytes, ha]
    simp only [List.flatten_append, List.flatten_cons, List.flatten_nil, List.append_nil]
    rw [show a.flatten ++ X.flatten ++ (last ++ (tlEnc 0x2e ++ tlEnc sig.length) ++ sig) = a.flatten ++ ((X.flatten ++ last) ++ tlv 0x2e sig) by simp [tlv], g2]
    simp [fieldBytes, optWire, NF.bytes, tlv]
  refine ⟨_, ?_, hx⟩
  have hel : tlLen est = tlLen sig.length := by rw [tlLen, tlLen, if_pos (by omega), if_pos (by omega)]
  rw [show (bytesOf v.bodies.head).length + (bytesOf v.bodies.params).length + tlvLen 0x2e est =
    (bytesOf v.bodies.head).length + (bytesOf v.bodies.params ++ tlv 0x2e sig).length + (est - sig.length) by
      rw [List.length_append, tlv_length, tlvLen, hel]; omega]
  rfl

/-- the bytes of a name that ends in a digest, up to the digest -/
def upToDigest (n0 : Name) : Bytes :=
  tlEnc 7 ++ tlEnc ((Name.encBody n0).length + 34) ++ Name.encBody n0 ++ [2, 32]

theorem tlv_digest {n0 : Name} {d : Bytes} (h : d.length = 32) : tlv 7 (Name.encBody (n0 ++ [⟨2, d⟩])) = upToDigest n0 ++ d := by
  have e : Component.enc ⟨2, d⟩ = [2, 32] ++ d := by
    simp only [Component.enc, h]; rfl
  rw [tlv, encBody_concat, e, List.length_append, List.length_append, h]
  simp [upToDigest]

theorem lastPos_digest {n0 : Name} {d : Bytes} (h : d.length = 32) : lastPos (n0 ++ [⟨2, d⟩]) = (upToDigest n0).length := by
  have e : Component.enc ⟨2, d⟩ = [2, 32] ++ d := by
    simp only [Component.enc, h]; rfl
  have e2 : ([2, 32] ++ d).length = 34 := by rw [List.length_append, h]; rfl
  rw [lastPos, List.dropLast_concat, encBody_concat, e, List.length_append (as := Name.encBody n0), e2]
  simp [upToDigest]; omega

theorem digestInterest_eq {sha : Bytes → Bytes} (hsha : ∀ b, (sha b).length = 32) {name n0 : Name} (hi : interestName true name = n0 ++ [⟨2, List.replicate 32 0⟩])
    {a : Wire} {L : Nat} (hL : L < 2 ^ 64) {M T P : Bytes} {bs : Wire} (hT : T = tlEnc 0x24 ++ tlEnc a.flatten.length) (hP : T ++ bs.flatten = P) :
    digestInterest sha name (some a) (lastPos (n0 ++ [⟨2, List.replicate 32 0⟩]))
      ((tlEnc 5 ++ tlEnc L ++ (tlv 7 (Name.encBody (n0 ++ [⟨2, List.replicate 32 0⟩])) ++ M ++ T)) :: bs) =
    .ok ((tlEnc 5 ++ tlEnc L ++ (tlv 7 (Name.encBody (n0 ++ [⟨2, sha P⟩])) ++ M ++ T)) :: bs, n0 ++ [⟨2, sha P⟩]) := by
  have hz : (List.replicate 32 (0 : UInt8)).length = 32 := List.length_replicate
  rw [lastPos_digest hz, tlv_digest hz, tlv_digest (hsha P)]
  have hTl : T.length = tlLen (Wire.byteLen a) + 1 := by
    rw [hT, List.length_append, tlEnc_length, tlEnc_length, byteLen_flatten]
    show 1 + _ = _; omega
  have p1 : ∀ x : Bytes, parseTL (tlEnc 5 ++ tlEnc L ++ x) = .ok (5, tlLen 5) := by
    intro x; rw [List.append_assoc]; exact parseTL_tlEnc (by decide) _
  have p2 : ∀ x : Bytes, parseTL ((tlEnc 5 ++ tlEnc L ++ x).drop (tlLen 5)) = .ok (L, tlLen L) := by
    intro x; rw [List.append_assoc, List.drop_left' (tlEnc_length _)]; exact parseTL_tlEnc hL _
  have hhd : (tlEnc 5 ++ tlEnc L).length = tlLen 5 + tlLen L := by rw [List.length_append, tlEnc_length, tlEnc_length]
  unfold digestInterest putDigest
  simp only [p1, p2, Res.bind]
  rw [if_pos (by simp only [List.length_append, hz, tlEnc_length, hTl]; omega)]
  have hdrop : (tlEnc 5 ++ tlEnc L ++ (upToDigest n0 ++ List.replicate 32 0 ++ M ++ T)).drop
      ((tlEnc 5 ++ tlEnc L ++ (upToDigest n0 ++ List.replicate 32 0 ++ M ++ T)).length - tlLen (Wire.byteLen a) - 1) = T := by
    rw [← List.append_assoc (tlEnc 5 ++ tlEnc L)]
    exact List.drop_left' (by simp only [List.length_append, hTl]; omega)
  have htake : (sha P).take 32 = sha P := List.take_of_length_le (by rw [hsha]; omega)
  rw [hdrop, hP, htake]
  have hsp : splice (tlEnc 5 ++ tlEnc L ++ (upToDigest n0 ++ List.replicate 32 0 ++ M ++ T)) ((upToDigest n0).length + (tlLen 5 + tlLen L)) (sha P) =
      tlEnc 5 ++ tlEnc L ++ (upToDigest n0 ++ sha P ++ M ++ T) := by
    unfold splice
    rw [hsha]
    rw [show tlEnc 5 ++ tlEnc L ++ (upToDigest n0 ++ List.replicate 32 0 ++ M ++ T) =
      (tlEnc 5 ++ tlEnc L ++ upToDigest n0) ++ (List.replicate 32 0 ++ (M ++ T)) by simp]
    rw [List.take_left' (by rw [List.length_append, hhd]; omega)]
    rw [show (tlEnc 5 ++ tlEnc L ++ upToDigest n0) ++ (List.replicate 32 0 ++ (M ++ T)) =
      ((tlEnc 5 ++ tlEnc L ++ upToDigest n0) ++ List.replicate 32 0) ++ (M ++ T) by simp]
    rw [List.drop_left' (by rw [List.length_append, List.length_append, hhd, hz]; omega)]
    simp
  rw [hsp]
  unfold finalNameOf
  simp only [hi, List.getLast?_append, List.getLast?_singleton, Option.some_or, p1, p2, Res.bind, List.dropLast_concat]
  rw [sliceOf_ok (by omega) (by simp only [List.length_append, hsha, tlEnc_length]; omega)]
  have : ((tlEnc 5 ++ tlEnc L ++ (upToDigest n0 ++ sha P ++ M ++ T)).take ((upToDigest n0).length + (tlLen 5 + tlLen L) + 32)).drop
      ((upToDigest n0).length + (tlLen 5 + tlLen L)) = sha P := by
    rw [show tlEnc 5 ++ tlEnc L ++ (upToDigest n0 ++ sha P ++ M ++ T) =
      ((tlEnc 5 ++ tlEnc L ++ upToDigest n0) ++ sha P) ++ (M ++ T) by simp]
    rw [List.take_left' (by rw [List.length_append, List.length_append, hhd, hsha]; omega)]
    exact List.drop_left' (by rw [List.length_append, hhd]; omega)
  rw [this]
  rfl

theorem splice_length {b x : Bytes} {i : Nat} (h : i + x.length ≤ b.length) : (splice b i x).length = b.length := by
  unfold splice; simp; omega

theorem digestInterest_size {sha : Bytes → Bytes} (hsha : ∀ b, (sha b).length = 32) {name : Name} {a : Option Wire} {pos : Nat} {w w' : Wire} {fn : Name}
    (h : digestInterest sha name a pos w = .ok (w', fn)) : w'.flatten.length = w.flatten.length := by
  unfold digestInterest at h
  cases a with
  | none => injection h with h; injection h with h1 _; rw [h1]
  | some a =>
    simp only at h
    cases hp : putDigest sha w pos (tlLen (Wire.byteLen a)) with
    | err x => rw [hp] at h; exact (nomatch h)
    | panic => rw [hp] at h; exact (nomatch h)
    | ok w1 =>
      rw [hp] at h
      simp only [Res.bind] at h
      have e : w1 = w' := by
        cases hf : finalNameOf (interestName true name) w1 pos with
        | err x => rw [hf] at h; exact (nomatch h)
        | panic => rw [hf] at h; exact (nomatch h)
        | ok n => rw [hf] at h; injection h with h; injection h
      subst e
      unfold putDigest at hp
      cases w with
      | nil => exact (nomatch hp)
      | cons b bs =>
        simp only at hp
        cases h1 : parseTL b with
        | err x => rw [h1] at hp; exact (nomatch hp)
        | panic => rw [h1] at hp; exact (nomatch hp)
        | ok q1 =>
          obtain ⟨x1, s1⟩ := q1
          rw [h1] at hp
          simp only [Res.bind] at hp
          cases h2 : parseTL (b.drop s1) with
          | err x => rw [h2] at hp; exact (nomatch hp)
          | panic => rw [h2] at hp; exact (nomatch hp)
          | ok q2 =>
            obtain ⟨x2, s2⟩ := q2
            rw [h2] at hp
            simp only at hp
            by_cases hc : pos + (s1 + s2) + 32 ≤ b.length ∧ tlLen (Wire.byteLen a) + 1 ≤ b.length
            · rw [if_pos hc] at hp
              injection hp with hp
              subst hp
              simp only [List.flatten_cons, List.length_append]
              rw [splice_length (by rw [List.length_take, hsha]; omega)]
            · rw [if_neg hc] at hp; exact (nomatch hp)

/-- the digest is put in and the length is corrected -/
theorem finish_eq {sha : Bytes → Bytes} (hsha : ∀ b, (sha b).length = 32) {name n0 : Name} (hi : interestName true name = n0 ++ [⟨2, List.replicate 32 0⟩])
    {a : Wire} {k : Nat} (hk : k ≤ 252) {M T P : Bytes} {bs w2 w3 : Wire} {fn : Name} (hT : T = tlEnc 0x24 ++ tlEnc a.flatten.length)
    (hP : T ++ bs.flatten = P) {H : Bytes} (hH : H = tlv 7 (Name.encBody (n0 ++ [⟨2, List.replicate 32 0⟩])) ++ M)
    (hd : digestInterest sha name (some a) (lastPos (n0 ++ [⟨2, List.replicate 32 0⟩]))
      ((tlEnc 5 ++ tlEnc (H.length + P.length + k) ++ (H ++ T)) :: bs) = .ok (w2, fn))
    (hs : (if k > 0 then shrinkHead w2 k else .ok w2) = .ok w3) (hl : w3.flatten.length < 2 ^ 63) :
    w3.flatten = tlv 5 (tlv 7 (Name.encBody (n0 ++ [⟨2, sha P⟩])) ++ M ++ P) ∧ fn = n0 ++ [⟨2, sha P⟩] := by
  have hz : w2.flatten.length ≤ w3.flatten.length + 9 := by
    by_cases hk0 : k > 0
    · rw [if_pos hk0] at hs; exact shrinkHead_size hs
    · rw [if_neg hk0] at hs; injection hs with hs; rw [hs]; omega
  have hz2 := digestInterest_size hsha hd
  have hL : H.length + P.length + k < 2 ^ 64 := by
    rw [← hP]
    simp only [List.flatten_cons, List.length_append] at hz2 ⊢
    omega
  have hlen : H.length + P.length = (tlv 7 (Name.encBody (n0 ++ [⟨2, sha P⟩])) ++ M ++ P).length := by
    rw [hH, List.length_append, List.length_append, List.length_append, tlv_digest (hsha P), tlv_digest List.length_replicate,
      List.length_append, List.length_append, hsha, List.length_replicate]
  have key := hd
  rw [hH] at key
  rw [digestInterest_eq hsha hi (by rw [← hH]; exact hL) hT hP] at key
  rw [← hH] at key
  injection key with key
  injection key with k1 k2
  refine ⟨?_, k2.symm⟩
  subst k1
  have hshr : (if k > 0 then shrinkHead (before (tlEnc 5 ++ tlEnc (H.length + P.length + k))
      ((tlv 7 (Name.encBody (n0 ++ [⟨2, sha P⟩])) ++ M ++ T) :: bs)) k else
      .ok (before (tlEnc 5 ++ tlEnc (H.length + P.length + k)) ((tlv 7 (Name.encBody (n0 ++ [⟨2, sha P⟩])) ++ M ++ T) :: bs))) =
      .ok (before (tlEnc 5 ++ tlEnc (H.length + P.length)) ((tlv 7 (Name.encBody (n0 ++ [⟨2, sha P⟩])) ++ M ++ T) :: bs)) := by
    by_cases hk0 : k > 0
    · rw [if_pos hk0, shrinkHead_eq (by decide) hL (by omega) (by simp), Nat.add_sub_cancel]
    · rw [if_neg hk0, show k = 0 by omega, Nat.add_zero]
  have := hs.symm.trans hshr
  injection this with this
  obtain ⟨N, hN⟩ : ∃ N, N = tlv 7 (Name.encBody (n0 ++ [⟨2, sha P⟩])) ++ M := ⟨_, rfl⟩
  rw [this, before_flatten (by simp), hlen, ← hN, tlv]
  simp only [List.flatten_cons]
  rw [List.append_assoc N T, hP]

end Ndn.Packet
