import Verif.Engine.Mgmt
import Verif.Engine.PitProps
import Verif.Packet.MakeInterestProps
import Verif.Codec.Props
import Verif.Enc.NameProps

/-! # C69: management commands -/

namespace Ndn.Engine
open Ndn.Codec Ndn.Codec.Schema Ndn.Packet

/-! ## The command -/

theorem cmdName_strip (isLocal : Bool) (mod cmd params : Bytes) : stripDigest (cmdName isLocal mod cmd params) = cmdName isLocal mod cmd params := by
  have h : cmdName isLocal mod cmd params = (cmdName isLocal mod cmd params).dropLast ++ [⟨8, params⟩] := rfl
  rw [h, stripDigest_concat, if_neg (show ¬ (8 : Nat) = 2 by decide)]

theorem cmdName_small {isLocal : Bool} {mod cmd params : Bytes} (h1 : mod.length ≤ 252) (h2 : cmd.length ≤ 252) (h3 : params.length ≤ 252) :
    ∀ c ∈ cmdName isLocal mod cmd params, c.Small := by
  intro c hc
  simp only [cmdName, List.mem_cons, List.not_mem_nil, or_false] at hc
  rcases hc with rfl | rfl | rfl | rfl | rfl
  · cases isLocal <;> exact ⟨by decide, by decide⟩
  · exact ⟨by decide, by decide⟩
  · exact ⟨show (8 : Nat) < 2 ^ 64 by decide, h1⟩
  · exact ⟨show (8 : Nat) < 2 ^ 64 by decide, h2⟩
  · exact ⟨show (8 : Nat) < 2 ^ 64 by decide, h3⟩

theorem makeCmd_eq {sha : Bytes → Bytes} {isLocal : Bool} {signer : Signer} {mod cmd p : Bytes} {args : Option controlArgs.V} {config : InterestConfig}
    (h : controlParameters.encode (args, ()) = .ok p) : makeCmd sha isLocal signer mod cmd args config =
      makeInterest sha (some (cmdName isLocal mod cmd p)) (some config) (some []) (some signer) :=
  congrArg (fun r : Res Bytes => r.bind fun params =>
    makeInterest sha (some (cmdName isLocal mod cmd params)) (some config) (some []) (some signer)) h

/-- C69, the command: what the forwarder reads is the name /localhost (or /localhop)/nfd/module/command/parameters and a digest, with the lifetime and
the nonce; the last component before the digest parses to the arguments; and the signature is the signer's over what the forwarder takes
to be covered.  Missing: parameters of more than 252 bytes, for which it is false (`C69_long_violated`). -/
theorem C69_command_partial (sha : Bytes → Bytes) (hsha : ∀ b, (sha b).length = 32) (isLocal : Bool) (c : SigConfig) (est : Nat) (sign : Wire → Option Bytes)
    (mod cmd : Bytes) (args : controlArgs.V) (nonce : Nat) (e : Encoded)
    (h : makeCmd sha isLocal ⟨some (some c), est, sign⟩ mod cmd (some args) (execConfig nonce) = .ok e)
    (ha : controlArgs.InRange args) (hp : (controlParameters.enc (some args, ())).length ≤ 252) (hmod : mod.length ≤ 252) (hcmd : cmd.length ≤ 252)
    (hn : nonce < 2 ^ 32) (hc : c.typ ≠ signatureNone) (hest : est ≠ 0) (hkey : ∀ n, c.keyName = some n → ∀ x ∈ n, x.Small)
    (hty : -2 ^ 63 ≤ c.typ ∧ c.typ < 2 ^ 63) (htime : ∀ t, c.sigTime = some t → 0 ≤ t ∧ t < 2 ^ 63) (hseq : ∀ x, c.seqNum = some x → x < 2 ^ 64)
    (hl : e.wire.flatten.length < 2 ^ 43) (F : Nat) (hF : e.wire.flatten.length < F) :
    ∃ v cov params d sig, readInterest sha F (BR.new e.wire.flatten) = some (.ok (.ok (v, cov))) ∧
      v.name = some (cmdName isLocal mod cmd params ++ [⟨2, d⟩]) ∧ d.length = 32 ∧
      (∀ (ic : Bool) (fuel : Nat), params.length < fuel → ∃ r, controlParameters.parse ic fuel (BR.new params) = some (.ok (some args, ()), r)) ∧
      v.lifetime = some 1000000000 ∧ v.nonce = some nonce ∧ v.mustBeFresh = false ∧ v.canBePrefix = false ∧
      sign e.covered = some sig ∧ v.sigValue = some [sig] ∧ cov.flatten = e.covered.flatten := by
  obtain ⟨params, hb, hparse⟩ := C19_codec_roundtrip_partial controlParameters controlParameters_wf (some args, ()) ⟨ha, trivial⟩ (by omega)
  have hbe := (Fields.encode_eq controlParameters (some args, ()) (Fields.WF.widths _ controlParameters_wf)).symm.trans hb
  injection hbe with hbe
  have h := (makeCmd_eq hb).symm.trans h
  have hsc : signerConfig (some ⟨some (some c), est, sign⟩) = some c := if_neg hc
  obtain ⟨v, cov, h1, h2, h3, h4, h5, -, h7, h8, -, -, -, h12⟩ := C28_interest_round_trip_partial sha hsha _ _ _ _ e h
    (cmdName_small hmod hcmd (by rw [← hbe]; exact hp)) (fun ns hns => nomatch hns) (fun x hx => by injection hx with hx; omega)
    (fun d hd => by injection hd with hd; exact ⟨1000, by omega, by omega⟩) (fun x hx => nomatch hx)
    (fun c' n hc' => by rw [hsc] at hc'; injection hc' with hc'; subst hc'; exact hkey n)
    (fun c' hc' => by rw [hsc] at hc'; injection hc' with hc'; subst hc'; exact hty)
    (fun c' t hc' => by rw [hsc] at hc'; injection hc' with hc'; subst hc'; exact htime t)
    (fun c' x hc' => by rw [hsc] at hc'; injection hc' with hc'; subst hc'; exact hseq x) hl F hF
  simp only [Option.isSome_some, if_true, cmdName_strip] at h3
  obtain ⟨d, h3, hd⟩ := h3
  obtain ⟨-, -, -, -, -, h12⟩ := h12 c hsc
  have h12 := h12 _ rfl
  rw [if_neg hest] at h12
  obtain ⟨sig, g1, g2, g3⟩ := h12
  exact ⟨v, cov, params, d, sig, h1, h3 ▸ h2, hd, hparse, h8, h7, h5, h4, g1, g2, g3⟩

/-- C69 fails for long arguments, such as the route of a long prefix: the Interest is made, but the component with the parameters is written in
a form that the decoder of components does not take back. -/
theorem C69_long_violated (sha : Bytes → Bytes) (hsha : ∀ b, (sha b).length = 32) (isLocal : Bool) (signer : Signer) (nonce : Nat) (n : Name) (e : Encoded)
    (h : registerCmd sha isLocal signer nonce n = .ok e) (hn : 252 < (Name.encBody n).length) (hl : e.wire.flatten.length < 2 ^ 43) :
    ∃ c ∈ e.finalName, componentFromBytes c.enc ≠ .ok c ∧ ∃ rest, e.wire.flatten = tlv 5 (tlv 7 (Name.encBody e.finalName) ++ rest) := by
  have hb := Fields.encode_eq controlParameters (some (routeArgs n), ()) (Fields.WF.widths _ controlParameters_wf)
  have h := (makeCmd_eq hb).symm.trans h
  have hlong : 252 < (controlParameters.enc (some (routeArgs n), ())).length := by
    have e1 : controlParameters.enc (some (routeArgs n), ()) = tlv 0x68 (tlv 7 (Name.encBody n)) := by
      show (tlv 0x68 (tlv 7 (Name.encBody n) :: []).flatten :: []).flatten = _
      simp
    rw [e1, tlv_length, tlv_length]; omega
  generalize controlParameters.enc (some (routeArgs n), ()) = p at h hlong
  obtain ⟨si, est, -, sv, hw, -, hfn, -⟩ := makeInterest_shape hsha h hl
  simp only [Option.isSome_some, if_true, cmdName_strip] at hfn
  obtain ⟨d, hfn, -⟩ := hfn
  have hbody : ∃ rest, e.wire.flatten = tlv 5 (tlv 7 (Name.encBody e.finalName) ++ rest) := by
    rw [hw]
    refine ⟨bytesOf ((made e.finalName (execConfig nonce) (some []) si sv).bodies.items.drop 1), ?_⟩
    rfl
  refine ⟨⟨8, p⟩, by rw [hfn]; simp [cmdName], C09_long_value_violated _ (show (8 : Nat) < 2 ^ 64 by decide) hlong ?_, hbody⟩
  obtain ⟨rest, hbody⟩ := hbody
  rw [hbody, tlv_length, List.length_append, tlv_length, hfn] at hl
  have : (Name.encBody (cmdName isLocal (ascii ['r', 'i', 'b']) (ascii ['r', 'e', 'g', 'i', 's', 't', 'e', 'r']) p ++ [⟨2, d⟩])).length ≥
      (Component.enc ⟨8, p⟩).length := by
    simp only [cmdName, List.cons_append, List.nil_append, Name.encBody, List.length_append]
    omega
  rw [Component.enc_length] at this
  omega

/-- a digest signer for examples -/
def plainSigner : Signer := ⟨some (some { typ := 0 }), 32, fun _ => some [1, 2]⟩

theorem registers (n : Name) (hn : (Name.encBody n).length < 300) :
    ∃ e, registerCmd sha32 true plainSigner 17 n = .ok e ∧ e.wire.flatten.length < 2 ^ 43 := by
  have hb := Fields.encode_eq controlParameters (some (routeArgs n), ()) (Fields.WF.widths _ controlParameters_wf)
  have e1 : controlParameters.enc (some (routeArgs n), ()) = tlv 0x68 (tlv 7 (Name.encBody n)) := by
    show (tlv 0x68 (tlv 7 (Name.encBody n) :: []).flatten :: []).flatten = _
    simp
  rw [e1] at hb
  have hp : (tlv 0x68 (tlv 7 (Name.encBody n))).length < 400 := by
    rw [tlv_length, tlv_length]
    have := tlLen_le 0x68
    have := tlLen_le 7
    have := tlLen_le (Name.encBody n).length
    have := tlLen_le (tlLen 7 + (tlLen (Name.encBody n).length + (Name.encBody n).length))
    omega
  generalize tlv 0x68 (tlv 7 (Name.encBody n)) = p at hb hp
  have key := makeInterest_ok (sha := sha32) (fun _ => List.length_replicate) (name := cmdName true (ascii ['r', 'i', 'b']) (ascii ['r', 'e', 'g', 'i', 's', 't', 'e', 'r']) p)
    (config := execConfig 17) (a := []) (signer := some plainSigner)
    (si := some (mkSigInfo 0 none none none none none)) (est := 32) rfl rfl (fun _ => rfl) (by omega) (sig := [1, 2]) (by decide) (by
      rw [head_bytes (interestOf _ (execConfig 17) (some []) _) (cmdName true (ascii ['r', 'i', 'b']) (ascii ['r', 'e', 'g', 'i', 's', 't', 'e', 'r']) p ++ [⟨2, List.replicate 32 0⟩]) rfl,
        List.length_append, tlv_length]
      have h1 : (Name.encBody (cmdName true (ascii ['r', 'i', 'b']) (ascii ['r', 'e', 'g', 'i', 's', 't', 'e', 'r']) p ++ [⟨2, List.replicate 32 0⟩])).length < 1000 := by
        have hn9 : ∀ x, natLen x ≤ 9 := by
          intro x
          by_cases hx : x ≤ 0xfc
          · rw [natLen_eq_tlLen hx]; exact tlLen_le x
          · have := natLen_lt_tlLen (x := x) (by omega); have := tlLen_le x; omega
        have hc : ∀ (t : Nat) (v : Bytes), v.length < 400 → (Component.enc ⟨t, v⟩).length ≤ v.length + 18 := by
          intro t v hv
          simp only [Component.enc, List.length_append, tlEnc_length, natEnc_length]
          have := tlLen_le t
          have := hn9 v.length
          omega
        have h1 := hc 8 (ascii ['l', 'o', 'c', 'a', 'l', 'h', 'o', 's', 't']) (by decide)
        have h2 := hc 8 (ascii ['n', 'f', 'd']) (by decide)
        have h3 := hc 8 (ascii ['r', 'i', 'b']) (by decide)
        have h4 := hc 8 (ascii ['r', 'e', 'g', 'i', 's', 't', 'e', 'r']) (by decide)
        have h5 := hc 8 p hp
        have h6 := hc 2 (List.replicate 32 0) (by decide)
        simp only [ascii, List.length_map, List.length_cons, List.length_nil, List.length_replicate] at h1 h2 h3 h4 h6
        simp only [cmdName, if_true, List.cons_append, List.nil_append, Name.encBody, List.length_append, List.length_nil]
        simp only [ascii]
        omega
      have := tlLen_le 7
      have := tlLen_le (Name.encBody (cmdName true (ascii ['r', 'i', 'b']) (ascii ['r', 'e', 'g', 'i', 's', 't', 'e', 'r']) p ++ [⟨2, List.replicate 32 0⟩])).length
      have h2 : (fieldBytes (midFields (interestOf (cmdName true (ascii ['r', 'i', 'b']) (ascii ['r', 'e', 'g', 'i', 's', 't', 'e', 'r']) p) (execConfig 17) (some [])
        (some (mkSigInfo 0 none none none none none))))).length < 100 :=
        (by decide : (fieldBytes (midFields (interestOf [] (execConfig 17) (some []) (some (mkSigInfo 0 none none none none none))))).length < 100)
      have h3 : (bytesOf (interestOf (cmdName true (ascii ['r', 'i', 'b']) (ascii ['r', 'e', 'g', 'i', 's', 't', 'e', 'r']) p) (execConfig 17) (some [])
        (some (mkSigInfo 0 none none none none none))).bodies.params).length < 100 :=
        (by decide : (bytesOf (interestOf [] (execConfig 17) (some []) (some (mkSigInfo 0 none none none none none))).bodies.params).length < 100)
      omega)
  obtain ⟨e, h1, h2⟩ := key
  exact ⟨e, (makeCmd_eq hb).trans h1, h2⟩

/-- the hypotheses are met by the route of a short and of a long name -/
example : (∃ e, registerCmd sha32 true plainSigner 17 [⟨8, [65]⟩] = .ok e ∧ e.wire.flatten.length < 2 ^ 43) ∧
    controlArgs.InRange (routeArgs [⟨8, [65]⟩]) ∧ (controlParameters.enc (some (routeArgs [⟨8, [65]⟩]), ())).length ≤ 252 ∧
    (∃ e, registerCmd sha32 true plainSigner 17 [⟨8, List.replicate 251 65⟩] = .ok e ∧ e.wire.flatten.length < 2 ^ 43) ∧
    252 < (Name.encBody [⟨8, List.replicate 251 65⟩]).length := by
  have hL : (Name.encBody [⟨8, List.replicate 251 65⟩]).length < 300 ∧ 252 < (Name.encBody [⟨8, List.replicate 251 65⟩]).length := by
    simp only [Name.encBody, Component.enc, List.length_append, tlEnc_length, natEnc_length, List.length_replicate, List.length_nil]
    have := tlLen_le 8
    have := natLen_lt_tlLen (x := 251)
    decide
  refine ⟨registers _ (by decide), ?_, by decide, registers _ hL.1, hL.2⟩
  refine ⟨?_, trivial, trivial, trivial, trivial, trivial, trivial, trivial, trivial, trivial, trivial, trivial, trivial, trivial, trivial, trivial, trivial⟩
  show ∀ c ∈ ([⟨8, [65]⟩] : Name), c.Small
  simp [Component.Small]

/-! ## The response -/

/-- C69, the response: of any Data content that is a response with status code, text and arguments, in any order, possibly with elements that
the protocol does not know, the callback makes success exactly when the code is 200, and otherwise an error with that code and text. -/
theorem C69_response (r : controlResponseVal.V) (hr : controlResponseVal.InRange r) (own items : List Bytes)
    (ho : controlResponse.Own true (some r, ()) own) (hm : Mixed (Ignorable true controlResponse) own items)
    (hs : items.flatten.length < 2 ^ 43) (fuel : Nat) (hf : items.flatten.length < fuel) :
    cmdResponse fuel items.flatten = some (.ok (if (show Nat from r.1) = 200 then .success else .failed r.1 r.2.1)) := by
  obtain ⟨r', h⟩ := C21_unknown_ignored true controlResponse controlResponse_wf (some r, ()) ⟨hr, trivial⟩ own items ho hm hs fuel hf
  unfold cmdResponse
  rw [h]

/-- C69, the response: success is only ever reported for a Data that the checker accepted and whose content parses to a response with code 200. -/
theorem C69_success (fuel : Nat) (check : DataV → Wire → Bool) (o : Outcome) (h : cmdAnswer fuel check o = some (.ok .success)) :
    ∃ name raw v cov, o = .data name raw ∧ readData fuel (BR.new raw) = some (.ok (.ok (v, cov))) ∧ check v cov = true ∧
      ∃ (r : controlResponseVal.V) (p : BR), controlResponse.parse true fuel (BR.new (v.content.getD []).flatten) = some (.ok (some r, ()), p) ∧
        (show Nat from r.1) = 200 := by
  cases o with
  | nack r => injection h with h; injection h with h; cases h
  | timeout => injection h with h; injection h with h; cases h
  | data name raw =>
    unfold cmdAnswer at h
    simp only at h
    split at h
    · cases h
    · injection h with h; cases h
    · injection h with h; injection h with h; cases h
    · injection h with h; injection h with h; cases h
    · rename_i v cov hv
      split at h
      · rename_i hc
        refine ⟨name, raw, v, cov, rfl, hv, hc, ?_⟩
        unfold cmdResponse at h
        split at h
        · cases h
        · injection h with h; cases h
        · injection h with h; injection h with h; cases h
        · rename_i x p hp
          obtain ⟨x, ⟨⟩⟩ := x
          simp only at h
          split at h
          · injection h with h; injection h with h; cases h
          · rename_i r
            refine ⟨r, p, hp, ?_⟩
            · injection h with h; injection h with h
              split at h
              · assumption
              · cases h
      · injection h with h; injection h with h; cases h

/-- the hypotheses are met: "403 no" with an unknown element before the response -/
example : cmdResponse 20 [0x21, 1, 5, 0x65, 8, 0x66, 2, 1, 0x93, 0x67, 2, 110, 111] = some (.ok (.failed 403 [110, 111])) := by
  refine (C69_response ((403 : Nat), [110, 111], none, ()) ⟨show 403 < 2 ^ 64 by decide, trivial, trivial, trivial⟩ _ [[0x21, 1, 5], [0x65, 8, 0x66, 2, 1, 0x93, 0x67, 2, 110, 111]]
    (Fields.own_elems true controlResponse (some ((403 : Nat), [110, 111], none, ()), ())) ?_ (by decide) 20 (by decide)).trans rfl
  exact Mixed.insert _ ⟨0x21, [5], rfl, by decide, by decide, .inl rfl⟩ _ 0

/-! ## The exchange -/

/-- the states that can occur, with the callbacks so far -/
inductive Exec.Ok {M : Type} : Exec M → List M → Prop
  | idle (c : Caller M) (h : ∀ m, c ≠ .returned m) : Ok ⟨c, .free, false, false⟩ []
  | offer (c : Caller M) (h : ∀ m, c ≠ .returned m) (m : M) : Ok ⟨c, .offering m, false, false⟩ [m]
  | closing (m : M) : Ok ⟨.returned (some m), .closing, false, false⟩ [m]
  | done (m : M) : Ok ⟨.returned (some m), .free, true, false⟩ [m]
  | again (m m' : M) : Ok ⟨.returned (some m), .offering m', true, false⟩ [m, m']
  | dead (m m' : M) : Ok ⟨.returned (some m), .offering m', true, true⟩ [m, m']

theorem execAfter_ok {M : Type} (evs : List (ExecEv M)) : (execAfter evs).Ok (callsOf evs) := by
  induction evs with
  | nil => exact .idle _ (fun m h => nomatch h)
  | cons ev evs ih =>
    generalize hs : execAfter evs = s at ih
    generalize hc : callsOf evs = cs at ih
    have hcalls : callsOf (ev :: evs) = match ev with
        | .call m => match s.panicked, s.lock with
          | false, .free => cs ++ [m]
          | _, _ => cs
        | _ => cs := by
      subst hs hc; cases ev <;> rfl
    show ((execAfter evs).step ev).Ok _
    rw [hs, hcalls]
    cases ih with
    | idle c h =>
      cases ev with
      | sent ok =>
        cases c with
        | sending => cases ok <;> exact .idle _ (fun m h => by cases h)
        | waiting => exact .idle _ h
        | sendFailed => exact .idle _ h
        | returned m => exact absurd rfl (h m)
      | call m => exact .offer c h m
      | offer => exact .idle c h
      | recv => cases c <;> exact .idle _ h
      | close => exact .idle c h
    | offer c h m =>
      cases ev with
      | sent ok =>
        cases c with
        | sending => cases ok <;> exact .offer _ (fun m h => by cases h) m
        | waiting => exact .offer _ h m
        | sendFailed => exact .offer _ h m
        | returned m => exact absurd rfl (h m)
      | call m' => exact .offer c h m
      | offer =>
        cases c with
        | sending => exact .offer _ h m
        | waiting => exact .closing m
        | sendFailed => exact .offer _ h m
        | returned m => exact absurd rfl (h m)
      | recv => cases c <;> exact .offer _ h m
      | close => exact .offer c h m
    | closing m => cases ev <;> first | exact .closing m | exact .done m
    | done m => cases ev <;> first | exact .done m | exact .again _ _
    | again m m' => cases ev <;> first | exact .again m m' | exact .dead _ _
    | dead m m' => cases ev <;> exact .dead m m'

/-- C69: what `ExecMgmtCmd` returns, if `Express` succeeded, is what the first callback made of its outcome. -/
theorem C69_first_answer {M : Type} (evs : List (ExecEv M)) (r : Option M) (h : (execAfter evs).caller = .returned r) :
    ∃ m rest, callsOf evs = m :: rest ∧ r = some m := by
  have hok := execAfter_ok evs
  generalize execAfter evs = s at h hok
  generalize callsOf evs = cs at hok
  cases hok with
  | idle c hc => exact absurd h (hc r)
  | offer c hc m => exact absurd h (hc r)
  | closing m => injection h with h; exact ⟨m, [], rfl, h.symm⟩
  | done m => injection h with h; exact ⟨m, [], rfl, h.symm⟩
  | again m m' => injection h with h; exact ⟨m, [m'], rfl, h.symm⟩
  | dead m m' => injection h with h; exact ⟨m, [m'], rfl, h.symm⟩

/-- C69: with one callback and a face that sends, `ExecMgmtCmd` finishes from wherever it is: it returns the answer, the lock is free and nothing
has panicked.  Missing: a second callback and a failing face (below). -/
theorem C69_finishes_partial {M : Type} (evs : List (ExecEv M)) (m : M) (hc : callsOf evs = [m]) (hs : (execAfter evs).caller ≠ .sendFailed) :
    execAfter (.close :: .offer :: .sent true :: evs) = ⟨.returned (some m), .free, true, false⟩ := by
  have hok := execAfter_ok evs
  show (((execAfter evs).step (.sent true)).step .offer).step .close = _
  generalize execAfter evs = s at hs hok
  rw [hc] at hok
  cases hok with
  | offer c h =>
    cases c with
    | sending => rfl
    | waiting => rfl
    | sendFailed => exact absurd rfl hs
    | returned m => exact absurd rfl (h m)
  | closing => rfl
  | done => rfl

/-- C69: with at most one callback nothing panics, and there is at most one callback when no Nack for the name of the command arrives (C33). -/
theorem C69_no_panic_partial (sha : Bytes → Bytes) (pevs : List PitEvent) (e : Sent) (he : e ∈ (pitAfter sha pevs).sent)
    (hn : ∀ n r, PitEvent.nack n r ∈ pevs → keys n ≠ keys (splitDigest e.name).1) (evs : List (ExecEv Outcome))
    (hc : callsOf evs <+: (((pitAfter sha pevs).calls.filter (fun c => c.1 == e.id)).map (·.2)).reverse) :
    (execAfter evs).panicked = false := by
  have h1 := C33_at_most_once_partial sha pevs e he hn
  have h2 := hc.length_le
  rw [List.length_reverse, List.length_map] at h2
  have hok := execAfter_ok evs
  generalize execAfter evs = s at hok ⊢
  generalize callsOf evs = cs at hok h2
  cases hok with
  | dead m m' => simp only [List.length_cons, List.length_nil] at h2; omega
  | _ => rfl

theorem stuck_step {M : Type} (s : Exec M) (m : M) (h : s.caller = .sendFailed ∧ s.lock = .offering m ∧ s.closed = false ∧ s.panicked = false)
    (ev : ExecEv M) : s.step ev = s := by
  obtain ⟨c, l, cl, p⟩ := s
  obtain ⟨h1, h2, h3, h4⟩ := h
  simp only at h1 h2 h3 h4
  subst h1 h2 h3 h4
  cases ev <;> rfl

/-- C69 fails when the face does not send: the Interest is in the table all the same, so its callback is called once its lifetime has elapsed
(C34), and then the lock is never released, whatever happens. -/
theorem C69_send_failed_violated (sha : Bytes → Bytes) (pevs : List PitEvent) (e : Sent) (he : e ∈ (pitAfter sha pevs).sent)
    (hfired : ∀ t ∈ (pitAfter sha pevs).timers, (pitAfter sha pevs).now < t.due) (hrun : (pitAfter sha pevs).started = [])
    (htime : e.at_ + e.lifetime + timeoutMargin ≤ (pitAfter sha pevs).now) :
    ∃ o, (e.id, o) ∈ (pitAfter sha pevs).calls ∧
      ∀ evs : List (ExecEv Outcome), (execAfter (evs ++ [.call o, .sent false])).lock = .offering o := by
  obtain ⟨⟨i, o⟩, hc, rfl⟩ := C34_result sha pevs e he hfired hrun htime
  refine ⟨o, hc, fun evs => ?_⟩
  have : execAfter (evs ++ [.call o, .sent false]) = ⟨.sendFailed, .offering o, false, false⟩ := by
    induction evs with
    | nil => rfl
    | cons ev evs ih =>
      show (execAfter (evs ++ _)).step ev = _
      rw [ih, stuck_step _ o ⟨rfl, rfl, rfl, rfl⟩]
  rw [this]

example :
    let evs : List PitEvent := [.run 0 1, .fire ⟨0, 1, 10000100⟩, .tick 10000100, .express nmA 100 false 0]
    (pitAfter sha0 evs).sent = [⟨0, nmA, false, 100, 0⟩] ∧ (pitAfter sha0 evs).timers = [] ∧ (pitAfter sha0 evs).started = [] ∧
    (pitAfter sha0 evs).now = 0 + 100 + timeoutMargin ∧ (pitAfter sha0 evs).calls = [(0, .timeout)] := by
  decide

/-- C69 fails when the callback is called twice: from the first call on, the only schedules without a panic are those that stop before the
second callback sends. -/
theorem C69_twice_violated {M : Type} (evs : List (ExecEv M)) (m m' : M) (hc : callsOf evs = [m, m']) :
    (execAfter (.offer :: evs)).panicked = true := by
  have hok := execAfter_ok evs
  show ((execAfter evs).step .offer).panicked = true
  generalize execAfter evs = s at hok ⊢
  rw [hc] at hok
  cases hok with
  | again => rfl
  | dead => rfl

/-- C69 fails: the timer of the command's Interest fires, a Nack is handled first, and the callback is called twice (C33): the engine panics. -/
theorem C69_race_violated :
    let pevs : List PitEvent := [.run 0 1, .nack nmA 50, .fire ⟨0, 1, 10000100⟩, .tick 10000100, .express nmA 100 false 0]
    let evs : List (ExecEv Outcome) := [.offer, .call .timeout, .close, .offer, .call (.nack 50), .sent true]
    callsOf evs = ((pitAfter sha0 pevs).calls.filter (fun c => c.1 == 0)).reverse.map (·.2) ∧ (execAfter evs).panicked = true := by
  decide

/-- a command that is answered while the face is still sending -/
example : (execAfter [.close, .offer, .sent true, .call CmdRes.success]).caller = .returned (some .success) := rfl

end Ndn.Engine
