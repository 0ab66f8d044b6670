import Verif.Codec.ParseLoop
import Verif.Codec.Props
import Verif.Codec.RunProps

/-!
# C91: the parser that the code generator emits

The statements that the generator writes for `Parse` of a model (`Verif/Codec/EmitParse.lean`), run as Go runs them (`Verif/Codec/RunParse.lean`), against the
parser of the schema that the model stands for.
-/

namespace Ndn.Codec.Gen

/-- **C91, the emitted parser**: for every model that the generator can be given, within what is covered, and every input, the statements that the generator
writes for `Parse` end as the parser of the schema does: with the message, with the same error and a nil value, with a panic, or not at all -/
theorem C91_parse_partial {ms : List TModel} {n depth : Nat} {t : Txt} {fs : Fields} (hp : parsableAt ms n t = true) (h : resolve ms n t = some fs)
    (hd : n ≤ depth) (ic : Bool) (fuel : Nat) (b : Bytes) (hb : b.length < 2 ^ 62) :
    (∀ v r, fs.parse ic fuel (BR.new b) = some (.ok v, r) → ∃ g, parseOf ms ic fuel depth t (some (BR.new b)) = .ret g none ∧ StandsFor ms t fs v g) ∧
    (∀ x r, fs.parse ic fuel (BR.new b) = some (.err x, r) → parseOf ms ic fuel depth t (some (BR.new b)) = .ret .nil (some x)) ∧
    (∀ r, fs.parse ic fuel (BR.new b) = some (.panic, r) → parseOf ms ic fuel depth t (some (BR.new b)) = .panic) ∧
    (fs.parse ic fuel (BR.new b) = none → parseOf ms ic fuel depth t (some (BR.new b)) = .stuck) := by
  have hs := parse_sim ms ic fuel n depth hd t fs hp h (BR.new b) (.new hb)
  refine ⟨fun v r hq => ?_, fun x r hq => ?_, fun r hq => ?_, fun hq => ?_⟩ <;> rw [hq] at hs <;> exact hs

/-- **C91, a nil reader**: it is refused, with a nil value -/
theorem C91_nil_reader {ms : List TModel} {n depth : Nat} {t : Txt} (hp : parsableAt ms n t = true) (hd : n ≤ depth) (ic : Bool) (fuel : Nat) :
    parseOf ms ic fuel depth t none = .ret .nil (some .overflow) := by
  obtain ⟨m, n', rfl, hm, _⟩ := parsableAt_find hp
  obtain ⟨d, rfl⟩ : ∃ d, depth = d + 1 := ⟨depth - 1, by omega⟩
  simp only [parseOf, hm, parseBody, start]
  rfl

/-- **C91, a value or an error**: on input whose long numbers are small, `Parse` ends, and gives either a message of the type and no error or nil and an error -/
theorem C91_value_or_error_partial {ms : List TModel} {n depth : Nat} {t : Txt} {fs : Fields} (hp : parsableAt ms n t = true) (h : resolve ms n t = some fs)
    (hd : n ≤ depth) (ic : Bool) (fuel : Nat) (b : Bytes) (hb : b.length < 2 ^ 62) (hc : Calm b) (hf : b.length < fuel) :
    (∃ v g, parseOf ms ic fuel depth t (some (BR.new b)) = .ret g none ∧ StandsFor ms t fs v g) ∨
      ∃ x, parseOf ms ic fuel depth t (some (BR.new b)) = .ret .nil (some x) := by
  obtain ⟨x, r, h1, h2⟩ := C23_parse_terminates_partial fs b hb hc ic fuel hf
  obtain ⟨a1, a2, _⟩ := C91_parse_partial hp h hd ic fuel b hb
  rcases x with v | e | _
  · obtain ⟨g, g1, g2⟩ := a1 v r h1
    exact .inl ⟨v, g, g1, g2⟩
  · exact .inr ⟨e, a2 e r h1⟩
  · exact absurd rfl h2

/-- **C91, there and back**: what the emitted encoder writes, the emitted parser reads, and the Go value that it gives stands for the same message -/
theorem C91_roundtrip_partial {ms : List TModel} {n depth : Nat} {t : Txt} {fs : Fields} (he : plainAt ms n t = true) (hp : parsableAt ms n t = true)
    (h : resolve ms n t = some fs) (hw : fs.WF) (hd : n ≤ depth) {v : fs.V} {g : GV} (hg : StandsFor ms t fs v g) (hv : fs.InRange v)
    (hl : (fs.enc v).length < 2 ^ 43) :
    ∃ b, runEncode ms n t g = .ok b ∧
      ∀ (ic : Bool) (fuel : Nat), b.length < fuel → ∃ g', parseOf ms ic fuel depth t (some (BR.new b)) = .ret g' none ∧ StandsFor ms t fs v g' := by
  refine ⟨fs.enc v, C90_encode_partial he h hg (by omega), fun ic fuel hf => ?_⟩
  obtain ⟨b, h1, h2⟩ := C19_codec_roundtrip_partial fs hw v hv hl
  rw [Fields.encode_eq fs v (Fields.WF.widths fs hw)] at h1
  cases h1
  obtain ⟨r, h3⟩ := h2 ic fuel hf
  exact (C91_parse_partial hp h hd ic fuel (fs.enc v) (by omega)).1 v r h3

/-- **C91, no end**: there is input on which the emitted parsers of all types without a field 32 do not end -/
theorem C91_diverges {ms : List TModel} {n depth : Nat} {t : Txt} {fs : Fields} (hp : parsableAt ms n t = true) (h : resolve ms n t = some fs)
    (hd : n ≤ depth) (h32 : 32 ∉ fs.types) (ic : Bool) (fuel : Nat) : parseOf ms ic fuel depth t (some (BR.new loopBytes)) = .stuck :=
  (C91_parse_partial hp h hd ic fuel loopBytes (by decide)).2.2.2 (C23_parse_diverges fs h32 ic fuel)

/-! ## A check of schemas -/

mutual
def Elem.wf : Elem → Bool
  | .fixed w _ => w == 1 || w == 2 || w == 4 || w == 8
  | .struct fs => Fields.wf fs
  | _ => true
def Fields.wf : Fields → Bool
  | .nil => true
  | .flag t rest => decide (0 < t) && decide (t < 2 ^ 64) && !rest.types.contains t && Fields.wf rest
  | .cons t _ e rest => decide (0 < t) && decide (t < 2 ^ 64) && !rest.types.contains t && Elem.wf e && Fields.wf rest
end

mutual
theorem Elem.wf_spec : ∀ (e : Elem), Elem.wf e = true → e.WF
  | .fixed w _, h => by simpa [Elem.wf, Elem.WF, or_assoc] using h
  | .struct fs, h => by simp only [Elem.wf] at h; simp only [Elem.WF]; exact Fields.wf_spec fs h
  | .nat, _ => by simp only [Elem.WF]
  | .time, _ => by simp only [Elem.WF]
  | .bin, _ => by simp only [Elem.WF]
  | .str, _ => by simp only [Elem.WF]
  | .name, _ => by simp only [Elem.WF]
  | .wire, _ => by simp only [Elem.WF]
theorem Fields.wf_spec : ∀ (fs : Fields), Fields.wf fs = true → fs.WF
  | .nil, _ => by simp only [Fields.WF]
  | .flag t rest, h => by
    simp only [Fields.wf, Bool.and_eq_true, decide_eq_true_eq, Bool.not_eq_true', List.contains_eq_mem, decide_eq_false_iff_not] at h
    exact ⟨h.1.1.1, h.1.1.2, h.1.2, Fields.wf_spec rest h.2⟩
  | .cons t _ e rest, h => by
    simp only [Fields.wf, Bool.and_eq_true, decide_eq_true_eq, Bool.not_eq_true', List.contains_eq_mem, decide_eq_false_iff_not] at h
    exact ⟨h.1.1.1.1, h.1.1.1.2, h.1.1.2, Elem.wf_spec e h.1.2, Fields.wf_spec rest h.2⟩
end

/-! ## Examples -/

/-- the schema of `StateVec` of /repo/pkg/schema/svs/tlv.go -/
def exampleVec : Fields := .cons 0xca .seq (.struct (.cons 0x07 .opt .bin (.cons 0xcc .req .nat .nil))) .nil

/-- two entries -/
def exampleVecV : exampleVec.V := ([(some [65], ((300 : Nat), ())), (none, ((1 : Nat), ()))], ())

theorem exampleVec_ok : plainAt (modelsOf svsSource) 3 t!"StateVec" = true ∧ parsableAt (modelsOf svsSource) 3 t!"StateVec" = true ∧
    resolve (modelsOf svsSource) 3 t!"StateVec" = some exampleVec ∧ exampleVec.WF := by
  refine ⟨by decide +kernel, by decide +kernel, by decide +kernel, Fields.wf_spec _ (by decide)⟩

theorem exampleVec_range : exampleVec.InRange exampleVecV := by
  refine ⟨?_, trivial⟩
  intro a ha
  have ha : a ∈ [(some [65], ((300 : Nat), ())), (none, ((1 : Nat), ()))] := ha
  rcases List.mem_cons.1 ha with rfl | ha
  · exact ⟨trivial, by simp [Mode.All, Elem.InRange], trivial⟩
  · rcases List.mem_cons.1 ha with rfl | ha
    · exact ⟨trivial, by simp [Mode.All, Elem.InRange], trivial⟩
    · cases ha

/-- there and back -/
example : exampleVec.enc exampleVecV = [0xca, 7, 0x07, 1, 65, 0xcc, 2, 1, 44, 0xca, 3, 0xcc, 1, 1] ∧
    ∃ g b, StandsFor (modelsOf svsSource) t!"StateVec" exampleVec exampleVecV g ∧ runEncode (modelsOf svsSource) 3 t!"StateVec" g = .ok b ∧
      ∃ g', parseOf (modelsOf svsSource) false (b.length + 1) 3 t!"StateVec" (some (BR.new b)) = .ret g' none ∧
        StandsFor (modelsOf svsSource) t!"StateVec" exampleVec exampleVecV g' := by
  obtain ⟨h1, h2, h3, h4⟩ := exampleVec_ok
  refine ⟨by decide +kernel, ?_⟩
  obtain ⟨g, hg⟩ := C90_represented h1 h3 exampleVecV
  obtain ⟨b, hb, hr⟩ := C91_roundtrip_partial h1 h2 h3 h4 (Nat.le_refl 3) hg exampleVec_range
    (by decide +kernel)
  obtain ⟨g', h5, h6⟩ := hr false (b.length + 1) (by omega)
  exact ⟨g, b, hg, hb, g', h5, h6⟩

/-- after the first of the two entries, an element of an odd type that is not known -/
example : parseOf (modelsOf svsSource) false 100 3 t!"StateVec"
    (some (BR.new [0xca, 7, 0x07, 1, 65, 0xcc, 2, 1, 44, 0x81, 1, 9, 0xca, 3, 0xcc, 1, 1])) = .ret .nil (some (.unrecognized 0x81)) := by
  obtain ⟨h1, h2, h3, h4⟩ := exampleVec_ok
  obtain ⟨r, hr⟩ := C21_critical_rejected exampleVec h4 exampleVecV exampleVec_range 1 0x81 [9]
    (by decide) (by decide) (by decide) (by decide +kernel) 100 (by decide +kernel)
  exact (C91_parse_partial h2 h3 (Nat.le_refl 3) false 100 _ (by decide)).2.1 _ _ hr

example : parseOf (modelsOf svsSource) false 9 3 t!"StateVec" none = .ret .nil (some .overflow) :=
  C91_nil_reader exampleVec_ok.2.1 (Nat.le_refl 3) false 9

example : parseOf (modelsOf svsSource) false 1000000 3 t!"StateVec" (some (BR.new loopBytes)) = .stuck :=
  C91_diverges exampleVec_ok.2.1 exampleVec_ok.2.2.1 (Nat.le_refl 3) (by decide) false 1000000

example : Calm [0xca, 2, 0x07, 0] := calm_no_ff (by decide)

end Ndn.Codec.Gen
