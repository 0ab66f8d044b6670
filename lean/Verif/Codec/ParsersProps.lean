import Verif.Codec.ParseProps
import Verif.Codec.GeneratedProps
import Verif.Codec.ParsersSpec
import Verif.Codec.ParsersMgmtA
import Verif.Codec.ParsersMgmtB
import Verif.Codec.ParsersSync
import Verif.Codec.ParsersCert
import Verif.Codec.ParsersSvs
import Verif.Codec.ParsersRdr
import Verif.Codec.ParsersCrdt

/-! # C91 for the library: the parsers in the repository -/

namespace Ndn.Codec.Gen

/-- the declarations of the packages, and the parsers that are checked in -/
def checkedInParsers : List (List DeclSrc × List (Txt × Nat × Nat)) :=
  [(specSource, specParsers), (mgmtSource, mgmtAParsers), (mgmtSource, mgmtBParsers), (syncSource, syncParsers), (certSource, certParsers),
    (svsSource, svsParsers), (rdrSource, rdrParsers), (crdtSource, crdtParsers)]

theorem checkedInParsers_same : ∀ c ∈ checkedInParsers, allSameParser c.1 c.2 = true := by
  simp only [checkedInParsers, List.mem_cons, List.not_mem_nil, or_false]
  rintro c (rfl | rfl | rfl | rfl | rfl | rfl | rfl | rfl)
  · exact spec_sameParsers
  · exact mgmtA_sameParsers
  · exact mgmtB_sameParsers
  · exact sync_sameParsers
  · exact cert_sameParsers
  · exact svs_sameParsers
  · exact rdr_sameParsers
  · exact crdt_sameParsers

/-- `ProbeRes` has a field of type 0, and `ProbeResContent` a field of that type -/
def zeroTyped : List Txt := [t!"ProbeRes", t!"ProbeResContent"]

/-- the models are covered and have schemas -/
def allParsable (src : List DeclSrc) (l : List Txt) : Bool :=
  match processAll asWritten src with
  | .ok ms => l.all fun n => zeroTyped.contains n || plainAt ms ms.length n && parsableAt ms ms.length n &&
    match resolve ms ms.length n with
    | some fs => Fields.wf fs
    | none => false
  | _ => false

theorem checkedInParsers_ok : (checkedInParsers.map fun c => (c.1, c.2.map Prod.fst)).all (fun c => allParsable c.1 c.2) = true := by decide +kernel

/-- **C91, the library**: for each of these types, the parser in the repository is what the generator writes, up to space; except for two of them, running that
gives what the parser of the type's schema gives, and it reads what the encoder in the repository (`C90_library_partial`) writes -/
theorem C91_library_partial {ord : Nat → List (Txt × Kind)} (h : ∀ i, (ord i).Perm classTable) : ∀ c ∈ checkedInParsers, ∃ ms, processAll ord c.1 = .ok ms ∧
    ∀ p ∈ c.2, SameParser ms p.1 p.2 ∧ (p.1 ∉ zeroTyped → ∃ fs, resolve ms ms.length p.1 = some fs ∧
      (∀ (ic : Bool) (fuel : Nat) (b : Bytes), b.length < 2 ^ 62 →
        Answers ms p.1 fs (parseOf ms ic fuel ms.length p.1 (some (BR.new b))) (fs.parse ic fuel (BR.new b))) ∧
      ∀ v g, StandsFor ms p.1 fs v g → fs.InRange v → (fs.enc v).length < 2 ^ 43 → ∃ b, runEncode ms ms.length p.1 g = .ok b ∧
        ∀ (ic : Bool) (fuel : Nat), b.length < fuel → ∃ g', parseOf ms ic fuel ms.length p.1 (some (BR.new b)) = .ret g' none ∧ StandsFor ms p.1 fs v g') := by
  intro c hc
  obtain ⟨ms, h1, h2⟩ := allSameParser_spec (checkedInParsers_same c hc) h
  refine ⟨ms, h1, fun p hp => ⟨h2 p hp, fun hz => ?_⟩⟩
  have h3 := List.all_eq_true.1 checkedInParsers_ok (c.1, c.2.map Prod.fst) (List.mem_map.2 ⟨c, hc, rfl⟩)
  rw [processAll_order h] at h1
  simp only [allParsable, h1, List.all_eq_true] at h3
  have h4 := h3 p.1 (List.mem_map.2 ⟨p, hp, rfl⟩)
  simp only [List.contains_eq_mem, hz, decide_false, Bool.false_or, Bool.and_eq_true] at h4
  obtain ⟨⟨h5, h6⟩, h7⟩ := h4
  cases hfs : resolve ms ms.length p.1 with
  | none => simp [hfs] at h7
  | some fs =>
    simp only [hfs] at h7
    exact ⟨fs, rfl, fun ic fuel b hb => parse_sim ms ic fuel _ _ (Nat.le_refl _) _ fs h6 hfs (BR.new b) (.new hb),
      fun v g hg hv hl => C91_roundtrip_partial h5 h6 hfs (Fields.wf_spec fs h7) (Nat.le_refl _) hg hv hl⟩

/-- the types -/
example : (checkedInParsers.map fun c => c.2.map Prod.fst) = checkedIn.map fun c => c.2.map Prod.fst := by decide +kernel

end Ndn.Codec.Gen
