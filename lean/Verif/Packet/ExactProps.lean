import Verif.Packet.ExactLemmas

/-! # Which packets lose fields: the exact form of C22 -/

namespace Ndn.Packet
open Ndn.Codec Ndn.Codec.Schema

/-- C22, exactly, for Data: let the elements of a Data be in order, with unrecognised, non-critical elements anywhere between them.  If
`ReadData` returns a Data, it is the Data without the unrecognised elements if and only if no field is late (`Late`): and otherwise one of
the fields is missing in it. -/
theorem C22_data_exact (v : DataV) (b : DataB) (hb : v.Bodies b) (hv : v.InRange) (its : List It) (ho : owns its = b.items)
    (hj : ∀ x ∈ its, x.slot = none → x.typ < 2 ^ 64 ∧ x.typ ∉ dataTypes ∧ 31 < x.typ ∧ x.typ % 2 = 0)
    (hl : (bytesOf its).length < 2 ^ 43) (F : Nat) (hF : (bytesOf its).length < F) (v' : DataV) (cov : Wire)
    (h : readData F (BR.new (tlv 6 (bytesOf its))) = some (.ok (.ok (v', cov)))) :
    (v' = v ↔ ¬ Late 0 its) ∧ (Late 0 its → ∃ i, v.has i = true ∧ v'.has i = false) := by
  unfold readData finishParse at h
  split at h
  · exact (nomatch h)
  · rename_i s r1 hs
    obtain ⟨p, r2, hp, hd⟩ := packet_data_inv (by omega) hs
    simp only [hd] at h
    split at h
    · injection h with h; injection h with h; exact (nomatch h)
    · injection h with h; injection h with h; injection h with h; injection h with h _
      subst h
      obtain ⟨h1, h2⟩ := parseData_exact hb hv ho hj hl hF {} hp
      refine ⟨⟨fun he hlate => ?_, h2⟩, h1⟩
      obtain ⟨i, g1, g2⟩ := h1 hlate
      rw [he, g1] at g2
      exact absurd g2 (by decide)
  · injection h with h; injection h with h; exact (nomatch h)
  · injection h with h; exact (nomatch h)

/-- A Data with a name and a content, and two unrecognised elements between them: the first takes the place of the meta information, the
second that of the content. -/
def lateData : List It := [⟨some 2, 7, [8, 1, 65]⟩, ⟨none, 32, []⟩, ⟨none, 40, []⟩, ⟨some 4, 0x15, [1, 2]⟩]

example : owns lateData = (DataV.bodies { name := some [⟨8, [65]⟩], content := some [[1, 2]] }).items ∧ Late 0 lateData ∧
    ∀ x ∈ lateData, x.slot = none → x.typ < 2 ^ 64 ∧ x.typ ∉ dataTypes ∧ 31 < x.typ ∧ x.typ % 2 = 0 :=
  ⟨rfl, by decide, by
    intro x hx hs
    simp only [lateData, List.mem_cons, List.not_mem_nil, or_false] at hx
    rcases hx with rfl | rfl | rfl | rfl
    · exact absurd hs (by decide)
    · decide
    · decide
    · exact absurd hs (by decide)⟩

/-- C22, exactly, for Interests: the same for `ReadInterest`. -/
theorem C22_interest_exact (sha : Bytes → Bytes) (v : InterestV) (b : InterestB) (hb : v.Bodies b) (hv : v.InRange) (its : List It)
    (ho : owns its = b.items)
    (hj : ∀ x ∈ its, x.slot = none → x.typ < 2 ^ 64 ∧ x.typ ∉ interestTypes ∧ 31 < x.typ ∧ x.typ % 2 = 0)
    (hl : (bytesOf its).length < 2 ^ 43) (F : Nat) (hF : (bytesOf its).length < F) (v' : InterestV) (cov : Wire)
    (h : readInterest sha F (BR.new (tlv 5 (bytesOf its))) = some (.ok (.ok (v', cov)))) :
    (v' = v ↔ ¬ Late 0 its) ∧ (Late 0 its → ∃ i, v.has i = true ∧ v'.has i = false) := by
  unfold readInterest finishParse at h
  split at h
  · exact (nomatch h)
  · rename_i s r1 hs
    obtain ⟨p, r2, hp, hd⟩ := packet_interest_inv (by omega) hs
    simp only [hd] at h
    split at h
    · injection h with h; injection h with h; exact (nomatch h)
    · injection h with h; injection h with h; injection h with h; injection h with h _
      subst h
      obtain ⟨h1, h2⟩ := parseInterest_exact hb hv ho hj hl hF {} hp
      refine ⟨⟨fun he hlate => ?_, h2⟩, h1⟩
      obtain ⟨i, g1, g2⟩ := h1 hlate
      rw [he, g1] at g2
      exact absurd g2 (by decide)
  · injection h with h; injection h with h; exact (nomatch h)
  · injection h with h; exact (nomatch h)

/-- An Interest with a name and CanBePrefix, and an unrecognised element between them, which takes the place of CanBePrefix -/
def lateInterest : List It := [⟨some 2, 7, [8, 1, 65]⟩, ⟨none, 32, []⟩, ⟨some 3, 0x21, []⟩]

example : owns lateInterest = (InterestV.bodies { name := some [⟨8, [65]⟩], canBePrefix := true }).items ∧ Late 0 lateInterest ∧
    ∀ x ∈ lateInterest, x.slot = none → x.typ < 2 ^ 64 ∧ x.typ ∉ interestTypes ∧ 31 < x.typ ∧ x.typ % 2 = 0 :=
  ⟨rfl, by decide, by
    intro x hx hs
    simp only [lateInterest, List.mem_cons, List.not_mem_nil, or_false] at hx
    rcases hx with rfl | rfl | rfl
    · exact absurd hs (by decide)
    · decide
    · exact absurd hs (by decide)⟩

end Ndn.Packet
