import Verif.Crdt.Order
import Verif.Crdt.Doc

/-!
# What the insertion loop does
-/

namespace Ndn.Crdt

/-- the identity of an item; `none` is the place before the first item -/
def Node.v (o : Node) : Option Id := some o.id

/-- `k` tells of the item what the item says -/
structure Fits (k : Links (Option Id)) (x : Node) : Prop where
  o : k.o x.v = x.origin
  r : k.r x.v = x.rorigin.map some
  p : k.p x.v = x.id.producer

open DocOrder

/-- the loop has passed `lp ++ cp` and would put the new item between the two -/
structure Mid (k : Links (Option Id)) (i : Option Id) (lp cp : List (Option Id)) : Prop where
  q1 : ∀ y ∈ lp ++ cp, k.o y = k.o i ∨ k.o y ∈ lp ++ cp
  q2 : ∀ x ∈ cp, k.o x ∉ lp
  q3 : lp = [] ∨ ∃ l1 s l2, lp = l1 ++ s :: l2 ∧ k.o s = k.o i ∧ k.p s < k.p i ∧ ∀ x ∈ l2, k.o x ≠ k.o i
  q4 : ∀ y ∈ cp, k.o y = k.o i → k.p i ≤ k.p y

theorem Mid.placed {k : Links (Option Id)} {i : Option Id} {lp cp rest : List (Option Id)} (h : Mid k i lp cp)
    (h5 : ∀ b t, rest = b :: t → (k.o b ≠ k.o i ∧ k.o b ∉ lp ++ cp) ∨ (k.o b = k.o i ∧ k.p i ≤ k.p b ∧ k.r b = k.r i)) :
    Placed k i lp cp rest := ⟨h.q1, h.q2, h.q3, h.q4, h5⟩

theorem mem_v {l : List Node} {x : Id} : some x ∈ l.map Node.v ↔ x ∈ l.map Node.id := by
  simp [Node.v]

/-- pass `o`, the new item goes behind it -/
theorem Mid.clear {k : Links (Option Id)} {i o : Option Id} {lp cp : List (Option Id)} (h : Mid k i lp cp)
    (h1 : k.o o = k.o i ∨ k.o o ∈ lp ++ cp ++ [o])
    (h3 : (k.o o = k.o i ∧ k.p o < k.p i) ∨ (k.o o ≠ k.o i ∧ lp ≠ [] ∧ ∀ y ∈ cp, k.o y ≠ k.o i)) : Mid k i (lp ++ cp ++ [o]) [] := by
  refine ⟨?_, ?_, ?_, ?_⟩
  · intro y hy
    rw [List.append_nil] at hy ⊢
    rcases List.mem_append.mp hy with hy | hy
    · rcases h.q1 y hy with h2 | h2
      · exact .inl h2
      · exact .inr (List.mem_append_left _ h2)
    · rw [List.mem_singleton.mp hy]; exact h1
  · intro x hx; cases hx
  · right
    rcases h3 with ⟨ho, hp⟩ | ⟨ho, hne, hc⟩
    · exact ⟨lp ++ cp, o, [], by simp, ho, hp, by simp⟩
    · rcases h.q3 with h4 | ⟨l1, s, l2, e, hs1, hs2, hs3⟩
      · exact absurd h4 hne
      · refine ⟨l1, s, l2 ++ cp ++ [o], by rw [e]; simp, hs1, hs2, ?_⟩
        intro x hx
        simp only [List.mem_append, List.mem_singleton] at hx
        rcases hx with (hx | hx) | hx
        · exact hs3 x hx
        · exact hc x hx
        · rw [hx]; exact ho
  · intro y hy; cases hy

/-- pass `o`, the new item stays before it -/
theorem Mid.keep {k : Links (Option Id)} {i o : Option Id} {lp cp : List (Option Id)} (h : Mid k i lp cp)
    (h1 : k.o o = k.o i ∨ k.o o ∈ lp ++ cp ++ [o]) (h2 : k.o o ∉ lp) (h4 : k.o o = k.o i → k.p i ≤ k.p o) : Mid k i lp (cp ++ [o]) := by
  refine ⟨?_, ?_, h.q3, ?_⟩
  · intro y hy
    rw [← List.append_assoc] at hy ⊢
    rcases List.mem_append.mp hy with hy | hy
    · rcases h.q1 y hy with h2 | h2
      · exact .inl h2
      · exact .inr (List.mem_append_left _ h2)
    · rw [List.mem_singleton.mp hy]; exact h1
  · intro x hx
    rcases List.mem_append.mp hx with hx | hx
    · exact h.q2 x hx
    · rw [List.mem_singleton.mp hx]; exact h2
  · intro y hy
    rcases List.mem_append.mp hy with hy | hy
    · exact h.q4 y hy
    · rw [List.mem_singleton.mp hy]; exact h4

theorem scan_placed {k : Links (Option Id)} {i : Node} (hi : Fits k i) {seg : List Node} (hf : ∀ o ∈ seg, Fits k o)
    (nd : (seg.map Node.v).Nodup) (hni : i.origin ∉ seg.map Node.v)
    (hx : ∀ a y b o c, seg.map Node.v = a ++ y :: b ++ o :: c → k.o o ∈ a → k.o y ≠ k.o i.v) (m : Nat) :
    ∀ (os lp cp : List Node) (before conf : List Id), seg = lp ++ cp ++ os →
      (∀ x, x ∈ before ↔ x ∈ (lp ++ cp).map Node.id) → (∀ x, x ∈ conf ↔ x ∈ cp.map Node.id) →
      Mid k i.v (lp.map Node.v) (cp.map Node.v) → scan i os before conf lp.length (lp ++ cp).length = .ok m →
      ∃ lp' cp' rest, seg = lp' ++ cp' ++ rest ∧ m = lp'.length ∧ Placed k i.v (lp'.map Node.v) (cp'.map Node.v) (rest.map Node.v) := by
  intro os
  induction os with
  | nil =>
    intro lp cp before conf e _ _ hm hs
    simp only [scan, Res.ok.injEq] at hs
    exact ⟨lp, cp, [], e, hs.symm, hm.placed (by intro b t h; cases h)⟩
  | cons o os ih =>
    intro lp cp before conf e hb hc hm hs
    have hos : o ∈ seg := by rw [e]; simp
    have fo := hf o hos
    have e1 : seg = (lp ++ cp ++ [o]) ++ [] ++ os := by rw [e]; simp
    have e2 : seg = lp ++ (cp ++ [o]) ++ os := by rw [e]; simp
    have n1 : (lp ++ cp ++ [o]).length = (lp ++ cp).length + 1 := by rw [List.length_append]; rfl
    have b1 : ∀ x, x ∈ o.id :: before ↔ x ∈ (lp ++ cp ++ [o] ++ []).map Node.id := by
      intro x; rw [List.mem_cons, hb]; simp only [List.map_append, List.mem_append, List.map_cons, List.map_nil, List.mem_singleton,
        List.not_mem_nil, or_false]; exact or_comm
    have b2 : ∀ x, x ∈ o.id :: before ↔ x ∈ (lp ++ (cp ++ [o])).map Node.id := by
      intro x; rw [b1]; simp
    have c2 : ∀ x, x ∈ o.id :: conf ↔ x ∈ (cp ++ [o]).map Node.id := by
      intro x; rw [List.mem_cons, hc]; simp only [List.map_append, List.mem_append, List.map_cons, List.map_nil, List.mem_singleton]
      exact or_comm
    have m1 : (lp ++ cp ++ [o]).map Node.v = lp.map Node.v ++ cp.map Node.v ++ [o.v] := by simp
    have m2 : (cp ++ [o]).map Node.v = cp.map Node.v ++ [o.v] := by simp
    have stop : ∀ m, Res.ok lp.length = Res.ok m →
        ((k.o o.v ≠ k.o i.v ∧ k.o o.v ∉ lp.map Node.v ++ cp.map Node.v) ∨
          (k.o o.v = k.o i.v ∧ k.p i.v ≤ k.p o.v ∧ k.r o.v = k.r i.v)) →
        ∃ lp' cp' rest, seg = lp' ++ cp' ++ rest ∧ m = lp'.length ∧
          Placed k i.v (lp'.map Node.v) (cp'.map Node.v) (rest.map Node.v) := by
      intro m hs h5
      refine ⟨lp, cp, o :: os, e, (Res.ok.inj hs).symm, hm.placed ?_⟩
      intro b t h
      rw [List.map_cons] at h
      injection h with h6 h7
      rw [← h6]; exact h5
    have clear := fun h1 h3 (hs : scan i os (o.id :: before) [] ((lp ++ cp).length + 1) ((lp ++ cp).length + 1) = .ok m) =>
      ih (lp ++ cp ++ [o]) [] (o.id :: before) [] e1 b1 (by simp) (by rw [m1]; exact hm.clear h1 h3)
        (by rw [List.append_nil, n1]; exact hs)
    have keep := fun h1 h2 h4 (hs : scan i os (o.id :: before) (o.id :: conf) lp.length ((lp ++ cp).length + 1) = .ok m) =>
      ih lp (cp ++ [o]) (o.id :: before) (o.id :: conf) e2 b2 c2 (by rw [m2]; exact hm.keep h1 h2 h4)
        (by rw [← List.append_assoc, n1]; exact hs)
    rw [scan] at hs
    by_cases ho : i.origin = o.origin
    · rw [if_pos ho] at hs
      have hoo : k.o o.v = k.o i.v := by rw [fo.o, hi.o, ho]
      by_cases hp : o.id.producer < i.id.producer
      · rw [if_pos hp] at hs
        exact clear (.inl hoo) (.inl ⟨hoo, by rw [fo.p, hi.p]; exact hp⟩) hs
      · rw [if_neg hp] at hs
        have hp' : k.p i.v ≤ k.p o.v := by rw [fo.p, hi.p]; omega
        by_cases hr : i.rorigin = o.rorigin
        · rw [if_pos hr] at hs
          exact stop m hs (.inr ⟨hoo, hp', by rw [fo.r, hi.r, hr]⟩)
        · rw [if_neg hr] at hs
          refine keep (.inl hoo) ?_ (fun _ => hp') hs
          rw [hoo, hi.o]
          intro hmem
          apply hni
          rw [e]; simp only [List.map_append]
          exact List.mem_append_left _ (List.mem_append_left _ hmem)
    · rw [if_neg ho] at hs
      have hoo : k.o o.v ≠ k.o i.v := by rw [fo.o, hi.o]; exact fun h => ho h.symm
      cases hz : o.origin with
      | none => rw [hz] at hs; cases hs
      | some z =>
        rw [hz] at hs
        simp only at hs
        have hoz : k.o o.v = some z := by rw [fo.o, hz]
        by_cases hzb : z ∈ o.id :: before
        · rw [if_pos hzb] at hs
          have h1 : k.o o.v ∈ lp.map Node.v ++ cp.map Node.v ++ [o.v] := by
            rw [hoz, ← m1, mem_v]
            have := (b1 z).mp hzb
            rwa [List.append_nil] at this
          by_cases hzc : z ∉ o.id :: conf
          · rw [if_pos hzc] at hs
            have hzl : some z ∈ lp.map Node.v := by
              rw [hoz] at h1
              have hn := fun h => hzc ((c2 z).mpr h)
              rw [← mem_v, m2] at hn
              simp only [List.mem_append] at h1 hn
              rcases h1 with (h1 | h1) | h1
              · exact h1
              · exact absurd (.inl h1) hn
              · exact absurd (.inr h1) hn
            refine clear (.inr h1) (.inr ⟨hoo, (fun h => by rw [h] at hzl; cases hzl), ?_⟩) hs
            intro y hy
            obtain ⟨u1, u2, hu⟩ := List.append_of_mem hy
            refine hx (lp.map Node.v ++ u1) y u2 o.v (os.map Node.v) (by rw [e]; simp [hu]) ?_
            rw [hoz]; exact List.mem_append_left _ hzl
          · rw [if_neg hzc] at hs
            refine keep (.inr h1) ?_ (fun h => absurd h hoo) hs
            have hzc' := (c2 z).mp (Classical.not_not.mp hzc)
            rw [← mem_v] at hzc'
            rw [hoz]
            intro hzl
            rw [e2] at nd
            simp only [List.map_append, List.append_assoc] at nd
            refine (List.nodup_append.mp nd).2.2 _ hzl _ ?_ rfl
            simp only [List.map_append, List.mem_append] at hzc' ⊢
            rcases hzc' with h | h
            · exact .inl h
            · exact .inr (.inl h)
        · rw [if_neg hzb] at hs
          refine stop m hs (.inl ⟨hoo, ?_⟩)
          rw [hoz, ← List.map_append, mem_v, ← hb]
          exact fun h => hzb (List.mem_cons_of_mem _ h)

end Ndn.Crdt
