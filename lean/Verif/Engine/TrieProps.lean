import Verif.Engine.FibLemmas

/-!
# The name trie as a map (C37)
-/

namespace Ndn.Engine

open Trie

variable {V : Type}

/-- calls on the root of a trie: `MatchAlways(name).SetValue(v)`, `FirstSatisfyOrNew(name, pred).SetValue(v)`,
`ExactMatch(name).Delete()`, `ExactMatch(name).DeleteIf(pred)` (the last two only when there is a match) -/
inductive TrieOp (V : Type) where
  | set (name : Name) (v : V)
  | setFirst (name : Name) (pred : V → Bool) (v : V)
  | delete (name : Name)
  | deleteIf (name : Name) (pred : V → Bool)

def TrieOp.run (v0 : V) (t : Trie V) : TrieOp V → Trie V
  | .set name v => match t.matchAlways v0 0 (keys name) with | (n, t1) => t1.setValue n v
  | .setFirst name pred v => match t.firstSatisfyOrNew v0 pred 0 (keys name) with | (n, t1) => t1.setValue n v
  | .delete name => match t.exact 0 (keys name) with
    | some n => t.delete n
    | none => t
  | .deleteIf name pred => match t.exact 0 (keys name) with
    | some n => Trie.deleteIf pred t n
    | none => t

def trieAfter (v0 : V) : List (TrieOp V) → Trie V
  | [] => Trie.new v0
  | op :: ops => op.run v0 (trieAfter v0 ops)

/-- what `ExactMatch(name)` shows: no node, or a value -/
def Trie.get (t : Trie V) (name : Name) : Option V := (t.exact 0 (keys name)).map (fun n => (t.node n).val)

theorem firstSatisfy_wf (v0 : V) (pred : V → Bool) (ks : List Bytes) : ∀ (t : Trie V) (id : Nat), t.WF → id < t.size →
    (firstSatisfyOrNew v0 pred t id ks).2.WF := by
  induction ks with
  | nil => intro t id hw _; exact hw
  | cons k ks ih =>
    intro t id hw hi
    rw [firstSatisfyOrNew]
    split
    · exact hw
    · split
      · rename_i c hc
        exact ih t c hw (hw.child hi hc).1
      · rename_i hc
        exact ih _ _ (hw.addChild v0 hi hc) (Nat.lt_succ_self _)

theorem trieAfter_wf (v0 : V) (ops : List (TrieOp V)) : (trieAfter v0 ops).WF := by
  induction ops with
  | nil => exact WF.new v0
  | cons op ops ih =>
    cases op with
    | set name v => exact (setValue_same _ _ v).wf (matchAlways_spec v0 (keys name) _ 0 ih ih.pos).1
    | setFirst name pred v => exact (setValue_same _ _ v).wf (firstSatisfy_wf v0 pred (keys name) _ 0 ih ih.pos)
    | delete name =>
      simp only [trieAfter, TrieOp.run]
      split
      · exact (deleteIf_shrinks _ _ _).wf ih
      · exact ih
    | deleteIf name pred =>
      simp only [trieAfter, TrieOp.run]
      split
      · exact (deleteIf_shrinks _ _ _).wf ih
      · exact ih

/-- C37: after every sequence of operations, setting the value of a name makes `ExactMatch` return it, creates valueless nodes
for the missing prefixes of the name, and changes no other name. -/
theorem C37_set (v0 : V) (ops : List (TrieOp V)) (name : Name) (v : V) :
    ((trieAfter v0 (.set name v :: ops)).get name = some v) ∧
    ∀ m, keys m ≠ keys name → (trieAfter v0 (.set name v :: ops)).get m =
      match (trieAfter v0 ops).get m with
      | some u => some u
      | none => if keys m <+: keys name then some v0 else none := by
  have hw := trieAfter_wf v0 ops
  generalize hT : trieAfter v0 (.set name v :: ops) = T
  have hT' : T = ((trieAfter v0 ops).matchAlways v0 0 (keys name)).2.setValue ((trieAfter v0 ops).matchAlways v0 0 (keys name)).1 v :=
    hT.symm
  generalize trieAfter v0 ops = t at hw hT'
  obtain ⟨hw1, hg, hend, hlt⟩ := matchAlways_spec v0 (keys name) t 0 hw hw.pos
  have hoff := matchAlways_off v0 (keys name) t 0 [] hw rfl
  generalize matchAlways v0 t 0 (keys name) = res at hw1 hg hend hlt hoff hT'
  obtain ⟨n, t1⟩ := res
  simp only at hw1 hg hend hlt hoff hT'
  subst hT'
  have hs := setValue_same t1 n v
  refine ⟨?_, ?_⟩
  · rw [Trie.get, hs.exact, hend, Option.map_some, setValue_val, if_pos rfl]
  · intro m hm
    rw [Trie.get, Trie.get, hs.exact]
    cases h0 : t.exact 0 (keys m) with
    | some c =>
      have h1 := hg.exact hw hw1 hw.pos h0
      have hcn : c ≠ n := by
        rintro rfl
        exact hm (hw1.find_inj h1 hend)
      rw [h1, Option.map_some, Option.map_some, setValue_val, if_neg hcn, hg.val c (hw.exact_lt hw.pos h0)]
    | none =>
      simp only [Option.map_none]
      split
      · rename_i hpre
        obtain ⟨s, hs'⟩ := hpre
        rw [← hs'] at hend
        obtain ⟨c, hc⟩ := find_prefix (t := t1) hend
        have hcn : c ≠ n := by
          rintro rfl
          rw [hs'] at hend
          exact hm (hw1.find_inj hc hend)
        rw [show t1.exact 0 (keys m) = some c from hc, Option.map_some, setValue_val, if_neg hcn]
        rcases hoff _ _ hc with h' | ⟨hge, _⟩
        · rw [show t.exact 0 (keys m) = some c from h'] at h0; cases h0
        · rw [hg.fresh c hge (hw1.exact_lt hw1.pos hc)]
      · rename_i hpre
        cases h1 : t1.exact 0 (keys m) with
        | none => rfl
        | some c =>
          exfalso
          rcases hoff _ _ h1 with h' | ⟨_, _, _, h'⟩
          · rw [show t.exact 0 (keys m) = some c from h'] at h0; cases h0
          · exact hpre (by simpa using h')

/-- C37: `PrefixMatch` returns the node of the longest prefix of the name that exists. -/
theorem C37_prefix_match (v0 : V) (ops : List (TrieOp V)) (name : Name) :
    ∃ l r, name = l ++ r ∧ (trieAfter v0 ops).exact 0 (keys l) = some ((trieAfter v0 ops).prefixMatch 0 (keys name)) ∧
      ∀ l' r', name = l' ++ r' → l.length < l'.length → (trieAfter v0 ops).get l' = none := by
  obtain ⟨l, r, e, h1, h2⟩ := prefixMatch_spec (trieAfter v0 ops) (keys name) 0
  have hl : l.length ≤ name.length := by
    have := congrArg List.length e
    simp only [keys, List.length_map, List.length_append] at this
    omega
  refine ⟨name.take l.length, name.drop l.length, (List.take_append_drop _ _).symm, ?_, ?_⟩
  · rw [← h1]
    congr 1
    have : keys name = keys (name.take l.length) ++ keys (name.drop l.length) := by
      rw [keys, keys, keys, ← List.map_append, List.take_append_drop]
    rw [this] at e
    exact (List.append_inj e (by simp only [keys, List.length_map, List.length_take]; omega)).1
  · intro l' r' hl' hlt
    rw [Trie.get, h2 (keys l') (keys r') (by rw [hl', keys, keys, keys, List.map_append]) ?_]
    · rfl
    · simp only [List.length_take] at hlt
      simp only [keys, List.length_map]
      omega

/-- C37 (what deletion does, for every sequence of operations): deleting an existing name removes everything from some prefix
`q` of it downward.  Below `q` there was nothing off the path through the name, `q` is as low as possible, and a test given
to `DeleteIf` held for all the values on the way. -/
theorem C37_delete_exact (v0 : V) (ops : List (TrieOp V)) (name : Name) (pred : V → Bool) (v : V)
    (hv : (trieAfter v0 ops).get name = some v) :
    (pred v = false → trieAfter v0 (.deleteIf name pred :: ops) = trieAfter v0 ops) ∧
    (pred v = true → ∃ q, q <+: keys name ∧
      (∀ m, m ≠ [] → (trieAfter v0 (.deleteIf name pred :: ops)).get m =
        if q <+: keys m then none else (trieAfter v0 ops).get m) ∧
      (trieAfter v0 (.deleteIf name pred :: ops)).get [] = (trieAfter v0 ops).get [] ∧
      (∀ m u, q <+: keys m → (trieAfter v0 ops).get m = some u →
        keys name <+: keys m ∨ (keys m <+: keys name ∧ pred u = true))) := by
  have hw := trieAfter_wf v0 ops
  rw [Trie.get] at hv
  simp only [trieAfter, TrieOp.run]
  generalize trieAfter v0 ops = t at hw hv
  cases hex : t.exact 0 (keys name) with
  | none => rw [hex] at hv; cases hv
  | some n =>
    rw [hex] at hv
    simp only [Option.map_some, Option.some.injEq] at hv
    subst hv
    dsimp only
    have hs := deleteIf_shrinks pred t n
    rcases deleteIf_spec pred hw hex with ⟨hf, he⟩ | ⟨ht, q, hq, hfind, hpr, hchain, _⟩
    · refine ⟨fun _ => he, fun h => ?_⟩
      rw [hf] at h; cases h
    · refine ⟨fun h => ?_, fun _ => ⟨q, hq, ?_, ?_, ?_⟩⟩
      · rw [ht] at h; cases h
      · intro m hm
        rw [Trie.get, show Trie.exact _ 0 (keys m) = _ from hfind (keys m), if_neg (fun h => hm (keys_nil.mp h))]
        split
        · rfl
        · rw [Trie.get, find]
          cases t.exact 0 (keys m) with
          | none => rfl
          | some c => simp only [Option.map_some, hs.val]
      · rw [Trie.get, Trie.get]
        simp only [keys, List.map_nil, Trie.exact, Option.map_some, hs.val]
      · intro m u hqm hu
        rw [Trie.get] at hu
        cases hm : t.exact 0 (keys m) with
        | none => rw [hm] at hu; cases hu
        | some c =>
          rw [hm] at hu
          simp only [Option.map_some, Option.some.injEq] at hu
          rcases hchain _ _ hqm hm with h' | h'
          · right
            refine ⟨h', ?_⟩
            rw [← hu]; exact hpr _ _ hqm h' hm
          · exact .inl h'

/-- C37 (deletion of one name): when nothing exists below the name and every proper prefix of it either has a value that fails
the test or a node elsewhere below it, deleting the name changes no other name. -/
theorem C37_delete_partial (v0 : V) (ops : List (TrieOp V)) (name : Name) (pred : V → Bool) (v : V) (h0 : name ≠ [])
    (hv : (trieAfter v0 ops).get name = some v) (hp : pred v = true)
    (hleaf : ∀ m u, keys name <+: keys m → (trieAfter v0 ops).get m = some u → keys m = keys name)
    (hup : ∀ p, p ≠ [] → p <+: name → p ≠ name → (∃ u, (trieAfter v0 ops).get p = some u ∧ pred u = false) ∨
      ∃ m u, p <+: m ∧ ¬ keys m <+: keys name ∧ (trieAfter v0 ops).get m = some u) :
    (trieAfter v0 (.deleteIf name pred :: ops)).get name = none ∧
    ∀ m, keys m ≠ keys name → (trieAfter v0 (.deleteIf name pred :: ops)).get m = (trieAfter v0 ops).get m := by
  obtain ⟨q, hq, hget, hroot, honly⟩ := (C37_delete_exact v0 ops name pred v hv).2 hp
  have hkp : ∀ {a b : Name}, a <+: b → keys a <+: keys b := by
    rintro a b ⟨s, rfl⟩
    exact ⟨keys s, by simp [keys]⟩
  refine ⟨by rw [hget name h0, if_pos hq], ?_⟩
  intro m hm
  by_cases hm0 : m = []
  · subst hm0; exact hroot
  · rw [hget m hm0]
    split
    · rename_i hqm
      cases hgm : (trieAfter v0 ops).get m with
      | none => rfl
      | some u =>
        exfalso
        rcases honly m u hqm hgm with h' | ⟨h', hpu⟩
        · exact hm (hleaf m u h' hgm)
        · -- m is a proper prefix of the name and was removed
          have hml : m.length < name.length := by
            rcases Nat.lt_or_ge m.length name.length with h | h
            · exact h
            · exact absurd (h'.eq_of_length_le (by simpa [keys] using h)) hm
          have hke : keys (name.take m.length) = keys m := by
            have : keys name = keys (name.take m.length) ++ keys (name.drop m.length) := by
              rw [keys, keys, keys, ← List.map_append, List.take_append_drop]
            obtain ⟨s, hs⟩ := h'
            rw [← hs] at this
            exact (List.append_inj this (by simp only [keys, List.length_map, List.length_take]; omega)).1.symm
          have hne : name.take m.length ≠ name := by
            intro h
            have := congrArg List.length h
            simp only [List.length_take] at this
            omega
          have htn : name.take m.length ≠ [] := by
            intro h
            have := congrArg List.length h
            have hmp := List.length_pos_iff.mpr hm0
            simp only [List.length_take, List.length_nil] at this
            omega
          rcases hup (name.take m.length) htn (List.take_prefix _ _) hne with ⟨u', hu', hpf⟩ | ⟨m', u', hpm, hnm, hum⟩
          · rw [Trie.get, hke] at hu'
            rw [Trie.get] at hgm
            rw [hgm] at hu'
            injection hu' with hu'
            rw [hu', hpf] at hpu; cases hpu
          · have hqm' : q <+: keys m' := hqm.trans (hke ▸ hkp hpm)
            rcases honly m' u' hqm' hum with h2 | ⟨h2, _⟩
            · have := hleaf m' u' h2 hum
              rw [this] at hnm
              exact hnm (List.prefix_refl _)
            · exact hnm h2
    · rfl

/-- the hypotheses of `C37_delete_partial` hold for `/a/b` when `/a/c` exists too -/
example :
    let t := trieAfter (0 : Nat) [.delete [⟨8, [97]⟩, ⟨8, [98]⟩], .set [⟨8, [97]⟩, ⟨8, [99]⟩] 2, .set [⟨8, [97]⟩, ⟨8, [98]⟩] 1]
    t.get [⟨8, [97]⟩, ⟨8, [98]⟩] = none ∧ t.get [⟨8, [97]⟩, ⟨8, [99]⟩] = some 2 ∧ t.get [⟨8, [97]⟩] = some 0 := by
  decide

/-- C37 fails: deleting `/a/b` takes away the value that was set for `/a`; and deleting `/a` takes away the value that was set for
`/a/b`. -/
theorem C37_delete_violated :
    let a : Name := [⟨8, [97]⟩]
    let ab : Name := [⟨8, [97]⟩, ⟨8, [98]⟩]
    let ops : List (TrieOp Nat) := [.set ab 2, .set a 1]
    (trieAfter 0 ops).get a = some 1 ∧ (trieAfter 0 (.delete ab :: ops)).get a = none ∧
    (trieAfter 0 ops).get ab = some 2 ∧ (trieAfter 0 (.delete a :: ops)).get ab = none := by
  decide

/-- C37 fails for numbers that are not in shortest form: setting the value of one name changes that of another. -/
theorem C37_nonminimal_violated :
    let p : Name := [⟨50, [1]⟩]
    let q : Name := [⟨50, [0, 1]⟩]
    p ≠ q ∧ (trieAfter 0 [.set p 1]).get q = some 1 := by
  decide

end Ndn.Engine
