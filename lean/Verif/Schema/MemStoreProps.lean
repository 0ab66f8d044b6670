import Verif.Schema.MemStore
import Verif.Schema.ExpressProps
import Verif.Engine.TrieProps
import Verif.Engine.FibProps

/-! # Properties of the memory storage: C53 -/

namespace Ndn.Schema
open Ndn.Engine Trie

/-- the specification: the last packet that was put under a name -/
def lastPut (puts : List (Name × CacheEntry)) (name : Name) : Option CacheEntry := (puts.find? fun p => p.1 = name).map (·.2)

/-- can the packet be used? -/
def Usable (mustBeFresh : Bool) (now : Int) (e : CacheEntry) : Prop := e.raw ≠ [] ∧ (mustBeFresh = true → now < e.validity)

theorem freshTest_iff (f : Bool) (now : Int) (e : CacheEntry) : freshTest f now e = true ↔ Usable f now e := by
  unfold freshTest Usable
  rw [Bool.and_eq_true, decide_eq_true_iff, List.length_pos_iff]
  cases f <;> simp

def keyPut (puts : List (Name × CacheEntry)) (ks : List Bytes) : Option CacheEntry := (puts.find? fun p => keys p.1 = ks).map (·.2)

theorem keyPut_eq {puts : List (Name × CacheEntry)} (hp : ∀ p ∈ puts, Canon p.1) {name : Name} (hn : Canon name) :
    keyPut puts (keys name) = lastPut puts name := by
  unfold keyPut lastPut
  congr 1
  induction puts with
  | nil => rfl
  | cons p ps ih =>
    rw [List.find?_cons, List.find?_cons, ih fun q hq => hp q (List.mem_cons_of_mem _ hq)]
    have : (keys p.1 = keys name) ↔ (p.1 = name) := ⟨keys_inj (hp p List.mem_cons_self) hn, fun h => by rw [h]⟩
    simp only [this]

theorem mem_spec (z : Int) (puts : List (Name × CacheEntry)) :
    (memAfter z puts).WF ∧
    (∀ ks c, (memAfter z puts).find ks = some c → ((memAfter z puts).node c).val = (keyPut puts ks).getD (CacheEntry.zero z)) ∧
    (∀ ks e, keyPut puts ks = some e → ∃ c, (memAfter z puts).find ks = some c) := by
  induction puts with
  | nil =>
    refine ⟨WF.new _, fun ks c h => rfl, fun ks e h => by cases h⟩
  | cons p ps ih =>
    obtain ⟨hw, hv, he⟩ := ih
    rw [show memAfter z (p :: ps) = memPut z (memAfter z ps) p.1 p.2.raw p.2.validity from rfl]
    generalize memAfter z ps = t at *
    unfold memPut
    obtain ⟨hw1, hg, hend, hlt⟩ := matchAlways_spec (CacheEntry.zero z) (keys p.1) t 0 hw hw.pos
    have hoff := matchAlways_off (CacheEntry.zero z) (keys p.1) t 0 [] hw rfl
    generalize matchAlways (CacheEntry.zero z) t 0 (keys p.1) = res at hw1 hg hend hlt hoff
    obtain ⟨n, t1⟩ := res
    simp only at hw1 hg hend hlt hoff ⊢
    have hs := setValue_same t1 n p.2
    refine ⟨hs.wf hw1, ?_, ?_⟩
    · intro ks c hc
      rw [Trie.find, hs.exact] at hc
      rw [show (⟨p.2.raw, p.2.validity⟩ : CacheEntry) = p.2 from rfl, setValue_val]
      unfold keyPut
      rw [List.find?_cons]
      by_cases hk : keys p.1 = ks
      · subst hk
        have : c = n := Option.some.inj (hc.symm.trans hend)
        rw [if_pos this]
        simp
      · have hcn : c ≠ n := by
          rintro rfl
          exact hk (hw1.find_inj hend hc)
        rw [if_neg hcn]
        simp only [hk, decide_false]
        rcases hoff ks c hc with h' | ⟨hge, _⟩
        · rw [hg.val c (hw.exact_lt hw.pos h')]; exact hv ks c h'
        · rw [hg.fresh c hge (hw1.exact_lt hw1.pos hc)]
          have hnone : keyPut ps ks = none := by
            cases hkp : keyPut ps ks with
            | none => rfl
            | some e =>
              obtain ⟨c', hc'⟩ := he ks e hkp
              have h1 := hg.exact hw hw1 hw.pos hc'
              have : c' = c := Option.some.inj (h1.symm.trans hc)
              have := hw.exact_lt hw.pos hc'
              omega
          unfold keyPut at hnone
          rw [hnone]; rfl
    · intro ks e h
      simp only [Trie.find]
      rw [hs.exact]
      unfold keyPut at h
      rw [List.find?_cons] at h
      by_cases hk : keys p.1 = ks
      · subst hk; exact ⟨n, hend⟩
      · simp only [hk, decide_false] at h
        obtain ⟨c', hc'⟩ := he ks e h
        exact ⟨c', hg.exact hw hw1 hw.pos hc'⟩

section dfs
variable {V : Type} {ord : Nat → List (Bytes × Nat) → List (Bytes × Nat)} {pred : V → Bool} {t : Trie V}

theorem firstNodeIf_sound (ho : ∀ i l, (ord i l).Perm l) (hw : t.WF) : ∀ (fuel id m : Nat), id < t.size → firstNodeIf ord pred t fuel id = some m →
    ∃ ls, t.exact id ls = some m ∧ pred (t.node m).val = true := by
  intro fuel
  induction fuel with
  | zero => intro id m _ h; cases h
  | succ fuel ih =>
    intro id m hi h
    rw [firstNodeIf] at h
    split at h
    · rename_i hp
      injection h with h
      subst h
      exact ⟨[], rfl, hp⟩
    · rw [List.findSome?_eq_some_iff] at h
      obtain ⟨l1, e, l2, he, h, _⟩ := h
      have hm : e ∈ (t.node id).chd := (ho id _).mem_iff.mp (by rw [he]; simp)
      have hc := hw.chd id hi e.1 e.2 hm
      obtain ⟨ls, h1, h2⟩ := ih e.2 m hc.1 h
      refine ⟨e.1 :: ls, ?_, h2⟩
      rw [Trie.exact, mem_child (hw.nodup id hi) hm]
      exact h1

theorem firstNodeIf_complete (ho : ∀ i l, (ord i l).Perm l) (hw : t.WF) : ∀ (fuel id m : Nat) (ls : List Bytes), id < t.size → t.size - id ≤ fuel →
    t.exact id ls = some m → pred (t.node m).val = true → (firstNodeIf ord pred t fuel id).isSome := by
  intro fuel
  induction fuel with
  | zero => intro id m ls hi hf; omega
  | succ fuel ih =>
    intro id m ls hi hf he hp
    rw [firstNodeIf]
    split
    · rfl
    · rename_i hn
      cases ls with
      | nil =>
        have : id = m := Option.some.inj he
        subst this
        exact absurd hp hn
      | cons k ls =>
        rw [Trie.exact] at he
        cases hc : (t.node id).child k with
        | none => rw [hc] at he; cases he
        | some c =>
          rw [hc] at he
          have hcm := child_mem hc
          have hcc := hw.chd id hi k c hcm
          have hlt : id < c := by
            obtain ⟨p, hpl, hpe⟩ := hw.par c hcc.2.1 hcc.1
            rw [hcc.2.2.1] at hpe
            injection hpe with hpe
            omega
          have := ih c m ls hcc.1 (by omega) he hp
          rw [List.findSome?_isSome_iff]
          exact ⟨(k, c), (ho id _).mem_iff.mpr hcm, this⟩

end dfs

/-- C53: a packet that was stored under the requested name, and not replaced, is found if it is usable.  (Names with numbers in shortest form.) -/
theorem C53_found (z : Int) (puts : List (Name × CacheEntry)) (hp : ∀ p ∈ puts, Canon p.1) (name : Name) (hn : Canon name)
    (ord : Nat → List (Bytes × Nat) → List (Bytes × Nat)) (now : Int) (canBePrefix mustBeFresh : Bool) (e : CacheEntry)
    (he : lastPut puts name = some e) (hu : Usable mustBeFresh now e) :
    memGet ord (memAfter z puts) now name canBePrefix mustBeFresh = some e.raw := by
  obtain ⟨_, hv, hex⟩ := mem_spec z puts
  rw [← keyPut_eq hp hn] at he
  obtain ⟨c, hc⟩ := hex _ _ he
  have hval := hv _ _ hc
  rw [he] at hval
  unfold memGet
  rw [show (memAfter z puts).exact 0 (keys name) = some c from hc]
  simp only
  rw [hval, Option.getD_some, if_pos ((freshTest_iff _ _ _).2 hu)]

/-- C53: a lookup returns a packet that was stored, and not replaced, under the requested name or an extension of it; it is not empty, and with
MustBeFresh it is still fresh.  Missing: that it is under the requested name if CanBePrefix is not set, see `C53_exact_violated`. -/
theorem C53_answer_partial (z : Int) (puts : List (Name × CacheEntry)) (hp : ∀ p ∈ puts, Canon p.1) (name : Name) (hn : Canon name)
    (ord : Nat → List (Bytes × Nat) → List (Bytes × Nat)) (ho : ∀ i l, (ord i l).Perm l) (now : Int) (canBePrefix mustBeFresh : Bool) (w : Wire)
    (h : memGet ord (memAfter z puts) now name canBePrefix mustBeFresh = some w) :
    ∃ m e, name <+: m ∧ lastPut puts m = some e ∧ e.raw = w ∧ Usable mustBeFresh now e := by
  obtain ⟨hw, hv, hex⟩ := mem_spec z puts
  have key : ∀ ks c, (memAfter z puts).find ks = some c → keys name <+: ks → freshTest mustBeFresh now ((memAfter z puts).node c).val = true →
      ((memAfter z puts).node c).val.raw = w → ∃ m e, name <+: m ∧ lastPut puts m = some e ∧ e.raw = w ∧ Usable mustBeFresh now e := by
    intro ks c hc hpre hf hraw
    have hval := hv _ _ hc
    cases hk : keyPut puts ks with
    | none =>
      rw [hk] at hval
      rw [hval] at hf
      cases hf
    | some e =>
      rw [hk, Option.getD_some] at hval
      rw [hval] at hf hraw
      have hm : ∃ p ∈ puts, keys p.1 = ks := by
        unfold keyPut at hk
        cases hfd : puts.find? (fun p => keys p.1 = ks) with
        | none => rw [hfd] at hk; cases hk
        | some q => exact ⟨q, List.mem_of_find?_eq_some hfd, by simpa using List.find?_some hfd⟩
      obtain ⟨p, hpm, rfl⟩ := hm
      rw [keyPut_eq hp (hp p hpm)] at hk
      exact ⟨p.1, e, (keys_prefix hn (hp p hpm)).1 hpre, hk, hraw, (freshTest_iff _ _ _).1 hf⟩
  unfold memGet at h
  cases hc : (memAfter z puts).exact 0 (keys name) with
  | none => rw [hc] at h; cases h
  | some c =>
    rw [hc] at h
    simp only at h
    by_cases hf : freshTest mustBeFresh now ((memAfter z puts).node c).val = true
    · rw [if_pos hf] at h
      exact key (keys name) c hc List.prefix_rfl hf (Option.some.inj h)
    · rw [if_neg hf] at h
      cases hd : firstNodeIf ord (freshTest mustBeFresh now) (memAfter z puts) ((memAfter z puts).size + 1) c with
      | none => rw [hd] at h; cases h
      | some m =>
        rw [hd] at h
        obtain ⟨ls, h1, h2⟩ := firstNodeIf_sound ho hw _ _ _ (hw.exact_lt hw.pos hc) hd
        refine key (keys name ++ ls) m ?_ (List.prefix_append _ _) h2 (Option.some.inj h)
        rw [Trie.find, exact_append, hc]
        exact h1

/-- C53: if there is a usable packet under the requested name or an extension of it, a lookup finds one. -/
theorem C53_extension (z : Int) (puts : List (Name × CacheEntry)) (hp : ∀ p ∈ puts, Canon p.1) (name m : Name) (hn : name <+: m) (hm : Canon m)
    (ord : Nat → List (Bytes × Nat) → List (Bytes × Nat)) (ho : ∀ i l, (ord i l).Perm l) (now : Int) (canBePrefix mustBeFresh : Bool) (e : CacheEntry)
    (he : lastPut puts m = some e) (hu : Usable mustBeFresh now e) :
    (memGet ord (memAfter z puts) now name canBePrefix mustBeFresh).isSome := by
  obtain ⟨hw, hv, hex⟩ := mem_spec z puts
  rw [← keyPut_eq hp hm] at he
  obtain ⟨c, hc⟩ := hex _ _ he
  have hval := hv _ _ hc
  rw [he, Option.getD_some] at hval
  obtain ⟨r, rfl⟩ := hn
  have hc' := hc
  rw [show keys (name ++ r) = keys name ++ keys r from List.map_append] at hc
  obtain ⟨d, hd⟩ := find_prefix hc
  rw [Trie.find, exact_append, show (memAfter z puts).exact 0 (keys name) = some d from hd] at hc
  unfold memGet
  rw [show (memAfter z puts).exact 0 (keys name) = some d from hd]
  simp only
  split
  · rfl
  · rw [Option.isSome_map]
    exact firstNodeIf_complete ho hw _ d c (keys r) (hw.exact_lt hw.pos hd) (by omega) hc (by rw [hval]; exact (freshTest_iff _ _ _).2 hu)

/-- `/a` was stored, replaced, and then `/a/b` was stored: a query for `/a` that wants a fresh packet at time 60 gets the one of `/a/b`, one that does
not gets the second one of `/a` -/
example :
    let puts : List (Name × CacheEntry) := [(nmAB, ⟨[[3]], 100⟩), (nmA, ⟨[[2]], 50⟩), (nmA, ⟨[[1]], 90⟩)]
    memGet (fun _ l => l) (memAfter 0 puts) 60 nmA true true = some [[3]] ∧ memGet (fun _ l => l) (memAfter 0 puts) 60 nmA true false = some [[2]] ∧
    lastPut puts nmA = some ⟨[[2]], 50⟩ ∧ ∀ p ∈ puts, Canon p.1 := by
  refine ⟨by decide, by decide, by decide, ?_⟩
  simp [canon_ex]

/-- C53: a Data that is saved at time `now` with FreshnessPeriod `f` answers queries for its name that want a fresh packet until `now + f`, and no longer:
what then is answered was stored under another name. -/
theorem C53_freshness (z : Int) (puts : List (Name × CacheEntry)) (hp : ∀ p ∈ puts, Canon p.1) (name : Name) (hn : Canon name) (raw : Wire) (hr : raw ≠ [])
    (now f : Int) (ord : Nat → List (Bytes × Nat) → List (Bytes × Nat)) (ho : ∀ i l, (ord i l).Perm l) (d : Packet.DataV) (hd : d.name = some name)
    (hf : freshnessOf d = some f) :
    ∃ t, saveAndCall z (memAfter z puts) now d raw = .ok (t, .data) ∧ ∀ (later : Int) (canBePrefix : Bool),
      (later < now + f → memGet ord t later name canBePrefix true = some raw) ∧
      (now + f ≤ later → ∀ w, memGet ord t later name canBePrefix true = some w →
        ∃ m e, name <+: m ∧ m ≠ name ∧ lastPut puts m = some e ∧ e.raw = w ∧ later < e.validity) := by
  have hp' : ∀ p ∈ (name, (⟨raw, now + f⟩ : CacheEntry)) :: puts, Canon p.1 := by
    intro p hm
    rcases List.mem_cons.mp hm with rfl | hm
    · exact hn
    · exact hp p hm
  refine ⟨memAfter z ((name, ⟨raw, now + f⟩) :: puts), ?_, fun later cp => ⟨fun hl => ?_, fun hl w hw => ?_⟩⟩
  · unfold saveAndCall
    rw [hf, hd]
    rfl
  · exact C53_found z _ hp' name hn ord later cp true ⟨raw, now + f⟩ (by simp [lastPut]) ⟨hr, fun _ => hl⟩
  · obtain ⟨m, e, h1, h2, h3, h4⟩ := C53_answer_partial z _ hp' name hn ord ho later cp true w hw
    by_cases hm : m = name
    · subst hm
      have : e = ⟨raw, now + f⟩ := by simpa [lastPut] using h2.symm
      subst this
      have := h4.2 rfl
      exact absurd this (by show ¬later < now + f; omega)
    · refine ⟨m, e, h1, hm, ?_, h3, h4.2 rfl⟩
      unfold lastPut at h2 ⊢
      rw [List.find?_cons_of_neg (by simpa using fun h => hm h.symm)] at h2
      exact h2

/-- C53 fails: a lookup without CanBePrefix returns a packet that was stored under a longer name. -/
theorem C53_exact_violated :
    memGet (fun _ l => l) (memAfter 0 [(nmAB, ⟨[[3]], 100⟩)]) 60 nmA false true = some [[3]] ∧ lastPut [(nmAB, ⟨[[3]], 100⟩)] nmA = none := by
  decide

/-- C53 fails for numbers that are not in shortest form: a lookup of `seg=1` returns the packet of another name. -/
theorem C53_nonminimal_violated :
    memGet (fun _ l => l) (memAfter 0 [([⟨50, [0, 1]⟩], ⟨[[3]], 100⟩)]) 60 [⟨50, [1]⟩] false true = some [[3]] ∧
    ([⟨50, [0, 1]⟩] : Name) ≠ [⟨50, [1]⟩] := by
  decide

/-- C52 fails: when the storage is a `MemStoragePolicy`, a validated Data without a FreshnessPeriod makes the goroutine panic before the callback is
called, whatever the storage holds; with a FreshnessPeriod the callback is called. -/
theorem C52_save_panics (z : Int) (t : Trie CacheEntry) (now : Int) (raw : Wire) (name : Name) (f : Int) :
    saveAndCall z t now { name := some name } raw = .panic ∧
    saveAndCall z t now { name := some name, metaInfo := some (none, none, none, ()) } raw = .panic ∧
    ∃ t', saveAndCall z t now { name := some name, metaInfo := some (none, some f, none, ()) } raw = .ok (t', .data) :=
  ⟨rfl, rfl, _, rfl⟩

end Ndn.Schema
