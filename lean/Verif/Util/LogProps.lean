import Verif.Util.Log

/-!
# C93: the logger

Whatever a program does with entries, maps and levels, the handler gets exactly the messages at or above the level of the logger, in order, each with
the fields of its entry: for each key the value in the last of the maps that were added on the way from the logger to this entry, as the map is when the message is logged.
Entries made from the same entry do not disturb each other, although their slices may have spare room.
-/

namespace Ndn.Log

variable {V : Type}

/-! ## Specification -/

/-- entries are paths of maps (`none`: no map), maps are functions -/
structure Spec (V : Type) where
  maps : List (String → Option V)
  entries : List (List (Option Nat) × String)
  level : Level
  out : List (Level × String × (String → Option V))

/-- the value of a key: the last map that has it decides -/
def valueOf (maps : List (String → Option V)) (path : List (Option Nat)) (k : String) : Option V :=
  path.reverse.findSome? (fun r => r.bind (fun i => (maps[i]?).bind (fun f => f k)))

def update (f : String → Option V) (k : String) (v : V) : String → Option V := fun k' => if k' = k then some v else f k'

def Spec.path (t : Spec V) : Option Nat → Option (List (Option Nat))
  | none => some []
  | some i => (t.entries[i]?).map (·.1)

def Spec.say (t : Spec V) (l : Level) (path : List (Option Nat)) (msg : String) : Spec V :=
  if l < t.level then t else { t with out := t.out ++ [(l, msg, valueOf t.maps path)] }

def Spec.step (t : Spec V) : Op V → Spec V
  | .newMap kvs => { t with maps := t.maps ++ [kvs.foldl (fun f p => update f p.1 p.2) (fun _ => none)] }
  | .put m k v => { t with maps := t.maps.modify m (fun f => update f k v) }
  | .withFields e m =>
    match t.path e with
    | some p => if m < t.maps.length then { t with entries := t.entries ++ [(p ++ [some m], "")] } else t
    | none => t
  | .withField e k v =>
    match t.path e with
    | some p => { t with maps := t.maps ++ [update (fun _ => none) k v], entries := t.entries ++ [(p ++ [some t.maps.length], "")] }
    | none => t
  | .log e l msg =>
    match t.path e with
    | some p => t.say l p msg
    | none => t
  | .trace e msg =>
    match t.path e with
    | some p => let t := t.say 1 p msg; { t with entries := t.entries ++ [(p ++ [none], msg)] }
    | none => t
  | .stop i d err =>
    match t.entries[i]? with
    | some (p, msg) =>
      let n := t.maps.length
      let t := { t with maps := t.maps ++ [update (fun _ => none) "duration" d] }
      match err with
      | none => t.say 1 (p ++ [some n]) msg
      | some x =>
        let t := { t with maps := t.maps ++ [update (fun _ => none) "error" x] }
        t.say 3 (p ++ [some n, some (n + 1)]) msg
    | none => t
  | .setLevel l => { t with level := l }

def Spec.run : Spec V → List (Op V) → Spec V
  | t, [] => t
  | t, o :: ops => Spec.run (t.step o) ops

def Spec.init : Spec V := ⟨[], [], 1, []⟩

/-! ## Maps -/

/-- no key twice -/
def Distinct (f : Fields V) : Prop := (f.map (·.1)).Nodup

theorem lookup_map_put (f : Fields V) (k : String) (v : V) (k' : String) (h : f.any (·.1 = k) = true) :
    (f.map (fun p => if p.1 = k then (k, v) else p)).lookup k' = if k' = k then some v else f.lookup k' := by
  induction f with
  | nil => simp at h
  | cons p f ih =>
    obtain ⟨a, b⟩ := p
    rw [List.map_cons]
    by_cases ha : a = k
    · subst ha
      simp only [if_true, List.lookup_cons]
      by_cases hk : k' = a
      · subst hk; simp
      · have : (k' == a) = false := by simpa using hk
        simp only [this, if_neg hk]
        by_cases hf : f.any (·.1 = a) = true
        · rw [ih hf, if_neg hk]
        · rw [show f.map (fun p => if p.1 = a then (a, v) else p) = f from by
            rw [List.map_congr_left (g := id) ?_]
            · simp
            · intro p hp
              have : p.1 ≠ a := by
                intro e
                exact hf (List.any_eq_true.mpr ⟨p, hp, by simpa using e⟩)
              simp [this]]
    · simp only [if_neg ha, List.lookup_cons]
      have hf : f.any (·.1 = k) = true := by simpa [ha] using h
      by_cases hk : k' = a
      · subst hk; simp [ha]
      · have : (k' == a) = false := by simpa using hk
        simp only [this]
        exact ih hf

theorem lookup_put (f : Fields V) (k : String) (v : V) (k' : String) : (f.put k v).lookup k' = if k' = k then some v else f.lookup k' := by
  unfold Fields.put
  split
  · rename_i h; exact lookup_map_put f k v k' h
  · rename_i h
    rw [List.lookup_append]
    have hn : k' = k → f.lookup k' = none := by
      rintro rfl
      rw [List.lookup_eq_none_iff]
      intro p hp
      have : ¬ p.1 = k' := fun e => h (List.any_eq_true.mpr ⟨p, hp, by simpa using e⟩)
      simpa using fun e => this e.symm
    by_cases hk : k' = k
    · subst hk; simp [hn rfl]
    · have : (k' == k) = false := by simpa using hk
      simp [hk, List.lookup_cons, this]

theorem distinct_put {f : Fields V} (h : Distinct f) (k : String) (v : V) : Distinct (f.put k v) := by
  unfold Fields.put Distinct at *
  split
  · rw [List.map_map]
    rwa [List.map_congr_left (g := (·.1)) ?_]
    intro p _
    simp only [Function.comp_apply]
    split
    · rename_i e; exact e.symm
    · rfl
  · rename_i hn
    rw [List.map_append, List.nodup_append]
    refine ⟨h, by simp, ?_⟩
    intro a ha b hb
    obtain ⟨p, hp, rfl⟩ := List.mem_map.mp ha
    simp only [List.map_cons, List.map_nil, List.mem_singleton] at hb
    subst hb
    intro e
    exact hn (List.any_eq_true.mpr ⟨p, hp, by simpa using e⟩)

theorem lookup_foldl (g : Fields V) : ∀ (f : Fields V) (k : String), Distinct g →
    (g.foldl (fun f p => f.put p.1 p.2) f).lookup k = (g.lookup k).or (f.lookup k) := by
  induction g with
  | nil => intro f k _; simp
  | cons p g ih =>
    intro f k hd
    obtain ⟨a, b⟩ := p
    unfold Distinct at hd ih
    rw [List.map_cons, List.nodup_cons] at hd
    rw [List.foldl_cons, ih _ _ hd.2, lookup_put, List.lookup_cons]
    by_cases hk : k = a
    · subst hk
      have : g.lookup k = none := by
        rw [List.lookup_eq_none_iff]
        intro p hp
        have : k ≠ p.1 := fun e => hd.1 (e ▸ List.mem_map.mpr ⟨p, hp, rfl⟩)
        simpa using this
      simp [this]
    · have : (k == a) = false := by simpa using hk
      simp [this, hk]

theorem distinct_foldl (g : Fields V) : ∀ (f : Fields V), Distinct f → Distinct (g.foldl (fun f p => f.put p.1 p.2) f) := by
  induction g with
  | nil => intro f h; exact h
  | cons p g ih => intro f h; exact ih _ (distinct_put h _ _)

theorem mem_of_lookup {f : Fields V} {k : String} {v : V} (h : f.lookup k = some v) : (k, v) ∈ f := by
  induction f with
  | nil => simp at h
  | cons p f ih =>
    obtain ⟨a, b⟩ := p
    rw [List.lookup_cons] at h
    split at h
    · rename_i e
      have e : k = a := by simpa using e
      injection h with h
      subst e h
      exact List.mem_cons_self
    · exact List.mem_cons_of_mem _ (ih h)

theorem lookup_of_mem {f : Fields V} (hd : Distinct f) {k : String} {v : V} (h : (k, v) ∈ f) : f.lookup k = some v := by
  induction f with
  | nil => simp at h
  | cons p f ih =>
    obtain ⟨a, b⟩ := p
    unfold Distinct at hd ih
    rw [List.map_cons, List.nodup_cons] at hd
    rw [List.lookup_cons]
    rcases List.mem_cons.mp h with e | e
    · injection e with e1 e2
      subst e1 e2
      simp
    · have : k ≠ a := by
        rintro rfl
        exact hd.1 (List.mem_map.mpr ⟨_, e, rfl⟩)
      have : (k == a) = false := by simpa using this
      rw [this]
      exact ih hd.2 e

theorem lookup_perm {f g : Fields V} (h : f.Perm g) (hd : Distinct g) (k : String) : f.lookup k = g.lookup k := by
  have hf : Distinct f := by
    unfold Distinct at *
    exact ((h.map _).nodup_iff).mpr hd
  cases hg : g.lookup k with
  | some v => exact lookup_of_mem hf (h.mem_iff.mpr (mem_of_lookup hg))
  | none =>
    cases hf' : f.lookup k with
    | none => rfl
    | some v => rw [lookup_of_mem hd (h.mem_iff.mp (mem_of_lookup hf'))] at hg; cases hg

/-! ## Slices -/

open Go in
/-- all slices that were sound are sound and show what they showed -/
def Keeps (a a' : Mem (Option Nat)) : Prop := ∀ o : Slice, o.Ok a → o.Ok a' ∧ a'.read o = a.read o

open Go in
theorem keeps_concat (a : Mem (Option Nat)) (x : List (Option Nat)) : Keeps a (a ++ [x]) := fun _ h => ⟨ok_old h _, read_old h _⟩

theorem Keeps.trans {a b c : Go.Mem (Option Nat)} (h : Keeps a b) (h2 : Keeps b c) : Keeps a c := fun o ho =>
  ⟨(h2 o (h o ho).1).1, by rw [(h2 o (h o ho).1).2, (h o ho).2]⟩

open Go in
theorem withFields_spec (g g2 : Nat) (s : State V) (e : Entry) (m : Option Nat) (he : e.fields.Ok s.arrays) :
    ∃ a f, withFields g g2 s e m = ({ s with arrays := a }, ⟨f, ""⟩) ∧ Keeps s.arrays a ∧ f.Ok a ∧ a.read f = s.arrays.read e.fields ++ [m] := by
  unfold withFields
  generalize h0 : Mem.make none s.arrays [] 0 = x0
  obtain ⟨a0, f0⟩ := x0
  have m0 := make_spec (none : Option Nat) s.arrays [] 0
  rw [h0] at m0
  obtain ⟨o0, r0, l0, c0⟩ := m0
  have e0 : a0 = s.arrays ++ [[]] := by have := congrArg Prod.fst h0; simpa [Mem.make] using this.symm
  have f0e : f0.arr = s.arrays.length := by have := congrArg Prod.snd h0; simp [Mem.make] at this; rw [← this]
  have k0 : Keeps s.arrays a0 := e0 ▸ keeps_concat _ _
  have re : a0.read e.fields = s.arrays.read e.fields := (k0 _ he).2
  simp only []
  rw [re]
  generalize h1 : appendAll none g a0 f0 (s.arrays.read e.fields) = x1
  obtain ⟨a1, f1⟩ := x1
  have key : Keeps a0 a1 ∧ f1.Ok a1 ∧ a1.read f1 = s.arrays.read e.fields ∧ s.arrays.length ≤ f1.arr := by
    unfold appendAll at h1
    split at h1
    · rename_i hn
      injection h1 with h1 h2
      subst h1 h2
      exact ⟨fun o ho => ⟨ho, rfl⟩, o0, by rw [r0, hn], by omega⟩
    · rename_i hn
      have hlen : 0 < (s.arrays.read e.fields).length := List.length_pos_iff.mpr hn
      rw [if_neg (by simp at l0 c0; omega)] at h1
      injection h1 with h1 h2
      simp only [List.length_nil] at l0
      rw [r0, List.nil_append] at h1
      subst h1 h2
      rw [l0]
      refine ⟨keeps_concat _ _, ⟨by show 0 + _ ≤ 0 + _ + g; omega, _, List.getElem?_concat_length, by simp⟩, ?_, ?_⟩
      · rw [read_new]
        exact List.take_left' (by omega)
      · rw [e0]; simp
  obtain ⟨k1, o1, r1, g1⟩ := key
  simp only []
  generalize h2 : Mem.append none g2 a1 f1 m = x2
  obtain ⟨a2, f2⟩ := x2
  obtain ⟨r2, o2, oks, rds, _⟩ := append_spec none g2 o1 m h2
  refine ⟨a2, f2, rfl, ?_, o2, by rw [r2, r1]⟩
  intro o ho
  have ho1 := (k0.trans k1) o ho
  have hb : o.Before f1 := by
    obtain ⟨_, b, hb, _⟩ := ho
    have hlt : o.arr < s.arrays.length := (List.getElem?_eq_some_iff.mp hb).1
    exact .inl (by omega)
  exact ⟨oks o ho1.1, by rw [rds o ho1.1 hb, ho1.2]⟩

/-! ## Refinement -/

/-- a map stands for a function -/
def MapOk (f : Fields V) (g : String → Option V) : Prop := Distinct f ∧ ∀ k, f.lookup k = g k

/-- two lists of the same length, element by element -/
def Both {α β : Type} (R : α → β → Prop) (l : List α) (l' : List β) : Prop :=
  l.length = l'.length ∧ ∀ (i : Nat) a b, l[i]? = some a → l'[i]? = some b → R a b

theorem Both.nil {α β : Type} (R : α → β → Prop) : Both R [] [] := ⟨rfl, by intro i a b h; simp at h⟩

theorem Both.concat {α β : Type} {R : α → β → Prop} {l : List α} {l' : List β} (h : Both R l l') {a : α} {b : β} (hab : R a b) : Both R (l ++ [a]) (l' ++ [b]) := by
  refine ⟨by simp [h.1], ?_⟩
  intro i x y hx hy
  rw [List.getElem?_append] at hx hy
  by_cases hi : i < l.length
  · rw [if_pos hi] at hx
    rw [if_pos (by rw [← h.1]; exact hi)] at hy
    exact h.2 i x y hx hy
  · rw [if_neg hi] at hx
    rw [if_neg (by rw [← h.1]; exact hi), ← h.1] at hy
    have : i - l.length = 0 := by
      by_cases h0 : i - l.length = 0
      · exact h0
      · rw [List.getElem?_eq_none (by simp; omega)] at hx; cases hx
    rw [this] at hx hy
    simp only [List.getElem?_cons_zero, Option.some.injEq] at hx hy
    subst hx hy
    exact hab

theorem Both.mono {α β : Type} {R S : α → β → Prop} {l : List α} {l' : List β} (h : Both R l l') (hrs : ∀ a b, R a b → S a b) : Both S l l' :=
  ⟨h.1, fun i a b ha hb => hrs a b (h.2 i a b ha hb)⟩

theorem Both.at {α β : Type} {R : α → β → Prop} {l : List α} {l' : List β} (h : Both R l l') (i : Nat) :
    (l[i]? = none ∧ l'[i]? = none) ∨ ∃ a b, l[i]? = some a ∧ l'[i]? = some b ∧ R a b := by
  by_cases hi : i < l.length
  · have hi' : i < l'.length := by rw [← h.1]; exact hi
    exact .inr ⟨l[i], l'[i], List.getElem?_eq_getElem hi, List.getElem?_eq_getElem hi', h.2 i _ _ (List.getElem?_eq_getElem hi) (List.getElem?_eq_getElem hi')⟩
  · exact .inl ⟨List.getElem?_eq_none (by omega), List.getElem?_eq_none (by rw [← h.1]; omega)⟩

theorem Both.modify {α β : Type} {R : α → β → Prop} {l : List α} {l' : List β} (h : Both R l l') (j : Nat) (f : α → α) (f' : β → β)
    (hf : ∀ a b, R a b → R (f a) (f' b)) : Both R (l.modify j f) (l'.modify j f') := by
  refine ⟨by simp [h.1], ?_⟩
  intro i a b ha hb
  rw [List.getElem?_modify] at ha hb
  rcases h.at i with ⟨h1, h2⟩ | ⟨x, y, h1, h2, hr⟩
  · rw [h1] at ha; simp at ha
  · rw [h1] at ha
    rw [h2] at hb
    simp only [Option.map_eq_map, Option.map_some] at ha hb
    injection ha with ha
    injection hb with hb
    subst ha hb
    split
    · exact hf _ _ hr
    · exact hr

def EntryOk (arrays : Go.Mem (Option Nat)) (e : Entry) (p : List (Option Nat) × String) : Prop :=
  e.fields.Ok arrays ∧ arrays.read e.fields = p.1 ∧ e.message = p.2

def EventOk (e : Event V) (p : Level × String × (String → Option V)) : Prop := e.level = p.1 ∧ e.message = p.2.1 ∧ MapOk e.fields p.2.2

structure Refines (s : State V) (t : Spec V) : Prop where
  maps : Both MapOk s.maps t.maps
  entries : Both (EntryOk s.arrays) s.entries t.entries
  level : s.level = t.level
  out : Both EventOk s.out t.out

theorem EntryOk.keep {a a' : Go.Mem (Option Nat)} (h : Keeps a a') {e : Entry} {p : List (Option Nat) × String} (he : EntryOk a e p) : EntryOk a' e p :=
  ⟨(h _ he.1).1, by rw [(h _ he.1).2]; exact he.2.1, he.2.2⟩

theorem Refines.arrays {s : State V} {t : Spec V} (h : Refines s t) {a : Go.Mem (Option Nat)} (hk : Keeps s.arrays a) : Refines { s with arrays := a } t :=
  ⟨h.maps, h.entries.mono (fun _ _ => EntryOk.keep hk), h.level, h.out⟩

theorem getEntry_spec {s : State V} {t : Spec V} (h : Refines s t) (o : Option Nat) :
    (getEntry s o = none ∧ t.path o = none) ∨
    ∃ s' e p, getEntry s o = some (s', e) ∧ t.path o = some p ∧ Refines s' t ∧ e.fields.Ok s'.arrays ∧ s'.arrays.read e.fields = p := by
  cases o with
  | none =>
    right
    have m0 := Go.make_spec (none : Option Nat) s.arrays [] 0
    refine ⟨_, _, [], rfl, rfl, h.arrays (keeps_concat _ _), m0.1, m0.2.1⟩
  | some i =>
    rcases h.entries.at i with ⟨h1, h2⟩ | ⟨e, p, h1, h2, hr⟩
    · left; simp [getEntry, Spec.path, h1, h2]
    · right
      exact ⟨s, e, p.1, by simp [getEntry, h1], by simp [Spec.path, h2], h, hr.1, hr.2.1⟩

theorem merged_spec (ord : Fields V → Fields V) (hord : ∀ f, (ord f).Perm f) {s : State V} {t : Spec V} (h : Refines s t) (e : Entry) :
    MapOk (mergedFields ord s e) (valueOf t.maps (s.arrays.read e.fields)) := by
  unfold mergedFields
  generalize s.arrays.read e.fields = path
  have hmap : ∀ r : Option Nat, MapOk (ord ((r.bind (s.maps[·]?)).getD [])) (fun k => r.bind (fun i => (t.maps[i]?).bind (fun f => f k))) := by
    intro r
    cases r with
    | none => exact ⟨by unfold Distinct; rw [((hord _).map _).nodup_iff]; simp, fun k => by rw [lookup_perm (hord _) (by simp [Distinct])]; rfl⟩
    | some i =>
      rcases h.maps.at i with ⟨h1, h2⟩ | ⟨f, g, h1, h2, hd, hl⟩
      · simp only [Option.bind_some, h1, h2, Option.getD_none, Option.bind_none]
        exact ⟨by unfold Distinct; rw [((hord _).map _).nodup_iff]; simp, fun k => by rw [lookup_perm (hord _) (by simp [Distinct])]; rfl⟩
      · simp only [Option.bind_some, h1, h2, Option.getD_some]
        exact ⟨by unfold Distinct; rw [((hord _).map _).nodup_iff]; exact hd, fun k => by rw [lookup_perm (hord _) hd, hl]⟩
  have key : ∀ (path : List (Option Nat)) (f : Fields V), Distinct f →
      Distinct (path.foldl (fun f r => (ord ((r.bind (s.maps[·]?)).getD [])).foldl (fun f p => f.put p.1 p.2) f) f) ∧
      ∀ k, (path.foldl (fun f r => (ord ((r.bind (s.maps[·]?)).getD [])).foldl (fun f p => f.put p.1 p.2) f) f).lookup k =
        (valueOf t.maps path k).or (f.lookup k) := by
    intro path
    induction path with
    | nil => intro f hf; exact ⟨hf, fun k => by simp [valueOf]⟩
    | cons r path ih =>
      intro f hf
      obtain ⟨hd, hl⟩ := hmap r
      have h2 := ih ((ord ((r.bind (s.maps[·]?)).getD [])).foldl (fun f p => f.put p.1 p.2) f) (distinct_foldl _ f hf)
      refine ⟨h2.1, fun k => ?_⟩
      rw [List.foldl_cons, h2.2 k, lookup_foldl _ _ _ hd, hl k]
      simp only [valueOf, List.reverse_cons, List.findSome?_append, List.findSome?_cons, List.findSome?_nil]
      cases List.findSome? _ path.reverse <;> simp
      cases r.bind _ <;> simp
  have := key path [] (by simp [Distinct])
  exact ⟨this.1, fun k => by rw [this.2 k]; simp⟩

theorem logAt_spec (ord : Fields V → Fields V) (hord : ∀ f, (ord f).Perm f) {s : State V} {t : Spec V} (h : Refines s t) (e : Entry) {p : List (Option Nat)}
    (hr : s.arrays.read e.fields = p) (l : Level) (msg : String) : Refines (logAt ord s l e msg) (t.say l p msg) := by
  unfold logAt Spec.say
  rw [h.level]
  split
  · exact h
  · exact ⟨h.maps, h.entries, rfl, h.out.concat ⟨rfl, rfl, hr ▸ merged_spec ord hord h e⟩⟩

theorem logAt_arrays (ord : Fields V → Fields V) (s : State V) (l : Level) (e : Entry) (msg : String) : (logAt ord s l e msg).arrays = s.arrays := by
  unfold logAt; split <;> rfl

theorem newMap_spec {s : State V} {t : Spec V} (h : Refines s t) (k : String) (v : V) :
    Refines (newMap s [(k, v)]).1 { t with maps := t.maps ++ [update (fun _ => none) k v] } := by
  refine ⟨h.maps.concat ⟨by simp [Distinct], ?_⟩, h.entries, h.level, h.out⟩
  intro k'
  simp only [List.lookup_cons, List.lookup_nil, update]
  by_cases hk : k' = k
  · simp [hk]
  · have : (k' == k) = false := by simpa using hk
    simp [this, hk]

theorem step_refines (ord : Fields V → Fields V) (hord : ∀ f, (ord f).Perm f) (g : Nat → Nat) {s : State V} {t : Spec V} (h : Refines s t) (o : Op V) :
    Refines (step ord g s o) (t.step o) := by
  cases o with
  | newMap kvs =>
    refine ⟨h.maps.concat ⟨distinct_foldl _ _ (by simp [Distinct]), ?_⟩, h.entries, h.level, h.out⟩
    intro k
    have key : ∀ (kvs : List (String × V)) (f : Fields V) (g : String → Option V), (∀ k, f.lookup k = g k) →
        (kvs.foldl (fun f p => Fields.put f p.1 p.2) f).lookup k = (kvs.foldl (fun f p => update f p.1 p.2) g) k := by
      intro kvs
      induction kvs with
      | nil => intro f g hfg; exact hfg k
      | cons p kvs ih =>
        intro f g hfg
        exact ih _ _ (fun k => by simp only [lookup_put, update, hfg])
    exact key kvs [] _ (fun _ => rfl)
  | put m k v =>
    exact ⟨h.maps.modify m _ _ (fun a b hab => ⟨distinct_put hab.1 k v, fun k' => by rw [lookup_put, update, hab.2]⟩), h.entries, h.level, h.out⟩
  | setLevel l => exact ⟨h.maps, h.entries, rfl, h.out⟩
  | log e l msg =>
    simp only [step, Spec.step]
    rcases getEntry_spec h e with ⟨h1, h2⟩ | ⟨s', e', p, h1, h2, hr, ho, hp⟩
    · rw [h1, h2]; exact h
    · rw [h1, h2]
      exact logAt_spec ord hord hr e' hp l msg
  | withFields e m =>
    simp only [step, Spec.step]
    rcases getEntry_spec h e with ⟨h1, h2⟩ | ⟨s', e', p, h1, h2, hr, ho, hp⟩
    · rw [h1, h2]; exact h
    · rw [h1, h2]
      simp only []
      rw [hr.maps.1]
      split
      · obtain ⟨a, f, hw, hk, hf, hrd⟩ := withFields_spec (g 0) (g 1) s' e' (some m) ho
        rw [hw]
        have h' := hr.arrays hk
        exact ⟨h'.maps, h'.entries.concat ⟨hf, by rw [hrd, hp], rfl⟩, h'.level, h'.out⟩
      · exact hr
  | withField e k v =>
    simp only [step, Spec.step]
    rcases getEntry_spec h e with ⟨h1, h2⟩ | ⟨s', e', p, h1, h2, hr, ho, hp⟩
    · rw [h1, h2]; exact h
    · rw [h1, h2]
      have hn := newMap_spec hr k v
      obtain ⟨a, f, hw, hk, hf, hrd⟩ := withFields_spec (g 0) (g 1) (newMap s' [(k, v)]).1 e' (some s'.maps.length) ho
      have h' := hn.arrays hk
      simp only [newMap] at hw h' ⊢
      rw [hw]
      exact ⟨h'.maps, h'.entries.concat ⟨hf, by rw [hrd]; show _ = p ++ [some t.maps.length]; rw [← hr.maps.1]; exact congrArg (· ++ _) hp, rfl⟩, h'.level, h'.out⟩
  | trace e msg =>
    simp only [step, Spec.step]
    rcases getEntry_spec h e with ⟨h1, h2⟩ | ⟨s', e', p, h1, h2, hr, ho, hp⟩
    · rw [h1, h2]; exact h
    · rw [h1, h2]
      have hl := logAt_spec ord hord hr e' hp 1 msg
      obtain ⟨a, f, hw, hk, hf, hrd⟩ := withFields_spec (g 0) (g 1) (logAt ord s' 1 e' msg) e' none (by rw [logAt_arrays]; exact ho)
      have h' := hl.arrays hk
      simp only []
      rw [hw]
      exact ⟨h'.maps, h'.entries.concat ⟨hf, by rw [hrd, logAt_arrays, hp], rfl⟩, h'.level, h'.out⟩
  | stop i d err =>
    simp only [step, Spec.step]
    rcases h.entries.at i with ⟨h1, h2⟩ | ⟨e, q, h1, h2, ho, hp, hm⟩
    · rw [h1, h2]; exact h
    · rw [h1, h2]
      obtain ⟨p, msg⟩ := q
      have hn := newMap_spec h "duration" d
      obtain ⟨a, f, hw, hk, hf, hrd⟩ := withFields_spec (g 0) (g 1) (newMap s [("duration", d)]).1 e (some s.maps.length) ho
      have h' := hn.arrays hk
      have hrd' : a.read f = p ++ [some t.maps.length] := by
        rw [hrd, ← h.maps.1]; exact congrArg (· ++ _) hp
      have hm : e.message = msg := hm
      cases err with
      | none =>
        simp only [newMap] at hw h' ⊢
        rw [hw, hm]
        exact logAt_spec ord hord h' ⟨f, ""⟩ hrd' 1 msg
      | some x =>
        have hn2 := newMap_spec h' "error" x
        obtain ⟨a2, f2, hw2, hk2, hf2, hrd2⟩ := withFields_spec (g 2) (g 3) (newMap { (newMap s [("duration", d)]).1 with arrays := a } [("error", x)]).1 ⟨f, ""⟩ (some (s.maps.length + 1)) hf
        have h'' := hn2.arrays hk2
        simp only [newMap] at hw hw2 h'' ⊢
        rw [hw]
        simp only [List.length_append, List.length_cons, List.length_nil]
        rw [hw2, hm]
        refine logAt_spec ord hord h'' ⟨f2, ""⟩ ?_ 3 msg
        rw [hrd2]
        show a.read f ++ _ = _
        rw [hrd', h.maps.1, List.append_assoc]
        rfl

theorem run_refines (ord : Fields V → Fields V) (hord : ∀ f, (ord f).Perm f) (ops : List (Op V × (Nat → Nat))) : ∀ {s : State V} {t : Spec V}, Refines s t →
    Refines (run ord s ops) (t.run (ops.map (·.1))) := by
  induction ops with
  | nil => intro s t h; exact h
  | cons o ops ih => intro s t h; exact ih (step_refines ord hord o.2 h o.1)

/-- C93: for every program, every order in which `range` visits maps and every spare room that `append` leaves, the handler gets the messages of the specification, with its
levels and fields -/
theorem C93_events (ord : Fields V → Fields V) (hord : ∀ f, (ord f).Perm f) (ops : List (Op V × (Nat → Nat))) :
    (run ord init ops).out.map (fun e => (e.level, e.message, fun k => e.fields.lookup k)) = (Spec.init.run (ops.map (·.1))).out ∧
    ∀ e ∈ (run ord init ops).out, (e.fields.map (·.1)).Nodup := by
  have h := (run_refines ord hord ops (s := init) (t := Spec.init) ⟨Both.nil _, Both.nil _, rfl, Both.nil _⟩).out
  constructor
  · apply List.ext_getElem?
    intro i
    rw [List.getElem?_map]
    rcases h.at i with ⟨h1, h2⟩ | ⟨a, b, h1, h2, hl, hm, hf⟩
    · rw [h1, h2]; rfl
    · rw [h1, h2]
      obtain ⟨x, y, z⟩ := b
      simp only [Option.map_some, Option.some.injEq, Prod.mk.injEq]
      exact ⟨hl, hm, funext hf.2⟩
  · intro e he
    obtain ⟨i, hi⟩ := List.mem_iff_getElem?.mp he
    rcases h.at i with ⟨h1, _⟩ | ⟨a, b, h1, _, _, _, hf⟩
    · rw [h1] at hi; cases hi
    · rw [h1] at hi; injection hi with hi; subst hi; exact hf.1

/-- C93: what the handlers write of the fields: each field once, in the order of the names -/
theorem C93_written [Inhabited V] (f : Fields V) (h : (f.map (·.1)).Nodup) :
    (written f).Perm f ∧ (written f).Pairwise (fun a b => a.1 < b.1) := by
  have hp : ((f.map (·.1)).mergeSort (fun a b => decide (a ≤ b))).Perm (f.map (·.1)) := List.mergeSort_perm _ _
  constructor
  · have h1 : (written f).Perm ((f.map (·.1)).map (fun k => (k, (f.lookup k).getD default))) := hp.map _
    refine h1.trans (List.Perm.of_eq ?_)
    rw [List.map_map]
    conv => rhs; rw [← List.map_id f]
    apply List.map_congr_left
    intro p hp
    obtain ⟨k, v⟩ := p
    simp only [Function.comp_apply, id, lookup_of_mem h hp, Option.getD_some]
  · unfold written
    rw [List.pairwise_map]
    have hs : ((f.map (·.1)).mergeSort (fun a b => decide (a ≤ b))).Pairwise (fun a b => decide (a ≤ b) = true) :=
      List.pairwise_mergeSort (fun a b c h1 h2 => by
        simp only [decide_eq_true_eq] at *
        exact String.le_trans h1 h2) (fun a b => by
        simp only [Bool.or_eq_true, decide_eq_true_eq]
        exact String.le_total a b) _
    have hn : ((f.map (·.1)).mergeSort (fun a b => decide (a ≤ b))).Nodup := (hp.nodup_iff).mpr h
    have := List.pairwise_and_iff.mpr ⟨hs, hn⟩
    refine this.imp ?_
    intro a b hab
    simp only [decide_eq_true_eq] at hab
    rcases hab with ⟨h1, h2⟩
    by_cases hlt : a < b
    · exact hlt
    · exact absurd (String.le_antisymm h1 (String.not_lt.mp hlt)) h2

/-- C93: the level of each name comes back from its JSON text; other levels have no text -/
theorem C93_level_json (u : Char → Char) (l : Int) :
    (0 ≤ l ∧ l ≤ 4 → ∃ b, marshal l = some b ∧ unmarshal u b = some l) ∧ (¬ (0 ≤ l ∧ l ≤ 4) → marshal l = none) := by
  constructor
  · intro h
    have : l = 0 ∨ l = 1 ∨ l = 2 ∨ l = 3 ∨ l = 4 := by omega
    rcases this with rfl | rfl | rfl | rfl | rfl
    · exact ⟨_, rfl, rfl⟩
    · exact ⟨_, rfl, rfl⟩
    · exact ⟨_, rfl, rfl⟩
    · exact ⟨_, rfl, rfl⟩
    · exact ⟨_, rfl, rfl⟩
  · intro h
    unfold marshal levelName
    rw [if_neg (by omega), if_neg (by omega), if_neg (by omega), if_neg (by omega), if_neg (by omega)]
    rfl

/-- C93: case does not matter: a text of ASCII letters is read as its lower-case form is -/
theorem C93_parse_case (u : Char → Char) (s : String) (h : ∀ c ∈ s.toList, c.toNat < 128) : parseLevel u s = parseLevel u s.toLower := by
  unfold parseLevel
  congr 2
  rw [String.toLower, String.toList_map, List.map_map]
  apply List.map_congr_left
  intro c hc
  have hc := h c hc
  have key : ∀ n : Fin 128, (Char.ofNat n.1).toLower.toLower = (Char.ofNat n.1).toLower ∧ (Char.ofNat n.1).toLower.toNat < 128 := by decide
  have hk := key ⟨c.toNat, hc⟩
  simp only [Char.ofNat_toNat] at hk
  simp only [lowerChar, Function.comp_apply, if_pos hc, if_pos hk.2, hk.1]

/-- C93: texts that are read as a level although they are not its name in any case: a capital I with a dot, missing or doubled quotes -/
theorem C93_lenient (u : Char → Char) :
    parseLevel u (String.ofList [Char.ofNat 0x130, 'N', 'F', 'O']) = some 1 ∧ unmarshal u "debug".toList = some 0 ∧ unmarshal u "\"\"warning".toList = some 2 ∧
    parseLevel u "" = none := ⟨rfl, rfl, rfl, rfl⟩

/-- two entries made from one whose slice has spare room keep their own fields; a message below the level is dropped; a later change of a map shows -/
example : ∃ ops : List (Op Nat × (Nat → Nat)), (Spec.init.run (ops.map (·.1))).out.map (fun e => (e.1, e.2.1, e.2.2 "a", e.2.2 "b", e.2.2 "c")) =
    [(1, "x", some 5, some 2, none), (2, "y", some 5, none, some 3)] ∧
    (run id init ops).out.map (fun e => (e.level, e.message, e.fields)) = [(1, "x", [("a", 5), ("b", 2)]), (2, "y", [("a", 5), ("c", 3)])] :=
  ⟨[(.newMap [("a", 1)], fun _ => 4), (.withFields none 0, fun _ => 4), (.withField (some 0) "b" 2, fun _ => 4), (.withField (some 0) "c" 3, fun _ => 4),
    (.put 0 "a" 5, fun _ => 0), (.log (some 1) 0 "no", fun _ => 0), (.log (some 1) 1 "x", fun _ => 0), (.setLevel 2, fun _ => 0), (.log (some 1) 1 "no", fun _ => 0),
    (.log (some 2) 2 "y", fun _ => 0)], by decide +kernel, by decide +kernel⟩

example : (written [("b", 2), ("a", 1)]).Perm [("b", 2), ("a", 1)] ∧ (written [("b", 2), ("a", 1)]).Pairwise (fun a b => a.1 < b.1) := C93_written _ (by decide)

end Ndn.Log
