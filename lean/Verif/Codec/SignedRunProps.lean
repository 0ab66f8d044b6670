import Verif.Codec.SignedStages

/-!
# C95: what the emitted encoder of a model with a signature gives

`Verif/Codec/EmitSigned.lean` has the statements that the generator writes for a model with a signature and the marker where what it covers begins,
`Verif/Codec/RunSigned.lean` what they do.  The theorems here say that running them gives a wire with the bytes of the message and an empty buffer where the
signature goes, and that the parts of the wire that the signature is to be computed over are the bytes between the marker and the signature.
-/

namespace Ndn.Codec.Gen

/-! ## Specification -/

/-- a field that only marks a place, or names an argument -/
def Cls.silent : Cls → Bool
  | .arg _ => true
  | .offset _ => true
  | .range _ _ _ => true
  | _ => false

/-- the model `m` has the marker `mk`, and after it the signature `sg`, which covers what is after the marker and leaves it in `cov`; the other fields are
silent or covered by `noCopyAt`, and there is no wire before the marker -/
structure SignedModel (ms : List TModel) (fuel : Nat) (m : TModel) (pre : List Field) (mk : Field) (mid : List Field) (sg : Field) (post : List Field)
    (cov : Txt) : Prop where
  fields : m.fields = pre ++ mk :: (mid ++ sg :: post)
  nocopy : m.opts.noCopy = true
  names : (m.fields.map Field.name).Nodup
  marker : (∃ nc, mk.cls = .offset nc) ∨ ∃ a b nc, mk.cls = .range a b nc
  signature : ∃ nc, sg.cls = .signature mk.name cov nc
  others : ∀ f ∈ pre ++ (mid ++ post), f.cls.silent = true ∨ f.cls = .wire true ∨ (f.cls ≠ .wire false ∧ f.cls.plain (plainAt ms fuel) = true)
  early : ∀ f ∈ pre, f.cls ≠ .wire true

/-- the Go value `kvs` has the fields `fields`, with the message `v` of the schema `fs` in those that are encoded -/
structure Holds (ms : List TModel) (fuel : Nat) (fields : List Field) (fs : Fields) (v : fs.V) (kvs : List (Txt × GV)) : Prop where
  schema : schemaOf (resolve ms fuel) (fields.filter keep) = some fs
  stands : StandsAll ms fs (fields.filter keep) v kvs

/-! ## Lemmas -/

theorem closePlan_append : ∀ (a b : List Item) (n : Nat), closePlan (a ++ b) n = closePlan a n ++ closePlan b (openLen a n)
  | [], b, n => rfl
  | .own x :: r, b, n => by simp [closePlan, openLen, closePlan_append r]
  | .wire h w :: r, b, n => by simp [closePlan, openLen, closePlan_append r]

theorem openLen_append : ∀ (a b : List Item) (n : Nat), openLen (a ++ b) n = openLen b (openLen a n)
  | [], b, n => rfl
  | .own x :: r, b, n => by simp [openLen, openLen_append r]
  | .wire h w :: r, b, n => by simp [openLen, openLen_append r]

theorem filter_keep_cons_of_neg {f : Field} (h : keep f = false) (l : List Field) : (f :: l).filter keep = l.filter keep := by simp [h]

section
variable {ms : List TModel} {fuel : Nat} {m : TModel} {pre mid post : List Field} {mk sg : Field} {cov : Txt}

theorem SignedModel.mem (h : SignedModel ms fuel m pre mk mid sg post cov) {f : Field} (hf : f ∈ pre ++ (mid ++ post)) : f ∈ m.fields := by
  rw [h.fields]; simp only [List.mem_append, List.mem_cons] at hf ⊢; tauto

theorem SignedModel.names' (h : SignedModel ms fuel m pre mk mid sg post cov) :
    (pre.map Field.name ++ (mk.name :: (mid.map Field.name ++ (sg.name :: post.map Field.name)))).Nodup := by
  have := h.names; rw [h.fields] at this; simpa using this

theorem SignedModel.quiet (h : SignedModel ms fuel m pre mk mid sg post cov) {f : Field} (hf : f ∈ pre ++ (mid ++ post)) :
    keep f = true ∨ Aside [mk.name, sg.name] f := by
  have hn := h.names'
  have hne : f.name ∉ [mk.name, sg.name] := by
    simp only [List.nodup_append, List.nodup_cons, List.mem_append, List.mem_cons, List.mem_map] at hn
    simp only [List.mem_append] at hf
    simp only [List.mem_cons, List.not_mem_nil, or_false, not_or]
    obtain ⟨_, ⟨h1, _, ⟨h2, _⟩, h3⟩, h4⟩ := hn
    rcases hf with hf | hf | hf
    · exact ⟨fun e => h4 _ ⟨f, hf, rfl⟩ _ (Or.inl rfl) e, fun e => h4 _ ⟨f, hf, rfl⟩ _ (Or.inr (Or.inr (Or.inl rfl))) e⟩
    · exact ⟨fun e => h1 (Or.inl ⟨f, hf, e⟩), fun e => h3 _ ⟨f, hf, rfl⟩ _ (Or.inl rfl) e⟩
    · exact ⟨fun e => h1 (Or.inr (Or.inr ⟨f, hf, e⟩)), fun e => h2 ⟨f, hf, e⟩⟩
  rcases h.others f hf with hs | hs | hs
  · right
    cases hc : f.cls <;> simp only [hc, Cls.silent, Bool.false_eq_true] at hs
    · exact Or.inl ⟨_, hc⟩
    · exact Or.inr ⟨Or.inl ⟨_, hc⟩, hne⟩
    · exact Or.inr ⟨Or.inr ⟨_, _, _, hc⟩, hne⟩
  · left; simp [keep, hs]
  · left
    unfold keep
    split <;> first | rfl | (rename_i hc; rw [hc] at hs; simp [Cls.plain] at hs)

theorem SignedModel.kept (h : SignedModel ms fuel m pre mk mid sg post cov) {f : Field} (hf : f ∈ pre ++ (mid ++ post)) (hk : keep f = true) :
    f.cls = .wire true ∨ (f.cls ≠ .wire false ∧ f.cls.plain (plainAt ms fuel) = true) := by
  rcases h.others f hf with hs | hs
  · exfalso
    unfold keep at hk
    cases hc : f.cls <;> rw [hc] at hs hk <;> simp_all [Cls.silent]
  · exact hs

theorem SignedModel.mk_keep (h : SignedModel ms fuel m pre mk mid sg post cov) : keep mk = false := by
  rcases h.marker with ⟨nc, e⟩ | ⟨a, b, nc, e⟩ <;> simp [keep, e]

theorem SignedModel.sg_keep (h : SignedModel ms fuel m pre mk mid sg post cov) : keep sg = false := by
  obtain ⟨nc, e⟩ := h.signature
  simp [keep, e]

theorem kept_widths {L : List Field} {fs : Fields} (hc : ∀ f ∈ L, f.cls = .wire true ∨ (f.cls ≠ .wire false ∧ f.cls.plain (plainAt ms fuel) = true))
    (h : schemaOf (resolve ms fuel) L = some fs) : fs.Widths := by
  rw [← soften_schema] at h
  refine schemaOf_widths (resolve_widths ms fuel) _ _ ?_ h
  intro f hf
  obtain ⟨f', hf', rfl⟩ := List.mem_map.1 hf
  exact soften_plain (hc f' hf')

/-- the bytes that the estimate accounts for -/
def sigRoom (n E : Nat) : Nat := if 0 < E then (sigHead n E).length + E else 0

/-- what `Init` leaves -/
structure Ready3 (ms : List TModel) (fuel : Nat) (m : TModel) (kvs : List (Txt × GV)) (mk sg : Field) (est : Txt → Nat) (need : Txt → Bool) (L1 L2 L3 : List Field)
    (I1 I2 I3 : List Item) (ss : SS) : Prop where
  run : initOf ms (fuel + 1) m (.ptr (.struct kvs)) est need = .ok ss
  value : ss.ns.s.vars .value = .ptr (.struct kvs)
  plan : ss.ns.ownPlan = signedPlan sg.num (est sg.name) (closePlan (I1 ++ I2) 0) (openLen (I1 ++ I2) 0) ++
    planOf I3 (if 0 < est sg.name then 0 else openLen (I1 ++ I2) 0)
  estCell : ss.ns.s.cells [.key (.est sg.name)] = est sg.name
  mark : ss.mark mk.name = (((I1.map Item.bytes).flatten.length : Nat) : Int)
  covered : ss.covered = fun _ => []
  idx : ss.idx sg.name = if 0 < est sg.name then (((closePlan (I1 ++ I2) 0).length + 1 : Nat) : Int) else -1
  ok1 : List.Forall₂ (FieldOK (callOf ms (fuel + 1)) ss.ns.s.cells [] kvs) L1 I1
  ok2 : List.Forall₂ (FieldOK (callOf ms (fuel + 1)) ss.ns.s.cells [] kvs) L2 I2
  ok3 : List.Forall₂ (FieldOK (callOf ms (fuel + 1)) ss.ns.s.cells [] kvs) L3 I3

theorem filter_parts (h : SignedModel ms fuel m pre mk mid sg post cov) :
    (pre ++ mk :: mid).filter keep = pre.filter keep ++ mid.filter keep := by
  simp [List.filter_append, h.mk_keep]

theorem init_signed (h : SignedModel ms fuel m pre mk mid sg post cov)
    {fs1 fs2 fs3 : Fields} {v1 : fs1.V} {v2 : fs2.V} {v3 : fs3.V} {kvs : List (Txt × GV)} (h1 : Holds ms fuel pre fs1 v1 kvs)
    (h2 : Holds ms fuel mid fs2 v2 kvs) (h3 : Holds ms fuel post fs3 v3 kvs) (est : Txt → Nat) (need : Txt → Bool)
    (hl : (fs1.enc v1).length + (fs2.enc v2).length + ((sigHead sg.num (est sg.name)).length + est sg.name) + (fs3.enc v3).length < 2 ^ 63) :
    ∃ ss, Ready3 ms fuel m kvs mk sg est need (pre.filter keep) (mid.filter keep) (post.filter keep) (items fs1 v1) (items fs2 v2) (items fs3 v3) ss ∧
      ss.ns.s.cells [.key .length] = (fs1.enc v1).length + (fs2.enc v2).length + sigRoom sg.num (est sg.name) + (fs3.enc v3).length ∧
      ReadyAll ms fs1 (pre.filter keep) v1 ss.ns.s.cells [] := by
  have hk1 : ∀ f ∈ pre.filter keep, f.cls = .wire true ∨ (f.cls ≠ .wire false ∧ f.cls.plain (plainAt ms fuel) = true) := fun f hf =>
    h.kept (by simp [(List.mem_filter.1 hf).1]) (List.mem_filter.1 hf).2
  have hk2 : ∀ f ∈ mid.filter keep, f.cls = .wire true ∨ (f.cls ≠ .wire false ∧ f.cls.plain (plainAt ms fuel) = true) := fun f hf =>
    h.kept (by simp [(List.mem_filter.1 hf).1]) (List.mem_filter.1 hf).2
  have hk3 : ∀ f ∈ post.filter keep, f.cls = .wire true ∨ (f.cls ≠ .wire false ∧ f.cls.plain (plainAt ms fuel) = true) := fun f hf =>
    h.kept (by simp [(List.mem_filter.1 hf).1]) (List.mem_filter.1 hf).2
  have hw1 := kept_widths hk1 h1.schema
  have hw2 := kept_widths hk2 h2.schema
  have hw3 := kept_widths hk3 h3.schema
  have hd1 := schemaOf_depth (resolve_depth ms fuel) _ _ h1.schema
  have hd2 := schemaOf_depth (resolve_depth ms fuel) _ _ h2.schema
  have hd3 := schemaOf_depth (resolve_depth ms fuel) _ _ h3.schema
  obtain ⟨ih1, ih2⟩ := good_call ms (fuel + 1)
  have hl1 : (fs1.elems v1).flatten.length < 2 ^ 64 := by have : (fs1.enc v1).length < 2 ^ 64 := by omega
                                                          exact this
  have hl2 : (fs2.elems v2).flatten.length < 2 ^ 64 := by have : (fs2.enc v2).length < 2 ^ 64 := by omega
                                                          exact this
  have hl3 : (fs3.elems v3).flatten.length < 2 ^ 64 := by have : (fs3.enc v3).length < 2 ^ 64 := by omega
                                                          exact this
  have hb1 : ((items fs1 v1).map Item.bytes).flatten.length = (fs1.enc v1).length := by rw [items_bytes]
  have hb2 : ((items fs2 v2).map Item.bytes).flatten.length = (fs2.enc v2).length := by rw [items_bytes]
  have hb3 : ((items fs3 v3).map Item.bytes).flatten.length = (fs3.enc v3).length := by rw [items_bytes]
  have ho1 := ownLen_le (items fs1 v1)
  have ho2 := ownLen_le (items fs2 v2)
  have ho3 := ownLen_le (items fs3 v3)
  have hnd := h.names'
  simp only [List.nodup_append, List.nodup_cons, List.mem_append, List.mem_cons, List.mem_map] at hnd
  obtain ⟨hn1, ⟨hn2, hn3, ⟨hn4, hn5⟩, hn6⟩, hn7⟩ := hnd
  have sub : ∀ l : List Field, (l.map Field.name).Nodup → Named (l.filter keep) := fun l hl =>
    List.Sublist.nodup (List.Sublist.map _ List.filter_sublist) hl
  -- `Init` of the fields
  have i1 := all_inits (p := []) (kvs := kvs) ms (fuel + 1) ih1 fs1 _ v1 (sub _ hn1) h1.stands hw1 (by omega) hl1
  have i2 := all_inits (p := []) (kvs := kvs) ms (fuel + 1) ih1 fs2 _ v2 (sub _ hn3) h2.stands hw2 (by omega) hl2
  have i3 := all_inits (p := []) (kvs := kvs) ms (fuel + 1) ih1 fs3 _ v3 (sub _ hn5) h3.stands hw3 (by omega) hl3
  have i12 := i1.append i2 (by
    intro f hf g hg e
    exact hn7 _ ⟨f, (List.mem_filter.1 hf).1, rfl⟩ _ (Or.inr (Or.inl ⟨g, (List.mem_filter.1 hg).1, rfl⟩)) e)
    (fun C C' hc r => ReadyAll.congr' ms _ _ _ _ _ _ hc r)
  have i123 := i12.append i3 (by
    intro f hf g hg e
    simp only [List.mem_append] at hf
    rcases hf with hf | hf
    · exact hn7 _ ⟨f, (List.mem_filter.1 hf).1, rfl⟩ _ (Or.inr (Or.inr (Or.inr ⟨g, (List.mem_filter.1 hg).1, rfl⟩))) e
    · exact hn6 _ ⟨f, (List.mem_filter.1 hf).1, rfl⟩ _ (Or.inr ⟨g, (List.mem_filter.1 hg).1, rfl⟩) e)
    (fun C C' hc r => ⟨ReadyAll.congr' ms _ _ _ _ _ _ (fun f hf => hc f (by simp only [List.mem_append]; exact Or.inl hf)) r.1,
      ReadyAll.congr' ms _ _ _ _ _ _ (fun f hf => hc f (by simp only [List.mem_append]; exact Or.inr hf)) r.2⟩)
  rw [← allFields_append, ← allFields_append] at i123
  let ns0 : NS := NS.entry (.ptr (.struct kvs)) (estCells est) [] [] []
  let ss0 : SS := SS.entry (.ptr (.struct kvs)) est need
  obtain ⟨C, e1, e2, ⟨r1, r2⟩, r3⟩ := i123 ns0.s (by simp [ns0, NS.entry, entry, upd]) (by simp [ns0, NS.entry, entry, upd])
  have hest : C [.key (.est sg.name)] = est sg.name := by
    rw [e2 _ (by rintro ⟨f, _, hu⟩; exact not_under_est hu)]
    rfl
  have each : ∀ f ∈ pre.filter keep ++ mid.filter keep ++ post.filter keep, ∀ s : S, s.vars .encoder = .ref [] → s.vars .value = .ptr (.struct kvs) →
      ∃ C, (initCode f.name f.cls).exec (callOf ms (fuel + 1)) s = .ok { s with cells := C } := by
    have a1 := each_init (p := []) ms (fuel + 1) ih1 fs1 _ v1 h1.stands hw1 (by omega) hl1
    have a2 := each_init (p := []) ms (fuel + 1) ih1 fs2 _ v2 h2.stands hw2 (by omega) hl2
    have a3 := each_init (p := []) ms (fuel + 1) ih1 fs3 _ v3 h3.stands hw3 (by omega) hl3
    have memOf : ∀ {Q : Field → Prop} {l : List Field} {I : List Item}, List.Forall₂ (fun f _ => Q f) l I → ∀ f ∈ l, Q f := by
      intro Q l I hF
      induction hF with
      | nil => intro f hf; simp at hf
      | cons hq _ ih => intro f hf; rcases List.mem_cons.1 hf with rfl | hf; exact hq; exact ih f hf
    intro f hf
    simp only [List.mem_append] at hf
    rcases hf with (hf | hf) | hf
    · exact memOf a1 f hf
    · exact memOf a2 f hf
    · exact memOf a3 f hf
  have e3 := init_all each ns0 C rfl (by simp [ns0, NS.entry, entry, upd]) (by simp [ns0, NS.entry, entry, upd]) e1
  rw [allNoCopy_append] at e3
  obtain ⟨nsA, e3a, e3b⟩ := bind_ok_inv e3
  obtain ⟨ncs, hsg⟩ := h.signature
  have q12 : ∀ f ∈ pre ++ mk :: mid, keep f = true ∨ Aside [sg.name] f := by
    intro f hf
    simp only [List.mem_append, List.mem_cons] at hf
    have gen : ∀ f ∈ pre ++ (mid ++ post), keep f = true ∨ Aside [sg.name] f := fun f hf => (h.quiet hf).imp_right fun ha =>
      ha.imp_right fun ⟨a, b⟩ => ⟨a, fun hh => b (by simp only [List.mem_singleton] at hh; simp [hh])⟩
    rcases hf with hf | rfl | hf
    · exact gen f (by simp [hf])
    · refine Or.inr (Or.inr ⟨h.marker, ?_⟩)
      simp only [List.mem_singleton]
      intro e; exact hn2 (Or.inr (Or.inl e))
    · exact gen f (by simp [hf])
  obtain ⟨ssA, p1, p2, p3⟩ := block_init (call := callOf ms (fuel + 1)) (ss := ss0) (ns' := nsA) q12 (by rw [filter_parts h]; exact e3a)
  have q3 : ∀ f ∈ post, keep f = true ∨ Aside [mk.name, sg.name] f := fun f hf => h.quiet (by simp [hf])
  have q2 : ∀ f ∈ mid, keep f = true ∨ Aside [mk.name, sg.name] f := fun f hf => h.quiet (by simp [hf])
  have q1 : ∀ f ∈ pre, keep f = true ∨ Aside [mk.name, sg.name] f := fun f hf => h.quiet (by simp [hf])
  obtain ⟨ssB, p4, p5, p6⟩ := block_init (call := callOf ms (fuel + 1)) (ss := { ssA with idx := setAt ssA.idx sg.name (-1) })
    (ns' := { ns0 with s := { ns0.s with cells := C } }) q3 (by simpa [p2] using e3b)
  have eInit : (allSigned (fun f => initSigned f.name f.cls) m.fields).exec (callOf ms (fuel + 1)) ss0 = .ok ssB := by
    rw [h.fields, show pre ++ mk :: (mid ++ sg :: post) = (pre ++ mk :: mid) ++ sg :: post by simp, allSigned_append, p1]
    simp only [Res.bind, allSigned]
    rw [sexec_append, hsg]
    simp only [initSigned]
    rw [sexec_of]
    exact p4
  have hB1 : ssB.idx sg.name = -1 := by rw [(p6.1 sg.name (by simp)).2]; simp [setAt]
  have hB2 : ssB.covered = fun _ => [] := by rw [p6.2]; exact p3.2
  -- lengths
  have n1 := each_length (call := callOf ms (fuel + 1)) (cells := C) (p := []) ms fs1 _ v1 h1.stands r1 hw1 hl1
  have n2 := each_length (call := callOf ms (fuel + 1)) (cells := C) (p := []) ms fs2 _ v2 h2.stands r2 hw2 hl2
  have n3 := each_length (call := callOf ms (fuel + 1)) (cells := C) (p := []) ms fs3 _ v3 h3.stands r3 hw3 hl3
  let nsC : NS := { ns0 with s := { ns0.s with cells := C } }
  have c1 : nsC.buf = .nil := rfl
  have c2 : nsC.s.cells = C := rfl
  have c3 : nsC.s.vars .encoder = .ref [] := by simp [nsC, ns0, NS.entry, entry, upd]
  have c4 : nsC.s.vars .value = .ptr (.struct kvs) := by simp [nsC, ns0, NS.entry, entry, upd]
  have l1 := length_all n1 nsC [] 0 c1 c2 c3 c4 (by omega)
  have l2 := length_all n2 nsC [] (0 + ((items fs1 v1).map Item.bytes).flatten.length) c1 c2 c3 c4 (by omega)
  rw [hb1] at l1
  rw [hb1, hb2, Nat.zero_add] at l2
  rw [Nat.zero_add] at l1
  have hroom : sigRoom sg.num (est sg.name) ≤ (sigHead sg.num (est sg.name)).length + est sg.name := by unfold sigRoom; split <;> omega
  have l3 := length_all n3 nsC [] ((fs1.enc v1).length + (fs2.enc v2).length + sigRoom sg.num (est sg.name)) c1 c2 c3 c4 (by omega)
  rw [hb3] at l3
  obtain ⟨ssD, d1, d2, d3⟩ := block_length (call := callOf ms (fuel + 1)) (ss := { ssB with ns := nsC.planning [] 0 }) q1 l1
  have hmkL : (lengthSigned mk.name mk.num mk.cls).exec (callOf ms (fuel + 1)) ssD =
      .ok { ssD with mark := setAt ssD.mark mk.name ((fs1.enc v1).length : Int) } := by
    have hnv : numVar ssD .l = (fs1.enc v1).length := by simp [numVar, d2, NS.planning, upd]
    rcases h.marker with ⟨nc, e⟩ | ⟨a, b, nc, e⟩ <;>
    · rw [e]
      simp only [lengthSigned]
      rw [sexec_of]
      simp only [SAtom.exec, hnv, asInt_small (show (fs1.enc v1).length < 2 ^ 63 by omega)]
  obtain ⟨ssE, d4, d5, d6⟩ := block_length (call := callOf ms (fuel + 1))
    (ss := { ssD with mark := setAt ssD.mark mk.name ((fs1.enc v1).length : Int) }) q2 (ns' := nsC.planning [] ((fs1.enc v1).length + (fs2.enc v2).length))
    (by simp only [d2]; exact l2)
  have d7 := signature_length (call := callOf ms (fuel + 1)) (cells := C) (p := []) (kvs := kvs) (f := sg.name) (m := mk.name) (cov := cov) (n := sg.num)
    (nc := ncs) hest ssE nsC [] _ d5 c1 c2 c3 c4 (by omega)
  obtain ⟨ssF, d8, d9, d10⟩ := block_length (call := callOf ms (fuel + 1))
    (ss := { ssE with ns := nsC.planning [] ((fs1.enc v1).length + (fs2.enc v2).length + sigRoom sg.num (est sg.name)) }) q3 l3
  have eLen : (allSigned (fun f => lengthSigned f.name f.num f.cls) m.fields).exec (callOf ms (fuel + 1)) { ssB with ns := nsC.planning [] 0 } = .ok ssF := by
    rw [h.fields, allSigned_append, d1]
    simp only [Res.bind, allSigned]
    rw [sexec_append, hmkL]
    simp only [Res.bind]
    rw [allSigned_append, d4]
    simp only [Res.bind, allSigned]
    rw [sexec_append, hsg, d7]
    exact d8
  have hF1 : ssF.idx sg.name = -1 := by
    rw [(d10.1 sg.name (by simp)).2]
    show ssE.idx sg.name = -1
    rw [(d6.1 sg.name (by simp)).2]
    show ssD.idx sg.name = -1
    rw [(d3.1 sg.name (by simp)).2]
    exact hB1
  have hF2 : ssF.covered = fun _ => [] := by
    rw [d10.2]
    show ssE.covered = _
    rw [d6.2]
    show ssD.covered = _
    rw [d3.2]
    exact hB2
  have hF3 : ssF.mark mk.name = ((fs1.enc v1).length : Int) := by
    rw [(d10.1 mk.name (by simp)).1]
    show ssE.mark mk.name = _
    rw [(d6.1 mk.name (by simp)).1]
    simp [setAt]
  -- the plan
  let total := (fs1.enc v1).length + (fs2.enc v2).length + sigRoom sg.num (est sg.name) + (fs3.enc v3).length
  let C' := updCell C [.key .length] total
  have hother : ∀ q : Path, q ≠ [.key .length] → C' q = C q := fun q hq => by simp [C', updCell, hq]
  have ready : ∀ (fs : Fields) (L : List Field) (v : fs.V), ReadyAll ms fs L v C [] → ReadyAll ms fs L v C' [] := fun fs L v r =>
    ReadyAll.congr ms fs L v C _ [] (fun f q hu => hother q fun e => not_under_length (p := []) (f := f) (e ▸ hu)) r
  have hest' : C' [.key (.est sg.name)] = est sg.name := by rw [hother _ (by simp)]; exact hest
  have notFalse : ∀ L : List Field, (∀ f ∈ L, f.cls = .wire true ∨ (f.cls ≠ .wire false ∧ f.cls.plain (plainAt ms fuel) = true)) →
      ∀ f ∈ L, f.cls ≠ .wire false := fun L hL f hf => by
    rcases hL f hf with e | e
    · rw [e]; simp
    · exact e.1
  have ok1 := fields_ok (call := callOf ms (fuel + 1)) (cells := C') (p := []) (kvs := kvs) ms (fuel + 1) ih2 fs1 _ v1 h1.stands (ready _ _ _ r1) hw1 (by omega) hl1
    (notFalse _ hk1)
  have ok2 := fields_ok (call := callOf ms (fuel + 1)) (cells := C') (p := []) (kvs := kvs) ms (fuel + 1) ih2 fs2 _ v2 h2.stands (ready _ _ _ r2) hw2 (by omega) hl2
    (notFalse _ hk2)
  have ok3 := fields_ok (call := callOf ms (fuel + 1)) (cells := C') (p := []) (kvs := kvs) ms (fuel + 1) ih2 fs3 _ v3 h3.stands (ready _ _ _ r3) hw3 (by omega) hl3
    (notFalse _ hk3)
  let nsD : NS := { nsC with s := { nsC.s with cells := C' } }
  have g1 := planning_block ok1 nsD [] 0 rfl rfl c3 c4 (by omega)
  have ho := openLen_le (items fs1 v1) 0
  have ho' := openLen_le (items fs2 v2) (openLen (items fs1 v1) 0)
  have g2 := planning_block ok2 nsD (closePlan (items fs1 v1) 0) (openLen (items fs1 v1) 0) rfl rfl c3 c4 (by omega)
  rw [← closePlan_append, ← openLen_append] at g2
  have ho12 : openLen (items fs1 v1 ++ items fs2 v2) 0 ≤ (fs1.enc v1).length + (fs2.enc v2).length := by rw [openLen_append]; omega
  let PL := signedPlan sg.num (est sg.name) (closePlan (items fs1 v1 ++ items fs2 v2) 0) (openLen (items fs1 v1 ++ items fs2 v2) 0)
  let A := if 0 < est sg.name then 0 else openLen (items fs1 v1 ++ items fs2 v2) 0
  have hA : A ≤ openLen (items fs1 v1 ++ items fs2 v2) 0 := by simp only [A]; split <;> omega
  have g3 := planning_block ok3 nsD PL A rfl rfl c3 c4 (by omega)
  obtain ⟨ssG, f1, f2, f3⟩ := block_plan (call := callOf ms (fuel + 1)) (ss := { ssF with ns := nsD.planning [] 0 }) q1 g1
  rw [List.nil_append] at f2
  have hmkP : (planSigned mk.name mk.num mk.cls).exec (callOf ms (fuel + 1)) ssG = .ok ssG := by
    rcases h.marker with ⟨nc, e⟩ | ⟨a, b, nc, e⟩ <;> rw [e] <;> rfl
  obtain ⟨ssH, f4, f5, f6⟩ := block_plan (call := callOf ms (fuel + 1)) (ss := ssG) q2 (by rw [f2]; exact g2)
  have f7 := signature_plan (call := callOf ms (fuel + 1)) (cells := C') (p := []) (kvs := kvs) (f := sg.name) (m := mk.name) (cov := cov) (n := sg.num)
    (nc := ncs) hest' ssH nsD _ _ f5 rfl rfl c3 c4 (by omega)
  obtain ⟨ssI, f8, f9, f10⟩ := block_plan (call := callOf ms (fuel + 1)) (ss := { ssH with
      ns := nsD.planning PL A
      idx := if 0 < est sg.name then setAt ssH.idx sg.name (((closePlan (items fs1 v1 ++ items fs2 v2) 0).length + 1 : Nat) : Int) else ssH.idx }) q3 g3
  have ePlan : (allSigned (fun f => planSigned f.name f.num f.cls) m.fields).exec (callOf ms (fuel + 1)) { ssF with ns := nsD.planning [] 0 } = .ok ssI := by
    rw [h.fields, allSigned_append, f1]
    simp only [Res.bind, allSigned]
    rw [sexec_append, hmkP]
    simp only [Res.bind]
    rw [allSigned_append, f4]
    simp only [Res.bind, allSigned]
    rw [sexec_append, hsg, f7]
    exact f8
  let W := PL ++ planOf (items fs3 v3) A
  have hfin : (NCode.cond (.positive (.var .l)) (.of .pushPlan) .done ++ .of .setPlan).exec (callOf ms (fuel + 1)) ssI.ns =
      .ok { nsD.planning W (openLen (items fs3 v3) A) with ownPlan := W } := by
    rw [f9, nexec_append]
    simp only [NCode.exec, Res.bind, Cond.eval, Ex.evalNum, Ex.eval, NS.planning, upd_same, Res.map, W, planOf_close (items fs3 v3) A]
    by_cases ha : 0 < openLen (items fs3 v3) A
    · simp only [ha, decide_true, if_true, NCode.of, NCode.exec, NAtom.exec, upd_same, Res.bind, NCode.decls, leave_nil, List.append_assoc]
    · simp only [ha, decide_false, Bool.false_eq_true, if_false, List.append_nil, NCode.of, NCode.exec, NAtom.exec, Res.bind]
  refine ⟨{ ssI with ns := { nsD.planning W (openLen (items fs3 v3) A) with ownPlan := W } }, ⟨?_, ?_, rfl, hest', ?_, ?_, ?_, ok1, ok2, ok3⟩, ?_, ready _ _ _ r1⟩
  · simp only [initOf, initSignedBody]
    rw [sexec_append, sexec_append, sexec_append, sexec_append, sexec_append, eInit]
    simp only [Res.bind]
    have s1 : (NCode.ofPlain (Code.of (.decl .l (.conv .uint (.num 0))))).exec (callOf ms (fuel + 1)) ssB.ns = .ok (nsC.planning [] 0) := by
      rw [p5, nexec_plain, exec_of]
      simp only [Atom.exec, Ex.eval, Res.bind, Ty.conv, Res.map, Nat.zero_mod, NS.through, ns0, NS.entry, if_true]
      rfl
    rw [sexec_plain_ok s1]
    simp only
    rw [eLen]
    simp only
    have s2 : (NCode.ofPlain (Code.of (.setKey .length (.var .l))) ++ .of .makePlan ++ .of (.zeroL true)).exec (callOf ms (fuel + 1)) ssF.ns =
        .ok (nsD.planning [] 0) := by
      rw [d9, nexec_append, nexec_append, nexec_plain, exec_of]
      simp only [Atom.exec, Ex.evalNum, Ex.eval, Res.bind, NS.planning, upd_same]
      have c5 : upd nsC.s.vars .l (.num ((fs1.enc v1).length + (fs2.enc v2).length + sigRoom sg.num (est sg.name) + (fs3.enc v3).length)) .encoder = .ref [] := by
        simpa [upd] using c3
      simp only [c5, NS.through, c1, if_true]
      rw [nexec_of]
      simp only [NAtom.exec]
      rw [nexec_of]
      simp only [NAtom.exec, upd_upd]
      rfl
    rw [sexec_plain_ok s2]
    simp only
    rw [ePlan]
    simp only
    rw [sexec_plain_ok hfin]
  · simpa [NS.planning, upd, nsD] using c4
  · show ssI.mark mk.name = _
    rw [(f10.1 mk.name (by simp)).1]
    show ssH.mark mk.name = _
    rw [(f6.1 mk.name (by simp)).1, (f3.1 mk.name (by simp)).1, hb1]
    exact hF3
  · show ssI.covered = _
    rw [f10.2]
    show ssH.covered = _
    rw [f6.2, f3.2]
    exact hF2
  · show ssI.idx sg.name = _
    rw [(f10.1 sg.name (by simp)).2]
    show (if 0 < est sg.name then setAt ssH.idx sg.name _ else ssH.idx) sg.name = _
    by_cases h0 : 0 < est sg.name
    · simp only [if_pos h0, setAt, if_true]
    · simp only [if_neg h0]
      rw [(f6.1 sg.name (by simp)).2, (f3.1 sg.name (by simp)).2]
      exact hF1
  · show C' [.key .length] = _
    simp [C', updCell, total]

/-! ## The wire -/

/-- the beginning of `EncodeInto` -/
theorem into_start {call : Call} {kvs : List (Txt × GV)} {cells : Path → Nat} {n : Nat} {l : List Nat} :
    ∃ ns1, (NCode.of .startIdx ++ .of .startBuf ++ .ofPlain (.of (.decl .pos (.conv .uint (.num 0))))).exec call
      (NS.entry (.ptr (.struct kvs)) cells ((n :: l).map fun n => List.replicate n 0) (freshWire 0 (n :: l)) (n :: l)) = .ok ns1 ∧
      Filling cells [] kvs [] [] (n :: l) ns1 := by
  rw [nexec_append, nexec_append, nexec_of]
  simp only [NAtom.exec, Res.bind, NS.entry]
  rw [nexec_of]
  simp only [NAtom.exec, freshWire, List.getElem?_cons_zero]
  rw [nexec_plain, exec_of]
  simp only [Atom.exec, Ex.eval, Res.bind, Ty.conv, Res.map, Nat.zero_mod, NS.through, NS.setBuf]
  by_cases h0 : 0 < n
  · simp only [if_pos h0, Ref.mem, List.map_cons, List.getElem?_cons_zero, Option.getD_some, List.set_cons_zero]
    refine ⟨_, rfl, ?_⟩
    constructor
    case cells => rfl
    case encoder => simp [upd, entry]
    case value => simp [upd, entry]
    case bufVar => simp [upd]
    case pos => simp [upd]
    case idx => rfl
    case wire => simp [refsOf, freshWire, h0]
    case blocks => rw [curBlocks_nil]; rfl
    case buf => simp [h0]
    case mem => simp [curMem]
  · simp only [if_neg h0, Ref.mem, if_true]
    refine ⟨_, rfl, ?_⟩
    constructor
    case cells => rfl
    case encoder => simp [upd, entry]
    case value => simp [upd, entry]
    case bufVar => simp [upd]
    case pos => simp [upd]
    case idx => rfl
    case wire => simp [refsOf, freshWire, h0]
    case blocks => rw [curBlocks_nil]; rfl
    case buf => simp [h0]
    case mem => simp [curMem, show n = 0 by omega]

/-- items that are all the encoder's -/
theorem own_only {I : List Item} (h : ∀ hd w, Item.wire hd w ∉ I) (acc : Bytes) : closed I acc = [] ∧ openBuf I acc = acc ++ (I.map Item.bytes).flatten := by
  induction I generalizing acc with
  | nil => simp [closed, openBuf]
  | cons it I ih =>
    cases it with
    | own b =>
      have := ih (fun hd w hm => h hd w (by simp [hm])) (acc ++ b)
      simp [closed, openBuf, this, Item.bytes]
    | wire hd w => exact absurd (by simp) (h hd w)

/-- the marker, in the wire -/
theorem marker_into {call : Call} (h : SignedModel ms fuel m pre mk mid sg post cov) (ss : SS) : ∃ ss', (intoSigned mk.name mk.num mk.cls).exec call ss = .ok ss' ∧
    ss'.ns = ss.ns ∧ ss'.mark = ss.mark ∧ ss'.idx = setAt ss.idx mk.name (ss.ns.idx : Int) ∧ ss'.covered = ss.covered := by
  rcases h.marker with ⟨nc, e⟩ | ⟨a, b, nc, e⟩ <;>
  · rw [e]
    exact ⟨{ ss with idx := setAt ss.idx mk.name ss.ns.idx, at' := setAt ss.at' mk.name (asInt (numVar ss .pos)) }, rfl, rfl, rfl, rfl, rfl⟩

/-- the first buffer that is done, or the open one, has what was in it before -/
theorem first_holds : ∀ (I : List Item) (acc : Bytes), acc.length ≤ (((closed I acc).map Piece.bytes ++ [openBuf I acc]).headD []).length
  | [], acc => by simp [closed, openBuf]
  | .own b :: r, acc => by
    have := first_holds r (acc ++ b)
    simp only [closed, openBuf]
    simp only [List.length_append] at this
    omega
  | .wire h w :: r, acc => by simp [closed, Piece.bytes]

theorem closed_append' : ∀ (a b : List Item) (acc : Bytes), closed (a ++ b) acc = closed a acc ++ closed b (openBuf a acc)
  | [], _, _ => rfl
  | .own _ :: r, b, _ => closed_append' r b _
  | .wire _ _ :: r, b, _ => by simp [closed, openBuf, closed_append' r b []]

theorem openBuf_append' : ∀ (a b : List Item) (acc : Bytes), openBuf (a ++ b) acc = openBuf b (openBuf a acc)
  | [], _, _ => rfl
  | .own _ :: r, b, _ => openBuf_append' r b _
  | .wire _ _ :: r, b, _ => openBuf_append' r b []

theorem curBlocks_all (acc : Bytes) : curBlocks acc (if 0 < acc.length then [acc.length] else []) = (if 0 < acc.length then [Piece.own acc] else []).map Piece.block := by
  split <;> simp [curBlocks, curMem, Piece.block]

/-- the first buffer, with a buffer after those that are done -/
theorem first_piece : ∀ (I : List Item) (acc x : Bytes) (rest : List Piece), ∃ b l, closed I acc ++ .own (openBuf I acc ++ x) :: rest = .own b :: l ∧ acc <+: b
  | [], acc, x, rest => ⟨acc ++ x, rest, rfl, ⟨x, rfl⟩⟩
  | .own b :: r, acc, x, rest => by
    obtain ⟨c, l, h1, h2⟩ := first_piece r (acc ++ b) x rest
    exact ⟨c, l, h1, List.IsPrefix.trans ⟨b, rfl⟩ h2⟩
  | .wire h w :: r, acc, x, rest => by
    simp only [closed, List.cons_append]
    exact ⟨acc ++ h, _, rfl, ⟨h, rfl⟩⟩

/-- the first buffer, with the open one last if it has something -/
theorem first_piece' (I : List Item) (acc : Bytes) (h : acc ≠ []) :
    ∃ b l, (closed I acc ++ if 0 < (openBuf I acc).length then [.own (openBuf I acc)] else []) = .own b :: l ∧ acc <+: b := by
  by_cases h0 : 0 < (openBuf I acc).length
  · rw [if_pos h0]
    have := first_piece I acc [] []
    rwa [List.append_nil] at this
  · rw [if_neg h0, List.append_nil]
    have he : openBuf I acc = [] := List.length_eq_zero_iff.1 (by omega)
    have key : ∀ (I : List Item) (acc : Bytes), acc ≠ [] → openBuf I acc = [] → ∃ b l, closed I acc = .own b :: l ∧ acc <+: b := by
      intro I
      induction I with
      | nil => intro acc h he; exact absurd he h
      | cons it I ih =>
        intro acc h he
        cases it with
        | own b =>
          obtain ⟨c, l, h1, h2⟩ := ih (acc ++ b) (by simp [h]) he
          exact ⟨c, l, h1, List.IsPrefix.trans ⟨b, rfl⟩ h2⟩
        | wire hd w =>
          simp only [closed]
          exact ⟨acc ++ hd, _, rfl, ⟨hd, rfl⟩⟩
    exact key I acc h he

/-- a run: the states at the ends of `Init` and `EncodeInto`, and where the bytes before the marker are -/
structure Runs (ms : List TModel) (fuel : Nat) (m : TModel) (kvs : List (Txt × GV)) (est : Txt → Nat) (need : Txt → Bool) (front : Bytes) (ss ss' : SS) :
    Prop where
  init : initOf ms (fuel + 1) m (.ptr (.struct kvs)) est need = .ok ss
  value : ss.ns.s.vars .value = .ptr (.struct kvs)
  clean : ss.covered = fun _ => []
  into : (intoSignedBody m.fields).exec (callOf ms (fuel + 1)) ss.again = .ok ss'
  room : front.length ≤ ss.ns.ownPlan.headD 0
  small : ss.ns.ownPlan.headD 0 < 2 ^ 63
  first : front ≠ [] → ∃ b l w, ss'.ns.blocks = b :: l ∧ front <+: b ∧ ss'.ns.wire.map (Ref.piece ss'.ns.blocks) = .own b :: w

theorem Runs.run {ms : List TModel} {fuel : Nat} {m : TModel} {kvs : List (Txt × GV)} {est : Txt → Nat} {need : Txt → Bool} {front : Bytes} {ss ss' : SS}
    (h : Runs ms fuel m kvs est need front ss ss') : runModel ms (fuel + 1) m (.ptr (.struct kvs)) est need = .ok (Signed.ofStates ss ss') := by
  simp only [runModel, h.init, Res.bind, h.into, Res.map]

end

/-! ## The property -/

section
variable {ms : List TModel} {fuel : Nat} {m : TModel} {pre mid post : List Field} {mk sg : Field} {cov : Txt}

theorem no_wire_items {kvs : List (Txt × GV)} {call : Call} {cells : Path → Nat} {L : List Field} {I : List Item}
    (h : List.Forall₂ (FieldOK call cells [] kvs) L I) (hL : ∀ f ∈ L, f.cls ≠ .wire true) : ∀ hd w, Item.wire hd w ∉ I := by
  induction h with
  | nil => intro hd w hm; simp at hm
  | cons hf _ ih =>
    intro hd w hm
    rcases List.mem_cons.1 hm with rfl | hm
    · exact hL _ (by simp) hf.1
    · exact ih (fun f hf => hL f (by simp [hf])) hd w hm

/-- the members of the value that have the names -/
def pick (names : List Txt) (kvs : List (Txt × GV)) : List (Txt × GV) := names.filterMap fun n => (lookup n kvs).map fun g => (n, g)

theorem pick_skip {n : Txt} (kvs rest : List (Txt × GV)) : ∀ {names : List Txt}, n ∉ names → lookup n (pick names kvs ++ rest) = lookup n rest
  | [], _ => rfl
  | k :: names, h => by
    simp only [List.mem_cons, not_or] at h
    have ih := pick_skip kvs rest h.2
    simp only [pick, List.filterMap_cons] at ih ⊢
    cases hk : lookup k kvs with
    | none => simpa using ih
    | some g => simp only [Option.map_some, List.cons_append, lookup, if_neg (Ne.symm h.1)]; exact ih

theorem pick_get {n : Txt} {g : GV} (kvs rest : List (Txt × GV)) (hg : lookup n kvs = some g) : ∀ {names : List Txt}, n ∈ names →
    lookup n (pick names kvs ++ rest) = some g
  | [], h => by simp at h
  | k :: names, h => by
    by_cases hk : k = n
    · subst hk; simp [pick, hg, lookup]
    · have ih := pick_get kvs rest hg (show n ∈ names by simpa [Ne.symm hk] using h)
      simp only [pick, List.filterMap_cons] at ih ⊢
      cases hk' : lookup k kvs with
      | none => simpa using ih
      | some g => simp only [Option.map_some, List.cons_append, lookup, if_neg hk]; exact ih

theorem StandsAll.mono (ms : List TModel) : ∀ (fs : Fields) (fields : List Field) (v : fs.V) (kvs kvs' : List (Txt × GV)),
    (∀ f ∈ fields, ∀ g, lookup f.name kvs = some g → lookup f.name kvs' = some g) → StandsAll ms fs fields v kvs → StandsAll ms fs fields v kvs'
  | .nil, _, _, _, _, _, h => by simpa only [StandsAll] using h
  | .flag t rest, fields, (b, vs), kvs, kvs', hn, h => by
    simp only [StandsAll] at h ⊢
    obtain ⟨f, l, rfl, h1, h2, h3, h4⟩ := h
    exact ⟨f, l, rfl, h1, h2, hn f (by simp) _ h3, StandsAll.mono ms rest l vs kvs kvs' (fun g hg => hn g (by simp [hg])) h4⟩
  | .cons t .req e rest, fields, (v, vs), kvs, kvs', hn, h => by
    simp only [StandsAll] at h ⊢
    obtain ⟨f, l, rfl, h1, h2, ⟨g, h3, h3'⟩, h4⟩ := h
    exact ⟨f, l, rfl, h1, h2, ⟨g, hn f (by simp) _ h3, h3'⟩, StandsAll.mono ms rest l vs kvs kvs' (fun g hg => hn g (by simp [hg])) h4⟩
  | .cons t .opt e rest, fields, (none, vs), kvs, kvs', hn, h => by
    simp only [StandsAll] at h ⊢
    obtain ⟨f, l, rfl, h1, h2, h3, h4⟩ := h
    exact ⟨f, l, rfl, h1, h2, hn f (by simp) _ h3, StandsAll.mono ms rest l vs kvs kvs' (fun g hg => hn g (by simp [hg])) h4⟩
  | .cons t .opt e rest, fields, (some v, vs), kvs, kvs', hn, h => by
    simp only [StandsAll] at h ⊢
    obtain ⟨f, l, rfl, h1, h2, ⟨g, h3, h3'⟩, h4⟩ := h
    exact ⟨f, l, rfl, h1, h2, ⟨g, hn f (by simp) _ h3, h3'⟩, StandsAll.mono ms rest l vs kvs kvs' (fun g hg => hn g (by simp [hg])) h4⟩
  | .cons t .seq e rest, fields, (xs, vs), kvs, kvs', hn, h => by
    simp only [StandsAll] at h ⊢
    obtain ⟨f, l, rfl, h1, ⟨ty, sub, h2, g, gs, h3, h3'⟩, h4⟩ := h
    exact ⟨f, l, rfl, h1, ⟨ty, sub, h2, g, gs, hn f (by simp) _ h3, h3'⟩, StandsAll.mono ms rest l vs kvs kvs' (fun g hg => hn g (by simp [hg])) h4⟩

/-- **C95, every message can be given to the encoder** -/
theorem C95_represented (h : SignedModel ms fuel m pre mk mid sg post cov) {fs1 fs2 fs3 : Fields}
    (h1 : schemaOf (resolve ms fuel) (pre.filter keep) = some fs1) (h2 : schemaOf (resolve ms fuel) (mid.filter keep) = some fs2)
    (h3 : schemaOf (resolve ms fuel) (post.filter keep) = some fs3) (v1 : fs1.V) (v2 : fs2.V) (v3 : fs3.V) :
    ∃ kvs, Holds ms fuel pre fs1 v1 kvs ∧ Holds ms fuel mid fs2 v2 kvs ∧ Holds ms fuel post fs3 v3 kvs := by
  have hnd := h.names'
  simp only [List.nodup_append, List.nodup_cons, List.mem_append, List.mem_cons, List.mem_map] at hnd
  obtain ⟨hn1, ⟨hn2, hn3, ⟨hn4, hn5⟩, hn6⟩, hn7⟩ := hnd
  have one : ∀ (l : List Field) (fs : Fields) (v : fs.V), (l.map Field.name).Nodup → (∀ f ∈ l, f ∈ pre ++ (mid ++ post)) →
      schemaOf (resolve ms fuel) (l.filter keep) = some fs → ∃ kvs, StandsAll ms fs (l.filter keep) v kvs := by
    intro l fs v hnl hml hs
    rw [← soften_schema] at hs
    obtain ⟨kvs, hk⟩ := stands_fields ms (stands_exists ms fuel) ((l.filter keep).map soften) fs (by
      unfold Named
      rw [List.map_map, show (Field.name ∘ soften) = Field.name from funext soften_name]
      exact List.Sublist.nodup (List.Sublist.map _ List.filter_sublist) hnl) (by
      intro f hf
      obtain ⟨f', hf', rfl⟩ := List.mem_map.1 hf
      exact soften_plain (h.kept (hml f' (List.mem_filter.1 hf').1) (List.mem_filter.1 hf').2)) hs v
    exact ⟨kvs, StandsAll.soften ms fs _ v kvs hk⟩
  obtain ⟨k1, s1⟩ := one pre fs1 v1 hn1 (fun f hf => by simp [hf]) h1
  obtain ⟨k2, s2⟩ := one mid fs2 v2 hn3 (fun f hf => by simp [hf]) h2
  obtain ⟨k3, s3⟩ := one post fs3 v3 hn5 (fun f hf => by simp [hf]) h3
  refine ⟨pick (pre.map Field.name) k1 ++ (pick (mid.map Field.name) k2 ++ k3), ⟨h1, ?_⟩, ⟨h2, ?_⟩, ⟨h3, ?_⟩⟩
  · exact StandsAll.mono ms _ _ _ _ _ (fun f hf g hg => pick_get _ _ hg (List.mem_map.2 ⟨f, (List.mem_filter.1 hf).1, rfl⟩)) s1
  · refine StandsAll.mono ms _ _ _ _ _ (fun f hf g hg => ?_) s2
    have hf' := (List.mem_filter.1 hf).1
    rw [pick_skip _ _ fun hm => ?_]
    · exact pick_get _ _ hg (List.mem_map.2 ⟨f, hf', rfl⟩)
    · obtain ⟨f', hm, e⟩ := List.mem_map.1 hm
      exact hn7 _ ⟨f', hm, rfl⟩ _ (Or.inr (Or.inl ⟨f, hf', rfl⟩)) e
  · refine StandsAll.mono ms _ _ _ _ _ (fun f hf g hg => ?_) s3
    have hf' := (List.mem_filter.1 hf).1
    rw [pick_skip _ _ fun hm => ?_, pick_skip _ _ fun hm => ?_]
    · exact hg
    · obtain ⟨f', hm, e⟩ := List.mem_map.1 hm
      exact hn6 _ ⟨f', hm, rfl⟩ _ (Or.inr ⟨f, hf', rfl⟩) e
    · obtain ⟨f', hm, e⟩ := List.mem_map.1 hm
      exact hn7 _ ⟨f', hm, rfl⟩ _ (Or.inr (Or.inr (Or.inr ⟨f, hf', rfl⟩))) e

/-- with an estimated length: the run and what it gives -/
theorem runs_signed (h : SignedModel ms fuel m pre mk mid sg post cov)
    {fs1 fs2 fs3 : Fields} {v1 : fs1.V} {v2 : fs2.V} {v3 : fs3.V} {kvs : List (Txt × GV)} (h1 : Holds ms fuel pre fs1 v1 kvs)
    (h2 : Holds ms fuel mid fs2 v2 kvs) (h3 : Holds ms fuel post fs3 v3 kvs) {est : Txt → Nat} {E : Nat} (hE : est sg.name = E) (h0 : 0 < E)
    (hl : (fs1.enc v1 ++ fs2.enc v2 ++ tlEnc sg.num ++ tlEnc E ++ fs3.enc v3).length + E < 2 ^ 63) (need : Txt → Bool) :
    ∃ ss ss' front back, Runs ms fuel m kvs est need (fs1.enc v1) ss ss' ∧ ReadyAll ms fs1 (pre.filter keep) v1 ss.ns.s.cells [] ∧
      (Signed.ofStates ss ss').wire = front ++ .own [] :: back ∧ (Signed.ofStates ss ss').idx sg.name = (front.length : Int) ∧
      (front.map Piece.bytes).flatten = fs1.enc v1 ++ fs2.enc v2 ++ tlEnc sg.num ++ tlEnc E ∧ (back.map Piece.bytes).flatten = fs3.enc v3 ∧
      givenOf (Signed.ofStates ss ss').wire = callerBuffers fs1 v1 ++ callerBuffers fs2 v2 ++ callerBuffers fs3 v3 ∧
      ((Signed.ofStates ss ss').covered cov).flatten = fs2.enc v2 ∧
      (Signed.ofStates ss ss').length = (fs1.enc v1 ++ fs2.enc v2 ++ tlEnc sg.num ++ tlEnc E ++ fs3.enc v3).length + E ∧
      front = closed (items fs2 v2) (fs1.enc v1) ++ [.own (openBuf (items fs2 v2) (fs1.enc v1) ++ (tlEnc sg.num ++ tlEnc E))] ∧ back = layout (items fs3 v3) [] := by
  subst hE
  have hh : (sigHead sg.num (est sg.name)).length = (tlEnc sg.num).length + (tlEnc (est sg.name)).length := by simp [sigHead]
  simp only [List.length_append] at hl
  obtain ⟨ss, R, hlen, hready⟩ := init_signed h h1 h2 h3 est need (by omega)
  have hb1 : ((items fs1 v1).map Item.bytes).flatten = fs1.enc v1 := items_bytes fs1 v1
  have hb2 : ((items fs2 v2).map Item.bytes).flatten = fs2.enc v2 := items_bytes fs2 v2
  have hb3 : ((items fs3 v3).map Item.bytes).flatten = fs3.enc v3 := items_bytes fs3 v3
  have ho1 := ownLen_le (items fs1 v1)
  have ho2 := ownLen_le (items fs2 v2)
  have ho3 := ownLen_le (items fs3 v3)
  rw [hb1] at ho1
  rw [hb2] at ho2
  rw [hb3] at ho3
  have hnw := no_wire_items R.ok1 (fun f hf => h.early f (List.mem_filter.1 hf).1)
  obtain ⟨hc1, hc2⟩ := own_only hnw []
  rw [hb1, List.nil_append] at hc2
  have hop : openLen (items fs1 v1) 0 = (fs1.enc v1).length := by rw [← hc2]; exact (openBuf_length _ []).symm
  have hcp : closePlan (items fs1 v1) 0 = [] := List.length_eq_zero_iff.1 (by rw [show (0 : Nat) = ([] : Bytes).length from rfl, ← closed_length, hc1]; rfl)
  let done := closed (items fs2 v2) (fs1.enc v1)
  let acc := openBuf (items fs2 v2) (fs1.enc v1)
  have hacc : acc.length = openLen (items fs2 v2) (fs1.enc v1).length := openBuf_length _ _
  have hao := openLen_le (items fs2 v2) (fs1.enc v1).length
  have hplan : ss.ns.ownPlan = closePlan (items fs2 v2) (fs1.enc v1).length ++
      ((acc.length + (sigHead sg.num (est sg.name)).length) :: 0 :: planOf (items fs3 v3) 0) := by
    rw [R.plan, signedPlan, if_pos h0, if_pos h0, closePlan_append, openLen_append, hcp, hop, hacc]
    simp
  have hpos := sigHead_pos sg.num (est sg.name)
  obtain ⟨n, l, hnl⟩ : ∃ n l, ss.ns.ownPlan = n :: l := by
    cases hx : ss.ns.ownPlan with
    | nil => rw [hx] at hplan; simp at hplan
    | cons n l => exact ⟨n, l, rfl⟩
  obtain ⟨ns1, e1, e2⟩ := into_start (call := callOf ms (fuel + 1)) (kvs := kvs) (cells := ss.ns.s.cells) (n := n) (l := l)
  rw [← hnl] at e1 e2
  -- before the marker
  have hroom := room (items fs2 v2) (fs1.enc v1).length ((acc.length + (sigHead sg.num (est sg.name)).length) :: 0 :: planOf (items fs3 v3) 0)
    (by simp only [List.headD_cons, hacc]; omega)
  have hhead' : ss.ns.ownPlan.headD 0 < 2 ^ 63 := by
    rw [hplan]
    cases hc : closePlan (items fs2 v2) (fs1.enc v1).length with
    | nil => simp only [List.nil_append, List.headD_cons]; omega
    | cons x l =>
      have := closePlan_le (items fs2 v2) _ x (by rw [hc]; simp)
      simp only [List.cons_append, List.headD_cons]; omega
  have hhead : ss.ns.ownPlan.headD 0 < 2 ^ 64 := by omega
  obtain ⟨ns2, e3, e4⟩ := filling_block R.ok1 (items_head fs1 v1) [] [] ss.ns.ownPlan ns1 (by simp only [List.length_nil]; omega) hhead
    (by rw [List.length_nil, hop, hplan]; exact hroom) (by rw [List.length_nil, hcp]; exact e2)
  rw [hc1, hc2, List.nil_append] at e4
  have q3 : ∀ f ∈ post, keep f = true ∨ Aside [mk.name, sg.name] f := fun f hf => h.quiet (by simp [hf])
  have q2 : ∀ f ∈ mid, keep f = true ∨ Aside [mk.name, sg.name] f := fun f hf => h.quiet (by simp [hf])
  have q1 : ∀ f ∈ pre, keep f = true ∨ Aside [mk.name, sg.name] f := fun f hf => h.quiet (by simp [hf])
  obtain ⟨ssA, a1, a2, a3⟩ := block_into (ss := { ss.again with ns := ns1 }) q1 e3
  obtain ⟨ssB, b1, b2, b3, b4, b5⟩ := marker_into (call := callOf ms (fuel + 1)) h ssA
  -- between
  rw [hplan] at e4
  obtain ⟨ns3, e5, e6⟩ := filling_block R.ok2 (items_head fs2 v2) [] (fs1.enc v1) _ ns2 (by omega) (by simp only [List.headD_cons]; omega)
    (by simp only [List.headD_cons, hacc]; omega) e4
  rw [List.nil_append] at e6
  obtain ⟨ssC, d1, d2, d3⟩ := block_into (ss := ssB) q2 (by rw [b2, a2]; exact e5)
  have hidx : ssC.idx mk.name = 0 := by
    rw [(d3.1 mk.name (by simp)).2, b4, setAt_same, a2, e4.idx]
    rfl
  have hmark : ssC.mark mk.name = ((fs1.enc v1).length : Int) := by
    rw [(d3.1 mk.name (by simp)).1, b3, (a3.1 mk.name (by simp)).1]
    show ss.mark mk.name = _
    rw [R.mark, hb1]
  have hsgi : ssC.idx sg.name = ss.idx sg.name := by
    have hne : sg.name ≠ mk.name := by
      have := h.names'
      simp only [List.nodup_append, List.nodup_cons, List.mem_append, List.mem_cons] at this
      intro e
      exact this.2.1.1 (Or.inr (Or.inl e.symm))
    rw [(d3.1 sg.name (by simp)).2, b4, setAt_other _ _ hne, (a3.1 sg.name (by simp)).2]
    rfl
  have hcovC : ssC.covered = fun _ => [] := by
    rw [d3.2, b5, a3.2]
    exact R.covered
  -- the signature
  obtain ⟨ncs, hsg⟩ := h.signature
  obtain ⟨ssD, parts, g1, g2, g3, g4, g5⟩ := signature_into (call := callOf ms (fuel + 1)) (f := sg.name) (m := mk.name) (cov := cov) (n := sg.num) (nc := ncs)
    (a := (fs1.enc v1).length) (done := done) (acc := acc) R.estCell h0 (ss := ssC) (by rw [d2]; exact e6) (by omega) hidx hmark (first_holds _ _)
  -- after it
  have hz : (0 : Nat) = ([] : Bytes).length := rfl
  have hpost := planOf_close (items fs3 v3) 0
  have hob := openBuf_length (items fs3 v3) []
  rw [← hz] at hob
  rw [← hob] at hpost
  rw [hpost] at g2
  have hol := openLen_le (items fs3 v3) 0
  have hhd : ∀ x : Nat, (if 0 < x then [x] else []).headD 0 = x := by intro x; split <;> simp; omega
  obtain ⟨ns4, e7, e8⟩ := filling_block R.ok3 (items_head fs3 v3) _ [] (if 0 < (openBuf (items fs3 v3) []).length then [(openBuf (items fs3 v3) []).length] else [])
    ssD.ns (by simp only [List.length_nil]; omega) (by rw [hhd]; omega) (by rw [hhd, hob]; exact Nat.le_refl _) g2
  obtain ⟨ssE, k1, k2, k3⟩ := block_into (ss := ssD) q3 e7
  have hend := filling_end e8
  have hblocks := e8.blocks
  let front := done ++ [.own (acc ++ sigHead sg.num (est sg.name))]
  obtain ⟨fb, fl, hfp, hpre⟩ := first_piece (items fs2 v2) (fs1.enc v1) (sigHead sg.num (est sg.name)) []
  refine ⟨ss, ssE, front, layout (items fs3 v3) [], ⟨R.run, R.value, R.covered, ?_, ?_, hhead', fun _ => ?_⟩, hready, ?_, ?_, ?_, ?_, ?_, ?_, ?_, rfl, rfl⟩
  · simp only [intoSignedBody]
    rw [sexec_append, sexec_plain_ok (ss := ss.again) (ns := ns1) (by simp only [SS.again, R.value]; exact e1)]
    simp only [Res.bind]
    rw [h.fields, allSigned_append, a1]
    simp only [Res.bind, allSigned]
    rw [sexec_append, b1]
    simp only [Res.bind]
    rw [allSigned_append, d1]
    simp only [Res.bind, allSigned]
    rw [sexec_append, hsg, g1]
    simp only [Res.bind]
    exact k1
  · rw [hplan]; exact hroom
  · have hfp' : closed (items fs2 v2) (fs1.enc v1) ++ [Piece.own (openBuf (items fs2 v2) (fs1.enc v1) ++ sigHead sg.num (est sg.name)), .own []] =
        .own fb :: (fl ++ [.own []]) := by
      rw [show ([Piece.own (openBuf (items fs2 v2) (fs1.enc v1) ++ sigHead sg.num (est sg.name)), .own []] : List Piece) =
        [Piece.own (openBuf (items fs2 v2) (fs1.enc v1) ++ sigHead sg.num (est sg.name))] ++ [.own []] from rfl, ← List.append_assoc, hfp]
      rfl
    rw [k2]
    have hx : ∃ l, ns4.blocks = fb :: l := by
      rw [hblocks]
      simp only [done, acc]
      rw [hfp']
      exact ⟨_, rfl⟩
    have hy : ∃ w, ns4.wire.map (Ref.piece ns4.blocks) = .own fb :: w := by
      rw [hend]
      simp only [done, acc]
      rw [hfp']
      exact ⟨_, rfl⟩
    obtain ⟨l, hx⟩ := hx
    obtain ⟨w, hy⟩ := hy
    exact ⟨fb, l, w, hx, hpre, hy⟩
  · show ssE.ns.wire.map (Ref.piece ssE.ns.blocks) = _
    rw [k2, hend, layout_close]
    simp [front, done, acc]
  · show ssE.idx sg.name = _
    rw [(k3.1 sg.name (by simp)).2, g3, hsgi, R.idx, if_pos h0, closePlan_append, hcp, hop]
    simp only [front, done, List.nil_append, List.length_append, closed_length, List.length_cons, List.length_nil, Nat.zero_add]
  · have := closed_bytes (items fs2 v2) (fs1.enc v1)
    rw [hb2] at this
    simp only [front, done, acc, sigHead, List.map_append, List.flatten_append, List.map_cons, List.map_nil, List.flatten_cons, List.flatten_nil, Piece.bytes,
      List.append_nil]
    rw [← List.append_assoc, this]
    simp
  · rw [layout_bytes, hb3]; rfl
  · show givenOf (ssE.ns.wire.map (Ref.piece ssE.ns.blocks)) = _
    rw [k2, hend]
    have e9 := layout_given (items fs3 v3) []
    rw [layout_close, items_given] at e9
    have e10 := closed_given (items fs2 v2) (fs1.enc v1)
    rw [items_given] at e10
    have e11 := closed_given (items fs1 v1) []
    rw [items_given, hc1] at e11
    rw [← e9, ← e10, ← e11]
    simp [givenOf, done]
  · show ((ssE.covered cov).map (Part.bytes ssE.ns.blocks)).flatten = _
    rw [k3.2, g4, setAt_same, hcovC, List.nil_append, k2, hblocks]
    have := g5 ([] :: ((closed (items fs3 v3) []).map Piece.block ++ curBlocks (openBuf (items fs3 v3) [])
      (if 0 < (openBuf (items fs3 v3) []).length then [(openBuf (items fs3 v3) []).length] else [])))
    rw [show done.map Piece.bytes = (closed (items fs2 v2) (fs1.enc v1)).map Piece.bytes from rfl, closed_bytes, hb2, List.drop_left] at this
    rw [← this]
    simp [Piece.block]
  · show ss.ns.s.cells [.key .length] = _
    rw [hlen, sigRoom, if_pos h0]
    simp only [List.length_append]
    omega

/-- **C95, the emitted encoder with a signature**: for every model with a signature and a marker that the generator can be given, within what is covered, and
every Go value that stands for the messages `v1` before the marker, `v2` from the marker to the signature and `v3` after it, with an estimated length of the
signature, the statements that the generator writes run without a panic.  In the wire there is an empty buffer at `encoder.f_wireIdx`.  Before it are the bytes
of `v1` and `v2` and the type and the estimated length of the signature, after it those of `v3`.  The buffers of the caller are there uncopied and in order.
The parts that the signature is computed over are the bytes of `v2`, and `encoder.length` is the length of all with the estimated signature. -/
theorem C95_encode_partial {t : Txt} (hm : (ms.find? fun m => m.name == t) = some m) (h : SignedModel ms fuel m pre mk mid sg post cov)
    {fs1 fs2 fs3 : Fields} {v1 : fs1.V} {v2 : fs2.V} {v3 : fs3.V} {kvs : List (Txt × GV)} (h1 : Holds ms fuel pre fs1 v1 kvs)
    (h2 : Holds ms fuel mid fs2 v2 kvs) (h3 : Holds ms fuel post fs3 v3 kvs) {est : Txt → Nat} {E : Nat} (hE : est sg.name = E) (h0 : 0 < E)
    (hl : (fs1.enc v1 ++ fs2.enc v2 ++ tlEnc sg.num ++ tlEnc E ++ fs3.enc v3).length + E < 2 ^ 63) :
    ∃ r front back, runSigned ms (fuel + 1) t (.ptr (.struct kvs)) est = .ok r ∧ r.wire = front ++ .own [] :: back ∧ r.idx sg.name = (front.length : Int) ∧
      (front.map Piece.bytes).flatten = fs1.enc v1 ++ fs2.enc v2 ++ tlEnc sg.num ++ tlEnc E ∧ (back.map Piece.bytes).flatten = fs3.enc v3 ∧
      givenOf r.wire = callerBuffers fs1 v1 ++ callerBuffers fs2 v2 ++ callerBuffers fs3 v3 ∧ (r.covered cov).flatten = fs2.enc v2 ∧
      r.length = (fs1.enc v1 ++ fs2.enc v2 ++ tlEnc sg.num ++ tlEnc E ++ fs3.enc v3).length + E := by
  obtain ⟨ss, ss', front, back, R, _, e2, e3, e4, e5, e6, e7, e8, _⟩ := runs_signed h h1 h2 h3 hE h0 hl fun _ => false
  exact ⟨Signed.ofStates ss ss', front, back, by simp only [runSigned, hm]; exact R.run, e2, e3, e4, e5, e6, e7, e8⟩

/-- **C95, the signature**: a signature of the estimated length that is put into the buffer gives a wire with the bytes of the message. -/
theorem C95_signed_partial {t : Txt} (hm : (ms.find? fun m => m.name == t) = some m) (h : SignedModel ms fuel m pre mk mid sg post cov)
    {fs1 fs2 fs3 : Fields} {v1 : fs1.V} {v2 : fs2.V} {v3 : fs3.V} {kvs : List (Txt × GV)} (h1 : Holds ms fuel pre fs1 v1 kvs)
    (h2 : Holds ms fuel mid fs2 v2 kvs) (h3 : Holds ms fuel post fs3 v3 kvs) {est : Txt → Nat} (sig : Bytes) (hE : est sg.name = sig.length) (h0 : sig ≠ [])
    (hl : (fs1.enc v1 ++ fs2.enc v2 ++ tlv sg.num sig ++ fs3.enc v3).length < 2 ^ 63) :
    ∃ r, runSigned ms (fuel + 1) t (.ptr (.struct kvs)) est = .ok r ∧ 0 < r.idx sg.name ∧
      ((r.wire.set (r.idx sg.name).toNat (.given sig)).map Piece.bytes).flatten = fs1.enc v1 ++ fs2.enc v2 ++ tlv sg.num sig ++ fs3.enc v3 ∧
      (r.covered cov).flatten = fs2.enc v2 ∧ r.length = (fs1.enc v1 ++ fs2.enc v2 ++ tlv sg.num sig ++ fs3.enc v3).length := by
  simp only [tlv, List.length_append] at hl
  obtain ⟨r, front, back, e1, e2, e3, e4, e5, _, e7, e8⟩ := C95_encode_partial hm h h1 h2 h3 hE (List.length_pos_iff.2 h0)
    (by simp only [List.length_append]; omega)
  have hfr : 0 < front.length := by
    cases front with
    | nil =>
      have := congrArg List.length e4
      have hp := sigHead_pos sg.num sig.length
      simp only [sigHead, List.map_nil, List.flatten_nil, List.length_append, List.length_nil] at this hp
      omega
    | cons => simp
  refine ⟨r, e1, by omega, ?_, e7, ?_⟩
  · rw [e2, e3, Int.toNat_natCast, List.set_append_right _ _ (Nat.le_refl _), Nat.sub_self, List.set_cons_zero]
    simp only [List.map_append, List.map_cons, List.flatten_append, List.flatten_cons, e4, e5, Piece.bytes, tlv]
    simp
  · rw [e8]
    simp only [tlv, List.length_append]
    omega

/-- without: the run and what it gives -/
theorem runs_unsigned (h : SignedModel ms fuel m pre mk mid sg post cov)
    {fs1 fs2 fs3 : Fields} {v1 : fs1.V} {v2 : fs2.V} {v3 : fs3.V} {kvs : List (Txt × GV)} (h1 : Holds ms fuel pre fs1 v1 kvs)
    (h2 : Holds ms fuel mid fs2 v2 kvs) (h3 : Holds ms fuel post fs3 v3 kvs) {est : Txt → Nat} (hE : est sg.name = 0)
    (hl : (fs1.enc v1 ++ fs2.enc v2 ++ fs3.enc v3).length + (tlEnc sg.num).length < 2 ^ 62) (hne : fs1.enc v1 ++ fs2.enc v2 ++ fs3.enc v3 ≠ [])
    (need : Txt → Bool) :
    ∃ ss ss', Runs ms fuel m kvs est need (fs1.enc v1) ss ss' ∧ ReadyAll ms fs1 (pre.filter keep) v1 ss.ns.s.cells [] ∧
      ((Signed.ofStates ss ss').wire.map Piece.bytes).flatten = fs1.enc v1 ++ fs2.enc v2 ++ fs3.enc v3 ∧
      givenOf (Signed.ofStates ss ss').wire = callerBuffers fs1 v1 ++ callerBuffers fs2 v2 ++ callerBuffers fs3 v3 ∧
      (Signed.ofStates ss ss').idx sg.name = -1 ∧ (Signed.ofStates ss ss').covered cov = [] ∧
      (Signed.ofStates ss ss').length = (fs1.enc v1 ++ fs2.enc v2 ++ fs3.enc v3).length ∧
      (Signed.ofStates ss ss').wire = layout (items fs1 v1 ++ items fs2 v2 ++ items fs3 v3) [] := by
  simp only [List.length_append] at hl
  obtain ⟨ss, R, hlen, hready⟩ := init_signed h h1 h2 h3 est need (by
    have : tlEnc 0 = [0] := by decide
    simp only [hE, sigHead, List.length_append, this, List.length_cons, List.length_nil]; omega)
  let I := items fs1 v1 ++ items fs2 v2
  have hb : ((I ++ items fs3 v3).map Item.bytes).flatten = fs1.enc v1 ++ fs2.enc v2 ++ fs3.enc v3 := by
    simp only [I, List.map_append, List.flatten_append, items_bytes]
  have ho1 := ownLen_le (items fs1 v1)
  have ho2 := ownLen_le (items fs2 v2)
  have ho3 := ownLen_le (items fs3 v3)
  rw [items_bytes] at ho1 ho2 ho3
  have hhd : ∀ h w, Item.wire h w ∈ I ++ items fs3 v3 → h ≠ [] := by
    intro hd w hm
    simp only [I, List.mem_append] at hm
    rcases hm with (hm | hm) | hm
    · exact items_head _ _ _ _ hm
    · exact items_head _ _ _ _ hm
    · exact items_head _ _ _ _ hm
  have hplan : ss.ns.ownPlan = planOf (I ++ items fs3 v3) 0 := by
    rw [R.plan, hE, signedPlan, if_neg (Nat.lt_irrefl 0), if_neg (Nat.lt_irrefl 0), ← planOf_append]
  obtain ⟨n, l, hnl⟩ : ∃ n l, ss.ns.ownPlan = n :: l := by
    cases hx : ss.ns.ownPlan with
    | nil =>
      exfalso
      rw [hx] at hplan
      have h6 := layout_length (I ++ items fs3 v3) []
      simp only [List.length_nil] at h6
      rw [← hplan] at h6
      have h7 := layout_bytes (I ++ items fs3 v3) []
      rw [List.length_eq_zero_iff.1 h6, hb] at h7
      exact hne (by simpa using h7.symm)
    | cons n l => exact ⟨n, l, rfl⟩
  obtain ⟨ns1, e1, e2⟩ := into_start (call := callOf ms (fuel + 1)) (kvs := kvs) (cells := ss.ns.s.cells) (n := n) (l := l)
  rw [← hnl] at e1 e2
  rw [hplan, planOf_append] at e2
  have hz : (0 : Nat) = ([] : Bytes).length := rfl
  have hol := openLen_le I 0
  have hol3 := openLen_le (items fs3 v3) (openLen I 0)
  have hI : ownLen I = ownLen (items fs1 v1) + ownLen (items fs2 v2) := ownLen_append _ _
  have hph := plan_head (items fs3 v3) (openLen I 0)
  have hpl : (planOf (items fs3 v3) (openLen I 0)).headD 0 < 2 ^ 64 := headD_lt (by omega) fun n hn => by
    have := plan_le _ _ _ hn; omega
  have ok12 := List.rel_append R.ok1 R.ok2
  obtain ⟨ns2, e3, e4⟩ := filling_block ok12 (fun h w hm => hhd h w (by simp only [I, List.mem_append]; exact Or.inl (by simpa using hm))) [] [] _ ns1
    (by show 0 + ownLen I < 2 ^ 64; omega) hpl hph e2
  rw [allNoCopy_append] at e3
  obtain ⟨nsA, e3a, e3b⟩ := bind_ok_inv e3
  have q3 : ∀ f ∈ post, keep f = true ∨ Aside [mk.name, sg.name] f := fun f hf => h.quiet (by simp [hf])
  have q2 : ∀ f ∈ mid, keep f = true ∨ Aside [mk.name, sg.name] f := fun f hf => h.quiet (by simp [hf])
  have q1 : ∀ f ∈ pre, keep f = true ∨ Aside [mk.name, sg.name] f := fun f hf => h.quiet (by simp [hf])
  obtain ⟨ssA, a1, a2, a3⟩ := block_into (ss := { ss.again with ns := ns1 }) q1 e3a
  obtain ⟨ssB, b1, b2, b3, b4, b5⟩ := marker_into (call := callOf ms (fuel + 1)) h ssA
  obtain ⟨ssC, d1, d2, d3⟩ := block_into (ss := ssB) q2 (by rw [b2, a2]; exact e3b)
  have hne' : sg.name ≠ mk.name := by
    have := h.names'
    simp only [List.nodup_append, List.nodup_cons, List.mem_append, List.mem_cons] at this
    intro e
    exact this.2.1.1 (Or.inr (Or.inl e.symm))
  have hsgi : ssC.idx sg.name = -1 := by
    rw [(d3.1 sg.name (by simp)).2, b4, setAt_other _ _ hne', (a3.1 sg.name (by simp)).2]
    show ss.idx sg.name = -1
    rw [R.idx, hE, if_neg (Nat.lt_irrefl 0)]
  have hcovC : ssC.covered = fun _ => [] := by
    rw [d3.2, b5, a3.2]
    exact R.covered
  obtain ⟨ncs, hsg⟩ := h.signature
  have g1 := signature_none (call := callOf ms (fuel + 1)) (f := sg.name) (m := mk.name) (cov := cov) (n := sg.num) (nc := ncs) (cells := ss.ns.s.cells) (p := [])
    (by rw [R.estCell, hE]) (ss := ssC) (by rw [d2]; exact e4.cells) (by rw [d2]; exact e4.encoder)
  rw [List.nil_append] at e4
  have hlob := openBuf_length I []
  have hpost := planOf_close (items fs3 v3) (openLen I 0)
  have hob := openBuf_length (items fs3 v3) (openBuf I [])
  rw [hlob, List.length_nil] at hob
  rw [← hob] at hpost
  rw [hpost, show openLen I 0 = (openBuf I []).length by rw [hlob]; rfl] at e4
  have hhd' : ∀ x : Nat, (if 0 < x then [x] else []).headD 0 = x := by intro x; split <;> simp; omega
  obtain ⟨ns3, e5, e8⟩ := filling_block R.ok3 (items_head fs3 v3) (closed I []) (openBuf I []) _ ns2 (by rw [hlob]; simp only [List.length_nil]; omega)
    (by rw [hhd']; omega) (by rw [hhd', hob, hlob]; exact Nat.le_refl _) e4
  have e6 := filling_end e8
  obtain ⟨ssE, k1, k2, k3⟩ := block_into (ss := ssC) q3 (by rw [d2]; exact e5)
  have hnw := no_wire_items R.ok1 (fun f hf => h.early f (List.mem_filter.1 hf).1)
  obtain ⟨hc1, hc2⟩ := own_only hnw []
  rw [items_bytes, List.nil_append] at hc2
  change openBuf (items fs1 v1) [] = fs1.enc v1 at hc2
  have hlay : (closed I [] ++ closed (items fs3 v3) (openBuf I []) ++
      if 0 < (openBuf (items fs3 v3) (openBuf I [])).length then [.own (openBuf (items fs3 v3) (openBuf I []))] else []) = layout (I ++ items fs3 v3) [] := by
    rw [layout_close, closed_append' I, openBuf_append' I]
  have hpl' : (planOf (I ++ items fs3 v3) 0).headD 0 < 2 ^ 63 := headD_lt (by omega) fun n hn => by
    have := plan_le _ _ _ hn
    have := ownLen_append I (items fs3 v3)
    omega
  have hcp : closePlan (items fs1 v1) 0 = [] := List.length_eq_zero_iff.1 (by rw [show (0 : Nat) = ([] : Bytes).length from rfl, ← closed_length, hc1]; rfl)
  have hop : openLen (items fs1 v1) 0 = (fs1.enc v1).length := by rw [← hc2]; exact (openBuf_length _ []).symm
  refine ⟨ss, ssE, ⟨R.run, R.value, R.covered, ?_, ?_, ?_, fun hfne => ?_⟩, hready, ?_, ?_, ?_, ?_, ?_, ?_⟩
  · simp only [intoSignedBody]
    rw [sexec_append, sexec_plain_ok (ss := ss.again) (ns := ns1) (by simp only [SS.again, R.value]; exact e1)]
    simp only [Res.bind]
    rw [h.fields, allSigned_append, a1]
    simp only [Res.bind, allSigned]
    rw [sexec_append, b1]
    simp only [Res.bind]
    rw [allSigned_append, d1]
    simp only [Res.bind, allSigned]
    rw [sexec_append, hsg, g1]
    simp only [Res.bind]
    exact k1
  · rw [hplan, show I ++ items fs3 v3 = items fs1 v1 ++ (items fs2 v2 ++ items fs3 v3) by simp [I], planOf_append, hcp, hop]
    exact plan_head _ _
  · rw [hplan]; exact hpl'
  · obtain ⟨b, l, hp1, hp2⟩ := first_piece' (items fs2 v2 ++ items fs3 v3) (fs1.enc v1) hfne
    have hL : layout (I ++ items fs3 v3) [] = .own b :: l := by
      rw [← hp1, layout_close, show I ++ items fs3 v3 = items fs1 v1 ++ (items fs2 v2 ++ items fs3 v3) by simp [I], closed_append', openBuf_append' (items fs1 v1), hc1, hc2]
      rfl
    rw [k2]
    refine ⟨b, l.map Piece.block, l, ?_, hp2, by rw [e6, hlay, hL]⟩
    rw [e8.blocks, curBlocks_all, ← List.map_append, hlay, hL]
    rfl
  · show ((ssE.ns.wire.map (Ref.piece ssE.ns.blocks)).map Piece.bytes).flatten = _
    rw [k2, e6, hlay, layout_bytes, hb]; rfl
  · show givenOf (ssE.ns.wire.map (Ref.piece ssE.ns.blocks)) = _
    rw [k2, e6, hlay, layout_given]
    simp only [I, List.map_append, List.flatten_append, items_given]
  · show ssE.idx sg.name = -1
    rw [(k3.1 sg.name (by simp)).2]
    exact hsgi
  · show (ssE.covered cov).map (Part.bytes ssE.ns.blocks) = []
    rw [k3.2, hcovC]; rfl
  · show ss.ns.s.cells [.key .length] = _
    rw [hlen, sigRoom, hE, if_neg (Nat.lt_irrefl 0)]
    simp only [List.length_append]
    omega
  · show ssE.ns.wire.map (Ref.piece ssE.ns.blocks) = _
    rw [k2, e6, hlay]

/-- **C95, without a signature**: with an estimated length of 0, the wire has the bytes of the message without the signature, `encoder.f_wireIdx` is -1, and
no part is covered. -/
theorem C95_unsigned_partial {t : Txt} (hm : (ms.find? fun m => m.name == t) = some m) (h : SignedModel ms fuel m pre mk mid sg post cov)
    {fs1 fs2 fs3 : Fields} {v1 : fs1.V} {v2 : fs2.V} {v3 : fs3.V} {kvs : List (Txt × GV)} (h1 : Holds ms fuel pre fs1 v1 kvs)
    (h2 : Holds ms fuel mid fs2 v2 kvs) (h3 : Holds ms fuel post fs3 v3 kvs) {est : Txt → Nat} (hE : est sg.name = 0)
    (hl : (fs1.enc v1 ++ fs2.enc v2 ++ fs3.enc v3).length + (tlEnc sg.num).length < 2 ^ 62) (hne : fs1.enc v1 ++ fs2.enc v2 ++ fs3.enc v3 ≠ []) :
    ∃ r, runSigned ms (fuel + 1) t (.ptr (.struct kvs)) est = .ok r ∧ (r.wire.map Piece.bytes).flatten = fs1.enc v1 ++ fs2.enc v2 ++ fs3.enc v3 ∧
      givenOf r.wire = callerBuffers fs1 v1 ++ callerBuffers fs2 v2 ++ callerBuffers fs3 v3 ∧ r.idx sg.name = -1 ∧ r.covered cov = [] ∧
      r.length = (fs1.enc v1 ++ fs2.enc v2 ++ fs3.enc v3).length := by
  obtain ⟨ss, ss', R, _, e2, e3, e4, e5, e6, _⟩ := runs_unsigned h h1 h2 h3 hE hl hne fun _ => false
  exact ⟨Signed.ofStates ss ss', by simp only [runSigned, hm]; exact R.run, e2, e3, e4, e5, e6⟩

end

end Ndn.Codec.Gen
