import Verif.Codec.OuterRun

/-! # Lemmas for C97: the outer encoder with one inner encoder -/

namespace Ndn.Codec.Gen

variable {call : Call} {inner : Inner}

theorem oexec_append (c d : OCode) (os : OS) : (c ++ d).exec call inner os = (c.exec call inner os).bind (d.exec call inner) := by
  induction c generalizing os with
  | done => rfl
  | plain c k ih =>
    show ((c.exec call os.ns).map fun ns => { os with ns := ns }).bind ((k ++ d).exec call inner) = _
    rw [OCode.exec, bind_assoc]; congr 1; funext s; exact ih s
  | atom a k ih =>
    show (a.exec inner os).bind ((k ++ d).exec call inner) = _
    rw [OCode.exec, bind_assoc]; congr 1; funext s; exact ih s
  | cond c b k _ ih =>
    show ((c.eval os.ns.s).bind fun t => (if t then b.exec call inner os else .ok os).bind ((k ++ d).exec call inner)) = _
    rw [OCode.exec, bind_assoc]; congr 1; funext t; rw [bind_assoc]; congr 1; funext s; exact ih s

theorem oexec_of (a : OAtom) (os : OS) : (OCode.of a).exec call inner os = a.exec inner os := by
  show (a.exec inner os).bind _ = _
  cases a.exec inner os <;> rfl

theorem oexec_plain (c : NCode) (os : OS) : (OCode.ofPlain c).exec call inner os = (c.exec call os.ns).map fun ns => { os with ns := ns } := by
  show ((c.exec call os.ns).map _).bind _ = _
  cases c.exec call os.ns <;> rfl

theorem oexec_cond {c : Cond} {b : OCode} {os : OS} (t : Bool) (h : c.eval os.ns.s = .ok t) :
    (OCode.cond c b .done).exec call inner os = if t then b.exec call inner os else .ok os := by
  rw [OCode.exec, h]
  show (if t then b.exec call inner os else .ok os).bind _ = _
  cases (if t then b.exec call inner os else .ok os) <;> rfl

theorem allOuter_append (g : Field → OCode) (l l' : List Field) (os : OS) :
    (allOuter g (l ++ l')).exec call inner os = ((allOuter g l).exec call inner os).bind ((allOuter g l').exec call inner) := by
  induction l generalizing os with
  | nil => rfl
  | cons f l ih =>
    simp only [List.cons_append, allOuter]
    rw [oexec_append, oexec_append, bind_assoc]
    congr 1; funext s; exact ih s

/-- the fields of a list are absent structs with `nocopy` -/
def Absent (kvs : List (Txt × GV)) (fs : List Field) : Prop := ∀ f ∈ fs, (∃ t, f.cls = .struct t true) ∧ lookup f.name kvs = some .nil

theorem skip_all {g : Field → OCode} (hg : ∀ f : Field, (∃ t, f.cls = .struct t true) → ∃ b, g f = .cond (.notNil f.name) b .done) {kvs : List (Txt × GV)} :
    ∀ {fs : List Field} {os : OS}, Absent kvs fs → os.ns.s.vars .value = .ptr (.struct kvs) → (allOuter g fs).exec call inner os = .ok os
  | [], _, _, _ => rfl
  | f :: fs, os, ha, hv => by
    obtain ⟨ht, hn⟩ := ha f (.head _)
    obtain ⟨b, hb⟩ := hg f ht
    rw [allOuter, oexec_append, hb, oexec_cond false (notNil_eval hn _ hv)]
    exact skip_all hg (fun f hf => ha f (.tail _ hf)) hv

theorem skip_init {kvs : List (Txt × GV)} {fs : List Field} {os : OS} (ha : Absent kvs fs) (hv : os.ns.s.vars .value = .ptr (.struct kvs)) :
    (allOuter (fun f => initOuter f.name f.cls) fs).exec call inner os = .ok os :=
  skip_all (fun f ⟨t, ht⟩ => ⟨_, by rw [ht]; rfl⟩) ha hv

theorem skip_plan {kvs : List (Txt × GV)} {fs : List Field} {os : OS} (ha : Absent kvs fs) (hv : os.ns.s.vars .value = .ptr (.struct kvs)) :
    (allOuter (fun f => planOuter f.name f.num f.cls) fs).exec call inner os = .ok os :=
  skip_all (fun f ⟨t, ht⟩ => ⟨_, by rw [ht]; rfl⟩) ha hv

theorem skip_into {kvs : List (Txt × GV)} {fs : List Field} {os : OS} (ha : Absent kvs fs) (hv : os.ns.s.vars .value = .ptr (.struct kvs)) :
    (allOuter (fun f => intoOuter f.name f.num f.cls) fs).exec call inner os = .ok os :=
  skip_all (fun f ⟨t, ht⟩ => ⟨_, by rw [ht]; rfl⟩) ha hv

theorem skip_length {kvs : List (Txt × GV)} {ns : NS} {pl : List Nat} {sub : Txt → SS} {p : Path} (hb : ns.buf = .nil)
    (he : ns.s.vars .encoder = .ref p) (hv : ns.s.vars .value = .ptr (.struct kvs)) {a : Nat} (hl : a < 2 ^ 64) : ∀ {fs : List Field}, Absent kvs fs →
    (allOuter (fun f => .ofPlain (.ofPlain (lengthCode f.name f.num f.cls))) fs).exec call inner ⟨ns.planning pl a, sub⟩ = .ok ⟨ns.planning pl a, sub⟩
  | [], _ => rfl
  | f :: fs, ha => by
    obtain ⟨⟨t, ht⟩, hn⟩ := ha f (.head _)
    have hA : Adds call ns.s.cells p kvs (lengthCode f.name f.num f.cls) 0 := by
      rw [ht]; exact Adds.nil hn (by rfl)
    rw [allOuter, oexec_append, oexec_plain, planning_plain hA ns pl a hb rfl he hv (by omega)]
    exact skip_length hb he hv hl (fun f hf => ha f (.tail _ hf))

/-! ## The plan -/

theorem restPlan_eq : ∀ (n : Nat) (l : List Nat), (restPlan n l).1 ++ [(restPlan n l).2] = n :: l
  | n, [] => rfl
  | n, a :: l => by simp only [restPlan, List.cons_append]; rw [restPlan_eq a l]

/-- the header of the field -/
def header (f : Field) (L : Nat) : Bytes := tlEnc f.num ++ tlEnc L

theorem header_length (f : Field) (L : Nat) : (header f L).length = tlLen f.num + tlLen L := by
  rw [header, List.length_append, tlEnc_length, tlEnc_length]

/-- the cells after `Init`: the length of the inner encoder, and then that of the outer one -/
def cellsOf (f : Field) (L : Nat) : Path → Nat :=
  updCell (updCell (fun _ => 0) [.key .length, .key (.enc f.name)] L) [.key .length] ((header f L).length + L)

theorem cellsOf_inner (f : Field) (L : Nat) : cellsOf f L [.key .length, .key (.enc f.name)] = L := by simp [cellsOf, updCell]

theorem cellsOf_own (f : Field) (L : Nat) : cellsOf f L [.key .length] = (header f L).length + L := by simp [cellsOf, updCell]

theorem planning_step {f : Field} {t : Txt} {p0 : Nat} {rest : List Nat} {ns : NS} {sub : Txt → SS} {kvs : List (Txt × GV)} {g : GV} {L : Nat}
    (hc : f.cls = .struct t true) (hf : lookup f.name kvs = some g) (hg : g.isNil = false) (hb : ns.buf = .nil)
    (he : ns.s.vars .encoder = .ref []) (hv : ns.s.vars .value = .ptr (.struct kvs)) (hL : ns.s.cells [.key .length, .key (.enc f.name)] = L) (h0 : 0 < L)
    (hp : (sub f.name).ns.ownPlan = p0 :: rest) (hs : (header f L).length + p0 < 2 ^ 64) :
    ∃ pl a, (planOuter f.name f.num f.cls).exec call inner ⟨ns.planning [] 0, sub⟩ = .ok ⟨ns.planning pl a, sub⟩ ∧
      (if 0 < a then pl ++ [a] else pl) = ((header f L).length + p0) :: rest := by
  have hl := header_length f L
  have hA : Adds call ns.s.cells [] kvs (typeNumLen f.num ++ naturalLen (innerLength f.name) true) (tlLen f.num + tlLen L) :=
    Adds.append (Adds.typeNum _) ((Adds.natural (IsNum.own2 hL) true).congr (by simp))
  have hv' : ∀ pl a, (ns.planning pl a).s.vars .value = .ptr (.struct kvs) := fun pl a => by simpa [NS.planning, upd] using hv
  have he' : ∀ pl a, (ns.planning pl a).s.vars .encoder = .ref [] := fun pl a => by simpa [NS.planning, upd] using he
  rw [hc, planOuter, oexec_cond true (by rw [notNil_eval hf _ (hv' _ _), hg]; rfl), if_pos rfl, oexec_append, oexec_plain,
    planning_plain hA ns [] 0 hb rfl he hv (by omega)]
  simp only [Res.map, Res.bind]
  rw [oexec_cond true (by
    simp only [Cond.eval, innerLength, Ex.evalNum, Ex.eval, he', Res.bind, Res.map]
    simp [NS.planning, hL, h0]), if_pos rfl, oexec_append, oexec_append, oexec_of]
  simp only [OAtom.exec, hp]
  have e1 : ∀ pl a b, (ns.planning pl a).setVar .l (.num b) = ns.planning pl b := fun pl a b => by simp [NS.setVar, NS.planning, upd_upd]
  have e2 : ∀ pl a, (ns.planning pl a).s.vars .l = .num a := fun pl a => by simp [NS.planning, upd]
  rw [e2]
  simp only [e1, Res.bind]
  rw [oexec_of]
  simp only [OAtom.exec, e2, hp, List.drop_succ_cons, List.drop_zero]
  have hm : (0 + (tlLen f.num + tlLen L) + p0) % 2 ^ 64 = (header f L).length + p0 := by rw [Nat.mod_eq_of_lt (by omega)]; omega
  rw [hm]
  have hr := restPlan_eq ((header f L).length + p0) rest
  generalize restPlan ((header f L).length + p0) rest = r at hr ⊢
  have e3 : ∀ a, ({ ns.planning [] ((header f L).length + p0) with plan := (ns.planning [] ((header f L).length + p0)).plan ++ r.1 } : NS).setVar .l (.num a)
      = ns.planning r.1 a := fun a => by simp [NS.setVar, NS.planning, upd_upd]
  rw [e3, oexec_of]
  simp only [OAtom.exec, e2]
  by_cases h : r.2 = 0
  · refine ⟨r.1 ++ [0], 0, ?_, ?_⟩
    · rw [if_pos h, h]; rfl
    · rw [h] at hr; simpa using hr
  · refine ⟨r.1, r.2, by rw [if_neg h], ?_⟩
    rw [if_pos (by omega)]; exact hr

/-! ## `Init` -/

/-- what the variables are after `Init` of the outer encoder -/
structure Inited (f : Field) (L : Nat) (plan : List Nat) (kvs : List (Txt × GV)) (sub : Txt → SS) (os : OS) : Prop where
  cells : os.ns.s.cells = cellsOf f L
  value : os.ns.s.vars .value = .ptr (.struct kvs)
  ownPlan : os.ns.ownPlan = plan
  sub : os.sub = sub

theorem outer_init {pre post : List Field} {f : Field} {t : Txt} {kvs : List (Txt × GV)} {est : Txt → Txt → Nat} {need : Txt → Txt → Bool} {kv0 : List (Txt × GV)}
    {ss : SS} {p0 : Nat} {rest : List Nat} {L : Nat}
    (hc : f.cls = .struct t true) (hpre : Absent kvs pre) (hpost : Absent kvs post) (hd : ∀ g ∈ pre ++ post, g.name ≠ f.name)
    (hf : lookup f.name kvs = some (.ptr (.struct kv0)))
    (hi : inner t true (SS.entry (.ptr (.struct kv0)) (est f.name) (need f.name)) = .ok ss) (hp : Points ss.ns.s) (hL : ss.ns.s.cells [.key .length] = L)
    (h0 : 0 < L) (hs : (header f L).length + L < 2 ^ 64) (hpl : ss.ns.ownPlan = p0 :: rest) (hs' : (header f L).length + p0 < 2 ^ 64) :
    ∃ os, (initOuterBody (pre ++ f :: post)).exec call inner (OS.entry (.ptr (.struct kvs)) est need) = .ok os ∧
      Inited f L (((header f L).length + p0) :: rest) (setField f.name (ss.ns.s.vars .value) kvs) (setAt (OS.entry (.ptr (.struct kvs)) est need).sub f.name ss) os := by
  obtain ⟨kv1, hp⟩ := hp
  have hl := header_length f L
  have hne : ∀ {fs : List Field}, (∀ g ∈ fs, g.name ≠ f.name) → Absent kvs fs → Absent (setField f.name (ss.ns.s.vars .value) kvs) fs := fun hd ha g hg =>
    ⟨(ha g hg).1, by rw [lookup_setField_other (hd g hg)]; exact (ha g hg).2⟩
  have hpre' := hne (fun g hg => hd g (List.mem_append_left _ hg)) hpre
  have hpost' := hne (fun g hg => hd g (List.mem_append_right _ hg)) hpost
  have hf' : lookup f.name (setField f.name (ss.ns.s.vars .value) kvs) = some (ss.ns.s.vars .value) := lookup_setField hf
  have hnil : (ss.ns.s.vars .value).isNil = false := by rw [hp]; rfl
  generalize hk : setField f.name (ss.ns.s.vars .value) kvs = kvs' at *
  generalize hos : OS.entry (.ptr (.struct kvs)) est need = os0
  have hv0 : os0.ns.s.vars .value = .ptr (.struct kvs) := by rw [← hos]; rfl
  have he0 : os0.ns.s.vars .encoder = .ref [] := by rw [← hos]; rfl
  unfold initOuterBody
  rw [oexec_append, oexec_append, oexec_append, oexec_append, oexec_append, allOuter_append, skip_init hpre hv0]
  -- the inner `Init`
  let ns1 : NS := { os0.ns with s := { os0.ns.s with
    cells := updCell os0.ns.s.cells [.key .length, .key (.enc f.name)] L
    vars := upd os0.ns.s.vars .value (.ptr (.struct kvs')) } }
  have hv1 : ns1.s.vars .value = .ptr (.struct kvs') := upd_same os0.ns.s.vars .value _
  have he1 : ns1.s.vars .encoder = .ref [] := by rw [← he0]; exact upd_other (u := .encoder) (v := .value) _ (.ptr (.struct kvs')) (by decide)
  have hb1 : ns1.buf = .nil := by show os0.ns.buf = _; rw [← hos]; rfl
  have e1 : (allOuter (fun f => initOuter f.name f.cls) (f :: post)).exec call inner os0 = .ok ⟨ns1, setAt os0.sub f.name ss⟩ := by
    rw [allOuter, oexec_append, hc, initOuter, oexec_cond true (by rw [notNil_eval hf _ hv0]; rfl), if_pos rfl, oexec_of]
    have : ({ os0.sub f.name with ns := NS.entry (.ptr (.struct kv0)) (os0.sub f.name).ns.s.cells [] [] [] } : SS) =
        SS.entry (.ptr (.struct kv0)) (est f.name) (need f.name) := by rw [← hos]; rfl
    simp only [OAtom.exec, fieldOfValue_eq hv0 hf, Res.bind, this, hi, hv0, he0, hL]
    rw [hk]
    exact skip_init hpost' hv1
  simp only [Res.bind]
  rw [e1]
  simp only
  rw [oexec_plain, nexec_plain, exec_of]
  have e2 : (NS.through ns1 { ns1.s with vars := upd ns1.s.vars .l (.num 0) }) = .ok (ns1.planning [] 0) := by
    have : ns1.plan = [] := by show os0.ns.plan = _; rw [← hos]; rfl
    simp only [NS.through, hb1, if_true, NS.planning, this]
  simp only [Atom.exec, Ex.eval, Res.bind, Ty.conv, Res.map, Nat.zero_mod, e2]
  -- the length
  have hL1 : ns1.s.cells [.key .length, .key (.enc f.name)] = L := by simp [ns1, updCell]
  have e3 : (allOuter (fun f => .ofPlain (.ofPlain (lengthCode f.name f.num f.cls))) (pre ++ f :: post)).exec call inner ⟨ns1.planning [] 0, setAt os0.sub f.name ss⟩ =
      .ok ⟨ns1.planning [] ((header f L).length + L), setAt os0.sub f.name ss⟩ := by
    rw [allOuter_append, skip_length hb1 he1 hv1 (by omega) hpre']
    simp only [Res.bind, allOuter]
    have hA : Adds call ns1.s.cells [] kvs' (lengthCode f.name f.num f.cls) ((header f L).length + L) := by
      rw [hc]
      refine Adds.guarded hf' (fun _ => hnil) (by rfl) ?_
      have hA1 : Adds call ns1.s.cells [] kvs' (naturalLen (.own2 (.enc f.name) .length) true) (tlLen L) := (Adds.natural (IsNum.own2 hL1) true).congr (by simp)
      exact (Adds.append (Adds.append (Adds.typeNum _) hA1) (Adds.inc (IsNum.own2 hL1))).congr (by omega)
    rw [oexec_append, oexec_plain, planning_plain hA ns1 [] 0 hb1 rfl he1 hv1 (by omega)]
    simp only [Res.map, Res.bind, Nat.zero_add]
    exact skip_length hb1 he1 hv1 (by omega) hpost'
  rw [e3]
  simp only
  -- the plan
  let ns2 : NS := { ns1 with s := { ns1.s with cells := cellsOf f L } }
  have e4 : (NCode.ofPlain (.of (.setKey .length (.var .l))) ++ .of .makePlan ++ .of (.zeroL true)).exec call (ns1.planning [] ((header f L).length + L)) =
      .ok (ns2.planning [] 0) := by
    rw [nexec_append, nexec_append, nexec_plain, exec_of]
    have hev : (ns1.planning [] ((header f L).length + L)).s.vars .encoder = .ref [] := by simpa [NS.planning, upd] using he1
    have hlv : (ns1.planning [] ((header f L).length + L)).s.vars .l = .num ((header f L).length + L) := by simp [NS.planning, upd]
    have hbv : (ns1.planning [] ((header f L).length + L)).buf = .nil := hb1
    simp only [Atom.exec, Ex.evalNum, Ex.eval, hlv, Res.bind, hev, NS.through, hbv, if_true]
    rw [nexec_of]
    simp only [NAtom.exec]
    rw [nexec_of]
    simp only [NAtom.exec, NS.planning, upd_upd, ns2]
    have : updCell ns1.s.cells [.key .length] ((header f L).length + L) = cellsOf f L := by
      show updCell (updCell os0.ns.s.cells _ _) _ _ = _
      rw [← hos]; rfl
    rw [this, hb1]
  rw [oexec_plain, e4]
  simp only [Res.map]
  have hv2 : ∀ pl a, (ns2.planning pl a).s.vars .value = .ptr (.struct kvs') := fun pl a => by simpa [NS.planning, upd] using hv1
  obtain ⟨pl, a, e5, hpa⟩ := planning_step (call := call) (inner := inner) (sub := setAt os0.sub f.name ss) (ns := ns2) (p0 := p0) (rest := rest) hc hf' hnil hb1 he1 hv1
    (cellsOf_inner f L) h0 (by simp [setAt, hpl]) hs'
  rw [allOuter_append, skip_plan hpre' (hv2 _ _)]
  simp only [Res.bind, allOuter]
  rw [oexec_append, e5]
  simp only [Res.bind]
  rw [skip_plan hpost' (hv2 _ _)]
  simp only
  rw [oexec_plain, nexec_append]
  have hlv : (ns2.planning pl a).s.vars .l = .num a := by simp [NS.planning, upd]
  simp only [NCode.exec, Cond.eval, Ex.evalNum, Ex.eval, hlv, Res.bind, Res.map]
  by_cases ha : 0 < a
  · rw [if_pos ha] at hpa
    simp only [ha, decide_true, if_true]
    rw [nexec_of]
    simp only [NAtom.exec, hlv]
    rw [nexec_of]
    simp only [NAtom.exec]
    exact ⟨_, rfl, rfl, by simpa [NS.leave, Gen.leave, NCode.decls, NS.planning, upd] using hv1, hpa, rfl⟩
  · rw [if_neg ha] at hpa
    simp only [ha, decide_false, Bool.false_eq_true, if_false]
    rw [nexec_of]
    simp only [NAtom.exec]
    exact ⟨_, rfl, rfl, hv2 pl a, hpa, rfl⟩

/-! ## `EncodeInto` -/

theorem freshWire_length : ∀ (k : Nat) (l : List Nat), (freshWire k l).length = l.length
  | _, [] => rfl
  | k, _ :: l => by simp [freshWire, freshWire_length (k + 1) l]

theorem freshWire_get : ∀ (k : Nat) (l : List Nat) (i : Nat), (freshWire k l)[i]? = (l[i]?).map fun n => if 0 < n then Ref.own (k + i) else .nil
  | _, [], _ => rfl
  | k, n :: l, 0 => rfl
  | k, n :: l, i + 1 => by
    simp only [freshWire, List.getElem?_cons_succ, freshWire_get (k + 1) l i]
    rw [Nat.add_assoc, Nat.add_comm 1 i]

theorem fresh_mem : ∀ (pre : List Bytes) (l : List Nat),
    (freshWire pre.length l).map (Ref.mem (pre ++ l.map fun n => List.replicate n 0)) = l.map fun n => List.replicate n 0
  | _, [] => rfl
  | pre, n :: l => by
    have ih := fresh_mem (pre ++ [List.replicate n 0]) l
    simp only [List.length_append, List.length_singleton, List.append_assoc, List.singleton_append] at ih
    simp only [freshWire, List.map_cons, ih]
    congr 1
    by_cases h : 0 < n
    · simp [h, Ref.mem]
    · simp [show n = 0 by omega, Ref.mem]

theorem fresh_sub : ∀ (pre : List Bytes) (l : List Nat),
    subEntries (pre ++ l.map fun n => List.replicate n 0) pre.length (freshWire pre.length l) = freshWire pre.length l
  | _, [] => rfl
  | pre, n :: l => by
    have ih := fresh_sub (pre ++ [List.replicate n 0]) l
    simp only [List.length_append, List.length_singleton, List.append_assoc, List.singleton_append] at ih
    simp only [freshWire, List.map_cons, subEntries, ih]
    congr 1
    by_cases h : 0 < n
    · have : List.replicate n (0 : UInt8) ≠ [] := by simp; omega
      simp [h, subEntry, Ref.mem, this]
    · simp [show n = 0 by omega, subEntry, Ref.mem]

theorem fresh_back : ∀ (pre : List Bytes) (l : List Nat) (bs old : List Bytes), bs.map List.length = l → old.length = l.length →
    (∀ i : Nat, l[i]? = some 0 → old[i]? = some []) → putBack (freshWire pre.length l) bs (pre ++ old) = pre ++ bs
  | pre, [], bs, old, hb, ho, _ => by
    cases bs with
    | nil => cases old with
      | nil => rfl
      | cons => cases ho
    | cons => cases hb
  | pre, n :: l, [], old, hb, _, _ => by cases hb
  | pre, n :: l, b :: bs, [], _, ho, _ => by cases ho
  | pre, n :: l, b :: bs, o :: old, hb, ho, hz => by
    simp only [List.map_cons, List.cons.injEq] at hb
    have ih := fresh_back (pre ++ [b]) l bs old hb.2 (by simpa using ho) (fun i hi => hz (i + 1) hi)
    simp only [List.length_append, List.length_singleton, List.append_assoc, List.singleton_append] at ih
    by_cases h : 0 < n
    · simp only [freshWire, if_pos h, putBack]
      rw [show (pre ++ o :: old).set pre.length b = pre ++ b :: old by simp]
      exact ih
    · have h0 : n = 0 := by omega
      have ho0 := hz 0 (by simp [h0])
      simp only [List.getElem?_cons_zero, Option.some.injEq] at ho0
      have hb0 : b = [] := List.eq_nil_of_length_eq_zero (by omega)
      simp only [freshWire, if_neg h, putBack, ho0]
      rw [hb0] at ih ⊢
      exact ih

theorem fresh_refs {l : List Nat} : ∀ {k : Nat} {m : List Nat} {refs : List Ref}, (∀ i, m[i]? = l[k + i]?) → List.Forall₂ KeptRef refs (freshWire (k + 1) m) →
    backRefs (freshWire 1 l) refs = .ok refs
  | _, [], _, _, h => by cases h; rfl
  | k, n :: m, _, hm, h => by
    cases h with
    | cons hr ht =>
      rename_i r rs
      have ih := fresh_refs (k := k + 1) (m := m) (fun i => by rw [Nat.add_assoc, Nat.add_comm 1 i, ← hm (i + 1)]; rfl) ht
      have e : backRef (freshWire 1 l) r = .ok r := by
        rcases hr with rfl | ⟨b, rfl⟩
        · have h0 := hm 0
          simp only [List.getElem?_cons_zero, Nat.add_zero] at h0
          by_cases hn : 0 < n
          · simp only [if_pos hn, backRef]
            rw [freshWire_get, ← h0]
            simp [hn, Nat.add_comm]
          · simp only [if_neg hn, backRef]
        · rfl
      simp only [backRefs, e, Res.bind, ih, Res.map]

theorem goOn_ok (n last pos : Nat) (ns : NS) : ∃ ns', goOn n last pos ns = .ok ns' ∧ ns'.wire = ns.wire ∧ ns'.blocks = ns.blocks ∧
    ns'.s.vars .value = ns.s.vars .value := by
  unfold goOn
  simp only [NAtom.exec]
  split <;> split <;> exact ⟨_, rfl, rfl, rfl, by simp [NS.setBuf, NS.setVar, upd]⟩

theorem outer_into {pre post : List Field} {f : Field} {t : Txt} {kvs : List (Txt × GV)} {sub : Txt → SS} {os : OS} {ss ss' : SS} {p0 : Nat} {rest : List Nat}
    {L : Nat} (hI : Inited f L (((header f L).length + p0) :: rest) kvs sub os)
    (hc : f.cls = .struct t true) (hpre : Absent kvs pre) (hpost : Absent kvs post) (hf : lookup f.name kvs = some (ss.ns.s.vars .value))
    (hp : Points ss.ns.s) (h0 : 0 < L) (hs : (header f L).length + p0 < 2 ^ 64) (hsub : sub f.name = ss) (hpl : ss.ns.ownPlan = p0 :: rest)
    (hi : inner t false ss.again = .ok ss') (hv : Inv ss.again.ns.wire (p0 :: rest) ss'.ns) :
    ∃ os' b bs, (intoOuterBody (pre ++ f :: post)).exec call inner os.again = .ok os' ∧ ss'.ns.blocks = b :: bs ∧ os'.ns.blocks = (header f L ++ b) :: bs ∧
      os'.ns.wire = .own 0 :: ss'.ns.wire.drop 1 ∧
      os'.sub f.name = { ss' with covered := fun c => (ss'.covered c).map (backPart (.own 0) (header f L).length (freshWire 1 rest)) } := by
  obtain ⟨kv1, hp⟩ := hp
  have hnil : (ss.ns.s.vars .value).isNil = false := by rw [hp]; rfl
  have hl := header_length f L
  have hpos : 0 < (header f L).length := by
    have : 0 < tlLen L := by (unfold tlLen; repeat' split) <;> omega
    omega
  obtain ⟨ns1, e1, hF⟩ := into_start (call := call) (kvs := kvs) (cells := cellsOf f L) (n := (header f L).length + p0) (l := rest)
  have hag : os.again = ⟨NS.entry (.ptr (.struct kvs)) (cellsOf f L) ((((header f L).length + p0) :: rest).map fun n => List.replicate n 0)
      (freshWire 0 (((header f L).length + p0) :: rest)) (((header f L).length + p0) :: rest), sub⟩ := by
    unfold OS.again
    rw [hI.value, hI.cells, hI.ownPlan, ← hI.sub]
  rw [hag]
  unfold intoOuterBody
  rw [oexec_append, oexec_plain, e1]
  simp only [Res.map, Res.bind]
  rw [allOuter_append, skip_into hpre hF.value]
  simp only [Res.bind, allOuter]
  have hN : IsNum (cellsOf f L) [] kvs (innerLength f.name) L := IsNum.own2 (cellsOf_inner f L)
  have hP : Puts call (cellsOf f L) [] kvs (encodeTypeNum f.num ++ naturalEncode (innerLength f.name) true) (header f L) :=
    Puts.append (Puts.typeNum _) ((Puts.natural hN true).congr (by simp))
  obtain ⟨ns2, e2, hF2⟩ := filling_plain hP hF (by simp) (by simpa using hs)
  rw [oexec_append, hc, intoOuter, oexec_cond true (by rw [notNil_eval hf _ hF.value, hnil]; rfl), if_pos rfl, oexec_append, oexec_plain, e2]
  simp only [Res.map, Res.bind, List.nil_append] at hF2 ⊢
  rw [oexec_cond true (by
    simp only [Cond.eval, Ex.evalNum, hN ns2.s hF2.cells hF2.encoder hF2.value, Res.bind, Res.map]
    simp [h0]), if_pos rfl, oexec_of]
  -- the call
  have hidx : ns2.idx = 0 := by rw [hF2.idx]; rfl
  have hwire : ns2.wire = .own 0 :: freshWire 1 rest := by
    rw [hF2.wire]
    simp only [refsOf, List.length_nil, List.nil_append, freshWire]
    rw [if_pos (by omega)]
  have hmem : ns2.s.mem = header f L ++ List.replicate p0 0 := by rw [hF2.mem]; simp [curMem]
  have hblocks : ns2.blocks = [header f L ++ List.replicate p0 0] ++ rest.map fun n => List.replicate n 0 := by
    rw [hF2.blocks]; simp [curBlocks, curMem]
  have hbuf : ns2.buf = .own 0 := by rw [hF2.buf, if_pos (by simp only [List.headD_cons]; omega)]; rfl
  have hentries : (ns2.wire.drop (ns2.idx + 1)).take (ss.ns.ownPlan.length - 1) = freshWire 1 rest := by
    rw [hidx, hwire, hpl]
    simp only [Nat.zero_add, List.drop_succ_cons, List.drop_zero, List.length_cons, Nat.add_sub_cancel]
    rw [← freshWire_length 1 rest, List.take_length]
  have hdrop : ns2.s.mem.drop (header f L).length = List.replicate p0 0 := by rw [hmem]; simp
  have hentry : ({ ss with ns := subEntryState ns2 ss (ss.ns.s.vars .value) (header f L).length (freshWire 1 rest) } : SS) = ss.again := by
    unfold subEntryState SS.again
    have m1 := fresh_mem [header f L ++ List.replicate p0 0] rest
    have m2 := fresh_sub [header f L ++ List.replicate p0 0] rest
    simp only [List.length_singleton] at m1 m2
    rw [hdrop, hblocks, m1, m2, hpl]
    simp only [List.map_cons, freshWire]
    by_cases h : 0 < p0
    · have : List.replicate p0 (0 : UInt8) ≠ [] := by simp; omega
      rw [if_neg this, if_pos h]
    · rw [if_pos (by simp; omega), if_neg h]
  have hlast : ∃ last, ss.ns.ownPlan.getLast? = some last := by
    rw [hpl]; exact ⟨_, List.getLast?_cons⟩
  obtain ⟨last, hlast⟩ := hlast
  have hlens := hv.lens
  obtain ⟨b, bs, hbb⟩ : ∃ b bs, ss'.ns.blocks = b :: bs := by
    cases h : ss'.ns.blocks with
    | nil => rw [h] at hlens; cases hlens
    | cons b bs => exact ⟨b, bs, rfl⟩
  rw [hbb] at hlens
  simp only [List.map_cons, List.cons.injEq] at hlens
  have hrefs : backRefs (freshWire 1 rest) (ss'.ns.wire.drop 1) = .ok (ss'.ns.wire.drop 1) := by
    have hw := hv.wire
    have : ss.again.ns.wire = freshWire 0 (p0 :: rest) := by rw [← hpl]; rfl
    rw [this] at hw
    simp only [freshWire] at hw
    cases hcw : ss'.ns.wire with
    | nil => rw [hcw] at hw; cases hw
    | cons r rs =>
      rw [hcw] at hw
      cases hw with
      | cons _ ht => exact fresh_refs (k := 0) (m := rest) (fun i => by rw [Nat.zero_add]) ht
  have hback : putBack (freshWire 1 rest) bs ([header f L ++ b] ++ rest.map fun n => List.replicate n 0) = [header f L ++ b] ++ bs :=
    fresh_back [header f L ++ b] rest bs _ hlens.2 (by simp) (fun i hi => by simp [hi])
  have e3 : ∃ os', (OAtom.subWire f.name t).exec inner ⟨ns2, sub⟩ = .ok os' ∧ os'.ns.s.vars .value = .ptr (.struct kvs) ∧
      os'.ns.blocks = (header f L ++ b) :: bs ∧ os'.ns.wire = .own 0 :: ss'.ns.wire.drop 1 ∧
      os'.sub f.name = { ss' with covered := fun c => (ss'.covered c).map (backPart (.own 0) (header f L).length (freshWire 1 rest)) } := by
    simp only [OAtom.exec, subWireExec, hsub, fieldOfValue_eq hF2.value hf, Res.bind, hF2.pos, hlast, hentries]
    rw [if_pos ⟨by rw [hmem]; simp, by rw [freshWire_length, hpl]; simp⟩, hentry, hi]
    simp only [hbb, List.headD_cons, List.drop_succ_cons, List.drop_zero, hrefs]
    have ht : ns2.s.mem.take (header f L).length = header f L := by rw [hmem]; simp
    simp only [NS.through, hbuf, ht]
    obtain ⟨ns3, e4, hw3, hb3, hv3⟩ := goOn_ok ss.ns.ownPlan.length last (header f L).length
      { ns2 with
        s := { ns2.s with mem := header f L ++ b }
        blocks := putBack (freshWire 1 rest) bs (ns2.blocks.set 0 (header f L ++ b))
        wire := ns2.wire.take (ns2.idx + 1) ++ ss'.ns.wire.drop 1 ++ ns2.wire.drop (ns2.idx + ss.ns.ownPlan.length) }
    simp only [hbuf] at e4
    rw [e4]
    refine ⟨_, rfl, ?_, ?_, ?_, ?_⟩
    · rw [hv3]; exact hF2.value
    · rw [hb3]
      show putBack _ _ _ = _
      rw [hblocks]
      exact hback
    · rw [hw3]
      show ns2.wire.take (ns2.idx + 1) ++ ss'.ns.wire.drop 1 ++ ns2.wire.drop (ns2.idx + ss.ns.ownPlan.length) = _
      rw [hidx, hwire, hpl]
      simp only [Nat.zero_add, List.take_succ_cons, List.take_zero, List.length_cons, List.drop_succ_cons]
      rw [← freshWire_length 1 rest, List.drop_length]
      simp
    · simp [setAt]
  obtain ⟨os', e3, hv', hbl, hwi, hsu⟩ := e3
  rw [e3]
  simp only
  rw [skip_into hpost hv']
  exact ⟨os', b, bs, rfl, hbb, hbl, hwi, hsu⟩

end Ndn.Codec.Gen
