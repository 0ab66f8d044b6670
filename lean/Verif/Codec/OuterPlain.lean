import Verif.Codec.OuterProps
import Verif.Codec.NoCopyProps

/-! # Lemmas for C97: an inner encoder without signature and Interest name runs as in `Verif/Codec/RunNoCopy.lean` -/

namespace Ndn.Codec.Gen

/-- neither a name of an Interest, nor a signature, marker or argument -/
def Cls.ordinary : Cls → Bool
  | .arg _ => false
  | .offset _ => false
  | .range _ _ _ => false
  | .signature _ _ _ => false
  | .interestName _ => false
  | _ => true

theorem plain_ordinary {ok : Txt → Bool} {c : Cls} (h : c.plain ok = true) : c.ordinary = true := by
  cases c <;> first | rfl | cases h

theorem allSigned_plain {g : Field → SCode} {g' : Field → NCode} {call : Call} : ∀ {fs : List Field}, (∀ f ∈ fs, g f = .ofPlain (g' f)) → ∀ ss : SS,
    (allSigned g fs).exec call ss = ((allNoCopy g' fs).exec call ss.ns).map fun ns => { ss with ns := ns }
  | [], _, ss => rfl
  | f :: fs, h, ss => by
    rw [allSigned, sexec_append, h f (.head _), sexec_plain, allNoCopy, nexec_append]
    cases (g' f).exec call ss.ns with
    | ok ns =>
      simp only [Res.map, Res.bind]
      rw [allSigned_plain (fun f hf => h f (.tail _ hf))]
      rfl
    | err e => rfl
    | panic => rfl

theorem allPlain_seq {g : Field → Code} {call : Call} (hc : KeepsLength call) : ∀ {fs : List Field} {ns : NS}, ns.buf = .nil → ns.s.mem = [] →
    (allNoCopy (fun f => .ofPlain (g f)) fs).exec call ns = (NCode.ofPlain (allFields g fs)).exec call ns
  | [], ns, hb, _ => by
    rw [nexec_plain]
    obtain ⟨s, buf, _, _, _, _, _⟩ := ns
    simp only at hb
    subst hb
    simp only [allNoCopy, allFields, NCode.exec, Code.exec, Res.bind, NS.through, if_true]
  | f :: fs, ns, hb, hm => by
    rw [allNoCopy, nexec_append, nexec_plain, nexec_plain, allFields, exec_append]
    cases h1 : (g f).exec call ns.s with
    | ok s =>
      have hs : s.mem = [] := List.eq_nil_of_length_eq_zero (by rw [code_mem hc _ h1, hm]; rfl)
      have ht : ns.through s = .ok { ns with s := s } := by simp only [NS.through, hb, hs, hm, if_true]
      simp only [Res.bind, ht]
      rw [allPlain_seq hc (ns := { ns with s := s }) hb hs, nexec_plain]
      cases h2 : (allFields g fs).exec call s with
      | ok s2 =>
        have hs2 : s2.mem = [] := List.eq_nil_of_length_eq_zero (by rw [code_mem hc _ h2, hs]; rfl)
        simp only [Res.bind, NS.through, hb, hs, hs2, hm]
      | err e => rfl
      | panic => rfl
    | err e => rfl
    | panic => rfl

theorem plain_append {call : Call} (hc : KeepsLength call) {c d : Code} {ns : NS} (hb : ns.buf = .nil) (hm : ns.s.mem = []) :
    (NCode.ofPlain (c ++ d)).exec call ns = ((NCode.ofPlain c).exec call ns).bind ((NCode.ofPlain d).exec call) := by
  rw [nexec_plain, nexec_plain, exec_append]
  cases h1 : c.exec call ns.s with
  | ok s =>
    have hs : s.mem = [] := List.eq_nil_of_length_eq_zero (by rw [code_mem hc _ h1, hm]; rfl)
    have ht : ns.through s = .ok { ns with s := s } := by simp only [NS.through, hb, hs, hm, if_true]
    simp only [Res.bind, ht]
    rw [nexec_plain]
    cases h2 : d.exec call s with
    | ok s2 => simp only [Res.bind, NS.through, hb, hs, hm]
    | err e => rfl
    | panic => rfl
  | err e => rfl
  | panic => rfl

/-- the state has no buffer -/
theorem plain_keeps {call : Call} (hc : KeepsLength call) {c : Code} {ns ns' : NS} (hb : ns.buf = .nil) (hm : ns.s.mem = [])
    (h : (NCode.ofPlain c).exec call ns = .ok ns') : ns'.buf = .nil ∧ ns'.s.mem = [] := by
  rw [nexec_plain] at h
  obtain ⟨s, h1, h2⟩ := bind_inv h
  have hs : s.mem = [] := List.eq_nil_of_length_eq_zero (by rw [code_mem hc _ h1, hm]; rfl)
  simp only [NS.through, hb, hs, hm, if_true] at h2
  cases h2
  exact ⟨rfl, hs⟩

theorem init_plain {call : Call} (hc : KeepsLength call) {fs : List Field} (ho : ∀ f ∈ fs, f.cls.ordinary = true) {ss : SS} {ns : NS} (hb : ss.ns.buf = .nil)
    (hm : ss.ns.s.mem = []) (h : (initNoCopyBody fs).exec call ss.ns = .ok ns) : (initSignedBody fs).exec call ss = .ok { ss with ns := ns } := by
  unfold initNoCopyBody initBody at h
  unfold initSignedBody
  have g1 : ∀ f ∈ fs, initSigned f.name f.cls = .ofPlain (.ofPlain (initCode f.name f.cls)) := fun f hf => by
    have := ho f hf
    cases h : f.cls <;> rw [h] at this <;> first | rfl | cases this
  have g2 : ∀ f ∈ fs, lengthSigned f.name f.num f.cls = .ofPlain (.ofPlain (lengthCode f.name f.num f.cls)) := fun f hf => by
    have := ho f hf
    cases h : f.cls <;> rw [h] at this <;> first | rfl | cases this
  have g3 : ∀ f ∈ fs, planSigned f.name f.num f.cls = .ofPlain (planCode f.name f.num f.cls) := fun f hf => by
    have := ho f hf
    cases h : f.cls <;> rw [h] at this <;> first | rfl | cases this
  rw [nexec_append, nexec_append, nexec_append, nexec_append, nexec_append] at h
  obtain ⟨n5, h, h6⟩ := bind_inv h
  obtain ⟨n4, h, h5⟩ := bind_inv h
  obtain ⟨n3, h, h4⟩ := bind_inv h
  obtain ⟨n2, h, h3⟩ := bind_inv h
  obtain ⟨n1, h, h2⟩ := bind_inv h
  rw [plain_append hc hb hm] at h
  obtain ⟨a3, h, k4⟩ := bind_inv h
  rw [plain_append hc hb hm] at h
  obtain ⟨a2, h, k3⟩ := bind_inv h
  rw [plain_append hc hb hm] at h
  obtain ⟨a1, k1, k2⟩ := bind_inv h
  obtain ⟨b1, m1⟩ := plain_keeps hc hb hm k1
  obtain ⟨b2, m2⟩ := plain_keeps hc b1 m1 k2
  rw [← allPlain_seq hc hb hm] at k1
  rw [← allPlain_seq hc b2 m2] at k3
  rw [sexec_append, sexec_append, sexec_append, sexec_append, sexec_append, allSigned_plain g1, k1]
  simp only [Res.map, Res.bind]
  rw [sexec_plain_ok (ns := a2) k2]
  simp only
  rw [allSigned_plain g2]
  simp only [k3, Res.map]
  rw [sexec_plain_ok (ns := n3) (by rw [nexec_append, nexec_append, k4]; simp only [Res.bind, h2, h3])]
  simp only
  rw [allSigned_plain g3]
  simp only [h4, Res.map]
  rw [sexec_plain_ok (ns := ns) (by rw [nexec_append, h5]; exact h6)]

theorem into_plain {call : Call} {fs : List Field} (ho : ∀ f ∈ fs, f.cls.ordinary = true) {ss : SS} {ns : NS}
    (h : (intoNoCopyBody fs).exec call ss.ns = .ok ns) : (intoSignedBody fs).exec call ss = .ok { ss with ns := ns } := by
  unfold intoNoCopyBody at h
  unfold intoSignedBody
  have g1 : ∀ f ∈ fs, intoSigned f.name f.num f.cls = .ofPlain (intoNoCopy f.name f.num f.cls) := fun f hf => by
    have := ho f hf
    cases h : f.cls <;> rw [h] at this <;> first | rfl | cases this
  rw [nexec_append] at h
  obtain ⟨n1, h1, h2⟩ := bind_inv h
  rw [sexec_append, sexec_plain_ok h1]
  simp only [Res.bind]
  rw [allSigned_plain g1]
  simp only [h2, Res.map]

theorem estCells_zero : estCells (fun _ => 0) = fun _ => 0 := by
  funext p
  unfold estCells
  split <;> rfl

theorem noCopyAt_ordinary {ms : List TModel} {fuel : Nat} {t : Txt} {m : TModel} (h : noCopyAt ms fuel t = true) (hm : (ms.find? fun m => m.name == t) = some m) :
    ∀ f ∈ m.fields, f.cls.ordinary = true := by
  obtain ⟨m', _, _, hm', _, hall⟩ := noCopyAt_find h
  rw [hm] at hm'
  cases hm'
  intro f hf
  rcases hall f hf with h | ⟨_, h⟩
  · rw [h]; rfl
  · exact plain_ordinary h

theorem nmild_append {c d : NCode} (hc : c.mild = true) (hd : d.mild = true) : (c ++ d).mild = true := by
  induction c with
  | done => exact hd
  | plain c k ih => simp only [NCode.mild, Bool.and_eq_true] at hc; show (_ && (k ++ d).mild) = true; rw [hc.1, ih hc.2]; rfl
  | atom a k ih => exact ih hc
  | cond c b k _ ih => simp only [NCode.mild, Bool.and_eq_true] at hc; show (_ && (k ++ d).mild) = true; rw [hc.1, ih hc.2]; rfl
  | range w f b k _ ih => simp only [NCode.mild, Bool.and_eq_true] at hc; show (_ && (k ++ d).mild) = true; rw [hc.1, ih hc.2]; rfl

theorem nmild_all {g : Field → NCode} (hg : ∀ f, (g f).mild = true) : ∀ l, (allNoCopy g l).mild = true
  | [] => rfl
  | f :: l => nmild_append (hg f) (nmild_all hg l)

theorem nmild_plain {c : Code} (h : Var.value ∉ c.decls) : (NCode.ofPlain c).mild = true := by
  simp [NCode.ofPlain, NCode.mild, h]

theorem nplan_mild (f : Txt) (n : Nat) (c : Cls) : (planCode f n c).mild = true := by
  cases c
  case wire nc => cases nc <;> rfl
  all_goals exact nmild_plain (by rw [lengthCode_decls]; exact List.not_mem_nil)

theorem notMem_append {c d : Code} (hc : Var.value ∉ c.decls) (hd : Var.value ∉ d.decls) : Var.value ∉ (c ++ d).decls := by
  rw [decls_append, List.mem_append]
  exact fun h => h.elim hc hd

theorem notMem_all {g : Field → Code} (hg : ∀ f, (g f).decls = []) : ∀ l, Var.value ∉ (allFields g l).decls
  | [] => List.not_mem_nil
  | f :: l => notMem_append (by rw [hg]; exact List.not_mem_nil) (notMem_all hg l)

/-- `Init` of the encoder of an ordinary model leaves `value` alone -/
theorem initNoCopy_value {call : Call} {fs : List Field} {ns ns' : NS} (hp : Points ns.s) (h : (initNoCopyBody fs).exec call ns = .ok ns') :
    ns'.s.vars .value = ns.s.vars .value :=
  ncode_value _ (nmild_append (nmild_append (nmild_append (nmild_append (nmild_append
    (nmild_plain (notMem_append (notMem_append (notMem_append (notMem_all (fun _ => initCode_decls _ _) _) (by decide))
      (notMem_all (fun _ => lengthCode_decls _ _ _) _)) (by decide))) rfl) rfl) (nmild_all (fun _ => nplan_mild _ _ _) _)) rfl) rfl) hp h

/-- the encoder of an ordinary model, run as an inner encoder -/
theorem runSigned_plain {ms : List TModel} {fuel : Nat} {t : Txt} {kvs : List (Txt × GV)} {need : Txt → Bool} {w : List Piece} {n : Nat}
    (hp : noCopyAt ms fuel t = true) (h : runNoCopy ms fuel t (.ptr (.struct kvs)) = .ok (w, n)) :
    runSigned ms fuel t (.ptr (.struct kvs)) (fun _ => 0) need = .ok ⟨w, n, fun _ => 0, fun _ => 0, fun _ => []⟩ := by
  obtain ⟨m, _, _, hm, _, _⟩ := noCopyAt_find hp
  have ho := noCopyAt_ordinary hp hm
  obtain ⟨ns, h1, h2⟩ := bind_inv h
  obtain ⟨ns', h3, h4⟩ := map_inv h2
  simp only [runInitNoCopy, hm] at h1
  simp only [runIntoNoCopy, hm] at h3
  have e1 := init_plain (callOf_keepsLength ms fuel) ho (ss := SS.entry (.ptr (.struct kvs)) (fun _ => 0) need) (ns := ns) rfl rfl (by
    rw [← h1]; unfold SS.entry; rw [estCells_zero])
  have hv : ns.s.vars .value = .ptr (.struct kvs) := by
    rw [initNoCopy_value ⟨kvs, rfl⟩ h1]
    rfl
  have e2 := into_plain (call := callOf ms fuel) ho (ss := { SS.entry (.ptr (.struct kvs)) (fun _ => 0) need with ns := ns }.again) (ns := ns') (by
    rw [← h3]; unfold SS.again; rw [hv])
  simp only [runSigned, hm, runModel, initOf, e1, Res.bind]
  rw [e2]
  cases h4
  rfl

end Ndn.Codec.Gen
