import Verif.Codec.RunNoCopy
import Verif.Codec.RunReady
import Mathlib.Data.List.Forall2

/-! # Running the emitted encoder of a model with `nocopy` (lemmas) -/

namespace Ndn.Codec.Gen

theorem nexec_append (call : Call) (a b : NCode) : ∀ ns, (a ++ b).exec call ns = (a.exec call ns).bind (b.exec call) := by
  show ∀ ns, (a.append b).exec call ns = _
  induction a with
  | done => intro ns; rfl
  | plain c k ih => intro ns; simp only [NCode.append, NCode.exec, bind_assoc]; congr 1; funext s1; congr 1; funext s2; exact ih s2
  | atom x k ih => intro ns; simp only [NCode.append, NCode.exec, bind_assoc]; congr 1; funext s1; exact ih s1
  | cond c d k _ ih => intro ns; simp only [NCode.append, NCode.exec, bind_assoc]; congr 1; funext t; congr 1; funext s1; exact ih s1
  | range n f d k _ ih =>
    intro ns; simp only [NCode.append, NCode.exec, bind_assoc]; congr 1; funext g; congr 1; funext l; congr 1; funext s1; exact ih s1

theorem ndecls_append (a b : NCode) : (a ++ b).decls = a.decls ++ b.decls := by
  show (a.append b).decls = _
  induction a with
  | done => rfl
  | plain c k ih => simp [NCode.append, NCode.decls, ih]
  | atom x k ih => simpa [NCode.append, NCode.decls] using ih
  | cond c d k _ ih => simpa [NCode.append, NCode.decls] using ih
  | range n f d k _ ih => simpa [NCode.append, NCode.decls] using ih

theorem bind_ok {α : Type} (x : Res α) : x.bind .ok = x := by cases x <;> rfl

theorem nexec_of (call : Call) (a : NAtom) (ns : NS) : (NCode.of a).exec call ns = a.exec ns := bind_ok _

theorem nexec_plain (call : Call) (c : Code) (ns : NS) : (NCode.ofPlain c).exec call ns = (c.exec call ns.s).bind ns.through := bind_ok _

theorem leave_nil (ns ns' : NS) : NS.leave [] ns ns' = ns' := by
  simp [NS.leave, Gen.leave]

/-! ## Fields as pieces -/

/-- what a field adds to a wire: bytes, or a head and the buffers of the caller -/
inductive Item where
  | own (b : Bytes)
  | wire (head : Bytes) (w : Wire)

/-- the lengths of the buffers, from a buffer of which `a` bytes are there -/
def planOf : List Item → Nat → List Nat
  | [], a => if 0 < a then [a] else []
  | .own b :: r, a => planOf r (a + b.length)
  | .wire h w :: r, a => (a + h.length) :: ((w.map fun _ => 0) ++ planOf r 0)

/-- the bytes of a field in buffers that are not given -/
def Item.len : Item → Nat
  | .own b => b.length
  | .wire h _ => h.length

def ownLen (l : List Item) : Nat := (l.map Item.len).sum

/-- the wire, from a buffer with the bytes `acc` -/
def layout : List Item → Bytes → List Piece
  | [], acc => if 0 < acc.length then [.own acc] else []
  | .own b :: r, acc => layout r (acc ++ b)
  | .wire h w :: r, acc => .own (acc ++ h) :: (w.map .given ++ layout r [])

variable {call : Call} {cells : Path → Nat} {p : Path} {kvs : List (Txt × GV)}

/-- the code of a field is for the item -/
def FieldOK (call : Call) (cells : Path → Nat) (p : Path) (kvs : List (Txt × GV)) (f : Field) : Item → Prop
  | .own b => (f.cls ≠ .wire true ∧ Adds call cells p kvs (lengthCode f.name f.num f.cls) b.length ∧ Puts call cells p kvs (intoCode f.name f.num f.cls) b) ∨
      (f.cls = .wire true ∧ b = [] ∧ lookup f.name kvs = some .nil)
  | .wire h w => f.cls = .wire true ∧ lookup f.name kvs = some (.wire w) ∧
      Adds call cells p kvs (typeNumLen f.num ++ naturalLen (.own (.len f.name)) true) h.length ∧
      Puts call cells p kvs (encodeTypeNum f.num ++ naturalEncode (.own (.len f.name)) true) h

theorem planCode_plain {f : Txt} {n : Nat} {c : Cls} (h : c ≠ .wire true) : planCode f n c = .ofPlain (lengthCode f n c) := by
  unfold planCode; split
  · exact absurd rfl h
  · rfl

theorem intoNoCopy_plain {f : Txt} {n : Nat} {c : Cls} (h : c ≠ .wire true) : intoNoCopy f n c = .ofPlain (intoCode f n c) := by
  unfold intoNoCopy; split
  · exact absurd rfl h
  · rfl

/-! ## The plan -/

/-- a state of `Init` with plan `pl` and `l = a` -/
def NS.planning (ns : NS) (pl : List Nat) (a : Nat) : NS := { ns with plan := pl, s := { ns.s with vars := upd ns.s.vars .l (.num a) } }

theorem planning_planning (ns : NS) (pl pl' : List Nat) (a a' : Nat) : (ns.planning pl a).planning pl' a' = ns.planning pl' a' := by
  simp [NS.planning, upd_upd]

theorem planning_plain {c : Code} {n : Nat} (h : Adds call cells p kvs c n) (ns : NS) (pl : List Nat) (a : Nat) (hb : ns.buf = .nil)
    (h1 : ns.s.cells = cells) (h2 : ns.s.vars .encoder = .ref p) (h3 : ns.s.vars .value = .ptr (.struct kvs)) (h4 : a + n < 2 ^ 64) :
    (NCode.ofPlain c).exec call (ns.planning pl a) = .ok (ns.planning pl (a + n)) := by
  rw [nexec_plain, h (ns.planning pl a).s a h1 (by simpa [NS.planning, upd] using h2) (by simpa [NS.planning, upd] using h3) (by simp [NS.planning, upd]) h4]
  simp [Res.bind, NS.through, NS.planning, hb, upd_upd]

theorem planning_switch (ns : NS) (pl : List Nat) (a : Nat) : switchPlan.exec call (ns.planning pl a) = .ok (ns.planning (pl ++ [a]) 0) := by
  rw [switchPlan, nexec_append, nexec_of]
  simp only [NAtom.exec, NS.planning, upd_same, Res.bind]
  rw [nexec_of]
  simp [NAtom.exec, upd_upd]

theorem planning_loop (body : GV → NS → Res NS) (ns : NS) (hb : ∀ g pl a, body g (ns.planning pl a) = .ok (ns.planning (pl ++ [a]) 0)) :
    ∀ (l : List GV) (pl : List Nat), nloop body l (ns.planning pl 0) = .ok (ns.planning (pl ++ l.map fun _ => 0) 0)
  | [], pl => by simp [nloop]
  | g :: l, pl => by
    rw [nloop, hb]
    simp only [Res.bind]
    rw [planning_loop body ns hb l]
    simp

/-- one field -/
theorem planning_field {f : Field} {it : Item} (h : FieldOK call cells p kvs f it) (ns : NS) (pl : List Nat) (a : Nat) (hb : ns.buf = .nil)
    (h1 : ns.s.cells = cells) (h2 : ns.s.vars .encoder = .ref p) (h3 : ns.s.vars .value = .ptr (.struct kvs)) (h4 : a + it.len < 2 ^ 64) :
    (planCode f.name f.num f.cls).exec call (ns.planning pl a) = .ok (match it with
      | .own b => ns.planning pl (a + b.length)
      | .wire h w => ns.planning (pl ++ (a + h.length) :: (w.map fun _ => 0)) 0) := by
  have h3' : ∀ pl a, (ns.planning pl a).s.vars .value = .ptr (.struct kvs) := fun pl a => by simpa [NS.planning, upd] using h3
  cases it with
  | own b =>
    rcases h with ⟨hc, hA, _⟩ | ⟨hc, rfl, hf⟩
    · rw [planCode_plain hc]
      exact planning_plain hA ns pl a hb h1 h2 h3 h4
    · rw [hc]
      simp only [planCode, NCode.exec]
      rw [notNil_eval hf _ (h3' _ _)]
      simp [Res.bind, GV.isNil]
  | wire hd w =>
    obtain ⟨hc, hf, hA, _⟩ := h
    rw [hc]
    simp only [planCode, NCode.exec]
    rw [notNil_eval hf _ (h3' _ _)]
    simp only [Res.bind, GV.isNil, Bool.not_false, if_true]
    rw [nexec_append, nexec_append, planning_plain hA ns pl a hb h1 h2 h3 h4]
    simp only [Res.bind]
    rw [planning_switch]
    simp only [NCode.exec]
    rw [fieldOfValue_eq (h3' _ _) hf]
    simp only [Res.bind, GV.elems, Bool.false_eq_true, if_false]
    rw [planning_loop _ ns (fun g pl a => by rw [planning_switch]; simp [Res.map, switchPlan, NCode.decls, ndecls_append, NCode.of, leave_nil])]
    simp [Res.map, NCode.decls, ndecls_append, NCode.ofPlain, switchPlan, NCode.of, typeNumLen, naturalLen, decls_append, Code.decls, Code.of, leave_nil]
    rw [show ((fun _ => 0) ∘ GV.bytes : Bytes → Nat) = fun _ => 0 from rfl, List.map_const']

theorem planning_all : ∀ {fields : List Field} {its : List Item}, List.Forall₂ (FieldOK call cells p kvs) fields its → ∀ (ns : NS) (pl : List Nat) (a : Nat),
    ns.buf = .nil → ns.s.cells = cells → ns.s.vars .encoder = .ref p → ns.s.vars .value = .ptr (.struct kvs) → a + ownLen its < 2 ^ 64 →
    ∃ b, (allNoCopy (fun f => planCode f.name f.num f.cls) fields ++ .cond (.positive (.var .l)) (.of .pushPlan) .done).exec call (ns.planning pl a) =
      .ok (ns.planning (pl ++ planOf its a) b)
  | _, _, .nil, ns, pl, a, hb, h1, h2, h3, h4 => by
    refine ⟨a, ?_⟩
    rw [nexec_append]
    simp only [allNoCopy, NCode.exec, Res.bind, Cond.eval, Ex.evalNum, Ex.eval, NS.planning, upd_same, Res.map, planOf]
    by_cases ha : 0 < a
    · simp only [ha, decide_true, if_true, NCode.of, NCode.exec, NAtom.exec, upd_same, Res.bind, NCode.decls, leave_nil]
    · simp only [ha, decide_false, Bool.false_eq_true, if_false, List.append_nil]
  | f :: fields, it :: its, .cons hf hr, ns, pl, a, hb, h1, h2, h3, h4 => by
    simp only [ownLen, List.map_cons, List.sum_cons] at h4
    have e1 := planning_field hf ns pl a hb h1 h2 h3 (by omega)
    cases it with
    | own b =>
      obtain ⟨c, e2⟩ := planning_all hr ns pl (a + b.length) hb h1 h2 h3 (by simp only [Item.len] at h4; simp only [ownLen]; omega)
      refine ⟨c, ?_⟩
      rw [nexec_append] at e2 ⊢
      rw [allNoCopy, nexec_append, e1]
      exact e2
    | wire hd w =>
      obtain ⟨c, e2⟩ := planning_all hr ns (pl ++ (a + hd.length) :: (w.map fun _ => 0)) 0 hb h1 h2 h3 (by simp only [ownLen]; omega)
      refine ⟨c, ?_⟩
      rw [nexec_append] at e2 ⊢
      rw [allNoCopy, nexec_append, e1]
      simp only [Res.bind]
      simp only [Res.bind] at e2
      rw [e2]
      simp [planOf]

/-! ## The wire -/

/-- the entries of the wire for the buffers that are done -/
def refsOf : Nat → List Piece → List Ref
  | _, [] => []
  | k, .own b :: l => (if b = [] then .nil else .own k) :: refsOf (k + 1) l
  | k, .given b :: l => .given b :: refsOf (k + 1) l

/-- the block made for a buffer -/
def Piece.block : Piece → Bytes
  | .own b => b
  | .given _ => []

theorem refsOf_append : ∀ (k : Nat) (a b : List Piece), refsOf k (a ++ b) = refsOf k a ++ refsOf (k + a.length) b
  | _, [], _ => by simp [refsOf]
  | k, .own x :: a, b => by simp [refsOf, refsOf_append (k + 1) a b, Nat.add_assoc, Nat.add_comm 1]
  | k, .given x :: a, b => by simp [refsOf, refsOf_append (k + 1) a b, Nat.add_assoc, Nat.add_comm 1]

theorem refsOf_length : ∀ (k : Nat) (a : List Piece), (refsOf k a).length = a.length
  | _, [] => rfl
  | k, .own x :: a => by simp [refsOf, refsOf_length (k + 1) a]
  | k, .given x :: a => by simp [refsOf, refsOf_length (k + 1) a]

theorem refsOf_piece : ∀ (done : List Piece) (pre post : List Bytes),
    (refsOf pre.length done).map (Ref.piece (pre ++ (done.map Piece.block ++ post))) = done
  | [], _, _ => rfl
  | .own x :: a, pre, post => by
    have := refsOf_piece a (pre ++ [x]) post
    simp only [List.length_append, List.length_cons, List.length_nil, List.append_assoc, List.cons_append, List.nil_append, Nat.zero_add] at this
    simp only [refsOf, List.map_cons, Piece.block, List.cons_append, this, List.cons.injEq, and_true]
    by_cases hx : x = []
    · simp [hx, Ref.piece]
    · simp [hx, Ref.piece]
  | .given x :: a, pre, post => by
    have := refsOf_piece a (pre ++ [[]]) post
    simp only [List.length_append, List.length_cons, List.length_nil, List.append_assoc, List.cons_append, List.nil_append, Nat.zero_add] at this
    simp only [refsOf, List.map_cons, Piece.block, List.cons_append, this, Ref.piece]

/-- the buffer that is being filled -/
def curMem (acc : Bytes) (pl : List Nat) : Bytes := acc ++ List.replicate (pl.headD 0 - acc.length) 0

/-- the blocks from that buffer on -/
def curBlocks (acc : Bytes) : List Nat → List Bytes
  | [] => []
  | n :: l => curMem acc (n :: l) :: l.map fun n => List.replicate n 0

theorem curMem_nil (pl : List Nat) : curMem [] pl = List.replicate (pl.headD 0) 0 := by simp [curMem]

/-- a state of `EncodeInto`: the buffers `done` are there, the one after them has `acc`, and `pl` are the lengths from it on -/
structure Filling (cells : Path → Nat) (p : Path) (kvs : List (Txt × GV)) (done : List Piece) (acc : Bytes) (pl : List Nat) (ns : NS) : Prop where
  cells : ns.s.cells = cells
  encoder : ns.s.vars .encoder = .ref p
  value : ns.s.vars .value = .ptr (.struct kvs)
  bufVar : ns.s.vars .buf = .slice 0
  pos : ns.s.vars .pos = .num acc.length
  idx : ns.idx = done.length
  wire : ns.wire = refsOf 0 done ++ freshWire done.length pl
  blocks : ns.blocks = done.map Piece.block ++ curBlocks acc pl
  buf : ns.buf = if 0 < pl.headD 0 then .own done.length else .nil
  mem : ns.s.mem = curMem acc pl

theorem splice_cur (acc b : Bytes) (n : Nat) (h : acc.length + b.length ≤ n) :
    splice (acc ++ List.replicate (n - acc.length) 0) acc.length b = (acc ++ b) ++ List.replicate (n - (acc ++ b).length) 0 := by
  simp only [splice, List.take_left']
  rw [List.drop_append, List.drop_replicate]
  have : n - acc.length - (acc.length + b.length - acc.length) = n - (acc ++ b).length := by rw [List.length_append]; omega
  rw [this, List.drop_of_length_le (by omega)]
  simp

theorem filling_plain {c : Code} {b : Bytes} (h : Puts call cells p kvs c b) {done : List Piece} {acc : Bytes} {pl : List Nat} {ns : NS}
    (hf : Filling cells p kvs done acc pl ns) (hl : acc.length + b.length ≤ pl.headD 0) (hm : pl.headD 0 < 2 ^ 64) :
    ∃ ns', (NCode.ofPlain c).exec call ns = .ok ns' ∧ Filling cells p kvs done (acc ++ b) pl ns' := by
  have hml : ns.s.mem.length = pl.headD 0 := by
    rw [hf.mem, curMem, List.length_append, List.length_replicate]; omega
  have e1 := h ns.s 0 acc.length hf.cells hf.encoder hf.value hf.bufVar hf.pos (by omega) (by omega)
  have e2 : splice ns.s.mem (0 + acc.length) b = curMem (acc ++ b) pl := by
    rw [Nat.zero_add, hf.mem, curMem, splice_cur acc b _ hl, curMem]
  rw [e2] at e1
  rw [nexec_plain, e1]
  simp only [Res.bind, NS.through, hf.buf]
  by_cases hp : 0 < pl.headD 0
  · rw [if_pos hp]
    refine ⟨_, rfl, ?_⟩
    constructor
    case cells => exact hf.cells
    case encoder => simpa [upd] using hf.encoder
    case value => simpa [upd] using hf.value
    case bufVar => simpa [upd] using hf.bufVar
    case pos => simp [upd]
    case idx => exact hf.idx
    case wire => exact hf.wire
    case blocks =>
      simp only [hf.blocks]
      cases pl with
      | nil => simp at hp
      | cons n l =>
        have : done.length = (done.map Piece.block).length := by simp
        conv => lhs; rw [this]
        rw [List.set_append_right _ _ (Nat.le_refl _)]
        simp [curBlocks]
    case buf => rw [if_pos hp]
    case mem => rfl
  · rw [if_neg hp]
    have hb : b = [] := List.length_eq_zero_iff.1 (by omega)
    subst hb
    rw [List.append_nil] at *
    simp only [hf.mem, if_true]
    refine ⟨_, rfl, ?_⟩
    constructor
    case cells => exact hf.cells
    case encoder => simpa [upd] using hf.encoder
    case value => simpa [upd] using hf.value
    case bufVar => simpa [upd] using hf.bufVar
    case pos => simp [upd]
    case idx => exact hf.idx
    case wire => exact hf.wire
    case blocks => exact hf.blocks
    case buf => rw [if_neg hp]
    case mem => rfl

/-- the first entry of a fresh wire -/
theorem fresh_get (refs : List Ref) (k : Nat) (h : refs.length = k) (pl : List Nat) :
    (refs ++ freshWire k pl)[k]? = match pl with
      | [] => none
      | n :: _ => some (if 0 < n then Ref.own k else .nil) := by
  subst h
  rw [List.getElem?_append_right (Nat.le_refl _), Nat.sub_self]
  cases pl <;> simp [freshWire]

/-- the blocks from an empty buffer on -/
theorem curBlocks_nil (pl : List Nat) : curBlocks [] pl = pl.map fun n => List.replicate n 0 := by
  cases pl <;> simp [curBlocks, curMem]

/-- the next buffer: with the wire and the blocks as they must be, `wireIdx ++` and what is after it -/
theorem filling_switch {done : List Piece} {pl : List Nat} {ns : NS} (h1 : ns.s.cells = cells) (h2 : ns.s.vars .encoder = .ref p)
    (h3 : ns.s.vars .value = .ptr (.struct kvs)) (hi : ns.idx + 1 = done.length)
    (hw : ns.wire = refsOf 0 done ++ freshWire done.length pl) (hb : ns.blocks = done.map Piece.block ++ curBlocks [] pl) :
    ∃ ns', switchWire.exec call ns = .ok ns' ∧ Filling cells p kvs done [] pl ns' ∧ (∀ v, v ≠ .pos → v ≠ .buf → ns'.s.vars v = ns.s.vars v) := by
  have hg := fresh_get (refsOf 0 done) done.length (refsOf_length _ _) pl
  have hm : (if 0 < pl.headD 0 then Ref.own done.length else .nil).mem ns.blocks = curMem [] pl := by
    rw [hb, curMem_nil]
    cases pl with
    | nil => simp [Ref.mem]
    | cons n l =>
      show Ref.mem _ (if 0 < n then Ref.own done.length else .nil) = List.replicate n 0
      by_cases hn : 0 < n
      · rw [if_pos hn, Ref.mem, List.getElem?_append_right (by simp)]; simp [curBlocks, curMem]
      · rw [if_neg hn, Ref.mem]; simp [show n = 0 by omega]
  refine ⟨NS.setBuf { ns with idx := ns.idx + 1, s := { ns.s with vars := upd ns.s.vars .pos (.num 0) } }
    (if 0 < pl.headD 0 then Ref.own done.length else .nil), ?_, ?_, ?_⟩
  · rw [switchWire, nexec_append, nexec_append, nexec_of]
    simp only [NAtom.exec, Res.bind]
    rw [nexec_of]
    simp only [NAtom.exec]
    rw [nexec_of]
    simp only [NAtom.exec, hi, hw, hg]
    cases pl with
    | nil => simp
    | cons n l => simp
  · constructor
    case cells => exact h1
    case encoder => simpa [NS.setBuf, upd] using h2
    case value => simpa [NS.setBuf, upd] using h3
    case bufVar => simp [NS.setBuf, upd]
    case pos => simp [NS.setBuf, upd]
    case idx => exact hi
    case wire => exact hw
    case blocks => exact hb
    case buf => rfl
    case mem => exact hm
  · intro v hv1 hv2
    simp [NS.setBuf, upd, hv1, hv2]

/-- the buffer is full -/
theorem filling_next {done : List Piece} {acc : Bytes} {n : Nat} {pl : List Nat} {ns : NS} (hf : Filling cells p kvs done acc (n :: pl) ns)
    (hn : acc.length = n) (hp : 0 < n) :
    ∃ ns', switchWire.exec call ns = .ok ns' ∧ Filling cells p kvs (done ++ [.own acc]) [] pl ns' := by
  obtain ⟨ns', e1, e2, _⟩ := filling_switch (call := call) (done := done ++ [.own acc]) (pl := pl) hf.cells hf.encoder hf.value (by simp [hf.idx]) (by
    have hne : acc ≠ [] := by intro h; subst h; simp at hn; omega
    rw [hf.wire, refsOf_append]
    simp [freshWire, hp, refsOf, hne]) (by
    rw [hf.blocks]
    rw [curBlocks_nil]
    simp [curBlocks, Piece.block, curMem, hn])
  exact ⟨ns', e1, e2⟩

theorem filling_leave {done : List Piece} {acc : Bytes} {pl : List Nat} {ns ns0 : NS} (hf : Filling cells p kvs done acc pl ns) (vs : List Var)
    (hv : ∀ v ∈ vs, v = .w) : Filling cells p kvs done acc pl (NS.leave vs ns0 ns) := by
  have key : ∀ v : Var, v ≠ .w → (NS.leave vs ns0 ns).s.vars v = ns.s.vars v := by
    intro v h
    simp only [NS.leave, Gen.leave]
    rw [if_neg fun hm => h (hv v hm)]
  exact ⟨hf.cells, by rw [key _ (by decide)]; exact hf.encoder, by rw [key _ (by decide)]; exact hf.value, by rw [key _ (by decide)]; exact hf.bufVar,
    by rw [key _ (by decide)]; exact hf.pos, hf.idx, hf.wire, hf.blocks, hf.buf, hf.mem⟩

/-- the buffers of the caller -/
theorem filling_given (body : GV → NS → Res NS) (hb : ∀ (b : Bytes) (ns : NS), body (.bytes b) ns =
      ((NCode.of .putW ++ switchWire).exec call { ns with s := { ns.s with vars := upd ns.s.vars .w (.bytes b) } }).map (NS.leave [.w] ns)) :
    ∀ (w : Wire) (done : List Piece) (pl : List Nat) (ns : NS), Filling cells p kvs done [] ((w.map fun _ => 0) ++ pl) ns →
      ∃ ns', nloop body (w.map .bytes) ns = .ok ns' ∧ Filling cells p kvs (done ++ w.map .given) [] pl ns'
  | [], done, pl, ns, hf => ⟨ns, rfl, by simpa using hf⟩
  | b :: w, done, pl, ns, hf => by
    have hi : done.length = (refsOf 0 done).length := (refsOf_length _ _).symm
    have hw := hf.wire
    simp only [List.map_cons, List.cons_append, freshWire, Nat.lt_irrefl, if_false] at hw
    obtain ⟨ns1, e1, e2, _⟩ := filling_switch (call := call) (cells := cells) (p := p) (kvs := kvs) (done := done ++ [.given b])
      (pl := (w.map fun _ => 0) ++ pl) (ns := { ns with s := { ns.s with vars := upd ns.s.vars .w (.bytes b) }, wire := ns.wire.set ns.idx (.given b) })
      hf.cells (by simpa [upd] using hf.encoder) (by simpa [upd] using hf.value) (by simp [hf.idx]) (by
        simp only [hw, hf.idx]
        rw [hi, List.set_append_right _ _ (Nat.le_refl _), ← hi, refsOf_append]
        simp [refsOf]) (by
        rw [curBlocks_nil]
        simp only [hf.blocks, List.map_cons, List.cons_append, curBlocks, curMem]
        simp [Piece.block])
    obtain ⟨ns2, e3, e4⟩ := filling_given body hb w (done ++ [.given b]) pl (NS.leave [.w] ns ns1) (filling_leave e2 _ (by simp))
    refine ⟨ns2, ?_, by simpa using e4⟩
    simp only [List.map_cons, nloop]
    rw [hb, nexec_append, nexec_of]
    have hlt : ns.idx < ns.wire.length := by
      rw [hw, hf.idx, List.length_append, refsOf_length]; simp
    simp only [NAtom.exec, upd_same, hlt, if_true, Res.bind, e1, Res.map]
    exact e3

theorem plan_head : ∀ (its : List Item) (a : Nat), a ≤ (planOf its a).headD 0
  | [], a => by simp only [planOf]; split <;> simp; omega
  | .own b :: r, a => by have := plan_head r (a + b.length); simp only [planOf]; omega
  | .wire h w :: r, a => by simp [planOf]

theorem plan_le : ∀ (its : List Item) (a n : Nat), n ∈ planOf its a → n ≤ a + ownLen its
  | [], a, n, h => by simp only [planOf] at h; split at h <;> simp at h; omega
  | .own b :: r, a, n, h => by
    have := plan_le r (a + b.length) n h
    simp only [ownLen, List.map_cons, List.sum_cons, Item.len] at this ⊢; omega
  | .wire hd w :: r, a, n, h => by
    simp only [planOf, List.mem_cons, List.mem_append, List.mem_map] at h
    simp only [ownLen, List.map_cons, List.sum_cons, Item.len]
    rcases h with h | ⟨_, _, h⟩ | h
    · omega
    · omega
    · have := plan_le r 0 n h
      simp only [ownLen] at this; omega

theorem headD_lt {l : List Nat} {b : Nat} (hb : 0 < b) (h : ∀ n ∈ l, n < b) : l.headD 0 < b := by
  cases l with
  | nil => exact hb
  | cons n l => exact h n (by simp)

/-- all fields -/
theorem filling_all : ∀ {fields : List Field} {its : List Item}, List.Forall₂ (FieldOK call cells p kvs) fields its →
    (∀ h w, Item.wire h w ∈ its → h ≠ []) → ∀ (done : List Piece) (acc : Bytes) (ns : NS), acc.length + ownLen its < 2 ^ 64 →
    Filling cells p kvs done acc (planOf its acc.length) ns →
    ∃ ns', (allNoCopy (fun f => intoNoCopy f.name f.num f.cls) fields).exec call ns = .ok ns' ∧
      ns'.wire.map (Ref.piece ns'.blocks) = done ++ layout its acc
  | _, _, .nil, _, done, acc, ns, _, hf => by
    refine ⟨ns, rfl, ?_⟩
    rw [hf.wire, List.map_append, hf.blocks]
    have := refsOf_piece done [] (curBlocks acc (planOf [] acc.length))
    simp only [List.length_nil, List.nil_append] at this
    rw [this]
    congr 1
    simp only [planOf, layout]
    by_cases h : 0 < acc.length
    · simp only [if_pos h, freshWire, List.map_cons, List.map_nil, Ref.piece]
      rw [List.getElem?_append_right (by simp)]
      simp [curBlocks, curMem]
    · simp [if_neg h, freshWire]
  | f :: fields, it :: its, .cons hok hr, hne, done, acc, ns, hl, hf => by
    simp only [ownLen, List.map_cons, List.sum_cons] at hl
    have hne' : ∀ h w, Item.wire h w ∈ its → h ≠ [] := fun h w hm => hne h w (by simp [hm])
    rw [allNoCopy, nexec_append]
    have hlt : (planOf (it :: its) acc.length).headD 0 < 2 ^ 64 := by
      refine headD_lt (by omega) fun n hn => ?_
      have := plan_le _ _ _ hn
      simp only [ownLen, List.map_cons, List.sum_cons] at this; omega
    cases it with
    | own b =>
      rcases hok with ⟨hc, _, hP⟩ | ⟨hc, rfl, hn⟩
      · rw [intoNoCopy_plain hc]
        obtain ⟨ns1, e1, e2⟩ := filling_plain hP hf (by
          have := plan_head its (acc.length + b.length); simp only [planOf]; omega) hlt
        obtain ⟨ns2, e3, e4⟩ := filling_all hr hne' done (acc ++ b) ns1 (by simp only [List.length_append, ownLen, Item.len] at hl ⊢; omega) (by
          simpa only [planOf, List.length_append] using e2)
        exact ⟨ns2, by rw [e1]; exact e3, e4⟩
      · obtain ⟨ns2, e3, e4⟩ := filling_all hr hne' done acc ns (by simp only [Item.len] at hl; simp only [ownLen]; omega) (by simpa only [planOf, List.length_nil, Nat.add_zero] using hf)
        refine ⟨ns2, ?_, by simpa [layout] using e4⟩
        have e5 : (intoNoCopy f.name f.num f.cls).exec call ns = .ok ns := by
          rw [hc]
          simp only [intoNoCopy, NCode.exec]
          rw [notNil_eval hn _ hf.value]
          simp [Res.bind, GV.isNil]
        rw [e5]
        exact e3
    | wire hd w =>
      obtain ⟨hc, hw, _, hP⟩ := hok
      obtain ⟨ns1, e1, e2⟩ := filling_plain hP hf (by simp [planOf]) hlt
      simp only [planOf] at e2
      have hpos : 0 < acc.length + hd.length := by
        have := hne hd w (by simp)
        have : 0 < hd.length := List.length_pos_iff.2 this
        omega
      obtain ⟨ns2, e3, e4⟩ := filling_next (call := call) e2 (by simp) hpos
      obtain ⟨ns3, e5, e6⟩ := filling_given (call := call) (fun g ns => (((NCode.of .putW ++ switchWire).exec call { ns with s := { ns.s with vars := upd ns.s.vars .w g } }).map
        (NS.leave (.w :: (NCode.of .putW ++ switchWire).decls) ns))) (fun b ns => rfl) w _ _ ns2 e4
      have e7 := filling_leave (ns0 := ns) e6 [] (by simp)
      obtain ⟨ns4, e8, e9⟩ := filling_all hr hne' _ [] _ (by simp only [List.length_nil, ownLen]; omega) e7
      refine ⟨ns4, ?_, by simpa [layout] using e9⟩
      have e10 : (intoNoCopy f.name f.num f.cls).exec call ns = .ok (NS.leave [] ns ns3) := by
        rw [hc]
        simp only [intoNoCopy, NCode.exec]
        rw [notNil_eval hw _ hf.value]
        simp only [Res.bind, GV.isNil, Bool.not_false, if_true]
        rw [nexec_append, nexec_append, e1]
        simp only [Res.bind]
        rw [e3]
        have hd0 : (NCode.ofPlain (encodeTypeNum f.num ++ naturalEncode (Ex.own (Key.len f.name)) true) ++ switchWire ++
            NCode.range true f.name (NCode.of NAtom.putW ++ switchWire) NCode.done).decls = [] := by
          simp [ndecls_append, NCode.ofPlain, NCode.decls, decls_append, encodeTypeNum_decls, switchWire, NCode.of, naturalEncode, Code.decls]
        rw [hd0]
        have e11 : (NCode.range true f.name (NCode.of NAtom.putW ++ switchWire) NCode.done).exec call ns2 = .ok ns3 := by
          simp only [NCode.exec]
          rw [fieldOfValue_eq e4.value hw]
          exact congrArg (fun r => Res.bind r (fun x => Res.ok x)) e5
        simp only
        rw [e11]
        rfl
      rw [e10]
      exact e8

end Ndn.Codec.Gen
