import Verif.Engine.Stream
import Verif.Enc.PrimLemmas

/-!
# C41: stream face framing
-/

namespace Ndn.Engine

/-- the bytes not yet consumed -/
def Conn.pending (c : Conn) : Bytes := c.buf ++ c.pieces.flatten

/-- no piece is empty -/
def Conn.Good (c : Conn) : Prop := ∀ p ∈ c.pieces, p ≠ []

theorem connRead_spec {c : Conn} (hg : c.Good) {n : Nat} (hn : 0 < n) :
    (c.pieces = [] ∧ c.connRead n = (.err .eof, c)) ∨
    ∃ p c', c.connRead n = (.ok p, c') ∧ p ≠ [] ∧ p.length ≤ n ∧ c'.buf = c.buf ∧ c'.Good ∧ c.pieces.flatten = p ++ c'.pieces.flatten := by
  unfold Conn.connRead
  cases hp : c.pieces with
  | nil => exact .inl ⟨rfl, rfl⟩
  | cons p ps =>
    right
    have hne := hg p (by rw [hp]; exact List.mem_cons_self)
    have hps : ∀ q ∈ ps, q ≠ [] := fun q hq => hg q (by rw [hp]; exact List.mem_cons_of_mem _ hq)
    by_cases h : p.length ≤ n
    · simp only [if_pos h]
      exact ⟨p, _, rfl, hne, h, rfl, hps, rfl⟩
    · simp only [if_neg h]
      refine ⟨p.take n, _, rfl, ?_, by simp; omega, rfl, ?_, ?_⟩
      · intro h0
        have := congrArg List.length h0
        rw [List.length_take, List.length_nil] at this
        omega
      · intro q hq
        rcases List.mem_cons.mp hq with rfl | hq
        · intro h0
          have := congrArg List.length h0
          simp at this
          omega
        · exact hps q hq
      · simp only [List.flatten_cons]
        rw [← List.append_assoc, List.take_append_drop]

theorem flatten_nil_of {c : Conn} (hg : c.Good) (h : c.pieces.flatten = []) : c.pieces = [] := by
  cases hp : c.pieces with
  | nil => rfl
  | cons p ps =>
    have hne := hg p (by rw [hp]; exact List.mem_cons_self)
    rw [hp, List.flatten_cons, List.append_eq_nil_iff] at h
    exact absurd h.1 hne

/-- `ReadByte` gives the next byte of the stream -/
theorem conn_readByte {c : Conn} (hg : c.Good) :
    match c.pending with
    | [] => ∃ c', c.readByte = (.err .eof, c') ∧ c'.Good ∧ c'.pending = []
    | b :: t => ∃ c', c.readByte = (.ok b, c') ∧ c'.Good ∧ c'.pending = t := by
  unfold Conn.readByte
  cases hb : c.buf with
  | cons b t =>
    have : c.pending = b :: (t ++ c.pieces.flatten) := by unfold Conn.pending; rw [hb]; rfl
    rw [this]
    exact ⟨{ c with buf := t }, rfl, hg, rfl⟩
  | nil =>
    have hpend : c.pending = c.pieces.flatten := by unfold Conn.pending; rw [hb]; rfl
    rcases connRead_spec hg (n := bufioSize) (by decide) with ⟨h1, h2⟩ | ⟨p, c', h1, h2, h3, h4, h5, h6⟩
    · rw [hpend, h1, h2]
      exact ⟨c, rfl, hg, by rw [hpend, h1]; rfl⟩
    · cases p with
      | nil => exact absurd rfl h2
      | cons b t =>
        rw [hpend, h6, h1]
        exact ⟨{ c' with buf := t }, rfl, h5, rfl⟩

/-! ## Numbers -/

/-- two results agree on the value and the bytes that are left -/
def Same {α : Type} (x : Res α × BR) (y : Res α × Conn) : Prop := x.1 = y.1 ∧ x.2.rest = y.2.pending ∧ y.2.Good

theorem same_readByte {c : Conn} (hg : c.Good) {r : BR} (h : r.rest = c.pending) : Same (BR.readByte r) (c.readByte) := by
  have h1 := conn_readByte hg
  cases hp : c.pending with
  | nil =>
    rw [hp] at h1 h
    obtain ⟨c', e1, e2, e3⟩ := h1
    rw [BR.readByte_nil h, e1]
    exact ⟨rfl, h.trans e3.symm, e2⟩
  | cons b t =>
    rw [hp] at h1 h
    obtain ⟨c', e1, e2, e3⟩ := h1
    rw [BR.readByte_cons h, e1]
    refine ⟨rfl, ?_, e2⟩
    show (r.adv 1).rest = _
    rw [BR.rest_adv, h, e3]
    rfl

theorem same_bind {α β : Type} {m : RM BR α} {m' : RM Conn α} {f : α → RM BR β} {f' : α → RM Conn β} {r : BR} {c : Conn}
    (h : Same (m r) (m' c)) (hf : ∀ a (r' : BR) (c' : Conn), c'.Good → r'.rest = c'.pending → Same (f a r') (f' a c')) :
    Same ((m >>= f) r) ((m' >>= f') c) := by
  rw [RM.bind_apply, RM.bind_apply]
  obtain ⟨h1, h2, h3⟩ := h
  cases hm : m r with
  | mk x r' =>
    cases hm' : m' c with
    | mk y c' =>
      rw [hm, hm'] at h1 h2
      rw [hm'] at h3
      simp only at h1 h2 h3
      subst h1
      cases x with
      | ok a => exact hf a r' c' h3 h2
      | err e => exact ⟨rfl, h2, h3⟩
      | panic => exact ⟨rfl, h2, h3⟩

theorem same_onErr {α : Type} {f : Err → Err} {m : RM BR α} {m' : RM Conn α} {r : BR} {c : Conn} (h : Same (m r) (m' c)) :
    Same (RM.onErr f m r) (RM.onErr f m' c) := by
  unfold RM.onErr
  obtain ⟨h1, h2, h3⟩ := h
  cases hm : m r with
  | mk x r' =>
    cases hm' : m' c with
    | mk y c' =>
      rw [hm, hm'] at h1 h2
      rw [hm'] at h3
      simp only at h1 h2 h3
      subst h1
      cases x with
      | ok a => exact ⟨rfl, h2, h3⟩
      | err e => exact ⟨rfl, h2, h3⟩
      | panic => exact ⟨rfl, h2, h3⟩

theorem same_readBeLoop (n : Nat) : ∀ (val : Nat) (r : BR) (c : Conn), c.Good → r.rest = c.pending →
    Same (readBeLoop BR.readByte n val r) (readBeLoop Conn.readByte n val c) := by
  induction n with
  | zero => intro val r c hg h; exact ⟨rfl, h, hg⟩
  | succ n ih =>
    intro val r c hg h
    unfold readBeLoop
    exact same_bind (same_onErr (same_readByte hg h)) (fun a r' c' hg' h' => ih _ r' c' hg' h')

theorem same_readTL {c : Conn} (hg : c.Good) {r : BR} (h : r.rest = c.pending) : Same (BR.readTL r) (readTL Conn.readByte c) := by
  unfold BR.readTL readTL
  refine same_bind (same_readByte hg h) ?_
  intro x r' c' hg' h'
  split
  · exact ⟨rfl, h', hg'⟩
  · split
    · exact same_readBeLoop 2 0 r' c' hg' h'
    · split
      · exact same_readBeLoop 4 0 r' c' hg' h'
      · exact same_readBeLoop 8 0 r' c' hg' h'

theorem rest_new (b : Bytes) : (BR.new b).rest = b := by simp [BR.new, BR.rest]

theorem conn_readTL {c : Conn} (hg : c.Good) {x : Nat} (hx : x < 2 ^ 64) {t : Bytes} (h : c.pending = tlEnc x ++ t) :
    ∃ c', readTL Conn.readByte c = (.ok x, c') ∧ c'.Good ∧ c'.pending = t := by
  have h0 : (BR.new c.pending).rest = tlEnc x ++ t := by rw [rest_new, h]
  obtain ⟨h1, h2, h3⟩ := same_readTL hg (rest_new c.pending)
  rw [readTL_tlEnc hx h0] at h1 h2
  refine ⟨(readTL Conn.readByte c).2, ?_, h3, ?_⟩
  · rw [show Res.ok x = (readTL Conn.readByte c).1 from h1]
  · rw [← h2]
    show ((BR.new c.pending).adv (tlLen x)).rest = t
    rw [BR.rest_adv, h0, ← tlEnc_length, List.drop_left]

/-! ## Values -/

theorem conn_read {c : Conn} (hg : c.Good) {n : Nat} (hn : 0 < n) :
    (c.pending = [] ∧ c.read n = (.err .eof, c)) ∨
    ∃ p c', c.read n = (.ok p, c') ∧ p ≠ [] ∧ p.length ≤ n ∧ c'.Good ∧ c.pending = p ++ c'.pending := by
  unfold Conn.read
  cases hb : c.buf with
  | cons b t =>
    right
    refine ⟨(b :: t).take n, { c with buf := (b :: t).drop n }, rfl, ?_, by simp; omega, hg, ?_⟩
    · cases n with
      | zero => omega
      | succ n => simp
    · unfold Conn.pending
      rw [hb]
      simp only
      rw [← List.append_assoc, List.take_append_drop]
  | nil =>
    have hpend : c.pending = c.pieces.flatten := by unfold Conn.pending; rw [hb]; rfl
    simp only
    by_cases hs : n ≥ bufioSize
    · rw [if_pos hs]
      rcases connRead_spec hg hn with ⟨h1, h2⟩ | ⟨p, c', h1, h2, h3, h4, h5, h6⟩
      · left; rw [hpend, h1]; exact ⟨rfl, h2⟩
      · right
        refine ⟨p, c', h1, h2, h3, h5, ?_⟩
        rw [hpend, h6]
        unfold Conn.pending
        rw [h4, hb]; rfl
    · rw [if_neg hs]
      rcases connRead_spec hg (n := bufioSize) (by decide) with ⟨h1, h2⟩ | ⟨p, c', h1, h2, h3, h4, h5, h6⟩
      · left; rw [hpend, h1, h2]; exact ⟨rfl, rfl⟩
      · right
        rw [h1]
        refine ⟨p.take n, { c' with buf := p.drop n }, rfl, ?_, by simp; omega, h5, ?_⟩
        · intro h0
          have := congrArg List.length h0
          have hl : 0 < p.length := List.length_pos_iff.mpr h2
          rw [List.length_take, List.length_nil] at this
          omega
        · rw [hpend, h6]
          unfold Conn.pending
          simp only
          rw [← List.append_assoc, List.take_append_drop]

theorem conn_readFull (fuel n : Nat) (hf : n ≤ fuel) : ∀ {c : Conn}, c.Good →
    (n ≤ c.pending.length → ∃ c', Conn.readFull fuel n c = (.ok (c.pending.take n), c') ∧ c'.Good ∧ c'.pending = c.pending.drop n) ∧
    (c.pending.length < n → ∃ e c', Conn.readFull fuel n c = (.err e, c')) := by
  induction fuel generalizing n with
  | zero =>
    intro c hg
    have : n = 0 := by omega
    subst this
    refine ⟨fun _ => ⟨c, by unfold Conn.readFull; simp, hg, by simp⟩, fun h => by omega⟩
  | succ fuel ih =>
    intro c hg
    cases n with
    | zero => refine ⟨fun _ => ⟨c, by unfold Conn.readFull; simp, hg, by simp⟩, fun h => by omega⟩
    | succ n =>
      rcases conn_read hg (n := n + 1) (by omega) with ⟨h1, h2⟩ | ⟨p, c1, h1, h2, h3, h4, h5⟩
      · refine ⟨fun h => ?_, fun _ => ⟨.eof, c, by unfold Conn.readFull; rw [h2]⟩⟩
        rw [h1] at h
        simp at h
      · have hpl : 0 < p.length := List.length_pos_iff.mpr h2
        obtain ⟨i1, i2⟩ := ih (n + 1 - p.length) (by omega) h4
        have hlen : c.pending.length = p.length + c1.pending.length := by rw [h5, List.length_append]
        refine ⟨fun h => ?_, fun h => ?_⟩
        · obtain ⟨c2, e1, e2, e3⟩ := i1 (by omega)
          refine ⟨c2, ?_, e2, ?_⟩
          · unfold Conn.readFull
            rw [h1]
            simp only
            rw [e1, h5, List.take_append, List.take_of_length_le h3]
          · rw [e3, h5, List.drop_append, List.drop_of_length_le h3, List.nil_append]
        · obtain ⟨e, c2, e1⟩ := i2 (by omega)
          unfold Conn.readFull
          rw [h1]
          simp only
          rw [e1]
          cases e <;> exact ⟨_, _, rfl⟩

/-! ## Packets -/

/-- a packet: a type, a length and that many bytes, the numbers in shortest form; an array of its size can exist -/
def IsPacket (b : Bytes) : Prop :=
  ∃ t v, t < 2 ^ 64 ∧ b = tlEnc t ++ tlEnc v.length ++ v ∧ b.length ≤ maxAlloc

theorem frame_packet {c : Conn} (hg : c.Good) {b rest : Bytes} (hb : IsPacket b) (h : c.pending = b ++ rest) :
    ∃ c', c.frame = (.pkt b, c') ∧ c'.Good ∧ c'.pending = rest := by
  obtain ⟨t, v, ht, rfl, hl⟩ := hb
  rw [List.length_append, List.length_append] at hl
  have hv : v.length < 2 ^ 62 := by unfold maxAlloc at hl; omega
  obtain ⟨c1, h1, h2, h3⟩ := conn_readTL hg ht (t := tlEnc v.length ++ (v ++ rest)) (by rw [h]; simp [List.append_assoc])
  obtain ⟨c2, g1, g2, g3⟩ := conn_readTL h2 (x := v.length) (by omega) h3
  have hint : toInt v.length = v.length := toInt_of_lt (by omega)
  have hw : wrap64 ((tlEnc t).length + (tlEnc v.length).length + toInt v.length) =
      (tlEnc t).length + (tlEnc v.length).length + v.length := by
    rw [hint]
    apply wrap64_id
    · omega
    · unfold maxAlloc at hl; omega
  obtain ⟨c3, e1, e2, e3⟩ := (conn_readFull v.length v.length (Nat.le_refl _) g2).1 (by rw [g3]; simp)
  refine ⟨c3, ?_, e2, ?_⟩
  · unfold Conn.frame
    rw [h1]
    simp only
    rw [g1]
    simp only
    rw [hw, if_neg (by omega), hint, if_neg (by omega), Int.toNat_natCast, e1, g3, List.take_left]
  · rw [e3, g3, List.drop_left]

theorem frame_empty {c : Conn} (hg : c.Good) (h : c.pending = []) : ∃ c', c.frame = (.err .eof, c') := by
  have h1 := conn_readByte hg
  rw [h] at h1
  obtain ⟨c', e1, _, _⟩ := h1
  refine ⟨c', ?_⟩
  unfold Conn.frame readTL
  rw [RM.bind_err e1]

theorem TLSplit.extend {s : Bytes} {v n : Nat} (h : TLSplit s v n) (m : Bytes) : TLSplit (s ++ m) v n ∧ n ≤ s.length := by
  cases h with
  | one b t hb => exact ⟨.one b (t ++ m) hb, by simp⟩
  | two t ht =>
    have : (t ++ m).take 2 = t.take 2 := List.take_append_of_le_length ht
    exact ⟨this ▸ .two (t ++ m) (by simp; omega), by simp; omega⟩
  | four t ht =>
    have : (t ++ m).take 4 = t.take 4 := List.take_append_of_le_length ht
    exact ⟨this ▸ .four (t ++ m) (by simp; omega), by simp; omega⟩
  | eight t ht =>
    have : (t ++ m).take 8 = t.take 8 := List.take_append_of_le_length ht
    exact ⟨this ▸ .eight (t ++ m) (by simp; omega), by simp; omega⟩

/-- a number cut short is an error -/
theorem conn_readTL_short {c : Conn} (hg : c.Good) {x : Nat} (hx : x < 2 ^ 64) {m : Bytes} (h : c.pending ++ m = tlEnc x) (hm : m ≠ []) :
    ∃ e c', readTL Conn.readByte c = (.err e, c') := by
  obtain ⟨h1, h2, h3⟩ := same_readTL hg (rest_new c.pending)
  rcases readTL_cases (BR.new c.pending) with ⟨_, e⟩ | ⟨r', e, _⟩ | ⟨v, n, hs, e, _⟩
  · rw [e] at h1
    exact ⟨_, (readTL Conn.readByte c).2, Prod.ext h1.symm rfl⟩
  · rw [e] at h1
    exact ⟨_, (readTL Conn.readByte c).2, Prod.ext h1.symm rfl⟩
  · exfalso
    rw [rest_new] at hs
    obtain ⟨hs', hle⟩ := TLSplit.extend hs m
    rw [h] at hs'
    have hfull : (BR.new (tlEnc x)).rest = tlEnc x := rest_new _
    have e1 := readTL_of_split (r := BR.new (tlEnc x)) (by rw [hfull]; exact hs')
    have e2 := readTL_tlEnc hx (r := BR.new (tlEnc x)) (t := []) (by rw [hfull, List.append_nil])
    rw [e1] at e2
    have hadv := congrArg (fun y => y.2.rest.length) e2
    simp only [BR.rest_adv, hfull, List.length_drop, tlEnc_length] at hadv
    have hlen := congrArg List.length h
    rw [List.length_append, tlEnc_length] at hlen
    have := List.length_pos_iff.mpr hm
    omega

theorem frame_partial {c : Conn} (hg : c.Good) {b m : Bytes} (hb : IsPacket b) (h : c.pending ++ m = b) (hm : m ≠ []) :
    ∃ e c', c.frame = (.err e, c') := by
  obtain ⟨t, v, ht, hbe, hl⟩ := hb
  subst h
  have hml := List.length_pos_iff.mpr hm
  rw [List.append_assoc] at hbe
  have hl2 := hl
  rw [List.length_append] at hl
  by_cases h1 : c.pending.length < (tlEnc t).length
  · -- the type is cut
    obtain ⟨m', hm'⟩ : ∃ m', c.pending ++ m' = tlEnc t := by
      refine ⟨(tlEnc t).drop c.pending.length, ?_⟩
      have := congrArg (List.take c.pending.length) hbe
      rw [List.take_left, List.take_append_of_le_length (by omega)] at this
      rw [this, List.length_take, Nat.min_eq_left (by omega), List.take_append_drop]
    obtain ⟨e, c', he⟩ := conn_readTL_short hg ht hm' (by rintro rfl; rw [List.append_nil] at hm'; rw [hm'] at h1; omega)
    exact ⟨e, c', by unfold Conn.frame; rw [he]⟩
  · obtain ⟨p1, hp1⟩ : ∃ p1, c.pending = tlEnc t ++ p1 := by
      refine ⟨c.pending.drop (tlEnc t).length, ?_⟩
      have := congrArg (List.take (tlEnc t).length) hbe
      rw [List.take_left, List.take_append_of_le_length (by omega)] at this
      rw [← this, List.length_take, Nat.min_eq_left (by omega), List.take_append_drop]
    rw [hp1, List.append_assoc] at hbe
    have hbe := List.append_cancel_left hbe
    obtain ⟨c1, g1, g2, g3⟩ := conn_readTL hg ht hp1
    have hv : v.length < 2 ^ 62 := by
      have := congrArg List.length hbe
      simp only [List.length_append] at this
      rw [hp1, List.length_append] at hl
      unfold maxAlloc at hl
      omega
    by_cases h2 : p1.length < (tlEnc v.length).length
    · obtain ⟨m', hm'⟩ : ∃ m', p1 ++ m' = tlEnc v.length := by
        refine ⟨(tlEnc v.length).drop p1.length, ?_⟩
        have := congrArg (List.take p1.length) hbe
        rw [List.take_left, List.take_append_of_le_length (by omega)] at this
        rw [this, List.length_take, Nat.min_eq_left (by omega), List.take_append_drop]
      obtain ⟨e, c', he⟩ := conn_readTL_short g2 (x := v.length) (by omega) (g3 ▸ hm')
        (by rintro rfl; rw [List.append_nil] at hm'; rw [hm'] at h2; omega)
      refine ⟨e, c', ?_⟩
      unfold Conn.frame; rw [g1]; simp only; rw [he]
    · obtain ⟨p2, hp2⟩ : ∃ p2, p1 = tlEnc v.length ++ p2 := by
        refine ⟨p1.drop (tlEnc v.length).length, ?_⟩
        have := congrArg (List.take (tlEnc v.length).length) hbe
        rw [List.take_left, List.take_append_of_le_length (by omega)] at this
        rw [← this, List.length_take, Nat.min_eq_left (by omega), List.take_append_drop]
      rw [hp2, List.append_assoc] at hbe
      have hbe := List.append_cancel_left hbe
      have hshort : p2.length < v.length := by
        have := congrArg List.length hbe
        rw [List.length_append] at this
        omega
      obtain ⟨c2, f1, f2, f3⟩ := conn_readTL g2 (x := v.length) (by omega) (g3.trans hp2)
      have hint : toInt v.length = v.length := toInt_of_lt (by omega)
      have hle : (tlEnc t).length + (tlEnc v.length).length + v.length ≤ maxAlloc := by
        rw [hp1, hp2] at hl
        have := congrArg List.length hbe
        rw [List.length_append] at this
        simp only [List.length_append] at hl
        omega
      have hw : wrap64 ((tlEnc t).length + (tlEnc v.length).length + toInt v.length) =
          (tlEnc t).length + (tlEnc v.length).length + v.length := by
        rw [hint]
        apply wrap64_id
        · omega
        · unfold maxAlloc at hle; omega
      obtain ⟨e, c', he⟩ := (conn_readFull v.length v.length (Nat.le_refl _) f2).2 (by rw [f3]; exact hshort)
      refine ⟨e, c', ?_⟩
      unfold Conn.frame
      rw [g1]
      simp only
      rw [f1]
      simp only
      rw [hw, if_neg (by omega), hint, if_neg (by omega), Int.toNat_natCast, he]

theorem run_packets {pkts : List Bytes} (hp : ∀ b ∈ pkts, IsPacket b) {tail : Bytes}
    (ht : tail = [] ∨ ∃ b m, IsPacket b ∧ tail ++ m = b ∧ m ≠ []) :
    ∀ {c : Conn}, c.Good → c.pending = pkts.flatten ++ tail → ∀ fuel, pkts.length < fuel →
      ∃ e, Conn.run (fun _ => true) fuel c = some (pkts, .err e) ∧ (tail = [] → e = .eof) := by
  induction pkts with
  | nil =>
    intro c hg h fuel hf
    cases fuel with
    | zero => exact absurd hf (by simp)
    | succ fuel =>
      rw [List.flatten_nil, List.nil_append] at h
      rcases ht with ht | ⟨b, m, hb, hbm, hm⟩
      · obtain ⟨c', e1⟩ := frame_empty hg (h.trans ht)
        exact ⟨.eof, by unfold Conn.run; rw [e1], fun _ => rfl⟩
      · obtain ⟨e, c', e1⟩ := frame_partial hg hb (h ▸ hbm) hm
        refine ⟨e, by unfold Conn.run; rw [e1], fun h0 => ?_⟩
        obtain ⟨c'', e2⟩ := frame_empty hg (h.trans h0)
        rw [e2] at e1
        cases e1
        rfl
  | cons b pkts ih =>
    intro c hg h fuel hf
    cases fuel with
    | zero => exact absurd hf (by simp)
    | succ fuel =>
      obtain ⟨c', e1, e2, e3⟩ := frame_packet hg (hp b List.mem_cons_self) (rest := pkts.flatten ++ tail)
        (by rw [h, List.flatten_cons, List.append_assoc])
      obtain ⟨e, e4, e5⟩ := ih (fun x hx => hp x (List.mem_cons_of_mem _ hx)) e2 e3 fuel (by simp at hf; omega)
      refine ⟨e, ?_, e5⟩
      unfold Conn.run
      rw [e1]
      simp only [if_true]
      rw [e4]
      rfl

/-! ## C41 -/

/-- C41: any packets are sent, each as a wire of any number of buffers; the byte stream arrives cut into any non-empty pieces; the sender has closed the
connection after the last packet (`tail` empty) or in the middle of a packet.  Then the face delivers exactly the complete packets, in order, and stops at
the end of the stream.  A packet is a TLV element with numbers in shortest form, as all encoders write it. -/
theorem C41_framing (pkts : List Wire) (hp : ∀ w ∈ pkts, IsPacket (sendBytes w)) (tail : Bytes)
    (ht : tail = [] ∨ ∃ b m, IsPacket b ∧ tail ++ m = b ∧ m ≠ []) (pieces : List Bytes) (hne : ∀ p ∈ pieces, p ≠ [])
    (hcut : pieces.flatten = (pkts.map sendBytes).flatten ++ tail) (fuel : Nat) (hf : pkts.length < fuel) :
    ∃ e, Conn.run (fun _ => true) fuel { pieces := pieces } = some (pkts.map sendBytes, .err e) ∧ (tail = [] → e = .eof) := by
  refine run_packets (pkts := pkts.map sendBytes) ?_ ht (c := { pieces := pieces }) hne hcut fuel (by rw [List.length_map]; exact hf)
  intro b hb
  obtain ⟨w, hw, rfl⟩ := List.mem_map.mp hb
  exact hp w hw

/-- C41 with a callback that returns an error: the packets up to and including the first refused one are delivered -/
theorem C41_refused (onPkt : Bytes → Bool) (pre : List Bytes) (b : Bytes) (hp : ∀ x ∈ pre ++ [b], IsPacket x)
    (hpre : ∀ x ∈ pre, onPkt x = true) (hb : onPkt b = false) (tail : Bytes) {c : Conn} (hg : c.Good)
    (h : c.pending = (pre ++ [b]).flatten ++ tail) (fuel : Nat) (hf : pre.length < fuel) :
    Conn.run onPkt fuel c = some (pre ++ [b], .stopped) := by
  induction pre generalizing c fuel with
  | nil =>
    cases fuel with
    | zero => exact absurd hf (by simp)
    | succ fuel =>
      obtain ⟨c', e1, _, _⟩ := frame_packet hg (hp b (by simp)) (rest := tail) (by rw [h]; simp)
      unfold Conn.run
      rw [e1]
      simp [hb]
  | cons a pre ih =>
    cases fuel with
    | zero => exact absurd hf (by simp)
    | succ fuel =>
      obtain ⟨c', e1, e2, e3⟩ := frame_packet hg (hp a (by simp)) (rest := (pre ++ [b]).flatten ++ tail) (by rw [h]; simp)
      have := ih (fun x hx => hp x (List.mem_cons_of_mem _ hx)) (fun x hx => hpre x (List.mem_cons_of_mem _ hx)) e2 e3 fuel
        (by simp at hf; omega)
      unfold Conn.run
      rw [e1]
      simp only [hpre a List.mem_cons_self, if_true]
      rw [this]
      rfl

/-- two packets, the first in three buffers, cut in the middle of a number and of a value -/
example : ∃ e, Conn.run (fun _ => true) 3 { pieces := [[6], [3, 1, 2], [3, 5], [1, 9], [7]] } = some ([[6, 3, 1, 2, 3], [5, 1, 9]], .err e) := by
  have h := C41_framing [[[6], [3, 1], [2, 3]], [[5, 1, 9]]] (by
      intro w hw
      simp only [List.mem_cons, List.not_mem_nil, or_false] at hw
      rcases hw with rfl | rfl
      · exact ⟨6, [1, 2, 3], by decide, by decide, by decide⟩
      · exact ⟨5, [9], by decide, by decide, by decide⟩) [7] (.inr ⟨[7, 0], [0], ⟨7, [], by decide, by decide, by decide⟩, rfl, by decide⟩)
    [[6], [3, 1, 2], [3, 5], [1, 9], [7]] (by decide) (by decide) 3 (by decide)
  obtain ⟨e, h, _⟩ := h
  exact ⟨e, h⟩

/-- outside C41: a TLV element whose type is not in shortest form is delivered with the type re-encoded, not as it was sent -/
theorem C41_not_shortest : ¬ IsPacket [0xfd, 0, 5, 1, 7] ∧
    ∃ c, Conn.frame { pieces := [[0xfd, 0, 5, 1, 7]] } = (.pkt [5, 1, 7], c) := by
  constructor
  · rintro ⟨t, v, ht, hb, _⟩
    have h1 := readTL_tlEnc ht (r := BR.new [0xfd, 0, 5, 1, 7]) (t := tlEnc v.length ++ v) (by rw [rest_new, hb, List.append_assoc])
    have h2 : BR.readTL (BR.new [0xfd, 0, 5, 1, 7]) = (.ok 5, (BR.new [0xfd, 0, 5, 1, 7]).adv 3) := by rfl
    rw [h2] at h1
    have h3 : 5 = t := by injection h1 with h1 _; injection h1
    subst h3
    have := congrArg (fun x => x.2.pos) h1
    revert this
    decide
  · have h1 : readTL Conn.readByte { pieces := [[0xfd, 0, 5, 1, 7]] } = (.ok 5, { buf := [1, 7], pieces := [] }) := by rfl
    have h2 : readTL Conn.readByte { buf := [1, 7], pieces := [] } = (.ok 1, { buf := [7], pieces := [] }) := by rfl
    refine ⟨{ buf := [], pieces := [] }, ?_⟩
    unfold Conn.frame
    rw [h1]
    simp only
    rw [h2]
    have hint : toInt 1 = 1 := toInt_of_lt (by decide)
    have hw : wrap64 ((tlEnc 5).length + (tlEnc 1).length + toInt 1) = 3 := by
      rw [hint]
      exact wrap64_id (by decide) (by decide)
    simp only
    rw [hw, if_neg (by unfold maxAlloc; decide), hint, if_neg (by decide)]
    rfl

end Ndn.Engine
