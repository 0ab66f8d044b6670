import Verif.Schema.Attach
import Verif.Schema.TreeProps

/-! # Properties of attaching and detaching a schema tree: C79 -/

namespace Ndn.Schema

open Ndn.Go (Mem Slice)

/-! ## Orders of visit -/

mutual
def post (a : Addr) (t : STree) : List Addr :=
  match t with
  | .node chd => postAll a 0 chd ++ [a]
def postAll (a : Addr) (i : Nat) (chd : List (CompPat × STree)) : List Addr :=
  match chd with
  | [] => []
  | (_, t) :: rest => post (a ++ [i]) t ++ postAll a (i + 1) rest
end

mutual
def preo (a : Addr) (t : STree) : List Addr :=
  match t with
  | .node chd => a :: preoAll a 0 chd
def preoAll (a : Addr) (i : Nat) (chd : List (CompPat × STree)) : List Addr :=
  match chd with
  | [] => []
  | (_, t) :: rest => preo (a ++ [i]) t ++ preoAll a (i + 1) rest
end

theorem at_zero (c : CompPat) (t : STree) (rest : List (CompPat × STree)) (b : Addr) :
    (STree.node ((c, t) :: rest)).at' (0 :: b) = (t.at' b).map fun p => (c :: p.1, p.2) := rfl

theorem at_succ (c : CompPat) (t : STree) (rest : List (CompPat × STree)) (k : Nat) (b : Addr) :
    (STree.node ((c, t) :: rest)).at' ((k + 1) :: b) = (STree.node rest).at' (k :: b) := rfl

mutual
theorem mem_post (a : Addr) (t : STree) (x : Addr) : x ∈ post a t ↔ ∃ b, x = a ++ b ∧ (t.at' b).isSome := by
  match t with
  | .node chd =>
    rw [post, List.mem_append, List.mem_singleton, mem_postAll a 0 chd x]
    constructor
    · rintro (⟨k, b, rfl, h⟩ | rfl)
      · exact ⟨k :: b, by simp, h⟩
      · exact ⟨[], by simp, rfl⟩
    · rintro ⟨b, rfl, h⟩
      cases b with
      | nil => exact .inr (by simp)
      | cons k b => exact .inl ⟨k, b, by simp, h⟩
theorem mem_postAll (a : Addr) (i : Nat) (chd : List (CompPat × STree)) (x : Addr) :
    x ∈ postAll a i chd ↔ ∃ k b, x = a ++ (i + k) :: b ∧ ((STree.node chd).at' (k :: b)).isSome := by
  match chd with
  | [] => simp [postAll, STree.at']
  | (c, t) :: rest =>
    rw [postAll, List.mem_append, mem_post (a ++ [i]) t x, mem_postAll a (i + 1) rest x]
    constructor
    · rintro (⟨b, rfl, h⟩ | ⟨k, b, rfl, h⟩)
      · exact ⟨0, b, by simp, by rw [at_zero]; simpa using h⟩
      · exact ⟨k + 1, b, by simp; omega, by rw [at_succ]; exact h⟩
    · rintro ⟨k, b, rfl, h⟩
      cases k with
      | zero => exact .inl ⟨b, by simp, by rw [at_zero] at h; simpa using h⟩
      | succ k => exact .inr ⟨k, b, by simp; omega, by rw [at_succ] at h; exact h⟩
end

mutual
theorem post_perm (a : Addr) (t : STree) : (post a t).Perm (preo a t) := by
  match t with
  | .node chd =>
    rw [post, preo]
    exact (List.perm_append_singleton a _).trans ((postAll_perm a 0 chd).cons a)
theorem postAll_perm (a : Addr) (i : Nat) (chd : List (CompPat × STree)) : (postAll a i chd).Perm (preoAll a i chd) := by
  match chd with
  | [] => rw [postAll, preoAll]
  | (c, t) :: rest =>
    rw [postAll, preoAll]
    exact (post_perm (a ++ [i]) t).append (postAll_perm a (i + 1) rest)
end

theorem apart {a x y : Addr} {i k : Nat} {b c : Addr} (hx : x = a ++ [i] ++ b) (hy : y = a ++ (i + 1 + k) :: c) :
    ¬ x <+: y ∧ ¬ y <+: x := by
  subst hx hy
  constructor
  · rintro ⟨r, h⟩
    simp only [List.append_assoc, List.append_cancel_left_eq, List.cons_append, List.nil_append, List.cons.injEq] at h
    omega
  · rintro ⟨r, h⟩
    simp only [List.append_assoc, List.append_cancel_left_eq, List.cons_append, List.nil_append, List.cons.injEq] at h
    omega

mutual
/-- no node comes before one of its descendants, or twice -/
theorem post_order (a : Addr) (t : STree) : (post a t).Pairwise fun x y => ¬ x <+: y := by
  match t with
  | .node chd =>
    rw [post, List.pairwise_append]
    refine ⟨postAll_order a 0 chd, List.pairwise_singleton _ _, ?_⟩
    intro x hx y hy
    rw [List.mem_singleton] at hy
    subst hy
    obtain ⟨k, b, rfl, -⟩ := (mem_postAll y 0 chd x).mp hx
    intro h
    have := h.length_le
    simp at this
    omega
theorem postAll_order (a : Addr) (i : Nat) (chd : List (CompPat × STree)) : (postAll a i chd).Pairwise fun x y => ¬ x <+: y := by
  match chd with
  | [] => rw [postAll]; exact .nil
  | (c, t) :: rest =>
    rw [postAll, List.pairwise_append]
    refine ⟨post_order (a ++ [i]) t, postAll_order a (i + 1) rest, ?_⟩
    intro x hx y hy
    obtain ⟨b, hb, -⟩ := (mem_post _ t x).mp hx
    obtain ⟨k, c, hc, -⟩ := (mem_postAll a _ rest y).mp hy
    exact (apart hb hc).1
end

mutual
/-- no node comes after one of its descendants, or twice -/
theorem preo_order (a : Addr) (t : STree) : (preo a t).Pairwise fun x y => ¬ y <+: x := by
  match t with
  | .node chd =>
    rw [preo, List.pairwise_cons]
    refine ⟨?_, preoAll_order a 0 chd⟩
    intro y hy
    obtain ⟨k, b, rfl, -⟩ := (mem_postAll a 0 chd y).mp ((postAll_perm a 0 chd).mem_iff.mpr hy)
    intro h
    have := h.length_le
    simp at this
    omega
theorem preoAll_order (a : Addr) (i : Nat) (chd : List (CompPat × STree)) : (preoAll a i chd).Pairwise fun x y => ¬ y <+: x := by
  match chd with
  | [] => rw [preoAll]; exact .nil
  | (c, t) :: rest =>
    rw [preoAll, List.pairwise_append]
    refine ⟨preo_order (a ++ [i]) t, preoAll_order a (i + 1) rest, ?_⟩
    intro x hx y hy
    obtain ⟨b, hb, -⟩ := (mem_post _ t x).mp ((post_perm _ t).mem_iff.mpr hx)
    obtain ⟨k, c, hc, -⟩ := (mem_postAll a _ rest y).mp ((postAll_perm a _ rest).mem_iff.mpr hy)
    exact (apart hb hc).2
end

/-! ## What `OnAttach` and `OnDetach` do -/

theorem at_nil (t : STree) : t.at' [] = some ([], t) := by cases t; rfl

mutual
theorem onAttach_spec (out : Addr → Out) (grow : Nat → Nat) (e : Nat) (a : Addr) (t : STree) (m : Mem CompPat) (path : Slice) (s : Nodes)
    (hok : path.Ok m) (hp : ∀ b, out (a ++ b) ≠ .panic) : ∃ m' s', onAttach out grow e a t m path s = (false, m', s') ∧
      (∀ o : Slice, o.Ok m → o.Ok m') ∧ (∀ o : Slice, o.Ok m → o.Before path → m'.read o = m.read o) ∧
      (∀ b es sub, t.at' b = some (es, sub) → s'.st (a ++ b) = ⟨some e, path.len + es.length, m.read path ++ es⟩) ∧
      (∀ c, (∀ b, c = a ++ b → t.at' b = none) → s'.st c = s.st c) ∧ s'.fired = s.fired ++ (post a t).map Fired.attach := by
  match t with
  | .node chd =>
    obtain ⟨m', s', he, h1, h2, h3, h4, h5⟩ := onAttachAll_spec out grow e a 0 chd m path (s.set a ⟨some e, path.len, m.read path⟩) hok hp
    have h0 : ¬ (out a == .panic) = true := by
      have := hp []
      rw [List.append_nil] at this
      simpa using this
    have h0' : (out a == .panic) = false := by simpa using h0
    refine ⟨m', s'.fire (.attach a), ?_, h1, h2, ?_, ?_, ?_⟩
    · rw [onAttach]; simp only [he, h0']
    · intro b es sub hb
      show s'.st (a ++ b) = _
      cases b with
      | nil =>
        rw [at_nil] at hb
        injection hb with hb; injection hb with hb1 hb2
        subst hb1
        rw [List.append_nil, h4 a (by intro k b hc; have := congrArg List.length hc; simp at this)]
        simp [Nodes.set]
      | cons k b =>
        have := h3 k b es sub hb
        rwa [Nat.zero_add] at this
    · intro c hc
      show s'.st c = _
      rw [h4 c (by intro k b hb; exact hc (k :: b) (by rw [hb, Nat.zero_add]))]
      have : c ≠ a := by
        intro h
        have := hc [] (by rw [h, List.append_nil])
        rw [at_nil] at this; cases this
      simp [Nodes.set, this]
    · show s'.fired ++ _ = _
      rw [h5, post, List.map_append]
      simp [Nodes.set]
theorem onAttachAll_spec (out : Addr → Out) (grow : Nat → Nat) (e : Nat) (a : Addr) (i : Nat) (chd : List (CompPat × STree)) (m : Mem CompPat)
    (path : Slice) (s : Nodes) (hok : path.Ok m) (hp : ∀ b, out (a ++ b) ≠ .panic) : ∃ m' s', onAttachAll out grow e a i chd m path s = (false, m', s') ∧
      (∀ o : Slice, o.Ok m → o.Ok m') ∧ (∀ o : Slice, o.Ok m → o.Before path → m'.read o = m.read o) ∧
      (∀ k b es sub, (STree.node chd).at' (k :: b) = some (es, sub) →
        s'.st (a ++ (i + k) :: b) = ⟨some e, path.len + es.length, m.read path ++ es⟩) ∧
      (∀ c, (∀ k b, c = a ++ (i + k) :: b → (STree.node chd).at' (k :: b) = none) → s'.st c = s.st c) ∧
      s'.fired = s.fired ++ (postAll a i chd).map Fired.attach := by
  match chd with
  | [] =>
    refine ⟨m, s, by rw [onAttachAll], fun _ h => h, fun _ _ _ => rfl, ?_, fun _ _ => rfl, by simp [postAll]⟩
    intro k b es sub h
    simp [STree.at'] at h
  | (c, t) :: rest =>
    cases hap : m.append (.comp ⟨0, []⟩) (grow m.length) path c with
    | mk m1 p1 =>
      obtain ⟨r1, r2, r3, r4, r5⟩ := Go.append_spec _ _ hok c hap
      have hl1 : p1.len = path.len + 1 := by
        have := Go.read_length r2
        rw [r1, List.length_append, Go.read_length hok] at this
        simpa using this.symm
      obtain ⟨m2, s2, he2, a1, a2, a3, a4, a5⟩ := onAttach_spec out grow e (a ++ [i]) t m1 p1 s r2 (by intro b; rw [List.append_assoc]; exact hp _)
      have hself : path.Before path := .inr (Nat.le_refl _)
      have hrp : m2.read path = m.read path := by rw [a2 path (r3 path hok) (r5 path hok hself), r4 path hok hself]
      obtain ⟨m3, s3, he3, b1, b2, b3, b4, b5⟩ := onAttachAll_spec out grow e a (i + 1) rest m2 path s2 (a1 _ (r3 _ hok)) hp
      refine ⟨m3, s3, ?_, fun o ho => b1 o (a1 o (r3 o ho)), ?_, ?_, ?_, ?_⟩
      · rw [onAttachAll]; simp only [hap, he2, he3]
      · intro o ho hb
        rw [b2 o (a1 o (r3 o ho)) hb, a2 o (r3 o ho) (r5 o ho hb), r4 o ho hb]
      · intro k b es sub hat
        cases k with
        | zero =>
          rw [at_zero] at hat
          cases hq : t.at' b with
          | none => rw [hq] at hat; cases hat
          | some p =>
            rw [hq] at hat
            simp only [Option.map_some, Option.some.injEq, Prod.mk.injEq] at hat
            obtain ⟨rfl, rfl⟩ := hat
            have hx := a3 b p.1 p.2 hq
            rw [b4 (a ++ (i + 0) :: b) (by
              intro k b' hc
              simp only [List.append_cancel_left_eq, List.cons.injEq] at hc
              omega)]
            rw [show a ++ (i + 0) :: b = a ++ [i] ++ b by simp, hx, hl1, r1]
            simp only [List.length_cons, List.append_assoc, List.cons_append, List.nil_append, NodeSt.mk.injEq, true_and, and_true]
            omega
        | succ k =>
          rw [at_succ] at hat
          have := b3 k b es sub hat
          rw [hrp] at this
          rw [← this, show i + (k + 1) = i + 1 + k by omega]
      · intro x hx
        rw [b4 x (by
          intro k b hb
          have := hx (k + 1) b (by rw [hb, show i + (k + 1) = i + 1 + k by omega])
          rwa [at_succ] at this)]
        refine a4 x ?_
        intro b hb
        have := hx 0 b (by rw [hb]; simp)
        rw [at_zero] at this
        cases hq : t.at' b with
        | none => rfl
        | some p => rw [hq] at this; cases this
      · rw [b5, a5, postAll, List.map_append, List.append_assoc]
end

mutual
theorem onDetach_spec (a : Addr) (t : STree) (s : Nodes) :
    (∀ b, (t.at' b).isSome → (onDetach a t s).st (a ++ b) = { s.st (a ++ b) with engine := none }) ∧
    (∀ c, (∀ b, c = a ++ b → t.at' b = none) → (onDetach a t s).st c = s.st c) ∧
    (onDetach a t s).fired = s.fired ++ (preo a t).map Fired.detach := by
  match t with
  | .node chd =>
    obtain ⟨h1, h2, h3⟩ := onDetachAll_spec a 0 chd (s.fire (.detach a))
    have ha : (onDetachAll a 0 chd (s.fire (.detach a))).st a = s.st a :=
      h2 a (by intro k b hc; have := congrArg List.length hc; simp at this)
    rw [onDetach]
    refine ⟨?_, ?_, ?_⟩
    · intro b hb
      cases b with
      | nil => simp [Nodes.set, ha]
      | cons k b =>
        have := h1 k b hb
        rw [Nat.zero_add] at this
        simp only [Nodes.set]
        rw [if_neg (by intro h; have := congrArg List.length h; simp at this), this]
        rfl
    · intro c hc
      have : c ≠ a := by
        intro h
        have := hc [] (by rw [h, List.append_nil])
        rw [at_nil] at this; cases this
      simp only [Nodes.set]
      rw [if_neg this, h2 c (by intro k b hb; exact hc (k :: b) (by rw [hb, Nat.zero_add]))]
      rfl
    · show (onDetachAll a 0 chd (s.fire (.detach a))).fired = _
      rw [h3, preo]
      simp [Nodes.fire]
theorem onDetachAll_spec (a : Addr) (i : Nat) (chd : List (CompPat × STree)) (s : Nodes) :
    (∀ k b, ((STree.node chd).at' (k :: b)).isSome → (onDetachAll a i chd s).st (a ++ (i + k) :: b) = { s.st (a ++ (i + k) :: b) with engine := none }) ∧
    (∀ c, (∀ k b, c = a ++ (i + k) :: b → (STree.node chd).at' (k :: b) = none) → (onDetachAll a i chd s).st c = s.st c) ∧
    (onDetachAll a i chd s).fired = s.fired ++ (preoAll a i chd).map Fired.detach := by
  match chd with
  | [] => exact ⟨by intro k b h; simp [STree.at'] at h, fun _ _ => by rw [onDetachAll], by simp [onDetachAll, preoAll]⟩
  | (c, t) :: rest =>
    obtain ⟨a1, a2, a3⟩ := onDetach_spec (a ++ [i]) t s
    obtain ⟨b1, b2, b3⟩ := onDetachAll_spec a (i + 1) rest (onDetach (a ++ [i]) t s)
    rw [onDetachAll]
    refine ⟨?_, ?_, ?_⟩
    · intro k b h
      cases k with
      | zero =>
        rw [at_zero] at h
        rw [b2 _ (by
          intro k b' hc
          simp only [List.append_cancel_left_eq, List.cons.injEq] at hc
          omega)]
        rw [show a ++ (i + 0) :: b = a ++ [i] ++ b by simp]
        exact a1 b (by simpa using h)
      | succ k =>
        rw [at_succ] at h
        have := b1 k b h
        rw [show i + (k + 1) = i + 1 + k by omega, this]
        rw [a2 _ (by
          intro b' hc
          simp only [List.append_assoc, List.append_cancel_left_eq, List.cons_append, List.nil_append, List.cons.injEq] at hc
          omega)]
    · intro x hx
      rw [b2 x (by
        intro k b hb
        have := hx (k + 1) b (by rw [hb, show i + (k + 1) = i + 1 + k by omega])
        rwa [at_succ] at this)]
      refine a2 x ?_
      intro b hb
      have := hx 0 b (by rw [hb]; simp)
      rw [at_zero] at this
      cases hq : t.at' b with
      | none => rfl
      | some p => rw [hq] at this; cases this
    · rw [b3, a3, preoAll, List.map_append, List.append_assoc]
end

/-! ## C79 -/

/-- every node of the tree knows the engine, its depth and its path: the prefix followed by the edges -/
def Placed (t : STree) (p : Name) (e : Nat) (s : Nodes) : Prop :=
  ∀ b es sub, t.at' b = some (es, sub) → s.st b = ⟨some e, p.length + es.length, p.map CompPat.comp ++ es⟩

/-- the list has every node of the tree once, and descendants first -/
def ChildrenFirst (t : STree) (l : List Addr) : Prop :=
  (∀ b, b ∈ l ↔ (t.at' b).isSome) ∧ l.Nodup ∧ l.Pairwise fun x y => ¬ x <+: y

/-- the list has every node of the tree once, and ancestors first -/
def ParentsFirst (t : STree) (l : List Addr) : Prop :=
  (∀ b, b ∈ l ↔ (t.at' b).isSome) ∧ l.Nodup ∧ l.Pairwise fun x y => ¬ y <+: x

theorem post_childrenFirst (t : STree) : ChildrenFirst t (post [] t) := by
  refine ⟨fun b => ?_, (post_order [] t).imp (fun {x y} h (he : x = y) => h (he ▸ List.prefix_rfl)), post_order [] t⟩
  rw [mem_post]
  exact ⟨fun ⟨c, h1, h2⟩ => by rw [h1]; exact h2, fun h => ⟨b, rfl, h⟩⟩

theorem preo_parentsFirst (t : STree) : ParentsFirst t (preo [] t) := by
  refine ⟨fun b => ?_, (preo_order [] t).imp (fun {x y} h (he : x = y) => h (he ▸ List.prefix_rfl)), preo_order [] t⟩
  rw [← (post_perm [] t).mem_iff]
  exact (post_childrenFirst t).1 b

theorem attach_nodes (t : STree) (out : Addr → Out) (grow : Nat → Nat) (p : Name) (e : Nat) (s : Nodes) (hp : ∀ b, out b ≠ .panic) :
    ∃ m' s', onAttach out grow e [] t (Mem.make (CompPat.comp ⟨0, []⟩) [] (p.map CompPat.comp) p.length).1
        (Mem.make (CompPat.comp ⟨0, []⟩) [] (p.map CompPat.comp) p.length).2 s = (false, m', s') ∧
      Placed t p e s' ∧ (∀ b, t.at' b = none → s'.st b = s.st b) ∧ s'.fired = s.fired ++ (post [] t).map Fired.attach := by
  have hm := Go.make_spec (CompPat.comp ⟨0, []⟩) [] (p.map CompPat.comp) p.length
  obtain ⟨h1, h2, h3, -⟩ := hm
  obtain ⟨m', s', he, -, -, a3, a4, a5⟩ := onAttach_spec out grow e [] t _ _ s h1 (fun b => hp _)
  refine ⟨m', s', he, ?_, ?_, a5⟩
  · intro b es sub hb
    have := a3 b es sub hb
    rw [h2, h3] at this
    simpa using this
  · intro b hb
    exact a4 b (fun c hc => by rw [List.nil_append] at hc; rw [← hc]; exact hb)

/-- C79, attaching: if no listener panics and the engine takes the prefix, `Attach` succeeds; every node knows the engine, its depth and its
path, although the paths are made by appending to shared slices; the attach event of every node is fired once, children first; the
handler is in the engine's table and nothing else changes there. -/
theorem C79_attach (t : STree) (out : Addr → Out) (grow : Nat → Nat) (p : Name) (e : Nat) (w : World) (hp : ∀ b, out b ≠ .panic)
    (hf : comparable (w.fib e) p = false) :
    ∃ w' order, w.attach t out grow p e = (true, w') ∧ Placed t p e w'.nodes ∧ w'.pre = p ∧ w'.engine = some e ∧
      w'.nodes.fired = w.nodes.fired ++ order.map Fired.attach ∧ ChildrenFirst t order ∧
      (∀ i, w'.fib i = if i = e then ⟨p, true⟩ :: w.fib e else w.fib i) := by
  obtain ⟨m', s', he, h1, -, h3⟩ := attach_nodes t out grow p e w.nodes hp
  refine ⟨_, post [] t, by unfold World.attach; simp only [he, hf]; rfl, h1, rfl, rfl, h3, post_childrenFirst t, fun i => rfl⟩

/-- C79, detaching an attached tree: no node keeps the engine, the detach event of every node is fired once, parents first, and the
handler is gone from the table, where nothing else changes. -/
theorem C79_detach (t : STree) (w : World) (e : Nat) (he : w.engine = some e) :
    (∀ b, (t.at' b).isSome → ((w.detach t).nodes.st b).engine = none) ∧
    (∃ order, (w.detach t).nodes.fired = w.nodes.fired ++ order.map Fired.detach ∧ ParentsFirst t order) ∧
    (∀ i r, r ∈ (w.detach t).fib i ↔ r ∈ w.fib i ∧ ¬ (i = e ∧ r.pre = w.pre)) := by
  obtain ⟨h1, -, h3⟩ := onDetach_spec [] t w.nodes
  have hd : w.detach t = { w.setFib e ((w.fib e).filter fun r => r.pre ≠ w.pre) with nodes := onDetach [] t w.nodes } := by
    unfold World.detach; rw [he]
  rw [hd]
  refine ⟨?_, ⟨preo [] t, h3, preo_parentsFirst t⟩, ?_⟩
  · intro b hb
    have := h1 b hb
    rw [List.nil_append] at this
    show ((onDetach [] t w.nodes).st b).engine = none
    rw [this]
  · intro i r
    show r ∈ (if i = e then _ else w.fib i) ↔ _
    split
    · rename_i hi
      subst hi
      simp [List.mem_filter]
    · rename_i hi
      simp [hi]

/-- where the tree is attached, as the history says -/
def place : Option (Name × Nat) → Happen → Option (Name × Nat)
  | _, .attach _ _ p e => some (p, e)
  | _, .detach => none
  | c, _ => c

/-- the Interests that are the tree's: those that arrive at the engine it is attached to, under its prefix, with that prefix -/
def handed : Option (Name × Nat) → List Happen → List (Name × Name)
  | _, [] => []
  | some (p, e), .arrive e' n :: hs => if e = e' ∧ p <+: n then (p, n) :: handed (some (p, e)) hs else handed (some (p, e)) hs
  | c, h :: hs => handed (place c h) hs

/-- the tree is attached only while it is not, with listeners that do not panic, at a prefix the engine takes; and detached only when no Interest
waits for its lock -/
def Orderly (t : STree) : Option (Name × Nat) → World → List Happen → Prop
  | _, _, [] => True
  | c, w, h :: hs =>
    (match h with
      | .attach out _ p e => (∀ b, out b ≠ .panic) ∧ c = none ∧ comparable (w.fib e) p = false
      | .detach => w.waiting = []
      | _ => True) ∧ Orderly t (place c h) (w.step t h) hs

/-- what holds along an orderly history; `L` are the Interests handed over -/
structure Inv (t : STree) (c : Option (Name × Nat)) (w : World) (L : List (Name × Name)) : Prop where
  calm : w.panicked = false
  out : c = none → (w.nodes.st []).engine = none ∧ w.waiting = [] ∧ ∀ i r, r ∈ w.fib i → r.mine = false
  inn : ∀ p e, c = some (p, e) → (w.nodes.st []).engine = some e ∧ w.engine = some e ∧ w.pre = p ∧ ⟨p, true⟩ ∈ w.fib e ∧
    (∀ i r, r ∈ w.fib i → r.mine = true → i = e ∧ r.pre = p) ∧ ∀ n ∈ w.waiting, (p, n) ∈ L
  all : (w.delivered.map (·.1) ++ w.dropped ++ w.waiting).Perm (L.map (·.2))
  right : ∀ n a, (n, a) ∈ w.delivered → ∃ p m, (p, n) ∈ L ∧ matchName p t n = some (a, m)
  lost : ∀ n, n ∈ w.dropped → ∃ p, (p, n) ∈ L ∧ matchName p t n = none

theorem inv_attach {t : STree} {w : World} {L : List (Name × Name)} {out : Addr → Out} {grow : Nat → Nat} {p : Name} {e : Nat}
    (hi : Inv t none w L) (hp : ∀ b, out b ≠ .panic) (hf : comparable (w.fib e) p = false) :
    Inv t (some (p, e)) (w.attach t out grow p e).2 L := by
  obtain ⟨m', s', he, h1, -, -⟩ := attach_nodes t out grow p e w.nodes hp
  have hw : (w.attach t out grow p e).2 =
      { ({ w with pre := p, nodes := s' } : World).setFib e (⟨p, true⟩ :: w.fib e) with engine := some e } := by
    unfold World.attach; simp only [he, hf]; rfl
  obtain ⟨o1, o2, o3⟩ := hi.out rfl
  rw [hw]
  refine ⟨hi.calm, (fun h => by cases h), ?_, hi.all, hi.right, hi.lost⟩
  intro p' e' h
  injection h with h; injection h with h2 h3
  subst h2 h3
  refine ⟨?_, rfl, rfl, ?_, ?_, ?_⟩
  · show (s'.st []).engine = _
    rw [h1 [] [] t (at_nil t)]
  · show _ ∈ (if e = e then _ else _)
    rw [if_pos rfl]; exact List.mem_cons_self
  · intro i r hr hm
    have hr' : r ∈ (if i = e then ⟨p, true⟩ :: w.fib e else w.fib i) := hr
    split at hr'
    · rename_i hi'
      rcases List.mem_cons.mp hr' with rfl | hr'
      · exact ⟨hi', rfl⟩
      · rw [o3 _ _ hr'] at hm; cases hm
    · rw [o3 _ _ hr'] at hm; cases hm
  · intro n hn
    have hn' : n ∈ w.waiting := hn
    rw [o2] at hn'; cases hn'

theorem inv_detach {t : STree} {w : World} {c : Option (Name × Nat)} {L : List (Name × Name)} (hi : Inv t c w L) (hw : w.waiting = []) :
    Inv t none (w.detach t) L := by
  cases he : w.engine with
  | none =>
    have : w.detach t = w := by unfold World.detach; rw [he]
    rw [this]
    cases hc : c with
    | none => subst hc; exact hi
    | some q =>
      obtain ⟨-, h, -⟩ := hi.inn q.1 q.2 hc
      rw [he] at h; cases h
  | some e =>
    obtain ⟨h1, -, h3⟩ := C79_detach t w e he
    have hd : w.detach t = { w.setFib e ((w.fib e).filter fun r => r.pre ≠ w.pre) with nodes := onDetach [] t w.nodes } := by
      unfold World.detach; rw [he]
    refine ⟨by rw [hd]; exact hi.calm, ?_, (fun _ _ h => by cases h), by rw [hd]; exact hi.all, by rw [hd]; exact hi.right, by rw [hd]; exact hi.lost⟩
    intro _
    refine ⟨h1 [] (by rw [at_nil]; rfl), by rw [hd]; exact hw, ?_⟩
    intro i r hr
    obtain ⟨hr1, hr2⟩ := (h3 i r).mp hr
    cases hc : c with
    | none => exact (hi.out hc).2.2 i r hr1
    | some q =>
      obtain ⟨-, q2, q3, -, q5, -⟩ := hi.inn q.1 q.2 hc
      rw [he] at q2
      injection q2 with q2
      cases hm : r.mine with
      | false => rfl
      | true =>
        obtain ⟨z1, z2⟩ := q5 i r hr1 hm
        exact absurd ⟨by rw [z1, q2], by rw [z2, q3]⟩ hr2

theorem inv_run {t : STree} {w : World} {c : Option (Name × Nat)} {L : List (Name × Name)} (hi : Inv t c w L) : Inv t c (w.step t .run) L := by
  unfold World.step
  cases hq : w.waiting with
  | nil => exact hi
  | cons n rest =>
    cases hc : c with
    | none => have := (hi.out hc).2.1; rw [hq] at this; cases this
    | some q =>
      obtain ⟨i1, i2, i3, i4, i5, i6⟩ := hi.inn q.1 q.2 hc
      have hn : (q.1, n) ∈ L := i6 n (by rw [hq]; exact List.mem_cons_self)
      have hall := hi.all
      rw [hq] at hall
      have h0 : ¬ (w.nodes.st []).engine = none := by rw [i1]; simp
      simp only
      unfold World.handle
      rw [if_neg h0]
      show Inv t (some q) (match matchName w.pre t n with | none => _ | some (a, _) => _) L
      cases hm : matchName w.pre t n with
      | none =>
        refine ⟨hi.calm, (fun h => by cases h), ?_, ?_, hi.right, ?_⟩
        · intro p e h
          injection h with h
          subst h
          exact ⟨i1, i2, i3, i4, i5, fun n' hn' => i6 n' (by rw [hq]; exact List.mem_cons_of_mem _ hn')⟩
        · refine List.Perm.trans ?_ hall
          simp
        · intro n' hn'
          rcases List.mem_append.mp hn' with h | h
          · exact hi.lost n' h
          · rw [List.mem_singleton] at h; subst h; exact ⟨q.1, hn, by rw [← i3]; exact hm⟩
      | some am =>
        obtain ⟨a, m⟩ := am
        refine ⟨hi.calm, (fun h => by cases h), ?_, ?_, ?_, hi.lost⟩
        · intro p e h
          injection h with h
          subst h
          exact ⟨i1, i2, i3, i4, i5, fun n' hn' => i6 n' (by rw [hq]; exact List.mem_cons_of_mem _ hn')⟩
        · refine List.Perm.trans ?_ hall
          simp only [List.map_append, List.map_cons, List.map_nil, List.append_assoc, List.cons_append, List.nil_append]
          refine List.Perm.append_left _ ?_
          exact List.perm_middle.symm
        · intro n' a' hn'
          rcases List.mem_append.mp hn' with h | h
          · exact hi.right n' a' h
          · rw [List.mem_singleton] at h; injection h with h1 h2; subst h1 h2; exact ⟨q.1, m, hn, by rw [← i3]; exact hm⟩

theorem inv_other {t : STree} {w : World} {c : Option (Name × Nat)} {L : List (Name × Name)} (e : Nat) (p : Name) (hi : Inv t c w L) :
    Inv t c (w.step t (.other e p)) L := by
  unfold World.step
  simp only
  split
  · exact hi
  · have hmem : ∀ i r, r ∈ (w.setFib e (⟨p, false⟩ :: w.fib e)).fib i → r.mine = true → r ∈ w.fib i := by
      intro i r hr hm
      have hr' : r ∈ (if i = e then ⟨p, false⟩ :: w.fib e else w.fib i) := hr
      split at hr'
      · rename_i hie
        subst hie
        rcases List.mem_cons.mp hr' with rfl | h
        · cases hm
        · exact h
      · exact hr'
    refine ⟨hi.calm, ?_, ?_, hi.all, hi.right, hi.lost⟩
    · intro hc
      obtain ⟨o1, o2, o3⟩ := hi.out hc
      refine ⟨o1, o2, fun i r hr => ?_⟩
      cases hm : r.mine with
      | false => rfl
      | true => rw [o3 i r (hmem i r hr hm)] at hm; cases hm
    · intro q e' hc
      obtain ⟨i1, i2, i3, i4, i5, i6⟩ := hi.inn q e' hc
      refine ⟨i1, i2, i3, ?_, fun i r hr hm => i5 i r (hmem i r hr hm) hm, i6⟩
      show _ ∈ (if e' = e then _ else _)
      split
      · rename_i h; subst h; exact List.mem_cons_of_mem _ i4
      · exact i4

theorem inv_all (t : STree) (hs : List Happen) : ∀ (c : Option (Name × Nat)) (w : World) (L : List (Name × Name)), Inv t c w L → Orderly t c w hs →
    ∃ c', Inv t c' (World.runAll t w hs) (L ++ handed c hs) := by
  induction hs with
  | nil => intro c w L hi _; exact ⟨c, by simpa [handed, World.runAll] using hi⟩
  | cons h hs ih =>
    intro c w L hi ho
    have hrun : World.runAll t w (h :: hs) = World.runAll t (w.step t h) hs := by rw [World.runAll, hi.calm]; rfl
    rw [hrun]
    obtain ⟨ho1, ho2⟩ := ho
    cases h with
    | attach out grow p e =>
      obtain ⟨x1, x2, x3⟩ := ho1
      subst x2
      exact ih _ _ L (inv_attach hi x1 x3) ho2
    | detach =>
      have hh : handed c (.detach :: hs) = handed none hs := by cases c <;> rfl
      rw [hh]
      exact ih _ _ L (inv_detach hi ho1) ho2
    | run =>
      have hh : handed c (.run :: hs) = handed c hs := by cases c <;> rfl
      rw [hh]
      exact ih _ _ L (inv_run hi) ho2
    | other e p =>
      have hh : handed c (.other e p :: hs) = handed c hs := by cases c <;> rfl
      rw [hh]
      exact ih _ _ L (inv_other e p hi) ho2
    | arrive e n =>
      cases c with
      | none =>
        obtain ⟨o1, o2, o3⟩ := hi.out rfl
        have hno : (w.fib e).any (fun r => r.mine && r.pre.isPrefix n) = false := by
          rw [List.any_eq_false]
          intro r hr
          rw [o3 e r hr]; simp
        have hst : w.step t (.arrive e n) = w := by unfold World.step; simp only [hno]; rfl
        rw [hst]
        rw [hst] at ho2
        exact ih none w L hi ho2
      | some q =>
        obtain ⟨p, e0⟩ := q
        obtain ⟨i1, i2, i3, i4, i5, i6⟩ := hi.inn p e0 rfl
        rw [handed]
        by_cases hpe : e0 = e ∧ p <+: n
        · rw [if_pos hpe]
          have hyes : (w.fib e).any (fun r => r.mine && r.pre.isPrefix n) = true := by
            rw [List.any_eq_true]
            exact ⟨⟨p, true⟩, hpe.1 ▸ i4, by simpa using (Name.isPrefix_iff p n).mpr hpe.2⟩
          have hst : w.step t (.arrive e n) = { w with waiting := w.waiting ++ [n] } := by unfold World.step; simp only [hyes]; rfl
          rw [hst]
          rw [hst] at ho2
          rw [show L ++ (p, n) :: handed (some (p, e0)) hs = (L ++ [(p, n)]) ++ handed (some (p, e0)) hs by simp]
          refine ih (some (p, e0)) _ (L ++ [(p, n)]) ⟨hi.calm, (fun h => by cases h), ?_, ?_, ?_, ?_⟩ ho2
          · intro p' e' h
            injection h with h; injection h with h1 h2
            subst h1 h2
            refine ⟨i1, i2, i3, i4, i5, fun n' hn' => ?_⟩
            rcases List.mem_append.mp hn' with h | h
            · exact List.mem_append_left _ (i6 n' h)
            · rw [List.mem_singleton] at h; subst h; exact List.mem_append_right _ List.mem_cons_self
          · simp only [List.map_append, List.map_cons, List.map_nil]
            rw [← List.append_assoc]
            exact List.Perm.append_right _ hi.all
          · intro n' a h
            obtain ⟨p', m, h1, h2⟩ := hi.right n' a h
            exact ⟨p', m, List.mem_append_left _ h1, h2⟩
          · intro n' h
            obtain ⟨p', h1, h2⟩ := hi.lost n' h
            exact ⟨p', List.mem_append_left _ h1, h2⟩
        · rw [if_neg hpe]
          have hno : (w.fib e).any (fun r => r.mine && r.pre.isPrefix n) = false := by
            rw [List.any_eq_false]
            intro r hr hx
            simp only [Bool.and_eq_true] at hx
            obtain ⟨z1, z2⟩ := i5 e r hr hx.1
            exact hpe ⟨z1.symm, z2 ▸ (Name.isPrefix_iff _ n).mp hx.2⟩
          have hst : w.step t (.arrive e n) = w := by unfold World.step; simp only [hno]; rfl
          rw [hst]
          rw [hst] at ho2
          exact ih (some (p, e0)) w L hi ho2

/-- C79, a whole life: along every orderly history, with any other handlers around, nothing panics; every Interest that arrives under the
tree's prefix while it is attached is delivered to the node it matches, dropped if there is none, or still waits for the lock, and
nothing else is delivered. -/
theorem C79_history_partial (t : STree) (hs : List Happen) (ho : Orderly t none {} hs) :
    let w := World.runAll t {} hs
    w.panicked = false ∧ (w.delivered.map (·.1) ++ w.dropped ++ w.waiting).Perm ((handed none hs).map (·.2)) ∧
    (∀ n a, (n, a) ∈ w.delivered → ∃ p m, (p, n) ∈ handed none hs ∧ matchName p t n = some (a, m)) ∧
    (∀ n, n ∈ w.dropped → ∃ p, (p, n) ∈ handed none hs ∧ matchName p t n = none) := by
  obtain ⟨c', hi⟩ := inv_all t hs none {} [] ⟨rfl, fun _ => ⟨rfl, rfl, fun i r h => by cases h⟩, (fun _ _ h => by cases h), .refl _,
    (fun _ _ h => by cases h), (fun _ h => by cases h)⟩ ho
  rw [List.nil_append] at hi
  exact ⟨hi.calm, hi.all, hi.right, hi.lost⟩

/-- C79 fails: an Interest that the engine has handed over but that has not got the lock when the tree is detached makes the process panic,
for every tree, prefix and Interest. -/
theorem C79_late_interest_panics (t : STree) (p name : Name) (e : Nat) (grow : Nat → Nat) (h : p <+: name) :
    (World.runAll t {} [.attach (fun _ => .fine) grow p e, .arrive e name, .detach, .run]).panicked = true := by
  obtain ⟨w1, -, h1, -, h3, h4, -, -, h7⟩ := C79_attach t (fun _ => .fine) grow p e {} (fun _ => by simp) rfl
  have hcalm : w1.panicked = false ∧ w1.waiting = [] := by
    obtain ⟨m', s', he, -⟩ := attach_nodes t (fun _ => .fine) grow p e ({} : World).nodes (fun _ => by simp)
    unfold World.attach at h1
    simp only [he] at h1
    injection h1 with _ h1
    rw [← h1]
    exact ⟨rfl, rfl⟩
  have hs1 : ({} : World).step t (.attach (fun _ => .fine) grow p e) = w1 := by unfold World.step; simp only [h1]
  have hany : (w1.fib e).any (fun r => r.mine && r.pre.isPrefix name) = true := by
    rw [h7 e, if_pos rfl]
    simp [(Name.isPrefix_iff p name).mpr h]
  have hs2 : w1.step t (.arrive e name) = { w1 with waiting := [name] } := by
    unfold World.step; simp only [hany, if_true, hcalm.2, List.nil_append]
  have hd := (C79_detach t { w1 with waiting := [name] } e h4).1 [] (by rw [at_nil]; rfl)
  have hdw : (World.detach t { w1 with waiting := [name] }).waiting = [name] ∧ (World.detach t { w1 with waiting := [name] }).panicked = false := by
    unfold World.detach; simp only [h4]; exact ⟨rfl, hcalm.1⟩
  have hs3 : World.step t { w1 with waiting := [name] } .detach = World.detach t { w1 with waiting := [name] } := rfl
  generalize hw2 : ({ w1 with waiting := [name] } : World) = w2 at *
  have hw2c : w2.panicked = false := by rw [← hw2]; exact hcalm.1
  simp only [World.runAll, hs1, hs2, hs3, hcalm.1, hw2c, hdw.2, Bool.false_eq_true, if_false]
  unfold World.step
  simp only [hdw.1, World.handle, hd, if_true]

/-- C79 fails: when the engine refuses the prefix, `Attach` reports an error, but every node stays attached and every attach event has been
fired; a `Detach` afterwards does nothing. -/
theorem C79_refused_violated (t : STree) (out : Addr → Out) (grow : Nat → Nat) (p : Name) (e : Nat) (w : World) (hp : ∀ b, out b ≠ .panic)
    (hf : comparable (w.fib e) p = true) (hw : w.engine = none) :
    ∃ w' order, w.attach t out grow p e = (false, w') ∧ Placed t p e w'.nodes ∧ w'.nodes.fired = w.nodes.fired ++ order.map Fired.attach ∧
      ChildrenFirst t order ∧ w'.detach t = w' := by
  obtain ⟨m', s', he, h1, -, h3⟩ := attach_nodes t out grow p e w.nodes hp
  refine ⟨{ w with pre := p, nodes := s' }, post [] t, by unfold World.attach; simp only [he, hf, if_true], h1, h3, post_childrenFirst t, ?_⟩
  unfold World.detach
  simp only [hw]

example : comparable (({ fib := fun _ => [⟨[⟨8, [97]⟩], false⟩] } : World).fib 0) [⟨8, [97]⟩, ⟨8, [98]⟩] = true := by decide

mutual
theorem onAttach_deaf (out : Addr → Out) (grow : Nat → Nat) (e : Nat) (hp : ∀ b, out b ≠ .panic) (a : Addr) (t : STree) (m : Mem CompPat) (path : Slice)
    (s : Nodes) : onAttach out grow e a t m path s = onAttach (fun _ => .fine) grow e a t m path s := by
  cases t with
  | node chd =>
    rw [onAttach, onAttach, onAttachAll_deaf out grow e hp a 0 chd]
    have h1 : (out a == Out.panic) = false := by simpa using hp a
    have h2 : (Out.fine == Out.panic) = false := rfl
    simp only [h1, h2]
theorem onAttachAll_deaf (out : Addr → Out) (grow : Nat → Nat) (e : Nat) (hp : ∀ b, out b ≠ .panic) (a : Addr) (i : Nat) (chd : List (CompPat × STree))
    (m : Mem CompPat) (path : Slice) (s : Nodes) :
    onAttachAll out grow e a i chd m path s = onAttachAll (fun _ => .fine) grow e a i chd m path s := by
  cases chd with
  | nil => rw [onAttachAll, onAttachAll]
  | cons ct rest =>
    obtain ⟨c, t⟩ := ct
    rw [onAttachAll, onAttachAll, onAttach_deaf out grow e hp (a ++ [i]) t]
    simp only [onAttachAll_deaf out grow e hp a (i + 1) rest]
end

/-- C79 fails: an error from a listener of an attach event is never reported: `Attach` does what it would do without it. -/
theorem C79_error_violated (t : STree) (out : Addr → Out) (grow : Nat → Nat) (p : Name) (e : Nat) (w : World) (hp : ∀ b, out b ≠ .panic) :
    w.attach t out grow p e = w.attach t (fun _ => .fine) grow p e := by
  unfold World.attach
  simp only [onAttach_deaf out grow e hp]

/-- C79 fails: `Detach` does not forget the engine.  A second call fires all detach events again, and removes the handler that another part of
the program has attached at the prefix in the meantime. -/
theorem C79_detach_twice_violated (t : STree) (w : World) (p : Name) (e : Nat) (he : w.engine = some e) (hp : w.pre = p)
    (hc : ∀ r ∈ w.fib e, r.pre ≠ p → ¬ (r.pre <+: p) ∧ ¬ (p <+: r.pre)) :
    let w1 := (w.detach t).step t (.other e p)
    ⟨p, false⟩ ∈ w1.fib e ∧ (∀ r, r ∈ (w1.detach t).fib e → r.pre ≠ p) ∧
    ∃ l1 l2, (w1.detach t).nodes.fired = w.nodes.fired ++ l1.map Fired.detach ++ l2.map Fired.detach ∧ ParentsFirst t l1 ∧ ParentsFirst t l2 := by
  subst hp
  obtain ⟨-, ⟨l1, f1, o1⟩, h3⟩ := C79_detach t w e he
  have hde : (w.detach t).engine = some e ∧ (w.detach t).pre = w.pre := by
    unfold World.detach; simp only [he]; exact ⟨he, rfl⟩
  have hno : comparable ((w.detach t).fib e) w.pre = false := by
    unfold comparable
    rw [List.any_eq_false]
    intro r hr hx
    obtain ⟨r1, r2⟩ := (h3 e r).mp hr
    have r3 : r.pre ≠ w.pre := fun h => r2 ⟨rfl, h⟩
    obtain ⟨c1, c2⟩ := hc r r1 r3
    rw [Bool.or_eq_true] at hx
    rcases hx with hx | hx
    · exact c1 ((Name.isPrefix_iff _ _).mp hx)
    · exact c2 ((Name.isPrefix_iff _ _).mp hx)
  have hst : (w.detach t).step t (.other e w.pre) = (w.detach t).setFib e (⟨w.pre, false⟩ :: (w.detach t).fib e) := by
    unfold World.step; simp only [hno]; rfl
  simp only [hst]
  have he' : ((w.detach t).setFib e (⟨w.pre, false⟩ :: (w.detach t).fib e)).engine = some e := hde.1
  obtain ⟨-, ⟨l2, f2, o2⟩, h6⟩ := C79_detach t _ e he'
  refine ⟨?_, ?_, l1, l2, ?_, o1, o2⟩
  · show _ ∈ (if e = e then _ else _)
    rw [if_pos rfl]; exact List.mem_cons_self
  · intro r hr hrp
    exact ((h6 e r).mp hr).2 ⟨rfl, by rw [hrp]; exact hde.2.symm⟩
  · rw [f2]
    show (w.detach t).nodes.fired ++ _ = _
    rw [f1]

/-- C79 fails: a tree attached at a second prefix without being detached answers no Interest under the first one, though its handler stays
there, and `Detach` leaves that handler behind. -/
theorem C79_moved_violated (t : STree) (p q : Name) (e : Nat) (grow : Nat → Nat) (h1 : ¬ p <+: q) (h2 : ¬ q <+: p) :
    let w := World.runAll t {} [.attach (fun _ => .fine) grow p e, .attach (fun _ => .fine) grow q e]
    w.fib e = [⟨q, true⟩, ⟨p, true⟩] ∧ (∀ n, p <+: n → matchName w.pre t n = none) ∧ (w.detach t).fib e = [⟨p, true⟩] := by
  obtain ⟨w1, -, a1, -, -, -, -, -, a7⟩ := C79_attach t (fun _ => .fine) grow p e {} (fun _ => by simp) rfl
  have hf1 : w1.fib e = [⟨p, true⟩] := by rw [a7 e, if_pos rfl]
  have hn1 : p.isPrefix q = false := by rw [Bool.eq_false_iff]; exact fun h => h1 ((Name.isPrefix_iff _ _).mp h)
  have hn2 : q.isPrefix p = false := by rw [Bool.eq_false_iff]; exact fun h => h2 ((Name.isPrefix_iff _ _).mp h)
  have hcmp : comparable (w1.fib e) q = false := by rw [hf1]; simp [comparable, hn1, hn2]
  obtain ⟨w2, -, b1, -, b3, b4, -, -, b7⟩ := C79_attach t (fun _ => .fine) grow q e w1 (fun _ => by simp) hcmp
  have hp1 : w1.panicked = false := by
    obtain ⟨m', s', he, -⟩ := attach_nodes t (fun _ => .fine) grow p e ({} : World).nodes (fun _ => by simp)
    unfold World.attach at a1
    simp only [he] at a1
    injection a1 with _ a1
    rw [← a1]; rfl
  have hs1 : ({} : World).step t (.attach (fun _ => .fine) grow p e) = w1 := by unfold World.step; simp only [a1]
  have hs2 : w1.step t (.attach (fun _ => .fine) grow q e) = w2 := by unfold World.step; simp only [b1]
  have hw : World.runAll t {} [.attach (fun _ => .fine) grow p e, .attach (fun _ => .fine) grow q e] = w2 := by
    simp only [World.runAll, hs1, hs2, hp1, Bool.false_eq_true, if_false]
  simp only [hw]
  have hf2 : w2.fib e = [⟨q, true⟩, ⟨p, true⟩] := by rw [b7 e, if_pos rfl, hf1]
  have hqp : p ≠ q := fun h => h1 (h ▸ List.prefix_rfl)
  refine ⟨hf2, ?_, ?_⟩
  · intro n hn
    rw [b3]
    have hq : q.isPrefix n = false := by
      rw [Bool.eq_false_iff]
      intro h
      rcases List.prefix_or_prefix_of_prefix hn ((Name.isPrefix_iff _ _).mp h) with h | h
      · exact h1 h
      · exact h2 h
    have hq0 : q.length > 0 := by
      rcases Nat.eq_zero_or_pos q.length with h | h
      · exact absurd (by rw [List.length_eq_zero_iff.mp h]; exact List.nil_prefix) h2
      · exact h
    unfold matchName
    simp only [hq0, hq, if_true]
    rfl
  · unfold World.detach
    simp only [b4]
    show (if e = e then _ else _) = _
    rw [if_pos rfl, hf2, b3]
    simp [hqp]

/-! A tree of two children, one of a component and one of a pattern. -/

def exTree79 : STree := .node [(.comp ⟨8, [97]⟩, .node []), (.pat 8 [116], .node [(.comp ⟨8, [98]⟩, .node [])])]

example : Orderly exTree79 none {} [.attach (fun _ => .fine) (fun _ => 3) [⟨8, [112]⟩] 0, .arrive 0 [⟨8, [112]⟩, ⟨8, [97]⟩], .run, .detach,
    .attach (fun b => if b = [1] then .error else .fine) (fun _ => 0) [⟨8, [113]⟩] 1] := by
  refine ⟨⟨fun _ => by simp, rfl, by decide +kernel⟩, trivial, trivial, ?_, ⟨fun b => ?_, rfl, by decide +kernel⟩, trivial⟩
  · show _ = _
    decide +kernel
  · show (if b = [1] then Out.error else Out.fine) ≠ .panic
    split <;> simp

example : (World.runAll exTree79 {} [.attach (fun _ => .fine) (fun _ => 3) [⟨8, [112]⟩] 0, .arrive 0 [⟨8, [112]⟩, ⟨8, [97]⟩], .run]).delivered =
    [([⟨8, [112]⟩, ⟨8, [97]⟩], [0])] := by decide +kernel

end Ndn.Schema
