import Verif.Schema.BuildProps
import Verif.Schema.Hooks

/-! # Properties of policies in a schema tree: C87 -/

namespace Ndn.Schema
open DTree

/-! ## Specification -/

/-- the path and the description of the node at an address -/
def view {δ : Type} (t : DTree δ) (b : Addr) : Option (NamePattern × δ) := (t.get b).map fun q => (q.1, q.2.desc)

/-- the address to which a path leads: at each node the first child with the edge -/
def locate {δ : Type} : DTree δ → NamePattern → Option Addr
  | _, [] => some []
  | t, e :: es =>
    match DTree.find e t.chd with
    | none => none
    | some (j, c) => (locate c es).map (j :: ·)

/-- which method of a policy is meant to listen to which event -/
def wants : Pol → Evt → Option Fn
  | .register true _, .attach => some .onAttach
  | .sha256, .dataSigner => some .onGetDataSigner
  | .sha256, .validateData => some .onValidateData
  | .hmac _, .dataSigner => some .onGetDataSigner
  | .hmac _, .validateData => some .onValidateData
  | .hmacInt _, .attach => some .onAttach
  | .hmacInt _, .intSigner => some .onGetIntSigner
  | .hmacInt _, .validateInt => some .onValidateInt
  | .signedBy _ _, .attach => some .onAttach
  | .signedBy _ _, .dataSigner => some .onGetDataSigner
  | .signedBy _ _, .validateData => some .onValidateData
  | .memStorage, .attach => some .onAttach
  | .memStorage, .search => some .onSearch
  | .memStorage, .save => some .onSave
  | .keyStorage _, .attach => some .onAttach
  | .keyStorage _, .search => some .onSearch
  | .keyStorage _, .save => some .onSave
  | _, _ => none

/-- a storage is for the whole subtree -/
def Pol.deep : Pol → Bool
  | .memStorage => true
  | .keyStorage _ => true
  | _ => false

/-- whether a policy put at a path is meant for the node at `b` -/
def covers (t : DTree HNode) (x : NamePattern × Pol) (b : Addr) : Bool :=
  match locate t x.1 with
  | none => false
  | some a => if x.2.deep then a.isPrefixOf b else a == b

/-- the listeners that the policies, numbered from `i`, give to an event of the node at `b` -/
def added (t : DTree HNode) (b : Addr) (c : Cls) (e : Evt) : Nat → List (NamePattern × Pol) → List Lst
  | _, [] => []
  | i, x :: xs =>
    (if c.has e && covers t x b then ((wants x.2 e).map (Lst.pol i)).toList else []) ++ added t b c e (i + 1) xs

/-- what a policy asks of the node it is put at: a key, and something to validate -/
def Pol.allowed (p : Pol) (c : Cls) : Prop :=
  match p with
  | .sha256 => c = .express ∨ c = .leaf
  | .hmac key => key ≠ [] ∧ (c = .express ∨ c = .leaf)
  | .hmacInt key => key ≠ [] ∧ (c = .express ∨ c = .leaf)
  | .signedBy _ _ => c = .express ∨ c = .leaf
  | _ => True

/-- what the attach event of a policy needs: a name that can be made and that the forwarder takes, a key store, a path to a node -/
def Pol.attachable (env : AttachEnv) (a : Addr) (p : Pol) : Prop :=
  match p with
  | .register _ m => ∃ n, Ndn.Schema.apply env.pre env.root.toS a m = some (some n) ∧ env.route n = true
  | .keyStorage st => st = true
  | .signedBy st q => st = true ∧ ∃ q', q = some q' ∧ env.root.at' q' ≠ none
  | _ => True

/-- what the policy number `i` needs for its work, after the attach event of the node at `a` -/
def Pol.ready (env : AttachEnv) (a : Addr) (i : Nat) (s : PolSt) (p : Pol) : Prop :=
  match p with
  | .register _ m => ∃ n, Ndn.Schema.apply env.pre env.root.toS a m = some (some n) ∧ n ∈ s.routes
  | .memStorage => s.timer i = true
  | .hmacInt _ => s.signer i = true
  | .keyStorage st => st = true
  | .signedBy _ q => ∃ q', q = some q' ∧ s.keyNode i = some q' ∧ env.root.at' q' ≠ none
  | _ => True

/-- the route that a policy at a path registers -/
def regName (env : AttachEnv) (t : DTree HNode) (x : NamePattern × Pol) : Option Name :=
  match x.2 with
  | .register true m => (locate t x.1).bind fun a => (Ndn.Schema.apply env.pre env.root.toS a m).bind id
  | _ => none

/-! ## Lemmas -/

theorem view_nil {δ : Type} (t : DTree δ) : view t [] = some ([], t.desc) := by simp [view, DTree.get]

theorem view_cons {δ : Type} (t : DTree δ) (i : Nat) (b : Addr) :
    view t (i :: b) = (t.chd[i]?).bind fun p => (view p.2 b).map fun q => (p.1 :: q.1, q.2) := by
  unfold view
  rw [DTree.get_cons]
  cases t.chd[i]? with
  | none => rfl
  | some p => simp only [Option.bind_some, Option.map_map]; rfl

theorem applyStorageAll_eq (i : Nat) (chd : List (CompPat × DTree HNode)) :
    applyStorageAll i chd = chd.map fun p => (p.1, applyStorage i p.2) := by
  induction chd with
  | nil => rfl
  | cons p rest ih => rw [applyStorageAll, ih]; rfl

theorem applyStorage_desc (i : Nat) (t : DTree HNode) : (applyStorage i t).desc = storageNode i t.desc := by
  cases t; rw [applyStorage]; rfl

theorem applyStorage_chd (i : Nat) (t : DTree HNode) : (applyStorage i t).chd = t.chd.map fun p => (p.1, applyStorage i p.2) := by
  cases t; rw [applyStorage, DTree.chd, applyStorageAll_eq]; rfl

theorem view_storage (i : Nat) (b : Addr) : ∀ t : DTree HNode, view (applyStorage i t) b = (view t b).map fun q => (q.1, storageNode i q.2) := by
  induction b with
  | nil => intro t; rw [view_nil, view_nil, applyStorage_desc]; rfl
  | cons k b ih =>
    intro t
    rw [view_cons, view_cons, applyStorage_chd, List.getElem?_map]
    cases t.chd[k]? with
    | none => rfl
    | some p => simp only [Option.map_some, Option.bind_some, ih, Option.map_map]; rfl

/-- the node with listeners added as wanted -/
def HNode.plus (d : HNode) (f : Evt → List Lst) : HNode := ⟨d.cls, fun e => d.ls e ++ f e⟩

/-- the listeners one policy adds -/
def one (i : Nat) (p : Pol) (c : Cls) (e : Evt) : List Lst := if c.has e then ((wants p e).map (Lst.pol i)).toList else []

theorem HNode.addIf_ls (d : HNode) (e : Evt) (l : Lst) : d.addIf e l = d.plus fun e' => if d.cls.has e && e' = e then [l] else [] := by
  unfold HNode.addIf HNode.getEvent HNode.plus HNode.add
  cases h : d.cls.has e
  · simp
  · simp only [if_true, Bool.true_and]
    congr 1
    funext e'
    by_cases he : e' = e
    · subst he; simp
    · simp [he]

theorem HNode.addMust_ls (d : HNode) (e : Evt) (l : Lst) :
    d.addMust e l = if d.cls.has e then some (d.plus fun e' => if e' = e then [l] else []) else none := by
  unfold HNode.addMust HNode.getEvent HNode.plus HNode.add
  cases h : d.cls.has e
  · simp
  · simp only [if_true]
    congr 2
    funext e'
    by_cases he : e' = e
    · subst he; simp
    · simp [he]

theorem HNode.plus_plus (d : HNode) (f g : Evt → List Lst) : (d.plus f).plus g = d.plus fun e => f e ++ g e := by
  unfold HNode.plus; congr 1; funext e; exact List.append_assoc _ _ _

theorem HNode.plus_cls (d : HNode) (f : Evt → List Lst) : (d.plus f).cls = d.cls := rfl

theorem HNode.plus_congr (d : HNode) {f g : Evt → List Lst} (h : ∀ e, f e = g e) : d.plus f = d.plus g := by
  rw [show f = g from funext h]

theorem storageNode_eq (i : Nat) (d : HNode) (p : Pol) (hp : p.deep = true) : storageNode i d = d.plus (one i p d.cls) := by
  unfold storageNode
  rw [HNode.addIf_ls, HNode.addIf_ls, HNode.addIf_ls, HNode.plus_plus, HNode.plus_plus]
  apply HNode.plus_congr
  intro e
  simp only [HNode.plus_cls]
  cases p <;> first | (simp [Pol.deep] at hp; done) | (obtain ⟨c, ls⟩ := d; cases c <;> cases e <;> simp [Cls.has, one, wants])

theorem applyNode_eq (i : Nat) (p : Pol) (d : HNode) (hp : p.deep = false) :
    (p.applyNode i d = some (d.plus (one i p d.cls)) ∧ p.allowed d.cls) ∨ (p.applyNode i d = none ∧ ¬p.allowed d.cls) := by
  cases p with
  | memStorage => exact absurd hp (by decide)
  | keyStorage s => simp [Pol.deep] at hp
  | register on m =>
    left
    refine ⟨?_, trivial⟩
    simp only [Pol.applyNode]
    cases on
    · simp only [Bool.false_eq_true, if_false]
      congr 1
      unfold HNode.plus one
      cases d with
      | mk c ls => congr 1; funext e; cases e <;> simp [wants]
    · simp only [if_true]
      rw [HNode.addMust_ls]
      simp only [Cls.has, if_true]
      congr 1
      apply HNode.plus_congr
      intro e
      cases e <;> simp [one, wants, Cls.has]
  | sha256 =>
    simp only [Pol.applyNode]
    rw [HNode.addIf_ls, HNode.addMust_ls, HNode.plus_plus]
    simp only [HNode.plus_cls]
    obtain ⟨c, ls⟩ := d
    cases c <;> simp only [Cls.has, Pol.allowed] <;> first
      | (right; constructor <;> simp; done)
      | (left; refine ⟨?_, by simp⟩; simp only [BEq.rfl, Bool.or_true, Bool.true_or, if_true]
         congr 1; apply HNode.plus_congr; intro e; cases e <;> simp [one, wants, Cls.has])
  | hmac key =>
    simp only [Pol.applyNode]
    cases key with
    | nil => right; simp [Pol.allowed]
    | cons k ks =>
    rw [if_neg (by simp : ¬(k :: ks).length = 0)]
    rw [HNode.addIf_ls, HNode.addMust_ls, HNode.plus_plus]
    simp only [HNode.plus_cls]
    obtain ⟨c, ls⟩ := d
    cases c <;> simp only [Cls.has, Pol.allowed] <;> first
      | (right; constructor <;> simp; done)
      | (left; refine ⟨?_, by simp⟩; simp only [BEq.rfl, Bool.or_true, Bool.true_or, if_true]
         congr 1; apply HNode.plus_congr; intro e; cases e <;> simp [one, wants, Cls.has])
  | hmacInt key =>
    simp only [Pol.applyNode]
    cases key with
    | nil => right; simp [Pol.allowed]
    | cons k ks =>
    rw [if_neg (by simp : ¬(k :: ks).length = 0)]
    rw [HNode.addIf_ls, HNode.addMust_ls, HNode.plus_plus]
    simp only [HNode.plus_cls]
    obtain ⟨c, ls⟩ := d
    cases c <;> simp only [Cls.has, Pol.allowed] <;> first
      | (right; constructor <;> simp; done)
      | (left; refine ⟨?_, by simp⟩; simp only [BEq.rfl, Bool.or_true, Bool.true_or, if_true]
         rw [HNode.addMust_ls, HNode.plus_plus]
         simp only [Cls.has, if_true]
         congr 1; apply HNode.plus_congr; intro e; cases e <;> simp [one, wants, Cls.has])
  | signedBy s q =>
    simp only [Pol.applyNode]
    rw [HNode.addIf_ls, HNode.addIf_ls, HNode.addMust_ls, HNode.plus_plus, HNode.plus_plus]
    simp only [HNode.plus_cls]
    obtain ⟨c, ls⟩ := d
    cases c <;> simp only [Cls.has, Pol.allowed] <;> first
      | (right; constructor <;> simp; done)
      | (left; refine ⟨?_, by simp⟩; simp only [BEq.rfl, Bool.or_true, Bool.true_or, if_true]
         congr 1; apply HNode.plus_congr; intro e; cases e <;> simp [one, wants, Cls.has])

theorem apply_none (i : Nat) (p : Pol) (t : DTree HNode) : p.apply i t = none ↔ ¬p.allowed t.desc.cls := by
  cases hp : p.deep
  · have h : p.apply i t = (p.applyNode i t.desc).map fun d => .node d t.chd := by
      cases p <;> first | rfl | (simp [Pol.deep] at hp; done)
    rw [h, Option.map_eq_none_iff]
    rcases applyNode_eq i p t.desc hp with ⟨h1, h2⟩ | ⟨h1, h2⟩
    · rw [h1]; exact ⟨fun h => (nomatch h), fun h => absurd h2 h⟩
    · exact ⟨fun _ => h2, fun _ => h1⟩
  · have h : p.apply i t = some (applyStorage i t) := by
      cases p <;> first | rfl | (simp [Pol.deep] at hp; done)
    rw [h]
    refine ⟨fun h => (nomatch h), fun h => absurd ?_ h⟩
    cases p <;> first | trivial | (simp [Pol.deep] at hp; done)

theorem apply_view {i : Nat} {p : Pol} {t t' : DTree HNode} (h : p.apply i t = some t') (b : Addr) :
    view t' b = (view t b).map fun q => (q.1, if p.deep || b == [] then q.2.plus (one i p q.2.cls) else q.2) := by
  cases hp : p.deep
  · have h' : p.apply i t = (p.applyNode i t.desc).map fun d => .node d t.chd := by
      cases p <;> first | rfl | (simp [Pol.deep] at hp; done)
    rw [h'] at h
    rcases applyNode_eq i p t.desc hp with ⟨h1, _⟩ | ⟨h1, _⟩
    · rw [h1] at h
      injection h with h
      subst h
      cases b with
      | nil => simp [view_nil, DTree.desc]
      | cons k b =>
        rw [view_cons, view_cons]
        simp only [DTree.chd, Bool.false_or]
        cases t with
        | node d chd => simp
    · rw [h1] at h; exact (nomatch h)
  · have h' : p.apply i t = some (applyStorage i t) := by
      cases p <;> first | rfl | (simp [Pol.deep] at hp; done)
    rw [h'] at h
    injection h with h
    subst h
    rw [view_storage]
    simp only [Bool.true_or, if_true]
    congr 1
    funext q
    rw [storageNode_eq i q.2 p hp]

/-- the same paths at the same addresses -/
def SamePaths (t t' : DTree HNode) : Prop := ∀ b, (view t' b).map (·.1) = (view t b).map (·.1)

theorem SamePaths.child {t t' : DTree HNode} (h : SamePaths t t') (k : Nat) :
    (t.chd[k]? = none ∧ t'.chd[k]? = none) ∨ ∃ e c c', t.chd[k]? = some (e, c) ∧ t'.chd[k]? = some (e, c') ∧ SamePaths c c' := by
  have h0 := h [k]
  rw [view_cons, view_cons] at h0
  cases h1 : t.chd[k]? with
  | none =>
    left
    rw [h1] at h0
    cases h2 : t'.chd[k]? with
    | none => exact ⟨rfl, rfl⟩
    | some p => rw [h2] at h0; simp [view_nil] at h0
  | some p =>
    cases h2 : t'.chd[k]? with
    | none => rw [h1, h2] at h0; simp [view_nil] at h0
    | some p' =>
      right
      rw [h1, h2] at h0
      simp only [Option.bind_some, view_nil, Option.map_some, Option.some.injEq, List.cons.injEq, and_true] at h0
      refine ⟨p.1, p.2, p'.2, rfl, by rw [← h0], fun b => ?_⟩
      have hb := h (k :: b)
      rw [view_cons, view_cons, h1, h2] at hb
      simp only [Option.bind_some, Option.map_map] at hb
      cases hx : view p'.2 b <;> cases hy : view p.2 b <;> rw [hx, hy] at hb <;> simp at hb ⊢
      exact hb.2

theorem SamePaths.find {t t' : DTree HNode} (h : SamePaths t t') {e : CompPat} {j : Nat} {c : DTree HNode} (hf : DTree.find e t.chd = some (j, c)) :
    ∃ c', DTree.find e t'.chd = some (j, c') ∧ SamePaths c c' := by
  obtain ⟨h1, h2⟩ := find_some hf
  rcases h.child j with ⟨hn, _⟩ | ⟨e1, c1, c1', g1, g2, g3⟩
  · rw [hn] at h1; exact (nomatch h1)
  rw [g1] at h1
  injection h1 with h1; injection h1 with he hc
  subst he hc
  cases hf' : DTree.find e1 t'.chd with
  | none => exact absurd rfl (find_none.mp hf' (e1, c1') (List.mem_of_getElem? g2))
  | some q =>
    obtain ⟨j', c''⟩ := q
    obtain ⟨k1, k2⟩ := find_some hf'
    have hj : j' = j := by
      rcases Nat.lt_trichotomy j' j with hlt | heq | hgt
      · exfalso
        rcases h.child j' with ⟨_, hn⟩ | ⟨e2, c2, c2', m1, m2, _⟩
        · rw [hn] at k1; exact (nomatch k1)
        · rw [m2] at k1; injection k1 with k1; injection k1 with ke _
          exact h2 j' hlt _ m1 ke
      · exact heq
      · exact absurd rfl (k2 j hgt _ g2)
    subst hj
    rw [g2] at k1
    injection k1 with k1; injection k1 with _ kc
    subst kc
    exact ⟨_, rfl, g3⟩

theorem SamePaths.find_none {t t' : DTree HNode} (h : SamePaths t t') {e : CompPat} (hf : DTree.find e t.chd = none) : DTree.find e t'.chd = none := by
  cases hf' : DTree.find e t'.chd with
  | none => rfl
  | some q =>
    obtain ⟨j, c⟩ := q
    obtain ⟨c', h', _⟩ := SamePaths.find (t := t') (t' := t) (fun b => (h b).symm) hf'
    rw [hf] at h'; exact (nomatch h')

theorem SamePaths.locate (q : NamePattern) : ∀ {t t' : DTree HNode}, SamePaths t t' → Ndn.Schema.locate t' q = Ndn.Schema.locate t q := by
  induction q with
  | nil => intros; rfl
  | cons e es ih =>
    intro t t' h
    rw [Ndn.Schema.locate, Ndn.Schema.locate]
    cases hf : DTree.find e t.chd with
    | none => rw [h.find_none hf]
    | some r =>
      obtain ⟨j, c⟩ := r
      obtain ⟨c', h1, h2⟩ := h.find hf
      rw [h1]
      simp only [ih h2]

theorem locate_at (q : NamePattern) : ∀ (t : DTree HNode), (t.at' q = none ↔ locate t q = none) ∧
    ∀ a, locate t q = some a → ∃ n, t.at' q = some n ∧ t.get a = some (q, n) := by
  induction q with
  | nil => intro t; refine ⟨by simp [DTree.at', locate], fun a h => ?_⟩; injection h with h; subst h; exact ⟨t, by rw [DTree.at'], by rw [DTree.get]⟩
  | cons e es ih =>
    intro t
    rw [DTree.at_cons, locate]
    cases hf : DTree.find e t.chd with
    | none => exact ⟨⟨fun _ => rfl, fun _ => rfl⟩, fun a h => (nomatch h)⟩
    | some r =>
      obtain ⟨j, c⟩ := r
      obtain ⟨g1, g2⟩ := ih c
      simp only [Option.bind_some, Option.map_eq_none_iff]
      refine ⟨g1, fun a h => ?_⟩
      cases hl : locate c es with
      | none => rw [hl] at h; exact (nomatch h)
      | some a' =>
        rw [hl] at h
        injection h with h
        subst h
        obtain ⟨n, n1, n2⟩ := g2 a' hl
        refine ⟨n, n1, ?_⟩
        rw [DTree.get_cons, (find_some hf).1]
        simp [n2]

/-- whether a policy at `path` is meant for `b` -/
theorem applyAt_view {i : Nat} {p : Pol} (path : NamePattern) : ∀ {t t' : DTree HNode}, applyAt (p.apply i) t path = some t' → ∀ b : Addr,
    view t' b = (view t b).map fun q => (q.1, if covers t (path, p) b then q.2.plus (one i p q.2.cls) else q.2) := by
  induction path with
  | nil =>
    intro t t' h b
    rw [applyAt] at h
    rw [apply_view h]
    have hcov : covers t ([], p) b = (p.deep || b == []) := by
      simp only [covers, locate]
      cases p.deep
      · cases b <;> simp
      · simp
    rw [hcov]
  | cons e es ih =>
    intro t t' h b
    rw [applyAt] at h
    cases hf : DTree.find e t.chd with
    | none => rw [hf] at h; exact (nomatch h)
    | some r =>
      obtain ⟨j, c⟩ := r
      rw [hf] at h
      simp only at h
      cases ha : applyAt (p.apply i) c es with
      | none => rw [ha] at h; exact (nomatch h)
      | some c' =>
        rw [ha] at h
        injection h with h
        subst h
        have hcov : ∀ b, covers t (e :: es, p) b = match b with
            | [] => false
            | k :: b => j == k && covers c (es, p) b := by
          intro b
          simp only [covers, locate, hf]
          cases hl : locate c es with
          | none => cases b <;> simp
          | some a =>
            simp only [Option.map_some]
            cases b with
            | nil => simp
            | cons k b =>
              cases p.deep
              · simp
              · simp [List.isPrefixOf]
        cases b with
        | nil => rw [view_nil, view_nil, setChild_desc, hcov]; simp
        | cons k b =>
          rw [view_cons, view_cons, setChild_chd, hcov, List.getElem?_modify]
          by_cases hk : j = k
          · subst hk
            rw [(find_some hf).1]
            simp only [if_true, Option.map_eq_map, Option.map_some, Option.bind_some, ih ha b, Option.map_map, BEq.rfl, Bool.true_and]
            rfl
          · have hk' : (j == k) = false := by simp [hk]
            simp only [hk, hk', Bool.false_and, Bool.false_eq_true, if_false]
            cases t.chd[k]? with
            | none => rfl
            | some x => simp; rfl

theorem applyAt_none {i : Nat} {p : Pol} (path : NamePattern) : ∀ {t : DTree HNode}, applyAt (p.apply i) t path = none ↔
    ¬∃ a d, locate t path = some a ∧ view t a = some (path, d) ∧ p.allowed d.cls := by
  induction path with
  | nil =>
    intro t
    rw [applyAt, apply_none]
    constructor
    · rintro h ⟨a, d, h1, h2, h3⟩
      injection h1 with h1
      subst h1
      rw [view_nil] at h2
      injection h2 with h2; injection h2 with _ h2
      subst h2
      exact h h3
    · intro h h'
      exact h ⟨[], t.desc, rfl, view_nil t, h'⟩
  | cons e es ih =>
    intro t
    rw [applyAt]
    cases hf : DTree.find e t.chd with
    | none =>
      refine ⟨fun _ => ?_, fun _ => rfl⟩
      rintro ⟨a, d, h1, _⟩
      rw [locate, hf] at h1
      exact (nomatch h1)
    | some r =>
      obtain ⟨j, c⟩ := r
      simp only [Option.map_eq_none_iff]
      rw [ih]
      refine not_congr ⟨?_, ?_⟩
      · rintro ⟨a, d, h1, h2, h3⟩
        refine ⟨j :: a, d, ?_, ?_, h3⟩
        · rw [locate, hf]; simp [h1]
        · rw [view_cons, (find_some hf).1]; simp [h2]
      · rintro ⟨a, d, h1, h2, h3⟩
        rw [locate, hf] at h1
        simp only at h1
        cases hl : locate c es with
        | none => rw [hl] at h1; exact (nomatch h1)
        | some a' =>
          rw [hl] at h1
          injection h1 with h1
          subst h1
          rw [view_cons, (find_some hf).1] at h2
          simp only [Option.bind_some] at h2
          cases hv : view c a' with
          | none => rw [hv] at h2; exact (nomatch h2)
          | some q =>
            rw [hv] at h2
            simp only [Option.map_some, Option.some.injEq, Prod.mk.injEq, List.cons.injEq, true_and] at h2
            refine ⟨a', d, rfl, ?_, h3⟩
            rw [hv, ← h2.1, ← h2.2]

theorem applyAt_same {i : Nat} {p : Pol} {path : NamePattern} {t t' : DTree HNode} (h : applyAt (p.apply i) t path = some t') : SamePaths t t' := by
  intro b
  rw [applyAt_view path h]
  cases view t b <;> rfl

theorem covers_same {t t' : DTree HNode} (h : SamePaths t t') (x : NamePattern × Pol) (b : Addr) : covers t' x b = covers t x b := by
  unfold covers; rw [SamePaths.locate x.1 h]

theorem added_same {t t' : DTree HNode} (h : SamePaths t t') (b : Addr) (c : Cls) (e : Evt) (xs : List (NamePattern × Pol)) :
    ∀ i, added t' b c e i xs = added t b c e i xs := by
  induction xs with
  | nil => intro i; rfl
  | cons x xs ih => intro i; rw [added, added, covers_same h, ih]

theorem applyAll_view (ps : List (NamePattern × Pol)) : ∀ {i : Nat} {t t' : DTree HNode}, applyAll i t ps = some t' → ∀ b : Addr,
    view t' b = (view t b).map fun q => (q.1, q.2.plus fun e => added t b q.2.cls e i ps) := by
  induction ps with
  | nil =>
    intro i t t' h b
    injection h with h
    subst h
    cases view t b with
    | none => rfl
    | some q => simp [HNode.plus, added]
  | cons x xs ih =>
    intro i t t' h b
    rw [applyAll] at h
    cases ha : applyAt (x.2.apply i) t x.1 with
    | none => rw [ha] at h; exact (nomatch h)
    | some t1 =>
      rw [ha] at h
      rw [ih h b, applyAt_view x.1 ha]
      simp only [Option.map_map]
      congr 1
      funext q
      simp only [Function.comp]
      congr 1
      by_cases hc : covers t (x.1, x.2) b = true
      · rw [if_pos hc, HNode.plus_plus]
        simp only [HNode.plus_cls]
        apply HNode.plus_congr
        intro e
        rw [added, added_same (applyAt_same ha)]
        have hc' : covers t x b = true := hc
        simp only [hc', Bool.and_true, one]
      · rw [if_neg hc]
        apply HNode.plus_congr
        intro e
        rw [added, added_same (applyAt_same ha)]
        have hc' : covers t x b = false := by simpa using hc
        simp [hc']

/-! ### Attaching -/

mutual
/-- the listeners of the attach events with their nodes, in the order in which they are called if each returns nil: children first -/
def visits (a : Addr) : DTree HNode → List (Addr × Lst)
  | .node d chd => visitsAll a 0 chd ++ (d.ls .attach).map fun l => (a, l)
/-- those of the children from number `k` on -/
def visitsAll (a : Addr) (k : Nat) : List (CompPat × DTree HNode) → List (Addr × Lst)
  | [] => []
  | (_, t) :: rest => visits (a ++ [k]) t ++ visitsAll a (k + 1) rest
end

/-- all of them one after the other -/
def runSeq (env : AttachEnv) : List (Addr × Lst) → PolSt → Option PolSt
  | [], s => some s
  | (a, l) :: rest, s =>
    match l.run env a s with
    | none => none
    | some (_, s') => runSeq env rest s'

theorem runSeq_append (env : AttachEnv) (l1 l2 : List (Addr × Lst)) : ∀ s, runSeq env (l1 ++ l2) s = (runSeq env l1 s).bind (runSeq env l2) := by
  induction l1 with
  | nil => intro s; rfl
  | cons x rest ih =>
    obtain ⟨a, l⟩ := x
    intro s
    rw [List.cons_append, runSeq, runSeq]
    cases l.run env a s with
    | none => rfl
    | some r => exact ih _

theorem pol_ans {env : AttachEnv} {a : Addr} {i : Nat} {p : Pol} {s : PolSt} {r : Ans × PolSt} (h : p.onAttach env a i s = some r) : r.1 = .nil := by
  cases p with
  | register on m =>
    simp only [Pol.onAttach] at h
    split at h
    · split at h
      · injection h with h; subst h; rfl
      · exact (nomatch h)
    · exact (nomatch h)
  | signedBy st q =>
    simp only [Pol.onAttach] at h
    split at h
    · split at h
      · exact (nomatch h)
      · split at h
        · exact (nomatch h)
        · injection h with h; subst h; rfl
    · exact (nomatch h)
  | keyStorage st =>
    simp only [Pol.onAttach] at h
    split at h
    · injection h with h; subst h; rfl
    · exact (nomatch h)
  | memStorage => injection h with h; subst h; rfl
  | hmacInt k => injection h with h; subst h; rfl
  | sha256 => injection h with h; subst h; rfl
  | hmac k => injection h with h; subst h; rfl

theorem run_ans {env : AttachEnv} {a : Addr} {l : Lst} {s : PolSt} {r : Ans × PolSt} (hown : ∀ n, l = .own n → env.own n = some .nil)
    (h : l.run env a s = some r) : r.1 = .nil := by
  cases l with
  | own n =>
    rw [Lst.run, hown n rfl] at h
    injection h with h; subst h; rfl
  | pol i f =>
    cases f with
    | onAttach =>
      simp only [Lst.run] at h
      split at h
      · exact (nomatch h)
      · exact pol_ans h
    | _ => simp [Lst.run] at h

theorem attachLoop_seq (env : AttachEnv) (a : Addr) (ls : List Lst) (hown : ∀ n, .own n ∈ ls → env.own n = some .nil) :
    ∀ s, attachLoop env a ls s = runSeq env (ls.map fun l => (a, l)) s := by
  induction ls with
  | nil => intro s; rfl
  | cons l ls ih =>
    intro s
    rw [attachLoop, List.map_cons, runSeq]
    cases hr : l.run env a s with
    | none => rfl
    | some r =>
      have h1 := run_ans (fun n hn => hown n (hn ▸ List.mem_cons_self)) hr
      obtain ⟨r1, r2⟩ := r
      simp only at h1
      subst h1
      exact ih (fun n hn => hown n (List.mem_cons_of_mem _ hn)) r2

mutual
theorem attachNode_seq (env : AttachEnv) (a : Addr) (t : DTree HNode) (hown : ∀ b n, (b, Lst.own n) ∈ visits a t → env.own n = some .nil) (s : PolSt) :
    attachNode env a t s = runSeq env (visits a t) s := by
  match t with
  | .node d chd =>
    rw [attachNode, visits, runSeq_append]
    rw [visits] at hown
    rw [attachChildren_seq env a 0 chd (fun b n h => hown b n (List.mem_append_left _ h)) s]
    cases runSeq env (visitsAll a 0 chd) s with
    | none => rfl
    | some s1 =>
      exact attachLoop_seq env a _ (fun n hn => hown a n (List.mem_append_right _ (List.mem_map_of_mem hn))) s1
theorem attachChildren_seq (env : AttachEnv) (a : Addr) (k : Nat) (chd : List (CompPat × DTree HNode))
    (hown : ∀ b n, (b, Lst.own n) ∈ visitsAll a k chd → env.own n = some .nil) (s : PolSt) :
    attachChildren env a k chd s = runSeq env (visitsAll a k chd) s := by
  match chd with
  | [] => rw [attachChildren, visitsAll]; rfl
  | (e, t) :: rest =>
    rw [attachChildren, visitsAll, runSeq_append]
    rw [visitsAll] at hown
    rw [attachNode_seq env (a ++ [k]) t (fun b n h => hown b n (List.mem_append_left _ h)) s]
    cases runSeq env (visits (a ++ [k]) t) s with
    | none => rfl
    | some s1 => exact attachChildren_seq env a (k + 1) rest (fun b n h => hown b n (List.mem_append_right _ h)) s1
end

mutual
theorem mem_visits (a : Addr) (t : DTree HNode) (b : Addr) (l : Lst) :
    (b, l) ∈ visits a t ↔ ∃ b' q, b = a ++ b' ∧ view t b' = some q ∧ l ∈ q.2.ls .attach := by
  match t with
  | .node d chd =>
    rw [visits, List.mem_append, mem_visitsAll a 0 chd b l]
    constructor
    · rintro (⟨k, b', q, h1, h2, h3⟩ | h)
      · refine ⟨k :: b', q, by simpa using h1, ?_, h3⟩
        rw [view_cons]
        simp only [DTree.chd]
        cases hc : chd[k]? with
        | none => rw [hc] at h2; exact (nomatch h2)
        | some p =>
          rw [hc] at h2
          simp only [Option.bind_some] at h2 ⊢
          rw [h2]
      · rw [List.mem_map] at h
        obtain ⟨l', h1, h2⟩ := h
        injection h2 with h2 h3
        subst h2 h3
        exact ⟨[], ([], d), by simp, view_nil _, h1⟩
    · rintro ⟨b', q, h1, h2, h3⟩
      cases b' with
      | nil =>
        right
        rw [view_nil] at h2
        injection h2 with h2
        subst h2
        rw [List.append_nil] at h1
        subst h1
        exact List.mem_map_of_mem h3
      | cons k b' =>
        left
        rw [view_cons] at h2
        refine ⟨k, b', q, by simpa using h1, ?_, h3⟩
        simp only [DTree.chd] at h2
        exact h2
theorem mem_visitsAll (a : Addr) (k : Nat) (chd : List (CompPat × DTree HNode)) (b : Addr) (l : Lst) :
    (b, l) ∈ visitsAll a k chd ↔ ∃ j b' q, b = a ++ (k + j) :: b' ∧
      (chd[j]?.bind fun p => (view p.2 b').map fun q => (p.1 :: q.1, q.2)) = some q ∧ l ∈ q.2.ls .attach := by
  match chd with
  | [] =>
    rw [visitsAll]
    refine ⟨fun h => (nomatch h), ?_⟩
    rintro ⟨j, b', q, _, h, _⟩
    simp at h
  | (e, t) :: rest =>
    rw [visitsAll, List.mem_append, mem_visits (a ++ [k]) t b l, mem_visitsAll a (k + 1) rest b l]
    constructor
    · rintro (⟨b', q, h1, h2, h3⟩ | ⟨j, b', q, h1, h2, h3⟩)
      · exact ⟨0, b', (e :: q.1, q.2), by simpa using h1, by simp [h2], h3⟩
      · refine ⟨j + 1, b', q, ?_, by simpa using h2, h3⟩
        rw [h1, show k + 1 + j = k + (j + 1) by omega]
    · rintro ⟨j, b', q, h1, h2, h3⟩
      cases j with
      | zero =>
        left
        simp only [List.getElem?_cons_zero, Option.bind_some] at h2
        cases hv : view t b' with
        | none => rw [hv] at h2; exact (nomatch h2)
        | some q' =>
          rw [hv] at h2
          injection h2 with h2
          subst h2
          exact ⟨b', q', by simpa using h1, hv, h3⟩
      | succ j =>
        right
        refine ⟨j, b', q, ?_, by simpa using h2, h3⟩
        rw [h1, show k + 1 + j = k + (j + 1) by omega]
end

theorem onAttach_iff (env : AttachEnv) (a : Addr) (i : Nat) (p : Pol) (s : PolSt) : p.onAttach env a i s ≠ none ↔ p.attachable env a := by
  cases p with
  | register on m =>
    simp only [Pol.onAttach, Pol.attachable]
    split
    · rename_i n hn
      rw [hn]
      split
      · rename_i hr; exact ⟨fun _ => ⟨n, rfl, hr⟩, fun _ h => (nomatch h)⟩
      · rename_i hr
        refine ⟨fun h => absurd rfl h, ?_⟩
        rintro ⟨n', h1, h2⟩
        injection h1 with h1; injection h1 with h1
        subst h1
        exact absurd h2 hr
    · rename_i hn
      refine ⟨fun h => absurd rfl h, ?_⟩
      rintro ⟨n', h1, _⟩
      exact absurd h1 (hn n')
  | signedBy st q =>
    simp only [Pol.onAttach, Pol.attachable]
    cases st with
    | false => simp
    | true =>
      cases q with
      | none => simp
      | some q =>
        simp only [if_true, true_and]
        cases hq : env.root.at' q <;> simp [hq]
  | keyStorage st => cases st <;> simp [Pol.onAttach, Pol.attachable]
  | memStorage => simp [Pol.onAttach, Pol.attachable]
  | hmacInt k => simp [Pol.onAttach, Pol.attachable]
  | sha256 => simp [Pol.onAttach, Pol.attachable]
  | hmac k => simp [Pol.onAttach, Pol.attachable]

theorem onAttach_ready {env : AttachEnv} {a : Addr} {i : Nat} {p : Pol} {s : PolSt} {r : Ans × PolSt} (h : p.onAttach env a i s = some r) :
    p.ready env a i r.2 := by
  cases p with
  | register on m =>
    simp only [Pol.onAttach] at h
    split at h
    · rename_i n hn
      split at h
      · injection h with h; subst h
        exact ⟨n, hn, by simp⟩
      · exact (nomatch h)
    · exact (nomatch h)
  | signedBy st q =>
    simp only [Pol.onAttach] at h
    split at h
    · split at h
      · exact (nomatch h)
      · rename_i q'
        split at h
        · exact (nomatch h)
        · rename_i x hx
          injection h with h; subst h
          exact ⟨q', rfl, by simp, by rw [hx]; exact fun h => (nomatch h)⟩
    · exact (nomatch h)
  | keyStorage st =>
    simp only [Pol.onAttach] at h
    split at h
    · rename_i hs; exact hs
    · exact (nomatch h)
  | memStorage => injection h with h; subst h; simp [Pol.ready]
  | hmacInt k => injection h with h; subst h; simp [Pol.ready]
  | sha256 => trivial
  | hmac k => trivial

theorem onAttach_keeps {env : AttachEnv} {a a' : Addr} {i i' : Nat} {p p' : Pol} {s : PolSt} {r : Ans × PolSt} (h : p'.onAttach env a' i' s = some r)
    (hp : i = i' → p = p') (hr : p.ready env a i s) : p.ready env a i r.2 := by
  cases p' with
  | register on m =>
    simp only [Pol.onAttach] at h
    split at h
    · split at h
      · injection h with h; subst h
        cases p <;> first | exact hr | (obtain ⟨n, h1, h2⟩ := hr; exact ⟨n, h1, List.mem_append_left _ h2⟩)
      · exact (nomatch h)
    · exact (nomatch h)
  | signedBy st q =>
    simp only [Pol.onAttach] at h
    split at h
    · split at h
      · exact (nomatch h)
      · rename_i q'
        split at h
        · exact (nomatch h)
        · injection h with h; subst h
          cases p <;> try exact hr
          obtain ⟨q1, h1, h2, h3⟩ := hr
          refine ⟨q1, h1, ?_, h3⟩
          simp only
          split
          · rename_i hi
            have := hp hi
            injection this with _ this
            rw [h1] at this
            exact this.symm
          · exact h2
    · exact (nomatch h)
  | keyStorage st =>
    simp only [Pol.onAttach] at h
    split at h
    · injection h with h; subst h; exact hr
    · exact (nomatch h)
  | memStorage =>
    injection h with h; subst h
    cases p <;> try exact hr
    simp only [Pol.ready] at hr ⊢
    split
    · rfl
    · exact hr
  | hmacInt k =>
    injection h with h; subst h
    cases p <;> try exact hr
    simp only [Pol.ready] at hr ⊢
    split
    · rfl
    · exact hr
  | sha256 => injection h with h; subst h; exact hr
  | hmac k => injection h with h; subst h; exact hr

theorem run_keeps {env : AttachEnv} {a a' : Addr} {i : Nat} {p : Pol} {l : Lst} {s : PolSt} {r : Ans × PolSt} (h : l.run env a' s = some r)
    (hp : env.pols[i]? = some p) (hr : p.ready env a i s) : p.ready env a i r.2 := by
  cases l with
  | own n =>
    simp only [Lst.run] at h
    cases ho : env.own n with
    | none => rw [ho] at h; exact (nomatch h)
    | some x => rw [ho] at h; injection h with h; subst h; exact hr
  | pol j f =>
    cases f with
    | onAttach =>
      simp only [Lst.run] at h
      cases hj : env.pols[j]? with
      | none => rw [hj] at h; exact (nomatch h)
      | some p' =>
        rw [hj] at h
        refine onAttach_keeps h (fun hij => ?_) hr
        subst hij
        rw [hp] at hj
        exact Option.some.inj hj
    | _ => simp [Lst.run] at h

theorem runSeq_keeps {env : AttachEnv} {a : Addr} {i : Nat} {p : Pol} (hp : env.pols[i]? = some p) (l : List (Addr × Lst)) :
    ∀ {s s' : PolSt}, runSeq env l s = some s' → p.ready env a i s → p.ready env a i s' := by
  induction l with
  | nil => intro s s' h hr; injection h with h; subst h; exact hr
  | cons x rest ih =>
    obtain ⟨b, l⟩ := x
    intro s s' h hr
    rw [runSeq] at h
    cases hx : l.run env b s with
    | none => rw [hx] at h; exact (nomatch h)
    | some r => rw [hx] at h; exact ih h (run_keeps hx hp hr)

theorem runSeq_ready {env : AttachEnv} {a : Addr} {i : Nat} {p : Pol} (hp : env.pols[i]? = some p) (l : List (Addr × Lst)) :
    ∀ {s s' : PolSt}, runSeq env l s = some s' → (a, .pol i .onAttach) ∈ l → p.ready env a i s' := by
  induction l with
  | nil => intro s s' _ h; exact (nomatch h)
  | cons x rest ih =>
    obtain ⟨b, l⟩ := x
    intro s s' h hm
    rw [runSeq] at h
    cases hx : l.run env b s with
    | none => rw [hx] at h; exact (nomatch h)
    | some r =>
      rw [hx] at h
      rcases List.mem_cons.mp hm with hm | hm
      · injection hm with h1 h2
        subst h1 h2
        simp only [Lst.run, hp] at hx
        exact runSeq_keeps hp rest h (onAttach_ready hx)
      · exact ih h hm

/-- the step of one listener that succeeds always or never -/
def Lst.fine (env : AttachEnv) (a : Addr) (l : Lst) : Prop :=
  match l with
  | .own n => env.own n ≠ none
  | .pol i .onAttach => ∃ p, env.pols[i]? = some p ∧ p.attachable env a
  | .pol _ _ => False

theorem run_iff (env : AttachEnv) (a : Addr) (l : Lst) (s : PolSt) : l.run env a s ≠ none ↔ l.fine env a := by
  cases l with
  | own n => simp [Lst.run, Lst.fine]
  | pol i f =>
    cases f with
    | onAttach =>
      simp only [Lst.run, Lst.fine]
      cases hp : env.pols[i]? with
      | none => simp
      | some p =>
        simp only [Option.some.injEq, exists_eq_left']
        exact onAttach_iff env a i p s
    | _ => simp [Lst.run, Lst.fine]

theorem runSeq_iff (env : AttachEnv) (l : List (Addr × Lst)) : ∀ s, runSeq env l s ≠ none ↔ ∀ x ∈ l, x.2.fine env x.1 := by
  induction l with
  | nil => intro s; exact ⟨fun _ x hx => (nomatch hx), fun _ h => (nomatch h)⟩
  | cons x rest ih =>
    obtain ⟨b, l⟩ := x
    intro s
    rw [runSeq]
    have h1 := run_iff env b l s
    cases hx : l.run env b s with
    | none =>
      rw [hx] at h1
      exact ⟨fun h => absurd rfl h, fun h => absurd rfl (h1.mpr (h _ List.mem_cons_self))⟩
    | some r =>
      rw [hx] at h1
      have h2 := h1.mp (fun h => (nomatch h))
      simp only
      rw [ih]
      refine ⟨fun h x hx => ?_, fun h x hx => h x (List.mem_cons_of_mem _ hx)⟩
      rcases List.mem_cons.mp hx with rfl | hx
      · exact h2
      · exact h x hx

theorem mem_added {t : DTree HNode} {b : Addr} {c : Cls} {e : Evt} {l : Lst} (ps : List (NamePattern × Pol)) : ∀ {i : Nat},
    l ∈ added t b c e i ps ↔ ∃ j x f, ps[j]? = some x ∧ c.has e = true ∧ covers t x b = true ∧ wants x.2 e = some f ∧ l = .pol (i + j) f := by
  induction ps with
  | nil => intro i; rw [added]; exact ⟨fun h => (nomatch h), fun ⟨j, x, f, h, _⟩ => by simp at h⟩
  | cons y ys ih =>
    intro i
    rw [added, List.mem_append, ih]
    constructor
    · rintro (h | ⟨j, x, f, h1, h2, h3, h4, h5⟩)
      · split at h
        · rename_i hc
          rw [Bool.and_eq_true] at hc
          rw [Option.mem_toList] at h
          cases hw : wants y.2 e with
          | none => rw [hw] at h; exact (nomatch h)
          | some f =>
            rw [hw] at h
            exact ⟨0, y, f, rfl, hc.1, hc.2, hw, (Option.some.inj h).symm⟩
        · exact (nomatch h)
      · exact ⟨j + 1, x, f, by simpa using h1, h2, h3, h4, by rw [h5]; congr 1; omega⟩
    · rintro ⟨j, x, f, h1, h2, h3, h4, h5⟩
      cases j with
      | zero =>
        left
        simp only [List.getElem?_cons_zero, Option.some.injEq] at h1
        subst h1
        rw [h2, h3, h4, h5]
        simp
      | succ j =>
        right
        exact ⟨j, x, f, by simpa using h1, h2, h3, h4, by rw [h5]; congr 1; omega⟩

theorem wants_attach {p : Pol} {f : Fn} (h : wants p .attach = some f) : f = .onAttach := by
  cases p with
  | register on m => cases on <;> simp [wants] at h; exact h.symm
  | _ => simp [wants] at h <;> exact h.symm

/-- the listeners that a tree has before policies are applied are the program's -/
def Plain (t : DTree HNode) : Prop := ∀ b q e l, view t b = some q → l ∈ q.2.ls e → ∃ n, l = Lst.own n

/-- the program's listeners of the attach events return nil -/
def Calm (env : AttachEnv) (t : DTree HNode) : Prop := ∀ b q n, view t b = some q → Lst.own n ∈ q.2.ls .attach → env.own n = some .nil

theorem mem_root {t t' : DTree HNode} {ps : List (NamePattern × Pol)} (h : applyAll 0 t ps = some t') (b : Addr) (l : Lst) :
    (b, l) ∈ visits [] t' ↔ ∃ q, view t b = some q ∧ (l ∈ q.2.ls .attach ∨
      ∃ j x, ps[j]? = some x ∧ covers t x b = true ∧ wants x.2 .attach ≠ none ∧ l = .pol j .onAttach) := by
  rw [mem_visits]
  constructor
  · rintro ⟨b', q, h1, h2, h3⟩
    rw [List.nil_append] at h1
    subst h1
    rw [applyAll_view ps h] at h2
    cases hv : view t b with
    | none => rw [hv] at h2; exact (nomatch h2)
    | some q' =>
      rw [hv] at h2
      injection h2 with h2
      subst h2
      refine ⟨q', rfl, ?_⟩
      simp only [HNode.plus] at h3
      rcases List.mem_append.mp h3 with h3 | h3
      · exact Or.inl h3
      · obtain ⟨j, x, f, g1, _, g3, g4, g5⟩ := (mem_added ps).mp h3
        refine Or.inr ⟨j, x, g1, g3, by rw [g4]; exact fun h => (nomatch h), ?_⟩
        rw [g5, wants_attach g4, Nat.zero_add]
  · rintro ⟨q, h1, h2⟩
    refine ⟨b, (q.1, q.2.plus fun e => added t b q.2.cls e 0 ps), by simp, by rw [applyAll_view ps h, h1]; rfl, ?_⟩
    simp only [HNode.plus]
    rcases h2 with h2 | ⟨j, x, g1, g3, g4, g5⟩
    · exact List.mem_append_left _ h2
    · apply List.mem_append_right
      cases hw : wants x.2 .attach with
      | none => exact absurd hw g4
      | some f =>
        rw [mem_added]
        exact ⟨j, x, f, g1, rfl, g3, hw, by rw [g5, wants_attach hw, Nat.zero_add]⟩

theorem covers_self {t : DTree HNode} {x : NamePattern × Pol} {a : Addr} (h : locate t x.1 = some a) : covers t x a = true := by
  unfold covers
  rw [h]
  simp only
  split
  · exact List.isPrefixOf_iff_prefix.mpr (List.prefix_refl a)
  · simp

theorem located {t : DTree HNode} {q : NamePattern} {a : Addr} (h : locate t q = some a) : ∃ d, view t a = some (q, d) := by
  obtain ⟨n, _, h2⟩ := (locate_at q t).2 a h
  exact ⟨n.desc, by rw [view, h2]; rfl⟩

theorem attach_seq {env : AttachEnv} {t : DTree HNode} {ps : List (NamePattern × Pol)} (h : applyAll 0 t ps = some env.root) (hcalm : Calm env t) (s : PolSt) :
    attachTree env s = runSeq env (visits [] env.root) s := by
  refine attachNode_seq env [] env.root (fun b n hm => ?_) s
  obtain ⟨q, h1, h2⟩ := (mem_root h b _).mp hm
  rcases h2 with h2 | ⟨j, x, _, _, _, h2⟩
  · exact hcalm b q n h1 h2
  · exact (nomatch h2)

/-! ### The routes -/

/-- the route that a listener registers -/
def routeOf (env : AttachEnv) (x : Addr × Lst) : Option Name :=
  match x.2 with
  | .pol i .onAttach =>
    match env.pols[i]? with
    | some (.register _ m) => (Ndn.Schema.apply env.pre env.root.toS x.1 m).bind id
    | _ => none
  | _ => none

theorem run_routes {env : AttachEnv} {a : Addr} {l : Lst} {s : PolSt} {r : Ans × PolSt} (h : l.run env a s = some r) :
    r.2.routes = s.routes ++ (routeOf env (a, l)).toList := by
  cases l with
  | own n =>
    simp only [Lst.run] at h
    cases ho : env.own n with
    | none => rw [ho] at h; exact (nomatch h)
    | some x => rw [ho] at h; injection h with h; subst h; simp [routeOf]
  | pol j f =>
    cases f with
    | onAttach =>
      simp only [Lst.run] at h
      cases hj : env.pols[j]? with
      | none => rw [hj] at h; exact (nomatch h)
      | some p =>
        rw [hj] at h
        simp only [routeOf, hj]
        cases p with
        | register on m =>
          simp only [Pol.onAttach] at h
          split at h
          · rename_i n hn
            split at h
            · injection h with h; subst h; simp [hn]
            · exact (nomatch h)
          · exact (nomatch h)
        | signedBy st q =>
          simp only [Pol.onAttach] at h
          split at h
          · split at h
            · exact (nomatch h)
            · split at h
              · exact (nomatch h)
              · injection h with h; subst h; simp
          · exact (nomatch h)
        | keyStorage st =>
          simp only [Pol.onAttach] at h
          split at h
          · injection h with h; subst h; simp
          · exact (nomatch h)
        | memStorage => injection h with h; subst h; simp
        | hmacInt k => injection h with h; subst h; simp
        | sha256 => injection h with h; subst h; simp
        | hmac k => injection h with h; subst h; simp
    | _ => simp [Lst.run] at h

theorem runSeq_routes {env : AttachEnv} (l : List (Addr × Lst)) : ∀ {s s' : PolSt}, runSeq env l s = some s' →
    s'.routes = s.routes ++ l.filterMap (routeOf env) := by
  induction l with
  | nil => intro s s' h; injection h with h; subst h; simp
  | cons x rest ih =>
    obtain ⟨b, l⟩ := x
    intro s s' h
    rw [runSeq] at h
    cases hx : l.run env b s with
    | none => rw [hx] at h; exact (nomatch h)
    | some r =>
      rw [hx] at h
      rw [ih h, run_routes hx, List.filterMap_cons]
      cases routeOf env (b, l) <;> simp

section
variable {β : Type} (g : Addr × Lst → Option β)

mutual
theorem visits_storage (i : Nat) (hg : ∀ b, g (b, .pol i .onAttach) = none) (a : Addr) (t : DTree HNode) :
    (visits a (applyStorage i t)).filterMap g = (visits a t).filterMap g := by
  match t with
  | .node d chd =>
    rw [applyStorage, visits, visits, List.filterMap_append, List.filterMap_append, visitsAll_storage i hg a 0 chd]
    congr 1
    have : (storageNode i d).ls .attach = d.ls .attach ++ [.pol i .onAttach] := by
      rw [storageNode_eq i d .memStorage rfl]; simp [HNode.plus, one, Cls.has, wants]
    rw [this]
    simp [hg]
theorem visitsAll_storage (i : Nat) (hg : ∀ b, g (b, .pol i .onAttach) = none) (a : Addr) (k : Nat) (chd : List (CompPat × DTree HNode)) :
    (visitsAll a k (applyStorageAll i chd)).filterMap g = (visitsAll a k chd).filterMap g := by
  match chd with
  | [] => rfl
  | (e, t) :: rest =>
    rw [applyStorageAll, visitsAll, visitsAll, List.filterMap_append, List.filterMap_append, visits_storage i hg (a ++ [k]) t,
      visitsAll_storage i hg a (k + 1) rest]
end

/-- what one policy adds -/
def extra (i : Nat) (p : Pol) (a : Addr) : List β :=
  if p.deep then [] else ((wants p .attach).toList.map fun f => (a, Lst.pol i f)).filterMap g

theorem visitsAll_modify {X : List β} {c c' : DTree HNode} {e : CompPat} {a : Addr} (chd : List (CompPat × DTree HNode)) : ∀ {j k : Nat},
    chd[j]? = some (e, c) → ((visits (a ++ [k + j]) c').filterMap g).Perm ((visits (a ++ [k + j]) c).filterMap g ++ X) →
    ((visitsAll a k (chd.modify j fun p => (p.1, c'))).filterMap g).Perm ((visitsAll a k chd).filterMap g ++ X) := by
  induction chd with
  | nil => intro j k h; simp at h
  | cons p rest ih =>
    obtain ⟨e', t⟩ := p
    intro j k h hp
    cases j with
    | zero =>
      simp only [List.getElem?_cons_zero, Option.some.injEq, Prod.mk.injEq] at h
      obtain ⟨rfl, rfl⟩ := h
      rw [List.modify_zero_cons, visitsAll, visitsAll, List.filterMap_append, List.filterMap_append]
      refine (hp.append_right _).trans ?_
      rw [List.append_assoc, List.append_assoc]
      exact List.Perm.append_left _ List.perm_append_comm
    | succ j =>
      rw [List.modify_succ_cons, visitsAll, visitsAll, List.filterMap_append, List.filterMap_append, List.append_assoc]
      refine List.Perm.append_left _ (ih (by simpa using h) ?_)
      rw [show k + 1 + j = k + (j + 1) by omega]
      exact hp

theorem visits_applyAt {i : Nat} {p : Pol} (hg : p.deep = true → ∀ b, g (b, .pol i .onAttach) = none) (path : NamePattern) :
    ∀ {t t' : DTree HNode} {a0 : Addr} (a : Addr), applyAt (p.apply i) t path = some t' → locate t path = some a0 →
      ((visits a t').filterMap g).Perm ((visits a t).filterMap g ++ extra g i p (a ++ a0)) := by
  induction path with
  | nil =>
    intro t t' a0 a h ha
    injection ha with ha
    subst ha
    rw [applyAt] at h
    cases hp : p.deep
    · have h' : p.apply i t = (p.applyNode i t.desc).map fun d => .node d t.chd := by
        cases p <;> first | rfl | (simp [Pol.deep] at hp; done)
      rw [h'] at h
      rcases applyNode_eq i p t.desc hp with ⟨h1, _⟩ | ⟨h1, _⟩
      · rw [h1] at h
        injection h with h
        subst h
        cases t with
        | node d chd =>
          rw [visits, visits, List.filterMap_append, List.filterMap_append, List.append_assoc]
          refine List.Perm.append_left _ ?_
          simp only [DTree.desc, HNode.plus, extra, hp, one, Cls.has, List.append_nil]
          rw [List.map_append, List.filterMap_append]
          cases wants p .attach <;> simp
      · rw [h1] at h; exact (nomatch h)
    · have h' : p.apply i t = some (applyStorage i t) := by
        cases p <;> first | rfl | (simp [Pol.deep] at hp; done)
      rw [h'] at h
      injection h with h
      subst h
      rw [visits_storage g i (hg hp)]
      simp [extra, hp]
  | cons e es ih =>
    intro t t' a0 a h ha
    rw [applyAt] at h
    rw [locate] at ha
    cases hf : DTree.find e t.chd with
    | none => rw [hf] at h; exact (nomatch h)
    | some r =>
      obtain ⟨j, c⟩ := r
      rw [hf] at h ha
      simp only at h ha
      cases hl : locate c es with
      | none => rw [hl] at ha; exact (nomatch ha)
      | some a1 =>
        rw [hl] at ha
        injection ha with ha
        subst ha
        cases hc : applyAt (p.apply i) c es with
        | none => rw [hc] at h; exact (nomatch h)
        | some c' =>
          rw [hc] at h
          injection h with h
          subst h
          cases t with
          | node d chd =>
            rw [DTree.setChild, visits, visits, List.filterMap_append, List.filterMap_append]
            have h1 := (find_some hf).1
            have h2 := visitsAll_modify g (a := a) chd (k := 0) h1 (X := extra g i p (a ++ j :: a1)) (by
              have := ih (a ++ [0 + j]) hc hl
              simpa using this)
            refine (h2.append_right _).trans ?_
            rw [List.append_assoc, List.append_assoc]
            exact List.Perm.append_left _ List.perm_append_comm
end

theorem extra_route {env : AttachEnv} {i : Nat} {p : Pol} (hp : env.pols[i]? = some p) (t : DTree HNode) (path : NamePattern) (a : Addr)
    (ha : locate t path = some a) : extra (routeOf env) i p a = (regName env t (path, p)).toList := by
  cases p with
  | register on m =>
    cases on
    · simp [extra, Pol.deep, wants, regName]
    · simp only [extra, Pol.deep, wants, regName, ha, Option.bind_some, Bool.false_eq_true, if_false, Option.toList, List.map_cons, List.map_nil]
      rw [List.filterMap_cons]
      simp only [routeOf, hp]
      cases (Ndn.Schema.apply env.pre env.root.toS a m).bind id <;> simp
  | _ => simp [extra, Pol.deep, wants, regName, routeOf, hp]

theorem regName_same {env : AttachEnv} {t t' : DTree HNode} (h : SamePaths t t') (x : NamePattern × Pol) : regName env t' x = regName env t x := by
  unfold regName
  split
  · rw [SamePaths.locate x.1 h]
  · rfl

theorem applyAll_routes (env : AttachEnv) (ps : List (NamePattern × Pol)) : ∀ {i : Nat} {t t' : DTree HNode}, applyAll i t ps = some t' →
    (∀ j x, ps[j]? = some x → env.pols[i + j]? = some x.2) →
    ((visits [] t').filterMap (routeOf env)).Perm ((visits [] t).filterMap (routeOf env) ++ ps.filterMap (regName env t)) := by
  induction ps with
  | nil => intro i t t' h _; injection h with h; subst h; simp
  | cons x xs ih =>
    intro i t t' h hp
    rw [applyAll] at h
    cases ha : applyAt (x.2.apply i) t x.1 with
    | none => rw [ha] at h; exact (nomatch h)
    | some t1 =>
      rw [ha] at h
      have h0 : env.pols[i]? = some x.2 := hp 0 x rfl
      have h1 := ih h (fun j y hy => by
        have := hp (j + 1) y (by simpa using hy)
        rwa [show i + (j + 1) = i + 1 + j by omega] at this)
      have hl : ∃ a, locate t x.1 = some a := by
        rcases Classical.em (∃ a d, locate t x.1 = some a ∧ view t a = some (x.1, d) ∧ x.2.allowed d.cls) with h | h
        · obtain ⟨a, _, h, _⟩ := h; exact ⟨a, h⟩
        · rw [← applyAt_none (i := i)] at h; rw [h] at ha; exact (nomatch ha)
      obtain ⟨a, hl⟩ := hl
      have h2 := visits_applyAt (routeOf env) (fun hd b => by
        simp only [routeOf, h0]
        revert hd
        cases x.2 <;> simp [Pol.deep]) x.1 [] ha hl
      rw [List.nil_append, extra_route h0 t x.1 a hl] at h2
      have h3 : xs.filterMap (regName env t1) = xs.filterMap (regName env t) := by
        congr 1; funext y; exact regName_same (applyAt_same ha) y
      rw [h3] at h1
      refine h1.trans ((h2.append_right _).trans ?_)
      rw [List.append_assoc, List.filterMap_cons]
      cases regName env t (x.1, x.2) <;> simp

/-! ## The properties -/

/-- C87: when the policies of a description have been applied, every node has kept its place, its path and its class, and each of its events has the
listeners it had before, followed by those of the policies that are meant for this node, in the order of the description: one listener for each policy that
wants the event, and none for others.  Storages are meant for the whole subtree, the other policies for the node they are put at. -/
theorem C87_hooks (t t' : DTree HNode) (ps : List (NamePattern × Pol)) (h : applyAll 0 t ps = some t') (b : Addr) :
    view t' b = (view t b).map fun q => (q.1, ⟨q.2.cls, fun e => q.2.ls e ++ added t b q.2.cls e 0 ps⟩) :=
  applyAll_view ps h b

/-- C87: applying the policies succeeds exactly if each path leads to a node, keys are not empty, and policies that validate are put at nodes that do. -/
theorem C87_applies_iff (t : DTree HNode) (ps : List (NamePattern × Pol)) : applyAll 0 t ps ≠ none ↔
    ∀ x ∈ ps, ∃ a d, locate t x.1 = some a ∧ view t a = some (x.1, d) ∧ x.2.allowed d.cls := by
  suffices hs : ∀ i, applyAll i t ps ≠ none ↔ ∀ x ∈ ps, ∃ a d, locate t x.1 = some a ∧ view t a = some (x.1, d) ∧ x.2.allowed d.cls from hs 0
  induction ps generalizing t with
  | nil => intro i; exact ⟨fun _ x hx => (nomatch hx), fun _ => by simp [applyAll]⟩
  | cons x xs ih =>
    intro i
    rw [applyAll]
    cases ha : applyAt (x.2.apply i) t x.1 with
    | none =>
      rw [applyAt_none] at ha
      refine ⟨fun h => absurd rfl h, fun h => absurd (h x List.mem_cons_self) ha⟩
    | some t1 =>
      simp only
      rw [ih t1 (i + 1)]
      have hx : ∃ a d, locate t x.1 = some a ∧ view t a = some (x.1, d) ∧ x.2.allowed d.cls := by
        rcases Classical.em (∃ a d, locate t x.1 = some a ∧ view t a = some (x.1, d) ∧ x.2.allowed d.cls) with h | h
        · exact h
        · rw [← applyAt_none (i := i)] at h; rw [h] at ha; exact (nomatch ha)
      have key : ∀ y : NamePattern × Pol, (∃ a d, locate t1 y.1 = some a ∧ view t1 a = some (y.1, d) ∧ y.2.allowed d.cls) ↔
          ∃ a d, locate t y.1 = some a ∧ view t a = some (y.1, d) ∧ y.2.allowed d.cls := by
        intro y
        rw [SamePaths.locate y.1 (applyAt_same ha)]
        constructor
        · rintro ⟨a, d, h1, h2, h3⟩
          rw [applyAt_view x.1 ha] at h2
          cases hv : view t a with
          | none => rw [hv] at h2; exact (nomatch h2)
          | some q =>
            rw [hv] at h2
            simp only [Option.map_some, Option.some.injEq, Prod.mk.injEq] at h2
            refine ⟨a, q.2, h1, by rw [hv, ← h2.1], ?_⟩
            rw [← h2.2] at h3
            split at h3 <;> exact h3
        · rintro ⟨a, d, h1, h2, h3⟩
          refine ⟨a, if covers t (x.1, x.2) a then d.plus (one i x.2 d.cls) else d, h1, ?_, ?_⟩
          · rw [applyAt_view x.1 ha, h2]; rfl
          · split <;> exact h3
      constructor
      · intro h y hy
        rcases List.mem_cons.mp hy with rfl | hy
        · exact hx
        · exact (key y).mp (h y hy)
      · intro h y hy
        exact (key y).mpr (h y (List.mem_cons_of_mem _ hy))

/-- C87: attaching a tree with these policies panics exactly if some policy that listens to the attach event does not have what it needs. -/
theorem C87_attach_iff (env : AttachEnv) (t : DTree HNode) (ps : List (NamePattern × Pol)) (h : applyAll 0 t ps = some env.root)
    (hpols : env.pols = ps.map (·.2)) (hplain : Plain t) (hcalm : Calm env t) (s : PolSt) :
    attachTree env s ≠ none ↔ ∀ x ∈ ps, wants x.2 .attach ≠ none → ∀ a, locate t x.1 = some a → x.2.attachable env a := by
  rw [attach_seq h hcalm, runSeq_iff]
  constructor
  · intro hf x hx hw a ha
    obtain ⟨j, hj⟩ := List.getElem?_of_mem hx
    obtain ⟨d, hd⟩ := located ha
    have := hf (a, .pol j .onAttach) ((mem_root h a _).mpr ⟨_, hd, Or.inr ⟨j, x, hj, covers_self ha, hw, rfl⟩⟩)
    obtain ⟨p, h1, h2⟩ := this
    rw [hpols, List.getElem?_map, hj] at h1
    injection h1 with h1
    subst h1
    exact h2
  · intro hf y hy
    obtain ⟨b, l⟩ := y
    obtain ⟨q, h1, h2⟩ := (mem_root h b l).mp hy
    rcases h2 with h2 | ⟨j, x, g1, g2, g3, g4⟩
    · obtain ⟨n, rfl⟩ := hplain b q .attach l h1 h2
      show env.own n ≠ none
      rw [hcalm b q n h1 h2]
      exact fun h => (nomatch h)
    · subst g4
      refine ⟨x.2, by rw [hpols, List.getElem?_map, g1]; rfl, ?_⟩
      cases hl : locate t x.1 with
      | none => rw [covers, hl] at g2; exact (nomatch g2)
      | some a =>
        have ha := hf x (List.mem_of_getElem? g1) g3 a hl
        rw [covers, hl] at g2
        simp only at g2
        split at g2
        · rename_i hd
          revert ha hd
          cases x.2 <;> intro ha hd <;> first | exact ha | (simp [Pol.deep] at hd; done)
        · have : a = b := by simpa using g2
          rw [← this]; exact ha

/-- C87, as far as it holds: if the program's own listeners of the attach events return nil, then after attaching the tree every policy has what it works with:
a storage its timer, a signer of Interests its signer, the policy "signed by" the node of the keys, a registration its route. -/
theorem C87_ready_partial (env : AttachEnv) (t : DTree HNode) (ps : List (NamePattern × Pol)) (h : applyAll 0 t ps = some env.root)
    (hpols : env.pols = ps.map (·.2)) (hcalm : Calm env t) (s s' : PolSt) (hs : attachTree env s = some s') (j : Nat)
    (x : NamePattern × Pol) (hj : ps[j]? = some x) (hw : wants x.2 .attach ≠ none) :
    ∃ a, locate t x.1 = some a ∧ x.2.ready env a j s' := by
  have hx := (C87_applies_iff t ps).mp (by rw [h]; exact fun h => (nomatch h)) x (List.mem_of_getElem? hj)
  obtain ⟨a, d, h1, h2, _⟩ := hx
  rw [attach_seq h hcalm] at hs
  refine ⟨a, h1, ?_⟩
  refine runSeq_ready (by rw [hpols, List.getElem?_map, hj]; rfl) _ hs ?_
  exact (mem_root h a _).mpr ⟨_, h2, Or.inr ⟨j, x, hj, covers_self h1, hw, rfl⟩⟩

/-- C87, as far as it holds: each registration policy that is switched on registers one route when the tree is attached, the name of its node, and nothing else
is registered. -/
theorem C87_routes_partial (env : AttachEnv) (t : DTree HNode) (ps : List (NamePattern × Pol)) (h : applyAll 0 t ps = some env.root)
    (hpols : env.pols = ps.map (·.2)) (hplain : Plain t) (hcalm : Calm env t) (s s' : PolSt) (hs : attachTree env s = some s') :
    s'.routes.Perm (s.routes ++ ps.filterMap (regName env t)) := by
  rw [attach_seq h hcalm] at hs
  rw [runSeq_routes _ hs]
  refine List.Perm.append_left _ ?_
  have h1 := applyAll_routes env ps h (fun j x hj => by rw [hpols, List.getElem?_map, Nat.zero_add, hj]; rfl)
  have h2 : (visits [] t).filterMap (routeOf env) = [] := by
    rw [List.filterMap_eq_nil_iff]
    rintro ⟨b, l⟩ hm
    obtain ⟨b', q, g1, g2, g3⟩ := (mem_visits [] t b l).mp hm
    obtain ⟨n, rfl⟩ := hplain b' q .attach l g2 g3
    rfl
  rw [h2, List.nil_append] at h1
  exact h1

/-- C87, as far as it holds: a storage put at a node answers the searches and takes the packets of every node below it that has these events, and of no other;
after attaching it takes them without a panic. -/
theorem C87_storage_partial (env : AttachEnv) (t : DTree HNode) (ps : List (NamePattern × Pol)) (h : applyAll 0 t ps = some env.root)
    (hpols : env.pols = ps.map (·.2)) (hplain : Plain t) (hcalm : Calm env t) (s s' : PolSt) (hs : attachTree env s = some s') (j : Nat)
    (path : NamePattern) (hj : ps[j]? = some (path, .memStorage)) (a : Addr) (ha : locate t path = some a) :
    (∀ b q, view env.root b = some q → q.2.cls = .express ∨ q.2.cls = .leaf →
      (Lst.pol j .onSearch ∈ q.2.ls .search ↔ a <+: b) ∧ (Lst.pol j .onSave ∈ q.2.ls .save ↔ a <+: b)) ∧
    ∀ z tr now name raw dur, s'.memOnSave j z tr now name raw dur = memSave z tr now name raw dur := by
  constructor
  · intro b q hb hcls
    rw [applyAll_view ps h] at hb
    cases hv : view t b with
    | none => rw [hv] at hb; exact (nomatch hb)
    | some q' =>
      rw [hv] at hb
      injection hb with hb
      subst hb
      have hc : covers t (path, .memStorage) b = true ↔ a <+: b := by
        rw [covers]; simp only [ha, Pol.deep, if_true]; exact List.isPrefixOf_iff_prefix
      have key : ∀ (e : Evt) (f : Fn), wants .memStorage e = some f → q'.2.cls.has e = true →
          (Lst.pol j f ∈ q'.2.ls e ++ added t b q'.2.cls e 0 ps ↔ a <+: b) := by
        intro e f hw he
        rw [List.mem_append, mem_added, ← hc]
        constructor
        · rintro (hl | ⟨j', x, f', h1, h2, h3, h4, h5⟩)
          · obtain ⟨n, hn⟩ := hplain b q' e _ hv hl; exact (nomatch hn)
          · injection h5 with h5 _
            have : j' = j := by omega
            subst this
            rw [hj] at h1
            injection h1 with h1
            subst h1
            exact h3
        · intro hcov
          exact Or.inr ⟨j, (path, .memStorage), f, hj, he, hcov, hw, by rw [Nat.zero_add]⟩
      have hcls' : q'.2.cls = .express ∨ q'.2.cls = .leaf := hcls
      exact ⟨key .search .onSearch rfl (by rcases hcls' with h | h <;> rw [h] <;> rfl),
        key .save .onSave rfl (by rcases hcls' with h | h <;> rw [h] <;> rfl)⟩
  · intro z tr now name raw dur
    obtain ⟨a', _, hr⟩ := C87_ready_partial env t ps h hpols hcalm s s' hs j _ hj (by simp [wants])
    have hr' : s'.timer j = true := hr
    unfold PolSt.memOnSave
    rw [hr', if_pos rfl]

/-- the policies that sign Data -/
def Pol.signsData : Pol → Prop
  | .sha256 => True
  | .hmac _ => True
  | .signedBy _ _ => True
  | _ => False

/-- C87: a policy that signs Data is asked for a signer at its own node only, and only if that is a leaf; it is asked to validate at its own node only, and there
always, be it a leaf or an expressing point. -/
theorem C87_signers (t t' : DTree HNode) (ps : List (NamePattern × Pol)) (h : applyAll 0 t ps = some t') (hplain : Plain t) (j : Nat)
    (x : NamePattern × Pol) (hj : ps[j]? = some x) (hx : x.2.signsData) (a : Addr) (ha : locate t x.1 = some a) (b : Addr) (q : NamePattern × HNode)
    (hb : view t' b = some q) :
    (Lst.pol j .onGetDataSigner ∈ q.2.ls .dataSigner ↔ b = a ∧ q.2.cls = .leaf) ∧ (Lst.pol j .onValidateData ∈ q.2.ls .validateData ↔ b = a) := by
  obtain ⟨a', d, l1, l2, l3⟩ := (C87_applies_iff t ps).mp (by rw [h]; exact fun h => (nomatch h)) x (List.mem_of_getElem? hj)
  rw [ha] at l1
  injection l1 with l1
  subst l1
  rw [applyAll_view ps h] at hb
  cases hv : view t b with
  | none => rw [hv] at hb; exact (nomatch hb)
  | some q' =>
    rw [hv] at hb
    injection hb with hb
    subst hb
    obtain ⟨path, p⟩ := x
    have hc : covers t (path, p) b = true ↔ b = a := by
      rw [covers]
      have hd : p.deep = false := by
        cases p <;> first | rfl | exact hx.elim
      simp only [ha, hd]
      exact ⟨fun h => (beq_iff_eq.mp h).symm, fun h => beq_iff_eq.mpr h.symm⟩
    have key : ∀ (e : Evt) (f : Fn), wants p e = some f →
        (Lst.pol j f ∈ q'.2.ls e ++ added t b q'.2.cls e 0 ps ↔ b = a ∧ q'.2.cls.has e = true) := by
      intro e f hw
      rw [List.mem_append, mem_added, ← hc]
      constructor
      · rintro (hl | ⟨j', x, f', h1, h2, h3, h4, h5⟩)
        · obtain ⟨n, hn⟩ := hplain b q' e _ hv hl; exact (nomatch hn)
        · injection h5 with h5 _
          have : j' = j := by omega
          subst this
          rw [hj] at h1
          injection h1 with h1
          subst h1
          exact ⟨h3, h2⟩
      · rintro ⟨hcov, he⟩
        exact Or.inr ⟨j, (path, p), f, hj, he, hcov, hw, by rw [Nat.zero_add]⟩
    have hcl : b = a → q'.2.cls = .express ∨ q'.2.cls = .leaf := by
      intro hba
      subst hba
      rw [hv] at l2
      injection l2 with l2
      subst l2
      cases p <;> first | exact l3 | exact l3.2 | exact hx.elim
    constructor
    · show Lst.pol j .onGetDataSigner ∈ q'.2.ls .dataSigner ++ added t b q'.2.cls .dataSigner 0 ps ↔ _
      rw [key .dataSigner .onGetDataSigner (by cases p <;> first | rfl | exact hx.elim)]
      show _ ∧ _ ↔ _ ∧ q'.2.cls = .leaf
      cases q'.2.cls <;> simp [Cls.has]
    · show Lst.pol j .onValidateData ∈ q'.2.ls .validateData ++ added t b q'.2.cls .validateData 0 ps ↔ _
      rw [key .validateData .onValidateData (by cases p <;> first | rfl | exact hx.elim)]
      refine ⟨fun h => h.1, fun h => ⟨h, ?_⟩⟩
      rcases hcl h with hh | hh <;> rw [hh] <;> rfl

/-- a tree for the examples: a root and two leaves, the first with a listener of its own -/
def hkTree : DTree HNode :=
  .node ⟨.base, fun _ => []⟩ [(.comp ⟨8, [1]⟩, .node ⟨.leaf, fun e => if e = .attach then [.own 0] else []⟩ []), (.pat 8 [2], .node ⟨.leaf, fun _ => []⟩ [])]

/-- policies for the examples -/
def hkPols : List (NamePattern × Pol) := [([], .memStorage), ([.comp ⟨8, [1]⟩], .sha256), ([], .register true []), ([.pat 8 [2]], .hmacInt [7])]

/-- the tree with the policies -/
def hkHooked : DTree HNode := (applyAll 0 hkTree hkPols).getD hkTree

/-- the surroundings for the examples -/
def hkEnv (r : Ans) : AttachEnv := ⟨hkHooked, [⟨8, [9]⟩], hkPols.map (·.2), fun _ => some r, fun _ => true⟩

theorem hkHooked_eq : applyAll 0 hkTree hkPols = some hkHooked := by
  have h : applyAll 0 hkTree hkPols ≠ none := by
    rw [C87_applies_iff]
    intro x hx
    simp only [hkPols, List.mem_cons, List.not_mem_nil, or_false] at hx
    rcases hx with rfl | rfl | rfl | rfl
    · exact ⟨[], _, rfl, view_nil _, trivial⟩
    · exact ⟨[0], ⟨.leaf, fun e => if e = .attach then [.own 0] else []⟩, by decide, rfl, Or.inr rfl⟩
    · exact ⟨[], _, rfl, view_nil _, trivial⟩
    · exact ⟨[1], ⟨.leaf, fun _ => []⟩, by decide, rfl, by decide, Or.inr rfl⟩
  unfold hkHooked
  cases ha : applyAll 0 hkTree hkPols with
  | none => exact absurd ha h
  | some t => rfl

/-- the nodes of the example -/
theorem hkTree_view {b : Addr} {q : NamePattern × HNode} (h : view hkTree b = some q) :
    b = [] ∧ q.2.ls = (fun _ => []) ∨ b = [0] ∧ q.2.ls = (fun e => if e = .attach then [.own 0] else []) ∨ b = [1] ∧ q.2.ls = fun _ => [] := by
  match b with
  | [] => rw [view_nil] at h; injection h with h; subst h; exact Or.inl ⟨rfl, rfl⟩
  | [0] => injection h with h; subst h; exact Or.inr (Or.inl ⟨rfl, rfl⟩)
  | [1] => injection h with h; subst h; exact Or.inr (Or.inr ⟨rfl, rfl⟩)
  | 0 :: k :: b => rw [view_cons, hkTree] at h; simp [DTree.chd, view_cons] at h
  | 1 :: k :: b => rw [view_cons, hkTree] at h; simp [DTree.chd, view_cons] at h
  | (k + 2) :: b => rw [view_cons, hkTree] at h; simp [DTree.chd] at h

theorem hkTree_plain : Plain hkTree := by
  intro b q e l h hl
  rcases hkTree_view h with ⟨_, h⟩ | ⟨_, h⟩ | ⟨_, h⟩ <;> rw [h] at hl <;> simp only at hl
  · exact (nomatch hl)
  · split at hl
    · exact ⟨0, by simpa using hl⟩
    · exact (nomatch hl)
  · exact (nomatch hl)

theorem hkTree_calm : Calm (hkEnv .nil) hkTree := fun _ _ _ _ _ => rfl

/-- the first leaf: its own listener comes before those of the policies, and the listeners of Data come from the second policy only -/
example : ∃ q, view hkHooked [0] = some q ∧ q.2.ls .attach = [.own 0, .pol 0 .onAttach] ∧ q.2.ls .validateData = [.pol 1 .onValidateData] ∧
    q.2.ls .save = [.pol 0 .onSave] := by
  refine ⟨_, C87_hooks hkTree hkHooked hkPols hkHooked_eq [0], ?_⟩
  refine ⟨?_, ?_, ?_⟩ <;> decide

/-- the second policy is asked for a signer at the first leaf and nowhere else -/
example (b : Addr) (q : NamePattern × HNode) (hb : view hkHooked b = some q) (hl : q.2.cls = .leaf) :
    Lst.pol 1 .onGetDataSigner ∈ q.2.ls .dataSigner ↔ b = [0] := by
  have h := (C87_signers hkTree hkHooked hkPols hkHooked_eq hkTree_plain 1 ([.comp ⟨8, [1]⟩], .sha256) rfl trivial [0] (by decide) b q hb).1
  exact h.trans ⟨fun k => k.1, fun k => ⟨k, hl⟩⟩

/-- the hypotheses are met, the attachment succeeds, and one route is registered -/
example : ∃ s', attachTree (hkEnv .nil) {} = some s' ∧ s'.routes = [[⟨8, [9]⟩]] ∧ s'.timer 0 = true ∧ s'.signer 3 = true := by
  have h := (C87_attach_iff (hkEnv .nil) hkTree hkPols hkHooked_eq rfl hkTree_plain hkTree_calm {}).mpr (by
    intro x hx hw a ha
    simp only [hkPols, List.mem_cons, List.not_mem_nil, or_false] at hx
    rcases hx with rfl | rfl | rfl | rfl
    · trivial
    · trivial
    · injection ha with ha
      subst ha
      exact ⟨[⟨8, [9]⟩], by simp [Ndn.Schema.apply, STree.at', NamePattern.fromMatching, hkEnv, Matching.get]; done, rfl⟩
    · trivial)
  cases hs : attachTree (hkEnv .nil) {} with
  | none => exact absurd hs h
  | some s' =>
    refine ⟨s', rfl, ?_, ?_, ?_⟩
    · have hr := C87_routes_partial (hkEnv .nil) hkTree hkPols hkHooked_eq rfl hkTree_plain hkTree_calm {} s' hs
      have : hkPols.filterMap (regName (hkEnv .nil) hkTree) = [[⟨8, [9]⟩]] := by
        have h3 : regName (hkEnv .nil) hkTree ([], .register true []) = some [⟨8, [9]⟩] := by
          simp [regName, locate, Ndn.Schema.apply, STree.at', NamePattern.fromMatching, hkEnv, Matching.get]
        rw [hkPols, List.filterMap_cons_none rfl, List.filterMap_cons_none rfl, List.filterMap_cons_some h3, List.filterMap_cons_none rfl]
        rfl
      rw [this] at hr
      exact List.perm_singleton.mp hr
    · obtain ⟨_, _, hr⟩ := C87_ready_partial (hkEnv .nil) hkTree hkPols hkHooked_eq rfl hkTree_calm {} s' hs 0 _ rfl (by simp [wants])
      exact hr
    · obtain ⟨_, _, hr⟩ := C87_ready_partial (hkEnv .nil) hkTree hkPols hkHooked_eq rfl hkTree_calm {} s' hs 3 _ rfl (by simp [wants])
      exact hr

/-- C87 fails if a listener of the program returns an error: `Attach` drops the error and goes on, the listeners behind it are not called, and the storage has no
timer, so that the first packet to be stored is a panic. -/
theorem C87_error_violated : ∃ (env : AttachEnv) (t : DTree HNode) (ps : List (NamePattern × Pol)) (s' : PolSt),
    applyAll 0 t ps = some env.root ∧ env.pols = ps.map (·.2) ∧ Plain t ∧ attachTree env {} = some s' ∧
    ∃ j, ps[j]? = some ([], .memStorage) ∧ ∀ z tr now name raw dur, s'.memOnSave j z tr now name raw dur = .panic := by
  let leaf : DTree HNode := .node ⟨.leaf, fun e => if e = .attach then [.own 0] else []⟩ []
  have happ : applyAll 0 leaf [([], .memStorage)] = some (applyStorage 0 leaf) := rfl
  refine ⟨⟨applyStorage 0 leaf, [], [.memStorage], fun _ => some .error, fun _ => true⟩, leaf, [([], .memStorage)], {}, happ, rfl, ?_, ?_, 0, rfl,
    fun _ _ _ _ _ _ => rfl⟩
  · intro b q e l h hl
    cases b with
    | nil =>
      rw [view_nil] at h
      injection h with h
      subst h
      simp only [leaf, DTree.desc] at hl
      split at hl
      · exact ⟨0, by simpa using hl⟩
      · exact (nomatch hl)
    | cons k b => rw [view_cons] at h; simp [leaf, DTree.chd] at h
  · unfold attachTree
    simp only [leaf, applyStorage, applyStorageAll]
    rw [attachNode, attachChildren]
    have : (storageNode 0 ⟨.leaf, fun e => if e = .attach then [.own 0] else []⟩).ls .attach = [.own 0, .pol 0 .onAttach] := by decide
    simp only [this]
    rfl

theorem find_map (g : DTree HNode → DTree HNode) (e : CompPat) (chd : List (CompPat × DTree HNode)) :
    DTree.find e (chd.map fun p => (p.1, g p.2)) = (DTree.find e chd).map fun r => (r.1, g r.2) := by
  induction chd with
  | nil => rfl
  | cons p rest ih =>
    obtain ⟨e', t⟩ := p
    rw [List.map_cons, DTree.find, DTree.find, ih]
    split
    · rfl
    · simp only [Option.map_map]; rfl

theorem look_storage (i : Nat) (q : NamePattern) : ∀ t : DTree HNode, (applyStorage i t).look q = (t.look q).map (storageNode i) := by
  induction q with
  | nil => intro t; rw [DTree.look_nil, DTree.look_nil, applyStorage_desc]; rfl
  | cons e es ih =>
    intro t
    rw [DTree.look_cons, DTree.look_cons, applyStorage_chd, find_map]
    cases DTree.find e t.chd with
    | none => rfl
    | some r => exact ih r.2

theorem look_put_new {t t' sub : DTree HNode} {base : HNode} {p : NamePattern} {a : Addr} (h : DTree.put base t p sub = some (t', a)) :
    t'.look p = some sub.desc := by
  rw [DTree.look_put h]
  have hn : t.look p = none := by
    cases hl : t.look p with
    | none => rfl
    | some x =>
      have := (DTree.put_none (base := base) (sub := sub)).mpr (by rw [hl]; exact fun h => (nomatch h) : t.look p ≠ none)
      rw [this] at h
      exact (nomatch h)
  rw [hn]
  simp [DTree.adds, DTree.look_nil]

/-- C87 fails for nodes that are put into the tree after the policies were applied: a leaf that is put below a storage has the storage's listeners if the storage
is applied afterwards, and none of them if it was applied before. -/
theorem C87_late_violated (t sub : DTree HNode) (base : HNode) (i : Nat) (p : NamePattern) (hleaf : sub.desc.cls = .leaf)
    (hsub : ∀ e f, Lst.pol i f ∉ sub.desc.ls e) :
    (∀ t1 t2 a, DTree.put base t p sub = some (t1, a) → Pol.memStorage.apply i t1 = some t2 →
      ∃ d, t2.look p = some d ∧ .pol i .onSearch ∈ d.ls .search ∧ .pol i .onSave ∈ d.ls .save) ∧
    ∀ t1 t2 a, Pol.memStorage.apply i t = some t1 → DTree.put base t1 p sub = some (t2, a) →
      ∃ d, t2.look p = some d ∧ ∀ e f, Lst.pol i f ∉ d.ls e := by
  constructor
  · intro t1 t2 a h1 h2
    injection h2 with h2
    subst h2
    refine ⟨storageNode i sub.desc, by rw [look_storage, look_put_new h1]; rfl, ?_⟩
    rw [storageNode_eq i _ .memStorage rfl]
    simp [HNode.plus, one, hleaf, Cls.has, wants]
  · intro t1 t2 a _ h2
    exact ⟨sub.desc, look_put_new h2, hsub⟩

/-- both orders are possible -/
example : ∃ t sub : DTree HNode, ∃ base i p, sub.desc.cls = .leaf ∧ (∀ e f, Lst.pol i f ∉ sub.desc.ls e) ∧ (DTree.put base t p sub).isSome ∧
    ∃ t1, Pol.memStorage.apply i t = some t1 ∧ (DTree.put base t1 p sub).isSome :=
  ⟨.node ⟨.base, fun _ => []⟩ [], .node ⟨.leaf, fun _ => []⟩ [], ⟨.base, fun _ => []⟩, 0, [.pat 8 [1]], rfl, fun _ _ h => (nomatch h), rfl, _, rfl, rfl⟩

/-- C87, as far as it holds: a certificate that was saved under a name that the key store did not have is found by the exact name; what is found for other names
does not change; a request that allows longer names finds nothing. -/
theorem C87_key_search_partial (st : KeyStore) (name : Name) (content raw : Wire) (hnew : st.getKey name = none) :
    ∃ st', keyOnSave (some st) name content raw = .ok (some st') ∧ keyOnSearch (some st') name false = .ok (some [raw.flatten]) ∧
      (∀ n, n ≠ name → keyOnSearch (some st') n false = keyOnSearch (some st) n false) ∧ ∀ n, keyOnSearch (some st') n true = .ok none := by
  have hf : ∀ n, (st.saveKey ⟨name, content.flatten, raw.flatten⟩).getKey n =
      (st.getKey n).or (if n = name then some ⟨name, content.flatten, raw.flatten⟩ else none) := by
    intro n
    unfold KeyStore.saveKey KeyStore.getKey
    show List.find? _ (st ++ [_]) = _
    rw [List.find?_append]
    congr 1
    by_cases hn : n = name
    · rw [if_pos hn]
      have : n.equal name = true := (nameEqual_iff n name).mpr hn
      simp [this]
    · rw [if_neg hn]
      have : n.equal name = false := by
        cases he : n.equal name with
        | false => rfl
        | true => exact absurd ((nameEqual_iff n name).mp he) hn
      simp [this]
  refine ⟨_, rfl, ?_, ?_, fun n => rfl⟩
  · simp [keyOnSearch, hf, hnew]
  · intro n hn
    simp [keyOnSearch, hf, hn]

/-- C87 fails for a name that the key store has already: the new certificate is stored but never found. -/
theorem C87_key_replace_violated (st : KeyStore) (name : Name) (content raw : Wire) (k : HmacKey) (hold : st.getKey name = some k) :
    ∃ st', keyOnSave (some st) name content raw = .ok (some st') ∧ keyOnSearch (some st') name false = .ok (some [k.cert]) := by
  refine ⟨_, rfl, ?_⟩
  have : (st.saveKey ⟨name, content.flatten, raw.flatten⟩).getKey name = some k := by
    unfold KeyStore.saveKey KeyStore.getKey
    show List.find? _ (st ++ [_]) = _
    rw [List.find?_append]
    have h : List.find? (fun k => name.equal k.name) st = some k := hold
    rw [h]; rfl
  simp [keyOnSearch, this]

example : ∃ k, KeyStore.getKey [⟨[⟨8, [1]⟩], [2], [3]⟩] [⟨8, [1]⟩] = some k ∧ KeyStore.getKey [⟨[⟨8, [1]⟩], [2], [3]⟩] [⟨8, [4]⟩] = none :=
  ⟨⟨[⟨8, [1]⟩], [2], [3]⟩, by decide, by decide⟩

end Ndn.Schema
