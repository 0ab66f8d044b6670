import Verif.Schema.Attr
import Mathlib.Data.List.Forall2

/-!
# C73: attributes of nodes and policies
-/

namespace Ndn.Schema

variable {F : Type}

/-! ## Specification -/

/-- what the value of a pattern stands for: bytes, a number, or the text of a component -/
inductive MeansComp (ops : FloatOps F) : GVal F → Bytes → Prop
  | bytes (b : Bytes) : MeansComp ops (.bytes b) b
  | u64 (n : Nat) : MeansComp ops (.u64 n) (natEnc n)
  | f64 (x : F) : MeansComp ops (.f64 x) (natEnc (ops.toU64 x))
  | str (s : Bytes) (c : Component) : componentFromStr s = .ok c → MeansComp ops (.str s) c.val

/-- `Means ops k cur v w`: a property of kind `k` for a field with the value `cur` takes the value `v` to be `w`.  Numbers of a time are milliseconds. -/
inductive Means (ops : FloatOps F) : PKind → GVal F → GVal F → GVal F → Prop
  | same (cur v : GVal F) : v.ty = cur.ty → Means ops .dflt cur v v
  | number (n : Nat) (x : F) : Means ops .dflt (.u64 n) (.f64 x) (.u64 (ops.toU64 x))
  | ctype (n : Nat) (x : F) : Means ops .dflt (.ctype n) (.f64 x) (.ctype (ops.toU64 x))
  | text (b s : Bytes) : Means ops .dflt (.bytes b) (.str s) (.bytes s)
  | ms64 (d : Int) (x : F) : Means ops .time (.dur d) (.f64 x) (.dur (ops.ms x))
  | ms32 (d : Int) (x : F) : Means ops .time (.dur d) (.f32 x) (.dur (ops.ms x))
  | u64 (d : Int) (n : Nat) : n * 1000000 < 2 ^ 63 → Means ops .time (.dur d) (.u64 n) (.dur (n * 1000000))
  | uint (d : Int) (n : Nat) : n * 1000000 < 2 ^ 63 → Means ops .time (.dur d) (.uint n) (.dur (n * 1000000))
  | i64 (d : Int) (n : Int) : -2 ^ 63 ≤ n * 1000000 → n * 1000000 < 2 ^ 63 → Means ops .time (.dur d) (.i64 n) (.dur (n * 1000000))
  | int (d : Int) (n : Int) : -2 ^ 63 ≤ n * 1000000 → n * 1000000 < 2 ^ 63 → Means ops .time (.dur d) (.int n) (.dur (n * 1000000))
  | dur (d d' : Int) : Means ops .time (.dur d) (.dur d') (.dur d')
  | name (n n' : Name) : Means ops .name (.name n) (.name n') (.name n')
  | nameText (n n' : Name) (s : Bytes) : nameFromStr s = .ok n' → Means ops .name (.name n) (.str s) (.name n')
  | matching (o : List (String × Bytes)) (m : List (String × GVal F)) (m' : List (String × Bytes)) : m.map Prod.fst = m'.map Prod.fst →
      List.Forall₂ (MeansComp ops) (m.map Prod.snd) (m'.map Prod.snd) → Means ops .matching (.matching o) (.map m) (.matching m')

/-- the values that the code takes as they are meant; left out: a number for a content type, a duration for a time, a text for a name, a number in a
pattern -/
def Taken : PKind → GVal F → GVal F → Prop
  | .dflt, .ctype _, .f64 _ => False
  | .time, _, .dur _ => False
  | .name, _, .str _ => False
  | .matching, _, .map m => ∀ k x, (k, GVal.f64 x) ∉ m
  | _, _, _ => True

/-- a field of the tree -/
def PTree.field (t : PTree F) (path f : String) : Option (GVal F) :=
  match t.get path with
  | some n => n.impl.get f
  | none => none

/-- the field that the property `key` of the node sets: the path of its node, the kind of property and its name -/
def target (t : PTree F) (key : String) : Option (String × PKind × String) :=
  match t.get "" with
  | none => none
  | some n =>
    match findProp n.props key with
    | none => none
    | some (.fld k f) => some ("", k, f)
    | some (.sub path key') =>
      match t.get path with
      | none => none
      | some n' =>
        match findProp n'.props key' with
        | some (.fld k f) => some (path, k, f)
        | _ => none

/-- `Subst env v w`: `w` is `v` with each text that begins with `$` replaced by its value in the environment, at every depth -/
inductive Subst (env : Env F) : GVal F → GVal F → Prop
  | var (s : Bytes) (w : GVal F) : s.head? = some 36 → env s = some w → Subst env (.str s) w
  | text (s : Bytes) : s.head? ≠ some 36 → Subst env (.str s) (.str s)
  | map (m m' : List (String × GVal F)) : m.map Prod.fst = m'.map Prod.fst → List.Forall₂ (Subst env) (m.map Prod.snd) (m'.map Prod.snd) →
      Subst env (.map m) (.map m')
  | list (l l' : List (GVal F)) : List.Forall₂ (Subst env) l l' → Subst env (.list l) (.list l')
  | other (v : GVal F) : v.ty ≠ .str → v.ty ≠ .map → v.ty ≠ .list → Subst env v v

/-! ## Lemmas -/

theorem Impl.get_put (o : Impl F) (f g : String) (v : GVal F) :
    (o.put f v).get g = if g = f then (o.get f).map (fun _ => v) else o.get g := by
  induction o with
  | nil => simp [Impl.put, Impl.get]
  | cons p o ih =>
    obtain ⟨k, w⟩ := p
    simp only [Impl.put, List.map_cons] at ih ⊢
    by_cases hk : k = f
    · subst hk
      by_cases hg : k = g
      · subst hg; simp [Impl.get]
      · have : ¬ g = k := fun h => hg h.symm
        simp only [this, if_false] at ih
        simp [Impl.get, hg, this, ih]
    · by_cases hg : k = g
      · subst hg; simp [Impl.get, hk]
      · simp only [Impl.get, hk, if_false, hg]
        exact ih

theorem PTree.get_put (t : PTree F) (p q : String) (o : Impl F) :
    (t.put p o).get q = if q = p then (t.get p).map (fun n => ⟨n.props, o⟩) else t.get q := by
  induction t with
  | nil => simp [PTree.put, PTree.get]
  | cons x t ih =>
    obtain ⟨k, w⟩ := x
    simp only [PTree.put, List.map_cons] at ih ⊢
    by_cases hk : k = p
    · subst hk
      by_cases hg : k = q
      · subst hg; simp [PTree.get]
      · have : ¬ q = k := fun h => hg h.symm
        simp only [this, if_false] at ih
        simp [PTree.get, hg, this, ih]
    · by_cases hg : k = q
      · subst hg; simp [PTree.get, hk]
      · simp only [PTree.get, hk, if_false, hg]
        exact ih

theorem msOf_int {n : Int} (h1 : -2 ^ 63 ≤ n * 1000000) (h2 : n * 1000000 < 2 ^ 63) : msOf n = n * 1000000 := wrap64_id h1 h2

theorem msOf_nat {n : Nat} (h : n * 1000000 < 2 ^ 63) : msOf n = n * 1000000 := by
  have h' : ((n * 1000000 : Nat) : Int) < ((2 ^ 63 : Nat) : Int) := Int.ofNat_lt.mpr h
  rw [Int.natCast_mul] at h'
  refine msOf_int ?_ h'
  have : (0 : Int) ≤ n * 1000000 := Int.mul_nonneg (Int.natCast_nonneg n) (by decide)
  exact Int.le_trans (by decide) this

theorem matchOf_means (ops : FloatOps F) : ∀ (m : List (String × GVal F)) (m' : List (String × Bytes)), m.map Prod.fst = m'.map Prod.fst →
    List.Forall₂ (MeansComp ops) (m.map Prod.snd) (m'.map Prod.snd) → (∀ k x, (k, GVal.f64 x) ∉ m) → matchOf m = some m'
  | [], [], _, _, _ => rfl
  | [], _ :: _, h, _, _ => by simp at h
  | _ :: _, [], h, _, _ => by simp at h
  | (k, v) :: m, (k', b) :: m', hk, hv, hn => by
    simp only [List.map_cons, List.cons.injEq] at hk
    simp only [List.map_cons, List.forall₂_cons] at hv
    have ih := matchOf_means ops m m' hk.2 hv.2 fun k x h => hn k x (List.mem_cons_of_mem _ h)
    obtain ⟨rfl, -⟩ := hk
    cases hv.1 with
    | bytes => simp [matchOf, ih]
    | u64 n => simp [matchOf, ih]
    | f64 x => exact absurd List.mem_cons_self (hn _ x)
    | str s c hc => simp [matchOf, ih, hc]

theorem assign_ok {o : Impl F} {f : String} {cur v : GVal F} (h : v.ty = cur.ty) : assignField o f cur v = (o.put f v, none) := by
  simp [assignField, h]

theorem set_means {ops : FloatOps F} {k : PKind} {f : String} {o : Impl F} {cur v w : GVal F} (hc : o.get f = some cur) (hm : Means ops k cur v w)
    (ht : Taken k cur v) : k.set ops f o v = (o.put f w, none) := by
  cases hm with
  | same _ _ h =>
    simp only [PKind.set, setDefault, hc]
    split
    · rename_i h1; rw [h1] at h; simp [GVal.ty] at h
    · rename_i h1; rw [h1] at h; simp [GVal.ty] at h
    · exact assign_ok h
  | number => simp [PKind.set, setDefault, hc, GVal.ty]
  | ctype => exact ht.elim
  | text => simp [PKind.set, setDefault, hc, GVal.ty]
  | ms64 | ms32 => simp [PKind.set, setTime, hc, assignField, GVal.ty]
  | u64 d n h | uint d n h => simp [PKind.set, setTime, hc, assignField, GVal.ty, msOf_nat h]
  | i64 d n h1 h2 | int d n h1 h2 => simp [PKind.set, setTime, hc, assignField, GVal.ty, msOf_int h1 h2]
  | dur => exact ht.elim
  | name => simp [PKind.set, setName, hc, assignField, GVal.ty]
  | nameText => exact ht.elim
  | matching o m m' h1 h2 => simp [PKind.set, setMatching, hc, matchOf_means ops m m' h1 h2 ht, assignField, GVal.ty]

/-! ## Theorems -/

/-- C73: a value that a property takes reaches its field as what it means, and no other field is touched.  Partial: `Taken` leaves out the values of
`C73_name_violated`, `C73_content_type_violated`, `C73_duration_violated` and `C73_patterns_violated`. -/
theorem C73_set_partial {ops : FloatOps F} {k : PKind} {f : String} {o : Impl F} {cur v w : GVal F} (hc : o.get f = some cur)
    (hm : Means ops k cur v w) (ht : Taken k cur v) :
    (k.set ops f o v).2 = none ∧ (k.set ops f o v).1.get f = some w ∧ ∀ g, g ≠ f → (k.set ops f o v).1.get g = o.get g := by
  rw [set_means hc hm ht]
  refine ⟨rfl, ?_, fun g hg => ?_⟩
  · simp [Impl.get_put, hc]
  · simp [Impl.get_put, hg]

/-- C73: whatever the value, a `Set` that returns an error has changed nothing, and one that does not has changed its field only, which keeps its type -/
theorem C73_set_safe (ops : FloatOps F) (k : PKind) (f : String) (o : Impl F) (v : GVal F) :
    ((k.set ops f o v).2 ≠ none → (k.set ops f o v).1 = o) ∧ (∀ g, g ≠ f → (k.set ops f o v).1.get g = o.get g) ∧
      ((k.set ops f o v).1.get f).map GVal.ty = (o.get f).map GVal.ty := by
  have hassign : ∀ (cur w : GVal F), o.get f = some cur → ((assignField o f cur w).2 ≠ none → (assignField o f cur w).1 = o) ∧
      (∀ g, g ≠ f → (assignField o f cur w).1.get g = o.get g) ∧ ((assignField o f cur w).1.get f).map GVal.ty = (o.get f).map GVal.ty := by
    intro cur w hc
    unfold assignField
    split
    · rename_i h
      exact ⟨fun h => absurd rfl h, fun g hg => by simp [Impl.get_put, hg], by simp [Impl.get_put, hc, h]⟩
    · exact ⟨fun _ => rfl, fun _ _ => rfl, rfl⟩
  have hsame : ∀ e : Option AErr, ((o, e).2 ≠ none → (o, e).1 = o) ∧ (∀ g, g ≠ f → (o, e).1.get g = o.get g) ∧
      ((o, e).1.get f).map GVal.ty = (o.get f).map GVal.ty := fun e => ⟨fun _ => rfl, fun _ _ => rfl, rfl⟩
  cases k with
  | dflt =>
    simp only [PKind.set, setDefault]
    split
    · exact hsame _
    · rename_i cur hc
      split
      · rename_i hty
        exact ⟨fun h => absurd rfl h, fun g hg => by simp [Impl.get_put, hg], by simp only [Impl.get_put, hc, if_true, Option.map_some, hty]; rfl⟩
      · rename_i hty
        exact ⟨fun h => absurd rfl h, fun g hg => by simp [Impl.get_put, hg], by simp only [Impl.get_put, hc, if_true, Option.map_some, hty]; rfl⟩
      · exact hassign _ _ hc
  | time =>
    simp only [PKind.set, setTime]
    split
    · exact hsame _
    · rename_i cur hc
      split <;> first | exact hassign _ _ hc | exact hsame _
  | matching =>
    simp only [PKind.set, setMatching]
    split
    · exact hsame _
    · rename_i cur hc
      split
      · split <;> first | exact hassign _ _ hc | exact hsame _
      · exact hsame _
  | name =>
    simp only [PKind.set, setName]
    split
    · exact hsame _
    · rename_i cur hc
      split
      · exact hassign _ _ hc
      · split <;> first | exact hassign _ _ hc | exact hsame _
      · exact hsame _

/-- C73: a time that was set in whole milliseconds is read back -/
theorem C73_time_get {ops : FloatOps F} {f : String} {o : Impl F} {d : Int} (hc : o.get f = some (.dur d)) {v : GVal F} {n : Nat}
    (hv : v = .u64 n ∨ v = .uint n ∨ v = .int n ∨ v = .i64 n ∨ ∃ x, v = .f64 x ∧ ops.ms x = n * 1000000) (hn : n * 1000000 < 2 ^ 63) :
    (setTime ops f o v).2 = none ∧ getTime f (setTime ops f o v).1 = .u64 n := by
  have key : setTime ops f o v = (o.put f (.dur (n * 1000000)), none) := by
    rcases hv with rfl | rfl | rfl | rfl | ⟨x, rfl, hx⟩
    · exact set_means (ops := ops) (k := .time) hc (.u64 d n hn) trivial
    · exact set_means (ops := ops) (k := .time) hc (.uint d n hn) trivial
    · exact set_means (ops := ops) (k := .time) hc (.int d n (by omega) (by omega)) trivial
    · exact set_means (ops := ops) (k := .time) hc (.i64 d n (by omega) (by omega)) trivial
    · rw [← hx]; exact set_means (ops := ops) (k := .time) hc (.ms64 d x) trivial
  rw [key]
  refine ⟨rfl, ?_⟩
  have e : ((n : Int) * 1000000).tdiv 1000000 = n := Int.mul_tdiv_cancel _ (by decide)
  simp only [getTime, Impl.get_put, hc, if_true, Option.map_some, e]
  congr 1; omega

/-- C73: a time before zero is taken, and read back as an enormous number -/
theorem C73_time_get_violated {ops : FloatOps F} {f : String} {o : Impl F} {d : Int} (hc : o.get f = some (.dur d)) {n : Nat} (h0 : 0 < n)
    (hn : n * 1000000 ≤ 2 ^ 63) : (setTime ops f o (.i64 (-n))).2 = none ∧ getTime f (setTime ops f o (.i64 (-n))).1 = .u64 (2 ^ 64 - n) := by
  have h1 : -2 ^ 63 ≤ (-(n : Int)) * 1000000 := by omega
  have h2 : (-(n : Int)) * 1000000 < 2 ^ 63 := by omega
  have key : setTime ops f o (.i64 (-n)) = (o.put f (.dur (-n * 1000000)), none) := set_means (ops := ops) (k := .time) hc (.i64 d (-n) h1 h2) trivial
  rw [key]
  refine ⟨rfl, ?_⟩
  have e : (-(n : Int) * 1000000).tdiv 1000000 = -n := Int.mul_tdiv_cancel _ (by decide)
  simp only [getTime, Impl.get_put, hc, if_true, Option.map_some, e]
  congr 1; omega

/-! ### Trees -/

theorem field_put {t : PTree F} {p : String} {n : PNode F} (h : t.get p = some n) (o : Impl F) (q g : String) :
    (t.put p o).field q g = if q = p then o.get g else t.field q g := by
  unfold PTree.field
  rw [PTree.get_put]
  by_cases hq : q = p
  · subst hq; simp [h]
  · simp [hq]

theorem target_put (t : PTree F) (p : String) (o : Impl F) (key : String) : target (t.put p o) key = target t key := by
  have hp : ∀ q, ((t.put p o).get q).map PNode.props = (t.get q).map PNode.props := by
    intro q
    rw [PTree.get_put]
    by_cases hq : q = p
    · subst hq; cases t.get q <;> simp
    · simp [hq]
  have h0 := hp ""
  unfold target
  cases e : t.get "" with
  | none => rw [e] at h0; simp only [Option.map_none, Option.map_eq_none_iff] at h0; simp [h0]
  | some n =>
    rw [e] at h0
    simp only [Option.map_some, Option.map_eq_some_iff] at h0
    obtain ⟨n', e', hn⟩ := h0
    simp only [e', hn]
    cases findProp n.props key with
    | none => rfl
    | some d =>
      cases d with
      | fld k f => rfl
      | sub path key' =>
        have h1 := hp path
        cases e2 : t.get path with
        | none => rw [e2] at h1; simp only [Option.map_none, Option.map_eq_none_iff] at h1; simp [h1, e2]
        | some m =>
          rw [e2] at h1
          simp only [Option.map_some, Option.map_eq_some_iff] at h1
          obtain ⟨m', e3, hm⟩ := h1
          simp [e3, hm, e2]

theorem setProp_target {ops : FloatOps F} {t : PTree F} {key : String} {p f : String} {k : PKind} (h : target t key = some (p, k, f)) (v : GVal F) :
    setProp ops t key v = some (setAt ops t p k f v) := by
  unfold target at h
  unfold setProp
  cases e : t.get "" with
  | none => simp [e] at h
  | some n =>
    simp only [e] at h ⊢
    cases e1 : findProp n.props key with
    | none => simp [e1] at h
    | some d =>
      simp only [e1] at h ⊢
      cases d with
      | fld k' f' => simp only [Option.some.injEq, Prod.mk.injEq] at h; obtain ⟨rfl, rfl, rfl⟩ := h; rfl
      | sub path key' =>
        simp only at h ⊢
        cases e2 : t.get path with
        | none => simp [e2] at h
        | some m =>
          simp only [e2] at h ⊢
          cases e3 : findProp m.props key' with
          | none => simp [e3] at h
          | some d' =>
            simp only [e3] at h ⊢
            cases d' with
            | sub => simp at h
            | fld k' f' => simp only [Option.some.injEq, Prod.mk.injEq] at h; obtain ⟨rfl, rfl, rfl⟩ := h; rfl

/-- what an attribute is to do: the path of the node, the kind of property, the field and the value that it is to have -/
structure Goal (F : Type) where
  path : String
  kind : PKind
  fld : String
  val : GVal F

/-- the attribute `a` of the tree `t` is to do `g` -/
def Attains (ops : FloatOps F) (t : PTree F) (a : String × GVal F) (g : Goal F) : Prop :=
  target t a.1 = some (g.path, g.kind, g.fld) ∧ ∃ cur, t.field g.path g.fld = some cur ∧ Means ops g.kind cur a.2 g.val ∧ Taken g.kind cur a.2

theorem attains_step {ops : FloatOps F} {t : PTree F} {a : String × GVal F} {g : Goal F} (h : Attains ops t a g) :
    ∃ t', setProp ops t a.1 a.2 = some (t', none) ∧ (∀ q f, t'.field q f = if q = g.path ∧ f = g.fld then some g.val else t.field q f) ∧
      ∀ key, target t' key = target t key := by
  obtain ⟨h1, cur, h2, h3, h4⟩ := h
  unfold PTree.field at h2
  cases e : t.get g.path with
  | none => simp [e] at h2
  | some n =>
    simp only [e] at h2
    have hs := set_means h2 h3 h4
    refine ⟨t.put g.path (n.impl.put g.fld g.val), ?_, fun q f => ?_, fun key => target_put ..⟩
    · rw [setProp_target h1, setAt, e]; simp only [hs]
    · rw [field_put e, Impl.get_put, h2]
      by_cases hq : q = g.path
      · subst hq
        by_cases hf : f = g.fld
        · simp [hf]
        · simp [hf, PTree.field, e]
      · simp [hq]

theorem setAttrs_attains {ops : FloatOps F} : ∀ (as : List (String × GVal F)) (gs : List (Goal F)) (t : PTree F), List.Forall₂ (Attains ops t) as gs →
    (gs.map fun g => (g.path, g.fld)).Nodup → ∃ t', setAttrs ops t as = some t' ∧ (∀ g ∈ gs, t'.field g.path g.fld = some g.val) ∧
      ∀ q f, (q, f) ∉ gs.map (fun g => (g.path, g.fld)) → t'.field q f = t.field q f
  | [], [], t, _, _ => ⟨t, rfl, by simp, fun _ _ _ => rfl⟩
  | [], _ :: _, _, h, _ => by simp at h
  | _ :: _, [], _, h, _ => by simp at h
  | a :: as, g :: gs, t, h, hn => by
    simp only [List.forall₂_cons] at h
    simp only [List.map_cons, List.nodup_cons] at hn
    obtain ⟨t1, h1, h2, h3⟩ := attains_step h.1
    have hne : ∀ g' ∈ gs, ¬ (g'.path = g.path ∧ g'.fld = g.fld) := by
      rintro g' hg' ⟨e1, e2⟩
      exact hn.1 (List.mem_map.mpr ⟨g', hg', by rw [e1, e2]⟩)
    have h' : List.Forall₂ (Attains ops t1) as gs := by
      have key : ∀ (as : List (String × GVal F)) (gs' : List (Goal F)), (∀ g' ∈ gs', ¬ (g'.path = g.path ∧ g'.fld = g.fld)) →
          List.Forall₂ (Attains ops t) as gs' → List.Forall₂ (Attains ops t1) as gs' := by
        intro as gs' hne' hf
        induction hf with
        | nil => exact .nil
        | cons hd _ ih =>
          refine .cons ?_ (ih fun g' hg' => hne' g' (List.mem_cons_of_mem _ hg'))
          obtain ⟨k1, cur, k2, k3, k4⟩ := hd
          exact ⟨(h3 _).trans k1, cur, by rw [h2, if_neg (hne' _ List.mem_cons_self)]; exact k2, k3, k4⟩
      exact key as gs hne h.2
    obtain ⟨t', k1, k2, k3⟩ := setAttrs_attains as gs t1 h' hn.2
    refine ⟨t', by rw [show (a :: as) = (a.1, a.2) :: as from rfl, setAttrs, h1]; exact k1, fun g' hg' => ?_, fun q f hq => ?_⟩
    · rcases List.mem_cons.mp hg' with rfl | hg'
      · rw [k3 _ _ hn.1, h2]; simp
      · exact k2 g' hg'
    · simp only [List.map_cons, List.mem_cons, not_or, Prod.mk.injEq] at hq
      rw [k3 _ _ hq.2, h2, if_neg hq.1]

/-! ### The environment -/

theorem inst_other {env : Env F} {v : GVal F} (h1 : v.ty ≠ .str) (h2 : v.ty ≠ .map) (h3 : v.ty ≠ .list) : v.inst env = some v := by
  cases v <;> first | rfl | exact absurd rfl h1 | exact absurd rfl h2 | exact absurd rfl h3

theorem inst_str (env : Env F) (s : Bytes) : (GVal.str s).inst env = if s.head? = some 36 then env s else some (.str s) := by
  cases s with
  | nil => simp [GVal.inst]
  | cons c s => by_cases h : c = 36 <;> simp [GVal.inst, h]

mutual
theorem inst_iff (env : Env F) : ∀ (v w : GVal F), v.inst env = some w ↔ Subst env v w
  | .str s, w => by
    rw [inst_str]
    split
    · rename_i h
      exact ⟨fun e => .var s w h e, fun k => by cases k with | var _ _ _ e => exact e | text _ h' => exact absurd h h' | other _ h' => exact absurd rfl h'⟩
    · rename_i h
      exact ⟨fun e => by cases e; exact .text s h, fun k => by cases k with | var _ _ h' e => exact absurd h' h | text _ h' => rfl | other _ h' => exact absurd rfl h'⟩
  | .map m, w => by
    have ih := instMap_iff env m
    constructor
    · intro h
      simp only [GVal.inst, Option.map_eq_some_iff] at h
      obtain ⟨m', h1, rfl⟩ := h
      exact .map m m' ((ih m').mp h1).1 ((ih m').mp h1).2
    · intro h
      cases h with
      | map _ m' h1 h2 => simp [GVal.inst, (ih m').mpr ⟨h1, h2⟩]
      | other _ _ h' => exact absurd rfl h'
  | .list l, w => by
    have ih := instList_iff env l
    constructor
    · intro h
      simp only [GVal.inst, Option.map_eq_some_iff] at h
      obtain ⟨l', h1, rfl⟩ := h
      exact .list l l' ((ih l').mp h1)
    · intro h
      cases h with
      | list _ l' h1 => simp [GVal.inst, (ih l').mpr h1]
      | other _ _ _ h' => exact absurd rfl h'
  | .nil, w => inst_iff_other env (by simp [GVal.ty]) (by simp [GVal.ty]) (by simp [GVal.ty])
  | .bool _, w => inst_iff_other env (by simp [GVal.ty]) (by simp [GVal.ty]) (by simp [GVal.ty])
  | .bytes _, w => inst_iff_other env (by simp [GVal.ty]) (by simp [GVal.ty]) (by simp [GVal.ty])
  | .f64 _, w => inst_iff_other env (by simp [GVal.ty]) (by simp [GVal.ty]) (by simp [GVal.ty])
  | .f32 _, w => inst_iff_other env (by simp [GVal.ty]) (by simp [GVal.ty]) (by simp [GVal.ty])
  | .u64 _, w => inst_iff_other env (by simp [GVal.ty]) (by simp [GVal.ty]) (by simp [GVal.ty])
  | .i64 _, w => inst_iff_other env (by simp [GVal.ty]) (by simp [GVal.ty]) (by simp [GVal.ty])
  | .uint _, w => inst_iff_other env (by simp [GVal.ty]) (by simp [GVal.ty]) (by simp [GVal.ty])
  | .int _, w => inst_iff_other env (by simp [GVal.ty]) (by simp [GVal.ty]) (by simp [GVal.ty])
  | .ctype _, w => inst_iff_other env (by simp [GVal.ty]) (by simp [GVal.ty]) (by simp [GVal.ty])
  | .dur _, w => inst_iff_other env (by simp [GVal.ty]) (by simp [GVal.ty]) (by simp [GVal.ty])
  | .name _, w => inst_iff_other env (by simp [GVal.ty]) (by simp [GVal.ty]) (by simp [GVal.ty])
  | .matching _, w => inst_iff_other env (by simp [GVal.ty]) (by simp [GVal.ty]) (by simp [GVal.ty])
  | .ext _ _, w => inst_iff_other env (by simp [GVal.ty]) (by simp [GVal.ty]) (by simp [GVal.ty])
theorem instMap_iff (env : Env F) : ∀ (m m' : List (String × GVal F)), instMap env m = some m' ↔
    m.map Prod.fst = m'.map Prod.fst ∧ List.Forall₂ (Subst env) (m.map Prod.snd) (m'.map Prod.snd)
  | [], m' => by cases m' <;> simp [instMap]
  | (k, v) :: m, m' => by
    have ih1 := inst_iff env v
    have ih2 := instMap_iff env m
    constructor
    · intro h
      simp only [instMap] at h
      split at h
      · rename_i v' m'' e1 e2
        cases h
        have := (ih2 _).mp e2
        simp only [List.map_cons, List.forall₂_cons]
        exact ⟨by rw [this.1], (ih1 _).mp e1, this.2⟩
      · cases h
    · intro ⟨h1, h2⟩
      cases m' with
      | nil => simp at h1
      | cons p m' =>
        obtain ⟨k', v'⟩ := p
        simp only [List.map_cons, List.forall₂_cons, List.cons.injEq] at h1 h2
        simp only [instMap, (ih1 v').mpr h2.1, (ih2 m').mpr ⟨h1.2, h2.2⟩, h1.1]
theorem instList_iff (env : Env F) : ∀ (l l' : List (GVal F)), instList env l = some l' ↔ List.Forall₂ (Subst env) l l'
  | [], l' => by cases l' <;> simp [instList]
  | v :: l, l' => by
    have ih1 := inst_iff env v
    have ih2 := instList_iff env l
    constructor
    · intro h
      simp only [instList] at h
      split at h
      · rename_i v' l'' e1 e2
        cases h
        exact .cons ((ih1 _).mp e1) ((ih2 _).mp e2)
      · cases h
    · intro h
      cases h with
      | cons h1 h2 => simp only [instList, (ih1 _).mpr h1, (ih2 _).mpr h2]
theorem inst_iff_other (env : Env F) {v w : GVal F} (h1 : v.ty ≠ .str) (h2 : v.ty ≠ .map) (h3 : v.ty ≠ .list) : v.inst env = some w ↔ Subst env v w := by
  rw [inst_other h1 h2 h3]
  constructor
  · intro h; cases h; exact .other v h1 h2 h3
  · intro h
    cases h with
    | var => exact absurd rfl h1
    | text => exact absurd rfl h1
    | map => exact absurd rfl h2
    | list => exact absurd rfl h3
    | other => rfl
end

/-- C73: `instantiateAttrs` replaces every text that begins with `$`, at every depth, and nothing else; it panics exactly if a value is missing -/
theorem C73_environment (env : Env F) (m : List (String × GVal F)) :
    (∀ m', instMap env m = some m' ↔ Subst env (.map m) (.map m')) ∧ (instMap env m = none ↔ ∀ m', ¬ Subst env (.map m) (.map m')) := by
  have key : ∀ m', instMap env m = some m' ↔ Subst env (.map m) (.map m') := fun m' => by
    rw [← inst_iff]; simp [GVal.inst]
  refine ⟨key, fun h m' k => ?_, fun h => ?_⟩
  · rw [← key, h] at k; cases k
  · cases e : instMap env m with
    | none => rfl
    | some m' => exact absurd ((key m').mp e) (h m')

/-- C73: the attributes of a node or policy, in whatever order, each reach their fields; no other field of the node or of the nodes below changes.  Partial as
`C73_set_partial` is. -/
theorem C73_attrs_partial {ops : FloatOps F} {env : Env F} {t : PTree F} {attrs as : List (String × GVal F)} {gs : List (Goal F)}
    (hs : Subst env (.map attrs) (.map as)) (ha : List.Forall₂ (Attains ops t) as gs) (hn : (gs.map fun g => (g.path, g.fld)).Nodup) :
    ∃ t', applyAttrs ops env t attrs = some t' ∧ (∀ g ∈ gs, t'.field g.path g.fld = some g.val) ∧
      ∀ q f, (q, f) ∉ gs.map (fun g => (g.path, g.fld)) → t'.field q f = t.field q f := by
  obtain ⟨t', h1, h2, h3⟩ := setAttrs_attains as gs t ha hn
  exact ⟨t', by rw [applyAttrs, ((C73_environment env attrs).1 as).mpr hs]; exact h1, h2, h3⟩

/-- the properties of a class are in order: every one leads to a field, of the type that the property needs, and different ones to different fields -/
structure TreeOk (t : PTree F) : Prop where
  root : ∃ n, t.get "" = some n ∧ (∀ p ∈ n.props, ∃ path k f cur, target t p.1 = some (path, k, f) ∧ t.field path f = some cur ∧
        (k = .time → cur.ty = .dur) ∧ (k = .matching → cur.ty = .matching) ∧ (k = .name → cur.ty = .name)) ∧
      (n.props.map fun p => (target t p.1).map fun x => (x.1, x.2.2)).Nodup

/-- a test for `TreeOk` -/
def treeOk (t : PTree F) : Bool :=
  match t.get "" with
  | none => false
  | some n => (n.props.all fun p => match target t p.1 with
      | none => false
      | some (path, k, f) => match t.field path f with
        | none => false
        | some cur => (k != .time || cur.ty == .dur) && (k != .matching || cur.ty == .matching) && (k != .name || cur.ty == .name)) &&
    decide (n.props.map fun p => (target t p.1).map fun x => (x.1, x.2.2)).Nodup

theorem treeOk_sound {t : PTree F} (h : treeOk t = true) : TreeOk t := by
  unfold treeOk at h
  cases hn : t.get "" with
  | none => simp [hn] at h
  | some n =>
    simp only [hn] at h
    rw [Bool.and_eq_true] at h
    refine ⟨n, hn, fun p hp => ?_, of_decide_eq_true h.2⟩
    have := List.all_eq_true.mp h.1 p hp
    split at this
    · cases this
    · rename_i path k f ht
      split at this
      · cases this
      · rename_i cur hc
        refine ⟨path, k, f, cur, ht, hc, ?_⟩
        simp only [Bool.and_eq_true, Bool.or_eq_true, bne_iff_ne, beq_iff_eq] at this
        tauto

/-- some value of the type -/
def GTy.some : GTy → GVal Unit
  | .nil => .nil
  | .bool => .bool false
  | .str => .str []
  | .bytes => .bytes []
  | .f64 => .f64 ()
  | .f32 => .f32 ()
  | .u64 => .u64 0
  | .i64 => .i64 0
  | .uint => .uint 0
  | .int => .int 0
  | .ctype => .ctype 0
  | .dur => .dur 0
  | .name => .name []
  | .matching => .matching []
  | .map => .map []
  | .list => .list []
  | .ext t => .ext t 0

theorem GTy.ty_some (t : GTy) : t.some.ty = t := by cases t <;> rfl

/-- the tree with the values forgotten -/
def PTree.erase (t : PTree F) : PTree Unit := t.map fun p => (p.1, ⟨p.2.props, p.2.impl.map fun q => (q.1, q.2.ty.some)⟩)

theorem erase_get (t : PTree F) (p : String) :
    t.erase.get p = (t.get p).map fun n => ⟨n.props, n.impl.map fun q => (q.1, q.2.ty.some)⟩ := by
  induction t with
  | nil => rfl
  | cons x t ih =>
    obtain ⟨k, n⟩ := x
    simp only [PTree.erase, List.map_cons, PTree.get] at ih ⊢
    split
    · rfl
    · exact ih

theorem erase_field (t : PTree F) (p f : String) : t.erase.field p f = (t.field p f).map fun v => v.ty.some := by
  unfold PTree.field
  rw [erase_get]
  cases t.get p with
  | none => rfl
  | some n =>
    simp only [Option.map_some]
    induction n.impl with
    | nil => rfl
    | cons x o ih =>
      obtain ⟨k, v⟩ := x
      simp only [List.map_cons, Impl.get]
      split
      · rfl
      · exact ih

theorem erase_target (t : PTree F) (key : String) : target t.erase key = target t key := by
  simp only [target, erase_get]
  cases t.get "" with
  | none => rfl
  | some n =>
    simp only [Option.map_some]
    cases findProp n.props key with
    | none => rfl
    | some d =>
      cases d with
      | fld => rfl
      | sub path key' => cases e : t.get path <;> simp [e]

theorem treeOk_of_erase {t : PTree F} (h : TreeOk t.erase) : TreeOk t := by
  obtain ⟨n', h0, h, h'⟩ := h.root
  rw [erase_get, Option.map_eq_some_iff] at h0
  obtain ⟨n, e, rfl⟩ := h0
  · simp only [erase_target, erase_field] at h h'
    refine ⟨n, e, fun p hp => ?_, h'⟩
    obtain ⟨path, k, f, cur, h1, h2, h3⟩ := h p hp
    rw [Option.map_eq_some_iff] at h2
    obtain ⟨cur', h2, rfl⟩ := h2
    rw [GTy.ty_some] at h3
    exact ⟨path, k, f, cur', h1, h2, h3⟩

theorem ok_RegisterPolicy : TreeOk (F := F) registerPolicy := by
  have h : treeOk (PTree.erase (F := Unit) registerPolicy) = true := by decide +kernel
  have e : PTree.erase (F := F) registerPolicy = PTree.erase (F := Unit) registerPolicy := by
   simp [PTree.erase, GVal.ty, registerPolicy]
  exact treeOk_of_erase (treeOk_sound (by rw [e]; exact h))

theorem ok_FixedHmacSigner : TreeOk (F := F) fixedHmacSigner := by
  have h : treeOk (PTree.erase (F := Unit) fixedHmacSigner) = true := by decide +kernel
  have e : PTree.erase (F := F) fixedHmacSigner = PTree.erase (F := Unit) fixedHmacSigner := by
   simp [PTree.erase, GVal.ty, fixedHmacSigner]
  exact treeOk_of_erase (treeOk_sound (by rw [e]; exact h))

theorem ok_FixedHmacIntSigner : TreeOk (F := F) fixedHmacIntSigner := by
  have h : treeOk (PTree.erase (F := Unit) fixedHmacIntSigner) = true := by decide +kernel
  have e : PTree.erase (F := F) fixedHmacIntSigner = PTree.erase (F := Unit) fixedHmacIntSigner := by
   simp [PTree.erase, GVal.ty, fixedHmacIntSigner]
  exact treeOk_of_erase (treeOk_sound (by rw [e]; exact h))

theorem ok_KeyStoragePolicy : TreeOk (F := F) keyStoragePolicy := by
  have h : treeOk (PTree.erase (F := Unit) keyStoragePolicy) = true := by decide +kernel
  have e : PTree.erase (F := F) keyStoragePolicy = PTree.erase (F := Unit) keyStoragePolicy := by
   simp [PTree.erase, GVal.ty, keyStoragePolicy]
  exact treeOk_of_erase (treeOk_sound (by rw [e]; exact h))

theorem ok_SignedBy : TreeOk (F := F) signedByPolicy := by
  have h : treeOk (PTree.erase (F := Unit) signedByPolicy) = true := by decide +kernel
  have e : PTree.erase (F := F) signedByPolicy = PTree.erase (F := Unit) signedByPolicy := by
   simp [PTree.erase, GVal.ty, signedByPolicy]
  exact treeOk_of_erase (treeOk_sound (by rw [e]; exact h))

theorem ok_ExpressPoint : TreeOk (F := F) [("", expressPoint)] := by
  have h : treeOk (PTree.erase (F := Unit) [("", expressPoint)]) = true := by decide +kernel
  have e : PTree.erase (F := F) [("", expressPoint)] = PTree.erase (F := Unit) [("", expressPoint)] := by
   simp [PTree.erase, GVal.ty, expressPoint, expressProps, expressFields]
  exact treeOk_of_erase (treeOk_sound (by rw [e]; exact h))

theorem ok_LeafNode : TreeOk (F := F) [("", leafNode)] := by
  have h : treeOk (PTree.erase (F := Unit) [("", leafNode)]) = true := by decide +kernel
  have e : PTree.erase (F := F) [("", leafNode)] = PTree.erase (F := Unit) [("", leafNode)] := by
   simp [PTree.erase, GVal.ty, leafNode, expressProps, expressFields]
  exact treeOk_of_erase (treeOk_sound (by rw [e]; exact h))

theorem ok_SegmentedNode : TreeOk (F := F) [("", segmentedNode), ("<seg=segmentNumber>", leafNode)] := by
  have h : treeOk (PTree.erase (F := Unit) [("", segmentedNode), ("<seg=segmentNumber>", leafNode)]) = true := by decide +kernel
  have e : PTree.erase (F := F) [("", segmentedNode), ("<seg=segmentNumber>", leafNode)] = PTree.erase (F := Unit) [("", segmentedNode), ("<seg=segmentNumber>", leafNode)] := by
   simp [PTree.erase, GVal.ty, segmentedNode, leafNode, expressProps, expressFields]
  exact treeOk_of_erase (treeOk_sound (by rw [e]; exact h))

theorem ok_RdrNode : TreeOk (F := F) rdrNode := by
  have h : treeOk (PTree.erase (F := Unit) rdrNode) = true := by decide +kernel
  have e : PTree.erase (F := F) rdrNode = PTree.erase (F := Unit) rdrNode := by
   simp [PTree.erase, GVal.ty, rdrNode, segmentedSubs, segmentedNode, leafNode, expressPoint, expressProps, expressFields]
  exact treeOk_of_erase (treeOk_sound (by rw [e]; exact h))

theorem ok_GeneralObjNode : TreeOk (F := F) generalObjNode := by
  have h : treeOk (PTree.erase (F := Unit) generalObjNode) = true := by decide +kernel
  have e : PTree.erase (F := F) generalObjNode = PTree.erase (F := Unit) generalObjNode := by
   simp [PTree.erase, GVal.ty, generalObjNode, segmentedSubs, segmentedNode, leafNode, expressProps, expressFields]
  exact treeOk_of_erase (treeOk_sound (by rw [e]; exact h))

theorem ok_ContentKeyNode : TreeOk (F := F) contentKeyNode := by
  have h : treeOk (PTree.erase (F := Unit) contentKeyNode) = true := by decide +kernel
  have e : PTree.erase (F := F) contentKeyNode = PTree.erase (F := Unit) contentKeyNode := by
   simp [PTree.erase, GVal.ty, contentKeyNode, leafNode, expressProps, expressFields, Impl.put]
  exact treeOk_of_erase (treeOk_sound (by rw [e]; exact h))

theorem ok_SvsNode (ops : FloatOps F) : TreeOk (F := F) (svsNode ops) := by
  have h : treeOk ((svsNode0 (F := Unit)).erase) = true := by decide +kernel
  have e : (svsNode ops).erase = (svsNode0 (F := Unit)).erase := by
   simp [PTree.get, PTree.put, Impl.get, Impl.put, findProp, GVal.ty, expressPoint, expressProps, expressFields, leafNode, svsNode0, svsNode,
        setQuiet, setAt, PKind.set, setDefault, setTime, assignField, PTree.erase]
  exact treeOk_of_erase (treeOk_sound (by rw [e]; exact h))

/-- C73: so they are for every class of the library -/
theorem C73_classes (ops : FloatOps F) : ∀ c ∈ classes ops, TreeOk c.2 := by
  simp only [classes, List.forall_mem_cons]
  exact ⟨ok_RegisterPolicy, ok_FixedHmacSigner, ok_FixedHmacIntSigner, ok_KeyStoragePolicy, ok_SignedBy, ok_ExpressPoint, ok_LeafNode, ok_SegmentedNode, ok_RdrNode,
    ok_GeneralObjNode, ok_ContentKeyNode, ok_SvsNode ops, by simp⟩

/-- C73: what `Get` of a negative duration gives -/
theorem C73_time_get_negative {f : String} {o : Impl F} {n : Nat} (h0 : 0 < n) (hn : n ≤ 2 ^ 63) (hc : o.get f = some (.dur (-(n * 1000000)))) :
    getTime f o = .u64 (2 ^ 64 - n) := by
  have h : (-((n : Int) * 1000000)).tdiv 1000000 = -(n : Int) := by
    rw [Int.neg_tdiv, Int.mul_tdiv_cancel _ (by decide)]
  simp only [getTime, hc, h]
  congr 1
  omega

example : getTime (F := Unit) "Lifetime" [("Lifetime", .dur (-3000000))] = .u64 18446744073709551613 := C73_time_get_negative (n := 3) (by decide) (by decide) rfl

/-- C73: the values that the fields of a new node have, with no attributes given: class, path of the node, field, value; 60 s, 10 s, 4 s are the durations, the
validity is a hundred years -/
theorem C73_defaults (ops : FloatOps F) : ∀ d ∈ ([
    ("RegisterPolicy", "", "RegisterIf", .bool true), ("RegisterPolicy", "", "Patterns", .matching []),
    ("FixedHmacSigner", "", "Key", .str []), ("FixedHmacSigner", "", "KeyName", .name []), ("FixedHmacSigner", "", "SignForCert", .bool false),
    ("FixedHmacSigner", "", "ExpireTime", .dur 0), ("FixedHmacIntSigner", "", "Key", .str []),
    ("KeyStoragePolicy", "", "KeyStore", .ext 0 0), ("SignedBy", "", "Mapping", .map []), ("SignedBy", "", "KeyStore", .ext 0 0),
    ("SignedBy", "", "KeyNodePath", .str []),
    ("ExpressPoint", "", "CanBePrefix", .bool true), ("ExpressPoint", "", "MustBeFresh", .bool true), ("ExpressPoint", "", "Lifetime", .dur 4000000000),
    ("ExpressPoint", "", "SupressInt", .bool false),
    ("LeafNode", "", "CanBePrefix", .bool true), ("LeafNode", "", "MustBeFresh", .bool true), ("LeafNode", "", "Lifetime", .dur 4000000000),
    ("LeafNode", "", "ContentType", .ctype 0), ("LeafNode", "", "Freshness", .dur 60000000000), ("LeafNode", "", "ValidDur", .dur 3153600000000000000),
    ("SegmentedNode", "", "ContentType", .ctype 0), ("SegmentedNode", "", "Freshness", .dur 10000000000), ("SegmentedNode", "", "ValidDur", .dur 3153600000000000000),
    ("SegmentedNode", "", "Lifetime", .dur 4000000000), ("SegmentedNode", "", "MustBeFresh", .bool true), ("SegmentedNode", "", "SegmentSize", .u64 8000),
    ("SegmentedNode", "", "MaxRetriesOnFailure", .u64 15),
    ("RdrNode", "", "MetaFreshness", .dur 10000000), ("RdrNode", "", "MaxRetriesForMeta", .u64 15), ("RdrNode", "<v=versionNumber>", "SegmentSize", .u64 8000),
    ("RdrNode", "32=metadata", "Lifetime", .dur 4000000000), ("RdrNode", "32=metadata/<v=versionNumber>/seg=0", "Freshness", .dur 60000000000),
    ("GeneralObjNode", "", "MetaFreshness", .dur 10000000), ("GeneralObjNode", "", "MaxRetriesForMeta", .u64 15),
    ("GeneralObjNode", "", "ManifestFreshness", .dur 10000000), ("GeneralObjNode", "", "MaxRetriesForManifest", .u64 15),
    ("ContentKeyNode", "<contentKeyID>", "ContentType", .ctype 2), ("ContentKeyNode", "<contentKeyID>", "MustBeFresh", .bool false),
    ("ContentKeyNode", "<contentKeyID>", "CanBePrefix", .bool true), ("ContentKeyNode", "<contentKeyID>", "Freshness", .dur 60000000000),
    ("SvsNode", "", "SyncInterval", .dur 30000000000), ("SvsNode", "", "SuppressionInterval", .dur 200000000), ("SvsNode", "", "ChannelSize", .u64 0),
    ("SvsNode", "", "SelfNodeId", .bytes []), ("SvsNode", "/<8=nodeId>/<seq=seqNo>", "CanBePrefix", .bool false),
    ("SvsNode", "/<8=nodeId>/<seq=seqNo>", "MustBeFresh", .bool false), ("SvsNode", "/<8=nodeId>/<seq=seqNo>", "Freshness", .dur 60000000000),
    ("SvsNode", "/32=notif", "CanBePrefix", .bool true), ("SvsNode", "/32=notif", "MustBeFresh", .bool true)] : List (String × String × String × GVal F)),
    ∃ t, (d.1, t) ∈ classes ops ∧ t.field d.2.1 d.2.2.1 = some d.2.2.2 := by
  simp [classes, PTree.field, PTree.get, PTree.put, Impl.get, Impl.put, findProp, GVal.ty, expressPoint, expressProps, expressFields, leafNode, svsNode0, svsNode,
    setQuiet, setAt, PKind.set, setDefault, setTime, assignField, registerPolicy, fixedHmacSigner, fixedHmacIntSigner, keyStoragePolicy, signedByPolicy,
    segmentedNode, rdrNode, generalObjNode, contentKeyNode]

/-- C73 fails for the durations that `CreateSvsNode` sets (svs/sync.go:81-91): `Set` of a `time.Duration` is refused, nobody looks at the error, and the sync
Interests of a new node live for 4 s, not for the second that was asked for -/
theorem C73_svs_lifetime_violated (ops : FloatOps F) : (svsNode ops).field "/32=notif" "Lifetime" = some (.dur 4000000000) ∧
    setQuiet ops "/32=notif" "Lifetime" (.dur 1000000000) (svsNode ops) = svsNode ops := by
  constructor <;> simp [PTree.field, PTree.get, PTree.put, Impl.get, Impl.put, findProp, GVal.ty, expressPoint, expressProps, expressFields, leafNode, svsNode0, svsNode,
    setQuiet, setAt, PKind.set, setDefault, setTime, assignField]

/-! ### Violations -/

/-- C73 fails for names given as text, as in JSON: a valid name is refused, and for a text that is no name the name becomes empty and no error is returned.
So the property `KeyName` of `FixedHmacSigner` cannot be given in JSON. -/
theorem C73_name_violated {ops : FloatOps F} {f : String} {o : Impl F} {n : Name} (hc : o.get f = some (.name n)) (s : Bytes) :
    (∀ n', nameFromStr s = .ok n' → PKind.name.set ops f o (.str s) = (o, some .invalidValue)) ∧
      (∀ e, nameFromStr s = .err e → (PKind.name.set ops f o (.str s)).2 = none ∧ (PKind.name.set ops f o (.str s)).1.get f = some (.name [])) := by
  constructor
  · intro n' h; simp [PKind.set, setName, hc, h]
  · intro e h; simp [PKind.set, setName, hc, h, assignField, GVal.ty, Impl.get_put]

/-- C73 fails for content types: no JSON number is accepted, since the field is a `uint` and not a `uint64`, so that a description with `ContentType`
makes `Instantiate` panic, for every class that has the property -/
theorem C73_content_type_violated (ops : FloatOps F) (env : Env F) (x : F) :
    (∀ f o n, Impl.get o f = some (.ctype n) → PKind.dflt.set ops f o (.f64 x) = (o, some .invalidValue)) ∧
    ∀ c ∈ classes ops, (∃ n, c.2.get "" = some n ∧ "ContentType" ∈ n.props.map Prod.fst) → applyAttrs ops env c.2 [("ContentType", .f64 x)] = none := by
  constructor
  · intro f o n h; simp [PKind.set, setDefault, h, GVal.ty, assignField]
  · intro c hc
    simp only [classes, List.mem_cons, List.not_mem_nil, or_false] at hc
    rcases hc with rfl | rfl | rfl | rfl | rfl | rfl | rfl | rfl | rfl | rfl | rfl | rfl <;>
    simp [PTree.get, PTree.put, Impl.get, Impl.put, findProp, GVal.ty, registerPolicy, fixedHmacSigner, fixedHmacIntSigner, keyStoragePolicy,
      signedByPolicy, expressPoint, expressProps, expressFields, leafNode, segmentedNode, segmentedSubs, rdrNode, generalObjNode, contentKeyNode, svsNode0, svsNode,
      setQuiet, setAt, PKind.set, setDefault, setTime, assignField, applyAttrs, instMap, GVal.inst, setAttrs, setProp]

/-- C73 fails for durations: `Set` of a time refuses a `time.Duration`.  `CreateSvsNode` sets the lifetimes of its nodes so and does not look at the error:
the lifetime of sync Interests stays at four seconds instead of the one second asked for. -/
theorem C73_duration_violated (ops : FloatOps F) : (∀ f o d d', Impl.get o f = some (.dur d) → PKind.time.set ops f o (.dur d') = (o, some .invalidValue)) ∧
    (svsNode ops).field "/32=notif" "Lifetime" = some (.dur 4000000000) := by
  refine ⟨fun f o d d' h => by simp [PKind.set, setTime, h], ?_⟩
  simp [PTree.field, PTree.get, PTree.put, Impl.get, Impl.put, findProp, GVal.ty, expressPoint, expressProps, expressFields, leafNode, svsNode0, svsNode,
      setQuiet, setAt, PKind.set, setDefault, setTime, assignField]

/-- C73 fails for numbers in patterns: a pattern given as a JSON number is left out, and no error is returned -/
theorem C73_patterns_violated {ops : FloatOps F} {f : String} {o : Impl F} {m0 : List (String × Bytes)} (hc : o.get f = some (.matching m0)) (k : String) (x : F) :
    (PKind.matching.set ops f o (.map [(k, .f64 x)])).2 = none ∧ (PKind.matching.set ops f o (.map [(k, .f64 x)])).1.get f = some (.matching []) := by
  simp [PKind.set, setMatching, hc, matchOf, assignField, GVal.ty, Impl.get_put]

/-! ### Examples -/

/-- numbers with a half: `x` stands for `x / 2` -/
private def halves : FloatOps Nat := ⟨fun x => x / 2, fun x => x * 500000⟩

private def exEnv : Env Nat := fun s => if s = ascii ['$', 'k'] then some (.name [⟨8, [1]⟩]) else none

/-- attributes of `FixedHmacSigner`: a name from the environment, 1500 ms as a JSON number, and a key -/
private def exAttrs : List (String × GVal Nat) := [("KeyName", .str (ascii ['$', 'k'])), ("ExpireTime", .f64 3000), ("KeyValue", .str [104, 105])]

example : ∃ t', applyAttrs halves exEnv fixedHmacSigner exAttrs = some t' ∧ t'.field "" "KeyName" = some (.name [⟨8, [1]⟩]) ∧
    t'.field "" "ExpireTime" = some (.dur 1500000000) ∧ t'.field "" "Key" = some (.str [104, 105]) ∧ t'.field "" "SignForCert" = some (.bool false) := by
  have hs : Subst exEnv (.map exAttrs) (.map [("KeyName", .name [⟨8, [1]⟩]), ("ExpireTime", .f64 3000), ("KeyValue", .str [104, 105])]) :=
    .map _ _ rfl (.cons (.var _ _ rfl rfl) (.cons (.other _ (by simp [GVal.ty]) (by simp [GVal.ty]) (by simp [GVal.ty])) (.cons (.text _ (by decide)) .nil)))
  obtain ⟨t', h1, h2, h3⟩ := C73_attrs_partial (ops := halves) (t := fixedHmacSigner)
    (gs := [⟨"", .name, "KeyName", .name [⟨8, [1]⟩]⟩, ⟨"", .time, "ExpireTime", .dur 1500000000⟩, ⟨"", .dflt, "Key", .str [104, 105]⟩]) hs
    (.cons ⟨rfl, _, rfl, .name _ _, trivial⟩ (.cons ⟨rfl, _, rfl, .ms64 _ _, trivial⟩ (.cons ⟨rfl, _, rfl, .same _ _ rfl, trivial⟩ .nil))) (by decide)
  refine ⟨t', h1, h2 ⟨_, _, _, _⟩ (.head _), h2 ⟨_, _, _, _⟩ (.tail _ (.head _)), h2 ⟨_, _, _, _⟩ (.tail _ (.tail _ (.head _))), ?_⟩
  rw [h3 _ _ (by decide)]; rfl

/-- a pattern given as text -/
example : (PKind.matching.set halves "Patterns" [("Patterns", .matching []), ("RegisterIf", .bool true)] (.map [("v", .str [97])])).1.get "Patterns" =
    some (.matching [("v", [97])]) :=
  (C73_set_partial (cur := .matching []) rfl (.matching _ _ [("v", [97])] rfl (.cons (.str _ ⟨8, [97]⟩ rfl) .nil)) (by simp [Taken])).2.1

example : (nameFromStr (ascii ['/', 'a'])) = .ok [⟨8, [97]⟩] ∧ ∃ e, nameFromStr (ascii ['a', '=', 'b', '=']) = .err e := ⟨rfl, _, rfl⟩

end Ndn.Schema
