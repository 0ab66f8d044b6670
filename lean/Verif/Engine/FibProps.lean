import Verif.Engine.FibLemmas

/-!
# Attaching, detaching and dispatching (C30, C31, C32)

The specification is a list of attached prefixes with their handlers, computed from the history of calls alone.
-/

namespace Ndn.Engine

/-- the specification: a list of (prefix, handler) -/
abbrev Attached := List (Name × Nat)

def Attached.conflict (l : Attached) (p : Name) : Bool := l.any (fun e => e.1.isPrefixOf p || p.isPrefixOf e.1)

/-- One call on the list.  An attach is refused when it would break prefix-freeness.  What a detach does to the list is what
the code does: everything at and below the prefix goes, except a handler at the empty name (for detaches of attached,
non-empty prefixes that is the removal of one entry, see `C32_detach_partial`). -/
def Attached.step (l : Attached) : FibOp → Attached
  | .attach p h => if l.conflict p then l else (p, h) :: l
  | .detach p => l.filter (fun e => !(p.isPrefixOf e.1 && !e.1.isEmpty))

def attachedAfter : List FibOp → Attached
  | [] => []
  | op :: ops => (attachedAfter ops).step op

def FibOp.name : FibOp → Name
  | .attach p _ => p
  | .detach p => p

/-- what the table holds for exactly this prefix -/
def Fib.lookup (t : Fib) (p : Name) : Option Nat := t.at (keys p)

theorem attached_mem_canon {ops : List FibOp} (h : ∀ op ∈ ops, Canon op.name) : ∀ e ∈ attachedAfter ops, Canon e.1 := by
  induction ops with
  | nil => intro e he; cases he
  | cons op ops ih =>
    have ih := ih (fun o ho => h o (List.mem_cons_of_mem _ ho))
    have hop := h op (List.mem_cons_self)
    intro e he
    cases op with
    | attach p x =>
      simp only [attachedAfter, Attached.step] at he
      split at he
      · exact ih e he
      · rcases List.mem_cons.mp he with rfl | he
        · exact hop
        · exact ih e he
    | detach p =>
      exact ih e ((List.mem_filter.mp he).1)

theorem conflict_iff {l : Attached} {p : Name} : l.conflict p = true ↔ ∃ e ∈ l, e.1 <+: p ∨ p <+: e.1 := by
  simp [Attached.conflict, List.any_eq_true]

/-- the table and the list agree, path by path -/
theorem fib_history (ops : List FibOp) (h : ∀ op ∈ ops, Canon op.name) (r : List Bytes) (x : Nat) :
    (fibAfter ops).at r = some x ↔ ∃ p, (p, x) ∈ attachedAfter ops ∧ keys p = r := by
  induction ops generalizing r x with
  | nil =>
    constructor
    · intro hx
      exfalso
      obtain ⟨c, hc, hv⟩ := Fib.at_some hx
      simp [fibAfter, Fib.new, Trie.new] at hv
    · rintro ⟨p, hp, _⟩; cases hp
  | cons op ops ih =>
    have hops := fun o ho => h o (List.mem_cons_of_mem op ho)
    have ih := ih hops
    have hop := h op (List.mem_cons_self)
    have hcan := attached_mem_canon hops
    have hinv := fibAfter_inv ops
    cases op with
    | attach p y =>
      change Canon p at hop
      show ((fibAfter ops).attach p (some y)).2.at r = some x ↔ _
      simp only [attachedAfter, Attached.step]
      rcases hinv.attach_keys p y with ⟨_, he, q, z, hq, hc⟩ | ⟨_, _, hno, hat⟩
      · rw [he]
        obtain ⟨p', hp', rfl⟩ := (ih q z).mp hq
        have hc' := hcan _ hp'
        have : (attachedAfter ops).conflict p = true := by
          rw [conflict_iff]
          refine ⟨(p', z), hp', ?_⟩
          rcases hc with hc | hc
          · exact .inl ((keys_prefix hc' hop).mp hc)
          · exact .inr ((keys_prefix hop hc').mp hc)
        rw [if_pos this]
        exact ih r x
      · have : (attachedAfter ops).conflict p ≠ true := by
          intro hc
          obtain ⟨e, he, hc⟩ := conflict_iff.mp hc
          obtain ⟨n1, n2⟩ := hno (keys e.1) e.2 ((ih _ _).mpr ⟨e.1, he, rfl⟩)
          have hce := hcan e he
          rcases hc with hc | hc
          · exact n1 ((keys_prefix hce hop).mpr hc)
          · exact n2 ((keys_prefix hop hce).mpr hc)
        rw [if_neg this, hat]
        split
        · rename_i hr
          constructor
          · intro hx
            injection hx with hx
            exact ⟨p, by rw [hx]; exact List.mem_cons_self, hr.symm⟩
          · rintro ⟨p', hp', hk⟩
            rcases List.mem_cons.mp hp' with he | hp'
            · injection he with _ h2; rw [h2]
            · exfalso
              have := hno (keys p') x ((ih _ _).mpr ⟨p', hp', rfl⟩)
              rw [hk, hr] at this
              exact this.1 (List.prefix_refl _)
        · rename_i hr
          rw [ih r x]
          constructor
          · rintro ⟨p', hp', hk⟩; exact ⟨p', List.mem_cons_of_mem _ hp', hk⟩
          · rintro ⟨p', hp', hk⟩
            rcases List.mem_cons.mp hp' with he | hp'
            · injection he with h1 _
              rw [h1] at hk
              exact absurd hk.symm hr
            · exact ⟨p', hp', hk⟩
    | detach p =>
      change Canon p at hop
      show ((fibAfter ops).detach p).2.at r = some x ↔ _
      simp only [attachedAfter, Attached.step]
      have hkeep : ∀ p', (p', x) ∈ attachedAfter ops → ((p', x) ∈ (attachedAfter ops).filter
          (fun e => !(p.isPrefixOf e.1 && !e.1.isEmpty)) ↔ ¬ (keys p <+: keys p' ∧ keys p' ≠ [])) := by
        intro p' hp'
        rw [List.mem_filter]
        have := hcan _ hp'
        rw [keys_prefix hop this]
        constructor
        · rintro ⟨_, h2⟩ ⟨h3, h4⟩
          have h5 : p' ≠ [] := fun h => h4 (keys_nil.mpr h)
          have h3' : p.isPrefixOf p' = true := List.isPrefixOf_iff_prefix.mpr h3
          simp [h3', h5] at h2
        · intro h2
          refine ⟨hp', ?_⟩
          by_cases h3 : p <+: p'
          · have : p' = [] := by
              by_cases h4 : p' = []
              · exact h4
              · exact absurd ⟨h3, fun h => h4 (keys_nil.mp h)⟩ h2
            simp [this]
          · have h3' : p.isPrefixOf p' = false := by
              cases hb : p.isPrefixOf p' with
              | false => rfl
              | true => exact absurd (List.isPrefixOf_iff_prefix.mp hb) h3
            simp [h3']
      rcases hinv.detach_keys p with ⟨_, he, hp0, hno⟩ | ⟨_, _, _, hat⟩
      · rw [he, ih r x]
        constructor
        · rintro ⟨p', hp', hk⟩
          refine ⟨p', (hkeep p' hp').mpr ?_, hk⟩
          rintro ⟨h1, _⟩
          exact hno _ _ ((ih _ _).mpr ⟨p', hp', rfl⟩) h1
        · rintro ⟨p', hp', hk⟩
          exact ⟨p', (List.mem_filter.mp hp').1, hk⟩
      · rw [hat]
        split
        · rename_i hr
          constructor
          · intro h'; cases h'
          · rintro ⟨p', hp', hk⟩
            rw [← hk] at hr
            exact absurd hr ((hkeep p' ((List.mem_filter.mp hp').1)).mp hp')
        · rename_i hr
          rw [ih r x]
          constructor
          · rintro ⟨p', hp', hk⟩
            refine ⟨p', (hkeep p' hp').mpr ?_, hk⟩
            rw [hk]; exact hr
          · rintro ⟨p', hp', hk⟩
            exact ⟨p', (List.mem_filter.mp hp').1, hk⟩

/-! ## C30 -/

/-- C30: after every history of calls, no attached prefix is a proper prefix of another.  (All names; two names with the same
component texts count as the same prefix in this code, see `C30_nonminimal_violated`.) -/
theorem C30_prefix_free (ops : List FibOp) (p q : Name) (x y : Nat) (hp : (fibAfter ops).lookup p = some x)
    (hq : (fibAfter ops).lookup q = some y) (hpq : p <+: q) : p = q := by
  obtain ⟨c, hc, _⟩ := Fib.at_some hq
  have hk : keys p <+: keys q := by
    obtain ⟨s, rfl⟩ := hpq
    exact ⟨keys s, by simp [keys]⟩
  have := (fibAfter_inv ops).prefix_free hp hc hk
  have hl : p.length = q.length := by simpa [keys] using congrArg List.length this
  exact hpq.eq_of_length hl

/-- C30: what is attached after a history is what the list of attached prefixes says. -/
theorem C30_history_partial (ops : List FibOp) (h : ∀ op ∈ ops, Canon op.name) (p : Name) (hp : Canon p) (x : Nat) :
    (fibAfter ops).lookup p = some x ↔ (p, x) ∈ attachedAfter ops := by
  rw [Fib.lookup, fib_history ops h]
  constructor
  · rintro ⟨p', hp', hk⟩
    rw [← keys_inj (attached_mem_canon h _ hp') hp hk]; exact hp'
  · intro h'; exact ⟨p, h', rfl⟩

/-- C30: an attach succeeds exactly when no attached prefix is a prefix or an extension of the new one. -/
theorem C30_attach_iff_partial (ops : List FibOp) (h : ∀ op ∈ ops, Canon op.name) (p : Name) (hp : Canon p) (x : Nat) :
    ((fibAfter ops).attach p (some x)).1 = true ↔ ∀ e ∈ attachedAfter ops, ¬ e.1 <+: p ∧ ¬ p <+: e.1 := by
  have hcan := attached_mem_canon h
  rcases (fibAfter_inv ops).attach_keys p x with ⟨hf, _, q, z, hq, hc⟩ | ⟨ht, _, hno, _⟩
  · rw [hf]
    constructor
    · intro h'; cases h'
    · intro hall
      exfalso
      obtain ⟨p', hp', rfl⟩ := (fib_history ops h q z).mp hq
      have := hall _ hp'
      rcases hc with hc | hc
      · exact this.1 ((keys_prefix (hcan _ hp') hp).mp hc)
      · exact this.2 ((keys_prefix hp (hcan _ hp')).mp hc)
  · rw [ht]
    simp only [true_iff]
    intro e he
    have := hno (keys e.1) e.2 ((fib_history ops h _ _).mpr ⟨e.1, he, rfl⟩)
    exact ⟨fun hc => this.1 ((keys_prefix (hcan e he) hp).mpr hc), fun hc => this.2 ((keys_prefix hp (hcan e he)).mpr hc)⟩

/-- C30: a failed attach leaves the table as it was; a successful one adds the handler at the prefix and changes nothing
else. -/
theorem C30_attach_effect (ops : List FibOp) (p : Name) (x : Nat) :
    (((fibAfter ops).attach p (some x)).1 = false → ((fibAfter ops).attach p (some x)).2 = fibAfter ops) ∧
    (((fibAfter ops).attach p (some x)).1 = true → ((fibAfter ops).attach p (some x)).2.lookup p = some x ∧
      ∀ q, keys q ≠ keys p → ((fibAfter ops).attach p (some x)).2.lookup q = (fibAfter ops).lookup q) := by
  rcases (fibAfter_inv ops).attach_keys p x with ⟨hf, he, _⟩ | ⟨ht, _, _, hat⟩
  · refine ⟨fun _ => he, fun h' => ?_⟩
    rw [hf] at h'; cases h'
  · refine ⟨fun h' => ?_, fun _ => ⟨?_, ?_⟩⟩
    · rw [ht] at h'; cases h'
    · rw [Fib.lookup, hat, if_pos rfl]
    · intro q hq
      rw [Fib.lookup, hat, if_neg hq]; rfl

/-- names for the examples: `/a`, `/a/b`, `/c` -/
def nmA : Name := [⟨8, [97]⟩]
def nmAB : Name := [⟨8, [97]⟩, ⟨8, [98]⟩]
def nmC : Name := [⟨8, [99]⟩]

theorem canon_generic {n : Name} (h : ∀ c ∈ n, c.typ = 8) : Canon n := by
  intro c hc
  refine ⟨by rw [h c hc]; decide, ?_⟩
  intro hn
  rw [h c hc] at hn
  exact absurd hn (by simp [isNumberType])

theorem canon_ex : Canon nmA ∧ Canon nmAB ∧ Canon nmC :=
  ⟨canon_generic (by simp [nmA]), canon_generic (by simp [nmAB]), canon_generic (by simp [nmC])⟩

/-- the second attach of this history fails, the third succeeds -/
example : ((fibAfter [.attach nmAB 1]).attach nmA (some 2)).1 = false ∧ ((fibAfter [.attach nmAB 1]).attach nmC (some 2)).1 = true ∧
    (fibAfter [.attach nmC 2, .attach nmA 3, .attach nmAB 1]).lookup nmAB = some 1 := by decide

/-- C30 fails for numbers that are not in shortest form: `seg=1` and the same number in two bytes are different components, but
attaching the second is refused because the first is attached. -/
theorem C30_nonminimal_violated :
    let p : Name := [⟨50, [1]⟩]
    let q : Name := [⟨50, [0, 1]⟩]
    p ≠ q ∧ ¬ p <+: q ∧ ¬ q <+: p ∧ ((fibAfter [.attach p 1]).attach q (some 2)).1 = false := by
  decide

/-! ## C31 -/

/-- C31: after every history an Interest goes to the handler of an attached prefix of its name, and to no handler exactly when
there is none; the attached prefix is unique. -/
theorem C31_dispatch_partial (ops : List FibOp) (h : ∀ op ∈ ops, Canon op.name) (name : Name) (hn : Canon name) :
    (∀ x, (fibAfter ops).handler name = some x ↔ ∃ p, (p, x) ∈ attachedAfter ops ∧ p <+: name) ∧
    (∀ p q x y, (p, x) ∈ attachedAfter ops → (q, y) ∈ attachedAfter ops → p <+: name → q <+: name → p = q ∧ x = y) := by
  have hcan := attached_mem_canon h
  refine ⟨?_, ?_⟩
  · intro x
    rw [(fibAfter_inv ops).handler_keys name x]
    constructor
    · rintro ⟨q, hq, hx⟩
      obtain ⟨p, hp, rfl⟩ := (fib_history ops h q x).mp hx
      exact ⟨p, hp, (keys_prefix (hcan _ hp) hn).mp hq⟩
    · rintro ⟨p, hp, hpn⟩
      exact ⟨keys p, (keys_prefix (hcan _ hp) hn).mpr hpn, (fib_history ops h _ _).mpr ⟨p, hp, rfl⟩⟩
  · intro p q x y hp hq hpn hqn
    have hpx := (C30_history_partial ops h p (hcan _ hp) x).mpr hp
    have hqy := (C30_history_partial ops h q (hcan _ hq) y).mpr hq
    have : p = q := by
      rcases List.prefix_or_prefix_of_prefix hpn hqn with h' | h'
      · exact C30_prefix_free ops p q x y hpx hqy h'
      · exact (C30_prefix_free ops q p y x hqy hpx h').symm
    subst this
    rw [hpx] at hqy
    injection hqy with hqy
    exact ⟨rfl, hqy⟩

example : (fibAfter [.attach nmC 2, .attach nmA 1]).handler nmAB = some 1 ∧ (fibAfter [.attach nmC 2, .attach nmAB 1]).handler nmA = none := by
  decide

/-- C31 fails for numbers that are not in shortest form: an Interest is given to the handler of a prefix that is not a prefix of
its name. -/
theorem C31_nonminimal_violated :
    let p : Name := [⟨50, [1]⟩]
    let q : Name := [⟨50, [0, 1]⟩]
    ¬ p <+: q ∧ (fibAfter [.attach p 1]).handler q = some 1 := by
  decide

/-! ## C32 -/

/-- C32: detaching an attached, non-empty prefix succeeds, removes its handler and leaves every other attached prefix with its
handler; detaching a non-empty prefix with nothing attached at or below it fails and changes nothing. -/
theorem C32_detach_partial (ops : List FibOp) (h : ∀ op ∈ ops, Canon op.name) (p : Name) (hp : Canon p) (h0 : p ≠ []) :
    ((∃ x, (p, x) ∈ attachedAfter ops) → ((fibAfter ops).detach p).1 = true ∧ ((fibAfter ops).detach p).2.lookup p = none ∧
      ∀ q, Canon q → q ≠ p → ((fibAfter ops).detach p).2.lookup q = (fibAfter ops).lookup q) ∧
    ((∀ e ∈ attachedAfter ops, ¬ p <+: e.1) → ((fibAfter ops).detach p).1 = false ∧ ((fibAfter ops).detach p).2 = fibAfter ops) := by
  have hcan := attached_mem_canon h
  rcases (fibAfter_inv ops).detach_keys p with ⟨hf, he, hk0, hno⟩ | ⟨ht, _, hex, hat⟩
  · refine ⟨?_, fun _ => ⟨hf, he⟩⟩
    rintro ⟨x, hx⟩
    exact absurd (List.prefix_refl _) (hno (keys p) x ((fib_history ops h _ _).mpr ⟨p, hx, rfl⟩))
  · refine ⟨?_, ?_⟩
    · rintro ⟨x, hx⟩
      refine ⟨ht, ?_, ?_⟩
      · rw [Fib.lookup, hat, if_pos ⟨List.prefix_refl _, fun h' => h0 (keys_nil.mp h')⟩]
      · intro q hq hqp
        rw [Fib.lookup, hat, Fib.lookup]
        split
        · rename_i hc
          cases hl : (fibAfter ops).at (keys q) with
          | none => rfl
          | some y =>
            exfalso
            have h1 := (C30_history_partial ops h p hp x).mpr hx
            exact hqp (C30_prefix_free ops p q x y h1 hl ((keys_prefix hp hq).mp hc.1)).symm
        · rfl
    · intro hall
      exfalso
      rcases hex with h' | ⟨q, x, hq, hpq⟩
      · exact h0 (keys_nil.mp h')
      · obtain ⟨p', hp', rfl⟩ := (fib_history ops h q x).mp hq
        exact hall _ hp' ((keys_prefix hp (hcan _ hp')).mp hpq)

example : ((fibAfter [.attach nmC 2, .attach nmAB 1]).detach nmAB).1 = true ∧
    ((fibAfter [.attach nmC 2, .attach nmAB 1]).detach nmAB).2.lookup nmC = some 2 ∧
    ((fibAfter [.attach nmC 2, .attach nmA 1]).detach nmAB).1 = false := by
  decide

/-- C32 fails: detaching a prefix at which nothing is attached succeeds when something is attached below it, and takes that
away. -/
theorem C32_interior_violated :
    (fibAfter [.attach nmAB 1]).lookup nmA = none ∧ ((fibAfter [.attach nmAB 1]).detach nmA).1 = true ∧
    (fibAfter [.attach nmAB 1]).lookup nmAB = some 1 ∧ ((fibAfter [.attach nmAB 1]).detach nmA).2.lookup nmAB = none := by
  decide

/-- C32 fails for the empty prefix: detaching its handler succeeds and leaves it attached, and detaching it succeeds when
nothing is attached. -/
theorem C32_root_violated :
    ((fibAfter [.attach [] 1]).detach []).1 = true ∧ ((fibAfter [.attach [] 1]).detach []).2.lookup [] = some 1 ∧
    ((fibAfter [.attach [] 1]).detach []).2.handler nmA = some 1 ∧ ((fibAfter []).detach []).1 = true := by
  decide

end Ndn.Engine
