import Verif.Schema.Call
import Verif.Schema.ObjectProps

/-!
# C99: functions of nodes called by name, and the results that are waited for

The specification is a table of signatures: for every class and function the parameters with their types, which of them may be left out, and for which an
`any` without a value stands for the zero value.  It does not use the functions of the model.
-/

namespace Ndn.Schema
open Ndn.Codec Ndn.Engine

/-! ## Specification -/

/-- the types of parameters -/
inductive Ty where
  | wire | bool | buffers | u64 | u64ptr | bytes | callback | intCfg | dataCfg | key
  deriving DecidableEq

/-- a value of a type -/
inductive Ty.Holds : Ty → Val → Prop where
  | wire (w) : Ty.Holds .wire (.wire w)
  | bool (b) : Ty.Holds .bool (.bool b)
  | buffers (l) : Ty.Holds .buffers (.buffers l)
  | u64 (n) : Ty.Holds .u64 (.u64 n)
  | u64ptr (p) : Ty.Holds .u64ptr (.u64ptr p)
  | bytes (b) : Ty.Holds .bytes (.bytes b)
  | callback (f) : Ty.Holds .callback (.callback f)
  | intCfg (p) : Ty.Holds .intCfg (.intCfg p)
  | dataCfg (p) : Ty.Holds .dataCfg (.dataCfg p)
  | key (i k) : Ty.Holds .key (.key i k)

/-- the zero value of a type -/
def Ty.zero : Ty → Val
  | .wire => .wire none
  | .bool => .bool false
  | .buffers => .buffers none
  | .u64 => .u64 0
  | .u64ptr => .u64ptr none
  | .bytes => .bytes none
  | .callback => .callback none
  | .intCfg => .intCfg none
  | .dataCfg => .dataCfg none
  | .key => .key [] []

/-- a parameter: its name, its type, and whether nil may be given for it -/
structure Param where
  item : String
  ty : Ty
  nilOk : Bool := true

/-- a signature: the parameters, and how many of them must be given -/
structure Sig where
  required : Nat
  params : List Param

/-- an argument that may be given for a parameter -/
def Param.Fits (p : Param) (v : Val) : Prop := p.ty.Holds v ∨ (p.nilOk = true ∧ v = .nil)

/-- as many arguments as the signature allows -/
def Sig.Counts (s : Sig) (args : List Val) : Prop := s.required ≤ args.length ∧ args.length ≤ s.params.length

/-- arguments that the signature allows -/
def Sig.Accepts (s : Sig) (args : List Val) : Prop :=
  s.Counts args ∧ ∀ (i : Nat) (p : Param) (v : Val), s.params[i]? = some p → args[i]? = some v → p.Fits v

/-- what a parameter gets: the argument, or the zero value if it is left out or nil -/
def Param.value (p : Param) : Option Val → Val
  | none => p.ty.zero
  | some .nil => p.ty.zero
  | some v => v

/-- what the parameters get -/
def Sig.values (s : Sig) (args : List Val) : List Val := s.params.mapIdx fun i p => p.value args[i]?

/-- the functions that there are, by the comments and messages of the code -/
def signature : Cls → String → Option Sig
  | .express, "Need" | .leaf, "Need" =>
    some ⟨1, [⟨"callback", .callback, false⟩, ⟨"appParam", .wire, true⟩, ⟨"intConfig", .intCfg, true⟩, ⟨"supress", .bool, false⟩]⟩
  | .express, "NeedChan" | .leaf, "NeedChan" => some ⟨0, [⟨"appParam", .wire, true⟩, ⟨"intConfig", .intCfg, true⟩, ⟨"supress", .bool, false⟩]⟩
  | .leaf, "Provide" => some ⟨1, [⟨"content", .wire, true⟩, ⟨"dataCfg", .dataCfg, true⟩]⟩
  | .segmented, "Provide" => some ⟨1, [⟨"content", .wire, true⟩, ⟨"needManifest", .bool, true⟩]⟩
  | .segmented, "Need" => some ⟨1, [⟨"callback", .callback, false⟩, ⟨"manifest", .buffers, true⟩]⟩
  | .segmented, "NeedChan" => some ⟨0, [⟨"manifest", .buffers, true⟩]⟩
  | .rdr, "Provide" => some ⟨1, [⟨"content", .wire, true⟩]⟩
  | .rdr, "Need" => some ⟨1, [⟨"callback", .callback, false⟩, ⟨"version", .u64ptr, true⟩]⟩
  | .rdr, "NeedChan" => some ⟨0, [⟨"version", .u64ptr, true⟩]⟩
  | .genObj, "Provide" => some ⟨1, [⟨"content", .wire, true⟩]⟩
  | .genObj, "Need" => some ⟨1, [⟨"callback", .callback, false⟩]⟩
  | .genObj, "NeedChan" => some ⟨0, []⟩
  | .svs, "NewData" => some ⟨1, [⟨"content", .wire, true⟩]⟩
  | .svs, "MissingDataChannel" => some ⟨0, []⟩
  | .svs, "MySequence" => some ⟨0, []⟩
  | .svs, "GetDataName" => some ⟨2, [⟨"nodeId", .bytes, true⟩, ⟨"seq", .u64, true⟩]⟩
  | .contentKey, "GenKey" => some ⟨0, []⟩
  | .contentKey, "Encrypt" => some ⟨2, [⟨"ck", .key, true⟩, ⟨"content", .wire, true⟩]⟩
  | .contentKey, "Decrypt" => some ⟨1, [⟨"encryptedContent", .wire, true⟩]⟩
  | _, _ => none

/-- the class and the name of a method, and its parameters in order; the methods of expressing points are those of leaf nodes too -/
def Method.shape : Method → List Cls × String × List Val
  | .need cb a c s => ([.express, .leaf], "Need", [.callback cb, .wire a, .intCfg c, .bool s])
  | .needChan a c s => ([.express, .leaf], "NeedChan", [.wire a, .intCfg c, .bool s])
  | .provide c d => ([.leaf], "Provide", [.wire c, .dataCfg d])
  | .segProvide c n => ([.segmented], "Provide", [.wire c, .bool n])
  | .segNeed cb m => ([.segmented], "Need", [.callback cb, .buffers m])
  | .segNeedChan m => ([.segmented], "NeedChan", [.buffers m])
  | .rdrProvide c => ([.rdr], "Provide", [.wire c])
  | .rdrNeed cb v => ([.rdr], "Need", [.callback cb, .u64ptr v])
  | .rdrNeedChan v => ([.rdr], "NeedChan", [.u64ptr v])
  | .objProvide c => ([.genObj], "Provide", [.wire c])
  | .objNeed cb => ([.genObj], "Need", [.callback cb])
  | .objNeedChan => ([.genObj], "NeedChan", [])
  | .newData c => ([.svs], "NewData", [.wire c])
  | .missing => ([.svs], "MissingDataChannel", [])
  | .mySequence => ([.svs], "MySequence", [])
  | .dataName n s => ([.svs], "GetDataName", [.bytes n, .u64 s])
  | .genKey => ([.contentKey], "GenKey", [])
  | .encrypt i k c => ([.contentKey], "Encrypt", [.key i k, .wire c])
  | .decrypt c => ([.contentKey], "Decrypt", [.wire c])

/-! ## Taking one argument -/

/-- `as` is the assertion for the type `ty`, and `mk` makes a value of what it gives -/
structure Asserts {α : Type} (as : Val → Option α) (ty : Ty) (mk : α → Val) (zero : α) : Prop where
  some : ∀ v x, as v = some x → ty.Holds v ∧ v = mk x
  none : ∀ v, as v = none → ¬ ty.Holds v
  zero : mk zero = ty.zero

theorem asserts_wire : Asserts Val.asWire .wire .wire none :=
  ⟨by intro v x h; cases v <;> simp [Val.asWire] at h; subst h; exact ⟨.wire _, rfl⟩, by intro v h; cases v <;> simp [Val.asWire] at h <;> nofun, rfl⟩
theorem asserts_bool : Asserts Val.asBool .bool .bool false :=
  ⟨by intro v x h; cases v <;> simp [Val.asBool] at h; subst h; exact ⟨.bool _, rfl⟩, by intro v h; cases v <;> simp [Val.asBool] at h <;> nofun, rfl⟩
theorem asserts_buffers : Asserts Val.asBuffers .buffers .buffers none :=
  ⟨by intro v x h; cases v <;> simp [Val.asBuffers] at h; subst h; exact ⟨.buffers _, rfl⟩,
    by intro v h; cases v <;> simp [Val.asBuffers] at h <;> nofun, rfl⟩
theorem asserts_u64 : Asserts Val.asU64 .u64 .u64 0 :=
  ⟨by intro v x h; cases v <;> simp [Val.asU64] at h; subst h; exact ⟨.u64 _, rfl⟩, by intro v h; cases v <;> simp [Val.asU64] at h <;> nofun, rfl⟩
theorem asserts_u64ptr : Asserts Val.asU64ptr .u64ptr .u64ptr none :=
  ⟨by intro v x h; cases v <;> simp [Val.asU64ptr] at h; subst h; exact ⟨.u64ptr _, rfl⟩, by intro v h; cases v <;> simp [Val.asU64ptr] at h <;> nofun, rfl⟩
theorem asserts_bytes : Asserts Val.asBytes .bytes .bytes none :=
  ⟨by intro v x h; cases v <;> simp [Val.asBytes] at h; subst h; exact ⟨.bytes _, rfl⟩, by intro v h; cases v <;> simp [Val.asBytes] at h <;> nofun, rfl⟩
theorem asserts_callback : Asserts Val.asCallback .callback .callback none :=
  ⟨by intro v x h; cases v <;> simp [Val.asCallback] at h; subst h; exact ⟨.callback _, rfl⟩,
    by intro v h; cases v <;> simp [Val.asCallback] at h <;> nofun, rfl⟩
theorem asserts_intCfg : Asserts Val.asIntCfg .intCfg .intCfg none :=
  ⟨by intro v x h; cases v <;> simp [Val.asIntCfg] at h; subst h; exact ⟨.intCfg _, rfl⟩, by intro v h; cases v <;> simp [Val.asIntCfg] at h <;> nofun, rfl⟩
theorem asserts_dataCfg : Asserts Val.asDataCfg .dataCfg .dataCfg none :=
  ⟨by intro v x h; cases v <;> simp [Val.asDataCfg] at h; subst h; exact ⟨.dataCfg _, rfl⟩,
    by intro v h; cases v <;> simp [Val.asDataCfg] at h <;> nofun, rfl⟩
theorem asserts_key : Asserts Val.asKey .key (fun p => .key p.1 p.2) ([], []) :=
  ⟨by intro v x h; cases v <;> simp [Val.asKey] at h; subst h; exact ⟨.key _ _, rfl⟩, by intro v h; cases v <;> simp [Val.asKey] at h <;> nofun, rfl⟩

theorem not_holds_nil (t : Ty) : ¬ t.Holds .nil := by cases t <;> nofun

/-- what may come of taking the argument `k`: the value of the parameter, or the error for it -/
def Took {α : Type} (p : Param) (mk : α → Val) (shown k : Nat) (args : List Val) (g : Got α) : Prop :=
  (∃ x, g = .ok x ∧ mk x = p.value args[k]? ∧ ∀ v, args[k]? = some v → p.Fits v) ∨
  (∃ v s, args[k]? = some v ∧ ¬ p.Fits v ∧ args[shown]? = some s ∧ g = .err (.invalid p.item s))

theorem take_arg_spec {α : Type} {as : Val → Option α} {ty : Ty} {mk : α → Val} {zero : α} (ha : Asserts as ty mk zero) (nilOk : Bool) (item : String)
    (shown : Nat) (args : List Val) (k : Nat) (hk : k < args.length) (hs : shown ≤ k) :
    Took ⟨item, ty, nilOk⟩ mk shown k args (takeArg as zero nilOk item shown args k) := by
  unfold takeArg Took
  rw [List.getElem?_eq_getElem hk, List.getElem?_eq_getElem (by omega : shown < args.length)]
  simp only
  cases h : as args[k] with
  | some x =>
    have := ha.some _ _ h
    refine Or.inl ⟨x, rfl, ?_, fun v hv => ?_⟩
    · rw [← this.2]
      unfold Param.value
      split
      · contradiction
      · rename_i h0; injection h0 with h0; rw [h0] at this; exact absurd this.1 (not_holds_nil _)
      · rename_i h0; injection h0
    · injection hv with hv; subst hv; exact Or.inl this.1
  | none =>
    have := ha.none _ h
    simp only
    split
    · rename_i hc
      simp only [Bool.and_eq_true, decide_eq_true_eq] at hc
      refine Or.inl ⟨zero, rfl, ?_, fun v hv => ?_⟩
      · rw [hc.2, ha.zero]; rfl
      · injection hv with hv; subst hv; exact Or.inr hc
    · rename_i hc
      simp only [Bool.and_eq_true, decide_eq_true_eq] at hc
      exact Or.inr ⟨_, _, rfl, fun hf => hf.elim this hc, rfl, rfl⟩

theorem take_opt_spec {α : Type} {as : Val → Option α} {ty : Ty} {mk : α → Val} {zero : α} (ha : Asserts as ty mk zero) (nilOk : Bool) (item : String)
    (shown : Nat) (args : List Val) (k : Nat) (hs : shown ≤ k) :
    Took ⟨item, ty, nilOk⟩ mk shown k args (takeOpt as zero nilOk item shown args k) := by
  unfold takeOpt
  split
  · exact take_arg_spec ha nilOk item shown args k (by omega) hs
  · refine Or.inl ⟨zero, rfl, ?_, fun v hv => ?_⟩
    · rw [List.getElem?_eq_none (by omega), ha.zero]; rfl
    · rw [List.getElem?_eq_none (by omega)] at hv; contradiction

/-! ## The theorem -/

/-- the first argument that does not fit is argument `i`, for the parameter `p` -/
def Sig.FirstBad (s : Sig) (args : List Val) (i : Nat) (p : Param) : Prop :=
  s.params[i]? = some p ∧ (∃ v, args[i]? = some v ∧ ¬ p.Fits v) ∧
    ∀ (j : Nat) (q : Param) (v : Val), j < i → s.params[j]? = some q → args[j]? = some v → q.Fits v

/-- the result that a function should have, but for the value in an `ErrInvalidValue`, which is that of the argument `shown i` -/
inductive Answers (shown : Nat → Nat) (c : Cls) (fn : String) (s : Sig) (args : List Val) : Got Method → Prop where
  | run (m : Method) (ha : s.Accepts args) (hc : c ∈ m.shape.1) (hf : m.shape.2.1 = fn) (hv : m.shape.2.2 = s.values args) : Answers shown c fn s args (.ok m)
  | count (h : ¬ s.Counts args) : Answers shown c fn s args (.err (.count args.length))
  | invalid (i : Nat) (p : Param) (v : Val) (hn : s.Counts args) (h : s.FirstBad args i p) (hv : args[shown i]? = some v) :
      Answers shown c fn s args (.err (.invalid p.item v))

/-- the first `k` arguments fit -/
def Sig.Good (s : Sig) (args : List Val) (k : Nat) : Prop :=
  ∀ (j : Nat) (q : Param) (v : Val), j < k → s.params[j]? = some q → args[j]? = some v → q.Fits v

theorem good_args_zero (s : Sig) (args : List Val) : s.Good args 0 := fun _ _ _ h => absurd h (by omega)

theorem arg_step_spec {α : Type} {p : Param} {mk : α → Val} {sh k : Nat} {args : List Val} {g : Got α} {s : Sig} {shown : Nat → Nat} {c : Cls} {fn : String}
    {f : α → Got Method} (h : Took p mk sh k args g) (hp : s.params[k]? = some p) (hn : s.Counts args) (hg : s.Good args k) (hs : shown k = sh)
    (hf : ∀ x, mk x = p.value args[k]? → s.Good args (k + 1) → Answers shown c fn s args (f x)) : Answers shown c fn s args (g.bind f) := by
  rcases h with ⟨x, rfl, hx, hfit⟩ | ⟨v, w, hv, hb, hw, rfl⟩
  · refine hf x hx fun j q v hj hq hv => ?_
    by_cases hjk : j = k
    · subst hjk; rw [hp] at hq; injection hq with hq; subst hq; exact hfit v hv
    · exact hg j q v (by omega) hq hv
  · exact .invalid k p w hn ⟨hp, ⟨v, hv, hb⟩, hg⟩ (by rw [hs]; exact hw)

theorem arg_done_spec {s : Sig} {args : List Val} {k : Nat} (hn : s.Counts args) (hg : s.Good args k) (hk : s.params.length ≤ k) : s.Accepts args :=
  ⟨hn, fun i p v hp hv => hg i p v (by have := (List.getElem?_eq_some_iff.mp hp).1; omega) hp hv⟩

/-- the argument whose value is put into the error: always the first, but in `SvsNode` and `ContentKeyNode` the one that is wrong -/
def shownArg : Cls → Nat → Nat
  | .svs, i => i
  | .contentKey, i => i
  | _, _ => 0

theorem express_need_spec (c : Cls) (hc : c = .express ∨ c = .leaf) (args : List Val) :
    Answers (shownArg c) c "Need"
      ⟨1, [⟨"callback", .callback, false⟩, ⟨"appParam", .wire, true⟩, ⟨"intConfig", .intCfg, true⟩, ⟨"supress", .bool, false⟩]⟩ args (expressNeed args) := by
  have hs : ∀ k, shownArg c k = 0 := by rcases hc with rfl | rfl <;> intro k <;> rfl
  unfold expressNeed
  split
  · exact .count (by simp only [Sig.Counts, List.length]; omega)
  · refine arg_step_spec (take_arg_spec asserts_callback false "callback" 0 args 0 (by omega) (by omega)) rfl (by simp only [Sig.Counts, List.length]; omega) (good_args_zero _ _) (hs _)
      fun x0 h0 g0 => ?_
    refine arg_step_spec (take_opt_spec asserts_wire true "appParam" 0 args 1 (by omega)) rfl (by simp only [Sig.Counts, List.length]; omega) g0 (hs _) fun x1 h1 g1 => ?_
    refine arg_step_spec (take_opt_spec asserts_intCfg true "intConfig" 0 args 2 (by omega)) rfl (by simp only [Sig.Counts, List.length]; omega) g1 (hs _) fun x2 h2 g2 => ?_
    refine arg_step_spec (take_opt_spec asserts_bool false "supress" 0 args 3 (by omega)) rfl (by simp only [Sig.Counts, List.length]; omega) g2 (hs _) fun x3 h3 g3 => ?_
    refine .run _ (arg_done_spec (by simp only [Sig.Counts, List.length]; omega) g3 (by simp)) (by rcases hc with rfl | rfl <;> simp [Method.shape]) rfl ?_
    simp only [Method.shape, Sig.values, h0, h1, h2, h3]; rfl

theorem express_chan_spec (c : Cls) (hc : c = .express ∨ c = .leaf) (args : List Val) :
    Answers (shownArg c) c "NeedChan" ⟨0, [⟨"appParam", .wire, true⟩, ⟨"intConfig", .intCfg, true⟩, ⟨"supress", .bool, false⟩]⟩ args
      (expressNeedChan args) := by
  have hs : ∀ k, shownArg c k = 0 := by rcases hc with rfl | rfl <;> intro k <;> rfl
  unfold expressNeedChan
  split
  · exact .count (by simp only [Sig.Counts, List.length]; omega)
  · refine arg_step_spec (take_opt_spec asserts_wire true "appParam" 0 args 0 (by omega)) rfl (by simp only [Sig.Counts, List.length]; omega) (good_args_zero _ _) (hs _)
      fun x1 h1 g1 => ?_
    refine arg_step_spec (take_opt_spec asserts_intCfg true "intConfig" 0 args 1 (by omega)) rfl (by simp only [Sig.Counts, List.length]; omega) g1 (hs _) fun x2 h2 g2 => ?_
    refine arg_step_spec (take_opt_spec asserts_bool false "supress" 0 args 2 (by omega)) rfl (by simp only [Sig.Counts, List.length]; omega) g2 (hs _) fun x3 h3 g3 => ?_
    refine .run _ (arg_done_spec (by simp only [Sig.Counts, List.length]; omega) g3 (by simp)) (by rcases hc with rfl | rfl <;> simp [Method.shape]) rfl ?_
    simp only [Method.shape, Sig.values, h1, h2, h3]; rfl

theorem leaf_provide_fn_spec (args : List Val) : Answers (shownArg .leaf) .leaf "Provide" ⟨1, [⟨"content", .wire, true⟩, ⟨"dataCfg", .dataCfg, true⟩]⟩ args (leafProvideFn args) := by
  unfold leafProvideFn
  split
  · exact .count (by simp only [Sig.Counts, List.length]; omega)
  · refine arg_step_spec (take_arg_spec asserts_wire true "content" 0 args 0 (by omega) (by omega)) rfl (by simp only [Sig.Counts, List.length]; omega) (good_args_zero _ _) rfl fun x0 h0 g0 => ?_
    refine arg_step_spec (take_opt_spec asserts_dataCfg true "dataCfg" 0 args 1 (by omega)) rfl (by simp only [Sig.Counts, List.length]; omega) g0 rfl fun x1 h1 g1 => ?_
    refine .run _ (arg_done_spec (by simp only [Sig.Counts, List.length]; omega) g1 (by simp)) (by simp [Method.shape]) rfl ?_
    simp only [Method.shape, Sig.values, h0, h1]; rfl

theorem seg_provide_fn_spec (args : List Val) : Answers (shownArg .segmented) .segmented "Provide" ⟨1, [⟨"content", .wire, true⟩, ⟨"needManifest", .bool, true⟩]⟩ args (segProvideFn args) := by
  unfold segProvideFn
  split
  · exact .count (by simp only [Sig.Counts, List.length]; omega)
  · refine arg_step_spec (take_arg_spec asserts_wire true "content" 0 args 0 (by omega) (by omega)) rfl (by simp only [Sig.Counts, List.length]; omega) (good_args_zero _ _) rfl fun x0 h0 g0 => ?_
    refine arg_step_spec (take_opt_spec asserts_bool true "needManifest" 0 args 1 (by omega)) rfl (by simp only [Sig.Counts, List.length]; omega) g0 rfl fun x1 h1 g1 => ?_
    refine .run _ (arg_done_spec (by simp only [Sig.Counts, List.length]; omega) g1 (by simp)) (by simp [Method.shape]) rfl ?_
    simp only [Method.shape, Sig.values, h0, h1]; rfl

theorem seg_need_fn_spec (args : List Val) : Answers (shownArg .segmented) .segmented "Need" ⟨1, [⟨"callback", .callback, false⟩, ⟨"manifest", .buffers, true⟩]⟩ args (segNeedFn args) := by
  unfold segNeedFn
  split
  · exact .count (by simp only [Sig.Counts, List.length]; omega)
  · refine arg_step_spec (take_arg_spec asserts_callback false "callback" 0 args 0 (by omega) (by omega)) rfl (by simp only [Sig.Counts, List.length]; omega) (good_args_zero _ _) rfl fun x0 h0 g0 => ?_
    refine arg_step_spec (take_opt_spec asserts_buffers true "manifest" 0 args 1 (by omega)) rfl (by simp only [Sig.Counts, List.length]; omega) g0 rfl fun x1 h1 g1 => ?_
    refine .run _ (arg_done_spec (by simp only [Sig.Counts, List.length]; omega) g1 (by simp)) (by simp [Method.shape]) rfl ?_
    simp only [Method.shape, Sig.values, h0, h1]; rfl

theorem seg_chan_fn_spec (args : List Val) : Answers (shownArg .segmented) .segmented "NeedChan" ⟨0, [⟨"manifest", .buffers, true⟩]⟩ args (segNeedChanFn args) := by
  unfold segNeedChanFn
  split
  · exact .count (by simp only [Sig.Counts, List.length]; omega)
  · refine arg_step_spec (take_opt_spec asserts_buffers true "manifest" 0 args 0 (by omega)) rfl (by simp only [Sig.Counts, List.length]; omega) (good_args_zero _ _) rfl fun x0 h0 g0 => ?_
    refine .run _ (arg_done_spec (by simp only [Sig.Counts, List.length]; omega) g0 (by simp)) (by simp [Method.shape]) rfl ?_
    simp only [Method.shape, Sig.values, h0]; rfl

theorem rdr_provide_fn_spec (args : List Val) : Answers (shownArg .rdr) .rdr "Provide" ⟨1, [⟨"content", .wire, true⟩]⟩ args (rdrProvideFn args) := by
  unfold rdrProvideFn
  split
  · exact .count (by simp only [Sig.Counts, List.length]; omega)
  · refine arg_step_spec (take_arg_spec asserts_wire true "content" 0 args 0 (by omega) (by omega)) rfl (by simp only [Sig.Counts, List.length]; omega) (good_args_zero _ _) rfl fun x0 h0 g0 => ?_
    refine .run _ (arg_done_spec (by simp only [Sig.Counts, List.length]; omega) g0 (by simp)) (by simp [Method.shape]) rfl ?_
    simp only [Method.shape, Sig.values, h0]; rfl

theorem rdr_need_fn_spec (args : List Val) : Answers (shownArg .rdr) .rdr "Need" ⟨1, [⟨"callback", .callback, false⟩, ⟨"version", .u64ptr, true⟩]⟩ args (rdrNeedFn args) := by
  unfold rdrNeedFn
  split
  · exact .count (by simp only [Sig.Counts, List.length]; omega)
  · refine arg_step_spec (take_arg_spec asserts_callback false "callback" 0 args 0 (by omega) (by omega)) rfl (by simp only [Sig.Counts, List.length]; omega) (good_args_zero _ _) rfl fun x0 h0 g0 => ?_
    refine arg_step_spec (take_opt_spec asserts_u64ptr true "version" 0 args 1 (by omega)) rfl (by simp only [Sig.Counts, List.length]; omega) g0 rfl fun x1 h1 g1 => ?_
    refine .run _ (arg_done_spec (by simp only [Sig.Counts, List.length]; omega) g1 (by simp)) (by simp [Method.shape]) rfl ?_
    simp only [Method.shape, Sig.values, h0, h1]; rfl

theorem rdr_chan_fn_spec (args : List Val) : Answers (shownArg .rdr) .rdr "NeedChan" ⟨0, [⟨"version", .u64ptr, true⟩]⟩ args (rdrNeedChanFn args) := by
  unfold rdrNeedChanFn
  split
  · exact .count (by simp only [Sig.Counts, List.length]; omega)
  · refine arg_step_spec (take_opt_spec asserts_u64ptr true "version" 0 args 0 (by omega)) rfl (by simp only [Sig.Counts, List.length]; omega) (good_args_zero _ _) rfl fun x0 h0 g0 => ?_
    refine .run _ (arg_done_spec (by simp only [Sig.Counts, List.length]; omega) g0 (by simp)) (by simp [Method.shape]) rfl ?_
    simp only [Method.shape, Sig.values, h0]; rfl

theorem obj_provide_fn_spec (args : List Val) : Answers (shownArg .genObj) .genObj "Provide" ⟨1, [⟨"content", .wire, true⟩]⟩ args (objProvideFn args) := by
  unfold objProvideFn
  split
  · exact .count (by simp only [Sig.Counts, List.length]; omega)
  · refine arg_step_spec (take_arg_spec asserts_wire true "content" 0 args 0 (by omega) (by omega)) rfl (by simp only [Sig.Counts, List.length]; omega) (good_args_zero _ _) rfl fun x0 h0 g0 => ?_
    refine .run _ (arg_done_spec (by simp only [Sig.Counts, List.length]; omega) g0 (by simp)) (by simp [Method.shape]) rfl ?_
    simp only [Method.shape, Sig.values, h0]; rfl

theorem obj_need_fn_spec (args : List Val) : Answers (shownArg .genObj) .genObj "Need" ⟨1, [⟨"callback", .callback, false⟩]⟩ args (objNeedFn args) := by
  unfold objNeedFn
  split
  · exact .count (by simp only [Sig.Counts, List.length]; omega)
  · refine arg_step_spec (take_arg_spec asserts_callback false "callback" 0 args 0 (by omega) (by omega)) rfl (by simp only [Sig.Counts, List.length]; omega) (good_args_zero _ _) rfl fun x0 h0 g0 => ?_
    refine .run _ (arg_done_spec (by simp only [Sig.Counts, List.length]; omega) g0 (by simp)) (by simp [Method.shape]) rfl ?_
    simp only [Method.shape, Sig.values, h0]; rfl

theorem obj_chan_fn_spec (args : List Val) : Answers (shownArg .genObj) .genObj "NeedChan" ⟨0, []⟩ args (objNeedChanFn args) := by
  unfold objNeedChanFn
  split
  · exact .count (by simp only [Sig.Counts, List.length]; omega)
  · refine .run _ (arg_done_spec (by simp only [Sig.Counts, List.length]; omega) (good_args_zero _ _) (by simp)) (by simp [Method.shape]) rfl ?_
    rfl

theorem new_data_fn_spec (args : List Val) : Answers (shownArg .svs) .svs "NewData" ⟨1, [⟨"content", .wire, true⟩]⟩ args (newDataFn args) := by
  unfold newDataFn
  split
  · exact .count (by simp only [Sig.Counts, List.length]; omega)
  · refine arg_step_spec (take_arg_spec asserts_wire true "content" 0 args 0 (by omega) (by omega)) rfl (by simp only [Sig.Counts, List.length]; omega) (good_args_zero _ _) rfl fun x0 h0 g0 => ?_
    refine .run _ (arg_done_spec (by simp only [Sig.Counts, List.length]; omega) g0 (by simp)) (by simp [Method.shape]) rfl ?_
    simp only [Method.shape, Sig.values, h0]; rfl

theorem missing_fn_spec (args : List Val) : Answers (shownArg .svs) .svs "MissingDataChannel" ⟨0, []⟩ args (missingFn args) := by
  unfold missingFn
  split
  · exact .count (by simp only [Sig.Counts, List.length]; omega)
  · refine .run _ (arg_done_spec (by simp only [Sig.Counts, List.length]; omega) (good_args_zero _ _) (by simp)) (by simp [Method.shape]) rfl ?_
    rfl

theorem my_sequence_fn_spec (args : List Val) : Answers (shownArg .svs) .svs "MySequence" ⟨0, []⟩ args (mySequenceFn args) := by
  unfold mySequenceFn
  split
  · exact .count (by simp only [Sig.Counts, List.length]; omega)
  · refine .run _ (arg_done_spec (by simp only [Sig.Counts, List.length]; omega) (good_args_zero _ _) (by simp)) (by simp [Method.shape]) rfl ?_
    rfl

theorem data_name_fn_spec (args : List Val) : Answers (shownArg .svs) .svs "GetDataName" ⟨2, [⟨"nodeId", .bytes, true⟩, ⟨"seq", .u64, true⟩]⟩ args (dataNameFn args) := by
  unfold dataNameFn
  split
  · exact .count (by simp only [Sig.Counts, List.length]; omega)
  · refine arg_step_spec (take_arg_spec asserts_bytes true "nodeId" 0 args 0 (by omega) (by omega)) rfl (by simp only [Sig.Counts, List.length]; omega) (good_args_zero _ _) rfl fun x0 h0 g0 => ?_
    refine arg_step_spec (take_arg_spec asserts_u64 true "seq" 1 args 1 (by omega) (by omega)) rfl (by simp only [Sig.Counts, List.length]; omega) g0 rfl fun x1 h1 g1 => ?_
    refine .run _ (arg_done_spec (by simp only [Sig.Counts, List.length]; omega) g1 (by simp)) (by simp [Method.shape]) rfl ?_
    simp only [Method.shape, Sig.values, h0, h1]; rfl

theorem gen_key_fn_spec (args : List Val) : Answers (shownArg .contentKey) .contentKey "GenKey" ⟨0, []⟩ args (genKeyFn args) := by
  unfold genKeyFn
  split
  · exact .count (by simp only [Sig.Counts, List.length]; omega)
  · refine .run _ (arg_done_spec (by simp only [Sig.Counts, List.length]; omega) (good_args_zero _ _) (by simp)) (by simp [Method.shape]) rfl ?_
    rfl

theorem encrypt_fn_spec (args : List Val) : Answers (shownArg .contentKey) .contentKey "Encrypt" ⟨2, [⟨"ck", .key, true⟩, ⟨"content", .wire, true⟩]⟩ args (encryptFn args) := by
  unfold encryptFn
  split
  · exact .count (by simp only [Sig.Counts, List.length]; omega)
  · refine arg_step_spec (take_arg_spec asserts_key true "ck" 0 args 0 (by omega) (by omega)) rfl (by simp only [Sig.Counts, List.length]; omega) (good_args_zero _ _) rfl fun x0 h0 g0 => ?_
    refine arg_step_spec (take_arg_spec asserts_wire true "content" 1 args 1 (by omega) (by omega)) rfl (by simp only [Sig.Counts, List.length]; omega) g0 rfl fun x1 h1 g1 => ?_
    refine .run _ (arg_done_spec (by simp only [Sig.Counts, List.length]; omega) g1 (by simp)) (by simp [Method.shape]) rfl ?_
    simp only [Method.shape, Sig.values, h0, h1]; rfl

theorem decrypt_fn_spec (args : List Val) : Answers (shownArg .contentKey) .contentKey "Decrypt" ⟨1, [⟨"encryptedContent", .wire, true⟩]⟩ args (decryptFn args) := by
  unfold decryptFn
  split
  · exact .count (by simp only [Sig.Counts, List.length]; omega)
  · refine arg_step_spec (take_arg_spec asserts_wire true "encryptedContent" 0 args 0 (by omega) (by omega)) rfl (by simp only [Sig.Counts, List.length]; omega) (good_args_zero _ _) rfl fun x0 h0 g0 => ?_
    refine .run _ (arg_done_spec (by simp only [Sig.Counts, List.length]; omega) g0 (by simp)) (by simp [Method.shape]) rfl ?_
    simp only [Method.shape, Sig.values, h0]; rfl

theorem find_fn_none (fn : String) (l : List (String × (List Val → Got Method))) (h : ∀ p ∈ l, p.1 ≠ fn) : l.find? (fun p => p.1 == fn) = none := by
  rw [List.find?_eq_none]
  intro p hp hq
  exact h p hp (by simpa using hq)

/-- **C99**, calls: a function that a class does not have gives an error.  One that it has runs the method of this name of this class, once, with the arguments
in their places and zero values for those that are left out or nil, if and only if the arguments are as many as the signature says and all of their
types; otherwise it returns an error that tells the number, or names the first parameter that got a wrong one. No call panics. -/
theorem C99_calls (c : Cls) (fn : String) (args : List Val) :
    match signature c fn with
    | none => callFn c fn args = .err (.noFunc fn)
    | some s => Answers (shownArg c) c fn s args (callFn c fn args) := by
  cases hs : signature c fn with
  | some s =>
    show Answers (shownArg c) c fn s args (callFn c fn args)
    unfold signature at hs
    split at hs <;> cases hs
    all_goals first
      | exact express_need_spec _ (by simp) args
      | exact express_chan_spec _ (by simp) args
      | exact leaf_provide_fn_spec args
      | exact seg_provide_fn_spec args
      | exact seg_need_fn_spec args
      | exact seg_chan_fn_spec args
      | exact rdr_provide_fn_spec args
      | exact rdr_need_fn_spec args
      | exact rdr_chan_fn_spec args
      | exact obj_provide_fn_spec args
      | exact obj_need_fn_spec args
      | exact obj_chan_fn_spec args
      | exact new_data_fn_spec args
      | exact missing_fn_spec args
      | exact my_sequence_fn_spec args
      | exact data_name_fn_spec args
      | exact gen_key_fn_spec args
      | exact encrypt_fn_spec args
      | exact decrypt_fn_spec args
  | none =>
    show callFn c fn args = .err (.noFunc fn)
    unfold callFn
    rw [find_fn_none]
    intro p hp he
    subst he
    cases c <;> simp only [functions, List.mem_cons, List.not_mem_nil, or_false] at hp
    all_goals (repeat' (rcases hp with hp | hp)) <;> cases hs

/-- the hypotheses of `C99_calls`: a call that runs with a nil and a missing argument, one with too many, one with a wrong type, and one of no function -/
example : callFn .leaf "Need" [.callback (some 3), .nil, .intCfg (some 5)] = .ok (.need (some 3) none (some 5) false) ∧
    callFn .rdr "Need" [.callback (some 3), .u64ptr (some 8)] = .ok (.rdrNeed (some 3) (some 8)) ∧
    callFn .rdr "Need" [.callback (some 3), .u64 8] = .err (.invalid "version" (.callback (some 3))) ∧
    callFn .svs "GetDataName" [.bytes (some [1]), .other 2] = .err (.invalid "seq" (.other 2)) ∧
    callFn .genObj "NeedChan" [.nil] = .err (.count 1) ∧ callFn .svs "Need" [] = .err (.noFunc "Need") := by decide

/-- **C99**, the value in the error: it is that of the wrong argument if this is the first one, and in `SvsNode` and `ContentKeyNode`.
Missing: the other functions put the first argument there (`C99_value_violated`). -/
theorem C99_value_partial (c : Cls) (fn item : String) (args : List Val) (v : Val) (h : callFn c fn args = .err (.invalid item v)) :
    ∃ s i p, signature c fn = some s ∧ s.FirstBad args i p ∧ p.item = item ∧ (c = .svs ∨ c = .contentKey ∨ i = 0 → args[i]? = some v) := by
  have hc := C99_calls c fn args
  split at hc
  · rw [h] at hc; simp at hc
  · rename_i s hs
    rw [h] at hc
    cases hc with
    | invalid i p w hn hb hv =>
      refine ⟨s, i, p, hs, hb, rfl, fun hx => ?_⟩
      rcases hx with rfl | rfl | rfl
      · exact hv
      · exact hv
      · have : shownArg c 0 = 0 := by cases c <;> rfl
        rw [this] at hv; exact hv

/-- C99 fails for the value in the error: `Need` of a segmented node with a `bool` for the manifest says that the callback is the invalid value -/
theorem C99_value_violated : ∃ args s i p, signature .segmented "Need" = some s ∧ s.FirstBad args i p ∧ p.item = "manifest" ∧ args[i]? = some (.bool true) ∧
    callFn .segmented "Need" args = .err (.invalid "manifest" (.callback (some 1))) := by
  refine ⟨[.callback (some 1), .bool true], _, 1, ⟨"manifest", .buffers, true⟩, rfl, ⟨rfl, ⟨_, rfl, ?_⟩, ?_⟩, rfl, rfl, by decide⟩
  · rintro (h | h)
    · cases h
    · exact absurd h.2 (by decide)
  · intro j q v hj hq hv
    have : j = 0 := by omega
    subst this
    injection hq with hq; injection hv with hv; subst hq; subst hv
    exact Or.inl (.callback _)

/-! ## Waiting -/

/-- **C99**, channels: `m.Call("NeedChan", …).(chan NeedResult)` gives the channel of the method of the node for all arguments that the signature allows, and
panics for all others and at all nodes without this function -/
theorem C99_need_chan (c : Cls) (args : List Val) :
    (∀ s, signature c "NeedChan" = some s → s.Accepts args → ∃ m, needChanOf c args = .ok m ∧ c ∈ m.shape.1 ∧ m.shape.2.1 = "NeedChan" ∧
      m.shape.2.2 = s.values args) ∧
    ((∀ s, signature c "NeedChan" = some s → ¬ s.Accepts args) → needChanOf c args = .panic) := by
  have hc := C99_calls c "NeedChan" args
  unfold needChanOf
  constructor
  · intro s hs ha
    rw [hs] at hc
    simp only at hc
    generalize callFn c "NeedChan" args = g at hc ⊢
    cases hc with
    | run m _ hc hf hv =>
      refine ⟨m, ?_, hc, hf, hv⟩
      have : m.isChan = true := by cases m <;> first | rfl | exact absurd hf (by simp [Method.shape])
      simp [this]
    | count h => exact absurd ha.1 h
    | invalid i p v hn hb hv =>
      obtain ⟨hp, ⟨w, hw, hnf⟩, _⟩ := hb
      exact absurd (ha.2 i p w hp hw) hnf
  · intro hn
    split at hc
    · rw [hc]
    · rename_i s hs
      generalize callFn c "NeedChan" args = g at hc ⊢
      cases hc with
      | run m ha _ _ _ => exact absurd ha (hn s hs)
      | count _ => rfl
      | invalid _ _ _ _ _ _ => rfl

/-- the calls that the library makes itself: the metadata at an expressing point, segments, manifests and keys at leaf nodes, the state vector (svs/sync.go:253) -/
example (w : Wire) : needChanOf .express [] = .ok (.needChan none none false) ∧ needChanOf .leaf [] = .ok (.needChan none none false) ∧
    needChanOf .leaf [.wire (some w)] = .ok (.needChan (some w) none false) := ⟨rfl, rfl, rfl⟩

/-- C99 fails for `SignedByPolicy`: with a key node that is a base node, a sync node or a node of content keys — `onAttach` accepts every node — the
validation of a Data with an HMAC signature panics; with the others it waits for the channel of a method -/
theorem C99_key_node_panics (c : Cls) : (keyChan c = .panic ↔ c = .base ∨ c = .svs ∨ c = .contentKey) := by cases c <;> decide

/-- **C99**, results: when the pipeline ends with a result the channel holds it and is closed; the receiver gets this result, and there is no second
one (a second call of the callback would panic).  Missing: pipelines with another name (`C99_pipeline_violated`), and a pipeline that panics or does not
end (C55). -/
theorem C99_one_result_partial (fetch : Nat → Nat → Fetched) (maxRetries manifest fuel : Nat) (r : PipeResult)
    (h : pipeline fetch maxRetries manifest fuel = some (.ok r)) :
    ∃ ch, segChan "SinglePacket" (pipeline fetch maxRetries manifest fuel) = some (.ok ch) ∧ ch.get = some (some r) ∧ ch.closed = true ∧ ch.buf.length = 1 ∧
      ∀ r', ch.put r' = some .panic := by
  refine ⟨⟨[r], true⟩, ?_, rfl, rfl, rfl, fun _ => rfl⟩
  rw [h]; rfl

/-- C99 fails for a node with another `Pipeline`: `NeedCallback` returns an error that `NeedChan` does not look at, nobody calls the callback, and the
receiver waits forever, whatever the network does -/
theorem C99_pipeline_violated (pipe : String) (hp : pipe ≠ "SinglePacket") (run : Option (Res PipeResult)) :
    (segNeedCallback pipe run).1 = true ∧ ∃ ch, segChan pipe run = some (.ok ch) ∧ ch.get = none ∧ ch.closed = false := by
  unfold segChan segNeedCallback
  rw [if_neg hp]
  exact ⟨rfl, _, rfl, rfl, rfl⟩

/-- **C99**, general objects: what `NeedCallback` comes to (C70) is what the channel gives -/
theorem C99_object_partial (net : Name → Nat → Fetched) (manRetries retries fuel : Nat) (base : Name) (r : PipeResult)
    (h : objFetch net manRetries retries fuel base = some (.ok (some r))) :
    objChan "SinglePacket" net manRetries retries fuel base = some (.ok (⟨[r], true⟩, false)) := by
  unfold objFetch at h
  unfold objChan
  split at h
  · rename_i manName dataName h1 h2
    simp only [h1, h2]
    split at h
    · rename_i last k ht
      simp only [ht]
      injection h with h; injection h with h; injection h with h; subst h; rfl
    · rename_i last k ht
      simp only [ht]
      split at h
      · simp at h
      · simp at h
      · simp at h
      · rename_i v x hv
        simp only [hv]
        rw [Option.map_eq_some_iff] at h
        obtain ⟨x, hx, hy⟩ := h
        cases x with
        | ok a =>
          simp only [Res.map, Res.ok.injEq, Option.some.injEq] at hy
          subst hy
          rw [hx]; rfl
        | err e => simp [Res.map] at hy
        | panic => simp [Res.map] at hy
  · simp at h

/-- C99 fails for a general object with another `Pipeline`: even where the whole object could be fetched, the receiver of `NeedChan` waits forever -/
theorem C99_object_violated (pipe : String) (hp : pipe ≠ "SinglePacket") (net : Name → Nat → Fetched) (manRetries retries fuel : Nat) (base : Name)
    (r : PipeResult) (h : objFetch net manRetries retries fuel base = some (.ok (some r))) (hd : r.status = .data) :
    ∃ ch, objChan pipe net manRetries retries fuel base = some (.ok (ch, false)) ∧ ch.get = none := by
  unfold objFetch at h
  unfold objChan
  split at h
  · rename_i manName dataName h1 h2
    split at h
    · rename_i last k ht
      injection h with h; injection h with h; injection h with h; subst h
      obtain ⟨_, hno, h0, h1⟩ := trials_false ht
      exfalso
      rcases Nat.eq_zero_or_pos (toInt manRetries).toNat with hz | hz
      · rw [h0 hz] at hd; contradiction
      · rw [h1 hz] at hd
        have := hno ((toInt manRetries).toNat - 1) (by omega)
        rw [show 0 + ((toInt manRetries).toNat - 1) = 0 + (toInt manRetries).toNat - 1 by omega] at this
        exact this hd
    · rename_i last k ht
      simp only [h1, h2, ht]
      split at h
      · simp at h
      · simp at h
      · simp at h
      · rename_i v x hv
        simp only [hv]
        obtain ⟨_, ch, h1, h2, _⟩ := C99_pipeline_violated pipe hp (pipeline _ retries _ fuel)
        exact ⟨ch, by rw [h1]; rfl, h2⟩
  · simp at h

/-- the hypotheses of `C99_object_partial` and `C99_object_violated` are met: an object at the root with one packet -/
example : ∃ (net : Name → Nat → Fetched) (r : PipeResult) (fuel : Nat), objFetch net 1 1 fuel [] = some (.ok (some r)) ∧ r.status = .data ∧
    r.content = [[65]] ∧ objChan "SinglePacket" net 1 1 fuel [] = some (.ok (⟨[r], true⟩, false)) ∧
    ∃ ch, objChan "Fixed" net 1 1 fuel [] = some (.ok (ch, false)) ∧ ch.get = none := by
  obtain ⟨info, man, hp, hn, h⟩ := C70_empty_general_violated 1 [] (fun _ => []) (by decide) (by decide) (by simp) (by decide)
  have := h (fun n _ => if n = [manifestComp] then ⟨.data, man.content, man.final⟩ else ⟨.data, [[65]], some (segComp 0)⟩) 1
    (man.content.flatten.length + 1) [[65]] (by decide) (by decide) (by omega) (if_pos rfl) (if_neg (by decide))
  exact ⟨_, _, _, this, rfl, rfl, C99_object_partial _ _ _ _ _ _ this, C99_object_violated _ (by decide) _ _ _ _ _ _ this rfl⟩

/-! ## DataFetcher -/

theorem fetcher_loop (fetch : Nat → Fetched) : ∀ (n j : Nat) (last : Fetched), 0 < n → ∃ k, fetcherLoop fetch n j last = (fetch (j + k), k + 1) ∧ k < n ∧
    (∀ i, i < k → (fetch (j + i)).status ≠ .data) ∧ ((fetch (j + k)).status ≠ .data → k + 1 = n) := by
  intro n
  induction n with
  | zero => intro j last h; omega
  | succ n ih =>
    intro j last _
    rw [fetcherLoop]
    simp only
    by_cases hs : (fetch j).status = .data
    · rw [if_pos hs]
      exact ⟨0, rfl, by omega, fun i hi => by omega, fun h => absurd hs h⟩
    · rw [if_neg hs]
      rcases Nat.eq_zero_or_pos n with rfl | hn
      · exact ⟨0, rfl, by omega, fun i hi => by omega, fun _ => rfl⟩
      · obtain ⟨k, h1, h2, h3, h4⟩ := ih (j + 1) (fetch j) hn
        refine ⟨k + 1, ?_, by omega, fun i hi => ?_, fun h => ?_⟩
        · rw [h1]; simp only [Nat.add_assoc, Nat.add_comm 1 k]
        · rcases Nat.eq_zero_or_pos i with rfl | hi0
          · exact hs
          · have := h3 (i - 1) (by omega)
            rwa [show j + 1 + (i - 1) = j + i by omega] at this
        · have := h4 (by rwa [show j + 1 + k = j + (k + 1) by omega])
          omega

/-- **C99**, `DataFetcher`: at a node with `NeedChan` it sends at most `maxRetries` Interests, stops at the first Data and gives it, and gives the last result if
all failed.  Missing: the configuration that it is given has no effect (`C99_fetcher_violated`). -/
theorem C99_fetcher_partial (c : Cls) (hc : c ≠ .base ∧ c ≠ .svs ∧ c ≠ .contentKey) (net : Method → Nat → Fetched) (cfg : Option Nat) (maxRetries : Int)
    (h0 : 0 < maxRetries) :
    ∃ m k, m.shape.2.1 = "NeedChan" ∧ c ∈ m.shape.1 ∧ dataFetcher c net cfg maxRetries = .ok (net m k, k + 1) ∧ ((k + 1 : Nat) : Int) ≤ maxRetries ∧
      (∀ i, i < k → (net m i).status ≠ .data) ∧ ((net m k).status ≠ .data → ((k + 1 : Nat) : Int) = maxRetries) := by
  obtain ⟨m, hm, hf, hcl⟩ : ∃ m, needChanOf c [] = .ok m ∧ m.shape.2.1 = "NeedChan" ∧ c ∈ m.shape.1 := by
    cases c <;> first | exact absurd rfl hc.1 | exact absurd rfl hc.2.1 | exact absurd rfl hc.2.2 | exact ⟨_, rfl, rfl, by decide⟩
  obtain ⟨k, h1, h2, h3, h4⟩ := fetcher_loop (net m) maxRetries.toNat 0 ⟨.none, [], none⟩ (by omega)
  simp only [Nat.zero_add] at h1 h2 h3 h4
  refine ⟨m, k, hf, hcl, ?_, by omega, h3, fun h => by have := h4 h; omega⟩
  unfold dataFetcher
  rw [if_neg (by omega), hm]
  show Got.ok _ = _
  rw [h1]

/-- without trials the zero result is given, and no Interest is sent -/
theorem C99_fetcher_none (c : Cls) (net : Method → Nat → Fetched) (cfg : Option Nat) (maxRetries : Int) (h : maxRetries ≤ 0) :
    dataFetcher c net cfg maxRetries = .ok (⟨.none, [], none⟩, 0) := if_pos h

/-- C99 fails for `DataFetcher`: the configuration of the Interest is not passed on.  There are a network that gives the Data to every Interest with the
configuration that is wanted, and a fetch with this configuration that fails after any number of trials. -/
theorem C99_fetcher_violated (cfg : Nat) (maxRetries : Int) (h0 : 0 < maxRetries) : ∃ net : Method → Nat → Fetched,
    callFn .leaf "NeedChan" [.nil, .intCfg (some cfg)] = .ok (.needChan none (some cfg) false) ∧
    (∀ j, (net (.needChan none (some cfg) false) j).status = .data) ∧
    ∃ r k, dataFetcher .leaf net (some cfg) maxRetries = .ok (r, k) ∧ r.status = .timeout ∧ (k : Int) = maxRetries := by
  refine ⟨fun m _ => if m = .needChan none none false then ⟨.timeout, [], none⟩ else ⟨.data, [], none⟩, rfl, fun j => ?_, ?_⟩
  · exact congrArg Fetched.status (if_neg (by simp))
  · obtain ⟨k, h1, _, _, h4⟩ := fetcher_loop (fun _ => ⟨.timeout, [], none⟩) maxRetries.toNat 0 ⟨.none, [], none⟩ (by omega)
    refine ⟨⟨.timeout, [], none⟩, k + 1, ?_, rfl, ?_⟩
    · unfold dataFetcher
      rw [if_neg (by omega)]
      exact congrArg Got.ok h1
    · have := h4 (by simp); omega

/-- the hypotheses of `C99_fetcher_partial` are met: the Data comes at the third of five trials -/
example : dataFetcher .leaf (fun _ j => if j = 2 then ⟨.data, [[7]], none⟩ else ⟨.nack, [], none⟩) none 5 = .ok (⟨.data, [[7]], none⟩, 3) := rfl

/-- C99 fails for `DataFetcher` at a node without `NeedChan`: it panics instead of giving a result -/
theorem C99_fetcher_panics (c : Cls) (hc : c = .base ∨ c = .svs ∨ c = .contentKey) (net : Method → Nat → Fetched) (cfg : Option Nat) (maxRetries : Int)
    (h0 : 0 < maxRetries) : dataFetcher c net cfg maxRetries = .panic := by
  unfold dataFetcher
  rw [if_neg (by omega)]
  rcases hc with rfl | rfl | rfl <;> rfl

end Ndn.Schema
