import Verif.Codec.OrderedLemmas

/-! # Which fields the parsers of models with `ordered` read and which they skip -/

namespace Ndn.Codec.Gen
open Ndn.Packet (knows ordInner ordLoop ordFinish ordParse)

theorem sublist_range' : ∀ (m s : Nat) (l : List Nat), l.Pairwise (· < ·) → (∀ a ∈ l, s ≤ a ∧ a < s + m) → l.Sublist (List.range' s m) := by
  intro m
  induction m with
  | zero =>
    intro s l _ h
    cases l with
    | nil => exact List.Sublist.refl _
    | cons a t => have := h a List.mem_cons_self; omega
  | succ m ih =>
    intro s l hp h
    rw [List.range'_succ]
    cases l with
    | nil => exact List.nil_sublist _
    | cons a t =>
      have ha := h a List.mem_cons_self
      have ht := List.pairwise_cons.1 hp
      by_cases has : a = s
      · subst has
        refine List.Sublist.cons₂ _ (ih _ _ ht.2 fun b hb => ?_)
        have := ht.1 b hb
        have := (h b (List.mem_cons_of_mem _ hb)).2
        omega
      · refine List.Sublist.cons _ (ih _ _ hp fun b hb => ?_)
        rcases List.mem_cons.1 hb with rfl | hb'
        · omega
        · have := ht.1 b hb'
          have := (h b hb).2
          omega

theorem zip_filter (full : List Field) (q : Nat → Bool) : ∀ (l : List Field) (s : Nat), (∀ j, full[s + j]? = l[j]?) →
    ((l.zipIdx s).filter fun p => q p.2).map Prod.fst = ((List.range' s l.length).filter q).filterMap (full[·]?) := by
  intro l
  induction l with
  | nil => intro s _; rfl
  | cons f l ih =>
    intro s h
    have h1 : full[s]? = some f := h 0
    have h2 := ih (s + 1) fun j => by
      have := h (j + 1)
      rwa [show s + (j + 1) = s + 1 + j by omega, List.getElem?_cons_succ] at this
    rw [List.zipIdx_cons, List.length_cons, List.range'_succ]
    by_cases hq : q s = true
    · rw [List.filter_cons_of_pos (by exact hq), List.filter_cons_of_pos hq, List.map_cons, List.filterMap_cons, h1, h2]
    · rw [List.filter_cons_of_neg (by exact hq), List.filter_cons_of_neg hq, h2]

variable {σ : Type}

/-- reading and skipping a field are recorded -/
structure Recorded (rd : Field → Nat → Nat → σ → BR → PR σ) (sk : Field → Nat → σ → BR → Res σ) (log : σ → List (Bool × Field)) : Prop where
  rd : ∀ f start l st r st' r', rd f start l st r = some (.ok st', r') → log st' = log st ++ [(true, f)]
  sk : ∀ f start st r st', sk f start st r = .ok st' → log st' = log st ++ [(false, f)]

/-- the record says that the fields `h` were handled, the last first -/
structure Handled (fs : List Field) (l : List (Bool × Field)) (k : Nat) (h : List Nat) : Prop where
  log : l.map (fun p => some p.2) = h.reverse.map (fs[·]?)
  desc : h.Pairwise (· > ·)
  below : ∀ i ∈ h, i < fs.length ∧ i + k < fs.length + 1
  typ : ∀ p ∈ l, p.1 = true → p.2.num ≠ 0

variable {rd : Field → Nat → Nat → σ → BR → PR σ} {sk : Field → Nat → σ → BR → Res σ} {log : σ → List (Bool × Field)}

theorem Handled.cons {fs : List Field} {l : List (Bool × Field)} {k : Nat} {h : List Nat} (hh : Handled fs l (k + 1) h) (hk : k + 1 ≤ fs.length + 1) {b : Bool} {f : Field}
    (hf : fs[fs.length - k]? = some f) (ht : b = true → f.num ≠ 0) : Handled fs (l ++ [(b, f)]) k ((fs.length - k) :: h) := by
  have hlt : fs.length - k < fs.length := (List.getElem?_eq_some_iff.1 hf).1
  refine ⟨?_, ?_, ?_, ?_⟩
  · rw [List.map_append, List.reverse_cons, List.map_append, hh.log]
    simp [hf]
  · refine List.pairwise_cons.2 ⟨fun i hi => ?_, hh.desc⟩
    have := (hh.below i hi).2
    omega
  · intro i hi
    rcases List.mem_cons.1 hi with rfl | hi
    · omega
    · have := hh.below i hi
      omega
  · intro p hp
    rcases List.mem_append.1 hp with hp | hp
    · exact hh.typ p hp
    · rw [List.mem_singleton.1 hp]
      exact ht

theorem Handled.less {fs : List Field} {l : List (Bool × Field)} {k : Nat} {h : List Nat} (hh : Handled fs l (k + 1) h) : Handled fs l k h :=
  ⟨hh.log, hh.desc, fun i hi => by have := hh.below i hi; omega, hh.typ⟩

theorem inner_handled (hrec : Recorded rd sk log) (ic : Bool) (fs : List Field) (start typ l : Nat) : ∀ (k : Nat) (h : List Nat) (st : σ) (r : BR) (d : Packet.Ord σ) (r' : BR),
    k ≤ fs.length + 1 → Handled fs (log st) k h → ordInner ic (slotsOf rd sk fs) start typ l k h st r = some (.ok d, r') →
      d.left ≤ fs.length + 1 ∧ Handled fs (log d.st) d.left d.handled := by
  have hlen : (slotsOf rd sk fs).length = fs.length := by simp [slotsOf]
  intro k
  induction k with
  | zero =>
    intro h st r d r' _ hh hx
    simp only [ordInner, Option.some.injEq, Prod.mk.injEq, Res.ok.injEq] at hx
    rw [← hx.1]
    exact ⟨Nat.zero_le _, hh⟩
  | succ k ih =>
    intro h st r d r' hk hh hx
    unfold ordInner at hx
    rw [hlen] at hx
    by_cases hkn : knows (slotsOf rd sk fs) typ = true
    · rw [if_pos hkn] at hx
      have h0 : typ ≠ 0 := by
        simp only [knows, Bool.and_eq_true] at hkn
        simpa using hkn.1
      have hslot : (slotsOf rd sk fs)[fs.length - k]? = (fs[fs.length - k]?).map fun f => ⟨f.num, rd f, sk f⟩ := by simp [slotsOf]
      rw [hslot] at hx
      cases hf : fs[fs.length - k]? with
      | none =>
        rw [hf] at hx
        exact ih h st r d r' (by omega) hh.less hx
      | some f =>
        rw [hf] at hx
        simp only [Option.map_some] at hx
        by_cases hft : f.num = typ
        · rw [if_pos hft] at hx
          rcases hr : rd f start l st r with _ | ⟨st' | _ | _, r''⟩ <;> rw [hr] at hx <;> simp only [Option.some.injEq, Prod.mk.injEq, Res.ok.injEq, reduceCtorEq, false_and] at hx
          rw [← hx.1]
          refine ⟨by simp only []; omega, ?_⟩
          simp only []
          rw [hrec.rd _ _ _ _ _ _ _ hr]
          exact hh.cons hk hf fun _ => by rw [hft]; exact h0
        · rw [if_neg hft] at hx
          rcases hs : sk f start st r with st' | _ | _ <;> rw [hs] at hx <;> simp only [Option.some.injEq, Prod.mk.injEq, reduceCtorEq, false_and] at hx
          refine ih _ st' r d r' (by omega) ?_ hx
          rw [hrec.sk _ _ _ _ _ hs]
          exact hh.cons hk hf fun h => by cases h
    · rw [if_neg hkn] at hx
      by_cases hc : (!ic && isCritical typ) = true
      · rw [if_pos hc] at hx; simp only [Option.some.injEq, Prod.mk.injEq, reduceCtorEq, false_and] at hx
      · rw [if_neg hc] at hx
        rcases hs : BR.skip (toInt l) r with ⟨_ | _ | _, r''⟩ <;> rw [hs] at hx <;> simp only [Option.some.injEq, Prod.mk.injEq, Res.ok.injEq, reduceCtorEq, false_and] at hx
        rw [← hx.1]
        exact ⟨by simp only []; omega, hh.less⟩

theorem loop_handled (hrec : Recorded rd sk log) (ic : Bool) (fs : List Field) : ∀ (n : Nat) (d : Packet.Ord σ) (r : BR) (d' : Packet.Ord σ) (r' : BR),
    d.left ≤ fs.length + 1 → Handled fs (log d.st) d.left d.handled → ordLoop ic (slotsOf rd sk fs) n d r = some (.ok d', r') →
      d'.left ≤ fs.length + 1 ∧ Handled fs (log d'.st) d'.left d'.handled := by
  intro n
  induction n with
  | zero => intro d r d' r' _ _ hx; simp [ordLoop] at hx
  | succ n ih =>
    intro d r d' r' hl hh hx
    unfold ordLoop at hx
    split at hx
    · simp only [Option.some.injEq, Prod.mk.injEq, Res.ok.injEq] at hx
      rw [← hx.1]
      exact ⟨hl, hh⟩
    · split at hx
      · simp at hx
      · simp at hx
      · split at hx
        · simp at hx
        · simp at hx
        · rename_i typ _ _ _ l r2 _
          rcases hi : ordInner ic (slotsOf rd sk fs) r.pos typ l d.left d.handled d.st r2 with _ | ⟨d2 | _ | _, r3⟩ <;> rw [hi] at hx <;>
            simp only [Option.some.injEq, Prod.mk.injEq, reduceCtorEq, false_and] at hx
          obtain ⟨h1, h2⟩ := inner_handled hrec ic fs _ _ _ _ _ _ _ _ _ hl hh hi
          exact ih d2 r3 d' r' h1 h2 hx

theorem finish_handled (hrec : Recorded rd sk log) (h : List Nat) (r : BR) : ∀ (fs : List Field) (i : Nat) (st st' : σ), ordFinish h r i (slotsOf rd sk fs) st = .ok st' →
    log st' = log st ++ ((fs.zipIdx i).filter fun p => !h.contains p.2).map fun p => (false, p.1) := by
  intro fs
  induction fs with
  | nil =>
    intro i st st' hx
    simp only [slotsOf, List.map_nil, ordFinish, Res.ok.injEq] at hx
    simp [hx]
  | cons f fs ih =>
    intro i st st' hx
    have hsl : slotsOf rd sk (f :: fs) = ⟨f.num, rd f, sk f⟩ :: slotsOf rd sk fs := rfl
    rw [hsl] at hx
    simp only [ordFinish] at hx
    rw [List.zipIdx_cons]
    by_cases hc : h.contains i = true
    · rw [if_pos hc] at hx
      rw [List.filter_cons_of_neg (by simpa using hc)]
      exact ih _ _ _ hx
    · rw [if_neg hc] at hx
      rw [List.filter_cons_of_pos (by simpa using hc)]
      rcases hs : sk f r.pos st r with st1 | _ | _ <;> rw [hs] at hx <;> simp only [Res.bind, reduceCtorEq] at hx
      rw [ih _ _ _ hx, hrec.sk _ _ _ _ _ hs]
      simp

/-- each field is read or skipped exactly once; they are read in order; markers and arguments are not read -/
theorem parse_handled (hrec : Recorded rd sk log) (ic : Bool) (fs : List Field) (fuel : Nat) (st st' : σ) (r r' : BR) (h0 : log st = [])
    (hx : ordParse ic fuel (slotsOf rd sk fs) st r = some (.ok st', r')) :
    ((log st').map Prod.snd).Perm fs ∧ (((log st').filter Prod.fst).map Prod.snd).Sublist fs ∧ ∀ p ∈ log st', p.1 = true → p.2.num ≠ 0 := by
  have hlen : (slotsOf rd sk fs).length = fs.length := by simp [slotsOf]
  unfold ordParse at hx
  rw [hlen] at hx
  rcases hl : ordLoop ic (slotsOf rd sk fs) fuel ⟨fs.length + 1, [], st⟩ r with _ | ⟨d | _ | _, r1⟩ <;> rw [hl] at hx <;>
    simp only [Option.some.injEq, Prod.mk.injEq, reduceCtorEq, false_and] at hx
  obtain ⟨_, hd⟩ := loop_handled hrec ic fs _ _ _ _ _ (by simp only []; omega) ⟨by simp [h0], List.Pairwise.nil, by simp, by simp [h0]⟩ hl
  have hfin := finish_handled hrec d.handled r1 fs 0 d.st st' hx.1
  have hall : ∀ (l : List Nat), (∀ i ∈ l, i < fs.length) → l.map (fs[·]?) = (l.filterMap (fs[·]?)).map some := by
    intro l
    induction l with
    | nil => intro _; rfl
    | cons a l ih =>
      intro h
      have ha : fs[a]? = some (fs[a]'(h a List.mem_cons_self)) := List.getElem?_eq_getElem _
      rw [List.map_cons, List.filterMap_cons, ha, ih fun i hi => h i (List.mem_cons_of_mem _ hi)]
      rfl
  have hlog : (log d.st).map Prod.snd = d.handled.reverse.filterMap (fs[·]?) := by
    have := hd.log
    rw [hall _ fun i hi => (hd.below i (List.mem_reverse.1 hi)).1] at this
    have h2 : ((log d.st).map Prod.snd).map some = (d.handled.reverse.filterMap (fs[·]?)).map some := by rw [← this, List.map_map]; rfl
    exact (List.map_inj_right fun _ _ h => Option.some.inj h).1 h2
  have hrange : (List.range fs.length).filterMap (fs[·]?) = fs := by
    have := hall (List.range fs.length) fun i hi => List.mem_range.1 hi
    have h3 : (List.range fs.length).map (fs[·]?) = fs.map some := by
      apply List.ext_getElem?
      intro i
      by_cases hi : i < fs.length
      · simp [hi]
      · simp [hi]
    rw [h3] at this
    exact ((List.map_inj_right fun _ _ h => Option.some.inj h).1 this).symm
  have hasc : d.handled.reverse.Pairwise (· < ·) := List.pairwise_reverse.2 hd.desc
  have hsub : d.handled.reverse.Sublist (List.range fs.length) := by
    rw [List.range_eq_range']
    exact sublist_range' _ _ _ hasc fun i hi => ⟨Nat.zero_le _, by have := (hd.below i (List.mem_reverse.1 hi)).1; omega⟩
  have hskipped : (((fs.zipIdx 0).filter fun p => !d.handled.contains p.2).map fun p => ((false, p.1) : Bool × Field)).map Prod.snd =
      ((List.range fs.length).filter fun i => !d.handled.contains i).filterMap (fs[·]?) := by
    rw [List.map_map, List.range_eq_range', ← zip_filter fs (fun i => !d.handled.contains i) fs 0 fun j => by rw [Nat.zero_add]]
    rfl
  refine ⟨?_, ?_, ?_⟩
  · rw [hfin, List.map_append, hlog, hskipped, ← List.filterMap_append]
    conv => rhs; rw [← hrange]
    apply List.Perm.filterMap
    refine List.Perm.trans (List.Perm.append_right _ ?_) (List.filter_append_perm (fun i => d.handled.contains i) (List.range fs.length))
    refine (List.perm_ext_iff_of_nodup (hasc.imp fun h => Nat.ne_of_lt h) (List.nodup_range.filter _)).2 fun i => ?_
    rw [List.mem_reverse, List.mem_filter, List.mem_range]
    simp only [List.contains_iff_mem]
    exact ⟨fun hi => ⟨(hd.below i hi).1, hi⟩, fun hi => hi.2⟩
  · rw [hfin, List.filter_append, List.map_append]
    have : ((((fs.zipIdx 0).filter fun p => !d.handled.contains p.2).map fun p => ((false, p.1) : Bool × Field)).filter Prod.fst) = [] := by
      rw [List.filter_eq_nil_iff]
      intro p hp
      obtain ⟨q, _, rfl⟩ := List.mem_map.1 hp
      simp
    rw [this, List.map_nil, List.append_nil]
    refine ((List.filter_sublist (l := log d.st)).map Prod.snd).trans ?_
    rw [hlog]
    conv => rhs; rw [← hrange]
    exact hsub.filterMap _
  · rw [hfin]
    intro p hp
    rcases List.mem_append.1 hp with hp | hp
    · exact hd.typ p hp
    · obtain ⟨q, _, rfl⟩ := List.mem_map.1 hp
      intro h; cases h

end Ndn.Codec.Gen
