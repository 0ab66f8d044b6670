import Verif.Schema.Rdr
import Verif.Enc.NameProps

/-! # Properties of segmentation and of the segment fetcher: C54, C55 -/

namespace Ndn.Schema
open Ndn.Engine

/-! ## C54 -/

/-- the part of a content before its first empty buffer -/
def upToGap (content : Wire) : Bytes := (content.takeWhile (fun b => b ≠ [])).flatten

/-- no byte comes after an empty buffer -/
def NoGap (content : Wire) : Prop := ∃ ws es, content = ws ++ es ∧ (∀ b ∈ ws, b ≠ []) ∧ ∀ b ∈ es, b = []

theorem upToGap_cons {b : Bytes} {bs : Wire} (hb : b ≠ []) : upToGap (b :: bs) = b ++ upToGap bs := by
  unfold upToGap
  rw [List.takeWhile_cons_of_pos (by simpa using hb), List.flatten_cons]

theorem upToGap_nil (bs : Wire) : upToGap ([] :: bs) = [] := by
  unfold upToGap
  rw [List.takeWhile_cons_of_neg (by simp)]; rfl

theorem NoGap.upToGap {content : Wire} (h : NoGap content) : upToGap content = content.flatten := by
  obtain ⟨ws, es, rfl, h1, h2⟩ := h
  have he : es.flatten = [] := by
    rw [List.flatten_eq_nil_iff]; exact h2
  induction ws with
  | nil =>
    cases es with
    | nil => rfl
    | cons e es =>
      have := h2 e List.mem_cons_self
      subst this
      rw [List.nil_append, upToGap_nil, he]
  | cons w ws ih =>
    rw [List.cons_append, upToGap_cons (h1 w List.mem_cons_self), ih fun b hb => h1 b (List.mem_cons_of_mem _ hb), List.flatten_cons]

theorem takeSeg_spec (bs : Wire) : ∀ rem, (takeSeg rem bs).1.flatten = (upToGap bs).take rem ∧ upToGap (takeSeg rem bs).2 = (upToGap bs).drop rem := by
  induction bs with
  | nil => intro rem; simp [takeSeg, upToGap]
  | cons b bs ih =>
    intro rem
    rw [takeSeg]
    by_cases h0 : rem = 0 ∨ b.length = 0
    · rw [if_pos h0]
      rcases h0 with rfl | h0
      · simp
      · have : b = [] := List.eq_nil_of_length_eq_zero h0
        subst this
        rw [upToGap_nil]; simp
    · rw [if_neg h0]
      have hb : b ≠ [] := by rintro rfl; simp at h0
      simp only
      obtain ⟨i1, i2⟩ := ih (rem - b.length)
      by_cases hl : b.length ≤ min b.length rem
      · have hm : min b.length rem = b.length := by omega
        rw [if_pos hl, hm]
        simp only
        have hle : b.length ≤ rem := by omega
        rw [upToGap_cons hb, List.flatten_cons, i1, i2, List.take_append, List.drop_append, List.take_of_length_le hle, List.drop_of_length_le hle]
        simp
      · have hm : min b.length rem = rem := by omega
        rw [if_neg hl, hm]
        have hd : b.drop rem ≠ [] := by
          rw [Ne, List.drop_eq_nil_iff]; omega
        rw [upToGap_cons hb, upToGap_cons hd, List.take_append_of_le_length (by omega), List.drop_append_of_le_length (by omega)]
        simp

theorem segLoop_spec (size final : Nat) : ∀ (n i : Nat) (content : Wire),
    (segLoop size final n i content).length = n ∧
    ∀ d s, (segLoop size final n i content)[d]? = some s → s.no = i + d ∧ s.final = final ∧ s.content.flatten = ((upToGap content).drop (d * size)).take size := by
  intro n
  induction n with
  | zero => intro i content; exact ⟨rfl, fun d s h => by simp [segLoop] at h⟩
  | succ n ih =>
    intro i content
    obtain ⟨h1, h2⟩ := takeSeg_spec content size
    rw [segLoop]
    generalize takeSeg size content = r at *
    obtain ⟨p, rest⟩ := r
    simp only at h1 h2 ⊢
    obtain ⟨i1, i2⟩ := ih (i + 1) rest
    refine ⟨by rw [List.length_cons, i1], ?_⟩
    intro d s hs
    cases d with
    | zero =>
      rw [List.getElem?_cons_zero] at hs
      injection hs with hs
      subst hs
      exact ⟨rfl, rfl, by simpa using h1⟩
    | succ d =>
      rw [List.getElem?_cons_succ] at hs
      obtain ⟨a, b, c⟩ := i2 d s hs
      refine ⟨by omega, b, ?_⟩
      rw [c, h2, List.drop_drop]
      congr 2
      rw [Nat.add_mul, Nat.one_mul, Nat.add_comm]

/-- the number of segments needed -/
def segCount (len size : Nat) : Nat := (len + size - 1) / size

theorem segCount_lt {len size i : Nat} (hs : 0 < size) : i < segCount len size ↔ i * size < len := by
  unfold segCount
  rw [Nat.lt_iff_add_one_le, Nat.le_div_iff_mul_le hs, Nat.add_mul]
  omega

theorem provide_ok {size : Nat} {content : Wire} (hs : 0 < size) (hl : content.flatten.length + size ≤ 2 ^ 64) :
    ∃ fin, (0 < segCount content.flatten.length size → fin + 1 = segCount content.flatten.length size) ∧
      provideSegs size content = .ok (segLoop size fin (segCount content.flatten.length size) 0 content) := by
  refine ⟨(segCount content.flatten.length size + 2 ^ 64 - 1) % 2 ^ 64, ?_, ?_⟩
  · have : segCount content.flatten.length size ≤ 2 ^ 64 := by
      unfold segCount
      exact Nat.le_trans (Nat.div_le_self _ _) (by omega)
    omega
  · unfold provideSegs segCount
    rw [if_neg (by omega)]
    have : (content.flatten.length + size + 2 ^ 64 - 1) % 2 ^ 64 = content.flatten.length + size - 1 := by omega
    simp only [this]

theorem segLoop_flatten (size final : Nat) : ∀ (n i : Nat) (content : Wire),
    ((segLoop size final n i content).map fun s => s.content.flatten).flatten = (upToGap content).take (n * size) := by
  intro n
  induction n with
  | zero => intro i content; simp [segLoop]
  | succ n ih =>
    intro i content
    obtain ⟨h1, h2⟩ := takeSeg_spec content size
    rw [segLoop]
    generalize takeSeg size content = r at *
    obtain ⟨p, rest⟩ := r
    simp only at h1 h2 ⊢
    rw [List.map_cons, List.flatten_cons, ih, h1, h2, Nat.add_mul, Nat.one_mul, Nat.add_comm (n * size) size, List.take_add]

/-- C54: for a content in any buffers in which no byte comes after an empty buffer, and a segment size for which the length does not overflow, the
segments are numbered from 0 without gaps, not empty, no larger than the segment size, their concatenation is the content, and the final
block id of each is the number of the last one.  Missing: see `C54_empty_buffer_violated`, `C54_zero_panics`, `C54_overflow_violated`. -/
theorem C54_segments_partial (size : Nat) (content : Wire) (hs : 0 < size) (hl : content.flatten.length + size ≤ 2 ^ 64) (hg : NoGap content) :
    ∃ segs, provideSegs size content = .ok segs ∧ segs.map (·.no) = List.range segs.length ∧
      (∀ s ∈ segs, s.content.flatten ≠ [] ∧ s.content.flatten.length ≤ size ∧ s.final + 1 = segs.length) ∧
      (segs.map fun s => s.content.flatten).flatten = content.flatten := by
  obtain ⟨fin, hfin, hp⟩ := provide_ok hs hl
  refine ⟨_, hp, ?_, ?_, ?_⟩
  · have h := segLoop_spec size fin (segCount content.flatten.length size) 0 content
    generalize segLoop size fin (segCount content.flatten.length size) 0 content = l at h
    apply List.ext_getElem?
    intro d
    rw [List.getElem?_map]
    cases hd : l[d]? with
    | none =>
      rw [List.getElem?_eq_none_iff] at hd
      rw [List.getElem?_eq_none (by simpa using hd)]; rfl
    | some s =>
      obtain ⟨hlt, _⟩ := List.getElem?_eq_some_iff.mp hd
      rw [List.getElem?_range hlt, Option.map_some, (h.2 d s hd).1, Nat.zero_add]
  · have h := segLoop_spec size fin (segCount content.flatten.length size) 0 content
    generalize segLoop size fin (segCount content.flatten.length size) 0 content = l at h
    intro s hm
    obtain ⟨d, hd⟩ := List.getElem?_of_mem hm
    obtain ⟨hlt, _⟩ := List.getElem?_eq_some_iff.mp hd
    obtain ⟨_, h2, h3⟩ := h.2 d s hd
    rw [h.1] at hlt ⊢
    rw [h3, h2, hg.upToGap]
    have hd' := (segCount_lt hs).mp hlt
    refine ⟨?_, List.length_take_le _ _, hfin (by omega)⟩
    rw [Ne, List.take_eq_nil_iff, List.drop_eq_nil_iff]; omega
  · rw [segLoop_flatten, hg.upToGap, List.take_of_length_le]
    have h : ¬ segCount content.flatten.length size < segCount content.flatten.length size := Nat.lt_irrefl _
    rw [segCount_lt hs] at h
    omega

/-- eleven bytes in three buffers, and an empty one at the end; segments of four bytes -/
example : provideSegs 4 [[1, 2, 3], [4, 5, 6, 7, 8], [9, 10, 11], []] =
      .ok [⟨0, [[1, 2, 3], [4]], 2⟩, ⟨1, [[5, 6, 7, 8]], 2⟩, ⟨2, [[9, 10, 11]], 2⟩] ∧
    NoGap [[1, 2, 3], [4, 5, 6, 7, 8], [9, 10, 11], []] :=
  ⟨by decide, [[1, 2, 3], [4, 5, 6, 7, 8], [9, 10, 11]], [[]], rfl, by decide, by decide⟩

/-- What happens to any content: the segments hold what is before the first empty buffer; there are as many as the whole content needs. -/
theorem C54_exact (size : Nat) (content : Wire) (hs : 0 < size) (hl : content.flatten.length + size ≤ 2 ^ 64) :
    ∃ segs, provideSegs size content = .ok segs ∧ segs.length = segCount content.flatten.length size ∧
      (segs.map fun s => s.content.flatten).flatten = upToGap content := by
  obtain ⟨fin, _, hp⟩ := provide_ok hs hl
  refine ⟨_, hp, (segLoop_spec _ _ _ _ _).1, ?_⟩
  rw [segLoop_flatten, List.take_of_length_le]
  have h : ¬ segCount content.flatten.length size < segCount content.flatten.length size := Nat.lt_irrefl _
  rw [segCount_lt hs] at h
  have h2 : (upToGap content).length ≤ content.flatten.length := by
    unfold upToGap
    have h3 := congrArg (fun l : List Bytes => l.flatten.length) (List.takeWhile_append_dropWhile (p := fun b : Bytes => decide (b ≠ [])) (l := content))
    simp only [List.flatten_append, List.length_append] at h3
    exact Nat.le.intro h3
  omega

/-- C54 fails: what comes after an empty buffer is lost, and there are empty segments. -/
theorem C54_empty_buffer_violated :
    provideSegs 4 [[1, 2], [], [3, 4, 5]] = .ok [⟨0, [[1, 2]], 1⟩, ⟨1, [], 1⟩] := by decide

/-- C54 fails: with a segment size of 0, `Provide` panics (division by zero). -/
theorem C54_zero_panics (content : Wire) : provideSegs 0 content = .panic := rfl

/-- C54 fails: with a segment size of 2^64 - 1 the addition overflows, and a content of two or more bytes gives no segment. -/
theorem C54_overflow_violated (content : Wire) (h : 2 ≤ content.flatten.length) (hl : content.flatten.length < 2 ^ 63) :
    provideSegs (2 ^ 64 - 1) content = .ok [] := by
  unfold provideSegs
  rw [if_neg (by decide)]
  have : (content.flatten.length + (2 ^ 64 - 1) + 2 ^ 64 - 1) % 2 ^ 64 / (2 ^ 64 - 1) = 0 := by
    rw [Nat.div_eq_zero_iff]; omega
  simp only
  rw [this]
  rfl

/-! ## C55 -/

/-- the result for segment `i`: the first trial that gives a Data, within the limit -/
def FirstData (fetch : Nat → Nat → Fetched) (retries i : Nat) (r : Fetched) : Prop :=
  ∃ j, j < retries ∧ r = fetch i j ∧ r.status = .data ∧ ∀ j', j' < j → (fetch i j').status ≠ .data

theorem trials_true {f : Nat → Fetched} : ∀ {n j : Nat} {last r : Fetched} {k : Nat}, trials f n j last = (true, r, k) →
    ∃ d, d < n ∧ r = f (j + d) ∧ r.status = .data ∧ k = d + 1 ∧ ∀ d', d' < d → (f (j + d')).status ≠ .data := by
  intro n
  induction n with
  | zero => intro j last r k h; cases h
  | succ n ih =>
    intro j last r k h
    rw [trials] at h
    simp only at h
    by_cases hd : (f j).status = .data
    · rw [if_pos hd] at h
      injection h with _ h; injection h with h1 h2
      subst h1
      exact ⟨0, by omega, rfl, hd, h2.symm, fun d' h => by omega⟩
    · rw [if_neg hd] at h
      cases ht : trials f n (j + 1) (f j) with
      | mk ok p =>
        obtain ⟨r', k'⟩ := p
        rw [ht] at h
        simp only [Prod.mk.injEq] at h
        obtain ⟨rfl, rfl, rfl⟩ := h
        obtain ⟨d, h1, h2, h3, h4, h5⟩ := ih ht
        refine ⟨d + 1, by omega, by rw [h2]; congr 1; omega, h3, by omega, ?_⟩
        intro d' hd'
        cases d' with
        | zero => exact hd
        | succ d' => rw [show j + (d' + 1) = j + 1 + d' by omega]; exact h5 d' (by omega)

theorem trials_false {f : Nat → Fetched} : ∀ {n j : Nat} {last r : Fetched} {k : Nat}, trials f n j last = (false, r, k) →
    k = n ∧ (∀ d, d < n → (f (j + d)).status ≠ .data) ∧ (n = 0 → r = last) ∧ (0 < n → r = f (j + n - 1)) := by
  intro n
  induction n with
  | zero =>
    intro j last r k h
    simp only [trials, Prod.mk.injEq] at h
    exact ⟨h.2.2.symm, fun d h => by omega, fun _ => h.2.1.symm, fun h => by omega⟩
  | succ n ih =>
    intro j last r k h
    rw [trials] at h
    simp only at h
    by_cases hd : (f j).status = .data
    · rw [if_pos hd] at h; cases h
    · rw [if_neg hd] at h
      cases ht : trials f n (j + 1) (f j) with
      | mk ok p =>
        obtain ⟨r', k'⟩ := p
        rw [ht] at h
        simp only [Prod.mk.injEq] at h
        obtain ⟨rfl, rfl, rfl⟩ := h
        obtain ⟨h1, h2, h3, h4⟩ := ih ht
        refine ⟨by omega, ?_, by omega, fun _ => ?_⟩
        · intro d hd'
          cases d with
          | zero => exact hd
          | succ d => rw [show j + (d + 1) = j + 1 + d by omega]; exact h2 d (by omega)
        · by_cases hn : n = 0
          · subst hn
            simpa using h3 rfl
          · rw [h4 (by omega)]; congr 1; omega

/-- what a result stands for, from segment `i` on: the segments that were fetched, and how it ended -/
def Explains (fetch : Nat → Nat → Fetched) (retries manifest i : Nat) (r : PipeResult) (gs : List Fetched) : Prop :=
  (∀ d g, gs[d]? = some g → FirstData fetch retries (i + d) g) ∧
  ((r.status = .data ∧ ∃ g, gs.getLast? = some g ∧
      (manifest = 0 → ∃ c, g.final = some c ∧ c.compare (segComp (i + gs.length - 1)) = 0) ∧ (0 < manifest → i + gs.length = manifest)) ∨
   (r.status ≠ .data ∧ ∀ j, j < retries → (fetch (i + gs.length) j).status ≠ .data))

theorem pipeLoop_spec (fetch : Nat → Nat → Fetched) (retries manifest : Nat) : ∀ (fuel i : Nat) (last : Fetched) (fr : Wire) (counts : List Nat) (r : PipeResult),
    (retries = 0 → last.status ≠ .data) → pipeLoop fetch retries manifest fuel i last fr counts = some (.ok r) →
    ∃ gs, Explains fetch retries manifest i r gs ∧ r.content = fr ++ (gs.map (·.content)).flatten ∧
      ∃ ks, r.counts = counts ++ ks ∧ (∀ k ∈ ks, k ≤ retries) ∧ ks.length ≤ gs.length + 1 := by
  intro fuel
  induction fuel with
  | zero => intro i last fr counts r _ h; cases h
  | succ fuel ih =>
    intro i last fr counts r hlast h
    rw [pipeLoop] at h
    cases ht : trials (fetch i) retries 0 last with
    | mk ok p =>
    obtain ⟨g, k⟩ := p
    rw [ht] at h
    simp only at h
    cases ok with
    | false =>
      obtain ⟨hk, hall, h0, h1⟩ := trials_false ht
      simp only [Bool.false_eq_true, if_false, ite_self, Option.some.injEq, Res.ok.injEq] at h
      subst h
      refine ⟨[], ⟨fun d g hg => by simp at hg, .inr ⟨?_, fun j hj => by simpa using hall j hj⟩⟩, by simp, [k], rfl, by simp [hk], by simp⟩
      by_cases hr : retries = 0
      · simp only; rw [h0 hr]; exact hlast hr
      · simp only; rw [h1 (by omega)]; exact hall (retries - 1) (by omega) |> fun h => by simpa [Nat.add_sub_assoc (by omega : 1 ≤ retries)] using h
    | true =>
      obtain ⟨d, hd1, hd2, hd3, hd4, hd5⟩ := trials_true ht
      have hfirst : FirstData fetch retries i g := ⟨d, hd1, by simpa using hd2, hd3, fun j' hj => by simpa using hd5 j' hj⟩
      simp only [if_true] at h
      have stop : ∀ (hfin : (manifest = 0 → ∃ c, g.final = some c ∧ c.compare (segComp i) = 0) ∧ (0 < manifest → i + 1 = manifest)),
          (⟨.data, fr ++ g.content, counts ++ [k]⟩ : PipeResult) = r →
          ∃ gs, Explains fetch retries manifest i r gs ∧ r.content = fr ++ (gs.map (·.content)).flatten ∧
            ∃ ks, r.counts = counts ++ ks ∧ (∀ k ∈ ks, k ≤ retries) ∧ ks.length ≤ gs.length + 1 := by
        intro hfin e
        subst e
        refine ⟨[g], ⟨?_, .inl ⟨rfl, g, rfl, ?_, ?_⟩⟩, by simp, [k], rfl, by simp [hd4]; omega, by simp⟩
        · intro d' g' hg
          cases d' with
          | zero =>
            rw [List.getElem?_cons_zero] at hg
            injection hg with hg
            subst hg
            exact hfirst
          | succ d' => simp at hg
        · simpa using hfin.1
        · simpa using hfin.2
      have go : pipeLoop fetch retries manifest fuel (i + 1) g (fr ++ g.content) (counts ++ [k]) = some (.ok r) →
          ∃ gs, Explains fetch retries manifest i r gs ∧ r.content = fr ++ (gs.map (·.content)).flatten ∧
            ∃ ks, r.counts = counts ++ ks ∧ (∀ k ∈ ks, k ≤ retries) ∧ ks.length ≤ gs.length + 1 := by
        intro h
        obtain ⟨gs, ⟨e1, e2⟩, e3, ks, e4, e5, e6⟩ := ih (i + 1) g _ _ r (by intro hr; omega) h
        refine ⟨g :: gs, ⟨?_, ?_⟩, by rw [e3]; simp, k :: ks, by rw [e4]; simp, ?_, by simp; omega⟩
        · intro d' g' hg
          cases d' with
          | zero =>
            rw [List.getElem?_cons_zero] at hg
            injection hg with hg
            subst hg
            exact hfirst
          | succ d' =>
            rw [List.getElem?_cons_succ] at hg
            rw [show i + (d' + 1) = i + 1 + d' by omega]
            exact e1 d' g' hg
        · rcases e2 with ⟨f1, g', f2, f3, f4⟩ | ⟨f1, f2⟩
          · refine .inl ⟨f1, g', ?_, ?_, ?_⟩
            · rw [List.getLast?_cons, f2]; rfl
            · rw [List.length_cons, show i + (gs.length + 1) - 1 = i + 1 + gs.length - 1 by omega]; exact f3
            · rw [List.length_cons, show i + (gs.length + 1) = i + 1 + gs.length by omega]; exact f4
          · refine .inr ⟨f1, ?_⟩
            rw [List.length_cons, show i + (gs.length + 1) = i + 1 + gs.length by omega]; exact f2
        · intro x hx
          rcases List.mem_cons.mp hx with rfl | hx
          · omega
          · exact e5 x hx
      by_cases hm : 0 < manifest
      · rw [if_pos hm] at h
        by_cases hi : i + 1 = manifest
        · rw [if_pos hi] at h
          exact stop ⟨fun h => by omega, fun _ => hi⟩ (Res.ok.inj (Option.some.inj h))
        · rw [if_neg hi] at h
          exact go h
      · rw [if_neg hm] at h
        cases hf : g.final with
        | none => rw [hf] at h; cases h
        | some c =>
          rw [hf] at h
          simp only at h
          by_cases hc : c.compare (segComp i) = 0
          · rw [if_pos hc] at h
            exact stop ⟨fun _ => ⟨c, hf, hc⟩, fun h => absurd h hm⟩ (Res.ok.inj (Option.some.inj h))
          · rw [if_neg hc] at h
            exact go h

/-- C55: if the pipeline reports success, the content is the concatenation of the segments 0 to `n` in order, each the first Data that was received for
it, and segment `n` names itself as the final block (or is the last one of the manifest).  If it reports a failure, every trial for the
segment after the fetched ones failed.  No segment is fetched more than `MaxRetriesOnFailure` times. -/
theorem C55_result (fetch : Nat → Nat → Fetched) (maxRetries manifest fuel : Nat) (r : PipeResult)
    (h : pipeline fetch maxRetries manifest fuel = some (.ok r)) :
    (∀ k ∈ r.counts, k ≤ maxRetries) ∧
    ∃ gs : List Fetched, (∀ d g, gs[d]? = some g → FirstData fetch maxRetries d g) ∧
      (r.status = .data → r.content = (gs.map (·.content)).flatten ∧ ∃ g, gs.getLast? = some g ∧
        (manifest = 0 → g.final = some (segComp (gs.length - 1))) ∧ (0 < manifest → gs.length = manifest)) ∧
      (r.status ≠ .data → ∀ j, j < (toInt maxRetries).toNat → (fetch gs.length j).status ≠ .data) := by
  unfold pipeline at h
  have hle : (toInt maxRetries).toNat ≤ maxRetries := by
    unfold toInt
    rw [wrap64_eq]
    omega
  obtain ⟨gs, ⟨e1, e2⟩, e3, ks, e4, e5, _⟩ := pipeLoop_spec fetch _ manifest fuel 0 _ _ _ r (by simp) h
  rw [List.nil_append] at e3 e4
  refine ⟨fun k hk => Nat.le_trans (e5 k (e4 ▸ hk)) hle, gs, ?_, ?_, ?_⟩
  · intro d g hg
    obtain ⟨j, h1, h2, h3, h4⟩ := e1 d g hg
    rw [Nat.zero_add] at h2 h4
    exact ⟨j, by omega, h2, h3, h4⟩
  · intro hs
    rcases e2 with ⟨_, g, f2, f3, f4⟩ | ⟨f1, _⟩
    · refine ⟨e3, g, f2, ?_, fun hm => by simpa using f4 hm⟩
      intro hm
      obtain ⟨c, hc1, hc2⟩ := f3 hm
      rw [hc1, (Component.compare_isCompare.zero _ _).1 hc2, Nat.zero_add]
    · exact absurd hs f1
  · intro hs
    rcases e2 with ⟨f1, _⟩ | ⟨_, f2⟩
    · exact absurd f1 hs
    · simpa using f2

/-- three segments; segment 1 comes at the second trial -/
example : pipeline (fun i j => if i = 1 ∧ j = 0 then ⟨.timeout, [], none⟩ else ⟨.data, [[UInt8.ofNat i]], some (segComp 2)⟩) 3 0 5 =
    some (.ok ⟨.data, [[0], [1], [2]], [1, 2, 1]⟩) := by
  have : toInt 3 = 3 := toInt_of_lt (by decide)
  unfold pipeline
  rw [this]
  decide

/-- the trials of a segment that do not end the fetcher with a panic -/
theorem pipeLoop_returns (fetch : Nat → Nat → Fetched) (retries n : Nat)
    (hfin : ∀ i, i ≤ n → ∀ j, (fetch i j).status = .data → (fetch i j).final ≠ none)
    (hlast : ∀ j, (fetch n j).status = .data → (fetch n j).final = some (segComp n)) :
    ∀ (d i : Nat) (last : Fetched) (fr : Wire) (counts : List Nat) (fuel : Nat), i + d = n → d < fuel →
      ∃ r, pipeLoop fetch retries 0 fuel i last fr counts = some (.ok r) := by
  intro d
  induction d with
  | zero =>
    intro i last fr counts fuel hi hf
    obtain ⟨fuel, rfl⟩ : ∃ k, fuel = k + 1 := ⟨fuel - 1, by omega⟩
    rw [pipeLoop]
    cases ht : trials (fetch i) retries 0 last with
    | mk ok p =>
    obtain ⟨g, k⟩ := p
    cases ok with
    | false => exact ⟨_, rfl⟩
    | true =>
      obtain ⟨d, _, h2, h3, _⟩ := trials_true ht
      have hin : i = n := by omega
      subst hin
      have hf : g.final = some (segComp i) := by rw [h2] at h3 ⊢; exact hlast _ h3
      simp only [Nat.lt_irrefl, if_false, if_true, hf, Component.compare_isCompare.refl]
      exact ⟨_, rfl⟩
  | succ d ih =>
    intro i last fr counts fuel hi hf
    obtain ⟨fuel, rfl⟩ : ∃ k, fuel = k + 1 := ⟨fuel - 1, by omega⟩
    rw [pipeLoop]
    cases ht : trials (fetch i) retries 0 last with
    | mk ok p =>
    obtain ⟨g, k⟩ := p
    cases ok with
    | false => exact ⟨_, rfl⟩
    | true =>
      obtain ⟨d', _, h2, h3, _⟩ := trials_true ht
      cases hg : g.final with
      | none => rw [h2] at h3 hg; exact absurd hg (hfin i (by omega) _ h3)
      | some c =>
        simp only [Nat.lt_irrefl, if_false, if_true, hg]
        by_cases hc : c.compare (segComp i) = 0
        · rw [if_pos hc]; exact ⟨_, rfl⟩
        · rw [if_neg hc]; exact ih (i + 1) g _ _ fuel (by omega) (by omega)

/-- C55: the pipeline returns and does not panic when every Data of the segments up to `n` has a final block id and those of segment `n` name `n`.
Missing: `C55_final_panics` and `C55_diverges` show what happens otherwise. -/
theorem C55_returns_partial (fetch : Nat → Nat → Fetched) (maxRetries n fuel : Nat)
    (hfin : ∀ i, i ≤ n → ∀ j, (fetch i j).status = .data → (fetch i j).final ≠ none)
    (hlast : ∀ j, (fetch n j).status = .data → (fetch n j).final = some (segComp n)) (hf : n < fuel) :
    ∃ r, pipeline fetch maxRetries 0 fuel = some (.ok r) :=
  pipeLoop_returns fetch _ n hfin hlast n 0 _ _ _ fuel (by omega) hf

/-- the hypotheses hold for two segments of which the first one is always lost -/
example : let fetch : Nat → Nat → Fetched := fun i _ => if i = 0 then ⟨.timeout, [], none⟩ else ⟨.data, [[7]], some (segComp 1)⟩
    (∀ i, i ≤ 1 → ∀ j, (fetch i j).status = .data → (fetch i j).final ≠ none) ∧ (∀ j, (fetch 1 j).status = .data → (fetch 1 j).final = some (segComp 1)) := by
  refine ⟨fun i hi j => ?_, fun j _ => rfl⟩
  have : i = 0 ∨ i = 1 := by omega
  rcases this with rfl | rfl <;> simp

/-- With a manifest the pipeline always returns, whatever is received. -/
theorem C55_manifest_returns (fetch : Nat → Nat → Fetched) (maxRetries manifest fuel : Nat) (hm : 0 < manifest) (hf : manifest ≤ fuel) :
    ∃ r, pipeline fetch maxRetries manifest fuel = some (.ok r) := by
  have h : ∀ (d i : Nat) (last : Fetched) (fr : Wire) (counts : List Nat) (fuel : Nat), i + d + 1 = manifest → d < fuel →
      ∃ r, pipeLoop fetch (toInt maxRetries).toNat manifest fuel i last fr counts = some (.ok r) := by
    intro d
    induction d with
    | zero =>
      intro i last fr counts fuel hi hf
      obtain ⟨fuel, rfl⟩ : ∃ k, fuel = k + 1 := ⟨fuel - 1, by omega⟩
      rw [pipeLoop]
      cases trials (fetch i) (toInt maxRetries).toNat 0 last with
      | mk ok p =>
      simp only [if_pos hm, if_pos (show i + 1 = manifest by omega)]
      exact ⟨_, rfl⟩
    | succ d ih =>
      intro i last fr counts fuel hi hf
      obtain ⟨fuel, rfl⟩ : ∃ k, fuel = k + 1 := ⟨fuel - 1, by omega⟩
      rw [pipeLoop]
      cases trials (fetch i) (toInt maxRetries).toNat 0 last with
      | mk ok p =>
      obtain ⟨g, k⟩ := p
      simp only [if_pos hm, if_neg (show ¬ i + 1 = manifest by omega)]
      cases ok with
      | false => exact ⟨_, rfl⟩
      | true => exact ih (i + 1) g _ _ fuel (by omega) (by omega)
  exact h (manifest - 1) 0 _ _ _ fuel (by omega) (by omega)

theorem trials_first {f : Nat → Fetched} {n j : Nat} {last : Fetched} (hn : 0 < n) (h : (f j).status = .data) : trials f n j last = (true, f j, 1) := by
  obtain ⟨m, rfl⟩ : ∃ m, n = m + 1 := ⟨n - 1, by omega⟩
  rw [trials]
  simp only [h, if_true]

/-- C55 fails: a Data without a final block id makes the pipeline panic (nil dereference), whatever its content. -/
theorem C55_final_panics (content : Wire) (maxRetries fuel : Nat) (h0 : 0 < maxRetries) (hl : maxRetries < 2 ^ 63) :
    pipeline (fun _ _ => ⟨.data, content, none⟩) maxRetries 0 (fuel + 1) = some .panic := by
  unfold pipeline
  rw [toInt_of_lt hl, pipeLoop, trials_first (by omega) rfl]
  simp

/-- C55 fails: if no segment names itself as the final block, the pipeline fetches for ever and reports nothing. -/
theorem C55_diverges (maxRetries fuel : Nat) (h0 : 0 < maxRetries) (hl : maxRetries < 2 ^ 63) :
    pipeline (fun _ _ => ⟨.data, [[1]], some ⟨8, [1]⟩⟩) maxRetries 0 fuel = none := by
  unfold pipeline
  rw [toInt_of_lt hl]
  have h : ∀ (fuel i : Nat) (last : Fetched) (fr : Wire) (counts : List Nat),
      pipeLoop (fun _ _ => ⟨.data, [[1]], some ⟨8, [1]⟩⟩) ((maxRetries : Int)).toNat 0 fuel i last fr counts = none := by
    intro fuel
    induction fuel with
    | zero => intros; rfl
    | succ fuel ih =>
      intro i last fr counts
      rw [pipeLoop, trials_first (by omega) rfl]
      have hc : ¬ (⟨8, [1]⟩ : Component).compare (segComp i) = 0 := by
        rw [Component.compare_isCompare.zero]
        intro h
        have := congrArg Component.typ h
        exact absurd this (by simp [segComp])
      simp only [Nat.lt_irrefl, if_false, if_true, if_neg hc]
      exact ih _ _ _ _
  exact h fuel 0 _ _ _

theorem natEnc_beVal {x : Nat} (h : x < 2 ^ 64) : beVal (natEnc x) = x := by
  unfold natEnc
  split
  · simp [beVal]; omega
  · split
    · exact beVal_be_of_lt (by omega)
    · split
      · exact beVal_be_of_lt (by omega)
      · exact beVal_be_of_lt (by omega)

theorem segComp_inj {i j : Nat} (hi : i < 2 ^ 64) (hj : j < 2 ^ 64) (h : segComp i = segComp j) : i = j := by
  have h := congrArg Component.val h
  have h1 := natEnc_beVal hi
  have h2 := natEnc_beVal hj
  simp only [segComp] at h
  rw [← h1, ← h2, h]

/-- C54 and C55 together: what was provided in segments is what the pipeline delivers, when each Data received for a segment is the one provided for it
(any trial may fail).  A reported success is the whole content. -/
theorem C55_roundtrip (size : Nat) (content : Wire) (hs : 0 < size) (hl : content.flatten.length + size ≤ 2 ^ 64) (hg : NoGap content)
    (segs : List Seg) (hp : provideSegs size content = .ok segs) (fetch : Nat → Nat → Fetched)
    (hf : ∀ i j, (fetch i j).status = .data → ∃ s, segs[i]? = some s ∧ (fetch i j).content = s.content ∧ (fetch i j).final = some (segComp s.final))
    (maxRetries fuel : Nat) (r : PipeResult) (h : pipeline fetch maxRetries 0 fuel = some (.ok r)) (hr : r.status = .data) :
    r.content.flatten = content.flatten := by
  obtain ⟨segs', hp', hno, hseg, hcat⟩ := C54_segments_partial size content hs hl hg
  rw [hp] at hp'
  injection hp' with hp'
  subst hp'
  obtain ⟨_, gs, h1, h2, _⟩ := C55_result fetch maxRetries 0 fuel r h
  obtain ⟨h3, g, h4, h5, _⟩ := h2 hr
  have get : ∀ (d : Nat) (g : Fetched), gs[d]? = some g → ∃ s : Seg, segs[d]? = some s ∧ g.content = s.content ∧ g.final = some (segComp s.final) := by
    intro d g hd
    obtain ⟨j, _, e, hst, _⟩ := h1 d g hd
    subst e
    exact hf d j hst
  have hlen : gs.length = segs.length := by
    rw [List.getLast?_eq_getElem?] at h4
    obtain ⟨s, hs1, _, hs3⟩ := get _ g h4
    rw [h5 rfl] at hs3
    injection hs3 with hs3
    obtain ⟨hlt, hge⟩ := List.getElem?_eq_some_iff.mp hs1
    have hm := hseg s (List.mem_of_getElem? hs1)
    have hgl : gs ≠ [] := by rintro rfl; simp at h4
    have hgp := List.length_pos_iff.mpr hgl
    have hb : segs.length ≤ content.flatten.length := by
      rw [← hcat, List.length_flatten, List.map_map]
      have : ∀ l : List Seg, (∀ s ∈ l, s.content.flatten ≠ []) → l.length ≤ (l.map (List.length ∘ fun s => s.content.flatten)).sum := by
        intro l
        induction l with
        | nil => intro _; simp
        | cons a l ih =>
          intro ha
          have := ih fun s hs => ha s (List.mem_cons_of_mem _ hs)
          have := List.length_pos_iff.mpr (ha a List.mem_cons_self)
          simp only [List.map_cons, List.sum_cons, List.length_cons, Function.comp]
          omega
      exact this segs fun s hs => (hseg s hs).1
    have := segComp_inj (by omega) (by omega) hs3
    omega
  rw [h3, ← hcat]
  have : gs.map (·.content) = segs.map (·.content) := by
    apply List.ext_getElem?
    intro d
    rw [List.getElem?_map, List.getElem?_map]
    cases hd : gs[d]? with
    | none =>
      rw [List.getElem?_eq_none_iff, hlen] at hd
      rw [List.getElem?_eq_none hd]; rfl
    | some g =>
      obtain ⟨s, e1, e2, _⟩ := get d g hd
      rw [e1, Option.map_some, Option.map_some, e2]
  rw [this]
  clear this hcat hseg hno hp hf get hlen h1 h2 h3 h4 h5 h hr
  induction segs with
  | nil => rfl
  | cons s l ih => simp only [List.map_cons, List.flatten_cons, List.flatten_append, ih]

/-- a content of three bytes in two segments, the first trial of each of which fails -/
example : let segs : List Seg := [⟨0, [[1, 2]], 1⟩, ⟨1, [[3]], 1⟩]
    let fetch : Nat → Nat → Fetched := fun i j => match j, segs[i]? with
      | 0, _ => ⟨.timeout, [], none⟩
      | _ + 1, none => ⟨.timeout, [], none⟩
      | _ + 1, some s => ⟨.data, s.content, some (segComp s.final)⟩
    provideSegs 2 [[1, 2, 3]] = .ok segs ∧
    (∀ i j, (fetch i j).status = .data → ∃ s, segs[i]? = some s ∧ (fetch i j).content = s.content ∧ (fetch i j).final = some (segComp s.final)) ∧
    pipeline fetch 3 0 5 = some (.ok ⟨.data, [[1, 2], [3]], [2, 2]⟩) := by
  refine ⟨by decide, ?_, ?_⟩
  · intro i j h
    cases j with
    | zero => simp at h
    | succ j =>
      match i with
      | 0 => exact ⟨_, rfl, rfl, rfl⟩
      | 1 => exact ⟨_, rfl, rfl, rfl⟩
      | i + 2 => simp at h
  · unfold pipeline
    rw [show toInt 3 = 3 from toInt_of_lt (by decide)]
    decide

end Ndn.Schema
