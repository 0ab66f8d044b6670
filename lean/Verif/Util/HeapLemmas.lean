import Verif.Util.Heap

/-!
# Lemmas about the heap
-/

namespace Ndn.Util

/-- a strict weak order -/
structure StrictWeak {W : Type} (lt : W → W → Bool) : Prop where
  asymm : ∀ a b, lt a b = true → lt b a = false
  negTrans : ∀ a b c, lt b a = false → lt c b = false → lt c a = false

/-- two entries of a list exchanged -/
def swapped {W : Type} (l : List W) (i j : Nat) (a b : W) : List W := (l.set i b).set j a

/-- what the heap expects of its container -/
structure Lawful {σ V W : Type} (I : Iface σ V) (Ok : σ → Prop) (view : σ → List W) (w : V → W) (lt : W → W → Bool) : Prop where
  len : ∀ s, Ok s → I.len s = (view s).length
  less : ∀ s i j a b, Ok s → (view s)[i]? = some a → (view s)[j]? = some b → I.less s i j = some (lt a b)
  swap : ∀ s i j a b, Ok s → (view s)[i]? = some a → (view s)[j]? = some b →
    ∃ s', I.swap s i j = some s' ∧ Ok s' ∧ view s' = swapped (view s) i j a b
  push : ∀ s v, Ok s → Ok (I.push s v) ∧ view (I.push s v) = view s ++ [w v]
  pop : ∀ s l x, Ok s → view s = l ++ [x] → ∃ v s', I.pop s = some (v, s') ∧ Ok s' ∧ view s' = l ∧ w v = x

section
variable {W : Type} {lt : W → W → Bool}

/-- entry `i` is not greater than entry `j` -/
def Le (lt : W → W → Bool) (l : List W) (i j : Nat) : Prop := ∀ a b, l[i]? = some a → l[j]? = some b → lt b a = false

def Child (p c : Nat) : Prop := c = 2 * p + 1 ∨ c = 2 * p + 2

/-- the heap order for parents from `k` on and children below `n` -/
def HeapFrom (lt : W → W → Bool) (l : List W) (n k : Nat) : Prop := ∀ p c, Child p c → c < n → k ≤ p → Le lt l p c

/-- the heap order except at `i` -/
structure HX (lt : W → W → Bool) (l : List W) (n k i : Nat) : Prop where
  rest : ∀ p c, Child p c → c < n → k ≤ p → p ≠ i → c ≠ i → Le lt l p c
  skip : ∀ p c, Child p i → Child i c → c < n → k ≤ p → Le lt l p c

theorem Le.trans (h : StrictWeak lt) {l : List W} {i j k : Nat} (hj : j < l.length) (h1 : Le lt l i j) (h2 : Le lt l j k) :
    Le lt l i k := by
  intro a c ha hc
  have hb : l[j]? = some l[j] := List.getElem?_eq_getElem hj
  exact h.negTrans a l[j] c (h1 _ _ ha hb) (h2 _ _ hb hc)

theorem swapped_length (l : List W) (i j : Nat) (a b : W) : (swapped l i j a b).length = l.length := by simp [swapped]

theorem swapped_perm {l : List W} {i j : Nat} {a b : W} (ha : l[i]? = some a) (hb : l[j]? = some b) : (swapped l i j a b).Perm l := by
  obtain ⟨hi, rfl⟩ := List.getElem?_eq_some_iff.mp ha
  obtain ⟨hj, rfl⟩ := List.getElem?_eq_some_iff.mp hb
  exact List.set_set_perm hi hj

theorem swapped_get {l : List W} {i j : Nat} {a b : W} (ha : l[i]? = some a) (hb : l[j]? = some b) (k : Nat) :
    (swapped l i j a b)[k]? = if k = j then l[i]? else if k = i then l[j]? else l[k]? := by
  obtain ⟨hi, _⟩ := List.getElem?_eq_some_iff.mp ha
  obtain ⟨hj, _⟩ := List.getElem?_eq_some_iff.mp hb
  unfold swapped
  rw [List.getElem?_set, List.getElem?_set, List.length_set]
  by_cases h1 : k = j
  · subst h1; simp [hj, ha]
  · rw [if_neg (Ne.symm h1), if_neg h1]
    by_cases h2 : k = i
    · subst h2; simp [hi, hb]
    · rw [if_neg (Ne.symm h2), if_neg h2]

theorem swapped_le {l : List W} {i j : Nat} {a b : W} (ha : l[i]? = some a) (hb : l[j]? = some b) (p c : Nat) :
    Le lt (swapped l i j a b) p c ↔
      Le lt l (if p = j then i else if p = i then j else p) (if c = j then i else if c = i then j else c) := by
  unfold Le
  simp only [swapped_get ha hb]
  have : ∀ k, (if k = j then l[i]? else if k = i then l[j]? else l[k]?) = l[if k = j then i else if k = i then j else k]? := by
    intro k; split
    · rfl
    · split <;> rfl
  simp only [this]

end

section
variable {σ V W : Type} {I : Iface σ V} {Ok : σ → Prop} {view : σ → List W} {w : V → W} {lt : W → W → Bool}

/-- what a step of the heap operations does to the view -/
structure Moved (Ok : σ → Prop) (view : σ → List W) (n : Nat) (s s' : σ) : Prop where
  ok : Ok s'
  perm : (view s').Perm (view s)
  same : ∀ i, n ≤ i → (view s')[i]? = (view s)[i]?

theorem Moved.refl {n : Nat} {s : σ} (h : Ok s) : Moved Ok view n s s := ⟨h, List.Perm.refl _, fun _ _ => rfl⟩

theorem Moved.trans {n : Nat} {s1 s2 s3 : σ} (h1 : Moved Ok view n s1 s2) (h2 : Moved Ok view n s2 s3) : Moved Ok view n s1 s3 :=
  ⟨h2.ok, h2.perm.trans h1.perm, fun i hi => (h2.same i hi).trans (h1.same i hi)⟩

theorem Moved.swap {n : Nat} {s s' : σ} {i j : Nat} {a b : W} (hok : Ok s') (hv : view s' = swapped (view s) i j a b)
    (ha : (view s)[i]? = some a) (hb : (view s)[j]? = some b) (hi : i < n) (hj : j < n) : Moved Ok view n s s' := by
  refine ⟨hok, by rw [hv]; exact swapped_perm ha hb, ?_⟩
  intro k hk
  rw [hv, swapped_get ha hb, if_neg (by omega), if_neg (by omega)]

theorem upLoop_spec (hL : Lawful I Ok view w lt) (hO : StrictWeak lt) (n : Nat) (j : Nat) : ∀ (fuel : Nat) (s : σ), j < fuel → Ok s → j < n → n ≤ (view s).length →
    HX lt (view s) n 0 j → (∀ c, Child j c → c < n → Le lt (view s) j c) →
    ∃ s', upLoop I fuel s j = some s' ∧ Moved Ok view n s s' ∧ HeapFrom lt (view s') n 0 := by
  induction j using Nat.strongRecOn with
  | _ j ih =>
    intro fuel s hfuel hok hj hn hx hc
    obtain ⟨fuel, rfl⟩ : ∃ f, fuel = f + 1 := ⟨fuel - 1, by omega⟩
    rw [upLoop]
    by_cases h0 : (j - 1) / 2 = j
    · rw [if_pos h0]
      refine ⟨s, rfl, Moved.refl hok, ?_⟩
      intro p c hpc hcn _
      by_cases hp : p = j
      · subst hp; exact hc c hpc hcn
      · refine hx.rest p c hpc hcn (Nat.zero_le _) hp ?_
        unfold Child at hpc; omega
    · rw [if_neg h0]
      obtain ⟨i, hi⟩ : ∃ i, i = (j - 1) / 2 := ⟨_, rfl⟩
      rw [← hi]
      have hij : Child i j := by unfold Child; omega
      have hil : i < j := by omega
      have hb : (view s)[j]? = some (view s)[j] := List.getElem?_eq_getElem (by omega)
      have ha : (view s)[i]? = some (view s)[i] := List.getElem?_eq_getElem (by omega)
      rw [hL.less s j i _ _ hok hb ha]
      cases hlt : lt (view s)[j] (view s)[i] with
      | false =>
        refine ⟨s, rfl, Moved.refl hok, ?_⟩
        intro p c hpc hcn _
        by_cases hp : p = j
        · subst hp; exact hc c hpc hcn
        · by_cases hcj : c = j
          · subst hcj
            have : p = i := by unfold Child at hpc hij; omega
            subst this
            intro a b ha' hb'
            rw [ha] at ha'; rw [hb] at hb'
            cases ha'; cases hb'; exact hlt
          · exact hx.rest p c hpc hcn (Nat.zero_le _) hp hcj
      | true =>
        obtain ⟨s', hs', hok', hv⟩ := hL.swap s i j _ _ hok ha hb
        simp only [hs']
        have hmv := Moved.swap (n := n) hok' hv ha hb (by omega) hj
        have hlen : (view s').length = (view s).length := by rw [hv, swapped_length]
        have hji : Le lt (view s) j i := by
          intro a b ha' hb'
          rw [hb] at ha'; rw [ha] at hb'
          cases ha'; cases hb'
          exact hO.asymm _ _ hlt
        refine Exists.elim (ih i hil fuel s' (by omega) hok' (by omega) (by omega) ?_ ?_) ?_
        rotate_left 2
        · rintro s'' ⟨h1, h2, h3⟩
          exact ⟨s'', h1, hmv.trans h2, h3⟩
        · constructor
          · intro p c hpc hcn _ hp hci
            rw [hv, swapped_le ha hb]
            have hcj : c ≠ j := by unfold Child at hpc hij; omega
            rw [if_neg hcj, if_neg hci]
            by_cases hpj : p = j
            · subst hpj
              rw [if_pos rfl]
              exact hx.skip i c hij hpc hcn (Nat.zero_le _)
            · rw [if_neg hpj, if_neg hp]
              exact hx.rest p c hpc hcn (Nat.zero_le _) hpj hcj
          · intro p c hpi hic hcn _
            rw [hv, swapped_le ha hb]
            have hpj : p ≠ j := by unfold Child at hpi hij; omega
            have hpi' : p ≠ i := by unfold Child at hpi; omega
            rw [if_neg hpj, if_neg hpi']
            have hpile : Le lt (view s) p i := hx.rest p i hpi (by omega) (Nat.zero_le _) hpj (by omega)
            by_cases hcj : c = j
            · rw [if_pos hcj]; exact hpile
            · have hci : c ≠ i := by unfold Child at hic; omega
              rw [if_neg hcj, if_neg hci]
              exact hpile.trans hO (by omega) (hx.rest i c hic hcn (Nat.zero_le _) (by omega) hcj)
        · intro c hic hcn
          rw [hv, swapped_le ha hb]
          have hci : c ≠ i := by unfold Child at hic; omega
          rw [if_neg (by omega : i ≠ j), if_pos rfl]
          by_cases hcj : c = j
          · rw [if_pos hcj]; exact hji
          · rw [if_neg hcj, if_neg hci]
            exact hji.trans hO (by omega) (hx.rest i c hic hcn (Nat.zero_le _) (by omega) hcj)

theorem up_spec (hL : Lawful I Ok view w lt) (hO : StrictWeak lt) (n : Nat) (j : Nat) (s : σ) (hok : Ok s) (hj : j < n)
    (hn : n ≤ (view s).length) (hx : HX lt (view s) n 0 j) (hc : ∀ c, Child j c → c < n → Le lt (view s) j c) :
    ∃ s', up I s j = some s' ∧ Moved Ok view n s s' ∧ HeapFrom lt (view s') n 0 :=
  upLoop_spec hL hO n j (j + 1) s (Nat.lt_succ_self _) hok hj hn hx hc

theorem downLoop_spec (hL : Lawful I Ok view w lt) (hO : StrictWeak lt) (n k i0 : Nat) (m : Nat) : ∀ (fuel : Nat) (s : σ) (i : Nat),
    n - i = m → m < fuel → Ok s →
    i < n → n ≤ (view s).length → k ≤ i0 → i0 ≤ i → HX lt (view s) n k i →
    (i0 < i → ∀ p, Child p i → k ≤ p → Le lt (view s) p i) →
    ∃ s' f, downLoop I n i0 fuel s i = some (s', f) ∧ Moved Ok view n s s' ∧
      (f = true → HeapFrom lt (view s') n k) ∧
      (f = false → HX lt (view s') n k i0 ∧ (∀ c, Child i0 c → c < n → Le lt (view s') i0 c) ∧ i = i0) := by
  induction m using Nat.strongRecOn with
  | _ m ih =>
    intro fuel s i hm hfuel hok hi hn hk hi0 hx hp
    obtain ⟨fuel, rfl⟩ : ∃ f, fuel = f + 1 := ⟨fuel - 1, by omega⟩
    have fin : (∀ c, Child i c → c < n → Le lt (view s) i c) →
        ∃ s' f, (some (s, decide (i > i0)) : Option (σ × Bool)) = some (s', f) ∧ Moved Ok view n s s' ∧
          (f = true → HeapFrom lt (view s') n k) ∧
          (f = false → HX lt (view s') n k i0 ∧ (∀ c, Child i0 c → c < n → Le lt (view s') i0 c) ∧ i = i0) := by
      intro hc
      refine ⟨s, _, rfl, Moved.refl hok, ?_, ?_⟩
      · intro hf
        have hf' : i0 < i := by simpa using hf
        intro p c hpc hcn hkp
        by_cases hpi : p = i
        · subst hpi; exact hc c hpc hcn
        · by_cases hci : c = i
          · subst hci; exact hp hf' p hpc hkp
          · exact hx.rest p c hpc hcn hkp hpi hci
      · intro hf
        have hf' : ¬ i > i0 := by simpa using hf
        have : i = i0 := by omega
        subst this
        exact ⟨hx, hc, rfl⟩
    rw [downLoop]
    by_cases h0 : 2 * i + 1 ≥ n
    · rw [if_pos h0]
      refine fin ?_
      intro c hic hcn
      unfold Child at hic; omega
    · rw [if_neg h0]
      have ha : (view s)[i]? = some (view s)[i] := List.getElem?_eq_getElem (by omega)
      have hl1 : (view s)[2 * i + 1]? = some (view s)[2 * i + 1] := List.getElem?_eq_getElem (by omega)
      -- the smaller child
      obtain ⟨r, hr, hrn, hmin⟩ : ∃ r, rightChild I s (2 * i + 1) n = some r ∧ (if r then 2 * i + 2 else 2 * i + 1) < n ∧
          (∀ c, Child i c → c < n → Le lt (view s) (if r then 2 * i + 2 else 2 * i + 1) c) := by
        have self : ∀ c, Le lt (view s) c c := by
          intro c a b h1 h2
          rw [h1] at h2; cases h2
          cases h : lt a a with
          | false => rfl
          | true => rw [hO.asymm _ _ h] at h; cases h
        unfold rightChild
        by_cases h2 : 2 * i + 1 + 1 < n
        · rw [if_pos h2]
          have hl2 : (view s)[2 * i + 1 + 1]? = some (view s)[2 * i + 1 + 1] := List.getElem?_eq_getElem (by omega)
          refine ⟨_, hL.less s _ _ _ _ hok hl2 hl1, ?_, ?_⟩
          · split <;> omega
          · intro c hic hcn
            cases hlt : lt (view s)[2 * i + 1 + 1] (view s)[2 * i + 1] with
            | true =>
              rw [if_pos rfl]
              rcases hic with rfl | rfl
              · intro a b h1 h2
                rw [hl2] at h1; rw [hl1] at h2
                cases h1; cases h2
                exact hO.asymm _ _ hlt
              · exact self _
            | false =>
              rw [if_neg (by decide)]
              rcases hic with rfl | rfl
              · exact self _
              · intro a b h1 h2
                rw [hl1] at h1; rw [hl2] at h2
                cases h1; cases h2
                exact hlt
        · rw [if_neg h2]
          refine ⟨false, rfl, ?_, ?_⟩
          · simp only [Bool.false_eq_true, if_false]; omega
          · intro c hic hcn
            simp only [Bool.false_eq_true, if_false]
            rcases hic with rfl | rfl
            · exact self _
            · omega
      rw [hr]
      simp only
      obtain ⟨j, hj⟩ : ∃ j, j = (if r = true then 2 * i + 2 else 2 * i + 1) := ⟨_, rfl⟩
      rw [← hj] at hrn hmin ⊢
      have hij : Child i j := by unfold Child; rw [hj]; split <;> omega
      have hlt_ij : i < j := by unfold Child at hij; omega
      have hb : (view s)[j]? = some (view s)[j] := List.getElem?_eq_getElem (by omega)
      rw [hL.less s j i _ _ hok hb ha]
      cases hlt : lt (view s)[j] (view s)[i] with
      | false =>
        refine fin ?_
        have hile : Le lt (view s) i j := by
          intro a b h1 h2
          rw [ha] at h1; rw [hb] at h2
          cases h1; cases h2; exact hlt
        intro c hic hcn
        exact hile.trans hO (by omega) (hmin c hic hcn)
      | true =>
        obtain ⟨s', hs', hok', hv⟩ := hL.swap s i j _ _ hok ha hb
        simp only [hs']
        have hmv := Moved.swap (n := n) hok' hv ha hb hi hrn
        have hlen : (view s').length = (view s).length := by rw [hv, swapped_length]
        have hji : Le lt (view s) j i := by
          intro a b ha' hb'
          rw [hb] at ha'; rw [ha] at hb'
          cases ha'; cases hb'
          exact hO.asymm _ _ hlt
        refine Exists.elim (ih (n - j) (by omega) fuel s' j rfl (by omega) hok' hrn (by omega) hk (by omega) ?_ ?_) ?_
        rotate_left 2
        · rintro s'' ⟨f, h1, h2, h3, h4⟩
          refine ⟨s'', f, h1, hmv.trans h2, h3, ?_⟩
          intro hf
          have := (h4 hf).2.2
          omega
        · constructor
          · intro p c hpc hcn hkp hpj hcj
            rw [hv, swapped_le ha hb, if_neg hpj, if_neg hcj]
            by_cases hpi : p = i
            · subst hpi
              have hcp : c ≠ p := by unfold Child at hpc; omega
              rw [if_pos rfl, if_neg hcp]
              exact hmin c hpc hcn
            · rw [if_neg hpi]
              by_cases hci : c = i
              · subst hci
                rw [if_pos rfl]
                exact hx.skip p j hpc hij hrn hkp
              · rw [if_neg hci]
                exact hx.rest p c hpc hcn hkp hpi hci
          · intro p c hpj hjc hcn hkp
            have : p = i := by unfold Child at hpj hij; omega
            subst this
            have hcj : c ≠ j := by unfold Child at hjc; omega
            have hcp : c ≠ p := by unfold Child at hjc; omega
            rw [hv, swapped_le ha hb, if_neg (by omega : p ≠ j), if_pos rfl, if_neg hcj, if_neg hcp]
            exact hx.rest j c hjc hcn (by omega) (by omega) (by omega)
        · intro _ p hpj hkp
          have : p = i := by unfold Child at hpj hij; omega
          subst this
          rw [hv, swapped_le ha hb, if_neg (by omega : p ≠ j), if_pos rfl, if_pos rfl]
          exact hji

theorem down_spec (hL : Lawful I Ok view w lt) (hO : StrictWeak lt) (n k i0 : Nat) (s : σ) (hok : Ok s)
    (hi : i0 < n) (hn : n ≤ (view s).length) (hk : k ≤ i0) (hx : HX lt (view s) n k i0) :
    ∃ s' f, down I n i0 s i0 = some (s', f) ∧ Moved Ok view n s s' ∧
      (f = true → HeapFrom lt (view s') n k) ∧
      (f = false → HX lt (view s') n k i0 ∧ (∀ c, Child i0 c → c < n → Le lt (view s') i0 c)) := by
  obtain ⟨s', f, h1, h2, h3, h4⟩ := downLoop_spec hL hO n k i0 (n - i0) (n + 1) s i0 rfl (by omega) hok hi hn hk (Nat.le_refl _) hx
    (fun h => absurd h (Nat.lt_irrefl _))
  exact ⟨s', f, h1, h2, h3, fun hf => ⟨(h4 hf).1, (h4 hf).2.1⟩⟩

theorem initLoop_spec (hL : Lawful I Ok view w lt) (hO : StrictWeak lt) (n : Nat) : ∀ (k : Nat) (s : σ), Ok s → (view s).length = n →
    k ≤ n / 2 → HeapFrom lt (view s) n k →
    ∃ s', initLoop I n k s = some s' ∧ Moved Ok view n s s' ∧ HeapFrom lt (view s') n 0 := by
  intro k
  induction k with
  | zero => intro s hok _ _ hh; exact ⟨s, rfl, Moved.refl hok, hh⟩
  | succ k ih =>
    intro s hok hn hk hh
    refine Exists.elim (down_spec hL hO n k k s hok (by omega) (by omega) (Nat.le_refl _) ?_) ?_
    rotate_left 1
    · rintro s' ⟨f, h1, h2, h3, h4⟩
      have hheap : HeapFrom lt (view s') n k := by
        cases f with
        | true => exact h3 rfl
        | false =>
          obtain ⟨hx, hc⟩ := h4 rfl
          intro p c hpc hcn hkp
          by_cases hp : p = k
          · subst hp; exact hc c hpc hcn
          · exact hx.rest p c hpc hcn hkp hp (by unfold Child at hpc; omega)
      obtain ⟨s'', g1, g2, g3⟩ := ih s' h2.ok (by rw [h2.perm.length_eq, hn]) (by omega) hheap
      refine ⟨s'', ?_, h2.trans g2, g3⟩
      simp only [initLoop, h1, g1]
    · constructor
      · intro p c hpc hcn hkp hp _
        exact hh p c hpc hcn (by omega)
      · intro p c hpk hkc hcn hkp
        unfold Child at hpk; omega

/-- the root of a heap is a least element -/
theorem root_le (hO : StrictWeak lt) {l : List W} (h : HeapFrom lt l l.length 0) (i : Nat) (hi : i < l.length) : Le lt l 0 i := by
  induction i using Nat.strongRecOn with
  | _ i ih =>
    by_cases h0 : i = 0
    · subst h0
      intro a b h1 h2
      rw [h1] at h2; cases h2
      cases h : lt a a with
      | false => rfl
      | true => rw [hO.asymm _ _ h] at h; cases h
    · have hc : Child ((i - 1) / 2) i := by unfold Child; omega
      exact (ih ((i - 1) / 2) (by omega) (by omega)).trans hO (by omega) (h _ i hc hi (Nat.zero_le _))

/-- the state holds a heap -/
def IsHeap (lt : W → W → Bool) (l : List W) : Prop := HeapFrom lt l l.length 0

theorem init_spec (hL : Lawful I Ok view w lt) (hO : StrictWeak lt) {s : σ} (hok : Ok s) :
    ∃ s', init I s = some s' ∧ Ok s' ∧ (view s').Perm (view s) ∧ IsHeap lt (view s') := by
  unfold init
  rw [hL.len s hok]
  refine Exists.elim (initLoop_spec hL hO (view s).length ((view s).length / 2) s hok rfl (Nat.le_refl _) ?_) ?_
  rotate_left 1
  · rintro s' ⟨h1, h2, h3⟩
    refine ⟨s', h1, h2.ok, h2.perm, ?_⟩
    unfold IsHeap; rw [h2.perm.length_eq]; exact h3
  · intro p c hpc hcn hkp
    unfold Child at hpc; omega

theorem push_spec (hL : Lawful I Ok view w lt) (hO : StrictWeak lt) {s : σ} (hok : Ok s) (hh : IsHeap lt (view s)) (x : V) :
    ∃ s', push I s x = some s' ∧ Ok s' ∧ (view s').Perm (w x :: view s) ∧ IsHeap lt (view s') := by
  obtain ⟨hok1, hv1⟩ := hL.push s x hok
  unfold push
  rw [hL.len _ hok1]
  have hlen : (view (I.push s x)).length = (view s).length + 1 := by rw [hv1]; simp
  rw [hlen, Nat.add_sub_cancel]
  refine Exists.elim (up_spec hL hO ((view s).length + 1) (view s).length (I.push s x) hok1 (by omega) (by omega) ?_ ?_) ?_
  rotate_left 2
  · rintro s' ⟨h1, h2, h3⟩
    refine ⟨s', h1, h2.ok, ?_, ?_⟩
    · refine h2.perm.trans ?_
      rw [hv1]
      exact List.perm_append_comm
    · unfold IsHeap; rw [h2.perm.length_eq, hlen]; exact h3
  · constructor
    · intro p c hpc hcn _ hp hc
      intro a b h1 h2
      rw [hv1, List.getElem?_append_left (by unfold Child at hpc; omega)] at h1 h2
      · exact hh p c hpc (by omega) (Nat.zero_le _) a b h1 h2
    · intro p c hpi hic hcn
      unfold Child at hic; omega
  · intro c hic hcn
    unfold Child at hic; omega

theorem perm_last {l l' : List W} {x : W} {n : Nat} (h : l'.Perm l) (hs : ∀ i, n ≤ i → l'[i]? = l[i]?) (hl : l.length = n + 1)
    (hn : l[n]? = some x) : ∃ l'', l' = l'' ++ [x] ∧ l''.length = n := by
  have hlen : l'.length = n + 1 := by rw [h.length_eq, hl]
  have hne : l' ≠ [] := by intro h'; rw [h'] at hlen; cases hlen
  have h1 := List.dropLast_concat_getLast hne
  refine ⟨l'.dropLast, ?_, by simp [hlen]⟩
  have h2 : l'.getLast hne = x := by
    have h3 : l'[n]? = some x := (hs n (Nat.le_refl _)).trans hn
    rw [List.getLast_eq_getElem]
    obtain ⟨_, h4⟩ := List.getElem?_eq_some_iff.mp h3
    simp only [hlen]
    exact h4
  rw [← h2]; exact h1.symm

theorem heap_prefix {l : List W} {l' : List W} {n : Nat} (h : HeapFrom lt (l ++ l') n 0) (hn : l.length = n) : IsHeap lt l := by
  intro p c hpc hcn hkp a b h1 h2
  refine h p c hpc (by omega) hkp a b ?_ ?_
  · rw [List.getElem?_append_left (by unfold Child at hpc; omega)]; exact h1
  · rw [List.getElem?_append_left (by omega)]; exact h2

theorem remove_spec (hL : Lawful I Ok view w lt) (hO : StrictWeak lt) {s : σ} (hok : Ok s) (hh : IsHeap lt (view s)) (i : Nat)
    (x : W) (hx : (view s)[i]? = some x) :
    ∃ v s', remove I s i = some (v, s') ∧ Ok s' ∧ w v = x ∧ (view s).Perm (x :: view s') ∧ IsHeap lt (view s') := by
  obtain ⟨hi, hxe⟩ := List.getElem?_eq_some_iff.mp hx
  unfold remove
  rw [hL.len s hok, if_neg (by omega)]
  obtain ⟨n, hn⟩ : ∃ n, (view s).length = n + 1 := ⟨(view s).length - 1, by omega⟩
  have hlast : (view s)[n]? = some (view s)[n] := List.getElem?_eq_getElem (by omega)
  -- taking the last element off a state
  have fin : ∀ s1 : σ, Ok s1 → (view s1).Perm (view s) → (view s1)[n]? = some x → HeapFrom lt (view s1) n 0 →
      ∃ v s', I.pop s1 = some (v, s') ∧ Ok s' ∧ w v = x ∧ (view s).Perm (x :: view s') ∧ IsHeap lt (view s') := by
    intro s1 hok1 hp1 hn1 hh1
    obtain ⟨l, hl, hll⟩ := perm_last (List.Perm.refl (view s1)) (fun _ _ => rfl) (by rw [hp1.length_eq, hn]) hn1
    obtain ⟨v, s', g1, g2, g3, g4⟩ := hL.pop s1 l x hok1 hl
    refine ⟨v, s', g1, g2, g4, ?_, ?_⟩
    · rw [g3]
      refine hp1.symm.trans ?_
      rw [hl]; exact List.perm_append_comm
    · rw [g3]
      rw [hl] at hh1
      exact heap_prefix hh1 hll
  have hsub : HeapFrom lt (view s) n 0 := fun p c hpc hcn hk => hh p c hpc (by omega) hk
  rw [hn, Nat.add_sub_cancel]
  by_cases hni : n = i
  · rw [if_pos hni]
    subst hni
    exact fin s hok (List.Perm.refl _) hx hsub
  · rw [if_neg hni]
    obtain ⟨s1, hs1, hok1, hv1⟩ := hL.swap s i n _ _ hok hx hlast
    rw [hs1]
    simp only
    have hp1 : (view s1).Perm (view s) := by rw [hv1]; exact swapped_perm hx hlast
    have hn1 : (view s1)[n]? = some x := by rw [hv1, swapped_get hx hlast, if_pos rfl]; exact hx
    have keep : ∀ k, k < n → k ≠ i → (view s1)[k]? = (view s)[k]? := by
      intro k hk hki
      rw [hv1, swapped_get hx hlast, if_neg (by omega), if_neg hki]
    refine Exists.elim (down_spec hL hO n 0 i s1 hok1 (by omega)
      (by rw [hp1.length_eq]; omega) (Nat.zero_le _) ?_) ?_
    rotate_left 1
    · rintro s2 ⟨f, h1, h2, h3, h4⟩
      rw [h1]
      cases f with
      | true =>
        exact fin s2 h2.ok (h2.perm.trans hp1) ((h2.same n (Nat.le_refl _)).trans hn1) (h3 rfl)
      | false =>
        obtain ⟨g1, g2⟩ := h4 rfl
        obtain ⟨s3, k1, k2, k3⟩ := up_spec hL hO n i s2 h2.ok (by omega) (by rw [h2.perm.length_eq, hp1.length_eq]; omega) g1 g2
        simp only [k1]
        exact fin s3 k2.ok (k2.perm.trans (h2.perm.trans hp1))
          ((k2.same n (Nat.le_refl _)).trans ((h2.same n (Nat.le_refl _)).trans hn1)) k3
    · constructor
      · intro p c hpc hcn hk hp hc a b ha hb
        rw [keep p (by unfold Child at hpc; omega) hp] at ha
        rw [keep c hcn hc] at hb
        exact hsub p c hpc hcn hk a b ha hb
      · intro p c hpi hic hcn hk a b ha hb
        rw [keep p (by unfold Child at hpi; omega) (by unfold Child at hpi; omega)] at ha
        rw [keep c hcn (by unfold Child at hic; omega)] at hb
        exact (hsub p i hpi (by omega) hk).trans hO hi (hsub i c hic hcn (Nat.zero_le _)) a b ha hb

theorem pop_spec (hL : Lawful I Ok view w lt) (hO : StrictWeak lt) {s : σ} (hok : Ok s) (hh : IsHeap lt (view s))
    (hne : view s ≠ []) :
    ∃ v s', pop I s = some (v, s') ∧ Ok s' ∧ (view s).Perm (w v :: view s') ∧ IsHeap lt (view s') ∧
      (∀ y ∈ view s, lt y (w v) = false) := by
  unfold pop
  have hlen0 : 0 < (view s).length := List.length_pos_iff.mpr hne
  rw [hL.len s hok, if_neg (by omega)]
  obtain ⟨n, hn⟩ : ∃ n, (view s).length = n + 1 := ⟨(view s).length - 1, by omega⟩
  have hlast : (view s)[n]? = some (view s)[n] := List.getElem?_eq_getElem (by omega)
  have hx : (view s)[0]? = some (view s)[0] := List.getElem?_eq_getElem (by omega)
  rw [hn, Nat.add_sub_cancel]
  obtain ⟨s1, hs1, hok1, hv1⟩ := hL.swap s 0 n _ _ hok hx hlast
  rw [hs1]
  simp only
  have hmin : ∀ y ∈ view s, lt y (view s)[0] = false := by
    intro y hy
    obtain ⟨k, hk, rfl⟩ := List.mem_iff_getElem.mp hy
    exact root_le hO hh k hk _ _ hx (List.getElem?_eq_getElem hk)
  have hp1 : (view s1).Perm (view s) := by rw [hv1]; exact swapped_perm hx hlast
  have hn1 : (view s1)[n]? = some (view s)[0] := by rw [hv1, swapped_get hx hlast, if_pos rfl]; exact hx
  have keep : ∀ k, k < n → k ≠ 0 → (view s1)[k]? = (view s)[k]? := by
    intro k hk hki
    rw [hv1, swapped_get hx hlast, if_neg (by omega), if_neg hki]
  have hsub : HeapFrom lt (view s) n 0 := fun p c hpc hcn hk => hh p c hpc (by omega) hk
  have fin : ∀ s1 : σ, Ok s1 → (view s1).Perm (view s) → (view s1)[n]? = some (view s)[0] → HeapFrom lt (view s1) n 0 →
      ∃ v s', I.pop s1 = some (v, s') ∧ Ok s' ∧ (view s).Perm (w v :: view s') ∧ IsHeap lt (view s') ∧
      (∀ y ∈ view s, lt y (w v) = false) := by
    intro s1 hok1 hp1 hn1 hh1
    obtain ⟨l, hl, hll⟩ := perm_last (List.Perm.refl (view s1)) (fun _ _ => rfl) (by rw [hp1.length_eq, hn]) hn1
    obtain ⟨v, s', g1, g2, g3, g4⟩ := hL.pop s1 l _ hok1 hl
    refine ⟨v, s', g1, g2, ?_, ?_, by rw [g4]; exact hmin⟩
    · rw [g3, g4]
      refine hp1.symm.trans ?_
      rw [hl]; exact List.perm_append_comm
    · rw [g3]
      rw [hl] at hh1
      exact heap_prefix hh1 hll
  by_cases hn0 : n = 0
  · subst hn0
    rw [down, downLoop, if_pos (by omega)]
    exact fin s1 hok1 hp1 hn1 (fun p c hpc hcn _ => by omega)
  refine Exists.elim (down_spec hL hO n 0 0 s1 hok1 (by omega)
    (by rw [hp1.length_eq]; omega) (Nat.zero_le _) ?_) ?_
  rotate_left 1
  · rintro s2 ⟨f, h1, h2, h3, h4⟩
    rw [h1]
    refine fin s2 h2.ok (h2.perm.trans hp1) ((h2.same n (Nat.le_refl _)).trans hn1) ?_
    cases f with
    | true => exact h3 rfl
    | false =>
      obtain ⟨g1, g2⟩ := h4 rfl
      intro p c hpc hcn hk
      by_cases hp : p = 0
      · subst hp; exact g2 c hpc hcn
      · exact g1.rest p c hpc hcn hk hp (by unfold Child at hpc; omega)
  · constructor
    · intro p c hpc hcn hk hp hc a b ha hb
      rw [keep p (by unfold Child at hpc; omega) hp] at ha
      rw [keep c hcn hc] at hb
      exact hsub p c hpc hcn hk a b ha hb
    · intro p c hpi
      unfold Child at hpi; omega

/-- `Fix` after the element at `i` of a heap `l` has been changed -/
theorem fix_spec (hL : Lawful I Ok view w lt) (hO : StrictWeak lt) {s : σ} (hok : Ok s) {l : List W} (hh : IsHeap lt l) (i : Nat) (y : W)
    (hi : i < l.length) (hv : view s = l.set i y) :
    ∃ s', fix I s i = some s' ∧ Ok s' ∧ (view s').Perm (view s) ∧ IsHeap lt (view s') := by
  unfold fix
  have hlen : (view s).length = l.length := by rw [hv]; simp
  rw [hL.len s hok, hlen]
  have keep : ∀ k, k ≠ i → (view s)[k]? = l[k]? := by
    intro k hk
    rw [hv, List.getElem?_set, if_neg (Ne.symm hk)]
  refine Exists.elim (down_spec hL hO l.length 0 i s hok (by omega)
    (by omega) (Nat.zero_le _) ?_) ?_
  rotate_left 1
  · rintro s2 ⟨f, h1, h2, h3, h4⟩
    rw [h1]
    cases f with
    | true =>
      refine ⟨s2, rfl, h2.ok, h2.perm, ?_⟩
      unfold IsHeap; rw [h2.perm.length_eq, hlen]; exact h3 rfl
    | false =>
      obtain ⟨g1, g2⟩ := h4 rfl
      obtain ⟨s3, k1, k2, k3⟩ := up_spec hL hO l.length i s2 h2.ok (by omega) (by rw [h2.perm.length_eq]; omega) g1 g2
      refine ⟨s3, k1, k2.ok, k2.perm.trans h2.perm, ?_⟩
      unfold IsHeap; rw [k2.perm.length_eq, h2.perm.length_eq, hlen]; exact k3
  · constructor
    · intro p c hpc hcn hk hp hc a b ha hb
      rw [keep p hp] at ha
      rw [keep c hc] at hb
      exact hh p c hpc hcn hk a b ha hb
    · intro p c hpi hic hcn hk a b ha hb
      rw [keep p (by unfold Child at hpi; omega)] at ha
      rw [keep c (by unfold Child at hic; omega)] at hb
      exact (hh p i hpi (by omega) hk).trans hO hi (hh i c hic hcn (Nat.zero_le _)) a b ha hb

end

end Ndn.Util
