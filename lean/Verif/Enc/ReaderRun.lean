import Verif.Enc.ReaderClient

/-! The readers show every admissible client what `Prog.spec` says. -/

namespace Ndn

theorem RM.bind_ok' {σ α β : Type} {m : RM σ α} {f : α → RM σ β} {s s' : σ} {a : α} (h : m s = (.ok a, s')) :
    RM.bind m f s = f a s' := RM.bind_ok h
theorem RM.bind_err' {σ α β : Type} {m : RM σ α} {f : α → RM σ β} {s s' : σ} {e : Err} (h : m s = (.err e, s')) :
    RM.bind m f s = (.err e, s') := RM.bind_err h

theorem Rd.lift_b {α : Type} {f : RM BR α} {g : RM WR α} {r r' : BR} {x : Res α} (h : f r = (x, r')) :
    Rd.lift f g (.b r) = (x, .b r') := by
  show (match f r with | (a, r') => (a, Rd.b r')) = _
  rw [h]
theorem Rd.lift_w {α : Type} {f : RM BR α} {g : RM WR α} {r r' : WR} {x : Res α} (h : g r = (x, r')) :
    Rd.lift f g (.w r) = (x, .w r') := by
  show (match g r with | (a, r') => (a, Rd.w r')) = _
  rw [h]
theorem Rd.delegate_b {l : Int} {r r' r2 : BR} (h : BR.delegate l r = (.ok r2, r')) :
    Rd.delegate l (.b r) = (.ok (.b r2), .b r') := by
  show (match BR.delegate l r with
    | (.ok r2, r') => (.ok (.b r2), .b r')
    | (.err e, r') => (.err e, .b r')
    | (.panic, r') => (.panic, .b r') : Res Rd × Rd) = _
  rw [h]
theorem Rd.delegate_w {l : Int} {r r' : WR} {r2 : Res Rd} (h : WR.delegate l r = (r2, r')) :
    Rd.delegate l (.w r) = (r2, .w r') := by
  show (match WR.delegate l r with | (a, r') => (a, Rd.w r')) = _
  rw [h]

namespace Prog
variable {α : Type}

theorem run_b {z : Prop} {lim : Nat} (hlim : lim ≤ 2 ^ 62) (p : Prog α) : ∀ (r : BR), r.Good → p.Adm z lim r.rest →
    (∀ a t, p.spec r.rest = some (a, t) → ∃ r', p.run (.b r) = (.ok a, .b r') ∧ r'.buf = r.buf ∧ r'.rest = t ∧ r'.Good) ∧
    (p.spec r.rest = none → ∃ e r', p.run (.b r) = (.err e, .b r') ∧ r'.buf = r.buf ∧ r'.Good) := by
  induction p with
  | ret a =>
    intro r hg _
    refine ⟨fun a' t h => ?_, fun h => by simp [spec] at h⟩
    simp only [spec, Option.some.injEq, Prod.mk.injEq] at h
    exact ⟨r, by simp [run, RM.pure, h.1], rfl, h.2, hg⟩
  | readByte k ih =>
    intro r hg ha
    cases hr : r.rest with
    | nil =>
      refine ⟨fun a t h => by simp [spec] at h, fun _ => ⟨.eof, r, ?_, rfl, hg⟩⟩
      exact RM.bind_err' (Rd.lift_b (BR.readByte_nil hr))
    | cons b t =>
      have h1 := BR.readByte_cons hr
      have hlen : 1 ≤ r.rest.length := by rw [hr]; simp
      have hrest : (r.adv 1).rest = t := by rw [BR.rest_adv, hr]; rfl
      have hrun : (readByte k).run (.b r) = (k b).run (.b (r.adv 1)) := by
        exact RM.bind_ok' (Rd.lift_b h1)
      have := ih b (r.adv 1) (hg.adv hlen) (by rw [hrest]; exact ha b t hr)
      rw [hrest] at this
      rw [hrun]
      exact this
  | peek k ih =>
    intro r hg ha
    cases hr : r.rest with
    | nil =>
      refine ⟨fun a t h => by simp [spec] at h, fun _ => ⟨.eof, r, ?_, rfl, hg⟩⟩
      exact RM.bind_err' (Rd.lift_b (BR.readByte_nil hr))
    | cons b t =>
      have h1 := BR.readByte_cons hr
      have hrun : (peek k).run (.b r) = (k b).run (.b r) := by
        exact (RM.bind_ok' (Rd.lift_b h1)).trans (RM.bind_ok' (Rd.lift_b (BR.unreadByte_adv r)))
      have := ih b r hg (ha b t hr)
      rw [hr] at this
      rw [hrun]
      exact this
  | readBuf l k ih =>
    intro r hg ha
    obtain ⟨hl, _, hk⟩ := ha
    by_cases hc : l ≤ r.rest.length
    · have hrun : (readBuf l k).run (.b r) = (k (r.rest.take l)).run (.b (r.adv l)) := by
        exact RM.bind_ok' (Rd.lift_b (BR.readBuf_ok hg hc))
      have := ih (r.rest.take l) (r.adv l) (hg.adv hc) (by rw [BR.rest_adv]; exact hk hc)
      rw [BR.rest_adv] at this
      simp only [spec, if_pos hc]
      rw [hrun]; exact this
    · simp only [spec, if_neg hc]
      refine ⟨fun a t h => by simp at h, fun _ => ⟨.unexpectedEof, r, ?_, rfl, hg⟩⟩
      have he := BR.readBuf_err (l := l) hg (Nat.lt_of_not_le hc) (Nat.le_trans hl hlim)
      exact RM.bind_err' (Rd.lift_b he)
  | readWire l k ih =>
    intro r hg ha
    obtain ⟨hl, _, hk⟩ := ha
    by_cases hc : l ≤ r.rest.length
    · have hrun : (readWire l k).run (.b r) = (k (r.rest.take l)).run (.b (r.adv l)) := by
        refine (RM.bind_ok' (Rd.lift_b (BR.readWire_ok hg hc))).trans ?_
        simp only [List.flatten_cons, List.flatten_nil, List.append_nil]
      have := ih (r.rest.take l) (r.adv l) (hg.adv hc) (by rw [BR.rest_adv]; exact hk hc)
      rw [BR.rest_adv] at this
      simp only [spec, if_pos hc]
      rw [hrun]; exact this
    · simp only [spec, if_neg hc]
      obtain ⟨e, he⟩ := BR.readWire_err (l := l) hg (Nat.lt_of_not_le hc) (Nat.le_trans hl hlim)
      refine ⟨fun a t h => by simp at h, fun _ => ⟨e, r, ?_, rfl, hg⟩⟩
      exact RM.bind_err' (Rd.lift_b he)
  | skip l k ih =>
    intro r hg ha
    obtain ⟨hl, hk⟩ := ha
    by_cases hc : l ≤ r.rest.length
    · have hrun : (skip l k).run (.b r) = k.run (.b (r.adv l)) := by
        exact RM.bind_ok' (Rd.lift_b (BR.skip_ok hg hc))
      have := ih (r.adv l) (hg.adv hc) (by rw [BR.rest_adv]; exact hk hc)
      rw [BR.rest_adv] at this
      simp only [spec, if_pos hc]
      rw [hrun]; exact this
    · simp only [spec, if_neg hc]
      refine ⟨fun a t h => by simp at h, fun _ => ⟨.outOfRange, r, ?_, rfl, hg⟩⟩
      have he := BR.skip_err (l := l) hg (Nat.lt_of_not_le hc) (Nat.le_trans hl hlim)
      exact RM.bind_err' (Rd.lift_b he)
  | remaining k ih =>
    intro r hg ha
    have e : ((r.buf.length : Int) - r.pos) = (r.rest.length : Nat) := by
      rw [BR.rest_length]; have := hg.1; omega
    have hrun : (remaining k).run (.b r) = (k (r.rest.length : Nat)).run (.b r) := by
      have h1 : Rd.remaining (.b r) = (.ok (r.rest.length : Nat), .b r) := by
        show (Res.ok ((r.buf.length : Int) - r.pos), Rd.b r) = _
        rw [e]
      exact RM.bind_ok' h1
    simp only [spec]
    rw [hrun]
    exact ih _ r hg ha
  | within l sub k ihs ihk =>
    intro r hg ha
    obtain ⟨hl, hc, hs, hk⟩ := ha
    have hsm : (r.rest.take l).length < 2 ^ 62 := by
      have := hg.2
      rw [List.length_take, BR.rest_length]; omega
    obtain ⟨hs1, hs2⟩ := ihs (BR.new (r.rest.take l)) (BR.Good.new hsm) (by simpa using hs)
    simp only [BR.rest_new] at hs1 hs2
    simp only [spec, if_pos hc]
    cases hsp : sub.spec (r.rest.take l) with
    | none =>
      obtain ⟨e, r2, hrun2, _⟩ := hs2 hsp
      refine ⟨fun a t h => by simp at h, fun _ => ⟨e, r.adv l, ?_, rfl, hg.adv hc⟩⟩
      rw [run, RM.bind_ok' (Rd.delegate_b (BR.delegate_ok hg hc))]
      simp only [hrun2, after]
    | some x =>
      obtain ⟨a, t⟩ := x
      obtain ⟨r2, hrun2, _⟩ := hs1 a t hsp
      have hrun : (within l sub k).run (.b r) = (k a).run (.b (r.adv l)) := by
        rw [run, RM.bind_ok' (Rd.delegate_b (BR.delegate_ok hg hc))]
        simp only [hrun2, after]
      have := ihk a (r.adv l) (hg.adv hc) (by rw [BR.rest_adv]; exact hk a t hsp)
      rw [BR.rest_adv] at this
      simp only
      rw [hrun]; exact this

/-- Any reader in working order (buffer or wire) shows an admissible client what `spec` says. -/
theorem run_good (p : Prog α) : ∀ (r : Rd), r.Good → p.Adm False maxAlloc r.rest →
    (∀ a t, p.spec r.rest = some (a, t) → ∃ r', p.run r = (.ok a, r') ∧ r'.rest = t) ∧
    (p.spec r.rest = none → ∃ e r', p.run r = (.err e, r')) := by
  have hmm : maxAlloc ≤ 2 ^ 62 := by unfold maxAlloc; omega
  have hb : ∀ (p : Prog α) (r : BR), r.Good → p.Adm False maxAlloc r.rest →
      (∀ a t, p.spec r.rest = some (a, t) → ∃ r', p.run (.b r) = (.ok a, r') ∧ r'.rest = t) ∧
      (p.spec r.rest = none → ∃ e r', p.run (.b r) = (.err e, r')) := by
    intro p r hg ha
    obtain ⟨h1, h2⟩ := run_b hmm p r hg ha
    refine ⟨fun a t h => ?_, fun h => ?_⟩
    · obtain ⟨r', h3, _, h4, _⟩ := h1 a t h; exact ⟨_, h3, h4⟩
    · obtain ⟨e, r', h3, _⟩ := h2 h; exact ⟨_, _, h3⟩
  induction p with
  | ret a =>
    intro r hg _
    refine ⟨fun a' t h => ?_, fun h => by simp [spec] at h⟩
    simp only [spec, Option.some.injEq, Prod.mk.injEq] at h
    exact ⟨r, by simp [run, RM.pure, h.1], h.2⟩
  | readByte k ih =>
    intro r hg ha
    cases r with
    | b r => exact hb _ r hg ha
    | w r =>
      simp only [Rd.rest] at ha ⊢
      simp only [Rd.Good] at hg
      cases hr : r.rest with
      | nil =>
        obtain ⟨e, r', he⟩ := WR.readByte_nil hg hr
        refine ⟨fun a t h => by simp [spec] at h, fun _ => ⟨e, .w r', ?_⟩⟩
        exact RM.bind_err' (Rd.lift_w he)
      | cons b t =>
        obtain ⟨r', h1, hg', hr', _⟩ := WR.readByte_cons hg hr
        have hrun : (readByte k).run (.w r) = (k b).run (.w r') := by
          exact RM.bind_ok' (Rd.lift_w h1)
        have := ih b (.w r') hg' (by simp only [Rd.rest, hr']; exact ha b t hr)
        simp only [Rd.rest, hr'] at this
        simp only [spec]
        rw [hrun]; exact this
  | peek k ih =>
    intro r hg ha
    cases r with
    | b r => exact hb _ r hg ha
    | w r =>
      simp only [Rd.rest] at ha ⊢
      simp only [Rd.Good] at hg
      cases hr : r.rest with
      | nil =>
        obtain ⟨e, r', he⟩ := WR.readByte_nil hg hr
        refine ⟨fun a t h => by simp [spec] at h, fun _ => ⟨e, .w r', ?_⟩⟩
        exact RM.bind_err' (Rd.lift_w he)
      | cons b t =>
        obtain ⟨r', h1, _, _, r'', h2, hg'', hr''⟩ := WR.readByte_cons hg hr
        have hrun : (peek k).run (.w r) = (k b).run (.w r'') := by
          exact (RM.bind_ok' (Rd.lift_w h1)).trans (RM.bind_ok' (Rd.lift_w h2))
        have := ih b (.w r'') hg'' (by simp only [Rd.rest, hr'']; rw [← hr]; exact ha b t hr)
        simp only [Rd.rest, hr''] at this
        simp only [spec]
        rw [hrun]; exact this
  | readBuf l k ih =>
    intro r hg ha
    cases r with
    | b r => exact hb _ r hg ha
    | w r =>
      simp only [Rd.rest] at ha ⊢
      simp only [Rd.Good] at hg
      obtain ⟨hl, hz, hk⟩ := ha
      by_cases hc : l ≤ r.rest.length
      · obtain ⟨r', h1, hg', hr'⟩ := WR.readBuf_ok hg hc hl (by
          by_cases h0 : l = 0
          · right; exact hz h0
          · left; exact h0)
        have hrun : (readBuf l k).run (.w r) = (k (r.rest.take l)).run (.w r') := by
          exact RM.bind_ok' (Rd.lift_w h1)
        have := ih (r.rest.take l) (.w r') hg' (by simp only [Rd.rest, hr']; exact hk hc)
        simp only [Rd.rest, hr'] at this
        simp only [spec, if_pos hc]
        rw [hrun]; exact this
      · simp only [spec, if_neg hc]
        obtain ⟨e, r', he⟩ := WR.readBuf_err hg (Nat.lt_of_not_le hc) hl
        refine ⟨fun a t h => by simp at h, fun _ => ⟨e, .w r', ?_⟩⟩
        exact RM.bind_err' (Rd.lift_w he)
  | readWire l k ih =>
    intro r hg ha
    cases r with
    | b r => exact hb _ r hg ha
    | w r =>
      simp only [Rd.rest] at ha ⊢
      simp only [Rd.Good] at hg
      obtain ⟨hl, hz, hk⟩ := ha
      by_cases hc : l ≤ r.rest.length
      · have hz' : l ≠ 0 ∨ r.rest ≠ [] := by
          by_cases h0 : l = 0
          · right; exact hz h0
          · left; exact h0
        obtain ⟨w, r', h1, hw, hg', hr'⟩ := WR.readWire_ok hg hc
        replace hg' := hg' hz'
        replace hr' := hr' hz'
        have hrun : (readWire l k).run (.w r) = (k (r.rest.take l)).run (.w r') := by
          rw [← hw]; exact RM.bind_ok' (Rd.lift_w h1)
        have := ih (r.rest.take l) (.w r') hg' (by simp only [Rd.rest, hr']; exact hk hc)
        simp only [Rd.rest, hr'] at this
        simp only [spec, if_pos hc]
        rw [hrun]; exact this
      · simp only [spec, if_neg hc]
        obtain ⟨e, r', he⟩ := WR.readWire_err (l := l) hg (Nat.lt_of_not_le hc) (Nat.le_trans hl hmm)
        refine ⟨fun a t h => by simp at h, fun _ => ⟨e, .w r', ?_⟩⟩
        exact RM.bind_err' (Rd.lift_w he)
  | skip l k ih =>
    intro r hg ha
    cases r with
    | b r => exact hb _ r hg ha
    | w r =>
      simp only [Rd.rest] at ha ⊢
      simp only [Rd.Good] at hg
      obtain ⟨hl, hk⟩ := ha
      by_cases hc : l ≤ r.rest.length
      · obtain ⟨r', h1, hg', hr'⟩ := WR.skip_ok hg hc
        have hrun : (skip l k).run (.w r) = k.run (.w r') := by
          exact RM.bind_ok' (Rd.lift_w h1)
        have := ih (.w r') hg' (by simp only [Rd.rest, hr']; exact hk hc)
        simp only [Rd.rest, hr'] at this
        simp only [spec, if_pos hc]
        rw [hrun]; exact this
      · simp only [spec, if_neg hc]
        obtain ⟨e, r', he⟩ := WR.skip_err (l := l) hg (Nat.lt_of_not_le hc) (Nat.le_trans hl hmm)
        refine ⟨fun a t h => by simp at h, fun _ => ⟨e, .w r', ?_⟩⟩
        exact RM.bind_err' (Rd.lift_w he)
  | remaining k ih =>
    intro r hg ha
    cases r with
    | b r => exact hb _ r hg ha
    | w r =>
      simp only [Rd.rest] at ha ⊢
      simp only [Rd.Good] at hg
      have hrun : (remaining k).run (.w r) = (k (r.rest.length : Nat)).run (.w r) := by
        have h1 : Rd.remaining (.w r) = (.ok (r.rest.length : Nat), .w r) := by
          show (Res.ok ((r.length : Int) - r.posOf), Rd.w r) = _
          rw [WR.remaining_eq hg]
        exact RM.bind_ok' h1
      simp only [spec]
      rw [hrun]
      exact ih _ (.w r) hg ha
  | within l sub k ihs ihk =>
    intro r hg ha
    cases r with
    | b r => exact hb _ r hg ha
    | w r =>
      simp only [Rd.rest] at ha ⊢
      simp only [Rd.Good] at hg
      obtain ⟨hl, hc, hs, hk⟩ := ha
      obtain ⟨r2, r', hdel, hg2, hr2, hg', hr'⟩ : ∃ (r2 : Rd) (r' : WR), WR.delegate l r = (.ok r2, r') ∧ r2.Good ∧
          r2.rest = r.rest.take l ∧ r'.Good ∧ r'.rest = r.rest.drop l := by
        rcases WR.delegate_ok hg hc with ⟨r', h1, h2, h3⟩ | ⟨r2, r', h1, h2, h3, h4, h5⟩
        · refine ⟨_, r', h1, BR.Good.new ?_, rfl, h2, h3⟩
          have := hg.rest_small
          rw [List.length_take]; omega
        · exact ⟨.w r2, r', h1, h2, h3, h4, h5⟩
      obtain ⟨hs1, hs2⟩ := ihs r2 hg2 (by rw [hr2]; exact hs)
      rw [hr2] at hs1 hs2
      simp only [spec, if_pos hc]
      cases hsp : sub.spec (r.rest.take l) with
      | none =>
        obtain ⟨e, r2', hrun2⟩ := hs2 hsp
        refine ⟨fun a t h => by simp at h, fun _ => ⟨e, .w r', ?_⟩⟩
        rw [run, RM.bind_ok' (Rd.delegate_w hdel)]
        simp only [hrun2, after]
      | some x =>
        obtain ⟨a, t⟩ := x
        obtain ⟨r2', hrun2, _⟩ := hs1 a t hsp
        have hrun : (within l sub k).run (.w r) = (k a).run (.w r') := by
          rw [run, RM.bind_ok' (Rd.delegate_w hdel)]
          simp only [hrun2, after]
        have := ihk a (.w r') hg' (by simp only [Rd.rest, hr']; exact hk a t hsp)
        simp only [Rd.rest, hr'] at this
        simp only
        rw [hrun]; exact this

end Prog

end Ndn
