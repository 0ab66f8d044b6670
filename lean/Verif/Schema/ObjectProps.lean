import Verif.Schema.Object
import Verif.Schema.RdrProps
import Verif.Schema.TreeProps
import Verif.Codec.Props
import Verif.Enc.PrimProps

/-! # C70: versioned and general objects -/

namespace Ndn.Schema
open Ndn.Codec Ndn.Engine

theorem metaData_wf : metaData.WF := by simp [metaData, Fields.WF, Elem.WF, Fields.types]
theorem manifestData_wf : manifestData.WF := by simp [manifestData, manifestDigest, Fields.WF, Elem.WF, Fields.types]

/-! ## Where names lead -/

theorem segTree_toS : segTree.toS = .node [(.pat 50 (ascii ['s', 'e', 'g', 'm', 'e', 'n', 't', 'N', 'u', 'm', 'b', 'e', 'r']), .node [])] := by
  simp [segTree, DTree.toS]
theorem rdrTree_toS : rdrTree.toS = .node [(verPat, segTree.toS), (.comp metaComp, .node [(verPat, .node [(.comp (segComp 0), .node [])])])] := by
  simp [rdrTree, DTree.toS]
theorem objTree_toS : objTree.toS = .node [(.comp dataComp, segTree.toS), (.comp metaComp, .node []), (.comp manifestComp, .node [])] := by
  simp [objTree, DTree.toS]

theorem refineK_append (t : DTree Kind) (base rest : Name) : refineK t base (base ++ rest) =
    (continueMatch t.toS rest []).bind fun p => (t.get p.1).map fun q => (q.2.desc, base ++ rest) := by
  unfold refineK
  rw [if_pos ((Name.isPrefix_iff _ _).mpr (List.prefix_append _ _)), List.drop_left' rfl]

theorem continue_nil (t : STree) (m : Matching) : continueMatch t [] m = some ([], m) := by
  rw [continueMatch_eq]; rfl

theorem continue_step {t t' : STree} {c : Component} {cs : Name} {m : Matching} {i : Nat} {e : CompPat} (h1 : c.typ ≠ 1) (h2 : c.typ ≠ 2)
    (hp : pick c t.chd = some (i, e, t')) :
    continueMatch t (c :: cs) m = (continueMatch t' cs (e.match' c m)).map fun p => (i :: p.1, p.2) := by
  have e1 : strip (c :: cs) m = (c :: cs, m) := by
    have e1 : stripParams (c :: cs) m = (c :: cs, m) := if_neg h2
    have e2 : stripDigest (c :: cs) m = (c :: cs, m) := if_neg h1
    unfold strip
    rw [e1, e2]
  rw [continueMatch_eq]
  simp only [e1, hp]

theorem refine_ver (base : Name) (v : Nat) : refineK rdrTree base (base ++ [verComp v]) = some (.seg, base ++ [verComp v]) := by
  rw [refineK_append, rdrTree_toS, continue_step (i := 0) (e := verPat) (t' := segTree.toS) (show (54 : Nat) ≠ 1 by decide) (show (54 : Nat) ≠ 2 by decide) rfl, continue_nil]
  rfl

theorem refine_meta (base : Name) : refineK rdrTree base (base ++ [metaComp]) = some (.express, base ++ [metaComp]) := by
  rw [refineK_append, rdrTree_toS, continue_step (i := 1) (e := .comp metaComp) (t' := .node [(verPat, .node [(.comp (segComp 0), .node [])])])
    (by decide) (by decide) rfl, continue_nil]
  rfl

theorem refine_metaSeg (base : Name) (v : Nat) : refineK rdrTree base (base ++ [metaComp, verComp v, segComp 0]) =
    some (.leaf, base ++ [metaComp, verComp v, segComp 0]) := by
  rw [refineK_append, rdrTree_toS, continue_step (i := 1) (e := .comp metaComp) (t' := .node [(verPat, .node [(.comp (segComp 0), .node [])])])
    (by decide) (by decide) rfl,
    continue_step (i := 0) (e := verPat) (t' := .node [(.comp (segComp 0), .node [])]) (show (54 : Nat) ≠ 1 by decide) (show (54 : Nat) ≠ 2 by decide) rfl,
    continue_step (i := 0) (e := .comp (segComp 0)) (t' := .node []) (by decide) (by decide) rfl, continue_nil]
  rfl

theorem refine_self (base : Name) : refineK rdrTree base base = some (.rdr, base) := by
  have h := refineK_append rdrTree base []
  rw [List.append_nil, continue_nil] at h
  exact h

theorem refine_obj (base : Name) : refineK objTree base (base ++ [dataComp]) = some (.seg, base ++ [dataComp]) ∧
    refineK objTree base (base ++ [metaComp]) = some (.leaf, base ++ [metaComp]) ∧
    refineK objTree base (base ++ [manifestComp]) = some (.leaf, base ++ [manifestComp]) := by
  refine ⟨?_, ?_, ?_⟩
  · rw [refineK_append, objTree_toS, continue_step (i := 0) (e := .comp dataComp) (t' := segTree.toS) (by decide) (by decide) rfl, continue_nil]
    rfl
  · rw [refineK_append, objTree_toS, continue_step (i := 1) (e := .comp metaComp) (t' := .node []) (by decide) (by decide) rfl, continue_nil]
    rfl
  · rw [refineK_append, objTree_toS, continue_step (i := 2) (e := .comp manifestComp) (t' := .node []) (by decide) (by decide) rfl, continue_nil]
    rfl

/-! ## The pipeline when everything arrives -/

theorem trials_ok {f : Nat → Fetched} {g : Fetched} (hd : ∀ j, (f j).status = .data → f j = g) :
    ∀ {n j : Nat} (last : Fetched), (∃ d, d < n ∧ (f (j + d)).status = .data) → ∃ k, trials f n j last = (true, g, k) := by
  intro n
  induction n with
  | zero => rintro j last ⟨d, h, _⟩; omega
  | succ n ih =>
    rintro j last ⟨d, h, hs⟩
    rw [trials]
    simp only
    by_cases h0 : (f j).status = .data
    · rw [if_pos h0, hd j h0]; exact ⟨_, rfl⟩
    · rw [if_neg h0]
      obtain ⟨e, rfl⟩ : ∃ e, d = e + 1 := ⟨d - 1, by
        rcases Nat.eq_zero_or_pos d with rfl | hp
        · exact absurd hs h0
        · omega⟩
      obtain ⟨k, hk⟩ := ih (j := j + 1) (f j) ⟨e, by omega, by rw [show j + 1 + e = j + (e + 1) by omega]; exact hs⟩
      rw [hk]
      exact ⟨_, rfl⟩

/-- every segment arrives at some trial, and only with its content; without a manifest it names the final block -/
structure Arrives (fetch : Nat → Nat → Fetched) (retries : Nat) (contents : List Wire) (final : Component) : Prop where
  data : ∀ i w, contents[i]? = some w → ∀ j, (fetch i j).status = .data → fetch i j = ⟨.data, w, some final⟩
  some : ∀ i, i < contents.length → ∃ j, j < retries ∧ (fetch i j).status = .data

theorem pipeLoop_ok {fetch : Nat → Nat → Fetched} {retries manifest : Nat} {contents : List Wire} {final : Component}
    (h : Arrives fetch retries contents final) (hm : manifest = contents.length ∨ (manifest = 0 ∧ final = segComp (contents.length - 1)))
    (hlen : contents.length < 2 ^ 64) :
    ∀ (d i : Nat) (last : Fetched) (fr : Wire) (counts : List Nat) (fuel : Nat), i + d + 1 = contents.length → d < fuel →
      ∃ ks, pipeLoop fetch retries manifest fuel i last fr counts = some (.ok ⟨.data, fr ++ (contents.drop i).flatten, ks⟩) := by
  intro d
  induction d with
  | zero =>
    intro i last fr counts fuel hi hf
    obtain ⟨fuel, rfl⟩ : ∃ k, fuel = k + 1 := ⟨fuel - 1, by omega⟩
    have hc : contents[i]? = some contents[i] := List.getElem?_eq_getElem (by omega)
    obtain ⟨j, hj, hs⟩ := h.some i (by omega)
    obtain ⟨k, ht⟩ := trials_ok (h.data i _ hc) last ⟨j, hj, by rw [Nat.zero_add]; exact hs⟩
    have hdrop : (contents.drop i).flatten = contents[i] := by
      rw [List.drop_eq_getElem_cons (by omega), List.drop_eq_nil_of_le (by omega)]; simp
    rw [pipeLoop, ht, hdrop]
    simp only [if_true]
    rcases hm with hm | ⟨hm, hfin⟩
    · rw [if_pos (by omega), if_pos (by omega)]; exact ⟨_, rfl⟩
    · rw [if_neg (by omega), hfin, show contents.length - 1 = i by omega, Component.compare_isCompare.refl, if_pos rfl]; exact ⟨_, rfl⟩
  | succ d ih =>
    intro i last fr counts fuel hi hf
    obtain ⟨fuel, rfl⟩ : ∃ k, fuel = k + 1 := ⟨fuel - 1, by omega⟩
    have hc : contents[i]? = some contents[i] := List.getElem?_eq_getElem (by omega)
    obtain ⟨j, hj, hs⟩ := h.some i (by omega)
    obtain ⟨k, ht⟩ := trials_ok (h.data i _ hc) last ⟨j, hj, by rw [Nat.zero_add]; exact hs⟩
    have hdrop : (contents.drop i).flatten = contents[i] ++ (contents.drop (i + 1)).flatten := by
      rw [List.drop_eq_getElem_cons (show i < contents.length by omega), List.flatten_cons]
    obtain ⟨ks, hk⟩ := ih (i + 1) ⟨.data, contents[i], some final⟩ (fr ++ contents[i]) (counts ++ [k]) fuel (by omega) (by omega)
    rw [pipeLoop, ht, hdrop, ← List.append_assoc]
    simp only [if_true]
    refine ⟨ks, ?_⟩
    rcases hm with hm | ⟨hm, hfin⟩
    · rw [if_pos (by omega), if_neg (by omega), hk]
    · rw [if_neg (by omega), if_neg, hk]
      intro hz
      have := segComp_inj (by omega) (by omega) (hfin ▸ (Component.compare_isCompare.zero _ _).1 hz)
      omega

theorem pipeline_ok {fetch : Nat → Nat → Fetched} {maxRetries manifest : Nat} {contents : List Wire} {final : Component}
    (h : Arrives fetch maxRetries contents final) (hr : maxRetries < 2 ^ 63)
    (hm : manifest = contents.length ∨ (manifest = 0 ∧ final = segComp (contents.length - 1)))
    (hlen : contents.length < 2 ^ 64) (h0 : contents ≠ []) (fuel : Nat) (hf : contents.length ≤ fuel) :
    ∃ ks, pipeline fetch maxRetries manifest fuel = some (.ok ⟨.data, contents.flatten, ks⟩) := by
  have : 0 < contents.length := List.length_pos_iff.mpr h0
  unfold pipeline
  rw [toInt_of_lt hr]
  obtain ⟨ks, hk⟩ := pipeLoop_ok h hm hlen (contents.length - 1) 0 ⟨.none, [], none⟩ [] [] fuel (by omega) (by omega)
  exact ⟨ks, by simpa using hk⟩

theorem natLen_le8 (x : Nat) : (natEnc x).length ≤ 8 := by
  rw [natEnc_length]; unfold natLen; repeat' split
  all_goals omega

theorem meta_enc (n : Name) (b : Bytes) (l : Nat) :
    metaData.enc (some n, some b, none, some l, none, none, none, none, none, none, ()) = tlv 7 n.encBody ++ (tlv 0x1a b ++ tlv 0xf502 (natEnc l)) := by
  simp [metaData, Fields.enc, Fields.elems, Elem.body]

theorem metaOf_len (n : Name) (s l : Nat) : (metaData.enc (metaOf n s l)).length ≤ n.encBody.length + 88 := by
  unfold metaOf
  generalize (s + 2 ^ 64 - 1) % 2 ^ 64 = k
  rw [meta_enc]
  have h1 := natLen_le8 l
  have h2 := natLen_le8 k
  have t1 := tlLen_le 7
  have t2 := tlLen_le n.encBody.length
  have t3 := tlLen_le 0x1a
  have t4 := tlLen_le (segComp k).enc.length
  have t5 := tlLen_le 0xf502
  have t6 := tlLen_le (natEnc l).length
  have t7 := tlLen_le 50
  have t8 := natLen_le8 (natEnc k).length
  have e : (segComp k).enc.length = tlLen 50 + (natEnc (natEnc k).length).length + (natEnc k).length := by
    simp [Component.enc, segComp, tlEnc_length, Nat.add_assoc]
  simp only [tlv, List.length_append, tlEnc_length]
  omega

theorem encBody_append (a b : Name) : Name.encBody (a ++ b) = Name.encBody a ++ Name.encBody b := by
  induction a with
  | nil => rfl
  | cons c a ih => rw [List.cons_append, Name.encBody, ih, Name.encBody, List.append_assoc]

/-! ## The network -/

/-- when a packet answers an Interest with the name `n`: a digest at the end is the digest of the packet, the rest is a prefix of its name -/
def Pub.Answers (digest : Pub → Bytes) (p : Pub) (n : Name) : Prop :=
  match n.getLast? with
  | none => True
  | some c => if c.typ = 1 then n.dropLast <+: p.name ∧ digest p = c.val else n <+: p.name

theorem answers_plain {digest : Pub → Bytes} {p : Pub} {n : Name} {c : Component} (hc : c.typ ≠ 1) : p.Answers digest (n ++ [c]) ↔ n ++ [c] <+: p.name := by
  unfold Pub.Answers
  rw [List.getLast?_concat]
  simp [hc]

theorem answers_digest {digest : Pub → Bytes} {p : Pub} {n : Name} {d : Bytes} : p.Answers digest (n ++ [⟨1, d⟩]) ↔ n <+: p.name ∧ digest p = d := by
  unfold Pub.Answers
  rw [List.getLast?_concat]
  simp

/-- A network on which only the packets `pubs` exist: every Data received is one of them and answers the Interest, and an Interest that one of them answers gets a
Data within the number of trials.  Any other trial may fail in any way. -/
structure Delivers (digest : Pub → Bytes) (pubs : List Pub) (retries : Nat) (net : Name → Nat → Fetched) : Prop where
  only : ∀ n j, (net n j).status = .data → ∃ p ∈ pubs, p.Answers digest n ∧ net n j = ⟨.data, p.content, p.final⟩
  answers : ∀ n, ∀ p ∈ pubs, p.Answers digest n → ∃ j, j < retries ∧ (net n j).status = .data

theorem prefix_step {base : Name} {c d : Component} {cs ds : Name} (h : base ++ c :: cs <+: base ++ d :: ds) : c = d ∧ cs <+: ds :=
  List.cons_prefix_cons.mp ((List.prefix_append_right_inj base).mp h)

theorem segComp_typ (i : Nat) : (segComp i).typ ≠ 1 := show (50 : Nat) ≠ 1 by decide

/-- the segments as they arrive -/
theorem arrives {digest : Pub → Bytes} {pubs rest : List Pub} {retries : Nat} {net : Name → Nat → Fetched} {base : Name} {c : Component} {segs : List Seg}
    {suf : Nat → Name} (hd : Delivers digest pubs retries net) (hpubs : pubs = segPubs (base ++ [c]) segs ++ rest)
    (hrest : ∀ p ∈ rest, ∃ d ds w f, d ≠ c ∧ p = ⟨base ++ d :: ds, w, f⟩)
    (hno : segs.map (·.no) = List.range segs.length) (hfin : ∀ s ∈ segs, s.final + 1 = segs.length) (hlen : segs.length < 2 ^ 64)
    (hsuf : ∀ i, i < segs.length → suf i = [] ∨ ∃ p, (segPubs (base ++ [c]) segs)[i]? = some p ∧ suf i = [⟨1, digest p⟩]) :
    Arrives (fun i j => net (base ++ [c] ++ [segComp i] ++ suf i) j) retries (segs.map (·.content)) (segComp (segs.length - 1)) := by
  have hat : ∀ {i : Nat} {s : Seg}, segs[i]? = some s → s.no = i := by
    intro i s hs
    have hh := congrArg (fun l : List Nat => l[i]?) hno
    simp only [List.getElem?_map, hs, Option.map_some] at hh
    have hi := (List.getElem?_eq_some_iff.mp hs).1
    rw [List.getElem?_range hi] at hh
    exact Option.some.inj hh
  constructor
  · intro i w hw j hj
    rw [List.getElem?_map] at hw
    obtain ⟨s, hs, rfl⟩ := Option.map_eq_some_iff.mp hw
    have hi := (List.getElem?_eq_some_iff.mp hs).1
    obtain ⟨p, hp, hpre, he⟩ := hd.only _ j hj
    have hpre : base ++ c :: [segComp i] <+: p.name := by
      rw [show base ++ c :: [segComp i] = base ++ [c] ++ [segComp i] by simp]
      rcases hsuf i hi with h | ⟨q, _, h⟩
      · rw [h, List.append_nil] at hpre
        exact (answers_plain (segComp_typ i)).mp hpre
      · rw [h] at hpre
        exact (answers_digest.mp hpre).1
    rw [hpubs, List.mem_append] at hp
    rcases hp with hp | hp
    · obtain ⟨s', hs', rfl⟩ := List.mem_map.mp hp
      obtain ⟨i', hi'⟩ := List.mem_iff_getElem?.mp hs'
      simp only [List.append_assoc, List.singleton_append] at hpre
      have h2 := (List.cons_prefix_cons.mp (prefix_step hpre).2).1
      have hi'' := (List.getElem?_eq_some_iff.mp hi').1
      have := segComp_inj (by omega) (by rw [hat hi']; omega) h2
      rw [hat hi'] at this
      subst this
      rw [hs] at hi'
      cases Option.some.inj hi'
      have := hfin s hs'
      show net _ j = _
      rw [he, show segs.length - 1 = s.final by omega]
    · obtain ⟨d, ds, w, f, hne, rfl⟩ := hrest p hp
      exact absurd (prefix_step hpre).1.symm hne
  · intro i hi
    rw [List.length_map] at hi
    have hs : segs[i]? = some segs[i] := List.getElem?_eq_getElem hi
    have hp : (segPubs (base ++ [c]) segs)[i]? = some ⟨base ++ [c] ++ [segComp segs[i].no], segs[i].content, some (segComp segs[i].final)⟩ := by
      unfold segPubs
      rw [List.getElem?_map, hs]; rfl
    rw [hat hs] at hp
    refine hd.answers _ _ (hpubs ▸ List.mem_append_left _ (List.mem_of_getElem? hp)) ?_
    rcases hsuf i hi with h | ⟨p, hp', h⟩
    · rw [h, List.append_nil]
      exact (answers_plain (segComp_typ i)).mpr (List.prefix_refl _)
    · rw [hp] at hp'
      cases Option.some.inj hp'
      rw [h]
      exact answers_digest.mpr ⟨List.prefix_refl _, rfl⟩

/-- what `Provide` gives for a content that is not empty -/
theorem provided (size : Nat) (content : Wire) (hs : 0 < size) (hl : content.flatten.length + size ≤ 2 ^ 64) (hg : NoGap content) (hne : content.flatten ≠ []) :
    ∃ segs, provideSegs size content = .ok segs ∧ segs ≠ [] ∧ segs.length = segCount content.flatten.length size ∧ segs.length < 2 ^ 64 ∧ segs.map (·.no) = List.range segs.length ∧
      (∀ s ∈ segs, s.final + 1 = segs.length) ∧ ((segs.map (·.content)).flatten).flatten = content.flatten := by
  obtain ⟨segs, hp, hno, hseg, hcat⟩ := C54_segments_partial size content hs hl hg
  obtain ⟨segs', hp', hlen, _⟩ := C54_exact size content hs hl
  rw [hp] at hp'
  injection hp' with hp'
  subst hp'
  have hpos := List.length_pos_iff.mpr hne
  have h1 : 0 < segs.length := by
    rw [hlen, segCount_lt hs]; omega
  have h2 : segs.length - 1 < content.flatten.length := by
    have := (segCount_lt (len := content.flatten.length) (i := segs.length - 1) hs).mp (by omega)
    exact Nat.lt_of_le_of_lt (Nat.le_mul_of_pos_right _ hs) this
  refine ⟨segs, hp, List.length_pos_iff.mp h1, hlen, by omega, hno, fun s h => (hseg s h).2.2, ?_⟩
  rw [← hcat, List.flatten_flatten, List.map_map]; rfl

theorem ver_len (base : Name) (v : Nat) (h : base.encBody.length < 2 ^ 41) : (base ++ [verComp v]).encBody.length < 2 ^ 42 := by
  rw [encBody_append, List.length_append]
  have h2 := natLen_le8 v
  have t7 : tlLen 54 ≤ 9 := tlLen_le 54
  have t8 := natLen_le8 (natEnc v).length
  have e : (Name.encBody [verComp v]).length = tlLen 54 + (natEnc (natEnc v).length).length + (natEnc v).length := by
    simp [Name.encBody, Component.enc, verComp, tlEnc_length, Nat.add_assoc]
  omega

theorem small_append {base : Name} {c : Component} (h : ∀ c ∈ base, c.Small) (hc : c.Small) : ∀ d ∈ base ++ [c], d.Small := by
  intro d hd
  rcases List.mem_append.mp hd with hd | hd
  · exact h d hd
  · rw [List.mem_singleton.mp hd]; exact hc

theorem small_ver (v : Nat) : (verComp v).Small := ⟨show (54 : Nat) < 2 ^ 64 by decide, Nat.le_trans (natLen_le8 v) (by decide)⟩

theorem meta_roundtrip (n : Name) (s l : Nat) (hn : ∀ c ∈ n, c.Small) (hb : n.encBody.length < 2 ^ 42) (hl : l < 2 ^ 64) :
    ∃ (b : Bytes) (v : metaData.V), metaData.encode (metaOf n s l) = .ok b ∧ Option.getD (α := Name) v.1 [] = n ∧
      v.2.1 = some (segComp ((s + 2 ^ 64 - 1) % 2 ^ 64)).enc ∧ v.2.2.2.1 = some l ∧
      ∀ fuel, b.length < fuel → ∃ r, metaData.parse true fuel (BR.new b) = some (.ok v, r) := by
  have hlen := metaOf_len n s l
  unfold metaOf at hlen ⊢
  generalize (segComp ((s + 2 ^ 64 - 1) % 2 ^ 64)).enc = b at hlen ⊢
  obtain ⟨b', h1, h2⟩ := C19_codec_roundtrip_partial metaData metaData_wf (some n, some b, none, some l, none, none, none, none, none, none, ())
    ⟨hn, trivial, trivial, hl, trivial, trivial, trivial, trivial, trivial, trivial, trivial⟩ (by omega)
  exact ⟨b', _, h1, rfl, rfl, rfl, h2 true⟩

theorem res_bind_ok {α β : Type} (a : α) (f : α → Res β) : (Res.ok a).bind f = f a := rfl
theorem res_map_ok {α β : Type} (a : α) (f : α → β) : (Res.ok a).map f = .ok (f a) := rfl

theorem rdrProvide_eq {size ver : Nat} {base : Name} {content : Wire} {segs : List Seg} {m : Bytes} (hp : provideSegs size content = .ok segs)
    (hm : metaData.encode (metaOf (base ++ [verComp ver]) segs.length content.flatten.length) = .ok m) :
    rdrProvide size ver base content =
      .ok (segPubs (base ++ [verComp ver]) segs ++ [⟨base ++ [metaComp, verComp ver, segComp 0], [m], some (segComp 0)⟩]) := by
  unfold rdrProvide
  rw [refine_metaSeg, refine_ver, hp]
  dsimp only
  rw [res_bind_ok, hm, res_map_ok]

theorem objProvide_eq {size : Nat} {base : Name} {content : Wire} {segs : List Seg} {m man : Bytes} {digest : Pub → Bytes} (hp : provideSegs size content = .ok segs)
    (hm : metaData.encode (metaOf (base ++ [dataComp]) segs.length content.flatten.length) = .ok m)
    (hman : manifestData.encode (manifestOf ((segPubs (base ++ [dataComp]) segs).map digest)) = .ok man) :
    objProvide digest size base content =
      .ok (segPubs (base ++ [dataComp]) segs ++ [⟨base ++ [metaComp], [m], none⟩, ⟨base ++ [manifestComp], [man], none⟩]) := by
  unfold objProvide
  rw [(refine_obj base).1, (refine_obj base).2.1, (refine_obj base).2.2, hp]
  dsimp only
  rw [res_bind_ok, hm, res_bind_ok, hman, res_map_ok]
/-- what `NeedCallback` does with metadata that can be read -/
theorem rdrNeed_parsed {fetch : Nat → Fetched} {retries fuel k : Nat} {base n : Name} {g : Fetched} {v : metaData.V} {r : BR}
    (ht : trials fetch retries 0 ⟨.none, [], none⟩ = (true, g, k)) (hp : metaData.parse true fuel (BR.new g.content.flatten) = some (.ok v, r))
    (hv : Option.getD (α := Name) v.1 [] = n) :
    rdrNeed fetch retries fuel base none = if base.isPrefix n then some (handOver rdrTree base n) else some (.ok (.failed .data)) := by
  unfold rdrNeed
  rw [refine_meta, ht]
  simp only
  rw [hp]
  simp only
  rw [hv]

/-- C70 for a content that is not empty, without a version given: what `RdrNode.Provide` publishes is what `RdrNode.NeedCallback` gives to the callback, when the network
delivers what was published within the number of trials.  Missing: the empty content and a given version (below). -/
theorem C70_rdr_roundtrip_partial (size ver : Nat) (base : Name) (content : Wire) (digest : Pub → Bytes) (retries : Nat)
    (hs : 0 < size) (hl : content.flatten.length + size ≤ 2 ^ 64) (hg : NoGap content) (hne : content.flatten ≠ [])
    (hbase : ∀ c ∈ base, c.Small) (hsz : base.encBody.length < 2 ^ 41) (hr : retries < 2 ^ 63) :
    ∃ pubs, rdrProvide size ver base content = .ok pubs ∧
      (∀ p ∈ pubs, base <+: p.name) ∧
      (∃ (m : Bytes) (v : metaData.V), ⟨base ++ [metaComp, verComp ver, segComp 0], [m], some (segComp 0)⟩ ∈ pubs ∧
        (∀ fuel, m.length < fuel → ∃ r, metaData.parse true fuel (BR.new m) = some (.ok v, r)) ∧ Option.getD (α := Name) v.1 [] = base ++ [verComp ver] ∧
        v.2.1 = some (segComp (segCount content.flatten.length size - 1)).enc ∧ v.2.2.2.1 = some content.flatten.length) ∧
      ∃ least, ∀ net : Nat → Name → Nat → Fetched, Delivers digest pubs retries (net 0) → ∀ fuel pf, least ≤ pf →
        ∃ c, rdrFetch net retries retries pf (fuel + 1) 0 base none = some (.ok (.callback .data c)) ∧ c.flatten = content.flatten := by
  obtain ⟨segs, hp, hsne, hcount, hslen, hno, hfin, hcat⟩ := provided size content hs hl hg hne
  obtain ⟨m, v, hm, hv1, hv2, hv3, hparse⟩ := meta_roundtrip (base ++ [verComp ver]) segs.length content.flatten.length
    (small_append hbase (small_ver ver)) (ver_len base ver hsz) (by omega)
  refine ⟨segPubs (base ++ [verComp ver]) segs ++ [⟨base ++ [metaComp, verComp ver, segComp 0], [m], some (segComp 0)⟩], ?_, ?_,
    ⟨m, v, List.mem_append_right _ (List.mem_singleton.mpr rfl), hparse, hv1, ?_, hv3⟩, m.length + segs.length + 1, ?_⟩
  · exact rdrProvide_eq hp hm
  · intro p hp
    rcases List.mem_append.mp hp with hp | hp
    · obtain ⟨s, _, rfl⟩ := List.mem_map.mp hp
      exact ⟨[verComp ver] ++ [segComp s.no], by simp⟩
    · rw [List.mem_singleton.mp hp]
      exact List.prefix_append _ _
  · rw [hv2, show (segs.length + 2 ^ 64 - 1) % 2 ^ 64 = segs.length - 1 from ?_, hcount]
    have := List.length_pos_iff.mpr hsne
    omega
  · intro net hd fuel pf hf
    have hrest : ∀ p ∈ [(⟨base ++ [metaComp, verComp ver, segComp 0], [m], some (segComp 0)⟩ : Pub)],
        ∃ d ds w f, d ≠ verComp ver ∧ p = ⟨base ++ d :: ds, w, f⟩ := by
      intro p hp
      rw [List.mem_singleton.mp hp]
      exact ⟨metaComp, _, _, _, fun h => absurd (congrArg Component.typ h) (show (32 : Nat) ≠ 54 by decide), rfl⟩
    have hmeta : ∀ j, (net 0 (base ++ [metaComp]) j).status = .data → net 0 (base ++ [metaComp]) j = ⟨.data, [m], some (segComp 0)⟩ := by
      intro j hj
      obtain ⟨p, hp, hpre, he⟩ := hd.only _ j hj
      rw [answers_plain (by decide)] at hpre
      rcases List.mem_append.mp hp with hp | hp
      · obtain ⟨s, _, rfl⟩ := List.mem_map.mp hp
        simp only [List.append_assoc, List.singleton_append] at hpre
        exact absurd (congrArg Component.typ (prefix_step hpre).1) (show (32 : Nat) ≠ 54 by decide)
      · rw [List.mem_singleton.mp hp] at he
        exact he
    obtain ⟨j, hj, hst⟩ := hd.answers (base ++ [metaComp]) _ (List.mem_append_right _ (List.mem_singleton.mpr rfl))
      ((answers_plain (by decide)).mpr ((List.prefix_append_right_inj base).mpr ⟨_, rfl⟩))
    obtain ⟨k, ht⟩ := trials_ok hmeta (n := retries) (j := 0) ⟨.none, [], none⟩ ⟨j, hj, by rw [Nat.zero_add]; exact hst⟩
    obtain ⟨r, hr1⟩ := hparse pf (by omega)
    have hneed : rdrNeed (net 0 (base ++ [metaComp])) (toInt retries).toNat pf base none = some (.ok (.call .seg (base ++ [verComp ver]))) := by
      rw [toInt_of_lt hr, Int.toNat_natCast, rdrNeed_parsed (n := base ++ [verComp ver]) ht
        (by rw [show List.flatten [m] = m from List.append_nil m]; exact hr1) hv1,
        if_pos ((Name.isPrefix_iff _ _).mpr (List.prefix_append base [verComp ver])), handOver, refine_ver]
    obtain ⟨ks, hpipe⟩ := pipeline_ok (manifest := 0) (arrives (suf := fun _ => []) hd rfl hrest hno hfin hslen fun _ _ => .inl rfl) hr
      (.inr ⟨rfl, by rw [List.length_map]⟩) (by rw [List.length_map]; exact hslen) (by simpa using hsne) pf (by rw [List.length_map]; omega)
    rw [rdrFetch, hneed]
    simp only
    simp only [List.append_nil] at hpipe
    rw [hpipe]
    exact ⟨_, rfl, hcat⟩

/-- the hypotheses on the network can be met, for any packets -/
theorem delivers_exists (digest : Pub → Bytes) (pubs : List Pub) (retries : Nat) (h : 0 < retries) : ∃ net, Delivers digest pubs retries net := by
  classical
  refine ⟨fun n _ => if h : ∃ p ∈ pubs, p.Answers digest n then ⟨.data, h.choose.content, h.choose.final⟩ else ⟨.timeout, [], none⟩, ?_, ?_⟩
  · intro n j hs
    by_cases h : ∃ p ∈ pubs, p.Answers digest n
    · rw [dif_pos h]
      exact ⟨h.choose, h.choose_spec.1, h.choose_spec.2, rfl⟩
    · rw [dif_neg h] at hs; cases hs
  · intro n p hp ha
    refine ⟨0, h, ?_⟩
    rw [dif_pos ⟨p, hp, ha⟩]

/-- and so can the others, by a content of two segments of which the last one is short -/
example : 0 < 2 ∧ (List.flatten [[1, 2], [3]] : Bytes).length + 2 ≤ 2 ^ 64 ∧ NoGap [[1, 2], [3]] ∧ (List.flatten [[1, 2], [3]] : Bytes) ≠ [] ∧
    (∀ c ∈ ([⟨8, [65]⟩] : Name), c.Small) ∧ (Name.encBody [⟨8, [65]⟩]).length < 2 ^ 41 ∧ segCount (List.flatten [[1, 2], [3]] : Bytes).length 2 = 2 := by
  refine ⟨by decide, by decide, ⟨[[1, 2], [3]], [], rfl, by decide, by simp⟩, by decide, ?_, by decide, by decide⟩
  intro c hc
  rw [List.mem_singleton.mp hc]
  exact ⟨by decide, by decide⟩

/-! ### What goes wrong with versioned objects -/

/-- C70 fails: with a version given, the name asked for is made of components of type 0, and `NeedCallback` panics for any node whose name has another component. -/
theorem C70_version_panics (net : Nat → Name → Nat → Fetched) (metaRetries retries pf fuel k v : Nat) (base : Name) (h : ∃ c ∈ base, c ≠ ⟨0, []⟩) :
    rdrFetch net metaRetries retries pf (fuel + 1) k base (some v) = some .panic := by
  obtain ⟨c, hc, hne⟩ := h
  have h1 : base.isPrefix (List.replicate base.length ⟨0, []⟩ ++ [verComp v]) = false := by
    rw [← Bool.not_eq_true, Name.isPrefix_iff]
    intro h
    have h2 := List.prefix_of_prefix_length_le h (List.prefix_append (List.replicate base.length ⟨0, []⟩) [verComp v]) (by simp)
    have h3 := h2.eq_of_length (by simp)
    rw [h3] at hc
    exact hne (List.eq_of_mem_replicate hc)
  have h4 : Name.equal base.dropLast (List.replicate base.length ⟨0, []⟩ ++ [verComp v]) = false := by
    unfold Name.equal
    rw [if_pos (by simp)]
  have h2 : refineK rdrTree base (List.replicate base.length ⟨0, []⟩ ++ [verComp v]) = none := by
    unfold refineK
    rw [h1, h4]
    cases base.getLast? <;> simp
  rw [rdrFetch, rdrNeed, handOver, h2]

/-- C70 fails: metadata that cannot be read makes `NeedCallback` panic. -/
theorem C70_malformed_panics (net : Nat → Name → Nat → Fetched) (metaRetries retries pf fuel k : Nat) (base : Name) (h0 : 0 < metaRetries) (hl : metaRetries < 2 ^ 63)
    (h : (net k (base ++ [metaComp]) 0).status = .data) (e : Err) (r : BR)
    (hp : metaData.parse true pf (BR.new (net k (base ++ [metaComp]) 0).content.flatten) = some (.err e, r)) :
    rdrFetch net metaRetries retries pf (fuel + 1) k base none = some .panic := by
  have ht := trials_first (f := net k (base ++ [metaComp])) (j := 0) (last := ⟨.none, [], none⟩) h0 h
  have : rdrNeed (net k (base ++ [metaComp])) (toInt metaRetries).toNat pf base none = some .panic := by
    unfold rdrNeed
    rw [refine_meta, toInt_of_lt hl, Int.toNat_natCast, ht]
    simp only
    rw [hp]
  rw [rdrFetch, this]

/-- such metadata: a single byte -/
example (f : Nat) : ∃ e r, metaData.parse true (f + 1) (BR.new [7]) = some (.err e, r) := by
  have h1 : BR.readTL (BR.new [7]) = (.ok 7, ⟨[7], 1⟩) := by decide
  have h2 : BR.readTL ⟨[7], 1⟩ = (.err .eof, ⟨[7], 1⟩) := by decide
  rw [Fields.parse, parseLoop, if_neg (by decide), h1]
  simp only [h2]
  exact ⟨_, _, rfl⟩

/-- metadata with the name `n`, as a Data -/
structure IsMeta (g : Fetched) (n : Name) : Prop where
  status : g.status = .data
  content : ∃ (m : Bytes) (s l : Nat), l < 2 ^ 64 ∧ metaData.encode (metaOf n s l) = .ok m ∧ g.content = [m]

theorem rdrNeed_meta {fetch : Nat → Fetched} {retries : Nat} {base n : Name} (h0 : 0 < retries) (hl : retries < 2 ^ 63)
    (h : IsMeta (fetch 0) n) (hn : ∀ c ∈ n, c.Small) (hb : n.encBody.length < 2 ^ 42) (fuel : Nat) (hf : (fetch 0).content.flatten.length < fuel) :
    rdrNeed fetch (toInt retries).toNat fuel base none = if base.isPrefix n then some (handOver rdrTree base n) else some (.ok (.failed .data)) := by
  obtain ⟨hs, m, s, l, hl2, hm, hc⟩ := h
  obtain ⟨m', v, hm', hv, _, _, hp⟩ := meta_roundtrip n s l hn hb hl2
  rw [hm] at hm'
  injection hm' with hm'
  subst hm'
  have hfl : (fetch 0).content.flatten = m := by rw [hc]; exact List.append_nil m
  rw [hfl] at hf
  obtain ⟨r, hr⟩ := hp fuel hf
  rw [toInt_of_lt hl, Int.toNat_natCast]
  exact rdrNeed_parsed (trials_first (f := fetch) (j := 0) h0 hs) (by rw [hfl]; exact hr) hv

/-- C70 fails: for metadata that names another object, the callback gets the status of a success and no content. -/
theorem C70_foreign_violated (net : Nat → Name → Nat → Fetched) (metaRetries retries pf fuel k : Nat) (base n : Name) (h0 : 0 < metaRetries) (hl : metaRetries < 2 ^ 63)
    (hm : IsMeta (net k (base ++ [metaComp]) 0) n) (hn : ∀ c ∈ n, c.Small) (hb : n.encBody.length < 2 ^ 42) (hp : ¬ base <+: n)
    (hf : (net k (base ++ [metaComp]) 0).content.flatten.length < pf) :
    rdrFetch net metaRetries retries pf (fuel + 1) k base none = some (.ok (.callback .data [])) := by
  rw [rdrFetch, rdrNeed_meta h0 hl hm hn hb pf hf, if_neg (by rw [Name.isPrefix_iff]; exact hp)]

/-- C70 fails: for metadata that names the metadata itself, the callback gets a packet of metadata as if it were the object. -/
theorem C70_metadata_violated (net : Nat → Name → Nat → Fetched) (metaRetries retries pf fuel k ver : Nat) (base : Name) (h0 : 0 < metaRetries) (hl : metaRetries < 2 ^ 63)
    (hn : ∀ c ∈ base, c.Small) (hf : (net k (base ++ [metaComp]) 0).content.flatten.length < pf) :
    ((base ++ [metaComp]).encBody.length < 2 ^ 42 → IsMeta (net k (base ++ [metaComp]) 0) (base ++ [metaComp]) →
      rdrFetch net metaRetries retries pf (fuel + 1) k base none = some (.ok (.callback .data (net k (base ++ [metaComp]) 0).content))) ∧
    ((base ++ [metaComp, verComp ver, segComp 0]).encBody.length < 2 ^ 42 → IsMeta (net k (base ++ [metaComp]) 0) (base ++ [metaComp, verComp ver, segComp 0]) →
      rdrFetch net metaRetries retries pf (fuel + 1) k base none =
        some (.ok (.callback (net k (base ++ [metaComp, verComp ver, segComp 0]) 0).status (net k (base ++ [metaComp, verComp ver, segComp 0]) 0).content))) := by
  have hmc : metaComp.Small := ⟨by decide, by decide⟩
  constructor
  · intro hb hm
    rw [rdrFetch, rdrNeed_meta h0 hl hm (small_append hn hmc) hb pf hf, if_pos (by rw [Name.isPrefix_iff]; exact List.prefix_append _ _), handOver, refine_meta]
    simp only
    rw [hm.status]
  · intro hb hm
    have hs : ∀ c ∈ base ++ [metaComp, verComp ver, segComp 0], c.Small := by
      intro c hc
      rcases List.mem_append.mp hc with hc | hc
      · exact hn c hc
      · simp only [List.mem_cons, List.not_mem_nil, or_false] at hc
        rcases hc with rfl | rfl | rfl
        · exact hmc
        · exact small_ver ver
        · exact ⟨by decide, by decide⟩
    rw [rdrFetch, rdrNeed_meta h0 hl hm hs hb pf hf, if_pos (by rw [Name.isPrefix_iff]; exact List.prefix_append _ _), handOver, refine_metaSeg]

/-- `Refine` for a name that does not begin with that of the node: the node itself exactly if its name is this one with a digest at the end, otherwise nil -/
theorem C70_refine_shorter (t : DTree Kind) (base name : Name) (h : ¬ base <+: name) :
    refineK t base name = some (t.desc, name) ∧ (∃ d, base = name ++ [⟨1, d⟩]) ∨ refineK t base name = none ∧ ¬ ∃ d, base = name ++ [⟨1, d⟩] := by
  unfold refineK
  rw [if_neg (by rw [Name.isPrefix_iff]; exact h)]
  rcases List.eq_nil_or_concat base with rfl | ⟨l, c, rfl⟩
  · exact absurd (List.nil_prefix) h
  · rw [List.concat_eq_append, List.getLast?_concat, List.dropLast_concat]
    simp only
    by_cases h1 : c.typ = 1
    · by_cases h2 : l = name
      · left
        subst h2
        rw [if_neg (by rw [(nameEqual_iff l l).mpr rfl]; simp [h1, typDigest])]
        obtain ⟨ct, cv⟩ := c
        simp only at h1
        subst h1
        exact ⟨rfl, cv, rfl⟩
      · right
        rw [if_pos (.inr (by rw [Bool.not_eq_true', ← Bool.not_eq_true, nameEqual_iff]; exact h2))]
        refine ⟨rfl, ?_⟩
        rintro ⟨d, hd⟩
        exact h2 (List.append_inj_left' hd rfl)
    · right
      rw [if_pos (.inl h1)]
      refine ⟨rfl, ?_⟩
      rintro ⟨d, hd⟩
      have := List.append_inj_right' hd rfl
      injection this with this
      exact h1 (by rw [this])

example : refineK rdrTree [⟨8, [97]⟩, ⟨1, [5]⟩] [⟨8, [97]⟩] = some (.rdr, [⟨8, [97]⟩]) := by decide

/-- C70 fails: for metadata with a name below the object that is not that of a version, `NeedCallback` panics. -/
theorem C70_unmatched_panics (net : Nat → Name → Nat → Fetched) (metaRetries retries pf fuel k : Nat) (base : Name) (c : Component) (h0 : 0 < metaRetries)
    (hl : metaRetries < 2 ^ 63) (hm : IsMeta (net k (base ++ [metaComp]) 0) (base ++ [c])) (hn : ∀ c ∈ base, c.Small) (hc : c.Small) (hc8 : c.typ = 8)
    (hb : (base ++ [c]).encBody.length < 2 ^ 42)
    (hf : (net k (base ++ [metaComp]) 0).content.flatten.length < pf) :
    rdrFetch net metaRetries retries pf (fuel + 1) k base none = some .panic := by
  have hr : refineK rdrTree base (base ++ [c]) = none := by
    have hs : strip [c] [] = ([c], []) := by
      have e1 : stripParams [c] [] = ([c], []) := if_neg (by rw [hc8]; decide)
      have e2 : stripDigest [c] [] = ([c], []) := if_neg (by rw [hc8]; decide)
      unfold strip
      rw [e1, e2]
    have hp : pick c rdrTree.toS.chd = none := by
      rw [rdrTree_toS]
      have h1 : CompPat.isMatch verPat c = false := by
        show ((54 : Nat) == c.typ) = false
        rw [hc8]; rfl
      have h2 : CompPat.isMatch (.comp metaComp) c = false := by
        rw [← Bool.not_eq_true]
        intro h
        have := (Component.equal_iff _ _).mp h
        rw [← this] at hc8
        exact absurd hc8 (by decide)
      simp [STree.chd, pick, h1, h2]
    rw [refineK_append, continueMatch_eq]
    simp only [hs, hp]
    rfl
  rw [rdrFetch, rdrNeed_meta h0 hl hm (small_append hn hc) hb pf hf, if_pos (by rw [Name.isPrefix_iff]; exact List.prefix_append _ _), handOver, hr]

/-- C70 fails: metadata that names the object itself is asked for again and again. -/
theorem C70_self_diverges (net : Nat → Name → Nat → Fetched) (metaRetries retries pf : Nat) (base : Name) (h0 : 0 < metaRetries) (hl : metaRetries < 2 ^ 63)
    (hm : ∀ k, IsMeta (net k (base ++ [metaComp]) 0) base) (hn : ∀ c ∈ base, c.Small) (hb : base.encBody.length < 2 ^ 42)
    (hf : ∀ k, (net k (base ++ [metaComp]) 0).content.flatten.length < pf) (fuel : Nat) :
    ∀ k, rdrFetch net metaRetries retries pf fuel k base none = none := by
  induction fuel with
  | zero => intro k; rfl
  | succ n ih =>
    intro k
    rw [rdrFetch, rdrNeed_meta h0 hl (hm k) hn hb pf (hf k), if_pos (by rw [Name.isPrefix_iff]; exact List.prefix_refl _), handOver, refine_self]
    exact ih (k + 1)

theorem provide_nil {size : Nat} (hs : 0 < size) (hl : size ≤ 2 ^ 64) : provideSegs size [] = .ok [] := by
  obtain ⟨segs, h1, h2, _⟩ := C54_exact size [] hs (by simpa using hl)
  have : segs.length = 0 := by
    rw [h2]
    rcases Nat.eq_zero_or_pos (segCount 0 size) with h | h
    · exact h
    · exact absurd ((segCount_lt hs).mp h) (by omega)
  rw [h1, List.length_eq_zero_iff.mp this]

/-- C70 fails: for an empty content only metadata is published, and it names a segment that does not exist; fetching never succeeds. -/
theorem C70_empty_violated (size ver : Nat) (base : Name) (digest : Pub → Bytes) (hs : 0 < size) (hl : size ≤ 2 ^ 64)
    (hbase : ∀ c ∈ base, c.Small) (hsz : base.encBody.length < 2 ^ 41) :
    ∃ m, rdrProvide size ver base [] = .ok [m] ∧
      ∀ (net : Nat → Name → Nat → Fetched) (retries : Nat), 0 < retries → retries < 2 ^ 63 → Delivers digest [m] retries (net 0) → ∀ pf fuel c, m.content.flatten.length < pf →
        rdrFetch net retries retries pf (fuel + 1) 0 base none ≠ some (.ok (.callback .data c)) := by
  have hseg := provide_nil hs hl
  obtain ⟨m, v, hm, hv1, _, _, hparse⟩ := meta_roundtrip (base ++ [verComp ver]) 0 0 (small_append hbase (small_ver ver)) (ver_len base ver hsz) (by decide)
  refine ⟨_, rdrProvide_eq hseg hm, ?_⟩
  intro net retries h0 hr hd pf fuel c hpf hc
  have hmeta : ∀ j, (net 0 (base ++ [metaComp]) j).status = .data → net 0 (base ++ [metaComp]) j = ⟨.data, [m], some (segComp 0)⟩ := by
    intro j hj
    obtain ⟨p, hp, _, he⟩ := hd.only _ j hj
    rw [List.mem_singleton.mp hp] at he
    exact he
  obtain ⟨j, hj, hst⟩ := hd.answers (base ++ [metaComp]) _ (List.mem_singleton.mpr rfl)
      ((answers_plain (by decide)).mpr ((List.prefix_append_right_inj base).mpr ⟨_, rfl⟩))
  obtain ⟨k, ht⟩ := trials_ok hmeta (n := retries) (j := 0) ⟨.none, [], none⟩ ⟨j, hj, by rw [Nat.zero_add]; exact hst⟩
  have hfl : List.flatten [m] = m := List.append_nil m
  obtain ⟨r, hr1⟩ := hparse pf (by rw [← hfl]; exact hpf)
  have hneed : rdrNeed (net 0 (base ++ [metaComp])) (toInt retries).toNat pf base none = some (.ok (.call .seg (base ++ [verComp ver]))) := by
    rw [toInt_of_lt hr, Int.toNat_natCast, rdrNeed_parsed (n := base ++ [verComp ver]) ht (by rw [hfl]; exact hr1) hv1,
      if_pos ((Name.isPrefix_iff _ _).mpr (List.prefix_append base [verComp ver])), handOver, refine_ver]
  rw [rdrFetch, hneed] at hc
  simp only at hc
  cases hp : pipeline (fun i j => net 0 (base ++ [verComp ver] ++ [segComp i]) j) retries 0 pf with
  | none => rw [hp] at hc; exact absurd hc (by simp)
  | some res =>
    rw [hp] at hc
    cases res with
    | err e => exact absurd hc (by simp [Res.map])
    | panic => exact absurd hc (by simp [Res.map])
    | ok r =>
      simp only [Option.map_some, Res.map, Option.some.injEq, Res.ok.injEq, Seen.callback.injEq] at hc
      obtain ⟨_, gs, h1, h2, _⟩ := C55_result _ _ _ _ r hp
      obtain ⟨_, g, hg, _⟩ := h2 hc.1
      rw [List.getLast?_eq_getElem?] at hg
      obtain ⟨j, _, rfl, hs, _⟩ := h1 _ _ hg
      obtain ⟨p, hp, hpre, _⟩ := hd.only _ j hs
      rw [answers_plain (segComp_typ _), List.mem_singleton.mp hp] at hpre
      simp only [List.append_assoc, List.singleton_append] at hpre
      exact absurd (congrArg Component.typ (prefix_step hpre).1) (show (54 : Nat) ≠ 32 by decide)

/-! ## General objects -/

theorem map_mapIdx_self {α β : Type} (f : Nat → α → β) (g : β → α) (h : ∀ i a, g (f i a) = a) (l : List α) : (l.mapIdx f).map g = l := by
  apply List.ext_getElem
  · simp
  · intro i h1 h2
    simp [h]

theorem digests_manifest (ds : List Bytes) : digestsOf (manifestOf ds) = ds := map_mapIdx_self _ _ (fun _ _ => rfl) ds

theorem flatten_le {α : Type} (k : Nat) (l : List (List α)) (h : ∀ b ∈ l, b.length ≤ k) : l.flatten.length ≤ l.length * k := by
  induction l with
  | nil => simp
  | cons a l ih =>
    have h1 := h a List.mem_cons_self
    have h2 := ih fun b hb => h b (List.mem_cons_of_mem _ hb)
    rw [List.flatten_cons, List.length_append, List.length_cons, Nat.succ_mul]
    omega

theorem digest_body (i : Nat) (d : Bytes) (hd : d.length = 32) :
    (tlv 0xca (Elem.body (.struct manifestDigest) ((i, some d, ()) : manifestDigest.V))).length ≤ 103 := by
  have e : Elem.body (.struct manifestDigest) ((i, some d, ()) : manifestDigest.V) = tlv 0xcc (natEnc i) ++ tlv 0xce d := by
    simp [Elem.body, manifestDigest, Fields.elems]
  rw [e]
  have h1 := natLen_le8 i
  have t1 : tlLen 0xca ≤ 9 := tlLen_le _
  have t2 : tlLen 0xcc ≤ 9 := tlLen_le _
  have t3 : tlLen 0xce ≤ 9 := tlLen_le _
  have t4 := tlLen_le (natEnc i).length
  have t5 := tlLen_le d.length
  have t6 := tlLen_le (tlv 0xcc (natEnc i) ++ tlv 0xce d).length
  have e2 : (tlv 0xcc (natEnc i) ++ tlv 0xce d).length = tlLen 0xcc + tlLen (natEnc i).length + (natEnc i).length + (tlLen 0xce + tlLen d.length + d.length) := by
    simp only [tlv, List.length_append, tlEnc_length]
  rw [tlv, List.length_append, List.length_append, tlEnc_length, tlEnc_length]
  omega

theorem manifest_len (ds : List Bytes) (hd : ∀ d ∈ ds, d.length = 32) : (manifestData.enc (manifestOf ds)).length ≤ ds.length * 103 := by
  have e : manifestData.enc (manifestOf ds) =
      ((ds.mapIdx fun i d => ((i, some d, ()) : manifestDigest.V)).map fun v => tlv 0xca (Elem.body (.struct manifestDigest) v)).flatten :=
    congrArg List.flatten (List.append_nil _)
  rw [e]
  refine Nat.le_trans (flatten_le 103 _ ?_) ?_
  · intro b hb
    obtain ⟨v, hv, rfl⟩ := List.mem_map.mp hb
    obtain ⟨i, hi, rfl⟩ := List.mem_mapIdx.mp hv
    exact digest_body i _ (hd _ (List.getElem_mem hi))
  · exact Nat.mul_le_mul_right 103 (Nat.le_of_eq ((List.length_map _).trans List.length_mapIdx))

theorem manifest_roundtrip (ds : List Bytes) (hd : ∀ d ∈ ds, d.length = 32) (hl : ds.length < 2 ^ 35) :
    ∃ b, manifestData.encode (manifestOf ds) = .ok b ∧ ∀ fuel, b.length < fuel → ∃ r, manifestData.parse true fuel (BR.new b) = some (.ok (manifestOf ds), r) := by
  have hlen := manifest_len ds hd
  obtain ⟨b, h1, h2⟩ := C19_codec_roundtrip_partial manifestData manifestData_wf (manifestOf ds)
    ⟨by
      intro x hx
      obtain ⟨i, hi, rfl⟩ := List.mem_mapIdx.mp hx
      exact ⟨show i < 2 ^ 64 by have : i < ds.length := hi; omega, trivial, trivial⟩, trivial⟩ (by omega)
  exact ⟨b, h1, h2 true⟩

theorem data_len (base : Name) (h : base.encBody.length < 2 ^ 41) : (base ++ [dataComp]).encBody.length < 2 ^ 42 := by
  rw [encBody_append, List.length_append]
  have : (Name.encBody [dataComp]).length = 6 := by decide
  omega

/-- what `NeedCallback` of a general object does with a manifest that can be read -/
theorem objFetch_parsed {net : Name → Nat → Fetched} {manRetries retries fuel k : Nat} {base : Name} {g : Fetched} {ds : List Bytes} {r : BR}
    (hr : manRetries < 2 ^ 63) (ht : trials (net (base ++ [manifestComp])) manRetries 0 ⟨.none, [], none⟩ = (true, g, k))
    (hp : manifestData.parse true fuel (BR.new g.content.flatten) = some (.ok (manifestOf ds), r)) :
    objFetch net manRetries retries fuel base =
      (pipeline (fun i j => net (base ++ [dataComp] ++ [segComp i] ++ if ds.length = 0 then [] else [⟨1, ds.getD i []⟩]) j) retries ds.length fuel).map
          (·.map some) := by
  unfold objFetch
  rw [(refine_obj base).2.2, (refine_obj base).1, toInt_of_lt hr, Int.toNat_natCast]
  dsimp only
  rw [ht]
  dsimp only
  rw [hp]
  dsimp only
  rw [digests_manifest]

/-- C70 for a general object with a content that is not empty: what `GeneralObjNode.Provide` publishes is what `GeneralObjNode.NeedCallback` gives to the callback. -/
theorem C70_general_roundtrip_partial (size : Nat) (base : Name) (content : Wire) (digest : Pub → Bytes) (retries : Nat) (hdig : ∀ p, (digest p).length = 32)
    (hs : 0 < size) (hl : content.flatten.length + size ≤ 2 ^ 64) (hg : NoGap content) (hne : content.flatten ≠ [])
    (hcnt : segCount content.flatten.length size < 2 ^ 35)
    (hbase : ∀ c ∈ base, c.Small) (hsz : base.encBody.length < 2 ^ 41) (hr : retries < 2 ^ 63) :
    ∃ pubs, objProvide digest size base content = .ok pubs ∧
      (∀ p ∈ pubs, base <+: p.name) ∧
      ∃ least, ∀ net : Name → Nat → Fetched, Delivers digest pubs retries net → ∀ fuel, least ≤ fuel →
        ∃ r, objFetch net retries retries fuel base = some (.ok (some r)) ∧ r.status = .data ∧ r.content.flatten = content.flatten := by
  obtain ⟨segs, hp, hsne, hcount, hslen, hno, hfin, hcat⟩ := provided size content hs hl hg hne
  obtain ⟨m, _, hm, _⟩ := meta_roundtrip (base ++ [dataComp]) segs.length content.flatten.length
    (small_append hbase ⟨by decide, by decide⟩) (data_len base hsz) (by omega)
  have hslen2 : (segPubs (base ++ [dataComp]) segs).length = segs.length := List.length_map _
  obtain ⟨man, hman, hparse⟩ := manifest_roundtrip ((segPubs (base ++ [dataComp]) segs).map digest)
    (by intro d hd; obtain ⟨p, _, rfl⟩ := List.mem_map.mp hd; exact hdig p) (by rw [List.length_map, hslen2]; omega)
  have hlen0 := List.length_pos_iff.mpr hsne
  refine ⟨_, objProvide_eq hp hm hman, ?_, man.length + segs.length + 1, ?_⟩
  · intro p hp
    simp only [List.mem_append, List.mem_cons, List.not_mem_nil, or_false] at hp
    rcases hp with hp | rfl | rfl
    · obtain ⟨s, _, rfl⟩ := List.mem_map.mp hp
      exact ⟨[dataComp] ++ [segComp s.no], by simp⟩
    · exact List.prefix_append _ _
    · exact List.prefix_append _ _
  · intro net hd fuel hf
    have hrest : ∀ p ∈ [(⟨base ++ [metaComp], [m], none⟩ : Pub), ⟨base ++ [manifestComp], [man], none⟩],
        ∃ d ds w f, d ≠ dataComp ∧ p = ⟨base ++ d :: ds, w, f⟩ := by
      intro p hp
      simp only [List.mem_cons, List.not_mem_nil, or_false] at hp
      rcases hp with rfl | rfl
      · exact ⟨metaComp, _, _, _, by decide, rfl⟩
      · exact ⟨manifestComp, _, _, _, by decide, rfl⟩
    have hmeta : ∀ j, (net (base ++ [manifestComp]) j).status = .data → net (base ++ [manifestComp]) j = ⟨.data, [man], none⟩ := by
      intro j hj
      obtain ⟨p, hp, hpre, he⟩ := hd.only _ j hj
      rw [answers_plain (by decide)] at hpre
      simp only [List.mem_append, List.mem_cons, List.not_mem_nil, or_false] at hp
      rcases hp with hp | rfl | rfl
      · obtain ⟨s, _, rfl⟩ := List.mem_map.mp hp
        simp only [List.append_assoc, List.singleton_append] at hpre
        exact absurd (prefix_step hpre).1 (by decide)
      · exact absurd (prefix_step hpre).1 (by decide)
      · exact he
    obtain ⟨j, hj, hst⟩ := hd.answers (base ++ [manifestComp]) ⟨base ++ [manifestComp], [man], none⟩ (by simp)
      ((answers_plain (by decide)).mpr (List.prefix_refl _))
    obtain ⟨k, ht⟩ := trials_ok hmeta (n := retries) (j := 0) ⟨.none, [], none⟩ ⟨j, hj, by rw [Nat.zero_add]; exact hst⟩
    obtain ⟨r, hr1⟩ := hparse fuel (by omega)
    rw [objFetch_parsed hr ht (by rw [show List.flatten [man] = man from List.append_nil man]; exact hr1)]
    obtain ⟨ks, hpipe⟩ := pipeline_ok (manifest := ((segPubs (base ++ [dataComp]) segs).map digest).length)
      (arrives (suf := fun i => if ((segPubs (base ++ [dataComp]) segs).map digest).length = 0 then [] else [⟨1, ((segPubs (base ++ [dataComp]) segs).map digest).getD i []⟩])
        hd rfl hrest hno hfin hslen (by
          intro i hi
          refine .inr ⟨(segPubs (base ++ [dataComp]) segs)[i]'(by omega), List.getElem?_eq_getElem (by omega), ?_⟩
          rw [if_neg (by rw [List.length_map]; omega), List.getD_eq_getElem?_getD, List.getElem?_map, List.getElem?_eq_getElem (by omega)]
          rfl)) hr
      (.inl (by rw [List.length_map, List.length_map, hslen2])) (by rw [List.length_map]; exact hslen) (by simpa using hsne) fuel (by rw [List.length_map]; omega)
    rw [hpipe]
    exact ⟨_, rfl, rfl, hcat⟩

/-- With a manifest, nobody can change the content: whatever packets are on the network, if the manifest received is the published one, a success means that the content is the
published one, or that a packet received has the digest of a
different packet that was published.  `src n j` is the packet received for this Interest. -/
theorem C70_manifest_integrity (size : Nat) (base : Name) (content : Wire) (digest : Pub → Bytes) (retries fuel : Nat) (hdig : ∀ p, (digest p).length = 32)
    (hs : 0 < size) (hl : content.flatten.length + size ≤ 2 ^ 64) (hg : NoGap content) (hne : content.flatten ≠ [])
    (hcnt : segCount content.flatten.length size < 2 ^ 35) (hbase : ∀ c ∈ base, c.Small) (hsz : base.encBody.length < 2 ^ 41) (hr : retries < 2 ^ 63)
    (pubs : List Pub) (hpub : objProvide digest size base content = .ok pubs) (net : Name → Nat → Fetched)
    (src : Name → Nat → Pub) (honest : ∀ n j, (net n j).status = .data → (src n j).Answers digest n ∧ net n j = ⟨.data, (src n j).content, (src n j).final⟩)
    (hman : ∀ j, (net (base ++ [manifestComp]) j).status = .data → ∃ p ∈ pubs, p.name = base ++ [manifestComp] ∧ (net (base ++ [manifestComp]) j).content = p.content)
    (hfuel : ∀ p ∈ pubs, p.content.flatten.length < fuel)
    (r : PipeResult) (h : objFetch net retries retries fuel base = some (.ok (some r))) (hst : r.status = .data) :
    r.content.flatten = content.flatten ∨
      ∃ n j, (net n j).status = .data ∧ ∃ q ∈ pubs, src n j ≠ q ∧ digest (src n j) = digest q := by
  obtain ⟨segs, hp, hsne, hcount, hslen, hno, hfin, hcat⟩ := provided size content hs hl hg hne
  obtain ⟨m, _, hm, _⟩ := meta_roundtrip (base ++ [dataComp]) segs.length content.flatten.length
    (small_append hbase ⟨by decide, by decide⟩) (data_len base hsz) (by omega)
  have hslen2 : (segPubs (base ++ [dataComp]) segs).length = segs.length := List.length_map _
  obtain ⟨man, hman', hparse⟩ := manifest_roundtrip ((segPubs (base ++ [dataComp]) segs).map digest)
    (by intro d hd; obtain ⟨p, _, rfl⟩ := List.mem_map.mp hd; exact hdig p) (by rw [List.length_map, hslen2]; omega)
  have hlen0 := List.length_pos_iff.mpr hsne
  rw [objProvide_eq hp hm hman'] at hpub
  injection hpub with hpub
  have hfl : List.flatten [man] = man := List.append_nil man
  by_cases hcol : ∃ n j, (net n j).status = .data ∧ ∃ q ∈ pubs, src n j ≠ q ∧ digest (src n j) = digest q
  · exact .inr hcol
  refine .inl ?_
  have key : ∀ (nm pre : Name) (j : Nat) (q : Pub), (net nm j).status = .data → nm = pre ++ [⟨1, digest q⟩] → q ∈ pubs → (net nm j).content = q.content := by
    rintro nm pre j q hs rfl hq
    obtain ⟨hpre, he⟩ := honest _ j hs
    rcases Classical.em (src (pre ++ [⟨1, digest q⟩]) j = q) with h | h
    · rw [he, h]
    · exact absurd ⟨_, j, hs, q, hq, h, (answers_digest.mp hpre).2⟩ hcol
  cases ht : trials (net (base ++ [manifestComp])) retries 0 ⟨.none, [], none⟩ with
  | mk b x =>
  obtain ⟨g, k⟩ := x
  cases b with
  | false =>
    unfold objFetch at h
    rw [(refine_obj base).2.2, (refine_obj base).1, toInt_of_lt hr, Int.toNat_natCast] at h
    dsimp only at h
    rw [ht] at h
    simp only [Option.some.injEq, Res.ok.injEq] at h
    subst h
    obtain ⟨_, h2, h3, h4⟩ := trials_false ht
    rcases Nat.eq_zero_or_pos retries with h0 | h0
    · rw [h3 h0] at hst; cases hst
    · rw [h4 h0] at hst
      exact absurd hst (by rw [show 0 + retries - 1 = 0 + (retries - 1) by omega]; exact h2 _ (by omega))
  | true =>
    obtain ⟨j, hj⟩ : ∃ j, g = net (base ++ [manifestComp]) j ∧ g.status = .data := by
      obtain ⟨d, _, h2, h3, _⟩ := trials_true ht
      exact ⟨_, h2, h3⟩
    have hg : g.content = [man] := by
      obtain ⟨p, hp, hpn, hpc⟩ := hman j (by rw [← hj.1]; exact hj.2)
      rw [hj.1, hpc]
      rw [← hpub] at hp
      simp only [List.mem_append, List.mem_cons, List.not_mem_nil, or_false] at hp
      rcases hp with hp | rfl | rfl
      · obtain ⟨s, _, rfl⟩ := List.mem_map.mp hp
        have := congrArg List.length hpn
        simp at this
      · exact absurd (List.append_cancel_left hpn) (by decide)
      · rfl
    have hf : man.length < fuel := by
      have := hfuel ⟨base ++ [manifestComp], [man], none⟩ (by rw [← hpub]; simp)
      rw [hfl] at this
      exact this
    obtain ⟨r', hr1⟩ := hparse fuel hf
    rw [objFetch_parsed hr ht (by rw [hg, hfl]; exact hr1)] at h
    have hpos : 0 < ((segPubs (base ++ [dataComp]) segs).map digest).length := by rw [List.length_map]; omega
    cases hp : pipeline (fun i j => net (base ++ [dataComp] ++ [segComp i] ++ if ((segPubs (base ++ [dataComp]) segs).map digest).length = 0 then []
        else [⟨1, ((segPubs (base ++ [dataComp]) segs).map digest).getD i []⟩]) j) retries ((segPubs (base ++ [dataComp]) segs).map digest).length fuel with
    | none => rw [hp] at h; exact absurd h (by simp)
    | some res =>
      rw [hp] at h
      cases res with
      | err e => exact absurd h (by simp [Res.map])
      | panic => exact absurd h (by simp [Res.map])
      | ok r2 =>
        simp only [Option.map_some, Res.map, Option.some.injEq, Res.ok.injEq] at h
        subst h
        obtain ⟨_, gs, h1, h2, _⟩ := C55_result _ _ _ _ r2 hp
        obtain ⟨h3, _, _, _, h4⟩ := h2 hst
        have h4 := h4 hpos
        rw [List.length_map, hslen2] at h4
        have : gs.map (·.content) = segs.map (·.content) := by
          apply List.ext_getElem?
          intro d
          rw [List.getElem?_map, List.getElem?_map]
          by_cases hd : d < segs.length
          · rw [List.getElem?_eq_getElem hd, List.getElem?_eq_getElem (by omega)]
            obtain ⟨j, _, e, hs, _⟩ := h1 d _ (List.getElem?_eq_getElem (by omega))
            rw [e] at hs
            rw [e]
            have := key _ (base ++ [dataComp] ++ [segComp d]) j ((segPubs (base ++ [dataComp]) segs)[d]'(by omega)) hs
              (by
                rw [if_neg (by omega), List.getD_eq_getElem?_getD, List.getElem?_map, List.getElem?_eq_getElem (by omega)]
                rfl) (by rw [← hpub]; exact List.mem_append_left _ (List.getElem_mem _))
            refine congrArg some (this.trans ?_)
            simp [segPubs]
          · rw [List.getElem?_eq_none (by omega), List.getElem?_eq_none (by omega)]
            rfl
        rw [h3, this, hcat]

/-- C70 fails: the manifest of an empty object has no digests, so that the segments are asked for without one, and anybody's packet is taken for the content. -/
theorem C70_empty_general_violated (size : Nat) (base : Name) (digest : Pub → Bytes) (hs : 0 < size) (hl : size ≤ 2 ^ 64)
    (hbase : ∀ c ∈ base, c.Small) (hsz : base.encBody.length < 2 ^ 41) :
    ∃ info man : Pub, objProvide digest size base [] = .ok [info, man] ∧ man.name = base ++ [manifestComp] ∧
      ∀ (net : Name → Nat → Fetched) (retries fuel : Nat) (forged : Wire), 0 < retries → retries < 2 ^ 63 → man.content.flatten.length < fuel →
        net (base ++ [manifestComp]) 0 = ⟨.data, man.content, man.final⟩ → net (base ++ [dataComp, segComp 0]) 0 = ⟨.data, forged, some (segComp 0)⟩ →
        objFetch net retries retries fuel base = some (.ok (some ⟨.data, forged, [1]⟩)) := by
  obtain ⟨m, _, hm, _⟩ := meta_roundtrip (base ++ [dataComp]) 0 0 (small_append hbase ⟨by decide, by decide⟩) (data_len base hsz) (by decide)
  obtain ⟨man, hman, hparse⟩ := manifest_roundtrip [] (by simp) (by decide)
  refine ⟨_, _, objProvide_eq (provide_nil hs hl) hm hman, rfl, ?_⟩
  intro net retries fuel forged h0 hr hf h1 h2
  have hfl : List.flatten [man] = man := List.append_nil man
  obtain ⟨r, hr1⟩ := hparse fuel (by rw [← hfl]; exact hf)
  rw [objFetch_parsed (ds := []) hr (trials_first (f := net (base ++ [manifestComp])) (j := 0) h0 (by rw [h1])) (by rw [h1, hfl]; exact hr1)]
  obtain ⟨fuel, rfl⟩ : ∃ k, fuel = k + 1 := ⟨fuel - 1, by omega⟩
  have hn : base ++ [dataComp] ++ [segComp 0] ++ (if ([] : List Bytes).length = 0 then [] else [⟨1, ([] : List Bytes).getD 0 []⟩]) = base ++ [dataComp, segComp 0] := by simp
  unfold pipeline
  rw [toInt_of_lt hr, Int.toNat_natCast, pipeLoop, trials_first (f := fun j => net _ j) (j := 0) h0 (by rw [hn, h2])]
  dsimp only
  rw [hn, h2]
  simp [Component.compare_isCompare.refl, Res.map]
end Ndn.Schema
