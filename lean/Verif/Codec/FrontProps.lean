import Verif.Codec.FrontLemmas
import Verif.Packet.Parse
import Verif.Schema.DemoSec
import Verif.Schema.Object

/-!
# Property C89: what is generated is what the comments and tags say

The specification is a grammar: descriptions of fields (`Desc`) and numerals (`Numeral`) with the text that a programmer writes for them, and what they
mean.  The generator is to read from the text what was meant, for every description, whatever the order in which Go goes through the table of classes.
-/

namespace Ndn.Codec.Gen

/-! ## Specification -/

/-- the character of a digit -/
def digitChar (d : Nat) (upper : Bool) : Char :=
  Char.ofNat (if d < 10 then 48 + d else if upper then 55 + d else 87 + d)

/-- numerals as they are meant to be written: decimal without a zero in front, or hexadecimal with `0x` and digits of either case -/
inductive Numeral where
  | dec (first : Fin 9) (rest : List (Fin 10))
  | hex (first : Fin 16 × Bool) (rest : List (Fin 16 × Bool))

/-- the text of a numeral -/
def Numeral.text : Numeral → Txt
  | .dec d ds => digitChar (d + 1) false :: ds.map fun d : Fin 10 => digitChar d.1 false
  | .hex d ds => '0' :: 'x' :: digitChar d.1 d.2 :: ds.map fun d : Fin 16 × Bool => digitChar d.1.1 d.2

/-- its value -/
def Numeral.value : Numeral → Nat
  | .dec d ds => ds.foldl (fun (a : Nat) (d : Fin 10) => a * 10 + d.1) (d + 1)
  | .hex d ds => ds.foldl (fun (a : Nat) (d : Fin 16 × Bool) => a * 16 + d.1.1) d.1.1

/-- the fixed widths -/
inductive Width where
  | byte | uint16 | uint32 | uint64
  deriving DecidableEq

/-- the Go type -/
def Width.text : Width → Txt
  | .byte => t!"byte"
  | .uint16 => t!"uint16"
  | .uint32 => t!"uint32"
  | .uint64 => t!"uint64"

/-- its bytes -/
def Width.bytes : Width → Nat
  | .byte => 1
  | .uint16 => 2
  | .uint32 => 4
  | .uint64 => 8

/-- descriptions of fields -/
inductive Desc where
  | natural (opt : Bool)
  | fixedUint (w : Width) (opt : Bool)
  | time (opt : Bool)
  | binary
  | string (opt : Bool)
  | wire
  | name
  | bool
  | arg (typ : Txt)
  | offset
  | range (start cov : Txt)
  | struct (typ : Txt) (inner : Bool)
  | signature (start cov : Txt)
  | interestName (cov : Txt)
  | sequence (typ : Txt) (sub : Desc)
  | map (ktyp : Txt) (key : KeyClass) (vnum : Numeral) (vtyp : Txt) (val : Desc)

/-- how the key of a map is described -/
def keyText : KeyClass → Txt
  | .nat => t!"natural"
  | .str => t!"string"

/-- what that means -/
def keyMeans : KeyClass → Cls
  | .nat => .natural false
  | .str => .string false

/-- the options behind the class, each after a colon -/
def optText (opt : Bool) : Txt := if opt then t!":optional" else []

/-- how a field is described in a comment -/
def Desc.text : Desc → Txt
  | .natural o => t!"natural" ++ optText o
  | .fixedUint w o => t!"fixedUint:" ++ w.text ++ optText o
  | .time o => t!"time" ++ optText o
  | .binary => t!"binary"
  | .string o => t!"string" ++ optText o
  | .wire => t!"wire"
  | .name => t!"name"
  | .bool => t!"bool"
  | .arg t => t!"procedureArgument:" ++ t
  | .offset => t!"offsetMarker"
  | .range a b => t!"rangeMarker:" ++ a ++ ':' :: b
  | .struct t i => t!"struct:" ++ t ++ if i then t!":nocopy" else []
  | .signature a b => t!"signature:" ++ a ++ ':' :: b
  | .interestName c => t!"interestName:" ++ c
  | .sequence t d => t!"sequence:" ++ t ++ ':' :: d.text
  | .map kt k vn vt v =>
    t!"map:" ++ kt ++ ':' :: (keyText k ++ ':' :: (vn.text ++ ':' :: (vt ++ ':' :: v.text)))

/-- what it means, in a model with or without `nocopy` -/
def Desc.means (nc : Bool) : Desc → Cls
  | .natural o => .natural o
  | .fixedUint w o => .fixedUint w.bytes o
  | .time o => .time o
  | .binary => .binary
  | .string o => .string o
  | .wire => .wire nc
  | .name => .name
  | .bool => .bool
  | .arg t => .arg t
  | .offset => .offset nc
  | .range a b => .range a b nc
  | .struct t i => .struct t i
  | .signature a b => .signature a b nc
  | .interestName c => .interestName c
  | .sequence t d => .sequence t (d.means nc)
  | .map kt k vn vt v => .map kt (keyMeans k) vn.value vt (v.means nc)

/-- the number of a field with a tag: markers and arguments have none -/
def Desc.num : Desc → Nat → Nat
  | .arg _, _ => 0
  | .offset, _ => 0
  | _, n => n

/-- a word: not empty and without a colon -/
def Word (s : Txt) : Prop := s ≠ [] ∧ ':' ∉ s

/-- descriptions that can be written: types and names are words, `nocopy` is for models that have it, numbers fit 64 bits, and the value of a map is not
described as `…:optional` without anything else (`C89_map_violated`) -/
def Desc.Ok (nc : Bool) : Desc → Prop
  | .range a b => Word a ∧ Word b
  | .struct t i => Word t ∧ (i = true → nc = true)
  | .signature a b => Word a ∧ Word b
  | .interestName c => c ≠ []
  | .sequence t d => ':' ∉ t ∧ d.Ok nc
  | .map kt _ vn vt v => ':' ∉ kt ∧ ':' ∉ vt ∧ vn.value < 2 ^ 64 ∧ (∀ w, v.text = w ++ t!":optional" → ':' ∈ w) ∧ v.Ok nc
  | _ => True

/-- a field of a struct with its comment, if there is one; `num` is the number in its tag -/
structure FieldDesc where
  name : Txt
  num : Option Numeral
  desc : Option Desc
  /-- comments that are about something else, before and behind -/
  before : List Txt
  after : List Txt
  /-- `// +field:` with a space, or `//+field:` -/
  space : Bool

/-- a comment that is about something else -/
def Other (ind c : Txt) : Prop := ¬ (t!"//+" ++ ind ++ [':']) <+: c ∧ ¬ (t!"// +" ++ ind ++ [':']) <+: c

/-- how it is written -/
def FieldDesc.source (f : FieldDesc) : FieldSrc where
  names := [f.name]
  tag := f.num.map fun n => t!"`tlv:\"" ++ n.text ++ t!"\"`"
  doc :=
    match f.desc with
    | none => f.before
    | some d => f.before ++ ((if f.space then t!"// +field:" else t!"//+field:") ++ d.text) :: f.after

/-- what it means: markers and arguments have no number, and a field without a description is not for the generator -/
def FieldDesc.means (nc : Bool) (f : FieldDesc) : Option Field :=
  f.desc.map fun d => ⟨f.name, d.num ((f.num.map Numeral.value).getD 0), d.means nc⟩

/-- it can be written so -/
def FieldDesc.Ok (nc : Bool) (f : FieldDesc) : Prop :=
  (∀ n, f.num = some n → n.value < 2 ^ 64) ∧ (∀ d, f.desc = some d → d.Ok nc) ∧ ∀ c ∈ f.before, Other t!"field" c

/-- the options of models -/
inductive MOpt where
  | priv | noCopy | dict | ordered
  deriving DecidableEq

def MOpt.text : MOpt → Txt
  | .priv => t!"private"
  | .noCopy => t!"nocopy"
  | .dict => t!"dict"
  | .ordered => t!"ordered"

/-- a struct: its name, the comments above it, the options (none: no comment about them) and its fields -/
structure ModelDesc where
  name : Txt
  before : List Txt
  opts : List MOpt
  fields : List FieldDesc

/-- how it is written -/
def ModelDesc.source (m : ModelDesc) : DeclSrc where
  doc := if m.opts = [] then m.before else m.before ++ [t!"// +tlv-model:" ++ join ',' (m.opts.map MOpt.text)]
  specs := [⟨m.name, some (m.fields.map FieldDesc.source)⟩]

/-- what it means -/
def ModelDesc.means (m : ModelDesc) : Option TModel :=
  let fields := m.fields.filterMap (FieldDesc.means (decide (.noCopy ∈ m.opts)))
  if fields = [] then none
  else some ⟨m.name, ⟨decide (.priv ∈ m.opts), decide (.noCopy ∈ m.opts), decide (.dict ∈ m.opts), decide (.ordered ∈ m.opts)⟩, fields⟩

/-! ## Numbers and tags -/

theorem digitVal_char : ∀ (d : Fin 16) (b : Bool), digitVal (digitChar d b) = some d.1 := by decide +kernel

theorem tagChar_char : ∀ (d : Fin 16) (b : Bool), isTagChar (digitChar d b) = true := by decide +kernel

theorem digits_dec : ∀ (ds : List (Fin 10)) (acc : Nat), digitsVal 10 acc (ds.map fun d : Fin 10 => digitChar d.1 false) = some (ds.foldl (fun (a : Nat) (d : Fin 10) => a * 10 + d.1) acc)
  | [], _ => rfl
  | d :: ds, acc => by
    have h := digitVal_char ⟨d, by omega⟩ false
    simp only at h
    simp only [List.map_cons, digitsVal, h, List.foldl_cons, if_pos d.2]
    exact digits_dec ds _

theorem digits_hex : ∀ (ds : List (Fin 16 × Bool)) (acc : Nat),
    digitsVal 16 acc (ds.map fun d : Fin 16 × Bool => digitChar d.1.1 d.2) = some (ds.foldl (fun (a : Nat) (d : Fin 16 × Bool) => a * 16 + d.1.1) acc)
  | [], _ => rfl
  | d :: ds, acc => by
    simp only [List.map_cons, digitsVal, digitVal_char, List.foldl_cons, if_pos d.1.2]
    exact digits_hex ds _

theorem first_ne_zero : ∀ d : Fin 9, digitChar (d + 1) false ≠ '0' := by decide +kernel

theorem digits_first : ∀ d : Fin 9, digitVal (digitChar (d + 1) false) = some (d.1 + 1) := by decide +kernel

theorem parse_numeral (n : Numeral) (h : n.value < 2 ^ 64) : parseUint0 n.text = some n.value := by
  cases n with
  | dec d ds =>
    simp only [Numeral.text, parseUint0, if_pos (first_ne_zero d), parseBase, digitsVal, digits_first, digits_dec]
    rw [if_pos (by omega)]
    simp only [Nat.zero_mul, Nat.zero_add]
    simp only [Numeral.value] at h ⊢
    rw [if_pos h]
  | hex d ds =>
    simp only [Numeral.text, parseUint0, ne_eq, not_true_eq_false, if_false, parseBase, digitsVal, digitVal_char, if_pos d.1.2, digits_hex]
    simp only [Numeral.value] at h ⊢
    simp [h]

theorem numeral_chars (n : Numeral) : n.text.all isTagChar = true ∧ n.text ≠ [] := by
  cases n with
  | dec d ds =>
    refine ⟨?_, by simp [Numeral.text]⟩
    simp only [Numeral.text, List.all_cons, List.all_map, Bool.and_eq_true]
    refine ⟨?_, ?_⟩
    · have : ∀ d : Fin 9, isTagChar (digitChar (d + 1) false) = true := by decide +kernel
      exact this d
    · rw [List.all_eq_true]
      intro x _
      have : ∀ d : Fin 10, isTagChar (digitChar d false) = true := by decide +kernel
      exact this x
  | hex d ds =>
    refine ⟨?_, by simp [Numeral.text]⟩
    simp only [Numeral.text, List.all_cons, List.all_map, Bool.and_eq_true]
    refine ⟨by decide, by decide, tagChar_char _ _, ?_⟩
    rw [List.all_eq_true]
    intro x _
    exact tagChar_char _ _

theorem takeWhile_all {p : Char → Bool} : ∀ (a : Txt) (c : Char) (r : Txt), a.all p = true → p c = false → (a ++ c :: r).takeWhile p = a
  | [], c, r, _, hc => by simp [hc]
  | x :: a, c, r, h, hc => by
    simp only [List.all_cons, Bool.and_eq_true] at h
    simp [h.1, takeWhile_all a c r h.2 hc]

theorem tagAt_numeral (n : Numeral) (post : Txt) : tagAt (t!"tlv:\"" ++ n.text ++ '"' :: post) = some n.text := by
  obtain ⟨h1, h2⟩ := numeral_chars n
  have e : (t!"tlv:\"" ++ n.text ++ '"' :: post).drop 5 = n.text ++ '"' :: post := by simp
  have hp : (t!"tlv:\"").isPrefixOf (t!"tlv:\"" ++ n.text ++ '"' :: post) = true := by
    rw [List.isPrefixOf_iff_prefix, List.append_assoc]
    exact List.prefix_append _ _
  simp only [tagAt, hp, e, takeWhile_all n.text '"' post h1 (by decide)]
  simp [h2]

/-- a tag that begins with the number gives the number, whatever follows in the tag -/
theorem C89_tag (n : Numeral) (h : n.value < 2 ^ 64) (post : Txt) : parseTag (some (t!"`tlv:\"" ++ n.text ++ '"' :: post)) = n.value := by
  have e : t!"`tlv:\"" ++ n.text ++ '"' :: post = '`' :: (t!"tlv:\"" ++ n.text ++ '"' :: post) := rfl
  have h0 : tagAt ('`' :: (t!"tlv:\"" ++ n.text ++ '"' :: post)) = none := by simp [tagAt, List.isPrefixOf]
  have h1 : findTag (t!"tlv:\"" ++ n.text ++ '"' :: post) = some n.text := by
    have e2 : t!"tlv:\"" ++ n.text ++ '"' :: post = 't' :: (t!"lv:\"" ++ n.text ++ '"' :: post) := rfl
    have := tagAt_numeral n post
    rw [e2] at this ⊢
    simp only [findTag, this]
  rw [e]
  simp only [parseTag, findTag, h0, h1, parse_numeral n h, Option.getD_some]

example : parseTag (some t!"`tlv:\"0x032C\" json:\"a\"`") = 0x32c ∧ parseTag (some t!"`tlv:\"100\"`") = 100 := by decide +kernel
example : (Numeral.hex (0, false) [(3, false), (2, false), (12, true)]).text = t!"0x032C" ∧
    (Numeral.hex (0, false) [(3, false), (2, false), (12, true)]).value = 0x32c := by decide +kernel

/-! ## Descriptions -/

/-- the word of a class -/
def Kind.word : Kind → Txt
  | .natural => t!"natural"
  | .fixedUint => t!"fixedUint"
  | .time => t!"time"
  | .binary => t!"binary"
  | .string => t!"string"
  | .wire => t!"wire"
  | .name => t!"name"
  | .bool => t!"bool"
  | .procedureArgument => t!"procedureArgument"
  | .offsetMarker => t!"offsetMarker"
  | .rangeMarker => t!"rangeMarker"
  | .sequence => t!"sequence"
  | .struct => t!"struct"
  | .signature => t!"signature"
  | .interestName => t!"interestName"
  | .map => t!"map"

/-- the class that a description is found under -/
def Desc.kind : Desc → Kind
  | .natural _ => .natural
  | .fixedUint _ _ => .fixedUint
  | .time _ => .time
  | .binary => .binary
  | .string _ => .string
  | .wire => .wire
  | .name => .name
  | .bool => .bool
  | .arg _ => .procedureArgument
  | .offset => .offsetMarker
  | .range _ _ => .rangeMarker
  | .struct _ _ => .struct
  | .signature _ _ => .signature
  | .interestName _ => .interestName
  | .sequence _ _ => .sequence
  | .map _ _ _ _ _ => .map

/-- the word of the class -/
def Desc.word (d : Desc) : Txt := d.kind.word

/-- what is behind the first colon -/
def Desc.rest : Desc → Option Txt
  | .natural o => if o then some t!"optional" else none
  | .fixedUint w o => some (w.text ++ optText o)
  | .time o => if o then some t!"optional" else none
  | .string o => if o then some t!"optional" else none
  | .arg t => some t
  | .range a b => some (a ++ ':' :: b)
  | .struct t i => some (t ++ if i then t!":nocopy" else [])
  | .signature a b => some (a ++ ':' :: b)
  | .interestName c => some c
  | .sequence t d => some (t ++ ':' :: d.text)
  | .map kt k vn vt v =>
    some (kt ++ ':' :: (keyText k ++ ':' :: (vn.text ++ ':' :: (vt ++ ':' :: v.text))))
  | _ => none

theorem kind_colon : ∀ k : Kind, ':' ∉ k.word := by intro k; cases k <;> decide

theorem word_colon (d : Desc) : ':' ∉ d.word := kind_colon d.kind

theorem text_eq (d : Desc) : d.text = d.word ++ match d.rest with | none => [] | some a => ':' :: a := by
  cases d with
  | natural o => cases o <;> rfl
  | time o => cases o <;> rfl
  | string o => cases o <;> rfl
  | _ => rfl

theorem cut_text (d : Desc) : cut ':' d.text = (d.word, d.rest) := by
  rw [text_eq]
  cases d.rest with
  | none => simpa using cut_none (word_colon d)
  | some a => exact cut_some a (word_colon d)

theorem find_kind : ∀ k : Kind, classTable.find? (fun p => p.1.isPrefixOf k.word) = some (k.word, k) := by intro k; cases k <;> decide +kernel

theorem find_word (d : Desc) : classTable.find? (fun p => p.1.isPrefixOf d.word) = some (d.word, d.kind) := find_kind d.kind

theorem numeral_colon (n : Numeral) : ':' ∉ n.text := by
  intro h
  have := List.all_eq_true.1 (numeral_chars n).1 _ h
  exact absurd this (by decide)

theorem width_of (w : Width) : fixedWidth w.text = w.bytes ∧ ':' ∉ w.text := by cases w <;> decide

theorem split_one {a : Txt} (h : ':' ∉ a) : split ':' a = [a] := splitN_one ':' h

theorem split_two {a b : Txt} (h : ':' ∉ a) (hb : ':' ∉ b) : split ':' (a ++ ':' :: b) = [a, b] :=
  split_join ':' (l := [a, b]) (by simp) (by simp [h, hb])

/-- the parts of `w` or `w:rest` -/
theorem splitN_text (n : Nat) (d : Desc) : splitN ':' (n + 2) d.text = d.word :: (match d.rest with | none => [] | some a => splitN ':' (n + 1) a) := by
  rw [text_eq]
  cases d.rest with
  | none => simpa using splitN_one ':' (n := n + 1) (word_colon d)
  | some a => exact splitN_cons ':' a (word_colon d)

theorem rest_len {d : Desc} : (d.rest.getD []).length < d.text.length := by
  rw [text_eq]
  have hk : ∀ k : Kind, 0 < k.word.length := by intro k; cases k <;> decide
  have : 0 < d.word.length := hk d.kind
  cases d.rest with
  | none => simpa using this
  | some a => simp; omega

theorem create_fixed (nc : Bool) (f i : Nat) {ann w : Txt} {rest : List Txt} (h0 : ann ≠ []) (hs : split ':' ann = w :: rest) :
    createField asWritten nc (f + 1) i Kind.fixedUint.word ann = some (.fixedUint (fixedWidth w) (rest.head? = some t!"optional")) := by
  simp [createField, asWritten, find_kind, h0, hs]

theorem create_struct (nc : Bool) (f i : Nat) {ann t : Txt} {rest : List Txt} (h0 : ann ≠ []) (hs : split ':' ann = t :: rest)
    (hn : rest.head? = some t!"nocopy" → nc = true) :
    createField asWritten nc (f + 1) i Kind.struct.word ann = some (.struct t (rest.head? = some t!"nocopy")) := by
  have : (!nc && decide (rest.head? = some t!"nocopy")) = false := by
    cases nc with
    | true => rfl
    | false =>
      have : ¬ rest.head? = some t!"nocopy" := fun h => absurd (hn h) (by simp)
      simp [this]
  simp only [createField, asWritten, find_kind, if_neg h0, hs, this]
  simp

theorem create_name (nc : Bool) (f i : Nat) {ann : Txt} (h0 : ann ≠ []) :
    createField asWritten nc (f + 1) i Kind.interestName.word ann = some (.interestName ann) := by
  simp [createField, asWritten, find_kind, h0]

theorem create_seq (nc : Bool) (f i : Nat) {ann t : Txt} {d : Desc} {c : Cls} (hs : ann = t ++ ':' :: d.text) (ht : ':' ∉ t)
    (hc : createField asWritten nc f (2 * i + 1) d.word (d.rest.getD []) = some c) :
    createField asWritten nc (f + 1) i Kind.sequence.word ann = some (.sequence t c) := by
  have e : splitN ':' 3 ann = t :: d.word :: (match d.rest with | none => [] | some a => splitN ':' 1 a) := by
    rw [hs, splitN_cons ':' d.text ht, splitN_text]
  simp only [createField, e]
  rw [show (asWritten i).find? (fun p => p.1.isPrefixOf Kind.sequence.word) = some (Kind.sequence.word, .sequence) from find_kind .sequence]
  cases hr : d.rest with
  | none => simp only [hr, Option.getD_none] at hc; simp [hc]
  | some a => simp only [hr, Option.getD_some] at hc; simp [splitN, hc]

theorem create_key (nc : Bool) (f i : Nat) (k : KeyClass) {ann : Txt} (h : ann ≠ t!"optional") :
    createField asWritten nc (f + 1) i (keyText k) ann = some (keyMeans k) := by
  cases k with
  | nat =>
    have := find_kind .natural
    simp only [Kind.word] at this
    simp only [createField, asWritten, keyText, this, keyMeans]
    simp [h]
  | str =>
    have := find_kind .string
    simp only [Kind.word] at this
    simp only [createField, asWritten, keyText, this, keyMeans]
    simp [h]

theorem create_map (nc : Bool) (f i : Nat) {ann kt vt : Txt} {k : KeyClass} {vn : Numeral} {v : Desc} {c : Cls}
    (hs : ann = kt ++ ':' :: (keyText k ++ ':' :: (vn.text ++ ':' :: (vt ++ ':' :: v.text)))) (hk : ':' ∉ kt) (hv : ':' ∉ vt) (hn : vn.value < 2 ^ 64)
    (hc : createField asWritten nc f (2 * i + 1) v.word (v.rest.getD []) = some c)
    (hkey : createField asWritten nc f (2 * i + 2) (keyText k) (v.rest.getD []) = some (keyMeans k)) :
    createField asWritten nc (f + 1) i Kind.map.word ann = some (.map kt (keyMeans k) vn.value vt c) := by
  have hk2 : ':' ∉ keyText k := by cases k <;> decide
  have e : splitN ':' 6 ann = kt :: keyText k :: vn.text :: vt :: v.word :: (match v.rest with | none => [] | some a => splitN ':' 1 a) := by
    rw [hs, splitN_cons ':' _ hk, splitN_cons ':' _ hk2, splitN_cons ':' _ (numeral_colon vn), splitN_cons ':' _ hv, splitN_text]
  simp only [createField, e, parse_numeral vn hn]
  rw [show (asWritten i).find? (fun p => p.1.isPrefixOf Kind.map.word) = some (Kind.map.word, .map) from find_kind .map]
  have hh : (match v.rest with | none => [] | some a => splitN ':' 1 a : List Txt).headD [] = v.rest.getD [] := by
    cases v.rest <;> simp [splitN]
  simp only [hh, hc, hkey]

theorem create_desc (nc : Bool) : ∀ (d : Desc), d.Ok nc → ∀ (fuel i : Nat), (d.rest.getD []).length < fuel →
    createField asWritten nc fuel i d.word (d.rest.getD []) = some (d.means nc) := by
  intro d
  induction d with
  | natural o =>
    intro _ fuel i hf
    cases fuel with
    | zero => omega
    | succ f => simp only [createField, asWritten, find_word, Desc.kind, Desc.rest, Desc.means]; cases o <;> rfl
  | time o =>
    intro _ fuel i hf
    cases fuel with
    | zero => omega
    | succ f => simp only [createField, asWritten, find_word, Desc.kind, Desc.rest, Desc.means]; cases o <;> rfl
  | string o =>
    intro _ fuel i hf
    cases fuel with
    | zero => omega
    | succ f => simp only [createField, asWritten, find_word, Desc.kind, Desc.rest, Desc.means]; cases o <;> rfl
  | binary | wire | name | bool | offset =>
    intro _ fuel i hf
    cases fuel with
    | zero => omega
    | succ f => simp only [createField, asWritten, find_word, Desc.kind, Desc.means]
  | arg t =>
    intro _ fuel i hf
    cases fuel with
    | zero => omega
    | succ f => simp only [createField, asWritten, find_word, Desc.kind, Desc.means, Desc.rest, Option.getD_some]
  | fixedUint w o =>
    intro _ fuel i hf
    cases fuel with
    | zero => omega
    | succ f =>
      have hw := width_of w
      cases o with
      | false =>
        have e : w.text ++ optText false = w.text := by simp [optText]
        have := create_fixed nc f i (ann := w.text ++ optText false) (by rw [e]; cases w <;> simp [Width.text]) (by rw [e]; exact split_one hw.2)
        rw [hw.1] at this
        exact this
      | true =>
        have := create_fixed nc f i (ann := w.text ++ ':' :: t!"optional") (by simp) (split_two hw.2 (by decide))
        rw [hw.1] at this
        exact this
  | range a b =>
    intro h fuel i hf
    cases fuel with
    | zero => omega
    | succ f =>
      obtain ⟨⟨ha, ha'⟩, hb, hb'⟩ := h
      simp only [createField, asWritten, find_word, Desc.kind, Desc.means, Desc.rest, Option.getD_some, split_two ha' hb']
      simp [ha, hb]
  | signature a b =>
    intro h fuel i hf
    cases fuel with
    | zero => omega
    | succ f =>
      obtain ⟨⟨ha, ha'⟩, hb, hb'⟩ := h
      simp only [createField, asWritten, find_word, Desc.kind, Desc.means, Desc.rest, Option.getD_some, split_two ha' hb']
      simp [ha, hb]
  | interestName c =>
    intro h fuel i hf
    cases fuel with
    | zero => omega
    | succ f => exact create_name nc f i h
  | struct t inner =>
    intro h fuel i hf
    cases fuel with
    | zero => omega
    | succ f =>
      obtain ⟨⟨ht, ht'⟩, hi⟩ := h
      cases inner with
      | false =>
        have e : t ++ (if false = true then t!":nocopy" else []) = t := by simp
        exact create_struct nc f i (ann := t ++ if false = true then t!":nocopy" else []) (by rw [e]; exact ht) (by rw [e]; exact split_one ht') (by simp)
      | true => exact create_struct nc f i (ann := t ++ ':' :: t!"nocopy") (by simp) (split_two ht' (by decide)) (fun _ => hi rfl)
  | sequence t d ih =>
    intro h fuel i hf
    cases fuel with
    | zero => omega
    | succ f =>
      obtain ⟨ht, hd⟩ := h
      have hl : (d.rest.getD []).length < f := by
        have := rest_len (d := d)
        simp only [Desc.rest, Option.getD_some, List.length_append, List.length_cons] at hf
        omega
      exact create_seq nc f i rfl ht (ih hd f (2 * i + 1) hl)
  | map kt k vn vt v ih =>
    intro h fuel i hf
    cases fuel with
    | zero => omega
    | succ f =>
      obtain ⟨hk, hv, hn, ho, hd⟩ := h
      have hl : (v.rest.getD []).length < f := by
        have := rest_len (d := v)
        simp only [Desc.rest, Option.getD_some, List.length_append, List.length_cons] at hf
        omega
      have hne : v.rest.getD [] ≠ t!"optional" := by
        intro e
        cases hr : v.rest with
        | none => rw [hr] at e; exact absurd e (by decide)
        | some a =>
          rw [hr] at e
          simp only [Option.getD_some] at e
          have := ho v.word (by rw [text_eq, hr, e])
          exact word_colon v this
      cases f with
      | zero => omega
      | succ f => exact create_map nc (f + 1) i rfl hk hv hn (ih hd (f + 1) (2 * i + 1) hl) (create_key nc f _ k hne)

/-- **C89, comments**: every description is read as it was meant, in whatever orders Go goes through the table of classes -/
theorem C89_description_partial {ord : Nat → List (Txt × Kind)} (h : ∀ i, (ord i).Perm classTable) (nc : Bool) (name : Txt) (num : Nat) (d : Desc)
    (hd : d.Ok nc) : parseField ord nc name num d.text = some ⟨name, d.num num, d.means nc⟩ := by
  rw [parseField_order h]
  have hf : (d.rest.getD []).length < d.text.length + 1 := by have := rest_len (d := d); omega
  simp only [parseField, cut_text, create_desc nc d hd _ 0 hf, Option.map_some]
  cases d <;> rfl

/-- a map whose values are structs, in a sequence in a model with `nocopy` -/
example : (Desc.map t!"uint64" .nat (.hex (8, false) [(7, false)]) t!"[]*Inner" (.sequence t!"*Inner" (.struct t!"Inner" true))).Ok true := by
  refine ⟨by decide, by decide, by decide, ?_, by decide, ⟨by decide, by decide⟩, fun _ => rfl⟩
  intro w h
  have h2 := congrArg List.reverse h
  rw [List.reverse_append] at h2
  have h3 : ((Desc.sequence t!"*Inner" (.struct t!"Inner" true)).text.reverse).head? = some 'y' := by decide +kernel
  rw [h2] at h3
  exact absurd h3 (by simp)

example : (Desc.map t!"uint64" .nat (.hex (8, false) [(7, false)]) t!"[]*Inner" (.sequence t!"*Inner" (.struct t!"Inner" true))).text =
    t!"map:uint64:natural:0x87:[]*Inner:sequence:*Inner:struct:Inner:nocopy" := by decide +kernel

/-! ## Structs -/

theorem doc_skip {ind c : Txt} (h : Other ind c) (l : List Txt) : parseDoc ind (c :: l) = parseDoc ind l := by
  simp only [parseDoc, List.isPrefixOf_iff_prefix]
  rw [if_neg h.1, if_neg h.2]

theorem doc_none (ind : Txt) : ∀ (l : List Txt), (∀ c ∈ l, Other ind c) → parseDoc ind l = []
  | [], _ => rfl
  | c :: l, h => by
    rw [doc_skip (h c (by simp))]
    exact doc_none ind l fun x hx => h x (List.mem_cons_of_mem _ hx)

theorem doc_found (ind : Txt) (c : Txt) (after : List Txt) : ∀ (l : List Txt), (∀ c ∈ l, Other ind c) → parseDoc ind (l ++ c :: after) = parseDoc ind (c :: after)
  | [], _ => rfl
  | x :: l, h => by
    rw [List.cons_append, doc_skip (h x (by simp))]
    exact doc_found ind c after l fun x hx => h x (List.mem_cons_of_mem _ hx)

theorem doc_here (ind s : Txt) (space : Bool) (after : List Txt) :
    parseDoc ind (((if space then t!"// +" else t!"//+") ++ ind ++ ':' :: s) :: after) = s := by
  have e : ∀ p : Txt, p ++ ind ++ ':' :: s = (p ++ ind ++ [':']) ++ s := by intro p; simp
  cases space with
  | false =>
    simp only [Bool.false_eq_true, if_false]
    rw [e]
    simp only [parseDoc, List.isPrefixOf_iff_prefix]
    rw [if_pos (List.prefix_append _ _), List.drop_left]
  | true =>
    simp only [if_true]
    rw [e]
    simp only [parseDoc, List.isPrefixOf_iff_prefix]
    rw [if_neg (by simp [List.cons_prefix_cons]), if_pos (List.prefix_append _ _), List.drop_left]

theorem asWritten_perm (i : Nat) : (asWritten i).Perm classTable := List.Perm.refl _

theorem text_ne (d : Desc) : d.text ≠ [] := by
  intro h
  have := rest_len (d := d)
  rw [h] at this
  simp at this

theorem fieldOf_desc {nc : Bool} {f : FieldDesc} (h : f.Ok nc) : fieldOf asWritten nc f.source = f.means nc := by
  obtain ⟨hn, hd, hb⟩ := h
  have htag : parseTag (f.source.tag) = (f.num.map Numeral.value).getD 0 := by
    simp only [FieldDesc.source]
    cases h : f.num with
    | none => rfl
    | some n => exact C89_tag n (hn n h) ['`']
  cases hdesc : f.desc with
  | none =>
    have : parseDoc t!"field" f.source.doc = [] := by
      simp only [FieldDesc.source, hdesc]
      exact doc_none _ _ hb
    simp only [fieldOf, this, FieldDesc.means, hdesc]
    simp [FieldDesc.source]
  | some d =>
    have hdoc : parseDoc t!"field" f.source.doc = d.text := by
      simp only [FieldDesc.source, hdesc]
      rw [doc_found _ _ _ _ hb]
      have := doc_here t!"field" d.text f.space f.after
      cases hs : f.space <;> (rw [hs] at this; exact this)
    have e : fieldOf asWritten nc f.source = parseField asWritten nc f.name (parseTag f.source.tag) d.text := by
      simp only [fieldOf, hdoc, if_neg (text_ne d)]
      rfl
    rw [e, htag, C89_description_partial asWritten_perm nc _ _ d (hd d hdesc)]
    simp only [FieldDesc.means, hdesc, Option.map_some]

theorem options_read : ∀ (l : List MOpt) (o : Opts), processOptions o (l.map MOpt.text) =
    some ⟨o.priv || decide (.priv ∈ l), o.noCopy || decide (.noCopy ∈ l), o.dict || decide (.dict ∈ l), o.ordered || decide (.ordered ∈ l)⟩
  | [], o => by simp [processOptions]
  | x :: l, o => by
    have ih := options_read l
    cases x <;> simp [processOptions, processOption, MOpt.text, ih]

theorem optsOf_desc (m : ModelDesc) (h : ∀ c ∈ m.before, Other t!"tlv-model" c) :
    optsOf m.source.doc = some ⟨decide (.priv ∈ m.opts), decide (.noCopy ∈ m.opts), decide (.dict ∈ m.opts), decide (.ordered ∈ m.opts)⟩ := by
  by_cases ho : m.opts = []
  · have : parseDoc t!"tlv-model" m.source.doc = [] := by
      simp only [ModelDesc.source, if_pos ho]
      exact doc_none _ _ h
    simp [optsOf, this, ho]
  · have hdoc : parseDoc t!"tlv-model" m.source.doc = join ',' (m.opts.map MOpt.text) := by
      simp only [ModelDesc.source, if_neg ho]
      rw [doc_found _ _ _ _ h]
      exact doc_here t!"tlv-model" _ true []
    have hne : m.opts.map MOpt.text ≠ [] := by simpa using ho
    have hc : ∀ a ∈ m.opts.map MOpt.text, ',' ∉ a := by
      intro a ha
      obtain ⟨x, _, rfl⟩ := List.mem_map.1 ha
      cases x <;> decide
    have hs := split_join ',' hne hc
    have hj : join ',' (m.opts.map MOpt.text) ≠ [] := by
      intro e
      cases hm : m.opts with
      | nil => exact ho hm
      | cons x l =>
        rw [hm] at e
        cases l with
        | nil => cases x <;> simp [join, MOpt.text] at e
        | cons y l => simp [join] at e
    simp only [optsOf, hdoc, if_neg hj, hs, options_read]
    simp

theorem filterMap_eq {α β : Type} {f g : α → Option β} : ∀ (l : List α), (∀ x ∈ l, f x = g x) → l.filterMap f = l.filterMap g
  | [], _ => rfl
  | a :: l, h => by
    simp only [List.filterMap_cons, h a (by simp), filterMap_eq l fun x hx => h x (List.mem_cons_of_mem _ hx)]

/-- **C89, structs**: from a struct whose fields are described in comments the generator makes the model that is meant: the fields that are described, in
their order, with the numbers of their tags, and the options -/
theorem C89_model_partial {ord : Nat → List (Txt × Kind)} (h : ∀ i, (ord i).Perm classTable) (m : ModelDesc) (hb : ∀ c ∈ m.before, Other t!"tlv-model" c)
    (hf : ∀ f ∈ m.fields, f.Ok (decide (.noCopy ∈ m.opts))) : processDecl ord m.source = .ok m.means := by
  rw [processDecl_order h]
  have hfields : (m.fields.map FieldDesc.source).filterMap (fieldOf asWritten (decide (.noCopy ∈ m.opts))) =
      m.fields.filterMap (FieldDesc.means (decide (.noCopy ∈ m.opts))) := by
    rw [List.filterMap_map]
    exact filterMap_eq _ fun f hm => fieldOf_desc (hf f hm)
  have ho := optsOf_desc m hb
  have hsp : m.source.specs = [⟨m.name, some (m.fields.map FieldDesc.source)⟩] := rfl
  simp only [processDecl, hsp, ho, hfields, ModelDesc.means]
  split <;> rfl

/-- a struct with a number, a field that is not for the generator, and an optional time -/
def sample : ModelDesc where
  name := t!"Sample"
  before := [t!"// Sample is a sample."]
  opts := [.noCopy, .priv]
  fields := [
    ⟨t!"A", some (.hex (1, false) [(11, false)]), some (.natural false), [t!"// A is a number"], [], false⟩,
    ⟨t!"b", none, none, [], [], false⟩,
    ⟨t!"C", some (.dec 0 [0, 0]), some (.time true), [], [t!"// in milliseconds"], true⟩]

example : processDecl asWritten sample.source =
    .ok (some ⟨t!"Sample", ⟨true, true, false, false⟩, [⟨t!"A", 0x1b, .natural false⟩, ⟨t!"C", 100, .time true⟩]⟩) := by
  rw [C89_model_partial asWritten_perm sample]
  · exact congrArg Res.ok (by decide +kernel)
  · intro c hc
    simp only [sample, List.mem_singleton] at hc
    subst hc
    exact ⟨by decide +kernel, by decide +kernel⟩
  · intro f hf
    simp only [sample, List.mem_cons, List.not_mem_nil, or_false] at hf
    rcases hf with rfl | rfl | rfl
    · refine ⟨fun n hn => ?_, fun d hd => ?_, fun c hc => ?_⟩
      · cases hn; decide
      · cases hd; trivial
      · simp only [List.mem_singleton] at hc
        subst hc
        exact ⟨by decide +kernel, by decide +kernel⟩
    · exact ⟨fun n hn => (nomatch hn), fun d hd => (nomatch hd), fun c hc => (nomatch hc)⟩
    · refine ⟨fun n hn => ?_, fun d hd => ?_, fun c hc => (nomatch hc)⟩
      · cases hn; decide
      · cases hd; trivial

/-- the outcome never depends on the order in which Go goes through its map, for any text at all -/
theorem C89_deterministic {ord ord' : Nat → List (Txt × Kind)} (h : ∀ i, (ord i).Perm classTable) (h' : ∀ i, (ord' i).Perm classTable)
    (ds : List DeclSrc) : processAll ord ds = processAll ord' ds := by
  rw [processAll_order h, processAll_order h']

example : ∃ l : List (Txt × Kind), l.Perm classTable ∧ l.find? (fun p => p.1.isPrefixOf t!"struct") = some (t!"struct", .struct) ∧ l ≠ classTable :=
  ⟨classTable.reverse, List.reverse_perm _, by decide +kernel, by decide +kernel⟩

/-! ## The library -/

open Ndn.Codec.Schema

/-- the schema that is generated for a type of a package -/
def generated (ord : Nat → List (Txt × Kind)) (src : List DeclSrc) (n : Txt) : Option Fields :=
  match processAll ord src with
  | .ok ms => resolve ms ms.length n
  | _ => none

/-- the same for a type that ends with a map -/
def generatedMap (ord : Nat → List (Txt × Kind)) (src : List DeclSrc) (n : Txt) : Option MapMsg :=
  match processAll ord src with
  | .ok ms => resolveMap ms ms.length n
  | _ => none

deriving instance DecidableEq for MapMsg

/-- **C89, the library**: the schemas that the other properties are about are the ones that the generator makes of the declarations in the packages -/
theorem C89_library {ord : Nat → List (Txt × Kind)} (h : ∀ i, (ord i).Perm classTable) :
    [t!"KeyLocator", t!"Links", t!"MetaInfo", t!"ValidityPeriod", t!"CertDescriptionEntry", t!"CertAdditionalDescription", t!"SignatureInfo",
        t!"NetworkNack", t!"CachePolicy", t!"LpPacket"].map (generated ord specSource) ++
      [t!"Strategy", t!"ControlArgs", t!"ControlResponseVal", t!"ControlParameters", t!"ControlResponse"].map (generated ord mgmtSource) ++
      [t!"StateVectorEntry", t!"StateVector", t!"StateVectorAppParam"].map (generated ord syncSource) ++
      [t!"FaceEventNotificationValue", t!"FaceEventNotification", t!"GeneralStatus", t!"FaceStatus", t!"FaceStatusMsg", t!"FaceQueryFilterValue",
        t!"FaceQueryFilter", t!"Route", t!"RibEntry", t!"RibStatus", t!"NextHopRecord", t!"FibEntry", t!"FibStatus", t!"StrategyChoice",
        t!"StrategyChoiceMsg", t!"CsInfo", t!"CsInfoMsg"].map (generated ord mgmtSource) ++
      [t!"CaProfile", t!"CmdNewInt", t!"CmdNewData", t!"CipherMsg", t!"ErrorMsgData"].map (generated ord certSource) ++
      [t!"StateVecEntry", t!"StateVec", t!"StateVecAppParam"].map (generated ord svsSource) ++
      [t!"IDType", t!"Record"].map (generated ord crdtSource) = library.map some ∧
    [t!"ProbeIntAppParam", t!"ChallengeIntPlain", t!"ChallengeDataPlain"].map (generatedMap ord certSource) = libraryMaps.map some ∧
    generated ord demosecSource t!"EncryptedContent" = some Ndn.Schema.encryptedContent ∧
    [t!"MetaData", t!"ManifestDigest", t!"ManifestData"].map (generated ord rdrSource) =
      [some Ndn.Schema.metaData, some Ndn.Schema.manifestDigest, some Ndn.Schema.manifestData] ∧
    generated ord certSource t!"ProbeRes" = some probeRes ∧ generated ord mgmtSource t!"CsQuery" = none := by
  have e1 : generated ord = generated asWritten := by funext src n; simp only [generated, processAll_order h]
  have e2 : generatedMap ord = generatedMap asWritten := by funext src n; simp only [generatedMap, processAll_order h]
  rw [e1, e2]
  decide +kernel

/-- the model of a type -/
def modelOf (ord : Nat → List (Txt × Kind)) (src : List DeclSrc) (n : Txt) : Option TModel :=
  match processAll ord src with
  | .ok ms => ms.find? fun m => m.name == n
  | _ => none

/-- **C89, packets**: `Interest`, `Data` and `Packet` are ordered or not, and have the fields with the numbers, that their parsers in
`Verif/Packet/Parse.lean` have; the fields are of the classes below -/
theorem C89_packets {ord : Nat → List (Txt × Kind)} (h : ∀ i, (ord i).Perm classTable) (ic : Bool) (fuel : Nat) :
    ∃ int data packet, modelOf ord specSource t!"Interest" = some int ∧ modelOf ord specSource t!"Data" = some data ∧
      modelOf ord specSource t!"Packet" = some packet ∧
      int.fields.map Field.num = (Packet.interestSlots ic fuel).map Packet.Slot.typ ∧
      data.fields.map Field.num = (Packet.dataSlots ic fuel).map Packet.Slot.typ ∧
      packet.fields.map Field.num = Packet.packetTypes ∧
      (int.opts = ⟨true, true, false, true⟩ ∧ data.opts = ⟨true, true, false, true⟩ ∧ packet.opts = ⟨true, true, false, false⟩) ∧
      data.fields.map Field.cls = [.arg t!"enc.Wire", .offset true, .name, .struct t!"MetaInfo" false, .wire true, .struct t!"SignatureInfo" false,
        .signature t!"sigCoverStart" t!"sigCovered" true] ∧
      int.fields.map Field.cls = [.arg t!"enc.Wire", .arg t!"enc.Wire", .interestName t!"sigCovered", .bool, .bool, .struct t!"Links" false,
        .fixedUint 4 true, .time true, .fixedUint 1 true, .offset true, .offset true, .wire true, .struct t!"SignatureInfo" false,
        .signature t!"sigCoverStart" t!"sigCovered" true, .range t!"digestCoverStart" t!"digestCovered" true] ∧
      packet.fields.map Field.cls = [.struct t!"Interest" true, .struct t!"Data" true, .struct t!"LpPacket" true] := by
  have e1 : modelOf ord = modelOf asWritten := by funext src n; simp only [modelOf, processAll_order h]
  have hi : (Packet.interestSlots ic fuel).map Packet.Slot.typ = [0, 0, 0x07, 0x21, 0x12, 0x1e, 0x0a, 0x0c, 0x22, 0, 0, 0x24, 0x2c, 0x2e, 0] := rfl
  have hd : (Packet.dataSlots ic fuel).map Packet.Slot.typ = [0, 0, 0x07, 0x14, 0x15, 0x16, 0x17] := rfl
  rw [e1, hi, hd]
  exact ⟨(modelOf asWritten specSource t!"Interest").getD ⟨[], {}, []⟩, (modelOf asWritten specSource t!"Data").getD ⟨[], {}, []⟩,
    (modelOf asWritten specSource t!"Packet").getD ⟨[], {}, []⟩, by decide +kernel, by decide +kernel, by decide +kernel, by decide +kernel,
    by decide +kernel, by decide +kernel, by decide +kernel, by decide +kernel, by decide +kernel, by decide +kernel⟩

/-! ## What is not said

The generator does not say anything about the following, or only in its log. -/

/-- a tag that is missing, is not of the form `tlv:"…"`, does not have the form of a number or is too large gives the number 0, for which the parser has no
case; `8B` and `0x` are such numbers.  `ProbeRes.MaxSuffixLength` has no tag. -/
theorem C89_tag_violated :
    parseTag none = 0 ∧ parseTag (some t!"`tlv:\"8B\"`") = 0 ∧ parseTag (some t!"`tlv:\"0x\"`") = 0 ∧ parseTag (some t!"`tlv:\"\"`") = 0 ∧
    parseTag (some t!"`tlv: \"0x8B\"`") = 0 ∧ parseTag (some t!"`tlv:\"0x10000000000000000\"`") = 0 ∧
    ((modelOf asWritten certSource t!"ProbeRes").map fun m => m.fields.map Field.num) = some [7, 0] := by decide +kernel

theorem digitsVal_octal : ∀ (ds : List (Fin 8)) (acc : Nat),
    digitsVal 8 acc (ds.map fun d : Fin 8 => digitChar d.1 false) = some (ds.foldl (fun (a : Nat) (d : Fin 8) => a * 8 + d.1) acc)
  | [], _ => rfl
  | d :: ds, acc => by
    have h := digitVal_char ⟨d, by omega⟩ false
    simp only at h
    simp only [List.map_cons, digitsVal, h, List.foldl_cons, if_pos d.2]
    exact digitsVal_octal ds _

/-- a decimal number with a zero in front is taken as octal -/
theorem C89_octal_violated (d : Fin 8) (ds : List (Fin 8)) (h : ds.foldl (fun (a : Nat) (d : Fin 8) => a * 8 + d.1) d.1 < 2 ^ 64) :
    parseUint0 ('0' :: (d :: ds).map fun d : Fin 8 => digitChar d.1 false) = some (ds.foldl (fun (a : Nat) (d : Fin 8) => a * 8 + d.1) d.1) := by
  have hv : parseBase 8 ((d :: ds).map fun d : Fin 8 => digitChar d.1 false) = some (ds.foldl (fun (a : Nat) (d : Fin 8) => a * 8 + d.1) d.1) := by
    simp only [parseBase, digitsVal_octal, List.foldl_cons, Nat.zero_mul, Nat.zero_add, if_pos h]
  have hc : ∀ d : Fin 8, let c := digitChar d.1 false; ¬ (c = 'b' ∨ c = 'B') ∧ ¬ (c = 'o' ∨ c = 'O') ∧ ¬ (c = 'x' ∨ c = 'X') := by decide +kernel
  obtain ⟨h1, h2, h3⟩ := hc d
  cases ds with
  | nil => simpa [parseUint0] using hv
  | cons e ds =>
    simp only [List.map_cons] at hv ⊢
    simp only [parseUint0, ne_eq, not_true_eq_false, if_false]
    rw [if_neg h1, if_neg h2, if_neg h3, hv]

example : parseTag (some t!"`tlv:\"0100\"`") = 64 ∧ parseTag (some t!"`tlv:\"08\"`") = 0 := by decide +kernel

/-- any other word for the width of a fixed number is taken for the width 0 -/
theorem C89_width_violated {ord : Nat → List (Txt × Kind)} (h : ∀ i, (ord i).Perm classTable) (nc : Bool) (name : Txt) (num : Nat) (w : Txt) (hw : Word w)
    (hn : ∀ v : Width, w ≠ v.text) : parseField ord nc name num (t!"fixedUint:" ++ w) = some ⟨name, num, .fixedUint 0 false⟩ := by
  rw [parseField_order h]
  have hc : cut ':' (t!"fixedUint:" ++ w) = (t!"fixedUint", some w) := cut_some w (a := t!"fixedUint") (by decide)
  have hz : fixedWidth w = 0 := by
    have h1 := hn .byte
    have h2 := hn .uint16
    have h3 := hn .uint32
    have h4 := hn .uint64
    simp only [Width.text] at h1 h2 h3 h4
    simp [fixedWidth, h1, h2, h3, h4]
  have := create_fixed nc (t!"fixedUint:" ++ w).length 0 hw.1 (split_one hw.2)
  rw [hz] at this
  simp only [parseField, hc, Option.getD_some]
  simp only [Kind.word] at this
  rw [this]
  rfl

example : Word t!"uint8" ∧ ∀ v : Width, t!"uint8" ≠ v.text := ⟨⟨by decide, by decide⟩, fun v => by cases v <;> decide⟩

/-- whatever else is written behind `natural:` – `Optional`, `optional ` – makes the field mandatory -/
theorem C89_option_violated {ord : Nat → List (Txt × Kind)} (h : ∀ i, (ord i).Perm classTable) (nc : Bool) (name : Txt) (num : Nat) (o : Txt)
    (ho : o ≠ t!"optional") : parseField ord nc name num (t!"natural:" ++ o) = some ⟨name, num, .natural false⟩ := by
  rw [parseField_order h]
  have hc : cut ':' (t!"natural:" ++ o) = (t!"natural", some o) := cut_some o (a := t!"natural") (by decide)
  have := create_key nc (t!"natural:" ++ o).length 0 .nat ho
  simp only [keyText, keyMeans] at this
  simp only [parseField, hc, Option.getD_some, this]
  rfl

/-- whatever is written behind the word of a class is accepted: `names` is `name` -/
theorem C89_class_violated {ord : Nat → List (Txt × Kind)} (h : ∀ i, (ord i).Perm classTable) (nc : Bool) (name : Txt) (num : Nat) (s : Txt)
    (hs : ':' ∉ s) : parseField ord nc name num (t!"name" ++ s) = some ⟨name, num, .name⟩ := by
  rw [parseField_order h]
  have hc : cut ':' (t!"name" ++ s) = (t!"name" ++ s, none) := cut_none (by simp [hs])
  have hf : classTable.find? (fun p => p.1.isPrefixOf (t!"name" ++ s)) = some (t!"name", .name) := by
    have hm : (t!"name", Kind.name) ∈ classTable := by decide
    have hp : (t!"name").isPrefixOf (t!"name" ++ s) = true := List.isPrefixOf_iff_prefix.2 (List.prefix_append _ _)
    cases hx : classTable.find? (fun p => p.1.isPrefixOf (t!"name" ++ s)) with
    | none => rw [List.find?_eq_none] at hx; exact absurd hp (hx _ hm)
    | some y =>
      have hy : (fun p : Txt × Kind => p.1.isPrefixOf (t!"name" ++ s)) y = true :=
        List.find?_some (p := fun p : Txt × Kind => p.1.isPrefixOf (t!"name" ++ s)) hx
      rw [table_unique (List.mem_of_find?_eq_some hx) hm hy hp]
  simp only [parseField, hc, createField, asWritten, hf, Option.map_some]
  rfl

/-- the options of the values of a map are also given to its keys: the key is optional, too -/
theorem C89_map_violated : parseField asWritten false t!"M" 0x85 t!"map:uint64:natural:0x87:*uint64:natural:optional" =
    some ⟨t!"M", 0x85, .map t!"uint64" (.natural true) 0x87 t!"*uint64" (.natural true)⟩ := by decide +kernel

/-- a field whose comment cannot be understood is left out, and the model is generated without it -/
theorem C89_unknown_violated (ord : Nat → List (Txt × Kind)) (nc : Bool) (f : FieldSrc) (before after : List FieldSrc)
    (name : Txt) (hu : ∀ n num, parseField ord nc n num (parseDoc t!"field" f.doc) = none) (doc : List Txt) (o : Opts) (ho : optsOf doc = some o)
    (hnc : o.noCopy = nc) :
    processDecl ord ⟨doc, [⟨name, some (before ++ f :: after)⟩]⟩ = processDecl ord ⟨doc, [⟨name, some (before ++ after)⟩]⟩ := by
  have hf : fieldOf ord nc f = none := by
    simp only [fieldOf]
    cases f.names with
    | nil => rfl
    | cons n _ =>
      simp only
      split
      · rfl
      · exact hu _ _
  simp only [processDecl, ho, hnc, List.filterMap_append, List.filterMap_cons, hf]

example : ∀ n num, parseField asWritten false n num (parseDoc t!"field" [t!"//+field:natrual"]) = none := by
  intro n num
  have hd : parseDoc t!"field" [t!"//+field:natrual"] = t!"natrual" := by decide +kernel
  have hc : createField asWritten false (t!"natrual".length + 1) 0 (cut ':' t!"natrual").1 ((cut ':' t!"natrual").2.getD []) = none := by decide +kernel
  rw [hd]
  simp only [parseField, hc, Option.map_none]

/-- of several types in parentheses only the first is seen, however the others are described, and of several names of a field only the first -/
theorem C89_group_violated {ord : Nat → List (Txt × Kind)} (h : ∀ i, (ord i).Perm classTable) (m : ModelDesc)
    (hb : ∀ c ∈ m.before, Other t!"tlv-model" c) (hf : ∀ f ∈ m.fields, f.Ok (decide (.noCopy ∈ m.opts))) (others : List ModelDesc)
    (f : FieldDesc) (nc : Bool) (hok : f.Ok nc) (names : List Txt) :
    processDecl ord ⟨m.source.doc, m.source.specs ++ others.flatMap (fun o => o.source.specs)⟩ = .ok m.means ∧
    fieldOf ord nc ⟨f.name :: names, f.source.tag, f.source.doc⟩ = f.means nc := by
  refine ⟨?_, ?_⟩
  · rw [← C89_model_partial h m hb hf]
    rfl
  · rw [← fieldOf_desc hok, fieldOf_order h]
    rfl

/-- an option of a model that is not known makes the generator panic, as do parentheses with nothing in between -/
theorem C89_model_panics (ord : Nat → List (Txt × Kind)) (name : Txt) (fs : List FieldSrc) :
    processDecl ord ⟨[t!"// +tlv-model:private, nocopy"], [⟨name, some fs⟩]⟩ = .panic ∧ processDecl ord ⟨[], []⟩ = .panic := by
  have : optsOf [t!"// +tlv-model:private, nocopy"] = none := by decide +kernel
  simp [processDecl, this]

end Ndn.Codec.Gen
