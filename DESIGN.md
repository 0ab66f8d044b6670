# Design

Formal model of `zjkmxy/go-ndn` (source read from `/repo`, never built) in Lean 4.33, with machine-checked
proofs of the properties in `properties.jsonl` (C01-C60 as given, later ones added here).  `MANIFEST.json` maps each property to theorem names.

## Trusted base

* Lean's kernel.
* Axioms: at most `propext`, `Classical.choice`, `Quot.sound` (Lean/Mathlib standard).  No axiom of our own, no
  `sorry`, no `native_decide`, no `bv_decide`, no `implemented_by`, no `unsafe`.
* The hand translation of Go into Lean.  Every definition that models code cites file and lines.  Nothing checks
  this translation mechanically; the mutation log (`seeded/LOG.jsonl`) records edits to the model that the theorems
  detect.

## How Go is modelled

* `[]byte`/`Buffer`/`string` = `List UInt8` (text is bytes, indexed as Go does); slices are values with capacity = length, so aliasing
  between a slice and its backing array is not modelled, except in C77 and C79 (`Go/Slice`: arrays, offsets, capacities and `append`).  Where the code patches a buffer in place the model rewrites the list.
* `uint64` = `Nat` with an explicit `< 2^64` hypothesis where a value enters, and explicit `% 2^64` where code wraps;
  `int(l)` is `toInt`/`wrap64` on `Int` (two's complement), because hostile lengths >= 2^63 matter.  (`wrap64` is declared `opaque` together with
  its defining equation; this only keeps the kernel from unfolding it, nothing is assumed.)
* `make` of 2^48 bytes or more panics (`maxAlloc`); a process that runs out of memory earlier is not modelled.
* A Go call has one of the outcomes `ok v`, `err e`, `panic`; loops that may not end take fuel and give `none` when it is used up, and
  termination theorems say that some fuel suffices (or none does).  An index out of range, a nil dereference or a bad `make` is a
  `panic` outcome, never a totalised default.
* Goroutines, timers and locks: state machines over explicit steps; a schedule is a list of steps; a timer that has
  fired but waits for the lock is a separate state.
* Cryptographic functions are parameters (arbitrary functions with the stated length); nothing is assumed about them
  except what a theorem says.

## Simplifications, by area

* **Readers and codec**: the generated parsers are modelled on `BufferReader` (all faces give the engine `enc.NewBufferReader`); C07 relates
  `WireReader` to it.  The encoder is the one-buffer encoder; for `nocopy` messages the wire is the list of its pieces.  Time texts are opaque.
  Nil elements of sequences of structs are excluded.  Bounds of the form "under 8 TiB" (2^43) keep lengths away from `maxAlloc`.
* **Engine**: callbacks do not re-enter the engine (C84 is about those that do); handlers are non-nil; times are unbounded (in nanoseconds), except where overflow is the point
  (C39).  SHA-256 is an arbitrary function to 32 bytes.
* **Dummy timer**: closures are labels whose effect is a list of further operations; no lock.
* **Stream face**: reads give non-empty pieces; a packet is a TLV element with shortest-form numbers of at most 2^48 bytes.
* **Heap**: priorities form a strict weak order (so no NaN).
* **SVS**: the name hash is an arbitrary function of the bytes hashed; timer durations and the scheduling of goroutines are not modelled; making and
  expressing the sync Interest succeeds.
* **Schema tree**: built first (C66, C67), then attached, and no node is added afterwards; nodes are addresses.  Events: listeners are arbitrary functions that return.
  Expressing: the outcomes of storage, `MakeInterest` and `Send` are inputs; a goroutine that only calls a callback runs at once.  Memory storage: every
  order of map iteration.  RDR: `NeedChan` gives one result.  Sync node: after `onAttach`; a full channel only delays (C85 has the channel and the goroutines).
* **Security**: one goroutine per signer.
* **Shared document**: the linked list is a list; replicas have different producer numbers (the example uses the port number, so two hosts with the same
  port break this).

Not modelled at all: the WebAssembly, WebSocket, UDP and Unix-socket glue of the faces, logging, the command line tools and examples other than the
shared document, the text of error values, the code generator's templates as text (their output is modelled by the
interpreter, their input by `Codec/Front` from names, tags and comments, not from Go text), the JSON parser of schema descriptions and the attachment of event callbacks by name, data races.

## Per property

Format: status, modules (under `lean/Verif/`), method; then what holds and what is missing.  The theorem names are in `MANIFEST.json`
(prefixed with the property's number; `_partial`: restricted; `_violated`, `_panics`, `_diverges`: the failure of the full claim, proved on a
concrete execution of the model).

**C01 — TLV number round trip** (proved).  `Enc/Prim`, `Enc/Reader`.  Method: round trip by case split on the four widths, big-endian lemmas.

**C02 — TLV number encoding is canonical, prefix-free and order preserving** (proved).  `Enc/Prim`.  Method: shortest form against a minimality specification over all accepted strings; prefix-freeness and order by width cases.

**C03 — Decoding a TL number from arbitrary bytes is total** (proved).  `Enc/Prim`, `Enc/Reader`.  Method: case analysis of the first byte and the remaining length.

**C04 — Natural number round trip** (proved).  `Enc/Prim`.  Method: width cases; the rejection by length.

**C05 — ShrinkLength yields the same element with a smaller length** (proved).  `Enc/Prim`.  Method: in-place rewrite of a list; cases on the widths before and after.

**C06 — BufferReader reads exactly the underlying bytes** (proved).  `Enc/Reader`, `Enc/ReaderRun`.  Method: invariant by induction over call lists.  C06_readBuf_negative_panics shows why the non-negativity hypothesis is needed.

**C07 — WireReader behaves like a BufferReader over the joined bytes** (partial).  `Enc/WireReader`, `Enc/ReaderClient`.  Method: refinement of `WireReader` to `BufferReader` for every adaptive client (a strategy tree); counterexamples.  The code violates the full property (empty buffers, zero-length reads at the end, Range); proved for all adaptive clients when no later buffer is empty. Range is characterised for every non-empty range: right when it lies in one or two buffers or starts in the first (C07_range_partial), otherwise a panic or lost bytes (C07_range_middle_violated).

**C08 — Delegate is equivalent to Skip followed by Range** (partial).  `Enc/WireReader`, `Enc/ReaderClient`.  Method: refinement of `WireReader` to `BufferReader` for every adaptive client (a strategy tree); counterexamples.  Proved when enough bytes remain; for over-long lengths the code returns an empty reader and does not move.

**C09 — Name component binary round trip** (partial).  `Enc/Name`.  Method: round trip and exact characterisation by induction over the name; fuel for the loops, with a bound that is proved sufficient.  Length claim for all components; round trip through ComponentFromBytes, ParseComponent and ReadComponent for values up to 252 bytes. For every longer value the claim is false (length written as Nat instead of TLNum), proved.

**C10 — Name binary round trip** (partial).  `Enc/Name`.  Method: round trip and exact characterisation by induction over the name; fuel for the loops, with a bound that is proved sufficient.  Exact characterisation: the round trip holds iff all values and the whole name are at most 252 bytes; injectivity on those names; a pair of different names with equal bytes.

**C11 — Decoding a component or name from arbitrary bytes never crashes** (partial).  `Enc/Name`.  Method: round trip and exact characterisation by induction over the name; fuel for the loops, with a bound that is proved sufficient.  Termination for all inputs; a panic happens only at a length field of at least 2^62; ten bytes that crash the decoder.

**C12 — Component.Compare is a total order that agrees with Equal** (proved).  `Enc/Name`, `Enc/OrderLemmas`.  Method: order laws from a three-valued comparison specification (`IsCompare`); canonical order against the lexicographic order of bytes.

**C13 — Name.Compare is the NDN canonical order** (proved).  `Enc/Name`, `Enc/OrderLemmas`.  Method: order laws from a three-valued comparison specification (`IsCompare`); canonical order against the lexicographic order of bytes.

**C14 — IsPrefix is the prefix order on names** (proved).  `Enc/Name`, `Enc/OrderLemmas`.  Method: order laws from a three-valued comparison specification (`IsCompare`); canonical order against the lexicographic order of bytes.

**C15 — Component text form round trip** (proved).  `Enc/Name` (string forms, patterns).  Method: character-level round trips by induction; the panicking strings characterised.  The full claim, and which bytes are escaped and how (C15_escaping). C15_conventions: the text of each named convention (seg, off, v, t, seq, params-sha256, sha256digest) is its marker, '=' and the decimal number (Nat.toDigits 10) or two lower-case hexadecimal digits per byte.

**C16 — Name URI round trip and injectivity** (partial).  `Enc/Name` (string forms, patterns).  Method: character-level round trips by induction; the panicking strings characterised.  Round trip for types 1..65535 with shortest-form numbers, injectivity for all types with shortest-form numbers; counterexamples outside.

**C17 — Parsing names and patterns from text never crashes** (partial).  `Enc/Name` (string forms, patterns).  Method: character-level round trips by induction; the panicking strings characterised.  Exactly which strings panic; counterexamples to the full claim.

**C18 — Pattern matching and instantiation are inverse** (proved).  `Enc/Name` (string forms, patterns).  Method: character-level round trips by induction; the panicking strings characterised.

**C19 — Generated TLV codec round trip** (partial).  `Codec/*`: the code generator as an interpreter over field descriptors; `Codec/Schemas` lists the schemas in the repository.  Method: mutual induction over schema and value, so that every present and future generated message type is covered; parse loops with fuel and a proved bound.  Every schema and value; partial because name components are limited to 252 bytes (a longer one breaks the round trip: C19_long_component_violated) and messages to 8 TiB.

**C20 — The encoder's length pass equals what the encode pass writes** (proved).  `Codec/*`: the code generator as an interpreter over field descriptors; `Codec/Schemas` lists the schemas in the repository.  Method: mutual induction over schema and value, so that every present and future generated message type is covered; parse loops with fuel and a proved bound.

**C21 — Unrecognised non-critical fields are ignored, critical ones rejected** (proved).  `Codec/*`: the code generator as an interpreter over field descriptors; `Codec/Schemas` lists the schemas in the repository.  Method: mutual induction over schema and value, so that every present and future generated message type is covered; parse loops with fuel and a proved bound.  Insertion at any depth; messages under 8 TiB whose name components have at most 252 bytes.

**C22 — Interest and Data parsing ignores unrecognised non-critical fields** (partial).  `Packet/Parse`, `Packet/Spec`: the ordered parsers of Interest and Data as generated, slot by slot.  Method: loop invariants over the element list; specification by an independent element-wise reading.  The code violates the claim: an unrecognised element between neighbouring fields loses the second one. Proved for every placement that takes up no round of the parser that a later field needs; and, for elements in order with unrecognised ones anywhere, exactly when the result is unchanged and when a field is lost.

**C23 — Parsing any packet terminates** (partial).  `Codec/*`: the code generator as an interpreter over field descriptors; `Codec/Schemas` lists the schemas in the repository.  Method: mutual induction over schema and value, so that every present and future generated message type is covered; parse loops with fuel and a proved bound.  The code violates the claim (ten bytes on which every parser loops); termination is proved for buffers without TLV numbers of 2^43 or more, for all generated parsers and for ReadPacket, ReadInterest, ReadData.

**C24 — Parsing any packet never panics** (partial).  `Codec/*`: the code generator as an interpreter over field descriptors; `Codec/Schemas` lists the schemas in the repository.  Method: mutual induction over schema and value, so that every present and future generated message type is covered; parse loops with fuel and a proved bound.  The code violates the claim (twelve bytes on which ReadPacket panics); no panic is proved for buffers without TLV numbers of 2^43 or more.

**C25 — A truncated nested element is rejected** (partial).  `Codec/*`: the code generator as an interpreter over field descriptors; `Codec/Schemas` lists the schemas in the repository.  Method: mutual induction over schema and value, so that every present and future generated message type is covered; parse loops with fuel and a proved bound.  The code violates the claim for nested messages without required fields; proved that a truncated nested message is rejected if and only if it has a required field.

**C26 — Interest parameters digest binds the parameters** (partial).  `Packet/Parse`, `Packet/Spec`: the ordered parsers of Interest and Data as generated, slot by slot.  Method: loop invariants over the element list; specification by an independent element-wise reading.  The code violates the claim: an element out of order behind the parameters ends the bytes that are hashed, and unrecognised elements before the parameters make the parser skip the start marker, so that nothing at all is hashed whatever the parameters are. Proved for Interests with elements in order and no unrecognised element before the parameters. C26_any_partial: every byte string with one Interest whose elements are in order, whatever their values and the form of their numbers, with unrecognised elements anywhere except where they take the round of a later element or of the start marker.

**C27 — MakeData then ReadData round trip with the same signed bytes** (partial).  `Packet/Encode`, `Packet/Make`, `Packet/MakeData`.  Method: encoder and in-place signature patch, composed with the parser theorems.  The code violates the claim: a freshness that is not whole milliseconds is rounded, and with an estimate of 253 bytes or more only the last byte of the length is corrected. Proved for whole milliseconds, components up to 252 bytes and signature lengths that differ from the estimate in the last byte of the encoded length only (always so below 253). C27_any_freshness_partial: every freshness of 64 bits comes back cut to whole milliseconds, all else unchanged.

**C28 — MakeInterest then ReadInterest round trip with the same signed bytes and a valid digest** (partial).  `Packet/MakeInterest`.  Method: encoder, signature, digest and length patches, composed with the parser theorems.  MakeInterest (encoder, signature patch, digest patch, length shrink) followed by ReadInterest returns final name, options, parameters, signature and the signed bytes, for nonce < 2^32, hop limit < 256, whole-millisecond lifetime, signature time within int64 nanoseconds, components of at most 252 bytes, and a hash of 32 bytes. Violated otherwise: nonce 2^32 comes back as 0; the key name of a digest signer is dropped. C28_any_lifetime_partial: every lifetime of 64 bits comes back cut to whole milliseconds.

**C29 — Signed bytes determine the Data** (partial).  `Packet/Parse`, `Packet/Spec`: the ordered parsers of Interest and Data as generated, slot by slot.  Method: loop invariants over the element list; specification by an independent element-wise reading.  The code violates the claim for unsigned Data and for two Data in one buffer. Proved for every buffer with one Data that has a signature value, whatever the order, repetition or recognition of the elements inside.

**C30 — Attached prefixes stay prefix-free and failed attaches change nothing** (partial).  `Engine/Trie`, `Engine/Fib`.  Method: refinement of the trie to a set of names, invariants by induction over histories.  The trie is keyed by component text, so components whose number is not in shortest form collide (witness); prefix-freeness holds for every history, the exact attach condition for names with shortest-form numbers.

**C31 — An Interest is dispatched to the handler of its attached prefix** (partial).  `Engine/Trie`, `Engine/Fib`.  Method: refinement of the trie to a set of names, invariants by induction over histories.  Same restriction to shortest-form numbers; violated otherwise.

**C32 — Detaching a prefix affects only that prefix** (partial).  `Engine/Trie`, `Engine/Fib`.  Method: refinement of the trie to a set of names, invariants by induction over histories.  The code violates the claim: detaching an interior node without handler succeeds and drops others; the root keeps its handler.

**C33 — The callback of an expressed Interest is called at most once** (partial).  `Engine/Pit`, `Engine/PitSteps`: PIT, timers and lock as a state machine; a schedule is any list of steps.  Method: invariants over all schedules; counterexample schedules executed in the model.  onNack does not clear the entries it answers; proved for all schedules without a Nack for the Interest's name, violated with one (three witnesses).

**C34 — Every expressed Interest gets a result** (proved).  `Engine/Pit`, `Engine/PitSteps`: PIT, timers and lock as a state machine; a schedule is any list of steps.  Method: invariants over all schedules; counterexample schedules executed in the model.  All schedules; lifetime plus the 10 ms margin, every due timer has fired and run. Callbacks do not re-enter the engine.

**C35 — Data is only delivered to Interests it satisfies** (partial).  `Engine/Pit`, `Engine/PitSteps`: PIT, timers and lock as a state machine; a schedule is any list of steps.  Method: invariants over all schedules; counterexample schedules executed in the model.  Violated by an Interest with a digest and CanBePrefix, and by non-shortest numbers.

**C36 — Data that satisfies nothing leaves pending Interests alone** (partial).  `Engine/Pit`, `Engine/PitSteps`: PIT, timers and lock as a state machine; a schedule is any list of steps.  Method: invariants over all schedules; counterexample schedules executed in the model.  Violated: unsolicited Data unlinks pending Interests; exact effect characterised for all schedules.

**C37 — The name trie implements a map from names** (partial).  `Engine/Trie`.  Method: refinement to a finite map by induction over operations.  Deleting an interior name removes its extensions, and non-shortest numbers collide (witnesses).

**C38 — Incoming packet dispatch** (partial).  `Engine/Dispatch`.  Method: decision logic down to the bytes received and sent.  Dispatch proved on bytes: bare Interest/Data, link packets with any extra fields and unknown elements, Nack, fragmented, empty, nested, malformed. Missing because the code violates it: Nack header with reason 0 is handled as a received Interest; a TLV whose length exceeds the buffer is not dropped; some buffers panic or never return; an Interest behind a Data is handed on unchecked.

**C39 — Replies respect the deadline, the face state and the PIT token** (partial).  `Engine/Dispatch`.  Method: decision logic down to the bytes received and sent.  Reply proved for every deadline, time, face state, token and packet, down to the bytes sent. Missing because the code violates it: lifetimes of 2^63 ns or more overflow and make Reply refuse at once.

**C40 — The test timer fires every due event exactly once** (partial).  `Engine/DummyTimer`.  Method: invariant over operations whose callbacks again schedule and cancel; counterexamples.  Holds for every sequence of top-level operations (callbacks may schedule and cancel). The code loses events scheduled by a callback, fires events cancelled by a callback, lets a second cancel hit another event, and recurses without end when a callback moves the time (all proved).

**C41 — Stream face framing** (proved).  `Engine/Stream`.  Method: induction over the packets and the reads.  Any packets (TLV elements with shortest-form numbers and total size at most 2^48), any split of the byte stream into non-empty reads, complete or cut tail. C41_not_shortest records that an element with a longer-than-necessary type number is delivered re-encoded; such bytes are not a packet in the sense of the theorem.

**C42 — The heap keeps its order and loses nothing** (proved).  `Util/Heap`.  Method: heap algorithms over an abstract lawful container; heap invariant, permutation, index invariant.  container/heap algorithms over an abstract lawful interface; the order is any strict weak order

**C43 — Priority queue entries keep their identity and order** (partial).  `Util/Heap`.  Method: heap algorithms over an abstract lawful container; heap invariant, permutation, index invariant.  Push returns a copied index, not a reference that follows the item: after another push the returned index can denote another item (C43_reference_violated). Priority order, contents and updates through a live index are proved.

**C44 — SVS sequence numbers never go backwards** (partial).  `Sync/Svs`.  Method: invariants over histories against a specification by maxima; C48 composes the codec theorems.  Holds for every history except that IncrSeqNo wraps from 2^64-1 to 0 (negation proved).

**C45 — SVS reports every new sequence number exactly once** (partial).  `Sync/Svs`.  Method: invariants over histories against a specification by maxima; C48 composes the codec theorems.  Holds for every remote producer whose name hash no other name shares. State is keyed by a hash that ignores component boundaries: two distinct names collide for every hash function, and their ranges get mixed (negation proved).

**C46 — SVS state is the join of everything received** (partial).  `Sync/Svs`.  Method: invariants over histories against a specification by maxima; C48 composes the codec theorems.  Join and order independence need distinct hashes and numbers below 2^64; convergence of any number of nodes (C46_exchange) holds without restriction. Collision negation proved.

**C47 — SVS suppression never hides news** (partial).  `Sync/Svs`.  Method: invariants over histories against a specification by maxima; C48 composes the codec theorems.  Coverage is per name hash (names with colliding hashes are taken for one another). A publication starts a send; in every schedule in which the main loop runs on and no number wraps, a goroutine waits to send until one has run, and the first one that runs sends a vector with the published number or a greater one (C47_publication_sent_partial).

**C48 — State vector encoding round trip** (partial).  `Sync/Svs`.  Method: invariants over histories against a specification by maxima; C48 composes the codec theorems.  Components of at most 252 bytes (encoder bug for longer ones, C19_long_component_violated); parser modelled on BufferReader.

**C49 — Schema Match and Apply are inverse** (partial).  `Schema/Tree`.  Method: induction over the tree and the name.  Match and Apply of the schema tree are inverse for trees whose sibling edges do not clash and paths without repeated or digest tags; fails for repeated tags, for tags named like the digests, and for edges that are digest components (witnesses).

**C50 — Event listeners run in order, once each** (proved).  `Schema/Event`.  Method: induction over the history, against a list specification.  For every history of Add, Remove and dispatches and for callbacks that do anything, including adding and removing callbacks.

**C51 — Unvalidated packets never reach the application** (partial).  `Schema/Express`.  Method: decision logic composed with the engine invariants.  Proved for Data, and for Interests with parameters, a signature value (checked Interest) or a signature type below 2^64-1; an Interest with SignatureInfo of type 2^64-1 is not validated (witness on bytes).

**C52 — Need calls its callback exactly once** (partial).  `Schema/Express`.  Method: decision logic composed with the engine invariants.  Exactly one invocation in every schedule of the engine if Send succeeds and no Nack for the name comes; two invocations if Send fails (NeedChan then panics) or after a Nack; MemStoragePolicy panics on a Data without FreshnessPeriod.

**C53 — Memory storage answers only what was asked** (partial).  `Schema/MemStore`.  Method: invariant over histories, every order of map iteration.  Every history of puts, every order of map iteration; CanBePrefix is ignored by the code (witness).

**C54 — Segmentation preserves content** (partial).  `Schema/Rdr`.  Method: induction over the buffers, and over the outcomes of fetches.  All claims hold for every content in any buffers in which no byte comes after an empty buffer, and every segment size > 0 with length + size <= 2^64. The code violates the rest: bytes after an empty buffer are lost, size 0 panics, a huge size overflows and gives no segment.

**C55 — The segment fetcher reassembles the content or reports failure** (partial).  `Schema/Rdr`.  Method: induction over the buffers, and over the outcomes of fetches.  Whatever the fetches give: a success is the concatenation of segments 0..n, each the first Data received within the limit; a failure means all trials of a segment failed. Returning without panic needs final block ids (or a manifest); the code panics on a Data without FinalBlockID and never returns if no segment names itself as final.

**C56 — Schema SVS node never loses a sequence number of its own** (partial).  `Schema/SvsNode`.  Method: invariants over histories of received vectors, timer expirations and publications.  For every producer other than the node: monotone, equal to the greatest number received, ranges contain each number up to the recorded one exactly once (if 2^64-1 is never received). For the node itself only if no vector claims more for it than it published. The code violates the rest: a hostile vector raises the node's own number, which then goes back; the range end overflows at 2^64-1; a malformed content panics.

**C57 — Validators accept what the matching signers produce** (partial).  `Security/Signers`.  Method: decision logic over arbitrary hash functions and a signature scheme with a correctness contract, composed with C27 and C28.  Signers and validators modelled over arbitrary SHA-256/HMAC functions and an arbitrary signature scheme with a correctness contract. SHA-256, HMAC and ECDSA packets validate after Make and re-read; a changed signature or type is rejected. The RSA signer reports the ECDSA type, so its own packets fail RsaValidate (proved). Partial: sizes below the codec bounds, packets read from one buffer.

**C58 — Signed Interests of one signer never repeat a sequence number** (partial).  `Security/Signers`.  Method: decision logic over arbitrary hash functions and a signature scheme with a correctness contract, composed with C27 and C28.  Sequence numbers of the SHA-256 and ECDSA Interest signers strictly increase until the uint64 counter wraps (wrap proved); the HMAC Interest signer never increments (proved) and puts the key into the packet as key name (proved). Partial: one goroutine per signer, fewer than 2^64 signatures.

**C59 — Shared document replicas converge** (partial).  `Crdt/*`.  Method: `Crdt/Order` gives the arrangement of a document without the insertion loop (`DocOrder`) and proves it unique; the loop is shown to keep it (`scan_placed`, `insert_scan`), and an invariant over all edits and deliveries does the rest.  Full convergence of the text CRDT for any number of replicas, edits and ready delivery orders, as long as no call panics and fewer than 2^64 steps are made; the text is that of all insertions handled, each once, without those deleted. Handling does panic (nil Origin read in InsertInto, proved for a causal order); proved not to panic for deletions, insertions at the very beginning, and when no two insertions were made at the very beginning. A record handled twice is shown twice; a record that is not ready can block the queue for good (both proved).

**C60 — Name pattern text round trip** (partial).  `Enc/Name` (string forms, patterns).  Method: character-level round trips by induction; the panicking strings characterised.  The code loses a trailing empty component.

**C61 — A missing required field is reported** (proved).  `Codec/*`: the code generator as an interpreter over field descriptors; `Codec/Schemas` lists the schemas in the repository.  Method: mutual induction over schema and value, so that every present and future generated message type is covered; parse loops with fuel and a proved bound.  For every model without the ordered option, a required field missing at any position and any number of them; and with none missing the same message is accepted.

**C62 — Schema SVS suppression never hides news** (proved).  `Schema/SvsNode`.  Method: invariants over histories of received vectors, timer expirations and publications.  Every history; timer durations not modelled.

**C63 — Signer policies accept exactly the packets that verify** (partial).  `Schema/Policies`.  Method: decision logic composed with the dispatch of events (C50), the handling of Interests and Data (C51, C52) and the packet round trips (C27).  What is handed on was verified by some policy and found forged by none; conversely, what none finds forged is handed on if the policy attached last is one for its type of signature. Missing: the converse for any order. It is false: a later policy that keeps silent overrides an earlier one that passes (`C63_order_violated`), so two policies on a node accept or refuse the same Data depending on their order. What MakeData signs with a policy's signer is accepted by that policy.

**C64 — Demo trust: keys are chained to an anchor, and exactly Data signed by the right key passes** (partial).  `Schema/DemoSec`.  Method: invariant over all stores that the calls can make, composed with the round trip of Data (C27); decision logic for the policy.  The chain to an anchor holds (components of at most 252 bytes, certificates under 8 TiB), also composed with the policy, and so do the decisions of the policy when the Data matches the tree and its tags give a key name. False in the code: an enrolled certificate names itself instead of the key that signed it; a key that is enrolled again is never found; a Data that the tree does not match, or whose tags do not give a key name, crashes the policy.

**C65 — Content that was encrypted is decrypted to itself** (partial).  `Schema/DemoSec`.  Method: induction over the blocks for a block cipher with a correctness contract, composed with the codec (C19).  The round trip holds for every content under 4 TiB and every correct block cipher; keys of the wrong size are refused. False in the code: an initialisation vector of another length than 16, or a length greater than the content, crashes the reader; decryption overwrites the received packet, so a second decryption gives something else. With the capacity of a slice beyond its length (not modelled) a length that is too great can also reveal bytes behind the content. C65_keys: exactly keys of 16, 24 or 32 bytes decrypt.

**C66 — A node put into a schema tree is found at its path and nothing else moves** (proved).  `Schema/Build`.  Method: the tree as a map from paths to descriptions; induction over the path and over the order of the nodes.  Every tree, path and created subtree. Creating a node does not panic (the descriptions' Create functions are inputs).

**C67 — A schema description gives one tree** (partial).  `Schema/Build`.  Method: the tree as a map from paths to descriptions; induction over the path and over the order of the nodes.  Exactly which orders work, and the nodes of the result in terms of the set of nodes. The code violates the claim: a node and a node below it can only be put in one order, so that instantiating panics at random; and with overlapping edges a name is matched to one or the other node at random. Proved otherwise. Attributes, events and policies are not modelled.

**C68 — Map fields of generated messages come back** (partial).  `Codec/Map`.  Method: the two passes over two permutations of one list of entries; induction over the entries with the parser as a fold.  Proved: the length pass and the write pass agree for any two iteration orders; a parsed map maps each key to the last value written for it; a map with distinct keys and non-nil values comes back. The full claim is false: an entry with a nil value is written as a bare key, which the parser then refuses. An unknown element between a key and its value is refused even when it could be ignored.

**C69 — Management commands are carried out once and reported truthfully** (partial).  `Engine/Mgmt`.  Method: the command through the round trips C19 and C28; the exchange as a small-step system of caller, lock and channel with an invariant over all schedules, tied to the PIT by C33 and C34.  Proved: for parameters of at most 252 bytes the forwarder reads back the name, the arguments and the signature; success is reported exactly for status code 200 under an accepted signature; with one callback and a face that sends, the caller gets the first answer and the lock is freed. The full claim is false: longer parameters (for instance the route of a long prefix) are written as a component that does not decode; when the face fails to send, the callback blocks forever with the PIT locked; a second callback (after a Nack, C33) sends on a closed channel and panics.

**C70 — Objects published with versions or manifests come back** (partial).  `Schema/Object`.  Method: name matching of the nodes, the metadata and manifest through C19, the segments through C54 and an induction over the pipeline; integrity by comparing digests.  Proved for every content that is not empty and every network that delivers what was published within the retries, for both kinds of object; with the published manifest a success is the published content unless a received packet has the digest of a different published one. The property fails for RdrNode: a given version panics unless the name of the node has only empty components of type 0, metadata that cannot be read or that names no node panics, metadata naming another object is reported as a success without content, metadata naming the object itself is fetched for ever. An empty content is never delivered; with a manifest anybody can forge it. Metadata naming the metadata itself is returned as the object (C70_metadata_violated).

**C71 — Every message type of the library survives encoding and parsing** (partial).  `Codec/Library`.  Method: well-formedness of each declared schema, then the generic theorems C19 and C68; the exception by C21.  Proved for all 45 message types without maps and the 3 with maps, for messages shorter than 2^43 bytes with values in range (name components of at most 252 bytes). Fails for ProbeRes of NDNCERT: MaxSuffixLength has no tlv tag, so it is written as an element of type 0 that the parser refuses or, with ignoreCritical, drops.

**C72 — Structs and dictionaries convert into each other** (partial).  `Codec/Dict`, `Engine/Mgmt`.  Method: induction over the fields of an arbitrary schema; what ToDict stores, then what DictTo reads.  Proved for every schema of supported fields: DictTo succeeds exactly on the agreeing dictionaries and its error names the field at fault; there and back for structs without nested struct. Fails whenever a nested struct is set (ToDict stores a dictionary, DictTo wants a pointer), so the arguments of a strategy-choice command do not survive. Sequence, time and wire fields are excluded: the generator emits invalid code or nothing for them. Entries under other names are ignored. Fields of time and wire class never reach the dictionary nor come back (C72_unsupported_violated; no struct of the library that is converted has one).

**C73 — Attributes of a schema description reach the fields they name** (partial).  `Schema/Attr`.  Method: case analysis of each Set, induction over the attributes in any order, mutual induction over nested values; the tables of classes by evaluation.  The code violates the claim in four ways: a name given as text is refused if valid and set to the empty name without error if invalid (inverted test); no JSON number is accepted for a ContentType, so Instantiate panics; a time.Duration is refused, and CreateSvsNode ignores that, so its sync Interests keep a lifetime of 4 s instead of 1 s; a JSON number in a pattern is dropped without error. Proved for all other values, with the substitution of the environment, the safety of every Set, and the tables of all classes. A negative time is taken and read back as an enormous number. C73_defaults: the value each constructor leaves in each property before anything is set; C73_time_get_negative: a negative duration reads back as a wrapped number of milliseconds; C73_svs_lifetime_violated: the SVS node's lifetime default.

**C74 — Local edits of the shared document act at the offset in the text** (partial).  `Crdt/Doc`, `Crdt/EditProps`.  Method: induction over the steps of ItemAt, counting visible items.  Holds for every document whose first item is not deleted, and at the front always. Fails once the first item is deleted, because ItemAt counts the first item whether deleted or not (crdt.go:161-172): C74_offset_violated gives the wrong item for every offset.

**C75 — SVS answers a vector that lacks something** (partial).  `Sync/Svs`, `Sync/AnswerProps`.  Method: folds over the entries of the vector; the recorded times as a function of the history.  Holds for vectors in which no two entries have the same hash and which do not both lack a name and have an entry that is too small. Fails for those: missing names are looked for only if no entry is too small (svs.go:216-224), so that a vector lacking a name known for long is dropped if it also has a recently outdated entry (C75_missing_violated). Durations of the timer are not modelled.

**C76 — Hashes of names** (partial).  `Enc/FullName`.  Method: induction over the name; unique splitting of the hashed bytes.  PrefixHash is proved for every name.  The code violates the second half: the length of a value is not hashed, so every name of two or more components has a partner that hashes alike under every hash function (C76_hash_violated); different bytes are hashed for different names without zero bytes in their values, and for names whose values have the same lengths.

**C77 — Full names** (partial).  `Enc/FullName`.  Method: a memory of arrays with slices of given capacity; appending in place or to a new array; the generated parser's allocation.  The value returned is proved for every slice and memory.  The code violates the rest: it appends in place when the slice has spare room, which every name read by a generated parser has (C77_parsed_spare), so that a second call changes the first result (C77_shared_violated); nothing changes for names from Clone and NameFromStr (C77_tight, C77_frame_partial).  The empty name panics.

**C78 — Number components** (proved).  `Enc/FullName`.  Method: big-endian lemmas; width cases.

**C79 — Attaching and detaching a schema tree** (partial).  `Schema/Attach`, `Go/Slice`.  Method: mutual induction over the tree with the arrays of the paths; invariant over histories.  Attach and Detach do what they should for every tree and every growth of the arrays of the paths, and a whole history is safe and complete if the tree is attached only while detached and detached only while no Interest waits for its lock. Violated by the code: errors of attach listeners are dropped; an Attach refused by the engine leaves all nodes attached and Detach then does nothing; Detach does not forget the engine, so a second one fires all events again and removes somebody else's handler; an Interest handed over before Detach and run after it panics; attaching at a second prefix strands the first handler.

**C80 — Starting and stopping SVS** (partial).  `Sync/Life`.  Method: transition system of the goroutines; invariants over all schedules.  For every schedule the vectors reach the main loop in order and at most once. With one Start before one Stop, and no handler goroutine left when the channel is closed, nothing panics, Stop can complete and nothing is heard after it. Violated by the code: a late handler, a second Stop and a Start after Stop panic; Stop from onUpdate and Stop after a failed Start block for ever (the latter removing another handler); queued vectors may be lost at Stop; the first Sync Interest may be skipped.

**C81 — What a leaf node provides answers the requests for it** (partial).  `Schema/Leaf`.  Method: invariant over all runs: what each storage holds is the log of the saves; composed with C53 and C27.  Proved for all runs: the packet answers, Need gives back name, content and metadata (restrictions of C27), expiry, nothing else is answered, a failed MakeData stores nothing. The claim fails: an Interest with an implicit digest is answered with a packet of another digest, MustBeFresh is judged by the validity of the node and not by FreshnessPeriod, Provide panics before the tree is attached or with a storage applied after that. Storages other than MemStoragePolicy are not modelled.

**C82 — Opening, closing and using a face from several goroutines** (partial).  `Engine/Face`, `Engine/FaceProps`.  Method: small-step model of the goroutines; invariants by induction over the interleaving, ranking of Run, log equality for order; failures by concrete executions and by invariants over all continuations.  Proved for all interleavings: one Run on the current connection, Start, order of delivery, no writes and at most one more packet after Shutdown, Run ends within five of its steps, Start succeeds once Run has ended. Whole packets are proved when no connection is dialled in the midst of a Send. The code violates the rest: a packet split over two connections with Send returning nil, a nil connection dereferenced in Send and in Close, Start refused right after Shutdown, a packet delivered after Shutdown, lost connections never closed, and WebSocketFace.Run looping for ever on a lost connection.

**C83 — The store of keys and certificates finds what it holds** (partial).  `Security/Pib`, `Security/PibProps`.  Method: tables as lists of rows, queries as filters; both directions by uniqueness of names; loops by induction; the chain by composition with C27 and C57.  Proved for names whose lengths are below 253 (the others are never found: C83_long_violated). C83_chain_partial is for elliptic-curve keys (RSA keys sign under the wrong type, C57) with the hypotheses of C27. The code violates the rest: the name inside a certificate and its key locator are not compared with anything, so SelfSignedCert may give a certificate signed by another key; an identity gives out any key. The hash of key names is a parameter; two key names share a file exactly if their hashes are equal.

**C84 — The locks of the engine, the tree, the storages and the sync node never block for ever** (partial).  `Engine/Locks`, `Engine/LocksProps`.  Method: programs of lock operations; invariant by induction over schedules; ranks of locks for progress, a measure for termination; stuck states for the negations.  Proved for every set of goroutines whose callbacks given to Engine.Express do not themselves use the PIT, the storages or the tree, and whose attach and detach listeners do not change the tree. The code violates the rest: onData, onNack and the timeout call the callback with the PIT locked, so a callback that expresses another Interest stops the engine for ever (C84_reentrant_violated); a listener of OnAttach that puts a node into its tree never returns (C84_attach_violated). Channels are in C85 and C82.

**C85 — The sync node lives through attaching, running and detaching** (partial).  `Schema/SvsLife`, `Schema/SvsLifeProps`.  Method: small-step semantics of the goroutines; invariant by induction over schedules; refinement to `Schema/SvsNode`; schedules as witnesses.  Proved in full while the tree stays attached and vectors parse (C56 has the panic for one that does not). The code violates the rest: a reader of the channel that publishes first may wait for ever together with the handler that waits for room in the channel; after Detach a late Sync Interest sends on the closed channel and a late timer uses the detached node; Detach twice closes the channel twice; Attach makes the lock anew while a goroutine may hold it; a listener of OnMissingData meets an unfinished function that panics.

**C86 — A request reaches the handler and its reply reaches the callback** (partial).  `Engine/Exchange`, `Engine/ExchangeLemmas`, `Engine/ExchangeProps`.  Method: composition of C28, C38, C31, C39, C27 with a completeness proof of the pending table: an entry stays until Data that satisfies it passes its node.  The whole chain is proved: encoders, link packets, parsers, dispatch, table of handlers, reply, table of pending Interests, for any history of the consumer before the Interest.  Between Express and the Data, everything is allowed that leaves the pending Interest in the table (`Quiet`: other calls of Express, time, timers that fire, Data below that does not satisfy it, Data and Nacks elsewhere, timeouts of other nodes); it fails without that: Data that nobody asked for unlinks the Interest, and no callback is called for the right Data (`C86_unsolicited_violated`).  Values are restricted as in C27 and C28, names to numbers in shortest form as in C31.

**C87 — Policies reach the nodes they are meant for and are ready after attaching** (partial).  `Schema/Hooks.lean`, `Schema/HooksProps.lean`.  Method: The listeners of the node at each address after all policies, by induction over the path of a policy and over the list of policies; attaching as one sequence of listeners, children first; permutation of the routes.  Proved: the listeners of every event of every node after applying any list of policies (C87_hooks), when applying panics (C87_applies_iff), when attaching panics (C87_attach_iff), and, if the program's own listeners of the attach events return nil, that every policy is ready and exactly the routes of the registration policies are registered. The code violates the claim in three ways: a listener that returns an error hides the listeners behind it while Attach reports success, so that a storage is left without timer and panics at the first packet (C87_error_violated); nodes put into the tree after a storage was applied are not covered by it (C87_late_violated); a certificate saved under a name that the key store already has is never found (C87_key_replace_violated). Attributes of policies are C73's concern, the listeners' answers C63's and C64's. C87_signers: a policy that signs Data is asked for a signer exactly at its own node if that is a leaf, and to validate exactly at its own node.

**C88 — What one program provides through a schema tree, another one gets with Need** (partial).  `Schema/Fetch`, `Schema/FetchProps`.  Method: composition of C81 (storage), C86 (exchange), C63 (policies) and C48 (matching) along one path; exact condition for the panic.  Proved for the whole path, with the events at the consumer that C36/C86 exclude. The code violates the last part: Refine gives nil for a Data below the needed name where the tree has no node, and a storage then dereferences it in a goroutine (C88_below_panics), as does a Data without FreshnessPeriod; C88_panics_iff gives the exact condition. C88_request says what NeedCallback sends when the caller gives no InterestConfig: the settings of the node, and only if neither storage nor suppression stops it.

**C89 — The code generator reads comments and tags as they are meant, and says so when it cannot** (partial).  `Codec/Front`, `Codec/Source`, `Codec/FrontLemmas`, `Codec/FrontProps`.  Method: grammar with printer and meaning; round trip by induction over descriptions; uniqueness of the matching class for every permutation of the table; evaluation of the generator on the copied declarations by the kernel.  Proved: every description of the grammar is read as it is meant, in every order of the class table; tags in decimal or hexadecimal give their number; structs give the model that is meant; the outcome does not depend on the order of the table for any text; from the declarations of the eight packages (copied into Codec/Source.lean) come exactly the schemas of Codec/Schemas, Codec/Library, Schema/Object and Schema/DemoSec, and the type numbers and classes of Interest, Data and Packet. Violated: what is not of the grammar is read as something else without an error: a missing or malformed tag as type 0 (ProbeRes.MaxSuffixLength), a number with a leading zero as octal, an unknown width as 0, an unknown option as none, a class with something behind it as the class; the options of a map's value also go to its key; a field that cannot be understood is left out of the code; further types of a group and further names of a field are ignored; an unknown model option panics.

**C90 — The statements that the code generator emits for the encoder write the bytes of the message** (partial).  `Codec/Emit`, `Codec/Run`, `Codec/Stands`, `Codec/RunReady`, `Codec/RunProps`, `Codec/GoText`, `Codec/Generated*`.  Method: templates produce statements; operational semantics of the statements; simulation by induction over classes and nesting; comparison of the text with the checked-in files in the kernel.  Model of the back end of the generator for the encoder (Verif/Codec/Emit.lean): the templates produce statements of a small language, whose text is the Go text. Verif/Codec/Run.lean gives the statements a semantics: local variables, members of encoders, uint64 arithmetic, slices with bounds checks, nil pointers that panic, calls of other encoders. C90_encode_partial: for every model and every Go value that stands for a message, running the statements of Init and EncodeInto gives exactly the bytes that the schema says (Verif/Codec/Spec.lean, defined without the templates). C90_represented: every message has such a Go value. C90_library_partial: for 49 types of the library, the encoder functions copied from the checked-in zz_generated.go files are, up to white space, the text that the generator writes for the declarations, and running them gives the bytes of every message. C90_nil_violated: a nil element of a sequence is left out without an error, so the claim that every element is written fails. Not covered: nocopy models (LpPacket, Interest, Data, Packet, EncryptedContent: their bytes are the subject of C08 and others), maps, and the emitted parsers.

**C91 — The statements that the code generator emits for the parser read what the schema says** (partial).  `Codec/EmitParse`, `Codec/RunParse`, `Codec/ParseSim`, `Codec/ParseFields`, `Codec/ParseModels`, `Codec/ParseLoop`, `Codec/ParseProps`, `Codec/GoTextParse`, `Codec/Parsers*`.  Method: templates produce statements; operational semantics of the statements on a reader; simulation by induction over classes, elements and nesting; composition with C19, C23 and C90; comparison of the text in the kernel.  The templates of the parser are modelled as statements whose text is compared with the checked-in parsers of 49 types (C91_library_partial). For every covered model, nesting and input the statements end as the parser of the schema (C91_parse_partial), a nil reader is refused, on input with small lengths they end with a value or with nil and an error, and what the emitted encoder writes is read back (C91_roundtrip_partial). Partial: the emitted loop does not end on ten particular bytes (C91_diverges), as C23 says. Not covered: ordered models, maps, signatures and markers, fields of type 0 (ProbeRes), readers other than BufferReader.

**C92 — The delays of SVS stay within their jitter and never panic the ticker** (proved).  `Sync/Timers`, `Sync/TimersProps`.  Method: delays as functions of the draw; error analysis over an arbitrary arithmetic with bounded relative error, using bounds of the real exponential.  The operations of float64 are a parameter of the model; Rounds says what is assumed of them (finite operands, results far from overflow and underflow, relative error at most 2^-45). The real numbers are one instance (exact_rounds).

**C93 — The handler gets every message at or above the level, with the fields of its entry and of no other** (proved).  `Util/Log`, `Util/LogProps`.  Method: refinement of slices and shared maps to paths of maps, by induction over the calls of a program.  Entries are slices over shared arrays (Go/Slice), maps are shared by reference. Refinement to a specification in which entries are paths of maps. Not modelled: time stamps, the text that %v gives, colours and padding. WithError is covered for errors without a stack trace or fields of their own (it is then WithField).

**C94 — The emitted encoder of a model with nocopy gives the bytes of the message without copying the caller's buffers** (partial).  `Codec/EmitNoCopy`, `Codec/RunNoCopy`, `Codec/NoCopyProps`, `Codec/GeneratedNoCopy`.  Method: statement language with text and meaning; simulation by induction over the fields; text equality by kernel computation.  The templates of a model with nocopy (plan of Init, EncodeInto over the wire, Encode) are modelled statement by statement with their Go text, and the statements are given a meaning with blocks of memory, slices of them and the caller's buffers. For every covered model and every message with at least one byte the encoder does not panic, the buffers together are Fields.enc, the caller's buffers are in the wire as given and in order, no other buffer is empty, and encoder.length is the total. A message without bytes panics at wire[0] (C94_empty_panics), which violates the full claim. The text is that of the checked-in encoders of LpPacket and EncryptedContent. Missing: structs with nocopy inside (Packet), sequences of wires, signatures and markers (Interest, Data).

**C95 — The emitted encoder of a model with a signature leaves one place for it and covers exactly the signed bytes** (partial).  `Codec/EmitSigned`, `Codec/RunSigned`, `Codec/SignedStages`, `Codec/SignedRunProps`, `Codec/GeneratedSigned`.  Method: statement language with text and meaning; simulation by induction over the fields in three stages (before the marker, signed, behind the signature); text equality by kernel computation.  The templates of signature fields, offset markers, range markers and arguments are modelled statement by statement with their Go text, on top of C94. For every model with one marker and a signature that starts there, every message and every estimated length: the encoder does not panic, leaves one empty buffer at encoder.f_wireIdx, and the bytes before and behind it and the covered parts are those of the schema; with a length of 0 there is no signature and nothing is covered. The text is that of the checked-in encoder of Data, for which the result is stated as the wire format of Data. Violated when a wire field is before the marker: encoder.start counts all bytes of the packet but is used as an index into one buffer, so the covered part silently lacks bytes (C95_marker_violated) or the encoder panics (C95_marker_panics); no model in the repository has that. Missing: several signatures in one model, structs with nocopy inside. The name field of Interest is C96.

**C96 — The emitted encoder of an Interest keeps a place for the digest and signs the name without it** (partial).  `Codec/EmitSigned`, `Codec/RunSigned`, `Codec/InterestRun`, `Codec/InterestProps`, `Codec/GeneratedInterest`.  Method: statement language with text and meaning; simulation of the run on the model with a plain name; text equality by kernel computation.  The template of the interestName field is modelled statement by statement with its Go text, on top of C95: Init takes a digest off the end of the name and appends one of zeros if told so; EncodeInto writes the components but the last, keeps the place of the digest, writes the last, and puts the name without the digest at the front of the covered part. For every model with such a name first, a marker and a signature, every name that is not nil, with or without a digest, every message, every estimated length, every signature and digest: with the signature at its index and the digest at its index and position the wire is the encoding of the message with the new digest, the covered part is the components without the digest and what is between marker and signature, and the caller's buffers are uncopied. Proved by running the encoder beside that of the model with a plain name (code_rel: statements that do not touch the name do the same on both). The text is that of the checked-in encoder of Interest, for which the result is stated as the wire format of Interest. Violated by a nil name (C96_nil_violated): it gets no digest, and no place for one, although it is needed. Missing: an Interest name after other fields; the change of the caller's value by Init is modelled, but not that the slice may share its memory with another name.

**C97 — The emitted encoder of Packet only puts a type and a length before an Interest, Data or LpPacket** (partial).  `Codec/EmitOuter`, `Codec/RunOuter`, `Codec/OuterLemmas`, `Codec/OuterRun`, `Codec/OuterWrap`, `Codec/OuterPlain`, `Codec/OuterProps`, `Codec/GeneratedOuter`.  Method: statement language with text and meaning; the run of the inner encoder on slices of the outer buffers computed for any inner encoder; text equality by kernel computation.  The template of a struct field with nocopy is modelled statement by statement with its Go text, on top of C95 and C96: Init runs the inner Init and joins the inner plan to its own; EncodeInto writes type and length, makes a wire of slices of its own buffers, the first one from where it has come to, and gives it to the inner EncodeInto; what the inner one appended or replaced goes back. For every model with only such fields, every value with one present, and whatever the inner encoder does (any model of C94 to C96): the wire is the inner wire with the header in its first buffer, indices, positions and covered bytes are those of the inner encoder on its own (C97_wrap_partial). The text is that of the checked-in encoder of Packet (C97_text). With C96, C95 and C94: for all Interests, Data and LpPackets, the wire is the TLV of the packet, once signature and digest are put where MakeInterest (with its two ParseTLNum of the first buffer) and MakeData put them, and the covered part is right. A value with none present panics (C97_none_panics: the plan is empty). With two present the index that the inner encoder tells is not that in the packet (C97_several_violated; no caller makes such packets). Missing: models with other fields beside such structs; the bytes with several present at once; a struct whose own encoding is empty, only by example (the idle LpPacket).

**C98 — The hand-written model of the packet encoders and the emitted code make the same buffers** (partial).  `Codec/AgreeProps`.  Method: both runs computed; the buffers compared by cases on which fields are present.  Two models of the same code are compared: that of Packet/Encode (written by hand, field by field, used by C27 and C28 for MakeData and MakeInterest) and that of C95 to C97 (the statements of the templates, the text of which is that of the checked-in encoders). For all Data and Interests whose length is below 2^61: the same list of buffers, the same index of the signature, the same position of the digest, and the same covered bytes (C98_data_partial, C98_interest_partial). As a consequence what MakeData does with a signature shorter than estimated gives the TLV of the Data also with the buffers of the emitted encoder (C98_short_partial). Missing: a Data with no field and no signature (the emitted encoder of Data panics on it; MakeData always has a name); the covered parts are compared by their bytes, not by how they are divided; names that are nil (C96_nil_violated).

**C99 — Functions of nodes called by name check their arguments, and a wait for a result ends** (partial).  `Schema/Call`, `Schema/CallProps`.  Method: refinement of the function tables to a table of signatures; witnesses.  Proved for all classes, names and lists of arguments: a call runs the method of this name with the arguments in their places and zero values for the rest exactly if they match the signature, otherwise it gives the right kind of error with the name of the first wrong parameter, and never panics (C99_calls). Violated: the value in the error is the first argument and not the wrong one except in SvsNode and ContentKeyNode; a segmented node or general object with an unknown Pipeline never gives a result to NeedChan, since the error is not looked at; SignedByPolicy with a key node without NeedChan panics when a Data with an HMAC signature comes; DataFetcher ignores its configuration and panics at nodes without NeedChan. With the known pipeline the channel gives one result and is closed. Not modelled: RdrNode.NeedChan over an unknown pipeline (as for general objects), what is logged.

**C100 — The parser that the code generator writes for ordered models reads each field once and in order** (partial).  `Codec/EmitOrdered`, `Codec/RunOrdered`, `Codec/ParsersOrdered`, `Codec/OrderedLemmas`, `Codec/OrderedOnce`, `Codec/OrderedProps`, `Codec/RunSpecial`, `Codec/SpecialLemmas`, `Codec/SpecialRun`, `Codec/SpecialFields`, `Codec/SpecialProps`.  Method: refinement of the emitted frame and fields to the hand-written model (simulation of slots); invariant of the loops; text comparison; witnesses.  Proved for all lists of fields with different names and numbers, all behaviours of the code of the fields and all buffers: running the Parse that the generator writes with `ordered` has the result of `ordParse` (C100_frame), so the models of the parsers of Interest and Data are runs of the emitted code (C100_packets), whose text is that of zz_generated.go line by line (C100_text); if there is a value, each field was read or skipped exactly once, fields were read in the order of the declaration, and markers and arguments were not read (C100_each_once); a nil reader gives an error (C100_nil). A critical element that is no field is refused at the start (C100_critical_partial), but not after a field out of its place, which is dropped silently (C100_critical_violated). An element that is no field takes the place of the next field, which is then not read although it is in order (C100_place_violated). For Interest and Data the code of the fields is run, too, plain ones, arguments, markers, signature and the name of an Interest, and the parsers of the models inside: for every input the outcome is that of the hand-written parsers, with the same members of the value, covered parts and place in the input, the same error, a panic, or no end (C100_library; the statements run are the lines written, C100_fields_text). Not modelled: sequences and maps in ordered models, which move `progress` back; ordered models with exported methods; readers other than BufferReader; where the reader stands after an error.

**C101 — The checked-in parser of Packet hands each element to the parser of its kind and reports covered bytes of that packet only** (partial).  `Codec/ParsersPacket`, `Codec/RunPacket`, `Codec/PacketLemmas`, `Codec/PacketRunProps`, `Codec/PacketRead`, `Codec/PacketTrip`.  Method: refinement of the emitted parser with shared contexts to the hand-written model (simulation of rounds); text comparison by evaluation; witness for the contexts.  Proved: the lines of zz_generated.go for the parser of Packet are what the generator writes, and running them on every input, with the emitted parsers of Interest, Data (frame and fields) and LpPacket inside and the contexts that are kept between elements, has the outcome of `parsePacket`: a value whose members and contexts stand for those of the model, the same error, a panic, or no end (C101_library); a nil reader gives an error (C101_nil). ReadData, ReadInterest and ReadPacket of spec.go, on these Go values and contexts, have for every input and hash function the outcome of the models with which the properties of packets are proved (C101_read). So they return on every buffer without TLV numbers of 2^43 or more (C101_total_partial), run forever on ten bytes (C101_diverges) and panic on twelve (C101_panics), and read back what MakeData and MakeInterest make as Go structs with the name, content or parameters, options and signature, and with the bytes that the signer got as covered (C101_data_round_trip_partial, C101_interest_round_trip_partial, under the assumptions of C27 and C28). The covered bytes are not determined by the packet returned: the context of Data is not reset, so for two Data in one buffer the code reports bytes as covered that leave out the name of the second one, whatever it is (C101_context_violated). Not compared: the contexts after an error and where the reader stands at the end. Calls inside sequences get stuck in this run; Packet has none. Readers other than BufferReader are not modelled.

## Further defects seen while reading, not stated as theorems

* `NamePropertyDesc.Set` tests `err != nil` the wrong way round; errors of `OnAttach` are ignored; `MatchedNode.Refine` may return nil and callers do not check.
* `examples/schema-test/shared-doc/main.go:270-273`: after a parse error the loop continues without unlocking `dataLock`.

## Mutation testing

`seeded/LOG.jsonl`: one line per edit of the model in a scratch copy, with the theorems that failed.  An entry with an empty `failed` list is an edit that
survived; its `tightened` field names the theorem that was strengthened (or added) so that the edit is now detected.
