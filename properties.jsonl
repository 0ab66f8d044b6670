{"id": "C01", "title": "TLV number round trip", "statement": "Encoding any TL number with TLNum.EncodeInto writes exactly EncodingLength() bytes, and decoding those bytes followed by any other bytes, with ParseTLNum or with ReadTLNum over a reader, gives back the same number and stops exactly after those bytes.", "quantifier": "every uint64 value and every trailing byte string", "why_tests_cant": "there are 2^64 values and unboundedly many suffixes; a test samples a few around the width boundaries", "anchors": ["pkg/encoding/primitives.go: TLNum.EncodingLength, TLNum.EncodeInto, ParseTLNum, ReadTLNum"]}
{"id": "C02", "title": "TLV number encoding is canonical, prefix-free and order preserving", "statement": "The bytes written for a TL number are the shortest byte string the decoder accepts for that number; the encodings of two different numbers are never prefixes of one another; and the smaller number always has the lexicographically smaller encoding.", "quantifier": "every pair of uint64 values and every byte string accepted by the decoder", "why_tests_cant": "it is a statement about all pairs of numbers and all alternative encodings", "anchors": ["pkg/encoding/primitives.go: TLNum.EncodeInto, ReadTLNum"]}
{"id": "C03", "title": "Decoding a TL number from arbitrary bytes is total", "statement": "ReadTLNum never panics on any input: it returns EOF on empty input, ErrUnexpectedEOF on input that stops inside the number, and otherwise a value below 2^64 after consuming 1, 3, 5 or 9 bytes; ParseTLNum panics exactly on the inputs on which ReadTLNum reports an error, and agrees with it on all others.", "quantifier": "every byte string", "why_tests_cant": "a fuzz run visits finitely many byte strings; truncation can happen at any offset of any width", "anchors": ["pkg/encoding/primitives.go: ReadTLNum, ParseTLNum"]}
{"id": "C04", "title": "Natural number round trip", "statement": "Nat.Bytes of any number has length 1, 2, 4 or 8, is the shortest such big-endian string, and ParseNat of it gives back the number; ParseNat rejects every buffer whose length is not 1, 2, 4 or 8 and never panics.", "quantifier": "every uint64 value and every byte string", "why_tests_cant": "2^64 values", "anchors": ["pkg/encoding/primitives.go: Nat.EncodingLength, Nat.EncodeInto, Nat.Bytes, ParseNat"]}
{"id": "C05", "title": "ShrinkLength yields the same element with a smaller length", "statement": "For a buffer holding a type number, a length number L in shortest form and any further bytes, ShrinkLength(buf, s) with s no larger than L returns a buffer that decodes to the same type, length L-s in shortest form, followed by exactly the same further bytes.", "quantifier": "every type number, every length number, every shrink amount up to the length, and every payload", "why_tests_cant": "the interesting cases are the crossings of the 1/3/5/9-byte length widths for every pair of widths", "anchors": ["pkg/encoding/primitives.go: ShrinkLength", "pkg/ndn/spec_2022/spec.go: Spec.MakeData, Spec.MakeInterest"]}
{"id": "C06", "title": "BufferReader reads exactly the underlying bytes", "statement": "For every sequence of ReadByte, Read, ReadBuf, ReadWire, Skip, Delegate, UnreadByte, Seek and Range calls on a BufferReader whose length arguments are non-negative and do not overflow an int when added to the position, no call panics, every successful read returns exactly the bytes of the buffer between the old and the new position, the position stays inside the buffer, and a failed call leaves the position unchanged.", "quantifier": "every buffer and every finite sequence of calls", "why_tests_cant": "an invariant over unboundedly long call sequences", "anchors": ["pkg/encoding/readers.go: BufferReader"]}
{"id": "C07", "title": "WireReader behaves like a BufferReader over the joined bytes", "statement": "Reading a packet held in several buffers gives the same results as reading the same packet held in one buffer: every sequence of reader calls returns the same bytes, positions and end-of-input errors on NewWireReader(w) as on NewBufferReader(w.Join()).", "quantifier": "every way of splitting a byte string into buffers (including empty ones) and every sequence of calls", "why_tests_cant": "the number of splits is exponential in the packet length; unit tests use one or two splits", "anchors": ["pkg/encoding/readers.go: WireReader", "pkg/encoding/types.go: ParseReader, Wire.Join"]}
{"id": "C08", "title": "Delegate is equivalent to Skip followed by Range", "statement": "As documented on ParseReader, r.Delegate(l) gives a reader over exactly the next l bytes and leaves r after them, and fails when fewer than l bytes remain, just as Skip does.", "quantifier": "every reader state and every length, including lengths larger than what remains", "why_tests_cant": "over-long lengths come from the network and can be any 64-bit number", "anchors": ["pkg/encoding/readers.go: BufferReader.Delegate, WireReader.Delegate", "pkg/encoding/types.go: ParseReader.Delegate"]}
{"id": "C09", "title": "Name component binary round trip", "statement": "For every component, Component.Bytes has length EncodingLength() and ComponentFromBytes (also ParseComponent, ReadComponent) of it gives back the same type and value.", "quantifier": "every component type number and every value of any length", "why_tests_cant": "unbounded value lengths; tests use short components", "anchors": ["pkg/encoding/name_component.go: Component.EncodeInto, Component.EncodingLength, Component.Bytes, ReadComponent, ParseComponent, ComponentFromBytes"]}
{"id": "C10", "title": "Name binary round trip", "statement": "For every name, NameFromBytes(name.Bytes()) succeeds and is Equal to name, and two different names never have the same encoding.", "quantifier": "every name of any number of components of any lengths", "why_tests_cant": "unbounded names; injectivity is a statement about all pairs", "anchors": ["pkg/encoding/name_pattern.go: Name.Bytes, Name.EncodeInto, Name.EncodingLength, ReadName, NameFromBytes"]}
{"id": "C11", "title": "Decoding a component or name from arbitrary bytes never crashes", "statement": "ComponentFromBytes and NameFromBytes, given any byte string, return either a value or an error; they never panic and always terminate.", "quantifier": "every byte string", "why_tests_cant": "hostile lengths are single points in a 2^64 space that random tests miss", "anchors": ["pkg/encoding/name_component.go: ReadComponent, ComponentFromBytes", "pkg/encoding/name_pattern.go: ReadName, NameFromBytes", "pkg/encoding/readers.go: BufferReader.ReadBuf"]}
{"id": "C12", "title": "Component.Compare is a total order that agrees with Equal", "statement": "Compare on components and patterns is reflexive, antisymmetric, transitive and total, returns 0 exactly when Equal returns true, and puts every component before every pattern.", "quantifier": "every triple of components and patterns", "why_tests_cant": "transitivity and totality range over all triples", "anchors": ["pkg/encoding/name_component.go: Component.Compare, Pattern.Compare, Component.Equal, Pattern.Equal"]}
{"id": "C13", "title": "Name.Compare is the NDN canonical order", "statement": "Name.Compare is a total order with Compare=0 exactly for Equal names, and it is the NDN canonical order: a precedes b exactly when the TLV encoding of a's components is lexicographically smaller than that of b.", "quantifier": "every pair (triple) of names whose types and lengths fit in 64 bits", "why_tests_cant": "agreement of two orders on all pairs of names", "anchors": ["pkg/encoding/name_pattern.go: Name.Compare, Name.Equal", "pkg/sync/svs.go: svSync.encodeSv"]}
{"id": "C14", "title": "IsPrefix is the prefix order on names", "statement": "a.IsPrefix(b) holds exactly when b is a followed by some further components; it is a partial order with the empty name as least element; a prefix never compares greater than its extension; and the prefixes of one name are totally ordered by IsPrefix.", "quantifier": "every pair and triple of names", "why_tests_cant": "ranges over all names", "anchors": ["pkg/encoding/name_pattern.go: Name.IsPrefix, NamePattern.IsPrefix"]}
{"id": "C15", "title": "Component text form round trip", "statement": "For every component whose type is between 1 and 65535, ComponentFromStr(c.CanonicalString()) gives back c for every byte content; for the types without number convention ComponentFromStr(c.String()) gives back c as well, and for number-convention types it does so whenever the value is a shortest-form number.", "quantifier": "every component value (all byte strings) and every type in the valid range", "why_tests_cant": "all 256 byte values in all positions and combinations with escapes", "anchors": ["pkg/encoding/name_component.go: Component.String, Component.CanonicalString, ComponentFromStr, componentFromStrInto, compValFmtText, compValFmtHex, compValFmtDec"]}
{"id": "C16", "title": "Name URI round trip and injectivity", "statement": "NameFromStr(name.String()) gives back name, so different names have different URIs (the FIB, the PIT and the memory storage index names by these strings).", "quantifier": "every name, including empty names and names with empty components", "why_tests_cant": "injectivity over all pairs of names", "anchors": ["pkg/encoding/name_pattern.go: Name.String, NameFromStr", "pkg/encoding/name_component.go: Component.String", "pkg/engine/basic/simple_trie.go: NameTrie"]}
{"id": "C17", "title": "Parsing names and patterns from text never crashes", "statement": "NameFromStr, ComponentFromStr, ComponentPatternFromStr and NamePatternFromStr return a value or an error for every string and never panic, and a successfully parsed component has a type between 1 and 65535.", "quantifier": "every string", "why_tests_cant": "all strings", "anchors": ["pkg/encoding/name_component.go: ComponentFromStr, ComponentPatternFromStr, parseCompTypeFromStr", "pkg/encoding/name_pattern.go: NameFromStr, NamePatternFromStr"]}
{"id": "C18", "title": "Pattern matching and instantiation are inverse", "statement": "If a name pattern matches a name component by component, then instantiating the pattern with the collected matching succeeds and gives back that name when no tag is repeated with different values; and instantiating any pattern with any matching that covers its tags gives a name the pattern matches, component by component.", "quantifier": "every pattern, name and matching", "why_tests_cant": "ranges over all patterns with arbitrarily repeated tags", "anchors": ["pkg/encoding/name_pattern.go: NamePattern.Match, NamePattern.FromMatching", "pkg/encoding/name_component.go: Pattern.Match, Pattern.FromMatching, Pattern.IsMatch"]}
{"id": "C19", "title": "Generated TLV codec round trip", "statement": "For every message type produced by the TLV code generator from natural, fixed-width, time, bool, binary, string, name, struct and sequence fields with distinct type numbers, parsing the encoding of any value gives back that value.", "quantifier": "every schema (list of fields, nested to any depth) and every value of it within field ranges", "why_tests_cant": "ranges over all generated types and all their values, not one sample struct", "anchors": ["pkg/encoding/codegen/model.go: GenEncodeInto, GenReadFrom", "pkg/encoding/codegen/fields.go", "pkg/sync/zz_generated.go", "pkg/ndn/spec_2022/zz_generated.go"]}
{"id": "C20", "title": "The encoder's length pass equals what the encode pass writes", "statement": "For every generated message, the number of bytes computed by Encoder.Init (used to size the buffer) is exactly the number of bytes written by EncodeInto, so encoding never runs out of its buffer and never leaves trailing garbage.", "quantifier": "every schema and every value", "why_tests_cant": "two independent code paths that must agree on all values at all width boundaries", "anchors": ["pkg/encoding/codegen/model.go: GenInitEncoder, GenEncodeInto", "pkg/encoding/codegen/utils.go: GenNaturalNumberLen, GenNaturalNumberEncode"]}
{"id": "C21", "title": "Unrecognised non-critical fields are ignored, critical ones rejected", "statement": "In a generated message without ordering, inserting an unrecognised element with a non-critical type (even and above 31) between any two elements does not change the parsed value; an unrecognised element with a critical type makes parsing fail unless ignoreCritical is set, in which case it is ignored too.", "quantifier": "every schema, every encoded value, every insertion point, every unrecognised type number and element value", "why_tests_cant": "insertion points and type numbers are unbounded; evolvability is about messages that do not exist yet", "anchors": ["pkg/encoding/codegen/model.go: GenReadFrom", "pkg/ndn/spec_2022/zz_generated.go: PacketParsingContext.Parse, LpPacketParsingContext.Parse, MetaInfoParsingContext.Parse"]}
{"id": "C22", "title": "Interest and Data parsing ignores unrecognised non-critical fields", "statement": "Inserting an unrecognised non-critical element between two elements of an Interest or a Data packet does not change any field returned by ReadInterest or ReadData.", "quantifier": "every packet, every insertion point, every unrecognised non-critical element", "why_tests_cant": "insertion points and elements are unbounded", "anchors": ["pkg/encoding/codegen/model.go: GenReadFrom (ordered)", "pkg/ndn/spec_2022/zz_generated.go: InterestParsingContext.Parse, DataParsingContext.Parse"]}
{"id": "C23", "title": "Parsing any packet terminates", "statement": "ReadPacket, ReadInterest, ReadData and every generated Parse function return after finitely many steps on every input buffer.", "quantifier": "every byte string", "why_tests_cant": "non-termination on one hostile input cannot be excluded by running other inputs", "anchors": ["pkg/encoding/codegen/model.go: GenReadFrom", "pkg/encoding/readers.go: BufferReader.Skip", "pkg/ndn/spec_2022/spec.go: ReadPacket"]}
{"id": "C24", "title": "Parsing any packet never panics", "statement": "ReadPacket on any byte string returns a packet or an error and never panics (its comment promises: the call won't crash).", "quantifier": "every byte string", "why_tests_cant": "hostile lengths are isolated points among 2^64", "anchors": ["pkg/ndn/spec_2022/spec.go: ReadPacket", "pkg/ndn/spec_2022/zz_generated.go", "pkg/encoding/readers.go: BufferReader.ReadWire, BufferReader.ReadBuf"]}
{"id": "C25", "title": "A truncated nested element is rejected", "statement": "If the length of a nested structure exceeds the bytes that remain, parsing fails instead of returning a message.", "quantifier": "every message and every truncation point", "why_tests_cant": "truncation points and lengths are unbounded", "anchors": ["pkg/encoding/readers.go: BufferReader.Delegate", "pkg/encoding/codegen/fields_struct.go: StructField.GenReadFrom"]}
{"id": "C26", "title": "Interest parameters digest binds the parameters", "statement": "If ReadInterest accepts an Interest that carries application parameters, then the last name component is the SHA-256 of all bytes from the ApplicationParameters element to the end of the Interest.", "quantifier": "every byte string accepted by ReadInterest", "why_tests_cant": "a forged packet is one adversarially chosen input", "anchors": ["pkg/ndn/spec_2022/spec.go: checkInterest, Spec.ReadInterest", "pkg/ndn/spec_2022/zz_generated.go: InterestParsingContext.Parse"]}
{"id": "C27", "title": "MakeData then ReadData round trip with the same signed bytes", "statement": "A Data packet made by MakeData parses with ReadData to the same name, content type, freshness, final block id, content, signature info and signature value, and the bytes reported as covered by the signature on reading are exactly those given to the signer.", "quantifier": "every name, configuration, content split into any number of buffers, and every signer output no longer than its estimate", "why_tests_cant": "estimates and real signature lengths vary independently across length-width boundaries", "anchors": ["pkg/ndn/spec_2022/spec.go: Spec.MakeData, Spec.ReadData", "pkg/ndn/spec_2022/zz_generated.go: DataEncoder, DataParsingContext"]}
{"id": "C28", "title": "MakeInterest then ReadInterest round trip with the same signed bytes and a valid digest", "statement": "An Interest made by MakeInterest is accepted by ReadInterest, which returns the final name and all options, the parameters and the signature, and reports as covered exactly the bytes given to the signer.", "quantifier": "every name, configuration, parameters split into any number of buffers, and every signer", "why_tests_cant": "the digest is patched into an already encoded buffer whose header is then shrunk; all offsets matter", "anchors": ["pkg/ndn/spec_2022/spec.go: Spec.MakeInterest, Spec.ReadInterest, checkInterest"]}
{"id": "C29", "title": "Signed bytes determine the Data", "statement": "If two Data packets are accepted by ReadData and report the same covered bytes, they have the same name, meta information, content and signature info: no reported field can be altered without altering what is verified.", "quantifier": "every pair of accepted packets", "why_tests_cant": "ranges over all pairs of byte strings", "anchors": ["pkg/ndn/spec_2022/zz_generated.go: DataParsingContext.Parse", "pkg/encoding/codegen/signature.go"]}
{"id": "C30", "title": "Attached prefixes stay prefix-free and failed attaches change nothing", "statement": "After any history of AttachHandler and DetachHandler calls no attached prefix is a prefix of another; AttachHandler succeeds exactly when no attached prefix is a prefix or an extension of the new one, and a failed attach has no effect.", "quantifier": "every history of attach and detach calls", "why_tests_cant": "histories are unbounded", "anchors": ["pkg/engine/basic/default_engine.go: Engine.AttachHandler, Engine.DetachHandler", "pkg/engine/basic/simple_trie.go: NameTrie"]}
{"id": "C31", "title": "An Interest is dispatched to the handler of its attached prefix", "statement": "An incoming Interest is given to exactly one handler, the one attached at the unique attached prefix of its name, and to none when there is no such prefix.", "quantifier": "every attach/detach history and every Interest name", "why_tests_cant": "histories and names are unbounded", "anchors": ["pkg/engine/basic/default_engine.go: Engine.onInterest", "pkg/engine/basic/simple_trie.go: NameTrie.PrefixMatch"]}
{"id": "C32", "title": "Detaching a prefix affects only that prefix", "statement": "DetachHandler(p) succeeds exactly when a handler is attached at p; afterwards p has no handler and every other attached prefix still has its handler.", "quantifier": "every history and every prefix", "why_tests_cant": "histories are unbounded", "anchors": ["pkg/engine/basic/default_engine.go: Engine.DetachHandler", "pkg/engine/basic/simple_trie.go: NameTrie.Delete"]}
{"id": "C33", "title": "The callback of an expressed Interest is called at most once", "statement": "In every execution, whatever the interleaving of Data, Nacks and timer expirations, the callback given to one Express call is invoked at most once.", "quantifier": "every schedule of expressions, incoming packets and timer firings, including timers that have fired but wait for the engine lock", "why_tests_cant": "the failing schedules are races", "anchors": ["pkg/engine/basic/default_engine.go: Engine.Express, Engine.onData, Engine.onNack", "pkg/engine/basic/timer.go: Timer.Schedule"]}
{"id": "C34", "title": "Every expressed Interest gets a result", "statement": "Once Express has succeeded and the Interest's lifetime has elapsed, its callback has been called (with Data, Nack or Timeout), whatever other traffic there was.", "quantifier": "every schedule and every set of concurrently pending Interests", "why_tests_cant": "depends on all interleavings with other pending names", "anchors": ["pkg/engine/basic/default_engine.go: Engine.Express, Engine.onData, Engine.onNack", "pkg/engine/basic/simple_trie.go: NameTrie.DeleteIf, NameTrie.Delete"]}
{"id": "C35", "title": "Data is only delivered to Interests it satisfies", "statement": "A callback invoked with Data belongs to an Interest whose name equals the Data name, or is a prefix of it with CanBePrefix set, or is the full name including the SHA-256 of the received packet.", "quantifier": "every history and every received packet", "why_tests_cant": "all pending sets and packets", "anchors": ["pkg/engine/basic/default_engine.go: Engine.onData"]}
{"id": "C36", "title": "Data that satisfies nothing leaves pending Interests alone", "statement": "Receiving a Data packet that satisfies no pending Interest has no observable effect: every pending Interest can still be satisfied, nacked or timed out as before.", "quantifier": "every set of pending Interests and every Data packet", "why_tests_cant": "all pending sets", "anchors": ["pkg/engine/basic/default_engine.go: Engine.onData", "pkg/engine/basic/simple_trie.go: NameTrie.DeleteIf"]}
{"id": "C37", "title": "The name trie implements a map from names", "statement": "For every sequence of operations, NameTrie behaves as a finite map from names to values: ExactMatch returns the value last set for the name, PrefixMatch the deepest existing prefix, and deleting one name does not change others.", "quantifier": "every operation sequence over all names", "why_tests_cant": "unbounded operation sequences", "anchors": ["pkg/engine/basic/simple_trie.go: NameTrie.ExactMatch, PrefixMatch, MatchAlways, FirstSatisfyOrNew, Delete, DeleteIf, Prune"]}
{"id": "C38", "title": "Incoming packet dispatch", "statement": "onPacket hands a received packet on exactly as its type says: a bare Interest or Data to the corresponding handler; a link packet's fragment parsed and dispatched with its PIT token; a link packet with a Nack header to the Nack path with its reason; and fragmented, nested, empty or malformed link packets are dropped.", "quantifier": "every combination of packet contents", "why_tests_cant": "all combinations of optional header fields", "anchors": ["pkg/engine/basic/default_engine.go: Engine.onPacket"]}
{"id": "C39", "title": "Replies respect the deadline, the face state and the PIT token", "statement": "A handler's Reply sends nothing after the Interest's deadline and reports an error; otherwise, when the face is up, it sends exactly the given packet, wrapped in a link packet with the same PIT token when the Interest carried one.", "quantifier": "every deadline, clock value, token and packet", "why_tests_cant": "all clock values and packets", "anchors": ["pkg/engine/basic/default_engine.go: Engine.newDataReplyFunc"]}
{"id": "C40", "title": "The test timer fires every due event exactly once", "statement": "The deterministic timer fires each scheduled and not cancelled event exactly once, when time first moves past its due time, and never a cancelled one, for every interleaving of Schedule, cancel and MoveForward, also from inside callbacks.", "quantifier": "every sequence of operations", "why_tests_cant": "unbounded operation sequences with re-entrancy", "anchors": ["pkg/engine/dummy/timer.go: Timer.Schedule, Timer.MoveForward"]}
{"id": "C41", "title": "Stream face framing", "statement": "Whatever sequence of packets is written to a stream, the receiving face delivers exactly these packets, in order, however the stream is cut into reads.", "quantifier": "every packet sequence and every segmentation of the byte stream", "why_tests_cant": "stream segmentations are exponential in number", "anchors": ["pkg/engine/basic/transports.go: StreamFace.Run, StreamFace.Send"]}
{"id": "C42", "title": "The heap keeps its order and loses nothing", "statement": "For every sequence of operations the heap contains exactly the pushed and not yet popped elements, and Pop always returns a least one; popping everything yields the elements in ascending order.", "quantifier": "every operation sequence and every element order", "why_tests_cant": "unbounded sequences", "anchors": ["pkg/utils/heap/heap.go"]}
{"id": "C43", "title": "Priority queue entries keep their identity and order", "statement": "For every sequence of Push, Pop and Update, the queue returns a value of least priority, Update changes the priority of exactly the referenced entry, and each live reference keeps denoting the entry it was returned for.", "quantifier": "every operation sequence", "why_tests_cant": "unbounded sequences; index tracking bugs need particular shapes", "anchors": ["pkg/utils/priority_queue/priority-queue.go"]}
{"id": "C44", "title": "SVS sequence numbers never go backwards", "statement": "In every execution of the state vector sync, the sequence number a node records for any producer never decreases.", "quantifier": "every history of received state vectors, local publications and timer events", "why_tests_cant": "unbounded histories", "anchors": ["pkg/sync/svs.go: svSync.onReceiveStateVector, SetSeqNo, IncrSeqNo"]}
{"id": "C45", "title": "SVS reports every new sequence number exactly once", "statement": "For every producer, the update ranges reported to the application are non-empty, contiguous and disjoint, and together cover exactly the numbers from 1 to the recorded sequence number.", "quantifier": "every history of received state vectors, in any order and with duplicates", "why_tests_cant": "unbounded histories", "anchors": ["pkg/sync/svs.go: svSync.onReceiveStateVector"]}
{"id": "C46", "title": "SVS state is the join of everything received", "statement": "The recorded state after any history is the pointwise maximum of the local publications and all received vectors: it depends neither on their order nor on duplication, and nodes that have received each other's vectors agree.", "quantifier": "every multiset of vectors and every delivery order, any number of nodes", "why_tests_cant": "delivery orders are unbounded", "anchors": ["pkg/sync/svs.go: svSync.onReceiveStateVector"]}
{"id": "C47", "title": "SVS suppression never hides news", "statement": "When the suppression timer expires without sending a sync Interest, every entry of the local state is covered by a vector received during the suppression period; a local publication always sends.", "quantifier": "every history of receptions, publications and timer events", "why_tests_cant": "unbounded histories", "anchors": ["pkg/sync/svs.go: svSync.onReceiveStateVector, svSync.timerExpired"]}
{"id": "C48", "title": "State vector encoding round trip", "statement": "The state vector a node sends is parsed by a receiver to the same set of names and sequence numbers, sorted in canonical name order.", "quantifier": "every state", "why_tests_cant": "all states", "anchors": ["pkg/sync/svs.go: svSync.encodeSv", "pkg/sync/tlv.go", "pkg/sync/zz_generated.go"]}
{"id": "C49", "title": "Schema Match and Apply are inverse", "statement": "If matching a name in a schema tree gives a node and a matching, then applying that matching at that node gives the same name (without digest components); and applying a matching at a node and matching the resulting name leads back to that node unless an earlier sibling also matches.", "quantifier": "every schema tree, name and matching", "why_tests_cant": "all trees and names", "anchors": ["pkg/schema/tree.go: Node.Match, Node.ContinueMatch, Node.Apply, Node.ConstructName"]}
{"id": "C50", "title": "Event listeners run in order, once each", "statement": "Dispatch calls each registered listener exactly once in registration order; Remove removes exactly that listener; DispatchUntil stops at the first accepted answer and otherwise returns the last answer.", "quantifier": "every sequence of Add, Remove and dispatches", "why_tests_cant": "unbounded sequences", "anchors": ["pkg/schema/event.go: EventTarget"]}
{"id": "C51", "title": "Unvalidated packets never reach the application", "statement": "A received Data is delivered with status Data, or saved to storage, only if a validation listener answered Pass or better and none before it failed; a signed or parameterised Interest reaches the handlers only under the same condition.", "quantifier": "every list of validation listeners with every answer", "why_tests_cant": "all listener combinations", "anchors": ["pkg/schema/expressing_point.go: ExpressPoint.NeedCallback, ExpressPoint.OnInterest"]}
{"id": "C52", "title": "Need calls its callback exactly once", "statement": "Every NeedCallback call leads to exactly one invocation of the callback, whatever the storage, the signer, the face and the network do.", "quantifier": "every combination of outcomes", "why_tests_cant": "all combinations of failures and late timeouts", "anchors": ["pkg/schema/expressing_point.go: ExpressPoint.NeedCallback", "pkg/engine/basic/default_engine.go: Engine.Express"]}
{"id": "C53", "title": "Memory storage answers only what was asked", "statement": "A lookup returns a packet that was stored under the requested name, or under an extension of it when CanBePrefix is set, and with MustBeFresh only one that is still fresh; a packet stored under the requested name and still usable is found.", "quantifier": "every history of puts and every query", "why_tests_cant": "unbounded histories", "anchors": ["pkg/schema/basic_policies.go: MemStoragePolicy, MemStorage"]}
{"id": "C54", "title": "Segmentation preserves content", "statement": "Providing a content in segments of at most the segment size gives segments that are non-empty, numbered from 0 without gaps, no larger than the segment size, whose concatenation is the content, and whose final block id is the last segment number.", "quantifier": "every content split into any buffers (including empty ones) and every segment size", "why_tests_cant": "all splits", "anchors": ["pkg/schema/rdr/rdr.go: SegmentedNode.Provide"]}
{"id": "C55", "title": "The segment fetcher reassembles the content or reports failure", "statement": "The single-packet pipeline delivers the concatenation of segments 0 to the final block id in order, each fetched at most one more time than the retry limit, or reports the failure; it never delivers a partial content as success and never panics.", "quantifier": "every sequence of fetch outcomes and every final block id behaviour", "why_tests_cant": "unbounded outcome sequences", "anchors": ["pkg/schema/rdr/pipelines.go: SinglePacketPipeline"]}
{"id": "C56", "title": "Schema SVS node never loses a sequence number of its own", "statement": "In every execution of the schema tree's sync node, the sequence number recorded for each producer never decreases and the missing ranges reported for a producer are disjoint and cover everything up to the recorded number.", "quantifier": "every history of sync Interests and local publications", "why_tests_cant": "unbounded histories, hostile vectors", "anchors": ["pkg/schema/svs/sync.go: SvsNode.onSyncInt, SvsNode.NewData"]}
{"id": "C57", "title": "Validators accept what the matching signers produce", "statement": "A packet signed by one of the provided signers is accepted by the provided validator for the same algorithm and key, and a digest-checked packet whose covered bytes differ is rejected unless the hash collides.", "quantifier": "every key, covered bytes and signature", "why_tests_cant": "all messages and keys", "anchors": ["pkg/security/sha256-signer.go", "pkg/security/hmac-signer.go", "pkg/security/rsa-signer.go", "pkg/security/ecc-signer.go"]}
{"id": "C58", "title": "Signed Interests of one signer never repeat a sequence number", "statement": "The sequence numbers put into signed Interests by one Interest signer strictly increase over its lifetime.", "quantifier": "every number of signings", "why_tests_cant": "unbounded histories", "anchors": ["pkg/security/sha256-signer.go: sha256IntSigner", "pkg/security/hmac-signer.go: hmacIntSigner"]}
{"id": "C59", "title": "Shared document replicas converge", "statement": "Replicas of the shared text document that have handled the same set of operations show the same text, whatever the arrival order, and handling an operation never panics.", "quantifier": "every set of concurrent operations and every causally ready delivery order", "why_tests_cant": "interleavings of concurrent edits", "anchors": ["examples/schema-test/shared-doc/crdt/crdt.go", "examples/schema-test/shared-doc/crdt/textdoc.go"]}
{"id": "C60", "title": "Name pattern text round trip", "statement": "NamePatternFromStr(p.String()) gives back p for every name pattern whose components have valid types and whose tags contain no = and no /.", "quantifier": "every name pattern", "why_tests_cant": "ranges over all patterns, including empty components in every position", "anchors": ["pkg/encoding/name_pattern.go: NamePattern.String, NamePatternFromStr", "pkg/encoding/name_component.go: Pattern.String, ComponentPatternFromStr"]}
{"id": "C61", "title": "A missing required field is reported", "statement": "Parsing a message that lacks an element of a required field fails with ErrSkipRequired, whatever its other elements are.", "quantifier": "every schema without the ordered option, every required field of it, every value of the other fields, every set of ignorable elements", "why_tests_cant": "ranges over all schemas and messages", "anchors": ["pkg/encoding/codegen/model.go", "pkg/encoding/codegen/fields_natural.go"]}
{"id": "C62", "title": "Schema SVS suppression never hides news", "statement": "When the timer of the schema tree's sync node expires, the node keeps silent only if for each of its entries a vector received since the timer last expired or since its last publication has a number at least as great; otherwise it sends its whole vector.", "quantifier": "every history of sync Interests, publications and timer expirations", "why_tests_cant": "unbounded histories, hostile vectors", "anchors": ["pkg/schema/svs/sync.go: SvsNode.onSyncTimer, SvsNode.aggregate"]}
{"id": "C63", "title": "Signer policies accept exactly the packets that verify", "statement": "On a node with any signer policies, attached in any number and any order, a received Data or signed Interest is handed on if and only if at least one policy verifies its signature and no policy finds it forged.", "quantifier": "every list of SHA-256 and HMAC policies, every Data and Interest, every key", "why_tests_cant": "ranges over all lists of policies, their orders and all packets", "anchors": ["pkg/schema/basic_policies.go: sha256SignerPolicy.onValidateData, FixedHmacSignerPolicy.onValidateData", "pkg/schema/event.go: EventTarget.DispatchUntil", "pkg/schema/expressing_point.go: ExpressPoint.onInterest, ExpressPoint.Need"]}
{"id": "C64", "title": "Demo trust: keys are chained to an anchor, and exactly Data signed by the right key passes", "statement": "Every key of a key store made by AddTrustAnchor and EnrollKey has a chain of certificates to a self-signed anchor, its certificate names the key that signed it, and GetKey returns the key enrolled last. SignedByPolicy passes a Data iff it has an HMAC under the key whose name follows from the tags of the Data, refuses other HMACs, and never crashes.", "quantifier": "every history of anchors and enrollments, every Data, every mapping of tags", "why_tests_cant": "unbounded histories, all packets", "anchors": ["pkg/schema/demosec/store.go: DemoHmacKeyStore", "pkg/schema/demosec/policies.go: SignedByPolicy"]}
{"id": "C65", "title": "Content that was encrypted is decrypted to itself", "statement": "Decrypt with the key of the given number returns exactly the content given to Encrypt, as often as it is called, and never crashes, whatever the packet is.", "quantifier": "every content, key, initialisation vector and received packet", "why_tests_cant": "all contents and all hostile packets", "anchors": ["pkg/schema/demosec/encryption.go: ContentKeyNode.Encrypt, ContentKeyNode.Decrypt"]}
{"id": "C66", "title": "A node put into a schema tree is found at its path and nothing else moves", "statement": "PutNode refuses a path exactly if there is a node already; otherwise At returns the new node at the path, what is at every other path stays as it was except that missing nodes on the way become base nodes, nodes obtained before keep their path, and no node gets two children with the same edge.", "quantifier": "every tree, path and node description, including those that bring children along", "why_tests_cant": "unbounded trees and paths", "anchors": ["pkg/schema/base_node.go: Node.PutNode, Node.At", "pkg/schema/tree.go: Tree.PutNode"]}
{"id": "C67", "title": "A schema description gives one tree", "statement": "Instantiate gives, for every order in which the map of nodes is iterated, a tree with the same nodes at the same paths that matches the same names to the same nodes.", "quantifier": "every description, every order of map iteration, every name", "why_tests_cant": "map iteration order is random; a test sees one order per run", "anchors": ["pkg/schema/representation.go: SchemaDesc.Instantiate"]}
{"id": "C68", "title": "Map fields of generated messages come back", "statement": "Encoding a message with a map field never panics and fills exactly the buffer it computed, although the map is iterated twice in unrelated orders; parsing the result gives a map with the same keys and values, and of repeated keys the last counts.", "quantifier": "every message description with a map field, every map, every pair of iteration orders", "why_tests_cant": "the iteration order is random and differs between the two passes; nil values are not in the tests", "anchors": ["pkg/encoding/codegen/map_field.go: MapField.encodingGeneral, MapField.GenReadFrom", "tests/encoding/gen_map/zz_generated.go"]}
{"id": "C69", "title": "Management commands are carried out once and reported truthfully", "statement": "MakeCmd encodes module, command and arguments into a signed Interest from which the forwarder reads the same module, command and arguments; ExecMgmtCmd returns nil exactly when the first answer is a Data with a valid signature and status code 200; it always returns, never panics and never keeps the PIT locked.", "quantifier": "every command, arguments and signer; every response; every interleaving of caller, sender and callbacks", "why_tests_cant": "interleavings of send failures, timeouts and Nacks cannot be enumerated; long prefixes are not in the tests", "anchors": ["pkg/ndn/mgmt_2022/mgmt.go: MakeCmd", "pkg/engine/basic/default_engine.go: ExecMgmtCmd, RegisterRoute, UnregisterRoute"]}
{"id": "C70", "title": "Objects published with versions or manifests come back", "statement": "What RdrNode.Provide or GeneralObjNode.Provide publishes is what NeedCallback delivers, with or without a version given, whenever the network delivers the published packets within the retries; NeedCallback always ends and never panics whatever is received, a reported success is the published content, and with a manifest nobody can forge a segment.", "quantifier": "every content, segment size, base name, version; every network behaviour", "why_tests_cant": "the interplay of lost packets, retries, forged packets and metadata cannot be enumerated", "anchors": ["pkg/schema/rdr/rdr.go: RdrNode.Provide, RdrNode.NeedCallback, GeneralObjNode.Provide, GeneralObjNode.NeedCallback", "pkg/schema/interface.go: MatchedNode.Refine"]}
{"id": "C71", "title": "Every message type of the library survives encoding and parsing", "statement": "For each TLV message type declared in the library (packets, signature data, link packets, management, certificate issuance, sync and shared-document messages), any value with numbers and names in range is encoded without panic and the generated parser gives back exactly that value.", "quantifier": "every message type, every value", "why_tests_cant": "there are dozens of generated codecs with dozens of optional fields each; the tests exercise a handful of values", "anchors": ["pkg/ndn/mgmt_2022/definitions.go", "pkg/security/ndncert_0_3/tlv.go", "pkg/schema/svs/tlv.go", "pkg/sync/tlv.go", "examples/schema-test/shared-doc/crdt/tlv.go"]}
{"id": "C72", "title": "Structs and dictionaries convert into each other", "statement": "For models with the dict option, DictTo of ToDict of a struct is the same struct; DictTo succeeds exactly on the dictionaries whose entries under field names have the field's Go type and that have all required fields, giving the struct that says the same, and otherwise returns an error naming the offending field; MakeCmdDict makes the same command as MakeCmd with the struct.", "quantifier": "every struct with supported fields, every dictionary", "why_tests_cant": "dictionaries can hold values of any type under any subset of the names; no test of the repository converts a dictionary", "anchors": ["pkg/encoding/codegen/dicts.go", "pkg/encoding/codegen/model.go: GenToDict, GenFromDict", "pkg/ndn/mgmt_2022/zz_generated.go: ToDict, DictToControlArgs", "pkg/ndn/mgmt_2022/mgmt.go: MakeCmdDict"]}
{"id": "C73", "title": "Attributes of a schema description reach the fields they name", "statement": "Every attribute given for a node or policy in a description, after the values of the environment are put in at every depth, reaches the field of its property with the value that it means (times in milliseconds, texts as bytes, names or components, numbers as numbers of the field's type), whatever the order of the attributes, and no other field changes; a value that the property cannot take gives an error and changes nothing; every property of every class leads to a field of the type it needs, different ones to different fields.", "quantifier": "every environment, every set of attributes of every Go type, every order, every class of the library", "why_tests_cant": "attribute values are of any type and nest without bound, map iteration order varies; the failing cases (names, content types, durations, numbers in patterns) are in no test of the repository", "anchors": ["pkg/schema/interface.go: DefaultPropertyDesc, TimePropertyDesc, MatchingPropertyDesc, SubNodePropertyDesc, NamePropertyDesc", "pkg/schema/representation.go: instantiateAttrs, SchemaDesc.Instantiate", "pkg/schema/svs/sync.go: CreateSvsNode", "pkg/schema/rdr/rdr.go: RdrNodeDesc"]}
{"id": "C74", "title": "Local edits of the shared document act at the offset in the text", "statement": "Whatever was deleted before, an insertion at offset n puts the new text behind the first n characters that the user sees and a deletion at offset n takes away the n-th one; the record for the other users names this item; offsets outside the text are refused and change nothing.", "quantifier": "every document with any deleted items, every offset, every content", "why_tests_cant": "the items marked as deleted may lie anywhere between the visible ones and in any number; the failing case (first item deleted) is in no test", "anchors": ["examples/schema-test/shared-doc/crdt/crdt.go: ItemAt, LocalInsert, LocalDelete", "examples/schema-test/shared-doc/crdt/textdoc.go: Insert, Delete"]}
{"id": "C75", "title": "SVS answers a vector that lacks something", "statement": "When a node receives a state vector that lacks a number it knows, it enters (or stays in) suppression, so that its timer sends the full vector unless others do, except when everything that is lacking was learnt from the network within the suppression period; a vector that lacks nothing ends suppression.", "quantifier": "every history of events, every received vector, every time", "why_tests_cant": "unbounded histories and vectors; the failing combination (one entry too small, another name missing) is in no test", "anchors": ["pkg/sync/svs.go: svSync.onReceiveStateVector"]}
{"id": "C76", "title": "Hashes of names", "statement": "PrefixHash gives the hash of every prefix of a name, and two different names are hashed from different bytes, so that they collide only where the hash function does.", "quantifier": "every name, every hash function", "why_tests_cant": "unbounded names; the colliding partner of a name does not occur in tests", "anchors": ["pkg/encoding/name_component.go: Component.HashInto", "pkg/encoding/name_pattern.go: Name.Hash, Name.PrefixHash"]}
{"id": "C77", "title": "Full names", "statement": "ToFullName gives the name followed by the implicit digest of the packet, is idempotent, does not depend on how the packet is cut into buffers, and changes no name that somebody else holds.", "quantifier": "every name, packet, memory layout and growth of arrays", "why_tests_cant": "whether an array is shared depends on spare capacity, which no test looks at", "anchors": ["pkg/encoding/name_pattern.go: Name.ToFullName", "pkg/encoding/codegen/fields_name.go: GenReadFrom"]}
{"id": "C78", "title": "Number components", "statement": "A number component gives its number back, in the shortest form, and components of one type are ordered like their numbers; the values of the naming conventions come back from their dictionary form.", "quantifier": "every 64-bit number, every type, every value", "why_tests_cant": "2^64 numbers", "anchors": ["pkg/encoding/name_component.go: NewNumberComponent, NumberVal, compValFmt"]}
{"id": "C79", "title": "Attaching and detaching a schema tree", "statement": "Attaching a tree gives every node the engine, its depth and its path, fires every attach event once (children first) and installs one handler; detaching undoes this, firing every detach event once (parents first). While attached, each Interest under the prefix reaches exactly the node it matches; errors of listeners and of the engine are reported and leave the tree detached; no order of attaching, detaching and arriving Interests makes the process panic.", "quantifier": "every tree, prefix, listener behaviour, growth of arrays and order of events", "why_tests_cant": "paths share arrays, and the failing orders need an Interest in flight while the tree is detached", "anchors": ["pkg/schema/base_node.go: Node.OnAttach, Node.OnDetach", "pkg/schema/tree.go: Attach, Detach, intHandler"]}
{"id": "C80", "title": "Starting and stopping SVS", "statement": "While an SvSync runs, its main loop gets the vectors of all Sync Interests in the order in which they are queued, each once; Stop ends the main loop and returns, after which the application hears nothing more; no order of Start, Stop, arriving Sync Interests and calls from the application panics or blocks for ever, and Start sends a Sync Interest.", "quantifier": "every schedule of all goroutines", "why_tests_cant": "schedules cannot be chosen in a test", "anchors": ["pkg/sync/svs.go: Start, main, Stop, onSyncInterest, sendSyncInterest"]}
{"id": "C81", "title": "What a leaf node provides answers the requests for it", "statement": "A packet that LeafNode.Provide returned is what an Interest for its name is answered with and what Need gives to its callback, with the same name, content and metadata, until its validity ends, whatever else is saved under other names; a search never yields a packet that was not saved under the name or an extension of it; when the packet cannot be made nothing is stored; the packet answers only Interests that it satisfies.", "quantifier": "every sequence of Provide, received Data and passing time before and after, every name, content, configuration, signer and set of storages", "why_tests_cant": "the storage is shared by all nodes and its state depends on everything saved before and after", "anchors": ["pkg/schema/leaf_node.go: LeafNode.Provide", "pkg/schema/expressing_point.go: SearchCache, OnInterest, NeedCallback", "pkg/schema/basic_policies.go: MemStoragePolicy"]}
{"id": "C82", "title": "Opening, closing and using a face from several goroutines", "statement": "For a StreamFace or WebSocketFace that is used by the basic engine: whatever the interleaving of the goroutine that starts and shuts down the engine, of any number of goroutines that send, of the goroutine Run and of the network, there is at most one Run and it reads from the current connection; when Start returns nil the face is running on an open connection; packets are given to the engine in the order of their arrival, none lost or doubled; what is written to a connection is a sequence of whole packets, possibly followed by a truncated one, and a Send that returned nil wrote its packet whole; after Shutdown returned nil nothing is written, Run ends, and Start can succeed again; the program does not crash and every connection is closed in the end.", "quantifier": "all interleavings of the goroutines, any number of senders and packets, all arrivals and losses of connections", "why_tests_cant": "the failures are races between a few statements of two goroutines; a test hardly ever hits the window, and no test covers all interleavings", "anchors": ["pkg/engine/basic/transports.go:26-116", "pkg/engine/basic/transports.go:154-215", "pkg/engine/basic/default_engine.go:342-368"]}
{"id": "C83", "title": "The store of keys and certificates finds what it holds", "statement": "For a database of identities, keys and certificates in which everything belongs together: an identity, key or certificate is found by its name exactly if it is there, with its contents; the key of a certificate and the identity of a key are those that their rows refer to; FindCert of a key or identity gives one of its certificates that passes the check if there is one; the signer of a certificate uses the private key of the certificate's key and names the certificate, so that a Data signed with it leads back to the certificate and verifies; a certificate given out has the name asked for, and the self-signed certificate of a key is signed by that key; an identity gives out only its own keys.", "quantifier": "all databases and directories of keys, all names, all checks, all Data signed", "why_tests_cant": "the answer depends on the whole contents of three tables and on the lengths of names; the repository has no test of this package", "anchors": ["pkg/security/pib/sqlite-pib.go:46-250", "pkg/security/pib/tpm-file.go:21-84"]}
{"id": "C84", "title": "The locks of the engine, the tree, the storages and the sync node never block for ever", "statement": "However many goroutines use the engine, a schema tree with its storage policies and its sync node, and however they interleave: as long as a call has not returned some goroutine can go on, no schedule of lock operations goes on for ever, no lock is released that is not held, when all calls have returned every lock is free, and the data of a lock are changed by one goroutine at a time while nobody else uses them - also when callbacks and listeners use the engine and the tree themselves.", "quantifier": "all numbers of goroutines, all sequences of calls, all callbacks and listeners, all schedules", "why_tests_cant": "a deadlock needs one particular interleaving of calls that wait for each other", "anchors": ["pkg/engine/basic/engine.go:76-445", "pkg/engine/basic/timer.go:13-50", "pkg/schema/tree.go:27-190", "pkg/schema/memstorage.go:20-150", "pkg/schema/leaf_node.go:36-110", "pkg/schema/demosec/policies.go:20-145", "pkg/schema/svs/sync.go:111-340"]}
{"id": "C85", "title": "The sync node lives through attaching, running and detaching", "statement": "For a sync node in an attached tree, with goroutines that receive Sync Interests, publish, read the channel of missing data, detach and attach again, and timers that expire at any time: nothing panics; at most one goroutine is between Lock and Unlock; there is always exactly one timer scheduled or about to be scheduled; the functions of the node behave as if they ran one after the other; every call returns as long as somebody reads the channel; and the intervals drawn stay within their bounds.", "quantifier": "all nodes, channel sizes, goroutines, calls, vectors, random numbers and schedules", "why_tests_cant": "the failures need a packet, an expired timer and a call of the application to meet at particular points", "anchors": ["pkg/schema/svs/sync.go:111-344", "pkg/schema/base_node.go:90-241", "pkg/engine/basic/timer.go:13-50"]}
{"id": "C86", "title": "A request reaches the handler and its reply reaches the callback", "statement": "For two engines connected by a network that delivers packets: an Interest made by MakeInterest and expressed by the consumer, arriving at the producer bare or in a link packet with a PIT token, is given to the handler attached to a prefix of its name, with the name, options, parameters, token and signature that were sent and a deadline after its lifetime; a Data made by MakeData and replied before the deadline is put on the network with the same token; when it arrives and is what the Interest asks for, the callback of that Express is called with it, and the name, content and the signed bytes and signature are those of the producer, whatever else happened at the consumer before and meanwhile.", "quantifier": "all names, options, parameters, signers, hash functions, tables of handlers, histories of the pending table before and after the Interest, tokens, contents and times", "why_tests_cant": "the tests of the engine use single packets given as bytes; the chain of two encoders, two parsers, dispatch, both tables and the token is never run with arbitrary values and arbitrary other traffic", "anchors": ["pkg/engine/basic/default_engine.go:112-437", "pkg/ndn/spec_2022/spec.go:232-575"]}
{"id": "C87", "title": "Policies reach the nodes they are meant for and are ready after attaching", "statement": "Applying the policies of a schema description leaves every node where it is, and gives each event of each node exactly the listeners of the policies meant for the node, after its own, in the order of the description: a storage is meant for the whole subtree, any other policy for the node it is put at. It fails exactly if a path leads nowhere, a key is empty, or a validating policy is put at a node that validates nothing. After the tree was attached, every policy has what it works with (timer, signer, node of the keys), and each registration policy has registered the name of its node once and nothing else was registered. A certificate saved in the key storage is found by its name.", "quantifier": "for all trees, lists of policies, listeners of the program, prefixes and key stores", "why_tests_cant": "the listeners depend on the shape of the tree, the place and the order of the policies, and the order in which nodes are attached", "anchors": ["pkg/schema/basic_policies.go", "pkg/schema/demosec/policies.go", "pkg/schema/base_node.go", "pkg/schema/representation.go"]}
{"id": "C88", "title": "What one program provides through a schema tree, another one gets with Need", "statement": "If a program provides a packet at a leaf of its tree, signed as a policy says, and another program that trusts this policy needs the name (or the full name with the digest) and does not have it in its storage, then the Interest it sends is answered by the tree of the first program with this packet and the callback of the second gets the provided content and name; its next Need for the name is answered from its storage. Whatever else arrives, the callback gets content only if it is genuine for a policy and forged for none, and the program does not panic.", "quantifier": "all histories of both programs, names, contents, options, policies, trees, attached handlers, tokens, and events at the consumer that do not touch the pending Interest; all received Data for soundness", "why_tests_cant": "The path goes through encoding, FIB, tree matching, storage, reply, PIT, validation and saving in two programs; the crash needs a Data below the needed name at a place where the tree has no node.", "anchors": ["pkg/schema/expressing_point.go:53-335", "pkg/schema/tree.go:71-86", "pkg/schema/leaf_node.go:29-79", "pkg/schema/basic_policies.go:61-94", "pkg/schema/basic_policies.go:115-166", "pkg/schema/interface.go:364-389", "pkg/engine/basic/default_engine.go:112-318"]}
{"id": "C89", "title": "The code generator reads comments and tags as they are meant, and says so when it cannot", "statement": "For every struct whose fields are described by comments of the documented grammar (nested sequences and maps included), with tags that are decimal or hexadecimal numbers of at most 64 bits, and with any list of model options, the generator's model has exactly the described fields, in order, with the described classes, options, widths and type numbers, whatever the order in which Go goes through the table of classes. The models of the library's packages are the schemas about which the other properties speak. A comment or tag that is not of this form is reported instead of being read as something else.", "quantifier": "all descriptions, numerals, comments around them, options and orders of the table; all texts for determinism", "why_tests_cant": "There are unboundedly many nested descriptions; the table is a Go map with a random order of iteration; a wrong type number or a missing option yields code that compiles and round-trips with itself.", "anchors": ["pkg/encoding/codegen/codegen.go:33-148", "pkg/encoding/codegen/fields.go:112-138", "pkg/encoding/codegen/model.go:34-47", "pkg/encoding/codegen/map_field.go:164-200", "pkg/encoding/codegen/fields_sequence.go:17-41"]}
{"id": "C90", "title": "The statements that the code generator emits for the encoder write the bytes of the message", "statement": "For every model that the generator accepts (naturals, fixed-width numbers, durations, binaries, strings, wires, names, flags, nested structs, and sequences of these, to any depth) and every Go value, the `Init` and `EncodeInto` functions whose text the templates produce, run statement by statement on the Go value, never panic and leave in the buffer exactly the TLV encoding of the message for which the value stands; the text of the encoders checked into the repository is what the generator writes for the declarations beside it. Every element of a sequence is written.", "quantifier": "all models, all nestings, all Go values, all checked-in encoders of the covered types", "why_tests_cant": "The emitted text depends on unboundedly many models; a wrong length for one width or a position not advanced shows only for particular sizes and nestings; a stale checked-in file compiles and encodes something.", "anchors": ["pkg/encoding/codegen/model.go:94-260", "pkg/encoding/codegen/utils.go:17-158", "pkg/encoding/codegen/fields_natural.go:17-60", "pkg/encoding/codegen/fields_fixeduint.go", "pkg/encoding/codegen/fields_name.go", "pkg/encoding/codegen/fields_struct.go", "pkg/encoding/codegen/fields_sequence.go:43-120", "pkg/ndn/spec_2022/zz_generated.go", "pkg/ndn/mgmt_2022/zz_generated.go"]}
{"id": "C91", "title": "The statements that the code generator emits for the parser read what the schema says", "statement": "For every model that the generator accepts (naturals, fixed-width numbers, durations, binaries, strings, wires, names, flags, nested structs, and sequences of these, to any depth) and every input, the `Parse` function whose text the templates produce, run statement by statement on a reader, ends as parsing by the schema does: with a Go value that stands for the message and no error, or with nil and the error; in particular it reads back what the emitted encoder writes, and it always ends. The text of the parsers checked into the repository is what the generator writes for the declarations beside it.", "quantifier": "all models, all nestings, all inputs, both settings of ignoreCritical, all checked-in parsers of the covered types", "why_tests_cant": "The emitted text depends on unboundedly many models; a flag that is not set or a reader left at the wrong place shows only for particular orders and nestings of elements; a stale checked-in file compiles and parses something.", "anchors": ["pkg/encoding/codegen/model.go:127-283", "pkg/encoding/codegen/utils.go:113-143", "pkg/encoding/codegen/fields_natural.go:54-74", "pkg/encoding/codegen/fields_fixeduint.go:104-181", "pkg/encoding/codegen/fields_name.go:66-96", "pkg/encoding/codegen/fields_struct.go:145-154", "pkg/encoding/codegen/fields_sequence.go:130-157", "pkg/ndn/spec_2022/zz_generated.go", "pkg/ndn/mgmt_2022/zz_generated.go"]}
{"id": "C92", "title": "The delays of SVS stay within their jitter and never panic the ticker", "statement": "Whatever the random source draws, the periodic delay of SvSync is within ten per cent of its period, and each delay in this range can be drawn; the suppression delay is positive and less than the suppression period, and draws in the lower half give at least 99 per cent of it; hence neither call of Ticker.Reset panics with the periods of NewSvSync. Periods so short that the draw or the reset would panic are identified.", "quantifier": "all draws, all periods from 10 ns (2 ns for suppression) to the stated bounds, all floating-point arithmetics with a relative error of at most 2^-45", "why_tests_cant": "The draw is random and the panics concern single values at the ends of the range; a test sees a few draws of one machine's arithmetic.", "anchors": ["pkg/sync/svs.go:59-62", "pkg/sync/svs.go:244", "pkg/sync/svs.go:357-384"]}
{"id": "C93", "title": "The handler gets every message at or above the level, with the fields of its entry and of no other", "statement": "For every program that makes entries from entries, adds fields, changes the maps it has added, sets the level and logs, whatever spare room append leaves and in whatever order maps are visited: the handler gets exactly the messages at or above the level of the logger, in order, each with, for each key, the value in the last map with this key on the way from the logger to the entry; entries made from the same entry never show each other's fields; the handlers write each field once, in the order of the names; each level comes back from its JSON text and its name in any case.", "quantifier": "all programs, all growth policies of append, all iteration orders of maps, all levels and texts", "why_tests_cant": "Sharing of spare room depends on the growth policy and on the sequence of calls; map order is random.", "anchors": ["pkg/log/entry.go:35-184", "pkg/log/logger.go:21-155", "pkg/log/levels.go:24-81", "pkg/log/text.go:59-77", "pkg/log/pkg.go:25-74"]}
{"id": "C94", "title": "The emitted encoder of a model with nocopy gives the bytes of the message without copying the caller's buffers", "statement": "For every TLV model with the option nocopy, the encoder that the code generator writes plans the lengths of the buffers of the wire in Init and fills exactly these buffers in EncodeInto: the buffers together are the encoding of the message, the buffers that the caller put into wire fields are in the wire uncopied, unchanged and in order, and no value makes the encoder panic.", "quantifier": "all models with nocopy, all messages", "why_tests_cant": "The plan and the filling are two separate passes over the fields that must agree for every combination of present and absent fields and every division of the wires into buffers; the tests try a few.", "anchors": ["pkg/encoding/codegen/model.go:63-125", "pkg/encoding/codegen/fields_wire.go:54-90", "pkg/encoding/codegen/utils.go:145-158", "pkg/ndn/spec_2022/zz_generated.go:2249-2936", "pkg/schema/demosec/zz_generated.go:11-280"]}
{"id": "C95", "title": "The emitted encoder of a model with a signature leaves one place for it and covers exactly the signed bytes", "statement": "For every TLV model with nocopy, a marker and a signature field, the encoder that the code generator writes leaves exactly one empty buffer in the wire for the signature value and tells its index: with the signature value put there, the wire is the encoding of the message with the signature. The part that the encoder reports as covered is the encoding of the fields from the marker to the signature, no byte more and no byte less, the caller's buffers are in the wire uncopied, and without an estimated length there is neither a signature nor a covered part.", "quantifier": "all models with nocopy, a marker and a signature; all messages; all lengths of the signature", "why_tests_cant": "Which bytes are signed depends on how the wire is divided into buffers, on where the marker and the signature fall in them, and on which fields are present; the tests sign a few fixed packets.", "anchors": ["pkg/encoding/codegen/signature.go:21-101", "pkg/encoding/codegen/markers.go:5-130", "pkg/encoding/codegen/model.go:63-125", "pkg/ndn/spec_2022/zz_generated.go:4139-4548"]}
{"id": "C96", "title": "The emitted encoder of an Interest keeps a place for the digest and signs the name without it", "statement": "For every TLV model with nocopy that has an Interest name, a marker and a signature field, the encoder that the code generator writes replaces a digest at the end of the name by a new place for one if told so, and tells buffer and position of that place: with a signature and a digest put where the encoder says, the wire is the encoding of the message under the name with that digest. The part that the encoder reports as covered is the components of the name without the digest followed by the encoding of the fields from the marker to the signature, no byte more and no byte less.", "quantifier": "all models with nocopy, an Interest name, a marker and a signature; all names and messages; all lengths of the signature, all signatures and digests", "why_tests_cant": "The position of the digest depends on the lengths of all components and of their sum; whether the name came with a digest, whether it needs one, and how the rest is divided into buffers are independent; the tests sign a few fixed Interests.", "anchors": ["pkg/encoding/codegen/signature.go:133-230", "pkg/encoding/codegen/signature.go:21-101", "pkg/ndn/spec_2022/zz_generated.go:3277-3830"]}
{"id": "C97", "title": "The emitted encoder of Packet only puts a type and a length before an Interest, Data or LpPacket", "statement": "For every TLV model whose fields are structs with nocopy, the encoder that the code generator writes gives, for a value with one of them present, the wire of that struct's own encoder with the type and length of the field in front of its first buffer: the other buffers are the same in the same places, what the inner encoder tells about signature, digest and covered part is what it tells on its own, and so the places where MakeInterest and MakeData put signature and digest are those of the signature and the digest in the packet.", "quantifier": "all models with such fields, all values with one of the structs present, all inner models and values; for Packet: all Interests, Data and LpPackets of the wire format, all signatures and digests", "why_tests_cant": "The inner encoder writes into a slice of the outer encoder's buffers, at an offset that depends on the length of the message; the covered parts and the places of signature and digest must come out right for every division of the message into buffers.", "anchors": ["pkg/encoding/codegen/fields_struct.go:40-143", "pkg/encoding/codegen/model.go:63-125", "pkg/ndn/spec_2022/zz_generated.go:4703-5033", "pkg/ndn/spec_2022/spec.go:309-345", "pkg/ndn/spec_2022/spec.go:449-510"]}
{"id": "C98", "title": "The hand-written model of the packet encoders and the emitted code make the same buffers", "statement": "For every Data and every Interest, with a signature of any estimated length or without, the statements that the code generator writes for the encoders of Data, Interest and Packet make exactly the buffers, one by one, that the model of these encoders used for MakeData and MakeInterest makes, tell the same buffer index for the signature and the same position for the digest, and cover the same bytes.  So what is proved of MakeData and MakeInterest, such as what happens with a signature shorter than estimated, holds for the emitted code.", "quantifier": "all names, with or without a digest at the end, all other fields of Data and Interests, all divisions of content and parameters into buffers, all estimated lengths, all signatures", "why_tests_cant": "MakeData and MakeInterest patch single bytes in single buffers, so that the division into buffers matters and not only the bytes; it depends on which of the optional fields are present and on the buffers of the caller.", "anchors": ["pkg/ndn/spec_2022/zz_generated.go:3318-3836", "pkg/ndn/spec_2022/zz_generated.go:4165-4540", "pkg/ndn/spec_2022/zz_generated.go:4703-5033", "pkg/ndn/spec_2022/spec.go:309-352", "pkg/ndn/spec_2022/spec.go:449-525"]}
{"id": "C99", "title": "Functions of nodes called by name check their arguments, and a wait for a result ends", "statement": "A call of a function of a node by its name runs the method of that name of the class of the node, once, with the arguments in their places and zero values for optional arguments that are left out or nil, exactly if the number and the types of the arguments are right; otherwise it returns an error that tells the number, or the first parameter with a wrong argument and its value; it never panics. The channel of NeedChan gives exactly one result, and the calls of the library on the results of NeedChan never panic. DataFetcher asks for the Data with the given configuration at most maxRetries times, stops at the first Data and otherwise gives the last result.", "quantifier": "every class of nodes, function name, list of arguments of any dynamic types; every sequence of results of the network", "why_tests_cant": "arguments are untyped lists and the pipeline is chosen by a string, so that neither combinations nor waits that never end can be tried out", "anchors": ["pkg/schema/interface.go: MatchedNode.Call, QueryInterface", "pkg/schema/expressing_point.go: initExpressPointDesc, NeedChan", "pkg/schema/leaf_node.go: initLeafNodeDesc", "pkg/schema/rdr/rdr.go: initRdrNodes, NeedChan, SegmentedNode.NeedCallback", "pkg/schema/rdr/pipelines.go: DataFetcher", "pkg/schema/svs/sync.go: SvsNodeDesc", "pkg/schema/demosec/encryption.go: ContentKeyNodeDesc", "pkg/schema/demosec/policies.go: SignedByPolicy.onValidateData"]}
{"id": "C100", "title": "The parser that the code generator writes for ordered models reads each field once and in order", "statement": "For every model with `ordered` the generator writes a Parse that reads or skips each field exactly once, reads the fields in the order of the declaration, refuses critical elements that are no fields unless it is told to ignore them, and passes over others without losing a field. The parsers of Interest and Data in zz_generated.go are this text, and the models of them with which the properties of packets are proved have the same results.", "quantifier": "every list of fields with different names and numbers, every behaviour of the code of the fields, every buffer", "why_tests_cant": "the loop over the fields depends on the order of the elements and on what came before; tests have well-formed packets only", "anchors": ["pkg/encoding/codegen/model.go: TlvModel.GenReadFrom, GenParsingContextStruct, GenInitContext", "pkg/encoding/codegen/markers.go: GenReadFrom, GenSkipProcess", "pkg/encoding/codegen/signature.go: GenReadFrom, GenSkipProcess", "pkg/ndn/spec_2022/zz_generated.go: InterestParsingContext.Parse, DataParsingContext.Parse"]}
{"id": "C101", "title": "The checked-in parser of Packet hands each element to the parser of its kind and reports covered bytes of that packet only", "statement": "The parser of Packet in zz_generated.go is what the generator writes. For every input, running it with the parsers of Interest, Data and LpPacket that it calls gives the value, the covered bytes or the error of the model of `parsePacket` from which ReadInterest, ReadData and ReadPacket are proved about. The bytes that it reports as covered by a signature are determined by the packet that it returns, not by elements before it in the buffer.", "quantifier": "every buffer, position in it, value of ignoreCritical and state of the shared parsing contexts", "why_tests_cant": "tests parse one well-formed packet per buffer, so what the parsing contexts keep between elements is never seen", "anchors": ["pkg/ndn/spec_2022/zz_generated.go: PacketParsingContext.Init, PacketParsingContext.Parse", "pkg/encoding/codegen/model.go: TlvModel.GenReadFrom", "pkg/encoding/codegen/fields_struct.go: GenReadFrom, GenInitContext"]}
