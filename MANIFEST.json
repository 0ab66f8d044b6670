{
 "claims": [
  {
   "property": "C01",
   "status": "proved",
   "theorems": [
    "Ndn.C01_tlnum_roundtrip"
   ],
   "note": ""
  },
  {
   "property": "C02",
   "status": "proved",
   "theorems": [
    "Ndn.C02_tlnum_order",
    "Ndn.C02_tlnum_prefix_free",
    "Ndn.C02_tlnum_shortest"
   ],
   "note": ""
  },
  {
   "property": "C03",
   "status": "proved",
   "theorems": [
    "Ndn.C03_tlnum_decode_total",
    "Ndn.C03_tlnum_truncation"
   ],
   "note": ""
  },
  {
   "property": "C04",
   "status": "proved",
   "theorems": [
    "Ndn.C04_nat_roundtrip",
    "Ndn.C04_nat_rejects"
   ],
   "note": ""
  },
  {
   "property": "C05",
   "status": "proved",
   "theorems": [
    "Ndn.C05_shrink_length"
   ],
   "note": ""
  },
  {
   "property": "C06",
   "status": "proved",
   "theorems": [
    "Ndn.C06_buffer_reader_client",
    "Ndn.C06_buffer_reader_calls",
    "Ndn.C06_range",
    "Ndn.C06_readBuf_negative_panics",
    "Ndn.C06_moves"
   ],
   "note": "C06_readBuf_negative_panics shows why the non-negativity hypothesis is needed."
  },
  {
   "property": "C07",
   "status": "partial",
   "theorems": [
    "Ndn.C07_wire_reader_partial",
    "Ndn.C07_empty_segment_violated",
    "Ndn.C07_zero_read_violated",
    "Ndn.C07_range_violated",
    "Ndn.C07_range_panics",
    "Ndn.C07_range_end_violated",
    "Ndn.C07_unread_byte",
    "Ndn.C07_read_partial",
    "Ndn.C07_range_partial",
    "Ndn.C07_range_middle_violated",
    "Ndn.C07_range_empty_panics"
   ],
   "note": "The code violates the full property (empty buffers, zero-length reads at the end, Range); proved for all adaptive clients when no later buffer is empty. Range is characterised for every non-empty range: right when it lies in one or two buffers or starts in the first (C07_range_partial), otherwise a panic or lost bytes (C07_range_middle_violated)."
  },
  {
   "property": "C08",
   "status": "partial",
   "theorems": [
    "Ndn.C08_delegate_partial",
    "Ndn.C08_overlong_violated"
   ],
   "note": "Proved when enough bytes remain; for over-long lengths the code returns an empty reader and does not move."
  },
  {
   "property": "C09",
   "status": "partial",
   "theorems": [
    "Ndn.C09_component_length",
    "Ndn.C09_component_roundtrip_partial",
    "Ndn.C09_long_value_violated"
   ],
   "note": "Length claim for all components; round trip through ComponentFromBytes, ParseComponent and ReadComponent for values up to 252 bytes. For every longer value the claim is false (length written as Nat instead of TLNum), proved."
  },
  {
   "property": "C10",
   "status": "partial",
   "theorems": [
    "Ndn.C10_name_roundtrip_partial",
    "Ndn.C10_name_encoding_injective_partial",
    "Ndn.C10_name_encoding_injective_violated"
   ],
   "note": "Exact characterisation: the round trip holds iff all values and the whole name are at most 252 bytes; injectivity on those names; a pair of different names with equal bytes."
  },
  {
   "property": "C11",
   "status": "partial",
   "theorems": [
    "Ndn.C11_name_terminates",
    "Ndn.C11_decode_no_panic_partial",
    "Ndn.C11_decode_no_ff_partial",
    "Ndn.C11_component_panics"
   ],
   "note": "Termination for all inputs; a panic happens only at a length field of at least 2^62; ten bytes that crash the decoder."
  },
  {
   "property": "C12",
   "status": "proved",
   "theorems": [
    "Ndn.C12_component_compare"
   ],
   "note": ""
  },
  {
   "property": "C13",
   "status": "proved",
   "theorems": [
    "Ndn.C13_name_compare_canonical",
    "Ndn.C13_name_compare_total",
    "Ndn.C13_pattern_equal"
   ],
   "note": ""
  },
  {
   "property": "C14",
   "status": "proved",
   "theorems": [
    "Ndn.C14_is_prefix",
    "Ndn.C14_is_prefix_pattern"
   ],
   "note": ""
  },
  {
   "property": "C15",
   "status": "proved",
   "theorems": [
    "Ndn.C15_canonical_string",
    "Ndn.C15_string",
    "Ndn.C15_escaping",
    "Ndn.C15_conventions"
   ],
   "note": "The full claim, and which bytes are escaped and how (C15_escaping). C15_conventions: the text of each named convention (seg, off, v, t, seq, params-sha256, sha256digest) is its marker, '=' and the decimal number (Nat.toDigits 10) or two lower-case hexadecimal digits per byte."
  },
  {
   "property": "C16",
   "status": "partial",
   "theorems": [
    "Ndn.C16_name_uri_roundtrip_partial",
    "Ndn.C16_name_uri_injective_partial",
    "Ndn.C16_name_uri_violated",
    "Ndn.C16_name_uri_type_violated"
   ],
   "note": "Round trip for types 1..65535 with shortest-form numbers, injectivity for all types with shortest-form numbers; counterexamples outside."
  },
  {
   "property": "C17",
   "status": "partial",
   "theorems": [
    "Ndn.C17_component_panics_iff_partial",
    "Ndn.C17_component_panics",
    "Ndn.C17_pattern_panics_iff_partial",
    "Ndn.C17_name_no_panic_partial",
    "Ndn.C17_name_panics",
    "Ndn.C17_name_pattern_no_panic_partial",
    "Ndn.C17_name_pattern_panics",
    "Ndn.C17_component_type_partial",
    "Ndn.C17_component_type_violated"
   ],
   "note": "Exactly which strings panic; counterexamples to the full claim."
  },
  {
   "property": "C18",
   "status": "proved",
   "theorems": [
    "Ndn.C18_match_then_instantiate",
    "Ndn.C18_instantiate_then_match",
    "Ndn.C18_instantiate_missing"
   ],
   "note": ""
  },
  {
   "property": "C19",
   "status": "partial",
   "theorems": [
    "Ndn.Codec.C19_codec_roundtrip_partial",
    "Ndn.Codec.C19_long_component_violated"
   ],
   "note": "Every schema and value; partial because name components are limited to 252 bytes (a longer one breaks the round trip: C19_long_component_violated) and messages to 8 TiB."
  },
  {
   "property": "C20",
   "status": "proved",
   "theorems": [
    "Ndn.Codec.C20_length_pass"
   ],
   "note": ""
  },
  {
   "property": "C21",
   "status": "proved",
   "theorems": [
    "Ndn.Codec.C21_unknown_ignored",
    "Ndn.Codec.C21_unknown_ignored_one",
    "Ndn.Codec.C21_critical_rejected"
   ],
   "note": "Insertion at any depth; messages under 8 TiB whose name components have at most 252 bytes."
  },
  {
   "property": "C22",
   "status": "partial",
   "theorems": [
    "Ndn.Packet.C22_data_unknown_ignored_partial",
    "Ndn.Packet.C22_interest_unknown_ignored_partial",
    "Ndn.Packet.C22_violated",
    "Ndn.Packet.C22_data_exact",
    "Ndn.Packet.C22_interest_exact"
   ],
   "note": "The code violates the claim: an unrecognised element between neighbouring fields loses the second one. Proved for every placement that takes up no round of the parser that a later field needs; and, for elements in order with unrecognised ones anywhere, exactly when the result is unchanged and when a field is lost."
  },
  {
   "property": "C23",
   "status": "partial",
   "theorems": [
    "Ndn.Codec.C23_parse_terminates_partial",
    "Ndn.Codec.C23_parse_terminates_no_ff_partial",
    "Ndn.Packet.C24_readPacket_total_partial",
    "Ndn.Codec.C23_parse_diverges",
    "Ndn.Packet.C23_readPacket_diverges"
   ],
   "note": "The code violates the claim (ten bytes on which every parser loops); termination is proved for buffers without TLV numbers of 2^43 or more, for all generated parsers and for ReadPacket, ReadInterest, ReadData."
  },
  {
   "property": "C24",
   "status": "partial",
   "theorems": [
    "Ndn.Packet.C24_readPacket_total_partial",
    "Ndn.Codec.C23_parse_terminates_partial",
    "Ndn.Packet.C24_readPacket_panics",
    "Ndn.Codec.C24_parse_panics"
   ],
   "note": "The code violates the claim (twelve bytes on which ReadPacket panics); no panic is proved for buffers without TLV numbers of 2^43 or more."
  },
  {
   "property": "C25",
   "status": "partial",
   "theorems": [
    "Ndn.Codec.C25_truncated_message_rejected_partial",
    "Ndn.Codec.C25_truncated_rejected_partial",
    "Ndn.Codec.C25_truncated_struct_accepted_violated",
    "Ndn.Codec.C25_nested_iff"
   ],
   "note": "The code violates the claim for nested messages without required fields; proved that a truncated nested message is rejected if and only if it has a required field."
  },
  {
   "property": "C26",
   "status": "partial",
   "theorems": [
    "Ndn.Packet.C26_params_digest_partial",
    "Ndn.Packet.C26_violated",
    "Ndn.Packet.C26_unbound_violated",
    "Ndn.Packet.C26_any_partial"
   ],
   "note": "The code violates the claim: an element out of order behind the parameters ends the bytes that are hashed, and unrecognised elements before the parameters make the parser skip the start marker, so that nothing at all is hashed whatever the parameters are. Proved for Interests with elements in order and no unrecognised element before the parameters. C26_any_partial: every byte string with one Interest whose elements are in order, whatever their values and the form of their numbers, with unrecognised elements anywhere except where they take the round of a later element or of the start marker."
  },
  {
   "property": "C27",
   "status": "partial",
   "theorems": [
    "Ndn.Packet.C27_data_round_trip_partial",
    "Ndn.Packet.C27_violated",
    "Ndn.Packet.C27_length_violated",
    "Ndn.Packet.C27_any_freshness_partial",
    "Ndn.Packet.C27_freshness_iff"
   ],
   "note": "The code violates the claim: a freshness that is not whole milliseconds is rounded, and with an estimate of 253 bytes or more only the last byte of the length is corrected. Proved for whole milliseconds, components up to 252 bytes and signature lengths that differ from the estimate in the last byte of the encoded length only (always so below 253). C27_any_freshness_partial: every freshness of 64 bits comes back cut to whole milliseconds, all else unchanged."
  },
  {
   "property": "C28",
   "status": "partial",
   "theorems": [
    "Ndn.Packet.C28_interest_round_trip_partial",
    "Ndn.Packet.C28_violated",
    "Ndn.Packet.C28_key_name_violated",
    "Ndn.Packet.C28_any_lifetime_partial"
   ],
   "note": "MakeInterest (encoder, signature patch, digest patch, length shrink) followed by ReadInterest returns final name, options, parameters, signature and the signed bytes, for nonce < 2^32, hop limit < 256, whole-millisecond lifetime, signature time within int64 nanoseconds, components of at most 252 bytes, and a hash of 32 bytes. Violated otherwise: nonce 2^32 comes back as 0; the key name of a digest signer is dropped. C28_any_lifetime_partial: every lifetime of 64 bits comes back cut to whole milliseconds."
  },
  {
   "property": "C29",
   "status": "partial",
   "theorems": [
    "Ndn.Packet.C29_signed_bytes_any_partial",
    "Ndn.Packet.C29_signed_bytes_partial",
    "Ndn.Packet.C29_violated",
    "Ndn.Packet.C29_signed_violated"
   ],
   "note": "The code violates the claim for unsigned Data and for two Data in one buffer. Proved for every buffer with one Data that has a signature value, whatever the order, repetition or recognition of the elements inside."
  },
  {
   "property": "C30",
   "status": "partial",
   "theorems": [
    "Ndn.Engine.C30_prefix_free",
    "Ndn.Engine.C30_history_partial",
    "Ndn.Engine.C30_attach_iff_partial",
    "Ndn.Engine.C30_attach_effect",
    "Ndn.Engine.C30_nonminimal_violated"
   ],
   "note": "The trie is keyed by component text, so components whose number is not in shortest form collide (witness); prefix-freeness holds for every history, the exact attach condition for names with shortest-form numbers."
  },
  {
   "property": "C31",
   "status": "partial",
   "theorems": [
    "Ndn.Engine.C31_dispatch_partial",
    "Ndn.Engine.C31_nonminimal_violated"
   ],
   "note": "Same restriction to shortest-form numbers; violated otherwise."
  },
  {
   "property": "C32",
   "status": "partial",
   "theorems": [
    "Ndn.Engine.C32_detach_partial",
    "Ndn.Engine.C32_interior_violated",
    "Ndn.Engine.C32_root_violated"
   ],
   "note": "The code violates the claim: detaching an interior node without handler succeeds and drops others; the root keeps its handler."
  },
  {
   "property": "C33",
   "status": "partial",
   "theorems": [
    "Ndn.Engine.C33_at_most_once_partial",
    "Ndn.Engine.C33_race_violated",
    "Ndn.Engine.C33_nack_violated",
    "Ndn.Engine.C33_root_violated"
   ],
   "note": "onNack does not clear the entries it answers; proved for all schedules without a Nack for the Interest's name, violated with one (three witnesses)."
  },
  {
   "property": "C34",
   "status": "proved",
   "theorems": [
    "Ndn.Engine.C34_result",
    "Ndn.Engine.C34_recorded"
   ],
   "note": "All schedules; lifetime plus the 10 ms margin, every due timer has fired and run. Callbacks do not re-enter the engine."
  },
  {
   "property": "C35",
   "status": "partial",
   "theorems": [
    "Ndn.Engine.C35_satisfied_partial",
    "Ndn.Engine.C35_digest_prefix_violated",
    "Ndn.Engine.C35_nonminimal_violated"
   ],
   "note": "Violated by an Interest with a digest and CanBePrefix, and by non-shortest numbers."
  },
  {
   "property": "C36",
   "status": "partial",
   "theorems": [
    "Ndn.Engine.C36_exact",
    "Ndn.Engine.C36_harmless_partial",
    "Ndn.Engine.C36_unsolicited_violated",
    "Ndn.Engine.C36_prefix_violated"
   ],
   "note": "Violated: unsolicited Data unlinks pending Interests; exact effect characterised for all schedules."
  },
  {
   "property": "C37",
   "status": "partial",
   "theorems": [
    "Ndn.Engine.C37_set",
    "Ndn.Engine.C37_prefix_match",
    "Ndn.Engine.C37_delete_exact",
    "Ndn.Engine.C37_delete_partial",
    "Ndn.Engine.C37_delete_violated",
    "Ndn.Engine.C37_nonminimal_violated"
   ],
   "note": "Deleting an interior name removes its extensions, and non-shortest numbers collide (witnesses)."
  },
  {
   "property": "C38",
   "status": "partial",
   "theorems": [
    "Ndn.Engine.C38_bare_partial",
    "Ndn.Engine.C38_link_partial",
    "Ndn.Engine.C38_drop_partial",
    "Ndn.Engine.C38_nack_none_violated",
    "Ndn.Engine.C38_overlong_violated",
    "Ndn.Engine.C38_no_return_violated",
    "Ndn.Engine.C38_two_packets_violated"
   ],
   "note": "Dispatch proved on bytes: bare Interest/Data, link packets with any extra fields and unknown elements, Nack, fragmented, empty, nested, malformed. Missing because the code violates it: Nack header with reason 0 is handled as a received Interest; a TLV whose length exceeds the buffer is not dropped; some buffers panic or never return; an Interest behind a Data is handed on unchecked."
  },
  {
   "property": "C39",
   "status": "partial",
   "theorems": [
    "Ndn.Engine.C39_reply_partial",
    "Ndn.Engine.C39_sent_is_link",
    "Ndn.Engine.C39_lifetime_violated"
   ],
   "note": "Reply proved for every deadline, time, face state, token and packet, down to the bytes sent. Missing because the code violates it: lifetimes of 2^63 ns or more overflow and make Reply refuse at once."
  },
  {
   "property": "C40",
   "status": "partial",
   "theorems": [
    "Ndn.Engine.Dummy.C40_exactly_once_partial",
    "Ndn.Engine.Dummy.C40_life_sound",
    "Ndn.Engine.Dummy.C40_double_cancel_violated",
    "Ndn.Engine.Dummy.C40_callback_violated",
    "Ndn.Engine.Dummy.C40_nested_move_diverges"
   ],
   "note": "Holds for every sequence of top-level operations (callbacks may schedule and cancel). The code loses events scheduled by a callback, fires events cancelled by a callback, lets a second cancel hit another event, and recurses without end when a callback moves the time (all proved)."
  },
  {
   "property": "C41",
   "status": "proved",
   "theorems": [
    "Ndn.Engine.C41_framing",
    "Ndn.Engine.C41_refused",
    "Ndn.Engine.C41_not_shortest"
   ],
   "note": "Any packets (TLV elements with shortest-form numbers and total size at most 2^48), any split of the byte stream into non-empty reads, complete or cut tail. C41_not_shortest records that an element with a longer-than-necessary type number is delivered re-encoded; such bytes are not a packet in the sense of the theorem."
  },
  {
   "property": "C42",
   "status": "proved",
   "theorems": [
    "Ndn.Util.C42_contents",
    "Ndn.Util.C42_pop",
    "Ndn.Util.C42_remove",
    "Ndn.Util.C42_no_panic",
    "Ndn.Util.C42_drain_sorted"
   ],
   "note": "container/heap algorithms over an abstract lawful interface; the order is any strict weak order"
  },
  {
   "property": "C43",
   "status": "partial",
   "theorems": [
    "Ndn.Util.C43_push",
    "Ndn.Util.C43_pop_least",
    "Ndn.Util.C43_update",
    "Ndn.Util.C43_no_panic",
    "Ndn.Util.C43_reference_partial",
    "Ndn.Util.C43_reference_violated"
   ],
   "note": "Push returns a copied index, not a reference that follows the item: after another push the returned index can denote another item (C43_reference_violated). Priority order, contents and updates through a live index are proved."
  },
  {
   "property": "C44",
   "status": "partial",
   "theorems": [
    "Ndn.Sync.C44_monotone_partial",
    "Ndn.Sync.C44_received_monotone",
    "Ndn.Sync.C44_wrap_violated",
    "Ndn.Sync.C44_results"
   ],
   "note": "Holds for every history except that IncrSeqNo wraps from 2^64-1 to 0 (negation proved)."
  },
  {
   "property": "C45",
   "status": "partial",
   "theorems": [
    "Ndn.Sync.C45_ranges_partial",
    "Ndn.Sync.C45_collision_violated"
   ],
   "note": "Holds for every remote producer whose name hash no other name shares. State is keyed by a hash that ignores component boundaries: two distinct names collide for every hash function, and their ranges get mixed (negation proved)."
  },
  {
   "property": "C46",
   "status": "partial",
   "theorems": [
    "Ndn.Sync.C46_join_partial",
    "Ndn.Sync.C46_order_partial",
    "Ndn.Sync.C46_exchange",
    "Ndn.Sync.C46_collision_violated"
   ],
   "note": "Join and order independence need distinct hashes and numbers below 2^64; convergence of any number of nodes (C46_exchange) holds without restriction. Collision negation proved."
  },
  {
   "property": "C47",
   "status": "partial",
   "theorems": [
    "Ndn.Sync.C47_suppressed_partial",
    "Ndn.Sync.C47_news_is_sent",
    "Ndn.Sync.C47_publication",
    "Ndn.Sync.C47_publication_sent_partial"
   ],
   "note": "Coverage is per name hash (names with colliding hashes are taken for one another). A publication starts a send; in every schedule in which the main loop runs on and no number wraps, a goroutine waits to send until one has run, and the first one that runs sends a vector with the published number or a greater one (C47_publication_sent_partial)."
  },
  {
   "property": "C48",
   "status": "partial",
   "theorems": [
    "Ndn.Sync.C48_vector",
    "Ndn.Sync.C48_roundtrip_partial"
   ],
   "note": "Components of at most 252 bytes (encoder bug for longer ones, C19_long_component_violated); parser modelled on BufferReader."
  },
  {
   "property": "C49",
   "status": "partial",
   "theorems": [
    "Ndn.Schema.C49_match_apply_partial",
    "Ndn.Schema.C49_match_apply_exact_partial",
    "Ndn.Schema.C49_apply_match_partial",
    "Ndn.Schema.C49_refine_partial",
    "Ndn.Schema.C49_repeated_tag_violated",
    "Ndn.Schema.C49_digest_tag_violated",
    "Ndn.Schema.C49_digest_edge_violated",
    "Ndn.Schema.C49_refine_digest"
   ],
   "note": "Match and Apply of the schema tree are inverse for trees whose sibling edges do not clash and paths without repeated or digest tags; fails for repeated tags, for tags named like the digests, and for edges that are digest components (witnesses)."
  },
  {
   "property": "C50",
   "status": "proved",
   "theorems": [
    "Ndn.Schema.C50_dispatch",
    "Ndn.Schema.C50_once",
    "Ndn.Schema.C50_remove",
    "Ndn.Schema.C50_dispatch_until"
   ],
   "note": "For every history of Add, Remove and dispatches and for callbacks that do anything, including adding and removing callbacks."
  },
  {
   "property": "C51",
   "status": "partial",
   "theorems": [
    "Ndn.Schema.C51_data",
    "Ndn.Schema.C51_data_pass",
    "Ndn.Schema.C51_interest_partial",
    "Ndn.Schema.C51_signed",
    "Ndn.Schema.C51_sigtype_violated",
    "Ndn.Schema.C51_plain"
   ],
   "note": "Proved for Data, and for Interests with parameters, a signature value (checked Interest) or a signature type below 2^64-1; an Interest with SignatureInfo of type 2^64-1 is not validated (witness on bytes)."
  },
  {
   "property": "C52",
   "status": "partial",
   "theorems": [
    "Ndn.Schema.C52_once_partial",
    "Ndn.Schema.C52_send_violated",
    "Ndn.Schema.C52_nack_violated",
    "Ndn.Schema.C52_save_panics",
    "Ndn.Schema.C52_chan_partial"
   ],
   "note": "Exactly one invocation in every schedule of the engine if Send succeeds and no Nack for the name comes; two invocations if Send fails (NeedChan then panics) or after a Nack; MemStoragePolicy panics on a Data without FreshnessPeriod."
  },
  {
   "property": "C53",
   "status": "partial",
   "theorems": [
    "Ndn.Schema.C53_found",
    "Ndn.Schema.C53_answer_partial",
    "Ndn.Schema.C53_extension",
    "Ndn.Schema.C53_exact_violated",
    "Ndn.Schema.C53_nonminimal_violated",
    "Ndn.Schema.C53_freshness"
   ],
   "note": "Every history of puts, every order of map iteration; CanBePrefix is ignored by the code (witness)."
  },
  {
   "property": "C54",
   "status": "partial",
   "theorems": [
    "Ndn.Schema.C54_segments_partial",
    "Ndn.Schema.C54_exact",
    "Ndn.Schema.C54_empty_buffer_violated",
    "Ndn.Schema.C54_zero_panics",
    "Ndn.Schema.C54_overflow_violated"
   ],
   "note": "All claims hold for every content in any buffers in which no byte comes after an empty buffer, and every segment size > 0 with length + size <= 2^64. The code violates the rest: bytes after an empty buffer are lost, size 0 panics, a huge size overflows and gives no segment."
  },
  {
   "property": "C55",
   "status": "partial",
   "theorems": [
    "Ndn.Schema.C55_result",
    "Ndn.Schema.C55_returns_partial",
    "Ndn.Schema.C55_manifest_returns",
    "Ndn.Schema.C55_roundtrip",
    "Ndn.Schema.C55_final_panics",
    "Ndn.Schema.C55_diverges"
   ],
   "note": "Whatever the fetches give: a success is the concatenation of segments 0..n, each the first Data received within the limit; a failure means all trials of a segment failed. Returning without panic needs final block ids (or a manifest); the code panics on a Data without FinalBlockID and never returns if no segment names itself as final."
  },
  {
   "property": "C56",
   "status": "partial",
   "theorems": [
    "Ndn.Schema.C56_monotone_partial",
    "Ndn.Schema.C56_recorded",
    "Ndn.Schema.C56_ranges_partial",
    "Ndn.Schema.C56_own_partial",
    "Ndn.Schema.C56_no_panic_partial",
    "Ndn.Schema.C56_own_violated",
    "Ndn.Schema.C56_wrap_violated",
    "Ndn.Schema.C56_parse_panics"
   ],
   "note": "For every producer other than the node: monotone, equal to the greatest number received, ranges contain each number up to the recorded one exactly once (if 2^64-1 is never received). For the node itself only if no vector claims more for it than it published. The code violates the rest: a hostile vector raises the node's own number, which then goes back; the range end overflows at 2^64-1; a malformed content panics."
  },
  {
   "property": "C57",
   "status": "partial",
   "theorems": [
    "Ndn.Security.C57_sha256",
    "Ndn.Security.C57_hmac",
    "Ndn.Security.C57_reject",
    "Ndn.Security.C57_data_sha256_partial",
    "Ndn.Security.C57_data_hmac_partial",
    "Ndn.Security.C57_data_ecdsa_partial",
    "Ndn.Security.C57_interest_sha256_partial",
    "Ndn.Security.C57_interest_hmac_partial",
    "Ndn.Security.C57_rsa_violated",
    "Ndn.Security.C57_interest_ecdsa_partial",
    "Ndn.Security.C57_types",
    "Ndn.Security.C57_info"
   ],
   "note": "Signers and validators modelled over arbitrary SHA-256/HMAC functions and an arbitrary signature scheme with a correctness contract. SHA-256, HMAC and ECDSA packets validate after Make and re-read; a changed signature or type is rejected. The RSA signer reports the ECDSA type, so its own packets fail RsaValidate (proved). Partial: sizes below the codec bounds, packets read from one buffer."
  },
  {
   "property": "C58",
   "status": "partial",
   "theorems": [
    "Ndn.Security.C58_sha256_partial",
    "Ndn.Security.C58_ecdsa_partial",
    "Ndn.Security.C58_wrap_violated",
    "Ndn.Security.C58_hmac_violated",
    "Ndn.Security.C58_hmac_key_in_packet"
   ],
   "note": "Sequence numbers of the SHA-256 and ECDSA Interest signers strictly increase until the uint64 counter wraps (wrap proved); the HMAC Interest signer never increments (proved) and puts the key into the packet as key name (proved). Partial: one goroutine per signer, fewer than 2^64 signatures."
  },
  {
   "property": "C59",
   "status": "partial",
   "theorems": [
    "Ndn.Crdt.C59_converge_partial",
    "Ndn.Crdt.C59_shows_partial",
    "Ndn.Crdt.C59_same_order_partial",
    "Ndn.Crdt.C59_no_panic_partial",
    "Ndn.Crdt.C59_panics",
    "Ndn.Crdt.C59_panics_other_order",
    "Ndn.Crdt.C59_duplicate_violated",
    "Ndn.Crdt.C59_blocked_violated",
    "Ndn.Crdt.C59_drained"
   ],
   "note": "Full convergence of the text CRDT for any number of replicas, edits and ready delivery orders, as long as no call panics and fewer than 2^64 steps are made; the text is that of all insertions handled, each once, without those deleted. Handling does panic (nil Origin read in InsertInto, proved for a causal order); proved not to panic for deletions, insertions at the very beginning, and when no two insertions were made at the very beginning. A record handled twice is shown twice; a record that is not ready can block the queue for good (both proved)."
  },
  {
   "property": "C60",
   "status": "partial",
   "theorems": [
    "Ndn.C60_pattern_text_roundtrip_partial",
    "Ndn.C60_pattern_text_violated"
   ],
   "note": "The code loses a trailing empty component."
  },
  {
   "property": "C61",
   "status": "proved",
   "theorems": [
    "Ndn.Codec.C61_required_missing",
    "Ndn.Codec.C61_required_present"
   ],
   "note": "For every model without the ordered option, a required field missing at any position and any number of them; and with none missing the same message is accepted."
  },
  {
   "property": "C62",
   "status": "proved",
   "theorems": [
    "Ndn.Schema.C62_silent",
    "Ndn.Schema.C62_sends"
   ],
   "note": "Every history; timer durations not modelled."
  },
  {
   "property": "C63",
   "status": "partial",
   "theorems": [
    "Ndn.Schema.C63_data_partial",
    "Ndn.Schema.C63_order_violated",
    "Ndn.Schema.C63_own_data_partial",
    "Ndn.Schema.C63_interest_partial"
   ],
   "note": "What is handed on was verified by some policy and found forged by none; conversely, what none finds forged is handed on if the policy attached last is one for its type of signature. Missing: the converse for any order. It is false: a later policy that keeps silent overrides an earlier one that passes (`C63_order_violated`), so two policies on a node accept or refuse the same Data depending on their order. What MakeData signs with a policy's signer is accepted by that policy."
  },
  {
   "property": "C64",
   "status": "partial",
   "theorems": [
    "Ndn.Schema.C64_chain_partial",
    "Ndn.Schema.C64_locator_violated",
    "Ndn.Schema.C64_renewed_violated",
    "Ndn.Schema.C64_signed_by_partial",
    "Ndn.Schema.C64_trust_partial",
    "Ndn.Schema.C64_own_data_partial",
    "Ndn.Schema.C64_target_panics",
    "Ndn.Schema.C64_key_name_panics"
   ],
   "note": "The chain to an anchor holds (components of at most 252 bytes, certificates under 8 TiB), also composed with the policy, and so do the decisions of the policy when the Data matches the tree and its tags give a key name. False in the code: an enrolled certificate names itself instead of the key that signed it; a key that is enrolled again is never found; a Data that the tree does not match, or whose tags do not give a key name, crashes the policy."
  },
  {
   "property": "C65",
   "status": "partial",
   "theorems": [
    "Ndn.Schema.C65_roundtrip_partial",
    "Ndn.Schema.C65_refuses",
    "Ndn.Schema.C65_iv_panics",
    "Ndn.Schema.C65_length_panics",
    "Ndn.Schema.C65_safe_partial",
    "Ndn.Schema.C65_again_violated",
    "Ndn.Schema.C65_keys"
   ],
   "note": "The round trip holds for every content under 4 TiB and every correct block cipher; keys of the wrong size are refused. False in the code: an initialisation vector of another length than 16, or a length greater than the content, crashes the reader; decryption overwrites the received packet, so a second decryption gives something else. With the capacity of a slice beyond its length (not modelled) a length that is too great can also reveal bytes behind the content. C65_keys: exactly keys of 16, 24 or 32 bytes decrypt."
  },
  {
   "property": "C66",
   "status": "proved",
   "theorems": [
    "Ndn.Schema.DTree.C66_refuses_existing",
    "Ndn.Schema.DTree.C66_found",
    "Ndn.Schema.DTree.C66_others_kept",
    "Ndn.Schema.DTree.C66_nodes_stay"
   ],
   "note": "Every tree, path and created subtree. Creating a node does not panic (the descriptions' Create functions are inputs)."
  },
  {
   "property": "C67",
   "status": "partial",
   "theorems": [
    "Ndn.Schema.DTree.C67_builds_iff",
    "Ndn.Schema.DTree.C67_nodes",
    "Ndn.Schema.DTree.C67_order_partial",
    "Ndn.Schema.DTree.C67_separate_partial",
    "Ndn.Schema.DTree.C67_parent_violated",
    "Ndn.Schema.DTree.C67_match_partial",
    "Ndn.Schema.DTree.C67_match_violated"
   ],
   "note": "Exactly which orders work, and the nodes of the result in terms of the set of nodes. The code violates the claim: a node and a node below it can only be put in one order, so that instantiating panics at random; and with overlapping edges a name is matched to one or the other node at random. Proved otherwise. Attributes, events and policies are not modelled."
  },
  {
   "property": "C68",
   "status": "partial",
   "theorems": [
    "Ndn.Codec.C68_length_pass",
    "Ndn.Codec.C68_last_wins",
    "Ndn.Codec.C68_roundtrip_partial",
    "Ndn.Codec.C68_nil_value_violated",
    "Ndn.Codec.C68_between_refused"
   ],
   "note": "Proved: the length pass and the write pass agree for any two iteration orders; a parsed map maps each key to the last value written for it; a map with distinct keys and non-nil values comes back. The full claim is false: an entry with a nil value is written as a bare key, which the parser then refuses. An unknown element between a key and its value is refused even when it could be ignored."
  },
  {
   "property": "C69",
   "status": "partial",
   "theorems": [
    "Ndn.Engine.C69_command_partial",
    "Ndn.Engine.C69_long_violated",
    "Ndn.Engine.C69_response",
    "Ndn.Engine.C69_success",
    "Ndn.Engine.C69_first_answer",
    "Ndn.Engine.C69_finishes_partial",
    "Ndn.Engine.C69_no_panic_partial",
    "Ndn.Engine.C69_send_failed_violated",
    "Ndn.Engine.C69_twice_violated",
    "Ndn.Engine.C69_race_violated"
   ],
   "note": "Proved: for parameters of at most 252 bytes the forwarder reads back the name, the arguments and the signature; success is reported exactly for status code 200 under an accepted signature; with one callback and a face that sends, the caller gets the first answer and the lock is freed. The full claim is false: longer parameters (for instance the route of a long prefix) are written as a component that does not decode; when the face fails to send, the callback blocks forever with the PIT locked; a second callback (after a Nack, C33) sends on a closed channel and panics."
  },
  {
   "property": "C70",
   "status": "partial",
   "theorems": [
    "Ndn.Schema.C70_rdr_roundtrip_partial",
    "Ndn.Schema.C70_version_panics",
    "Ndn.Schema.C70_malformed_panics",
    "Ndn.Schema.C70_foreign_violated",
    "Ndn.Schema.C70_unmatched_panics",
    "Ndn.Schema.C70_self_diverges",
    "Ndn.Schema.C70_empty_violated",
    "Ndn.Schema.C70_general_roundtrip_partial",
    "Ndn.Schema.C70_manifest_integrity",
    "Ndn.Schema.C70_empty_general_violated",
    "Ndn.Schema.C70_metadata_violated",
    "Ndn.Schema.C70_refine_shorter"
   ],
   "note": "Proved for every content that is not empty and every network that delivers what was published within the retries, for both kinds of object; with the published manifest a success is the published content unless a received packet has the digest of a different published one. The property fails for RdrNode: a given version panics unless the name of the node has only empty components of type 0, metadata that cannot be read or that names no node panics, metadata naming another object is reported as a success without content, metadata naming the object itself is fetched for ever. An empty content is never delivered; with a manifest anybody can forge it. Metadata naming the metadata itself is returned as the object (C70_metadata_violated)."
  },
  {
   "property": "C71",
   "status": "partial",
   "theorems": [
    "Ndn.Codec.Schema.C71_library_roundtrip_partial",
    "Ndn.Codec.Schema.C71_maps_roundtrip_partial",
    "Ndn.Codec.Schema.C71_probe_violated"
   ],
   "note": "Proved for all 45 message types without maps and the 3 with maps, for messages shorter than 2^43 bytes with values in range (name components of at most 252 bytes). Fails for ProbeRes of NDNCERT: MaxSuffixLength has no tlv tag, so it is written as an element of type 0 that the parser refuses or, with ignoreCritical, drops."
  },
  {
   "property": "C72",
   "status": "partial",
   "theorems": [
    "Ndn.Codec.C72_roundtrip_partial",
    "Ndn.Codec.C72_fromDict_iff",
    "Ndn.Codec.C72_fromDict_error",
    "Ndn.Codec.C72_other_ignored",
    "Ndn.Codec.C72_nested_violated",
    "Ndn.Engine.C72_command",
    "Ndn.Engine.C72_strategy_violated",
    "Ndn.Codec.C72_unsupported_violated"
   ],
   "note": "Proved for every schema of supported fields: DictTo succeeds exactly on the agreeing dictionaries and its error names the field at fault; there and back for structs without nested struct. Fails whenever a nested struct is set (ToDict stores a dictionary, DictTo wants a pointer), so the arguments of a strategy-choice command do not survive. Sequence, time and wire fields are excluded: the generator emits invalid code or nothing for them. Entries under other names are ignored. Fields of time and wire class never reach the dictionary nor come back (C72_unsupported_violated; no struct of the library that is converted has one)."
  },
  {
   "property": "C73",
   "status": "partial",
   "theorems": [
    "Ndn.Schema.C73_attrs_partial",
    "Ndn.Schema.C73_set_partial",
    "Ndn.Schema.C73_set_safe",
    "Ndn.Schema.C73_time_get",
    "Ndn.Schema.C73_environment",
    "Ndn.Schema.C73_classes",
    "Ndn.Schema.C73_name_violated",
    "Ndn.Schema.C73_content_type_violated",
    "Ndn.Schema.C73_duration_violated",
    "Ndn.Schema.C73_patterns_violated",
    "Ndn.Schema.C73_time_get_violated",
    "Ndn.Schema.C73_defaults",
    "Ndn.Schema.C73_time_get_negative",
    "Ndn.Schema.C73_svs_lifetime_violated"
   ],
   "note": "The code violates the claim in four ways: a name given as text is refused if valid and set to the empty name without error if invalid (inverted test); no JSON number is accepted for a ContentType, so Instantiate panics; a time.Duration is refused, and CreateSvsNode ignores that, so its sync Interests keep a lifetime of 4 s instead of 1 s; a JSON number in a pattern is dropped without error. Proved for all other values, with the substitution of the environment, the safety of every Set, and the tables of all classes. A negative time is taken and read back as an enormous number. C73_defaults: the value each constructor leaves in each property before anything is set; C73_time_get_negative: a negative duration reads back as a wrapped number of milliseconds; C73_svs_lifetime_violated: the SVS node's lifetime default."
  },
  {
   "property": "C74",
   "status": "partial",
   "theorems": [
    "Ndn.Crdt.C74_insert_partial",
    "Ndn.Crdt.C74_delete_partial",
    "Ndn.Crdt.C74_front",
    "Ndn.Crdt.C74_returned",
    "Ndn.Crdt.C74_offset_violated"
   ],
   "note": "Holds for every document whose first item is not deleted, and at the front always. Fails once the first item is deleted, because ItemAt counts the first item whether deleted or not (crdt.go:161-172): C74_offset_violated gives the wrong item for every offset."
  },
  {
   "property": "C75",
   "status": "partial",
   "theorems": [
    "Ndn.Sync.C75_answer_partial",
    "Ndn.Sync.C75_dropped",
    "Ndn.Sync.C75_missing_violated"
   ],
   "note": "Holds for vectors in which no two entries have the same hash and which do not both lack a name and have an entry that is too small. Fails for those: missing names are looked for only if no entry is too small (svs.go:216-224), so that a vector lacking a name known for long is dropped if it also has a recently outdated entry (C75_missing_violated). Durations of the timer are not modelled."
  },
  {
   "property": "C76",
   "status": "partial",
   "theorems": [
    "Ndn.C76_prefix_hash",
    "Ndn.C76_component_hash",
    "Ndn.C76_hash_plain_partial",
    "Ndn.C76_hash_shape_partial",
    "Ndn.C76_hash_violated"
   ],
   "note": "PrefixHash is proved for every name.  The code violates the second half: the length of a value is not hashed, so every name of two or more components has a partner that hashes alike under every hash function (C76_hash_violated); different bytes are hashed for different names without zero bytes in their values, and for names whose values have the same lengths."
  },
  {
   "property": "C77",
   "status": "partial",
   "theorems": [
    "Ndn.C77_full_name",
    "Ndn.C77_cut",
    "Ndn.C77_tight",
    "Ndn.C77_parsed_spare",
    "Ndn.C77_frame_partial",
    "Ndn.C77_shared_violated",
    "Ndn.C77_empty_panics"
   ],
   "note": "The value returned is proved for every slice and memory.  The code violates the rest: it appends in place when the slice has spare room, which every name read by a generated parser has (C77_parsed_spare), so that a second call changes the first result (C77_shared_violated); nothing changes for names from Clone and NameFromStr (C77_tight, C77_frame_partial).  The empty name panics."
  },
  {
   "property": "C78",
   "status": "proved",
   "theorems": [
    "Ndn.C78_number",
    "Ndn.C78_order",
    "Ndn.C78_matching"
   ],
   "note": ""
  },
  {
   "property": "C79",
   "status": "partial",
   "theorems": [
    "Ndn.Schema.C79_attach",
    "Ndn.Schema.C79_detach",
    "Ndn.Schema.C79_history_partial",
    "Ndn.Schema.C79_late_interest_panics",
    "Ndn.Schema.C79_refused_violated",
    "Ndn.Schema.C79_error_violated",
    "Ndn.Schema.C79_detach_twice_violated",
    "Ndn.Schema.C79_moved_violated"
   ],
   "note": "Attach and Detach do what they should for every tree and every growth of the arrays of the paths, and a whole history is safe and complete if the tree is attached only while detached and detached only while no Interest waits for its lock. Violated by the code: errors of attach listeners are dropped; an Attach refused by the engine leaves all nodes attached and Detach then does nothing; Detach does not forget the engine, so a second one fires all events again and removes somebody else's handler; an Interest handed over before Detach and run after it panics; attaching at a second prefix strands the first handler."
  },
  {
   "property": "C80",
   "status": "partial",
   "theorems": [
    "Ndn.Sync.C80_flow",
    "Ndn.Sync.C80_calm_partial",
    "Ndn.Sync.C80_stopped_partial",
    "Ndn.Sync.C80_stop_completes_partial",
    "Ndn.Sync.C80_late_panics",
    "Ndn.Sync.C80_stop_twice_panics",
    "Ndn.Sync.C80_restart_panics",
    "Ndn.Sync.C80_first_violated",
    "Ndn.Sync.C80_callback_diverges",
    "Ndn.Sync.C80_not_started_diverges",
    "Ndn.Sync.C80_lost_violated"
   ],
   "note": "For every schedule the vectors reach the main loop in order and at most once. With one Start before one Stop, and no handler goroutine left when the channel is closed, nothing panics, Stop can complete and nothing is heard after it. Violated by the code: a late handler, a second Stop and a Start after Stop panic; Stop from onUpdate and Stop after a failed Start block for ever (the latter removing another handler); queued vectors may be lost at Stop; the first Sync Interest may be skipped."
  },
  {
   "property": "C81",
   "status": "partial",
   "theorems": [
    "Ndn.Schema.C81_answered",
    "Ndn.Schema.C81_expired",
    "Ndn.Schema.C81_from_storage",
    "Ndn.Schema.C81_need_partial",
    "Ndn.Schema.C81_provides",
    "Ndn.Schema.C81_refused",
    "Ndn.Schema.C81_provide_panics",
    "Ndn.Schema.C81_digest_violated",
    "Ndn.Schema.C81_freshness_violated"
   ],
   "note": "Proved for all runs: the packet answers, Need gives back name, content and metadata (restrictions of C27), expiry, nothing else is answered, a failed MakeData stores nothing. The claim fails: an Interest with an implicit digest is answered with a packet of another digest, MustBeFresh is judged by the validity of the node and not by FreshnessPeriod, Provide panics before the tree is attached or with a storage applied after that. Storages other than MemStoragePolicy are not modelled."
  },
  {
   "property": "C82",
   "status": "partial",
   "theorems": [
    "Ndn.Engine.Face.C82_one_reader",
    "Ndn.Engine.Face.C82_started",
    "Ndn.Engine.Face.C82_restart",
    "Ndn.Engine.Face.C82_stopped",
    "Ndn.Engine.Face.C82_stop_ends",
    "Ndn.Engine.Face.C82_in_order",
    "Ndn.Engine.Face.C82_whole_partial",
    "Ndn.Engine.Face.C82_sent_partial",
    "Ndn.Engine.Face.C82_split_violated",
    "Ndn.Engine.Face.C82_send_panics",
    "Ndn.Engine.Face.C82_stop_panics",
    "Ndn.Engine.Face.C82_restart_violated",
    "Ndn.Engine.Face.C82_late_violated",
    "Ndn.Engine.Face.C82_leak_violated",
    "Ndn.Engine.Face.C82_ws_diverges"
   ],
   "note": "Proved for all interleavings: one Run on the current connection, Start, order of delivery, no writes and at most one more packet after Shutdown, Run ends within five of its steps, Start succeeds once Run has ended. Whole packets are proved when no connection is dialled in the midst of a Send. The code violates the rest: a packet split over two connections with Send returning nil, a nil connection dereferenced in Send and in Close, Start refused right after Shutdown, a packet delivered after Shutdown, lost connections never closed, and WebSocketFace.Run looping for ever on a lost connection."
  },
  {
   "property": "C83",
   "status": "partial",
   "theorems": [
    "Ndn.Security.C83_identity_partial",
    "Ndn.Security.C83_key_partial",
    "Ndn.Security.C83_cert_partial",
    "Ndn.Security.C83_cert_key_partial",
    "Ndn.Security.C83_key_identity_partial",
    "Ndn.Security.C83_find_partial",
    "Ndn.Security.C83_identity_find_partial",
    "Ndn.Security.C83_file_name",
    "Ndn.Security.C83_signer_partial",
    "Ndn.Security.C83_chain_partial",
    "Ndn.Security.C83_long_violated",
    "Ndn.Security.C83_self_violated",
    "Ndn.Security.C83_foreign_violated"
   ],
   "note": "Proved for names whose lengths are below 253 (the others are never found: C83_long_violated). C83_chain_partial is for elliptic-curve keys (RSA keys sign under the wrong type, C57) with the hypotheses of C27. The code violates the rest: the name inside a certificate and its key locator are not compared with anything, so SelfSignedCert may give a certificate signed by another key; an identity gives out any key. The hash of key names is a parameter; two key names share a file exactly if their hashes are equal."
  },
  {
   "property": "C84",
   "status": "partial",
   "theorems": [
    "Ndn.Engine.Locks.C84_no_deadlock_partial",
    "Ndn.Engine.Locks.C84_returns_partial",
    "Ndn.Engine.Locks.C84_released_partial",
    "Ndn.Engine.Locks.C84_alone_partial",
    "Ndn.Engine.Locks.C84_reentrant_violated",
    "Ndn.Engine.Locks.C84_attach_violated"
   ],
   "note": "Proved for every set of goroutines whose callbacks given to Engine.Express do not themselves use the PIT, the storages or the tree, and whose attach and detach listeners do not change the tree. The code violates the rest: onData, onNack and the timeout call the callback with the PIT locked, so a callback that expresses another Interest stops the engine for ever (C84_reentrant_violated); a listener of OnAttach that puts a node into its tree never returns (C84_attach_violated). Channels are in C85 and C82."
  },
  {
   "property": "C85",
   "status": "partial",
   "theorems": [
    "Ndn.Schema.Svs.C85_calm_partial",
    "Ndn.Schema.Svs.C85_ticking_partial",
    "Ndn.Schema.Svs.C85_refines_partial",
    "Ndn.Schema.Svs.C85_progress_partial",
    "Ndn.Schema.Svs.C85_returns_partial",
    "Ndn.Schema.Svs.C85_sync_interval",
    "Ndn.Schema.Svs.C85_agg_interval",
    "Ndn.Schema.Svs.C85_reader_violated",
    "Ndn.Schema.Svs.C85_late_sync_panics",
    "Ndn.Schema.Svs.C85_late_timer_panics",
    "Ndn.Schema.Svs.C85_detach_twice_panics",
    "Ndn.Schema.Svs.C85_reattach_violated",
    "Ndn.Schema.Svs.C85_listener_panics"
   ],
   "note": "Proved in full while the tree stays attached and vectors parse (C56 has the panic for one that does not). The code violates the rest: a reader of the channel that publishes first may wait for ever together with the handler that waits for room in the channel; after Detach a late Sync Interest sends on the closed channel and a late timer uses the detached node; Detach twice closes the channel twice; Attach makes the lock anew while a goroutine may hold it; a listener of OnMissingData meets an unfinished function that panics."
  },
  {
   "property": "C86",
   "status": "partial",
   "theorems": [
    "Ndn.Engine.C86_request_partial",
    "Ndn.Engine.C86_reply_partial",
    "Ndn.Engine.C86_delivered_partial",
    "Ndn.Engine.C86_exchange_partial",
    "Ndn.Engine.C86_unsolicited_violated"
   ],
   "note": "The whole chain is proved: encoders, link packets, parsers, dispatch, table of handlers, reply, table of pending Interests, for any history of the consumer before the Interest.  Between Express and the Data, everything is allowed that leaves the pending Interest in the table (`Quiet`: other calls of Express, time, timers that fire, Data below that does not satisfy it, Data and Nacks elsewhere, timeouts of other nodes); it fails without that: Data that nobody asked for unlinks the Interest, and no callback is called for the right Data (`C86_unsolicited_violated`).  Values are restricted as in C27 and C28, names to numbers in shortest form as in C31."
  },
  {
   "property": "C87",
   "status": "partial",
   "theorems": [
    "Ndn.Schema.C87_hooks",
    "Ndn.Schema.C87_applies_iff",
    "Ndn.Schema.C87_attach_iff",
    "Ndn.Schema.C87_ready_partial",
    "Ndn.Schema.C87_routes_partial",
    "Ndn.Schema.C87_storage_partial",
    "Ndn.Schema.C87_error_violated",
    "Ndn.Schema.C87_late_violated",
    "Ndn.Schema.C87_key_search_partial",
    "Ndn.Schema.C87_key_replace_violated",
    "Ndn.Schema.C87_signers"
   ],
   "note": "Proved: the listeners of every event of every node after applying any list of policies (C87_hooks), when applying panics (C87_applies_iff), when attaching panics (C87_attach_iff), and, if the program's own listeners of the attach events return nil, that every policy is ready and exactly the routes of the registration policies are registered. The code violates the claim in three ways: a listener that returns an error hides the listeners behind it while Attach reports success, so that a storage is left without timer and panics at the first packet (C87_error_violated); nodes put into the tree after a storage was applied are not covered by it (C87_late_violated); a certificate saved under a name that the key store already has is never found (C87_key_replace_violated). Attributes of policies are C73's concern, the listeners' answers C63's and C64's. C87_signers: a policy that signs Data is asked for a signer exactly at its own node if that is a leaf, and to validate exactly at its own node."
  },
  {
   "property": "C88",
   "status": "partial",
   "theorems": [
    "Ndn.Schema.C88_fetch_partial",
    "Ndn.Schema.C88_panics_iff",
    "Ndn.Schema.C88_sound",
    "Ndn.Schema.C88_below_panics",
    "Ndn.Schema.C88_request"
   ],
   "note": "Proved for the whole path, with the events at the consumer that C36/C86 exclude. The code violates the last part: Refine gives nil for a Data below the needed name where the tree has no node, and a storage then dereferences it in a goroutine (C88_below_panics), as does a Data without FreshnessPeriod; C88_panics_iff gives the exact condition. C88_request says what NeedCallback sends when the caller gives no InterestConfig: the settings of the node, and only if neither storage nor suppression stops it."
  },
  {
   "property": "C89",
   "status": "partial",
   "theorems": [
    "Ndn.Codec.Gen.C89_description_partial",
    "Ndn.Codec.Gen.C89_tag",
    "Ndn.Codec.Gen.C89_model_partial",
    "Ndn.Codec.Gen.C89_deterministic",
    "Ndn.Codec.Gen.C89_library",
    "Ndn.Codec.Gen.C89_packets",
    "Ndn.Codec.Gen.C89_tag_violated",
    "Ndn.Codec.Gen.C89_octal_violated",
    "Ndn.Codec.Gen.C89_width_violated",
    "Ndn.Codec.Gen.C89_option_violated",
    "Ndn.Codec.Gen.C89_class_violated",
    "Ndn.Codec.Gen.C89_map_violated",
    "Ndn.Codec.Gen.C89_unknown_violated",
    "Ndn.Codec.Gen.C89_group_violated",
    "Ndn.Codec.Gen.C89_model_panics"
   ],
   "note": "Proved: every description of the grammar is read as it is meant, in every order of the class table; tags in decimal or hexadecimal give their number; structs give the model that is meant; the outcome does not depend on the order of the table for any text; from the declarations of the eight packages (copied into Codec/Source.lean) come exactly the schemas of Codec/Schemas, Codec/Library, Schema/Object and Schema/DemoSec, and the type numbers and classes of Interest, Data and Packet. Violated: what is not of the grammar is read as something else without an error: a missing or malformed tag as type 0 (ProbeRes.MaxSuffixLength), a number with a leading zero as octal, an unknown width as 0, an unknown option as none, a class with something behind it as the class; the options of a map's value also go to its key; a field that cannot be understood is left out of the code; further types of a group and further names of a field are ignored; an unknown model option panics."
  },
  {
   "property": "C90",
   "status": "partial",
   "theorems": [
    "Ndn.Codec.Gen.C90_represented",
    "Ndn.Codec.Gen.C90_encode_partial",
    "Ndn.Codec.Gen.C90_library_partial",
    "Ndn.Codec.Gen.C90_nil_violated"
   ],
   "note": "Model of the back end of the generator for the encoder (Verif/Codec/Emit.lean): the templates produce statements of a small language, whose text is the Go text. Verif/Codec/Run.lean gives the statements a semantics: local variables, members of encoders, uint64 arithmetic, slices with bounds checks, nil pointers that panic, calls of other encoders. C90_encode_partial: for every model and every Go value that stands for a message, running the statements of Init and EncodeInto gives exactly the bytes that the schema says (Verif/Codec/Spec.lean, defined without the templates). C90_represented: every message has such a Go value. C90_library_partial: for 49 types of the library, the encoder functions copied from the checked-in zz_generated.go files are, up to white space, the text that the generator writes for the declarations, and running them gives the bytes of every message. C90_nil_violated: a nil element of a sequence is left out without an error, so the claim that every element is written fails. Not covered: nocopy models (LpPacket, Interest, Data, Packet, EncryptedContent: their bytes are the subject of C08 and others), maps, and the emitted parsers."
  },
  {
   "property": "C91",
   "status": "partial",
   "theorems": [
    "Ndn.Codec.Gen.C91_parse_partial",
    "Ndn.Codec.Gen.C91_value_or_error_partial",
    "Ndn.Codec.Gen.C91_roundtrip_partial",
    "Ndn.Codec.Gen.C91_nil_reader",
    "Ndn.Codec.Gen.C91_library_partial",
    "Ndn.Codec.Gen.C91_diverges"
   ],
   "note": "The templates of the parser are modelled as statements whose text is compared with the checked-in parsers of 49 types (C91_library_partial). For every covered model, nesting and input the statements end as the parser of the schema (C91_parse_partial), a nil reader is refused, on input with small lengths they end with a value or with nil and an error, and what the emitted encoder writes is read back (C91_roundtrip_partial). Partial: the emitted loop does not end on ten particular bytes (C91_diverges), as C23 says. Not covered: ordered models, maps, signatures and markers, fields of type 0 (ProbeRes), readers other than BufferReader."
  },
  {
   "property": "C92",
   "status": "proved",
   "theorems": [
    "Ndn.Sync.C92_periodic",
    "Ndn.Sync.C92_periodic_panics",
    "Ndn.Sync.C92_suppression",
    "Ndn.Sync.C92_resets",
    "Ndn.Sync.C92_suppression_zero"
   ],
   "note": "The operations of float64 are a parameter of the model; Rounds says what is assumed of them (finite operands, results far from overflow and underflow, relative error at most 2^-45). The real numbers are one instance (exact_rounds)."
  },
  {
   "property": "C93",
   "status": "proved",
   "theorems": [
    "Ndn.Log.C93_events",
    "Ndn.Log.C93_written",
    "Ndn.Log.C93_level_json",
    "Ndn.Log.C93_parse_case",
    "Ndn.Log.C93_lenient"
   ],
   "note": "Entries are slices over shared arrays (Go/Slice), maps are shared by reference. Refinement to a specification in which entries are paths of maps. Not modelled: time stamps, the text that %v gives, colours and padding. WithError is covered for errors without a stack trace or fields of their own (it is then WithField)."
  },
  {
   "property": "C94",
   "status": "partial",
   "theorems": [
    "Ndn.Codec.Gen.C94_represented",
    "Ndn.Codec.Gen.C94_encode_partial",
    "Ndn.Codec.Gen.C94_empty_panics",
    "Ndn.Codec.Gen.C94_library_partial"
   ],
   "note": "The templates of a model with nocopy (plan of Init, EncodeInto over the wire, Encode) are modelled statement by statement with their Go text, and the statements are given a meaning with blocks of memory, slices of them and the caller's buffers. For every covered model and every message with at least one byte the encoder does not panic, the buffers together are Fields.enc, the caller's buffers are in the wire as given and in order, no other buffer is empty, and encoder.length is the total. A message without bytes panics at wire[0] (C94_empty_panics), which violates the full claim. The text is that of the checked-in encoders of LpPacket and EncryptedContent. Missing: structs with nocopy inside (Packet), sequences of wires, signatures and markers (Interest, Data)."
  },
  {
   "property": "C95",
   "status": "partial",
   "theorems": [
    "Ndn.Codec.Gen.C95_represented",
    "Ndn.Codec.Gen.C95_encode_partial",
    "Ndn.Codec.Gen.C95_signed_partial",
    "Ndn.Codec.Gen.C95_unsigned_partial",
    "Ndn.Codec.Gen.C95_library_partial",
    "Ndn.Codec.Gen.C95_marker_violated",
    "Ndn.Codec.Gen.C95_marker_panics"
   ],
   "note": "The templates of signature fields, offset markers, range markers and arguments are modelled statement by statement with their Go text, on top of C94. For every model with one marker and a signature that starts there, every message and every estimated length: the encoder does not panic, leaves one empty buffer at encoder.f_wireIdx, and the bytes before and behind it and the covered parts are those of the schema; with a length of 0 there is no signature and nothing is covered. The text is that of the checked-in encoder of Data, for which the result is stated as the wire format of Data. Violated when a wire field is before the marker: encoder.start counts all bytes of the packet but is used as an index into one buffer, so the covered part silently lacks bytes (C95_marker_violated) or the encoder panics (C95_marker_panics); no model in the repository has that. Missing: several signatures in one model, structs with nocopy inside. The name field of Interest is C96."
  },
  {
   "property": "C96",
   "status": "partial",
   "theorems": [
    "Ndn.Codec.Gen.C96_encode_partial",
    "Ndn.Codec.Gen.C96_signed_partial",
    "Ndn.Codec.Gen.C96_unsigned_partial",
    "Ndn.Codec.Gen.C96_library_partial",
    "Ndn.Codec.Gen.C96_nil_violated"
   ],
   "note": "The template of the interestName field is modelled statement by statement with its Go text, on top of C95: Init takes a digest off the end of the name and appends one of zeros if told so; EncodeInto writes the components but the last, keeps the place of the digest, writes the last, and puts the name without the digest at the front of the covered part. For every model with such a name first, a marker and a signature, every name that is not nil, with or without a digest, every message, every estimated length, every signature and digest: with the signature at its index and the digest at its index and position the wire is the encoding of the message with the new digest, the covered part is the components without the digest and what is between marker and signature, and the caller's buffers are uncopied. Proved by running the encoder beside that of the model with a plain name (code_rel: statements that do not touch the name do the same on both). The text is that of the checked-in encoder of Interest, for which the result is stated as the wire format of Interest. Violated by a nil name (C96_nil_violated): it gets no digest, and no place for one, although it is needed. Missing: an Interest name after other fields; the change of the caller's value by Init is modelled, but not that the slice may share its memory with another name."
  },
  {
   "property": "C97",
   "status": "partial",
   "theorems": [
    "Ndn.Codec.Gen.C97_wrap_partial",
    "Ndn.Codec.Gen.C97_none_panics",
    "Ndn.Codec.Gen.C97_text",
    "Ndn.Codec.Gen.C97_interest_partial",
    "Ndn.Codec.Gen.C97_data_partial",
    "Ndn.Codec.Gen.C97_lp_partial",
    "Ndn.Codec.Gen.C97_several_violated"
   ],
   "note": "The template of a struct field with nocopy is modelled statement by statement with its Go text, on top of C95 and C96: Init runs the inner Init and joins the inner plan to its own; EncodeInto writes type and length, makes a wire of slices of its own buffers, the first one from where it has come to, and gives it to the inner EncodeInto; what the inner one appended or replaced goes back. For every model with only such fields, every value with one present, and whatever the inner encoder does (any model of C94 to C96): the wire is the inner wire with the header in its first buffer, indices, positions and covered bytes are those of the inner encoder on its own (C97_wrap_partial). The text is that of the checked-in encoder of Packet (C97_text). With C96, C95 and C94: for all Interests, Data and LpPackets, the wire is the TLV of the packet, once signature and digest are put where MakeInterest (with its two ParseTLNum of the first buffer) and MakeData put them, and the covered part is right. A value with none present panics (C97_none_panics: the plan is empty). With two present the index that the inner encoder tells is not that in the packet (C97_several_violated; no caller makes such packets). Missing: models with other fields beside such structs; the bytes with several present at once; a struct whose own encoding is empty, only by example (the idle LpPacket)."
  },
  {
   "property": "C98",
   "status": "partial",
   "theorems": [
    "Ndn.Codec.Gen.C98_data_partial",
    "Ndn.Codec.Gen.C98_interest_partial",
    "Ndn.Codec.Gen.C98_short_partial"
   ],
   "note": "Two models of the same code are compared: that of Packet/Encode (written by hand, field by field, used by C27 and C28 for MakeData and MakeInterest) and that of C95 to C97 (the statements of the templates, the text of which is that of the checked-in encoders). For all Data and Interests whose length is below 2^61: the same list of buffers, the same index of the signature, the same position of the digest, and the same covered bytes (C98_data_partial, C98_interest_partial). As a consequence what MakeData does with a signature shorter than estimated gives the TLV of the Data also with the buffers of the emitted encoder (C98_short_partial). Missing: a Data with no field and no signature (the emitted encoder of Data panics on it; MakeData always has a name); the covered parts are compared by their bytes, not by how they are divided; names that are nil (C96_nil_violated)."
  },
  {
   "property": "C99",
   "status": "partial",
   "theorems": [
    "Ndn.Schema.C99_calls",
    "Ndn.Schema.C99_value_partial",
    "Ndn.Schema.C99_value_violated",
    "Ndn.Schema.C99_need_chan",
    "Ndn.Schema.C99_key_node_panics",
    "Ndn.Schema.C99_one_result_partial",
    "Ndn.Schema.C99_pipeline_violated",
    "Ndn.Schema.C99_object_partial",
    "Ndn.Schema.C99_object_violated",
    "Ndn.Schema.C99_fetcher_partial",
    "Ndn.Schema.C99_fetcher_none",
    "Ndn.Schema.C99_fetcher_violated",
    "Ndn.Schema.C99_fetcher_panics"
   ],
   "note": "Proved for all classes, names and lists of arguments: a call runs the method of this name with the arguments in their places and zero values for the rest exactly if they match the signature, otherwise it gives the right kind of error with the name of the first wrong parameter, and never panics (C99_calls). Violated: the value in the error is the first argument and not the wrong one except in SvsNode and ContentKeyNode; a segmented node or general object with an unknown Pipeline never gives a result to NeedChan, since the error is not looked at; SignedByPolicy with a key node without NeedChan panics when a Data with an HMAC signature comes; DataFetcher ignores its configuration and panics at nodes without NeedChan. With the known pipeline the channel gives one result and is closed. Not modelled: RdrNode.NeedChan over an unknown pipeline (as for general objects), what is logged."
  },
  {
   "property": "C100",
   "status": "partial",
   "theorems": [
    "Ndn.Codec.Gen.C100_frame",
    "Ndn.Codec.Gen.C100_nil",
    "Ndn.Codec.Gen.C100_text",
    "Ndn.Codec.Gen.C100_packets",
    "Ndn.Codec.Gen.C100_fields_text",
    "Ndn.Codec.Gen.C100_library",
    "Ndn.Codec.Gen.C100_each_once",
    "Ndn.Codec.Gen.C100_critical_partial",
    "Ndn.Codec.Gen.C100_critical_violated",
    "Ndn.Codec.Gen.C100_place_violated"
   ],
   "note": "Proved for all lists of fields with different names and numbers, all behaviours of the code of the fields and all buffers: running the Parse that the generator writes with `ordered` has the result of `ordParse` (C100_frame), so the models of the parsers of Interest and Data are runs of the emitted code (C100_packets), whose text is that of zz_generated.go line by line (C100_text); if there is a value, each field was read or skipped exactly once, fields were read in the order of the declaration, and markers and arguments were not read (C100_each_once); a nil reader gives an error (C100_nil). A critical element that is no field is refused at the start (C100_critical_partial), but not after a field out of its place, which is dropped silently (C100_critical_violated). An element that is no field takes the place of the next field, which is then not read although it is in order (C100_place_violated). For Interest and Data the code of the fields is run, too, plain ones, arguments, markers, signature and the name of an Interest, and the parsers of the models inside: for every input the outcome is that of the hand-written parsers, with the same members of the value, covered parts and place in the input, the same error, a panic, or no end (C100_library; the statements run are the lines written, C100_fields_text). Not modelled: sequences and maps in ordered models, which move `progress` back; ordered models with exported methods; readers other than BufferReader; where the reader stands after an error."
  },
  {
   "property": "C101",
   "status": "partial",
   "theorems": [
    "Ndn.Codec.Gen.C101_library",
    "Ndn.Codec.Gen.C101_read",
    "Ndn.Codec.Gen.C101_nil",
    "Ndn.Codec.Gen.C101_total_partial",
    "Ndn.Codec.Gen.C101_data_round_trip_partial",
    "Ndn.Codec.Gen.C101_interest_round_trip_partial",
    "Ndn.Codec.Gen.C101_context_violated",
    "Ndn.Codec.Gen.C101_diverges",
    "Ndn.Codec.Gen.C101_panics"
   ],
   "note": "Proved: the lines of zz_generated.go for the parser of Packet are what the generator writes, and running them on every input, with the emitted parsers of Interest, Data (frame and fields) and LpPacket inside and the contexts that are kept between elements, has the outcome of `parsePacket`: a value whose members and contexts stand for those of the model, the same error, a panic, or no end (C101_library); a nil reader gives an error (C101_nil). ReadData, ReadInterest and ReadPacket of spec.go, on these Go values and contexts, have for every input and hash function the outcome of the models with which the properties of packets are proved (C101_read). So they return on every buffer without TLV numbers of 2^43 or more (C101_total_partial), run forever on ten bytes (C101_diverges) and panic on twelve (C101_panics), and read back what MakeData and MakeInterest make as Go structs with the name, content or parameters, options and signature, and with the bytes that the signer got as covered (C101_data_round_trip_partial, C101_interest_round_trip_partial, under the assumptions of C27 and C28). The covered bytes are not determined by the packet returned: the context of Data is not reset, so for two Data in one buffer the code reports bytes as covered that leave out the name of the second one, whatever it is (C101_context_violated). Not compared: the contexts after an error and where the reader stands at the end. Calls inside sequences get stuck in this run; Packet has none. Readers other than BufferReader are not modelled."
  }
 ]
}