{"id": "C01", "title": "Entry slots are never handed out twice", "statement": "Whatever sequence of slot allocations and releases is issued, an allocated slot number is never one that is currently in use, it is always the smallest free one, releasing succeeds exactly on slots in use, and enumerating the slots lists exactly those in use in increasing order.", "quantifier": "all finite histories of allocate / release / clear / test / enumerate", "why_tests_cant": "The number of histories is unbounded and the interesting ones involve holes spanning several 64-bit words.", "anchors": ["include/bm/bm_sim/handle_mgr.h: HandleMgr::get_handle, release_handle, valid_handle, iterator", "include/bm/bm_sim/dynamic_bitset.h: DynamicBitset"]}
{"id": "C02", "title": "Longest-prefix-match lookup returns the longest matching entry", "statement": "After any history of prefix insertions and deletions, looking up a key returns the value of the longest currently installed prefix that covers the key, and reports a miss exactly when no installed prefix covers it.", "quantifier": "all histories of insert / delete on a trie of any key width, and all lookup keys", "why_tests_cant": "Exponentially many prefix sets; correctness depends on a structural invariant that deletion must restore.", "anchors": ["src/bm_sim/lpm_trie.cpp: LPMTrie::insert_prefix, delete_prefix, lookup", "src/bm_sim/lpm_trie.h"]}
{"id": "C03", "title": "Prefixes do not interfere with one another", "statement": "Inserting or deleting one prefix changes the answer of 'is this prefix present' and 'retrieve the value of this prefix' for that prefix only; deletion succeeds exactly when the prefix was present.", "quantifier": "all histories, all pairs of prefixes", "why_tests_cant": "Node pruning and shared branches make cross-talk possible only for particular shapes.", "anchors": ["src/bm_sim/lpm_trie.cpp: delete_prefix, has_prefix, retrieve_value"]}
{"id": "C04", "title": "Ternary lookup returns the best-priority entry, with deterministic ties", "statement": "After any history of additions and deletions, a ternary or range lookup returns an entry that matches the key, no other matching entry has a strictly smaller priority value, and among equal priorities the entry in the lowest slot wins; a miss is reported exactly when nothing matches.", "quantifier": "all histories, all keys, all priorities including the largest integer", "why_tests_cant": "Order in an intrusive linked list depends on the whole history.", "anchors": ["src/bm_sim/lookup_structures.cpp: TernaryMap::lookup, RangeMap::lookup, EntryList"]}
{"id": "C05", "title": "The lookup cache is invisible", "statement": "With the cache enabled or disabled, a ternary/range table gives the same lookup result after every history of additions, deletions, clears and lookups; the cache never holds more than its capacity.", "quantifier": "all interleavings of lookups with table updates, all cache sizes", "why_tests_cant": "A stale cache line needs a specific interleaving of lookup and update around the activation threshold.", "anchors": ["src/bm_sim/lookup_structures.cpp: TernaryCache, CacheMap"]}
{"id": "C06", "title": "A table behaves as a map from handles to entries", "statement": "After any history of add / delete / modify / reset, a handle returned by a successful add resolves to exactly the key and value last stored under it, until it is deleted; the number of entries reported equals the number of live handles and never exceeds the table size.", "quantifier": "all histories, all table sizes up to 2^24-1, all match kinds", "why_tests_cant": "Unbounded histories with slot reuse.", "anchors": ["src/bm_sim/match_units.cpp: MatchUnitGeneric::add_entry_, delete_entry_, modify_entry_, get_entry_; MatchUnitAbstract_::get_and_set_handle, unset_handle"]}
{"id": "C07", "title": "A stale handle is rejected", "statement": "A handle that was deleted is reported as invalid or expired by delete, modify and get until its slot has been reused 256 times or the whole table has been reset.", "quantifier": "all histories with fewer than 256 reuses of the slot", "why_tests_cant": "Needs histories mixing many slots and version wrap-around.", "anchors": ["include/bm/bm_sim/match_units.h: HANDLE_SET, HANDLE_VERSION, HANDLE_INTERNAL", "src/bm_sim/match_units.cpp: delete_entry_, modify_entry_"]}
{"id": "C08", "title": "A rejected table update changes nothing", "statement": "If adding, deleting or modifying an entry reports an error, then every later lookup, enumeration and handle operation gives the same result as if the call had never been made.", "quantifier": "all states reachable by any history, all rejected calls", "why_tests_cant": "One must compare all future behaviours.", "anchors": ["src/bm_sim/match_units.cpp: add_entry_, delete_entry_, modify_entry_", "src/bm_sim/match_tables.cpp: MatchTable::add_entry"]}
{"id": "C09", "title": "No two entries with the same match key", "statement": "A table never contains two entries with the same key (for LPM: the same prefix and length; for ternary/range: the same value, mask/range and priority), and adding is refused as a duplicate exactly when such an entry exists.", "quantifier": "all histories and keys", "why_tests_cant": "Unbounded histories; normalisation of masked bits matters.", "anchors": ["src/bm_sim/match_units.cpp: add_entry_", "src/bm_sim/lookup_structures.cpp: entry_exists"]}
{"id": "C10", "title": "Reading an entry back returns the key that was written", "statement": "Retrieving an entry returns, in the order the fields were declared, the same match parameters the entry was added with, up to bits that the match ignores, for every mixture of match kinds.", "quantifier": "all key layouts (any number, width and kind of fields) and all parameters accepted", "why_tests_cant": "Fields are permuted internally; combinatorially many layouts.", "anchors": ["src/bm_sim/match_units.cpp: MatchKeyBuilder::match_params_to_entry, entry_to_match_params, build"]}
{"id": "C11", "title": "A longest-prefix field matches on its most significant bits", "statement": "An LPM match with prefix length p on a w-bit field matches exactly the packets whose field agrees with the given value on its p most significant bits.", "quantifier": "all widths w, prefix lengths p <= w and field values", "why_tests_cant": "Tests use byte-multiple widths.", "anchors": ["src/bm_sim/match_units.cpp: match_params_to_entry (LPM), create_mask_from_pref_len; get_byte0_mask"]}
{"id": "C12", "title": "Prefix lengths and masks convert back and forth", "statement": "Turning a prefix length into a byte mask and back gives the same prefix length, the mask has exactly the leading bits set, and the per-byte bit count used is correct for every byte.", "quantifier": "all mask sizes, all prefix lengths; all 256 byte values", "why_tests_cant": "Unbounded sizes.", "anchors": ["src/bm_sim/match_units.cpp: create_mask_from_pref_len, pref_len_from_mask"]}
{"id": "C13", "title": "A new entry has no inherited ageing or metering state", "statement": "An entry added to a table starts with zero counters and without a time-to-live, whatever entries used the slot before.", "quantifier": "all histories", "why_tests_cant": "The fault needs delete followed by add in the same slot.", "anchors": ["include/bm/bm_sim/match_units.h: EntryMeta::reset", "src/bm_sim/match_units.cpp: MatchUnitAbstract_::get_and_set_handle, set_entry_ttl, sweep_entries"]}
{"id": "C14", "title": "Per-entry side operations act only on the entry named by the handle", "statement": "Setting a time-to-live or reading/writing counters and meters through the handle of a deleted entry is refused and does not touch the entry now occupying the slot.", "quantifier": "all histories and handles", "why_tests_cant": "Needs slot reuse.", "anchors": ["src/bm_sim/match_units.cpp: MatchUnitAbstract_::query_counters, write_counters, set_entry_ttl, get_meter"]}
{"id": "C15", "title": "A referenced action-profile member or group cannot be deleted", "statement": "The reference count of each member (group) equals the number of table entries, groups and default entry referring to it; hence deleting a member or group is refused exactly while something refers to it.", "quantifier": "all histories of profile and indirect-table operations, including rejected ones", "why_tests_cant": "Failure paths must be balanced in every interleaving.", "anchors": ["src/bm_sim/match_tables.cpp: MatchTableIndirect::add_entry, modify_entry, delete_entry; MatchTableIndirectWS", "src/bm_sim/action_profile.cpp: ActionProfile::delete_member, delete_group, IndirectIndexRefCount"]}
{"id": "C16", "title": "Group selection always picks a current member, and hits each one", "statement": "Selecting from a non-empty group with hash h yields a member that was added and not removed; as h ranges over any n consecutive values, each of the n members is picked exactly once; membership after any history is exactly added minus removed.", "quantifier": "all histories of group updates, all hash values", "why_tests_cant": "Unbounded groups and histories.", "anchors": ["src/bm_sim/action_profile.cpp: GroupInfo, GroupMgr::get_from_hash", "include/bm/bm_sim/ras.h: RandAccessUIntSet"]}
{"id": "C17", "title": "Resetting a switch leaves action profiles empty and usable", "statement": "After a state reset an action profile has no members and no groups and accepts the same operations as a freshly created one.", "quantifier": "all histories before the reset", "why_tests_cant": "Requires group creation, reset, and later use.", "anchors": ["src/bm_sim/action_profile.cpp: ActionProfile::reset_state"]}
{"id": "C18", "title": "Multicast replicates to exactly the configured ports", "statement": "Replicating to a group yields, for every node associated with it and every port in that node's port list, exactly one copy carrying that node's replication id and that port, and nothing else; unknown groups yield nothing.", "quantifier": "all histories of group/node operations, all port maps", "why_tests_cant": "Unbounded configurations.", "anchors": ["src/bm_sim/simple_pre.cpp: McSimplePre::mc_mgrp_create, mc_node_associate, mc_node_dissociate, replicate"]}
{"id": "C19", "title": "Multicast management never crashes and destroyed groups free their nodes", "statement": "Every management operation, in any order, terminates with a documented return code, and after destroying a group its former nodes can be destroyed or associated again.", "quantifier": "all histories of management operations", "why_tests_cant": "The fault needs destroy of a group that still has nodes.", "anchors": ["src/bm_sim/simple_pre.cpp: mc_mgrp_destroy, mc_node_destroy"]}
{"id": "C20", "title": "Link-aggregation replication sends one copy per aggregation group", "statement": "Replicating to a group whose node has LAG members yields exactly one copy per non-empty LAG, on a port that currently belongs to that LAG, in addition to the plain ports.", "quantifier": "all histories of LAG updates", "why_tests_cant": "Unbounded configurations.", "anchors": ["src/bm_sim/simple_pre_lag.cpp: McSimplePreLAG::replicate, mc_set_lag_membership"]}
{"id": "C21", "title": "A meter never passes more than burst plus rate", "statement": "Over any interval, the units coloured better than level k by a meter are at most the burst size of level k plus what level k's rate accrues over the interval.", "quantifier": "all traffic patterns, intervals and configurations", "why_tests_cant": "Unbounded traffic traces.", "anchors": ["src/bm_sim/meters.cpp: Meter::execute"]}
{"id": "C22", "title": "A meter never improves a packet's colour and reports the worst violated level", "statement": "The colour returned is at least the incoming colour and is otherwise determined by the most severe rate exceeded; an unconfigured meter leaves the colour unchanged.", "quantifier": "all meter states, packets and incoming colours", "why_tests_cant": "Unbounded state space.", "anchors": ["src/bm_sim/meters.cpp: Meter::execute"]}
{"id": "C23", "title": "Rejected meter configuration has no effect", "statement": "If setting the rates of a meter (or of a whole meter array) reports an error, later colours are as if the call had not been made.", "quantifier": "all meter states and configurations", "why_tests_cant": "Needs a rejected reconfiguration of a configured meter.", "anchors": ["include/bm/bm_sim/meters.h: Meter::set_rates", "src/bm_sim/meters.cpp: Meter::set_rate, MeterArray::set_rates"]}
{"id": "C24", "title": "Saving and restoring a meter preserves its behaviour", "statement": "A meter restored from its saved form colours traffic as the saved meter would.", "quantifier": "all configured meters", "why_tests_cant": "Needs several levels and comparison of behaviours.", "anchors": ["src/bm_sim/meters.cpp: Meter::serialize, deserialize"]}
{"id": "C25", "title": "Egress queues are first-in first-out and rate limited", "statement": "Packets of one port and priority leave in the order they were accepted, consecutive departures are scheduled at least one service interval apart, and no packet leaves before its scheduled time, for any clock readings and any rate changes.", "quantifier": "all interleavings of push / pop / set_rate / set_capacity and all clock readings, for up to 32 priorities (the size of the array in the code) and 2^64 calls", "why_tests_cant": "Unbounded histories and clock behaviours.", "anchors": ["include/bm/bm_sim/queueing.h: QueueingLogicRL, QueueingLogicPriRL"]}
{"id": "C26", "title": "Egress queues respect priority and depth", "statement": "A departure comes from the highest-priority queue that has a ready packet; a packet is refused exactly when its queue holds at least its configured depth; accounting of queue sizes equals the packets inside; no packet is lost or duplicated.", "quantifier": "all histories, for up to 32 priorities (the size of the array in the code) and 2^64 calls", "why_tests_cant": "Unbounded histories.", "anchors": ["include/bm/bm_sim/queueing.h: QueueingLogicPriRL::push_front, pop_back, size"]}
{"id": "C27", "title": "A learned sample is reported once until acknowledged", "statement": "A sample is put in a notification when first seen, not again until it is acknowledged, and acknowledging it makes it learnable again; acknowledging any list of samples (with repetitions, in any order) is safe.", "quantifier": "all histories of learn / ack / ack-buffer / timeouts", "why_tests_cant": "Unbounded histories; repeated acknowledgements.", "anchors": ["src/bm_sim/learning.cpp: LearnEngine::LearnList::add_sample, ack, ack_buffer, process_full_buffer, buffer_transmit"]}
{"id": "C28", "title": "An idle entry is reported once per idle period", "statement": "An entry that has exceeded its time-to-live and stays idle is notified by the ageing monitor exactly once until it is hit again or removed.", "quantifier": "all sequences of sweeps", "why_tests_cant": "Needs three sweeps without removal.", "anchors": ["src/bm_sim/ageing.cpp: AgeingMonitor::do_sweep"]}
{"id": "C29", "title": "Field extraction reads exactly the right bits", "statement": "Extracting a field of width w at bit offset o yields the w packet bits starting at o, as a big-endian number in ceil(w/8) bytes with zero padding, without touching bytes outside the field.", "quantifier": "all widths, offsets 0..7 and packet contents", "why_tests_cant": "All combinations of width, offset and content.", "anchors": ["src/bm_sim/extract.h: generic_extract", "src/bm_sim/fields.cpp: Field::extract"]}
{"id": "C30", "title": "Deparsing a header and parsing it again is the identity", "statement": "For any sequence of field widths and field values, emitting the header and extracting it again gives the same field values; and extracting a header then emitting it reproduces the same bytes.", "quantifier": "all header layouts, all field values, all packet bytes", "why_tests_cant": "All layouts.", "anchors": ["src/bm_sim/extract.h: generic_extract, generic_deparse", "src/bm_sim/headers.cpp: Header::extract, deparse"]}
{"id": "C31", "title": "A field's number and its bytes always agree", "statement": "After any assignment, the bytes of a field are the two's-complement representation (width w) of its numeric value; unsigned fields hold the assigned value modulo 2^w, saturating fields clamp to the representable range, signed fields wrap.", "quantifier": "all widths, kinds of field and assigned integers", "why_tests_cant": "Unbounded integers.", "anchors": ["include/bm/bm_sim/fields.h: Field::export_bytes, sync_value"]}
{"id": "C32", "title": "Header stacks shift correctly", "statement": "push_front(n) moves every element n positions deeper and drops the overflow, pop_front(n) does the opposite, newly exposed positions are invalid (valid after a push on a legacy stack, as documented), and the element counter is consistent, for both stack flavours, for stacks of headers and of header unions.", "quantifier": "all stack depths, contents and n (including n larger than the depth)", "why_tests_cant": "All depths and contents.", "anchors": ["src/bm_sim/stacks.cpp: Stack push_front/pop_front", "include/bm/bm_sim/stacks.h"]}
{"id": "C33", "title": "At most one header of a union is valid", "statement": "After any sequence of header validity changes, extractions, copies and swaps, at most one member of a header union is valid and the union's own validity flag says which.", "quantifier": "all sequences of operations", "why_tests_cant": "Unbounded sequences.", "anchors": ["include/bm/bm_sim/header_unions.h: HeaderUnion::make_header_valid, make_header_invalid, swap_values", "src/bm_sim/headers.cpp: Header::mark_valid"]}
{"id": "C34", "title": "Compiled expressions evaluate like the source expression", "statement": "For every well-typed arithmetic/boolean expression, building the internal operation list and evaluating it gives the value of the expression by ordinary recursion, temporaries never clobbering one another, including nested conditional expressions.", "quantifier": "all expressions of any depth, all packet states", "why_tests_cant": "Infinitely many expressions; register reuse interacts with conditional skips.", "anchors": ["src/bm_sim/expressions.cpp: Expression::eval_, assign_dest_registers, push_back_ternary_op", "src/bm_sim/P4Objects.cpp: build_expression"]}
{"id": "C35", "title": "The checksum is the Internet checksum", "statement": "The 16-bit checksum computed over any byte string equals the RFC 1071 one's-complement checksum of its big-endian 16-bit words (zero padded).", "quantifier": "all byte strings of any length", "why_tests_cant": "All lengths and contents; carries.", "anchors": ["src/bm_sim/calculations.cpp: cksum16", "src/bm_sim/checksums.cpp: cksum16"]}
{"id": "C36", "title": "Table-driven CRCs are polynomial remainders", "statement": "For every width, polynomial, initial value, final xor and reflection settings, the table-driven CRC equals bit-by-bit polynomial division of the message, and the built-in crc16 and crc32 tables are the ones generated by their polynomials.", "quantifier": "all messages, all configurations; all 256 table entries", "why_tests_cant": "All messages.", "anchors": ["src/bm_sim/calculations.cpp: crc_custom, crc16, crc32, crcCCITT", "src/bm_sim/crc_tables.h"]}
{"id": "C37", "title": "Parsing never reads outside the packet", "statement": "Whatever the parser program and the packet, every byte read by extraction, look-ahead or select lies within the packet; too-short packets produce the documented error.", "quantifier": "all parser programs and packets", "why_tests_cant": "All programs and short packets.", "anchors": ["src/bm_sim/parser.cpp: ParserOpSet<ParserLookAhead>, ParseSwitchKeyBuilder::operator(), extract_fixed, extract_VL, Parser::parse"]}
{"id": "C38", "title": "Parse then deparse reproduces the packet", "statement": "If the deparser emits the headers in the order they were extracted and nothing was modified, the emitted packet equals the received one, for every packet accepted by the parser.", "quantifier": "all fixed-size header sequences and packets", "why_tests_cant": "All packets and layouts.", "anchors": ["src/bm_sim/parser.cpp: Parser::parse, extract_fixed", "src/bm_sim/deparser.cpp: Deparser::deparse", "include/bm/bm_sim/packet_buffer.h"]}
{"id": "C39", "title": "Parser value sets match exactly the configured values", "statement": "A select case on a value set matches a key iff, under the case's mask, it equals one of the values currently in the set, after any history of additions and removals.", "quantifier": "all histories, masks and keys", "why_tests_cant": "Needs two values that collide under the mask.", "anchors": ["src/bm_sim/parser.cpp: ParseVSetCommon, ParseVSetMask, ParseVSet"]}
{"id": "C40", "title": "Packet copies have distinct identities", "statement": "While a packet and its copies are alive, no two of them share the same (packet id, copy id).", "quantifier": "all interleavings of cloning and destruction", "why_tests_cant": "Unbounded histories.", "anchors": ["src/bm_sim/packet.cpp: CopyIdGenerator::add_one, remove_one", "include/bm/bm_sim/packet.h"]}
{"id": "C41", "title": "Packet-flag registers are independent", "statement": "Writing one per-packet flag of simple_switch (clone session, clone field list, digest list, resubmit, recirculate) is read back exactly and leaves all other flags and the packet length unchanged.", "quantifier": "all 64-bit register contents and all 16-bit values", "why_tests_cant": "2^64 contents.", "anchors": ["targets/simple_switch/register_access.h: RegisterAccess"]}
{"id": "C42", "title": "simple_switch end-of-ingress decision", "statement": "At the end of ingress exactly one of resubmit, multicast, drop, unicast happens, with precedence in that order, and cloning/digest happen independently of it.", "quantifier": "all ingress results", "why_tests_cant": "All combinations of metadata.", "anchors": ["targets/simple_switch/simple_switch.cpp: SimpleSwitch::ingress_thread"]}
{"id": "C43", "title": "Toeplitz hash is the standard sliding-window hash", "statement": "The hash equals the xor, over the set bits i of the input, of the 32 key bits starting at bit i of the (cyclically repeated) key.", "quantifier": "all keys (multiples of 4 bytes) and inputs", "why_tests_cant": "All keys and inputs.", "anchors": ["src/bm_sim/calculations.cpp: toeplitz, emitAsInteger"]}
{"id": "C44", "title": "Hash and checksum input is the concatenation of the listed fields", "statement": "The buffer over which a calculation runs is the bit-exact concatenation of the listed fields and constants of valid headers, padded with zero bits at the end.", "quantifier": "all field lists and values", "why_tests_cant": "All layouts.", "anchors": ["src/bm_sim/calculations.cpp: BufBuilder::Deparse", "src/bm_sim/extract.h: generic_deparse"]}
{"id": "C45", "title": "Restoring saved handles keeps them reserved", "statement": "After restoring a set of slots from a saved state, newly allocated slots are distinct from the restored ones.", "quantifier": "all sets of restored slots", "why_tests_cant": "Needs restoration into an empty manager.", "anchors": ["include/bm/bm_sim/handle_mgr.h: set_handle", "include/bm/bm_sim/dynamic_bitset.h: DynamicBitset::set", "src/bm_sim/match_units.cpp: deserialize_"]}
{"id": "C46", "title": "Cast operators compute the documented integer functions", "statement": "two_comp_mod(x,w) is the unique value in [-2^(w-1), 2^(w-1)) congruent to x mod 2^w; usat_cast and sat_cast clamp to the unsigned/signed range of width w.", "quantifier": "all integers x and widths w >= 1", "why_tests_cant": "Unbounded integers.", "anchors": ["include/bm/bm_sim/data.h: Data::two_comp_mod, usat_cast, sat_cast"]}
{"id": "C47", "title": "Updating a checksum makes its verification succeed", "statement": "Immediately after a checksum field is updated, verifying the same checksum succeeds.", "quantifier": "all packets and checksum definitions not covering the checksum field itself", "why_tests_cant": "All packets.", "anchors": ["src/bm_sim/checksums.cpp: CalcBasedChecksum::update_, verify_, IPv4Checksum"]}
{"id": "C48", "title": "Register values stay within their width", "statement": "A register of width w always reads back a value in [0, 2^w), namely the last value written modulo 2^w; writes to one cell do not affect others; out-of-range indices are refused.", "quantifier": "all histories of register operations", "why_tests_cant": "Unbounded histories.", "anchors": ["src/bm_sim/stateful.cpp: Register::export_bytes", "src/bm_sim/context.cpp: Context::register_write, register_read, register_write_range"]}
{"id": "C49", "title": "An entry matches exactly the packets that meet every parameter", "statement": "The entry stored for a list of match parameters matches the lookup key assembled for a packet iff every field of the packet, masked as the table declares, meets its parameter (equal, equal under the mask, equal prefix, or between the bounds); the internal reordering of fields is invisible.", "quantifier": "all key layouts, all parameters accepted, all field values", "why_tests_cant": "Combinatorially many layouts; fields are permuted internally.", "anchors": ["src/bm_sim/match_units.cpp: MatchKeyBuilder::build, operator(), match_params_to_entry, apply_big_mask"]}
{"id": "C50", "title": "xor16, xor32 and identity compute the documented functions", "statement": "xor16 and xor32 return the exclusive or of the big-endian 16- or 32-bit words of the input, the last word filled up with zero bytes; identity returns the big-endian value of the first 8 bytes (or of all bytes if there are fewer).", "quantifier": "all inputs of any length", "why_tests_cant": "All lengths and contents.", "anchors": ["src/bm_sim/calculations.cpp: xor_hash, emitAsInteger, identity"]}
{"id": "C51", "title": "Round robin hashing", "statement": "The n-th call of round_robin returns n modulo 2^64; round_robin_consistent returns for each input the number of different inputs seen before its first occurrence, so that equal inputs always get equal results and different inputs different ones (fewer than 2^64 inputs).", "quantifier": "all sequences of calls", "why_tests_cant": "Unbounded histories.", "anchors": ["src/bm_sim/calculations.cpp: round_robin, round_robin_consistent"]}
{"id": "C52", "title": "The next parse state is that of the first matching case", "statement": "When the operations of a parse state succeed, the next state is that of the first select case, in the order of the program, whose value equals the key (under the mask of the case); the key is made of the selected fields as they are after the operations and of the packet bits after the bytes parsed. If no case matches, or there is no select, it is the default.", "quantifier": "all parser programs, packets and header vectors", "why_tests_cant": "Programs and packets are unbounded.", "anchors": ["src/bm_sim/parser.cpp: ParseState::find_next_state, ParseSwitchKeyBuilder, ParseSwitchCase, ParseSwitchCaseWithMask, ParserLookAhead"]}
{"id": "C53", "title": "Extraction gives every field its bits, and errors are the documented ones", "statement": "Extracting a header without error makes it valid, gives every field the packet bits at its place, in the order of the header type, and advances by the size of the header; extraction to a stack fills the next free element. A full stack, a length that is not a number of bytes, a header longer than its maximum and a condition that does not hold raise StackOutOfBounds, ParserInvalidArgument, HeaderTooShort and the given error, and change nothing.", "quantifier": "all header types, packets, positions and stacks", "why_tests_cant": "Header types and packets are unbounded.", "anchors": ["src/bm_sim/parser.cpp: ParserOpExtract, ParserOpExtractVL, ParserOpExtractStack, ParserOpVerify, ParserOpAdvance, ParserOpSet", "src/bm_sim/headers.cpp: Header::extract"]}
{"id": "C54", "title": "Input buffer of simple_switch: order, priority and capacity", "statement": "For every sequence of offers and takes at the input buffer: packets of each class (from ports; resubmitted or recirculated) are taken in the order in which they were accepted and none is lost; a packet from a port is taken only when no packet of the other class is left; an offer is accepted exactly when fewer packets of the class wait than its capacity; only resubmitted and recirculated packets are ever refused, packets from ports wait; the ingress thread waits exactly when nothing is left.", "quantifier": "all capacities and all interleavings of offers and takes", "why_tests_cant": "Tests push a handful of packets; overflow of the high-priority queue with packets of both classes waiting is not covered.", "anchors": ["targets/simple_switch/simple_switch.cpp:109-190"]}
{"id": "C56", "title": "Egress decision of simple_switch", "statement": "At the end of egress the packet is cloned iff a clone was asked for and the session exists; independently, it is dropped iff egress_spec is the drop port, else recirculated iff a recirculation was asked for, else transmitted on its queue's port with the bytes of the deparser cut to the truncated length. A packet whose program does not write egress_spec in egress is not dropped there.", "quantifier": "all programs (parser, deparser, field lists as parameters), metadata, flags and sessions", "why_tests_cant": "Combinations of clone, recirculate, drop and truncate are many, tests cover some pairs.", "anchors": ["targets/simple_switch/simple_switch.cpp:638-764"]}
{"id": "C57", "title": "An ingress clone has the headers that were parsed", "statement": "The clones that the ingress thread makes of a packet have the headers and the payload that parsing gave to the packet on arrival.", "quantifier": "all parsers, pipelines, packets and histories of the header vectors in the pool", "why_tests_cant": "Needs a parser that reads metadata and a header vector with old contents; tests use fresh vectors.", "anchors": ["targets/simple_switch/simple_switch.cpp:536-573", "src/bm_sim/packet.cpp:96-110"]}
{"id": "C58", "title": "A received packet starts clean", "statement": "The metadata of a packet received from a port are zero but for ingress port, packet length, time stamp and instance type, and no clone, digest, resubmit or recirculate request is pending, whatever the packet before that used the same header vector did.", "quantifier": "all programs, all header vectors in the pool, all packets", "why_tests_cant": "Tests use new header vectors; leftovers show only in long runs.", "anchors": ["targets/simple_switch/simple_switch.cpp:231-265"]}
{"id": "C55", "title": "Mirroring sessions", "statement": "After any sequence of requests to add and delete mirroring sessions, looking up a session gives what the last request about its id said; ids outside 0..32767 are refused and never exist; deleting succeeds exactly if the session exists. Asking for a clone to session s is never taken for not asking, and the clone goes to session s modulo 32768.", "quantifier": "all sequences of requests, all ids", "why_tests_cant": "Unbounded histories; session id and request flag share 16 bits.", "anchors": ["targets/simple_switch/simple_switch.cpp:68-107", "targets/simple_switch/primitives.cpp:265-295"]}
{"id": "C59", "title": "Requests of action primitives", "statement": "After a sequence of primitives (drop, clone, digest, resubmit, recirculate, truncate, add/remove header, assignments to metadata, no_op) on a packet without requests, the clone, digest, resubmission and recirculation asked for are those of the last primitive of the kind, every metadata field has the value last written (drop writes the drop port and group 0), and the packet is cut to the least length asked for. A packet that was dropped last, without resubmission, leaves ingress as clones and digests only.", "quantifier": "all sequences of primitives and parameters, all packets", "why_tests_cant": "Combinations and orders of primitives are unbounded; requests share two registers.", "anchors": ["targets/simple_switch/primitives.cpp:154-316,458-462"]}
{"id": "C60", "title": "The length register is the length of the packet", "statement": "If the packet length register holds the length of the valid headers and the payload before a sequence of primitives, it does so after it.", "quantifier": "all sequences of primitives, all packets", "why_tests_cant": "Header sizes and orders are unbounded; unions are rarely tested with add_header.", "anchors": ["targets/simple_switch/primitives.cpp:217-253"]}
{"id": "C61", "title": "A table runs the configured action", "statement": "For a match table loaded from the JSON program, after any history of control-plane calls: a packet that matches runs the action and data last written to the best matching entry and goes to the next node declared for hits, or else for that action; a packet that matches nothing runs the current default action (the one set last, or the one of the program) or nothing, and goes to the node declared for misses, for that action, or the base node. Calls with the wrong number of action parameters, changes of constant entries or of a constant default are refused and change nothing. Every sound declaration is accepted by the loader.", "quantifier": "all table kinds and declarations, all histories of calls and packets", "why_tests_cant": "Histories and declarations are unbounded; the combination of hit/miss nodes, action nodes, defaults and constants is rarely tested.", "anchors": ["src/bm_sim/match_tables.cpp:98-470", "src/bm_sim/P4Objects.cpp:1871-2009"]}
{"id": "C62", "title": "Constants of the program are kept", "statement": "The entries of a table declared with constant entries never change, a constant default entry never changes, and a constant default action is never replaced by another action.", "quantifier": "all tables, all histories of control-plane calls", "why_tests_cant": "One has to try every call in every state.", "anchors": ["src/bm_sim/match_tables.cpp:253-470"]}
{"id": "C63", "title": "Control flow after indirect tables", "statement": "After any history of calls to an action profile and the indirect tables sharing it, applying a table to a packet is defined, runs the action of the chosen member and goes to the node that the program declares for it.", "quantifier": "all systems of tables sharing a profile, all histories, all packets and hashes", "why_tests_cant": "Histories are unbounded; empty groups and shared profiles are rarely tested with traffic.", "anchors": ["src/bm_sim/match_tables.cpp:470-790", "src/bm_sim/action_profile.cpp:100-420"]}
{"id": "C64", "title": "Queueing metadata", "statement": "When the egress pipeline of simple_switch starts on a packet, enq_qdepth and deq_qdepth are the numbers of packets in its queue when it was put in and taken out, deq_timedelta is the time between these moments modulo 2 to its width even if the clock has wrapped around, egress_port is the port of the queue and qid the priority that was asked for.", "quantifier": "all packets, times, depths, ports, priorities and field widths", "why_tests_cant": "Wrap-around of timestamps takes more than an hour of running; times are not deterministic.", "anchors": ["targets/simple_switch/simple_switch.cpp:397-419,652-680"]}
{"id": "C65", "title": "An action does the calls of the program", "statement": "Executing an action does, in order, the calls of primitives the program has for it: each primitive gets the values its arguments (constants, action parameters, expressions, fields, registers, strings, lists of these) have when it is called, independently of what was computed before in the same thread; the next call is the one after it, or the one a jump names. Without jumps every primitive is executed exactly once; with forward jumps only the action ends.", "quantifier": "all actions, primitives, arguments, parameters, packets, orders of evaluation", "why_tests_cant": "The temporaries for expressions are per thread and grow on demand; the order of evaluation depends on the compiler.", "anchors": ["src/bm_sim/actions.cpp:60-421", "include/bm/bm_sim/actions.h:279-640"]}
{"id": "C66", "title": "Packets follow the control flow of the program", "statement": "After a program is loaded, for any history of control-plane calls on its tables and of packets: a packet that enters a pipeline walks from the first node along the declared next nodes; a conditional goes where its value says, a call runs its action, a table runs the action of the best matching entry (or the current default) and goes to the node declared for hit, miss or that action; the walk ends exactly where no node is named or when the packet is marked for exit. Nothing is undefined but what actions and conditions of the program make so. Without cycles every packet gets to the end and visits no node twice. Sound programs are accepted; programs with two nodes of the same name are refused.", "quantifier": "all programs (any number of pipelines and nodes, all kinds of direct tables), all actions and conditions, all histories", "why_tests_cant": "Programs, histories and packets are unbounded; loader, tables and the loop have to fit together.", "anchors": ["src/bm_sim/pipeline.cpp:19-43", "src/bm_sim/conditionals.cpp:20-47", "src/bm_sim/control_action.cpp:36-44", "src/bm_sim/tables.cpp:25-37", "src/bm_sim/P4Objects.cpp:1621-2057"]}
{"id": "C67", "title": "Saving and restoring tables", "statement": "Saving the state of a table at any point and restoring it to a freshly loaded table of the same program cannot be noticed: all entries with their handles, keys, actions, data and time-outs and the default are there again, and whatever calls and packets follow have results that the table could have given without the restore.", "quantifier": "all tables, declarations, histories before and after the save", "why_tests_cant": "Histories are unbounded; the tests of the tree restore a few entries and look them up.", "anchors": ["src/bm_sim/match_units.cpp:1076-1158", "src/bm_sim/match_tables.cpp:57-74,157-179,624-634", "src/bm_sim/actions.cpp:459-486", "include/bm/bm_sim/handle_mgr.h:164-176"]}
{"id": "C68", "title": "Decisions at the end of ingress of psa_switch", "statement": "In ingress of psa_switch the parser sees the packet as queued, with the time. The pipeline sees the result of the parser with port, path and parser error; drop is set, clone, resubmit, group and class of service are zero. Afterwards: if the program asked for a clone and the session exists, copies of the packet as before parsing with metadata zero but for the path leave for each replica of the group of the session and for its port, also when the packet is dropped; otherwise no clone. A packet with drop set is dropped; else with resubmit set it goes back to the input buffer as it was before parsing; else it is deparsed and copied to each replica of its group if the group is not zero, each copy with class of service, instance and path; else it goes to its port with instance zero. A program that decides nothing drops the packet.", "quantifier": "all programs (parsers, deparsers, pipelines), packets, sessions, groups, header vectors from the pool", "why_tests_cant": "The combinations of flags, sessions and groups with arbitrary programs are unbounded.", "anchors": ["targets/psa_switch/psa_switch.cpp:320-508"]}
{"id": "C69", "title": "Decisions in egress of psa_switch", "statement": "In egress of psa_switch the parser starts with no valid header, the metadata ingress left, the port of the queue and the time. The pipeline sees the result of the parser with port, path and parser error, drop and clone zero. The packet is deparsed. Afterwards: clones as asked for, of the packet as deparsed, also when it is dropped; with drop set the packet is dropped; else a packet in the queue of the recirculation port goes back to ingress with no valid header, empty stacks, and metadata zero but for port and path; else it is transmitted on its egress port, truncated as asked for.", "quantifier": "all programs, packets, sessions, groups, header vectors from the pool", "why_tests_cant": "The combinations of flags, sessions and groups with arbitrary programs are unbounded.", "anchors": ["targets/psa_switch/psa_switch.cpp:299-313,511-616", "src/bm_sim/phv.cpp:32-62"]}
{"id": "C70", "title": "Every pass through psa_switch starts clean", "statement": "Whenever a parser of psa_switch starts on a packet, no header is valid and all header stacks are empty, whatever happened to the packet or to others before. The ingress parser is told the port on which the packet arrived and path normal or resubmit, or the recirculation port and path recirculate; the egress parser is told the port of the queue and one of the paths unicast, multicast, clone from ingress, clone from egress.", "quantifier": "all programs, all histories of a packet through the switch (any number of resubmissions, recirculations and clones), tables changing on the way", "why_tests_cant": "Paths through the switch are unbounded, header vectors are reused.", "anchors": ["targets/psa_switch/psa_switch.cpp:184-616", "src/bm_sim/packet.cpp:96-110"]}
{"id": "C71", "title": "InternetChecksum of psa_switch computes the RFC 1071 checksum, also incrementally", "statement": "For every InternetChecksum object of psa_switch and every field list whose fields, written one after another, are whole 16-bit words: add ends and leaves the one's complement sum of the previous sum and the words of the data; subtract ends and leaves the sum with the complements of the words added; clear, add, get gives the Internet checksum (RFC 1071) of the data, so that data holding their own checksum are recognised (sum 0xffff, get 0, get_verify true); get_state followed by set_state restores the object; and from the sum of a||old||b, subtract(old) and add(new) gives the sum of a||new||b. A sequence of add and subtract calls leaves, modulo 65535, what was added less what was subtracted.", "quantifier": "all field lists of any widths and any number, all values, all sums, all sequences of calls, all even splits of the data", "why_tests_cant": "Tests use a few headers; leading zero words, the two forms of zero, negative values and lists of more than 65535 bits are not exercised.", "anchors": ["targets/psa_switch/externs/psa_internet_checksum.cpp:17-107", "include/bm/bm_sim/actions.h:548-563"]}
{"id": "C72", "title": "Hash of psa_switch hashes the bits of the fields and stays in the range asked for", "statement": "For every Hash object of psa_switch: the hash function is applied to the fewest whole bytes holding the bits of the fields in order (two's complement for signed fields), padded with zero bits in front; get_hash assigns the hash to the destination (low bits if it is narrower); get_hash_mod(base, max) assigns base + hash mod max, a number from base to base+max-1, when these fit 64 bits and the destination.", "quantifier": "all field lists of any widths (also not byte aligned), all values, all hash functions, all bases and sizes of the range", "why_tests_cant": "Tests use byte-aligned fields and one or two ranges.", "anchors": ["targets/psa_switch/externs/psa_hash.cpp:14-61"]}
{"id": "C73", "title": "Buffers shared by threads are first-in first-out and lose nothing", "statement": "Take a Queue (the buffers of psa_switch, l2_switch, simple_router) or the InputBuffer of simple_switch, and any number of threads calling push_front and pop_back on it. In every interleaving, including arbitrary choices of the thread woken by notify_one and spurious wake-ups: the elements put in each queue are those taken from it in the same order followed by those still in it; every call of push_front is accounted for exactly once (its element was put in the queue, or refused, or the call is still going on); as long as capacities do not change no queue exceeds its capacity, and an element is refused only by a full queue and only if the call is not to wait; pop_back takes the oldest element of the first queue that is not empty (high priority before low).", "quantifier": "all numbers of threads, capacities, elements, and interleavings of any length", "why_tests_cant": "interleavings of threads with mutexes and condition variables are not reproducible in tests", "anchors": ["include/bm/bm_sim/queue.h:62-92", "targets/simple_switch/simple_switch.cpp:127-182"]}
{"id": "C74", "title": "No wake-up is lost on shared buffers", "statement": "For the same classes and all interleavings: whenever every thread is outside the object or asleep in it, a thread sleeps in pop_back only if all queues are empty and in push_front only if its queue is full; so a reader and a writer are never both asleep for good; and unless every thread is outside or asleep, some thread can go on. (False if the capacity is raised: Queue::set_capacity wakes nobody.)", "quantifier": "all numbers of threads, capacities, elements, and interleavings of any length", "why_tests_cant": "a lost wake-up needs a particular schedule; tests see only a few", "anchors": ["include/bm/bm_sim/queue.h:62-106", "targets/simple_switch/simple_switch.cpp:145-182"]}
{"id": "C75", "title": "The ingress thread does not wait for itself", "statement": "The ingress thread, the only one that takes packets from the input buffer, also pushes the packets it resubmits to that buffer. It is never left waiting for a slot there; hence, whenever all threads are asleep and the ingress thread is back for a packet, the buffer is empty and no receiver is waiting to bring a packet. Holds for simple_switch, whose resubmissions are refused when the buffer is full. (False for psa_switch, whose input buffer blocks: for every capacity there is an execution after which nothing ever happens any more.)", "quantifier": "all numbers of threads, capacities, packets, and interleavings of any length", "why_tests_cant": "the deadlock needs the buffer to be full at the moment of a resubmission", "anchors": ["targets/simple_switch/simple_switch.cpp:110-182", "targets/simple_switch/simple_switch.cpp:609", "targets/psa_switch/psa_switch.cpp:112", "targets/psa_switch/psa_switch.cpp:208", "targets/psa_switch/psa_switch.cpp:479"]}
{"id": "C76", "title": "Exchanging the configuration of a running switch", "statement": "Threads call load_new_config and swap_configs while packets are created, cloned, moved between contexts and destroyed, in any interleaving. Every packet alive has a header vector made for the configuration with which its context processes packets, and no step changes the configuration of a context while a packet is in it; no assertion fails; a configuration loaded and exchanged is used by all later packets; get_config, while no load is going on, returns the configuration loaded last. (False if packets move between contexts, if calls of swap_configs overlap (assertion), and with several contexts if load_new_config overlaps swap_configs: then no configuration can ever be exchanged again.)", "quantifier": "all numbers of contexts, threads, packets, all configurations, and interleavings of any length", "why_tests_cant": "the failures need a packet or a second call to come between two particular statements", "anchors": ["src/bm_sim/switch.cpp:330-370", "src/bm_sim/switch.cpp:455-477", "src/bm_sim/context.cpp:804-862", "src/bm_sim/phv_source.cpp:28-62", "src/bm_sim/packet.cpp:82-121"]}
{"id": "C77", "title": "The port monitor keeps the life of every port and tells everybody", "statement": "For the passive and the active port monitor, used by any number of threads in any interleaving: the events accepted for a port always form a life (added, then up and down alternately, then removed, and so on) that ends in what the monitor holds; notify accepts exactly the events that may come next and ignores others; a poll of the active monitor gives every known port the status found, the events being exactly the changes in the order of port numbers; when all threads are done, every registered callback was called exactly once for every accepted event of its type, every change up or down was sent to subscribers exactly once, and no empty message was sent; callbacks and messages come in the order of the events, so that each port is seen to go up and down alternately. (The last part is false: with two threads a callback may be told 'up' after 'removed'; and the removal of a port that is up is not sent, so that subscribers keep it as up.)", "quantifier": "all numbers of threads, ports, callbacks, all sequences of events and statuses, all interleavings", "why_tests_cant": "tests call notify from one thread and do not check what subscribers of messages are left with", "anchors": ["src/bm_sim/port_monitor.cpp:45-200"]}
{"id": "C78", "title": "Ports and packets received as messages", "statement": "The device manager that receives ports and packets as messages (packet-in): after any sequence of messages, the ports known and their statuses are what the messages say; a packet is given to the switch, unchanged and in order, exactly if its port was added, not removed since, and is up at that moment (or ports are not enforced); port_is_up says the same; and the port monitor holds the same ports with the same statuses. (False if port_add or port_remove are called: they fail as not supported, but tell the monitor, which then differs for good; and messages shorter than their header, or than the length they state, are read beyond their end.)", "quantifier": "all sequences of messages, all port numbers, all packets", "why_tests_cant": "tests send well-formed messages and do not call the operations that are not supported", "anchors": ["src/bm_sim/dev_mgr_packet_in.cpp:57-305", "src/bm_sim/dev_mgr.cpp:111-124"]}
{"id": "C79", "title": "The digest of a configuration is MD5", "statement": "The digest the switch computes of a configuration (built without OpenSSL) is MD5 as defined in RFC 1321, for data of every length, whether given at once or in any number of pieces, whatever the memory of the context held before; no access is out of bounds.", "quantifier": "all data, all ways to cut them into pieces, all contents of uninitialised memory", "why_tests_cant": "tests compare a few digests; lengths around multiples of 64, pieces, and lengths beyond 2^29 bytes (where the counters carry) are not tried", "anchors": ["src/bm_sim/md5.c:51-294", "src/bm_sim/switch.cpp:487-500"]}
{"id": "C80", "title": "A saved state is for its configuration", "statement": "A state file is accepted by a switch with the configuration it was saved with (its contexts then read what was saved), and refused by a switch with a configuration with another digest and by one that expects another version. (False: the digest is written as 16 bytes and read up to the next blank, so that with a configuration whose digest has a blank among its bytes - six of 256 values - no state can be restored; the configuration {} and a quarter of the configurations of the tests are such.)", "quantifier": "all configurations, all contents of the contexts", "why_tests_cant": "tests restore states with a few configurations, whose digests happen to have no blanks", "anchors": ["src/bm_sim/switch.cpp:381-433", "src/bm_sim/switch.cpp:487-500"]}
{"id": "C81", "title": "Saving and restoring action profiles cannot be noticed", "statement": "Saving the state of a program with an action profile and indirect tables at any point of a history, and restoring it to the freshly loaded program, gives the same members, groups, entries, default entries and reference counts: whatever is done next has results allowed from the state in which the save was made. (False: the restore aborts if a group was deleted whose handle is less than that of an existing one; the first member added after a restore gets handle 0 although member 0 exists, replaces it and sets its reference count to 0, so that it can be deleted while entries refer to it; likewise the first group.)", "quantifier": "all histories before the save and after the restore, any number of exact and LPM tables (up to 254), all sizes", "why_tests_cant": "the tests that save a state have no action profile; the failures need groups deleted before the save or additions after the restore", "anchors": ["src/bm_sim/action_profile.cpp:538-580", "src/bm_sim/action_profile.cpp:82-96", "src/bm_sim/action_profile.cpp:122-130", "include/bm/bm_sim/handle_mgr.h:164-176", "src/bm_sim/match_tables.cpp:951-963", "src/bm_sim/P4Objects.cpp:2350-2370"]}
{"id": "C82", "title": "The data of a packet is a list of bytes", "statement": "The data of a packet behaves as a list of bytes: receiving gives the bytes received, the parser removes bytes in front, the deparser puts bytes in front, what is sent is the content cut to the truncated length, and a clone is sent as the packet would be. Restoring a saved state gives the content at the time it was saved, even if the buffer was modified since (packet.h:181-183). Headers at most 512 bytes longer than those removed can be put in front on every pass. (False in part: a restored state has the bytes put in front since; clones are not truncated; the 512 bytes count over all recirculations, then the switch aborts; l2_switch and simple_router abort on packets of more than 2048 bytes.)", "quantifier": "all packets, all contents of uninitialised memory, all sequences of operations and of passes", "why_tests_cant": "tests use few operations on small packets; growth over many recirculations, and restoring after deparsing, are not tried", "anchors": ["include/bm/bm_sim/packet_buffer.h:41-125", "include/bm/bm_sim/packet.h:165-215", "src/bm_sim/packet.cpp:141-216", "targets/simple_switch/simple_switch.cpp:232-237", "targets/l2_switch/l2_switch.cpp:58-59"]}
{"id": "C83", "title": "Deparsing gives the valid headers and the payload", "statement": "After deparsing, the packet is the concatenation of the bits of the headers that are valid (after the method calls of the deparser), in the order of the deparser, followed by the payload; nothing of the old content of the buffer is sent. (False if a method call changes which headers are valid: the space is made before the calls.)", "quantifier": "all header vectors, method calls, orders of headers, payloads and contents of the buffer", "why_tests_cant": "tests of deparsers have no method calls that change the validity of headers", "anchors": ["src/bm_sim/deparser.cpp:44-92", "src/bm_sim/P4Objects.cpp:1277-1303"]}
{"id": "C84", "title": "Replaying and writing capture files", "statement": "Replaying capture files gives the packets of all files to the switch, each once and unchanged, with the port of its file, each file in its order; if the files are sorted by time the packets come in the order of their times, at the same time in the order of the files. If timing is respected, no packet comes before its distance from the first packet has passed since the start. The program ends with an error exactly if a record is incomplete or cannot be read, after the packets before it. Writing: the file of a port has exactly the packets sent to the port since it was added, in order; packets for other ports are ignored.", "quantifier": "all numbers of files, all records and times (microseconds below a second), all clocks, all sequences of calls of the writer", "why_tests_cant": "tests replay a few files with the same timing; ties, empty files and clocks that are late are not tried", "anchors": ["src/bm_sim/pcap_file.cpp:94-313", "src/bm_sim/pcap_file.cpp:340-383", "src/bm_sim/dev_mgr.cpp:44-62"]}
{"id": "C85", "title": "Periodic tasks are executed in time and only while they exist", "statement": "However tasks are created and destroyed by any threads: the function of a task is executed only while the task is registered; executions do not overlap; no task is executed before one interval has passed since its construction or the end of its last execution; when a task is due, a task that is due is executed as soon as the loop runs; a task that is due before another is executed before it; and nothing is undefined. (False in part: the loop waits with a reference to the time of the task on top; if that task is destroyed meanwhile the time is read from freed memory, or the next task is executed although it is not due. Starting the list while another thread joins it terminates the program.)", "quantifier": "all sequences of events of any number of threads and tasks, all intervals, all durations of executions, all spurious wakeups", "why_tests_cant": "the failures need a task destroyed at the moment when the loop waits for it", "anchors": ["src/bm_sim/periodic_task.cpp:14-143", "include/bm/bm_sim/periodic_task.h:23-118"]}
{"id": "C86", "title": "Counters count every packet once", "statement": "Whatever threads count, read, write and reset at the same time, it is as if the calls came one after the other: a packet counted adds one packet and its length to the counter of its index and to no other, an index outside of the array changes nothing, and a query reads the packets and bytes of the same packets. (False in part: bytes and packets are separate variables, so that a query can read the bytes of a packet that is not counted yet, and a reset can leave a packet without its bytes; indices of more than 32 bits are cut and can name a counter.)", "quantifier": "all numbers of threads, all sequences of calls, all orders of their accesses, all sizes of the array", "why_tests_cant": "tests count from one thread", "anchors": ["include/bm/bm_sim/counters.h:57-125", "src/bm_sim/counters.cpp:17-56", "src/bm_sim/context.cpp:519-550", "targets/simple_switch/primitives.cpp:374-392", "targets/psa_switch/externs/psa_counter.cpp:20-34"]}
{"id": "C87", "title": "Small targets send packets where the program says", "statement": "l2_switch, simple_router and pna_nic send a packet exactly to the ports that the program chooses (l2_switch: all ports of the group but the one it came from, or one port, or none; lists to learn are learned once), each copy with headers, payload and metadata of the packet, through egress pipeline and deparser; and what they do depends only on the packet received. (False in part: l2_switch and simple_router do not reset metadata, so that earlier packets decide; exit in ingress also skips egress; l2_switch stops at groups other than 1 and does not tell egress the port of a copy.)", "quantifier": "all programs (parsers, deparsers, pipelines), packets, ports, groups, contents of header vectors in the pool", "why_tests_cant": "tests of the small targets send few packets through one program that always sets the egress port", "anchors": ["targets/l2_switch/l2_switch.cpp:55-157", "targets/simple_router/simple_router.cpp:47-134", "targets/pna_nic/pna_nic.cpp:75-199", "src/bm_sim/pipeline.cpp:28-45", "src/bm_sim/packet.cpp:82-155"]}
{"id": "C88", "title": "Port lists given through PI reach the replication engine", "statement": "A multicast node created or modified through PI (with a list of egress ports) replicates packets to exactly the ports of that list, for every list.", "quantifier": "all port lists, all histories of calls on the replication engine", "why_tests_cant": "tests of PI use lists in ascending order with small ports", "anchors": ["PI/src/pi_mc_imp.cpp:63-72", "PI/src/pi_mc_imp.cpp:123-162", "include/bm/bm_sim/pre.h:32-33"]}
{"id": "C89", "title": "Selection among the active members of a group (PI selector)", "statement": "When PI is the selector of an action profile, members are active when they join; a member can be deactivated and activated again exactly when it is in the group and in the other state; every lookup that ends in a group with members gives the action of an active member, chosen by the hash modulo the number of active members, so that each active member is selected by exactly one remainder; the selector and the profile always agree about the members of each group.", "quantifier": "all histories of calls on members, groups and activation, with any reference counts held by tables; all hash values", "why_tests_cant": "agreement of two data structures kept by two components over all histories; deactivating the last member is not tested", "anchors": ["PI/src/group_selection.cpp:22-102", "src/bm_sim/action_profile.cpp:158-175", "src/bm_sim/action_profile.cpp:316-425", "src/bm_sim/action_profile.cpp:526-536", "src/bm_sim/action_profile.cpp:603-608", "src/bm_sim/match_tables.cpp:703-716"]}
{"id": "C90", "title": "Table entries written through PI are read back through PI", "statement": "A table entry given to PI (match key bytes, priority, action data, member or group handle) is stored with the same meaning: it matches exactly the packets that meet the matches, larger PI priorities are preferred; reading the entry gives the same key bytes, priority, action data bytes and handle; a priority that bmv2 cannot represent is refused by all operations.", "quantifier": "all tables (any mixture and order of match kinds and widths), all canonical match keys, all priorities, all action data, all handles", "why_tests_cant": "tests use a few widths and small priorities; the translation is done in two steps by two components with different layouts", "anchors": ["PI/src/pi_tables_imp.cpp:36-120", "PI/src/pi_tables_imp.cpp:386-461", "PI/src/pi_tables_imp.cpp:707-801", "PI/src/pi_tables_imp.cpp:1037-1064", "PI/src/action_helpers.cpp:25-71", "PI/src/common.h:49-62", "include/bm/bm_sim/data.h:203-210"]}
{"id": "C91", "title": "Resources given with table entries through PI are applied as a whole", "statement": "A table entry written through PI with an idle timeout, counter values and a meter configuration has all of them when the call succeeds, and nothing changed when it fails; reading counters, meter configuration and remaining time through PI gives what was written, a counter write changes only the units it gives, an entry is reported idle exactly when no time remains, and other entries keep their resources.", "quantifier": "all tables and contents, all handles of entries, all timeouts, counter values, rates and bursts, all lists of resources, all times", "why_tests_cant": "rounding of rates in floating point and wrap-around of 32-bit products show only for some of the values; failures half-way need a table without the resource", "anchors": ["PI/src/pi_tables_imp.cpp:140-212", "PI/src/pi_tables_imp.cpp:662-705", "PI/src/pi_tables_imp.cpp:778-801", "PI/src/pi_tables_imp.cpp:951-981", "PI/src/pi_tables_imp.cpp:1090-1115", "PI/src/direct_res_spec.cpp:19-107", "PI/src/pi_counter_imp.cpp:32-45", "PI/src/pi_counter_imp.cpp:113-177", "PI/src/pi_meter_imp.cpp:87-143"]}
{"id": "C92", "title": "Assigning a header, union or stack copies it", "statement": "After assigning header s to header d of the same type, d is valid exactly if s is, and then every field of d has the width, value and bytes of that field of s and d is deparsed to the same bytes; assigning a union makes the corresponding member the valid one, assigning a stack copies next and all elements; the source and all other headers keep validity and contents, apart from the other members of the union of d; all fields of what a parameter of a primitive names can be read as values.", "quantifier": "all vectors of headers that arise, all headers, unions and stacks of them, all contents, fixed and variable-length fields, all lists of parameters in a configuration", "why_tests_cant": "the copy goes through the numeric value of each field, which is kept up to date only for fields the loader marked; which ones depends on the rest of the program", "anchors": ["src/bm_sim/core/primitives.cpp:48-87", "src/bm_sim/P4Objects.cpp:212-278", "src/bm_sim/P4Objects.cpp:359-451", "src/bm_sim/P4Objects.cpp:2539-2585", "src/bm_sim/phv.cpp:243-320", "src/bm_sim/fields.cpp:103-112", "src/bm_sim/headers.cpp:162-186", "include/bm/bm_sim/header_unions.h:50-60"]}
{"id": "C93", "title": "log_msg logs the format with its arguments", "statement": "The primitive log_msg logs the format string with the arguments, in order and in decimal, in place of the placeholders {...} and brackets in place of the escaped brackets; if the number of arguments differs from the number of placeholders, nothing is logged and the switch ends with an error; it always ends.", "quantifier": "all format strings, all lists of arguments", "why_tests_cant": "the positions of the searches change with each replacement; tests cover a few formats", "anchors": ["src/bm_sim/core/primitives.cpp:130-191"]}
{"id": "C94", "title": "Action profiles through PI", "statement": "Through PI, members and groups of an action profile are created, changed and deleted as the calls say, also when others change the profile and its tables in between: every call returns the handle or status that belongs to it; fetching everything shows exactly the existing members, each with the action data it was given byte for byte, and the existing groups with their members; fetching one member or group shows it, or fails exactly when it does not exist; handles that were not given out are rejected.", "quantifier": "all histories of PI calls and switch operations, all P4 infos, all handles", "why_tests_cant": "handles carry a flag bit and are cut from 64 to 32 bits; the result of a fetch is a byte string with offsets into an array; tests look at a few entries", "anchors": ["PI/src/pi_act_prof_imp.cpp:32-351", "PI/src/common.h:49-62", "include/bm/bm_sim/action_profile.h:37-38"]}
{"id": "C95", "title": "Debugger", "statement": "Whatever requests clients send and whatever packets do, every request gets exactly one reply, with the number of the request; it tells the current value or backtrace, whether the request succeeded, or, for continue and next, where the program stopped (or that it is still running); the program stops exactly after the events the client asked for (watched fields, packets coming in, the next event; of the chosen packets) and no packet goes on until the client says so; while no new packets are wanted, only copies of packets already inside come in; with no client attached packets are never held up; the debugger never fails.", "quantifier": "all sequences of requests, timeouts, replies, packet events and configuration changes, all interleavings of the threads", "why_tests_cant": "the request thread, the packet threads and the thread changing the configuration interleave; flags left over from earlier requests only matter in rare orders; tests follow one session", "anchors": ["src/bm_sim/debugger.cpp:178-911", "include/bm/bm_sim/debugger.h:30-100"]}
{"id": "C96", "title": "Tables through the Thrift interface, end to end", "statement": "Requests of Thrift clients about match tables (add, modify, delete, set and reset the default, get one entry by handle or by key, list entries, count, clear) behave as a map from handles to the entries written: a request is refused exactly when the table, the action, the parameters, the amount of data, the handle, the capacity or a constant entry call for it, with the right reason; entries and the default are read back with the match parameters, priority, action name and data that were written (bits ignored by the match cleared); a packet whose match fields hold given values runs the action of the best matching entry with the data that the client sent, or the default, whatever happened before.", "quantifier": "all programs with well-formed tables of the four kinds, all histories of requests and packets on all tables", "why_tests_cant": "the behaviour comes from four layers (server, key builder, match unit, lookup structure) that tests exercise one at a time and with few fields, masks and orders of requests", "anchors": ["src/bm_runtime/Standard_server.cpp:36-286", "src/bm_runtime/Standard_server.cpp:569-760", "src/bm_runtime/Standard_server.cpp:1252-1261", "src/bm_sim/context.cpp:30-123", "src/bm_sim/match_units.cpp:774-1049", "src/bm_sim/match_tables.cpp:84-620"]}
{"id": "C97", "title": "Registers, counters, meters and value sets through the Thrift interface", "statement": "Whatever requests a client sends about register arrays, counter arrays, meter arrays and parser value sets, in whatever context, interleaved with what packets and resets do, the server stays up and every reply is right: registers hold the last value written modulo their width, counters count packets and bytes since they were last written, meters return the rates last accepted, value sets contain what was added and not removed; requests with wrong names, indices, ranges, contexts, rates or values are refused with the right reason and change nothing; a reset brings everything back to the start.", "quantifier": "all declarations, all numbers of contexts, all histories of requests, packets and resets", "why_tests_cant": "the faults sit in casts between signed and unsigned types of different size, in partial updates of refused requests, and in unusual sizes, which tests with small positive numbers do not reach", "anchors": ["src/bm_runtime/Standard_server.cpp:815-852", "src/bm_runtime/Standard_server.cpp:919-1078", "src/bm_runtime/Standard_server.cpp:1179-1182", "src/bm_sim/context.cpp:519-696", "src/bm_sim/P4Objects.cpp:2327-2346", "src/bm_sim/switch.cpp:372-379"]}
{"id": "C98", "title": "Ports attached to interfaces", "statement": "Whatever the order in which requests to the port manager, its thread and the outside make their steps: a port is attached to one interface from the moment it is added until it is removed; packets sent to a port leave through its interface, in order; a packet that arrives at an interface is handed to the handler once, with the number of the port attached to it, in the order of arrival; the counters count what was sent and received since they were cleared; every request returns; no packets wait for ever at a port when there is a handler; destroying the manager closes everything.", "quantifier": "all numbers of ports, all descriptors, all interleavings of requests, the receiving thread, signals and arriving packets", "why_tests_cant": "the faults are races between a request and the thread, or depend on the numbers the system gives to descriptors; a test sees one interleaving, and usually the one in which the thread is in select", "anchors": ["src/BMI/bmi_port.c:58-175", "src/BMI/bmi_port.c:177-361", "src/BMI/bmi_port.c:396-436", "src/BMI/bmi_interface.c:34-148", "src/bm_sim/dev_mgr_bmi.cpp:126-131"]}
{"id": "C99", "title": "Multicast configuration through Thrift, PD and the command line", "statement": "Every multicast request gets the reply that the interface promises for the call it stands for, in the context it names and in no other; refused and malformed requests change nothing; packets are replicated as the configuration built by the accepted requests says; a PD call or a command has the effect of the call it stands for with the ports given, and a failure is reported; a dump shows the configuration.", "quantifier": "all numbers of contexts, all histories of requests with any 32-bit and 16-bit numbers and any strings, and of packets; all port lists and PD port maps", "why_tests_cant": "the faults depend on conversions of numbers above 2^31 and on ports above 511, or on a variable that happens to have the right value in small examples", "anchors": ["src/bm_runtime/SimplePreLAG_server.cpp:25-126", "src/bm_runtime/SimplePre_server.cpp:25-117", "include/bm/bm_sim/pre.h:25-44", "src/bm_sim/simple_pre.cpp:175-241", "src/bm_sim/simple_pre_lag.cpp:96-125", "pdfixed/src/pd_pre.cpp:31-164", "tools/runtime_CLI.py:1721-1781", "tools/runtime_CLI.py:1855-1898"]}
{"id": "C100", "title": "Commands of the command line tool about tables", "statement": "A line that says something about a table (names in full or by an unambiguous suffix; values as numbers in any base, as IPv4, IPv6 or MAC addresses; prefixes, masks, ranges, validity; parameters, handle, priority) is sent as the request that asks for exactly that, and the resulting entry applies to exactly the packets that the line means, with the action and data it gives; a line that says nothing is refused with a message and nothing is sent.", "quantifier": "all programs with distinct names, all lines of words, all values and widths; all files of commands, from the text to the tables of the switch", "why_tests_cant": "lines and values are unbounded; the faults depend on a forgotten word, a sign, a width that is no multiple of 8, or a name that ends like another", "anchors": ["tools/runtime_CLI.py:60-62", "tools/runtime_CLI.py:387-403", "tools/runtime_CLI.py:467-567", "tools/runtime_CLI.py:578-650", "tools/runtime_CLI.py:693-712", "tools/runtime_CLI.py:911-915", "tools/runtime_CLI.py:1038-1187", "tools/runtime_CLI.py:1223-1275", "tools/runtime_CLI.py:2232-2246", "tools/runtime_CLI.py:2374-2446"]}
{"id": "C101", "title": "The event log", "statement": "What the client of the event log prints is what happened in the switch: every event with its packet, its object and the name the running program gives to it; the reports on a packet in a pipeline tell the nodes it passed and the entries it hit, to a reader who knows the program only; the reports of a parser are the headers that were extracted, those of a deparser the headers written and the checksums updated; what was started and came to its end is reported to have ended.", "quantifier": "all programs, histories of control-plane calls and packets, all interleavings of messages of packets, all changes of the program", "why_tests_cant": "the faults need an entry replaced 128 times, a table without default action, a packet that is too short, or a parser without states; whether the log determines the way of a packet is a statement about all pairs of runs", "anchors": ["src/bm_sim/event_logger.cpp:25-267", "tools/nanomsg_client.py:33-475", "src/bm_sim/match_tables.cpp:84-131", "src/bm_sim/pipeline.cpp:19-43", "src/bm_sim/conditionals.cpp:20-47", "src/bm_sim/actions.cpp:423-441", "src/bm_sim/parser.cpp:234-269", "src/bm_sim/parser.cpp:1122-1160", "src/bm_sim/deparser.cpp:56-100"]}
{"id": "C102", "title": "Action profiles over Thrift", "statement": "Through the Thrift interface an action profile is a set of members and a set of groups, and each of its tables is a map from handles to entries that point to a member or a group: what was written is read back, requests are refused for the right reason and then change nothing, a member or group can be deleted exactly if nothing refers to it, and a packet runs the action of the member of the best matching entry, or of the member of its group that the hash selects.", "quantifier": "all action profiles with any number of tables of all kinds, all histories of requests (with any strings, handles, byte strings) and packets", "why_tests_cant": "the effect of a request depends on all requests before it, through the reference counts shared by all tables; the faults need a refused request followed by a deletion, or a name that does not exist", "anchors": ["src/bm_runtime/Standard_server.cpp:295-492", "src/bm_runtime/Standard_server.cpp:569-813", "src/bm_runtime/Standard_server.cpp:1264-1306", "src/bm_sim/context.cpp:129-370", "src/bm_sim/match_tables.cpp:719-1173", "src/bm_sim/action_profile.cpp:158-536"]}
{"id": "C103", "title": "Egress queues of psa_switch", "statement": "The queues without priorities (QueueingLogicRL, used by psa_switch) are waiting lines: an element is refused exactly when its line holds at least its depth; a worker gets, among the ready elements of its lines, one with the earliest departure time, and is blocked only if none is ready; elements of a queue leave in the order in which they were accepted, with departure times at least one service interval apart and none before its time; nothing is lost or duplicated; sizes are right; and every history of calls returns what the class with priorities returns if it has a single one.", "quantifier": "all histories of fewer than 2^64 calls, all clock readings (also going back), all numbers of workers and queues", "why_tests_cant": "unbounded histories and clock behaviours; the two classes are separate copies of the code", "anchors": ["include/bm/bm_sim/queueing.h:243-462"]}
{"id": "C104", "title": "No wake-up is lost on egress queues", "statement": "For QueueingLogicPriRL (simple_switch) and QueueingLogicRL (psa_switch), any number of threads, and all interleavings with all choices of notify_one and spurious wake-ups: the calls, in the order in which they hold the mutex, are a history of calls (so C25, C26 and C103 apply); whenever a thread sleeps in pop_back and an element of its worker has reached its departure time, the time the thread waits for has come too, and when it goes on it gets an element; so an element that was accepted, among them the null pointer by which a thread is told to end, is never left behind; a thread that is awake can go on.", "quantifier": "all numbers of threads, workers, queues and priorities up to 32, all interleavings of any length up to 2^64 calls, all clock readings", "why_tests_cant": "a lost wake-up needs a particular schedule and clock; tests see only a few", "anchors": ["include/bm/bm_sim/queueing.h:262-316", "include/bm/bm_sim/queueing.h:505-598", "targets/psa_switch/psa_switch.cpp:221-235", "targets/simple_switch/simple_switch.cpp:283-299"]}
{"id": "C105", "title": "Controllers are told what happened", "statement": "Every notification of the switch (samples learned, entries that aged, ports that changed) reaches the callbacks of a controller that registered for its kind exactly once and in order, with the device, the context, the numbers and all of the data; from the samples a list learns to what the callback reads, each sample is read where the switch has it, none is read twice unless acknowledged, and an acknowledgement made with the numbers received refers to that notification.  PI is told the same in its own numbers, and is told nothing while programs are being exchanged.", "quantifier": "all sequences of notifications, all contents of the receive buffers, all registrations; all careful histories of a learn list; all lookups", "why_tests_cant": "the messages are packed binary structures of several kinds copied into one reused buffer; a loss needs particular sizes or an exchange of programs at the right time", "anchors": ["src/bm_sim/learning.cpp:429-450", "src/bm_sim/ageing.cpp:189-207", "src/bm_sim/port_monitor.cpp:62-82", "src/bm_sim/context.cpp:877-895", "src/bm_sim/switch.cpp:553-568", "src/bm_apps/learn.cpp:41-160", "src/bm_apps/notifications.cpp:26-223", "targets/simple_switch/runner.cpp:41-256", "targets/simple_switch_grpc/switch_runner.cpp:262-479"]}
{"id": "C106", "title": "Packet streams of simple_switch_grpc", "statement": "One client at a time has a packet stream.  Every packet that leaves the switch is one that came in; it goes to the controller or through the stream it came from, never to a later client and never nowhere, and carries the number of its request (0 if it has none).  Statistics of a port are those of what happened since they were cleared; a port is up unless it was set down, and the port monitor agrees.  Whatever the threads do, all packets in the switch can still leave, the end of the stream and an exchange of programs can still be completed.", "quantifier": "all interleavings of the stream thread, the transmit thread, calls of other clients, packets of the controller and exchanges of programs; all fates of packets", "why_tests_cant": "the violations need a particular interleaving of three threads: a deadlock between two mutexes and a wait for packets, and a number read after another thread took one", "anchors": ["targets/simple_switch_grpc/switch_runner.cpp:66-260", "targets/simple_switch_grpc/switch_runner.cpp:584-606", "src/bm_sim/switch.cpp:353-369", "src/bm_sim/switch.cpp:443-478", "src/bm_sim/switch.cpp:532-551", "targets/simple_switch/simple_switch.cpp:231-265", "targets/simple_switch/simple_switch.h:123-126", "PI/src/pi_imp.cpp:142-148", "src/bm_sim/dev_mgr.cpp:111-124"]}
{"id": "C107", "title": "Shutting down simple_switch and psa_switch", "statement": "After the destructor of the switch has been called, it returns, whatever packets are inside and however threads are scheduled; it returns only after the ingress thread, all egress threads and the transmit thread have ended; packets accepted before are processed and sent.", "quantifier": "all interleavings of the threads and all fates of packets; all capacities of buffers, depths of queues and numbers of threads", "why_tests_cant": "a hang needs one packet more inside the switch than the output buffer holds, at the moment of destruction, and the right order of null pointers and packets in five buffers", "anchors": ["targets/simple_switch/simple_switch.cpp:108-189", "targets/simple_switch/simple_switch.cpp:266-299", "targets/simple_switch/simple_switch.cpp:378-424", "targets/simple_switch/simple_switch.cpp:472-625", "targets/simple_switch/simple_switch.cpp:638-765", "targets/psa_switch/psa_switch.cpp:112-124", "targets/psa_switch/psa_switch.cpp:200-234", "targets/psa_switch/psa_switch.cpp:362-616", "include/bm/bm_sim/queue.h:50-110", "include/bm/bm_sim/queueing.h:589-606"]}
{"id": "C108", "title": "Exclusive access to registers", "statement": "An action, a parse state and the deparser have exclusive access to the register arrays they read or write.  What threads do with registers at the same time, together with read, write and reset requests and conditions of the program, has the results it would have one after the other; nobody waits for ever.", "quantifier": "all actions, parse states and deparsers (parameters, expressions, method calls), all schedules of any number of threads, all that tasks may do with the contents of arrays", "why_tests_cant": "needs two threads in the middle of an action on the same register; a lost update leaves no trace", "anchors": ["include/bm/bm_sim/stateful.h:141-199", "src/bm_sim/stateful.cpp:41-75", "src/bm_sim/actions.cpp:131-215", "src/bm_sim/actions.cpp:323-326", "src/bm_sim/actions.cpp:422-437", "src/bm_sim/parser.cpp:934-968", "src/bm_sim/parser.cpp:1040-1051", "src/bm_sim/deparser.cpp:60-106", "src/bm_sim/expressions.cpp:378-390", "src/bm_sim/conditionals.cpp:20-48", "src/bm_sim/context.cpp:594-658"]}
{"id": "C109", "title": "Command line tool of the debugger", "statement": "What the user of the debugger's command line tool sees follows from what they did and what packets did: continue and next stop at exactly the events asked for (watchpoints, breakpoints, packets coming in, skipped packets left out) and tell them by name; values and backtraces are those of the packet; packets go on while and only while they may; a command without an event ends only if interrupted; nothing fails on either side, every message is read as it was sent, and nobody waits for ever.", "quantifier": "all programs with unambiguous names, all commands, all schedules of tool and switch, all that packets do, all interrupts", "why_tests_cant": "needs two processes and interleavings of packets, messages, time-outs and interrupts; each side alone behaves", "anchors": ["tools/p4dbg.py:41-219", "tools/p4dbg.py:228-480", "tools/p4dbg.py:555-1116", "tools/p4dbg.py:1147-1201", "src/bm_sim/debugger.cpp:222-257", "src/bm_sim/debugger.cpp:474-911"]}
{"id": "C110", "title": "Byte containers are lists of bytes with safe storage", "statement": "Whatever is done to any number of byte containers: each operation changes the bytes of its container as it would change a list of bytes and leaves every other container as it is; no access leaves storage of the container; the storage of a container lies in its own object or in one block of operator new, and overlaps nothing else in use; no assertion of the arena fails, nothing is deleted twice, nothing leaks; storage does not move while the bytes fit. Operations fail only for containers out of their lifetime, containers used as their own source, positions after the end (undefined), indices too big and masks of another size (assertion). The arena keeps these guarantees for all sizes, alignments and orders of requests which can be rounded up.", "quantifier": "all sequences of operations on any number of containers, all capacities the vectors choose, all addresses the environment may choose; all arenas and all clients which give back what they hold", "why_tests_cant": "depends on the order in which blocks of an arena are taken and given back, on addresses and on capacities; a wrong overlap shows only in rare layouts", "anchors": ["include/bm/bm_sim/short_alloc.h:36-145", "include/bm/bm_sim/bytecontainer.h:30-269", "include/bm/bm_sim/stateful.h:178-185"]}
{"id": "C111", "title": "Calculations compute the algorithm the program names, with the parameters set last", "statement": "A program whose calculations have known algorithms (a built-in name, the name of a predefined CRC, or a description poly_0x..._init_..._xout_..._not_rev) is loaded; from then on every computation of a calculation gives the value of the algorithm named, with the CRC parameters or the Toeplitz key set last for this calculation in this context; requests for another calculation or context change nothing; parameters of another width, for another kind of algorithm or keys of a wrong size are refused with their error code and change nothing; unknown names are refused with INVALID_CALCULATION_NAME; the command line tool sends the numbers it is given or tells what is wrong with them.", "quantifier": "all programs, all sequences of computations and requests, all inputs, all descriptions, all arguments of the tool", "why_tests_cant": "38 predefined CRCs with four parameters each, unboundedly many descriptions, and state shared between calculations only shows in sequences of requests", "anchors": ["src/bm_sim/crc_map.cpp:24-260", "src/bm_sim/calculations.cpp:506-625", "src/bm_sim/P4Objects.cpp:1306-1346", "src/bm_sim/P4Objects.cpp:2483-2524", "src/bm_sim/context.cpp:705-731", "src/bm_runtime/Standard_server.cpp:1136-1178", "tools/runtime_CLI.py:827-849", "tools/runtime_CLI.py:2560-2610", "include/bm/bm_sim/calculations.h:157-333"]}
{"id": "C112", "title": "Mirroring sessions and egress queue settings are the ones set last, through whichever interface", "statement": "Over Thrift, through PD, through PI and with the command line tool of simple_switch, in any order and mixed with packets: a mirroring session with a number from 0 to 32767 is there, for all interfaces and for the clones of packets, with the port and the group set last, until it is deleted; depths and rates of egress queues are those set last, for the line, the port or all ports the request is about, and packets are refused and leave accordingly; requests which cannot be fulfilled are refused, change nothing, and the caller is told; lines of the tool which cannot be read are answered with a message and change nothing.", "quantifier": "all sequences of packets and requests through the four interfaces, all times, all numbers, all arguments of the tool", "why_tests_cant": "state shared by four interfaces with different types and conventions; what is told about a refused request depends on the interface", "anchors": ["targets/simple_switch/thrift/src/SimpleSwitch_server.cpp:33-135", "targets/simple_switch/simple_switch.cpp:307-360", "pdfixed/src/pd_mirroring.cpp:38-101", "PI/src/pi_clone_imp.cpp:26-60", "targets/simple_switch/sswitch_CLI.py:23-117", "include/bm/bm_sim/queueing.h:632-674"]}
{"id": "C113", "title": "Counters, meters and random numbers of psa_switch", "statement": "In psa_switch a Counter tells the packets and bytes counted since it was last written or reset, plus what was written; Meter.execute gives a packet the PSA colour (red 0, green 1, yellow 2) of the most severe level it violates, given the rates set last and the packets this meter saw since then, and changes no other meter; an index outside of the array changes nothing, not even the field; Random.read gives numbers of the declared range, each of which is possible; requests of controllers with unknown names or indices or with rates which cannot be used are refused with their error code and change nothing; resetting the state empties counters and meters.", "quantifier": "all declarations, all sequences of packets and requests, all indices, all rates, all times which never go back", "why_tests_cant": "the colour depends on the whole history of the meter; requests reach the externs through casts which no test with right names exercises", "anchors": ["targets/psa_switch/externs/psa_counter.cpp:20-48", "targets/psa_switch/externs/psa_meter.cpp:20-89", "targets/psa_switch/externs/psa_random.cpp:23-41", "targets/psa_switch/psa_switch.h:121-207", "include/bm/bm_sim/extern.h:65-78", "src/bm_sim/P4Objects.cpp:2327-2346"]}
{"id": "C114", "title": "Constants of errors and enums mean what the program declares", "statement": "A program whose errors and enums have the documented form (names and values unique, values from 0 to below 2^31-1) is loaded, any other is refused; then every declared error has its value, every core error has a value of its own, names and values determine each other; a verify with a number which is no error is refused; after parsing, the packet has the value of the error raised, that of NoError if none was raised; the constants of enums have the values declared, in both directions.", "quantifier": "all lists of errors, all lists of enums, all parsers, all packets", "why_tests_cant": "the values of undeclared core errors depend on the largest declared value, so collisions and overflow only show for particular lists; tests use the lists the compiler writes", "anchors": ["src/bm_sim/parser_error.cpp:18-120", "src/bm_sim/enums.cpp:16-54", "src/bm_sim/P4Objects.cpp:616-634", "src/bm_sim/P4Objects.cpp:892-903", "src/bm_sim/P4Objects.cpp:1068-1089", "src/bm_sim/parser.cpp:392-410", "src/bm_sim/parser.cpp:1095-1158", "docs/JSON_format.md:233-265"]}
{"id": "C115", "title": "The blocking queues of QueueingLogic lose nothing, keep the order and the capacities, and wake those who wait", "statement": "Threads push to and pop from a QueueingLogic object in any order, waiting threads are woken in any order and possibly without reason, and capacities are set at any time.  Every push happens exactly when the queue has less elements than its capacity at this moment, otherwise it waits; every pop gives the oldest element pushed for this worker, with its queue, or waits when there is none; nothing throws when the workers exist; each worker receives what was pushed for it in this order, nothing twice, nothing left out; size is the number of elements of the queue; every call is done once or still waits; when a reader waits that has not been woken up, there is a woken reader for every element; when a writer waits that has not been woken up, there is a woken writer for each free place.", "quantifier": "all numbers of workers, all maps from queues to workers, all capacities, all interleavings of calls, wake-ups and settings", "why_tests_cant": "Lost wake-ups and wrong orders need particular interleavings of three or more threads which a test neither chooses nor repeats", "anchors": ["include/bm/bm_sim/queueing.h:75-229"]}
{"id": "C116", "title": "The switch is set up as the command line says, or the command line is refused", "statement": "A command line with unknown options, single options given twice or interfaces without port number is refused with status 1; so is one whose options do not fit together (no program, console and file logs, unknown log level, log files of size 0, a pcap directory which does not exist, files and socket as source of packets, a negative number of ports), unless only information is asked for, which ends with status 0.  For every other command line each setting has the value given or its default; the ports are exactly those given, each with the last interface given for it and with its pcap files, none with --packet-in; the program is loaded for the device id given, packets come from the source given, logs go where they should, the state is restored last; the target gets the arguments meant for it; option_was_provided tells what was given; the debugger and all other services get the device id; all options the code looks for can be given.", "quantifier": "all command lines, any number of options and interfaces, any ports and names, any set of existing directories", "why_tests_cant": "Dozens of options interact, interfaces may be given any number of times in any order, and defaults depend on other options", "anchors": ["src/bm_sim/options_parse.cpp:33-449", "include/bm/bm_sim/options_parse.h:28-99", "src/bm_sim/switch.cpp:211-323"]}
{"id": "C117", "title": "Options of the target have the values written, and simple_switch starts only with right ones", "statement": "A name can be registered once.  When the arguments are right, each option has the value written; it is read with its own type only; an option not given, a name not registered and a wrong type are told apart; flags tell whether they are given.  simple_switch starts exactly when the arguments are right (all options known, none twice, values readable) and make sense (limits of the multicast tables from 1 to 2^31-1, at least one queue), with the values given, the defaults for the rest, and the modules named.", "quantifier": "all sets of registered options, all lists of arguments, all names and texts of values", "why_tests_cant": "Arguments may be in any order and number, values any text; what happens after an error depends on what boost stored before it", "anchors": ["src/bm_sim/target_parser.cpp:33-221", "include/bm/bm_sim/target_parser.h:52-141", "targets/simple_switch/main.cpp:33-134", "src/bm_sim/options_parse.cpp:428-433"]}
{"id": "C118", "title": "A packet moved is the packet it was, and header vectors go back to their context", "statement": "Moving a packet, by construction or assignment, gives a packet with all properties of the original (data and their size, headers, ports, ids, registers, truncation, last table entry, error code, checksum error); the original gives nothing back when it is destroyed.  In all executions with packets created, changed, moved, assigned, sent to other contexts and destroyed, a packet has a header vector of its own context, every header vector goes back reset to the pool of the context it was made for, and the number in use in a context is the number of packets there.", "quantifier": "all executions, any number of packets and contexts, all contents of packets", "why_tests_cant": "What is lost in a move shows only in later uses of the packet; a header vector in a wrong pool shows only when another packet gets it", "anchors": ["src/bm_sim/packet.cpp:80-128,200-241", "src/bm_sim/phv_source.cpp:20-83", "include/bm/bm_sim/packet.h:168-170,206-208,236-250,348-394"]}
