# Formal model of p4lang/behavioral-model (bmv2) in Lean 4

## What this is

`/verif/lean` is a Lake project with a hand-written, executable Lean model of
parts of bmv2 (C++ sources in `/repo`), and theorems about that model which
state the properties of `/verif/properties.jsonl`.

Layout:

* `Verif/Model/*.lean`  – the model.  Each definition cites the C++ file and
  lines it transcribes and says where it is simplified.
* `Verif/Spec/*.lean`   – small specifications, written without the helpers of
  the model (sets, lists, bit strings, integers, maps).
* `Verif/Lemmas/*.lean` – proofs of auxiliary facts and invariants.
* `Verif/Props/*.lean`  – the property theorems (`C01_...`), each followed by a
  concrete non-trivial instance (`example`), and – where the C++ code does not
  have the property – a theorem with a concrete counterexample together with a
  `_partial` theorem stating what does hold.

## Trusted base

* The Lean 4.33.0 kernel, and the axioms `propext`, `Classical.choice`,
  `Quot.sound` (no other axiom; no `sorry`, `native_decide`, `bv_decide`).
* That the model transcribes the C++ code faithfully.  This was done by reading;
  nothing in `/repo` was compiled or run.
* C++ semantics as assumed in the model: LP64 little-endian host, 8-bit bytes,
  `unsigned` arithmetic modulo 2^n; undefined behaviour, failed `assert` and
  uncaught exceptions are explicit outcomes (`Outcome.ub` / `Outcome.abort` /
  `Outcome.throw`, or `Option`), never silently totalised.
* Standard containers (`std::vector`, `std::unordered_map`, `std::map`,
  `std::list`, `std::priority_queue`, Judy arrays) are assumed to implement
  lists / finite maps / sets / stable heaps.

## Outside the model

Threads and locks (each operation is atomic; interleavings are sequences of
operations), except in `Model/Monitor`, `Model/Swap` and `Model/Ports`; real time (clock readings are arbitrary inputs), memory exhaustion,
logging, the Thrift/PI/nanomsg front ends, JSON parsing, the packet I/O drivers,
floating-point rounding (rates are exact rationals).

## Plan per property

| id | modelled code | method |
|----|---------------|--------|
| C01 | `DynamicBitset` at 64-bit-word level, `HandleMgr` | refinement of the word-level bitset to a set of naturals; invariant "cursor = least free" by induction over operation lists |
| C02, C03 | `LPMTrie` node/branch/prefix structure, byte-wise walk | well-formedness invariant (sorted, no empty subtrie, full depth), refinement to a finite map from bit strings |
| C04 | `EntryList` linked list, `TernaryMap`/`RangeMap` lookup | list sorted by slot; selection = lexicographic minimum (priority, slot) |
| C05 | `TernaryCache`, `CacheMap` | simulation: cached table vs. uncached table |
| C06–C09, C13, C14 | `MatchUnitAbstract_`, `MatchUnitGeneric` | refinement to an abstract map handle ↦ entry; counterexamples for C13, C14 |
| C10–C12 | `MatchKeyBuilder` | permutation + per-field round trip; bit-string semantics of prefixes; counterexample of C11 for widths not multiple of 8 |
| C15–C17 | `ActionProfile`, `MatchTableIndirect(WS)` | reference counts = number of references for histories without failing calls; counterexamples |
| C18–C20 | `McSimplePre`, `McSimplePreLAG` | invariant + exact multiset of copies; counterexample C19 |
| C21–C24 | `Meter` over rationals | telescoping token account; counterexamples C23, C24 |
| C25, C26 | `QueueingLogicRL`, `QueueingLogicPriRL` | invariants over operation lists with arbitrary clock inputs |
| C27, C28 | `LearnList`, `AgeingMonitor::do_sweep` | state machines with explicit UB; counterexamples |
| C29–C31 | `generic_extract`, `generic_deparse`, `Field`, `Header` | bit-list semantics, arithmetic on naturals |
| C32, C33 | `Stack`, `HeaderUnion` | list functions / invariant |
| C34 | `Expression`, `build_expression` | compiler-correctness by structural induction |
| C35, C36, C43, C44 | `cksum16`, CRC, Toeplitz, `BufBuilder` | modular arithmetic, polynomial division bit by bit, induction over messages |
| C37–C39 | parser ops, value sets, deparser | explicit out-of-bounds outcome; counterexamples |
| C40 | `CopyIdGenerator` | invariant over histories |
| C41, C42 | simple_switch `RegisterAccess`, `ingress_thread` | bit-vector lens laws; decision table |
| C45 | `HandleMgr::set_handle` | counterexample and partial theorem |
| C46, C48 | `Data` casts, registers | integer arithmetic |
| C47 | checksum update/verify | equational |

## Completed modules and findings

The code departs from a property in the places listed here; for each a theorem
proves the departure on a concrete history.

* **Handles (C01, C45).**  `HandleMgr::set_handle` computes the next free slot
  from the size *before* growing the bitmap; after restoring a slot the next
  allocation may return the restored slot (`C45_restored_slot_reissued`).
* **Lookup structures (C02–C05).**  Modelled at pointer/array level (trie nodes
  and branches, linked list in a vector, cache).  No departure found.
* **Match units (C06–C09, C13, C14).**  Generic over the lookup structure, then
  instantiated for the four kinds of table.  Tables larger than 2^24 are outside
  the theorems: the constructor tries to clamp the size but assigns the
  parameter instead of the member.  Versions wrap modulo 256 and restart at a
  reset, hence the side conditions of C07 (`C07_reset_revives_handles`).
  Departures: a new entry inherits the time-to-live and the direct-meter
  configuration of the previous user of its slot (`C13_ttl_inherited`,
  `C13_meter_inherited`); counter, meter and time-to-live calls check only the
  slot, not the version, so a stale handle acts on the new entry
  (`C14_stale_handle_writes`).
* **Match keys (C10–C12, C49).**  `MatchKeyBuilder` with the permutation of the
  fields, byte-0 masking, static masks, and the four kinds of entries.  The
  meaning of a parameter is stated on numbers.  Departure: prefix lengths are
  counted from the first bit of the first *byte*, so a prefix on a field whose
  width is not a multiple of 8 covers too few bits (`C11_fails_20_bits`,
  `C11_fails_12_bits_ternary`).  The upper bound of a range is not reduced to
  the field width although the lower bound is (visible in `FieldMatches`).
* **Action profiles (C15–C17).**  One profile shared by any finite number of
  indirect tables.  The specification has no reference counts; "in use" is read
  off the state.  `C15_conforms_partial` covers histories in which no table
  addition or modification is refused and no full table is cleared.
  `C15_leaks_partial` covers refused additions and clears as well, with a
  weaker specification (`PStepL`) that carries, for every member and group, the
  number of references left behind; nothing in use can be deleted and lookups
  are always defined, until 2^32 references are left behind.  C16 and C17 hold
  for all histories.
  Departures: a refused addition leaks a reference (`C15_failed_add_leaks`); a
  refused modification drops the reference of the entry it leaves in place, the
  member can then be deleted under the entry and the next packet reads it
  (`C15_failed_modify_loses`, `C15_failed_modify_crashes`); clearing a table
  leaks all its references (`C15_clear_leaks`); resetting while groups exist
  leaves their handles allocated (`C17_reset_with_groups`,
  `C17_create_after_reset`).  Reading only: for an empty group the lookup
  returns an action entry whose next node was never set, and groups can become
  empty while an entry points to them.
* **Multicast (C18–C20).**  Copies are compared as multisets with counts taken
  over sets of nodes.  Departure: destroying a group leaves its nodes marked as
  associated; destroying such a node then throws `std::out_of_range`
  (`C19_destroy_throws`) and associating it elsewhere is refused
  (`C19_destroyed_group_keeps_nodes`).  `C19_crash_iff` gives the exact
  condition.  LAG index 256 is accepted although the limit is 256 entries.
### Meters (C21–C24)

`Model/Meter` transcribes `Meter` and `MeterArray`.  `double` rates are abstract: a type `R` with the
function "tokens accrued after t microseconds" (assumed monotone where needed) and a comparison; token
arithmetic wraps modulo 2^64.  `Spec/Meter` defines the content of each bucket from the history of
packets and the colour from the buckets.  C21 needs no bound on the arithmetic.  Deviations found:

- an unconfigured meter returns colour 0 instead of the incoming colour (meters.cpp:61);
- a burst size near 2^64 makes the bucket content wrap and paints conforming traffic red
  (meters.cpp:78-82);
- `set_rates` that fails with INVALID_INFO_RATE_VALUE has already overwritten rates, bucket contents
  and colours, without reversing the order (meters.h:118-126);
- `deserialize` assigns colours by position although `serialize` writes the reversed list, so a
  two-level meter comes back with its colours swapped; bucket contents are not saved.
### Egress queues (C25, C26)

`Model/Queueing` transcribes `QueueingLogicPriRL`.  Every call holds one mutex, so histories of atomic
calls cover all interleavings; a waiting `pop_back` is a sequence of attempts, each with its own clock
reading; clock readings are arbitrary integers.  `rate_to_ticks` is an arbitrary function.
`std::priority_queue` is the list of its elements in the order of the comparator.  `Spec/Queueing`
is a set of waiting lines.  Deviation found: the constructor and `--priority-queues` accept more than
32 priorities, but the queues are a `std::array` of 32 (queueing.h:744, main.cpp:79); the first access
to priority 32 is out of bounds (`C26_more_than_32`).

### Learning (C27)

`Model/Learning` transcribes `LearnEngine::LearnList`.  The operations are the stretches of code
between releases of the mutex, so a history is an interleaving; threads blocked in
`process_full_buffer` are counted.  `filter` elements carry identities so that the references stored
in `FilterPtrs` can be seen to dangle.  `Spec/Learning` and `Spec/LearningTrace` describe numbered
notifications and what a controller sees; `C27_partial` says that for every history of a controller
that acknowledges only received samples, none twice, the engine runs without undefined behaviour and
follows the specification.  Deviations found (each a theorem `C27_refuted_*`):

* acknowledging a sample twice (in one call or two) erases through a dangling reference
  (learning.cpp:485-495);
* after the acknowledgement that completes a notification, `old_buffers.erase(it)` is followed by
  further uses of `filter_ptrs` for the remaining ids of the same call (learning.cpp:491-493);
* `ack_buffer` after a partial `ack` erases through dangling references unless the fast path applies
  (learning.cpp:508-515);
* an acknowledgement of the notification being filled shifts positions;
* `reset_state` modifies `buffer_tmp` while the sender reads it without the mutex.

### Ageing (C28)

`Model/Ageing` transcribes `AgeingMonitor` with what each table reports as expired as an input.
`C28_conforms` gives the exact behaviour: a sweep reports the expired entries that the previous sweep
did not *report*.  Since the previous sweep reports nothing for an entry it has suppressed, an entry
that stays idle is reported by every other sweep (`C28_count`, `C28_refuted`; ageing.cpp:178-184).

### Numbers, fields and headers (C29, C30, C31, C46)

`Model/Extract` transcribes `generic_extract` and `generic_deparse` byte by byte; every access outside
a buffer is `none`.  `Lemmas/Extract` and `Lemmas/Deparse` give their effect on bit strings for all
widths and offsets.  `Model/Data` has the big-number operations (unbounded integers, two's complement
bit operations, `mpz_export` which writes nothing for 0 and more than one word for a large number),
`Model/Field` the class `Field`, `Model/Header` the class `Header` with the loops of `extract`,
`extract_VL` and `deparse`.  Union membership and the evaluation of the length expression are left
out.  Deviations found:

* `generic_extract` has no guard for width 0 (`generic_deparse` has one): an empty variable-length
  field that starts inside a byte writes `dst[0]` of an empty byte container (`C29_refuted`).  The
  container has reserved storage, so this is undefined behaviour without a visible effect;
* a signed field that does not saturate keeps a number between `2^(w-1)` and `2^w - 1` as it is
  (fields.h:111 compares with `mask`, not `max`): 200 stays 200 in an `int<8>` field, so that
  comparisons see a positive number, whereas a packet round trip turns it into -56 (`C31_refuted`,
  `C30_refuted`);
* with `--ret-zero-on-invalid-hdr-read`, `export_bytes` reads the number through `get_value`, so an
  assignment to a field of an invalid header stores the number and zero bytes (`C31_refuted_invalid`);
* `extract_VL` and `reset_VL` of a signed variable-length field shift the old `max` and `min` instead
  of 1 (fields.cpp:82-85); `WF` requires variable-length fields to be unsigned (P4's `varbit` is).

### Header stacks and unions (C32, C33)

`Model/Stack` transcribes the loops of both stack flavours over abstract elements (operations `swap`,
`mark_valid`, `mark_invalid`), with `size_t` wrap-around where the code has it; `Lemmas/Stack` proves
what they do to the sequence of elements for any element type with the obvious laws.  `Model/Phv` has
headers with union membership, unions, stacks of both, the assignment primitives, `PHV::reset*` and
`PHV::copy_headers`.  C33 is an invariant over all histories of these operations, including copies from
other vectors of the same configuration.  What the configuration must satisfy is `Config.Ok` (a header
is a member of at most one union and not an element of a header stack at the same time).  Deviations:

* `HeaderUnion::mark_valid` and `mark_invalid` do nothing (header_unions.h:95-97), so `pop_front` and
  `push_front` on a stack of unions leave the vacated positions valid with the contents that were
  rotated out (`C32_union_pop_refuted`);
* `push_front(n)` computes `next + n` in `size_t`; for huge `n` the counter wraps and the legacy
  flavour accesses elements outside the vector (`C32_push_wrap_refuted`).
### Expressions (C34)

`Model/ExprSyntax` is the JSON expression tree, `Spec/Expr` its type and meaning by recursion.
`Model/Expr` transcribes `build_expression`, `assign_dest_registers` and the evaluation loop, with five
stacks, pointers to fields, constants, action data, registers and temporaries, and the constant-offset
adjustment of `append_expression`.  Popping an empty stack and indexing outside a vector are `none`.
The proof is an induction over expressions with an invariant on the temporaries below the current
count (`Good` in `Lemmas/Expr`); temporaries left by other evaluations of the thread are arbitrary.
The interpreter theorem is one-directional: where `Spec.value` gives no value nothing is claimed.
Deviations:

* `access_union_header` is compiled to `ACCESS_FIELD` (P4Objects.cpp:194-198), which pops a header
  although a union was pushed (`C34_access_union_header_refuted`);
* `and` and `or` evaluate both operands (`C34_and_strict`; the JSON documentation does not promise
  short-circuit evaluation, so `Spec.value` is strict as well);
* `last_stack_index` of an empty stack is `2^64 - 1` (`C34_last_index_empty`).
### Checksums and hash functions (C35, C36, C43, C50, C51)

`Model/Cksum` is the summation with 64-bit words and end-around carry on a little-endian machine;
`Spec/Cksum` the definition of RFC 1071.  `Model/Crc` is the table-driven loop for a word type of any
width from 8 bits, with the three built-in tables copied from the header file; `Spec/Crc` defines the
check value by remainders in `(ZMod 2)[X]`.  `Model/Hash` has the Toeplitz hash, the word-wise exclusive
or, `identity` and the two round robin functions; `Spec/Hash` gives each bit of the result.  Assumed:
unaligned and type-punned reads work (they are undefined in C++, and used throughout these functions),
buffers are shorter than `2^32` bytes (`unsigned int` loop counters).  `xxh64` is not modelled.
### Calculations and checksums (C44, C47)

`Model/Calc` has `BufBuilder` with the pointer arithmetic of `extend`, and the two kinds of checksums.
The uninitialised 60-byte array of `IPv4Checksum` is a parameter, so that the theorem holds whatever it
contains.  The hash function of a calculation and the condition of a checksum are arbitrary functions.
Findings: (1) a checksum whose calculation gives more bits than the field has never verifies, because
`update_` reduces the result to the field and `verify_` compares all 64 bits (`C47_refuted`);
(2) `IPv4Checksum` overruns its array for a header of more than 60 bytes (`C47_overrun`);
(3) a constant that does not fit its declared width changes the bits of the field before it
(`C44_wide_constant`); nothing checks the width when the JSON is read.  (4) Read but not modelled:
`init_calculations` accepts a custom CRC (`check_hash`) but then looks the name up in `CalculationsMap`
only, which gives a null pointer for it.
### Parser value sets (C39)

`Model/ParseVSet.lean` transcribes `ParseVSetCommon` and its three instances, `ParseVSet`, and the
cases of a select (`parser.cpp:520-833`).  Values are byte strings of the compressed width; a key has
each field on whole bytes.  `Laid`, `keyBits` and `Under` (Spec/ParseVSet) say what a well-formed key or
value is, which bits it carries, and when two of them agree under a mask.  Theorems require values to be
well formed: nothing in `Context::parse_vset_add` checks the size, and a value of another size makes an
assertion fail.

Defects found:
* Two values equal under the mask of a case are stored once in the shadow of the case, and removing one
  of them removes the other (`C39_refuted`).
* The mask of a case has the compressed width (checked in `P4Objects.cpp:1251-1260`) but is applied to
  the padded value, so for keys of several fields that are not whole bytes the wrong bits are compared
  (`C39_mask_refuted`) or the mask is read outside its bounds (`C39_mask_outside`).
### Parser and deparser (C37, C38)

`Model/Parser.lean` transcribes the operations of a parse state, select keys, cases, the loop over states
(with fuel; theorems hold for every fuel) and the deparser.  `Pkt` separates the memory behind the packet
pointer from the size of the packet: a read outside the memory is undefined behaviour, so that "reads lie
within the packet" is "cutting the memory off behind the packet changes nothing" (`C37_partial`).
Expressions and method calls are arbitrary functions of the header vector; `Op.Safe` and `Op.Plain` in
Spec/Parser say what is required of them.  `St.trace` records the headers extracted, for C38 only.

Defects found:
* A select key with a look-ahead is built without any length check (`parser.cpp:211-213`,
  `C37_refuted_key`).
* `set` from a look-ahead checks the number of bytes of the value, not counting its offset
  (`parser.cpp:86-87`, `C37_refuted_set`).
* `extract` of a header with a length expression checks the size with the variable-length field empty and
  then reads more; after that `bytes_parsed` exceeds the packet and the unsigned difference wraps, so no
  later check fails (`C37_refuted_extract`).
* Extracting a variable-length header twice counts the former length as well (`C37_refuted_again`).
* A negative length passes the checks and the exception it causes is not caught (`C37_negative`).
### Packet identities (C40)

`Model/PacketId` has the counters of `CopyIdGenerator` and, of a packet, its id, its copy id and whether it
still has a header vector (the destructor looks at this only). Operations: arrival, clone, destruction,
move construction, move assignment. Each counter update is a compare-and-swap loop, hence one atomic step.
`remove_one` declares its new value outside of the loop: when the count is 0 it sets `max` only, and `num`
keeps what an earlier, failed round wrote. This value is a parameter of the model (`stale`); it is 0 when
only one thread uses the counter. `C40_contended` is for every such value.

Invariant: every packet alive has a copy id at most the `max` of its slot, and `num` is at least (exactly,
without contention) the number of packets alive in the slot, minus one.

Findings, each with a witness:

* `C40_refuted_collision`: packets whose ids are equal modulo 4096 share a counter. It is reset while copies
  are alive and the next clone gets a copy id that is in use.
* `C40_refuted_wrap`: copy ids have 16 bits; `2^16` clones of a packet that is not destroyed wrap around.
* `C40_refuted_move`: move assignment swaps the header vectors but copies the ids, so the destructor of the
  source decrements the counter of the target's new identity.
* `C40_contended_leak`: the stale value may leave `num` positive though no packet is alive; copy ids of later
  packets with this slot are then never reset. This is harmless for the property until `max` wraps.
### Parser steps (C52, C53)

`Spec/ParserStep` says what a step of a parser program should do, in terms of bit strings of the packet
(`bitsAt`), the bits of a field (`bitsOf`) and, for selects, which bytes an entry of the key contributes
(`KeyPart`) and whether a key hits a case (`Case.Hit`). The theorems are about the same model as C37.
### Registers (`Model/Register`, C48)

`Arr` is a `RegisterArray`: width and values; the mask of each `Register` is `2 ^ width - 1`.  `Ctx` maps
names to arrays.  The API functions of `context.cpp` and the primitives of simple_switch and psa_switch are
transcribed one by one; a primitive that writes a register through a `Data &` parameter is `Ctx.update` with
an arbitrary function of the old value.  An index given to a primitive that does not fit 32 bits is not
modelled (`none`).

Threads: `Sys` is one array, the holder of its mutex and a count of the vectors that `reset_state` has
created.  A write is three steps: taking the reference, assigning the unmasked value, `export_bytes`.  The
steps are atomic and any interleaving is allowed.

Findings:

* `reset_state` says `auto lock = UniqueLock();`, which creates a lock on no mutex, so a reset does not wait
  for the holder of the mutex.  It destroys the vector that the holder may have a reference into
  (`C48_refuted_reset`).
* Built with `NDEBUG`, the primitives `register_read` and `register_write` do not check the index
  (`C48_refuted_ndebug`).
### simple_switch (`Model/SimpleSwitch`)

The functions of `/repo/targets/simple_switch/simple_switch.cpp` that decide what happens to a packet:
`receive_`, the parts of `ingress_thread` and `egress_thread` before and after the pipeline, `enqueue`,
`multicast`, `copy_field_list_and_set_type`, `transmit_thread`, `MirroringSessions`, `InputBuffer`, and the
registers of `register_access.h`.  Parser, deparser, multicast engine and pipelines are arbitrary functions
(they are modelled elsewhere), so the theorems hold for every program.  A packet given to another thread is an
effect.  What a thread finds outside (clock, depth of queues, a header vector out of the pool, the registers of
a new packet) comes from an oracle.  Waiting of threads is not modelled.
### simple_switch: findings

* **Ingress clones are parsed with old metadata** (C57).  `simple_switch.cpp:552-566` takes a header vector from the
  pool for the clone, writes `ingress_port` and parses, without `reset_metadata`.  The destructor of `Packet` only marks
  headers invalid (`phv.cpp:32-38`), so metadata of an earlier packet are still there.  A parser that selects on any
  other metadata field may give the clone other headers than the packet has (`C57_refuted`).
* A session with both a group and a port: the copy for the port has the `egress_rid` of the last replica (`leftRid` in
  the specification of clones).
* Field list 0 cannot be used for resubmission, recirculation or digests (zero means "not asked for"); for clones it can.
* A list that the program does not define makes `field_lists.at` throw (model: no result).
* Truncation asked for in ingress or egress is not inherited by clones; a recirculated packet is not truncated.
* The recirculate flag set in ingress is still set in egress of unicast packets, and is cleared in multicast replicas.
* Header vectors: `Pooled` (C57) says that a vector from the pool has the headers of a new one (all invalid), unions and
  stacks reset, and any metadata.
* Input buffer (C54): the steps are those made under the mutex.  Condition variables are not modelled; a thread that
  waits is a thread that tries again.
* **Length register and unions** (C60).  `add_header` adds the size of the header to the length register
  (`primitives.cpp:217-231`), but marking a member of a union valid makes the other members invalid without subtracting
  their sizes (`C60_refuted`).  Assignment of headers and stack operations (`push`, `pop`) do not change the register
  either; they are not among the primitives of C60.
* Drop (C59_drop) needs a drop port that fits in `egress_spec`; otherwise the stored value is another port.
* Session ids from 32768 on alias others in clone primitives (C55_alias), while the control plane refuses them.
### Match tables with actions (`Model/MatchTable`, `Model/IndirectApply`)

`MatchTable`, `MatchTableIndirect(WS)` of `/repo/src/bm_sim/match_tables.cpp` on top of the match units (C06–C09) and of
action profiles (C15), with the loader of tables (`P4Objects.cpp:1871-2009`).  Nodes are numbers; an action is its id and
the number of its parameters.

* **Constant entries can be removed** (C62).  `clear_entries` (`mt_clear_entries` of the runtime interface) and
  `reset_state` do not look at `immutable_entries`; afterwards the entries cannot be added again, since `add_entry` does
  (`C62_refuted`).
* **Empty groups** (C63).  `ActionProfile::lookup` on an empty group returns `empty_action`, an `ActionEntry` whose
  `next_node` is not what the table declares; groups may be emptied, or used as default, while empty.  In the model an
  uninitialised next node is no result (`C63_refuted`, `C63_refuted_default`).
* **Shared profiles** (C63).  Members are not checked against the actions of the tables that use the profile; the lookup
  of the next node by `next_nodes.at` throws while a packet is processed (`C63_foreign`).
### Actions (`Model/Action`)

The loader side (`ActionFn::parameter_push_back_*`, `/repo/src/bm_sim/actions.cpp:60-330`) and the execution
(`ActionFnEntry::execute`, `ActionParam::to`) of actions, with primitives as parameters and the jumps `_jump`,
`_jump_if_zero` as they are.  C++ leaves the order of evaluation of the arguments of a primitive open; it is a
parameter of the model (`order`).  The temporaries (`data_temps`, thread local) are part of the state.  References to
temporaries are dereferenced when the primitive runs.  Headers, stacks and unions given by expressions, and registers with
a computed index, are named objects of the model.

* `C65_growth`: `data_temps` is grown while a reference to an element has already been handed out; with arguments
  evaluated from first to last (clang) a primitive with two expressions may get a dangling reference, the first time a thread
  runs an action with more than three expressions.  With the order gcc uses the highest temporary comes first.
* `C65_shared`: expressions in lists are numbered separately but share the temporaries with the other arguments; a primitive with
  a `const Data &` and a `vector<Data>` parameter gets the wrong value.  No primitive in the tree has such parameters.
* `_jump` with a negative offset ends the action (the offset becomes a huge `size_t`), `_jump_if_zero` with a negative
  offset goes on with the next primitive.
### Pipelines (`Model/Pipeline`)

The loop of `Pipeline::apply`, the three kinds of nodes, and `P4Objects::init_pipelines`: all nodes of a pipeline are made,
then connected by name; the map of names is shared by all pipelines, so a node may go to a node of an earlier pipeline.
The theorem (C66) is a refinement of the whole: control-plane calls on tables and packets in any order.  Meaning of
actions, conditions and key builders is a parameter, with undefined behaviour (`none`) allowed; the theorem says that
nothing else is undefined.  The loop has fuel: a pipeline that does not end is seen as one that is still at a node after every
number of steps (`C66_cycle`: the loader does not look for cycles).  Indirect tables are C63, and are not part of this model.
### State files (`Model/Save`)

`serialize`/`deserialize` of direct tables.  The text is modelled as the list of its blank-separated items, since all readers
use `>>`.  Objects named in the text are looked up in `Objs`; a restore is into the table as loaded
(`Context::deserialize` says so).  The code violates the property (C67) in many ways, all proved:

* `C67_refuted_add`: `HandleMgr::set_handle` with the cursor `first_unset` at the handle being set computes the new cursor from
  the size *before* the bitmap was enlarged, 0; the cursor stays 0, and the next `add_entry` gets handle 0 although it
  is in use, and overwrites that entry (a packet with the old key then runs the new action).
* `C67_ternary_never_hits`: `deserialize_` passes the key of a local variable to `EntryList::add`, which keeps its
  address; besides, `add` assumes that all slots below are in use.  For every text, after the restore of a ternary or range table
  no packet hits: with slot 0 in use the lookup follows the dangling pointer, otherwise the list is empty.
* `C67_refuted_default_data`: `ActionFnEntry::deserialize` adds to the data of the default action of the program.
* `C67_refuted_default_next`: a null `next_node` is saved as `__NULL__`, and on restore leaves the one that is there.
* `C67_refuted_const_entries`: constant entries are already there; the assertion in `deserialize_` fails.
* `C67_refuted_negative`: negative numbers cannot be printed in hexadecimal by the library (exception).
* The version numbers of free slots are not saved, so handles of entries deleted before the save can be given again
  after it (example in `Props/Save`); range widths are not saved.
### psa_switch (`Model/Psa`, C68–C70)

`ingress_thread`, `egress_thread`, `multicast`, `receive_` and `transmit_thread` of `psa_switch` are transcribed in the
way of `simple_switch`.  Parsers, deparsers, pipelines and the multicast engine are parameters; `Std` says that they keep
the layout of header vectors and that the metadata of the architecture are distinct unsigned fields, none of them the
hidden `$valid$`.  `InFlight` has all packets that can be in the input buffer or in a queue, with pipelines that may
change between passes.  Findings:

* `egress_thread` calls `PHV::reset` but not `reset_header_stacks`: a stack filled by the ingress parser is still full
  when the egress parser starts, so the extraction of the next element fails (`C70_stacks`).
* Resubmission resets metadata only: headers stay valid and stacks full when the ingress parser starts again, and
  `ingress_port` becomes 0, as it is metadata and only the packet path is written afterwards (`C70_resubmit` and the
  example below it).
* A clone for a session with a group and a port: the copy for the port carries the `instance` of the last replica
  (`leftMd` in `Spec/Psa`; example in `Props/Psa`).
* The length register (`PACKET_LENGTH_REG_IDX`) is not restored on resubmission and recirculation and is not set in
  egress clones (`C69`: `size := (o 0).regs lenReg`, whatever the new packet has).
* `PHV::reset` sets the hidden `$valid$` field of metadata headers to 0, which is why values of metadata are compared
  for visible fields only.
* Header vectors given back to the pool are clean (`release_spec`), which is the hypothesis `Pool`.

### Externs of psa_switch (`Model/PsaCksum`, `Model/PsaHash`, C71, C72)

- **C71** (`InternetChecksum` of psa_switch).  (a) `while (!input.test_eq(0)) … input >>= 16` never ends when
  the concatenation of the fields is negative (a signed field holding a negative number): `>>` of a negative
  `Bignum` stops at -1.  `C71_negative`.  (b) `subtract` does not process the zero words in front of the data, so
  on an object with sum 0 it differs from the specification (0 instead of 0xffff): `C71_subtract_zero`.
  (c) The `uint16_t` that counts the bits of the list wraps after 65535 bits; harmless, because
  2^65536 = 1 modulo 65535 (part of `C71_add`).

The sections below are refined as modules are completed.

### Threads (`Model/Monitor`, C73–C75)

The other models are sequential.  Here `Queue` and `InputBuffer` are modelled with their mutex and condition variables:
what a thread does while it holds the mutex is one step, `notify_one` is another, as the mutex is released before it.
`notify_one` wakes any one of the threads waiting on that condition variable; threads may wake up spuriously.  `run`
takes a list of labels (who does what), so theorems about all lists are theorems about all interleavings.  Trusted: that
`std::mutex` and `std::condition_variable` behave so.  No fairness is assumed: the theorems about waiting are about states in
which nothing is left to do, with `C74_progress` saying that in all others some thread can go on.

The invariants are countings: if a reader sleeps, there are at most as many elements as threads about to look for one
or to wake a reader; if a writer of a queue sleeps, the elements of the queue together with the threads about to look for a slot or
to wake a writer are at least as many as the capacity.  Findings:

* `Queue::set_capacity` does not notify: after raising the capacity, writers stay asleep though there is room
  (`C74_set_capacity`).
* psa_switch: `input_buffer` is a blocking `Queue` and the ingress thread, its only reader, pushes resubmitted packets
  to it.  If it is full at that moment, the switch stops for good (`C75_psa_deadlock`); simple_switch has the comment and the
  code to avoid this (simple_switch.cpp:112-114).

### Exchange of configurations (`Model/Swap`, C76)

`load_new_config` and `swap_configs` are cut into steps at every access to what another thread may change (a context, a
mutex, the number of header vectors in use); packets are created, cloned, moved and destroyed in between.  A
configuration is a value of any type; what `init_objects` makes of it is not modelled, its result is not used by the
code (context.cpp:814).  Findings:

* Two overlapping calls of `swap_configs` both see a configuration waiting; the second finds nothing to exchange and
  `assert(!error)` fails (`C76_overlap`).
* The drain loop looks at one context after another and only the creation of packets is stopped: a packet that moves to a context already
  found empty (`change_context`, `clone_choose_context`) is processed with a configuration its header vector was not made for
  (`C76_mixed`), or makes the assertion in `set_phv_factory` fail (`C76_change_context`).
* `Switch::load_new_config` ignores what happens in other contexts: when it overlaps `swap_configs` with two contexts,
  the first has a configuration waiting and the second has not, for ever (`C76_stuck`).
* A text that `init_objects` rejects is accepted by `load_new_config`, cannot be replaced (`C76_no_way_back`) and is
  put in use by `swap_configs` (`C76_exchange`).
* `get_config` returns the new configuration from `load_new_config` on, before it is in use (`C76_get_config_early`).

### Ports (`Model/Ports`, C77, C78)

The monitor is modelled with threads: the critical section of `notify_` or of a poll is one step, each call of
`event_handler` and each message sent another.  `acc` (the events accepted, in order) is not in the code; it is what the
theorems speak about.  The messages of the device manager are bytes.  Findings:

* Callbacks run without `port_mutex`: with the active monitor and a thread removing a port, the callback for "up" may
  come after the one for "removed" (`C77_reordered`).
* `PORT_REMOVED` of a port that is up is not told to subscribers, whose last word on the port is "up"; when it is added
  again they see "up" twice (`C77_removed_up`).
* `DevMgrIface::port_add` and `port_remove` tell the monitor before the operation, and also if it fails.  With the
  packet-in device manager they always fail: after `port_remove` the monitor does not know the port, packets still
  come in, and no callback is told when it goes down (`C78_api`).
* `handle_msg` is not given the length of the message: short messages, and packets with a wrong length, are read beyond
  their end (`C78_short`, `C78_overread`).
* `cb_map` holds references to the `std::function` of the caller (port_monitor.cpp:84); not modelled.

### MD5 and the state file (`Model/Md5`, `Model/StateFile`, C79, C80)

`md5.c` is transcribed for x86 with fixed-width integers; the specification follows RFC 1321 (bit vectors, one formula
for all rounds, padding of the whole message).  State files are bytes; what contexts write and read is left abstract
(C67 is about tables).  Finding:

* The digest is written as 16 raw bytes with `<<` and read with `>>`, which skips blanks and stops at them.  If one of
  the bytes is 9 to 13 or 32, the state is refused by every switch (`C80_blank`).  That is so for the configuration a
  switch starts with, `{}` (`C80_default`), for `tests/testdata/one_header.json` (`C80_refuted`), and by a count
  outside Lean for 10 of the 41 JSON files of the repository.

### Saving action profiles (`Model/SaveProfile`, C81)

Text is a list of items, as for C67; members are printed and read by functions given as a parameter, which for the code
are those of C67 (`entIO`, `entIO_good`).  The restored system is described as a system that represents the saved state
(`PRep`, the invariant of C15), with the cursors of the handle managers set to 0 (`zS`): `set_handle` never moves the
cursor, and calls that do not allocate a handle do not depend on it (`zS_exec`).  Findings:

* `insert_group` asserts that the handle is at most the number of groups.  The restore inserts the groups in the order of
  their handles into an empty manager: a gap among the handles makes it abort (`C81_gap_aborts`).
* The cursors stay 0: `add_member` and `create_group` then return handle 0 although it is in use (`C81_next_member`,
  `C81_next_group`), and the reference count of the member or group becomes 0.
* `ActionProfile::deserialize` changes the profile under a `ReadLock` (action_profile.cpp:557); threads are not modelled here.
* Registers, counters and the multicast groups are not saved at all.

### Buffers of packets and deparsers with method calls (`Model/PacketBuffer`, C82, C83)

Memory is a list of bytes with an offset for the pointer `head`; pointer and size are separate, as in the code.  New
memory has any content.  The specification has contents only; a snapshot is the content when it was taken, with the
number of last bytes nobody has written since.  Findings:

* `restore_buffer_state` restores the pointer only: bytes that were put in front since the snapshot stay
  (`C82_refuted`; the documentation at packet.h:181-183 promises otherwise).  `simple_switch` uses its snapshots before
  it deparses, where they are right (`C82_restore_partial`).
* Neither the clone functions nor the move constructor take over `truncated_length` (`C82_refuted_clone`).
* A buffer has 512 bytes to spare from its reception on, through all clones: a packet that grows at every recirculation
  aborts the switch (`C82_refuted_passes`; with `NDEBUG` it would write in front of the buffer).
* `l2_switch` and `simple_router` have buffers of 2048 bytes: longer packets abort them (`C82_refuted_2048`).
* `Deparser::deparse` makes space for the valid headers before it runs the method calls of the deparser.  Calls that
  change which headers are valid leave old memory in the packet, or overwrite the payload, or write behind the end of
  the buffer (`C83_refuted_gap`, `C83_refuted_lost`, `C83_refuted_overflow`).

### Capture files (`Model/Pcap`, C84)

A capture is the list of records the library returns (`none`: a reading error); times are pairs of seconds and
microseconds as in `sys/time.h`, related to microseconds in the specification.  The clock is arbitrary: the time at each
round of the loop and the end of each sleep are parameters.  The invariant of the loop: every file is at its end or has
a complete current record, and `nonEmptyFiles` counts the latter; it refines a merge of queues (`Merge`), from which
order and completeness follow.  Findings:

* Adding a port twice succeeds: its second input is replayed with the same port, its second output file is created and
  stays empty (`emplace`, pcap_file.cpp:367; example beside `C84_written`).
* Unsorted captures are replayed unsorted; the header says that captures are assumed to be sorted.

### Periodic tasks (`Model/Periodic`, C85)

Events of all threads in any order; one event is what happens under the mutex.  `wait_until` takes the time by
reference and compares it with the clock after it has the mutex again (libstdc++; the standard allows it).  The top of
the priority queue is any task with the smallest time: `next` changes only while the task is not in the queue.  The
clock (`system_clock`) is assumed not to be set back.  Findings:

* A task that is destroyed while the loop waits for it is read after it was freed (`C85_refuted_ub`).  Every task is on
  top of the queue sooner or later, so that destroying one at any time but the shutdown is a gamble.
* If the loop comes to look at the time before the memory is freed, and the time has passed, it executes the next task,
  however early (`C85_refuted_early`).
* `start` after the locked part of `join` assigns to a thread that was not joined: `std::terminate`
  (`C85_refuted_start`).
* Tasks are executed with the mutex held: a task that creates or destroys a task waits for ever (not in the model:
  functions of tasks are opaque).
* The period is the interval plus the duration of the execution, not the interval as periodic_task.h:39 says; the
  specification has it as the code does ("one interval after the end").

### Counter arrays (`Model/Counters`, C86)

A step is one access to one atomic variable; an execution is any interleaving of the steps of the threads
(`Interleave`).  The order for one variable is the order of its steps; that is how `C86_partial` is proved.  Findings:

* Bytes and packets can disagree: in a query for a moment (`C86_refuted_query`), after a reset that hits a packet being
  counted for ever (`C86_refuted_reset`).
* `count` takes `get_uint()`, an `unsigned int`: an index of `2 ^ 32` or more is cut before it is compared with the size
  (`C86_refuted_index`, for every conversion with results of 32 bits; `psa_switch` uses `size_t`, 64 bits).
* With `NDEBUG` the index is not checked at all (counters.h:105-108 says that it is asserted; it never is).

### Small targets (`Model/Targets`, C87)

Packets, header vectors and copies are those of the model of `simple_switch`; parser, deparser and pipelines are
arbitrary functions.  The swap of configurations is not in this model (C80); `get_int` of values outside `int` is
`none`.  Findings:

* `l2_switch` and `simple_router` never call `reset_metadata` (`simple_switch`, `psa_switch` and `pna_nic` do); header
  vectors come back to the pool with their metadata.  A packet for which the program sets no port is sent or dropped
  according to an earlier packet (`C87_refuted_stale`).
* They do not call `reset_exit` between the pipelines: `exit` in ingress skips egress, except for copies
  (`C87_refuted_exit`).
* `assert(mgid == 1)`: a table entry can stop `l2_switch` (`C87_refuted_group`).
* `l2_switch` sets the egress port of copies, but not the metadata field (`C87_refuted_port`).
* `pna_nic` sends packets without decision to port 0 (`C87_pna_default`).

### PI: multicast port lists (`Model/PiMc`, C88)

The types of PI are not in the repository; ports are numbers.  `convert_map` writes into a string of `0` and `1`.
Findings:

* `output.resize(port + 1, '0')` also shortens the string: a port smaller than the one before removes all larger ones
  (`C88_exact` says what is left, `C88_refuted_order`).
* The string goes to `std::bitset<512>`, which takes its first 512 characters: a port of 512 or more moves all ports down
  (`C88_shift`, `C88_refuted_large`).

### PI: selection of group members (`Model/PiSel`, C89)

The profile is that of C15 with the selector of PI; what the tables do to the profile is any change of the reference
counts.  The selector is told only about members that join and leave; that this keeps it in agreement with the profile
is the invariant.  Findings:

* When all members of a group are deactivated, `h % active_count` divides by zero: `group_is_empty` asks the profile,
  not the selector (`C89_refuted`).
* Activation is not in the saved state: after a restore all members are active (`deserialize` makes them join again).

### PI: table entries (`Model/PiEntry`, C90)

Match keys are byte strings; the spec gives them by numbers (`Encodes`).  `emit_uint32`/`retrieve_uint32` are part of the
PI library; they are taken as copies of four bytes in little endian.  The conversion to stored keys and back is that of
C10, C49 and C11.  Findings:

* `_pi_table_entries_fetch_wkey` does not check the priority as the other functions do: a priority above 2^31-1 fails the
  assertion in `PriorityInverter::pi_to_bm` (`C90_refuted_priority`).
* Prefix matches on a field of 12 bits in a ternary table come back with bits cleared (`C90_refuted_width`), which is
  C11 again.
* `_pi_act_prof_grp_fetch` does not clear the bit that marks groups; it works because handles are cut to 32 bits.

### Arithmetic of rates in `double` (`Model/Dbl`, C21)

A non-negative `double` is a natural number of units of 2^-1074; conversions, product and quotient are rounded to 53
digits, to nearest, ties to even.  Infinity is left out (bounds on the inputs exclude it).  The lemmas show that rounding
is monotone and has a relative error of at most 2^-53.  With this the accrual of `Meter::execute` is monotone, an
assumption of C21 and C22 before, and C21 is stated for the numbers the code computes (`C21_double`).
That the compiler evaluates `double` expressions in IEEE binary64, to nearest, is assumed.

### PI: resources of table entries (`Model/PiRes`, C91)

The table is the match unit of C06-C14 with the meters of C21, whose rates are `double` (`Model/Dbl`).  Findings:

* Rates are divided by 10^6 and multiplied by 10^6 with truncation: 249 units per second is read back as 248
  (`C91_refuted_rate`).  `C91_meter_partial` shows that up to 2^51 the difference is at most one.
* The remaining time is computed as `(timeout - since) * 1000 * 1000` in 32 bits: above 4294 ms it wraps
  (`C91_refuted_ttl_long`).  Timeouts below one millisecond become 0, which means "never" (`C91_refuted_ttl_short`).
* `set_direct_resources` writes 0 for a counter unit that is not given, also when an entry is modified; a direct write of
  the counter keeps it (`C91_refuted_modify`, `C91_counter`).
* When the timeout or a resource is refused, the entry was added already and stays; PI has no handle to remove it
  (`C91_refuted_atomic`).

### Assignment of headers, unions and stacks (`Model/Phv`, `Model/ArithCfg`, C92)

Assignment copies the numeric value of each field and recomputes the bytes.  The theorems ask that value and bytes of the
source agree (`Source`); `C92_extract` and `C92_set_whole` show that extraction with arithmetic and every assignment
establish it.  `Model/ArithCfg` has the part of the loader that decides which fields take part in arithmetic.  Findings:

* Parameters and operands that are unions do not enable arithmetic for the fields of their members, unlike headers,
  stacks of headers and stacks of unions.  After `u0 = u1` for parsed unions the member of `u0` is valid and all zeros
  (`C92_refuted_union`); comparing two unions fails the assertion in `Data::operator==` (`C92_refuted_compare`).
* Between two members of one union `mark_valid` on the destination invalidates the source before it is read; if reads
  from invalid headers give zero, zeros are copied (`C92_refuted_same_union`).

### `log_msg` (`Model/LogMsg`, C93)

The string operations of the primitive on lists of characters; the arguments are their decimal representations.  Finding:
each search starts at `open + 1`, also the first one and the one after a replacement, so a placeholder at the start of the
format or right after another one is not seen (`C93_refuted_start`, `C93_refuted_adjacent`, `C93_refuted_silent`).  The log
itself (levels, sinks) is not modelled.

### Action profiles through PI (`Model/PiAct`, C94)

The functions of `PI/src/pi_act_prof_imp.cpp` on the action profile of `Model/ActionProfile` with its tables, including the
byte strings returned by the fetch functions (numbers least significant byte first, as on the usual machines; the emit
functions are in the PI library, outside the repository).  Finding: handles are passed on as 32-bit numbers without a
check, so a group's handle given to `mbr_delete`, or any handle with bits above 32 set, acts on the member with the same
low bits (`C94_refuted_group_as_member`, `C94_refuted_high_bits`).

### The debugger (`Model/Debugger`, C95)

`debugger.cpp` as a transition system: every function holds the mutex except while it waits, so receiving, dispatching,
the timeout, sending, each call by a packet and `config_change_` are steps.  A failed assertion or an access outside a
buffer is the outcome `bad`.  Messages are decoded values with their sizes; the encoding (packed structs in native byte
order) and the nanomsg transport are not modelled.  Findings, each with a concrete execution: `reset_state` clears
`req_id` before the reply is sent, so `attach`, `detach` and `reset` are answered with number 0; `config_change_` keeps
`break_on_next` and leaves packets running, so the next packet fails `assert(!reply_ready)`, even after `detach`; a
watch set, or `continue` sent, by a client that is not attached leads to a failed assertion or stops the switch; the
reply buffer has 256 bytes and the request buffer 512, both without checks.

### Tables through the Thrift interface (`Model/Thrift`, C96)

The table requests of `Standard_server.cpp` with the `Context` methods they call, on top of the key builder (C49), the
match units and lookup structures (C10) and the tables (C61).  The specification (`Spec/Thrift`) talks about match
parameters as byte strings, action names, and the values of match fields of packets; keys and lookup structures do not
occur in it.  `Lemmas/ThriftKeys` shows, for each of the four kinds of tables, that keys built from parameters are
accepted, compared, ranked, matched and read back as the parameters say.  Findings: `bm_mt_get_entries`,
`bm_mt_get_entry`, `bm_mt_get_entry_from_key` and `bm_mt_get_default_entry` do nothing for an unknown table name
(`C96_refuted_name`); `bm_mt_get_entry_from_key` with an empty key answers with the default entry
(`C96_refuted_empty`).  Table names are assumed unique.

### Registers, counters, meters and value sets through Thrift (`Model/ThriftExt`, C97)

The requests of `Standard_server.cpp` about these objects and the `Context` methods they call, with the conversions
between the signed types of the interface and `size_t`, `uint64_t`, `cxt_id_t`, on top of the models of C21, C39,
C48, C86.  Left open: what `convert_to<int64_t>` does with a number that does not fit; the arithmetic of rates.  Findings:
registers of 64 bits and more cannot be read when they hold 2^63 or more (`C97_refuted_value`); `bm_register_read_all` of
an array of size 0 throws `INVALID_REGISTER_ARRAY_NAME` (`C97_refuted_empty`); decreasing rates are refused after they
have been stored (`C97_refuted_rates`); `INVALID_BURST_SIZE_VALUE` is never returned, so negative burst sizes are accepted
(`C97_refuted_burst`); a value of the wrong size fails an assertion in the parser (`C97_refuted_crash`); `reset_state`
does not clear value sets (`C97_refuted_reset`).

### The port manager (`Model/Bmi`, C98)

`bmi_port.c` as a transition system: requests (each critical section one step; a removal two, since it waits while it
holds the lock), the steps of `run_select`, packets arriving, a signal.  The table of ports is the array with its binary
search and its `memmove`; `select` is that of Linux, including bits beyond `nfds` in later words.  Safety is a refinement
of a specification without threads (`Spec.Run`), by an invariant over all interleavings.  Not modelled: dump files,
`bmi_port_interface_is_up`, names, failing allocations, mutexes moved by `memmove`, the time limit of `select` (it may
return at any time).  Findings: a removal holds the lock for writing while it waits for an answer of the thread, which may
be waiting for that lock (`C98_refuted_remove`: nothing goes on after that); `max_fd` does not count the socket pair, so
the thread may not see the request (`C98_refuted_low`); after `EINTR` the set is used though `select` did not change it,
and the thread blocks in `read` (`C98_refuted_signal`); `bmi_port_destroy_mgr` increments the index while it removes, which
skips every second port (`C98_refuted_open`), and its second removal hangs as above, always (`C98_refuted_destroy`);
`get_port_stats` ignores the error code (`C98_refuted_stats`); `FD_SET` without a check (`C98_refuted_fd`).

### Multicast configuration from outside (`Model/McRt`, C99)

The handlers of `SimplePreLAG_server.cpp` and `SimplePre_server.cpp` over the engine of `Model/Pre`, with the integer
conversions between the wire (`i32`, `i16`) and the engine (`unsigned`, `uintptr_t`, `uint16_t`) and the constructor of
`std::bitset` from a string (libstdc++: the first 512 characters are used).  The clients: `convert_map` and the calls of
`pd_pre.cpp`, `ports_to_port_map_str`, `parse_ports_and_lags` and `do_mc_dump` of `runtime_CLI.py`.  An undeclared
exception in a handler becomes a generic failure of the RPC layer.  JSON text is not modelled, the document is; Python's
`int(...)` is a word that is a number.  Findings: identifiers above `2^31 - 1` are sign-extended when they are used as
handles but not when the group is created (`C99_refuted_group`); strings of more than 512 digits shift all ports
(`C99_shift`, `C99_refuted_string`, `C99_refuted_cli`); `p4_pd_mc_dissociate_node` is a stub that reports success
(`C99_refuted_pd_dissociate`); exceptions of the Thrift client leave the `extern "C"` functions (`C99_refuted_pd_error`);
`do_mc_dump` prints `ports` instead of `lag["ports"]` (`C99_refuted_dump`, `C99_refuted_dump_fail`).

### The command line tool (`Model/Cli`, C100)

The part of `runtime_CLI.py` that turns words into requests: Python's `int(s)`, `int(s, 16)`, `int(s, 0)` (signs, prefixes,
underscores), `int_to_bytes`, addresses, match fields, action data, the map from suffixes to names, and the commands about
tables with actions.  A command ends with a request, a message or an exception that ends the tool.  Text is ASCII;
`ipaddress.IPv6Address` is a parameter with two stated properties (`V6.Proper`).  The specification (`Spec/Cli`) is a grammar
of lines with meanings; the theorems say that the tool implements it in both directions.  Findings: `int_to_bytes` of a
negative number (`C100_refuted_negative`); only the number of bytes of a value is checked (`C100_refuted_wide`); the loop that
looks for `=>` does not notice that there is none (`C100_refuted_arrow`); `args[3]` in `do_table_modify`
(`C100_refuted_modify`); errors that `handle_bad_input` does not catch (`C100_refuted_crash`); colliding suffixes delete full
names (`C100_refuted_name`); `/` instead of `//` in `parse_pvs_value`, which makes the switch fail the assertion of
`ParseVSetCommon::add` (`C100_refuted_pvs`).

### The event log (`Model/Elog`, C101)

`EventLogger`, the places in pipelines, tables, conditionals, actions, parsers and deparsers that report events, and the client
`nanomsg_client.py`.  The models of these subsystems are repeated with a list of events, and erasing the events gives the
models used elsewhere (`loop_erase`, `parseLoop_erase`, `emitEvents_erase`).  Messages are bytes; the client decodes them and
looks up names.  `Reads` is a reader who knows the program but neither packets nor entries; `C101_path_partial` says that
there is exactly one reading and that it is the way the packet took.  Simplified: the transport delivers everything in order;
the printed text is the tuple of printed values.  Findings: `C101_refuted_handle` (`static_cast<int>` of a 32-bit handle,
whose high byte is a version that grows with each reuse), `C101_refuted_path`, `C101_refuted_extract` (the report comes before
`check_enough_data_for_extract`), `C101_refuted_done` (`if (!init_state) return`), `C101_refuted_checksum`.

### Action profiles over Thrift (`Model/ThriftProf`, C102)

The requests of `Standard_server.cpp` about action profiles and the tables that use them, with the methods of `Context`, on top
of `Model/KeyBuilder` and `Model/ActionProfile`.  The specification (`Spec/ThriftProf`) uses the transitions of `Spec/Profile`
with keys as the client wrote them; `lift` (`Lemmas/ThriftProfSim`) carries a step for stored keys over to a step for written
keys.  As in C15, `L` counts references left behind; with `L = 0` the transitions are those of C15.  Simplified: one profile
with all its tables; other tables are names.  Findings: `C102_refuted_modify` (a client can bring the switch to a failed
assertion by a refused request, a deletion and a packet), `C102_refuted_leak`, `C102_refuted_clear`, `C102_refuted_name`,
`C102_refuted_empty`; also, `NO_ACTION_PROFILE_SELECTION` is never returned: groups can be created in profiles without
selection.

### Egress queues without priorities, and threads on egress queues (`Model/QueueingRL`, `Model/EgressThreads`, C103, C104)

`QueueingLogicRL` is a separate copy of the code of `QueueingLogicPriRL`.  It is transcribed on its own and shown to return
the same results as the class with one priority (`Sim`), so that the waiting lines of C25 and C26 are its specification too.

`Model/EgressThreads` adds threads to both classes: a step is what a thread does while it holds the mutex, `notify_one` is
part of the step of `push_front` (the code calls it with the mutex held), and sleeping threads remember the time they asked
`wait_until` for.  The invariant is that the alarm of a sleeping thread is not later than any element of its worker; it
needs that no other thread takes elements of this worker.

Findings: with two threads for one worker elements can be left behind (`C104_refuted`); the destructor of psa_switch can
leave an egress thread running for ever, so that `join` does not return (`C104_psa_refuted`).

### Notifications and their receivers (`Model/Notify`, C105)

The packed messages of `LearnEngine`, `AgeingMonitor`, `PortMonitor`, `Context` and `Switch`; the two listeners of `bm_apps`
with their reused buffers of 32 and 4096 bytes; `NotificationsCapture`, which translates for PI.  `Spec/Notify` says when calls
tell what happened without mentioning messages.  `C105_digest_partial` composes this with the learn list of C27, from samples to
what a callback reads and back to the acknowledgement.  Simplified: the transport delivers everything in order to subscribers
of a prefix; the machine is little-endian; logging is left out.

Findings: `send_swap_status_notification` ends before it sends, so the guard in `NotificationsCapture` never works
(`C105_refuted_silent`, `C105_refuted_swap`; `C105_capture_would_hold` shows what sending would give); long notifications are
cut without the count being adjusted, and PI sets lists to 1024 samples by default (`C105_refuted_long`,
`C105_refuted_last_sample`); more than 512 port changes in one message are read behind the buffer (`C105_refuted_ports`);
names of all contexts are looked up in context 0 (`C105_refuted_context`).

### Packet streams of simple_switch_grpc (`Model/DpGrpc`, C106)

The dataplane service with its mutex, the thread that serves the stream, the transmit thread, `block_until_no_more_packets` and
`do_swap` with `process_packet_mutex`, packets of the controller, and packets in the switch whose fate is arbitrary, as a
transition system; `Spec/DpGrpc` judges logs of what can be seen.  A critical section is one step unless its thread can be
stopped in it: `PacketStream` holds the mutex of the service while it calls the packet handler, which waits for
`process_packet_mutex`.  Simplified: `packet_id++` atomic, room in the input buffer, no overflow, writes succeed.

Findings: `do_swap` holds `process_packet_mutex` until all packets are gone, the stream thread holds the service mutex and waits
for `process_packet_mutex`, the transmit thread holds a packet and waits for the service mutex: a deadlock
(`C106_refuted_deadlock`; `C106_progress_partial` and `C106_stuck` show that this is the only one, up to packets for the controller that leave first).  The number of a packet is
read back from a global counter, although packets of the controller advance it from other threads ("grpc service has a single
thread"), so responses get numbers of other packets (`C106_refuted_numbers`).  Numbers are never dropped from
`packet_id_translation` (`C106_numbers_kept`).  `DevMgr::port_remove` tells the monitor but not the service
(`C106_refuted_monitor`).  Ports that are down still pass packets (`C106_refuted_down`).

### Shutting down (`Model/Shutdown`, C107)

Input buffer, egress queues and output buffer with their capacities, the ingress, egress and transmit threads, and the destructor
of simple_switch and of psa_switch (`Cfg` says which), as a transition system; an access to a buffer is one step.

Findings:
- The destructor pushes null pointers into all buffers at once.  The transmit thread ends at its null pointer, but egress threads
  may still have packets; the output buffer (128) fills, they wait for ever, and so does the destructor (`C107_refuted_hang`; 129
  packets are enough, 128 are not: `C107_returns_partial`).
- simple_switch repeats pushing a null pointer to the queue of port `i` until there is room; with `set_queue_depth 0 i` there
  never is (`C107_refuted_depth`).
- psa_switch pushes it once; if the queue is full it is lost and the destructor waits for ever (`C107_refuted_psa`).
- psa_switch has one input buffer, and pushing to it waits; the ingress thread, which alone takes packets out, also pushes
  resubmitted packets (`C107_refuted_resubmit`): a full input buffer and one resubmitted packet stop the switch for ever.
- The null pointer for the ingress thread overtakes packets in the other queue of the input buffer (`C107_refuted_loss`).
- `pna_nic` (pna_nic.cpp:109-115) pushes to its output buffer in the same way; not modelled.

### Exclusive access to registers (`Model/RegLocks`, C108)

`RegisterSync` as built from parameters, expressions and method calls, and a transition system of tasks (actions, parse states,
deparsers, requests, conditions, resets) that take mutexes, access arrays and finish.  What a task does with arrays is an arbitrary
function of what it has found out so far, so the theorem covers all primitives.  `Spec/RegLocks` says what "one after the other"
means.  The serial order is the order in which tasks finish.

Findings:
- `RegisterArray::reset_state` writes `auto lock = UniqueLock();`, which makes a lock without a mutex; it should be
  `unique_lock()`.  A reset while an action runs is lost in part (`C108_refuted_reset`), and swapping the vector is a data race.
- `ParseState::add_advance_from_expression` and `add_verify` do not call `grab_register_accesses`, unlike
  `add_set_from_expression` (`C108_refuted_advance`, `C108_refuted_verify`).
- Conditions are evaluated without mutexes (`C108_refuted_condition`).

### The command line tool of the debugger (`Model/P4dbg`, C109)

`tools/p4dbg.py` together with the debugger of the switch (`Model/Debugger`, C95): bytes of the messages, names and numbers, the
attributes of the tool, and a transition system of both.  `Spec/P4dbg` says what a session has to look like, from the commands, the
output and what packets did alone.  The proof simulates the user's history by the history of the switch and reuses C95.

Findings (each with a `C109_refuted_…` theorem):
- `filter_notifications` concatenates `str` and `bytes` and always ends with a `TypeError`.
- `remove_packet_in` and `resume_packet_in` read attributes that do not exist before `break_packet_in` or `stop_packet_in`; and
  `reset` does not reset them, so that the status of the reply is 1 and the assertion fails.
- `show_wps` looks up `$cond` and `$action` in the map of fields (`KeyError`).
- packet numbers are not checked (`struct.error`).
- `reset` sets `attached` to false though the switch stays attached: an interrupt at the prompt then ends the tool without detaching
  and all packets are held up; the reply to `attach` is not checked by the next tool, whose assertion fails at old watchpoints.
- the flag set by an interrupt is not cleared by an event, so it ends the next `continue`.
- after a change of configuration the old configuration is used (`json_cfg` is set already).

### Byte containers and their memory (`Model/ByteCont`, C110)

`ByteContainer` is a `std::vector<char>` whose allocator takes blocks from an arena of 16 bytes in the object, else from `operator
new`.  The model keeps addresses and one memory; the capacities vectors choose, the addresses of `operator new` and the places of new
objects are choices of the environment.  An access outside the storage in use is undefined behaviour, a failed assertion of the arena
is `abort`.  `Spec/ByteCont` knows lists only.  `C110_arena` is about the arena alone (any size, any alignment, any client), which is
also used for the locks of register arrays.

Findings:
- A container below 16 bytes may take a block from `operator new`: blocks of the arena are taken and given back as a stack, and while a
  vector grows it holds two (`C110_refuted_small`).
- `align_up` wraps around for requests near 2^64 if the alignment is above 1 (`C110_refuted_align`); vectors do not ask for that much.
- `operator=` does not look for self assignment; `vector::assign` requires other iterators (`C110_refuted_self`).  No caller in the
  code does this (`assign_header` goes through `Data::set`).
- `pointer_in_buffer` counts the end of the buffer as in it: harmless, as `ptr_` follows `buf_` and no block can start there.

### Algorithms of calculations (`Model/Algo`, C111)

The map of registered algorithms, the map of predefined CRCs, the reader of descriptions, `check_hash`, the calculations of contexts
with the requests which change their parameters, and the commands of the tool.  The CRC, Toeplitz and checksum algorithms themselves
are those of C06–C08 and C98; `Spec/Algo` has its own table of the 38 predefined CRCs, with the published check values, and describes
a session by the parameters set last.  Values of `round_robin_consistent` are described by the inputs seen before; `xxh64` is opaque.

Findings:
- `check_hash` accepts predefined and described CRCs, `NamedCalculation` looks in the map of registered algorithms only and keeps a
  null pointer: the program is loaded, the first packet which needs the calculation crashes the switch (`C111_refuted`).  Both callers
  of `check_hash` drop what it returns (the other one makes the calculation of action selectors); the PSA extern `Hash` also looks in
  this map only, without a check.
- `context.cpp` uses `at` for names of calculations: unknown names leave the handler as an exception, `INVALID_CALCULATION_NAME` is
  never the answer (`C111_refuted_name`).
- Descriptions are not read after an empty token; wrong digits fail an assertion (`C111_refuted_text`).
- In the tool numbers below -2^15 pass the check and end the tool when they are packed, words which are no numbers end it with
  `ValueError`, and `set_toeplitz_hash_key` has no handler at all (`C111_refuted_cli`).

### Sessions and queue settings of simple_switch (`Model/SsMgmt`, C112)

The Thrift handler, the functions of PD and of PI, and the commands of `sswitch_CLI.py`, on top of the sessions of `Model/SimpleSwitch`
and the queues of `Model/Queueing`.  `Spec/SsMgmt` says what users want (add, delete or read a session; set a depth or a rate for a
line, a port or all ports) and what they should be told.

Findings:
- `mirroring_session_add` ignores the result: numbers outside 0..32767 are accepted silently (`C112_refuted_add`).
- PD passes on the result of Thrift, which is 1 for success, where its header promises 0 (`C112_refuted_pd`).
- `set_egress_priority_queue_*` lets `std::out_of_range` escape for priorities which do not exist: the tool ends
  (`C112_refuted_pri`); numbers which do not fit in 32 bits end it too (`C112_refuted_fit`).
- Negative depths are huge ones (`C112_refuted_negative`); `set_queue_*` ignore more than three arguments (`C112_refuted_more`).

### Externs of psa_switch with state (`Model/PsaExt`, C113)

`PSA_Counter`, `PSA_Meter`, `PSA_Random`, their start, and the requests `PsaSwitch` redirects to them, on top of the counters, meters
and conversions of C21–C24, C86 and C97.  `Spec/PsaExt` describes a meter by its rates and the packets seen since they were set, and
the level of a packet by `Spec/Meter`.

Findings:
- `meter_set_rates` and `meter_array_set_rates` of `PsaSwitch` drop the result of `set_rates` (`C113_refuted_told`,
  `C113_refuted_order`).
- The instances are found by name and cast with `static_cast`: the name of a meter in a request about counters is undefined behaviour
  (`C113_refuted_type`).  The lock of `ExternSafeAccess` is gone before the instance is used, as the object is a temporary.
- `P4Objects::reset_state` does not know externs, and neither does saving (`C113_refuted_reset`).
- `PSA_Meter::execute` turns colours above 2 into green (`C113_refuted_three`); `PSA_Random` asserts `max > min`
  (`C113_refuted_range`).

### Errors and enums (`Model/Const`, C114)

`ErrorCodeMap`, `EnumMap`, their loading from the program, the check of `verify` and the error code of a packet after parsing (the
parser is `Model/Parser`).  `Spec/Const` says what a meaning of the declared errors is; theorems hold for the meaning the map gives.

Findings:
- `add_core` takes the largest value plus one, also when nothing is missing: the largest value of the documented range overflows as
  soon as a core error is missing, the reserved value always (`C114_refuted_last`, `C114_refuted_range`).
- Values out of the documented range are not refused: negative ones are accepted, those beyond `int` throw an exception which is no
  `json_exception` (`C114_refuted_range`).
- The parser looks up the name of the error for a message in its exception handler, with `at`: a computed value which is no error of
  the program makes `std::out_of_range` leave the parser (`C114_refuted_verify`).
- Full names of constants are compared as text: `a.b`+`c` and `a`+`b.c` collide (`C114_refuted_enums`).

### `QueueingLogic` (`Model/QueueLogic`, C115)

The queues with blocking reads and writes, as a transition system: a step is what one thread does while it holds the mutex.  Threads
inside `wait` are part of the state; `notify_one` wakes any one of those which wait for the condition (an argument of the step chooses),
waits may end without reason, woken threads get the mutex at any later time.  `Spec/QueueLogic` says what must come of a call in terms of
the results so far (what was pushed, what was received) and of the capacities set so far.

Findings:
- `set_capacity` and `set_capacity_for_all` do not notify `q_not_full`.  A writer which waits when the capacity is made larger goes on
  waiting although there is room, until an element of this queue is removed; when the capacity was 0 there is none (`C115_refuted_raise`,
  `C115_refuted_stuck`).

### Command line options (`Model/Options`, C116)

`OptionsParser::parse` from the list of options boost makes of the command line, and the effects of `init_from_options_parser` in order.
Trusted: boost's splitting and its conversions to texts and numbers, `std::map`, `std::stoi` as the standard says.  `Spec/Options`
describes settings by membership: the value given anywhere in the list, or the default when none is given.

Findings:
- The number of a port is read by `std::stoi`, which stops at the first character that is no digit and takes signs: `3x@eth0` is port 3,
  `-1@eth0` is port 4294967295; ports from 2^31 on are refused (`C116_refuted_iface`).
- `parse` looks for `warn-on-invalid-hdr-read` and `ret-zero-on-invalid-hdr-read`, but they are not declared: giving one is an error, so
  the behaviour they control cannot be turned on (`C116_refuted_flags`).
- `option_was_provided` is true for `pcap` and `max-port-count` always, because defaults are in the map (`C116_refuted_provided`).
- `init_from_options_parser` starts the debugger with the member `device_id` before `init_objects` sets it: the debugger says device 0
  (`C116_refuted_debugger`), at an address which has the right number.

### Options of the target (`Model/TargetOpts`, C117)

`TargetParserBasic` with modules enabled, and `main` of `simple_switch` up to the construction of the switch.  Trusted: boost's splitting of
the arguments; modelled after boost's documentation and source: all options are checked for existence and values before the first is
stored, the entry in the map is made before the value is read, a second value is an error, `lexical_cast<unsigned>` takes a minus.
`Spec/TargetOpts` describes values by how they are written.

Findings:
- `OptionsParser::parse` only reports that the parser of the target failed, and `main` goes on.  With a misspelt option all options of the
  target are ignored, and the switch starts with the defaults (`C117_refuted_ignored`); after an option given twice the rest is ignored
  (`C117_refuted_twice`).  A value which cannot be read does stop the program, because of the empty entry boost leaves behind (this is part
  of `C117_partial`).
- `--drop-port=-1` is accepted as 4294967295, `--priority-queues=-4294967294` as 2 (`C117_refuted_negative`).
- `--priority-queues=0` is accepted; every packet is then dropped because its priority is out of range (`C117_refuted_queues`).
- The documentation says a wrong getter gives `INVALID_OPTION_TYPE`; flags can be read as texts, and all options as flags
  (`C117_refuted_type`).

### Moving packets (`Model/PktMove`, C118)

Packets as records in a list, with the move constructor, the move assignment, the destructor and `change_context`, and the pools of header
vectors per context.  A header vector is the context it was made for and a list of values.  The generator of copy ids is in
`Model/PacketId`.

Findings (no target in the repository runs into them: packets are passed by pointer, and clones have default values in these members):
- The move constructor forgets `truncated_length`, `entry_index`, `error_code` and `checksum_error`; the move assignment keeps those of
  the packet overwritten (`C118_refuted_lost`, `C118_assign`).
- The move assignment copies the context but exchanges the header vectors.  Across contexts, the packet on the right then gives its
  header vector back to the pool of the wrong context; the next packet there gets it, and `phvs_in_use` is wrong for both
  (`C118_refuted_pool`).
