{
 "claims": [
  {
   "property": "C01",
   "status": "proved",
   "theorems": [
    "Bm.C01_slot_allocation"
   ],
   "note": ""
  },
  {
   "property": "C02",
   "status": "proved",
   "theorems": [
    "Bm.C02_lpm_longest_match"
   ],
   "note": ""
  },
  {
   "property": "C03",
   "status": "proved",
   "theorems": [
    "Bm.C03_lpm_exact_prefixes"
   ],
   "note": ""
  },
  {
   "property": "C04",
   "status": "proved",
   "theorems": [
    "Bm.C04_ternary_best_priority",
    "Bm.C04_range_best_priority"
   ],
   "note": ""
  },
  {
   "property": "C05",
   "status": "proved",
   "theorems": [
    "Bm.C05_cache_invisible",
    "Bm.C05_cache_invisible_range",
    "Bm.C05_cache_bounded"
   ],
   "note": ""
  },
  {
   "property": "C06",
   "status": "proved",
   "theorems": [
    "Bm.C06_table_is_map"
   ],
   "note": ""
  },
  {
   "property": "C07",
   "status": "proved",
   "theorems": [
    "Bm.C07_stale_handle_rejected",
    "Bm.C07_reset_revives_handles"
   ],
   "note": ""
  },
  {
   "property": "C08",
   "status": "proved",
   "theorems": [
    "Bm.C08_rejected_changes_nothing"
   ],
   "note": "Match-unit level, all kinds of table. Indirect tables and their reference counts: C15."
  },
  {
   "property": "C09",
   "status": "proved",
   "theorems": [
    "Bm.C09_no_duplicate_keys"
   ],
   "note": ""
  },
  {
   "property": "C10",
   "status": "proved",
   "theorems": [
    "Bm.C10_build_and_refuse",
    "Bm.C10_exact",
    "Bm.C10_lpm",
    "Bm.C10_ternary",
    "Bm.C10_range",
    "Bm.C10_same_match"
   ],
   "note": ""
  },
  {
   "property": "C100",
   "status": "partial",
   "theorems": [
    "Bm.Cli.C100_sent_partial",
    "Bm.Cli.C100_only_partial",
    "Bm.Cli.C100_entry_partial",
    "Bm.Cli.C100_script_partial",
    "Bm.Cli.C100_refuted_negative",
    "Bm.Cli.C100_refuted_wide",
    "Bm.Cli.C100_refuted_arrow",
    "Bm.Cli.C100_refuted_modify",
    "Bm.Cli.C100_refuted_crash",
    "Bm.Cli.C100_refuted_name",
    "Bm.Cli.C100_pvs_partial",
    "Bm.Cli.C100_refuted_pvs"
   ],
   "note": "Proved in both directions for all lines with values that fit: every meaningful line is sent and means what it says, and nothing else is sent, end to end with C96. Refuted: negative numbers are sent as 0; values wider than the field are accepted and cut by the switch; without => the last argument of table_add is dropped silently; table_modify without parameters, bad IPv4 octets, prefix lengths, validities and large handles end the tool with an exception; a table whose name is a suffix of another cannot be addressed; pvs_add sends one byte too many for most widths, on which the switch fails an assertion."
  },
  {
   "property": "C101",
   "status": "partial",
   "theorems": [
    "Bm.Elog.C101_log_partial",
    "Bm.Elog.C101_shown_partial",
    "Bm.Elog.C101_truth",
    "Bm.Elog.C101_path_partial",
    "Bm.Elog.C101_parser_partial",
    "Bm.Elog.C101_deparser",
    "Bm.Elog.Ex.C101_refuted_path",
    "Bm.Elog.Ex.C101_refuted_handle",
    "Bm.Elog.Ex.C101_refuted_extract",
    "Bm.Elog.Ex.C101_refuted_done",
    "Bm.Elog.Ex.C101_refuted_checksum"
   ],
   "note": "Proved from the switch to the printed lines for numbers that fit; the way through a pipeline can be read uniquely from the log if all tables declare a default action. Refuted: handles of entries replaced 128 times are printed negative; without default actions two different ways have the same log; a header is reported as extracted before it is known that the packet has enough data; a parser without initial state is never reported to end; checksums are reported as updated though their condition is not met. Loss of messages in the transport is not modelled."
  },
  {
   "property": "C102",
   "status": "partial",
   "theorems": [
    "Bm.Thrift.C102_loads",
    "Bm.Thrift.C102_partial",
    "Bm.Thrift.C102_refuted_name",
    "Bm.Thrift.C102_refuted_table",
    "Bm.Thrift.C102_refuted_empty",
    "Bm.Thrift.C102_refuted_leak",
    "Bm.Thrift.C102_refuted_clear",
    "Bm.Thrift.C102_refuted_modify"
   ],
   "note": "Proved from the names and byte strings of the client to the action run for a packet, for all histories, with references that are left behind counted in the specification. Refuted: refused additions and cleared tables leave references behind, so that a member stays undeletable; a refused change of an entry loses a reference, after which the member can be deleted and a packet stops the switch; unknown names look like empty profiles and tables; a lookup by an empty key returns the default entry. Requests are not concurrent in the model."
  },
  {
   "property": "C103",
   "status": "proved",
   "theorems": [
    "Bm.QueueingRL.C103_refines",
    "Bm.QueueingRL.C103_depth",
    "Bm.QueueingRL.C103_fifo",
    "Bm.QueueingRL.C103_rate"
   ],
   "note": "By a simulation between the two classes, which carries C25 and C26 over.  rate_to_ticks (a computation with double) is arbitrary; overflow of time points is left out."
  },
  {
   "property": "C104",
   "status": "partial",
   "theorems": [
    "Bm.EgressThreads.C104_serial",
    "Bm.EgressThreads.C104_woken_partial",
    "Bm.EgressThreads.C104_accepted_partial",
    "Bm.EgressThreads.C104_progress",
    "Bm.EgressThreads.C104_serial_rl",
    "Bm.EgressThreads.C104_woken_rl_partial",
    "Bm.EgressThreads.C104_refuted",
    "Bm.EgressThreads.C104_psa_refuted"
   ],
   "note": "Proved if every worker is served by one thread only, as in the targets.  C104_refuted: false with two threads for one worker (notify_one wakes the thread that already has an alarm).  C104_psa_refuted: the destructor of psa_switch pushes its null pointer once and ignores that a full queue refuses it, so the egress thread never ends (simple_switch tries again).  Fairness of the scheduler and of the clock is not modelled: that the thread goes on is stated as a step that is possible."
  },
  {
   "property": "C105",
   "status": "partial",
   "theorems": [
    "Bm.Notify.C105_listener_partial",
    "Bm.Notify.C105_learn_listener_partial",
    "Bm.Notify.C105_samples",
    "Bm.Notify.C105_acknowledge",
    "Bm.Notify.C105_digest_partial",
    "Bm.Notify.C105_pi_partial",
    "Bm.Notify.C105_capture_would_hold",
    "Bm.Notify.C105_refuted_long",
    "Bm.Notify.C105_refuted_last_sample",
    "Bm.Notify.C105_refuted_ports",
    "Bm.Notify.C105_refuted_context",
    "Bm.Notify.C105_refuted_silent",
    "Bm.Notify.C105_refuted_swap"
   ],
   "note": "Proved for data of at most 4096 bytes, and for PI for context 0 and outside exchanges of programs.  False otherwise: data behind 4096 bytes is lost while the number of samples says otherwise (C105_refuted_long, C105_refuted_last_sample), more than 512 ports make the listener read behind its buffer (C105_refuted_ports), PI looks the names of every context up in context 0 (C105_refuted_context), and send_swap_status_notification prepares a message it never sends, so PI is told during exchanges (C105_refuted_silent, C105_refuted_swap); C105_capture_would_hold shows that the receiver is right and only the sending is missing.  A transport that delivers everything in order is assumed."
  },
  {
   "property": "C106",
   "status": "partial",
   "theorems": [
    "Bm.DpGrpc.C106_streams",
    "Bm.DpGrpc.C106_current",
    "Bm.DpGrpc.C106_numbers_partial",
    "Bm.DpGrpc.C106_numbers_kept",
    "Bm.DpGrpc.C106_stats",
    "Bm.DpGrpc.C106_status",
    "Bm.DpGrpc.C106_set",
    "Bm.DpGrpc.C106_ready",
    "Bm.DpGrpc.C106_monitor_partial",
    "Bm.DpGrpc.C106_progress_partial",
    "Bm.DpGrpc.C106_stuck",
    "Bm.DpGrpc.C106_refuted_numbers",
    "Bm.DpGrpc.C106_refuted_deadlock",
    "Bm.DpGrpc.C106_refuted_monitor",
    "Bm.DpGrpc.C106_refuted_down"
   ],
   "note": "Streams, statistics and port status are proved for all interleavings.  Numbers hold if no packet of the controller takes a number between a packet of the stream and its label, and are false otherwise (C106_refuted_numbers).  The monitor agrees if ports are not added or removed through DevMgr (C106_refuted_monitor).  Progress holds unless the stream thread has taken the mutex of the service while programs are exchanged and a packet for the client waits to be sent; then the switch is stuck for ever (C106_stuck, C106_refuted_deadlock).  Status does not stop packets (C106_refuted_down).  packet_id++ is taken to be atomic and numbers not to overflow; what happens to a packet inside the switch is arbitrary."
  },
  {
   "property": "C107",
   "status": "partial",
   "theorems": [
    "Bm.Shutdown.C107_over",
    "Bm.Shutdown.C107_returns_partial",
    "Bm.Shutdown.C107_empty",
    "Bm.Shutdown.C107_refuted_hang",
    "Bm.Shutdown.C107_refuted_depth",
    "Bm.Shutdown.C107_refuted_psa",
    "Bm.Shutdown.C107_refuted_resubmit",
    "Bm.Shutdown.C107_refuted_loss"
   ],
   "note": "C107_over holds for all runs.  The destructor returns if not more packets are inside than the output buffer holds, queues have room for null pointers, and packets are not copied (psa_switch: nor put back); with one packet more simple_switch may hang for ever (C107_refuted_hang), with a queue of depth 0 it does (C107_refuted_depth); psa_switch loses the null pointer if a queue is full (C107_refuted_psa), and its ingress thread can wait for itself when it resubmits (C107_refuted_resubmit).  Accepted packets may be lost (C107_refuted_loss).  An access to a buffer is one step; the order in which queues are served is arbitrary."
  },
  {
   "property": "C108",
   "status": "partial",
   "theorems": [
    "Bm.RegLocks.C108_locks",
    "Bm.RegLocks.C108_state_partial",
    "Bm.RegLocks.C108_serial_partial",
    "Bm.RegLocks.C108_progress_partial",
    "Bm.RegLocks.C108_refuted_reset",
    "Bm.RegLocks.C108_refuted_condition",
    "Bm.RegLocks.C108_refuted_verify",
    "Bm.RegLocks.C108_refuted_advance"
   ],
   "note": "Proved for actions, deparsers, read and write requests, and parse states whose verify and advance read no register.  False for register_reset (UniqueLock() takes no mutex), for conditions that read registers, and for verify and advance of parse states.  boost::lock is taken to be one step; an access to an array is one step."
  },
  {
   "property": "C109",
   "status": "partial",
   "theorems": [
    "Bm.P4dbg.C109_partial",
    "Bm.P4dbg.C109_progress",
    "Bm.P4dbg.C109_requests",
    "Bm.P4dbg.C109_replies",
    "Bm.P4dbg.C109_names",
    "Bm.P4dbg.C109_refuted",
    "Bm.P4dbg.C109_refuted_filter",
    "Bm.P4dbg.C109_refuted_remove",
    "Bm.P4dbg.C109_refuted_reset",
    "Bm.P4dbg.C109_refuted_show",
    "Bm.P4dbg.C109_refuted_packet",
    "Bm.P4dbg.C109_refuted_kill",
    "Bm.P4dbg.C109_refuted_again",
    "Bm.P4dbg.C109_refuted_interrupt",
    "Bm.P4dbg.C109_refuted_config"
   ],
   "note": "Proved for careful users (no filter_notifications, remove/resume only after break/stop, no show_wps with $cond or $action watched, packet numbers that fit, no interrupt at the prompt after reset), without changes of configuration while the tool runs, and with the interrupt flag as it is (it may end a later continue).  The full claim is false, see the refuted theorems.  Time-outs of the socket are not modelled."
  },
  {
   "property": "C11",
   "status": "partial",
   "theorems": [
    "Bm.C11_whole_bytes_partial",
    "Bm.C11_single_partial",
    "Bm.C11_fails_20_bits",
    "Bm.C11_fails_12_bits_ternary"
   ],
   "note": "The code violates the full statement for widths that are not a multiple of 8; the negation is proved."
  },
  {
   "property": "C110",
   "status": "proved",
   "theorems": [
    "Bm.ByteCont.C110_lists",
    "Bm.ByteCont.C110_progress",
    "Bm.ByteCont.C110_storage",
    "Bm.ByteCont.C110_leaks",
    "Bm.ByteCont.C110_stable",
    "Bm.ByteCont.C110_reserve",
    "Bm.ByteCont.C110_small",
    "Bm.ByteCont.C110_arena",
    "Bm.ByteCont.C110_refuted_small",
    "Bm.ByteCont.C110_refuted_align",
    "Bm.ByteCont.C110_refuted_self"
   ],
   "note": "std::vector is modelled through its calls of the allocator; operator new does not fail and vectors stay below 2^63 bytes.  Beside the property three expectations are refuted: containers below 16 bytes may use operator new, align_up wraps around for requests near 2^64 (alignment above 1), assignment of a container to itself breaks a precondition of vector::assign."
  },
  {
   "property": "C111",
   "status": "partial",
   "theorems": [
    "Bm.Algo.C111_partial",
    "Bm.Algo.C111_duplicate",
    "Bm.Algo.C111_catalogue",
    "Bm.Algo.C111_names",
    "Bm.Algo.C111_check",
    "Bm.Algo.C111_described",
    "Bm.Algo.C111_degree",
    "Bm.Algo.C111_unknown",
    "Bm.Algo.C111_cli",
    "Bm.Algo.C111_cli_key",
    "Bm.Algo.C111_cli_told",
    "Bm.Algo.C111_refuted",
    "Bm.Algo.C111_refuted_catalogue",
    "Bm.Algo.C111_refuted_described",
    "Bm.Algo.C111_refuted_name",
    "Bm.Algo.C111_refuted_text",
    "Bm.Algo.C111_refuted_cli"
   ],
   "note": "Sessions are proved for all programs with built-in algorithms, any number of contexts.  The predefined and the described CRCs are proved to be what their names and descriptions say (with the published check values), but the calculations of a program cannot use them: such a program is loaded and the first computation calls a null pointer (C111_refuted*).  Also refuted: unknown names give an exception instead of an error code; descriptions are read only in part or fail an assertion; some arguments end the tool.  xxh64 is an opaque function."
  },
  {
   "property": "C112",
   "status": "partial",
   "theorems": [
    "Bm.SsMgmt.C112_partial",
    "Bm.SsMgmt.C112_last",
    "Bm.SsMgmt.C112_pd_returns",
    "Bm.SsMgmt.C112_refuted_add",
    "Bm.SsMgmt.C112_refuted_pd",
    "Bm.SsMgmt.C112_refuted_pri",
    "Bm.SsMgmt.C112_refuted_negative",
    "Bm.SsMgmt.C112_refuted_fit",
    "Bm.SsMgmt.C112_refuted_more",
    "Bm.SsMgmt.C112_refuted_map"
   ],
   "note": "Proved for all sequences of fewer than 2^64 events.  Refuted: sessions which could not be added over Thrift are not reported, PD returns 1 for success and 0 for failure, priorities which do not exist and numbers which do not fit end the tool, negative depths are taken as huge ones, additional arguments are ignored, the older request for the port cannot tell a missing session from port 2^32-1.  The order of concurrent requests is the order in which the locks are taken; the identifiers of PI are taken as numbers of 32 bits."
  },
  {
   "property": "C113",
   "status": "partial",
   "theorems": [
    "Bm.PsaExt.C113_partial",
    "Bm.PsaExt.C113_all_numbers",
    "Bm.PsaExt.C113_refuted_told",
    "Bm.PsaExt.C113_refuted_order",
    "Bm.PsaExt.C113_refuted_type",
    "Bm.PsaExt.C113_refuted_reset",
    "Bm.PsaExt.C113_refuted_three",
    "Bm.PsaExt.C113_refuted_range"
   ],
   "note": "Proved for all sequences of packets and requests, up to the refuted parts: rates which are not accepted are answered with success, those in the wrong order are used in part, requests with the name of an instance of another kind are undefined behaviour, resetting the state does not reach externs, packets which violate a third rate are green, a range of one number stops the switch.  Tokens must stay below 2^64 (C22_wrap).  The quality of random numbers and the order in which the locks are taken are not modelled."
  },
  {
   "property": "C114",
   "status": "partial",
   "theorems": [
    "Bm.Const.C114_partial",
    "Bm.Const.C114_refused",
    "Bm.Const.C114_enums",
    "Bm.Const.C114_refuted_last",
    "Bm.Const.C114_refuted_range",
    "Bm.Const.C114_refuted_verify",
    "Bm.Const.C114_refuted_enums"
   ],
   "note": "Proved for all lists of errors whose values leave room for the core errors which are not declared, for all parsers whose verify operations raise errors of the program, and for all enums whose entries have no dot in their names.  Refuted by the code: declared values at the end of the documented range overflow int; values out of the range are accepted, overflow or throw; a computed error which is not declared ends the switch with an exception; enums whose full names coincide are refused."
  },
  {
   "property": "C115",
   "status": "partial",
   "theorems": [
    "Bm.QueueLogic.C115_partial",
    "Bm.QueueLogic.C115_no_throw",
    "Bm.QueueLogic.C115_refuted_raise",
    "Bm.QueueLogic.C115_refuted_stuck"
   ],
   "note": "All clauses for all interleavings, except that the clause on waiting writers needs capacities which are never made larger: set_capacity and set_capacity_for_all wake nobody (C115_refuted_raise), a writer of a queue of capacity 0 then waits for ever although there is room (C115_refuted_stuck).  The mutex and the condition variables are taken as what the standard says; a step is what a thread does while it holds the mutex."
  },
  {
   "property": "C116",
   "status": "partial",
   "theorems": [
    "Bm.Options.C116_partial",
    "Bm.Options.C116_accepted",
    "Bm.Options.C116_settings",
    "Bm.Options.C116_ports",
    "Bm.Options.C116_logs",
    "Bm.Options.C116_target",
    "Bm.Options.C116_provided",
    "Bm.Options.C116_refuted_iface",
    "Bm.Options.C116_refuted_flags",
    "Bm.Options.C116_refuted_provided",
    "Bm.Options.C116_refuted_debugger"
   ],
   "note": "All clauses for command lines whose interfaces are written as documented or have no @.  Refuted: 3x@eth0 and -1@eth0 are accepted, ports from 2^31 on are refused; two options the code looks for are not declared, so no command line sets them; option_was_provided is true for options with defaults; the debugger gets device id 0 always.  How boost splits the command line and converts values is trusted; loading the program and adding the ports are taken to succeed."
  },
  {
   "property": "C117",
   "status": "partial",
   "theorems": [
    "Bm.TargetOpts.C117_partial",
    "Bm.TargetOpts.C117_add",
    "Bm.TargetOpts.C117_get",
    "Bm.TargetOpts.C117_code",
    "Bm.TargetOpts.C117_refuted_ignored",
    "Bm.TargetOpts.C117_refuted_twice",
    "Bm.TargetOpts.C117_refuted_negative",
    "Bm.TargetOpts.C117_refuted_queues",
    "Bm.TargetOpts.C117_refuted_type"
   ],
   "note": "Registration and reading for all right arguments; the start of simple_switch, as an equivalence, for arguments in which all options are known, none is given twice and no number has a minus.  Refuted: with an unknown option (or a missing value) the switch starts with all defaults, ignoring the right options too; after an option given twice the rest is lost and the switch starts; negative numbers are taken modulo 2^32; no queues are accepted, then every packet is dropped; a flag can be read as text, any option as flag.  How boost splits the arguments is trusted."
  },
  {
   "property": "C118",
   "status": "partial",
   "theorems": [
    "Bm.PktMove.C118_partial",
    "Bm.PktMove.C118_move",
    "Bm.PktMove.C118_assign",
    "Bm.PktMove.C118_set",
    "Bm.PktMove.C118_context",
    "Bm.PktMove.C118_refuted_lost",
    "Bm.PktMove.C118_refuted_pool"
   ],
   "note": "Pools and numbers in use for all executions in which packets are assigned within a context; moves and assignments keep all but truncation, table entry, error code and checksum error.  Refuted: these four are lost in a move (a truncated packet has its full size again), and kept from the packet overwritten in an assignment; an assignment across contexts puts a header vector into the pool of another context and makes the numbers in use wrong.  The targets in the repository do not assign packets."
  },
  {
   "property": "C12",
   "status": "proved",
   "theorems": [
    "Bm.C12_mask_roundtrip",
    "Bm.C12_counts_set_bits",
    "Bm.C12_too_long"
   ],
   "note": ""
  },
  {
   "property": "C13",
   "status": "partial",
   "theorems": [
    "Bm.C13_new_entry_partial",
    "Bm.C13_no_ttl_no_expiry_partial",
    "Bm.C13_ttl_inherited",
    "Bm.C13_meter_inherited"
   ],
   "note": "The code violates the full statement: time-to-live and direct-meter configuration are inherited from the previous entry in the slot; both negations are proved."
  },
  {
   "property": "C14",
   "status": "partial",
   "theorems": [
    "Bm.C14_write_counters_partial",
    "Bm.C14_meter_op_partial",
    "Bm.C14_set_ttl_partial",
    "Bm.C14_lookup_counts",
    "Bm.C14_stale_handle_writes"
   ],
   "note": "The code violates the full statement for stale handles whose slot is in use again; the negation is proved."
  },
  {
   "property": "C15",
   "status": "partial",
   "theorems": [
    "Bm.C15_conforms_partial",
    "Bm.C15_counts_partial",
    "Bm.C15_leaks_partial",
    "Bm.C15_no_dangling_partial",
    "Bm.C15_failed_add_leaks",
    "Bm.C15_failed_modify_loses",
    "Bm.C15_failed_modify_crashes",
    "Bm.C15_clear_leaks"
   ],
   "note": "Proved for histories without refused table additions/modifications and without clearing non-empty tables; the code miscounts in exactly these cases, each with a proved counterexample. C15_leaks_partial and C15_no_dangling_partial cover refused additions and clears too: references left behind are counted exactly, nothing in use is ever deleted, lookups stay defined."
  },
  {
   "property": "C16",
   "status": "proved",
   "theorems": [
    "Bm.C16_group_selection"
   ],
   "note": ""
  },
  {
   "property": "C17",
   "status": "partial",
   "theorems": [
    "Bm.C17_reset_usable_partial",
    "Bm.C17_reset_with_groups",
    "Bm.C17_create_after_reset"
   ],
   "note": "Proved for resets when no group exists; the code violates it whenever a group exists (proved for all histories)."
  },
  {
   "property": "C18",
   "status": "proved",
   "theorems": [
    "Bm.Pre.C18_replicate"
   ],
   "note": ""
  },
  {
   "property": "C19",
   "status": "partial",
   "theorems": [
    "Bm.Pre.C19_management_partial",
    "Bm.Pre.C19_crash_iff",
    "Bm.Pre.C19_destroy_throws",
    "Bm.Pre.C19_destroyed_group_keeps_nodes"
   ],
   "note": "The code violates the full statement after destroying a group that still has nodes; the exact crash condition and the negations are proved."
  },
  {
   "property": "C20",
   "status": "proved",
   "theorems": [
    "Bm.Pre.C20_lag"
   ],
   "note": ""
  },
  {
   "property": "C21",
   "status": "proved",
   "theorems": [
    "Bm.Meter.C21_burst_and_rate",
    "Bm.Meter.C21_rational",
    "Bm.Meter.C21_double"
   ],
   "note": "Accrual is rounded to whole units, so in exact arithmetic the bound holds up to less than one unit. C21_double gives the bound for the double arithmetic of the code."
  },
  {
   "property": "C22",
   "status": "partial",
   "theorems": [
    "Bm.Meter.C22_colours_partial",
    "Bm.Meter.C22_never_improves",
    "Bm.Meter.C22_unconfigured_improves",
    "Bm.Meter.C22_wrap"
   ],
   "note": "Proved for configured meters with bucket arithmetic below 2^64; false for unconfigured meters and for wrapping buckets, both proved."
  },
  {
   "property": "C23",
   "status": "partial",
   "theorems": [
    "Bm.Meter.C23_rejected_partial",
    "Bm.Meter.C23_array_partial",
    "Bm.Meter.C23_rejected_takes_effect"
   ],
   "note": "The code violates the full statement when a configured meter is given rates in the wrong order; the negation is proved."
  },
  {
   "property": "C24",
   "status": "partial",
   "theorems": [
    "Bm.Meter.C24_single_level_partial",
    "Bm.Meter.C24_unconfigured_partial",
    "Bm.Meter.C24_restored_colours_differ",
    "Bm.Meter.C24_bucket_lost"
   ],
   "note": "The code restores several levels in the wrong order and does not save bucket contents; both negations are proved."
  },
  {
   "property": "C25",
   "status": "proved",
   "theorems": [
    "Bm.Queueing.C25_fifo",
    "Bm.Queueing.C25_rate"
   ],
   "note": ""
  },
  {
   "property": "C26",
   "status": "proved",
   "theorems": [
    "Bm.Queueing.C26_priority_and_depth",
    "Bm.Queueing.C26_conservation",
    "Bm.Queueing.C26_more_than_32"
   ],
   "note": ""
  },
  {
   "property": "C27",
   "status": "partial",
   "theorems": [
    "Bm.Learn.C27_partial",
    "Bm.Learn.C27_once",
    "Bm.Learn.C27_again",
    "Bm.Learn.C27_refuted_twice",
    "Bm.Learn.C27_refuted_again",
    "Bm.Learn.C27_refuted_after_last",
    "Bm.Learn.C27_refuted_buffer",
    "Bm.Learn.C27_refuted_open",
    "Bm.Learn.C27_refuted_reset"
   ],
   "note": "Proved for every interleaving provided the controller acknowledges received samples at most once; repeated acknowledgements use dangling references, proved for each way it can happen."
  },
  {
   "property": "C28",
   "status": "partial",
   "theorems": [
    "Bm.Ageing.C28_once_partial",
    "Bm.Ageing.C28_count",
    "Bm.Ageing.C28_conforms",
    "Bm.Ageing.C28_only_expired",
    "Bm.Ageing.C28_refuted"
   ],
   "note": "Exactly once is proved for idle periods of one or two sweeps; in general an entry idle for n sweeps is reported ceil(n/2) times (proved), so the full statement is false (proved)."
  },
  {
   "property": "C29",
   "status": "partial",
   "theorems": [
    "Bm.Extract.C29_partial",
    "Bm.Extract.C29_value",
    "Bm.Extract.C29_local",
    "Bm.Extract.C29_refuted"
   ],
   "note": "All widths, offsets and packets except an empty field that starts inside a byte, for which the code writes outside its buffer (proved)."
  },
  {
   "property": "C30",
   "status": "partial",
   "theorems": [
    "Bm.Header.C30_bytes",
    "Bm.Header.C30_values_partial",
    "Bm.Header.C30_refuted",
    "Bm.Header.mk'_wf"
   ],
   "note": "Both round trips for all layouts, including a variable-length field. Not covered: an empty variable-length field inside a byte (C29), and numbers that a signed field left out of range (C31), for which the claim is false (proved)."
  },
  {
   "property": "C31",
   "status": "partial",
   "theorems": [
    "Bm.Field.C31_agree",
    "Bm.Field.C31_partial",
    "Bm.Field.C31_unwrapped",
    "Bm.Field.C31_refuted",
    "Bm.Field.C31_refuted_invalid"
   ],
   "note": "Agreement of bytes and number is proved for all histories of assignments. Wrapping of signed fields is false for values in [2^(w-1), 2^w) (proved); with ret-zero-on-invalid-hdr-read agreement fails for fields of invalid headers (proved)."
  },
  {
   "property": "C32",
   "status": "partial",
   "theorems": [
    "Bm.Phv.C32_p416_pop_front",
    "Bm.Phv.C32_p416_push_front_partial",
    "Bm.Phv.C32_single_step",
    "Bm.Phv.C32_legacy_pop_front",
    "Bm.Phv.C32_legacy_push_front_partial",
    "Bm.Phv.C32_legacy_pop_counted",
    "Bm.Phv.C32_legacy_push_counted_partial",
    "Bm.Phv.C32_pop_back",
    "Bm.Phv.C32_push_back",
    "Bm.Phv.C32_back_noop",
    "Bm.Phv.C32_union_pop_front_partial",
    "Bm.Phv.C32_union_push_front_partial",
    "Bm.Phv.C32_push_wrap_refuted",
    "Bm.Phv.C32_union_pop_refuted"
   ],
   "note": "Proved for stacks of headers of both flavours, pushes with next+n below 2^64 (the sum wraps otherwise, proved). On stacks of unions the shift is proved, but vacated positions stay valid (proved)."
  },
  {
   "property": "C33",
   "status": "proved",
   "theorems": [
    "Bm.Phv.C33_union_one_valid"
   ],
   "note": ""
  },
  {
   "property": "C34",
   "status": "partial",
   "theorems": [
    "Bm.Ex.C34_eval_partial",
    "Bm.Ex.C34_access_union_header_refuted",
    "Bm.Ex.C34_and_strict",
    "Bm.Ex.C34_last_index_empty"
   ],
   "note": "All operators, any depth, any leftover temporaries, except access_union_header, which is compiled to the wrong operation (proved)."
  },
  {
   "property": "C35",
   "status": "proved",
   "theorems": [
    "Bm.Cksum.C35_checksum",
    "Bm.Cksum.C35_checksum_bytes",
    "Bm.Cksum.C35_receiver"
   ],
   "note": ""
  },
  {
   "property": "C36",
   "status": "proved",
   "theorems": [
    "Bm.Crc.C36_custom",
    "Bm.Crc.C36_reconfigured",
    "Bm.Crc.C36_tables",
    "Bm.Crc.C36_crc16",
    "Bm.Crc.C36_crc32",
    "Bm.Crc.C36_crcCCITT",
    "Bm.Crc.C36_defaults",
    "Bm.Crc.C36_unique"
   ],
   "note": "Remainders in the polynomial ring over the field with two elements. Buffers of 2^32 bytes or more (the loop counter is 32 bits wide) are outside the model."
  },
  {
   "property": "C37",
   "status": "partial",
   "theorems": [
    "Bm.Parse.C37_partial",
    "Bm.Parse.C37_same",
    "Bm.Parse.C37_parse",
    "Bm.Parse.C37_short",
    "Bm.Parse.C37_enough",
    "Bm.Parse.C37_error_stops",
    "Bm.Parse.C37_refuted_key",
    "Bm.Parse.C37_refuted_set",
    "Bm.Parse.C37_refuted_extract",
    "Bm.Parse.C37_refuted_again",
    "Bm.Parse.C37_negative"
   ],
   "note": "All programs whose select keys have no look-ahead, whose set operations look ahead within the bytes checked, and which extract variable-length headers with extract_VL. The code violates the statement in each of the three excluded cases (proved)."
  },
  {
   "property": "C38",
   "status": "proved",
   "theorems": [
    "Bm.Parse.C38",
    "Bm.Parse.C38_shift"
   ],
   "note": "Includes variable-length fields, unions, stacks and parsing that ends with an error. Programs must not skip bytes (C38_shift); layouts with an empty variable-length field that starts inside a byte are excluded (C29), as are length expressions evaluated by plain extract (C37_refuted_extract)."
  },
  {
   "property": "C39",
   "status": "partial",
   "theorems": [
    "Bm.VSet.C39_no_mask",
    "Bm.VSet.C39_partial",
    "Bm.VSet.C39_get",
    "Bm.VSet.C39_constant",
    "Bm.VSet.C39_refuted",
    "Bm.VSet.C39_mask_refuted",
    "Bm.VSet.C39_mask_outside"
   ],
   "note": "Full for cases without mask and for constants. Masked cases: holds if no value is removed while an equal-under-mask value is in the set and the key is one field or whole bytes; the code violates it otherwise (removal under a mask removes the other values too; masks of multi-field keys are not padded and may be read out of bounds)."
  },
  {
   "property": "C40",
   "status": "partial",
   "theorems": [
    "Bm.PktId.C40_partial",
    "Bm.PktId.C40_contended",
    "Bm.PktId.C40_contended_leak",
    "Bm.PktId.C40_refuted_collision",
    "Bm.PktId.C40_refuted_wrap",
    "Bm.PktId.C40_refuted_move"
   ],
   "note": "All histories of arrivals, clones, moves and destructions in which packets alive do not share a counter slot (id mod 4096), fewer than 2^16 clones per id are made and packets are moved into moved-from packets only. The code violates the statement in each excluded case (proved)."
  },
  {
   "property": "C41",
   "status": "proved",
   "theorems": [
    "Bm.SSwitch.C41",
    "Bm.SSwitch.C41_clear"
   ],
   "note": "every flag register: writing one flag is read back and leaves the other four flags and the packet length alone, for all register contents and all 16-bit values; clear_all clears the five flags and keeps the length"
  },
  {
   "property": "C42",
   "status": "proved",
   "theorems": [
    "Bm.SSwitch.C42",
    "Bm.SSwitch.C42_one",
    "Bm.SSwitch.C42_total"
   ],
   "note": "end of ingress: clones, digest and one of resubmission, multicast, drop, unicast; C42_total: it is defined"
  },
  {
   "property": "C43",
   "status": "proved",
   "theorems": [
    "Bm.Hash.C43_toeplitz",
    "Bm.Hash.C43_keys"
   ],
   "note": ""
  },
  {
   "property": "C44",
   "status": "proved",
   "theorems": [
    "Bm.Calc.C44_concat",
    "Bm.Calc.C44_field",
    "Bm.Calc.C44_misaligned",
    "Bm.Calc.C44_wide_constant"
   ],
   "note": "Constants must fit their declared width and header entries must start at a byte boundary (assertion in the code); C44_wide_constant shows what happens otherwise."
  },
  {
   "property": "C45",
   "status": "partial",
   "theorems": [
    "Bm.C45_restore_partial",
    "Bm.C45_restored_slot_reissued"
   ],
   "note": "The code violates the full statement: restoring a slot into an empty or full bitmap may leave the next allocation pointing at it; the negation is proved."
  },
  {
   "property": "C46",
   "status": "proved",
   "theorems": [
    "Bm.Data.C46_two_comp_mod",
    "Bm.Data.C46_usat_cast",
    "Bm.Data.C46_sat_cast"
   ],
   "note": ""
  },
  {
   "property": "C47",
   "status": "partial",
   "theorems": [
    "Bm.Calc.C47_calc_partial",
    "Bm.Calc.C47_invalid",
    "Bm.Calc.C47_refuted",
    "Bm.Calc.C47_ipv4",
    "Bm.Calc.C47_overrun"
   ],
   "note": "IPv4Checksum: full (headers laid out like IPv4, at most 60 bytes). Calculations: exact characterisation; false when the result is wider than the field (C47_refuted)."
  },
  {
   "property": "C48",
   "status": "partial",
   "theorems": [
    "Bm.Reg.C48_partial",
    "Bm.Reg.C48_codes",
    "Bm.Reg.C48_primitives",
    "Bm.Reg.C48_threads_partial",
    "Bm.Reg.C48_refuted_reset",
    "Bm.Reg.C48_refuted_ndebug"
   ],
   "note": "Full for requests one after the other and for threads whose resets do not overlap a write. reset_state locks nothing (C48_refuted_reset); with NDEBUG the primitives do not check the index (C48_refuted_ndebug)."
  },
  {
   "property": "C49",
   "status": "proved",
   "theorems": [
    "Bm.C49_exact",
    "Bm.C49_lpm",
    "Bm.C49_lpm_rank",
    "Bm.C49_ternary",
    "Bm.C49_range"
   ],
   "note": "Prefix lengths are counted in the padded width, as the code does; see C11."
  },
  {
   "property": "C50",
   "status": "proved",
   "theorems": [
    "Bm.Hash.C50_xor",
    "Bm.Hash.C50_identity"
   ],
   "note": ""
  },
  {
   "property": "C51",
   "status": "proved",
   "theorems": [
    "Bm.Hash.C51_round_robin",
    "Bm.Hash.C51_consistent",
    "Bm.Hash.C51_same_iff"
   ],
   "note": ""
  },
  {
   "property": "C52",
   "status": "proved",
   "theorems": [
    "Bm.Parse.C52",
    "Bm.Parse.C52_no_select",
    "Bm.Parse.C52_loop"
   ],
   "note": "Look-ahead within the packet memory (C37_refuted_key otherwise); cases on value sets: C39."
  },
  {
   "property": "C53",
   "status": "proved",
   "theorems": [
    "Bm.Parse.C53_extract",
    "Bm.Parse.C53_extractVL",
    "Bm.Parse.C53_stack",
    "Bm.Parse.C53_unionStack",
    "Bm.Parse.C53_lookahead",
    "Bm.Parse.C53_lookahead_other",
    "Bm.Parse.C53_errors"
   ],
   "note": "Layouts with an empty variable-length field that starts inside a byte are excluded (C29), as are variable-length headers extracted by plain extract (C37_refuted_extract)."
  },
  {
   "property": "C54",
   "status": "proved",
   "theorems": [
    "Bm.SSwitch.C54"
   ],
   "note": "all sequences of atomic steps under the mutex; a thread that waits tries again; wake-ups by condition variables are not modelled"
  },
  {
   "property": "C55",
   "status": "proved",
   "theorems": [
    "Bm.SSwitch.C55",
    "Bm.SSwitch.C55_clone",
    "Bm.SSwitch.C55_alias"
   ],
   "note": "ids from 32768 on given to a clone primitive are those of other sessions (C55_alias)"
  },
  {
   "property": "C56",
   "status": "proved",
   "theorems": [
    "Bm.SSwitch.C56",
    "Bm.SSwitch.C56_start"
   ],
   "note": "deparser is a parameter"
  },
  {
   "property": "C57",
   "status": "partial",
   "theorems": [
    "Bm.SSwitch.C57_partial",
    "Bm.SSwitch.Ex.C57_refuted"
   ],
   "note": "holds if the parser looks at no metadata but the ingress port; false in general: metadata of the clone's header vector are not reset before it is parsed"
  },
  {
   "property": "C58",
   "status": "proved",
   "theorems": [
    "Bm.SSwitch.C58"
   ],
   "note": ""
  },
  {
   "property": "C59",
   "status": "proved",
   "theorems": [
    "Bm.SSwitch.C59",
    "Bm.SSwitch.C59_drop"
   ],
   "note": "metadata fields assigned are unsigned and do not saturate; parameters that do not fit 16 bits make the primitive fail (no result)"
  },
  {
   "property": "C60",
   "status": "partial",
   "theorems": [
    "Bm.SSwitch.C60_partial",
    "Bm.SSwitch.Ex.C60_refuted"
   ],
   "note": "holds if headers that are added are in no union; false otherwise (C60_refuted)"
  },
  {
   "property": "C61",
   "status": "proved",
   "theorems": [
    "Bm.MT.C61_table_runs_configured_action",
    "Bm.MT.C61_loads"
   ],
   "note": "direct tables of all kinds; counters, meters and ageing of entries are C18-C22"
  },
  {
   "property": "C62",
   "status": "partial",
   "theorems": [
    "Bm.MT.C62_constants_kept_partial",
    "Bm.MT.Ex.C62_refuted"
   ],
   "note": "defaults: all histories; entries: histories without mt_clear_entries, which removes constant entries (C62_refuted)"
  },
  {
   "property": "C63",
   "status": "partial",
   "theorems": [
    "Bm.MT.C63_indirect_next_partial",
    "Bm.MT.IEx.C63_refuted",
    "Bm.MT.IEx.C63_refuted_default",
    "Bm.MT.IEx.C63_foreign"
   ],
   "note": "holds if the table refers to no empty group and members have actions of the table; false otherwise (witnesses)"
  },
  {
   "property": "C64",
   "status": "proved",
   "theorems": [
    "Bm.SSwitch.C64_queueing_metadata",
    "Bm.SSwitch.C64_exact"
   ],
   "note": "both readings of the clock at the start of egress are one value"
  },
  {
   "property": "C65",
   "status": "partial",
   "theorems": [
    "Bm.Act.C65_action_partial",
    "Bm.Act.C65_loads",
    "Bm.Act.C65_straight_partial",
    "Bm.Act.C65_forward_partial",
    "Bm.Act.Ex.C65_growth",
    "Bm.Act.Ex.C65_shared"
   ],
   "note": "holds if arguments are evaluated from last to first or the temporaries suffice, and no call mixes an expression with a list with an expression; false otherwise (witnesses)"
  },
  {
   "property": "C66",
   "status": "proved",
   "theorems": [
    "Bm.Pipe.C66_control_flow",
    "Bm.Pipe.C66_loads",
    "Bm.Pipe.C66_unique",
    "Bm.Pipe.C66_terminates",
    "Bm.Pipe.Ex.C66_cycle"
   ],
   "note": "direct tables; what actions (C65), conditions (C35), key builders (C10) and meters do are parameters; C66_cycle: programs with cycles are accepted and loop"
  },
  {
   "property": "C67",
   "status": "partial",
   "theorems": [
    "Bm.Save.C67_save_restore_partial",
    "Bm.Save.C67_ternary_never_hits",
    "Bm.Save.Ex.C67_refuted_add",
    "Bm.Save.Ex.C67_refuted_default_data",
    "Bm.Save.Ex.C67_refuted_default_next",
    "Bm.Save.Ex.C67_refuted_const_entries",
    "Bm.Save.Ex.C67_refuted_negative"
   ],
   "note": "direct exact and LPM tables, default action without data in the program, no entry added after the restore or slot 0 free; each of the restrictions is needed (refutations); ternary and range tables never hit after a restore"
  },
  {
   "property": "C68",
   "status": "proved",
   "theorems": [
    "Bm.Psa.C68",
    "Bm.Psa.C68_default"
   ],
   "note": "field widths as declared: values are stored modulo 2 to the width; the copy of a clone for the port of a session that also has a group carries the instance of the last replica (leftMd, example)"
  },
  {
   "property": "C69",
   "status": "proved",
   "theorems": [
    "Bm.Psa.C69"
   ],
   "note": "the register with the length of the packet is not set in clones from egress"
  },
  {
   "property": "C70",
   "status": "partial",
   "theorems": [
    "Bm.Psa.C70_partial",
    "Bm.Psa.C70_egress_partial",
    "Bm.Psa.release_spec",
    "Bm.Psa.Ex.C70_stacks",
    "Bm.Psa.Ex.C70_resubmit"
   ],
   "note": "holds for programs without stacks that do not resubmit; false for programs with stacks (not reset before the egress parser) and for programs that resubmit (headers stay valid, port lost)"
  },
  {
   "property": "C71",
   "status": "partial",
   "theorems": [
    "Bm.PsaCksum.C71_add",
    "Bm.PsaCksum.C71_subtract_partial",
    "Bm.PsaCksum.C71_unaligned",
    "Bm.PsaCksum.C71_history",
    "Bm.PsaCksum.C71_checksum",
    "Bm.PsaCksum.C71_ends",
    "Bm.PsaCksum.C71_verify",
    "Bm.PsaCksum.C71_state",
    "Bm.PsaCksum.C71_update_partial",
    "Bm.PsaCksum.C71_receiver",
    "Bm.PsaCksum.C71_negative",
    "Bm.PsaCksum.Ex.C71_subtract_zero"
   ],
   "note": "Proved for fields holding numbers that are not negative. A negative number makes add and subtract loop forever (C71_negative). subtract skips zero words in front of the data: on an object whose sum is 0 the result is 0 and not 0xffff (C71_subtract_zero); from any other sum it is exact. C71_update_partial says exactly when the incremental update gives the other form of zero (inherent in RFC 1624)."
  },
  {
   "property": "C72",
   "status": "proved",
   "theorems": [
    "Bm.PsaHash.C72_buffer",
    "Bm.PsaHash.Hashed.unique",
    "Bm.PsaHash.C72_hash",
    "Bm.PsaHash.C72_hash_mod",
    "Bm.PsaHash.C72_empty_range"
   ],
   "note": "The hash function is a parameter. An empty range (max = 0) is a division by zero (C72_empty_range), and is outside the claim. The bytes of the fields are used, whether or not their header is valid."
  },
  {
   "property": "C73",
   "status": "proved",
   "theorems": [
    "Bm.Monitor.C73_fifo",
    "Bm.Monitor.C73_calls",
    "Bm.Monitor.C73_capacity",
    "Bm.Monitor.C73_event"
   ],
   "note": "Threads are modelled as interleaved critical sections; the mutex and the condition variables are trusted to behave as the C++ standard says."
  },
  {
   "property": "C74",
   "status": "partial",
   "theorems": [
    "Bm.Monitor.C74_writer_partial",
    "Bm.Monitor.C74_reader",
    "Bm.Monitor.C74_deadlock_partial",
    "Bm.Monitor.C74_progress",
    "Bm.Monitor.C74_set_capacity"
   ],
   "note": "Refuted for raised capacities: set_capacity does not notify (C74_set_capacity). Proved when capacities do not change; the part about readers always."
  },
  {
   "property": "C75",
   "status": "partial",
   "theorems": [
    "Bm.Monitor.C75_ingress",
    "Bm.Monitor.C75_served",
    "Bm.Monitor.C75_psa_partial",
    "Bm.Monitor.C75_psa_deadlock"
   ],
   "note": "Proved for simple_switch. Refuted for psa_switch (C75_psa_deadlock, any capacity); the partial theorem covers programs that do not resubmit."
  },
  {
   "property": "C76",
   "status": "partial",
   "theorems": [
    "Bm.Swap.C76_one_config_partial",
    "Bm.Swap.C76_in_use_partial",
    "Bm.Swap.C76_no_abort_partial",
    "Bm.Swap.C76_get_config_partial",
    "Bm.Swap.C76_exchange",
    "Bm.Swap.C76_no_way_back",
    "Bm.Swap.C76_get_config_early",
    "Bm.Swap.C76_overlap",
    "Bm.Swap.C76_change_context",
    "Bm.Swap.C76_mixed",
    "Bm.Swap.C76_stuck"
   ],
   "note": "One configuration per packet: one context, or packets stay in their context (else refuted, C76_mixed). No assertion fails: moreover one thread calls swap_configs (else refuted, C76_overlap, C76_change_context). get_config: one context, one thread loading. C76_stuck: contexts out of step for good. Threads are modelled as interleaved steps; waiting for packets is a step that cannot happen yet."
  },
  {
   "property": "C77",
   "status": "partial",
   "theorems": [
    "Bm.Ports.C77_protocol",
    "Bm.Ports.C77_accepted",
    "Bm.Ports.C77_poll",
    "Bm.Ports.C77_delivered",
    "Bm.Ports.C77_order_partial",
    "Bm.Ports.C77_alternate_partial",
    "Bm.Ports.C77_removed_up",
    "Bm.Ports.C77_reordered"
   ],
   "note": "Lives, acceptance, polls and deliveries up to order: all interleavings. Order of callbacks and messages: one thread (else refuted, C77_reordered). Alternation of statuses: ports not removed (else refuted, C77_removed_up). Callbacks are registered before (they are stored by reference and must stay alive)."
  },
  {
   "property": "C78",
   "status": "partial",
   "theorems": [
    "Bm.Ports.C78_partial",
    "Bm.Ports.C78_api",
    "Bm.Ports.C78_api_add",
    "Bm.Ports.C78_short",
    "Bm.Ports.C78_overread"
   ],
   "note": "Proved for complete messages without calls of port_add/port_remove; the exceptions are refutations of the general claim."
  },
  {
   "property": "C79",
   "status": "proved",
   "theorems": [
    "Bm.Md5.C79",
    "Bm.Md5.C79_pieces"
   ],
   "note": "The table T of the RFC is given by its values (the RFC defines them by sines); the test suite of the RFC is checked against the specification."
  },
  {
   "property": "C80",
   "status": "partial",
   "theorems": [
    "Bm.StateFile.C80_partial",
    "Bm.StateFile.C80_contexts_partial",
    "Bm.StateFile.C80_blank",
    "Bm.StateFile.C80_iff",
    "Bm.StateFile.C80_version",
    "Bm.StateFile.C80_refuted",
    "Bm.StateFile.C80_default"
   ],
   "note": "Proved for configurations whose digest has no blank; refuted otherwise (C80_blank: no switch accepts the file; C80_refuted: a configuration of the tests; C80_default: {}). Digests of 16 blanks are excluded from C80_blank and C80_iff."
  },
  {
   "property": "C81",
   "status": "partial",
   "theorems": [
    "Bm.Save.C81_save_restore_partial",
    "Bm.Save.C81_gap_aborts",
    "Bm.Save.C81_next_member",
    "Bm.Save.C81_next_group",
    "Bm.Save.ExP.C81_refuted_gap",
    "Bm.Save.ExP.C81_refuted_member",
    "Bm.Save.ExP.C81_refuted_group"
   ],
   "note": "Exact and LPM tables (C67: ternary and range tables never hit after a restore), histories within the limits of C15. Restricted to group handles without gaps and, for members, groups and entries added afterwards, to free handle 0; outside these the property is refuted for all histories (C81_gap_aborts, C81_next_member, C81_next_group)."
  },
  {
   "property": "C82",
   "status": "partial",
   "theorems": [
    "Bm.PBuf.C82_run",
    "Bm.PBuf.C82_restore_partial",
    "Bm.PBuf.C82_clone",
    "Bm.PBuf.C82_passes_partial",
    "Bm.PBuf.C82_receive2048",
    "Bm.PBuf.Ex.C82_refuted",
    "Bm.PBuf.Ex.C82_refuted_clone",
    "Bm.PBuf.Ex.C82_refuted_passes",
    "Bm.PBuf.Ex.C82_refuted_2048"
   ],
   "note": "Exact for all sequences of operations (C82_run, with the bytes of snapshots that are still intact). Restoring: snapshots not used after something was put in front or overwritten (else refuted). Recirculation: growth of at most 512 bytes over all passes (else aborts). Memory that was moved from is not modelled."
  },
  {
   "property": "C83",
   "status": "partial",
   "theorems": [
    "Bm.PBuf.C83_deparse",
    "Bm.PBuf.C83_partial",
    "Bm.PBuf.C83_no_calls",
    "Bm.PBuf.Ex.C83_refuted_gap",
    "Bm.PBuf.Ex.C83_refuted_lost",
    "Bm.PBuf.Ex.C83_refuted_overflow"
   ],
   "note": "C83_deparse is exact for all method calls; the property holds if they keep the size of the valid headers and is refuted otherwise. Headers have padded fields and whole bytes (C30)."
  },
  {
   "property": "C84",
   "status": "proved",
   "theorems": [
    "Bm.Pcap.C84",
    "Bm.Pcap.C84_not_early",
    "Bm.Pcap.C84_written"
   ],
   "note": "For files whose records have well-formed times (microseconds below 10^6). The capture library is trusted to return the records; a packet handler is set."
  },
  {
   "property": "C85",
   "status": "partial",
   "theorems": [
    "Bm.Periodic.C85_registered",
    "Bm.Periodic.C85_sequential",
    "Bm.Periodic.C85_fair",
    "Bm.Periodic.C85_progress",
    "Bm.Periodic.C85_partial",
    "Bm.Periodic.Ex.C85_refuted_ub",
    "Bm.Periodic.Ex.C85_refuted_early",
    "Bm.Periodic.Ex.C85_refuted_start"
   ],
   "note": "Registered, sequential, fair and progress hold for all runs. Punctuality and absence of undefined behaviour: for runs in which nobody destroys the task the loop waits for, and the list is not started again after join; refuted otherwise. The clock does not go back; functions of tasks do not create or destroy tasks (they would wait for the mutex for ever)."
  },
  {
   "property": "C86",
   "status": "partial",
   "theorems": [
    "Bm.Counters.C86_partial",
    "Bm.Counters.C86_total",
    "Bm.Counters.C86_sequential",
    "Bm.Counters.C86_alone",
    "Bm.Counters.C86_index_partial",
    "Bm.Counters.C86_refuted_index",
    "Bm.Counters.Ex.C86_refuted_query",
    "Bm.Counters.Ex.C86_refuted_reset"
   ],
   "note": "Each of the two variables by itself behaves as if operations came one after the other (C86_partial); totals are exact if nobody writes or resets (C86_total). For pairs, and for indices of more than 32 bits, refuted. Default build (no NDEBUG)."
  },
  {
   "property": "C87",
   "status": "partial",
   "theorems": [
    "Bm.Targets.C87_l2_partial",
    "Bm.Targets.C87_l2_start",
    "Bm.Targets.C87_router_partial",
    "Bm.Targets.C87_router_start",
    "Bm.Targets.C87_pna_receive",
    "Bm.Targets.C87_pna_main",
    "Bm.Targets.Ex.C87_refuted_stale",
    "Bm.Targets.Ex.C87_refuted_exit",
    "Bm.Targets.Ex.C87_refuted_group",
    "Bm.Targets.Ex.C87_refuted_port"
   ],
   "note": "pna_nic holds. l2_switch and simple_router: ports and contents are exact for packets on which exit was not called and for group 1; stale metadata, exit, other groups and the port in metadata of copies are refuted."
  },
  {
   "property": "C88",
   "status": "partial",
   "theorems": [
    "Bm.PiMc.C88_exact",
    "Bm.PiMc.C88_shift",
    "Bm.PiMc.C88_sorted_partial",
    "Bm.PiMc.C88_iff",
    "Bm.PiMc.C88_replicate_partial",
    "Bm.PiMc.C88_calls",
    "Bm.PiMc.Ex.C88_refuted_order",
    "Bm.PiMc.Ex.C88_refuted_large"
   ],
   "note": "Exact for all lists (C88_exact, C88_shift). The claim holds for lists in ascending order of ports below 512, for whole histories; refuted for others."
  },
  {
   "property": "C89",
   "status": "partial",
   "theorems": [
    "Bm.PiSel.C89_members",
    "Bm.PiSel.C89_activation",
    "Bm.PiSel.C89_select_partial",
    "Bm.PiSel.C89_lookup_partial",
    "Bm.PiSel.Ex.C89_refuted"
   ],
   "note": "All histories. Selection is proved for groups with an active member; a lookup in a group whose members are all deactivated divides by zero (C89_refuted)."
  },
  {
   "property": "C90",
   "status": "partial",
   "theorems": [
    "Bm.PiEntry.C90_write",
    "Bm.PiEntry.C90_fetch_partial",
    "Bm.PiEntry.C90_exact",
    "Bm.PiEntry.C90_lpm",
    "Bm.PiEntry.C90_ternary_partial",
    "Bm.PiEntry.C90_range_partial",
    "Bm.PiEntry.C90_matches_partial",
    "Bm.PiEntry.C90_priority",
    "Bm.PiEntry.C90_action_data",
    "Bm.PiEntry.C90_action_value",
    "Bm.PiEntry.C90_handles",
    "Bm.PiEntry.Ex.C90_refuted_width",
    "Bm.PiEntry.Ex.C90_refuted_priority"
   ],
   "note": "Exact and LPM tables, priorities, action data, handles: proved. Ternary and range tables: prefix fields must be whole bytes wide (refuted otherwise, the same cause as C11). Reading by key with a priority above 2^31-1 fails an assertion (refuted). PI's emit/retrieve functions are not in the repository."
  },
  {
   "property": "C91",
   "status": "partial",
   "theorems": [
    "Bm.PiRes.C91_add",
    "Bm.PiRes.C91_modify_partial",
    "Bm.PiRes.C91_add_error_partial",
    "Bm.PiRes.C91_counter",
    "Bm.PiRes.C91_meter_partial",
    "Bm.PiRes.C91_meter_exact",
    "Bm.PiRes.C91_ttl_partial",
    "Bm.PiRes.C91_add_reports",
    "Bm.PiRes.C91_modify_reports",
    "Bm.PiRes.Ex.C91_refuted_rate",
    "Bm.PiRes.Ex.C91_refuted_ttl_long",
    "Bm.PiRes.Ex.C91_refuted_ttl_short",
    "Bm.PiRes.Ex.C91_refuted_modify",
    "Bm.PiRes.Ex.C91_refuted_atomic"
   ],
   "note": "Counters: proved. Meters: rates come back exactly or one below (refuted: 249 becomes 248). Timeouts between 1 and 4294 ms (refuted outside). An entry whose resources are refused stays in the table (refuted)."
  },
  {
   "property": "C92",
   "status": "partial",
   "theorems": [
    "Bm.Assign.C92_header",
    "Bm.Assign.C92_deparse",
    "Bm.Assign.C92_header_stack",
    "Bm.Assign.C92_union",
    "Bm.Assign.C92_union_stack",
    "Bm.Assign.C92_set_whole",
    "Bm.Assign.C92_extract",
    "Bm.Assign.C92_arith_partial",
    "Bm.Assign.C92_arith_field",
    "Bm.Assign.Ex.C92_refuted_union",
    "Bm.Assign.Ex.C92_refuted_compare",
    "Bm.Assign.Ex.C92_refuted_same_union",
    "Bm.Assign.Ex.C92_copied",
    "Bm.Assign.Ex.C92_case_header",
    "Bm.Assign.Ex.C92_case_union",
    "Bm.Assign.Ex.C92_case_stacks"
   ],
   "note": "Proved for sources whose fields have values that agree with their bytes, and outside one union. Arithmetic is not enabled for unions that are parameters: a parsed union is copied as zeros and comparing it aborts (refuted). Within one union the source is invalidated before it is read (refuted)."
  },
  {
   "property": "C93",
   "status": "partial",
   "theorems": [
    "Bm.LogMsg.C93_partial",
    "Bm.LogMsg.C93_ends",
    "Bm.LogMsg.Ex.C93_refuted_start",
    "Bm.LogMsg.Ex.C93_refuted_adjacent",
    "Bm.LogMsg.Ex.C93_refuted_silent",
    "Bm.LogMsg.Ex.C93_case",
    "Bm.LogMsg.Ex.C93_case_unmatched"
   ],
   "note": "Proved for formats in which something precedes each placeholder. A placeholder at the start or right after another is not seen: correct calls end the switch and missing arguments go unnoticed (refuted)."
  },
  {
   "property": "C94",
   "status": "partial",
   "theorems": [
    "Bm.PiAct.C94_partial",
    "Bm.PiAct.Ex.C94_case",
    "Bm.PiAct.Ex.C94_refuted_group_as_member",
    "Bm.PiAct.Ex.C94_refuted_high_bits"
   ],
   "note": "Proved for histories within the limits of C15 in which PI calls use handles of the right kind (below 2^32 for members, 2^63 plus a number below 2^32 for groups) and data of the right size, with fewer than 2^32 group members in the result of a full fetch. Other handles are cut to 32 bits and act on an unrelated member (refuted)."
  },
  {
   "property": "C95",
   "status": "partial",
   "theorems": [
    "Bm.Debugger.C95_partial",
    "Bm.Debugger.C95_told",
    "Bm.Debugger.C95_cfg",
    "Bm.Debugger.Ex.C95_case_cfg",
    "Bm.Debugger.Ex.C95_case",
    "Bm.Debugger.Ex.C95_case_next",
    "Bm.Debugger.Ex.C95_refuted_number",
    "Bm.Debugger.Ex.C95_refuted_cfg",
    "Bm.Debugger.Ex.C95_refuted_cfg_detached",
    "Bm.Debugger.Ex.C95_refuted_long",
    "Bm.Debugger.Ex.C95_refuted_watch",
    "Bm.Debugger.Ex.C95_refuted_continue",
    "Bm.Debugger.Ex.C95_refuted_filter"
   ],
   "note": "Proved for clients that attach before they ask for something, with fields up to 208 bytes, backtraces up to 54 places and filters up to 30 packets, no configuration change while attached, and with the reply to attach, detach and reset having the number 0. Each of these limits is refuted by a concrete execution."
  },
  {
   "property": "C96",
   "status": "partial",
   "theorems": [
    "Bm.Thrift.C96_partial",
    "Bm.Thrift.C96_loads",
    "Bm.Thrift.C96_refuted_name",
    "Bm.Thrift.C96_refuted_empty"
   ],
   "note": "Proved for tables whose entries hold actions, for sequential requests. Not for requests that read when no table has the given name (they answer as for an empty table: refuted), lookups by an empty key (they answer with the default action: refuted), and reading tables with action profiles."
  },
  {
   "property": "C97",
   "status": "partial",
   "theorems": [
    "Bm.ThriftExt.C97_partial",
    "Bm.ThriftExt.C97_refuted_value",
    "Bm.ThriftExt.C97_refuted_empty",
    "Bm.ThriftExt.C97_refuted_rates",
    "Bm.ThriftExt.C97_refuted_burst",
    "Bm.ThriftExt.C97_refuted_crash",
    "Bm.ThriftExt.C97_refuted_reset"
   ],
   "note": "Proved for all histories in which the requests fit (AllFit), for sequential requests. Refuted otherwise: register values of 2^63 or more cannot be told; reading all of an empty array says that there is no such array; refused rates change the meter; negative burst sizes are accepted; a value of the wrong size for a value set brings the server down; a reset leaves value sets as they are."
  },
  {
   "property": "C98",
   "status": "partial",
   "theorems": [
    "Bm.Bmi.C98_partial",
    "Bm.Bmi.C98_round",
    "Bm.Bmi.C98_remove_partial",
    "Bm.Bmi.C98_refuted_remove",
    "Bm.Bmi.C98_refuted_low",
    "Bm.Bmi.C98_refuted_low_case",
    "Bm.Bmi.C98_refuted_signal",
    "Bm.Bmi.C98_refuted_destroy",
    "Bm.Bmi.C98_refuted_open",
    "Bm.Bmi.C98_refuted_stats",
    "Bm.Bmi.C98_refuted_fd"
   ],
   "note": "Safety proved for all interleavings without destruction and with descriptors below 1024; one round of the thread hands over the first packet of every port; a removal that begins while the thread is in select ends. Refuted: a removal that begins while the thread waits for the lock, or selects below the descriptor of the socket pair, never ends; after a signal no packet is received; destroying a manager with three ports never ends, with two it leaves an interface open; counters of an unknown port are memory that was not initialised; a descriptor of 1024 or more is undefined behaviour."
  },
  {
   "property": "C99",
   "status": "partial",
   "theorems": [
    "Bm.McRt.C99_partial",
    "Bm.McRt.C99_refused",
    "Bm.McRt.C99_isolated",
    "Bm.McRt.C99_shift",
    "Bm.McRt.C99_cli_partial",
    "Bm.McRt.C99_pd_partial",
    "Bm.McRt.C99_pd_device",
    "Bm.McRt.C99_dump_partial",
    "Bm.McRt.C99_refuted_group",
    "Bm.McRt.C99_refuted_string",
    "Bm.McRt.C99_refuted_cli",
    "Bm.McRt.C99_refuted_destroy",
    "Bm.McRt.C99_refuted_pd_dissociate",
    "Bm.McRt.C99_refuted_pd_error",
    "Bm.McRt.C99_refuted_dump",
    "Bm.McRt.C99_refuted_dump_fail"
   ],
   "note": "Replies and replication proved for all histories in which groups have numbers below 2^31 and are not destroyed while they have nodes, and strings have at most 512 digits; refusals and separation of contexts in every state. Refuted: a group with a negative number on the wire can be created but not used; longer strings shift the ports (exact law: C99_shift), which the command line tool provokes with any port above 511; nodes of a destroyed group are stuck; PD dissociation does nothing and reports success; PD errors leave a C function as C++ exceptions; the dump of LAGs prints the ports of the last node, or fails."
  }
 ]
}
