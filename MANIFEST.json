{
 "claims": [
  {
   "property": "C01",
   "status": "partial",
   "theorems": [
    "Omni.C01_agreement_partial",
    "Omni.C01_stopsign_agreement_partial",
    "Omni.C01_false_merged_acceptdecide",
    "Omni.C01_false_duplicated_acceptsync",
    "Omni.C01_false_reordered_acceptsync"
   ],
   "note": "Proved for all tidy runs (Spec/Run.lean): arbitrary interleavings of calls, loss, duplication and reordering of messages, crash at every durable write, restart; only AcceptSyncs of one ballot on one link must stay in order and unduplicated, and no Promise is handled while an AcceptDecide of the same ballot to its sender waits in the outgoing buffer (the latter not for Promises answered over dependable links, which keep Prepares and AcceptSyncs in order, do not duplicate them and lose no AcceptSync its receiver waits for). The unrestricted claim is false (negation theorems, findings F1 and F2)."
  },
  {
   "property": "C02",
   "status": "partial",
   "theorems": [
    "Omni.C02_prefixes_partial",
    "Omni.C02_false_merged_acceptdecide"
   ],
   "note": "Proved for all tidy runs (Spec/Run.lean): arbitrary interleavings of calls, loss, duplication and reordering of messages, crash at every durable write, restart; only AcceptSyncs of one ballot on one link must stay in order and unduplicated, and no Promise is handled while an AcceptDecide of the same ballot to its sender waits in the outgoing buffer (the latter not for Promises answered over dependable links, which keep Prepares and AcceptSyncs in order, do not duplicate them and lose no AcceptSync its receiver waits for). The unrestricted claim is false (negation theorems, findings F1 and F2). Stated on the storages, for logs that are not compacted; with compaction the claim is C01."
  },
  {
   "property": "C03",
   "status": "proved",
   "theorems": [
    "Omni.C03_validity",
    "Omni.C03_validity_reconfigured"
   ],
   "note": "All runs on an arbitrary network (loss, duplication, reordering), crashes at every durable write. Snapshots too are built from appended entries only."
  },
  {
   "property": "C04",
   "status": "partial",
   "theorems": [
    "Omni.C04_leader_completeness_partial",
    "Omni.C04_false_merged_acceptdecide"
   ],
   "note": "Proved for all tidy runs (Spec/Run.lean): arbitrary interleavings of calls, loss, duplication and reordering of messages, crash at every durable write, restart; only AcceptSyncs of one ballot on one link must stay in order and unduplicated, and no Promise is handled while an AcceptDecide of the same ballot to its sender waits in the outgoing buffer (the latter not for Promises answered over dependable links, which keep Prepares and AcceptSyncs in order, do not duplicate them and lose no AcceptSync its receiver waits for). The unrestricted claim is false (negation theorems, findings F1 and F2)."
  },
  {
   "property": "C05",
   "status": "partial",
   "theorems": [
    "Omni.C05_decided_within_log_partial",
    "Omni.C05_false_stopsign"
   ],
   "note": "Proved for tidy runs (Spec/Run.lean) and servers holding no StopSign; with one it is false (F5, negation theorem)."
  },
  {
   "property": "C06",
   "status": "partial",
   "theorems": [
    "Omni.C06_call_keeps_decided_partial",
    "Omni.C06_decided_monotone_partial",
    "Omni.C06_false_sync"
   ],
   "note": "False of the code (F3, negation theorem): an AcceptSync moves the decided index back. Proved in tidy runs with crashes and restarts, for servers without a StopSign: nothing else moves it back, a leader change included. Locally, for every state of a server whose decided index is the one on disk and within what it accepted: no other call moves it back, also between durable writes and on panic; a Promise handled while preparing is covered if the leader's own promise records its decided index, which the tidy-run invariant shows to hold."
  },
  {
   "property": "C07",
   "status": "proved",
   "theorems": [
    "Omni.C07_promise_monotone"
   ],
   "note": ""
  },
  {
   "property": "C08",
   "status": "proved",
   "theorems": [
    "Omni.C08_one_leader_per_ballot",
    "Omni.C08_leads_once"
   ],
   "note": "First theorem: any two moments of a run on an arbitrary network. Second theorem: one server in an arbitrary environment, forged messages included."
  },
  {
   "property": "C09",
   "status": "partial",
   "theorems": [
    "Omni.C09_append_after_stopsign",
    "Omni.C09_append_outcome",
    "Omni.C09_reconfigure_after_stopsign",
    "Omni.C09_nothing_after_stopsign_partial",
    "Omni.C09_nothing_after_reconfigured_partial",
    "Omni.C09_false_merged_acceptdecide"
   ],
   "note": "Local half for all states. Cluster half for all tidy runs (Spec/Run.lean); false without the restriction (F1)."
  },
  {
   "property": "C10",
   "status": "partial",
   "theorems": [
    "Omni.C10_reconfiguration_agreement_partial",
    "Omni.C10_stopsign_agreement_partial",
    "Omni.C10_false_stability"
   ],
   "note": "Agreement half for tidy runs (Spec/Run.lean); stability is false (F5, negation theorem)."
  },
  {
   "property": "C11",
   "status": "proved",
   "theorems": [
    "Omni.C11_recovery",
    "Omni.C11_reads",
    "Omni.C11_nothing_lost"
   ],
   "note": ""
  },
  {
   "property": "C12",
   "status": "partial",
   "theorems": [
    "Omni.C12_accepted_is_persisted_partial",
    "Omni.C12_false_merged_acceptdecide"
   ],
   "note": "Proved for all tidy runs (Spec/Run.lean): arbitrary interleavings of calls, loss, duplication and reordering of messages, crash at every durable write, restart; only AcceptSyncs of one ballot on one link must stay in order and unduplicated, and no Promise is handled while an AcceptDecide of the same ballot to its sender waits in the outgoing buffer (the latter not for Promises answered over dependable links, which keep Prepares and AcceptSyncs in order, do not duplicate them and lose no AcceptSync its receiver waits for). The unrestricted claim is false (negation theorems, findings F1 and F2)."
  },
  {
   "property": "C13",
   "status": "proved",
   "theorems": [
    "Omni.C13_trim"
   ],
   "note": ""
  },
  {
   "property": "C14",
   "status": "proved",
   "theorems": [
    "Omni.C14_compaction_request"
   ],
   "note": ""
  },
  {
   "property": "C15",
   "status": "proved",
   "theorems": [
    "Omni.C15_local_snapshot"
   ],
   "note": "one snapshot call preserves the content invariant; any sequence follows by induction"
  },
  {
   "property": "C16",
   "status": "partial",
   "theorems": [
    "Omni.C16_sync_partial",
    "Omni.C16_false_delta"
   ],
   "note": "Proved for every synchronisation without a delta snapshot (sender and receiver consistent); false with one (F4, negation theorem)."
  },
  {
   "property": "C17",
   "status": "partial",
   "theorems": [
    "Omni.C17_read",
    "Omni.C17_read_entries",
    "Omni.C17_read_decided_suffix",
    "Omni.C17_positions",
    "Omni.C17_reads_in_runs_partial",
    "Omni.C17_false_stopsign"
   ],
   "note": "Proved for every state in which the cached numbers are those of the storage and the decided index is within the log (OP.Consistent), and that states of tidy runs are such on servers without a StopSign. With a StopSign the cached length can be wrong (F5, negation theorem)."
  },
  {
   "property": "C18",
   "status": "proved",
   "theorems": [
    "Omni.C18_interchangeable"
   ],
   "note": "For every sequence of storage transactions that stays within the log bounds, the RocksDB-backed storage and the in-memory storage answer every getter alike. Two examples show that outside the bounds they differ. RocksDB is modelled as ordered maps and serialisation as the identity."
  },
  {
   "property": "C19",
   "status": "proved",
   "theorems": [
    "Omni.C19_reopen",
    "Omni.C19_reopen_between"
   ],
   "note": "Re-opening the persistent storage after any in-bounds sequence of transactions, also between two of them, loses nothing: every getter answers as before and later calls behave as if it had not been closed."
  },
  {
   "property": "C20",
   "status": "proved",
   "theorems": [
    "Omni.C20_batching"
   ],
   "note": ""
  },
  {
   "property": "C21",
   "status": "partial",
   "theorems": [
    "Omni.C21_clock_period",
    "Omni.C21_timeouts",
    "Omni.C21_flush",
    "Omni.C21_false_flush_timeout_zero"
   ],
   "note": "Proved for every positive timeout, which validate guarantees for the election and resend clocks; C21_flush says what the flush timeout does (the resend timeout: C52). validate accepts flush_batch_tick_timeout = 0, which never fires (negation theorem)."
  },
  {
   "property": "C22",
   "status": "proved",
   "theorems": [
    "Omni.C22_quorum_intersection"
   ],
   "note": ""
  },
  {
   "property": "C23",
   "status": "proved",
   "theorems": [
    "Omni.C23_ballot_total_order",
    "Omni.C23_false_across_configurations"
   ],
   "note": "Order and equality disagree across configurations (second theorem); within one configuration the order is total."
  },
  {
   "property": "C24",
   "status": "proved",
   "theorems": [
    "Omni.C24_old_ignored",
    "Omni.C24_gap_detected",
    "Omni.C24_successor_applied"
   ],
   "note": ""
  },
  {
   "property": "C25",
   "status": "proved",
   "theorems": [
    "Omni.C25_leader_monotone",
    "Omni.C25_announces_own",
    "Omni.C25_foreign_replies_ignored"
   ],
   "note": ""
  },
  {
   "property": "C26",
   "status": "partial",
   "theorems": [
    "Omni.C26_takeover_partial",
    "Omni.C26_round_partial",
    "Omni.C26_set_priority",
    "Omni.C26_false_after_try_become_leader",
    "Omni.C26_false_duplicated_reply",
    "Omni.C26_takeover_run_partial"
   ],
   "note": "Exact conditions of a ballot change, at one timeout and over a whole round of messages. The full claim fails after try_become_leader and with duplicated replies (negation theorems). C26_takeover_run_partial: in runs on an arbitrary network, with the quorum of the configuration and the replies really sent."
  },
  {
   "property": "C27",
   "status": "proved",
   "theorems": [
    "Omni.C27_roundtrip",
    "Omni.C27_roundtrip_clone",
    "Omni.C27_wire_lru"
   ],
   "note": "Both policies from equal new caches; LRU also from a clone taken at any time and over a format without size hints (size at most 255). Side condition: the encoding type can count up to the size. What goes wrong with clones of LFU caches and promoted followers is C42."
  },
  {
   "property": "C28",
   "status": "proved",
   "theorems": [
    "Omni.C28_take_outgoing"
   ],
   "note": ""
  },
  {
   "property": "C29",
   "status": "proved",
   "theorems": [
    "Omni.C29_append",
    "Omni.C29_reconfigure"
   ],
   "note": ""
  },
  {
   "property": "C30",
   "status": "proved",
   "theorems": [
    "Omni.C30_stale_leader"
   ],
   "note": ""
  },
  {
   "property": "C31",
   "status": "proved",
   "theorems": [
    "Omni.C31_prepare_quorum",
    "Omni.C31_promise_quorum_partial"
   ],
   "note": "C31_prepare_quorum: all runs on an arbitrary network (duplication, loss, reordering, crashes at every durable write, restarts); assumes only distinct node ids. The partial theorem adds, for tidy runs, what the logs of the quorum imply for the leader's log."
  },
  {
   "property": "C32",
   "status": "partial",
   "theorems": [
    "Omni.C32_decided_on_quorum_partial",
    "Omni.C32_decided_acknowledged_partial",
    "Omni.C32_false_merged_acceptdecide"
   ],
   "note": "Full claim proved for all tidy runs (Spec/Run.lean): arbitrary interleavings of calls, loss, duplication and reordering of messages, crash at every durable write, restart; only AcceptSyncs of one ballot on one link must stay in order and unduplicated, and no Promise is handled while an AcceptDecide of the same ballot to its sender waits in the outgoing buffer (the latter not for Promises answered over dependable links, which keep Prepares and AcceptSyncs in order, do not duplicate them and lose no AcceptSync its receiver waits for). On arbitrary networks: the leader's index only rises, to an index an accept quorum acknowledged to it. The unrestricted claim is false (negation theorem, findings F1 and F2). Distinct node ids assumed."
  },
  {
   "property": "C33",
   "status": "proved",
   "theorems": [
    "Omni.C33_reconfigure_validates",
    "Omni.C33_outcome"
   ],
   "note": ""
  },
  {
   "property": "C34",
   "status": "proved",
   "theorems": [
    "Omni.C34_no_resumed_leadership",
    "Omni.C34_elected_anew"
   ],
   "note": "Sequence Paxos over whole lives of a server; the election component for histories of election events."
  },
  {
   "property": "C35",
   "status": "partial",
   "theorems": [
    "Omni.C35_compacted_monotone_partial",
    "Omni.C35_false_bound"
   ],
   "note": "Monotone, also across crashes. The bound by the decided index is false of the code (F6, negation theorem)."
  },
  {
   "property": "C36",
   "status": "partial",
   "theorems": [
    "Omni.C36_reads_return_partial",
    "Omni.C36_false_empty_range"
   ],
   "note": "Proved for read, read_decided_suffix and all non-empty ranges; empty or inverted ranges can hit unimplemented!."
  },
  {
   "property": "C37",
   "status": "proved",
   "theorems": [
    "Omni.C37_leader_information",
    "Omni.C37_synchronised_with_leader",
    "Omni.C37_leader_of_ballot_partial",
    "Omni.C37_leader_information_partial"
   ],
   "note": "C37_leader_information and C37_synchronised_with_leader: all runs on an arbitrary network. The two partial theorems add: in tidy runs a synchronised follower has only positions of its leader's log; and what remains true with forged messages."
  },
  {
   "property": "C38",
   "status": "partial",
   "theorems": [
    "Omni.C38_trimmed_everywhere_partial",
    "Omni.C38_false_merged_acceptdecide"
   ],
   "note": "Proved for all tidy runs (Spec/Run.lean): arbitrary interleavings of calls, loss, duplication and reordering of messages, crash at every durable write, restart; only AcceptSyncs of one ballot on one link must stay in order and unduplicated, and no Promise is handled while an AcceptDecide of the same ballot to its sender waits in the outgoing buffer (the latter not for Promises answered over dependable links, which keep Prepares and AcceptSyncs in order, do not duplicate them and lose no AcceptSync its receiver waits for). Without that restriction the claim is false (finding F1). Speaks of storages whose compacted part is not covered by a snapshot."
  },
  {
   "property": "C39",
   "status": "partial",
   "theorems": [
    "Omni.C39_no_panic_without_compaction_partial",
    "Omni.C39_panics_partial",
    "Omni.C39_prepare_panics_iff",
    "Omni.C39_acceptsync_panics_iff",
    "Omni.C39_false_prepare_after_trim",
    "Omni.C39_false_prepare_after_snapshot",
    "Omni.C39_false_without_compaction"
   ],
   "note": "False of the code (F7; without trim by F3 and a snapshot; with snapshots in log synchronisation without any compaction by the user, F28). On the arbitrary network, with crashes, no pid 0: no message brings a server down while nobody calls trim or snapshot and snapshots are not used in log synchronisation; in all runs (snapshot type total) only a Prepare, Promise or AcceptSync about a part of the log that the receiver has compacted can, and for Prepare (without snapshots in log synchronisation) and AcceptSync (without a snapshot) it is proved exactly when. Missing because false: the remaining cases."
  },
  {
   "property": "C40",
   "status": "partial",
   "theorems": [
    "Omni.C40_trim_succeeds_partial",
    "Omni.C40_false_gapped_pids"
   ],
   "note": "Proved for pids 1..n in every run on the arbitrary network; false of the code for pids with gaps (F8)."
  },
  {
   "property": "C41",
   "status": "partial",
   "theorems": [
    "Omni.C41_snapshot_partial",
    "Omni.C41_false_trim_after_snapshot"
   ],
   "note": "False as stated: trim after snapshot keeps the old snapshot under the new compacted index (witness). Proved for all tidy runs of the cluster in which trim and reconfigure are not called, for lawful snapshot types that are not used in log synchronisation: the snapshot shown is that of exactly the entries decided at those positions, at all earlier and later moments and all servers."
  },
  {
   "property": "C42",
   "status": "partial",
   "theorems": [
    "Omni.C42_first_sync_partial",
    "Omni.C42_first_sync_wire_partial",
    "Omni.C42_later_sync_partial",
    "Omni.C42_later_sync_wire_partial",
    "Omni.C42_unbatched",
    "Omni.C42_false_lfu_late_sync",
    "Omni.C42_false_promoted_lru",
    "Omni.C42_false_promoted_lfu",
    "Omni.C42_false_sync_with_batch",
    "Omni.C42_false_sized_format",
    "Omni.C42_false_unsized_format"
   ],
   "note": "The unrestricted claim is false of the code in five ways, each refuted by a concrete execution (findings F10, F13, F14). Proved: first synchronisation for both policies, later synchronisation for LRU when nothing waits in the batch (always with batch size 1); each also when the cache goes through a serialisation format, which for LRU fields must give no size hints and the size be at most 255."
  },
  {
   "property": "C43",
   "status": "proved",
   "theorems": [
    "Omni.C43_kept",
    "Omni.C43_proposals_wait"
   ],
   "note": "For every server state, reachable or not. Which calls rewrite the log is spelled out by OP.Rewrites."
  },
  {
   "property": "C44",
   "status": "partial",
   "theorems": [
    "Omni.C44_calls_return_partial",
    "Omni.C44_false_node_zero"
   ],
   "note": "False of the code when a pid is 0 (F9). Otherwise proved for all runs on the arbitrary network, with crashes, trim and snapshots; also for trim, and for snapshot if the snapshot type is total."
  },
  {
   "property": "C45",
   "status": "proved",
   "theorems": [
    "Omni.C45_cluster_config",
    "Omni.C45_server_config",
    "Omni.C45_build"
   ],
   "note": ""
  },
  {
   "property": "C46",
   "status": "partial",
   "theorems": [
    "Omni.C46_can_decide_partial"
   ],
   "note": "Proved for all states reached by tidy runs without trim, snapshot and reconfigure, for entry types whose snapshots are not used for log synchronisation and pids other than 0. Missing: states after compaction, use_snapshots() = true."
  },
  {
   "property": "C47",
   "status": "partial",
   "theorems": [
    "Omni.C47_false_locked_out",
    "Omni.C47_false_lost_decide"
   ],
   "note": "False of the code: a restarted server whose persisted promise is its own, larger but never announced ballot is locked out for ever (F15), and a follower whose last Decide message is lost never learns of the decision (F16); negations proved with infinite runs. What can be reached from every state is C46."
  },
  {
   "property": "C48",
   "status": "proved",
   "theorems": [
    "Omni.C48_election_settles",
    "Omni.C48_election_unanimous"
   ],
   "note": "For the election components with majority quorums and full connectivity, in synchronous rounds; promises reported by the replication component must be known to some election component (no try_become_leader in between)."
  },
  {
   "property": "C49",
   "status": "partial",
   "theorems": [
    "Omni.C49_reconnected_partial",
    "Omni.C49_restarted_partial"
   ],
   "note": "Proved in tidy runs without trim, snapshot and reconfigure, with use_snapshots = false, for explicit runs of nine and eleven steps from every state in which nothing is on the way between the two servers. Missing: compaction, StopSigns, other messages on the way."
  },
  {
   "property": "C50",
   "status": "proved",
   "theorems": [
    "Omni.C50_quorum_connected",
    "Omni.C50_flexible_quorums"
   ],
   "note": "Of the election components, in synchronous rounds over fixed symmetric links, with inputs of the replication component that are arbitrary except that no promise is larger than everything the server knows or hears. Servers that are down are servers without links. With flexible quorums the leader may have only an accept quorum of followers if it is again and again in its accept phase; the theorem says so."
  },
  {
   "property": "C51",
   "status": "partial",
   "theorems": [
    "Omni.C51_persistent_run_partial",
    "Omni.C51_reopen_run_partial",
    "Omni.C51_one_write",
    "Omni.C51_false_stopsign"
   ],
   "note": "Proved for all tidy runs in which reconfigure is not called (trim, snapshots, crashes inside calls, restarts, changes of leader allowed): every getter agrees, opening again changes nothing. That every write call is one atomic write is proved for all tidy runs. With reconfigure the claim is false (F17): C51_false_stopsign."
  },
  {
   "property": "C52",
   "status": "proved",
   "theorems": [
    "Omni.C52_resend_timeout",
    "Omni.C52_quiet_tick"
   ],
   "note": "Both for every server state. That the list has no duplicates supposes that the list of peers has none, which is so for every configuration that passes validation with distinct nodes."
  },
  {
   "property": "C53",
   "status": "proved",
   "theorems": [
    "Omni.C53_promise_known",
    "Omni.C53_accepted_known",
    "Omni.C53_notaccepted"
   ],
   "note": "For every server state and every call that does not panic."
  },
  {
   "property": "C54",
   "status": "partial",
   "theorems": [
    "Omni.C54_create",
    "Omni.C54_merge",
    "Omni.C54_merge_any_order",
    "Omni.C54_store_partial",
    "Omni.C54_replicas_partial",
    "Omni.C54_false_snapshot"
   ],
   "note": "Snapshots: proved. Store: tidy runs, servers without StopSign, up to what is compacted; the loop of the application skips snapshots, so the full claim is false (C54_false_snapshot)."
  },
  {
   "property": "C55",
   "status": "partial",
   "theorems": [
    "Omni.C55_dashboard_partial",
    "Omni.C55_connected",
    "Omni.C55_false_role",
    "Omni.C55_colours",
    "Omni.C55_quit",
    "Omni.C55_start_stop"
   ],
   "note": "Everything but the role at the moment; the role shown is that of the tick before (negation). C55_colours: every server is shown in the colour its rank in the configuration gives; C55_quit: a dashboard stops on q and a stopped one does not change."
  },
  {
   "property": "C56",
   "status": "partial",
   "theorems": [
    "Omni.C56_start",
    "Omni.C56_tick_panics_iff",
    "Omni.C56_false_decided",
    "Omni.C56_false_progress"
   ],
   "note": "Creating and starting never panics. Exact condition under which a tick panics; both cases occur in runs (negations, consequences of F3 and F5)."
  },
  {
   "property": "C57",
   "status": "proved",
   "theorems": [
    "Omni.C57_throughput"
   ],
   "note": "The theorem also shows that the list is never shortened: THROUGHPUT_DATA_SIZE is only its initial capacity."
  },
  {
   "property": "C58",
   "status": "partial",
   "theorems": [
    "Omni.C58_one_configuration_partial",
    "Omni.C58_members_partial",
    "Omni.C58_agreement_partial",
    "Omni.C58_sealed_partial",
    "Omni.C58_started_by_stopsign_partial",
    "Omni.C58_sealed_at_stopsign_partial",
    "Omni.C58_false_merged_acceptdecide"
   ],
   "note": "Every generation restricted to tidy runs, as C01. Without the restriction the claim is false (F1): C58_false_merged_acceptdecide."
  },
  {
   "property": "C59",
   "status": "partial",
   "theorems": [
    "Omni.C59_false_stray_messages",
    "Omni.C59_stray_heartbeats_partial"
   ],
   "note": "false of log replication messages (F21); proved of heartbeats between configurations with different ids"
  },
  {
   "property": "C60",
   "status": "proved",
   "theorems": [
    "Omni.C60_heartbeats",
    "Omni.C60_routing"
   ],
   "note": "Arbitrary network. Only PrepareReqs may go outside the configuration, and only to pids with which the user has called reconnected (concrete case in the file)."
  },
  {
   "property": "C61",
   "status": "proved",
   "theorems": [
    "Omni.C61_promise_answers",
    "Omni.C61_accept_answers",
    "Omni.C61_accepted_answers",
    "Omni.C61_refusal_answers"
   ],
   "note": "Arbitrary network; 'before' is the order in which messages are handed to the network."
  },
  {
   "property": "C62",
   "status": "partial",
   "theorems": [
    "Omni.C62_log_matching_partial",
    "Omni.C62_stopsign_matching_partial",
    "Omni.C62_follower_within_leader_partial",
    "Omni.C62_caught_up_partial",
    "Omni.C62_false_merged_acceptdecide",
    "Omni.C62_false_caught_up"
   ],
   "note": "tidy runs; false without the restriction on Promises that meet an unsent AcceptDecide (F1)"
  },
  {
   "property": "C63",
   "status": "partial",
   "theorems": [
    "Omni.C63_log_count_partial",
    "Omni.C63_decided_count_partial",
    "Omni.C63_one_position_partial",
    "Omni.C63_false_duplicated_log",
    "Omni.C63_false_duplicated"
   ],
   "note": "Tidy runs; the count of copies in buffers, batches, forwarded messages and logs is an invariant of the simulation proof. The condition that forwarded proposals are not duplicated is needed (F22): C63_false_duplicated."
  },
  {
   "property": "C64",
   "status": "proved",
   "theorems": [
    "Omni.C64_numbers",
    "Omni.C64_stored_numbers",
    "Omni.C64_no_overflow"
   ],
   "note": "Arbitrary network, crashes and restarts. u64 sequence numbers and usize indexes are not bounded here."
  },
  {
   "property": "C65",
   "status": "partial",
   "theorems": [
    "Omni.C65_accepts_partial",
    "Omni.C65_decides_partial",
    "Omni.C65_false_lost_accepted"
   ],
   "note": "False of the code (F23): when the Accepted replies are lost, the repeated AcceptStopSign is taken for an old message and never answered; the negation is proved with an infinite execution. Proved: a repeated AcceptStopSign whose first sending was lost is accepted and answered, and the answer makes the leader decide."
  },
  {
   "property": "C66",
   "status": "proved",
   "theorems": [
    "Omni.C66_agreement",
    "Omni.C66_decided_count",
    "Omni.C66_real_time",
    "Omni.C66_channels",
    "Omni.C66_stays_up",
    "Omni.C66_false_stays_up"
   ],
   "note": "Model/Example.lean. All schedules; agreement without further hypotheses, because the channels keep messages in order and a server that has lost messages is never used again by its task. C66_stays_up: entry types without snapshots, no trim/snapshot calls, no pid 0. C66_false_stays_up: with the entry type of the key-value application (snapshots in log synchronisation) a server can be brought down by a Prepare in a cluster of five although nobody compacts the log (F28)."
  },
  {
   "property": "C67",
   "status": "partial",
   "theorems": [
    "Omni.C67_store",
    "Omni.C67_main",
    "Omni.C67_false_early"
   ],
   "note": "Proved if the first read returns both entries as decided and the second one decided entries only, at least one. main does not check this, and otherwise the claim is false: C67_false_early (F24)."
  },
  {
   "property": "C68",
   "status": "partial",
   "theorems": [
    "Omni.C68_progress_partial",
    "Omni.C68_false_deadlock"
   ],
   "note": "False for every capacity (F25): C68_false_deadlock. Partial: as long as fewer messages have been sent than one channel holds."
  },
  {
   "property": "C69",
   "status": "proved",
   "theorems": [
    "Omni.C69_steady"
   ],
   "note": "From every settled state, for every steady run. That a state with nothing on the way is reached is C70."
  },
  {
   "property": "C70",
   "status": "proved",
   "theorems": [
    "Omni.C70_ten_rounds",
    "Omni.C70_not_nine_rounds"
   ],
   "note": "Each round gives everything that waits at its beginning its turn; appends stop before the first round. A flush timeout of 0, which never fires (F9), does not meet the condition of a round with batched entries."
  },
  {
   "property": "C71",
   "status": "partial",
   "theorems": [
    "Omni.C71_stored",
    "Omni.C71_latency_partial",
    "Omni.C71_false_starvation"
   ],
   "note": "With accept quorums of at most two (up to three servers, or write quorum two), ten rounds are enough under any load. False of the code for larger accept quorums: an infinite run with four servers in which nothing is ever decided. For all quorums six rounds are enough to store everything at all servers."
  },
  {
   "property": "C72",
   "status": "partial",
   "theorems": [
    "Omni.C72_nothing_held_back",
    "Omni.C72_passed_on",
    "Omni.C72_false_stopsign"
   ],
   "note": "Entries (all servers) and StopSigns at leaders: proved on the arbitrary network. StopSigns at followers: false of the code (F27)."
  },
  {
   "property": "C73",
   "status": "partial",
   "theorems": [
    "Omni.C73_recovers_partial"
   ],
   "note": "From every state tidy runs reach without trim, snapshot and reconfigure, for every server L and entry e: a run without further crashes to a state in which everything is done (Settled) under L, with e as the last decided entry everywhere; C69, C70 and C71 start from such states. Missing: states after compaction and after reconfigure, entry types with use_snapshots = true."
  },
  {
   "property": "C74",
   "status": "proved",
   "theorems": [
    "Omni.C74_stays_leader",
    "Omni.C74_not_late"
   ],
   "note": "From every settled state in which everybody follows n (Cluster.Loyal) and for all runs with timely heartbeats (Cluster.Prompt): the run is one of steady operation, and everybody still follows n at the end. C74_not_late: without timeliness another server takes over, although nothing is lost. Calls of set_priority are excluded: they change the ballot the leader announces."
  },
  {
   "property": "C75",
   "status": "partial",
   "theorems": [
    "Omni.C75_leader_stays",
    "Omni.C75_decided",
    "Omni.C75_stored",
    "Omni.C75_latency_partial",
    "Omni.C75_not_four"
   ],
   "note": "All but decisions under load proved in full: C75_leader_stays, C75_decided and C75_stored need no hypothesis on heartbeats or elections. C75_latency_partial is for accept quorums of two; it is false of larger ones (C71_false_starvation). C75_not_four: five ticks is the least election timeout."
  },
  {
   "property": "C76",
   "status": "proved",
   "theorems": [
    "Omni.C76_only_leader",
    "Omni.C76_leader",
    "Omni.C76_decided",
    "Omni.C76_stored",
    "Omni.C76_not_four"
   ],
   "note": "first starts without snapshots in log synchronisation; every server ticks once per beat. C76_not_four: election timeouts of four ticks are not enough."
  },
  {
   "property": "C77",
   "status": "proved",
   "theorems": [
    "Omni.C77_leader_stays",
    "Omni.C77_decided"
   ],
   "note": "beats of the servers in L; messages that silent servers had handed over before are still delivered in order; the servers fall silent between two beats."
  },
  {
   "property": "C78",
   "status": "proved",
   "theorems": [
    "Omni.C78_in_order",
    "Omni.C78_all_in_order",
    "Omni.C78_beats",
    "Omni.C78_false_leader_change"
   ],
   "note": "steady operation as C69 (C78_in_order at any time, C78_all_in_order when nothing is on the way) and beats as C75 (C78_beats); C78_false_leader_change shows that the order is lost at a change of leader."
  },
  {
   "property": "C79",
   "status": "proved",
   "theorems": [
    "Omni.C79_new_leader",
    "Omni.C79_promised",
    "Omni.C79_prepared",
    "Omni.C79_joined"
   ],
   "note": "C79_new_leader is about the election components, the others about Sequence Paxos; nothing is claimed of what the new leader decides. The servers of L are assumed to be running at the end (a server that panics does not come back). Besides what C77 presupposes: no heartbeat of a future round is on the way, and no server has led or accepted in a ballot greater than n; C79_promised also presupposes that the state is reachable and that the servers know their peers; C79_prepared and C79_joined that it is reachable over dependable links."
  },
  {
   "property": "C80",
   "status": "proved",
   "theorems": [
    "Omni.C80_wire_lfu"
   ],
   "note": "For the cache of one field. A HashMap is an association list, its order of iteration any permutation; the serialisation format is assumed to represent the keys and values without loss."
  },
  {
   "property": "C81",
   "status": "proved",
   "theorems": [
    "Omni.C81_lfu_policy"
   ],
   "note": "For the encoder of one field, from a new cache on. linked_hash_set is trusted to keep insertion order."
  },
  {
   "property": "C82",
   "status": "proved",
   "theorems": [
    "Omni.C82_lru_policy"
   ],
   "note": "For the encoder of one field, from a new cache on. The crate lru is modelled by a list in the order of use."
  },
  {
   "property": "C83",
   "status": "proved",
   "theorems": [
    "Omni.C83_once"
   ],
   "note": "For the encoder of one field, from a new cache on."
  },
  {
   "property": "C84",
   "status": "partial",
   "theorems": [
    "Omni.C84_real_time_partial",
    "Omni.C84_order_partial",
    "Omni.C66_real_time",
    "Omni.C84_false_merged_acceptdecide"
   ],
   "note": "Proved for tidy runs (the runs of C01), also when links duplicate forwarded proposals. The full claim is false of the code: C84_false_merged_acceptdecide gives a run with in-order links and without crashes (F1) in which an entry is decided at a position that was decided before it was handed in. For the example applications, whose channels keep messages, it holds for every schedule (C66_real_time)."
  },
  {
   "property": "C85",
   "status": "partial",
   "theorems": [
    "Omni.C85_accepted",
    "Omni.C85_fields",
    "Omni.C85_documented_partial",
    "Omni.C85_lru_partial",
    "Omni.C85_snapshot",
    "Omni.C85_false_default",
    "Omni.C85_generated"
   ],
   "note": "False for the cache policy: a field without cache(..) gets the policy of the last field before it that names one (C85_false_default). Proved: exactly which inputs are accepted, what each field becomes, and that this is the documented meaning if and only if no field relies on the default after an LFU field. The generated try_encode and decode, modelled with their accesses by name, round-trip every stream of entries whatever the annotations are (C85_generated)."
  },
  {
   "property": "C86",
   "status": "partial",
   "theorems": [
    "Omni.C86_with_toml",
    "Omni.C86_chain_partial",
    "Omni.C86_false_chain"
   ],
   "note": "Loading: proved for all file systems and parsers. The chain of causes ends if and only if the error is not InvalidConfig; for InvalidConfig the claim is false (F30)."
  },
  {
   "property": "C87",
   "status": "partial",
   "theorems": [
    "Omni.C87_retry_partial",
    "Omni.C87_none_partial",
    "Omni.C87_false_retry",
    "Omni.C87_false_none",
    "Omni.C87_false_decided",
    "Omni.C87_false_leader"
   ],
   "note": "All four promises are false of the code (F31): C87_false_decided, C87_false_retry, C87_false_none, C87_false_leader. Proved for every consistent state: NotAllDecided(a) changes nothing, a is the smallest accepted index the leader knows, and trying again succeeds exactly if the leader has decided a positions; the indices that can be trimmed are exactly those up to a and up to the decided index, and None trims a, if that is decided. (NotCurrentLeader names the server promised to, C13_trim.)"
  },
  {
   "property": "C88",
   "status": "partial",
   "theorems": [
    "Omni.C88_reported_partial",
    "Omni.C88_false_spread"
   ],
   "note": "False of the code (F26, F31): C88_false_spread. Proved on the arbitrary network: after a report the leader has decided the reported index, if it now knows of an accept quorum that accepted as much."
  },
  {
   "property": "C89",
   "status": "partial",
   "theorems": [
    "Omni.C89_snapshot_partial",
    "Omni.C89_false_trimmed_index"
   ],
   "note": "TrimmedIndex is never returned (F32): C89_false_trimmed_index. Everything else is proved for every consistent state, all indices and any snapshot code; a panic of snapshot comes from the user's snapshot code."
  }
 ]
}
