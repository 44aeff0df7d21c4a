{"id": "C01", "title": "Agreement on decided entries", "statement": "If one server ever reports the entry at log index i as decided with value e (read / read_entries / read_decided_suffix return Decided(e)), and any server (the same or another, at the same or any other moment, before or after crashes) reports index i as decided with value f, then e = f; and no server reports a decided StopSign at an index another server reports as a decided entry.", "quantifier": "all cluster sizes, validated configurations and flexible quorums, all finite interleavings of API calls, message deliveries and losses over FIFO links, leader changes, crashes at every storage-write boundary and restarts; all pairs of servers and pairs of moments", "why_tests_cant": "the number of schedules, crash points and leader changes is unbounded; a test run observes one schedule", "anchors": ["omnipaxos/src/omni_paxos.rs: read, read_entries, read_decided_suffix, handle_incoming, tick", "omnipaxos/src/sequence_paxos/leader.rs: handle_majority_promises, handle_accepted, send_accsync", "omnipaxos/src/sequence_paxos/follower.rs: handle_prepare, handle_acceptsync, handle_acceptdecide", "omnipaxos/src/storage/internal_storage.rs: sync_log"]}
{"id": "C02", "title": "Decided logs are prefixes of one another", "statement": "At any moments t and u, for any servers a and b, the sequence of decided entries of a at t and of b at u (where neither is compacted) are comparable by the prefix order: the shorter one is an initial segment of the longer one.", "quantifier": "all reachable cluster states, all pairs of servers and of moments", "why_tests_cant": "same unbounded space of schedules as C01", "anchors": ["omnipaxos/src/omni_paxos.rs: read_decided_suffix, get_decided_idx", "omnipaxos/src/sequence_paxos/follower.rs: handle_acceptdecide, handle_decide"]}
{"id": "C03", "title": "Validity: only proposed values are in the log", "statement": "Every entry that any server returns from read/read_entries/read_decided_suffix (decided or not) was earlier passed to append on some server, and every StopSign returned by reads or is_reconfigured was earlier passed to reconfigure on some server.", "quantifier": "all executions, with arbitrary loss, duplication and reordering of messages and crashes at every storage write", "why_tests_cant": "needs an invariant over all messages, buffers, batches and logs of all executions", "anchors": ["omnipaxos/src/omni_paxos.rs: append, reconfigure, read", "omnipaxos/src/sequence_paxos/mod.rs: propose_entry, forward_proposals, create_log_sync", "omnipaxos/src/storage/internal_storage.rs"]}
{"id": "C04", "title": "Durability: decided entries survive leader changes", "statement": "If a prefix of the log has been decided on some server, then every server that later becomes leader of a higher ballot and completes its prepare phase has that prefix at the beginning of its own log, at the moment it starts accepting and from then on while it leads.", "quantifier": "all executions; all ballots above the deciding one; all quorums", "why_tests_cant": "concerns all future leaders in all continuations of all executions", "anchors": ["omnipaxos/src/sequence_paxos/leader.rs: handle_leader, handle_promise_prepare, handle_majority_promises", "omnipaxos/src/util.rs: LeaderState::set_promise, PromiseMetaData ordering"]}
{"id": "C05", "title": "Decided index is within the log", "statement": "get_decided_idx() never exceeds the length of the log the server itself holds (compacted part + stored entries + StopSign), so every index below it can be read.", "quantifier": "all executions and servers", "why_tests_cant": "depends on every interleaving of Decide, AcceptSync and batching", "anchors": ["omnipaxos/src/sequence_paxos/follower.rs: update_decided_idx_and_get_accepted_idx", "omnipaxos/src/storage/internal_storage.rs: sync_log, set_decided_idx"]}
{"id": "C06", "title": "Decided index never goes backwards", "statement": "While a server runs, and also across a crash and restart, get_decided_idx() never decreases.", "quantifier": "all executions and all pairs of consecutive moments on one server", "why_tests_cant": "requires considering all leader changes with arbitrarily stale leaders", "anchors": ["omnipaxos/src/omni_paxos.rs: get_decided_idx", "omnipaxos/src/storage/internal_storage.rs: sync_log"]}
{"id": "C07", "title": "Promise never goes backwards", "statement": "get_promise() is non-decreasing in the ballot order over the whole life of a server, including crash at any storage write and restart from the same storage.", "quantifier": "all API calls, all messages (even forged ones), all crash points", "why_tests_cant": "quantifies over every message and every crash point", "anchors": ["omnipaxos/src/omni_paxos.rs: get_promise", "omnipaxos/src/sequence_paxos/follower.rs: handle_prepare", "omnipaxos/src/sequence_paxos/leader.rs: handle_leader", "omnipaxos/src/storage/internal_storage.rs: set_promise, load_cache"]}
{"id": "C08", "title": "At most one leader per ballot", "statement": "Two different servers never act as leader with the same ballot, and one server starts leading a given ballot at most once (also across restarts), so the log proposed in a ballot has a single author.", "quantifier": "all executions including restarts, try_become_leader and priority changes at arbitrary moments", "why_tests_cant": "concerns all schedules of elections, manual takeovers and recoveries", "anchors": ["omnipaxos/src/sequence_paxos/leader.rs: handle_leader", "omnipaxos/src/ballot_leader_election.rs: hb_timeout, check_takeover, set_priority", "omnipaxos/src/omni_paxos.rs: try_become_leader, election_timeout"]}
{"id": "C09", "title": "Nothing is decided after a StopSign", "statement": "Once a StopSign is decided at index i on some server, no server ever reports a decided entry at an index >= i; and append/reconfigure on a server that holds a StopSign return the Pending error with the proposal handed back and leave the server unchanged.", "quantifier": "all executions; all later moments; all servers", "why_tests_cant": "concerns all continuations of all executions", "anchors": ["omnipaxos/src/omni_paxos.rs: append, reconfigure, is_reconfigured", "omnipaxos/src/sequence_paxos/mod.rs: accepted_reconfiguration", "omnipaxos/src/sequence_paxos/leader.rs: accept_stopsign_leader"]}
{"id": "C10", "title": "Agreement on reconfiguration", "statement": "If is_reconfigured() returns Some(s) on one server at some moment and Some(t) on any server at any moment, then s = t; and once it returned Some on a server it keeps returning Some there.", "quantifier": "all executions, servers and moments", "why_tests_cant": "same unbounded space of schedules as C01", "anchors": ["omnipaxos/src/omni_paxos.rs: is_reconfigured", "omnipaxos/src/sequence_paxos/mod.rs: is_reconfigured", "omnipaxos/src/storage/state_cache.rs: stopsign_is_decided"]}
{"id": "C11", "title": "Recovery restores the persisted state", "statement": "Building a server from the storage left by a crash yields the same promise, accepted round, decided index, log, StopSign, snapshot and compacted index as the storage holds; the server comes up as a follower that is not in the accept phase, asks every peer for a Prepare, and its later reads return what a reader of the storage would see.", "quantifier": "all storage contents and all crash points", "why_tests_cant": "crash points and storage states are unbounded", "anchors": ["omnipaxos/src/omni_paxos.rs: OmniPaxosConfig::build", "omnipaxos/src/sequence_paxos/mod.rs: with", "omnipaxos/src/storage/internal_storage.rs: with, load_cache"]}
{"id": "C12", "title": "Acknowledged entries are persisted first", "statement": "Whenever a server hands out an Accepted message for ballot n and index k, its persistent storage at that moment (and at every later moment until it accepts in a higher ballot) already contains the first k positions of the log proposed in n, so a crash right after the acknowledgement loses nothing that was acknowledged.", "quantifier": "all executions, all crash points", "why_tests_cant": "the danger is a crash between acknowledgement and write, at any point of any schedule", "anchors": ["omnipaxos/src/sequence_paxos/follower.rs: reply_accepted, handle_acceptdecide, flush_batch_follower", "omnipaxos/src/storage/internal_storage.rs: append_entries_without_batching"]}
{"id": "C13", "title": "trim outcome", "statement": "trim(idx) succeeds only on the leader and only if idx is at most the index accepted by all servers and at most the decided index; on success exactly the entries below the new compacted index disappear from reads and everything at or above is unchanged; on error nothing changes and the error value carries the current leader / the all-accepted index / the decided index.", "quantifier": "all server states and all idx", "why_tests_cant": "quantifies over all states and arguments including StopSign boundary cases", "anchors": ["omnipaxos/src/omni_paxos.rs: trim", "omnipaxos/src/sequence_paxos/mod.rs: trim", "omnipaxos/src/storage/internal_storage.rs: try_trim"]}
{"id": "C14", "title": "Compaction requests are safe at any server", "statement": "A forwarded trim or snapshot request never removes an undecided entry, never un-decides anything, never moves the compacted index backwards and is ignored when it cannot be applied.", "quantifier": "all states and all compaction messages", "why_tests_cant": "quantifies over all states and messages", "anchors": ["omnipaxos/src/sequence_paxos/mod.rs: handle_compaction, snapshot", "omnipaxos/src/storage/internal_storage.rs: try_trim, try_snapshot"]}
{"id": "C15", "title": "Local snapshot holds exactly the compacted entries", "statement": "After any sequence of successful local snapshot calls (no trim), a read at an index below the compacted index c returns Snapshotted(c, s) where s is the snapshot of the first c decided entries, for every snapshot type whose merge(create(a), create(b)) = create(a++b).", "quantifier": "all entry sequences, all snapshot implementations satisfying the merge law, all sequences of snapshot calls", "why_tests_cant": "sequences of calls and snapshot implementations are unbounded", "anchors": ["omnipaxos/src/omni_paxos.rs: snapshot, read", "omnipaxos/src/storage/internal_storage.rs: try_snapshot, create_snapshot"]}
{"id": "C16", "title": "Snapshot received during synchronisation covers the compacted entries", "statement": "After a follower (or new leader) synchronises its log using a snapshot sent by another server, the snapshot it stores represents exactly the decided entries below its new compacted index.", "quantifier": "all pairs of logs, decided and compacted indexes of sender and receiver, all lawful snapshot implementations", "why_tests_cant": "the combination space of sender/receiver indexes is unbounded", "anchors": ["omnipaxos/src/sequence_paxos/mod.rs: create_log_sync", "omnipaxos/src/storage/internal_storage.rs: sync_log, create_diff_snapshot, create_decided_snapshot"]}
{"id": "C17", "title": "Read API returns the log", "statement": "read(i) returns the i-th entry flagged Decided iff i < get_decided_idx(), Undecided for accepted undecided entries, the compaction marker below the compacted index, the StopSign at the last position, and None beyond the end; read_entries(a..b) is the concatenation of these, read_decided_suffix(a) is read_entries(a..decided).", "quantifier": "all server states and all index ranges", "why_tests_cant": "ranges and states are unbounded; boundary combinations of compaction, StopSign and decided index", "anchors": ["omnipaxos/src/omni_paxos.rs: read, read_entries, read_decided_suffix", "omnipaxos/src/storage/internal_storage.rs: read, get_entry_type, create_read_log_entries"]}
{"id": "C18", "title": "Memory and persistent storage are interchangeable", "statement": "For every sequence of storage operations whose indexes respect the log bounds, MemoryStorage and PersistentStorage return the same results from every getter.", "quantifier": "all sequences of storage operations (write_atomically batches included)", "why_tests_cant": "operation sequences are unbounded", "anchors": ["omnipaxos_storage/src/memory_storage.rs", "omnipaxos_storage/src/persistent_storage.rs"]}
{"id": "C19", "title": "PersistentStorage re-open gives the same state", "statement": "Closing or crashing and re-opening PersistentStorage at the same path yields a storage whose getters return the same values as before, provided every acknowledged write reached the database.", "quantifier": "all sequences of storage operations before the re-open", "why_tests_cant": "operation sequences are unbounded", "anchors": ["omnipaxos_storage/src/persistent_storage.rs: new, get_log_len, append_on_prefix, trim"]}
{"id": "C20", "title": "Batching neither loses, duplicates nor reorders", "statement": "For every batch size and every sequence of appends and flushes at a leader in accept phase, stored log ++ pending batch equals initial log ++ all appended entries in order; fewer than batch_size entries are ever pending after an append; with batch_size 1 nothing is pending.", "quantifier": "all batch sizes, all sequences of append / forwarded-append / flush", "why_tests_cant": "sequences and batch sizes are unbounded", "anchors": ["omnipaxos/src/storage/state_cache.rs: append_entry, append_entries, take_batched_entries", "omnipaxos/src/storage/internal_storage.rs: append_entry_with_batching, flush_batch", "omnipaxos/src/sequence_paxos/leader.rs: accept_entry_leader, accept_entries_leader, flush_batch_leader"]}
{"id": "C21", "title": "Timeouts fire with the configured period", "statement": "Among any k*t consecutive ticks after start exactly k election (resend, flush) timeouts fire, at the ticks that are multiples of the configured positive timeout t.", "quantifier": "all timeouts t and all numbers of ticks", "why_tests_cant": "unbounded tick sequences", "anchors": ["omnipaxos/src/util.rs: LogicalClock::tick_and_check_timeout", "omnipaxos/src/omni_paxos.rs: tick"]}
{"id": "C22", "title": "Validated configurations have intersecting quorums", "statement": "If ClusterConfig::validate accepts a configuration, then every set of servers large enough to complete a prepare phase intersects every set large enough to decide an entry.", "quantifier": "all configurations, all pairs of server sets", "why_tests_cant": "configurations and sets are unbounded", "anchors": ["omnipaxos/src/omni_paxos.rs: ClusterConfig::validate", "omnipaxos/src/util.rs: Quorum::with, is_prepare_quorum, is_accept_quorum"]}
{"id": "C23", "title": "Ballots are totally ordered", "statement": "The comparison on ballots of one configuration is a strict total order: any two distinct ballots of the same configuration are ordered one way, transitively, by (n, priority, pid).", "quantifier": "all triples of ballots", "why_tests_cant": "infinite domain", "anchors": ["omnipaxos/src/ballot_leader_election.rs: Ballot, Ord for Ballot"]}
{"id": "C24", "title": "Message gaps are detected", "statement": "A follower in accept phase applies an AcceptDecide, AcceptStopSign or Decide only if its sequence number is the immediate successor, in the same session, of the last one it applied; on a gap it changes neither log nor decided index and asks the leader to re-prepare; on an old number it changes nothing.", "quantifier": "all states and all messages", "why_tests_cant": "quantifies over all states and sequence numbers", "anchors": ["omnipaxos/src/util.rs: SequenceNumber::check_msg_status", "omnipaxos/src/sequence_paxos/follower.rs: handle_sequence_num, handle_acceptdecide, handle_accept_stopsign, handle_decide"]}
{"id": "C25", "title": "Leader election is monotone and self-announcing", "statement": "The leader ballot known to a server's election component never decreases while it runs; an election timeout only ever announces the server's own ballot; heartbeat replies of other rounds or other configurations have no influence.", "quantifier": "all election states, all sequences of heartbeat messages, timeouts and priority changes", "why_tests_cant": "unbounded message sequences", "anchors": ["omnipaxos/src/ballot_leader_election.rs: hb_timeout, update_leader, check_takeover, handle_reply"]}
{"id": "C26", "title": "Takeover needs a quorum of unhappy servers", "statement": "A server raises its own ballot at an election timeout only if it is unhappy, every reply of the round was unhappy, and together with the repliers it forms a prepare quorum; the new ballot is strictly larger than the previously known leader ballot.", "quantifier": "all election states and reply sets", "why_tests_cant": "quantifies over all states", "anchors": ["omnipaxos/src/ballot_leader_election.rs: update_happiness, check_takeover"]}
{"id": "C27", "title": "UniCache decoding inverts encoding", "statement": "For a leader and a follower whose caches start equal, decoding the stream of encoded entries gives back the original entries, in order, for every stream of entries.", "quantifier": "all entry streams, all cache sizes, both eviction policies", "why_tests_cant": "streams are unbounded and evictions depend on the history", "anchors": ["omnipaxos/src/unicache/lru_cache.rs", "omnipaxos/src/unicache/lfu_cache.rs", "omnipaxos/src/unicache/lfu/mod.rs"]}
{"id": "C28", "title": "take_outgoing_messages is lossless and ordered", "statement": "take_outgoing_messages leaves the messages already in the caller's buffer in place, appends every pending message exactly once in the order it was produced (protocol messages before heartbeats), and leaves nothing pending.", "quantifier": "all server states and all caller buffers", "why_tests_cant": "quantifies over all states and buffers", "anchors": ["omnipaxos/src/omni_paxos.rs: take_outgoing_messages", "omnipaxos/src/sequence_paxos/mod.rs: take_outgoing_msgs"]}
{"id": "C29", "title": "Accepted proposals are not silently dropped locally", "statement": "When append(e) returns Ok, e is afterwards in the server's log, its batch, its proposal buffer, or in a ProposalForward message addressed to the leader it currently follows; the same for reconfigure, unless another StopSign is already buffered.", "quantifier": "all server states and entries", "why_tests_cant": "quantifies over all states", "anchors": ["omnipaxos/src/omni_paxos.rs: append, reconfigure", "omnipaxos/src/sequence_paxos/mod.rs: propose_entry, forward_proposals, forward_stopsign"]}
{"id": "C30", "title": "Stale leaders cannot change a server", "statement": "A message of the accept phase (AcceptSync, AcceptDecide, AcceptStopSign, Decide) whose ballot is smaller than the receiver's promise, and a Prepare whose ballot is smaller, never change the receiver's log, decided index, promise or accepted round.", "quantifier": "all states and all messages", "why_tests_cant": "quantifies over all states and messages", "anchors": ["omnipaxos/src/sequence_paxos/follower.rs: check_valid_ballot, handle_prepare"]}
{"id": "C31", "title": "A leader starts accepting only with a quorum of promises", "statement": "A server is leader in accept phase of ballot n only if a prepare quorum of distinct servers promised n and reported their accepted logs to it.", "quantifier": "all executions", "why_tests_cant": "needs an invariant over all executions", "anchors": ["omnipaxos/src/sequence_paxos/leader.rs: handle_promise_prepare", "omnipaxos/src/util.rs: LeaderState::set_promise"]}
{"id": "C32", "title": "A leader decides only with a quorum of acceptances", "statement": "Whenever a leader moves its decided index to k, an accept quorum of distinct servers has persisted the first k positions of that leader's log.", "quantifier": "all executions", "why_tests_cant": "needs an invariant over all executions", "anchors": ["omnipaxos/src/sequence_paxos/leader.rs: handle_accepted", "omnipaxos/src/util.rs: LeaderState::is_chosen"]}
{"id": "C33", "title": "reconfigure validates its argument", "statement": "reconfigure with a configuration that validate rejects returns ConfigError with the argument handed back and leaves the server unchanged. A valid configuration is answered with PendingReconfigConfig, the argument handed back and the server unchanged, if the server holds a StopSign, and with Ok otherwise.", "quantifier": "all states and configurations", "why_tests_cant": "quantifies over all states and configurations", "anchors": ["omnipaxos/src/omni_paxos.rs: reconfigure, ClusterConfig::validate"]}
{"id": "C34", "title": "A recovered server does not resume an old leadership", "statement": "A server restarted from storage with a promise never acts as leader before it obtains a ballot strictly larger than every promise it stored before the crash.", "quantifier": "all storage contents, all continuations", "why_tests_cant": "all continuations after all crash points", "anchors": ["omnipaxos/src/ballot_leader_election.rs: with", "omnipaxos/src/sequence_paxos/mod.rs: with", "omnipaxos/src/sequence_paxos/leader.rs: handle_leader"]}
{"id": "C35", "title": "Compacted index is bounded and monotone", "statement": "get_compacted_idx() never decreases on a running server and never exceeds get_decided_idx().", "quantifier": "all executions and servers", "why_tests_cant": "depends on all interleavings of synchronisation and compaction", "anchors": ["omnipaxos/src/omni_paxos.rs: get_compacted_idx", "omnipaxos/src/storage/internal_storage.rs: sync_log, try_trim, try_snapshot"]}
{"id": "C36", "title": "Reads never panic", "statement": "read, read_entries and read_decided_suffix return a value for every argument in every state the server can be in.", "quantifier": "all states and arguments", "why_tests_cant": "quantifies over all ranges and states", "anchors": ["omnipaxos/src/storage/internal_storage.rs: read"]}
{"id": "C37", "title": "Leader information is the promise", "statement": "get_current_leader() is None exactly when nothing was promised yet, otherwise it is the server named in get_promise(), and the accept flag is true on a follower only if it has synchronised with the leader of exactly that ballot.", "quantifier": "all executions", "why_tests_cant": "needs an invariant over all executions", "anchors": ["omnipaxos/src/omni_paxos.rs: get_current_leader"]}
{"id": "C38", "title": "Trimmed entries are stored by a quorum forever", "statement": "An entry that was trimmed through trim was decided and had been accepted by every server of the cluster.", "quantifier": "all executions and trim calls", "why_tests_cant": "needs an invariant over all executions", "anchors": ["omnipaxos/src/sequence_paxos/mod.rs: trim", "omnipaxos/src/util.rs: get_min_all_accepted_idx"]}
{"id": "C39", "title": "Handling a message never brings a server down", "statement": "A running server that is given a message sent by another server of its cluster handles it and keeps running.", "quantifier": "all executions", "why_tests_cant": "the danger is a combination of compaction, leader changes and message loss that no test schedule reaches", "anchors": ["omnipaxos/src/sequence_paxos/mod.rs: handle, create_log_sync", "omnipaxos/src/sequence_paxos/follower.rs: handle_prepare", "omnipaxos_storage/src/memory_storage.rs: get_suffix"]}
{"id": "C40", "title": "trim succeeds on what all servers decided", "statement": "If every server of the cluster has decided and reported the first k positions to the leader, trim(k) on the leader succeeds.", "quantifier": "all valid configurations and all leader states", "why_tests_cant": "configurations and states are unbounded; tests use pids 1..n only", "anchors": ["omnipaxos/src/sequence_paxos/mod.rs: trim", "omnipaxos/src/util.rs: LeaderState::new, get_min_all_accepted_idx"]}
{"id": "C41", "title": "A snapshot is never attributed to more than it contains", "statement": "Whenever a read returns Snapshotted(c, s), s is the snapshot of the first c decided entries, also when snapshot and trim are used on the same log.", "quantifier": "all sequences of snapshot and trim calls", "why_tests_cant": "needs a statement about all sequences of compaction calls", "anchors": ["omnipaxos/src/storage/internal_storage.rs: try_trim, try_snapshot, create_compacted_entry, create_snapshot"]}
{"id": "C42", "title": "A synchronised follower decodes what the leader appended", "statement": "With UniCache, a follower that received the leader's cache in an AcceptSync decodes from every later AcceptDecide of that leader exactly the entries that the leader appended to its own log.", "quantifier": "all proposal streams, batch sizes, synchronisation times, cache sizes, both eviction policies, any serialisation format", "why_tests_cant": "depends on the whole history of hits, misses, evictions and on what waits in the batch at synchronisation", "anchors": ["omnipaxos/src/unicache/lru_cache.rs", "omnipaxos/src/unicache/lfu_cache.rs", "omnipaxos/src/storage/state_cache.rs", "omnipaxos/src/sequence_paxos/leader.rs"]}
{"id": "C43", "title": "What a server has taken in stays in it", "statement": "No API call, tick or message other than a synchronisation (an AcceptSync, or a Promise handled while preparing) and a compaction removes, changes or reorders anything in a server's log, pending batch and proposal buffer; and in every call, proposals that leave the buffer are in the log or in a ProposalForward message to the server promised to.", "quantifier": "all server states, calls and messages", "why_tests_cant": "any of the two dozen handlers could drop a batch or a buffer in a rare state; a test visits few states", "anchors": ["omnipaxos/src/storage/internal_storage.rs: append_stopsign, flush_batch", "omnipaxos/src/sequence_paxos/leader.rs: handle_majority_promises", "omnipaxos/src/sequence_paxos/follower.rs: handle_acceptsync, handle_prepare"]}
{"id": "C44", "title": "API calls never bring a server down", "statement": "On a running server of a cluster with an accepted configuration, the calls tick, append, reconfigure, try_become_leader, reconnected and set_priority return normally.", "quantifier": "all executions", "why_tests_cant": "index arithmetic and unwrap calls must be safe in every reachable state of the leader's vectors and of the log", "anchors": ["omnipaxos/src/omni_paxos.rs: tick, append, reconfigure, reconnected, try_become_leader, set_priority", "omnipaxos/src/util.rs: pid_to_idx, get_preparable_peers", "omnipaxos/src/sequence_paxos/leader.rs"]}
{"id": "C45", "title": "Exactly the documented configurations are accepted", "statement": "ClusterConfig::validate accepts a configuration iff it has at least two nodes, a non-zero id and, if given, overlapping quorum sizes between 2 and the number of nodes with read >= write; ServerConfig::validate iff pid, buffer size, batch size, election and resend timeouts are non-zero; build succeeds iff both accept, the pid is a node and there is another node.", "quantifier": "all configurations and storages", "why_tests_cant": "all combinations of sizes", "anchors": ["omnipaxos/src/omni_paxos.rs: ClusterConfig::validate, ServerConfig::validate, OmniPaxosConfig::validate, build"]}
{"id": "C46", "title": "The cluster never gets stuck", "statement": "In every reachable state, for every set of servers that forms both a read and a write quorum and any of its members L, there is a continuation of the execution, without further crashes and involving only these servers, in which an entry appended at L is decided on all of them at the same position.", "quantifier": "all reachable states, all quorums, all members, all entries", "why_tests_cant": "a state in which no continuation helps (a lost session number, a ballot that can never be exceeded, a buffer that is never emptied) is reached only by particular interleavings of failures", "anchors": ["omnipaxos/src/sequence_paxos/leader.rs: handle_leader, handle_promise_prepare, handle_majority_promises, handle_promise_accept, handle_accepted", "omnipaxos/src/sequence_paxos/follower.rs: handle_prepare, handle_acceptsync, handle_decide", "omnipaxos/src/omni_paxos.rs: try_become_leader, append, take_outgoing_messages"]}
{"id": "C47", "title": "A server that keeps running catches up", "statement": "If from some reachable state on nothing fails any more (all servers run, tick, and exchange all their messages, round after round) and nothing is proposed, every server eventually reaches the decided index of every other server.", "quantifier": "all reachable states, all infinite continuations in rounds in which every server ticks, everything sent is delivered and nothing else happens", "why_tests_cant": "the claim is about infinite executions from arbitrary states; a server that is locked out for ever looks like one that is merely slow", "anchors": ["omnipaxos/src/ballot_leader_election.rs: check_takeover, update_happiness", "omnipaxos/src/sequence_paxos/mod.rs: reconnected, handle", "omnipaxos/src/sequence_paxos/leader.rs: handle_leader, handle_preparereq, resend_messages_leader", "omnipaxos/src/sequence_paxos/follower.rs: handle_prepare"]}
{"id": "C48", "title": "Leader election settles", "statement": "When all servers of a configuration with majority quorums hear each other round after round, the election settles within a bounded number of rounds whatever ballots, leaders and happiness they start with: nobody takes another ballot any more, one server has the largest one, takes itself for the leader and is happy, a majority follows it, and only this server's timeouts announce a leader.", "quantifier": "all numbers of servers, all initial ballots, known leaders and happiness, all inputs of role, phase and (known) promise at the timeouts", "why_tests_cant": "livelock from rarely seen combinations of stale ballots and happiness flags; the bound depends on how far stale ballots are ahead", "anchors": ["omnipaxos/src/ballot_leader_election.rs: hb_timeout, update_leader, update_happiness, check_takeover, handle_request, handle_reply"]}
{"id": "C49", "title": "Reconnecting or restarting brings a follower up to date", "statement": "Let L be a leader in the accept phase and F another server that has not promised a larger ballot, with nothing on the way between them. After F calls reconnected(L), or is restarted from its storage, the PrepareReq, Prepare, Promise and AcceptSync messages that follow are all accepted and no call panics; then F follows L in L's ballot, has L's log and L's decided index, and L's own log, ballot and decided index are unchanged. This holds whatever F has missed or holds.", "quantifier": "all reachable states (crashes, lost messages, changes of leader, divergent logs of F), all leaders, all followers", "why_tests_cant": "F may hold any log left from any older leader in any phase, and the synchronisation must replace exactly the part that differs; tests try one or two divergences", "anchors": ["omnipaxos/src/sequence_paxos/mod.rs: reconnected, with, create_log_sync", "omnipaxos/src/sequence_paxos/leader.rs: handle_preparereq, send_prepare, handle_promise_accept, send_accsync", "omnipaxos/src/sequence_paxos/follower.rs: handle_prepare, handle_acceptsync", "omnipaxos/src/storage/internal_storage.rs: sync_log"]}
{"id": "C50", "title": "A quorum-connected server is enough for the election", "statement": "When the links between the servers of a configuration do not change and one server hears, with itself, a (prepare) quorum, the election settles whatever ballots, known leaders and happiness the servers start with and however the others are connected: after finitely many rounds no ballot and no known leader changes any more, and one server takes itself for the leader, announces itself at all its timeouts, and is the leader of a quorum of servers, all of which hear it directly. With majority quorums the leader and this majority are also happy.", "quantifier": "all numbers of servers, all symmetric link relations with a quorum-connected server, all initial ballots, known leaders and happiness, all flexible quorums, all inputs of role, phase and (known) promise at the timeouts", "why_tests_cant": "partial connectivity has exponentially many link patterns and stale states; livelock and leaderless fixpoints show only in particular ones", "anchors": ["omnipaxos/src/ballot_leader_election.rs: hb_timeout, update_leader, update_happiness, check_takeover, handle_request, handle_reply"]}
{"id": "C51", "title": "PersistentStorage reads like MemoryStorage in every run", "statement": "Give every server of a cluster, beside its MemoryStorage, a PersistentStorage that receives the same write calls and is opened again from its database at every start. After every run, including runs that end with a crash after any single write inside a call, every getter of the PersistentStorage returns what the getter of the MemoryStorage returns, and never an error; and each write call the server makes is one atomic write to the database.", "quantifier": "all runs: any servers, calls (also trim and snapshot), message losses, duplications, crash points and restarts", "why_tests_cant": "the storages are only compared on hand-written call sequences; whether the protocol ever makes a call outside the bounds where they agree depends on the interleaving of synchronisation, compaction and reconfiguration", "anchors": ["omnipaxos_storage/src/persistent_storage.rs: append_on_prefix, batch_append_on_prefix, new, get_log_len, get_suffix", "omnipaxos/src/storage/internal_storage.rs: sync_log, try_trim, try_snapshot, append_entries_without_batching, set_stopsign"]}
{"id": "C52", "title": "The resend timeout repeats exactly what is due", "statement": "A tick at which only the resend clock of a server runs out appends to its outgoing messages exactly the messages that are due, each once: a leader sends a Prepare to every peer that has not answered its ballot and, if its log ends with a StopSign, the StopSign to every promised follower whose accepted index differs from its own (or, when the StopSign is decided, a Decide to every promised follower), with the last sequence number used; a follower waiting for its AcceptSync repeats its promise; a recovering follower sends PrepareReq to all peers. Nothing else of the protocol state changes, except that a follower in the prepare phase without a promise to repeat starts to recover. A tick at which no clock runs out sends nothing and changes only the clocks.", "quantifier": "all server states", "why_tests_cant": "a missing or extra retransmission is masked by the other messages of a test run; it shows only if one particular message was lost in one particular state", "anchors": ["omnipaxos/src/sequence_paxos/leader.rs: resend_messages_leader", "omnipaxos/src/sequence_paxos/follower.rs: resend_messages_follower", "omnipaxos/src/sequence_paxos/mod.rs: resend_message_timeout", "omnipaxos/src/omni_paxos.rs: tick"]}
{"id": "C53", "title": "What a leader knows about a follower comes from that follower", "statement": "While the ballot of a leader stays, the promise state it keeps for another server j changes only by a message of j: to promised only by a Promise of j for this ballot (with the data of that Promise), to promised-higher only by a NotAccepted of j with a higher ballot, to not-promised only by a PrepareReq of j; and the accepted index it keeps for j changes only to the index in an Accepted message of j for this ballot. The ballot changes only to a higher one, and then nothing is known about j. A NotAccepted changes nothing else.", "quantifier": "all server states, all calls and messages", "why_tests_cant": "a wrongly attributed or stale answer only matters when it completes a quorum, which needs a particular interleaving of ballots", "anchors": ["omnipaxos/src/util.rs: LeaderState::set_promise, reset_promise, lost_promise, set_accepted_idx", "omnipaxos/src/sequence_paxos/leader.rs: handle_preparereq, handle_promise_prepare, handle_promise_accept, handle_accepted, handle_notaccepted"]}
{"id": "C54", "title": "The key-value store built from the decided log", "statement": "The snapshot of the example key-value store of a list of commands maps each key to the value of the last command for it; merging the snapshot of a later part of the log into that of the earlier part gives the snapshot of both, in whatever order the merged map is iterated; and the store that the application builds with its loop over read_decided_suffix(0) is on every server the result of all decided commands, so that stores of servers that decided equally much are equal.", "quantifier": "all lists of commands, all snapshots, all executions and moments", "why_tests_cant": "the example runs one server set-up with two commands; log compaction and takeover by a server that was behind do not occur", "anchors": ["examples/kv_store/src/kv.rs: KVSnapshot::create, merge, use_snapshots", "examples/kv_store/src/main.rs: the loops over read_decided_suffix"]}
{"id": "C55", "title": "The dashboard shows the state of its server", "statement": "After a tick, a started dashboard shows the decided index, leader and ballot number of the server at that moment, its role (leader exactly if it is the current leader), for a leader the accepted index of every server, the number of entries decided since the tick before, and as connected exactly the other servers whose answers to the last finished heartbeat round were kept; a server shown as connected has really answered the request of that round, with the ballot number and leader shown for it; every server appears in the colour of its rank in the configuration.", "quantifier": "all configurations, all executions on an arbitrary network, all lives of a dashboard", "why_tests_cant": "the crate has no tests; a screen is not compared with the state of a server", "anchors": ["omnipaxos/src/omni_paxos.rs: get_ui_states", "omnipaxos/src/utils/ui.rs", "omnipaxos_ui/src/lib.rs: update_progress, update_active_peers, update_leader, tick", "omnipaxos_ui/src/app.rs"]}
{"id": "C56", "title": "The dashboard does not bring its server down", "statement": "Creating, starting and ticking the dashboard of a server of a cluster of at least two servers never panics when it is given the successive states of that server.", "quantifier": "all configurations, all executions, all lives of a dashboard", "why_tests_cant": "the panics need a decided index that goes back or a follower recorded ahead of its leader, i.e. particular reorderings of synchronisation messages", "anchors": ["omnipaxos_ui/src/app.rs: App::with, set_decided_idx", "omnipaxos_ui/src/lib.rs: update_progress, update_leader", "omnipaxos_ui/src/render.rs: progress bars"]}
{"id": "C57", "title": "The throughput numbers of the dashboard account for all decided entries", "statement": "The numbers kept by a dashboard, one more for each tick, add up to the decided index shown.", "quantifier": "all configurations, all executions, all lives of a dashboard", "why_tests_cant": "the numbers are only drawn", "anchors": ["omnipaxos_ui/src/app.rs: set_decided_idx"]}
{"id": "C58", "title": "A reconfigured service has one sequence of configurations and one log", "statement": "When new instances are started from decided StopSigns as documented (new storages, messages stay within their configuration), all servers of a generation run the same configuration, which a decided StopSign of the generation before carries; servers agree on the decided entry of every position of every generation; and once the next generation can be started, nothing is decided behind a fixed position of the present one.", "quantifier": "all sequences of reconfigurations, all executions of each configuration, all interleavings of the generations, all ways in which users learn the StopSigns", "why_tests_cant": "the tests reconfigure once, with all servers alive and the old configuration at rest; overlapping generations with lagging and restarting servers are not exercised", "anchors": ["docs/omnipaxos/reconfiguration.md", "omnipaxos/src/omni_paxos.rs: is_reconfigured, reconfigure, ClusterConfig::build_for_server"]}
{"id": "C59", "title": "Messages of another configuration have no effect", "statement": "A message sent in one configuration that reaches an instance of another configuration does not change what that instance has promised, accepted or decided, nor whom it elects.", "quantifier": "all executions of a reconfigured service, all messages of all generations that reach an instance of another generation", "why_tests_cant": "the tests give every configuration its own components, so that messages never cross; it takes an old message that arrives late", "anchors": ["omnipaxos/src/ballot_leader_election.rs: Ballot, handle_reply", "omnipaxos/src/sequence_paxos/mod.rs: handle", "omnipaxos/src/messages.rs"]}
{"id": "C60", "title": "Messages go where they belong", "statement": "Every message goes from a server of the configuration to a different one (PrepareReqs caused by reconnected may leave the configuration); Prepares and the messages of the accept phase come from the server their ballot names, Promises and Accepteds go to it.", "quantifier": "all configurations, all executions on an arbitrary network with crashes, all messages", "why_tests_cant": "a message sent to the wrong server, or to the sender itself, is ignored by its receiver's checks in most states, so that tests pass", "anchors": ["omnipaxos/src/sequence_paxos/leader.rs", "omnipaxos/src/sequence_paxos/follower.rs: reply_accepted, flush_batch_follower", "omnipaxos/src/sequence_paxos/mod.rs", "omnipaxos/src/ballot_leader_election.rs: new_hb_round, handle_request"]}
{"id": "C61", "title": "Answers follow questions", "statement": "A Promise is sent only after the receiver's Prepare of the same ballot was sent to the sender; messages of the accept phase only after the receiver's Promise for that ballot; an Accepted only after the receiver's AcceptSync of that ballot; a NotAccepted only after a message of the receiver with a lower ballot.", "quantifier": "all configurations, all executions on an arbitrary network with crashes, all messages and positions in the traffic", "why_tests_cant": "a server that answers unasked (for instance from state that survived a role change or a restart) does so only in particular interleavings of leader changes", "anchors": ["omnipaxos/src/sequence_paxos/follower.rs: handle_prepare, handle_acceptsync, reply_accepted, check_valid_ballot", "omnipaxos/src/sequence_paxos/leader.rs: send_accsync, send_acceptdecide, send_accept_stopsign, send_decide", "omnipaxos/src/util.rs: get_promised_followers"]}
{"id": "C62", "title": "Logs of one ballot match", "statement": "Two servers whose storages last accepted in the same ballot, at any two moments, hold the same entry at every position both hold; a StopSign at one of them ends the log of the other as well. A follower in the accept phase of a leader's ballot has nothing (log and batch) that the leader does not have, and when it has seen the last sequence number the leader used for it, it has all the entries of the leader's stored log.", "quantifier": "all configurations, all executions with crashes and restarts, all pairs of servers and moments", "why_tests_cant": "a follower that silently misses an entry differs from its leader only after a particular interleaving of re-sent promises, batching and log synchronisation, and the difference shows only when that follower becomes leader or is read", "anchors": ["omnipaxos/src/sequence_paxos/leader.rs: send_accsync, send_acceptdecide, accept_entry", "omnipaxos/src/sequence_paxos/follower.rs: handle_acceptsync, handle_acceptdecide, handle_sequence_num", "omnipaxos/src/util.rs: next_seq_num, increment_seq_num_session"]}
{"id": "C63", "title": "No entry is decided more often than it was handed in", "statement": "If the network does not duplicate ProposalForward messages, the number of entries equal to e (or satisfying any predicate) in the log of a server is at most the number of append calls with such entries, and so is the number of different positions at which any servers ever show such entries as decided. In particular an entry handed in once is decided at one position only, however often it was buffered, forwarded, batched, re-sent or taken over by a new leader.", "quantifier": "all configurations, all executions with crashes and restarts, losses, duplication of other messages, all predicates on entries", "why_tests_cant": "a proposal moves between the buffer, forwarded messages, the batch and the log in many places; a copy left behind in one of them (for instance a buffer not cleared on takeover) shows up only when leadership changes at the right moment", "anchors": ["omnipaxos/src/sequence_paxos/mod.rs: forward_proposals, append, propose_entry", "omnipaxos/src/sequence_paxos/leader.rs: handle_forwarded_proposal, handle_majority_promises, accept_entry_leader, flush_batch_leader", "omnipaxos/src/storage/internal_storage.rs: append_entries_with_batching, flush_batch"]}
{"id": "C64", "title": "Numbers rise only with elections", "statement": "No ballot number and no heartbeat round held by a server (promise, accepted round, leader state, own ballot, leader known to the election) or stored on its disk exceeds one plus the number of ticks and try_become_leader calls made so far in the whole cluster; messages, other calls, crashes and restarts never raise the maximum. Consequently the u32 additions of the code (takeover, try_become_leader, new heartbeat round) do not overflow during the first 2^32 - 2 such calls.", "quantifier": "all configurations, all runs on an arbitrary network (loss, duplication, reordering, replay of any message ever sent), all crash points and restarts", "why_tests_cant": "An overflow or a feedback loop in which servers push each other's ballot numbers up by replayed messages shows only after billions of steps or under adversarial schedules; tests run a few hundred.", "anchors": ["omnipaxos/src/ballot_leader_election.rs:175-194", "omnipaxos/src/ballot_leader_election.rs:222-274", "omnipaxos/src/omni_paxos.rs:391-396", "omnipaxos/src/sequence_paxos/leader.rs:16-60"]}
{"id": "C65", "title": "An accepted reconfiguration completes", "statement": "If all servers have accepted the same StopSign and from some moment on every server ticks and every message is delivered, then some server some time reports the reconfiguration as decided (is_reconfigured). In particular, whichever of the messages AcceptStopSign and Accepted was lost before, the leader's resend timeout makes up for it.", "quantifier": "all cluster configurations, all crash-free executions with any losses up to some moment, all infinite continuations in full rounds without failures", "why_tests_cant": "The project's reconfiguration tests run on a simulated network that loses no single message; the failure needs the Accepted replies to one particular message to be lost, and shows as the absence of progress for ever.", "anchors": ["omnipaxos/src/sequence_paxos/leader.rs:223-238", "omnipaxos/src/sequence_paxos/leader.rs:371-403", "omnipaxos/src/sequence_paxos/follower.rs:112-126", "omnipaxos/src/sequence_paxos/follower.rs:229-238", "omnipaxos/src/util.rs:382-390"]}
{"id": "C66", "title": "The example applications are consistent for every schedule", "statement": "In any run of the example applications (one task per server, one bounded channel per receiver, main calling the servers under their locks and aborting tasks): what any two servers show as decided at one position at any two moments is the same; distinct decided positions with entries of some kind are at most as many as append was called with; an entry that is appended after a server has decided some positions is decided behind them; a task never looks up a channel that does not exist; and, for an entry type without snapshots and a main that does not compact the log, a task runs until it is aborted or drawing the dashboard panics.", "quantifier": "all configurations, channel capacities, schedules of the tasks, timings, calls of main, aborts", "why_tests_cant": "The examples are run by hand with three servers and fixed sleeps; the interleavings of tasks, locks, full channels and aborts are unbounded.", "anchors": ["examples/kv_store/src/server.rs:21-50", "examples/kv_store/src/main.rs:23-79", "examples/dashboard/src/server.rs:22-55", "examples/dashboard/src/main.rs:29-95"]}
{"id": "C67", "title": "The key-value example prints a store that agrees with the log", "statement": "The store that main builds from read_decided_suffix(0) at one server and a later read_decided_suffix at another one is the result of the commands that every server shows as decided, in that order; with the calls of main, the final store is a = 1, b = 3.", "quantifier": "all runs of the application in which both reads return decided entries only and the first one both entries: all schedules, leaders, aborted tasks", "why_tests_cant": "main prints the result of one schedule; whether another leader, another order of the two appends or an abort at another moment changes it cannot be seen from that.", "anchors": ["examples/kv_store/src/main.rs:83-169", "examples/kv_store/src/kv.rs:1-36"]}
{"id": "C68", "title": "Tasks of the examples do not wait for each other for ever", "statement": "A task of the example applications that has not been aborted can always go on: at the select it can tick, take messages and receive; in the loop that sends messages it can send, now or after other tasks have received.", "quantifier": "all channel capacities, schedules and calls of main", "why_tests_cant": "A circular wait needs channels of 10000 messages to be full, which no run of a few seconds reaches.", "anchors": ["examples/kv_store/src/server.rs:21-50", "examples/kv_store/src/util.rs:3", "examples/kv_store/src/main.rs:23-36"]}
{"id": "C69", "title": "Steady operation decides everything appended, exactly once, everywhere", "statement": "When all servers run under one leader and nothing is lost, reordered or reconnected, entries may be appended at any server (the followers forward them), and servers tick, send and receive in any interleaving, as long as no tick elects another leader. Then no server stops, and whenever no Paxos message is on its way and no entry is batched, all servers have decided exactly the entries appended since the last such moment, each as often as it was appended, in the same order.", "quantifier": "all configurations, batch sizes, appended entries, interleavings of appends, ticks, sends and deliveries, from every settled state (also after compaction)", "why_tests_cant": "Batching, merging of AcceptDecide and Accepted messages that wait in the outgoing buffer, and forwarding interleave in unboundedly many ways; tests run a few schedules on timers.", "anchors": ["omnipaxos/src/sequence_paxos/leader.rs:76-129", "omnipaxos/src/sequence_paxos/leader.rs:193-232", "omnipaxos/src/sequence_paxos/leader.rs:316-363", "omnipaxos/src/sequence_paxos/leader.rs:405-415", "omnipaxos/src/sequence_paxos/follower.rs:88-190", "omnipaxos/src/sequence_paxos/follower.rs:284-290", "omnipaxos/src/sequence_paxos/mod.rs:298-380", "omnipaxos/src/storage/internal_storage.rs:206-320"]}
{"id": "C70", "title": "Ten rounds decide everything appended", "statement": "In steady operation under one leader (nothing lost, reordered or reconnected, no tick elects anybody), whatever has been appended anywhere is decided at all servers after ten rounds without further appends, where in a round every server with outgoing messages hands them over, every link delivers as many messages as were on it, and every server with batched entries ticks until its flush timeout. Nothing is then on the way or batched. Nine rounds do not always suffice.", "quantifier": "all configurations, batch sizes and flush timeouts, appended entries, intermediate states, orders of the actions within each round, additional actions", "why_tests_cant": "A lost wake-up (an entry left in a batch, a merged message that is never sent, a decision that is never announced) only shows for particular interleavings, and a test that waits cannot tell slow from never.", "anchors": ["omnipaxos/src/sequence_paxos/leader.rs:76-129", "omnipaxos/src/sequence_paxos/leader.rs:193-232", "omnipaxos/src/sequence_paxos/leader.rs:316-363", "omnipaxos/src/sequence_paxos/leader.rs:405-415", "omnipaxos/src/sequence_paxos/follower.rs:88-190", "omnipaxos/src/sequence_paxos/follower.rs:284-290", "omnipaxos/src/omni_paxos.rs:376-386", "omnipaxos/src/util.rs:393-412"]}
{"id": "C71", "title": "Entries are decided in bounded time under a continuing load", "statement": "In steady operation under one leader (nothing lost, reordered or reconnected, no tick elects anybody), every entry appended anywhere is decided at all servers after boundedly many rounds, also if further entries keep being appended meanwhile, where in a round every server with outgoing messages hands them over, every link delivers as many messages as were on it, and every server with batched entries ticks until its flush timeout.", "quantifier": "all configurations, batch sizes and flush timeouts, appended entries, intermediate states, orders of the actions within each round, loads", "why_tests_cant": "Tests append a fixed number of entries and wait for them; whether a steady stream of appends can postpone a decision for ever shows only for particular interleavings of the Accepted messages, and never in a bounded test.", "anchors": ["omnipaxos/src/sequence_paxos/leader.rs:316-345", "omnipaxos/src/sequence_paxos/follower.rs:162-190", "omnipaxos/src/sequence_paxos/follower.rs:284-290", "omnipaxos/src/util.rs:174-190"]}
{"id": "C72", "title": "A server that has joined a leader passes on what it held back", "statement": "Proposals that a server took in while it knew no leader or was preparing are held back only until the server reaches the Accept phase: then they are in its log or on their way to the leader, in their order, unless a StopSign has been accepted. In the Accept phase a server without a StopSign never holds back an entry, nor a StopSign.", "quantifier": "all configurations, calls, losses, duplications and reorderings of messages, crashes at any write", "why_tests_cant": "Tests append after a leader has been elected. Proposals that arrive before or during an election meet every interleaving of Prepare, Promise, AcceptSync and crashes.", "anchors": ["omnipaxos/src/sequence_paxos/follower.rs:53-86", "omnipaxos/src/sequence_paxos/leader.rs:257-285", "omnipaxos/src/sequence_paxos/mod.rs:298-380"]}
{"id": "C73", "title": "Every state can be led back to steady operation", "statement": "Whatever has happened before (crashes, rival leaders, losses, messages still on their way, entries buffered or batched), the servers of a configuration can get back, without further failures, to a state in which everything is done: all run, all follow one server chosen beforehand, all have decided the same log, nothing is on its way or held back, and the leader's records of promises, accepted indexes and sequence numbers agree with its followers. From there on C69-C71 hold: everything appended is decided everywhere within ten rounds.", "quantifier": "all reachable states, all servers as the leader, all configurations, all entries", "why_tests_cant": "The recovery must work from each of the unboundedly many reachable states; a test starts from the few its schedule produces, and does not compare the leader's internal records with the followers'.", "anchors": ["omnipaxos/src/sequence_paxos/leader.rs:14-60", "omnipaxos/src/sequence_paxos/leader.rs:224-360", "omnipaxos/src/sequence_paxos/follower.rs:13-160", "omnipaxos/src/util.rs:60-330", "omnipaxos/src/omni_paxos.rs:388-400"]}
{"id": "C74", "title": "A leader whose heartbeats arrive in time stays leader", "statement": "Start where everything is done and everybody follows one ballot. As long as every election timeout of a follower comes after a heartbeat round trip with the leader within the same heartbeat round, and every election timeout of the leader after round trips with enough servers to form an accept quorum, no tick elects anybody else, whatever is appended and however the other messages are interleaved; so C69-C71 apply. Timeliness is needed: with nothing lost, one set of election timeouts that comes before the heartbeats makes another server take over.", "quantifier": "all configurations with distinct nodes, all settled states, all interleavings of appends, ticks, sending and in-order deliveries with timely heartbeats", "why_tests_cant": "Stability of leadership is a statement about unboundedly long runs with arbitrary interleavings of heartbeats and other messages; tests run with one timing and hide short changes of leader.", "anchors": ["omnipaxos/src/ballot_leader_election.rs:167-330", "omnipaxos/src/omni_paxos.rs:375-400"]}
{"id": "C75", "title": "With election timeouts of five ticks the clocks alone keep the leader and bound the latency", "statement": "Start where everything is done and everybody follows one ballot. Let every server tick once per beat and hand over its messages in every beat, and every link deliver in every beat what was on it at the beginning, in any order. If the election timeouts are at least five ticks, nobody else is ever elected, whatever is appended; once nothing more is appended, everything is decided everywhere within ten times as many beats as the flush timeout has ticks; under load, everything is stored everywhere within six times as many, and decided within ten times as many if two servers are enough to accept. Four ticks are not enough: then another server can take over although nothing is lost and nobody is down.", "quantifier": "all configurations with distinct nodes, all settled states, all numbers of beats, all orders of actions within the beats, all appends", "why_tests_cant": "The bound holds for unboundedly many beats and all interleavings within them; a test with one timing neither finds the least safe timeout nor the worst case of the latency.", "anchors": ["omnipaxos/src/omni_paxos.rs:375-400", "omnipaxos/src/util.rs:385-412", "omnipaxos/src/ballot_leader_election.rs:175-330", "omnipaxos/src/sequence_paxos/leader.rs:113-200"]}
{"id": "C76", "title": "A cluster that starts for the first time elects its favourite and decides, within a bounded number of beats", "statement": "Let all servers start for the first time, with election timeouts of at least five ticks and resend timeouts that are longer by seven, and run in beats: every server ticks once and hands over its messages, every link delivers what was on it at the beginning, in any order. Then nobody but the server with the greatest priority (then number) ever becomes leader or is promised anything; six beats after its first election timeout all servers know it as leader in the Accept phase; everything appended anywhere, from the first beat on, is decided everywhere in one order within ten times as many further beats as the flush timeout has ticks, once nothing more is appended, and is stored everywhere within six times as many under load. With election timeouts of four ticks all servers can become leaders at once.", "quantifier": "all configurations with distinct nodes, all server configurations with these timeouts, all orders of starting, all numbers of beats, all orders of actions within the beats, all appends", "why_tests_cant": "Tests start a cluster with one timing and wait generously; they neither show that no other server ever leads in between nor bound the time to the first decision over all interleavings.", "anchors": ["omnipaxos/src/ballot_leader_election.rs:103-330", "omnipaxos/src/omni_paxos.rs:90-130", "omnipaxos/src/omni_paxos.rs:375-415", "omnipaxos/src/sequence_paxos/leader.rs:18-330", "omnipaxos/src/sequence_paxos/follower.rs:12-140"]}
{"id": "C77", "title": "Servers that fall silent do not stop the others", "statement": "Start where everything is done and everybody follows one leader, with election timeouts of at least five ticks, and let beats pass as in C75, with anything appended anywhere. Then let all servers outside a set L fall silent: they crash, restart, hang, are called or receive something, but nothing they send leaves them any more. If the leader is in L and L is large enough to accept, then the servers of L keep their leader, and ten times as many further beats of theirs as the flush timeout has ticks after the last append at one of them, they have all decided the same new entries in the same order: of each of them exactly what was appended there, before or after the others fell silent, in the order in which it was appended there, and of each other server the first so many of the entries appended there before it fell silent.", "quantifier": "all configurations and flexible quorums, all accept quorums L that contain the leader, all numbers of beats, all orders of actions within the beats, all behaviour of the silent servers, all appends", "why_tests_cant": "Tests kill chosen servers at chosen moments; the claim is about messages of the silent servers in every stage of their way and about every behaviour of theirs afterwards.", "anchors": ["omnipaxos/src/ballot_leader_election.rs:160-330", "omnipaxos/src/sequence_paxos/leader.rs:160-330", "omnipaxos/src/sequence_paxos/follower.rs:60-140", "omnipaxos/src/omni_paxos.rs:375-415", "omnipaxos/src/util.rs:420-465"]}
{"id": "C78", "title": "Entries of one server are decided in the order in which they were appended there", "statement": "In steady operation (start where everything is done; the servers append, tick, send, and receive in the order of sending, in any interleaving; nobody else is elected) the new entries of every server's log are the first so many of one and the same list, and this list is an interleaving of what was appended at the single servers: of every server it has the first so many entries appended there, in this order, none overtaken, left out or repeated, whether appended at the leader or forwarded to it. When nothing is on the way any more, it has all of them. If the leader changes in between, this is false even though nothing is lost or reordered on the links: an entry on its way to the old leader is overtaken by a later one.", "quantifier": "all configurations and flexible quorums, all states in which everything is done, all interleavings and numbers of actions, all appends at all servers, equal entries included", "why_tests_cant": "Tests check the set of decided entries or one proposer's order for particular schedules; batching, forwarding and flushing interleave in unboundedly many ways.", "anchors": ["omnipaxos/src/sequence_paxos/mod.rs:240-250", "omnipaxos/src/sequence_paxos/mod.rs:354-385", "omnipaxos/src/sequence_paxos/leader.rs:76-160", "omnipaxos/src/sequence_paxos/leader.rs:405-416", "omnipaxos/src/sequence_paxos/follower.rs:60-140", "omnipaxos/src/sequence_paxos/follower.rs:284-291"]}
{"id": "C79", "title": "When the leader falls silent, the others agree on one new leader in bounded time", "statement": "Start where everything is done and everybody follows ballot n, with election timeouts of at least five and at most e ticks, and let the servers go on in beats (each server ticks once and hands over its messages, each link delivers what is on it), appending anything. Then the leader and any others fall silent for good (crash, hang, restart, receive or not, but hand over no more messages), such that the servers L that are left are enough to prepare and to accept. After 8e further beats of the servers L all of them name one and the same ballot M as leader and are content with it; M is the ballot of a server of L and the next after n (M.n = n.n + 1), no server of L has a greater ballot of its own, and this stays so as long as such beats go on. If moreover the state in which all this starts has been reached from the start of the cluster, then after 9e + 2 such beats all servers of L have also promised M in Sequence Paxos, the server M.pid is leader in it, and this stays so too. If on the way to that state the links have been dependable (in the sense of C50: Prepares and AcceptSyncs in order and not duplicated, no awaited AcceptSync lost), then after 9e + 4 such beats the server M.pid has moreover received the promises it needs and is in the Accept phase, and after 9e + 8 such beats all servers of L have taken over a log in M (M is the last ballot in which their storages have accepted) and with it everything that any server, silent or not, had decided before the silence, and this stays so too.", "quantifier": "all configurations and flexible quorums, all priorities, all states in which everything is done and followed, all numbers of beats and orders within a beat, all appends, all sets of silent servers that contain the leader and leave enough others, all behaviour of the silent servers", "why_tests_cant": "Tests crash the leader in one schedule and wait; several servers may take over at the same time, hear of each other's ballots in different rounds, and answer heartbeats with what they knew before, in unboundedly many interleavings, and the bound must hold in all of them.", "anchors": ["omnipaxos/src/ballot_leader_election.rs:197-220", "omnipaxos/src/ballot_leader_election.rs:206-214", "omnipaxos/src/ballot_leader_election.rs:222-258", "omnipaxos/src/ballot_leader_election.rs:260-274", "omnipaxos/src/ballot_leader_election.rs:276-294", "omnipaxos/src/omni_paxos.rs:376-386", "omnipaxos/src/sequence_paxos/leader.rs:18-62", "omnipaxos/src/sequence_paxos/leader.rs:257-303"]}
{"id": "C80", "title": "An LFU cache that goes over the network works on as before", "statement": "Whatever an LFU cache of a UniCache field has been through (encodings, decodings, clones, earlier serialisations), after serialising and deserialising it answers every further sequence of encodings and decodings exactly as the original does: the same encodings, the same evictions, the same decoded values, and the same panics. This does not depend on the order in which its hash maps are written.", "quantifier": "all sizes and encoding types, all field values, all histories, all iteration orders of the hash maps, all later sequences of operations", "why_tests_cant": "The tests serialise one cache and compare its fields; whether the order within the frequency bins, the counters and the least frequency survive in all cases shows only in later evictions after unboundedly many histories.", "anchors": ["omnipaxos/src/unicache/lfu/serialization.rs:6-63", "omnipaxos/src/unicache/lfu/mod.rs:19-43", "omnipaxos/src/unicache/lfu/mod.rs:97-165", "omnipaxos/src/unicache/lfu_cache.rs:5-16"]}
{"id": "C81", "title": "An LFU field replaces the least frequently used value", "statement": "An LFU cache of an annotated field (size at least one, an encoding type that counts up to the size) that encodes any sequence of values never panics and does what an ideal LFU encoder does: a known value is sent as its encoding; an unknown one is sent as it is and gets the next encoding while there is room; when the cache is full it takes the place and the encoding of a value that has been used least often since it came in, and of these of the one that has not been used for the longest time.", "quantifier": "all types of values, all sizes, all sequences of values", "why_tests_cant": "The cache keeps the frequencies in three places (a counter per value, an ordered set of values per frequency, the least frequency); that they never disagree depends on the whole history of hits, misses and replacements.", "anchors": ["omnipaxos/src/unicache/lfu/mod.rs:28-164", "omnipaxos/src/unicache/lfu_cache.rs:45-72"]}
{"id": "C82", "title": "An LRU field encodes exactly the values that were used last", "statement": "An LRU cache of an annotated field (size at least one, an encoding type that counts up to the size) that encodes any sequence of values never panics, and sends a value encoded exactly if fewer than `size` different values have been used since that value was used last; every other value is sent as it is.", "quantifier": "all types of values, all sizes, all sequences of values", "why_tests_cant": "Which values are known depends on the whole order of hits, misses and replacements so far; a use that does not refresh a value, or a replacement of the wrong one, shows up only much later.", "anchors": ["omnipaxos/src/unicache/lru_cache.rs:85-118"]}
{"id": "C83", "title": "A field with few different values is sent in full once per value", "statement": "If no more different values occur in an annotated field than its cache has places (and its encoding type counts that far), then under both policies every value is sent as it is the first time, and every later time as an encoding, namely its number in the order of first appearance; the encoder never panics.", "quantifier": "all types of values, both policies, all sizes, all sequences of values with at most `size` different ones", "why_tests_cant": "Sequences of any length and interleaving; that the encodings are the same under both policies, and never depend on the order of use, is a statement about all of them.", "anchors": ["omnipaxos/src/unicache/lru_cache.rs:90-118", "omnipaxos/src/unicache/lfu_cache.rs:45-72", "omnipaxos/src/unicache/lfu/mod.rs:87-164"]}
{"id": "C84", "title": "The decided order respects real time", "statement": "If an entry is handed in after some server has decided D positions, it is never shown as decided at one of the first D positions, by any server at any later moment. In particular, if a server showed x as decided at position p before e was handed in, every position at which e is ever decided is greater than p.", "quantifier": "all configurations, all executions with crashes and restarts, losses and duplicated forwarded proposals, all pairs of servers and of moments, all entries", "why_tests_cant": "the moments and servers between which the order could be violated are unboundedly many, and a violation needs an interplay of sessions, leader changes and lagging servers that a test does not hit by chance", "anchors": ["omnipaxos/src/omni_paxos.rs: append, read, get_decided_idx", "omnipaxos/src/sequence_paxos/leader.rs: accept_entry_leader, handle_accepted, send_acceptdecide", "omnipaxos/src/sequence_paxos/follower.rs: handle_acceptdecide, handle_acceptsync"]}
{"id": "C85", "title": "The derive macro gives each field what its own attributes say", "statement": "derive(UniCacheEntry) accepts exactly the structs with named fields whose unicache annotations consist of size(n), encoding(T), cache(lru) and cache(lfu); every annotated field gets the encoding, size and cache policy that its own annotation names, and the documented defaults (u8, 255, LRU) for what it leaves out, whatever the annotations of the other fields are. The snapshot type is that of the snapshot attribute, NoSnapshot without one. The generated encoder and decoder give back every field of every entry of every stream.", "quantifier": "all structs: all numbers and orders of fields, all attributes and items", "why_tests_cant": "A test of the macro compiles one struct; that no field's attributes influence another's is a statement about all combinations of annotated fields.", "anchors": ["omnipaxos_macros/src/lib.rs:17-35", "omnipaxos_macros/src/lib.rs:62-147", "omnipaxos_macros/src/lib.rs:206-221", "omnipaxos_macros/src/lib.rs:149-192"]}
{"id": "C86", "title": "Loading a configuration fails with the right error, whose causes can be followed to an end", "statement": "with_toml returns a configuration exactly if the file can be read, parses and validates, and otherwise the error of the step that failed with what the step returned. Following source() from any ConfigError comes to an end after finitely many steps.", "quantifier": "all files, all behaviours of the file system and of the TOML parser, all configurations, all errors", "why_tests_cant": "the tests load two files; that a chain of causes never ends shows only in a program that follows it, as one that hangs", "anchors": ["omnipaxos/src/errors.rs:9-56", "omnipaxos/src/omni_paxos.rs:53-58"]}
{"id": "C87", "title": "trim keeps the promises of its documentation", "statement": "A trim succeeds only if all servers have decided up to the trimmed index (docs/omnipaxos/compaction.md 4). trim(None) trims the highest index that can be trimmed (compaction.md 10). If trim answers NotAllDecided(idx), trying again with trim(Some(idx)) succeeds (compaction.md 17-20). If it answers NotCurrentLeader(l), l is a server, the leader (omni_paxos.rs 458).", "quantifier": "all clusters, executions, leaders and indices", "why_tests_cant": "the tests trim after everything has been decided everywhere, and never try again after an error", "anchors": ["docs/omnipaxos/compaction.md:4-20", "omnipaxos/src/sequence_paxos/mod.rs:141-178", "omnipaxos/src/omni_paxos.rs:456-457"]}
{"id": "C88", "title": "A leader has decided everything it knows a quorum to have accepted", "statement": "Whenever a leader in accept phase knows of an accept quorum that each member accepted the first k positions, its decided index is at least k.", "quantifier": "all configurations, executions, leaders, quorums and k", "why_tests_cant": "depends on the order in which reports of different indices arrive; tests wait until all servers report the same index", "anchors": ["omnipaxos/src/sequence_paxos/leader.rs:316-345", "omnipaxos/src/util.rs:252-259"]}
{"id": "C89", "title": "snapshot outcome", "statement": "snapshot(idx, local_only) fails exactly if idx is beyond the decided index, with UndecidedIndex and the decided index, or is already compacted, with TrimmedIndex and the compacted index (documentation of CompactionErr); on failure nothing changes. On success the compacted index moves to idx (the decided index if None), not over a StopSign; everything from there on reads as before; the peers are asked to do the same unless local_only.", "quantifier": "all server states, all indices, local or not, all snapshot types", "why_tests_cant": "quantifies over all states and arguments including StopSign boundaries; no test asks for an index that is already compacted", "anchors": ["omnipaxos/src/omni_paxos.rs: snapshot", "omnipaxos/src/omni_paxos.rs:448-460", "omnipaxos/src/sequence_paxos/mod.rs:184-205", "omnipaxos/src/storage/internal_storage.rs:367-383, 432-453"]}
