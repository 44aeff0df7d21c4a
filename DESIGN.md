# Design of the formal model of OmniPaxos

## Trusted base

* Lean 4.33.0's kernel. No axioms of our own; every property theorem depends at most on
  `propext`, `Classical.choice`, `Quot.sound` (checked with `#print axioms`). No `sorry`, `admit`,
  `native_decide`, `bv_decide`.
* The reading of the Rust source into Lean definitions. Every definition of the model carries a comment with the
  file and lines it models. The code itself is not run.
* The statement files (`Verif/Props/*.lean`) and the small specification definitions they use.

## What is modelled

Rust crates `omnipaxos` (features `logging`, `serde`, `toml_config` off; `unicache` off in the protocol model and modelled
separately) and `omnipaxos_storage`:

| Lean module | Rust source | content |
|---|---|---|
| `Model/Basic` | `ballot_leader_election.rs` (Ballot), `util.rs`, `errors.rs`, `omni_paxos.rs` (configs), `messages.rs` | ballots, sequence numbers, quorums, clocks, configuration validation, messages |
| `Model/Storage` | `omnipaxos_storage/src/memory_storage.rs`, `storage/mod.rs` | the storage trait's operations on `MemoryStorage` |
| `Model/Internal` | `storage/internal_storage.rs`, `storage/state_cache.rs` | state cache, batching, `sync_log`, compaction, reads |
| `Model/Leader` | `util.rs` (LeaderState, Promise metadata) | leader bookkeeping |
| `Model/SeqPaxos` | `sequence_paxos/{mod,leader,follower}.rs` | all handlers, resends, restart |
| `Model/BLE` | `ballot_leader_election.rs` | heartbeat rounds, happiness, takeover |
| `Model/OmniPaxos` | `omni_paxos.rs` | the public API of one server, `build` |
| `Model/Cluster` | (environment) | servers + links that lose, duplicate and reorder + crash at every durable write + restart |
| `Model/Persistent` | `omnipaxos_storage/src/persistent_storage.rs` | `PersistentStorage` over ordered maps |
| `Model/UniCache` | `unicache/{mod,lru_cache,lfu_cache}.rs`, `unicache/lfu/{mod,serialization}.rs`, `omnipaxos_macros/src/lib.rs` (the generated impl), the `unicache` branches of `state_cache.rs`/`internal_storage.rs` | LRU and LFU encoder/decoder caches, the cache of an entry, the leader's batch with encoded entries |
| `Model/Macro` | `omnipaxos_macros/src/lib.rs` (reading the annotations) | the derive macros `Entry` and `UniCacheEntry`: from the syntax tree of the struct to the caches, sizes and types of the generated code; the generated `try_encode` and `decode` by field names |
| `Model/KV` | `examples/kv_store/src/{kv,main}.rs` | the example application: snapshot type and the loop that applies decided commands |
| `Model/Errors` | `errors.rs`, `omni_paxos.rs` (`with_toml`) | loading a configuration, with reading and TOML parsing as parameters; the errors and their sources |
| `Model/Service` | docs/omnipaxos/reconfiguration.md, `omni_paxos.rs` (`build_for_server`) | the configurations of a service one after the other, each a `Cluster`, started from decided StopSigns |
| `Model/Example` | `examples/{kv_store,dashboard}/src/{main,server}.rs` | the example applications: one task per server, bounded channels, a mutex per server that panics poison, `main` aborting tasks; all schedules |
| `Model/UI` | `omni_paxos.rs` (`get_ui_states`), `utils/ui.rs`, `omnipaxos_ui/src/{app,lib,util}.rs` | the dashboard |

The specification side, kept apart from the model: `Spec/*` (what a log, a decided position, a quorum, a read, a run is),
read together with the statements in `Props/*`. `Spec/AnyNet` runs the same servers on an arbitrary network (any message ever
sent may be delivered at any later time, any number of times, in any order).

### Not modelled

* Logging, TOML parsing (a parameter of `Model/Errors`), the layout of the dashboard (`omnipaxos_ui/src/render.rs` up to what can panic), the `serde` impls other than what those of the UniCache caches do
  with size hints, the token level of the derive macros (syn and quote; the syntax tree is the input of `Model/Macro`).
* `become_follower`-style dead code (never called).
* Overflow of `u64`/`usize` counters, except in UniCache where the `Encoded` type is small (`max`, overflow is a panic). The `u32`
  numbers (ballot numbers, heartbeat rounds) are natural numbers; C64 bounds them by the number of ticks and `try_become_leader`
  calls, so this is faithful for the first 2^32 - 2 of these (with `election_tick_timeout = 1` and 10 ms ticks, 16 months of one server).
* Errors returned by the storage back-end (I/O, RocksDB, serialisation). The code unwraps them, i.e. such an error is a
  crash of the server, and crashes at every durable write are modelled.
* Real time and threads: a server is called by one thread at a time (`&mut self`). In `Model/Example` what tasks and `main` do under a
  lock is one action, and the actions come in any order; `tokio` (channels, `select!`, `abort` at an `await` only) and `Mutex` are trusted to behave so.

### Modelling conventions

* `Vec<T>` is `List`, integers are `Nat`. **Underflow of a `usize` subtraction is modelled as a panic** (debug-build
  semantics). In release builds the subtraction wraps instead; where this matters (F7) it makes things worse: `MemoryStorage`
  slices with a huge index, `PersistentStorage` iterates from key 0.
* A handler is a function `State -> Res` where `Res` is `ok value state` or `panic state`. `unwrap`/`expect`/index out of
  range/`unimplemented!` are the explicit `panic` result.
* `Vec`s indexed by `pid - 1` are lists; an access outside is a panic.
* Every storage write of a call is recorded in a `trail` (the list of values the persistent storage goes through during the
  call); a crash during a call may leave any element of the trail on disk. `write_atomically` is one write. Beside the trail the
  calls themselves are recorded (`calls`), so that another storage can be fed with them (C51).
* Snapshot types are abstract: arbitrary `create`/`merge` (partial: `NoSnapshot` panics) and `use_snapshots`.
* `PersistentStorage`: RocksDB is a set of maps, the log column family ordered by key; `write(batch)` is atomic; serialisation
  is the identity. The non-atomic `append_on_prefix` and the separate `trim`/`set_compacted_idx` calls of the trait are modelled,
  but `internal_storage.rs` only uses the batched forms (`C51_one_write`).
* UniCache: the crates `lru` and `linked_hash_set` are trusted to behave as `LruCache` and the bins of `LFUCache`; the order in
  which a `HashMap` is iterated (clone of an LFU cache) is a parameter.

### Environment (cluster)

Servers run the model code. API calls may happen on any server at any time. `take_outgoing_messages` moves a server's pending
messages into the links. A server may crash between calls or at any storage write inside a call; it loses everything but its
storage and may restart (`build`) at any later time with any valid server configuration. A panic is a crash. Delivery to a
crashed server loses the message. Two networks:

* `Cluster` (Model/Cluster): links with loss (`lose`), duplication and reordering (`rearrange`); restricted by tidiness below.
* `Loose` (Spec/AnyNet): every message ever sent may be delivered at any later time, any number of times, or never.

The agreement-like theorems (marked `_partial`) speak about **tidy** runs of `Cluster` (Spec/Run): (1) no Promise is handled while
an AcceptDecide of the same ballot to its sender waits in the outgoing buffer; (2) the network does not duplicate AcceptSyncs, nor
reorder AcceptSyncs of one ballot on one link. Everything else may be duplicated and reordered (also around AcceptSyncs). A run in
which messages are taken from a server before it is given the next one satisfies (1) (`Cluster.DrainedRun.tidy`). Both
restrictions are needed because the code violates agreement without them (F1, F2, each with a machine-checked run; F2 both by
duplication alone and by reordering alone).

Condition (1) is about the user's loop, not the network. It is not needed for Promises that come back over a **dependable** link (parameter `rel`
of these theorems, an arbitrary set of links): one that keeps its Prepares and AcceptSyncs in order, does not duplicate
them, and does not lose an AcceptSync while its receiver waits for one of that ballot (or will, because a Prepare of the ballot is ahead of it). A
TCP connection is such a link: when it breaks, the receiver is told (`reconnected`), after which it does not wait, and then everything on the link may be lost.
With `rel = Links.none` the theorems speak about conditions (1) and (2) above; with `Links.all` the order in which users take and deliver messages
is unrestricted. So F1 needs a network that loses an awaited AcceptSync silently, or duplicates or reorders Prepares and AcceptSyncs.

## Proof architecture

1. Local theorems: one call on one server, for all states (reads, trim, batching, clocks, quorums, ballots, election, gap
   detection, configuration).
2. Invariants of one server over all call sequences, crash points and restarts in an arbitrary environment
   (`Proof/{Life,LifeInv,ServerInv,DecidedIdx,Keep}`): promise monotone, cache = storage, decided index, log/batch/buffer kept.
   A Hoare-style predicate `M.Sat` (normal and panic post-condition) is used for all handlers; `OP.run_closed` lifts
   handler lemmas to whole API calls.
3. Cluster, tidy runs (`Proof/Safety/*`): an abstract voting machine as ghost state (`Ghost`: per ballot the chosen log, votes,
   promises), a simulation invariant `RInv` connecting server states, messages in flight and ghost state, proved preserved by
   every handler, crash point and network step; conclusions in `Conclude`. Messages of a synchronisation that its receiver can no longer take up are
`dead` in the ghost state and need not tell the truth; `Links` shows that on a dependable link the receiver indeed does not take them up
(invariant `Sess` of `Proof/Session`). The ghost state also bounds how many counted entries each
   server has in hand (buffer, own batch, messages to forward) and how many are in logs; `Once` adds the links and shows that
   only `append` raises the total.
4. Arbitrary networks (`Proof/{Validity,Project,Quorum,QuorumRun,StorePD,AnyRun,NoPanic,NoPanicRun,LeaderKeep}`): invariants
   on provenance of entries, ballots, promises and acknowledgements, absence of panics, and shape of the leader state, that do
   not need the links to behave.
5. Progress (`Proof/{Embed,Progress/*}`): from an arbitrary state a run is constructed step by step in which a proposal is
   decided. Handlers are described under the assumption that they do not panic (`Does`); that they do not comes from 4., via
   an embedding of `Cluster` runs into `Loose` runs.
   That a state repeats for ever (C47) is shown by running it for one round and noting that the rest of the run commutes with
   shifting the heartbeat round numbers (`Proof/Shift`).
   Convergence of the election (`Spec/Rounds`, `Proof/{Rounds,RoundsBLE}`): rounds of the election components are rounds of a small
   relation on (own ballot, known leader, happy), for which a stable state is reached. Over an arbitrary link relation (`Proof/{Links,LinksBLE}`) the sum of the ballot
   numbers is bounded, so ballots stop changing, and then a leaderless state would make everybody unhappy and a quorum-connected server take over.
   Steady operation (`Proof/Steady/*`): for every follower, what is on the way and in the outgoing buffer of the leader, fed in order, turns the
   follower's log into the leader's (`Link`); for the entries, a count over the leader's log and batch and what is forwarded (`Counted`).
   What is on the way goes through ten stages (`Proof/Steady/Stage`), from which nothing goes back; a round empties the first occupied one.
   Heartbeats (`Spec/Beats`, `Proof/Beats/*`): the request of the present round to a server is waiting, on the way, answered, or the answer has arrived
   (`Inquired`); a round trip leaves only the last, so at the election timeout the leader has a quorum of answers and a follower has the leader's.
   Runs in beats (`Proof/Beats/Timed`): an election timeout is preceded by four beats of the same heartbeat round, which make a round trip.
   The start of a cluster (`Spec/Boot`, `Proof/Boot/*`): every follower goes through nine stages, from knowing no leader over the Prepare and the
   Promise on the way to the AcceptSync taken in (`Local`, `Cand`, `Pair`, `Sys`, `Whole`), from which nothing goes back; each beat moves those that
   wait for a message (`Run`, `Pulse`). In the last stage steady operation has begun (`Starts.sys`).
   The order of entries (`Spec/Order`, `Proof/Steady/Order`): labels for the leader's entries, such that those of a follower and what it has forwarded make up what was
   appended there; which entries an action moves follows from `Counted` and from what grows and shrinks at the ends (`Moves`).
   Silent servers (`Spec/Silent`, `Proof/Silent/*`): to the others the run looks like one in which the silent servers stay up and do nothing (`Ghost`), which is a
   calm run; of the ten stages those are passed that need no action of the silent servers (`Stage`), and the rest suffices for the decided index of the leader.
   A silent leader (`Spec/Oust`, `Proof/Oust/*`): what an election timeout makes of a component whose ballots and replies are `n` and below or those of the candidates for the next
   ballot (`Local`); what the replies of the present round of a server say about others (`Since`); no ballot in Sequence Paxos is ahead of the elections (`Step`, with the provenance
   framework of `Proof/Validity`); the invariant (`Inv`); eight stages, each passed by every server at its next election timeout, after which nothing changes any more (`Run`).
   Then the promises: what leaves the promise, leadership and peers of a server alone (`Still`), that a new leader has a Prepare for every peer waiting or on its way until it is
   promised (`Calls`, `Herald`), and that it is delivered within two beats (`Promised`).
   Then the Accept phase: a server that has promised the greatest ballot `W` keeps its promise message ready and asks for no other Prepare (`Firm`); the leader of `W` forgets no
   promise and has not yet enough of them (`Ahead`); where the promise of a server is, in terms of the link, what waits to be sent and what the leader holds (`Bid`, which takes from the safety
   invariant that nobody sends accept messages of `W` before its leader has been prepared); two beats later it has arrived (`Prepared`).
   Then the followers: a leader that has the promise of a server in hand has an AcceptSync for it as soon as it is prepared (`Admit`); where promise and AcceptSync are on their way there and back
   (`Road`), and that four beats are enough for both (`Synced`).
6. Refinement between the two storages (`Proof/Persistent`; in whole runs `Proof/{Chain,StorageRun}`: the invariant
   of 3. records that every write call respects the log bounds as long as there is no StopSign) and between encoder and decoder caches (`Proof/UniCache`, `Proof/UniWire`, `Proof/UniEntry`), or between the encoder and an ideal one (`Proof/UniPolicy`, `Proof/UniRecent`, `Proof/UniOnce`).
7. Counterexamples (`Props/Witness`, parts of the other files): concrete runs of the model evaluated by the kernel.

The property theorems are in `Props/*`, nothing else is (besides examples that show the hypotheses to be satisfiable):
`Basics` (C21-C23), `Election` (C25, C26, C34), `Takeover` (C26), `Api` (C09, C24, C28, C30, C33, C45), `Server` (C07, C11, C34-C37), `Compaction` (C13,
C14, C15, C17), `SyncSnapshot` (C16), `SnapshotRun` (C41), `Propose` (C20, C29, C43), `Agreement` (C01, C02, C04, C05, C09, C10, C12, C31, C32, C37, C38), `Network` (C03,
C08, C31, C32, C37), `Decided` (C06, C17), `Panic` (C39, C40, C44), `Progress` (C46), `CatchUp` (C47), `Reconnect` (C49), `Convergence`
(C48), `Links` (C50), `Storage` (C18, C19), `StorageRun` (C51), `Resend` (C21, C52), `Follow` (C53), `KV` (C54), `UI` (C55-C57), `Service` (C58, C59), `Routing` (C60, C61), `Matching` (C62), `Once` (C63), `RealTime` (C84), `Counters` (C64), `Reconfigure` (C65), `Example` (C66-C68), `Steady` (C69, C70), `Starve`, `Load` (C71), `Held` (C72), `Recover` (C73), `Beats` (C74), `Tempo` (C75), `Boot` (C76), `Silent` (C77), `Order` (C78), `Oust` (C79), `UniCache` (C27, C42), `UniWire` (C80), `UniPolicy` (C81-C83), `Macro` (C85), `Errors` (C86), `Trim` (C87-C89), `Witness` (negations).

## Per property

| id | result |
|---|---|
| C01 | tidy runs; negations without (1) (F1), and with duplicated or reordered AcceptSyncs (F2) |
| C02 | tidy runs; negation (F1) |
| C03 | proved, arbitrary network |
| C04 | tidy runs; negation (F1) |
| C05 | tidy runs without StopSign; negation with one (F5) |
| C06 | false (F3); in tidy runs only an AcceptSync with a smaller index moves it back; proved locally for every other call |
| C07 | proved |
| C08 | proved, arbitrary network |
| C09 | local half proved (all answers of `append`); cluster half tidy runs; false otherwise (F1, `C09_false_merged_acceptdecide`) |
| C10 | agreement tidy runs; stability false (F5) |
| C11 | proved |
| C12 | tidy runs; negation (F1) |
| C13, C14, C15 | proved |
| C16 | proved without delta snapshots (for consistent sender and receiver); false with them (F4) |
| C17 | proved for consistent states; tidy runs reach only such without StopSign; negation with one (F5) |
| C18, C19 | proved for in-bounds use |
| C20 | proved |
| C21 | proved for positive timeouts; `validate` admits a flush timeout of 0, which never fires |
| C22, C23, C24, C25 | proved |
| C26 | exact condition of a takeover, also in runs with the quorum of the configuration; two ways around the full claim (negations) |
| C27, C28, C29, C30 | proved |
| C31 | proved, arbitrary network (distinct node ids) |
| C32 | tidy runs in full; on arbitrary networks up to what was acknowledged to the leader; negation (F1) |
| C33, C34 | proved |
| C35 | monotone; bound by the decided index false (F6) |
| C36 | non-empty ranges; negation for empty ones (F12) |
| C37 | proved, arbitrary network |
| C38 | tidy runs; false otherwise (F1, `C38_false_merged_acceptdecide`) |
| C39 | false (F7, F3, F28); proved on arbitrary networks for runs without compaction and without snapshots in log synchronisation; in all runs, which messages can panic and for Prepare and AcceptSync exactly when |
| C40 | proved for pids 1..n; false for gapped pids (F8) |
| C41 | false (F11); proved for tidy runs without trim, reconfiguration and snapshots in log synchronisation |
| C42 | false in five ways (F10, F13, F14); proved for the remaining cases, also with the cache serialised and deserialised on the way |
| C43 | proved |
| C44 | false with a pid 0 (F9); otherwise proved in all runs on arbitrary networks, with compaction |
| C45 | proved |
| C46 | no compaction, no snapshots in log synchronisation; tidy runs without reconfiguration |
| C47 | false (F15, F16) |
| C48 | proved of the election components (majority quorums, synchronous rounds, full connectivity) |
| C49 | no compaction, no snapshots in log synchronisation; tidy runs without reconfiguration, nothing else on the way |
| C50 | proved of the election components (flexible quorums, synchronous rounds, any fixed symmetric links with a quorum-connected server) |
| C51 | tidy runs without reconfiguration; false with it (F17). One write per call: all tidy runs |
| C52, C53 | proved, every server state |
| C54 | snapshot laws proved; store: tidy runs, up to what is compacted; false otherwise (F18) |
| C55 | all but the role, arbitrary network; the role lags by one tick (F19) |
| C56 | exact condition of a panic, arbitrary network; false (F20) |
| C57 | proved |
| C58 | every generation a tidy run, messages kept apart by generation; false otherwise (F1, `C58_false_merged_acceptdecide`) |
| C59 | false of log replication (F21); proved of heartbeats between configurations with different ids |
| C60 | arbitrary network; only PrepareReqs may leave the configuration, and only to pids with which the user has called `reconnected` |
| C61 | arbitrary network |
| C62 | tidy runs; negation (F1) |
| C63 | tidy runs that do not duplicate ProposalForwards; false otherwise (F22) |
| C64 | proved, arbitrary network |
| C65 | false (F23); partial: a lost AcceptStopSign is repeated, accepted and answered, and the answer lets the leader decide |
| C66 | proved, all schedules and calls; absence of panics for entry types without snapshots, as long as `main` does not compact the log; false with snapshots in log synchronisation (F28) |
| C67 | proved if the first read finds both entries decided; false otherwise (F24) |
| C68 | false (F25); partial: no task waits before as many messages have been sent as one channel holds |
| C69 | proved, from every settled state; the runs have no crashes, losses, reconnections, compaction, reconfiguration, nor ticks that elect |
| C70 | proved, for at least ten rounds without appends; `C70_not_nine_rounds` shows that ten is the least number |
| C71 | accept quorums of at most two: proved, ten rounds; false for larger ones (F26), but stored everywhere after six rounds |
| C72 | entries: proved, arbitrary network; StopSign at a follower: false (F27) |
| C73 | no compaction, no snapshots in log synchronisation; tidy runs without reconfiguration, as C46 |
| C74 | proved, from every settled state in which everybody follows the leader; runs as C69, without `set_priority` (it changes the ballot the leader announces); false if the heartbeats are late (`C74_not_late`) |
| C75 | leadership, decisions after the load and storing under load: proved; decisions under load: accept quorums of two, false of larger ones (F26). Election timeouts of five ticks are needed (`C75_not_four`) |
| C76 | proved, for first starts with no snapshots in log synchronisation, election timeouts of at least five ticks and resend timeouts seven ticks longer than the leader's; runs in beats as C75. With four ticks all servers can be leaders at once (`C76_not_four`). The default election timeout in the code is one tick (util.rs 341): then a round trip has to be over within a tick, and a beat is a fifth of one; a flush timeout of zero ticks never fires and is not rejected by `validate` |
| C77 | proved, for servers that fall silent at the boundary between two beats, from steady operation as C75. What they had handed over before is still delivered, in the order of sending; what they do afterwards is arbitrary. Not claimed: servers that come back and send again |
| C78 | proved, for steady operation as C69 and beats as C75; at a change of leader the order is lost (`C78_false_leader_change`) |
| C79 | proved: which ballot the election components follow, and that all servers which are left promise it in Sequence Paxos, and that the new leader gets these promises and steps into the Accept phase, and that all of them take over a log in its ballot, with everything that any server had decided before the silence; not that it decides. The servers that are left are assumed to run at the end (which panics are possible in runs from the start of a cluster: C39, C44) |
| C80 | proved for the cache of one field; the format is assumed to represent the keys and values (JSON refuses map keys that are no strings or numbers). A *clone* of an LFU cache is another matter (F10) |
| C81 | proved; the functions of `LFUCache` that nothing calls (`remove`, `get_mut`, `contains`, `is_empty`) are not modelled |
| C82 | proved, with the crate `lru` modelled by a list |
| C83 | proved, for both policies |
| C84 | tidy runs, as C01; duplicated ProposalForwards allowed; false otherwise (F1, `C84_false_merged_acceptdecide`) |
| C85 | false for the cache policy (F29); which structs are accepted, what each field becomes, and exactly when that is what the documentation says: proved; the generated encoder and decoder, which access the fields by name, agree on all fields whatever the annotations are |
| C86 | loading: proved; the causes of an error end if and only if it is not an invalid configuration (F30) |
| C87 | false (F31); what `NotAllDecided` says, exactly when trying again succeeds, which indices can be trimmed and what `None` trims: proved for every consistent state |
| C88 | false (F26); proved for the index of the report just handled, arbitrary network |
| C89 | the outcome is proved for every consistent state; `TrimmedIndex` is never returned (F32) |

## Findings (disagreements between code and property), each confirmed by a theorem

* F1 `AcceptDecide` merging: a leader that handles a re-sent Promise while an `AcceptDecide` to that follower is still in its
  outgoing buffer keeps merging new entries into the old-session message (`send_accsync` does not reset `latest_accept_meta`);
  the follower misses them and agreement breaks. `C01_false_merged_acceptdecide` (also C02, C04, C09, C12, C32, C38, C58, C62, C84). This takes a silently lost
  AcceptSync: over a dependable link the follower ignores the second AcceptSync instead (example in Props/Agreement).
* F2 A duplicated/reordered `AcceptSync` of the same ballot truncates acknowledged entries.
  `C01_false_duplicated_acceptsync`, `C01_false_reordered_acceptsync`.
* F3 `sync_log` overwrites the decided index with the leader's, which may be smaller. `C06_false_sync`.
* F4 `sync_log` overwrites the decided index before building the local part of a delta snapshot. `C16_false_delta`.
* F5 `accepted_idx` counts the StopSign twice after a synchronisation whose sync index already includes it.
  `C05_false_stopsign`, `C10_false_stability`, `C17_false_stopsign`.
* F6 a snapshot-bearing promise that is reset by a `PrepareReq` still provides the log but not the decided index
  (compacted index > decided index). `C35_false_bound`.
* F7 trim is allowed up to the index *accepted* by all; a later Prepare from a server with a smaller decided index makes the
  receiver panic. `C39_false_prepare_after_trim`. The same happens without trim when a server makes a snapshot and F3 then takes
  its decided index back behind the snapshot: `C39_false_prepare_after_snapshot`.
* F8 non-contiguous pids: unused slots of `accepted_indexes` stay 0, so trim never succeeds. `C40_false_gapped_pids`.
* F9 `validate` accepts duplicate node ids, node id 0 (a leader with a peer 0 panics on its next resend), and `flush_batch_tick_timeout = 0`
  (`C21_false_flush_timeout_zero`). (Duplicates are harmless for quorum intersection, C22, but a quorum then counts fewer
  distinct servers than its size; C31 and C32 assume distinct ids.)
* F10 LFU clone loses frequencies; a follower promoted to leader has an encoder of capacity 1. `C42_false_lfu_late_sync`,
  `C42_false_promoted_lru`, `C42_false_promoted_lfu`.
* F11 trim after snapshot leaves a stale snapshot that is reported for the larger compacted index.
  `C41_false_trim_after_snapshot`.
* F12 reads with empty or inverted ranges hit `unimplemented!`. `C36_false_empty_range`.
* F13 `AcceptSync` clones the leader's UniCache although entries already encoded may wait in the leader's batch: the follower
  decodes wrong entries silently. `C42_false_sync_with_batch`.
* F14 the deserialised `LruWrapper` has the size hint as capacity: formats that give exact sizes panic or evict wrongly,
  formats without hints cap at 255. `C42_false_sized_format`, `C42_false_unsized_format`.
* F15 a server that elects itself at its first start, persists the promise for its own ballot and crashes before anybody hears of
  it comes back with that ballot as the leader it knows and a smaller own one. If the others have meanwhile elected somebody with
  a smaller ballot, it rejects their messages for ever, the leader ignores its `PrepareReq`s, which carry the
  larger ballot, and all are happy, so no takeover happens: it never catches up although nothing fails. `C47_false_locked_out`.
* F16 a leader resends neither `AcceptDecide` nor `Decide` messages, heartbeats carry no decided index, and a follower in the accept
  phase asks for nothing: if the last `Decide` of a link is lost and the user does not call `reconnected`, the follower never learns
  of the decision unless another proposal comes. No crash is needed. `C47_false_lost_decide`.
* F17 a follower that holds the StopSign and is synchronised again (as in F5) calls `append_on_prefix` with an index one behind its
  last entry. `MemoryStorage` does not notice; `PersistentStorage` sets `next_log_key` to it, so that until it is opened again its
  log length is one too large and `get_suffix` returns an error, with which the server panics when it has to send its log.
  `C51_false_stopsign`.
* F18 the loops of `examples/kv_store/src/main.rs` over `read_decided_suffix(0)` handle `Decided` entries only: a server that got the
  decided commands as a snapshot (its type says `use_snapshots() = true`) shows an empty store. `C54_false_snapshot`.
* F19 the dashboard updates the role (and a leader's progress bars) before the leader, so they are those of the tick before.
  `C55_false_role`. (Also: `utils/ui.rs` documents the heartbeats as including the node itself; they do not.)
* F20 a tick of the dashboard panics when the decided index goes back (F3; in a release build the throughput wraps around instead) and
  when a follower is recorded ahead of its leader (F5), because `Gauge::ratio` rejects ratios above 1. `C56_false_decided`, `C56_false_progress`.
* F21 messages of log replication are not checked for the configuration they belong to (only heartbeat replies are, by the
  `config_id` in their ballot). If a Prepare and an AcceptSync of the previous configuration reach the new instance of a server, it
  replaces what it has decided by the old log. The documentation does not say that the user has to keep the messages apart.
  `C59_false_stray_messages`. (`reconfigure` does not compare the new `configuration_id` with the present one either.)
* F22 a forwarded proposal carries no identity: if the network duplicates a `ProposalForward`, the entry is put into the log and
  decided twice although it was handed in once. `C63_false_duplicated`. (All other messages may be duplicated in these runs.)
* F23 a repeated `AcceptStopSign` carries the number of the first one (leader.rs 223-238), so a follower that has accepted the
  StopSign takes it for an old message and does not answer (follower.rs 229-238, util.rs 382-390). If the `Accepted` messages for the
  StopSign are lost, the leader repeats `AcceptStopSign` at every resend timeout and never decides it, although all servers have
  accepted it and every later message gets through; and since nothing can be appended behind a StopSign, the cluster makes no
  progress until a leader is lost or `reconnected` is called. No crash is needed. `C65_false_lost_accepted`.
* F24 `main` of the key-value application reads the first two entries after a fixed time and continues at position 2, whatever it got
  (kv_store main.rs 119-161). If only one was decided by then, the other one is never put into the store. `C67_false_early`.
* F25 a task of the example applications that waits in `channel.send(msg).await` does not receive. Two tasks with full channels
  that send to each other wait for ever (until one is aborted), for every capacity of the channels. With the 10000 messages of
  the code this takes a task that is not scheduled for a long time. `C68_false_deadlock`.
* F26 `handle_accepted` asks only whether the index just received is chosen (leader.rs 329-332), not whether a smaller one has become
  chosen by it. With an accept quorum of three or more and a continuing load, the followers can keep reporting different indices, each
  ahead of the others', and the leader never decides anything, although nothing is lost, all messages arrive within a round and all
  servers have long accepted the entries. Decisions resume as soon as the load pauses (C70). `C71_false_starvation`.
* F27 a follower that took in a StopSign while it knew no leader does not pass it on when it joins one (follower.rs 60-62 forwards the
  entries only). `reconfigure` has returned Ok, and nothing happens until this server is elected itself. `C72_false_stopsign`.
* F28 with an entry type whose snapshots are used in log synchronisation (that of the key-value example), a server is brought down by a Prepare
  although nobody calls `trim` or `snapshot` and no message is lost or reordered: it is synchronised with a snapshot by one leader, F3 takes its decided
  index back behind that snapshot when the next leader synchronises it, and a third server asks for its log from the beginning. Takes five servers.
  `C39_false_without_compaction`, `C66_false_stays_up`.
* F29 `derive(UniCacheEntry)`: the variable `cache_type` is declared outside the loop over the fields (lib.rs 71, 132), so `cache(lfu)` on one
  field becomes the default of all following ones up to the next that names a policy; the documentation says the default is LRU.
  The generated encoder and decoder still agree. `C85_false_default`.
* F30 `source()` of `ConfigError::InvalidConfig` is the error itself (errors.rs 39), so that whoever prints an error with its causes, as the usual
  error reporters do, never comes to an end. `C86_false_chain`.
* F31 `trim` compares with the smallest *accepted* index and calls it decided (mod.rs 145-157). The documentation says that all servers must have
  decided the trimmed index: a server that has only accepted it does not stop a trim (`C87_false_decided`; this leads to F7). It also says that after
  `NotAllDecided(idx)` a `trim(Some(idx))` succeeds: the leader may not have decided `idx` itself, although all servers reported to have
  accepted it (because of F26, from five servers on), and then it fails with `UndecidedIndex` (`C87_false_retry`, `C88_false_spread`).
  For the same reason `trim(None)`, said to use the highest index that can be trimmed, fails where `trim(Some(idx))` with a smaller index works (`C87_false_none`).
  `NotCurrentLeader` names the server that was promised to, which is 0 as long as none is known (`C87_false_leader`).
* F32 `snapshot` with an index that is already compacted returns Ok and does nothing (internal_storage.rs 443); the documented error `TrimmedIndex`
  (omni_paxos.rs 454-455) would come from `create_snapshot` (369-371), which is not reached then. `C89_false_trimmed_index`.

Smaller observations, not tied to a property: `Ballot`'s order ignores `config_id` while equality does not
(`C23_false_across_configurations`); duplicated heartbeat replies are counted twice (`C26_false_duplicated_reply`); a
StopSign buffered at a preparing leader is overwritten by a forwarded one; a leader can raise its own
ballot through `sync_with_promise` (second way to change the ballot beside a takeover); the
dashboard's `throughput_data` is never shortened (`C57_throughput`); two entries appended one after the other at one server can be decided
in the other order if the leader changes in between, also on links that keep the order (`C78_false_leader_change`).

## Mutation testing

`seeded/LOG.jsonl`: one line per deliberate error put into a scratch copy of the model. For each, all proofs that fail are
removed in turn (to see past the first failure) and the property theorems that depend on a removed proof are listed in
`failed`. A proof that fails does not by itself show that the statement became false; a claimed property whose theorems all
still prove does show that the statement does not cover the error, and was then either judged outside the English claim
(`note`) or tightened (`tightened`).
