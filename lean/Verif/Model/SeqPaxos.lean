import Verif.Model.Leader
/-
SequencePaxos: /repo/omnipaxos/src/sequence_paxos/{mod.rs, leader.rs, follower.rs}.

`outgoing` holds only `Message::SequencePaxos(..)` in the code; here it is a list of `PaxosMessage`.
-/
namespace Omni

variable {E S : Type}

/-- mod.rs 443-447. -/
inductive Role where
  | follower | leader
deriving DecidableEq, Repr

/-- mod.rs 435-441. -/
inductive Phase where
  | prepare | accept | recover | none
deriving DecidableEq, Repr

/-- mod.rs 25-44. -/
structure SP (E S : Type) where
  ist : IStore E S
  pid : NodeId
  peers : List NodeId
  role : Role
  phase : Phase
  buffered_proposals : List E
  buffered_stopsign : Option StopSign
  outgoing : List (PaxosMessage E S)
  ls : LeaderState E S
  latest_accepted_meta : Option (Ballot × Nat)
  current_seq_num : SeqNum
  cached_promise : Option (Promise E S)
deriving DecidableEq, Repr

namespace SP

/-- Call a method of the internal storage. -/
def onStore {α : Type} (m : M (IStore E S) α) : M (SP E S) α := fun s =>
  match m s.ist with
  | .ok a i => .ok a { s with ist := i }
  | .panic i => .panic { s with ist := i }

/-- Call a method of the leader state that returns nothing. -/
def onLS (f : LeaderState E S → Pan (LeaderState E S)) : M (SP E S) Unit := do
  let s ← M.get
  let ls ← M.ofPan (f s.ls)
  M.upd fun s => { s with ls := ls }

/-- Call a method of the leader state that returns a value. -/
def onLS' {α : Type} (f : LeaderState E S → Pan (LeaderState E S × α)) : M (SP E S) α := do
  let s ← M.get
  let r ← M.ofPan (f s.ls)
  M.upd fun s => { s with ls := r.1 }
  pure r.2

/-- `self.outgoing.push(Message::SequencePaxos(PaxosMessage { from: self.pid, to, msg }))`. -/
def send (to : NodeId) (msg : PaxosMsg E S) : M (SP E S) Unit :=
  M.upd fun s => { s with outgoing := s.outgoing ++ [{ src := s.pid, dst := to, msg }] }

/-- `self.state = (role, phase)`. -/
def setState (r : Role) (p : Phase) : M (SP E S) Unit := M.upd fun s => { s with role := r, phase := p }

/-! ### mod.rs -/

/-- `max(max_peer_pid, pid)` of mod.rs 58-59; `peers` empty panics. -/
def maxPid (pid : NodeId) : List NodeId → Pan Nat
  | [] => none
  | p :: ps => some (max (ps.foldl max p) pid)

/-- `SequencePaxosConfig::from`, mod.rs 470-490, and BLEConfig::from (ballot_leader_election.rs 331-336): the peers. -/
def peersOf (nodes : List NodeId) (pid : NodeId) : List NodeId := nodes.filter (fun x => decide (x ≠ pid))

/-- mod.rs 53-128. -/
def «with» (pid : NodeId) (peers : List NodeId) (batch_size : Nat) (fq : Option FlexibleQuorum) (storage : Mem E S) :
    Pan (SP E S) :=
  match maxPid pid peers with
  | none => none
  | some max_pid =>
    let quorum := Quorum.with fq (peers.length + 1)
    let leader := storage.n_prom.getD {}
    let ist := IStore.with storage batch_size
    let m := storage.set_promise leader
    some
      { ist := { ist with
          storage := m
          cache := { ist.cache with promise := leader }
          trail := [m]
          calls := [.one (.setPromise leader)] }
        pid
        peers
        role := .follower
        phase := if storage.n_prom.isSome then .recover else .none
        buffered_proposals := []
        buffered_stopsign := none
        outgoing := match storage.n_prom with
          | some b => peers.map fun p => { src := pid, dst := p, msg := .prepareReq b }
          | none => []
        ls := LeaderState.with leader max_pid quorum
        latest_accepted_meta := none
        current_seq_num := {}
        cached_promise := none }

/-- mod.rs 134-136. -/
def get_promise (s : SP E S) : Ballot := s.ist.cache.promise

/-- mod.rs 332-334. -/
def get_current_leader (s : SP E S) : NodeId := s.get_promise.pid

/-- mod.rs 285-290. -/
def is_reconfigured (s : SP E S) : Option StopSign :=
  match s.ist.cache.stopsign with
  | some ss => if s.ist.cache.stopsign_is_decided then some ss else none
  | none => none

/-- mod.rs 293-295. -/
def accepted_reconfiguration (s : SP E S) : Bool := s.ist.cache.stopsign.isSome

/-- mod.rs 251-260: returns the new contents of the user's buffer. -/
def take_outgoing_msgs (s : SP E S) (buffer : List (Message E S)) : List (Message E S) × SP E S :=
  (if buffer.isEmpty then s.outgoing.map .paxos else buffer ++ s.outgoing.map .paxos,
   { s with outgoing := [], ls := s.ls.reset_latest_accept_meta, latest_accepted_meta := none })

/-- mod.rs 338-352. -/
def reconnected (pid : NodeId) : M (SP E S) Unit := do
  let s ← M.get
  if pid = s.pid then pure ()
  else do
    M.whenDo (pid = s.get_current_leader) (setState .follower .recover)
    send pid (.prepareReq s.get_promise)

/-- mod.rs 366-379. -/
def forward_proposals (es : List E) : M (SP E S) Unit := do
  let s ← M.get
  if s.get_current_leader > 0 ∧ s.pid ≠ s.get_current_leader then
    send s.get_current_leader (.proposalForward es)
  else M.upd fun s => { s with buffered_proposals := s.buffered_proposals ++ es }

/-- mod.rs 381-396. -/
def forward_stopsign (ss : StopSign) : M (SP E S) Unit := do
  let s ← M.get
  if s.get_current_leader > 0 ∧ s.pid ≠ s.get_current_leader then
    send s.get_current_leader (.forwardStopSign ss)
  else if s.buffered_stopsign.isNone then M.upd fun s => { s with buffered_stopsign := some ss }
  else pure ()

/-- mod.rs 400-432. -/
def create_log_sync [SnapOps E S] (s : SP E S) (common_prefix_idx other_logs_decided_idx : Nat) :
    Pan (LogSync E S) :=
  let decided_idx := s.ist.cache.decided_idx
  if SnapOps.use_snapshots E S = true ∧ decided_idx > common_prefix_idx then
    match s.ist.create_diff_snapshot other_logs_decided_idx with
    | none => none
    | some (snap, compacted_idx) => match s.ist.storage.get_suffix decided_idx with
      | none => none
      | some suffix => some
          { decided_snapshot := snap, suffix, sync_idx := compacted_idx, stopsign := s.ist.cache.stopsign }
  else match s.ist.storage.get_suffix common_prefix_idx with
    | none => none
    | some suffix => some
        { decided_snapshot := none, suffix, sync_idx := common_prefix_idx, stopsign := s.ist.cache.stopsign }

/-- mod.rs 141-178. -/
def trim (trim_idx : Option Nat) : M (SP E S) (Except CompactionErr Unit) := do
  let s ← M.get
  if s.role = .leader then do
    let min_all ← M.ofPan s.ls.get_min_all_accepted_idx
    let idx := trim_idx.getD min_all
    if idx ≤ min_all then do
      let r ← onStore (IStore.try_trim idx)
      match r with
      | .ok () => do
        M.forEach s.peers fun p => send p (.compaction (.trim idx))
        pure (.ok ())
      | .error e => pure (.error e)
    else pure (.error (.notAllDecided min_all))
  else pure (.error (.notCurrentLeader s.get_current_leader))

/-- mod.rs 184-205. -/
def snapshot [SnapOps E S] (idx : Option Nat) (local_only : Bool) : M (SP E S) (Except CompactionErr Unit) := do
  let s ← M.get
  let r ← onStore (IStore.try_snapshot idx)
  match r with
  | .ok () => do
    M.whenDo (local_only = false) (M.forEach s.peers fun p => send p (.compaction (.snapshot idx)))
    pure (.ok ())
  | .error e => pure (.error e)

/-- mod.rs 217-227. -/
def handle_compaction [SnapOps E S] (c : Compaction) : M (SP E S) Unit :=
  match c with
  | .trim idx => do
    let _ ← onStore (IStore.try_trim idx)
    pure ()
  | .snapshot idx => do
    let _ ← snapshot idx true
    pure ()

/-! ### leader.rs -/

/-- leader.rs 97-109. -/
def send_prepare (to : NodeId) : M (SP E S) Unit := do
  let s ← M.get
  send to (.prepare
    { n := s.ls.n_leader, decided_idx := s.ist.cache.decided_idx, n_accepted := s.ist.cache.accepted_round,
      accepted_idx := s.ist.cache.accepted_idx })

/-- leader.rs 16-60. -/
def handle_leader (n : Ballot) : M (SP E S) Unit := do
  let s ← M.get
  if n ≤ s.ls.n_leader ∨ n ≤ s.get_promise then pure ()
  else if s.pid = n.pid then do
    M.upd fun s => { s with ls := LeaderState.with n s.ls.max_pid s.ls.quorum }
    let _ ← onStore IStore.flush_batch
    onStore (IStore.set_promise n)
    let s ← M.get
    let my_promise : Promise E S :=
      { n, n_accepted := s.ist.cache.accepted_round, decided_idx := s.ist.cache.decided_idx,
        accepted_idx := s.ist.cache.accepted_idx, log_sync := none }
    let _ ← onLS' fun ls => ls.set_promise my_promise s.pid true
    setState .leader .prepare
    M.forEach s.peers fun p => send p (.prepare
      { n, decided_idx := s.ist.cache.decided_idx, n_accepted := s.ist.cache.accepted_round,
        accepted_idx := s.ist.cache.accepted_idx })
  else M.upd fun s => { s with role := .follower }

/-- leader.rs 66-74. -/
def handle_preparereq (n : Ballot) (frm : NodeId) : M (SP E S) Unit := do
  let s ← M.get
  if s.role = .leader ∧ n ≤ s.ls.n_leader then do
    onLS fun ls => ls.reset_promise frm
    onLS fun ls => ls.set_latest_accept_meta frm none
    send_prepare frm
  else pure ()

/-- leader.rs 347-363 together with the in-place modification of the message found: if the cached index for `to` refers to
an AcceptDecide of the current ballot, that message (at the returned position in `outgoing`). -/
def get_latest_accdec (s : SP E S) (to : NodeId) : Pan (Option (Nat × AcceptDecide E)) :=
  match s.ls.get_latest_accept_meta to with
  | none => none
  | some none => some none
  | some (some (bal, idx)) =>
    if bal = s.ls.n_leader then
      match s.outgoing[idx]? with
      | none => none
      | some m => match m.msg with
        | .acceptDecide a => some (some (idx, a))
        | _ => some none
    else some none

/-- Overwrite the message at position `idx` of `outgoing`. -/
def setMsg (idx : Nat) (msg : PaxosMsg E S) : M (SP E S) Unit :=
  M.upd fun s => { s with outgoing := s.outgoing.modify idx fun m => { m with msg } }

/-- leader.rs 195-220: body of the loop of `send_acceptdecide`. -/
def send_acceptdecide_to (es : List E) (pid : NodeId) : M (SP E S) Unit := do
  let s ← M.get
  let latest ← M.ofPan (s.get_latest_accdec pid)
  match latest with
  | some (idx, acc) =>
    setMsg idx (.acceptDecide { acc with entries := acc.entries ++ es, decided_idx := s.ist.cache.decided_idx })
  | none => do
    onLS fun ls => ls.set_latest_accept_meta pid (some s.outgoing.length)
    let q ← onLS' fun ls => ls.next_seq_num pid
    send pid (.acceptDecide
      { n := s.ls.n_leader, seq_num := q, decided_idx := s.ist.cache.decided_idx, entries := es })

/-- leader.rs 193-221. -/
def send_acceptdecide (es : List E) : M (SP E S) Unit := do
  let s ← M.get
  M.forEach s.ls.get_promised_followers (send_acceptdecide_to es)

/-- leader.rs 116-120, 128-132, 410-414: what the leader does with a flushed batch. -/
def accepted_leader (md : Option (AcceptedMetaData E)) : M (SP E S) Unit :=
  match md with
  | some md => do
    let s ← M.get
    onLS fun ls => ls.set_accepted_idx s.pid md.accepted_idx
    send_acceptdecide md.entries
  | none => pure ()

/-- leader.rs 111-121. -/
def accept_entry_leader (e : E) : M (SP E S) Unit := do
  let md ← onStore (IStore.append_entry_with_batching e)
  accepted_leader md

/-- leader.rs 123-133. -/
def accept_entries_leader (es : List E) : M (SP E S) Unit := do
  let md ← onStore (IStore.append_entries_with_batching es)
  accepted_leader md

/-- leader.rs 224-227 and 241-244: a resend repeats the current sequence number. -/
def seqNumFor (to : NodeId) (resend : Bool) : M (SP E S) SeqNum :=
  if resend then onLS' (fun ls => (ls.get_seq_num to).map fun q => (ls, q))
  else onLS' fun ls => ls.next_seq_num to

/-- leader.rs 223-238. -/
def send_accept_stopsign (to : NodeId) (ss : StopSign) (resend : Bool) : M (SP E S) Unit := do
  let q ← seqNumFor to resend
  let s ← M.get
  send to (.acceptStopSign { n := s.ls.n_leader, seq_num := q, ss })

/-- leader.rs 240-255. -/
def send_decide (to : NodeId) (decided_idx : Nat) (resend : Bool) : M (SP E S) Unit := do
  let q ← seqNumFor to resend
  let s ← M.get
  send to (.decide { n := s.ls.n_leader, seq_num := q, decided_idx })

/-- leader.rs 137-139. -/
def send_flushed (md : Option (AcceptedMetaData E)) : M (SP E S) Unit :=
  match md with
  | some md => send_acceptdecide md.entries
  | none => pure ()

/-- leader.rs 135-148. -/
def accept_stopsign_leader (ss : StopSign) : M (SP E S) Unit := do
  let md ← onStore (IStore.append_stopsign ss)
  send_flushed md
  let s ← M.get
  onLS fun ls => ls.set_accepted_idx s.pid s.ist.cache.accepted_idx
  M.forEach s.ls.get_promised_followers fun p => send_accept_stopsign p ss false

/-- leader.rs 163-174: from which index the follower's log has to be synchronised, given the follower's promise metadata,
and its decided index. -/
def sync_indexes (ls : LeaderState E S) (to : NodeId) : Pan (Nat × Nat) :=
  match ls.get_promise_meta to with
  | none => none
  | some fm => match ls.get_decided_idx fm.pid with
    | none => none
    | some none => none
    | some (some followers_decided_idx) =>
      let valid :=
        if fm.n_accepted = ls.n_leader then fm.accepted_idx
        else if fm.n_accepted = ls.max_promise_meta.n_accepted then
          min ls.max_promise_meta.accepted_idx fm.accepted_idx
        else followers_decided_idx
      some (valid, followers_decided_idx)

/-- leader.rs 150-191. -/
def send_accsync [SnapOps E S] (to : NodeId) : M (SP E S) Unit := do
  let s ← M.get
  let r ← M.ofPan (sync_indexes s.ls to)
  let log_sync ← M.ofPan (s.create_log_sync r.1 r.2)
  onLS fun ls => ls.increment_seq_num_session to
  let q ← onLS' fun ls => ls.next_seq_num to
  send to (.acceptSync
    { n := s.ls.n_leader, seq_num := q, decided_idx := s.ist.cache.decided_idx, log_sync })

/-- leader.rs 265-271: append the proposals buffered during the Prepare phase; returns the accepted index. -/
def append_buffered_proposals (new_accepted_idx : Nat) : M (SP E S) Nat := do
  let s ← M.get
  if s.buffered_proposals.isEmpty then pure new_accepted_idx
  else do
    M.upd fun s => { s with buffered_proposals := [] }
    onStore (IStore.append_entries_without_batching s.buffered_proposals)

/-- leader.rs 272-277: append the buffered stop sign. -/
def append_buffered_stopsign (new_accepted_idx : Nat) : M (SP E S) Nat := do
  let s ← M.get
  match s.buffered_stopsign with
  | some ss => do
    M.upd fun s => { s with buffered_stopsign := none }
    let _ ← onStore (IStore.append_stopsign ss)
    let s ← M.get
    pure s.ist.cache.accepted_idx
  | none => pure new_accepted_idx

/-- leader.rs 264-278: append what was buffered during the Prepare phase; returns the accepted index. -/
def append_buffered (new_accepted_idx : Nat) : M (SP E S) Nat := do
  let s ← M.get
  if s.accepted_reconfiguration then pure new_accepted_idx
  else do
    let idx ← append_buffered_proposals new_accepted_idx
    append_buffered_stopsign idx

/-- leader.rs 257-285. -/
def handle_majority_promises [SnapOps E S] : M (SP E S) Unit := do
  let s ← M.get
  M.upd fun s => { s with ls := { s.ls with max_promise_sync := none } }
  let a ← onStore (IStore.sync_log s.ls.n_leader s.ls.get_max_decided_idx s.ls.max_promise_sync)
  let a ← append_buffered a
  setState .leader .accept
  onLS fun ls => ls.set_accepted_idx s.pid a
  let s ← M.get
  M.forEach s.ls.get_promised_followers send_accsync

/-- leader.rs 287-299. -/
def handle_promise_prepare [SnapOps E S] (prom : Promise E S) (frm : NodeId) : M (SP E S) Unit := do
  let s ← M.get
  if prom.n = s.ls.n_leader then do
    let received_majority ← onLS' fun ls => ls.set_promise prom frm true
    if received_majority then handle_majority_promises else pure ()
  else pure ()

/-- leader.rs 301-314. -/
def handle_promise_accept [SnapOps E S] (prom : Promise E S) (frm : NodeId) : M (SP E S) Unit := do
  let s ← M.get
  if prom.n = s.ls.n_leader then do
    let _ ← onLS' fun ls => ls.set_promise prom frm false
    send_accsync frm
  else pure ()

/-- leader.rs 336-342: body of the loop telling a promised follower about a new decided index. -/
def announce_decided (decided_idx : Nat) (pid : NodeId) : M (SP E S) Unit := do
  let s ← M.get
  let latest ← M.ofPan (s.get_latest_accdec pid)
  match latest with
  | some (idx, acc) => setMsg idx (.acceptDecide { acc with decided_idx })
  | none => send_decide pid decided_idx false

/-- leader.rs 316-345. -/
def handle_accepted (acc : Accepted) (frm : NodeId) : M (SP E S) Unit := do
  let s ← M.get
  if acc.n = s.ls.n_leader ∧ s.role = .leader ∧ s.phase = .accept then do
    onLS fun ls => ls.set_accepted_idx frm acc.accepted_idx
    let s ← M.get
    if acc.accepted_idx > s.ist.cache.decided_idx ∧ s.ls.is_chosen acc.accepted_idx = true then do
      onStore (IStore.set_decided_idx acc.accepted_idx)
      M.forEach s.ls.get_promised_followers (announce_decided acc.accepted_idx)
    else pure ()
  else pure ()

/-- leader.rs 365-369. -/
def handle_notaccepted (n : Ballot) (frm : NodeId) : M (SP E S) Unit := do
  let s ← M.get
  if s.role = .leader ∧ s.ls.n_leader < n then onLS fun ls => ls.lost_promise frm else pure ()

/-- leader.rs 76-84. -/
def handle_forwarded_proposal (es : List E) : M (SP E S) Unit := do
  let s ← M.get
  if s.accepted_reconfiguration then pure ()
  else match s.role, s.phase with
    | .leader, .prepare => M.upd fun s => { s with buffered_proposals := s.buffered_proposals ++ es }
    | .leader, .accept => accept_entries_leader es
    | _, _ => forward_proposals es

/-- leader.rs 86-95. -/
def handle_forwarded_stopsign (ss : StopSign) : M (SP E S) Unit := do
  let s ← M.get
  if s.accepted_reconfiguration then pure ()
  else match s.role, s.phase with
    | .leader, .prepare => M.upd fun s => { s with buffered_stopsign := some ss }
    | .leader, .accept => accept_stopsign_leader ss
    | _, _ => forward_stopsign ss

/-- leader.rs 374-378 and 394-398. -/
def resend_prepare : M (SP E S) Unit := do
  let s ← M.get
  let ps ← M.ofPan (s.ls.get_preparable_peers s.peers)
  M.forEach ps send_prepare

/-- leader.rs 384-392: body of the loop. -/
def resend_stopsign (ss : StopSign) (follower : NodeId) : M (SP E S) Unit := do
  let s ← M.get
  if s.ist.cache.stopsign_is_decided then send_decide follower s.ist.cache.decided_idx true
  else do
    let a ← M.ofPan (s.ls.get_accepted_idx follower)
    if a ≠ s.ist.cache.accepted_idx then send_accept_stopsign follower ss true else pure ()

/-- leader.rs 382-393. -/
def resend_stopsigns : M (SP E S) Unit := do
  let s ← M.get
  match s.ist.cache.stopsign with
  | some ss => M.forEach s.ls.get_promised_followers (resend_stopsign ss)
  | none => pure ()

/-- leader.rs 371-403. -/
def resend_messages_leader : M (SP E S) Unit := do
  let s ← M.get
  match s.phase with
  | .prepare => resend_prepare
  | .accept => do
    resend_stopsigns
    resend_prepare
  | .recover => pure ()
  | .none => pure ()

/-- leader.rs 405-415. -/
def flush_batch_leader : M (SP E S) Unit := do
  let md ← onStore IStore.flush_batch_and_get_entries
  accepted_leader md

/-! ### follower.rs -/

/-- follower.rs 26-36: the log synchronisation a promise carries. -/
def promise_log_sync [SnapOps E S] (s : SP E S) (prep : Prepare) : Pan (Option (LogSync E S)) :=
  let na := s.ist.cache.accepted_round
  let accepted_idx := s.ist.cache.accepted_idx
  if prep.n_accepted < na then (s.create_log_sync prep.decided_idx prep.decided_idx).map some
  else if na = prep.n_accepted ∧ accepted_idx > prep.accepted_idx then
    (s.create_log_sync prep.accepted_idx prep.decided_idx).map some
  else some none

/-- follower.rs 13-51. -/
def handle_prepare [SnapOps E S] (prep : Prepare) (frm : NodeId) : M (SP E S) Unit := do
  let s ← M.get
  if s.get_promise < prep.n ∨ (s.get_promise = prep.n ∧ s.phase = .recover) then do
    let _ ← onStore IStore.flush_batch
    onStore (IStore.set_promise prep.n)
    M.upd fun s => { s with role := .follower, phase := .prepare, current_seq_num := {} }
    let s ← M.get
    let log_sync ← M.ofPan (s.promise_log_sync prep)
    let promise : Promise E S :=
      { n := prep.n, n_accepted := s.ist.cache.accepted_round, decided_idx := s.ist.cache.decided_idx,
        accepted_idx := s.ist.cache.accepted_idx, log_sync }
    M.upd fun s => { s with cached_promise := some promise }
    send frm (.promise promise)
  else pure ()

/-- follower.rs 196-227. -/
def check_valid_ballot (b : Ballot) : M (SP E S) Bool := do
  let s ← M.get
  match s.get_promise.cmp b with
  | .eq => pure true
  | .gt => do
    send b.pid (.notAccepted s.get_promise)
    pure false
  | .lt => do
    reconnected b.pid
    pure false

/-- follower.rs 230-238. -/
def handle_sequence_num (q : SeqNum) (frm : NodeId) : M (SP E S) MessageStatus := do
  let s ← M.get
  match s.current_seq_num.check_msg_status q with
  | .expected => do
    M.upd fun s => { s with current_seq_num := q }
    pure .expected
  | .droppedPreceding => do
    reconnected frm
    pure .droppedPreceding
  | .outdated => pure .outdated

/-- follower.rs 81-86. -/
def forward_buffered_proposals : M (SP E S) Unit := do
  let s ← M.get
  M.upd fun s => { s with buffered_proposals := [] }
  if s.buffered_proposals.isEmpty then pure () else forward_proposals s.buffered_proposals

/-- follower.rs 53-79. -/
def handle_acceptsync [SnapOps E S] (a : AcceptSync E S) (frm : NodeId) : M (SP E S) Unit := do
  let ok ← check_valid_ballot a.n
  let s ← M.get
  if ok = true ∧ s.role = .follower ∧ s.phase = .prepare then do
    M.upd fun s => { s with cached_promise := none }
    let new_accepted_idx ← onStore (IStore.sync_log a.n a.decided_idx (some a.log_sync))
    let s ← M.get
    M.whenDo (s.ist.cache.stopsign.isNone = true) forward_buffered_proposals
    setState .follower .accept
    M.upd fun s => { s with
      current_seq_num := a.seq_num
      latest_accepted_meta := some (a.n, s.outgoing.length) }
    send frm (.accepted { n := a.n, accepted_idx := new_accepted_idx })
  else pure ()

/-- follower.rs 177-193 with the in-place modification: position of the cached Accepted message of ballot `n`. -/
def get_latest_accepted (s : SP E S) (n : Ballot) : Pan (Option (Nat × Accepted)) :=
  match s.latest_accepted_meta with
  | none => some none
  | some (bal, idx) =>
    if bal = n then
      match s.outgoing[idx]? with
      | none => none
      | some m => match m.msg with
        | .accepted a => some (some (idx, a))
        | _ => some none
    else some none

/-- follower.rs 160-175. -/
def reply_accepted (n : Ballot) (accepted_idx : Nat) : M (SP E S) Unit := do
  let s ← M.get
  let latest ← M.ofPan (s.get_latest_accepted n)
  match latest with
  | some (idx, a) => setMsg idx (.accepted { a with accepted_idx })
  | none => do
    M.upd fun s => { s with latest_accepted_meta := some (n, s.outgoing.length) }
    send n.pid (.accepted { n, accepted_idx })

/-- follower.rs 142-158. -/
def update_decided_idx_and_get_accepted_idx (new_decided_idx : Nat) : M (SP E S) (Option Nat) := do
  let s ← M.get
  if new_decided_idx ≤ s.ist.cache.decided_idx then pure none
  else if new_decided_idx > s.ist.cache.accepted_idx then do
    let new_accepted_idx ← onStore IStore.flush_batch
    onStore (IStore.set_decided_idx (min new_decided_idx new_accepted_idx))
    pure (some new_accepted_idx)
  else do
    onStore (IStore.set_decided_idx new_decided_idx)
    pure none

/-- Reply when there is something to reply (follower.rs 106-108, 134-136). -/
def reply_opt (n : Ballot) (idx : Option Nat) : M (SP E S) Unit :=
  match idx with
  | some i => reply_accepted n i
  | none => pure ()

/-- The guard of follower.rs 89-91 and 113-115, evaluated left to right with short-circuiting: ballot check, state check,
sequence-number check. -/
def accept_guard (n : Ballot) (q : SeqNum) (anyRole : Bool) : M (SP E S) Bool := do
  let ok ← check_valid_ballot n
  let s ← M.get
  if ok = true ∧ (anyRole = true ∨ s.role = .follower) ∧ s.phase = .accept then do
    let st ← handle_sequence_num q n.pid
    pure (decide (st = .expected))
  else pure false

/-- follower.rs 88-110. -/
def handle_acceptdecide (a : AcceptDecide E) : M (SP E S) Unit := do
  let ok ← accept_guard a.n a.seq_num false
  if ok then do
    let new_accepted_idx ← onStore (IStore.append_entries_and_get_accepted_idx a.entries)
    let flushed_after_decide ← update_decided_idx_and_get_accepted_idx a.decided_idx
    reply_opt a.n (flushed_after_decide.or new_accepted_idx)
  else pure ()

/-- follower.rs 112-126. -/
def handle_accept_stopsign (a : AcceptStopSign) : M (SP E S) Unit := do
  let ok ← accept_guard a.n a.seq_num false
  if ok then do
    let _ ← onStore IStore.flush_batch
    let new_accepted_idx ← onStore (IStore.set_stopsign (some a.ss))
    reply_accepted a.n new_accepted_idx
  else pure ()

/-- follower.rs 128-138 (the guard does not look at the role). -/
def handle_decide (d : Decide) : M (SP E S) Unit := do
  let ok ← accept_guard d.n d.seq_num true
  if ok then do
    let new_accepted_idx ← update_decided_idx_and_get_accepted_idx d.decided_idx
    reply_opt d.n new_accepted_idx
  else pure ()

/-- follower.rs 271-282. -/
def send_preparereq_to_all_peers : M (SP E S) Unit := do
  let s ← M.get
  M.forEach s.peers fun p => send p (.prepareReq s.get_promise)

/-- follower.rs 240-269. -/
def resend_messages_follower : M (SP E S) Unit := do
  let s ← M.get
  match s.phase with
  | .prepare => match s.cached_promise with
    | some p => send p.n.pid (.promise p)
    | none => do
      setState .follower .recover
      send_preparereq_to_all_peers
  | .recover => send_preparereq_to_all_peers
  | .accept => pure ()
  | .none => pure ()

/-- follower.rs 284-290. -/
def flush_batch_follower : M (SP E S) Unit := do
  let s ← M.get
  let new_accepted_idx ← onStore IStore.flush_batch
  if new_accepted_idx > s.ist.cache.accepted_idx then reply_accepted s.get_promise new_accepted_idx else pure ()

/-! ### Dispatch and API (mod.rs) -/

/-- mod.rs 232-237. -/
def resend_message_timeout : M (SP E S) Unit := do
  let s ← M.get
  match s.role with
  | .leader => resend_messages_leader
  | .follower => resend_messages_follower

/-- mod.rs 240-246. -/
def flush_batch_timeout : M (SP E S) Unit := do
  let s ← M.get
  match s.role, s.phase with
  | .leader, .accept => flush_batch_leader
  | .follower, .accept => flush_batch_follower
  | _, _ => pure ()

/-- mod.rs 267-271. -/
def handle_promise [SnapOps E S] (prom : Promise E S) (frm : NodeId) : M (SP E S) Unit := do
  let s ← M.get
  match s.role, s.phase with
  | .leader, .prepare => handle_promise_prepare prom frm
  | .leader, .accept => handle_promise_accept prom frm
  | _, _ => pure ()

/-- mod.rs 263-282. -/
def handle [SnapOps E S] (m : PaxosMessage E S) : M (SP E S) Unit :=
  match m.msg with
  | .prepareReq n => handle_preparereq n m.src
  | .prepare p => handle_prepare p m.src
  | .promise p => handle_promise p m.src
  | .acceptSync a => handle_acceptsync a m.src
  | .acceptDecide a => handle_acceptdecide a
  | .notAccepted n => handle_notaccepted n m.src
  | .accepted a => handle_accepted a m.src
  | .decide d => handle_decide d
  | .proposalForward es => handle_forwarded_proposal es
  | .compaction c => handle_compaction c
  | .acceptStopSign a => handle_accept_stopsign a
  | .forwardStopSign ss => handle_forwarded_stopsign ss

/-- mod.rs 354-360. -/
def propose_entry (e : E) : M (SP E S) Unit := do
  let s ← M.get
  match s.role, s.phase with
  | .leader, .prepare => M.upd fun s => { s with buffered_proposals := s.buffered_proposals ++ [e] }
  | .leader, .accept => accept_entry_leader e
  | _, _ => forward_proposals [e]

/-- mod.rs 298-305. -/
def append (e : E) : M (SP E S) (Except (ProposeErr E) Unit) := do
  let s ← M.get
  if s.accepted_reconfiguration then pure (.error (.pendingReconfigEntry e))
  else do
    propose_entry e
    pure (.ok ())

/-- mod.rs 323-327. -/
def propose_stopsign (ss : StopSign) : M (SP E S) Unit := do
  let s ← M.get
  match s.role, s.phase with
  | .leader, .prepare => M.upd fun s => { s with buffered_stopsign := some ss }
  | .leader, .accept => accept_stopsign_leader ss
  | _, _ => forward_stopsign ss

/-- mod.rs 310-330. -/
def reconfigure (c : ClusterConfig) (metadata : Option (List Nat)) : M (SP E S) (Except (ProposeErr E) Unit) := do
  let s ← M.get
  if s.accepted_reconfiguration then pure (.error (.pendingReconfigConfig c metadata))
  else do
    propose_stopsign { next_config := c, metadata }
    pure (.ok ())

end SP
end Omni
