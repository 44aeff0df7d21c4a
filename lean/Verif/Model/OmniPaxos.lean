import Verif.Model.BLE
/-
The OmniPaxos server: /repo/omnipaxos/src/omni_paxos.rs 60-430. The UI getter (418-429) is in Model/UI.
-/
namespace Omni

variable {E S : Type}

/-- omni_paxos.rs 225-235. -/
structure OP (E S : Type) where
  sp : SP E S
  ble : BLE
  election_clock : LogicalClock
  resend_message_clock : LogicalClock
  flush_batch_clock : LogicalClock
deriving DecidableEq, Repr

namespace OP

/-- omni_paxos.rs 61-80. Outer `none` is a panic (no peers, mod.rs 58). -/
def build (cfg : OmniPaxosConfig) (storage : Mem E S) : Pan (Except ConfigError (OP E S)) :=
  match cfg.validate with
  | .error e => some (.error e)
  | .ok () =>
    let cc := cfg.cluster_config
    let sc := cfg.server_config
    let peers := SP.peersOf cc.nodes sc.pid
    match SP.with sc.pid peers sc.batch_size cc.flexible_quorum storage with
    | none => none
    | some sp => some (.ok
        { sp
          ble := BLE.with cc.configuration_id sc.pid peers sc.leader_priority cc.flexible_quorum storage.n_prom
          election_clock := LogicalClock.with sc.election_tick_timeout
          resend_message_clock := LogicalClock.with sc.resend_message_tick_timeout
          flush_batch_clock := LogicalClock.with sc.flush_batch_tick_timeout })

/-- Call a method of `seq_paxos`. -/
def onSP {α : Type} (m : M (SP E S) α) : M (OP E S) α := fun s =>
  match m s.sp with
  | .ok a p => .ok a { s with sp := p }
  | .panic p => .panic { s with sp := p }

/-- omni_paxos.rs 245-247. -/
def trim (idx : Option Nat) : M (OP E S) (Except CompactionErr Unit) := onSP (SP.trim idx)

/-- omni_paxos.rs 253-259. -/
def snapshot [SnapOps E S] (idx : Option Nat) (local_only : Bool) : M (OP E S) (Except CompactionErr Unit) :=
  onSP (SP.snapshot idx local_only)

/-- omni_paxos.rs 262-264. -/
def get_decided_idx (s : OP E S) : Nat := s.sp.ist.cache.decided_idx

/-- omni_paxos.rs 267-269. -/
def get_compacted_idx (s : OP E S) : Nat := s.sp.ist.cache.compacted_idx

/-- omni_paxos.rs 277-285. -/
def get_current_leader (s : OP E S) : Option (NodeId × Bool) :=
  let promised_pid := s.sp.get_promise.pid
  if promised_pid = 0 then none else some (promised_pid, decide (s.sp.phase = .accept))

/-- omni_paxos.rs 288-290. -/
def get_promise (s : OP E S) : Ballot := s.sp.get_promise

/-- omni_paxos.rs 293-296. -/
def take_outgoing_messages (s : OP E S) (buffer : List (Message E S)) : List (Message E S) × OP E S :=
  let (buffer, sp) := s.sp.take_outgoing_msgs buffer
  (buffer ++ s.ble.outgoing.map Message.ble,
   { s with sp, ble := { s.ble with outgoing := [] } })

/-- omni_paxos.rs 299-309. Outer `none` is a panic. -/
def read (s : OP E S) (idx : Nat) : Pan (Option (LogEntry E S)) :=
  match s.sp.ist.read (.included idx) (.excluded (idx + 1)) with
  | none => none
  | some none => some none
  | some (some v) => some v.getLast?

/-- omni_paxos.rs 312-320. -/
def read_entries (s : OP E S) (lo hi : IStore.Bound) : Pan (Option (List (LogEntry E S))) := s.sp.ist.read lo hi

/-- omni_paxos.rs 323-328. -/
def read_decided_suffix (s : OP E S) (from_idx : Nat) : Pan (Option (List (LogEntry E S))) :=
  s.sp.ist.read_decided_suffix from_idx

/-- omni_paxos.rs 331-336. -/
def handle_incoming [SnapOps E S] (m : Message E S) : M (OP E S) Unit :=
  match m with
  | .paxos p => onSP (SP.handle p)
  | .ble b => M.upd fun s => { s with ble := s.ble.handle b }

/-- omni_paxos.rs 339-341. -/
def is_reconfigured (s : OP E S) : Option StopSign := s.sp.is_reconfigured

/-- omni_paxos.rs 344-346. -/
def append (e : E) : M (OP E S) (Except (ProposeErr E) Unit) := onSP (SP.append e)

/-- omni_paxos.rs 352-365. -/
def reconfigure (c : ClusterConfig) (metadata : Option (List Nat)) : M (OP E S) (Except (ProposeErr E) Unit) :=
  match c.validate with
  | .error e => pure (.error (.configError e c metadata))
  | .ok () => onSP (SP.reconfigure c metadata)

/-- omni_paxos.rs 369-371. -/
def reconnected (pid : NodeId) : M (OP E S) Unit := onSP (SP.reconnected pid)

/-- omni_paxos.rs 408-415. -/
def election_timeout : M (OP E S) Unit := do
  let s ← M.get
  let r := s.ble.hb_timeout s.sp.role s.sp.phase s.sp.get_promise
  M.upd fun s => { s with ble := r.2 }
  match r.1 with
  | some b => onSP (SP.handle_leader b)
  | none => pure ()

/-- omni_paxos.rs 376-386. -/
def tick : M (OP E S) Unit := do
  let s ← M.get
  M.upd fun s => { s with election_clock := s.election_clock.tick_and_check_timeout.2 }
  M.whenDo (s.election_clock.tick_and_check_timeout.1 = true) election_timeout
  M.upd fun s => { s with resend_message_clock := s.resend_message_clock.tick_and_check_timeout.2 }
  M.whenDo (s.resend_message_clock.tick_and_check_timeout.1 = true) (onSP SP.resend_message_timeout)
  M.upd fun s => { s with flush_batch_clock := s.flush_batch_clock.tick_and_check_timeout.2 }
  M.whenDo (s.flush_batch_clock.tick_and_check_timeout.1 = true) (onSP SP.flush_batch_timeout)

/-- omni_paxos.rs 391-396. -/
def try_become_leader : M (OP E S) Unit := do
  let s ← M.get
  onSP (SP.handle_leader { s.ble.current_ballot with n := s.sp.get_promise.n + 1 })

/-- omni_paxos.rs 401-403. -/
def set_priority (p : Nat) : M (OP E S) Unit := M.upd fun s => { s with ble := s.ble.set_priority p }

end OP
end Omni
