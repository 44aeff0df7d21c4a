import Verif.Model.OmniPaxos
/-
The dashboard: `get_ui_states` (/repo/omnipaxos/src/omni_paxos.rs 418-429), /repo/omnipaxos/src/utils/ui.rs, and of the crate
omnipaxos_ui the files app.rs, util.rs and lib.rs, and the parts of render.rs that can panic.

Simplifications: a ratio (`f64`) is the pair of its numerator and denominator; the decided entries per second (a quotient by the
elapsed time) are not modelled, nor are the terminal, the logger and the layout of the widgets. A colour is its index in
`COLORS`, `none` is the default colour. Panics are `none`; in a release build the subtraction of `set_decided_idx` wraps
around instead. Vectors are indexed by pid.
-/
namespace Omni

variable {E S : Type}

/-- utils/ui.rs 34-48, with the fields of `ClusterState` (9-17) in place of it. `heartbeats` and the field of the same name of the
cluster state are the same list. -/
structure UIStates where
  current_ballot : Ballot
  current_leader : Option NodeId
  decided_idx : Nat
  heartbeats : List HeartbeatReply
  accepted_indexes : List Nat
deriving DecidableEq, Repr

/-- omni_paxos.rs 418-429; utils/ui.rs 23-31 puts a 0 in front of the accepted indexes; ballot_leader_election.rs 296-302. -/
def OP.get_ui_states (s : OP E S) : UIStates :=
  { current_ballot := s.ble.current_ballot
    current_leader := s.get_current_leader.map (·.1)
    decided_idx := s.get_decided_idx
    heartbeats := s.ble.prev_replies
    accepted_indexes := 0 :: s.sp.ls.accepted_indexes }

/-- app.rs 8-14. -/
structure UINode where
  pid : NodeId := 0
  ballot_number : Nat := 0
  leader : NodeId := 0
  color : Option Nat := none
  connected : Bool := false
deriving DecidableEq, Repr

/-- app.rs 29-55 without `last_update_time` and `dps`. -/
structure App where
  current_node : UINode
  current_leader : Option NodeId
  leader_color : Option Nat
  current_role : Role
  decided_idx : Nat
  nodes : List UINode
  active_peers : List UINode
  throughput_data : List Nat
  followers_progress : List (Nat × Nat)
  followers_accepted_idx : List Nat
deriving DecidableEq, Repr

/-- lib.rs 178-182 and util.rs 44-55. -/
def uiPeers (cfg : OmniPaxosConfig) : List NodeId :=
  cfg.cluster_config.nodes.filter fun x => decide (x ≠ cfg.server_config.pid)

/-- `sort()` of a vector of pids (app.rs 67-69). -/
def sortPids : List NodeId → List NodeId
  | [] => []
  | x :: xs => insert x (sortPids xs)
where
  /-- put `x` in front of the first larger element -/
  insert (x : NodeId) : List NodeId → List NodeId
    | [] => [x]
    | y :: ys => if x ≤ y then x :: y :: ys else y :: insert x ys

/-- `(sorted pids).enumerate()` with the colours, app.rs 70-84. -/
def coloured (l : List NodeId) : List UINode := (l.zipIdx).map fun p => { pid := p.1, color := some (p.2 % 8) }

/-- `v[idx] = a` for the elements of a list and `idx = k, k + 1, …` (lib.rs 112-121). -/
def writeFrom {α : Type} (v : List α) : Nat → List α → Pan (List α)
  | _, [] => some v
  | k, a :: r => if k < v.length then writeFrom (v.set k a) (k + 1) r else none

namespace App

/-- app.rs 58-103; `none`: `max().unwrap()` without peers. -/
def «with» (pid : NodeId) (peers : List NodeId) : Pan App :=
  match peers.max? with
  | none => none
  | some max_peer_pid =>
    let max_pid := max max_peer_pid pid
    let nodes := coloured (sortPids (peers ++ [pid]))
    some
      { current_node := { pid, color := (nodes.reverse.find? fun n => n.pid = pid).bind (·.color) }
        current_leader := none
        leader_color := none
        current_role := .follower
        decided_idx := 0
        nodes
        active_peers := nodes.filter fun n => n.pid ≠ pid
        throughput_data := []
        followers_progress := List.replicate (max_pid + 1) (0, 1)
        followers_accepted_idx := List.replicate (max_pid + 1) 0 }

/-- app.rs 105-114. -/
def set_decided_idx (a : App) (decided_idx : Nat) : Pan App :=
  if decided_idx < a.decided_idx then none
  else some { a with throughput_data := (decided_idx - a.decided_idx) :: a.throughput_data, decided_idx }

/-- lib.rs 105-127. -/
def update_progress (a : App) (st : UIStates) : Pan App :=
  match a.current_leader with
  | none => some a
  | some leader_id =>
    if leader_id = a.current_node.pid then
      match st.accepted_indexes[leader_id]? with
      | none => none
      | some leader_acc_idx =>
        match writeFrom a.followers_progress 0 (st.accepted_indexes.map fun x =>
            if leader_acc_idx = 0 then (0, 1) else (x, leader_acc_idx)),
          writeFrom a.followers_accepted_idx 0 st.accepted_indexes with
        | some p, some i => some { a with current_role := .leader, followers_progress := p, followers_accepted_idx := i }
        | _, _ => none
    else some { a with current_role := .follower }

/-- lib.rs 129-147. -/
def update_active_peers (a : App) (st : UIStates) : App :=
  { a with active_peers := a.active_peers.map fun node =>
      match st.heartbeats.find? fun x => x.ballot.pid = node.pid with
      | some hb => { node with ballot_number := hb.ballot.n, leader := hb.leader.pid, connected := true }
      | none => { node with connected := false } }

/-- lib.rs 149-162; `none`: `find(..).unwrap()`. -/
def update_leader (a : App) (st : UIStates) : Pan App :=
  match st.current_leader with
  | none => some { a with current_leader := none, leader_color := none }
  | some leader_id =>
    if leader_id = a.current_node.pid then
      some { a with current_leader := some leader_id, leader_color := a.current_node.color }
    else match a.nodes.find? fun x => x.pid = leader_id with
      | some leader => some { a with current_leader := some leader_id, leader_color := leader.color }
      | none => none

/-- render.rs 17-27 with 273-283, 401-414 and 459-500: a leader's accepted index, and those and the progress bars of its peers.
`Gauge::ratio` asserts a ratio between 0 and 1. -/
def render (a : App) : Pan Unit :=
  match a.current_role with
  | .follower => some ()
  | .leader =>
    if a.current_node.pid < a.followers_accepted_idx.length ∧
        (a.active_peers.all fun n => decide (n.pid < a.followers_accepted_idx.length) &&
          match a.followers_progress[n.pid]? with
          | some r => decide (r.1 ≤ r.2)
          | none => false) = true then some ()
    else none

end App

/-- lib.rs 20-24 without the terminal. -/
structure UI where
  app : App
  started : Bool
deriving DecidableEq, Repr

namespace UI

/-- lib.rs 28-38 on the configuration converted by util.rs 44-55. -/
def «with» (cfg : OmniPaxosConfig) : Pan UI :=
  match App.with cfg.server_config.pid (uiPeers cfg) with
  | none => none
  | some app => some { app, started := false }

/-- lib.rs 82-103. `quit`: the user pressed 'q' or escape. -/
def update_ui (u : UI) (quit : Bool) : Pan UI :=
  if u.started && !quit then match u.app.render with
    | none => none
    | some () => some u
  else some { u with started := false }

/-- lib.rs 47-59. -/
def start (u : UI) (quit : Bool) : Pan UI :=
  if u.started then some u
  else match u.update_ui quit with
    | none => none
    | some u => some { u with started := true }

/-- lib.rs 62-74. -/
def stop (u : UI) : UI := { u with started := false }

/-- lib.rs 165-175. -/
def tick (u : UI) (st : UIStates) (quit : Bool) : Pan UI :=
  if u.started then
    match ({ u.app with current_node := { u.app.current_node with ballot_number := st.current_ballot.n } } : App).set_decided_idx
        st.decided_idx with
    | none => none
    | some a => match a.update_progress st with
      | none => none
      | some a => match (a.update_active_peers st).update_leader st with
        | none => none
        | some a => ({ u with app := a } : UI).update_ui quit
  else some u

end UI
end Omni
