import Verif.Model.Internal
/-
LeaderState: /repo/omnipaxos/src/util.rs 27-260.

The `Vec`s are indexed by `pid - 1`; `pid = 0` (usize underflow) and out-of-range indices are panics (`none`).
-/
namespace Omni

variable {E S : Type}

/-- util.rs 29-34. -/
structure PromiseMetaData where
  n_accepted : Ballot := {}
  accepted_idx : Nat := 0
  decided_idx : Nat := 0
  pid : NodeId := 0
deriving DecidableEq, Repr

/-- `self > other` for the `PartialOrd` of util.rs 36-52. -/
def PromiseMetaData.gt (self other : PromiseMetaData) : Bool :=
  if self.n_accepted = other.n_accepted ∧ self.accepted_idx = other.accepted_idx ∧ self.pid = other.pid then false
  else decide (other.n_accepted < self.n_accepted ∨
    (self.n_accepted = other.n_accepted ∧ other.accepted_idx < self.accepted_idx))

/-- util.rs 64-71. -/
inductive PromiseState where
  | notPromised
  | promised (m : PromiseMetaData)
  | promisedHigher
deriving DecidableEq, Repr

/-- util.rs 74-90. -/
structure LeaderState (E S : Type) where
  n_leader : Ballot
  promises_meta : List PromiseState
  follower_seq_nums : List SeqNum
  accepted_indexes : List Nat
  max_promise_meta : PromiseMetaData
  max_promise_sync : Option (LogSync E S)
  latest_accept_meta : List (Option (Ballot × Nat))
  max_pid : Nat
  quorum : Quorum
deriving DecidableEq, Repr

/-- `v[pid_to_idx(pid)]` (util.rs 110-112). -/
def slot {α : Type} (l : List α) (pid : NodeId) : Pan α :=
  match pid with
  | 0 => none
  | k + 1 => l[k]?

/-- `v[pid_to_idx(pid)] = a`. -/
def setSlot {α : Type} (l : List α) (pid : NodeId) (a : α) : Pan (List α) :=
  match pid with
  | 0 => none
  | k + 1 => if k < l.length then some (l.set k a) else none

/-- Is this slot a promise? (`matches!(p, PromiseState::Promised(_))`, util.rs 146) -/
def PromiseState.isPromised : PromiseState → Bool
  | .promised _ => true
  | _ => false

namespace LeaderState

/-- util.rs 96-108. -/
def «with» (n_leader : Ballot) (max_pid : Nat) (quorum : Quorum) : LeaderState E S :=
  { n_leader
    promises_meta := List.replicate max_pid .notPromised
    follower_seq_nums := List.replicate max_pid {}
    accepted_indexes := List.replicate max_pid 0
    max_promise_meta := {}
    max_promise_sync := none
    latest_accept_meta := List.replicate max_pid none
    max_pid
    quorum }

/-- util.rs 115-119. -/
def increment_seq_num_session (ls : LeaderState E S) (pid : NodeId) : Pan (LeaderState E S) :=
  match slot ls.follower_seq_nums pid with
  | none => none
  | some q => match setSlot ls.follower_seq_nums pid { session := q.session + 1, counter := 0 } with
    | none => none
    | some v => some { ls with follower_seq_nums := v }

/-- util.rs 121-125. -/
def next_seq_num (ls : LeaderState E S) (pid : NodeId) : Pan (LeaderState E S × SeqNum) :=
  match slot ls.follower_seq_nums pid with
  | none => none
  | some q =>
    let q' : SeqNum := { q with counter := q.counter + 1 }
    match setSlot ls.follower_seq_nums pid q' with
    | none => none
    | some v => some ({ ls with follower_seq_nums := v }, q')

/-- util.rs 127-129. -/
def get_seq_num (ls : LeaderState E S) (pid : NodeId) : Pan SeqNum := slot ls.follower_seq_nums pid

/-- The count of util.rs 143-147. -/
def num_promised (ls : LeaderState E S) : Nat := (ls.promises_meta.filter PromiseState.isPromised).length

/-- util.rs 138-141: the conditional update of the maximal promise. -/
def update_max (ls : LeaderState E S) (m : PromiseMetaData) (sync : Option (LogSync E S)) (check : Bool) :
    LeaderState E S :=
  if check && m.gt ls.max_promise_meta then { ls with max_promise_meta := m, max_promise_sync := sync } else ls

/-- util.rs 131-149. -/
def set_promise (ls : LeaderState E S) (prom : Promise E S) (frm : NodeId) (check_max_prom : Bool) :
    Pan (LeaderState E S × Bool) :=
  let m : PromiseMetaData :=
    { n_accepted := prom.n_accepted, accepted_idx := prom.accepted_idx, decided_idx := prom.decided_idx, pid := frm }
  let ls := ls.update_max m prom.log_sync check_max_prom
  match setSlot ls.promises_meta frm (.promised m) with
  | none => none
  | some v =>
    let ls := { ls with promises_meta := v }
    some (ls, ls.quorum.is_prepare_quorum ls.num_promised)

/-- util.rs 151-153. -/
def reset_promise (ls : LeaderState E S) (pid : NodeId) : Pan (LeaderState E S) :=
  match setSlot ls.promises_meta pid .notPromised with
  | none => none
  | some v => some { ls with promises_meta := v }

/-- util.rs 156-158. -/
def lost_promise (ls : LeaderState E S) (pid : NodeId) : Pan (LeaderState E S) :=
  match setSlot ls.promises_meta pid .promisedHigher with
  | none => none
  | some v => some { ls with promises_meta := v }

/-- The decided indexes of util.rs 171-174. -/
def promisedDecided : List PromiseState → List Nat
  | [] => []
  | .promised m :: r => m.decided_idx :: promisedDecided r
  | _ :: r => promisedDecided r

/-- util.rs 168-177: `max().unwrap_or_default()`. -/
def get_max_decided_idx (ls : LeaderState E S) : Nat := (promisedDecided ls.promises_meta).foldl max 0

/-- util.rs 179-184. -/
def get_promise_meta (ls : LeaderState E S) (pid : NodeId) : Pan PromiseMetaData :=
  match slot ls.promises_meta pid with
  | some (.promised m) => some m
  | _ => none

/-- util.rs 186-191: `min().expect(..)`. -/
def get_min_all_accepted_idx (ls : LeaderState E S) : Pan Nat :=
  match ls.accepted_indexes with
  | [] => none
  | a :: r => some (r.foldl min a)

/-- util.rs 193-195. -/
def reset_latest_accept_meta (ls : LeaderState E S) : LeaderState E S :=
  { ls with latest_accept_meta := List.replicate ls.max_pid none }

/-- util.rs 198-207, starting at pid `k`: the pids of promised slots other than the leader's own. -/
def promisedFrom (own : NodeId) : Nat → List PromiseState → List NodeId
  | _, [] => []
  | k, p :: r => if p.isPromised ∧ k ≠ own then k :: promisedFrom own (k + 1) r else promisedFrom own (k + 1) r

/-- util.rs 197-208. -/
def get_promised_followers (ls : LeaderState E S) : List NodeId := promisedFrom ls.n_leader.pid 1 ls.promises_meta

/-- util.rs 211-222. -/
def get_preparable_peers (ls : LeaderState E S) : List NodeId → Pan (List NodeId)
  | [] => some []
  | p :: ps => match slot ls.promises_meta p with
    | none => none
    | some st => match ls.get_preparable_peers ps with
      | none => none
      | some r => match st with
        | .notPromised => some (p :: r)
        | _ => some r

/-- util.rs 224-227. -/
def set_latest_accept_meta (ls : LeaderState E S) (pid : NodeId) (idx : Option Nat) : Pan (LeaderState E S) :=
  match setSlot ls.latest_accept_meta pid (idx.map fun x => (ls.n_leader, x)) with
  | none => none
  | some v => some { ls with latest_accept_meta := v }

/-- util.rs 229-231. -/
def set_accepted_idx (ls : LeaderState E S) (pid : NodeId) (idx : Nat) : Pan (LeaderState E S) :=
  match setSlot ls.accepted_indexes pid idx with
  | none => none
  | some v => some { ls with accepted_indexes := v }

/-- util.rs 233-239. -/
def get_latest_accept_meta (ls : LeaderState E S) (pid : NodeId) : Pan (Option (Ballot × Nat)) :=
  slot ls.latest_accept_meta pid

/-- util.rs 241-246. -/
def get_decided_idx (ls : LeaderState E S) (pid : NodeId) : Pan (Option Nat) :=
  match slot ls.promises_meta pid with
  | none => none
  | some (.promised m) => some (some m.decided_idx)
  | some _ => some none

/-- util.rs 248-250. -/
def get_accepted_idx (ls : LeaderState E S) (pid : NodeId) : Pan Nat := slot ls.accepted_indexes pid

/-- util.rs 252-259. -/
def is_chosen (ls : LeaderState E S) (idx : Nat) : Bool :=
  ls.quorum.is_accept_quorum ((ls.accepted_indexes.filter fun la => decide (la ≥ idx)).length)

end LeaderState
end Omni
