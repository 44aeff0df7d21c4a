import Verif.Spec.Life
/-
Sample data for the concrete cases shown beside the theorems: entries are numbers, a snapshot is the list of entries.
-/
namespace Omni.Sample

/-- Snapshots off for log synchronisation. -/
@[reducible] def noSync : SnapOps Nat (List Nat) := ⟨some, fun a b => some (a ++ b), false⟩
/-- Snapshots on for log synchronisation. -/
@[reducible] def useSync : SnapOps Nat (List Nat) := ⟨some, fun a b => some (a ++ b), true⟩

/-- Three servers. -/
def cc : ClusterConfig := { configuration_id := 1, nodes := [1, 2, 3] }

/-- Long election timeout, so that ticks alone start no election. -/
def sc (pid : NodeId) : ServerConfig := { pid, election_tick_timeout := 1000, resend_message_tick_timeout := 1 }

def cfg (pid : NodeId) : OmniPaxosConfig := { cluster_config := cc, server_config := sc pid }

/-- A storage with two trimmed positions, two entries and a StopSign; three positions are decided. -/
def disk : Mem Nat (List Nat) where
  log := [30, 40]
  n_prom := some ⟨1, 4, 0, 3⟩
  acc_round := some ⟨1, 3, 0, 1⟩
  ld := 3
  trimmed_idx := 2
  compacted_idx := 2
  stopsign := some ⟨cc, none⟩

/-- A server started on a storage, `none` if that fails. -/
def start (pid : NodeId) (d : Mem Nat (List Nat)) : Option (OP Nat (List Nat)) :=
  match OP.build (cfg pid) d with
  | some (.ok op) => some op
  | _ => none

/-- Run calls one after the other; `none` on a panic. -/
def calls [SnapOps Nat (List Nat)] (op : OP Nat (List Nat)) : List (Call Nat (List Nat)) → Option (OP Nat (List Nat))
  | [] => some op
  | c :: cs => match op.callResult c with
    | .up op' => calls op' cs
    | .down _ => none

end Omni.Sample
