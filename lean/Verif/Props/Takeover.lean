import Verif.Proof.Routing
import Verif.Props.Election
import Verif.Props.Network
/-
C26 in runs on the arbitrary network: which servers stand behind a server that takes over.
-/
namespace Omni

variable {E S : Type} [SnapOps E S]

/-- C26 in runs (partial for the reasons given at `C26_takeover_partial`: the adopted promise, and replies that the network
duplicated, which `hdup` excludes). Whatever was called, if it changed the number of the ballot a server holds as its own, it was
a tick, and either the server adopted its own promise, or a prepare quorum of the configuration stands behind it: each member
other than the server itself sent it a reply for the present heartbeat round in which it called itself unhappy. -/
theorem C26_takeover_run_partial (cc : ClusterConfig) (hn : cc.nodes.Nodup) (acts : List (LAction E S)) (c : Loose E S)
    (hr : Loose.init.run cc acts = some c) (i : NodeId) (op op' : OP E S) (h : c.servers i = .up op) (call : Call E S)
    (ho : op.callResult call = .up op') (hne : op'.ble.current_ballot.n ≠ op.ble.current_ballot.n)
    (hdup : (op.ble.heartbeat_replies.map (·.ballot.pid)).Nodup) :
    call = .tick ∧
    ((op'.ble.current_ballot = op.get_promise ∧ op.get_promise.pid = i ∧ op.ble.leader < op.get_promise) ∨
     (op.ble.leader < op'.ble.current_ballot ∧
      ∃ Q, PrepareQuorum cc Q ∧ i ∈ Q ∧ ∀ j ∈ Q, j ≠ i → ∃ r : HeartbeatReply, r.round = op.ble.hb_round ∧ r.happy = false ∧
        .ble { src := j, dst := i, msg := .reply r } ∈ c.sent)) := by
  have hb := (HBRun.runs hr).srv i op h
  obtain ⟨hi, hrt⟩ := (BLE.routes_runs hr).up i op h
  refine OP.call_ble (C := fun b => b.current_ballot.n ≠ op.ble.current_ballot.n → call = .tick ∧
    ((b.current_ballot = op.get_promise ∧ op.get_promise.pid = i ∧ op.ble.leader < op.get_promise) ∨
     (op.ble.leader < b.current_ballot ∧
      ∃ Q, PrepareQuorum cc Q ∧ i ∈ Q ∧ ∀ j ∈ Q, j ≠ i → ∃ r : HeartbeatReply, r.round = op.ble.hb_round ∧ r.happy = false ∧
        .ble { src := j, dst := i, msg := .reply r } ∈ c.sent))) ho (fun e => absurd rfl e) (fun e1 e2 => ⟨e1, ?_⟩)
    (fun p _ e => absurd rfl e) (fun m _ e => ?_) hne
  · rcases C26_takeover_partial op.ble _ _ _ (fun e => e2 (by rw [e])) with ⟨h1, h2, -, h4, -⟩ | ⟨h1, h2, -, h3⟩
    · right
      refine ⟨h4, i :: op.ble.heartbeat_replies.map (·.ballot.pid), ⟨?_, ?_, ?_⟩, List.mem_cons_self, ?_⟩
      · refine List.nodup_cons.2 ⟨fun hm => ?_, hdup⟩
        obtain ⟨r, hr', e⟩ := List.mem_map.1 hm
        exact (Message.between_runs hr (hb.now r hr').2.1).2.2 e.symm
      · intro j hj
        rcases List.mem_cons.1 hj with rfl | hj
        · exact hi
        · obtain ⟨r, hr', rfl⟩ := List.mem_map.1 hj
          exact (Message.between_runs hr (hb.now r hr').2.1).1
      · rw [hrt.quo] at h2
        have hlen : (i :: op.ble.heartbeat_replies.map (·.ballot.pid)).length = op.ble.heartbeat_replies.length + 1 := by simp
        rw [hlen]
        exact prepare_size hn hi h2
      · intro j hj hji
        obtain ⟨r, hr', rfl⟩ := List.mem_map.1 ((List.mem_cons.1 hj).resolve_left hji)
        exact ⟨r, (hb.now r hr').1, h1 r hr', (hb.now r hr').2.1⟩
    · exact .inl ⟨h3, h1.trans hrt.pid, h2⟩
  · exact absurd (congrArg Ballot.n (BLE.handle_fields op.ble m).1) e

/-! ## Concrete case -/

namespace Sample
attribute [local instance] Sample.noSync

/-- An election timeout at every tick. -/
def scTick (pid : NodeId) : ServerConfig := { pid, election_tick_timeout := 1, resend_message_tick_timeout := 100 }

/-- Servers 1 and 2 know server 3 as leader and then do not hear from it any more; server 2 hears from the unhappy server 1. -/
def takeoverRun : List (LAction Nat (List Nat)) :=
  [.start 1 (scTick 1), .start 2 (scTick 2), .start 3 (scTick 3), .take 1, .take 2, .deliver 1, .deliver 3, .take 3, .deliver 6,
   .deliver 7, .call 1 .tick, .call 2 .tick, .call 1 .tick, .take 2, .deliver 8, .take 1, .deliver 14]

/-- Concrete case for C26: at its next tick server 2 takes over with the ballot number 2. -/
example : ∃ c a b d, Loose.init.run cc takeoverRun = some c ∧ c.servers 1 = .up a ∧ c.servers 2 = .up b ∧ c.servers 3 = .up d ∧
    decide (b.ble.current_ballot = ⟨1, 1, 0, 2⟩ ∧ b.ble.leader = ⟨1, 1, 0, 3⟩ ∧ b.ble.heartbeat_replies.map (·.ballot.pid) = [1] ∧
      (match b.callResult .tick with
        | .up b' => decide (b'.ble.current_ballot = ⟨1, 2, 0, 2⟩)
        | .down _ => false) = true) = true :=
  net_check (by decide +kernel)

end Sample

end Omni
