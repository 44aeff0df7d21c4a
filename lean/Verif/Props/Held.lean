import Verif.Props.Starve
import Verif.Props.Propose
import Verif.Proof.Held
/-
Property theorem C72: a server that has joined a leader passes on what it held back.
-/
namespace Omni

section
variable {E S : Type} [SnapOps E S]

/-- C72, entries and leaders: a server in the Accept phase that has not accepted a StopSign holds no entry back; if it is leader, no StopSign either.
On the arbitrary network, with crashes at any write. -/
theorem C72_nothing_held_back (cc : ClusterConfig) (acts : List (LAction E S)) (c : Loose E S) (hr : Loose.init.run cc acts = some c)
    (i : NodeId) (op : OP E S) (h : c.servers i = .up op) (hp : op.sp.phase = .accept) (hs : op.sp.ist.cache.stopsign = none) :
    op.sp.buffered_proposals = [] ∧ (op.sp.role = .leader → op.sp.buffered_stopsign = none) :=
  ((HeldInv.runs hr).up i op h).2 hs hp

/-- C72, where the entries are: when a call brings a server into the Accept phase without a StopSign, all entries it had held back are in its log, in their
order, or in one ProposalForward to the server it has promised. -/
theorem C72_passed_on (cc : ClusterConfig) (acts : List (LAction E S)) (c : Loose E S) (hr : Loose.init.run cc acts = some c)
    (i : NodeId) (op op' : OP E S) (h : c.servers i = .up op) (call : Call E S) (hi : call.isIncoming = false ∨ ∃ m ∈ c.sent, m.dst = i ∧ call = .handleIncoming m)
    (ho : op.callResult call = .up op') (hp : op'.sp.phase = .accept) (hs : op'.sp.ist.cache.stopsign = none) (hb : op.sp.buffered_proposals ≠ []) :
    op.sp.buffered_proposals <:+: op'.sp.ist.storage.log ∨
    { src := op'.sp.pid, dst := op'.get_promise.pid, msg := .proposalForward op.sp.buffered_proposals } ∈ op'.sp.outgoing := by
  obtain ⟨acts', c', h1, h2⟩ : ∃ acts' c', Loose.init.run cc acts' = some c' ∧ c'.servers i = .up op' := by
    rcases hi with hi | ⟨m, hm, hd, rfl⟩
    · refine ⟨acts ++ [.call i call], c.setServer i (.up op'), ?_, Loose.setServer_same ..⟩
      rw [Loose.run_append, hr]
      simp [Loose.run, Loose.step, h, hi, ho]
    · obtain ⟨k, hk⟩ := List.mem_iff_getElem?.1 hm
      subst hd
      refine ⟨acts ++ [.deliver k], c.setServer m.dst (.up op'), ?_, Loose.setServer_same ..⟩
      rw [Loose.run_append, hr]
      simp [Loose.run, Loose.step, hk, h, ho]
  have h3 := (C72_nothing_held_back cc acts' c' h1 i op' h2 hp hs).1
  unfold OP.callResult at ho
  split at ho <;> rename_i e
  · cases ho
    rcases C43_proposals_wait _ _ _ e with h4 | h4
    · rw [h3, List.prefix_nil] at h4
      exact absurd h4 hb
    · exact h4
  · cases ho

end

section Example
open Starve

attribute [local instance] Sample.noSync

/-- C72, StopSign, is false of the code: server 2 takes in a new configuration before it knows a leader, and `reconfigure` returns Ok. Then server 1 is elected, and
everybody joins it. Server 2 does not pass the StopSign on (follower.rs 60-62 forwards the entries only), and in no steady run after that does any
server get to see it. -/
theorem C72_false_stopsign : ∃ (as : List A) (c0 c : C) (op0 : OP Nat (List Nat)), Cluster.init.run c4 as = some c0 ∧ c0.servers 2 = .up op0 ∧
    (∃ op, OP.reconfigure Sample.cc' none op0 = .ok (.ok ()) op) ∧ (∃ bs, c0.run c4 (.call 2 (.reconfigure Sample.cc' none) :: bs) = some c) ∧
    c.Settled c4 bn 0 ∧ ∀ cs c', c.Steady c4 bn cs → c.run c4 cs = some c' → c'.Quiet c4 →
      ∀ i ∈ c4.nodes, ∃ op, c'.servers i = .up op ∧ op.is_reconfigured = none ∧ (c'.servers i).disk.stopsign = none := by
  have h0 : ((Cluster.init.run c4 (lead4.take 4)).map fun c0 => (match c0.servers 2 with
      | .down _ => false
      | .up op0 => match OP.reconfigure Sample.cc' none op0 with
        | .ok (.ok ()) _ => true
        | _ => false) && match c0.run c4 (.call 2 (.reconfigure Sample.cc' none) :: lead4.drop 4) with
        | none => false
        | some c => settledB c4 bn 0 c) = some true := by decide +kernel
  obtain ⟨c0, e0, h⟩ := Option.map_eq_some_iff.1 h0
  simp only [Bool.and_eq_true] at h
  obtain ⟨h1, h2⟩ := h
  cases hs : c0.servers 2 with
  | down d => rw [hs] at h1; cases h1
  | up op0 =>
    rw [hs] at h1
    cases hc : c0.run c4 (.call 2 (.reconfigure Sample.cc' none) :: lead4.drop 4) with
    | none => rw [hc] at h2; cases h2
    | some c =>
      rw [hc] at h2
      have hset := settledB_settled h2
      refine ⟨_, c0, c, op0, e0, hs, ?_, ⟨_, hc⟩, hset, fun cs c' h3 h4 h5 i hi => ?_⟩
      · simp only at h1
        split at h1
        · rename_i op e; exact ⟨op, e⟩
        · cases h1
      · obtain ⟨X, -, h6, -⟩ := (C69_steady c4 rfl (by decide) bn 0 c hset cs h3 c' h4).2 h5
        obtain ⟨op, e1, -, e2⟩ := h6.server i hi
        refine ⟨op, e1, ?_, ?_⟩
        · simp only [OP.is_reconfigured, SP.is_reconfigured, e2.noStopSign.1]
        · rw [e1]; exact e2.noStopSign.2

/-- Server 2 appends 7 and 8 before there is a leader; then it promises server 1. -/
def heldRun : List (LAction Nat (List Nat)) := [.start 1 (Sample.sc 1), .start 2 (Sample.sc 2), .call 2 (.append 7), .call 2 (.append 8),
  .call 1 .tryBecomeLeader, .take 1, .deliver 0, .take 2, .deliver 4, .take 1]

/-- The AcceptSync brings it into the Accept phase; 7 and 8 are forwarded. -/
example : ((Loose.init.run Sample.cc heldRun).bind fun c => match c.servers 2, c.sent[7]? with
    | .up op, some m => match op.callResult (.handleIncoming m) with
      | .up op' => some (m.dst, op.sp.buffered_proposals, decide (op'.sp.phase = .accept), op'.sp.ist.cache.stopsign.isNone, op'.sp.buffered_proposals,
          decide (({ src := 2, dst := 1, msg := .proposalForward [7, 8] } : PaxosMessage Nat (List Nat)) ∈ op'.sp.outgoing))
      | .down _ => none
    | _, _ => none) = some (2, [7, 8], true, true, [], true) := by decide +kernel

end Example

end Omni
