import Verif.Proof.Shift
import Verif.Spec.Runs
/-
C47: a running server catches up when nothing fails any more. The code violates this (finding F15).

When server 3 is started for the first time, its first election timeout makes it leader of its own ballot (1, 3), which it
writes to its storage as its promise. It crashes before any message of this has been sent, and is restarted. Server 2 becomes
leader of ballot (1, 2) with the promise of server 1, and they decide an entry. Server 3 has promised a higher ballot, so it
ignores server 2 (its NotAccepted makes the leader only forget its promise, leader.rs 365-369), the leader ignores its
PrepareReq because the ballot in it is higher than its own (leader.rs 66-74), and server 3 does not take over because the
replies to its heartbeats say that the others are happy (ballot_leader_election.rs 260-274). Nobody starts a higher ballot:
server 2 needs only server 1 to be happy. So every round ends as it began, apart from the heartbeat round.
-/
namespace Omni

section sample
attribute [local instance] Sample.noSync
open Sample

/-- All timeouts fire at every tick. -/
def sc1 (pid : NodeId) : ServerConfig := 
  { pid, election_tick_timeout := 1, resend_message_tick_timeout := 1, flush_batch_tick_timeout := 1 }

/-- Deliver the oldest message from `i` to `j` and send what `j` answers. -/
def dt (i j : NodeId) : List A := [.deliver i j, .take j]

/-- Server 3 crashes in its first election; servers 1 and 2 go on and decide [7]. -/
def lockRun : List A :=
  [.start 1 (sc1 1), .start 2 (sc1 2), .start 3 (sc1 3), .call 3 .tick, .crash 3, .start 3 (sc1 3), .call 2 .tick, .take 1,
    .take 2, .take 3] ++ dt 1 2 ++ dt 1 3 ++ dt 2 1 ++ dt 2 1 ++ dt 2 1 ++ dt 2 1 ++ dt 2 1 ++ dt 2 3 ++ dt 2 3 ++ dt 2 3 ++ dt 2 3 ++
    dt 3 1 ++ dt 3 1 ++ dt 3 1 ++ dt 3 2 ++ dt 3 2 ++ dt 3 2 ++ dt 3 2 ++ dt 1 2 ++ dt 1 2 ++ dt 1 2 ++ dt 1 3 ++ dt 2 1 ++ dt 2 3 ++
    dt 1 2 ++ [.call 2 (.append 7), .take 2] ++ dt 2 1 ++ dt 1 2 ++ dt 2 1

/-- All servers tick and all messages are delivered. -/
def lockRound : List A :=
  [.call 1 .tick, .call 2 .tick, .call 3 .tick, .take 1, .take 2, .take 3] ++ dt 1 2 ++ dt 1 3 ++ dt 2 1 ++ dt 2 1 ++ dt 2 3 ++
    dt 2 3 ++ dt 3 1 ++ dt 3 1 ++ dt 3 1 ++ dt 3 2 ++ dt 3 2 ++ dt 3 2 ++ dt 1 2 ++ dt 1 3 ++ dt 2 3

/-- The states of the running servers and the messages between the servers are those of `c` with the next heartbeat round. -/
def aheadB (c c' : C) : Bool :=
  (cc.nodes.all fun i => onUp c i fun op => onUp c' i fun op' => decide (op'.sp = op.sp) &&
    decide ({ op'.ble with prev_replies := [] } = op.ble.shift 1 []) && decide (op'.election_clock = op.election_clock) &&
    decide (op'.resend_message_clock = op.resend_message_clock) && decide (op'.flush_batch_clock = op.flush_batch_clock)) &&
  cc.nodes.all fun i => cc.nodes.all fun j => decide (c'.net i j = (c.net i j).map (Message.shift 1))

theorem aheadB_sound {c c' : C} (h : aheadB c c' = true) : c.Ahead cc.nodes 1 c' := by
  simp only [aheadB, Bool.and_eq_true, List.all_eq_true, decide_eq_true_eq] at h
  refine ⟨fun i hi => ?_, fun i hi j hj => h.2 i hi j hj⟩
  obtain ⟨op, e1, h⟩ := onUp_elim (h.1 i hi)
  obtain ⟨op', e2, h⟩ := onUp_elim h
  simp only [Bool.and_eq_true, decide_eq_true_eq] at h
  obtain ⟨⟨⟨⟨h1, h2⟩, h3⟩, h4⟩, h5⟩ := h
  refine ⟨op'.ble.prev_replies, ?_⟩
  rw [e1, e2]
  have h2 := congrArg (fun b : BLE => { b with prev_replies := op'.ble.prev_replies }) h2
  show Server.up (OP.mk op'.sp op'.ble op'.election_clock op'.resend_message_clock op'.flush_batch_clock) = _
  rw [h1, h3, h4, h5]
  exact congrArg (fun b => Server.up (OP.mk op.sp b _ _ _)) h2

/-- At the end of a round: all servers run, with nothing to send, and nothing is in flight. -/
def quietB (c : C) : Bool :=
  (cc.nodes.all fun i => onUp c i fun op => op.sp.outgoing.isEmpty && op.ble.outgoing.isEmpty) &&
  cc.nodes.all fun i => cc.nodes.all fun j => (c.net i j).isEmpty

/-- A round after which everything is as before, apart from the heartbeat round, can be repeated for ever. -/
theorem repeat_forever {start round : List A} {P : C → Bool} (hc : ((Cluster.init.run cc start).map fun c => quietB c &&
      P c && ((c.run cc round).map fun c' => aheadB c c') = some true) = some true)
    (only : ∀ a ∈ round, a.Routine cc.nodes) (all : ∀ i ∈ cc.nodes, .call i .tick ∈ round) :
    ∃ c, Cluster.init.run cc start = some c ∧ P c = true ∧ ∃ σ : Nat → C, σ 0 = c ∧ (∀ k, ∃ as, (σ k).FullRound cc (σ (k + 1)) as) ∧
      ∀ k, ∀ i ∈ cc.nodes, ∀ op, (σ k).servers i = .up op → ∃ op0 ps, c.servers i = .up op0 ∧ op = op0.shift k ps := by
  cases hs : (Cluster.init : C).run cc start with
  | none => rw [hs] at hc; simp at hc
  | some c =>
    rw [hs] at hc
    simp only [Option.map_some, Option.some.injEq, Bool.and_eq_true, decide_eq_true_eq] at hc
    obtain ⟨⟨hq, hP⟩, h1⟩ := hc
    cases hs1 : c.run cc round with
    | none => rw [hs1] at h1; simp at h1
    | some c1 =>
      rw [hs1] at h1
      simp only [Option.map_some, Option.some.injEq] at h1
      have hA := aheadB_sound h1
      have hF := hA.forever only hs1
      simp only [quietB, Bool.and_eq_true, List.all_eq_true, List.isEmpty_iff] at hq
      refine ⟨c, rfl, hP, c.after cc round, rfl,
        (fun k => ⟨round, (hF k).1, all, only,
          fun i hi j hj => by rw [(hF (k + 1)).2.net i hi j hj, hq.2 i hi j hj]; rfl,
          fun i hi => by
            obtain ⟨op, h, h'⟩ := onUp_elim (hq.1 i hi)
            simp only [Bool.and_eq_true, List.isEmpty_iff] at h'
            obtain ⟨ps, e⟩ := (hF (k + 1)).2.servers i hi
            refine ⟨op.shift (k + 1) ps, by rw [e, h]; rfl, h'.1, ?_⟩
            show List.map _ op.ble.outgoing = []
            rw [h'.2]; rfl⟩), ?_⟩
      intro k i hi op hk
      obtain ⟨ps, this⟩ := (hF k).2.servers i hi
      obtain ⟨op0, h, _⟩ := onUp_elim (hq.1 i hi)
      rw [hk, h] at this
      simp only [Server.shift, Server.up.injEq] at this
      exact ⟨op0, ps, h, this⟩

/-- If server 2 has decided an entry which server 3 has not, and a round changes nothing, then server 3 never learns of it. -/
theorem stuck_forever {start round : List A} (hc : ((Cluster.init.run cc start).map fun c => quietB c &&
      (onUp c 2 (fun op => op.get_decided_idx = 1) && onUp c 3 (fun op => op.get_decided_idx = 0)) &&
      ((c.run cc round).map fun c' => aheadB c c') = some true) = some true)
    (only : ∀ a ∈ round, a.Routine cc.nodes) (all : ∀ i ∈ cc.nodes, .call i .tick ∈ round) :
    ∃ c, Cluster.init.run cc start = some c ∧ ∃ σ : Nat → C, σ 0 = c ∧ (∀ k, ∃ as, (σ k).FullRound cc (σ (k + 1)) as) ∧
      c.DecidedIdx 2 1 ∧ ∀ k d, (σ k).DecidedIdx 3 d → d = 0 := by
  obtain ⟨c, h, hP, σ, h0, hf, hs⟩ := repeat_forever (P := fun c => onUp c 2 (fun op => op.get_decided_idx = 1) &&
    onUp c 3 (fun op => op.get_decided_idx = 0)) hc only all
  simp only [Bool.and_eq_true] at hP
  obtain ⟨op2, s2, d2⟩ := onUp_elim hP.1
  obtain ⟨op3, s3, d3⟩ := onUp_elim hP.2
  refine ⟨c, h, σ, h0, hf, ⟨op2, s2, by simpa using d2⟩, ?_⟩
  rintro k d ⟨op, hk, hd⟩
  obtain ⟨op0, ps, h1, e⟩ := hs k 3 (by decide) op hk
  rw [s3] at h1
  cases h1
  have h0 : op3.get_decided_idx = 0 := by simpa using d3
  rw [e] at hd
  have : (op3.shift k ps).get_decided_idx = op3.get_decided_idx := rfl
  omega

/-- C47 is false of the code: it is not so that in every execution which from some moment on consists of full rounds without
failures, every server some time has the decided index that another one had at that moment. -/
theorem C47_false_locked_out : ¬ ∀ (cc : ClusterConfig) (c : C), c.Reachable cc →
    ∀ σ : Nat → C, σ 0 = c → (∀ k, ∃ as, (σ k).FullRound cc (σ (k + 1)) as) →
    ∀ i ∈ cc.nodes, ∀ j ∈ cc.nodes, ∀ d, c.DecidedIdx j d → ∃ k d', (σ k).DecidedIdx i d' ∧ d ≤ d' := by
  intro hall
  obtain ⟨c, hc, σ, h0, hf, h2, h3⟩ := stuck_forever (start := lockRun ++ lockRound ++ lockRound) (round := lockRound)
    (by decide +kernel) (by simp [lockRound, dt, Action.Routine, cc]) (by simp [lockRound, dt, cc])
  obtain ⟨k, d', hd, hle⟩ := hall cc c
    ⟨_, (Cluster.drainedB_sound (as := lockRun ++ lockRound ++ lockRound) (by decide +kernel)).tidy, hc⟩ σ h0 hf 3 (by decide)
    2 (by decide) 1 h2
  have := h3 k d' hd
  omega

/-! Finding F16: no server crashes here. Server 2 is leader, all three servers have accepted the entry, and server 2 decides it.
The Decide message to server 3 is lost, and it was the last message of that link, so that server 3 can see no gap in the sequence
numbers. The leader resends neither AcceptDecide nor Decide messages (leader.rs 371-403), heartbeats carry no decided index, and a
follower in the accept phase asks for nothing (follower.rs 240-259). -/

/-- All servers tick, and the messages are delivered in the given order. -/
def ticksThen (l : List (NodeId × NodeId)) : List A :=
  [.call 1 .tick, .call 2 .tick, .call 3 .tick, .take 1, .take 2, .take 3] ++ l.flatMap fun p => dt p.1 p.2

/-- A round in which only heartbeats are exchanged. -/
def heartbeats : List A :=
  ticksThen [(1, 2), (1, 3), (2, 1), (1, 2), (2, 1), (2, 3), (3, 1), (1, 3), (3, 1), (3, 2), (2, 3), (3, 2)]

/-- Server 2 is elected, has [7] accepted by all, decides it, and the Decide message to server 3 is lost. -/
def lostRun : List A :=
  [.start 1 (sc1 1), .start 2 (sc1 2), .start 3 (sc1 3)] ++
  ticksThen [(1, 2), (1, 2), (1, 2), (1, 2), (1, 3), (1, 3), (1, 3), (1, 3), (2, 1), (1, 2), (2, 1), (2, 1), (1, 2), (2, 1), (1, 2),
    (2, 1), (2, 1), (2, 1), (1, 2), (2, 3), (2, 3), (2, 3), (2, 3), (3, 1), (1, 3), (3, 1), (3, 1), (1, 3), (3, 1), (1, 3), (3, 1),
    (3, 1), (3, 1), (1, 3), (3, 2), (2, 3), (3, 2), (3, 2), (2, 3), (3, 2), (2, 3), (3, 2), (3, 2), (3, 2), (2, 3)] ++
  ticksThen [(1, 2), (1, 2), (1, 2), (1, 3), (1, 3), (1, 3), (2, 1), (1, 2), (2, 1), (2, 1), (1, 2), (2, 1), (2, 1), (1, 2), (2, 3),
    (2, 3), (2, 3), (3, 1), (1, 3), (3, 1), (3, 1), (3, 2), (2, 3), (3, 2), (2, 3), (3, 2), (3, 2)] ++
  heartbeats ++ [.call 2 (.append 7), .take 2] ++ dt 2 1 ++ dt 2 3 ++ dt 1 2 ++ [.lose 2 3 0] ++ dt 2 1 ++ dt 3 2

/-- C47 is false of the code also for executions without crashes: one lost message is enough. -/
theorem C47_false_lost_decide : ¬ ∀ (cc : ClusterConfig) (as₀ : List A) (c : C), (∀ i, .crash i ∉ as₀) →
    Cluster.init.DrainedRun cc as₀ → Cluster.init.run cc as₀ = some c →
    ∀ σ : Nat → C, σ 0 = c → (∀ k, ∃ as, (σ k).FullRound cc (σ (k + 1)) as) →
    ∀ i ∈ cc.nodes, ∀ j ∈ cc.nodes, ∀ d, c.DecidedIdx j d → ∃ k d', (σ k).DecidedIdx i d' ∧ d ≤ d' := by
  intro hall
  obtain ⟨c, hc, σ, h0, hf, h2, h3⟩ := stuck_forever (start := lostRun ++ heartbeats) (round := heartbeats)
    (by decide +kernel) (by simp [heartbeats, ticksThen, dt, Action.Routine, cc])
    (by simp [heartbeats, ticksThen, dt, cc])
  have hcr : ((lostRun ++ heartbeats).all fun a => match a with | .crash _ => false | _ => true) = true := by decide +kernel
  obtain ⟨k, d', hd, hle⟩ := hall cc (lostRun ++ heartbeats) c
    (fun i hi => by simpa using List.all_eq_true.1 hcr _ hi)
    (Cluster.drainedB_sound (by decide +kernel)) hc σ h0 hf 3 (by decide)
    2 (by decide) 1 h2
  have := h3 k d' hd
  omega

end sample

end Omni
