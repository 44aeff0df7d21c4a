import Verif.Proof.Counters
import Verif.Props.Network
/-
C64: the numbers that a server increments stay as small as the number of times it was asked to.
-/
namespace Omni

variable {E S : Type} [SnapOps E S]

/-- C64: in every run on an arbitrary network, with crashes and restarts, no ballot number and no heartbeat round held by a
server (promise, round of the accepted log, ballot of its leader state, own ballot and leader of the election) is larger than one plus the number of
ticks and calls of `try_become_leader` made so far on all servers. Nothing else raises them: no message, no other call, no restart. -/
theorem C64_numbers (cc : ClusterConfig) (acts : List (LAction E S)) (c : Loose E S) (hr : Loose.init.run cc acts = some c)
    (i : NodeId) (op : OP E S) (h : c.servers i = .up op) :
    op.get_promise.n ≤ elections acts + 1 ∧ op.sp.ist.cache.accepted_round.n ≤ elections acts + 1 ∧
    op.sp.ls.n_leader.n ≤ elections acts + 1 ∧ op.ble.current_ballot.n ≤ elections acts + 1 ∧
    op.ble.leader.n ≤ elections acts + 1 ∧ op.ble.hb_round ≤ elections acts + 1 := by
  have hu := (UpTo.runs hr).up i op h
  exact ⟨UpTo.le_of_bal (E := E) (S := S) hu.srv.sp.ist.cprom, UpTo.le_of_bal (E := E) (S := S) hu.srv.sp.ist.cacc,
    UpTo.le_of_bal (E := E) (S := S) hu.srv.sp.lead, hu.ble.own, hu.ble.lead, hu.ble.round⟩

/-- C64: nor is a ballot number in the storage of a server that is down. -/
theorem C64_stored_numbers (cc : ClusterConfig) (acts : List (LAction E S)) (c : Loose E S) (hr : Loose.init.run cc acts = some c)
    (i : NodeId) (d : Mem E S) (h : c.servers i = .down d) (b : Ballot) (hb : d.n_prom = some b ∨ d.acc_round = some b) :
    b.n ≤ elections acts + 1 := by
  have hd := (UpTo.runs hr).down i d h
  rcases hb with hb | hb
  · exact UpTo.le_of_bal (E := E) (S := S) (hd.mem.prom b hb)
  · exact UpTo.le_of_bal (E := E) (S := S) (hd.mem.accr b hb)

/-- C64: as long as fewer than 2^32 - 2 such calls were made, the three additions in the code (`leader.n + 1` at a takeover,
`get_promise().n + 1` in `try_become_leader`, `hb_round += 1` of a new round) stay within `u32`, so that natural numbers are a
faithful model of them. -/
theorem C64_no_overflow (cc : ClusterConfig) (acts : List (LAction E S)) (c : Loose E S) (hr : Loose.init.run cc acts = some c)
    (hk : elections acts + 2 < 2 ^ 32) (i : NodeId) (op : OP E S) (h : c.servers i = .up op) :
    op.ble.update_leader.leader.n + 1 < 2 ^ 32 ∧ op.get_promise.n + 1 < 2 ^ 32 ∧ op.ble.hb_round + 1 < 2 ^ 32 := by
  have hu := (UpTo.runs hr).up i op h
  have h1 := (BLE.upTo_update_leader hu.ble).lead
  have h2 : op.get_promise.n ≤ elections acts + 1 := UpTo.le_of_bal (E := E) (S := S) hu.srv.sp.ist.cprom
  have h3 := hu.ble.round
  omega

namespace Sample

attribute [local instance] noSync

/-- Server 1 counts every tick as an election timeout; it ticks three times, leads from the first tick on, and raises its ballot twice. -/
def countRun : List (LAction Nat (List Nat)) :=
  [.start 1 { sc 1 with election_tick_timeout := 1 }, .start 2 (sc 2), .start 3 (sc 3), .call 1 .tick, .call 1 .tick, .call 1 .tick,
   .call 1 .tryBecomeLeader, .call 1 .tryBecomeLeader]

/-- Concrete case for C64: after three ticks the round is four, the bound; two calls of `try_become_leader` later the ballot
number is three. -/
example : elections (countRun.take 6) = 3 ∧ ∃ c a b d, Loose.init.run cc (countRun.take 6) = some c ∧ c.servers 1 = .up a ∧
    c.servers 2 = .up b ∧ c.servers 3 = .up d ∧ decide (a.ble.hb_round = 4 ∧ a.get_promise.n = 1) = true :=
  ⟨by decide, net_check (by decide +kernel)⟩
example : ∃ c a b d, Loose.init.run cc countRun = some c ∧ c.servers 1 = .up a ∧ c.servers 2 = .up b ∧ c.servers 3 = .up d ∧
    decide (a.get_promise.n = 3) = true :=
  net_check (by decide +kernel)

end Sample
end Omni
