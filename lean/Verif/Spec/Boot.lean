import Verif.Spec.Beats
/-
The start of a cluster: the configurations of the servers, and who is to lead.
-/
namespace Omni

/-- The ballot with which server `i` enters the first election (ballot_leader_election.rs 103-151). -/
def firstBallot (cc : ClusterConfig) (cfg : NodeId → ServerConfig) (i : NodeId) : Ballot :=
  { config_id := cc.configuration_id, n := 1, priority := (cfg i).leader_priority, pid := i }

/-- Server `l` has the greatest priority, or the greatest number among those with the greatest priority. The election timeouts are at least five ticks long, the
resend timeouts at least seven ticks longer than the election timeout of `l`, and the flush timeouts at most `f` ticks (and not zero, in which case they never fire). -/
structure Favours (cc : ClusterConfig) (cfg : NodeId → ServerConfig) (f : Nat) (l : NodeId) : Prop where
  member : l ∈ cc.nodes
  greatest : ∀ i ∈ cc.nodes, i ≠ l → (cfg i).leader_priority < (cfg l).leader_priority ∨ ((cfg i).leader_priority = (cfg l).leader_priority ∧ i < l)
  election : ∀ i ∈ cc.nodes, 5 ≤ (cfg i).election_tick_timeout
  resend : ∀ i ∈ cc.nodes, (cfg l).election_tick_timeout + 7 ≤ (cfg i).resend_message_tick_timeout
  flush : ∀ i ∈ cc.nodes, 0 < (cfg i).flush_batch_tick_timeout ∧ (cfg i).flush_batch_tick_timeout ≤ f

end Omni
