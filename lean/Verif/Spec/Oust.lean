import Verif.Spec.Silent
import Verif.Spec.Decided
/-
The leader falls silent: what is known about heartbeats and ballots before that.
-/
namespace Omni

variable {E S : Type}

/-- No heartbeat that waits or is on the way is of a later round than that of the server which asks. -/
def Cluster.Current (cc : ClusterConfig) (c : Cluster E S) : Prop :=
  ∀ i ∈ cc.nodes, ∀ op, c.servers i = .up op →
    (∀ m ∈ op.ble.outgoing, ∀ x, m.msg = .request x → x ≤ op.ble.hb_round) ∧
    ∀ j ∈ cc.nodes, (∀ m x, .ble m ∈ c.net i j → m.msg = .request x → x ≤ op.ble.hb_round) ∧
      (∀ m r, .ble m ∈ c.net j i → m.msg = .reply r → r.round ≤ op.ble.hb_round) ∧
      ∀ op', c.servers j = .up op' → ∀ m ∈ op'.ble.outgoing, m.dst = i → ∀ r, m.msg = .reply r → r.round ≤ op.ble.hb_round

/-- No server has ever led or accepted in a ballot greater than `n`. -/
def Cluster.Under (cc : ClusterConfig) (n : Ballot) (c : Cluster E S) : Prop :=
  ∀ i ∈ cc.nodes, ∀ op, c.servers i = .up op →
    op.sp.ls.n_leader ≤ n ∧ op.sp.ist.cache.accepted_round ≤ n ∧ ∀ b, op.sp.ist.storage.acc_round = some b → b ≤ n

/-- At `c`, the election components of all servers of `L` name `M` as leader and are content with it, and their own ballots are no greater; `M` is that of `M.pid`. -/
def Cluster.Follows (L : List NodeId) (M : Ballot) (c : Cluster E S) : Prop :=
  ∀ i ∈ L, ∃ op, c.servers i = .up op ∧ op.ble.leader = M ∧ op.ble.happy = true ∧ op.ble.current_ballot ≤ M ∧ (i = M.pid → op.ble.current_ballot = M)

/-- Every running server knows its peers. -/
def Cluster.Peered (cc : ClusterConfig) (c : Cluster E S) : Prop :=
  ∀ i ∈ cc.nodes, ∀ op, c.servers i = .up op → op.sp.peers = SP.peersOf cc.nodes i

/-- At `c`, all servers of `L` have promised `M`, and `M.pid` is the leader in it. -/
def Cluster.Promised (L : List NodeId) (M : Ballot) (c : Cluster E S) : Prop :=
  ∀ i ∈ L, ∃ op, c.servers i = .up op ∧ op.get_promise = M ∧ (i = M.pid → op.sp.role = .leader ∧ op.sp.ls.n_leader = M)

/-- At `c`, server `M.pid` leads in `M` and has the promises it needs: it is in the Accept phase. -/
def Cluster.Prepared (M : Ballot) (c : Cluster E S) : Prop :=
  ∃ op, c.servers M.pid = .up op ∧ op.sp.role = .leader ∧ op.sp.ls.n_leader = M ∧ op.sp.phase = .accept

/-- At `c`, all servers of `L` have taken over a log in ballot `M` (it is the last ballot in which they have accepted), and `M.pid` leads in it. -/
def Cluster.Joined (L : List NodeId) (M : Ballot) (c : Cluster E S) : Prop :=
  c.Prepared M ∧ ∀ i ∈ L, ∃ op, c.servers i = .up op ∧ op.sp.ist.cache.accepted_round = M ∧ op.sp.ist.storage.acc_round = some M

/-- At `c'`, all servers of `L` have whatever any server had decided at `c`: every decided position is in their storages, and they hold the entry that was decided there or have compacted it. -/
def Cluster.Keeps (cc : ClusterConfig) (L : List NodeId) (c c' : Cluster E S) : Prop :=
  ∀ j ∈ cc.nodes, ∀ o, c.servers j = .up o → ∀ p, p < o.sp.ist.storage.ld →
    ∀ i ∈ L, ∃ op, c'.servers i = .up op ∧ op.sp.ist.storage.HasPos p ∧ op.sp.ist.storage.Keeps o.sp.ist.storage p

end Omni
