import Verif.Proof.Heartbeat
/-
Heartbeat messages go between different servers of the configuration.
-/
namespace Omni

variable {E S : Type} [SnapOps E S]

/-- Between different servers of the configuration. -/
def Message.Between (nodes : List NodeId) : Message E S → Prop
  | .paxos _ => True
  | .ble m => m.src ∈ nodes ∧ m.dst ∈ nodes ∧ m.dst ≠ m.src

/-- The election part of server `i` of the configuration. -/
structure BLE.Routes (nodes : List NodeId) (q : Quorum) (i : NodeId) (b : BLE) : Prop where
  pid : b.pid = i
  quo : b.quorum = q
  peers : ∀ p ∈ b.peers, p ∈ nodes ∧ p ≠ i
  out : ∀ m ∈ b.outgoing, m.src = i ∧ m.dst ∈ nodes ∧ m.dst ≠ i

namespace BLE

variable {nodes : List NodeId} {q : Quorum} {i : NodeId} {b : BLE}

theorem rt_new_round (h : b.Routes nodes q i) : b.new_hb_round.Routes nodes q i := by
  refine ⟨h.pid, h.quo, h.peers, fun m hm => ?_⟩
  rcases List.mem_append.1 hm with hm | hm
  · exact h.out m hm
  · obtain ⟨p, hp, rfl⟩ := List.mem_map.1 hm
    exact ⟨h.pid, h.peers p hp⟩

theorem rt_hb_timeout (h : b.Routes nodes q i) (r : Role) (p : Phase) (n : Ballot) : (b.hb_timeout r p n).2.Routes nodes q i := by
  have h1 : ∀ c : BLE, c.Routes nodes q i → c.check_takeover.Routes nodes q i := by
    intro c hc; unfold check_takeover; split <;> (try split) <;> exact ⟨hc.pid, hc.quo, hc.peers, hc.out⟩
  have h2 : ∀ c : BLE, c.Routes nodes q i → c.update_leader.Routes nodes q i := by
    intro c hc; unfold update_leader; split <;> (try split) <;> exact ⟨hc.pid, hc.quo, hc.peers, hc.out⟩
  have h3 : ∀ c : BLE, c.Routes nodes q i → (c.sync_with_promise n).Routes nodes q i := by
    intro c hc; unfold sync_with_promise; split <;> exact ⟨hc.pid, hc.quo, hc.peers, hc.out⟩
  have h4 : ∀ c : BLE, c.Routes nodes q i → (c.update_happiness r p).Routes nodes q i := fun c hc => ⟨hc.pid, hc.quo, hc.peers, hc.out⟩
  exact h3 _ (rt_new_round (h1 _ (h4 _ (h2 b h))))

theorem rt_handle (h : b.Routes nodes q i) (m : BLEMessage) (hs : m.src ∈ nodes ∧ m.src ≠ i) : (b.handle m).Routes nodes q i := by
  unfold handle
  split
  · refine ⟨h.pid, h.quo, h.peers, fun x hx => ?_⟩
    rcases List.mem_append.1 hx with hx | hx
    · exact h.out x hx
    · rw [List.mem_singleton.1 hx]; exact ⟨h.pid, hs⟩
  · unfold handle_reply; split <;> exact ⟨h.pid, h.quo, h.peers, h.out⟩

theorem rt_with (cid : Nat) (peers : List NodeId) (hp : ∀ p ∈ peers, p ∈ nodes ∧ p ≠ i) (prio : Nat) (fq : Option FlexibleQuorum)
    (rl : Option Ballot) : (BLE.with cid i peers prio fq rl).Routes nodes (Quorum.with fq (peers.length + 1)) i := by
  unfold BLE.with
  split <;> (try split) <;> exact rt_new_round ⟨rfl, rfl, hp, nofun⟩

end BLE

theorem BLE.routes_runs {cc : ClusterConfig} {acts : List (LAction E S)} {c : Loose E S} (hr : Loose.init.run cc acts = some c) :
    LInv (fun i op => i ∈ cc.nodes ∧ op.ble.Routes cc.nodes (Quorum.with cc.flexible_quorum ((SP.peersOf cc.nodes i).length + 1)) i)
      (fun _ _ => True) (Message.Between cc.nodes) c := by
  have hc : LClosed (E := E) (S := S) cc (fun _ => True) (fun i op => i ∈ cc.nodes ∧
      op.ble.Routes cc.nodes (Quorum.with cc.flexible_quorum ((SP.peersOf cc.nodes i).length + 1)) i) (fun _ _ => True)
      (Message.Between cc.nodes) := by
    refine ⟨fun _ => trivial, fun cfg d op _ hb => ?_, fun _ _ _ => trivial, fun i op call hu _ hi => ⟨fun op' e => ⟨hu.1, ?_⟩, fun _ _ => trivial,
      fun _ _ => trivial⟩, fun i op hu => ⟨⟨hu.1, hu.2.pid, hu.2.quo, hu.2.peers, nofun⟩, fun m hm => ?_⟩⟩
    · refine ⟨(OP.build_node hb).2.1, ?_⟩
      obtain ⟨mp, hmp, rfl⟩ := OP.build_eq hb
      refine BLE.rt_with _ _ (fun p hp => ?_) _ _ _
      obtain ⟨h1, h2⟩ := List.mem_filter.1 hp
      exact ⟨h1, of_decide_eq_true h2⟩
    · refine OP.run_ble e hu.2 (fun b r p hb => BLE.rt_hb_timeout hb r p _) (fun b p hb => ⟨hb.pid, hb.quo, hb.peers, hb.out⟩) fun m em b hb => ?_
      obtain ⟨k1, k2⟩ := hi _ em
      have k2 : m.dst = i := k2
      exact BLE.rt_handle hb m ⟨k1.1, fun e => k1.2.2 (k2.trans e.symm)⟩
    · simp only [OP.take_outgoing_messages, SP.take_outgoing_msgs, List.isEmpty_nil, if_true, List.mem_append, List.mem_map] at hm
      rcases hm with ⟨x, hx, rfl⟩ | ⟨x, hx, rfl⟩
      · trivial
      · have := hu.2.out x hx
        exact ⟨this.1 ▸ hu.1, this.2.1, this.1 ▸ this.2.2⟩
  exact LInv.runs hc (fun a _ => by cases a <;> trivial) hr

theorem Message.between_runs {cc : ClusterConfig} {acts : List (LAction E S)} {c : Loose E S}
    (hr : Loose.init.run cc acts = some c) {m : Message E S} (hm : m ∈ c.sent) : m.Between cc.nodes :=
  (BLE.routes_runs hr).sent m hm

end Omni
