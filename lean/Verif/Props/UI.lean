import Verif.Proof.UI
import Verif.Proof.Heartbeat
import Verif.Proof.LeaderKeep
import Verif.Proof.Embed
import Verif.Props.Network
import Verif.Props.Witness
/-
C55, C56, C57: the dashboard.
-/
namespace Omni

variable {E S : Type}

theorem maxPid_maxNode {nodes : List NodeId} {i mp : NodeId} (hi : i ∈ nodes) (h : SP.maxPid i (SP.peersOf nodes i) = some mp) :
    mp = maxNode nodes := by
  unfold SP.maxPid at h
  split at h
  · cases h
  · rename_i p ps e
    cases h
    refine maxNode_eq hi ?_
    unfold SP.peersOf at e
    rw [e, List.max?_cons']

/-- The states that a server shows have the form that the dashboard of the same configuration expects. -/
theorem OP.ui_fits [SnapOps E S] {cc : ClusterConfig} {acts : List (LAction E S)} {c : Loose E S} (hr : Loose.init.run cc acts = some c)
    {i : NodeId} {op : OP E S} (hop : c.servers i = .up op) : i ∈ cc.nodes ∧ op.get_ui_states.Fits cc.nodes := by
  have hL := Loose.leader_inv (P := fun ls : LeaderState E S => ls.max_pid = maxNode cc.nodes ∧ ls.accepted_indexes.length = maxNode cc.nodes)
    (lsLength (maxNode cc.nodes)) (cc := cc) (fun i hi n mp hmp => by
      have : mp = maxNode cc.nodes := maxPid_maxNode hi hmp
      simp [LeaderState.with, this]) hr hop
  refine ⟨hL.1, ?_, fun l hl => ?_⟩
  · simp [OP.get_ui_states, hL.2.2]
  · unfold OP.get_ui_states at hl
    simp only [Option.map_eq_some_iff] at hl
    obtain ⟨⟨p, f⟩, h1, h2⟩ := hl
    subst h2
    exact ((C37_leader_information cc acts c hr i op hop).2.1 p f h1).2

theorem UIStates.OfServer.fits [SnapOps E S] {cc : ClusterConfig} {pid : NodeId} {st : UIStates}
    (h : UIStates.OfServer (E := E) (S := S) cc pid st) : pid ∈ cc.nodes ∧ st.Fits cc.nodes := by
  obtain ⟨acts, c, op, hr, hop, rfl⟩ := h
  exact OP.ui_fits hr hop

/-! ## C55 -/

/-- C55 without the role at the moment of the tick: a started dashboard that was only given states of its server shows, after a
tick, the decided index, the leader and the ballot number of the server, the entries decided since the tick before, and as
connected exactly the other servers from which a reply was kept at the last election timeout. The role and, for a leader, the
accepted indexes follow the leader shown at the tick before.
Missing: the role should be that of the moment, see `C55_false_role`. -/
theorem C55_dashboard_partial [SnapOps E S] (cfg : OmniPaxosConfig) (u u' : UI) (q : Bool)
    (h : UI.Reached cfg (UIStates.OfServer (E := E) (S := S) cfg.cluster_config cfg.server_config.pid) u)
    (acts : List (LAction E S)) (c : Loose E S) (hr : Loose.init.run cfg.cluster_config acts = some c) (op : OP E S)
    (hop : c.servers cfg.server_config.pid = .up op) (hs : u.started = true) (ht : u.tick op.get_ui_states q = some u') :
    u'.app.decided_idx = op.get_decided_idx ∧
    u'.app.current_leader = op.get_current_leader.map (·.1) ∧
    u'.app.current_node.pid = cfg.server_config.pid ∧
    u'.app.current_node.ballot_number = op.ble.current_ballot.n ∧
    u'.app.throughput_data = (op.get_decided_idx - u.app.decided_idx) :: u.app.throughput_data ∧
    (u'.app.active_peers.map (·.pid)).Perm (cfg.cluster_config.nodes.filter fun p => decide (p ≠ cfg.server_config.pid)) ∧
    (∀ n ∈ u'.app.active_peers,
      (n.connected = true → ∃ r ∈ op.ble.prev_replies, r.ballot.pid = n.pid ∧ n.ballot_number = r.ballot.n ∧
        n.leader = r.leader.pid) ∧
      (n.connected = false → ∀ r ∈ op.ble.prev_replies, r.ballot.pid ≠ n.pid)) ∧
    (u.app.current_leader = some cfg.server_config.pid → u'.app.current_role = .leader ∧
      ∀ p, 0 < p → u'.app.followers_accepted_idx[p]? = op.sp.ls.get_accepted_idx p) ∧
    (∀ l, u.app.current_leader = some l → l ≠ cfg.server_config.pid → u'.app.current_role = .follower) ∧
    (u.app.current_leader = none → (u'.app.current_role = .leader ↔ u.app.current_role = .leader)) := by
  obtain ⟨hp, hf⟩ := OP.ui_fits hr hop
  have hsh := UI.shape hp (fun st hst => hst.fits.2) h
  obtain ⟨k1, k2⟩ := UI.tick_ok hsh hp hf hs q
  by_cases hd : op.get_ui_states.decided_idx < u.app.decided_idx
  · rw [k1 hd] at ht; cases ht
  obtain ⟨a, e, s, a1, a2, a3, a4, a5, a6⟩ := k2 hd
  rw [e] at ht
  rw [UI.shape_update ht]
  refine ⟨a1, a2, by rw [a3]; exact hsh.self, by rw [a3]; rfl, a4, s.peers, fun n hn => ?_, fun hl => ?_, fun l hl hne => ?_, fun hl => ?_⟩
  · rw [a5] at hn
    obtain ⟨m, hm, rfl⟩ := List.mem_map.1 hn
    unfold App.peerShown
    cases hfd : op.get_ui_states.heartbeats.find? fun x => x.ballot.pid = m.pid with
    | none =>
      simp only [Bool.false_eq_true, false_implies, true_and, forall_const]
      rw [List.find?_eq_none] at hfd
      intro r hr hx
      exact hfd r hr (by simpa using hx)
    | some r =>
      simp only [forall_const, Bool.true_eq_false, false_implies, and_true]
      exact ⟨r, List.mem_of_find?_eq_some hfd, by simpa using List.find?_some hfd, rfl, rfl⟩
  · unfold App.drawn at a6
    rw [hl] at a6
    simp only [hsh.self, if_true] at a6
    split at a6
    · rename_i hrole
      have hx := Option.some.inj a6
      refine ⟨hrole, fun p hp0 => ?_⟩
      obtain ⟨k, rfl⟩ : ∃ k, p = k + 1 := ⟨p - 1, by omega⟩
      simp only [hx, OP.get_ui_states, List.getElem?_cons_succ, LeaderState.get_accepted_idx, slot]
    · cases a6
  · unfold App.drawn at a6
    rw [hl] at a6
    simp only [hsh.self, hne, if_false] at a6
    split at a6
    · cases a6
    · rename_i hrole; cases h : a.current_role with
      | follower => rfl
      | leader => exact absurd h hrole
  · unfold App.drawn at a6
    rw [hl] at a6
    simp only at a6
    constructor
    · intro hx
      rw [if_pos hx] at a6
      split at a6
      · assumption
      · cases a6
    · intro hx
      rw [if_pos hx] at a6
      split at a6
      · assumption
      · cases a6

/-- C55, connection: if the dashboard shows another server as connected, then that server has answered the heartbeat request of the
round that the server finished last, and the dashboard shows the ballot number and the leader that it answered with. -/
theorem C55_connected [SnapOps E S] (cfg : OmniPaxosConfig) (u u' : UI) (q : Bool)
    (h : UI.Reached cfg (UIStates.OfServer (E := E) (S := S) cfg.cluster_config cfg.server_config.pid) u)
    (acts : List (LAction E S)) (c : Loose E S) (hr : Loose.init.run cfg.cluster_config acts = some c) (op : OP E S)
    (hop : c.servers cfg.server_config.pid = .up op) (hs : u.started = true) (ht : u.tick op.get_ui_states q = some u')
    (n : UINode) (hn : n ∈ u'.app.active_peers) (hc : n.connected = true) :
    ∃ r : HeartbeatReply, r.round + 1 = op.ble.hb_round ∧ n.ballot_number = r.ballot.n ∧ n.leader = r.leader.pid ∧
      .ble { src := cfg.server_config.pid, dst := n.pid, msg := .request r.round } ∈ c.sent ∧
      .ble { src := n.pid, dst := cfg.server_config.pid, msg := .reply r } ∈ c.sent := by
  obtain ⟨-, -, -, -, -, -, h7, -⟩ := C55_dashboard_partial cfg u u' q h acts c hr op hop hs ht
  obtain ⟨r, hr1, hr2, hr3, hr4⟩ := (h7 n hn).1 hc
  have hb := ((HBRun.runs hr).srv _ op hop).prev r hr1
  refine ⟨r, hb.1, hr3, hr4, ?_, ?_⟩
  · have := hb.2.2; rw [hr2] at this; exact this
  · have := hb.2.1; rw [hr2] at this; exact this

/-! ## C56 -/

/-- C55, colours: every server is drawn in the colour of its rank among the servers, the leader in the colour of the leader shown, and
in none if no leader is known. -/
theorem C55_colours (cfg : OmniPaxosConfig) (hn : cfg.cluster_config.nodes.Nodup)
    (hp : cfg.server_config.pid ∈ cfg.cluster_config.nodes) (ok : UIStates → Prop) (u : UI) (h : UI.Reached cfg ok u) :
    u.app.current_node.color = some (colourOf cfg.cluster_config.nodes u.app.current_node.pid) ∧
    (∀ n ∈ u.app.nodes ++ u.app.active_peers, n.color = some (colourOf cfg.cluster_config.nodes n.pid)) ∧
    u.app.leader_color = u.app.current_leader.map (colourOf cfg.cluster_config.nodes) := by
  have := UI.colours hn hp h
  exact ⟨this.self, fun n h => (List.mem_append.1 h).elim (this.all n) (this.peers n), this.leader⟩

/-- C55, starting and stopping: after `start` the dashboard runs, after `stop` it does not, and what it shows stays the same. -/
theorem C55_start_stop (u : UI) : (∀ q u', u.start q = some u' → u'.started = true ∧ u'.app = u.app) ∧
    u.stop.started = false ∧ u.stop.app = u.app := by
  refine ⟨fun q u' h => ?_, rfl, rfl⟩
  unfold UI.start at h
  split at h
  · rename_i hs; cases h; exact ⟨hs, rfl⟩
  · rename_i hs
    have hs' : u.started = false := by simpa using hs
    simp only [UI.update_ui, hs', Bool.false_and, Bool.false_eq_true, if_false] at h
    cases h; exact ⟨rfl, rfl⟩

/-- C55, quitting: a dashboard that runs goes on running after a tick exactly if the user did not quit; one that does not run is not
changed by a tick. -/
theorem C55_quit (u u' : UI) (st : UIStates) (q : Bool) (ht : u.tick st q = some u') :
    (u.started = true → (u'.started = true ↔ q = false)) ∧ (u.started = false → u' = u) := by
  have upd : ∀ v : UI, v.started = true → v.update_ui q = some u' → (u'.started = true ↔ q = false) := by
    intro v hv h
    unfold UI.update_ui at h
    cases q with
    | true => rw [if_neg (by simp)] at h; cases h; simp
    | false =>
      rw [if_pos (by simp [hv])] at h
      split at h
      · cases h
      · cases h; simp [hv]
  unfold UI.tick at ht
  refine ⟨fun hs => ?_, fun hs => ?_⟩
  · rw [if_pos hs] at ht
    split at ht
    · cases ht
    · split at ht
      · cases ht
      · split at ht
        · cases ht
        · rename_i a _; exact upd ⟨a, u.started⟩ hs ht
  · rw [if_neg (by simp [hs])] at ht
    cases ht; rfl

/-- C56, when a tick panics: the decided index is smaller than at the tick before, or the node is drawn as leader and some other
server is recorded with a larger accepted index than the node's own, if that is not 0. -/
theorem C56_tick_panics_iff [SnapOps E S] (cfg : OmniPaxosConfig) (u : UI) (q : Bool)
    (h : UI.Reached cfg (UIStates.OfServer (E := E) (S := S) cfg.cluster_config cfg.server_config.pid) u) (st : UIStates)
    (hst : UIStates.OfServer (E := E) (S := S) cfg.cluster_config cfg.server_config.pid st) :
    u.tick st q = none ↔ u.started = true ∧ (st.decided_idx < u.app.decided_idx ∨
      q = false ∧ ∃ accepted, u.app.drawn st = some accepted ∧ Ahead cfg.server_config.pid cfg.cluster_config.nodes accepted) := by
  obtain ⟨hp, hf⟩ := hst.fits
  have hsh := UI.shape hp (fun st hst => hst.fits.2) h
  by_cases hs : u.started = true
  · simp only [hs, true_and]
    obtain ⟨k1, k2⟩ := UI.tick_ok hsh hp hf hs q
    by_cases hd : st.decided_idx < u.app.decided_idx
    · simp [k1 hd, hd]
    · simp only [hd, false_or]
      obtain ⟨a, e, s, -, -, -, -, -, a6⟩ := k2 hd
      rw [e]
      have hrn := App.render_none s hp
      unfold UI.update_ui
      cases q with
      | true => simp
      | false =>
        simp only [hs, Bool.not_false, Bool.and_self, if_true, true_and]
        rw [← a6]
        constructor
        · intro hx
          have : a.render = none := by
            split at hx
            · assumption
            · cases hx
          obtain ⟨h1, h2⟩ := hrn.1 this
          exact ⟨_, by rw [if_pos h1], h2⟩
        · rintro ⟨acc, h1, h2⟩
          split at h1
          · rename_i hrole
            cases h1
            rw [hrn.2 ⟨hrole, h2⟩]
          · cases h1
  · simp only [hs, Bool.false_eq_true, false_and, iff_false]
    unfold UI.tick
    rw [if_neg hs]; simp

/-- C56, creating and starting a dashboard of a cluster of at least two servers succeeds. -/
theorem C56_start (cfg : OmniPaxosConfig) (hp : cfg.server_config.pid ∈ cfg.cluster_config.nodes)
    (h2 : ∃ p ∈ cfg.cluster_config.nodes, p ≠ cfg.server_config.pid) (q : Bool) :
    ∃ u u', UI.with cfg = some u ∧ u.start q = some u' ∧ u'.started = true := by
  obtain ⟨p, hpn, hne⟩ := h2
  have hmem : p ∈ uiPeers cfg := List.mem_filter.2 ⟨hpn, by simpa using hne⟩
  obtain ⟨m, hm⟩ : ∃ m, (uiPeers cfg).max? = some m := by
    cases e : uiPeers cfg with
    | nil => rw [e] at hmem; cases hmem
    | cons x xs => exact ⟨_, List.max?_cons'⟩
  obtain ⟨u, hu, hr⟩ : ∃ u, UI.with cfg = some u ∧ u.started = false := by
    unfold UI.with App.with
    rw [hm]
    exact ⟨_, rfl, rfl⟩
  refine ⟨u, { u with started := true }, hu, ?_, rfl⟩
  unfold UI.start UI.update_ui
  simp [hr]

section Example
attribute [local instance] Sample.noSync
open Sample

/-- A run on ordered links is a run on an arbitrary network. -/
theorem Cluster.AnyReach.ofServer {c : C} (h : c.AnyReach cc) {i : NodeId} {op : OP Nat (List Nat)} (hop : c.servers i = .up op) :
    ∃ acts l, Loose.init.run cc acts = some l ∧ l.servers i = .up op := by
  obtain ⟨as, -, hr⟩ := h
  obtain ⟨bs, l, -, hl, he⟩ := Embeds.init.run (ok := fun _ => True) (fun a _ => by cases a <;> trivial) hr
  exact ⟨bs, l, hl, by rw [he.servers]; exact hop⟩

/-- The dashboard of server 1 of the sample cluster, started. -/
def dashboard : Option UI := (UI.with (cfg 1)).bind fun u => u.start false

/-- Some ticks with the state of the server. -/
def ticks (u : Option UI) (op : OP Nat (List Nat)) : Nat → Option UI
  | 0 => u
  | n + 1 => (ticks u op n).bind fun u => u.tick op.get_ui_states false

theorem dashboard_reached {ok : UIStates → Prop} {u : UI} (h : dashboard = some u) : UI.Reached (cfg 1) ok u := by
  unfold dashboard at h
  obtain ⟨v, h1, h2⟩ := Option.bind_eq_some_iff.1 h
  exact .start (.with h1) h2

theorem ticks_reached {ok : UIStates → Prop} {u : Option UI} {op : OP Nat (List Nat)} (h : ∀ v, u = some v → UI.Reached (cfg 1) ok v)
    (hok : ok op.get_ui_states) : ∀ (n : Nat) (w : UI), ticks u op n = some w → UI.Reached (cfg 1) ok w
  | 0, w, e => h w e
  | n + 1, w, e => by
    obtain ⟨v, h1, h2⟩ := Option.bind_eq_some_iff.1 e
    exact .tick (ticks_reached h hok n v h1) hok h2

/-- C55 is false of the code: the role lags behind. At the tick after server 1 became leader, its dashboard shows it as the
leader but in the role of a follower. -/
theorem C55_false_role : ¬ ∀ (cfg : OmniPaxosConfig) (u u' : UI) (q : Bool),
    UI.Reached cfg (UIStates.OfServer (E := Nat) (S := List Nat) cfg.cluster_config cfg.server_config.pid) u →
    ∀ (acts : List (LAction Nat (List Nat))) (c : Loose Nat (List Nat)) (op : OP Nat (List Nat)),
    Loose.init.run cfg.cluster_config acts = some c → c.servers cfg.server_config.pid = .up op → u.started = true →
    u.tick op.get_ui_states q = some u' → (u'.app.current_role = .leader ↔ op.get_current_leader.map (·.1) = some cfg.server_config.pid) := by
  intro hall
  obtain ⟨c, h, hP⟩ := run1_elim (cc := cc) (as := [.start 1 (sc 1), .call 1 .tryBecomeLeader])
    (P := fun c => onUp c 1 (fun op => op.get_current_leader.map (·.1) = some 1 ∧ (dashboard.map (·.started)) = some true ∧
      ((dashboard.bind fun u => u.tick op.get_ui_states false).map (·.app.current_role)) = some Role.follower)) (by decide +kernel)
  obtain ⟨op, h1, h1'⟩ := onUp_elim hP
  obtain ⟨e1, e2, e3⟩ := of_decide_eq_true h1'
  obtain ⟨acts, l, hl, hl'⟩ := h.ofServer h1
  obtain ⟨u, hu, hs⟩ := Option.map_eq_some_iff.1 e2
  obtain ⟨u', hu', hrole⟩ := Option.map_eq_some_iff.1 e3
  rw [hu] at hu'
  have := (hall (cfg 1) u u' false (dashboard_reached hu) acts l op hl hl' hs hu').2 e1
  rw [hrole] at this
  cases this

/-- C56 is false of the code: a dashboard that shows two successive states of one run panics, because the decided index of a
running server went back (finding F3). -/
theorem C56_false_decided : ∃ (c c' : C) (op op' : OP Nat (List Nat)) (u : UI), c.AnyReach cc ∧ c.step cc (.deliver 3 1) = some c' ∧
    c.servers 1 = .up op ∧ c'.servers 1 = .up op' ∧ (dashboard.bind fun u => u.tick op.get_ui_states false) = some u ∧
    u.tick op'.get_ui_states false = none := by
  have : (match Cluster.init.run cc undecideRun with
    | none => false
    | some c => match c.step cc (.deliver 3 1) with
      | none => false
      | some c' => match c.servers 1, c'.servers 1 with
        | .up op, .up op' => match dashboard.bind fun u => u.tick op.get_ui_states false with
          | some u => (u.tick op'.get_ui_states false).isNone
          | none => false
        | _, _ => false) = true := by decide +kernel
  split at this
  · simp at this
  · rename_i c hc
    split at this
    · simp at this
    · rename_i c' hc'
      split at this
      · rename_i op op' e e'
        split at this
        · rename_i u hu
          exact ⟨c, c', op, op', u, ⟨_, by decide, hc⟩, hc', e, e', hu, Option.isNone_iff_eq_none.1 this⟩
        · simp at this
      · simp at this

/-- C56 is false of the code for another reason: after a StopSign was counted twice (finding F5) the leader records a follower as
having accepted more than itself, and the progress bar of that follower panics. -/
theorem C56_false_progress : ∃ (c c' : C) (op op' : OP Nat (List Nat)) (u : UI), c.AnyReach cc ∧ c.AnyLater cc c' ∧
    c.servers 1 = .up op ∧ c'.servers 1 = .up op' ∧ (dashboard.bind fun u => u.tick op.get_ui_states false) = some u ∧
    op.get_decided_idx = op'.get_decided_idx ∧ u.tick op'.get_ui_states false = none := by
  have : (match Cluster.init.run cc reconfRun with
    | none => false
    | some c => match c.run cc resync2 with
      | none => false
      | some c' => match c.servers 1, c'.servers 1 with
        | .up op, .up op' => match dashboard.bind fun u => u.tick op.get_ui_states false with
          | some u => decide (op.get_decided_idx = op'.get_decided_idx) && (u.tick op'.get_ui_states false).isNone
          | none => false
        | _, _ => false) = true := by decide +kernel
  split at this
  · simp at this
  · rename_i c hc
    split at this
    · simp at this
    · rename_i c' hc'
      split at this
      · rename_i op op' e e'
        split at this
        · rename_i u hu
          simp only [Bool.and_eq_true, decide_eq_true_eq] at this
          exact ⟨c, c', op, op', u, ⟨_, by decide, hc⟩, ⟨_, by decide, hc'⟩, e, e', hu, this.1, Option.isNone_iff_eq_none.1 this.2⟩
        · simp at this
      · simp at this

end Example

/-! ## C57 -/

/-- C57: the dashboard keeps one number per tick, and never fewer: the list of throughputs grows without bound (the constant
THROUGHPUT_DATA_SIZE is only its initial capacity). The numbers add up to the decided index. -/
theorem C57_throughput [SnapOps E S] (cfg : OmniPaxosConfig) (u : UI)
    (h : UI.Reached cfg (UIStates.OfServer (E := E) (S := S) cfg.cluster_config cfg.server_config.pid) u) :
    u.app.throughput_data.sum = u.app.decided_idx ∧
    ∀ st q u', UIStates.OfServer (E := E) (S := S) cfg.cluster_config cfg.server_config.pid st → u.started = true →
      u.tick st q = some u' → u'.app.throughput_data.length = u.app.throughput_data.length + 1 := by
  have tick1 : ∀ {u u' : UI} {st q}, UI.Reached cfg (UIStates.OfServer (E := E) (S := S) cfg.cluster_config cfg.server_config.pid) u →
      UIStates.OfServer (E := E) (S := S) cfg.cluster_config cfg.server_config.pid st → u.started = true → u.tick st q = some u' →
      u.app.decided_idx ≤ u'.app.decided_idx ∧
      u'.app.throughput_data = (u'.app.decided_idx - u.app.decided_idx) :: u.app.throughput_data := by
    intro u u' st q h hst hs ht
    obtain ⟨acts, c, op, hr, hop, rfl⟩ := hst
    obtain ⟨hp, hf⟩ := OP.ui_fits hr hop
    have hsh := UI.shape hp (fun st hst => hst.fits.2) h
    obtain ⟨k1, k2⟩ := UI.tick_ok hsh hp hf hs q
    by_cases hd : op.get_ui_states.decided_idx < u.app.decided_idx
    · rw [k1 hd] at ht; cases ht
    obtain ⟨a, e, s, a1, a2, a3, a4, a5, a6⟩ := k2 hd
    rw [e] at ht
    rw [UI.shape_update ht, a1, a4]
    exact ⟨Nat.le_of_not_lt hd, rfl⟩
  refine ⟨?_, fun st q u' hst hs ht => by rw [(tick1 h hst hs ht).2]; rfl⟩
  induction h with
  | «with» h =>
    unfold UI.with App.with at h
    split at h
    · cases h
    · rename_i a ha
      split at ha
      · cases ha
      · cases ha; cases h; rfl
  | start h hs ih =>
    unfold UI.start at hs
    split at hs
    · cases hs; exact ih
    · split at hs
      · cases hs
      · rename_i hu; cases hs
        simp only
        rw [UI.shape_update hu]; exact ih
  | stop h ih => exact ih
  | @tick u u' st q h hst ht ih =>
    by_cases hs : u.started = true
    · obtain ⟨h1, h2⟩ := tick1 h hst hs ht
      rw [h2, List.sum_cons, ih]; omega
    · unfold UI.tick at ht
      rw [if_neg hs] at ht
      cases ht; exact ih

section Example
attribute [local instance] Sample.noSync
open Sample

/-- The dashboard of server 1 after [7, 8] was decided: two ticks. -/
example : ∃ (c : C) (op : OP Nat (List Nat)) (u : UI), c.AnyReach cc ∧ c.servers 1 = .up op ∧ ticks dashboard op 2 = some u ∧
    u.started = true ∧ u.app.decided_idx = 2 ∧ u.app.current_leader = some 1 ∧ u.app.current_role = .leader ∧
    u.app.throughput_data = [0, 2] ∧ u.app.followers_accepted_idx = [0, 2, 2, 0] ∧ u.app.leader_color = some 0 ∧
    u.app.active_peers.map (·.color) = [some 1, some 2] ∧
    UI.Reached (cfg 1) (UIStates.OfServer (E := Nat) (S := List Nat) cc 1) u := by
  obtain ⟨c, h, hP⟩ := run1_elim (cc := cc) (as := decide12)
    (P := fun c => onUp c 1 (fun op => match ticks dashboard op 2 with
      | none => False
      | some u => u.started = true ∧ u.app.decided_idx = 2 ∧ u.app.current_leader = some 1 ∧ u.app.current_role = .leader ∧
        u.app.throughput_data = [0, 2] ∧ u.app.followers_accepted_idx = [0, 2, 2, 0] ∧ u.app.leader_color = some 0 ∧
        u.app.active_peers.map (·.color) = [some 1, some 2])) (by decide +kernel)
  obtain ⟨op, h1, h1'⟩ := onUp_elim hP
  split at h1'
  · simp at h1'
  · rename_i u hu
    obtain ⟨e1, e2, e3, e4, e5, e6, e7, e8⟩ := of_decide_eq_true h1'
    obtain ⟨acts, l, hl, hl'⟩ := h.ofServer h1
    exact ⟨c, op, u, h, h1, hu, e1, e2, e3, e4, e5, e6, e7, e8,
      ticks_reached (fun v hv => dashboard_reached hv) ⟨acts, l, op, hl, hl', rfl⟩ 2 u hu⟩

/-- A tick away from an election timeout. -/
def scFast (pid : NodeId) : ServerConfig := { pid, election_tick_timeout := 1, resend_message_tick_timeout := 1 }

/-- Server 2 has answered the heartbeat request of server 1 before the first election timeout of server 1, server 3 has not. -/
example : ∃ (c : C) (op : OP Nat (List Nat)) (u : UI), c.AnyReach cc ∧ c.servers 1 = .up op ∧ ticks dashboard op 1 = some u ∧
    u.app.active_peers.map (fun n => (n.pid, n.connected, n.ballot_number)) = [(2, true, 1), (3, false, 0)] := by
  obtain ⟨c, h, hP⟩ := run1_elim (cc := cc)
    (as := [.start 1 (scFast 1), .start 2 (scFast 2), .take 1, .deliver 1 2, .take 2, .deliver 2 1, .deliver 2 1, .call 1 .tick])
    (P := fun c => onUp c 1 (fun op => match ticks dashboard op 1 with
      | none => False
      | some u => u.app.active_peers.map (fun n => (n.pid, n.connected, n.ballot_number)) = [(2, true, 1), (3, false, 0)]))
    (by decide +kernel)
  obtain ⟨op, h1, h1'⟩ := onUp_elim hP
  split at h1'
  · simp at h1'
  · rename_i u hu
    exact ⟨c, op, u, h, h1, hu, of_decide_eq_true h1'⟩
end Example

end Omni
