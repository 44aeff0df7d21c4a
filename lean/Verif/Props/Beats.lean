import Verif.Proof.Beats.Run
import Verif.Props.Steady
/-
Property theorem C74: a leader whose heartbeats arrive in time stays leader.
-/
namespace Omni

section theorems
variable {E S : Type} [SnapOps E S]

/-- C74: start where everything is done and everybody follows ballot `n`, and let the servers append, tick, send, and receive in the order of sending, in
any interleaving. If at every election timeout of a follower there has been a round trip between it and the leader since its last election timeout, and at every
election timeout of the leader round trips between it and enough servers to accept, then no tick elects anybody: the run is one of steady operation, as C69,
C70 and C71 presuppose it; and everybody still follows `n` at the end. -/
theorem C74_stays_leader (cc : ClusterConfig) (hv : cc.validate = .ok ()) (hd : cc.nodes.Nodup) (n : Ballot) (k : Nat) (c : Cluster E S)
    (h : c.Settled cc n k) (hl : c.Loyal cc n) (as : List (Action E S)) (hp : c.Prompt cc n as) :
    c.Steady cc n as ∧ ∀ c', c.run cc as = some c' → c'.Loyal cc n := by
  obtain ⟨bl, h1, h2, h3, h4⟩ := hl
  have v := vow_loyal cc n
  have hH : Hearts _ cc bl c.net := hearts_loyal.2 ⟨h2, h3, h4⟩
  have key := beat_run v h.flows hv hd h.member h1 hH hp
  refine ⟨⟨hp.calm, fun i t c' _ hr => ?_⟩, fun c' hr => ?_⟩
  · obtain ⟨A, bl', f, _⟩ := key (t + 1) c' hr
    exact f.ledBy
  · obtain ⟨A, bl', _, p⟩ := key as.length c' (by rw [List.take_length]; exact hr)
    exact ⟨bl', p.bles_end, hearts_loyal.1 (p.hearts v.signed hH)⟩

end theorems

section sample
attribute [local instance] Sample.noSync
open Sample

/-- Test of `HeartbeatReply.Loyal`. -/
def replyB (cid : Nat) (n : Ballot) (j : NodeId) (r : HeartbeatReply) : Bool :=
  decide (r.ballot.config_id = cid) && decide (r.ballot.pid = j) && decide (r.ballot ≤ n) && (!decide (j = n.pid) || decide (r.ballot = n)) &&
  decide (r.leader = n) && r.happy

theorem replyB_loyal {cid : Nat} {n : Ballot} {j : NodeId} {r : HeartbeatReply} (h : replyB cid n j r = true) : r.Loyal cid n j := by
  simp only [replyB, Bool.and_eq_true, Bool.or_eq_true, Bool.not_eq_true', decide_eq_true_eq, decide_eq_false_iff_not] at h
  obtain ⟨⟨⟨⟨⟨h1, h2⟩, h3⟩, h4⟩, h5⟩, h6⟩ := h
  exact ⟨h1, h2, h3, fun e => h4.resolve_left fun h => h e, h5, h6⟩

/-- Test of `BLEMessage.Loyal`. -/
def messageB (cid : Nat) (n : Ballot) (j : NodeId) (m : BLEMessage) : Bool :=
  decide (m.src = j) && match m.msg with | .reply r => replyB cid n j r | .request _ => true

theorem messageB_loyal {cid : Nat} {n : Ballot} {j : NodeId} {m : BLEMessage} (h : messageB cid n j m = true) : m.Loyal cid n j := by
  simp only [messageB, Bool.and_eq_true, decide_eq_true_eq] at h
  refine ⟨h.1, fun r hr => ?_⟩
  have h2 := h.2
  rw [hr] at h2
  exact replyB_loyal h2

/-- The election component of server `i`. -/
def bleAt (c : C) (i : NodeId) : BLE := match c.servers i with
  | .up op => op.ble
  | .down _ => BLE.with 0 0 [] 0 none none

/-- Test of `Inquired`. -/
def askedB (c : C) (i j : NodeId) : Bool :=
  ((bleAt c i).outgoing.any fun m => decide (m.dst = j) && decide (m.msg = .request (bleAt c i).hb_round)) ||
  ((c.net i j).any fun m => match m with | .ble m => decide (m.msg = .request (bleAt c i).hb_round) | .paxos _ => false) ||
  (bleAt c i).heartbeat_replies.any fun r => decide (r.ballot.pid = j)

theorem askedB_asked {c : C} {i j : NodeId} (h : askedB c i j = true) : Inquired (bleAt c) c.net i j := by
  simp only [askedB, Bool.or_eq_true, List.any_eq_true, Bool.and_eq_true, decide_eq_true_eq] at h
  rcases h with (⟨m, h1, h2, h3⟩ | ⟨m, h1, h2⟩) | ⟨r, h1, h2⟩
  · exact .inl ⟨m, h1, h2, h3⟩
  · cases m with
    | paxos p => cases h2
    | ble m => exact .inr (.inl ⟨m, h1, by simpa using h2⟩)
  · exact .inr (.inr (.inr (.inr ⟨r, h1, h2⟩)))

/-- Test of `Loyal`. -/
def loyalB (n : Ballot) (c : C) : Bool :=
  cc.nodes.all fun i => (match c.servers i with | .up _ => true | .down _ => false) &&
    decide ((bleAt c i).configuration_id = cc.configuration_id) && decide ((bleAt c i).pid = i) &&
    decide ((bleAt c i).peers = SP.peersOf cc.nodes i) && decide ((bleAt c i).quorum = Quorum.with cc.flexible_quorum cc.nodes.length) &&
    replyB cc.configuration_id n i ⟨(bleAt c i).hb_round, (bleAt c i).current_ballot, (bleAt c i).leader, (bleAt c i).happy⟩ &&
    ((bleAt c i).heartbeat_replies.all fun r => cc.nodes.any fun j => replyB cc.configuration_id n j r) &&
    ((bleAt c i).outgoing.all fun m => messageB cc.configuration_id n i m) &&
    (cc.nodes.all fun j => ((c.net i j).all fun m => match m with | .ble m => messageB cc.configuration_id n i m | .paxos _ => true) &&
      (decide (j = i) || askedB c i j))

theorem loyalB_loyal {n : Ballot} {c : C} (h : loyalB n c = true) : c.Loyal cc n := by
  simp only [loyalB, List.all_eq_true, Bool.and_eq_true, decide_eq_true_eq, Bool.or_eq_true] at h
  refine ⟨bleAt c, fun i hi => ?_, fun i hi => ?_, fun i hi j hj m hm => ?_, fun i hi j hj hji => ?_⟩
  · obtain ⟨⟨⟨⟨⟨⟨⟨⟨h1, _⟩, _⟩, _⟩, _⟩, _⟩, _⟩, _⟩, _⟩ := h i hi
    unfold bleAt
    cases hs : c.servers i with
    | up op => exact ⟨op, rfl, rfl⟩
    | down d => rw [hs] at h1; cases h1
  · obtain ⟨⟨⟨⟨⟨⟨⟨⟨_, h1⟩, h2⟩, h3⟩, h4⟩, h5⟩, h6⟩, h7⟩, _⟩ := h i hi
    refine ⟨h1, h2, h3, h4, replyB_loyal h5, fun r hr => ?_, fun m hm => messageB_loyal (h7 m hm)⟩
    obtain ⟨j, hj, hr⟩ := List.any_eq_true.1 (h6 r hr)
    exact ⟨j, hj, replyB_loyal hr⟩
  · exact messageB_loyal (((h i hi).2 j hj).1 _ hm)
  · exact askedB_asked ((((h i hi).2 j hj).2).resolve_left hji)

/-- Does server `i` hand over its messages? -/
def takes (i : NodeId) : A → Bool
  | .take j => decide (j = i)
  | _ => false

theorem takes_mem {i : NodeId} {as : List A} (h : as.any (takes i) = true) : .take i ∈ as := by
  obtain ⟨a, h1, h2⟩ := List.any_eq_true.1 h
  cases a with
  | take j => simp only [takes, decide_eq_true_eq] at h2; exact h2 ▸ h1
  | _ => cases h2

/-- Test of `Met`: the round trip begins at the beginning of the run, and its parts have lengths `p`, `q`, `r`. -/
def metB (c : C) (as : List A) (i j : NodeId) (p q r : Nat) : Bool :=
  (as.take p).any (takes i) && (((as.drop p).drop q).take r).any (takes j) &&
  (match c.run cc (as.take p) with
    | none => true
    | some c1 => decide ((c1.net i j).length ≤ ((as.drop p).take q).countP (Action.isDelivery i j))) &&
  (match c.run cc (as.take p ++ (as.drop p).take q ++ ((as.drop p).drop q).take r) with
    | none => true
    | some c3 => decide ((c3.net j i).length ≤ (((as.drop p).drop q).drop r).countP (Action.isDelivery j i))) &&
  match c.run cc as with
  | none => false
  | some c1 => match c.servers i, c1.servers i with
    | .up op0, .up op1 => decide (op0.ble.hb_round = op1.ble.hb_round)
    | _, _ => false

theorem metB_met {c : C} {as : List A} {i j : NodeId} {p q r : Nat} (h : metB c as i j p q r = true) : c.Met cc as i j := by
  simp only [metB, Bool.and_eq_true] at h
  obtain ⟨⟨⟨⟨h1, h2⟩, h3⟩, h4⟩, h5⟩ := h
  cases hr : c.run cc as with
  | none => rw [hr] at h5; cases h5
  | some c1 =>
    rw [hr] at h5
    cases h6 : c.servers i with
    | down d => rw [h6] at h5; cases h5
    | up op0 =>
      cases h7 : c1.servers i with
      | down d => simp only [h6, h7] at h5; cases h5
      | up op1 =>
        simp only [h6, h7] at h5
        refine ⟨[], as, c, c1, op0, op1, rfl, rfl, hr, h6, h7, by simpa using h5,
          as.take p, (as.drop p).take q, ((as.drop p).drop q).take r, ((as.drop p).drop q).drop r, by simp only [List.append_assoc, List.take_append_drop], takes_mem h1, takes_mem h2, fun c2 hc => ?_, fun c2 hc => ?_⟩
        · rw [hc] at h3; simpa using h3
        · rw [hc] at h4; simpa using h4

/-- Test of `Prompt`. -/
def promptB (n : Ballot) (c : C) (as : List A) (p q r : Nat) : Bool :=
  (as.all fun a => match a with
    | .call i (.append _) | .call i .tick | .take i => cc.nodes.contains i
    | .deliver i j => cc.nodes.contains i && cc.nodes.contains j
    | _ => false) &&
  (List.range as.length).all fun k => match as[k]? with
    | some (.call i .tick) =>
      if i = n.pid then (SP.peersOf cc.nodes n.pid).all fun j => metB c (as.take k) n.pid j p q r else metB c (as.take k) i n.pid p q r
    | _ => true

theorem promptB_prompt {n : Ballot} {c : C} {as : List A} {p q r : Nat} (h : promptB n c as p q r = true)
    (hq : AcceptQuorum cc (n.pid :: SP.peersOf cc.nodes n.pid)) : c.Prompt cc n as := by
  simp only [promptB, Bool.and_eq_true, List.all_eq_true] at h
  obtain ⟨h1, h2⟩ := h
  have key : ∀ i k, as[k]? = some (.call i .tick) →
      (if i = n.pid then (SP.peersOf cc.nodes n.pid).all fun j => metB c (as.take k) n.pid j p q r else metB c (as.take k) i n.pid p q r) = true := by
    intro i k hk
    have := h2 k (List.mem_range.2 (List.getElem?_eq_some_iff.1 hk).1)
    rwa [hk] at this
  refine ⟨fun a ha => ?_, fun i p hc => ?_, fun i k c1 hk _ _ hin => ?_, fun k c1 hk _ _ => ⟨_, hq, fun j hj => ?_⟩⟩
  · have := h1 a ha
    cases a with
    | call i call => cases call <;> first | (cases this) | simpa [Action.Calm] using this
    | take i => simpa [Action.Calm] using this
    | deliver i j => simpa [Action.Calm] using this
    | _ => cases this
  · have := h1 _ hc
    cases this
  · have := key i k hk
    rw [if_neg hin] at this
    exact metB_met this
  · have := key n.pid k hk
    rw [if_pos rfl, List.all_eq_true] at this
    exact metB_met (this j hj)

namespace Beat

/-- Servers whose election timeout fires with every tick. -/
def quick (pid : NodeId) : ServerConfig := { sc pid with election_tick_timeout := 1 }

def ticks : List A := [.call 1 .tick, .call 2 .tick, .call 3 .tick]

def exchange : List A := [.take 1, .take 2, .take 3, .deliver 1 2, .deliver 1 3, .deliver 2 1, .deliver 2 3, .deliver 3 1, .deliver 3 2]

/-- Requests and replies of a first heartbeat round; server 3 is elected, prepares, and is followed by all. Then the next heartbeat round begins. -/
def warm : List A := [.start 1 (quick 1), .start 2 (quick 2), .start 3 (quick 3)] ++ exchange ++ exchange ++ ticks ++
  [.take 1, .take 2, .take 3, .deliver 1 2, .deliver 1 3, .deliver 2 1, .deliver 2 3, .deliver 3 1, .deliver 3 1, .deliver 3 1, .deliver 3 2,
   .deliver 3 2, .deliver 3 2, .take 1, .take 2, .take 3, .deliver 1 2, .deliver 1 3, .deliver 1 3, .deliver 2 1, .deliver 2 3, .deliver 2 3,
   .deliver 3 1, .deliver 3 2, .take 1, .take 2, .take 3, .deliver 3 1, .deliver 3 2, .take 1, .take 2, .take 3, .deliver 1 3, .deliver 2 3] ++ ticks

def n : Ballot := ⟨1, 1, 0, 3⟩

/-- An entry is appended at server 2 and the next heartbeat round comes in time. -/
def timely : List A := exchange ++ exchange ++ [.call 2 (.append 9)] ++ ticks

theorem quorum : AcceptQuorum cc (n.pid :: SP.peersOf cc.nodes n.pid) :=
  ⟨by decide, by decide, by show cc.nodes.length < _; decide⟩

/-- Concrete case: server 3 has been elected by heartbeats; all election timeouts fire, after requests and replies have been exchanged. -/
example : ∃ c c' : C, Cluster.init.run cc warm = some c ∧ c.Settled cc n 0 ∧ c.Loyal cc n ∧ c.Prompt cc n timely ∧ c.run cc timely = some c' ∧
    cc.validate = .ok () ∧ cc.nodes.Nodup ∧ c'.Loyal cc n := by
  have hr : ((Cluster.init.run cc warm).map fun c => settledB cc n 0 c && loyalB n c && promptB n c timely 3 6 3 &&
      match c.run cc timely with | none => false | some c' => loyalB n c') = some true := by decide +kernel
  obtain ⟨c, hc, h⟩ := Option.map_eq_some_iff.1 hr
  simp only [Bool.and_eq_true] at h
  cases hb : c.run cc timely with
  | none => rw [hb] at h; simp at h
  | some c' =>
    rw [hb] at h
    exact ⟨c, c', hc, settledB_settled h.1.1.1, loyalB_loyal h.1.1.2, promptB_prompt h.1.2 quorum, hb, rfl, by decide, loyalB_loyal h.2⟩

/-- The election timeouts come before the heartbeats; afterwards all messages are delivered. -/
def late : List A := ticks ++ [.take 1, .take 2, .take 3, .deliver 1 2, .deliver 1 2, .deliver 1 3, .deliver 1 3, .deliver 2 1, .deliver 2 1, .deliver 2 3,
  .deliver 2 3, .deliver 3 1, .deliver 3 1, .deliver 3 2, .deliver 3 2, .take 1, .take 2, .take 3, .deliver 1 2, .deliver 1 2, .deliver 1 3, .deliver 1 3,
  .deliver 2 1, .deliver 2 1, .deliver 2 3, .deliver 2 3, .deliver 3 1, .deliver 3 1, .deliver 3 2, .deliver 3 2, .call 1 .tick]

/-- C74 needs the heartbeats in time: with nothing lost and nobody down, election timeouts that come once before the heartbeats make server 1 take over. -/
theorem _root_.Omni.C74_not_late : ∃ c c' : C, Cluster.init.run cc warm = some c ∧ c.Settled cc n 0 ∧ c.Loyal cc n ∧ (∀ a ∈ late, a.Calm cc) ∧
    (∀ i p, .call i (.setPriority p) ∉ late) ∧ c.run cc late = some c' ∧ (∃ op, c'.servers 1 = .up op ∧ op.get_promise = ⟨1, 2, 0, 1⟩) ∧
    ¬ c.Steady cc n late := by
  have hr : ((Cluster.init.run cc warm).map fun c => settledB cc n 0 c && loyalB n c &&
      match c.run cc late with | none => false | some c' => match c'.servers 1 with
        | .down _ => false
        | .up op => decide (op.get_promise = ⟨1, 2, 0, 1⟩) && decide (op.sp.ist.storage.n_prom = some ⟨1, 2, 0, 1⟩)) = some true := by decide +kernel
  obtain ⟨c, hc, h⟩ := Option.map_eq_some_iff.1 hr
  simp only [Bool.and_eq_true] at h
  obtain ⟨⟨h1, h2⟩, h3⟩ := h
  cases hb : c.run cc late with
  | none => rw [hb] at h3; simp at h3
  | some c' =>
    simp only [hb] at h3
    cases hs : c'.servers 1 with
    | down d => rw [hs] at h3; cases h3
    | up op =>
      simp only [hs, Bool.and_eq_true, decide_eq_true_eq] at h3
      refine ⟨c, c', hc, settledB_settled h1, loyalB_loyal h2, fun a ha => ?_, fun i p hm => ?_, hb, ⟨op, hs, h3.1⟩, fun hst => ?_⟩
      · simp only [late, ticks, List.cons_append, List.nil_append, List.mem_cons, List.not_mem_nil, or_false] at ha
        rcases ha with h | h | h | h | h | h | h | h | h | h | h | h | h | h | h | h | h | h | h | h | h | h | h | h | h | h | h | h | h | h | h | h | h | h <;>
          (subst h; simp only [Action.Calm]; decide)
      · simp [late, ticks] at hm
      · have := (hst.elected 1 (late.length - 1) c' rfl (by rw [show late.take (late.length - 1 + 1) = late from rfl]; exact hb)) 1 (by decide)
        rw [hs] at this
        have := this.1.symm.trans h3.2
        simp [n] at this

end Beat
end sample

end Omni
