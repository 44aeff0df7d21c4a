import Verif.Proof.Oust.Synced
import Verif.Props.Silent
/-
Property theorem C79: when the leader falls silent, the others agree on a new one.
-/
namespace Omni

section theorems
variable {E S : Type} [SnapOps E S]

/-- C79: start where everything is done and everybody follows ballot `n`, with election timeouts of at least five and at most `e` ticks, and let any beats pass with all servers. Then let the
leader and any others fall silent, such that the servers `L` which are left are enough to prepare and to accept. If these keep running, then after eight times `e` beats of theirs, whatever they append
and whatever the silent ones do, all of them follow one and the same ballot `M` of one of them, the next after `n`; and they do so as long as this goes on. -/
theorem C79_new_leader (cc : ClusterConfig) (hv : cc.validate = .ok ()) (hd : cc.nodes.Nodup) (n : Ballot) (k : Nat) (c : Cluster E S)
    (h : c.Settled cc n k) (hl : c.Loyal cc n) (hc : c.Current cc) (hu : c.Under cc n) (e f : Nat) (hw : c.Wound cc f)
    (he : ∀ i ∈ cc.nodes, ∀ op, c.servers i = .up op → op.election_clock.timeout ≤ e)
    (xs : List (List (Action E S))) (c1 : Cluster E S) (h1 : Cluster.Beats cc c xs c1)
    (L : List NodeId) (ha : AcceptQuorum cc L) (hp : PrepareQuorum cc L) (hn : n.pid ∉ L)
    (ys : List (List (Action E S))) (c2 : Cluster E S) (h2 : Cluster.LiveBeats cc L c1 ys c2) (hy : 8 * e ≤ ys.length) (hup : ∀ i ∈ L, ∃ op, c2.servers i = .up op) :
    ∃ M : Ballot, M.pid ∈ L ∧ M.n = n.n + 1 ∧ M.config_id = cc.configuration_id ∧ c2.Follows L M ∧
      ∀ zs c3, Cluster.LiveBeats cc L c2 zs c3 → (∀ i ∈ L, ∃ op, c3.servers i = .up op) → c3.Follows L M := by
  have hL := ha.members
  obtain ⟨g2, a1, a2, a3⟩ := (Alike.refl c1).beats h2 hL
  obtain ⟨bl, pr, bl2, -, T2, t2, t3⟩ := ousted hv hd h hl hc hu hw he h1 hn ha hp a1 a3 fun i hi => by rw [a2.servers i hi]; exact hup i hi
  obtain ⟨i, hi, hC⟩ := t2 (by rw [List.length_map]; exact hy)
  refine ⟨cand cc n pr i, hi, rfl, rfl, ?_, fun zs c3 h3 hup3 => ?_⟩
  · exact Hunt.follows hL a2 T2.hunt_end hC
  · obtain ⟨g3, b1, b2, b3⟩ := a2.beats h3 hL
    obtain ⟨bl3, T3⟩ := t3 _ g3 b1 b3 fun i hi => by rw [b2.servers i hi]; exact hup3 i hi
    exact Hunt.follows hL b2 T3.hunt_end (T3.keep (F := fun b m => Crowned cc n L pr i b m) (fun m h => m.crowned hL hi h) hC)

/-- C79, promises: in the same situation, if the cluster has come there by itself (by whatever calls, crashes and losses), and two beats and one more election timeout later, all of them have
promised `M`, and `M.pid` is leader in it; and so it stays. -/
theorem C79_promised (cc : ClusterConfig) (hv : cc.validate = .ok ()) (hd : cc.nodes.Nodup) (pre : List (Action E S)) (n : Ballot) (k : Nat) (c : Cluster E S)
    (h0 : Cluster.init.run cc pre = some c) (h : c.Settled cc n k) (hl : c.Loyal cc n) (hc : c.Current cc) (hu : c.Under cc n) (hps : c.Peered cc) (e f : Nat) (hw : c.Wound cc f)
    (he : ∀ i ∈ cc.nodes, ∀ op, c.servers i = .up op → op.election_clock.timeout ≤ e)
    (xs : List (List (Action E S))) (c1 : Cluster E S) (h1 : Cluster.Beats cc c xs c1)
    (L : List NodeId) (ha : AcceptQuorum cc L) (hp : PrepareQuorum cc L) (hn : n.pid ∉ L)
    (ys : List (List (Action E S))) (c2 : Cluster E S) (h2 : Cluster.LiveBeats cc L c1 ys c2) (hy : 9 * e + 2 ≤ ys.length) (hup : ∀ i ∈ L, ∃ op, c2.servers i = .up op) :
    ∃ M : Ballot, M.pid ∈ L ∧ M.n = n.n + 1 ∧ M.config_id = cc.configuration_id ∧ c2.Follows L M ∧ c2.Promised L M ∧
      ∀ zs c3, Cluster.LiveBeats cc L c2 zs c3 → (∀ i ∈ L, ∃ op, c3.servers i = .up op) → c3.Follows L M ∧ c3.Promised L M := by
  have hL := ha.members
  obtain ⟨g2, a1, a2, a3⟩ := (Alike.refl c1).beats h2 hL
  have hup2 : ∀ i ∈ L, ∃ op, g2.servers i = .up op := fun i hi => by rw [a2.servers i hi]; exact hup i hi
  obtain ⟨bl, pr, i, bl2, hi, -, T2, hC, hlow, hh, t3⟩ := oust_promised hv hd h0 h hl hc hu hps hw he h1 hn ha hp a1 (by rw [List.length_map]; exact hy) a3 hup2
  refine ⟨cand cc n pr i, hi, rfl, rfl, Hunt.follows hL a2 T2.hunt_end hC, T2.hunt_end.promised hL a2 hC.s7 hh hlow, fun zs c3 h3 hup3 => ?_⟩
  obtain ⟨g3, b1, b2, b3⟩ := a2.beats h3 hL
  obtain ⟨_, bl3, T3, q1, q2, q3⟩ := t3 _ g3 b1 b3 fun i hi => by rw [b2.servers i hi]; exact hup3 i hi
  exact ⟨Hunt.follows hL b2 T3.hunt_end q1, T3.hunt_end.promised hL b2 q1.s7 q3 q2⟩

/-- C79, preparation: and another two beats later, the new leader has got the promises it needs and is in the Accept phase, provided that the links
have been dependable on the way to `c` (as `Tidy` says); and so it stays. -/
theorem C79_prepared (cc : ClusterConfig) (hv : cc.validate = .ok ()) (hd : cc.nodes.Nodup) (n : Ballot) (k : Nat) (c : Cluster E S)
    (h0 : c.Reachable cc Links.all) (h : c.Settled cc n k) (hl : c.Loyal cc n) (hc : c.Current cc) (hu : c.Under cc n) (e f : Nat) (hw : c.Wound cc f)
    (he : ∀ i ∈ cc.nodes, ∀ op, c.servers i = .up op → op.election_clock.timeout ≤ e)
    (xs : List (List (Action E S))) (c1 : Cluster E S) (h1 : Cluster.Beats cc c xs c1)
    (L : List NodeId) (ha : AcceptQuorum cc L) (hp : PrepareQuorum cc L) (hn : n.pid ∉ L)
    (ys : List (List (Action E S))) (c2 : Cluster E S) (h2 : Cluster.LiveBeats cc L c1 ys c2) (hy : 9 * e + 4 ≤ ys.length) (hup : ∀ i ∈ L, ∃ op, c2.servers i = .up op) :
    ∃ M : Ballot, M.pid ∈ L ∧ M.n = n.n + 1 ∧ M.config_id = cc.configuration_id ∧ c2.Follows L M ∧ c2.Promised L M ∧ c2.Prepared M ∧
      ∀ zs c3, Cluster.LiveBeats cc L c2 zs c3 → (∀ i ∈ L, ∃ op, c3.servers i = .up op) → c3.Follows L M ∧ c3.Promised L M ∧ c3.Prepared M := by
  have hL := ha.members
  obtain ⟨g2, a1, a2, a3⟩ := (Alike.refl c1).beats h2 hL
  have hup2 : ∀ i ∈ L, ∃ op, g2.servers i = .up op := fun i hi => by rw [a2.servers i hi]; exact hup i hi
  obtain ⟨pr, i, hi, key⟩ := oust_prepared hv hd h0 h hl hc hu hw he h1 hn ha hp a1 (by rw [List.length_map]; exact hy) a3 hup2
  have fin : ∀ zs c3, Cluster.LiveBeats cc L c2 zs c3 → (∀ i ∈ L, ∃ op, c3.servers i = .up op) →
      c3.Follows L (cand cc n pr i) ∧ c3.Promised L (cand cc n pr i) ∧ c3.Prepared (cand cc n pr i) := by
    intro zs c3 h3 hup3
    obtain ⟨g3, b1, b2, b3⟩ := a2.beats h3 hL
    obtain ⟨bl3, hH, q1, q2, q3, q4, q5⟩ := key _ g3 b1 b3 fun i hi => by rw [b2.servers i hi]; exact hup3 i hi
    obtain ⟨op, u, -⟩ := hH.bles i (hL i hi)
    have hT := hH.capped q5 (fun j hj hm => q1.s7.top j hj hm) (hL i hi)
    obtain ⟨l1, l2, -⟩ := hH.leads_now q1.s7 (hL i hi) (q3 i) (q2 i hi) u
    exact ⟨Hunt.follows hL b2 hH q1, hH.promised hL b2 q1.s7 q3 q2, op, by rw [← u]; exact (b2.servers i hi).symm, l1, l2, q4.won hT u l1 l2⟩
  exact ⟨cand cc n pr i, hi, rfl, rfl, (fin [] c2 (.nil _) hup).1, (fin [] c2 (.nil _) hup).2.1, (fin [] c2 (.nil _) hup).2.2, fin⟩

/-- C79, AcceptSyncs: and another four beats later, all of them have taken over a log in `M` (logs of one ballot match: C62), and with it everything that any server had decided before the silence; and so it stays. -/
theorem C79_joined (cc : ClusterConfig) (hv : cc.validate = .ok ()) (hd : cc.nodes.Nodup) (n : Ballot) (k : Nat) (c : Cluster E S)
    (h0 : c.Reachable cc Links.all) (h : c.Settled cc n k) (hl : c.Loyal cc n) (hc : c.Current cc) (hu : c.Under cc n) (e f : Nat) (hw : c.Wound cc f)
    (he : ∀ i ∈ cc.nodes, ∀ op, c.servers i = .up op → op.election_clock.timeout ≤ e)
    (xs : List (List (Action E S))) (c1 : Cluster E S) (h1 : Cluster.Beats cc c xs c1)
    (L : List NodeId) (ha : AcceptQuorum cc L) (hp : PrepareQuorum cc L) (hn : n.pid ∉ L)
    (ys : List (List (Action E S))) (c2 : Cluster E S) (h2 : Cluster.LiveBeats cc L c1 ys c2) (hy : 9 * e + 8 ≤ ys.length) (hup : ∀ i ∈ L, ∃ op, c2.servers i = .up op) :
    ∃ M : Ballot, M.pid ∈ L ∧ M.n = n.n + 1 ∧ M.config_id = cc.configuration_id ∧ c2.Joined L M ∧ c1.Keeps cc L c2 ∧
      ∀ zs c3, Cluster.LiveBeats cc L c2 zs c3 → (∀ i ∈ L, ∃ op, c3.servers i = .up op) → c3.Joined L M ∧ c1.Keeps cc L c3 := by
  have hL := ha.members
  obtain ⟨g2, a1, a2, a3⟩ := (Alike.refl c1).beats h2 hL
  have hup2 : ∀ i ∈ L, ∃ op, g2.servers i = .up op := fun i hi => by rw [a2.servers i hi]; exact hup i hi
  obtain ⟨pr, i, hi, V1, r1, key⟩ := oust_synced hv hd h0 h hl hc hu hw he h1 hn ha hp a1 (by rw [List.length_map]; exact hy) a3 hup2
  have fin : ∀ zs c3, Cluster.LiveBeats cc L c2 zs c3 → (∀ i ∈ L, ∃ op, c3.servers i = .up op) → c3.Joined L (cand cc n pr i) ∧ c1.Keeps cc L c3 := by
    intro zs c3 h3 hup3
    obtain ⟨g3, b1, b2, b3⟩ := a2.beats h3 hL
    obtain ⟨bl3, hH, q1, q2, q3, q4, q5⟩ := key _ g3 b1 b3 fun i hi => by rw [b2.servers i hi]; exact hup3 i hi
    obtain ⟨op, u, -⟩ := hH.bles i (hL i hi)
    have hB : Best cc n L pr i bl3 := fun j hj hm => q1.s7.top j hj hm
    have hT := hH.capped q5 hB (hL i hi)
    obtain ⟨l1, l2, -⟩ := hH.leads_now q1.s7 (hL i hi) (q3 i) (q2 i hi) u
    have hled : Led (cand cc n pr i) g3 := q4 i hi
    refine ⟨⟨⟨op, by rw [← u]; exact (b2.servers i hi).symm, l1, l2, hled.won hT u l1 l2⟩, fun x hx => ?_⟩, fun j hj o ho p hp x hx => ?_⟩
    · obtain ⟨ox, ux, -⟩ := hH.bles x (hL x hx)
      exact ⟨ox, by rw [← ux]; exact (b2.servers x hx).symm, hH.joined hB q5 (hL x hx) (q4 x hx) ux⟩
    · obtain ⟨ox, ux, -⟩ := hH.bles x (hL x hx)
      have hab := a1.append b1
      exact ⟨ox, by rw [← ux]; exact (b2.servers x hx).symm, (q4 x hx).kept hv r1 (fun a ha => by
        rw [List.flatten_append] at ha
        exact ((List.mem_append.1 ha).elim (a3 a) (b3 a)).calm hL) hab.run V1 (lt_cand i) hj ho ux hp⟩
  exact ⟨cand cc n pr i, hi, rfl, rfl, (fin [] c2 (.nil _) hup).1, (fin [] c2 (.nil _) hup).2, fin⟩

end theorems

section sample
attribute [local instance] Sample.noSync
open Sample

/-- Test of `Current`. -/
def currentB (c : C) : Bool := cc.nodes.all fun i => match c.servers i with
  | .down _ => true
  | .up op => op.ble.outgoing.all (fun m => match m.msg with | .request x => decide (x ≤ op.ble.hb_round) | .reply _ => true) &&
    cc.nodes.all fun j =>
      (c.net i j).all (fun m => match m with | .ble m => (match m.msg with | .request x => decide (x ≤ op.ble.hb_round) | .reply _ => true) | .paxos _ => true) &&
      (c.net j i).all (fun m => match m with | .ble m => (match m.msg with | .reply r => decide (r.round ≤ op.ble.hb_round) | .request _ => true) | .paxos _ => true) &&
      match c.servers j with
      | .down _ => true
      | .up op' => op'.ble.outgoing.all fun m => !decide (m.dst = i) || match m.msg with | .reply r => decide (r.round ≤ op.ble.hb_round) | .request _ => true

theorem currentB_current {c : C} (h : currentB c = true) : c.Current cc := by
  intro i hi op hop
  have h := List.all_eq_true.1 h i hi
  rw [hop] at h
  simp only [Bool.and_eq_true, List.all_eq_true] at h
  obtain ⟨h1, h2⟩ := h
  refine ⟨fun m hm x e => ?_, fun j hj => ?_⟩
  · have := h1 m hm
    rw [e] at this
    exact of_decide_eq_true this
  · obtain ⟨⟨h3, h4⟩, h5⟩ := h2 j hj
    refine ⟨fun m x hm e => ?_, fun m r hm e => ?_, fun op' hop' m hm hd r e => ?_⟩
    · have := h3 _ hm
      simp only [e] at this
      exact of_decide_eq_true this
    · have := h4 _ hm
      simp only [e] at this
      exact of_decide_eq_true this
    · rw [hop'] at h5
      have := List.all_eq_true.1 h5 m hm
      rw [e, decide_eq_true hd] at this
      exact of_decide_eq_true (by simpa using this)

/-- Test of `Under`. -/
def underB (n : Ballot) (c : C) : Bool := cc.nodes.all fun i => match c.servers i with
  | .down _ => true
  | .up op => decide (op.sp.ls.n_leader ≤ n) && decide (op.sp.ist.cache.accepted_round ≤ n) &&
    match op.sp.ist.storage.acc_round with | none => true | some b => decide (b ≤ n)

theorem underB_under {n : Ballot} {c : C} (h : underB n c = true) : c.Under cc n := by
  intro i hi op hop
  have h := List.all_eq_true.1 h i hi
  rw [hop] at h
  simp only [Bool.and_eq_true, decide_eq_true_eq] at h
  refine ⟨h.1.1, h.1.2, fun b e => ?_⟩
  have := h.2
  rw [e] at this
  exact of_decide_eq_true this

def timeoutB (e : Nat) (c : C) : Bool := cc.nodes.all fun i => match c.servers i with
  | .down _ => true
  | .up op => decide (op.election_clock.timeout ≤ e)

theorem timeoutB_le {e : Nat} {c : C} (h : timeoutB e c = true) : ∀ i ∈ cc.nodes, ∀ op, c.servers i = .up op → op.election_clock.timeout ≤ e := by
  intro i hi op hop
  have h := List.all_eq_true.1 h i hi
  rw [hop] at h
  exact of_decide_eq_true h

/-- Test of `Peered`. -/
def peeredB (c : C) : Bool := cc.nodes.all fun i => match c.servers i with
  | .down _ => true
  | .up op => decide (op.sp.peers = SP.peersOf cc.nodes i)

theorem peeredB_peered {c : C} (h : peeredB c = true) : c.Peered cc := by
  intro i hi op hop
  have h := List.all_eq_true.1 h i hi
  rw [hop] at h
  exact of_decide_eq_true h

namespace Oust
open Tempo (ticks settle timed n)

/-- An entry is appended and, at the leader only, decided. -/
def load : List (List A) := Tempo.load ++ Tempo.calm.take 4

/-- What is on the links to servers 1 and 2 is delivered, then these hand over their messages and tick. -/
def live (c : C) : List A :=
  ([1, 2, 3].flatMap fun i => [1, 2].flatMap fun j => List.replicate (c.net i j).length (.deliver i j)) ++ [.take 1, .take 2, .call 1 .tick, .call 2 .tick]

/-- Such beats, with something before each of them. -/
def drive (c : C) : List (List A) → List (List A)
  | [] => []
  | b :: bs => match c.run cc (live c ++ b) with
    | none => []
    | some c1 => (live c ++ b) :: drive c1 bs

/-- The leader, 3, crashes in the first beat and restarts in the third. -/
def beats : List (List A) := [[.crash 3, .call 1 (.append 8)], [], [.start 3 (timed 5 3)], [.deliver 1 3]] ++ List.replicate 49 []

def names (c : C) (i : NodeId) : Option (Ballot × Ballot × Bool) := match c.servers i with
  | .up op => some (op.ble.leader, op.ble.current_ballot, op.ble.happy)
  | .down _ => none

def given (c : C) (i : NodeId) : Option (Ballot × Role) := match c.servers i with
  | .up op => some (op.get_promise, op.sp.role)
  | .down _ => none

def stage (c : C) (i : NodeId) : Option Phase := match c.servers i with
  | .up op => some op.sp.phase
  | .down _ => none

def round (c : C) (i : NodeId) : Option (Option Ballot) := match c.servers i with
  | .up op => some op.sp.ist.storage.acc_round
  | .down _ => none

def log (c : C) (i : NodeId) : Option (Nat × List Nat) := match c.servers i with
  | .up op => some (op.sp.ist.storage.ld, op.sp.ist.storage.log)
  | .down _ => none

def upB (c : C) (i : NodeId) : Bool := match c.servers i with
  | .up _ => true
  | .down _ => false

theorem upB_up {c : C} {i : NodeId} (h : upB c i = true) : ∃ op, c.servers i = .up op := by
  unfold upB at h
  split at h
  · exact ⟨_, by assumption⟩
  · cases h

/-- Concrete case: three servers with an election timeout of five ticks; 3 leads and crashes. -/
example : ∃ (c c1 c2 : C) (ys : List (List A)),
    Cluster.init.run cc (Tempo.start 5 ++ ticks ++ ticks ++ ticks ++ ticks ++ ticks ++ settle) = some c ∧ c.Reachable cc Links.all ∧ c.Settled cc n 0 ∧ c.Loyal cc n ∧ c.Current cc ∧ c.Under cc n ∧ c.Peered cc ∧
    c.Wound cc 1 ∧ (∀ i ∈ cc.nodes, ∀ op, c.servers i = .up op → op.election_clock.timeout ≤ 5) ∧ Cluster.Beats cc c load c1 ∧ AcceptQuorum cc [1, 2] ∧ PrepareQuorum cc [1, 2] ∧
    n.pid ∉ [1, 2] ∧ Cluster.LiveBeats cc [1, 2] c1 ys c2 ∧ 9 * 5 + 8 ≤ ys.length ∧ (∀ i ∈ [1, 2], ∃ op, c2.servers i = .up op) ∧ cc.validate = .ok () ∧ cc.nodes.Nodup ∧
    (names c1 1).map (·.1) = some n ∧ (names c2 1).map (·.1) = some { n with n := 2, pid := 2 } ∧
    given c1 2 = some (n, .follower) ∧ given c2 1 = some ({ n with n := 2, pid := 2 }, .follower) ∧ given c2 2 = some ({ n with n := 2, pid := 2 }, .leader) ∧ stage c1 3 = some .accept ∧ stage c2 2 = some .accept ∧ round c1 1 = some (some n) ∧ round c2 1 = some (some { n with n := 2, pid := 2 }) ∧ log c1 3 = some (1, [9]) ∧ log c1 1 = some (0, [9]) ∧ log c2 1 = some (1, [9]) := by
  have hr : ((Cluster.init.run cc (Tempo.start 5 ++ ticks ++ ticks ++ ticks ++ ticks ++ ticks ++ settle)).map fun c =>
      settledB cc n 0 c && loyalB n c && woundB 5 1 c && currentB c && underB n c && peeredB c && timeoutB 5 c && match beatsB c load with
        | none => false
        | some c1 => match livesB [1, 2] c1 (drive c1 beats) with
          | none => false
          | some c2 => upB c2 1 && upB c2 2 && decide ((drive c1 beats).length = 53) && decide ((names c1 1).map (·.1) = some n) &&
            decide ((names c2 1).map (·.1) = some { n with n := 2, pid := 2 }) &&
            decide (given c1 2 = some (n, .follower) ∧ given c2 1 = some ({ n with n := 2, pid := 2 }, .follower) ∧ given c2 2 = some ({ n with n := 2, pid := 2 }, .leader) ∧ stage c1 3 = some .accept ∧ stage c2 2 = some .accept ∧ round c1 1 = some (some n) ∧ round c2 1 = some (some { n with n := 2, pid := 2 }) ∧ log c1 3 = some (1, [9]) ∧ log c1 1 = some (0, [9]) ∧ log c2 1 = some (1, [9]))) = some true := by decide +kernel
  obtain ⟨c, hc, h⟩ := Option.map_eq_some_iff.1 hr
  have hl : Cluster.linksB cc Cluster.init (Tempo.start 5 ++ ticks ++ ticks ++ ticks ++ ticks ++ ticks ++ settle) = true := by decide +kernel
  simp only [Bool.and_eq_true] at h
  obtain ⟨⟨⟨⟨⟨⟨⟨h1, h2⟩, h3⟩, h4⟩, h5⟩, h8⟩, h6⟩, h7⟩ := h
  cases hb : beatsB c load with
  | none => rw [hb] at h7; cases h7
  | some c1 =>
    simp only [hb] at h7
    cases hy : livesB [1, 2] c1 (drive c1 beats) with
    | none => rw [hy] at h7; cases h7
    | some c2 =>
      simp only [hy, Bool.and_eq_true, decide_eq_true_eq] at h7
      obtain ⟨⟨⟨⟨⟨q1, q2⟩, q3⟩, q4⟩, q5⟩, q6⟩ := h7
      refine ⟨c, c1, c2, _, hc, ⟨_, Cluster.linksB_sound hl, hc⟩, settledB_settled h1, loyalB_loyal h2, currentB_current h4, underB_under h5, peeredB_peered h8, woundB_wound h3, timeoutB_le h6, beatsB_beats hb,
        ⟨by decide, by decide, by show 3 < 4; omega⟩, ⟨by decide, by decide, by show 3 < 4; omega⟩, by decide, livesB_lives hy, Nat.le_of_eq q3.symm, fun i hi => ?_, rfl, by decide, q4, q5, q6⟩
      rcases List.mem_cons.1 hi with rfl | hi
      · exact upB_up q1
      · cases List.mem_singleton.1 hi; exact upB_up q2

end Oust
end sample
end Omni
