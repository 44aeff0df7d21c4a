import Verif.Proof.Boot.Led
import Verif.Props.Tempo
/-
Property theorems C76: from the first start of a cluster to decisions, in beats.
-/
namespace Omni

section theorems
variable {E S : Type} [SnapOps E S]

/-- C76, election: all servers start for the first time, with election timeouts of at least five ticks and longer resend timeouts. In beats in which every server
ticks once and hands over its messages, and every link delivers what is on it at the beginning, in any order and with anything appended meanwhile, no server goes down,
nobody but `l` ever becomes leader, and nobody promises anything but the first ballot of `l`, which is the server with the greatest priority, and among these
the greatest number. -/
theorem C76_only_leader (hu : SnapOps.use_snapshots E S = false) (cc : ClusterConfig) (hv : cc.validate = .ok ()) (hd : cc.nodes.Nodup)
    (cfg : NodeId → ServerConfig) (f : Nat) (l : NodeId) (hF : Favours cc cfg f l) (order : List NodeId) (ho : ∀ i ∈ cc.nodes, i ∈ order) (c : Cluster E S)
    (hr : Cluster.init.run cc (order.map fun i => .start i (cfg i)) = some c) (xs : List (List (Action E S))) (c1 : Cluster E S) (h1 : Cluster.Beats cc c xs c1)
    (t : Nat) (c' : Cluster E S) (hc : c.run cc (xs.flatten.take t) = some c') :
    ∀ i ∈ cc.nodes, ∃ op, c'.servers i = .up op ∧ (op.get_promise = {} ∨ op.get_promise = firstBallot cc cfg l) ∧ (op.sp.role = .leader → i = l) := by
  obtain ⟨A, ρ, h⟩ := (boot_led hu hF hv hd ho hr h1 (.nil c1)).1 t c' hc
  intro i hi
  obtain ⟨op, e1, e2, e3⟩ := h.server hi
  refine ⟨op, e1, e2, fun hl => ?_⟩
  by_cases e : i = l
  · exact e
  · have := e3 e
    rw [hl] at this
    cases this

/-- C76, time: six beats after the first election timeout of `l`, and from then on, all servers know `l` as their leader, and the Accept phase has begun at all of
them. -/
theorem C76_leader (hu : SnapOps.use_snapshots E S = false) (cc : ClusterConfig) (hv : cc.validate = .ok ()) (hd : cc.nodes.Nodup)
    (cfg : NodeId → ServerConfig) (f : Nat) (l : NodeId) (hF : Favours cc cfg f l) (order : List NodeId) (ho : ∀ i ∈ cc.nodes, i ∈ order) (c : Cluster E S)
    (hr : Cluster.init.run cc (order.map fun i => .start i (cfg i)) = some c) (xs : List (List (Action E S))) (c1 : Cluster E S) (h1 : Cluster.Beats cc c xs c1)
    (hx : (cfg l).election_tick_timeout + 6 ≤ xs.length) :
    ∀ i ∈ cc.nodes, ∃ op, c1.servers i = .up op ∧ op.get_current_leader = some (l, true) ∧ (op.sp.role = .leader ↔ i = l) := by
  obtain ⟨k0, _⟩ := boot_init hF hv hd ho hr
  obtain ⟨sv, g1, X, B, d, g2, _⟩ := ((boot_led hu hF hv hd ho hr h1 (.nil c1)).2 hx).2
  intro i hi
  obtain ⟨op, e1, e2⟩ := g1 i hi
  refine ⟨op, e1, ?_⟩
  simp only [OP.get_current_leader, e2]
  by_cases e : i = l
  · subst e
    have hp : (sv i).get_promise = firstBallot cc cfg i := g2.lead.ist.prom
    have hph : (sv i).phase = .accept := g2.lead.phase
    have hro : (sv i).role = .leader := g2.lead.role
    rw [hp, hph, hro]
    simp [firstBallot, k0]
  · obtain ⟨_, _, _, _, _, q, al, ms, hl⟩ := g2.fol i hi e
    have hp : (sv i).get_promise = firstBallot cc cfg l := hl.fol.ist.prom
    rw [hp, hl.fol.phase, hl.fol.role]
    simp [firstBallot, k0, e]

/-- C76, decisions: let anything be appended at any servers in these beats, from the very first on, and then nothing for ten times as many beats as the flush timeouts have
ticks. Then all servers have decided exactly what was appended, in one and the same order, and nothing is on the way. -/
theorem C76_decided (hu : SnapOps.use_snapshots E S = false) (cc : ClusterConfig) (hv : cc.validate = .ok ()) (hd : cc.nodes.Nodup)
    (cfg : NodeId → ServerConfig) (f : Nat) (l : NodeId) (hF : Favours cc cfg f l) (order : List NodeId) (ho : ∀ i ∈ cc.nodes, i ∈ order) (c : Cluster E S)
    (hr : Cluster.init.run cc (order.map fun i => .start i (cfg i)) = some c) (xs : List (List (Action E S))) (c1 : Cluster E S) (h1 : Cluster.Beats cc c xs c1)
    (hx : (cfg l).election_tick_timeout + 6 ≤ xs.length) (ys : List (List (Action E S))) (c2 : Cluster E S) (h2 : Cluster.Beats cc c1 ys c2)
    (hy : 10 * f ≤ ys.length) (he : ys.flatten.filterMap Action.entry? = []) :
    c2.Quiet cc ∧ ∃ X : List E, X.Perm (xs.flatten.filterMap Action.entry?) ∧ c2.Settled cc (firstBallot cc cfg l) X.length ∧
      ∀ i ∈ cc.nodes, ∃ op, c2.servers i = .up op ∧ op.get_decided_idx = X.length ∧ (c2.servers i).disk.log = X ∧
        ∀ j e, X[j]? = some e → op.read j = some (some (.decided e)) := by
  obtain ⟨g1, g2⟩ := (boot_led hu hF hv hd ho hr h1 h2).2 hx
  have hf : 0 < f := by have := hF.flush l hF.member; omega
  have hw := (boot_init hF hv hd ho hr).2.2.2.1
  obtain ⟨zs, c3, r, r1, r2, r3, _, r4⟩ := steady_rounds hf hw h1 h2 g1 (r := 10) (by rw [Nat.mul_comm]; exact hy)
  obtain ⟨r5, r6⟩ := r4 he
  have g3 := g2.run hv hd r3 r2
  rw [r5, List.append_nil] at g3
  obtain ⟨g4, g5⟩ := g3.rounds hv hd hF.member r6 (s := 0) fun j hj => absurd hj (Nat.not_lt_zero j)
  have hq := g4.done hv hd hF.member fun j hj => g5 j (by omega)
  obtain ⟨X, q1, q2, q3⟩ := g4.quiet hv hd hF.member (fun _ _ => rfl) hq
  rw [Nat.zero_add] at q2
  refine ⟨hq, X, q1, q2, fun i hi => ?_⟩
  obtain ⟨op, e1, _, e2⟩ := q2.server i hi
  refine ⟨op, e1, e2.decided, by simpa using (q3 i hi).1, fun j e hj => ?_⟩
  have h5 := (q3 i hi).1
  rw [e1] at h5
  have := e2.read (op := op) h5 hj
  simpa using this

/-- C76, under load: whatever was appended up to a beat is stored by all servers, at the same positions, after six times as many further beats as the flush timeouts have
ticks, whatever is appended in these. -/
theorem C76_stored (hu : SnapOps.use_snapshots E S = false) (cc : ClusterConfig) (hv : cc.validate = .ok ()) (hd : cc.nodes.Nodup)
    (cfg : NodeId → ServerConfig) (f : Nat) (l : NodeId) (hF : Favours cc cfg f l) (order : List NodeId) (ho : ∀ i ∈ cc.nodes, i ∈ order) (c : Cluster E S)
    (hr : Cluster.init.run cc (order.map fun i => .start i (cfg i)) = some c) (xs : List (List (Action E S))) (c1 : Cluster E S) (h1 : Cluster.Beats cc c xs c1)
    (hx : (cfg l).election_tick_timeout + 6 ≤ xs.length) (ys : List (List (Action E S))) (c2 : Cluster E S) (h2 : Cluster.Beats cc c1 ys c2)
    (hy : 6 * f ≤ ys.length) :
    ∃ X : List E, (∀ P : E → Bool, (xs.flatten.filterMap Action.entry?).countP P ≤ X.countP P) ∧
      ∀ i ∈ cc.nodes, ∃ op Y, c2.servers i = .up op ∧ (c2.servers i).disk.log = X ++ Y ∧
        ∀ j e, X[j]? = some e → op.read j = some (some (if j < op.get_decided_idx then .decided e else .undecided e)) := by
  obtain ⟨g1, g2⟩ := (boot_led hu hF hv hd ho hr h1 h2).2 hx
  have hf : 0 < f := by have := hF.flush l hF.member; omega
  have hw := (boot_init hF hv hd ho hr).2.2.2.1
  obtain ⟨zs, c3, r, r1, r2, r3, r4, _⟩ := steady_rounds hf hw h1 h2 g1 (r := 6) (by rw [Nat.mul_comm]; exact hy)
  obtain ⟨c6, b6, br⟩ := Cluster.BusyRounds.split (r := 6) (s := r - 6) (by rw [Nat.add_sub_cancel' r1]; exact r4)
  have f1 := g2.run hv hd r3 r2
  obtain ⟨P, X, rfl, e1, e2, e3⟩ := f1.six hv hd hF.member b6
  obtain ⟨bs, s1, s2⟩ := b6.joined
  have f6 := f1.run hv hd s1 s2
  obtain ⟨cs, s3, s4⟩ := br.joined
  have f2 := f6.run hv hd s3 s4
  obtain ⟨m1, m2, _⟩ := f6.grows hv hd hF.member s3 s4
  refine ⟨X, fun P => Nat.le_trans ?_ (e1 P), fun i hi => ?_⟩
  · rw [List.countP_append]
    exact Nat.le_add_right _ _
  · obtain ⟨op, Y, a1, a2, _, a3⟩ := f2.reads hF.member (fun _ _ => rfl) hi (e2.trans m2) (Nat.le_trans (e3 i hi) (m1 i hi).1)
    exact ⟨op, Y, a1, by simpa using a2, fun j e hj => by simpa using a3 j e hj⟩

end theorems

section sample
attribute [local instance] Sample.noSync
open Sample Tempo

namespace Boot

/-- Servers with an election timeout of `t` ticks, and a longer resend timeout. -/
def config (t : Nat) (pid : NodeId) : ServerConfig := { timed t pid with resend_message_tick_timeout := 12 }

/-- The first eleven beats: an entry is appended at server 1 in the first beat, before anybody leads, and one at server 2 in the tenth. -/
def load : List (List A) := [Tempo.takes ++ [.call 1 (.append 7)] ++ ticks, all ++ Tempo.takes ++ ticks, all ++ Tempo.takes ++ ticks, Tempo.takes ++ ticks,
  Tempo.takes ++ ticks, Tempo.takes ++ ticks,
  [.deliver 1 2, .deliver 1 3, .deliver 2 1, .deliver 2 3, .deliver 3 1, .deliver 3 1, .deliver 3 2, .deliver 3 2] ++ Tempo.takes ++ ticks,
  [.deliver 1 2, .deliver 1 3, .deliver 1 3, .deliver 2 1, .deliver 2 3, .deliver 2 3, .deliver 3 1, .deliver 3 2] ++ Tempo.takes ++ ticks,
  [.deliver 3 1, .deliver 3 2] ++ Tempo.takes ++ ticks, [.deliver 1 3, .deliver 1 3, .deliver 2 3] ++ Tempo.takes ++ [.call 2 (.append 9)] ++ ticks,
  [.deliver 3 1, .deliver 3 2] ++ Tempo.takes ++ ticks]

/-- Ten more beats, in which nothing is appended. -/
def calm : List (List A) := [
  [.deliver 1 2, .deliver 1 3, .deliver 1 3, .deliver 2 1, .deliver 2 3, .deliver 2 3, .deliver 2 3, .deliver 3 1, .deliver 3 2] ++ Tempo.takes ++ ticks,
  [.deliver 1 2, .deliver 1 3, .deliver 2 1, .deliver 2 3, .deliver 3 1, .deliver 3 1, .deliver 3 1, .deliver 3 2, .deliver 3 2, .deliver 3 2] ++ Tempo.takes ++ ticks,
  [.deliver 1 3, .deliver 2 3] ++ Tempo.takes ++ ticks, [.deliver 3 1, .deliver 3 2] ++ Tempo.takes ++ ticks, Tempo.takes ++ ticks, all ++ Tempo.takes ++ ticks,
  all ++ Tempo.takes ++ ticks, Tempo.takes ++ ticks, Tempo.takes ++ ticks, Tempo.takes ++ ticks]

theorem favours : Favours cc (config 5) 1 3 := by
  refine ⟨by decide, ?_, ?_, ?_, ?_⟩ <;> decide

/-- Concrete case: three servers with an election timeout of five ticks and a flush timeout of one tick. -/
example : SnapOps.use_snapshots Nat (List Nat) = false ∧ cc.validate = .ok () ∧ cc.nodes.Nodup ∧ Favours cc (config 5) 1 3 ∧
    ∃ c c1 c2 : C, Cluster.init.run cc (cc.nodes.map fun i => .start i (config 5 i)) = some c ∧ Cluster.Beats cc c load c1 ∧ Cluster.Beats cc c1 calm c2 ∧
      (config 5 3).election_tick_timeout + 6 ≤ load.length ∧ 10 * 1 ≤ calm.length ∧ calm.flatten.filterMap Action.entry? = [] ∧
      load.flatten.filterMap Action.entry? = [7, 9] ∧ c2.Settled cc (firstBallot cc (config 5) 3) 2 := by
  refine ⟨rfl, rfl, by decide, favours, ?_⟩
  have hr : ((Cluster.init.run cc [.start 1 (config 5 1), .start 2 (config 5 2), .start 3 (config 5 3)]).map fun c => match beatsB c load with
        | none => false
        | some c1 => match beatsB c1 calm with | none => false | some c2 => settledB cc (firstBallot cc (config 5) 3) 2 c2) = some true := by decide +kernel
  obtain ⟨c, hc, h4⟩ := Option.map_eq_some_iff.1 hr
  cases hb : beatsB c load with
  | none => rw [hb] at h4; cases h4
  | some c1 =>
    simp only [hb] at h4
    cases hd : beatsB c1 calm with
    | none => rw [hd] at h4; cases h4
    | some c2 =>
      rw [hd] at h4
      exact ⟨c, c1, c2, hc, beatsB_beats hb, beatsB_beats hd, by decide, by decide, rfl, rfl, settledB_settled h4⟩

/-- Four beats: requests and answers are handed over in the beat after they are made, and arrive in the one after that; the answers just after the election timeout. -/
def late : List (List A) := [Tempo.takes ++ ticks, Tempo.takes ++ all ++ ticks, Tempo.takes ++ ticks, Tempo.takes ++ ticks ++ all]

/-- C76 is sharp: with election timeouts of four ticks, and everything else the same, all three servers are leaders after four beats, each in the Prepare phase of
its own ballot. -/
theorem _root_.Omni.C76_not_four : ∃ c c' : C, Cluster.init.run cc (cc.nodes.map fun i => .start i (config 4 i)) = some c ∧ Cluster.Beats cc c late c' ∧
    ∀ i ∈ cc.nodes, ∃ op, c'.servers i = .up op ∧ op.sp.role = .leader ∧ op.get_promise = ⟨1, 1, 0, i⟩ ∧ op.get_current_leader = some (i, false) := by
  have hr : ((Cluster.init.run cc [.start 1 (config 4 1), .start 2 (config 4 2), .start 3 (config 4 3)]).map fun c =>
      match beatsB c late with | none => false | some c' => cc.nodes.all fun i => match c'.servers i with
        | .down _ => false
        | .up op => decide (op.sp.role = .leader) && decide (op.get_promise = ⟨1, 1, 0, i⟩) && decide (op.get_current_leader = some (i, false))) = some true := by
    decide +kernel
  obtain ⟨c, hc, h⟩ := Option.map_eq_some_iff.1 hr
  cases hb : beatsB c late with
  | none => rw [hb] at h; cases h
  | some c' =>
    simp only [hb, List.all_eq_true] at h
    refine ⟨c, c', hc, beatsB_beats hb, fun i hi => ?_⟩
    have := h i hi
    cases hs : c'.servers i with
    | down d => rw [hs] at this; cases this
    | up op =>
      rw [hs] at this
      simp only [Bool.and_eq_true, decide_eq_true_eq] at this
      exact ⟨op, rfl, this.1.1, this.1.2, this.2⟩

end Boot

end sample

end Omni
