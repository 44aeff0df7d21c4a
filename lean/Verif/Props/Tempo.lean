import Verif.Proof.Beats.Timed
import Verif.Props.Beats
import Verif.Props.Load
/-
Property theorems C75: what the clocks guarantee when every server ticks once per beat.
-/
namespace Omni

section theorems
variable {E S : Type} [SnapOps E S]

/-- C75, leadership: start where everything is done and everybody follows ballot `n`, with election timeouts of at least five ticks. In beats in which every
server ticks once and hands over its messages, and every link delivers what is on it at the beginning, in any order and with anything appended meanwhile, nobody else
is ever elected, and everybody still follows `n` at the end. Nothing is assumed about heartbeats and elections. -/
theorem C75_leader_stays (cc : ClusterConfig) (hv : cc.validate = .ok ()) (hd : cc.nodes.Nodup) (n : Ballot) (k : Nat) (c : Cluster E S)
    (h : c.Settled cc n k) (hl : c.Loyal cc n) (f : Nat) (hw : c.Wound cc f) (xs : List (List (Action E S))) (c' : Cluster E S) (hb : Cluster.Beats cc c xs c') :
    c.Steady cc n xs.flatten ∧ c'.Loyal cc n := by
  obtain ⟨h1, h2⟩ := C74_stays_leader cc hv hd n k c h hl xs.flatten (hb.prompt hw hv hd h.member)
  exact ⟨h1, h2 c' hb.run⟩

/-- C75, decisions: let anything be appended in any beats, and then nothing for ten times as many beats as the flush timeouts have ticks. Then all servers have decided
exactly what was appended, in one and the same order, and nothing is on the way. -/
theorem C75_decided (cc : ClusterConfig) (hv : cc.validate = .ok ()) (hd : cc.nodes.Nodup) (n : Ballot) (k : Nat) (c : Cluster E S)
    (h : c.Settled cc n k) (hl : c.Loyal cc n) (f : Nat) (hw : c.Wound cc f) (xs : List (List (Action E S))) (c1 : Cluster E S) (h1 : Cluster.Beats cc c xs c1)
    (ys : List (List (Action E S))) (c2 : Cluster E S) (h2 : Cluster.Beats cc c1 ys c2) (hy : 10 * f ≤ ys.length)
    (he : ys.flatten.filterMap Action.entry? = []) :
    c2.Quiet cc ∧ ∃ X : List E, X.Perm (xs.flatten.filterMap Action.entry?) ∧ c2.Settled cc n (k + X.length) ∧
      ∀ i ∈ cc.nodes, ∃ op, c2.servers i = .up op ∧ op.get_decided_idx = k + X.length ∧
        (c2.servers i).disk.log = (c.servers i).disk.log ++ X ∧
        ∀ j e, X[j]? = some e → op.read (k + j) = some (some (.decided e)) := by
  have hs := (C75_leader_stays cc hv hd n k c h hl f hw _ _ (h1.append h2)).1
  obtain ⟨zs, c3, r, hr, -, b1, b2, -, -, b3⟩ := beats_rounds (hw.pos h) hw h1 h2 hs (r := 10) (by rw [Nat.mul_comm]; exact hy)
  obtain ⟨b4, b5⟩ := b3 he
  have := C70_ten_rounds cc hv hd n k c h _ b2 c3 b1 r hr c2 b5
  rwa [List.filterMap_append, b4, List.append_nil] at this

/-- C75, under load: whatever was appended up to a beat is stored by all servers, at the same positions, after six times as many further beats as the flush timeouts have
ticks, whatever is appended in these. -/
theorem C75_stored (cc : ClusterConfig) (hv : cc.validate = .ok ()) (hd : cc.nodes.Nodup) (n : Ballot) (k : Nat) (c : Cluster E S)
    (h : c.Settled cc n k) (hl : c.Loyal cc n) (f : Nat) (hw : c.Wound cc f) (xs : List (List (Action E S))) (c1 : Cluster E S) (h1 : Cluster.Beats cc c xs c1)
    (ys : List (List (Action E S))) (c2 : Cluster E S) (h2 : Cluster.Beats cc c1 ys c2) (hy : 6 * f ≤ ys.length) :
    ∃ X : List E, (∀ P : E → Bool, (xs.flatten.filterMap Action.entry?).countP P ≤ X.countP P) ∧
      ∀ i ∈ cc.nodes, ∃ op Y, c2.servers i = .up op ∧ (c2.servers i).disk.log = (c.servers i).disk.log ++ X ++ Y ∧
        ∀ j e, X[j]? = some e → op.read (k + j) = some (some (if k + j < op.get_decided_idx then .decided e else .undecided e)) := by
  have hs := (C75_leader_stays cc hv hd n k c h hl f hw _ _ (h1.append h2)).1
  obtain ⟨zs, c3, r, hr, -, b1, b2, -, b3, -⟩ := beats_rounds (hw.pos h) hw h1 h2 hs (r := 6) (by rw [Nat.mul_comm]; exact hy)
  obtain ⟨X, d1, d2⟩ := C71_stored cc hv hd n k c h _ b2 c3 b1 r hr c2 b3
  refine ⟨X, fun P => Nat.le_trans ?_ (d1 P), d2⟩
  rw [List.filterMap_append, List.countP_append]
  exact Nat.le_add_right _ _

/-- C75, under load, for configurations in which two servers are enough to accept: whatever was appended up to a beat is decided at all servers after ten times as many
further beats as the flush timeouts have ticks, whatever is appended in these. Missing: larger accept quorums, of which it is false (C71_false_starvation). -/
theorem C75_latency_partial (cc : ClusterConfig) (hv : cc.validate = .ok ()) (hd : cc.nodes.Nodup) (n : Ballot) (k : Nat) (c : Cluster E S)
    (h : c.Settled cc n k) (hl : c.Loyal cc n) (f : Nat) (hw : c.Wound cc f) (xs : List (List (Action E S))) (c1 : Cluster E S) (h1 : Cluster.Beats cc c xs c1)
    (hq : (Quorum.with cc.flexible_quorum cc.nodes.length).is_accept_quorum 2 = true)
    (ys : List (List (Action E S))) (c2 : Cluster E S) (h2 : Cluster.Beats cc c1 ys c2) (hy : 10 * f ≤ ys.length) :
    ∃ X : List E, (∀ P : E → Bool, (xs.flatten.filterMap Action.entry?).countP P ≤ X.countP P) ∧
      ∀ i ∈ cc.nodes, ∃ op Y, c2.servers i = .up op ∧ (c2.servers i).disk.log = (c.servers i).disk.log ++ X ++ Y ∧
        k + X.length ≤ op.get_decided_idx ∧ ∀ j e, X[j]? = some e → op.read (k + j) = some (some (.decided e)) := by
  have hs := (C75_leader_stays cc hv hd n k c h hl f hw _ _ (h1.append h2)).1
  obtain ⟨zs, c3, r, hr, -, b1, b2, -, b3, -⟩ := beats_rounds (hw.pos h) hw h1 h2 hs (r := 10) (by rw [Nat.mul_comm]; exact hy)
  obtain ⟨X, d1, d2⟩ := C71_latency_partial cc hv hd n k c h _ b2 c3 b1 hq r hr c2 b3
  refine ⟨X, fun P => Nat.le_trans ?_ (d1 P), d2⟩
  rw [List.filterMap_append, List.countP_append]
  exact Nat.le_add_right _ _

end theorems

section sample
attribute [local instance] Sample.noSync
open Sample

/-- Test of `Beat`. -/
def beatB (c : C) (as : List A) : Bool :=
  (as.all fun a => match a with
    | .call i (.append _) | .call i .tick | .take i => cc.nodes.contains i
    | .deliver i j => cc.nodes.contains i && cc.nodes.contains j
    | _ => false) &&
  cc.nodes.all fun i => decide (as.countP (Action.isTick i) = 1) && as.any (takes i) &&
    cc.nodes.all fun j => decide ((c.net i j).length ≤ as.countP (Action.isDelivery i j))

theorem beatB_beat {c : C} {as : List A} (h : beatB c as = true) : c.Beat cc as := by
  simp only [beatB, Bool.and_eq_true, List.all_eq_true, decide_eq_true_eq] at h
  obtain ⟨h1, h2⟩ := h
  refine ⟨fun a ha => ?_, fun i p hc => ?_, fun i hi => (h2 i hi).1.1, fun i hi => takes_mem (h2 i hi).1.2, fun i hi j hj => (h2 i hi).2 j hj⟩
  · have := h1 a ha
    cases a with
    | call i call => cases call <;> first | (cases this) | simpa [Action.Calm] using this
    | take i => simpa [Action.Calm] using this
    | deliver i j => simpa [Action.Calm] using this
    | _ => cases this
  · have := h1 _ hc
    cases this

/-- Run beats, with a test of each. -/
def beatsB (c : C) : List (List A) → Option C
  | [] => some c
  | as :: bss => if beatB c as then match c.run cc as with | none => none | some c1 => beatsB c1 bss else none

theorem beatsB_beats {bss : List (List A)} : ∀ {c c' : C}, beatsB c bss = some c' → Cluster.Beats cc c bss c' := by
  induction bss with
  | nil => intro c c' h; cases h; exact .nil c
  | cons as bss ih =>
    intro c c' h
    simp only [beatsB] at h
    by_cases hb : beatB c as = true
    · rw [if_pos hb] at h
      cases hr : c.run cc as with
      | none => rw [hr] at h; cases h
      | some c1 => rw [hr] at h; exact .cons (beatB_beat hb) hr (ih h)
    · rw [if_neg hb] at h; cases h

/-- Test of `Wound`, with `t` for five. -/
def woundB (t f : Nat) (c : C) : Bool := cc.nodes.all fun i => match c.servers i with
  | .down _ => true
  | .up op => decide (op.election_clock.time + t ≤ op.election_clock.timeout) && decide (op.flush_batch_clock.time < op.flush_batch_clock.timeout) &&
    decide (op.flush_batch_clock.timeout ≤ f)

theorem woundB_wound {f : Nat} {c : C} (h : woundB 5 f c = true) : c.Wound cc f := by
  intro i hi op hop
  simp only [woundB, List.all_eq_true] at h
  have := h i hi
  rw [hop] at this
  simpa [and_assoc] using this

namespace Tempo

/-- Servers with an election timeout of `t` ticks. -/
def timed (t : Nat) (pid : NodeId) : ServerConfig := { sc pid with election_tick_timeout := t, flush_batch_tick_timeout := 1 }

def takes : List A := [.take 1, .take 2, .take 3]
def ticks : List A := [.call 1 .tick, .call 2 .tick, .call 3 .tick]
def all : List A := [.deliver 1 2, .deliver 1 3, .deliver 2 1, .deliver 2 3, .deliver 3 1, .deliver 3 2]

/-- The servers start and exchange heartbeats. -/
def start (t : Nat) : List A := [.start 1 (timed t 1), .start 2 (timed t 2), .start 3 (timed t 3)] ++ takes ++ all ++ takes ++ all

/-- Server 3 has just been elected, prepares, and is followed by all; another heartbeat round is over. -/
def settle : List A := takes ++
  [.deliver 1 2, .deliver 1 3, .deliver 2 1, .deliver 2 3, .deliver 3 1, .deliver 3 1, .deliver 3 1, .deliver 3 2, .deliver 3 2, .deliver 3 2] ++ takes ++
  [.deliver 1 2, .deliver 1 3, .deliver 1 3, .deliver 2 1, .deliver 2 3, .deliver 2 3, .deliver 3 1, .deliver 3 2] ++ takes ++
  [.deliver 3 1, .deliver 3 2] ++ takes ++ [.deliver 1 3, .deliver 2 3]

def n : Ballot := ⟨1, 1, 0, 3⟩

/-- An entry is appended at server 2. -/
def load : List (List A) := [takes ++ [.call 2 (.append 9)] ++ ticks]

/-- It is decided, and another heartbeat round is exchanged. -/
def calm : List (List A) := [takes ++ ticks, [.deliver 2 3] ++ takes ++ ticks, [.deliver 3 1, .deliver 3 2] ++ takes ++ ticks,
  [.deliver 1 3, .deliver 2 3] ++ takes ++ ticks, [.deliver 3 1, .deliver 3 2] ++ takes ++ ticks, all ++ takes ++ ticks, all ++ takes ++ ticks,
  takes ++ ticks, takes ++ ticks, takes ++ ticks]

/-- Concrete case: three servers with an election timeout of five ticks and a flush timeout of one tick. -/
example : ∃ c c1 c2 : C, Cluster.init.run cc (start 5 ++ ticks ++ ticks ++ ticks ++ ticks ++ ticks ++ settle) = some c ∧ c.Settled cc n 0 ∧ c.Loyal cc n ∧
    c.Wound cc 1 ∧ Cluster.Beats cc c load c1 ∧ Cluster.Beats cc c1 calm c2 ∧ 10 * 1 ≤ calm.length ∧ calm.flatten.filterMap Action.entry? = [] ∧
    load.flatten.filterMap Action.entry? = [9] ∧ cc.validate = .ok () ∧ cc.nodes.Nodup ∧
    (Quorum.with cc.flexible_quorum cc.nodes.length).is_accept_quorum 2 = true ∧ c2.Settled cc n 1 := by
  have hr : ((Cluster.init.run cc (start 5 ++ ticks ++ ticks ++ ticks ++ ticks ++ ticks ++ settle)).map fun c =>
      settledB cc n 0 c && loyalB n c && woundB 5 1 c && match beatsB c load with
        | none => false
        | some c1 => match beatsB c1 calm with | none => false | some c2 => settledB cc n 1 c2) = some true := by decide +kernel
  obtain ⟨c, hc, h⟩ := Option.map_eq_some_iff.1 hr
  simp only [Bool.and_eq_true] at h
  obtain ⟨⟨⟨h1, h2⟩, h3⟩, h4⟩ := h
  cases hb : beatsB c load with
  | none => rw [hb] at h4; cases h4
  | some c1 =>
    simp only [hb] at h4
    cases hd : beatsB c1 calm with
    | none => rw [hd] at h4; cases h4
    | some c2 =>
      rw [hd] at h4
      exact ⟨c, c1, c2, hc, settledB_settled h1, loyalB_loyal h2, woundB_wound h3, beatsB_beats hb, beatsB_beats hd, by decide, rfl, rfl, rfl, by decide,
        by decide, settledB_settled h4⟩

/-- Beats in which requests and answers take one beat for each hop, and the answers come just after the next election timeout. -/
def slow : List (List A) := [takes ++ ticks, takes ++ ticks, takes ++ ticks, takes ++ ticks, takes ++ ticks, takes ++ all ++ ticks, takes ++ ticks,
  ticks ++ all ++ takes, all ++ takes ++ ticks, all ++ takes ++ ticks, takes ++ ticks, takes ++ ticks]

/-- C75 is sharp: with election timeouts of four ticks, and everything else the same, a server takes over although nothing is lost and nobody is down. -/
theorem _root_.Omni.C75_not_four : ∃ c c' : C, Cluster.init.run cc (start 4 ++ ticks ++ ticks ++ ticks ++ ticks ++ settle) = some c ∧ c.Settled cc n 0 ∧
    c.Loyal cc n ∧ (∀ i ∈ cc.nodes, ∃ op, c.servers i = .up op ∧ op.election_clock = ⟨0, 4⟩ ∧ op.flush_batch_clock = ⟨0, 1⟩) ∧
    Cluster.Beats cc c slow c' ∧ (∃ op, c'.servers 1 = .up op ∧ op.get_promise = ⟨1, 2, 0, 1⟩) ∧ ¬ c.Steady cc n slow.flatten := by
  have hr : ((Cluster.init.run cc (start 4 ++ ticks ++ ticks ++ ticks ++ ticks ++ settle)).map fun c => settledB cc n 0 c && loyalB n c &&
      (cc.nodes.all fun i => match c.servers i with
        | .down _ => false
        | .up op => decide (op.election_clock = ⟨0, 4⟩) && decide (op.flush_batch_clock = ⟨0, 1⟩)) &&
      match beatsB c slow with | none => false | some c' => match c'.servers 1 with
        | .down _ => false
        | .up op => decide (op.get_promise = ⟨1, 2, 0, 1⟩) && decide (op.sp.ist.storage.n_prom = some ⟨1, 2, 0, 1⟩)) = some true := by decide +kernel
  obtain ⟨c, hc, h⟩ := Option.map_eq_some_iff.1 hr
  simp only [Bool.and_eq_true, List.all_eq_true] at h
  obtain ⟨⟨⟨h1, h2⟩, h3⟩, h4⟩ := h
  cases hb : beatsB c slow with
  | none => rw [hb] at h4; cases h4
  | some c' =>
    simp only [hb] at h4
    cases hs : c'.servers 1 with
    | down d => rw [hs] at h4; cases h4
    | up op =>
      simp only [hs, Bool.and_eq_true, decide_eq_true_eq] at h4
      refine ⟨c, c', hc, settledB_settled h1, loyalB_loyal h2, fun i hi => ?_, beatsB_beats hb, ⟨op, hs, h4.1⟩, fun hst => ?_⟩
      · have := h3 i hi
        cases hi' : c.servers i with
        | down d => rw [hi'] at this; cases this
        | up o =>
          rw [hi'] at this
          simp only [Bool.and_eq_true, decide_eq_true_eq] at this
          exact ⟨o, rfl, this⟩
      · have := (hst.elected 3 (slow.flatten.length - 1) c' rfl (by
          rw [show slow.flatten.take (slow.flatten.length - 1 + 1) = slow.flatten from rfl]; exact (beatsB_beats hb).run)) 1 (by decide)
        rw [hs] at this
        have := this.1.symm.trans h4.2
        simp [n] at this

end Tempo
end sample

end Omni
