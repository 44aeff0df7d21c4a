import Verif.Props.Steady
import Verif.Proof.Steady.Latency
/-
Property theorems C71: how long an entry waits under a continuing load.
-/
namespace Omni

variable {E S : Type} [SnapOps E S]

/-- C71, what holds of all quorums: six busy rounds are enough to store everything everywhere. Let anything be appended anywhere in steady operation, as in C69,
up to a state `c1` with messages in any stage of their way. Then let at least six rounds pass, in each of which all that waits at its beginning gets its turn,
while more is appended at any time. Then every server has, behind the first `k` entries, the same entries `X`, with everything that had been appended before
these rounds, each entry at least as often as it was appended; what has been appended since comes in `X` or behind it. -/
theorem C71_stored (cc : ClusterConfig) (hv : cc.validate = .ok ()) (hd : cc.nodes.Nodup) (n : Ballot) (k : Nat) (c : Cluster E S)
    (h : c.Settled cc n k) (as : List (Action E S)) (hs : c.Steady cc n as) (c1 : Cluster E S) (hr : c.run cc as = some c1)
    (r : Nat) (hr6 : 6 ≤ r) (c2 : Cluster E S) (hrs : Cluster.BusyRounds cc n r c1 c2) :
    ∃ X : List E, (∀ P : E → Bool, (as.filterMap Action.entry?).countP P ≤ X.countP P) ∧
      ∀ i ∈ cc.nodes, ∃ op Y, c2.servers i = .up op ∧ (c2.servers i).disk.log = (c.servers i).disk.log ++ X ++ Y ∧
        ∀ j e, X[j]? = some e → op.read (k + j) = some (some (if k + j < op.get_decided_idx then .decided e else .undecided e)) := by
  obtain ⟨c6, b6, br⟩ := Cluster.BusyRounds.split (r := 6) (s := r - 6) (by rw [Nat.add_sub_cancel' hr6]; exact hrs)
  have f1 := h.flows.run hv hd hs hr
  rw [List.nil_append] at f1
  obtain ⟨P, X, rfl, e1, e2, e3⟩ := f1.six hv hd h.member b6
  obtain ⟨bs, g1, g2⟩ := b6.joined
  have f6 := f1.run hv hd g1 g2
  obtain ⟨cs, g3, g4⟩ := br.joined
  have f2 := f6.run hv hd g3 g4
  obtain ⟨m1, m2, _⟩ := f6.grows hv hd h.member g3 g4
  refine ⟨X, e1, fun i hi => ?_⟩
  obtain ⟨op, Y, a1, a2, _, a3⟩ := f2.reads h.member (fun i hi => by
    obtain ⟨op, e1, _, e2⟩ := h.server i hi
    have := e2.log
    simpa only [Cluster.diskComp, Cluster.diskLog, e1, Server.disk] using this) hi (e2.trans m2) (Nat.le_trans (e3 i hi) (m1 i hi).1)
  exact ⟨op, Y, a1, a2, a3⟩

/-- C71, for configurations in which two servers are enough to accept an entry (up to three servers, or a flexible quorum with write quorum two): ten busy rounds are
enough. As before, but then every server has decided the entries `X`, and reads them as decided. What is missing is the case of larger accept quorums,
in which it is false (C71_false_starvation). -/
theorem C71_latency_partial (cc : ClusterConfig) (hv : cc.validate = .ok ()) (hd : cc.nodes.Nodup) (n : Ballot) (k : Nat) (c : Cluster E S)
    (h : c.Settled cc n k) (as : List (Action E S)) (hs : c.Steady cc n as) (c1 : Cluster E S) (hr : c.run cc as = some c1)
    (hq : (Quorum.with cc.flexible_quorum cc.nodes.length).is_accept_quorum 2 = true)
    (r : Nat) (hr10 : 10 ≤ r) (c2 : Cluster E S) (hrs : Cluster.BusyRounds cc n r c1 c2) :
    ∃ X : List E, (∀ P : E → Bool, (as.filterMap Action.entry?).countP P ≤ X.countP P) ∧
      ∀ i ∈ cc.nodes, ∃ op Y, c2.servers i = .up op ∧ (c2.servers i).disk.log = (c.servers i).disk.log ++ X ++ Y ∧
        k + X.length ≤ op.get_decided_idx ∧ ∀ j e, X[j]? = some e → op.read (k + j) = some (some (.decided e)) := by
  obtain ⟨c6, b6, br⟩ := Cluster.BusyRounds.split (r := 6) (s := 4 + (r - 10)) (by rw [show 6 + (4 + (r - 10)) = r by omega]; exact hrs)
  obtain ⟨c10, b10, br⟩ := Cluster.BusyRounds.split br
  have f0 := h.flows
  have f1 := f0.run hv hd hs hr
  rw [List.nil_append] at f1
  obtain ⟨P, X, rfl, e1, e2, e3⟩ := f1.six hv hd h.member b6
  obtain ⟨b1, g1, g2⟩ := b6.joined
  have f6 := f1.run hv hd g1 g2
  obtain ⟨b2, g3, g4⟩ := b10.joined
  have f10 := f6.run hv hd g3 g4
  obtain ⟨b3, g5, g6⟩ := br.joined
  have f2 := f10.run hv hd g5 g6
  have m1 := f0.grows hv hd h.member hs hr
  have m2 := f1.grows hv hd h.member g1 g2
  have m3 := f6.grows hv hd h.member g3 g4
  have m4 := f10.grows hv hd h.member g5 g6
  have hdec := f6.four hv hd h.member hq (m2.2.2 hq (m1.2.2 hq fun f hf _ => h.recorded f hf)) e3 b10
  refine ⟨X, e1, fun i hi => ?_⟩
  obtain ⟨op, Y, a1, a2, a3, a4⟩ := f2.reads h.member (fun i hi => by
    obtain ⟨op, e1, _, e2⟩ := h.server i hi
    have := e2.log
    simpa only [Cluster.diskComp, Cluster.diskLog, e1, Server.disk] using this) hi (e2.trans (m3.2.1.trans m4.2.1))
    (Nat.le_trans (e3 i hi) (Nat.le_trans (m3.1 i hi).1 (m4.1 i hi).1))
  have hlen : k + X.length ≤ op.get_decided_idx := by
    rw [a3]
    exact Nat.le_trans (hdec i hi) (m4.1 i hi).2
  refine ⟨op, Y, a1, a2, hlen, fun j e hj => ?_⟩
  have hjl : j < X.length := (List.getElem?_eq_some_iff.1 hj).1
  have := a4 j e hj
  rwa [if_pos (by omega)] at this

section sample
attribute [local instance] Sample.noSync
open Sample

/-- Busy rounds, tested. -/
def busyRoundsB (n : Ballot) : List (List A) → C → Option C
  | [], c => some c
  | as :: rs, c => if steadyB n c as && turnsB cc c as then (c.run cc as).bind (busyRoundsB n rs) else none

theorem busyRoundsB_rounds {n : Ballot} {rs : List (List A)} {c c' : C} (h : busyRoundsB n rs c = some c') : Cluster.BusyRounds cc n rs.length c c' := by
  induction rs generalizing c with
  | nil => cases h; exact .zero _
  | cons as rs ih =>
    simp only [busyRoundsB] at h
    split at h
    · rename_i h1
      simp only [Bool.and_eq_true] at h1
      obtain ⟨c1, h2, h3⟩ := Option.bind_eq_some_iff.1 h
      exact .more as ⟨steadyB_steady h1.1, turnsB_turns h1.2, h2⟩ (ih h3)
    · cases h

/-- The rounds of C70's example, with something appended at server 3 or 1 at the end of many of them. -/
def busyRounds : List (List A) := [[.take 2, .call 3 (.append 20)], [.deliver 2 1, .take 3], [.call 1 .tick, .call 1 .tick, .deliver 3 1, .call 1 (.append 21)],
  [.take 1, .call 3 (.append 22)], [.deliver 1 2, .deliver 1 3, .take 3], [.take 2, .deliver 3 1, .deliver 3 1, .call 1 (.append 23)],
  [.take 1, .deliver 2 1, .call 2 (.append 24)], [.deliver 1 2, .deliver 1 2, .deliver 1 3, .deliver 1 3, .take 2],
  [.deliver 2 1, .deliver 2 1, .take 3, .call 1 (.append 25)], [.deliver 3 1, .take 1]]

/-- Concrete case: as in the example of C70, but with something appended in most of the rounds. -/
example : ∃ c c1 c2 : C, c.Settled cc ⟨1, 1, 0, 1⟩ 2 ∧ c.Steady cc ⟨1, 1, 0, 1⟩ [.call 2 (.append 9)] ∧ c.run cc [.call 2 (.append 9)] = some c1 ∧
    Cluster.BusyRounds cc ⟨1, 1, 0, 1⟩ 10 c1 c2 ∧ cc.validate = .ok () ∧ cc.nodes.Nodup ∧
    (Quorum.with cc.flexible_quorum cc.nodes.length).is_accept_quorum 2 = true := by
  have hr : ((Cluster.init.run cc slowStart).map fun c => settledB cc ⟨1, 1, 0, 1⟩ 2 c && steadyB ⟨1, 1, 0, 1⟩ c [.call 2 (.append 9)] &&
      match c.run cc [.call 2 (.append 9)] with | none => false | some c1 => (busyRoundsB ⟨1, 1, 0, 1⟩ busyRounds c1).isSome) = some true := by decide +kernel
  obtain ⟨c, _, h⟩ := Option.map_eq_some_iff.1 hr
  simp only [Bool.and_eq_true] at h
  obtain ⟨⟨h1, h2⟩, h3⟩ := h
  cases hb : c.run cc [.call 2 (.append 9)] with
  | none => rw [hb] at h3; cases h3
  | some c1 =>
    rw [hb] at h3
    obtain ⟨c2, hc⟩ := Option.isSome_iff_exists.1 h3
    exact ⟨c, c1, c2, settledB_settled h1, steadyB_steady h2, hb, busyRoundsB_rounds hc, rfl, by decide, rfl⟩

end sample
end Omni
