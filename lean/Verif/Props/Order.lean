import Verif.Proof.Steady.Order
import Verif.Props.Tempo
/-
Property theorems C78: entries of one server are decided in the order in which they were appended there.
-/
namespace Omni

section theorems
variable {E S : Type} [SnapOps E S]

/-- C78, at any time: start where everything is done, and let the servers append, tick, send, and receive in the order of sending, in any interleaving, with nobody else being
elected. Then the new entries of every server's log are the first so many of one and the same list `Z`; and labelling each entry of `Z` with the server that
appended it, `Z` has of every server the first so many entries appended there, in this order: whether they reached the leader directly or were forwarded to it,
nothing is overtaken, left out or repeated. -/
theorem C78_in_order (cc : ClusterConfig) (hv : cc.validate = .ok ()) (hd : cc.nodes.Nodup) (n : Ballot) (k : Nat) (c : Cluster E S)
    (h : c.Settled cc n k) (as : List (Action E S)) (hs : c.Steady cc n as) (c' : Cluster E S) (hr : c.run cc as = some c') :
    ∃ (Z : List E) (T : List NodeId), T.length = Z.length ∧ (∀ i ∈ T, i ∈ cc.nodes) ∧ (∀ i ∈ cc.nodes, labelled Z T i <+: appendedAt i as) ∧
      ∀ i ∈ cc.nodes, ∃ Zi, Zi <+: Z ∧ (c'.servers i).disk.log = (c.servers i).disk.log ++ Zi := by
  obtain ⟨Z, T, o⟩ := h.ordered hv hd hs hr
  obtain ⟨sv, h1, X, B, d, h3, -⟩ := h.flows.run hv hd hs hr
  obtain ⟨opL, l1, l2⟩ := h1 _ h.member
  have hx := o.log
  simp only [Obs.all, Cluster.obs, l1, SP.obs, l2, h3.lead.ist.log, h3.lead.ist.batch, List.append_assoc] at hx
  have hz : X ++ B = Z := List.append_cancel_left hx
  refine ⟨Z, T, o.size, o.labels, fun i hi => ?_, fun i hi => ?_⟩
  · by_cases e : i = n.pid
    · rw [e, o.lead]; exact List.prefix_rfl
    · exact ⟨_, o.fol i hi e⟩
  · by_cases e : i = n.pid
    · subst e
      refine ⟨X, ⟨B, hz⟩, ?_⟩
      rw [l1]
      show opL.sp.ist.storage.log = _
      rw [l2]
      exact h3.lead.ist.log
    · obtain ⟨Xf, Bf, σ, a, out, q, al, ms, hl⟩ := h3.fol i hi e
      obtain ⟨op, e1, e2⟩ := h1 i hi
      have g1 := (Fed.all_grows hl.down).1
      rw [hl.fol.fed] at g1
      refine ⟨Xf, ((List.prefix_append Xf Bf).trans g1).trans ⟨B, hz⟩, ?_⟩
      rw [e1]
      show op.sp.ist.storage.log = _
      rw [e2]
      exact hl.fol.ist.log

/-- C78, at the end: if nothing is on the way any more, every server has decided the same new entries `X`; and labelling each with the server that appended it, `X` has of
every server exactly what was appended there, in this order. -/
theorem C78_all_in_order (cc : ClusterConfig) (hv : cc.validate = .ok ()) (hd : cc.nodes.Nodup) (n : Ballot) (k : Nat) (c : Cluster E S)
    (h : c.Settled cc n k) (as : List (Action E S)) (hs : c.Steady cc n as) (c' : Cluster E S) (hr : c.run cc as = some c') (hq : c'.Quiet cc) :
    ∃ (X : List E) (T : List NodeId), T.length = X.length ∧ (∀ i ∈ T, i ∈ cc.nodes) ∧ (∀ i ∈ cc.nodes, labelled X T i = appendedAt i as) ∧
      ∀ i ∈ cc.nodes, ∃ op, c'.servers i = .up op ∧ op.get_decided_idx = k + X.length ∧ (c'.servers i).disk.log = (c.servers i).disk.log ++ X ∧
        ∀ j e, X[j]? = some e → op.read (k + j) = some (some (.decided e)) := by
  obtain ⟨X, -, x1, x2⟩ := (C69_steady cc hv hd n k c h as hs c' hr).2 hq
  obtain ⟨Z, T, o⟩ := h.ordered hv hd hs hr
  obtain ⟨op, e1, -, e2, -⟩ := x2 _ h.member
  have hx := o.log
  simp only [Cluster.obs, e1, Obs.all, SP.obs, (hq.servers _ h.member op e1).2, List.append_nil] at hx
  rw [e1] at e2
  have hz : Z = X := List.append_cancel_left (hx.symm.trans e2)
  subst hz
  refine ⟨Z, T, o.size, o.labels, fun i hi => ?_, x2⟩
  by_cases e : i = n.pid
  · rw [e, o.lead]
  · rw [← o.fol i hi e]
    obtain ⟨o', f1, -⟩ := x2 i hi
    simp only [waiting, Cluster.obs, f1, SP.obs, (hq.servers _ hi o' f1).1, px_quiet hq hi h.member, List.map_nil, List.flatMap_nil, List.append_nil]

/-- C78, with clocks: in the beats of C75, ten times as many of them as the flush timeouts have ticks after the last append, every server has decided what was appended at every server, in
the order in which it was appended there. -/
theorem C78_beats (cc : ClusterConfig) (hv : cc.validate = .ok ()) (hd : cc.nodes.Nodup) (n : Ballot) (k : Nat) (c : Cluster E S)
    (h : c.Settled cc n k) (hl : c.Loyal cc n) (f : Nat) (hw : c.Wound cc f) (xs : List (List (Action E S))) (c1 : Cluster E S) (h1 : Cluster.Beats cc c xs c1)
    (ys : List (List (Action E S))) (c2 : Cluster E S) (h2 : Cluster.Beats cc c1 ys c2) (hy : 10 * f ≤ ys.length)
    (he : ys.flatten.filterMap Action.entry? = []) :
    ∃ (X : List E) (T : List NodeId), T.length = X.length ∧ (∀ i ∈ T, i ∈ cc.nodes) ∧ (∀ i ∈ cc.nodes, labelled X T i = appendedAt i xs.flatten) ∧
      ∀ i ∈ cc.nodes, ∃ op, c2.servers i = .up op ∧ op.get_decided_idx = k + X.length ∧ (c2.servers i).disk.log = (c.servers i).disk.log ++ X ∧
        ∀ j e, X[j]? = some e → op.read (k + j) = some (some (.decided e)) := by
  have hs := (C75_leader_stays cc hv hd n k c h hl f hw _ _ (h1.append h2)).1
  have hq := (C75_decided cc hv hd n k c h hl f hw xs c1 h1 ys c2 h2 hy he).1
  obtain ⟨X, T, t1, t2, t3, t4⟩ := C78_all_in_order cc hv hd n k c h _ hs c2 (h1.append h2).run hq
  refine ⟨X, T, t1, t2, fun i hi => ?_, t4⟩
  have z : appendedAt i ys.flatten = [] := by
    rw [List.filterMap_eq_nil_iff] at he
    refine List.filterMap_eq_nil_iff.2 fun a ha => ?_
    have := he a ha
    cases a with
    | call j cl => cases cl <;> first | rfl | cases this
    | _ => rfl
  rw [t3 i hi, List.flatten_append]
  simp only [appendedAt, List.filterMap_append] at z ⊢
  rw [z, List.append_nil]

end theorems

section sample
attribute [local instance] Sample.noSync
open Sample
namespace Order

/-- Concrete case: three servers that have decided [7, 8] and trimmed the 7. They append 9 to 12, two of them at a follower; afterwards nothing is on the way. -/
example : ∃ c c' : C, c.Settled cc ⟨1, 1, 0, 1⟩ 2 ∧ c.Steady cc ⟨1, 1, 0, 1⟩ busy ∧ c.run cc busy = some c' ∧ c'.Quiet cc ∧
    cc.validate = .ok () ∧ cc.nodes.Nodup ∧ appendedAt 1 busy = [9] ∧ appendedAt 2 busy = [10, 11] ∧ appendedAt 3 busy = [12] ∧
    (∀ i ∈ cc.nodes, (c'.servers i).disk.log = [8] ++ [9, 10, 11, 12]) ∧ labelled [9, 10, 11, 12] [1, 2, 2, 3] 2 = [10, 11] := by
  have hr : ((Cluster.init.run cc decideTrim).map fun c => settledB cc ⟨1, 1, 0, 1⟩ 2 c && steadyB ⟨1, 1, 0, 1⟩ c busy &&
      match c.run cc busy with
        | none => false
        | some c' => settledB cc ⟨1, 1, 0, 1⟩ 6 c' && cc.nodes.all fun i => decide ((c'.servers i).disk.log = [8, 9, 10, 11, 12])) = some true := by decide +kernel
  obtain ⟨c, _, h⟩ := Option.map_eq_some_iff.1 hr
  simp only [Bool.and_eq_true] at h
  cases hb : c.run cc busy with
  | none => rw [hb] at h; simp at h
  | some c' =>
    simp only [hb, Bool.and_eq_true, List.all_eq_true, decide_eq_true_eq] at h
    exact ⟨c, c', settledB_settled h.1.1, steadyB_steady h.1.2, hb, (settledB_settled h.2.1).quiet, rfl, by decide, rfl, rfl, rfl, h.2.2, rfl⟩

/-- Server 2 appends 9, which is on its way to the leader, server 1, when server 3 takes over. Server 2 then appends 10, which goes to server 3. Server 1
receives 9 as a follower and passes it on to server 3. -/
def overtaken : List A := [.call 2 (.append 9), .take 2, .call 3 .tryBecomeLeader, .take 3, .deliver 3 2, .take 2, .deliver 2 3, .take 3, .deliver 3 2, .take 2,
  .deliver 2 3, .take 3, .call 2 (.append 10), .take 2, .deliver 2 3, .take 3, .deliver 3 2, .take 2, .deliver 2 3, .take 3, .deliver 3 2, .take 2, .deliver 3 1, .take 1,
  .deliver 2 1, .take 1, .deliver 1 3, .deliver 1 3, .take 3, .deliver 3 1, .deliver 3 1, .take 1, .deliver 3 2, .take 2, .deliver 1 3, .take 3, .deliver 2 3,
  .take 3, .deliver 3 1, .take 1, .deliver 3 2, .take 2]

/-- That nobody else is elected is needed in C78: nothing is lost, everything is delivered in the order of sending, and server 2 appends 9 and then 10; but server 3 takes over
in between, and all servers decide 10 and then 9. -/
theorem _root_.Omni.C78_false_leader_change : ∃ c c' : C, c.Settled cc ⟨1, 1, 0, 1⟩ 2 ∧ (∀ a ∈ overtaken, a.Calm cc ∨ a = .call 3 .tryBecomeLeader) ∧
    c.run cc overtaken = some c' ∧ appendedAt 2 overtaken = [9, 10] ∧ c'.Quiet cc ∧
    ∀ i ∈ cc.nodes, (c.servers i).disk.log = [8] ∧ (c'.servers i).disk.log = [8, 10, 9] ∧ ∃ op, c'.servers i = .up op ∧ op.get_decided_idx = 4 := by
  have hr : ((Cluster.init.run cc decideTrim).map fun c => settledB cc ⟨1, 1, 0, 1⟩ 2 c && match c.run cc overtaken with
      | none => false
      | some c' => settledB cc ⟨1, 2, 0, 3⟩ 4 c' && cc.nodes.all fun i => decide ((c.servers i).disk.log = [8]) && decide ((c'.servers i).disk.log = [8, 10, 9])) =
      some true := by decide +kernel
  obtain ⟨c, _, h⟩ := Option.map_eq_some_iff.1 hr
  simp only [Bool.and_eq_true] at h
  cases hb : c.run cc overtaken with
  | none => rw [hb] at h; simp at h
  | some c' =>
    simp only [hb, Bool.and_eq_true, List.all_eq_true, decide_eq_true_eq] at h
    have hs := settledB_settled h.2.1
    refine ⟨c, c', settledB_settled h.1, ?_, hb, rfl, hs.quiet, fun i hi => ⟨(h.2.2 i hi).1, (h.2.2 i hi).2, ?_⟩⟩
    · simp [overtaken, Action.Calm, cc]
    · obtain ⟨op, e1, _, e2⟩ := hs.server i hi
      exact ⟨op, e1, e2.decided⟩

end Order
end sample
end Omni
