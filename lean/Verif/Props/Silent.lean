import Verif.Proof.Silent.Run
/-
Property theorems C77: servers that fall silent do not stop the others.
-/
namespace Omni

section theorems
variable {E S : Type} [SnapOps E S]

/-- C77, leadership: start where everything is done and everybody follows ballot `n`, with election timeouts of at least five ticks, and let any beats pass with all servers.
Then let all servers outside `L` fall silent: they crash, restart, hang, are called, receive what is sent to them or not, in any order and number of times, but hand over no more
messages. If the leader is in `L` and `L` is enough to accept, then beats of the servers `L` keep them with the leader, whatever the silent ones do. -/
theorem C77_leader_stays (cc : ClusterConfig) (hv : cc.validate = .ok ()) (hd : cc.nodes.Nodup) (n : Ballot) (k : Nat) (c : Cluster E S)
    (h : c.Settled cc n k) (hl : c.Loyal cc n) (f : Nat) (hw : c.Wound cc f) (xs : List (List (Action E S))) (c1 : Cluster E S) (h1 : Cluster.Beats cc c xs c1)
    (L : List NodeId) (hL : AcceptQuorum cc L) (hn : n.pid ∈ L) (ys : List (List (Action E S))) (c2 : Cluster E S) (h2 : Cluster.LiveBeats cc L c1 ys c2) :
    ∀ i ∈ L, ∃ op, c2.servers i = .up op ∧ op.get_promise = n ∧ op.sp.ist.storage.n_prom = some n ∧ op.sp.phase = .accept ∧
      op.sp.role = (if i = n.pid then .leader else .follower) := by
  obtain ⟨g, g1, g2, g3⟩ := (Alike.refl c1).beats h2 hL.members
  obtain ⟨-, -, -, sv, e1, X, B, d, e2, -⟩ := silent_steady hv hd h hl hw hL hn h1 g1 g3
  intro i hi
  obtain ⟨op, u, e3⟩ := e1 i (hL.members i hi)
  rw [g2.servers i hi] at u
  refine ⟨op, u, ?_⟩
  show op.sp.get_promise = n ∧ _
  rw [e3]
  by_cases e : i = n.pid
  · subst e
    exact ⟨e2.lead.ist.prom, e2.lead.ist.nprom, e2.lead.phase, by rw [if_pos rfl, e2.lead.role]⟩
  · obtain ⟨_, _, _, _, _, _, _, _, hF⟩ := e2.fol i (hL.members i hi) e
    exact ⟨hF.fol.ist.prom, hF.fol.ist.nprom, hF.fol.phase, by rw [if_neg e, hF.fol.role]⟩

/-- C77, decisions: as before. Let anything be appended in these beats, and then nothing at the servers `L` for ten times as many beats of theirs as
the flush timeouts have ticks. Then the servers `L` have decided the same new entries `X` in the same order. Labelling each with the server that appended it, `X` has of every
server of `L` exactly what was appended there, in this order, and of every other server some of the first entries appended there before it fell silent, in this order. -/
theorem C77_decided (cc : ClusterConfig) (hv : cc.validate = .ok ()) (hd : cc.nodes.Nodup) (n : Ballot) (k : Nat) (c : Cluster E S)
    (h : c.Settled cc n k) (hl : c.Loyal cc n) (f : Nat) (hw : c.Wound cc f) (xs : List (List (Action E S))) (c1 : Cluster E S) (h1 : Cluster.Beats cc c xs c1)
    (L : List NodeId) (hL : AcceptQuorum cc L) (hn : n.pid ∈ L)
    (ys : List (List (Action E S))) (c2 : Cluster E S) (h2 : Cluster.LiveBeats cc L c1 ys c2)
    (zs : List (List (Action E S))) (c3 : Cluster E S) (h3 : Cluster.LiveBeats cc L c2 zs c3) (hz : 10 * f ≤ zs.length)
    (he : zs.flatten.filterMap (Action.entryAt? L) = []) :
    ∃ (X : List E) (T : List NodeId), T.length = X.length ∧ (∀ i ∈ T, i ∈ cc.nodes) ∧
      (∀ i ∈ L, labelled X T i = appendedAt i (xs.flatten ++ ys.flatten)) ∧ (∀ i ∈ cc.nodes, i ∉ L → labelled X T i <+: appendedAt i xs.flatten) ∧
      ∀ i ∈ L, ∃ op, c3.servers i = .up op ∧ op.get_promise = n ∧ op.get_decided_idx = k + X.length ∧
        (c3.servers i).disk.log = (c.servers i).disk.log ++ X ∧ (c3.servers i).disk.compacted_idx = (c.servers i).disk.compacted_idx ∧
        ∀ j e, X[j]? = some e → op.read (k + j) = some (some (.decided e)) := by
  obtain ⟨g1, a1, a2, a3⟩ := (Alike.refl c1).beats h2 hL.members
  obtain ⟨g2, b1, b2, b3⟩ := a2.beats h3 hL.members
  obtain ⟨X, T, t1, t2, t3, t4, x2⟩ := silent_decided hv hd h hl hw hL hn (hL.other hv _) h1 a1 b1 a3 b3 (by rw [List.length_map]; exact hz)
    (by rw [entries_ghost fun _ h => h]; exact he)
  refine ⟨X, T, t1, t2, fun i hi => ?_, t4, fun i hi => ?_⟩
  · rw [t3 i hi]
    simp only [appendedAt, List.filterMap_append]
    rw [entries_ghost fun j hj => by rw [List.mem_singleton.1 hj]; exact hi]
  · obtain ⟨op, u, -, e1, e2, e3⟩ := x2 i hi
    rw [b2.servers i hi] at u
    refine ⟨op, u, e1.promise, e1.decided, by rw [u]; exact e2, by rw [u]; exact e3, fun j e hj => ?_⟩
    have := e1.read (op := op) e2 hj
    rwa [Nat.add_sub_cancel] at this

end theorems

section sample
attribute [local instance] Sample.noSync
open Sample

/-- Test of `Of` and `Mute`. -/
def actB (L : List NodeId) : A → Bool
  | .call _ (.append _) | .call _ .tick => true
  | .call i _ | .start i _ | .crash i | .crashCall i _ _ => !L.contains i
  | .take i => L.contains i
  | .deliver i j => cc.nodes.contains i || !L.contains j
  | .crashDeliver _ j _ | .lose _ j _ | .rearrange _ j _ => !L.contains j

theorem actB_act {L : List NodeId} {a : A} (h : actB L a = true) : a.Of cc L ∨ a.Mute L := by
  cases a with
  | call i cl =>
    by_cases hi : i ∈ L
    · cases cl <;> first | exact .inl hi | (simp [actB, hi] at h)
    · exact .inr hi
  | take i => exact .inl (List.contains_iff_mem.1 h)
  | deliver i j =>
    by_cases hj : j ∈ L
    · simp only [actB, Bool.or_eq_true, Bool.not_eq_true', List.contains_iff_mem] at h
      rcases h with h | h
      · exact .inl ⟨h, hj⟩
      · simp [hj] at h
    · exact .inr hj
  | _ => exact .inr (by simpa [actB, Action.Mute] using h)

/-- Test of `LiveBeat`. -/
def liveB (L : List NodeId) (c : C) (as : List A) : Bool :=
  as.all (actB L) && L.all (fun i => decide (as.countP (Action.isTick i) = 1) && as.any (takes i)) &&
  cc.nodes.all fun i => L.all fun j => decide ((c.net i j).length ≤ as.countP (Action.isDelivery i j))

theorem liveB_live {L : List NodeId} {c : C} {as : List A} (h : liveB L c as = true) : c.LiveBeat cc L as := by
  simp only [liveB, Bool.and_eq_true, List.all_eq_true, decide_eq_true_eq] at h
  obtain ⟨⟨h1, h2⟩, h3⟩ := h
  exact ⟨fun a ha => actB_act (h1 a ha), fun i hi => (h2 i hi).1, fun i hi => takes_mem (h2 i hi).2, fun i hi j hj => h3 i hi j hj⟩

/-- Run such beats, with a test of each. -/
def livesB (L : List NodeId) (c : C) : List (List A) → Option C
  | [] => some c
  | as :: bss => if liveB L c as then match c.run cc as with | none => none | some c1 => livesB L c1 bss else none

theorem livesB_lives {L : List NodeId} {bss : List (List A)} : ∀ {c c' : C}, livesB L c bss = some c' → Cluster.LiveBeats cc L c bss c' := by
  induction bss with
  | nil => intro c c' h; cases h; exact .nil c
  | cons as bss ih =>
    intro c c' h
    simp only [livesB] at h
    by_cases hb : liveB L c as = true
    · rw [if_pos hb] at h
      cases hr : c.run cc as with
      | none => rw [hr] at h; cases h
      | some c1 => rw [hr] at h; exact .cons (liveB_live hb) hr (ih h)
    · rw [if_neg hb] at h; cases h

namespace Silent
open Tempo (ticks settle timed n load)

/-- What is on the links to servers 1 and 3 is delivered, then these hand over their messages and tick. -/
def live (c : C) : List A :=
  ([1, 2, 3].flatMap fun i => [1, 3].flatMap fun j => List.replicate (c.net i j).length (.deliver i j)) ++ [.take 1, .take 3, .call 1 .tick, .call 3 .tick]

/-- Such beats, with something before each of them. -/
def drive (c : C) : List (List A) → List (List A)
  | [] => []
  | b :: bs => match c.run cc (live c ++ b) with
    | none => []
    | some c1 => (live c ++ b) :: drive c1 bs

/-- Server 2 crashes in the first beat, and an entry is appended at server 1. -/
def first : List (List A) := [[.crash 2, .call 1 (.append 8)]]
/-- Then server 2 restarts, hears something, and is asked to append; but it sends nothing. -/
def rest : List (List A) := [[.start 2 (timed 5 2)], [.deliver 3 2], [.call 2 (.append 7), .call 2 .tick], [.lose 3 2 0], [], [], [], [], [], []]

/-- Concrete case: three servers with an election timeout of five ticks and a flush timeout of one tick; 3 leads. Server 2 appends an entry and crashes before it hands it over.
The other two decide what is appended at server 1. -/
example : ∃ (c c1 c2 c3 : C) (ys zs : List (List A)),
    Cluster.init.run cc (Tempo.start 5 ++ ticks ++ ticks ++ ticks ++ ticks ++ ticks ++ settle) = some c ∧ c.Settled cc n 0 ∧ c.Loyal cc n ∧
    c.Wound cc 1 ∧ Cluster.Beats cc c load c1 ∧ AcceptQuorum cc [1, 3] ∧ n.pid ∈ [1, 3] ∧ Cluster.LiveBeats cc [1, 3] c1 ys c2 ∧
    Cluster.LiveBeats cc [1, 3] c2 zs c3 ∧ 10 * 1 ≤ zs.length ∧ zs.flatten.filterMap (Action.entryAt? [1, 3]) = [] ∧
    load.flatten.filterMap Action.entry? = [9] ∧ ys.flatten.filterMap Action.entry? = [8] ∧ zs.flatten.filterMap Action.entry? = [7] ∧
    cc.validate = .ok () ∧ cc.nodes.Nodup ∧ ∀ i ∈ [1, 3], (c3.servers i).disk.log = [8] := by
  have hr : ((Cluster.init.run cc (Tempo.start 5 ++ ticks ++ ticks ++ ticks ++ ticks ++ ticks ++ settle)).map fun c =>
      settledB cc n 0 c && loyalB n c && woundB 5 1 c && match beatsB c load with
        | none => false
        | some c1 => match livesB [1, 3] c1 (drive c1 first) with
          | none => false
          | some c2 => match livesB [1, 3] c2 (drive c2 rest) with
            | none => false
            | some c3 => decide ((c3.servers 1).disk.log = [8]) && decide ((c3.servers 3).disk.log = [8]) && decide ((drive c2 rest).length = 10) &&
              decide ((drive c2 rest).flatten.filterMap (Action.entryAt? [1, 3]) = []) && decide ((drive c2 rest).flatten.filterMap Action.entry? = [7]) &&
              decide ((drive c1 first).flatten.filterMap Action.entry? = [8])) = some true := by decide +kernel
  obtain ⟨c, hc, h⟩ := Option.map_eq_some_iff.1 hr
  simp only [Bool.and_eq_true] at h
  obtain ⟨⟨⟨h1, h2⟩, h3⟩, h4⟩ := h
  cases hb : beatsB c load with
  | none => rw [hb] at h4; cases h4
  | some c1 =>
    simp only [hb] at h4
    cases hy : livesB [1, 3] c1 (drive c1 first) with
    | none => rw [hy] at h4; cases h4
    | some c2 =>
      simp only [hy] at h4
      cases hz : livesB [1, 3] c2 (drive c2 rest) with
      | none => rw [hz] at h4; cases h4
      | some c3 =>
        simp only [hz, Bool.and_eq_true, decide_eq_true_eq] at h4
        obtain ⟨⟨⟨⟨⟨q1, q2⟩, q3⟩, q4⟩, q5⟩, q6⟩ := h4
        refine ⟨c, c1, c2, c3, _, _, hc, settledB_settled h1, loyalB_loyal h2, woundB_wound h3, beatsB_beats hb, ⟨by decide, by decide, by show 3 < 4; omega⟩, by decide,
          livesB_lives hy, livesB_lives hz, Nat.le_of_eq q3.symm, q4, rfl, q6, q5, rfl, by decide, fun i hi => ?_⟩
        rcases List.mem_cons.1 hi with rfl | hi
        · exact q1
        · cases List.mem_singleton.1 hi; exact q2

end Silent
end sample
end Omni
