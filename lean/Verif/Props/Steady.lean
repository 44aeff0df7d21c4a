import Verif.Proof.Steady.Done
import Verif.Spec.Runs
/-
Property theorems C69 and C70: steady operation decides everything appended, within ten rounds.
-/
namespace Omni

variable {E S : Type} [SnapOps E S]

/-- C69: start where everything is done: all servers of the configuration run and have decided the same `k` entries in the Accept phase
of the same ballot, and no Paxos message is on the way. Let them append anything anywhere (at the leader or at followers), tick, send, and
receive in the order of sending, in any interleaving, as long as no tick elects anybody. Then no server stops; and whenever again nothing is
on the way or batched, all servers have decided exactly the entries appended since, each as often as it was appended, in one and the same
order, behind the first `k`; and all is ready for more. -/
theorem C69_steady (cc : ClusterConfig) (hv : cc.validate = .ok ()) (hd : cc.nodes.Nodup) (n : Ballot) (k : Nat) (c : Cluster E S)
    (h : c.Settled cc n k) (as : List (Action E S)) (hs : c.Steady cc n as) (c' : Cluster E S) (hr : c.run cc as = some c') :
    (∀ i ∈ cc.nodes, ∃ op, c'.servers i = .up op) ∧
    (c'.Quiet cc → ∃ X : List E, X.Perm (as.filterMap Action.entry?) ∧ c'.Settled cc n (k + X.length) ∧
      ∀ i ∈ cc.nodes, ∃ op, c'.servers i = .up op ∧ op.get_decided_idx = k + X.length ∧
        (c'.servers i).disk.log = (c.servers i).disk.log ++ X ∧
        ∀ j e, X[j]? = some e → op.read (k + j) = some (some (.decided e))) := by
  have h1 := h.flows.run hv hd hs hr
  rw [List.nil_append] at h1
  refine ⟨fun i hi => ?_, fun hq => ?_⟩
  · obtain ⟨sv, h2, _⟩ := h1
    obtain ⟨op, e, _⟩ := h2 i hi
    exact ⟨op, e⟩
  · obtain ⟨X, h2, h3, h4⟩ := h1.quiet hv hd h.member (fun i hi => by
      obtain ⟨op, e1, _, e2⟩ := h.server i hi
      have := e2.log
      simpa only [Cluster.diskComp, Cluster.diskLog, e1, Server.disk] using this) hq
    refine ⟨X, h2, h3, fun i hi => ?_⟩
    obtain ⟨op, e1, _, e2⟩ := h3.server i hi
    refine ⟨op, e1, e2.decided, (h4 i hi).1, fun j e hj => ?_⟩
    have h5 := (h4 i hi).1
    rw [e1] at h5
    have := e2.read (op := op) h5 hj
    rwa [Nat.add_sub_cancel] at this

/-- C70: ten rounds are enough. Let anything be appended anywhere in steady operation, as in C69, up to a state `c1` with messages in any stage of
their way. Then let nothing more be appended, and let at least ten rounds pass, in each of which all that waits at its beginning gets its turn: servers
hand over their outgoing messages, links deliver what is on them, and servers with batched entries tick until the flush timeout; in any order, and with
anything else in between. Then nothing is on the way any more, and all servers have decided exactly what was appended. -/
theorem C70_ten_rounds (cc : ClusterConfig) (hv : cc.validate = .ok ()) (hd : cc.nodes.Nodup) (n : Ballot) (k : Nat) (c : Cluster E S)
    (h : c.Settled cc n k) (as : List (Action E S)) (hs : c.Steady cc n as) (c1 : Cluster E S) (hr : c.run cc as = some c1)
    (r : Nat) (hr10 : 10 ≤ r) (c2 : Cluster E S) (hrs : Cluster.Rounds cc n r c1 c2) :
    c2.Quiet cc ∧ ∃ X : List E, X.Perm (as.filterMap Action.entry?) ∧ c2.Settled cc n (k + X.length) ∧
      ∀ i ∈ cc.nodes, ∃ op, c2.servers i = .up op ∧ op.get_decided_idx = k + X.length ∧
        (c2.servers i).disk.log = (c.servers i).disk.log ++ X ∧
        ∀ j e, X[j]? = some e → op.read (k + j) = some (some (.decided e)) := by
  obtain ⟨bs, h1, h2, h3⟩ := hrs.joined
  have hq : c2.Quiet cc := by
    have h4 := h.flows.run hv hd hs hr
    obtain ⟨h5, h6⟩ := h4.rounds hv hd h.member hrs (s := 0) fun j hj => absurd hj (Nat.not_lt_zero j)
    exact h5.done hv hd h.member fun j hj => h6 j (by omega)
  have h7 := (C69_steady cc hv hd n k c h (as ++ bs) (hs.append hr h1) c2 (by rw [Cluster.run_append, hr]; exact h3)).2 hq
  rw [List.filterMap_append, h2, List.append_nil] at h7
  exact ⟨hq, h7⟩

section sample
attribute [local instance] Sample.noSync
open Sample

/-- Test of `Settled`. -/
def settledB (cc : ClusterConfig) (n : Ballot) (k : Nat) (c : C) : Bool :=
  match c.servers n.pid with
  | .down _ => false
  | .up l =>
    cc.nodes.contains n.pid && decide (l.sp.ls.n_leader = n) && decide (l.sp.ls.quorum = Quorum.with cc.flexible_quorum cc.nodes.length) &&
    decide (l.sp.peers = SP.peersOf cc.nodes n.pid) &&
    (List.range (l.sp.ls.promises_meta.length + 1)).all (fun i => match slot l.sp.ls.promises_meta i with
      | some (.promised _) => cc.nodes.contains i
      | _ => true) &&
    cc.nodes.all fun i =>
      cc.nodes.all (fun j => (c.net i j).all fun m => match m with | .ble _ => true | .paxos _ => false) &&
      decide (i ≤ l.sp.ls.max_pid) && (match slot l.sp.ls.promises_meta i with | some (.promised _) => true | _ => false) &&
      decide (slot l.sp.ls.accepted_indexes i = some k) && decide (slot l.sp.ls.latest_accept_meta i = some none) &&
      match c.servers i with
      | .down _ => false
      | .up op => op.sp.outgoing.isEmpty && op.sp.ist.cache.batched_entries.isEmpty && decide (op.sp.pid = i) && decide (op.sp.get_promise = n) &&
        decide (op.sp.ist.storage.n_prom = some n) && decide (op.sp.role = if op.sp.pid = n.pid then .leader else .follower) && decide (op.sp.phase = .accept) &&
        decide (op.sp.ist.cache.accepted_idx = k) && decide (op.sp.ist.cache.decided_idx = k) &&
        decide (op.sp.ist.storage.compacted_idx + op.sp.ist.storage.log.length = k) &&
        decide (op.sp.ist.cache.compacted_idx = op.sp.ist.storage.compacted_idx) &&
        decide (op.sp.ist.storage.trimmed_idx = op.sp.ist.storage.compacted_idx) &&
        op.sp.ist.cache.stopsign.isNone && op.sp.ist.storage.stopsign.isNone && op.sp.buffered_proposals.isEmpty &&
        op.sp.latest_accepted_meta.isNone && (decide (i = n.pid) || decide (slot l.sp.ls.follower_seq_nums i = some op.sp.current_seq_num))

theorem settledB_settled {cc : ClusterConfig} {n : Ballot} {k : Nat} {c : C} (h : settledB cc n k c = true) : c.Settled cc n k := by
  unfold settledB at h
  cases hl : c.servers n.pid with
  | down d => rw [hl] at h; cases h
  | up l =>
    rw [hl] at h
    simp only [Bool.and_eq_true, List.all_eq_true, decide_eq_true_eq, List.contains_iff_mem] at h
    obtain ⟨⟨⟨⟨⟨h1, h2⟩, h3⟩, h4⟩, h5⟩, h6⟩ := h
    have hup : ∀ i ∈ cc.nodes, ∃ op, c.servers i = .up op ∧ op.sp.outgoing = [] ∧ op.sp.ist.cache.batched_entries = [] ∧ op.sp.pid = i ∧
        op.sp.AtRest n k ∧ op.sp.latest_accepted_meta = none ∧ (i = n.pid ∨ slot l.sp.ls.follower_seq_nums i = some op.sp.current_seq_num) := by
      intro i hi
      have := (h6 i hi).2
      cases hs : c.servers i with
      | down d => rw [hs] at this; simp at this
      | up op =>
        rw [hs] at this
        simp only [Bool.and_eq_true, Bool.or_eq_true, decide_eq_true_eq, List.isEmpty_iff, Option.isNone_iff_eq_none] at this
        obtain ⟨⟨⟨⟨⟨⟨⟨⟨⟨⟨⟨⟨⟨⟨⟨⟨a1, a2⟩, a3⟩, a4⟩, a0⟩, a5⟩, a6⟩, a7⟩, a8⟩, a9⟩, b1⟩, b2⟩, b3⟩, b4⟩, b5⟩, b6⟩, b7⟩ := this
        exact ⟨op, rfl, a1, a2, a3, ⟨a4, a0, a5, a6, a7, a8, a9, b1, b2, ⟨b3, b4⟩, b5⟩, b6, b7⟩
    refine ⟨h1, fun i hi => ?_, ⟨fun i hi j hj m hm => ?_, fun i hi op e => ?_⟩, fun op e => ?_, fun i hi hin oL oF e1 e2 => ?_, fun i hi op e => ?_⟩
    · obtain ⟨op, e1, e2, e3, e4, e5, e6, e7⟩ := hup i hi
      exact ⟨op, e1, e4, e5⟩
    · have := (h6 i hi).1.1.1.1.1 j hj m hm
      cases m with
      | ble b => exact ⟨b, rfl⟩
      | paxos p => cases this
    · obtain ⟨op', e1, e2, e3, _⟩ := hup i hi
      rw [e] at e1
      cases e1
      exact ⟨e2, e3⟩
    · rw [hl] at e
      cases e
      refine ⟨⟨h2, h3, fun i hi => (h6 i hi).1.1.1.1.2, fun i hi => ?_, fun i m hm => ?_, fun i hi => (h6 i hi).1.1.2, fun i hi => (h6 i hi).1.2⟩, h4⟩
      · have := (h6 i hi).1.1.1.2
        cases hs : slot l.sp.ls.promises_meta i with
        | none => rw [hs] at this; simp at this
        | some p =>
          cases p with
          | promised m => exact ⟨m, rfl⟩
          | _ => rw [hs] at this; simp at this
      · have hi : i ∈ List.range (l.sp.ls.promises_meta.length + 1) := by
          cases i with
          | zero => simp
          | succ j =>
            simp only [slot] at hm
            have := (List.getElem?_eq_some_iff.1 hm).1
            simp only [List.mem_range]
            omega
        have := h5 i hi
        rw [hm] at this
        simpa using this
    · obtain ⟨op', f1, _, _, _, _, _, f2⟩ := hup i hi
      rw [hl] at e1
      rw [f1] at e2
      cases e1
      cases e2
      exact f2.resolve_left hin
    · obtain ⟨op', f1, _, _, _, _, f2, _⟩ := hup i hi
      rw [f1] at e
      cases e
      exact f2

/-- Test of `LedBy`. -/
def ledByB (n : Ballot) (c : C) : Bool :=
  cc.nodes.all fun i => decide ((c.servers i).disk.n_prom = some n) && match c.servers i with
    | .down _ => true
    | .up op => !decide (i = n.pid) || decide (op.sp.role = .leader)

theorem ledByB_led {n : Ballot} {c : C} (h : ledByB n c = true) : c.LedBy cc n := by
  intro i hi
  simp only [ledByB, List.all_eq_true, Bool.and_eq_true, decide_eq_true_eq] at h
  obtain ⟨h1, h2⟩ := h i hi
  refine ⟨h1, fun op e hin => ?_⟩
  rw [e] at h2
  simpa [hin] using h2

/-- Test of `Steady`. -/
def steadyB (n : Ballot) (c : C) : List A → Bool
  | [] => true
  | a :: as =>
    (match a with
    | .call i (.append _) | .call i (.setPriority _) | .take i => cc.nodes.contains i
    | .call i .tick => cc.nodes.contains i && match c.step cc a with
      | none => true
      | some c' => ledByB n c'
    | .deliver i j => cc.nodes.contains i && cc.nodes.contains j
    | _ => false) &&
    match c.step cc a with
    | none => false
    | some c' => steadyB n c' as

theorem steadyB_steady {n : Ballot} {as : List A} {c : C} (h : steadyB n c as = true) : c.Steady cc n as := by
  induction as generalizing c with
  | nil => exact ⟨nofun, by simp⟩
  | cons a as ih =>
    simp only [steadyB, Bool.and_eq_true] at h
    obtain ⟨h1, h2⟩ := h
    cases hs : c.step cc a with
    | none => rw [hs] at h2; cases h2
    | some c1 =>
      rw [hs] at h2
      have h3 := ih h2
      refine ⟨fun b hb => ?_, fun i j c2 hj hr => ?_⟩
      · rcases List.mem_cons.1 hb with rfl | hb
        · cases b with
          | call i call =>
            cases call with
            | append e => simpa [Action.Calm] using h1
            | tick => rw [hs] at h1; simp only [Bool.and_eq_true, List.contains_iff_mem] at h1; exact h1.1
            | setPriority p => simpa [Action.Calm] using h1
            | _ => simp at h1
          | take i => simpa [Action.Calm] using h1
          | deliver i j => simpa [Action.Calm] using h1
          | _ => simp at h1
        · exact h3.calm b hb
      · cases j with
        | zero =>
          simp only [List.getElem?_cons_zero, Option.some.injEq] at hj
          subst hj
          simp only [List.take_succ_cons, List.take_zero, Cluster.run, hs, Option.some.injEq] at hr
          subst hr
          rw [hs] at h1
          simp only [Bool.and_eq_true] at h1
          exact ledByB_led h1.2
        | succ j =>
          simp only [List.take_succ_cons, Cluster.run, hs] at hr
          exact h3.elected i j c2 (by simpa using hj) hr

/-- Entries appended at all three servers, with ticks in between. -/
def busy : List A := [.call 1 (.append 9), .call 2 (.append 10), .call 2 (.append 11), .call 3 (.append 12), .call 1 .tick, .call 2 .tick,
  .call 3 (.setPriority 4), .take 1, .deliver 1 2, .deliver 1 3, .take 2, .deliver 2 1, .deliver 2 1, .deliver 2 1, .take 1, .deliver 1 2,
  .deliver 1 3, .take 2, .deliver 2 1, .take 1, .deliver 1 2, .deliver 1 3, .take 3, .deliver 3 1, .deliver 3 1, .take 1, .deliver 1 2,
  .deliver 1 3, .take 2, .deliver 2 1, .take 1, .deliver 1 2, .deliver 1 3, .take 3, .deliver 3 1]

/-- Concrete case: three servers that have decided [7, 8] and trimmed the 7. They append 9 to 12, two of them at a follower; afterwards
nothing is on the way, and they have decided these four. -/
example : ∃ c c' : C, c.Settled cc ⟨1, 1, 0, 1⟩ 2 ∧ c.Steady cc ⟨1, 1, 0, 1⟩ busy ∧ c.run cc busy = some c' ∧ c'.Quiet cc ∧
    cc.validate = .ok () ∧ cc.nodes.Nodup ∧ busy.filterMap Action.entry? = [9, 10, 11, 12] ∧ c'.Settled cc ⟨1, 1, 0, 1⟩ 6 := by
  have hr : ((Cluster.init.run cc decideTrim).map fun c => settledB cc ⟨1, 1, 0, 1⟩ 2 c && steadyB ⟨1, 1, 0, 1⟩ c busy &&
      match c.run cc busy with | none => false | some c' => settledB cc ⟨1, 1, 0, 1⟩ 6 c') = some true := by decide +kernel
  obtain ⟨c, _, h⟩ := Option.map_eq_some_iff.1 hr
  simp only [Bool.and_eq_true] at h
  cases hb : c.run cc busy with
  | none => rw [hb] at h; simp at h
  | some c' =>
    rw [hb] at h
    have := settledB_settled h.2
    exact ⟨c, c', settledB_settled h.1.1, steadyB_steady h.1.2, hb, this.quiet, rfl, by decide, rfl, this⟩

/-- Test of `Turns`. -/
def turnsB (cc : ClusterConfig) (c : C) (as : List A) : Bool :=
  cc.nodes.all fun i => (match c.servers i with
    | .down _ => true
    | .up op => (op.sp.outgoing.isEmpty || as.any fun a => match a with | .take j => i == j | _ => false) &&
      (op.sp.ist.cache.batched_entries.isEmpty || (decide (op.flush_batch_clock.time < op.flush_batch_clock.timeout) &&
        decide (op.flush_batch_clock.timeout ≤ op.flush_batch_clock.time + as.countP (Action.isTick i))))) &&
    cc.nodes.all fun j => decide ((c.net i j).length ≤ as.countP (Action.isDelivery i j))

theorem turnsB_turns {cc : ClusterConfig} {c : C} {as : List A} (h : turnsB cc c as = true) : c.Turns cc as := by
  simp only [turnsB, List.all_eq_true, Bool.and_eq_true, decide_eq_true_eq] at h
  refine ⟨fun i hi op ho hne => ?_, fun i hi j hj => (h i hi).2 j hj, fun i hi op ho hne => ?_⟩
  · have := (h i hi).1
    rw [ho] at this
    simp only [Bool.and_eq_true, Bool.or_eq_true, List.isEmpty_iff, List.any_eq_true] at this
    obtain ⟨a, h1, h2⟩ := this.1.resolve_left hne
    cases a with
    | take j => simp only [beq_iff_eq] at h2; subst h2; exact h1
    | _ => cases h2
  · have := (h i hi).1
    rw [ho] at this
    simp only [Bool.and_eq_true, Bool.or_eq_true, List.isEmpty_iff, decide_eq_true_eq] at this
    exact this.2.resolve_left hne

/-- Rounds, tested. -/
def roundsB (n : Ballot) : List (List A) → C → Option C
  | [], c => some c
  | as :: rs, c => if steadyB n c as && (as.filterMap Action.entry?).isEmpty && turnsB cc c as then (c.run cc as).bind (roundsB n rs) else none

theorem roundsB_rounds {n : Ballot} {rs : List (List A)} {c c' : C} (h : roundsB n rs c = some c') : Cluster.Rounds cc n rs.length c c' := by
  induction rs generalizing c with
  | nil => cases h; exact .zero _
  | cons as rs ih =>
    simp only [roundsB] at h
    split at h
    · rename_i h1
      simp only [Bool.and_eq_true, List.isEmpty_iff] at h1
      obtain ⟨c1, h2, h3⟩ := Option.bind_eq_some_iff.1 h
      exact .more as (steadyB_steady h1.1.1) h1.1.2 (turnsB_turns h1.2) h2 (ih h3)
    · cases h

/-- Servers that send and store two entries at a time, or after two ticks. -/
def slow (pid : NodeId) : ServerConfig := { sc pid with batch_size := 2, flush_batch_tick_timeout := 2 }
def slowStart : List A := [.start 1 (slow 1), .start 2 (slow 2), .start 3 (slow 3)] ++ decideTrim.drop 3

/-- Rounds in which the entry that server 2 has appended gets ahead by one stage only. -/
def slowRounds : List (List A) := [[.take 2], [.deliver 2 1], [.call 1 .tick, .call 1 .tick], [.take 1], [.deliver 1 2, .deliver 1 3],
  [.call 2 .tick, .call 3 .tick, .call 2 .tick, .call 3 .tick], [.take 2, .take 3], [.deliver 2 1, .deliver 3 1], [.take 1],
  [.deliver 1 2, .deliver 1 3]]

/-- Concrete case: three servers with batches of two have decided [7, 8]; server 2, a follower, appends 9. After ten rounds 9 is decided at all
servers. -/
example : ∃ c c1 c2 : C, c.Settled cc ⟨1, 1, 0, 1⟩ 2 ∧ c.Steady cc ⟨1, 1, 0, 1⟩ [.call 2 (.append 9)] ∧ c.run cc [.call 2 (.append 9)] = some c1 ∧
    Cluster.Rounds cc ⟨1, 1, 0, 1⟩ 10 c1 c2 ∧ cc.validate = .ok () ∧ cc.nodes.Nodup ∧ c2.Settled cc ⟨1, 1, 0, 1⟩ 3 := by
  have hr : ((Cluster.init.run cc slowStart).map fun c => settledB cc ⟨1, 1, 0, 1⟩ 2 c && steadyB ⟨1, 1, 0, 1⟩ c [.call 2 (.append 9)] &&
      match c.run cc [.call 2 (.append 9)] with | none => false | some c1 => match roundsB ⟨1, 1, 0, 1⟩ slowRounds c1 with
        | none => false
        | some c2 => settledB cc ⟨1, 1, 0, 1⟩ 3 c2) = some true := by decide +kernel
  obtain ⟨c, _, h⟩ := Option.map_eq_some_iff.1 hr
  simp only [Bool.and_eq_true] at h
  obtain ⟨⟨h1, h2⟩, h3⟩ := h
  cases hb : c.run cc [.call 2 (.append 9)] with
  | none => rw [hb] at h3; cases h3
  | some c1 =>
    rw [hb] at h3
    cases hc : roundsB ⟨1, 1, 0, 1⟩ slowRounds c1 with
    | none => simp only [hc] at h3; cases h3
    | some c2 =>
      simp only [hc] at h3
      exact ⟨c, c1, c2, settledB_settled h1, steadyB_steady h2, hb, roundsB_rounds hc, rfl, by decide, settledB_settled h3⟩

/-- C70 is sharp: nine rounds are not enough, the followers have not decided 9 yet. -/
theorem C70_not_nine_rounds : ∃ c c1 c2 : C, c.Settled cc ⟨1, 1, 0, 1⟩ 2 ∧ c.Steady cc ⟨1, 1, 0, 1⟩ [.call 2 (.append 9)] ∧
    c.run cc [.call 2 (.append 9)] = some c1 ∧ Cluster.Rounds cc ⟨1, 1, 0, 1⟩ 9 c1 c2 ∧ cc.validate = .ok () ∧ cc.nodes.Nodup ∧ ¬ c2.Quiet cc ∧
    ∃ op, c2.servers 2 = .up op ∧ op.get_decided_idx = 2 := by
  have hr : ((Cluster.init.run cc slowStart).map fun c => settledB cc ⟨1, 1, 0, 1⟩ 2 c && steadyB ⟨1, 1, 0, 1⟩ c [.call 2 (.append 9)] &&
      match c.run cc [.call 2 (.append 9)] with | none => false | some c1 => match roundsB ⟨1, 1, 0, 1⟩ (slowRounds.take 9) c1 with
        | none => false
        | some c2 => onUp c2 2 (fun op => op.get_decided_idx == 2) && (c2.net 1 2).any fun m => match m with | .paxos _ => true | .ble _ => false) =
      some true := by decide +kernel
  obtain ⟨c, _, h⟩ := Option.map_eq_some_iff.1 hr
  simp only [Bool.and_eq_true] at h
  obtain ⟨⟨h1, h2⟩, h3⟩ := h
  cases hb : c.run cc [.call 2 (.append 9)] with
  | none => rw [hb] at h3; cases h3
  | some c1 =>
    rw [hb] at h3
    cases hc : roundsB ⟨1, 1, 0, 1⟩ (slowRounds.take 9) c1 with
    | none => simp only [hc] at h3; cases h3
    | some c2 =>
      simp only [hc, Bool.and_eq_true, List.any_eq_true] at h3
      obtain ⟨h4, m, h5, h6⟩ := h3
      obtain ⟨op, h7, h8⟩ := onUp_elim h4
      refine ⟨c, c1, c2, settledB_settled h1, steadyB_steady h2, hb, roundsB_rounds hc, rfl, by decide, fun hq => ?_, op, h7, by simpa using h8⟩
      obtain ⟨b, rfl⟩ := hq.links 1 (by decide) 2 (by decide) m h5
      cases h6

end sample
end Omni
