import Verif.Proof.Beats.Run
import Verif.Proof.Steady.Latency
import Verif.Proof.Clock
import Verif.Proof.Rounds
/-
Runs in beats: clocks, and round trips before every election timeout.
-/
namespace Omni

variable {E S : Type} [SnapOps E S] {cc : ClusterConfig} {n : Ballot} {i j : NodeId}

/-- What a step does to the clocks and the heartbeat round of a server that runs afterwards. -/
theorem step_clocks {c c' : Cluster E S} {a : Action E S} (ha : a.Calm cc) (hs : c.step cc a = some c') {op' : OP E S} (hop : c'.servers i = .up op') :
    ∃ op, c.servers i = .up op ∧
      if a.isTick i then op'.election_clock = op.election_clock.tick_and_check_timeout.2 ∧
        op'.flush_batch_clock = op.flush_batch_clock.tick_and_check_timeout.2 ∧
        (op.election_clock.tick_and_check_timeout.1 = false → op'.ble.hb_round = op.ble.hb_round)
      else op'.election_clock = op.election_clock ∧ op'.flush_batch_clock = op.flush_batch_clock ∧ op'.ble.hb_round = op.ble.hb_round := by
  have key : ∀ {op : OP E S} {call : Call E S}, op.callResult call = .up op' → 
      (call = .tick → op'.election_clock = op.election_clock.tick_and_check_timeout.2 ∧
        op'.flush_batch_clock = op.flush_batch_clock.tick_and_check_timeout.2 ∧
        (op.election_clock.tick_and_check_timeout.1 = false → op'.ble.hb_round = op.ble.hb_round)) ∧
      (call ≠ .tick → op'.election_clock = op.election_clock ∧ op'.flush_batch_clock = op.flush_batch_clock ∧ op'.ble.hb_round = op.ble.hb_round) := by
    intro op call h
    have h1 := Call.run_clocks call op.clearTrail
    unfold OP.callResult at h
    unfold M.Sat at h1
    cases hr : call.run op.clearTrail with
    | panic p => rw [hr] at h; cases h
    | ok x p =>
      rw [hr] at h h1
      cases h
      obtain ⟨h2, h3⟩ := h1
      refine ⟨fun e => ?_, fun e => ?_⟩
      · obtain ⟨e1, _, e2, e3⟩ := h2 e
        refine ⟨e1, e2, fun e4 => ?_⟩
        rw [show op.clearTrail.election_clock = op.election_clock from rfl, e4] at e3
        exact e3
      · obtain ⟨e1, _, e2, e3⟩ := h3 e
        exact ⟨e1, e2, e3⟩
  have stay : ∀ {op : OP E S}, c.servers i = .up op → op = op' → a.isTick i = false → ∃ op, c.servers i = .up op ∧
      if a.isTick i then op'.election_clock = op.election_clock.tick_and_check_timeout.2 ∧
        op'.flush_batch_clock = op.flush_batch_clock.tick_and_check_timeout.2 ∧
        (op.election_clock.tick_and_check_timeout.1 = false → op'.ble.hb_round = op.ble.hb_round)
      else op'.election_clock = op.election_clock ∧ op'.flush_batch_clock = op.flush_batch_clock ∧ op'.ble.hb_round = op.ble.hb_round := by
    intro op h e ht
    subst e
    exact ⟨op, h, by rw [ht]; exact ⟨rfl, rfl, rfl⟩⟩
  cases a with
  | call k call =>
    simp only [Cluster.step] at hs
    cases hk : c.servers k with
    | down d => rw [hk] at hs; cases hs
    | up op =>
      simp only [hk] at hs
      split at hs
      · cases hs
      · cases hs
        by_cases hik : i = k
        · subst hik
          have h1 : op.callResult call = .up op' := by simpa [Cluster.setServer] using hop
          obtain ⟨h2, h3⟩ := key h1
          refine ⟨op, hk, ?_⟩
          cases call with
          | tick => rw [show Action.isTick i (.call i .tick : Action E S) = true by simp [Action.isTick], if_pos rfl]; exact h2 rfl
          | _ => exact h3 (fun h => nomatch h)
        · have h1 : c.servers i = .up op' := by simpa [Cluster.setServer, hik] using hop
          refine stay h1 rfl ?_
          cases call <;> simp [Action.isTick, hik]
  | take k =>
    simp only [Cluster.step] at hs
    cases hk : c.servers k with
    | down d => rw [hk] at hs; cases hs
    | up op =>
      simp only [hk, Option.some.injEq] at hs
      subst hs
      by_cases hik : i = k
      · subst hik
        simp only [if_true] at hop
        cases hop
        exact ⟨op, hk, rfl, rfl, rfl⟩
      · simp only [if_neg hik] at hop
        exact stay hop rfl rfl
  | deliver k l =>
    simp only [Cluster.step] at hs
    cases hn : c.net k l with
    | nil => rw [hn] at hs; cases hs
    | cons m rest =>
      simp only [hn] at hs
      cases hk : c.servers l with
      | down d =>
        simp only [hk, Option.some.injEq] at hs
        subst hs
        exact stay (op := op') (by simpa [Cluster.setNet] using hop) rfl rfl
      | up op =>
        simp only [hk, Option.some.injEq] at hs
        subst hs
        by_cases hik : i = l
        · subst hik
          have h1 : op.callResult (.handleIncoming m) = .up op' := by simpa [Cluster.setServer] using hop
          exact ⟨op, hk, (key h1).2 (fun h => nomatch h)⟩
        · exact stay (op := op') (by simpa [Cluster.setServer, Cluster.setNet, hik] using hop) rfl rfl
  | _ => cases ha

/-- The same of runs without ticks of the server. -/
theorem run_clocks {as : List (Action E S)} : ∀ {c c' : Cluster E S}, (∀ a ∈ as, a.Calm cc) → c.run cc as = some c' → as.countP (Action.isTick i) = 0 →
    ∀ {op' : OP E S}, c'.servers i = .up op' → ∃ op, c.servers i = .up op ∧ op'.election_clock = op.election_clock ∧
      op'.flush_batch_clock = op.flush_batch_clock ∧ op'.ble.hb_round = op.ble.hb_round := by
  induction as with
  | nil => intro c c' _ hr _ op' hop; cases hr; exact ⟨op', hop, rfl, rfl, rfl⟩
  | cons a as ih =>
    intro c c' hc hr ht op' hop
    simp only [Cluster.run] at hr
    cases hs : c.step cc a with
    | none => rw [hs] at hr; cases hr
    | some c1 =>
      rw [hs] at hr
      rw [List.countP_cons] at ht
      obtain ⟨op1, h1, e1, e2, e3⟩ := ih (fun b hb => hc b (List.mem_cons_of_mem _ hb)) hr (by omega) hop
      obtain ⟨op, h2, h3⟩ := step_clocks (hc a (List.mem_cons_self ..)) hs h1
      rw [if_neg (fun h => by rw [if_pos h] at ht; omega)] at h3
      exact ⟨op, h2, e1.trans h3.1, e2.trans h3.2.1, e3.trans h3.2.2⟩

/-- A list with one tick of the server. -/
theorem split_tick {as : List (Action E S)} (h : as.countP (Action.isTick i) = 1) :
    ∃ p q, as = p ++ .call i .tick :: q ∧ p.countP (Action.isTick i) = 0 ∧ q.countP (Action.isTick i) = 0 := by
  induction as with
  | nil => cases h
  | cons a as ih =>
    rw [List.countP_cons] at h
    by_cases ha : a.isTick i = true
    · rw [if_pos ha] at h
      have : a = .call i .tick := by
        cases a with
        | call k call => cases call <;> simp_all [Action.isTick]
        | _ => cases ha
      subst this
      exact ⟨[], as, rfl, rfl, by omega⟩
    · rw [if_neg ha] at h
      obtain ⟨p, q, e, h1, h2⟩ := ih h
      exact ⟨a :: p, q, by rw [e]; rfl, by rw [List.countP_cons, h1, if_neg ha], h2⟩

/-- And of one beat. -/
theorem Cluster.Beat.clocks {c c' : Cluster E S} {as : List (Action E S)} (h : c.Beat cc as) (hr : c.run cc as = some c') (hi : i ∈ cc.nodes)
    {op' : OP E S} (hop : c'.servers i = .up op') : ∃ op, c.servers i = .up op ∧
      op'.election_clock = op.election_clock.tick_and_check_timeout.2 ∧
        op'.flush_batch_clock = op.flush_batch_clock.tick_and_check_timeout.2 ∧
        (op.election_clock.tick_and_check_timeout.1 = false → op'.ble.hb_round = op.ble.hb_round) := by
  obtain ⟨p, q, rfl, hp, hq⟩ := split_tick (h.ticks i hi)
  rw [Cluster.run_append] at hr
  cases h1 : c.run cc p with
  | none => rw [h1] at hr; cases hr
  | some c1 =>
    rw [h1, Option.bind_some] at hr
    simp only [Cluster.run] at hr
    cases hs : c1.step cc (.call i .tick) with
    | none => rw [hs] at hr; cases hr
    | some c2 =>
      rw [hs] at hr
      obtain ⟨op2, u2, e1, e2, e3⟩ := run_clocks (fun b hb => h.calm b (by simp [hb])) hr hq hop
      obtain ⟨op1, u1, h3⟩ := step_clocks (cc := cc) (h.calm _ (by simp)) hs u2
      rw [if_pos (by simp [Action.isTick])] at h3
      obtain ⟨op, u0, f1, f2, f3⟩ := run_clocks (fun b hb => h.calm b (by simp [hb])) h1 hp u1
      refine ⟨op, u0, ?_⟩
      rw [← f1, ← f2, ← f3, e1, e2, e3]
      exact h3

theorem LogicalClock.tick_timeout (l : LogicalClock) : l.tick_and_check_timeout.2.timeout = l.timeout := by
  unfold LogicalClock.tick_and_check_timeout
  split <;> rfl

theorem LogicalClock.tick_lt {l : LogicalClock} (h : l.time < l.timeout) : l.tick_and_check_timeout.2.time < l.timeout := by
  unfold LogicalClock.tick_and_check_timeout
  split
  · exact Nat.lt_of_le_of_lt (Nat.zero_le _) h
  · show l.time + 1 < l.timeout; omega

namespace Cluster.Beats

theorem run {c c' : Cluster E S} {bss : List (List (Action E S))} (h : Cluster.Beats cc c bss c') : c.run cc bss.flatten = some c' := by
  induction h with
  | nil c => rfl
  | cons _ h1 _ ih => rw [List.flatten_cons, Cluster.run_append, h1]; exact ih

theorem split {c c' : Cluster E S} {xs ys : List (List (Action E S))} (h : Cluster.Beats cc c (xs ++ ys) c') :
    ∃ c1, Cluster.Beats cc c xs c1 ∧ Cluster.Beats cc c1 ys c' := by
  induction xs generalizing c with
  | nil => exact ⟨c, .nil c, h⟩
  | cons x xs ih =>
    cases h with
    | cons h1 h2 h3 =>
      obtain ⟨c1, h4, h5⟩ := ih h3
      exact ⟨c1, .cons h1 h2 h4, h5⟩

theorem append {c c1 c2 : Cluster E S} {xs ys : List (List (Action E S))} (h : Cluster.Beats cc c xs c1) (h' : Cluster.Beats cc c1 ys c2) :
    Cluster.Beats cc c (xs ++ ys) c2 := by
  induction h with
  | nil c => exact h'
  | cons h1 h2 _ ih => exact .cons h1 h2 (ih h')

theorem one {c c' : Cluster E S} {b : List (Action E S)} (h : Cluster.Beats cc c [b] c') : c.Beat cc b ∧ c.run cc b = some c' := by
  cases h with
  | cons h1 h2 h3 => cases h3; exact ⟨h1, h2⟩

theorem calm {c c' : Cluster E S} {bss : List (List (Action E S))} (h : Cluster.Beats cc c bss c') : ∀ a ∈ bss.flatten, a.Calm cc := by
  induction h with
  | nil c => exact nofun
  | cons h1 _ _ ih => exact fun a ha => (List.mem_append.1 (List.flatten_cons ▸ ha)).elim (h1.calm a) (ih a)

theorem priorities {c c' : Cluster E S} {bss : List (List (Action E S))} (h : Cluster.Beats cc c bss c') (i : NodeId) (p : Nat) :
    .call i (.setPriority p) ∉ bss.flatten := by
  induction h with
  | nil c => exact nofun
  | cons h1 _ _ ih => exact fun ha => (List.mem_append.1 (List.flatten_cons ▸ ha)).elim (h1.priorities i p) ih

/-- The clocks after some beats. -/
theorem clocks {c c' : Cluster E S} {bss : List (List (Action E S))} (h : Cluster.Beats cc c bss c') (hi : i ∈ cc.nodes)
    {op' : OP E S} (hop : c'.servers i = .up op') : ∃ op, c.servers i = .up op ∧ op'.election_clock.timeout = op.election_clock.timeout ∧
      op'.flush_batch_clock.timeout = op.flush_batch_clock.timeout ∧
      (op.flush_batch_clock.time < op.flush_batch_clock.timeout → op'.flush_batch_clock.time < op'.flush_batch_clock.timeout) := by
  induction h with
  | nil c => exact ⟨op', hop, rfl, rfl, id⟩
  | cons h1 h2 _ ih =>
    obtain ⟨op1, u1, e1, e2, e3⟩ := ih hop
    obtain ⟨op, u, f1, f2, _⟩ := h1.clocks h2 hi u1
    refine ⟨op, u, by rw [e1, f1, LogicalClock.tick_timeout], by rw [e2, f2, LogicalClock.tick_timeout], fun hl => e3 ?_⟩
    rw [f2, LogicalClock.tick_timeout]
    exact LogicalClock.tick_lt hl

/-- The beat before, if the election timeout is less than five ticks away. -/
theorem back {c c' : Cluster E S} {bss : List (List (Action E S))} {f : Nat} (h : Cluster.Beats cc c bss c') (hw : c.Wound cc f) (hi : i ∈ cc.nodes)
    {op' : OP E S} (hop : c'.servers i = .up op') {r : Nat} (hr : r ≤ 4) (hl : op'.election_clock.time + r = op'.election_clock.timeout) :
    ∃ ys b cm op, bss = ys ++ [b] ∧ Cluster.Beats cc c ys cm ∧ cm.Beat cc b ∧ cm.run cc b = some c' ∧ cm.servers i = .up op ∧
      op.election_clock.time + (r + 1) = op.election_clock.timeout ∧ op'.ble.hb_round = op.ble.hb_round := by
  obtain ⟨op0, u0, e0, -, -⟩ := h.clocks hi hop
  have w0 := (hw i hi op0 u0).1
  rcases List.eq_nil_or_concat bss with rfl | ⟨ys, b, rfl⟩
  · cases h
    rw [u0] at hop
    cases hop
    omega
  · rw [List.concat_eq_append] at h
    obtain ⟨cm, h1, h2⟩ := h.split
    obtain ⟨h3, h4⟩ := h2.one
    obtain ⟨op, u, f1, -, f3⟩ := h3.clocks h4 hi hop
    refine ⟨ys, b, cm, op, List.concat_eq_append, h1, h3, h4, u, ?_⟩
    unfold LogicalClock.tick_and_check_timeout at f1 f3
    by_cases hf : op.election_clock.time + 1 = op.election_clock.timeout
    · rw [if_pos hf] at f1
      rw [f1] at hl e0
      simp only at hl e0
      omega
    · rw [if_neg hf] at f1 f3
      rw [f1] at hl
      simp only at hl
      exact ⟨by omega, f3 rfl⟩

end Cluster.Beats

/-- A position in a list of lists. -/
theorem flatten_at {α : Type} {bss : List (List α)} {k : Nat} {a : α} (h : bss.flatten[k]? = some a) :
    ∃ xs ys p q, bss = xs ++ (p ++ a :: q) :: ys ∧ bss.flatten.take k = xs.flatten ++ p := by
  induction bss generalizing k with
  | nil => cases h
  | cons b bss ih =>
    rw [List.flatten_cons] at h ⊢
    by_cases hk : k < b.length
    · rw [List.getElem?_append_left hk] at h
      have e1 : b[k] = a := by rw [List.getElem?_eq_getElem hk] at h; exact Option.some.inj h
      refine ⟨[], bss, b.take k, b.drop (k + 1), ?_, ?_⟩
      · rw [List.nil_append, ← e1, List.getElem_cons_drop, List.take_append_drop]
      · rw [List.take_append_of_le_length (Nat.le_of_lt hk)]; rfl
    · have hk' : b.length ≤ k := Nat.le_of_not_lt hk
      rw [List.getElem?_append_right hk'] at h
      obtain ⟨xs, ys, p, q, e1, e2⟩ := ih h
      refine ⟨b :: xs, ys, p, q, by rw [e1]; rfl, ?_⟩
      rw [List.take_append, List.take_of_length_le hk', e2, List.flatten_cons, List.append_assoc]

/-- Before an election timeout there have been round trips with everybody. -/
theorem Cluster.Beats.met {c c' : Cluster E S} {bss : List (List (Action E S))} {f : Nat} (h : Cluster.Beats cc c bss c') (hw : c.Wound cc f) (hi : i ∈ cc.nodes)
    (hj : j ∈ cc.nodes) {k : Nat} {c1 : Cluster E S} (hk : bss.flatten[k]? = some (.call i .tick)) (hr : c.run cc (bss.flatten.take k) = some c1)
    (hf : c1.Fires i) : c.Met cc (bss.flatten.take k) i j := by
  obtain ⟨op1, u1, hf⟩ := hf
  obtain ⟨xs, ys, p, q, rfl, e⟩ := flatten_at hk
  rw [e] at hr ⊢
  obtain ⟨c0, h0, h1⟩ := h.split
  have hb : c0.Beat cc (p ++ .call i .tick :: q) := by cases h1 with | cons h _ _ => exact h
  have hp : p.countP (Action.isTick i) = 0 := by
    have := hb.ticks i hi
    rw [List.countP_append, List.countP_cons, if_pos (by simp [Action.isTick])] at this
    omega
  rw [Cluster.run_append, h0.run, Option.bind_some] at hr
  obtain ⟨op0, u0, g1, -, g3⟩ := run_clocks (fun a ha => hb.calm a (List.mem_append_left _ ha)) hr hp u1
  have l0 : op0.election_clock.time + 1 = op0.election_clock.timeout := by
    rw [g1] at hf
    unfold LogicalClock.tick_and_check_timeout at hf
    split at hf
    · assumption
    · cases hf
  obtain ⟨x4, b4, m4, o4, rfl, h4, v4, r4, u4, l4, s4⟩ := h0.back hw hi u0 (by omega) l0
  obtain ⟨x3, b3, m3, o3, rfl, h3, v3, r3, u3, l3, s3⟩ := h4.back hw hi u4 (by omega) l4
  obtain ⟨x2, b2, m2, o2, rfl, h2, v2, r2, u2, l2, s2⟩ := h3.back hw hi u3 (by omega) l3
  obtain ⟨x1, b1, m1, o1, rfl, hx, v1, r1, w1, l1, s1⟩ := h2.back hw hi u2 (by omega) l2
  refine ⟨x1.flatten, b1 ++ b2 ++ b3 ++ (b4 ++ p), m1, c1, o1, op1, by simp, hx.run, ?_, w1, u1, ?_, b1, b2, b3, b4 ++ p, rfl, v1.taken i hi, v3.taken j hj,
    fun d hd => ?_, fun d hd => ?_⟩
  · simp only [Cluster.run_append, r1, r2, r3, r4, Option.bind_some, hr]
  · rw [g3, s4, s3, s2, s1]
  · rw [r1] at hd; cases hd
    exact v2.delivered i hi j hj
  · simp only [Cluster.run_append, r1, r2, r3, Option.bind_some, Option.some.injEq] at hd
    subst hd
    rw [List.countP_append]
    exact Nat.le_trans (v4.delivered j hj i hi) (Nat.le_add_right _ _)

/-- The whole configuration is an accept quorum. -/
theorem accept_all (hv : cc.validate = .ok ()) (hd : cc.nodes.Nodup) (hi : i ∈ cc.nodes) : AcceptQuorum cc (i :: SP.peersOf cc.nodes i) := by
  have hl : (SP.peersOf cc.nodes i).length + 1 = cc.nodes.length := length_filter_ne hd hi
  refine ⟨List.nodup_cons.2 ⟨fun h => ?_, hd.filter _⟩, fun x hx => ?_, ?_⟩
  · simp [SP.peersOf] at h
  · rcases List.mem_cons.1 hx with rfl | h
    · exact hi
    · exact (List.mem_filter.1 h).1
  · rw [List.length_cons, hl]
    unfold ClusterConfig.validate at hv
    by_cases h1 : cc.nodes.length > 1
    · by_cases h2 : cc.configuration_id ≠ 0
      · simp only [h1, h2, not_true_eq_false, if_false] at hv
        cases hq : cc.flexible_quorum with
        | none => show _ < _; omega
        | some q =>
          rw [hq] at hv
          show q.write_quorum_size ≤ _
          by_cases h3 : q.write_quorum_size ≤ cc.nodes.length
          · exact h3
          · simp only [h3, and_false, not_false_eq_true, if_true] at hv
            repeat' split at hv
            all_goals cases hv
      · simp [h1, h2] at hv
    · simp [h1] at hv

theorem Cluster.Beats.prompt {c c' : Cluster E S} {bss : List (List (Action E S))} {f : Nat} (h : Cluster.Beats cc c bss c') (hw : c.Wound cc f)
    (hv : cc.validate = .ok ()) (hd : cc.nodes.Nodup) (hn : n.pid ∈ cc.nodes) : c.Prompt cc n bss.flatten := by
  refine ⟨h.calm, h.priorities, fun i k c1 hk hr hf _ => ?_, fun k c1 hk hr hf => ⟨_, accept_all hv hd hn, fun j hj => ?_⟩⟩
  · exact h.met hw (h.calm _ (List.mem_of_getElem? hk)) hn hk hr hf
  · exact h.met hw hn (List.mem_filter.1 hj).1 hk hr hf

/-- As many beats as the flush timeouts have ticks are a round in the sense of `Turns`. -/
theorem Cluster.Beats.turns {c0 c c' : Cluster E S} {bss xs : List (List (Action E S))} {f : Nat} (h0 : Cluster.Beats cc c0 xs c) (hw : c0.Wound cc f)
    (h : Cluster.Beats cc c bss c') (hl : bss.length = f) (hf : 0 < f) : c.Turns cc bss.flatten := by
  have hc : ∀ {c c' : Cluster E S} {bss : List (List (Action E S))}, Cluster.Beats cc c bss c' → ∀ i ∈ cc.nodes, bss.flatten.countP (Action.isTick i) = bss.length := by
    intro c c' bss h i hi
    induction h with
    | nil c => rfl
    | cons h1 _ _ ih => rw [List.flatten_cons, List.countP_append, ih, h1.ticks i hi, List.length_cons, Nat.add_comm]
  have ht := hc h
  cases h with
  | nil c => subst hl; cases hf
  | cons h1 h2 h3 =>
    refine ⟨fun i hi op _ _ => ?_, fun i hi j hj => ?_, fun i hi op hop _ => ?_⟩
    · rw [List.flatten_cons]
      exact List.mem_append_left _ (h1.taken i hi)
    · rw [List.flatten_cons, List.countP_append]
      exact Nat.le_trans (h1.delivered i hi j hj) (Nat.le_add_right _ _)
    · obtain ⟨o, u, -, e2, e3⟩ := h0.clocks hi hop
      obtain ⟨-, w1, w2⟩ := hw i hi o u
      rw [ht i hi, hl]
      exact ⟨e3 w1, by omega⟩

/-- The end of a steady run is steady. -/
theorem Cluster.Steady.right {c c1 : Cluster E S} {as bs : List (Action E S)} (h : c.Steady cc n (as ++ bs)) (hr : c.run cc as = some c1) : c1.Steady cc n bs := by
  refine ⟨fun a ha => h.calm a (List.mem_append_right _ ha), fun i k c2 hk hc => h.elected i (as.length + k) c2 ?_ ?_⟩
  · rw [List.getElem?_append_right (Nat.le_add_right _ _), Nat.add_sub_cancel_left]; exact hk
  · rw [Nat.add_assoc, List.take_length_add_append, Cluster.run_append, hr]; exact hc

/-- The beginning of a steady run is steady. -/
theorem Cluster.Steady.left {c : Cluster E S} {as bs : List (Action E S)} (h : c.Steady cc n (as ++ bs)) : c.Steady cc n as := by
  refine ⟨fun a ha => h.calm a (List.mem_append_left _ ha), fun i k c2 hk hc => ?_⟩
  have hl := (List.getElem?_eq_some_iff.1 hk).1
  refine h.elected i k c2 ?_ ?_
  · rw [List.getElem?_append_left hl]; exact hk
  · rw [List.take_append_of_le_length (by omega)]; exact hc

/-- Beats make rounds. -/
theorem Cluster.Beats.busyRounds {c0 : Cluster E S} {f : Nat} (hw : c0.Wound cc f) (hf : 0 < f) (r : Nat) :
    ∀ {c c' : Cluster E S} {xs bss : List (List (Action E S))}, Cluster.Beats cc c0 xs c → Cluster.Beats cc c bss c' → bss.length = f * r →
      c.Steady cc n bss.flatten → Cluster.BusyRounds cc n r c c' ∧ (bss.flatten.filterMap Action.entry? = [] → Cluster.Rounds cc n r c c') := by
  induction r with
  | zero =>
    intro c c' xs bss _ h hl _
    have : bss = [] := List.eq_nil_of_length_eq_zero hl
    subst this
    cases h
    exact ⟨.zero c, fun _ => .zero c⟩
  | succ r ih =>
    intro c c' xs bss h0 h hl hs
    rw [Nat.mul_succ] at hl
    rw [← List.take_append_drop f bss] at h hs ⊢
    obtain ⟨c1, h1, h2⟩ := h.split
    have l1 : (bss.take f).length = f := by rw [List.length_take]; omega
    have l2 : (bss.drop f).length = f * r := by rw [List.length_drop]; omega
    rw [List.flatten_append] at hs ⊢
    have t := h0.turns hw h1 l1 hf
    obtain ⟨i1, i2⟩ := ih (h0.append h1) h2 l2 (hs.right h1.run)
    refine ⟨.more _ ⟨hs.left, t, h1.run⟩ i1, fun he => ?_⟩
    rw [List.filterMap_append, List.append_eq_nil_iff] at he
    exact .more _ hs.left he.1 t h1.run (i2 he.2)

/-- Some beats, and some more of which at least `r` times `f` remain in whole rounds. -/
theorem beats_rounds {c c1 c2 : Cluster E S} {f r : Nat} (hf : 0 < f) (hw : c.Wound cc f)
    {xs ys : List (List (Action E S))} (h1 : Cluster.Beats cc c xs c1) (h2 : Cluster.Beats cc c1 ys c2) (hs : c.Steady cc n (xs ++ ys).flatten)
    (hr : f * r ≤ ys.length) : ∃ zs c3 r', r ≤ r' ∧ Cluster.Beats cc c1 zs c3 ∧ c.run cc (xs.flatten ++ zs.flatten) = some c3 ∧
      c.Steady cc n (xs.flatten ++ zs.flatten) ∧ (∀ a ∈ zs.flatten, a ∈ ys.flatten) ∧ Cluster.BusyRounds cc n r' c3 c2 ∧
      (ys.flatten.filterMap Action.entry? = [] → zs.flatten.filterMap Action.entry? = [] ∧ Cluster.Rounds cc n r' c3 c2) := by
  have e := Nat.div_add_mod ys.length f
  have hl := Nat.mod_lt ys.length hf
  rw [← List.take_append_drop (ys.length % f) ys] at h2 hs ⊢
  obtain ⟨c3, a1, a2⟩ := h2.split
  have j1 := h1.append a1
  have r1 := j1.run
  rw [List.flatten_append] at r1
  simp only [List.flatten_append, ← List.append_assoc] at hs
  obtain ⟨b1, b2⟩ := Cluster.Beats.busyRounds hw hf (ys.length / f) j1 a2 (by rw [List.length_drop]; omega) (hs.right r1)
  refine ⟨ys.take (ys.length % f), c3, ys.length / f, (Nat.le_div_iff_mul_le hf).2 (by rw [Nat.mul_comm]; exact hr), a1, r1, hs.left, fun a ha => ?_, b1, fun he => ?_⟩
  · rw [List.flatten_append]; exact List.mem_append_left _ ha
  · rw [List.flatten_append, List.filterMap_append, List.append_eq_nil_iff] at he
    exact ⟨he.1, b2 he.2⟩

theorem Cluster.Wound.pos {k f : Nat} {c : Cluster E S} (h : c.Settled cc n k) (hw : c.Wound cc f) : 0 < f := by
  obtain ⟨op, u, -⟩ := h.server _ h.member
  have := hw _ h.member op u
  omega

end Omni
