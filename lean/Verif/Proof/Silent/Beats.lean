import Verif.Proof.Beats.Timed
import Verif.Spec.Silent
/-
Silent servers: beats of the others.
-/
namespace Omni

variable {E S : Type} [SnapOps E S] {cc : ClusterConfig} {n : Ballot} {i j : NodeId} {L : List NodeId}

/-- A beat of the servers `L`, in which the others may act calmly. -/
structure Cluster.LBeat (cc : ClusterConfig) (L : List NodeId) (c : Cluster E S) (as : List (Action E S)) : Prop where
  calm : ∀ a ∈ as, a.Calm cc
  priorities : ∀ i p, .call i (.setPriority p) ∉ as
  ticks : ∀ i ∈ L, as.countP (Action.isTick i) = 1
  taken : ∀ i ∈ L, .take i ∈ as
  delivered : ∀ i ∈ cc.nodes, ∀ j ∈ L, (c.net i j).length ≤ as.countP (Action.isDelivery i j)

inductive Cluster.LBeats (cc : ClusterConfig) (L : List NodeId) : Cluster E S → List (List (Action E S)) → Cluster E S → Prop
  | nil (c : Cluster E S) : Cluster.LBeats cc L c [] c
  | cons {c c1 c2 : Cluster E S} {as : List (Action E S)} {bss : List (List (Action E S))} : c.LBeat cc L as → c.run cc as = some c1 →
      Cluster.LBeats cc L c1 bss c2 → Cluster.LBeats cc L c (as :: bss) c2

theorem Cluster.Beats.live {c c' : Cluster E S} {bss : List (List (Action E S))} (h : Cluster.Beats cc c bss c') (hL : ∀ x ∈ L, x ∈ cc.nodes) :
    Cluster.LBeats cc L c bss c' := by
  induction h with
  | nil c => exact .nil c
  | cons h1 h2 _ ih =>
    exact .cons ⟨h1.calm, h1.priorities, fun i hi => h1.ticks i (hL i hi), fun i hi => h1.taken i (hL i hi), fun i hi j hj => h1.delivered i hi j (hL j hj)⟩ h2 ih

/-- And of one beat. -/
theorem Cluster.LBeat.clocks {c c' : Cluster E S} {as : List (Action E S)} (h : c.LBeat cc L as) (hr : c.run cc as = some c') (hi : i ∈ L)
    {op' : OP E S} (hop : c'.servers i = .up op') : ∃ op, c.servers i = .up op ∧
      op'.election_clock = op.election_clock.tick_and_check_timeout.2 ∧
        op'.flush_batch_clock = op.flush_batch_clock.tick_and_check_timeout.2 ∧
        (op.election_clock.tick_and_check_timeout.1 = false → op'.ble.hb_round = op.ble.hb_round) := by
  obtain ⟨p, q, rfl, hp, hq⟩ := split_tick (h.ticks i hi)
  rw [Cluster.run_append] at hr
  cases h1 : c.run cc p with
  | none => rw [h1] at hr; cases hr
  | some c1 =>
    rw [h1, Option.bind_some] at hr
    simp only [Cluster.run] at hr
    cases hs : c1.step cc (.call i .tick) with
    | none => rw [hs] at hr; cases hr
    | some c2 =>
      rw [hs] at hr
      obtain ⟨op2, u2, e1, e2, e3⟩ := run_clocks (fun b hb => h.calm b (by simp [hb])) hr hq hop
      obtain ⟨op1, u1, h3⟩ := step_clocks (cc := cc) (h.calm _ (by simp)) hs u2
      rw [if_pos (by simp [Action.isTick])] at h3
      obtain ⟨op, u0, f1, f2, f3⟩ := run_clocks (fun b hb => h.calm b (by simp [hb])) h1 hp u1
      refine ⟨op, u0, ?_⟩
      rw [← f1, ← f2, ← f3, e1, e2, e3]
      exact h3

namespace Cluster.LBeats

theorem run {c c' : Cluster E S} {bss : List (List (Action E S))} (h : Cluster.LBeats cc L c bss c') : c.run cc bss.flatten = some c' := by
  induction h with
  | nil c => rfl
  | cons _ h1 _ ih => rw [List.flatten_cons, Cluster.run_append, h1]; exact ih

theorem split {c c' : Cluster E S} {xs ys : List (List (Action E S))} (h : Cluster.LBeats cc L c (xs ++ ys) c') :
    ∃ c1, Cluster.LBeats cc L c xs c1 ∧ Cluster.LBeats cc L c1 ys c' := by
  induction xs generalizing c with
  | nil => exact ⟨c, .nil c, h⟩
  | cons x xs ih =>
    cases h with
    | cons h1 h2 h3 =>
      obtain ⟨c1, h4, h5⟩ := ih h3
      exact ⟨c1, .cons h1 h2 h4, h5⟩

theorem append {c c1 c2 : Cluster E S} {xs ys : List (List (Action E S))} (h : Cluster.LBeats cc L c xs c1) (h' : Cluster.LBeats cc L c1 ys c2) :
    Cluster.LBeats cc L c (xs ++ ys) c2 := by
  induction h with
  | nil c => exact h'
  | cons h1 h2 _ ih => exact .cons h1 h2 (ih h')

theorem one {c c' : Cluster E S} {b : List (Action E S)} (h : Cluster.LBeats cc L c [b] c') : c.LBeat cc L b ∧ c.run cc b = some c' := by
  cases h with
  | cons h1 h2 h3 => cases h3; exact ⟨h1, h2⟩

theorem calm {c c' : Cluster E S} {bss : List (List (Action E S))} (h : Cluster.LBeats cc L c bss c') : ∀ a ∈ bss.flatten, a.Calm cc := by
  induction h with
  | nil c => exact nofun
  | cons h1 _ _ ih => exact fun a ha => (List.mem_append.1 (List.flatten_cons ▸ ha)).elim (h1.calm a) (ih a)

theorem priorities {c c' : Cluster E S} {bss : List (List (Action E S))} (h : Cluster.LBeats cc L c bss c') (i : NodeId) (p : Nat) :
    .call i (.setPriority p) ∉ bss.flatten := by
  induction h with
  | nil c => exact nofun
  | cons h1 _ _ ih => exact fun ha => (List.mem_append.1 (List.flatten_cons ▸ ha)).elim (h1.priorities i p) ih

/-- The clocks after some beats. -/
theorem clocks {c c' : Cluster E S} {bss : List (List (Action E S))} (h : Cluster.LBeats cc L c bss c') (hi : i ∈ L)
    {op' : OP E S} (hop : c'.servers i = .up op') : ∃ op, c.servers i = .up op ∧ op'.election_clock.timeout = op.election_clock.timeout ∧
      op'.flush_batch_clock.timeout = op.flush_batch_clock.timeout ∧
      (op.flush_batch_clock.time < op.flush_batch_clock.timeout → op'.flush_batch_clock.time < op'.flush_batch_clock.timeout) := by
  induction h with
  | nil c => exact ⟨op', hop, rfl, rfl, id⟩
  | cons h1 h2 _ ih =>
    obtain ⟨op1, u1, e1, e2, e3⟩ := ih hop
    obtain ⟨op, u, f1, f2, _⟩ := h1.clocks h2 hi u1
    refine ⟨op, u, by rw [e1, f1, LogicalClock.tick_timeout], by rw [e2, f2, LogicalClock.tick_timeout], fun hl => e3 ?_⟩
    rw [f2, LogicalClock.tick_timeout]
    exact LogicalClock.tick_lt hl

/-- The beat before, if the election timeout is less than five ticks away. -/
theorem back {c c' : Cluster E S} {bss : List (List (Action E S))} {f : Nat} (h : Cluster.LBeats cc L c bss c') (hL : ∀ x ∈ L, x ∈ cc.nodes) (hw : c.Wound cc f) (hi : i ∈ L)
    {op' : OP E S} (hop : c'.servers i = .up op') {r : Nat} (hr : r ≤ 4) (hl : op'.election_clock.time + r = op'.election_clock.timeout) :
    ∃ ys b cm op, bss = ys ++ [b] ∧ Cluster.LBeats cc L c ys cm ∧ cm.LBeat cc L b ∧ cm.run cc b = some c' ∧ cm.servers i = .up op ∧
      op.election_clock.time + (r + 1) = op.election_clock.timeout ∧ op'.ble.hb_round = op.ble.hb_round := by
  obtain ⟨op0, u0, e0, -, -⟩ := h.clocks hi hop
  have w0 := (hw i (hL i hi) op0 u0).1
  rcases List.eq_nil_or_concat bss with rfl | ⟨ys, b, rfl⟩
  · cases h
    rw [u0] at hop
    cases hop
    omega
  · rw [List.concat_eq_append] at h
    obtain ⟨cm, h1, h2⟩ := h.split
    obtain ⟨h3, h4⟩ := h2.one
    obtain ⟨op, u, f1, -, f3⟩ := h3.clocks h4 hi hop
    refine ⟨ys, b, cm, op, List.concat_eq_append, h1, h3, h4, u, ?_⟩
    unfold LogicalClock.tick_and_check_timeout at f1 f3
    by_cases hf : op.election_clock.time + 1 = op.election_clock.timeout
    · rw [if_pos hf] at f1
      rw [f1] at hl e0
      simp only at hl e0
      omega
    · rw [if_neg hf] at f1 f3
      rw [f1] at hl
      simp only at hl
      exact ⟨by omega, f3 rfl⟩

end Cluster.LBeats

/-- Before an election timeout there have been round trips with everybody. -/
theorem Cluster.LBeats.met {c c' : Cluster E S} {bss : List (List (Action E S))} {f : Nat} (h : Cluster.LBeats cc L c bss c') (hL : ∀ x ∈ L, x ∈ cc.nodes) (hw : c.Wound cc f) (hi : i ∈ L)
    (hj : j ∈ L) {k : Nat} {c1 : Cluster E S} (hk : bss.flatten[k]? = some (.call i .tick)) (hr : c.run cc (bss.flatten.take k) = some c1)
    (hf : c1.Fires i) : c.Met cc (bss.flatten.take k) i j := by
  obtain ⟨op1, u1, hf⟩ := hf
  obtain ⟨xs, ys, p, q, rfl, e⟩ := flatten_at hk
  rw [e] at hr ⊢
  obtain ⟨c0, h0, h1⟩ := h.split
  have hb : c0.LBeat cc L (p ++ .call i .tick :: q) := by cases h1 with | cons h _ _ => exact h
  have hp : p.countP (Action.isTick i) = 0 := by
    have := hb.ticks i hi
    rw [List.countP_append, List.countP_cons, if_pos (by simp [Action.isTick])] at this
    omega
  rw [Cluster.run_append, h0.run, Option.bind_some] at hr
  obtain ⟨op0, u0, g1, -, g3⟩ := run_clocks (fun a ha => hb.calm a (List.mem_append_left _ ha)) hr hp u1
  have l0 : op0.election_clock.time + 1 = op0.election_clock.timeout := by
    rw [g1] at hf
    unfold LogicalClock.tick_and_check_timeout at hf
    split at hf
    · assumption
    · cases hf
  obtain ⟨x4, b4, m4, o4, rfl, h4, v4, r4, u4, l4, s4⟩ := h0.back hL hw hi u0 (by omega) l0
  obtain ⟨x3, b3, m3, o3, rfl, h3, v3, r3, u3, l3, s3⟩ := h4.back hL hw hi u4 (by omega) l4
  obtain ⟨x2, b2, m2, o2, rfl, h2, v2, r2, u2, l2, s2⟩ := h3.back hL hw hi u3 (by omega) l3
  obtain ⟨x1, b1, m1, o1, rfl, hx, v1, r1, w1, l1, s1⟩ := h2.back hL hw hi u2 (by omega) l2
  refine ⟨x1.flatten, b1 ++ b2 ++ b3 ++ (b4 ++ p), m1, c1, o1, op1, by simp, hx.run, ?_, w1, u1, ?_, b1, b2, b3, b4 ++ p, rfl, v1.taken i hi, v3.taken j hj,
    fun d hd => ?_, fun d hd => ?_⟩
  · simp only [Cluster.run_append, r1, r2, r3, r4, Option.bind_some, hr]
  · rw [g3, s4, s3, s2, s1]
  · rw [r1] at hd; cases hd
    exact v2.delivered i (hL i hi) j hj
  · simp only [Cluster.run_append, r1, r2, r3, Option.bind_some, Option.some.injEq] at hd
    subst hd
    rw [List.countP_append]
    exact Nat.le_trans (v4.delivered j (hL j hj) i hi) (Nat.le_add_right _ _)


/-- The heartbeats arrive in time, in full beats and then beats of the servers `L` only. -/
theorem prompt_silent {c c1 c2 : Cluster E S} {xs ys : List (List (Action E S))} {f : Nat} (h1 : Cluster.Beats cc c xs c1) (h2 : Cluster.LBeats cc L c1 ys c2)
    (ho : ∀ a ∈ ys.flatten, a.Of cc L) (hw : c.Wound cc f) (hL : AcceptQuorum cc L) (hn : n.pid ∈ L) : c.Prompt cc n (xs.flatten ++ ys.flatten) := by
  have h := (h1.live hL.members).append h2
  have e : (xs ++ ys).flatten = xs.flatten ++ ys.flatten := List.flatten_append
  refine ⟨by rw [← e]; exact h.calm, by rw [← e]; exact h.priorities, fun i k c1 hk hr hf hin => ?_, fun k c1 hk hr hf => ⟨L.erase n.pid, ?_, fun j hj => ?_⟩⟩
  · by_cases hi : i ∈ L
    · rw [← e] at hk hr ⊢
      exact h.met hL.members hw hi hn hk hr hf
    · by_cases hl : k < xs.flatten.length
      · rw [List.getElem?_append_left hl] at hk
        rw [List.take_append_of_le_length (Nat.le_of_lt hl)] at hr ⊢
        exact h1.met hw (h1.calm _ (List.mem_of_getElem? hk)) (hL.members _ hn) hk hr hf
      · rw [List.getElem?_append_right (Nat.le_of_not_lt hl)] at hk
        exact absurd (ho _ (List.mem_of_getElem? hk)) hi
  · have hp : (n.pid :: L.erase n.pid).Perm L := (List.perm_cons_erase hn).symm
    refine ⟨hp.nodup_iff.2 hL.distinct, fun x hx => hL.members x (hp.mem_iff.1 hx), ?_⟩
    rw [hp.length_eq]
    exact hL.size
  · rw [← e] at hk hr ⊢
    exact h.met hL.members hw hn (List.mem_of_mem_erase hj) hk hr hf

end Omni
