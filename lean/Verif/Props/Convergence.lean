import Verif.Proof.RoundsBLE
/-
Property C48 (properties.jsonl): servers that all run and hear each other settle on a leader.
-/
namespace Omni
open BLE

/-- **C48.** The servers `N` of one configuration, with majority quorums, all run and all hear each other: in every round each of
them gets the answers of all the others and then has its election timeout. Their ballots, the leaders they know, who is happy, and
what the replication components tell at the timeouts is arbitrary, except that no promise is larger than everything the election
components know. Let no leader known to a server be more than `d` ballot numbers ahead of all current ballots. Then after at most
`5 (d + 1) + 1` rounds the election has settled for good: nobody takes another ballot any more, one server `ℓ` has the largest one,
takes itself for the leader and is happy, a majority of the servers have `ℓ` with this ballot for their leader and are happy, and
the election timeouts of `ℓ`, and of nobody else, announce it as leader to its replication component. -/
theorem C48_election_settles {cid : Nat} {N : List NodeId} {s : NodeId → BLE} (h : System cid none N s)
    {inp : Nat → NodeId → Input} (hp : ∀ t, ∀ i ∈ N, KnownPromise N (rounds inp s t) i (inp t i).promise)
    {d : Nat} (hd : ∀ i ∈ N, ∃ j ∈ N, (s i).leader.n ≤ (s j).current_ballot.n + d) :
    ∃ T, T ≤ 5 * (d + 1) + 1 ∧ ∃ ℓ, ℓ ∈ N ∧ ∃ M : Ballot, M.pid = ℓ ∧ ∀ t, T ≤ t →
      (∀ i ∈ N, (rounds inp s t i).current_ballot = (rounds inp s T i).current_ballot) ∧
      (∀ i ∈ N, (rounds inp s t i).current_ballot ≤ M) ∧
      (rounds inp s t ℓ).current_ballot = M ∧ (rounds inp s t ℓ).leader = M ∧ (rounds inp s t ℓ).happy = true ∧
      N.length < 2 * (N.filter fun i =>
        decide ((rounds inp s t i).leader = M) && (rounds inp s t i).happy).length ∧
      ∀ i ∈ N, ((exchange (rounds inp s t) i).hb_timeout (inp t i).role (inp t i).phase (inp t i).promise).1
        = if i = ℓ then some M else none := by
  have hs : ∀ t, System cid none N (rounds inp s t) := by
    intro t
    induction t with
    | zero => exact h
    | succ t ih => exact (nextRound_system ih (hp t)).2
  let w : Nat → Rounds.V := fun t => Rounds.view (rounds inp s t)
  have hn : ∀ t, Rounds.Next N (w t) (w (t + 1)) := fun t => (nextRound_system (hs t) (hp t)).1
  have hw : ∀ t, Rounds.WF cid N (w t) := fun t => ⟨(hs t).nodup, (hs t).two, (hs t).own, (hs t).leader, (hs t).le⟩
  have hg : Rounds.Gap N (w 0) d := by
    obtain ⟨k, hk⟩ := Rounds.exists_top (hw 0).ne (w 0)
    refine ⟨k, hk, fun i hi => ?_⟩
    obtain ⟨j, hj, hj'⟩ := hd i hi
    exact Nat.le_trans hj' (Nat.add_le_add_right (Ballot.n_mono (hk.2 j hj)) d)
  obtain ⟨t', -, ht', k, hk⟩ := Rounds.converges hn d 0 (hw 0) hg
  have hst : ∀ x, Rounds.Stable N (w (t' + x)) k ∧ ∀ i ∈ N, (w (t' + x)).c i = (w t').c i := by
    intro x
    induction x with
    | zero => exact ⟨hk, fun _ _ => rfl⟩
    | succ x ih =>
      obtain ⟨a, b, -⟩ := ih.1.next (hw (t' + x)) (hn (t' + x))
      exact ⟨a, fun i hi => (b i hi).trans (ih.2 i hi)⟩
  refine ⟨t' + 1, by omega, k, hk.top.1, (w t').c k, ((hw t').own k hk.top.1).1, fun t ht => ?_⟩
  obtain ⟨x, rfl⟩ : ∃ x, t = t' + x + 1 := ⟨t - t' - 1, by omega⟩
  have a := hst (x + 1)
  have e : ∀ i ∈ N, (w (t' + x + 1)).c i = (w t').c i := a.2
  refine ⟨fun i hi => (e i hi).trans ((hst 1).2 i hi).symm, fun i hi => ?_, e k hk.top.1, ?_, a.1.glad, ?_, fun i hi => ?_⟩
  · have h1 : (rounds inp s (t' + x + 1) i).current_ballot = (w t').c i := e i hi
    rw [h1]
    exact hk.top.2 i hi
  · exact a.1.lead.trans (e k hk.top.1)
  · obtain ⟨hx, hxc⟩ := hst x
    obtain ⟨-, -, hfl⟩ := hx.next (hw (t' + x)) (hn (t' + x))
    have hen := hx.enough
    unfold Rounds.Enough at hen
    -- the servers that accept `k` before the round all follow it afterwards
    have hsub : ((N.filter (· ≠ k)).filter fun j => decide ((w (t' + x)).l j ≤ (w (t' + x)).c k)).length + 1
        ≤ (N.filter fun i => decide ((rounds inp s (t' + x + 1) i).leader = (w t').c k) &&
            (rounds inp s (t' + x + 1) i).happy).length := by
      have hP : ∀ i ∈ N, (w (t' + x)).l i ≤ (w (t' + x)).c k →
          (decide ((rounds inp s (t' + x + 1) i).leader = (w t').c k) && (rounds inp s (t' + x + 1) i).happy) = true := by
        intro i hi hl
        obtain ⟨f1, f2⟩ := hfl i hi hl
        rw [hxc k hk.top.1] at f1
        have f1' : (rounds inp s (t' + x + 1) i).leader = (w t').c k := f1
        have f2' : (rounds inp s (t' + x + 1) i).happy = true := f2
        simp [f1', f2']
      have hkP : (w (t' + x)).l k ≤ (w (t' + x)).c k := by rw [hx.lead]; exact Ballot.le_refl _
      have hone := length_filter_ne (N := N.filter fun i => decide ((rounds inp s (t' + x + 1) i).leader = (w t').c k) &&
            (rounds inp s (t' + x + 1) i).happy) ((hw 0).nodup.filter _) (i := k)
            (List.mem_filter.2 ⟨hk.top.1, hP k hk.top.1 hkP⟩)
      rw [← hone, Nat.add_le_add_iff_right, List.filter_filter, List.filter_filter]
      clear hone hen
      have : ∀ L : List NodeId, (∀ i ∈ L, i ∈ N) →
          (L.filter fun a => decide ((w (t' + x)).l a ≤ (w (t' + x)).c k) && decide (a ≠ k)).length
          ≤ (L.filter fun a => decide (a ≠ k) && (decide ((rounds inp s (t' + x + 1) a).leader = (w t').c k) &&
            (rounds inp s (t' + x + 1) a).happy)).length := by
        intro L hL
        rw [← List.countP_eq_length_filter, ← List.countP_eq_length_filter]
        apply List.countP_mono_left
        intro i hi hpi
        simp only [Bool.and_eq_true, decide_eq_true_eq] at hpi
        rw [hP i (hL i hi) hpi.1]
        simp [hpi.2]
      exact this N fun _ hi => hi
    have := Nat.le_trans hen hsub
    omega
  · have e2 : ∀ i ∈ N, (w (t' + x + 1 + 1)).c i = (w t').c i := (hst (x + 2)).2
    have hM : ∀ i ∈ N, (w t').c k ≤ (w (t' + x + 1 + 1)).l i := by
      intro i hi
      obtain ⟨y, hy⟩ := hn (t' + x + 1) i hi
      have h1 : (w t').c k ≤ y := by rw [← e k hk.top.1]; exact hy.all k hk.top.1
      rcases hy.out with ⟨-, -, h2, -⟩ | ⟨-, -, h2, -⟩ | ⟨-, -, -, h2, -⟩
      · rw [h2]; exact h1
      · rw [e2 i hi] at h2
        have h3 : ((w t').c i).n = y.n + 1 := by rw [h2]
        have h4 := Ballot.n_mono (hk.top.2 i hi)
        have h5 := Ballot.n_mono h1
        omega
      · rw [h2]; exact h1
    show (if (w (t' + x + 1 + 1)).l i = (w (t' + x + 1 + 1)).c i then some ((w (t' + x + 1 + 1)).c i) else none) = _
    by_cases hik : i = k
    · subst hik
      have h1 : (w (t' + x + 1 + 1)).l i = (w (t' + x + 1 + 1)).c i := (hst (x + 2)).1.lead
      rw [if_pos rfl, if_pos h1, e2 i hi]
    · rw [if_neg hik, if_neg]
      intro heq
      have h1 := hM i hi
      rw [heq, e2 i hi] at h1
      exact Ballot.not_lt.2 h1 (hk.top.lt (hw t') hi hik)

/-- **C48**, second half. If no server knows a leader larger than all current ballots (as in a cluster that starts, or where nobody
has crashed), two rounds are enough, and all servers follow the leader, not just a majority. -/
theorem C48_election_unanimous {cid : Nat} {N : List NodeId} {s : NodeId → BLE} (h : System cid none N s)
    {inp : Nat → NodeId → Input} (hp : ∀ t, ∀ i ∈ N, KnownPromise N (rounds inp s t) i (inp t i).promise)
    (hd : ∀ i ∈ N, ∃ j ∈ N, (s i).leader ≤ (s j).current_ballot) :
    ∃ ℓ, ℓ ∈ N ∧ ∃ M : Ballot, M.pid = ℓ ∧ ∀ t, 2 ≤ t → (rounds inp s t ℓ).current_ballot = M ∧
      ∀ i ∈ N, (rounds inp s t i).leader = M ∧ (rounds inp s t i).happy = true ∧
        (rounds inp s t i).current_ballot = (rounds inp s 2 i).current_ballot := by
  have hs : ∀ t, System cid none N (rounds inp s t) := by
    intro t
    induction t with
    | zero => exact h
    | succ t ih => exact (nextRound_system ih (hp t)).2
  let w : Nat → Rounds.V := fun t => Rounds.view (rounds inp s t)
  have hn : ∀ t, Rounds.Next N (w t) (w (t + 1)) := fun t => (nextRound_system (hs t) (hp t)).1
  have hw : ∀ t, Rounds.WF cid N (w t) := fun t => ⟨(hs t).nodup, (hs t).two, (hs t).own, (hs t).leader, (hs t).le⟩
  obtain ⟨k0, hk0⟩ := Rounds.exists_top (hw 0).ne (w 0)
  obtain ⟨k, hk, hl⟩ := (hn 0).nophantom (hw 0) hk0 fun i hi => by
    obtain ⟨j, hj, hj'⟩ := hd i hi
    exact Ballot.le_trans hj' (hk0.2 j hj)
  have hst : ∀ x, Rounds.Stable N (w (x + 1)) k ∧ ∀ i ∈ N, (w (x + 1)).c i = (w 1).c i ∧ (w (x + 1)).l i ≤ (w 1).c k := by
    intro x
    induction x with
    | zero => exact ⟨hk, fun i hi => ⟨rfl, hl i hi⟩⟩
    | succ x ih =>
      obtain ⟨a, b, c⟩ := ih.1.next (hw (x + 1)) (hn (x + 1))
      have ek := (ih.2 k hk.top.1).1
      refine ⟨a, fun i hi => ⟨(b i hi).trans (ih.2 i hi).1, ?_⟩⟩
      rw [(c i hi (by rw [ek]; exact (ih.2 i hi).2)).1, ek]
      exact Ballot.le_refl _
  refine ⟨k, hk.top.1, (w 1).c k, ((hw 1).own k hk.top.1).1, fun t ht => ?_⟩
  obtain ⟨x, rfl⟩ : ∃ x, t = x + 1 + 1 := ⟨t - 2, by omega⟩
  refine ⟨((hst (x + 1)).2 k hk.top.1).1, fun i hi => ?_⟩
  obtain ⟨-, -, c⟩ := (hst x).1.next (hw (x + 1)) (hn (x + 1))
  have ek := ((hst x).2 k hk.top.1).1
  have c' := c i hi (by rw [ek]; exact ((hst x).2 i hi).2)
  exact ⟨c'.1.trans ek, c'.2, ((hst (x + 1)).2 i hi).1.trans ((hst 1).2 i hi).1.symm⟩

/-- The hypotheses of the first hold, for example, of three servers of which one has heard of a leader with a ballot far ahead of all others'
(that of a server which is no longer there, say). -/
example : ∃ (s : NodeId → BLE) (inp : Nat → NodeId → Input), System 1 none [1, 2, 3] s ∧
    (∀ t, ∀ i ∈ [1, 2, 3], KnownPromise [1, 2, 3] (rounds inp s t) i (inp t i).promise) ∧
    (∀ i ∈ [1, 2, 3], ∃ j ∈ [1, 2, 3], (s i).leader.n ≤ (s j).current_ballot.n + 5) ∧ (s 3).leader = ⟨1, 6, 0, 7⟩ := by
  let s : NodeId → BLE := fun i => BLE.with 1 i ([1, 2, 3].filter (· ≠ i)) 0 none (if i = 3 then some ⟨1, 6, 0, 7⟩ else none)
  refine ⟨s, fun _ _ => ⟨.follower, .none, {}⟩, ⟨by decide, by decide, ?_, ?_, ?_, ?_, ?_, ?_, ?_, ?_, ?_⟩, ?_, ?_, rfl⟩
  case refine_10 =>
    intro t i _
    refine .inl ?_
    generalize (rounds _ s t i).leader = b
    show ({} : Ballot) ≤ b
    rw [Ballot.le_iff, Ballot.lt_iff]
    show ¬ (b.n < 0 ∨ b.n = 0 ∧ (b.priority < 0 ∨ b.priority = 0 ∧ b.pid < 0))
    omega
  all_goals
    intro i hi
    simp only [List.mem_cons, List.not_mem_nil, or_false] at hi
    rcases hi with rfl | rfl | rfl <;> decide

/-- The hypotheses of the second hold of three servers that start, with different priorities. -/
example : ∃ (s : NodeId → BLE) (inp : Nat → NodeId → Input), System 1 none [1, 2, 3] s ∧
    (∀ t, ∀ i ∈ [1, 2, 3], KnownPromise [1, 2, 3] (rounds inp s t) i (inp t i).promise) ∧
    (∀ i ∈ [1, 2, 3], ∃ j ∈ [1, 2, 3], (s i).leader ≤ (s j).current_ballot) := by
  let s : NodeId → BLE := fun i => BLE.with 1 i ([1, 2, 3].filter (· ≠ i)) (7 - i) none none
  refine ⟨s, fun _ _ => ⟨.follower, .none, {}⟩, ⟨by decide, by decide, ?_, ?_, ?_, ?_, ?_, ?_, ?_, ?_, ?_⟩, ?_, ?_⟩
  case refine_10 =>
    intro t i _
    refine .inl ?_
    generalize (rounds _ s t i).leader = b
    show ({} : Ballot) ≤ b
    rw [Ballot.le_iff, Ballot.lt_iff]
    show ¬ (b.n < 0 ∨ b.n = 0 ∧ (b.priority < 0 ∨ b.priority = 0 ∧ b.pid < 0))
    omega
  all_goals
    intro i hi
    simp only [List.mem_cons, List.not_mem_nil, or_false] at hi
    rcases hi with rfl | rfl | rfl <;> decide

end Omni
