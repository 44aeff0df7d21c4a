import Verif.Proof.LinksBLE
/-
Property C50 (properties.jsonl): a server that hears a quorum is enough for the election to settle.
-/
namespace Omni
open BLE

section
variable {cid : Nat} {fq : Option FlexibleQuorum} {N : List NodeId} {s : NodeId → BLE} {link : NodeId → NodeId → Bool}
  {inp : Nat → NodeId → Input}

/-- **C50**, for flexible quorums. The servers `N` of one configuration run; which of them hear each other is given by `link`, and
does not change. Accept quorums are not larger than prepare quorums (`ClusterConfig::validate` demands it). Ballots, known leaders,
happiness and what the replication components say are arbitrary at first. If one of the servers hears, with itself, a prepare quorum,
then after finitely many rounds the election has settled for good: no ballot and no known leader changes any more, and there is a
server `ℓ` that takes itself for the leader and announces this at all its timeouts, such that `ℓ` and servers that hear `ℓ`, enough
for an accept quorum, have `ℓ` for their leader. They are even enough for a prepare quorum, unless `ℓ` is again and again in its
accept phase. -/
theorem C50_flexible_quorums (h : System cid fq N s)
    (hfq : ∀ q, fq = some q → q.write_quorum_size ≤ q.read_quorum_size)
    (hsym : ∀ i ∈ N, ∀ j ∈ N, link i j = link j i)
    (hp : ∀ t, ∀ i ∈ N, KnownPromiseOn link N (roundsOn link inp s t) i (inp t i).promise)
    (hq : ∃ q ∈ N, (Quorum.with fq N.length).is_prepare_quorum (N.filter fun j => decide (j = q) || link q j).length = true) :
    ∃ T ℓ, ℓ ∈ N ∧ ∃ M : Ballot, M.pid = ℓ ∧
      ((∀ t, T ≤ t → (Quorum.with fq N.length).is_prepare_quorum (N.filter fun i =>
          (decide (i = ℓ) || link ℓ i) && decide ((roundsOn link inp s t i).leader = M)).length = true) ∨
        ∀ t1, ∃ t, t1 ≤ t ∧ (inp t ℓ).role = .leader ∧ (inp t ℓ).phase = .accept) ∧
      ∀ t, T ≤ t →
        (∀ i ∈ N, (roundsOn link inp s t i).current_ballot = (roundsOn link inp s T i).current_ballot ∧
          (roundsOn link inp s t i).leader = (roundsOn link inp s T i).leader) ∧
        (roundsOn link inp s t ℓ).current_ballot = M ∧ (roundsOn link inp s t ℓ).leader = M ∧
        (Quorum.with fq N.length).is_accept_quorum (N.filter fun i =>
          (decide (i = ℓ) || link ℓ i) && decide ((roundsOn link inp s t i).leader = M)).length = true ∧
        ((exchangeOn link (roundsOn link inp s t) ℓ).hb_timeout (inp t ℓ).role (inp t ℓ).phase (inp t ℓ).promise).1 = some M := by
  have hs := roundsOn_system h hp
  let w : Nat → Rounds.V := fun t => Rounds.view (roundsOn link inp s t)
  have hw : ∀ t, Rounds.WF cid N (w t) := fun t => ⟨(hs t).nodup, (hs t).two, (hs t).own, (hs t).leader, (hs t).le⟩
  obtain ⟨q, hqN, hq⟩ := hq
  rw [(quorum_size _ _ _).1, decide_eq_true_eq, nb_length h.nodup hqN] at hq
  obtain ⟨T, hT, ℓ, hℓ, hlead, hen⟩ := Links.settles (acc_le_prep hfq N.length) hw
    (fun t => (nextRoundOn_system (hs t) (hp t)).1) ⟨q, hqN, hq⟩
  have hfol : ∀ k, Links.Enough link N k (w T) ℓ → ∀ t, T ≤ t → k ≤ (N.filter fun i =>
      (decide (i = ℓ) || link ℓ i) && decide ((roundsOn link inp s t i).leader = (w T).c ℓ)).length := by
    intro k hk t ht
    refine Nat.le_trans hk (nb_length_filter h.nodup hℓ ?_ fun j hj hjl => ?_)
    · refine decide_eq_true ?_
      rw [← hlead]
      exact (hT t ht ℓ hℓ).2.1
    · obtain ⟨hjN, hjne, hjlink⟩ := Links.mem_nb.1 hj
      simp only [decide_eq_true_eq] at hjl ⊢
      have h1 : (roundsOn link inp s t j).leader = (w T).l j := (hT t ht j hjN).2.1
      rw [h1]
      refine Ballot.le_antisymm (((hw T).leader j hjN).trans ((hw T).own ℓ hℓ).2.symm) hjl ?_
      exact (hT T (Nat.le_refl _) j hjN).2.2.1 ℓ (Links.mem_nb.2 ⟨hℓ, Ne.symm hjne, by rw [hsym j hjN ℓ hℓ]; exact hjlink⟩)
  refine ⟨T, ℓ, hℓ, (w T).c ℓ, ((hw T).own ℓ hℓ).1, ?_, fun t ht => ⟨fun i hi => ⟨(hT t ht i hi).1, (hT t ht i hi).2.1⟩,
    (hT t ht ℓ hℓ).1, (hT t ht ℓ hℓ).2.1.trans hlead, ?_, ?_⟩⟩
  · rcases hen with hen | ⟨-, hen⟩
    · refine .inl fun t ht => ?_
      rw [(quorum_size _ _ _).1, decide_eq_true_eq]
      exact hfol _ hen t ht
    · refine .inr fun t1 => ?_
      obtain ⟨t, h1, h2⟩ := hen t1
      simp only [Input.accepts, Bool.and_eq_true, decide_eq_true_eq] at h2
      exact ⟨t, h1, h2⟩
  · rw [(quorum_size _ _ _).2, decide_eq_true_eq]
    refine hfol _ ?_ t ht
    rcases hen with hen | ⟨hen, -⟩
    · exact Nat.le_trans (acc_le_prep hfq N.length) hen
    · exact hen
  · show (if (w (t + 1)).l ℓ = (w (t + 1)).c ℓ then some ((w (t + 1)).c ℓ) else none) = _
    have h1 := hT (t + 1) (by omega) ℓ hℓ
    rw [h1.1, h1.2.1, if_pos hlead]

/-- **C50.** With majority quorums: if the links do not change, and one server hears, with itself, a majority of the servers, the
election settles for good, whatever the ballots, the known leaders and the happiness of the servers at first: after finitely many
rounds no ballot and no known leader changes any more, and there is a server `ℓ` that takes itself for the leader, announces this at
all its timeouts and is happy, such that `ℓ` and servers that hear it, a majority together, have `ℓ` for their leader and are happy.
(So a server that is not connected to the leader cannot disturb it, however large its ballot.) -/
theorem C50_quorum_connected (h : System cid none N s) (hsym : ∀ i ∈ N, ∀ j ∈ N, link i j = link j i)
    (hp : ∀ t, ∀ i ∈ N, KnownPromiseOn link N (roundsOn link inp s t) i (inp t i).promise)
    (hq : ∃ q ∈ N, N.length < 2 * (N.filter fun j => decide (j = q) || link q j).length) :
    ∃ T ℓ, ℓ ∈ N ∧ ∃ M : Ballot, M.pid = ℓ ∧ ∀ t, T ≤ t →
      (∀ i ∈ N, (roundsOn link inp s t i).current_ballot = (roundsOn link inp s T i).current_ballot ∧
        (roundsOn link inp s t i).leader = (roundsOn link inp s T i).leader) ∧
      (roundsOn link inp s t ℓ).current_ballot = M ∧ (roundsOn link inp s t ℓ).leader = M ∧
      (roundsOn link inp s t ℓ).happy = true ∧
      N.length < 2 * (N.filter fun i => (decide (i = ℓ) || link ℓ i) &&
        (decide ((roundsOn link inp s t i).leader = M) && (roundsOn link inp s t i).happy)).length ∧
      ((exchangeOn link (roundsOn link inp s t) ℓ).hb_timeout (inp t ℓ).role (inp t ℓ).phase (inp t ℓ).promise).1 = some M := by
  have hs := roundsOn_system h hp
  let w : Nat → Rounds.V := fun t => Rounds.view (roundsOn link inp s t)
  have hw : ∀ t, Rounds.WF cid N (w t) := fun t => ⟨(hs t).nodup, (hs t).two, (hs t).own, (hs t).leader, (hs t).le⟩
  obtain ⟨q, hqN, hq⟩ := hq
  rw [nb_length h.nodup hqN] at hq
  obtain ⟨T, hT, ℓ, hℓ, hlead, hen⟩ := Links.settles (Nat.le_refl _) hw
    (fun t => (nextRoundOn_system (hs t) (hp t)).1) ⟨q, hqN, by show N.length / 2 + 1 ≤ _; omega⟩
  have hen : Links.Enough link N (N.length / 2 + 1) (w T) ℓ := by
    rcases hen with hen | ⟨hen, -⟩ <;> exact hen
  have hent : ∀ t, T ≤ t → Links.Enough link N (N.length / 2 + 1) (w t) ℓ := by
    intro t ht
    unfold Links.Enough at hen ⊢
    have : ((Links.nb link N ℓ).filter fun j => decide ((w t).l j ≤ (w t).c ℓ))
        = ((Links.nb link N ℓ).filter fun j => decide ((w T).l j ≤ (w T).c ℓ)) := by
      apply List.filter_congr
      intro j hj
      rw [(hT t ht j (Links.mem_nb.1 hj).1).2.1, (hT t ht ℓ hℓ).1]
    rw [this]; exact hen
  have hlead' : ∀ t, T ≤ t → (w t).l ℓ = (w t).c ℓ := fun t ht => by
    rw [(hT t ht ℓ hℓ).1, (hT t ht ℓ hℓ).2.1]; exact hlead
  have hhap : ∀ t, T + 1 ≤ t → (w t).h ℓ = true := by
    intro t ht
    obtain ⟨u, rfl⟩ : ∃ u, t = u + 1 := ⟨t - 1, by omega⟩
    refine (hT u (by omega) ℓ hℓ).2.2.2.2 (.inl ⟨hlead' u (by omega), .inl ?_⟩)
    rw [ite_self]
    exact hent u (by omega)
  refine ⟨T + 2, ℓ, hℓ, (w T).c ℓ, ((hw T).own ℓ hℓ).1, fun t ht => ?_⟩
  have e0 : ∀ i ∈ N, (w t).c i = (w (T + 2)).c i ∧ (w t).l i = (w (T + 2)).l i := fun i hi =>
    ⟨(hT t (by omega) i hi).1.trans (hT (T + 2) (by omega) i hi).1.symm,
      (hT t (by omega) i hi).2.1.trans (hT (T + 2) (by omega) i hi).2.1.symm⟩
  refine ⟨e0, (hT t (by omega) ℓ hℓ).1, (hT t (by omega) ℓ hℓ).2.1.trans hlead, hhap t (by omega), ?_, ?_⟩
  · have hc : N.length / 2 + 1 ≤ (N.filter fun i => (decide (i = ℓ) || link ℓ i) &&
        (decide ((roundsOn link inp s t i).leader = (w T).c ℓ) && (roundsOn link inp s t i).happy)).length := by
      refine Nat.le_trans hen (nb_length_filter (P := fun i => decide ((roundsOn link inp s t i).leader = (w T).c ℓ) &&
        (roundsOn link inp s t i).happy) h.nodup hℓ ?_ fun j hj hjl => ?_)
      · have h1 : (roundsOn link inp s t ℓ).leader = (w T).c ℓ := (hT t (by omega) ℓ hℓ).2.1.trans hlead
        have h2 : (roundsOn link inp s t ℓ).happy = true := hhap t (by omega)
        simp [h1, h2]
      · obtain ⟨hjN, hjne, hjlink⟩ := Links.mem_nb.1 hj
        have hjℓ : ℓ ∈ Links.nb link N j := Links.mem_nb.2 ⟨hℓ, Ne.symm hjne, by rw [hsym j hjN ℓ hℓ]; exact hjlink⟩
        simp only [decide_eq_true_eq] at hjl
        have e : (w T).l j = (w T).c ℓ :=
          Ballot.le_antisymm (((hw T).leader j hjN).trans ((hw T).own ℓ hℓ).2.symm) hjl
            ((hT T (Nat.le_refl _) j hjN).2.2.1 ℓ hjℓ)
        have h1 : (roundsOn link inp s t j).leader = (w T).c ℓ := (hT t (by omega) j hjN).2.1.trans e
        have h2 : (roundsOn link inp s t j).happy = true := by
          obtain ⟨u, rfl⟩ : ∃ u, t = u + 1 := ⟨t - 1, by omega⟩
          have hu := hT u (by omega) j hjN
          have eu : (w u).l j = (w u).c ℓ := by rw [hu.2.1, e, (hT u (by omega) ℓ hℓ).1]
          refine hu.2.2.2.2 (.inr ⟨?_, ℓ, hjℓ, eu.symm, hhap u (by omega)⟩)
          intro e'
          exact hjne ((hw u).eq hjN hℓ (e'.symm.trans eu))
        simp [h1, h2]
    omega
  · show (if (w (t + 1)).l ℓ = (w (t + 1)).c ℓ then some ((w (t + 1)).c ℓ) else none) = _
    rw [if_pos (hlead' (t + 1) (by omega)), (hT (t + 1) (by omega) ℓ hℓ).1]

end

/-- Five servers of which the third hears all the others, which do not hear each other. -/
def star : NodeId → NodeId → Bool := fun i j => i == 3 || j == 3

/-- The hypotheses hold of these, also when the first has heard of a leader with a ballot far ahead of all others', and has
promised it. -/
example : ∃ (s : NodeId → BLE) (inp : Nat → NodeId → Input), System 1 none [1, 2, 3, 4, 5] s ∧
    (∀ i ∈ [1, 2, 3, 4, 5], ∀ j ∈ [1, 2, 3, 4, 5], star i j = star j i) ∧
    (∀ t, ∀ i ∈ [1, 2, 3, 4, 5], KnownPromiseOn star [1, 2, 3, 4, 5] (roundsOn star inp s t) i (inp t i).promise) ∧
    (∃ q ∈ [1, 2, 3, 4, 5], [1, 2, 3, 4, 5].length < 2 * ([1, 2, 3, 4, 5].filter fun j => decide (j = q) || star q j).length) ∧
    (s 1).leader = ⟨1, 6, 0, 7⟩ ∧ (inp 0 1).promise = ⟨1, 6, 0, 7⟩ := by
  let s : NodeId → BLE := fun i => BLE.with 1 i ([1, 2, 3, 4, 5].filter (· ≠ i)) 0 none (if i = 1 then some ⟨1, 6, 0, 7⟩ else none)
  let inp : Nat → NodeId → Input := fun t i => ⟨.follower, .none, if t = 0 ∧ i = 1 then ⟨1, 6, 0, 7⟩ else {}⟩
  refine ⟨s, inp, ⟨by decide, by decide, ?_, ?_, ?_, ?_, ?_, ?_, ?_, ?_, ?_⟩, ?_, ?_, ⟨3, by decide, by decide⟩, rfl, rfl⟩
  case refine_10 => decide
  case refine_11 =>
    intro t i _
    refine .inl ?_
    by_cases hti : t = 0 ∧ i = 1
    · obtain ⟨rfl, rfl⟩ := hti
      decide
    · have e : (inp t i).promise = {} := if_neg hti
      rw [e]
      generalize (roundsOn _ _ s t i).leader = b
      show ({} : Ballot) ≤ b
      rw [Ballot.le_iff, Ballot.lt_iff]
      show ¬ (b.n < 0 ∨ b.n = 0 ∧ (b.priority < 0 ∨ b.priority = 0 ∧ b.pid < 0))
      omega
  all_goals
    intro i hi
    simp only [List.mem_cons, List.not_mem_nil, or_false] at hi
    rcases hi with rfl | rfl | rfl | rfl | rfl <;> decide

/-- The hypotheses of the first theorem hold of four servers with prepare quorums of three and accept quorums of two, of which the
fourth is down. -/
example : ∃ (s : NodeId → BLE) (inp : Nat → NodeId → Input), System 1 (some ⟨3, 2⟩) [1, 2, 3, 4] s ∧
    (∀ t, ∀ i ∈ [1, 2, 3, 4], KnownPromiseOn (fun i j => i != 4 && j != 4) [1, 2, 3, 4]
      (roundsOn (fun i j => i != 4 && j != 4) inp s t) i (inp t i).promise) ∧
    (∃ q ∈ [1, 2, 3, 4], (Quorum.with (some ⟨3, 2⟩) [1, 2, 3, 4].length).is_prepare_quorum
      ([1, 2, 3, 4].filter fun j => decide (j = q) || (q != 4 && j != 4)).length = true) := by
  let s : NodeId → BLE := fun i => BLE.with 1 i ([1, 2, 3, 4].filter (· ≠ i)) 0 (some ⟨3, 2⟩) none
  refine ⟨s, fun _ _ => ⟨.follower, .none, {}⟩, ⟨by decide, by decide, ?_, ?_, ?_, ?_, ?_, ?_, ?_, ?_, ?_⟩, ?_,
    ⟨1, by decide, by decide⟩⟩
  case refine_10 =>
    intro t i _
    refine .inl ?_
    generalize (roundsOn _ _ s t i).leader = b
    show ({} : Ballot) ≤ b
    rw [Ballot.le_iff, Ballot.lt_iff]
    show ¬ (b.n < 0 ∨ b.n = 0 ∧ (b.priority < 0 ∨ b.priority = 0 ∧ b.pid < 0))
    omega
  all_goals
    intro i hi
    simp only [List.mem_cons, List.not_mem_nil, or_false] at hi
    rcases hi with rfl | rfl | rfl | rfl <;> decide

end Omni
