import Verif.Proof.QuorumRun
import Verif.Spec.Decided
import Verif.Spec.Sample
/-
Properties of the cluster in every run on an arbitrary network (Spec/AnyNet.lean: arbitrary loss, duplication and
reordering, crashes at every durable write, restarts): C03, C08, C31, C32, C37.
-/
namespace Omni

variable {E S : Type} [SnapOps E S]

section Sample
attribute [local instance] Sample.noSync
open Sample

/-- Server 1 is elected with the promise of server 2, accepts 7 and a StopSign, which server 2 accepts too, so that server 1
decides them. Then server 3 takes over with a higher ballot and the promise of server 2; an old message of server 1 is
delivered to server 2 once more; server 3 synchronises server 2. -/
def netRun : List (LAction Nat (List Nat)) :=
  [.start 1 (sc 1), .start 2 (sc 2), .start 3 (sc 3), .call 1 .tryBecomeLeader, .take 1, .deliver 0, .take 2, .deliver 4,
   .call 1 (.append 7), .call 1 (.reconfigure ⟨2, [1, 2], none⟩ none), .take 1, .deliver 7, .deliver 8, .deliver 9, .take 2,
   .deliver 10, .call 3 .tryBecomeLeader, .take 3, .deliver 12, .take 2, .deliver 15, .deliver 8, .take 3, .deliver 16]

/-- Evaluate a check on the three servers at the end of a run. -/
theorem net_check {acts : List (LAction Nat (List Nat))} {P : OP Nat (List Nat) → OP Nat (List Nat) → OP Nat (List Nat) → Bool}
    (h : (match Loose.init.run cc acts with
      | none => false
      | some c => match c.servers 1, c.servers 2, c.servers 3 with
        | .up a, .up b, .up d => P a b d
        | _, _, _ => false) = true) :
    ∃ c a b d, Loose.init.run cc acts = some c ∧ c.servers 1 = .up a ∧ c.servers 2 = .up b ∧ c.servers 3 = .up d ∧
      P a b d = true := by
  split at h
  · cases h
  · rename_i c hc
    split at h
    · rename_i a b d h1 h2 h3
      exact ⟨c, a, b, d, hc, h1, h2, h3, h⟩
    · cases h

/-- Concrete case for C03: the entry and the StopSign are read, decided on server 1 and undecided on server 3. -/
example : ∃ c a b d, Loose.init.run cc netRun = some c ∧ c.servers 1 = .up a ∧ c.servers 2 = .up b ∧ c.servers 3 = .up d ∧
    decide (a.read 0 = some (some (.decided 7)) ∧ a.is_reconfigured = some ⟨⟨2, [1, 2], none⟩, none⟩ ∧
      d.read 0 = some (some (.undecided 7)) ∧ d.read 1 = some (some (.stopSign ⟨⟨2, [1, 2], none⟩, none⟩ false))) = true :=
  net_check (by decide +kernel)

/-- Concrete case for C08 and C37: servers 1 and 3 both act as leader, in different ballots; server 2 follows server 3 in
accept phase. -/
example : ∃ c a b d, Loose.init.run cc netRun = some c ∧ c.servers 1 = .up a ∧ c.servers 2 = .up b ∧ c.servers 3 = .up d ∧
    decide (a.sp.role = .leader ∧ d.sp.role = .leader ∧ a.sp.ls.n_leader = ⟨1, 1, 0, 1⟩ ∧ d.sp.ls.n_leader = ⟨1, 1, 0, 3⟩ ∧
      b.get_current_leader = some (3, true)) = true :=
  net_check (by decide +kernel)

end Sample

/-! ## C03 -/

/-- C03: everything `read`, `read_entries` and `read_decided_suffix` return was proposed. An entry, decided or not, was
passed to `append` on a server (and not refused); a StopSign was passed to `reconfigure` on a server (and not refused); a
snapshot was made by the user's `create` and `merge` from appended entries only. -/
theorem C03_validity (cc : ClusterConfig) (acts : List (LAction E S)) (c : Loose E S) (hr : Loose.init.run cc acts = some c)
    (i : NodeId) (op : OP E S) (h : c.servers i = .up op) (p : Nat) (v : LogEntry E S) (hv : op.Shows p v) :
    match v with
    | .decided e => Loose.Appended cc acts e
    | .undecided e => Loose.Appended cc acts e
    | .stopSign ss _ => Loose.Requested cc acts ss
    | .snapshotted _ x => BuiltFrom (Loose.Appended cc acts) x
    | .trimmed _ => True := by
  have hs := (Prov.runs hr).servers i
  rw [h] at hs
  have hi := hs.sp.ist
  have hsh : (Prov.ofRun cc acts i).shown v := hv.prov hi fun _ _ => trivial
  cases v with
  | snapshotted k x => exact hsh.1
  | _ => exact hsh

/-- C03 for `is_reconfigured`. -/
theorem C03_validity_reconfigured (cc : ClusterConfig) (acts : List (LAction E S)) (c : Loose E S)
    (hr : Loose.init.run cc acts = some c) (i : NodeId) (op : OP E S) (h : c.servers i = .up op) (ss : StopSign)
    (hs : op.is_reconfigured = some ss) : Loose.Requested cc acts ss := by
  have hp := (Prov.runs hr).servers i
  rw [h] at hp
  unfold OP.is_reconfigured SP.is_reconfigured at hs
  split at hs
  · rename_i ss' hss
    split at hs
    · cases hs; exact hp.sp.ist.stop _ hss
    · cases hs
  · cases hs

/-! ## C08 -/

/-- C08: if two servers act as leader, at the same or at different moments of a run, with ballots the code cannot tell
apart, they are the same server (and the ballots are equal). -/
theorem C08_one_leader_per_ballot (cc : ClusterConfig) (acts more : List (LAction E S)) (c c' : Loose E S)
    (hr : Loose.init.run cc acts = some c) (hr' : c.run cc more = some c') (i j : NodeId) (a b : OP E S)
    (hi : c.servers i = .up a) (hj : c'.servers j = .up b) (hl : a.sp.role = .leader) (hl' : b.sp.role = .leader)
    (hb : a.sp.ls.n_leader.cmp b.sp.ls.n_leader = .eq) : i = j ∧ a.sp.ls.n_leader = b.sp.ls.n_leader := by
  have hr2 : Loose.init.run cc (acts ++ more) = some c' := by rw [Loose.run_append cc Loose.init acts more, hr]; exact hr'
  have s1 := (Loose.server_inv hr hi).role hl
  have s2 := (Loose.server_inv hr2 hj).role hl'
  have p1 := (Prov.runs hr).servers i
  have p2 := (Prov.runs hr2).servers j
  rw [hi] at p1; rw [hj] at p2
  have e1 : a.sp.ls.n_leader.pid = i := s1.2.2.trans p1.sp.pid
  have e2 : b.sp.ls.n_leader.pid = j := s2.2.2.trans p2.sp.pid
  obtain ⟨h1, h2, h3⟩ := (Ballot.cmp_eq_iff _ _).1 hb
  have hconf : ∀ {x : Ballot} {k : NodeId} {acts' : List (LAction E S)}, (Prov.ofRun cc acts' k).bal x → ({} : Ballot) < x →
      x.config_id = cc.configuration_id := by
    rintro x k acts' (rfl | hx) hlt
    · exact absurd hlt (by decide)
    · exact hx.1
  have c1 := hconf p1.sp.lead s1.1
  have c2 := hconf p2.sp.lead s2.1
  refine ⟨by rw [← e1, ← e2, h3], ?_⟩
  exact Ballot.eq_of (c1.trans c2.symm) hb

/-- The server acts as leader with a ballot that the code cannot tell apart from `n`. -/
def Server.Leads (s : Server E S) (n : Ballot) : Prop :=
  ∃ op, s = .up op ∧ op.sp.role = .leader ∧ op.sp.ls.n_leader.cmp n = .eq

/-- C08, second half: one server starts leading a ballot at most once. In any environment (also with forged messages), once
a server that led `n` has ceased to lead `n`, by losing leadership or by a crash, it never leads `n` again, also not after
restarts. -/
theorem C08_leads_once (d : Mem E S) (hd : d.trimmed_idx = d.compacted_idx) (before mid after : List (LifeEvent E S))
    (s t u : Server E S) (n : Ballot) (hs : (Server.down d).lives before = some s) (ht : s.lives mid = some t)
    (hu : t.lives after = some u) (h1 : s.Leads n) (h2 : ¬ t.Leads n) : ¬ u.Leads n := by
  obtain ⟨op, rfl, hrole, hn⟩ := h1
  have i1 : SInv d.prom 0 (.of {}) op.clearTrail.sp :=
    Server.lives_inv (Ballot.default_le _) (LifeInv.start hd (.of {})) hs
  obtain ⟨-, hp, -⟩ := i1.role hrole
  -- from `s` on the promise and the leader's ballot are at least `n`
  have i2 : LifeInv op.sp.ls.n_leader 0 ⟨op.sp.ls.n_leader, {}, Ballot.default_le _⟩ (Server.up op) := by
    refine ⟨⟨i1.ist.mir, ?_, i1.ist.comp, by simp [OP.clearTrail]⟩, Ballot.le_refl _, i1.role, i1.acc, i1.below⟩
    rw [← i1.ist.mir.prom, ← hp]; exact Ballot.le_refl _
  have i3 := Server.lives_inv (l := ⟨op.sp.ls.n_leader, {}, Ballot.default_le _⟩) (Ballot.le_refl _) i2 ht
  -- once `t` does not lead `n`, a later leader's ballot is larger
  have i4 : LifeInv op.sp.ls.n_leader 0 (.of op.sp.ls.n_leader) t := by
    cases t with
    | down d => exact i3
    | up op' =>
      have i3 : SInv _ _ _ op'.clearTrail.sp := i3
      refine ⟨i3.ist, i3.lead, fun hl => ?_, i3.acc, i3.below⟩
      refine ⟨?_, (i3.role hl).2⟩
      have hle : op.sp.ls.n_leader ≤ op'.sp.ls.n_leader := i3.lead
      rcases Ballot.cmp_cases op.sp.ls.n_leader op'.sp.ls.n_leader with ⟨-, h⟩ | ⟨h, -⟩ | ⟨-, h⟩
      · exact h
      · refine absurd ⟨op', rfl, hl, ?_⟩ h2
        rw [Ballot.cmp_eq_iff] at h hn ⊢
        omega
      · exact absurd h ((Ballot.not_lt ..).2 hle)
  have i5 := Server.lives_inv (l := .of op.sp.ls.n_leader) (Ballot.le_refl _) i4 hu
  rintro ⟨op', rfl, hl, hn'⟩
  have i5 : SInv _ _ _ op'.clearTrail.sp := i5
  have := (i5.role hl).1
  rw [Ballot.cmp_eq_iff] at hn hn'
  have h6 : op.sp.ls.n_leader.cmp op'.sp.ls.n_leader = .lt := this
  rw [(Ballot.cmp_eq_iff ..).2 (by omega)] at h6
  cases h6

section Example
attribute [local instance] Sample.noSync
/-- Concrete case for C08_leads_once: server 1 leads ballot 1, crashes and does not lead; it then leads ballot 2. -/
example : ((Server.down ({} : Mem Nat (List Nat))).lives [.start (Sample.cfg 1), .call .tryBecomeLeader]).map
      (fun s => match s with | .up op => some (op.sp.role, op.sp.ls.n_leader) | .down _ => none) =
      some (some (.leader, ⟨1, 1, 0, 1⟩)) ∧
    ((Server.down ({} : Mem Nat (List Nat))).lives [.start (Sample.cfg 1), .call .tryBecomeLeader, .crash,
      .start (Sample.cfg 1), .call .tryBecomeLeader]).map
      (fun s => match s with | .up op => some (op.sp.role, op.sp.ls.n_leader) | .down _ => none) =
      some (some (.leader, ⟨1, 2, 0, 1⟩)) := by decide +kernel
end Example

/-! ## C37 -/

/-- C37: `get_current_leader` is `None` exactly if nothing was promised, otherwise it names the server in `get_promise`, a
member of the configuration; the accept flag is raised only if the server accepted, durably, in exactly the promised
ballot. -/
theorem C37_leader_information (cc : ClusterConfig) (acts : List (LAction E S)) (c : Loose E S)
    (hr : Loose.init.run cc acts = some c) (i : NodeId) (op : OP E S) (h : c.servers i = .up op) :
    (op.get_current_leader = none ↔ op.get_promise = {}) ∧
    (∀ p f, op.get_current_leader = some (p, f) → p = op.get_promise.pid ∧ p ∈ cc.nodes) ∧
    (∀ p, op.get_current_leader = some (p, true) → op.sp.ist.storage.accepted = op.get_promise) := by
  have s1 := Loose.server_inv hr h
  have p1 := (Prov.runs hr).servers i
  rw [h] at p1
  have hb := p1.sp.ist.cprom
  have ha := p1.sp.ist.cacc
  unfold OP.get_current_leader OP.get_promise SP.get_promise
  simp only
  refine ⟨?_, fun p f hp => ?_, fun p hp => ?_⟩
  · rcases hb with hb | hb
    · simp [hb]
    · simp only [if_neg hb.2.2, reduceCtorEq, false_iff]
      intro h0; rw [h0] at hb; exact hb.2.2 rfl
  · split at hp
    · cases hp
    · rename_i h0
      simp only [Option.some.injEq, Prod.mk.injEq] at hp
      rcases hb with hb | hb
      · rw [hb] at h0; exact absurd rfl h0
      · exact ⟨hp.1.symm, hp.1 ▸ hb.2.1⟩
  · split at hp
    · cases hp
    · rename_i h0
      simp only [Option.some.injEq, Prod.mk.injEq, decide_eq_true_eq] at hp
      have hc := s1.acc hp.2
      have hm := s1.ist.mir.acc
      rcases hb with hb | hb
      · rw [hb] at h0; exact absurd rfl h0
      obtain ⟨c1, c2, c3⟩ := (Ballot.cmp_eq_iff _ _).1 hc
      rcases ha with ha | ha
      · exfalso; apply hb.2.2
        have : op.sp.ist.cache.promise.pid = op.sp.ist.cache.accepted_round.pid := c3
        rw [this, ha]
      · have hst : op.sp.ist.storage.accepted = op.sp.ist.cache.accepted_round := hm.symm
        rw [hst]
        exact (Ballot.eq_of (hb.1.trans ha.1.symm) hc).symm

/-- C37, follower: the accept flag on a server that is not itself the leader it names means that the leader of exactly the
promised ballot sent it an AcceptSync of that ballot (which it has handled, by the theorem above). -/
theorem C37_synchronised_with_leader (cc : ClusterConfig) (acts : List (LAction E S)) (c : Loose E S)
    (hr : Loose.init.run cc acts = some c) (i : NodeId) (op : OP E S) (h : c.servers i = .up op) (p : NodeId)
    (hp : op.get_current_leader = some (p, true)) (hi : p ≠ i) :
    ∃ a : AcceptSync E S, a.n = op.get_promise ∧ .paxos { src := p, dst := i, msg := .acceptSync a } ∈ c.sent := by
  unfold OP.get_current_leader at hp
  simp only at hp
  split at hp
  · cases hp
  · simp only [Option.some.injEq, Prod.mk.injEq, decide_eq_true_eq] at hp
    have hq := ((QRun.runs hr).srv i op h).2
    cases hrole : op.sp.role with
    | leader =>
      have h0 : op.sp.ist.cache.promise.pid = i := by rw [← (hq.lead hrole).1]; exact (hq.lead hrole).2
      exact absurd (hp.1.symm.trans h0) hi
    | follower =>
      obtain ⟨-, a, ha, hs⟩ := hq.acc hrole hp.2
      exact ⟨a, ha, hp.1 ▸ hs⟩

/-! ## C31 -/

/-- C31: a leader in accept phase of ballot `n` has a prepare quorum of distinct servers that promised `n` or more, and each
of them, other than the leader itself, sent it a Promise for `n`, the message that reports the sender's accepted round,
index and log. -/
theorem C31_prepare_quorum (cc : ClusterConfig) (hn : cc.nodes.Nodup) (acts : List (LAction E S)) (c : Loose E S)
    (hr : Loose.init.run cc acts = some c) (i : NodeId) (op : OP E S) (h : c.servers i = .up op)
    (hl : op.sp.role = .leader) (hp : op.sp.phase = .accept) :
    ∃ Q, PrepareQuorum cc Q ∧ ∀ j ∈ Q, op.sp.ls.n_leader ≤ (c.servers j).promise ∧
      (j = i ∨ ∃ p : Promise E S, p.n = op.sp.ls.n_leader ∧ .paxos { src := j, dst := i, msg := .promise p } ∈ c.sent) := by
  have hq := QRun.runs hr
  obtain ⟨hi, h1⟩ := hq.srv i op h
  obtain ⟨Q, q1, q2, q3⟩ := h1.quorum hl hp
  refine ⟨Q, ⟨q1, fun j hj => ?_, ?_⟩, fun j hj => ⟨?_, q3 j hj⟩⟩
  · rcases q3 j hj with rfl | ⟨p, -, hm⟩
    · exact hi
    · exact hq.src _ hm
  · exact prepare_size hn hi q2
  · rcases q3 j hj with rfl | ⟨p, e, hm⟩
    · rw [(h1.lead hl).1]
      rw [h]; exact Ballot.le_refl _
    · rw [← e]; exact hq.prom hm rfl

/-! ## C32 -/

/-- C32, the part that holds on an arbitrary network: when a leader in accept phase changes its decided index, it raises it, to
an index `k` for which it was sent acknowledgements (Accepted messages of its ballot with index at least `k`) by the members,
other than itself, of an accept quorum of distinct servers. (Full claim: they have persisted the leader's first `k` positions.
That is proved for tidy runs in C32_decided_on_quorum_partial, and false in general.) -/
theorem C32_decided_acknowledged_partial (cc : ClusterConfig) (hn : cc.nodes.Nodup) (acts : List (LAction E S)) (c c' : Loose E S)
    (a : LAction E S) (hr : Loose.init.run cc acts = some c) (hs : c.step cc a = some c') (i : NodeId) (op op' : OP E S)
    (h : c.servers i = .up op) (h' : c'.servers i = .up op') (hl : op.sp.role = .leader) (hp : op.sp.phase = .accept)
    (hd : op'.get_decided_idx ≠ op.get_decided_idx) :
    op.get_decided_idx < op'.get_decided_idx ∧
    ∃ W, AcceptQuorum cc W ∧ ∀ j ∈ W, j = i ∨ ∃ x : Accepted, x.n = op.sp.ls.n_leader ∧ op'.get_decided_idx ≤ x.accepted_idx ∧
      .paxos { src := j, dst := i, msg := .accepted x } ∈ c.sent := by
  have hq := QRun.runs hr
  have hi := (hq.srv i op h).1
  -- the only steps of a running server that change it: calls, deliveries, take
  have key : ∀ call : Call E S, (∀ m, call = .handleIncoming m → m ∈ c.sent ∧ m.dst = i) → op.callResult call = .up op' →
      op.get_decided_idx < op'.get_decided_idx ∧
      ∃ W, AcceptQuorum cc W ∧ ∀ j ∈ W, j = i ∨ ∃ x : Accepted, x.n = op.sp.ls.n_leader ∧ op'.get_decided_idx ≤ x.accepted_idx ∧
        .paxos { src := j, dst := i, msg := .accepted x } ∈ c.sent := by
    intro call hc ho
    rcases QRun.decided hr h hl hp hc ho with e | ⟨hlt, W, w1, w2, w3⟩
    · exact absurd e hd
    · refine ⟨hlt, W, ⟨w1, fun j hj => ?_, accept_size hn hi w2⟩, fun j hj => ?_⟩
      · rcases w3 j hj with rfl | ⟨k, -, x, -, -, hm⟩
        · exact hi
        · exact hq.src _ hm
      · rcases w3 j hj with e | ⟨k, hk, x, e1, e2, hm⟩
        · exact .inl e
        · exact .inr ⟨x, e1, e2 ▸ hk, hm⟩
  have on : ∀ {j : NodeId} {s : Server E S}, c' = c.setServer j s → j = i ∧ s = .up op' := by
    intro j s e
    by_cases hj : j = i
    · subst hj
      rw [e, Loose.setServer_same] at h'
      exact ⟨rfl, h'⟩
    · rw [e, Loose.setServer_ne c (Ne.symm hj), h] at h'
      cases h'; exact absurd rfl hd
  cases a with
  | start j cfg =>
    simp only [Loose.step] at hs
    split at hs
    · cases hs
    · rename_i d hdn
      split at hs
      · split at hs
        · cases hs
          obtain ⟨e, -⟩ := on rfl
          rw [e, h] at hdn; cases hdn
        · cases hs
      · cases hs
  | crash j =>
    simp only [Loose.step] at hs
    split at hs
    · cases hs; obtain ⟨-, e⟩ := on rfl; cases e
    · cases hs
  | call j call =>
    simp only [Loose.step] at hs
    split at hs
    · rename_i op1 hu
      split at hs
      · cases hs
      · rename_i hc
        cases hs
        obtain ⟨rfl, e⟩ := on rfl
        rw [h] at hu; cases hu
        exact key call (fun m e' => by rw [e'] at hc; simp [Call.isIncoming] at hc) e
    · cases hs
  | crashCall j call k =>
    simp only [Loose.step] at hs
    split at hs
    · split at hs
      · cases hs
      · split at hs
        · cases hs; obtain ⟨-, e⟩ := on rfl; cases e
        · cases hs
    · cases hs
  | take j =>
    simp only [Loose.step] at hs
    split at hs
    · rename_i op1 hu
      cases hs
      simp only at h'
      split at h'
      · rename_i e; subst e
        rw [h] at hu; cases hu
        cases h'
        exact absurd rfl hd
      · rw [h] at h'; cases h'; exact absurd rfl hd
    · cases hs
  | deliver n =>
    simp only [Loose.step] at hs
    split at hs
    · cases hs
    · rename_i m hm
      split at hs
      · cases hs
      · rename_i op1 hu
        cases hs
        obtain ⟨e1, e⟩ := on rfl
        rw [e1, h] at hu; cases hu
        exact key (.handleIncoming m) (fun m' e' => by cases e'; exact ⟨List.mem_of_getElem? hm, e1⟩) e
  | crashDeliver n k =>
    simp only [Loose.step] at hs
    split at hs
    · cases hs
    · split at hs
      · cases hs
      · split at hs
        · cases hs; obtain ⟨-, e⟩ := on rfl; cases e
        · cases hs

section Sample
attribute [local instance] Sample.noSync
open Sample

/-- Concrete case for C31, C32 and C37: after 15 actions of `netRun` server 1 leads in accept phase and has decided nothing; the
16th action, the delivery of the Accepted of server 2, raises its decided index to 2. Server 2 has the accept flag. -/
example : ∃ c a b d, Loose.init.run cc (netRun.take 15) = some c ∧ c.servers 1 = .up a ∧ c.servers 2 = .up b ∧
    c.servers 3 = .up d ∧
    decide (a.sp.role = .leader ∧ a.sp.phase = .accept ∧ a.get_decided_idx = 0 ∧ b.get_current_leader = some (1, true)) = true :=
  net_check (by decide +kernel)
example : ∃ c a b d, Loose.init.run cc (netRun.take 16) = some c ∧ c.servers 1 = .up a ∧ c.servers 2 = .up b ∧
    c.servers 3 = .up d ∧ decide (a.get_decided_idx = 2) = true :=
  net_check (by decide +kernel)

end Sample

end Omni
