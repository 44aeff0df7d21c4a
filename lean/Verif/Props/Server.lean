import Verif.Proof.LifeInv
import Verif.Proof.Read
import Verif.Props.Compaction
import Verif.Spec.Sample
/-
Properties of one server over its whole life, in an arbitrary environment (any calls, any messages, forged ones included,
crashes at every durable write, restarts with any configuration): C07, C11, C34, C35 (monotone part), C36, C37.
-/
namespace Omni

variable {E S : Type} [SnapOps E S]

/-! ## C07 -/

/-- C07: over any stretch of a server's life, with crashes at any durable write and restarts, the promise does not
decrease. The life starts from any storage whose two compaction indexes agree (an empty one does; the server keeps it so). -/
theorem C07_promise_monotone (d : Mem E S) (hd : d.trimmed_idx = d.compacted_idx) (before after : List (LifeEvent E S))
    (s t : Server E S) (hs : (Server.down d).lives before = some s) (ht : s.lives after = some t) :
    s.promise ≤ t.promise := by
  have h1 := Server.lives_inv (Ballot.default_le _) (LifeInv.start hd (.of {})) hs
  exact (Server.lives_inv (Ballot.default_le _) h1.rebase ht).bounds.1

section Example
attribute [local instance] Sample.noSync
/-- A life with two elections, a crash in the middle of the second one, and a restart. -/
example : ((Server.down ({} : Mem Nat (List Nat))).lives
      [.start (Sample.cfg 1), .call .tryBecomeLeader, .call (.append 7), .crashCall .tryBecomeLeader 0,
       .start (Sample.cfg 1)]).map (·.promise) = some ⟨1, 2, 0, 1⟩ := by decide +kernel
end Example

/-! ## C11 -/

omit [SnapOps E S] in
/-- C11: a server built from any storage `d` holds exactly what `d` holds and its getters say so; it is a follower outside
the accept phase with nothing batched or buffered; if `d` holds a promise it asks every peer for a Prepare. (The one
difference on disk: an absent promise is written down as the default ballot.) -/
theorem C11_recovery (cfg : OmniPaxosConfig) (d : Mem E S) (op : OP E S) (hb : OP.build cfg d = some (.ok op)) :
    op.sp.ist.storage = { d with n_prom := some (d.n_prom.getD {}) } ∧
    op.get_promise = d.n_prom.getD {} ∧
    op.sp.ist.cache.accepted_round = d.acc_round.getD {} ∧
    op.get_decided_idx = d.ld ∧
    op.get_compacted_idx = d.compacted_idx ∧
    op.sp.ist.cache.stopsign = d.stopsign ∧
    op.sp.ist.cache.accepted_idx = d.len ∧
    op.sp.ist.cache.batched_entries = [] ∧ op.sp.buffered_proposals = [] ∧ op.sp.buffered_stopsign = none ∧
    op.sp.role = .follower ∧ op.sp.phase ≠ .accept ∧
    (∀ b, d.n_prom = some b → op.sp.phase = .recover ∧
      op.sp.outgoing = (cfg.cluster_config.nodes.filter fun p => p ≠ cfg.server_config.pid).map fun p =>
        { src := cfg.server_config.pid, dst := p, msg := .prepareReq b }) := by
  obtain ⟨mp, -, rfl⟩ := OP.build_eq hb
  refine ⟨rfl, rfl, rfl, rfl, rfl, rfl, ?_, rfl, rfl, rfl, rfl, ?_, ?_⟩
  · simp only [Mem.len]; omega
  · simp only; split <;> simp
  · rintro b hb
    simp only [hb, Option.isSome_some, if_true, true_and]
    rfl

omit [SnapOps E S] in
/-- C11, reads: after the restart every read of a position, and every read of a non-empty range inside the log, shows the
storage left by the crash. -/
theorem C11_reads (cfg : OmniPaxosConfig) (d : Mem E S) (op : OP E S) (hb : OP.build cfg d = some (.ok op))
    (hd : d.trimmed_idx = d.compacted_idx) (hld : d.ld ≤ d.len) :
    (∀ i, op.read i = some (d.view i)) ∧
    (∀ a b, a < b → b ≤ d.len → op.read_entries (.included a) (.excluded b) = some (some (d.viewRange a b))) := by
  obtain ⟨mp, -, rfl⟩ := OP.build_eq hb
  let d' : Mem E S := { d with n_prom := some (d.n_prom.getD {}) }
  have hv : d'.view = d.view := rfl
  have hr : d'.viewRange = d.viewRange := rfl
  have hl : d'.len = d.len := rfl
  generalize hop : (OP.mk _ _ _ _ _ : OP E S) = op
  have hok : ReadOK op.sp.ist := by
    subst hop
    refine ⟨rfl, hd, rfl, rfl, ?_, ?_⟩
    · show d.log.length + d.compacted_idx + (if d.stopsign.isSome then 1 else 0) = d.len; unfold Mem.len; omega
    · show d.ld ≤ d.log.length + d.compacted_idx + (if d.stopsign.isSome then 1 else 0); unfold Mem.len at hld; omega
  have hst : op.sp.ist.storage = d' := by subst hop; rfl
  have hrange : ∀ a b, a < b → b ≤ d.len →
      op.sp.ist.read (.included a) (.excluded b) = some (some (d.viewRange a b)) := fun a b hab hb => by
    have := IStore.read_spec hok (lo := .included a) (hi := .excluded b) rfl rfl hab (by rw [hst]; exact hb)
    rwa [hst] at this
  refine ⟨fun i => ?_, hrange⟩
  unfold OP.read
  by_cases hi : i < d.len
  · rw [hrange i (i + 1) (by omega) (by omega)]
    simp only [Mem.viewRange_one d i hi]
  · rw [IStore.read_beyond hok (hi := .excluded (i + 1)) (b := i + 1) rfl (by rw [hst]; show d.len < i + 1; omega)]
    simp only [Mem.view_beyond d i (by omega)]

/-- C11, between calls: in every life of a server, what its getters tell between two calls is on its disk. A crash then and a
restart, with whatever configuration, change none of it; reads of positions show the same before and after (for a server
that counts its log correctly, see C17). -/
theorem C11_nothing_lost (d : Mem E S) (hd : d.trimmed_idx = d.compacted_idx) (es : List (LifeEvent E S)) (op op' : OP E S)
    (h : (Server.down d).lives es = some (.up op)) (cfg : OmniPaxosConfig)
    (hc : (Server.up op).lives [.crash, .start cfg] = some (.up op')) :
    op'.get_promise = op.get_promise ∧ op'.sp.ist.cache.accepted_round = op.sp.ist.cache.accepted_round ∧
    op'.get_decided_idx = op.get_decided_idx ∧ op'.get_compacted_idx = op.get_compacted_idx ∧
    op'.sp.accepted_reconfiguration = op.sp.accepted_reconfiguration ∧
    (op.Consistent → op'.is_reconfigured = op.is_reconfigured ∧ ∀ i, op'.read i = op.read i) := by
  have hi : SInv d.prom 0 (.of {}) op.clearTrail.sp := Server.lives_inv (Ballot.default_le _) (LifeInv.start hd (.of {})) h
  have hm := hi.ist.mir
  have hb : OP.build cfg op.sp.ist.storage = some (.ok op') := by
    simp only [Server.lives, Server.life] at hc
    split at hc
    · cases hc
    · rename_i t ht
      split at ht
      · rename_i o ho
        simp only [Option.some.injEq, Server.up.injEq] at ht hc
        subst ht
        rw [ho]
        simpa using hc
      · cases ht
  obtain ⟨h1, h2, h3, h4, h5, h6, h7, -⟩ := C11_recovery cfg _ _ hb
  have e1 : op'.sp.ist.cache.stopsign = op.sp.ist.cache.stopsign := h6.trans hm.ss.symm
  have e2 : op'.sp.ist.cache.decided_idx = op.sp.ist.cache.decided_idx := h4.trans hm.dec.symm
  refine ⟨h2.trans hm.prom.symm, h3.trans hm.acc.symm, e2, h5.trans hm.comp.symm, ?_, fun hcon => ⟨?_, fun i => ?_⟩⟩
  · show op'.sp.ist.cache.stopsign.isSome = _
    rw [e1]; rfl
  · have e3 : op'.sp.ist.cache.accepted_idx = op.sp.ist.cache.accepted_idx := h7.trans hcon.accepted.symm
    simp only [OP.is_reconfigured, SP.is_reconfigured, StateCache.stopsign_is_decided, e1, e2, e3]; rfl
  · rw [(C11_reads cfg _ _ hb hcon.trimmed hcon.bound).1 i, C17_read op hcon i]
    rfl

section Example
attribute [local instance] Sample.noSync
/-- A leader of three that has accepted two entries and crashes: what its getters and reads tell before and after. -/
example : ∃ op op' : OP Nat (List Nat),
    (Server.down {}).lives [.start (Sample.cfg 1), .call .tryBecomeLeader,
      .call (.handleIncoming (.paxos ⟨2, 1, .promise { n := ⟨1, 1, 0, 1⟩, n_accepted := {}, decided_idx := 0, accepted_idx := 0, log_sync := none }⟩)),
      .call (.append 7), .call (.append 8)] = some (.up op) ∧
    (Server.up op).lives [.crash, .start (Sample.cfg 1)] = some (.up op') ∧ op.Consistent ∧ op.sp.role = .leader ∧
    op'.sp.role = .follower ∧ op'.read 1 = some (some (.undecided 8)) := by
  have h : (match (Server.down ({} : Mem Nat (List Nat))).lives [.start (Sample.cfg 1), .call .tryBecomeLeader,
      .call (.handleIncoming (.paxos ⟨2, 1, .promise { n := ⟨1, 1, 0, 1⟩, n_accepted := {}, decided_idx := 0, accepted_idx := 0, log_sync := none }⟩)),
      .call (.append 7), .call (.append 8)] with
    | some (.up op) => match (Server.up op).lives [.crash, .start (Sample.cfg 1)] with
      | some (.up op') => decide ((op.sp.ist.cache.compacted_idx = op.sp.ist.storage.compacted_idx ∧
          op.sp.ist.storage.trimmed_idx = op.sp.ist.storage.compacted_idx ∧
          op.sp.ist.cache.decided_idx = op.sp.ist.storage.ld ∧ op.sp.ist.cache.stopsign = op.sp.ist.storage.stopsign ∧
          op.sp.ist.cache.accepted_idx = op.sp.ist.storage.len ∧ op.sp.ist.storage.ld ≤ op.sp.ist.storage.len) ∧
          op.sp.role = .leader ∧ op'.sp.role = .follower ∧ op'.read 1 = some (some (.undecided 8)))
      | _ => false
    | _ => false) = true := by decide +kernel
  split at h
  · rename_i op hop
    split at h
    · rename_i op' hop'
      obtain ⟨⟨a, b, c, d, e, f⟩, g⟩ := of_decide_eq_true h
      exact ⟨op, op', hop, hop', ⟨a, b, c, d, e, f⟩, g⟩
    · cases h
  · cases h
end Example

/-- A storage with two trimmed positions, two entries, a StopSign, three decided positions; and what reads show. -/
example : (Sample.start 2 Sample.disk).map
      (fun op => [op.read 0, op.read 2, op.read 3, op.read 4, op.read 5]) =
    some [some (some (.trimmed 2)), some (some (.decided 30)), some (some (.undecided 40)),
      some (some (.stopSign ⟨Sample.cc, none⟩ false)), some none] := by decide +kernel
example : (Sample.start 2 Sample.disk).map (fun op => (op.get_promise, op.sp.outgoing.map (·.dst))) =
    some (⟨1, 4, 0, 3⟩, [1, 3]) := by decide +kernel

/-! ## C34 -/

/-- C34: in every continuation of a (re)start from a storage, crashes and further restarts included, a server that acts as
leader leads a ballot strictly larger than the promise stored before; that ballot is its own promise and carries its pid. -/
theorem C34_no_resumed_leadership (d : Mem E S) (hd : d.trimmed_idx = d.compacted_idx) (es : List (LifeEvent E S))
    (op : OP E S) (h : (Server.down d).lives es = some (.up op)) (hl : op.sp.role = .leader) :
    d.n_prom.getD {} < op.sp.ls.n_leader ∧ op.sp.ls.n_leader = op.get_promise ∧ op.sp.ls.n_leader.pid = op.sp.pid := by
  have h1 : SInv d.prom 0 (.of d.prom) op.clearTrail.sp :=
    Server.lives_inv (l := .of d.prom) (b := d.prom) (Ballot.le_refl d.prom) (LifeInv.start hd (.of d.prom)) h
  exact h1.role hl

section Example
attribute [local instance] Sample.noSync
/-- Server 1 led ballot 4 before the crash; restarted, it leads again only with ballot 5. -/
example : ((Server.down ({ n_prom := some ⟨1, 4, 0, 1⟩ } : Mem Nat (List Nat))).lives
      [.start (Sample.cfg 1), .call .tryBecomeLeader]).map
      (fun s => match s with | .up op => some (op.sp.role, op.sp.ls.n_leader.n) | .down _ => none) =
    some (some (.leader, 5)) := by decide +kernel
end Example

/-! ## C35, monotonicity -/

/-- C35 (full claim: "get_compacted_idx() never decreases on a running server and never exceeds get_decided_idx()"). Proved:
it never decreases, not even across crashes and restarts. The second half is false, see Props/Witness.lean. -/
theorem C35_compacted_monotone_partial (d : Mem E S) (hd : d.trimmed_idx = d.compacted_idx)
    (before after : List (LifeEvent E S)) (s t : Server E S) (hs : (Server.down d).lives before = some s)
    (ht : s.lives after = some t) : s.compacted ≤ t.compacted := by
  have h1 := Server.lives_inv (Ballot.default_le _) (LifeInv.start hd (.of {})) hs
  exact (Server.lives_inv (Ballot.default_le _) h1.rebase ht).bounds.2

section Example
attribute [local instance] Sample.noSync
/-- A snapshot of two of three decided entries, then a crash. -/
example : ((Server.down ({ log := [5, 6, 7], ld := 3 } : Mem Nat (List Nat))).lives
      [.start (Sample.cfg 1), .call (.snapshot (some 2) true), .crash]).map (·.compacted) = some 2 := by decide +kernel
end Example

/-! ## C36 -/

/-- C36 (full claim: "read, read_entries and read_decided_suffix return a value for every argument in every state").
Proved for `read` and `read_decided_suffix` with every argument and for `read_entries` with every non-empty range (starting
and ending anywhere), in every state of a life. Empty and inverted ranges can panic, see `C36_false_empty_range`. -/
theorem C36_reads_return_partial (d : Mem E S) (hd : d.trimmed_idx = d.compacted_idx) (es : List (LifeEvent E S))
    (op : OP E S) (h : (Server.down d).lives es = some (.up op)) :
    (∀ i, op.read i ≠ none) ∧ (∀ i, op.read_decided_suffix i ≠ none) ∧
    (∀ lo hi, lo.first < hi.last op.sp.ist.cache.accepted_idx → op.read_entries lo hi ≠ none) := by
  have h1 : SInv d.prom 0 (.of {}) op.clearTrail.sp :=
    Server.lives_inv (Ballot.default_le _) (LifeInv.start hd (.of {})) h
  have hm : Mirror op.sp.ist := ⟨h1.ist.mir.prom, h1.ist.mir.acc, h1.ist.mir.dec, h1.ist.mir.comp, h1.ist.mir.trim,
    h1.ist.mir.ss⟩
  refine ⟨fun i hn => ?_, fun i hn => ?_, fun lo hi hlt hn => ?_⟩
  · unfold OP.read at hn
    split at hn
    · exact IStore.read_returns hm (lo := .included i) (hi := .excluded (i + 1)) (by simp [IStore.startIdx, IStore.endIdx])
        (by assumption)
    · simp at hn
    · simp at hn
  · unfold OP.read_decided_suffix IStore.read_decided_suffix at hn
    split at hn
    · exact IStore.read_returns hm (by simpa [IStore.startIdx, IStore.endIdx]) hn
    · simp at hn
  · refine IStore.read_returns hm (lo := lo) (hi := hi) ?_ hn
    cases lo <;> cases hi <;> exact hlt

/-- Reading the empty range at a StopSign behind an entry panics (`unimplemented!`). -/
theorem C36_false_empty_range : ∃ (d : Mem Nat (List Nat)) (op : OP Nat (List Nat)),
    d.trimmed_idx = d.compacted_idx ∧ d.ld ≤ d.len ∧ OP.build (Sample.cfg 1) d = some (.ok op) ∧
    op.read_entries (.included 1) (.excluded 1) = none := by
  refine ⟨{ log := [5], stopsign := some ⟨Sample.cc, none⟩ }, ?_⟩
  have h : ((Sample.start 1 { log := [5], stopsign := some ⟨Sample.cc, none⟩ }).map
      fun op => op.read_entries (.included 1) (.excluded 1)) = some none := by decide +kernel
  unfold Sample.start at h
  split at h
  · rename_i op hop
    exact ⟨op, rfl, by decide, hop, by simpa using h⟩
  · simp at h

/-! ## C37 -/

/-- C37 in an arbitrary environment: `get_current_leader` names the server in `get_promise` and is `None` exactly if that
is no server; the accept flag is raised only on a server whose accepted round is the promised ballot (up to the
configuration id, which the code does not compare when a message arrives). The claim inside a cluster is
`C37_leader_information`. -/
theorem C37_leader_information_partial (d : Mem E S) (hd : d.trimmed_idx = d.compacted_idx) (es : List (LifeEvent E S))
    (op : OP E S) (h : (Server.down d).lives es = some (.up op)) :
    (op.get_current_leader = none ↔ op.get_promise.pid = 0) ∧
    (∀ p f, op.get_current_leader = some (p, f) → p = op.get_promise.pid) ∧
    (∀ p, op.get_current_leader = some (p, true) → op.get_promise.cmp op.sp.ist.cache.accepted_round = .eq) := by
  have h1 : SInv d.prom 0 (.of {}) op.clearTrail.sp :=
    Server.lives_inv (Ballot.default_le _) (LifeInv.start hd (.of {})) h
  unfold OP.get_current_leader OP.get_promise
  simp only
  refine ⟨by split <;> simp_all, fun p f hp => ?_, fun p hp => ?_⟩
  · split at hp <;> simp at hp; exact hp.1.symm
  · split at hp <;> simp at hp
    exact h1.acc hp.2

end Omni
