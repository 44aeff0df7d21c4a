import Verif.Proof.LeaderKeep
import Verif.Props.Compaction
import Verif.Props.Network
import Verif.Props.Witness
import Verif.Proof.Embed
/-
C39, C44: servers stay up. C40: trim succeeds on what all servers have decided.
-/
namespace Omni

variable {E S : Type}

/-! ## C39

False of the code: see C39_false_prepare_after_trim in Props/Witness.lean. It holds, on an arbitrary network and with crashes at
any point, while nobody calls `trim` or `snapshot` and snapshots are not used for log synchronisation. With them, the only
messages that can bring a server down are those about log synchronisation, and only where the receiver has cut off the part of the
log that they are about. Missing, because false: the other cases. All of this needs that no server has pid 0
(C44_false_node_zero). -/

/-- C39: a running server that receives any message that was ever sent, to it or to another server, once more or for the
first time, handles it and keeps running. -/
theorem C39_no_panic_without_compaction_partial [SnapOps E S] (hu : SnapOps.use_snapshots E S = false) (cc : ClusterConfig)
    (h0 : 0 ∉ cc.nodes) (acts : List (LAction E S)) (ha : ∀ a ∈ acts, a.Only Call.NoCompaction) (c : Loose E S)
    (hr : Loose.init.run cc acts = some c) (i : NodeId) (op : OP E S) (h : c.servers i = .up op) (m : Message E S)
    (hm : m ∈ c.sent) : ∃ op', op.callResult (.handleIncoming m) = .up op' :=
  Loose.no_panic hu h0 ha hr h trivial fun _ e => by cases e; exact hm

/-- C39 in all runs, with trim and snapshots. If the snapshot type can create and merge snapshots, and handling a message brings
a server down, then
* the message is a Prepare from a server whose decided or accepted index lies in what the receiver has compacted (and if
  snapshots are used for log synchronisation, the receiver moreover has decided no more than it has compacted), or
* it is an AcceptSync that begins in what the receiver has compacted, or one with a delta snapshot while the receiver has
  compacted up to the leader's decided index or beyond, or
* it is a Promise, and the receiver has compacted something or received a snapshot in a promise. -/
theorem C39_panics_partial [SnapOps E S] (ht : SnapTotal E S) (cc : ClusterConfig) (h0 : 0 ∉ cc.nodes) (acts : List (LAction E S))
    (c : Loose E S) (hr : Loose.init.run cc acts = some c) (i : NodeId) (op : OP E S) (h : c.servers i = .up op) (m : Message E S)
    (hm : m ∈ c.sent) (d : Mem E S) (hd : op.callResult (.handleIncoming m) = .down d) :
    ∃ pm : PaxosMessage E S, m = .paxos pm ∧
      ((∃ p, pm.msg = .prepare p ∧ (p.decided_idx < op.get_compacted_idx ∨ p.accepted_idx < op.get_compacted_idx) ∧
          (SnapOps.use_snapshots E S = true → op.get_decided_idx ≤ op.get_compacted_idx)) ∨
       (∃ a, pm.msg = .acceptSync a ∧ (a.log_sync.sync_idx < op.get_compacted_idx ∨
          ∃ x, a.log_sync.decided_snapshot = some (.delta x) ∧ a.decided_idx ≤ op.get_compacted_idx ∧ 0 < op.get_compacted_idx)) ∨
       (∃ p, pm.msg = .promise p ∧ (0 < op.get_compacted_idx ∨
          ∃ y, (p.log_sync = some y ∨ op.sp.ls.max_promise_sync = some y) ∧ y.decided_snapshot.isSome = true))) := by
  have hf : op.Fails (.handleIncoming m) := by
    apply Classical.byContradiction
    intro hn
    obtain ⟨op', e⟩ := Loose.fails h0 hr h (fun _ e => by cases e; exact hm) hn
    rw [e] at hd; cases hd
  cases m with
  | ble b => exact hf.elim
  | paxos pm =>
    refine ⟨pm, rfl, ?_⟩
    have hf : SP.Fails op.sp pm.msg := hf
    cases e : pm.msg with
    | prepare p =>
      rw [e] at hf
      rcases hf with ⟨-, hf⟩ | hf
      · exact absurd ht hf
      · exact .inl ⟨p, rfl, hf⟩
    | acceptSync a =>
      rw [e] at hf
      refine .inr (.inl ⟨a, rfl, ?_⟩)
      rcases hf with hf | ⟨x, hx, hf | hf⟩
      · exact .inl hf
      · exact absurd ht hf
      · exact .inr ⟨x, hx, hf⟩
    | promise p =>
      rw [e] at hf
      refine .inr (.inr ⟨p, rfl, ?_⟩)
      rcases hf with ((⟨-, hf⟩ | hf) | ⟨y, hy, hs⟩) | ⟨y, hy, hs⟩
      · exact absurd ht hf
      · exact .inl (Nat.pos_of_ne_zero hf)
      · exact .inr ⟨y, .inr hy, hs⟩
      · exact .inr ⟨y, .inl hy, hs⟩
    | compaction c =>
      rw [e] at hf
      cases c with
      | trim _ => exact hf.elim
      | snapshot _ => exact absurd ht hf
    | _ => rw [e] at hf; exact hf.elim

/-- Exactly when a Prepare brings a server down, without snapshots in log synchronisation: it is for a ballot the server promises,
and the server has newer or more entries, from an index on that lies in what it has compacted. -/
theorem C39_prepare_panics_iff [SnapOps E S] (hu : SnapOps.use_snapshots E S = false) (cc : ClusterConfig) (h0 : 0 ∉ cc.nodes)
    (acts : List (LAction E S)) (c : Loose E S) (hr : Loose.init.run cc acts = some c) (i : NodeId) (op : OP E S)
    (h : c.servers i = .up op) (j k : NodeId) (p : Prepare) :
    (∃ d, op.callResult (.handleIncoming (.paxos { src := j, dst := k, msg := .prepare p })) = .down d) ↔
      (op.get_promise < p.n ∨ op.get_promise = p.n ∧ op.sp.phase = .recover) ∧
      (p.n_accepted < op.sp.ist.cache.accepted_round ∧ p.decided_idx < op.get_compacted_idx ∨
        op.sp.ist.cache.accepted_round = p.n_accepted ∧
        p.accepted_idx < op.sp.ist.cache.accepted_idx + op.sp.ist.cache.batched_entries.length ∧
        p.accepted_idx < op.get_compacted_idx) := by
  obtain ⟨N, hN⟩ := NodesIn.exists h0
  have hI := ((HI.runs_any hN hr).up i op h).clear
  have hs := SP.prepare_iff hI hu p j
  replace hs : M.Sat (Call.run (.handleIncoming (.paxos { src := j, dst := k, msg := .prepare p }))) op.clearTrail
      (fun _ _ => ¬ _) (fun _ => _) := (OP.sat_onSP _ _ _ _).2 hs
  unfold OP.callResult
  unfold M.Sat at hs
  split at hs
  · rename_i e
    rw [e]
    exact ⟨fun ⟨_, e⟩ => (by cases e), fun hC => absurd hC hs⟩
  · rename_i e
    rw [e]
    exact ⟨fun _ => hs, fun _ => ⟨_, rfl⟩⟩

/-- Exactly when an AcceptSync without a snapshot brings a server down: the server waits for it, and it begins in what the server
has compacted. -/
theorem C39_acceptsync_panics_iff [SnapOps E S] (cc : ClusterConfig) (h0 : 0 ∉ cc.nodes)
    (acts : List (LAction E S)) (c : Loose E S) (hr : Loose.init.run cc acts = some c) (i : NodeId) (op : OP E S)
    (h : c.servers i = .up op) (j k : NodeId) (a : AcceptSync E S) (ha : a.log_sync.decided_snapshot = none) :
    (∃ d, op.callResult (.handleIncoming (.paxos { src := j, dst := k, msg := .acceptSync a })) = .down d) ↔
      (op.get_promise ≤ a.n ∧ a.n ≤ op.get_promise) ∧ op.sp.role = .follower ∧ op.sp.phase = .prepare ∧
      a.log_sync.sync_idx < op.get_compacted_idx := by
  obtain ⟨N, hN⟩ := NodesIn.exists h0
  have hI := ((HI.runs_any hN hr).up i op h).clear
  have hs := SP.acceptsync_iff hI ha j
  replace hs : M.Sat (Call.run (.handleIncoming (.paxos { src := j, dst := k, msg := .acceptSync a }))) op.clearTrail
      (fun _ _ => ¬ _) (fun _ => _) := (OP.sat_onSP _ _ _ _).2 hs
  unfold OP.callResult
  unfold M.Sat at hs
  split at hs
  · rename_i e
    rw [e]
    exact ⟨fun ⟨_, e⟩ => (by cases e), fun hC => absurd hC hs⟩
  · rename_i e
    rw [e]
    exact ⟨fun _ => hs, fun _ => ⟨_, rfl⟩⟩

/-! ## C44

False of the code for a cluster with pid 0: see C44_false_node_zero in Props/Witness.lean. Missing: such clusters. -/

/-- C44: in all runs, with compaction and snapshots, on an arbitrary network and with crashes at any point, every call returns:
tick, append, reconfigure, try_become_leader, reconnected, set_priority and trim in any case, and snapshot if the snapshot type
can create and merge snapshots. -/
theorem C44_calls_return_partial [SnapOps E S] (cc : ClusterConfig) (h0 : 0 ∉ cc.nodes) (acts : List (LAction E S)) (c : Loose E S)
    (hr : Loose.init.run cc acts = some c) (i : NodeId) (op : OP E S) (h : c.servers i = .up op) (call : Call E S)
    (hi : call.isIncoming = false) (hs : ∀ k l, call = .snapshot k l → SnapTotal E S) : ∃ op', op.callResult call = .up op' := by
  refine Loose.fails h0 hr h (fun m e => by rw [e] at hi; cases hi) fun hf => ?_
  cases call with
  | handleIncoming m => cases hi
  | snapshot k l => exact hf (hs k l rfl)
  | _ => exact hf

section Example
attribute [local instance] Sample.noSync
open Sample

/-- Concrete case for C39: `netRun`, with two leaders and a StopSign, meets the hypotheses. -/
example : SnapOps.use_snapshots Nat (List Nat) = false ∧ 0 ∉ cc.nodes ∧ (∀ a ∈ netRun, a.Only Call.NoCompaction) ∧
    (∃ c, Loose.init.run cc netRun = some c ∧ c.sent.length = 17) := by
  refine ⟨rfl, by decide, fun a ha => ?_, ?_⟩
  · simp only [netRun, List.mem_cons, List.not_mem_nil, or_false] at ha
    rcases ha with h | h | h | h | h | h | h | h | h | h | h | h | h | h | h | h | h | h | h | h | h | h | h | h <;>
      subst h <;> trivial
  · have h : (match Loose.init.run cc netRun with
      | none => false
      | some c => c.sent.length == 17) = true := by decide +kernel
    split at h
    · cases h
    · rename_i c hc; exact ⟨c, hc, by simpa using h⟩

theorem snapTotal_sample : SnapTotal Nat (List Nat) := ⟨fun es => ⟨es, rfl⟩, fun a b => ⟨a ++ b, rfl⟩⟩

/-- Concrete case for C39 with compaction, and for C44: at the end of `trimRun` server 1 has compacted index 1 and a message sent
to it, a Prepare with decided index 0, brings it down. -/
example : SnapTotal Nat (List Nat) ∧ 0 ∉ cc.nodes ∧ ∃ (acts : List (LAction Nat (List Nat))) (c : Loose Nat (List Nat)) (op : OP Nat (List Nat)) (m : Message Nat (List Nat))
    (d : Mem Nat (List Nat)), Loose.init.run cc acts = some c ∧ c.servers 1 = .up op ∧ m ∈ c.sent ∧ op.callResult (.handleIncoming m) = .down d ∧ op.get_compacted_idx = 1 := by
  refine ⟨snapTotal_sample, by decide, ?_⟩
  have h : (match Cluster.init.run cc trimRun with
    | none => false
    | some c => match c.servers 1, c.net 3 1 with
      | .up op, m :: _ => op.get_compacted_idx == 1 && (match op.callResult (.handleIncoming m) with
        | .down _ => true
        | .up _ => false)
      | _, _ => false) = true := by decide +kernel
  split at h
  · cases h
  · rename_i c hc
    obtain ⟨acts, l, -, hl, he⟩ := Embeds.init.run (ok := fun _ => True) (fun a _ => by cases a <;> trivial) hc
    split at h
    · rename_i op m _ hop hm
      simp only [Bool.and_eq_true, beq_iff_eq] at h
      obtain ⟨h1, h2⟩ := h
      split at h2
      · rename_i d hd
        exact ⟨acts, l, op, m, d, hl, by rw [he.servers]; exact hop, (he.net 3 1 m (by rw [hm]; exact List.mem_cons_self)).1, hd, h1⟩
      · cases h2
    · cases h

end Example

/-! ## C40 -/

/-- C40, if the pids are 1, ..., n: when a leader knows of every server that it accepted the first k positions, and has
decided them itself, `trim(k)` succeeds, in every run on the arbitrary network. Missing: pids with gaps, for which the claim
is false (C40_false_gapped_pids). -/
theorem C40_trim_succeeds_partial [SnapOps E S] (cc : ClusterConfig) (n : Nat) (hn : ∀ p, p ∈ cc.nodes ↔ 1 ≤ p ∧ p ≤ n)
    (acts : List (LAction E S)) (c : Loose E S) (hr : Loose.init.run cc acts = some c) (i : NodeId) (op : OP E S)
    (h : c.servers i = .up op) (hc : op.Consistent) (hl : op.sp.role = .leader) (k : Nat)
    (hk : ∀ p ∈ cc.nodes, ∃ a, op.sp.ls.get_accepted_idx p = some a ∧ k ≤ a) (hd : k ≤ op.get_decided_idx) :
    ∃ op', OP.trim (some k) op = .ok (.ok ()) op' ∧ k ≤ op'.get_compacted_idx + 1 ∧
      (op.sp.ist.storage.stopsign = none → k ≤ op'.get_compacted_idx) := by
  obtain ⟨hi, -, hlen⟩ := Loose.leader_inv (lsLength n) (fun j hj b mp hmp => by
    obtain ⟨h1, h2, h3⟩ := maxPid_spec hmp
    have hmem : mp ∈ cc.nodes := by
      rcases h1 with rfl | h1
      · exact hj
      · exact (List.mem_filter.1 h1).1
    have hle := (hn mp).1 hmem
    have hnn : n ∈ cc.nodes := (hn n).2 (by omega)
    have : mp = n := by
      by_cases e : n = j
      · omega
      · have := h3 n (List.mem_filter.2 ⟨hnn, by simpa using e⟩); omega
    subst this
    simp [LeaderState.with]) hr h
  have hi' := (hn i).1 hi
  have hall : ∀ b ∈ op.sp.ls.accepted_indexes, k ≤ b := by
    intro b hb
    obtain ⟨j, hj, rfl⟩ := List.mem_iff_getElem.1 hb
    obtain ⟨a, ha, hka⟩ := hk (j + 1) ((hn _).2 (by omega))
    simp only [LeaderState.get_accepted_idx, slot, List.getElem?_eq_getElem hj, Option.some.injEq] at ha
    omega
  have hmin : ∃ a ∈ op.sp.ls.accepted_indexes, ∀ b ∈ op.sp.ls.accepted_indexes, a ≤ b := by
    have key : ∀ l : List Nat, l ≠ [] → ∃ a ∈ l, ∀ b ∈ l, a ≤ b := by
      intro l
      induction l with
      | nil => intro h; exact absurd rfl h
      | cons x r ih =>
        intro _
        by_cases hr : r = []
        · subst hr; exact ⟨x, by simp, by simp⟩
        · obtain ⟨a, ha, hb⟩ := ih hr
          rcases Nat.le_total x a with hx | hx
          · exact ⟨x, by simp, fun b hb' => by
              rcases List.mem_cons.1 hb' with rfl | hb'
              · omega
              · have := hb b hb'; omega⟩
          · exact ⟨a, by simp [ha], fun b hb' => by
              rcases List.mem_cons.1 hb' with rfl | hb'
              · exact hx
              · exact hb b hb'⟩
    refine key _ fun e => ?_
    rw [e] at hlen; simp at hlen; omega
  obtain ⟨a, ha, hm⟩ := hmin
  obtain ⟨r, op', e, hpost⟩ := C13_trim op hc (some k) a ha hm
  have hka := hall a ha
  cases r with
  | error x =>
    simp only [Option.getD_some] at hpost
    rcases hpost with ⟨-, h1 | h1 | h1⟩
    · exact absurd hl h1.1
    · omega
    · omega
  | ok u =>
    simp only [Option.getD_some] at hpost
    refine ⟨op', e, ?_⟩
    have h1 := hpost.2.2.2.1
    have h2 := hc.bound
    have h3 := hc.decided
    simp only [OP.get_decided_idx] at hd
    unfold Mem.len at h2
    constructor
    · split at h2 <;> omega
    · intro hs
      rw [hs, if_neg (by simp)] at h2; omega

section Example
attribute [local instance] Sample.noSync
open Sample

/-- Server 1 is elected, all three servers accept 7, and server 1 learns of it. -/
def trimmable : List (LAction Nat (List Nat)) :=
  [.start 1 (sc 1), .start 2 (sc 2), .start 3 (sc 3), .call 1 .tryBecomeLeader, .take 1, .deliver 0, .deliver 1, .take 2, .take 3,
   .deliver 4, .deliver 7, .take 1, .deliver 10, .deliver 11, .call 1 (.append 7), .take 1, .deliver 12, .deliver 13, .take 2,
   .take 3, .deliver 14, .deliver 15]

/-- Concrete case for C40. -/
example : ∃ c a b d, Loose.init.run cc trimmable = some c ∧ c.servers 1 = .up a ∧ c.servers 2 = .up b ∧
    c.servers 3 = .up d ∧
    decide ((∀ p ∈ cc.nodes, a.sp.ls.get_accepted_idx p = some 1) ∧ a.get_decided_idx = 1 ∧ a.sp.role = .leader ∧
      a.sp.ist.cache.accepted_idx = a.sp.ist.storage.len) = true :=
  net_check (by decide +kernel)
example : ∀ p, p ∈ cc.nodes ↔ 1 ≤ p ∧ p ≤ 3 := fun (p : Nat) => by
  simp only [cc, List.mem_cons, List.not_mem_nil, or_false]; omega

end Example

end Omni
