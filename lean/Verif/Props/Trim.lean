import Verif.Props.Compaction
import Verif.Props.Witness
import Verif.Props.Network
import Verif.Proof.QuorumRun
import Verif.Proof.Steady.Put
import Verif.Proof.Progress.Steps
/-
What docs/omnipaxos/compaction.md promises about `trim` (C87), how soon a leader decides what it knows to be accepted (C88), and the outcome
of `snapshot` (C89).
-/
namespace Omni

variable {E S : Type}

/-! ## C87 -/

/-- C87, the part that holds: `trim` answering `NotAllDecided(a)` changed nothing, was asked for more than `a`, and `a` is the smallest index
accepted by all servers as far as the leader knows. Trying again with `Some(a)` succeeds if the leader has decided `a` positions; otherwise the
answer is `UndecidedIndex` with its decided index. (Full claim: trying again with `Some(a)` succeeds, and what is trimmed is decided on all servers.
Both are false, see below.) -/
theorem C87_retry_partial (op op' : OP E S) (h : op.Consistent) (idx : Option Nat) (a : Nat)
    (ht : OP.trim idx op = .ok (.error (.notAllDecided a)) op') :
    op' = op ∧ (∃ k, idx = some k ∧ a < k) ∧ a ∈ op.sp.ls.accepted_indexes ∧ (∀ b ∈ op.sp.ls.accepted_indexes, a ≤ b) ∧
    (a ≤ op.get_decided_idx → ∃ op2, OP.trim (some a) op = .ok (.ok ()) op2 ∧ op2.get_decided_idx = op.get_decided_idx ∧
      op2.get_compacted_idx = max op.get_compacted_idx (min a (op.sp.ist.storage.compacted_idx + op.sp.ist.storage.log.length))) ∧
    (op.get_decided_idx < a → OP.trim (some a) op = .ok (.error (.undecidedIndex op.get_decided_idx)) op) := by
  have hmin : ∀ l : List Nat, l ≠ [] → ∃ m ∈ l, ∀ b ∈ l, m ≤ b := by
    intro l
    induction l with
    | nil => intro h; exact absurd rfl h
    | cons x r ih =>
      intro _
      cases hr : r with
      | nil => exact ⟨x, by simp, by simp⟩
      | cons y t =>
        obtain ⟨m, h1, h2⟩ := ih (by rw [hr]; simp)
        rw [hr] at h1 h2
        by_cases hx : x ≤ m
        · refine ⟨x, by simp, fun b hb => ?_⟩
          rcases List.mem_cons.1 hb with rfl | hb
          · exact Nat.le_refl _
          · exact Nat.le_trans hx (h2 b hb)
        · refine ⟨m, by simp only [List.mem_cons] at h1 ⊢; exact .inr h1, fun b hb => ?_⟩
          rcases List.mem_cons.1 hb with rfl | hb
          · omega
          · exact h2 b hb
  by_cases hne : op.sp.ls.accepted_indexes = []
  · exfalso
    have hp : op.sp.ls.get_min_all_accepted_idx = none := by
      unfold LeaderState.get_min_all_accepted_idx; rw [hne]
    have hs : M.Sat (OP.trim idx) op (fun r _ => r ≠ .error (.notAllDecided a)) (fun _ => True) := by
      simp only [OP.trim, OP.sat_onSP, SP.trim, M.sat_bind, M.sat_get, M.sat_ite, M.sat_ofPan, M.sat_pure]
      exact ⟨fun _ => ⟨fun r e => (by rw [hp] at e; cases e), fun _ => trivial⟩, fun _ e => by cases e⟩
    unfold M.Sat at hs
    rw [ht] at hs
    exact hs rfl
  · obtain ⟨m, h1, h2⟩ := hmin _ hne
    obtain ⟨r, o, e, hm⟩ := C13_trim op h idx m h1 h2
    rw [ht] at e
    cases e
    obtain ⟨rfl, hc⟩ := hm
    have hc' : op'.sp.role = .leader ∧ m < idx.getD m ∧ a = m := by
      rcases hc with ⟨_, e⟩ | ⟨x, y, e⟩ | ⟨_, _, _, e⟩
      · cases e
      · exact ⟨x, y, by injection e⟩
      · cases e
    obtain ⟨hl, hlt, rfl⟩ := hc'
    obtain ⟨r, o, e, hm⟩ := C13_trim op' h (some a) a h1 h2
    refine ⟨rfl, ?_, h1, h2, fun hd => ?_, fun hd => ?_⟩
    · cases idx with
      | none => simp at hlt
      | some k => exact ⟨k, rfl, hlt⟩
    · cases r with
      | error x =>
        obtain ⟨-, hx⟩ := hm
        simp only [Option.getD_some] at hx
        rcases hx with ⟨hx, -⟩ | ⟨-, hx, -⟩ | ⟨-, -, hx, -⟩
        · exact absurd hl hx
        · omega
        · omega
      | ok u => exact ⟨o, e, hm.2.2.2.2.2.1, by simpa using hm.2.2.2.1⟩
    · cases r with
      | error x =>
        obtain ⟨rfl, hx⟩ := hm
        simp only [Option.getD_some] at hx
        rcases hx with ⟨hx, -⟩ | ⟨-, hx, -⟩ | ⟨-, -, -, hx⟩
        · exact absurd hl hx
        · omega
        · rw [e, hx]
      | ok u =>
        have := hm.2.2.1
        simp only [Option.getD_some] at this
        omega

/-- C87, the part about `None` that holds, for a leader that knows everyone to have accepted `a` positions and not more: the indices that can be
trimmed are those up to `a` and up to the decided index; `None` succeeds exactly if `a` can be trimmed, and then trims `a`. (Full claim: `None` trims the
highest index that can be trimmed. False, see below.) -/
theorem C87_none_partial (op : OP E S) (h : op.Consistent) (hl : op.sp.role = .leader) (a : Nat) (ha : a ∈ op.sp.ls.accepted_indexes)
    (hmin : ∀ b ∈ op.sp.ls.accepted_indexes, a ≤ b) :
    (∀ k, (∃ op', OP.trim (some k) op = .ok (.ok ()) op') ↔ k ≤ a ∧ k ≤ op.get_decided_idx) ∧
    ((∃ op', OP.trim none op = .ok (.ok ()) op') ↔ a ≤ op.get_decided_idx) ∧ OP.trim none op = OP.trim (some a) op := by
  have hs : ∀ idx : Option Nat, (∃ op', OP.trim idx op = .ok (.ok ()) op') ↔ idx.getD a ≤ a ∧ idx.getD a ≤ op.get_decided_idx := by
    intro idx
    obtain ⟨r, o, e, hm⟩ := C13_trim op h idx a ha hmin
    cases r with
    | ok u => exact ⟨fun _ => ⟨hm.2.1 a ha, hm.2.2.1⟩, fun _ => ⟨o, e⟩⟩
    | error x =>
      refine ⟨fun ⟨o', e'⟩ => by rw [e] at e'; (cases e'), fun hk => ?_⟩
      rcases hm.2 with ⟨hx, -⟩ | ⟨-, hx, -⟩ | ⟨-, -, hx, -⟩
      · exact absurd hl hx
      · omega
      · omega
  refine ⟨fun k => by simpa using hs (some k), by simpa using hs none, ?_⟩
  have hm : op.sp.ls.get_min_all_accepted_idx = some a := min_all_eq ha hmin
  simp only [OP.trim, OP.onSP, SP.trim, hm, bind, M.bind, M.get, M.ofPan, hl, if_true, Option.getD_none, Option.getD_some]

/-! ## C88 -/

variable [SnapOps E S]

/-- C88, the part that holds, on an arbitrary network: when a leader in accept phase has handled a report (Accepted message) of its ballot, and
now knows of an accept quorum that accepted at least the *reported* index, it has decided the reported index. (Full claim: it has decided every
index that it knows an accept quorum to have accepted. False, see below.) -/
theorem C88_reported_partial (cc : ClusterConfig) (hn : cc.nodes.Nodup) (acts : List (LAction E S)) (c : Loose E S)
    (hr : Loose.init.run cc acts = some c) (i j : NodeId) (op op' : OP E S) (h : c.servers i = .up op) (hl : op.sp.role = .leader)
    (hp : op.sp.phase = .accept) (x : Accepted) (hx : x.n = op.sp.ls.n_leader)
    (ho : op.callResult (.handleIncoming (.paxos { src := j, dst := i, msg := .accepted x })) = .up op')
    (W : List NodeId) (hW : AcceptQuorum cc W)
    (hk : ∀ p ∈ W, ∃ k, op'.sp.ls.get_accepted_idx p = some k ∧ x.accepted_idx ≤ k) : x.accepted_idx ≤ op'.get_decided_idx := by
  obtain ⟨hi, hq⟩ := (QRun.runs hr).srv i op h
  have hquo : op.sp.ls.quorum = Quorum.with cc.flexible_quorum cc.nodes.length := by
    rw [hq.quo, ← peers_count hn hi]; rfl
  have key : M.Sat (Call.run (.handleIncoming (.paxos { src := j, dst := i, msg := .accepted x }))) op.clearTrail
      (fun _ t => (∀ p ∈ W, ∃ k, t.sp.ls.get_accepted_idx p = some k ∧ x.accepted_idx ≤ k) → x.accepted_idx ≤ t.sp.ist.cache.decided_idx)
      (fun _ => True) := by
    simp only [Call.run, OP.handle_incoming, OP.sat_onSP, SP.handle, SP.handle_accepted, M.sat_bind, M.sat_get, M.sat_ite, M.sat_pure, SP.sat_onLS]
    refine ⟨fun _ => ⟨fun ls e => ⟨fun hc => ?_, fun hc hk => ?_⟩, fun _ => trivial⟩, fun hc => absurd ⟨hx, hl, hp⟩ hc⟩
    · simp only [SP.sat_onStore]
      refine M.sat_mono (IStore.pd_set_decided _) (fun _ s hs => ?_) fun _ _ => trivial
      refine M.sat_mono (SP.so_forEach fun x t => SP.so_announce_decided _ x) (fun _ t ht _ => ?_) fun _ _ => trivial
      have e1 : t.ist = s := by rw [ht]
      rw [e1, hs.2]
      exact Nat.le_refl _
    · refine Nat.not_lt.1 fun hlt => hc ⟨hlt, ?_⟩
      unfold LeaderState.is_chosen
      have e2 : ls.quorum = op.sp.ls.quorum := by rw [LeaderState.set_accepted_idx_eq e]; rfl
      rw [e2, hquo]
      refine hW.accepts (le_count_slots hW.distinct fun p hp => ?_)
      obtain ⟨k, h1, h2⟩ := hk p hp
      exact ⟨k, h1, by simpa using h2⟩
  unfold OP.callResult at ho
  unfold M.Sat at key
  split at key <;> rename_i e <;> rw [e] at ho
  · cases ho; exact key hk
  · cases ho

/-! ## C89 -/

/-- C89, the part that holds: `snapshot` on a consistent server, with any index and local or not. It returns an error, and then nothing changed, exactly
if it is asked for more than is decided; the error is `UndecidedIndex` with the decided index (never `TrimmedIndex`). Otherwise the compacted index
becomes the index asked for, or the decided index if none is given, but stays before a StopSign and never goes back; if it stays where it is the storage
is untouched; every position from it on shows what it showed before; and every peer is asked to do the same unless `local_only`. It panics only if the user's
snapshot code does. (Full claim: an index that is already compacted is answered with `TrimmedIndex`. False, see below.) -/
theorem C89_snapshot_partial (op : OP E S) (h : op.Consistent) (idx : Option Nat) (local_only : Bool) :
    match OP.snapshot idx local_only op with
    | .ok (.error e) op' => op' = op ∧ (∃ k, idx = some k ∧ op.get_decided_idx < k) ∧ e = .undecidedIndex op.get_decided_idx
    | .ok (.ok ()) op' => (∀ k, idx = some k → k ≤ op.get_decided_idx) ∧
        op'.get_compacted_idx = max op.get_compacted_idx
          (min (idx.getD op.get_decided_idx) (op.sp.ist.storage.compacted_idx + op.sp.ist.storage.log.length)) ∧
        (op'.get_compacted_idx = op.get_compacted_idx → op'.sp.ist = op.sp.ist) ∧
        (∀ i, op'.get_compacted_idx ≤ i → op'.read i = op.read i) ∧ op'.get_decided_idx = op.get_decided_idx ∧ op'.Consistent ∧
        op' = { op with sp := { op.sp with
          ist := op'.sp.ist
          outgoing := op.sp.outgoing ++ (if local_only then [] else op.sp.peers.map fun p =>
            { src := op.sp.pid, dst := p, msg := .compaction (.snapshot idx) }) } }
    | .panic _ => (∃ es : List E, (SnapOps.create es : Pan S) = none) ∨ ∃ x y : S, SnapOps.merge E x y = none := by
  have hR := h.readOK
  have hcc := h.compacted
  have hts := IStore.try_snapshot_spec hR idx
  have hd : ∀ k, idx = some k → idx.getD op.sp.ist.cache.decided_idx ≤ op.sp.ist.cache.decided_idx → k ≤ op.get_decided_idx := by
    rintro k rfl hk; exact hk
  have hsat : M.Sat (OP.snapshot idx local_only) op (fun r op' => match r with
      | .error e => op' = op ∧ (∃ k, idx = some k ∧ op.get_decided_idx < k) ∧ e = .undecidedIndex op.get_decided_idx
      | .ok () => (∀ k, idx = some k → k ≤ op.get_decided_idx) ∧ ∃ i', op' = { op with sp := { op.sp with
          ist := i'
          outgoing := op.sp.outgoing ++ (if local_only then [] else op.sp.peers.map fun p =>
            { src := op.sp.pid, dst := p, msg := .compaction (.snapshot idx) }) } } ∧
          ((op.sp.ist.cut (idx.getD op.sp.ist.cache.decided_idx) ≤ op.sp.ist.cache.compacted_idx ∧ i' = op.sp.ist) ∨
           (op.sp.ist.cache.compacted_idx < op.sp.ist.cut (idx.getD op.sp.ist.cache.decided_idx) ∧
            ∃ sn ops, i' = op.sp.ist.compacted (op.sp.ist.cut (idx.getD op.sp.ist.cache.decided_idx)) (some sn) ops)))
      (fun _ => op.sp.ist.create_snapshot (op.sp.ist.cut (idx.getD op.sp.ist.cache.decided_idx)) = none) := by
    simp only [OP.snapshot, SP.snapshot, OP.sat_onSP, M.sat_bind, SP.sat_onStore, M.sat_get]
    refine M.sat_mono hts (fun r i' hr => ?_) fun _ h => h
    rcases hr with ⟨hi, rfl, hk⟩ | ⟨hi, rfl, rfl⟩
    · have hk' : (op.sp.ist.cut (idx.getD op.sp.ist.cache.decided_idx) ≤ op.sp.ist.cache.compacted_idx ∧ i' = op.sp.ist) ∨
           (op.sp.ist.cache.compacted_idx < op.sp.ist.cut (idx.getD op.sp.ist.cache.decided_idx) ∧
            ∃ sn ops, i' = op.sp.ist.compacted (op.sp.ist.cut (idx.getD op.sp.ist.cache.decided_idx)) (some sn) ops) := by
        rcases hk with hk | ⟨hk, sn, d, e, -, -⟩
        · exact .inl hk
        · exact .inr ⟨hk, sn, _, e⟩
      simp only [M.sat_bind, M.sat_whenDo, M.sat_pure]
      cases local_only with
      | true => exact ⟨fun hn => (nomatch hn), fun _ => ⟨fun k e => hd k e hi, i', by simp, hk'⟩⟩
      | false =>
        refine ⟨fun _ => ?_, fun hn => absurd rfl hn⟩
        rw [M.sat_of_eq (SP.forEach_send op.sp.peers (fun _ => .compaction (.snapshot idx)) _)]
        exact ⟨fun k e => hd k e hi, i', by simp, hk'⟩
    · simp only [M.sat_pure]
      refine ⟨trivial, ?_, rfl⟩
      cases idx with
      | none => simp at hi
      | some k => exact ⟨k, rfl, hi⟩
  cases hrun : OP.snapshot idx local_only op with
  | ok r op' =>
    have h1 := M.sat_ok hsat hrun
    cases r with
    | error e => exact h1
    | ok u =>
      obtain ⟨h2, i', rfl, ⟨hk, rfl⟩ | ⟨hk, sn, ops, rfl⟩⟩ := h1
      · refine ⟨h2, ?_, fun _ => rfl, fun _ _ => rfl, rfl, ⟨h.compacted, h.trimmed, h.decided, h.stopsign, h.accepted, h.bound⟩, rfl⟩
        unfold IStore.cut at hk
        simp only [OP.get_compacted_idx, OP.get_decided_idx]
        omega
      · have hcons := consistent_of_readOK (op := op) (IStore.compacted_readOK hR (sn := some sn) (ops := ops) hk)
        refine ⟨h2, ?_, fun e => ?_, fun j hj => ?_, rfl, ⟨hcons.compacted, hcons.trimmed, hcons.decided, hcons.stopsign, hcons.accepted, hcons.bound⟩, rfl⟩
        · show op.sp.ist.cut _ = _
          unfold IStore.cut at hk ⊢
          simp only [OP.get_compacted_idx, OP.get_decided_idx]
          omega
        · have : op.sp.ist.cut (idx.getD op.sp.ist.cache.decided_idx) = op.sp.ist.cache.compacted_idx := e
          omega
        · have h3 := C17_read _ hcons j
          have h4 : ({ op with sp := { op.sp with ist := op.sp.ist.compacted (op.sp.ist.cut (idx.getD op.sp.ist.cache.decided_idx)) (some sn) ops } } : OP E S).read j
              = op.read j := by
            rw [h3, C17_read op h]
            congr 1
            exact IStore.compacted_view hR hk j hj
          exact h4
  | panic op' =>
    have hp := M.sat_panic hsat hrun
    simp only
    unfold IStore.create_snapshot at hp
    simp only at hp
    split at hp
    · simp at hp
    · rename_i hge
      split at hp
      · rename_i hg
        exfalso
        have htr := h.trimmed
        unfold Mem.get_entries usub at hg
        rw [if_pos (by omega), if_pos (by omega)] at hg
        simp at hg
      · split at hp
        · exact .inl ⟨_, by assumption⟩
        · split at hp
          · simp at hp
          · split at hp
            · exact .inr ⟨_, _, by assumption⟩
            · simp at hp

section Witnesses
attribute [local instance] Sample.noSync
open Sample

/-- Concrete case for C87: a leader that decided [5, 6, 7], of which everyone accepted two, is asked to trim three, and then two. -/
example : ((Sample.start 1 { log := [5, 6, 7], ld := 3 }).map fun op =>
      match OP.trim (E := Nat) (S := List Nat) (some 3) { op with sp := { op.sp with role := .leader
                                                                                     ls := { op.sp.ls with accepted_indexes := [3, 2, 3] } } } with
      | .ok (.error (.notAllDecided 2)) op' => (match OP.trim (some 2) op' with
        | .ok (.ok ()) op2 => [op2.read 1, op2.read 2]
        | _ => [])
      | _ => []) = some [some (some (.trimmed 2)), some (some (.decided 7))] := by decide +kernel

/-- Concrete case for C88: after 15 actions of `netRun`, server 1 leads and receives the report of server 2. -/
example : ∃ c a b d, Loose.init.run cc (netRun.take 15) = some c ∧ c.servers 1 = .up a ∧ c.servers 2 = .up b ∧ c.servers 3 = .up d ∧
    (match a.callResult (.handleIncoming (.paxos { src := 2, dst := 1, msg := .accepted { n := a.sp.ls.n_leader, accepted_idx := 2 } })) with
      | .up a' => decide (a.sp.role = .leader ∧ a.sp.phase = .accept ∧ a.get_decided_idx = 0 ∧ a'.sp.ls.get_accepted_idx 1 = some 2 ∧
          a'.sp.ls.get_accepted_idx 2 = some 2 ∧ a'.get_decided_idx = 2)
      | .down _ => false) = true :=
  net_check (by decide +kernel)

/-! ## F31: what a leader knows to be accepted and what it decides

Five servers. Server 1 leads and appends four entries, in four messages to each follower. Server 2 accepts one and reports it, then
server 3 accepts two and reports two, then server 4 three, then server 5 four. No report finds a majority that accepted as much as is reported. -/

def promiseFrom (f : NodeId) : List A := [.lose 1 f 1, .deliver 1 f, .take f, .lose f 1 1, .deliver f 1, .take 1]

def syncWith (f : NodeId) : List A := [.deliver 1 f, .take f, .deliver f 1, .take 1]

def spreadRun : List A := [.start 1 (sc 1), .start 2 (sc 2), .start 3 (sc 3), .start 4 (sc 4), .start 5 (sc 5),
  .call 1 .tryBecomeLeader, .take 1] ++ promiseFrom 2 ++ promiseFrom 3 ++ promiseFrom 4 ++ promiseFrom 5 ++ syncWith 2 ++ syncWith 3 ++
  syncWith 4 ++ syncWith 5 ++ [.call 1 (.append 7), .take 1, .call 1 (.append 8), .take 1, .call 1 (.append 9), .take 1,
  .call 1 (.append 10), .take 1, .deliver 1 2, .take 2, .deliver 2 1, .deliver 1 3, .deliver 1 3, .take 3, .deliver 3 1,
  .deliver 1 4, .deliver 1 4, .deliver 1 4, .take 4, .deliver 4 1, .deliver 1 5, .deliver 1 5, .deliver 1 5, .deliver 1 5,
  .take 5, .deliver 5 1]

/-- C88 is false of the code: the leader knows that a majority accepted three positions, and all servers one, and has decided none. -/
theorem C88_false_spread : ¬ ∀ (cc : ClusterConfig) (c : C) (i : NodeId) (op : OP Nat (List Nat)) (W : List NodeId) (k : Nat), cc.validate = .ok () →
    c.AnyReach cc → c.servers i = .up op → op.sp.role = .leader → op.sp.phase = .accept → AcceptQuorum cc W →
    (∀ p ∈ W, ∃ a, op.sp.ls.get_accepted_idx p = some a ∧ k ≤ a) → k ≤ op.get_decided_idx := by
  intro hall
  obtain ⟨c, h, hP⟩ := run1_elim (cc := five) (as := spreadRun) (P := fun c => onUp c 1 fun op => op.sp.role = .leader ∧ op.sp.phase = .accept ∧
    op.sp.ls.accepted_indexes = [4, 1, 2, 3, 4] ∧ op.get_decided_idx = 0) (by decide +kernel)
  obtain ⟨op, h1, h1'⟩ := onUp_elim hP
  obtain ⟨h2, h3, h4, h5⟩ := of_decide_eq_true h1'
  have := hall five c 1 op [1, 4, 5] 3 rfl h h1 h2 h3 ⟨by decide, by decide, by show 5 < 2 * 3; decide⟩ fun p hp => by
    simp only [LeaderState.get_accepted_idx, h4]
    simp only [List.mem_cons, List.not_mem_nil, or_false] at hp
    rcases hp with rfl | rfl | rfl
    · exact ⟨4, rfl, by omega⟩
    · exact ⟨3, rfl, by omega⟩
    · exact ⟨4, rfl, by omega⟩
  omega

/-- C87, trying again, is false of the code: `trim(Some(2))` answers `NotAllDecided(1)`, and then `trim(Some(1))` fails too. -/
theorem C87_false_retry : ¬ ∀ (cc : ClusterConfig) (c : C) (i : NodeId) (op op' : OP Nat (List Nat)) (idx : Option Nat) (a : Nat), cc.validate = .ok () →
    c.AnyReach cc → c.servers i = .up op → OP.trim idx op = .ok (.error (.notAllDecided a)) op' →
    ∃ op2, OP.trim (some a) op' = .ok (.ok ()) op2 := by
  intro hall
  obtain ⟨c, h, hP⟩ := run1_elim (cc := five) (as := spreadRun) (P := fun c => onUp c 1 fun op => match OP.trim (some 2) op with
    | .ok (.error (.notAllDecided 1)) op' => decide (trimError op' (some 1) = some (.undecidedIndex 0))
    | _ => false) (by decide +kernel)
  obtain ⟨op, h1, h1'⟩ := onUp_elim hP
  split at h1'
  · rename_i op' e
    obtain ⟨op2, h2⟩ := hall five c 1 op op' (some 2) 1 rfl h h1 e
    have h3 := of_decide_eq_true h1'
    unfold trimError at h3
    rw [h2] at h3
    cases h3
  · cases h1'

/-- The same after an entry that everybody accepted and reported. -/
def spreadLater : List A := spreadRun.take 47 ++ [.call 1 (.append 6), .take 1] ++ syncWith 2 ++ syncWith 3 ++ syncWith 4 ++ syncWith 5 ++
  [.deliver 1 2, .deliver 1 3, .deliver 1 4, .deliver 1 5] ++ spreadRun.drop 47

/-- C87, `None`, is false of the code: `trim(None)` fails, and `trim(Some(1))` trims an entry. -/
theorem C87_false_none : ¬ ∀ (cc : ClusterConfig) (c : C) (i : NodeId) (op op' : OP Nat (List Nat)) (k : Nat), cc.validate = .ok () →
    c.AnyReach cc → c.servers i = .up op → OP.trim (some k) op = .ok (.ok ()) op' → op.get_compacted_idx < op'.get_compacted_idx →
    ∃ op2, OP.trim none op = .ok (.ok ()) op2 := by
  intro hall
  obtain ⟨c, h, hP⟩ := run1_elim (cc := five) (as := spreadLater) (P := fun c => onUp c 1 fun op => match OP.trim (some 1) op with
    | .ok (.ok ()) op' => decide (op.get_compacted_idx < op'.get_compacted_idx ∧ trimError op none = some (.undecidedIndex 1))
    | _ => false) (by decide +kernel)
  obtain ⟨op, h1, h1'⟩ := onUp_elim hP
  split at h1'
  · rename_i op' e
    obtain ⟨h2, h3⟩ := of_decide_eq_true h1'
    obtain ⟨op2, h4⟩ := hall five c 1 op op' 1 rfl h h1 e h2
    unfold trimError at h3
    rw [h4] at h3
    cases h3
  · cases h1'

/-- C87, what is trimmed, is false of the code: the leader trims a position, and the third server, which is running, has not decided it. -/
theorem C87_false_decided : ¬ ∀ (cc : ClusterConfig) (c : C) (i j : NodeId) (op op' opj : OP Nat (List Nat)) (k : Nat), cc.validate = .ok () →
    c.AnyReach cc → c.servers i = .up op → OP.trim (some k) op = .ok (.ok ()) op' → j ∈ cc.nodes → c.servers j = .up opj →
    k ≤ opj.get_decided_idx := by
  intro hall
  obtain ⟨c, h, hP⟩ := run1_elim (cc := cc) (as := trimRun.take 40) (P := fun c => onUp c 1 (fun op => match OP.trim (some 1) op with
    | .ok (.ok ()) _ => true
    | _ => false) && onUp c 3 fun op => op.get_decided_idx = 0) (by decide +kernel)
  simp only [Bool.and_eq_true] at hP
  obtain ⟨op, h1, h1'⟩ := onUp_elim hP.1
  obtain ⟨op3, h3, h3'⟩ := onUp_elim hP.2
  split at h1'
  · rename_i op' e
    have := hall cc c 1 3 op op' op3 1 rfl h h1 e (by decide) h3
    have := of_decide_eq_true h3'
    omega
  · cases h1'

/-- C87, the leader named, is false of the code: a server that knows no leader answers `NotCurrentLeader(0)`, and there is no such server. -/
theorem C87_false_leader : ¬ ∀ (cc : ClusterConfig) (c : C) (i l : NodeId) (op : OP Nat (List Nat)) (idx : Option Nat), cc.validate = .ok () →
    c.AnyReach cc → c.servers i = .up op → trimError op idx = some (.notCurrentLeader l) → l ∈ cc.nodes := by
  intro hall
  obtain ⟨c, h, hP⟩ := run1_elim (cc := cc) (as := [.start 1 (sc 1)]) (P := fun c => onUp c 1 fun op =>
    trimError op none = some (.notCurrentLeader 0)) (by decide +kernel)
  obtain ⟨op, h1, h1'⟩ := onUp_elim hP
  exact absurd (hall cc c 1 0 op none rfl h h1 (of_decide_eq_true h1')) (by decide)

/-! ## F32: an index that is already compacted -/

/-- C89 is false of the code: server 1 has compacted two positions, and `snapshot(Some(1))` returns Ok. -/
theorem C89_false_trimmed_index : ¬ ∀ (cc : ClusterConfig) (c : C) (i : NodeId) (op : OP Nat (List Nat)) (k : Nat), cc.validate = .ok () →
    c.AnyReach cc → c.servers i = .up op → k < op.get_compacted_idx →
    ∃ op', OP.snapshot (some k) true op = .ok (.error (.trimmedIndex op.get_compacted_idx)) op' := by
  intro hall
  obtain ⟨c, h, hP⟩ := run1_elim (cc := cc) (as := undecideRun.take 25 ++ [.call 1 (.snapshot none true)]) (P := fun c => onUp c 1 fun op =>
    match OP.snapshot (some 1) true op with
    | .ok (.ok ()) _ => decide (op.get_compacted_idx = 2)
    | _ => false) (by decide +kernel)
  obtain ⟨op, h1, h1'⟩ := onUp_elim hP
  split at h1'
  · rename_i op' e
    have h2 := of_decide_eq_true h1'
    obtain ⟨op2, h3⟩ := hall cc c 1 op 1 rfl h h1 (by omega)
    rw [e] at h3
    cases h3
  · cases h1'

/-- Concrete case for C89: two of three entries are decided; indices none, 1, 2 and 3. -/
example : ((Sample.start 2 { log := [5, 6, 7], ld := 2 }).map fun op =>
      [none, some 1, some 2, some 3].map fun i => match OP.snapshot (E := Nat) (S := List Nat) i true op with
        | .ok (.ok ()) op' => op'.get_compacted_idx
        | .ok (.error (.undecidedIndex d)) _ => 100 + d
        | _ => 99) = some [2, 1, 2, 102] := by decide +kernel

end Witnesses
end Omni
