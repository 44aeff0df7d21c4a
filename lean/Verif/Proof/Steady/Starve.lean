import Verif.Proof.Steady.Run
import Verif.Spec.Sample
/-
Starvation: four servers, a continuing load, and replies merged so that no accepted index is reported by three of them.
-/
namespace Omni.Starve

attribute [local instance] Sample.noSync

/-- Four servers. The accept quorum is three. -/
def c4 : ClusterConfig := { configuration_id := 1, nodes := [1, 2, 3, 4] }

/-- The ballot of server 1. -/
def bn : Ballot := ⟨1, 1, 0, 1⟩

abbrev C := Cluster Nat (List Nat)
abbrev A := Action Nat (List Nat)

/-- A storage with `m` accepted entries, all 5, and none decided. -/
def store (m : Nat) (tr : List (Mem Nat (List Nat))) (cl : List (StorageCall Nat (List Nat))) : IStore Nat (List Nat) where
  storage := { log := List.replicate m 5, n_prom := some bn, acc_round := some bn }
  cache := { batch_size := 1, promise := bn, accepted_round := bn, accepted_idx := m }
  trail := tr
  calls := cl

def promised (i : NodeId) : PromiseState := .promised { pid := i }

/-- The leader with `a` entries, `v i` of which server `i` has reported as accepted. -/
def leadSP (a : Nat) (v : NodeId → Nat) (tr : List (Mem Nat (List Nat))) (cl : List (StorageCall Nat (List Nat)))
    (out : List (PaxosMessage Nat (List Nat))) (lam : List (Option (Ballot × Nat))) : SP Nat (List Nat) where
  ist := store a tr cl
  pid := 1
  peers := [2, 3, 4]
  role := .leader
  phase := .accept
  buffered_proposals := []
  buffered_stopsign := none
  outgoing := out
  ls :=
    { n_leader := bn
      promises_meta := [promised 1, promised 2, promised 3, promised 4]
      follower_seq_nums := [{}, ⟨1, a + 1⟩, ⟨1, a + 1⟩, ⟨1, a + 1⟩]
      accepted_indexes := [a, v 2, v 3, v 4]
      max_promise_meta := {}
      max_promise_sync := none
      latest_accept_meta := lam
      max_pid := 4
      quorum := .majority 3 }
  latest_accepted_meta := none
  current_seq_num := {}
  cached_promise := none

/-- Follower `i` with `m` entries; `r` tells whether its reply is waiting. -/
def folSP (i m : Nat) (r : Bool) (tr : List (Mem Nat (List Nat))) (cl : List (StorageCall Nat (List Nat))) (ls : LeaderState Nat (List Nat))
    (peers : List NodeId) : SP Nat (List Nat) where
  ist := store m tr cl
  pid := i
  peers := peers
  role := .follower
  phase := .accept
  buffered_proposals := []
  buffered_stopsign := none
  outgoing := if r then [{ src := i, dst := 1, msg := .accepted ⟨bn, m⟩ }] else []
  ls := ls
  latest_accepted_meta := if r then some (bn, 0) else none
  current_seq_num := ⟨1, m + 1⟩
  cached_promise := none

/-- The message with the `m`-th entry. -/
def ad (i m : Nat) : PaxosMessage Nat (List Nat) :=
  { src := 1, dst := i, msg := .acceptDecide { n := bn, seq_num := ⟨1, m + 1⟩, decided_idx := 0, entries := [5] } }

theorem append_lead (a : Nat) (v : NodeId → Nat) (tr : List (Mem Nat (List Nat))) (cl : List (StorageCall Nat (List Nat))) :
    M.Sat (SP.append 5) (leadSP a v tr cl [] [none, none, none, none]) (fun _ s' => ∃ tr cl, s' =
      leadSP (a + 1) v tr cl [ad 2 (a + 1), ad 3 (a + 1), ad 4 (a + 1)] [none, some (bn, 0), some (bn, 1), some (bn, 2)]) (fun _ => False) := by
  have hf : ∀ (ls : LeaderState Nat (List Nat)), ls.promises_meta = [promised 1, promised 2, promised 3, promised 4] → ls.n_leader = bn →
      ls.get_promised_followers = [2, 3, 4] := by
    intro ls h1 h2
    rw [LeaderState.get_promised_followers, h1, h2]
    rfl
  simp only [SP.append, SP.propose_entry, SP.accepted_reconfiguration, leadSP, store, SP.accept_entry_leader, SP.accepted_leader, SP.send_acceptdecide,
    IStore.append_entry_with_batching, IStore.cache_append_entries, IStore.take_entries_if_batch_is_full, IStore.flush_if_full_batch,
    IStore.append_entries_without_batching, IStore.sat_write_append, IStore.sat_setCache, Mem.append_entries, M.sat_bind, M.sat_get, M.sat_pure, M.sat_ite,
    SP.sat_onStore, SP.sat_onLS, Option.isSome_none, Bool.false_eq_true, List.nil_append, List.length_cons, List.length_nil, ge_iff_le, Nat.le_refl,
    forall_const, LeaderState.set_accepted_idx, setSlot, Nat.zero_add, Nat.zero_lt_succ, if_true, List.set_cons_zero, Option.some.injEq, forall_eq',
    not_true_eq_false, IsEmpty.forall_iff, and_true, reduceCtorEq, hf, M.sat_forEach_cons, SP.send_acceptdecide_to, SP.get_latest_accdec,
    LeaderState.get_latest_accept_meta, slot, List.getElem?_cons_succ, List.getElem?_cons_zero, M.sat_ofPan, SP.sat_onLS', LeaderState.set_latest_accept_meta,
    LeaderState.next_seq_num, SP.sat_send]
  simp [ad, List.replicate_succ']

/-- follower.rs 88-110. -/
theorem handle_fol {i m : Nat} {r : Bool} {tr : List (Mem Nat (List Nat))} {cl : List (StorageCall Nat (List Nat))} {ls : LeaderState Nat (List Nat)}
    {peers : List NodeId} : M.Sat (SP.handle (ad i (m + 1))) (folSP i m r tr cl ls peers) (fun _ s' => ∃ tr cl, s' = folSP i (m + 1) true tr cl ls peers)
      (fun _ => False) := by
  have hc : bn.cmp bn = .eq := by decide
  simp only [SP.handle, ad, folSP, store, SP.handle_acceptdecide, SP.accept_guard, SP.check_valid_ballot, SP.get_promise, M.sat_bind, M.sat_get, hc, M.sat_pure,
    SP.handle_sequence_num, SeqNum.check_msg_status]
  cases r <;>
  simp [M.sat_bind, M.sat_get, M.sat_pure, M.sat_ite, SP.sat_onStore, IStore.append_entries_and_get_accepted_idx, IStore.cache_append_entries,
    IStore.take_entries_if_batch_is_full, IStore.append_entries_without_batching, IStore.sat_write_append, IStore.sat_setCache,
    Mem.append_entries, SP.update_decided_idx_and_get_accepted_idx, SP.reply_opt, SP.reply_accepted, SP.get_latest_accepted, M.sat_ofPan, M.sat_upd, SP.sat_send,
    SP.sat_setMsg, List.replicate_succ', bn]

/-- leader.rs 316-345. -/
theorem handle_lead {a g : Nat} (hg : g = 2 ∨ g = 3 ∨ g = 4) {v : NodeId → Nat} (hv : ∀ i, v i ≤ a) {tr : List (Mem Nat (List Nat))}
    {cl : List (StorageCall Nat (List Nat))} :
    M.Sat (SP.handle { src := g, dst := 1, msg := .accepted ⟨bn, a + 1⟩ }) (leadSP (a + 1) v tr cl [] [none, none, none, none]) (fun _ s' =>
      s' = leadSP (a + 1) (fun i => if i = g then a + 1 else v i) tr cl [] [none, none, none, none]) (fun _ => False) := by
  have h2 := hv 2
  have h3 := hv 3
  have h4 := hv 4
  have e2 : ¬ a + 1 ≤ v 2 := by omega
  have e3 : ¬ a + 1 ≤ v 3 := by omega
  have e4 : ¬ a + 1 ≤ v 4 := by omega
  rcases hg with rfl | rfl | rfl <;>
  simp [SP.handle, SP.handle_accepted, leadSP, store, M.sat_bind, M.sat_get, M.sat_ite, M.sat_pure, SP.sat_onLS, LeaderState.set_accepted_idx, setSlot,
    LeaderState.is_chosen, Quorum.is_accept_quorum, e2, e3, e4]

theorem clear_lead {a : Nat} {v : NodeId → Nat} {tr : List (Mem Nat (List Nat))} {cl : List (StorageCall Nat (List Nat))}
    {out : List (PaxosMessage Nat (List Nat))} {lam : List (Option (Ballot × Nat))} {s : SP Nat (List Nat)} (h : s = leadSP a v tr cl out lam) :
    { s with ist := { s.ist with trail := [], calls := [] } } = leadSP a v [] [] out lam := by subst h; rfl

theorem clear_fol {i m : Nat} {r : Bool} {tr : List (Mem Nat (List Nat))} {cl : List (StorageCall Nat (List Nat))} {ls : LeaderState Nat (List Nat)}
    {peers : List NodeId} {s : SP Nat (List Nat)} (h : s = folSP i m r tr cl ls peers) :
    { s with ist := { s.ist with trail := [], calls := [] } } = folSP i m r [] [] ls peers := by subst h; rfl

theorem take_lead {a : Nat} {v : NodeId → Nat} {tr : List (Mem Nat (List Nat))} {cl : List (StorageCall Nat (List Nat))}
    {out : List (PaxosMessage Nat (List Nat))} {lam : List (Option (Ballot × Nat))} {s : SP Nat (List Nat)} (h : s = leadSP a v tr cl out lam) :
    s.outgoing = out ∧ (s.take_outgoing_msgs []).2 = leadSP a v tr cl [] [none, none, none, none] := by subst h; exact ⟨rfl, rfl⟩

theorem take_fol {i m : Nat} {r : Bool} {tr : List (Mem Nat (List Nat))} {cl : List (StorageCall Nat (List Nat))} {ls : LeaderState Nat (List Nat)}
    {peers : List NodeId} {s : SP Nat (List Nat)} (h : s = folSP i m r tr cl ls peers) :
    s.outgoing = (if r then [{ src := i, dst := 1, msg := .accepted ⟨bn, m⟩ }] else []) ∧
    (s.take_outgoing_msgs []).2 = folSP i m false tr cl { ls with latest_accept_meta := List.replicate ls.max_pid none } peers := by
  subst h; exact ⟨rfl, rfl⟩

theorem facts_lead {a : Nat} {v : NodeId → Nat} {tr : List (Mem Nat (List Nat))} {cl : List (StorageCall Nat (List Nat))}
    {out : List (PaxosMessage Nat (List Nat))} {lam : List (Option (Ballot × Nat))} {s : SP Nat (List Nat)} (h : s = leadSP a v tr cl out lam) :
    s.ist.cache.batched_entries = [] ∧ s.ist.cache.decided_idx = 0 ∧ s.ist.storage.log = List.replicate a 5 := by subst h; exact ⟨rfl, rfl, rfl⟩

theorem facts_fol {i m : Nat} {r : Bool} {tr : List (Mem Nat (List Nat))} {cl : List (StorageCall Nat (List Nat))} {ls : LeaderState Nat (List Nat)}
    {peers : List NodeId} {s : SP Nat (List Nat)} (h : s = folSP i m r tr cl ls peers) :
    s.ist.cache.batched_entries = [] ∧ s.ist.cache.decided_idx = 0 ∧ s.ist.storage.log = List.replicate m 5 := by subst h; exact ⟨rfl, rfl, rfl⟩

attribute [irreducible] leadSP folSP

/-- Change a function at one server. -/
def put {α : Type} (f : NodeId → α) (g : NodeId) (x : α) : NodeId → α := fun i => if i = g then x else f i

@[simp] theorem put_self {α : Type} (f : NodeId → α) (g : NodeId) (x : α) : put f g x g = x := by simp [put]
theorem put_other {α : Type} {f : NodeId → α} {g i : NodeId} {x : α} (h : i ≠ g) : put f g x i = f i := by simp [put, h]

/-- The followers. -/
def fs : List NodeId := [2, 3, 4]

/-- Where the servers stand: the leader has `a` entries, `p` tells whether the last one is still to be sent, follower `i` has `m i` entries and
has reported `v i`, `r i` tells whether a reply of `i` is waiting, `up i` is on the way from it. -/
structure Pos (c : C) (a : Nat) (v m : NodeId → Nat) (p : Bool) (r : NodeId → Bool) (up : NodeId → List (Message Nat (List Nat))) : Prop where
  lead : ∃ op tr cl, c.servers 1 = .up op ∧ op.ble.outgoing = [] ∧ op.sp = leadSP a v tr cl (if p then [ad 2 a, ad 3 a, ad 4 a] else [])
    (if p then [none, some (bn, 0), some (bn, 1), some (bn, 2)] else [none, none, none, none])
  fol : ∀ i ∈ fs, ∃ op tr cl ls peers, c.servers i = .up op ∧ op.ble.outgoing = [] ∧ op.sp = folSP i (m i) (r i) tr cl ls peers
  down : ∀ i ∈ fs, c.net 1 i = (List.range' (m i + 1) ((if p then a - 1 else a) - m i)).map fun x => .paxos (ad i x)
  up : ∀ i ∈ fs, c.net i 1 = up i
  unused : c.net 1 1 = [] ∧ ∀ i ∈ fs, ∀ j ∈ fs, c.net i j = []
  le : ∀ i ∈ fs, m i ≤ if p then a - 1 else a

namespace Pos

variable {c : C} {a : Nat} {v m : NodeId → Nat} {p : Bool} {r : NodeId → Bool} {up : NodeId → List (Message Nat (List Nat))}

theorem fs_ne {i : NodeId} (h : i ∈ fs) : i ≠ 1 := by rintro rfl; simp [fs] at h

theorem append (h : Pos c a v m false r up) : ∃ c', c.step c4 (.call 1 (.append 5)) = some c' ∧ Pos c' (a + 1) v m true r up := by
  obtain ⟨op, tr, cl, h1, hb, h2⟩ := h.lead
  have h3 : M.Sat (Call.append 5 : Call Nat (List Nat)).run op.clearTrail (fun _ o => o.ble.outgoing = [] ∧ ∃ tr cl, o.sp =
      leadSP (a + 1) v tr cl [ad 2 (a + 1), ad 3 (a + 1), ad 4 (a + 1)] [none, some (bn, 0), some (bn, 1), some (bn, 2)]) (fun _ => False) := by
    simp only [Call.run, OP.append, M.sat_bind, OP.sat_onSP, M.sat_pure, OP.clearTrail_sp, clear_lead h2]
    refine M.sat_mono (append_lead a v [] []) (fun _ s hs => ?_) fun _ h => h
    exact ⟨hb, hs⟩
  rcases callResult_sat h3 with ⟨o, e1, e2, tr', cl', e3⟩ | ⟨_, _, e⟩
  · refine ⟨c.setServer 1 (.up o), by simp only [Cluster.step, h1, Call.isIncoming, Bool.false_eq_true, if_false, e1], ?_⟩
    refine ⟨⟨o, tr', cl', Cluster.setServer_self .., e2, by simpa using e3⟩, fun i hi => ?_, fun i hi => ?_, h.up, h.unused, fun i hi => ?_⟩
    · rw [Cluster.setServer_other (fs_ne hi)]
      exact h.fol i hi
    · have := h.down i hi
      simpa using this
    · have := h.le i hi
      simpa using this
  · exact e.elim

theorem dst_filter {op : OP Nat (List Nat)} (hb : op.ble.outgoing = []) (j : NodeId) : (op.take_outgoing_messages []).1.filter (fun m => decide (m.dst = j)) =
    (op.sp.outgoing.filter fun m => decide (m.dst = j)).map .paxos := by
  simp only [OP.take_outgoing_messages, SP.take_outgoing_msgs, hb, List.isEmpty_nil, if_true, List.map_nil, List.append_nil, List.filter_map]
  rfl

theorem take_lead (h : Pos c a v m true r up) (ha : 0 < a) : ∃ c', c.step c4 (.take 1) = some c' ∧ Pos c' a v m false r up := by
  obtain ⟨op, tr, cl, h1, hb, h2⟩ := h.lead
  obtain ⟨ho, ht⟩ := Starve.take_lead h2
  rw [if_pos rfl] at ho
  refine ⟨c.taken 1 op, by simp only [Cluster.step, h1]; rfl, ?_⟩
  refine ⟨⟨_, tr, cl, Cluster.taken_self .., rfl, ht⟩, fun i hi => ?_, fun i hi => ?_, fun i hi => ?_, ⟨?_, fun i hi j hj => ?_⟩, fun i hi => ?_⟩
  · rw [Cluster.taken_other (fs_ne hi)]
    exact h.fol i hi
  · have h3 := h.down i hi
    have h4 := h.le i hi
    simp only [if_true] at h3 h4
    simp only [Cluster.taken, if_true, Bool.false_eq_true, if_false, h3, dst_filter hb, ho]
    have h5 : ([ad 2 a, ad 3 a, ad 4 a].filter fun m => decide (m.dst = i)) = [ad i a] := by
      simp only [fs, List.mem_cons, List.not_mem_nil, or_false] at hi
      rcases hi with rfl | rfl | rfl <;> simp [ad]
    rw [h5, show a - m i = (a - 1 - m i) + 1 by omega, List.range'_concat, show m i + 1 + 1 * (a - 1 - m i) = a by omega]
    simp only [List.map_append, List.map_cons, List.map_nil]
  · simp only [Cluster.taken, if_neg (fs_ne hi)]
    exact h.up i hi
  · simp only [Cluster.taken, if_true, h.unused.1, dst_filter hb, ho]
    simp [ad]
  · simp only [Cluster.taken, if_neg (fs_ne hi)]
    exact h.unused.2 i hi j hj
  · have := h.le i hi
    simp only [if_true] at this
    simp
    omega

theorem deliver_down (h : Pos c a v m false r up) {g : NodeId} (hg : g ∈ fs) (hm : m g < a) :
    ∃ c', c.step c4 (.deliver 1 g) = some c' ∧ Pos c' a v (put m g (m g + 1)) false (put r g true) up := by
  obtain ⟨op, tr, cl, ls, peers, h1, hb, h2⟩ := h.fol g hg
  have hd := h.down g hg
  simp only [Bool.false_eq_true, if_false] at hd
  rw [show a - m g = (a - (m g + 1)) + 1 by omega, List.range'_succ, List.map_cons] at hd
  have h3 : M.Sat (Call.handleIncoming (.paxos (ad g (m g + 1))) : Call Nat (List Nat)).run op.clearTrail (fun _ o => o.ble.outgoing = [] ∧ ∃ tr cl, o.sp =
      folSP g (m g + 1) true tr cl ls peers) (fun _ => False) := by
    simp only [Call.run, OP.handle_incoming, OP.sat_onSP, OP.clearTrail_sp, clear_fol h2]
    exact M.sat_mono handle_fol (fun _ s hs => ⟨hb, hs⟩) fun _ h => h
  rcases callResult_sat h3 with ⟨o, e1, e2, tr', cl', e3⟩ | ⟨_, _, e⟩
  · refine ⟨_, by simp only [Cluster.step, hd, h1, e1]; rfl, ?_⟩
    refine ⟨?_, fun i hi => ?_, fun i hi => ?_, fun i hi => ?_, ⟨?_, fun i hi j hj => ?_⟩, fun i hi => ?_⟩
    · rw [Cluster.setServer_other (Ne.symm (fs_ne hg))]
      exact h.lead
    · by_cases e : i = g
      · subst e
        rw [put_self, put_self]
        exact ⟨o, tr', cl', ls, peers, Cluster.setServer_self .., e2, e3⟩
      · rw [Cluster.setServer_other e, put_other e, put_other e]
        exact h.fol i hi
    · show (c.setNet 1 g _).net 1 i = _
      by_cases e : i = g
      · subst e
        simp only [Cluster.setNet, and_self, if_true, put_self, Bool.false_eq_true, if_false]
      · simp only [Cluster.setNet, e, and_false, if_false, put_other e]
        exact h.down i hi
    · show (c.setNet 1 g _).net i 1 = _
      simp only [Cluster.setNet, Ne.symm (fs_ne hg), and_false, if_false]
      exact h.up i hi
    · show (c.setNet 1 g _).net 1 1 = _
      simp only [Cluster.setNet, Ne.symm (fs_ne hg), and_false, if_false]
      exact h.unused.1
    · show (c.setNet 1 g _).net i j = _
      simp only [Cluster.setNet, fs_ne hi, false_and, if_false]
      exact h.unused.2 i hi j hj
    · by_cases e : i = g
      · subst e
        simp
        omega
      · rw [put_other e]
        exact h.le i hi
  · exact e.elim

theorem deliver_all (k : Nat) {c : C} {m : NodeId → Nat} {r : NodeId → Bool} (h : Pos c a v m false r up) {g : NodeId} (hg : g ∈ fs) (hm : m g + (k + 1) = a) :
    ∃ c', c.run c4 (List.replicate (k + 1) (.deliver 1 g)) = some c' ∧ Pos c' a v (put m g a) false (put r g true) up := by
  obtain ⟨c1, h1, h2⟩ := h.deliver_down hg (by omega)
  induction k generalizing c m r c1 with
  | zero =>
    refine ⟨c1, by simp [Cluster.run, h1], ?_⟩
    rwa [show m g + 1 = a by omega] at h2
  | succ k ih =>
    obtain ⟨c2, h3, h4⟩ := h2.deliver_down hg (by rw [put_self]; omega)
    obtain ⟨c3, h5, h6⟩ := ih h2 (by rw [put_self]; omega) c2 h3 h4
    refine ⟨c3, ?_, ?_⟩
    · rw [List.replicate_succ, Cluster.run, h1]
      exact h5
    · have e1 : put (put m g (m g + 1)) g a = put m g a := by funext i; simp only [put]; split <;> rfl
      have e2 : put (put r g true) g true = put r g true := by funext i; simp only [put]; split <;> rfl
      rwa [e1, e2] at h6

theorem take_fol (h : Pos c a v m p r up) {g : NodeId} (hg : g ∈ fs) (hr : r g = true) (hu : up g = []) : ∃ c', c.step c4 (.take g) = some c' ∧
    Pos c' a v m p (put r g false) (put up g [.paxos { src := g, dst := 1, msg := .accepted ⟨bn, m g⟩ }]) := by
  obtain ⟨op, tr, cl, ls, peers, h1, hb, h2⟩ := h.fol g hg
  obtain ⟨ho, ht⟩ := Starve.take_fol h2
  rw [if_pos hr] at ho
  refine ⟨c.taken g op, by simp only [Cluster.step, h1]; rfl, ?_⟩
  refine ⟨?_, fun i hi => ?_, fun i hi => ?_, fun i hi => ?_, ⟨?_, fun i hi j hj => ?_⟩, h.le⟩
  · rw [Cluster.taken_other (Ne.symm (fs_ne hg))]
    exact h.lead
  · by_cases e : i = g
    · subst e
      rw [put_self]
      exact ⟨_, tr, cl, _, peers, Cluster.taken_self .., rfl, ht⟩
    · rw [Cluster.taken_other e, put_other e]
      exact h.fol i hi
  · simp only [Cluster.taken, if_neg (Ne.symm (fs_ne hg))]
    exact h.down i hi
  · by_cases e : i = g
    · subst e
      simp only [Cluster.taken, if_true, h.up i hi, hu, dst_filter hb, ho, put_self]
      simp
    · simp only [Cluster.taken, if_neg e, put_other e]
      exact h.up i hi
  · simp only [Cluster.taken, if_neg (Ne.symm (fs_ne hg))]
    exact h.unused.1
  · simp only [Cluster.taken]
    split
    · rename_i e
      subst e
      rw [h.unused.2 i hi j hj, dst_filter hb, ho]
      simp [Ne.symm (fs_ne hj)]
    · exact h.unused.2 i hi j hj

theorem deliver_up (h : Pos c (a + 1) v m false r up) {g : NodeId} (hg : g ∈ fs) (hv : ∀ i, v i ≤ a)
    (hu : up g = [.paxos { src := g, dst := 1, msg := .accepted ⟨bn, a + 1⟩ }]) : ∃ c', c.step c4 (.deliver g 1) = some c' ∧
    Pos c' (a + 1) (put v g (a + 1)) m false r (put up g []) := by
  obtain ⟨op, tr, cl, h1, hb, h2⟩ := h.lead
  simp only [Bool.false_eq_true, if_false] at h2
  have h3 : M.Sat (Call.handleIncoming (.paxos { src := g, dst := 1, msg := .accepted ⟨bn, a + 1⟩ }) : Call Nat (List Nat)).run op.clearTrail
      (fun _ o => o.ble.outgoing = [] ∧ o.sp = leadSP (a + 1) (put v g (a + 1)) [] [] [] [none, none, none, none]) (fun _ => False) := by
    simp only [Call.run, OP.handle_incoming, OP.sat_onSP, OP.clearTrail_sp, clear_lead h2]
    exact M.sat_mono (handle_lead (by simpa [fs] using hg) hv) (fun _ s hs => ⟨hb, hs⟩) fun _ h => h
  rcases callResult_sat h3 with ⟨o, e1, e2, e3⟩ | ⟨_, _, e⟩
  · refine ⟨_, by simp only [Cluster.step, h.up g hg, hu, h1, e1]; rfl, ?_⟩
    refine ⟨⟨o, [], [], Cluster.setServer_self .., e2, e3⟩, fun i hi => ?_, fun i hi => ?_, fun i hi => ?_, ⟨?_, fun i hi j hj => ?_⟩, h.le⟩
    · rw [Cluster.setServer_other (fs_ne hi)]
      exact h.fol i hi
    · show (c.setNet g 1 _).net 1 i = _
      simp only [Cluster.setNet, Ne.symm (fs_ne hg), false_and, if_false]
      exact h.down i hi
    · show (c.setNet g 1 _).net i 1 = _
      by_cases e : i = g
      · subst e
        simp [Cluster.setNet]
      · simp only [Cluster.setNet, e, false_and, if_false, put_other e]
        exact h.up i hi
    · show (c.setNet g 1 _).net 1 1 = _
      simp only [Cluster.setNet, Ne.symm (fs_ne hg), false_and, if_false]
      exact h.unused.1
    · show (c.setNet g 1 _).net i j = _
      simp only [Cluster.setNet, fs_ne hj, and_false, if_false]
      exact h.unused.2 i hi j hj
  · exact e.elim

end Pos

/-- An entry is appended and sent to all; follower `g` receives the last `k`, replies, and the leader receives its reply. -/
def cycle (k : Nat) (g : NodeId) : List A := .call 1 (.append 5) :: .take 1 :: List.replicate k (.deliver 1 g) ++ [.take g, .deliver g 1]

/-- Where the servers stand between cycles. -/
abbrev Rest (c : C) (a : Nat) (v m : NodeId → Nat) : Prop := Pos c a v m false (fun _ => false) (fun _ => [])

theorem cycled (k : Nat) {c : C} {a : Nat} {v m : NodeId → Nat} (h : Rest c a v m) (hv : ∀ i, v i ≤ a) {g : NodeId} (hg : g ∈ fs) (hm : m g + k = a) :
    ∃ c', c.run c4 (cycle (k + 1) g) = some c' ∧ Rest c' (a + 1) (put v g (a + 1)) (put m g (a + 1)) := by
  obtain ⟨c1, e1, h1⟩ := h.append
  obtain ⟨c2, e2, h2⟩ := h1.take_lead (Nat.succ_pos _)
  obtain ⟨c3, e3, h3⟩ := h2.deliver_all k hg (by omega)
  obtain ⟨c4', e4, h4⟩ := h3.take_fol hg (put_self ..) rfl
  rw [put_self] at h4
  obtain ⟨c5, e5, h5⟩ := h4.deliver_up hg hv (put_self ..)
  refine ⟨c5, ?_, ?_⟩
  · simp only [cycle, List.cons_append, Cluster.run, e1, e2, Cluster.run_append, e3, Option.bind_some, e4, e5]
  · have r1 : put (put (fun _ => false) g true) g false = fun _ => false := by funext i; simp only [put]; split <;> rfl
    have r2 : put (put (fun _ => ([] : List (Message Nat (List Nat)))) g [.paxos { src := g, dst := 1, msg := .accepted ⟨bn, a + 1⟩ }]) g [] = fun _ => [] := by
      funext i; simp only [put]; split <;> rfl
    rwa [r1, r2] at h5

/-- How far the followers are at the beginning of a round. -/
def at3 (b : Nat) : NodeId → Nat := fun i => if i = 2 then b else if i = 3 then b + 1 else if i = 4 then b + 2 else 0

def round : List A := cycle 3 2 ++ cycle 3 3 ++ cycle 3 4

theorem rounded {c : C} {b : Nat} (h : Rest c (b + 2) (at3 b) (at3 b)) : ∃ c', c.run c4 round = some c' ∧ Rest c' (b + 5) (at3 (b + 3)) (at3 (b + 3)) := by
  have hv : ∀ i, at3 b i ≤ b + 2 := fun i => by simp only [at3]; repeat' split
                                                all_goals omega
  obtain ⟨c1, e1, h1⟩ := cycled 2 h hv (g := 2) (by simp [fs]) (by simp [at3])
  have hv1 : ∀ i, put (at3 b) 2 (b + 3) i ≤ b + 3 := fun i => by simp only [put]; split
                                                                 · omega
                                                                 · have := hv i; omega
  obtain ⟨c2, e2, h2⟩ := cycled 2 h1 hv1 (g := 3) (by simp [fs]) (by simp [put, at3])
  have hv2 : ∀ i, put (put (at3 b) 2 (b + 3)) 3 (b + 4) i ≤ b + 4 := fun i => by rw [put]; split
                                                                                 · omega
                                                                                 · have := hv1 i; omega
  obtain ⟨c3, e3, h3⟩ := cycled 2 h2 hv2 (g := 4) (by simp [fs]) (by simp [put, at3])
  refine ⟨c3, by simp only [round, Cluster.run_append, e1, Option.bind_some, e2, e3], ?_⟩
  have e : put (put (put (at3 b) 2 (b + 2 + 1)) 3 (b + 2 + 1 + 1)) 4 (b + 2 + 1 + 1 + 1) = at3 (b + 3) := by
    funext i
    simp only [put, at3]
    by_cases h2 : i = 2
    · subst h2; simp
    · by_cases h3 : i = 3
      · subst h3; simp
      · by_cases h4 : i = 4
        · subst h4; simp
        · simp [h2, h3, h4]
  rwa [e] at h3

/-- A round is steady. -/
theorem steady_round {as : List A} (h : ∀ a ∈ as, a.Calm c4 ∧ ∀ i, a ≠ .call i .tick) (c : C) : c.Steady c4 bn as :=
  ⟨fun a ha => (h a ha).1, fun i _ _ hk _ => absurd rfl ((h _ (List.mem_of_getElem? hk)).2 i)⟩

theorem cycle_calm {k : Nat} {g : NodeId} (hg : g ∈ fs) : ∀ a ∈ cycle k g, a.Calm c4 ∧ ∀ i, a ≠ .call i .tick := by
  have hg' : g ∈ c4.nodes := by simp only [fs, List.mem_cons, List.not_mem_nil, or_false] at hg; rcases hg with rfl | rfl | rfl <;> decide
  have h1 : (1 : NodeId) ∈ c4.nodes := by decide
  intro a ha
  simp only [cycle, List.cons_append, List.mem_cons, List.mem_append, List.mem_replicate, List.not_mem_nil, or_false] at ha
  rcases ha with rfl | rfl | ⟨_, rfl⟩ | rfl | rfl <;> simp [Action.Calm, hg', h1]

theorem round_calm : ∀ a ∈ round, a.Calm c4 ∧ ∀ i, a ≠ .call i .tick := by
  intro a ha
  simp only [round, List.mem_append] at ha
  rcases ha with (ha | ha) | ha <;> exact cycle_calm (by simp [fs]) a ha

/-- Everything that waits gets its turn in a round. -/
theorem turns_round {c : C} {b : Nat} (h : Rest c (b + 2) (at3 b) (at3 b)) : c.Turns c4 round := by
  have hs : ∀ i ∈ c4.nodes, ∀ op, c.servers i = .up op → op.sp.outgoing = [] ∧ op.sp.ist.cache.batched_entries = [] := by
    intro i hi op e
    by_cases h1 : i = 1
    · subst h1
      obtain ⟨o, tr, cl, h2, _, h3⟩ := h.lead
      rw [e] at h2
      cases h2
      exact ⟨by have := (take_lead h3).1; simpa using this, (facts_lead h3).1⟩
    · obtain ⟨o, tr, cl, ls, ps, h2, _, h3⟩ := h.fol i (by simp [c4] at hi; simp [fs]; omega)
      rw [e] at h2
      cases h2
      exact ⟨by have := (take_fol h3).1; simpa using this, (facts_fol h3).1⟩
  have hc : ∀ g ∈ fs, 3 ≤ round.countP (Action.isDelivery 1 g) := by decide
  refine ⟨fun i hi op e hne => absurd (hs i hi op e).1 hne, fun i hi j hj => ?_, fun i hi op e hne => absurd (hs i hi op e).2 hne⟩
  have fsOf : ∀ x ∈ c4.nodes, x ≠ 1 → x ∈ fs := fun x hx h1 => by simp [c4] at hx; simp [fs]; omega
  by_cases h1 : i = 1
  · subst h1
    by_cases h2 : j = 1
    · subst h2
      rw [h.unused.1]
      simp
    · have := hc j (fsOf j hj h2)
      rw [h.down j (fsOf j hj h2)]
      simp only [List.length_map, List.length_range', Bool.false_eq_true, if_false]
      have : b + 2 - at3 b j ≤ 2 := by
        have := fsOf j hj h2
        simp only [fs, List.mem_cons, List.not_mem_nil, or_false] at this
        rcases this with rfl | rfl | rfl <;> simp [at3]
      omega
  · by_cases h2 : j = 1
    · subst h2
      rw [h.up i (fsOf i hi h1)]
      simp
    · rw [h.unused.2 i (fsOf i hi h1) j (fsOf j hj h2)]
      simp

end Omni.Starve
