import Verif.Proof.Steady.Sys
/-
From the start of a cluster to steady operation: the servers that have not taken part in a round yet, those that have promised, and the candidate.
-/
namespace Omni

variable {E S : Type} {n : Ballot} {cc : ClusterConfig}

/-- Storage and cache of a server that has accepted nothing. -/
structure Blank (p : Ballot) (i : IStore E S) : Prop where
  st : Stored p 0 [] 0 [] [] 0 i
  round : i.cache.accepted_round = {}

theorem Blank.clear {p : Ballot} {i : IStore E S} (h : Blank p i) : Blank p { i with trail := [], calls := [] } := ⟨h.st.clear, h.round⟩

/-- The Prepare of a leader that has accepted nothing. -/
def prep0 (n : Ballot) : Prepare := { n, decided_idx := 0, n_accepted := {}, accepted_idx := 0 }

/-- The Promise of a follower that has accepted nothing. -/
def prom0 (n : Ballot) : Promise E S := { n, n_accepted := {}, decided_idx := 0, accepted_idx := 0, log_sync := none }

/-- A synchronisation with the whole log. -/
def sync0 (Y : List E) : LogSync E S := { decided_snapshot := none, suffix := Y, sync_idx := 0, stopsign := none }

theorem Blank.flush_promise {p : Ballot} {i : IStore E S} (h : Blank p i) (n : Ballot) : Blank n (i.flushed.promised n) := by
  refine ⟨⟨?_, rfl, ?_, h.st.dec, h.st.comp, h.st.trim, h.st.ccomp, h.st.ss, h.st.dss, rfl, rfl⟩, h.round⟩
  · show i.storage.log ++ i.cache.batched_entries = _
    rw [h.st.log, h.st.batch]; rfl
  · show i.cache.accepted_idx + i.cache.batched_entries.length = _
    rw [h.st.acc, h.st.batch]; rfl

/-- internal_storage.rs 313-360 without a log. -/
theorem Blank.sync_none [SnapOps E S] {p : Ballot} {i : IStore E S} (h : Blank p i) (n : Ballot) :
    M.Sat (IStore.sync_log n 0 none) i (fun r j => r = 0 ∧ Stored p 0 [] 0 [] [] 0 j) (fun _ => False) := by
  simp only [IStore.sync_log, M.sat_bind, IStore.sat_setCache, IStore.sat_writeOps, M.sat_get, M.sat_pure]
  refine ⟨fun m hm => ?_, fun h => by simp [Mem.write_atomically, Mem.apply] at h⟩
  simp [Mem.write_atomically, Mem.apply] at hm
  subst hm
  exact ⟨h.st.acc, h.st.log, h.st.batch, h.st.acc, rfl, h.st.comp, h.st.trim, h.st.ccomp, h.st.ss, h.st.dss, h.st.prom, h.st.nprom⟩

/-- internal_storage.rs 313-360 with the leader's whole log. -/
theorem Blank.sync_all [SnapOps E S] {p : Ballot} {i : IStore E S} (h : Blank p i) (n : Ballot) (d : Nat) (Y : List E) :
    M.Sat (IStore.sync_log n d (some (sync0 Y))) i (fun r j => r = Y.length ∧ Stored p 0 [] 0 Y [] d j) (fun _ => False) := by
  simp only [IStore.sync_log, M.sat_bind, IStore.sat_setCache, IStore.sat_writeOps, M.sat_get, M.sat_pure, M.sat_ofPan, IStore.syncSnapshotOps, sync0,
    IStore.syncStopsignOps, h.st.ss]
  refine ⟨fun ops ho => ?_, fun h => by simp at h⟩
  simp only [Option.some.injEq] at ho
  subst ho
  have hw : i.storage.write_atomically ([.setAcceptedRound n, .setDecidedIndex d] ++ [] ++ [.appendOnPrefix 0 Y] ++ []) =
      some { i.storage with acc_round := some n, ld := d, log := Y } := by
    simp [Mem.write_atomically, Mem.apply, Mem.append_on_prefix, Mem.set_accepted_round, Mem.set_decided_idx, usub, h.st.trim, Mem.append_entries]
  refine ⟨fun m hm => ?_, fun hn => by rw [hw] at hn; cases hn⟩
  rw [hw] at hm
  simp only [Option.some.injEq] at hm
  subst hm
  refine ⟨by simp, by simp, h.st.batch, by simp, rfl, h.st.comp, h.st.trim, by simpa using h.st.ccomp, rfl, h.st.dss, h.st.prom, h.st.nprom⟩

/-! ### Followers -/

/-- A follower that is not in the Accept phase of any round yet and has promised `p`. -/
structure Join (p : Ballot) (ph : Phase) (n : Ballot) (f : NodeId) (s : SP E S) : Prop where
  role : s.role = .follower
  phase : s.phase = ph
  pid : s.pid = f
  ne : f ≠ n.pid
  pos : 0 < n.pid
  ist : Blank p s.ist
  ends : ∀ m ∈ s.outgoing, m.src = f ∧ m.dst = n.pid

namespace Join

variable {p : Ballot} {ph : Phase} {f : NodeId} {s : SP E S}

theorem clear (h : Join p ph n f s) : Join p ph n f { s with ist := { s.ist with trail := [], calls := [] } } :=
  ⟨h.role, h.phase, h.pid, h.ne, h.pos, h.ist.clear, h.ends⟩

theorem take (h : Join p ph n f s) (buf : List (Message E S)) : Join p ph n f (s.take_outgoing_msgs buf).2 :=
  ⟨h.role, h.phase, h.pid, h.ne, h.pos, h.ist, nofun⟩

/-- mod.rs 298-305 before there is a leader. -/
theorem append_held (h : Join {} .none n f s) (e : E) :
    M.Sat (SP.append e) s (fun _ s' => Join {} .none n f s' ∧ s'.outgoing = s.outgoing ∧ s'.buffered_proposals = s.buffered_proposals ++ [e])
      (fun _ => False) := by
  have hr : s.accepted_reconfiguration = false := by simp [SP.accepted_reconfiguration, h.ist.st.ss]
  have hp : s.get_current_leader = 0 := congrArg Ballot.pid h.ist.st.prom
  simp only [SP.append, M.sat_bind, M.sat_get, hr, SP.propose_entry, h.role, h.phase, Bool.false_eq_true, if_false, M.sat_pure]
  simp only [SP.forward_proposals, M.sat_bind, M.sat_get, hp, M.sat_ite, M.sat_upd]
  refine ⟨fun hc => absurd hc.1 (Nat.lt_irrefl 0), fun _ => ⟨⟨h.role, h.phase, h.pid, h.ne, h.pos, h.ist, h.ends⟩, trivial, trivial⟩⟩

/-- mod.rs 298-305 after the promise. -/
theorem append_forward (h : Join n .prepare n f s) (e : E) :
    M.Sat (SP.append e) s (fun _ s' => Join n .prepare n f s' ∧ s'.outgoing.map (·.msg) = s.outgoing.map (·.msg) ++ [.proposalForward [e]] ∧
      s'.buffered_proposals = s.buffered_proposals) (fun _ => False) := by
  have hr : s.accepted_reconfiguration = false := by simp [SP.accepted_reconfiguration, h.ist.st.ss]
  have hp : s.get_current_leader = n.pid := congrArg Ballot.pid h.ist.st.prom
  simp only [SP.append, M.sat_bind, M.sat_get, hr, SP.propose_entry, h.role, h.phase, Bool.false_eq_true, if_false, M.sat_pure]
  simp only [SP.forward_proposals, M.sat_bind, M.sat_get, hp, M.sat_ite, M.sat_upd, SP.sat_send]
  refine ⟨fun _ => ⟨⟨h.role, h.phase, h.pid, h.ne, h.pos, h.ist, fun m hm => ?_⟩, by simp, trivial⟩, fun hc => absurd ⟨h.pos, by rw [h.pid]; exact h.ne⟩ hc⟩
  rcases List.mem_append.1 hm with hm | hm
  · exact h.ends m hm
  · rw [List.mem_singleton.1 hm]; exact ⟨h.pid, rfl⟩

/-- A tick at which nobody is elected and the resend timeout does not fire. -/
theorem ticked (h : Join p ph n f s) (hph : ph ≠ .accept) (r w : Prop) [Decidable r] [Decidable w] (hr : ¬ r) :
    M.Sat (SP.ticked none r w) s (fun _ s' => s' = s) (fun _ => False) := by
  simp only [SP.ticked, M.sat_bind, M.sat_pure, M.sat_whenDo, hr, false_implies, not_false_eq_true, true_implies, true_and]
  refine ⟨fun _ => ?_, fun _ => trivial⟩
  simp only [SP.flush_batch_timeout, M.sat_bind, M.sat_get, h.role, h.phase]
  cases ph <;> first | exact absurd rfl hph | simp

theorem ballot_pos {n : Ballot} (h : 0 < n.pid) : ({} : Ballot) < n := by
  show Ballot.cmp {} n = .lt
  have hc : ∀ m : Nat, compare 0 m = if 0 < m then .lt else .eq := fun m => by
    rw [Nat.compare_eq_ite_lt]
    split
    · rfl
    · rw [if_neg (Nat.not_lt_zero m)]
  simp only [Ballot.cmp, hc]
  rw [if_pos h]
  split <;> split <;> rfl

/-- follower.rs 13-51. -/
theorem handle_prepare [SnapOps E S] (h : Join {} .none n f s) (ho : s.outgoing = []) :
    M.Sat (SP.handle_prepare (prep0 n) n.pid) s (fun _ s' => Join n .prepare n f s' ∧ s'.outgoing.map (·.msg) = [.promise (prom0 n)] ∧
      s'.buffered_proposals = s.buffered_proposals) (fun _ => False) := by
  have hp : s.get_promise < (prep0 n).n := by rw [show s.get_promise = {} from h.ist.st.prom]; exact ballot_pos h.pos
  have hB := h.ist.flush_promise n
  simp only [SP.handle_prepare, M.sat_bind, M.sat_get, M.sat_ite, M.sat_upd, M.sat_pure, SP.sat_onStore, IStore.sat_flush_batch, IStore.sat_set_promise,
    M.sat_ofPan, SP.sat_send]
  refine ⟨fun _ => ?_, fun hc => absurd (.inl hp) hc⟩
  have hl : SP.promise_log_sync { s with role := .follower, phase := .prepare, current_seq_num := {}, ist := s.ist.flushed.promised n } (prep0 n) = some none := by
    unfold SP.promise_log_sync
    simp only [hB.round, hB.st.acc, prep0]
    rw [if_neg (Ballot.lt_irrefl _), if_neg (by simp)]
  refine ⟨fun y hy => ?_, fun hy => by rw [show (prep0 n).n = n from rfl, hl] at hy; cases hy⟩
  rw [show (prep0 n).n = n from rfl, hl] at hy
  simp only [Option.some.injEq] at hy
  subst hy
  refine ⟨⟨rfl, rfl, h.pid, h.ne, h.pos, hB, fun m hm => ?_⟩, ?_, trivial⟩
  · simp only [ho, List.nil_append, List.mem_singleton] at hm
    subst hm
    exact ⟨h.pid, rfl⟩
  · simp only [ho, List.nil_append, List.map_cons, List.map_nil, prom0, show (prep0 n).n = n from rfl, hB.round, hB.st.acc, hB.st.dec, List.length_nil]

/-- follower.rs 53-79. -/
theorem handle_acceptsync [SnapOps E S] (h : Join n .prepare n f s) (hf : ∀ m ∈ s.outgoing, m.msg.isForward) (q : SeqNum) {d : Nat} {Y : List E}
    (hd : d ≤ Y.length) : M.Sat (SP.handle_acceptsync { n, seq_num := q, decided_idx := d, log_sync := sync0 Y } n.pid) s (fun _ s' =>
      ∃ out, Fol n 0 [] 0 f Y [] ⟨q, Y, d⟩ Y.length out s' ∧ lastAcc 0 out = Y.length ∧
        out.flatMap PaxosMsg.forwards = (s.outgoing.map (·.msg)).flatMap PaxosMsg.forwards ++ s.buffered_proposals) (fun _ => False) := by
  have hp : s.get_promise = n := h.ist.st.prom
  have hc : n.cmp n = .eq := by simp [Ballot.cmp]
  simp only [SP.handle_acceptsync, SP.check_valid_ballot, M.sat_bind, M.sat_get, hp]
  rw [hc]
  simp only [M.sat_pure, M.sat_ite]
  refine ⟨fun _ => ?_, fun hc => absurd ⟨trivial, h.role, h.phase⟩ hc⟩
  simp only [M.sat_bind, M.sat_upd, SP.sat_onStore]
  refine M.sat_mono (h.ist.sync_all n d Y) (fun r j hj => ?_) fun _ h => h
  obtain ⟨rfl, hj⟩ := hj
  have hl : SP.get_current_leader { s with ist := j, cached_promise := none, buffered_proposals := [] } = n.pid := congrArg Ballot.pid hj.prom
  simp only [M.sat_whenDo, SP.forward_buffered_proposals, SP.forward_proposals, M.sat_bind, M.sat_get, M.sat_upd, M.sat_ite, M.sat_pure, SP.sat_setState,
    SP.sat_send, hl]
  refine ⟨fun _ => ⟨fun he => ?_, fun he => ⟨fun _ => ?_, fun hc => absurd ⟨h.pos, by simp only [h.pid]; exact h.ne⟩ hc⟩⟩,
    fun hc => absurd (by rw [hj.ss]; rfl) hc⟩
  all_goals
    refine ⟨_, ⟨rfl, rfl, h.pid, h.ne, h.pos, rfl, hj, rfl, by simp, by simp, hd, rfl, ?_, ?_, ?_⟩, ?_, ?_⟩
    · intro m hm
      simp only [List.mem_append, List.mem_singleton] at hm
      rcases hm with hm | hm
      · first
          | exact h.ends m hm
          | rcases hm with hm | hm
            · exact h.ends m hm
            · rw [hm]; exact ⟨h.pid, rfl⟩
      · rw [hm]; exact ⟨h.pid, rfl⟩
    · intro m hm
      simp only [List.map_append, List.map_cons, List.map_nil, List.mem_append, List.mem_singleton] at hm
      have old : m ∈ s.outgoing.map (·.msg) → m.Reply n Y.length := fun hm => by
        obtain ⟨x, hx, rfl⟩ := List.mem_map.1 hm
        have := hf x hx
        cases hx : x.msg <;> rw [hx] at this <;> first | exact trivial | cases this
      rcases hm with hm | hm
      · first
          | exact old hm
          | rcases hm with hm | hm
            · exact old hm
            · rw [hm]; trivial
      · rw [hm]; exact ⟨rfl, Nat.le_refl _⟩
    · intro b idx e
      simp only [Option.some.injEq, Prod.mk.injEq] at e
      exact ⟨e.1.symm, _, _, [], rfl, e.2, ⟨_, rfl⟩, nofun⟩
    · rw [List.map_append, lastAcc_append]; rfl
    · simp only [List.map_append, List.map_cons, List.map_nil, List.flatMap_append, List.flatMap_cons, List.flatMap_nil, PaxosMsg.forwards, List.append_nil]
      try rw [List.isEmpty_iff.1 he, List.append_nil]

end Join

end Omni
