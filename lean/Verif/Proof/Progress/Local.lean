import Verif.Proof.Safety.Store
import Verif.Proof.Safety.Slot
import Verif.Proof.SendOnly
/-
What the handlers that take part in reaching a decision do when nothing is in the way. (A panic is excluded elsewhere.)
-/
namespace Omni

variable {E S : Type}

abbrev Does {σ α : Type} (m : M σ α) (s : σ) (Q : α → σ → Prop) : Prop := M.Sat m s Q fun _ => True

namespace SP

variable {s : SP E S}

theorem does_send_all (ps : List NodeId) (m : NodeId → PaxosMsg E S) (s : SP E S) :
    Does (M.forEach ps fun p => send p (m p)) s
      fun _ t => t = { s with outgoing := s.outgoing ++ ps.map fun p => { src := s.pid, dst := p, msg := m p } } := by
  induction ps generalizing s with
  | nil => simp [Does]
  | cons p ps ih =>
    unfold Does
    rw [M.sat_forEach_cons, sat_send]
    refine M.sat_mono (ih _) (fun _ t ht => ?_) fun _ h => h
    rw [ht]; simp

/-! ### Becoming leader -/

theorem update_max_fields (ls : LeaderState E S) (m : PromiseMetaData) (y : Option (LogSync E S)) (b : Bool) :
    (ls.update_max m y b).n_leader = ls.n_leader ∧ (ls.update_max m y b).quorum = ls.quorum ∧
    (ls.update_max m y b).accepted_indexes = ls.accepted_indexes ∧ (ls.update_max m y b).promises_meta = ls.promises_meta ∧
    (ls.update_max m y b).follower_seq_nums = ls.follower_seq_nums := by
  unfold LeaderState.update_max
  split <;> exact ⟨rfl, rfl, rfl, rfl, rfl⟩

theorem set_promise_spec {ls : LeaderState E S} {p : Promise E S} {f : NodeId} {b : Bool} {r : LeaderState E S × Bool}
    (h : ls.set_promise p f b = some r) : r.1.n_leader = ls.n_leader ∧ r.1.quorum = ls.quorum ∧
      r.1.accepted_indexes = ls.accepted_indexes ∧ r.1.follower_seq_nums = ls.follower_seq_nums ∧
      (∃ m, setSlot ls.promises_meta f (.promised m) = some r.1.promises_meta) ∧
      r.2 = ls.quorum.is_prepare_quorum r.1.num_promised := by
  simp only [LeaderState.set_promise] at h
  split at h
  · cases h
  · rename_i v hv
    cases h
    obtain ⟨h1, h2, h3, h4, h5⟩ := update_max_fields ls
      { n_accepted := p.n_accepted, accepted_idx := p.accepted_idx, decided_idx := p.decided_idx, pid := f } p.log_sync b
    rw [h4] at hv
    exact ⟨h1, h2, h3, h5, ⟨_, hv⟩, by simp only [h2]⟩

theorem does_handle_leader {n : Ballot} (h1 : s.ls.n_leader < n) (h2 : s.ist.cache.promise < n) (hp : s.pid = n.pid) :
    Does (handle_leader n) s fun _ t => t.role = .leader ∧ t.phase = .prepare ∧ t.ist.cache.promise = n ∧ t.ls.n_leader = n ∧
      t.pid = s.pid ∧ t.peers = s.peers ∧ t.buffered_proposals = s.buffered_proposals ∧ t.ls.quorum = s.ls.quorum ∧
      t.ls.accepted_indexes = List.replicate s.ls.max_pid 0 ∧ t.ist.cache.batched_entries = [] ∧
      (∃ m, setSlot (List.replicate s.ls.max_pid .notPromised) s.pid (.promised m) = some t.ls.promises_meta) ∧
      ∃ p : Prepare, p.n = n ∧ t.outgoing = s.outgoing ++ s.peers.map fun x => { src := s.pid, dst := x, msg := .prepare p } := by
  have hn : ¬ (n ≤ s.ls.n_leader ∨ n ≤ s.get_promise) := by
    rintro (h | h)
    · exact (Ballot.not_le ..).2 h1 h
    · exact (Ballot.not_le ..).2 h2 h
  simp only [Does, handle_leader, M.sat_bind, M.sat_get, M.sat_ite, M.sat_upd, M.sat_pure, sat_onStore, IStore.sat_flush_batch,
    IStore.sat_set_promise, sat_onLS', sat_setState]
  refine ⟨fun h => absurd h hn, fun _ => ⟨fun _ => ⟨fun r hr => ?_, fun _ => trivial⟩, fun h => absurd hp h⟩⟩
  refine M.sat_mono (does_send_all _ _ _) (fun _ t ht => ?_) fun _ h => h
  subst ht
  obtain ⟨h1, h2, h3, -, h4, -⟩ := set_promise_spec hr
  exact ⟨rfl, rfl, rfl, h1, rfl, rfl, rfl, h2, h3, rfl, h4, _, rfl, rfl⟩

/-! ### Promising -/

theorem does_handle_prepare [SnapOps E S] {p : Prepare} {f : NodeId} (h : s.ist.cache.promise < p.n) :
    Does (handle_prepare p f) s fun _ t => t.role = .follower ∧ t.phase = .prepare ∧ t.ist.cache.promise = p.n ∧ t.ist.cache.batched_entries = [] ∧
      ∃ pr : Promise E S, pr.n = p.n ∧ t.outgoing = s.outgoing ++ [{ src := s.pid, dst := f, msg := .promise pr }] := by
  simp only [Does, handle_prepare, M.sat_bind, M.sat_get, M.sat_ite, M.sat_pure, M.sat_upd, sat_onStore, IStore.sat_flush_batch,
    IStore.sat_set_promise, M.sat_ofPan, sat_send]
  exact ⟨fun _ => ⟨fun y _ => ⟨trivial, trivial, rfl, rfl, _, rfl, rfl⟩, fun _ => trivial⟩, fun hn => absurd (.inl h) hn⟩

/-! ### Synchronising followers -/

/-- The AcceptSync a leader with this storage and ballot sends when snapshots are off. -/
structure AccSyncOf (i : IStore E S) (n : Ballot) (a : AcceptSync E S) : Prop where
  n : a.n = n
  dec : a.decided_idx = i.cache.decided_idx
  snap : a.log_sync.decided_snapshot = none
  ss : a.log_sync.stopsign = i.cache.stopsign
  suffix : a.log_sync.suffix = i.storage.log.drop (a.log_sync.sync_idx - i.storage.trimmed_idx)

theorem does_send_accsync [SnapOps E S] (hu : SnapOps.use_snapshots E S = false) (x : NodeId) :
    Does (send_accsync x) s fun _ t => ∃ a v, AccSyncOf s.ist s.ls.n_leader a ∧ slot v x = some a.seq_num ∧
      (∀ y, y ≠ x → slot v y = slot s.ls.follower_seq_nums y) ∧
      t = { s with ls := { s.ls with follower_seq_nums := v }, outgoing := s.outgoing ++ [{ src := s.pid, dst := x, msg := .acceptSync a }] } := by
  simp only [Does, send_accsync, M.sat_bind, M.sat_get, M.sat_ofPan, sat_onLS, sat_onLS', sat_send]
  refine ⟨fun r _ => ⟨fun y hy => ⟨fun ls h1 => ⟨fun r2 h2 => ?_, fun _ => trivial⟩, fun _ => trivial⟩, fun _ => trivial⟩, fun _ => trivial⟩
  simp only [LeaderState.increment_seq_num_session] at h1
  split at h1
  · cases h1
  · split at h1
    · cases h1
    · rename_i v1 hv1
      cases h1
      simp only [LeaderState.next_seq_num] at h2
      split at h2
      · cases h2
      · rename_i q hq
        split at h2
        · cases h2
        · rename_i v2 hv2
          cases h2
          obtain ⟨-, -, -, e1, e2⟩ := setSlot_spec hv1
          obtain ⟨-, -, -, e3, e4⟩ := setSlot_spec hv2
          refine ⟨_, v2, ⟨rfl, rfl, ?_, ?_, ?_⟩, e3, fun z hz => (e4 z hz).trans (e2 z hz), rfl⟩
          all_goals
            simp only [create_log_sync, hu, Bool.false_eq_true, false_and, if_false, Mem.get_suffix, usub] at hy
            split at hy
            · cases hy
            · rename_i suf hsuf
              cases hy
              split at hsuf
              · cases hsuf
              · rename_i k hk
                split at hk
                · cases hk; cases hsuf; rfl
                · cases hk

theorem does_send_accsyncs [SnapOps E S] (hu : SnapOps.use_snapshots E S = false) (xs : List NodeId) (hx : xs.Nodup) (s : SP E S) :
    Does (M.forEach xs send_accsync) s fun _ t => ∃ (f : NodeId → AcceptSync E S) (v : List SeqNum),
      (∀ x ∈ xs, AccSyncOf s.ist s.ls.n_leader (f x) ∧ slot v x = some (f x).seq_num) ∧
      (∀ y, y ∉ xs → slot v y = slot s.ls.follower_seq_nums y) ∧
      t = { s with ls := { s.ls with follower_seq_nums := v },
                   outgoing := s.outgoing ++ xs.map fun x => { src := s.pid, dst := x, msg := .acceptSync (f x) } } := by
  induction xs generalizing s with
  | nil =>
    simp only [Does, M.sat_forEach_nil]
    refine ⟨fun _ => ?_, s.ls.follower_seq_nums, nofun, fun _ _ => rfl, by simp⟩
    exact { n := {}, seq_num := {}, decided_idx := 0, log_sync := { decided_snapshot := none, suffix := [], sync_idx := 0, stopsign := none } }
  | cons x xs ih =>
    unfold Does
    rw [M.sat_forEach_cons]
    refine M.sat_mono (does_send_accsync hu x) (fun _ u hu' => ?_) fun _ h => h
    obtain ⟨a, v, h1, h2, h3, rfl⟩ := hu'
    have hn := List.nodup_cons.1 hx
    refine M.sat_mono (ih hn.2 _) (fun _ t ht => ?_) fun _ h => h
    obtain ⟨f, w, g1, g2, rfl⟩ := ht
    refine ⟨fun y => if y = x then a else f y, w, fun y hy => ?_, fun y hy => ?_, ?_⟩
    · rcases List.mem_cons.1 hy with rfl | hy
      · simp only [if_true]; exact ⟨h1, (g2 _ hn.1).trans h2⟩
      · simp only [if_neg (show y ≠ x from fun e => hn.1 (e ▸ hy))]; exact g1 y hy
    · rw [g2 y fun h => hy (List.mem_cons_of_mem _ h), h3 y fun e => hy (e ▸ List.mem_cons_self)]
    · simp only [List.map_cons, if_true, List.append_assoc, List.singleton_append, SP.mk.injEq, true_and, and_true]
      congr 2
      refine List.map_congr_left fun y hy => ?_
      simp only [if_neg (show y ≠ x from fun e => hn.1 (e ▸ hy))]

/-! ### Announcing decisions -/

theorem does_announce {x : NodeId} (hx : ∀ r, slot s.ls.latest_accept_meta x = some r → r = none) (k : Nat) :
    Does (announce_decided k x) s fun _ t => ∃ q v, slot s.ls.follower_seq_nums x = some q ∧ slot v x = some { q with counter := q.counter + 1 } ∧
      (∀ y, y ≠ x → slot v y = slot s.ls.follower_seq_nums y) ∧
      t = { s with ls := { s.ls with follower_seq_nums := v },
                   outgoing := s.outgoing ++ [{ src := s.pid, dst := x, msg := .decide { n := s.ls.n_leader, seq_num := { q with counter := q.counter + 1 }, decided_idx := k } }] } := by
  simp only [Does, announce_decided, M.sat_bind, M.sat_get, M.sat_ofPan]
  refine ⟨fun r hr => ?_, fun _ => trivial⟩
  have : r = none := by
    simp only [get_latest_accdec, LeaderState.get_latest_accept_meta] at hr
    split at hr
    · cases hr
    · cases hr; rfl
    · rename_i h; exact absurd (hx _ h) (by simp)
  subst this
  simp only [send_decide, seqNumFor, M.sat_bind, Bool.false_eq_true, if_false, sat_onLS', M.sat_get, sat_send]
  refine ⟨fun r h => ?_, fun _ => trivial⟩
  simp only [LeaderState.next_seq_num] at h
  split at h
  · cases h
  · rename_i q hq
    split at h
    · cases h
    · rename_i v hv
      cases h
      exact ⟨q, v, hq, (setSlot_spec hv).2.2.2.1, (setSlot_spec hv).2.2.2.2, rfl⟩

theorem does_announces (k : Nat) (xs : List NodeId) (hx : xs.Nodup) (s : SP E S)
    (hm : ∀ x r, slot s.ls.latest_accept_meta x = some r → r = none) :
    Does (M.forEach xs (announce_decided k)) s fun _ t => ∃ (f : NodeId → SeqNum) (v : List SeqNum),
      (∀ x ∈ xs, slot s.ls.follower_seq_nums x = some (f x) ∧ slot v x = some { f x with counter := (f x).counter + 1 }) ∧
      t = { s with ls := { s.ls with follower_seq_nums := v },
                   outgoing := s.outgoing ++ xs.map fun x => { src := s.pid, dst := x, msg := .decide { n := s.ls.n_leader, seq_num := { f x with counter := (f x).counter + 1 }, decided_idx := k } } } := by
  suffices h : ∀ (xs : List NodeId), xs.Nodup → ∀ (s : SP E S), (∀ x r, slot s.ls.latest_accept_meta x = some r → r = none) →
      Does (M.forEach xs (announce_decided k)) s fun _ t => ∃ (f : NodeId → SeqNum) (v : List SeqNum),
        (∀ x ∈ xs, slot s.ls.follower_seq_nums x = some (f x) ∧ slot v x = some { f x with counter := (f x).counter + 1 }) ∧ (∀ y, y ∉ xs → slot v y = slot s.ls.follower_seq_nums y) ∧
        t = { s with ls := { s.ls with follower_seq_nums := v },
                     outgoing := s.outgoing ++ xs.map fun x => { src := s.pid, dst := x, msg := .decide { n := s.ls.n_leader, seq_num := { f x with counter := (f x).counter + 1 }, decided_idx := k } } } by
    exact M.sat_mono (h xs hx s hm) (fun _ t ⟨f, v, h1, _, h3⟩ => ⟨f, v, h1, h3⟩) fun _ h => h
  intro xs
  induction xs with
  | nil =>
    intro _ s _
    simp only [Does, M.sat_forEach_nil]
    exact ⟨fun _ => {}, s.ls.follower_seq_nums, nofun, fun _ _ => rfl, by simp⟩
  | cons x xs ih =>
    intro hx s hm
    unfold Does
    rw [M.sat_forEach_cons]
    refine M.sat_mono (does_announce (hm x) k) (fun _ u hu' => ?_) fun _ h => h
    obtain ⟨q, v, h1, h0, h2, rfl⟩ := hu'
    have hn := List.nodup_cons.1 hx
    refine M.sat_mono (ih hn.2 _ hm) (fun _ t ht => ?_) fun _ h => h
    obtain ⟨f, w, g1, g2, rfl⟩ := ht
    refine ⟨fun y => if y = x then q else f y, w, fun y hy => ?_, fun y hy => ?_, ?_⟩
    · rcases List.mem_cons.1 hy with rfl | hy
      · simp only [if_true]; exact ⟨h1, (g2 _ hn.1).trans h0⟩
      · simp only [if_neg (show y ≠ x from fun e => hn.1 (e ▸ hy))]
        exact ⟨(h2 y fun e => hn.1 (e ▸ hy)).symm.trans (g1 y hy).1, (g1 y hy).2⟩
    · rw [g2 y fun h => hy (List.mem_cons_of_mem _ h)]
      exact h2 y fun e => hy (e ▸ List.mem_cons_self)
    · simp only [List.map_cons, if_true, List.append_assoc, List.singleton_append, SP.mk.injEq, true_and, and_true]
      congr 2
      refine List.map_congr_left fun y hy => ?_
      simp only [if_neg (show y ≠ x from fun e => hn.1 (e ▸ hy))]

end SP

namespace IStore

theorem does_sync_log [SnapOps E S] (i : IStore E S) (n : Ballot) (d : Nat) (y : Option (LogSync E S)) :
    Does (sync_log n d y) i fun r j => r = j.cache.accepted_idx ∧ j.cache.promise = i.cache.promise ∧ j.cache.decided_idx = d ∧
      j.trail = j.storage :: i.trail ∧ j.cache.stopsign = (match y with | none => i.cache.stopsign | some x => x.stopsign) ∧
      j.cache.batched_entries = i.cache.batched_entries ∧
      ∀ x, y = some x → j.cache.accepted_idx = x.sync_idx + x.suffix.length + if x.stopsign.isSome then 1 else 0 := by
  cases y with
  | none =>
    simp only [Does, sync_log, M.sat_bind, M.sat_get, sat_setCache, sat_writeOps, M.sat_pure]
    exact ⟨fun m' hw => ⟨trivial, trivial, trivial, trivial, trivial, trivial, nofun⟩, fun _ => trivial⟩
  | some x =>
    simp only [Does, sync_log, M.sat_bind, M.sat_get, sat_setCache, M.sat_ofPan, sat_writeOps, M.sat_pure]
    exact ⟨fun ops _ => ⟨fun m' hw => ⟨trivial, trivial, trivial, trivial, trivial, trivial, fun z hz => by cases hz; rfl⟩, fun _ => trivial⟩, fun _ => trivial⟩

end IStore
end Omni
