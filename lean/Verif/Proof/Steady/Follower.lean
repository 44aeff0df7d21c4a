import Verif.Proof.Steady.Feed
/-
Steady operation: storages, and the followers.
-/
namespace Omni

variable {E S : Type}

/-- A server's storage and cache: behind the `k` first entries, of which `lg` are kept, it has stored `X` and batched `B`. -/
structure Stored (n : Ballot) (k : Nat) (lg : List E) (ci : Nat) (X B : List E) (d : Nat) (i : IStore E S) : Prop where
  log : i.storage.log = lg ++ X
  batch : i.cache.batched_entries = B
  acc : i.cache.accepted_idx = k + X.length
  dec : i.cache.decided_idx = d
  comp : i.storage.compacted_idx = ci
  trim : i.storage.trimmed_idx = ci
  ccomp : i.cache.compacted_idx = ci
  ss : i.cache.stopsign = none
  dss : i.storage.stopsign = none
  prom : i.cache.promise = n
  nprom : i.storage.n_prom = some n

namespace Stored

variable {n : Ballot} {k : Nat} {lg : List E} {ci : Nat} {X B : List E} {d : Nat} {i : IStore E S}

theorem clear (h : Stored n k lg ci X B d i) : Stored n k lg ci X B d { i with trail := [], calls := [] } :=
  ⟨h.log, h.batch, h.acc, h.dec, h.comp, h.trim, h.ccomp, h.ss, h.dss, h.prom, h.nprom⟩

theorem append_entries (h : Stored n k lg ci X B d i) (es : List E) :
    M.Sat (IStore.append_entries_with_batching es) i (fun r i' =>
      (r = none ∧ Stored n k lg ci X (B ++ es) d i') ∨
      ((∃ a, r = some { accepted_idx := a, entries := B ++ es } ∧ a = k + (X ++ (B ++ es)).length) ∧
        Stored n k lg ci (X ++ (B ++ es)) [] d i')) (fun _ => False) := by
  simp only [IStore.append_entries_with_batching, IStore.cache_append_entries, IStore.take_entries_if_batch_is_full, M.sat_bind, M.sat_get,
    IStore.sat_setCache, M.sat_ite, M.sat_pure, IStore.flush_if_full_batch, IStore.append_entries_without_batching, IStore.sat_write_append,
    Mem.append_entries]
  refine ⟨fun _ => .inr ⟨⟨_, by rw [h.batch], ?_⟩, ?_⟩, fun _ => .inl ⟨trivial, ?_⟩⟩
  · simp [h.acc, h.batch]; omega
  · exact ⟨by simp [h.log, h.batch], rfl, by simp [h.acc, h.batch]; omega, h.dec, h.comp, h.trim, h.ccomp, h.ss, h.dss, h.prom, h.nprom⟩
  · exact ⟨h.log, by simp [h.batch], h.acc, h.dec, h.comp, h.trim, h.ccomp, h.ss, h.dss, h.prom, h.nprom⟩

theorem append_entry (h : Stored n k lg ci X B d i) (e : E) :
    M.Sat (IStore.append_entry_with_batching e) i (fun r i' =>
      (r = none ∧ Stored n k lg ci X (B ++ [e]) d i') ∨
      ((∃ a, r = some { accepted_idx := a, entries := B ++ [e] } ∧ a = k + (X ++ (B ++ [e])).length) ∧
        Stored n k lg ci (X ++ (B ++ [e])) [] d i')) (fun _ => False) := h.append_entries [e]

theorem flush_get (h : Stored n k lg ci X B d i) :
    M.Sat IStore.flush_batch_and_get_entries i (fun r i' =>
      (r = none ∧ Stored n k lg ci X (B ++ []) d i' ∧ (True → B = [])) ∨
      ((∃ a, r = some { accepted_idx := a, entries := B ++ [] } ∧ a = k + (X ++ (B ++ [])).length) ∧
        Stored n k lg ci (X ++ (B ++ [])) [] d i' ∧ (True → B ≠ []))) (fun _ => False) := by
  simp only [IStore.flush_batch_and_get_entries, M.sat_bind, M.sat_get, IStore.sat_setCache, M.sat_ite, M.sat_pure,
    IStore.flush_if_full_batch, IStore.append_entries_without_batching, IStore.sat_write_append, Mem.append_entries, List.append_nil]
  refine ⟨fun hc => .inl ⟨trivial, h, fun _ => ?_⟩, fun hc => .inr ⟨⟨_, by rw [h.batch], ?_⟩, ?_, fun _ => ?_⟩⟩
  · simpa [h.batch] using hc
  · simp [h.acc, h.batch]; omega
  · exact ⟨by simp [h.log, h.batch], rfl, by simp [h.acc, h.batch]; omega, h.dec, h.comp, h.trim, h.ccomp, h.ss, h.dss, h.prom, h.nprom⟩
  · simpa [h.batch] using hc

theorem append_get (h : Stored n k lg ci X B d i) (es : List E) :
    M.Sat (IStore.append_entries_and_get_accepted_idx es) i (fun r i' =>
      (r = none ∧ Stored n k lg ci X (B ++ es) d i') ∨
      (r = some (k + (X ++ (B ++ es)).length) ∧ Stored n k lg ci (X ++ (B ++ es)) [] d i')) (fun _ => False) := by
  simp only [IStore.append_entries_and_get_accepted_idx, IStore.cache_append_entries, IStore.take_entries_if_batch_is_full, M.sat_bind,
    M.sat_get, IStore.sat_setCache, M.sat_ite, M.sat_pure, IStore.append_entries_without_batching, IStore.sat_write_append,
    Mem.append_entries]
  refine ⟨fun _ => .inr ⟨?_, ?_⟩, fun _ => .inl ⟨trivial, ?_⟩⟩
  · simp [h.acc, h.batch]; omega
  · exact ⟨by simp [h.log, h.batch], rfl, by simp [h.acc, h.batch]; omega, h.dec, h.comp, h.trim, h.ccomp, h.ss, h.dss, h.prom, h.nprom⟩
  · exact ⟨h.log, by simp [h.batch], h.acc, h.dec, h.comp, h.trim, h.ccomp, h.ss, h.dss, h.prom, h.nprom⟩

theorem flush (h : Stored n k lg ci X B d i) :
    M.Sat IStore.flush_batch i (fun r i' => r = k + (X ++ B).length ∧ Stored n k lg ci (X ++ B) [] d i') (fun _ => False) := by
  simp only [IStore.flush_batch, M.sat_bind, M.sat_get, IStore.sat_setCache, M.sat_pure, IStore.append_entries_without_batching,
    IStore.sat_write_append, Mem.append_entries]
  refine ⟨by simp [h.acc, h.batch]; omega, ?_⟩
  exact ⟨by simp [h.log, h.batch], rfl, by simp [h.acc, h.batch]; omega, h.dec, h.comp, h.trim, h.ccomp, h.ss, h.dss, h.prom, h.nprom⟩

theorem decide (h : Stored n k lg ci X B d i) (d' : Nat) :
    M.Sat (IStore.set_decided_idx d') i (fun _ i' => Stored n k lg ci X B d' i') (fun _ => False) := by
  simp only [IStore.set_decided_idx, M.sat_bind, IStore.sat_setCache, IStore.sat_write_decided, Mem.set_decided_idx]
  exact ⟨h.log, h.batch, h.acc, rfl, h.comp, h.trim, h.ccomp, h.ss, h.dss, h.prom, h.nprom⟩

end Stored

theorem modify_at {α : Type} (p : List α) (x : α) (r : List α) (g : α → α) : (p ++ x :: r).modify p.length g = p ++ g x :: r := by
  induction p with
  | nil => rfl
  | cons y p ih => simp [List.modify_succ_cons, ih]

/-- A follower in steady operation; `σ` is what it has received, `a` its accepted index, `out` its messages for the leader. -/
structure Fol (n : Ballot) (k : Nat) (lg : List E) (ci : Nat) (f : NodeId) (X B : List E) (σ : Fed E) (a : Nat)
    (out : List (PaxosMsg E S)) (s : SP E S) : Prop where
  role : s.role = .follower
  phase : s.phase = .accept
  pid : s.pid = f
  ne : f ≠ n.pid
  pos : 0 < n.pid
  buf : s.buffered_proposals = []
  ist : Stored n k lg ci X B σ.d s.ist
  seq : s.current_seq_num = σ.q
  fed : σ.Y = X ++ B
  accd : a = k + X.length
  dec : σ.d ≤ a
  outs : out = s.outgoing.map (·.msg)
  ends : ∀ m ∈ s.outgoing, m.src = f ∧ m.dst = n.pid
  replies : ∀ m ∈ out, m.Reply n a
  lam : ∀ b idx, s.latest_accepted_meta = some (b, idx) → b = n ∧ ∃ p x r, s.outgoing = p ++ x :: r ∧ p.length = idx ∧
    (∃ y, x.msg = .accepted y) ∧ ∀ z ∈ r, z.msg.isAccepted = false

namespace Fol

variable {n : Ballot} {k : Nat} {lg : List E} {ci : Nat} {f : NodeId} {X B : List E} {σ τ : Fed E} {a : Nat}
  {out : List (PaxosMsg E S)} {s : SP E S}

/-- What a handler at a follower achieves. -/
def After (n : Ballot) (k : Nat) (lg : List E) (ci : Nat) (f : NodeId) (σ : Fed E) (a : Nat) (out : List (PaxosMsg E S)) (s : SP E S) : Prop :=
  ∃ X B a' out', Fol n k lg ci f X B σ a' out' s ∧ Replied n a out a' out' ∧ a ≤ a'

/-- Replying with the new accepted index. -/
theorem reply (h : Fol n k lg ci f X B σ a out s) {X' B' : List E} {τ : Fed E} {i : IStore E S}
    (hi : Stored n k lg ci X' B' τ.d i) (hq : τ.q = s.current_seq_num) (hY : τ.Y = X' ++ B') (ha : a ≤ k + X'.length)
    (hd : τ.d ≤ k + X'.length) :
    M.Sat (SP.reply_accepted n (k + X'.length)) { s with ist := i } (fun _ s' => After n k lg ci f τ a out s' ∧ s'.ist = i) (fun _ => False) := by
  simp only [SP.reply_accepted, M.sat_bind, M.sat_get, M.sat_ofPan]
  -- a new message
  have fresh : After n k lg ci f τ a out { s with ist := i, latest_accepted_meta := some (n, s.outgoing.length), outgoing := s.outgoing ++ [{ src := s.pid, dst := n.pid, msg := .accepted { n, accepted_idx := k + X'.length } }] } := by
    have hR : Replied n a out (k + X'.length) (out ++ [.accepted { n, accepted_idx := k + X'.length }]) := .new _
    refine ⟨X', B', k + X'.length, _, ⟨h.role, h.phase, h.pid, h.ne, h.pos, h.buf, hi, hq.symm, hY, rfl, hd, ?_, ?_, hR.reply ha h.replies, ?_⟩, hR, ha⟩
    · simp [h.outs]
    · intro m hm
      rcases List.mem_append.1 hm with hm | hm
      · exact h.ends m hm
      · rw [List.mem_singleton.1 hm]; exact ⟨h.pid, rfl⟩
    · intro b idx e
      simp only [Option.some.injEq, Prod.mk.injEq] at e
      exact ⟨e.1.symm, s.outgoing, _, [], rfl, e.2, ⟨_, rfl⟩, nofun⟩
  unfold SP.get_latest_accepted
  simp only
  cases hl : s.latest_accepted_meta with
  | none =>
    refine ⟨fun r hr => ?_, fun h => by simp at h⟩
    simp only [Option.some.injEq] at hr
    subst hr
    simpa using fresh
  | some p =>
    obtain ⟨b, idx⟩ := p
    obtain ⟨rfl, p, x, r, h1, h2, ⟨y, h3⟩, h4⟩ := h.lam b idx hl
    have hx : s.outgoing[idx]? = some x := by rw [h1, ← h2]; simp
    simp only [if_true, hx, h3]
    refine ⟨fun u hu => ?_, fun h => by simp at h⟩
    simp only [Option.some.injEq] at hu
    subst hu
    simp only [SP.sat_setMsg]
    have hmod : s.outgoing.modify idx (fun m => { m with msg := .accepted { y with accepted_idx := k + X'.length } }) =
        p ++ { x with msg := .accepted { y with accepted_idx := k + X'.length } } :: r := by
      rw [h1, ← h2]
      exact modify_at ..
    have ho : out = p.map (·.msg) ++ .accepted y :: r.map (·.msg) := by rw [h.outs, h1]; simp [h3]
    have hR : Replied b a out (k + X'.length) (p.map (·.msg) ++ .accepted { y with accepted_idx := k + X'.length } :: r.map (·.msg)) :=
      .upd _ _ _ y ho (by simpa using h4)
    refine ⟨⟨X', B', k + X'.length, _, ⟨h.role, h.phase, h.pid, h.ne, h.pos, h.buf, hi, hq.symm, hY, rfl, hd, ?_, ?_, hR.reply ha h.replies, ?_⟩, hR, ha⟩, trivial⟩
    · simp [hmod]
    · simp only [hmod]
      intro m hm
      have he := h.ends
      rw [h1] at he
      rcases List.mem_append.1 hm with hm | hm
      · exact he m (List.mem_append_left _ hm)
      · rcases List.mem_cons.1 hm with rfl | hm
        · exact he x (by simp)
        · exact he m (List.mem_append_right _ (List.mem_cons_of_mem _ hm))
    · intro b' idx' e
      simp only [hl, Option.some.injEq, Prod.mk.injEq] at e
      obtain ⟨rfl, rfl⟩ := e
      exact ⟨rfl, p, _, r, hmod, h2, ⟨_, rfl⟩, h4⟩

/-- Nothing to reply. -/
theorem quiet (h : Fol n k lg ci f X B σ a out s) {B' : List E} {τ : Fed E} {i : IStore E S}
    (hi : Stored n k lg ci X B' τ.d i) (hq : τ.q = s.current_seq_num) (hY : τ.Y = X ++ B') (hd : τ.d ≤ a) :
    After n k lg ci f τ a out { s with ist := i } :=
  ⟨X, B', a, out, ⟨h.role, h.phase, h.pid, h.ne, h.pos, h.buf, hi, hq.symm, hY, h.accd, hd, h.outs, h.ends, h.replies, h.lam⟩, .same, Nat.le_refl _⟩

/-- The guard of the handlers lets the next message pass. -/
theorem guard (h : Fol n k lg ci f X B σ a out s) (anyRole : Bool) (Q : Bool → SP E S → Prop) (P : SP E S → Prop)
    (hQ : Q true { s with current_seq_num := σ.q.next }) : M.Sat (SP.accept_guard n σ.q.next anyRole) s Q P := by
  have hp : s.get_promise = n := h.ist.prom
  simp only [SP.accept_guard, SP.check_valid_ballot, M.sat_bind, M.sat_get, hp]
  have hc : n.cmp n = .eq := by simp [Ballot.cmp]
  rw [hc]
  simp only [M.sat_pure, h.role, h.phase, SP.handle_sequence_num, M.sat_bind, M.sat_get, h.seq, SeqNum.next_expected, M.sat_upd,
    M.sat_ite, or_true, and_true, true_implies, not_true_eq_false, false_implies, decide_true]
  simpa only [h.role, h.phase] using hQ

theorem next (h : Fol n k lg ci f X B σ a out s) :
    Fol n k lg ci f X B ⟨σ.q.next, σ.Y, σ.d⟩ a out { s with current_seq_num := σ.q.next } :=
  ⟨h.role, h.phase, h.pid, h.ne, h.pos, h.buf, h.ist, rfl, h.fed, h.accd, h.dec, h.outs, h.ends, h.replies, h.lam⟩

/-- A new decided index. -/
theorem update {s : SP E S} {d : Nat} {i : IStore E S} (hi : Stored n k lg ci X B d i) {nd : Nat} (hn : nd ≤ k + (X ++ B).length)
    (hd : d ≤ k + X.length) : M.Sat (SP.update_decided_idx_and_get_accepted_idx nd) { s with ist := i } (fun r s' =>
      ∃ X' B' i', s' = { s with ist := i' } ∧ Stored n k lg ci X' B' (max d nd) i' ∧ X' ++ B' = X ++ B ∧ max d nd ≤ k + X'.length ∧
        ((r = none ∧ X' = X) ∨ (r = some (k + X'.length) ∧ X.length ≤ X'.length))) (fun _ => False) := by
  simp only [SP.update_decided_idx_and_get_accepted_idx, M.sat_bind, M.sat_get, M.sat_ite, M.sat_pure, SP.sat_onStore, hi.dec, hi.acc]
  refine ⟨fun h => ?_, fun h => ⟨fun h' => ?_, fun h' => ?_⟩⟩
  · refine ⟨X, B, i, rfl, ?_, rfl, by omega, .inl ⟨trivial, rfl⟩⟩
    rw [Nat.max_eq_left h]; exact hi
  · refine M.sat_mono hi.flush (fun r j hj => ?_) fun _ h => h
    obtain ⟨rfl, hj⟩ := hj
    have hm : max d nd = min nd (k + (X ++ B).length) := by omega
    refine M.sat_mono (hj.decide _) (fun _ l hl => ?_) fun _ h => h
    exact ⟨X ++ B, [], l, rfl, by rw [hm]; exact hl, by simp, by omega, .inr ⟨rfl, by simp⟩⟩
  · refine M.sat_mono (hi.decide _) (fun _ l hl => ?_) fun _ h => h
    exact ⟨X, B, l, rfl, by rw [Nat.max_eq_right (by omega)]; exact hl, rfl, by omega, .inl ⟨trivial, rfl⟩⟩

/-- Update of the decided index and reply, after `append_entries` returned `o`. -/
theorem finish (h : Fol n k lg ci f X B σ a out s) {X' B' : List E} {i : IStore E S} {nd : Nat} {o : Option Nat}
    (hi : Stored n k lg ci X' B' σ.d i) (hn : nd ≤ k + (X' ++ B').length)
    (ho : (o = none ∧ X' = X) ∨ (o = some (k + X'.length) ∧ X.length ≤ X'.length)) :
    M.Sat (SP.update_decided_idx_and_get_accepted_idx nd >>= fun r => SP.reply_opt n (r.or o)) { s with ist := i }
      (fun _ s' => After n k lg ci f ⟨σ.q, X' ++ B', max σ.d nd⟩ a out s') (fun _ => False) := by
  have hl : X.length ≤ X'.length := by rcases ho with ⟨_, rfl⟩ | ⟨_, h⟩ <;> omega
  have hda := h.dec
  have hac := h.accd
  rw [M.sat_bind]
  refine M.sat_mono (update hi hn (by omega)) (fun r t ht => ?_) fun _ h => h
  obtain ⟨X2, B2, j, rfl, hj, he, hd, hr⟩ := ht
  have rep : X.length ≤ X2.length → M.Sat (SP.reply_accepted n (k + X2.length)) { s with ist := j }
      (fun _ s' => After n k lg ci f ⟨σ.q, X' ++ B', max σ.d nd⟩ a out s') (fun _ => False) := fun hx =>
    M.sat_mono (h.reply (τ := ⟨σ.q, X' ++ B', max σ.d nd⟩) hj h.seq.symm he.symm (by omega) hd) (fun _ _ h => h.1) fun _ h => h
  rcases hr with ⟨rfl, rfl⟩ | ⟨rfl, hr⟩
  · rcases ho with ⟨rfl, rfl⟩ | ⟨rfl, _⟩
    · exact h.quiet (τ := ⟨σ.q, X2 ++ B', max σ.d nd⟩) hj h.seq.symm he.symm (by simp only; omega)
    · exact rep hl
  · have : (some (k + X2.length)).or o = some (k + X2.length) := by simp
    rw [this]
    exact rep (by omega)

/-- follower.rs 88-110. -/
theorem handle_acceptdecide (h : Fol n k lg ci f X B σ a out s) {m : AcceptDecide E}
    (hm : σ.step n k (.acceptDecide m : PaxosMsg E S) = some τ) :
    M.Sat (SP.handle_acceptdecide m) s (fun _ s' => After n k lg ci f τ a out s') (fun _ => False) := by
  simp only [Fed.step] at hm
  split at hm
  · rename_i hc
    obtain ⟨h1, h2, h3⟩ := hc
    simp only [Option.some.injEq] at hm
    subst hm
    simp only [SP.handle_acceptdecide, M.sat_bind, h1, h2]
    refine h.guard false _ _ ?_
    simp only [if_true, M.sat_bind, SP.sat_onStore]
    refine M.sat_mono (h.ist.append_get m.entries) (fun o i hi => ?_) fun _ h => h
    have hY := h.fed
    rcases hi with ⟨rfl, hi⟩ | ⟨rfl, hi⟩
    · have := h.next.finish (nd := m.decided_idx) hi (by simp [hY] at h3 ⊢; omega) (.inl ⟨rfl, rfl⟩)
      rw [M.sat_bind] at this
      rw [hY, List.append_assoc]
      exact this
    · have := h.next.finish (nd := m.decided_idx) hi (by simp [hY] at h3 ⊢; omega) (.inr ⟨rfl, by simp⟩)
      rw [M.sat_bind] at this
      rw [List.append_nil] at this
      rw [hY, List.append_assoc]
      exact this
  · cases hm

/-- follower.rs 128-138. -/
theorem handle_decide (h : Fol n k lg ci f X B σ a out s) {m : Decide}
    (hm : σ.step n k (.decide m : PaxosMsg E S) = some τ) :
    M.Sat (SP.handle_decide m) s (fun _ s' => After n k lg ci f τ a out s') (fun _ => False) := by
  simp only [Fed.step] at hm
  split at hm
  · rename_i hc
    obtain ⟨h1, h2, h3⟩ := hc
    simp only [Option.some.injEq] at hm
    subst hm
    simp only [SP.handle_decide, M.sat_bind, h1, h2]
    refine h.guard true _ _ ?_
    simp only [if_true, M.sat_bind]
    have hY := h.fed
    have := h.next.finish (nd := m.decided_idx) (o := none) h.ist (by simp [hY] at h3 ⊢; omega) (.inl ⟨rfl, rfl⟩)
    simp only [M.sat_bind, Option.or_none] at this
    rw [hY]
    exact this
  · cases hm

/-- A Decide does not make a follower send that holds nothing back. -/
theorem decide_idle (h : Fol n k lg ci f X B σ a out s) {m : Decide} (hm : σ.step n k (.decide m : PaxosMsg E S) = some τ) (hB : B = []) :
    M.Sat (SP.handle_decide m) s (fun _ s' => s'.outgoing = s.outgoing) (fun _ => False) := by
  simp only [Fed.step] at hm
  split at hm
  · rename_i hc
    obtain ⟨h1, h2, h3⟩ := hc
    simp only [SP.handle_decide, M.sat_bind, h1, h2]
    refine h.guard true _ _ ?_
    simp only [if_true, M.sat_bind, SP.update_decided_idx_and_get_accepted_idx, M.sat_get, M.sat_ite, M.sat_pure, SP.sat_onStore, h.ist.acc]
    have hY := h.fed
    refine ⟨fun _ => rfl, fun _ => ⟨fun hc => ?_, fun _ => ?_⟩⟩
    · rw [hY, hB] at h3
      simp at h3
      omega
    · exact M.sat_mono (h.ist.decide _) (fun _ _ _ => rfl) fun _ h => h
  · cases hm

/-- The flush timeout at a follower (follower.rs 284-290). -/
theorem flush (h : Fol n k lg ci f X B σ a out s) :
    M.Sat SP.flush_batch_timeout s (fun _ s' => After n k lg ci f σ a out s' ∧ s'.ist.cache.batched_entries = [] ∧
      (B = [] → s'.outgoing = s.outgoing)) (fun _ => False) := by
  simp only [SP.flush_batch_timeout, M.sat_bind, M.sat_get, h.role, h.phase, SP.flush_batch_follower, SP.sat_onStore, M.sat_ite, M.sat_pure]
  refine M.sat_mono h.ist.flush (fun r i hi => ?_) fun _ h => h
  obtain ⟨rfl, hi⟩ := hi
  have hp : s.get_promise = n := h.ist.prom
  have hda := h.dec
  have hac := h.accd
  rw [h.ist.acc, hp]
  refine ⟨fun hc => ?_, fun hc => ?_⟩
  · have := h.reply hi h.seq.symm (by rw [h.fed]; simp) (by simp; omega) (by simp; omega)
    rw [h.role, h.phase] at this
    refine M.sat_mono this (fun _ t ht => ⟨ht.1, by rw [ht.2]; exact hi.batch, fun hB => ?_⟩) fun _ h => h
    rw [hB] at hc
    simp at hc
  · have hB : B = [] := by
      simp at hc
      exact hc
    subst hB
    simp only [List.append_nil] at hi
    have := h.quiet hi h.seq.symm h.fed h.dec
    rw [h.role, h.phase] at this
    exact ⟨this, hi.batch, fun _ => trivial⟩

/-- A follower forwards proposals. -/
theorem forward (h : Fol n k lg ci f X B σ a out s) (es : List E) :
    M.Sat (SP.forward_proposals es) s (fun _ s' => Fol n k lg ci f X B σ a (out ++ [.proposalForward es]) s') (fun _ => False) := by
  have hp : s.get_current_leader = n.pid := congrArg Ballot.pid h.ist.prom
  simp only [SP.forward_proposals, M.sat_bind, M.sat_get, hp, h.pid, M.sat_ite, SP.sat_send, M.sat_upd]
  refine ⟨fun _ => ?_, fun hc => absurd ⟨h.pos, h.ne⟩ hc⟩
  refine ⟨h.role, h.phase, rfl, h.ne, h.pos, h.buf, h.ist, h.seq, h.fed, h.accd, h.dec, ?_, ?_, ?_, ?_⟩
  · simp [h.outs]
  · intro m hm
    rcases List.mem_append.1 hm with hm | hm
    · exact h.ends m hm
    · rw [List.mem_singleton.1 hm]; exact ⟨rfl, rfl⟩
  · intro m hm
    rcases List.mem_append.1 hm with hm | hm
    · exact h.replies m hm
    · rw [List.mem_singleton.1 hm]; trivial
  · intro b idx e
    obtain ⟨h1, p, x, r, h2, h3, h4, h5⟩ := h.lam b idx e
    refine ⟨h1, p, x, r ++ [{ src := f, dst := n.pid, msg := .proposalForward es }], by simp [h2], h3, h4, fun z hz => ?_⟩
    rcases List.mem_append.1 hz with hz | hz
    · exact h5 z hz
    · rw [List.mem_singleton.1 hz]; rfl

/-- mod.rs 298-305. -/
theorem append (h : Fol n k lg ci f X B σ a out s) (e : E) :
    M.Sat (SP.append e) s (fun _ s' => Fol n k lg ci f X B σ a (out ++ [.proposalForward [e]]) s') (fun _ => False) := by
  have hr : s.accepted_reconfiguration = false := by simp [SP.accepted_reconfiguration, h.ist.ss]
  simp only [SP.append, M.sat_bind, M.sat_get, hr, SP.propose_entry, h.role, h.phase, Bool.false_eq_true, if_false, M.sat_pure]
  exact h.forward [e]

/-- mod.rs 251-260. -/
theorem take (h : Fol n k lg ci f X B σ a out s) (buf : List (Message E S)) :
    Fol n k lg ci f X B σ a [] (s.take_outgoing_msgs buf).2 :=
  ⟨h.role, h.phase, h.pid, h.ne, h.pos, h.buf, h.ist, h.seq, h.fed, h.accd, h.dec, rfl, nofun, nofun, nofun⟩

theorem resend (h : Fol n k lg ci f X B σ a out s) : M.Sat SP.resend_message_timeout s (fun _ s' => s' = s) (fun _ => False) := by
  simp only [SP.resend_message_timeout, M.sat_bind, M.sat_get, h.role, SP.resend_messages_follower, h.phase, M.sat_pure]

theorem clear (h : Fol n k lg ci f X B σ a out s) :
    Fol n k lg ci f X B σ a out { s with ist := { s.ist with trail := [], calls := [] } } :=
  ⟨h.role, h.phase, h.pid, h.ne, h.pos, h.buf, h.ist.clear, h.seq, h.fed, h.accd, h.dec, h.outs, h.ends, h.replies, h.lam⟩

end Fol

end Omni
