import Verif.Proof.Oust.Firm
/-
A leader sends an AcceptSync to those which have promised; a server which has promised accepts with it.
-/
namespace Omni

variable {E S : Type}

theorem M.sat_forall {σ α ι : Type} {m : M σ α} {s : σ} {Q : ι → α → σ → Prop} (h : ∀ i, M.Sat m s (Q i) fun _ => True) : M.Sat m s (fun a t => ∀ i, Q i a t) fun _ => True := by
  unfold M.Sat at *
  cases hm : m s with
  | ok a t => exact fun i => by have := h i; rw [hm] at this; exact this
  | panic t => trivial

/-- `j` has promised, as the leader knows. -/
def Holds (s : SP E S) (j : NodeId) : Prop := ∃ m, slot s.ls.promises_meta j = some (.promised m)

/-- An AcceptSync of `W`. -/
def IsSync (W : Ballot) (x : PaxosMessage E S) : Prop := ∃ a, x.msg = .acceptSync a ∧ a.n ≤ W ∧ W ≤ a.n

/-- Will send an AcceptSync of `W` to `j`. -/
def SP.Admits (W : Ballot) (j : NodeId) (s : SP E S) : Prop := ∃ x ∈ s.outgoing, x.dst = j ∧ IsSync W x

/-- AcceptSyncs stay. -/
def SP.KeepsSync (W : Ballot) (s t : SP E S) : Prop := ∀ x ∈ s.outgoing, IsSync W x → x ∈ t.outgoing

variable {W : Ballot} {s t u : SP E S} {j : NodeId}

theorem Still.syncs (h : Still s t) : SP.KeepsSync W s t := by
  rintro x hx ⟨a, e, -⟩
  exact h.kept x hx a.n (by rw [e]; rfl)

theorem SP.KeepsSync.admits (h : SP.KeepsSync W s t) (ha : s.Admits W j) : t.Admits W j := by
  obtain ⟨x, hx, e, hs⟩ := ha
  exact ⟨x, h x hx hs, e, hs⟩

theorem cmp_of_eq {a b : Ballot} (h : a ≤ b) (h' : b ≤ a) : a.cmp b = .eq := by
  rcases Ballot.cmp_cases a b with ⟨_, h1⟩ | ⟨h1, _⟩ | ⟨_, h1⟩
  · exact absurd (Ballot.lt_of_lt_of_le h1 h') (Ballot.lt_irrefl a)
  · exact h1
  · exact absurd (Ballot.lt_of_lt_of_le h1 h) (Ballot.lt_irrefl b)

theorem IStore.acc_sync_log [SnapOps E S] {i : IStore E S} (n : Ballot) (d : Nat) (l : Option (LogSync E S)) : M.Sat (sync_log n d l) i
    (fun _ j => j.cache.promise = i.cache.promise ∧ j.cache.accepted_round = n) fun _ => True := by
  simp only [sync_log, M.sat_bind, sat_setCache]
  cases l with
  | none =>
    simp only [M.sat_bind, sat_writeOps, M.sat_get, M.sat_pure]
    exact ⟨fun _ _ => by simp, fun _ => trivial⟩
  | some l =>
    simp only [M.sat_bind, M.sat_get, M.sat_ofPan, sat_setCache, sat_writeOps, M.sat_pure]
    exact ⟨fun os hos => ⟨fun _ _ => by simp, fun _ => trivial⟩, fun _ => trivial⟩

theorem LeaderState.promisedFrom_mem {own : NodeId} {l : List PromiseState} : ∀ {k p : Nat} {m : PromiseMetaData}, p ≠ own → k ≤ p → l[p - k]? = some (.promised m) → p ∈ promisedFrom own k l := by
  induction l with
  | nil => intro k p m _ _ h; simp at h
  | cons x r ih =>
    intro k p m h1 h2 h3
    simp only [promisedFrom]
    by_cases e : k = p
    · subst e
      simp only [Nat.sub_self, List.getElem?_cons_zero, Option.some.injEq] at h3
      subst h3
      rw [if_pos ⟨rfl, h1⟩]
      exact List.mem_cons_self ..
    · have h4 : p ∈ promisedFrom own (k + 1) r := by
        refine ih (m := m) h1 (by omega) ?_
        rw [show p - k = (p - (k + 1)) + 1 from by omega] at h3
        simpa using h3
      split
      · exact List.mem_cons_of_mem _ h4
      · exact h4

theorem Holds.follower (h : Holds s j) (hj : j ≠ s.ls.n_leader.pid) : j ∈ s.ls.get_promised_followers := by
  obtain ⟨m, hm⟩ := h
  cases j with
  | zero => cases hm
  | succ k => exact LeaderState.promisedFrom_mem hj (by omega) (m := m) (by simpa [slot] using hm)

namespace SP

theorem accsync_admits [SnapOps E S] (hn : s.ls.n_leader = W) (d : NodeId) : M.Sat (send_accsync d) s (fun _ t => t.Admits W d) (fun _ => True) := by
  simp only [send_accsync, M.sat_bind, M.sat_get, M.sat_ofPan, sat_onLS, sat_onLS', sat_send]
  refine ⟨fun _ _ => ⟨fun _ _ => ⟨fun _ h1 => ⟨fun r h2 => ⟨_, List.mem_append_right _ (List.mem_cons_self ..), rfl, _, rfl, ?_⟩, fun _ => trivial⟩, fun _ => trivial⟩, fun _ => trivial⟩, fun _ => trivial⟩
  show s.ls.n_leader ≤ W ∧ W ≤ s.ls.n_leader
  rw [hn]
  exact ⟨Ballot.le_refl W, Ballot.le_refl W⟩

theorem accsyncs_admits [SnapOps E S] : ∀ (l : List NodeId) {s : SP E S}, s.ls.n_leader = W → j ∈ l → M.Sat (M.forEach l send_accsync) s (fun _ t => t.Admits W j) (fun _ => True)
  | [], _, _, h => by cases h
  | x :: l, s, hn, h => by
    rw [M.sat_forEach_cons]
    rcases List.mem_cons.1 h with rfl | h
    · refine M.sat_mono (accsync_admits hn j) (fun _ t ht => ?_) fun _ h => h
      exact M.sat_mono (y_forEach fun x _ => y_send_accsync x) (fun _ u hu => hu.syncs.admits ht) fun _ h => h
    · exact M.sat_mono (y_send_accsync (s := s) x) (fun _ t ht => accsyncs_admits l (ht.lead.trans hn) h) fun _ h => h

theorem buffered_ls (k : Nat) : M.Sat (append_buffered k) s (fun _ t => t.ls = s.ls) (fun _ => True) := by
  have store : ∀ {α : Type} {m : M (IStore E S) α} {s : SP E S}, IStore.KeepsPD m s.ist → M.Sat (onStore m) s (fun _ t => t.ls = s.ls) (fun _ => True) := by
    intro α m s h
    rw [sat_onStore]
    exact M.sat_mono h (fun _ _ _ => rfl) fun _ _ => trivial
  have ss : ∀ (x : Nat) (u : SP E S), u.ls = s.ls → M.Sat (append_buffered_stopsign x) u (fun _ t => t.ls = s.ls) (fun _ => True) := by
    intro x u hu
    unfold append_buffered_stopsign
    rw [M.sat_bind, M.sat_get]
    cases u.buffered_stopsign with
    | none => exact hu
    | some ss =>
      simp only [M.sat_bind, M.sat_upd, M.sat_pure, M.sat_get]
      exact M.sat_mono (store (IStore.pd_append_ss ss)) (fun _ t ht => ht.trans hu) fun _ h => h
  simp only [append_buffered, append_buffered_proposals, M.sat_bind, M.sat_get, M.sat_ite, M.sat_pure, M.sat_upd]
  exact ⟨fun _ => trivial, fun _ => ⟨fun _ => ss _ _ rfl, fun _ => M.sat_mono (store (IStore.pd_append_nb _)) (fun _ t ht => ss _ _ ht) fun _ h => h⟩⟩

theorem majority_admits [SnapOps E S] (hn : s.ls.n_leader = W) (hj : j ≠ W.pid) (h : Holds s j) : M.Sat handle_majority_promises s (fun _ t => t.Admits W j) (fun _ => True) := by
  simp only [handle_majority_promises, M.sat_bind, M.sat_get, M.sat_upd, sat_onStore, sat_setState, sat_onLS]
  refine M.sat_mono (IStore.pd_sync_log _ _ _) (fun _ i _ => ?_) fun _ h => h
  refine M.sat_mono (buffered_ls _) (fun k v hv => ?_) fun _ h => h
  refine ⟨fun l hl => ?_, fun _ => trivial⟩
  have e1 : l.n_leader = W := (LeaderState.lead_acc hl).trans (by rw [hv]; exact hn)
  have e2 : l.promises_meta = s.ls.promises_meta := by
    rw [hv] at hl
    unfold LeaderState.set_accepted_idx at hl; split at hl <;> simp at hl; subst hl; rfl
  refine accsyncs_admits _ (by exact e1) ?_
  obtain ⟨m, hm⟩ := h
  refine Holds.follower (s := { v with role := .leader, phase := .accept, ls := l }) ⟨m, by show slot l.promises_meta j = _; rw [e2]; exact hm⟩ ?_
  show j ≠ l.n_leader.pid
  rw [e1]
  exact hj

/-- A leader in the Accept phase answers promises. -/
theorem promise_admits [SnapOps E S] (h1 : s.role = .leader) (h2 : s.phase = .accept) (h3 : s.ls.n_leader = W) {p : Promise E S} (hp : p.n = W) (f : NodeId) :
    M.Sat (handle_promise p f) s (fun _ t => t.Admits W f) (fun _ => True) := by
  simp only [handle_promise, M.sat_bind, M.sat_get, h1, h2]
  simp only [handle_promise_accept, M.sat_bind, M.sat_get, M.sat_ite, M.sat_pure, sat_onLS']
  refine ⟨fun _ => ⟨fun r hr => accsync_admits (s := { s with ls := r.1 }) ((set_promise_spec hr).1.trans h3) f, fun _ => trivial⟩, fun hn => absurd (hp.trans h3.symm) hn⟩

theorem won_handle [SnapOps E S] (h1 : s.role = .leader) (h2 : s.phase = .accept) (h3 : s.ls.n_leader = W) (h4 : s.ist.cache.promise = W) {m : PaxosMessage E S}
    (hm : ∀ p, m.msg = .prepare p → p.n ≤ W) :
    M.Sat (handle m) s (fun _ t => KeepsSync W s t ∧ ∀ p, m.msg = .promise p → p.n = W → t.Admits W m.src) (fun _ => True) := by
  by_cases hp : ∃ p, m.msg = .prepare p
  · obtain ⟨p, e⟩ := hp
    unfold handle
    rw [e]
    simp only [handle_prepare, M.sat_bind, M.sat_get, M.sat_ite, M.sat_pure]
    refine ⟨fun hc => ?_, fun _ => ⟨fun _ hx _ => hx, nofun⟩⟩
    exfalso
    rcases hc with hc | hc
    · have hc : s.ist.cache.promise < p.n := hc
      rw [h4] at hc
      exact absurd (Ballot.lt_of_lt_of_le hc (hm p e)) (Ballot.lt_irrefl W)
    · rw [h2] at hc
      cases hc.2
  · by_cases hq : ∃ p, m.msg = .promise p ∧ p.n = W
    · obtain ⟨p, e, hn⟩ := hq
      have key : M.Sat (handle m) s (fun _ t => t.Admits W m.src) (fun _ => True) := by
        unfold handle
        rw [e]
        exact promise_admits h1 h2 h3 hn m.src
      exact M.sat_mono (M.sat_and key (y_handle fun p e => hp ⟨p, e⟩)) (fun _ t ht => ⟨ht.2.syncs, fun _ _ _ => ht.1⟩) fun _ _ => trivial
    · exact M.sat_mono (y_handle fun p e => hp ⟨p, e⟩) (fun _ t ht => ⟨ht.syncs, fun p e e' => absurd ⟨p, e, e'⟩ hq⟩) fun _ h => h

theorem won_ticked (h : s.ist.cache.promise = W) {x : Option Ballot} {r w : Prop} [Decidable r] [Decidable w] :
    M.Sat (ticked x r w) s (fun _ t => t.ist.cache.promise ≤ W → KeepsSync W s t) (fun _ => True) := by
  unfold ticked
  cases x with
  | none => exact M.sat_mono (y_tail s) (fun _ v hv _ => hv.syncs) fun _ h => h
  | some y =>
    rw [M.sat_bind]
    refine M.sat_mono (leader_cases y) (fun _ u hu => M.sat_mono (y_tail u) (fun _ v hv hle => ?_) fun _ h => h) fun _ h => h
    rcases hu with rfl | rfl | ⟨h1, _, h2⟩
    · exact hv.syncs
    · exact hv.syncs
    · rw [hv.promise, h2] at hle
      rw [h] at h1
      exact absurd (Ballot.lt_of_lt_of_le h1 hle) (Ballot.lt_irrefl W)

/-- A message of `W` itself that is no AcceptSync does nothing. -/
theorem firm_quiet (h : Firm W s) {b : Ballot} (h1 : W ≤ b) (h2 : b ≤ W) {q : SeqNum} {any : Bool} {f : Bool → M (SP E S) Unit} (hf : ∀ _ : SP E S, f false = pure ()) :
    M.Sat (accept_guard b q any >>= f) s (fun _ t => t = s) (fun _ => True) := by
  unfold accept_guard
  simp only [M.sat_bind, check_valid_ballot, M.sat_get]
  have : s.get_promise.cmp b = .eq := cmp_of_eq (by unfold get_promise; rw [h.promise]; exact h1) (by unfold get_promise; rw [h.promise]; exact h2)
  simp only [this, M.sat_pure, M.sat_ite, M.sat_bind]
  refine ⟨fun e => ?_, fun _ => ?_⟩
  · rw [h.phase] at e
    cases e.2.2
  · rw [hf s, M.sat_pure]

/-- The AcceptSync of `W`. -/
theorem firm_sync [SnapOps E S] (h : Firm W s) {a : AcceptSync E S} (h1 : W ≤ a.n) (h2 : a.n ≤ W) (f : NodeId) :
    M.Sat (handle_acceptsync a f) s (fun _ t => W ≤ t.ist.cache.accepted_round) (fun _ => True) := by
  unfold handle_acceptsync
  simp only [M.sat_bind, check_valid_ballot, M.sat_get]
  have : s.get_promise.cmp a.n = .eq := cmp_of_eq (by unfold get_promise; rw [h.promise]; exact h1) (by unfold get_promise; rw [h.promise]; exact h2)
  simp only [this, M.sat_pure, M.sat_ite, M.sat_bind, M.sat_upd, sat_onStore, M.sat_get, M.sat_whenDo, sat_setState, sat_send]
  refine ⟨fun _ => ?_, fun e => absurd ⟨trivial, h.role, h.phase⟩ e⟩
  refine M.sat_mono (IStore.acc_sync_log _ _ _) (fun k i hi => ?_) fun _ h => h
  have hi : W ≤ i.cache.accepted_round := by rw [hi.2]; exact h1
  simp only [forward_buffered_proposals, forward_proposals, M.sat_bind, M.sat_get, M.sat_upd, M.sat_ite, M.sat_pure, sat_send]
  exact ⟨fun _ => ⟨fun _ => hi, fun _ => ⟨fun _ => hi, fun _ => hi⟩⟩, fun _ => hi⟩

theorem firm_meets [SnapOps E S] (h : Firm W s) {m : PaxosMessage E S} (ha : ∀ b q, m.msg.accOf = some (b, q) → b ≤ W) (hp : ∀ p, m.msg = .prepare p → p.n ≤ W)
    (hl : ∀ b, m.msg = .notAccepted b → b ≤ W) :
    M.Sat (handle m) s (fun _ t => W ≤ t.ist.cache.accepted_round ∨ ¬ IsSync W m ∧ Firm W t ∧ Adds s t) (fun _ => True) := by
  by_cases hm : Mild W m.msg
  · refine M.sat_mono (firm_handle h hm) (fun _ t ht => .inr ⟨?_, ht⟩) fun _ h => h
    rintro ⟨a, e, -, h1⟩
    exact absurd (Ballot.lt_of_lt_of_le (hm.acc a.n a.seq_num (by rw [e]; rfl)) h1) (Ballot.lt_irrefl _)
  · have hb : ∃ b q, m.msg.accOf = some (b, q) ∧ W ≤ b := by
      refine Classical.byContradiction fun hc => hm ⟨fun b q e => Ballot.not_le.1 fun hw => hc ⟨b, q, e, hw⟩, hp, hl⟩
    obtain ⟨b, q, e, hw⟩ := hb
    have hb := ha b q e
    have done : ∀ {x : M (SP E S) Unit}, (∀ a, m.msg ≠ .acceptSync a) → M.Sat x s (fun _ t => t = s) (fun _ => True) →
        M.Sat x s (fun _ t => W ≤ t.ist.cache.accepted_round ∨ ¬ IsSync W m ∧ Firm W t ∧ Adds s t) (fun _ => True) := by
      intro x hx hs
      refine M.sat_mono hs (fun _ t ht => .inr ⟨?_, ?_⟩) fun _ h => h
      · rintro ⟨a, e, -⟩; exact hx a e
      · rw [ht]; exact ⟨h, .refl s⟩
    unfold handle
    cases e1 : m.msg with
    | acceptSync a =>
      rw [e1] at e; cases e
      exact M.sat_mono (firm_sync h hw hb m.src) (fun _ _ h => .inl h) fun _ h => h
    | acceptDecide a => rw [e1] at e; cases e; exact done (by rw [e1]; exact nofun) (firm_quiet h hw hb fun _ => rfl)
    | decide a => rw [e1] at e; cases e; exact done (by rw [e1]; exact nofun) (firm_quiet h hw hb fun _ => rfl)
    | acceptStopSign a => rw [e1] at e; cases e; exact done (by rw [e1]; exact nofun) (firm_quiet h hw hb fun _ => rfl)
    | _ => rw [e1] at e; cases e

end SP
end Omni
