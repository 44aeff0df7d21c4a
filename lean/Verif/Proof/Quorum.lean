import Verif.Proof.StorePD
import Verif.Proof.ServerInv
import Verif.Proof.Validity
import Verif.Spec.Messages
/-
What a leader's bookkeeping rests on: its promises and acknowledgements are messages it was given, and what a server has
promised in a message is at most its promise. Independent of the network.
-/
namespace Omni

variable {E S : Type}

/-- What was delivered to a server: Prepares (ballot), promises (ballot, sender), AcceptSyncs (ballot), messages of a leader (ballot),
acknowledgements (ballot, sender, index); its pid and quorum, the servers of the cluster, and those whose links the user reported. -/
structure Ev where
  me : NodeId
  q : Quorum
  node : NodeId → Prop
  ask : NodeId → Prop
  prep : Ballot → Prop
  led : Ballot → Prop
  prom : Ballot → NodeId → Prop
  sync : Ballot → Prop
  ack : Ballot → NodeId → Nat → Prop

/-- Another server of the cluster. -/
def Ev.peer (R : Ev) (j : NodeId) : Prop := R.node j ∧ j ≠ R.me

/-- What the server sends. -/
def Ev.msg (R : Ev) (b : Ballot) (m : PaxosMessage E S) : Prop :=
  m.src = R.me ∧ match m.msg with
    | .prepareReq _ => m.dst ≠ R.me ∧ (R.node m.dst ∨ R.ask m.dst)
    | .prepare p => R.peer m.dst ∧ p.n.pid = R.me
    | .promise p => R.peer m.dst ∧ p.n ≤ b ∧ p.n.pid = m.dst ∧ R.prep p.n
    | .acceptSync a => R.peer m.dst ∧ a.n.pid = R.me ∧ R.prom a.n m.dst
    | .acceptDecide a => R.peer m.dst ∧ a.n.pid = R.me ∧ R.prom a.n m.dst
    | .acceptStopSign a => R.peer m.dst ∧ a.n.pid = R.me ∧ R.prom a.n m.dst
    | .decide d => R.peer m.dst ∧ d.n.pid = R.me ∧ R.prom d.n m.dst
    | .notAccepted n => R.peer m.dst ∧ n ≤ b ∧ ∃ k : Ballot, k.pid = m.dst ∧ k < n ∧ R.led k
    | .accepted a => a.n.pid = m.dst ∧ R.peer m.dst ∧ R.sync a.n
    | .proposalForward _ => R.peer m.dst
    | .forwardStopSign _ => R.peer m.dst
    | .compaction _ => R.peer m.dst

/-- A prepare quorum whose members, other than the server itself, sent it promises for `n`. -/
def Ev.Promised (R : Ev) (n : Ballot) : Prop :=
  ∃ Q : List NodeId, Q.Nodup ∧ R.q.is_prepare_quorum Q.length = true ∧ ∀ j ∈ Q, j = R.me ∨ R.prom n j

/-- An accept quorum whose members, other than the server itself, acknowledged at least index `k` in ballot `n`. -/
def Ev.Acked (R : Ev) (n : Ballot) (k : Nat) : Prop :=
  ∃ Q : List NodeId, Q.Nodup ∧ R.q.is_accept_quorum Q.length = true ∧ ∀ j ∈ Q, j = R.me ∨ ∃ a, k ≤ a ∧ R.ack n j a

structure QI (R : Ev) (s : SP E S) : Prop where
  pid : s.pid = R.me
  quo : s.ls.quorum = R.q
  lead : s.role = .leader → s.ls.n_leader = s.ist.cache.promise ∧ s.ls.n_leader.pid = R.me
  out : ∀ m ∈ s.outgoing, R.msg s.ist.cache.promise m
  cached : ∀ p, s.cached_promise = some p → p.n ≤ s.ist.cache.promise ∧ R.peer p.n.pid ∧ R.prep p.n
  slots : ∀ k m, s.ls.promises_meta[k]? = some (.promised m) → k + 1 = R.me ∨ R.peer (k + 1) ∧ R.prom s.ls.n_leader (k + 1)
  acks : ∀ k a, s.ls.accepted_indexes[k]? = some a → a = 0 ∨ k + 1 = R.me ∨ R.ack s.ls.n_leader (k + 1) a
  quorum : s.role = .leader → s.phase = .accept → R.Promised s.ls.n_leader
  acc : s.role = .follower → s.phase = .accept → R.peer s.ist.cache.promise.pid ∧ R.sync s.ist.cache.promise
  peers : ∀ p ∈ s.peers, R.peer p
  prom : s.ist.cache.promise.pid = 0 ∨ s.ist.cache.promise.pid = R.me ∨ R.peer s.ist.cache.promise.pid

/-- What an incoming message must be for the evidence to grow. -/
def Ev.given (R : Ev) (m : PaxosMessage E S) : Prop :=
  match m.msg with
  | .prepareReq _ => R.peer m.src
  | .prepare p => R.peer m.src ∧ p.n.pid = m.src ∧ R.prep p.n
  | .promise p => R.peer m.src ∧ R.prom p.n m.src
  | .acceptSync a => R.peer m.src ∧ a.n.pid = m.src ∧ R.led a.n ∧ R.sync a.n
  | .acceptDecide a => R.peer m.src ∧ a.n.pid = m.src ∧ R.led a.n
  | .acceptStopSign a => R.peer m.src ∧ a.n.pid = m.src ∧ R.led a.n
  | .decide a => R.peer m.src ∧ a.n.pid = m.src ∧ R.led a.n
  | .accepted a => R.ack a.n m.src a.accepted_idx
  | _ => True

variable {R : Ev} {s : SP E S}

theorem QI.store (h : QI R s) {i : IStore E S} (hi : i.cache.promise = s.ist.cache.promise) : QI R { s with ist := i } :=
  ⟨h.pid, h.quo, by simpa only [hi] using h.lead, by simpa only [hi] using h.out, by simpa only [hi] using h.cached, h.slots,
    h.acks, h.quorum, by simpa only [hi] using h.acc, h.peers, by simpa only [hi] using h.prom⟩

/-- The parts of the leader state that matter here are the same. -/
def SameQ (a b : LeaderState E S) : Prop :=
  a.quorum = b.quorum ∧ a.n_leader = b.n_leader ∧ a.promises_meta = b.promises_meta ∧ a.accepted_indexes = b.accepted_indexes

theorem QI.ls (h : QI R s) {ls : LeaderState E S} (hl : SameQ ls s.ls) : QI R { s with ls := ls } := by
  obtain ⟨h1, h2, h3, h4⟩ := hl
  exact ⟨h.pid, h1.trans h.quo, by simpa only [h2] using h.lead, h.out, h.cached, by simpa only [h2, h3] using h.slots,
    by simpa only [h2, h4] using h.acks, by simpa only [h2] using h.quorum, h.acc, h.peers, h.prom⟩

theorem QI.send (h : QI R s) (to : NodeId) {m : PaxosMsg E S}
    (hm : R.msg s.ist.cache.promise { src := s.pid, dst := to, msg := m }) :
    QI R { s with outgoing := s.outgoing ++ [{ src := s.pid, dst := to, msg := m }] } :=
  ⟨h.pid, h.quo, h.lead, fun x hx => by
    rcases List.mem_append.1 hx with hx | hx
    · exact h.out x hx
    · rw [List.mem_singleton.1 hx]; exact hm, h.cached, h.slots, h.acks, h.quorum, h.acc, h.peers, h.prom⟩

/-- Leaving the accept phase. -/
theorem QI.down (h : QI R s) (r : Role) (p : Phase) (hr : r = .leader → s.role = .leader) (hp : p ≠ .accept) :
    QI R { s with role := r, phase := p } :=
  ⟨h.pid, h.quo, fun e => h.lead (hr e), h.out, h.cached, h.slots, h.acks, fun _ e' => absurd e' hp, fun _ e => absurd e hp,
    h.peers, h.prom⟩

namespace SP

/-- Running `m` keeps the invariant (nothing is claimed if it panics). -/
abbrev KeepsQ (R : Ev) {α : Type} (m : M (SP E S) α) (s : SP E S) : Prop := M.Sat m s (fun _ t => QI R t) (fun _ => True)

theorem q_bind {α β : Type} {m : M (SP E S) α} {f : α → M (SP E S) β} (hm : KeepsQ R m s)
    (hf : ∀ a t, QI R t → KeepsQ R (f a) t) : KeepsQ R (m >>= f) s := by
  unfold KeepsQ; rw [M.sat_bind]
  exact M.sat_mono hm (fun a t h => hf a t h) fun _ h => h

theorem q_store {α : Type} {m : M (IStore E S) α} (h : QI R s) (hm : IStore.KeepsPD m s.ist) : KeepsQ R (onStore m) s := by
  unfold KeepsQ; rw [sat_onStore]
  exact M.sat_mono hm (fun _ _ hi => h.store hi.1) fun _ _ => trivial

theorem q_forEach {α : Type} {xs : List α} {body : α → M (SP E S) Unit} (h : QI R s)
    (hb : ∀ x ∈ xs, ∀ t, QI R t → KeepsQ R (body x) t) : KeepsQ R (M.forEach xs body) s :=
  M.sat_forEach (QI R) h fun x hx t ht => hb x hx t ht

/-- The same for the state together with being leader of a ballot. -/
abbrev KeepsQL (R : Ev) (n : Ballot) {α : Type} (m : M (SP E S) α) (s : SP E S) : Prop :=
  M.Sat m s (fun _ t => QI R t ∧ t.role = .leader ∧ t.ls.n_leader = n) (fun _ => True)

theorem q_lead {n : Ballot} {α : Type} {m : M (SP E S) α} (hm : KeepsQ R m s) (hr : s.role = .leader) (hn : s.ls.n_leader = n)
    (hs : M.Sat m s (fun _ t => SendOnly s t) (SendOnly s)) : KeepsQL R n m s :=
  M.sat_mono (M.sat_and hm hs) (fun _ t h => ⟨h.1, by rw [h.2]; exact hr, by rw [h.2]; exact hn⟩) fun _ _ => trivial

theorem q_forEachL {α : Type} {xs : List α} {body : α → M (SP E S) Unit} (h : QI R s) (hr : s.role = .leader)
    (hb : ∀ x ∈ xs, ∀ t, QI R t → t.role = .leader → t.ls.n_leader = s.ls.n_leader → KeepsQL R s.ls.n_leader (body x) t) :
    KeepsQ R (M.forEach xs body) s :=
  M.sat_mono (M.sat_forEach (fun t => QI R t ∧ t.role = .leader ∧ t.ls.n_leader = s.ls.n_leader) ⟨h, hr, rfl⟩
    fun x hx t ht => hb x hx t ht.1 ht.2.1 ht.2.2) (fun _ _ h => h.1) fun _ _ => trivial

theorem q_send (h : QI R s) (to : NodeId) {m : PaxosMsg E S}
    (hm : R.msg s.ist.cache.promise { src := s.pid, dst := to, msg := m }) : KeepsQ R (send to m) s := by
  unfold KeepsQ; rw [sat_send]; exact h.send to hm

theorem q_onLS (h : QI R s) {f : LeaderState E S → Pan (LeaderState E S)}
    (hf : ∀ ls', f s.ls = some ls' → SameQ ls' s.ls) : KeepsQ R (onLS f) s := by
  unfold KeepsQ; rw [sat_onLS]
  exact ⟨fun ls' e => h.ls (hf ls' e), fun _ => trivial⟩

theorem q_onLS' {α : Type} (h : QI R s) {f : LeaderState E S → Pan (LeaderState E S × α)}
    (hf : ∀ r, f s.ls = some r → SameQ r.1 s.ls) : KeepsQ R (onLS' f) s := by
  unfold KeepsQ; rw [sat_onLS']
  exact ⟨fun r e => h.ls (hf r e), fun _ => trivial⟩

theorem meta_q {ls ls' : LeaderState E S} {pid : NodeId} {k : Option Nat}
    (h : ls.set_latest_accept_meta pid k = some ls') : SameQ ls' ls := by
  rw [LeaderState.set_latest_accept_meta_eq h]; exact ⟨rfl, rfl, rfl, rfl⟩

theorem next_q {ls : LeaderState E S} {pid : NodeId} {r : LeaderState E S × SeqNum}
    (h : ls.next_seq_num pid = some r) : SameQ r.1 ls := by
  rw [LeaderState.next_seq_num_eq h]; exact ⟨rfl, rfl, rfl, rfl⟩

theorem incr_q {ls ls' : LeaderState E S} {pid : NodeId}
    (h : ls.increment_seq_num_session pid = some ls') : SameQ ls' ls := by
  rw [LeaderState.increment_eq h]; exact ⟨rfl, rfl, rfl, rfl⟩

theorem setSlot_get {α : Type} {l l' : List α} {pid : NodeId} {a : α} (h : setSlot l pid a = some l') {k : Nat} {x : α}
    (hx : l'[k]? = some x) : (k + 1 = pid ∧ x = a) ∨ l[k]? = some x := by
  cases pid with
  | zero => simp [setSlot] at h
  | succ p =>
    simp only [setSlot] at h
    split at h
    · cases h
      rw [List.getElem?_set] at hx
      by_cases e : p = k
      · subst e
        simp_all
      · rw [if_neg e] at hx; exact .inr hx
    · cases h

theorem q_set_accepted (h : QI R s) {pid : NodeId} {i : Nat} (hi : pid = R.me ∨ R.ack s.ls.n_leader pid i) :
    KeepsQ R (onLS fun ls => ls.set_accepted_idx pid i) s := by
  unfold KeepsQ; rw [sat_onLS]
  refine ⟨fun ls e => ?_, fun _ => trivial⟩
  unfold LeaderState.set_accepted_idx at e
  split at e
  · cases e
  · rename_i v hv
    cases e
    refine ⟨h.pid, h.quo, h.lead, h.out, h.cached, h.slots, fun k a hk => ?_, h.quorum, h.acc, h.peers, h.prom⟩
    rcases setSlot_get hv hk with ⟨e, rfl⟩ | hk
    · rw [e]; exact .inr hi
    · exact h.acks k a hk

theorem q_slot_off (h : QI R s) {pid : NodeId} {st : PromiseState} {v : List PromiseState} (hst : st.isPromised = false)
    (hv : setSlot s.ls.promises_meta pid st = some v) : QI R { s with ls := { s.ls with promises_meta := v } } := by
  refine ⟨h.pid, h.quo, h.lead, h.out, h.cached, fun k m hk => ?_, h.acks, h.quorum, h.acc, h.peers, h.prom⟩
  rcases setSlot_get hv hk with ⟨_, rfl⟩ | hk
  · simp [PromiseState.isPromised] at hst
  · exact h.slots k m hk

theorem q_reset (h : QI R s) (pid : NodeId) : KeepsQ R (onLS fun ls => ls.reset_promise pid) s := by
  unfold KeepsQ; rw [sat_onLS]
  refine ⟨fun ls e => ?_, fun _ => trivial⟩
  unfold LeaderState.reset_promise at e
  split at e
  · cases e
  · rename_i v hv; cases e; exact q_slot_off h rfl hv

theorem q_lost (h : QI R s) (pid : NodeId) : KeepsQ R (onLS fun ls => ls.lost_promise pid) s := by
  unfold KeepsQ; rw [sat_onLS]
  refine ⟨fun ls e => ?_, fun _ => trivial⟩
  unfold LeaderState.lost_promise at e
  split at e
  · cases e
  · rename_i v hv; cases e; exact q_slot_off h rfl hv

theorem filter_slots {α : Type} (l : List α) (p : α → Bool) (P : NodeId → Prop) (k : Nat)
    (h : ∀ i x, l[i]? = some x → p x = true → P (k + i + 1)) :
    ∃ Q : List NodeId, Q.Nodup ∧ Q.length = (l.filter p).length ∧ ∀ j ∈ Q, P j ∧ k < j := by
  induction l generalizing k with
  | nil => exact ⟨[], List.nodup_nil, rfl, fun j hj => by cases hj⟩
  | cons a l ih =>
    obtain ⟨Q, h1, h2, h3⟩ := ih (k + 1) (fun i x hx hp => by
      have := h (i + 1) x (by simpa using hx) hp
      rwa [show k + (i + 1) + 1 = k + 1 + i + 1 by omega] at this)
    by_cases hp : p a = true
    · refine ⟨(k + 1) :: Q, List.nodup_cons.2 ⟨fun hm => ?_, h1⟩, ?_, fun j hj => ?_⟩
      · have := (h3 _ hm).2; omega
      · rw [List.filter_cons_of_pos hp]; simp [h2]
      · rcases List.mem_cons.1 hj with rfl | hj
        · exact ⟨h 0 a rfl hp, Nat.lt_succ_self _⟩
        · exact ⟨(h3 j hj).1, by have := (h3 j hj).2; omega⟩
    · refine ⟨Q, h1, ?_, fun j hj => ⟨(h3 j hj).1, by have := (h3 j hj).2; omega⟩⟩
      rw [List.filter_cons_of_neg hp]; exact h2

theorem update_max_q {ls : LeaderState E S} {md : PromiseMetaData} {sync : Option (LogSync E S)} {ck : Bool} :
    (ls.update_max md sync ck).promises_meta = ls.promises_meta ∧ (ls.update_max md sync ck).n_leader = ls.n_leader ∧
      (ls.update_max md sync ck).accepted_indexes = ls.accepted_indexes ∧ (ls.update_max md sync ck).quorum = ls.quorum := by
  unfold LeaderState.update_max; split <;> exact ⟨rfl, rfl, rfl, rfl⟩

/-- A promise is recorded; if that makes a quorum, there is one. -/
theorem q_set_promise (h : QI R s) {p : Promise E S} {f : NodeId} (hp : f = R.me ∨ R.peer f ∧ R.prom s.ls.n_leader f) (ck : Bool) :
    M.Sat (onLS' fun ls => ls.set_promise p f ck) s
      (fun r t => QI R t ∧ t.role = s.role ∧ t.phase = s.phase ∧ t.ist = s.ist ∧ t.ls.n_leader = s.ls.n_leader ∧
        (r = true → R.Promised t.ls.n_leader)) (fun _ => True) := by
  rw [sat_onLS']
  refine ⟨fun r e => ?_, fun _ => trivial⟩
  simp only [LeaderState.set_promise] at e
  split at e
  · cases e
  · rename_i v hv
    cases e
    obtain ⟨e1, e2, e3, e4⟩ := update_max_q (ls := s.ls)
      (md := ⟨p.n_accepted, p.accepted_idx, p.decided_idx, f⟩) (sync := p.log_sync) (ck := ck)
    rw [e1] at hv
    have hs : ∀ k m, v[k]? = some (.promised m) → k + 1 = R.me ∨ R.peer (k + 1) ∧ R.prom s.ls.n_leader (k + 1) := by
      intro k m hk
      rcases setSlot_get hv hk with ⟨e, _⟩ | hk
      · rw [e]; exact hp
      · exact h.slots k m hk
    refine ⟨⟨h.pid, e4.trans h.quo, by simpa only [e2] using h.lead, h.out, h.cached, by simpa only [e2] using hs,
      by simpa only [e2, e3] using h.acks, by simpa only [e2] using h.quorum, h.acc, h.peers, h.prom⟩, rfl, rfl, rfl, e2, fun hq => ?_⟩
    obtain ⟨Q, q1, q2, q3⟩ := filter_slots v PromiseState.isPromised (fun j => j = R.me ∨ R.prom s.ls.n_leader j) 0
      (fun i x hx hpx => by
        cases x with
        | promised m => simpa using (hs i m hx).imp id (·.2)
        | notPromised => cases hpx
        | promisedHigher => cases hpx)
    refine ⟨Q, q1, ?_, fun j hj => by rw [e2]; exact (q3 j hj).1⟩
    rw [q2, ← h.quo, ← e4]; exact hq

theorem q_reconnected (h : QI R s) (pid : NodeId) (hp : R.node pid ∨ R.ask pid) : KeepsQ R (reconnected pid) s := by
  simp only [KeepsQ, reconnected, M.sat_bind, M.sat_get, M.sat_ite, M.sat_pure, M.sat_whenDo, sat_setState, sat_send]
  exact ⟨fun _ => h, fun hne => ⟨fun _ => QI.send (s := { s with role := .follower, phase := .recover })
    (h.down _ _ nofun nofun) pid (m := .prepareReq s.get_promise) ⟨h.pid, fun e => hne (e.trans h.pid.symm), hp⟩,
    fun _ => QI.send h pid (m := .prepareReq s.get_promise) ⟨h.pid, fun e => hne (e.trans h.pid.symm), hp⟩⟩⟩

theorem q_leader (h : QI R s) (h1 : s.get_current_leader > 0 ∧ s.pid ≠ s.get_current_leader) : R.peer s.get_current_leader := by
  unfold get_current_leader get_promise at *
  rcases h.prom with e | e | e
  · rw [e] at h1; exact absurd h1.1 (Nat.lt_irrefl _)
  · exact absurd (h.pid.trans e.symm) h1.2
  · exact e

theorem q_forward_proposals (h : QI R s) (es : List E) : KeepsQ R (forward_proposals es) s := by
  simp only [KeepsQ, forward_proposals, M.sat_bind, M.sat_get, M.sat_ite, M.sat_upd, sat_send]
  exact ⟨fun hl => h.send _ ⟨h.pid, q_leader h hl⟩, fun _ => ⟨h.pid, h.quo, h.lead, h.out, h.cached, h.slots, h.acks, h.quorum, h.acc, h.peers, h.prom⟩⟩

theorem q_forward_stopsign (h : QI R s) (ss : StopSign) : KeepsQ R (forward_stopsign ss) s := by
  simp only [KeepsQ, forward_stopsign, M.sat_bind, M.sat_get, M.sat_ite, M.sat_upd, sat_send, M.sat_pure]
  exact ⟨fun hl => h.send _ ⟨h.pid, q_leader h hl⟩,
    fun _ => ⟨fun _ => ⟨h.pid, h.quo, h.lead, h.out, h.cached, h.slots, h.acks, h.quorum, h.acc, h.peers, h.prom⟩, fun _ => h⟩⟩

theorem q_trim (h : QI R s) (i : Option Nat) : KeepsQ R (trim i) s := by
  simp only [KeepsQ, trim, M.sat_get, M.sat_ite, M.sat_bind, M.sat_ofPan, M.sat_pure]
  refine ⟨fun _ => ⟨fun k _ => ⟨fun _ => ?_, fun _ => h⟩, fun _ => trivial⟩, fun _ => h⟩
  refine M.sat_mono (q_store h (IStore.pd_try_trim _)) (fun r u hu => ?_) fun _ h => h
  cases r with
  | error e => exact hu
  | ok _ =>
    rw [M.sat_bind]
    exact q_forEach hu fun x hx t ht => q_send ht x ⟨ht.pid, h.peers x hx⟩

theorem q_snapshot [SnapOps E S] (h : QI R s) (i : Option Nat) (lo : Bool) : KeepsQ R (snapshot i lo) s := by
  simp only [KeepsQ, snapshot, M.sat_get, M.sat_bind]
  refine M.sat_mono (q_store h (IStore.pd_try_snapshot _)) (fun r u hu => ?_) fun _ h => h
  cases r with
  | error e => exact hu
  | ok _ =>
    simp only [M.sat_bind, M.sat_whenDo, M.sat_pure]
    exact ⟨fun _ => q_forEach hu fun x hx t ht => q_send ht x ⟨ht.pid, h.peers x hx⟩, fun _ => hu⟩

theorem q_handle_compaction [SnapOps E S] (h : QI R s) (c : Compaction) : KeepsQ R (handle_compaction c) s := by
  cases c with
  | trim i => exact q_bind (q_store h (IStore.pd_try_trim _)) fun _ _ h => h
  | snapshot i => exact q_bind (q_snapshot h i true) fun _ _ h => h

theorem q_send_prepare (h : QI R s) (hr : s.role = .leader) {to : NodeId} (ht : R.peer to) : KeepsQ R (send_prepare to) s := by
  simp only [KeepsQ, send_prepare, M.sat_bind, M.sat_get]; exact q_send h to ⟨h.pid, ht, (h.lead hr).2⟩

theorem msg_mono {b b' : Ballot} (hb : b ≤ b') {m : PaxosMessage E S} (h : R.msg b m) : R.msg b' m := by
  obtain ⟨src, dst, m⟩ := m
  refine ⟨h.1, ?_⟩
  have h2 := h.2
  cases m <;> first | exact ⟨h2.1, Ballot.le_trans h2.2.1 hb, h2.2.2⟩ | exact h2

theorem q_handle_leader (h : QI R s) {n : Ballot} (hme : n.pid = R.me) : KeepsQ R (handle_leader n) s := by
  simp only [KeepsQ, handle_leader, M.sat_bind, M.sat_get, M.sat_ite, M.sat_pure, M.sat_upd]
  refine ⟨fun _ => h, fun hn => ⟨fun hp => ?_, fun hp => absurd (h.pid.trans hme.symm) hp⟩⟩
  have hn2 : s.ist.cache.promise < n := (Ballot.not_le ..).1 fun h => hn (.inr h)
  simp only [sat_onStore]
  refine M.sat_mono IStore.pd_flush (fun _ i hi => ?_) fun _ _ => trivial
  refine M.sat_mono (IStore.pd_set_promise n) (fun _ j hj => ?_) fun _ _ => trivial
  have hle : s.ist.cache.promise ≤ j.cache.promise := by rw [hj.1]; exact Ballot.le_of_lt hn2
  -- the new leader state, seen as that of a follower that promised `n`
  have h0 : QI R { s with ist := j, ls := LeaderState.with n s.ls.max_pid s.ls.quorum, role := .follower, phase := .none } := by
    refine ⟨h.pid, h.quo, nofun, fun m hm => msg_mono hle (h.out m hm), fun p hp => ⟨Ballot.le_trans (h.cached p hp).1 hle, (h.cached p hp).2⟩,
      fun k m hk => ?_, fun k a hk => ?_, nofun, nofun, h.peers, .inr (.inl ?_)⟩
    · simp only [LeaderState.with, List.getElem?_replicate] at hk; split at hk <;> cases hk
    · simp only [LeaderState.with, List.getElem?_replicate] at hk; split at hk
      · cases hk; exact .inl rfl
      · cases hk
    · rw [hj.1]; exact hp.symm.trans h.pid
  have hset := q_set_promise h0 (p := {
    n, n_accepted := j.cache.accepted_round, decided_idx := j.cache.decided_idx
    accepted_idx := j.cache.accepted_idx, log_sync := none }) (f := s.pid) (.inl h.pid) true
  rw [sat_onLS'] at hset ⊢
  refine ⟨fun r hr => ?_, fun _ => trivial⟩
  obtain ⟨h1, -, -, -, h5, -⟩ := hset.1 r hr
  rw [sat_setState]
  have h2 : QI R { s with ist := j, ls := r.1, role := .leader, phase := .prepare } :=
    ⟨h1.pid, h1.quo, fun _ => ⟨h5.trans hj.1.symm, by rw [h5]; exact hp.symm.trans h.pid⟩, h1.out, h1.cached, h1.slots, h1.acks,
      fun _ => nofun, nofun, h1.peers, h1.prom⟩
  exact q_forEach h2 fun x hx t ht => q_send ht x ⟨ht.pid, h.peers x hx, hp.symm.trans h.pid⟩

theorem q_handle_preparereq (h : QI R s) (n : Ballot) {f : NodeId} (hf : R.peer f) : KeepsQ R (handle_preparereq n f) s := by
  simp only [KeepsQ, handle_preparereq, M.sat_get, M.sat_bind, M.sat_ite, M.sat_pure]
  refine ⟨fun hr => ?_, fun _ => h⟩
  have k1 : ∀ {m : M (SP E S) Unit} {t : SP E S}, KeepsQ R m t → t.role = .leader →
      M.Sat m t (fun _ u => u.role = t.role) (fun _ => True) → M.Sat m t (fun _ u => QI R u ∧ u.role = .leader) (fun _ => True) :=
    fun h hr hs => M.sat_mono (M.sat_and h hs) (fun _ _ h => ⟨h.1, h.2.trans hr⟩) fun _ _ => trivial
  have k2 : ∀ (g : LeaderState E S → Pan (LeaderState E S)) (t : SP E S), M.Sat (onLS g) t (fun _ u => u.role = t.role) (fun _ => True) := by
    intro g t; rw [sat_onLS]; exact ⟨fun _ _ => rfl, fun _ => trivial⟩
  refine M.sat_mono (k1 (q_reset h f) hr.1 (k2 _ _)) (fun _ t ht => ?_) fun _ _ => trivial
  exact M.sat_mono (k1 (q_onLS ht.1 fun _ => meta_q) ht.2 (k2 _ _)) (fun _ u hu => q_send_prepare hu.1 hu.2 hf) fun _ _ => trivial

theorem q_setMsg (h : QI R s) (k : Nat) {m : PaxosMsg E S}
    (hm : ∀ x, s.outgoing[k]? = some x → R.msg s.ist.cache.promise x → R.msg s.ist.cache.promise { x with msg := m }) :
    KeepsQ R (setMsg k m) s := by
  unfold KeepsQ; rw [sat_setMsg]
  refine ⟨h.pid, h.quo, h.lead, fun x hx => ?_, h.cached, h.slots, h.acks, h.quorum, h.acc, h.peers, h.prom⟩
  obtain ⟨i, hi⟩ := List.mem_iff_getElem?.1 hx
  simp only [List.getElem?_modify] at hi
  obtain ⟨y, hy, e⟩ := Option.map_eq_some_iff.1 hi
  have ho := h.out y (List.mem_of_getElem? hy)
  split at e
  · rename_i hk
    subst hk; subst e
    exact hm y hy ho
  · subst e; exact ho

/-- The message that is extended is an AcceptDecide in the outgoing buffer. -/
theorem get_latest_accdec_mem {to : NodeId} {idx : Nat} {acc : AcceptDecide E} (h : s.get_latest_accdec to = some (some (idx, acc))) :
    ∃ x, s.outgoing[idx]? = some x ∧ x.msg = .acceptDecide acc := by
  unfold get_latest_accdec at h
  split at h
  · cases h
  · cases h
  · split at h
    · split at h
      · cases h
      · rename_i m hm
        split at h
        · rename_i a ha
          cases h
          exact ⟨m, hm, ha⟩
        · cases h
    · cases h

theorem q_extend {idx : Nat} {to : NodeId} {acc acc' : AcceptDecide E} (hl : s.get_latest_accdec to = some (some (idx, acc)))
    (hn : acc'.n = acc.n) {x : PaxosMessage E S} (hx : s.outgoing[idx]? = some x) {b : Ballot} (h : R.msg b x) :
    R.msg b ({ src := x.src, dst := x.dst, msg := .acceptDecide acc' } : PaxosMessage E S) := by
  obtain ⟨y, hy, hm⟩ := get_latest_accdec_mem hl
  rw [hx] at hy; cases hy
  have h2 := h.2
  rw [hm] at h2
  refine ⟨h.1, ?_⟩
  simp only at h2 ⊢
  rw [hn]; exact h2

theorem q_send_acceptdecide_to (h : QI R s) (hr : s.role = .leader) (es : List E) {pid : NodeId} (hp : R.peer pid)
    (hpr : R.prom s.ls.n_leader pid) : KeepsQ R (send_acceptdecide_to es pid) s := by
  simp only [KeepsQ, send_acceptdecide_to, M.sat_bind, M.sat_get, M.sat_ofPan]
  refine ⟨fun r hl => ?_, fun _ => trivial⟩
  match r with
  | some (idx, acc) =>
    refine q_setMsg h idx fun x hx hm => ?_
    exact q_extend (acc' := { acc with entries := acc.entries ++ es, decided_idx := s.ist.cache.decided_idx }) hl rfl hx hm
  | none =>
    exact q_bind (q_onLS h fun _ => meta_q) fun _ _ ht => q_bind (q_onLS' ht fun _ => next_q) fun _ _ ht =>
      q_send ht pid ⟨ht.pid, hp, (h.lead hr).2, hpr⟩

theorem mem_promisedFrom {own : NodeId} {l : List PromiseState} {k x : Nat} (h : x ∈ LeaderState.promisedFrom own k l) :
    x ≠ own ∧ k ≤ x ∧ ∃ m, l[x - k]? = some (.promised m) := by
  induction l generalizing k with
  | nil => cases h
  | cons p l ih =>
    have tl : x ∈ LeaderState.promisedFrom own (k + 1) l → x ≠ own ∧ k ≤ x ∧ ∃ m, (p :: l)[x - k]? = some (.promised m) := by
      intro h
      obtain ⟨h1, h2, m, h3⟩ := ih h
      refine ⟨h1, by omega, m, ?_⟩
      rw [show x - k = x - (k + 1) + 1 by omega, List.getElem?_cons_succ]
      exact h3
    simp only [LeaderState.promisedFrom] at h
    split at h
    · rename_i hc
      rcases List.mem_cons.1 h with rfl | h
      · refine ⟨hc.2, by omega, ?_⟩
        have hp := hc.1
        cases p with
        | promised m => exact ⟨m, by simp⟩
        | notPromised => cases hp
        | promisedHigher => cases hp
      · exact tl h
    · exact tl h

/-- The followers of a leader are other servers that promised its ballot. -/
theorem q_follower (h : QI R s) (hr : s.role = .leader) {x : NodeId}
    (hx : x ∈ s.ls.get_promised_followers) : R.peer x ∧ R.prom s.ls.n_leader x := by
  obtain ⟨h1, h2, m, h3⟩ := mem_promisedFrom hx
  rw [(h.lead hr).2] at h1
  rcases h.slots _ m h3 with e | e
  · exact absurd (by omega) h1
  · rw [show x - 1 + 1 = x by omega] at e
    exact e

theorem q_send_acceptdecide (h : QI R s) (hr : s.role = .leader) (es : List E) : KeepsQ R (send_acceptdecide es) s := by
  simp only [KeepsQ, send_acceptdecide, M.sat_bind, M.sat_get]
  refine q_forEachL h hr fun x hx t ht hr' hn => ?_
  have hf := q_follower h hr hx
  exact q_lead (q_send_acceptdecide_to ht hr' es hf.1 (by rw [hn]; exact hf.2)) hr' hn (so_send_acceptdecide_to es x)

theorem role_set_accepted (pid : NodeId) (i : Nat) :
    M.Sat (onLS fun ls => ls.set_accepted_idx pid i) s (fun _ t => t.role = s.role ∧ t.ls.n_leader = s.ls.n_leader) (fun _ => True) := by
  rw [sat_onLS]; exact ⟨fun _ e => ⟨rfl, by rw [LeaderState.set_accepted_idx_eq e]⟩, fun _ => trivial⟩

theorem role_store {α : Type} (m : M (IStore E S) α) : M.Sat (onStore m) s (fun _ t => t.role = s.role) (fun _ => True) := by
  rw [sat_onStore]; exact M.sat_mono (M.sat_true m _) (fun _ _ _ => rfl) fun _ _ => trivial

theorem q_accepted_leader (h : QI R s) (hr : s.role = .leader) (md : Option (AcceptedMetaData E)) : KeepsQ R (accepted_leader md) s := by
  cases md with
  | none => exact h
  | some md =>
    simp only [KeepsQ, accepted_leader, M.sat_bind, M.sat_get]
    exact M.sat_mono (M.sat_and (q_set_accepted h (.inl h.pid)) (role_set_accepted _ _))
      (fun _ _ ht => q_send_acceptdecide ht.1 (ht.2.1.trans hr) _) fun _ _ => trivial

theorem q_accept_entries_leader (h : QI R s) (hr : s.role = .leader) (es : List E) : KeepsQ R (accept_entries_leader es) s := by
  simp only [KeepsQ, accept_entries_leader, M.sat_bind]
  exact M.sat_mono (M.sat_and (q_store h (IStore.pd_append_entries es)) (role_store _))
    (fun _ _ ht => q_accepted_leader ht.1 (ht.2.trans hr) _) fun _ _ => trivial

theorem q_seq (h : QI R s) (to : NodeId) (re : Bool) : KeepsQ R (seqNumFor to re) s := by
  unfold seqNumFor
  split
  · refine q_onLS' h fun r e => ?_
    simp only [Option.map_eq_some_iff] at e
    obtain ⟨q, _, rfl⟩ := e; exact ⟨rfl, rfl, rfl, rfl⟩
  · exact q_onLS' h fun _ => next_q

theorem q_send_accept_stopsign (h : QI R s) (hr : s.role = .leader) {to : NodeId} (ht : R.peer to) (hp : R.prom s.ls.n_leader to)
    (ss : StopSign) (re : Bool) : KeepsQ R (send_accept_stopsign to ss re) s := by
  unfold send_accept_stopsign
  refine M.sat_bind .. |>.2 (M.sat_mono (M.sat_and (q_seq h to re) (so_seq to re)) (fun q t h1 => ?_) fun _ _ => trivial)
  simp only [M.sat_bind, M.sat_get]
  have hr' : t.role = .leader := by rw [h1.2]; exact hr
  exact q_send h1.1 to ⟨h1.1.pid, ht, (h1.1.lead hr').2, by rw [h1.2]; exact hp⟩

theorem q_send_decide (h : QI R s) (hr : s.role = .leader) {to : NodeId} (ht : R.peer to) (hp : R.prom s.ls.n_leader to)
    (d : Nat) (re : Bool) : KeepsQ R (send_decide to d re) s := by
  unfold send_decide
  refine M.sat_bind .. |>.2 (M.sat_mono (M.sat_and (q_seq h to re) (so_seq to re)) (fun q t h1 => ?_) fun _ _ => trivial)
  simp only [M.sat_bind, M.sat_get]
  have hr' : t.role = .leader := by rw [h1.2]; exact hr
  exact q_send h1.1 to ⟨h1.1.pid, ht, (h1.1.lead hr').2, by rw [h1.2]; exact hp⟩

theorem q_accept_stopsign_leader (h : QI R s) (hr : s.role = .leader) (ss : StopSign) : KeepsQ R (accept_stopsign_leader ss) s := by
  simp only [KeepsQ, accept_stopsign_leader, M.sat_bind]
  refine M.sat_mono (M.sat_and (q_store h (IStore.pd_append_ss ss)) (role_store _)) (fun md t ht => ?_) fun _ _ => trivial
  have hr1 : t.role = .leader := ht.2.trans hr
  have h1 : M.Sat (send_flushed md) t (fun _ u => QI R u ∧ u.role = .leader) (fun _ => True) := by
    cases md with
    | none => exact ⟨ht.1, hr1⟩
    | some md =>
      exact M.sat_mono (M.sat_and (q_send_acceptdecide ht.1 hr1 _) (so_send_acceptdecide md.entries))
        (fun _ u hu => ⟨hu.1, by rw [hu.2]; exact hr1⟩) fun _ _ => trivial
  refine M.sat_mono h1 (fun _ u hu => ?_) fun _ h => h
  simp only [M.sat_bind, M.sat_get]
  refine M.sat_mono (M.sat_and (q_set_accepted hu.1 (.inl hu.1.pid)) (role_set_accepted _ _)) (fun _ v hv => ?_) fun _ _ => trivial
  refine q_forEachL hv.1 (hv.2.1.trans hu.2) fun x hx t ht hr' hn => ?_
  have hf := q_follower hu.1 hu.2 hx
  exact q_lead (q_send_accept_stopsign ht hr' hf.1 (by rw [hn, hv.2.2]; exact hf.2) ss false) hr' hn (so_send_accept_stopsign x ss false)

/-- Store operations in the middle of a leader's handler. -/
theorem q_append_buffered (h : QI R s) (i : Nat) :
    M.Sat (append_buffered i) s (fun _ t => QI R t ∧ t.role = s.role ∧ t.phase = s.phase ∧
      t.ist.cache.promise = s.ist.cache.promise ∧ t.ls = s.ls ∧ t.pid = s.pid) (fun _ => True) := by
  unfold append_buffered
  simp only [M.sat_bind, M.sat_get, M.sat_ite, M.sat_pure]
  refine ⟨fun _ => by simp [h], fun _ => ?_⟩
  have h1 : M.Sat (append_buffered_proposals i) s (fun _ t => QI R t ∧ t.role = s.role ∧ t.phase = s.phase ∧
      t.ist.cache.promise = s.ist.cache.promise ∧ t.ls = s.ls ∧ t.pid = s.pid) (fun _ => True) := by
    simp only [append_buffered_proposals, M.sat_bind, M.sat_get, M.sat_ite, M.sat_pure, M.sat_upd, sat_onStore]
    refine ⟨fun _ => by simp [h], fun _ => ?_⟩
    refine M.sat_mono (IStore.pd_append_nb _) (fun _ j hj => ?_) fun _ _ => trivial
    have h0 : QI R { s with buffered_proposals := [] } :=
      ⟨h.pid, h.quo, h.lead, h.out, h.cached, h.slots, h.acks, h.quorum, h.acc, h.peers, h.prom⟩
    have := h0.store hj.1
    simp_all [IStore.PD]
  refine M.sat_mono h1 (fun k u hu => ?_) fun _ h => h
  simp only [append_buffered_stopsign, M.sat_bind, M.sat_get]
  cases hb : u.buffered_stopsign with
  | none => exact hu
  | some ss =>
    simp only [M.sat_bind, M.sat_upd, M.sat_get, M.sat_pure, sat_onStore]
    refine M.sat_mono (IStore.pd_append_ss ss) (fun _ j hj => ?_) fun _ _ => trivial
    have h0 : QI R { u with buffered_stopsign := none } :=
      ⟨hu.1.pid, hu.1.quo, hu.1.lead, hu.1.out, hu.1.cached, hu.1.slots, hu.1.acks, hu.1.quorum, hu.1.acc, hu.1.peers, hu.1.prom⟩
    exact ⟨h0.store hj.1, hu.2.1, hu.2.2.1, hj.1.trans hu.2.2.2.1, hu.2.2.2.2.1, hu.2.2.2.2.2⟩

variable [SnapOps E S]

theorem q_send_accsync (h : QI R s) (hr : s.role = .leader) {to : NodeId} (hto : R.peer to) (hp : R.prom s.ls.n_leader to) : KeepsQ R (send_accsync to) s := by
  simp only [KeepsQ, send_accsync, M.sat_bind, M.sat_get, M.sat_ofPan]
  refine ⟨fun r _ => ⟨fun l hl => ?_, fun _ => trivial⟩, fun _ => trivial⟩
  refine M.sat_mono (q_onLS h fun _ => incr_q) (fun _ t ht => ?_) fun _ h => h
  exact M.sat_mono (q_onLS' ht fun _ => next_q) (fun _ u hu => q_send hu to ⟨hu.pid, hto, (h.lead hr).2, hp⟩) fun _ h => h

theorem q_handle_majority (h : QI R s) (hr : s.role = .leader) (hq : R.Promised s.ls.n_leader) :
    KeepsQ R handle_majority_promises s := by
  simp only [KeepsQ, handle_majority_promises, M.sat_bind, M.sat_get, M.sat_upd]
  have h0 : QI R { s with ls := { s.ls with max_promise_sync := none } } := h.ls ⟨rfl, rfl, rfl, rfl⟩
  rw [sat_onStore]
  refine M.sat_mono (IStore.pd_sync_log _ _ _) (fun a j hj => ?_) fun _ h => h
  refine M.sat_mono (q_append_buffered (h0.store hj.1) a) (fun a u hu => ?_) fun _ h => h
  obtain ⟨h1, h2, h3, h4, h5, h6⟩ := hu
  rw [sat_setState]
  have hl : u.ls.n_leader = s.ls.n_leader := by rw [h5]
  have h7 : QI R { u with role := .leader, phase := .accept } :=
    ⟨h1.pid, h1.quo, fun _ => h1.lead (h2.trans hr), h1.out, h1.cached, h1.slots, h1.acks, fun _ _ => by rw [hl]; exact hq,
      nofun, h1.peers, h1.prom⟩
  have h8 := q_set_accepted h7 (pid := s.pid) (i := a) (.inl h.pid)
  rw [KeepsQ, sat_onLS] at h8; rw [sat_onLS]
  refine ⟨fun ls e => ?_, fun _ => trivial⟩
  refine q_forEachL (h8.1 ls e) rfl fun x hx t ht hr hn => ?_
  have hf := q_follower (h8.1 ls e) rfl hx
  exact q_lead (q_send_accsync ht hr hf.1 (by rw [hn]; exact hf.2)) hr hn (so_send_accsync x)

theorem q_handle_promise (h : QI R s) {p : Promise E S} {f : NodeId} (hf : R.peer f) (hp : R.prom p.n f) :
    KeepsQ R (handle_promise p f) s := by
  simp only [KeepsQ, handle_promise, M.sat_bind, M.sat_get]
  split
  · rename_i hr hph
    simp only [handle_promise_prepare, M.sat_bind, M.sat_get, M.sat_ite, M.sat_pure]
    refine ⟨fun hn => ?_, fun _ => h⟩
    refine M.sat_mono (q_set_promise h (.inr ⟨hf, hn ▸ hp⟩) true) (fun r t ht => ⟨fun hq => ?_, fun _ => ht.1⟩) fun _ h => h
    exact q_handle_majority ht.1 (ht.2.1.trans hr) (ht.2.2.2.2.2 hq)
  · rename_i hr hph
    simp only [handle_promise_accept, M.sat_bind, M.sat_get, M.sat_ite, M.sat_pure]
    refine ⟨fun hn => ?_, fun _ => h⟩
    exact M.sat_mono (q_set_promise h (.inr ⟨hf, hn ▸ hp⟩) false) (fun r t ht =>
      q_send_accsync ht.1 (ht.2.1.trans hr) hf (by rw [ht.2.2.2.2.1]; exact hn ▸ hp)) fun _ h => h
  · exact h

omit [SnapOps E S]

theorem q_announce (h : QI R s) (hr : s.role = .leader) (d : Nat) {pid : NodeId} (hx : R.peer pid)
    (hp : R.prom s.ls.n_leader pid) : KeepsQ R (announce_decided d pid) s := by
  simp only [KeepsQ, announce_decided, M.sat_bind, M.sat_get, M.sat_ofPan]
  refine ⟨fun r hl => ?_, fun _ => trivial⟩
  match r with
  | some (idx, acc) =>
    refine q_setMsg h idx fun x hx hm => ?_
    exact q_extend (acc' := { acc with decided_idx := d }) hl rfl hx hm
  | none => exact q_send_decide h hr hx hp d false

/-- Besides keeping the invariant: the decided index changes only to an index that an accept quorum acknowledged. -/
theorem q_handle_accepted (h : QI R s) {a : Accepted} {f : NodeId} (ha : R.ack a.n f a.accepted_idx) :
    M.Sat (handle_accepted a f) s (fun _ t => QI R t ∧ (t.ist.cache.decided_idx = s.ist.cache.decided_idx ∨
      (s.ist.cache.decided_idx < t.ist.cache.decided_idx ∧ R.Acked s.ls.n_leader t.ist.cache.decided_idx))) (fun _ => True) := by
  simp only [handle_accepted, M.sat_bind, M.sat_get, M.sat_ite, M.sat_pure]
  refine ⟨fun hg => ?_, fun _ => ⟨h, by simp⟩⟩
  have h1 := q_set_accepted h (pid := f) (i := a.accepted_idx) (.inr (hg.1 ▸ ha))
  rw [KeepsQ, sat_onLS] at h1; rw [sat_onLS]
  refine ⟨fun ls e => ⟨fun hc => ?_, fun _ => ⟨h1.1 ls e, .inl rfl⟩⟩, fun _ => trivial⟩
  have ht := h1.1 ls e
  have hn : ls.n_leader = s.ls.n_leader := by rw [LeaderState.set_accepted_idx_eq e]
  have hack : R.Acked s.ls.n_leader a.accepted_idx := by
    have hch := hc.2
    unfold LeaderState.is_chosen at hch
    obtain ⟨Q, q1, q2, q3⟩ := filter_slots ls.accepted_indexes (fun la => decide (la ≥ a.accepted_idx))
      (fun j => j = R.me ∨ ∃ b, a.accepted_idx ≤ b ∧ R.ack s.ls.n_leader j b) 0 (fun i x hx hp => by
        simp only [ge_iff_le, decide_eq_true_eq] at hp
        rcases ht.acks i x hx with h0 | h0 | h0
        · have := hc.1; simp only [gt_iff_lt] at this; omega
        · exact .inl (by rw [← h0]; omega)
        · simp only [hn] at h0
          exact .inr ⟨x, hp, by rw [show 0 + i + 1 = i + 1 by omega]; exact h0⟩)
    refine ⟨Q, q1, ?_, fun j hj => (q3 j hj).1⟩
    rw [q2]
    have hq : ls.quorum = R.q := ht.quo
    rw [← hq]; exact hch
  simp only [sat_onStore]
  refine M.sat_mono (IStore.pd_set_decided _) (fun _ j hj => ?_) fun _ _ => trivial
  have hu : QI R { s with ls := ls, ist := j } := ht.store hj.1
  have hrole : ({ s with ls := ls, ist := j } : SP E S).role = .leader := hg.2.1
  have hfol := fun x hx => q_follower (s := { s with ls := ls, ist := j }) hu hrole (x := x) hx
  refine M.sat_mono (M.sat_and
    (q_forEachL hu hrole fun x hx t ht hr hn => q_lead (q_announce ht hr _ (hfol x hx).1 (by rw [hn]; exact (hfol x hx).2)) hr hn
      (so_announce_decided _ x))
    (so_forEach fun x t => so_announce_decided _ x)) (fun _ t h2 => ⟨h2.1, .inr ?_⟩) fun _ _ => trivial
  have e1 : t.ist = j := by rw [h2.2]
  rw [e1, hj.2]
  exact ⟨hc.1, hack⟩

theorem q_handle_notaccepted (h : QI R s) (n : Ballot) (f : NodeId) : KeepsQ R (handle_notaccepted n f) s := by
  simp only [KeepsQ, handle_notaccepted, M.sat_bind, M.sat_get, M.sat_ite, M.sat_pure]
  exact ⟨fun _ => q_lost h f, fun _ => h⟩

theorem q_handle_forwarded_proposal (h : QI R s) (es : List E) : KeepsQ R (handle_forwarded_proposal es) s := by
  simp only [KeepsQ, handle_forwarded_proposal, M.sat_bind, M.sat_get, M.sat_ite, M.sat_pure]
  refine ⟨fun _ => h, fun _ => ?_⟩
  split
  · exact ⟨h.pid, h.quo, h.lead, h.out, h.cached, h.slots, h.acks, h.quorum, h.acc, h.peers, h.prom⟩
  · rename_i hr _; exact q_accept_entries_leader h hr es
  · exact q_forward_proposals h es

theorem q_handle_forwarded_stopsign (h : QI R s) (ss : StopSign) : KeepsQ R (handle_forwarded_stopsign ss) s := by
  simp only [KeepsQ, handle_forwarded_stopsign, M.sat_bind, M.sat_get, M.sat_ite, M.sat_pure]
  refine ⟨fun _ => h, fun _ => ?_⟩
  split
  · exact ⟨h.pid, h.quo, h.lead, h.out, h.cached, h.slots, h.acks, h.quorum, h.acc, h.peers, h.prom⟩
  · rename_i hr _; exact q_accept_stopsign_leader h hr ss
  · exact q_forward_stopsign h ss

theorem q_handle_prepare [SnapOps E S] (h : QI R s) {p : Prepare} {f : NodeId} (hf : R.peer f) (hn : p.n.pid = f)
    (hp : R.prep p.n) : KeepsQ R (handle_prepare p f) s := by
  simp only [KeepsQ, handle_prepare, M.sat_bind, M.sat_get, M.sat_ite, M.sat_pure, M.sat_upd, M.sat_ofPan, sat_send, sat_onStore]
  refine ⟨fun hg => ?_, fun _ => h⟩
  refine M.sat_mono IStore.pd_flush (fun _ i hi => ?_) fun _ _ => trivial
  refine M.sat_mono (IStore.pd_set_promise p.n) (fun _ j hj => ?_) fun _ _ => trivial
  refine ⟨fun l hl => ?_, fun _ => trivial⟩
  have hle : s.ist.cache.promise ≤ j.cache.promise := by
    rw [hj.1]
    rcases hg with hg | hg
    · exact Ballot.le_of_lt hg
    · exact Ballot.le_of_eq hg.1
  refine QI.send (s := { s with
      ist := j, role := .follower, phase := .prepare, current_seq_num := {}
      cached_promise := some { n := p.n, n_accepted := j.cache.accepted_round, decided_idx := j.cache.decided_idx,
                               accepted_idx := j.cache.accepted_idx, log_sync := l } })
    ⟨h.pid, h.quo, nofun, fun m hm => msg_mono hle (h.out m hm), ?_, h.slots, h.acks, nofun,
      nofun, h.peers, .inr (.inr (by rw [hj.1, hn]; exact hf))⟩ f ⟨h.pid, hf, Ballot.le_of_eq hj.1.symm, hn, hp⟩
  intro q hq; cases hq; exact ⟨Ballot.le_of_eq hj.1.symm, by rw [hn]; exact hf, hp⟩

theorem q_check_valid_ballot (h : QI R s) {n : Ballot} (hn : R.peer n.pid) (hl : R.led n) : KeepsQ R (check_valid_ballot n) s := by
  simp only [KeepsQ, check_valid_ballot, M.sat_bind, M.sat_get]
  split
  · exact h
  · rename_i e
    refine q_bind (q_send h _ ⟨h.pid, hn, Ballot.le_refl _, n, rfl, ?_, hl⟩) fun _ _ ht => ht
    exact (Ballot.lt_iff _ _).2 ((Ballot.cmp_gt_iff _ _).1 e)
  · exact q_bind (q_reconnected h _ (.inl hn.1)) fun _ _ ht => ht

/-- A positive answer means the promise was made to that ballot, and nothing changed. -/
theorem check_valid_true (n : Ballot) : M.Sat (check_valid_ballot n) s
    (fun ok t => ok = true → t = s ∧ s.ist.cache.promise.cmp n = .eq) (fun _ => True) := by
  simp only [check_valid_ballot, M.sat_bind, M.sat_get]
  split
  · rename_i e; exact fun _ => ⟨rfl, e⟩
  · rw [M.sat_bind, sat_send, M.sat_pure]; exact nofun
  · rw [M.sat_bind]
    exact M.sat_mono (M.sat_true _ _) (fun _ _ _ => by rw [M.sat_pure]; exact nofun) fun _ _ => trivial

theorem q_forward_buffered (h : QI R s) :
    M.Sat forward_buffered_proposals s (fun _ t => QI R t ∧ t.ist = s.ist) (fun _ => True) := by
  simp only [forward_buffered_proposals, M.sat_bind, M.sat_get, M.sat_upd, M.sat_ite, M.sat_pure]
  have h0 : QI R { s with buffered_proposals := [] } := ⟨h.pid, h.quo, h.lead, h.out, h.cached, h.slots, h.acks, h.quorum, h.acc, h.peers, h.prom⟩
  refine ⟨fun _ => by simp [h0], fun _ => ?_⟩
  refine M.sat_mono (M.sat_and (q_forward_proposals h0 s.buffered_proposals)
    (?_ : M.Sat _ _ (fun _ t => t.ist = s.ist) fun _ => True)) (fun _ _ h => h) fun _ _ => trivial
  simp only [forward_proposals, M.sat_bind, M.sat_get, M.sat_ite, M.sat_upd, sat_send]
  exact ⟨fun _ => by simp, fun _ => by simp⟩

/-- An AcceptSync of ballot `n` was delivered, or one of a ballot the code cannot tell apart. -/
theorem q_handle_acceptsync [SnapOps E S] (h : QI R s) {a : AcceptSync E S} {f : NodeId} (hf : R.peer f) (hn : a.n.pid = f)
    (hl : R.led a.n) (hsy : R.sync a.n) (ha : s.ist.cache.promise.cmp a.n = .eq → s.ist.cache.promise = a.n) : KeepsQ R (handle_acceptsync a f) s := by
  unfold handle_acceptsync
  rw [KeepsQ, M.sat_bind]
  refine M.sat_mono (M.sat_and (q_check_valid_ballot h (hn ▸ hf) hl) (check_valid_true a.n)) (fun ok t ht => ?_) fun _ _ => trivial
  simp only [M.sat_bind, M.sat_get, M.sat_ite, M.sat_pure, M.sat_upd, M.sat_whenDo, sat_setState, sat_send, sat_onStore]
  refine ⟨fun hg => ?_, fun _ => ht.1⟩
  obtain ⟨rfl, hc⟩ := ht.2 hg.1
  refine M.sat_mono (IStore.pd_sync_log _ _ _) (fun k j hj => ?_) fun _ h => h
  have hu : QI R { t with cached_promise := none, ist := j } :=
    QI.store (s := { t with cached_promise := none })
      ⟨h.pid, h.quo, h.lead, h.out, (by intro q hq; cases hq), h.slots, h.acks, h.quorum, h.acc, h.peers, h.prom⟩ hj.1
  have fin : ∀ v : SP E S, QI R v → v.ist = j → QI R { v with
      role := .follower, phase := .accept, current_seq_num := a.seq_num
      latest_accepted_meta := some (a.n, v.outgoing.length)
      outgoing := v.outgoing ++ [{ src := v.pid, dst := f, msg := .accepted { n := a.n, accepted_idx := k } }] } := by
    intro v hv he
    have := QI.send hv f (m := .accepted { n := a.n, accepted_idx := k }) ⟨hv.pid, hn, hf, hsy⟩
    refine ⟨this.pid, this.quo, nofun, this.out, this.cached, this.slots, this.acks, nofun, fun _ _ => ?_, this.peers, this.prom⟩
    simp only [he, hj.1]
    rw [ha hc, hn]; exact ⟨hf, hsy⟩
  exact ⟨fun _ => M.sat_mono (q_forward_buffered hu) (fun _ v hv => fin v hv.1 hv.2) fun _ h => h, fun _ => fin _ hu rfl⟩

/-- A positive answer of the guard: the server is synchronised with the leader of this ballot. -/
theorem q_accept_guard (h : QI R s) {n : Ballot} (hn : R.peer n.pid) (hl : R.led n)
    (ha : s.ist.cache.promise.cmp n = .eq → s.ist.cache.promise = n) (q : SeqNum) (any : Bool) :
    M.Sat (accept_guard n q any) s (fun ok t => QI R t ∧ (ok = true → R.sync n)) (fun _ => True) := by
  unfold accept_guard
  rw [M.sat_bind]
  refine M.sat_mono (M.sat_and (q_check_valid_ballot h hn hl) (check_valid_true n)) (fun ok t ht => ?_) fun _ _ => trivial
  obtain ⟨ht, htrue⟩ := ht
  simp only [M.sat_bind, M.sat_get, M.sat_ite, M.sat_pure, handle_sequence_num]
  refine ⟨fun hg => ?_, fun _ => ⟨ht, nofun⟩⟩
  obtain ⟨rfl, hc⟩ := htrue hg.1
  have hsy : R.sync n := by
    cases hr : t.role with
    | leader => exact absurd ((congrArg Ballot.pid (ha hc)).symm.trans ((congrArg Ballot.pid (h.lead hr).1).symm.trans (h.lead hr).2)) hn.2
    | follower =>
      have := h.acc hr hg.2.2
      rw [ha hc] at this
      exact this.2
  split
  · exact ⟨⟨ht.pid, ht.quo, ht.lead, ht.out, ht.cached, ht.slots, ht.acks, ht.quorum, ht.acc, ht.peers, ht.prom⟩, fun _ => hsy⟩
  · rw [M.sat_bind]; exact M.sat_mono (q_reconnected ht _ (.inl hn.1)) (fun _ _ h => ⟨h, fun _ => hsy⟩) fun _ h => h
  · exact ⟨ht, fun _ => hsy⟩

theorem get_latest_accepted_mem {n : Ballot} {idx : Nat} {a : Accepted} (h : s.get_latest_accepted n = some (some (idx, a))) :
    ∃ x, s.outgoing[idx]? = some x ∧ x.msg = .accepted a := by
  unfold get_latest_accepted at h
  split at h
  · cases h
  · split at h
    · split at h
      · cases h
      · rename_i m hm
        split at h
        · rename_i a ha
          cases h
          exact ⟨m, hm, ha⟩
        · cases h
    · cases h

theorem q_reply_accepted (h : QI R s) {n : Ballot} (hn : R.peer n.pid ∧ R.sync n) (i : Nat) :
    KeepsQ R (reply_accepted n i) s := by
  simp only [KeepsQ, reply_accepted, M.sat_bind, M.sat_get, M.sat_ofPan]
  refine ⟨fun r hl => ?_, fun _ => trivial⟩
  match r with
  | some (idx, a) =>
    refine q_setMsg h idx fun x hx hm => ?_
    obtain ⟨y, hy, he⟩ := get_latest_accepted_mem hl
    rw [hx] at hy; cases hy
    have h2 := hm.2
    rw [he] at h2
    exact ⟨hm.1, h2⟩
  | none =>
    have := QI.send h n.pid (m := .accepted { n, accepted_idx := i }) ⟨h.pid, rfl, hn⟩
    exact ⟨this.pid, this.quo, this.lead, this.out, this.cached, this.slots, this.acks, this.quorum, this.acc, this.peers, this.prom⟩

theorem q_reply_opt (h : QI R s) {n : Ballot} (hn : R.peer n.pid ∧ R.sync n) (i : Option Nat) :
    KeepsQ R (reply_opt n i) s := by
  cases i with
  | none => exact h
  | some i => exact q_reply_accepted h hn i

theorem q_set_decided (h : QI R s) (d : Nat) : KeepsQ R (onStore (IStore.set_decided_idx d)) s := by
  unfold KeepsQ; rw [sat_onStore]
  exact M.sat_mono (IStore.pd_set_decided d) (fun _ _ hj => h.store hj.1) fun _ _ => trivial

theorem q_update_decided (h : QI R s) (d : Nat) : KeepsQ R (update_decided_idx_and_get_accepted_idx d) s := by
  simp only [KeepsQ, update_decided_idx_and_get_accepted_idx, M.sat_bind, M.sat_get, M.sat_ite, M.sat_pure]
  refine ⟨fun _ => h, fun _ => ⟨fun _ => ?_, fun _ => q_set_decided h _⟩⟩
  exact M.sat_mono (q_store h IStore.pd_flush) (fun _ _ ht => q_set_decided ht _) fun _ h => h

theorem q_guarded {n : Ballot} {q : SeqNum} {any : Bool} {f : M (SP E S) Unit} (h : QI R s) (hn : R.peer n.pid) (hl : R.led n)
    (ha : s.ist.cache.promise.cmp n = .eq → s.ist.cache.promise = n) (hf : R.sync n → ∀ t, QI R t → KeepsQ R f t) :
    KeepsQ R (accept_guard n q any >>= fun ok => if ok then f else pure ()) s := by
  rw [KeepsQ, M.sat_bind]
  refine M.sat_mono (q_accept_guard h hn hl ha q any) (fun ok t ht => ?_) fun _ h => h
  rw [M.sat_ite]
  exact ⟨fun e => hf (ht.2 e) t ht.1, fun _ => ht.1⟩

theorem q_handle_acceptdecide (h : QI R s) {a : AcceptDecide E} (hn : R.peer a.n.pid) (hl : R.led a.n)
    (ha : s.ist.cache.promise.cmp a.n = .eq → s.ist.cache.promise = a.n) : KeepsQ R (handle_acceptdecide a) s :=
  q_guarded h hn hl ha fun hs _ ht => q_bind (q_store ht (IStore.pd_append_get _)) fun _ _ ht =>
    q_bind (q_update_decided ht _) fun _ _ ht => q_reply_opt ht ⟨hn, hs⟩ _

theorem q_handle_accept_stopsign (h : QI R s) {a : AcceptStopSign} (hn : R.peer a.n.pid) (hl : R.led a.n)
    (ha : s.ist.cache.promise.cmp a.n = .eq → s.ist.cache.promise = a.n) : KeepsQ R (handle_accept_stopsign a) s :=
  q_guarded h hn hl ha fun hs _ ht => q_bind (q_store ht IStore.pd_flush) fun _ _ ht =>
    q_bind (q_store ht (IStore.pd_set_stopsign _)) fun _ _ ht => q_reply_accepted ht ⟨hn, hs⟩ _

theorem q_handle_decide (h : QI R s) {d : Decide} (hn : R.peer d.n.pid) (hl : R.led d.n)
    (ha : s.ist.cache.promise.cmp d.n = .eq → s.ist.cache.promise = d.n) : KeepsQ R (handle_decide d) s :=
  q_guarded h hn hl ha fun hs _ ht => q_bind (q_update_decided ht _) fun _ _ ht => q_reply_opt ht ⟨hn, hs⟩ _

theorem preparable_sub {ls : LeaderState E S} {ps r : List NodeId} (h : ls.get_preparable_peers ps = some r) : ∀ x ∈ r, x ∈ ps := by
  induction ps generalizing r with
  | nil => cases h; exact fun _ h => h
  | cons p ps ih =>
    simp only [LeaderState.get_preparable_peers] at h
    split at h
    · cases h
    · split at h
      · cases h
      · rename_i r' hr'
        have := ih hr'
        split at h <;> cases h
        · intro x hx
          rcases List.mem_cons.1 hx with rfl | hx
          · exact List.mem_cons_self
          · exact List.mem_cons_of_mem _ (this x hx)
        · exact fun x hx => List.mem_cons_of_mem _ (this x hx)

theorem q_resend_prepare (h : QI R s) (hr : s.role = .leader) : KeepsQ R resend_prepare s := by
  simp only [KeepsQ, resend_prepare, M.sat_bind, M.sat_get, M.sat_ofPan]
  exact ⟨fun r hp => q_forEachL h hr fun x hx t ht hr' hn =>
    q_lead (q_send_prepare ht hr' (h.peers x (preparable_sub hp x hx))) hr' hn (so_send_prepare x), fun _ => trivial⟩

theorem q_resend_stopsign (h : QI R s) (hr : s.role = .leader) (ss : StopSign) {f : NodeId} (hx : R.peer f)
    (hp : R.prom s.ls.n_leader f) : KeepsQ R (resend_stopsign ss f) s := by
  simp only [KeepsQ, resend_stopsign, M.sat_bind, M.sat_get, M.sat_ite, M.sat_ofPan, M.sat_pure]
  exact ⟨fun _ => q_send_decide h hr hx hp _ _,
    fun _ => ⟨fun a _ => ⟨fun _ => q_send_accept_stopsign h hr hx hp ss _, fun _ => h⟩, fun _ => trivial⟩⟩

theorem q_resend (h : QI R s) : KeepsQ R resend_message_timeout s := by
  have hall : ∀ t : SP E S, QI R t → KeepsQ R send_preparereq_to_all_peers t := by
    intro t ht
    simp only [KeepsQ, send_preparereq_to_all_peers, M.sat_bind, M.sat_get]
    exact q_forEach ht fun x hx _ hu => q_send hu x ⟨hu.pid, (ht.peers x hx).2, .inl (ht.peers x hx).1⟩
  simp only [KeepsQ, resend_message_timeout, M.sat_bind, M.sat_get]
  split
  · rename_i hr
    simp only [resend_messages_leader, M.sat_bind, M.sat_get]
    split
    · exact q_resend_prepare h hr
    · rw [M.sat_bind]
      have h1 : M.Sat resend_stopsigns s (fun _ t => QI R t ∧ t.role = .leader) (fun _ => True) := by
        simp only [resend_stopsigns, M.sat_bind, M.sat_get]
        cases hs : s.ist.cache.stopsign with
        | none => exact ⟨h, hr⟩
        | some ss =>
          refine M.sat_mono (M.sat_and (q_forEachL h hr fun x hx t ht hr' hn => ?_) (so_forEach fun x t => so_resend_stopsign ss x))
            (fun _ _ ht => ⟨ht.1, by rw [ht.2]; exact hr⟩) fun _ _ => trivial
          have hf := q_follower h hr hx
          exact q_lead (q_resend_stopsign ht hr' ss hf.1 (by rw [hn]; exact hf.2)) hr' hn (so_resend_stopsign ss x)
      exact M.sat_mono h1 (fun _ t ht => q_resend_prepare ht.1 ht.2) fun _ h => h
    · exact h
    · exact h
  · simp only [resend_messages_follower, M.sat_bind, M.sat_get]
    split
    · split
      · rename_i p hp
        have hc := h.cached p hp
        exact q_send h _ ⟨h.pid, hc.2.1, hc.1, rfl, hc.2.2⟩
      · simp only [M.sat_bind, sat_setState]
        exact hall _ (h.down _ _ nofun nofun)
    · exact hall _ h
    · exact h
    · exact h

theorem q_flush_timeout (h : QI R s) : KeepsQ R flush_batch_timeout s := by
  simp only [KeepsQ, flush_batch_timeout, M.sat_bind, M.sat_get]
  split
  · rename_i hr _
    simp only [flush_batch_leader, M.sat_bind]
    exact M.sat_mono (M.sat_and (q_store h IStore.pd_flush_get) (role_store _))
      (fun _ _ ht => q_accepted_leader ht.1 (ht.2.trans hr) _) fun _ _ => trivial
  · rename_i hr hph
    simp only [flush_batch_follower, M.sat_bind, M.sat_get]
    refine M.sat_mono (q_store h IStore.pd_flush) (fun k t ht => ?_) fun _ h => h
    simp only [M.sat_ite, M.sat_pure]
    exact ⟨fun _ => q_reply_accepted ht (h.acc hr hph) _, fun _ => ht⟩
  · exact h

theorem q_handle [SnapOps E S] (h : QI R s) {m : PaxosMessage E S} (hm : R.given m)
    (ha : ∀ b, m.msg.leaderBallot = some b → s.ist.cache.promise.cmp b = .eq → s.ist.cache.promise = b) :
    KeepsQ R (handle m) s := by
  unfold handle
  unfold Ev.given at hm
  split <;> rename_i heq <;> rw [heq] at hm ha
  · exact q_handle_preparereq h _ hm
  · exact q_handle_prepare h hm.1 hm.2.1 hm.2.2
  · exact q_handle_promise h hm.1 hm.2
  · exact q_handle_acceptsync h hm.1 hm.2.1 hm.2.2.1 hm.2.2.2 (ha _ rfl)
  · exact q_handle_acceptdecide h (by rw [hm.2.1]; exact hm.1) hm.2.2 (ha _ rfl)
  · exact q_handle_notaccepted h _ _
  · exact M.sat_mono (q_handle_accepted h hm) (fun _ _ h => h.1) fun _ h => h
  · exact q_handle_decide h (by rw [hm.2.1]; exact hm.1) hm.2.2 (ha _ rfl)
  · exact q_handle_forwarded_proposal h _
  · exact q_handle_compaction h _
  · exact q_handle_accept_stopsign h (by rw [hm.2.1]; exact hm.1) hm.2.2 (ha _ rfl)
  · exact q_handle_forwarded_stopsign h _

theorem q_append (h : QI R s) (e : E) : KeepsQ R (append e) s := by
  simp only [KeepsQ, append, M.sat_bind, M.sat_get, M.sat_ite, M.sat_pure]
  refine ⟨fun _ => h, fun hf => ?_⟩
  simp only [propose_entry, M.sat_bind, M.sat_get]
  split
  · exact ⟨h.pid, h.quo, h.lead, h.out, h.cached, h.slots, h.acks, h.quorum, h.acc, h.peers, h.prom⟩
  · rename_i hr _; exact q_accept_entries_leader h hr [e]
  · exact q_forward_proposals h _

theorem q_reconfigure (h : QI R s) (c : ClusterConfig) (md : Option (List Nat)) : KeepsQ R (reconfigure c md) s := by
  simp only [KeepsQ, reconfigure, M.sat_bind, M.sat_get, M.sat_ite, M.sat_pure]
  refine ⟨fun _ => h, fun hf => ?_⟩
  simp only [propose_stopsign, M.sat_bind, M.sat_get]
  split
  · exact ⟨h.pid, h.quo, h.lead, h.out, h.cached, h.slots, h.acks, h.quorum, h.acc, h.peers, h.prom⟩
  · rename_i hr _; exact q_accept_stopsign_leader h hr _
  · exact q_forward_stopsign h _

end SP
end Omni
