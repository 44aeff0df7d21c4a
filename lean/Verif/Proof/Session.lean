import Verif.Proof.DecidedIdx
import Verif.Proof.Safety.Slot
import Verif.Proof.Resend
/-
Which follower waits for an AcceptSync: a follower that was sent a Prepare and no AcceptSync after it. A leader to whose
buffered AcceptDecide a Promise arrives has sent an AcceptSync after its last Prepare.
-/
namespace Omni

variable {E S : Type}

/-- A Prepare of ballot `b` (`(b, none)`) or an AcceptSync of ballot `b` and session `k` (`(b, some k)`). -/
abbrev Ph := Ballot × Option Nat

def PaxosMsg.ph : PaxosMsg E S → Option Ph
  | .prepare p => some (p.n, none)
  | .acceptSync a => some (a.n, some a.seq_num.session)
  | _ => none

def phs (l : List (PaxosMessage E S)) : List Ph := l.filterMap fun m => m.msg.ph

/-- Those to `F`. -/
def phsTo (F : NodeId) (l : List (PaxosMessage E S)) : List Ph := phs (l.filter fun m => decide (m.dst = F))

/-- A follower that waits (`b`) for an AcceptSync of ballot `n`, or not, does it wait after these messages? -/
def Awaits (n : Ballot) : Prop → List Ph → Prop
  | b, [] => b
  | b, (n', none) :: l => Awaits n (b ∨ n' = n) l
  | b, (n', some _) :: l => Awaits n (b ∧ n' ≠ n) l

theorem awaits_append (n : Ballot) (b : Prop) (l l' : List Ph) : Awaits n b (l ++ l') = Awaits n (Awaits n b l) l' := by
  induction l generalizing b with
  | nil => rfl
  | cons e l ih => obtain ⟨n', _ | k⟩ := e <;> exact ih _

theorem Awaits.mono {n : Ballot} {b b' : Prop} {l : List Ph} (h : b → b') (hw : Awaits n b l) : Awaits n b' l := by
  induction l generalizing b b' with
  | nil => exact h hw
  | cons e l ih =>
    obtain ⟨n', _ | k⟩ := e
    · exact ih (Or.imp h id) hw
    · exact ih (And.imp h id) hw

theorem not_awaits_sync (n : Ballot) (b : Prop) (l : List Ph) (k : Nat) : ¬ Awaits n b (l ++ [(n, some k)]) := by
  rw [awaits_append]
  exact fun h => h.2 rfl

/-- No dead AcceptSync (`D`) among these messages reaches a follower that waits for it. -/
def Late (D : Ballot → Nat → Prop) (b : Ballot → Prop) (l : List Ph) : Prop :=
  ∀ l1 n k l2, l = l1 ++ (n, some k) :: l2 → D n k → ¬ Awaits n (b n) l1

variable {D D' : Ballot → Nat → Prop} {b b' : Ballot → Prop}

theorem Late.pre {l l' : List Ph} (h : Late D b (l ++ l')) : Late D b l := fun l1 n k l2 e hd =>
  h l1 n k (l2 ++ l') (by rw [e]; simp) hd

theorem Late.snoc {l : List Ph} {n : Ballot} {o : Option Nat} (h : Late D b l)
    (hn : ∀ k, o = some k → D n k → ¬ Awaits n (b n) l) : Late D b (l ++ [(n, o)]) := by
  intro l1 n' k l2 e hd
  rcases List.eq_nil_or_concat l2 with rfl | ⟨l3, x, rfl⟩
  · obtain ⟨e1, e2⟩ := List.append_inj' e rfl
    cases e2; subst e1
    exact hn k rfl hd
  · rw [List.concat_eq_append, ← List.cons_append, ← List.append_assoc] at e
    obtain ⟨e1, -⟩ := List.append_inj' e rfl
    exact h l1 n' k l3 e1 hd

theorem Late.mono {l : List Ph} (h : Late D b l) (hD : ∀ n k, (n, some k) ∈ l → D' n k → D n k) (hb : ∀ n k, (n, some k) ∈ l → b' n → b n) :
    Late D' b' l := fun l1 n k l2 e hd hw => by
  have hm : (n, some k) ∈ l := by rw [e]; simp
  exact h l1 n k l2 e (hD n k hm hd) (hw.mono (hb n k hm))

/-- The first message arrives. -/
theorem Late.tail {l : List Ph} {n : Ballot} {o : Option Nat} (h : Late D b ((n, o) :: l))
    (hb : ∀ x k, (x, some k) ∈ l → b' x → Awaits x (b x) [(n, o)]) : Late D b' l := fun l1 x k l2 e hd hw =>
  h ((n, o) :: l1) x k l2 (by rw [e]; rfl) hd (by
    rw [show ((n, o) :: l1) = [(n, o)] ++ l1 from rfl, awaits_append]
    exact hw.mono (hb x k (by rw [e]; simp)))

/-- Dropping a message: an AcceptSync only where nobody waits for it. -/
theorem awaits_drop {n x : Ballot} {o : Option Nat} {c : Prop} {l1 l2 : List Ph}
    (ho : ∀ k, o = some k → x = n → ¬ Awaits n c l1) : Awaits n c (l1 ++ l2) → Awaits n c (l1 ++ (x, o) :: l2) := by
  rw [awaits_append, awaits_append]
  cases o with
  | none => exact Awaits.mono fun h => .inl h
  | some k => exact Awaits.mono fun h => ⟨h, fun e => ho k rfl e h⟩

theorem Late.drop {l1 l2 : List Ph} {x : Ballot} {o : Option Nat} (h : Late D b (l1 ++ (x, o) :: l2))
    (ho : ∀ k, o = some k → ¬ Awaits x (b x) l1) : Late D b (l1 ++ l2) := by
  intro a n k c e hd hw
  rcases List.append_eq_append_iff.1 e with ⟨y, rfl, h2⟩ | ⟨y, h1, h2⟩
  · -- the message lies behind
    refine h (l1 ++ (x, o) :: y) n k c (by rw [h2]; simp) hd (awaits_drop (fun k hk e => ?_) hw)
    subst e; exact ho k hk
  · cases y with
    | nil =>
      rw [List.append_nil] at h1; subst h1
      refine h (l1 ++ [(x, o)]) n k c (by rw [List.nil_append] at h2; rw [h2]; simp) hd ?_
      refine awaits_drop (n := n) (c := b n) (l1 := l1) (l2 := []) (x := x) (o := o) (fun k hk e => ?_) (by rwa [List.append_nil])
      subst e; exact ho k hk
    | cons z y =>
      cases h2
      exact h a n k (y ++ (x, o) :: l2) (by rw [h1]; simp) hd hw

/-! ### One server -/

/-- The leader has an AcceptDecide to `F` waiting. -/
def LeaderState.Waiting (ls : LeaderState E S) (F : NodeId) : Prop := ∃ x, slot ls.latest_accept_meta F = some (some x)

def LeaderState.HasPromise (ls : LeaderState E S) (F : NodeId) : Prop := ∃ m, slot ls.promises_meta F = some (.promised m)

/-- What holds of a server with messages `pre` to `F` in flight, of which those in `D` are dead; `b`: the ballots for whose
AcceptSync `F` waits; `W`: the ballots for whose AcceptSync this server may wait. -/
structure Sess (F : NodeId) (D : Ballot → Nat → Prop) (b : Ballot → Prop) (pre : List Ph) (W : Ballot → Prop) (s : SP E S) : Prop where
  pid : s.pid ≠ F
  own : s.role = .leader → s.ls.n_leader.pid = s.pid
  wait : s.phase = .prepare → s.ist.cache.promise.pid ≠ s.pid → W s.ist.cache.promise
  late : Late D b (pre ++ phsTo F s.outgoing)
  lead : s.role = .leader → s.phase = .accept → s.ls.Waiting F ∨ s.ls.HasPromise F →
    ¬ Awaits s.ls.n_leader (b s.ls.n_leader) (pre ++ phsTo F s.outgoing)
  metp : s.role = .leader → s.ls.Waiting F → s.phase = .accept ∧ slot s.ls.promises_meta F ≠ some .notPromised

/-- Nothing happens that matters here. -/
structure Tame (F : NodeId) (s s' : SP E S) : Prop where
  pid : s'.pid = s.pid
  peers : s'.peers = s.peers
  st : (s'.role = s.role ∧ s'.phase = s.phase) ∨ (s'.role = .follower ∧ s'.phase ≠ .prepare)
  prom : s'.ist.cache.promise = s.ist.cache.promise
  n : s'.ls.n_leader = s.ls.n_leader
  pm : slot s'.ls.promises_meta F = slot s.ls.promises_meta F
  out : phsTo F s'.outgoing = phsTo F s.outgoing
  mt : s'.ls.Waiting F → s.ls.Waiting F ∨ (s.role = .leader ∧ s.phase = .accept ∧ s.ls.HasPromise F)

variable {F : NodeId} {pre : List Ph} {W : Ballot → Prop} {s t : SP E S}

theorem Tame.refl (F : NodeId) (s : SP E S) : Tame F s s := ⟨rfl, rfl, .inl ⟨rfl, rfl⟩, rfl, rfl, rfl, rfl, .inl⟩

theorem Tame.trans {u : SP E S} (h : Tame F s t) (h' : Tame F t u) : Tame F s u where
  pid := h'.pid.trans h.pid
  peers := h'.peers.trans h.peers
  st := by
    rcases h'.st with ⟨e1, e2⟩ | e
    · rcases h.st with ⟨e3, e4⟩ | ⟨e3, e4⟩
      · exact .inl ⟨e1.trans e3, e2.trans e4⟩
      · exact .inr ⟨e1.trans e3, by rwa [e2]⟩
    · exact .inr e
  prom := h'.prom.trans h.prom
  n := h'.n.trans h.n
  pm := h'.pm.trans h.pm
  out := h'.out.trans h.out
  mt hx := by
    rcases h'.mt hx with hy | ⟨e1, e2, e3⟩
    · exact h.mt hy
    · rcases h.st with ⟨e4, e5⟩ | ⟨e4, -⟩
      · refine .inr ⟨e4.symm.trans e1, e5.symm.trans e2, ?_⟩
        unfold LeaderState.HasPromise at *
        rwa [h.pm] at e3
      · rw [e4] at e1; cases e1

theorem Sess.tame (h : Sess F D b pre W s) (ht : Tame F s t) : Sess F D b pre W t := by
  have hp : t.ls.HasPromise F ↔ s.ls.HasPromise F := by unfold LeaderState.HasPromise; rw [ht.pm]
  refine ⟨by rw [ht.pid]; exact h.pid, ?_, ?_, by rw [ht.out]; exact h.late, ?_, ?_⟩
  · intro h1
    rcases ht.st with ⟨e, -⟩ | ⟨e, -⟩
    · rw [ht.n, ht.pid]; exact h.own (e.symm.trans h1)
    · rw [e] at h1; cases h1
  · intro h1 h2
    rcases ht.st with ⟨-, e⟩ | ⟨-, e⟩
    · rw [ht.prom]; exact h.wait (e.symm.trans h1) (by rw [← ht.prom, ← ht.pid]; exact h2)
    · exact absurd h1 e
  · intro h1 h2 h3
    rcases ht.st with ⟨e1, e2⟩ | ⟨e, -⟩
    · rw [ht.out, ht.n]
      refine h.lead (e1.symm.trans h1) (e2.symm.trans h2) ?_
      rcases h3 with h3 | h3
      · exact (ht.mt h3).imp id fun h => h.2.2
      · exact .inr (hp.1 h3)
    · rw [e] at h1; cases h1
  · intro h1 h2
    rcases ht.st with ⟨e1, e2⟩ | ⟨e, -⟩
    · rw [e2, ht.pm]
      rcases ht.mt h2 with h3 | ⟨-, h4, m, h5⟩
      · exact h.metp (e1.symm.trans h1) h3
      · exact ⟨h4, by rw [h5]; simp⟩
    · rw [e] at h1; cases h1

namespace SP

abbrev KeepsT (F : NodeId) {α : Type} (m : M (SP E S) α) (s : SP E S) : Prop := M.Sat m s (fun _ t => Tame F s t) (fun _ => True)

theorem t_pure {α : Type} (a : α) : KeepsT F (pure a : M (SP E S) α) s := Tame.refl F s

theorem t_then {α : Type} {m : M (SP E S) α} (h : Tame F s t) (hm : KeepsT F m t) : M.Sat m t (fun _ u => Tame F s u) (fun _ => True) :=
  M.sat_mono hm (fun _ _ h' => h.trans h') fun _ h => h

theorem t_bind {α β : Type} {m : M (SP E S) α} {f : α → M (SP E S) β} (hm : KeepsT F m s)
    (hf : ∀ a t, KeepsT F (f a) t) : KeepsT F (m >>= f) s := by
  unfold KeepsT; rw [M.sat_bind]
  exact M.sat_mono hm (fun a t h => t_then h (hf a t)) fun _ h => h

theorem t_forEach {α : Type} {xs : List α} {body : α → M (SP E S) Unit}
    (hb : ∀ x ∈ xs, ∀ t, Tame F s t → KeepsT F (body x) t) : KeepsT F (M.forEach xs body) s :=
  M.sat_forEach (fun t => Tame F s t) (Tame.refl F s) fun x hx _ ht => t_then ht (hb x hx _ ht)

theorem t_store {α : Type} {m : M (IStore E S) α} (hm : M.Sat m s.ist (fun _ j => j.cache.promise = s.ist.cache.promise) fun _ => True) :
    KeepsT F (onStore m) s := by
  unfold KeepsT; rw [sat_onStore]
  exact M.sat_mono hm (fun _ j h => ⟨rfl, rfl, .inl ⟨rfl, rfl⟩, h, rfl, rfl, rfl, .inl⟩) fun _ h => h

theorem t_pd {α : Type} {m : M (IStore E S) α} (hm : IStore.KeepsPD m s.ist) : KeepsT F (onStore m) s :=
  t_store (M.sat_mono hm (fun _ _ h => h.1) fun _ _ => trivial)

theorem phsTo_snoc (l : List (PaxosMessage E S)) (m : PaxosMessage E S) :
    phsTo F (l ++ [m]) = phsTo F l ++ if m.dst = F then (m.msg.ph).toList else [] := by
  unfold phsTo phs
  rw [List.filter_append, List.filterMap_append]
  by_cases h : m.dst = F
  · rw [List.filter_cons_of_pos (by simpa using h), if_pos h]
    cases hm : m.msg.ph <;> simp [hm]
  · rw [List.filter_cons_of_neg (by simpa using h), if_neg h]; rfl

theorem phsTo_none (l : List (PaxosMessage E S)) {m : PaxosMessage E S} (h : m.msg.ph = none) : phsTo F (l ++ [m]) = phsTo F l := by
  rw [phsTo_snoc, h]; simp

theorem t_send (to : NodeId) {m : PaxosMsg E S} (h : m.ph = none) : KeepsT F (send to m) s := by
  unfold KeepsT; rw [sat_send]
  exact ⟨rfl, rfl, .inl ⟨rfl, rfl⟩, rfl, rfl, rfl, phsTo_none _ h, .inl⟩

theorem phsTo_modify {k : Nat} {m : PaxosMsg E S} {l : List (PaxosMessage E S)} (hm : m.ph = none)
    (hx : ∀ x, l[k]? = some x → x.msg.ph = none) : phsTo F (l.modify k fun x => { x with msg := m }) = phsTo F l := by
  induction l generalizing k with
  | nil => simp
  | cons x l ih =>
    cases k with
    | zero =>
      have := hx x rfl
      simp only [List.modify_zero_cons, phsTo, phs, List.filter_cons]
      split <;> simp [hm, this]
    | succ k =>
      have := ih (k := k) fun y hy => hx y (by simpa using hy)
      simp only [List.modify_succ_cons, phsTo, phs, List.filter_cons] at this ⊢
      split
      · simp only [List.filterMap_cons]; rw [this]
      · exact this

theorem t_setMsg {k : Nat} {m : PaxosMsg E S} (hm : m.ph = none) (hx : ∀ x, s.outgoing[k]? = some x → x.msg.ph = none) :
    KeepsT F (setMsg k m) s := by
  unfold KeepsT; rw [sat_setMsg]
  exact ⟨rfl, rfl, .inl ⟨rfl, rfl⟩, rfl, rfl, rfl, phsTo_modify hm hx, .inl⟩

theorem t_onLS {f : LeaderState E S → Pan (LeaderState E S)} (hf : ∀ ls, f s.ls = some ls →
      ls.n_leader = s.ls.n_leader ∧ ls.promises_meta = s.ls.promises_meta ∧ ls.latest_accept_meta = s.ls.latest_accept_meta) :
    KeepsT F (onLS f) s := by
  unfold KeepsT; rw [sat_onLS]
  refine ⟨fun ls e => ?_, fun _ => trivial⟩
  obtain ⟨h1, h2, h3⟩ := hf ls e
  exact ⟨rfl, rfl, .inl ⟨rfl, rfl⟩, rfl, h1, by rw [h2], rfl, fun h => .inl (by unfold LeaderState.Waiting at *; simpa only [h3] using h)⟩

theorem t_onLS' {α : Type} {f : LeaderState E S → Pan (LeaderState E S × α)} (hf : ∀ r, f s.ls = some r →
      r.1.n_leader = s.ls.n_leader ∧ r.1.promises_meta = s.ls.promises_meta ∧ r.1.latest_accept_meta = s.ls.latest_accept_meta) :
    KeepsT F (onLS' f) s := by
  unfold KeepsT; rw [sat_onLS']
  refine ⟨fun ls e => ?_, fun _ => trivial⟩
  obtain ⟨h1, h2, h3⟩ := hf ls e
  exact ⟨rfl, rfl, .inl ⟨rfl, rfl⟩, rfl, h1, by rw [h2], rfl, fun h => .inl (by unfold LeaderState.Waiting at *; simpa only [h3] using h)⟩

theorem next_t {ls : LeaderState E S} {p : NodeId} {r : LeaderState E S × SeqNum} (h : ls.next_seq_num p = some r) :
    r.1.n_leader = ls.n_leader ∧ r.1.promises_meta = ls.promises_meta ∧ r.1.latest_accept_meta = ls.latest_accept_meta := by
  have := LeaderState.next_seq_num_eq h
  rw [this]; exact ⟨rfl, rfl, rfl⟩

theorem incr_t {ls ls' : LeaderState E S} {p : NodeId} (h : ls.increment_seq_num_session p = some ls') :
    ls'.n_leader = ls.n_leader ∧ ls'.promises_meta = ls.promises_meta ∧ ls'.latest_accept_meta = ls.latest_accept_meta := by
  have := LeaderState.increment_eq h
  rw [this]; exact ⟨rfl, rfl, rfl⟩

theorem acc_t {ls ls' : LeaderState E S} {p : NodeId} {i : Nat} (h : ls.set_accepted_idx p i = some ls') :
    ls'.n_leader = ls.n_leader ∧ ls'.promises_meta = ls.promises_meta ∧ ls'.latest_accept_meta = ls.latest_accept_meta := by
  have := LeaderState.set_accepted_idx_eq h
  rw [this]; exact ⟨rfl, rfl, rfl⟩

theorem t_set_accepted (p : NodeId) (i : Nat) : KeepsT F (onLS fun ls => ls.set_accepted_idx p i) s := t_onLS fun _ => acc_t

theorem t_reconnected (pid : NodeId) : KeepsT F (reconnected pid) s := by
  simp only [KeepsT, reconnected, M.sat_bind, M.sat_get, M.sat_ite, M.sat_pure, M.sat_whenDo, sat_setState, sat_send]
  refine ⟨fun _ => Tame.refl F s, fun _ => ⟨fun _ => ?_, fun _ => ?_⟩⟩
  · exact ⟨rfl, rfl, .inr ⟨rfl, nofun⟩, rfl, rfl, rfl, phsTo_none _ rfl, .inl⟩
  · exact ⟨rfl, rfl, .inl ⟨rfl, rfl⟩, rfl, rfl, rfl, phsTo_none _ rfl, .inl⟩

theorem t_forward_proposals (es : List E) : KeepsT F (forward_proposals es) s := by
  simp only [KeepsT, forward_proposals, M.sat_bind, M.sat_get, M.sat_ite, M.sat_upd]
  exact ⟨fun _ => t_send _ rfl, fun _ => ⟨rfl, rfl, .inl ⟨rfl, rfl⟩, rfl, rfl, rfl, rfl, .inl⟩⟩

theorem t_forward_stopsign (ss : StopSign) : KeepsT F (forward_stopsign ss) s := by
  simp only [KeepsT, forward_stopsign, M.sat_bind, M.sat_get, M.sat_ite, M.sat_upd, M.sat_pure]
  exact ⟨fun _ => t_send _ rfl, fun _ => ⟨fun _ => ⟨rfl, rfl, .inl ⟨rfl, rfl⟩, rfl, rfl, rfl, rfl, .inl⟩, fun _ => Tame.refl F s⟩⟩

theorem t_trim (i : Option Nat) : KeepsT F (trim i) s := by
  simp only [KeepsT, trim, M.sat_bind, M.sat_get, M.sat_ite, M.sat_pure, M.sat_ofPan]
  refine ⟨fun _ => ⟨fun k _ => ⟨fun _ => ?_, fun _ => Tame.refl F s⟩, fun _ => trivial⟩, fun _ => Tame.refl F s⟩
  refine M.sat_mono (t_pd (F := F) (IStore.pd_try_trim _)) (fun r u hu => ?_) fun _ h => h
  cases r with
  | error e => exact hu
  | ok _ =>
    rw [M.sat_bind]
    exact t_then hu (t_forEach fun x _ t _ => t_send x rfl)

variable [SnapOps E S]

theorem t_snapshot (i : Option Nat) (lo : Bool) : KeepsT F (snapshot i lo) s := by
  simp only [KeepsT, snapshot, M.sat_get, M.sat_bind]
  refine M.sat_mono (t_pd (F := F) (IStore.pd_try_snapshot _)) (fun r u hu => ?_) fun _ h => h
  cases r with
  | error e => exact hu
  | ok _ =>
    simp only [M.sat_bind, M.sat_whenDo, M.sat_pure]
    exact ⟨fun _ => t_then hu (t_forEach fun x _ t _ => t_send x rfl), fun _ => hu⟩

theorem t_handle_compaction (c : Compaction) : KeepsT F (handle_compaction c) s := by
  cases c with
  | trim i => exact t_bind (t_pd (IStore.pd_try_trim _)) fun _ t => Tame.refl F t
  | snapshot i => exact t_bind (t_snapshot i true) fun _ t => Tame.refl F t

omit [SnapOps E S]

/-! #### The leader -/

/-- Tame, and the state stays. -/
abbrev KeepsTS (F : NodeId) {α : Type} (m : M (SP E S) α) (s : SP E S) : Prop :=
  M.Sat m s (fun _ t => Tame F s t ∧ t.role = s.role ∧ t.phase = s.phase) (fun _ => True)

theorem ts_t {α : Type} {m : M (SP E S) α} (h : KeepsTS F m s) : KeepsT F m s := M.sat_mono h (fun _ _ h => h.1) fun _ h => h

theorem ts_of {α : Type} {m : M (SP E S) α} (h : KeepsT F m s) (hr : M.Sat m s (fun _ t => t.role = s.role ∧ t.phase = s.phase) fun _ => True) :
    KeepsTS F m s := M.sat_mono (M.sat_and h hr) (fun _ _ h => h) fun _ _ => trivial

theorem t_accept_meta {f : NodeId} {i : Option Nat} (h : f = F → s.role = .leader ∧ s.phase = .accept ∧ s.ls.HasPromise F) :
    KeepsTS F (onLS fun ls => ls.set_latest_accept_meta f i) s := by
  unfold KeepsTS; rw [sat_onLS]
  refine ⟨fun ls e => ?_, fun _ => trivial⟩
  simp only [LeaderState.set_latest_accept_meta] at e
  split at e
  · cases e
  · rename_i v hv
    cases e
    obtain ⟨-, -, -, -, h5⟩ := setSlot_spec hv
    refine ⟨⟨rfl, rfl, .inl ⟨rfl, rfl⟩, rfl, rfl, rfl, rfl, fun hw => ?_⟩, rfl, rfl⟩
    by_cases hf : f = F
    · exact .inr (h hf)
    · left; unfold LeaderState.Waiting at *; rwa [h5 F (Ne.symm hf)] at hw

/-- The leader is in the accept phase. -/
def Leads (s : SP E S) : Prop := s.role = .leader ∧ s.phase = .accept

theorem ts_send (to : NodeId) {m : PaxosMsg E S} (h : m.ph = none) : KeepsTS F (send to m) s :=
  ts_of (t_send to h) ⟨rfl, rfl⟩

theorem ts_onLS {f : LeaderState E S → Pan (LeaderState E S)} (h : KeepsT F (onLS f) s) : KeepsTS F (onLS f) s :=
  ts_of h (by rw [sat_onLS]; exact ⟨fun _ _ => ⟨rfl, rfl⟩, fun _ => trivial⟩)

theorem ts_onLS' {α : Type} {f : LeaderState E S → Pan (LeaderState E S × α)} (h : KeepsT F (onLS' f) s) : KeepsTS F (onLS' f) s :=
  ts_of h (by rw [sat_onLS']; exact ⟨fun _ _ => ⟨rfl, rfl⟩, fun _ => trivial⟩)

theorem ts_store {α : Type} {m : M (IStore E S) α} (h : KeepsT F (onStore m) s) : KeepsTS F (onStore m) s :=
  ts_of h (by rw [sat_onStore]; exact M.sat_mono (M.sat_true m _) (fun _ _ _ => ⟨rfl, rfl⟩) fun _ _ => trivial)

theorem ts_bind {α β : Type} {m : M (SP E S) α} {f : α → M (SP E S) β} (hm : KeepsTS F m s)
    (hf : ∀ a t, Tame F s t → t.role = s.role → t.phase = s.phase → KeepsTS F (f a) t) : KeepsTS F (m >>= f) s := by
  unfold KeepsTS; rw [M.sat_bind]
  exact M.sat_mono hm (fun a t h => M.sat_mono (hf a t h.1 h.2.1 h.2.2)
    (fun _ u h' => ⟨h.1.trans h'.1, h'.2.1.trans h.2.1, h'.2.2.trans h.2.2⟩) fun _ h => h) fun _ h => h

theorem ts_get {α : Type} {f : SP E S → M (SP E S) α} (h : KeepsTS F (f s) s) : KeepsTS F (M.get >>= f) s := by
  unfold KeepsTS; rw [M.sat_bind, M.sat_get]; exact h

theorem t_get {α : Type} {f : SP E S → M (SP E S) α} (h : KeepsT F (f s) s) : KeepsT F (M.get >>= f) s := by
  unfold KeepsT; rw [M.sat_bind, M.sat_get]; exact h

theorem ts_forEach {α : Type} {xs : List α} {body : α → M (SP E S) Unit}
    (hb : ∀ x ∈ xs, ∀ t, Tame F s t → t.role = s.role → t.phase = s.phase → KeepsTS F (body x) t) : KeepsTS F (M.forEach xs body) s :=
  M.sat_forEach (fun t => Tame F s t ∧ t.role = s.role ∧ t.phase = s.phase) ⟨Tame.refl F s, rfl, rfl⟩ fun x hx t ht =>
    M.sat_mono (hb x hx t ht.1 ht.2.1 ht.2.2)
      (fun _ u h' => ⟨ht.1.trans h'.1, h'.2.1.trans ht.2.1, h'.2.2.trans ht.2.2⟩) fun _ h => h

theorem ts_pure {α : Type} (a : α) : KeepsTS F (pure a : M (SP E S) α) s := ⟨Tame.refl F s, rfl, rfl⟩

theorem ts_extend {to : NodeId} {idx : Nat} {acc acc' : AcceptDecide E} (hl : s.get_latest_accdec to = some (some (idx, acc))) :
    KeepsTS F (setMsg idx (.acceptDecide acc')) s :=
  ts_of (t_setMsg rfl fun x hx => by
    obtain ⟨y, hy, hm⟩ := get_latest_accdec_mem hl
    rw [hx] at hy; cases hy; rw [hm]; rfl) ⟨rfl, rfl⟩

theorem ts_send_acceptdecide_to (es : List E) {pid : NodeId} (h : pid = F → s.role = .leader ∧ s.phase = .accept ∧ s.ls.HasPromise F) :
    KeepsTS F (send_acceptdecide_to es pid) s := by
  simp only [KeepsTS, send_acceptdecide_to, M.sat_bind, M.sat_get, M.sat_ofPan]
  refine ⟨fun r hl => ?_, fun _ => trivial⟩
  match r with
  | some (idx, acc) => exact ts_extend hl
  | none =>
    exact ts_bind (t_accept_meta h) fun _ _ _ _ _ => ts_bind (ts_onLS' (t_onLS' fun _ => next_t)) fun _ _ _ _ _ => ts_send _ rfl

theorem hasPromise_of_mem {F : NodeId} {ls : LeaderState E S} (h : F ∈ ls.get_promised_followers) : ls.HasPromise F :=
  ((LeaderState.mem_followers).1 h).2

theorem Tame.hasPromise (h : Tame F s t) : t.ls.HasPromise F ↔ s.ls.HasPromise F := by
  unfold LeaderState.HasPromise; rw [h.pm]

theorem ts_send_acceptdecide (hl : s.Leads) (es : List E) : KeepsTS F (send_acceptdecide es) s := by
  simp only [KeepsTS, send_acceptdecide, M.sat_bind, M.sat_get]
  refine ts_forEach fun x hx t ht hr hp => ts_send_acceptdecide_to es fun e => ?_
  subst e
  exact ⟨hr.trans hl.1, hp.trans hl.2, (Tame.hasPromise ht).2 (hasPromise_of_mem hx)⟩

theorem ts_accepted_leader (hl : s.Leads) (md : Option (AcceptedMetaData E)) : KeepsTS F (accepted_leader md) s := by
  cases md with
  | none => exact ts_pure ()
  | some md =>
    unfold accepted_leader
    exact ts_get <| ts_bind (ts_onLS (t_set_accepted _ _)) fun _ _ _ hr hp => ts_send_acceptdecide ⟨hr.trans hl.1, hp.trans hl.2⟩ _

theorem ts_accept_entries_leader (hl : s.Leads) (es : List E) : KeepsTS F (accept_entries_leader es) s :=
  ts_bind (ts_store (t_pd (IStore.pd_append_entries es))) fun _ _ _ hr hp => ts_accepted_leader ⟨hr.trans hl.1, hp.trans hl.2⟩ _

theorem ts_accept_entry_leader (hl : s.Leads) (e : E) : KeepsTS F (accept_entry_leader e) s :=
  ts_bind (ts_store (t_pd (IStore.pd_append_entries [e]))) fun _ _ _ hr hp => ts_accepted_leader ⟨hr.trans hl.1, hp.trans hl.2⟩ _

theorem ts_seq (to : NodeId) (re : Bool) : KeepsTS F (seqNumFor to re) s := by
  unfold seqNumFor
  split
  · refine ts_onLS' (t_onLS' fun r e => ?_)
    simp only [Option.map_eq_some_iff] at e
    obtain ⟨q, _, rfl⟩ := e; exact ⟨rfl, rfl, rfl⟩
  · exact ts_onLS' (t_onLS' fun _ => next_t)

theorem ts_send_accept_stopsign (to : NodeId) (ss : StopSign) (re : Bool) : KeepsTS F (send_accept_stopsign to ss re) s := by
  refine ts_bind (ts_seq to re) fun q t _ _ _ => ?_
  simp only [KeepsTS, M.sat_bind, M.sat_get]
  exact ts_send _ rfl

theorem ts_send_decide (to : NodeId) (d : Nat) (re : Bool) : KeepsTS F (send_decide to d re) s := by
  refine ts_bind (ts_seq to re) fun q t _ _ _ => ?_
  simp only [KeepsTS, M.sat_bind, M.sat_get]
  exact ts_send _ rfl

theorem ts_accept_stopsign_leader (hl : s.Leads) (ss : StopSign) : KeepsTS F (accept_stopsign_leader ss) s := by
  refine ts_bind (ts_store (t_pd (IStore.pd_append_ss ss))) fun md t _ hr hp => ?_
  refine ts_bind ?_ fun _ u _ hr' hp' => ?_
  · cases md with
    | none => exact ts_pure ()
    | some md => exact ts_send_acceptdecide ⟨hr.trans hl.1, hp.trans hl.2⟩ _
  · refine ts_get <| ts_bind (ts_onLS (t_set_accepted _ _)) fun _ v _ _ _ => ?_
    exact ts_forEach fun x _ t _ _ _ => ts_send_accept_stopsign x ss false

theorem ts_announce (d : Nat) (pid : NodeId) : KeepsTS F (announce_decided d pid) s := by
  simp only [KeepsTS, announce_decided, M.sat_bind, M.sat_get, M.sat_ofPan]
  refine ⟨fun r hl => ?_, fun _ => trivial⟩
  match r with
  | some (idx, acc) => exact ts_extend hl
  | none => exact ts_send_decide pid d false

theorem ts_handle_accepted (a : Accepted) (f : NodeId) : KeepsTS F (handle_accepted a f) s := by
  unfold handle_accepted
  refine ts_get (M.sat_ite.2 ⟨fun _ => ?_, fun _ => ts_pure ()⟩)
  refine ts_bind (ts_onLS (t_set_accepted f a.accepted_idx)) fun _ t _ _ _ => ts_get (M.sat_ite.2 ⟨fun _ => ?_, fun _ => ts_pure ()⟩)
  refine ts_bind (ts_store (t_store ?_)) fun _ u _ _ _ => ?_
  · exact M.sat_mono (IStore.pd_set_decided _) (fun _ _ h => h.1) fun _ _ => trivial
  · exact ts_forEach fun x _ t _ _ _ => ts_announce _ x

theorem ts_flush_batch_leader (hl : s.Leads) : KeepsTS F (flush_batch_leader (E := E) (S := S)) s :=
  ts_bind (ts_store (t_pd IStore.pd_flush_get)) fun _ _ _ hr hp => ts_accepted_leader ⟨hr.trans hl.1, hp.trans hl.2⟩ _

theorem t_handle_forwarded_proposal (es : List E) : KeepsT F (handle_forwarded_proposal es) s := by
  simp only [KeepsT, handle_forwarded_proposal, M.sat_bind, M.sat_get, M.sat_ite, M.sat_pure]
  refine ⟨fun _ => Tame.refl F s, fun _ => ?_⟩
  split
  · exact ⟨rfl, rfl, .inl ⟨rfl, rfl⟩, rfl, rfl, rfl, rfl, .inl⟩
  · rename_i hr hp; exact ts_t (ts_accept_entries_leader ⟨hr, hp⟩ es)
  · exact t_forward_proposals es

theorem t_handle_forwarded_stopsign (ss : StopSign) : KeepsT F (handle_forwarded_stopsign ss) s := by
  simp only [KeepsT, handle_forwarded_stopsign, M.sat_bind, M.sat_get, M.sat_ite, M.sat_pure]
  refine ⟨fun _ => Tame.refl F s, fun _ => ?_⟩
  split
  · exact ⟨rfl, rfl, .inl ⟨rfl, rfl⟩, rfl, rfl, rfl, rfl, .inl⟩
  · rename_i hr hp; exact ts_t (ts_accept_stopsign_leader ⟨hr, hp⟩ ss)
  · exact t_forward_stopsign ss

theorem t_append (e : E) : KeepsT F (append e) s := by
  simp only [KeepsT, append, propose_entry, M.sat_bind, M.sat_get, M.sat_ite, M.sat_pure]
  refine ⟨fun _ => Tame.refl F s, fun _ => ?_⟩
  split
  · exact ⟨rfl, rfl, .inl ⟨rfl, rfl⟩, rfl, rfl, rfl, rfl, .inl⟩
  · rename_i hr hp; exact ts_t (ts_accept_entry_leader ⟨hr, hp⟩ e)
  · exact t_forward_proposals _

theorem t_reconfigure (c : ClusterConfig) (md : Option (List Nat)) : KeepsT F (reconfigure c md) s := by
  simp only [KeepsT, reconfigure, propose_stopsign, M.sat_bind, M.sat_get, M.sat_ite, M.sat_pure]
  refine ⟨fun _ => Tame.refl F s, fun _ => ?_⟩
  split
  · exact ⟨rfl, rfl, .inl ⟨rfl, rfl⟩, rfl, rfl, rfl, rfl, .inl⟩
  · rename_i hr hp; exact ts_t (ts_accept_stopsign_leader ⟨hr, hp⟩ _)
  · exact t_forward_stopsign _

/-! #### The follower -/

theorem t_check_valid_ballot (n : Ballot) : KeepsT F (check_valid_ballot n) s := by
  simp only [KeepsT, check_valid_ballot, M.sat_bind, M.sat_get]
  split
  · exact Tame.refl F s
  · exact t_bind (t_send _ rfl) fun _ t => Tame.refl F t
  · exact t_bind (t_reconnected _) fun _ t => Tame.refl F t

theorem t_handle_sequence_num (q : SeqNum) (f : NodeId) : KeepsT F (handle_sequence_num q f) s := by
  simp only [KeepsT, handle_sequence_num, M.sat_bind, M.sat_get]
  split
  · exact ⟨rfl, rfl, .inl ⟨rfl, rfl⟩, rfl, rfl, rfl, rfl, .inl⟩
  · exact t_bind (t_reconnected _) fun _ t => Tame.refl F t
  · exact Tame.refl F s

theorem t_accept_guard (n : Ballot) (q : SeqNum) (any : Bool) : KeepsT F (accept_guard n q any) s := by
  refine t_bind (t_check_valid_ballot n) fun ok t => ?_
  exact t_get (M.sat_ite.2 ⟨fun _ => t_bind (t_handle_sequence_num q n.pid) fun _ t => t_pure _, fun _ => t_pure _⟩)

theorem t_reply_accepted (n : Ballot) (i : Nat) : KeepsT F (reply_accepted n i) s := by
  simp only [KeepsT, reply_accepted, M.sat_bind, M.sat_get, M.sat_ofPan]
  refine ⟨fun r hl => ?_, fun _ => trivial⟩
  match r with
  | some (idx, a) =>
    refine t_setMsg rfl fun x hx => ?_
    obtain ⟨y, hy, hm⟩ := get_latest_accepted_mem hl
    rw [hx] at hy; cases hy; rw [hm]; rfl
  | none =>
    simp only [M.sat_bind, M.sat_upd, sat_send]
    exact ⟨rfl, rfl, .inl ⟨rfl, rfl⟩, rfl, rfl, rfl, phsTo_none _ rfl, .inl⟩

theorem t_reply_opt (n : Ballot) (o : Option Nat) : KeepsT F (reply_opt n o) s := by
  cases o with
  | none => exact Tame.refl F s
  | some i => exact t_reply_accepted n i

theorem t_set_decided (i : Nat) : KeepsT F (onStore (IStore.set_decided_idx i)) s :=
  t_store (M.sat_mono (IStore.pd_set_decided _) (fun _ _ h => h.1) fun _ _ => trivial)

theorem t_update_decided (d : Nat) : KeepsT F (update_decided_idx_and_get_accepted_idx d) s := by
  simp only [KeepsT, update_decided_idx_and_get_accepted_idx, M.sat_bind, M.sat_get, M.sat_ite, M.sat_pure]
  refine ⟨fun _ => Tame.refl F s, fun _ => ⟨fun _ => ?_, fun _ => ?_⟩⟩
  · exact M.sat_mono (t_pd IStore.pd_flush) (fun _ t h => t_then h (t_set_decided _)) fun _ h => h
  · exact t_set_decided _

theorem t_handle_acceptdecide (a : AcceptDecide E) : KeepsT F (handle_acceptdecide a) s := by
  refine t_bind (t_accept_guard a.n a.seq_num false) fun ok t => ?_
  cases ok with
  | false => exact Tame.refl F t
  | true => exact t_bind (t_pd (IStore.pd_append_get _)) fun _ _ => t_bind (t_update_decided _) fun _ _ => t_reply_opt _ _

theorem t_handle_accept_stopsign (a : AcceptStopSign) : KeepsT F (handle_accept_stopsign a) s := by
  refine t_bind (t_accept_guard a.n a.seq_num false) fun ok t => ?_
  cases ok with
  | false => exact Tame.refl F t
  | true => exact t_bind (t_pd IStore.pd_flush) fun _ _ => t_bind (t_pd (IStore.pd_set_stopsign _)) fun _ _ => t_reply_accepted _ _

theorem t_handle_decide (d : Decide) : KeepsT F (handle_decide d) s := by
  refine t_bind (t_accept_guard d.n d.seq_num true) fun ok t => ?_
  cases ok with
  | false => exact Tame.refl F t
  | true => exact t_bind (t_update_decided _) fun _ _ => t_reply_opt _ _

theorem t_forward_buffered : KeepsT F (forward_buffered_proposals (E := E) (S := S)) s := by
  simp only [KeepsT, forward_buffered_proposals, M.sat_bind, M.sat_get, M.sat_upd, M.sat_ite, M.sat_pure]
  have h0 : Tame F s { s with buffered_proposals := [] } := ⟨rfl, rfl, .inl ⟨rfl, rfl⟩, rfl, rfl, rfl, rfl, .inl⟩
  exact ⟨fun _ => h0, fun _ => t_then h0 (t_forward_proposals _)⟩

theorem check_valid_false (n : Ballot) : M.Sat (check_valid_ballot n) s
    (fun ok _ => ok = false → s.ist.cache.promise.cmp n ≠ .eq) (fun _ => True) := by
  simp only [check_valid_ballot, M.sat_bind, M.sat_get]
  split
  · exact nofun
  · rename_i e
    simp only [M.sat_bind, sat_send, M.sat_pure]
    exact fun _ h => by unfold get_promise at e; rw [h] at e; cases e
  · rename_i e
    simp only [M.sat_bind]
    refine M.sat_mono (M.sat_true _ _) (fun _ _ _ => ?_) fun _ h => h
    exact fun _ h => by unfold get_promise at e; rw [h] at e; cases e

/-- An AcceptSync is handled: nobody waits for one of that ballot any more. -/
theorem t_handle_acceptsync [SnapOps E S] (hl : s.role = .leader → s.ist.cache.promise.pid = s.pid) (a : AcceptSync E S) (f : NodeId) :
    M.Sat (handle_acceptsync a f) s (fun _ t => Tame F s t ∧ (a.n.pid ≠ s.pid → t.phase = .prepare → t.ist.cache.promise ≠ a.n)) (fun _ => True) := by
  simp only [handle_acceptsync, M.sat_bind]
  refine M.sat_mono (M.sat_and (M.sat_and (t_check_valid_ballot (F := F) a.n) (check_valid_true a.n)) (check_valid_false a.n)) (fun ok t ht => ?_)
    fun _ _ => trivial
  obtain ⟨⟨h1, h2⟩, h3⟩ := ht
  simp only [M.sat_get, M.sat_ite, M.sat_pure]
  refine ⟨fun hg => ?_, fun hg => ⟨h1, fun hne hp he => ?_⟩⟩
  · simp only [M.sat_bind, M.sat_upd, sat_onStore, M.sat_get, M.sat_whenDo, sat_setState, sat_send]
    refine M.sat_mono (IStore.pd_sync_log _ _ _) (fun x j hj => ?_) fun _ _ => trivial
    have h4 : Tame F s { t with cached_promise := none, ist := j } :=
      h1.trans ⟨rfl, rfl, .inl ⟨rfl, rfl⟩, hj.1, rfl, rfl, rfl, .inl⟩
    have fin : ∀ u : SP E S, Tame F s u → Tame F s { u with
        role := .follower, phase := .accept, current_seq_num := a.seq_num, latest_accepted_meta := some (a.n, u.outgoing.length)
        outgoing := u.outgoing ++ [{ src := u.pid, dst := f, msg := .accepted { n := a.n, accepted_idx := x } }] } := fun u hu =>
      hu.trans ⟨rfl, rfl, .inr ⟨rfl, nofun⟩, rfl, rfl, rfl, phsTo_none _ rfl, .inl⟩
    refine ⟨fun _ => ?_, fun _ => ⟨fin _ h4, fun _ => nofun⟩⟩
    exact M.sat_mono (t_then h4 t_forward_buffered) (fun _ u hu => ⟨fin u hu, fun _ => nofun⟩) fun _ h => h
  · have he' : s.ist.cache.promise = a.n := h1.prom.symm.trans he
    cases ok with
    | false => exact h3 rfl (by rw [he']; exact (Ballot.cmp_eq_iff _ _).2 ⟨rfl, rfl, rfl⟩)
    | true =>
      obtain ⟨rfl, -⟩ := h2 rfl
      refine hg ⟨rfl, ?_, hp⟩
      cases hr : t.role with
      | follower => rfl
      | leader => exact absurd (by rw [← he']; exact hl hr) hne

theorem t_resend_follower : KeepsT F (resend_messages_follower (E := E) (S := S)) s := by
  have hall : ∀ t : SP E S, KeepsT F (send_preparereq_to_all_peers (E := E) (S := S)) t := fun t => by
    simp only [KeepsT, send_preparereq_to_all_peers, M.sat_bind, M.sat_get]
    exact t_forEach fun x _ t _ => t_send x rfl
  simp only [KeepsT, resend_messages_follower, M.sat_bind, M.sat_get]
  split
  · split
    · exact t_send _ rfl
    · simp only [M.sat_bind, sat_setState]
      exact t_then ⟨rfl, rfl, .inr ⟨rfl, nofun⟩, rfl, rfl, rfl, rfl, .inl⟩ (hall _)
  · exact hall s
  · exact Tame.refl F s
  · exact Tame.refl F s

theorem t_flush_timeout : KeepsT F (flush_batch_timeout (E := E) (S := S)) s := by
  simp only [KeepsT, flush_batch_timeout, M.sat_bind, M.sat_get]
  split
  · rename_i hr hp; exact ts_t (ts_flush_batch_leader ⟨hr, hp⟩)
  · simp only [flush_batch_follower, M.sat_bind, M.sat_get]
    refine M.sat_mono (t_pd (F := F) IStore.pd_flush) (fun k t h => ?_) fun _ h => h
    simp only [M.sat_ite, M.sat_pure]
    exact ⟨fun _ => t_then h (t_reply_accepted _ _), fun _ => h⟩
  · exact Tame.refl F s

/-! #### What is not tame -/

abbrev KeepsS (F : NodeId) (D : Ballot → Nat → Prop) (b : Ballot → Prop) (pre : List Ph) (W : Ballot → Prop) {α : Type}
    (m : M (SP E S) α) (s : SP E S) : Prop := M.Sat m s (fun _ t => Sess F D b pre W t) (fun _ => True)

theorem s_tame {α : Type} {m : M (SP E S) α} (h : Sess F D b pre W s) (hm : KeepsT F m s) : KeepsS F D b pre W m s :=
  M.sat_mono hm (fun _ _ ht => h.tame ht) fun _ h => h

theorem t_send_ne {to : NodeId} (h : to ≠ F) (m : PaxosMsg E S) : KeepsT F (send to m) s := by
  unfold KeepsT; rw [sat_send]
  exact ⟨rfl, rfl, .inl ⟨rfl, rfl⟩, rfl, rfl, rfl, by rw [phsTo_snoc, if_neg h, List.append_nil], .inl⟩

/-- A Prepare of a leader that has no promise of `F` and nothing waiting. -/
theorem s_prepare (h : Sess F D b pre W s) {to : NodeId} (ht : to = F → s.role = .leader → ¬ s.ls.Waiting F ∧ ¬ s.ls.HasPromise F)
    (p : Prepare) : KeepsS F D b pre W (send to (.prepare p)) s := by
  by_cases hF : to = F
  · have ht := ht hF
    unfold KeepsS; rw [sat_send]
    have e : phsTo F (s.outgoing ++ [{ src := s.pid, dst := to, msg := PaxosMsg.prepare p }]) = phsTo F s.outgoing ++ [(p.n, none)] := by
      rw [phsTo_snoc, if_pos hF]; rfl
    refine ⟨h.pid, h.own, h.wait, ?_, fun h1 _ h3 => ?_, h.metp⟩
    · show Late D b (pre ++ phsTo F (s.outgoing ++ _))
      rw [e, ← List.append_assoc]
      exact h.late.snoc nofun
    · rcases h3 with h3 | h3
      · exact absurd h3 (ht h1).1
      · exact absurd h3 (ht h1).2
  · exact s_tame h (t_send_ne hF _)

theorem s_send_prepare (h : Sess F D b pre W s) {to : NodeId} (ht : to = F → s.role = .leader → ¬ s.ls.Waiting F ∧ ¬ s.ls.HasPromise F) :
    KeepsS F D b pre W (send_prepare to) s := by
  simp only [KeepsS, send_prepare, M.sat_bind, M.sat_get]
  exact s_prepare h ht _

theorem s_resend_prepare (h : Sess F D b pre W s) : KeepsS F D b pre W (resend_prepare (E := E) (S := S)) s := by
  simp only [KeepsS, resend_prepare, M.sat_bind, M.sat_get, M.sat_ofPan]
  refine ⟨fun ps hps => ?_, fun _ => trivial⟩
  refine M.sat_mono (M.sat_forEach (fun t => Sess F D b pre W t ∧ t.ls = s.ls) ⟨h, rfl⟩ fun x hx t ht => ?_) (fun _ _ h => h.1) fun _ h => h
  refine M.sat_mono (M.sat_and (s_send_prepare ht.1 fun e hr => ?_) (Q' := fun _ u => u.ls = t.ls) (P' := fun _ => True) ?_)
    (fun _ u hu => ⟨hu.1, hu.2.trans ht.2⟩) fun _ _ => trivial
  · subst e
    have hn := ((LeaderState.mem_preparable hps x).1 hx).2
    rw [← ht.2] at hn
    refine ⟨fun hw => (ht.1.metp hr hw).2 hn, fun ⟨m, hm⟩ => ?_⟩
    rw [hn] at hm; cases hm
  · simp only [send_prepare, M.sat_bind, M.sat_get, sat_send]

theorem ts_resend_stopsigns : KeepsTS F (resend_stopsigns (E := E) (S := S)) s := by
  unfold resend_stopsigns
  refine ts_get ?_
  split
  · refine ts_forEach fun x _ t _ _ _ => ts_get (M.sat_ite.2 ⟨fun _ => ts_send_decide _ _ _, fun _ => ?_⟩)
    unfold KeepsTS at *
    simp only [M.sat_bind, M.sat_ofPan]
    exact ⟨fun _ _ => M.sat_ite.2 ⟨fun _ => ts_send_accept_stopsign _ _ _, fun _ => ts_pure _⟩, fun _ => trivial⟩
  · exact ts_pure _

theorem s_bind {α β : Type} {m : M (SP E S) α} {f : α → M (SP E S) β} (hm : KeepsS F D b pre W m s)
    (hf : ∀ a t, Sess F D b pre W t → KeepsS F D b pre W (f a) t) : KeepsS F D b pre W (m >>= f) s := by
  unfold KeepsS; rw [M.sat_bind]
  exact M.sat_mono hm (fun a t h => hf a t h) fun _ h => h

theorem s_resend (h : Sess F D b pre W s) : KeepsS F D b pre W (resend_message_timeout (E := E) (S := S)) s := by
  simp only [KeepsS, resend_message_timeout, M.sat_bind, M.sat_get]
  split
  · simp only [resend_messages_leader, M.sat_bind, M.sat_get]
    split
    · exact s_resend_prepare h
    · exact s_bind (s_tame h (ts_t ts_resend_stopsigns)) fun _ _ h => s_resend_prepare h
    · exact h
    · exact h
  · exact s_tame h t_resend_follower

theorem set_promise_ls {ls : LeaderState E S} {p : Promise E S} {f : NodeId} {ck : Bool} {r : LeaderState E S × Bool}
    (h : ls.set_promise p f ck = some r) :
    r.1.n_leader = ls.n_leader ∧ r.1.latest_accept_meta = ls.latest_accept_meta ∧ r.1.follower_seq_nums = ls.follower_seq_nums ∧
      (∃ m, slot r.1.promises_meta f = some (.promised m)) ∧ ∀ x, x ≠ f → slot r.1.promises_meta x = slot ls.promises_meta x := by
  simp only [LeaderState.set_promise] at h
  split at h
  · cases h
  · rename_i v hv
    cases h
    obtain ⟨-, -, -, h4, h5⟩ := setSlot_spec hv
    unfold LeaderState.update_max at *
    split at hv <;> split <;> simp_all

theorem s_handle_leader (h : Sess F D b pre W s) (n : Ballot) : KeepsS F D b pre W (handle_leader n) s := by
  simp only [KeepsS, handle_leader, M.sat_bind, M.sat_get, M.sat_ite, M.sat_pure, M.sat_upd]
  refine ⟨fun _ => h, fun hn => ⟨fun hp => ?_, fun hp => ⟨h.pid, nofun, h.wait, h.late, nofun, nofun⟩⟩⟩
  simp only [sat_onStore]
  refine M.sat_mono IStore.pd_flush (fun _ i hi => ?_) fun _ _ => trivial
  refine M.sat_mono (IStore.pd_set_promise n) (fun _ j hj => ?_) fun _ _ => trivial
  rw [sat_onLS']
  refine ⟨fun r hr => ?_, fun _ => trivial⟩
  rw [sat_setState]
  obtain ⟨h1, h2, -, -, h4⟩ := set_promise_ls hr
  have hw : ¬ r.1.Waiting F := by
    rintro ⟨x, hx⟩
    rw [h2] at hx
    cases slot_replicate hx
  have hq : ¬ r.1.HasPromise F := by
    rintro ⟨x, hx⟩
    rw [h4 F (Ne.symm h.pid)] at hx
    cases slot_replicate hx
  have h0 : Sess F D b pre W { s with ist := j, ls := r.1, role := .leader, phase := .prepare } :=
    ⟨h.pid, fun _ => by rw [h1]; exact hp.symm, fun _ hx => absurd (by rw [hj.1]; exact hp.symm) hx, h.late, fun _ => nofun,
      fun _ h => absurd h hw⟩
  refine M.sat_mono (M.sat_forEach (fun t => Sess F D b pre W t ∧ t.ls = r.1) ⟨h0, rfl⟩ fun x _ t ht => ?_) (fun _ _ h => h.1) fun _ h => h
  refine M.sat_mono (M.sat_and (s_prepare (to := x) ht.1 (fun _ _ => by rw [ht.2]; exact ⟨hw, hq⟩) _) (Q' := fun _ u => u.ls = t.ls) (P' := fun _ => True) ?_)
    (fun _ u hu => ⟨hu.1, hu.2.trans ht.2⟩) fun _ _ => trivial
  simp only [sat_send]

theorem s_handle_preparereq (h : Sess F D b pre W s) (n : Ballot) (f : NodeId) : KeepsS F D b pre W (handle_preparereq n f) s := by
  simp only [KeepsS, handle_preparereq, M.sat_get, M.sat_bind, M.sat_ite, M.sat_pure, sat_onLS]
  refine ⟨fun hr => ⟨fun l1 e1 => ⟨fun l2 e2 => ?_, fun _ => trivial⟩, fun _ => trivial⟩, fun _ => h⟩
  simp only [LeaderState.reset_promise] at e1
  simp only [LeaderState.set_latest_accept_meta] at e2
  split at e1
  · cases e1
  rename_i v1 hv1
  cases e1
  split at e2
  · cases e2
  rename_i v2 hv2
  cases e2
  obtain ⟨-, -, -, h4, h5⟩ := setSlot_spec hv1
  obtain ⟨-, -, -, h6, h7⟩ := setSlot_spec hv2
  by_cases hF : f = F
  · subst hF
    have hw : ¬ LeaderState.Waiting { s.ls with promises_meta := v1, latest_accept_meta := v2 } f := by
      rintro ⟨x, hx⟩
      rw [h6] at hx; cases hx
    refine s_send_prepare (s := { s with ls := { s.ls with promises_meta := v1, latest_accept_meta := v2 } })
      ⟨h.pid, h.own, h.wait, h.late, fun _ _ h3 => ?_, fun _ h3 => absurd h3 hw⟩ fun _ _ => ⟨hw, ?_⟩
    · rcases h3 with h3 | ⟨m, h3⟩
      · exact absurd h3 hw
      · rw [h4] at h3; cases h3
    · rintro ⟨m, h3⟩
      rw [h4] at h3; cases h3
  · refine s_send_prepare (s := { s with ls := { s.ls with promises_meta := v1, latest_accept_meta := v2 } }) (h.tame ⟨rfl, rfl, .inl ⟨rfl, rfl⟩, rfl, rfl, h5 F (Ne.symm hF), rfl, fun hw => .inl ?_⟩) fun e => absurd e hF
    unfold LeaderState.Waiting at *
    rwa [h7 F (Ne.symm hF)] at hw

theorem s_handle_notaccepted (h : Sess F D b pre W s) (n : Ballot) (f : NodeId) : KeepsS F D b pre W (handle_notaccepted n f) s := by
  simp only [KeepsS, handle_notaccepted, M.sat_bind, M.sat_get, M.sat_ite, M.sat_pure, sat_onLS]
  refine ⟨fun hr => ⟨fun ls e => ?_, fun _ => trivial⟩, fun _ => h⟩
  simp only [LeaderState.lost_promise] at e
  split at e
  · cases e
  rename_i v hv
  cases e
  obtain ⟨-, -, -, h4, h5⟩ := setSlot_spec hv
  by_cases hF : f = F
  · subst hF
    refine ⟨h.pid, h.own, h.wait, h.late, fun h1 h2 h3 => ?_, fun h1 h2 => ⟨(h.metp h1 h2).1, ?_⟩⟩
    · rcases h3 with h3 | ⟨m, h3⟩
      · exact h.lead h1 h2 (.inl h3)
      · rw [h4] at h3; cases h3
    · show slot v f ≠ _
      rw [h4]; simp
  · exact h.tame ⟨rfl, rfl, .inl ⟨rfl, rfl⟩, rfl, rfl, h5 F (Ne.symm hF), rfl, .inl⟩

variable [SnapOps E S]

theorem s_handle_prepare (h : Sess F D b pre W s) {p : Prepare} (f : NodeId) (hp : p.n.pid ≠ s.pid → W p.n) :
    KeepsS F D b pre W (handle_prepare p f) s := by
  simp only [KeepsS, handle_prepare, M.sat_bind, M.sat_get, M.sat_ite, M.sat_pure, M.sat_upd, M.sat_ofPan, sat_send, sat_onStore]
  refine ⟨fun hg => ?_, fun _ => h⟩
  refine M.sat_mono IStore.pd_flush (fun _ i hi => ?_) fun _ _ => trivial
  refine M.sat_mono (IStore.pd_set_promise p.n) (fun _ j hj => ?_) fun _ _ => trivial
  refine ⟨fun l hl => ⟨h.pid, nofun, fun _ hx => ?_, ?_, nofun, nofun⟩, fun _ => trivial⟩
  · simp only [hj.1] at hx ⊢
    exact hp hx
  · show Late D b (pre ++ phsTo F (s.outgoing ++ _))
    rw [phsTo_none _ rfl]; exact h.late

/-- Sending an AcceptSync: what changes. -/
theorem send_accsync_spec (to : NodeId) : M.Sat (send_accsync to) s (fun _ t => ∃ a v, t =
      { s with ls := { s.ls with follower_seq_nums := v }
               outgoing := s.outgoing ++ [{ src := s.pid, dst := to, msg := .acceptSync a }] } ∧
      a.n = s.ls.n_leader ∧ ∃ q, slot s.ls.follower_seq_nums to = some q ∧ a.seq_num.session = q.session + 1) (fun _ => True) := by
  simp only [send_accsync, M.sat_bind, M.sat_get, M.sat_ofPan, sat_onLS, sat_onLS', sat_send]
  refine ⟨fun r _ => ⟨fun l hl => ⟨fun l1 e1 => ⟨fun l2 e2 => ?_, fun _ => trivial⟩, fun _ => trivial⟩, fun _ => trivial⟩, fun _ => trivial⟩
  simp only [LeaderState.increment_seq_num_session] at e1
  split at e1
  · cases e1
  rename_i q hq
  split at e1
  · cases e1
  rename_i v hv
  cases e1
  simp only [LeaderState.next_seq_num] at e2
  split at e2
  · cases e2
  rename_i q2 hq2
  split at e2
  · cases e2
  rename_i v2 hv2
  cases e2
  obtain ⟨-, -, -, h4, -⟩ := setSlot_spec hv
  rw [h4] at hq2; cases hq2
  exact ⟨_, v2, rfl, rfl, q, hq, rfl⟩

theorem phsTo_sync {a : AcceptSync E S} {to : NodeId} (h : to = F) {i : NodeId} (l : List (PaxosMessage E S)) :
    phsTo F (l ++ [{ src := i, dst := to, msg := .acceptSync a }]) = phsTo F l ++ [(a.n, some a.seq_num.session)] := by
  rw [phsTo_snoc, if_pos h]; rfl

theorem s_handle_promise_accept (h : Sess F D b pre W s) (hs : s.role = .leader) (hph : s.phase = .accept) (p : Promise E S) (f : NodeId)
    (hd : ∀ q, f = F → p.n = s.ls.n_leader → slot s.ls.follower_seq_nums F = some q → D s.ls.n_leader (q.session + 1) → s.ls.Waiting F) :
    KeepsS F D b pre W (handle_promise_accept p f) s := by
  simp only [KeepsS, handle_promise_accept, M.sat_bind, M.sat_get, M.sat_ite, M.sat_pure, sat_onLS']
  refine ⟨fun hn => ⟨fun r hr => ?_, fun _ => trivial⟩, fun _ => h⟩
  obtain ⟨h1, h2, h3, ⟨m, h4⟩, h5⟩ := set_promise_ls hr
  refine M.sat_mono (send_accsync_spec f) (fun _ t ht => ?_) fun _ h => h
  obtain ⟨a, v, rfl, ha, q, hq, hk⟩ := ht
  simp only at ha hq hk
  rw [h1] at ha
  rw [h3] at hq
  by_cases hF : f = F
  · subst hF
    have e := phsTo_sync (E := E) (S := S) (a := a) (i := s.pid) (to := f) rfl s.outgoing
    refine ⟨h.pid, fun hx => by simp only [h1]; exact h.own hx, h.wait, ?_, fun _ _ _ => ?_, fun _ _ => ⟨hph, ?_⟩⟩
    · show Late D b (pre ++ phsTo f (s.outgoing ++ _))
      rw [e, ← List.append_assoc]
      refine h.late.snoc fun k hk' hD => ?_
      cases hk'
      rw [ha] at hD ⊢
      rw [hk] at hD
      exact h.lead hs hph (.inl (hd q rfl hn hq hD))
    · show ¬ Awaits r.1.n_leader _ (pre ++ phsTo f (s.outgoing ++ _))
      rw [e, ← List.append_assoc, ha, h1]
      exact not_awaits_sync _ _ _ _
    · show slot r.1.promises_meta f ≠ _
      rw [h4]; simp
  · refine h.tame ⟨rfl, rfl, .inl ⟨rfl, rfl⟩, rfl, h1, h5 F (Ne.symm hF), ?_, fun hw => .inl ?_⟩
    · rw [phsTo_snoc, if_neg hF, List.append_nil]
    · unfold LeaderState.Waiting at *
      rwa [h2] at hw

omit [SnapOps E S] in
theorem ts_append_buffered (i : Nat) : KeepsTS F (append_buffered i) s := by
  unfold append_buffered
  refine ts_get (M.sat_ite.2 ⟨fun _ => ts_pure _, fun _ => ts_bind ?_ fun k t _ _ _ => ?_⟩)
  · unfold append_buffered_proposals
    refine ts_get (M.sat_ite.2 ⟨fun _ => ts_pure _, fun _ => ts_bind ?_ fun _ t _ _ _ => ts_store (t_pd (IStore.pd_append_nb _))⟩)
    unfold KeepsTS; rw [M.sat_upd]
    exact ⟨⟨rfl, rfl, .inl ⟨rfl, rfl⟩, rfl, rfl, rfl, rfl, .inl⟩, rfl, rfl⟩
  · unfold append_buffered_stopsign
    refine ts_get ?_
    split
    · refine ts_bind (m := M.upd _) ?_ fun _ t _ _ _ => ts_bind (ts_store (t_pd (IStore.pd_append_ss _))) fun _ t _ _ _ => ts_get (ts_pure _)
      unfold KeepsTS; rw [M.sat_upd]
      exact ⟨⟨rfl, rfl, .inl ⟨rfl, rfl⟩, rfl, rfl, rfl, rfl, .inl⟩, rfl, rfl⟩
    · exact ts_pure _

theorem s_handle_majority (h : Sess F D b pre W s) (hs : s.role = .leader) (hph : s.phase = .prepare) (hd : ∀ k, ¬ D s.ls.n_leader k) :
    KeepsS F D b pre W handle_majority_promises s := by
  simp only [KeepsS, handle_majority_promises, M.sat_bind, M.sat_get, M.sat_upd]
  have hu0 : Tame F s { s with ls := { s.ls with max_promise_sync := none } } := ⟨rfl, rfl, .inl ⟨rfl, rfl⟩, rfl, rfl, rfl, rfl, .inl⟩
  refine M.sat_mono (ts_store (F := F) (t_store (M.sat_mono (IStore.pd_sync_log _ _ _) (fun _ _ h => h.1) fun _ _ => trivial)))
    (fun a t ht => ?_) fun _ h => h
  refine M.sat_mono (ts_append_buffered (F := F) a) (fun a u hu => ?_) fun _ h => h
  have h1 : Tame F s u := (hu0.trans ht.1).trans hu.1
  have hr : u.role = .leader := hu.2.1.trans (ht.2.1.trans hs)
  have hp : u.phase = .prepare := hu.2.2.trans (ht.2.2.trans hph)
  have h2 := h.tame h1
  have hw : ¬ u.ls.Waiting F := fun hx => by
    have := (h2.metp hr hx).1
    rw [hp] at this; cases this
  have hd' : ∀ k, ¬ D u.ls.n_leader k := by rw [h1.n]; exact hd
  rw [sat_setState, sat_onLS]
  refine ⟨fun ls e => ?_, fun _ => trivial⟩
  obtain ⟨e1, e2, e3⟩ := acc_t e
  simp only at e1 e2 e3
  refine M.sat_mono (M.sat_forEach_rem (fun r t => t.pid = u.pid ∧ t.role = .leader ∧ t.phase = .accept ∧ t.ls.n_leader = u.ls.n_leader ∧
      t.ls.promises_meta = u.ls.promises_meta ∧ t.ls.latest_accept_meta = u.ls.latest_accept_meta ∧
      Late D b (pre ++ phsTo F t.outgoing) ∧ (F ∈ r ∨ ¬ u.ls.HasPromise F ∨ ¬ Awaits u.ls.n_leader (b u.ls.n_leader) (pre ++ phsTo F t.outgoing)))
    ?_ fun x r t hx ht => ?_) (fun _ v hv => ?_) fun _ h => h
  · refine ⟨rfl, rfl, rfl, e1, e2, e3, h2.late, ?_⟩
    by_cases hq : u.ls.HasPromise F
    · refine .inl (LeaderState.mem_followers.2 ⟨?_, ?_⟩)
      · show F ≠ ls.n_leader.pid
        rw [e1, h2.own hr]; exact Ne.symm h2.pid
      · show ∃ m, slot ls.promises_meta F = _
        rw [e2]; exact hq
    · exact .inr (.inl hq)
  · obtain ⟨i1, i2, i3, i4, i5, i6, i7, i8⟩ := ht
    refine M.sat_mono (send_accsync_spec x) (fun _ w hw => ?_) fun _ h => h
    obtain ⟨a', v, rfl, ha, q, -, -⟩ := hw
    refine ⟨i1, i2, i3, i4, i5, i6, ?_⟩
    simp only
    by_cases hF : x = F
    · rw [phsTo_sync hF, ← List.append_assoc, ha, i4]
      refine ⟨i7.snoc fun k _ hD => absurd hD (hd' k), .inr (.inr (not_awaits_sync _ _ _ _))⟩
    · rw [phsTo_snoc, if_neg hF, List.append_nil]
      refine ⟨i7, i8.imp (fun hm => ?_) id⟩
      rcases List.mem_cons.1 hm with e | hm
      · exact absurd e.symm hF
      · exact hm
  · obtain ⟨i1, i2, i3, i4, i5, i6, i7, i8⟩ := hv
    have hw' : ¬ v.ls.Waiting F := by unfold LeaderState.Waiting at *; rw [i6]; exact hw
    refine ⟨by rw [i1]; exact h2.pid, fun _ => by rw [i4, i1]; exact h2.own hr, (fun hx => nomatch i3.symm.trans hx), i7,
      fun _ _ hx => ?_, fun _ hx => absurd hx hw'⟩
    rw [i4]
    rcases i8 with hm | hm | hm
    · cases hm
    · rcases hx with hx | hx
      · exact absurd hx hw'
      · unfold LeaderState.HasPromise at *; rw [i5] at hx; exact absurd hx hm
    · exact hm

/-- What the handling of a message assumes: a dead AcceptSync goes out only when a Promise meets an AcceptDecide that waits. -/
structure Kills (F : NodeId) (D : Ballot → Nat → Prop) (s : SP E S) (m : PaxosMessage E S) : Prop where
  prep : ∀ p, m.msg = .promise p → s.role = .leader → s.phase = .prepare → p.n = s.ls.n_leader → ∀ k, ¬ D s.ls.n_leader k
  acc : ∀ p, m.msg = .promise p → s.role = .leader → s.phase = .accept → m.src = F → p.n = s.ls.n_leader →
    ∀ q, slot s.ls.follower_seq_nums F = some q → D s.ls.n_leader (q.session + 1) → s.ls.Waiting F

theorem s_handle_promise (h : Sess F D b pre W s) {m : PaxosMessage E S} {p : Promise E S} (hm : m.msg = .promise p) (hk : Kills F D s m) :
    KeepsS F D b pre W (handle_promise p m.src) s := by
  simp only [KeepsS, handle_promise, M.sat_bind, M.sat_get]
  split
  · rename_i hr hph
    simp only [handle_promise_prepare, M.sat_bind, M.sat_get, M.sat_ite, M.sat_pure, sat_onLS']
    refine ⟨fun hn => ⟨fun r hr' => ?_, fun _ => trivial⟩, fun _ => h⟩
    obtain ⟨h1, h2, h3, ⟨m', h4⟩, h5⟩ := set_promise_ls hr'
    have hw : ¬ s.ls.Waiting F := fun hx => by
      have := (h.metp hr hx).1
      rw [hph] at this; cases this
    have hw' : ¬ r.1.Waiting F := by unfold LeaderState.Waiting at *; rw [h2]; exact hw
    have h0 : Sess F D b pre W { s with ls := r.1 } :=
      ⟨h.pid, fun hx => by simp only [h1]; exact h.own hx, h.wait, h.late, (fun _ hx => nomatch hph.symm.trans hx),
        fun _ hx => absurd hx hw'⟩
    refine ⟨fun _ => s_handle_majority h0 hr hph ?_, fun _ => h0⟩
    simp only [h1]
    exact hk.prep p hm hr hph hn
  · rename_i hr hph
    exact s_handle_promise_accept h hr hph p m.src fun q hF hn hq hD => hk.acc p hm hr hph hF hn q hq hD
  · exact h

theorem s_handle (h : Sess F D b pre W s) (hl : s.role = .leader → s.ist.cache.promise.pid = s.pid) (m : PaxosMessage E S) (hk : Kills F D s m)
    (hp : ∀ p, m.msg = .prepare p → p.n.pid ≠ s.pid → W p.n) :
    M.Sat (handle m) s (fun _ t => Sess F D b pre W t ∧ ∀ a, m.msg = .acceptSync a → a.n.pid ≠ s.pid → t.phase = .prepare →
      t.ist.cache.promise ≠ a.n) (fun _ => True) := by
  unfold handle
  have na : ∀ {α : Type} {x : M (SP E S) α}, KeepsS F D b pre W x s → (∀ a, m.msg ≠ .acceptSync a) → M.Sat x s
      (fun _ t => Sess F D b pre W t ∧ ∀ a, m.msg = .acceptSync a → a.n.pid ≠ s.pid → t.phase = .prepare → t.ist.cache.promise ≠ a.n)
      (fun _ => True) := fun h ha => M.sat_mono h (fun _ _ h => ⟨h, fun a e => absurd e (ha a)⟩) fun _ h => h
  have tm : ∀ {α : Type} {x : M (SP E S) α}, KeepsT F x s → (∀ a, m.msg ≠ .acceptSync a) → M.Sat x s
      (fun _ t => Sess F D b pre W t ∧ ∀ a, m.msg = .acceptSync a → a.n.pid ≠ s.pid → t.phase = .prepare → t.ist.cache.promise ≠ a.n)
      (fun _ => True) := fun hx ha => na (s_tame h hx) ha
  split
  · rename_i e; exact na (s_handle_preparereq h _ _) (by rw [e]; nofun)
  · rename_i e; exact na (s_handle_prepare h _ (hp _ e)) (by rw [e]; nofun)
  · rename_i e; exact na (s_handle_promise h e hk) (by rw [e]; nofun)
  · rename_i a e
    refine M.sat_mono (t_handle_acceptsync (F := F) hl a m.src) (fun _ t ht => ⟨h.tame ht.1, fun a' e' => ?_⟩) fun _ h => h
    rw [e] at e'; cases e'; exact ht.2
  · rename_i e; exact tm (t_handle_acceptdecide _) (by rw [e]; nofun)
  · rename_i e; exact na (s_handle_notaccepted h _ _) (by rw [e]; nofun)
  · rename_i e; exact tm (ts_t (ts_handle_accepted _ _)) (by rw [e]; nofun)
  · rename_i e; exact tm (t_handle_decide _) (by rw [e]; nofun)
  · rename_i e; exact tm (t_handle_forwarded_proposal _) (by rw [e]; nofun)
  · rename_i e; exact tm (t_handle_compaction _) (by rw [e]; nofun)
  · rename_i e; exact tm (t_handle_accept_stopsign _) (by rw [e]; nofun)
  · rename_i e; exact tm (t_handle_forwarded_stopsign _) (by rw [e]; nofun)

end SP

theorem SP.closed_s [SnapOps E S] : SP.Closed0On (E := E) (S := S) (fun _ => True) (fun _ => True) (Sess F D b pre W) (fun _ => True) where
  lead n _ _ h := SP.s_handle_leader h n
  resend _ h := SP.s_resend h
  flush _ h := SP.s_tame h SP.t_flush_timeout
  append e _ h := SP.s_tame h (SP.t_append e)
  reconf c md _ h := SP.s_tame h (SP.t_reconfigure c md)
  recon p _ _ h := SP.s_tame h (SP.t_reconnected p)

/-- A call of the API other than the handling of a message. -/
theorem OP.run_sess [SnapOps E S] {op : OP E S} (h : Sess F D b pre W op.sp) (c : Call E S) (hc : ∀ m, c ≠ .handleIncoming (.paxos m)) :
    M.Sat c.run op (fun _ t => Sess F D b pre W t.sp) (fun _ => True) :=
  OP.run_closedOn SP.closed_s (fun _ _ => trivial) h c (fun _ _ => trivial) (fun m e => absurd e (hc m)) (fun i _ => SP.s_tame h (SP.t_trim i))
    fun i l _ => SP.s_tame h (SP.t_snapshot i l)

end Omni
