import Verif.Proof.Boot.Whole
import Verif.Proof.Beats.Timed
import Verif.Proof.Steady.Facts
/-
From the start of a cluster to steady operation: runs.
-/
namespace Omni

variable {E S : Type} {n : Ballot} {R : NodeId → HeartbeatReply → Prop} {cc : ClusterConfig} {ρ ρ' ρ'' : NodeId → Nat} {A A' A'' : List E}

/-- The invariant, of a cluster. -/
def Cluster.Starting (cc : ClusterConfig) (n : Ballot) (A : List E) (ρ : NodeId → Nat) (c : Cluster E S) : Prop :=
  ∃ sv : NodeId → SP E S, (∀ i ∈ cc.nodes, ∃ op, c.servers i = .up op ∧ op.sp = sv i) ∧ Starts cc n A ρ sv c.px

/-- omni_paxos.rs 376-386, with the clocks. -/
theorem OP.tick_all {op : OP E S} {Q : SP E S → Prop} {P : SP E S → Prop}
    (h : ∀ w, ∀ [Decidable w], M.Sat (SP.ticked op.elects.1 (op.resend_message_clock.tick_and_check_timeout.1 = true) w) op.sp (fun _ => Q) P) :
    M.Sat OP.tick op (fun _ o => Q o.sp ∧ o.ble = op.elects.2) (fun o => P o.sp) := by
  have h := h (op.flush_batch_clock.tick_and_check_timeout.1 = true)
  have hkeep : ∀ {α : Type} (m : M (SP E S) α) (s : SP E S) (R : α → SP E S → Prop) (P : SP E S → Prop) (q : Prop), q → M.Sat m s R P →
      M.Sat m s (fun a s' => R a s' ∧ q) P := fun m s R P q hq hm => M.sat_mono hm (fun _ _ h => ⟨h, hq⟩) fun _ h => h
  simp only [OP.tick, M.sat_bind, M.sat_get, M.sat_upd, M.sat_whenDo, OP.sat_onSP, OP.election_timeout]
  unfold OP.elects at h ⊢
  by_cases he : op.election_clock.tick_and_check_timeout.1 = true
  · rw [if_pos he] at h ⊢
    refine ⟨fun _ => ?_, fun hc => absurd he hc⟩
    cases hb : (op.ble.hb_timeout op.sp.role op.sp.phase op.sp.get_promise).1 with
    | none =>
      rw [hb] at h
      have h := hkeep _ _ _ _ _ (rfl : (op.ble.hb_timeout op.sp.role op.sp.phase op.sp.get_promise).2 = _) h
      simp only [SP.ticked, M.sat_bind, M.sat_pure, M.sat_whenDo] at h ⊢
      exact h
    | some b =>
      rw [hb] at h
      have h := hkeep _ _ _ _ _ (rfl : (op.ble.hb_timeout op.sp.role op.sp.phase op.sp.get_promise).2 = _) h
      simp only [SP.ticked, M.sat_bind, M.sat_pure, M.sat_whenDo, OP.sat_onSP] at h ⊢
      exact h
  · rw [if_neg he] at h ⊢
    refine ⟨fun hc => absurd hc he, fun _ => ?_⟩
    have h := hkeep _ _ _ _ _ (rfl : op.ble = _) h
    simp only [SP.ticked, M.sat_bind, M.sat_pure, M.sat_whenDo] at h ⊢
    exact h

variable [SnapOps E S] {c c' c'' : Cluster E S} {a : Action E S} {i : NodeId}

/-- How the stages advance. -/
structure Adv (cc : ClusterConfig) (n : Ballot) (c : Cluster E S) (a : Action E S) (ρ ρ' : NodeId → Nat) : Prop where
  mono : ∀ f ∈ cc.nodes, f ≠ n.pid → ρ f ≤ ρ' f
  takeL : a = .take n.pid → ∀ f ∈ cc.nodes, f ≠ n.pid → (ρ f = 1 → 2 ≤ ρ' f) ∧ (ρ f = 6 → 7 ≤ ρ' f)
  takeF : ∀ f ∈ cc.nodes, f ≠ n.pid → a = .take f → ρ f = 3 → 4 ≤ ρ' f
  down : ∀ f ∈ cc.nodes, f ≠ n.pid → ∀ m, c.dv a = some (n.pid, f, m) → (ρ f = 2 → 3 ≤ ρ' f) ∧ (ρ f = 7 → 8 ≤ ρ' f)
  up : ∀ f ∈ cc.nodes, f ≠ n.pid → ∀ m, c.dv a = some (f, n.pid, m) → ρ f = 4 → 5 ≤ ρ' f
  fire : a = .call n.pid .tick → c.Fires n.pid → ∀ f ∈ cc.nodes, f ≠ n.pid → 1 ≤ ρ' f

/-- What has to hold at a tick of server `i`: its election timeout has the right result, and its resend timeout does not come too early. -/
structure Timely (cc : ClusterConfig) (n : Ballot) (ρ : NodeId → Nat) (i : NodeId) (op : OP E S) : Prop where
  elects : op.clearTrail.elects.1 = if op.election_clock.tick_and_check_timeout.1 = true ∧ i = n.pid then some n else none
  resends : op.resend_message_clock.tick_and_check_timeout.1 = true → ∀ f ∈ cc.nodes, f ≠ n.pid → 8 ≤ ρ f

/-- One action. -/
theorem Cluster.Starting.step (hu : SnapOps.use_snapshots E S = false) (h : c.Starting cc n A ρ) (hv : cc.validate = .ok ()) (hnd : cc.nodes.Nodup)
    (hn : n.pid ∈ cc.nodes) (ha : a.Calm cc) (hs : c.step cc a = some c') (ht : ∀ i op, a = .call i .tick → c.servers i = .up op → Timely cc n ρ i op) :
    ∃ ρ', c'.Starting cc n (A ++ a.entry?.toList) ρ' ∧ Adv cc n c a ρ ρ' := by
  obtain ⟨sv, h1, h2⟩ := h
  cases a with
  | call i call =>
    have hi : i ∈ cc.nodes := by cases call <;> first | exact ha | exact ha.elim
    obtain ⟨op, e1, e2⟩ := h1 i hi
    have h3 := h2.clear hnd hi
    rw [← e2, ← OP.clearTrail_sp] at h3
    simp only [Cluster.step, e1] at hs
    cases call with
    | append e =>
      simp only [Call.isIncoming, Bool.false_eq_true, if_false, Option.some.injEq] at hs
      subst hs
      have h4 := h3.append hv hnd hi e
      rw [upd_self] at h4
      rcases callResult_sat (op := op) (call := .append e) (Q := fun o => Starts cc n (A ++ [e]) ρ (upd sv i o.sp) c.px) (P := fun _ => False)
        (by
          simp only [Call.run, OP.append, M.sat_bind, OP.sat_onSP, M.sat_pure]
          refine M.sat_mono h4 (fun _ s' hs => ?_) fun _ h => h
          rwa [upd_upd] at hs) with ⟨o, e3, e4⟩ | ⟨o, _, e4⟩
      · rw [e3]
        exact ⟨ρ, ⟨_, servers_upd h1, e4⟩, fun _ _ _ => Nat.le_refl _, nofun, nofun, nofun, nofun, nofun⟩
      · exact e4.elim
    | tick =>
      simp only [Call.isIncoming, Bool.false_eq_true, if_false, Option.some.injEq] at hs
      subst hs
      have hT := ht i op rfl e1
      have hb : op.clearTrail.elects.1 = none ∨ (i = n.pid ∧ op.clearTrail.elects.1 = some n) := by
        rw [hT.elects]
        split
        · rename_i h; exact .inr ⟨h.2, rfl⟩
        · exact .inl rfl
      rcases callResult_sat (op := op) (call := .tick)
        (Q := fun o => (∃ ρ', Starts cc n A ρ' (upd sv i o.sp) c.px ∧ (∀ f ∈ cc.nodes, f ≠ n.pid → ρ f ≤ ρ' f) ∧ (op.clearTrail.elects.1 = some n → ∀ f, 1 ≤ ρ' f)) ∧
          o.ble = op.clearTrail.elects.2) (P := fun _ => False)
        (by
          refine OP.tick_all (Q := fun s => ∃ ρ', Starts cc n A ρ' (upd sv i s) c.px ∧ (∀ f ∈ cc.nodes, f ≠ n.pid → ρ f ≤ ρ' f) ∧ (op.clearTrail.elects.1 = some n → ∀ f, 1 ≤ ρ' f))
            (P := fun _ => False) fun w _ => ?_
          have h4 := h3.ticked hv hnd hn hi hb (op.clearTrail.resend_message_clock.tick_and_check_timeout.1 = true) w hT.resends
          rw [upd_self] at h4
          refine M.sat_mono h4 (fun _ s' hs => ?_) fun _ h => h
          rwa [upd_upd] at hs) with ⟨o, e3, ⟨ρ', e4, e5, e6⟩, _⟩ | ⟨o, e3, e4⟩
      · rw [e3]
        simp only [Action.entry?, Option.toList_none, List.append_nil]
        refine ⟨ρ', ⟨_, servers_upd h1, e4⟩, e5, nofun, nofun, nofun, nofun, fun hx hf f _ _ => ?_⟩
        cases hx
        obtain ⟨o', u, hf⟩ := hf
        rw [e1] at u
        cases u
        exact e6 (by rw [hT.elects, if_pos ⟨hf, rfl⟩]) f
      · exact e4.elim
    | setPriority p =>
      simp only [Call.isIncoming, Bool.false_eq_true, if_false, Option.some.injEq] at hs
      subst hs
      simp only [Action.entry?, Option.toList_none, List.append_nil]
      refine ⟨ρ, ⟨upd sv i op.clearTrail.sp, ?_, h3⟩, fun _ _ _ => Nat.le_refl _, nofun, nofun, nofun, nofun, nofun⟩
      exact servers_upd (op := { op.clearTrail with ble := op.clearTrail.ble.set_priority p }) h1
    | _ => exact ha.elim
  | take i =>
    obtain ⟨op, e1, e2⟩ := h1 i ha
    simp only [Cluster.step, e1, Option.some.injEq] at hs
    have hc : c' = c.taken i op := hs.symm
    subst hc
    obtain ⟨ρ', h3, h4, h5, h6⟩ := h2.take hnd ha ([] : List (Message E S))
    refine ⟨ρ', ⟨upd sv i ((sv i).take_outgoing_msgs []).2, fun j hj => ?_, ?_⟩, fun f _ _ => h4 f, fun hx f _ _ => ?_, fun f _ hfn hx => ?_, nofun, nofun, nofun⟩
    · by_cases e : j = i
      · subst e
        exact ⟨_, Cluster.taken_self .., by rw [upd_self, ← e2]; rfl⟩
      · rw [Cluster.taken_other e, upd_other e]
        exact h1 j hj
    · rw [Cluster.px_taken e2]
      simpa only [Action.entry?, Option.toList_none, List.append_nil] using h3
    · cases hx
      exact h5 rfl f
    · cases hx
      exact h6 hfn
  | deliver i j =>
    obtain ⟨hi, hj⟩ := ha
    simp only [Cluster.step] at hs
    cases hl : c.net i j with
    | nil => rw [hl] at hs; cases hs
    | cons m rest =>
      obtain ⟨op, e1, e2⟩ := h1 j hj
      rw [hl] at hs
      simp only [e1, Option.some.injEq] at hs
      subst hs
      have h3 := h2.clear hnd hj
      rw [← e2, ← OP.clearTrail_sp] at h3
      simp only [Action.entry?, Option.toList_none, List.append_nil]
      cases m with
      | ble b =>
        have hd : c.dv (.deliver i j) = none := by simp only [Cluster.dv, hl]
        refine ⟨ρ, ⟨upd sv j op.clearTrail.sp, servers_upd (c := c.setNet i j rest) (op := { op.clearTrail with ble := op.clearTrail.ble.handle b }) h1, ?_⟩,
          fun _ _ _ => Nat.le_refl _, nofun, nofun, fun f _ _ m hm => ?_, fun f _ _ m hm => ?_, nofun⟩
        · show Starts _ _ _ _ _ (c.setNet i j rest).px
          have hx : rest.filterMap Message.paxos? = c.px i j := by simp only [Cluster.px, hl, List.filterMap_cons, Message.paxos?]
          rw [Cluster.px_setNet, hx, updL_same]
          exact h3
        · rw [hd] at hm; cases hm
        · rw [hd] at hm; cases hm
      | paxos m =>
        have hx : c.px i j = m :: rest.filterMap Message.paxos? := by simp only [Cluster.px, hl, List.filterMap_cons, Message.paxos?]
        have hd : c.dv (.deliver i j) = some (i, j, m.msg) := by simp only [Cluster.dv, hl]
        have h4 := h3.deliver hu hv hnd hi hj hx
        rw [upd_self] at h4
        rcases callResult_sat (op := op) (call := .handleIncoming (.paxos m)) (Q := fun o => ∃ ρ', Starts cc n A ρ' (upd sv j o.sp) (c.setNet i j rest).px ∧ (∀ f, ρ f ≤ ρ' f) ∧
            (i = n.pid → (ρ j = 2 → 3 ≤ ρ' j) ∧ (ρ j = 7 → 8 ≤ ρ' j)) ∧ (j = n.pid → ρ i = 4 → 5 ≤ ρ' i)) (P := fun _ => False)
          (by
            simp only [Call.run, OP.handle_incoming, OP.sat_onSP]
            refine M.sat_mono h4 (fun _ s' hs => ?_) fun _ h => h
            rw [upd_upd] at hs
            rw [Cluster.px_setNet]
            exact hs) with ⟨o, e3, ρ', e4, e5, e6, e7⟩ | ⟨o, _, e4⟩
        · rw [e3]
          refine ⟨ρ', ⟨_, servers_upd (c := c.setNet i j rest) h1, e4⟩, fun f _ _ => e5 f, nofun, nofun, fun f _ _ x hm => ?_, fun f _ _ x hm => ?_, nofun⟩
          · rw [hd] at hm
            cases hm
            exact e6 rfl
          · rw [hd] at hm
            cases hm
            exact e7 rfl
        · exact e4.elim
  | _ => exact ha.elim

/-- A run with its stages. -/
inductive Course (cc : ClusterConfig) (n : Ballot) : Cluster E S → (NodeId → Nat) → List E → List (Action E S) → Cluster E S → (NodeId → Nat) → List E → Prop
  | nil {c : Cluster E S} {ρ : NodeId → Nat} {A : List E} (h : c.Starting cc n A ρ) : Course cc n c ρ A [] c ρ A
  | cons {c c1 c2 : Cluster E S} {ρ ρ1 ρ2 : NodeId → Nat} {A A2 : List E} {a : Action E S} {as : List (Action E S)} (h : c.Starting cc n A ρ) (ha : a.Calm cc)
      (hs : c.step cc a = some c1) (hm : Adv cc n c a ρ ρ1) (hp : Course cc n c1 ρ1 (A ++ a.entry?.toList) as c2 ρ2 A2) : Course cc n c ρ A (a :: as) c2 ρ2 A2

variable {as bs : List (Action E S)} {f : NodeId}

namespace Course

theorem start (h : Course cc n c ρ A as c' ρ' A') : c.Starting cc n A ρ := by cases h <;> assumption

theorem finish (h : Course cc n c ρ A as c' ρ' A') : c'.Starting cc n A' ρ' := by
  induction h with
  | nil h => exact h
  | cons _ _ _ _ _ ih => exact ih

theorem run (h : Course cc n c ρ A as c' ρ' A') : c.run cc as = some c' := by
  induction h with
  | nil => rfl
  | cons _ _ hs _ _ ih => simp only [Cluster.run, hs, ih]

theorem append (h : Course cc n c ρ A as c' ρ' A') (h' : Course cc n c' ρ' A' bs c'' ρ'' A'') : Course cc n c ρ A (as ++ bs) c'' ρ'' A'' := by
  induction h with
  | nil => exact h'
  | cons h ha hs hm _ ih => exact .cons h ha hs hm (ih h')

theorem split (h : Course cc n c ρ A (as ++ bs) c'' ρ'' A'') : ∃ c' ρ' A', Course cc n c ρ A as c' ρ' A' ∧ Course cc n c' ρ' A' bs c'' ρ'' A'' := by
  induction as generalizing c ρ A with
  | nil => exact ⟨c, ρ, A, .nil h.start, h⟩
  | cons a as ih =>
    cases h with
    | cons h ha hs hm hp =>
      obtain ⟨c1, ρ1, A1, h1, h2⟩ := ih hp
      exact ⟨c1, ρ1, A1, .cons h ha hs hm h1, h2⟩

theorem entries (h : Course cc n c ρ A as c' ρ' A') : A' = A ++ as.filterMap Action.entry? := by
  induction h with
  | nil => simp
  | @cons _ _ _ _ _ _ _ _ a as _ _ _ _ _ ih =>
    rw [ih]
    cases ha : a.entry? <;> simp [List.filterMap_cons, ha]

theorem mono (h : Course cc n c ρ A as c' ρ' A') (hf : f ∈ cc.nodes) (hfn : f ≠ n.pid) : ρ f ≤ ρ' f := by
  induction h with
  | nil => exact Nat.le_refl _
  | cons _ _ _ hm _ ih => exact Nat.le_trans (hm.mono f hf hfn) ih

/-- What one action of the run brings about. -/
theorem reach (h : Course cc n c ρ A as c' ρ' A') (hf : f ∈ cc.nodes) (hfn : f ≠ n.pid) {x : Nat} {b : Action E S} (hb : b ∈ as)
    (hx : ∀ {c : Cluster E S} {ρ ρ' : NodeId → Nat}, Adv cc n c b ρ ρ' → ρ f = x → x + 1 ≤ ρ' f) (h0 : x ≤ ρ f) : x + 1 ≤ ρ' f := by
  induction h with
  | nil => cases hb
  | @cons c c1 c2 ρ ρ1 ρ2 A A2 a as _ _ _ hm hp ih =>
    have h1 := hm.mono f hf hfn
    have h2 := hp.mono hf hfn
    by_cases e : x + 1 ≤ ρ1 f
    · omega
    · rcases List.mem_cons.1 hb with rfl | hb
      · exact absurd (hx hm (by omega)) e
      · exact ih hb (by omega)

/-- What the delivery of the first message on a link brings about. -/
theorem arrive (h : Course cc n c ρ A as c' ρ' A') (hf : f ∈ cc.nodes) (hfn : f ≠ n.pid) {x : Nat} {i j : NodeId}
    (hx : ∀ {c : Cluster E S} {ρ ρ' : NodeId → Nat} {a : Action E S} {m : PaxosMsg E S}, Adv cc n c a ρ ρ' → c.dv a = some (i, j, m) → ρ f = x → x + 1 ≤ ρ' f)
    (h0 : x ≤ ρ f) (hup : ρ f = x → c.upcoming i j as ≠ []) : x + 1 ≤ ρ' f := by
  induction h with
  | @nil c ρ A _ =>
    by_cases e : x + 1 ≤ ρ f
    · exact e
    · exact absurd (Cluster.upcoming_nil ..) (hup (by omega))
  | @cons c c1 c2 ρ ρ1 ρ2 A A2 a as _ ha hs hm hp ih =>
    have h1 := hm.mono f hf hfn
    have h2 := hp.mono hf hfn
    by_cases e : x + 1 ≤ ρ1 f
    · omega
    · rcases Cluster.upcoming_step as ha hs i j with ⟨p, e1, _, _⟩ | ⟨_, l, _, e2, _⟩
      · exact absurd (hx hm e1 (by omega)) e
      · refine ih (by omega) fun _ => ?_
        rw [e2]
        exact fun h => hup (by omega) (List.append_eq_nil_iff.1 h).1

/-- The beat in which `n.pid` has its first election timeout. -/
theorem fire (h : Course cc n c ρ A (as ++ .call n.pid .tick :: bs) c' ρ' A') (hf : f ∈ cc.nodes) (hfn : f ≠ n.pid)
    (hc : ∀ c1, c.run cc as = some c1 → c1.Fires n.pid) : 1 ≤ ρ' f := by
  obtain ⟨c1, ρ1, A1, h1, h2⟩ := h.split
  cases h2 with
  | cons _ _ _ hm hp => exact Nat.le_trans (hm.fire rfl (hc _ h1.run) f hf hfn) (hp.mono hf hfn)

end Course

end Omni
