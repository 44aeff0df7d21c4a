import Verif.Proof.Steady.Load
/-
Steady operation under load: what the invariant says about one state, and the links in one action.
-/
namespace Omni

variable {E S : Type} {n : Ballot} {k : Nat} {cc : ClusterConfig} {lg : NodeId → List E} {ci : NodeId → Nat} {A : List E}

/-- How many entries some messages bring. -/
def brings (l : List (PaxosMessage E S)) : Nat := (l.map fun m => m.msg.ents).sum

theorem brings_append (l l' : List (PaxosMessage E S)) : brings (l ++ l') = brings l + brings l' := by simp [brings]
theorem brings_cons (m : PaxosMessage E S) (l : List (PaxosMessage E S)) : brings (m :: l) = m.msg.ents + brings l := by simp [brings]

theorem Fed.step_ents {σ τ : Fed E} {m : PaxosMsg E S} (h : σ.step n k m = some τ) : τ.Y.length = σ.Y.length + m.ents ∧ τ.d ≤ max σ.d m.decd := by
  cases m <;> simp only [Fed.step] at h <;> first | cases h | skip
  all_goals
    split at h
    · simp only [Option.some.injEq] at h
      subst h
      simp only [PaxosMsg.ents, PaxosMsg.decd, List.length_append, Nat.add_zero]
      exact ⟨trivial, Nat.le_refl _⟩
    · cases h

theorem Fed.all_ents {ms : List (PaxosMsg E S)} {σ τ : Fed E} (h : σ.all n k ms = some τ) :
    τ.Y.length = σ.Y.length + (ms.map PaxosMsg.ents).sum ∧ ∀ P, P ≤ τ.d → P ≤ σ.d ∨ ∃ m ∈ ms, P ≤ m.decd := by
  induction ms generalizing σ with
  | nil => simp only [Fed.all, Option.some.injEq] at h; subst h; exact ⟨by simp, fun P h => .inl h⟩
  | cons m ms ih =>
    simp only [Fed.all] at h
    cases hs : σ.step n k m with
    | none => rw [hs] at h; cases h
    | some ρ =>
      rw [hs] at h
      have h1 := Fed.step_ents hs
      obtain ⟨h2, h3⟩ := ih h
      refine ⟨by simp only [List.map_cons, List.sum_cons]; omega, fun P hP => ?_⟩
      rcases h3 P hP with h4 | ⟨x, h4, h5⟩
      · have := Nat.le_trans h4 h1.2
        by_cases hm : P ≤ m.decd
        · exact .inr ⟨m, List.mem_cons_self, hm⟩
        · exact .inl (by omega)
      · exact .inr ⟨x, List.mem_cons_of_mem _ h4, h5⟩

/-- A state. -/
structure Facts (cc : ClusterConfig) (n : Ballot) (k : Nat) (lg : NodeId → List E) (A : List E) (o : NodeId → Obs E S)
    (lk : NodeId → NodeId → List (PaxosMessage E S)) : Prop where
  down : ∀ f ∈ cc.nodes, f ≠ n.pid → (o n.pid).acc = (o f).rcv + brings (lk n.pid f) + brings ((o n.pid).out.filter fun m => decide (m.dst = f))
  dec : ∀ f ∈ cc.nodes, f ≠ n.pid → ∀ P, P ≤ (o n.pid).dec → P ≤ (o f).dec ∨ (∃ m ∈ lk n.pid f, P ≤ m.msg.decd) ∨ ∃ m ∈ (o n.pid).out, P ≤ m.msg.decd
  up : ∀ f ∈ cc.nodes, f ≠ n.pid → ∃ al, slot (o n.pid).recs f = some al ∧ lastAcc al ((lk f n.pid).map (·.msg) ++ (o f).out.map (·.msg)) = (o f).acc
  lead : ∃ X, (o n.pid).log = lg n.pid ++ X ∧ (o n.pid).acc = k + X.length ∧ (o n.pid).dec ≤ (o n.pid).acc ∧
    (∀ P : E → Bool, A.countP P = (X ++ (o n.pid).bat).countP P + ((SP.peersOf cc.nodes n.pid).map fun f => (waiting n o lk f).countP P).sum) ∧
    ∀ f ∈ cc.nodes, f ≠ n.pid → ∃ Xf, (o f).log = lg f ++ Xf ∧ (o f).acc = k + Xf.length ∧ (o f).dec ≤ (o f).acc ∧ Xf <+: X

theorem Facts.congr {o o1 : NodeId → Obs E S} {lk : NodeId → NodeId → List (PaxosMessage E S)} (h : Facts cc n k lg A o lk) (hn : n.pid ∈ cc.nodes)
    (h1 : ∀ i ∈ cc.nodes, o1 i = o i) : Facts cc n k lg A o1 lk := by
  refine ⟨fun f hf hfn => ?_, fun f hf hfn => ?_, fun f hf hfn => ?_, ?_⟩
  · rw [h1 _ hn, h1 f hf]; exact h.down f hf hfn
  · rw [h1 _ hn, h1 f hf]; exact h.dec f hf hfn
  · rw [h1 _ hn, h1 f hf]; exact h.up f hf hfn
  · obtain ⟨X, e1, e2, e3, e4, e5⟩ := h.lead
    rw [h1 _ hn]
    refine ⟨X, e1, e2, e3, fun P => ?_, fun f hf hfn => ?_⟩
    · rw [e4 P]
      congr 2
      refine List.map_congr_left fun f hf => ?_
      simp only [waiting, h1 f (mem_peers.1 hf).1]
    · rw [h1 f hf]; exact e5 f hf hfn

theorem Cluster.Flows.facts [SnapOps E S] {c : Cluster E S} (h : c.Flows cc n k lg ci A) (hn : n.pid ∈ cc.nodes) : Facts cc n k lg A c.obs c.px := by
  obtain ⟨sv, h1, X, B, d, h2, h3⟩ := h
  have hobs : ∀ i ∈ cc.nodes, c.obs i = (sv i).obs := fun i hi => by
    obtain ⟨op, e1, e2⟩ := h1 i hi
    simp only [Cluster.obs, e1, e2]
  refine Facts.congr (o := fun i => (sv i).obs) ?_ hn hobs
  have hi := h2.lead.ist
  refine ⟨fun f hf hfn => ?_, fun f hf hfn P hP => ?_, fun f hf hfn => ?_, X, hi.log, hi.acc, ?_, fun P => ?_, fun f hf hfn => ?_⟩
  · obtain ⟨Xf, Bf, σ, a, out, q, al, ms, hl⟩ := h2.fol f hf hfn
    have h4 := (Fed.all_ents hl.down).1
    have h5 := hl.fol.ist
    have h6 := congrArg List.length hl.fol.fed
    rw [hl.keeps.outs] at h4
    simp only [List.length_append, List.map_append, List.sum_append, List.map_map] at h4 h6
    simp only [SP.obs, Obs.rcv, hi.acc, h5.acc, h5.batch, brings]
    have e1 : ((c.px n.pid f).map (PaxosMsg.ents ∘ fun x => x.msg)).sum = ((c.px n.pid f).map fun m => m.msg.ents).sum := rfl
    have e2 : (((sv n.pid).outgoing.filter fun m => decide (m.dst = f)).map (PaxosMsg.ents ∘ fun x => x.msg)).sum =
      (((sv n.pid).outgoing.filter fun m => decide (m.dst = f)).map fun m => m.msg.ents).sum := rfl
    rw [e1, e2] at h4
    omega
  · obtain ⟨Xf, Bf, σ, a, out, q, al, ms, hl⟩ := h2.fol f hf hfn
    have h4 := (Fed.all_ents hl.down).2 P (by simpa only [SP.obs, hi.dec] using hP)
    rcases h4 with h4 | ⟨m, h4, h5⟩
    · left
      simp only [SP.obs, hl.fol.ist.dec]
      exact h4
    · right
      rcases List.mem_append.1 h4 with h4 | h4
      · obtain ⟨m0, h6, rfl⟩ := List.mem_map.1 h4
        exact .inl ⟨m0, h6, h5⟩
      · rw [hl.keeps.outs] at h4
        obtain ⟨m0, h6, rfl⟩ := List.mem_map.1 h4
        exact .inr ⟨m0, (List.mem_filter.1 h6).1, h5⟩
  · obtain ⟨Xf, Bf, σ, a, out, q, al, ms, hl⟩ := h2.fol f hf hfn
    refine ⟨al, hl.keeps.acc, ?_⟩
    have := hl.up
    rw [hl.fol.outs] at this
    simp only [SP.obs, hl.fol.ist.acc]
    rw [this]
    exact hl.fol.accd
  · simp only [SP.obs, hi.acc, hi.dec]
    exact h2.lead.dec
  · have := h3 P
    simp only [SP.obs, hi.batch]
    exact this
  · obtain ⟨Xf, Bf, σ, a, out, q, al, ms, hl⟩ := h2.fol f hf hfn
    have h5 := hl.fol.ist
    refine ⟨Xf, h5.log, h5.acc, ?_, ?_⟩
    · simp only [SP.obs, h5.acc, h5.dec]
      have := hl.fol.dec
      have := hl.fol.accd
      omega
    · have h6 := (Fed.all_grows hl.down).1
      rw [hl.fol.fed] at h6
      exact (List.prefix_append _ _).trans h6

/-- The messages of a link that the deliveries in `as` reach, and the others. -/
def Cluster.upcoming (c : Cluster E S) (i j : NodeId) (as : List (Action E S)) : List (PaxosMessage E S) :=
  ((c.net i j).take (as.countP (Action.isDelivery i j))).filterMap Message.paxos?

def Cluster.later (c : Cluster E S) (i j : NodeId) (as : List (Action E S)) : List (PaxosMessage E S) :=
  ((c.net i j).drop (as.countP (Action.isDelivery i j))).filterMap Message.paxos?

theorem Cluster.upcoming_nil (c : Cluster E S) (i j : NodeId) : c.upcoming i j [] = [] := by simp [Cluster.upcoming]
theorem Cluster.later_nil (c : Cluster E S) (i j : NodeId) : c.later i j [] = c.px i j := by simp [Cluster.later, Cluster.px]

theorem Cluster.Turns.reach {c : Cluster E S} {as : List (Action E S)} (h : c.Turns cc as) {i j : NodeId} (hi : i ∈ cc.nodes) (hj : j ∈ cc.nodes) :
    c.upcoming i j as = c.px i j ∧ c.later i j as = [] := by
  have := h.delivered i hi j hj
  simp only [Cluster.upcoming, Cluster.later, Cluster.px]
  rw [List.take_of_length_le this, List.drop_of_length_le this]
  exact ⟨rfl, rfl⟩

theorem Cluster.dv_step [SnapOps E S] {c c' : Cluster E S} {a : Action E S} (ha : a.Calm cc) (hs : c.step cc a = some c') (i j : NodeId) :
    (a.isDelivery i j = true ∧ ∃ m, c.net i j = m :: c'.net i j ∧ c.dv a = m.paxos?.map fun p => (i, j, p.msg)) ∨
    (a.isDelivery i j = false ∧ (∀ m, c.dv a ≠ some (i, j, m)) ∧ ∃ l, c'.net i j = c.net i j ++ l ∧ ∀ m, .paxos m ∈ l → m ∈ c.out i) := by
  rcases Cluster.net_step ha hs i j with ⟨h1, m, h2⟩ | ⟨h1, l, h2, h3⟩
  · refine .inl ⟨h1, m, h2, ?_⟩
    cases a with
    | deliver x y =>
      simp only [Action.isDelivery, Bool.and_eq_true, beq_iff_eq] at h1
      obtain ⟨rfl, rfl⟩ := h1
      simp only [Cluster.dv, h2]
      cases m <;> rfl
    | _ => cases h1
  · refine .inr ⟨h1, fun m hm => ?_, l, h2, h3⟩
    cases a with
    | deliver x y =>
      simp only [Cluster.dv] at hm
      split at hm
      · cases hm
        simp [Action.isDelivery] at h1
      · cases hm
    | _ => cases hm

theorem Cluster.px_step [SnapOps E S] {c c' : Cluster E S} {a : Action E S} (ha : a.Calm cc) (hs : c.step cc a = some c') (i j : NodeId) :
    (∃ p, c.dv a = some (i, j, p.msg) ∧ c.px i j = p :: c'.px i j) ∨
    ((∀ m, c.dv a ≠ some (i, j, m)) ∧ ∃ l, c'.px i j = c.px i j ++ l ∧ ∀ m ∈ l, m ∈ c.out i) := by
  rcases Cluster.dv_step ha hs i j with ⟨_, m, h2, h3⟩ | ⟨_, h2, l, h3, h4⟩
  · cases m with
    | ble b =>
      right
      rw [h3]
      refine ⟨by simp [Message.paxos?], [], ?_, nofun⟩
      simp only [Cluster.px, h2, List.filterMap_cons, Message.paxos?, List.append_nil]
    | paxos p =>
      left
      refine ⟨p, by rw [h3]; rfl, ?_⟩
      simp [Cluster.px, h2, Message.paxos?]
  · right
    refine ⟨h2, l.filterMap Message.paxos?, by simp [Cluster.px, h3], fun m hm => ?_⟩
    obtain ⟨x, hx, hm⟩ := List.mem_filterMap.1 hm
    cases x with
    | ble b => cases hm
    | paxos p => cases hm; exact h4 _ hx

theorem Cluster.upcoming_step [SnapOps E S] {c c' : Cluster E S} {a : Action E S} (as : List (Action E S)) (ha : a.Calm cc) (hs : c.step cc a = some c') (i j : NodeId) :
    (∃ p, c.dv a = some (i, j, p.msg) ∧ c.upcoming i j (a :: as) = p :: c'.upcoming i j as ∧ c'.later i j as = c.later i j (a :: as)) ∨
    ((∀ m, c.dv a ≠ some (i, j, m)) ∧ ∃ l l', c'.upcoming i j as = c.upcoming i j (a :: as) ++ l ∧ c'.later i j as = c.later i j (a :: as) ++ l' ∧
      ∀ m, m ∈ l ∨ m ∈ l' → m ∈ c.out i) := by
  rcases Cluster.dv_step ha hs i j with ⟨h1, m, h2, h3⟩ | ⟨h1, h2, l, h3, h4⟩
  · have hc : (a :: as).countP (Action.isDelivery i j) = as.countP (Action.isDelivery i j) + 1 := by rw [List.countP_cons, if_pos h1]
    cases m with
    | ble b =>
      right
      rw [h3]
      refine ⟨by simp [Message.paxos?], [], [], ?_, ?_, by simp⟩
      · simp only [Cluster.upcoming, h2, hc, List.take_succ_cons, List.filterMap_cons, Message.paxos?, List.append_nil]
      · simp [Cluster.later, h2, hc]
    | paxos p =>
      left
      refine ⟨p, by rw [h3]; rfl, ?_, ?_⟩
      · simp [Cluster.upcoming, h2, hc, Message.paxos?]
      · simp [Cluster.later, h2, hc]
  · have hc : (a :: as).countP (Action.isDelivery i j) = as.countP (Action.isDelivery i j) := by rw [List.countP_cons, if_neg (by simp [h1])]; rfl
    right
    refine ⟨h2, (l.take (as.countP (Action.isDelivery i j) - (c.net i j).length)).filterMap Message.paxos?,
      (l.drop (as.countP (Action.isDelivery i j) - (c.net i j).length)).filterMap Message.paxos?, ?_, ?_, fun m hm => ?_⟩
    · simp [Cluster.upcoming, h3, hc, List.take_append]
    · simp [Cluster.later, h3, hc, List.drop_append]
    · have : m ∈ l.filterMap Message.paxos? := by
        rw [← List.take_append_drop (as.countP (Action.isDelivery i j) - (c.net i j).length) l, List.filterMap_append, List.mem_append]
        exact hm
      obtain ⟨x, hx, hm⟩ := List.mem_filterMap.1 this
      cases x with
      | ble b => cases hm
      | paxos p => cases hm; exact h4 _ hx

/-- What holds of a state and the actions to come, if every action preserves it, holds in the end. -/
theorem Cluster.Flows.carry [SnapOps E S] {c c' : Cluster E S} {as : List (Action E S)} (h : c.Flows cc n k lg ci A) (hv : cc.validate = .ok ())
    (hnd : cc.nodes.Nodup) (hst : c.Steady cc n as) (hr : c.run cc as = some c') {W : Cluster E S → List (Action E S) → Prop}
    (hW : ∀ c c' A a as, c.Flows cc n k lg ci A → c'.Flows cc n k lg ci (A ++ a.entry?.toList) → a.Calm cc → c.step cc a = some c' →
      (∀ i, a = .call i .tick → c'.LedBy cc n) → W c (a :: as) → W c' as) (hw : W c as) : W c' [] := by
  induction as generalizing c A with
  | nil =>
    simp only [Cluster.run, Option.some.injEq] at hr
    subst hr
    exact hw
  | cons a as ih =>
    simp only [Cluster.run] at hr
    cases hs : c.step cc a with
    | none => rw [hs] at hr; cases hr
    | some c1 =>
      rw [hs] at hr
      have ha := hst.calm a List.mem_cons_self
      have ht : ∀ i, a = .call i .tick → c1.LedBy cc n := fun i hi => hst.elected i 0 c1 (by rw [hi]; rfl) (by simp [Cluster.run, hs])
      have h1 := h.step hv hnd ha hs ht
      exact ih h1 ⟨fun b hb => hst.calm b (List.mem_cons_of_mem _ hb), fun i j c2 hj hr2 =>
        hst.elected i (j + 1) c2 (by simpa using hj) (by simpa [Cluster.run, hs] using hr2)⟩ hr (hW c c1 A a as h h1 ha hs ht hw)

end Omni
