import Verif.Proof.Steady.Facts
/-
Steady operation under load: how far everything has come after each round.
-/
namespace Omni

variable {E S : Type} {n : Ballot} {k : Nat} {cc : ClusterConfig} {lg : NodeId → List E} {ci : NodeId → Nat} {A : List E}

theorem take_countP_le {w w' : List E} (h : w <+: w') (u : Nat) (p : E → Bool) : (w.take u).countP p ≤ (w'.take u).countP p := by
  obtain ⟨z, rfl⟩ := h
  rw [List.take_append, List.countP_append]
  omega

theorem sum_le_change {l : List NodeId} (hn : l.Nodup) {F G : NodeId → Nat} {f : NodeId} {y : Nat} (h : ∀ g ∈ l, g ≠ f → F g ≤ G g)
    (he : f ∈ l → F f ≤ G f + y) : (l.map F).sum ≤ (l.map G).sum + y := by
  induction l with
  | nil => simp
  | cons g l ih =>
    have hnd := List.nodup_cons.1 hn
    simp only [List.map_cons, List.sum_cons]
    by_cases hg : g = f
    · subst hg
      have : (l.map F).sum ≤ (l.map G).sum := by
        have := fun (z : NodeId) (hz : z ∈ l) => h z (List.mem_cons_of_mem _ hz) fun e => hnd.1 (e ▸ hz)
        clear h he ih hn hnd
        induction l with
        | nil => simp
        | cons a l ih =>
          have h1 := this a List.mem_cons_self
          have h2 := ih fun z hz => this z (List.mem_cons_of_mem _ hz)
          simp only [List.map_cons, List.sum_cons]
          omega
      have := he List.mem_cons_self
      omega
    · have h1 := ih hnd.2 (fun z hz => h z (List.mem_cons_of_mem _ hz)) fun hf => he (List.mem_cons_of_mem _ hf)
      have h2 := h g List.mem_cons_self hg
      omega

/-- The entries `M` are, apart from `lg`, at the leader or among the first `u f` entries that `f` has forwarded. -/
def Reach (cc : ClusterConfig) (n : Ballot) (lg M : List E) (u : NodeId → Nat) (o : NodeId → Obs E S) (lk : NodeId → NodeId → List (PaxosMessage E S)) : Prop :=
  ∀ p : E → Bool, lg.countP p + M.countP p ≤ (o n.pid).all.countP p +
    ((SP.peersOf cc.nodes n.pid).map fun f => ((waiting n o lk f).take (u f)).countP p).sum

/-- How many of the first `u f` entries are still waiting after an action. -/
def left (n : Ballot) (dv : Option (NodeId × NodeId × PaxosMsg E S)) (u : NodeId → Nat) (f : NodeId) : Nat := match dv with
  | some (i, j, m) => if i = f ∧ j = n.pid then u f - m.forwards.length else u f
  | none => u f

theorem left_same {dv : Option (NodeId × NodeId × PaxosMsg E S)} {u : NodeId → Nat} {f : NodeId} (h : ∀ m, dv ≠ some (f, n.pid, m)) : left n dv u f = u f := by
  unfold left
  split
  · split
    · rename_i i j m hc; exact absurd (by rw [hc.1, hc.2]) (h m)
    · rfl
  · rfl

theorem left_less {m : PaxosMsg E S} {u : NodeId → Nat} {f : NodeId} : left n (some (f, n.pid, m)) u f = u f - m.forwards.length := by
  simp [left]

theorem Moves.reach {o o' : NodeId → Obs E S} {lk lk' : NodeId → NodeId → List (PaxosMessage E S)} {dv : Option (NodeId × NodeId × PaxosMsg E S)}
    (h : Moves cc n o lk dv o' lk') (hnd : cc.nodes.Nodup) {g M : List E} {u : NodeId → Nat} (hr : Reach cc n g M u o lk) : Reach cc n g M (left n dv u) o' lk' := by
  intro p
  have h0 := hr p
  have hsame : ∀ f ∈ SP.peersOf cc.nodes n.pid, (∀ m, dv ≠ some (f, n.pid, m)) →
      ((waiting n o lk f).take (u f)).countP p ≤ ((waiting n o' lk' f).take (left n dv u f)).countP p := by
    intro f hf hd
    rw [left_same hd]
    exact take_countP_le (h.more f (mem_peers.1 hf).1 (mem_peers.1 hf).2 hd) _ _
  by_cases hc : ∃ f m, dv = some (f, n.pid, m)
  · obtain ⟨f, m, rfl⟩ := hc
    have h1 := h.came f m rfl
    have h2 := sum_le_change (l := SP.peersOf cc.nodes n.pid) (hnd.filter _) (f := f) (y := m.forwards.countP p)
      (F := fun f => ((waiting n o lk f).take (u f)).countP p)
      (G := fun g => ((waiting n o' lk' g).take (left n (some (f, n.pid, m)) u g)).countP p)
      (fun g hg hgf => hsame g hg fun m' e => hgf (by cases e; rfl))
      (fun hf => by
        simp only [left_less]
        rw [h.less f (mem_peers.1 hf).1 (mem_peers.1 hf).2 m rfl, List.take_append, List.countP_append]
        have := (List.take_sublist (u f) m.forwards).countP_le (p := p)
        omega)
    rw [← h1, List.countP_append]
    omega
  · have h2 := sum_le_change (l := SP.peersOf cc.nodes n.pid) (hnd.filter _) (f := n.pid) (y := 0)
      (F := fun f => ((waiting n o lk f).take (u f)).countP p) (G := fun g => ((waiting n o' lk' g).take (left n dv u g)).countP p)
      (fun g hg _ => hsame g hg fun m' e => hc ⟨g, m', e⟩) (fun hf => absurd rfl (mem_peers.1 hf).2)
    have h3 := h.all.sublist.countP_le (p := p)
    omega

def fwdn (l : List (PaxosMessage E S)) : Nat := ((l.map (·.msg)).flatMap PaxosMsg.forwards).length

theorem fwdn_append (l l' : List (PaxosMessage E S)) : fwdn (l ++ l') = fwdn l + fwdn l' := by simp only [fwdn, List.map_append, List.flatMap_append, List.length_append]
theorem fwdn_cons (m : PaxosMessage E S) (l : List (PaxosMessage E S)) : fwdn (m :: l) = m.msg.forwards.length + fwdn l := by
  simp only [fwdn, List.map_cons, List.flatMap_cons, List.length_append]

theorem waiting_length {o : NodeId → Obs E S} {lk : NodeId → NodeId → List (PaxosMessage E S)} {f : NodeId} :
    (waiting n o lk f).length = fwdn (lk f n.pid) + fwdn (o f).out := by simp only [waiting, fwdn, List.length_append]

theorem Cluster.out_obs (c : Cluster E S) (i : NodeId) : (c.obs i).out = c.out i := by
  unfold Cluster.obs Cluster.out
  cases c.servers i <;> rfl

theorem Cluster.bat_obs (c : Cluster E S) (i : NodeId) : (c.obs i).bat = c.bat i := by
  unfold Cluster.obs Cluster.bat
  cases c.servers i <;> rfl

theorem Cluster.Turns.take_due {c : Cluster E S} {as : List (Action E S)} (h : c.Turns cc as) {i : NodeId} (hi : i ∈ cc.nodes) : c.out i = [] ∨ .take i ∈ as := by
  by_cases hc : c.out i = []
  · exact .inl hc
  · right
    cases hu : c.servers i with
    | down d => exact absurd (by simp only [Cluster.out, hu]) hc
    | up op =>
      simp only [Cluster.out, hu] at hc
      exact h.taken i hi op hu hc

theorem Cluster.Turns.flush_due {c : Cluster E S} {as : List (Action E S)} (h : c.Turns cc as) {i : NodeId} (hi : i ∈ cc.nodes) : c.bat i = [] ∨ c.FlushDue i as := by
  by_cases hc : c.bat i = []
  · exact .inl hc
  · right
    intro op hu
    simp only [Cluster.bat, hu] at hc
    exact h.flushed i hi op hu hc

theorem Cluster.Flows.flush_nil {c : Cluster E S} (h : c.Flows cc n k lg ci A) {i : NodeId} (hi : i ∈ cc.nodes) (hd : c.FlushDue i []) : False := by
  obtain ⟨op, ho⟩ := h.up hi
  have := hd op ho
  simp only [List.countP_nil] at this
  omega

section rounds

variable [SnapOps E S] {c c' : Cluster E S} {as : List (Action E S)} {M : List E} {P : Nat}

/-- The forwarded entries leave their servers. -/
theorem Cluster.Flows.round0 (h : c.Flows cc n k lg ci A) (hv : cc.validate = .ok ()) (hnd : cc.nodes.Nodup) (hn : n.pid ∈ cc.nodes)
    (hb : c.BusyRound cc n as c') : ∃ u, Reach cc n (lg n.pid) A u c'.obs c'.px ∧ ∀ f ∈ cc.nodes, f ≠ n.pid → u f ≤ fwdn (c'.px f n.pid) := by
  have := h.carry hv hnd hb.steady hb.run (W := fun c as => ∃ u, Reach cc n (lg n.pid) A u c.obs c.px ∧ ∀ f ∈ cc.nodes, f ≠ n.pid →
    u f ≤ fwdn (c.px f n.pid) + fwdn (c.out f) ∧ (u f ≤ fwdn (c.px f n.pid) ∨ .take f ∈ as)) ?_ ?_
  · obtain ⟨u, h1, h2⟩ := this
    exact ⟨u, h1, fun f hf hfn => (h2 f hf hfn).2.resolve_right (by simp)⟩
  · rintro c c' A' a as h h' ha hs ht ⟨u, h1, h2⟩
    have hm := h.moves hv hnd hn ha hs ht
    refine ⟨left n (c.dv a) u, hm.reach hnd h1, fun f hf hfn => ?_⟩
    obtain ⟨h3, h4⟩ := h2 f hf hfn
    rcases Cluster.px_step ha hs f n.pid with ⟨p, e1, e2⟩ | ⟨e1, l, e2, _⟩
    · have h5 := congrArg List.length (hm.less f hf hfn _ e1)
      rw [List.length_append, waiting_length, waiting_length, Cluster.out_obs, Cluster.out_obs] at h5
      rw [e1, left_less]
      rw [e2, fwdn_cons] at h3 h4 h5
      refine ⟨by omega, ?_⟩
      rcases h4 with h4 | h4
      · exact .inl (by omega)
      · rcases Cluster.out_due hs h4 with h6 | h6
        · left
          rw [h6] at h5
          have : fwdn ([] : List (PaxosMessage E S)) = 0 := rfl
          omega
        · exact .inr h6
    · have h5 := (hm.more f hf hfn e1).length_le
      rw [waiting_length, waiting_length, Cluster.out_obs, Cluster.out_obs] at h5
      rw [left_same e1]
      refine ⟨by omega, ?_⟩
      rcases h4 with h4 | h4
      · left
        rw [e2, fwdn_append]
        omega
      · rcases Cluster.out_due hs h4 with h6 | h6
        · left
          rw [h6] at h5
          have : fwdn ([] : List (PaxosMessage E S)) = 0 := rfl
          omega
        · exact .inr h6
  · obtain ⟨X, e1, _, _, e2, _⟩ := (h.facts hn).lead
    refine ⟨fun f => (waiting n c.obs c.px f).length, fun p => ?_, fun f hf hfn => ?_⟩
    · simp only [List.take_length, Obs.all, e1, List.countP_append]
      have := e2 p
      rw [List.countP_append] at this
      omega
    · simp only [waiting_length, Cluster.out_obs]
      refine ⟨Nat.le_refl _, ?_⟩
      rcases hb.turns.take_due hf with h6 | h6
      · left
        rw [h6]
        exact Nat.le_refl _
      · exact .inr h6

/-- They arrive. -/
theorem Cluster.Flows.round1 (h : c.Flows cc n k lg ci A) (hv : cc.validate = .ok ()) (hnd : cc.nodes.Nodup) (hn : n.pid ∈ cc.nodes)
    (hb : c.BusyRound cc n as c') {g : List E} (hr : ∃ u, Reach cc n g M u c.obs c.px ∧ ∀ f ∈ cc.nodes, f ≠ n.pid → u f ≤ fwdn (c.px f n.pid)) :
    ∀ p : E → Bool, g.countP p + M.countP p ≤ (c'.obs n.pid).all.countP p := by
  have := h.carry hv hnd hb.steady hb.run (W := fun c as => ∃ u, Reach cc n g M u c.obs c.px ∧ ∀ f ∈ cc.nodes, f ≠ n.pid →
    u f ≤ fwdn (c.upcoming f n.pid as)) ?_ ?_
  · obtain ⟨u, h1, h2⟩ := this
    intro p
    have h3 := h1 p
    have h4 : ((SP.peersOf cc.nodes n.pid).map fun f => ((waiting n c'.obs c'.px f).take (u f)).countP p) = (SP.peersOf cc.nodes n.pid).map fun _ => 0 := by
      refine List.map_congr_left fun f hf => ?_
      have := h2 f (mem_peers.1 hf).1 (mem_peers.1 hf).2
      rw [Cluster.upcoming_nil] at this
      have : u f = 0 := Nat.le_zero.1 this
      simp [this]
    rw [h4] at h3
    have h5 : ∀ l : List NodeId, (l.map fun _ => 0).sum = 0 := by
      intro l
      induction l with
      | nil => rfl
      | cons a l ih => simp only [List.map_cons, List.sum_cons, ih]
    rw [h5] at h3
    exact h3
  · rintro c c' A' a as h h' ha hs ht ⟨u, h1, h2⟩
    have hm := h.moves hv hnd hn ha hs ht
    refine ⟨left n (c.dv a) u, hm.reach hnd h1, fun f hf hfn => ?_⟩
    have h3 := h2 f hf hfn
    rcases Cluster.upcoming_step as ha hs f n.pid with ⟨p, e1, e2, _⟩ | ⟨e1, l, _, e2, _⟩
    · rw [e1, left_less]
      rw [e2, fwdn_cons] at h3
      omega
    · rw [left_same e1, e2, fwdn_append]
      omega
  · obtain ⟨u, h1, h2⟩ := hr
    refine ⟨u, h1, fun f hf hfn => ?_⟩
    rw [(hb.turns.reach hf hn).1]
    exact h2 f hf hfn

/-- The leader stores them. -/
theorem Cluster.Flows.round2 (h : c.Flows cc n k lg ci A) (hv : cc.validate = .ok ()) (hnd : cc.nodes.Nodup) (hn : n.pid ∈ cc.nodes)
    (hb : c.BusyRound cc n as c') {g : List E} (hr : ∀ p : E → Bool, g.countP p + M.countP p ≤ (c.obs n.pid).all.countP p) :
    ∀ p : E → Bool, g.countP p + M.countP p ≤ (c'.obs n.pid).log.countP p := by
  have key : ∀ {c : Cluster E S}, c.bat n.pid = [] → (∀ p : E → Bool, g.countP p + M.countP p ≤ (c.obs n.pid).all.countP p) →
      ∀ p : E → Bool, g.countP p + M.countP p ≤ (c.obs n.pid).log.countP p := by
    intro c e h p
    have := h p
    rwa [Obs.all, Cluster.bat_obs, e, List.append_nil] at this
  have hend := h.run hv hnd hb.steady hb.run
  have := h.carry hv hnd hb.steady hb.run (W := fun c as => (∀ p : E → Bool, g.countP p + M.countP p ≤ (c.obs n.pid).all.countP p) ∧
    ((∀ p : E → Bool, g.countP p + M.countP p ≤ (c.obs n.pid).log.countP p) ∨ c.FlushDue n.pid as)) ?_ ?_
  · exact this.2.resolve_right fun hd => hend.flush_nil hn hd
  · rintro c c' A' a as h h' ha hs ht ⟨h1, h2⟩
    have hm := h.moves hv hnd hn ha hs ht
    have h3 : ∀ p : E → Bool, g.countP p + M.countP p ≤ (c'.obs n.pid).all.countP p := fun p => Nat.le_trans (h1 p) hm.all.sublist.countP_le
    refine ⟨h3, ?_⟩
    rcases h2 with h2 | h2
    · exact .inl fun p => Nat.le_trans (h2 p) hm.log.sublist.countP_le
    · exact (h.flush_due ha hs ht hn h2).imp (fun e => key e h3) id
  · exact ⟨hr, (hb.turns.flush_due hn).imp (fun e => key e hr) id⟩

/-- The leader hands over what it has stored. -/
theorem Cluster.Flows.round3 (h : c.Flows cc n k lg ci A) (hv : cc.validate = .ok ()) (hnd : cc.nodes.Nodup) (hn : n.pid ∈ cc.nodes)
    (hb : c.BusyRound cc n as c') (hr : P ≤ (c.obs n.pid).acc) :
    ∀ f ∈ cc.nodes, f ≠ n.pid → P ≤ (c'.obs f).rcv + brings (c'.px n.pid f) := by
  have key : ∀ {c : Cluster E S} {A : List E}, c.Flows cc n k lg ci A → c.out n.pid = [] → P ≤ (c.obs n.pid).acc →
      ∀ f ∈ cc.nodes, f ≠ n.pid → P ≤ (c.obs f).rcv + brings (c.px n.pid f) := by
    intro c A h e hP f hf hfn
    have := (h.facts hn).down f hf hfn
    rw [Cluster.out_obs, e] at this
    simp only [List.filter_nil] at this
    have h0 : brings ([] : List (PaxosMessage E S)) = 0 := rfl
    omega
  have := h.carry hv hnd hb.steady hb.run (W := fun c as => P ≤ (c.obs n.pid).acc ∧
    ((∀ f ∈ cc.nodes, f ≠ n.pid → P ≤ (c.obs f).rcv + brings (c.px n.pid f)) ∨ .take n.pid ∈ as)) ?_ ?_
  · exact this.2.resolve_right (by simp)
  · rintro c c' A' a as h h' ha hs ht ⟨h1, h2⟩
    have hm := h.moves hv hnd hn ha hs ht
    have h3 := Nat.le_trans h1 (hm.acc _ hn)
    refine ⟨h3, ?_⟩
    rcases h2 with h2 | h2
    · left
      intro f hf hfn
      have h4 := h2 f hf hfn
      rcases Cluster.px_step ha hs n.pid f with ⟨p, e1, e2⟩ | ⟨e1, l, e2, _⟩
      · have := (hm.got f hf hfn _ e1).1
        rw [e2, brings_cons] at h4
        omega
      · have := hm.rcv f hf
        rw [e2, brings_append]
        omega
    · exact (Cluster.out_due hs h2).imp (fun e => key h' e h3) id
  · exact ⟨hr, (hb.turns.take_due hn).imp (fun e => key h e hr) id⟩

/-- The followers receive it. -/
theorem Cluster.Flows.round4 (h : c.Flows cc n k lg ci A) (hv : cc.validate = .ok ()) (hnd : cc.nodes.Nodup) (hn : n.pid ∈ cc.nodes)
    (hb : c.BusyRound cc n as c') (hr : ∀ f ∈ cc.nodes, f ≠ n.pid → P ≤ (c.obs f).rcv + brings (c.px n.pid f)) :
    ∀ f ∈ cc.nodes, f ≠ n.pid → P ≤ (c'.obs f).rcv := by
  have := h.carry hv hnd hb.steady hb.run (W := fun c as => ∀ f ∈ cc.nodes, f ≠ n.pid → P ≤ (c.obs f).rcv + brings (c.upcoming n.pid f as)) ?_ ?_
  · intro f hf hfn
    have := this f hf hfn
    rwa [Cluster.upcoming_nil] at this
  · rintro c c' A' a as h h' ha hs ht h1 f hf hfn
    have hm := h.moves hv hnd hn ha hs ht
    have h4 := h1 f hf hfn
    rcases Cluster.upcoming_step as ha hs n.pid f with ⟨p, e1, e2, _⟩ | ⟨e1, l, _, e2, _⟩
    · have := (hm.got f hf hfn _ e1).1
      rw [e2, brings_cons] at h4
      omega
    · have := hm.rcv f hf
      rw [e2, brings_append]
      omega
  · intro f hf hfn
    rw [(hb.turns.reach hn hf).1]
    exact hr f hf hfn

/-- They store it. -/
theorem Cluster.Flows.round5 (h : c.Flows cc n k lg ci A) (hv : cc.validate = .ok ()) (hnd : cc.nodes.Nodup) (hn : n.pid ∈ cc.nodes)
    (hb : c.BusyRound cc n as c') (hr : ∀ f ∈ cc.nodes, f ≠ n.pid → P ≤ (c.obs f).rcv) :
    ∀ f ∈ cc.nodes, f ≠ n.pid → P ≤ (c'.obs f).acc := by
  have key : ∀ {c : Cluster E S} {f : NodeId}, c.bat f = [] → P ≤ (c.obs f).rcv → P ≤ (c.obs f).acc := by
    intro c f e h
    rwa [Obs.rcv, Cluster.bat_obs, e, List.length_nil, Nat.add_zero] at h
  have hend := h.run hv hnd hb.steady hb.run
  have := h.carry hv hnd hb.steady hb.run (W := fun c as => ∀ f ∈ cc.nodes, f ≠ n.pid → P ≤ (c.obs f).rcv ∧ (P ≤ (c.obs f).acc ∨ c.FlushDue f as)) ?_ ?_
  · exact fun f hf hfn => (this f hf hfn).2.resolve_right fun hd => hend.flush_nil hf hd
  · rintro c c' A' a as h h' ha hs ht h1 f hf hfn
    have hm := h.moves hv hnd hn ha hs ht
    obtain ⟨h2, h3⟩ := h1 f hf hfn
    have h4 := Nat.le_trans h2 (hm.rcv f hf)
    refine ⟨h4, ?_⟩
    rcases h3 with h3 | h3
    · exact .inl (Nat.le_trans h3 (hm.acc f hf))
    · exact (h.flush_due ha hs ht hf h3).imp (fun e => key e h4) id
  · exact fun f hf hfn => ⟨hr f hf hfn, (hb.turns.flush_due hf).imp (fun e => key e (hr f hf hfn)) id⟩

theorem lastAcc_ge {l : List (PaxosMsg E S)} {v : Nat} (hv : P ≤ v) (hl : ∀ x, .accepted x ∈ l → P ≤ x.accepted_idx) : P ≤ lastAcc v l := by
  induction l generalizing v with
  | nil => exact hv
  | cons m l ih =>
    have hl' : ∀ x, .accepted x ∈ l → P ≤ x.accepted_idx := fun x hx => hl x (List.mem_cons_of_mem _ hx)
    cases m <;> simp only [lastAcc] <;> first | exact ih hv hl' | skip
    rename_i x
    exact ih (hl x List.mem_cons_self) hl'

/-- On arrival of the first messages of a link from `f`, the leader knows that `f` has accepted `P` entries; and nothing behind them says less. -/
def Says (n : Ballot) (P : Nat) (o : NodeId → Obs E S) (f : NodeId) (l r : List (PaxosMessage E S)) : Prop :=
  ∃ al, slot (o n.pid).recs f = some al ∧ P ≤ lastAcc al (l.map (·.msg)) ∧ (∀ x, .accepted x ∈ r.map (·.msg) → P ≤ x.accepted_idx) ∧
    ∀ x, .accepted x ∈ (o f).out.map (·.msg) → P ≤ x.accepted_idx

theorem Moves.says {o o' : NodeId → Obs E S} {lk lk' : NodeId → NodeId → List (PaxosMessage E S)} {dv : Option (NodeId × NodeId × PaxosMsg E S)}
    (h : Moves cc n o lk dv o' lk') {f : NodeId} (hf : f ∈ cc.nodes) (hfn : f ≠ n.pid) (hP : P ≤ (o' f).acc) {l r l' r' : List (PaxosMessage E S)}
    (hs : Says n P o f l r)
    (hd : (∃ p, dv = some (f, n.pid, p.msg) ∧ l = p :: l' ∧ r' = r) ∨
      ((∀ m, dv ≠ some (f, n.pid, m)) ∧ ∃ z z', l' = l ++ z ∧ r' = r ++ z' ∧ ∀ m, m ∈ z ∨ m ∈ z' → m ∈ (o f).out)) : Says n P o' f l' r' := by
  obtain ⟨al, h1, h2, h3, h4⟩ := hs
  have hout : ∀ x, .accepted x ∈ (o' f).out.map (·.msg) → P ≤ x.accepted_idx := by
    intro x hx
    rcases h.replied f hf hfn x hx with h5 | h5
    · exact h4 x h5
    · rw [h5]; exact hP
  rcases hd with ⟨p, rfl, rfl, rfl⟩ | ⟨hd, z, z', rfl, rfl, hz⟩
  · by_cases hx : ∃ x, p.msg = .accepted x
    · obtain ⟨x, hx⟩ := hx
      refine ⟨x.accepted_idx, (h.noted f hf hfn x (by rw [hx])).1, ?_, h3, hout⟩
      simpa only [List.map_cons, hx, lastAcc] using h2
    · refine ⟨al, ?_, ?_, h3, hout⟩
      · rw [h.kept f hf hfn fun x e => hx ⟨x, by simpa using e⟩]
        exact h1
      · rw [List.map_cons] at h2
        cases hm : p.msg <;> rw [hm] at h2 <;> simp only [lastAcc] at h2 <;> first | exact h2 | exact absurd ⟨_, hm⟩ hx
  · refine ⟨al, ?_, ?_, ?_, hout⟩
    · rw [h.kept f hf hfn fun x => hd _]
      exact h1
    · rw [List.map_append, lastAcc_append]
      refine lastAcc_ge h2 fun x hx => ?_
      obtain ⟨m, hm, e⟩ := List.mem_map.1 hx
      exact h4 x (by rw [← e]; exact List.mem_map_of_mem (hz m (.inl hm)))
    · intro x hx
      rw [List.map_append] at hx
      rcases List.mem_append.1 hx with hx | hx
      · exact h3 x hx
      · obtain ⟨m, hm, e⟩ := List.mem_map.1 hx
        exact h4 x (by rw [← e]; exact List.mem_map_of_mem (hz m (.inr hm)))

/-- They hand over that they have accepted it. -/
theorem Cluster.Flows.round6 (h : c.Flows cc n k lg ci A) (hv : cc.validate = .ok ()) (hnd : cc.nodes.Nodup) (hn : n.pid ∈ cc.nodes)
    (hb : c.BusyRound cc n as c') (hr : ∀ f ∈ cc.nodes, f ≠ n.pid → P ≤ (c.obs f).acc) :
    ∀ f ∈ cc.nodes, f ≠ n.pid → P ≤ (c'.obs f).acc ∧ Says n P c'.obs f (c'.px f n.pid) [] := by
  have key : ∀ {c : Cluster E S} {A : List E} {f : NodeId}, c.Flows cc n k lg ci A → f ∈ cc.nodes → f ≠ n.pid → c.out f = [] → P ≤ (c.obs f).acc →
      Says n P c.obs f (c.px f n.pid) [] := by
    intro c A f h hf hfn e hP
    obtain ⟨al, h1, h2⟩ := (h.facts hn).up f hf hfn
    rw [Cluster.out_obs, e, List.map_nil, List.append_nil] at h2
    refine ⟨al, h1, by rw [h2]; exact hP, nofun, fun x hx => ?_⟩
    rw [Cluster.out_obs, e] at hx
    cases hx
  have := h.carry hv hnd hb.steady hb.run (W := fun c as => ∀ f ∈ cc.nodes, f ≠ n.pid → P ≤ (c.obs f).acc ∧
    (Says n P c.obs f (c.px f n.pid) [] ∨ .take f ∈ as)) ?_ ?_
  · exact fun f hf hfn => ⟨(this f hf hfn).1, (this f hf hfn).2.resolve_right (by simp)⟩
  · rintro c c' A' a as h h' ha hs ht h1 f hf hfn
    have hm := h.moves hv hnd hn ha hs ht
    obtain ⟨h2, h3⟩ := h1 f hf hfn
    have h4 := Nat.le_trans h2 (hm.acc f hf)
    refine ⟨h4, ?_⟩
    rcases h3 with h3 | h3
    · left
      refine hm.says hf hfn h4 h3 ?_
      rcases Cluster.px_step ha hs f n.pid with ⟨p, e1, e2⟩ | ⟨e1, l, e2, e3⟩
      · exact .inl ⟨p, e1, e2, rfl⟩
      · exact .inr ⟨e1, l, [], e2, rfl, fun m hm => by
          rw [Cluster.out_obs]
          exact e3 m (hm.resolve_right (by simp))⟩
    · exact (Cluster.out_due hs h3).imp (fun e => key h' hf hfn e h4) id
  · exact fun f hf hfn => ⟨hr f hf hfn, (hb.turns.take_due hf).imp (fun e => key h hf hfn e (hr f hf hfn)) id⟩

/-- The leader knows it. -/
theorem Cluster.Flows.round7 (h : c.Flows cc n k lg ci A) (hv : cc.validate = .ok ()) (hnd : cc.nodes.Nodup) (hn : n.pid ∈ cc.nodes)
    (hb : c.BusyRound cc n as c') (hr : ∀ f ∈ cc.nodes, f ≠ n.pid → P ≤ (c.obs f).acc ∧ Says n P c.obs f (c.px f n.pid) []) :
    ∀ f ∈ cc.nodes, f ≠ n.pid → ∃ al, slot (c'.obs n.pid).recs f = some al ∧ P ≤ al := by
  have := h.carry hv hnd hb.steady hb.run (W := fun c as => ∀ f ∈ cc.nodes, f ≠ n.pid → P ≤ (c.obs f).acc ∧
    Says n P c.obs f (c.upcoming f n.pid as) (c.later f n.pid as)) ?_ ?_
  · intro f hf hfn
    obtain ⟨_, al, h1, h2, _⟩ := this f hf hfn
    rw [Cluster.upcoming_nil] at h2
    exact ⟨al, h1, h2⟩
  · rintro c c' A' a as h h' ha hs ht h1 f hf hfn
    have hm := h.moves hv hnd hn ha hs ht
    obtain ⟨h2, h3⟩ := h1 f hf hfn
    have h4 := Nat.le_trans h2 (hm.acc f hf)
    refine ⟨h4, hm.says hf hfn h4 h3 ?_⟩
    rcases Cluster.upcoming_step as ha hs f n.pid with h | ⟨e1, l, l', e2, e3, e4⟩
    · exact .inl h
    · exact .inr ⟨e1, l, l', e2, e3, fun m hm => by rw [Cluster.out_obs]; exact e4 m hm⟩
  · intro f hf hfn
    rw [(hb.turns.reach hf hn).1, (hb.turns.reach hf hn).2]
    exact hr f hf hfn

/-- The leader hands over what it has decided. -/
theorem Cluster.Flows.round8 (h : c.Flows cc n k lg ci A) (hv : cc.validate = .ok ()) (hnd : cc.nodes.Nodup) (hn : n.pid ∈ cc.nodes)
    (hb : c.BusyRound cc n as c') (hr : P ≤ (c.obs n.pid).dec) :
    ∀ f ∈ cc.nodes, f ≠ n.pid → P ≤ (c'.obs f).dec ∨ ∃ m ∈ c'.px n.pid f, P ≤ m.msg.decd := by
  have key : ∀ {c : Cluster E S} {A : List E}, c.Flows cc n k lg ci A → c.out n.pid = [] → P ≤ (c.obs n.pid).dec →
      ∀ f ∈ cc.nodes, f ≠ n.pid → P ≤ (c.obs f).dec ∨ ∃ m ∈ c.px n.pid f, P ≤ m.msg.decd := by
    intro c A h e hP f hf hfn
    have := (h.facts hn).dec f hf hfn P hP
    rw [Cluster.out_obs, e] at this
    simpa using this
  have := h.carry hv hnd hb.steady hb.run (W := fun c as => P ≤ (c.obs n.pid).dec ∧
    ((∀ f ∈ cc.nodes, f ≠ n.pid → P ≤ (c.obs f).dec ∨ ∃ m ∈ c.px n.pid f, P ≤ m.msg.decd) ∨ .take n.pid ∈ as)) ?_ ?_
  · exact this.2.resolve_right (by simp)
  · rintro c c' A' a as h h' ha hs ht ⟨h1, h2⟩
    have hm := h.moves hv hnd hn ha hs ht
    have h3 := Nat.le_trans h1 (hm.dec _ hn)
    refine ⟨h3, ?_⟩
    rcases h2 with h2 | h2
    · left
      intro f hf hfn
      have hf' := hm.dec f hf
      rcases h2 f hf hfn with h4 | ⟨m, h4, h5⟩
      · exact .inl (by omega)
      · rcases Cluster.px_step ha hs n.pid f with ⟨p, e1, e2⟩ | ⟨e1, l, e2, _⟩
        · have := (hm.got f hf hfn _ e1).2
          rw [e2] at h4
          rcases List.mem_cons.1 h4 with rfl | h4
          · exact .inl (by omega)
          · exact .inr ⟨m, h4, h5⟩
        · exact .inr ⟨m, by rw [e2]; exact List.mem_append_left _ h4, h5⟩
    · exact (Cluster.out_due hs h2).imp (fun e => key h' e h3) id
  · exact ⟨hr, (hb.turns.take_due hn).imp (fun e => key h e hr) id⟩

/-- The followers decide it. -/
theorem Cluster.Flows.round9 (h : c.Flows cc n k lg ci A) (hv : cc.validate = .ok ()) (hnd : cc.nodes.Nodup) (hn : n.pid ∈ cc.nodes)
    (hb : c.BusyRound cc n as c') (hr : ∀ f ∈ cc.nodes, f ≠ n.pid → P ≤ (c.obs f).dec ∨ ∃ m ∈ c.px n.pid f, P ≤ m.msg.decd) :
    ∀ f ∈ cc.nodes, f ≠ n.pid → P ≤ (c'.obs f).dec := by
  have := h.carry hv hnd hb.steady hb.run (W := fun c as => ∀ f ∈ cc.nodes, f ≠ n.pid → P ≤ (c.obs f).dec ∨ ∃ m ∈ c.upcoming n.pid f as, P ≤ m.msg.decd) ?_ ?_
  · intro f hf hfn
    have := this f hf hfn
    rw [Cluster.upcoming_nil] at this
    simpa using this
  · rintro c c' A' a as h h' ha hs ht h2 f hf hfn
    have hm := h.moves hv hnd hn ha hs ht
    have hf' := hm.dec f hf
    rcases h2 f hf hfn with h4 | ⟨m, h4, h5⟩
    · exact .inl (by omega)
    · rcases Cluster.upcoming_step as ha hs n.pid f with ⟨p, e1, e2, _⟩ | ⟨e1, l, _, e2, _⟩
      · have := (hm.got f hf hfn _ e1).2
        rw [e2] at h4
        rcases List.mem_cons.1 h4 with rfl | h4
        · exact .inl (by omega)
        · exact .inr ⟨m, h4, h5⟩
      · exact .inr ⟨m, by rw [e2]; exact List.mem_append_left _ h4, h5⟩
  · intro f hf hfn
    rw [(hb.turns.reach hn hf).1]
    exact hr f hf hfn

/-- What never goes back. -/
theorem Cluster.Flows.grows (h : c.Flows cc n k lg ci A) (hv : cc.validate = .ok ()) (hnd : cc.nodes.Nodup) (hn : n.pid ∈ cc.nodes)
    (hst : c.Steady cc n as) (hr : c.run cc as = some c') :
    (∀ i ∈ cc.nodes, (c.obs i).acc ≤ (c'.obs i).acc ∧ (c.obs i).dec ≤ (c'.obs i).dec) ∧ (c.obs n.pid).log <+: (c'.obs n.pid).log ∧
    ((Quorum.with cc.flexible_quorum cc.nodes.length).is_accept_quorum 2 = true →
      (∀ f ∈ cc.nodes, f ≠ n.pid → ∀ al, slot (c.obs n.pid).recs f = some al → al ≤ (c.obs n.pid).dec) →
      ∀ f ∈ cc.nodes, f ≠ n.pid → ∀ al, slot (c'.obs n.pid).recs f = some al → al ≤ (c'.obs n.pid).dec) := by
  refine h.carry hv hnd hst hr (W := fun c1 _ =>
    (∀ i ∈ cc.nodes, (c.obs i).acc ≤ (c1.obs i).acc ∧ (c.obs i).dec ≤ (c1.obs i).dec) ∧ (c.obs n.pid).log <+: (c1.obs n.pid).log ∧
    ((Quorum.with cc.flexible_quorum cc.nodes.length).is_accept_quorum 2 = true →
      (∀ f ∈ cc.nodes, f ≠ n.pid → ∀ al, slot (c.obs n.pid).recs f = some al → al ≤ (c.obs n.pid).dec) →
      ∀ f ∈ cc.nodes, f ≠ n.pid → ∀ al, slot (c1.obs n.pid).recs f = some al → al ≤ (c1.obs n.pid).dec)) ?_ ?_
  · rintro c1 c2 A' a as h h' ha hs ht ⟨h1, h2, h3⟩
    have hm := h.moves hv hnd hn ha hs ht
    refine ⟨fun i hi => ⟨Nat.le_trans (h1 i hi).1 (hm.acc i hi), Nat.le_trans (h1 i hi).2 (hm.dec i hi)⟩, h2.trans hm.log, fun hq h0 f hf hfn al hal => ?_⟩
    by_cases hx : ∃ x, c1.dv a = some (f, n.pid, .accepted x)
    · obtain ⟨x, hx⟩ := hx
      obtain ⟨e1, e2⟩ := hm.noted f hf hfn x hx
      rw [e1] at hal
      cases hal
      exact e2 hq
    · rw [hm.kept f hf hfn fun x e => hx ⟨x, e⟩] at hal
      exact Nat.le_trans (h3 hq h0 f hf hfn al hal) (hm.dec _ hn)
  · exact ⟨fun i _ => ⟨Nat.le_refl _, Nat.le_refl _⟩, List.prefix_rfl, fun _ h => h⟩


theorem Cluster.BusyRounds.split {r s : Nat} {c c2 : Cluster E S} (h : Cluster.BusyRounds cc n (r + s) c c2) :
    ∃ c1, Cluster.BusyRounds cc n r c c1 ∧ Cluster.BusyRounds cc n s c1 c2 := by
  induction r generalizing c with
  | zero => rw [Nat.zero_add] at h; exact ⟨c, .zero c, h⟩
  | succ r ih =>
    rw [Nat.add_right_comm] at h
    cases h with
    | more as h1 h2 =>
      obtain ⟨c1, h3, h4⟩ := ih h2
      exact ⟨c1, .more as h1 h3, h4⟩

/-- Rounds are steady operation. -/
theorem Cluster.BusyRounds.joined {r : Nat} {c c' : Cluster E S} (h : Cluster.BusyRounds cc n r c c') :
    ∃ as, c.Steady cc n as ∧ c.run cc as = some c' := by
  induction h with
  | zero c => exact ⟨[], ⟨nofun, by simp⟩, rfl⟩
  | more as h1 _ ih =>
    obtain ⟨bs, h4, h5⟩ := ih
    exact ⟨as ++ bs, h1.steady.append h1.run h4, by rw [Cluster.run_append, h1.run]; exact h5⟩

/-- After three rounds the leader has stored everything; after three more, everybody. -/
theorem Cluster.Flows.six (h : c.Flows cc n k lg ci A) (hv : cc.validate = .ok ()) (hnd : cc.nodes.Nodup) (hn : n.pid ∈ cc.nodes)
    (hb : Cluster.BusyRounds cc n 6 c c') : ∃ P X, P = k + X.length ∧ (∀ p, A.countP p ≤ X.countP p) ∧ lg n.pid ++ X <+: (c'.obs n.pid).log ∧
      ∀ i ∈ cc.nodes, P ≤ (c'.obs i).acc := by
  rcases hb with _ | ⟨a0, b0, hb⟩
  rcases hb with _ | ⟨a1, b1, hb⟩
  rcases hb with _ | ⟨a2, b2, hb⟩
  rcases hb with _ | ⟨a3, b3, hb⟩
  rcases hb with _ | ⟨a4, b4, hb⟩
  rcases hb with _ | ⟨a5, b5, hb⟩
  cases hb
  have f1 := h.run hv hnd b0.steady b0.run
  have f2 := f1.run hv hnd b1.steady b1.run
  have f3 := f2.run hv hnd b2.steady b2.run
  have f4 := f3.run hv hnd b3.steady b3.run
  have f5 := f4.run hv hnd b4.steady b4.run
  have r2 := f2.round2 hv hnd hn b2 (f1.round1 hv hnd hn b1 (h.round0 hv hnd hn b0))
  obtain ⟨X, e1, e2, _⟩ := (f3.facts hn).lead
  have r5 := f5.round5 hv hnd hn b5 (f4.round4 hv hnd hn b4 (f3.round3 hv hnd hn b3 (Nat.le_of_eq e2.symm)))
  have g3 := f3.grows hv hnd hn b3.steady b3.run
  have g4 := f4.grows hv hnd hn b4.steady b4.run
  have g5 := f5.grows hv hnd hn b5.steady b5.run
  refine ⟨_, X, rfl, fun p => ?_, ?_, fun i hi => ?_⟩
  · have := r2 p
    rw [e1, List.countP_append] at this
    omega
  · rw [← e1]
    exact g3.2.1.trans (g4.2.1.trans g5.2.1)
  · by_cases hin : i = n.pid
    · subst hin
      have h3 := (g3.1 _ hi).1
      have h4 := (g4.1 _ hi).1
      have h5 := (g5.1 _ hi).1
      omega
    · exact r5 i hi hin

/-- After four more, everybody has decided it, if the leader decides whatever anybody accepts. -/
theorem Cluster.Flows.four (h : c.Flows cc n k lg ci A) (hv : cc.validate = .ok ()) (hnd : cc.nodes.Nodup) (hn : n.pid ∈ cc.nodes)
    (hq : (Quorum.with cc.flexible_quorum cc.nodes.length).is_accept_quorum 2 = true)
    (hd : ∀ f ∈ cc.nodes, f ≠ n.pid → ∀ al, slot (c.obs n.pid).recs f = some al → al ≤ (c.obs n.pid).dec)
    (hr : ∀ i ∈ cc.nodes, P ≤ (c.obs i).acc) (hb : Cluster.BusyRounds cc n 4 c c') : ∀ i ∈ cc.nodes, P ≤ (c'.obs i).dec := by
  rcases hb with _ | ⟨a0, b0, hb⟩
  rcases hb with _ | ⟨a1, b1, hb⟩
  rcases hb with _ | ⟨a2, b2, hb⟩
  rcases hb with _ | ⟨a3, b3, hb⟩
  cases hb
  have f1 := h.run hv hnd b0.steady b0.run
  have f2 := f1.run hv hnd b1.steady b1.run
  have f3 := f2.run hv hnd b2.steady b2.run
  have r7 := f1.round7 hv hnd hn b1 (h.round6 hv hnd hn b0 fun f hf _ => hr f hf)
  have d2 := (f1.grows hv hnd hn b1.steady b1.run).2.2 hq ((h.grows hv hnd hn b0.steady b0.run).2.2 hq hd)
  obtain ⟨f, hf, hfn⟩ := another hv hnd n.pid
  obtain ⟨al, e1, e2⟩ := r7 f hf hfn
  have hP := Nat.le_trans e2 (d2 f hf hfn al e1)
  have r9 := f3.round9 hv hnd hn b3 (f2.round8 hv hnd hn b2 hP)
  intro i hi
  by_cases hin : i = n.pid
  · subst hin
    have := ((f2.grows hv hnd hn b2.steady b2.run).1 _ hi).2
    have := ((f3.grows hv hnd hn b3.steady b3.run).1 _ hi).2
    omega
  · exact r9 i hi hin

/-- In the beginning the leader has decided whatever it has recorded. -/
theorem Cluster.Settled.recorded (h : c.Settled cc n k) (f : NodeId) (hf : f ∈ cc.nodes) (al : Nat) (ha : slot (c.obs n.pid).recs f = some al) :
    al ≤ (c.obs n.pid).dec := by
  obtain ⟨op, e1, _, e2⟩ := h.server _ h.member
  have h1 := (h.records op e1).1.accepted f hf
  simp only [Cluster.obs, e1, SP.obs] at ha ⊢
  rw [h1] at ha
  cases ha
  exact Nat.le_of_eq e2.decided.symm

/-- What has been accepted is read, as decided or not. -/
theorem Cluster.Flows.reads (h : c.Flows cc n k lg ci A) (hn : n.pid ∈ cc.nodes) (hk : ∀ i ∈ cc.nodes, ci i + (lg i).length = k) {i : NodeId} (hi : i ∈ cc.nodes)
    {X : List E} (hX : lg n.pid ++ X <+: (c.obs n.pid).log) (ha : k + X.length ≤ (c.obs i).acc) : ∃ op Y, c.servers i = .up op ∧
      (c.servers i).disk.log = lg i ++ X ++ Y ∧ op.get_decided_idx = (c.obs i).dec ∧
      ∀ j e, X[j]? = some e → op.read (k + j) = some (some (if k + j < op.get_decided_idx then .decided e else .undecided e)) := by
  obtain ⟨X', e1, _, _, _, e2⟩ := (h.facts hn).lead
  rw [e1, List.prefix_append_right_inj] at hX
  have hY : ∃ Y, (c.obs i).log = lg i ++ X ++ Y := by
    by_cases hin : i = n.pid
    · subst hin
      obtain ⟨Y, rfl⟩ := hX
      exact ⟨Y, by rw [e1, List.append_assoc]⟩
    · obtain ⟨Xf, g1, g2, _, g3⟩ := e2 i hi hin
      obtain ⟨Y, rfl⟩ := List.prefix_of_prefix_length_le hX g3 (by omega)
      exact ⟨Y, by rw [g1, List.append_assoc]⟩
  obtain ⟨Y, hY⟩ := hY
  obtain ⟨sv, h1, X0, B0, d0, h2, _⟩ := h
  obtain ⟨op, e3, e4⟩ := h1 i hi
  have hst : ∃ X B d, Stored n k (lg i) (ci i) X B d op.sp.ist := by
    rw [e4]
    by_cases hin : i = n.pid
    · subst hin; exact ⟨_, _, _, h2.lead.ist⟩
    · obtain ⟨Xf, Bf, σ, a, out, q, al, ms, hl⟩ := h2.fol i hi hin
      exact ⟨_, _, _, hl.fol.ist⟩
  obtain ⟨X1, B1, d1, hst⟩ := hst
  have hlog : op.sp.ist.storage.log = lg i ++ X ++ Y := by simpa only [Cluster.obs, e3, SP.obs] using hY
  refine ⟨op, Y, e3, by rw [e3]; exact hlog, by simp only [Cluster.obs, e3, SP.obs, OP.get_decided_idx], fun j e hj => ?_⟩
  have hjl : j < X.length := (List.getElem?_eq_some_iff.1 hj).1
  have hacc : op.sp.ist.cache.accepted_idx = k + X1.length := hst.acc
  have hlt : k + j < op.sp.ist.cache.accepted_idx := by
    simp only [Cluster.obs, e3, SP.obs] at ha
    omega
  have hki := hk i hi
  have ht : op.sp.ist.get_entry_type (k + j) (ci i) op.sp.ist.cache.accepted_idx = some .entry := by
    simp only [IStore.get_entry_type, hst.ss]
    rw [if_neg (by omega)]
    by_cases hl : k + j + 1 < op.sp.ist.cache.accepted_idx
    · rw [if_pos (by omega)]
    · rw [if_neg (by omega), if_pos (by omega)]
  have hg : op.sp.ist.storage.get_entries (k + j) (k + j + 1) = some [e] := by
    simp only [Mem.get_entries, hst.trim, usub]
    rw [if_pos (by omega), if_pos (by omega)]
    simp only [Option.some.injEq, sliceGet]
    rw [if_pos ⟨by omega, by rw [hlog]; simp only [List.length_append]; omega⟩]
    have h1 : k + j - ci i = (lg i).length + j := by omega
    have h2 : k + j + 1 - ci i = (lg i).length + j + 1 := by omega
    rw [h1, h2, hlog]
    have h3 : (lg i ++ X ++ Y)[(lg i).length + j]? = some e := by
      rw [List.append_assoc, List.getElem?_append_right (by omega), List.getElem?_append_left (by omega)]
      simpa using hj
    rw [List.drop_take]
    obtain ⟨h4, h5⟩ := List.getElem?_eq_some_iff.1 h3
    rw [List.drop_eq_getElem_cons h4, h5]
    have : (lg i).length + j + 1 - ((lg i).length + j) = 1 := by omega
    rw [this]
    rfl
  simp only [OP.read, IStore.read, IStore.startIdx, IStore.endIdx, OP.get_decided_idx]
  simp only [Nat.add_one_ne_zero, if_false, hst.ccomp, Nat.add_sub_cancel, ht, IStore.create_read_log_entries, hg, IStore.markDecided]
  rfl

end rounds
end Omni
