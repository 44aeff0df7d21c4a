import Verif.Proof.Steady.Round
/-
Steady operation: after ten rounds nothing is on the way.
-/
namespace Omni

variable {E S : Type} {n : Ballot} {k : Nat} {cc : ClusterConfig} {lg : NodeId → List E} {ci : NodeId → Nat} {A : List E}

/-- The server ticks until its flush timeout. -/
def Cluster.FlushDue (c : Cluster E S) (i : NodeId) (as : List (Action E S)) : Prop := ∀ op, c.servers i = .up op →
  op.flush_batch_clock.time < op.flush_batch_clock.timeout ∧
  op.flush_batch_clock.timeout ≤ op.flush_batch_clock.time + as.countP (Action.isTick i)

/-- All messages of a kind on a link are delivered. -/
def Cluster.LinkDue (c : Cluster E S) (p : PaxosMsg E S → Bool) (i j : NodeId) (as : List (Action E S)) : Prop :=
  ∀ (k : Nat) (m : PaxosMessage E S), (c.net i j)[k]? = some (.paxos m) → p m.msg = true → k < as.countP (Action.isDelivery i j)

/-- What is at a stage leaves it in the course of `as`. -/
def Cluster.Due (n : Ballot) (c : Cluster E S) (as : List (Action E S)) (f : NodeId) : Nat → Prop
  | 0 => .take f ∈ as
  | 1 => c.LinkDue PaxosMsg.isForward f n.pid as
  | 2 => c.FlushDue n.pid as
  | 3 => .take n.pid ∈ as
  | 4 => c.LinkDue PaxosMsg.isAcceptDecide n.pid f as
  | 5 => c.FlushDue f as
  | 6 => .take f ∈ as
  | 7 => c.LinkDue PaxosMsg.isAccepted f n.pid as
  | 8 => .take n.pid ∈ as
  | 9 => c.LinkDue PaxosMsg.isDecide n.pid f as
  | _ => True

theorem Cluster.mem_px {c : Cluster E S} {i j : NodeId} {m : PaxosMessage E S} : m ∈ c.px i j ↔ ∃ k : Nat, (c.net i j)[k]? = some (Message.paxos m) := by
  simp only [Cluster.px, List.mem_filterMap]
  constructor
  · rintro ⟨x, hx, hm⟩
    cases x with
    | ble b => cases hm
    | paxos y =>
      cases hm
      exact List.mem_iff_getElem?.1 hx
  · rintro ⟨k, hk⟩
    exact ⟨_, List.mem_of_getElem? hk, rfl⟩

theorem Cluster.out_due [SnapOps E S] {c c' : Cluster E S} {a : Action E S} {as : List (Action E S)} (hs : c.step cc a = some c') {i : NodeId}
    (h : .take i ∈ a :: as) : c'.out i = [] ∨ .take i ∈ as := by
  rcases List.mem_cons.1 h with rfl | h
  · left
    simp only [Cluster.step] at hs
    cases hx : c.servers i with
    | down d => rw [hx] at hs; cases hs
    | up o =>
      rw [hx] at hs
      simp only [Option.some.injEq] at hs
      have hc : c' = c.taken i o := hs.symm
      subst hc
      simp only [Cluster.out, Cluster.taken_self]
      rfl
  · exact .inr h

theorem Cluster.link_due [SnapOps E S] {c c' : Cluster E S} {a : Action E S} {as : List (Action E S)} (ha : a.Calm cc) (hs : c.step cc a = some c')
    {p : PaxosMsg E S → Bool} {i j : NodeId} (ho : ¬ Has p (c.out i)) (h : c.LinkDue p i j (a :: as)) : c'.LinkDue p i j as := by
  intro k m hk hm
  rcases Cluster.net_step ha hs i j with ⟨h1, x, h2⟩ | ⟨h1, l, h2, h3⟩
  · have := h (k + 1) m (by rw [h2]; simpa using hk) hm
    rw [List.countP_cons, if_pos h1] at this
    omega
  · rw [h2] at hk
    by_cases hl : k < (c.net i j).length
    · rw [List.getElem?_append_left hl] at hk
      have := h k m hk hm
      rwa [List.countP_cons, if_neg (by simp [h1]), Nat.add_zero] at this
    · rw [List.getElem?_append_right (by omega)] at hk
      exact absurd ⟨m, h3 m (List.mem_of_getElem? hk), hm⟩ ho

theorem Cluster.Flows.up {c : Cluster E S} (h : c.Flows cc n k lg ci A) {i : NodeId} (hi : i ∈ cc.nodes) : ∃ op, c.servers i = .up op := by
  obtain ⟨sv, h1, _⟩ := h
  obtain ⟨op, e, _⟩ := h1 i hi
  exact ⟨op, e⟩

theorem Cluster.Flows.flush_due [SnapOps E S] {c c' : Cluster E S} (h : c.Flows cc n k lg ci A) {a : Action E S} {as : List (Action E S)}
    (ha : a.Calm cc) (hs : c.step cc a = some c') (ht : ∀ i, a = .call i .tick → c'.LedBy cc n) {i : NodeId} (hi : i ∈ cc.nodes)
    (hd : c.FlushDue i (a :: as)) : c'.bat i = [] ∨ c'.FlushDue i as := by
  obtain ⟨op, ho⟩ := h.up hi
  obtain ⟨h1, h2⟩ := hd op ho
  rw [List.countP_cons] at h2
  cases hat : a.isTick i with
  | false =>
    right
    intro op' ho'
    have := Cluster.clock_step ha hs ho ho'
    rw [hat, if_neg (by simp)] at this
    rw [hat, if_neg (by simp)] at h2
    rw [this]
    exact ⟨h1, h2⟩
  | true =>
    have hai : a = .call i .tick := by
      cases a with
      | call j cl =>
        cases cl with
        | tick => simp only [Action.isTick, beq_iff_eq] at hat; rw [hat]
        | _ => cases hat
      | _ => cases hat
    by_cases hf : op.flush_batch_clock.time + 1 = op.flush_batch_clock.timeout
    · left
      subst hai
      exact h.flushed hi hs (ht i rfl) ho (by simp [LogicalClock.tick_and_check_timeout, hf])
    · right
      intro op' ho'
      have := Cluster.clock_step ha hs ho ho'
      rw [hat, if_pos rfl] at this h2
      rw [this]
      simp only [LogicalClock.tick_and_check_timeout, hf, if_false]
      omega

/-- One action. -/
theorem Cluster.Flows.due [SnapOps E S] {c c' : Cluster E S} (h : c.Flows cc n k lg ci A) (hn : n.pid ∈ cc.nodes) {a : Action E S}
    {as : List (Action E S)} (ha : a.Calm cc) (hs : c.step cc a = some c') (ht : ∀ i, a = .call i .tick → c'.LedBy cc n) {s : Nat}
    (hp : c.Past cc n s) {f : NodeId} (hf : f ∈ cc.nodes) (hfn : f ≠ n.pid) (hd : c.Due n (a :: as) f s) :
    ¬ c'.At n f s ∨ c'.Due n as f s := by
  have hno : ∀ {p : PaxosMsg E S → Bool} {l : List (PaxosMessage E S)}, l = [] → ¬ Has p l := by
    rintro p l rfl ⟨m, hm, _⟩
    cases hm
  match s with
  | 0 | 6 => exact (Cluster.out_due hs hd).imp hno id
  | 3 | 8 => exact (Cluster.out_due hs hd).imp hno id
  | 2 => exact (h.flush_due ha hs ht hn hd).imp (fun h hc => hc h) id
  | 5 => exact (h.flush_due ha hs ht hf hd).imp (fun h hc => hc h) id
  | 1 => exact .inr (Cluster.link_due ha hs (hp 0 (by omega) f hf hfn) hd)
  | 4 => exact .inr (Cluster.link_due ha hs (hp 3 (by omega) f hf hfn) hd)
  | 7 => exact .inr (Cluster.link_due ha hs (hp 6 (by omega) f hf hfn) hd)
  | 9 => exact .inr (Cluster.link_due ha hs (hp 8 (by omega) f hf hfn) hd)
  | _ + 10 => exact .inr trivial

/-- Nothing is due any more. -/
theorem Cluster.due_nil {c : Cluster E S} {f : NodeId} {s : Nat} (hd : c.Due n [] f s) : ¬ c.At n f s := by
  have hl : ∀ {p : PaxosMsg E S → Bool} {i j : NodeId}, c.LinkDue p i j [] → ¬ Has p (c.px i j) := by
    rintro p i j h ⟨m, hm, hp⟩
    obtain ⟨k, hk⟩ := Cluster.mem_px.1 hm
    exact absurd (h k m hk hp) (by simp)
  have hb : ∀ {i : NodeId}, c.FlushDue i [] → ¬ c.bat i ≠ [] := by
    intro i h hc
    cases hi : c.servers i with
    | down d => simp only [Cluster.bat, hi] at hc; exact hc rfl
    | up op =>
      have := h op hi
      simp only [List.countP_nil] at this
      omega
  match s with
  | 0 | 3 | 6 | 8 => cases hd
  | 1 | 4 | 7 | 9 => exact hl hd
  | 2 | 5 => exact hb hd
  | _ + 10 => exact id

/-- A sequence of actions. -/
theorem Cluster.Flows.segment [SnapOps E S] {c c' : Cluster E S} {as : List (Action E S)} (h : c.Flows cc n k lg ci A) (hv : cc.validate = .ok ())
    (hnd : cc.nodes.Nodup) (hn : n.pid ∈ cc.nodes) (hst : c.Steady cc n as) (he : as.filterMap Action.entry? = []) (hr : c.run cc as = some c')
    {s : Nat} (hp : c.Past cc n s) :
    c'.Past cc n s ∧ ∀ f ∈ cc.nodes, f ≠ n.pid → (¬ c.At n f s ∨ c.Due n as f s) → ¬ c'.At n f s := by
  induction as generalizing c A with
  | nil =>
    simp only [Cluster.run, Option.some.injEq] at hr
    subst hr
    exact ⟨hp, fun f _ _ hd => hd.elim id Cluster.due_nil⟩
  | cons a as ih =>
    simp only [Cluster.run] at hr
    cases hs : c.step cc a with
    | none => rw [hs] at hr; cases hr
    | some c1 =>
      rw [hs] at hr
      have ha := hst.calm a List.mem_cons_self
      have ht : ∀ i, a = .call i .tick → c1.LedBy cc n := fun i hi => hst.elected i 0 c1 (by rw [hi]; rfl) (by simp [Cluster.run, hs])
      have hae : a.entry? = none := by
        cases h0 : a.entry? with
        | none => rfl
        | some e => simp [List.filterMap_cons, h0] at he
      have he' : as.filterMap Action.entry? = [] := by simpa [List.filterMap_cons, hae] using he
      have h1 := h.past hv hnd hn ha hs ht hae hp
      have h2 := ih (h.step hv hnd ha hs ht) ⟨fun b hb => hst.calm b (List.mem_cons_of_mem _ hb), fun i j c2 hj hr2 =>
        hst.elected i (j + 1) c2 (by simpa using hj) (by simpa [Cluster.run, hs] using hr2)⟩ he' hr h1.1
      refine ⟨h2.1, fun f hf hfn hd => h2.2 f hf hfn ?_⟩
      rcases hd with hd | hd
      · exact .inl fun hc => hd (h1.2 f hf hfn hc)
      · exact h.due hn ha hs ht hp hf hfn hd

/-- All that waits is due. -/
theorem Cluster.Turns.due {c : Cluster E S} {as : List (Action E S)} (h : c.Turns cc as) (hn : n.pid ∈ cc.nodes) {f : NodeId} (hf : f ∈ cc.nodes)
    (s : Nat) : ¬ c.At n f s ∨ c.Due n as f s := by
  have ho : ∀ {p : PaxosMsg E S → Bool} {i : NodeId}, i ∈ cc.nodes → (¬ Has p (c.out i)) ∨ .take i ∈ as := by
    intro p i hi
    by_cases hc : Has p (c.out i)
    · right
      obtain ⟨m, hm, _⟩ := hc
      cases hu : c.servers i with
      | down d => simp only [Cluster.out, hu] at hm; cases hm
      | up op =>
        simp only [Cluster.out, hu] at hm
        exact h.taken i hi op hu (List.ne_nil_of_mem hm)
    · exact .inl hc
  have hb : ∀ {i : NodeId}, i ∈ cc.nodes → (¬ c.bat i ≠ []) ∨ c.FlushDue i as := by
    intro i hi
    by_cases hc : c.bat i ≠ []
    · right
      intro op hu
      simp only [Cluster.bat, hu] at hc
      exact h.flushed i hi op hu hc
    · exact .inl hc
  have hl : ∀ {p : PaxosMsg E S → Bool} {i j : NodeId}, i ∈ cc.nodes → j ∈ cc.nodes → c.LinkDue p i j as := fun hi hj k m hk _ =>
    Nat.lt_of_lt_of_le (List.getElem?_eq_some_iff.1 hk).1 (h.delivered _ hi _ hj)
  match s with
  | 0 | 6 => exact ho hf
  | 3 | 8 => exact ho hn
  | 2 => exact hb hn
  | 5 => exact hb hf
  | 1 | 7 => exact .inr (hl hf hn)
  | 4 | 9 => exact .inr (hl hn hf)
  | _ + 10 => exact .inr trivial

/-- The rounds. -/
theorem Cluster.Flows.rounds [SnapOps E S] {r : Nat} {c c' : Cluster E S} (h : c.Flows cc n k lg ci A) (hv : cc.validate = .ok ())
    (hnd : cc.nodes.Nodup) (hn : n.pid ∈ cc.nodes) (hr : Cluster.Rounds cc n r c c') {s : Nat} (hp : c.Past cc n s) :
    c'.Flows cc n k lg ci A ∧ c'.Past cc n (s + r) := by
  induction hr generalizing s with
  | zero c => exact ⟨h, hp⟩
  | more as hst he ht hr _ ih =>
    have h1 := h.run hv hnd hst hr
    rw [he, List.append_nil] at h1
    have h2 := h.segment hv hnd hn hst he hr hp
    have h3 := ih h1 (s := s + 1) (by
      intro j hj f hf hfn
      rcases Nat.lt_succ_iff_lt_or_eq.1 hj with hj | rfl
      · exact h2.1 j hj f hf hfn
      · exact h2.2 f hf hfn (ht.due hn hf _))
    rw [Nat.add_right_comm] at h3
    exact h3

theorem Fed.all_kinds {σ τ : Fed E} {ms : List (PaxosMsg E S)} (h : σ.all n k ms = some τ) :
    ∀ m ∈ ms, m.isAcceptDecide = true ∨ m.isDecide = true := by
  induction ms generalizing σ with
  | nil => nofun
  | cons m ms ih =>
    simp only [Fed.all] at h
    cases hs : σ.step n k m with
    | none => rw [hs] at h; cases h
    | some ρ =>
      rw [hs] at h
      intro x hx
      rcases List.mem_cons.1 hx with rfl | hx
      · cases x <;> first | exact .inl rfl | exact .inr rfl | cases hs
      · exact ih h x hx

theorem PaxosMsg.Reply.kinds {m : PaxosMsg E S} {a : Nat} (h : m.Reply n a) : m.isAccepted = true ∨ m.isForward = true := by
  cases m <;> first | exact .inl rfl | exact .inr rfl | exact h.elim

/-- Nothing is on the way. -/
theorem Cluster.Flows.done [SnapOps E S] {c : Cluster E S} (h : c.Flows cc n k lg ci A) (hv : cc.validate = .ok ())
    (hnd : cc.nodes.Nodup) (hn : n.pid ∈ cc.nodes) (hp : c.Past cc n 10) : c.Quiet cc := by
  obtain ⟨sv, h1, X, B, d, h2, _⟩ := h
  have hat : ∀ j < 10, ∀ f ∈ cc.nodes, f ≠ n.pid → ¬ AtS n sv c.px f j := fun j hj f hf hfn hc =>
    hp j hj f hf hfn ((Cluster.at_iff h1 hn hf).2 hc)
  have hpx : ∀ i ∈ cc.nodes, ∀ j ∈ cc.nodes, ∀ m, m ∉ c.px i j := by
    intro i hi j hj m hm
    by_cases hin : i = n.pid
    · by_cases hjn : j = n.pid
      · rw [h2.unused i hi j hj ⟨fun _ => hjn, fun _ => hin⟩] at hm; cases hm
      · subst hin
        obtain ⟨_, _, _, _, _, _, _, _, hl⟩ := h2.fol j hj hjn
        rcases Fed.all_kinds hl.down m.msg (List.mem_append_left _ (List.mem_map_of_mem hm)) with hk | hk
        · exact hat 4 (by omega) j hj hjn ⟨m, hm, hk⟩
        · exact hat 9 (by omega) j hj hjn ⟨m, hm, hk⟩
    · by_cases hjn : j = n.pid
      · subst hjn
        obtain ⟨_, _, _, _, _, _, _, _, hl⟩ := h2.fol i hi hin
        rcases (hl.src m hm).2.kinds with hk | hk
        · exact hat 7 (by omega) i hi hin ⟨m, hm, hk⟩
        · exact hat 1 (by omega) i hi hin ⟨m, hm, hk⟩
      · rw [h2.unused i hi j hj ⟨fun h => absurd h hin, fun h => absurd h hjn⟩] at hm; cases hm
  refine ⟨fun i hi j hj m hm => ?_, fun i hi op ho => ?_⟩
  · cases m with
    | ble b => exact ⟨b, rfl⟩
    | paxos m => exact (hpx i hi j hj m (List.mem_filterMap.2 ⟨_, hm, rfl⟩)).elim
  · obtain ⟨op', e1, e2⟩ := h1 i hi
    rw [ho] at e1
    cases e1
    rw [e2]
    by_cases hin : i = n.pid
    · subst hin
      refine ⟨List.eq_nil_iff_forall_not_mem.2 fun m hm => ?_, ?_⟩
      · obtain ⟨⟨h3, h4⟩, _⟩ := h2.lead.ends m hm
        obtain ⟨_, _, _, _, _, _, _, ms, hl⟩ := h2.fol _ h3 h4
        have h5 : m.msg ∈ ms := by
          rw [hl.keeps.outs]
          exact List.mem_map_of_mem (List.mem_filter.2 ⟨hm, by simp⟩)
        rcases Fed.all_kinds hl.down m.msg (List.mem_append_right _ h5) with hk | hk
        · exact hat 3 (by omega) _ h3 h4 ⟨m, hm, hk⟩
        · exact hat 8 (by omega) _ h3 h4 ⟨m, hm, hk⟩
      · obtain ⟨f, hf, hfn⟩ := another hv hnd n.pid
        exact Classical.byContradiction fun hc => hat 2 (by omega) f hf hfn hc
    · obtain ⟨_, _, _, _, out, _, _, _, hl⟩ := h2.fol i hi hin
      refine ⟨List.eq_nil_iff_forall_not_mem.2 fun m hm => ?_, Classical.byContradiction fun hc => hat 5 (by omega) i hi hin hc⟩
      have h5 : m.msg ∈ out := by
        rw [hl.fol.outs]
        exact List.mem_map_of_mem hm
      rcases (hl.fol.replies _ h5).kinds with hk | hk
      · exact hat 6 (by omega) i hi hin ⟨m, hm, hk⟩
      · exact hat 0 (by omega) i hi hin ⟨m, hm, hk⟩

theorem Cluster.Steady.append [SnapOps E S] {c c1 : Cluster E S} {as bs : List (Action E S)} (h : c.Steady cc n as) (hr : c.run cc as = some c1)
    (h1 : c1.Steady cc n bs) : c.Steady cc n (as ++ bs) := by
  refine ⟨fun a ha => (List.mem_append.1 ha).elim (h.calm a) (h1.calm a), fun i j c2 hj hc => ?_⟩
  by_cases hl : j < as.length
  · rw [List.getElem?_append_left hl] at hj
    rw [List.take_append_of_le_length (by omega)] at hc
    exact h.elected i j c2 hj hc
  · rw [List.getElem?_append_right (by omega)] at hj
    have : (as ++ bs).take (j + 1) = as ++ bs.take (j - as.length + 1) := by
      rw [List.take_append, List.take_of_length_le (by omega)]
      congr 2
      omega
    rw [this, Cluster.run_append, hr] at hc
    exact h1.elected i _ c2 hj hc

/-- Rounds are steady operation. -/
theorem Cluster.Rounds.joined [SnapOps E S] {r : Nat} {c c' : Cluster E S} (h : Cluster.Rounds cc n r c c') :
    ∃ as, c.Steady cc n as ∧ as.filterMap Action.entry? = [] ∧ c.run cc as = some c' := by
  induction h with
  | zero c => exact ⟨[], ⟨nofun, by simp⟩, rfl, rfl⟩
  | more as h1 h2 _ h3 _ ih =>
    obtain ⟨bs, h4, h5, h6⟩ := ih
    exact ⟨as ++ bs, h1.append h3 h4, by rw [List.filterMap_append, h2, h5]; rfl, by rw [Cluster.run_append, h3]; exact h6⟩

end Omni
