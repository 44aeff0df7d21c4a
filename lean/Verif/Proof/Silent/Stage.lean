import Verif.Proof.Steady.Load
import Verif.Proof.Steady.Done
import Verif.Proof.Silent.Beats
/-
Silent servers: what is on the way between the others.
-/
namespace Omni

variable {E S : Type} {n : Ballot} {k : Nat} {cc : ClusterConfig} {lg : NodeId → List E} {ci : NodeId → Nat} {A : List E} {L : List NodeId}

theorem Action.Of.calm {a : Action E S} (h : a.Of cc L) (hL : ∀ x ∈ L, x ∈ cc.nodes) : a.Calm cc := by
  cases a with
  | call i cl => cases cl <;> first | exact hL _ h | exact h.elim
  | take i => exact hL _ h
  | deliver i j => exact ⟨h.1, hL _ h.2⟩
  | _ => exact h.elim

/-- A link from a server that does not send. -/
theorem Cluster.net_silent [SnapOps E S] {c c' : Cluster E S} {a : Action E S} (ha : a.Calm cc) (hs : c.step cc a = some c') {i : NodeId} (hi : a ≠ .take i)
    (j : NodeId) : (a.isDelivery i j = true ∧ ∃ m, c.net i j = m :: c'.net i j) ∨ (a.isDelivery i j = false ∧ c'.net i j = c.net i j) := by
  cases a with
  | call x cl =>
    refine .inr ⟨rfl, ?_⟩
    simp only [Cluster.step] at hs
    cases hx : c.servers x with
    | down d => rw [hx] at hs; cases hs
    | up o =>
      rw [hx] at hs
      simp only at hs
      split at hs
      · cases hs
      · simp only [Option.some.injEq] at hs
        subst hs
        simp [Cluster.setServer]
  | take x =>
    refine .inr ⟨rfl, ?_⟩
    simp only [Cluster.step] at hs
    cases hx : c.servers x with
    | down d => rw [hx] at hs; cases hs
    | up o =>
      rw [hx] at hs
      simp only [Option.some.injEq] at hs
      subst hs
      exact if_neg fun e => hi (by rw [e])
  | deliver x y =>
    rcases Cluster.net_step ha hs i j with h | ⟨h1, -⟩
    · exact .inl h
    · refine .inr ⟨h1, ?_⟩
      simp only [Cluster.step] at hs
      cases hl : c.net x y with
      | nil => rw [hl] at hs; cases hs
      | cons m rest =>
        rw [hl] at hs
        have hc : c'.net = (c.setNet x y rest).net := by
          cases hb : c.servers y with
          | down d => rw [hb] at hs; simp only [Option.some.injEq] at hs; subst hs; rfl
          | up o => rw [hb] at hs; simp only [Option.some.injEq] at hs; subst hs; rfl
        have hxy : ¬ (i = x ∧ j = y) := fun h => by simp [Action.isDelivery, h] at h1
        rw [hc]
        simp [Cluster.setNet, hxy]
  | _ => exact ha.elim

/-- The stages that are passed when only the servers `L` act. -/
def Passes (L : List NodeId) (f : NodeId) (j : Nat) : Prop := f ∈ L ∨ j = 1 ∨ j = 2 ∨ j = 3 ∨ j = 7 ∨ j = 8

/-- Nothing is at the first `s` stages of these. -/
def Cluster.PastL (cc : ClusterConfig) (L : List NodeId) (n : Ballot) (s : Nat) (c : Cluster E S) : Prop :=
  ∀ j < s, ∀ f ∈ cc.nodes, f ≠ n.pid → Passes L f j → ¬ c.At n f j

theorem Cluster.Flows.pastL [SnapOps E S] {c c' : Cluster E S} (h : c.Flows cc n k lg ci A) (hv : cc.validate = .ok ()) (hnd : cc.nodes.Nodup)
    (hL : ∀ x ∈ L, x ∈ cc.nodes) (hn : n.pid ∈ L) (h2 : ∃ f ∈ L, f ≠ n.pid)
    {a : Action E S} (ha : a.Of cc L) (hs : c.step cc a = some c') (ht : ∀ i, a = .call i .tick → c'.LedBy cc n)
    (he : a.entry? = none) {s : Nat} (hp : c.PastL cc L n s) :
    c'.PastL cc L n s ∧ ∀ f ∈ cc.nodes, f ≠ n.pid → Passes L f s → c'.At n f s → c.At n f s := by
  have hn' := hL _ hn
  obtain ⟨sv, sv', h1, h2', h3⟩ := h.next hv hnd hn' (ha.calm hL) hs ht he
  have live : ∀ j ≤ s, ∀ f ∈ L, f ≠ n.pid → c'.At n f j → c.At n f j := by
    intro j hj f hf hfn hat
    rw [Cluster.at_iff h2' hn' (hL f hf)] at hat
    rcases h3 j f (hL f hf) hfn hat with h4 | ⟨i, h4, g, h5, h6, h7, h8⟩
    · exact (Cluster.at_iff h1 hn' (hL f hf)).2 h4
    · refine absurd ((Cluster.at_iff h1 hn' h5).2 h7) (hp i (by omega) g h5 h6 ?_)
      rcases h8 with rfl | rfl | rfl | rfl
      · exact .inl hf
      · exact .inr (.inl rfl)
      · exact .inr (.inr (.inl rfl))
      · exact .inr (.inr (.inr (.inr (.inl rfl))))
  have link : ∀ {p : PaxosMsg E S → Bool} {f : NodeId}, f ∉ L → Has p (c'.px f n.pid) → Has p (c.px f n.pid) := by
    rintro p f hf ⟨m, hm, hpm⟩
    refine ⟨m, ?_, hpm⟩
    have ha2 : a ≠ .take f := by rintro rfl; exact hf ha
    rcases Cluster.net_silent (ha.calm hL) hs ha2 n.pid with ⟨_, x, hx⟩ | ⟨_, hx⟩
    · obtain ⟨y, hy, hym⟩ := List.mem_filterMap.1 hm
      exact List.mem_filterMap.2 ⟨y, by rw [hx]; exact List.mem_cons_of_mem _ hy, hym⟩
    · simp only [Cluster.px] at hm ⊢
      rwa [hx] at hm
  obtain ⟨g, hg, hgn⟩ := h2
  have key : ∀ j ≤ s, ∀ f ∈ cc.nodes, f ≠ n.pid → Passes L f j → c'.At n f j → c.At n f j := by
    intro j hj f hf hfn hps hat
    by_cases hfL : f ∈ L
    · exact live j hj f hfL hfn hat
    · rcases hps with hps | rfl | rfl | rfl | rfl | rfl
      · exact absurd hps hfL
      · exact link hfL hat
      · exact live 2 hj g hg hgn hat
      · exact live 3 hj g hg hgn hat
      · exact link hfL hat
      · exact live 8 hj g hg hgn hat
  exact ⟨fun j hj f hf hfn hps hat => hp j hj f hf hfn hps (key j (by omega) f hf hfn hps hat), key s (Nat.le_refl _)⟩

/-- One action. -/
theorem Cluster.Flows.dueL [SnapOps E S] {c c' : Cluster E S} (h : c.Flows cc n k lg ci A) (hL : ∀ x ∈ L, x ∈ cc.nodes) (hn : n.pid ∈ L) {a : Action E S}
    {as : List (Action E S)} (ha : a.Of cc L) (hs : c.step cc a = some c') (ht : ∀ i, a = .call i .tick → c'.LedBy cc n) {s : Nat}
    (hp : c.PastL cc L n s) {f : NodeId} (hf : f ∈ cc.nodes) (hfn : f ≠ n.pid) (hps : Passes L f s) (hd : c.Due n (a :: as) f s) :
    ¬ c'.At n f s ∨ c'.Due n as f s := by
  have hn' := hL _ hn
  have hno : ∀ {p : PaxosMsg E S → Bool} {l : List (PaxosMessage E S)}, l = [] → ¬ Has p l := by
    rintro p l rfl ⟨m, hm, _⟩
    cases hm
  have hc := ha.calm hL
  have link : ∀ {p : PaxosMsg E S → Bool}, f ∉ L → c.LinkDue p f n.pid (a :: as) → c'.LinkDue p f n.pid as := by
    intro p hfL hd i m hi hm
    have ha2 : a ≠ .take f := by rintro rfl; exact hfL ha
    rcases Cluster.net_silent hc hs ha2 n.pid with ⟨h1, x, hx⟩ | ⟨h1, hx⟩
    · have := hd (i + 1) m (by rw [hx]; simpa using hi) hm
      rw [List.countP_cons, if_pos h1] at this
      omega
    · rw [hx] at hi
      have := hd i m hi hm
      rwa [List.countP_cons, if_neg (by simp [h1]), Nat.add_zero] at this
  match s with
  | 0 | 6 => exact (Cluster.out_due hs hd).imp hno id
  | 3 | 8 => exact (Cluster.out_due hs hd).imp hno id
  | 2 => exact (h.flush_due hc hs ht hn' hd).imp (fun h hc => hc h) id
  | 5 => exact (h.flush_due hc hs ht hf hd).imp (fun h hc => hc h) id
  | 1 =>
    by_cases hfL : f ∈ L
    · exact .inr (Cluster.link_due hc hs (hp 0 (by omega) f hf hfn (.inl hfL)) hd)
    · exact .inr (link hfL hd)
  | 4 => exact .inr (Cluster.link_due hc hs (hp 3 (by omega) f hf hfn (.inr (.inr (.inr (.inl rfl))))) hd)
  | 7 =>
    by_cases hfL : f ∈ L
    · exact .inr (Cluster.link_due hc hs (hp 6 (by omega) f hf hfn (.inl hfL)) hd)
    · exact .inr (link hfL hd)
  | 9 => exact .inr (Cluster.link_due hc hs (hp 8 (by omega) f hf hfn (.inr (.inr (.inr (.inr (.inr rfl)))))) hd)
  | _ + 10 => exact .inr trivial

/-- A sequence of actions. -/
theorem Cluster.Flows.segmentL [SnapOps E S] {c c' : Cluster E S} {as : List (Action E S)} (h : c.Flows cc n k lg ci A) (hv : cc.validate = .ok ())
    (hnd : cc.nodes.Nodup) (hL : ∀ x ∈ L, x ∈ cc.nodes) (hn : n.pid ∈ L) (h2 : ∃ f ∈ L, f ≠ n.pid) (ho : ∀ a ∈ as, a.Of cc L)
    (hst : c.Steady cc n as) (he : as.filterMap Action.entry? = []) (hr : c.run cc as = some c')
    {s : Nat} (hp : c.PastL cc L n s) :
    c'.PastL cc L n s ∧ ∀ f ∈ cc.nodes, f ≠ n.pid → Passes L f s → (¬ c.At n f s ∨ c.Due n as f s) → ¬ c'.At n f s := by
  induction as generalizing c A with
  | nil =>
    simp only [Cluster.run, Option.some.injEq] at hr
    subst hr
    exact ⟨hp, fun f _ _ _ hd => hd.elim id Cluster.due_nil⟩
  | cons a as ih =>
    simp only [Cluster.run] at hr
    cases hs : c.step cc a with
    | none => rw [hs] at hr; cases hr
    | some c1 =>
      rw [hs] at hr
      have ha := ho a List.mem_cons_self
      have ht : ∀ i, a = .call i .tick → c1.LedBy cc n := fun i hi => hst.elected i 0 c1 (by rw [hi]; rfl) (by simp [Cluster.run, hs])
      have hae : a.entry? = none := by
        cases h0 : a.entry? with
        | none => rfl
        | some e => simp [List.filterMap_cons, h0] at he
      have he' : as.filterMap Action.entry? = [] := by simpa [List.filterMap_cons, hae] using he
      have h1 := h.pastL hv hnd hL hn h2 ha hs ht hae hp
      have h3 := ih (h.step hv hnd (ha.calm hL) hs ht) (fun b hb => ho b (List.mem_cons_of_mem _ hb))
        ⟨fun b hb => hst.calm b (List.mem_cons_of_mem _ hb), fun i j c2 hj hr2 =>
        hst.elected i (j + 1) c2 (by simpa using hj) (by simpa [Cluster.run, hs] using hr2)⟩ he' hr h1.1
      refine ⟨h3.1, fun f hf hfn hps hd => h3.2 f hf hfn hps ?_⟩
      rcases hd with hd | hd
      · exact .inl fun hc => hd (h1.2 f hf hfn hps hc)
      · exact h.dueL hL hn ha hs ht hp hf hfn hps hd

/-- All that waits at the servers `L` and on the links to them gets its turn. -/
structure Cluster.TurnsL (cc : ClusterConfig) (L : List NodeId) (c : Cluster E S) (as : List (Action E S)) : Prop where
  taken : ∀ i ∈ L, .take i ∈ as
  delivered : ∀ i ∈ cc.nodes, ∀ j ∈ L, (c.net i j).length ≤ as.countP (Action.isDelivery i j)
  flushed : ∀ i ∈ L, c.FlushDue i as

theorem Cluster.TurnsL.due {c : Cluster E S} {as : List (Action E S)} (h : c.TurnsL cc L as) (hL : ∀ x ∈ L, x ∈ cc.nodes) (hn : n.pid ∈ L) {f : NodeId}
    (hf : f ∈ cc.nodes) (s : Nat) (hp : Passes L f s) : c.Due n as f s := by
  have hl : ∀ {p : PaxosMsg E S → Bool} {i j : NodeId}, i ∈ cc.nodes → j ∈ L → c.LinkDue p i j as := fun hi hj k m hk _ =>
    Nat.lt_of_lt_of_le (List.getElem?_eq_some_iff.1 hk).1 (h.delivered _ hi _ hj)
  have hn' := hL _ hn
  match s with
  | 3 | 8 => exact h.taken _ hn
  | 2 => exact h.flushed _ hn
  | 1 | 7 => exact hl hf hn
  | _ + 10 => trivial
  | 0 | 6 =>
    rcases hp with hp | hp | hp | hp | hp | hp
    · exact h.taken _ hp
    all_goals omega
  | 5 =>
    rcases hp with hp | hp | hp | hp | hp | hp
    · exact h.flushed _ hp
    all_goals omega
  | 4 | 9 =>
    rcases hp with hp | hp | hp | hp | hp | hp
    · exact hl hn' hp
    all_goals omega

/-- Rounds of the servers `L`. -/
inductive Cluster.RoundsL [SnapOps E S] (cc : ClusterConfig) (L : List NodeId) (n : Ballot) : Nat → Cluster E S → Cluster E S → Prop
  | zero (c : Cluster E S) : Cluster.RoundsL cc L n 0 c c
  | more {r : Nat} {c c1 c2 : Cluster E S} (as : List (Action E S)) : (∀ a ∈ as, a.Of cc L) → c.Steady cc n as → as.filterMap Action.entry? = [] →
      c.TurnsL cc L as → c.run cc as = some c1 → Cluster.RoundsL cc L n r c1 c2 → Cluster.RoundsL cc L n (r + 1) c c2

theorem Cluster.Flows.roundsL [SnapOps E S] {r : Nat} {c c' : Cluster E S} (h : c.Flows cc n k lg ci A) (hv : cc.validate = .ok ())
    (hnd : cc.nodes.Nodup) (hL : ∀ x ∈ L, x ∈ cc.nodes) (hn : n.pid ∈ L) (h2 : ∃ f ∈ L, f ≠ n.pid)
    (hr : Cluster.RoundsL cc L n r c c') {s : Nat} (hp : c.PastL cc L n s) :
    c'.Flows cc n k lg ci A ∧ c'.PastL cc L n (s + r) := by
  induction hr generalizing s with
  | zero c => exact ⟨h, hp⟩
  | more as ho hst he ht hr _ ih =>
    have h1 := h.run hv hnd hst hr
    rw [he, List.append_nil] at h1
    have h3 := h.segmentL hv hnd hL hn h2 ho hst he hr hp
    have h4 := ih h1 (s := s + 1) (by
      intro j hj f hf hfn hps
      rcases Nat.lt_succ_iff_lt_or_eq.1 hj with hj | rfl
      · exact h3.1 j hj f hf hfn hps
      · exact h3.2 f hf hfn hps (.inr (ht.due hL hn hf _ hps)))
    rw [Nat.add_right_comm] at h4
    exact h4

/-- Nothing is on the way between the servers `L`: all have decided the same. -/
theorem Cluster.Flows.quietL [SnapOps E S] {c : Cluster E S} (h : c.Flows cc n k lg ci A) (hq : AcceptQuorum cc L) (hn : n.pid ∈ L)
    (h2 : ∃ f ∈ L, f ≠ n.pid) (hk : ∀ i ∈ cc.nodes, ci i + (lg i).length = k) (hp : c.PastL cc L n 10) :
    ∃ X : List E, (c.obs n.pid).all = lg n.pid ++ X ∧ (∀ P : E → Bool, X.countP P ≤ A.countP P) ∧
      (∀ f ∈ L, f ≠ n.pid → waiting n c.obs c.px f = []) ∧
      ∀ i ∈ L, ∃ op, c.servers i = .up op ∧ op.sp.pid = i ∧ op.sp.AtRest n (k + X.length) ∧
        op.sp.ist.storage.log = lg i ++ X ∧ op.sp.ist.storage.compacted_idx = ci i := by
  obtain ⟨sv, h1, X, B, d, h3, h4⟩ := h
  have hL := hq.members
  have hn' := hL _ hn
  have hat : ∀ j < 10, ∀ f ∈ cc.nodes, f ≠ n.pid → Passes L f j → ¬ AtS n sv c.px f j := fun j hj f hf hfn hps hc =>
    hp j hj f hf hfn hps ((Cluster.at_iff h1 hn' hf).2 hc)
  obtain ⟨g, hg, hgn⟩ := h2
  have hB : B = [] := by
    rw [← h3.lead.ist.batch]
    exact Classical.byContradiction fun hc => hat 2 (by omega) g (hL g hg) hgn (.inl hg) hc
  subst hB
  have hoL : (sv n.pid).outgoing = [] := by
    refine List.eq_nil_iff_forall_not_mem.2 fun m hm => ?_
    obtain ⟨⟨h5, h6⟩, _⟩ := h3.lead.ends m hm
    obtain ⟨_, _, _, _, _, _, _, ms, hl⟩ := h3.fol _ h5 h6
    have h7 : m.msg ∈ ms := by
      rw [hl.keeps.outs]
      exact List.mem_map_of_mem (List.mem_filter.2 ⟨hm, by simp⟩)
    rcases Fed.all_kinds hl.down m.msg (List.mem_append_right _ h7) with hk | hk
    · exact hat 3 (by omega) g (hL g hg) hgn (.inl hg) ⟨m, hm, hk⟩
    · exact hat 8 (by omega) g (hL g hg) hgn (.inl hg) ⟨m, hm, hk⟩
  have hall : ∀ f ∈ L, f ≠ n.pid → (sv f).outgoing = [] ∧ c.px f n.pid = [] ∧ c.px n.pid f = [] ∧ (sv f).ist.cache.batched_entries = [] := by
    intro f hf hfn
    obtain ⟨_, _, _, _, out, _, _, _, hl⟩ := h3.fol f (hL f hf) hfn
    refine ⟨List.eq_nil_iff_forall_not_mem.2 fun m hm => ?_, List.eq_nil_iff_forall_not_mem.2 fun m hm => ?_, List.eq_nil_iff_forall_not_mem.2 fun m hm => ?_,
      Classical.byContradiction fun hc => hat 5 (by omega) f (hL f hf) hfn (.inl hf) hc⟩
    · have h5 : m.msg ∈ out := by
        rw [hl.fol.outs]
        exact List.mem_map_of_mem hm
      rcases (hl.fol.replies _ h5).kinds with hk | hk
      · exact hat 6 (by omega) f (hL f hf) hfn (.inl hf) ⟨m, hm, hk⟩
      · exact hat 0 (by omega) f (hL f hf) hfn (.inl hf) ⟨m, hm, hk⟩
    · rcases (hl.src m hm).2.kinds with hk | hk
      · exact hat 7 (by omega) f (hL f hf) hfn (.inl hf) ⟨m, hm, hk⟩
      · exact hat 1 (by omega) f (hL f hf) hfn (.inl hf) ⟨m, hm, hk⟩
    · rcases Fed.all_kinds hl.down m.msg (List.mem_append_left _ (List.mem_map_of_mem hm)) with hk | hk
      · exact hat 4 (by omega) f (hL f hf) hfn (.inl hf) ⟨m, hm, hk⟩
      · exact hat 9 (by omega) f (hL f hf) hfn (.inl hf) ⟨m, hm, hk⟩
  have hf : ∀ f ∈ L, f ≠ n.pid → ∃ out, Fol n k (lg f) (ci f) f X [] ⟨(sv f).current_seq_num, X, d⟩ (k + X.length) out (sv f) ∧
      Keeps n f (sv f).current_seq_num (k + X.length) [] (sv n.pid) := by
    intro f hf hfn
    obtain ⟨q1, q2, q3, q4⟩ := hall f hf hfn
    obtain ⟨Xf, Bf, σ, a, out, q, al, ms, hl⟩ := h3.fol f (hL f hf) hfn
    have hms : ms = [] := by rw [hl.keeps.outs, hoL]; rfl
    have hout : out = [] := by rw [hl.fol.outs, q1]; rfl
    subst hms hout
    have hd := hl.down
    rw [q3] at hd
    simp only [List.map_nil, List.append_nil, Fed.all, Option.some.injEq] at hd
    have hu := hl.up
    rw [q2] at hu
    simp only [List.map_nil, List.append_nil, lastAcc] at hu
    have hBf : Bf = [] := by rw [← hl.fol.ist.batch]; exact q4
    subst hBf hd
    have hX : X = Xf := by have := hl.fol.fed; simpa using this
    subst hX
    have ha := hl.fol.accd
    have hs := hl.fol.seq
    simp only at hs
    subst hu ha
    refine ⟨[], ?_, ?_⟩
    · rw [hs]; exact hl.fol
    · rw [hs]; exact hl.keeps
  have hacc : ∀ x ∈ L, slot (sv n.pid).ls.accepted_indexes x = some (k + X.length) := by
    intro x hx
    by_cases e : x = n.pid
    · subst e; exact h3.lead.own
    · obtain ⟨_, _, h5⟩ := hf x hx e
      exact h5.acc
  have hd : d = k + X.length := Nat.le_antisymm h3.lead.dec (h3.chosen L hq hn ⟨g, hg, hgn⟩ _ hacc)
  subst hd
  obtain ⟨opL, l1, l2⟩ := h1 _ hn'
  refine ⟨X, ?_, fun P => ?_, fun f hf hfn => ?_, fun i hi => ?_⟩
  · simp only [Obs.all, Cluster.obs, l1, SP.obs, l2, h3.lead.ist.log, h3.lead.ist.batch, List.append_nil]
  · have := h4 P
    rw [List.append_nil] at this
    omega
  · obtain ⟨q1, q2, _⟩ := hall f hf hfn
    obtain ⟨op, e1, e2⟩ := h1 f (hL f hf)
    simp only [waiting, q2, Cluster.obs, e1, SP.obs, e2, q1]
    rfl
  · obtain ⟨op, e1, e2⟩ := h1 i (hL i hi)
    have hki := hk i (hL i hi)
    by_cases e : i = n.pid
    · subst e
      have hL := h3.lead
      rw [← e2] at hL
      refine ⟨op, e1, hL.pid, ⟨hL.ist.prom, hL.ist.nprom, by rw [if_pos hL.pid, hL.role], hL.phase, hL.ist.acc, hL.ist.dec, ?_, by rw [hL.ist.ccomp, hL.ist.comp],
        by rw [hL.ist.trim, hL.ist.comp], ⟨hL.ist.ss, hL.ist.dss⟩, hL.buf⟩, hL.ist.log, hL.ist.comp⟩
      rw [hL.ist.log, hL.ist.comp]
      simp only [List.length_append]
      omega
    · obtain ⟨out, hF, _⟩ := hf i hi e
      rw [← e2] at hF
      refine ⟨op, e1, hF.pid, ⟨hF.ist.prom, hF.ist.nprom, by rw [if_neg (by rw [hF.pid]; exact e), hF.role], hF.phase, hF.ist.acc, hF.ist.dec, ?_,
        by rw [hF.ist.ccomp, hF.ist.comp], by rw [hF.ist.trim, hF.ist.comp], ⟨hF.ist.ss, hF.ist.dss⟩, hF.buf⟩, hF.ist.log, hF.ist.comp⟩
      rw [hF.ist.log, hF.ist.comp]
      simp only [List.length_append]
      omega

end Omni
