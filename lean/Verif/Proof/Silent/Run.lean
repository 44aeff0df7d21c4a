import Verif.Proof.Steady.Order
import Verif.Proof.Silent.Ghost
import Verif.Props.Tempo
/-
Silent servers: rounds of the others.
-/
namespace Omni

variable {E S : Type} [SnapOps E S] {cc : ClusterConfig} {n : Ballot} {k f : Nat} {L : List NodeId}

/-- An accept quorum has more than one server. -/
theorem AcceptQuorum.other (hv : cc.validate = .ok ()) (hq : AcceptQuorum cc L) (i : NodeId) : ∃ f ∈ L, f ≠ i := by
  have h2 : 2 ≤ L.length := by
    have hs := hq.size
    unfold ClusterConfig.validate at hv
    simp only at hv
    split at hv
    · cases hv
    · split at hv
      · cases hv
      · cases hf : cc.flexible_quorum with
        | none => rw [hf] at hs; simp only at hs; omega
        | some q =>
          rw [hf] at hv hs
          simp only at hv hs
          repeat' split at hv
          all_goals first | omega | cases hv
  have hnd := hq.distinct
  match L, h2 with
  | a :: b :: r, _ =>
    by_cases e : a = i
    · refine ⟨b, by simp, fun e' => ?_⟩
      rw [e, e'] at hnd
      simp at hnd
    · exact ⟨a, by simp, e⟩

/-- As many beats as the flush timeouts have ticks are a round. -/
theorem Cluster.LBeats.turns {c0 c c' : Cluster E S} {bss xs : List (List (Action E S))} (h0 : Cluster.LBeats cc L c0 xs c) (hL : ∀ x ∈ L, x ∈ cc.nodes)
    (hw : c0.Wound cc f) (h : Cluster.LBeats cc L c bss c') (hl : bss.length = f) (hf : 0 < f) : c.TurnsL cc L bss.flatten := by
  have hc : ∀ {c c' : Cluster E S} {bss : List (List (Action E S))}, Cluster.LBeats cc L c bss c' → ∀ i ∈ L, bss.flatten.countP (Action.isTick i) = bss.length := by
    intro c c' bss h i hi
    induction h with
    | nil c => rfl
    | cons h1 _ _ ih => rw [List.flatten_cons, List.countP_append, ih, h1.ticks i hi, List.length_cons, Nat.add_comm]
  have ht := hc h
  cases h with
  | nil c => subst hl; cases hf
  | cons h1 h2 h3 =>
    refine ⟨fun i hi => ?_, fun i hi j hj => ?_, fun i hi op hop => ?_⟩
    · rw [List.flatten_cons]
      exact List.mem_append_left _ (h1.taken i hi)
    · rw [List.flatten_cons, List.countP_append]
      exact Nat.le_trans (h1.delivered i hi j hj) (Nat.le_add_right _ _)
    · obtain ⟨o, u, -, e2, e3⟩ := h0.clocks hi hop
      obtain ⟨-, w1, w2⟩ := hw i (hL i hi) o u
      rw [ht i hi, hl]
      exact ⟨e3 w1, by omega⟩

/-- Beats make rounds. -/
theorem Cluster.LBeats.rounds {c0 : Cluster E S} (hL : ∀ x ∈ L, x ∈ cc.nodes) (hw : c0.Wound cc f) (hf : 0 < f) (r : Nat) :
    ∀ {c c' : Cluster E S} {xs bss : List (List (Action E S))}, Cluster.LBeats cc L c0 xs c → Cluster.LBeats cc L c bss c' → bss.length = f * r →
      c.Steady cc n bss.flatten → (∀ a ∈ bss.flatten, a.Of cc L) → bss.flatten.filterMap Action.entry? = [] → Cluster.RoundsL cc L n r c c' := by
  induction r with
  | zero =>
    intro c c' xs bss _ h hl _ _ _
    have : bss = [] := List.eq_nil_of_length_eq_zero hl
    subst this
    cases h
    exact .zero c
  | succ r ih =>
    intro c c' xs bss h0 h hl hs ho he
    rw [Nat.mul_succ] at hl
    rw [← List.take_append_drop f bss] at h hs ho he
    obtain ⟨c1, h1, h2⟩ := h.split
    have l1 : (bss.take f).length = f := by rw [List.length_take]; omega
    have l2 : (bss.drop f).length = f * r := by rw [List.length_drop]; omega
    rw [List.flatten_append] at hs ho he
    rw [List.filterMap_append, List.append_eq_nil_iff] at he
    exact .more _ (fun a ha => ho a (List.mem_append_left _ ha)) hs.left he.1 (h0.turns hL hw h1 l1 hf) h1.run
      (ih (h0.append h1) h2 l2 (hs.right h1.run) (fun a ha => ho a (List.mem_append_right _ ha)) he.2)

/-- A run with silent servers. -/
theorem silent_steady (hv : cc.validate = .ok ()) (hd : cc.nodes.Nodup) {c c1 g : Cluster E S} (h : c.Settled cc n k) (hl : c.Loyal cc n) (hw : c.Wound cc f)
    (hq : AcceptQuorum cc L) (hn : n.pid ∈ L) {xs ys : List (List (Action E S))} (h1 : Cluster.Beats cc c xs c1) (h2 : Cluster.LBeats cc L c1 ys g)
    (ho : ∀ a ∈ ys.flatten, a.Of cc L) :
    c.Steady cc n (xs.flatten ++ ys.flatten) ∧ c.run cc (xs.flatten ++ ys.flatten) = some g ∧ g.Loyal cc n ∧
      g.Flows cc n k c.diskLog c.diskComp (xs.flatten.filterMap Action.entry? ++ ys.flatten.filterMap (Action.entryAt? L)) := by
  have hr : c.run cc (xs.flatten ++ ys.flatten) = some g := by rw [Cluster.run_append, h1.run]; exact h2.run
  obtain ⟨s1, s2⟩ := C74_stays_leader cc hv hd n k c h hl _ (prompt_silent h1 h2 ho hw hq hn)
  refine ⟨s1, hr, s2 g hr, ?_⟩
  have := h.flows.run hv hd s1 hr
  rwa [List.nil_append, List.filterMap_append, entries_of ho] at this

/-- The beats of the others, after enough of them without further entries. -/
theorem silent_decided (hv : cc.validate = .ok ()) (hd : cc.nodes.Nodup) {c c1 g1 g2 : Cluster E S} (h : c.Settled cc n k) (hl : c.Loyal cc n) (hw : c.Wound cc f)
    (hq : AcceptQuorum cc L) (hn : n.pid ∈ L) (h0 : ∃ i ∈ L, i ≠ n.pid) {xs ys zs : List (List (Action E S))} (h1 : Cluster.Beats cc c xs c1)
    (h2 : Cluster.LBeats cc L c1 ys g1) (h3 : Cluster.LBeats cc L g1 zs g2)
    (ho : ∀ a ∈ ys.flatten, a.Of cc L) (ho3 : ∀ a ∈ zs.flatten, a.Of cc L) (hz : 10 * f ≤ zs.length) (he : zs.flatten.filterMap (Action.entryAt? L) = []) :
    ∃ (X : List E) (T : List NodeId), T.length = X.length ∧ (∀ i ∈ T, i ∈ cc.nodes) ∧
      (∀ i ∈ L, labelled X T i = appendedAt i (xs.flatten ++ ys.flatten)) ∧ (∀ i ∈ cc.nodes, i ∉ L → labelled X T i <+: appendedAt i xs.flatten) ∧
      ∀ i ∈ L, ∃ op, g2.servers i = .up op ∧ op.sp.pid = i ∧ op.sp.AtRest n (k + X.length) ∧
        op.sp.ist.storage.log = (c.servers i).disk.log ++ X ∧ op.sp.ist.storage.compacted_idx = (c.servers i).disk.compacted_idx := by
  have hL := hq.members
  have hf := hw.pos h
  have e := Nat.div_add_mod zs.length f
  have hm := Nat.mod_lt zs.length hf
  have hr10 : 10 ≤ zs.length / f := (Nat.le_div_iff_mul_le hf).2 hz
  rw [← List.take_append_drop (zs.length % f) zs] at h3 ho3 he
  obtain ⟨g, a1, a2⟩ := h3.split
  rw [List.flatten_append] at ho3 he
  rw [List.filterMap_append, List.append_eq_nil_iff] at he
  have o1 : ∀ a ∈ (zs.take (zs.length % f)).flatten, a.Of cc L := fun a ha => ho3 a (List.mem_append_left _ ha)
  have o2 : ∀ a ∈ (zs.drop (zs.length % f)).flatten, a.Of cc L := fun a ha => ho3 a (List.mem_append_right _ ha)
  have oy : ∀ a ∈ (ys ++ zs.take (zs.length % f)).flatten, a.Of cc L := fun a ha => by
    rw [List.flatten_append] at ha
    exact (List.mem_append.1 ha).elim (ho a) (o1 a)
  have j1 := h2.append a1
  obtain ⟨s1, r1, -, f1⟩ := silent_steady hv hd h hl hw hq hn h1 j1 oy
  obtain ⟨s2, r2, -⟩ := silent_steady hv hd h hl hw hq hn h1 (j1.append a2) (fun a ha => by
    rw [List.flatten_append] at ha
    exact (List.mem_append.1 ha).elim (oy a) (o2 a))
  rw [List.flatten_append, ← List.append_assoc] at s2 r2
  have rs := Cluster.LBeats.rounds (n := n) hL hw hf (zs.length / f) ((h1.live hL).append j1) a2 (by rw [List.length_drop]; omega) (s2.right r1) o2
    (by rw [entries_of o2]; exact he.2)
  rw [List.flatten_append, List.filterMap_append (l := ys.flatten), he.1, List.append_nil] at f1
  obtain ⟨f2, p2⟩ := f1.roundsL hv hd hL hn h0 rs (s := 0) fun j hj => absurd hj (Nat.not_lt_zero j)
  obtain ⟨X, x1, x2, x3, x4⟩ := f2.quietL hq hn h0 (fun i hi => by
    obtain ⟨op, e1, _, e2⟩ := h.server i hi
    have := e2.log
    simpa only [Cluster.diskComp, Cluster.diskLog, e1, Server.disk] using this) (fun j hj => p2 j (by omega))
  obtain ⟨Z, T, o⟩ := h.ordered hv hd s2 r2
  have hx := o.log
  rw [x1] at hx
  have hz : Z = X := (List.append_cancel_left hx).symm
  subst hz
  have none_at : ∀ {i} {as : List (Action E S)}, i ∈ L → as.filterMap (Action.entryAt? L) = [] → appendedAt i as = [] := by
    intro i as hi ha
    rw [List.filterMap_eq_nil_iff] at ha
    refine List.filterMap_eq_nil_iff.2 fun a hm => ?_
    have := ha a hm
    cases a with
    | call j cl =>
      cases cl with
      | append e =>
        simp only [Action.entryAt?] at this ⊢
        split at this
        · cases this
        · rename_i hj
          exact if_neg fun hc => hj (by rw [List.mem_singleton.1 hc]; exact hi)
      | _ => rfl
    | _ => rfl
  have none_of : ∀ {i} {as : List (Action E S)}, i ∉ L → (∀ a ∈ as, a.Of cc L) → appendedAt i as = [] := by
    intro i as hi ha
    refine List.filterMap_eq_nil_iff.2 fun a hm => ?_
    have := ha a hm
    cases a with
    | call j cl =>
      cases cl with
      | append e => exact if_neg fun hc => hi (by rw [← List.mem_singleton.1 hc]; exact this)
      | _ => rfl
    | _ => rfl
  refine ⟨Z, T, o.size, o.labels, fun i hi => ?_, fun i hi hil => ?_, x4⟩
  · have : labelled Z T i = appendedAt i (xs.flatten ++ (ys ++ zs.take (zs.length % f)).flatten ++ (zs.drop (zs.length % f)).flatten) := by
      by_cases hin : i = n.pid
      · rw [hin]; exact o.lead
      · rw [← o.fol i (hL i hi) hin, x3 i hi hin, List.append_nil]
    rw [this]
    have z1 := none_at hi he.1
    have z2 := none_at hi he.2
    simp only [appendedAt, List.flatten_append, List.filterMap_append] at z1 z2 ⊢
    rw [z1, z2, List.append_nil, List.append_nil]
  · have := o.fol i hi fun e => hil (by rw [e]; exact hn)
    have z1 := none_of hil oy
    have z2 := none_of hil o2
    refine ⟨waiting n g2.obs g2.px i, this.trans ?_⟩
    simp only [appendedAt, List.flatten_append, List.filterMap_append] at z1 z2 ⊢
    rw [z1, z2, List.append_nil, List.append_nil]

end Omni
