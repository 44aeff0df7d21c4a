import Verif.Proof.Steady.End
import Verif.Proof.Steady.Load
import Verif.Spec.Order
/-
Steady operation: the leader's log is an interleaving of what was appended at each server.
-/
namespace Omni

variable {E S : Type} {n : Ballot} {k : Nat} {cc : ClusterConfig} {lg : NodeId → List E} {ci : NodeId → Nat} {A : List E}

theorem labelled_append {X Y : List E} {T U : List NodeId} (h : T.length = X.length) (i : NodeId) :
    labelled (X ++ Y) (T ++ U) i = labelled X T i ++ labelled Y U i := by
  simp only [labelled, List.zip_append h.symm, List.filter_append, List.map_append]

theorem labelled_same (Y : List E) (i : NodeId) : labelled Y (List.replicate Y.length i) i = Y := by
  induction Y with
  | nil => rfl
  | cons y Y ih =>
    simp only [labelled] at ih
    simp [labelled, List.replicate_succ, ih]

theorem labelled_other (Y : List E) {i j : NodeId} (h : j ≠ i) : labelled Y (List.replicate Y.length i) j = [] := by
  induction Y with
  | nil => rfl
  | cons y Y ih =>
    simp only [labelled] at ih
    simp only [labelled, List.length_cons, List.replicate_succ, List.zip_cons_cons, List.filter_cons, ih]
    rw [if_neg (by simpa using fun e => h e.symm)]
    exact ih

theorem sum_mono {l : List NodeId} {F G : NodeId → Nat} (h : ∀ f ∈ l, F f ≤ G f) : (l.map F).sum ≤ (l.map G).sum := by
  induction l with
  | nil => exact Nat.le_refl _
  | cons f l ih =>
    simp only [List.map_cons, List.sum_cons]
    have := h f List.mem_cons_self
    have := ih fun y hy => h y (List.mem_cons_of_mem _ hy)
    omega

theorem sum_forces {l : List NodeId} {F G : NodeId → Nat} (h : ∀ f ∈ l, F f ≤ G f) (hs : (l.map G).sum ≤ (l.map F).sum) : ∀ f ∈ l, G f = F f := by
  induction l with
  | nil => nofun
  | cons y l ih =>
    simp only [List.map_cons, List.sum_cons] at hs
    have h1 := h y List.mem_cons_self
    have h2 : ∀ f ∈ l, F f ≤ G f := fun f hf => h f (List.mem_cons_of_mem _ hf)
    have h3 := sum_mono h2
    intro f hf
    rcases List.mem_cons.1 hf with rfl | hf
    · omega
    · exact ih h2 (by omega) f hf

theorem Cluster.Flows.counts {c : Cluster E S} (h : c.Flows cc n k lg ci A) (hn : n.pid ∈ cc.nodes) (P : E → Bool) :
    (lg n.pid).countP P + A.countP P = (c.obs n.pid).all.countP P +
      ((SP.peersOf cc.nodes n.pid).map fun f => (waiting n c.obs c.px f).countP P).sum := by
  obtain ⟨sv, h1, X, B, d, h3, h4⟩ := h
  have h5 : ((SP.peersOf cc.nodes n.pid).map fun f => (fwd n sv c.px f).countP P) =
      (SP.peersOf cc.nodes n.pid).map fun f => (waiting n c.obs c.px f).countP P := by
    refine List.map_congr_left fun f hf => ?_
    obtain ⟨op, e1, e2⟩ := h1 f (mem_peers.1 hf).1
    simp only [fwd, waiting, Cluster.obs, e1, SP.obs, e2]
  obtain ⟨opL, l1, l2⟩ := h1 _ hn
  have h6 : (c.obs n.pid).all = lg n.pid ++ X ++ B := by
    simp only [Obs.all, Cluster.obs, l1, SP.obs, l2, h3.lead.ist.log, h3.lead.ist.batch]
  have := h4 P
  rw [h5] at this
  rw [h6]
  simp only [List.countP_append] at this ⊢
  omega

/-- The leader's new entries `Z` are, labelled by `T`, what each server appended, `A i`, up to what it has forwarded and the leader not received. -/
structure Cluster.Ordered (cc : ClusterConfig) (n : Ballot) (lgL : List E) (c : Cluster E S) (A : NodeId → List E) (Z : List E) (T : List NodeId) : Prop where
  log : (c.obs n.pid).all = lgL ++ Z
  size : T.length = Z.length
  labels : ∀ i ∈ T, i ∈ cc.nodes
  lead : labelled Z T n.pid = A n.pid
  fol : ∀ i ∈ cc.nodes, i ≠ n.pid → labelled Z T i ++ waiting n c.obs c.px i = A i

theorem prefix_eq {l l' : List E} (h : l <+: l') (hc : l'.length = l.length) : l' = l := (h.eq_of_length hc.symm).symm

theorem Cluster.Flows.ordered [SnapOps E S] {c c' : Cluster E S} (h : c.Flows cc n k lg ci A) (hv : cc.validate = .ok ()) (hnd : cc.nodes.Nodup)
    (hn : n.pid ∈ cc.nodes) {a : Action E S} (ha : a.Calm cc) (hs : c.step cc a = some c') (ht : ∀ i, a = .call i .tick → c'.LedBy cc n) {Af : NodeId → List E}
    {Z : List E} {T : List NodeId} (ho : c.Ordered cc n (lg n.pid) Af Z T) :
    ∃ Z' T', c'.Ordered cc n (lg n.pid) (fun i => Af i ++ (a.entryAt? [i]).toList) Z' T' := by
  have hm := h.moves hv hnd hn ha hs ht
  have h' := h.step hv hnd ha hs ht
  have c1 := h.counts hn
  have c2 := h'.counts hn
  have len : ∀ l : List E, l.countP (fun _ => true) = l.length := fun l => by simp
  -- nothing changes but the leader's log, by what it received from `g`
  have same : ∀ (g : NodeId) (Y : List E), g ∈ cc.nodes → (c'.obs n.pid).all = (c.obs n.pid).all ++ Y →
      (g ≠ n.pid → waiting n c.obs c.px g = Y ++ waiting n c'.obs c'.px g) → (g = n.pid → Y = (a.entryAt? [n.pid]).toList) →
      (∀ i ∈ cc.nodes, i ≠ n.pid → a.entryAt? [i] = none) → (g ≠ n.pid → a.entryAt? [n.pid] = none) →
      (∀ f ∈ cc.nodes, f ≠ n.pid → f ≠ g → waiting n c'.obs c'.px f = waiting n c.obs c.px f) →
      ∃ Z' T', c'.Ordered cc n (lg n.pid) (fun i => Af i ++ (a.entryAt? [i]).toList) Z' T' := by
    intro g Y hg h1 h2 h3 h4 h5 h6
    refine ⟨Z ++ Y, T ++ List.replicate Y.length g, by rw [h1, ho.log, List.append_assoc], by simp [ho.size], fun i hi => ?_, ?_, fun i hi hin => ?_⟩
    · rcases List.mem_append.1 hi with hi | hi
      · exact ho.labels i hi
      · rw [List.eq_of_mem_replicate hi]; exact hg
    · rw [labelled_append ho.size, ho.lead]
      by_cases e : g = n.pid
      · rw [e, labelled_same, h3 e]
      · rw [labelled_other Y (fun e2 => e e2.symm), h5 e]; rfl
    · rw [labelled_append ho.size, h4 i hi hin, Option.toList_none, List.append_nil, ← ho.fol i hi hin]
      by_cases e : i = g
      · subst e; rw [labelled_same, List.append_assoc, h2 hin]
      · rw [labelled_other Y e, h6 i hi hin e, List.append_nil]
  by_cases hae : a.entry? = none
  · have hno : ∀ i, a.entryAt? [i] = none := by
      intro i
      cases a with
      | call j cl => cases cl <;> first | rfl | cases hae
      | _ => rfl
    rw [hae, Option.toList_none, List.append_nil] at c2
    have c3 := (c1 fun _ => true).symm.trans (c2 fun _ => true)
    simp only [len] at c3
    by_cases hdv : ∃ g m, c.dv a = some (g, n.pid, m)
    · obtain ⟨g, m, e⟩ := hdv
      have hg : g ∈ cc.nodes := by
        cases a with
        | deliver i j =>
          simp only [Cluster.dv] at e
          split at e
          · cases e; exact ha.1
          · cases e
        | _ => cases e
      have h1 := hm.came g m e
      have hlen := congrArg List.length h1
      rw [List.length_append] at hlen
      have hot : ∀ f ∈ cc.nodes, f ≠ n.pid → f ≠ g → waiting n c.obs c.px f <+: waiting n c'.obs c'.px f := fun f hf hfn hfg =>
        hm.more f hf hfn fun m' e3 => hfg (by rw [e] at e3; simp only [Option.some.injEq, Prod.mk.injEq] at e3; exact e3.1.symm)
      by_cases hgn : g = n.pid
      · have h7 := sum_mono (l := SP.peersOf cc.nodes n.pid) (F := fun f => (waiting n c.obs c.px f).length) (G := fun f => (waiting n c'.obs c'.px f).length)
          fun f hf => (hot f (mem_peers.1 hf).1 (mem_peers.1 hf).2 (by rw [hgn]; exact (mem_peers.1 hf).2)).length_le
        have h8 : m.forwards = [] := List.eq_nil_of_length_eq_zero (by omega)
        have h9 := sum_forces (l := SP.peersOf cc.nodes n.pid) (F := fun f => (waiting n c.obs c.px f).length) (G := fun f => (waiting n c'.obs c'.px f).length)
          (fun f hf => (hot f (mem_peers.1 hf).1 (mem_peers.1 hf).2 (by rw [hgn]; exact (mem_peers.1 hf).2)).length_le) (by omega)
        exact same g [] hg (by rw [← h1, h8]) (fun hc => absurd hgn hc) (fun _ => by rw [hno]; rfl) (fun i _ _ => hno i) (fun _ => hno _)
          fun f hf hfn hfg => prefix_eq (hot f hf hfn hfg) (h9 f (mem_peers.2 ⟨hf, hfn⟩))
      · have h2 := hm.less g hg hgn m e
        have h2l := congrArg List.length h2
        rw [List.length_append] at h2l
        -- move the message back to the waiting entries
        have h7 : ∀ f ∈ SP.peersOf cc.nodes n.pid, (waiting n c.obs c.px f).length ≤ (waiting n c'.obs c'.px f).length + if f = g then m.forwards.length else 0 := by
          intro f hf
          by_cases e2 : f = g
          · subst e2; rw [if_pos rfl]; omega
          · rw [if_neg e2]; exact (hot f (mem_peers.1 hf).1 (mem_peers.1 hf).2 e2).length_le
        have h8 : ((SP.peersOf cc.nodes n.pid).map fun f => (waiting n c'.obs c'.px f).length + if f = g then m.forwards.length else 0).sum =
            ((SP.peersOf cc.nodes n.pid).map fun f => (waiting n c'.obs c'.px f).length).sum + m.forwards.length := by
          have := sum_change (l := SP.peersOf cc.nodes n.pid) (hnd.filter _) (F := fun f => (waiting n c'.obs c'.px f).length)
            (G := fun f => (waiting n c'.obs c'.px f).length + if f = g then m.forwards.length else 0) (mem_peers.2 ⟨hg, hgn⟩)
            (fun f _ hfg => by simp [hfg]) (x := 0) (y := m.forwards.length) (by simp)
          omega
        have h9 := sum_forces h7 (by omega)
        refine same g m.forwards hg h1.symm (fun _ => h2) (fun hc => absurd hc hgn) (fun i _ _ => hno i) (fun _ => hno _) fun f hf hfn hfg => ?_
        have := h9 f (mem_peers.2 ⟨hf, hfn⟩)
        rw [if_neg hfg] at this
        exact prefix_eq (hot f hf hfn hfg) this
    · have hot : ∀ f ∈ SP.peersOf cc.nodes n.pid, waiting n c.obs c.px f <+: waiting n c'.obs c'.px f := fun f hf =>
        hm.more f (mem_peers.1 hf).1 (mem_peers.1 hf).2 fun m e => hdv ⟨f, m, e⟩
      have h7 := sum_mono (l := SP.peersOf cc.nodes n.pid) (F := fun f => (waiting n c.obs c.px f).length) (G := fun f => (waiting n c'.obs c'.px f).length)
        fun f hf => (hot f hf).length_le
      have h8 := hm.all.length_le
      have h9 := sum_forces (l := SP.peersOf cc.nodes n.pid) (F := fun f => (waiting n c.obs c.px f).length) (G := fun f => (waiting n c'.obs c'.px f).length)
        (fun f hf => (hot f hf).length_le) (by omega)
      exact same n.pid [] hn (by rw [prefix_eq hm.all (by omega), List.append_nil]) (fun hc => absurd rfl hc) (fun _ => by rw [hno]; rfl) (fun i _ _ => hno i)
        (fun _ => hno _) fun f hf hfn _ => prefix_eq (hot f (mem_peers.2 ⟨hf, hfn⟩)) (h9 f (mem_peers.2 ⟨hf, hfn⟩))
  · -- an entry is appended
    obtain ⟨i, e, rfl⟩ : ∃ i e, a = .call i (.append e) := by
      cases a with
      | call i cl =>
        cases cl with
        | append e => exact ⟨i, e, rfl⟩
        | _ => exact absurd rfl hae
      | _ => exact absurd rfl hae
    have hi : i ∈ cc.nodes := ha
    have hat : ∀ j, (Action.call i (.append e) : Action E S).entryAt? [j] = if i = j then some e else none := fun j => by
      simp only [Action.entryAt?, List.mem_singleton]
    have others : ∀ f, f ≠ i → c'.obs f = c.obs f ∧ waiting n c'.obs c'.px f = waiting n c.obs c.px f := by
      intro f hfi
      simp only [Cluster.step] at hs
      cases hx : c.servers i with
      | down d => rw [hx] at hs; cases hs
      | up o =>
        rw [hx] at hs
        simp only [Call.isIncoming, Bool.false_eq_true, if_false, Option.some.injEq] at hs
        subst hs
        have e1 : ∀ s, (c.setServer i s).obs f = c.obs f := fun s => by simp only [Cluster.obs, Cluster.setServer_other hfi]
        exact ⟨e1 _, by simp only [waiting, e1]; rfl⟩
    have one : ∀ {l l' : List E}, l <+: l' → (∀ P : E → Bool, l'.countP P = l.countP P + [e].countP P) → l' = l ++ [e] := by
      intro l l' hp hc
      obtain ⟨r, rfl⟩ := hp
      have hl := hc fun _ => true
      simp only [len, List.length_append, List.length_singleton] at hl
      match r, hl with
      | [x], _ =>
        classical
        have := hc fun y => decide (y = e)
        simp only [List.countP_append, List.countP_singleton, decide_true, if_true] at this
        by_cases hx : x = e
        · rw [hx]
        · simp [hx] at this
      | [], hl => simp at hl
      | _ :: _ :: _, hl => simp at hl
    by_cases hin : i = n.pid
    · subst hin
      have hw : ∀ P : E → Bool, ((SP.peersOf cc.nodes n.pid).map fun f => (waiting n c'.obs c'.px f).countP P) =
          (SP.peersOf cc.nodes n.pid).map fun f => (waiting n c.obs c.px f).countP P := fun P =>
        List.map_congr_left fun f hf => by rw [(others f (mem_peers.1 hf).2).2]
      refine same n.pid [e] hn (one hm.all fun P => ?_) (fun hc => absurd rfl hc) (fun _ => by rw [hat, if_pos rfl]; rfl)
        (fun j _ hj => by rw [hat, if_neg fun e => hj e.symm]) (fun hc => absurd rfl hc) fun f _ hfn _ => (others f hfn).2
      have k1 := c1 P
      have k2 := c2 P
      rw [hw, List.countP_append] at k2
      have : ((Action.call n.pid (.append e) : Action E S).entry?.toList) = [e] := rfl
      rw [this] at k2
      omega
    · have hall := (others n.pid fun e => hin e.symm).1
      have hp : waiting n c.obs c.px i <+: waiting n c'.obs c'.px i := hm.more i hi hin nofun
      have hw := one hp fun P => by
        have k1 := c1 P
        have k2 := c2 P
        rw [hall, List.countP_append] at k2
        have : ((Action.call i (.append e) : Action E S).entry?.toList) = [e] := rfl
        rw [this] at k2
        have := sum_change (l := SP.peersOf cc.nodes n.pid) (hnd.filter _) (F := fun f => (waiting n c.obs c.px f).countP P)
          (G := fun f => (waiting n c'.obs c'.px f).countP P) (mem_peers.2 ⟨hi, hin⟩) (fun f _ hfg => by simp only [(others f hfg).2])
          (x := (waiting n c.obs c.px i).countP P) (y := (waiting n c'.obs c'.px i).countP P) (Nat.add_comm _ _)
        omega
      refine ⟨Z, T, by rw [hall]; exact ho.log, ho.size, ho.labels, ?_, fun j hj hjn => ?_⟩
      · simp only [hat, if_neg hin, Option.toList_none, List.append_nil]
        exact ho.lead
      · simp only [hat]
        by_cases e2 : i = j
        · subst e2
          rw [if_pos rfl, hw, ← List.append_assoc, ho.fol i hj hjn]
          rfl
        · rw [if_neg e2, (others j fun e => e2 e.symm).2, ho.fol j hj hjn]
          simp

theorem Cluster.Flows.ordered_run [SnapOps E S] {c c' : Cluster E S} {as : List (Action E S)} (h : c.Flows cc n k lg ci A) (hv : cc.validate = .ok ())
    (hnd : cc.nodes.Nodup) (hn : n.pid ∈ cc.nodes) (hst : c.Steady cc n as) (hr : c.run cc as = some c') {Af : NodeId → List E}
    {Z : List E} {T : List NodeId} (ho : c.Ordered cc n (lg n.pid) Af Z T) :
    ∃ Z' T', c'.Ordered cc n (lg n.pid) (fun i => Af i ++ appendedAt i as) Z' T' := by
  induction as generalizing c A Af Z T with
  | nil =>
    simp only [Cluster.run, Option.some.injEq] at hr
    subst hr
    exact ⟨Z, T, by simpa [appendedAt] using ho⟩
  | cons a as ih =>
    simp only [Cluster.run] at hr
    cases hs : c.step cc a with
    | none => rw [hs] at hr; cases hr
    | some c1 =>
      rw [hs] at hr
      have ha := hst.calm a List.mem_cons_self
      have ht : ∀ i, a = .call i .tick → c1.LedBy cc n := fun i hi => hst.elected i 0 c1 (by rw [hi]; rfl) (by simp [Cluster.run, hs])
      obtain ⟨Z1, T1, h1⟩ := h.ordered hv hnd hn ha hs ht ho
      have h2 := ih (h.step hv hnd ha hs ht) ⟨fun b hb => hst.calm b (List.mem_cons_of_mem _ hb), fun i j c2 hj hr2 =>
        hst.elected i (j + 1) c2 (by simpa using hj) (by simpa [Cluster.run, hs] using hr2)⟩ hr h1
      have e : ∀ i, appendedAt i (a :: as) = (a.entryAt? [i]).toList ++ appendedAt i as := fun i => by
        simp only [appendedAt, List.filterMap_cons]
        cases a.entryAt? [i] <;> rfl
      simp only [e, ← List.append_assoc]
      exact h2

/-- From where everything is done: the labels. -/
theorem Cluster.Settled.ordered [SnapOps E S] {c c' : Cluster E S} {as : List (Action E S)} (h : c.Settled cc n k) (hv : cc.validate = .ok ())
    (hnd : cc.nodes.Nodup) (hst : c.Steady cc n as) (hr : c.run cc as = some c') :
    ∃ Z T, c'.Ordered cc n (c.servers n.pid).disk.log (fun i => appendedAt i as) Z T := by
  obtain ⟨op, e1, _⟩ := h.server _ h.member
  have h1 := h.flows.ordered_run hv hnd h.member hst hr (Af := fun _ => []) (Z := []) (T := []) ⟨?_, rfl, nofun, rfl, fun i hi hin => ?_⟩
  · simpa [Cluster.diskLog] using h1
  · simp only [Cluster.diskLog, Cluster.obs, e1, Server.disk, Obs.all, SP.obs, (h.quiet.servers _ h.member op e1).2, List.append_nil]
  · obtain ⟨o, f1, _⟩ := h.server _ hi
    show [] ++ waiting n c.obs c.px i = []
    simp only [waiting, Cluster.obs, f1, SP.obs, (h.quiet.servers _ hi o f1).1, px_quiet h.quiet hi h.member]
    rfl

end Omni
