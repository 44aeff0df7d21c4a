import Verif.Proof.Progress.Base
/-
Single steps of a run that makes progress.
-/
namespace Omni

variable {E S : Type} [SnapOps E S] {cc : ClusterConfig} {c : Cluster E S}

/-- The standing assumptions: `L` and `Fs` are a quorum of both kinds. -/
structure Setup (E S : Type) [SnapOps E S] (cc : ClusterConfig) (L : NodeId) (Fs : List NodeId) : Prop where
  snap : SnapOps.use_snapshots E S = false
  pids : 0 ∉ cc.nodes
  valid : cc.validate = .ok ()
  prep : PrepareQuorum cc (L :: Fs)
  acc : AcceptQuorum cc (L :: Fs)

variable {L : NodeId} {Fs : List NodeId} {e : E}

theorem Setup.two (H : Setup E S cc L Fs) : 2 ≤ (L :: Fs).length := by
  have hv := H.valid
  have hs := H.prep.size
  unfold ClusterConfig.validate at hv
  simp only at hv
  split at hv
  · cases hv
  · rename_i h1
    split at hv
    · cases hv
    · cases hq : cc.flexible_quorum with
      | none => rw [hq] at hs; simp only at hs; omega
      | some q =>
        rw [hq] at hs hv
        simp only at hs hv
        split at hv
        · cases hv
        · split at hv
          · cases hv
          · rename_i h2; have := Classical.not_not.1 h2; omega

theorem Setup.other (H : Setup E S cc L Fs) (i : NodeId) : ∃ p ∈ cc.nodes, p ≠ i := by
  have h2 := H.two
  have hm := H.prep.members
  have hd := H.prep.distinct
  cases Fs with
  | nil => simp at h2
  | cons F Fs =>
    by_cases h : L = i
    · refine ⟨F, hm F (by simp), fun e => (List.nodup_cons.1 hd).1 ?_⟩
      rw [h, ← e]; simp
    · exact ⟨L, hm L (by simp), h⟩

theorem peers_length {nodes : List NodeId} {i : NodeId} (h : i ∈ nodes) : (SP.peersOf nodes i).length + 1 ≤ nodes.length := by
  have := List.length_filter_lt_length_iff_exists (p := fun p => decide (p ≠ i)) (l := nodes)
  have := this.2 ⟨i, h, by simp⟩
  exact this

theorem Setup.prepare (H : Setup E S cc L Fs) {k : Nat} (hk : (L :: Fs).length ≤ k) : (quorumAt cc L).is_prepare_quorum k = true := by
  have hs := H.prep.size
  have hl := peers_length (H.prep.members L (by simp))
  unfold quorumAt Quorum.with Quorum.is_prepare_quorum
  cases hq : cc.flexible_quorum with
  | none => rw [hq] at hs; simp only at hs; simp; omega
  | some q => rw [hq] at hs; simp only at hs; simp; omega

theorem Setup.accept (H : Setup E S cc L Fs) {k : Nat} (hk : (L :: Fs).length ≤ k) : (quorumAt cc L).is_accept_quorum k = true := by
  have hs := H.acc.size
  have hl := peers_length (H.acc.members L (by simp))
  unfold quorumAt Quorum.with Quorum.is_accept_quorum
  cases hq : cc.flexible_quorum with
  | none => rw [hq] at hs; simp only at hs; simp; omega
  | some q => rw [hq] at hs; simp only at hs; simp; omega

/-! ### Changing one server or one link -/

section frame
omit [SnapOps E S]

@[simp] theorem Cluster.setServer_self (i : NodeId) (s : Server E S) : (c.setServer i s).servers i = s := by simp [Cluster.setServer]

theorem Cluster.setServer_other {i j : NodeId} (h : j ≠ i) (s : Server E S) : (c.setServer i s).servers j = c.servers j := by
  simp [Cluster.setServer, h]

@[simp] theorem Cluster.setServer_net (i : NodeId) (s : Server E S) : (c.setServer i s).net = c.net := rfl

@[simp] theorem Cluster.setNet_servers (i j : NodeId) (l : List (Message E S)) : (c.setNet i j l).servers = c.servers := rfl

@[simp] theorem Cluster.setNet_self (i j : NodeId) (l : List (Message E S)) : (c.setNet i j l).net i j = l := by simp [Cluster.setNet]

theorem Cluster.setNet_other {i j a b : NodeId} (h : a ≠ i ∨ b ≠ j) (l : List (Message E S)) :
    (c.setNet i j l).net a b = c.net a b := by
  simp only [Cluster.setNet]
  rw [if_neg]
  rintro ⟨rfl, rfl⟩
  rcases h with h | h <;> exact h rfl

theorem Cluster.setNet_same (i j : NodeId) : c.setNet i j (c.net i j) = c := by
  cases c with
  | mk sv nt =>
    simp only [Cluster.setNet, Cluster.mk.injEq, true_and]
    funext a b
    split
    · rename_i h; rw [h.1, h.2]
    · rfl

theorem Cluster.setNet_twice (i j : NodeId) (l l' : List (Message E S)) : (c.setNet i j l).setNet i j l' = c.setNet i j l' := by
  simp only [Cluster.setNet, Cluster.mk.injEq, true_and]
  funext a b
  split <;> rfl

/-- After `take_outgoing_messages` at `i`. -/
def Cluster.taken (c : Cluster E S) (i : NodeId) (op : OP E S) : Cluster E S :=
  { servers := fun j => if j = i then .up (op.take_outgoing_messages []).2 else c.servers j
    net := fun a b => if a = i then c.net a b ++ (op.take_outgoing_messages []).1.filter (fun m => decide (m.dst = b)) else c.net a b }

theorem Cluster.taken_self (i : NodeId) (op : OP E S) : (c.taken i op).servers i = .up (op.take_outgoing_messages []).2 := by
  simp [Cluster.taken]

theorem Cluster.taken_other {i j : NodeId} (h : j ≠ i) (op : OP E S) : (c.taken i op).servers j = c.servers j := by
  simp [Cluster.taken, h]

theorem Cluster.taken_net_other {i a : NodeId} (h : a ≠ i) (op : OP E S) (b : NodeId) : (c.taken i op).net a b = c.net a b := by
  simp [Cluster.taken, h]

theorem Cluster.taken_net (i : NodeId) (op : OP E S) (b : NodeId) : ∃ r, (c.taken i op).net i b =
    c.net i b ++ ((op.sp.outgoing.filter fun m => decide (m.dst = b)).map Message.paxos ++ r) := by
  refine ⟨(op.ble.outgoing.map Message.ble).filter (fun m => decide (m.dst = b)), ?_⟩
  simp only [Cluster.taken, if_true, OP.take_outgoing_messages, SP.take_outgoing_msgs, List.isEmpty_nil, List.filter_append, List.append_cancel_left_eq]
  rw [List.filter_map]
  rfl

end frame

/-! ### Steps -/

theorem go_drop {i j : NodeId} (xs : List (Message E S)) {ys : List (Message E S)} (h : c.net i j = xs ++ ys) :
    Go cc (Action.Helpful (L :: Fs) L e) c (c.setNet i j ys) := by
  induction xs generalizing c with
  | nil => rw [List.nil_append] at h; rw [← h, Cluster.setNet_same]; exact Go.refl
  | cons x xs ih =>
    have h1 : Go cc (Action.Helpful (L :: Fs) L e) c (c.setNet i j (xs ++ ys)) :=
      Go.one (a := .lose i j 0) trivial nofun (by simp [Cluster.step, h])
    have h2 := ih (c := c.setNet i j (xs ++ ys)) (Cluster.setNet_self ..)
    rw [Cluster.setNet_twice] at h2
    exact h1.trans h2

theorem go_clear (i j : NodeId) : Go cc (Action.Helpful (L :: Fs) L e) c (c.setNet i j []) :=
  go_drop (c.net i j) (List.append_nil _).symm

theorem go_take {i : NodeId} (hi : i ∈ L :: Fs) {op : OP E S} (hop : c.servers i = .up op) :
    Go cc (Action.Helpful (L :: Fs) L e) c (c.taken i op) :=
  Go.one (a := .take i) hi trivial (by simp only [Cluster.step, hop]; rfl)

theorem go_deliver (H : Setup E S cc L Fs) (hr : c.PlainReachable cc) {i j : NodeId} (hi : i ∈ L :: Fs) (hj : j ∈ L :: Fs)
    {m : PaxosMessage E S} {rest : List (Message E S)} (hn : c.net i j = .paxos m :: rest) {op : OP E S} (hop : c.servers j = .up op)
    (ht : ∀ x ∈ op.sp.outgoing, ∀ a, x.msg ≠ .acceptDecide a) {Q : Unit → SP E S → Prop} (hd : Does (SP.handle m) op.clearTrail.sp Q) :
    ∃ sp', Q () sp' ∧ Go cc (Action.Helpful (L :: Fs) L e) c ((c.setNet i j rest).setServer j (.up { op with sp := sp' })) ∧
      ∀ d ∈ sp'.ist.trail, d.ld ≤ d.log.length := by
  have hd' : Does (Call.handleIncoming (.paxos m)).run op.clearTrail fun _ op' => ∃ sp', op' = { op with sp := sp' } ∧ Q () sp' := by
    simp only [Does, Call.run, OP.handle_incoming, OP.sat_onSP]
    exact M.sat_mono hd (fun _ t ht => ⟨t, rfl, ht⟩) fun _ h => h
  obtain ⟨op', h1, sp', rfl, h2⟩ := hr.call H.snap H.pids hop (call := .handleIncoming (.paxos m)) trivial
    (fun x hx => ⟨i, by cases hx; rw [hn]; exact List.mem_cons_self⟩) hd'
  have tidy : ∀ a : Action E S, (a = .deliver i j ∨ ∃ k, a = .crashDeliver i j k) → c.Tidy a := by
    intro a ha
    rcases ha with rfl | ⟨k, rfl⟩ <;>
    · intro _ m' rest' p op'' _ _ hs x hx _ b hb
      rw [hop] at hs
      cases hs
      exact absurd hb (ht x hx b)
  refine ⟨sp', h2, Go.one (a := .deliver i j) ⟨hi, hj⟩ (tidy _ (.inl rfl)) ?_, fun d hd => ?_⟩
  · simp only [Cluster.step, hn, hop, OP.callResult, h1]
  · obtain ⟨k, hk, hd⟩ := List.mem_iff_getElem.1 hd
    have hs : c.step cc (.crashDeliver i j k) = some ((c.setNet i j rest).setServer j (.down d)) := by
      simp only [Cluster.step, hn, hop, OP.callTrail, h1, List.getElem?_eq_getElem hk, hd]
    have hg : Go cc (Action.Only Call.Plain) c ((c.setNet i j rest).setServer j (.down d)) :=
      Go.one (a := .crashDeliver i j k) trivial (tidy _ (.inr ⟨k, rfl⟩)) hs
    exact (hr.go hg fun _ h => h).disk H.snap H.pids (i := j) (Cluster.setServer_self ..)

theorem go_call (H : Setup E S cc L Fs) (hr : c.PlainReachable cc) {call : Call E S} (hc : (Action.call L call).Helpful (L :: Fs) L e)
    {op : OP E S} (hop : c.servers L = .up op) {Q : Unit → OP E S → Prop} (hd : Does call.run op.clearTrail Q) :
    ∃ op', Q () op' ∧ Go cc (Action.Helpful (L :: Fs) L e) c (c.setServer L (.up op')) := by
  have hp : call.Plain := (Action.Helpful.plain hc : (Action.call L call).Only Call.Plain)
  have hi : call.isIncoming = false := by cases call <;> first | rfl | exact hc.elim
  obtain ⟨op', h1, h2⟩ := hr.call H.snap H.pids hop hp (fun m e => by subst e; cases hi) hd
  refine ⟨op', h2, Go.one (a := .call L call) hc trivial ?_⟩
  simp only [Cluster.step, hop, hi, OP.callResult, h1, Bool.false_eq_true, if_false]

theorem go_start (H : Setup E S cc L Fs) {i : NodeId} (hi : i ∈ L :: Fs) {d : Mem E S} (hd : c.servers i = .down d) :
    ∃ op, Go cc (Action.Helpful (L :: Fs) L e) c (c.setServer i (.up op)) := by
  have hm := H.prep.members i hi
  have h0 : i ≠ 0 := fun h => H.pids (h ▸ hm)
  obtain ⟨op, hb⟩ := (C45_build { cluster_config := cc, server_config := { pid := i } } d).1.2 ⟨H.valid, by simp [ServerConfig.validate, h0], hm, H.other i⟩
  exact ⟨op, Go.one (a := .start i { pid := i }) hi trivial (by simp only [Cluster.step, hd, hb, if_true])⟩

end Omni
