import Verif.Proof.Steady.Put
/-
Steady operation: the invariant of the whole cluster.
-/
namespace Omni

variable {E S : Type} {n : Ballot} {k : Nat}

theorem Fed.step_grows {σ τ : Fed E} {m : PaxosMsg E S} (h : σ.step n k m = some τ) : σ.Y <+: τ.Y ∧ σ.d ≤ τ.d := by
  cases m <;> simp only [Fed.step] at h <;> first | cases h | skip
  all_goals
    split at h
    · simp only [Option.some.injEq] at h
      subst h
      exact ⟨by simp, by simp only; omega⟩
    · cases h

theorem Fed.all_grows {ms : List (PaxosMsg E S)} {σ τ : Fed E} (h : σ.all n k ms = some τ) : σ.Y <+: τ.Y ∧ σ.d ≤ τ.d := by
  induction ms generalizing σ with
  | nil => simp only [Fed.all, Option.some.injEq] at h; subst h; exact ⟨List.prefix_rfl, Nat.le_refl _⟩
  | cons m ms ih =>
    simp only [Fed.all] at h
    cases hs : σ.step n k m with
    | none => rw [hs] at h; cases h
    | some ρ =>
      rw [hs] at h
      have h1 := Fed.step_grows hs
      have h2 := ih h
      exact ⟨h1.1.trans h2.1, Nat.le_trans h1.2 h2.2⟩

/-- Leader and follower `f` with the links between them: what is on the way brings the follower to the leader's log `X` and decided
index `d`, and the leader's record of the follower's accepted index to that of the follower. -/
structure Link (n : Ballot) (k : Nat) (lg : List E) (ci : Nat) (f : NodeId) (X : List E) (d : Nat) (sF sL : SP E S)
    (toF toL : List (PaxosMessage E S)) (Xf Bf : List E) (σ : Fed E) (a : Nat) (out : List (PaxosMsg E S)) (q : SeqNum) (al : Nat)
    (ms : List (PaxosMsg E S)) : Prop where
  fol : Fol n k lg ci f Xf Bf σ a out sF
  keeps : Keeps n f q al ms sL
  down : σ.all n k (toF.map (·.msg) ++ ms) = some ⟨q, X, d⟩
  up : lastAcc al (toL.map (·.msg) ++ out) = a
  low : al ≤ a
  src : ∀ m ∈ toL, m.src = f ∧ m.msg.Reply n a

def Linked (n : Ballot) (k : Nat) (lg : List E) (ci : Nat) (f : NodeId) (X : List E) (d : Nat) (sF sL : SP E S)
    (toF toL : List (PaxosMessage E S)) : Prop :=
  ∃ Xf Bf σ a out q al ms, Link n k lg ci f X d sF sL toF toL Xf Bf σ a out q al ms

section link

variable {lg : List E} {ci : Nat} {f : NodeId} {X : List E} {d : Nat} {sF sL : SP E S} {toF toL : List (PaxosMessage E S)}
  {Xf Bf : List E} {σ : Fed E} {a : Nat} {out : List (PaxosMsg E S)} {q : SeqNum} {al : Nat} {ms : List (PaxosMsg E S)}

theorem Link.le (h : Link n k lg ci f X d sF sL toF toL Xf Bf σ a out q al ms) : a ≤ k + X.length := by
  have h1 := (Fed.all_grows h.down).1.length_le
  have h2 := h.fol.fed
  have h3 := h.fol.accd
  simp only at h1
  rw [h2] at h1
  simp only [List.length_append] at h1
  omega

/-- The leader's side changes without sending. -/
theorem Link.same (h : Link n k lg ci f X d sF sL toF toL Xf Bf σ a out q al ms) {sL' : SP E S} (hk : Keeps n f q al ms sL') :
    Linked n k lg ci f X d sF sL' toF toL :=
  ⟨Xf, Bf, σ, a, out, q, al, ms, h.fol, hk, h.down, h.up, h.low, h.src⟩

/-- The leader sends. -/
theorem Link.sent {w : Bool} (h : Link n k lg ci f X d sF sL toF toL Xf Bf σ a out q al ms) {sL' : SP E S} {es : List E} {d' : Nat} {q' : SeqNum}
    {ms' : List (PaxosMsg E S)} (hs : Sent n w q ms es d' q' ms') (hk : Keeps n f q' al ms' sL') (hd : d ≤ d') (hd' : d' ≤ k + (X ++ es).length) :
    Linked n k lg ci f (X ++ es) d' sF sL' toF toL :=
  ⟨Xf, Bf, σ, a, out, q', al, ms', h.fol, hk, hs.feed h.down hd (by simp at hd'; omega), h.up, h.low, h.src⟩

/-- The leader takes its messages. -/
theorem Link.takeL (h : Link n k lg ci f X d sF sL toF toL Xf Bf σ a out q al ms) (buf : List (Message E S)) :
    Linked n k lg ci f X d sF (sL.take_outgoing_msgs buf).2 (toF ++ sL.outgoing.filter fun m => decide (m.dst = f)) toL := by
  refine ⟨Xf, Bf, σ, a, out, q, al, [], h.fol, h.keeps.take buf, ?_, h.up, h.low, h.src⟩
  have := h.down
  rw [h.keeps.outs] at this
  simpa using this

/-- The follower takes its messages. -/
theorem Link.takeF (h : Link n k lg ci f X d sF sL toF toL Xf Bf σ a out q al ms) (buf : List (Message E S)) :
    Linked n k lg ci f X d (sF.take_outgoing_msgs buf).2 sL toF (toL ++ sF.outgoing.filter fun m => decide (m.dst = n.pid)) := by
  have hf : sF.outgoing.filter (fun m => decide (m.dst = n.pid)) = sF.outgoing :=
    List.filter_eq_self.2 fun m hm => by simpa using (h.fol.ends m hm).2
  rw [hf]
  refine ⟨Xf, Bf, σ, a, [], q, al, ms, h.fol.take buf, h.keeps, h.down, ?_, h.low, fun m hm => ?_⟩
  · have := h.up
    rw [h.fol.outs] at this
    simpa using this
  · rcases List.mem_append.1 hm with hm | hm
    · exact h.src m hm
    · exact ⟨(h.fol.ends m hm).1, h.fol.replies _ (by rw [h.fol.outs]; exact List.mem_map_of_mem hm)⟩

/-- The follower's state changes. -/
theorem Link.after (h : Link n k lg ci f X d sF sL toF toL Xf Bf σ a out q al ms) {τ : Fed E} {toF' : List (PaxosMessage E S)} {sF' : SP E S}
    (hd : τ.all n k (toF'.map (·.msg) ++ ms) = some ⟨q, X, d⟩) (hA : Fol.After n k lg ci f τ a out sF') :
    Linked n k lg ci f X d sF' sL toF' toL ∧ (sF'.outgoing.map (·.msg)).flatMap PaxosMsg.forwards = (sF.outgoing.map (·.msg)).flatMap PaxosMsg.forwards := by
  obtain ⟨X', B', a', out', h1, h2, h3⟩ := hA
  refine ⟨⟨X', B', τ, a', out', q, al, ms, h1, h.keeps, hd, h2.lastAcc h.up, Nat.le_trans h.low h3, fun m hm => ⟨(h.src m hm).1, (h.src m hm).2.mono h3⟩⟩, ?_⟩
  rw [← h1.outs, ← h.fol.outs]
  exact h2.forwards

/-- The follower handles the next message of the leader. -/
theorem Link.handleF [SnapOps E S] {m : PaxosMessage E S} (h : Link n k lg ci f X d sF sL (m :: toF) toL Xf Bf σ a out q al ms) :
    M.Sat (SP.handle m) sF (fun _ sF' => Linked n k lg ci f X d sF' sL toF toL ∧
      (sF'.outgoing.map (·.msg)).flatMap PaxosMsg.forwards = (sF.outgoing.map (·.msg)).flatMap PaxosMsg.forwards) (fun _ => False) := by
  have hd := h.down
  simp only [List.map_cons, List.cons_append, Fed.all] at hd
  cases hs : σ.step n k m.msg with
  | none => rw [hs] at hd; cases hd
  | some τ =>
    rw [hs] at hd
    simp only at hd
    unfold SP.handle
    cases hm : m.msg with
    | acceptDecide x =>
      rw [hm] at hs
      simp only
      exact M.sat_mono (h.fol.handle_acceptdecide hs) (fun _ t ht => h.after hd ht) fun _ h => h
    | decide x =>
      rw [hm] at hs
      simp only
      exact M.sat_mono (h.fol.handle_decide hs) (fun _ t ht => h.after hd ht) fun _ h => h
    | _ => rw [hm] at hs; simp [Fed.step] at hs

/-- The leader has received an Accepted. -/
theorem Link.popAccepted {m : PaxosMessage E S} {x : Accepted} (h : Link n k lg ci f X d sF sL toF (m :: toL) Xf Bf σ a out q al ms)
    (hm : m.msg = .accepted x) : lastAcc x.accepted_idx (toL.map (·.msg) ++ out) = a ∧ x.accepted_idx ≤ a ∧ x.n = n ∧ m.src = f := by
  have h1 := h.src m List.mem_cons_self
  rw [hm] at h1
  have h2 := h.up
  simp only [List.map_cons, List.cons_append, hm, lastAcc] at h2
  exact ⟨h2, h1.2.2, h1.2.1, h1.1⟩

/-- The leader has received forwarded proposals. -/
theorem Link.popForward {m : PaxosMessage E S} {es : List E} (h : Link n k lg ci f X d sF sL toF (m :: toL) Xf Bf σ a out q al ms)
    (hm : m.msg = .proposalForward es) : Link n k lg ci f X d sF sL toF toL Xf Bf σ a out q al ms := by
  have h2 := h.up
  simp only [List.map_cons, List.cons_append, hm, lastAcc] at h2
  exact ⟨h.fol, h.keeps, h.down, h2, h.low, fun m hm => h.src m (List.mem_cons_of_mem _ hm)⟩

/-- The follower forwards a proposal. -/
theorem Link.forward (h : Link n k lg ci f X d sF sL toF toL Xf Bf σ a out q al ms) {es : List E} {sF' : SP E S}
    (hF : Fol n k lg ci f Xf Bf σ a (out ++ [.proposalForward es]) sF') :
    Linked n k lg ci f X d sF' sL toF toL ∧
      (sF'.outgoing.map (·.msg)).flatMap PaxosMsg.forwards = (sF.outgoing.map (·.msg)).flatMap PaxosMsg.forwards ++ es := by
  refine ⟨⟨Xf, Bf, σ, a, _, q, al, ms, hF, h.keeps, h.down, ?_, h.low, h.src⟩, ?_⟩
  · rw [← List.append_assoc, lastAcc_append, h.up]; rfl
  · rw [← hF.outs, ← h.fol.outs]
    simp [PaxosMsg.forwards]

end link

/-- Replace the state of one server. -/
def upd (sv : NodeId → SP E S) (i : NodeId) (s : SP E S) : NodeId → SP E S := fun j => if j = i then s else sv j

@[simp] theorem upd_self (sv : NodeId → SP E S) (i : NodeId) (s : SP E S) : upd sv i s i = s := by simp [upd]
theorem upd_other {sv : NodeId → SP E S} {i j : NodeId} {s : SP E S} (h : j ≠ i) : upd sv i s j = sv j := by simp [upd, h]

/-- Replace the messages on one link. -/
def updL (lk : NodeId → NodeId → List (PaxosMessage E S)) (i j : NodeId) (l : List (PaxosMessage E S)) :
    NodeId → NodeId → List (PaxosMessage E S) := fun a b => if a = i ∧ b = j then l else lk a b

@[simp] theorem updL_self (lk : NodeId → NodeId → List (PaxosMessage E S)) (i j : NodeId) (l : List (PaxosMessage E S)) : updL lk i j l i j = l := by simp [updL]
theorem updL_other {lk : NodeId → NodeId → List (PaxosMessage E S)} {i j a b : NodeId} {l : List (PaxosMessage E S)} (h : a ≠ i ∨ b ≠ j) :
    updL lk i j l a b = lk a b := by
  simp only [updL]
  rw [if_neg]
  rintro ⟨rfl, rfl⟩
  rcases h with h | h <;> exact h rfl

/-- The invariant, apart from the count of the entries. -/
structure SteadyInv (cc : ClusterConfig) (n : Ballot) (k : Nat) (lg : NodeId → List E) (ci : NodeId → Nat) (X B : List E) (d : Nat)
    (sv : NodeId → SP E S) (lk : NodeId → NodeId → List (PaxosMessage E S)) : Prop where
  lead : Lead cc n k (lg n.pid) (ci n.pid) X B d (sv n.pid)
  fol : ∀ f ∈ cc.nodes, f ≠ n.pid → Linked n k (lg f) (ci f) f X d (sv f) (sv n.pid) (lk n.pid f) (lk f n.pid)
  chosen : AllChosen cc n (sv n.pid).ls.accepted_indexes d
  unused : ∀ i ∈ cc.nodes, ∀ j ∈ cc.nodes, (i = n.pid ↔ j = n.pid) → lk i j = []

/-- The forwarded proposals of `f` on the way. -/
def fwd (n : Ballot) (sv : NodeId → SP E S) (lk : NodeId → NodeId → List (PaxosMessage E S)) (f : NodeId) : List E :=
  ((lk f n.pid).map (·.msg)).flatMap PaxosMsg.forwards ++ ((sv f).outgoing.map (·.msg)).flatMap PaxosMsg.forwards

/-- Every appended entry is with the leader or forwarded. -/
def Counted (cc : ClusterConfig) (n : Ballot) (A Z : List E) (sv : NodeId → SP E S) (lk : NodeId → NodeId → List (PaxosMessage E S)) : Prop :=
  ∀ P : E → Bool, A.countP P = Z.countP P + ((SP.peersOf cc.nodes n.pid).map fun f => (fwd n sv lk f).countP P).sum

theorem sum_change {l : List NodeId} (hn : l.Nodup) {F G : NodeId → Nat} {f : NodeId} (hf : f ∈ l) (h : ∀ g ∈ l, g ≠ f → G g = F g)
    {x y : Nat} (he : G f + x = F f + y) : (l.map G).sum + x = (l.map F).sum + y := by
  induction l with
  | nil => cases hf
  | cons g l ih =>
    have hnd := List.nodup_cons.1 hn
    simp only [List.map_cons, List.sum_cons]
    by_cases hg : g = f
    · subst hg
      have : l.map G = l.map F := List.map_congr_left fun z hz => h z (List.mem_cons_of_mem _ hz) fun e => hnd.1 (e ▸ hz)
      rw [this]
      omega
    · have hf' : f ∈ l := by rcases List.mem_cons.1 hf with e | e; exact absurd e.symm hg; exact e
      have h1 := ih hnd.2 hf' fun z hz => h z (List.mem_cons_of_mem _ hz)
      have h2 := h g List.mem_cons_self hg
      omega

theorem mem_peers {cc : ClusterConfig} {f i : NodeId} : f ∈ SP.peersOf cc.nodes i ↔ f ∈ cc.nodes ∧ f ≠ i := by
  simp [SP.peersOf]

/-- One follower's forwarded proposals change. -/
theorem Counted.change {cc : ClusterConfig} (hn : cc.nodes.Nodup) {A Z A' Z' : List E} {sv sv' : NodeId → SP E S}
    {lk lk' : NodeId → NodeId → List (PaxosMessage E S)} (h : Counted cc n A Z sv lk) {f : NodeId} (hf : f ∈ cc.nodes) (hfn : f ≠ n.pid)
    (ho : ∀ g ∈ cc.nodes, g ≠ n.pid → g ≠ f → fwd n sv' lk' g = fwd n sv lk g)
    (he : ∀ P, (fwd n sv' lk' f).countP P + (Z'.countP P + A.countP P) = (fwd n sv lk f).countP P + (Z.countP P + A'.countP P)) :
    Counted cc n A' Z' sv' lk' := by
  intro P
  have h1 := sum_change (l := SP.peersOf cc.nodes n.pid) (hn.filter _) (F := fun f => (fwd n sv lk f).countP P)
    (G := fun f => (fwd n sv' lk' f).countP P) (f := f) (mem_peers.2 ⟨hf, hfn⟩)
    (fun g hg hgf => by rw [ho g (mem_peers.1 hg).1 (mem_peers.1 hg).2 hgf]) (he P)
  have h2 := h P
  omega

/-- Nobody's forwarded proposals change. -/
theorem Counted.same {cc : ClusterConfig} {A Z A' Z' : List E} {sv sv' : NodeId → SP E S}
    {lk lk' : NodeId → NodeId → List (PaxosMessage E S)} (h : Counted cc n A Z sv lk)
    (ho : ∀ g ∈ cc.nodes, g ≠ n.pid → fwd n sv' lk' g = fwd n sv lk g) (he : ∀ P, Z'.countP P + A.countP P = Z.countP P + A'.countP P) :
    Counted cc n A' Z' sv' lk' := by
  intro P
  have : ((SP.peersOf cc.nodes n.pid).map fun f => (fwd n sv' lk' f).countP P) = (SP.peersOf cc.nodes n.pid).map fun f => (fwd n sv lk f).countP P :=
    List.map_congr_left fun g hg => by rw [ho g (mem_peers.1 hg).1 (mem_peers.1 hg).2]
  rw [this]
  have h1 := h P
  have h2 := he P
  omega

end Omni
