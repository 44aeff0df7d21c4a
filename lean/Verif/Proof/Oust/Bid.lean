import Verif.Proof.Oust.Ahead
import Verif.Proof.Oust.Promised
import Verif.Proof.Safety.Links
/-
The promises of `W` reach its leader, which then enters the Accept phase.
-/
namespace Omni

variable {E S : Type} [SnapOps E S] {cc : ClusterConfig} {W : Ballot}
variable {c c' : Cluster E S} {a : Action E S} {as : List (Action E S)} {i j k s t : NodeId}

/-! ### What the history says -/

/-- The leader of `W` has accepted in it. -/
def Led (W : Ballot) (c : Cluster E S) : Prop := W ≤ ((c.servers W.pid).disk.acc_round.getD {})

/-- Everybody runs, and no ballot is greater than `W`. -/
structure Capped (cc : ClusterConfig) (W : Ballot) (c : Cluster E S) : Prop where
  reach : c.Reachable cc Links.all
  node : W.pid ∈ cc.nodes
  cap : ∀ k ∈ cc.nodes, ∃ op, c.servers k = .up op ∧ op.sp.ist.cache.promise ≤ W
  top : ∀ k ∈ cc.nodes, ∀ op, c.servers k = .up op → W ≤ op.sp.ist.cache.promise → op.sp.ist.cache.promise = W
  only : ∀ op, c.servers W.pid = .up op → W ≤ op.sp.ist.cache.accepted_round → op.sp.ist.cache.accepted_round = W

theorem Cluster.Reachable.inv {rel : Links} (h : c.Reachable cc rel) : ∃ G, RInv cc c G rel := by
  obtain ⟨as, h1, h2⟩ := h
  obtain ⟨G, -, h3⟩ := (RInv.init cc (fun _ => false)).run h1 h2
  exact ⟨G, h3⟩

theorem Cluster.Reachable.arisen {rel : Links} (h : c.Reachable cc rel) : Arisen cc c := by
  obtain ⟨as, _, h⟩ := h
  exact ⟨as, h⟩

theorem Action.Calm.tidy (ha : a.Calm cc) : c.Tidy a Links.all := by
  cases a with
  | deliver i j => exact fun h => by cases h
  | call i cl => trivial
  | take i => trivial
  | _ => exact ha.elim

theorem tidy_append {bs : List (Action E S)} {rel : Links} : ∀ {as : List (Action E S)} {c c' : Cluster E S}, c.TidyRun cc as rel → c.run cc as = some c' → c'.TidyRun cc bs rel → c.TidyRun cc (as ++ bs) rel
  | [], _, _, _, h, h' => by cases h; exact h'
  | a :: as, c, c', h1, h2, h3 => by
    refine ⟨h1.1, fun d hd => ?_⟩
    simp only [Cluster.run, hd] at h2
    exact tidy_append (h1.2 d hd) h2 h3

theorem Cluster.Reachable.step (h : c.Reachable cc Links.all) (ha : a.Calm cc) (hs : c.step cc a = some c') : c'.Reachable cc Links.all := by
  obtain ⟨as, h1, h2⟩ := h
  exact ⟨as ++ [a], tidy_append h1 h2 ⟨ha.tidy, fun _ _ => trivial⟩, Cluster.reach_append h2 (by simp [Cluster.run, hs])⟩

theorem Cluster.Reachable.run (h : c.Reachable cc Links.all) (ha : ∀ a ∈ as, a.Calm cc) (hs : c.run cc as = some c') : c'.Reachable cc Links.all := by
  induction as generalizing c with
  | nil => cases hs; exact h
  | cons a as ih =>
    simp only [Cluster.run] at hs
    cases h1 : c.step cc a with
    | none => rw [h1] at hs; cases hs
    | some c1 =>
      rw [h1] at hs
      exact ih (h.step (ha a (List.mem_cons_self ..)) h1) (fun b hb => ha b (List.mem_cons_of_mem _ hb)) hs

theorem Led.step (h : Led W c) (hr : c.Reachable cc Links.all) (ha : a.Calm cc) (hs : c.step cc a = some c') : Led W c' := by
  obtain ⟨G, h1⟩ := hr.inv
  obtain ⟨G', hM, h2⟩ := h1.step ha.tidy hs
  obtain ⟨lg, d1⟩ := (h1.srv W.pid).disk
  obtain ⟨lg', d2⟩ := (h2.srv W.pid).disk
  exact Ballot.le_trans h (d2.accMax _ (hM.acc_ne (by rw [d1.acc]; simp)))

theorem Led.run (h : Led W c) (hr : c.Reachable cc Links.all) (ha : ∀ a ∈ as, a.Calm cc) (hs : c.run cc as = some c') : Led W c' := by
  induction as generalizing c with
  | nil => cases hs; exact h
  | cons a as ih =>
    simp only [Cluster.run] at hs
    cases h1 : c.step cc a with
    | none => rw [h1] at hs; cases hs
    | some c1 =>
      rw [h1] at hs
      have hc := ha a (List.mem_cons_self ..)
      exact ih (h.step hr hc h1) (hr.step hc h1) (fun b hb => ha b (List.mem_cons_of_mem _ hb)) hs

/-- A leader in the Accept phase has accepted in its ballot. -/
theorem Won.led (hr : c.Reachable cc Links.all) {op : OP E S} (hop : c.servers W.pid = .up op) (h : Won W op.sp) : Led W c := by
  obtain ⟨G, h1⟩ := hr.inv
  obtain ⟨lg, hC, hR⟩ := h1.toCInv.up hop
  unfold RoleInv at hR
  rw [h.1, h.2.1] at hR
  unfold Led
  rw [hop]
  show W ≤ op.sp.ist.storage.acc_round.getD {}
  rw [← hC.mir.acc, hR.acc, h.2.2]
  exact Ballot.le_refl W

/-- Conversely. -/
theorem Led.won (h : Led W c) (hr : Capped cc W c) {op : OP E S} (hop : c.servers W.pid = .up op) (hl : op.sp.role = .leader) (hn : op.sp.ls.n_leader = W) : op.sp.phase = .accept := by
  obtain ⟨G, h1⟩ := hr.reach.inv
  obtain ⟨lg, hC, hR⟩ := h1.toCInv.up hop
  unfold RoleInv at hR
  rw [hl] at hR
  cases e : op.sp.phase with
  | accept => rfl
  | prepare =>
    rw [e] at hR
    have h2 := hR.noacc
    rw [hn] at h2
    unfold Led at h
    rw [hop] at h
    have h3 : W ≤ op.sp.ist.storage.acc_round.getD {} := h
    rw [← hC.mir.acc] at h3
    have h5 := hC.disk.acc
    rw [← hC.mir.acc, hr.only op hop h3, h2] at h5
    cases h5
  | _ => rw [e] at hR; exact hR.elim

/-- What is in flight. -/
theorem Capped.msg (h : Capped cc W c) {m : PaxosMessage E S} (hm : .paxos m ∈ c.net s t) :
    m.src = s ∧ (Led W c ∨ Mild W m.msg) ∧ ∀ p, m.msg = .prepare p → p.n.pid = s ∧ ∀ op, c.servers s = .up op → p.n ≤ op.sp.ist.cache.promise := by
  obtain ⟨G, h1⟩ := h.reach.inv
  have hm : m ∈ c.pre s t := by simp only [Cluster.pre, paxOf, List.mem_filterMap]; exact ⟨_, hm, rfl⟩
  have hsrc := ((h1.srv s).src t m hm).1
  have hok := ((h1.srv s).link t).msg m (List.mem_append_left _ hm)
  have hnode := hok.node.1
  rw [hsrc] at hnode
  obtain ⟨op, u, hcap⟩ := h.cap s hnode
  obtain ⟨lg, hC, -⟩ := h1.toCInv.up u
  have hprom := hC.mir.prom
  have hprep : ∀ p, m.msg = .prepare p → p.n.pid = s ∧ p.n ≤ op.sp.ist.cache.promise := by
    intro p e
    have hb := hok.body fun b q hq => by rw [e] at hq; cases hq
    rw [e, hsrc] at hb
    exact ⟨hb.1, by rw [hprom]; exact hC.disk.precMax _ hb.2.1⟩
  refine ⟨hsrc, ?_, fun p e => ⟨(hprep p e).1, fun op' u' => ?_⟩⟩
  · by_cases hL : Led W c
    · exact .inl hL
    · refine .inr ⟨fun b q hq => ?_, fun p e => Ballot.le_trans (hprep p e).2 hcap, fun b e => ?_⟩
      · obtain ⟨h2, h3⟩ := hok.lead b q hq
        rw [hsrc] at h2 h3
        have h4 := hC.disk.accMax b h3
        have h5 : b ≤ W := Ballot.le_trans h4 (Ballot.le_trans hC.disk.le (by rw [← hprom]; exact hcap))
        refine Ballot.not_le.1 fun h6 => hL ?_
        have e : s = W.pid := by
          rw [← h2]
          simp only [Ballot.le_iff, Ballot.lt_iff] at h5 h6
          clear h1 hm hok hprep hprom hC h4 h3
          omega
        unfold Led
        rw [← e, u]
        exact Ballot.le_trans h6 h4
      · have hb := hok.body fun b q hq => by rw [e] at hq; cases hq
        rw [e, hsrc] at hb
        rcases hb with rfl | hb
        · exact Ballot.default_le W
        · exact Ballot.le_trans (hC.disk.precMax _ hb) (by rw [← hprom]; exact hcap)
  · rw [u] at u'
    cases u'
    exact (hprep p e).2

/-! ### The promise of one server -/

def IsProm (W : Ballot) (x : PaxosMessage E S) : Prop := ∃ p, x.msg = .promise p ∧ p.n = W

/-- There is a promise of `W` and no PrepareReq after it; or no PrepareReq, and the promise has arrived. -/
def Borne (W : Ballot) (l : List (PaxosMessage E S)) (P : Prop) : Prop :=
  (∃ p x q, l = p ++ x :: q ∧ IsProm W x ∧ ∀ y ∈ q, y.msg.isReq = false) ∨ (∀ y ∈ l, y.msg.isReq = false) ∧ P

/-- What is known of a link, of the messages about to enter it, and of the arrival of the promise. -/
abbrev Ride (E S : Type) := List (Message E S) → List (PaxosMessage E S) → Prop → Prop

/-- How that changes with a step, which is a delivery of the link or is not. -/
structure Drift (W : Ballot) (R R' : Ride E S) (b : Bool) : Prop where
  add : b = false → ∀ {net out new P P'}, R net out P → (∀ y ∈ new, y.msg.isReq = false) → (P → P') → R' net (out ++ new) P'
  take : b = false → ∀ {net out new P}, R net out P → paxOf new = out → R' (net ++ new) [] P
  tail : b = true → ∀ {m net out P P'}, R (m :: net) out P → (∀ x, m = .paxos x → IsProm W x → P') → ((∀ x, m = .paxos x → x.msg.isReq = false) → P → P') → R' net out P'

section borne
omit [SnapOps E S]
variable {l new : List (PaxosMessage E S)} {P P' : Prop}

theorem Borne.append (h : Borne W l P) (hn : ∀ y ∈ new, y.msg.isReq = false) : Borne W (l ++ new) P := by
  rcases h with ⟨p, x, q, e, h1, h2⟩ | ⟨h1, h2⟩
  · exact .inl ⟨p, x, q ++ new, by rw [e]; simp, h1, fun y hy => (List.mem_append.1 hy).elim (h2 y) (hn y)⟩
  · exact .inr ⟨fun y hy => (List.mem_append.1 hy).elim (h1 y) (hn y), h2⟩

theorem Borne.mono (h : Borne W l P) (hp : P → P') : Borne W l P' := h.imp id fun h => ⟨h.1, hp h.2⟩

theorem Borne.tail {x : PaxosMessage E S} (h : Borne W (x :: l) P) (h1 : IsProm W x → P') (h2 : x.msg.isReq = false → P → P') : Borne W l P' := by
  rcases h with ⟨p, y, q, e, h3, h4⟩ | ⟨h3, h4⟩
  · cases p with
    | nil => cases e; exact .inr ⟨h4, h1 h3⟩
    | cons z p => cases e; exact .inl ⟨p, y, q, rfl, h3, h4⟩
  · exact .inr ⟨fun y hy => h3 y (List.mem_cons_of_mem _ hy), h2 (h3 x (List.mem_cons_self ..)) h4⟩

theorem Borne.nil (h : Borne W ([] : List (PaxosMessage E S)) P) : P := by
  rcases h with ⟨p, x, q, e, -⟩ | h
  · simp at e
  · exact h.2

theorem Borne.next {m : Message E S} {net : List (Message E S)} {out : List (PaxosMessage E S)} (h : Borne W (paxOf (m :: net) ++ out) P)
    (h1 : ∀ x, m = .paxos x → IsProm W x → P') (h2 : (∀ x, m = .paxos x → x.msg.isReq = false) → P → P') : Borne W (paxOf net ++ out) P' := by
  cases m with
  | ble b => exact Borne.mono (by simpa [paxOf] using h) (h2 nofun)
  | paxos x =>
    have h : Borne W (x :: (paxOf net ++ out)) P := by simpa [paxOf] using h
    exact h.tail (h1 x rfl) fun e => h2 (by rintro y e'; cases e'; exact e)

theorem paxOf_append (a b : List (Message E S)) : paxOf (a ++ b) = paxOf a ++ paxOf b := by simp [paxOf]

/-- Somewhere. -/
def Somewhere (W : Ballot) : Ride E S := fun net out P => Borne W (paxOf net ++ out) P

/-- Among the next `N` messages of the link. -/
def Within (W : Ballot) (N : Nat) : Ride E S := fun net out P =>
  ∃ A B, net = A ++ B ∧ A.length ≤ N ∧ Borne W (paxOf A) P ∧ (∀ y ∈ paxOf B, y.msg.isReq = false) ∧ ∀ y ∈ out, y.msg.isReq = false

theorem Somewhere.flow (b : Bool) : Drift W (Somewhere W : Ride E S) (Somewhere W) b where
  add _ net out new P P' h hn hp := by
    unfold Somewhere at *
    rw [← List.append_assoc]
    exact (h.append hn).mono hp
  take _ net out new P h e := by
    unfold Somewhere at *
    rw [paxOf_append, e, List.append_nil]
    exact h
  tail _ _ _ _ _ _ h h1 h2 := Borne.next h h1 h2

theorem Within.flow (N : Nat) : Drift W (Within W N : Ride E S) (Within W N) false where
  add _ net out new P P' h hn hp := by
    obtain ⟨A, B, e, h1, h2, h3, h4⟩ := h
    exact ⟨A, B, e, h1, h2.mono hp, h3, fun y hy => (List.mem_append.1 hy).elim (h4 y) (hn y)⟩
  take _ net out new P h e := by
    obtain ⟨A, B, e', h1, h2, h3, h4⟩ := h
    refine ⟨A, B ++ new, by rw [e']; simp, h1, h2, fun y hy => ?_, nofun⟩
    rw [paxOf_append, e] at hy
    exact (List.mem_append.1 hy).elim (h3 y) (h4 y)
  tail := nofun

theorem Within.pop (N : Nat) : Drift W (Within W N : Ride E S) (Within W (N - 1)) true where
  add := nofun
  take := nofun
  tail _ m net out P P' h k1 k2 := by
    obtain ⟨A, B, e, h1, h2, h3, h4⟩ := h
    cases A with
    | nil =>
      simp only [List.nil_append] at e
      subst e
      refine ⟨[], net, rfl, Nat.zero_le _, .inr ⟨nofun, k2 (fun x e => ?_) h2.nil⟩, fun y hy => h3 y ?_, h4⟩
      · subst e; exact h3 x (by simp [paxOf])
      · unfold paxOf at hy ⊢; rw [List.mem_filterMap] at hy ⊢; obtain ⟨z, hz, e⟩ := hy; exact ⟨z, List.mem_cons_of_mem _ hz, e⟩
    | cons a A =>
      simp only [List.cons_append, List.cons.injEq] at e
      obtain ⟨rfl, rfl⟩ := e
      refine ⟨A, B, rfl, by simp only [List.length_cons] at h1; omega, ?_, h3, h4⟩
      have := Borne.next (out := []) (by rw [List.append_nil]; exact h2) k1 k2
      rwa [List.append_nil] at this

theorem Within.of_somewhere {net : List (Message E S)} (h : Somewhere W net [] P) : Within W net.length net [] P :=
  ⟨net, [], by simp, Nat.le_refl _, by unfold Somewhere at h; rwa [List.append_nil] at h, nofun, nofun⟩

theorem Within.fit {N : Nat} {net : List (Message E S)} {out : List (PaxosMessage E S)} (h : Within W N net out P) : Within W net.length net out P := by
  obtain ⟨A, B, rfl, h1, h2⟩ := h
  exact ⟨A, B, rfl, by simp, h2⟩

theorem Within.zero {net : List (Message E S)} {out : List (PaxosMessage E S)} (h : Within W 0 net out P) : P := by
  obtain ⟨A, B, rfl, h1, h2, -⟩ := h
  cases A with
  | nil => exact h2.nil
  | cons a A => simp at h1

end borne

/-- What `op` will send to `i`. -/
def OP.out (op : OP E S) (i : NodeId) : List (PaxosMessage E S) := op.sp.outgoing.filter fun m => decide (m.dst = i)

/-- How far the promise of `j` has come. -/
structure Bids (W : Ballot) (j : NodeId) (R : Ride E S) (c : Cluster E S) : Prop where
  lead : ∀ op, c.servers W.pid = .up op → op.sp.ist.cache.promise = W → Bidding W op.sp
  fol : ∀ op oi, c.servers j = .up op → c.servers W.pid = .up oi → op.sp.ist.cache.promise = W →
    Firm W op.sp ∧ oi.sp.ist.cache.promise = W ∧ R (c.net j W.pid) (op.out W.pid) (Holds oi.sp j)

variable {R R' : Ride E S}

/-- The leader takes a step. -/
theorem Bids.leader (h : Bids W j R c) (hne : j ≠ W.pid) {oi o : OP E S} (hoi : c.servers W.pid = .up oi) (hs : ∀ k, c'.servers k = if k = W.pid then .up o else c.servers k)
    (h1 : o.sp.ist.cache.promise = W → Bidding W o.sp) (h2 : oi.sp.ist.cache.promise = W → o.sp.ist.cache.promise = W)
    (h3 : ∀ out, oi.sp.ist.cache.promise = W → R (c.net j W.pid) out (Holds oi.sp j) → R' (c'.net j W.pid) out (Holds o.sp j)) : Bids W j R' c' := by
  refine ⟨fun op hop e => ?_, fun op oi' hop hoi' e => ?_⟩
  · rw [hs, if_pos rfl] at hop
    cases hop
    exact h1 e
  · rw [hs, if_neg hne] at hop
    rw [hs, if_pos rfl] at hoi'
    cases hoi'
    obtain ⟨g1, g2, g3⟩ := h.fol op oi hop hoi e
    exact ⟨g1, h2 g2, h3 _ g2 g3⟩

/-- `j` takes a step. -/
theorem Bids.own (h : Bids W j R c) (hne : j ≠ W.pid) {oj o oi : OP E S} (hoj : c.servers j = .up oj) (hoi : c.servers W.pid = .up oi) (hs : ∀ x, c'.servers x = if x = j then .up o else c.servers x)
    (h1 : o.sp.ist.cache.promise = W → (oj.sp.ist.cache.promise = W ∧ Firm W o.sp ∧ ∀ P, R (c.net j W.pid) (oj.out W.pid) P → R' (c'.net j W.pid) (o.out W.pid) P) ∨
      (Firm W o.sp ∧ oi.sp.ist.cache.promise = W ∧ ∀ P, R' (c'.net j W.pid) (o.out W.pid) P)) : Bids W j R' c' := by
  refine ⟨fun op hop e => ?_, fun op oi' hop hoi' e => ?_⟩
  · rw [hs, if_neg hne.symm] at hop
    exact h.lead op hop e
  · rw [hs, if_neg hne.symm, hoi] at hoi'
    cases hoi'
    rw [hs, if_pos rfl] at hop
    cases hop
    rcases h1 e with ⟨g1, g2, g3⟩ | ⟨g1, g2, g3⟩
    · obtain ⟨k1, k2, k3⟩ := h.fol oj oi hoj hoi g1
      exact ⟨g2, k2, g3 _ k3⟩
    · exact ⟨g1, g2, g3 _⟩

/-- Somebody else does. -/
theorem Bids.other (h : Bids W j R c) (hs : c'.servers W.pid = c.servers W.pid) (hs' : c'.servers j = c.servers j) (hn : c'.net j W.pid = c.net j W.pid) (hR : Drift W R R' false) : Bids W j R' c' := by
  refine ⟨fun op hop => h.lead op (by rw [← hs]; exact hop), fun op oi hop hoi e => ?_⟩
  obtain ⟨k1, k2, k3⟩ := h.fol op oi (by rw [← hs']; exact hop) (by rw [← hs]; exact hoi) e
  refine ⟨k1, k2, ?_⟩
  rw [hn]
  have := hR.add rfl (new := []) k3 nofun id
  rwa [List.append_nil] at this

theorem clear_ahead {op : OP E S} (h : op.sp.ist.cache.promise = W → Bidding W op.sp) : op.clearTrail.sp.ist.cache.promise = W → Bidding W op.clearTrail.sp :=
  fun e => ⟨e, (h e).role, (h e).phase, (h e).lead, (h e).noq⟩

theorem Firm.clear {op : OP E S} (h : Firm W op.sp) : Firm W op.clearTrail.sp := ⟨h.promise, h.role, h.phase, h.cached⟩

/-- Promises of `W` stay. -/
theorem Capped.stays (h : Capped cc W c) (h' : Capped cc W c') (ha : a.Calm cc) (hs : c.step cc a = some c') (hk : k ∈ cc.nodes) {op o : OP E S} (hop : c.servers k = .up op)
    (ho : c'.servers k = .up o) (e : op.sp.ist.cache.promise = W) : o.sp.ist.cache.promise = W := by
  obtain ⟨pre, hp⟩ := h.reach.arisen
  have h1 : Low W k c := fun op' u => by rw [hop] at u; cases u; rw [e]; exact Ballot.le_refl W
  exact h'.top k hk o ho (h1.step hp ha hs o ho)

theorem out_adds {op o : OP E S} (h : Adds op.sp o.sp) : ∃ new, o.out i = op.out i ++ new ∧ ∀ y ∈ new, y.msg.isReq = false := by
  obtain ⟨new, h1, h2⟩ := h
  refine ⟨new.filter fun m => decide (m.dst = i), ?_, fun y hy => h2 y (List.mem_filter.1 hy).1⟩
  unfold OP.out
  rw [h1, List.filter_append]

theorem out_enters {op o : OP E S} {p : Promise E S} (h : o.sp.outgoing = op.sp.outgoing ++ [{ src := op.sp.pid, dst := W.pid, msg := .promise p }]) (hp : p.n = W) :
    ∃ x, o.out W.pid = op.out W.pid ++ [x] ∧ IsProm W x := by
  refine ⟨{ src := op.sp.pid, dst := W.pid, msg := .promise p }, ?_, p, rfl, hp⟩
  unfold OP.out
  rw [h, List.filter_append]
  simp

theorem Drift.adds (hR : Drift W R R' false) {op o : OP E S} {net net' : List (Message E S)} {P : Prop} (hn : net' = net) (h : Adds op.sp o.sp) (hr : R net (op.out i) P) : R' net' (o.out i) P := by
  obtain ⟨new, h1, h2⟩ := out_adds (i := i) h
  rw [h1, hn]
  exact hR.add rfl hr h2 id

/-- A call. -/
theorem Bids.call (h : Bids W j R c) (hj : j ∈ cc.nodes) (hne : j ≠ W.pid) (hR : Drift W R R' false) (hT : Capped cc W c) (hT' : Capped cc W c') {cl : Call E S} (ha : (Action.call i cl).Calm cc)
    (hs : c.step cc (.call i cl) = some c') : Bids W j R' c' := by
  have hs0 := hs
  have hi : i ∈ cc.nodes := by cases cl <;> first | exact ha | exact ha.elim
  obtain ⟨op, hop, -⟩ := hT.cap i hi
  obtain ⟨o, ho, hcap⟩ := hT'.cap i hi
  obtain ⟨pre, hr⟩ := hT.reach.arisen
  have hcl : cl.isIncoming = false := by cases cl <;> first | rfl | exact ha.elim
  simp only [Cluster.step, hop, hcl, Bool.false_eq_true, if_false, Option.some.injEq] at hs
  subst hs
  have ho' := ho
  rw [Cluster.setServer_self] at ho'
  have hsv : ∀ k, (c.setServer i (op.callResult cl)).servers k = if k = i then .up o else c.servers k := fun k => by
    by_cases e : k = i
    · subst e; rw [if_pos rfl]; exact ho
    · rw [if_neg e, Cluster.setServer_other e]
  have hpid : op.sp.pid = i := by
    obtain ⟨G, h1⟩ := hT.reach.inv
    obtain ⟨lg, hC, -⟩ := h1.toCInv.up hop
    exact hC.pid
  by_cases e : i = W.pid
  · subst e
    have hB := clear_ahead (h.lead op hop)
    have key : o.sp.ist.cache.promise = W → Bidding W o.sp ∧ (op.sp.ist.cache.promise = W → ∀ j, Holds op.sp j → Holds o.sp j) := by
      cases cl with
      | append x =>
        refine call_up (Q := fun t => t.ist.cache.promise = W → Bidding W t ∧ (op.sp.ist.cache.promise = W → ∀ j, Holds op.sp j → Holds t j)) ?_ ho'
        simp only [Call.run, OP.append, M.sat_bind, OP.sat_onSP, M.sat_pure]
        by_cases e : op.sp.ist.cache.promise = W
        · exact M.sat_mono (SP.ahead_append (hB e) x) (fun _ t ht _ => ⟨(hB e).same ht, fun _ j hj => by unfold Holds at *; rw [ht.ls]; exact hj⟩) fun _ h => h
        · exact M.sat_mono (SP.y_append x) (fun _ t ht e' => absurd (ht.promise.symm.trans e') e) fun _ h => h
      | tick =>
        refine call_up (Q := fun t => t.ist.cache.promise = W → Bidding W t ∧ (op.sp.ist.cache.promise = W → ∀ j, Holds op.sp j → Holds t j)) ?_ ho'
        refine M.sat_mono (OP.tick_parts (Q := fun t => t.ist.cache.promise = W → Bidding W t ∧ (op.sp.ist.cache.promise = W → ∀ j, Holds op.sp j → Holds t j)) (P := fun _ => True)
          fun r w _ _ => ?_) (fun _ _ h => h.1) fun _ h => h
        exact SP.ahead_ticked hB fun y e => (Cluster.reach_elects hr hop e).trans hpid.symm
      | setPriority p =>
        refine call_up (Q := fun t => t.ist.cache.promise = W → Bidding W t ∧ (op.sp.ist.cache.promise = W → ∀ j, Holds op.sp j → Holds t j)) ?_ ho'
        exact fun e => ⟨hB e, fun _ _ h => h⟩
      | _ => exact ha.elim
    exact h.leader hne hop hsv (fun e => (key e).1) (hT.stays hT' ha hs0 hi hop ho) fun out e hb => by
      have := hR.add rfl (new := []) hb nofun ((key (hT.stays hT' ha hs0 hi hop ho e)).2 e j)
      rwa [List.append_nil] at this
  · by_cases ej : i = j
    · subst ej
      obtain ⟨oi, hoi, -⟩ := hT.cap W.pid hT.node
      refine h.own hne hop hoi hsv ?_
      by_cases ep : op.sp.ist.cache.promise = W
      · intro e'
        obtain ⟨hF, -, -⟩ := h.fol op oi hop hoi ep
        have key : o.sp.ist.cache.promise ≤ W → Firm W o.sp ∧ Adds op.sp o.sp := by
          cases cl with
          | append x =>
            refine call_up (Q := fun t => t.ist.cache.promise ≤ W → Firm W t ∧ Adds op.sp t) ?_ ho'
            simp only [Call.run, OP.append, M.sat_bind, OP.sat_onSP, M.sat_pure]
            exact M.sat_mono (SP.firm_append hF.clear x) (fun _ t ht _ => ht) fun _ h => h
          | tick =>
            refine call_up (Q := fun t => t.ist.cache.promise ≤ W → Firm W t ∧ Adds op.sp t) ?_ ho'
            refine M.sat_mono (OP.tick_parts (Q := fun t => t.ist.cache.promise ≤ W → Firm W t ∧ Adds op.sp t) (P := fun _ => True) fun r w _ _ => ?_) (fun _ _ h => h.1) fun _ h => h
            exact SP.firm_ticked hF.clear
          | setPriority p =>
            refine call_up (Q := fun t => t.ist.cache.promise ≤ W → Firm W t ∧ Adds op.sp t) ?_ ho'
            exact fun _ => ⟨hF.clear, .refl _⟩
          | _ => exact ha.elim
        exact .inl ⟨ep, (key hcap).1, fun P => hR.adds rfl (key hcap).2⟩
      · refine fun e' => absurd e' ?_
        cases cl with
        | append x =>
          refine call_up (Q := fun t => t.ist.cache.promise ≠ W) ?_ ho'
          simp only [Call.run, OP.append, M.sat_bind, OP.sat_onSP, M.sat_pure]
          exact M.sat_mono (SP.y_append x) (fun _ t ht e' => absurd (ht.promise.symm.trans e') ep) fun _ h => h
        | tick =>
          refine call_up (Q := fun t => t.ist.cache.promise ≠ W) ?_ ho'
          refine M.sat_mono (OP.tick_parts (Q := fun t => t.ist.cache.promise ≠ W) (P := fun _ => True) fun r w _ _ => ?_) (fun _ _ h => h.1) fun _ h => h
          exact SP.enter_ticked (s := op.clearTrail.sp) ep (by show op.sp.pid ≠ W.pid; rw [hpid]; exact e)
        | setPriority p =>
          refine call_up (Q := fun t => t.ist.cache.promise ≠ W) ?_ ho'
          exact ep
        | _ => exact ha.elim
    · exact h.other (by rw [hsv, if_neg (Ne.symm e)]) (by rw [hsv, if_neg (Ne.symm ej)]) rfl hR

/-- Taking the outgoing messages. -/
theorem Bids.take (h : Bids W j R c) (hj : j ∈ cc.nodes) (hne : j ≠ W.pid) (hR : Drift W R R' false) (hT : Capped cc W c) {op : OP E S} (hop : c.servers i = .up op) : Bids W j R' (c.taken i op) := by
  have hsv : ∀ k, (c.taken i op).servers k = if k = i then .up (op.take_outgoing_messages []).2 else c.servers k := fun k => by
    by_cases e : k = i
    · subst e; rw [if_pos rfl]; exact Cluster.taken_self k op
    · rw [if_neg e, Cluster.taken_other e]
  by_cases e : i = W.pid
  · subst e
    refine h.leader hne hop hsv (fun e => ⟨e, (h.lead op hop e).role, (h.lead op hop e).phase, (h.lead op hop e).lead, (h.lead op hop e).noq⟩) id fun out e hb => ?_
    rw [Cluster.taken_net_other hne]
    have := hR.add rfl (new := []) hb nofun id
    rwa [List.append_nil] at this
  · by_cases ej : i = j
    · subst ej
      obtain ⟨oi, hoi, -⟩ := hT.cap W.pid hT.node
      refine h.own hne hop hoi hsv fun e' => ?_
      obtain ⟨hF, -, -⟩ := h.fol op oi hop hoi e'
      refine .inl ⟨e', ⟨hF.promise, hF.role, hF.phase, hF.cached⟩, fun P hr => ?_⟩
      have h1 := RInv.take_pre c op i W.pid
      rw [paxOf_append] at h1
      have h2 := hR.take rfl hr (List.append_cancel_left h1)
      simp only [Cluster.taken, if_true]
      exact h2
    · exact h.other (by rw [hsv, if_neg (Ne.symm e)]) (by rw [hsv, if_neg (Ne.symm ej)]) (Cluster.taken_net_other (Ne.symm ej) op _) hR

/-- A delivery. -/
theorem Bids.deliver {x y : NodeId} (h : Bids W j R c) (hj : j ∈ cc.nodes) (hne : j ≠ W.pid) (hR : Drift W R R' (Action.isDelivery j W.pid (.deliver x y : Action E S))) (hT : Capped cc W c)
    (hT' : Capped cc W c') (hL : ¬ Led W c') (hE : (∀ net out z P, IsProm W z → R' net (out ++ [z]) P) ∨ ∀ op, c.servers j = .up op → op.sp.ist.cache.promise = W)
    (hx : x ∈ cc.nodes) (hy : y ∈ cc.nodes) (hs : c.step cc (.deliver x y) = some c') : Bids W j R' c' := by
  have hs0 := hs
  have ha : (Action.deliver x y : Action E S).Calm cc := ⟨hx, hy⟩
  have hL0 : ¬ Led W c := fun h => hL (h.step hT.reach ha hs)
  obtain ⟨op, hop, -⟩ := hT.cap y hy
  obtain ⟨o, ho, hcap⟩ := hT'.cap y hy
  obtain ⟨pre, hr⟩ := hT.reach.arisen
  simp only [Cluster.step] at hs
  cases hl : c.net x y with
  | nil => rw [hl] at hs; cases hs
  | cons m rest =>
    rw [hl] at hs
    simp only [hop, Option.some.injEq] at hs
    have hnet : ∀ u v, u ≠ x ∨ v ≠ y → c'.net u v = c.net u v := fun u v e => by
      rw [← hs]
      exact Cluster.setNet_other e rest
    have hself : c'.net x y = rest := by
      rw [← hs]
      exact Cluster.setNet_self x y rest
    have ho' := ho
    have hsv : ∀ k, c'.servers k = if k = y then .up o else c.servers k := fun k => by
      by_cases e : k = y
      · subst e; rw [if_pos rfl]; exact ho
      · rw [if_neg e, ← hs, Cluster.setServer_other e]; rfl
    rw [← hs, Cluster.setServer_self] at ho'
    clear hs
    have notd : y ≠ W.pid → Drift W R R' false := fun e => by
      have : Action.isDelivery j W.pid (.deliver x y : Action E S) = false := by simp [Action.isDelivery, e.symm]
      rwa [this] at hR
    by_cases e : y = W.pid
    · subst e
      have hB := clear_ahead (h.lead op hop)
      have link : ∀ {P P' : Prop} {out}, R (c.net j W.pid) out P → (∀ z, x = j → m = .paxos z → IsProm W z → P') → ((∀ z, x = j → m = .paxos z → z.msg.isReq = false) → P → P') →
          R' (c'.net j W.pid) out P' := by
        intro P P' out hr g1 g2
        by_cases ex : x = j
        · subst ex
          have : Action.isDelivery x W.pid (.deliver x W.pid : Action E S) = true := by simp [Action.isDelivery]
          rw [this] at hR
          rw [hself]
          rw [hl] at hr
          exact hR.tail rfl hr (fun z => g1 z rfl) fun e => g2 fun z _ => e z
        · have : Action.isDelivery j W.pid (.deliver x W.pid : Action E S) = false := by simp [Action.isDelivery, Ne.symm ex]
          rw [this] at hR
          rw [hnet _ _ (.inl (Ne.symm ex))]
          have := hR.add rfl (new := []) hr nofun (g2 fun z e => absurd e ex)
          rwa [List.append_nil] at this
      cases m with
      | ble b =>
        have key : o.sp = op.clearTrail.sp := call_up (Q := fun t => t = op.clearTrail.sp) (cl := .handleIncoming (.ble b)) (op := op) (show op.clearTrail.sp = op.clearTrail.sp from rfl) ho'
        refine h.leader hne hop hsv (by rw [key]; exact hB) (hT.stays hT' ha hs0 hy hop ho) fun out e hb => link hb (fun z _ e => nomatch e) fun _ h => ?_
        rw [key]; exact h
      | paxos m =>
        obtain ⟨hsrc, hm, hp⟩ := hT.msg (s := x) (t := W.pid) (m := m) (by rw [hl]; exact List.mem_cons_self ..)
        have hm := hm.resolve_left hL0
        have hrp : ∀ p, m.msg = .prepare p → p.n.pid ≠ W.pid := fun p e => Cluster.reach_prepare hr (i := x) (by rw [hl]; exact List.mem_cons_self ..) e
        by_cases ep : op.sp.ist.cache.promise = W
        · have key : SP.Gains W m op.sp o.sp := by
            refine call_up (Q := fun t => SP.Gains W m op.sp t) ?_ ho'
            simp only [Call.run, OP.handle_incoming, OP.sat_onSP]
            exact SP.ahead_handle (hB ep) hm
          have key := key.resolve_left fun hw => hL (hw.1.led hT'.reach ho)
          refine h.leader hne hop hsv (fun _ => key.1) (fun _ => key.1.promise) fun out e hb => link hb ?_ fun h1 => key.2.1 j fun e => h1 m (hsrc.symm.trans e.symm) rfl
          rintro z rfl e ⟨p, e1, e2⟩
          cases e
          rw [← hsrc]
          exact key.2.2 p e1 e2
        · have key : o.sp.ist.cache.promise ≠ W := by
            refine call_up (Q := fun t => t.ist.cache.promise ≠ W) ?_ ho'
            simp only [Call.run, OP.handle_incoming, OP.sat_onSP]
            refine M.sat_mono (SP.enter_handle (s := op.clearTrail.sp) ep fun p e => ((hp p e).1).trans hsrc.symm) (fun _ t ht e => ?_) fun _ h => h
            obtain ⟨-, p, e1, e2⟩ := ht e
            exact hrp p e1 (by rw [e2])
          exact h.leader hne hop hsv (fun e => absurd e key) (fun e => absurd e ep) fun out e => absurd e ep
    · have hR' := notd e
      have hnet : c'.net j W.pid = c.net j W.pid := hnet _ _ (.inr (Ne.symm e))
      by_cases ej : y = j
      · subst ej
        obtain ⟨oi, hoi, -⟩ := hT.cap W.pid hT.node
        refine h.own hne hop hoi hsv fun e' => ?_
        cases m with
        | ble b =>
          have key : o.sp = op.clearTrail.sp := call_up (Q := fun t => t = op.clearTrail.sp) (cl := .handleIncoming (.ble b)) (op := op) (show op.clearTrail.sp = op.clearTrail.sp from rfl) ho'
          have ep : op.sp.ist.cache.promise = W := by rw [key] at e'; exact e'
          obtain ⟨hF, -, -⟩ := h.fol op oi hop hoi ep
          refine .inl ⟨ep, by rw [key]; exact hF.clear, fun P => hR'.adds hnet ?_⟩
          rw [key]
          exact .refl _
        | paxos m =>
          obtain ⟨hsrc, hm, hp⟩ := hT.msg (s := x) (t := y) (m := m) (by rw [hl]; exact List.mem_cons_self ..)
          have hm := hm.resolve_left hL0
          by_cases ep : op.sp.ist.cache.promise = W
          · obtain ⟨hF, -, -⟩ := h.fol op oi hop hoi ep
            have key : Firm W o.sp ∧ Adds op.sp o.sp := by
              refine call_up (Q := fun t => Firm W t ∧ Adds op.sp t) ?_ ho'
              simp only [Call.run, OP.handle_incoming, OP.sat_onSP]
              exact SP.firm_handle hF.clear hm
            exact .inl ⟨ep, key.1, fun P => hR'.adds hnet key.2⟩
          · have key : SP.Enters W op.sp o.sp ∧ ∃ p, m.msg = .prepare p ∧ p.n = W := by
              refine call_up (Q := fun t => t.ist.cache.promise = W → SP.Enters W op.sp t ∧ ∃ p, m.msg = .prepare p ∧ p.n = W) ?_ ho' e'
              simp only [Call.run, OP.handle_incoming, OP.sat_onSP]
              exact SP.enter_handle (s := op.clearTrail.sp) ep fun p e => ((hp p e).1).trans hsrc.symm
            obtain ⟨⟨k1, p, k2, k3⟩, q, k4, k5⟩ := key
            rcases hE with hE | hE
            · obtain ⟨k6, k7⟩ := hp q k4
              rw [k5] at k6 k7
              refine .inr ⟨k1, hT.top W.pid hT.node oi hoi (k7 oi (by rw [← k6]; exact hoi)), fun P => ?_⟩
              obtain ⟨z, e1, e2⟩ := out_enters k2 k3
              rw [e1]
              exact hE _ _ z P e2
            · exact absurd (hE op hop) ep
      · exact h.other (by rw [hsv, if_neg (Ne.symm e)]) (by rw [hsv, if_neg (Ne.symm ej)]) hnet hR'

theorem Bids.step (h : Bids W j R c) (hj : j ∈ cc.nodes) (hne : j ≠ W.pid) (hR : Drift W R R' (a.isDelivery j W.pid)) (hT : Capped cc W c) (hT' : Capped cc W c')
    (hE : (∀ net out z P, IsProm W z → R' net (out ++ [z]) P) ∨ ∀ op, c.servers j = .up op → op.sp.ist.cache.promise = W) (ha : a.Calm cc) (hs : c.step cc a = some c') :
    Led W c' ∨ Bids W j R' c' := by
  by_cases hL : Led W c'
  · exact .inl hL
  · refine .inr ?_
    cases a with
    | call i cl => exact h.call hj hne hR hT hT' ha hs
    | take i =>
      obtain ⟨op, hop, -⟩ := hT.cap i ha
      simp only [Cluster.step, hop, Option.some.injEq] at hs
      have hc : c' = c.taken i op := hs.symm
      rw [hc]
      exact h.take hj hne hR hT hop
    | deliver i y => exact h.deliver hj hne hR hT hT' hL hE ha.1 ha.2 hs
    | _ => exact ha.elim

end Omni
