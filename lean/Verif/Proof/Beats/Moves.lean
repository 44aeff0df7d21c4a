import Verif.Proof.Beats.Local
/-
Heartbeats in steady operation: where the messages of a heartbeat round are.
-/
namespace Omni

variable {E S : Type} {n : Ballot} {cc : ClusterConfig} {R : NodeId → HeartbeatReply → Prop}

/-- One component changed. -/
def putB (bl : NodeId → BLE) (i : NodeId) (b : BLE) : NodeId → BLE := fun j => if j = i then b else bl j

@[simp] theorem putB_self (bl : NodeId → BLE) (i : NodeId) (b : BLE) : putB bl i b i = b := by simp [putB]
theorem putB_other {bl : NodeId → BLE} {i j : NodeId} {b : BLE} (h : j ≠ i) : putB bl i b j = bl j := by simp [putB, h]

/-- What the actions of steady operation do to the election components and the links. -/
inductive BMoves (R : NodeId → HeartbeatReply → Prop) (bl : NodeId → BLE) (net : NodeId → NodeId → List (Message E S)) :
    Action E S → (NodeId → BLE) → (NodeId → NodeId → List (Message E S)) → Prop
  | idle {i : NodeId} {c : Call E S} : BMoves R bl net (.call i c) bl net
  | fire {i : NodeId} (b : BLE) (h1 : b.Alike (bl i)) (h2 : R i { round := b.hb_round, ballot := b.current_ballot, leader := b.leader, happy := b.happy }) :
      BMoves R bl net (.call i .tick) (putB bl i b.new_hb_round) net
  | take {i : NodeId} {net' : NodeId → NodeId → List (Message E S)} (px : NodeId → List (PaxosMessage E S))
      (h1 : ∀ b, net' i b = net i b ++ ((px b).map Message.paxos ++ ((bl i).outgoing.filter fun m => decide (m.dst = b)).map Message.ble))
      (h2 : ∀ a b, a ≠ i → net' a b = net a b) : BMoves R bl net (.take i) (putB bl i { bl i with outgoing := [] }) net'
  | beat {i j : NodeId} {net' : NodeId → NodeId → List (Message E S)} (m : BLEMessage) (h1 : net i j = .ble m :: net' i j)
      (h2 : ∀ a b, ¬ (a = i ∧ b = j) → net' a b = net a b) : BMoves R bl net (.deliver i j) (putB bl j ((bl j).handle m)) net'
  | other {i j : NodeId} {net' : NodeId → NodeId → List (Message E S)} (m : PaxosMessage E S) (h1 : net i j = .paxos m :: net' i j)
      (h2 : ∀ a b, ¬ (a = i ∧ b = j) → net' a b = net a b) : BMoves R bl net (.deliver i j) bl net'

/-- Components and messages as in `Cluster.Loyal`. -/
structure Hearts (R : NodeId → HeartbeatReply → Prop) (cc : ClusterConfig) (bl : NodeId → BLE) (net : NodeId → NodeId → List (Message E S)) : Prop where
  server : ∀ i ∈ cc.nodes, (bl i).Tied R cc i
  links : ∀ i ∈ cc.nodes, ∀ j ∈ cc.nodes, ∀ m, .ble m ∈ net i j → m.src = i ∧ ∀ r, m.msg = .reply r → R i r
  asked : ∀ i ∈ cc.nodes, ∀ j ∈ cc.nodes, j ≠ i → Inquired bl net i j

variable {bl bl' : NodeId → BLE} {net net' : NodeId → NodeId → List (Message E S)} {a : Action E S} {i j : NodeId}

/-! ### The way of a request and of its reply -/

def ReqOut (bl : NodeId → BLE) (i j : NodeId) : Prop := ∃ m ∈ (bl i).outgoing, m.dst = j ∧ m.msg = .request (bl i).hb_round
def ReqOn (bl : NodeId → BLE) (net : NodeId → NodeId → List (Message E S)) (i j : NodeId) (d : Nat) : Prop :=
  ∃ p m q, net i j = p ++ .ble m :: q ∧ p.length < d ∧ m.msg = .request (bl i).hb_round
def RepOut (bl : NodeId → BLE) (i j : NodeId) : Prop := ∃ m ∈ (bl j).outgoing, m.dst = i ∧ ∃ r, m.msg = .reply r ∧ r.round = (bl i).hb_round
def RepOn (bl : NodeId → BLE) (net : NodeId → NodeId → List (Message E S)) (i j : NodeId) (d : Nat) : Prop :=
  ∃ p m q, net j i = p ++ .ble m :: q ∧ p.length < d ∧ ∃ r, m.msg = .reply r ∧ r.round = (bl i).hb_round
def Got (bl : NodeId → BLE) (i j : NodeId) : Prop := ∃ r ∈ (bl i).heartbeat_replies, r.ballot.pid = j

theorem asked_iff : Inquired bl net i j ↔ ReqOut bl i j ∨ (∃ d, ReqOn bl net i j d) ∨ RepOut bl i j ∨ (∃ d, RepOn bl net i j d) ∨ Got bl i j := by
  have h1 : (∃ m, .ble m ∈ net i j ∧ m.msg = .request (bl i).hb_round) ↔ ∃ d, ReqOn bl net i j d := by
    constructor
    · rintro ⟨m, hm, h⟩
      obtain ⟨p, q, e⟩ := List.append_of_mem hm
      exact ⟨p.length + 1, p, m, q, e, Nat.lt_succ_self _, h⟩
    · rintro ⟨d, p, m, q, e, _, h⟩
      exact ⟨m, by rw [e]; simp, h⟩
  have h2 : (∃ m, .ble m ∈ net j i ∧ ∃ r, m.msg = .reply r ∧ r.round = (bl i).hb_round) ↔ ∃ d, RepOn bl net i j d := by
    constructor
    · rintro ⟨m, hm, h⟩
      obtain ⟨p, q, e⟩ := List.append_of_mem hm
      exact ⟨p.length + 1, p, m, q, e, Nat.lt_succ_self _, h⟩
    · rintro ⟨d, p, m, q, e, _, h⟩
      exact ⟨m, by rw [e]; simp, h⟩
  unfold Inquired
  rw [h1, h2]
  rfl

/-- A round does not go back. -/
theorem BLE.handle_round (b : BLE) (m : BLEMessage) : (b.handle m).hb_round = b.hb_round := by
  unfold BLE.handle
  split
  · rfl
  · unfold BLE.handle_reply; split <;> rfl

theorem BLE.handle_outgoing (b : BLE) (m : BLEMessage) : ∀ x ∈ b.outgoing, x ∈ (b.handle m).outgoing := by
  intro x hx
  unfold BLE.handle
  split
  · exact List.mem_append_left _ hx
  · unfold BLE.handle_reply; split <;> exact hx

theorem BLE.handle_replies (b : BLE) (m : BLEMessage) : ∀ x ∈ b.heartbeat_replies, x ∈ (b.handle m).heartbeat_replies := by
  intro x hx
  unfold BLE.handle
  split
  · exact hx
  · unfold BLE.handle_reply; split
    · exact List.mem_append_left _ hx
    · exact hx

theorem BMoves.round_le (h : BMoves R bl net a bl' net') (i : NodeId) : (bl i).hb_round ≤ (bl' i).hb_round := by
  cases h with
  | idle => exact Nat.le_refl _
  | @fire x b h1 h2 =>
    by_cases e : i = x
    · subst e; rw [putB_self, ← h1.round]; exact Nat.le_succ _
    · rw [putB_other e]; exact Nat.le_refl _
  | @take x =>
    by_cases e : i = x
    · subst e; rw [putB_self]; exact Nat.le_refl _
    · rw [putB_other e]; exact Nat.le_refl _
  | @beat x y _ m =>
    by_cases e : i = y
    · subst e; rw [putB_self, BLE.handle_round]; exact Nat.le_refl _
    · rw [putB_other e]; exact Nat.le_refl _
  | other => exact Nat.le_refl _

theorem new_round_ne {b : BLE} : b.new_hb_round.hb_round ≠ b.hb_round := Nat.succ_ne_self _

/-- What has arrived stays. -/
theorem BMoves.got (h : BMoves R bl net a bl' net') (hr : (bl' i).hb_round = (bl i).hb_round) (hg : Got bl i j) : Got bl' i j := by
  obtain ⟨r, h1, h2⟩ := hg
  cases h with
  | idle => exact ⟨r, h1, h2⟩
  | @fire x b h3 _ =>
    by_cases e : i = x
    · subst e; rw [putB_self, ← h3.round] at hr; exact absurd hr new_round_ne
    · exact ⟨r, by rw [putB_other e]; exact h1, h2⟩
  | @take x =>
    by_cases e : i = x
    · subst e; exact ⟨r, by rw [putB_self]; exact h1, h2⟩
    · exact ⟨r, by rw [putB_other e]; exact h1, h2⟩
  | @beat x y _ m =>
    by_cases e : i = y
    · subst e; exact ⟨r, by rw [putB_self]; exact BLE.handle_replies _ _ _ h1, h2⟩
    · exact ⟨r, by rw [putB_other e]; exact h1, h2⟩
  | other => exact ⟨r, h1, h2⟩

/-- What waits to be sent stays until it is handed over. -/
theorem BMoves.waits (h : BMoves R bl net a bl' net') {x : BLEMessage} {s : NodeId} (hx : x ∈ (bl s).outgoing) :
    (a ≠ .take s ∧ x ∈ (bl' s).outgoing) ∨ ∃ p q, net' s x.dst = p ++ .ble x :: q := by
  cases h with
  | idle => exact .inl ⟨nofun, hx⟩
  | @fire y b h1 h2 =>
    refine .inl ⟨nofun, ?_⟩
    by_cases e : s = y
    · subst e; rw [putB_self]; rw [← h1.outgoing] at hx; exact List.mem_append_left _ hx
    · rw [putB_other e]; exact hx
  | @take y _ px h1 h2 =>
    by_cases e : s = y
    · subst e
      right
      have : Message.ble x ∈ net' s x.dst := by
        rw [h1]
        refine List.mem_append_right _ (List.mem_append_right _ (List.mem_map_of_mem (List.mem_filter.2 ⟨hx, decide_eq_true rfl⟩)))
      exact List.append_of_mem this
    · exact .inl ⟨fun hc => e (by cases hc; rfl), by rw [putB_other e]; exact hx⟩
  | @beat y z _ m =>
    refine .inl ⟨nofun, ?_⟩
    by_cases e : s = z
    · subst e; rw [putB_self]; exact BLE.handle_outgoing _ _ _ hx
    · rw [putB_other e]; exact hx
  | other => exact .inl ⟨nofun, hx⟩

/-- What is on the way gets nearer with every delivery, until it arrives. -/
theorem BMoves.travels (h : BMoves R bl net a bl' net') {x : BLEMessage} {s t : NodeId} {p q : List (Message E S)} (hx : net s t = p ++ .ble x :: q) :
    (∃ p' q', net' s t = p' ++ .ble x :: q' ∧ p.length = p'.length + if a.isDelivery s t then 1 else 0) ∨
    (p = [] ∧ a.isDelivery s t = true ∧ bl' = putB bl t ((bl t).handle x)) := by
  cases h with
  | idle => exact .inl ⟨p, q, hx, by simp [Action.isDelivery]⟩
  | fire => exact .inl ⟨p, q, hx, by simp [Action.isDelivery]⟩
  | @take y _ px h1 h2 =>
    by_cases e : s = y
    · subst e
      refine .inl ⟨p, q ++ ((px t).map Message.paxos ++ ((bl s).outgoing.filter fun m => decide (m.dst = t)).map Message.ble), ?_,
        by simp [Action.isDelivery]⟩
      rw [h1, hx]; simp
    · exact .inl ⟨p, q, by rw [h2 _ _ e]; exact hx, by simp [Action.isDelivery]⟩
  | @beat y z _ m h1 h2 =>
    by_cases e : s = y ∧ t = z
    · obtain ⟨rfl, rfl⟩ := e
      rw [h1] at hx
      cases p with
      | nil =>
        obtain ⟨hm, _⟩ := List.cons.inj hx
        cases hm
        exact .inr ⟨rfl, by simp [Action.isDelivery], rfl⟩
      | cons y p => exact .inl ⟨p, q, (List.cons.inj hx).2, by simp [Action.isDelivery]⟩
    · refine .inl ⟨p, q, by rw [h2 _ _ e]; exact hx, ?_⟩
      have : (Action.deliver y z : Action E S).isDelivery s t = false := by
        simp only [Action.isDelivery, Bool.and_eq_false_iff, beq_eq_false_iff_ne]
        by_cases e1 : s = y
        · exact .inr fun e2 => e ⟨e1, e2⟩
        · exact .inl e1
      simp [this]
  | @other y z _ m h1 h2 =>
    by_cases e : s = y ∧ t = z
    · obtain ⟨rfl, rfl⟩ := e
      rw [h1] at hx
      cases p with
      | nil => cases (List.cons.inj hx).1
      | cons y p => exact .inl ⟨p, q, (List.cons.inj hx).2, by simp [Action.isDelivery]⟩
    · refine .inl ⟨p, q, by rw [h2 _ _ e]; exact hx, ?_⟩
      have : (Action.deliver y z : Action E S).isDelivery s t = false := by
        simp only [Action.isDelivery, Bool.and_eq_false_iff, beq_eq_false_iff_ne]
        by_cases e1 : s = y
        · exact .inr fun e2 => e ⟨e1, e2⟩
        · exact .inl e1
      simp [this]

/-- One delivery less. -/
def nearer (d : Nat) (a : Action E S) (s t : NodeId) : Nat := d - if a.isDelivery s t then 1 else 0

theorem BMoves.repOn (v : Signed cc R) (h : BMoves R bl net a bl' net') (hH : Hearts R cc bl net) (hi : i ∈ cc.nodes) (hj : j ∈ cc.nodes)
    (hr : (bl' i).hb_round = (bl i).hb_round) {d : Nat} (ho : RepOn bl net i j d) : RepOn bl' net' i j (nearer d a j i) ∨ Got bl' i j := by
  obtain ⟨p, m, q, h1, h2, r, h3, h4⟩ := ho
  rcases h.travels h1 with ⟨p', q', h5, h6⟩ | ⟨rfl, h5, rfl⟩
  · exact .inl ⟨p', m, q', h5, by unfold nearer; omega, r, h3, by rw [hr]; exact h4⟩
  · have hm := hH.links j hj i hi m (by rw [h1]; simp)
    have hl := hm.2 r h3
    refine .inr ⟨r, ?_, v.sender hl⟩
    rw [putB_self]
    simp only [BLE.handle, h3, BLE.handle_reply]
    rw [if_pos ⟨h4, (v.config hl).trans (hH.server i hi).config.symm⟩]
    simp

theorem BMoves.repOut (h : BMoves R bl net a bl' net') (hr : (bl' i).hb_round = (bl i).hb_round) (ho : RepOut bl i j) :
    (a ≠ .take j ∧ RepOut bl' i j) ∨ ∃ d, RepOn bl' net' i j d := by
  obtain ⟨m, h1, h2, r, h3, h4⟩ := ho
  rcases h.waits h1 with ⟨h5, h6⟩ | ⟨p, q, h5⟩
  · exact .inl ⟨h5, m, h6, h2, r, h3, by rw [hr]; exact h4⟩
  · rw [h2] at h5
    exact .inr ⟨_, p, m, q, h5, Nat.lt_succ_self _, r, h3, by rw [hr]; exact h4⟩

theorem BMoves.reqOn (h : BMoves R bl net a bl' net') (hH : Hearts R cc bl net) (hi : i ∈ cc.nodes) (hj : j ∈ cc.nodes) (hji : j ≠ i)
    (hr : (bl' i).hb_round = (bl i).hb_round) {d : Nat} (ho : ReqOn bl net i j d) : ReqOn bl' net' i j (nearer d a i j) ∨ RepOut bl' i j := by
  obtain ⟨p, m, q, h1, h2, h3⟩ := ho
  rcases h.travels h1 with ⟨p', q', h5, h6⟩ | ⟨rfl, h5, rfl⟩
  · exact .inl ⟨p', m, q', h5, by unfold nearer; omega, by rw [hr]; exact h3⟩
  · have hm := hH.links i hi j hj m (by rw [h1]; simp)
    refine .inr ⟨⟨(bl j).pid, m.src, .reply ⟨(bl i).hb_round, (bl j).current_ballot, (bl j).leader, (bl j).happy⟩⟩, ?_, hm.1, _, rfl, ?_⟩
    · rw [putB_self]
      simp only [BLE.handle, h3, BLE.handle_request]
      simp
    · rw [putB_other hji.symm]

theorem BMoves.reqOut (h : BMoves R bl net a bl' net') (hr : (bl' i).hb_round = (bl i).hb_round) (ho : ReqOut bl i j) :
    (a ≠ .take i ∧ ReqOut bl' i j) ∨ ∃ d, ReqOn bl' net' i j d := by
  obtain ⟨m, h1, h2, h3⟩ := ho
  rcases h.waits h1 with ⟨h5, h6⟩ | ⟨p, q, h5⟩
  · exact .inl ⟨h5, m, h6, h2, by rw [hr]; exact h3⟩
  · rw [h2] at h5
    exact .inr ⟨_, p, m, q, h5, Nat.lt_succ_self _, by rw [hr]; exact h3⟩

/-! ### The stages -/

def Late3 (bl : NodeId → BLE) (net : NodeId → NodeId → List (Message E S)) (i j : NodeId) : Prop := (∃ d, RepOn bl net i j d) ∨ Got bl i j
def Late2 (bl : NodeId → BLE) (net : NodeId → NodeId → List (Message E S)) (i j : NodeId) : Prop := RepOut bl i j ∨ Late3 bl net i j
def Late1 (bl : NodeId → BLE) (net : NodeId → NodeId → List (Message E S)) (i j : NodeId) : Prop := (∃ d, ReqOn bl net i j d) ∨ Late2 bl net i j
def Late0 (bl : NodeId → BLE) (net : NodeId → NodeId → List (Message E S)) (i j : NodeId) : Prop := ReqOut bl i j ∨ Late1 bl net i j

section
variable (v : Signed cc R) (h : BMoves R bl net a bl' net') (hH : Hearts R cc bl net) (hi : i ∈ cc.nodes) (hj : j ∈ cc.nodes) (hji : j ≠ i)
  (hr : (bl' i).hb_round = (bl i).hb_round)
include v h hH hi hj hr

theorem BMoves.late3 (hl : Late3 bl net i j) : Late3 bl' net' i j := by
  rcases hl with ⟨d, hl⟩ | hl
  · rcases h.repOn v hH hi hj hr hl with h1 | h1
    · exact .inl ⟨_, h1⟩
    · exact .inr h1
  · exact .inr (h.got hr hl)

theorem BMoves.late2 (hl : Late2 bl net i j) : (a ≠ .take j ∧ Late2 bl' net' i j) ∨ Late3 bl' net' i j := by
  rcases hl with hl | hl
  · rcases h.repOut hr hl with ⟨h1, h2⟩ | h1
    · exact .inl ⟨h1, .inl h2⟩
    · exact .inr (.inl h1)
  · exact .inr (h.late3 v hH hi hj hr hl)

include hji

theorem BMoves.late1 (hl : Late1 bl net i j) : Late1 bl' net' i j := by
  rcases hl with ⟨d, hl⟩ | hl
  · rcases h.reqOn hH hi hj hji hr hl with h1 | h1
    · exact .inl ⟨_, h1⟩
    · exact .inr (.inl h1)
  · rcases h.late2 v hH hi hj hr hl with ⟨_, h2⟩ | h1
    · exact .inr h2
    · exact .inr (.inr h1)

theorem BMoves.late0 (hl : Late0 bl net i j) : (a ≠ .take i ∧ Late0 bl' net' i j) ∨ Late1 bl' net' i j := by
  rcases hl with hl | hl
  · rcases h.reqOut hr hl with ⟨h1, h2⟩ | h1
    · exact .inl ⟨h1, .inl h2⟩
    · exact .inr (.inl h1)
  · exact .inr (h.late1 v hH hi hj hji hr hl)

end

/-! ### The invariant -/

theorem BLE.Tied.handle (v : Signed cc R) {b : BLE} (h : b.Tied R cc j) (hi : i ∈ cc.nodes) {m : BLEMessage} (hm : m.src = i ∧ ∀ r, m.msg = .reply r → R i r) :
    (b.handle m).Tied R cc j := by
  unfold BLE.handle
  split
  · refine ⟨h.config, h.pid, h.peers, h.quorum, h.tells, h.replies, fun x hx => ?_⟩
    rcases List.mem_append.1 hx with hx | hx
    · exact h.outgoing x hx
    · rw [List.mem_singleton.1 hx]
      refine ⟨h.pid, fun r hr => ?_⟩
      cases hr
      exact v.round _ h.tells
  · rename_i r hr
    unfold BLE.handle_reply
    split
    · refine ⟨h.config, h.pid, h.peers, h.quorum, h.tells, fun x hx => ?_, h.outgoing⟩
      rcases List.mem_append.1 hx with hx | hx
      · exact h.replies x hx
      · rw [List.mem_singleton.1 hx]
        exact ⟨i, hi, hm.2 r hr⟩
    · exact h

theorem BLE.Tied.round (v : Signed cc R) {b b' : BLE} (h : b.Tied R cc i) (ha : b'.Alike b)
    (hs : R i { round := b'.hb_round, ballot := b'.current_ballot, leader := b'.leader, happy := b'.happy }) : b'.new_hb_round.Tied R cc i := by
  refine ⟨ha.config.trans h.config, ha.pid.trans h.pid, ha.peers.trans h.peers, ha.quorum.trans h.quorum, v.round _ hs, nofun, fun x hx => ?_⟩
  rcases List.mem_append.1 hx with hx | hx
  · rw [ha.outgoing] at hx
    exact h.outgoing x hx
  · obtain ⟨p, _, rfl⟩ := List.mem_map.1 hx
    exact ⟨ha.pid.trans h.pid, nofun⟩

theorem BMoves.hearts (v : Signed cc R) (h : BMoves R bl net a bl' net') (ha : a.Calm cc) (hH : Hearts R cc bl net) : Hearts R cc bl' net' := by
  refine ⟨fun i hi => ?_, fun i hi j hj m hm => ?_, fun i hi j hj hji => ?_⟩
  · cases h with
    | idle => exact hH.server i hi
    | @fire x b h1 h2 =>
      by_cases e : i = x
      · subst e; rw [putB_self]; exact (hH.server i hi).round v h1 h2
      · rw [putB_other e]; exact hH.server i hi
    | @take x =>
      by_cases e : i = x
      · subst e; rw [putB_self]
        have h := hH.server i hi
        exact ⟨h.config, h.pid, h.peers, h.quorum, h.tells, h.replies, nofun⟩
      · rw [putB_other e]; exact hH.server i hi
    | @beat x y _ m h1 =>
      by_cases e : i = y
      · subst e; rw [putB_self]
        exact (hH.server i hi).handle v ha.1 (hH.links x ha.1 i hi m (by rw [h1]; simp))
      · rw [putB_other e]; exact hH.server i hi
    | other => exact hH.server i hi
  · cases h with
    | idle => exact hH.links i hi j hj m hm
    | fire => exact hH.links i hi j hj m hm
    | @take x _ px h1 h2 =>
      by_cases e : i = x
      · subst e
        rw [h1] at hm
        rcases List.mem_append.1 hm with hm | hm
        · exact hH.links i hi j hj m hm
        · rcases List.mem_append.1 hm with hm | hm
          · obtain ⟨y, _, hy⟩ := List.mem_map.1 hm
            cases hy
          · obtain ⟨y, hy1, hy⟩ := List.mem_map.1 hm
            cases hy
            exact (hH.server i hi).outgoing _ (List.mem_filter.1 hy1).1
      · rw [h2 _ _ e] at hm; exact hH.links i hi j hj m hm
    | @beat x y _ _ h1 h2 =>
      by_cases e : i = x ∧ j = y
      · obtain ⟨rfl, rfl⟩ := e
        exact hH.links i hi j hj m (by rw [h1]; exact List.mem_cons_of_mem _ hm)
      · rw [h2 _ _ e] at hm; exact hH.links i hi j hj m hm
    | @other x y _ _ h1 h2 =>
      by_cases e : i = x ∧ j = y
      · obtain ⟨rfl, rfl⟩ := e
        exact hH.links i hi j hj m (by rw [h1]; exact List.mem_cons_of_mem _ hm)
      · rw [h2 _ _ e] at hm; exact hH.links i hi j hj m hm
  · by_cases hr : (bl' i).hb_round = (bl i).hb_round
    · have h0 : Late0 bl net i j := asked_iff.1 (hH.asked i hi j hj hji)
      refine asked_iff.2 ?_
      rcases h.late0 v hH hi hj hji hr h0 with ⟨_, h1⟩ | h1
      · exact h1
      · exact .inr h1
    · cases h with
      | @fire x b h1 h2 =>
        by_cases e : i = x
        · subst e
          refine .inl ⟨⟨b.pid, j, .request (b.hb_round + 1)⟩, ?_, rfl, ?_⟩
          · rw [putB_self]
            refine List.mem_append_right _ (List.mem_map.2 ⟨j, ?_, rfl⟩)
            rw [h1.peers, (hH.server i hi).peers]
            simp [SP.peersOf, hj, hji]
          · rw [putB_self]; rfl
        · rw [putB_other e] at hr; exact absurd rfl hr
      | idle => exact absurd rfl hr
      | other => exact absurd rfl hr
      | @take x =>
        by_cases e : i = x
        · subst e; rw [putB_self] at hr; exact absurd rfl hr
        · rw [putB_other e] at hr; exact absurd rfl hr
      | @beat x y _ m =>
        by_cases e : i = y
        · subst e; rw [putB_self, BLE.handle_round] at hr; exact absurd rfl hr
        · rw [putB_other e] at hr; exact absurd rfl hr

/-- `Cluster.Loyal` in these terms. -/
theorem hearts_loyal : Hearts (fun j r => r.Loyal cc.configuration_id n j) cc bl net ↔ (∀ i ∈ cc.nodes, (bl i).Loyal cc n i) ∧
    (∀ i ∈ cc.nodes, ∀ j ∈ cc.nodes, ∀ m, .ble m ∈ net i j → m.Loyal cc.configuration_id n i) ∧
    ∀ i ∈ cc.nodes, ∀ j ∈ cc.nodes, j ≠ i → Inquired bl net i j := by
  constructor
  · intro h
    refine ⟨fun i hi => ?_, fun i hi j hj m hm => ⟨(h.links i hi j hj m hm).1, (h.links i hi j hj m hm).2⟩, h.asked⟩
    have := h.server i hi
    exact ⟨this.config, this.pid, this.peers, this.quorum, this.tells, this.replies, fun m hm => ⟨(this.outgoing m hm).1, (this.outgoing m hm).2⟩⟩
  · rintro ⟨h1, h2, h3⟩
    refine ⟨fun i hi => ?_, fun i hi j hj m hm => ⟨(h2 i hi j hj m hm).src, (h2 i hi j hj m hm).reply⟩, h3⟩
    have := h1 i hi
    exact ⟨this.config, this.pid, this.peers, this.quorum, this.says, this.replies, fun m hm => ⟨(this.outgoing m hm).src, (this.outgoing m hm).reply⟩⟩

end Omni
