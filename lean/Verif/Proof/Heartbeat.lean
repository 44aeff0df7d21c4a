import Verif.Proof.QuorumRun
import Verif.Proof.Election
/-
The heartbeat replies that a server has kept were sent to it, each by the server whose pid its ballot carries.
-/
namespace Omni

variable {E S : Type}

namespace BLE

/-- The election part of server `me` of configuration `cid`, whose kept replies satisfy `R` and which replied to requests `A`. -/
structure HB (cid : Nat) (me : NodeId) (A : NodeId → Nat → Prop) (R : HeartbeatReply → Prop) (b : BLE) : Prop where
  nz : me ≠ 0
  self : b.pid = me
  cfg : b.configuration_id = cid
  own : b.current_ballot.pid = me ∧ b.current_ballot.config_id = cid
  out : ∀ m ∈ b.outgoing, m.src = me ∧ ∀ r, m.msg = .reply r → (r.ballot.pid = me ∧ r.ballot.config_id = cid) ∧ A m.dst r.round
  now : ∀ r ∈ b.heartbeat_replies, r.round = b.hb_round ∧ R r
  prev : ∀ r ∈ b.prev_replies, r.round + 1 = b.hb_round ∧ R r

variable {cid : Nat} {me : NodeId} {A A' : NodeId → Nat → Prop} {R R' : HeartbeatReply → Prop} {b : BLE}

theorem HB.mono (h : HB cid me A R b) (hA : ∀ i n, A i n → A' i n) (hR : ∀ r, R r → R' r) : HB cid me A' R' b :=
  ⟨h.nz, h.self, h.cfg, h.own, fun m hm => ⟨(h.out m hm).1, fun r e => ⟨((h.out m hm).2 r e).1, hA _ _ ((h.out m hm).2 r e).2⟩⟩,
    fun r hr => ⟨(h.now r hr).1, hR r (h.now r hr).2⟩, fun r hr => ⟨(h.prev r hr).1, hR r (h.prev r hr).2⟩⟩

theorem hb_new_round (h : HB cid me A R b) : HB cid me A R b.new_hb_round := by
  refine ⟨h.nz, h.self, h.cfg, h.own, fun m hm => ?_, nofun, fun r hr => ⟨congrArg (· + 1) (h.now r hr).1, (h.now r hr).2⟩⟩
  rcases List.mem_append.1 hm with hm | hm
  · exact h.out m hm
  · obtain ⟨p, _, rfl⟩ := List.mem_map.1 hm
    exact ⟨h.self, nofun⟩

theorem hb_update_leader (h : HB cid me A R b) : HB cid me A R b.update_leader := by
  unfold update_leader
  split <;> (try split) <;> exact ⟨h.nz, h.self, h.cfg, h.own, h.out, h.now, h.prev⟩

theorem hb_update_happiness (h : HB cid me A R b) (r : Role) (p : Phase) : HB cid me A R (b.update_happiness r p) :=
  ⟨h.nz, h.self, h.cfg, h.own, h.out, h.now, h.prev⟩

theorem hb_check_takeover (h : HB cid me A R b) : HB cid me A R b.check_takeover := by
  unfold check_takeover
  split <;> (try split) <;> exact ⟨h.nz, h.self, h.cfg, h.own, h.out, h.now, h.prev⟩

theorem hb_sync (h : HB cid me A R b) {n : Ballot} (hn : n.pid = me → n.config_id = cid) : HB cid me A R (b.sync_with_promise n) := by
  unfold sync_with_promise
  split
  · refine ⟨h.nz, h.self, h.cfg, ?_, h.out, h.now, h.prev⟩
    by_cases e : n.pid = b.pid
    · simp [e, h.self, hn (e.trans h.self)]
    · simp [e, h.own]
  · exact h

theorem hb_hb_timeout (h : HB cid me A R b) (r : Role) (p : Phase) {n : Ballot} (hn : n.pid = me → n.config_id = cid) :
    HB cid me A R (b.hb_timeout r p n).2 :=
  hb_sync (hb_new_round (hb_check_takeover (hb_update_happiness (hb_update_leader h) r p))) hn

theorem hb_handle (h : HB cid me A R b) (m : BLEMessage) (ha : ∀ n, m.msg = .request n → A m.src n)
    (hm : ∀ r, m.msg = .reply r → R r) : HB cid me A R (b.handle m) := by
  unfold handle
  split
  · rename_i n e
    refine ⟨h.nz, h.self, h.cfg, h.own, fun x hx => ?_, h.now, h.prev⟩
    rcases List.mem_append.1 hx with hx | hx
    · exact h.out x hx
    · rw [List.mem_singleton.1 hx]
      exact ⟨h.self, fun r e' => by cases e'; exact ⟨h.own, ha n e⟩⟩
  · rename_i r e
    unfold handle_reply
    split
    · rename_i hc
      refine ⟨h.nz, h.self, h.cfg, h.own, h.out, fun x hx => ?_, h.prev⟩
      rcases List.mem_append.1 hx with hx | hx
      · exact h.now x hx
      · rw [List.mem_singleton.1 hx]; exact ⟨hc.1, hm r e⟩
    · exact h

theorem hb_with (hz : me ≠ 0) (peers : List NodeId) (prio : Nat) (fq : Option FlexibleQuorum) (rl : Option Ballot) :
    HB cid me A R (BLE.with cid me peers prio fq rl) := by
  unfold BLE.with
  apply hb_new_round
  split <;> (try split) <;> exact ⟨hz, rfl, rfl, ⟨rfl, rfl⟩, nofun, nofun, nofun⟩

end BLE

/-- The request of this round was sent to `j` by `i`. -/
def Asked (sent : List (Message E S)) (j i : NodeId) (n : Nat) : Prop := .ble ⟨i, j, .request n⟩ ∈ sent

/-- The reply was sent to `i` by the server that its ballot names. -/
def HeartbeatReply.SentTo (sent : List (Message E S)) (i : NodeId) (r : HeartbeatReply) : Prop :=
  .ble ⟨r.ballot.pid, i, .reply r⟩ ∈ sent ∧ Asked sent r.ballot.pid i r.round

/-- The invariant of runs on an arbitrary network. -/
structure HBRun (cid : Nat) (c : Loose E S) : Prop where
  srv : ∀ i op, c.servers i = .up op → BLE.HB cid i (Asked c.sent i) (HeartbeatReply.SentTo c.sent i) op.ble
  sent : ∀ m, .ble m ∈ c.sent → ∀ r, m.msg = .reply r →
    (r.ballot.pid = m.src ∧ r.ballot.config_id = cid) ∧ Asked c.sent m.src m.dst r.round

theorem HBRun.call [SnapOps E S] {cid : Nat} {c : Loose E S} (h : HBRun cid c) {i : NodeId} {op op' : OP E S} (hu : c.servers i = .up op)
    (hn : op.sp.get_promise = {} ∨ op.sp.get_promise.config_id = cid) {k : Call E S} (hm : ∀ m, k = .handleIncoming m → m ∈ c.sent ∧ m.dst = i) (e : op.callResult k = .up op') :
    BLE.HB cid i (Asked c.sent i) (HeartbeatReply.SentTo c.sent i) op'.ble := by
  refine OP.run_ble e (h.srv i op hu) (fun b r p hb => BLE.hb_hb_timeout hb r p fun e => ?_)
    (fun b p hb => ⟨hb.nz, hb.self, hb.cfg, hb.own, hb.out, hb.now, hb.prev⟩) fun m e' b hb => BLE.hb_handle hb m (fun n en => ?_) fun r er => ?_
  · rcases hn with hn | hn
    · rw [hn] at e; exact absurd e.symm hb.nz
    · exact hn
  · obtain ⟨h1, h2⟩ := hm _ e'
    have h4 : m.dst = i := h2
    unfold Asked
    rw [← h4, ← en]
    exact h1
  · obtain ⟨h1, h2⟩ := hm _ e'
    unfold HeartbeatReply.SentTo
    have h3 := h.sent m h1 r er
    have h4 : m.dst = i := h2
    rw [h3.1.1, ← h4]
    exact ⟨by rw [← er]; exact h1, h3.2⟩

theorem HBRun.step [SnapOps E S] {cc : ClusterConfig} {a : LAction E S} {c c' : Loose E S} {acts : List (LAction E S)}
    (hr : Loose.init.run cc acts = some c) (h : HBRun cc.configuration_id c) (hs : c.step cc a = some c') : HBRun cc.configuration_id c' := by
  have hn : ∀ i op, c.servers i = .up op → op.sp.get_promise = {} ∨ op.sp.get_promise.config_id = cc.configuration_id := by
    intro i op hu
    have := (Prov.runs hr).servers i
    rw [hu] at this
    rcases this.sp.ist.cprom with h | h
    · exact .inl h
    · exact .inr h.1
  have one : ∀ (i : NodeId) (s : Server E S), c' = c.setServer i s →
      (∀ op, s = .up op → BLE.HB cc.configuration_id i (Asked c.sent i) (HeartbeatReply.SentTo c.sent i) op.ble) → HBRun cc.configuration_id c' := by
    intro i s e hsv
    have hsent : c'.sent = c.sent := by rw [e]; rfl
    refine ⟨fun j op hj => ?_, by rw [hsent]; exact h.sent⟩
    rw [hsent]
    by_cases hji : j = i
    · subst hji
      rw [e, Loose.setServer_same] at hj
      exact hsv op hj
    · rw [e, Loose.setServer_ne c hji] at hj
      exact h.srv j op hj
  have down : ∀ (i : NodeId) (d : Mem E S), c' = c.setServer i (.down d) → HBRun cc.configuration_id c' :=
    fun i d e => one i _ e fun op h => by cases h
  cases a with
  | start i cfg =>
    simp only [Loose.step] at hs
    split at hs
    · cases hs
    · split at hs
      · rename_i hp
        split at hs
        · rename_i op hb
          cases hs
          refine one i _ rfl fun op' e => ?_
          cases e
          subst hp
          have hz := (OP.build_node hb).2.2
          obtain ⟨mp, hmp, rfl⟩ := OP.build_eq hb
          exact BLE.hb_with hz _ _ _ _
        · cases hs
      · cases hs
  | crash i =>
    simp only [Loose.step] at hs
    split at hs
    · cases hs; exact down i _ rfl
    · cases hs
  | call i call =>
    simp only [Loose.step] at hs
    split at hs
    · rename_i op hu
      split at hs
      · cases hs
      · rename_i hc
        cases hs
        exact one i _ rfl fun op' e => h.call hu (hn _ _ hu) (fun m e' => by
          rw [e'] at hc; simp [Call.isIncoming] at hc) e
    · cases hs
  | crashCall i call k =>
    simp only [Loose.step] at hs
    split at hs
    · split at hs
      · cases hs
      · split at hs
        · cases hs; exact down i _ rfl
        · cases hs
    · cases hs
  | take i =>
    simp only [Loose.step] at hs
    split at hs
    · rename_i op hu
      have hi := h.srv i op hu
      have hout : ∀ m, .ble m ∈ (op.take_outgoing_messages []).1 → m ∈ op.ble.outgoing := by
        intro m hm
        simp only [OP.take_outgoing_messages, SP.take_outgoing_msgs, List.isEmpty_nil, if_true, List.mem_append, List.mem_map] at hm
        rcases hm with ⟨x, hx, e⟩ | ⟨x, hx, e⟩
        · cases e
        · cases e; exact hx
      cases hs
      have hle : ∀ j r, HeartbeatReply.SentTo c.sent j r → HeartbeatReply.SentTo (c.sent ++ (op.take_outgoing_messages []).1) j r :=
        fun j r hr => ⟨List.mem_append.2 (.inl hr.1), List.mem_append.2 (.inl hr.2)⟩
      have hla : ∀ j i n, Asked c.sent j i n → Asked (c.sent ++ (op.take_outgoing_messages []).1) j i n :=
        fun j i n hr => List.mem_append.2 (.inl hr)
      refine ⟨fun j op' hj => ?_, fun m hm r er => ?_⟩
      · simp only at hj
        split at hj
        · rename_i e
          subst e
          cases hj
          exact BLE.HB.mono ⟨hi.nz, hi.self, hi.cfg, hi.own, nofun, hi.now, hi.prev⟩ (hla _) (hle _)
        · exact (h.srv j op' hj).mono (hla j) (hle j)
      · rcases List.mem_append.1 hm with hm | hm
        · exact ⟨(h.sent m hm r er).1, hla _ _ _ (h.sent m hm r er).2⟩
        · have ho := hi.out m (hout m hm)
          rw [ho.1]; exact ⟨(ho.2 r er).1, hla _ _ _ (ho.2 r er).2⟩
    · cases hs
  | deliver n =>
    simp only [Loose.step] at hs
    split at hs
    · cases hs
    · rename_i m hm
      split at hs
      · cases hs
      · rename_i op hu
        cases hs
        exact one m.dst _ rfl fun op' e => h.call hu (hn _ _ hu) (fun m' e' => by
          cases e'; exact ⟨List.mem_of_getElem? hm, rfl⟩) e
  | crashDeliver n k =>
    simp only [Loose.step] at hs
    split at hs
    · cases hs
    · split at hs
      · cases hs
      · split at hs
        · cases hs; exact down _ _ rfl
        · cases hs

theorem HBRun.runs [SnapOps E S] {cc : ClusterConfig} {acts : List (LAction E S)} {c : Loose E S}
    (hr : Loose.init.run cc acts = some c) : HBRun cc.configuration_id c := by
  have key : ∀ (post pre : List (LAction E S)) (d : Loose E S), Loose.init.run cc pre = some d →
      HBRun cc.configuration_id d → ∀ d', d.run cc post = some d' → HBRun cc.configuration_id d' := by
    intro post
    induction post with
    | nil => intro pre d _ hd d' h; cases h; exact hd
    | cons a post ih =>
      intro pre d hpre hd d' h
      simp only [Loose.run] at h
      split at h
      · cases h
      · rename_i d1 h1
        refine ih (pre ++ [a]) d1 ?_ (HBRun.step hpre hd h1) d' h
        rw [Loose.run_append, hpre]
        simp only [Option.bind, Loose.run, h1]
  exact key acts [] Loose.init rfl ⟨fun i op h => (by simp [Loose.init] at h), fun m h => (by simp [Loose.init] at h)⟩ c hr

end Omni
