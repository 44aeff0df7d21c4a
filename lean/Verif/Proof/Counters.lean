import Verif.Spec.Counters
import Verif.Proof.OwnPid
import Verif.Proof.Validity
/-
Ballot numbers and heartbeat rounds rise by at most one with every tick and every call of `try_become_leader`.
-/
namespace Omni

variable {E S : Type} [SnapOps E S]

/-- No ballot number above `N`. -/
def Prov.upTo (E S : Type) [SnapOps E S] (N : Nat) : Prov E S where
  okp _ := True
  okb _ _ n := n.1 ≤ N
  ent _ := True
  stop _ := True
  snap _ := True
  create := fun _ _ => trivial
  merge := fun _ _ _ => trivial
  snapT _ := True
  sent := fun _ _ => ⟨trivial, trivial⟩
  got := fun _ => trivial
  pair _ _ := True
  gotPair := fun _ _ _ => trivial
  comp _ := True

namespace UpTo

variable {N N' : Nat}

theorem le_of_bal {b : Ballot} (h : (Prov.upTo E S N).bal b) : b.n ≤ N := by
  rcases h with rfl | h
  · exact Nat.zero_le _
  · exact h

theorem bal (hN : N ≤ N') {b : Ballot} (h : (Prov.upTo E S N).bal b) : (Prov.upTo E S N').bal b :=
  h.imp id fun h => Nat.le_trans h hN

theorem balO (hN : N ≤ N') {b : Option Ballot} (h : (Prov.upTo E S N).balO b) : (Prov.upTo E S N').balO b :=
  fun x e => bal hN (h x e)

theorem mem (hN : N ≤ N') {m : Mem E S} (h : (Prov.upTo E S N).mem m) : (Prov.upTo E S N').mem m :=
  ⟨h.log, h.snap, h.stop, balO hN h.prom, balO hN h.accr, h.pair⟩

theorem sync {l : LogSync E S} (h : (Prov.upTo E S N).sync l) : (Prov.upTo E S N').sync l := ⟨h.snap, h.suffix, h.stop⟩

theorem syncO {l : Option (LogSync E S)} (h : (Prov.upTo E S N).syncO l) : (Prov.upTo E S N').syncO l := fun x e => sync (h x e)

theorem msg (hN : N ≤ N') {m : PaxosMsg E S} (h : (Prov.upTo E S N).msg m) : (Prov.upTo E S N').msg m := by
  cases m with
  | prepare p => exact bal hN h
  | promise p => exact syncO (N := N) h
  | acceptSync a => exact ⟨sync h.1, bal hN h.2⟩
  | _ => exact h

theorem srv (hN : N ≤ N') {op : OP E S} (h : (Prov.upTo E S N).srv op) : (Prov.upTo E S N').srv op :=
  ⟨⟨⟨mem hN h.sp.ist.sto, fun m hm => mem hN (h.sp.ist.trail m hm), h.sp.ist.batch, h.sp.ist.stop, bal hN h.sp.ist.cprom,
    bal hN h.sp.ist.cacc⟩, h.sp.buf, h.sp.bss, fun m hm => msg hN (h.sp.out m hm), syncO h.sp.max, fun p e => syncO (h.sp.cached p e),
    h.sp.pid, bal hN h.sp.lead⟩, h.ble.imp fun _ h => Nat.le_trans h hN⟩

end UpTo

/-- The ballots in the reply. -/
def HeartbeatReply.UpTo (N : Nat) (r : HeartbeatReply) : Prop := r.ballot.n ≤ N ∧ r.leader.n ≤ N

def BLEMessage.UpTo (N : Nat) (m : BLEMessage) : Prop := ∀ r, m.msg = .reply r → r.UpTo N

structure BLE.UpTo (N : Nat) (b : BLE) : Prop where
  round : b.hb_round ≤ N
  own : b.current_ballot.n ≤ N
  lead : b.leader.n ≤ N
  replies : ∀ r ∈ b.heartbeat_replies, r.UpTo N
  out : ∀ m ∈ b.outgoing, m.UpTo N

namespace BLE

variable {N N' : Nat} {b : BLE}

theorem UpTo.mono (hN : N ≤ N') (h : b.UpTo N) : b.UpTo N' :=
  ⟨Nat.le_trans h.round hN, Nat.le_trans h.own hN, Nat.le_trans h.lead hN,
    fun r hr => ⟨Nat.le_trans (h.replies r hr).1 hN, Nat.le_trans (h.replies r hr).2 hN⟩,
    fun m hm r e => ⟨Nat.le_trans (h.out m hm r e).1 hN, Nat.le_trans (h.out m hm r e).2 hN⟩⟩

theorem maxBallot_le {l : List Ballot} (h : ∀ x ∈ l, x.n ≤ N) {m : Ballot} (e : maxBallot l = some m) : m.n ≤ N := by
  cases l with
  | nil => cases e
  | cons x xs =>
    simp only [maxBallot, Option.some.injEq] at e
    have key : ∀ (ys : List Ballot) (a : Ballot), a.n ≤ N → (∀ y ∈ ys, y.n ≤ N) →
        (ys.foldl (fun m y => if y < m then m else y) a).n ≤ N := by
      intro ys
      induction ys with
      | nil => intro a ha _; exact ha
      | cons y ys ih =>
        intro a ha hy
        simp only [List.foldl_cons]
        refine ih _ ?_ fun z hz => hy z (List.mem_cons_of_mem _ hz)
        split
        · exact ha
        · exact hy y List.mem_cons_self
    rw [← e]
    exact key xs x (h x List.mem_cons_self) fun y hy => h y (List.mem_cons_of_mem _ hy)

theorem upTo_update_leader (h : b.UpTo N) : b.update_leader.UpTo N := by
  unfold update_leader
  split
  · rename_i m e
    split
    · refine ⟨h.round, h.own, maxBallot_le (fun x hx => ?_) e, h.replies, h.out⟩
      obtain ⟨r, hr, rfl⟩ := List.mem_map.1 hx
      exact (h.replies r hr).1
    · exact h
  · exact h

/-- After a takeover the number is one more than the leader's. -/
theorem upTo_check_takeover (h : b.UpTo N) : b.check_takeover.UpTo (N + 1) := by
  unfold check_takeover
  split
  · exact h.mono (Nat.le_succ N)
  · split
    · have := h.mono (Nat.le_succ N)
      exact ⟨this.round, Nat.succ_le_succ h.lead, Nat.succ_le_succ h.lead, this.replies, this.out⟩
    · exact h.mono (Nat.le_succ N)

theorem check_takeover_round (b : BLE) : b.check_takeover.hb_round = b.hb_round := by
  unfold check_takeover; split <;> (try split) <;> rfl

theorem update_leader_round (b : BLE) : b.update_leader.hb_round = b.hb_round := by
  unfold update_leader; split <;> (try split) <;> rfl

theorem upTo_new_round (h : b.UpTo N) (hr : b.hb_round + 1 ≤ N) : b.new_hb_round.UpTo N := by
  refine ⟨hr, h.own, h.lead, nofun, fun m hm => ?_⟩
  rcases List.mem_append.1 hm with hm | hm
  · exact h.out m hm
  · obtain ⟨p, _, rfl⟩ := List.mem_map.1 hm
    exact nofun

theorem upTo_sync (h : b.UpTo N) {n : Ballot} (hn : n.n ≤ N) : (b.sync_with_promise n).UpTo N := by
  unfold sync_with_promise
  split
  · refine ⟨h.round, ?_, hn, h.replies, h.out⟩
    simp only
    split
    · exact hn
    · exact h.own
  · exact h

theorem upTo_timeout (h : b.UpTo N) (r : Role) (p : Phase) {n : Ballot} (hn : n.n ≤ N) : (b.hb_timeout r p n).2.UpTo (N + 1) := by
  have h1 : (b.update_leader.update_happiness r p).UpTo N := by
    have := upTo_update_leader h
    exact ⟨this.round, this.own, this.lead, this.replies, this.out⟩
  refine upTo_sync (upTo_new_round (upTo_check_takeover h1) ?_) (Nat.le_succ_of_le hn)
  rw [check_takeover_round]
  exact Nat.succ_le_succ h1.round

theorem timeout_some {r : Role} {p : Phase} {n x : Ballot} (e : (b.hb_timeout r p n).1 = some x) :
    x = (b.hb_timeout r p n).2.current_ballot := by
  simp only [hb_timeout] at e ⊢
  split at e
  · exact (Option.some.inj e).symm
  · cases e

theorem upTo_handle (h : b.UpTo N) {m : BLEMessage} (hm : m.UpTo N) : (b.handle m).UpTo N := by
  unfold handle
  split
  · refine ⟨h.round, h.own, h.lead, h.replies, fun x hx => ?_⟩
    rcases List.mem_append.1 hx with hx | hx
    · exact h.out x hx
    · rw [List.mem_singleton.1 hx]
      intro r e
      cases e
      exact ⟨h.own, h.lead⟩
  · rename_i r e
    unfold handle_reply
    split
    · refine ⟨h.round, h.own, h.lead, fun x hx => ?_, h.out⟩
      rcases List.mem_append.1 hx with hx | hx
      · exact h.replies x hx
      · rw [List.mem_singleton.1 hx]; exact hm r e
    · exact h

theorem upTo_with (cid : Nat) (i : NodeId) (peers : List NodeId) (prio : Nat) (fq : Option FlexibleQuorum) {rl : Option Ballot}
    (hN : 1 ≤ N) (hl : ∀ b, rl = some b → b.n ≤ N) : (BLE.with cid i peers prio fq rl).UpTo N := by
  unfold BLE.with
  cases rl with
  | none => exact upTo_new_round ⟨Nat.zero_le _, hN, hN, nofun, nofun⟩ hN
  | some b =>
    simp only
    by_cases hb : b ≠ ({} : Ballot)
    · rw [if_pos hb]; exact upTo_new_round ⟨Nat.zero_le _, Nat.zero_le _, hl b rfl, nofun, nofun⟩ hN
    · rw [if_neg hb]; exact upTo_new_round ⟨Nat.zero_le _, hN, hN, nofun, nofun⟩ hN

end BLE

/-- The whole server. -/
structure OP.UpTo (N : Nat) (op : OP E S) : Prop where
  one : 1 ≤ N
  srv : (Prov.upTo E S N).srv op
  ble : op.ble.UpTo N

def Message.UpTo (N : Nat) (m : Message E S) : Prop := (Prov.upTo E S N).message m ∧ ∀ x, m = .ble x → x.UpTo N

structure DiskUpTo (N : Nat) (d : Mem E S) : Prop where
  one : 1 ≤ N
  mem : (Prov.upTo E S N).mem d

/-- A step raises the bound by one if it contains an election timeout or `try_become_leader`. -/
theorem upTo_moves (cc : ClusterConfig) {N N' : Nat} (hN : N ≤ N') :
    LMoves (E := E) (S := S) cc (fun c => c.elects = true → N + 1 ≤ N') (fun _ => OP.UpTo N) (fun _ => OP.UpTo N') (fun _ => DiskUpTo N)
      (fun _ => DiskUpTo N') (Message.UpTo N) (Message.UpTo N') := by
  refine ⟨fun i op h => ⟨Nat.le_trans h.one hN, UpTo.srv hN h.srv, h.ble.mono hN⟩, fun i d h => ⟨Nat.le_trans h.one hN, UpTo.mem hN h.mem⟩,
    fun m h => ?_, fun cfg d op h hb => ?_, fun i op h => ⟨Nat.le_trans h.one hN, UpTo.mem hN h.srv.sp.ist.sto⟩,
    fun i op call h hok hm => ?_, fun i op h => ?_⟩
  · cases m with
    | paxos m => exact ⟨UpTo.msg hN h.1, nofun⟩
    | ble m => exact ⟨trivial, fun x e r hr => ⟨Nat.le_trans (h.2 x e r hr).1 hN, Nat.le_trans (h.2 x e r hr).2 hN⟩⟩
  · refine ⟨Nat.le_trans h.one hN, UpTo.srv hN (Prov.build h.mem trivial ⟨(0, 0), Nat.zero_le _⟩ hb), ?_⟩
    obtain ⟨mp, -, rfl⟩ := OP.build_eq hb
    exact (BLE.upTo_with _ _ _ _ _ h.one fun b e => UpTo.le_of_bal (E := E) (S := S) (h.mem.prom b e)).mono hN
  · have hp : op.sp.get_promise.n ≤ N := UpTo.le_of_bal (E := E) (S := S) h.srv.sp.ist.cprom
    have h' := UpTo.srv hN h.srv
    have hcall : (Prov.upTo E S N').call op call := by
      cases call with
      | append e => exact fun _ => trivial
      | reconfigure c md => exact fun _ _ => trivial
      | tick =>
        intro b e _
        rw [BLE.timeout_some e]
        exact Nat.le_trans (BLE.upTo_timeout h.ble _ _ hp).own (hok rfl rfl)
      | tryBecomeLeader => exact fun _ _ _ _ => Nat.le_trans (Nat.succ_le_succ hp) (hok rfl rfl)
      | setPriority p => trivial
      | reconnected p => trivial
      | trim i => exact ⟨fun _ _ => trivial, fun _ => trivial⟩
      | snapshot i lo => exact ⟨fun _ _ => trivial, fun _ _ => trivial⟩
      | handleIncoming m =>
        refine ⟨?_, fun _ _ _ _ _ _ => trivial⟩
        have := (hm m rfl).1.1
        cases m with
        | paxos m => exact UpTo.msg hN this
        | ble m => trivial
    have hr := Prov.callResult h' hcall
    have ht := Prov.callTrail h' hcall
    have h1 := Nat.le_trans h.one hN
    refine ⟨fun op' e => ?_, fun d e => ?_, fun d hd => ⟨h1, ht d hd⟩⟩
    · rw [e] at hr
      refine ⟨h1, hr, OP.call_ble (C := BLE.UpTo N') e (h.ble.mono hN) (fun e' => ?_) (fun p _ => ?_) fun m e' => ?_⟩
      · subst e'; exact (BLE.upTo_timeout h.ble _ _ hp).mono (hok rfl rfl)
      · have := h.ble.mono hN
        exact ⟨this.round, this.own, this.lead, this.replies, this.out⟩
      · exact (BLE.upTo_handle h.ble ((hm _ e').1.2 m rfl)).mono hN
    · rw [e] at hr
      exact ⟨h1, hr⟩
  · obtain ⟨h1, h2⟩ := Prov.take h.srv
    have hb := h.ble.mono hN
    refine ⟨⟨Nat.le_trans h.one hN, UpTo.srv hN h1, ⟨hb.round, hb.own, hb.lead, hb.replies, nofun⟩⟩, fun m hm => ?_⟩
    have h3 := h2 m hm
    simp only [OP.take_outgoing_messages, SP.take_outgoing_msgs, List.isEmpty_nil, if_true, List.mem_append, List.mem_map] at hm
    rcases hm with ⟨x, hx, rfl⟩ | ⟨x, hx, rfl⟩
    · exact ⟨UpTo.msg hN h3, nofun⟩
    · exact ⟨trivial, fun y e => by cases e; exact hb.out x hx⟩

theorem UpTo.runs {cc : ClusterConfig} {acts : List (LAction E S)} {c : Loose E S} (hr : Loose.init.run cc acts = some c) :
    LInv (fun _ => OP.UpTo (elections acts + 1)) (fun _ => DiskUpTo (elections acts + 1)) (Message.UpTo (elections acts + 1)) c := by
  have key : ∀ (as : List (LAction E S)) (N : Nat) (c c' : Loose E S),
      LInv (fun _ => OP.UpTo N) (fun _ => DiskUpTo N) (Message.UpTo N) c → c.run cc as = some c' →
      LInv (fun _ => OP.UpTo (N + elections as)) (fun _ => DiskUpTo (N + elections as)) (Message.UpTo (N + elections as)) c' := by
    intro as
    induction as with
    | nil => intro N c c' h hs; cases hs; exact h
    | cons a as ih =>
      intro N c c' h hs
      simp only [Loose.run] at hs
      split at hs
      · cases hs
      · rename_i d hd
        by_cases ha : a.elects = true
        · have e : N + elections (a :: as) = N + 1 + elections as := by
            simp only [elections, List.filter_cons, ha, if_true, List.length_cons]; omega
          rw [e]
          refine ih (N + 1) d c' (LInv.move (upTo_moves cc (Nat.le_succ N)) h ?_ hd) hs
          cases a <;> first | exact fun _ => Nat.le_refl _ | trivial
        · have e : N + elections (a :: as) = N + elections as := by
            simp only [elections, List.filter_cons, ha]; rfl
          rw [e]
          refine ih N d c' (LInv.move (upTo_moves cc (Nat.le_refl N)) h ?_ hd) hs
          cases a <;> first | exact fun e => absurd e ha | trivial
  have := key acts 1 Loose.init c ⟨fun i op e => by simp [Loose.init] at e, fun i d e => ?_, fun m hm => by cases hm⟩ hr
  · rw [Nat.add_comm] at this; exact this
  · simp only [Loose.init, Server.down.injEq] at e
    subst e; exact ⟨Nat.le_refl 1, Prov.mem_empty trivial⟩

end Omni
