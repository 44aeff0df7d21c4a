import Verif.Proof.Oust.Still
import Verif.Proof.Beats.Local
/-
A candidate tells its peers, in Prepares: what one server does for that.
-/
namespace Omni

variable {E S : Type}

/-- Server `me` with peers `ps`; no Prepare above `n` but of its own ballots. Under the ballot `W`, if that is its own, it leads, and Prepares for the peers `X` wait to be sent. -/
structure Calls (n W : Ballot) (b : Prop) (X : NodeId → Prop) (me : NodeId) (ps : List NodeId) (s : SP E S) : Prop where
  pid : s.pid = me
  peers : s.peers = ps
  low : b → W ≤ s.ist.cache.promise
  lead : n < s.ls.n_leader → s.ls.n_leader.pid = me ∧ s.ls.n_leader ≤ s.ist.cache.promise
  mine : ∀ m ∈ s.outgoing, ∀ p, m.msg = .prepare p → n < p.n → p.n.pid = me
  ann : me = W.pid → s.ist.cache.promise = W → s.role = .leader ∧ s.ls.n_leader = W ∧
    ∀ j ∈ ps, X j → ∃ m ∈ s.outgoing, m.dst = j ∧ ∃ p, m.msg = .prepare p ∧ p.n = W

variable {n W : Ballot} {b : Prop} {X : NodeId → Prop} {me : NodeId} {ps : List NodeId} {s t : SP E S}

theorem Calls.still (h : Calls n W b X me ps s) (ht : Still s t) : Calls n W b X me ps t := by
  refine ⟨ht.pid.trans h.pid, ht.peers.trans h.peers, by rw [ht.promise]; exact h.low, by rw [ht.lead, ht.promise]; exact h.lead, fun m hm p e hn => ?_, fun e1 e2 => ?_⟩
  · rcases ht.new m hm p e with h1 | h1
    · exact h.mine m h1 p e hn
    · rw [h1] at hn ⊢
      exact (h.lead hn).1
  · rw [ht.promise] at e2
    obtain ⟨h1, h2, h3⟩ := h.ann e1 e2
    refine ⟨ht.role h1 (by rw [e2, h.pid, e1]), ht.lead.trans h2, fun j hj hX => ?_⟩
    obtain ⟨m, hm, hd, p, e, e'⟩ := h3 j hj hX
    exact ⟨m, ht.kept m hm p.n (by rw [e]; rfl), hd, p, e, e'⟩

theorem Calls.of_low {b' : Prop} (h : Calls n W b X me ps s) (hb : b' → W ≤ s.ist.cache.promise) : Calls n W b' X me ps s :=
  ⟨h.pid, h.peers, hb, h.lead, h.mine, h.ann⟩

theorem Calls.less {X' : NodeId → Prop} (h : Calls n W b X me ps s) (hX : ∀ j, X' j → X j) : Calls n W b X' me ps s :=
  ⟨h.pid, h.peers, h.low, h.lead, h.mine, fun e1 e2 => ⟨(h.ann e1 e2).1, (h.ann e1 e2).2.1, fun j hj hx => (h.ann e1 e2).2.2 j hj (hX j hx)⟩⟩

theorem Calls.clear {op : OP E S} (h : Calls n W b X me ps op.sp) : Calls n W b X me ps op.clearTrail.sp := ⟨h.pid, h.peers, h.low, h.lead, h.mine, h.ann⟩

namespace SP

theorem calls_leader (h : Calls n W b X me ps s) {x : Ballot} (hx : x.pid = me) :
    M.Sat (handle_leader x) s (fun _ t => Calls n W b X me ps t ∧ (n < x → x ≤ t.ist.cache.promise)) (fun _ => True) := by
  simp only [handle_leader, M.sat_bind, M.sat_get, M.sat_ite, M.sat_pure, M.sat_upd]
  refine ⟨fun hc => ⟨h, fun hnx => ?_⟩, fun hc => ⟨fun _ => ?_, fun hp => absurd (h.pid.trans hx.symm) hp⟩⟩
  · rcases hc with hc | hc
    · exact Ballot.le_trans hc (h.lead (Ballot.lt_of_lt_of_le hnx hc)).2
    · exact hc
  · have hlt : s.ist.cache.promise < x := Ballot.not_le.1 fun e => hc (.inr e)
    rw [sat_onStore]
    refine M.sat_mono IStore.pd_flush (fun _ i hi => ?_) fun _ _ => trivial
    rw [sat_onStore]
    refine M.sat_mono (IStore.pd_set_promise x) (fun _ j hj => ?_) fun _ _ => trivial
    rw [sat_onLS']
    refine ⟨fun r hr => ?_, fun _ => trivial⟩
    have hl : r.1.n_leader = x := LeaderState.set_promise_n hr
    rw [sat_setState]
    unfold M.Sat
    rw [forEach_send]
    simp only
    refine ⟨⟨h.pid, h.peers, fun hb => ?_, fun _ => ⟨?_, ?_⟩, fun m hm p e hn => ?_, fun e1 e2 => ⟨rfl, ?_, fun y hy _ => ?_⟩⟩, fun _ => ?_⟩
    · rw [hj.1]
      exact Ballot.le_of_lt (Ballot.lt_of_le_of_lt (h.low hb) hlt)
    · rw [hl]; exact hx
    · rw [hl, hj.1]; exact Ballot.le_refl x
    · rcases List.mem_append.1 hm with hm | hm
      · exact h.mine m hm p e hn
      · obtain ⟨y, _, rfl⟩ := List.mem_map.1 hm
        cases e
        exact hx
    · rw [hl, ← e2, hj.1]
    · refine ⟨_, List.mem_append_right _ (List.mem_map.2 ⟨y, by rw [h.peers]; exact hy, rfl⟩), rfl, _, rfl, ?_⟩
      rw [← e2, hj.1]
    · rw [hj.1]; exact Ballot.le_refl x

theorem calls_prepare [SnapOps E S] (h : Calls n W b X me ps s) (hn : n < W) {p : Prepare} (hp : n < p.n → p.n.pid ≠ me) (f : NodeId) :
    M.Sat (handle_prepare p f) s (fun _ t => Calls n W b X me ps t ∧ p.n ≤ t.ist.cache.promise) (fun _ => True) := by
  simp only [handle_prepare, M.sat_bind, M.sat_get, M.sat_ite, M.sat_pure, M.sat_upd, M.sat_ofPan, sat_send]
  refine ⟨fun hc => ?_, fun hc => ⟨h, Ballot.not_lt.1 fun e => hc (.inl e)⟩⟩
  have hle : s.ist.cache.promise ≤ p.n := hc.elim Ballot.le_of_lt fun e => Ballot.le_of_eq e.1
  rw [sat_onStore]
  refine M.sat_mono IStore.pd_flush (fun _ i hi => ?_) fun _ _ => trivial
  rw [sat_onStore]
  refine M.sat_mono (IStore.pd_set_promise p.n) (fun _ j hj => ?_) fun _ _ => trivial
  refine ⟨fun _ _ => ⟨⟨h.pid, h.peers, fun hb => ?_, fun hl => ⟨(h.lead hl).1, ?_⟩, fun m hm q e hq => ?_, fun e1 e2 => ?_⟩, ?_⟩, fun _ => trivial⟩
  · rw [hj.1]; exact Ballot.le_trans (h.low hb) hle
  · rw [hj.1]; exact Ballot.le_trans (h.lead hl).2 hle
  · rcases List.mem_append.1 hm with hm | hm
    · exact h.mine m hm q e hq
    · simp only [List.mem_cons, List.not_mem_nil, or_false] at hm
      subst hm
      cases e
  · have e3 : p.n = W := hj.1.symm.trans e2
    rw [e3] at hp
    exact absurd e1.symm (hp hn)
  · rw [hj.1]; exact Ballot.le_refl _

theorem _root_.Omni.Calls.does {α : Type} {m : M (SP E S) α} (h : Calls n W b X me ps s) (hm : Stays m s) :
    M.Sat m s (fun _ t => Calls n W b X me ps t) (fun _ => True) := M.sat_mono hm (fun _ _ ht => h.still ht) fun _ h => h

theorem calls_ticked (h : Calls n W b X me ps s) {x : Option Ballot} (hx : ∀ y, x = some y → y.pid = me) {r w : Prop} [Decidable r] [Decidable w] :
    M.Sat (ticked x r w) s (fun _ t => Calls n W b X me ps t ∧ ∀ y, x = some y → n < y → y ≤ t.ist.cache.promise) (fun _ => True) := by
  have h2 : ∀ u : SP E S, Stays (do M.whenDo r resend_message_timeout; M.whenDo w flush_batch_timeout) u := fun u =>
    y_bind (by unfold Stays; rw [M.sat_whenDo]; exact ⟨fun _ => y_resend, fun _ => .refl u⟩) fun _ v => by
      unfold Stays; rw [M.sat_whenDo]; exact ⟨fun _ => y_flush, fun _ => .refl v⟩
  unfold ticked
  cases x with
  | none => exact M.sat_mono (Calls.does h (h2 s)) (fun _ _ h => ⟨h, nofun⟩) fun _ h => h
  | some y =>
    rw [M.sat_bind]
    refine M.sat_mono (calls_leader h (hx y rfl)) (fun _ u hu => ?_) fun _ h => h
    refine M.sat_mono (h2 u) (fun _ v hv => ⟨hu.1.still hv, fun z e hz => ?_⟩) fun _ h => h
    cases e
    rw [hv.promise]
    exact hu.2 hz

theorem calls_handle [SnapOps E S] (h : Calls n W b X me ps s) (hn : n < W) {m : PaxosMessage E S} (hm : ∀ p, m.msg = .prepare p → n < p.n → p.n.pid ≠ me) :
    M.Sat (handle m) s (fun _ t => Calls n W b X me ps t ∧ ∀ p, m.msg = .prepare p → p.n ≤ t.ist.cache.promise) (fun _ => True) := by
  by_cases hp : ∃ p, m.msg = .prepare p
  · obtain ⟨p, e⟩ := hp
    have hm := hm p e
    unfold handle
    rw [e]
    exact M.sat_mono (calls_prepare h hn hm m.src) (fun _ _ h => ⟨h.1, fun q e' => by cases e'; exact h.2⟩) fun _ h => h
  · exact M.sat_mono (Calls.does h (y_handle fun p e => hp ⟨p, e⟩)) (fun _ _ h => ⟨h, fun p e => absurd ⟨p, e⟩ hp⟩) fun _ h => h

end SP
end Omni
