import Verif.Proof.Safety.Cluster
import Verif.Proof.Session
/-
What holds of the dependable links: an AcceptSync of a dead session never reaches a follower that waits for it.
-/
namespace Omni

variable {E S : Type}

/-- Server `F` waits for an AcceptSync of ballot `n` of leader `i`. -/
def Server.waits (s : Server E S) (i : NodeId) (n : Ballot) : Prop :=
  n.pid = i ∧ ∃ op, s = .up op ∧ op.sp.phase = .prepare ∧ op.sp.ist.cache.promise = n

/-- What holds of a server with messages `pre` to `F` in flight. -/
def SessAt (F : NodeId) (D : Ballot → Nat → Prop) (b : Ballot → Prop) (pre : List Ph) : Server E S → Prop
  | .up op => Sess F D b pre (fun _ => True) op.sp
  | .down _ => Late D b pre

structure RInv (cc : ClusterConfig) (c : Cluster E S) (G : Ghost E) (rel : Links := Links.none) : Prop extends CInv cc c G where
  alive : ∀ n F s, rel n.pid F = false → ¬ G.dead n F s
  sess : ∀ i F, rel i F = true → i ≠ F →
    SessAt F (fun n k => G.dead n F k) ((c.servers F).waits i) (phs (c.pre i F)) (c.servers i)

theorem Late.behind {D D' : Ballot → Nat → Prop} {b b' : Ballot → Prop} {hd l : List Ph} (h : Late D b (hd ++ l))
    (hD : ∀ n k, (n, some k) ∈ l → D' n k → D n k) (hb : ∀ n k, (n, some k) ∈ l → b' n → Awaits n (b n) hd) : Late D' b' l := by
  intro l1 n k l2 e hd' hw
  have hm : (n, some k) ∈ l := by rw [e]; simp
  refine h (hd ++ l1) n k l2 (by rw [e]; simp) (hD n k hm hd') ?_
  rw [awaits_append]
  exact hw.mono (hb n k hm)

variable {cc : ClusterConfig} {i j p F : NodeId} {pre : List Ph} {G G' : Ghost E} {c c' : Cluster E S} {rel : Links}
  {D D' : Ballot → Nat → Prop} {b b' : Ballot → Prop}

/-- The phases a server has not yet sent. -/
def Server.unsent (F : NodeId) : Server E S → List Ph
  | .up op => phsTo F op.sp.outgoing
  | .down _ => []

theorem Sess.change {hd pre : List Ph} {s : SP E S} (h : Sess F D b (hd ++ pre) (fun _ => True) s)
    (hi : ∀ n k, (n, some k) ∈ pre ++ phsTo F s.outgoing → D' n k → D n k)
    (hb : ∀ n, (∃ k, (n, some k) ∈ pre ++ phsTo F s.outgoing) ∨ (s.role = .leader ∧ n = s.ls.n_leader) → b' n → Awaits n (b n) hd) :
    Sess F D' b' pre (fun _ => True) s where
  pid := h.pid
  own := h.own
  wait _ _ := trivial
  late := by
    have := h.late
    rw [List.append_assoc] at this
    exact this.behind hi fun n k hm => hb n (.inl ⟨k, hm⟩)
  lead h1 h2 h3 hw := by
    refine h.lead h1 h2 h3 ?_
    rw [List.append_assoc, awaits_append]
    exact hw.mono (hb _ (.inr ⟨h1, rfl⟩))
  metp := h.metp

/-- Every Prepare and AcceptSync of a server is of its own ballots. -/
theorem MsgOK.ph_pid {m : PaxosMessage E S} (h : MsgOK cc G m) {x : Ph} (hx : m.msg.ph = some x) : x.1.pid = m.src := by
  cases hb : m.msg with
  | prepare q =>
    rw [hb] at hx; cases hx
    have := h.body (fun n q hq => by rw [hb] at hq; cases hq)
    rw [hb] at this
    exact this.1
  | acceptSync a =>
    rw [hb] at hx; cases hx
    exact (h.lead a.n a.seq_num (by rw [hb]; rfl)).1
  | _ => rw [hb] at hx; cases hx

theorem mem_phs {l : List (PaxosMessage E S)} {x : Ph} (h : x ∈ phs l) : ∃ m ∈ l, m.msg.ph = some x := by
  obtain ⟨m, hm, hx⟩ := List.mem_filterMap.1 h
  exact ⟨m, hm, hx⟩

theorem mem_phsTo {l : List (PaxosMessage E S)} {x : Ph} (h : x ∈ phsTo F l) : ∃ m ∈ l, m.dst = F ∧ m.msg.ph = some x := by
  obtain ⟨m, hm, hx⟩ := mem_phs h
  obtain ⟨h1, h2⟩ := List.mem_filter.1 hm
  exact ⟨m, h1, by simpa using h2, hx⟩

theorem CInv.pre_pid (h : CInv cc c G) {x : Ph} (hx : x ∈ phs (c.pre i F)) : x.1.pid = i := by
  obtain ⟨m, hm, hp⟩ := mem_phs hx
  rw [(((h.srv i).link F).msg m (List.mem_append_left _ hm)).ph_pid hp, ((h.srv i).src F m hm).1]

theorem CInv.up (h : CInv cc c G) {op : OP E S} (hs : c.servers i = .up op) : NodeInv cc i (c.pre i) G op.sp := by
  have := h.srv i
  rw [hs] at this
  exact this.2.1

theorem CInv.out_pid (h : CInv cc c G) {op : OP E S} (hs : c.servers i = .up op) {x : Ph} (hx : x ∈ phsTo F op.sp.outgoing) : x.1.pid = i := by
  obtain ⟨m, hm, -, hp⟩ := mem_phsTo hx
  obtain ⟨lg, hC, -⟩ := h.up hs
  rw [((hC.out F).msg m (List.mem_append_right _ hm)).ph_pid hp, hC.src F m (List.mem_append_right _ hm)]

theorem NodeInv.own {pre : NodeId → List (PaxosMessage E S)} {s : SP E S} (h : NodeInv cc i pre G s) (hl : s.role = .leader) :
    s.ls.n_leader = s.ist.cache.promise ∧ s.ls.n_leader.pid = i := by
  obtain ⟨lg, hC, hr⟩ := h
  unfold RoleInv at hr
  rw [hl] at hr
  cases hp : s.phase <;> rw [hp] at hr
  · exact ⟨hr.ldr, hr.own⟩
  · exact ⟨hr.ldr, hr.own⟩
  · exact hr.elim
  · exact hr.elim

/-- Servers other than the one that acts. -/
theorem CInv.follow (h : CInv cc c G) {hd pre : List Ph} (hp : phs (c.pre i F) = hd ++ pre)
    (hs : SessAt F D b (phs (c.pre i F)) (c.servers i)) (hD : ∀ n k, n.pid = i → D' n k → D n k)
    (hb : ∀ n, n.pid = i → b' n → Awaits n (b n) hd) : SessAt F D' b' pre (c.servers i) := by
  rw [hp] at hs
  have hm : ∀ x ∈ pre, x.1.pid = i := fun x hx => h.pre_pid (F := F) (by rw [hp]; exact List.mem_append_right _ hx)
  cases hs' : c.servers i with
  | up op =>
    rw [hs'] at hs
    have hm' : ∀ x ∈ pre ++ phsTo F op.sp.outgoing, x.1.pid = i := fun x hx =>
      (List.mem_append.1 hx).elim (hm x) fun hx => h.out_pid hs' hx
    refine Sess.change hs (fun n k hk => hD n k (hm' _ hk)) fun n hn => hb n ?_
    rcases hn with ⟨k, hk⟩ | ⟨h1, rfl⟩
    · exact hm' _ hk
    · exact ((h.up hs').own h1).2
  | down d =>
    rw [hs'] at hs
    exact Late.behind hs (fun n k hk => hD n k (hm _ hk)) fun n k hk => hb n (hm _ hk)

/-- The sessions that may die when leader `op` handles a message. -/
def OP.dies (op : OP E S) (n : Ballot) (F : NodeId) (k : Nat) : Prop :=
  op.sp.role = .leader ∧ op.sp.phase = .accept ∧ n = op.sp.ls.n_leader ∧ op.sp.ls.Waiting F ∧
    ∃ q, slot op.sp.ls.follower_seq_nums F = some q ∧ k = q.session + 1

/-- No AcceptSync on its way dies. -/
theorem CInv.old (h : CInv cc c G) {op : OP E S} (hs : c.servers p = .up op) {die : Ballot → NodeId → Nat → Prop}
    (hd : CInv.Died p die G G') (hdie : ∀ n F k, die n F k → op.dies n F k) {n : Ballot} {k : Nat}
    (hm : (n, some k) ∈ phs (c.pre p F) ++ phsTo F op.sp.outgoing) (hk : G'.dead n F k) : G.dead n F k := by
  refine (hd n F k hk).resolve_right fun ⟨_, hx⟩ => ?_
  obtain ⟨h1, h2, rfl, -, q, hq, rfl⟩ := hdie n F k hx
  obtain ⟨lg, hC, hr⟩ := h.up hs
  have hr : LeadAcc cc p (c.pre p) (fun _ => some lg) G op.sp lg := by
    unfold RoleInv at hr; rw [h1, h2] at hr; exact hr
  obtain ⟨m, hm, hdst, hph⟩ : ∃ m ∈ c.pre p F ++ op.sp.outgoing, m.dst = F ∧ m.msg.ph = some (op.sp.ls.n_leader, some (q.session + 1)) := by
    rcases List.mem_append.1 hm with hm | hm
    · obtain ⟨m, h1, h2⟩ := mem_phs hm
      exact ⟨m, List.mem_append_left _ h1, hC.dst F m h1, h2⟩
    · obtain ⟨m, h1, h2, h3⟩ := mem_phsTo hm
      exact ⟨m, List.mem_append_right _ h1, h2, h3⟩
  cases hb : m.msg with
  | acceptSync a =>
    rw [hb] at hph
    simp only [PaxosMsg.ph, Option.some.injEq, Prod.mk.injEq] at hph
    have := hr.link F m hm a.seq_num (by rw [hb, ← hph.1]; rfl) q (by rw [hdst]; exact hq)
    have := SeqNum.session_le this
    omega
  | _ => rw [hb] at hph; simp [PaxosMsg.ph] at hph

theorem RInv.act (h : RInv cc c G rel) {op : OP E S} (hs : c.servers p = .up op) {s' : Server E S} (hC : CInv cc c' G')
    (hsv : c'.servers = fun j => if j = p then s' else c.servers j)
    {die : Ballot → NodeId → Nat → Prop} (hd : CInv.Died p die G G') (hdie : ∀ n F k, die n F k → rel p F = true ∧ op.dies n F k)
    {hd' : NodeId → List Ph} (hpre : ∀ i, i ≠ p → phs (c.pre i p) = hd' i ++ phs (c'.pre i p)) (hoth : ∀ i F, F ≠ p → c'.pre i F = c.pre i F)
    (hL : ∀ op', s' = .up op' → ∀ F D b pre, rel p F = true →
      (op.sp.role = .leader → op.sp.phase = .prepare → ∀ k, ¬ D op.sp.ls.n_leader k) →
      (op.sp.role = .leader → op.sp.phase = .accept → ∀ q, slot op.sp.ls.follower_seq_nums F = some q → D op.sp.ls.n_leader (q.session + 1) →
        op.sp.ls.Waiting F) →
      Sess F D b pre (fun _ => True) op.sp → Sess F D b pre (fun _ => True) op'.sp)
    (hW : ∀ op', s' = .up op' → op'.sp.phase = .prepare → op'.sp.ist.cache.promise.pid ≠ p →
      Awaits op'.sp.ist.cache.promise (op.sp.phase = .prepare ∧ op.sp.ist.cache.promise = op'.sp.ist.cache.promise)
        (hd' op'.sp.ist.cache.promise.pid)) : RInv cc c' G' rel where
  toCInv := hC
  alive n F k hr hk := by
    rcases hd n F k hk with h1 | ⟨h1, h2⟩
    · exact h.alive n F k hr h1
    · rw [h1, (hdie n F k h2).1] at hr; cases hr
  sess i F hr hne := by
    have h0 := h.sess i F hr hne
    by_cases hi : i = p
    · subst hi
      rw [hoth i F (Ne.symm hne), hsv]
      simp only [if_true]
      rw [if_neg (Ne.symm hne)]
      rw [hs] at h0
      have h1 : Sess F (fun n k => G'.dead n F k) ((c.servers F).waits i) (phs (c.pre i F)) (fun _ => True) op.sp :=
        Sess.change (hd := []) h0 (fun n k hm hk => h.toCInv.old hs hd (fun n F k hx => (hdie n F k hx).2) hm hk) fun _ _ hb => hb
      cases hs'' : s' with
      | down d => exact h1.late.pre
      | up op' =>
        refine hL op' hs'' F _ _ _ hr (fun e1 e2 k hk => ?_) (fun e1 e2 q hq hk => ?_) h1
        · rcases hd _ _ _ hk with hx | ⟨-, hx⟩
          · obtain ⟨lg, -, hrole⟩ := h.toCInv.up hs
            have hrole : LeadPrep cc i G op.sp lg := by unfold RoleInv at hrole; rw [e1, e2] at hrole; exact hrole
            have := h.abs.deadAcc _ _ _ hx
            rw [hrole.own] at this
            exact this hrole.noacc
          · have := (hdie _ _ _ hx).2.2.1
            rw [e2] at this; cases this
        · rcases hd _ _ _ hk with hx | ⟨-, hx⟩
          · obtain ⟨lg, -, hrole⟩ := h.toCInv.up hs
            have hrole : LeadAcc cc i (c.pre i) (fun _ => some lg) G op.sp lg := by unfold RoleInv at hrole; rw [e1, e2] at hrole; exact hrole
            have := hrole.dead F q _ hq hx
            omega
          · exact (hdie _ _ _ hx).2.2.2.2.1
    · have hD : ∀ n k, n.pid = i → G'.dead n F k → G.dead n F k := fun n k hn hk =>
        (hd n F k hk).resolve_right fun hx => hi (hn.symm.trans hx.1)
      have hsi : c'.servers i = c.servers i := by rw [hsv]; simp only; rw [if_neg hi]
      rw [hsi]
      by_cases hF : F = p
      · subst hF
        refine h.toCInv.follow (hpre i hi) h0 hD fun n hn hw => ?_
        obtain ⟨-, op', e1, e2, rfl⟩ := hw
        rw [hsv] at e1
        simp only [if_true] at e1
        have := hW op' e1 e2 (by rw [hn]; exact hi)
        rw [hn] at this
        exact this.mono fun ⟨e3, e4⟩ => ⟨hn, op, hs, e3, e4⟩
      · rw [hoth i F hF]
        refine h.toCInv.follow (hd := []) rfl h0 hD fun n hn hw => ?_
        rw [hsv] at hw
        simp only at hw
        rw [if_neg hF] at hw
        exact hw

/-- The server seen from no follower in particular. -/
theorem NodeInv.sess0 {pre : NodeId → List (PaxosMessage E S)} {s : SP E S} (h : NodeInv cc i pre G s) (W : Ballot → Prop)
    (hW : s.phase = .prepare → W s.ist.cache.promise) : Sess 0 (fun _ _ => False) (fun _ => False) [] W s := by
  obtain ⟨lg, hC, -⟩ := id h
  have h0 : ¬ s.ls.Waiting 0 := fun ⟨x, hx⟩ => nomatch hx
  have h1 : ¬ s.ls.HasPromise 0 := fun ⟨x, hx⟩ => nomatch hx
  refine ⟨by rw [hC.pid]; exact hC.node.2, fun hl => by rw [hC.pid]; exact (h.own hl).2, fun hp _ => hW hp, fun _ _ _ _ _ hd => hd.elim,
    fun _ _ hx => absurd hx (by simp [h0, h1]), fun _ hx => absurd hx h0⟩

theorem Sess.clear {W : Ballot → Prop} {op : OP E S} (h : Sess F D b pre W op.sp) : Sess F D b pre W op.clearTrail.sp :=
  ⟨h.pid, h.own, h.wait, h.late, h.lead, h.metp⟩

theorem OP.callResult_up [SnapOps E S] {op op' : OP E S} {cl : Call E S} (h : op.callResult cl = .up op') {Q : OP E S → Prop}
    (hq : M.Sat cl.run op.clearTrail (fun _ => Q) fun _ => True) : Q op' := by
  unfold OP.callResult at h
  unfold M.Sat at hq
  cases hr : cl.run op.clearTrail with
  | ok a t => rw [hr] at h hq; cases h; exact hq
  | panic t => rw [hr] at h; cases h

namespace RInv
export CInv (G0 raise Spent)

theorem not_paxos {cl : Call E S} (hc : cl.isIncoming = false) (m : PaxosMessage E S) : cl ≠ .handleIncoming (.paxos m) := fun e => by
  rw [e] at hc; cases hc

theorem act_call [SnapOps E S] (h : RInv cc c G rel) {op : OP E S} (hs : c.servers i = .up op) {cl : Call E S}
    (hc : ∀ m, cl ≠ .handleIncoming (.paxos m)) {s' : Server E S} (hC : CInv cc (c.setServer i s') G')
    (hs' : ∀ op', s' = .up op' → op.callResult cl = .up op') (hd : CInv.Died i (fun _ _ _ => False) G G') : RInv cc (c.setServer i s') G' rel := by
  refine h.act hs hC rfl hd nofun (hd' := fun _ => []) (fun _ _ => rfl) (fun _ _ _ => rfl) (fun op' e F D b pre _ _ _ h0 => ?_) fun op' e h1 h2 => ?_
  · exact OP.callResult_up (hs' op' e) (OP.run_sess h0.clear cl hc)
  · have hN := h.toCInv.up hs
    have h0 := hN.sess0 (fun n => op.sp.phase = .prepare ∧ op.sp.ist.cache.promise = n) fun hp => ⟨hp, rfl⟩
    have := OP.callResult_up (hs' op' e) (OP.run_sess h0.clear cl hc)
    refine this.wait h1 ?_
    obtain ⟨lg, hC', -⟩ := hC.up (op := op') (i := i) (by simp [Cluster.setServer, e])
    rw [hC'.pid]; exact h2

theorem setHold (h : RInv cc c G rel) (f : NodeId → Nat) (hf : ∀ i op, c.servers i = .up op → op.sp.tok G.mark ≤ f i) :
    RInv cc c { G with hold := f } rel := ⟨h.toCInv.setHold f hf, h.alive, h.sess⟩

theorem raised (h : RInv cc c G rel) (i : NodeId) (k : Nat) : RInv cc c (CInv.raise G i k) rel := ⟨h.toCInv.raised i k, h.alive, h.sess⟩

theorem call_tok [SnapOps E S] (h : RInv cc c G rel) {op : OP E S} (hs : c.servers i = .up op) {cl : Call E S}
    (hc : cl.isIncoming = false) {k : Nat} (hk : ∀ e, cl = .append e → G.count [e] ≤ k) :
    (∃ G', Mono G G' ∧ RInv cc (c.setServer i (op.callResult cl)) G' rel ∧ CInv.Spent i k G G') ∧
    (∀ d ∈ op.callTrail cl, ∃ G', Mono G G' ∧ RInv cc (c.setServer i (.down d)) G' rel ∧ CInv.Spent i k G G') ∧
    Chain op.sp.ist.storage (op.callWrites cl) (op.callTrail cl) (op.callResult cl).disk := by
  obtain ⟨⟨G', h1, h2, h3, h4⟩, h5, h6⟩ := h.toCInv.call_tok hs hc hk
  refine ⟨⟨G', h1, h.act_call (cl := cl) (s' := op.callResult cl) hs (not_paxos hc) h2 (fun _ e => e) h4, h3⟩, fun d hd => ?_, h6⟩
  obtain ⟨G', h1, h2, h3, h4⟩ := h5 d hd
  exact ⟨G', h1, h.act_call (cl := cl) (s' := .down d) hs (not_paxos hc) h2 (fun _ e => nomatch e) h4, h3⟩

theorem call [SnapOps E S] (h : RInv cc c G rel) {op : OP E S} (hs : c.servers i = .up op) {cl : Call E S}
    (hc : cl.isIncoming = false) :
    (∃ G', Mono G G' ∧ RInv cc (c.setServer i (op.callResult cl)) G' rel) ∧
    (∀ d ∈ op.callTrail cl, ∃ G', Mono G G' ∧ RInv cc (c.setServer i (.down d)) G' rel) ∧
    Chain op.sp.ist.storage (op.callWrites cl) (op.callTrail cl) (op.callResult cl).disk := by
  obtain ⟨⟨G', h1, h2, -⟩, h3, h4⟩ := h.call_tok hs hc (k := 1) fun e _ => List.countP_le_length
  refine ⟨⟨G', h1, h2⟩, fun d hd => ?_, h4⟩
  obtain ⟨G', h1, h2, -⟩ := h3 d hd
  exact ⟨G', h1, h2⟩

/-- The network without the first message from `i` to `j`. -/
theorem pop_pre {m : Message E S} {rest : List (Message E S)} (hn : c.net i j = m :: rest) (k : NodeId) :
    phs (c.pre k j) = (if k = i then phs (paxOf [m]) else []) ++ phs ((c.setNet i j rest).pre k j) := by
  by_cases hk : k = i
  · subst hk
    simp only [Cluster.pre, Cluster.setNet, hn, if_true, true_and, phs]
    rw [← List.filterMap_append]
    congr 1
    rw [show m :: rest = [m] ++ rest from rfl, paxOf, List.filterMap_append]
    rfl
  · simp [Cluster.pre, Cluster.setNet, hk]

theorem run_sess_paxos [SnapOps E S] {op : OP E S} {W : Ballot → Prop} (h : Sess F D b pre W op.sp)
    (hl : op.sp.role = .leader → op.sp.ist.cache.promise.pid = op.sp.pid) (m : PaxosMessage E S) (hk : SP.Kills F D op.sp m)
    (hp : ∀ p, m.msg = .prepare p → p.n.pid ≠ op.sp.pid → W p.n) {op' : OP E S} (ho : op.callResult (.handleIncoming (.paxos m)) = .up op') :
    Sess F D b pre W op'.sp ∧ ∀ a, m.msg = .acceptSync a → a.n.pid ≠ op.sp.pid → op'.sp.phase = .prepare → op'.sp.ist.cache.promise ≠ a.n := by
  have := SP.s_handle h.clear hl m ⟨hk.prep, hk.acc⟩ hp
  refine OP.callResult_up ho (Q := fun t => Sess F D b pre W t.sp ∧ ∀ a, m.msg = .acceptSync a → a.n.pid ≠ op.sp.pid →
    t.sp.phase = .prepare → t.sp.ist.cache.promise ≠ a.n) ?_
  show M.Sat (OP.onSP (SP.handle m)) op.clearTrail _ _
  rw [OP.sat_onSP]
  exact M.sat_mono this (fun _ _ h => h) fun _ h => h

theorem deliver_tok [SnapOps E S] (h : RInv cc c G rel) {m : Message E S} {rest : List (Message E S)} (hn : c.net i j = m :: rest)
    {op : OP E S} (hs : c.servers j = .up op)
    (ht : rel j i = false → ∀ p pr, m = .paxos p → p.msg = .promise pr → ∀ x ∈ op.sp.outgoing, x.dst = p.src → ∀ a, x.msg = .acceptDecide a → a.n ≠ pr.n)
    {k0 : Nat} (hk : ∀ p es, m = .paxos p → p.msg = .proposalForward es → G.count es ≤ k0) :
    (∃ G', Mono G G' ∧ RInv cc ((c.setNet i j rest).setServer j (op.callResult (.handleIncoming m))) G' rel ∧ CInv.Spent j k0 G G') ∧
    (∀ d ∈ op.callTrail (.handleIncoming m), ∃ G', Mono G G' ∧ RInv cc ((c.setNet i j rest).setServer j (.down d)) G' rel ∧ CInv.Spent j k0 G G') ∧
    Chain op.sp.ist.storage (op.callWrites (.handleIncoming m)) (op.callTrail (.handleIncoming m)) (op.callResult (.handleIncoming m)).disk := by
  have hN := h.toCInv.up hs
  have hsrc : ∀ x, m = .paxos x → x ∈ c.pre i j ∧ x.src = i ∧ i ≠ j ∧ MsgOK cc G x := by
    rintro x rfl
    have hmem : x ∈ c.pre i j := by simp [Cluster.pre, hn, paxOf]
    have hmok := ((h.srv i).link j).msg x (List.mem_append_left _ hmem)
    obtain ⟨h1, h2⟩ := (h.srv i).src j x hmem
    exact ⟨hmem, h1, by rw [← h1, ← h2]; exact hmok.ne, hmok⟩
  obtain ⟨⟨G', h1, h2, h3, h4⟩, h5, h6⟩ := h.toCInv.deliver_tok (die := fun n F k => rel j F = true ∧ op.dies n F k) hn hs (by
      intro x pr hx hpr e1 e2 e3 e4 q hq
      refine ⟨?_, e1, e2, rfl, e4, q, hq, rfl⟩
      obtain ⟨-, hxs, -, -⟩ := hsrc x hx
      cases hr : rel j x.src with
      | true => rfl
      | false =>
        obtain ⟨lg, -, hrole⟩ := hN
        have hrole : LeadAcc cc j (c.pre j) (fun _ => some lg) G op.sp lg := by unfold RoleInv at hrole; rw [e1, e2] at hrole; exact hrole
        obtain ⟨⟨b, k⟩, hy⟩ := e4
        obtain ⟨-, -, -, a, h1, h2, -⟩ := hrole.mets x.src b k hy
        rw [hxs] at hr
        exact absurd (h2.trans e3.symm) (ht hr x pr hx hpr _ (List.mem_of_getElem? h1) rfl a rfl)) (by
      intro x a hx ha e1 e2 e3 hdead
      obtain ⟨hmem, hxs, hij, hmok⟩ := hsrc x hx
      have hpid : a.n.pid = i := by rw [(hmok.lead a.n a.seq_num (by rw [ha]; rfl)).1, hxs]
      cases hr : rel i j with
      | false => exact h.alive a.n j _ (by rw [hpid]; exact hr) hdead
      | true =>
        have hl : Late (fun n k => G.dead n j k) ((c.servers j).waits i) (phs (c.pre i j)) := by
          have := h.sess i j hr hij
          cases hsi : c.servers i with
          | up op => rw [hsi] at this; exact this.late.pre
          | down d => rw [hsi] at this; exact this
        have hp := pop_pre hn i
        rw [if_pos rfl, hx] at hp
        exact hl [] a.n a.seq_num.session (phs ((c.setNet i j rest).pre i j)) (by rw [hp]; simp [phs, paxOf, ha, PaxosMsg.ph]) hdead
          ⟨hpid, op, hs, e2, e3⟩) hk
  have fin : ∀ s' G', CInv cc ((c.setNet i j rest).setServer j s') G' → CInv.Died j (fun n F k => rel j F = true ∧ op.dies n F k) G G' →
      (∀ op', s' = .up op' → op.callResult (.handleIncoming m) = .up op') → RInv cc ((c.setNet i j rest).setServer j s') G' rel := by
    intro s' G' hC hd hs'
    refine h.act hs hC rfl hd (fun _ _ _ h => h) (fun k _ => pop_pre hn k) (fun k F hF => ?_) (fun op' e F D b pre hrel hk1 hk2 h0 => ?_)
      fun op' e e1 e2 => ?_
    · simp [Cluster.pre, Cluster.setNet, Cluster.setServer, hF]
    · cases m with
      | ble x => exact OP.callResult_up (hs' op' e) (OP.run_sess h0.clear _ nofun)
      | paxos x =>
        refine (run_sess_paxos h0 (fun hl => ?_) x ⟨fun _ _ a1 a2 _ => hk1 a1 a2, fun _ _ a1 a2 _ _ => hk2 a1 a2⟩ (fun _ _ _ => trivial) (hs' op' e)).1
        obtain ⟨h1, h2⟩ := hN.own hl
        obtain ⟨lg, hC', -⟩ := hN
        rw [← h1, h2, hC'.pid]
    · obtain ⟨lg, hC', -⟩ := hC.up (op := op') (i := j) (by simp [Cluster.setServer, e])
      have hpj := hC'.pid
      cases m with
      | ble x =>
        have h0 := hN.sess0 (fun n => op.sp.phase = .prepare ∧ op.sp.ist.cache.promise = n) fun hp => ⟨hp, rfl⟩
        have := OP.callResult_up (hs' op' e) (OP.run_sess h0.clear _ nofun)
        have := this.wait e1 (by rw [hpj]; exact e2)
        have he : (if op'.sp.ist.cache.promise.pid = i then phs (paxOf [(Message.ble x : Message E S)]) else []) = [] := by
          split <;> rfl
        rw [he]
        exact this
      | paxos x =>
        obtain ⟨hmem, hxs, hij, hmok⟩ := hsrc x rfl
        have hpo : op.sp.pid = j := by obtain ⟨lg, hC', -⟩ := hN; exact hC'.pid
        have h0 := hN.sess0 (fun n => (op.sp.phase = .prepare ∧ op.sp.ist.cache.promise = n) ∨ ∃ p, x.msg = .prepare p ∧ p.n = n)
          fun hp => .inl ⟨hp, rfl⟩
        obtain ⟨h7, h8⟩ := run_sess_paxos h0 (fun hl => by
          obtain ⟨h1, h2⟩ := hN.own hl
          rw [← h1, h2, hpo]) x ⟨fun _ _ _ _ _ _ h => h, fun _ _ _ _ _ _ _ _ h => h.elim⟩ (fun p hp _ => .inr ⟨p, hp, rfl⟩) (hs' op' e)
        have hw := h7.wait e1 (by rw [hpj]; exact e2)
        split
        · rename_i hi
          simp only [paxOf, phs, List.filterMap_cons, List.filterMap_nil]
          cases hb : x.msg with
          | prepare p =>
            simp only [PaxosMsg.ph, Awaits]
            rcases hw with hw | ⟨p', h1, h2⟩
            · exact .inl hw
            · rw [hb] at h1; cases h1; exact .inr h2
          | acceptSync a =>
            simp only [PaxosMsg.ph, Awaits]
            refine ⟨hw.resolve_right fun ⟨p', h1, h2⟩ => ?_, fun hx => ?_⟩
            · rw [hb] at h1; cases h1
            · exact h8 a hb (by rw [(hmok.lead a.n a.seq_num (by rw [hb]; rfl)).1, hxs, hpo]; exact hij) e1 hx.symm
          | _ =>
            simp only [PaxosMsg.ph, Awaits]
            refine hw.resolve_right fun ⟨p', h1, h2⟩ => ?_
            rw [hb] at h1; cases h1
        · rename_i hi
          refine hw.resolve_right fun ⟨p', h1, h2⟩ => hi ?_
          rw [← h2, hmok.ph_pid (x := (p'.n, none)) (by rw [h1]; rfl), hxs]
  refine ⟨⟨G', h1, fin _ G' h2 h4 fun _ e => e, h3⟩, fun d hd => ?_, h6⟩
  obtain ⟨G', h1, h2, h3, h4⟩ := h5 d hd
  exact ⟨G', h1, fin _ G' h2 h4 (fun _ e => nomatch e), h3⟩

theorem deliver [SnapOps E S] (h : RInv cc c G rel) {m : Message E S} {rest : List (Message E S)} (hn : c.net i j = m :: rest)
    {op : OP E S} (hs : c.servers j = .up op)
    (ht : rel j i = false → ∀ p pr, m = .paxos p → p.msg = .promise pr → ∀ x ∈ op.sp.outgoing, x.dst = p.src → ∀ a, x.msg = .acceptDecide a → a.n ≠ pr.n) :
    (∃ G', Mono G G' ∧ RInv cc ((c.setNet i j rest).setServer j (op.callResult (.handleIncoming m))) G' rel) ∧
    (∀ d ∈ op.callTrail (.handleIncoming m), ∃ G', Mono G G' ∧ RInv cc ((c.setNet i j rest).setServer j (.down d)) G' rel) ∧
    Chain op.sp.ist.storage (op.callWrites (.handleIncoming m)) (op.callTrail (.handleIncoming m)) (op.callResult (.handleIncoming m)).disk := by
  have hk : ∀ p es, m = .paxos p → p.msg = .proposalForward es → G.count es ≤ fwds G.mark (paxOf [m]) := by
    rintro p es rfl hp
    simp [paxOf, fwds, PaxosMsg.fwd, hp, Ghost.count]
  obtain ⟨⟨G', h1, h2, -⟩, h3, h4⟩ := h.deliver_tok hn hs ht hk
  refine ⟨⟨G', h1, h2⟩, fun d hd => ?_, h4⟩
  obtain ⟨G', h1, h2, -⟩ := h3 d hd
  exact ⟨G', h1, h2⟩

/-- Server `p` changes without changing the history, and sends. -/
theorem swap (h : RInv cc c G rel) {s' : Server E S} (hC : CInv cc c' G) (hsv : c'.servers = fun j => if j = p then s' else c.servers j)
    (hpre : ∀ i F, i ≠ p → c'.pre i F = c.pre i F)
    (hS : ∀ F, F ≠ p → ∀ D b, SessAt F D b (phs (c.pre p F)) (c.servers p) → SessAt F D b (phs (c'.pre p F)) s')
    (hW : ∀ i n, i ≠ p → s'.waits i n → (c.servers p).waits i n) : RInv cc c' G rel where
  toCInv := hC
  alive := h.alive
  sess i F hr hne := by
    have h0 := h.sess i F hr hne
    by_cases hi : i = p
    · subst hi
      rw [hsv]
      simp only [if_true]
      rw [if_neg (Ne.symm hne)]
      exact hS F (Ne.symm hne) _ _ h0
    · rw [hpre i F hi, hsv]
      simp only
      rw [if_neg hi]
      refine h.toCInv.follow (hd := []) rfl h0 (fun _ _ _ h => h) fun n hn hw => ?_
      by_cases hF : F = p
      · subst hF
        rw [if_pos rfl] at hw
        exact hW i n hi hw
      · rwa [if_neg hF] at hw

theorem start (h : RInv cc c G rel) {cfg : ServerConfig} {d : Mem E S} {op : OP E S} (hd : c.servers cfg.pid = .down d)
    (hb : OP.build { cluster_config := cc, server_config := cfg } d = some (.ok op)) : RInv cc (c.setServer cfg.pid (.up op)) G rel := by
  have hi := h.srv cfg.pid
  rw [hd] at hi
  have hC : CInv cc (c.setServer cfg.pid (.up op)) G := h.toCInv.move (allow := {}) rfl (Step.refl _ _ _) h.abs (DownInv.build hi hb) fun j _ =>
    CInv.same_flow (allow := {}) (Step.refl _ _ _) (fun _ _ h => h) rfl j
  have hph : op.sp.phase ≠ .prepare ∧ op.sp.role = .follower ∧ op.sp.pid = cfg.pid ∧ ∀ F, phsTo F op.sp.outgoing = [] := by
    obtain ⟨mp, hmp, rfl⟩ := OP.build_eq hb
    refine ⟨?_, rfl, rfl, fun F => ?_⟩
    · simp only; split <;> simp
    · refine List.eq_nil_iff_forall_not_mem.2 fun x hx => ?_
      obtain ⟨m, hm, -, hx⟩ := mem_phsTo hx
      simp only at hm
      split at hm
      · obtain ⟨q, -, rfl⟩ := List.mem_map.1 hm
        cases hx
      · cases hm
  refine h.swap hC rfl (fun _ _ _ => rfl) (fun F hF D b hs => ?_) fun i n _ ⟨_, op', e, e2, _⟩ => ?_
  · rw [hd] at hs
    refine ⟨by rw [hph.2.2.1]; exact Ne.symm hF, (fun e => nomatch hph.2.1.symm.trans e), fun _ _ => trivial, ?_, (fun e => nomatch hph.2.1.symm.trans e),
      (fun e => nomatch hph.2.1.symm.trans e)⟩
    rw [hph.2.2.2, List.append_nil]
    exact hs
  · cases e; exact absurd e2 hph.1

theorem crash (h : RInv cc c G rel) {op : OP E S} (hop : c.servers i = .up op) : RInv cc (c.setServer i (.down op.sp.ist.storage)) G rel := by
  have hi := h.srv i
  rw [hop] at hi
  obtain ⟨lg, hd⟩ := hi.disk
  have hC : CInv cc (c.setServer i (.down op.sp.ist.storage)) G := h.toCInv.move (allow := {}) rfl (Step.refl _ _ _) h.abs (hi.down hd) fun j _ =>
    CInv.same_flow (allow := {}) (Step.refl _ _ _) (fun _ _ h => h) rfl j
  refine h.swap hC rfl (fun _ _ _ => rfl) (fun F hF D b hs => ?_) fun i n _ ⟨_, op', e, _, _⟩ => nomatch e
  rw [hop] at hs
  exact hs.late.pre

theorem take_pre (c : Cluster E S) (op : OP E S) (i k : NodeId) :
    paxOf (c.net i k ++ (op.take_outgoing_messages []).1.filter (fun m => decide (m.dst = k))) =
      c.pre i k ++ op.sp.outgoing.filter fun m => decide (m.dst = k) := by
  have hble : ∀ l : List BLEMessage, paxOf ((l.map (Message.ble : BLEMessage → Message E S)).filter (fun m => decide (m.dst = k))) = [] := by
    intro l
    induction l with
    | nil => rfl
    | cons x l ih =>
      simp only [List.map_cons, List.filter_cons]
      split
      · simpa [paxOf] using ih
      · exact ih
  have hpx : ∀ l : List (PaxosMessage E S), paxOf ((l.map Message.paxos).filter (fun m => decide (m.dst = k))) = l.filter fun m => decide (m.dst = k) := by
    intro l
    induction l with
    | nil => rfl
    | cons x l ih =>
      simp only [List.map_cons, List.filter_cons, show (Message.paxos x : Message E S).dst = x.dst from rfl]
      split
      · simpa [paxOf] using ih
      · exact ih
  simp only [Cluster.pre, OP.take_outgoing_messages, SP.take_outgoing_msgs, if_true, List.isEmpty_nil, List.filter_append]
  have := hble op.ble.outgoing
  have h2 := hpx op.sp.outgoing
  simp only [paxOf, List.filterMap_append] at *
  rw [this, h2, List.append_nil]

theorem take [SnapOps E S] (h : RInv cc c G rel) {op : OP E S} (hs : c.servers i = .up op) :
    RInv cc { servers := fun j => if j = i then .up (op.take_outgoing_messages []).2 else c.servers j
              net := fun a b => if a = i then c.net a b ++ (op.take_outgoing_messages []).1.filter (fun m => decide (m.dst = b)) else c.net a b } G rel := by
  refine h.swap (p := i) (s' := .up (op.take_outgoing_messages []).2) (h.toCInv.take hs) rfl (fun a F ha => by simp [Cluster.pre, ha])
    (fun F hF D b h0 => ?_) fun a n _ ⟨e1, op', e, e2, e3⟩ => ?_
  · rw [hs] at h0
    have hp : phs (Cluster.pre { servers := fun j => if j = i then .up (op.take_outgoing_messages []).2 else c.servers j
                                 net := fun a b => if a = i then c.net a b ++ (op.take_outgoing_messages []).1.filter (fun m => decide (m.dst = b)) else c.net a b } i F) =
        phs (c.pre i F) ++ phsTo F op.sp.outgoing := by
      rw [phsTo, phs, phs, phs, ← List.filterMap_append, ← take_pre c op i F]
      simp [Cluster.pre]
    rw [hp]
    have ho : phsTo F (op.take_outgoing_messages []).2.sp.outgoing = [] := rfl
    have hw : ¬ (op.take_outgoing_messages []).2.sp.ls.Waiting F := fun ⟨x, hx⟩ => nomatch slot_replicate hx
    refine ⟨h0.pid, h0.own, fun _ _ => trivial, ?_, fun e1 e2 e3 => ?_, fun _ hx => absurd hx hw⟩
    · rw [ho, List.append_nil]; exact h0.late
    · rw [ho, List.append_nil]
      exact h0.lead e1 e2 (.inr (e3.resolve_left hw))
  · cases e
    exact ⟨e1, op, hs, e2, e3⟩

/-- A message arrives at a server that is down. -/
theorem waste (h : RInv cc c G rel) {m : Message E S} {rest : List (Message E S)} (hn : c.net i j = m :: rest) {d : Mem E S}
    (hs : c.servers j = .down d) : RInv cc (c.setNet i j rest) G rel where
  toCInv := h.toCInv.lose rfl fun a b => by
    simp only [Cluster.setNet]
    split
    · rename_i hx; rw [hx.1, hx.2, hn]; exact List.sublist_cons_self _ _
    · exact List.Sublist.refl _
  alive := h.alive
  sess a F hr hne := by
    have h0 := h.sess a F hr hne
    by_cases hF : F = j
    · subst hF
      refine h.toCInv.follow (pop_pre hn a) h0 (fun _ _ _ h => h) fun n _ ⟨_, op, e, _⟩ => ?_
      rw [show (c.setNet i F rest).servers F = c.servers F from rfl, hs] at e
      cases e
    · have hp : (c.setNet i j rest).pre a F = c.pre a F := by simp [Cluster.pre, Cluster.setNet, hF]
      rw [hp]; exact h0

theorem phs_filter (l : List (Message E S)) : phs (paxOf l) = phs (paxOf (l.filter Message.isPhase)) := by
  induction l with
  | nil => rfl
  | cons x l ih =>
    have happ : ∀ (y : Message E S) l, phs (paxOf (y :: l)) = phs (paxOf [y]) ++ phs (paxOf l) := fun y l => by
      rw [phs, phs, phs, ← List.filterMap_append, paxOf, paxOf, paxOf, ← List.filterMap_append]; rfl
    rw [List.filter_cons, happ, ih]
    split
    · exact (happ _ _).symm
    · rename_i hx
      suffices phs (paxOf [x]) = [] by rw [this]; rfl
      cases x with
      | ble b => rfl
      | paxos x =>
        cases hb : x.msg <;> simp [Message.isPhase, hb] at hx <;> simp [paxOf, phs, hb, PaxosMsg.ph]

theorem rearrange (h : RInv cc c G rel) {ks : List Nat} (ht : c.Tidy (.rearrange i j ks) rel) :
    RInv cc (c.setNet i j (ks.filterMap fun k => (c.net i j)[k]?)) G rel where
  toCInv := h.toCInv.rearrange ht.1
  alive := h.alive
  sess a F hr hne := by
    have h0 := h.sess a F hr hne
    have hp : phs ((c.setNet i j (ks.filterMap fun k => (c.net i j)[k]?)).pre a F) = phs (c.pre a F) := by
      simp only [Cluster.pre, Cluster.setNet]
      split
      · rename_i hx
        obtain ⟨rfl, rfl⟩ := hx
        rw [phs_filter, ht.2 hr, ← phs_filter]
      · rfl
    rw [hp]
    exact h0

theorem awaits_or {n : Ballot} {b : Prop} {l : List Ph} (h : Awaits n b l) : b ∨ (n, none) ∈ l := by
  induction l generalizing b with
  | nil => exact .inl h
  | cons e l ih =>
    obtain ⟨n', _ | k⟩ := e
    · rcases ih h with (h | rfl) | h
      · exact .inl h
      · exact .inr (by simp)
      · exact .inr (List.mem_cons_of_mem _ h)
    · rcases ih h with h | h
      · exact .inl h.1
      · exact .inr (List.mem_cons_of_mem _ h)

theorem _root_.Omni.Sess.drop {l1 l2 : List Ph} {x : Ballot} {o : Option Nat} {W : Ballot → Prop} {s : SP E S} (h : Sess F D b (l1 ++ (x, o) :: l2) W s)
    (ho : ∀ k, o = some k → ¬ Awaits x (b x) l1) : Sess F D b (l1 ++ l2) W s := by
  refine ⟨h.pid, h.own, h.wait, ?_, fun h1 h2 h3 hw => h.lead h1 h2 h3 ?_, h.metp⟩
  · have := h.late
    rw [List.append_assoc] at this ⊢
    exact this.drop ho
  · rw [List.append_assoc] at hw ⊢
    exact awaits_drop (fun k hk e => by subst e; exact ho k hk) hw

theorem lose (h : RInv cc c G rel) {k : Nat} (hk : k < (c.net i j).length) (ht : c.Tidy (.lose i j k) rel) :
    RInv cc (c.setNet i j ((c.net i j).eraseIdx k)) G rel where
  toCInv := h.toCInv.lose rfl fun a b => by
    simp only [Cluster.setNet]
    split
    · rename_i hx; rw [hx.1, hx.2]; exact List.eraseIdx_sublist _ _
    · exact List.Sublist.refl _
  alive := h.alive
  sess a F hr hne := by
    have h0 := h.sess a F hr hne
    by_cases hx : a = i ∧ F = j
    · obtain ⟨rfl, rfl⟩ := hx
      have happ : ∀ l l' : List (Message E S), phs (paxOf (l ++ l')) = phs (paxOf l) ++ phs (paxOf l') := fun l l' => by
        rw [phs, phs, phs, ← List.filterMap_append, paxOf, paxOf, paxOf, ← List.filterMap_append]
      have h1 : phs (c.pre a F) = phs (paxOf ((c.net a F).take k)) ++ (phs (paxOf [(c.net a F)[k]]) ++ phs (paxOf ((c.net a F).drop (k + 1)))) := by
        rw [← happ, ← happ, Cluster.pre]
        congr 2
        rw [List.singleton_append, ← List.drop_eq_getElem_cons hk, List.take_append_drop]
      have h2 : phs ((c.setNet a F ((c.net a F).eraseIdx k)).pre a F) = phs (paxOf ((c.net a F).take k)) ++ phs (paxOf ((c.net a F).drop (k + 1))) := by
        rw [← happ, Cluster.pre]
        simp [Cluster.setNet, List.eraseIdx_eq_take_drop_succ]
      rw [h2]
      rw [h1] at h0
      have hm := List.getElem?_eq_getElem hk
      have hlist : phs (paxOf [(c.net a F)[k]]) = [] ∨ ∃ m x, (c.net a F)[k] = .paxos m ∧ m.msg.ph = some x ∧ phs (paxOf [(c.net a F)[k]]) = [x] := by
        cases hb : (c.net a F)[k] with
        | ble y => exact .inl rfl
        | paxos y =>
          cases hy : y.msg.ph with
          | none => exact .inl (by simp [paxOf, phs, hy])
          | some x => exact .inr ⟨y, x, rfl, hy, by simp [paxOf, phs, hy]⟩
      rcases hlist with e | ⟨m, ⟨x, o⟩, e, hph, e'⟩
      · rw [e, List.nil_append] at h0
        exact h0
      · rw [e', List.singleton_append] at h0
        have ho : ∀ q, o = some q → ¬ Awaits x ((c.servers F).waits a x) (phs (paxOf ((c.net a F).take k))) := by
          rintro q rfl hw
          cases hb : m.msg with
          | acceptSync y =>
            rw [hb] at hph
            simp only [PaxosMsg.ph, Option.some.injEq, Prod.mk.injEq] at hph
            obtain ⟨rfl, -⟩ := hph
            refine ht hr m y (by rw [hm, e]) hb ?_
            rcases awaits_or hw with ⟨-, h3⟩ | h3
            · exact .inl h3
            · refine .inr ?_
              obtain ⟨z, hz, hzp⟩ := mem_phs h3
              obtain ⟨w, hw, hwz⟩ := List.mem_filterMap.1 hz
              cases w with
              | ble w => cases hwz
              | paxos w =>
                cases hwz
                obtain ⟨k', hk'⟩ := List.mem_iff_getElem?.1 hw
                have hlt : k' < k := by
                  have := (List.getElem?_eq_some_iff.1 hk').1
                  rw [List.length_take] at this; omega
                rw [List.getElem?_take_of_lt hlt] at hk'
                cases hbz : z.msg with
                | prepare q =>
                  rw [hbz] at hzp
                  simp only [PaxosMsg.ph, Option.some.injEq, Prod.mk.injEq, and_true] at hzp
                  exact ⟨k', z, q, hlt, hk', hbz, hzp⟩
                | _ => rw [hbz] at hzp; simp [PaxosMsg.ph] at hzp
          | _ => rw [hb] at hph; simp [PaxosMsg.ph] at hph
        cases hsa : c.servers a with
        | up op =>
          rw [hsa] at h0
          show SessAt _ _ _ _ (c.servers a)
          rw [hsa]
          exact Sess.drop h0 ho
        | down d =>
          rw [hsa] at h0
          show SessAt _ _ _ _ (c.servers a)
          rw [hsa]
          exact Late.drop h0 ho
    · have hp : (c.setNet i j ((c.net i j).eraseIdx k)).pre a F = c.pre a F := by
        simp only [Cluster.pre, Cluster.setNet]
        rw [if_neg hx]
      rw [hp]; exact h0

theorem init (cc : ClusterConfig) (P : E → Bool := fun _ => false) {rel : Links} : RInv cc (Cluster.init : Cluster E S) (G0 P) rel where
  toCInv := CInv.init cc P
  alive _ _ _ _ h := h
  sess i F _ _ := by
    intro l1 n k l2 e
    exact absurd e (by simp [Cluster.pre, Cluster.init, paxOf, phs])

theorem step [SnapOps E S] (h : RInv cc c G rel) {a : Action E S} (ht : c.Tidy a rel) (hs : c.step cc a = some c') :
    ∃ G', Mono G G' ∧ RInv cc c' G' rel := by
  cases a with
  | start i cfg =>
    simp only [Cluster.step] at hs
    split at hs
    · simp at hs
    · rename_i d hd
      split at hs
      · rename_i hp
        split at hs
        · rename_i op hop
          simp at hs; subst hs
          subst hp
          exact ⟨G, Mono.refl _, h.start hd hop⟩
        · simp at hs
      · simp at hs
  | crash i =>
    simp only [Cluster.step] at hs
    split at hs
    · rename_i op hop
      simp at hs; subst hs
      exact ⟨G, Mono.refl _, h.crash hop⟩
    · simp at hs
  | call i cl =>
    simp only [Cluster.step] at hs
    split at hs
    · rename_i op hop
      split at hs
      · simp at hs
      · rename_i hc
        simp at hs; subst hs
        exact (h.call hop (by simpa using hc)).1
    · simp at hs
  | crashCall i cl k =>
    simp only [Cluster.step] at hs
    split at hs
    · rename_i op hop
      split at hs
      · simp at hs
      · rename_i hc
        split at hs
        · rename_i d hd
          simp at hs; subst hs
          exact (h.call hop (by simpa using hc)).2.1 d (List.mem_of_getElem? hd)
        · simp at hs
    · simp at hs
  | take i =>
    simp only [Cluster.step] at hs
    split at hs
    · rename_i op hop
      simp at hs; subst hs
      exact ⟨G, Mono.refl _, h.take hop⟩
    · simp at hs
  | deliver i j =>
    simp only [Cluster.step] at hs
    split at hs
    · simp at hs
    · rename_i m rest hn
      split at hs
      · rename_i hd
        simp at hs; subst hs
        exact ⟨G, Mono.refl _, h.waste hn hd⟩
      · rename_i op hop
        simp at hs; subst hs
        exact (h.deliver hn hop fun hr p pr hp hpr => by subst hp; exact ht hr p rest pr op hn hpr hop).1
  | crashDeliver i j k =>
    simp only [Cluster.step] at hs
    split at hs
    · simp at hs
    · rename_i m rest hn
      split at hs
      · simp at hs
      · rename_i op hop
        split at hs
        · rename_i d hd
          simp at hs; subst hs
          exact (h.deliver hn hop fun hr p pr hp hpr => by subst hp; exact ht hr p rest pr op hn hpr hop).2.1 d (List.mem_of_getElem? hd)
        · simp at hs
  | lose i j k =>
    simp only [Cluster.step] at hs
    split at hs
    · rename_i hk
      simp at hs; subst hs
      exact ⟨G, Mono.refl _, h.lose hk ht⟩
    · simp at hs
  | rearrange i j ks =>
    simp only [Cluster.step] at hs
    cases hs
    exact ⟨G, Mono.refl _, h.rearrange ht⟩

theorem run [SnapOps E S] (h : RInv cc c G rel) {as : List (Action E S)} (ht : c.TidyRun cc as rel) (hs : c.run cc as = some c') :
    ∃ G', Mono G G' ∧ RInv cc c' G' rel := by
  induction as generalizing c G with
  | nil => simp [Cluster.run] at hs; subst hs; exact ⟨G, Mono.refl _, h⟩
  | cons a as ih =>
    simp only [Cluster.run] at hs
    split at hs
    · simp at hs
    · rename_i c1 h1
      obtain ⟨G1, hm1, hr1⟩ := h.step ht.1 h1
      obtain ⟨G2, hm2, hr2⟩ := ih hr1 (ht.2 c1 h1) hs
      exact ⟨G2, hm1.trans hm2, hr2⟩

end RInv
end Omni
