import Verif.Proof.Safety.Node
import Verif.Spec.Run
/-
The invariant of the whole system and its preservation by every action.
-/
namespace Omni

variable {E S : Type}

/-- The messages of the replication protocol on a link. -/
def paxOf (l : List (Message E S)) : List (PaxosMessage E S) :=
  l.filterMap fun m => match m with
    | .paxos p => some p
    | .ble _ => none

def Cluster.pre (c : Cluster E S) (i j : NodeId) : List (PaxosMessage E S) := paxOf (c.net i j)

/-- The invariant of server `i`. -/
def SrvInv (cc : ClusterConfig) (i : NodeId) (pre : NodeId → List (PaxosMessage E S)) (G : Ghost E) : Server E S → Prop
  | .up op => cc.validate = .ok () ∧ NodeInv cc i pre G op.sp ∧ BleOK cc i op.ble
  | .down d => DownInv cc i pre G d

/-- What holds of the cluster for all links; `RInv` adds what holds of those that are dependable. -/
structure CInv (cc : ClusterConfig) (c : Cluster E S) (G : Ghost E) : Prop where
  abs : Abs cc G
  srv : ∀ i, SrvInv cc i (c.pre i) G (c.servers i)

variable {cc : ClusterConfig} {i j : NodeId} {pre pre' : NodeId → List (PaxosMessage E S)} {G G' : Ghost E}
  {allow : Allow}

theorem SrvInv.src {s : Server E S} (h : SrvInv cc i pre G s) : ∀ j, ∀ m ∈ pre j, m.src = i ∧ m.dst = j := by
  cases s with
  | up op =>
    obtain ⟨-, ⟨lg, hC, -⟩, -⟩ := h
    exact fun j m hm => ⟨hC.src j m (List.mem_append_left _ hm), hC.dst j m hm⟩
  | down d => exact DownInv.src h

theorem SrvInv.link {s : Server E S} (h : SrvInv cc i pre G s) : ∀ j, LinkOK cc G (pre j) [] := by
  cases s with
  | up op => obtain ⟨-, ⟨lg, hC, -⟩, -⟩ := h; exact hC.pre
  | down d => exact DownInv.out h

theorem SrvInv.disk {s : Server E S} (h : SrvInv cc i pre G s) : ∃ lg, DiskInv cc i G s.disk lg := by
  cases s with
  | up op => obtain ⟨-, ⟨lg, hC, -⟩, -⟩ := h; exact ⟨lg, hC.disk⟩
  | down d => exact DownInv.disk h

theorem SrvInv.down {s : Server E S} (h : SrvInv cc i pre G s) {d : Mem E S} {lg : Lg E} (hd : DiskInv cc i G d lg) :
    SrvInv cc i pre G (.down d) := ⟨⟨lg, hd⟩, h.src, h.link⟩

theorem SrvInv.stable {s : Server E S} (hS : Quiet i allow G G') (hj : j ≠ i) (hF : Flow j i G G' pre pre')
    (ht : G.hold j ≤ G'.hold j ∨ ∀ op, s = .up op → op.sp.tok G.mark ≤ G'.hold j) (h : SrvInv cc j pre G s) : SrvInv cc j pre' G' s := by
  cases s with
  | up op => exact ⟨h.1, h.2.1.stable hS hj hF (ht.imp id fun h => h op rfl), h.2.2⟩
  | down d =>
    replace h : DownInv cc j pre G d := h
    obtain ⟨lg, hd⟩ := h.disk
    refine ⟨⟨lg, hd.stable hS hj⟩, fun k m hm => h.src k m ((hF.sub k).subset hm), fun k => ?_⟩
    exact LinkOK.stable (out := []) hS hj hF (fun k m hm => (h.src k m (by simpa using hm)).1) (fun k m hm => (h.src k m hm).2)
      h.out k

theorem SrvInv.lose {s : Server E S} (hsub : ∀ k, pre' k ⊆ pre k) (hord : ∀ k, (pre' k).Pairwise Ordered) (h : SrvInv cc j pre G s) :
    SrvInv cc j pre' G s := by
  cases s with
  | up op => exact ⟨h.1, h.2.1.lose hsub hord, h.2.2⟩
  | down d =>
    replace h : DownInv cc j pre G d := h
    exact ⟨h.disk, fun k m hm => h.src k m (hsub k hm), fun k => (h.out k).rearrange (hsub k) (hord k)⟩

namespace CInv

variable {c c' : Cluster E S}

theorem lose (h : CInv cc c G) (hs : c'.servers = c.servers) (hsub : ∀ i j, (c'.net i j).Sublist (c.net i j)) :
    CInv cc c' G := by
  refine ⟨h.abs, fun i => ?_⟩
  rw [hs]
  have hp : ∀ k, (c'.pre i k).Sublist (c.pre i k) := fun k => (hsub i k).filterMap _
  exact (h.srv i).lose (fun k => (hp k).subset) fun k => ((h.srv i).link k).ord.sublist (hp k)

/-- Duplicating and reordering messages other than AcceptSyncs. -/
theorem rearrange (h : CInv cc c G) {ks : List Nat} (ht : c.SyncsInOrder i j ks) :
    CInv cc (c.setNet i j (ks.filterMap fun k => (c.net i j)[k]?)) G := by
  refine ⟨h.abs, fun a => (h.srv a).lose (fun b x hx => ?_) fun b => ?_⟩
  · simp only [Cluster.pre, Cluster.setNet] at hx ⊢
    split at hx
    · rename_i hab
      obtain ⟨rfl, rfl⟩ := hab
      obtain ⟨m, hm, hmx⟩ := List.mem_filterMap.1 hx
      obtain ⟨k, -, hk⟩ := List.mem_filterMap.1 hm
      exact List.mem_filterMap.2 ⟨m, List.mem_of_getElem? hk, hmx⟩
    · exact hx
  · have hl := ((h.srv a).link b).ord
    simp only [Cluster.pre, Cluster.setNet] at hl ⊢
    split
    · rename_i hab
      obtain ⟨rfl, rfl⟩ := hab
      unfold paxOf at hl ⊢
      rw [List.filterMap_filterMap]
      rw [List.pairwise_filterMap] at hl ⊢
      refine List.Pairwise.imp ?_ ht
      intro k k' hkk x hx y hy n q q' h1 h2 h3
      have get : ∀ {k : Nat} {x : PaxosMessage E S}, ((c.net a b)[k]?.bind fun m => match m with
          | .paxos p => some p
          | .ble _ => none) = some x → (c.net a b)[k]? = some (.paxos x) := by
        intro k x hx
        obtain ⟨m, hm, hmx⟩ := Option.bind_eq_some_iff.1 hx
        cases m with
        | paxos p => cases hmx; exact hm
        | ble p => cases hmx
      have hx := get hx
      have hy := get hy
      have sync : ∀ {x : PaxosMessage E S} {q}, x.msg.syncOf = some (n, q) → ∃ s, x.msg = .acceptSync s ∧ s.n = n := by
        intro x q hq
        cases hb : x.msg <;> rw [hb] at hq <;> cases hq
        exact ⟨_, rfl, rfl⟩
      obtain ⟨s, hs, hsn⟩ := sync h1
      obtain ⟨s', hs', hsn'⟩ := sync h2
      have hlt := hkk x y s s' hx hy hs hs' (hsn.trans hsn'.symm)
      obtain ⟨e1, e2⟩ := List.getElem?_eq_some_iff.1 hx
      obtain ⟨e3, e4⟩ := List.getElem?_eq_some_iff.1 hy
      have := List.pairwise_iff_getElem.1 hl k k' e1 e3 hlt
      rw [e2, e4] at this
      exact this x rfl y rfl n q q' h1 h2 h3
    · exact hl

theorem move (h : CInv cc c G) {s : Server E S} (hs : c'.servers = fun j => if j = i then s else c.servers j)
    (hS : Step i allow G G') (hA : Abs cc G') (hi : SrvInv cc i (c'.pre i) G' s)
    (hF : ∀ j, j ≠ i → Flow j i G G' (c.pre j) (c'.pre j)) : CInv cc c' G' := by
  refine ⟨hA, fun j => ?_⟩
  rw [hs]
  simp only
  by_cases hj : j = i
  · subst hj; rw [if_pos rfl]; exact hi
  · rw [if_neg hj]; exact (h.srv j).stable hS.toQuiet hj (hF j hj) (.inl (Nat.le_of_eq (hS.hold_o j hj).symm))

theorem hold_quiet (G : Ghost E) (f : NodeId → Nat) (i : NodeId) : Quiet i {} G { G with hold := f } where
  toMono := ⟨fun _ _ l h => ⟨l, h, Lg.le_refl l⟩, fun _ _ _ h => h, fun _ _ h => h, fun _ _ _ h => h⟩
  acc_o _ _ _ := rfl
  prec_o _ _ _ := rfl
  endf_o _ _ _ _ := rfl
  endf_le _ _ _ := Lg.le_refl _
  endf_cur _ _ _ _ := rfl
  cur_o _ _ _ := rfl
  cur_le _ _ := SeqNum.le_refl _
  cur_i _ := .inl rfl
  dead_n _ _ _ h := .inl h
  mark := rfl
  used := Nat.le_refl _

/-- The entries the servers may hold are only for counting. -/
theorem setHold (h : CInv cc c G) (f : NodeId → Nat) (hf : ∀ i op, c.servers i = .up op → op.sp.tok G.mark ≤ f i) :
    CInv cc c { G with hold := f } := by
  have ha := h.abs
  refine ⟨⟨ha.good, ha.base, ha.prec, ha.acc, ha.init, ha.lead, ha.endMono, ha.endLe, ha.endNone, ha.cnt, ha.deadAcc⟩, fun i => ?_⟩
  exact (h.srv i).stable (hold_quiet G f (i + 1)) (by omega) ⟨fun _ _ => rfl, .inl ⟨rfl, fun _ _ => rfl⟩⟩
    (.inr fun op hop => hf i op hop)

theorem tok_le (h : CInv cc c G) {op : OP E S} (hs : c.servers i = .up op) : op.sp.tok G.mark ≤ G.hold i := by
  have hi := h.srv i
  rw [hs] at hi
  obtain ⟨-, ⟨lg, hC, -⟩, -⟩ := hi
  exact hC.tok

/-- More entries at a server. -/
def raise (G : Ghost E) (i : NodeId) (k : Nat) : Ghost E :=
  { G with hold := fun j => if j = i then G.hold i + k else G.hold j }

theorem raised (h : CInv cc c G) (i : NodeId) (k : Nat) : CInv cc c (raise G i k) := by
  refine h.setHold _ fun j op hop => ?_
  split
  · rename_i hj
    subst hj
    have := h.tok_le hop
    omega
  · exact h.tok_le hop

theorem raise_mono (G : Ghost E) (i : NodeId) (k : Nat) : Mono G (raise G i k) := (hold_quiet G _ i).toMono

/-- Server `i` was given `k` entries and put some of its entries into the log. -/
structure Spent (i : NodeId) (k : Nat) (G G' : Ghost E) : Prop where
  mark : G'.mark = G.mark
  hold_o : ∀ j, j ≠ i → G'.hold j = G.hold j
  hold_i : G'.hold i + G'.used ≤ G.hold i + k + G.used

theorem spent {k : Nat} (h : Step i allow (raise G i k) G') : Spent i k G G' := by
  refine ⟨h.mark, fun j hj => (h.hold_o j hj).trans (if_neg hj), Nat.le_trans h.hold_i ?_⟩
  simp [raise]

/-- Only sessions in `die` of leader `i` have died. -/
def Died (i : NodeId) (die : Ballot → NodeId → Nat → Prop) (G G' : Ghost E) : Prop :=
  ∀ b F s, G'.dead b F s → G.dead b F s ∨ (b.pid = i ∧ die b F s)

theorem died {k : Nat} (h : Step i allow (raise G i k) G') : Died i allow.die G G' := fun b F s hs =>
  (h.dead_n b F s hs).imp id fun h => ⟨h.1, h.2.2⟩

theorem same_flow (hS : Step i allow G G') (hal : ∀ n q, ¬ allow n q) (hp : c'.net = c.net) (j : NodeId) :
    Flow j i G G' (c.pre j) (c'.pre j) := by
  have : c'.pre j = c.pre j := by funext k; simp [Cluster.pre, hp]
  rw [this]
  exact ⟨fun _ _ => rfl, .inl ⟨rfl, fun n _ => (hS.cur_i n).resolve_right (hal n _)⟩⟩

/-- Results of a call. -/
theorem call_result [SnapOps E S] {C : Ctx E S} {op : OP E S} {call : Call E S}
    (h : M.Sat call.run op.clearTrail (fun _ => C.OInv) C.OBad) (hsd : ∀ j, ∀ m ∈ C.pre j, m.src = C.i ∧ m.dst = j) :
    (∃ G', C.Reach G' ∧ SrvInv C.cc C.i C.pre G' (op.callResult call)) ∧
    (∀ d ∈ op.callTrail call, ∃ G', C.Reach G' ∧ SrvInv C.cc C.i C.pre G' (.down d)) ∧
    Chain C.d0 (op.callWrites call) (op.callTrail call) (op.callResult call).disk := by
  have down : ∀ d, C.Crash d → ∃ G', C.Reach G' ∧ SrvInv C.cc C.i C.pre G' (.down d) := by
    rintro d ⟨G', lg, hR, hd⟩
    exact ⟨G', hR, ⟨lg, hd⟩, hsd, hR.pre⟩
  unfold M.Sat at h
  unfold OP.callResult OP.callTrail OP.callWrites
  cases hr : call.run op.clearTrail with
  | ok a op' =>
    rw [hr] at h
    obtain ⟨⟨G', hR, hN, hT⟩, hb⟩ := h
    exact ⟨⟨G', hR, C.hv, hN, hb⟩, fun d hd => down d (hT.1 d hd), hT.2⟩
  | panic op' =>
    rw [hr] at h
    exact ⟨down _ h.1, fun d hd => down d (h.2.1 d hd), h.2.2⟩

theorem clear_trail {C : Ctx E S} (op : OP E S) (h : C.d0 = op.sp.ist.storage) : C.Trail op.clearTrail.sp :=
  ⟨by intro d hd; simp [OP.clearTrail] at hd, h.symm⟩

theorem call_tok [SnapOps E S] (h0 : CInv cc c G) {op : OP E S} (hs : c.servers i = .up op) {cl : Call E S}
    (hc : cl.isIncoming = false) {k : Nat} (hk : ∀ e, cl = .append e → G.count [e] ≤ k) :
    (∃ G', Mono G G' ∧ CInv cc (c.setServer i (op.callResult cl)) G' ∧ Spent i k G G' ∧ Died i (fun _ _ _ => False) G G') ∧
    (∀ d ∈ op.callTrail cl, ∃ G', Mono G G' ∧ CInv cc (c.setServer i (.down d)) G' ∧ Spent i k G G' ∧ Died i (fun _ _ _ => False) G G') ∧
    Chain op.sp.ist.storage (op.callWrites cl) (op.callTrail cl) (op.callResult cl).disk := by
  have h := h0.raised i k
  have hm := raise_mono G i k
  have htok := h0.tok_le hs
  have hi := h.srv i
  rw [hs] at hi
  obtain ⟨hv, hN, hb⟩ := hi
  let C : Ctx E S := ⟨cc, hv, i, c.pre i, {}, raise G i k, op.sp.ist.storage⟩
  have hR : C.Reach (raise G i k) := ⟨Step.refl _ _ _, h.abs, (h.srv i).link⟩
  have hsd : ∀ j, ∀ m ∈ C.pre j, m.src = C.i ∧ m.dst = j := (h.srv i).src
  have hsl : ∀ e, cl = .append e → C.Slack [e] op.clearTrail.sp := by
    intro e he
    obtain ⟨lg, hC, hr⟩ := hN.clear
    refine ⟨_, lg, hR, hC, hr, clear_trail op rfl, ?_⟩
    have h1 : op.clearTrail.sp.tok (raise G i k).mark = op.sp.tok G.mark := rfl
    have h2 : (raise G i k).hold C.i = G.hold i + k := if_pos rfl
    have h3 : (raise G i k).count [e] = G.count [e] := rfl
    have := hk e he
    rw [h1, h2, h3]
    omega
  have := call_result (C := C) (Ctx.call_inv (C := C) (op := op.clearTrail) ⟨⟨_, hR, hN.clear, clear_trail op rfl⟩, hb⟩ cl hc hsl) hsd
  refine ⟨?_, fun d hd => ?_, this.2.2⟩
  · obtain ⟨G', hR', hI⟩ := this.1
    exact ⟨G', hm.trans hR'.step.toMono, h.move rfl hR'.step hR'.abs hI fun j _ => same_flow hR'.step (fun _ _ h => h) rfl j, spent hR'.step, died hR'.step⟩
  · obtain ⟨G', hR', hI⟩ := this.2.1 d hd
    exact ⟨G', hm.trans hR'.step.toMono, h.move rfl hR'.step hR'.abs hI fun j _ => same_flow hR'.step (fun _ _ h => h) rfl j, spent hR'.step, died hR'.step⟩

theorem deliver_tok [SnapOps E S] (h0 : CInv cc c G) {m : Message E S} {rest : List (Message E S)} (hn : c.net i j = m :: rest)
    {op : OP E S} (hs : c.servers j = .up op)
    {die : Ballot → NodeId → Nat → Prop}
    (hdie : ∀ x p, m = .paxos x → x.msg = .promise p → op.sp.role = .leader → op.sp.phase = .accept → p.n = op.sp.ls.n_leader →
      (∃ y, slot op.sp.ls.latest_accept_meta x.src = some (some y)) → ∀ q, slot op.sp.ls.follower_seq_nums x.src = some q →
      die op.sp.ls.n_leader x.src (q.session + 1))
    (hlive : ∀ x a, m = .paxos x → x.msg = .acceptSync a → op.sp.role = .follower → op.sp.phase = .prepare → op.sp.ist.cache.promise = a.n →
      ¬ G.dead a.n j a.seq_num.session)
    {k0 : Nat} (hk : ∀ p es, m = .paxos p → p.msg = .proposalForward es → G.count es ≤ k0) :
    (∃ G', Mono G G' ∧ CInv cc ((c.setNet i j rest).setServer j (op.callResult (.handleIncoming m))) G' ∧ Spent j k0 G G' ∧ Died j die G G') ∧
    (∀ d ∈ op.callTrail (.handleIncoming m), ∃ G', Mono G G' ∧ CInv cc ((c.setNet i j rest).setServer j (.down d)) G' ∧ Spent j k0 G G' ∧ Died j die G G') ∧
    Chain op.sp.ist.storage (op.callWrites (.handleIncoming m)) (op.callTrail (.handleIncoming m)) (op.callResult (.handleIncoming m)).disk := by
  have h := h0.raised j k0
  have hmr := raise_mono G j k0
  have htok := h0.tok_le hs
  have hi := h.srv j
  rw [hs] at hi
  obtain ⟨hv, hN, hb⟩ := hi
  have hsd : ∀ k, ∀ m ∈ c.pre j k, m.src = j ∧ m.dst = k := (h.srv j).src
  cases m with
  | ble b =>
    -- the election message is not part of the links considered here
    have h' : CInv cc (c.setNet i j rest) (raise G j k0) := by
      refine h.lose rfl fun a b => ?_
      simp only [Cluster.setNet]
      split
      · rename_i hx; rw [hx.1, hx.2, hn]; exact List.sublist_cons_self _ _
      · exact List.Sublist.refl _
    have hi := h'.srv j
    rw [show (c.setNet i j rest).servers j = .up op from hs] at hi
    obtain ⟨hv, hN, hb'⟩ := hi
    let C : Ctx E S := ⟨cc, hv, j, (c.setNet i j rest).pre j, { die }, raise G j k0, op.sp.ist.storage⟩
    have hR : C.Reach (raise G j k0) := ⟨Step.refl _ _ _, h.abs, (h'.srv j).link⟩
    have := call_result (C := C) (Ctx.ble_inv (C := C) (op := op.clearTrail) ⟨⟨_, hR, hN.clear, clear_trail op rfl⟩, hb'⟩ b) (h'.srv j).src
    refine ⟨?_, fun d hd => ?_, this.2.2⟩
    · obtain ⟨G', hR', hI⟩ := this.1
      exact ⟨G', hmr.trans hR'.step.toMono, h'.move rfl hR'.step hR'.abs hI fun j _ => same_flow hR'.step (fun _ _ h => h) rfl j, spent hR'.step, died hR'.step⟩
    · obtain ⟨G', hR', hI⟩ := this.2.1 d hd
      exact ⟨G', hmr.trans hR'.step.toMono, h'.move rfl hR'.step hR'.abs hI fun j _ => same_flow hR'.step (fun _ _ h => h) rfl j, spent hR'.step, died hR'.step⟩
  | paxos m =>
    have hpi : c.pre i j = m :: paxOf rest := by simp [Cluster.pre, hn, paxOf]
    have hmem : m ∈ c.pre i j := by rw [hpi]; simp
    have hmok : MsgOK cc (raise G j k0) m := ((h.srv i).link j).msg m (List.mem_append_left _ hmem)
    obtain ⟨hms, hmd⟩ := (h.srv i).src j m hmem
    have hij : i ≠ j := by rw [← hms, ← hmd]; exact hmok.ne
    have hother : ∀ k, k ≠ i → (c.setNet i j rest).pre k = c.pre k := by
      intro k hk
      funext l
      simp [Cluster.pre, Cluster.setNet, hk]
    let C : Ctx E S := ⟨cc, hv, j, c.pre j, ⟨fun n q => m.msg.Moves n ((raise G j k0).curg n j) q, die⟩, raise G j k0, op.sp.ist.storage⟩
    have hR : C.Reach (raise G j k0) := ⟨Step.refl _ _ _, h.abs, (h.srv j).link⟩
    have hg : Ctx.Guard C (raise G j k0) op.clearTrail.sp m := ⟨fun p => hdie m p rfl, fun a => hlive m a rfl⟩
    have hsl : ∀ es, m.msg = .proposalForward es → op.clearTrail.sp.tok (raise G j k0).mark + (raise G j k0).count es ≤ (raise G j k0).hold C.i := by
      intro es he
      have h1 : op.clearTrail.sp.tok (raise G j k0).mark = op.sp.tok G.mark := rfl
      have h2 : (raise G j k0).hold C.i = G.hold j + k0 := if_pos rfl
      have h3 : (raise G j k0).count es = G.count es := rfl
      have := hk m es rfl he
      rw [h1, h2, h3]
      omega
    have := call_result (C := C) (Ctx.paxos_inv (C := C) (op := op.clearTrail) hR hN.clear (clear_trail op rfl) hb hmok hmd (fun n q h => h) hg hsl) hsd
    have flow : ∀ G', C.Reach G' → ∀ k, k ≠ j → Flow k j (raise G j k0) G' (c.pre k) ((c.setNet i j rest).pre k) := by
      intro G' hR' k hk
      by_cases hki : k = i
      · subst hki
        refine ⟨fun l hl => ?_, .inr ⟨m, ?_, fun n hn' => hR'.step.cur_i n⟩⟩
        · simp [Cluster.pre, Cluster.setNet, hl]
        · rw [hpi]; simp [Cluster.pre, Cluster.setNet]
      · rw [hother k hki]
        refine ⟨fun _ _ => rfl, .inl ⟨rfl, fun n hn' => ?_⟩⟩
        rcases hR'.step.cur_i n with h1 | h1
        · exact h1
        · have := (hmok.lead n _ h1.1).1
          rw [hms, hn'] at this
          exact absurd this hki
    have fin : ∀ s G', C.Reach G' → SrvInv C.cc C.i C.pre G' s → CInv cc ((c.setNet i j rest).setServer j s) G' := by
      intro s G' hR' hI
      refine h.move (c' := (c.setNet i j rest).setServer j s) rfl hR'.step hR'.abs ?_ (flow G' hR')
      show SrvInv cc j ((c.setNet i j rest).pre j) G' s
      rw [hother j hij.symm]
      exact hI
    refine ⟨?_, fun d hd => ?_, this.2.2⟩
    · obtain ⟨G', hR', hI⟩ := this.1
      exact ⟨G', hmr.trans hR'.step.toMono, fin _ G' hR' hI, spent hR'.step, died hR'.step⟩
    · obtain ⟨G', hR', hI⟩ := this.2.1 d hd
      exact ⟨G', hmr.trans hR'.step.toMono, fin _ G' hR' hI, spent hR'.step, died hR'.step⟩

theorem take [SnapOps E S] (h : CInv cc c G) {op : OP E S} (hs : c.servers i = .up op) :
    CInv cc { servers := fun j => if j = i then .up (op.take_outgoing_messages []).2 else c.servers j
              net := fun a b => if a = i then c.net a b ++ (op.take_outgoing_messages []).1.filter (fun m => decide (m.dst = b)) else c.net a b } G := by
  have hi := h.srv i
  rw [hs] at hi
  obtain ⟨hv, hN, hb⟩ := hi
  refine h.move (i := i) (allow := {}) rfl (Step.refl _ _ _) h.abs ⟨hv, ?_, ⟨hb.own, hb.pid, hb.cfg⟩⟩ fun j hj => ?_
  · have := hN.take
    refine Eq.mp ?_ this
    refine congrArg (fun p => NodeInv cc i p G (op.sp.take_outgoing_msgs []).2) ?_
    funext k
    have hble : ∀ l : List BLEMessage, paxOf ((l.map (Message.ble : BLEMessage → Message E S)).filter (fun m => decide (m.dst = k))) = [] := by
      intro l
      induction l with
      | nil => rfl
      | cons x l ih =>
        simp only [List.map_cons, List.filter_cons]
        split
        · simpa [paxOf] using ih
        · exact ih
    have hpx : ∀ l : List (PaxosMessage E S), paxOf ((l.map Message.paxos).filter (fun m => decide (m.dst = k))) = l.filter fun m => decide (m.dst = k) := by
      intro l
      induction l with
      | nil => rfl
      | cons x l ih =>
        simp only [List.map_cons, List.filter_cons, show (Message.paxos x : Message E S).dst = x.dst from rfl]
        split
        · simpa [paxOf] using ih
        · exact ih
    simp only [Cluster.pre, OP.take_outgoing_messages, SP.take_outgoing_msgs, if_true, List.isEmpty_nil, List.filter_append]
    have := hble op.ble.outgoing
    have h2 := hpx op.sp.outgoing
    simp only [paxOf, List.filterMap_append] at *
    rw [this, h2, List.append_nil]
  · have : (Cluster.pre { servers := fun j => if j = i then .up (op.take_outgoing_messages []).2 else c.servers j
                          net := fun a b => if a = i then c.net a b ++ (op.take_outgoing_messages []).1.filter (fun m => decide (m.dst = b)) else c.net a b } j) = c.pre j := by
      funext k; simp [Cluster.pre, hj]
    rw [this]
    exact ⟨fun _ _ => rfl, .inl ⟨rfl, fun _ _ => rfl⟩⟩

/-- The initial history. -/
def G0 (P : E → Bool := fun _ => false) : Ghost E where
  mark := P
  acc _ b := if b = {} then some {} else none
  prec _ _ := none
  init _ := none
  endf _ _ _ := {}
  curg _ _ := {}
  dead _ _ _ := False

theorem abs0 (cc : ClusterConfig) (P : E → Bool) : Abs cc (G0 P : Ghost E) where
  good i b h := by
    simp only [G0] at h
    split at h
    · rename_i hb; exact .inl hb
    · exact absurd rfl h
  base i := by simp [G0]
  prec i b n l h := by simp [G0] at h
  acc i b l h hb := by simp [G0, hb] at h
  init b l0 h := by simp [G0] at h
  lead i b h := absurd rfl h
  endMono _ _ _ _ _ := Lg.le_refl _
  endLe _ _ _ p _ := Lg.bot_le p
  endNone _ _ _ := ⟨rfl, fun _ => rfl⟩
  cnt i b l h := by
    simp only [G0] at h
    split at h
    · cases h; exact Nat.zero_le _
    · simp at h
  deadAcc _ _ _ h := h.elim

theorem init (cc : ClusterConfig) (P : E → Bool := fun _ => false) : CInv cc (Cluster.init : Cluster E S) (G0 P) where
  abs := abs0 cc P
  srv i := by
    refine ⟨⟨{}, ?_⟩, fun j m hm => by simp [Cluster.pre, Cluster.init, paxOf] at hm,
      fun j => ⟨fun m hm => by simp [Cluster.pre, Cluster.init, paxOf] at hm, List.Pairwise.nil, nofun, List.Pairwise.nil, nofun⟩⟩
    refine ⟨rfl, rfl, rfl, rfl, Lg.covers_zero _, .inl rfl, fun _ => .inl rfl, Ballot.le_refl _, .inl rfl, ?_, ?_, ?_⟩
    · intro b hb
      simp only [G0] at hb
      split at hb
      · rename_i h; rw [h]; exact Ballot.default_le _
      · exact absurd rfl hb
    · intro b hb; exact absurd rfl hb
    · intro h; exact absurd rfl h

end CInv
end Omni
