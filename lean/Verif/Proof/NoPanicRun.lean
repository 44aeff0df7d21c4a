import Verif.Proof.NoPanic
import Verif.Proof.AnyRun
/-
The invariant of Proof/NoPanic.lean along runs on the arbitrary network.
-/
namespace Omni

variable {E S : Type}

/-- The largest pid, by which the leader's vectors are dimensioned. -/
theorem maxPid_spec {pid : NodeId} {ps : List NodeId} {k : Nat} (h : SP.maxPid pid ps = some k) :
    (k = pid ∨ k ∈ ps) ∧ pid ≤ k ∧ ∀ p ∈ ps, p ≤ k := by
  have fold : ∀ (l : List Nat) (a : Nat), (l.foldl max a = a ∨ l.foldl max a ∈ l) ∧ a ≤ l.foldl max a ∧ ∀ p ∈ l, p ≤ l.foldl max a := by
    intro l
    induction l with
    | nil => intro a; simp
    | cons x l ih =>
      intro a
      obtain ⟨h1, h2, h3⟩ := ih (max a x)
      simp only [List.foldl_cons, List.mem_cons]
      refine ⟨?_, by omega, ?_⟩
      · rcases h1 with h1 | h1
        · rw [h1]; omega
        · exact .inr (.inr h1)
      · rintro p (rfl | hp)
        · omega
        · exact h3 p hp
  cases ps with
  | nil => simp [SP.maxPid] at h
  | cons p ps =>
    simp only [SP.maxPid, Option.some.injEq] at h
    obtain ⟨h1, h2, h3⟩ := fold ps p
    simp only [List.mem_cons]
    refine ⟨?_, by omega, ?_⟩
    · rcases Nat.le_total (ps.foldl max p) pid with e | e
      · left; omega
      · right
        rw [← h, Nat.max_eq_left e]
        exact h1
    · rintro q (rfl | hq)
      · omega
      · have := h3 q hq; omega

/-- It is the largest pid of the cluster, for each of its servers. -/
theorem maxPid_unique {nodes : List NodeId} {i j : NodeId} (hi : i ∈ nodes) (hj : j ∈ nodes) {a b : Nat}
    (ha : SP.maxPid i (SP.peersOf nodes i) = some a) (hb : SP.maxPid j (SP.peersOf nodes j) = some b) : a = b := by
  have key : ∀ {i j : NodeId} {a b : Nat}, i ∈ nodes → j ∈ nodes → SP.maxPid i (SP.peersOf nodes i) = some a →
      SP.maxPid j (SP.peersOf nodes j) = some b → a ≤ b := by
    intro i j a b hi hj ha hb
    obtain ⟨h1, -, -⟩ := maxPid_spec ha
    obtain ⟨-, g2, g3⟩ := maxPid_spec hb
    have : a ∈ nodes := by
      rcases h1 with rfl | h1
      · exact hi
      · exact (List.mem_filter.1 h1).1
    by_cases e : a = j
    · omega
    · exact g3 a (List.mem_filter.2 ⟨this, by simpa using e⟩)
  exact Nat.le_antisymm (key hi hj ha hb) (key hj hi hb ha)

/-- All pids are in `1..N`, and `N` is what the servers compute. -/
structure NodesIn (cc : ClusterConfig) (N : Nat) : Prop where
  range : ∀ p ∈ cc.nodes, 1 ≤ p ∧ p ≤ N
  top : ∀ i ∈ cc.nodes, ∀ k, SP.maxPid i (SP.peersOf cc.nodes i) = some k → k = N

theorem NodesIn.exists {cc : ClusterConfig} (h0 : 0 ∉ cc.nodes) : ∃ N, NodesIn cc N := by
  have pos : ∀ p ∈ cc.nodes, 1 ≤ p := fun p hp => by
    rcases Nat.eq_zero_or_pos p with rfl | h
    · exact absurd hp h0
    · exact h
  by_cases h : ∃ i ∈ cc.nodes, ∃ k, SP.maxPid i (SP.peersOf cc.nodes i) = some k
  · obtain ⟨i, hi, k, hk⟩ := h
    obtain ⟨-, h2, h3⟩ := maxPid_spec hk
    refine ⟨k, fun p hp => ⟨pos p hp, ?_⟩, fun j hj l hl => maxPid_unique hj hi hl hk⟩
    by_cases e : p = i
    · omega
    · exact h3 p (List.mem_filter.2 ⟨hp, by simpa using e⟩)
  · refine ⟨cc.nodes.foldl max 0, fun p hp => ⟨pos p hp, ?_⟩, fun i hi k hk => absurd ⟨i, hi, k, hk⟩ h⟩
    have : ∀ (l : List Nat) (a : Nat), a ≤ l.foldl max a ∧ ∀ p ∈ l, p ≤ l.foldl max a := by
      intro l
      induction l with
      | nil => simp
      | cons x l ih =>
        intro a
        obtain ⟨h1, h2⟩ := ih (max a x)
        simp only [List.foldl_cons, List.mem_cons]
        refine ⟨by omega, ?_⟩
        rintro p (rfl | hp)
        · omega
        · exact h2 p hp
    exact (this cc.nodes 0).2 p hp

/-- What the run keeps. -/
def FineMsg (cl : Bool) (N : Nat) : Message E S → Prop
  | .paxos m => m.Fine cl N
  | .ble _ => True

variable [SnapOps E S] {cl : Bool} {N : Nat} {cc : ClusterConfig}

theorem HI.build (hN : NodesIn cc N) {cfg : ServerConfig} {d : Mem E S} (hd : DH cl d) {op : OP E S}
    (hb : OP.build { cluster_config := cc, server_config := cfg } d = some (.ok op)) : HI cl N cfg.pid op.sp := by
  obtain ⟨mp, hmp, rfl⟩ := OP.build_eq hb
  have hi := (OP.build_node hb).2.1
  have := hN.top cfg.pid hi mp hmp
  subst this
  refine ⟨rfl, hN.range _ hi, fun p hp => hN.range p (List.mem_filter.1 hp).1, ⟨⟨?_, fun x hx => ?_⟩, rfl, fun hs => ?_⟩, LH.with _ _, nofun,
    fun m hm => ?_, nofun⟩
  · exact ⟨hd.eq, hd.clean⟩
  · rw [List.mem_singleton.1 hx]; exact ⟨hd.eq, hd.clean⟩
  · have hs : d.stopsign.isSome = true := hs
    show 1 ≤ d.get_log_len + d.compacted_idx + (if d.stopsign.isSome then 1 else 0)
    rw [if_pos hs]; omega
  · simp only at hm
    split at hm
    · obtain ⟨p, _, rfl⟩ := List.mem_map.1 hm
      exact ⟨rfl, trivial⟩
    · cases hm

theorem SP.closed_h {me : Nat} {P : SP E S → Prop} : SP.Closed0 (E := E) (S := S) (HI cl N me) P where
  lead n _ h := M.sat_mono (SP.h_handle_leader h n) (fun _ _ h => h) fun _ h => h.elim
  resend _ h := M.sat_mono (SP.h_resend h) (fun _ _ h => h) fun _ h => h.elim
  flush _ h := M.sat_mono (SP.h_flush_timeout h) (fun _ _ h => h) fun _ h => h.elim
  append e _ h := M.sat_mono (SP.h_append h e) (fun _ _ h => h) fun _ h => h.elim
  reconf c md _ h := M.sat_mono (SP.h_reconfigure h c md) (fun _ _ h => h) fun _ h => h.elim
  recon p _ h := M.sat_mono (SP.h_reconnected h p) (fun _ _ h => h) fun _ h => h.elim

/-- Which calls may panic. -/
def OP.Fails (op : OP E S) : Call E S → Prop
  | .handleIncoming (.paxos m) => SP.Fails op.sp m.msg
  | .snapshot _ _ => ¬ SnapTotal E S
  | _ => False

theorem HI.clear {i : NodeId} {op : OP E S} (h : HI cl N i op.sp) : HI cl N i op.clearTrail.sp :=
  ⟨h.pid, h.own, h.peers, ⟨⟨h.ist.disk, nofun⟩, h.ist.cac, h.ist.stop⟩, h.ls, h.ref, h.out, h.cached⟩

theorem HI.call (hu : cl = true → SnapOps.use_snapshots E S = false) {i : NodeId} {op : OP E S} (h : HI cl N i op.sp) {call : Call E S}
    (hc : call.isIncoming = false → cl = true → call.NoCompaction) (hm : ∀ m, call = .handleIncoming m → FineMsg cl N m) :
    M.Sat call.run op.clearTrail (fun _ op' => HI cl N i op'.sp) (fun op' => TI cl op'.sp.ist ∧ op.Fails call) := by
  refine OP.run_closed0 (op := op.clearTrail) (P := fun t => TI cl t.ist ∧ op.Fails call) SP.closed_h h.clear call
    (fun m e => ?_) (fun k e => ?_) (fun k l e => ?_)
  · subst e; exact SP.h_handle h.clear hu (hm _ rfl)
  · subst e
    refine M.sat_mono (SP.h_trim h.clear ?_ k) (fun _ _ h => h) fun _ h => h.elim
    cases cl with
    | false => rfl
    | true => exact (hc rfl rfl).elim
  · subst e
    refine SP.h_snapshot h.clear ?_ k l
    cases cl with
    | false => rfl
    | true => exact (hc rfl rfl).elim

theorem HI.closed' (hu : cl = true → SnapOps.use_snapshots E S = false) (hN : NodesIn cc N) : LClosed (E := E) (S := S) cc
    (fun c => cl = true → c.NoCompaction) (fun i op => HI cl N i op.sp) (fun _ d => DH cl d) (FineMsg cl N) where
  init _ := ⟨rfl, fun _ => rfl⟩
  start _ _ _ hd hb := HI.build hN hd hb
  disk _ _ h := h.ist.disk
  call i op call h hc hm := by
    have hs := HI.call hu h hc fun m e => (hm m e).1
    unfold OP.callResult OP.callTrail
    unfold M.Sat at hs
    split at hs
    · rename_i e
      rw [e]
      exact ⟨fun _ e => by cases e; exact hs, fun _ e => (by cases e), hs.ist.trail⟩
    · rename_i e
      rw [e]
      exact ⟨fun _ e => (by cases e), fun _ e => by cases e; exact hs.1.disk, hs.1.trail⟩
  take i op h := by
    refine ⟨⟨h.pid, h.own, h.peers, h.ist, ⟨h.ls.mp, h.ls.l1, h.ls.l2, h.ls.l3, ?_, ?_, h.ls.slots, h.ls.sync⟩, nofun, nofun, h.cached⟩,
      fun m hm => ?_⟩
    · simp [OP.take_outgoing_messages, SP.take_outgoing_msgs, LeaderState.reset_latest_accept_meta, h.ls.mp]
    · intro k b j e
      simp only [OP.take_outgoing_messages, SP.take_outgoing_msgs, LeaderState.reset_latest_accept_meta,
        List.getElem?_replicate] at e
      split at e <;> cases e
    · simp only [OP.take_outgoing_messages, SP.take_outgoing_msgs, List.isEmpty_nil, if_true, List.mem_append, List.mem_map] at hm
      rcases hm with ⟨x, hx, rfl⟩ | ⟨x, hx, rfl⟩
      · have := h.out x hx
        exact ⟨by rw [this.1]; exact h.own, this.2⟩
      · trivial

theorem LAction.only_mono {ok ok' : Call E S → Prop} (h : ∀ c, ok c → ok' c) {a : LAction E S} (ha : a.Only ok) : a.Only ok' := by
  cases a <;> first | exact h _ ha | trivial

theorem LAction.only_true (a : LAction E S) : a.Only fun c : Call E S => false = true → c.NoCompaction := by
  cases a <;> first | trivial | exact fun e => by cases e

/-- A run without compaction. -/
theorem HI.runs (hu : SnapOps.use_snapshots E S = false) (hN : NodesIn cc N) {as : List (LAction E S)}
    (ha : ∀ a ∈ as, a.Only Call.NoCompaction) {c : Loose E S} (hr : Loose.init.run cc as = some c) :
    LInv (fun i op => HI true N i op.sp) (fun _ d => DH true d) (FineMsg true N) c :=
  LInv.runs (HI.closed' (fun _ => hu) hN) (fun a h => LAction.only_mono (fun _ h _ => h) (ha a h)) hr

/-- Any run. -/
theorem HI.runs_any (hN : NodesIn cc N) {as : List (LAction E S)} {c : Loose E S} (hr : Loose.init.run cc as = some c) :
    LInv (fun i op => HI false N i op.sp) (fun _ d => DH false d) (FineMsg false N) c :=
  LInv.runs (HI.closed' (cl := false) nofun hN) (fun a _ => LAction.only_true a) hr

/-- No call panics in a run without compaction. -/
theorem Loose.no_panic (hu : SnapOps.use_snapshots E S = false) (h0 : 0 ∉ cc.nodes) {as : List (LAction E S)}
    (ha : ∀ a ∈ as, a.Only Call.NoCompaction) {c : Loose E S} (hr : Loose.init.run cc as = some c) {i : NodeId} {op : OP E S}
    (hop : c.servers i = .up op) {call : Call E S} (hc : call.NoCompaction)
    (hm : ∀ m, call = .handleIncoming m → m ∈ c.sent) : ∃ op', op.callResult call = .up op' := by
  obtain ⟨N, hN⟩ := NodesIn.exists h0
  have h := HI.runs hu hN ha hr
  have hs := HI.call (fun _ => hu) (h.up i op hop) (fun _ _ => hc) fun m e => h.sent m (hm m e)
  unfold OP.callResult
  unfold M.Sat at hs
  split at hs
  · rename_i e; rw [e]; exact ⟨_, rfl⟩
  · exfalso
    have hf := hs.2
    cases call with
    | handleIncoming m =>
      cases m with
      | paxos m => exact SP.Fails.clean (h.up i op hop) hu (h.sent _ (hm _ rfl)).clean hf
      | ble m => exact hf
    | snapshot _ _ => exact hc
    | _ => exact hf

/-- In any run, only these calls may panic. -/
theorem Loose.fails (h0 : 0 ∉ cc.nodes) {as : List (LAction E S)} {c : Loose E S} (hr : Loose.init.run cc as = some c) {i : NodeId}
    {op : OP E S} (hop : c.servers i = .up op) {call : Call E S} (hm : ∀ m, call = .handleIncoming m → m ∈ c.sent)
    (hf : ¬ op.Fails call) : ∃ op', op.callResult call = .up op' := by
  obtain ⟨N, hN⟩ := NodesIn.exists h0
  have h := HI.runs_any hN hr
  have hs := HI.call (cl := false) nofun (h.up i op hop) (fun _ => nofun) fun m e => h.sent m (hm m e)
  unfold OP.callResult
  unfold M.Sat at hs
  split at hs
  · rename_i e; rw [e]; exact ⟨_, rfl⟩
  · exact (hf hs.2).elim

end Omni
