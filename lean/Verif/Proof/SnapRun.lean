import Verif.Proof.Validity
import Verif.Proof.Compact
import Verif.Proof.Safety.Conclude
import Verif.Spec.Snapshot
import Verif.Spec.Progress
/-
What a stored snapshot contains, in the runs of the whole cluster without trim, reconfiguration and snapshots in
synchronisation.
-/
namespace Omni

variable {E S : Type} [SnapOps E S]

/-- Nothing trimmed, no StopSign, no snapshot sent in synchronisation; `pr` of compacted index and snapshot of every storage. -/
def Prov.quiet (hu : SnapOps.use_snapshots E S = false) (pr : Nat → Option S → Prop) : Prov E S where
  okp _ := True
  okb _ _ _ := True
  ent _ := True
  stop _ := False
  snap _ := True
  create := fun _ _ => trivial
  merge := fun _ _ _ => trivial
  snapT _ := False
  sent := fun h => by rw [hu] at h; cases h
  got := fun _ => trivial
  pair := pr
  gotPair := fun h => h.elim
  comp c := ∀ k, c ≠ .trim k

variable {hu : SnapOps.use_snapshots E S = false} {pr pr' : Nat → Option S → Prop}

namespace Quiet

theorem mem {m : Mem E S} (h : (Prov.quiet hu pr).mem m) (hp : pr' m.compacted_idx m.snapshot) : (Prov.quiet hu pr').mem m :=
  ⟨h.log, h.snap, h.stop, h.prom, h.accr, hp⟩

theorem sync {l : LogSync E S} (h : (Prov.quiet hu pr).sync l) : (Prov.quiet hu pr').sync l := ⟨h.snap, h.suffix, h.stop⟩

theorem syncO {l : Option (LogSync E S)} (h : (Prov.quiet hu pr).syncO l) : (Prov.quiet hu pr').syncO l := fun x e => sync (h x e)

theorem msg {m : PaxosMsg E S} (h : (Prov.quiet hu pr).msg m) : (Prov.quiet hu pr').msg m := by
  cases m with
  | promise p => exact syncO (pr := pr) h
  | acceptSync a => exact ⟨sync h.1, h.2⟩
  | _ => exact h

theorem message {m : Message E S} (h : (Prov.quiet hu pr).message m) : (Prov.quiet hu pr').message m := by
  cases m with
  | paxos m => exact msg (pr := pr) h
  | ble m => trivial

theorem srv {op : OP E S} (h : (Prov.quiet hu pr).srv op) (hp : pr' op.sp.ist.storage.compacted_idx op.sp.ist.storage.snapshot)
    (ht : ∀ m ∈ op.sp.ist.trail, pr' m.compacted_idx m.snapshot) : (Prov.quiet hu pr').srv op :=
  ⟨⟨⟨mem h.sp.ist.sto hp, fun m hm => mem (h.sp.ist.trail m hm) (ht m hm), h.sp.ist.batch, h.sp.ist.stop, h.sp.ist.cprom,
    h.sp.ist.cacc⟩, h.sp.buf, h.sp.bss, fun m hm => msg (h.sp.out m hm), syncO h.sp.max, fun p e => syncO (h.sp.cached p e),
    h.sp.pid, h.sp.lead⟩, h.ble⟩

theorem nostop {m : Mem E S} (h : (Prov.quiet hu pr).mem m) : m.stopsign = none := by
  cases hs : m.stopsign with
  | none => rfl
  | some x => exact (h.stop x hs).elim

end Quiet

/-- The snapshot `x` is made of the first `k` entries of a chosen log. -/
def SnapPair (cc : ClusterConfig) (G : Ghost E) (k : Nat) (x : Option S) : Prop :=
  (k = 0 ∧ x = none) ∨ ∃ b l s, G.Chosen cc b l ∧ k ≤ l.es.length ∧ x = some s ∧ SnapOps.create (l.es.take k) = some s

theorem SnapPair.mono {cc : ClusterConfig} {G G' : Ghost E} (hm : Mono G G') {k : Nat} {x : Option S} (h : SnapPair cc G k x) :
    SnapPair cc G' k x := by
  rcases h with h | ⟨b, l, s, h1, h2⟩
  · exact .inl h
  · exact .inr ⟨b, l, s, h1.mono hm, h2⟩

theorem IStore.try_snapshot_panic (s : IStore E S) (idx : Option Nat) :
    M.Sat (IStore.try_snapshot idx) s (fun _ _ => True) (fun t => t = s) := by
  simp only [try_snapshot, M.sat_bind, M.sat_get, M.sat_ofPan]
  refine ⟨fun t _ => ?_, fun _ => trivial⟩
  cases t with
  | error e => trivial
  | ok k =>
    simp only [M.sat_ite, M.sat_bind, M.sat_ofPan, M.sat_pure]
    refine ⟨fun _ => ⟨fun r hr => ?_, fun _ => trivial⟩, fun _ => trivial⟩
    cases r with
    | error e => trivial
    | ok x =>
      simp only [M.sat_bind, sat_setCache, M.sat_pure, sat_writeOps]
      exact ⟨fun m _ => trivial, fun _ => trivial⟩

section snapshot
variable {cc : ClusterConfig} {G : Ghost E} {i : NodeId} {lg : Lg E}

/-- The pair of the storage and of everything it wrote. -/
def SnapI (cc : ClusterConfig) (G : Ghost E) (s : IStore E S) : Prop :=
  SnapPair cc G s.storage.compacted_idx s.storage.snapshot ∧ ∀ m ∈ s.trail, SnapPair cc G m.compacted_idx m.snapshot

theorem take_of_prefix {a b : List E} {k : Nat} (h : a <+: b) (hk : k ≤ a.length) : b.take k = a.take k := by
  obtain ⟨t, rfl⟩ := h
  rw [List.take_append_of_le_length hk]

theorem try_snapshot_snap (law : SnapLaw E S) (hv : cc.validate = .ok ()) (hA : Abs cc G) {s : IStore E S} (hr : ReadOK s)
    (hno : s.storage.stopsign = none) (hd : DiskInv cc i G s.storage lg) (h : SnapI cc G s) (idx : Option Nat) :
    M.Sat (IStore.try_snapshot idx) s (fun _ => SnapI cc G) (SnapI cc G) := by
  refine M.sat_mono (M.sat_and (IStore.try_snapshot_spec hr idx) (IStore.try_snapshot_panic s idx)) (fun r t ht => ?_)
    fun t ht => ht.2 ▸ h
  rcases ht.1 with ⟨hi, -, ⟨-, rfl⟩ | ⟨hk, sn, d, rfl, hcr, hm⟩⟩ | ⟨-, -, rfl⟩
  · exact h
  swap
  · exact h
  have hss : lg.ss = none := hd.ss ▸ hno
  have hc := hr.comp
  generalize hkk : s.cut (idx.getD s.cache.decided_idx) = k at *
  have hkd : k ≤ s.storage.ld := by
    have := hr.dcd
    simp only [IStore.cut] at hkk
    omega
  have hnew : SnapPair cc G k (some sn) := by
    rcases hd.dec with h0 | ⟨b, l, -, hch, hcov, hle⟩
    · omega
    have hls : l.ss = none := by
      cases hl : l.ss with
      | none => rfl
      | some x => rw [← Lg.eq_of_ss hle (by rw [hl]; simp)] at hss; rw [hl] at hss; cases hss
    have hlen : k ≤ l.es.length := Nat.le_trans hkd (hcov.resolve_right fun h => h hls)
    have hlg : lg.es.take k = l.es.take k := take_of_prefix (Lg.pre hle) hlen
    have hdrop : s.storage.log.take (k - s.storage.compacted_idx) = (l.es.take k).drop s.storage.compacted_idx := by
      rw [hd.log, ← hlg, List.drop_take]
    rw [hdrop] at hcr
    refine .inr ⟨b, l, sn, hch, hlen, rfl, ?_⟩
    rcases h.1 with ⟨h1, h2⟩ | ⟨b', l', o', hch', hlen', ho', hcr'⟩
    · rw [h1, List.drop_zero] at hcr
      rcases hm with ⟨-, rfl⟩ | ⟨o, ho, -⟩
      · exact hcr
      · rw [h2] at ho; cases ho
    · rcases hm with ⟨hn, -⟩ | ⟨o, ho, hm⟩
      · rw [ho'] at hn; cases hn
      · rw [ho'] at ho; cases ho
        have hsame : l'.es.take s.storage.compacted_idx = (l.es.take k).take s.storage.compacted_idx := by
          rw [List.take_take, Nat.min_eq_left (by omega)]
          rcases hA.chosen_comparable hv hch hch' with hx | hx
          · exact take_of_prefix (Lg.pre hx) (by omega)
          · exact (take_of_prefix (Lg.pre hx) hlen').symm
        have := law _ _ _ _ hcr' hcr
        rw [hm, hsame, List.take_append_drop] at this
        exact this.symm
  refine ⟨hnew, fun m hm => ?_⟩
  rcases List.mem_cons.1 hm with rfl | hm
  · exact hnew
  · exact h.2 m hm

theorem snapshot_snap (law : SnapLaw E S) (hv : cc.validate = .ok ()) (hA : Abs cc G) {s : SP E S} (hr : ReadOK s.ist)
    (hno : s.ist.storage.stopsign = none) (hd : DiskInv cc i G s.ist.storage lg) (h : SnapI cc G s.ist) (idx : Option Nat)
    (lo : Bool) : M.Sat (SP.snapshot idx lo) s (fun _ t => SnapI cc G t.ist) (fun t => SnapI cc G t.ist) := by
  simp only [SP.snapshot, M.sat_bind, M.sat_get, SP.sat_onStore]
  refine M.sat_mono (try_snapshot_snap law hv hA hr hno hd h idx) (fun r t ht => ?_) fun _ h => h
  cases r with
  | error e => exact ht
  | ok u =>
    simp only [M.sat_bind, M.sat_whenDo, M.sat_pure]
    exact ⟨fun _ => M.sat_forEach (fun t : SP E S => SnapI cc G t.ist) ht fun x _ t ht => by simpa only [SP.send, M.sat_upd] using ht, fun _ => ht⟩

end snapshot

section call
variable {cc : ClusterConfig} {G : Ghost E} {i : NodeId} {pre : NodeId → List (PaxosMessage E S)} {op : OP E S}

/-- A call keeps all this, in terms of the history before the call. -/
theorem quiet_call (law : SnapLaw E S) (hv : cc.validate = .ok ()) (hA : Abs cc G) {lg : Lg E} (hC : Core cc i pre G op.sp lg)
    (hP : (Prov.quiet hu (SnapPair cc G)).srv op) {call : Call E S} (hc : call.Quiet)
    (hmsg : ∀ m, call = .handleIncoming m → (Prov.quiet hu (SnapPair cc G)).message m) :
    (Prov.quiet hu (SnapPair cc G)).server (op.callResult call) ∧
      ∀ m ∈ op.callTrail call, (Prov.quiet hu (SnapPair cc G)).mem m := by
  have hno := Quiet.nostop hP.sp.ist.sto
  -- the calls that make snapshots
  have snap : (M.Sat call.run op.clearTrail (fun _ t => SnapI cc G t.sp.ist) (fun t => SnapI cc G t.sp.ist)) →
      (Prov.quiet hu fun _ _ => True).call op.clearTrail call →
      (Prov.quiet hu (SnapPair cc G)).server (op.callResult call) ∧
        ∀ m ∈ op.callTrail call, (Prov.quiet hu (SnapPair cc G)).mem m := by
    intro h1 h2
    have h3 := Prov.run (Prov.clear (Quiet.srv (pr' := fun _ _ => True) hP trivial fun _ _ => trivial)) h2
    have h4 := M.sat_and h1 h3
    unfold OP.callResult OP.callTrail
    unfold M.Sat at h4
    split at h4 <;> rename_i e <;> rw [e]
    · have := Quiet.srv (pr' := SnapPair cc G) h4.2 h4.1.1 h4.1.2
      exact ⟨this, this.sp.ist.trail⟩
    · have := Quiet.srv (pr' := SnapPair cc G) h4.2 h4.1.1 h4.1.2
      exact ⟨this.sp.ist.sto, this.sp.ist.trail⟩
  have other : (Prov.quiet hu (SnapPair cc G)).call op call →
      (Prov.quiet hu (SnapPair cc G)).server (op.callResult call) ∧
        ∀ m ∈ op.callTrail call, (Prov.quiet hu (SnapPair cc G)).mem m := fun h =>
    ⟨Prov.callResult hP h, Prov.callTrail hP h⟩
  have hss : lg.ss = none := by rw [← hC.disk.ss]; exact hno
  have hcov := hC.disk.cov.resolve_right fun h => h hss
  have hlen : op.sp.ist.storage.len = lg.es.length := by
    unfold Mem.len
    rw [hno, hC.disk.log, List.length_drop]; simp; omega
  have hr : ReadOK op.clearTrail.sp.ist := by
    refine ⟨hC.mir.comp, hC.mir.trim, hC.mir.dec, hC.mir.ss, ?_, ?_⟩
    · rw [show op.clearTrail.sp.ist.storage = op.sp.ist.storage from rfl, hlen]; exact hC.idx.1 hss
    · rw [show op.clearTrail.sp.ist.cache = op.sp.ist.cache from rfl, hC.mir.dec, hC.idx.1 hss]
      exact hC.disk.dec.covers.resolve_right fun h => h hss
  have hsn : ∀ idx lo, M.Sat (SP.snapshot idx lo) op.clearTrail.sp (fun _ t => SnapI cc G t.ist) (fun t => SnapI cc G t.ist) :=
    fun idx lo => snapshot_snap law hv hA hr hno hC.disk ⟨hP.sp.ist.sto.pair, nofun⟩ idx lo
  cases call with
  | append e => exact other fun _ => trivial
  | reconfigure c md => exact hc.elim
  | tick => exact other fun _ _ h => h.elim fun _ h => h
  | tryBecomeLeader => exact other fun _ _ _ h => h.elim fun _ h => h
  | setPriority p => exact other trivial
  | reconnected p => exact other trivial
  | trim k => exact hc.elim
  | snapshot idx lo =>
    refine snap ?_ ⟨fun _ _ => trivial, fun _ _ => nofun⟩
    simp only [Call.run, OP.snapshot, M.sat_bind, M.sat_pure, OP.sat_onSP]
    exact hsn idx lo
  | handleIncoming m =>
    have hm := hmsg m rfl
    by_cases hx : ∃ x c, m = .paxos x ∧ x.msg = .compaction c
    · obtain ⟨x, c, rfl, hxc⟩ := hx
      refine snap ?_ ⟨Quiet.message hm, fun _ _ _ _ _ _ => trivial⟩
      have hcomp : (Prov.quiet hu (SnapPair cc G)).msg x.msg := hm
      rw [hxc] at hcomp
      cases c with
      | trim k => exact absurd rfl (hcomp k)
      | snapshot idx =>
        simp only [Call.run, OP.handle_incoming, OP.sat_onSP, SP.handle, hxc, SP.handle_compaction, M.sat_bind, M.sat_pure]
        exact hsn idx true
    · exact other ⟨hm, fun x c e1 e2 => absurd ⟨x, c, e1, e2⟩ hx⟩

end call

/-! ### Runs -/

/-- The invariant: what `RInv` says, all of the above for every server and message, and every entry ever shown as decided in the
states `H` is in a chosen log. -/
structure QInv (cc : ClusterConfig) (hu : SnapOps.use_snapshots E S = false) (H : Cluster E S → Prop) (c : Cluster E S)
    (G : Ghost E) (rel : Links) : Prop where
  rinv : RInv cc c G rel
  srv : ∀ i, (Prov.quiet hu (SnapPair cc G)).server (c.servers i)
  net : ∀ i j, ∀ m ∈ c.net i j, (Prov.quiet hu (SnapPair cc G)).message m
  hist : ∀ c', H c' → ∀ j p e, c'.Shows j p (.decided e) → ∃ b l, G.Chosen cc b l ∧ l.es[p]? = some e

theorem Quiet.serverMono {cc : ClusterConfig} {G G' : Ghost E} (hm : Mono G G') {s : Server E S}
    (h : (Prov.quiet hu (SnapPair cc G)).server s) : (Prov.quiet hu (SnapPair cc G')).server s := by
  cases s with
  | up op => exact Quiet.srv h (h.sp.ist.sto.pair.mono hm) fun m hx => (h.sp.ist.trail m hx).pair.mono hm
  | down d => exact Quiet.mem h (Prov.mem.pair h |>.mono hm)

/-- What a server shows as decided is in a chosen log. -/
theorem RInv.shown {rel : Links} {cc : ClusterConfig} {c : Cluster E S} {G : Ghost E} (h : RInv cc c G rel) {j : NodeId} {p : Nat} {e : E}
    (hs : c.Shows j p (.decided e)) : cc.validate = .ok () ∧ ∃ b l, G.Chosen cc b l ∧ l.es[p]? = some e := by
  obtain ⟨op, hop, hs⟩ := hs
  have := h.srv j
  rw [hop] at this
  obtain ⟨hv, ⟨lg, hC, -⟩, -⟩ := this
  obtain ⟨h1, h2⟩ := hs.decided hC.mir
  have h3 := hC.disk.entry h2
  rcases hC.disk.dec with h0 | ⟨b, l, -, hch, hcov, hle⟩
  · omega
  · exact ⟨hv, b, l, hch, by rw [Lg.get_eq hle hcov h1]; exact h3⟩

theorem QInv.step {rel : Links} {cc : ClusterConfig} (law : SnapLaw E S) {H : Cluster E S → Prop} {c c' : Cluster E S} {G : Ghost E}
    (h : QInv cc hu H c G rel) {a : Action E S} (ht : c.Tidy a rel) (ha : a.Only Call.Quiet) (hs : c.step cc a = some c') :
    ∃ G', Mono G G' ∧ QInv cc hu (fun x => H x ∨ x = c') c' G' rel := by
  obtain ⟨G', hm, hR⟩ := h.rinv.step ht hs
  have call : ∀ {j : NodeId} {op : OP E S} {call : Call E S}, c.servers j = .up op → call.Quiet →
      (∀ m, call = .handleIncoming m → (Prov.quiet hu (SnapPair cc G)).message m) →
      (Prov.quiet hu (SnapPair cc G)).server (op.callResult call) ∧
      ∀ m ∈ op.callTrail call, (Prov.quiet hu (SnapPair cc G)).mem m := by
    intro j op call hop hc hmsg
    have h1 := h.rinv.srv j
    rw [hop] at h1
    obtain ⟨hv, ⟨lg, hC, -⟩, -⟩ := h1
    have h2 := h.srv j
    rw [hop] at h2
    exact quiet_call law hv h.rinv.abs hC h2 hc hmsg
  have set : ∀ {j : NodeId} {s : Server E S} {d : Cluster E S}, d.servers = c.servers → (Prov.quiet hu (SnapPair cc G)).server s →
      ∀ i, (Prov.quiet hu (SnapPair cc G)).server ((d.setServer j s).servers i) := by
    intro j s d hd hs i
    by_cases e : i = j
    · rw [show (d.setServer j s).servers i = s by simp [Cluster.setServer, e]]; exact hs
    · rw [show (d.setServer j s).servers i = c.servers i by simp [Cluster.setServer, e, hd]]; exact h.srv i
  have netsub : ∀ {i j : NodeId} {l : List (Message E S)}, (∀ m ∈ l, m ∈ c.net i j) →
      ∀ a b, ∀ m ∈ (c.setNet i j l).net a b, (Prov.quiet hu (SnapPair cc G)).message m := by
    intro i j l hl a b m hx
    simp only [Cluster.setNet] at hx
    split at hx
    · exact h.net i j m (hl m hx)
    · exact h.net a b m hx
  suffices key : (∀ i, (Prov.quiet hu (SnapPair cc G)).server (c'.servers i)) ∧
      ∀ i j, ∀ m ∈ c'.net i j, (Prov.quiet hu (SnapPair cc G)).message m by
    refine ⟨G', hm, hR, fun i => Quiet.serverMono hm (key.1 i), fun i j m hx => Quiet.message (key.2 i j m hx), fun x hx j p e he => ?_⟩
    rcases hx with hx | rfl
    · obtain ⟨b, l, h1, h2⟩ := h.hist x hx j p e he
      exact ⟨b, l, h1.mono hm, h2⟩
    · exact (hR.shown he).2
  cases a with
  | start j cfg =>
    simp only [Cluster.step] at hs
    split at hs
    · cases hs
    · rename_i d hd
      split at hs
      · split at hs
        · rename_i op hb
          cases hs
          have h1 := h.srv j
          rw [hd] at h1
          exact ⟨set rfl (Prov.build h1 trivial ⟨(0, 0), trivial⟩ hb), h.net⟩
        · cases hs
      · cases hs
  | crash j =>
    simp only [Cluster.step] at hs
    split at hs
    · rename_i op hop
      cases hs
      have h1 := h.srv j
      rw [hop] at h1
      exact ⟨set rfl h1.sp.ist.sto, h.net⟩
    · cases hs
  | call j x =>
    simp only [Cluster.step] at hs
    split at hs
    · rename_i op hop
      split at hs
      · cases hs
      · rename_i hi
        cases hs
        exact ⟨set rfl (call hop ha (fun m e => by subst e; simp [Call.isIncoming] at hi)).1, h.net⟩
    · cases hs
  | crashCall j x k =>
    simp only [Cluster.step] at hs
    split at hs
    · rename_i op hop
      split at hs
      · cases hs
      · rename_i hi
        split at hs
        · rename_i d hd
          cases hs
          exact ⟨set rfl ((call hop ha (fun m e => by subst e; simp [Call.isIncoming] at hi)).2 d (List.mem_of_getElem? hd)), h.net⟩
        · cases hs
    · cases hs
  | take j =>
    simp only [Cluster.step] at hs
    split at hs
    · rename_i op hop
      cases hs
      have h1 := h.srv j
      rw [hop] at h1
      obtain ⟨h2, h3⟩ := Prov.take h1
      refine ⟨set (d := c) (s := .up (op.take_outgoing_messages []).2) rfl h2, fun a b m hx => ?_⟩
      simp only at hx
      split at hx
      · rcases List.mem_append.1 hx with hx | hx
        · exact h.net a b m hx
        · exact h3 m (List.mem_filter.1 hx).1
      · exact h.net a b m hx
    · cases hs
  | deliver j k =>
    simp only [Cluster.step] at hs
    split at hs
    · cases hs
    · rename_i m rest hn
      have hrest : ∀ x ∈ rest, x ∈ c.net j k := fun x hx => by rw [hn]; exact List.mem_cons_of_mem _ hx
      split at hs
      · cases hs; exact ⟨h.srv, netsub hrest⟩
      · rename_i op hop
        cases hs
        refine ⟨set rfl (call (call := .handleIncoming m) hop trivial fun x e => ?_).1, netsub hrest⟩
        cases e; exact h.net j k m (by rw [hn]; exact List.mem_cons_self)
  | crashDeliver j k n =>
    simp only [Cluster.step] at hs
    split at hs
    · cases hs
    · rename_i m rest hn
      have hrest : ∀ x ∈ rest, x ∈ c.net j k := fun x hx => by rw [hn]; exact List.mem_cons_of_mem _ hx
      split at hs
      · cases hs
      · rename_i op hop
        split at hs
        · rename_i d hd
          cases hs
          refine ⟨set rfl ((call (call := .handleIncoming m) hop trivial fun x e => ?_).2 d (List.mem_of_getElem? hd)), netsub hrest⟩
          cases e; exact h.net j k m (by rw [hn]; exact List.mem_cons_self)
        · cases hs
  | lose j k n =>
    simp only [Cluster.step] at hs
    split at hs
    · cases hs
      exact ⟨h.srv, netsub fun m hx => List.mem_of_mem_eraseIdx hx⟩
    · cases hs
  | rearrange i j ks =>
    simp only [Cluster.step] at hs
    cases hs
    refine ⟨h.srv, netsub fun m hx => ?_⟩
    obtain ⟨k, -, hk⟩ := List.mem_filterMap.1 hx
    exact List.mem_of_getElem? hk

theorem QInv.run {rel : Links} {cc : ClusterConfig} (law : SnapLaw E S) {H : Cluster E S → Prop} {c c' : Cluster E S} {G : Ghost E}
    (h : QInv cc hu H c G rel) {as : List (Action E S)} (ht : c.TidyRun cc as rel) (ha : ∀ a ∈ as, a.Only Call.Quiet)
    (hs : c.run cc as = some c') (hH : H c) :
    ∃ G', Mono G G' ∧ QInv cc hu (fun x => H x ∨ ∃ bs, bs <+: as ∧ c.run cc bs = some x) c' G' rel := by
  induction as generalizing c G H with
  | nil =>
    cases hs
    refine ⟨G, Mono.refl G, h.rinv, h.srv, h.net, fun x hx => ?_⟩
    rcases hx with hx | ⟨bs, hb, hr⟩
    · exact h.hist x hx
    · rw [List.prefix_nil.1 hb] at hr; cases hr; exact h.hist _ hH
  | cons a as ih =>
    simp only [Cluster.run] at hs
    split at hs
    · cases hs
    · rename_i c1 h1
      obtain ⟨G1, hm1, hq1⟩ := h.step law ht.1 (ha a List.mem_cons_self) h1
      obtain ⟨G2, hm2, hq2⟩ := ih hq1 (ht.2 c1 h1) (fun b hb => ha b (List.mem_cons_of_mem _ hb)) hs (.inr rfl)
      refine ⟨G2, hm1.trans hm2, hq2.rinv, hq2.srv, hq2.net, fun x hx => hq2.hist x ?_⟩
      rcases hx with hx | ⟨bs, hb, hr⟩
      · exact .inl (.inl hx)
      · cases bs with
        | nil => cases hr; exact .inl (.inl hH)
        | cons b bs =>
          obtain ⟨rfl, hb'⟩ := List.cons_prefix_cons.1 hb
          simp only [Cluster.run, h1] at hr
          exact .inr ⟨bs, hb', hr⟩

theorem QInv.init {rel : Links} (cc : ClusterConfig) (hu : SnapOps.use_snapshots E S = false) :
    QInv cc hu (fun x => x = Cluster.init) (Cluster.init : Cluster E S) RInv.G0 rel :=
  ⟨RInv.init cc, fun _ => Prov.mem_empty (.inl ⟨rfl, rfl⟩), nofun, fun x hx j p e he => by subst hx; obtain ⟨op, h, -⟩ := he; cases h⟩

end Omni
