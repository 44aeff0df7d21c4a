import Verif.Proof.Safety.Links
import Verif.Proof.Embed
import Verif.Proof.Persistent
import Verif.Spec.StorageRun
/-
PersistentStorage beside MemoryStorage in whole runs.
-/
namespace Omni

variable {E S : Type}

/-- The first part of a chain. -/
theorem Chain.drop {d0 : Mem E S} {cs : List (StorageCall E S)} {ts : List (Mem E S)} {m : Mem E S} (h : Chain d0 cs ts m)
    {k : Nat} {t : Mem E S} (ht : ts[k]? = some t) : Chain d0 (cs.drop k) (ts.drop k) t := by
  induction k generalizing cs ts m with
  | zero =>
    cases ts with
    | nil => cases ht
    | cons x ts =>
      cases ht
      cases cs with
      | nil => exact h.elim
      | cons c cs => obtain ⟨rfl, h⟩ := h; exact ⟨rfl, h⟩
  | succ k ih =>
    cases ts with
    | nil => cases ht
    | cons x ts =>
      cases cs with
      | nil => exact h.elim
      | cons c cs =>
        obtain ⟨rfl, p, hp, -⟩ := h
        exact ih hp ht

theorem Mem.settled {d : Mem E S} (h : d.trimmed_idx = d.compacted_idx) : d.bounds.Settled :=
  ⟨h.symm, Nat.le_add_right _ _⟩

/-- The calls of a chain keep the simulation. -/
theorem Sim.chain {d0 m : Mem E S} {p : PStore E S} (h : Sim d0 p d0.bounds) {cs : List (StorageCall E S)} {ts : List (Mem E S)}
    (hc : Chain d0 cs ts m) (hs : ∀ t ∈ ts, t.stopsign = none) : Sim m (p.calls cs.reverse) m.bounds := by
  obtain ⟨h1, h2⟩ := hc.bounds hs
  obtain ⟨m', e, hm⟩ := h.calls h2
  rw [h1] at e
  cases e
  exact hm

variable [SnapOps E S] {cc : ClusterConfig}

/-- A run of the cluster in which `reconfigure` is not called leaves no StopSign on a disk. -/
theorem Cluster.nostop {c : Cluster E S} {as : List (Action E S)} (ha : ∀ a ∈ as, a.Only Call.SameConfig)
    (hr : Cluster.init.run cc as = some c) (n : NodeId) : (c.servers n).disk.stopsign = none := by
  obtain ⟨bs, l, hb, hl, he⟩ := Embeds.init.run ha hr
  have hp := (Prov.runs hl).servers n
  rw [he.servers] at hp
  have hm : (Prov.ofRun cc bs n).mem (c.servers n).disk := by
    cases hx : c.servers n with
    | up op => rw [hx] at hp; exact hp.sp.ist.sto
    | down d => rw [hx] at hp; exact hp
  cases hs : (c.servers n).disk.stopsign with
  | none => rfl
  | some ss =>
    obtain ⟨pre, a, post, c1, i, op, e, -, -, h, -⟩ : Loose.Requested cc bs ss := hm.stop ss hs
    have hx := hb a (by rw [e]; simp)
    rcases h with rfl | ⟨k, rfl⟩ <;> exact hx.elim

/-- The last action of such a run. -/
theorem Cluster.nostop_snoc {c c' : Cluster E S} {as : List (Action E S)} (ha : ∀ a ∈ as, a.Only Call.SameConfig)
    (hr : Cluster.init.run cc as = some c) {a : Action E S} (hx : a.Only Call.SameConfig) (hs : c.step cc a = some c') :
    (∀ b ∈ as ++ [a], b.Only Call.SameConfig) ∧ Cluster.init.run cc (as ++ [a]) = some c' := by
  refine ⟨fun b hb => ?_, ?_⟩
  · rcases List.mem_append.1 hb with hb | hb
    · exact ha b hb
    · rw [List.mem_singleton.1 hb]; exact hx
  · have key : ∀ (d : Cluster E S) (l : List (Action E S)), d.run cc l = some c → d.run cc (l ++ [a]) = some c' := by
      intro d l
      induction l generalizing d with
      | nil => intro h; cases h; simp [Cluster.run, hs]
      | cons x l ih =>
        intro h
        simp only [Cluster.run, List.cons_append] at h ⊢
        cases hd : d.step cc x with
        | none => rw [hd] at h; cases h
        | some d' => rw [hd] at h; exact ih d' h
    exact key _ _ hr

/-- Starting a server writes the promise. -/
theorem OP.build_calls {cfg : OmniPaxosConfig} {d : Mem E S} {op : OP E S} (h : OP.build cfg d = some (.ok op)) :
    op.sp.ist.calls = [.one (.setPromise (d.n_prom.getD {}))] ∧ op.sp.ist.trail = [op.sp.ist.storage] ∧
      op.sp.ist.storage = { d with n_prom := some (d.n_prom.getD {}) } := by
  unfold OP.build at h
  split at h
  · cases h
  · simp only at h
    split at h
    · cases h
    · rename_i sp hsp
      cases h
      unfold SP.with at hsp
      split at hsp
      · cases hsp
      · cases hsp
        exact ⟨rfl, rfl, rfl⟩

theorem OP.build_chain {cfg : OmniPaxosConfig} {d : Mem E S} {op : OP E S} (h : OP.build cfg d = some (.ok op)) :
    Chain d op.sp.ist.calls op.sp.ist.trail op.sp.ist.storage ∧ op.sp.ist.trail = [op.sp.ist.storage] := by
  obtain ⟨h1, h2, h3⟩ := OP.build_calls h
  refine ⟨?_, h2⟩
  rw [h1, h2, h3]
  exact ⟨rfl, d, rfl, Fits.promise d _⟩

/-- Every server's PersistentStorage simulates its disk. -/
def Cluster.PInv (c : Cluster E S) (P : NodeId → PStore E S) : Prop :=
  ∀ n, Sim (c.servers n).disk (P n) (c.servers n).disk.bounds

omit [SnapOps E S] in
theorem RInv.disk {rel : Links} {c : Cluster E S} {G : Ghost E} (h : RInv cc c G rel) (n : NodeId) : ∃ lg, DiskInv cc n G (c.servers n).disk lg := by
  have hi := h.srv n
  cases hx : c.servers n with
  | up op => rw [hx] at hi; exact hi.disk
  | down d => rw [hx] at hi; exact hi.1

theorem Cluster.PInv.step {rel : Links} {c c' : Cluster E S} {G : Ghost E} (h : RInv cc c G rel) {P : NodeId → PStore E S} (hP : c.PInv P)
    {as : List (Action E S)} (ha : ∀ a ∈ as, a.Only Call.SameConfig) (hr : Cluster.init.run cc as = some c) {a : Action E S}
    (hx : a.Only Call.SameConfig) (ht : c.Tidy a rel) (hs : c.step cc a = some c') : c'.PInv (c.pstep cc P a) := by
  have keep : ∀ n, c'.servers n = c.servers n → c.pstep cc P a n = P n → Sim (c'.servers n).disk (c.pstep cc P a n) (c'.servers n).disk.bounds :=
    fun n h1 h2 => by rw [h1, h2]; exact hP n
  have hcl : ∀ (p : PStore E S), p.calls [] = p := fun _ => rfl
  intro n
  cases a with
  | start i cfg =>
    simp only [Cluster.step] at hs
    split at hs
    · cases hs
    · rename_i d hd
      split at hs
      · rename_i hp
        split at hs
        · rename_i op hop
          cases hs
          by_cases hin : i = n
          · subst hin
            have hS := hP i
            obtain ⟨lg, hdi⟩ := h.disk i
            rw [hd] at hS hdi
            have hw := OP.build_chain hop
            have hst : c.step cc (.start i cfg) = some (c.setServer i (.up op)) := by
              simp only [Cluster.step, hd, if_pos hp, hop]
            have hns := Cluster.nostop_snoc ha hr hx hst
            have hns := Cluster.nostop hns.1 hns.2 i
            simp only [Cluster.setServer, if_true, Server.disk] at hns
            simp only [Cluster.pstep, Cluster.writes, hd, if_true, hop, Cluster.setServer, Server.disk]
            rw [hS.reopen (Mem.settled hdi.trim)]
            exact hS.chain hw.1 fun t hm => by rw [hw.2] at hm; rw [List.mem_singleton.1 hm]; exact hns
          · exact keep n (by simp [Cluster.setServer, Ne.symm hin]) (by simp [Cluster.pstep, hin])
        · cases hs
      · cases hs
  | crash i =>
    simp only [Cluster.step] at hs
    split at hs
    · rename_i op hop
      cases hs
      have h0 : c.pstep cc P (.crash i) n = P n := by simp only [Cluster.pstep, Cluster.writes]; split <;> first | rfl | (rename_i e; cases e)
      rw [h0]
      by_cases hin : n = i
      · subst hin; have := hP n; rw [hop] at this; simpa [Cluster.setServer, Server.disk] using this
      · simpa [Cluster.setServer, hin] using hP n
    · cases hs
  | call i cl =>
    simp only [Cluster.step] at hs
    split at hs
    · rename_i op hop
      split at hs
      · cases hs
      · rename_i hc
        cases hs
        by_cases hin : i = n
        · subst hin
          have hS := hP i
          rw [hop] at hS
          have hch := (h.call hop (by simpa using hc)).2.2
          simp only [Cluster.pstep, Cluster.writes, hop, if_true, Cluster.setServer]
          refine hS.chain hch fun t hm => ?_
          obtain ⟨k, hk⟩ := List.getElem?_of_mem hm
          have hst : c.step cc (.crashCall i cl k) = some (c.setServer i (.down t)) := by
            simp only [Cluster.step, hop, if_neg hc, hk]
          have := Cluster.nostop_snoc ha hr (a := .crashCall i cl k) hx hst
          have := Cluster.nostop this.1 this.2 i
          simpa [Cluster.setServer, Server.disk] using this
        · refine keep n (by simp [Cluster.setServer, Ne.symm hin]) ?_
          cases hy : c.servers n <;> simp [Cluster.pstep, Cluster.writes, hy, hin, PStore.calls]
    · cases hs
  | crashCall i cl k =>
    simp only [Cluster.step] at hs
    split at hs
    · rename_i op hop
      split at hs
      · cases hs
      · rename_i hc
        split at hs
        · rename_i d hd
          cases hs
          by_cases hin : i = n
          · subst hin
            have hS := hP i
            rw [hop] at hS
            have hch := (h.call hop (by simpa using hc)).2.2
            simp only [Cluster.pstep, Cluster.writes, hop, if_true, Cluster.setServer]
            refine hS.chain (hch.drop hd) fun t hm => ?_
            obtain ⟨k', hk⟩ := List.getElem?_of_mem (List.mem_of_mem_drop hm)
            have hst : c.step cc (.crashCall i cl k') = some (c.setServer i (.down t)) := by
              simp only [Cluster.step, hop, if_neg hc, hk]
            have := Cluster.nostop_snoc ha hr (a := .crashCall i cl k') hx hst
            have := Cluster.nostop this.1 this.2 i
            simpa [Cluster.setServer, Server.disk] using this
          · refine keep n (by simp [Cluster.setServer, Ne.symm hin]) ?_
            cases hy : c.servers n <;> simp [Cluster.pstep, Cluster.writes, hy, hin, PStore.calls]
        · cases hs
    · cases hs
  | take i =>
    simp only [Cluster.step] at hs
    split at hs
    · rename_i op hop
      cases hs
      have h0 : c.pstep cc P (.take i) n = P n := by simp only [Cluster.pstep, Cluster.writes]; split <;> first | rfl | (rename_i e; cases e)
      rw [h0]
      by_cases hin : n = i
      · subst hin; have := hP n; rw [hop] at this; simpa [Server.disk, OP.take_outgoing_messages, SP.take_outgoing_msgs] using this
      · simpa [hin] using hP n
    · cases hs
  | deliver i j =>
    simp only [Cluster.step] at hs
    split at hs
    · cases hs
    · rename_i m rest hn
      split at hs
      · rename_i d hd
        cases hs
        refine keep n rfl ?_
        by_cases hjn : j = n
        · subst hjn; simp [Cluster.pstep, Cluster.writes, hd, PStore.calls]
        · cases hy : c.servers n <;> simp [Cluster.pstep, Cluster.writes, hy, hjn, PStore.calls]
      · rename_i op hop
        cases hs
        by_cases hjn : j = n
        · subst hjn
          have hS := hP j
          rw [hop] at hS
          have hch := (h.deliver hn hop fun hr p pr hp hpr => by subst hp; exact ht hr p rest pr op hn hpr hop).2.2
          simp only [Cluster.pstep, Cluster.writes, hop, if_true, Cluster.setServer, hn]
          refine hS.chain hch fun t hm => ?_
          obtain ⟨k, hk⟩ := List.getElem?_of_mem hm
          have hst : c.step cc (.crashDeliver i j k) = some ((c.setNet i j rest).setServer j (.down t)) := by
            simp only [Cluster.step, hn, hop, hk]
          have := Cluster.nostop_snoc ha hr (a := .crashDeliver i j k) trivial hst
          have := Cluster.nostop this.1 this.2 j
          simpa [Cluster.setServer, Server.disk] using this
        · refine keep n (by simp [Cluster.setServer, Cluster.setNet, Ne.symm hjn]) ?_
          cases hy : c.servers n <;> simp [Cluster.pstep, Cluster.writes, hy, hjn, PStore.calls]
  | crashDeliver i j k =>
    simp only [Cluster.step] at hs
    split at hs
    · cases hs
    · rename_i m rest hn
      split at hs
      · cases hs
      · rename_i op hop
        split at hs
        · rename_i d hd
          cases hs
          by_cases hjn : j = n
          · subst hjn
            have hS := hP j
            rw [hop] at hS
            have hch := (h.deliver hn hop fun hr p pr hp hpr => by subst hp; exact ht hr p rest pr op hn hpr hop).2.2
            simp only [Cluster.pstep, Cluster.writes, hop, if_true, Cluster.setServer, hn]
            refine hS.chain (hch.drop hd) fun t hm => ?_
            obtain ⟨k', hk⟩ := List.getElem?_of_mem (List.mem_of_mem_drop hm)
            have hst : c.step cc (.crashDeliver i j k') = some ((c.setNet i j rest).setServer j (.down t)) := by
              simp only [Cluster.step, hn, hop, hk]
            have := Cluster.nostop_snoc ha hr (a := .crashDeliver i j k') trivial hst
            have := Cluster.nostop this.1 this.2 j
            simpa [Cluster.setServer, Server.disk] using this
          · refine keep n (by simp [Cluster.setServer, Cluster.setNet, Ne.symm hjn]) ?_
            cases hy : c.servers n <;> simp [Cluster.pstep, Cluster.writes, hy, hjn, PStore.calls]
        · cases hs
  | lose i j k =>
    simp only [Cluster.step] at hs
    split at hs
    · cases hs
      refine keep n rfl ?_
      simp only [Cluster.pstep, Cluster.writes]; split <;> first | rfl | (rename_i e; cases e)
    · cases hs
  | rearrange i j ks =>
    simp only [Cluster.step] at hs
    cases hs
    refine keep n rfl ?_
    simp only [Cluster.pstep, Cluster.writes]; split <;> first | rfl | (rename_i e; cases e)

theorem Cluster.PInv.run {rel : Links} {c c' : Cluster E S} {G : Ghost E} (h : RInv cc c G rel) {P : NodeId → PStore E S} (hP : c.PInv P)
    {as bs : List (Action E S)} (ha : ∀ a ∈ as, a.Only Call.SameConfig) (hr : Cluster.init.run cc as = some c)
    (hb : ∀ a ∈ bs, a.Only Call.SameConfig) (ht : c.TidyRun cc bs rel) (hs : c.run cc bs = some c') :
    c'.PInv (c.prun cc P bs) ∧ ∃ G', RInv cc c' G' rel := by
  induction bs generalizing c G P as with
  | nil => cases hs; exact ⟨hP, G, h⟩
  | cons a bs ih =>
    simp only [Cluster.run] at hs
    cases h1 : c.step cc a with
    | none => rw [h1] at hs; cases hs
    | some c1 =>
      rw [h1] at hs
      obtain ⟨G1, -, hr1⟩ := h.step ht.1 h1
      have hx := hb a List.mem_cons_self
      have hsn := Cluster.nostop_snoc ha hr hx h1
      simp only [Cluster.prun, h1]
      exact ih hr1 (PInv.step h hP ha hr hx ht.1 h1) hsn.1 hsn.2 (fun x hm => hb x (List.mem_cons_of_mem _ hm)) (ht.2 c1 h1) hs

end Omni
