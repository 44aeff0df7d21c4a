import Verif.Proof.Steady.Run
/-
Steady operation: beginning and end.
-/
namespace Omni

variable {E S : Type} {n : Ballot} {k : Nat} {cc : ClusterConfig}

/-- The storage of a server. -/
def Cluster.diskLog (c : Cluster E S) (i : NodeId) : List E := (c.servers i).disk.log
def Cluster.diskComp (c : Cluster E S) (i : NodeId) : Nat := (c.servers i).disk.compacted_idx

theorem slot_pos {α : Type} {l : List α} {i : NodeId} {x : α} (h : slot l i = some x) : i ≠ 0 := by
  rintro rfl; cases h

theorem px_quiet {c : Cluster E S} (h : c.Quiet cc) {i j : NodeId} (hi : i ∈ cc.nodes) (hj : j ∈ cc.nodes) : c.px i j = [] := by
  simp only [Cluster.px, List.filterMap_eq_nil_iff]
  intro m hm
  obtain ⟨b, rfl⟩ := h.links i hi j hj m hm
  rfl

theorem SP.AtRest.stored {s : SP E S} (h : s.AtRest n k) (hb : s.ist.cache.batched_entries = []) :
    Stored n k s.ist.storage.log s.ist.storage.compacted_idx [] [] k s.ist :=
  ⟨by simp, hb, by simpa using h.accepted, h.decided, rfl, h.trimmed, h.compacted, h.noStopSign.1, h.noStopSign.2, h.promise, h.kept⟩

/-- The invariant holds in the beginning. -/
theorem Cluster.Settled.flows {c : Cluster E S} (h : c.Settled cc n k) : c.Flows cc n k c.diskLog c.diskComp ([] : List E) := by
  obtain ⟨opL, l1, l2, l3⟩ := h.server _ h.member
  have hrec := h.records opL l1
  have hq := h.quiet.servers _ h.member opL l1
  have hpos : n.pid ≠ 0 := slot_pos (hrec.1.accepted _ h.member)
  refine ⟨fun i => match c.servers i with | .up op => op.sp | .down _ => opL.sp, fun i hi => ?_, [], [], k, ⟨?_, fun f hf hfn => ?_, ?_, ?_⟩, ?_⟩
  · obtain ⟨op, e1, _⟩ := h.server i hi
    exact ⟨op, e1, by simp only [e1]⟩
  · simp only [l1]
    have hd1 : c.diskLog n.pid = opL.sp.ist.storage.log := by simp only [Cluster.diskLog, l1, Server.disk]
    have hd2 : c.diskComp n.pid = opL.sp.ist.storage.compacted_idx := by simp only [Cluster.diskComp, l1, Server.disk]
    rw [hd1, hd2]
    refine ⟨by rw [l3.role, if_pos l2], l3.phase, l2, hrec.2, hrec.1.ballot, hrec.1.quorum, fun i hi _ => hrec.1.promised i hi,
      fun i hi => (hrec.1.promised i hi).elim fun m h => ⟨_, h⟩, fun i m hm => ⟨hrec.1.members i m hm, trivial⟩,
      h.replied _ h.member opL l1, l3.buffered, l3.stored hq.2, by simp, by simpa using hrec.1.accepted _ h.member,
      ⟨hpos, hrec.1.pids _ h.member, none, hrec.1.unsent _ h.member, rfl⟩, fun m hm => ?_⟩
    rw [hq.1] at hm
    cases hm
  · obtain ⟨op, e1, e2, e3⟩ := h.server f hf
    have hqf := h.quiet.servers _ hf op e1
    simp only [l1, e1]
    have hd1 : c.diskLog f = op.sp.ist.storage.log := by simp only [Cluster.diskLog, e1, Server.disk]
    have hd2 : c.diskComp f = op.sp.ist.storage.compacted_idx := by simp only [Cluster.diskComp, e1, Server.disk]
    rw [hd1, hd2, px_quiet h.quiet h.member hf, px_quiet h.quiet hf h.member]
    refine ⟨[], [], ⟨op.sp.current_seq_num, [], k⟩, k, [], op.sp.current_seq_num, k, [], ?_, ?_, rfl, rfl, Nat.le_refl _, nofun⟩
    · refine ⟨by rw [e3.role, if_neg (by rw [e2]; exact hfn)], e3.phase, e2, hfn, Nat.pos_of_ne_zero hpos, e3.buffered, e3.stored hqf.2, rfl, rfl,
        rfl, Nat.le_refl _, by rw [hqf.1]; rfl, fun m hm => ?_, nofun, fun b idx hm => ?_⟩
      · rw [hqf.1] at hm
        cases hm
      · rw [h.replied f hf op e1] at hm
        cases hm
    · exact ⟨slot_pos (hrec.1.accepted _ hf), hrec.1.pids _ hf, h.numbers f hf hfn opL op l1 e1, hrec.1.accepted _ hf, by rw [hq.1]; rfl,
        none, hrec.1.unsent _ hf, nofun⟩
  · simp only [l1]
    intro L _ hL _ v hv
    have := hv _ hL
    rw [hrec.1.accepted _ h.member] at this
    exact Nat.le_of_eq (Option.some.inj this).symm
  · exact fun i hi j hj _ => px_quiet h.quiet hi hj
  · intro P
    have : ((SP.peersOf cc.nodes n.pid).map fun f => (fwd n (fun i => match c.servers i with | .up op => op.sp | .down _ => opL.sp) c.px f).countP P) =
        (SP.peersOf cc.nodes n.pid).map fun _ => 0 := by
      refine List.map_congr_left fun f hf => ?_
      have hf := mem_peers.1 hf
      obtain ⟨op, e1, _⟩ := h.server f hf.1
      simp only [fwd, e1, px_quiet h.quiet hf.1 h.member, (h.quiet.servers _ hf.1 op e1).1]
      rfl
    rw [this]
    simp

/-- The whole configuration is an accept quorum. -/
theorem AcceptQuorum.whole (hv : cc.validate = .ok ()) (hnd : cc.nodes.Nodup) : AcceptQuorum cc cc.nodes := by
  refine ⟨hnd, fun _ h => h, ?_⟩
  have h1 := LeadOf.accept_all hv (Nat.le_refl _)
  unfold Quorum.with Quorum.is_accept_quorum at h1
  cases hq : cc.flexible_quorum with
  | none => rw [hq] at h1; simp only [ge_iff_le, decide_eq_true_eq] at h1 ⊢; omega
  | some q => rw [hq] at h1; simp only [ge_iff_le, decide_eq_true_eq] at h1 ⊢; omega

/-- When everything is done. -/
theorem Cluster.Flows.quiet {c : Cluster E S} {lg : NodeId → List E} {ci : NodeId → Nat} {A : List E} (h : c.Flows cc n k lg ci A)
    (hv : cc.validate = .ok ()) (hnd : cc.nodes.Nodup) (hn : n.pid ∈ cc.nodes) (hk : ∀ i ∈ cc.nodes, ci i + (lg i).length = k) (hq : c.Quiet cc) :
    ∃ X : List E, X.Perm A ∧ c.Settled cc n (k + X.length) ∧
      ∀ i ∈ cc.nodes, (c.servers i).disk.log = lg i ++ X ∧ (c.servers i).disk.compacted_idx = ci i := by
  obtain ⟨sv, h1, X, B, d, h2, h3⟩ := h
  obtain ⟨opL, l1, l2⟩ := h1 _ hn
  have hqL := hq.servers _ hn opL l1
  have hB : B = [] := by rw [← h2.lead.ist.batch, ← l2]; exact hqL.2
  subst hB
  have hoL : (sv n.pid).outgoing = [] := by rw [← l2]; exact hqL.1
  -- every follower has all of the log
  have hf : ∀ f ∈ cc.nodes, f ≠ n.pid → ∃ out, Fol n k (lg f) (ci f) f X [] ⟨(sv f).current_seq_num, X, d⟩ (k + X.length) out (sv f) ∧
      Keeps n f (sv f).current_seq_num (k + X.length) [] (sv n.pid) := by
    intro f hf hfn
    obtain ⟨Xf, Bf, σ, a, out, q, al, ms, hl⟩ := h2.fol f hf hfn
    obtain ⟨op, e1, e2⟩ := h1 f hf
    have hqf := hq.servers _ hf op e1
    have hms : ms = [] := by rw [hl.keeps.outs, hoL]; rfl
    have hout : out = [] := by rw [hl.fol.outs, ← e2, hqf.1]; rfl
    subst hms hout
    have hd := hl.down
    rw [px_quiet hq hn hf] at hd
    simp only [List.map_nil, List.append_nil, Fed.all, Option.some.injEq] at hd
    have hu := hl.up
    rw [px_quiet hq hf hn] at hu
    simp only [List.map_nil, List.append_nil, lastAcc] at hu
    have hBf : Bf = [] := by rw [← hl.fol.ist.batch, ← e2]; exact hqf.2
    subst hBf hd
    have hX : X = Xf := by have := hl.fol.fed; simpa using this
    subst hX
    have ha := hl.fol.accd
    have hs := hl.fol.seq
    simp only at hs
    subst hu ha
    refine ⟨[], ?_, ?_⟩
    · rw [hs]; exact hl.fol
    · rw [hs]; exact hl.keeps
  have hacc : ∀ x ∈ cc.nodes, slot (sv n.pid).ls.accepted_indexes x = some (k + X.length) := by
    intro x hx
    by_cases e : x = n.pid
    · subst e; exact h2.lead.own
    · obtain ⟨_, _, h4⟩ := hf x hx e
      exact h4.acc
  have hd : d = k + X.length := Nat.le_antisymm h2.lead.dec (h2.chosen _ (.whole hv hnd) hn (another hv hnd _) _ hacc)
  subst hd
  refine ⟨X, ?_, ⟨hn, fun i hi => ?_, hq, fun op e => ?_, fun i hi hin oL oF e1 e2 => ?_, fun i hi op e1 => ?_⟩, fun i hi => ?_⟩
  · -- the entries
    have hz : ∀ P : E → Bool, ((SP.peersOf cc.nodes n.pid).map fun f => (fwd n sv c.px f).countP P) = (SP.peersOf cc.nodes n.pid).map fun _ => 0 := by
      intro P
      refine List.map_congr_left fun f hf => ?_
      have hf := mem_peers.1 hf
      obtain ⟨op, e1, e2⟩ := h1 f hf.1
      have ho : (sv f).outgoing = [] := by rw [← e2]; exact (hq.servers _ hf.1 op e1).1
      simp only [fwd, px_quiet hq hf.1 hn, ho]
      rfl
    classical
    rw [List.perm_iff_count]
    intro a
    have := h3 (· == a)
    rw [hz] at this
    simp only [List.append_nil, List.map_const', List.sum_replicate_nat, Nat.mul_zero, Nat.add_zero] at this
    simp only [List.count, this]
  · obtain ⟨op, e1, e2⟩ := h1 i hi
    have hki := hk i hi
    by_cases e : i = n.pid
    · subst e
      have hL := h2.lead
      rw [← e2] at hL
      refine ⟨op, e1, hL.pid, hL.ist.prom, hL.ist.nprom, by rw [if_pos hL.pid, hL.role], hL.phase, hL.ist.acc, hL.ist.dec, ?_, by rw [hL.ist.ccomp, hL.ist.comp],
        by rw [hL.ist.trim, hL.ist.comp], ⟨hL.ist.ss, hL.ist.dss⟩, hL.buf⟩
      rw [hL.ist.log, hL.ist.comp]
      simp only [List.length_append]
      omega
    · obtain ⟨out, hF, _⟩ := hf i hi e
      rw [← e2] at hF
      refine ⟨op, e1, hF.pid, hF.ist.prom, hF.ist.nprom, by rw [if_neg (by rw [hF.pid]; exact e), hF.role], hF.phase, hF.ist.acc, hF.ist.dec, ?_,
        by rw [hF.ist.ccomp, hF.ist.comp], by rw [hF.ist.trim, hF.ist.comp], ⟨hF.ist.ss, hF.ist.dss⟩, hF.buf⟩
      rw [hF.ist.log, hF.ist.comp]
      simp only [List.length_append]
      omega
  · rw [l1] at e
    cases e
    have hL := h2.lead
    rw [l2]
    refine ⟨⟨hL.ballot, hL.quorum, fun i hi => ?_, fun i hi => hL.promised i hi trivial, fun i m hm => (hL.members i m hm).1, hacc, fun i hi => ?_⟩, hL.peers⟩
    · by_cases e : i = n.pid
      · subst e; exact hL.size.2.1
      · obtain ⟨_, _, h4⟩ := hf i hi e
        exact h4.size
    · by_cases e : i = n.pid
      · subst e
        obtain ⟨r, h5, h6⟩ := hL.size.2.2
        rw [h5, h6]
      · obtain ⟨_, _, h4⟩ := hf i hi e
        obtain ⟨r, h5, h6⟩ := h4.lam
        rw [h5]
        cases r with
        | none => rfl
        | some p =>
          obtain ⟨_, p', x, r', h7, _⟩ := h6 p.1 p.2 rfl
          rw [hoL] at h7
          simp at h7
  · obtain ⟨_, _, h4⟩ := hf i hi hin
    obtain ⟨op, e3, e4⟩ := h1 i hi
    rw [l1] at e1
    rw [e3] at e2
    cases e1
    cases e2
    rw [l2, e4]
    exact h4.seq
  · obtain ⟨op', e3, e4⟩ := h1 i hi
    rw [e3] at e1
    cases e1
    by_cases e : i = n.pid
    · subst e; rw [e4]; exact h2.lead.lam
    · obtain ⟨out, hF, _⟩ := hf i hi e
      cases hl : op.sp.latest_accepted_meta with
      | none => rfl
      | some p =>
        rw [e4] at hl
        obtain ⟨_, p', x, r', h7, _⟩ := hF.lam p.1 p.2 hl
        rw [← e4, (hq.servers i hi op e3).1] at h7
        simp at h7
  · obtain ⟨op', e3, e4⟩ := h1 i hi
    rw [e3]
    simp only [Server.disk]
    by_cases e : i = n.pid
    · subst e; rw [e4]; exact ⟨h2.lead.ist.log, h2.lead.ist.comp⟩
    · obtain ⟨out, hF, _⟩ := hf i hi e
      rw [e4]
      exact ⟨hF.ist.log, hF.ist.comp⟩

/-- What `read` shows of the last entries of a settled server. -/
theorem SP.AtRest.read {op : OP E S} (h : op.sp.AtRest n k) {lg X : List E} (hl : op.sp.ist.storage.log = lg ++ X)
    {j : Nat} {e : E} (hj : X[j]? = some e) : op.read (k - X.length + j) = some (some (.decided e)) := by
  have hlen : op.sp.ist.storage.compacted_idx + (lg ++ X).length = k := by rw [← hl]; exact h.log
  have hjl : j < X.length := (List.getElem?_eq_some_iff.1 hj).1
  have hp : k - X.length + j = op.sp.ist.storage.compacted_idx + (lg.length + j) := by simp only [List.length_append] at hlen; omega
  have hpk : op.sp.ist.storage.compacted_idx + (lg.length + j) < k := by simp only [List.length_append] at hlen; omega
  rw [hp]
  have ht : op.sp.ist.get_entry_type (op.sp.ist.storage.compacted_idx + (lg.length + j)) op.sp.ist.storage.compacted_idx k = some .entry := by
    simp only [IStore.get_entry_type, h.noStopSign.1]
    rw [if_neg (by omega)]
    by_cases hl : op.sp.ist.storage.compacted_idx + (lg.length + j) + 1 < k
    · rw [if_pos hl]
    · rw [if_neg hl, if_pos (by omega)]
  have hg : op.sp.ist.storage.get_entries (op.sp.ist.storage.compacted_idx + (lg.length + j)) (op.sp.ist.storage.compacted_idx + (lg.length + j) + 1) = some [e] := by
    simp only [Mem.get_entries, h.trimmed, usub]
    rw [if_pos (by omega), if_pos (by omega)]
    simp only [Option.some.injEq, sliceGet]
    rw [if_pos ⟨by omega, by rw [hl]; simp only [List.length_append]; omega⟩]
    have h1 : op.sp.ist.storage.compacted_idx + (lg.length + j) - op.sp.ist.storage.compacted_idx = lg.length + j := by omega
    have h2 : op.sp.ist.storage.compacted_idx + (lg.length + j) + 1 - op.sp.ist.storage.compacted_idx = lg.length + j + 1 := by omega
    rw [h1, h2, hl]
    have h3 : (lg ++ X)[lg.length + j]? = some e := by rw [List.getElem?_append_right (by omega)]; simpa using hj
    rw [List.drop_take]
    obtain ⟨h4, h5⟩ := List.getElem?_eq_some_iff.1 h3
    rw [List.drop_eq_getElem_cons h4, h5]
    have : lg.length + j + 1 - (lg.length + j) = 1 := by omega
    rw [this]
    rfl
  simp only [OP.read, IStore.read, IStore.startIdx, IStore.endIdx]
  simp only [Nat.add_one_ne_zero, if_false, h.compacted, h.accepted, Nat.add_sub_cancel, ht, IStore.create_read_log_entries, hg, IStore.markDecided, h.decided]
  rw [if_pos hpk]
  rfl

end Omni
