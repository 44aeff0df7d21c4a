import Verif.Proof.Progress.Accept
import Verif.Proof.QuorumRun
import Verif.Props.Held
/-
After the decision: what is still on the way is given up, and everything is at rest.
-/
namespace Omni

variable {E S : Type} [SnapOps E S] {cc : ClusterConfig} {c : Cluster E S} {L : NodeId} {Fs : List NodeId} {e : E}

theorem clear_from (hr : c.PlainReachable cc) (i : NodeId) {ys : List NodeId} (hy : ys.Nodup) :
    ∃ c', Go cc (Action.Helpful (L :: Fs) L e) c c' ∧ c'.servers = c.servers ∧ (∀ y ∈ ys, c'.net i y = []) ∧
      ∀ a b, c.net a b = [] → c'.net a b = [] := by
  obtain ⟨c', h1, h2, h3, h4⟩ := go_each (P := fun ds c1 => c1.servers = c.servers ∧ (∀ y ∈ ds, c1.net i y = []) ∧
      ∀ a b, c.net a b = [] → c1.net a b = []) (e := e) (Fs := Fs) (L := L) hy
    (fun x ds c1 hx _ hr h => by
      have hz : ∀ a b, c1.net a b = [] → (c1.setNet i x []).net a b = [] := by
        intro a b hab
        by_cases h0 : a = i ∧ b = x
        · rw [h0.1, h0.2]; exact Cluster.setNet_self ..
        · rw [Cluster.setNet_other (by
            by_cases ha : a = i
            · exact .inr fun hb => h0 ⟨ha, hb⟩
            · exact .inl ha)]
          exact hab
      refine ⟨_, go_clear i x, h.1, fun y hy => ?_, fun a b hab => hz a b (h.2.2 a b hab)⟩
      rcases List.mem_cons.1 hy with rfl | hy
      · exact Cluster.setNet_self ..
      · exact hz _ _ (h.2.1 y hy)) hr ⟨rfl, nofun, fun _ _ h => h⟩
  exact ⟨c', h1, h2, fun x hx => h3 x (List.mem_reverse.2 hx), h4⟩

theorem clear_pairs (hr : c.PlainReachable cc) {xs : List NodeId} (hx : xs.Nodup) :
    ∃ c', Go cc (Action.Helpful (L :: Fs) L e) c c' ∧ c'.servers = c.servers ∧ ∀ x ∈ xs, ∀ y ∈ xs, c'.net x y = [] := by
  obtain ⟨c', h1, h2, h3⟩ := go_each (P := fun ds c1 => c1.servers = c.servers ∧ ∀ x ∈ ds, ∀ y ∈ xs, c1.net x y = [])
    (e := e) (Fs := Fs) (L := L) hx
    (fun x ds c1 _ _ hr h => by
      obtain ⟨c2, g1, g2, g3, g4⟩ := clear_from (e := e) (L := L) (Fs := Fs) hr x hx
      refine ⟨c2, g1, g2.trans h.1, fun z hz y hy => ?_⟩
      rcases List.mem_cons.1 hz with rfl | hz
      · exact g3 y hy
      · exact g4 _ _ (h.2 z hz y hy)) hr ⟨rfl, nofun⟩
  exact ⟨c', h1, h2, fun x hx => h3 x (List.mem_reverse.2 hx)⟩

theorem take_all (hr : c.PlainReachable cc) (hx : (L :: Fs).Nodup) (hup : ∀ x ∈ L :: Fs, ∃ op, c.servers x = .up op) :
    ∃ c', Go cc (Action.Helpful (L :: Fs) L e) c c' ∧
      ∀ x ∈ L :: Fs, ∃ op, c.servers x = .up op ∧ c'.servers x = .up (op.take_outgoing_messages []).2 := by
  obtain ⟨c', h1, h2, h3⟩ := go_each (P := fun ds c1 => (∀ x ∈ ds, ∃ op, c.servers x = .up op ∧ c1.servers x = .up (op.take_outgoing_messages []).2) ∧
      ∀ x, x ∉ ds → c1.servers x = c.servers x) (e := e) (Fs := Fs) (L := L) hx
    (fun x ds c1 hx hd _ h => by
      obtain ⟨op, hop⟩ := hup x hx
      refine ⟨_, go_take hx ((h.2 x hd).trans hop), fun y hy => ?_, fun y hy => ?_⟩
      · by_cases hyx : y = x
        · subst hyx; exact ⟨op, hop, Cluster.taken_self ..⟩
        · rw [Cluster.taken_other hyx]
          exact h.1 y ((List.mem_cons.1 hy).resolve_left hyx)
      · have hyx : y ≠ x := fun h => hy (h ▸ List.mem_cons_self)
        rw [Cluster.taken_other hyx]
        exact h.2 y fun h => hy (List.mem_cons_of_mem _ h)) hr ⟨nofun, fun _ _ => rfl⟩
  exact ⟨c', h1, fun x hx => h2 x (List.mem_reverse.2 hx)⟩

theorem Cluster.PlainReachable.unheld (hr : c.PlainReachable cc) {i : NodeId} {op : OP E S} (h : c.servers i = .up op)
    (hp : op.sp.phase = .accept) (hs : op.sp.ist.cache.stopsign = none) : op.sp.buffered_proposals = [] := by
  obtain ⟨as, l, -, h2, h3⟩ := hr.loose
  exact (C72_nothing_held_back cc as l h2 i op (by rw [h3.servers]; exact h) hp hs).1

omit [SnapOps E S] in
theorem n_prom_of {s : IStore E S} (h : s.cache.promise = s.storage.prom) (hp : s.cache.promise = n) (h0 : n.pid ≠ 0) :
    s.storage.n_prom = some n := by
  rw [hp] at h
  cases e : s.storage.n_prom with
  | none => exact absurd (by rw [h, Mem.prom, e]; rfl) h0
  | some b => rw [h, Mem.prom, e]; rfl

theorem to_settled (H : Setup E S cc L Fs) (hn : cc.nodes.Nodup) (ha : ∀ x ∈ cc.nodes, x ∈ L :: Fs) (hr : c.PlainReachable cc) :
    ∃ (c' : Cluster E S) (l : List E) (n : Ballot), Go cc (Action.Helpful (L :: Fs) L e) c c' ∧ n.pid = L ∧
      c'.Settled cc n (l ++ [e]).length ∧ ∃ op, c'.servers L = .up op ∧ op.sp.ist.storage.log = l ++ [e] := by
  have hd := H.prep.distinct
  have hnd := List.nodup_cons.1 hd
  have hm := H.prep.members
  obtain ⟨c1, l, n, q, g1, hpid, ⟨opL, u1, u2, u3⟩, hF⟩ := to_rest (e := e) H hr
  have hr1 := hr.go g1 fun _ => Action.Helpful.plain
  obtain ⟨c2, g2, h2⟩ := take_all (e := e) (L := L) (Fs := Fs) hr1 hd fun x hx => by
    rcases List.mem_cons.1 hx with rfl | hx
    · exact ⟨opL, u1⟩
    · obtain ⟨op, h, -⟩ := hF x hx; exact ⟨op, h⟩
  have hr2 := hr1.go g2 fun _ => Action.Helpful.plain
  obtain ⟨c3, g3, h3, h4⟩ := clear_pairs (e := e) (L := L) (Fs := Fs) hr2 hn
  have key : ∀ i ∈ cc.nodes, ∀ op, c3.servers i = .up op → ∃ op1, c1.servers i = .up op1 ∧ op = (op1.take_outgoing_messages []).2 := by
    intro i hi op hop
    obtain ⟨op1, t1, t2⟩ := h2 i (ha i hi)
    rw [h3, t2] at hop
    exact ⟨op1, t1, (Server.up.inj hop).symm⟩
  refine ⟨c3, l, n, g1.trans (g2.trans g3), hpid, ⟨hpid ▸ hm L List.mem_cons_self, fun i hi => ?_, ⟨fun i hi j hj m hm => ?_, fun i hi op hop => ?_⟩,
    fun op hop => ?_, fun i hi hne a b ha' hb => ?_, fun i hi op hop => ?_⟩, ?_⟩
  · obtain ⟨op1, t1, t2⟩ := h2 i (ha i hi)
    have hG := hr1.good H.snap H.pids t1
    obtain ⟨G, hI⟩ := reach_one hr1.reachable
    obtain ⟨-, lg, hC, -⟩ := hI.up t1
    have e0 : op1.sp.ist.storage.compacted_idx = 0 := hC.mir.comp ▸ hG.comp
    have hb := fun h => hr1.unheld t1 h hG.nostop
    have h0 : n.pid ≠ 0 := fun h => H.pids (h ▸ hpid ▸ hm L List.mem_cons_self)
    refine ⟨_, (congrFun h3 i).trans t2, hG.pid, ?_⟩
    rcases List.mem_cons.1 (ha i hi) with rfl | hi'
    · rw [u1] at t1
      cases t1
      refine ⟨u3.prom, n_prom_of hC.mir.prom u3.prom h0, ?_, u3.phase, ?_, u3.dec, ?_, hC.mir.comp, ?_, ⟨hG.nostop, hC.mir.ss ▸ hG.nostop⟩, hb u3.phase⟩
      · show opL.sp.role = if opL.sp.pid = n.pid then _ else _
        rw [if_pos (hG.pid.trans hpid.symm)]; exact u3.role
      · exact hG.len.trans (by rw [u2])
      · show opL.sp.ist.storage.compacted_idx + opL.sp.ist.storage.log.length = _
        rw [e0, u2, Nat.zero_add]
      · exact hG.trim.trans e0.symm
    · obtain ⟨op2, s1, s2⟩ := hF i hi'
      rw [t1] at s1
      cases s1
      refine ⟨s2.prom, n_prom_of hC.mir.prom s2.prom h0, ?_, s2.phase, s2.acc, s2.dec, ?_, hC.mir.comp, ?_, ⟨hG.nostop, hC.mir.ss ▸ hG.nostop⟩, hb s2.phase⟩
      · show op1.sp.role = if op1.sp.pid = n.pid then _ else _
        rw [if_neg (show ¬ op1.sp.pid = n.pid from fun h => hnd.1 (hpid ▸ h ▸ hG.pid.symm ▸ hi'))]; exact s2.role
      · show op1.sp.ist.storage.compacted_idx + op1.sp.ist.storage.log.length = _
        rw [e0, ← hG.len, s2.acc, Nat.zero_add]
      · exact hG.trim.trans e0.symm
  · rw [h4 i hi j hj] at hm; cases hm
  · obtain ⟨op1, t1, rfl⟩ := key i hi op hop
    refine ⟨rfl, ?_⟩
    rcases List.mem_cons.1 (ha i hi) with rfl | hi'
    · rw [u1] at t1; cases t1; exact u3.bat
    · obtain ⟨op2, s1, s2⟩ := hF i hi'
      rw [t1] at s1; cases s1; exact s2.bat
  · obtain ⟨op1, t1, rfl⟩ := key _ (hpid ▸ hm L List.mem_cons_self) op hop
    have hG := hr1.good H.snap H.pids t1
    obtain ⟨G, hI⟩ := reach_one hr1.reachable
    obtain ⟨-, lg, hC, -⟩ := hI.up t1
    rw [hpid, u1] at t1
    cases t1
    refine ⟨⟨u3.num, ?_, hC.maxpid, fun i hi => (u3.proms i).2 ?_, fun i m hi => ?_, fun i hi => u3.acc i ?_, fun i hi => ?_⟩, hG.peers⟩
    · refine hG.quorum.trans ?_
      rw [quorumAt, peers_count hn (hpid ▸ hm L List.mem_cons_self)]
    · simpa using ha i hi
    · exact hm i (by simpa using (u3.proms i).1 ⟨m, hi⟩)
    · simpa using ha i hi
    · have h1 := hC.maxpid i hi
      have h0 : i ≠ 0 := fun h => H.pids (h ▸ hi)
      show slot (List.replicate opL.sp.ls.max_pid none) i = _
      cases i with
      | zero => exact absurd rfl h0
      | succ k => simp only [slot, List.getElem?_replicate]; rw [if_pos (by omega)]
  · obtain ⟨a1, t1, rfl⟩ := key _ (hpid ▸ hm L List.mem_cons_self) a ha'
    obtain ⟨b1, t2, rfl⟩ := key i hi b hb
    rw [hpid, u1] at t1
    cases t1
    have hi' := (List.mem_cons.1 (ha i hi)).resolve_left fun h => hne (h.trans hpid.symm)
    obtain ⟨op2, s1, s2⟩ := hF i hi'
    rw [t2] at s1
    cases s1
    exact (u3.seq i (List.mem_reverse.2 hi')).trans (congrArg some s2.seq.symm)
  · obtain ⟨op1, t1, rfl⟩ := key i hi op hop
    rfl
  · obtain ⟨op1, t1, t2⟩ := h2 L List.mem_cons_self
    rw [u1] at t1
    cases t1
    exact ⟨_, (congrFun h3 L).trans t2, u2⟩

end Omni
