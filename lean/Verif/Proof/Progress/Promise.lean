import Verif.Proof.Progress.Prepare
/-
The Prepare phase: every follower receives the Prepare and its Promise is delivered.
-/
namespace Omni

variable {E S : Type} {L : NodeId} {Fs : List NodeId} {e : E} {n : Ballot} {bp : List E}

theorem SP.LPrep.clear {ps : List NodeId} {op : OP E S} (h : op.sp.LPrep L n bp ps) : op.clearTrail.sp.LPrep L n bp ps :=
  ⟨h.role, h.phase, h.pid, h.num, h.prom, h.buf, h.proms, h.acc, h.out, h.bat⟩

theorem SP.LAcc.clear {ps : List NodeId} {op : OP E S} (h : op.sp.LAcc L n ps) : op.clearTrail.sp.LAcc L n ps := by
  obtain ⟨ds, f, h1, h2, h3, h4⟩ := h.out
  exact ⟨h.role, h.phase, h.pid, h.num, h.prom, h.proms, h.own, h.acc, h.bat, ds, f, h1, h2, h3, fun x hx => by
    obtain ⟨⟨g1, g2, g3, g4, g5⟩, g6⟩ := h4 x hx
    exact ⟨⟨g1, g2, g3, g4, g5⟩, g6⟩⟩

variable [SnapOps E S] {cc : ClusterConfig} {c : Cluster E S}

/-- `F` handles a message of `L` and sends its answers. -/
theorem exchange (H : Setup E S cc L Fs) (hr : c.PlainReachable cc) {F : NodeId} (hF : F ∈ Fs) {m : PaxosMessage E S}
    {rest : List (Message E S)} (hn : c.net L F = .paxos m :: rest) {op : OP E S} (hop : c.servers F = .up op)
    {Q : Unit → SP E S → Prop} (hd : Does (SP.handle m) (op.take_outgoing_messages []).2.clearTrail.sp Q) :
    ∃ (sp' : SP E S) (r : List (Message E S)) (c' : Cluster E S), Q () sp' ∧ Go cc (Action.Helpful (L :: Fs) L e) c c' ∧
      c'.net F L = (sp'.outgoing.filter fun m => decide (m.dst = L)).map Message.paxos ++ r ∧ c'.net L F = [] ∧
      (∃ op', c'.servers F = .up op' ∧ op'.sp = (sp'.take_outgoing_msgs []).2) ∧ sp'.ist.cache.stopsign = none ∧
      ∀ x, x ≠ F → c'.servers x = c.servers x ∧ c'.net L x = c.net L x := by
  have hnd := List.nodup_cons.1 H.prep.distinct
  have hLF : L ≠ F := fun h => hnd.1 (h ▸ hF)
  have hF' : F ∈ L :: Fs := List.mem_cons_of_mem _ hF
  have g1 := go_take (cc := cc) (e := e) hF' hop
  have hr1 := hr.go g1 fun _ => Action.Helpful.plain
  obtain ⟨sp', hQ, g2, -⟩ := go_deliver (e := e) (i := L) (j := F) H hr1 List.mem_cons_self hF' (by rw [Cluster.taken_net_other hLF]; exact hn)
    (Cluster.taken_self ..) nofun hd
  have hr2 := hr1.go g2 fun _ => Action.Helpful.plain
  have hG := hr2.good H.snap H.pids (i := F) (Cluster.setServer_self ..)
  have g3 := go_clear (cc := cc) (L := L) (Fs := Fs) (e := e) (c := ((c.taken F op).setNet L F rest).setServer F (.up { (op.take_outgoing_messages []).2 with sp := sp' })) L F
  have g4 := go_clear (cc := cc) (L := L) (Fs := Fs) (e := e) (c := (((c.taken F op).setNet L F rest).setServer F (.up { (op.take_outgoing_messages []).2 with sp := sp' })).setNet L F []) F L
  have g5 := go_take (cc := cc) (L := L) (Fs := Fs) (e := e) (i := F) (c := ((((c.taken F op).setNet L F rest).setServer F (.up { (op.take_outgoing_messages []).2 with sp := sp' })).setNet L F []).setNet F L [])
    hF' (Cluster.setServer_self ..)
  obtain ⟨r, hnet⟩ := Cluster.taken_net (c := ((((c.taken F op).setNet L F rest).setServer F (.up { (op.take_outgoing_messages []).2 with sp := sp' })).setNet L F []).setNet F L []) F
      { (op.take_outgoing_messages []).2 with sp := sp' } L
  refine ⟨sp', r, _, hQ, g1.trans (g2.trans (g3.trans (g4.trans g5))), ?_, ?_, ⟨_, Cluster.taken_self .., rfl⟩, hG.nostop, fun x hx => ⟨?_, ?_⟩⟩
  · rw [hnet, Cluster.setNet_self, List.nil_append]
  · rw [Cluster.taken_net_other hLF, Cluster.setNet_other (.inl hLF), Cluster.setNet_self]
  · rw [Cluster.taken_other hx, Cluster.setNet_servers, Cluster.setNet_servers, Cluster.setServer_other hx, Cluster.setNet_servers,
      Cluster.taken_other hx]
  · rw [Cluster.taken_net_other hLF, Cluster.setNet_other (.inl hLF), Cluster.setNet_other (.inr hx), Cluster.setServer_net,
      Cluster.setNet_other (.inr hx), Cluster.taken_net_other hLF]

/-- A follower that has promised. -/
structure FPrep (n : Ballot) (s : SP E S) : Prop where
  role : s.role = .follower
  phase : s.phase = .prepare
  prom : s.ist.cache.promise = n
  out : s.outgoing = []
  bat : s.ist.cache.batched_entries = []

/-- Where the proposal is in the leader's log. -/
structure LReady (e : E) (s : SP E S) : Prop where
  dec : s.ist.cache.decided_idx < s.ist.cache.accepted_idx
  last : ∃ l, s.ist.storage.log = l ++ [e]

/-- The state in which `ds` have promised. -/
structure Promising (cc : ClusterConfig) (L : NodeId) (Fs : List NodeId) (e : E) (n : Ballot) (bp : List E) (ds : List NodeId) (c : Cluster E S) : Prop where
  lead : ∃ op, c.servers L = .up op ∧
    ((op.sp.LPrep L n bp ds ∧ (ds ≠ [] → ¬ (quorumAt cc L).is_prepare_quorum op.sp.ls.num_promised = true)) ∨ (op.sp.LAcc L n ds ∧ LReady e op.sp))
  todo : ∀ F ∈ Fs, F ∉ ds → (∃ (p : Prepare) (r : List (Message E S)), p.n = n ∧ c.net L F = .paxos { src := L, dst := F, msg := .prepare p } :: r) ∧
    ∃ op, c.servers F = .up op ∧ op.sp.ist.cache.promise < n
  done : ∀ F ∈ ds, F ∈ Fs ∧ c.net L F = [] ∧ ∃ op, c.servers F = .up op ∧ FPrep n op.sp

theorem promise_step (H : Setup E S cc L Fs) (hpid : n.pid = L) (hl : ∃ l, bp = l ++ [e]) {F : NodeId} {ds : List NodeId} (hF : F ∈ Fs) (hFd : F ∉ ds)
    (hr : c.PlainReachable cc) (h : Promising cc L Fs e n bp ds c) :
    ∃ c', Go cc (Action.Helpful (L :: Fs) L e) c c' ∧ Promising cc L Fs e n bp (F :: ds) c' := by
  have hnd := List.nodup_cons.1 H.prep.distinct
  have hFL : F ≠ L := fun h => hnd.1 (h ▸ hF)
  obtain ⟨opL, hopL, hL⟩ := h.lead
  obtain ⟨⟨p, r, hp, hnet⟩, opF, hopF, hlt⟩ := h.todo F hF hFd
  have hd : Does (SP.handle { src := L, dst := F, msg := .prepare p }) (opF.take_outgoing_messages []).2.clearTrail.sp
      (fun _ t => t.role = .follower ∧ t.phase = .prepare ∧ t.ist.cache.promise = n ∧ t.ist.cache.batched_entries = [] ∧
        ∃ pr : Promise E S, pr.n = n ∧ t.outgoing = [{ src := opF.sp.pid, dst := L, msg := .promise pr }]) := by
    subst hp
    exact SP.does_handle_prepare (s := (opF.take_outgoing_messages []).2.clearTrail.sp) hlt
  obtain ⟨sp', r', c1, ⟨q1, q2, q3, q6, pr, q4, q5⟩, g1, n1, n2, ⟨op1, s1, s2⟩, -, fr⟩ := exchange (e := e) H hr hF hnet hopF hd
  have hr1 := hr.go g1 fun _ => Action.Helpful.plain
  have hpF := (hr.good H.snap H.pids hopF).pid
  rw [q5] at n1
  simp only [List.filter_cons, decide_true, if_true, List.filter_nil, List.map_cons, List.map_nil, List.cons_append, List.nil_append, hpF] at n1
  have hopL1 : c1.servers L = .up opL := by rw [(fr L hFL.symm).1]; exact hopL
  have hGL := hr1.good H.snap H.pids hopL1
  have hLd : L ∉ F :: ds := by
    intro hm
    rcases List.mem_cons.1 hm with e' | hm
    · exact hFL e'.symm
    · exact hnd.1 (h.done L hm).1
  have hbp : bp ≠ [] := by obtain ⟨l, rfl⟩ := hl; simp
  -- the frame of the second half
  have fin : ∀ sp2 : SP E S, Go cc (Action.Helpful (L :: Fs) L e) c1 ((c1.setNet F L r').setServer L (.up { opL with sp := sp2 })) →
      ((sp2.LPrep L n bp (F :: ds) ∧ ¬ (quorumAt cc L).is_prepare_quorum sp2.ls.num_promised = true) ∨ (sp2.LAcc L n (F :: ds) ∧ LReady e sp2)) →
      ∃ c', Go cc (Action.Helpful (L :: Fs) L e) c c' ∧ Promising cc L Fs e n bp (F :: ds) c' := by
    intro sp2 g2 h2
    refine ⟨_, g1.trans g2, ⟨_, Cluster.setServer_self .., ?_⟩, fun G hG hGd => ?_, fun G hG => ?_⟩
    · rcases h2 with ⟨h2, h3⟩ | h2
      · exact .inl ⟨h2, fun _ => h3⟩
      · exact .inr h2
    · have hGF : G ≠ F := fun h => hGd (h ▸ List.mem_cons_self)
      have hGL : G ≠ L := fun h => hnd.1 (h ▸ hG)
      obtain ⟨⟨p', r2, t1, t2⟩, op2, t3, t4⟩ := h.todo G hG fun h => hGd (List.mem_cons_of_mem _ h)
      refine ⟨⟨p', r2, t1, ?_⟩, op2, ?_, t4⟩
      · rw [Cluster.setServer_net, Cluster.setNet_other (.inl hFL.symm), (fr G hGF).2]; exact t2
      · rw [Cluster.setServer_other hGL, Cluster.setNet_servers, (fr G hGF).1]; exact t3
    · by_cases hGF : G = F
      · subst hGF
        refine ⟨hF, ?_, op1, ?_, ?_⟩
        · rw [Cluster.setServer_net, Cluster.setNet_other (.inl hFL.symm)]; exact n2
        · rw [Cluster.setServer_other hFL, Cluster.setNet_servers]; exact s1
        · rw [s2]; exact ⟨q1, q2, q3, rfl, q6⟩
      · obtain ⟨t1, t2, op2, t3, t4⟩ := h.done G ((List.mem_cons.1 hG).resolve_left hGF)
        have hGL : G ≠ L := fun h => hnd.1 (h ▸ t1)
        refine ⟨t1, ?_, op2, ?_, t4⟩
        · rw [Cluster.setServer_net, Cluster.setNet_other (.inl hFL.symm), (fr G hGF).2]; exact t2
        · rw [Cluster.setServer_other hGL, Cluster.setNet_servers, (fr G hGF).1]; exact t3
  rcases hL with ⟨hL, -⟩ | ⟨hL, hy⟩
  · obtain ⟨sp2, h2, g2, h3⟩ := go_deliver (e := e) (i := F) (j := L) H hr1 (List.mem_cons_of_mem _ hF) List.mem_cons_self n1 hopL1
      (by rw [hL.out]; nofun) (SP.does_promise_prep H.snap hL.clear hbp hGL.nobuf hpid hFd hLd q4)
    have hr2 := hr1.go g2 fun _ => Action.Helpful.plain
    have hG2 := hr2.good H.snap H.pids (i := L) (Cluster.setServer_self ..)
    rcases h2 hG2.nostop with ⟨h4, h5, h6⟩ | ⟨h4, d, h5, h6⟩
    · refine fin sp2 g2 (.inl ⟨h4, ?_⟩)
      have : opL.clearTrail.sp.ls.quorum = quorumAt cc L := hGL.quorum
      rw [← this]; exact h6
    · refine fin sp2 g2 (.inr ⟨h4, ?_, ?_⟩)
      · have e1 : sp2.ist.cache.accepted_idx = sp2.ist.storage.log.length := hG2.len
        have e2 : sp2.ist.cache.decided_idx = sp2.ist.storage.ld := hG2.ld
        have e3 := h3 d h5
        rw [e1, e2, h6]
        have : 0 < bp.length := List.length_pos_iff.2 hbp
        simp only [List.length_append]
        omega
      · obtain ⟨l, rfl⟩ := hl
        exact ⟨d.log ++ l, by rw [h6]; simp⟩
  · obtain ⟨ds', f, o1, o2, o3, o4⟩ := hL.out
    obtain ⟨sp2, h2, g2, -⟩ := go_deliver (e := e) (i := F) (j := L) H hr1 (List.mem_cons_of_mem _ hF) List.mem_cons_self n1 hopL1
      (by
        rw [o3]
        intro x hx a
        obtain ⟨y, -, rfl⟩ := List.mem_map.1 hx
        nofun) (SP.does_promise_acc H.snap hL.clear hFd q4)
    refine fin sp2 g2 (.inr ⟨h2.1, ?_, ?_⟩)
    · rw [h2.2]; exact hy.dec
    · rw [h2.2]; exact hy.last

/-- All promises are in. -/
theorem to_accepting (H : Setup E S cc L Fs) (hr : c.PlainReachable cc) (h : Preparing L Fs e n bp c) :
    ∃ c', Go cc (Action.Helpful (L :: Fs) L e) c c' ∧ ∃ op, c'.servers L = .up op ∧ op.sp.LAcc L n Fs.reverse ∧ LReady e op.sp ∧
      ∀ F ∈ Fs, c'.net L F = [] ∧ ∃ op, c'.servers F = .up op ∧ FPrep n op.sp := by
  have hnd := List.nodup_cons.1 H.prep.distinct
  obtain ⟨opL, h1, h2⟩ := h.lead
  obtain ⟨c', g, hP⟩ := go_each (P := Promising cc L Fs e n bp) (e := e) (Fs := Fs) (L := L) hnd.2
    (fun x ds c hx hd hr hp => promise_step H h.pid h.last hx hd hr hp) hr
    ⟨⟨opL, h1, .inl ⟨h2, fun h => absurd rfl h⟩⟩, fun F hF _ => h.fol F hF, nofun⟩
  refine ⟨c', g, ?_⟩
  have hr' := hr.go g fun _ => Action.Helpful.plain
  obtain ⟨op, s1, s2⟩ := hP.lead
  refine ⟨op, s1, ?_⟩
  have hF : ∀ F ∈ Fs, c'.net L F = [] ∧ ∃ op, c'.servers F = .up op ∧ FPrep n op.sp := fun F hF =>
    (hP.done F (List.mem_reverse.2 hF)).2
  rcases s2 with ⟨s2, s3⟩ | ⟨s2, s3⟩
  · refine absurd ?_ (s3 ?_)
    · apply H.prepare
      refine le_count_slots H.prep.distinct fun x hx => ?_
      obtain ⟨m, hm⟩ := (s2.proms x).2 (by simpa using hx)
      exact ⟨_, hm, rfl⟩
    · have := H.two
      intro hn
      have : Fs = [] := by simpa using hn
      subst this
      simp at *
  · exact ⟨s2, s3, hF⟩

end Omni
