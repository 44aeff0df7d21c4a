import Verif.Proof.Progress.Promise
/-
The Accept phase: the followers are synchronised, their Accepted messages are delivered, the leader decides and tells them.
-/
namespace Omni

variable {E S : Type} {L : NodeId} {Fs : List NodeId} {e : E} {n : Ballot} {bp : List E} {K : Nat} {q : NodeId → SeqNum}

theorem SP.LWait.clear {ps as : List NodeId} {op : OP E S} (h : op.sp.LWait L n K ps q as) : op.clearTrail.sp.LWait L n K ps q as :=
  ⟨h.role, h.phase, h.pid, h.num, h.proms, h.dec, h.seq, h.lat, h.acc, h.out, h.prom, h.bat⟩

theorem SP.LDone.clear {ps as : List NodeId} {op : OP E S} (h : op.sp.LDone L n K ps q as) : op.clearTrail.sp.LDone L n K ps q as :=
  ⟨⟨h.role, h.phase, h.num, h.dec, h.proms, h.seq, h.acc, h.prom, h.bat⟩, h.out⟩

variable [SnapOps E S] {cc : ClusterConfig} {c : Cluster E S}

/-- An AcceptSync that brings its receiver to length `K`. -/
structure BringsTo (n : Ballot) (K : Nat) (a : AcceptSync E S) : Prop where
  n : a.n = n
  dec : a.decided_idx < K
  len : a.log_sync.sync_idx + a.log_sync.suffix.length = K

/-- The leader sends the AcceptSyncs. -/
theorem to_waiting (H : Setup E S cc L Fs) (hr : c.PlainReachable cc) {op : OP E S} (hop : c.servers L = .up op)
    (hA : op.sp.LAcc L n Fs.reverse) (hy : LReady e op.sp) (hn : ∀ F ∈ Fs, c.net L F = [])
    (hf : ∀ F ∈ Fs, ∃ op, c.servers F = .up op ∧ FPrep n op.sp) :
    ∃ f : NodeId → AcceptSync E S, Go cc (Action.Helpful (L :: Fs) L e) c (c.taken L op) ∧
      (op.take_outgoing_messages []).2.sp.LWait L n op.sp.ist.storage.log.length Fs.reverse (fun x => (f x).seq_num) [] ∧
      ∀ F ∈ Fs, BringsTo n op.sp.ist.storage.log.length (f F) ∧
        ∃ r, (c.taken L op).net L F = .paxos { src := L, dst := F, msg := .acceptSync (f F) } :: r := by
  have hnd := List.nodup_cons.1 H.prep.distinct
  have hG := hr.good H.snap H.pids hop
  obtain ⟨ds, f, o1, o2, o3, o4⟩ := hA.out
  have hds : ∀ F ∈ Fs, F ∈ ds := fun F hF => (o2 F).2 (List.mem_reverse.2 hF)
  refine ⟨f, go_take List.mem_cons_self hop, ⟨hA.role, hA.phase, hA.pid, hA.num, hA.proms, ?_, fun x hx => ?_, fun x r hx => ?_, fun x hx => ?_, rfl, hA.prom, hA.bat⟩, fun F hF => ⟨?_, ?_⟩⟩
  · have := hy.dec
    rw [hG.len] at this
    exact this
  · exact (o4 x ((o2 x).2 hx)).2
  · exact slot_replicate hx
  · rw [List.mem_singleton.1 hx]
    exact hA.own.trans (by rw [hG.len])
  · obtain ⟨⟨a1, a2, a3, a4, a5⟩, a6⟩ := o4 F (hds F hF)
    obtain ⟨G, hI⟩ := reach_one hr.reachable
    obtain ⟨hv, lg, hC, hR⟩ := hI.up hop
    obtain ⟨d1, d2, -⟩ := disk_facts hC.disk hG.trim (hC.mir.ss ▸ hG.nostop)
    have hR : LeadAcc cc L (c.pre L) (fun _ => some lg) G op.sp lg := by
      unfold RoleInv at hR
      rw [hA.role, hA.phase] at hR
      exact hR
    have hmem : ({ src := L, dst := F, msg := .acceptSync (f F) } : PaxosMessage E S) ∈ c.pre L F ++ op.sp.outgoing :=
      List.mem_append_right _ (by rw [o3]; exact List.mem_map.2 ⟨F, hds F hF, rfl⟩)
    have hb := ((hC.out F).msg _ hmem).body (fun n' q' e => by
      cases e
      obtain ⟨opF, f1, f2⟩ := hf F hF
      obtain ⟨-, lgF, hCF, -⟩ := hI.up f1
      refine ⟨hI.alive _ _ _ rfl, fun ⟨b, g1, g2⟩ => ?_⟩
      have g3 := hCF.disk.precMax b g2
      rw [← hCF.mir.prom, f2.prom, ← a1] at g3
      exact Ballot.lt_irrefl _ (Ballot.lt_of_lt_of_le g1 g3))
    obtain ⟨m, hm⟩ := (hA.proms F).2 (List.mem_cons_of_mem _ (List.mem_reverse.2 hF))
    have he := (hR.ends F m lg _ (fun h => hnd.1 (h ▸ hF)) hm rfl a6).1 _ (SeqNum.le_refl _)
    rw [hA.num, ← a1] at he
    have hc := hb.2.2.2.1
    simp only [he] at hc
    have hle : (f F).log_sync.sync_idx ≤ lg.es.length := hc.resolve_right fun h => h d2
    refine ⟨a1, ?_, ?_⟩
    · rw [a2, ← hG.len]; exact hy.dec
    · rw [a5, hG.trim, List.length_drop, d1]
      omega
  · obtain ⟨r, hnet⟩ := Cluster.taken_net (c := c) L op F
    obtain ⟨r', hf⟩ := filter_head (L := L) (g := fun x => (.acceptSync (f x) : PaxosMsg E S)) (hds F hF)
    refine ⟨r'.map Message.paxos ++ r, ?_⟩
    rw [hnet, hn F hF, o3, hf]
    rfl

/-- A follower that has accepted everything. -/
structure FAcc (n : Ballot) (K : Nat) (q : SeqNum) (s : SP E S) : Prop where
  role : s.role = .follower
  phase : s.phase = .accept
  prom : s.ist.cache.promise = n
  acc : s.ist.cache.accepted_idx = K
  dec : s.ist.cache.decided_idx < K
  seq : s.current_seq_num = q
  out : s.outgoing = []
  bat : s.ist.cache.batched_entries = []

/-- A follower that has decided everything. -/
structure FRest (n : Ballot) (K : Nat) (q : SeqNum) (s : SP E S) : Prop where
  role : s.role = .follower
  phase : s.phase = .accept
  prom : s.ist.cache.promise = n
  acc : s.ist.cache.accepted_idx = K
  dec : s.ist.cache.decided_idx = K
  seq : s.current_seq_num = { q with counter := q.counter + 1 }
  bat : s.ist.cache.batched_entries = []

/-- The state in which the Accepted messages of `as` have been delivered. -/
structure Accepting (cc : ClusterConfig) (L : NodeId) (Fs : List NodeId) (n : Ballot) (lg : List E) (f : NodeId → AcceptSync E S)
    (as : List NodeId) (c : Cluster E S) : Prop where
  lead : ∃ op, c.servers L = .up op ∧ op.sp.ist.storage.log = lg ∧
    ((op.sp.LWait L n lg.length Fs.reverse (fun x => (f x).seq_num) as ∧
      (as ≠ [] → ¬ (quorumAt cc L).is_accept_quorum ((op.sp.ls.accepted_indexes.filter fun la => decide (la ≥ lg.length)).length) = true)) ∨
     op.sp.LDone L n lg.length Fs.reverse (fun x => (f x).seq_num) as)
  todo : ∀ F ∈ Fs, F ∉ as → (∃ r, c.net L F = .paxos { src := L, dst := F, msg := .acceptSync (f F) } :: r) ∧
    ∃ op, c.servers F = .up op ∧ FPrep n op.sp
  done : ∀ F ∈ as, F ∈ Fs ∧ c.net L F = [] ∧ ∃ op, c.servers F = .up op ∧ FAcc n lg.length (f F).seq_num op.sp

theorem accept_step (H : Setup E S cc L Fs) (hpid : n.pid = L) {lg : List E} {f : NodeId → AcceptSync E S} (hf : ∀ F ∈ Fs, BringsTo n lg.length (f F))
    {F : NodeId} {as : List NodeId} (hF : F ∈ Fs) (hFd : F ∉ as) (hr : c.PlainReachable cc) (h : Accepting cc L Fs n lg f as c) :
    ∃ c', Go cc (Action.Helpful (L :: Fs) L e) c c' ∧ Accepting cc L Fs n lg f (F :: as) c' := by
  have hnd := List.nodup_cons.1 H.prep.distinct
  have hFL : F ≠ L := fun h => hnd.1 (h ▸ hF)
  obtain ⟨opL, hopL, hlg, hL⟩ := h.lead
  obtain ⟨⟨r, hnet⟩, opF, hopF, hfp⟩ := h.todo F hF hFd
  obtain ⟨y1, y2, y3⟩ := hf F hF
  obtain ⟨sp', r', c1, hQ, g1, n1, n2, ⟨op1, s1, s2⟩, hns, fr⟩ := exchange (e := e) H hr hF hnet hopF
    (SP.does_acceptsync (s := (opF.take_outgoing_messages []).2.clearTrail.sp) (a := f F) hfp.role hfp.phase (hfp.prom.trans y1.symm) L)
  obtain ⟨q1, q2, q3, q4, q5, q6, q8, fw, q7⟩ := hQ hns
  have hr1 := hr.go g1 fun _ => Action.Helpful.plain
  have hpF : (opF.take_outgoing_messages []).2.clearTrail.sp.pid = F := (hr.good H.snap H.pids hopF).pid
  have hK : sp'.ist.cache.accepted_idx = lg.length := q4.trans y3
  have n1' : c1.net F L = (fw.filter fun m => decide (m.dst = L)).map Message.paxos ++
      (.paxos { src := F, dst := L, msg := .accepted { n, accepted_idx := lg.length } } :: r') := by
    rw [n1, q7, hpF, hK, y1]
    have : (opF.take_outgoing_messages []).2.clearTrail.sp.outgoing = [] := rfl
    rw [this]
    simp [List.filter_append]
  have g2 := go_drop (cc := cc) (L := L) (Fs := Fs) (e := e) _ n1'
  have hr2 := hr1.go g2 fun _ => Action.Helpful.plain
  have hopL2 : (c1.setNet F L (.paxos { src := F, dst := L, msg := .accepted { n, accepted_idx := lg.length } } :: r')).servers L = .up opL := by
    rw [Cluster.setNet_servers, (fr L hFL.symm).1]; exact hopL
  have hGL := hr2.good H.snap H.pids hopL2
  have fin : ∀ sp2 : SP E S, Go cc (Action.Helpful (L :: Fs) L e)
        (c1.setNet F L (.paxos { src := F, dst := L, msg := .accepted { n, accepted_idx := lg.length } } :: r'))
        (((c1.setNet F L (.paxos { src := F, dst := L, msg := .accepted { n, accepted_idx := lg.length } } :: r')).setNet F L r').setServer L
          (.up { opL with sp := sp2 })) → sp2.ist.storage.log = lg →
      ((sp2.LWait L n lg.length Fs.reverse (fun x => (f x).seq_num) (F :: as) ∧
        ¬ (quorumAt cc L).is_accept_quorum ((sp2.ls.accepted_indexes.filter fun la => decide (la ≥ lg.length)).length) = true) ∨
       sp2.LDone L n lg.length Fs.reverse (fun x => (f x).seq_num) (F :: as)) →
      ∃ c', Go cc (Action.Helpful (L :: Fs) L e) c c' ∧ Accepting cc L Fs n lg f (F :: as) c' := by
    intro sp2 g3 hl h2
    refine ⟨_, g1.trans (g2.trans g3), ⟨_, Cluster.setServer_self .., hl, ?_⟩, fun G hG hGd => ?_, fun G hG => ?_⟩
    · rcases h2 with ⟨h2, h3⟩ | h2
      · exact .inl ⟨h2, fun _ => h3⟩
      · exact .inr h2
    · have hGF : G ≠ F := fun h => hGd (h ▸ List.mem_cons_self)
      have hGL : G ≠ L := fun h => hnd.1 (h ▸ hG)
      obtain ⟨⟨r2, t2⟩, op2, t3, t4⟩ := h.todo G hG fun h => hGd (List.mem_cons_of_mem _ h)
      refine ⟨⟨r2, ?_⟩, op2, ?_, t4⟩
      · rw [Cluster.setServer_net, Cluster.setNet_other (.inl hFL.symm), Cluster.setNet_other (.inl hFL.symm), (fr G hGF).2]; exact t2
      · rw [Cluster.setServer_other hGL, Cluster.setNet_servers, Cluster.setNet_servers, (fr G hGF).1]; exact t3
    · by_cases hGF : G = F
      · subst hGF
        refine ⟨hF, ?_, op1, ?_, ?_⟩
        · rw [Cluster.setServer_net, Cluster.setNet_other (.inl hFL.symm), Cluster.setNet_other (.inl hFL.symm)]; exact n2
        · rw [Cluster.setServer_other hFL, Cluster.setNet_servers, Cluster.setNet_servers]; exact s1
        · rw [s2]
          refine ⟨q1, q2, q3.trans y1, hK, ?_, q6, rfl, q8.trans hfp.bat⟩
          exact lt_of_eq_of_lt q5 y2
      · obtain ⟨t1, t2, op2, t3, t4⟩ := h.done G ((List.mem_cons.1 hG).resolve_left hGF)
        have hGL : G ≠ L := fun h => hnd.1 (h ▸ t1)
        refine ⟨t1, ?_, op2, ?_, t4⟩
        · rw [Cluster.setServer_net, Cluster.setNet_other (.inl hFL.symm), Cluster.setNet_other (.inl hFL.symm), (fr G hGF).2]; exact t2
        · rw [Cluster.setServer_other hGL, Cluster.setNet_servers, Cluster.setNet_servers, (fr G hGF).1]; exact t3
  have hLr : L ∉ Fs.reverse := fun h => hnd.1 (List.mem_reverse.1 h)
  rcases hL with ⟨hL, -⟩ | hL
  · obtain ⟨sp2, h2, g3, -⟩ := go_deliver (e := e) (i := F) (j := L) H hr2 (List.mem_cons_of_mem _ hF) List.mem_cons_self (Cluster.setNet_self ..) hopL2
      (by rw [hL.out]; nofun) (SP.does_accepted_wait hL.clear hpid hLr F)
    have hq : opL.clearTrail.sp.ls.quorum = quorumAt cc L := hGL.quorum
    rcases h2 with ⟨h4, h5, h6, h7⟩ | ⟨h4, h5⟩
    · refine fin sp2 g3 (by rw [h6]; exact hlg) (.inl ⟨h4, ?_⟩)
      rw [← hq]; exact h7
    · exact fin sp2 g3 (by rw [h5]; exact hlg) (.inr h4)
  · obtain ⟨ds', o1, o2, o3⟩ := hL.out
    obtain ⟨sp2, h2, g3, -⟩ := go_deliver (e := e) (i := F) (j := L) H hr2 (List.mem_cons_of_mem _ hF) List.mem_cons_self (Cluster.setNet_self ..) hopL2
      (by
        rw [o3]
        intro x hx a
        obtain ⟨y, -, rfl⟩ := List.mem_map.1 hx
        nofun) (SP.does_accepted_done hL.clear F)
    exact fin sp2 g3 (by rw [h2.2]; exact hlg) (.inr h2.1)

/-- The state in which `ds` know the decision. -/
structure Deciding (L : NodeId) (Fs : List NodeId) (n : Ballot) (lg : List E) (f : NodeId → AcceptSync E S)
    (ds : List NodeId) (c : Cluster E S) : Prop where
  lead : ∃ op, c.servers L = .up op ∧ op.sp.ist.storage.log = lg ∧ op.sp.LRest L n lg.length Fs.reverse (fun x => (f x).seq_num) Fs.reverse
  todo : ∀ F ∈ Fs, F ∉ ds → (∃ r, c.net L F = .paxos { src := L, dst := F, msg := .decide { n, seq_num := { (f F).seq_num with counter := (f F).seq_num.counter + 1 }, decided_idx := lg.length } } :: r) ∧
    ∃ op, c.servers F = .up op ∧ FAcc n lg.length (f F).seq_num op.sp
  done : ∀ F ∈ ds, ∃ op, c.servers F = .up op ∧ FRest n lg.length (f F).seq_num op.sp

theorem decide_step (H : Setup E S cc L Fs) {lg : List E} {f : NodeId → AcceptSync E S}
    {F : NodeId} {ds : List NodeId} (hF : F ∈ Fs) (hFd : F ∉ ds) (hr : c.PlainReachable cc) (h : Deciding L Fs n lg f ds c) :
    ∃ c', Go cc (Action.Helpful (L :: Fs) L e) c c' ∧ Deciding L Fs n lg f (F :: ds) c' := by
  have hnd := List.nodup_cons.1 H.prep.distinct
  have hFL : F ≠ L := fun h => hnd.1 (h ▸ hF)
  obtain ⟨⟨r, hnet⟩, opF, hopF, hfa⟩ := h.todo F hF hFd
  obtain ⟨sp2, h2, g, -⟩ := go_deliver (e := e) (i := L) (j := F) H hr List.mem_cons_self (List.mem_cons_of_mem _ hF) hnet hopF
    (by rw [hfa.out]; nofun) (SP.does_decide (s := opF.clearTrail.sp) hfa.phase hfa.prom (by
      have : opF.clearTrail.sp.current_seq_num = (f F).seq_num := hfa.seq
      rw [this]) hfa.dec (Nat.le_of_eq hfa.acc.symm))
  refine ⟨_, g, ?_, fun G hG hGd => ?_, fun G hG => ?_⟩
  · obtain ⟨op, h3, h4⟩ := h.lead
    exact ⟨op, by rw [Cluster.setServer_other hFL.symm, Cluster.setNet_servers]; exact h3, h4⟩
  · have hGF : G ≠ F := fun h => hGd (h ▸ List.mem_cons_self)
    obtain ⟨⟨r2, t2⟩, op2, t3, t4⟩ := h.todo G hG fun h => hGd (List.mem_cons_of_mem _ h)
    refine ⟨⟨r2, ?_⟩, op2, ?_, t4⟩
    · rw [Cluster.setServer_net, Cluster.setNet_other (.inr hGF)]; exact t2
    · rw [Cluster.setServer_other hGF, Cluster.setNet_servers]; exact t3
  · by_cases hGF : G = F
    · subst hGF
      refine ⟨_, Cluster.setServer_self .., ?_⟩
      rw [h2]
      exact ⟨hfa.role, hfa.phase, hfa.prom, hfa.acc, rfl, rfl, hfa.bat⟩
    · obtain ⟨op2, t3, t4⟩ := h.done G ((List.mem_cons.1 hG).resolve_left hGF)
      exact ⟨op2, by rw [Cluster.setServer_other hGF, Cluster.setNet_servers]; exact t3, t4⟩

/-- From any state to one in which everybody has decided a log that ends with the proposal. -/
theorem to_rest (H : Setup E S cc L Fs) (hr : c.PlainReachable cc) :
    ∃ (c' : Cluster E S) (l : List E) (n : Ballot) (q : NodeId → SeqNum), Go cc (Action.Helpful (L :: Fs) L e) c c' ∧ n.pid = L ∧
      (∃ op, c'.servers L = .up op ∧ op.sp.ist.storage.log = l ++ [e] ∧ op.sp.LRest L n (l ++ [e]).length Fs.reverse q Fs.reverse) ∧
      ∀ F ∈ Fs, ∃ op, c'.servers F = .up op ∧ FRest n (l ++ [e]).length (q F) op.sp := by
  have hnd := List.nodup_cons.1 H.prep.distinct
  have ne : ∀ F ∈ Fs, F ≠ L := fun F hF h => hnd.1 (h ▸ hF)
  obtain ⟨c1, n, bp, g1, hp⟩ := to_preparing (e := e) H hr
  have hr1 := hr.go g1 fun _ => Action.Helpful.plain
  obtain ⟨c2, g2, op2, h2, hA, hy, hF2⟩ := to_accepting H hr1 hp
  have hr2 := hr1.go g2 fun _ => Action.Helpful.plain
  obtain ⟨f, g3, hW, hF3⟩ := to_waiting H hr2 h2 hA hy (fun F hF => (hF2 F hF).1) fun F hF => (hF2 F hF).2
  have hr3 := hr2.go g3 fun _ => Action.Helpful.plain
  obtain ⟨l, hl⟩ := hy.last
  obtain ⟨c4, g4, h4⟩ := go_each (P := Accepting cc L Fs n op2.sp.ist.storage.log f) (e := e) (Fs := Fs) (L := L) hnd.2
    (fun x ds c hx hd hr h => accept_step H hp.pid (fun F hF => (hF3 F hF).1) hx hd hr h) hr3
    ⟨⟨_, Cluster.taken_self .., rfl, .inl ⟨hW, fun h => absurd rfl h⟩⟩, fun F hF _ => ⟨(hF3 F hF).2, by
      rw [Cluster.taken_other (ne F hF)]; exact (hF2 F hF).2⟩, nofun⟩
  have hr4 := hr3.go g4 fun _ => Action.Helpful.plain
  obtain ⟨op4, s4, l4, hL4⟩ := h4.lead
  have hD : op4.sp.LDone L n op2.sp.ist.storage.log.length Fs.reverse (fun x => (f x).seq_num) Fs.reverse := by
    rcases hL4 with ⟨hL4, hq⟩ | hL4
    · refine absurd (H.accept (le_count_slots H.acc.distinct fun x hx => ⟨_, hL4.acc x (by simpa using hx), by simp⟩)) (hq ?_)
      have := H.two
      intro hn
      have : Fs = [] := by simpa using hn
      subst this
      simp at *
    · exact hL4
  obtain ⟨ds, o1, o2, o3⟩ := hD.out
  have g5 := go_take (cc := cc) (e := e) (Fs := Fs) List.mem_cons_self s4
  have hr5 := hr4.go g5 fun _ => Action.Helpful.plain
  obtain ⟨c6, g6, h6⟩ := go_each (P := Deciding L Fs n op2.sp.ist.storage.log f) (e := e) (Fs := Fs) (L := L) hnd.2
    (fun x ds c hx hd hr h => decide_step H hx hd hr h) hr5
    ⟨⟨_, Cluster.taken_self .., l4, ⟨hD.role, hD.phase, hD.num, hD.dec, hD.proms, hD.seq, hD.acc, hD.prom, hD.bat⟩⟩, fun F hF _ => by
      obtain ⟨t1, t2, op, t3, t4⟩ := h4.done F (List.mem_reverse.2 hF)
      obtain ⟨r, hnet⟩ := Cluster.taken_net (c := c4) L op4 F
      obtain ⟨r', hf⟩ := filter_head (L := L) (E := E) (S := S) (g := fun x => .decide { n, seq_num := { (f x).seq_num with counter := (f x).seq_num.counter + 1 }, decided_idx := op2.sp.ist.storage.log.length })
        ((o2 F).2 (List.mem_reverse.2 hF))
      refine ⟨⟨r'.map Message.paxos ++ r, ?_⟩, op, by rw [Cluster.taken_other (ne F hF)]; exact t3, t4⟩
      rw [hnet, t2, o3, hf]
      rfl, nofun⟩
  refine ⟨c6, l, n, fun x => (f x).seq_num, g1.trans (g2.trans (g3.trans (g4.trans (g5.trans g6)))), hp.pid, ?_, fun F hF => ?_⟩
  · rw [← hl]; exact h6.lead
  · rw [← hl]; exact h6.done F (List.mem_reverse.2 hF)

theorem to_decided (H : Setup E S cc L Fs) (hr : c.PlainReachable cc) :
    ∃ (c' : Cluster E S) (l : List E), Go cc (Action.Helpful (L :: Fs) L e) c c' ∧
      (∃ op, c'.servers L = .up op ∧ op.sp.ist.storage.log = l ++ [e] ∧ op.sp.ist.cache.decided_idx = (l ++ [e]).length) ∧
      ∀ F ∈ Fs, ∃ op, c'.servers F = .up op ∧ op.sp.ist.cache.decided_idx = (l ++ [e]).length ∧ op.sp.ist.cache.accepted_idx = (l ++ [e]).length := by
  obtain ⟨c', l, n, q, h1, -, ⟨op, h2, h3, h4⟩, h5⟩ := to_rest (e := e) H hr
  refine ⟨c', l, h1, ⟨op, h2, h3, h4.dec⟩, fun F hF => ?_⟩
  obtain ⟨op, h6, h7⟩ := h5 F hF
  exact ⟨op, h6, h7.dec, h7.acc⟩

end Omni
