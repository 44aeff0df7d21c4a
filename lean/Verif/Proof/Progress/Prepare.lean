import Verif.Proof.Progress.Go
/-
From an arbitrary state to a leader in the Prepare phase of a fresh ballot, whose Prepares are on their way.
-/
namespace Omni

variable {E S : Type} [SnapOps E S] {cc : ClusterConfig} {c : Cluster E S} {L : NodeId} {Fs : List NodeId} {e : E}

/-- Do something with each of `xs`. -/
theorem go_each {P : List NodeId → Cluster E S → Prop} {xs : List NodeId} (hx : xs.Nodup)
    (step : ∀ x ds (c : Cluster E S), x ∈ xs → x ∉ ds → c.PlainReachable cc → P ds c →
      ∃ c', Go cc (Action.Helpful (L :: Fs) L e) c c' ∧ P (x :: ds) c')
    (hr : c.PlainReachable cc) (h : P [] c) : ∃ c', Go cc (Action.Helpful (L :: Fs) L e) c c' ∧ P xs.reverse c' := by
  suffices key : ∀ (ys ds : List NodeId) (c : Cluster E S), (∀ y ∈ ys, y ∈ xs ∧ y ∉ ds) → ys.Nodup → c.PlainReachable cc → P ds c →
      ∃ c', Go cc (Action.Helpful (L :: Fs) L e) c c' ∧ P (ys.reverse ++ ds) c' by
    have := key xs [] c (fun y hy => ⟨hy, by simp⟩) hx hr h
    simpa using this
  intro ys
  induction ys with
  | nil => intro ds c _ _ _ h; exact ⟨c, Go.refl, h⟩
  | cons y ys ih =>
    intro ds c hy hn hr h
    obtain ⟨h1, h2⟩ := hy y List.mem_cons_self
    have hn := List.nodup_cons.1 hn
    obtain ⟨c1, g1, p1⟩ := step y ds c h1 h2 hr h
    obtain ⟨c2, g2, p2⟩ := ih (y :: ds) c1 (fun z hz => ⟨(hy z (List.mem_cons_of_mem _ hz)).1, fun hm => by
      rcases List.mem_cons.1 hm with rfl | hm
      · exact hn.1 hz
      · exact (hy z (List.mem_cons_of_mem _ hz)).2 hm⟩) hn.2 (hr.go g1 fun _ => Action.Helpful.plain) p1
    exact ⟨c2, g1.trans g2, by simpa using p2⟩

omit [SnapOps E S] in
theorem filter_head {g : NodeId → PaxosMsg E S} {xs : List NodeId} {F : NodeId} (hF : F ∈ xs) :
    ∃ r, (xs.map fun x => ({ src := L, dst := x, msg := g x } : PaxosMessage E S)).filter (fun m => decide (m.dst = F)) =
      { src := L, dst := F, msg := g F } :: r := by
  induction xs with
  | nil => cases hF
  | cons x xs ih =>
    by_cases h : x = F
    · subst h; exact ⟨_, by simp [List.filter_cons]; rfl⟩
    · obtain ⟨r, hr⟩ := ih ((List.mem_cons.1 hF).resolve_left (Ne.symm h))
      exact ⟨r, by simp only [List.map_cons, List.filter_cons, h, decide_false, Bool.false_eq_true, if_false]; exact hr⟩

/-! ### Everybody is up -/

theorem all_up (H : Setup E S cc L Fs) (hr : c.PlainReachable cc) :
    ∃ c', Go cc (Action.Helpful (L :: Fs) L e) c c' ∧ ∀ x ∈ L :: Fs, ∃ op, c'.servers x = .up op := by
  obtain ⟨c', h1, h2⟩ := go_each (P := fun ds c => ∀ x ∈ ds, ∃ op, c.servers x = .up op) (e := e) (Fs := Fs) (L := L) H.prep.distinct
    (fun x ds c hx _ hr h => by
      cases hs : c.servers x with
      | up op =>
        refine ⟨c, Go.refl, fun y hy => ?_⟩
        rcases List.mem_cons.1 hy with rfl | hy
        · exact ⟨op, hs⟩
        · exact h y hy
      | down d =>
        obtain ⟨op, hg⟩ := go_start (e := e) H hx hs
        refine ⟨_, hg, fun y hy => ?_⟩
        by_cases hyx : y = x
        · subst hyx; exact ⟨op, Cluster.setServer_self ..⟩
        · rw [Cluster.setServer_other hyx]
          exact h y ((List.mem_cons.1 hy).resolve_left hyx)) hr nofun
  exact ⟨c', h1, fun x hx => h2 x (List.mem_reverse.2 hx)⟩

/-! ### A higher ballot -/

theorem Ballot.lt_of_n {a b : Ballot} (h : a.n < b.n) : a < b := (Ballot.lt_iff _ _).2 (.inl h)

theorem Ballot.n_le {a b : Ballot} (h : a ≤ b) : a.n ≤ b.n := by
  rcases Nat.lt_or_ge b.n a.n with h' | h'
  · exact absurd h ((Ballot.not_le ..).2 (Ballot.lt_of_n h'))
  · exact h'

/-- What `try_become_leader` does. -/
theorem does_try {op : OP E S} (hg : Good cc L op) :
    Does (Call.run (E := E) (S := S) .tryBecomeLeader) op.clearTrail fun _ op' => ∃ n : Ballot, n.n = op.sp.ist.cache.promise.n + 1 ∧ n.pid = L ∧
      op'.sp.role = .leader ∧ op'.sp.phase = .prepare ∧ op'.sp.ist.cache.promise = n ∧ op'.sp.ls.n_leader = n ∧
      op'.sp.pid = L ∧ op'.sp.buffered_proposals = op.sp.buffered_proposals ∧
      op'.sp.ls.accepted_indexes = List.replicate op.sp.ls.max_pid 0 ∧ op'.sp.ist.cache.batched_entries = [] ∧
      (∃ m, setSlot (List.replicate op.sp.ls.max_pid .notPromised) L (.promised m) = some op'.sp.ls.promises_meta) ∧
      ∃ p : Prepare, p.n = n ∧ op'.sp.outgoing = op.sp.outgoing ++ (SP.peersOf cc.nodes L).map fun x => { src := L, dst := x, msg := .prepare p } := by
  have hp := hg.pid
  have hb := hg.ble
  simp only [Does, Call.run, OP.try_become_leader, M.sat_bind, M.sat_get, OP.sat_onSP]
  refine M.sat_mono (SP.does_handle_leader (s := op.clearTrail.sp) ?_ ?_ ?_) (fun _ t ht => ?_) fun _ h => h
  · exact Ballot.lt_of_n (Nat.lt_succ_of_le (Ballot.n_le hg.lead))
  · exact Ballot.lt_of_n (Nat.lt_succ_self _)
  · exact hp.trans hb.symm
  · obtain ⟨h1, h2, h3, h4, h5, -, h6, -, h7, h11, h8, p, h9, h10⟩ := ht
    refine ⟨{ op.ble.current_ballot with n := op.sp.ist.cache.promise.n + 1 }, rfl, hb, h1, h2, h3, h4, h5.trans hp, h6, h7, h11, ?_, p, h9, ?_⟩
    · rw [← hp]; exact h8
    · rw [h10]; simp only [OP.clearTrail, hp, hg.peers]

theorem raise (H : Setup E S cc L Fs) (hr : c.PlainReachable cc) {op : OP E S} (hop : c.servers L = .up op) (k : Nat) :
    ∃ c', Go cc (Action.Helpful (L :: Fs) L e) c c' ∧ (∃ op', c'.servers L = .up op' ∧ k ≤ op'.sp.ist.cache.promise.n) ∧
      ∀ x, x ≠ L → c'.servers x = c.servers x := by
  induction k with
  | zero => exact ⟨c, Go.refl, ⟨op, hop, Nat.zero_le _⟩, fun _ _ => rfl⟩
  | succ k ih =>
    obtain ⟨c1, g1, ⟨op1, h1, h2⟩, h3⟩ := ih
    have hr1 := hr.go g1 fun _ => Action.Helpful.plain
    obtain ⟨op2, ⟨n, hn, -, -, -, hp, -⟩, g2⟩ := go_call (call := .tryBecomeLeader) (e := e) H hr1 rfl h1 (does_try (hr1.good H.snap H.pids h1))
    refine ⟨_, g1.trans g2, ⟨op2, Cluster.setServer_self .., ?_⟩, fun x hx => ?_⟩
    · rw [hp, hn]; omega
    · rw [Cluster.setServer_other hx]; exact h3 x hx

theorem clear_all (hr : c.PlainReachable cc) (hF : Fs.Nodup) :
    ∃ c', Go cc (Action.Helpful (L :: Fs) L e) c c' ∧ c'.servers = c.servers ∧ ∀ F ∈ Fs, c'.net L F = [] := by
  obtain ⟨c', h1, h2, h3⟩ := go_each (P := fun ds c1 => c1.servers = c.servers ∧ ∀ F ∈ ds, c1.net L F = []) (e := e) (Fs := Fs) (L := L) hF
    (fun x ds c1 hx _ hr h => by
      refine ⟨_, go_clear L x, h.1, fun F hF => ?_⟩
      by_cases hxF : F = x
      · subst hxF; exact Cluster.setNet_self ..
      · rw [Cluster.setNet_other (.inr hxF)]
        exact h.2 F ((List.mem_cons.1 hF).resolve_left hxF)) hr ⟨rfl, nofun⟩
  exact ⟨c', h1, h2, fun x hx => h3 x (List.mem_reverse.2 hx)⟩

/-- The state from which the Prepare phase is carried out. -/
structure Preparing (L : NodeId) (Fs : List NodeId) (e : E) (n : Ballot) (bp : List E) (c : Cluster E S) : Prop where
  pid : n.pid = L
  last : ∃ l, bp = l ++ [e]
  lead : ∃ op, c.servers L = .up op ∧ op.sp.LPrep L n bp []
  fol : ∀ F ∈ Fs, (∃ (p : Prepare) (r : List (Message E S)), p.n = n ∧ c.net L F = .paxos { src := L, dst := F, msg := .prepare p } :: r) ∧
    ∃ op, c.servers F = .up op ∧ op.sp.ist.cache.promise < n

theorem bound (f : NodeId → Nat) (xs : List NodeId) : ∃ B, ∀ x ∈ xs, f x ≤ B := by
  induction xs with
  | nil => exact ⟨0, nofun⟩
  | cons x xs ih =>
    obtain ⟨B, hM⟩ := ih
    refine ⟨max (f x) B, fun y hy => ?_⟩
    rcases List.mem_cons.1 hy with rfl | hy
    · omega
    · have := hM y hy; omega

theorem to_preparing (H : Setup E S cc L Fs) (hr : c.PlainReachable cc) :
    ∃ c' n bp, Go cc (Action.Helpful (L :: Fs) L e) c c' ∧ Preparing L Fs e n bp c' := by
  have hnd := List.nodup_cons.1 H.prep.distinct
  have ne : ∀ F ∈ Fs, F ≠ L := fun F hF h => hnd.1 (h ▸ hF)
  obtain ⟨c1, g1, hup⟩ := all_up (e := e) H hr
  have hr1 := hr.go g1 fun _ => Action.Helpful.plain
  obtain ⟨op1, hop1⟩ := hup L List.mem_cons_self
  obtain ⟨B, hM⟩ := bound (fun x => match c1.servers x with | .up op => op.sp.ist.cache.promise.n | .down _ => 0) Fs
  obtain ⟨c2, g2, ⟨op2, hop2, hk⟩, hs2⟩ := raise (e := e) H hr1 hop1 B
  have hr2 := hr1.go g2 fun _ => Action.Helpful.plain
  -- empty the buffer and the links
  have g3 := go_take (cc := cc) (e := e) (Fs := Fs) (List.mem_cons_self) hop2
  have hr3 := hr2.go g3 fun _ => Action.Helpful.plain
  obtain ⟨c4, g4, hs4, hn4⟩ := clear_all (e := e) (L := L) hr3 hnd.2
  have hr4 := hr3.go g4 fun _ => Action.Helpful.plain
  have hop4 : c4.servers L = .up (op2.take_outgoing_messages []).2 := by rw [hs4, Cluster.taken_self]
  -- the last ballot
  obtain ⟨op5, ⟨n, hn, hpid, h1, h2, h3, h4, h5, h6, h7, h11, ⟨m, h8⟩, p, h9, h10⟩, g5⟩ :=
    go_call (call := .tryBecomeLeader) (e := e) H hr4 rfl hop4 (does_try (hr4.good H.snap H.pids hop4))
  have hr5 := hr4.go g5 fun _ => Action.Helpful.plain
  have hG5 := hr5.good H.snap H.pids (i := L) (Cluster.setServer_self ..)
  -- the proposal
  have hd : Does (Call.run (E := E) (S := S) (.append e)) op5.clearTrail fun _ op' =>
      op' = { op5.clearTrail with sp := { op5.clearTrail.sp with buffered_proposals := op5.sp.buffered_proposals ++ [e] } } := by
    simp only [Does, Call.run, OP.append, M.sat_bind, OP.sat_onSP, SP.append, M.sat_get, M.sat_ite, M.sat_pure, SP.propose_entry]
    refine ⟨fun h => ?_, fun _ => ?_⟩
    · simp only [SP.accepted_reconfiguration, OP.clearTrail, hG5.nostop] at h
      cases h
    · have e1 : op5.clearTrail.sp.role = .leader := h1
      have e2 : op5.clearTrail.sp.phase = .prepare := h2
      rw [e1, e2]
      simp only [M.sat_upd]
      rw [← e1, ← e2]
      rfl
  obtain ⟨op6, rfl, g6⟩ := go_call (call := .append e) (e := e) H hr5 ⟨rfl, rfl⟩ (Cluster.setServer_self ..) hd
  have g7 := go_take (cc := cc) (c := (c4.setServer L (.up op5)).setServer L (.up { op5.clearTrail with sp := { op5.clearTrail.sp with buffered_proposals := op5.sp.buffered_proposals ++ [e] } })) (e := e) (Fs := Fs)
    (List.mem_cons_self) (Cluster.setServer_self ..)
  refine ⟨_, n, op5.sp.buffered_proposals ++ [e], g1.trans (g2.trans (g3.trans (g4.trans (g5.trans (g6.trans g7))))), hpid, ⟨_, rfl⟩,
    ⟨_, Cluster.taken_self .., h1, h2, h5, h4, h3, rfl, fun x => ?_, fun x v hv => ?_, rfl, h11⟩, fun F hF => ⟨?_, ?_⟩⟩
  · show (∃ m, slot op5.sp.ls.promises_meta x = some (.promised m)) ↔ _
    rw [SP.promised_iff h8]
    simp only [List.mem_cons, List.not_mem_nil, or_false]
    refine ⟨fun h => h.resolve_right ?_, .inl⟩
    rintro ⟨m', h'⟩
    cases slot_replicate h'
  · have hv : slot op5.sp.ls.accepted_indexes x = some v := hv
    rw [h7] at hv
    exact slot_replicate hv
  · obtain ⟨r, hnet⟩ := Cluster.taken_net (c := (c4.setServer L (.up op5)).setServer L (.up { op5.clearTrail with sp := { op5.clearTrail.sp with buffered_proposals := op5.sp.buffered_proposals ++ [e] } })) L
      { op5.clearTrail with sp := { op5.clearTrail.sp with buffered_proposals := op5.sp.buffered_proposals ++ [e] } } F
    have hmem : F ∈ SP.peersOf cc.nodes L := List.mem_filter.2 ⟨H.prep.members F (List.mem_cons_of_mem _ hF), by simpa using ne F hF⟩
    obtain ⟨r', hf⟩ := filter_head (L := L) (g := fun _ => (.prepare p : PaxosMsg E S)) hmem
    have ho : op5.sp.outgoing = (SP.peersOf cc.nodes L).map fun x => { src := L, dst := x, msg := .prepare p } := by
      rw [h10]; rfl
    refine ⟨p, r'.map Message.paxos ++ r, h9, ?_⟩
    rw [hnet]
    simp only [Cluster.setServer_net, hn4 F hF, OP.clearTrail, ho, List.nil_append]
    rw [hf]
    rfl
  · have hsF : c4.servers F = c1.servers F := by rw [hs4, Cluster.taken_other (ne F hF), hs2 F (ne F hF)]
    obtain ⟨opF, hopF⟩ := hup F (List.mem_cons_of_mem _ hF)
    refine ⟨opF, ?_, Ballot.lt_of_n ?_⟩
    · rw [Cluster.taken_other (ne F hF), Cluster.setServer_other (ne F hF), Cluster.setServer_other (ne F hF), hsF]
      exact hopF
    · have := hM F hF
      rw [hopF] at this
      rw [hn]
      exact Nat.lt_succ_of_le (Nat.le_trans this hk)

end Omni
