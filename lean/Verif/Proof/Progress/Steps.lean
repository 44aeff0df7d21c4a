import Verif.Proof.Progress.Local
/-
The states of leader and followers on the way to a decision, and the handlers between them.
-/
namespace Omni

variable {E S : Type}

theorem mem_pidsFrom_of {α : Type} {p : α → Bool} {k j : Nat} {l : List α} {a : α} (h : l[j]? = some a) (ha : p a = true) :
    k + j ∈ pidsFrom p k l := by
  induction l generalizing k j with
  | nil => simp at h
  | cons x r ih =>
    cases j with
    | zero =>
      simp only [List.getElem?_cons_zero, Option.some.injEq] at h
      subst h
      simp [pidsFrom, ha]
    | succ j =>
      have := ih (k := k + 1) (j := j) (by simpa using h)
      rw [show k + 1 + j = k + (j + 1) from by omega] at this
      simp only [pidsFrom]
      split
      · exact List.mem_cons_of_mem _ this
      · exact this

theorem nodup_length_le {W V : List Nat} (hW : W.Nodup) (h : ∀ x ∈ W, x ∈ V) : W.length ≤ V.length := by
  induction W generalizing V with
  | nil => simp
  | cons x W ih =>
    have hn := List.nodup_cons.1 hW
    have hx := h x List.mem_cons_self
    have := ih (V := V.erase x) hn.2 fun y hy =>
      (List.mem_erase_of_ne (show y ≠ x from fun e => hn.1 (e ▸ hy))).2 (h y (List.mem_cons_of_mem _ hy))
    rw [List.length_erase_of_mem hx] at this
    have := List.length_pos_of_mem hx
    simp only [List.length_cons]
    omega

theorem le_count_slots {α : Type} {p : α → Bool} {l : List α} {W : List NodeId} (hW : W.Nodup)
    (h : ∀ x ∈ W, ∃ a, slot l x = some a ∧ p a = true) : W.length ≤ (l.filter p).length := by
  rw [← pidsFrom_length p 1]
  refine nodup_length_le hW fun x hx => ?_
  obtain ⟨a, h1, h2⟩ := h x hx
  cases x with
  | zero => simp [slot] at h1
  | succ k => rw [Nat.add_comm]; exact mem_pidsFrom_of h1 h2

namespace SP

/-- A leader in the Prepare phase, with the promises of `ps`. -/
structure LPrep (L : NodeId) (n : Ballot) (bp : List E) (ps : List NodeId) (s : SP E S) : Prop where
  role : s.role = .leader
  phase : s.phase = .prepare
  pid : s.pid = L
  num : s.ls.n_leader = n
  prom : s.ist.cache.promise = n
  buf : s.buffered_proposals = bp
  proms : ∀ x, (∃ m, slot s.ls.promises_meta x = some (.promised m)) ↔ x ∈ L :: ps
  acc : ∀ x v, slot s.ls.accepted_indexes x = some v → v = 0
  out : s.outgoing = []
  bat : s.ist.cache.batched_entries = []

/-- A leader in the Accept phase with the promises of `ps`, all of whom it is about to send an AcceptSync. -/
structure LAcc (L : NodeId) (n : Ballot) (ps : List NodeId) (s : SP E S) : Prop where
  role : s.role = .leader
  phase : s.phase = .accept
  pid : s.pid = L
  num : s.ls.n_leader = n
  prom : s.ist.cache.promise = n
  proms : ∀ x, (∃ m, slot s.ls.promises_meta x = some (.promised m)) ↔ x ∈ L :: ps
  own : slot s.ls.accepted_indexes L = some s.ist.cache.accepted_idx
  acc : ∀ x v, x ≠ L → slot s.ls.accepted_indexes x = some v → v = 0
  bat : s.ist.cache.batched_entries = []
  out : ∃ (ds : List NodeId) (f : NodeId → AcceptSync E S), ds.Nodup ∧ (∀ x, x ∈ ds ↔ x ∈ ps) ∧
    s.outgoing = ds.map (fun x => { src := L, dst := x, msg := .acceptSync (f x) }) ∧
    ∀ x ∈ ds, AccSyncOf s.ist n (f x) ∧ slot s.ls.follower_seq_nums x = some (f x).seq_num

variable {s : SP E S} {L : NodeId} {n : Ballot} {bp : List E} {ps : List NodeId}

theorem promised_iff {l v : List PromiseState} {F : NodeId} {m : PromiseMetaData} (h : setSlot l F (.promised m) = some v) (x : NodeId) :
    (∃ m, slot v x = some (.promised m)) ↔ x = F ∨ ∃ m, slot l x = some (.promised m) := by
  obtain ⟨-, -, -, h1, h2⟩ := setSlot_spec h
  by_cases e : x = F
  · subst e; exact ⟨fun _ => .inl rfl, fun _ => ⟨m, h1⟩⟩
  · rw [h2 x e]
    exact ⟨.inr, fun h => h.resolve_left e⟩

theorem does_majority [SnapOps E S] (hu : SnapOps.use_snapshots E S = false) (hb : s.buffered_proposals ≠ [])
    (hbs : s.buffered_stopsign = none) (hn : s.ls.n_leader.pid = L) (hpid : s.pid = L) (hnum : s.ls.n_leader = n)
    (hprom : s.ist.cache.promise = n)
    (hp : ∀ x, (∃ m, slot s.ls.promises_meta x = some (.promised m)) ↔ x ∈ L :: ps) (hL : L ∉ ps)
    (hacc : ∀ x v, slot s.ls.accepted_indexes x = some v → v = 0) (ho : s.outgoing = [])
    (hbat : s.ist.cache.batched_entries = []) :
    Does handle_majority_promises s fun _ t => t.ist.cache.stopsign = none → LAcc L n ps t ∧
      ∃ d ∈ t.ist.trail, t.ist.storage = { d with log := d.log ++ s.buffered_proposals } := by
  simp only [Does, handle_majority_promises, M.sat_bind, M.sat_get, M.sat_upd, sat_onStore]
  refine M.sat_mono (IStore.does_sync_log _ _ _ _) (fun a j hj => ?_) fun _ h => h
  obtain ⟨ha, hjp, hjd, hjt, hjs, hjb, -⟩ := hj
  simp only [append_buffered, append_buffered_proposals, append_buffered_stopsign, M.sat_bind, M.sat_get, M.sat_ite, M.sat_pure]
  constructor
  · intro h
    simp only [sat_setState, sat_onLS]
    refine ⟨fun ls h1 => ?_, fun _ => trivial⟩
    refine M.sat_mono (does_send_accsyncs hu _ (LeaderState.followers_nodup _) _) (fun _ t ht => ?_) fun _ h => h
    obtain ⟨f, v, -, -, rfl⟩ := ht
    intro hs
    simp only [accepted_reconfiguration] at h
    simp only at hs
    rw [hs] at h
    cases h
  · intro h
    refine ⟨fun he => absurd (List.isEmpty_iff.1 he) hb, fun _ => ?_⟩
    simp only [M.sat_upd, sat_onStore, IStore.sat_append_nb]
    rw [hbs]
    simp only [M.sat_pure, sat_setState, sat_onLS]
    refine ⟨fun ls h1 => ?_, fun _ => trivial⟩
    refine M.sat_mono (does_send_accsyncs hu _ (LeaderState.followers_nodup _) _) (fun _ t ht => ?_) fun _ h => h
    obtain ⟨f, v, h2, h3, rfl⟩ := ht
    intro _
    unfold LeaderState.set_accepted_idx at h1
    split at h1
    · cases h1
    · rename_i w hw
      cases h1
      obtain ⟨-, -, -, e1, e2⟩ := setSlot_spec hw
      have hmem : ∀ x, x ∈ ({ s.ls with accepted_indexes := w, max_promise_sync := none } : LeaderState E S).get_promised_followers ↔ x ∈ ps := by
        intro x
        rw [LeaderState.mem_followers]
        simp only
        rw [hp x, hn]
        constructor
        · rintro ⟨g1, g2⟩
          exact (List.mem_cons.1 g2).resolve_left g1
        · exact fun g => ⟨fun e => hL (e ▸ g), List.mem_cons_of_mem _ g⟩
      refine ⟨⟨rfl, rfl, hpid, hnum, hjp.trans hprom, hp, ?_, fun x u hx hu => ?_, hjb.trans hbat, _, f, LeaderState.followers_nodup _, hmem, ?_, fun x hx => ?_⟩, j.storage, ?_, rfl⟩
      · simp only [← hpid, e1]; rfl
      · rw [e2 x (hpid ▸ hx)] at hu; exact hacc x u hu
      · simp only [ho, hpid, List.nil_append]
      · rw [← hnum]; exact h2 x hx
      · simp only [IStore.appended, hjt, List.mem_cons, true_or, or_true]

theorem does_promise_prep [SnapOps E S] (hu : SnapOps.use_snapshots E S = false) (h : LPrep L n bp ps s) (hb : bp ≠ [])
    (hbs : s.buffered_stopsign = none) (hn : n.pid = L) {F : NodeId} (hF : F ∉ ps) (hL : L ∉ F :: ps) {p : Promise E S} (hpn : p.n = n) :
    Does (handle_promise p F) s fun _ t => t.ist.cache.stopsign = none →
      (LPrep L n bp (F :: ps) t ∧ t.ls.quorum = s.ls.quorum ∧ ¬ s.ls.quorum.is_prepare_quorum t.ls.num_promised = true) ∨
      (LAcc L n (F :: ps) t ∧ ∃ d ∈ t.ist.trail, t.ist.storage = { d with log := d.log ++ bp }) := by
  simp only [Does, handle_promise, M.sat_bind, M.sat_get]
  rw [h.role, h.phase]
  simp only [handle_promise_prepare, M.sat_bind, M.sat_get, M.sat_ite, M.sat_pure, sat_onLS']
  refine ⟨fun _ => ⟨fun r hr => ?_, fun _ => trivial⟩, fun hne => absurd (hpn.trans h.num.symm) hne⟩
  obtain ⟨h1, h2, h3, h4, ⟨m, h5⟩, h6⟩ := set_promise_spec hr
  have hp : ∀ x, (∃ m, slot r.1.promises_meta x = some (.promised m)) ↔ x ∈ L :: F :: ps := by
    intro x
    rw [promised_iff h5, h.proms]
    simp only [List.mem_cons]
    exact or_left_comm
  rw [h.num] at h1
  constructor
  · intro hq
    refine M.sat_mono (does_majority (s := { s with ls := r.1 }) (L := L) (n := n) (ps := F :: ps) hu (by rw [h.buf]; exact hb) hbs
      (by simp only [h1, hn]) h.pid h1 h.prom hp hL (by simp only [h3]; exact h.acc) h.out h.bat) (fun _ t ht hs => .inr ?_) fun _ h => h
    rw [← h.buf]
    exact ht hs
  · intro hq
    refine fun _ => .inl ⟨⟨h.role, h.phase, h.pid, h1, h.prom, h.buf, hp, by simp only [h3]; exact h.acc, h.out, h.bat⟩, h2, ?_⟩
    rw [← h6]; exact hq

theorem does_promise_acc [SnapOps E S] (hu : SnapOps.use_snapshots E S = false) (h : LAcc L n ps s)
    {F : NodeId} (hF : F ∉ ps) {p : Promise E S} (hpn : p.n = n) :
    Does (handle_promise p F) s fun _ t => LAcc L n (F :: ps) t ∧ t.ist = s.ist := by
  simp only [Does, handle_promise, M.sat_bind, M.sat_get]
  rw [h.role, h.phase]
  simp only [handle_promise_accept, M.sat_bind, M.sat_get, M.sat_ite, M.sat_pure, sat_onLS']
  refine ⟨fun _ => ⟨fun r hr => ?_, fun _ => trivial⟩, fun hne => absurd (hpn.trans h.num.symm) hne⟩
  obtain ⟨h1, h2, h3, h4, ⟨m, h5⟩, h6⟩ := set_promise_spec hr
  refine M.sat_mono (does_send_accsync hu F) (fun _ t ht => ?_) fun _ h => h
  obtain ⟨a, v, g1, g2, g3, rfl⟩ := ht
  obtain ⟨ds, f, d1, d2, d3, d4⟩ := h.out
  have hFd : F ∉ ds := fun hx => hF ((d2 F).1 hx)
  refine ⟨⟨h.role, h.phase, h.pid, h1.trans h.num, h.prom, fun x => ?_, by simp only [h3]; exact h.own, by simp only [h3]; exact h.acc, h.bat,
    ds ++ [F], fun x => if x = F then a else f x, ?_, fun x => ?_, ?_, fun x hx => ?_⟩, rfl⟩
  · simp only
    rw [promised_iff h5, h.proms]
    simp only [List.mem_cons]
    exact or_left_comm
  · rw [List.nodup_append]
    refine ⟨d1, by simp, fun y hy z hz => ?_⟩
    rw [List.mem_singleton.1 hz]
    exact fun e => hFd (e ▸ hy)
  · simp only [List.mem_append, List.mem_singleton, List.mem_cons, d2, List.not_mem_nil, or_false]
    exact or_comm
  · simp only [d3, List.map_append, List.map_cons, List.map_nil, if_true, h.pid]
    congr 1
    refine List.map_congr_left fun y hy => ?_
    simp only [if_neg (show y ≠ F from fun e => hFd (e ▸ hy))]
  · rcases List.mem_append.1 hx with hx | hx
    · have hne : x ≠ F := fun e => hFd (e ▸ hx)
      simp only [if_neg hne]
      refine ⟨(d4 x hx).1, ?_⟩
      rw [g3 x hne]
      simp only [h4]
      exact (d4 x hx).2
    · rw [List.mem_singleton.1 hx]
      simp only [if_true]
      refine ⟨?_, g2⟩
      simp only [h1, h.num] at g1
      exact g1

/-- A leader waiting for Accepted messages; it has those of `as`. -/
structure LWait (L : NodeId) (n : Ballot) (K : Nat) (ps : List NodeId) (q : NodeId → SeqNum) (as : List NodeId) (s : SP E S) : Prop where
  role : s.role = .leader
  phase : s.phase = .accept
  pid : s.pid = L
  num : s.ls.n_leader = n
  proms : ∀ x, (∃ m, slot s.ls.promises_meta x = some (.promised m)) ↔ x ∈ L :: ps
  dec : s.ist.cache.decided_idx < K
  seq : ∀ x ∈ ps, slot s.ls.follower_seq_nums x = some (q x)
  lat : ∀ x r, slot s.ls.latest_accept_meta x = some r → r = none
  acc : ∀ x ∈ L :: as, slot s.ls.accepted_indexes x = some K
  out : s.outgoing = []
  prom : s.ist.cache.promise = n
  bat : s.ist.cache.batched_entries = []

/-- A leader that has decided; it has the Accepted messages of `as`. -/
structure LRest (L : NodeId) (n : Ballot) (K : Nat) (ps : List NodeId) (q : NodeId → SeqNum) (as : List NodeId) (s : SP E S) : Prop where
  role : s.role = .leader
  phase : s.phase = .accept
  num : s.ls.n_leader = n
  dec : s.ist.cache.decided_idx = K
  proms : ∀ x, (∃ m, slot s.ls.promises_meta x = some (.promised m)) ↔ x ∈ L :: ps
  seq : ∀ x ∈ ps, slot s.ls.follower_seq_nums x = some { q x with counter := (q x).counter + 1 }
  acc : ∀ x ∈ L :: as, slot s.ls.accepted_indexes x = some K
  prom : s.ist.cache.promise = n
  bat : s.ist.cache.batched_entries = []

/-- A leader that has decided and is about to tell `ps`. -/
structure LDone (L : NodeId) (n : Ballot) (K : Nat) (ps : List NodeId) (q : NodeId → SeqNum) (as : List NodeId) (s : SP E S) : Prop
    extends LRest L n K ps q as s where
  out : ∃ ds : List NodeId, ds.Nodup ∧ (∀ x, x ∈ ds ↔ x ∈ ps) ∧
    s.outgoing = ds.map fun x => { src := L, dst := x, msg := .decide { n, seq_num := { q x with counter := (q x).counter + 1 }, decided_idx := K } }

variable {K : Nat} {q : NodeId → SeqNum} {as : List NodeId}

theorem does_accepted_wait (h : LWait L n K ps q as s) (hn : n.pid = L) (hL : L ∉ ps) (F : NodeId) :
    Does (handle_accepted { n, accepted_idx := K } F) s fun _ t =>
      (LWait L n K ps q (F :: as) t ∧ t.ls.quorum = s.ls.quorum ∧ t.ist = s.ist ∧
        ¬ s.ls.quorum.is_accept_quorum ((t.ls.accepted_indexes.filter fun la => decide (la ≥ K)).length) = true) ∨
      (LDone L n K ps q (F :: as) t ∧ t.ist = s.ist.decided K) := by
  simp only [Does, handle_accepted, M.sat_bind, M.sat_get, M.sat_ite, M.sat_pure, sat_onLS]
  refine ⟨fun _ => ⟨fun ls h1 => ?_, fun _ => trivial⟩, fun hne => absurd ⟨h.num.symm, h.role, h.phase⟩ hne⟩
  unfold LeaderState.set_accepted_idx at h1
  split at h1
  · cases h1
  · rename_i w hw
    cases h1
    obtain ⟨-, -, -, e1, e2⟩ := setSlot_spec hw
    constructor
    · intro _
      simp only [sat_onStore, IStore.sat_set_decided_idx]
      refine M.sat_mono (does_announces K _ (LeaderState.followers_nodup _) _ h.lat) (fun _ t ht => ?_) fun _ h => h
      obtain ⟨f, v, g1, rfl⟩ := ht
      have hmem : ∀ x, x ∈ ({ s.ls with accepted_indexes := w } : LeaderState E S).get_promised_followers ↔ x ∈ ps := by
        intro x
        rw [LeaderState.mem_followers]
        simp only
        rw [h.proms x, h.num, hn]
        constructor
        · rintro ⟨g1, g2⟩
          exact (List.mem_cons.1 g2).resolve_left g1
        · exact fun g => ⟨fun e => hL (e ▸ g), List.mem_cons_of_mem _ g⟩
      have hqf : ∀ x ∈ ({ s.ls with accepted_indexes := w } : LeaderState E S).get_promised_followers, q x = f x := fun x hx => by
        have h1 := (h.seq x ((hmem x).1 hx)).symm.trans (g1 x hx).1
        simpa only [Option.some.injEq] using h1
      refine .inr ⟨⟨⟨h.role, h.phase, h.num, rfl, h.proms, fun x hx => ?_, fun x hx => ?_, h.prom, h.bat⟩, _, LeaderState.followers_nodup _, hmem, ?_⟩, rfl⟩
      · rw [hqf x ((hmem x).2 hx)]
        exact (g1 x ((hmem x).2 hx)).2
      · by_cases e : x = F
        · rw [e]; exact e1
        · show slot w x = _
          rw [e2 x e]
          refine h.acc x ?_
          simp only [List.mem_cons] at hx ⊢
          exact hx.imp id fun g => g.resolve_left e
      simp only [h.out, h.pid, List.nil_append]
      refine List.map_congr_left fun x hx => ?_
      rw [hqf x hx, h.num]
    · intro hc
      refine .inl ⟨⟨h.role, h.phase, h.pid, h.num, h.proms, h.dec, h.seq, h.lat, fun x hx => ?_, h.out, h.prom, h.bat⟩, rfl, trivial, fun hq => hc ⟨h.dec, hq⟩⟩
      by_cases e : x = F
      · rw [e]; exact e1
      · rw [e2 x e]
        refine h.acc x ?_
        simp only [List.mem_cons] at hx ⊢
        exact hx.imp id fun g => g.resolve_left e

theorem does_accepted_done (h : LDone L n K ps q as s) (F : NodeId) :
    Does (handle_accepted { n, accepted_idx := K } F) s fun _ t => LDone L n K ps q (F :: as) t ∧ t.ist = s.ist := by
  simp only [Does, handle_accepted, M.sat_bind, M.sat_get, M.sat_ite, M.sat_pure, sat_onLS]
  refine ⟨fun _ => ⟨fun ls h1 => ⟨fun hk => ?_, fun _ => ?_⟩, fun _ => trivial⟩, fun hne => absurd ⟨h.num.symm, h.role, h.phase⟩ hne⟩
  · have := h.dec; have := hk.1; omega
  · unfold LeaderState.set_accepted_idx at h1
    split at h1
    · cases h1
    · rename_i w hw
      cases h1
      obtain ⟨-, -, -, e1, e2⟩ := setSlot_spec hw
      refine ⟨⟨⟨h.role, h.phase, h.num, h.dec, h.proms, h.seq, fun x hx => ?_, h.prom, h.bat⟩, h.out⟩, trivial⟩
      by_cases e : x = F
      · rw [e]; exact e1
      · show slot w x = _
        rw [e2 x e]
        refine h.acc x ?_
        simp only [List.mem_cons] at hx ⊢
        exact hx.imp id fun g => g.resolve_left e

/-! ### Followers -/

theorem does_check_valid {n : Ballot} (h : s.ist.cache.promise = n) {Q : Bool → SP E S → Prop} (hQ : Q true s) :
    Does (check_valid_ballot n) s Q := by
  have : n.cmp n = .eq := (Ballot.cmp_eq_iff _ _).2 ⟨rfl, rfl, rfl⟩
  simp only [Does, check_valid_ballot, M.sat_bind, M.sat_get, get_promise, h, this, M.sat_pure]
  exact hQ

theorem does_acceptsync [SnapOps E S] {a : AcceptSync E S} (hr : s.role = .follower) (hp : s.phase = .prepare) (hn : s.ist.cache.promise = a.n)
    (F : NodeId) : Does (handle_acceptsync a F) s fun _ t => t.ist.cache.stopsign = none →
      t.role = .follower ∧ t.phase = .accept ∧ t.ist.cache.promise = a.n ∧
      t.ist.cache.accepted_idx = a.log_sync.sync_idx + a.log_sync.suffix.length ∧ t.ist.cache.decided_idx = a.decided_idx ∧
      t.current_seq_num = a.seq_num ∧ t.ist.cache.batched_entries = s.ist.cache.batched_entries ∧
      ∃ fw, t.outgoing = s.outgoing ++ fw ++ [{ src := s.pid, dst := F, msg := .accepted { n := a.n, accepted_idx := t.ist.cache.accepted_idx } }] := by
  simp only [handle_acceptsync]
  unfold Does
  rw [M.sat_bind]
  refine does_check_valid hn ?_
  simp only [M.sat_bind, M.sat_get, M.sat_ite, M.sat_pure, M.sat_upd, sat_onStore]
  refine ⟨fun _ => ?_, fun hne => absurd ⟨trivial, hr, hp⟩ hne⟩
  refine M.sat_mono (IStore.does_sync_log _ _ _ _) (fun r j hj => ?_) fun _ h => h
  obtain ⟨h1, h2, h3, -, h4, hb, h5⟩ := hj
  have h6 := h5 _ rfl
  simp only at h4
  simp only [M.sat_whenDo, forward_buffered_proposals, forward_proposals, M.sat_bind, M.sat_get, M.sat_upd, M.sat_ite, M.sat_pure, sat_setState, sat_send]
  refine ⟨fun _ => ⟨fun _ => ?_, fun _ => ⟨fun _ => ?_, fun _ => ?_⟩⟩, fun _ => ?_⟩
  all_goals
    intro hs
    rw [h4] at hs
    rw [hs] at h6
    refine ⟨trivial, trivial, h2.trans hn, by simpa using h6, h3, trivial, hb, ?_⟩
    simp only [h1]
    first
      | exact ⟨[_], rfl⟩
      | exact ⟨[], by simp⟩

theorem does_decide {d : Decide} (hp : s.phase = .accept) (hn : s.ist.cache.promise = d.n)
    (hq : d.seq_num = { s.current_seq_num with counter := s.current_seq_num.counter + 1 }) (h1 : s.ist.cache.decided_idx < d.decided_idx)
    (h2 : d.decided_idx ≤ s.ist.cache.accepted_idx) :
    Does (handle_decide d) s fun _ t => t = { s with ist := s.ist.decided d.decided_idx, current_seq_num := d.seq_num } := by
  simp only [handle_decide, accept_guard]
  unfold Does
  rw [M.sat_bind, M.sat_bind]
  refine does_check_valid hn ?_
  have hx : s.current_seq_num.check_msg_status d.seq_num = .expected := by rw [hq]; simp [SeqNum.check_msg_status]
  simp only [M.sat_bind, M.sat_get, M.sat_ite]
  refine ⟨fun _ => ?_, fun hne => absurd ⟨trivial, .inl trivial, hp⟩ hne⟩
  simp only [handle_sequence_num, M.sat_bind, M.sat_get]
  rw [hx]
  simp only [M.sat_bind, M.sat_upd, M.sat_pure, decide_true, if_true, update_decided_idx_and_get_accepted_idx, M.sat_get, M.sat_ite,
    sat_onStore, IStore.sat_set_decided_idx, reply_opt]
  refine ⟨fun _ => ⟨fun h => absurd h (by omega), fun _ => ⟨fun h => absurd h (by omega), fun _ => trivial⟩⟩, fun h => absurd trivial h⟩

end SP
end Omni
