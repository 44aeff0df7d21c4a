import Verif.Proof.Boot.Cand
/-
From the start of a cluster to steady operation: one follower and the leader. The stages are 0 Prepare waiting to be sent, 1 Prepare on the
way, 2 Promise waiting, 3 Promise on the way, 4 Promise received, 5 AcceptSync waiting, 6 AcceptSync on the way, 7 synchronised.
-/
namespace Omni

variable {E S : Type} {n : Ballot}

/-- What is on the way to the follower and waiting to be sent to it; `X`, `d` and `q` are the log, the decided index and the last sequence
number of the leader. -/
inductive Down (n : Ballot) (X : List E) (d : Nat) (q : SeqNum) : Nat → List (PaxosMsg E S) → List (PaxosMsg E S) → Prop
  | ready : Down n X d q 0 [] [.prepare (prep0 n)]
  | asked : Down n X d q 1 [.prepare (prep0 n)] []
  | idle {π : Nat} (h2 : 2 ≤ π) (h4 : π ≤ 4) : Down n X d q π [] []
  | synced {Y : List E} {e : Nat} {qs : SeqNum} {rest : List (PaxosMsg E S)} (he : e ≤ Y.length)
      (hf : Fed.all n 0 ⟨qs, Y, e⟩ rest = some ⟨q, X, d⟩) :
      Down n X d q 5 [] (.acceptSync { n, seq_num := qs, decided_idx := e, log_sync := sync0 Y } :: rest)
  | sent {Y : List E} {e : Nat} {qs : SeqNum} {rest ms : List (PaxosMsg E S)} (he : e ≤ Y.length)
      (hf : Fed.all n 0 ⟨qs, Y, e⟩ (rest ++ ms) = some ⟨q, X, d⟩) :
      Down n X d q 6 (.acceptSync { n, seq_num := qs, decided_idx := e, log_sync := sync0 Y } :: rest) ms

/-- The follower and what is on the way from it. -/
inductive Up (n : Ballot) (f : NodeId) (s : SP E S) : Nat → List (PaxosMsg E S) → Prop
  | unled {π : Nat} (h1 : π ≤ 1) (hj : Join {} .none n f s) (ho : s.outgoing = []) : Up n f s π []
  | ready {r : List (PaxosMsg E S)} (hj : Join n .prepare n f s) (ho : s.outgoing.map (·.msg) = .promise (prom0 n) :: r) (hr : ∀ m ∈ r, m.isForward) :
      Up n f s 2 []
  | told {r : List (PaxosMsg E S)} (hj : Join n .prepare n f s) (ho : ∀ m ∈ s.outgoing, m.msg.isForward) (hr : ∀ m ∈ r, m.isForward) :
      Up n f s 3 (.promise (prom0 n) :: r)
  | waits {π : Nat} {r : List (PaxosMsg E S)} (h4 : 4 ≤ π) (h6 : π ≤ 6) (hj : Join n .prepare n f s) (ho : ∀ m ∈ s.outgoing, m.msg.isForward)
      (hr : ∀ m ∈ r, m.isForward) : Up n f s π r

/-- Leader and follower before the follower is synchronised. -/
structure Half (n : Ballot) (f : NodeId) (acc : Bool) (P : NodeId → Prop) (X : List E) (d : Nat) (sF sL : SP E S)
    (toF toL : List (PaxosMessage E S)) (π : Nat) : Prop where
  down : ∃ q ms, Keeps n f q 0 ms sL ∧ Down n X d q π (toF.map (·.msg)) ms
  up : Up n f sF π (toL.map (·.msg))
  prom : P f ↔ 4 ≤ π
  four : acc = true → π ≠ 4
  early : acc = false → π ≤ 4
  srcF : ∀ m ∈ toF, m.src = n.pid
  srcL : ∀ m ∈ toL, m.src = f

/-- Leader and follower. -/
def Joins (n : Ballot) (f : NodeId) (acc : Bool) (P : NodeId → Prop) (X : List E) (d : Nat) (sF sL : SP E S)
    (toF toL : List (PaxosMessage E S)) (π : Nat) : Prop :=
  Half n f acc P X d sF sL toF toL π ∨ (π = 7 ∧ acc = true ∧ P f ∧ Linked n 0 [] 0 f X d sF sL toF toL)

/-- The entries of `f` that have not reached the leader. -/
def held (s : SP E S) (toL : List (PaxosMessage E S)) : List E :=
  (toL.map (·.msg)).flatMap PaxosMsg.forwards ++ (s.outgoing.map (·.msg)).flatMap PaxosMsg.forwards ++ s.buffered_proposals

section pair

variable {f : NodeId} {acc : Bool} {P : NodeId → Prop} {X : List E} {d : Nat} {sF sL : SP E S} {toF toL : List (PaxosMessage E S)} {π : Nat}

theorem Down.le {q : SeqNum} {w ms : List (PaxosMsg E S)} (h : Down n X d q π w ms) : π ≤ 6 := by
  cases h <;> omega

theorem Half.le (h : Half n f acc P X d sF sL toF toL π) : π ≤ 6 := by
  obtain ⟨q, ms, _, hd⟩ := h.down
  exact hd.le

/-- The leader's log does not matter yet. -/
theorem Down.free {q : SeqNum} {w ms : List (PaxosMsg E S)} (h : Down n X d q π w ms) (h4 : π ≤ 4) (X' : List E) (d' : Nat) (q' : SeqNum) :
    Down n X' d' q' π w ms := by
  cases h with
  | ready => exact .ready
  | asked => exact .asked
  | idle h2 h4 => exact .idle h2 h4
  | synced => omega
  | sent => omega

/-- The leader's log does not matter yet. -/
theorem Half.free (h : Half n f acc P X d sF sL toF toL π) (h4 : π ≤ 4) (X' : List E) (d' : Nat) : Half n f acc P X' d' sF sL toF toL π := by
  obtain ⟨q, ms, hk, hd⟩ := h.down
  exact ⟨⟨q, ms, hk, hd.free h4 X' d' q⟩, h.up, h.prom, h.four, h.early, h.srcF, h.srcL⟩

theorem Joins.keeps (h : Joins n f acc P X d sF sL toF toL π) : ∃ q al ms, Keeps n f q al ms sL ∧ al ≤ X.length := by
  rcases h with h | ⟨_, _, _, _, _, _, _, _, q, al, ms, hl⟩
  · obtain ⟨q, ms, hk, _⟩ := h.down
    exact ⟨q, 0, ms, hk, Nat.zero_le _⟩
  · exact ⟨q, al, ms, hl.keeps, by have := Nat.le_trans hl.low hl.le; omega⟩

/-- The leader's side changes without sending. -/
theorem Joins.same (h : Joins n f acc P X d sF sL toF toL π) {sL' : SP E S} (hk : ∀ q a ms, Keeps n f q a ms sL → Keeps n f q a ms sL') :
    Joins n f acc P X d sF sL' toF toL π := by
  rcases h with h | ⟨e, ha, hP, _, _, _, _, _, q, al, ms, hl⟩
  · obtain ⟨q, ms, h1, h2⟩ := h.down
    exact .inl ⟨⟨q, ms, hk _ _ _ h1, h2⟩, h.up, h.prom, h.four, h.early, h.srcF, h.srcL⟩
  · exact .inr ⟨e, ha, hP, hl.same (hk _ _ _ hl.keeps)⟩

theorem Joins.congrP {P' : NodeId → Prop} (h : Joins n f acc P X d sF sL toF toL π) (hP : P' f ↔ P f) : Joins n f acc P' X d sF sL toF toL π := by
  rcases h with h | ⟨e, ha, hp, hl⟩
  · exact .inl ⟨h.down, h.up, hP.trans h.prom, h.four, h.early, h.srcF, h.srcL⟩
  · exact .inr ⟨e, ha, hP.2 hp, hl⟩

theorem Sent.tail {w : Bool} {q q' : SeqNum} {x : PaxosMsg E S} {rest ms' : List (PaxosMsg E S)} {es : List E} {d : Nat}
    (h : Sent n w q (x :: rest) es d q' ms') (hx : ∀ a, x ≠ .acceptDecide a) : ∃ rest', ms' = x :: rest' ∧ Sent n w q rest es d q' rest' := by
  cases h with
  | acc hw => exact ⟨_, rfl, .acc hw⟩
  | dec hw he => exact ⟨_, rfl, .dec hw he⟩
  | upd ms0 a e =>
    cases ms0 with
    | nil => simp only [List.nil_append, List.cons.injEq] at e; exact absurd e.1 (hx a)
    | cons y ms0 =>
      simp only [List.cons_append, List.cons.injEq] at e
      obtain ⟨rfl, rfl⟩ := e
      exact ⟨_, rfl, .upd ms0 a rfl⟩

theorem Down.more {w : Bool} {q q' : SeqNum} {wd ms ms' : List (PaxosMsg E S)} {es : List E} {d' : Nat} (h : Down n X d q π wd ms) (h5 : 5 ≤ π)
    (hs : Sent n w q ms es d' q' ms') (hd : d ≤ d') (hd' : d' ≤ (X ++ es).length) : Down n (X ++ es) d' q' π wd ms' := by
  simp only [List.length_append] at hd'
  cases h with
  | ready => omega
  | asked => omega
  | idle => omega
  | synced he hf =>
    obtain ⟨rest', rfl, hs'⟩ := hs.tail (by simp)
    exact .synced he (hs'.feed (pre := []) hf hd (by omega))
  | sent he hf => exact .sent he (hs.feed hf hd (by omega))

/-- The leader sends to those that have promised. -/
theorem Joins.sent {w : Bool} (h : Joins n f true P X d sF sL toF toL π) {sL' : SP E S} {es : List E} {d' : Nat}
    (hs : ∀ q a ms, Keeps n f q a ms sL → (P f → ∃ q' ms', Sent n w q ms es d' q' ms' ∧ Keeps n f q' a ms' sL') ∧ (¬ P f → Keeps n f q a ms sL'))
    (hd : d ≤ d') (hd' : d' ≤ (X ++ es).length) : Joins n f true P (X ++ es) d' sF sL' toF toL π := by
  rcases h with h | ⟨e, ha, hP, _, _, _, _, _, q, al, ms, hl⟩
  · left
    obtain ⟨q, ms, h1, h2⟩ := h.down
    by_cases hP : P f
    · have h4 := h.prom.1 hP
      have h5 := h.four rfl
      obtain ⟨q', ms', i1, i2⟩ := (hs q 0 ms h1).1 hP
      exact ⟨⟨q', ms', i2, h2.more (by omega) i1 hd hd'⟩, h.up, h.prom, h.four, h.early, h.srcF, h.srcL⟩
    · have h4 : ¬ 4 ≤ π := fun h4 => hP (h.prom.2 h4)
      exact ⟨⟨q, ms, (hs q 0 ms h1).2 hP, h2.free (by omega) ..⟩, h.up, h.prom, h.four, h.early, h.srcF, h.srcL⟩
  · obtain ⟨q', ms', i1, i2⟩ := (hs _ _ _ hl.keeps).1 hP
    exact .inr ⟨e, ha, hP, hl.sent i1 i2 hd (by omega)⟩

/-- The stage after the leader took its messages. -/
def afterL (π : Nat) : Nat := if π = 0 then 1 else if π = 5 then 6 else π

/-- The stage after the follower took its messages. -/
def afterF (π : Nat) : Nat := if π = 2 then 3 else π

/-- The leader takes its messages. -/
theorem Joins.takeL (h : Joins n f acc P X d sF sL toF toL π) (hsrc : ∀ m ∈ sL.outgoing, m.src = n.pid) (buf : List (Message E S)) :
    Joins n f acc P X d sF (sL.take_outgoing_msgs buf).2 (toF ++ sL.outgoing.filter fun m => decide (m.dst = f)) toL (afterL π) := by
  rcases h with h | ⟨rfl, ha, hP, _, _, _, _, _, q, al, ms, hl⟩
  · left
    obtain ⟨q, ms, h1, h2⟩ := h.down
    have hd : Down n X d q (afterL π) ((toF ++ sL.outgoing.filter fun m => decide (m.dst = f)).map (·.msg)) [] := by
      rw [List.map_append, ← h1.outs]
      generalize toF.map (·.msg) = w at h2
      cases h2 with
      | ready => exact .asked
      | asked => exact .asked
      | idle h2 h4 =>
        have : afterL π = π := by simp only [afterL]; rw [if_neg (by omega), if_neg (by omega)]
        rw [this]; exact .idle h2 h4
      | synced he hf => exact .sent he (by simpa using hf)
      | sent he hf => exact .sent he (by simpa using hf)
    have hle := h.le
    have e0 : (4 ≤ afterL π ↔ 4 ≤ π) ∧ (afterL π = 4 ↔ π = 4) ∧ (afterL π ≤ 4 ↔ π ≤ 4) := by
      unfold afterL; split
      · omega
      · split <;> omega
    refine ⟨⟨q, [], h1.take buf, hd⟩, ?_, by rw [e0.1]; exact h.prom, fun ha => by rw [Ne, e0.2.1]; exact h.four ha,
      fun ha => by rw [e0.2.2]; exact h.early ha, fun m hm => ?_, h.srcL⟩
    · have hu := h.up
      generalize toL.map (·.msg) = w at hu
      cases hu with
      | unled h1 hj ho => exact .unled (by unfold afterL; split; omega; split <;> omega) hj ho
      | ready hj ho hr => exact .ready hj ho hr
      | told hj ho hr => exact .told hj ho hr
      | waits h4 h6 hj ho hr => exact .waits (e0.1.2 h4) (by unfold afterL; split; omega; split <;> omega) hj ho hr
    · rcases List.mem_append.1 hm with hm | hm
      · exact h.srcF m hm
      · exact hsrc m (List.mem_filter.1 hm).1
  · exact .inr ⟨rfl, ha, hP, hl.takeL buf⟩

/-- The follower takes its messages. -/
theorem Joins.takeF (h : Joins n f acc P X d sF sL toF toL π) (buf : List (Message E S)) :
    Joins n f acc P X d (sF.take_outgoing_msgs buf).2 sL toF (toL ++ sF.outgoing.filter fun m => decide (m.dst = n.pid)) (afterF π) ∧
      held (sF.take_outgoing_msgs buf).2 (toL ++ sF.outgoing.filter fun m => decide (m.dst = n.pid)) = held sF toL := by
  have key : (∀ m ∈ sF.outgoing, m.dst = n.pid) → sF.outgoing.filter (fun m => decide (m.dst = n.pid)) = sF.outgoing := fun h =>
    List.filter_eq_self.2 fun m hm => by simpa using h m hm
  rcases h with h | ⟨rfl, ha, hP, _, _, _, _, _, q, al, ms, hl⟩
  · have hends : ∀ m ∈ sF.outgoing, m.src = f ∧ m.dst = n.pid := by
      have hu := h.up
      generalize toL.map (·.msg) = w at hu
      cases hu with
      | unled _ hj _ => exact hj.ends
      | ready hj _ _ => exact hj.ends
      | told hj _ _ => exact hj.ends
      | waits _ _ hj _ _ => exact hj.ends
    rw [key fun m hm => (hends m hm).2]
    refine ⟨.inl ?_, by simp [held, SP.take_outgoing_msgs]⟩
    have hle := h.le
    have e0 : (4 ≤ afterF π ↔ 4 ≤ π) ∧ (afterF π = 4 ↔ π = 4) ∧ (afterF π ≤ 4 ↔ π ≤ 4) := by
      unfold afterF; split <;> omega
    obtain ⟨q, ms, h1, h2⟩ := h.down
    refine ⟨⟨q, ms, h1, ?_⟩, ?_, by rw [e0.1]; exact h.prom, fun ha => by rw [Ne, e0.2.1]; exact h.four ha,
      fun ha => by rw [e0.2.2]; exact h.early ha, h.srcF, fun m hm => ?_⟩
    · generalize toF.map (·.msg) = w at h2
      cases h2 with
      | ready => exact .ready
      | asked => exact .asked
      | idle h2 h4 => exact .idle (by unfold afterF; split <;> omega) (e0.2.2.2 h4)
      | synced he hf => exact .synced he hf
      | sent he hf => exact .sent he hf
    · rw [List.map_append]
      have hu := h.up
      generalize toL.map (·.msg) = w at hu
      have fw : (∀ m ∈ sF.outgoing, m.msg.isForward) → ∀ m ∈ sF.outgoing.map (·.msg), m.isForward := fun h m hm => by
        obtain ⟨x, hx, rfl⟩ := List.mem_map.1 hm
        exact h x hx
      cases hu with
      | unled h1 hj ho =>
        rw [ho]
        exact .unled (by unfold afterF; split <;> omega) (hj.take buf) rfl
      | ready hj ho hr =>
        rw [ho]
        exact .told (hj.take buf) nofun hr
      | told hj ho hr => exact .told (hj.take buf) nofun fun m hm => (List.mem_append.1 hm).elim (hr m) (fw ho m)
      | waits h4 h6 hj ho hr =>
        exact .waits (e0.1.2 h4) (by unfold afterF; split <;> omega) (hj.take buf) nofun fun m hm => (List.mem_append.1 hm).elim (hr m) (fw ho m)
    · rcases List.mem_append.1 hm with hm | hm
      · exact h.srcL m hm
      · exact (hends m hm).1
  · refine ⟨.inr ⟨rfl, ha, hP, hl.takeF buf⟩, ?_⟩
    rw [key fun m hm => (hl.fol.ends m hm).2]
    simp [held, SP.take_outgoing_msgs]

/-- The follower sends to the leader only. -/
theorem Joins.ends (h : Joins n f acc P X d sF sL toF toL π) : ∀ m ∈ sF.outgoing, m.dst = n.pid := by
  rcases h with h | ⟨rfl, ha, hP, _, _, _, _, _, q, al, ms, hl⟩
  · have hu := h.up
    generalize toL.map (·.msg) = w at hu
    cases hu with
    | unled _ hj _ => exact fun m hm => (hj.ends m hm).2
    | ready hj _ _ => exact fun m hm => (hj.ends m hm).2
    | told hj _ _ => exact fun m hm => (hj.ends m hm).2
    | waits _ _ hj _ _ => exact fun m hm => (hj.ends m hm).2
  · exact fun m hm => (hl.fol.ends m hm).2

theorem PaxosMsg.forward_kind {m : PaxosMsg E S} (h : m.isForward = true) : ∃ es, m = .proposalForward es := by
  cases m <;> first | exact ⟨_, rfl⟩ | cases h

/-- What a follower says. -/
theorem Joins.kinds {m : PaxosMessage E S} (h : Joins n f acc P X d sF sL toF (m :: toL) π) :
    (∃ es, m.msg = .proposalForward es) ∨ (∃ x, m.msg = .accepted x) ∨ ∃ p, m.msg = .promise p := by
  rcases h with h | ⟨rfl, ha, hP, _, _, _, _, _, q, al, ms, hl⟩
  · have hu := h.up
    simp only [List.map_cons] at hu
    generalize hw : m.msg :: toL.map (·.msg) = w at hu
    cases hu with
    | unled => cases hw
    | ready => cases hw
    | told => simp only [List.cons.injEq] at hw; exact .inr (.inr ⟨_, hw.1⟩)
    | waits _ _ _ _ hr => exact .inl (PaxosMsg.forward_kind (hr m.msg (by rw [← hw]; exact List.mem_cons_self)))
  · have := (hl.src m List.mem_cons_self).2
    cases hm : m.msg with
    | proposalForward es => exact .inl ⟨es, rfl⟩
    | accepted x => exact .inr (.inl ⟨x, rfl⟩)
    | _ => rw [hm] at this; exact this.elim

theorem Joins.three {m : PaxosMessage E S} (h : Joins n f acc P X d sF sL toF (m :: toL) 3) : ∃ p, m.msg = .promise p := by
  rcases h with h | ⟨e, _⟩
  · have hu := h.up
    simp only [List.map_cons] at hu
    generalize hw : m.msg :: toL.map (·.msg) = w at hu
    cases hu with
    | unled h1 => omega
    | told => simp only [List.cons.injEq] at hw; exact ⟨_, hw.1⟩
    | waits h4 => omega
  · omega

/-- The bookkeeping of the follower is cleared. -/
theorem Joins.clearF (h : Joins n f acc P X d sF sL toF toL π) :
    Joins n f acc P X d { sF with ist := { sF.ist with trail := [], calls := [] } } sL toF toL π := by
  rcases h with h | ⟨rfl, ha, hP, _, _, _, _, _, q, al, ms, hl⟩
  · refine .inl ⟨h.down, ?_, h.prom, h.four, h.early, h.srcF, h.srcL⟩
    have hu := h.up
    generalize toL.map (·.msg) = w at hu ⊢
    cases hu with
    | unled h1 hj ho => exact .unled h1 hj.clear ho
    | ready hj ho hr => exact .ready hj.clear ho hr
    | told hj ho hr => exact .told hj.clear ho hr
    | waits h4 h6 hj ho hr => exact .waits h4 h6 hj.clear ho hr
  · exact .inr ⟨rfl, ha, hP, _, _, _, _, _, _, _, _, hl.fol.clear, hl.keeps, hl.down, hl.up, hl.low, hl.src⟩

/-- An append at the follower. -/
theorem Joins.append (h : Joins n f acc P X d sF sL toF toL π) (e : E) :
    M.Sat (SP.append e) sF (fun _ s' => Joins n f acc P X d s' sL toF toL π ∧ ∀ p, (held s' toL).countP p = (held sF toL).countP p + [e].countP p)
      (fun _ => False) := by
  rcases h with h | ⟨rfl, ha, hP, _, _, _, _, _, q, al, ms, hl⟩
  · have fin : ∀ s', Up n f s' π (toL.map (·.msg)) → Half n f acc P X d s' sL toF toL π := fun s' hu =>
      ⟨h.down, hu, h.prom, h.four, h.early, h.srcF, h.srcL⟩
    have hu := h.up
    generalize hw : toL.map (·.msg) = w at hu fin
    have fw : ∀ s' : SP E S, (∀ m ∈ sF.outgoing, m.msg.isForward) → s'.outgoing.map (·.msg) = sF.outgoing.map (·.msg) ++ [.proposalForward [e]] →
        ∀ m ∈ s'.outgoing, m.msg.isForward := fun s' h he m hm => by
      have : m.msg ∈ s'.outgoing.map (·.msg) := List.mem_map_of_mem hm
      rw [he] at this
      rcases List.mem_append.1 this with hm | hm
      · obtain ⟨x, hx, e⟩ := List.mem_map.1 hm
        rw [← e]; exact h x hx
      · rw [List.mem_singleton.1 hm]; rfl
    have cnt : ∀ s' : SP E S, s'.outgoing.map (·.msg) = sF.outgoing.map (·.msg) ++ [.proposalForward [e]] → s'.buffered_proposals = sF.buffered_proposals →
        ∀ p, (held s' toL).countP p = (held sF toL).countP p + [e].countP p := fun s' h1 h2 p => by
      simp only [held, h1, h2, List.flatMap_append, List.flatMap_cons, List.flatMap_nil, PaxosMsg.forwards, List.countP_append, List.countP_nil]
      omega
    cases hu with
    | unled h1 hj ho =>
      refine M.sat_mono (hj.append_held e) (fun _ s' hs => ⟨.inl (fin s' (.unled h1 hs.1 (hs.2.1.trans ho))), fun p => ?_⟩) fun _ h => h
      simp only [held, hs.2.1, hs.2.2, List.countP_append]
      omega
    | ready hj ho hr =>
      refine M.sat_mono (hj.append_forward e) (fun _ s' hs => ⟨.inl (fin s' (.ready hs.1 (hs.2.1.trans (by rw [ho]; rfl)) fun m hm => ?_)), cnt s' hs.2.1 hs.2.2⟩) fun _ h => h
      rcases List.mem_append.1 hm with hm | hm
      · exact hr m hm
      · rw [List.mem_singleton.1 hm]; rfl
    | told hj ho hr =>
      exact M.sat_mono (hj.append_forward e) (fun _ s' hs => ⟨.inl (fin s' (.told hs.1 (fw s' ho hs.2.1) hr)), cnt s' hs.2.1 hs.2.2⟩) fun _ h => h
    | waits h4 h6 hj ho hr =>
      exact M.sat_mono (hj.append_forward e) (fun _ s' hs => ⟨.inl (fin s' (.waits h4 h6 hs.1 (fw s' ho hs.2.1) hr)), cnt s' hs.2.1 hs.2.2⟩) fun _ h => h
  · refine M.sat_mono (hl.fol.append e) (fun _ s' hs => ?_) fun _ h => h
    have h3 := hl.forward hs
    refine ⟨.inr ⟨rfl, ha, hP, h3.1⟩, fun p => ?_⟩
    simp only [held, h3.2, hs.buf, hl.fol.buf, List.countP_append, List.countP_nil]
    omega

/-- A tick at the follower. -/
theorem Joins.ticked (h : Joins n f acc P X d sF sL toF toL π) (r w : Prop) [Decidable r] [Decidable w] (hr : ¬ r) :
    M.Sat (SP.ticked none r w) sF (fun _ s' => Joins n f acc P X d s' sL toF toL π ∧ held s' toL = held sF toL) (fun _ => False) := by
  rcases h with h | ⟨rfl, ha, hP, _, _, _, _, _, q, al, ms, hl⟩
  · have key : M.Sat (SP.ticked none r w) sF (fun _ s' => s' = sF) (fun _ => False) := by
      have hu := h.up
      generalize toL.map (·.msg) = v at hu
      cases hu with
      | unled _ hj _ => exact hj.ticked (by simp) r w hr
      | ready hj _ _ => exact hj.ticked (by simp) r w hr
      | told hj _ _ => exact hj.ticked (by simp) r w hr
      | waits _ _ hj _ _ => exact hj.ticked (by simp) r w hr
    refine M.sat_mono key (fun _ s' hs => ?_) fun _ h => h
    subst hs
    exact ⟨.inl h, rfl⟩
  · refine M.sat_mono (hl.fol.ticked_calm (b := none) (by simp) r w) (fun _ s' hs => ?_) fun _ h => h
    rcases hs with ⟨_, hs, _⟩ | ⟨_, rfl⟩
    rotate_left
    · exact ⟨.inr ⟨rfl, ha, hP, _, _, _, _, _, _, _, _, hl⟩, rfl⟩
    have h3 := hl.after hl.down hs
    obtain ⟨X', B', a', out', h4, _, _⟩ := hs
    refine ⟨.inr ⟨rfl, ha, hP, h3.1⟩, ?_⟩
    simp only [held, h3.2, h4.buf, hl.fol.buf]

/-- The follower handles a message of the leader. -/
theorem Joins.deliverF [SnapOps E S] {m : PaxosMessage E S} (h : Joins n f acc P X d sF sL (m :: toF) toL π) :
    M.Sat (SP.handle m) sF (fun _ s' => (∃ π', π ≤ π' ∧ (π = 1 → 2 ≤ π') ∧ (π = 6 → π' = 7) ∧ Joins n f acc P X d s' sL toF toL π') ∧
      held s' toL = held sF toL) (fun _ => False) := by
  rcases h with h | ⟨rfl, ha, hP, _, _, _, _, _, q, al, ms, hl⟩
  · obtain ⟨q, ms, hk, hd⟩ := h.down
    have hsrc := h.srcF m List.mem_cons_self
    have hu := h.up
    have hsF : ∀ m ∈ toF, m.src = n.pid := fun x hx => h.srcF x (List.mem_cons_of_mem _ hx)
    simp only [List.map_cons] at hd
    generalize hwd : m.msg :: toF.map (·.msg) = wd at hd
    cases hd with
    | ready => cases hwd
    | idle => cases hwd
    | synced => cases hwd
    | asked =>
      simp only [List.cons.injEq, List.map_eq_nil_iff] at hwd
      obtain ⟨hm, rfl⟩ := hwd
      generalize hw : toL.map (·.msg) = w at hu
      cases hu with
      | waits h4 _ _ _ _ => omega
      | unled h1 hj ho =>
        simp only [SP.handle, hm, hsrc]
        refine M.sat_mono (hj.handle_prepare ho) (fun _ s' hs => ?_) fun _ h => h
        refine ⟨⟨2, by omega, fun _ => by omega, by omega, .inl ⟨⟨q, [], hk, .idle (by omega) (by omega)⟩, ?_, ?_, by omega, fun _ => by omega, nofun, h.srcL⟩⟩, ?_⟩
        · rw [hw]; exact .ready hs.1 hs.2.1 nofun
        · have := h.prom
          constructor
          · intro hp; have := this.1 hp; omega
          · omega
        · simp only [held, hw, hs.2.1, hs.2.2, ho]
          rfl
    | sent he hf =>
      rename_i Y e qs rest
      simp only [List.cons.injEq] at hwd
      obtain ⟨hm, hrest⟩ := hwd
      generalize hw : toL.map (·.msg) = w at hu
      cases hu with
      | unled h1 _ _ => omega
      | waits h4 h6 hj ho hr =>
        simp only [SP.handle, hm, hsrc]
        refine M.sat_mono (hj.handle_acceptsync ho qs he) (fun _ s' hs => ?_) fun _ h => h
        obtain ⟨out, h1, h2, h3⟩ := hs
        have ha : acc = true := by
          cases acc with
          | true => rfl
          | false => have := h.early rfl; omega
        refine ⟨⟨7, by omega, by omega, fun _ => rfl, .inr ⟨rfl, ha, h.prom.2 h4, Y, [], _, _, out, q, 0, ms, h1, hk, by rw [hrest]; exact hf, ?_, Nat.zero_le _, fun x hx => ⟨h.srcL x hx, ?_⟩⟩⟩, ?_⟩
        · rw [lastAcc_append, hw]
          have : lastAcc 0 w = 0 := by
            clear hw
            induction w with
            | nil => rfl
            | cons x w ih =>
              have h1 := hr x List.mem_cons_self
              have h2 := ih fun y hy => hr y (List.mem_cons_of_mem _ hy)
              cases x <;> first | exact h2 | cases h1
          rw [this, h2]
        · have : x.msg ∈ w := by rw [← hw]; exact List.mem_map_of_mem hx
          have := hr _ this
          cases hx : x.msg <;> rw [hx] at this <;> first | exact trivial | cases this
        · simp only [held, ← h1.outs, h3, h1.buf, List.append_nil, List.append_assoc]
  · refine M.sat_mono hl.handleF (fun _ s' hs => ⟨⟨7, Nat.le_refl _, by omega, by omega, .inr ⟨rfl, ha, hP, hs.1⟩⟩, ?_⟩) fun _ h => h
    obtain ⟨_, _, _, _, _, _, _, _, hl'⟩ := hs.1
    simp only [held, hs.2, hl'.fol.buf, hl.fol.buf]

end pair
end Omni
