import Verif.Proof.Oust.Local
/-
A leader that falls silent: what the replies of a round say.
-/
namespace Omni

variable {E S : Type} {cc : ClusterConfig} {R : NodeId → HeartbeatReply → Prop}
variable {bl bl' : NodeId → BLE} {net net' : NodeId → NodeId → List (Message E S)} {a : Action E S} {i k : NodeId} {r : HeartbeatReply} {Q Q' : HeartbeatReply → Prop}

/-- A reply of `i` on its way to `k`. -/
def Flight (bl : NodeId → BLE) (net : NodeId → NodeId → List (Message E S)) (i k : NodeId) (r : HeartbeatReply) : Prop :=
  (∃ m ∈ (bl i).outgoing, m.dst = k ∧ m.msg = .reply r) ∨ ∃ m, .ble m ∈ net i k ∧ m.msg = .reply r

/-- A request of `k` on its way to `i`. -/
def Query (bl : NodeId → BLE) (net : NodeId → NodeId → List (Message E S)) (k i : NodeId) (x : Nat) : Prop :=
  (∃ m ∈ (bl k).outgoing, m.dst = i ∧ m.msg = .request x) ∨ ∃ m, .ble m ∈ net k i ∧ m.msg = .request x

/-- What `i` would reply. -/
def BLE.saying (b : BLE) (x : Nat) : HeartbeatReply := { round := x, ballot := b.current_ballot, leader := b.leader, happy := b.happy }

/-- Nothing of a later round is on the way between `k` and `i`. -/
def Recent (bl : NodeId → BLE) (net : NodeId → NodeId → List (Message E S)) (k i : NodeId) : Prop :=
  (∀ x, Query bl net k i x → x ≤ (bl k).hb_round) ∧ ∀ r, Flight bl net i k r → r.round ≤ (bl k).hb_round

/-- `Q` of all replies of `i` to `k` in the present round. -/
def Since (bl : NodeId → BLE) (net : NodeId → NodeId → List (Message E S)) (k i : NodeId) (Q : HeartbeatReply → Prop) : Prop :=
  (∀ r ∈ (bl k).heartbeat_replies, r.ballot.pid = i → Q r) ∧ ∀ r, Flight bl net i k r → r.round = (bl k).hb_round → Q r

/-- `Q` of all replies of `i` to `k`. -/
def Told (bl : NodeId → BLE) (net : NodeId → NodeId → List (Message E S)) (k i : NodeId) (Q : HeartbeatReply → Prop) : Prop :=
  (∀ r ∈ (bl k).heartbeat_replies, r.ballot.pid = i → Q r) ∧ ∀ r, Flight bl net i k r → Q r

theorem Since.mono (h : Since bl net k i Q) (hq : ∀ r, Q r → Q' r) : Since bl net k i Q' :=
  ⟨fun r hr hp => hq r (h.1 r hr hp), fun r hf hr => hq r (h.2 r hf hr)⟩

theorem Told.mono (h : Told bl net k i Q) (hq : ∀ r, Q r → Q' r) : Told bl net k i Q' :=
  ⟨fun r hr hp => hq r (h.1 r hr hp), fun r hf => hq r (h.2 r hf)⟩

theorem BMoves.fired (h : BMoves R bl net a bl' net') (hr : (bl' k).hb_round ≠ (bl k).hb_round) :
    a = .call k .tick ∧ ∃ b : BLE, b.Alike (bl k) ∧ bl' = putB bl k b.new_hb_round := by
  cases h with
  | idle => exact absurd rfl hr
  | @fire x b h1 h2 =>
    by_cases e : k = x
    · subst e; exact ⟨rfl, b, h1, rfl⟩
    · rw [putB_other e] at hr; exact absurd rfl hr
  | @take x =>
    by_cases e : k = x
    · subst e; rw [putB_self] at hr; exact absurd rfl hr
    · rw [putB_other e] at hr; exact absurd rfl hr
  | @beat x y _ m =>
    by_cases e : k = y
    · subst e; rw [putB_self, BLE.handle_round] at hr; exact absurd rfl hr
    · rw [putB_other e] at hr; exact absurd rfl hr
  | other => exact absurd rfl hr

theorem BLE.handle_saying (b : BLE) (m : BLEMessage) (x : Nat) : (b.handle m).saying x = b.saying x := by
  unfold BLE.handle
  split
  · rfl
  · unfold BLE.handle_reply; split <;> rfl

/-- Only an election timeout changes what a server says. -/
theorem BMoves.same (h : BMoves R bl net a bl' net') (hr : (bl' i).hb_round = (bl i).hb_round) (x : Nat) : (bl' i).saying x = (bl i).saying x := by
  cases h with
  | idle => rfl
  | @fire y b h1 h2 =>
    by_cases e : i = y
    · subst e; rw [putB_self, ← h1.round] at hr; exact absurd hr new_round_ne
    · rw [putB_other e]
  | @take y =>
    by_cases e : i = y
    · subst e; rw [putB_self]; rfl
    · rw [putB_other e]
  | @beat _ y _ m =>
    by_cases e : i = y
    · subst e; rw [putB_self]; exact BLE.handle_saying _ _ _
    · rw [putB_other e]
  | other => rfl

section
variable (h : BMoves R bl net a bl' net') (hH : Hearts R cc bl net) (ha : a.Calm cc) (hi : i ∈ cc.nodes) (hk : k ∈ cc.nodes)
include h hH ha hi hk

theorem BMoves.flight (hf : Flight bl' net' i k r) :
    Flight bl net i k r ∨ (a = .deliver k i ∧ ∃ x, Query bl net k i x ∧ r = (bl i).saying x) := by
  cases h with
  | idle => exact .inl hf
  | @fire y b h1 h2 =>
    refine .inl ?_
    rcases hf with ⟨m, hm, hd, hr⟩ | hf
    · by_cases e : i = y
      · subst e
        rw [putB_self] at hm
        rcases List.mem_append.1 hm with hm | hm
        · rw [h1.outgoing] at hm; exact .inl ⟨m, hm, hd, hr⟩
        · obtain ⟨q, _, rfl⟩ := List.mem_map.1 hm
          cases hr
      · rw [putB_other e] at hm; exact .inl ⟨m, hm, hd, hr⟩
    · exact .inr hf
  | @take y _ px h1 h2 =>
    refine .inl ?_
    rcases hf with ⟨m, hm, hd, hr⟩ | ⟨m, hm, hr⟩
    · by_cases e : i = y
      · subst e; rw [putB_self] at hm; cases hm
      · rw [putB_other e] at hm; exact .inl ⟨m, hm, hd, hr⟩
    · by_cases e : i = y
      · subst e
        rw [h1] at hm
        rcases List.mem_append.1 hm with hm | hm
        · exact .inr ⟨m, hm, hr⟩
        · rcases List.mem_append.1 hm with hm | hm
          · obtain ⟨q, _, hq⟩ := List.mem_map.1 hm
            cases hq
          · obtain ⟨q, hq1, hq⟩ := List.mem_map.1 hm
            cases hq
            obtain ⟨hq1, hq2⟩ := List.mem_filter.1 hq1
            exact .inl ⟨_, hq1, of_decide_eq_true hq2, hr⟩
      · rw [h2 _ _ e] at hm; exact .inr ⟨m, hm, hr⟩
  | @beat y z _ m h1 h2 =>
    rcases hf with ⟨x, hx, hd, hr⟩ | ⟨x, hx, hr⟩
    · by_cases e : i = z
      · subst e
        rw [putB_self] at hx
        have hl := hH.links y ha.1 i hi m (by rw [h1]; simp)
        unfold BLE.handle at hx
        split at hx
        · rename_i q hq
          rcases List.mem_append.1 hx with hx | hx
          · exact .inl (.inl ⟨x, hx, hd, hr⟩)
          · have := List.mem_singleton.1 hx
            subst this
            have e : y = k := hl.1.symm.trans hd
            subst e
            refine .inr ⟨rfl, q, .inr ⟨m, by rw [h1]; simp, hq⟩, ?_⟩
            cases hr
            rfl
        · have : x ∈ (bl i).outgoing := by
            unfold BLE.handle_reply at hx
            split at hx <;> exact hx
          exact .inl (.inl ⟨x, this, hd, hr⟩)
      · rw [putB_other e] at hx; exact .inl (.inl ⟨x, hx, hd, hr⟩)
    · refine .inl (.inr ⟨x, ?_, hr⟩)
      by_cases e : i = y ∧ k = z
      · obtain ⟨rfl, rfl⟩ := e
        rw [h1]; exact List.mem_cons_of_mem _ hx
      · rw [h2 _ _ e] at hx; exact hx
  | @other y z _ m h1 h2 =>
    rcases hf with hf | ⟨x, hx, hr⟩
    · exact .inl (.inl hf)
    · refine .inl (.inr ⟨x, ?_, hr⟩)
      by_cases e : i = y ∧ k = z
      · obtain ⟨rfl, rfl⟩ := e
        rw [h1]; exact List.mem_cons_of_mem _ hx
      · rw [h2 _ _ e] at hx; exact hx

theorem BMoves.query {x : Nat} (hf : Query bl' net' k i x) : Query bl net k i x ∨ x = (bl' k).hb_round := by
  cases h with
  | idle => exact .inl hf
  | @fire y b h1 h2 =>
    rcases hf with ⟨m, hm, hd, hr⟩ | hf
    · by_cases e : k = y
      · subst e
        rw [putB_self] at hm ⊢
        rcases List.mem_append.1 hm with hm | hm
        · rw [h1.outgoing] at hm; exact .inl (.inl ⟨m, hm, hd, hr⟩)
        · obtain ⟨q, _, rfl⟩ := List.mem_map.1 hm
          cases hr
          exact .inr rfl
      · rw [putB_other e] at hm; exact .inl (.inl ⟨m, hm, hd, hr⟩)
    · exact .inl (.inr hf)
  | @take y _ px h1 h2 =>
    refine .inl ?_
    rcases hf with ⟨m, hm, hd, hr⟩ | ⟨m, hm, hr⟩
    · by_cases e : k = y
      · subst e; rw [putB_self] at hm; cases hm
      · rw [putB_other e] at hm; exact .inl ⟨m, hm, hd, hr⟩
    · by_cases e : k = y
      · subst e
        rw [h1] at hm
        rcases List.mem_append.1 hm with hm | hm
        · exact .inr ⟨m, hm, hr⟩
        · rcases List.mem_append.1 hm with hm | hm
          · obtain ⟨q, _, hq⟩ := List.mem_map.1 hm
            cases hq
          · obtain ⟨q, hq1, hq⟩ := List.mem_map.1 hm
            cases hq
            obtain ⟨hq1, hq2⟩ := List.mem_filter.1 hq1
            exact .inl ⟨_, hq1, of_decide_eq_true hq2, hr⟩
      · rw [h2 _ _ e] at hm; exact .inr ⟨m, hm, hr⟩
  | @beat y z _ m h1 h2 =>
    refine .inl ?_
    rcases hf with ⟨q, hq, hd, hr⟩ | ⟨q, hq, hr⟩
    · by_cases e : k = z
      · subst e
        rw [putB_self] at hq
        unfold BLE.handle at hq
        split at hq
        · rcases List.mem_append.1 hq with hq | hq
          · exact .inl ⟨q, hq, hd, hr⟩
          · have := List.mem_singleton.1 hq
            subst this
            cases hr
        · have : q ∈ (bl k).outgoing := by
            unfold BLE.handle_reply at hq
            split at hq <;> exact hq
          exact .inl ⟨q, this, hd, hr⟩
      · rw [putB_other e] at hq; exact .inl ⟨q, hq, hd, hr⟩
    · refine .inr ⟨q, ?_, hr⟩
      by_cases e : k = y ∧ i = z
      · obtain ⟨rfl, rfl⟩ := e
        rw [h1]; exact List.mem_cons_of_mem _ hq
      · rw [h2 _ _ e] at hq; exact hq
  | @other y z _ m h1 h2 =>
    rcases hf with hf | ⟨q, hq, hr⟩
    · exact .inl (.inl hf)
    · refine .inl (.inr ⟨q, ?_, hr⟩)
      by_cases e : k = y ∧ i = z
      · obtain ⟨rfl, rfl⟩ := e
        rw [h1]; exact List.mem_cons_of_mem _ hq
      · rw [h2 _ _ e] at hq; exact hq

theorem BMoves.fresh (hF : Recent bl net k i) : Recent bl' net' k i := by
  have hle := h.round_le k
  have hq : ∀ x, Query bl' net' k i x → x ≤ (bl' k).hb_round := fun x hx => by
    rcases h.query hH ha hi hk hx with h1 | h1
    · exact Nat.le_trans (hF.1 x h1) hle
    · exact Nat.le_of_eq h1
  refine ⟨hq, fun r hr => ?_⟩
  rcases h.flight hH ha hi hk hr with h1 | ⟨_, x, h1, rfl⟩
  · exact Nat.le_trans (hF.2 r h1) hle
  · exact Nat.le_trans (hF.1 x h1) hle

omit hi in
theorem BMoves.reply (v : Signed cc R) (hr : r ∈ (bl' k).heartbeat_replies) :
    (bl' k).hb_round = (bl k).hb_round ∧ (r ∈ (bl k).heartbeat_replies ∨ (Flight bl net r.ballot.pid k r ∧ r.round = (bl k).hb_round)) := by
  cases h with
  | idle => exact ⟨rfl, .inl hr⟩
  | @fire y b h1 h2 =>
    by_cases e : k = y
    · subst e; rw [putB_self] at hr; cases hr
    · rw [putB_other e] at hr ⊢; exact ⟨rfl, .inl hr⟩
  | @take y =>
    by_cases e : k = y
    · subst e; rw [putB_self] at hr ⊢; exact ⟨rfl, .inl hr⟩
    · rw [putB_other e] at hr ⊢; exact ⟨rfl, .inl hr⟩
  | @beat y z _ m h1 h2 =>
    by_cases e : k = z
    · subst e
      rw [putB_self] at hr ⊢
      refine ⟨BLE.handle_round _ _, ?_⟩
      have hl := hH.links y ha.1 k hk m (by rw [h1]; simp)
      unfold BLE.handle at hr
      split at hr
      · exact .inl hr
      · rename_i q hq
        unfold BLE.handle_reply at hr
        split at hr
        · rename_i hc
          rcases List.mem_append.1 hr with hr | hr
          · exact .inl hr
          · have := List.mem_singleton.1 hr
            subst this
            refine .inr ⟨.inr ⟨m, ?_, hq⟩, hc.1⟩
            rw [v.sender (hl.2 r hq), h1]
            simp
        · exact .inl hr
    · rw [putB_other e] at hr ⊢; exact ⟨rfl, .inl hr⟩
  | other => exact ⟨rfl, .inl hr⟩

/-- A round in which `i` says `Q`. -/
theorem BMoves.since (v : Signed cc R) (hF : Recent bl net k i) (hs : Since bl net k i Q ∨ (bl' k).hb_round ≠ (bl k).hb_round)
    (hq : a = .deliver k i → ∀ x, Q ((bl i).saying x)) : Since bl' net' k i Q := by
  by_cases hr : (bl' k).hb_round = (bl k).hb_round
  · have hs : Since bl net k i Q := hs.resolve_right fun hc => hc hr
    refine ⟨fun r h1 hp => ?_, fun r h1 h2 => ?_⟩
    · rcases (h.reply hH ha hk v h1).2 with h2 | ⟨h2, h3⟩
      · exact hs.1 r h2 hp
      · rw [hp] at h2
        exact hs.2 r h2 h3
    · rcases h.flight hH ha hi hk h1 with h3 | ⟨e, x, _, rfl⟩
      · exact hs.2 r h3 (h2.trans hr)
      · exact hq e x
  · have hle := h.round_le k
    refine ⟨fun r h1 _ => absurd (h.reply hH ha hk v h1).1 hr, fun r h1 h2 => ?_⟩
    rcases h.flight hH ha hi hk h1 with h3 | ⟨e, _⟩
    · have := hF.2 r h3
      omega
    · obtain ⟨e', _⟩ := h.fired hr
      rw [e] at e'
      cases e'

theorem BMoves.told (v : Signed cc R) (ht : Told bl net k i Q) (hq : ∀ x, Q ((bl i).saying x)) : Told bl' net' k i Q := by
  refine ⟨fun r h1 hp => ?_, fun r h1 => ?_⟩
  · rcases (h.reply hH ha hk v h1).2 with h2 | ⟨h2, _⟩
    · exact ht.1 r h2 hp
    · rw [hp] at h2
      exact ht.2 r h2
  · rcases h.flight hH ha hi hk h1 with h3 | ⟨_, x, _, rfl⟩
    · exact ht.2 r h3
    · exact hq x

end

end Omni
