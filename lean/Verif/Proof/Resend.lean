import Verif.Spec.Resend
import Verif.Proof.Sat
import Verif.Proof.Safety.Slot
/-
The messages sent at the resend timeout.
-/
namespace Omni

variable {E S : Type}

/-- A loop whose body only sends what depends on its element. -/
theorem SP.forEach_out {α : Type} {xs : List α} {body : α → M (SP E S) Unit} {s : SP E S} (g : α → List (PaxosMessage E S))
    (h : ∀ x ∈ xs, ∀ O, M.Sat (body x) { s with outgoing := O } (fun _ t => t = { s with outgoing := O ++ g x }) (fun _ => True)) (O) :
    M.Sat (M.forEach xs body) { s with outgoing := O } (fun _ t => t = { s with outgoing := O ++ xs.flatMap g }) (fun _ => True) := by
  induction xs generalizing O with
  | nil => simp
  | cons x xs ih =>
    rw [M.sat_forEach_cons]
    refine M.sat_mono (h x List.mem_cons_self O) (fun _ t ht => ?_) fun _ h => h
    subst ht
    refine M.sat_mono (ih (fun y hy => h y (List.mem_cons_of_mem _ hy)) _) (fun _ t ht => ?_) fun _ h => h
    rw [ht]; simp [List.append_assoc]

theorem LeaderState.mem_preparable {ls : LeaderState E S} {ps r : List NodeId} (h : ls.get_preparable_peers ps = some r) (p : NodeId) :
    p ∈ r ↔ p ∈ ps ∧ slot ls.promises_meta p = some .notPromised := by
  induction ps generalizing r with
  | nil => simp only [get_preparable_peers, Option.some.injEq] at h; subst h; simp
  | cons x ps ih =>
    simp only [get_preparable_peers] at h
    split at h
    · cases h
    · rename_i st hst
      split at h
      · cases h
      · rename_i r' hr'
        have := ih hr'
        split at h
        · cases h
          simp only [List.mem_cons, this]
          constructor
          · rintro (rfl | ⟨h1, h2⟩)
            · exact ⟨.inl rfl, hst⟩
            · exact ⟨.inr h1, h2⟩
          · rintro ⟨rfl | h1, h2⟩
            · exact .inl rfl
            · exact .inr ⟨h1, h2⟩
        · rename_i hne
          cases h
          simp only [List.mem_cons, this]
          constructor
          · rintro ⟨h1, h2⟩; exact ⟨.inr h1, h2⟩
          · rintro ⟨rfl | h1, h2⟩
            · rw [hst] at h2; cases h2; exact absurd rfl hne
            · exact ⟨h1, h2⟩

theorem LeaderState.preparable_sublist {ls : LeaderState E S} {ps r : List NodeId} (h : ls.get_preparable_peers ps = some r) :
    r.Sublist ps := by
  induction ps generalizing r with
  | nil => simp only [get_preparable_peers, Option.some.injEq] at h; subst h; simp
  | cons x ps ih =>
    simp only [get_preparable_peers] at h
    split at h
    · cases h
    · split at h
      · cases h
      · rename_i r' hr'
        split at h
        · cases h; exact (ih hr').cons_cons x
        · cases h; exact (ih hr').cons x

theorem nodup_dst {xs : List NodeId} {g : NodeId → List (PaxosMessage E S)} (hx : xs.Nodup) (hg : ∀ x, (g x).Nodup)
    (hd : ∀ x, ∀ m ∈ g x, m.dst = x) : (xs.flatMap g).Nodup := by
  induction xs with
  | nil => simp
  | cons x xs ih =>
    rw [List.flatMap_cons, List.nodup_append]
    rw [List.nodup_cons] at hx
    refine ⟨hg x, ih hx.2, fun a ha b hb e => ?_⟩
    subst e
    obtain ⟨y, hy, hay⟩ := List.mem_flatMap.1 hb
    have := hd x a ha
    rw [hd y a hay] at this
    subst this
    exact hx.1 hy

/-- The list sent, and the state afterwards. -/
def SP.Resends (s t : SP E S) : Prop :=
  ∃ l, t = { s with outgoing := s.outgoing ++ l, phase := t.phase } ∧ (∀ m, m ∈ l ↔ s.Due m) ∧ (s.peers.Nodup → l.Nodup) ∧
    t.phase = (if s.role = .follower ∧ s.phase = .prepare ∧ s.cached_promise = none then .recover else s.phase)

namespace SP

variable {s : SP E S}

theorem resend_prepare_out (O : List (PaxosMessage E S)) : M.Sat resend_prepare { s with outgoing := O } (fun _ t => ∃ ps,
    s.ls.get_preparable_peers s.peers = some ps ∧ t = { s with outgoing := O ++ ps.flatMap fun p => [⟨s.pid, p, .prepare
      { n := s.ls.n_leader, decided_idx := s.ist.cache.decided_idx, n_accepted := s.ist.cache.accepted_round,
        accepted_idx := s.ist.cache.accepted_idx }⟩] }) (fun _ => True) := by
  simp only [resend_prepare, M.sat_bind, M.sat_get, M.sat_ofPan]
  refine ⟨fun ps hps => ?_, fun _ => trivial⟩
  exact M.sat_mono (forEach_out _ (fun p _ O => by simp only [send_prepare, M.sat_bind, M.sat_get, sat_send]) O)
    (fun _ t ht => ⟨ps, hps, ht⟩) fun _ h => h

/-- What a leader sends about its StopSign to one follower. -/
def ssDue (s : SP E S) (ss : StopSign) (p : NodeId) : List (PaxosMessage E S) :=
  match slot s.ls.follower_seq_nums p, slot s.ls.accepted_indexes p with
  | some q, a =>
    if s.ist.cache.stopsign_is_decided = true then
      [⟨s.pid, p, .decide { n := s.ls.n_leader, seq_num := q, decided_idx := s.ist.cache.decided_idx }⟩]
    else match a with
      | some a => if a ≠ s.ist.cache.accepted_idx then [⟨s.pid, p, .acceptStopSign { n := s.ls.n_leader, seq_num := q, ss }⟩] else []
      | none => []
  | none, _ => []

theorem ssDue_dst {ss : StopSign} {p : NodeId} {m : PaxosMessage E S} (h : m ∈ s.ssDue ss p) : m.dst = p ∧ ∀ x, m.msg ≠ .prepare x := by
  unfold ssDue at h
  (repeat' split at h) <;> simp at h <;> subst h <;> exact ⟨rfl, nofun⟩

theorem ssDue_nodup (ss : StopSign) (p : NodeId) : (s.ssDue ss p).Nodup := by
  unfold ssDue
  repeat' split
  all_goals simp

theorem resend_stopsign_out (ss : StopSign) (p : NodeId) (O : List (PaxosMessage E S)) :
    M.Sat (resend_stopsign ss p) { s with outgoing := O } (fun _ t => t = { s with outgoing := O ++ s.ssDue ss p }) (fun _ => True) := by
  simp only [resend_stopsign, M.sat_bind, M.sat_get, M.sat_ite, M.sat_ofPan, M.sat_pure, send_decide, send_accept_stopsign, seqNumFor,
    if_true, sat_onLS', sat_send, LeaderState.get_seq_num, LeaderState.get_accepted_idx]
  refine ⟨fun hd => ⟨fun r hr => ?_, fun _ => trivial⟩, fun hd => ⟨fun a ha => ⟨fun hne => ⟨fun r hr => ?_, fun _ => trivial⟩, fun he => ?_⟩,
    fun _ => trivial⟩⟩
  · simp only [Option.map_eq_some_iff] at hr
    obtain ⟨q, hq, rfl⟩ := hr
    simp only [ssDue, hq, hd, if_true]
  · simp only [Option.map_eq_some_iff] at hr
    obtain ⟨q, hq, rfl⟩ := hr
    simp only [ssDue, hq, ha, hd, hne, ne_eq, not_false_eq_true, if_true, if_false]
    simp
  · simp only [ne_eq, Decidable.not_not] at he
    have : s.ssDue ss p = [] := by
      unfold ssDue
      split
      · simp [hd, ha, he]
      · rfl
    rw [this, List.append_nil]

theorem resend_due : M.Sat resend_message_timeout s (fun _ t => s.Resends t) (fun _ => True) := by
  have hall : ∀ t : SP E S, M.Sat send_preparereq_to_all_peers t (fun _ u =>
      u = { t with outgoing := t.outgoing ++ t.peers.flatMap (fun p => [⟨t.pid, p, .prepareReq t.ist.cache.promise⟩]) }) (fun _ => True) := by
    intro t
    simp only [send_preparereq_to_all_peers, M.sat_bind, M.sat_get]
    exact forEach_out (s := t) _ (fun p _ O => by simp only [sat_send]; rfl) t.outgoing
  simp only [resend_message_timeout, M.sat_bind, M.sat_get]
  split
  · rename_i hrole
    simp only [resend_messages_leader, M.sat_bind, M.sat_get]
    split
    · rename_i hph
      refine M.sat_mono (resend_prepare_out (s := s) s.outgoing) (fun _ t ht => ?_) fun _ h => h
      obtain ⟨ps, hps, rfl⟩ := ht
      refine ⟨_, rfl, fun m => ?_, fun hnd => nodup_dst (hnd.sublist (LeaderState.preparable_sublist hps)) (by simp) (by simp), by simp [hrole]⟩
      simp only [List.mem_flatMap, List.mem_singleton, LeaderState.mem_preparable hps]
      constructor
      · rintro ⟨p, ⟨h1, h2⟩, rfl⟩; exact .prepare p hrole (.inl hph) h1 h2
      · intro h
        cases h with
        | prepare p _ _ h1 h2 => exact ⟨p, ⟨h1, h2⟩, rfl⟩
        | stopsign _ _ _ _ _ _ h => rw [hph] at h; cases h
        | decide _ _ _ _ _ h => rw [hph] at h; cases h
        | promise _ h => rw [hrole] at h; cases h
        | prepareReq _ h => rw [hrole] at h; cases h
    · rename_i hph
      have h1 : M.Sat resend_stopsigns s (fun _ t => ∃ l, t = { s with outgoing := s.outgoing ++ l } ∧
          (∀ m, m ∈ l ↔ ∃ ss, s.ist.cache.stopsign = some ss ∧ ∃ p, p ∈ s.ls.get_promised_followers ∧ m ∈ s.ssDue ss p) ∧ l.Nodup)
          (fun _ => True) := by
        simp only [resend_stopsigns, M.sat_bind, M.sat_get]
        cases hss : s.ist.cache.stopsign with
        | none => exact ⟨[], by simp, by simp, by simp⟩
        | some ss =>
          refine M.sat_mono (forEach_out (s := s) (s.ssDue ss) (fun p _ O => resend_stopsign_out ss p O) s.outgoing)
            (fun _ t ht => ⟨_, ht, fun m => ?_, nodup_dst (LeaderState.followers_nodup _) (ssDue_nodup ss)
              fun x m hm => (ssDue_dst hm).1⟩) fun _ h => h
          simp only [List.mem_flatMap, Option.some.injEq, exists_eq_left']
      rw [M.sat_bind]
      refine M.sat_mono h1 (fun _ t ht => ?_) fun _ h => h
      obtain ⟨l, rfl, hl, hlnd⟩ := ht
      refine M.sat_mono (resend_prepare_out (s := s) _) (fun _ t ht => ?_) fun _ h => h
      obtain ⟨ps, hps, rfl⟩ := ht
      refine ⟨l ++ _, by rw [List.append_assoc], fun m => ?_, fun hnd => List.nodup_append.2 ⟨hlnd,
        nodup_dst (hnd.sublist (LeaderState.preparable_sublist hps)) (by simp) (by simp), ?_⟩, by simp [hrole]⟩
      rotate_left
      · intro a ha b hb e
        subst e
        obtain ⟨ss, _, p, _, hm⟩ := (hl a).1 ha
        obtain ⟨q, _, hq⟩ := List.mem_flatMap.1 hb
        rw [List.mem_singleton] at hq
        exact (ssDue_dst hm).2 _ (by rw [hq])
      simp only [List.mem_append, hl, List.mem_flatMap, List.mem_singleton, LeaderState.mem_preparable hps, LeaderState.mem_followers]
      constructor
      · rintro (⟨ss, hss, p, ⟨hne, pm, hpm⟩, hm⟩ | ⟨p, ⟨h1, h2⟩, rfl⟩)
        · unfold ssDue at hm
          split at hm
          · rename_i q hq
            simp only [StateCache.stopsign_is_decided, hss, Option.isSome_some, Bool.true_and, decide_eq_true_eq] at hm
            split at hm
            · rename_i hd
              rw [List.mem_singleton.1 hm]
              exact .decide p pm ss q hrole hph hpm hne hss hd hq
            · rename_i hd
              split at hm
              · rename_i a ha
                split at hm
                · rename_i hna
                  rw [List.mem_singleton.1 hm]
                  exact .stopsign p pm ss q a hrole hph hpm hne hss hd ha hna hq
                · cases hm
              · cases hm
          · cases hm
        · exact .prepare p hrole (.inr hph) h1 h2
      · intro h
        cases h with
        | prepare p _ _ h1 h2 => exact .inr ⟨p, ⟨h1, h2⟩, rfl⟩
        | stopsign p pm ss q a _ _ h1 h2 h3 h4 h5 h6 h7 =>
          refine .inl ⟨ss, h3, p, ⟨h2, pm, h1⟩, ?_⟩
          simp [ssDue, h7, h5, h6, h4, StateCache.stopsign_is_decided]
        | decide p pm ss q _ _ h1 h2 h3 h4 h5 =>
          refine .inl ⟨ss, h3, p, ⟨h2, pm, h1⟩, ?_⟩
          simp [ssDue, h5, h3, h4, StateCache.stopsign_is_decided]
        | promise _ h => rw [hrole] at h; cases h
        | prepareReq _ h => rw [hrole] at h; cases h
    all_goals
      rename_i hph
      refine ⟨[], by simp, fun m => ⟨nofun, fun h => ?_⟩, by simp, by simp [hrole]⟩
      cases h <;> simp_all
  · rename_i hrole
    simp only [resend_messages_follower, M.sat_bind, M.sat_get]
    split
    · rename_i hph
      split
      · rename_i pr hpr
        rw [sat_send]
        refine ⟨_, rfl, fun m => ?_, by simp, by simp [hpr]⟩
        rw [List.mem_singleton]
        constructor
        · rintro rfl; exact .promise pr hrole hph hpr
        · intro h
          cases h with
          | promise pr' _ _ h => rw [hpr] at h; cases h; rfl
          | prepareReq _ _ h => simp_all
          | _ => simp_all
      · rename_i hpr
        simp only [M.sat_bind, sat_setState]
        refine M.sat_mono (hall _) (fun _ t ht => ?_) fun _ h => h
        subst ht
        refine ⟨_, by rw [← hrole], fun m => ?_, fun hnd => nodup_dst hnd (by simp) (by simp), by simp [hrole, hph, hpr]⟩
        simp only [List.mem_flatMap, List.mem_singleton]
        constructor
        · rintro ⟨p, hp, rfl⟩; exact .prepareReq p hrole (.inr ⟨hph, hpr⟩) hp
        · intro h
          cases h with
          | prepareReq p _ _ h => exact ⟨p, h, rfl⟩
          | _ => simp_all
    · rename_i hph
      refine M.sat_mono (hall _) (fun _ t ht => ?_) fun _ h => h
      subst ht
      refine ⟨_, rfl, fun m => ?_, fun hnd => nodup_dst hnd (by simp) (by simp), by simp [hph]⟩
      simp only [List.mem_flatMap, List.mem_singleton]
      constructor
      · rintro ⟨p, hp, rfl⟩; exact .prepareReq p hrole (.inl hph) hp
      · intro h
        cases h with
        | prepareReq p _ _ h => exact ⟨p, h, rfl⟩
        | _ => simp_all
    all_goals
      rename_i hph
      refine ⟨[], by simp, fun m => ⟨nofun, fun h => ?_⟩, by simp, by simp [hph]⟩
      cases h <;> simp_all

end SP
end Omni
