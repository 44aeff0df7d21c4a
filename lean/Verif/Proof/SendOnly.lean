import Verif.Proof.Sat
/-
Handlers that only send: they change the outgoing buffer and the leader's sequence numbers and buffer positions, nothing else.
-/
namespace Omni

variable {E S : Type}

/-- `s'` differs from `s` only in the outgoing buffer and the leader's message bookkeeping. -/
def SendOnly (s s' : SP E S) : Prop :=
  s' = { s with
    outgoing := s'.outgoing
    ls := { s.ls with latest_accept_meta := s'.ls.latest_accept_meta, follower_seq_nums := s'.ls.follower_seq_nums } }

theorem SendOnly.refl (s : SP E S) : SendOnly s s := rfl

theorem SendOnly.trans {s t u : SP E S} (h : SendOnly s t) (h' : SendOnly t u) : SendOnly s u := by
  unfold SendOnly at *
  rw [h] at h'
  exact h'

namespace LeaderState

theorem set_latest_accept_meta_eq {ls ls' : LeaderState E S} {pid : NodeId} {idx : Option Nat}
    (h : ls.set_latest_accept_meta pid idx = some ls') :
    ls' = { ls with latest_accept_meta := ls'.latest_accept_meta } := by
  unfold set_latest_accept_meta at h; split at h <;> simp at h; subst h; rfl

theorem next_seq_num_eq {ls : LeaderState E S} {pid : NodeId} {r : LeaderState E S × SeqNum}
    (h : ls.next_seq_num pid = some r) : r.1 = { ls with follower_seq_nums := r.1.follower_seq_nums } := by
  unfold next_seq_num at h; split at h
  · simp at h
  · simp only at h
    split at h <;> simp at h; subst h; rfl

theorem increment_eq {ls ls' : LeaderState E S} {pid : NodeId}
    (h : ls.increment_seq_num_session pid = some ls') :
    ls' = { ls with follower_seq_nums := ls'.follower_seq_nums } := by
  unfold increment_seq_num_session at h; split at h
  · simp at h
  · split at h <;> simp at h; subst h; rfl

end LeaderState

namespace SP

variable {s : SP E S}

theorem so_ls_meta {ls' : LeaderState E S} {pid : NodeId} {idx : Option Nat}
    (h : s.ls.set_latest_accept_meta pid idx = some ls') : SendOnly s { s with ls := ls' } := by
  unfold SendOnly; simp only
  have := LeaderState.set_latest_accept_meta_eq h
  conv => lhs; rw [this]
  unfold LeaderState.set_latest_accept_meta at h; split at h <;> simp at h; subst h; rfl

theorem so_next {pid : NodeId} {r : LeaderState E S × SeqNum}
    (h : s.ls.next_seq_num pid = some r) : SendOnly s { s with ls := r.1 } := by
  unfold LeaderState.next_seq_num at h; split at h
  · simp at h
  · simp only at h
    split at h <;> simp at h; subst h; rfl

theorem so_incr {ls' : LeaderState E S} {pid : NodeId}
    (h : s.ls.increment_seq_num_session pid = some ls') : SendOnly s { s with ls := ls' } := by
  unfold LeaderState.increment_seq_num_session at h; split at h
  · simp at h
  · split at h <;> simp at h; subst h; rfl

theorem so_out (l : List (PaxosMessage E S)) : SendOnly s { s with outgoing := l } := rfl

theorem so_send_prepare (to : NodeId) : M.Sat (send_prepare to) s (fun _ s' => SendOnly s s') (SendOnly s) := by
  simp only [send_prepare, M.sat_bind, M.sat_get, sat_send]; exact so_out _

theorem so_send_acceptdecide_to (es : List E) (pid : NodeId) :
    M.Sat (send_acceptdecide_to es pid) s (fun _ s' => SendOnly s s') (SendOnly s) := by
  simp only [send_acceptdecide_to, M.sat_bind, M.sat_get, M.sat_ofPan]
  refine ⟨fun r _ => ?_, fun _ => SendOnly.refl s⟩
  match r with
  | some (idx, acc) => exact so_out _
  | none =>
    simp only [M.sat_bind, sat_onLS, sat_onLS', sat_send]
    refine ⟨fun ls h => ⟨fun r h' => ?_, fun _ => so_ls_meta h⟩, fun _ => SendOnly.refl s⟩
    exact ((so_ls_meta h).trans (so_next (s := { s with ls := ls }) h')).trans (so_out _)

theorem so_forEach {α : Type} {xs : List α} {body : α → M (SP E S) Unit}
    (h : ∀ x (t : SP E S), M.Sat (body x) t (fun _ s' => SendOnly t s') (SendOnly t)) :
    M.Sat (M.forEach xs body) s (fun _ s' => SendOnly s s') (SendOnly s) :=
  M.sat_forEach (SendOnly s) (SendOnly.refl s) fun x _ t ht =>
    M.sat_mono (h x t) (fun _ _ h' => ht.trans h') fun _ h' => ht.trans h'

theorem so_send_acceptdecide (es : List E) :
    M.Sat (send_acceptdecide es) s (fun _ s' => SendOnly s s') (SendOnly s) := by
  simp only [send_acceptdecide, M.sat_bind, M.sat_get]
  exact so_forEach fun x t => so_send_acceptdecide_to es x

theorem so_seq (to : NodeId) (resend : Bool) :
    M.Sat (seqNumFor to resend) s (fun _ s' => SendOnly s s') (SendOnly s) := by
  unfold seqNumFor
  cases resend
  · simp only [Bool.false_eq_true, if_false, sat_onLS']
    exact ⟨fun r h => so_next h, fun _ => SendOnly.refl s⟩
  · simp only [if_true, sat_onLS', Option.map_eq_some_iff]
    refine ⟨?_, fun _ => SendOnly.refl s⟩
    rintro r ⟨q, _, rfl⟩
    exact SendOnly.refl s

theorem so_send_accept_stopsign (to : NodeId) (ss : StopSign) (resend : Bool) :
    M.Sat (send_accept_stopsign to ss resend) s (fun _ s' => SendOnly s s') (SendOnly s) := by
  unfold send_accept_stopsign
  rw [M.sat_bind]
  refine M.sat_mono (so_seq to resend) (fun q t h => ?_) fun _ h => h
  simp only [M.sat_bind, M.sat_get, sat_send]
  exact h.trans (so_out _)

theorem so_send_decide (to : NodeId) (d : Nat) (resend : Bool) :
    M.Sat (send_decide to d resend) s (fun _ s' => SendOnly s s') (SendOnly s) := by
  unfold send_decide
  rw [M.sat_bind]
  refine M.sat_mono (so_seq to resend) (fun q t h => ?_) fun _ h => h
  simp only [M.sat_bind, M.sat_get, sat_send]
  exact h.trans (so_out _)

theorem so_send_accsync [SnapOps E S] (to : NodeId) :
    M.Sat (send_accsync to) s (fun _ s' => SendOnly s s') (SendOnly s) := by
  simp only [send_accsync, M.sat_bind, M.sat_get, M.sat_ofPan, sat_onLS, sat_onLS', sat_send]
  refine ⟨fun r _ => ⟨fun l _ => ⟨fun ls h => ⟨fun r h' => ?_, fun _ => so_incr h⟩, fun _ => SendOnly.refl s⟩,
    fun _ => SendOnly.refl s⟩, fun _ => SendOnly.refl s⟩
  exact ((so_incr h).trans (so_next (s := { s with ls := ls }) h')).trans (so_out _)

theorem so_announce_decided (d : Nat) (pid : NodeId) :
    M.Sat (announce_decided d pid) s (fun _ s' => SendOnly s s') (SendOnly s) := by
  simp only [announce_decided, M.sat_bind, M.sat_get, M.sat_ofPan]
  refine ⟨fun r _ => ?_, fun _ => SendOnly.refl s⟩
  match r with
  | some (idx, acc) => exact so_out _
  | none => exact so_send_decide _ _ _

theorem so_resend_prepare : M.Sat resend_prepare s (fun _ s' => SendOnly s s') (SendOnly s) := by
  simp only [resend_prepare, M.sat_bind, M.sat_get, M.sat_ofPan]
  exact ⟨fun r _ => so_forEach fun x t => so_send_prepare x, fun _ => SendOnly.refl s⟩

theorem so_resend_stopsign (ss : StopSign) (f : NodeId) :
    M.Sat (resend_stopsign ss f) s (fun _ s' => SendOnly s s') (SendOnly s) := by
  simp only [resend_stopsign, M.sat_bind, M.sat_get, M.sat_ite, M.sat_ofPan, M.sat_pure]
  exact ⟨fun _ => so_send_decide _ _ _, fun _ => ⟨fun a _ => ⟨fun _ => so_send_accept_stopsign _ _ _, fun _ => SendOnly.refl s⟩,
    fun _ => SendOnly.refl s⟩⟩

theorem so_resend_messages_leader : M.Sat resend_messages_leader s (fun _ s' => SendOnly s s') (SendOnly s) := by
  simp only [resend_messages_leader, M.sat_bind, M.sat_get]
  cases s.phase with
  | prepare => exact so_resend_prepare
  | recover => exact SendOnly.refl s
  | none => exact SendOnly.refl s
  | accept =>
    simp only [M.sat_bind]
    have h1 : M.Sat resend_stopsigns s (fun _ s' => SendOnly s s') (SendOnly s) := by
      simp only [resend_stopsigns, M.sat_bind, M.sat_get]
      cases s.ist.cache.stopsign with
      | none => exact SendOnly.refl s
      | some ss => exact so_forEach fun x t => so_resend_stopsign ss x
    exact M.sat_mono h1 (fun _ t h => M.sat_mono so_resend_prepare (fun _ _ h' => h.trans h') fun _ h' => h.trans h')
      fun _ h => h

end SP
end Omni
