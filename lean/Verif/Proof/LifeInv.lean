import Verif.Proof.ServerInv
import Verif.Proof.Clock
import Verif.Spec.Life
/-
The server invariants along a whole life with crashes and restarts.
-/
namespace Omni

variable {E S : Type}

/-- What a freshly built server looks like. -/
theorem OP.build_eq {cfg : OmniPaxosConfig} {d : Mem E S} {op : OP E S} (hb : OP.build cfg d = some (.ok op)) :
    ∃ mp, SP.maxPid cfg.server_config.pid (SP.peersOf cfg.cluster_config.nodes cfg.server_config.pid) = some mp ∧
      op = { sp :=
              { ist :=
                  { storage := { d with n_prom := some (d.n_prom.getD {}) }
                    cache :=
                      { batch_size := cfg.server_config.batch_size
                        promise := d.n_prom.getD {}
                        decided_idx := d.ld
                        accepted_round := d.acc_round.getD {}
                        compacted_idx := d.compacted_idx
                        stopsign := d.stopsign
                        accepted_idx := d.log.length + d.compacted_idx + (if d.stopsign.isSome then 1 else 0) }
                    trail := [{ d with n_prom := some (d.n_prom.getD {}) }]
                    calls := [.one (.setPromise (d.n_prom.getD {}))] }
                pid := cfg.server_config.pid
                peers := SP.peersOf cfg.cluster_config.nodes cfg.server_config.pid
                role := .follower
                phase := if d.n_prom.isSome then .recover else .none
                buffered_proposals := []
                buffered_stopsign := none
                outgoing := match d.n_prom with
                  | some b => (SP.peersOf cfg.cluster_config.nodes cfg.server_config.pid).map fun p =>
                      { src := cfg.server_config.pid, dst := p, msg := .prepareReq b }
                  | none => []
                ls := LeaderState.with (d.n_prom.getD {}) mp (Quorum.with cfg.cluster_config.flexible_quorum
                  ((SP.peersOf cfg.cluster_config.nodes cfg.server_config.pid).length + 1))
                latest_accepted_meta := none
                current_seq_num := {}
                cached_promise := none }
             ble := BLE.with cfg.cluster_config.configuration_id cfg.server_config.pid
                (SP.peersOf cfg.cluster_config.nodes cfg.server_config.pid) cfg.server_config.leader_priority
                cfg.cluster_config.flexible_quorum d.n_prom
             election_clock := LogicalClock.with cfg.server_config.election_tick_timeout
             resend_message_clock := LogicalClock.with cfg.server_config.resend_message_tick_timeout
             flush_batch_clock := LogicalClock.with cfg.server_config.flush_batch_tick_timeout } := by
  unfold OP.build at hb
  split at hb
  · simp at hb
  · simp only at hb
    split at hb
    · simp at hb
    · rename_i sp hsp
      simp at hb
      unfold SP.with at hsp
      split at hsp
      · simp at hsp
      · rename_i mp hmp
        refine ⟨mp, hmp, ?_⟩
        simp only [Option.some.injEq] at hsp
        rw [← hb, ← hsp]
        rfl

/-- `SInv` while up, `DiskOK` while down. -/
def LifeInv (b : Ballot) (c : Nat) (l : LeadBound) : Server E S → Prop
  | .up op => SInv b c l op.clearTrail.sp
  | .down d => DiskOK b c d

theorem SInv.clear {b : Ballot} {c : Nat} {l : LeadBound} {op : OP E S} (h : SInv b c l op.sp) :
    SInv b c l op.clearTrail.sp :=
  ⟨⟨⟨h.ist.mir.prom, h.ist.mir.acc, h.ist.mir.dec, h.ist.mir.comp, h.ist.mir.trim, h.ist.mir.ss⟩,
    h.ist.prom, h.ist.comp, by simp [OP.clearTrail]⟩, h.lead, h.role, h.acc, h.below⟩

theorem Server.life_inv [SnapOps E S] {b : Ballot} {c : Nat} {l : LeadBound} (hl : l.lo ≤ b) {s s' : Server E S}
    {e : LifeEvent E S} (h : LifeInv b c l s) (he : s.life e = some s') : LifeInv b c l s' := by
  cases s with
  | down d =>
    cases e <;> simp only [Server.life] at he <;> try (simp at he; done)
    rename_i cfg
    split at he
    · rename_i op hop
      simp at he; subst he
      obtain ⟨mp, -, rfl⟩ := OP.build_eq hop
      refine ⟨⟨⟨rfl, rfl, rfl, rfl, h.trim, rfl⟩, h.prom, h.comp, ?_⟩, Ballot.le_trans hl h.prom, ?_, ?_, Ballot.le_refl _⟩
      · simp [OP.clearTrail]
      · simp [OP.clearTrail]
      · simp only [OP.clearTrail]; split <;> simp
    · simp at he
  | up op =>
    have h' : SInv b c l op.clearTrail.sp := h
    cases e <;> simp only [Server.life] at he
    · simp at he
    · simp at he; subst he; exact h'.ist.disk
    · simp at he; subst he
      rename_i call
      have := Call.inv (op := op.clearTrail) call h'
      unfold M.Sat at this
      unfold OP.callResult
      cases hr : call.run op.clearTrail with
      | ok a op' => rw [hr] at this; exact this.clear
      | panic op' => rw [hr] at this; exact this.disk
    · rename_i call k
      split at he
      · rename_i d hd
        simp at he; subst he
        have := Call.inv (op := op.clearTrail) call h'
        unfold M.Sat at this
        unfold OP.callTrail at hd
        cases hr : call.run op.clearTrail with
        | ok a op' =>
          rw [hr] at this hd
          exact this.ist.trail _ (List.mem_of_getElem? hd)
        | panic op' =>
          rw [hr] at this hd
          exact this.trail _ (List.mem_of_getElem? hd)
      · simp at he
    · simp at he; subst he
      exact ⟨⟨⟨h'.ist.mir.prom, h'.ist.mir.acc, h'.ist.mir.dec, h'.ist.mir.comp, h'.ist.mir.trim, h'.ist.mir.ss⟩,
        h'.ist.prom, h'.ist.comp, h'.ist.trail⟩, h'.lead, h'.role, h'.acc, h'.below⟩

theorem Server.lives_inv [SnapOps E S] {b : Ballot} {c : Nat} {l : LeadBound} (hl : l.lo ≤ b) {s s' : Server E S}
    {es : List (LifeEvent E S)} (h : LifeInv b c l s) (he : s.lives es = some s') : LifeInv b c l s' := by
  induction es generalizing s with
  | nil => simp [Server.lives] at he; subst he; exact h
  | cons e es ih =>
    simp only [Server.lives] at he
    split at he
    · simp at he
    · rename_i t ht
      exact ih (Server.life_inv hl h ht) he

/-- The bounds may be moved to the present values. -/
theorem LifeInv.rebase {b : Ballot} {c : Nat} {l : LeadBound} {s : Server E S} (h : LifeInv b c l s) :
    LifeInv s.promise s.compacted l s := by
  cases s with
  | down d => exact ⟨Ballot.le_refl _, Nat.le_refl _, h.trim⟩
  | up op =>
    have h' : SInv b c l op.clearTrail.sp := h
    have hp : op.sp.ist.cache.promise = op.sp.ist.storage.prom := h'.ist.mir.prom
    have hc : op.sp.ist.cache.compacted_idx = op.sp.ist.storage.compacted_idx := h'.ist.mir.comp
    refine ⟨⟨h'.ist.mir, ?_, ?_, by simp [OP.clearTrail]⟩, h'.lead, h'.role, h'.acc, h'.below⟩
    · exact Ballot.le_of_eq hp
    · exact Nat.le_of_eq hc

theorem LifeInv.bounds {b : Ballot} {c : Nat} {l : LeadBound} {s : Server E S} (h : LifeInv b c l s) :
    b ≤ s.promise ∧ c ≤ s.compacted := by
  cases s with
  | down d => exact ⟨h.prom, h.comp⟩
  | up op =>
    have h' : SInv b c l op.clearTrail.sp := h
    have hp : op.sp.ist.cache.promise = op.sp.ist.storage.prom := h'.ist.mir.prom
    have hc : op.sp.ist.cache.compacted_idx = op.sp.ist.storage.compacted_idx := h'.ist.mir.comp
    refine ⟨?_, ?_⟩
    · show b ≤ op.sp.ist.cache.promise
      rw [hp]; exact h'.ist.prom
    · show c ≤ op.sp.ist.cache.compacted_idx
      rw [hc]; exact h'.ist.comp

theorem LifeInv.start {d : Mem E S} (h : d.trimmed_idx = d.compacted_idx) (l : LeadBound) :
    LifeInv d.prom 0 l (Server.down d) := ⟨Ballot.le_refl _, Nat.zero_le _, h⟩

end Omni
