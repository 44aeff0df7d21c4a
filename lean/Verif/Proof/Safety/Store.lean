import Verif.Proof.Safety.Hoare
/-
What the storage operations do to disk, cache and history.
-/
namespace Omni

variable {E S : Type}

namespace IStore

/-- After `append_entries_without_batching`. -/
def appended (s : IStore E S) (es : List E) : IStore E S :=
  { s with
    storage := { s.storage with log := s.storage.log ++ es }
    cache := { s.cache with accepted_idx := s.cache.accepted_idx + es.length }
    trail := { s.storage with log := s.storage.log ++ es } :: s.trail
    calls := .one (.appendEntries es) :: s.calls }

theorem wrote_appended (s : IStore E S) (es : List E) : s.Wrote (s.appended es) := ⟨rfl, _, rfl, Fits.append ..⟩

/-- With another batch. -/
def batch (s : IStore E S) (es : List E) : IStore E S := { s with cache := { s.cache with batched_entries := es } }

/-- After `flush_batch`. -/
def flushed (s : IStore E S) : IStore E S := (s.batch []).appended s.cache.batched_entries

theorem sat_append_nb {es : List E} {s : IStore E S} {Q P} :
    M.Sat (append_entries_without_batching es) s Q P ↔ Q (s.cache.accepted_idx + es.length) (s.appended es) := by
  simp only [append_entries_without_batching, M.sat_bind, M.sat_get, sat_write_append, sat_write_stopsign, sat_write_promise, sat_write_decided, sat_setCache, M.sat_pure]
  exact Iff.rfl

theorem sat_flush_batch {s : IStore E S} {Q P} :
    M.Sat flush_batch s Q P ↔ Q (s.cache.accepted_idx + s.cache.batched_entries.length) s.flushed := by
  simp only [flush_batch, M.sat_bind, M.sat_get, sat_setCache, sat_append_nb]
  exact Iff.rfl

/-- After `set_promise`. -/
def promised (s : IStore E S) (n : Ballot) : IStore E S :=
  { s with
    storage := { s.storage with n_prom := some n }
    cache := { s.cache with promise := n }
    trail := { s.storage with n_prom := some n } :: s.trail
    calls := .one (.setPromise n) :: s.calls }

theorem wrote_promised (s : IStore E S) (n : Ballot) : s.Wrote (s.promised n) := ⟨rfl, _, rfl, Fits.promise ..⟩

theorem sat_set_promise {n : Ballot} {s : IStore E S} {Q P} :
    M.Sat (set_promise n) s Q P ↔ Q () (s.promised n) := by
  simp only [set_promise, M.sat_bind, M.sat_get, sat_write_append, sat_write_stopsign, sat_write_promise, sat_write_decided, sat_setCache]
  exact Iff.rfl

/-- After `set_decided_idx`. -/
def decided (s : IStore E S) (k : Nat) : IStore E S :=
  { s with
    storage := { s.storage with ld := k }
    cache := { s.cache with decided_idx := k }
    trail := { s.storage with ld := k } :: s.trail
    calls := .one (.setDecidedIndex k) :: s.calls }

theorem wrote_decided (s : IStore E S) (k : Nat) : s.Wrote (s.decided k) := ⟨rfl, _, rfl, Fits.decided ..⟩

theorem sat_set_decided_idx {k : Nat} {s : IStore E S} {Q P} :
    M.Sat (set_decided_idx k) s Q P ↔ Q () (s.decided k) := by
  simp only [set_decided_idx, M.sat_bind, M.sat_get, sat_write_append, sat_write_stopsign, sat_write_promise, sat_write_decided, sat_setCache]
  exact Iff.rfl

end IStore

/-- The history grows only by this server's accepted log, or its promises. -/
structure Ext (i : NodeId) (allow : Allow) (G G' : Ghost E) : Prop where
  step : Step i allow G G'
  endf : ∀ n F q, G'.endf n F q = G.endf n F q
  curg : ∀ n F, G'.curg n F = G.curg n F
  init : ∀ n, G'.init n = G.init n
  dead : G'.dead = G.dead

theorem Ext.refl (i : NodeId) (allow) (G : Ghost E) : Ext i allow G G := ⟨Step.refl _ _ _, fun _ _ _ => rfl, fun _ _ => rfl, fun _ => rfl, rfl⟩

theorem Ext.trans {i : NodeId} {allow} {G G' G'' : Ghost E} (h : Ext i allow G G') (h' : Ext i allow G' G'') : Ext i allow G G'' :=
  ⟨h.step.trans h'.step, fun n F q => (h'.endf n F q).trans (h.endf n F q), fun n F => (h'.curg n F).trans (h.curg n F),
   fun n => (h'.init n).trans (h.init n), h'.dead.trans h.dead⟩

section disk
variable {cc : ClusterConfig} {i : NodeId} {G G' : Ghost E} {d : Mem E S} {lg : Lg E}

theorem DiskInv.append (h : DiskInv cc i G d lg) {es : List E} (hM : Mono G G')
    (hss : es = [] ∨ lg.ss = none) (hp : es = [] ∨ d.prom = d.acc_round.getD {})
    (ha : G'.acc i (d.acc_round.getD {}) = some ⟨lg.es ++ es, lg.ss⟩)
    (hm : ∀ b, G'.acc i b ≠ none → b ≤ d.acc_round.getD {}) (hpr : ∀ b, G'.prec i b = G.prec i b) :
    DiskInv cc i G' { d with log := d.log ++ es } ⟨lg.es ++ es, lg.ss⟩ := by
  have hle : lg ≤ ⟨lg.es ++ es, lg.ss⟩ := by
    rcases hss with rfl | h0
    · exact .inr (by simp)
    · exact .inl ⟨h0, List.prefix_append _ _⟩
  exact {
    acc := ha
    log := by
      show d.log ++ es = (lg.es ++ es).drop d.compacted_idx
      rcases hss with rfl | h0
      · simp [h.log]
      · have : d.compacted_idx ≤ lg.es.length := by rcases h.cov with h1 | h1; exact h1; exact absurd h0 h1
        rw [List.drop_append_of_le_length this, ← h.log]
    trim := h.trim
    ss := h.ss
    cov := h.cov.mono hle
    dec := (h.dec.mono hM).up (Ballot.le_refl _) hle
    snap := fun hs => (h.snap hs).mono hM
    le := h.le
    good := h.good
    accMax := hm
    precMax := fun b hb => h.precMax b (by rw [hpr b] at hb; exact hb)
    precCur := fun hne => by
      rcases hp with rfl | hp
      · rw [hpr]
        have := h.precCur hne
        simp only [List.append_nil]
        exact this
      · exact absurd hp hne }

theorem DiskInv.decide (h : DiskInv cc i G d lg) {k : Nat} (hd : G.DecOK cc (d.acc_round.getD {}) lg k) :
    DiskInv cc i G { d with ld := k } lg :=
  { acc := h.acc, log := h.log, trim := h.trim, ss := h.ss, cov := h.cov, dec := hd, snap := h.snap, le := h.le,
    good := h.good, accMax := h.accMax, precMax := h.precMax, precCur := h.precCur }

end disk

section idx
variable {lg : Lg E}

theorem Lg.IdxOK.append {es : List E} {k : Nat} (h : lg.IdxOK k) : (⟨lg.es ++ es, lg.ss⟩ : Lg E).IdxOK (k + es.length) := by
  refine ⟨fun hs => ?_, fun hs => ?_⟩
  · have := h.1 hs; simp; omega
  · have := h.2 hs; simp; omega

end idx

namespace Ctx
variable {C : Ctx E S} {G G' : Ghost E} {s s' : SP E S} {lg lg' : Lg E}

theorem Core.ext (hC : C.CoreC G s lg) (hS : Ext C.i C.allow G G') : ∀ j, LinkOK C.cc G' (C.pre j) s.outgoing :=
  out_mono hS.step hS.endf hC.src hC.out

theorem Reach.ext (hR : C.Reach G) (hC : C.CoreC G s lg) (hS : Ext C.i C.allow G G') (hA : Abs C.cc G') : C.Reach G' :=
  hR.trans hS.step hA (Core.ext hC hS)

theorem mirror_appended {s : IStore E S} (h : Mirror s) (es : List E) : Mirror (s.appended es) :=
  ⟨h.prom, h.acc, h.dec, h.comp, h.trim, h.ss⟩

theorem mirror_batch {s : IStore E S} (h : Mirror s) (es : List E) : Mirror (s.batch es) :=
  ⟨h.prom, h.acc, h.dec, h.comp, h.trim, h.ss⟩

/-- Replace the batch. -/
theorem Core.batch (hC : C.CoreC G s lg) (es : List E) (ht : ({ s with ist := s.ist.batch es } : SP E S).tok G.mark ≤ G.hold C.i) :
    C.CoreC G { s with ist := s.ist.batch es } lg :=
  setIst hC hC.disk (mirror_batch hC.mir es) hC.idx hC.out ht

/-- Writing the batch leaves less in hand. -/
theorem tok_batch_nil (P : E → Bool) : ({ s with ist := s.ist.batch [] } : SP E S).tok P + s.own P = s.tok P := by
  simp only [SP.tok, SP.own, IStore.batch, List.countP_nil, ite_self]
  omega

theorem Core.batch_nil (hC : C.CoreC G s lg) : C.CoreC G { s with ist := s.ist.batch [] } lg :=
  Core.batch hC [] (by have := hC.tok; have := tok_batch_nil (s := s) G.mark; omega)

/-- Ghost update for a follower that appends entries it may append. -/
theorem fol_grow (hR : C.Reach G) (hC : C.CoreC G s lg) {es : List E}
    (hb : es = [] ∨ (s.ist.cache.accepted_round = s.ist.cache.promise ∧ s.ist.cache.promise.pid ≠ C.i ∧
      lg.es ++ es <+: (G.endf s.ist.cache.promise C.i (G.curg s.ist.cache.promise C.i)).es)) :
    ∃ G', Ext C.i C.allow G G' ∧ Abs C.cc G' ∧ (∀ b, G'.prec C.i b = G.prec C.i b) ∧ (es = [] ∨ lg.ss = none) ∧
      (es = [] ∨ s.ist.storage.prom = s.ist.storage.acc_round.getD {}) ∧
      G'.acc C.i (s.ist.storage.acc_round.getD {}) = some ⟨lg.es ++ es, lg.ss⟩ ∧
      (∀ b, G'.acc C.i b ≠ none → b ≤ s.ist.storage.acc_round.getD {}) ∧ G'.hold = G.hold := by
  have hd := hC.disk
  by_cases hes : es = []
  · subst hes
    exact ⟨G, Ext.refl _ _ _, hR.abs, fun _ => rfl, .inl rfl, .inl rfl, by simpa using hd.acc, hd.accMax, rfl⟩
  obtain ⟨h1, h2, h3⟩ := hb.resolve_left hes
  have ep := hC.mir.prom
  have ea := hC.mir.acc
  rw [ep] at h1 h2 h3
  rw [ea] at h1
  rw [← h1] at h2 h3
  generalize hn : s.ist.storage.acc_round.getD {} = n at *
  have hacc := hd.acc
  rw [hn] at hacc
  have hne : n ≠ {} := by
    rintro rfl
    have hb := hR.abs.base C.i
    rw [hb] at hacc
    simp at hacc
    subst hacc
    have := hR.abs.endLe {} C.i (G.curg {} C.i) {} (hR.abs.base _)
    have h4 := Lg.pre this
    have := h3.trans h4
    simp at this
    exact hes this
  obtain ⟨hpr, p, l0, hp, h0, hl0, hlp, hend⟩ := hR.abs.acc C.i n lg hacc hne
  have hend := hend h2.symm
  have hss : lg.ss = none := by
    by_contra hs
    have := Lg.eq_of_ss hend hs
    rw [← this] at h3
    have := h3.length_le
    simp only [List.length_append] at this
    exact hes (List.length_eq_zero_iff.1 (by omega))
  have hgrow : lg ≤ ⟨lg.es ++ es, lg.ss⟩ := .inl ⟨hss, List.prefix_append _ _⟩
  have hold : ∀ x, G.acc C.i n = some x → x ≤ ⟨lg.es ++ es, lg.ss⟩ := by
    intro x hx; rw [hacc] at hx; simp at hx; subst hx; exact hgrow
  refine ⟨G.follow C.i n ⟨lg.es ++ es, lg.ss⟩ (G.curg n C.i), ⟨Ghost.follow_step' hold, fun _ _ _ => rfl, ?_, fun _ => rfl, rfl⟩, ?_,
    fun _ => rfl, .inr hss, .inr h1.symm, ?_, ?_, rfl⟩
  · intro b F
    simp only [Ghost.follow]
    split
    · rename_i hc; rw [hc.1, hc.2]
    · rfl
  · refine Ghost.follow_abs hR.abs h2 hne h0 (Lg.le_trans hl0 hgrow) hold ?_ hpr ?_
    · rw [hss]; exact .inl ⟨rfl, h3⟩
    · intro b hb; have := hd.precMax b hb; rw [← h1] at this; exact this
  · simp [Ghost.follow]
  · intro b hb
    simp only [Ghost.follow] at hb
    split at hb
    · rename_i hc; rw [hc.2]; exact Ballot.le_refl _
    · have := hd.accMax b hb; rw [hn] at this; exact this

/-- A follower appends entries it may append. -/
theorem fol_append (hR : C.Reach G) (hC : C.CoreC G s lg) (hT : C.Trail s) {es : List E}
    (hb : es = [] ∨ (s.ist.cache.accepted_round = s.ist.cache.promise ∧ s.ist.cache.promise.pid ≠ C.i ∧
      lg.es ++ es <+: (G.endf s.ist.cache.promise C.i (G.curg s.ist.cache.promise C.i)).es)) :
    ∃ G', Ext C.i C.allow G G' ∧ C.Reach G' ∧ C.CoreC G' { s with ist := s.ist.appended es } ⟨lg.es ++ es, lg.ss⟩ ∧
      C.Trail { s with ist := s.ist.appended es } := by
  obtain ⟨G', hE, hA, hpr, hss, hp, hacc, hmax, hho⟩ := fol_grow hR hC hb
  have hd := hC.disk.append hE.step.toMono hss hp hacc hmax hpr
  have hR' := Reach.ext hR hC hE hA
  exact ⟨G', hE, hR', setIst hC hd (mirror_appended hC.mir es) hC.idx.append (Core.ext hC hE)
      (by rw [hE.step.mark, hho]; exact hC.tok),
    hT.cons ⟨G', _, hR', hd⟩ (IStore.wrote_appended ..)⟩

/-- What `flush_batch` does at a follower. -/
theorem fol_flush (hR : C.Reach G) (hC : C.CoreC G s lg) (hT : C.Trail s) (hF : FolInv C.cc C.i G s lg) :
    ∃ G', Ext C.i C.allow G G' ∧ C.Reach G' ∧
      C.CoreC G' { s with ist := s.ist.flushed } ⟨lg.es ++ s.ist.cache.batched_entries, lg.ss⟩ ∧
      C.Trail { s with ist := s.ist.flushed } ∧
      FolInv C.cc C.i G' { s with ist := s.ist.flushed } ⟨lg.es ++ s.ist.cache.batched_entries, lg.ss⟩ := by
  obtain ⟨G', hE, hR', hC', hT'⟩ := fol_append (s := { s with ist := s.ist.batch [] }) hR (Core.batch_nil hC) hT hF.batch
  refine ⟨G', hE, hR', hC', hT', ⟨.inl rfl, fun hp => ⟨rfl, fun p hpp => ?_⟩, fun hp => ?_, fun hp => by rw [hE.dead]; exact hF.live hp⟩⟩
  · obtain ⟨h1, h2⟩ := (hF.prep hp).2 p hpp
    exact ⟨h1, h2.mono hE.step.toMono (fun n q hq => by simp [PaxosMsg.accOf] at hq)⟩
  · obtain ⟨h1, h2, h3, h4, h5⟩ := hF.accept hp
    refine ⟨h1, h2, ?_, h4, ?_⟩
    · exact h3.trans (hE.curg _ _).symm
    · show (lg.es ++ s.ist.cache.batched_entries) ++ [] = _
      rw [hE.endf, hE.curg, List.append_nil]
      exact h5

end Ctx
end Omni
