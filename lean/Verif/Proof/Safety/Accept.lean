import Verif.Proof.Safety.Send
/-
A leader in the Accept phase appends to its log.
-/
namespace Omni

variable {E S : Type}

namespace IStore

/-- After writing a stop sign. -/
def stopped (s : IStore E S) (ss : StopSign) : IStore E S :=
  { s with
    storage := { s.storage with stopsign := some ss }
    cache := { s.cache with stopsign := some ss, accepted_idx := s.cache.accepted_idx + 1 }
    trail := { s.storage with stopsign := some ss } :: s.trail
    calls := .one (.setStopsign (some ss)) :: s.calls }

theorem wrote_stopped (s : IStore E S) (ss : StopSign) : s.Wrote (s.stopped ss) := ⟨rfl, _, rfl, Fits.stopsign ..⟩

theorem sat_append_stopsign {ss : StopSign} {s : IStore E S} {Q P} :
    M.Sat (append_stopsign ss) s Q P ↔
      (s.cache.batched_entries = [] → Q none (s.stopped ss)) ∧
      (s.cache.batched_entries ≠ [] → Q (some ⟨s.flushed.cache.accepted_idx, s.cache.batched_entries⟩) (s.flushed.stopped ss)) := by
  simp only [append_stopsign, cache_append_stopsign, M.sat_bind, M.sat_get, sat_setCache, M.sat_ite, M.sat_pure,
    flush_if_full_batch, sat_append_nb, sat_write_append, sat_write_stopsign, sat_write_promise, sat_write_decided, List.isEmpty_iff]
  exact Iff.rfl

theorem sat_cache_append {es : List E} {s : IStore E S} {Q P} :
    M.Sat (cache_append_entries es) s Q P ↔
      ((s.batch (s.cache.batched_entries ++ es)).cache.batched_entries.length ≥ s.cache.batch_size →
        Q (some (s.cache.batched_entries ++ es)) (s.batch [])) ∧
      (¬ (s.batch (s.cache.batched_entries ++ es)).cache.batched_entries.length ≥ s.cache.batch_size →
        Q none (s.batch (s.cache.batched_entries ++ es))) := by
  simp only [cache_append_entries, take_entries_if_batch_is_full, M.sat_bind, M.sat_get, sat_setCache, M.sat_ite, M.sat_pure]
  exact Iff.rfl

theorem sat_flush_if_full {r : Option (List E)} {s : IStore E S} {Q P} :
    M.Sat (flush_if_full_batch r) s Q P ↔
      (∀ es, r = some es → Q (some ⟨s.cache.accepted_idx + es.length, es⟩) (s.appended es)) ∧ (r = none → Q none s) := by
  cases r with
  | none => simp [flush_if_full_batch]
  | some es =>
    simp only [flush_if_full_batch, M.sat_bind, sat_append_nb, M.sat_pure]
    simp

end IStore

namespace Ctx
variable {C : Ctx E S} {G G' : Ghost E} {s s' : SP E S} {lg lg' : Lg E} {todo : NodeId → Option (Lg E)}

/-- The leader writes a stop sign. -/
theorem lead_stop (hR : C.Reach G) (hC : C.CoreC G s lg) (hT : C.Trail s)
    (hL : LeadAcc C.cc C.i C.pre todo G s lg) (hss : lg.ss = none) (ss : StopSign) :
    ∃ G', Ext C.i C.allow G G' ∧ C.Reach G' ∧ C.CoreC G' { s with ist := s.ist.stopped ss } ⟨lg.es, some ss⟩ ∧
      C.Trail { s with ist := s.ist.stopped ss } := by
  have hle : lg ≤ ⟨lg.es, some ss⟩ := .inl ⟨hss, List.prefix_rfl⟩
  obtain ⟨G', hE, hA, hpr, hp, hacc, hmax, hho⟩ := lead_grow (k := 0) hR hC hL hle (Nat.zero_le _) (Nat.le_refl _)
  have hd := hC.disk
  have hd' : DiskInv C.cc C.i G' { s.ist.storage with stopsign := some ss } ⟨lg.es, some ss⟩ :=
    { acc := hacc
      log := hd.log
      trim := hd.trim
      ss := rfl
      cov := .inr (by simp)
      dec := (hd.dec.mono hE.step.toMono).up (Ballot.le_refl _) hle
      snap := fun h => (hd.snap h).mono hE.step.toMono
      le := hd.le
      good := hd.good
      accMax := hmax
      precMax := fun b hb => hd.precMax b (by rw [hpr b] at hb; exact hb)
      precCur := fun hx => absurd hp hx }
  have hR' := Reach.ext hR hC hE hA
  have hm := hC.mir
  refine ⟨G', hE, hR', setIst hC hd' ⟨hm.prom, hm.acc, hm.dec, hm.comp, hm.trim, rfl⟩ ?_ (Core.ext hC hE)
      (by have : s.tok G'.mark ≤ G'.hold C.i := by rw [hE.step.mark]; have := hC.tok; omega
          exact this),
    hT.cons ⟨G', _, hR', hd'⟩ (IStore.wrote_stopped ..)⟩
  refine ⟨fun hx => by simp at hx, fun _ => ?_⟩
  have := hC.idx.1 hss
  show lg.es.length + 1 ≤ s.ist.cache.accepted_idx + 1
  omega

theorem own_leader {P : E → Bool} (h : s.role = .leader) : s.own P = s.ist.cache.batched_entries.countP P := if_pos h

theorem tok_batch {P : E → Bool} (h : s.role = .leader) (es : List E) :
    ({ s with ist := s.ist.batch es } : SP E S).tok P + s.own P = s.tok P + es.countP P := by
  have : ({ s with ist := s.ist.batch es } : SP E S).own P = es.countP P := if_pos h
  simp only [SP.tok, this]
  omega

theorem LeadSt.setBatch (h : C.LeadSt todo G s lg) (es : List E) (hes : lg.ss ≠ none → es = [])
    (ht : s.tok G.mark + G.count es ≤ G.hold C.i + s.own G.mark) :
    C.LeadSt todo G { s with ist := s.ist.batch es } lg :=
  ⟨h.reach, Core.batch h.core es (by have := tok_batch (P := G.mark) h.role es; simp only [Ghost.count] at ht; omega), LeadAcc.ext h.lead (Ext.refl _ _ _) rfl rfl hes, h.trail, h.role, h.phase⟩

theorem LeadSt.append (h : C.LeadSt todo G s lg) {es : List E} (hss : es = [] ∨ lg.ss = none)
    (ht : s.tok G.mark + G.count es ≤ G.hold C.i + s.own G.mark) :
    ∃ G', C.LeadSt todo G' { s with ist := (s.ist.batch []).appended es } ⟨lg.es ++ es, lg.ss⟩ := by
  have h0 := h.setBatch [] (fun _ => rfl) (by have := h.core.tok; simp only [Ghost.count, List.countP_nil]; omega)
  obtain ⟨G', hE, hR, hC, hT⟩ := lead_append h0.reach h0.core h0.trail h0.lead hss
    (by have := tok_batch (P := G.mark) h.role []; simp only [List.countP_nil] at this; omega)
  exact ⟨G', hR, hC, LeadAcc.ext h.lead hE rfl rfl (fun _ => rfl), hT, h.role, h.phase⟩

theorem LeadSt.stop (h : C.LeadSt todo G s lg) (hss : lg.ss = none) (hb : s.ist.cache.batched_entries = []) (ss : StopSign) :
    ∃ G', C.LeadSt todo G' { s with ist := s.ist.stopped ss } ⟨lg.es, some ss⟩ := by
  obtain ⟨G', hE, hR, hC, hT⟩ := lead_stop h.reach h.core h.trail h.lead hss ss
  exact ⟨G', hR, hC, LeadAcc.ext h.lead hE rfl rfl (fun _ => hb), hT, h.role, h.phase⟩

/-- An accepted index is recorded. -/
theorem LeadSt.setAcc (h : C.LeadSt todo G s lg) {F : NodeId} {k : Nat} {a : Lg E} (hF : Node C.cc F)
    (ha : G.acc F s.ls.n_leader = some a) (hk : a.Covers k) {ls : LeaderState E S}
    (hls : s.ls.set_accepted_idx F k = some ls) :
    Same s { s with ls := ls } ∧ C.LeadSt todo G { s with ls := ls } lg := by
  simp only [LeaderState.set_accepted_idx] at hls
  split at hls
  · simp at hls
  · rename_i v hv
    simp at hls
    subst hls
    obtain ⟨-, h1, -, h2, h3⟩ := setSlot_spec hv
    refine ⟨⟨rfl, rfl, rfl⟩, h.reach, Core.congr h.core rfl rfl rfl rfl rfl h1 rfl rfl (Nat.le_refl _), ?_, h.trail, h.role, h.phase⟩
    have hl := h.lead
    refine ⟨hl.ldr, hl.own, hl.acc, hl.batch, hl.max, hl.prom, hl.ends, hl.cur, hl.link, hl.mets, hl.dead, fun X j hX hj => ?_⟩
    by_cases hXF : X = F
    · subst hXF
      rw [show slot _ X = _ from h2] at hX
      simp at hX
      subst hX
      exact ⟨hF, a, ha, hk⟩
    · rw [show slot _ X = _ from h3 X hXF] at hX
      exact hl.accs X j hX hj

/-- The leader records its own accepted index. -/
theorem LeadSt.setOwn (h : C.LeadSt todo G s lg) {k : Nat} (hk : lg.Covers k) {ls : LeaderState E S}
    (hls : s.ls.set_accepted_idx s.pid k = some ls) :
    Same s { s with ls := ls } ∧ C.LeadSt todo G { s with ls := ls } lg := by
  rw [h.core.pid] at hls
  exact h.setAcc h.core.node h.acc hk hls

theorem accepted_leader_sat {l : Lg E} {es : List E} {k : Nat} (h : C.LeadSt (fun _ => some l) G s ⟨l.es ++ es, none⟩)
    (hs : l.ss = none) (hk : (⟨l.es ++ es, none⟩ : Lg E).Covers k) :
    M.Sat (SP.accepted_leader (some ⟨k, es⟩)) s (fun _ => C.Inv) C.Bad := by
  simp only [SP.accepted_leader, M.sat_bind, M.sat_get, SP.sat_onLS]
  refine ⟨fun ls hls => ?_, fun _ => h.bad⟩
  obtain ⟨-, h1⟩ := h.setOwn hk hls
  refine M.sat_mono (send_acceptdecide_sat h1 hs (Lg.le_refl _)) (fun _ s' hx => ?_) fun _ h => h
  obtain ⟨-, G', hx⟩ := hx
  exact hx.inv

theorem accept_entries_leader_inv (h : C.LeadSt (fun _ => some lg) G s lg) (hss : lg.ss = none) (es : List E)
    (ht : s.tok G.mark + G.count es ≤ G.hold C.i) : M.Sat (SP.accept_entries_leader es) s (fun _ => C.Inv) C.Bad := by
  simp only [SP.accept_entries_leader, M.sat_bind, SP.sat_onStore, IStore.append_entries_with_batching, IStore.sat_cache_append,
    IStore.sat_flush_if_full]
  have hb : s.tok G.mark + G.count (s.ist.cache.batched_entries ++ es) ≤ G.hold C.i + s.own G.mark := by
    rw [own_leader h.role]
    simp only [Ghost.count, List.countP_append] at *
    omega
  refine ⟨fun _ => ⟨fun es' he => ?_, fun he => by simp at he⟩, fun _ => ⟨fun es' he => by simp at he, fun _ => ?_⟩⟩
  · simp at he
    subst he
    obtain ⟨G', h1⟩ := h.append (es := s.ist.cache.batched_entries ++ es) (.inr hss) hb
    rw [hss] at h1
    exact accepted_leader_sat h1 hss (hss ▸ h1.core.idx.covers)
  · exact (h.setBatch _ (fun hx => absurd hss hx) hb).inv

theorem accept_entry_leader_inv (h : C.LeadSt (fun _ => some lg) G s lg) (hss : lg.ss = none) (e : E)
    (ht : s.tok G.mark + G.count [e] ≤ G.hold C.i) :
    M.Sat (SP.accept_entry_leader e) s (fun _ => C.Inv) C.Bad := accept_entries_leader_inv h hss [e] ht

theorem LeadSt.tok_own (h : C.LeadSt todo G s lg) :
    s.tok G.mark + G.count s.ist.cache.batched_entries ≤ G.hold C.i + s.own G.mark := by
  rw [own_leader h.role]
  have := h.core.tok
  simp only [Ghost.count]
  omega

theorem flush_batch_leader_inv (h : C.LeadSt (fun _ => some lg) G s lg) :
    M.Sat SP.flush_batch_leader s (fun _ => C.Inv) C.Bad := by
  simp only [SP.flush_batch_leader, M.sat_bind, SP.sat_onStore, IStore.flush_batch_and_get_entries, M.sat_get, M.sat_ite,
    IStore.sat_flush_if_full, IStore.sat_setCache, List.isEmpty_iff]
  refine ⟨fun _ => ⟨fun es' he => by simp at he, fun _ => h.inv⟩, fun hne => ⟨fun es' he => ?_, fun he => by simp at he⟩⟩
  simp at he
  subst he
  have hss : lg.ss = none := by
    by_contra hx
    exact hne (h.lead.batch hx)
  obtain ⟨G', h1⟩ := h.append (es := s.ist.cache.batched_entries) (.inr hss) h.tok_own
  rw [hss] at h1
  exact accepted_leader_sat h1 hss (hss ▸ h1.core.idx.covers)

theorem accept_stopsign_tail {es : List E} {ss : StopSign} (h : C.LeadSt (fun _ => some ⟨es, none⟩) G s ⟨es, some ss⟩) :
    M.Sat (do
      let s ← M.get
      SP.onLS fun ls => ls.set_accepted_idx s.pid s.ist.cache.accepted_idx
      M.forEach s.ls.get_promised_followers fun p => SP.send_accept_stopsign p ss false) s (fun _ => C.Inv) C.Bad := by
  simp only [M.sat_bind, M.sat_get, SP.sat_onLS]
  refine ⟨fun ls hls => ?_, fun _ => h.bad⟩
  obtain ⟨hsame, h1⟩ := h.setOwn h.core.idx.covers hls
  have hf : s.ls.get_promised_followers = ({ s with ls := ls } : SP E S).ls.get_promised_followers := hsame.followers.symm
  rw [hf]
  refine M.sat_mono (lead_loop h1 (l' := ⟨es, some ss⟩) fun todo G' s' F m _ h' hF hm ht =>
    send_accept_stopsign_sat h' hF hm ht rfl) (fun _ s' hx => ?_) fun _ h => h
  obtain ⟨-, G', hx⟩ := hx
  exact hx.inv

theorem accept_stopsign_leader_inv (h : C.LeadSt (fun _ => some lg) G s lg) (hss : lg.ss = none) (ss : StopSign) :
    M.Sat (SP.accept_stopsign_leader ss) s (fun _ => C.Inv) C.Bad := by
  obtain ⟨les, lss⟩ := lg
  simp only at hss
  subst hss
  unfold SP.accept_stopsign_leader
  rw [M.sat_bind, SP.sat_onStore, IStore.sat_append_stopsign]
  refine ⟨fun hb => ?_, fun hb => ?_⟩
  · obtain ⟨G1, h1⟩ := h.stop rfl hb ss
    rw [M.sat_bind]
    simp only [SP.send_flushed, M.sat_pure]
    exact accept_stopsign_tail h1
  · obtain ⟨G1, h1⟩ := h.append (es := s.ist.cache.batched_entries) (.inr rfl) h.tok_own
    obtain ⟨G2, h2⟩ := h1.stop rfl rfl ss
    rw [M.sat_bind]
    simp only [SP.send_flushed]
    refine M.sat_mono (send_acceptdecide_sat h2 rfl (.inl ⟨rfl, List.prefix_rfl⟩)) (fun _ s' hx => ?_) fun _ h => h
    obtain ⟨-, G3, hx⟩ := hx
    exact accept_stopsign_tail hx

/-- The leader's decided index can be announced. -/
theorem LeadSt.decMsg (h : C.LeadSt todo G s lg) : G.DecMsg C.cc s.ls.n_leader s.ist.cache.decided_idx := by
  have := h.core.disk.dec.msg
  rw [← h.core.mir.acc, h.lead.acc, ← h.core.mir.dec] at this
  exact this

/-- An index accepted by a quorum is chosen. -/
theorem LeadSt.chosen (h : C.LeadSt todo G s lg) {k : Nat} (hk : k ≠ 0) (hc : s.ls.is_chosen k = true) :
    G.DecOK C.cc s.ls.n_leader lg k := by
  obtain ⟨W, h1, h2, h3⟩ := pids_of_slots (fun la => decide (la ≥ k)) s.ls.accepted_indexes
  have h4 : ∀ x ∈ W, Node C.cc x ∧ ∃ a, G.acc x s.ls.n_leader = some a ∧ a.Covers k := by
    intro x hx
    obtain ⟨j, h4, h5⟩ := h3 x hx
    simp at h5
    obtain ⟨h6, a, h7, h8⟩ := h.lead.accs x j h4 (by omega)
    exact ⟨h6, a, h7, h8.down h5⟩
  have hW : WriteQ C.cc W := by
    refine ⟨h1, fun x hx => (h4 x hx).1, C.i, ?_⟩
    rw [h2, ← h.core.quorum]
    exact hc
  have hle : ∀ x a, G.acc x s.ls.n_leader = some a → a ≤ lg := by
    intro x a ha
    obtain ⟨p, h5, h6⟩ := h.reach.abs.le_prop ha
    rw [h.acc'] at h5
    simp at h5
    subst h5
    exact h6
  have hcov : lg.Covers k := by
    obtain ⟨x, hx⟩ := hW.nonempty C.hv
    obtain ⟨-, a, h5, h6⟩ := h4 x hx
    exact h6.mono (hle x a h5)
  refine .inr ⟨s.ls.n_leader, lg.cut k, Ballot.le_refl _, ⟨W, hW, fun x hx => ?_⟩, Lg.covers_cut hcov, Lg.cut_le _ _⟩
  obtain ⟨-, a, h5, h6⟩ := h4 x hx
  exact ⟨a, h5, Lg.cut_le_of_le (hle x a h5) h6⟩

theorem LeadSt.decide (h : C.LeadSt todo G s lg) {k : Nat} (hk : G.DecOK C.cc s.ls.n_leader lg k) :
    C.LeadSt todo G { s with ist := s.ist.decided k } lg := by
  have hd : DiskInv C.cc C.i G { s.ist.storage with ld := k } lg := by
    refine h.core.disk.decide ?_
    rw [← h.core.mir.acc, h.lead.acc]
    exact hk
  have hm := h.core.mir
  exact ⟨h.reach, setIst h.core hd ⟨hm.prom, hm.acc, rfl, hm.comp, hm.trim, hm.ss⟩ h.core.idx h.core.out h.core.tok,
    LeadAcc.ext h.lead (Ext.refl _ _ _) rfl rfl h.lead.batch, h.trail.cons ⟨G, lg, h.reach, hd⟩ (IStore.wrote_decided ..), h.role, h.phase⟩

theorem handle_accepted_inv (hR : C.Reach G) (hC : C.CoreC G s lg) (hr : RoleInv C.cc C.i C.pre G s lg) (hT : C.Trail s)
    {a : Accepted} {frm : NodeId} (hF : Node C.cc frm) {dst : NodeId} (hb : MsgBody C.cc G frm dst (.accepted a : PaxosMsg E S)) :
    M.Sat (SP.handle_accepted a frm) s (fun _ => C.Inv) C.Bad := by
  unfold SP.handle_accepted
  rw [M.sat_bind, M.sat_get, M.sat_ite]
  refine ⟨fun hc => ?_, fun _ => ⟨G, hR, ⟨lg, hC, hr⟩, hT⟩⟩
  obtain ⟨hn, h1, h2⟩ := hc
  have h := LeadSt.of hR hC hr hT h1 h2
  obtain ⟨x, hx1, hx2⟩ := hb
  rw [hn] at hx1
  rw [M.sat_bind, SP.sat_onLS]
  refine ⟨fun ls hls => ?_, fun _ => h.bad⟩
  obtain ⟨hs1, h3⟩ := h.setAcc hF hx1 hx2 hls
  rw [M.sat_bind, M.sat_get, M.sat_ite]
  refine ⟨fun hc => ?_, fun _ => h3.inv⟩
  rw [M.sat_bind, SP.sat_onStore, IStore.sat_set_decided_idx]
  have h4 := h3.decide (h3.chosen (by have := hc.1; omega) hc.2)
  refine M.sat_mono (lead_loop h4 (l' := lg) fun todo G' s' F m hsame h' hF hm ht => ?_) (fun _ s' hx => ?_) fun _ h => h
  · refine announce_decided_sat h' hF hm ht (Lg.le_refl _) ?_
    have := h'.decMsg
    rw [hsame.ist] at this
    exact this
  · obtain ⟨-, G', hx⟩ := hx
    exact hx.inv

end Ctx
end Omni
