import Verif.Proof.Steady.Leader
import Verif.Spec.Decided
/-
Steady operation: the leader's calls and handlers.
-/
namespace Omni

variable {E S : Type} {n : Ballot}

/-- What the leader and enough others are recorded to have accepted is decided. -/
def AllChosen (cc : ClusterConfig) (n : Ballot) (ix : List Nat) (d : Nat) : Prop :=
  ∀ L, AcceptQuorum cc L → n.pid ∈ L → (∃ f ∈ L, f ≠ n.pid) → ∀ v, (∀ x ∈ L, slot ix x = some v) → v ≤ d

theorem AcceptQuorum.accepts {cc : ClusterConfig} {L : List NodeId} (h : AcceptQuorum cc L) {j : Nat} (hj : L.length ≤ j) :
    (Quorum.with cc.flexible_quorum cc.nodes.length).is_accept_quorum j = true := by
  have h1 := h.size
  unfold Quorum.with Quorum.is_accept_quorum
  cases hq : cc.flexible_quorum with
  | none => rw [hq] at h1; simp only [ge_iff_le, decide_eq_true_eq] at h1 ⊢; omega
  | some q => rw [hq] at h1; simp only [ge_iff_le, decide_eq_true_eq] at h1 ⊢; omega

/-- Sending to several followers. -/
theorem send_loop {body : NodeId → M (SP E S) Unit} {w : Bool} {es : List E} {d : Nat}
    (hbody : ∀ f s q a ms, Keeps n f q a ms s → s.ls.n_leader = n → s.ist.cache.decided_idx = d → f ≠ n.pid →
      M.Sat (body f) s (fun _ s' => SentTo n w f es d s s') (fun _ => False))
    (fs : List NodeId) (hn : fs.Nodup) (hf : ∀ f ∈ fs, f ≠ n.pid) (s : SP E S) (hb : s.ls.n_leader = n) (hd : s.ist.cache.decided_idx = d)
    (hK : ∀ f ∈ fs, ∃ q a ms, Keeps n f q a ms s) :
    M.Sat (M.forEach fs body) s (fun _ s' => Sends n (· ∈ fs) s s' ∧
      (∀ f ∈ fs, ∀ q a ms, Keeps n f q a ms s → ∃ q' ms', Sent n w q ms es d q' ms' ∧ Keeps n f q' a ms' s') ∧
      ∀ g, g ∉ fs → ∀ q a ms, Keeps n g q a ms s → Keeps n g q a ms s') (fun _ => False) := by
  induction fs generalizing s with
  | nil => exact ⟨Sends.refl s, by simp, fun _ _ _ _ _ h => h⟩
  | cons f fs ih =>
    rw [M.sat_forEach_cons]
    obtain ⟨q0, a0, ms0, h0⟩ := hK f List.mem_cons_self
    have hnd := List.nodup_cons.1 hn
    refine M.sat_mono (hbody f s q0 a0 ms0 h0 hb hd (hf f List.mem_cons_self)) (fun _ t ht => ?_) fun _ h => h
    obtain ⟨h1, h2, h3⟩ := ht
    have hne : ∀ g ∈ fs, g ≠ f := fun g hg e => hnd.1 (e ▸ hg)
    have hbt : t.ls.n_leader = n := by rw [h1.eq]; exact hb
    have hdt : t.ist.cache.decided_idx = d := by rw [h1.eq]; exact hd
    refine M.sat_mono (ih hnd.2 (fun g hg => hf g (List.mem_cons_of_mem _ hg)) t hbt hdt fun g hg => ?_) (fun _ u hu => ?_) fun _ h => h
    · obtain ⟨q, a, ms, hk⟩ := hK g (List.mem_cons_of_mem _ hg)
      exact ⟨q, a, ms, h3 g q a ms (hne g hg) hk⟩
    · obtain ⟨i1, i2, i3⟩ := hu
      refine ⟨(h1.mono fun x hx => by rw [hx]; exact List.mem_cons_self).trans (i1.mono fun x hx => List.mem_cons_of_mem _ hx), fun g hg q a ms hk => ?_, fun g hg q a ms hk => ?_⟩
      · rcases List.mem_cons.1 hg with rfl | hg
        · obtain ⟨q', ms', e1, e2⟩ := h2 q a ms hk
          exact ⟨q', ms', e1, i3 g hnd.1 _ _ _ e2⟩
        · exact i2 g hg q a ms (h3 g q a ms (hne g hg) hk)
      · exact i3 g (fun h => hg (List.mem_cons_of_mem _ h)) q a ms (h3 g q a ms (fun e => hg (e ▸ List.mem_cons_self)) hk)

namespace LeadOf

variable {P : NodeId → Prop} {cc : ClusterConfig} {k : Nat} {lg : List E} {ci : Nat} {X B : List E} {d : Nat} {s : SP E S}

theorem mem_followers (h : LeadOf P cc n k lg ci X B d s) {f : NodeId} : f ∈ s.ls.get_promised_followers ↔ (f ∈ cc.nodes ∧ f ≠ n.pid) ∧ P f := by
  rw [LeaderState.mem_followers, h.ballot]
  exact ⟨fun ⟨h1, m, h2⟩ => ⟨⟨(h.members f m h2).1, h1⟩, (h.members f m h2).2⟩, fun ⟨⟨h1, h2⟩, h3⟩ => ⟨h2, h.promised f h1 h3⟩⟩

theorem withIst (h : LeadOf P cc n k lg ci X B d s) {X' B' : List E} {i : IStore E S} (hi : Stored n k lg ci X' B' d i) (hX : X'.length = X.length) :
    LeadOf P cc n k lg ci X' B' d { s with ist := i } :=
  ⟨h.role, h.phase, h.pid, h.peers, h.ballot, h.quorum, h.promised, h.slots, h.members, h.lam, h.buf, hi, by rw [hX]; exact h.dec, by rw [hX]; exact h.own, h.size, h.ends⟩

/-- Entries `es` are added to the batch, and the batch is written and sent if it is full. -/
theorem put {R : Prop} (h : LeadOf P cc n k lg ci X B d s) (hK : ∀ f ∈ cc.nodes, f ≠ n.pid → ∃ q a ms, Keeps n f q a ms s) (es : List E)
    {m : M (IStore E S) (Option (AcceptedMetaData E))}
    (hm : M.Sat m s.ist (fun r i' =>
      (r = none ∧ Stored n k lg ci X (B ++ es) d i' ∧ (R → B = [])) ∨
      ((∃ a, r = some { accepted_idx := a, entries := B ++ es } ∧ a = k + (X ++ (B ++ es)).length) ∧
        Stored n k lg ci (X ++ (B ++ es)) [] d i' ∧ (R → B ≠ []))) (fun _ => False)) :
    M.Sat (SP.onStore m >>= SP.accepted_leader) s (fun _ s' =>
      (LeadOf P cc n k lg ci X (B ++ es) d s' ∧ (∀ f q a ms, Keeps n f q a ms s → Keeps n f q a ms s') ∧ (R → B = [])) ∨
      (LeadOf P cc n k lg ci (X ++ (B ++ es)) [] d s' ∧ (∀ f ∈ cc.nodes, f ≠ n.pid → ∀ q a ms, Keeps n f q a ms s →
        (P f → ∃ q' ms', Sent n true q ms (B ++ es) d q' ms' ∧ Keeps n f q' a ms' s') ∧ (¬ P f → Keeps n f q a ms s')) ∧ (R → B ≠ []))) (fun _ => False) := by
  simp only [M.sat_bind, SP.sat_onStore]
  refine M.sat_mono hm (fun r i hi => ?_) fun _ h => h
  rcases hi with ⟨rfl, hi, hR⟩ | ⟨⟨a, rfl, rfl⟩, hi, hR⟩
  · exact .inl ⟨h.withIst hi rfl, fun f q a ms hk => ⟨hk.pos, hk.size, hk.seq, hk.acc, hk.outs, hk.lam⟩, hR⟩
  · simp only [SP.accepted_leader, M.sat_bind, M.sat_get, SP.sat_onLS, LeaderState.set_accepted_idx, h.pid]
    have hs : ∃ v, setSlot s.ls.accepted_indexes n.pid (k + (X ++ (B ++ es)).length) = some v := by
      have ho := h.own
      cases hp : n.pid with
      | zero => exact absurd hp h.size.1
      | succ j => rw [hp] at ho; simp only [slot] at ho; obtain ⟨hj, _⟩ := List.getElem?_eq_some_iff.1 ho; exact ⟨_, by simp only [setSlot]; rw [if_pos hj]⟩
    obtain ⟨v, hv⟩ := hs
    rw [hv]
    refine ⟨fun ls hls => ?_, fun h => by simp at h⟩
    simp only [Option.some.injEq] at hls
    subst hls
    obtain ⟨_, _, _, hv1, hv2⟩ := setSlot_spec hv
    have hL : LeadOf P cc n k lg ci (X ++ (B ++ es)) [] d { s with ist := i, ls := { s.ls with accepted_indexes := v } } :=
      ⟨h.role, h.phase, h.pid, h.peers, h.ballot, h.quorum, h.promised, h.slots, h.members, h.lam, h.buf, hi, by have := h.dec; simp; omega, hv1, h.size, h.ends⟩
    have hk' : ∀ f, f ≠ n.pid → ∀ q a ms, Keeps n f q a ms s → Keeps n f q a ms { s with ist := i, ls := { s.ls with accepted_indexes := v } } :=
      fun f hf q a ms hk => ⟨hk.pos, hk.size, hk.seq, by simp only; rw [hv2 f hf]; exact hk.acc, hk.outs, hk.lam⟩
    simp only [SP.send_acceptdecide, M.sat_bind, M.sat_get]
    have hF := fun f => hL.mem_followers (f := f)
    simp only at hF
    have hloop := send_loop (n := n) (w := true) (es := B ++ es) (d := d) (body := SP.send_acceptdecide_to (B ++ es))
      (fun f s q a ms hk hb hd hf => by
        have := send_acceptdecide_to_spec hk hb hf (B ++ es)
        rwa [hd] at this)
      _ (LeaderState.followers_nodup _) (fun f hf => ((hF f).1 hf).1.2)
      { s with ist := i, ls := { s.ls with accepted_indexes := v } } h.ballot hi.dec (fun f hf => by
        obtain ⟨⟨h1, h2⟩, _⟩ := (hF f).1 hf
        obtain ⟨q, a, ms, hk⟩ := hK f h1 h2
        exact ⟨q, a, ms, hk' f h2 q a ms hk⟩)
    have hpid := h.pid
    refine M.sat_mono (by simpa only [hpid] using hloop) (fun _ t ht => ?_) fun _ h => h
    obtain ⟨h1, h2, h3⟩ := ht
    have h1' : Sends n (fun x => x ∈ cc.nodes ∧ x ≠ n.pid) { s with ist := i, ls := { s.ls with accepted_indexes := v } } t := by
      have := h1.mono (D' := fun x => x ∈ cc.nodes ∧ x ≠ n.pid) fun x hx => ((hF x).1 (by simpa only [hpid] using hx)).1
      simpa only [hpid] using this
    refine .inr ⟨h1'.lead (fun _ h => h) hL, fun f hf hfn q a ms hk => ⟨fun hP => ?_, fun hP => ?_⟩, hR⟩
    · have := h2 f ((hF f).2 ⟨⟨hf, hfn⟩, hP⟩) q a ms
      exact this (by simpa only [hpid] using hk' f hfn q a ms hk)
    · have := h3 f (fun hm => hP ((hF f).1 hm).2) q a ms
      exact this (by simpa only [hpid] using hk' f hfn q a ms hk)

/-- The outcome of a call that adds `es`; if `R`, then it writes the batch unless it is empty. -/
def Put (P : NodeId → Prop) (R : Prop) (cc : ClusterConfig) (n : Ballot) (k : Nat) (lg : List E) (ci : Nat) (X B : List E) (d : Nat) (es : List E) (s s' : SP E S) : Prop :=
  (LeadOf P cc n k lg ci X (B ++ es) d s' ∧ (∀ f q a ms, Keeps n f q a ms s → Keeps n f q a ms s') ∧ (R → B = [])) ∨
  (LeadOf P cc n k lg ci (X ++ (B ++ es)) [] d s' ∧ (∀ f ∈ cc.nodes, f ≠ n.pid → ∀ q a ms, Keeps n f q a ms s →
    (P f → ∃ q' ms', Sent n true q ms (B ++ es) d q' ms' ∧ Keeps n f q' a ms' s') ∧ (¬ P f → Keeps n f q a ms s')) ∧ (R → B ≠ []))

theorem no_ss (h : LeadOf P cc n k lg ci X B d s) : s.accepted_reconfiguration = false := by
  simp [SP.accepted_reconfiguration, h.ist.ss]

/-- mod.rs 298-305 at the leader. -/
theorem append (h : LeadOf P cc n k lg ci X B d s) (hK : ∀ f ∈ cc.nodes, f ≠ n.pid → ∃ q a ms, Keeps n f q a ms s) (e : E) :
    M.Sat (SP.append e) s (fun _ s' => Put P False cc n k lg ci X B d [e] s s') (fun _ => False) := by
  have := h.put (R := False) hK [e] (M.sat_mono (h.ist.append_entry e) (fun _ _ h => h.imp (fun h => ⟨h.1, h.2, False.elim⟩) fun h => ⟨h.1, h.2, False.elim⟩) fun _ h => h)
  rw [M.sat_bind] at this
  simp only [SP.append, M.sat_bind, M.sat_get, h.no_ss, SP.propose_entry, h.role, h.phase, Bool.false_eq_true, if_false, M.sat_pure,
    SP.accept_entry_leader]
  exact this

/-- leader.rs 76-84. -/
theorem forwarded (h : LeadOf P cc n k lg ci X B d s) (hK : ∀ f ∈ cc.nodes, f ≠ n.pid → ∃ q a ms, Keeps n f q a ms s) (es : List E) :
    M.Sat (SP.handle_forwarded_proposal es) s (fun _ s' => Put P False cc n k lg ci X B d es s s') (fun _ => False) := by
  have := h.put (R := False) hK es (M.sat_mono (h.ist.append_entries es) (fun _ _ h => h.imp (fun h => ⟨h.1, h.2, False.elim⟩) fun h => ⟨h.1, h.2, False.elim⟩) fun _ h => h)
  rw [M.sat_bind] at this
  simp only [SP.handle_forwarded_proposal, M.sat_bind, M.sat_get, h.no_ss, h.role, h.phase, Bool.false_eq_true, if_false,
    SP.accept_entries_leader]
  exact this

/-- leader.rs 405-415. -/
theorem flush (h : LeadOf P cc n k lg ci X B d s) (hK : ∀ f ∈ cc.nodes, f ≠ n.pid → ∃ q a ms, Keeps n f q a ms s) :
    M.Sat SP.flush_batch_timeout s (fun _ s' => Put P True cc n k lg ci X B d [] s s') (fun _ => False) := by
  have := h.put (R := True) hK [] h.ist.flush_get
  rw [M.sat_bind] at this
  simp only [SP.flush_batch_timeout, M.sat_bind, M.sat_get, h.role, h.phase, SP.flush_batch_leader]
  exact this

theorem preparable (ls : LeaderState E S) (ps : List NodeId) (h : ∀ p ∈ ps, ∃ m, slot ls.promises_meta p = some (.promised m)) :
    ls.get_preparable_peers ps = some [] := by
  induction ps with
  | nil => rfl
  | cons p ps ih =>
    obtain ⟨m, hm⟩ := h p List.mem_cons_self
    simp only [LeaderState.get_preparable_peers, hm, ih fun q hq => h q (List.mem_cons_of_mem _ hq)]

/-- leader.rs 371-403: nothing to resend. -/
theorem resend (h : LeadOf (fun _ => True) cc n k lg ci X B d s) : M.Sat SP.resend_message_timeout s (fun _ s' => s' = s) (fun _ => False) := by
  simp only [SP.resend_message_timeout, M.sat_bind, M.sat_get, h.role, SP.resend_messages_leader, h.phase, SP.resend_stopsigns, h.ist.ss, M.sat_pure,
    SP.resend_prepare, M.sat_ofPan, h.peers]
  rw [preparable s.ls (SP.peersOf cc.nodes n.pid) fun p hp => h.promised p (List.mem_of_mem_filter hp) trivial]
  refine ⟨fun ps hps => ?_, fun h => by simp at h⟩
  simp only [Option.some.injEq] at hps
  subst hps
  simp

theorem accept_all {cc : ClusterConfig} (hv : cc.validate = .ok ()) {j : Nat} (hj : cc.nodes.length ≤ j) :
    (Quorum.with cc.flexible_quorum cc.nodes.length).is_accept_quorum j = true := by
  unfold ClusterConfig.validate at hv
  simp only at hv
  unfold Quorum.with Quorum.is_accept_quorum
  split at hv
  · cases hv
  · split at hv
    · cases hv
    · cases hq : cc.flexible_quorum with
      | none => simp; omega
      | some q =>
        rw [hq] at hv
        simp only at hv
        simp only [ge_iff_le, decide_eq_true_eq]
        split at hv
        · cases hv
        · split at hv
          · cases hv
          · split at hv
            · cases hv
            · rename_i h; have := Classical.not_not.1 h; omega

theorem accept_mono {q : Quorum} {i j : Nat} (h : q.is_accept_quorum i = true) (hij : i ≤ j) : q.is_accept_quorum j = true := by
  unfold Quorum.is_accept_quorum at h ⊢
  cases q <;> simp only [decide_eq_true_eq] at h ⊢ <;> omega

/-- leader.rs 316-345. -/
theorem accepted (h : LeadOf P cc n k lg ci X B d s) (hv : cc.validate = .ok ()) (hnd : cc.nodes.Nodup)
    (hK : ∀ f ∈ cc.nodes, f ≠ n.pid → ∃ q a ms, Keeps n f q a ms s) {f : NodeId} (hf : f ∈ cc.nodes) (hfn : f ≠ n.pid)
    {acc : Accepted} (hacc : acc.n = n) (ha : acc.accepted_idx ≤ k + X.length) :
    M.Sat (SP.handle_accepted acc f) s (fun _ s' => ∃ d', (d ≤ d' ∧
        ((Quorum.with cc.flexible_quorum cc.nodes.length).is_accept_quorum 2 = true → acc.accepted_idx ≤ d')) ∧ LeadOf P cc n k lg ci X B d' s' ∧
      (AllChosen cc n s.ls.accepted_indexes d → AllChosen cc n s'.ls.accepted_indexes d') ∧
      ∀ g ∈ cc.nodes, g ≠ n.pid → ∀ q a ms, Keeps n g q a ms s →
        (P g → ∃ q' ms', ((Sent n false q ms ([] : List E) d' q' ms' ∧ d < d') ∨ (q' = q ∧ ms' = ms ∧ d' = d)) ∧
          Keeps n g q' (if g = f then acc.accepted_idx else a) ms' s') ∧ (¬ P g → Keeps n g q (if g = f then acc.accepted_idx else a) ms s')) (fun _ => False) := by
  have hg : acc.n = s.ls.n_leader ∧ s.role = .leader ∧ s.phase = .accept := ⟨by rw [hacc, h.ballot], h.role, h.phase⟩
  simp only [SP.handle_accepted, M.sat_bind, M.sat_get, if_pos hg, SP.sat_onLS, LeaderState.set_accepted_idx]
  obtain ⟨q0, a0, ms0, h0⟩ := hK f hf hfn
  have hs : ∃ v, setSlot s.ls.accepted_indexes f acc.accepted_idx = some v := by
    have ho := h0.acc
    cases f with
    | zero => exact absurd rfl h0.pos
    | succ j => simp only [slot] at ho; obtain ⟨hj, _⟩ := List.getElem?_eq_some_iff.1 ho; exact ⟨_, by simp only [setSlot]; rw [if_pos hj]⟩
  obtain ⟨v, hv0⟩ := hs
  rw [hv0]
  refine ⟨fun ls hls => ?_, fun h => by simp at h⟩
  simp only [Option.some.injEq] at hls
  subst hls
  obtain ⟨_, _, _, hv1, hv2⟩ := setSlot_spec hv0
  have hL : ∀ (i : IStore E S) (d' : Nat), Stored n k lg ci X B d' i → d' ≤ k + X.length →
      LeadOf P cc n k lg ci X B d' { s with ist := i, ls := { s.ls with accepted_indexes := v } } := fun i d' hi hd' =>
    ⟨h.role, h.phase, h.pid, h.peers, h.ballot, h.quorum, h.promised, h.slots, h.members, h.lam, h.buf, hi, hd', by simp only; rw [hv2 _ (Ne.symm hfn)]; exact h.own, h.size, h.ends⟩
  have hk' : ∀ (i : IStore E S) (g : NodeId) (q : SeqNum) (a : Nat) (ms : List (PaxosMsg E S)), Keeps n g q a ms s →
      Keeps n g q (if g = f then acc.accepted_idx else a) ms { s with ist := i, ls := { s.ls with accepted_indexes := v } } := by
    intro i g q a ms hk
    refine ⟨hk.pos, hk.size, hk.seq, ?_, hk.outs, hk.lam⟩
    simp only
    split
    · rename_i e; rw [e]; exact hv1
    · rename_i e; rw [hv2 g e]; exact hk.acc
  have all : ∀ d', d ≤ d' → (s.ls.quorum.is_accept_quorum ((v.filter fun la => decide (la ≥ acc.accepted_idx)).length) = true → acc.accepted_idx ≤ d') →
      AllChosen cc n s.ls.accepted_indexes d → AllChosen cc n v d' := by
    intro d' hdd hacc' hch L hq hnL h2 w hw
    by_cases hfL : f ∈ L
    · have hwa : w = acc.accepted_idx := by
        have := hw f hfL
        rw [hv1] at this
        exact (Option.some.inj this).symm
      rw [hwa]
      refine hacc' ?_
      rw [h.quorum]
      exact hq.accepts (le_count_slots hq.distinct fun x hx => ⟨w, hw x hx, by simp [hwa]⟩)
    · exact Nat.le_trans (hch L hq hnL h2 w fun x hx => by rw [← hv2 x fun e => hfL (e ▸ hx)]; exact hw x hx) hdd
  rw [M.sat_ite]
  simp only [LeaderState.is_chosen]
  refine ⟨fun hc => ?_, fun hc => ?_⟩
  · simp only [M.sat_bind, SP.sat_onStore]
    have hdlt : d < acc.accepted_idx := by have := hc.1; rw [h.ist.dec] at this; exact this
    refine M.sat_mono (h.ist.decide acc.accepted_idx) (fun _ i hi => ?_) fun _ h => h
    have hLi := hL i _ hi ha
    have hF := fun f => hLi.mem_followers (f := f)
    simp only at hF
    have hloop := send_loop (n := n) (w := false) (es := ([] : List E)) (d := acc.accepted_idx) (body := SP.announce_decided acc.accepted_idx)
      (fun f s q a ms hk hb _ _ => announce_decided_spec hk hb acc.accepted_idx)
      _ (LeaderState.followers_nodup _) (fun f hf => ((hF f).1 hf).1.2)
      { s with ist := i, ls := { s.ls with accepted_indexes := v } } h.ballot hi.dec (fun g hg => by
        obtain ⟨⟨h1, h2⟩, _⟩ := (hF g).1 hg
        obtain ⟨q, a, ms, hk⟩ := hK g h1 h2
        exact ⟨q, _, ms, hk' i g q a ms hk⟩)
    refine M.sat_mono hloop (fun _ t ht => ?_) fun _ h => h
    obtain ⟨h1', h2, h3⟩ := ht
    refine ⟨acc.accepted_idx, ⟨by omega, fun _ => Nat.le_refl _⟩, h1'.lead (fun x hx => ((hF x).1 hx).1) hLi, ?_,
      fun g hg hgn q a ms hk => ⟨fun hP => ?_, fun hP => h3 g (fun hm => hP ((hF g).1 hm).2) q _ ms (hk' i g q a ms hk)⟩⟩
    · have : t.ls.accepted_indexes = v := by rw [h1'.eq]
      rw [this]
      exact all _ (Nat.le_of_lt hdlt) fun _ => Nat.le_refl _
    · obtain ⟨q', ms', e1, e2⟩ := h2 g ((hF g).2 ⟨⟨hg, hgn⟩, hP⟩) q _ ms (hk' i g q a ms hk)
      exact ⟨q', ms', .inl ⟨e1, hdlt⟩, e2⟩
  · rw [M.sat_pure]
    refine ⟨d, ⟨Nat.le_refl _, fun hq => ?_⟩, ?_, ?_, fun g hg hgn q a ms hk => ⟨fun _ => ⟨q, ms, .inr ⟨rfl, rfl, rfl⟩, ?_⟩, fun _ => ?_⟩⟩
    · apply Classical.byContradiction
      intro hlt
      refine hc ⟨by rw [h.ist.dec]; omega, ?_⟩
      rw [h.quorum]
      have h2 : 2 ≤ (v.filter fun la => decide (la ≥ acc.accepted_idx)).length :=
        le_count_slots (W := [n.pid, f]) (by simpa using Ne.symm hfn) fun x hx => by
          rcases List.mem_cons.1 hx with rfl | hx
          · exact ⟨_, by rw [hv2 _ (Ne.symm hfn)]; exact h.own, by simpa using ha⟩
          · rw [List.mem_singleton.1 hx]
            exact ⟨_, hv1, by simp⟩
      exact accept_mono hq h2
    · have := hL s.ist d h.ist h.dec
      exact this
    · refine all _ (Nat.le_refl _) fun h2 => ?_
      apply Classical.byContradiction
      intro hlt
      exact hc ⟨by rw [h.ist.dec]; omega, h2⟩
    · exact hk' s.ist g q a ms hk
    · exact hk' s.ist g q a ms hk

theorem clear (h : LeadOf P cc n k lg ci X B d s) : LeadOf P cc n k lg ci X B d { s with ist := { s.ist with trail := [], calls := [] } } :=
  h.withIst h.ist.clear rfl

end LeadOf

theorem Keeps.clear {f : NodeId} {q : SeqNum} {a : Nat} {ms : List (PaxosMsg E S)} {s : SP E S} (h : Keeps n f q a ms s) :
    Keeps n f q a ms { s with ist := { s.ist with trail := [], calls := [] } } := ⟨h.pos, h.size, h.seq, h.acc, h.outs, h.lam⟩

theorem slot_replicate_le {α : Type} {m : Nat} {x : α} {f : NodeId} (h0 : f ≠ 0) (h : f ≤ m) : slot (List.replicate m x) f = some x := by
  cases f with
  | zero => exact absurd rfl h0
  | succ j =>
    simp only [slot]
    rw [List.getElem?_replicate, if_pos (by omega)]

theorem Keeps.take {f : NodeId} {q : SeqNum} {a : Nat} {ms : List (PaxosMsg E S)} {s : SP E S} (h : Keeps n f q a ms s)
    (buf : List (Message E S)) : Keeps n f q a [] (s.take_outgoing_msgs buf).2 :=
  ⟨h.pos, h.size, h.seq, h.acc, rfl, none, slot_replicate_le h.pos h.size, nofun⟩

theorem LeadOf.take {P : NodeId → Prop} {cc : ClusterConfig} {k : Nat} {lg : List E} {ci : Nat} {X B : List E} {d : Nat} {s : SP E S}
    (h : LeadOf P cc n k lg ci X B d s) (buf : List (Message E S)) : LeadOf P cc n k lg ci X B d (s.take_outgoing_msgs buf).2 :=
  ⟨h.role, h.phase, h.pid, h.peers, h.ballot, h.quorum, h.promised, h.slots, h.members, rfl, h.buf, h.ist, h.dec, h.own,
    ⟨h.size.1, h.size.2.1, none, slot_replicate_le h.size.1 h.size.2.1, rfl⟩, nofun⟩

/-! ### When all have promised -/

namespace Lead

variable {cc : ClusterConfig} {k : Nat} {lg : List E} {ci : Nat} {X B : List E} {d : Nat} {s : SP E S}

/-- The outcome of a call that adds `es`; if `R`, then it writes the batch unless it is empty. -/
def Put (R : Prop) (cc : ClusterConfig) (n : Ballot) (k : Nat) (lg : List E) (ci : Nat) (X B : List E) (d : Nat) (es : List E) (s s' : SP E S) : Prop :=
  (Lead cc n k lg ci X (B ++ es) d s' ∧ (∀ f q a ms, Keeps n f q a ms s → Keeps n f q a ms s') ∧ (R → B = [])) ∨
  (Lead cc n k lg ci (X ++ (B ++ es)) [] d s' ∧ (∀ f ∈ cc.nodes, f ≠ n.pid → ∀ q a ms, Keeps n f q a ms s →
    ∃ q' ms', Sent n true q ms (B ++ es) d q' ms' ∧ Keeps n f q' a ms' s') ∧ (R → B ≠ []))

theorem Put.of {R : Prop} {es : List E} {s' : SP E S} (h : LeadOf.Put (fun _ => True) R cc n k lg ci X B d es s s') : Put R cc n k lg ci X B d es s s' :=
  h.imp (fun h => h) fun ⟨h1, h2, h3⟩ => ⟨h1, fun f hf hfn q a ms hk => (h2 f hf hfn q a ms hk).1 trivial, h3⟩

theorem append (h : Lead cc n k lg ci X B d s) (hK : ∀ f ∈ cc.nodes, f ≠ n.pid → ∃ q a ms, Keeps n f q a ms s) (e : E) :
    M.Sat (SP.append e) s (fun _ s' => Put False cc n k lg ci X B d [e] s s') (fun _ => False) :=
  M.sat_mono (LeadOf.append h hK e) (fun _ _ h => .of h) fun _ h => h

theorem forwarded (h : Lead cc n k lg ci X B d s) (hK : ∀ f ∈ cc.nodes, f ≠ n.pid → ∃ q a ms, Keeps n f q a ms s) (es : List E) :
    M.Sat (SP.handle_forwarded_proposal es) s (fun _ s' => Put False cc n k lg ci X B d es s s') (fun _ => False) :=
  M.sat_mono (LeadOf.forwarded h hK es) (fun _ _ h => .of h) fun _ h => h

theorem flush (h : Lead cc n k lg ci X B d s) (hK : ∀ f ∈ cc.nodes, f ≠ n.pid → ∃ q a ms, Keeps n f q a ms s) :
    M.Sat SP.flush_batch_timeout s (fun _ s' => Put True cc n k lg ci X B d [] s s') (fun _ => False) :=
  M.sat_mono (LeadOf.flush h hK) (fun _ _ h => .of h) fun _ h => h

theorem accepted (h : Lead cc n k lg ci X B d s) (hv : cc.validate = .ok ()) (hnd : cc.nodes.Nodup)
    (hK : ∀ f ∈ cc.nodes, f ≠ n.pid → ∃ q a ms, Keeps n f q a ms s) {f : NodeId} (hf : f ∈ cc.nodes) (hfn : f ≠ n.pid)
    {acc : Accepted} (hacc : acc.n = n) (ha : acc.accepted_idx ≤ k + X.length) :
    M.Sat (SP.handle_accepted acc f) s (fun _ s' => ∃ d', (d ≤ d' ∧
        ((Quorum.with cc.flexible_quorum cc.nodes.length).is_accept_quorum 2 = true → acc.accepted_idx ≤ d')) ∧ Lead cc n k lg ci X B d' s' ∧
      (AllChosen cc n s.ls.accepted_indexes d → AllChosen cc n s'.ls.accepted_indexes d') ∧
      ∀ g ∈ cc.nodes, g ≠ n.pid → ∀ q a ms, Keeps n g q a ms s →
        ∃ q' ms', ((Sent n false q ms ([] : List E) d' q' ms' ∧ d < d') ∨ (q' = q ∧ ms' = ms ∧ d' = d)) ∧
          Keeps n g q' (if g = f then acc.accepted_idx else a) ms' s') (fun _ => False) :=
  M.sat_mono (LeadOf.accepted h hv hnd hK hf hfn hacc ha) (fun _ _ ⟨d', h1, h2, h3, h4⟩ =>
    ⟨d', h1, h2, h3, fun g hg hgn q a ms hk => (h4 g hg hgn q a ms hk).1 trivial⟩) fun _ h => h

end Lead

end Omni
