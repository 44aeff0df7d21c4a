import Verif.Proof.Boot.Sys
/-
From the start of a cluster to steady operation: what each call does to the whole.
-/
namespace Omni

variable {E S : Type} {n : Ballot} {cc : ClusterConfig} {π ρ : NodeId → Nat}
  {sv : NodeId → SP E S} {lk : NodeId → NodeId → List (PaxosMessage E S)} {A : List E}

/-- After the election: `A` are the entries appended so far. -/
def Boot (cc : ClusterConfig) (n : Ballot) (A : List E) (π : NodeId → Nat) (sv : NodeId → SP E S) (lk : NodeId → NodeId → List (PaxosMessage E S)) : Prop :=
  ∃ acc P X B d, BootInv cc n acc P X B d π sv lk ∧ HeldBy cc n A (X ++ B) sv lk

/-- Before the election. -/
structure Fresh (cc : ClusterConfig) (n : Ballot) (A : List E) (sv : NodeId → SP E S) (lk : NodeId → NodeId → List (PaxosMessage E S)) : Prop where
  unled : ∀ i ∈ cc.nodes, Unled cc i (sv i)
  links : ∀ i ∈ cc.nodes, ∀ j ∈ cc.nodes, lk i j = []
  count : HeldBy cc n A (sv n.pid).buffered_proposals sv lk

theorem held_upd {i g : NodeId} {s : SP E S} (h : g ≠ i) (l : List (PaxosMessage E S)) : held (upd sv i s g) l = held (sv g) l := by
  rw [upd_other h]

namespace Fresh

theorem put (h : Fresh cc n A sv lk) {i : NodeId} (hnd : cc.nodes.Nodup) (hi : i ∈ cc.nodes) {s' : SP E S} {es : List E} (hs : Unled cc i s')
    (hb : s'.buffered_proposals = (sv i).buffered_proposals ++ es) : Fresh cc n (A ++ es) (upd sv i s') lk := by
  refine ⟨fun j hj => ?_, h.links, ?_⟩
  · by_cases e : j = i
    · subst e; rw [upd_self]; exact hs
    · rw [upd_other e]; exact h.unled j hj
  · by_cases e : i = n.pid
    · subst e
      rw [upd_self, hb]
      exact h.count.same (fun g _ hg => held_upd hg _) fun p => by simp only [List.countP_append]; omega
    · rw [upd_other (Ne.symm e)]
      refine h.count.change hnd hi e (fun g _ _ hg => held_upd hg _) fun p => ?_
      rw [upd_self]
      simp only [held, hs.out, (h.unled i hi).out, hb, List.countP_append]
      omega

theorem same (h : Fresh cc n A sv lk) {i : NodeId} (hnd : cc.nodes.Nodup) (hi : i ∈ cc.nodes) {s' : SP E S} (hs : Unled cc i s')
    (hb : s'.buffered_proposals = (sv i).buffered_proposals) : Fresh cc n A (upd sv i s') lk := by
  have := h.put hnd hi hs (es := []) (by rw [hb, List.append_nil])
  rwa [List.append_nil] at this

/-- The election. -/
theorem elect (h : Fresh cc n A sv lk) (hn : n.pid ∈ cc.nodes) {s' : SP E S} (hc : Cand (· = n.pid) cc n (sv n.pid).buffered_proposals s')
    (hk : ∀ f ∈ cc.nodes, f ≠ n.pid → Keeps n f {} 0 [.prepare (prep0 n)] s') : Boot cc n A (fun _ => 0) (upd sv n.pid s') lk := by
  have h0 : 0 < n.pid := Nat.pos_of_ne_zero ((h.unled _ hn).size _ hn).1
  refine ⟨false, (· = n.pid), [], (sv n.pid).buffered_proposals, 0, ⟨.inl ⟨rfl, rfl, by rw [upd_self]; exact hc⟩, fun f hf hfn => ?_, fun i hi j hj _ => h.links i hi j hj, rfl⟩, ?_⟩
  · rw [upd_self, upd_other hfn, h.links _ hn _ hf, h.links _ hf _ hn]
    refine .inl ⟨⟨{}, _, hk f hf hfn, .ready⟩, .unled (Nat.zero_le _) ((h.unled f hf).join hfn h0) (h.unled f hf).out, ?_, nofun, fun _ => Nat.zero_le _, nofun, nofun⟩
    constructor
    · intro e; exact absurd e hfn
    · omega
  · exact h.count.same (fun g _ hg => held_upd hg _) fun p => by rw [List.nil_append]

end Fresh

namespace Boot

theorem clear (h : Boot cc n A π sv lk) {i : NodeId} (hi : i ∈ cc.nodes) :
    Boot cc n A π (upd sv i { sv i with ist := { (sv i).ist with trail := [], calls := [] } }) lk := by
  obtain ⟨acc, P, X, B, d, h1, h2⟩ := h
  have hh : ∀ g ∈ cc.nodes, g ≠ n.pid → held (upd sv i { sv i with ist := { (sv i).ist with trail := [], calls := [] } } g) (lk g n.pid) = held (sv g) (lk g n.pid) := by
    intro g _ _
    by_cases e : g = i
    · subst e; rw [upd_self]; rfl
    · exact held_upd e _
  refine ⟨acc, P, X, B, d, ?_, h2.same hh fun p => rfl⟩
  by_cases hin : i = n.pid
  · subst hin
    refine ⟨?_, fun f hf hfn => ?_, h1.unused, h1.self⟩
    · rw [upd_self]
      rcases h1.lead with ⟨a, b, c⟩ | ⟨a, b, c⟩
      · exact .inl ⟨a, b, c.clear⟩
      · exact .inr ⟨a, b.clear, c⟩
    · rw [upd_self, upd_other hfn]
      exact (h1.fol f hf hfn).same fun q a ms hk => hk.clear
  · have := h1.follower hin (h1.fol i hi hin).clearF
    rw [updL_same] at this
    have e : (fun g => if g = i then π i else π g) = π := by
      funext g; split
      · rename_i e; rw [e]
      · rfl
    rwa [e] at this

theorem leads (h : Boot cc n A π sv lk) (hv : cc.validate = .ok ()) (hnd : cc.nodes.Nodup) {α : Type} {m : M (SP E S) α} {es : List E}
    (hC : ∀ P Z, Cand P cc n Z (sv n.pid) → M.Sat m (sv n.pid) (fun _ s' => Cand.Held P cc n (Z ++ es) (sv n.pid) s') (fun _ => False))
    (hL : ∀ P X B d, LeadOf P cc n 0 [] 0 X B d (sv n.pid) → (∀ f ∈ cc.nodes, f ≠ n.pid → ∃ q a ms, Keeps n f q a ms (sv n.pid)) →
      M.Sat m (sv n.pid) (fun _ s' => LeadOf.Put P False cc n 0 [] 0 X B d es (sv n.pid) s') (fun _ => False)) :
    M.Sat m (sv n.pid) (fun _ s' => Boot cc n (A ++ es) π (upd sv n.pid s') lk) (fun _ => False) := by
  obtain ⟨acc, P, X, B, d, h1, h2⟩ := h
  refine M.sat_mono (h1.add (another hv hnd _) (hC P) (hL P X B d)) (fun _ s' hs => ?_) fun _ h => h
  obtain ⟨X', B', h3, h4⟩ := hs
  refine ⟨acc, P, X', B', d, h3, h2.same (fun g _ hg => held_upd hg _) fun p => ?_⟩
  rw [h4]
  simp only [List.countP_append]
  omega

theorem append (h : Boot cc n A π sv lk) (hv : cc.validate = .ok ()) (hnd : cc.nodes.Nodup) {i : NodeId} (hi : i ∈ cc.nodes) (e : E) :
    M.Sat (SP.append e) (sv i) (fun _ s' => Boot cc n (A ++ [e]) π (upd sv i s') lk) (fun _ => False) := by
  by_cases hin : i = n.pid
  · subst hin
    exact h.leads hv hnd (fun P Z hc => hc.append e) fun P X B d hL hK => hL.append hK e
  · obtain ⟨acc, P, X, B, d, h1, h2⟩ := h
    refine M.sat_mono ((h1.fol i hi hin).append e) (fun _ s' hs => ?_) fun _ h => h
    have h4 := h1.follower hin hs.1
    have e : (fun g => if g = i then π i else π g) = π := by
      funext g; split
      · rename_i e; rw [e]
      · rfl
    rw [updL_same, e] at h4
    refine ⟨acc, P, X, B, d, h4, h2.change hnd hi hin (fun g _ _ hg => held_upd hg _) fun p => ?_⟩
    rw [upd_self, hs.2 p]
    simp only [List.countP_append]
    omega

theorem ticked (h : Boot cc n A π sv lk) (hv : cc.validate = .ok ()) (hnd : cc.nodes.Nodup) {i : NodeId} (hi : i ∈ cc.nodes)
    {b : Option Ballot} (hb : b = none ∨ (i = n.pid ∧ b = some n)) (r w : Prop) [Decidable r] [Decidable w] (hr : ¬ r) :
    M.Sat (SP.ticked b r w) (sv i) (fun _ s' => Boot cc n A π (upd sv i s') lk) (fun _ => False) := by
  by_cases hin : i = n.pid
  · subst hin
    have hb' : b = none ∨ b = some n := hb.imp id (·.2)
    obtain ⟨acc, P, X, B, d, h1, h2⟩ := h
    rcases h1.lead with ⟨_, _, hc⟩ | ⟨ha, hl, _⟩
    · refine M.sat_mono (hc.ticked hb' r w hr) (fun _ s' hs => ?_) fun _ h => h
      subst hs
      rw [upd_same]
      exact ⟨acc, P, X, B, d, h1, h2⟩
    · refine M.sat_mono (hl.quiet h1.keeps hb' r w hr) (fun _ s' hs => ?_) fun _ h => h
      rcases hs with hs | rfl
      · obtain ⟨X', B', h3, h4⟩ := h1.put ha hs
        exact ⟨acc, P, X', B', d, h3, h2.same (fun g _ hg => held_upd hg _) fun p => by rw [h4, List.append_nil]⟩
      · rw [upd_same]
        exact ⟨acc, P, X, B, d, h1, h2⟩
  · obtain rfl : b = none := hb.resolve_right fun h => hin h.1
    obtain ⟨acc, P, X, B, d, h1, h2⟩ := h
    refine M.sat_mono ((h1.fol i hi hin).ticked r w hr) (fun _ s' hs => ?_) fun _ h => h
    have h4 := h1.follower hin hs.1
    have e : (fun g => if g = i then π i else π g) = π := by
      funext g; split
      · rename_i e; rw [e]
      · rfl
    rw [updL_same, e] at h4
    refine ⟨acc, P, X, B, d, h4, h2.same (fun g _ _ => ?_) fun p => rfl⟩
    by_cases e : g = i
    · subst e; rw [upd_self]; exact hs.2
    · exact held_upd e _

theorem take (h : Boot cc n A π sv lk) {i : NodeId} (hi : i ∈ cc.nodes) (buf : List (Message E S)) :
    Boot cc n A (fun g => if i = n.pid then afterL (π g) else if g = i then afterF (π g) else π g)
      (upd sv i ((sv i).take_outgoing_msgs buf).2) (SteadyInv.handed sv lk i) := by
  obtain ⟨acc, P, X, B, d, h1, h2⟩ := h
  by_cases hin : i = n.pid
  · subst hin
    have hsrc : ∀ m ∈ (sv n.pid).outgoing, m.src = n.pid ∧ m.dst ≠ n.pid := by
      rcases h1.lead with ⟨_, _, hc⟩ | ⟨_, hl, _⟩
      · exact fun m hm => ⟨(hc.ends m hm).2, (hc.ends m hm).1.2⟩
      · exact fun m hm => ⟨(hl.ends m hm).2, (hl.ends m hm).1.2⟩
    simp only [if_true]
    refine ⟨acc, P, X, B, d, ⟨?_, fun f hf hfn => ?_, fun a ha b hb hab => ?_, h1.self⟩, h2.same (fun g _ hgn => ?_) fun p => rfl⟩
    · rw [upd_self]
      rcases h1.lead with ⟨a, b, c⟩ | ⟨a, b, c⟩
      · exact .inl ⟨a, b, c.take buf⟩
      · exact .inr ⟨a, b.take buf, c⟩
    · rw [upd_self, upd_other hfn]
      simp only [SteadyInv.handed, if_true, if_neg hfn]
      exact (h1.fol f hf hfn).takeL (fun m hm => (hsrc m hm).1) buf
    · simp only [SteadyInv.handed]
      split
      · rename_i e
        rw [h1.unused a ha b hb hab, hab.1 e]
        simp only [List.nil_append, List.filter_eq_nil_iff, decide_eq_true_eq]
        exact fun m hm => (hsrc m hm).2
      · exact h1.unused a ha b hb hab
    · rw [upd_other hgn]
      simp only [SteadyInv.handed, if_neg hgn]
  · have hL : upd sv i ((sv i).take_outgoing_msgs buf).2 n.pid = sv n.pid := upd_other (Ne.symm hin)
    have ht := (h1.fol i hi hin).takeF buf
    simp only [if_neg hin]
    refine ⟨acc, P, X, B, d, ⟨?_, fun f hf hfn => ?_, fun a ha b hb hab => ?_, h1.self⟩, h2.same (fun g _ hgn => ?_) fun p => rfl⟩
    · rw [hL]; exact h1.lead
    · rw [hL]
      simp only [SteadyInv.handed, if_neg (Ne.symm hin)]
      by_cases hfi : f = i
      · subst hfi
        rw [upd_self, if_pos rfl, if_pos rfl]
        exact ht.1
      · rw [upd_other hfi, if_neg hfi, if_neg hfi]
        exact h1.fol f hf hfn
    · simp only [SteadyInv.handed]
      split
      · rename_i e
        subst e
        rw [h1.unused a ha b hb hab]
        have hbn : b ≠ n.pid := fun e => hin (hab.2 e)
        have hends := (h1.fol a hi hin).ends
        simp only [List.nil_append, List.filter_eq_nil_iff, decide_eq_true_eq]
        exact fun m hm e => hbn (e.symm.trans (hends m hm))
      · exact h1.unused a ha b hb hab
    · by_cases hgi : g = i
      · subst hgi
        rw [upd_self]
        simp only [SteadyInv.handed, if_true]
        exact ht.2
      · rw [upd_other hgi]
        simp only [SteadyInv.handed, if_neg hgi]

theorem deliver [SnapOps E S] (hu : SnapOps.use_snapshots E S = false) (h : Boot cc n A π sv lk) (hv : cc.validate = .ok ()) (hnd : cc.nodes.Nodup) {i j : NodeId}
    (hi : i ∈ cc.nodes) (hj : j ∈ cc.nodes) {m : PaxosMessage E S} {rest : List (PaxosMessage E S)} (hlk : lk i j = m :: rest) :
    M.Sat (SP.handle m) (sv j) (fun _ s' => ∃ π', Boot cc n A π' (upd sv j s') (updL lk i j rest) ∧ (∀ g, π g ≤ π' g) ∧
      (i = n.pid → (π j = 1 → 2 ≤ π' j) ∧ (π j = 6 → 7 ≤ π' j)) ∧ (j = n.pid → π i = 3 → 4 ≤ π' i)) (fun _ => False) := by
  obtain ⟨acc, P, X, B, d, h1, h2⟩ := h
  by_cases hin : i = n.pid
  · by_cases hjn : j = n.pid
    · rw [h1.unused i hi j hj ⟨fun _ => hjn, fun _ => hin⟩] at hlk
      cases hlk
    · subst hin
      have hl := h1.fol j hj hjn
      rw [hlk] at hl
      refine M.sat_mono hl.deliverF (fun _ s' hs => ?_) fun _ h => h
      obtain ⟨⟨x, x1, x2, x3, x4⟩, x5⟩ := hs
      refine ⟨_, ⟨acc, P, X, B, d, h1.follower hjn x4, h2.same (fun g _ hgn => ?_) fun p => rfl⟩, fun g => ?_, fun _ => ?_, fun e => absurd e hjn⟩
      · rw [updL_other (.inl hgn)]
        by_cases e : g = j
        · subst e; rw [upd_self]; exact x5
        · exact held_upd e _
      · by_cases e : g = j
        · subst e; simpa using x1
        · simp [e]
      · simp only [if_true]
        exact ⟨x2, fun e => by rw [x3 e]; exact Nat.le_refl _⟩
  · by_cases hjn : j = n.pid
    · subst hjn
      have hl := h1.fol i hi hin
      rw [hlk] at hl
      have other : ∀ (s' : SP E S), ∀ g ∈ cc.nodes, g ≠ n.pid → g ≠ i → held (upd sv n.pid s' g) (updL lk i n.pid rest g n.pid) = held (sv g) (lk g n.pid) := by
        intro s' g _ hgn hgi
        rw [updL_other (.inl hgi), upd_other hgn]
      have self : ∀ (s' : SP E S) p, (held (sv i) (lk i n.pid)).countP p = m.msg.forwards.countP p +
          (held (upd sv n.pid s' i) (updL lk i n.pid rest i n.pid)).countP p := by
        intro s' p
        rw [updL_self, upd_other hin, hlk]
        simp only [held, List.map_cons, List.flatMap_cons, List.countP_append]
        omega
      have kinds : (∃ es, m.msg = .proposalForward es) ∨ (∃ x, m.msg = .accepted x) ∨ ∃ p, m.msg = .promise p := hl.kinds
      rcases kinds with ⟨es, hm⟩ | ⟨x, hm⟩ | ⟨p, hm⟩
      · have h3 := h1.popForward hi hin hlk hm
        have h4 := h3.add (another hv hnd _) (fun Z hc => hc.forwarded es) fun hL hK => hL.forwarded hK es
        simp only [SP.handle, hm]
        refine M.sat_mono h4 (fun _ s' hs => ?_) fun _ h => h
        obtain ⟨X', B', i1, i2⟩ := hs
        have hπ : π i ≠ 3 := by
          intro e
          rw [e] at hl
          obtain ⟨p, hp⟩ := hl.three
          rw [hm] at hp
          cases hp
        refine ⟨π, ⟨acc, P, X', B', d, i1, h2.change hnd hi hin (other s') fun p => ?_⟩, fun g => Nat.le_refl _, fun e => absurd e hin, fun _ e => absurd e hπ⟩
        have := self s' p
        rw [i2]
        simp only [hm, PaxosMsg.forwards, List.countP_append] at this ⊢
        omega
      · simp only [SP.handle, hm]
        refine M.sat_mono (h1.accepted hv hnd hi hin hlk hm) (fun _ s' hs => ?_) fun _ h => h
        obtain ⟨d', i1⟩ := hs
        have hπ : π i ≠ 3 := by
          intro e
          rw [e] at hl
          obtain ⟨p, hp⟩ := hl.three
          rw [hm] at hp
          cases hp
        refine ⟨π, ⟨acc, P, X, B, d', i1, h2.change hnd hi hin (other s') fun p => ?_⟩, fun g => Nat.le_refl _, fun e => absurd e hin, fun _ e => absurd e hπ⟩
        have := self s' p
        simp only [hm, PaxosMsg.forwards, List.countP_nil] at this ⊢
        omega
      · refine M.sat_mono (h1.promise hu (another hv hnd _) hi hin hlk hm) (fun _ s' hs => ?_) fun _ h => h
        obtain ⟨acc', P', X', B', d', π', i1, i2, i3, i4⟩ := hs
        refine ⟨π', ⟨acc', P', X', B', d', i1, h2.change hnd hi hin (other s') fun q => ?_⟩, i3, fun e => absurd e hin, fun _ _ => i4⟩
        have := self s' q
        rw [i2]
        simp only [hm, PaxosMsg.forwards, List.countP_nil] at this ⊢
        omega
    · rw [h1.unused i hi j hj ⟨fun h => absurd h hin, fun h => absurd h hjn⟩] at hlk
      cases hlk

/-- When all have promised, the leader is in the Accept phase. -/
theorem five (h : Boot cc n A π sv lk) (hv : cc.validate = .ok ()) (hnd : cc.nodes.Nodup) (h4 : ∀ f ∈ cc.nodes, f ≠ n.pid → 4 ≤ π f) :
    ∀ f ∈ cc.nodes, f ≠ n.pid → 5 ≤ π f := by
  obtain ⟨acc, P, X, B, d, h1, h2⟩ := h
  have hP : ∀ g ∈ cc.nodes, P g := fun g hg => by
    by_cases e : g = n.pid
    · rw [e]; exact h1.self
    · rcases h1.fol g hg e with hj | ⟨_, _, hP, _⟩
      · exact hj.prom.2 (h4 g hg e)
      · exact hP
  rcases h1.lead with ⟨_, _, hc⟩ | ⟨ha, _, _⟩
  · obtain ⟨f, hf, hfn⟩ := another hv hnd n.pid
    exact absurd hP (hc.not_all hv hnd hf hfn)
  · intro f hf hfn
    have := h4 f hf hfn
    rcases h1.fol f hf hfn with hj | ⟨e, _⟩
    · have := hj.four ha
      omega
    · omega

theorem le (h : Boot cc n A π sv lk) {f : NodeId} (hf : f ∈ cc.nodes) (hfn : f ≠ n.pid) : π f ≤ 7 := by
  obtain ⟨acc, P, X, B, d, h1, h2⟩ := h
  rcases h1.fol f hf hfn with hj | ⟨e, _⟩
  · have := hj.le
    omega
  · omega

/-- When all are synchronised, steady operation begins. -/
theorem sys (h : Boot cc n A π sv lk) (hv : cc.validate = .ok ()) (hnd : cc.nodes.Nodup) (h7 : ∀ f ∈ cc.nodes, f ≠ n.pid → 7 ≤ π f) :
    Sys cc n 0 (fun _ => []) (fun _ => 0) A sv lk := by
  obtain ⟨acc, P, X, B, d, h1, h2⟩ := h
  have hl : ∀ f ∈ cc.nodes, f ≠ n.pid → acc = true ∧ P f ∧ Linked n 0 [] 0 f X d (sv f) (sv n.pid) (lk n.pid f) (lk f n.pid) := fun f hf hfn => by
    rcases h1.fol f hf hfn with hj | ⟨_, h⟩
    · have := hj.le
      have := h7 f hf hfn
      omega
    · exact h
  have hP : ∀ g ∈ cc.nodes, P g := fun g hg => by
    by_cases e : g = n.pid
    · rw [e]; exact h1.self
    · exact (hl g hg e).2.1
  rcases h1.lead with ⟨ha, _, _⟩ | ⟨_, hL, hch⟩
  · obtain ⟨f, hf, hfn⟩ := another hv hnd n.pid
    rw [(hl f hf hfn).1] at ha
    cases ha
  · refine ⟨X, B, d, ⟨⟨hL.role, hL.phase, hL.pid, hL.peers, hL.ballot, hL.quorum, fun i hi _ => hL.promised i hi (hP i hi), hL.slots,
      fun i m hm => ⟨(hL.members i m hm).1, trivial⟩, hL.lam, hL.buf, hL.ist, hL.dec, hL.own, hL.size, hL.ends⟩, fun f hf hfn => (hl f hf hfn).2.2, hch, h1.unused⟩, ?_⟩
    intro p
    rw [h2 p]
    congr 2
    refine List.map_congr_left fun g hg => ?_
    obtain ⟨_, _, _, _, _, _, _, _, hk⟩ := (hl g (mem_peers.1 hg).1 (mem_peers.1 hg).2).2.2
    simp only [held, fwd, hk.fol.buf, List.append_nil]

end Boot

/-- From the start to steady operation, in stages: 0 before the election, then those of `Boot`, plus one; 8 is steady operation. -/
def Starts (cc : ClusterConfig) (n : Ballot) (A : List E) (ρ : NodeId → Nat) (sv : NodeId → SP E S) (lk : NodeId → NodeId → List (PaxosMessage E S)) : Prop :=
  (ρ = (fun _ => 0) ∧ Fresh cc n A sv lk) ∨ (∃ π, ρ = (fun g => π g + 1) ∧ Boot cc n A π sv lk) ∨
    (ρ = (fun _ => 8) ∧ Sys cc n 0 (fun _ => []) (fun _ => 0) A sv lk)

namespace Starts

theorem clear (h : Starts cc n A ρ sv lk) (hnd : cc.nodes.Nodup) {i : NodeId} (hi : i ∈ cc.nodes) :
    Starts cc n A ρ (upd sv i { sv i with ist := { (sv i).ist with trail := [], calls := [] } }) lk := by
  rcases h with ⟨e, h⟩ | ⟨π, e, h⟩ | ⟨e, h⟩
  · exact .inl ⟨e, h.same hnd hi (h.unled i hi).clear rfl⟩
  · exact .inr (.inl ⟨π, e, h.clear hi⟩)
  · exact .inr (.inr ⟨e, h.clear hi⟩)

theorem append (h : Starts cc n A ρ sv lk) (hv : cc.validate = .ok ()) (hnd : cc.nodes.Nodup) {i : NodeId} (hi : i ∈ cc.nodes) (x : E) :
    M.Sat (SP.append x) (sv i) (fun _ s' => Starts cc n (A ++ [x]) ρ (upd sv i s') lk) (fun _ => False) := by
  rcases h with ⟨e, h⟩ | ⟨π, e, h⟩ | ⟨e, h⟩
  · exact M.sat_mono ((h.unled i hi).append x) (fun _ s' hs => .inl ⟨e, h.put hnd hi hs.1 hs.2⟩) fun _ h => h
  · exact M.sat_mono (h.append hv hnd hi x) (fun _ s' hs => .inr (.inl ⟨π, e, hs⟩)) fun _ h => h
  · exact M.sat_mono (h.append hv hnd hi x) (fun _ s' hs => .inr (.inr ⟨e, hs⟩)) fun _ h => h

theorem ticked (h : Starts cc n A ρ sv lk) (hv : cc.validate = .ok ()) (hnd : cc.nodes.Nodup) (hn : n.pid ∈ cc.nodes) {i : NodeId} (hi : i ∈ cc.nodes)
    {b : Option Ballot} (hb : b = none ∨ (i = n.pid ∧ b = some n)) (r w : Prop) [Decidable r] [Decidable w]
    (hr : r → ∀ f ∈ cc.nodes, f ≠ n.pid → 8 ≤ ρ f) :
    M.Sat (SP.ticked b r w) (sv i) (fun _ s' => ∃ ρ', Starts cc n A ρ' (upd sv i s') lk ∧ (∀ f ∈ cc.nodes, f ≠ n.pid → ρ f ≤ ρ' f) ∧ (b = some n → ∀ f, 1 ≤ ρ' f)) (fun _ => False) := by
  have steady : Sys cc n 0 (fun _ => []) (fun _ => 0) A sv lk → (∀ f ∈ cc.nodes, f ≠ n.pid → ρ f ≤ 8) →
      M.Sat (SP.ticked b r w) (sv i) (fun _ s' => ∃ ρ', Starts cc n A ρ' (upd sv i s') lk ∧ (∀ f ∈ cc.nodes, f ≠ n.pid → ρ f ≤ ρ' f) ∧ (b = some n → ∀ f, 1 ≤ ρ' f)) (fun _ => False) := by
    intro h hle
    refine M.sat_mono (h.ticked_calm hv hnd hi (b := b) (fun x hx => ?_) r w) (fun _ s' hs => ⟨fun _ => 8, .inr (.inr ⟨rfl, hs⟩), hle, fun _ _ => (by decide : 1 ≤ 8)⟩) fun _ h => h
    rcases hb with hb | ⟨_, hb⟩ <;> rw [hb] at hx <;> cases hx
    rfl
  rcases h with ⟨e, h⟩ | ⟨π, e, h⟩ | ⟨e, h⟩
  · have hr' : ¬ r := fun h' => by
      obtain ⟨f, hf, hfn⟩ := another hv hnd n.pid
      have := hr h' f hf hfn
      rw [e] at this
      simp at this
    rcases hb with rfl | ⟨rfl, rfl⟩
    · refine M.sat_mono ((h.unled i hi).ticked r w hr') (fun _ s' hs => ?_) fun _ h => h
      subst hs
      rw [upd_same]
      exact ⟨ρ, .inl ⟨e, h⟩, fun _ _ _ => Nat.le_refl _, nofun⟩
    · simp only [SP.ticked, M.sat_bind]
      refine M.sat_mono ((h.unled _ hi).handle_leader hn hnd) (fun _ s' hs => ?_) fun _ h => h
      have h1 := h.elect hn hs.1 hs.2
      have h2 := hs.1.ticked (b := none) (.inl rfl) r w hr'
      simp only [SP.ticked, M.sat_bind, M.sat_pure] at h2
      refine M.sat_mono h2 (fun _ s1 hs1 => M.sat_mono hs1 (fun _ s2 hs2 => ?_) fun _ h => h) fun _ h => h
      subst hs2
      refine ⟨fun _ => 1, .inr (.inl ⟨_, rfl, h1⟩), fun g _ _ => by rw [e]; exact Nat.zero_le _, fun _ _ => Nat.le_refl _⟩
  · by_cases h' : r
    · refine steady (h.sys hv hnd fun f hf hfn => ?_) fun f hf hfn => ?_
      · have := hr h' f hf hfn
        rw [e] at this
        simp only at this
        omega
      · have := h.le hf hfn
        rw [e]
        simp only
        omega
    · exact M.sat_mono (h.ticked hv hnd hi hb r w h') (fun _ s' hs => ⟨ρ, .inr (.inl ⟨π, e, hs⟩), fun _ _ _ => Nat.le_refl _, fun _ g => by rw [e]; simp⟩) fun _ h => h
  · exact steady h fun g _ _ => by rw [e]; exact Nat.le_refl _

theorem take (h : Starts cc n A ρ sv lk) (hnd : cc.nodes.Nodup) {i : NodeId} (hi : i ∈ cc.nodes) (buf : List (Message E S)) :
    ∃ ρ', Starts cc n A ρ' (upd sv i ((sv i).take_outgoing_msgs buf).2) (SteadyInv.handed sv lk i) ∧ (∀ f, ρ f ≤ ρ' f) ∧
      (i = n.pid → ∀ f, (ρ f = 1 → 2 ≤ ρ' f) ∧ (ρ f = 6 → 7 ≤ ρ' f)) ∧ (i ≠ n.pid → ρ i = 3 → 4 ≤ ρ' i) := by
  rcases h with ⟨e, h⟩ | ⟨π, e, h⟩ | ⟨e, h⟩
  · have hl : SteadyInv.handed sv lk i = lk := by
      funext a b
      simp only [SteadyInv.handed, (h.unled i hi).out, List.filter_nil, List.append_nil, ite_self]
    rw [hl]
    refine ⟨ρ, .inl ⟨e, h.same hnd hi ((h.unled i hi).take buf) rfl⟩, fun _ => Nat.le_refl _, fun _ f => ?_, fun _ => ?_⟩ <;> rw [e] <;> simp
  · refine ⟨_, .inr (.inl ⟨_, rfl, h.take hi buf⟩), fun f => ?_, fun hin f => ?_, fun hin => ?_⟩
    · rw [e]
      simp only [afterL, afterF]
      repeat' split
      all_goals omega
    · rw [e]
      simp only [afterL, if_pos hin]
      repeat' split
      all_goals omega
    · rw [e]
      simp only [afterF, if_neg hin, if_true]
      split <;> omega
  · exact ⟨ρ, .inr (.inr ⟨e, h.take hi buf⟩), fun _ => Nat.le_refl _, fun _ f => by rw [e]; simp, fun _ => by rw [e]; simp⟩

theorem deliver [SnapOps E S] (hu : SnapOps.use_snapshots E S = false) (h : Starts cc n A ρ sv lk) (hv : cc.validate = .ok ()) (hnd : cc.nodes.Nodup) {i j : NodeId}
    (hi : i ∈ cc.nodes) (hj : j ∈ cc.nodes) {m : PaxosMessage E S} {rest : List (PaxosMessage E S)} (hlk : lk i j = m :: rest) :
    M.Sat (SP.handle m) (sv j) (fun _ s' => ∃ ρ', Starts cc n A ρ' (upd sv j s') (updL lk i j rest) ∧ (∀ f, ρ f ≤ ρ' f) ∧
      (i = n.pid → (ρ j = 2 → 3 ≤ ρ' j) ∧ (ρ j = 7 → 8 ≤ ρ' j)) ∧ (j = n.pid → ρ i = 4 → 5 ≤ ρ' i)) (fun _ => False) := by
  rcases h with ⟨e, h⟩ | ⟨π, e, h⟩ | ⟨e, h⟩
  · rw [h.links i hi j hj] at hlk
    cases hlk
  · refine M.sat_mono (h.deliver hu hv hnd hi hj hlk) (fun _ s' hs => ?_) fun _ h => h
    obtain ⟨π', h1, h2, h3, h4⟩ := hs
    refine ⟨_, .inr (.inl ⟨_, rfl, h1⟩), fun f => ?_, fun hin => ?_, fun hjn => ?_⟩
    · have := h2 f
      rw [e]; simp only; omega
    · have := h3 hin
      rw [e]; simp only; omega
    · have := h4 hjn
      rw [e]; simp only; omega
  · exact M.sat_mono (h.deliver hv hnd hi hj hlk) (fun _ s' hs => ⟨ρ, .inr (.inr ⟨e, hs⟩), fun _ => Nat.le_refl _, fun _ => by rw [e]; simp, fun _ => by rw [e]; simp⟩) fun _ h => h

/-- While the Prepare or the AcceptSync is on the way, there is something on the link. -/
theorem down (h : Starts cc n A ρ sv lk) {f : NodeId} (hf : f ∈ cc.nodes) (hfn : f ≠ n.pid) (h2 : ρ f = 2 ∨ ρ f = 7) : lk n.pid f ≠ [] := by
  rcases h with ⟨e, h⟩ | ⟨π, e, acc, P, X, B, d, h, _⟩ | ⟨e, h⟩
  · rw [e] at h2; simp at h2
  · rw [e] at h2
    simp only at h2
    have hj := h.fol f hf hfn
    intro e0
    rcases hj with hj | ⟨e1, _⟩
    · obtain ⟨q, ms, _, hd⟩ := hj.down
      rw [e0] at hd
      generalize π f = x at hd h2
      generalize hw : List.map (fun x => x.msg) ([] : List (PaxosMessage E S)) = w at hd
      cases hd with
      | ready => omega
      | asked => cases hw
      | idle => omega
      | synced => omega
      | sent => cases hw
    · omega
  · rw [e] at h2; simp at h2

/-- While the Promise is on the way, there is something on the link. -/
theorem up (h : Starts cc n A ρ sv lk) {f : NodeId} (hf : f ∈ cc.nodes) (hfn : f ≠ n.pid) (h4 : ρ f = 4) : lk f n.pid ≠ [] := by
  rcases h with ⟨e, h⟩ | ⟨π, e, acc, P, X, B, d, h, _⟩ | ⟨e, h⟩
  · rw [e] at h4; simp at h4
  · rw [e] at h4
    simp only at h4
    have hj := h.fol f hf hfn
    intro e0
    rcases hj with hj | ⟨e1, _⟩
    · have hu := hj.up
      rw [e0] at hu
      generalize π f = x at hu h4
      generalize hw : List.map (fun x => x.msg) ([] : List (PaxosMessage E S)) = w at hu
      cases hu with
      | unled => omega
      | ready => omega
      | told => cases hw
      | waits => omega
    · omega
  · rw [e] at h4; simp at h4

theorem six (h : Starts cc n A ρ sv lk) (hv : cc.validate = .ok ()) (hnd : cc.nodes.Nodup) (h5 : ∀ f ∈ cc.nodes, f ≠ n.pid → 5 ≤ ρ f) :
    ∀ f ∈ cc.nodes, f ≠ n.pid → 6 ≤ ρ f := by
  rcases h with ⟨e, h⟩ | ⟨π, e, h⟩ | ⟨e, h⟩
  · intro f hf hfn
    have := h5 f hf hfn
    rw [e] at this
    simp at this
  · intro f hf hfn
    have := h.five hv hnd (fun f hf hfn => by have := h5 f hf hfn; rw [e] at this; simp only at this; omega) f hf hfn
    rw [e]
    simp only
    omega
  · intro f hf hfn
    rw [e]
    simp

theorem sys (h : Starts cc n A ρ sv lk) (hv : cc.validate = .ok ()) (hnd : cc.nodes.Nodup) (h8 : ∀ f ∈ cc.nodes, f ≠ n.pid → 8 ≤ ρ f) :
    Sys cc n 0 (fun _ => []) (fun _ => 0) A sv lk := by
  rcases h with ⟨e, h⟩ | ⟨π, e, h⟩ | ⟨e, h⟩
  · obtain ⟨f, hf, hfn⟩ := another hv hnd n.pid
    have := h8 f hf hfn
    rw [e] at this
    simp at this
  · exact h.sys hv hnd fun f hf hfn => by have := h8 f hf hfn; rw [e] at this; simp only at this; omega
  · exact h

/-- What the election component needs to know. -/
theorem server (h : Starts cc n A ρ sv lk) {i : NodeId} (hi : i ∈ cc.nodes) : (sv i).get_promise = {} ∨ (sv i).get_promise = n := by
  rcases h with ⟨e, h⟩ | ⟨π, e, acc, P, X, B, d, h, _⟩ | ⟨e, X, B, d, h, _⟩
  · exact .inl (h.unled i hi).ist.st.prom
  · by_cases hin : i = n.pid
    · subst hin
      rcases h.lead with ⟨_, _, hc⟩ | ⟨_, hl, _⟩
      · exact .inr hc.ist.st.prom
      · exact .inr hl.ist.prom
    · rcases h.fol i hi hin with hj | ⟨_, _, _, _, _, _, _, _, _, _, _, hl⟩
      · have hu := hj.up
        generalize (lk i n.pid).map (·.msg) = w at hu
        generalize π i = x at hu
        cases hu with
        | unled _ hj _ => exact .inl hj.ist.st.prom
        | ready hj _ _ => exact .inr hj.ist.st.prom
        | told hj _ _ => exact .inr hj.ist.st.prom
        | waits _ _ hj _ _ => exact .inr hj.ist.st.prom
      · exact .inr hl.fol.ist.prom
  · by_cases hin : i = n.pid
    · subst hin
      exact .inr h.lead.ist.prom
    · obtain ⟨_, _, _, _, _, _, _, _, hl⟩ := h.fol i hi hin
      exact .inr hl.fol.ist.prom

/-- Nobody but `n.pid` leads. -/
theorem follower (h : Starts cc n A ρ sv lk) {i : NodeId} (hi : i ∈ cc.nodes) (hin : i ≠ n.pid) : (sv i).role = .follower := by
  rcases h with ⟨e, h⟩ | ⟨π, e, acc, P, X, B, d, h, _⟩ | ⟨e, X, B, d, h, _⟩
  · exact (h.unled i hi).role
  · rcases h.fol i hi hin with hj | ⟨_, _, _, _, _, _, _, _, _, _, _, hl⟩
    · have hu := hj.up
      generalize (lk i n.pid).map (·.msg) = w at hu
      generalize π i = x at hu
      cases hu with
      | unled _ hj _ => exact hj.role
      | ready hj _ _ => exact hj.role
      | told hj _ _ => exact hj.role
      | waits _ _ hj _ _ => exact hj.role
    · exact hl.fol.role
  · obtain ⟨_, _, _, _, _, _, _, _, hl⟩ := h.fol i hi hin
    exact hl.fol.role

end Starts
end Omni
