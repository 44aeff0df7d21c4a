import Verif.Proof.Boot.Pair
/-
From the start of a cluster to steady operation: the invariant of the whole cluster.
-/
namespace Omni

variable {E S : Type} {n : Ballot} {cc : ClusterConfig} {acc : Bool} {P : NodeId → Prop} {X B : List E} {d : Nat} {π : NodeId → Nat}
  {sv : NodeId → SP E S} {lk : NodeId → NodeId → List (PaxosMessage E S)} {A : List E}

/-- The invariant, apart from the count of the entries; `π` are the stages of the followers. -/
structure BootInv (cc : ClusterConfig) (n : Ballot) (acc : Bool) (P : NodeId → Prop) (X B : List E) (d : Nat) (π : NodeId → Nat)
    (sv : NodeId → SP E S) (lk : NodeId → NodeId → List (PaxosMessage E S)) : Prop where
  lead : (acc = false ∧ X = [] ∧ Cand P cc n B (sv n.pid)) ∨ (acc = true ∧ LeadOf P cc n 0 [] 0 X B d (sv n.pid) ∧
    AllChosen cc n (sv n.pid).ls.accepted_indexes d)
  fol : ∀ f ∈ cc.nodes, f ≠ n.pid → Joins n f acc P X d (sv f) (sv n.pid) (lk n.pid f) (lk f n.pid) (π f)
  unused : ∀ i ∈ cc.nodes, ∀ j ∈ cc.nodes, (i = n.pid ↔ j = n.pid) → lk i j = []
  self : P n.pid

/-- Every appended entry is with the leader or with a follower or on the way. -/
def HeldBy (cc : ClusterConfig) (n : Ballot) (A Z : List E) (sv : NodeId → SP E S) (lk : NodeId → NodeId → List (PaxosMessage E S)) : Prop :=
  ∀ p : E → Bool, A.countP p = Z.countP p + ((SP.peersOf cc.nodes n.pid).map fun f => (held (sv f) (lk f n.pid)).countP p).sum

theorem HeldBy.change (hn : cc.nodes.Nodup) {Z A' Z' : List E} {sv' : NodeId → SP E S} {lk' : NodeId → NodeId → List (PaxosMessage E S)}
    (h : HeldBy cc n A Z sv lk) {f : NodeId} (hf : f ∈ cc.nodes) (hfn : f ≠ n.pid)
    (ho : ∀ g ∈ cc.nodes, g ≠ n.pid → g ≠ f → held (sv' g) (lk' g n.pid) = held (sv g) (lk g n.pid))
    (he : ∀ p, (held (sv' f) (lk' f n.pid)).countP p + (Z'.countP p + A.countP p) = (held (sv f) (lk f n.pid)).countP p + (Z.countP p + A'.countP p)) :
    HeldBy cc n A' Z' sv' lk' := by
  intro p
  have h1 := sum_change (l := SP.peersOf cc.nodes n.pid) (hn.filter _) (F := fun f => (held (sv f) (lk f n.pid)).countP p)
    (G := fun f => (held (sv' f) (lk' f n.pid)).countP p) (f := f) (mem_peers.2 ⟨hf, hfn⟩)
    (fun g hg hgf => by rw [ho g (mem_peers.1 hg).1 (mem_peers.1 hg).2 hgf]) (he p)
  have h2 := h p
  omega

theorem HeldBy.same {Z A' Z' : List E} {sv' : NodeId → SP E S} {lk' : NodeId → NodeId → List (PaxosMessage E S)}
    (h : HeldBy cc n A Z sv lk) (ho : ∀ g ∈ cc.nodes, g ≠ n.pid → held (sv' g) (lk' g n.pid) = held (sv g) (lk g n.pid))
    (he : ∀ p, Z'.countP p + A.countP p = Z.countP p + A'.countP p) : HeldBy cc n A' Z' sv' lk' := by
  intro p
  have : ((SP.peersOf cc.nodes n.pid).map fun f => (held (sv' f) (lk' f n.pid)).countP p) =
      (SP.peersOf cc.nodes n.pid).map fun f => (held (sv f) (lk f n.pid)).countP p :=
    List.map_congr_left fun g hg => by rw [ho g (mem_peers.1 hg).1 (mem_peers.1 hg).2]
  rw [this]
  have h1 := h p
  have h2 := he p
  omega

/-- The Accept phase at the leader: a tick that elects nobody else and resends nothing. -/
theorem LeadOf.quiet {k : Nat} {lg : List E} {ci : Nat} {s : SP E S} (h : LeadOf P cc n k lg ci X B d s)
    (hK : ∀ f ∈ cc.nodes, f ≠ n.pid → ∃ q a ms, Keeps n f q a ms s) {b : Option Ballot} (hb : b = none ∨ b = some n) (r w : Prop) [Decidable r] [Decidable w]
    (hr : ¬ r) : M.Sat (SP.ticked b r w) s (fun _ s' => Put P False cc n k lg ci X B d [] s s' ∨ s' = s) (fun _ => False) := by
  have hc : (n ≤ s.ls.n_leader ∨ n ≤ s.get_promise) := by
    rw [h.ballot]; exact .inl (Ballot.le_refl n)
  have key : M.Sat (M.whenDo w SP.flush_batch_timeout) s (fun _ s' => Put P False cc n k lg ci X B d [] s s' ∨ s' = s) (fun _ => False) := by
    rw [M.sat_whenDo]
    refine ⟨fun _ => ?_, fun _ => .inr rfl⟩
    exact M.sat_mono (h.flush hK) (fun _ _ h => .inl (h.imp (fun h => ⟨h.1, h.2.1, False.elim⟩) fun h => ⟨h.1, h.2.1, False.elim⟩)) fun _ h => h
  rcases hb with rfl | rfl
  · simp only [SP.ticked, M.sat_bind, M.sat_pure, M.sat_whenDo (c := r), hr, false_implies, not_false_eq_true, true_implies, true_and]
    exact key
  · simp only [SP.ticked, M.sat_bind, SP.handle_leader, M.sat_get, if_pos hc, M.sat_pure, M.sat_whenDo (c := r), hr, false_implies, not_false_eq_true, true_implies, true_and]
    exact key

namespace BootInv

theorem keeps (h : BootInv cc n acc P X B d π sv lk) : ∀ f ∈ cc.nodes, f ≠ n.pid → ∃ q a ms, Keeps n f q a ms (sv n.pid) := by
  intro f hf hfn
  obtain ⟨q, al, ms, hk, _⟩ := (h.fol f hf hfn).keeps
  exact ⟨q, al, ms, hk⟩

/-- The leader changes without sending. -/
theorem held (h : BootInv cc n acc P X B d π sv lk) {Z : List E} {s' : SP E S} (ha : acc = false) (hs : Cand.Held P cc n Z (sv n.pid) s') :
    BootInv cc n acc P [] Z d π (upd sv n.pid s') lk := by
  refine ⟨.inl ⟨ha, rfl, by rw [upd_self]; exact hs.1⟩, fun f hf hfn => ?_, h.unused, h.self⟩
  rw [upd_self, upd_other hfn]
  have h1 := (h.fol f hf hfn).same (hs.2 f)
  rcases h1 with h1 | ⟨_, e, _⟩
  · exact .inl (h1.free (h1.early ha) ..)
  · rw [ha] at e; cases e

/-- The leader adds entries in the Accept phase. -/
theorem put (h : BootInv cc n acc P X B d π sv lk) {es : List E} {s' : SP E S} {R : Prop} (ha : acc = true)
    (hp : LeadOf.Put P R cc n 0 [] 0 X B d es (sv n.pid) s') :
    ∃ X' B', BootInv cc n acc P X' B' d π (upd sv n.pid s') lk ∧ X' ++ B' = X ++ B ++ es := by
  subst ha
  rcases h.lead with ⟨e, _⟩ | ⟨_, hl, hch⟩
  · cases e
  rcases hp with ⟨hL, hk, _⟩ | ⟨hL, hk, _⟩
  · refine ⟨X, B ++ es, ⟨.inr ⟨rfl, by rw [upd_self]; exact hL, fun L hq hnL h2 v hv => ?_⟩, fun f hf hfn => ?_, h.unused, h.self⟩, by simp⟩
    · rw [upd_self] at hv
      refine hch L hq hnL h2 v fun x hx => ?_
      by_cases hxn : x = n.pid
      · subst hxn
        have h1 := hv _ hx
        rw [hL.own] at h1
        rw [hl.own, h1]
      · obtain ⟨q, a, ms, hk0⟩ := h.keeps x (hq.members x hx) hxn
        have h1 := hv x hx
        rw [(hk x q a ms hk0).acc] at h1
        rw [hk0.acc, h1]
    · rw [upd_self, upd_other hfn]
      exact (h.fol f hf hfn).same (hk f)
  · refine ⟨X ++ (B ++ es), [], ⟨.inr ⟨rfl, by rw [upd_self]; exact hL, fun L hq hnL h2 v hv => ?_⟩, fun f hf hfn => ?_, h.unused, h.self⟩, by simp⟩
    · rw [upd_self] at hv
      -- a follower's accepted index is not beyond the old log
      have hfa : ∀ x ∈ L, x ≠ n.pid → slot (sv n.pid).ls.accepted_indexes x = some v ∧ v ≤ X.length := by
        intro x hx hxn
        obtain ⟨q, al, ms, hk0, hal⟩ := (h.fol x (hq.members x hx) hxn).keeps
        have hk1 := hk x (hq.members x hx) hxn q al ms hk0
        have h1 := hv x hx
        have : slot s'.ls.accepted_indexes x = some al := by
          by_cases hP : P x
          · obtain ⟨_, _, _, h4⟩ := hk1.1 hP
            exact h4.acc
          · exact (hk1.2 hP).acc
        rw [this] at h1
        have : al = v := Option.some.inj h1
        subst this
        exact ⟨hk0.acc, hal⟩
      obtain ⟨f, hf, hfn⟩ := h2
      have hle := (hfa f hf hfn).2
      refine hch L hq hnL ⟨f, hf, hfn⟩ v fun x hx => ?_
      by_cases hxn : x = n.pid
      · subst hxn
        have h1 := hv _ hx
        rw [hL.own] at h1
        have h1 := Option.some.inj h1
        rw [hl.own]
        simp only [List.length_append] at h1
        congr 1
        omega
      · exact (hfa x hx hxn).1
    · rw [upd_self, upd_other hfn]
      exact (h.fol f hf hfn).sent (hk f hf hfn) (Nat.le_refl _) (by have := hL.dec; omega)

/-- The leader adds entries. -/
theorem add (h : BootInv cc n acc P X B d π sv lk) (h2 : ∃ f ∈ cc.nodes, f ≠ n.pid) {α : Type} {m : M (SP E S) α} {es : List E}
    (hC : ∀ Z, Cand P cc n Z (sv n.pid) → M.Sat m (sv n.pid) (fun _ s' => Cand.Held P cc n (Z ++ es) (sv n.pid) s') (fun _ => False))
    (hL : LeadOf P cc n 0 [] 0 X B d (sv n.pid) → (∀ f ∈ cc.nodes, f ≠ n.pid → ∃ q a ms, Keeps n f q a ms (sv n.pid)) →
      M.Sat m (sv n.pid) (fun _ s' => LeadOf.Put P False cc n 0 [] 0 X B d es (sv n.pid) s') (fun _ => False)) :
    M.Sat m (sv n.pid) (fun _ s' => ∃ X' B', BootInv cc n acc P X' B' d π (upd sv n.pid s') lk ∧ X' ++ B' = X ++ B ++ es) (fun _ => False) := by
  rcases h.lead with ⟨ha, hX, hc⟩ | ⟨ha, hl, _⟩
  · exact M.sat_mono (hC B hc) (fun _ s' hs => ⟨[], B ++ es, h.held ha hs, by rw [hX]; simp⟩) fun _ h => h
  · exact M.sat_mono (hL hl h.keeps) (fun _ s' hs => h.put ha hs) fun _ h => h

/-- A follower changes. -/
theorem follower (h : BootInv cc n acc P X B d π sv lk) {f : NodeId} (hfn : f ≠ n.pid) {s' : SP E S}
    {toF : List (PaxosMessage E S)} {x : Nat} (hl : Joins n f acc P X d s' (sv n.pid) toF (lk f n.pid) x) :
    BootInv cc n acc P X B d (fun g => if g = f then x else π g) (upd sv f s') (updL lk n.pid f toF) := by
  have hL : upd sv f s' n.pid = sv n.pid := upd_other (Ne.symm hfn)
  refine ⟨by rw [hL]; exact h.lead, fun g hg hgn => ?_, fun i hi j hj hij => ?_, h.self⟩
  · rw [hL]
    by_cases hgf : g = f
    · subst hgf
      rw [upd_self, updL_self, updL_other (.inl hgn), if_pos rfl]
      exact hl
    · rw [upd_other hgf, updL_other (.inr hgf), updL_other (.inl hgn), if_neg hgf]
      exact h.fol g hg hgn
  · rw [updL_other]
    · exact h.unused i hi j hj hij
    · by_cases e : j = f
      · subst e; exact .inl fun hi' => hfn (hij.1 hi')
      · exact .inr e

theorem unused_up (h : BootInv cc n acc P X B d π sv lk) {f : NodeId} (hfn : f ≠ n.pid) (l : List (PaxosMessage E S)) :
    ∀ i ∈ cc.nodes, ∀ j ∈ cc.nodes, (i = n.pid ↔ j = n.pid) → updL lk f n.pid l i j = [] := fun i hi j hj hij => by
  rw [updL_other]
  · exact h.unused i hi j hj hij
  · by_cases e : i = f
    · subst e; exact .inr fun hj' => hfn (hij.2 hj')
    · exact .inl e

/-- Forwarded proposals of `f` leave the link. -/
theorem popForward (h : BootInv cc n acc P X B d π sv lk) {f : NodeId} (hf : f ∈ cc.nodes) (hfn : f ≠ n.pid) {m : PaxosMessage E S}
    {rest : List (PaxosMessage E S)} (hlk : lk f n.pid = m :: rest) {es : List E} (hm : m.msg = .proposalForward es) :
    BootInv cc n acc P X B d π sv (updL lk f n.pid rest) := by
  refine ⟨h.lead, fun g hg hgn => ?_, h.unused_up hfn rest, h.self⟩
  rw [updL_other (.inr hgn)]
  have hj := h.fol g hg hgn
  by_cases hgf : g = f
  · subst hgf
    rw [updL_self]
    rw [hlk] at hj
    rcases hj with hj | ⟨e, ha, hP, _, _, _, _, _, _, _, _, hl⟩
    · refine .inl ⟨hj.down, ?_, hj.prom, hj.four, hj.early, hj.srcF, fun x hx => hj.srcL x (List.mem_cons_of_mem _ hx)⟩
      have hu := hj.up
      simp only [List.map_cons, hm] at hu
      generalize hw : PaxosMsg.proposalForward es :: rest.map (·.msg) = w at hu
      generalize π g = y at hu ⊢
      cases hu with
      | unled => cases hw
      | ready => cases hw
      | told => cases hw
      | waits h4 h6 hj ho hr => exact .waits h4 h6 hj ho fun x hx => hr x (by rw [← hw]; exact List.mem_cons_of_mem _ hx)
    · exact .inr ⟨e, ha, hP, _, _, _, _, _, _, _, _, hl.popForward hm⟩
  · rw [updL_other (.inl hgf)]
    exact hj

/-- The leader receives an Accepted. -/
theorem accepted (h : BootInv cc n acc P X B d π sv lk) (hv : cc.validate = .ok ()) (hnd : cc.nodes.Nodup) {f : NodeId}
    (hf : f ∈ cc.nodes) (hfn : f ≠ n.pid) {m : PaxosMessage E S} {rest : List (PaxosMessage E S)} (hlk : lk f n.pid = m :: rest)
    {x : Accepted} (hm : m.msg = .accepted x) :
    M.Sat (SP.handle_accepted x m.src) (sv n.pid) (fun _ s' => ∃ d', BootInv cc n acc P X B d' π (upd sv n.pid s') (updL lk f n.pid rest)) (fun _ => False) := by
  have hj := h.fol f hf hfn
  rw [hlk] at hj
  rcases hj with hj | ⟨e7, ha, hPf, Xf, Bf, σ, a, out, q, al, ms, hl⟩
  · have hu := hj.up
    simp only [List.map_cons, hm] at hu
    generalize hw : PaxosMsg.accepted x :: rest.map (·.msg) = w at hu
    generalize π f = y at hu
    cases hu with
    | unled => cases hw
    | ready => cases hw
    | told => cases hw
    | waits h4 h6 hj ho hr => exact absurd (hr (.accepted x) (by rw [← hw]; exact List.mem_cons_self)) nofun
  subst ha
  rcases h.lead with ⟨e, _⟩ | ⟨_, hlead, hch⟩
  · cases e
  obtain ⟨h1, h2, h3, h4⟩ := hl.popAccepted hm
  rw [h4]
  refine M.sat_mono (hlead.accepted hv hnd h.keeps hf hfn h3 (Nat.le_trans h2 hl.le)) (fun _ t ht => ?_) fun _ h => h
  obtain ⟨d', ⟨e1, _⟩, e2, e3, e4⟩ := ht
  refine ⟨d', .inr ⟨rfl, by rw [upd_self]; exact e2, by rw [upd_self]; exact e3 hch⟩, fun g hg hgn => ?_, h.unused_up hfn rest, h.self⟩
  rw [upd_self, upd_other hgn, updL_other (.inr hgn)]
  have hdec := e2.dec
  rcases h.fol g hg hgn with hj | ⟨e7, _, hP, Xg, Bg, τ, b, og, qg, bl, mg, hlg⟩
  · have hgf : g ≠ f := fun e => by
      subst e
      have hle := hj.le
      omega
    rw [updL_other (.inl hgf)]
    obtain ⟨q, ms, hk, hd⟩ := hj.down
    obtain ⟨i1, i2⟩ := e4 g hg hgn _ _ _ hk
    rw [if_neg hgf] at i1 i2
    left
    by_cases hP : P g
    · obtain ⟨q', ms', i3, i4⟩ := i1 hP
      refine ⟨⟨q', ms', i4, ?_⟩, hj.up, hj.prom, hj.four, hj.early, hj.srcF, hj.srcL⟩
      rcases i3 with ⟨i3, _⟩ | ⟨rfl, rfl, rfl⟩
      · have h4 := hj.prom.1 hP
        have h5 := hj.four rfl
        have := hd.more (by omega) i3 e1 (by simpa using hdec)
        simpa using this
      · exact hd
    · exact ⟨⟨q, ms, i2 hP, hd.free (by have := mt hj.prom.2 hP; omega) ..⟩, hj.up, hj.prom, hj.four, hj.early, hj.srcF, hj.srcL⟩
  · right
    refine ⟨e7, rfl, hP, ?_⟩
    obtain ⟨q', ms', i1, i2⟩ := (e4 g hg hgn _ _ _ hlg.keeps).1 hP
    have hdown : τ.all n 0 ((lk n.pid g).map (·.msg) ++ ms') = some ⟨q', X, d'⟩ := by
      rcases i1 with ⟨i1, _⟩ | ⟨rfl, rfl, rfl⟩
      · have := i1.feed hlg.down e1 (by simpa using hdec)
        simpa using this
      · exact hlg.down
    by_cases hgf : g = f
    · subst hgf
      rw [updL_self]
      rw [if_pos rfl] at i2
      rw [hlk] at hlg
      obtain ⟨j1, j2, _, _⟩ := hlg.popAccepted hm
      exact ⟨Xg, Bg, τ, b, og, q', _, ms', hlg.fol, i2, hdown, j1, j2, fun m hm => hlg.src m (List.mem_cons_of_mem _ hm)⟩
    · rw [updL_other (.inl hgf)]
      rw [if_neg hgf] at i2
      exact ⟨Xg, Bg, τ, b, og, q', _, ms', hlg.fol, i2, hdown, hlg.up, hlg.low, hlg.src⟩

/-- The Promise leaves the link. -/
theorem told {f : NodeId} {sF sL : SP E S} {toF rest : List (PaxosMessage E S)} {m : PaxosMessage E S} {x : Nat} {p : Promise E S}
    (h : Joins n f acc P X d sF sL toF (m :: rest) x) (hm : m.msg = .promise p) : x = 3 ∧ p = prom0 n ∧ m.src = f ∧ (∃ q, Keeps n f q 0 [] sL) ∧ toF = [] ∧
      (∀ y, 4 ≤ y → y ≤ 6 → Up n f sF y (rest.map (·.msg))) ∧ (∀ y ∈ rest, y.src = f) := by
  rcases h with hj | ⟨e, ha, hP, _, _, _, _, _, _, _, _, hl⟩
  · have hu := hj.up
    obtain ⟨q, ms, hk, hd⟩ := hj.down
    have hs := hj.srcL
    simp only [List.map_cons, hm] at hu
    generalize hw : PaxosMsg.promise p :: rest.map (·.msg) = w at hu
    cases hu with
    | unled => cases hw
    | ready => cases hw
    | told hjn ho hr =>
      simp only [List.cons.injEq, PaxosMsg.promise.injEq] at hw
      obtain ⟨rfl, rfl⟩ := hw
      generalize hwd : toF.map (·.msg) = wd at hd
      cases hd with
      | idle => exact ⟨rfl, rfl, hs m List.mem_cons_self, ⟨q, hk⟩, List.map_eq_nil_iff.1 hwd, fun y h4 h6 => .waits h4 h6 hjn ho hr,
          fun y hy => hs y (List.mem_cons_of_mem _ hy)⟩
    | waits h4 h6 hj ho hr => exact absurd (hr (.promise p) (by rw [← hw]; exact List.mem_cons_self)) nofun
  · have := (hl.src m List.mem_cons_self).2
    rw [hm] at this
    exact this.elim

/-- The leader receives a Promise. -/
theorem promise [SnapOps E S] (hu : SnapOps.use_snapshots E S = false) (h : BootInv cc n acc P X B d π sv lk) (h2 : ∃ f ∈ cc.nodes, f ≠ n.pid) {f : NodeId}
    (hf : f ∈ cc.nodes) (hfn : f ≠ n.pid) {m : PaxosMessage E S} {rest : List (PaxosMessage E S)} (hlk : lk f n.pid = m :: rest)
    {p : Promise E S} (hm : m.msg = .promise p) :
    M.Sat (SP.handle m) (sv n.pid) (fun _ s' => ∃ acc' P' X' B' d' π', BootInv cc n acc' P' X' B' d' π' (upd sv n.pid s') (updL lk f n.pid rest) ∧
      X' ++ B' = X ++ B ∧ (∀ g, π g ≤ π' g) ∧ 4 ≤ π' f) (fun _ => False) := by
  have hj := h.fol f hf hfn
  rw [hlk] at hj
  obtain ⟨e3, rfl, hsrc, ⟨q, hk⟩, htoF, hup, hsr⟩ := told hj hm
  rcases h.lead with ⟨ha, hX, hc⟩ | ⟨ha, hl, hch⟩
  · subst ha
    simp only [SP.handle, hm, hsrc]
    have hh : ∀ g ∈ cc.nodes, g ≠ n.pid → Half n g false P X d (sv g) (sv n.pid) (lk n.pid g) (lk g n.pid) (π g) := fun g hg hgn => by
      rcases h.fol g hg hgn with hj | ⟨_, e, _⟩
      · exact hj
      · cases e
    have hK : ∀ g ∈ cc.nodes, g ≠ n.pid → (g = f ∨ P g) → ∃ q a, Keeps n g q a [] (sv n.pid) := by
      intro g hg hgn hP
      rcases hP with rfl | hP
      · exact ⟨q, 0, hk⟩
      · have hj := hh g hg hgn
        have h4 := hj.prom.1 hP
        have h4' := hj.early rfl
        obtain ⟨q, ms, hk, hd⟩ := hj.down
        generalize hw : (lk n.pid g).map (·.msg) = w at hd
        have e : π g = 4 := by omega
        rw [e] at hd
        cases hd with
        | idle => exact ⟨q, 0, hk⟩
    subst hX
    simp only [SP.handle_promise, M.sat_bind, M.sat_get, hc.role, hc.phase]
    refine M.sat_mono (hc.promise hu hf hfn hK) (fun _ s' hs => ?_) fun _ h => h
    rcases hs with hs | ⟨hL, hs⟩
    · refine ⟨false, _, [], B, d, fun g => if g = f then 4 else π g, ⟨.inl ⟨rfl, rfl, by rw [upd_self]; exact hs.1⟩, fun g hg hgn => ?_, h.unused_up hfn rest, Or.inr h.self⟩,
        rfl, fun g => ?_, by simp⟩
      · rw [upd_self, upd_other hgn, updL_other (.inr hgn)]
        by_cases hgf : g = f
        · subst hgf
          rw [updL_self]
          simp only [if_true]
          exact .inl ⟨⟨q, [], hs.2 _ _ _ _ hk, by rw [htoF]; exact .idle (by omega) (by omega)⟩, hup 4 (by omega) (by omega), by simp, nofun, fun _ => by omega,
            by rw [htoF]; nofun, hsr⟩
        · rw [updL_other (.inl hgf)]
          simp only [if_neg hgf]
          exact ((h.fol g hg hgn).same (hs.2 g)).congrP (by simp [hgf])
      · by_cases hgf : g = f
        · subst hgf; simp [e3]
        · simp [hgf]
    · refine ⟨true, _, B, [], 0, fun g => if g = f ∨ π g = 4 then 5 else π g, ⟨.inr ⟨rfl, by rw [upd_self]; exact hL, fun L hq hnL h2 v hv => ?_⟩, fun g hg hgn => ?_, h.unused_up hfn rest, Or.inr h.self⟩,
        by simp, fun g => ?_, by simp⟩
      · rw [upd_self] at hv
        obtain ⟨g, hg, hgn⟩ := h2
        have hgc := hq.members g hg
        have h1 := hv g hg
        obtain ⟨q1, ms, hk1, _⟩ := (hh g hgc hgn).down
        have : slot s'.ls.accepted_indexes g = some 0 := by
          by_cases hP : g = f ∨ P g
          · obtain ⟨q2, a2, hk2⟩ := hK g hgc hgn hP
            have e := hk2.acc
            rw [hk1.acc] at e
            cases e
            obtain ⟨q', hk'⟩ := (hs g hgc hgn q2 0 [] hk2).1 hP rfl
            exact hk'.acc
          · exact ((hs g hgc hgn q1 0 ms hk1).2 hP).acc
        rw [this] at h1
        have := Option.some.inj h1
        omega
      · rw [upd_self, upd_other hgn, updL_other (.inr hgn)]
        by_cases hgf : g = f
        · subst hgf
          rw [updL_self]
          simp only [true_or, if_true]
          obtain ⟨q', hk'⟩ := (hs g hg hgn q 0 [] hk).1 (.inl rfl) rfl
          exact .inl ⟨⟨q', _, hk', by rw [htoF]; exact .synced (Nat.zero_le _) rfl⟩, hup 5 (by omega) (by omega), by simp, fun _ => by omega, nofun,
            by rw [htoF]; nofun, hsr⟩
        · rw [updL_other (.inl hgf)]
          simp only [hgf, false_or]
          have hj := hh g hg hgn
          obtain ⟨q1, ms, hk1, hd⟩ := hj.down
          have hle := hj.early rfl
          by_cases h4 : π g = 4
          · rw [if_pos h4]
            have hP := hj.prom.2 (by omega)
            rw [h4] at hd hj
            generalize hw : (lk n.pid g).map (·.msg) = w at hd
            have hui := hj.up
            generalize hwu : (lk g n.pid).map (·.msg) = wu at hui
            cases hui with
            | unled h1 => omega
            | waits _ _ i1 i2 i3 =>
              cases hd with
              | idle =>
                obtain ⟨q', hk'⟩ := (hs g hg hgn q1 0 [] hk1).1 (.inr hP) rfl
                refine .inl ⟨⟨q', _, hk', by rw [hw]; exact .synced (Nat.zero_le _) rfl⟩, by rw [hwu]; exact .waits (by omega) (by omega) i1 i2 i3, by simp [hP], fun _ => by omega, nofun, hj.srcF, hj.srcL⟩
          · rw [if_neg h4]
            have hP : ¬ P g := fun hP => by have := hj.prom.1 hP; omega
            exact .inl ⟨⟨q1, ms, (hs g hg hgn q1 0 ms hk1).2 (by simp [hgf, hP]), hd.free hle ..⟩, hj.up, by simp [hgf, hj.prom], fun _ => h4, nofun, hj.srcF, hj.srcL⟩
      · by_cases hgf : g = f
        · subst hgf; simp [e3]
        · simp only [hgf, false_or]
          split <;> omega
  · subst ha
    simp only [SP.handle, hm, hsrc, SP.handle_promise, M.sat_bind, M.sat_get, hl.role, hl.phase]
    refine M.sat_mono (hl.promise hu hf hfn hk) (fun _ s' hs => ?_) fun _ h => h
    obtain ⟨hL, ⟨q', hk'⟩, hs⟩ := hs
    refine ⟨true, _, X, B, d, fun g => if g = f then 5 else π g, ⟨.inr ⟨rfl, by rw [upd_self]; exact hL, fun L hq hnL h2 v hv => ?_⟩, fun g hg hgn => ?_, h.unused_up hfn rest, Or.inr h.self⟩,
      rfl, fun g => ?_, by simp⟩
    · rw [upd_self] at hv
      refine hch L hq hnL h2 v fun x hx => ?_
      have h1 := hv x hx
      by_cases hxn : x = n.pid
      · subst hxn
        rw [hL.own] at h1
        rw [hl.own, h1]
      · by_cases hxf : x = f
        · subst hxf
          rw [hk'.acc] at h1
          rw [hk.acc, h1]
        · obtain ⟨q1, a1, ms1, hk1⟩ := h.keeps x (hq.members x hx) hxn
          rw [(hs x _ _ _ hxf hk1).acc] at h1
          rw [hk1.acc, h1]
    · rw [upd_self, upd_other hgn, updL_other (.inr hgn)]
      by_cases hgf : g = f
      · subst hgf
        rw [updL_self]
        simp only [if_true]
        exact .inl ⟨⟨q', _, hk', by rw [htoF]; exact .synced (by simpa using hl.dec) rfl⟩, hup 5 (by omega) (by omega), by simp, fun _ => by omega, nofun,
          by rw [htoF]; nofun, hsr⟩
      · rw [updL_other (.inl hgf)]
        simp only [if_neg hgf]
        exact ((h.fol g hg hgn).same fun q a ms => hs g q a ms hgf).congrP (by simp [hgf])
    · by_cases hgf : g = f
      · subst hgf; simp [e3]
      · simp [hgf]

end BootInv

end Omni
