import Verif.Proof.Steady.End
/-
Steady operation: what is on the way goes through ten stages.
-/
namespace Omni

variable {E S : Type} {n : Ballot} {k : Nat} {cc : ClusterConfig}

/-- Some message of the list satisfies `p`. -/
def Has (p : PaxosMsg E S → Bool) (l : List (PaxosMessage E S)) : Prop := ∃ m ∈ l, p m.msg = true

/-- Something is at stage `j`, at follower `f` or at the leader or on the links between them. -/
def At (n : Ballot) (out : NodeId → List (PaxosMessage E S)) (bat : NodeId → List E) (lk : NodeId → NodeId → List (PaxosMessage E S))
    (f : NodeId) : Nat → Prop
  | 0 => Has PaxosMsg.isForward (out f)
  | 1 => Has PaxosMsg.isForward (lk f n.pid)
  | 2 => bat n.pid ≠ []
  | 3 => Has PaxosMsg.isAcceptDecide (out n.pid)
  | 4 => Has PaxosMsg.isAcceptDecide (lk n.pid f)
  | 5 => bat f ≠ []
  | 6 => Has PaxosMsg.isAccepted (out f)
  | 7 => Has PaxosMsg.isAccepted (lk f n.pid)
  | 8 => Has PaxosMsg.isDecide (out n.pid)
  | 9 => Has PaxosMsg.isDecide (lk n.pid f)
  | _ => False

/-- `At` for the states of the servers. -/
abbrev AtS (n : Ballot) (sv : NodeId → SP E S) (lk : NodeId → NodeId → List (PaxosMessage E S)) (f : NodeId) (j : Nat) : Prop :=
  At n (fun i => (sv i).outgoing) (fun i => (sv i).ist.cache.batched_entries) lk f j

/-- What is at a stage afterwards has been there before, or something was at an earlier stage, at the same follower or at a stage where it came to the leader. -/
def Next (cc : ClusterConfig) (n : Ballot) (sv : NodeId → SP E S) (lk : NodeId → NodeId → List (PaxosMessage E S))
    (sv' : NodeId → SP E S) (lk' : NodeId → NodeId → List (PaxosMessage E S)) : Prop :=
  ∀ j, ∀ f ∈ cc.nodes, f ≠ n.pid → AtS n sv' lk' f j → AtS n sv lk f j ∨
    ∃ i < j, ∃ g ∈ cc.nodes, g ≠ n.pid ∧ AtS n sv lk g i ∧ (g = f ∨ i = 1 ∨ i = 2 ∨ i = 7)

variable {lg : NodeId → List E} {ci : NodeId → Nat} {X B : List E} {d : Nat} {sv : NodeId → SP E S} {lk : NodeId → NodeId → List (PaxosMessage E S)}

theorem Next.refl : Next cc n sv lk sv lk := fun _ _ _ _ h => .inl h

/-- The leader's messages after a change. -/
theorem Lead.has {lgL : List E} {ciL : Nat} {X' B' : List E} {d' : Nat} {s s' : SP E S} (h : Lead cc n k lgL ciL X' B' d' s')
    {p : PaxosMsg E S → Bool} {R : Prop}
    (hk : ∀ f ∈ cc.nodes, f ≠ n.pid → ∃ q a ms q' a' ms', Keeps n f q a ms s ∧ Keeps n f q' a' ms' s' ∧
      ∀ m ∈ ms', p m = true → m ∈ ms ∨ R) (hh : Has p s'.outgoing) : Has p s.outgoing ∨ R := by
  obtain ⟨m, hm, hp⟩ := hh
  obtain ⟨⟨h1, h2⟩, _⟩ := h.ends m hm
  obtain ⟨q, a, ms, q', a', ms', h3, h4, h5⟩ := hk _ h1 h2
  have h6 : m.msg ∈ ms' := by
    rw [h4.outs]
    exact List.mem_map_of_mem (List.mem_filter.2 ⟨hm, by simp⟩)
  rcases h5 _ h6 hp with h7 | h7
  · rw [h3.outs] at h7
    obtain ⟨m0, h8, h9⟩ := List.mem_map.1 h7
    exact .inl ⟨m0, (List.mem_filter.1 h8).1, by rw [h9]; exact hp⟩
  · exact .inr h7

theorem isDecide_not {m : PaxosMsg E S} (h : m.isDecide = true) : m.isAcceptDecide = false ∧ m.isAccepted = false ∧ m.isForward = false := by
  cases m <;> first | exact ⟨rfl, rfl, rfl⟩ | cases h

theorem isForward_not {m : PaxosMsg E S} (h : m.isForward = true) : m.isAccepted = false := by
  cases m <;> first | rfl | cases h

namespace SteadyInv

/-- Only the leader changes. -/
theorem next_lead (h : SteadyInv cc n k lg ci X B d sv lk) (h0 : ∃ f ∈ cc.nodes, f ≠ n.pid) {s' : SP E S}
    (hb : s'.ist.cache.batched_entries ≠ [] → B ≠ [] ∨ ∃ g ∈ cc.nodes, g ≠ n.pid ∧ Has PaxosMsg.isForward (lk g n.pid))
    (ha : Has PaxosMsg.isAcceptDecide s'.outgoing → Has PaxosMsg.isAcceptDecide (sv n.pid).outgoing ∨ B ≠ [] ∨
      ∃ g ∈ cc.nodes, g ≠ n.pid ∧ Has PaxosMsg.isForward (lk g n.pid))
    (hd : Has PaxosMsg.isDecide s'.outgoing → Has PaxosMsg.isDecide (sv n.pid).outgoing ∨ ∃ g ∈ cc.nodes, g ≠ n.pid ∧ Has PaxosMsg.isAccepted (lk g n.pid)) :
    Next cc n sv lk (upd sv n.pid s') lk := by
  obtain ⟨g0, g1, g2⟩ := h0
  have hB := h.lead.ist.batch
  intro j f hf hfn hat
  match j with
  | 2 =>
    simp only [AtS, At, upd_self] at hat ⊢
    rcases hb hat with e | ⟨g, e1, e2, e3⟩
    · exact .inl (by rw [hB]; exact e)
    · exact .inr ⟨1, by omega, g, e1, e2, e3, .inr (.inl rfl)⟩
  | 3 =>
    simp only [AtS, At, upd_self] at hat ⊢
    rcases ha hat with e | e | ⟨g, e1, e2, e3⟩
    · exact .inl e
    · exact .inr ⟨2, by omega, g0, g1, g2, by simp only [hB]; exact e, .inr (.inr (.inl rfl))⟩
    · exact .inr ⟨1, by omega, g, e1, e2, e3, .inr (.inl rfl)⟩
  | 8 =>
    simp only [AtS, At, upd_self] at hat ⊢
    rcases hd hat with e | ⟨g, e1, e2, e3⟩
    · exact .inl e
    · exact .inr ⟨7, by omega, g, e1, e2, e3, .inr (.inr (.inr rfl))⟩
  | 0 | 5 | 6 =>
    simp only [AtS, At, upd_other hfn] at hat ⊢
    exact .inl hat
  | 1 | 4 | 7 | 9 => exact .inl hat
  | _ + 10 => exact hat.elim

/-- Only a follower changes, and the links to it. -/
theorem next_fol {f : NodeId} (hf : f ∈ cc.nodes) (hfn : f ≠ n.pid) {s' : SP E S} {l : List (PaxosMessage E S)} (hl : ∀ m ∈ l, m ∈ lk n.pid f)
    (h0 : Has PaxosMsg.isForward s'.outgoing → Has PaxosMsg.isForward (sv f).outgoing)
    (hb : s'.ist.cache.batched_entries ≠ [] → (sv f).ist.cache.batched_entries ≠ [] ∨ Has PaxosMsg.isAcceptDecide (lk n.pid f))
    (ha : Has PaxosMsg.isAccepted s'.outgoing → Has PaxosMsg.isAccepted (sv f).outgoing ∨ (sv f).ist.cache.batched_entries ≠ [] ∨
      Has PaxosMsg.isAcceptDecide (lk n.pid f)) :
    Next cc n sv lk (upd sv f s') (updL lk n.pid f l) := by
  have hlink : ∀ p g, Has p (updL lk n.pid f l n.pid g) → Has p (lk n.pid g) := by
    rintro p g ⟨m, hm, hp⟩
    by_cases e : g = f
    · subst e
      rw [updL_self] at hm
      exact ⟨m, hl m hm, hp⟩
    · rw [updL_other (.inr e)] at hm
      exact ⟨m, hm, hp⟩
  intro j g hg hgn hat
  match j with
  | 0 =>
    by_cases e : g = f
    · subst e
      simp only [AtS, At, upd_self] at hat ⊢
      exact .inl (h0 hat)
    · simp only [AtS, At, upd_other e] at hat ⊢
      exact .inl hat
  | 1 | 7 =>
    simp only [AtS, At, updL_other (.inl hgn)] at hat ⊢
    exact .inl hat
  | 2 | 3 | 8 =>
    simp only [AtS, At, upd_other (Ne.symm hfn)] at hat ⊢
    exact .inl hat
  | 4 | 9 => exact .inl (hlink _ _ hat)
  | 5 =>
    by_cases e : g = f
    · subst e
      simp only [AtS, At, upd_self] at hat ⊢
      rcases hb hat with e | e
      · exact .inl e
      · exact .inr ⟨4, by omega, g, hg, hgn, e, .inl rfl⟩
    · simp only [AtS, At, upd_other e] at hat ⊢
      exact .inl hat
  | 6 =>
    by_cases e : g = f
    · subst e
      simp only [AtS, At, upd_self] at hat ⊢
      rcases ha hat with e | e | e
      · exact .inl e
      · exact .inr ⟨5, by omega, g, hg, hgn, e, .inl rfl⟩
      · exact .inr ⟨4, by omega, g, hg, hgn, e, .inl rfl⟩
    · simp only [AtS, At, upd_other e] at hat ⊢
      exact .inl hat
  | _ + 10 => exact hat.elim

/-- The leader adds entries; `es` come from a message. -/
theorem next_put (h : SteadyInv cc n k lg ci X B d sv lk) (h0 : ∃ f ∈ cc.nodes, f ≠ n.pid) {R : Prop} {es : List E} {s' : SP E S}
    (hp : Lead.Put R cc n k (lg n.pid) (ci n.pid) X B d es (sv n.pid) s')
    (hR : (R ∧ es = []) ∨ ∃ g ∈ cc.nodes, g ≠ n.pid ∧ Has PaxosMsg.isForward (lk g n.pid)) :
    Next cc n sv lk (upd sv n.pid s') lk := by
  rcases hp with ⟨hL, hk, hr⟩ | ⟨hL, hk, hr⟩
  · have hk' : ∀ p : PaxosMsg E S → Bool, Has p s'.outgoing → Has p (sv n.pid).outgoing := fun p hh => by
      rcases hL.has (s := sv n.pid) (R := False) (fun f hf hfn => by
        obtain ⟨q, a, ms, e⟩ := h.keeps f hf hfn
        exact ⟨q, a, ms, q, a, ms, e, hk f q a ms e, fun m hm _ => .inl hm⟩) hh with h | h
      · exact h
      · exact h.elim
    refine h.next_lead h0 (fun hb => ?_) (fun hh => .inl (hk' _ hh)) (fun hh => .inl (hk' _ hh))
    rcases hR with ⟨h1, rfl⟩ | h1
    · rw [hL.ist.batch, hr h1] at hb
      exact absurd rfl hb
    · exact .inr h1
  · refine h.next_lead h0 (fun hb => absurd hL.ist.batch hb) (fun hh => .inr ?_) (fun hh => .inl ?_)
    · rcases hR with ⟨h1, _⟩ | h1
      · exact .inl (hr h1)
      · exact .inr h1
    · rcases hL.has (s := sv n.pid) (R := False) (fun f hf hfn => by
        obtain ⟨q, a, ms, e⟩ := h.keeps f hf hfn
        obtain ⟨q', ms', e1, e2⟩ := hk f hf hfn q a ms e
        refine ⟨q, a, ms, q', a, ms', e, e2, fun m hm hp => ?_⟩
        rcases e1.kinds m hm with e3 | ⟨e3, _⟩ | ⟨_, e3⟩
        · exact .inl e3
        · rw [(isDecide_not hp).1] at e3; cases e3
        · cases e3) hh with h | h
      · exact h
      · exact h.elim

/-- A message leaves a link. -/
theorem next_pop {i j : NodeId} {m : PaxosMessage E S} {rest : List (PaxosMessage E S)} (hlk : lk i j = m :: rest) :
    ∀ p a b, Has p (updL lk i j rest a b) → Has p (lk a b) := by
  rintro p a b ⟨x, hx, hp⟩
  by_cases e : a = i ∧ b = j
  · obtain ⟨rfl, rfl⟩ := e
    rw [updL_self] at hx
    exact ⟨x, by rw [hlk]; exact List.mem_cons_of_mem _ hx, hp⟩
  · have : a ≠ i ∨ b ≠ j := by
      by_cases e1 : a = i
      · exact .inr fun e2 => e ⟨e1, e2⟩
      · exact .inl e1
    rw [updL_other this] at hx
    exact ⟨x, hx, hp⟩

theorem _root_.Omni.Next.pop {sv' : NodeId → SP E S} (h : Next cc n sv lk sv' lk) {i j : NodeId} {m : PaxosMessage E S}
    {rest : List (PaxosMessage E S)} (hlk : lk i j = m :: rest) : Next cc n sv lk sv' (updL lk i j rest) := by
  intro a f hf hfn hat
  refine h a f hf hfn ?_
  have := next_pop hlk
  match a with
  | 0 | 2 | 3 | 5 | 6 | 8 => exact hat
  | 1 | 4 | 7 | 9 => exact this _ _ _ hat
  | _ + 10 => exact hat.elim

/-- The leader receives an Accepted. -/
theorem next_accepted (h : SteadyInv cc n k lg ci X B d sv lk) (hv : cc.validate = .ok ()) (hnd : cc.nodes.Nodup) {f : NodeId}
    (hf : f ∈ cc.nodes) (hfn : f ≠ n.pid) {m : PaxosMessage E S} {rest : List (PaxosMessage E S)} (hlk : lk f n.pid = m :: rest)
    {x : Accepted} (hm : m.msg = .accepted x) :
    M.Sat (SP.handle_accepted x m.src) (sv n.pid) (fun _ s' => Next cc n sv lk (upd sv n.pid s') lk) (fun _ => False) := by
  obtain ⟨Xf, Bf, σ, a, out, q, al, ms, hl⟩ := h.fol f hf hfn
  rw [hlk] at hl
  obtain ⟨h1, h2, h3, h4⟩ := hl.popAccepted hm
  rw [h4]
  refine M.sat_mono (h.lead.accepted hv hnd h.keeps hf hfn h3 (Nat.le_trans h2 hl.le)) (fun _ t ht => ?_) fun _ h => h
  obtain ⟨d', ⟨e1, _⟩, e2, e3, e4⟩ := ht
  refine h.next_lead ⟨f, hf, hfn⟩ (fun hb => .inl ?_) (fun hh => .inl ?_) (fun hh => ?_)
  · rwa [e2.ist.batch] at hb
  · obtain ⟨m, hm, hp⟩ := hh
    obtain ⟨⟨i1, i2⟩, _⟩ := e2.ends m hm
    obtain ⟨q, a, ms, i3⟩ := h.keeps _ i1 i2
    obtain ⟨q', ms', i4, i5⟩ := e4 _ i1 i2 _ _ _ i3
    have i6 : m.msg ∈ ms' := by
      rw [i5.outs]
      exact List.mem_map_of_mem (List.mem_filter.2 ⟨hm, by simp⟩)
    have : ∃ m0 ∈ ms, m0.isAcceptDecide = true := by
      rcases i4 with ⟨i4, _⟩ | ⟨_, rfl, _⟩
      · rcases i4.kinds _ i6 with i7 | ⟨_, i7 | i7⟩ | ⟨i7, _⟩
        · exact ⟨_, i7, hp⟩
        · cases i7
        · exact i7
        · rw [(isDecide_not i7).1] at hp; cases hp
      · exact ⟨_, i6, hp⟩
    obtain ⟨m0, i7, i8⟩ := this
    rw [i3.outs] at i7
    obtain ⟨m1, i9, rfl⟩ := List.mem_map.1 i7
    exact ⟨m1, (List.mem_filter.1 i9).1, i8⟩
  · exact .inr ⟨f, hf, hfn, m, by rw [hlk]; exact List.mem_cons_self, by rw [hm]; rfl⟩

end SteadyInv

/-- What a handler at a follower leaves waiting. -/
theorem Fol.After.has {lg : List E} {ci : Nat} {f : NodeId} {Xf Bf : List E} {σ τ : Fed E} {a : Nat} {out : List (PaxosMsg E S)} {s s' : SP E S}
    (h : Fol n k lg ci f Xf Bf σ a out s) (hA : Fol.After n k lg ci f τ a out s') :
    (Has PaxosMsg.isForward s'.outgoing → Has PaxosMsg.isForward s.outgoing) ∧
    (s'.ist.cache.batched_entries ≠ [] → σ.Y.length = τ.Y.length → Bf ≠ []) := by
  obtain ⟨X', B', a', out', h1, h2, h3⟩ := hA
  refine ⟨fun ⟨m, hm, hp⟩ => ?_, fun hb hl => ?_⟩
  · have : m.msg ∈ out' := by rw [h1.outs]; exact List.mem_map_of_mem hm
    rcases h2.kinds _ this with h4 | h4
    · rw [h.outs] at h4
      obtain ⟨m0, h5, h6⟩ := List.mem_map.1 h4
      exact ⟨m0, h5, by rw [h6]; exact hp⟩
    · rw [isForward_not hp] at h4; cases h4
  · rintro rfl
    rw [h1.ist.batch] at hb
    have i1 := h.fed
    have i2 := h1.fed
    have i3 := h.accd
    have i4 := h1.accd
    rw [i1, i2] at hl
    simp only [List.length_append, List.length_nil] at hl
    have : 0 < B'.length := List.length_pos_iff.2 hb
    omega

namespace SteadyInv

/-- A follower receives. -/
theorem next_handleF [SnapOps E S] (h : SteadyInv cc n k lg ci X B d sv lk) {f : NodeId} (hf : f ∈ cc.nodes) (hfn : f ≠ n.pid)
    {m : PaxosMessage E S} {rest : List (PaxosMessage E S)} (hlk : lk n.pid f = m :: rest) :
    M.Sat (SP.handle m) (sv f) (fun _ s' => Next cc n sv lk (upd sv f s') (updL lk n.pid f rest)) (fun _ => False) := by
  obtain ⟨Xf, Bf, σ, a, out, q, al, ms, hl⟩ := h.fol f hf hfn
  rw [hlk] at hl
  have hd := hl.down
  have hB := hl.fol.ist.batch
  have hrest : ∀ x ∈ rest, x ∈ lk n.pid f := fun x hx => by rw [hlk]; exact List.mem_cons_of_mem _ hx
  simp only [List.map_cons, List.cons_append, Fed.all] at hd
  cases hs : σ.step n k m.msg with
  | none => rw [hs] at hd; cases hd
  | some τ =>
    unfold SP.handle
    cases hm : m.msg with
    | acceptDecide x =>
      rw [hm] at hs
      simp only
      have hh : Has PaxosMsg.isAcceptDecide (lk n.pid f) := ⟨m, by rw [hlk]; exact List.mem_cons_self, by rw [hm]; rfl⟩
      refine M.sat_mono (hl.fol.handle_acceptdecide hs) (fun _ t ht => ?_) fun _ h => h
      exact next_fol hf hfn hrest (ht.has hl.fol).1 (fun _ => .inr hh) fun _ => .inr (.inr hh)
    | decide x =>
      rw [hm] at hs
      simp only
      have hY : σ.Y.length = τ.Y.length := by
        simp only [Fed.step] at hs
        split at hs
        · simp only [Option.some.injEq] at hs; rw [← hs]
        · cases hs
      by_cases hBe : Bf = []
      · refine M.sat_mono (M.sat_and (hl.fol.handle_decide hs) (hl.fol.decide_idle hs hBe)) (fun _ t ht => ?_) fun _ h => h.1
        refine next_fol hf hfn hrest (ht.1.has hl.fol).1 (fun hb => .inl ?_) fun hh => .inl ?_
        · rw [hB]; exact (ht.1.has hl.fol).2 hb hY
        · rwa [ht.2] at hh
      · refine M.sat_mono (hl.fol.handle_decide hs) (fun _ t ht => ?_) fun _ h => h
        exact next_fol hf hfn hrest (ht.has hl.fol).1 (fun _ => .inl (by rw [hB]; exact hBe)) fun _ => .inr (.inl (by rw [hB]; exact hBe))
    | _ => rw [hm] at hs; simp [Fed.step] at hs

/-- A server hands over its messages. -/
theorem next_take (h : SteadyInv cc n k lg ci X B d sv lk) {i : NodeId} (hi : i ∈ cc.nodes) (buf : List (Message E S)) :
    Next cc n sv lk (upd sv i ((sv i).take_outgoing_msgs buf).2) (handed sv lk i) := by
  have hout : ∀ (p : PaxosMsg E S → Bool) g, Has p (upd sv i ((sv i).take_outgoing_msgs buf).2 g).outgoing → Has p (sv g).outgoing := by
    rintro p g ⟨m, hm, hp⟩
    by_cases e : g = i
    · subst e
      rw [upd_self] at hm
      simp [SP.take_outgoing_msgs] at hm
    · rw [upd_other e] at hm
      exact ⟨m, hm, hp⟩
  have hbat : ∀ g, (upd sv i ((sv i).take_outgoing_msgs buf).2 g).ist = (sv g).ist := by
    intro g
    by_cases e : g = i
    · subst e; rw [upd_self]; rfl
    · rw [upd_other e]
  have hlink : ∀ (p : PaxosMsg E S → Bool) a b, Has p (handed sv lk i a b) → Has p (lk a b) ∨ Has p (sv a).outgoing := by
    rintro p a b ⟨m, hm, hp⟩
    simp only [handed] at hm
    split at hm
    · rename_i e
      subst e
      rcases List.mem_append.1 hm with hm | hm
      · exact .inl ⟨m, hm, hp⟩
      · exact .inr ⟨m, (List.mem_filter.1 hm).1, hp⟩
    · exact .inl ⟨m, hm, hp⟩
  intro j f hf hfn hat
  match j with
  | 0 | 3 | 6 | 8 => exact .inl (hout _ _ hat)
  | 2 | 5 => simp only [AtS, At, hbat] at hat ⊢; exact .inl hat
  | 1 => exact (hlink _ _ _ hat).imp id fun h => ⟨0, by omega, f, hf, hfn, h, .inl rfl⟩
  | 4 => exact (hlink _ _ _ hat).imp id fun h => ⟨3, by omega, f, hf, hfn, h, .inl rfl⟩
  | 7 => exact (hlink _ _ _ hat).imp id fun h => ⟨6, by omega, f, hf, hfn, h, .inl rfl⟩
  | 9 => exact (hlink _ _ _ hat).imp id fun h => ⟨8, by omega, f, hf, hfn, h, .inl rfl⟩
  | _ + 10 => exact hat.elim

end SteadyInv

end Omni
