import Verif.Proof.Steady.Done
/-
Steady operation under load: what an action may do to what the servers have accepted, received, decided and recorded.
-/
namespace Omni

variable {E S : Type} {n : Ballot} {k : Nat} {cc : ClusterConfig} {lg : NodeId → List E} {ci : NodeId → Nat} {A : List E}

/-- What is looked at of a server. -/
structure Obs (E S : Type) where
  acc : Nat
  bat : List E
  dec : Nat
  log : List E
  out : List (PaxosMessage E S)
  recs : List Nat

def SP.obs (s : SP E S) : Obs E S :=
  ⟨s.ist.cache.accepted_idx, s.ist.cache.batched_entries, s.ist.cache.decided_idx, s.ist.storage.log, s.outgoing, s.ls.accepted_indexes⟩

/-- How far it has received, batched entries included. -/
def Obs.rcv (o : Obs E S) : Nat := o.acc + o.bat.length

/-- Stored and batched entries. -/
def Obs.all (o : Obs E S) : List E := o.log ++ o.bat

/-- How many entries a message brings. -/
def PaxosMsg.ents : PaxosMsg E S → Nat
  | .acceptDecide a => a.entries.length
  | _ => 0

/-- Which decided index it brings. -/
def PaxosMsg.decd : PaxosMsg E S → Nat
  | .acceptDecide a => a.decided_idx
  | .decide a => a.decided_idx
  | _ => 0

/-- The entries `f` has forwarded and the leader not received. -/
def waiting (n : Ballot) (o : NodeId → Obs E S) (lk : NodeId → NodeId → List (PaxosMessage E S)) (f : NodeId) : List E :=
  ((lk f n.pid).map (·.msg)).flatMap PaxosMsg.forwards ++ ((o f).out.map (·.msg)).flatMap PaxosMsg.forwards

/-- One action; `dv` is the message it delivers, if any. -/
structure Moves (cc : ClusterConfig) (n : Ballot) (o : NodeId → Obs E S) (lk : NodeId → NodeId → List (PaxosMessage E S))
    (dv : Option (NodeId × NodeId × PaxosMsg E S)) (o' : NodeId → Obs E S) (lk' : NodeId → NodeId → List (PaxosMessage E S)) : Prop where
  acc : ∀ i ∈ cc.nodes, (o i).acc ≤ (o' i).acc
  rcv : ∀ i ∈ cc.nodes, (o i).rcv ≤ (o' i).rcv
  dec : ∀ i ∈ cc.nodes, (o i).dec ≤ (o' i).dec
  log : (o n.pid).log <+: (o' n.pid).log
  all : (o n.pid).all <+: (o' n.pid).all
  came : ∀ f m, dv = some (f, n.pid, m) → (o n.pid).all ++ m.forwards = (o' n.pid).all
  got : ∀ f ∈ cc.nodes, f ≠ n.pid → ∀ m, dv = some (n.pid, f, m) → (o f).rcv + m.ents ≤ (o' f).rcv ∧ m.decd ≤ (o' f).dec
  less : ∀ f ∈ cc.nodes, f ≠ n.pid → ∀ m, dv = some (f, n.pid, m) → waiting n o lk f = m.forwards ++ waiting n o' lk' f
  more : ∀ f ∈ cc.nodes, f ≠ n.pid → (∀ m, dv ≠ some (f, n.pid, m)) → waiting n o lk f <+: waiting n o' lk' f
  noted : ∀ f ∈ cc.nodes, f ≠ n.pid → ∀ x, dv = some (f, n.pid, .accepted x) → slot (o' n.pid).recs f = some x.accepted_idx ∧
    ((Quorum.with cc.flexible_quorum cc.nodes.length).is_accept_quorum 2 = true → x.accepted_idx ≤ (o' n.pid).dec)
  kept : ∀ f ∈ cc.nodes, f ≠ n.pid → (∀ x, dv ≠ some (f, n.pid, .accepted x)) → slot (o' n.pid).recs f = slot (o n.pid).recs f
  replied : ∀ f ∈ cc.nodes, f ≠ n.pid → ∀ x, .accepted x ∈ (o' f).out.map (·.msg) → .accepted x ∈ (o f).out.map (·.msg) ∨ x.accepted_idx = (o' f).acc

theorem Moves.refl {o : NodeId → Obs E S} {lk : NodeId → NodeId → List (PaxosMessage E S)} : Moves cc n o lk none o lk :=
  ⟨fun _ _ => Nat.le_refl _, fun _ _ => Nat.le_refl _, fun _ _ => Nat.le_refl _, List.prefix_rfl, List.prefix_rfl, nofun, nofun, nofun,
    fun _ _ _ _ => List.prefix_rfl, nofun, fun _ _ _ _ => rfl, fun _ _ _ _ h => .inl h⟩

variable {X B : List E} {d : Nat} {sv : NodeId → SP E S} {lk : NodeId → NodeId → List (PaxosMessage E S)}

theorem obs_upd {i j : NodeId} {s : SP E S} (h : j ≠ i) : (upd sv i s j).obs = (sv j).obs := by rw [upd_other h]

theorem Obs.ext' {s t : SP E S} (h1 : s.ist.cache = t.ist.cache) (h2 : s.ist.storage = t.ist.storage) (h3 : s.outgoing = t.outgoing) (h4 : s.ls = t.ls) :
    s.obs = t.obs := by simp only [SP.obs, h1, h2, h3, h4]

namespace SteadyInv

/-- The leader adds entries. -/
theorem moves_put (h : SteadyInv cc n k lg ci X B d sv lk) (hn : n.pid ∈ cc.nodes) {es : List E} {s' : SP E S} {R : Prop}
    (hp : Lead.Put R cc n k (lg n.pid) (ci n.pid) X B d es (sv n.pid) s') {dv : Option (NodeId × NodeId × PaxosMsg E S)}
    {lk' : NodeId → NodeId → List (PaxosMessage E S)}
    (hd : (dv = none ∧ lk' = lk) ∨ ∃ i, i ∈ cc.nodes ∧ i ≠ n.pid ∧ ∃ m rest, lk i n.pid = m :: rest ∧ m.msg = .proposalForward es ∧
      dv = some (i, n.pid, m.msg) ∧ lk' = updL lk i n.pid rest) :
    Moves cc n (fun i => (sv i).obs) lk dv (fun i => (upd sv n.pid s' i).obs) lk' := by
  have key : ∃ X' B', Lead cc n k (lg n.pid) (ci n.pid) X' B' d s' ∧ X <+: X' ∧ X' ++ B' = X ++ B ++ es ∧
      ∀ f ∈ cc.nodes, f ≠ n.pid → slot s'.ls.accepted_indexes f = slot (sv n.pid).ls.accepted_indexes f := by
    rcases hp with ⟨h1, h2, _⟩ | ⟨h1, h2, _⟩
    · refine ⟨X, B ++ es, h1, List.prefix_rfl, by simp, fun f hf hfn => ?_⟩
      obtain ⟨q, a, ms, hk⟩ := h.keeps f hf hfn
      rw [hk.acc, (h2 f q a ms hk).acc]
    · refine ⟨X ++ (B ++ es), [], h1, by simp, by simp, fun f hf hfn => ?_⟩
      obtain ⟨q, a, ms, hk⟩ := h.keeps f hf hfn
      obtain ⟨_, _, _, hk'⟩ := h2 f hf hfn q a ms hk
      rw [hk.acc, hk'.acc]
  obtain ⟨X', B', hL, hX, he, hs⟩ := key
  have hi := h.lead.ist
  have hi' := hL.ist
  have hlen : X.length + B.length + es.length = X'.length + B'.length := by
    have := congrArg List.length he
    simp only [List.length_append] at this
    omega
  have hother : ∀ {j : NodeId}, j ≠ n.pid → (upd sv n.pid s' j).obs = (sv j).obs := fun hj => obs_upd hj
  have hall : (sv n.pid).obs.all ++ es = s'.obs.all := by
    simp only [Obs.all, SP.obs, hi.log, hi.batch, hi'.log, hi'.batch, List.append_assoc]
    rw [← List.append_assoc X, ← he]
  have hcase : ∀ (P : Obs E S → Obs E S → Prop), P (sv n.pid).obs s'.obs → (∀ o, P o o) → ∀ i, P (sv i).obs (upd sv n.pid s' i).obs := by
    intro P h1 h2 i
    by_cases e : i = n.pid
    · subst e; rw [upd_self]; exact h1
    · rw [hother e]; exact h2 _
  refine ⟨fun i _ => hcase (fun a b => a.acc ≤ b.acc) ?_ (fun _ => Nat.le_refl _) i, fun i _ => hcase (fun a b => a.rcv ≤ b.rcv) ?_ (fun _ => Nat.le_refl _) i,
    fun i _ => hcase (fun a b => a.dec ≤ b.dec) ?_ (fun _ => Nat.le_refl _) i, ?_, ?_, ?_, ?_, ?_, ?_, ?_, ?_, ?_⟩
  · simp only [SP.obs, hi.acc, hi'.acc]
    have := hX.length_le
    omega
  · simp only [Obs.rcv, SP.obs, hi.acc, hi'.acc, hi.batch, hi'.batch]
    omega
  · simp only [SP.obs, hi.dec, hi'.dec]
    exact Nat.le_refl _
  · simp only [upd_self, SP.obs, hi.log, hi'.log]
    exact List.prefix_append_right_inj _ |>.2 hX
  · simp only [upd_self]
    rw [← hall]
    exact List.prefix_append _ _
  · intro f m e
    simp only [upd_self]
    rcases hd with ⟨rfl, _⟩ | ⟨i, _, _, m0, rest, _, e2, rfl, _⟩
    · cases e
    · cases e
      rw [e2]
      exact hall
  · intro f _ hfn m e
    rcases hd with ⟨rfl, _⟩ | ⟨i, _, hin, m0, rest, _, e2, rfl, _⟩
    · cases e
    · cases e; exact absurd rfl hin
  · intro f _ hfn m e
    rcases hd with ⟨rfl, _⟩ | ⟨i, _, hin, m0, rest, e1, e2, rfl, rfl⟩
    · cases e
    · cases e
      simp only [waiting, hother hfn, updL_self, e1, List.map_cons, List.flatMap_cons, List.append_assoc]
  · intro f _ hfn hdv
    rcases hd with ⟨rfl, rfl⟩ | ⟨i, _, hin, m0, rest, e1, e2, rfl, rfl⟩
    · simp only [waiting, hother hfn]
      exact List.prefix_rfl
    · have : f ≠ i := fun e => hdv m0.msg (by rw [e])
      simp only [waiting, hother hfn, updL_other (.inl this)]
      exact List.prefix_rfl
  · intro f _ hfn x e
    rcases hd with ⟨rfl, _⟩ | ⟨i, _, hin, m0, rest, _, e2, rfl, _⟩
    · cases e
    · rw [e2] at e; cases e
  · intro f hf hfn _
    simp only [upd_self]
    exact hs f hf hfn
  · intro f _ hfn x hx
    simp only [hother hfn] at hx
    exact .inl hx

/-- A follower changes. -/
theorem moves_fol {f : NodeId} (hf : f ∈ cc.nodes) (hfn : f ≠ n.pid) {s' : SP E S} {Xf Bf : List E} {σ τ : Fed E} {a : Nat} {out : List (PaxosMsg E S)}
    (h1 : Fol n k (lg f) (ci f) f Xf Bf σ a out (sv f)) {X' B' : List E} {a' : Nat} {out' : List (PaxosMsg E S)}
    (h2 : Fol n k (lg f) (ci f) f X' B' τ a' out' s') (ha : a ≤ a')
    (hfw : ∃ z, out'.flatMap PaxosMsg.forwards = out.flatMap PaxosMsg.forwards ++ z)
    (hre : ∀ x, .accepted x ∈ out' → .accepted x ∈ out ∨ x.accepted_idx = a')
    {dv : Option (NodeId × NodeId × PaxosMsg E S)} {lk' : NodeId → NodeId → List (PaxosMessage E S)}
    (hd : (dv = none ∧ lk' = lk ∧ τ = σ) ∨ ∃ m rest, lk n.pid f = m :: rest ∧ σ.step n k m.msg = some τ ∧
      dv = some (n.pid, f, m.msg) ∧ lk' = updL lk n.pid f rest) :
    Moves cc n (fun i => (sv i).obs) lk dv (fun i => (upd sv f s' i).obs) lk' := by
  have hi := h1.ist
  have hi' := h2.ist
  have hother : ∀ {j : NodeId}, j ≠ f → (upd sv f s' j).obs = (sv j).obs := fun hj => obs_upd hj
  have hL : (upd sv f s' n.pid).obs = (sv n.pid).obs := hother (Ne.symm hfn)
  have hfed := h1.fed
  have hfed' := h2.fed
  have hfl := congrArg List.length hfed
  have hfl' := congrArg List.length hfed'
  simp only [List.length_append] at hfl hfl'
  have hstep : σ.Y.length ≤ τ.Y.length ∧ σ.d ≤ τ.d ∧ ∀ m, dv = some (n.pid, f, m) → σ.Y.length + m.ents ≤ τ.Y.length ∧ m.decd ≤ τ.d := by
    rcases hd with ⟨rfl, _, rfl⟩ | ⟨m, rest, _, e2, rfl, _⟩
    · exact ⟨Nat.le_refl _, Nat.le_refl _, nofun⟩
    · have h3 := Fed.step_grows e2
      refine ⟨h3.1.length_le, h3.2, fun m' e => ?_⟩
      cases e
      cases hm : m.msg with
      | acceptDecide x =>
        rw [hm] at e2
        simp only [Fed.step] at e2
        split at e2
        · simp only [Option.some.injEq] at e2
          subst e2
          simp only [List.length_append, PaxosMsg.ents, PaxosMsg.decd]
          omega
        · cases e2
      | decide x =>
        rw [hm] at e2
        simp only [Fed.step] at e2
        split at e2
        · simp only [Option.some.injEq] at e2
          subst e2
          simp only [PaxosMsg.ents, PaxosMsg.decd]
          omega
        · cases e2
      | _ => rw [hm] at e2; simp [Fed.step] at e2
  have hnone : ∀ g m, dv ≠ some (g, n.pid, m) := by
    rintro g m e
    rcases hd with ⟨rfl, _⟩ | ⟨_, _, _, _, rfl, _⟩
    · cases e
    · cases e; exact hfn rfl
  have hlk : ∀ g, lk' g n.pid = lk g n.pid := by
    intro g
    rcases hd with ⟨_, rfl, _⟩ | ⟨_, _, _, _, _, rfl⟩
    · rfl
    · exact updL_other (.inr (Ne.symm hfn))
  have hcase : ∀ (P : Obs E S → Obs E S → Prop), P (sv f).obs s'.obs → (∀ o, P o o) → ∀ i, P (sv i).obs (upd sv f s' i).obs := by
    intro P h1 h2 i
    by_cases e : i = f
    · subst e; rw [upd_self]; exact h1
    · rw [hother e]; exact h2 _
  have hrcv : (sv f).obs.rcv = k + σ.Y.length ∧ s'.obs.rcv = k + τ.Y.length := by
    simp only [Obs.rcv, SP.obs, hi.acc, hi'.acc, hi.batch, hi'.batch]
    omega
  have hdec : (sv f).obs.dec = σ.d ∧ s'.obs.dec = τ.d := ⟨hi.dec, hi'.dec⟩
  refine ⟨fun i _ => hcase (fun a b => a.acc ≤ b.acc) ?_ (fun _ => Nat.le_refl _) i, fun i _ => hcase (fun a b => a.rcv ≤ b.rcv) ?_ (fun _ => Nat.le_refl _) i,
    fun i _ => hcase (fun a b => a.dec ≤ b.dec) ?_ (fun _ => Nat.le_refl _) i, ?_, ?_, ?_, ?_, ?_, ?_, ?_, ?_, ?_⟩
  · simp only [SP.obs, hi.acc, hi'.acc]
    have := h1.accd
    have := h2.accd
    omega
  · rw [hrcv.1, hrcv.2]; omega
  · rw [hdec.1, hdec.2]; omega
  · simp only [hL]; exact List.prefix_rfl
  · simp only [hL]; exact List.prefix_rfl
  · intro g m e; exact absurd e (hnone g m)
  · intro g _ hgn m e
    have hgf : g = f := by
      rcases hd with ⟨rfl, _⟩ | ⟨_, _, _, _, rfl, _⟩
      · cases e
      · cases e; rfl
    subst hgf
    simp only [upd_self]
    rw [hrcv.1, hrcv.2, hdec.2]
    have := hstep.2.2 m e
    omega
  · intro g _ _ m e; exact absurd e (hnone g m)
  · intro g _ _ _
    simp only [waiting, hlk]
    by_cases e : g = f
    · subst e
      rw [upd_self]
      obtain ⟨z, hz⟩ := hfw
      rw [h1.outs, h2.outs] at hz
      simp only [SP.obs, hz]
      exact ⟨z, by simp⟩
    · rw [hother e]; exact List.prefix_rfl
  · intro g _ _ x e; exact absurd e (hnone g _)
  · intro g _ _ _; rw [hL]
  · intro g _ _ x hx
    by_cases e : g = f
    · subst e
      simp only [upd_self, SP.obs] at hx ⊢
      rw [← h2.outs] at hx
      rw [← h1.outs, hi'.acc, ← h2.accd]
      exact hre x hx
    · simp only [hother e] at hx; exact .inl hx

theorem _root_.Omni.Replied.news {a a' : Nat} {ms ms' : List (PaxosMsg E S)} (h : Replied n a ms a' ms') :
    ∀ x, .accepted x ∈ ms' → .accepted x ∈ ms ∨ x.accepted_idx = a' := by
  intro y hy
  cases h with
  | same => exact .inl hy
  | new =>
    rcases List.mem_append.1 hy with hy | hy
    · exact .inl hy
    · have := List.mem_singleton.1 hy
      simp only [PaxosMsg.accepted.injEq] at this
      subst this
      exact .inr rfl
  | upd _ p r x e hr =>
    subst e
    rcases List.mem_append.1 hy with hy | hy
    · exact .inl (List.mem_append_left _ hy)
    · rcases List.mem_cons.1 hy with hy | hy
      · simp only [PaxosMsg.accepted.injEq] at hy
        subst hy
        exact .inr rfl
      · exact .inl (List.mem_append_right _ (List.mem_cons_of_mem _ hy))

theorem moves_after {f : NodeId} (hf : f ∈ cc.nodes) (hfn : f ≠ n.pid) {s' : SP E S} {Xf Bf : List E} {σ τ : Fed E} {a : Nat} {out : List (PaxosMsg E S)}
    (h1 : Fol n k (lg f) (ci f) f Xf Bf σ a out (sv f)) (h2 : Fol.After n k (lg f) (ci f) f τ a out s')
    {dv : Option (NodeId × NodeId × PaxosMsg E S)} {lk' : NodeId → NodeId → List (PaxosMessage E S)}
    (hd : (dv = none ∧ lk' = lk ∧ τ = σ) ∨ ∃ m rest, lk n.pid f = m :: rest ∧ σ.step n k m.msg = some τ ∧
      dv = some (n.pid, f, m.msg) ∧ lk' = updL lk n.pid f rest) :
    Moves cc n (fun i => (sv i).obs) lk dv (fun i => (upd sv f s' i).obs) lk' := by
  obtain ⟨X', B', a', out', h3, h4, h5⟩ := h2
  exact moves_fol hf hfn h1 h3 h5 ⟨[], by rw [h4.forwards, List.append_nil]⟩ h4.news hd

/-- A follower handles a message of the leader. -/
theorem moves_handleF [SnapOps E S] (h : SteadyInv cc n k lg ci X B d sv lk) {f : NodeId} (hf : f ∈ cc.nodes) (hfn : f ≠ n.pid) {m : PaxosMessage E S}
    {rest : List (PaxosMessage E S)} (hlk : lk n.pid f = m :: rest) :
    M.Sat (SP.handle m) (sv f) (fun _ s' => Moves cc n (fun i => (sv i).obs) lk (some (n.pid, f, m.msg)) (fun i => (upd sv f s' i).obs)
      (updL lk n.pid f rest)) (fun _ => False) := by
  obtain ⟨Xf, Bf, σ, a, out, q, al, ms, hl⟩ := h.fol f hf hfn
  have hd := hl.down
  rw [hlk] at hd
  simp only [List.map_cons, List.cons_append, Fed.all] at hd
  cases hs : σ.step n k m.msg with
  | none => rw [hs] at hd; cases hd
  | some τ =>
    have key : ∀ s', Fol.After n k (lg f) (ci f) f τ a out s' → Moves cc n (fun i => (sv i).obs) lk (some (n.pid, f, m.msg))
        (fun i => (upd sv f s' i).obs) (updL lk n.pid f rest) := fun s' ht =>
      moves_after hf hfn hl.fol ht (.inr ⟨m, rest, hlk, hs, rfl, rfl⟩)
    unfold SP.handle
    cases hm : m.msg with
    | acceptDecide x =>
      rw [hm] at hs key
      simp only
      exact M.sat_mono (hl.fol.handle_acceptdecide hs) (fun _ t ht => key t ht) fun _ h => h
    | decide x =>
      rw [hm] at hs key
      simp only
      exact M.sat_mono (hl.fol.handle_decide hs) (fun _ t ht => key t ht) fun _ h => h
    | _ => rw [hm] at hs; simp [Fed.step] at hs

/-- The leader handles an Accepted. -/
theorem moves_accepted (h : SteadyInv cc n k lg ci X B d sv lk) (hv : cc.validate = .ok ()) (hnd : cc.nodes.Nodup) {f : NodeId}
    (hf : f ∈ cc.nodes) (hfn : f ≠ n.pid) {m : PaxosMessage E S} {rest : List (PaxosMessage E S)} (hlk : lk f n.pid = m :: rest)
    {x : Accepted} (hm : m.msg = .accepted x) :
    M.Sat (SP.handle_accepted x m.src) (sv n.pid) (fun _ s' => Moves cc n (fun i => (sv i).obs) lk (some (f, n.pid, m.msg))
      (fun i => (upd sv n.pid s' i).obs) (updL lk f n.pid rest)) (fun _ => False) := by
  obtain ⟨Xf, Bf, σ, a, out, q, al, ms, hl⟩ := h.fol f hf hfn
  rw [hlk] at hl
  obtain ⟨h1, h2, h3, h4⟩ := hl.popAccepted hm
  rw [h4]
  refine M.sat_mono (h.lead.accepted hv hnd h.keeps hf hfn h3 (Nat.le_trans h2 hl.le)) (fun _ s' ht => ?_) fun _ h => h
  obtain ⟨d', ⟨e1, e0⟩, e2, e3, e4⟩ := ht
  have hi := h.lead.ist
  have hi' := e2.ist
  have hother : ∀ {j : NodeId}, j ≠ n.pid → (upd sv n.pid s' j).obs = (sv j).obs := fun hj => obs_upd hj
  have hcase : ∀ (P : Obs E S → Obs E S → Prop), P (sv n.pid).obs s'.obs → (∀ o, P o o) → ∀ i, P (sv i).obs (upd sv n.pid s' i).obs := by
    intro P h1 h2 i
    by_cases e : i = n.pid
    · subst e; rw [upd_self]; exact h1
    · rw [hother e]; exact h2 _
  have hrec : ∀ g ∈ cc.nodes, g ≠ n.pid → slot s'.ls.accepted_indexes g = if g = f then some x.accepted_idx else slot (sv n.pid).ls.accepted_indexes g := by
    intro g hg hgn
    obtain ⟨q, a, ms, hk⟩ := h.keeps g hg hgn
    obtain ⟨_, _, _, hk'⟩ := e4 g hg hgn q a ms hk
    rw [hk'.acc, hk.acc]
    split <;> rfl
  refine ⟨fun i _ => hcase (fun a b => a.acc ≤ b.acc) ?_ (fun _ => Nat.le_refl _) i, fun i _ => hcase (fun a b => a.rcv ≤ b.rcv) ?_ (fun _ => Nat.le_refl _) i,
    fun i _ => hcase (fun a b => a.dec ≤ b.dec) ?_ (fun _ => Nat.le_refl _) i, ?_, ?_, ?_, ?_, ?_, ?_, ?_, ?_, ?_⟩
  · simp only [SP.obs, hi.acc, hi'.acc]
    exact Nat.le_refl _
  · simp only [Obs.rcv, SP.obs, hi.acc, hi'.acc, hi.batch, hi'.batch]
    exact Nat.le_refl _
  · simp only [SP.obs, hi.dec, hi'.dec]
    exact e1
  · simp only [upd_self, SP.obs, hi.log, hi'.log]
    exact List.prefix_rfl
  · simp only [upd_self, Obs.all, SP.obs, hi.log, hi'.log, hi.batch, hi'.batch]
    exact List.prefix_rfl
  · intro g m' e
    cases e
    simp only [upd_self, Obs.all, SP.obs, hi.log, hi'.log, hi.batch, hi'.batch, hm, PaxosMsg.forwards, List.append_nil]
  · intro g _ hgn m' e
    cases e
    exact absurd rfl hfn
  · intro g _ hgn m' e
    cases e
    simp only [waiting, hother hfn, updL_self, hlk, List.map_cons, List.flatMap_cons, List.append_assoc]
  · intro g _ hgn hdv
    have : g ≠ f := fun e => hdv m.msg (by rw [e])
    simp only [waiting, hother hgn, updL_other (.inl this)]
    exact List.prefix_rfl
  · intro g hg hgn y e
    rw [hm] at e
    cases e
    simp only [upd_self, SP.obs, hi'.dec]
    exact ⟨by rw [hrec f hf hfn, if_pos rfl], e0⟩
  · intro g hg hgn hdv
    have : g ≠ f := fun e => hdv x (by rw [e, hm])
    simp only [upd_self, SP.obs]
    rw [hrec g hg hgn, if_neg this]
  · intro g _ hgn y hy
    simp only [hother hgn] at hy
    exact .inl hy

/-- A server hands over its messages. -/
theorem moves_take (h : SteadyInv cc n k lg ci X B d sv lk) {i : NodeId} (buf : List (Message E S)) :
    Moves cc n (fun j => (sv j).obs) lk none (fun j => (upd sv i ((sv i).take_outgoing_msgs buf).2 j).obs) (handed sv lk i) := by
  have hcase : ∀ (P : Obs E S → Obs E S → Prop), P (sv i).obs ((sv i).take_outgoing_msgs buf).2.obs → (∀ o, P o o) → ∀ j, P (sv j).obs (upd sv i ((sv i).take_outgoing_msgs buf).2 j).obs := by
    intro P h1 h2 j
    by_cases e : j = i
    · subst e; rw [upd_self]; exact h1
    · rw [obs_upd e]; exact h2 _
  refine ⟨fun j _ => hcase (fun a b => a.acc ≤ b.acc) (Nat.le_refl _) (fun _ => Nat.le_refl _) j,
    fun j _ => hcase (fun a b => a.rcv ≤ b.rcv) (Nat.le_refl _) (fun _ => Nat.le_refl _) j,
    fun j _ => hcase (fun a b => a.dec ≤ b.dec) (Nat.le_refl _) (fun _ => Nat.le_refl _) j,
    hcase (fun a b => a.log <+: b.log) List.prefix_rfl (fun _ => List.prefix_rfl) _,
    hcase (fun a b => a.all <+: b.all) List.prefix_rfl (fun _ => List.prefix_rfl) _, nofun, nofun, nofun, fun f hf hfn _ => ?_, nofun,
    fun f _ _ _ => hcase (fun a b => slot b.recs f = slot a.recs f) rfl (fun _ => rfl) _, fun f _ _ x hx => ?_⟩
  · by_cases e : f = i
    · subst e
      obtain ⟨_, _, _, _, _, q, al, ms, hl⟩ := h.fol f hf hfn
      have hfl : (sv f).outgoing.filter (fun m => decide (m.dst = n.pid)) = (sv f).outgoing :=
        List.filter_eq_self.2 fun m hm => by simpa using (hl.fol.ends m hm).2
      simp only [waiting, upd_self, handed, if_true, hfl]
      simp [SP.take_outgoing_msgs, SP.obs]
    · simp only [waiting, obs_upd e, handed, if_neg e]
      exact List.prefix_rfl
  · by_cases e : f = i
    · subst e
      simp [SP.take_outgoing_msgs, SP.obs] at hx
    · rw [obs_upd e] at hx
      exact .inl hx

end SteadyInv
end Omni
