import Verif.Proof.Steady.Tick
/-
Steady operation: what each call does to the whole.
-/
namespace Omni

variable {E S : Type} {n : Ballot} {k : Nat} {cc : ClusterConfig} {lg : NodeId → List E} {ci : NodeId → Nat} {A : List E}
  {sv : NodeId → SP E S} {lk : NodeId → NodeId → List (PaxosMessage E S)}

/-- The invariant: `A` are the entries appended so far. -/
def Sys (cc : ClusterConfig) (n : Ballot) (k : Nat) (lg : NodeId → List E) (ci : NodeId → Nat) (A : List E) (sv : NodeId → SP E S)
    (lk : NodeId → NodeId → List (PaxosMessage E S)) : Prop :=
  ∃ X B d, SteadyInv cc n k lg ci X B d sv lk ∧ Counted cc n A (X ++ B) sv lk

theorem upd_same (sv : NodeId → SP E S) (i : NodeId) : upd sv i (sv i) = sv := by
  funext j; simp only [upd]; split
  · rename_i h; rw [h]
  · rfl

theorem updL_same (lk : NodeId → NodeId → List (PaxosMessage E S)) (i j : NodeId) : updL lk i j (lk i j) = lk := by
  funext a b; simp only [updL]; split
  · rename_i h; rw [h.1, h.2]
  · rfl

theorem upd_upd (sv : NodeId → SP E S) (i : NodeId) (s t : SP E S) : upd (upd sv i s) i t = upd sv i t := by
  funext j; simp only [upd]; split <;> rfl

theorem fwd_upd {i g : NodeId} {s : SP E S} (h : g ≠ i) : fwd n (upd sv i s) lk g = fwd n sv lk g := by
  simp only [fwd, upd_other h]

theorem fwd_upd_out {i g : NodeId} {s : SP E S} (h : (s.outgoing.map (·.msg)).flatMap PaxosMsg.forwards = ((sv i).outgoing.map (·.msg)).flatMap PaxosMsg.forwards) :
    fwd n (upd sv i s) lk g = fwd n sv lk g := by
  by_cases e : g = i
  · subst e; simp only [fwd, upd_self, h]
  · exact fwd_upd e

/-- There are at least two servers. -/
theorem another (hv : cc.validate = .ok ()) (hnd : cc.nodes.Nodup) (i : NodeId) : ∃ f ∈ cc.nodes, f ≠ i := by
  have h2 : 2 ≤ cc.nodes.length := by
    unfold ClusterConfig.validate at hv
    simp only at hv
    split at hv
    · cases hv
    · omega
  match h : cc.nodes, h2 with
  | a :: b :: r, _ =>
    rw [h] at hnd
    by_cases e : a = i
    · refine ⟨b, by simp, fun e' => ?_⟩
      rw [e, e'] at hnd
      simp at hnd
    · exact ⟨a, by simp, e⟩

namespace Sys

theorem put (h : Sys cc n k lg ci A sv lk) (hv : cc.validate = .ok ()) (hnd : cc.nodes.Nodup) {R : Prop} {m : M (SP E S) α} {es : List E}
    (hm : ∀ X B d, Lead cc n k (lg n.pid) (ci n.pid) X B d (sv n.pid) → (∀ f ∈ cc.nodes, f ≠ n.pid → ∃ q a ms, Keeps n f q a ms (sv n.pid)) →
      M.Sat m (sv n.pid) (fun _ s' => Lead.Put R cc n k (lg n.pid) (ci n.pid) X B d es (sv n.pid) s') (fun _ => False)) :
    M.Sat m (sv n.pid) (fun _ s' => Sys cc n k lg ci (A ++ es) (upd sv n.pid s') lk) (fun _ => False) := by
  obtain ⟨X, B, d, h1, h2⟩ := h
  refine M.sat_mono (hm X B d h1.lead h1.keeps) (fun _ s' hs => ?_) fun _ h => h
  obtain ⟨X', B', h3, h4⟩ := h1.put hs
  refine ⟨X', B', d, h3, h2.same (fun g _ hgn => fwd_upd hgn) fun P => ?_⟩
  rw [h4]
  simp only [List.countP_append]
  omega

theorem clear (h : Sys cc n k lg ci A sv lk) {i : NodeId} (hi : i ∈ cc.nodes) :
    Sys cc n k lg ci A (upd sv i { sv i with ist := { (sv i).ist with trail := [], calls := [] } }) lk := by
  obtain ⟨X, B, d, h1, h2⟩ := h
  refine ⟨X, B, d, ?_, h2.same (fun g _ _ => fwd_upd_out rfl) fun P => rfl⟩
  by_cases hin : i = n.pid
  · subst hin
    refine ⟨by rw [upd_self]; exact h1.lead.clear, fun f hf hfn => ?_, by rw [upd_self]; exact h1.chosen, h1.unused⟩
    rw [upd_self, upd_other hfn]
    obtain ⟨_, _, _, _, _, q, al, ms, hl⟩ := h1.fol f hf hfn
    exact hl.same hl.keeps.clear
  · obtain ⟨_, _, _, _, _, q, al, ms, hl⟩ := h1.fol i hi hin
    have := h1.follower hi hin (s' := { sv i with ist := { (sv i).ist with trail := [], calls := [] } }) (toF := lk n.pid i)
      ⟨_, _, _, _, _, _, _, _, hl.fol.clear, hl.keeps, hl.down, hl.up, hl.low, hl.src⟩
    rwa [updL_same] at this

theorem append (h : Sys cc n k lg ci A sv lk) (hv : cc.validate = .ok ()) (hnd : cc.nodes.Nodup) {i : NodeId} (hi : i ∈ cc.nodes) (e : E) :
    M.Sat (SP.append e) (sv i) (fun _ s' => Sys cc n k lg ci (A ++ [e]) (upd sv i s') lk) (fun _ => False) := by
  by_cases hin : i = n.pid
  · subst hin
    exact h.put hv hnd fun X B d hL hK => hL.append hK e
  · obtain ⟨X, B, d, h1, h2⟩ := h
    obtain ⟨_, _, _, _, _, q, al, ms, hl⟩ := h1.fol i hi hin
    refine M.sat_mono (hl.fol.append e) (fun _ s' hs => ?_) fun _ h => h
    have h3 := hl.forward hs
    have h4 := h1.follower hi hin h3.1
    rw [updL_same] at h4
    refine ⟨X, B, d, h4, h2.change hnd hi hin (fun g _ _ hgi => fwd_upd hgi) fun P => ?_⟩
    simp only [fwd, upd_self, h3.2, List.countP_append]
    omega

theorem ticked (h : Sys cc n k lg ci A sv lk) (hv : cc.validate = .ok ()) (hnd : cc.nodes.Nodup) {i : NodeId} (hi : i ∈ cc.nodes)
    (b : Option Ballot) (r w : Prop) [Decidable r] [Decidable w] :
    M.Sat (SP.ticked b r w) (sv i) (fun _ s' => s'.ist.storage.n_prom = some n → (i = n.pid → s'.role = .leader) →
      Sys cc n k lg ci A (upd sv i s') lk) (fun s' => s'.ist.storage.n_prom ≠ some n) := by
  obtain ⟨X, B, d, h1, h2⟩ := h
  by_cases hin : i = n.pid
  · subst hin
    refine M.sat_mono (h1.lead.ticked h1.keeps b r w) (fun _ s' hs e1 e2 => ?_) fun _ h => h
    rcases hs e1 (e2 rfl) with ⟨_, hs⟩ | ⟨_, rfl⟩
    rotate_left
    · rw [upd_same]; exact ⟨X, B, d, h1, h2⟩
    obtain ⟨X', B', h3, h4⟩ := h1.put hs
    refine ⟨X', B', d, h3, h2.same (fun g _ hgn => fwd_upd hgn) fun P => ?_⟩
    rw [h4, List.append_nil]
  · obtain ⟨_, _, _, _, _, q, al, ms, hl⟩ := h1.fol i hi hin
    refine M.sat_mono (hl.fol.ticked b r w) (fun _ s' hs e1 _ => ?_) fun _ h => h
    rcases hs e1 with ⟨_, hs, _⟩ | ⟨_, rfl⟩
    rotate_left
    · rw [upd_same]; exact ⟨X, B, d, h1, h2⟩
    have h3 := hl.after hl.down hs
    have h4 := h1.follower hi hin h3.1
    rw [updL_same] at h4
    exact ⟨X, B, d, h4, h2.same (fun g _ _ => fwd_upd_out h3.2) fun P => rfl⟩

/-- A tick that elects nobody else. -/
theorem ticked_calm (h : Sys cc n k lg ci A sv lk) (hv : cc.validate = .ok ()) (hnd : cc.nodes.Nodup) {i : NodeId} (hi : i ∈ cc.nodes)
    {b : Option Ballot} (hb : ∀ x, b = some x → x = n) (r w : Prop) [Decidable r] [Decidable w] :
    M.Sat (SP.ticked b r w) (sv i) (fun _ s' => Sys cc n k lg ci A (upd sv i s') lk) (fun _ => False) := by
  obtain ⟨X, B, d, h1, h2⟩ := h
  by_cases hin : i = n.pid
  · subst hin
    refine M.sat_mono (h1.lead.ticked_calm h1.keeps hb r w) (fun _ s' hs => ?_) fun _ h => h
    rcases hs with ⟨_, hs⟩ | ⟨_, rfl⟩
    rotate_left
    · rw [upd_same]; exact ⟨X, B, d, h1, h2⟩
    obtain ⟨X', B', h3, h4⟩ := h1.put hs
    refine ⟨X', B', d, h3, h2.same (fun g _ hgn => fwd_upd hgn) fun P => ?_⟩
    rw [h4, List.append_nil]
  · obtain ⟨_, _, _, _, _, q, al, ms, hl⟩ := h1.fol i hi hin
    refine M.sat_mono (hl.fol.ticked_calm hb r w) (fun _ s' hs => ?_) fun _ h => h
    rcases hs with ⟨_, hs, _⟩ | ⟨_, rfl⟩
    rotate_left
    · rw [upd_same]; exact ⟨X, B, d, h1, h2⟩
    have h3 := hl.after hl.down hs
    have h4 := h1.follower hi hin h3.1
    rw [updL_same] at h4
    exact ⟨X, B, d, h4, h2.same (fun g _ _ => fwd_upd_out h3.2) fun P => rfl⟩

theorem fwd_updL_down {f g : NodeId} {l : List (PaxosMessage E S)} (hg : g ≠ n.pid) : fwd n sv (updL lk n.pid f l) g = fwd n sv lk g := by
  simp only [fwd, updL_other (.inl hg)]

theorem deliver [SnapOps E S] (h : Sys cc n k lg ci A sv lk) (hv : cc.validate = .ok ()) (hnd : cc.nodes.Nodup) {i j : NodeId}
    (hi : i ∈ cc.nodes) (hj : j ∈ cc.nodes) {m : PaxosMessage E S} {rest : List (PaxosMessage E S)} (hlk : lk i j = m :: rest) :
    M.Sat (SP.handle m) (sv j) (fun _ s' => Sys cc n k lg ci A (upd sv j s') (updL lk i j rest)) (fun _ => False) := by
  obtain ⟨X, B, d, h1, h2⟩ := h
  by_cases hin : i = n.pid
  · by_cases hjn : j = n.pid
    · rw [h1.unused i hi j hj ⟨fun _ => hjn, fun _ => hin⟩] at hlk
      cases hlk
    · subst hin
      obtain ⟨_, _, _, _, _, q, al, ms, hl⟩ := h1.fol j hj hjn
      rw [hlk] at hl
      refine M.sat_mono hl.handleF (fun _ s' hs => ?_) fun _ h => h
      refine ⟨X, B, d, h1.follower hj hjn hs.1, h2.same (fun g _ hgn => ?_) fun P => rfl⟩
      rw [fwd_updL_down hgn]
      exact fwd_upd_out hs.2
  · by_cases hjn : j = n.pid
    · subst hjn
      obtain ⟨_, _, _, _, _, q, al, ms, hl⟩ := h1.fol i hi hin
      rw [hlk] at hl
      have hR := (hl.src m List.mem_cons_self).2
      have other : ∀ (s' : SP E S), ∀ g ∈ cc.nodes, g ≠ n.pid → g ≠ i → fwd n (upd sv n.pid s') (updL lk i n.pid rest) g = fwd n sv lk g := by
        intro s' g _ hgn hgi
        simp only [fwd, updL_other (.inl hgi), upd_other hgn]
      have self : ∀ (s' : SP E S), fwd n (upd sv n.pid s') (updL lk i n.pid rest) i =
          (rest.map (·.msg)).flatMap PaxosMsg.forwards ++ ((sv i).outgoing.map (·.msg)).flatMap PaxosMsg.forwards := by
        intro s'
        simp only [fwd, updL_self, upd_other hin]
      unfold SP.handle
      cases hm : m.msg with
      | accepted x =>
        simp only
        refine M.sat_mono (h1.accepted hv hnd hi hin hlk hm) (fun _ s' hs => ?_) fun _ h => h
        obtain ⟨d', h3⟩ := hs
        refine ⟨X, B, d', h3, h2.change hnd hi hin (other s') fun P => ?_⟩
        rw [self]
        simp only [fwd, hlk, List.map_cons, hm, List.flatMap_cons, PaxosMsg.forwards, List.nil_append]
      | proposalForward es =>
        simp only
        have h3 := h1.popForward hi hin hlk hm
        refine M.sat_mono (h3.lead.forwarded h3.keeps es) (fun _ s' hs => ?_) fun _ h => h
        obtain ⟨X', B', h4, h5⟩ := h3.put hs
        refine ⟨X', B', d, h4, h2.change hnd hi hin (other s') fun P => ?_⟩
        rw [self, h5]
        simp only [fwd, hlk, List.map_cons, hm, List.flatMap_cons, PaxosMsg.forwards, List.countP_append]
        omega
      | _ => rw [hm] at hR; exact hR.elim
    · rw [h1.unused i hi j hj ⟨fun h => absurd h hin, fun h => absurd h hjn⟩] at hlk
      cases hlk

theorem take (h : Sys cc n k lg ci A sv lk) {i : NodeId} (hi : i ∈ cc.nodes) (buf : List (Message E S)) :
    Sys cc n k lg ci A (upd sv i ((sv i).take_outgoing_msgs buf).2) (SteadyInv.handed sv lk i) := by
  obtain ⟨X, B, d, h1, h2⟩ := h
  refine ⟨X, B, d, h1.take hi buf, h2.same (fun g hg hgn => ?_) fun P => rfl⟩
  by_cases hgi : g = i
  · subst hgi
    obtain ⟨_, _, _, _, _, q, al, ms, hl⟩ := h1.fol g hg hgn
    have hf : (sv g).outgoing.filter (fun m => decide (m.dst = n.pid)) = (sv g).outgoing :=
      List.filter_eq_self.2 fun m hm => by simpa using (hl.fol.ends m hm).2
    simp only [fwd, upd_self, SteadyInv.handed, if_true, hf]
    simp [SP.take_outgoing_msgs]
  · simp only [fwd, upd_other hgi, SteadyInv.handed, if_neg hgi]

end Sys
end Omni
