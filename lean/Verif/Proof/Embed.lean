import Verif.Proof.Project
import Verif.Proof.Validity
import Verif.Spec.Progress
/-
Runs of the cluster are runs on the arbitrary network (Spec/AnyNet.lean).
-/
namespace Omni

variable {E S : Type} [SnapOps E S] {cc : ClusterConfig}

/-- `l` has the same servers, and its network may deliver whatever that of `c` may. -/
structure Embeds (c : Cluster E S) (l : Loose E S) : Prop where
  servers : l.servers = c.servers
  net : ∀ i j, ∀ m ∈ c.net i j, m ∈ l.sent ∧ m.dst = j

omit [SnapOps E S] in
theorem Embeds.set {c : Cluster E S} {l : Loose E S} (h : Embeds c l) (i : NodeId) (s : Server E S) :
    Embeds (c.setServer i s) (l.setServer i s) :=
  ⟨by simp only [Loose.setServer, Cluster.setServer, h.servers], h.net⟩

omit [SnapOps E S] in
theorem Embeds.setNet {c : Cluster E S} {l : Loose E S} (h : Embeds c l) (i j : NodeId) {ms : List (Message E S)}
    (hm : ∀ m ∈ ms, m ∈ c.net i j) : Embeds (c.setNet i j ms) l := by
  refine ⟨h.servers, fun a b m hx => ?_⟩
  simp only [Cluster.setNet] at hx
  split at hx
  · rename_i e; obtain ⟨rfl, rfl⟩ := e; exact h.net _ _ m (hm m hx)
  · exact h.net a b m hx

theorem Loose.run_one {l l' : Loose E S} {a : LAction E S} (h : l.step cc a = some l') : l.run cc [a] = some l' := by
  simp [Loose.run, h]

theorem Embeds.step {ok : Call E S → Prop} {c c' : Cluster E S} {l : Loose E S} (h : Embeds c l) {a : Action E S}
    (ha : a.Only ok) (hs : c.step cc a = some c') :
    ∃ as l', (∀ b ∈ as, b.Only ok) ∧ l.run cc as = some l' ∧ Embeds c' l' := by
  have one : ∀ (b : LAction E S) l', b.Only ok → l.step cc b = some l' → Embeds c' l' →
      ∃ as l', (∀ b ∈ as, b.Only ok) ∧ l.run cc as = some l' ∧ Embeds c' l' := fun b l' h1 h2 h3 =>
    ⟨[b], l', fun x hx => by rw [List.mem_singleton.1 hx]; exact h1, Loose.run_one h2, h3⟩
  have none : Embeds c' l → ∃ as l', (∀ b ∈ as, b.Only ok) ∧ l.run cc as = some l' ∧ Embeds c' l' := fun h3 =>
    ⟨[], l, nofun, rfl, h3⟩
  cases a with
  | start i cfg =>
    simp only [Cluster.step] at hs
    refine one (.start i cfg) (l.setServer i (c'.servers i)) trivial ?_ ?_
    all_goals
      split at hs
      · cases hs
      · rename_i d hd
        split at hs
        · rename_i hp
          split at hs
          · rename_i op hb
            cases hs
            first
              | (simp only [Loose.step, h.servers, hd, if_pos hp, hb]; simp [Cluster.setServer]; done)
              | (simp only [Cluster.setServer, if_true]; exact h.set i _)
          · cases hs
        · cases hs
  | crash i =>
    simp only [Cluster.step] at hs
    split at hs
    · rename_i op hop
      cases hs
      exact one (.crash i) _ trivial (by simp only [Loose.step, h.servers, hop]) (h.set i _)
    · cases hs
  | call i call =>
    simp only [Cluster.step] at hs
    split at hs
    · rename_i op hop
      split at hs
      · cases hs
      · rename_i hc
        cases hs
        exact one (.call i call) _ ha (by simp only [Loose.step, h.servers, hop, if_neg hc]) (h.set i _)
    · cases hs
  | crashCall i call k =>
    simp only [Cluster.step] at hs
    split at hs
    · rename_i op hop
      split at hs
      · cases hs
      · rename_i hc
        split at hs
        · rename_i d hd
          cases hs
          exact one (.crashCall i call k) _ ha (by simp only [Loose.step, h.servers, hop, if_neg hc, hd]) (h.set i _)
        · cases hs
    · cases hs
  | take i =>
    simp only [Cluster.step] at hs
    split at hs
    · rename_i op hop
      cases hs
      refine one (.take i) { servers := fun j => if j = i then .up (op.take_outgoing_messages []).2 else c.servers j, sent := l.sent ++ (op.take_outgoing_messages []).1 }
        trivial (by simp only [Loose.step, h.servers, hop]) ⟨rfl, fun a b m hm => ?_⟩
      simp only at hm
      split at hm
      · rcases List.mem_append.1 hm with hm | hm
        · exact ⟨List.mem_append.2 (.inl (h.net a b m hm).1), (h.net a b m hm).2⟩
        · obtain ⟨h1, h2⟩ := List.mem_filter.1 hm
          exact ⟨List.mem_append.2 (.inr h1), of_decide_eq_true h2⟩
      · exact ⟨List.mem_append.2 (.inl (h.net a b m hm).1), (h.net a b m hm).2⟩
    · cases hs
  | deliver i j =>
    simp only [Cluster.step] at hs
    split at hs
    · cases hs
    · rename_i m rest hn
      have hm := h.net i j m (by rw [hn]; exact List.mem_cons_self)
      have hr : ∀ x ∈ rest, x ∈ c.net i j := fun x hx => by rw [hn]; exact List.mem_cons_of_mem _ hx
      split at hs
      · cases hs; exact none (h.setNet i j hr)
      · rename_i op hop
        cases hs
        obtain ⟨n, hlt, hn⟩ := List.mem_iff_getElem.1 hm.1
        exact one (.deliver n) (l.setServer j (op.callResult (.handleIncoming m))) trivial
          (by simp only [Loose.step, List.getElem?_eq_getElem hlt, hn, hm.2, h.servers, hop]) ((h.setNet i j hr).set j _)
  | crashDeliver i j k =>
    simp only [Cluster.step] at hs
    split at hs
    · cases hs
    · rename_i m rest hn
      have hm := h.net i j m (by rw [hn]; exact List.mem_cons_self)
      have hr : ∀ x ∈ rest, x ∈ c.net i j := fun x hx => by rw [hn]; exact List.mem_cons_of_mem _ hx
      split at hs
      · cases hs
      · rename_i op hop
        split at hs
        · rename_i d hd
          cases hs
          obtain ⟨n, hlt, hn⟩ := List.mem_iff_getElem.1 hm.1
          exact one (.crashDeliver n k) (l.setServer j (.down d)) trivial
            (by simp only [Loose.step, List.getElem?_eq_getElem hlt, hn, hm.2, h.servers, hop, hd]) ((h.setNet i j hr).set j _)
        · cases hs
  | lose i j k =>
    simp only [Cluster.step] at hs
    split at hs
    · cases hs
      exact none (h.setNet i j fun m hm => List.mem_of_mem_eraseIdx hm)
    · cases hs
  | rearrange i j ks =>
    simp only [Cluster.step] at hs
    cases hs
    refine none (h.setNet i j fun m hm => ?_)
    obtain ⟨k, -, hk⟩ := List.mem_filterMap.1 hm
    exact List.mem_of_getElem? hk

theorem Embeds.run {ok : Call E S → Prop} {c c' : Cluster E S} {l : Loose E S} (h : Embeds c l) {as : List (Action E S)}
    (ha : ∀ a ∈ as, a.Only ok) (hs : c.run cc as = some c') :
    ∃ bs l', (∀ b ∈ bs, b.Only ok) ∧ l.run cc bs = some l' ∧ Embeds c' l' := by
  induction as generalizing c l with
  | nil => cases hs; exact ⟨[], l, nofun, rfl, h⟩
  | cons a as ih =>
    simp only [Cluster.run] at hs
    split at hs
    · cases hs
    · rename_i c1 h1
      obtain ⟨bs, l1, hb, hr, he⟩ := h.step (ha a List.mem_cons_self) h1
      obtain ⟨bs', l', hb', hr', he'⟩ := ih he (fun x hx => ha x (List.mem_cons_of_mem _ hx)) hs
      refine ⟨bs ++ bs', l', fun x hx => ?_, ?_, he'⟩
      · rcases List.mem_append.1 hx with hx | hx
        · exact hb x hx
        · exact hb' x hx
      · rw [Loose.run_append cc l bs bs', hr]; exact hr'

omit [SnapOps E S] in
theorem Embeds.init : Embeds (Cluster.init : Cluster E S) Loose.init := ⟨rfl, nofun⟩

end Omni
