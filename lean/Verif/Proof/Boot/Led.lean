import Verif.Proof.Boot.Init
/-
From the start of a cluster to steady operation: what is reached.
-/
namespace Omni

variable {E S : Type} [SnapOps E S] {cc : ClusterConfig} {cfg : NodeId → ServerConfig} {f : Nat} {l : NodeId} {c c1 c2 : Cluster E S}
  {order : List NodeId} {xs ys : List (List (Action E S))}

omit [SnapOps E S] in
theorem Cluster.Starting.flows {n : Ballot} {A : List E} {ρ : NodeId → Nat} (h : c.Starting cc n A ρ) (hv : cc.validate = .ok ()) (hnd : cc.nodes.Nodup)
    (h8 : ∀ f ∈ cc.nodes, f ≠ n.pid → 8 ≤ ρ f) : c.Flows cc n 0 (fun _ => []) (fun _ => 0) A := by
  obtain ⟨sv, h1, h2⟩ := h
  exact ⟨sv, h1, h2.sys hv hnd h8⟩

/-- What the servers are at any time, and that the cluster is in steady operation after the first beats. -/
theorem boot_led (hu : SnapOps.use_snapshots E S = false) (hF : Favours cc cfg f l) (hv : cc.validate = .ok ()) (hnd : cc.nodes.Nodup) (ho : ∀ i ∈ cc.nodes, i ∈ order)
    (hr : Cluster.init.run cc (order.map fun i => .start i (cfg i)) = some c) (h1 : Cluster.Beats cc c xs c1) (h2 : Cluster.Beats cc c1 ys c2) :
    (∀ t c', c.run cc (xs.flatten.take t) = some c' → ∃ A ρ, c'.Starting cc (firstBallot cc cfg l) A ρ) ∧
    ((cfg l).election_tick_timeout + 6 ≤ xs.length → c1.Steady cc (firstBallot cc cfg l) ys.flatten ∧
      c1.Flows cc (firstBallot cc cfg l) 0 (fun _ => []) (fun _ => 0) (xs.flatten.filterMap Action.entry?)) := by
  obtain ⟨k0, k1, ⟨bl, k2, k3⟩, k4, k5, op, k6, k7⟩ := boot_init hF hv hnd ho hr
  have key : ∀ {zs : List (List (Action E S))} {c' : Cluster E S}, Cluster.Beats cc c zs c' → _ := fun {zs c'} hb => boot_run hu (vow_weak cc _) hv hnd hF.member
    (Nat.pos_of_ne_zero k0) k1 k2 k3 k4 k6 k7 k5 hb
  refine ⟨fun t c' hc => ?_, fun hx => ?_⟩
  · obtain ⟨ρ', A', _, g, _⟩ := key h1 t c' hc
    exact ⟨A', ρ', g.finish⟩
  · have hT : 0 < (cfg l).election_tick_timeout := by have := hF.election l hF.member; omega
    have thr : ∀ {ρ A}, Course cc (firstBallot cc cfg l) c (fun _ => 0) [] xs.flatten c1 ρ A → _ := fun g => g.through h1 hv hnd hF.member k6 hT k7 hx
    refine ⟨⟨h2.calm, fun i k c' _ hc => ?_⟩, ?_⟩
    · obtain ⟨ρ', A', _, g, _⟩ := key (h1.append h2) (xs.flatten.length + (k + 1)) c' (by
        rw [List.flatten_append, List.take_length_add_append, Cluster.run_append, h1.run]; exact hc)
      rw [List.flatten_append, List.take_length_add_append] at g
      obtain ⟨c3, ρ3, A3, g1, g2⟩ := g.split
      obtain rfl := Option.some.inj (h1.run.symm.trans g1.run)
      exact (g2.finish.flows hv hnd fun f hf hfn => Nat.le_trans (thr g1 f hf hfn) (g2.mono hf hfn)).ledBy
    · obtain ⟨ρ', A', _, g, _⟩ := key h1 xs.flatten.length c1 (by rw [List.take_length]; exact h1.run)
      rw [List.take_length] at g
      have e := g.entries
      rw [List.nil_append] at e
      subst e
      exact g.finish.flows hv hnd (thr g)

/-- Some beats of steady operation, and then rounds. -/
theorem steady_rounds {c0 : Cluster E S} {n : Ballot} {r : Nat} (hf : 0 < f) (hw : c0.Wound cc f) (h1 : Cluster.Beats cc c0 xs c1) (h2 : Cluster.Beats cc c1 ys c2)
    (hs : c1.Steady cc n ys.flatten) (hr : f * r ≤ ys.length) : ∃ zs c3 r', r ≤ r' ∧ c1.run cc zs = some c3 ∧ c1.Steady cc n zs ∧
      Cluster.BusyRounds cc n r' c3 c2 ∧ (ys.flatten.filterMap Action.entry? = [] → zs.filterMap Action.entry? = [] ∧ Cluster.Rounds cc n r' c3 c2) := by
  have e := Nat.div_add_mod ys.length f
  have hl := Nat.mod_lt ys.length hf
  rw [← List.take_append_drop (ys.length % f) ys] at h2 hs ⊢
  obtain ⟨c3, a1, a2⟩ := h2.split
  simp only [List.flatten_append] at hs ⊢
  obtain ⟨b1, b2⟩ := Cluster.Beats.busyRounds hw hf (ys.length / f) (h1.append a1) a2 (by rw [List.length_drop]; omega) (hs.right a1.run)
  refine ⟨_, c3, ys.length / f, (Nat.le_div_iff_mul_le hf).2 (by rw [Nat.mul_comm]; exact hr), a1.run, hs.left, b1, fun he => ?_⟩
  rw [List.filterMap_append, List.append_eq_nil_iff] at he
  exact ⟨he.1, b2 he.2⟩

end Omni
