import Verif.Proof.Oust.Run
import Verif.Proof.Silent.Run
import Verif.Spec.Oust
import Verif.Props.Beats
/-
A leader that falls silent: from steady operation to the search for a new leader.
-/
namespace Omni

variable {E S : Type} [SnapOps E S] {cc : ClusterConfig} {n : Ballot} {L : List NodeId} {pr : NodeId → Nat} {R R' : NodeId → HeartbeatReply → Prop}
variable {c c1 c2 c' : Cluster E S} {bl bl1 bl2 bl' : NodeId → BLE} {a : Action E S} {as bs : List (Action E S)} {i j k : NodeId}

omit [SnapOps E S] in
theorem BMoves.mono {net net' : NodeId → NodeId → List (Message E S)} (hR : ∀ {j r}, R j r → R' j r) (h : BMoves R bl net a bl' net') : BMoves R' bl net a bl' net' := by
  cases h with
  | idle => exact .idle
  | fire b h1 h2 => exact .fire b h1 (hR h2)
  | take px h1 h2 => exact .take px h1 h2
  | beat m h1 h2 => exact .beat m h1 h2
  | other m h1 h2 => exact .other m h1 h2

theorem Path.mono (hR : ∀ {j r}, R j r → R' j r) (h : Path R cc c bl as c' bl') : Path R' cc c bl as c' bl' := by
  induction h with
  | nil h => exact .nil h
  | cons h ha hs hm _ ih => exact .cons h ha hs (hm.mono hR) ih

omit [SnapOps E S] in
theorem Hearts.mono {net : NodeId → NodeId → List (Message E S)} (hR : ∀ {j r}, R j r → R' j r) (h : Hearts R cc bl net) : Hearts R' cc bl net := by
  refine ⟨fun i hi => ?_, fun i hi j hj m hm => ⟨(h.links i hi j hj m hm).1, fun r e => hR ((h.links i hi j hj m hm).2 r e)⟩, h.asked⟩
  have := h.server i hi
  exact ⟨this.config, this.pid, this.peers, this.quorum, hR this.tells, fun r hr => by
    obtain ⟨j, hj, h1⟩ := this.replies r hr; exact ⟨j, hj, hR h1⟩, fun m hm => ⟨(this.outgoing m hm).1, fun r e => hR ((this.outgoing m hm).2 r e)⟩⟩

/-- Before the leader falls silent. -/
theorem Path.base (h : Path (fun j r => r.Loyal cc.configuration_id n j) cc c bl as c' bl') (hH : Hearts (fun j r => r.Loyal cc.configuration_id n j) cc bl c.net)
    (hf : ∀ k ∈ cc.nodes, ∀ i ∈ cc.nodes, Recent bl c.net k i) (hv : Vouched (· ≤ n) cc c) :
    Hearts (fun j r => r.Loyal cc.configuration_id n j) cc bl' c'.net ∧ (∀ k ∈ cc.nodes, ∀ i ∈ cc.nodes, Recent bl' c'.net k i) ∧ Vouched (· ≤ n) cc c' := by
  induction h with
  | nil => exact ⟨hH, hf, hv⟩
  | @cons c c1 c2 bl bl1 bl2 a as h ha hs hm hp ih =>
    have H1 := hm.hearts (vow_loyal cc n).signed ha hH
    refine ih H1 (fun k hk i hi => hm.fresh hH ha hi hk (hf k hk i hi)) (hv.step ha hs fun i op x e hop hx => ?_)
    subst e
    have hi : i ∈ cc.nodes := ha
    obtain ⟨op', u', e'⟩ := hp.bles i hi
    have e1 := (tick_election hs hop u').1
    have e2 : x = (bl1 i).current_ballot := by
      rw [← e', e1]
      unfold OP.elects at hx ⊢
      split at hx
      · rename_i hf
        rw [if_pos hf]
        exact BLE.timeout_elected hx
      · cases hx
    rw [e2]
    exact (H1.server i hi).tells.ballot

/-- When it falls silent. -/
theorem Hunt.start (hB : Bles cc c bl) (hH : Hearts (fun j r => r.Loyal cc.configuration_id n j) cc bl c.net)
    (hL : ∀ x ∈ L, x ∈ cc.nodes) (hf : ∀ k ∈ cc.nodes, ∀ i ∈ cc.nodes, Recent bl c.net k i) (hv : Vouched (· ≤ n) cc c) :
    Hunt cc n L (fun j => (bl j).current_ballot.priority) c bl := by
  have hlead : ∀ k ∈ cc.nodes, ∀ i, (bl k).leader ≠ cand cc n (fun j => (bl j).current_ballot.priority) i := fun k hk i e => by
    have := (hH.server k hk).tells.leader
    exact cand_ne i (e.symm.trans this)
  have hon : ∀ j r, r.Loyal cc.configuration_id n j → Honest cc n L (fun j => (bl j).current_ballot.priority) bl r := fun j r h i hi =>
    ⟨fun e => by have := h.ballot; rw [e] at this; exact absurd this (not_cand_le i), fun e => by exact absurd (e.symm.trans h.leader) (cand_ne i)⟩
  refine ⟨hB, hH.mono Word.of_loyal, fun k hk i hi => hf k (hL k hk) i hi, fun _ _ => rfl, fun k hk i _ e => absurd e (hlead k hk i), fun k hk j hj => ⟨fun r hr _ => ?_, fun r hr => ?_⟩,
    fun k hk i _ e => absurd e (hlead k (hL k hk) i), hv.mono fun b hb => .inl hb⟩
  · obtain ⟨x, _, h⟩ := (hH.server k (hL k hk)).replies r hr
    exact hon x r h
  · rcases hr with ⟨m, hm, _, e⟩ | ⟨m, hm, e⟩
    · exact hon j r (((hH.server j hj).outgoing m hm).2 r e)
    · exact hon j r ((hH.links j hj k (hL k hk) m hm).2 r e)

theorem up_back (ha : ∀ a ∈ as, a.Calm cc) (hr : c.run cc as = some c') {op' : OP E S} (hop : c'.servers i = .up op') : ∃ op, c.servers i = .up op := by
  induction as generalizing c with
  | nil => cases hr; exact ⟨op', hop⟩
  | cons a as ih =>
    simp only [Cluster.run] at hr
    cases hs : c.step cc a with
    | none => rw [hs] at hr; cases hr
    | some c1 =>
      rw [hs] at hr
      obtain ⟨op1, u1⟩ := ih (fun b hb => ha b (List.mem_cons_of_mem _ hb)) hr
      obtain ⟨op, u, _⟩ := step_clocks (ha a (List.mem_cons_self ..)) hs u1
      exact ⟨op, u⟩

/-- The search. -/
theorem trek_run {f : Nat} {bss : List (List (Action E S))} {cE : Cluster E S} (p0 : Path (Word cc n L pr) cc c bl bs c1 bl1) (hH : Hearts (Word cc n L pr) cc bl c.net)
    (h1 : Hunt cc n L pr c1 bl1) (hn : n.pid ∉ L) (hqa : AcceptQuorum cc L) (hqp : PrepareQuorum cc L) (hb : Cluster.LBeats cc L c bss cE) (e : bss.flatten = bs ++ as)
    (ho : ∀ a ∈ as, a.Of cc L) (hw : c.Wound cc f) (hr : c1.run cc as = some cE) (hup : ∀ i ∈ L, ∃ op, cE.servers i = .up op) (t : Nat) :
    ∀ c2, c1.run cc (as.take t) = some c2 → ∃ bl2, Trek cc n L pr c1 bl1 (as.take t) c2 bl2 := by
  have hL := hqa.members
  induction t with
  | zero => intro c2 h; cases h; exact ⟨bl1, .nil h1⟩
  | succ t ih =>
    intro c3 h3
    by_cases hlt : t < as.length
    · have hget : as[t]? = some as[t] := List.getElem?_eq_getElem hlt
      rw [List.take_add_one, hget, Option.toList_some] at h3 ⊢
      have h3' := h3
      rw [Cluster.run_append] at h3
      cases h2 : c1.run cc (as.take t) with
      | none => rw [h2] at h3; cases h3
      | some c2 =>
        rw [h2, Option.bind_some] at h3
        obtain ⟨bl2, t2⟩ := ih c2 h2
        have hs : c2.step cc as[t] = some c3 := by
          simp only [Cluster.run] at h3
          cases e : c2.step cc as[t] with
          | none => rw [e] at h3; cases h3
          | some x => rw [e] at h3; exact h3
        have hmem : as[t] ∈ as := List.getElem_mem hlt
        have p2 := p0.append (t2.path hL)
        have hpre : bss.flatten.take (bs.length + t) = bs ++ as.take t := by
          rw [e, List.take_append, List.take_of_length_le (Nat.le_add_right _ _), Nat.add_sub_cancel_left]
        obtain ⟨bl3, m⟩ := t2.hunt_end.next hn hqa hqp (ho _ hmem) hs (fun i hi => by
            obtain ⟨op, u⟩ := hup i hi
            rw [← List.take_append_drop (t + 1) as, Cluster.run_append, List.take_add_one, hget, Option.toList_some, h3', Option.bind_some] at hr
            exact up_back (fun a ha => (ho a (List.mem_of_mem_drop ha)).calm hL) hr u) fun i ha hf j hj hji => by
          have hiL : i ∈ L := by have := ho _ hmem; rw [ha] at this; exact this
          refine p2.met word_signed (hL i hiL) (hL j hj) hji hH ?_
          rw [← hpre]
          refine hb.met hL hw hiL hj ?_ (by rw [hpre]; exact p2.run) hf
          rw [e, List.getElem?_append_right (Nat.le_add_right _ _), Nat.add_sub_cancel_left, hget, ha]
        exact ⟨bl3, t2.append (.cons m (.nil m.after))⟩
    · have e : as.take (t + 1) = as.take t := by rw [List.take_of_length_le (by omega), List.take_of_length_le (by omega)]
      rw [e] at h3 ⊢
      exact ih c3 h3

/-- What is known before. -/
theorem Cluster.Settled.vouched {k : Nat} (h : c.Settled cc n k) (hu : c.Under cc n) : Vouched (· ≤ n) cc c := by
  refine ⟨fun i hi op hop => ?_, fun i hi j hj m hm => ?_⟩
  · obtain ⟨op', u', -, ha⟩ := h.server i hi
    rw [hop] at u'
    cases u'
    obtain ⟨h1, h2, h3⟩ := hu i hi op hop
    have ho := (h.quiet.servers i hi op hop).1
    have hb : ∀ b : Ballot, b ≤ n → (Prov.among E S (· ≤ n)).bal b := fun b hb => .inr hb
    refine ⟨⟨⟨fun _ _ => trivial, fun _ _ => trivial, fun _ _ => trivial, fun b e => ?_, fun b e => hb b (h3 b e), trivial⟩, nofun, fun _ _ => trivial, fun _ _ => trivial, ?_, hb _ h2⟩,
      fun _ _ => trivial, fun _ _ => trivial, fun m hm => ?_, fun _ _ => ⟨fun _ _ => trivial, fun _ _ => trivial, fun _ _ => trivial⟩,
      fun _ _ _ _ => ⟨fun _ _ => trivial, fun _ _ => trivial, fun _ _ => trivial⟩, trivial, hb _ h1⟩
    · have e : op.sp.ist.storage.n_prom = some b := e
      rw [ha.kept] at e
      cases e
      exact hb _ (Ballot.le_refl _)
    · exact hb _ (by rw [show op.clearTrail.sp.ist.cache.promise = n from ha.promise]; exact Ballot.le_refl _)
    · have hm : m ∈ op.sp.outgoing := hm
      rw [ho] at hm
      cases hm
  · obtain ⟨b, e⟩ := h.quiet.links i hi j hj _ hm
    cases e

omit [SnapOps E S] in
theorem Cluster.Current.fresh (h : c.Current cc) (hB : Bles cc c bl) : ∀ k ∈ cc.nodes, ∀ i ∈ cc.nodes, Recent bl c.net k i := by
  intro k hk i hi
  obtain ⟨op, u, e⟩ := hB k hk
  obtain ⟨op', u', e'⟩ := hB i hi
  obtain ⟨h1, h2⟩ := h k hk op u
  obtain ⟨h3, h4, h5⟩ := h2 i hi
  rw [e] at h1 h3 h4 h5
  refine ⟨fun x hx => ?_, fun r hr => ?_⟩
  · rcases hx with ⟨m, hm, _, ex⟩ | ⟨m, hm, ex⟩
    · exact h1 m hm x ex
    · exact h3 m x hm ex
  · rcases hr with ⟨m, hm, hd, ex⟩ | ⟨m, hm, ex⟩
    · exact h5 op' u' m (by rw [e']; exact hm) hd r ex
    · exact h4 m r hm ex

/-- The others have a new leader. -/
theorem ousted {k e f : Nat} (hv : cc.validate = .ok ()) (hd : cc.nodes.Nodup) (h : c.Settled cc n k) (hl : c.Loyal cc n) (hc : c.Current cc) (hu : c.Under cc n) (hw : c.Wound cc f)
    (he : ∀ i ∈ cc.nodes, ∀ op, c.servers i = .up op → op.election_clock.timeout ≤ e) {xs ys : List (List (Action E S))} (h1 : Cluster.Beats cc c xs c1)
    (hn : n.pid ∉ L) (hqa : AcceptQuorum cc L) (hqp : PrepareQuorum cc L) (h2 : Cluster.LBeats cc L c1 ys c2) (ho : ∀ a ∈ ys.flatten, a.Of cc L)
    (hup : ∀ i ∈ L, ∃ op, c2.servers i = .up op) :
    ∃ bl pr bl2, Vouched (· ≤ n) cc c1 ∧ Trek cc n L pr c1 bl ys.flatten c2 bl2 ∧ (8 * e ≤ ys.length → ∃ i ∈ L, Crowned cc n L pr i bl2 c2.net) ∧
      ∀ zs c3, Cluster.LBeats cc L c2 zs c3 → (∀ a ∈ zs.flatten, a.Of cc L) → (∀ i ∈ L, ∃ op, c3.servers i = .up op) → ∃ bl3, Trek cc n L pr c2 bl2 zs.flatten c3 bl3 := by
  have hL := hqa.members
  obtain ⟨bl, g1, g2, g3, g4⟩ := hl
  have v := vow_loyal cc n
  have hH : Hearts (fun j r => r.Loyal cc.configuration_id n j) cc bl c.net := hearts_loyal.2 ⟨g2, g3, g4⟩
  obtain ⟨A, bl1, _, p⟩ := beat_run v h.flows hv hd h.member g1 hH (h1.prompt hw hv hd h.member) xs.flatten.length c1 (by rw [List.take_length]; exact h1.run)
  rw [List.take_length] at p
  obtain ⟨H1, F1, V1⟩ := p.base hH (hc.fresh g1) (h.vouched hu)
  have hh := Hunt.start (L := L) p.bles_end H1 hL F1 V1
  have p1 := p.mono (R' := Word cc n L (fun j => (bl1 j).current_ballot.priority)) Word.of_loyal
  have H2 := hH.mono (R' := Word cc n L (fun j => (bl1 j).current_ballot.priority)) Word.of_loyal
  obtain ⟨bl2, t2⟩ := trek_run p1 H2 hh hn hqa hqp ((h1.live hL).append h2) List.flatten_append ho hw h2.run hup ys.flatten.length c2 (by rw [List.take_length]; exact h2.run)
  rw [List.take_length] at t2
  refine ⟨bl1, _, bl2, V1, t2, fun h8 => ?_, fun zs c3 h3 ho3 hup3 => ?_⟩
  · refine Leg.crown (e := e) ⟨ys, h2, h8, ?_, t2⟩ hL hn fun e => by
      obtain ⟨x, hx, _⟩ := hqa.other hv 0
      rw [e] at hx
      cases hx
    have : Ready L e c := fun i hi op hop => by
      have := (hw i (hL i hi) op hop).1
      exact ⟨by omega, he i (hL i hi) op hop⟩
    exact (h1.live hL).ready this
  · have p2 := p1.append (t2.path hL)
    obtain ⟨bl3, t3⟩ := trek_run p2 H2 t2.hunt_end hn hqa hqp (((h1.live hL).append h2).append h3) (by simp [List.flatten_append]) ho3 hw h3.run hup3 zs.flatten.length c3
      (by rw [List.take_length]; exact h3.run)
    rw [List.take_length] at t3
    exact ⟨bl3, t3⟩

end Omni
