import Verif.Proof.Oust.Step
import Verif.Proof.Silent.Stage
/-
A leader that falls silent: what holds while the others look for a new one.
-/
namespace Omni

variable {E S : Type} [SnapOps E S] {cc : ClusterConfig} {n : Ballot} {L : List NodeId} {pr : NodeId → Nat}
variable {c c' : Cluster E S} {bl bl' : NodeId → BLE} {a : Action E S} {i j k : NodeId}

/-- `i` has made itself a candidate. -/
def Made (cc : ClusterConfig) (n : Ballot) (pr : NodeId → Nat) (bl : NodeId → BLE) (i : NodeId) : Prop := (bl i).current_ballot = cand cc n pr i

/-- The candidates that a reply names exist. -/
def Honest (cc : ClusterConfig) (n : Ballot) (L : List NodeId) (pr : NodeId → Nat) (bl : NodeId → BLE) (r : HeartbeatReply) : Prop :=
  ∀ i ∈ L, (r.ballot = cand cc n pr i → Made cc n pr bl i) ∧ (r.leader = cand cc n pr i → Made cc n pr bl i)

/-- Ballots in Sequence Paxos: none above `n` but those of candidates. -/
def Known (cc : ClusterConfig) (n : Ballot) (L : List NodeId) (pr : NodeId → Nat) (bl : NodeId → BLE) (b : Ballot) : Prop :=
  b ≤ n ∨ ∃ i ∈ L, b = cand cc n pr i ∧ Made cc n pr bl i

structure Hunt (cc : ClusterConfig) (n : Ballot) (L : List NodeId) (pr : NodeId → Nat) (c : Cluster E S) (bl : NodeId → BLE) : Prop where
  bles : Bles cc c bl
  hearts : Hearts (Word cc n L pr) cc bl c.net
  fresh : ∀ k ∈ L, ∀ i ∈ cc.nodes, Recent bl c.net k i
  prio : ∀ j ∈ L, (bl j).current_ballot.priority = pr j
  leads : ∀ k ∈ cc.nodes, ∀ i ∈ L, (bl k).leader = cand cc n pr i → Made cc n pr bl i
  told : ∀ k ∈ L, ∀ j ∈ cc.nodes, Told bl c.net k j (Honest cc n L pr bl)
  since : ∀ k ∈ L, ∀ i ∈ L, (bl k).leader = cand cc n pr i → Since bl c.net k i (fun r => r.ballot = cand cc n pr i)
  vouched : Vouched (Known cc n L pr bl) cc c

/-- One action. -/
structure Move (cc : ClusterConfig) (n : Ballot) (L : List NodeId) (pr : NodeId → Nat) (c : Cluster E S) (bl : NodeId → BLE) (a : Action E S)
    (c' : Cluster E S) (bl' : NodeId → BLE) : Prop where
  before : Hunt cc n L pr c bl
  after : Hunt cc n L pr c' bl'
  of : a.Of cc L
  step : c.step cc a = some c'
  moves : BMoves (Word cc n L pr) bl c.net a bl' c'.net
  fires : ∀ k, (bl' k).hb_round ≠ (bl k).hb_round → k ∈ L ∧ (∀ j ∈ L, j ≠ k → Got bl k j) ∧ ∃ p, Outcome cc n pr k p (bl k) (bl' k)

/-- The others are left alone. -/
theorem Action.Of.others (ha : a.Of cc L) (hs : c.step cc a = some c') (hi : i ∉ L) : c'.servers i = c.servers i := by
  have ne : ∀ {j}, j ∈ L → i ≠ j := fun hj e => hi (e ▸ hj)
  cases a with
  | call j cl =>
    have hj : j ∈ L := by cases cl <;> first | exact ha | exact ha.elim
    simp only [Cluster.step] at hs
    repeat' split at hs
    all_goals first | cases hs; exact Cluster.setServer_other (ne hj) _ | cases hs
  | take j =>
    simp only [Cluster.step] at hs
    cases hsv : c.servers j with
    | down d => rw [hsv] at hs; cases hs
    | up op =>
      rw [hsv] at hs
      have hc : c' = c.taken j op := (Option.some.inj hs).symm
      subst hc
      exact Cluster.taken_other (ne ha) ..
  | deliver x j =>
    simp only [Cluster.step] at hs
    cases hl : c.net x j with
    | nil => rw [hl] at hs; cases hs
    | cons m rest =>
      rw [hl] at hs
      cases hsv : c.servers j with
      | down d => rw [hsv] at hs; cases hs; rfl
      | up op =>
        rw [hsv] at hs
        cases hs
        exact Cluster.setServer_other (ne ha.2) _
  | _ => exact ha.elim

theorem saying_ballot {b b' : BLE} (h : ∀ x, b'.saying x = b.saying x) : b'.current_ballot = b.current_ballot ∧ b'.leader = b.leader ∧ b'.happy = b.happy := by
  have := h 0
  simp only [BLE.saying, HeartbeatReply.mk.injEq, true_and] at this
  exact this

theorem not_cand_le (j : NodeId) : ¬ cand cc n pr j ≤ n := fun h => by
  have := Ballot.lt_of_lt_of_le (lt_cand (cc := cc) (pr := pr) j) h
  exact Ballot.lt_irrefl n this

/-- One action of the servers `L`, if they keep running and have heard from each other at their election timeouts. -/
theorem Hunt.next (h : Hunt cc n L pr c bl) (hn : n.pid ∉ L) (hqa : AcceptQuorum cc L) (hqp : PrepareQuorum cc L) (ha : a.Of cc L) (hs : c.step cc a = some c')
    (hup : ∀ i ∈ L, ∃ op, c'.servers i = .up op) (hgot : ∀ i, a = .call i .tick → c.Fires i → ∀ j ∈ L, j ≠ i → Got bl i j) :
    ∃ bl', Move cc n L pr c bl a c' bl' := by
  have hL := hqa.members
  have hcalm := ha.calm hL
  have hout : ∀ i ∈ cc.nodes, ∀ op, c.servers i = .up op → a = .call i .tick → op.election_clock.tick_and_check_timeout.1 = true →
      i ∈ L ∧ (∀ j ∈ L, j ≠ i → Got bl i j) ∧ ∃ p, ((Prov.among E S (Known cc n L pr bl)).bal p) ∧ p = op.sp.get_promise ∧
      ∃ b' : BLE, b'.Alike (bl i) ∧ Word cc n L pr i { round := b'.hb_round, ballot := b'.current_ballot, leader := b'.leader, happy := b'.happy } ∧
      ((bl i).hb_timeout op.sp.role op.sp.phase p).2 = b'.new_hb_round ∧ Outcome cc n pr i p (bl i) b' := by
    intro i hi op hop e hf
    subst e
    have hiL : i ∈ L := ha
    have hg := hgot i rfl ⟨op, hop, hf⟩
    have hb : (Prov.among E S (Known cc n L pr bl)).bal op.sp.get_promise := (h.vouched.servers i hi op hop).ist.cprom
    refine ⟨hiL, hg, _, hb, rfl, (h.hearts.server i hi).ousted hiL hn (h.prio i hiL) hqa hqp hg (h.leads i hi i hiL)
      (fun x hx _ e => (h.since i hiL x hx e).1) ?_ _ _⟩
    rcases hb with e | e
    · left; rw [e]
      exact Ballot.default_le n
    · rcases e with e | ⟨x, hx, e1, e2⟩
      · exact .inl e
      · exact .inr ⟨x, hx, e1, fun e => by subst e; exact e2⟩
  obtain ⟨bl', hB', hM, hE⟩ := any_step (R := Word cc n L pr) h.bles hcalm (fun i p e => by subst e; exact ha) hs
    (fun i hi => by
      by_cases hiL : i ∈ L
      · exact hup i hiL
      · obtain ⟨op, e, _⟩ := h.bles i hi
        exact ⟨op, by rw [ha.others hs hiL]; exact e⟩)
    (fun i op e hop hf => by
      have hi : i ∈ cc.nodes := by subst e; exact hL _ ha
      obtain ⟨_, _, p, _, rfl, b', h1, h2, h3, _⟩ := hout i hi op hop e hf
      exact ⟨b', h1, h2, h3⟩)
  have hH' := hM.hearts word_signed hcalm h.hearts
  -- the election timeouts
  have hfire : ∀ k, (bl' k).hb_round ≠ (bl k).hb_round → k ∈ L ∧ (∀ j ∈ L, j ≠ k → Got bl k j) ∧ ∃ p, ((Prov.among E S (Known cc n L pr bl)).bal p) ∧
      Outcome cc n pr k p (bl k) (bl' k) := by
    intro k hk
    obtain ⟨e, _⟩ := hM.fired hk
    have hkc : k ∈ cc.nodes := by subst e; exact hL _ ha
    obtain ⟨op, hop, hb⟩ := h.bles k hkc
    have e1 := hE k e op hop
    by_cases hf : op.election_clock.tick_and_check_timeout.1 = true
    · obtain ⟨h1, h2, p, h3, rfl, b', h4, h5, h6, h7⟩ := hout k hkc op hop e hf
      have e2 : bl' k = b'.new_hb_round := by
        rw [e1, ← h6]
        unfold OP.elects
        rw [if_pos (show op.clearTrail.election_clock.tick_and_check_timeout.1 = true from hf)]
        show (op.ble.hb_timeout op.sp.role op.sp.phase op.sp.get_promise).2 = _
        rw [hb]
      refine ⟨h1, h2, _, h3, ?_⟩
      rw [e2]
      exact ⟨h7.prio, h7.rises, h7.own, h7.ge, h7.source, h7.sad, h7.missed⟩
    · exfalso
      refine hk ?_
      rw [e1]
      unfold OP.elects
      rw [if_neg (show ¬ op.clearTrail.election_clock.tick_and_check_timeout.1 = true from hf)]
      show op.ble.hb_round = _
      rw [hb]
  have hsame : ∀ k, (bl' k).hb_round = (bl k).hb_round → (bl' k).current_ballot = (bl k).current_ballot ∧ (bl' k).leader = (bl k).leader ∧ (bl' k).happy = (bl k).happy :=
    fun k hk => saying_ballot (hM.same hk)
  have hmade : ∀ i, Made cc n pr bl i → Made cc n pr bl' i := by
    intro i hi
    by_cases hk : (bl' i).hb_round = (bl i).hb_round
    · exact (hsame i hk).1.trans hi
    · obtain ⟨_, _, p, _, ho⟩ := hfire i hk
      rcases ho.own with e | ⟨e, _⟩
      · exact e.trans hi
      · exact e
  have hhon : ∀ r, Honest cc n L pr bl r → Honest cc n L pr bl' r := fun r hr i hi => ⟨fun e => hmade i ((hr i hi).1 e), fun e => hmade i ((hr i hi).2 e)⟩
  have hkn : ∀ b, Known cc n L pr bl b → Known cc n L pr bl' b := by
    rintro b (hb | ⟨i, hi, e, hb⟩)
    · exact .inl hb
    · exact .inr ⟨i, hi, e, hmade i hb⟩
  have hleads : ∀ k ∈ cc.nodes, ∀ i ∈ L, (bl' k).leader = cand cc n pr i → Made cc n pr bl' i := by
    intro k hk i hi e
    by_cases hr : (bl' k).hb_round = (bl k).hb_round
    · exact hmade i (h.leads k hk i hi ((hsame k hr).2.1 ▸ e))
    · obtain ⟨hkL, _, p, hp, ho⟩ := hfire k hr
      rcases ho.source with e1 | ⟨r, hr, e1⟩ | e1 | ⟨e1, e2⟩
      · exact hmade i (h.leads k hk i hi (e1 ▸ e))
      · obtain ⟨x, hx, hw⟩ := (h.hearts.server k hk).replies r hr
        exact hmade i (((h.told k hkL x hx).1 r hr hw.sender i hi).1 (e1 ▸ e))
      · rw [e] at e1
        rcases hp with e2 | e2 | ⟨x, hx, e2, e3⟩
        · rw [← e1] at e2
          exact absurd (congrArg Ballot.n e2) (Nat.succ_ne_zero _)
        · have e2 : cand cc n pr i ≤ n := by rw [e1]; exact e2
          exact absurd e2 (not_cand_le i)
        · have e2 : p = cand cc n pr x := e2
          rw [← e1] at e2
          have := cand_inj e2
          subst this
          exact hmade i e3
      · rw [e] at e1
        have := cand_inj e1
        subst this
        exact e2
  refine ⟨bl', ⟨h, ⟨hB', hH', fun k hk i hi => hM.fresh h.hearts hcalm hi (hL k hk) (h.fresh k hk i hi), fun j hj => ?_, hleads, fun k hk j hj => ?_,
    fun k hk i hi e => ?_, ?_⟩, ha, hs, hM, fun k hk => ?_⟩⟩
  · by_cases hr : (bl' j).hb_round = (bl j).hb_round
    · rw [(hsame j hr).1]; exact h.prio j hj
    · obtain ⟨_, _, p, _, ho⟩ := hfire j hr
      exact ho.prio
  · refine hM.told h.hearts hcalm hj (hL k hk) word_signed ((h.told k hk j hj).mono hhon) fun x i hi => ⟨fun e => ?_, fun e => hmade i (h.leads j hj i hi e)⟩
    have hs : (bl j).current_ballot.pid = j := (h.hearts.server j hj).tells.sender
    have e : (bl j).current_ballot = cand cc n pr i := e
    have : i = j := by rw [← hs, e]; rfl
    subst this
    exact hmade i e
  · by_cases hr : (bl' k).hb_round = (bl k).hb_round
    · have e1 := (hsame k hr).2.1 ▸ e
      exact hM.since h.hearts hcalm (hL i hi) (hL k hk) word_signed (h.fresh k hk i (hL i hi)) (.inl (h.since k hk i hi e1)) fun _ x => h.leads k (hL k hk) i hi e1
    · exact hM.since h.hearts hcalm (hL i hi) (hL k hk) word_signed (h.fresh k hk i (hL i hi)) (.inr hr) fun e2 => by
        obtain ⟨e3, _⟩ := hM.fired hr
        rw [e2] at e3
        cases e3
  · refine (h.vouched.mono hkn).step hcalm hs fun i op x e hop hx => ?_
    have hiL : i ∈ L := by subst e; exact ha
    have e1 := hE i e op hop
    have e2 : x = (bl' i).current_ballot := by
      rw [e1]
      unfold OP.elects at hx ⊢
      split at hx
      · rename_i hf
        rw [if_pos hf]
        exact BLE.timeout_elected hx
      · cases hx
    have hw := (hH'.server i (hL i hiL)).tells
    rcases hw.ballot with hb | ⟨_, hb⟩
    · exact .inl (e2 ▸ hb)
    · exact .inr ⟨i, hiL, e2.trans hb, hb⟩
  · obtain ⟨h1, h2, p, _, h3⟩ := hfire k hk
    exact ⟨h1, h2, p, h3⟩

end Omni
