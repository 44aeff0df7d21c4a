import Verif.Proof.Safety.Lg
import Verif.Props.Basics
/-
The abstract protocol: who accepted what in which ballot. `Abs` is its invariant, `Ghost.fixed_le_init` the
argument why a chosen log survives into all higher ballots.
-/
namespace Omni

variable {E : Type}

/-- History recorded beside the cluster state. -/
structure Ghost (E : Type) where
  /-- the log a server accepted in a ballot -/
  acc : NodeId → Ballot → Option (Lg E)
  /-- the accepted ballot and log a server had when it promised a ballot -/
  prec : NodeId → Ballot → Option (Ballot × Lg E)
  /-- the log a ballot started with -/
  init : Ballot → Option (Lg E)
  /-- the leader's log after the accept message with this number to this follower -/
  endf : Ballot → NodeId → SeqNum → Lg E
  /-- number of the last accept message a follower applied -/
  curg : Ballot → NodeId → SeqNum
  /-- sessions of accept messages whose AcceptSync no follower may take (finding F1) -/
  dead : Ballot → NodeId → Nat → Prop := fun _ _ _ => False
  /-- the entries that are counted -/
  mark : E → Bool := fun _ => false
  /-- how many of them leaders have put into their logs -/
  used : Nat := 0
  /-- how many of them a server may still have in hand -/
  hold : NodeId → Nat := fun _ => 0

/-- The number of counted entries. -/
abbrev Ghost.count (G : Ghost E) (l : List E) : Nat := l.countP G.mark

/-- Servers that can run. -/
def Node (cc : ClusterConfig) (j : NodeId) : Prop := j ∈ cc.nodes ∧ j ≠ 0

def quorumAt (cc : ClusterConfig) (i : NodeId) : Quorum :=
  Quorum.with cc.flexible_quorum ((SP.peersOf cc.nodes i).length + 1)

structure ReadQ (cc : ClusterConfig) (Q : List NodeId) : Prop where
  nodup : Q.Nodup
  node : ∀ x ∈ Q, Node cc x
  size : ∃ i, (quorumAt cc i).is_prepare_quorum Q.length = true

structure WriteQ (cc : ClusterConfig) (Q : List NodeId) : Prop where
  nodup : Q.Nodup
  node : ∀ x ∈ Q, Node cc x
  size : ∃ i, (quorumAt cc i).is_accept_quorum Q.length = true

theorem quorums_meet {cc : ClusterConfig} (hv : cc.validate = .ok ()) {P Q : List NodeId} (hP : ReadQ cc P) (hQ : WriteQ cc Q) :
    ∃ x, x ∈ P ∧ x ∈ Q := by
  obtain ⟨i, hi⟩ := hP.size
  obtain ⟨j, hj⟩ := hQ.size
  exact C22_quorum_intersection cc hv i j P Q hP.nodup hQ.nodup (fun x h => (hP.node x h).1) (fun x h => (hQ.node x h).1) hi hj

theorem ReadQ.nonempty {cc : ClusterConfig} (hv : cc.validate = .ok ()) {P : List NodeId} (hP : ReadQ cc P) :
    ∃ x, x ∈ P := by
  obtain ⟨i, hi⟩ := hP.size
  cases P with
  | cons x xs => exact ⟨x, by simp⟩
  | nil =>
    exfalso
    unfold quorumAt at hi
    cases hq : cc.flexible_quorum with
    | none => rw [hq] at hi; simp [Quorum.with, Quorum.is_prepare_quorum] at hi
    | some q =>
      rw [hq] at hi
      simp only [Quorum.with, Quorum.is_prepare_quorum, List.length_nil, decide_eq_true_eq] at hi
      unfold ClusterConfig.validate at hv
      rw [hq] at hv
      simp only at hv
      repeat (split at hv; · simp at hv)
      omega

theorem WriteQ.nonempty {cc : ClusterConfig} (hv : cc.validate = .ok ()) {P : List NodeId} (hP : WriteQ cc P) :
    ∃ x, x ∈ P := by
  obtain ⟨i, hi⟩ := hP.size
  cases P with
  | cons x xs => exact ⟨x, by simp⟩
  | nil =>
    exfalso
    unfold quorumAt at hi
    cases hq : cc.flexible_quorum with
    | none => rw [hq] at hi; simp [Quorum.with, Quorum.is_accept_quorum] at hi
    | some q =>
      rw [hq] at hi
      simp only [Quorum.with, Quorum.is_accept_quorum, List.length_nil, decide_eq_true_eq] at hi
      unfold ClusterConfig.validate at hv
      rw [hq] at hv
      simp only at hv
      repeat (split at hv; · simp at hv)
      omega

abbrev GoodB (cc : ClusterConfig) (b : Ballot) : Prop := Ballot.Good cc.configuration_id b

namespace Ghost

/-- Accepted by a write quorum in ballot `b`. -/
def Chosen (cc : ClusterConfig) (G : Ghost E) (b : Ballot) (l : Lg E) : Prop :=
  ∃ W, WriteQ cc W ∧ ∀ j ∈ W, ∃ a, G.acc j b = some a ∧ l ≤ a

/-- Accepted by everybody in ballot `b`. -/
def AllAcc (cc : ClusterConfig) (G : Ghost E) (b : Ballot) (l : Lg E) : Prop :=
  ∀ j, Node cc j → ∃ a, G.acc j b = some a ∧ l ≤ a

/-- Every read quorum contains a server that accepted `l` in `b`. -/
def Fixed (cc : ClusterConfig) (G : Ghost E) (b : Ballot) (l : Lg E) : Prop :=
  ∀ Q, ReadQ cc Q → ∃ j ∈ Q, ∃ a, G.acc j b = some a ∧ l ≤ a

theorem Chosen.fixed {cc : ClusterConfig} (hv : cc.validate = .ok ()) {G : Ghost E} {b : Ballot} {l : Lg E}
    (h : G.Chosen cc b l) : G.Fixed cc b l := by
  obtain ⟨W, hW, ha⟩ := h
  intro Q hQ
  obtain ⟨x, h1, h2⟩ := quorums_meet hv hQ hW
  exact ⟨x, h1, ha x h2⟩

theorem AllAcc.fixed {cc : ClusterConfig} (hv : cc.validate = .ok ()) {G : Ghost E} {b : Ballot} {l : Lg E}
    (h : G.AllAcc cc b l) : G.Fixed cc b l := by
  intro Q hQ
  obtain ⟨x, hx⟩ := hQ.nonempty hv
  exact ⟨x, hx, h x (hQ.node x hx)⟩

theorem Chosen.exists_acc {cc : ClusterConfig} (hv : cc.validate = .ok ()) {G : Ghost E} {b : Ballot} {l : Lg E}
    (h : G.Chosen cc b l) : ∃ j a, G.acc j b = some a ∧ l ≤ a := by
  obtain ⟨W, hW, ha⟩ := h
  obtain ⟨j, hj⟩ := hW.nonempty hv
  obtain ⟨a, h1, h2⟩ := ha j hj
  exact ⟨j, a, h1, h2⟩

theorem Chosen.down {cc : ClusterConfig} {G : Ghost E} {b : Ballot} {l l' : Lg E}
    (h : G.Chosen cc b l) (hl : l' ≤ l) : G.Chosen cc b l' := by
  obtain ⟨W, hW, ha⟩ := h
  exact ⟨W, hW, fun j hj => let ⟨a, h1, h2⟩ := ha j hj; ⟨a, h1, Lg.le_trans hl h2⟩⟩

end Ghost

/-- The invariant of the abstract protocol. -/
structure Abs (cc : ClusterConfig) (G : Ghost E) : Prop where
  good : ∀ i b, G.acc i b ≠ none → GoodB cc b
  base : ∀ i, G.acc i {} = some {}
  prec : ∀ i b n l, G.prec i b = some (n, l) →
    GoodB cc b ∧ n < b ∧ G.acc i n = some l ∧ ∀ b', b' < b → G.acc i b' ≠ none → b' ≤ n
  acc : ∀ i b l, G.acc i b = some l → b ≠ {} → G.prec i b ≠ none ∧
    ∃ p l0, G.acc b.pid b = some p ∧ G.init b = some l0 ∧ l0 ≤ l ∧ l ≤ p ∧ (i ≠ b.pid → l ≤ G.endf b i (G.curg b i))
  init : ∀ b l0, G.init b = some l0 → G.acc b.pid b ≠ none ∧
    ∃ Q m n, ReadQ cc Q ∧ G.prec m b = some (n, l0) ∧
      ∀ i ∈ Q, ∃ n' l', G.prec i b = some (n', l') ∧ (n' < n ∨ (n' = n ∧ l' ≤ l0))
  lead : ∀ i b, G.prec i b ≠ none → G.prec b.pid b ≠ none
  endMono : ∀ n F q q', q ≤ q' → G.endf n F q ≤ G.endf n F q'
  endLe : ∀ n F q p, G.acc n.pid n = some p → G.endf n F q ≤ p
  endNone : ∀ n, G.acc n.pid n = none → ∀ F, G.curg n F = {} ∧ ∀ q, G.endf n F q = {}
  cnt : ∀ i b l, G.acc i b = some l → G.count l.es ≤ G.used
  deadAcc : ∀ n F s, G.dead n F s → G.acc n.pid n ≠ none

namespace Abs

variable {cc : ClusterConfig} {G : Ghost E}

theorem precGood (h : Abs cc G) {i : NodeId} {b : Ballot} (hp : G.prec i b ≠ none) : GoodB cc b := by
  cases hx : G.prec i b with
  | none => exact absurd hx hp
  | some r => exact (h.prec i b r.1 r.2 hx).1

theorem lt_ne_default {b n : Ballot} (h : n < b) : b ≠ {} := by
  rintro rfl
  exact Ballot.lt_irrefl _ (Ballot.lt_of_lt_of_le h (Ballot.default_le n))

theorem init_le (h : Abs cc G) {i : NodeId} {b : Ballot} {l : Lg E} (ha : G.acc i b = some l) (hb : b ≠ {}) :
    ∃ l0, G.init b = some l0 ∧ l0 ≤ l := by
  obtain ⟨-, p, l0, -, h2, h3, -⟩ := h.acc i b l ha hb
  exact ⟨l0, h2, h3⟩

theorem le_prop (h : Abs cc G) {i : NodeId} {b : Ballot} {l : Lg E} (ha : G.acc i b = some l) :
    ∃ p, G.acc b.pid b = some p ∧ l ≤ p := by
  by_cases hb : b = {}
  · subst hb
    rw [h.base i] at ha
    simp at ha
    exact ⟨{}, h.base _, Lg.le_of_eq ha.symm⟩
  · obtain ⟨-, p, l0, h1, -, -, h2, -⟩ := h.acc i b l ha hb
    exact ⟨p, h1, h2⟩

/-- What every read quorum has accepted is part of the log every higher ballot starts with. -/
theorem fixed_le_init (h : Abs cc G) {b b' : Ballot} {l l0 : Lg E} (hf : G.Fixed cc b l) (hb : b < b')
    (hi : G.init b' = some l0) : l ≤ l0 := by
  induction b' using Ballot.wf_lt.induction generalizing l0 with
  | _ b' ih =>
  obtain ⟨-, Q, m, n, hQ, hm, hall⟩ := h.init b' l0 hi
  obtain ⟨j, hj, a, haj, hla⟩ := hf Q hQ
  obtain ⟨n', l', hpj, hn'⟩ := hall j hj
  obtain ⟨-, hn'b, hacc', hmax⟩ := h.prec j b' n' l' hpj
  obtain ⟨-, hnb, haccm, -⟩ := h.prec m b' n l0 hm
  have hbn' : b ≤ n' := hmax b hb (by rw [haj]; simp)
  have below : b < n → l ≤ l0 := by
    intro hlt
    obtain ⟨l1, hl1, hle⟩ := h.init_le haccm (lt_ne_default hlt)
    exact Lg.le_trans (ih n hnb hlt hl1) hle
  rcases hn' with hlt | ⟨rfl, hl'⟩
  · exact below (Ballot.lt_of_le_of_lt hbn' hlt)
  · rcases Ballot.lt_or_le b n' with hlt | hle
    · exact below hlt
    · have : b = n' := Ballot.eq_of_le_of_le (h.good j b (by rw [haj]; simp)) (h.good j n' (by rw [hacc']; simp)) hbn' hle
      subst this
      rw [haj] at hacc'
      simp at hacc'
      subst hacc'
      exact Lg.le_trans hla hl'

/-- The same for the log accepted in a higher ballot. -/
theorem fixed_le_acc (h : Abs cc G) {b b' : Ballot} {l a : Lg E} {j : NodeId} (hf : G.Fixed cc b l) (hb : b < b')
    (ha : G.acc j b' = some a) : l ≤ a := by
  obtain ⟨l0, h0, hle⟩ := h.init_le ha (lt_ne_default hb)
  exact Lg.le_trans (h.fixed_le_init hf hb h0) hle

/-- What is accepted by `j` in `b` is part of what `j` reports with a later promise, if it is fixed. -/
theorem fixed_le_prec (h : Abs cc G) {b c n : Ballot} {l a lg : Lg E} {j : NodeId} (hf : G.Fixed cc b l)
    (ha : G.acc j b = some a) (hla : l ≤ a) (hb : b < c) (hp : G.prec j c = some (n, lg)) : l ≤ lg := by
  obtain ⟨-, -, hacc, hmax⟩ := h.prec j c n lg hp
  have hbn := hmax b hb (by rw [ha]; simp)
  rcases Ballot.lt_or_le b n with hlt | hle
  · exact h.fixed_le_acc hf hlt hacc
  · have : b = n := Ballot.eq_of_le_of_le (h.good j b (by rw [ha]; simp)) (h.good j n (by rw [hacc]; simp)) hbn hle
    subst this
    rw [ha] at hacc
    simp at hacc
    exact hacc ▸ hla

/-- Two chosen logs are comparable. -/
theorem chosen_comparable (hv : cc.validate = .ok ()) (h : Abs cc G) {b b' : Ballot} {l l' : Lg E}
    (hc : G.Chosen cc b l) (hc' : G.Chosen cc b' l') : l ≤ l' ∨ l' ≤ l := by
  obtain ⟨j, a, ha, hla⟩ := hc.exists_acc hv
  obtain ⟨j', a', ha', hla'⟩ := hc'.exists_acc hv
  rcases Ballot.lt_or_le b b' with hlt | hle
  · exact Lg.comparable (h.fixed_le_acc (hc.fixed hv) hlt ha') hla'
  rcases Ballot.lt_or_le b' b with hlt | hle'
  · exact (Lg.comparable (h.fixed_le_acc (hc'.fixed hv) hlt ha) hla).symm
  have : b = b' := Ballot.eq_of_le_of_le (h.good j b (by rw [ha]; simp)) (h.good j' b' (by rw [ha']; simp)) hle' hle
  subst this
  obtain ⟨p, hp, hap⟩ := h.le_prop ha
  obtain ⟨p', hp', hap'⟩ := h.le_prop ha'
  rw [hp] at hp'
  simp at hp'
  subst hp'
  exact Lg.comparable (Lg.le_trans hla hap) (Lg.le_trans hla' hap')

end Abs
end Omni
