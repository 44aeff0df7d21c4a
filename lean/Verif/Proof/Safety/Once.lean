import Verif.Proof.Safety.Conclude
import Verif.Spec.Once
/-
Counting the copies of entries: where they are, and that no action makes new ones except `append`.
-/
namespace Omni

variable {E S : Type}

/-! ### Sums over distinct places -/

section sums
variable {α : Type} [DecidableEq α]

def total (v : α → Nat) (l : List α) : Nat := (l.map v).sum

omit [DecidableEq α] in
theorem total_cons (v : α → Nat) (a : α) (l : List α) : total v (a :: l) = v a + total v l := rfl

omit [DecidableEq α] in
theorem total_append (v : α → Nat) (l l' : List α) : total v (l ++ l') = total v l + total v l' := by
  simp [total]

omit [DecidableEq α] in
theorem total_le {v v' : α → Nat} {l : List α} (h : ∀ a ∈ l, v a ≤ v' a) : total v l ≤ total v' l := by
  induction l with
  | nil => exact Nat.le_refl _
  | cons a l ih =>
    have h1 := h a (by simp)
    have h2 := ih fun b hb => h b (by simp [hb])
    simp only [total_cons]
    omega

omit [DecidableEq α] in
theorem total_split (v : α → Nat) (p : α → Bool) (l : List α) :
    total v l = total v (l.filter p) + total v (l.filter fun a => !p a) := by
  induction l with
  | nil => rfl
  | cons a l ih =>
    simp only [List.filter_cons]
    cases p a <;> simp [total_cons] <;> omega

/-- One place may be added. -/
theorem total_insert (v : α → Nat) (a : α) {l : List α} (h : l.Nodup) :
    total v l ≤ v a + total v (l.filter fun b => !decide (b = a)) := by
  rw [total_split v (fun b => decide (b = a)) l]
  have : total v (l.filter fun b => decide (b = a)) ≤ v a := by
    induction l with
    | nil => exact Nat.zero_le _
    | cons b l ih =>
      obtain ⟨h1, h2⟩ := List.nodup_cons.1 h
      simp only [List.filter_cons]
      split
      · rename_i hb
        have hb : b = a := by simpa using hb
        subst hb
        have : (l.filter fun c => decide (c = b)) = [] := by
          refine List.filter_eq_nil_iff.2 fun c hc => ?_
          simp only [decide_eq_true_eq]
          rintro rfl
          exact h1 hc
        rw [this]
        simp [total]
      · exact ih h2
  omega

/-- The total over distinct numbers below `n`. -/
theorem total_range {v : Nat → Nat} {n : Nat} (hv : ∀ k, n ≤ k → v k = 0) {l : List Nat} (h : l.Nodup) :
    total v l ≤ total v (List.range n) := by
  induction n generalizing v l with
  | zero =>
    have : ∀ (l : List Nat), total v l = 0 := by
      intro l
      induction l with
      | nil => rfl
      | cons a l ih => rw [total_cons, ih, hv a (Nat.zero_le _)]
    rw [this]
    exact Nat.zero_le _
  | succ n ih =>
    have h1 := total_insert v n h
    have h2 : total v (l.filter fun b => !decide (b = n)) = total (fun k => if k = n then 0 else v k) (l.filter fun b => !decide (b = n)) := by
      refine Nat.le_antisymm (total_le fun a ha => ?_) (total_le fun a ha => ?_) <;>
      · have := (List.mem_filter.1 ha).2
        simp only [Bool.not_eq_true', decide_eq_false_iff_not] at this
        rw [if_neg this]
        exact Nat.le_refl _
    have h3 := ih (v := fun k => if k = n then 0 else v k) (fun k hk => by
      split
      · rfl
      · exact hv k (by omega)) (l := l.filter fun b => !decide (b = n)) (h.sublist List.filter_sublist)
    have h4 : total (fun k => if k = n then 0 else v k) (List.range n) ≤ total v (List.range n) :=
      total_le fun a _ => by split <;> omega
    rw [List.range_succ, total_append]
    simp only [total, List.map_cons, List.map_nil, List.sum_cons, List.sum_nil] at *
    omega

/-- If the values change only at places in `Z`, and there in total as stated, so does the total over all. -/
theorem total_change {v v' : α → Nat} {u u' A d : Nat} (Z : α → Bool) (h : ∀ l : List α, l.Nodup → total v l + u ≤ A)
    (hout : ∀ a, Z a = false → v' a ≤ v a)
    (hin : ∀ l : List α, l.Nodup → (∀ a ∈ l, Z a = true) →
      ∃ z : List α, z.Nodup ∧ (∀ a ∈ z, Z a = true) ∧ total v' l + u' ≤ total v z + u + d) :
    ∀ l : List α, l.Nodup → total v' l + u' ≤ A + d := by
  intro l hl
  obtain ⟨z, hz, hzZ, hle⟩ := hin (l.filter Z) (hl.sublist List.filter_sublist) fun a ha => (List.mem_filter.1 ha).2
  have h1 : total v' (l.filter fun a => !Z a) ≤ total v (l.filter fun a => !Z a) :=
    total_le fun a ha => hout a (by simpa using (List.mem_filter.1 ha).2)
  have h2 := h (z ++ l.filter fun a => !Z a) (List.nodup_append.2 ⟨hz, hl.sublist List.filter_sublist, fun a ha b hb hab => by
    subst hab
    have := (List.mem_filter.1 hb).2
    rw [hzZ a ha] at this
    simp at this⟩)
  rw [total_append] at h2
  rw [total_split v' Z l]
  omega

end sums

theorem filterMap_range {α : Type} (l : List α) : (List.range l.length).filterMap (fun k => l[k]?) = l := by
  induction l with
  | nil => rfl
  | cons a l ih =>
    rw [List.length_cons, List.range_succ_eq_map, List.filterMap_cons, List.filterMap_map]
    simp only [List.getElem?_cons_zero, List.cons.injEq, true_and]
    exact ih

/-- Values at the positions `ks` of a list. -/
theorem sum_positions {α : Type} (f : α → Nat) (l : List α) {ks : List Nat}
    (hk : ks.Pairwise fun k k' => k = k' → ∀ a, l[k]? = some a → f a = 0) :
    ((ks.filterMap fun k => l[k]?).map f).sum ≤ (l.map f).sum := by
  let v : Nat → Nat := fun k => match l[k]? with
    | some a => f a
    | none => 0
  have h1 : ∀ ks : List Nat, ((ks.filterMap fun k => l[k]?).map f).sum = total v ks := by
    intro ks
    induction ks with
    | nil => rfl
    | cons k ks ih =>
      rw [List.filterMap_cons, total_cons, ← ih]
      simp only [v]
      split <;> rename_i hx <;> simp [hx]
  have h2 : total v (List.range l.length) = (l.map f).sum := by
    rw [← h1, filterMap_range]
  rw [h1, ← h2, total_split v (fun k => v k != 0) ks]
  have h3 : total v (ks.filter fun k => !(v k != 0)) = 0 := by
    refine Nat.le_zero.1 (Nat.le_trans (total_le (v' := fun _ => 0) fun a ha => ?_) ?_)
    · have := (List.mem_filter.1 ha).2
      simp at this
      omega
    · generalize ks.filter _ = l'
      induction l' with
      | nil => exact Nat.le_refl _
      | cons a l ih => simpa [total_cons] using ih
  rw [h3, Nat.add_zero]
  refine total_range (fun k hk => by simp [v, List.getElem?_eq_none hk]) ?_
  have := (hk.sublist (List.filter_sublist (p := fun k => v k != 0))).imp_of_mem (S := fun a b => a ≠ b) ?_
  · exact this
  · intro a b ha _ hab he
    have h4 := (List.mem_filter.1 ha).2
    have : v a = 0 := by
      simp only [v]
      split
      · rename_i x hx; exact hab he x hx
      · rfl
    simp [this] at h4

/-! ### Where counted entries are -/

/-- A server, or a link. -/
inductive Place where
  | srv (i : NodeId)
  | link (i j : NodeId)
  deriving DecidableEq

/-- Counted entries at a place: in the hands of a server, or forwarded on a link. -/
def Cluster.held (c : Cluster E S) (G : Ghost E) : Place → Nat
  | .srv i => G.hold i
  | .link i j => fwds G.mark (c.pre i j)

/-- All copies, in logs and elsewhere, are at most `A`. -/
def Cluster.Within (c : Cluster E S) (G : Ghost E) (A : Nat) : Prop :=
  ∀ l : List Place, l.Nodup → total (c.held G) l + G.used ≤ A

namespace RInv
variable {cc : ClusterConfig} {c c' : Cluster E S} {G G' : Ghost E} {i j : NodeId} {A k : Nat} {rel : Links}

theorem spent_one (h : c.Within G A) (hs : Spent i k G G') (hn : ∀ a b, fwds G.mark (c'.pre a b) ≤ fwds G.mark (c.pre a b)) :
    c'.Within G' (A + k) := by
  refine total_change (fun p => decide (p = .srv i)) h (fun p hp => ?_) (fun l hl hZ => ⟨[.srv i], by simp, by simp, ?_⟩)
  · cases p with
    | srv j =>
      simp only [decide_eq_false_iff_not, Place.srv.injEq] at hp
      exact Nat.le_of_eq (hs.hold_o j hp)
    | link a b =>
      simp only [Cluster.held]
      rw [hs.mark]
      exact hn a b
  · have h1 := total_insert (c'.held G') (.srv i) hl
    have h2 : (l.filter fun b => !decide (b = .srv i)) = [] :=
      List.filter_eq_nil_iff.2 fun p hp => by simpa using hZ p hp
    rw [h2] at h1
    have h3 := hs.hold_i
    simp only [total, List.map_cons, List.map_nil, List.sum_cons, List.sum_nil, Cluster.held] at *
    omega

/-- What server `j` was given came from the link. -/
theorem spent_link (h : c.Within G A) (hs : Spent j k G G') (hl : fwds G.mark (c'.pre i j) + k ≤ fwds G.mark (c.pre i j))
    (hn : ∀ a b, ¬ (a = i ∧ b = j) → c'.pre a b = c.pre a b) : c'.Within G' A := by
  refine total_change (d := 0) (fun p => decide (p = .srv j) || decide (p = .link i j)) h (fun p hp => ?_)
    (fun l hl' hZ => ⟨[.srv j, .link i j], by simp, by simp, ?_⟩)
  · cases p with
    | srv a =>
      simp only [Place.srv.injEq, reduceCtorEq, decide_false, Bool.or_false, decide_eq_false_iff_not] at hp
      exact Nat.le_of_eq (hs.hold_o a hp)
    | link a b =>
      simp only [Place.link.injEq, reduceCtorEq, decide_false, Bool.false_or, decide_eq_false_iff_not] at hp
      simp only [Cluster.held]
      rw [hs.mark, hn a b hp]
      exact Nat.le_refl _
  · have h1 := total_insert (c'.held G') (.srv j) hl'
    have h2 := total_insert (c'.held G') (.link i j) (l := l.filter fun b => !decide (b = .srv j)) (hl'.sublist List.filter_sublist)
    have h3 : ((l.filter fun b => !decide (b = .srv j)).filter fun b => !decide (b = .link i j)) = [] := by
      rw [List.filter_filter]
      refine List.filter_eq_nil_iff.2 fun p hp => ?_
      have := hZ p hp
      simp only [Bool.or_eq_true, decide_eq_true_eq] at this
      simp only [Bool.and_eq_true, Bool.not_eq_true', decide_eq_false_iff_not, not_and, Classical.not_not]
      intro hx
      exact this.resolve_right hx
    rw [h3] at h2
    have h4 := hs.hold_i
    simp only [total, List.map_cons, List.map_nil, List.sum_cons, List.sum_nil, Cluster.held] at *
    rw [hs.mark] at *
    omega

/-- Messages only disappear. -/
theorem within_le (h : c.Within G A) (hn : ∀ a b, fwds G.mark (c'.pre a b) ≤ fwds G.mark (c.pre a b)) : c'.Within G A := by
  intro l hl
  refine Nat.le_trans (Nat.add_le_add_right (total_le fun p _ => ?_) _) (h l hl)
  cases p with
  | srv i => exact Nat.le_refl _
  | link a b => exact hn a b

theorem sum_filter_dst {P : E → Bool} (out : List (PaxosMessage E S)) {bs : List NodeId} (h : bs.Nodup) :
    total (fun b => fwds P (out.filter fun m => decide (m.dst = b))) bs ≤ fwds P out := by
  induction out with
  | nil =>
    simp only [List.filter_nil, fwds_nil]
    refine Nat.le_of_eq ?_
    clear h
    induction bs with
    | nil => rfl
    | cons b bs ih => rw [total_cons, ih]
  | cons m out ih =>
    have h1 : total (fun b => fwds P ((m :: out).filter fun m => decide (m.dst = b))) bs ≤
        total (fun b => if m.dst = b then m.msg.fwd P else 0) bs + total (fun b => fwds P (out.filter fun m => decide (m.dst = b))) bs := by
      clear ih h
      induction bs with
      | nil => exact Nat.zero_le _
      | cons b bs ih =>
        simp only [total_cons, List.filter_cons]
        by_cases hb : m.dst = b
        · subst hb
          simp only [decide_true, if_true]
          simp only [List.filter_cons] at ih
          simp only [fwds, List.map_cons, List.sum_cons] at *
          omega
        · simp only [hb, decide_false, if_false]
          simp only [List.filter_cons] at ih
          simp only [Bool.false_eq_true, if_false]
          omega
    have h2 : total (fun b => if m.dst = b then m.msg.fwd P else 0) bs ≤ m.msg.fwd P := by
      have := total_insert (fun b => if m.dst = b then m.msg.fwd P else 0) m.dst h
      have h3 : total (fun b => if m.dst = b then m.msg.fwd P else 0) (bs.filter fun b => !decide (b = m.dst)) ≤ 0 := by
        refine Nat.le_trans (total_le (v' := fun _ => 0) fun b hb => ?_) ?_
        · have := (List.mem_filter.1 hb).2
          simp at this
          rw [if_neg (fun h => this h.symm)]
          exact Nat.le_refl _
        · generalize bs.filter _ = l
          induction l with
          | nil => exact Nat.le_refl _
          | cons a l ih => simpa [total_cons] using ih
      simp only [if_true] at this
      omega
    have h3 : fwds P (m :: out) = m.msg.fwd P + fwds P out := rfl
    omega

/-- Forwarded messages of a link after more were put there. -/
theorem fwds_take {P : E → Bool} (ms : List (Message E S)) (op : OP E S) (b : NodeId) :
    fwds P (paxOf (ms ++ (op.take_outgoing_messages []).1.filter fun m => decide (m.dst = b))) =
    fwds P (paxOf ms) + fwds P (op.sp.outgoing.filter fun m => decide (m.dst = b)) := by
  have hble : ∀ l : List BLEMessage, paxOf ((l.map (Message.ble : BLEMessage → Message E S)).filter (fun m => decide (m.dst = b))) = [] := by
    intro l
    induction l with
    | nil => rfl
    | cons x l ih =>
      simp only [List.map_cons, List.filter_cons]
      split
      · simpa [paxOf] using ih
      · exact ih
  have hpx : ∀ l : List (PaxosMessage E S), paxOf ((l.map Message.paxos).filter (fun m => decide (m.dst = b))) = l.filter fun m => decide (m.dst = b) := by
    intro l
    induction l with
    | nil => rfl
    | cons x l ih =>
      simp only [List.map_cons, List.filter_cons, show (Message.paxos x : Message E S).dst = x.dst from rfl]
      split
      · simpa [paxOf] using ih
      · exact ih
  have h1 := hble op.ble.outgoing
  have h2 := hpx op.sp.outgoing
  simp only [OP.take_outgoing_messages, SP.take_outgoing_msgs, List.isEmpty_nil, if_true, List.filter_append, paxOf, List.filterMap_append] at *
  rw [h1, h2, fwds_append, List.append_nil]

/-- Server `i` handed over its messages. -/
def afterTake (c : Cluster E S) (i : NodeId) (op : OP E S) : Cluster E S where
  servers := fun j => if j = i then .up (op.take_outgoing_messages []).2 else c.servers j
  net := fun a b => if a = i then c.net a b ++ (op.take_outgoing_messages []).1.filter (fun m => decide (m.dst = b)) else c.net a b

/-- Taken messages are no longer in the hands of the server. -/
def drained (G : Ghost E) (i : NodeId) (k : Nat) : Ghost E :=
  { G with hold := fun j => if j = i then G.hold i - k else G.hold j }

theorem take_within [SnapOps E S] (hR : RInv cc c G rel) (h : c.Within G A) {op : OP E S} (hs : c.servers i = .up op) :
    ∃ G', Mono G G' ∧ G'.mark = G.mark ∧
      RInv cc (afterTake c i op) G' rel ∧
      Cluster.Within (afterTake c i op) G' A := by
  have htok := hR.tok_le hs
  have hout : fwds G.mark op.sp.outgoing ≤ G.hold i := by
    simp only [SP.tok] at htok
    omega
  refine ⟨drained G i (fwds G.mark op.sp.outgoing), (CInv.hold_quiet G _ i).toMono, rfl, setHold (c := afterTake c i op) (hR.take hs) _ fun j op' hj => ?_, ?_⟩
  · simp only [afterTake] at hj
    by_cases hji : j = i
    · subst hji
      simp only [if_true, Server.up.injEq] at hj ⊢
      subst hj
      have h1 : (op.take_outgoing_messages []).2.sp.own G.mark = op.sp.own G.mark := rfl
      have h2 : (op.take_outgoing_messages []).2.sp.buffered_proposals = op.sp.buffered_proposals := rfl
      have h3 : (op.take_outgoing_messages []).2.sp.outgoing = [] := rfl
      simp only [SP.tok] at htok ⊢
      rw [h1, h2, h3, fwds_nil]
      omega
    · simp only [if_neg hji] at hj ⊢
      exact hR.tok_le hj
  · refine total_change (d := 0) (fun p => match p with
      | .srv j => decide (j = i)
      | .link a _ => decide (a = i)) h (fun p hp => ?_) (fun l hl hZ => ?_)
    · cases p with
      | srv a =>
        have hp : a ≠ i := by simpa using hp
        simp [Cluster.held, drained, hp]
      | link a b =>
        have hp : a ≠ i := by simpa using hp
        simp [Cluster.held, Cluster.pre, drained, afterTake, hp]
    · refine ⟨.srv i :: l.filter fun b => !decide (b = .srv i), ?_, ?_, ?_⟩
      · exact List.nodup_cons.2 ⟨by simp, hl.sublist List.filter_sublist⟩
      · intro a ha
        rcases List.mem_cons.1 ha with rfl | ha
        · simp
        · exact hZ a (List.mem_filter.1 ha).1
      refine Nat.le_trans (Nat.add_le_add_right (total_insert _ (.srv i) hl) _) ?_
      have hnd : (l.filter fun b => !decide (b = .srv i)).Nodup := hl.sublist List.filter_sublist
      have hlk : ∀ p ∈ l.filter (fun b => !decide (b = .srv i)), ∃ b, p = .link i b := by
        intro p hp
        obtain ⟨h1, h2⟩ := List.mem_filter.1 hp
        have h3 := hZ p h1
        cases p with
        | srv a =>
          simp at h2 h3
          exact absurd h3 h2
        | link a b =>
          have h3 : a = i := by simpa using h3
          exact ⟨b, by rw [h3]⟩
      generalize (l.filter fun b => !decide (b = .srv i)) = r at hnd hlk
      obtain ⟨bs, rfl⟩ : ∃ bs : List NodeId, r = bs.map (Place.link i) := by
        clear hnd
        induction r with
        | nil => exact ⟨[], rfl⟩
        | cons p r ih =>
          obtain ⟨b, rfl⟩ := hlk p (by simp)
          obtain ⟨bs, rfl⟩ := ih fun q hq => hlk q (by simp [hq])
          exact ⟨b :: bs, rfl⟩
      have hb : bs.Nodup := by
        rw [List.Nodup, List.pairwise_map] at hnd
        exact hnd.imp fun h he => h (by rw [he])
      have hsum := sum_filter_dst (P := G.mark) op.sp.outgoing hb
      have heq : ∀ bs : List NodeId, total (Cluster.held (afterTake c i op) (drained G i (fwds G.mark op.sp.outgoing))) (bs.map (Place.link i)) =
          total (c.held G) (bs.map (Place.link i)) + total (fun b => fwds G.mark (op.sp.outgoing.filter fun m => decide (m.dst = b))) bs := by
        intro bs
        induction bs with
        | nil => rfl
        | cons b bs ih =>
          rw [List.map_cons, total_cons, total_cons, total_cons, ih]
          simp only [Cluster.held, Cluster.pre, afterTake, if_true]
          have := fwds_take (P := G.mark) (c.net i b) op b
          have hm : (drained G i (fwds G.mark op.sp.outgoing)).mark = G.mark := rfl
          rw [hm, this]
          omega
      rw [heq, total_cons]
      simp only [Cluster.held, drained, if_true]
      omega

theorem rearrange_within (h : c.Within G A) {ks : List Nat} (hk : c.ForwardsOnce (.rearrange i j ks)) :
    (c.setNet i j (ks.filterMap fun k => (c.net i j)[k]?)).Within G A := by
  refine within_le h fun a b => ?_
  simp only [Cluster.pre, Cluster.setNet]
  split
  · rename_i hab
    obtain ⟨rfl, rfl⟩ := hab
    have key : ∀ l : List (Message E S), fwds G.mark (paxOf l) = (l.map fun m => match m with
        | .paxos p => p.msg.fwd G.mark
        | .ble _ => 0).sum := by
      intro l
      induction l with
      | nil => rfl
      | cons m l ih =>
        cases m with
        | paxos p =>
          simp only [paxOf, List.filterMap_cons, List.map_cons, List.sum_cons] at ih ⊢
          rw [← ih]
          rfl
        | ble p =>
          simp only [paxOf, List.filterMap_cons, List.map_cons, List.sum_cons, Nat.zero_add] at ih ⊢
          exact ih
    rw [key, key]
    refine sum_positions _ _ (List.Pairwise.imp ?_ hk)
    intro k k' hkk he m hm
    cases m with
    | ble p => rfl
    | paxos p =>
      have := fun es => hkk he p es hm
      show p.msg.fwd G.mark = 0
      cases hx : p.msg <;> first | rfl | exact absurd hx (this _)
  · exact Nat.le_refl _

/-- Every action that does not duplicate forwarded proposals keeps the count; an `append` may raise it. -/
theorem step_within [SnapOps E S] (hR : RInv cc c G rel) (h : c.Within G A) {a : Action E S} (ht : c.Tidy a rel) (ho : c.ForwardsOnce a)
    (hs : c.step cc a = some c') :
    ∃ G', Mono G G' ∧ G'.mark = G.mark ∧ RInv cc c' G' rel ∧ c'.Within G' (A + a.appends G.mark) := by
  have same : ∀ a b, fwds G.mark (c.pre a b) ≤ fwds G.mark (c.pre a b) := fun _ _ => Nat.le_refl _
  have hcnt : ∀ (e : E), G.count [e] = if G.mark e then 1 else 0 := by
    intro e
    simp [Ghost.count, List.countP_cons]
  cases a with
  | start i cfg =>
    simp only [Cluster.step] at hs
    split at hs
    · simp at hs
    · rename_i d hd
      split at hs
      · rename_i hp
        split at hs
        · rename_i op hop
          simp at hs; subst hs
          subst hp
          exact ⟨G, Mono.refl _, rfl, hR.start hd hop, within_le h same⟩
        · simp at hs
      · simp at hs
  | crash i =>
    simp only [Cluster.step] at hs
    split at hs
    · rename_i op hop
      simp at hs; subst hs
      exact ⟨G, Mono.refl _, rfl, hR.crash hop, within_le h same⟩
    · simp at hs
  | call i cl =>
    simp only [Cluster.step] at hs
    split at hs
    · rename_i op hop
      split at hs
      · simp at hs
      · rename_i hc
        simp at hs; subst hs
        obtain ⟨G', h1, h2, h3⟩ := (hR.call_tok hop (by simpa using hc) (k := (Action.call i cl).appends G.mark) (by
          rintro e rfl; exact Nat.le_of_eq (hcnt e))).1
        exact ⟨G', h1, h3.mark, h2, spent_one h h3 same⟩
    · simp at hs
  | crashCall i cl k =>
    simp only [Cluster.step] at hs
    split at hs
    · rename_i op hop
      split at hs
      · simp at hs
      · rename_i hc
        split at hs
        · rename_i d hd
          simp at hs; subst hs
          obtain ⟨G', h1, h2, h3⟩ := (hR.call_tok hop (by simpa using hc) (k := (Action.crashCall i cl k).appends G.mark) (by
            rintro e rfl; exact Nat.le_of_eq (hcnt e))).2.1 d (List.mem_of_getElem? hd)
          exact ⟨G', h1, h3.mark, h2, spent_one h h3 same⟩
        · simp at hs
    · simp at hs
  | take i =>
    simp only [Cluster.step] at hs
    split at hs
    · rename_i op hop
      simp at hs; subst hs
      exact hR.take_within h hop
    · simp at hs
  | deliver i j =>
    simp only [Cluster.step] at hs
    split at hs
    · simp at hs
    · rename_i m rest hn
      have hpre : fwds G.mark ((c.setNet i j rest).pre i j) + fwds G.mark (paxOf [m]) ≤ fwds G.mark (c.pre i j) := by
        simp only [Cluster.pre, Cluster.setNet, and_self, if_true, hn]
        rw [show m :: rest = [m] ++ rest from rfl]
        simp only [paxOf, List.filterMap_append, fwds_append]
        omega
      have hoth : ∀ a b, ¬ (a = i ∧ b = j) → (c.setNet i j rest).pre a b = c.pre a b := by
        intro a b hab
        simp [Cluster.pre, Cluster.setNet, hab]
      split at hs
      · rename_i hd
        simp at hs; subst hs
        refine ⟨G, Mono.refl _, rfl, hR.waste hn hd, within_le h fun a b => ?_⟩
        · by_cases hab : a = i ∧ b = j
          · rw [hab.1, hab.2]; omega
          · rw [hoth a b hab]; exact Nat.le_refl _
      · rename_i op hop
        simp at hs; subst hs
        obtain ⟨G', h1, h2, h3⟩ := (hR.deliver_tok (k0 := fwds G.mark (paxOf [m])) hn hop
          (fun hr p pr hp hpr => by subst hp; exact ht hr p rest pr op hn hpr hop)
          (by rintro p es rfl hp; simp [paxOf, fwds, PaxosMsg.fwd, hp, Ghost.count])).1
        exact ⟨G', h1, h3.mark, h2, spent_link h h3 hpre hoth⟩
  | crashDeliver i j k =>
    simp only [Cluster.step] at hs
    split at hs
    · simp at hs
    · rename_i m rest hn
      have hpre : fwds G.mark ((c.setNet i j rest).pre i j) + fwds G.mark (paxOf [m]) ≤ fwds G.mark (c.pre i j) := by
        simp only [Cluster.pre, Cluster.setNet, and_self, if_true, hn]
        rw [show m :: rest = [m] ++ rest from rfl]
        simp only [paxOf, List.filterMap_append, fwds_append]
        omega
      have hoth : ∀ a b, ¬ (a = i ∧ b = j) → (c.setNet i j rest).pre a b = c.pre a b := by
        intro a b hab
        simp [Cluster.pre, Cluster.setNet, hab]
      split at hs
      · simp at hs
      · rename_i op hop
        split at hs
        · rename_i d hd
          simp at hs; subst hs
          obtain ⟨G', h1, h2, h3⟩ := (hR.deliver_tok (k0 := fwds G.mark (paxOf [m])) hn hop
            (fun hr p pr hp hpr => by subst hp; exact ht hr p rest pr op hn hpr hop)
            (by rintro p es rfl hp; simp [paxOf, fwds, PaxosMsg.fwd, hp, Ghost.count])).2.1 d (List.mem_of_getElem? hd)
          exact ⟨G', h1, h3.mark, h2, spent_link h h3 hpre hoth⟩
        · simp at hs
  | lose i j k =>
    simp only [Cluster.step] at hs
    split at hs
    · rename_i hk
      simp at hs; subst hs
      have hsub : ∀ a b, ((c.setNet i j ((c.net i j).eraseIdx k)).net a b).Sublist (c.net a b) := by
        intro a b
        simp only [Cluster.setNet]
        split
        · rename_i hx; rw [hx.1, hx.2]; exact List.eraseIdx_sublist _ _
        · exact List.Sublist.refl _
      refine ⟨G, Mono.refl _, rfl, hR.lose hk ht, within_le h fun a b => ?_⟩
      have h1 : ∀ {l l' : List (PaxosMessage E S)}, l.Sublist l' → fwds G.mark l ≤ fwds G.mark l' := by
        intro l l' hl
        induction hl with
        | slnil => exact Nat.le_refl _
        | cons m _ ih => simp only [fwds, List.map_cons, List.sum_cons] at *; omega
        | cons_cons m _ ih => simp only [fwds, List.map_cons, List.sum_cons] at *; omega
      exact h1 ((hsub a b).filterMap _)
    · simp at hs
  | rearrange i j ks =>
    simp only [Cluster.step] at hs
    cases hs
    exact ⟨G, Mono.refl _, rfl, hR.rearrange ht, rearrange_within h ho⟩

/-- The count at the end of a run; `G1` belongs to any earlier moment. -/
theorem run_within [SnapOps E S] (hR : RInv cc c G rel) (h : c.Within G A) {as : List (Action E S)} (ht : c.TidyRun cc as rel)
    (ho : c.ForwardsOnceRun cc as) (hs : c.run cc as = some c') :
    ∃ G', Mono G G' ∧ G'.mark = G.mark ∧ RInv cc c' G' rel ∧ c'.Within G' (A + appendsOf G.mark as) ∧
      ∀ bs cs c1, as = bs ++ cs → c.run cc bs = some c1 → ∃ G1, Mono G1 G' ∧ RInv cc c1 G1 rel := by
  induction as generalizing c G A with
  | nil =>
    simp only [Cluster.run, Option.some.injEq] at hs
    subst hs
    refine ⟨G, Mono.refl _, rfl, hR, h, fun bs cs c1 he hr => ?_⟩
    obtain ⟨rfl, -⟩ := List.append_eq_nil_iff.1 he.symm
    simp only [Cluster.run, Option.some.injEq] at hr
    subst hr
    exact ⟨G, Mono.refl _, hR⟩
  | cons a as ih =>
    simp only [Cluster.run] at hs
    split at hs
    · simp at hs
    · rename_i c2 h2
      obtain ⟨G2, hm2, hk2, hR2, hW2⟩ := hR.step_within h ht.1 ho.1 h2
      obtain ⟨G', hm, hk, hR', hW, hpre⟩ := ih hR2 hW2 (ht.2 c2 h2) (ho.2 c2 h2) hs
      refine ⟨G', hm2.trans hm, hk.trans hk2, hR', ?_, fun bs cs c1 he hr => ?_⟩
      · rw [hk2] at hW
        have : A + appendsOf G.mark (a :: as) = A + a.appends G.mark + appendsOf G.mark as := by
          simp only [appendsOf, List.map_cons, List.sum_cons]
          omega
        rw [this]
        exact hW
      · cases bs with
        | nil =>
          simp only [Cluster.run, Option.some.injEq] at hr
          subst hr
          exact ⟨G, hm2.trans hm, hR⟩
        | cons b bs =>
          simp only [List.cons_append, List.cons.injEq] at he
          obtain ⟨rfl, he⟩ := he
          simp only [Cluster.run, h2] at hr
          exact hpre bs cs c1 he hr

theorem within_init (P : E → Bool) : (Cluster.init : Cluster E S).Within (G0 P) 0 := by
  intro l hl
  clear hl
  show total _ l + 0 ≤ 0
  rw [Nat.add_zero]
  refine Nat.le_trans (total_le (v' := fun _ => 0) fun p _ => ?_) ?_
  · cases p with
    | srv i => exact Nat.le_refl _
    | link a b => simp [Cluster.held, Cluster.pre, Cluster.init, paxOf, fwds]
  · induction l with
    | nil => exact Nat.le_refl _
    | cons a l ih => simpa [total_cons] using ih

theorem Within.used (h : c.Within G A) : G.used ≤ A := by
  have := h [] List.nodup_nil
  simpa [total] using this

end RInv

/-- Distinct positions that hold counted entries. -/
theorem positions_le (P : E → Bool) (l : List E) {ps : List Nat} (hn : ps.Nodup) (hp : ∀ p ∈ ps, ∃ e, l[p]? = some e ∧ P e = true) :
    ps.length ≤ l.countP P := by
  have h1 := sum_positions (fun e => if P e then 1 else 0) l (ks := ps) (hn.imp fun h h' => absurd h' h)
  have h2 : ∀ l : List E, (l.map fun e => if P e then 1 else 0).sum = l.countP P := by
    intro l
    induction l with
    | nil => rfl
    | cons a l ih => rw [List.map_cons, List.sum_cons, ih, List.countP_cons]; omega
  have h3 : ((ps.filterMap fun k => l[k]?).map fun e => if P e then 1 else 0).sum = ps.length := by
    clear h1 hn
    induction ps with
    | nil => rfl
    | cons p ps ih =>
      obtain ⟨e, h4, h5⟩ := hp p (by simp)
      rw [List.filterMap_cons, h4]
      simp only [List.map_cons, List.sum_cons, h5, if_true, List.length_cons]
      rw [ih fun q hq => hp q (by simp [hq])]
      omega
  rw [h3, h2] at h1
  exact h1

/-- One chosen log has all decided positions. -/
theorem Abs.common {cc : ClusterConfig} {G : Ghost E} (hv : cc.validate = .ok ()) (hA : Abs cc G) {P : E → Bool} {ps : List Nat}
    (hp : ∀ p ∈ ps, ∃ b l e, G.Chosen cc b l ∧ l.es[p]? = some e ∧ P e = true) (hne : ps ≠ []) :
    ∃ b l, G.Chosen cc b l ∧ ∀ p ∈ ps, ∃ e, l.es[p]? = some e ∧ P e = true := by
  induction ps with
  | nil => exact absurd rfl hne
  | cons p ps ih =>
    obtain ⟨b, l, e, h1, h2, h3⟩ := hp p (by simp)
    by_cases hps : ps = []
    · subst hps
      exact ⟨b, l, h1, by simpa using ⟨e, h2, h3⟩⟩
    · obtain ⟨b', l', h1', h2'⟩ := ih (fun q hq => hp q (by simp [hq])) hps
      rcases hA.chosen_comparable hv h1 h1' with hl | hl
      · refine ⟨b', l', h1', fun q hq => ?_⟩
        rcases List.mem_cons.1 hq with rfl | hq
        · exact ⟨e, Lg.get_le hl h2, h3⟩
        · exact h2' q hq
      · refine ⟨b, l, h1, fun q hq => ?_⟩
        rcases List.mem_cons.1 hq with rfl | hq
        · exact ⟨e, h2, h3⟩
        · obtain ⟨f, h4, h5⟩ := h2' q hq
          exact ⟨f, Lg.get_le hl h4, h5⟩

end Omni
