import Verif.Spec.Steady
import Verif.Proof.Sat
/-
Steady operation: what the messages on the way from the leader to a follower, and back, will amount to.
-/
namespace Omni

variable {E S : Type}

/-- The next sequence number. -/
def SeqNum.next (q : SeqNum) : SeqNum := { q with counter := q.counter + 1 }

theorem SeqNum.next_expected (q : SeqNum) : q.check_msg_status q.next = .expected := by
  simp [SeqNum.check_msg_status, SeqNum.next]

/-- A follower as the leader's messages see it: sequence number, entries beyond the first `k` (batched ones included),
decided index. -/
structure Fed (E : Type) where
  q : SeqNum
  Y : List E
  d : Nat

/-- The effect of the next message; `none` if it is not the one that is expected. -/
def Fed.step (n : Ballot) (k : Nat) (σ : Fed E) : PaxosMsg E S → Option (Fed E)
  | .acceptDecide a =>
    if a.n = n ∧ a.seq_num = σ.q.next ∧ a.decided_idx ≤ k + σ.Y.length + a.entries.length then
      some ⟨a.seq_num, σ.Y ++ a.entries, max σ.d a.decided_idx⟩
    else none
  | .decide a =>
    if a.n = n ∧ a.seq_num = σ.q.next ∧ a.decided_idx ≤ k + σ.Y.length then some ⟨a.seq_num, σ.Y, max σ.d a.decided_idx⟩
    else none
  | _ => none

/-- The effect of all messages on the way. -/
def Fed.all (n : Ballot) (k : Nat) : Fed E → List (PaxosMsg E S) → Option (Fed E)
  | σ, [] => some σ
  | σ, m :: ms => match σ.step n k m with
    | some τ => τ.all n k ms
    | none => none

variable {n : Ballot} {k : Nat}

theorem Fed.all_append (σ : Fed E) (xs ys : List (PaxosMsg E S)) :
    σ.all n k (xs ++ ys) = match σ.all n k xs with
      | some τ => τ.all n k ys
      | none => none := by
  induction xs generalizing σ with
  | nil => rfl
  | cons m ms ih =>
    simp only [List.cons_append, Fed.all]
    cases σ.step n k m with
    | none => rfl
    | some τ => exact ih τ

theorem Fed.all_snoc {σ τ : Fed E} {xs : List (PaxosMsg E S)} {m : PaxosMsg E S} :
    σ.all n k (xs ++ [m]) = some τ ↔ ∃ ρ, σ.all n k xs = some ρ ∧ ρ.step n k m = some τ := by
  rw [Fed.all_append]
  cases h : σ.all n k xs with
  | none => simp
  | some ρ =>
    simp only [Fed.all]
    cases h2 : ρ.step n k m <;> simp [h2]

/-- What the leader does to the messages for one follower when it sends it entries `es` (if `w`) and its decided index `d`; `q` and
`q'` are the last sequence numbers used. -/
inductive Sent (n : Ballot) (w : Bool) (q : SeqNum) (ms : List (PaxosMsg E S)) (es : List E) (d : Nat) : SeqNum → List (PaxosMsg E S) → Prop
  | acc : w = true → Sent n w q ms es d q.next (ms ++ [.acceptDecide { n, seq_num := q.next, decided_idx := d, entries := es }])
  | dec : w = false → es = [] → Sent n w q ms es d q.next (ms ++ [.decide { n, seq_num := q.next, decided_idx := d }])
  | upd (ms0 : List (PaxosMsg E S)) (a : AcceptDecide E) : ms = ms0 ++ [.acceptDecide a] →
      Sent n w q ms es d q (ms0 ++ [.acceptDecide { a with entries := a.entries ++ es, decided_idx := d }])

theorem Sent.feed {w : Bool} {q q' : SeqNum} {pre ms ms' : List (PaxosMsg E S)} {es Y : List E} {d0 d : Nat} {σ : Fed E}
    (h : Sent n w q ms es d q' ms') (hs : σ.all n k (pre ++ ms) = some ⟨q, Y, d0⟩) (hd : d0 ≤ d)
    (hk : d ≤ k + Y.length + es.length) : σ.all n k (pre ++ ms') = some ⟨q', Y ++ es, d⟩ := by
  have hm : max d0 d = d := by omega
  cases h with
  | acc _ =>
    rw [← List.append_assoc, Fed.all_snoc]
    exact ⟨_, hs, by simp [Fed.step, hk, hm]⟩
  | dec _ he =>
    subst he
    rw [← List.append_assoc, Fed.all_snoc]
    exact ⟨_, hs, by simp at hk; simp [Fed.step, hk, hm]⟩
  | upd ms0 a e =>
    subst e
    rw [← List.append_assoc, Fed.all_snoc] at hs ⊢
    obtain ⟨ρ, h1, h2⟩ := hs
    refine ⟨ρ, h1, ?_⟩
    simp only [Fed.step] at h2 ⊢
    split at h2
    · rename_i hc
      simp only [Option.some.injEq, Fed.mk.injEq] at h2
      obtain ⟨rfl, rfl, rfl⟩ := h2
      rw [if_pos ⟨hc.1, hc.2.1, by simp at hk ⊢; omega⟩]
      simp only [Option.some.injEq, Fed.mk.injEq, List.append_assoc, true_and]
      omega
    · cases h2

def PaxosMsg.isAcceptDecide : PaxosMsg E S → Bool
  | .acceptDecide _ => true
  | _ => false

def PaxosMsg.isDecide : PaxosMsg E S → Bool
  | .decide _ => true
  | _ => false

def PaxosMsg.isForward : PaxosMsg E S → Bool
  | .proposalForward _ => true
  | _ => false

/-- The kinds of messages the leader sends. -/
theorem Sent.kinds {w : Bool} {q q' : SeqNum} {ms ms' : List (PaxosMsg E S)} {es : List E} {d : Nat} (h : Sent n w q ms es d q' ms') :
    ∀ m ∈ ms', m ∈ ms ∨ (m.isAcceptDecide ∧ (w = true ∨ ∃ m0 ∈ ms, m0.isAcceptDecide)) ∨ (m.isDecide ∧ w = false) := by
  intro m hm
  cases h with
  | acc hw =>
    rcases List.mem_append.1 hm with hm | hm
    · exact .inl hm
    · rw [List.mem_singleton.1 hm]; exact .inr (.inl ⟨rfl, .inl hw⟩)
  | dec hw _ =>
    rcases List.mem_append.1 hm with hm | hm
    · exact .inl hm
    · rw [List.mem_singleton.1 hm]; exact .inr (.inr ⟨rfl, hw⟩)
  | upd ms0 a e =>
    subst e
    rcases List.mem_append.1 hm with hm | hm
    · exact .inl (List.mem_append_left _ hm)
    · rw [List.mem_singleton.1 hm]; exact .inr (.inl ⟨rfl, .inr ⟨.acceptDecide a, by simp, rfl⟩⟩)

/-- The accepted index the leader will have recorded. -/
def lastAcc (a : Nat) : List (PaxosMsg E S) → Nat
  | [] => a
  | .accepted x :: ms => lastAcc x.accepted_idx ms
  | _ :: ms => lastAcc a ms

def PaxosMsg.isAccepted : PaxosMsg E S → Bool
  | .accepted _ => true
  | _ => false

/-- The entries of the forwarded proposals. -/
def PaxosMsg.forwards : PaxosMsg E S → List E
  | .proposalForward es => es
  | _ => []

theorem lastAcc_append (a : Nat) (xs ys : List (PaxosMsg E S)) : lastAcc a (xs ++ ys) = lastAcc (lastAcc a xs) ys := by
  induction xs generalizing a with
  | nil => rfl
  | cons m ms ih => cases m <;> simp only [List.cons_append, lastAcc, ih]

theorem lastAcc_none {a : Nat} {xs : List (PaxosMsg E S)} (h : ∀ m ∈ xs, m.isAccepted = false) : lastAcc a xs = a := by
  induction xs generalizing a with
  | nil => rfl
  | cons m ms ih =>
    have h1 := h m List.mem_cons_self
    have h2 := ih (a := a) fun x hx => h x (List.mem_cons_of_mem _ hx)
    cases m <;> simp only [lastAcc, h2] <;> simp [PaxosMsg.isAccepted] at h1

/-- What a follower does to its messages for the leader when its accepted index goes from `a` to `a'`. -/
inductive Replied (n : Ballot) (a : Nat) (ms : List (PaxosMsg E S)) : Nat → List (PaxosMsg E S) → Prop
  | same : Replied n a ms a ms
  | new (a' : Nat) : Replied n a ms a' (ms ++ [.accepted { n, accepted_idx := a' }])
  | upd (a' : Nat) (p r : List (PaxosMsg E S)) (x : Accepted) : ms = p ++ .accepted x :: r → (∀ m ∈ r, m.isAccepted = false) →
      Replied n a ms a' (p ++ .accepted { x with accepted_idx := a' } :: r)

theorem Replied.lastAcc {a a' v : Nat} {pre ms ms' : List (PaxosMsg E S)} (h : Replied n a ms a' ms')
    (hl : lastAcc v (pre ++ ms) = a) : Omni.lastAcc v (pre ++ ms') = a' := by
  cases h with
  | same => exact hl
  | new => rw [← List.append_assoc, lastAcc_append]; rfl
  | upd _ p r x e hr =>
    rw [lastAcc_append, lastAcc_append]
    simp only [Omni.lastAcc]
    exact lastAcc_none hr

theorem Replied.forwards {a a' : Nat} {ms ms' : List (PaxosMsg E S)} (h : Replied n a ms a' ms') :
    ms'.flatMap PaxosMsg.forwards = ms.flatMap PaxosMsg.forwards := by
  cases h with
  | same => rfl
  | new => simp [PaxosMsg.forwards]
  | upd _ p r x e hr => subst e; simp [PaxosMsg.forwards]

/-- The kinds of messages a follower sends. -/
theorem Replied.kinds {a a' : Nat} {ms ms' : List (PaxosMsg E S)} (h : Replied n a ms a' ms') : ∀ m ∈ ms', m ∈ ms ∨ m.isAccepted := by
  intro m hm
  cases h with
  | same => exact .inl hm
  | new =>
    rcases List.mem_append.1 hm with hm | hm
    · exact .inl hm
    · rw [List.mem_singleton.1 hm]; exact .inr rfl
  | upd _ p r x e hr =>
    subst e
    rcases List.mem_append.1 hm with hm | hm
    · exact .inl (List.mem_append_left _ hm)
    · rcases List.mem_cons.1 hm with rfl | hm
      · exact .inr rfl
      · exact .inl (List.mem_append_right _ (List.mem_cons_of_mem _ hm))

/-- A message of a follower that has accepted up to `a`. -/
def PaxosMsg.Reply (n : Ballot) (a : Nat) : PaxosMsg E S → Prop
  | .accepted x => x.n = n ∧ x.accepted_idx ≤ a
  | .proposalForward _ => True
  | _ => False

theorem PaxosMsg.Reply.mono {a a' : Nat} (h : a ≤ a') {m : PaxosMsg E S} (hm : m.Reply n a) : m.Reply n a' := by
  cases m <;> first | exact hm.elim | exact ⟨hm.1, Nat.le_trans hm.2 h⟩ | trivial

theorem Replied.reply {a a' : Nat} {ms ms' : List (PaxosMsg E S)} (h : Replied n a ms a' ms') (hk : a ≤ a')
    (hm : ∀ m ∈ ms, m.Reply n a) : ∀ m ∈ ms', m.Reply n a' := by
  have hm' : ∀ m ∈ ms, m.Reply n a' := fun m h => (hm m h).mono hk
  cases h with
  | same => exact hm'
  | new =>
    intro m h
    rcases List.mem_append.1 h with h | h
    · exact hm' m h
    · rw [List.mem_singleton.1 h]; exact ⟨rfl, Nat.le_refl _⟩
  | upd _ p r x e hr =>
    subst e
    intro m h
    rcases List.mem_append.1 h with h | h
    · exact hm' m (List.mem_append_left _ h)
    · rcases List.mem_cons.1 h with rfl | h
      · exact ⟨(hm (.accepted x) (by simp)).1, Nat.le_refl _⟩
      · exact hm' m (List.mem_append_right _ (List.mem_cons_of_mem _ h))

end Omni
