import Verif.Model.Cluster
/-
Restriction on the executions the agreement theorems speak about. It is needed: without it agreement is false (findings F1, F2).
-/
namespace Omni

variable {E S : Type}

/-- The positions `ks` of the link take every AcceptSync at most once, and those of one ballot in the order of the link. -/
def Cluster.SyncsInOrder (c : Cluster E S) (i j : NodeId) (ks : List Nat) : Prop :=
  ks.Pairwise fun k k' => ∀ m m' a a', (c.net i j)[k]? = some (.paxos m) → (c.net i j)[k']? = some (.paxos m') →
    m.msg = .acceptSync a → m'.msg = .acceptSync a' → a.n = a'.n → k < k'

/-- Which links are dependable: `rel i j = true` for the link from `i` to `j`. -/
abbrev Links := NodeId → NodeId → Bool

/-- None, or all of them. -/
def Links.none : Links := fun _ _ => false
def Links.all : Links := fun _ _ => true

/-- A Prepare or an AcceptSync. -/
def Message.isPhase : Message E S → Bool
  | .paxos m => match m.msg with
    | .prepare _ => true
    | .acceptSync _ => true
    | _ => false
  | .ble _ => false

/-- Server `j` waits for an AcceptSync of ballot `n`, or a Prepare of that ballot is among the first `k` messages of the link from `i`. -/
def Cluster.Awaited (c : Cluster E S) (i j : NodeId) (n : Ballot) (k : Nat) : Prop :=
  (∃ op, c.servers j = .up op ∧ op.sp.phase = .prepare ∧ op.sp.ist.cache.promise = n) ∨
  ∃ k' m p, k' < k ∧ (c.net i j)[k']? = some (.paxos m) ∧ m.msg = .prepare p ∧ p.n = n

/-- The network does not duplicate AcceptSyncs, nor reorder two of one ballot on the same link. All other messages may be
duplicated and reordered, also with respect to AcceptSyncs.
A dependable link (`rel`) keeps its Prepares and AcceptSyncs in order, does not duplicate them, and does not lose an AcceptSync its
receiver waits for. (A connection that breaks is a call of `reconnected` at the receiver, after which the receiver does not wait, followed by the
loss of what is on the link.)
When a Promise reaches a server whose link to the sender is not dependable, no AcceptDecide of the promised ballot to the sender of the
Promise waits in that server for `take_outgoing_messages`. -/
def Cluster.Tidy (c : Cluster E S) (a : Action E S) (rel : Links := Links.none) : Prop :=
  match a with
  | .deliver i j | .crashDeliver i j _ => rel j i = false → ∀ m rest p op, c.net i j = .paxos m :: rest → m.msg = .promise p →
      c.servers j = .up op → ∀ x ∈ op.sp.outgoing, x.dst = m.src → ∀ a, x.msg = .acceptDecide a → a.n ≠ p.n
  | .lose i j k => rel i j = true → ∀ m a, (c.net i j)[k]? = some (.paxos m) → m.msg = .acceptSync a → ¬ c.Awaited i j a.n k
  | .rearrange i j ks => c.SyncsInOrder i j ks ∧
      (rel i j = true → (ks.filterMap fun k => (c.net i j)[k]?).filter Message.isPhase = (c.net i j).filter Message.isPhase)
  | _ => True

/-- Every action of the run is tidy. -/
def Cluster.TidyRun [SnapOps E S] (cc : ClusterConfig) (c : Cluster E S) (as : List (Action E S)) (rel : Links := Links.none) : Prop :=
  match as with
  | [] => True
  | a :: as => c.Tidy a rel ∧ ∀ c', c.step cc a = some c' → c'.TidyRun cc as rel

/-- A simple discipline that makes a run tidy: messages are taken from a server before it is given a new message, and
AcceptSyncs stay in order. -/
def Cluster.Drained (c : Cluster E S) : Action E S → Prop
  | .deliver _ j | .crashDeliver _ j _ => ∀ op, c.servers j = .up op → op.sp.outgoing = []
  | .rearrange i j ks => c.SyncsInOrder i j ks
  | _ => True

def Cluster.DrainedRun [SnapOps E S] (cc : ClusterConfig) (c : Cluster E S) : List (Action E S) → Prop
  | [] => True
  | a :: as => c.Drained a ∧ ∀ c', c.step cc a = some c' → c'.DrainedRun cc as

theorem Cluster.Drained.tidy {c : Cluster E S} {a : Action E S} (h : c.Drained a) : c.Tidy a := by
  cases a with
  | rearrange i j ks => exact ⟨h, nofun⟩
  | lose i j k => exact nofun
  | deliver i j =>
    intro _ m rest p op _ _ hs x hx
    rw [h op hs] at hx
    cases hx
  | crashDeliver i j k =>
    intro _ m rest p op _ _ hs x hx
    rw [h op hs] at hx
    cases hx
  | _ => trivial

theorem Cluster.DrainedRun.tidy [SnapOps E S] {cc : ClusterConfig} {c : Cluster E S} {as : List (Action E S)}
    (h : c.DrainedRun cc as) : c.TidyRun cc as := by
  induction as generalizing c with
  | nil => trivial
  | cons a as ih => exact ⟨h.1.tidy, fun c' hc => ih (h.2 c' hc)⟩

/-- `c` is reached from the initial state by a tidy run. -/
def Cluster.Reachable [SnapOps E S] (cc : ClusterConfig) (c : Cluster E S) (rel : Links := Links.none) : Prop :=
  ∃ as, Cluster.init.TidyRun cc as rel ∧ Cluster.init.run cc as = some c

/-- `c'` is reached from `c` by a tidy run. -/
def Cluster.Later [SnapOps E S] (cc : ClusterConfig) (c c' : Cluster E S) (rel : Links := Links.none) : Prop :=
  ∃ as, c.TidyRun cc as rel ∧ c.run cc as = some c'

/-- `c` and `c'` are two moments (in either order) of one tidy run. -/
def Cluster.SameRun [SnapOps E S] (cc : ClusterConfig) (c c' : Cluster E S) (rel : Links := Links.none) : Prop :=
  (c.Reachable cc rel ∧ c.Later cc c' rel) ∨ (c'.Reachable cc rel ∧ c'.Later cc c rel)

/-- The links keep messages in order and do not duplicate them. -/
def Action.InOrder : Action E S → Bool
  | .rearrange _ _ _ => false
  | _ => true

/-- `c` is reached from the initial state by a run, tidy or not, in which links neither duplicate nor reorder messages. -/
def Cluster.AnyReach [SnapOps E S] (cc : ClusterConfig) (c : Cluster E S) : Prop :=
  ∃ as, as.all Action.InOrder = true ∧ Cluster.init.run cc as = some c

/-- `c'` is reached from `c` by such a run. -/
def Cluster.AnyLater [SnapOps E S] (cc : ClusterConfig) (c c' : Cluster E S) : Prop :=
  ∃ as, as.all Action.InOrder = true ∧ c.run cc as = some c'

/-- Executable check of `SyncsInOrder`. -/
def Cluster.syncsB (c : Cluster E S) (i j : NodeId) (ks : List Nat) : Bool :=
  decide (ks.Pairwise fun (k k' : Nat) => (match (c.net i j)[k]?, (c.net i j)[k']? with
    | some (.paxos m), some (.paxos m') => match m.msg, m'.msg with
      | .acceptSync a, .acceptSync a' => decide (a.n = a'.n → k < k')
      | _, _ => true
    | _, _ => true) = true)

theorem Cluster.syncsB_sound {c : Cluster E S} {i j : NodeId} {ks : List Nat} (h : c.syncsB i j ks = true) :
    c.SyncsInOrder i j ks := by
  refine (of_decide_eq_true h).imp fun hk m m' a a' h1 h2 h3 h4 h5 => ?_
  simp only [h1, h2, h3, h4, decide_eq_true_eq] at hk
  exact hk h5

/-- Executable check of `DrainedRun`, for concrete runs. -/
def Cluster.drainedB [SnapOps E S] (cc : ClusterConfig) (c : Cluster E S) : List (Action E S) → Bool
  | [] => true
  | a :: as =>
    (match a with
      | .deliver _ j | .crashDeliver _ j _ => match c.servers j with
        | .up op => op.sp.outgoing.isEmpty
        | .down _ => true
      | .rearrange i j ks => c.syncsB i j ks
      | _ => true) &&
    match c.step cc a with
    | none => true
    | some c' => c'.drainedB cc as

theorem Cluster.drainedB_sound [SnapOps E S] {cc : ClusterConfig} {c : Cluster E S} {as : List (Action E S)}
    (h : c.drainedB cc as = true) : c.DrainedRun cc as := by
  induction as generalizing c with
  | nil => trivial
  | cons a as ih =>
    simp only [Cluster.drainedB, Bool.and_eq_true] at h
    refine ⟨?_, fun c' hc => ?_⟩
    · cases a with
      | rearrange i j ks => exact Cluster.syncsB_sound h.1
      | deliver i j =>
        intro op hop
        have := h.1
        simp only [hop, List.isEmpty_iff] at this
        exact this
      | crashDeliver i j k =>
        intro op hop
        have := h.1
        simp only [hop, List.isEmpty_iff] at this
        exact this
      | _ => trivial
    · have := h.2
      rw [hc] at this
      exact ih this

theorem Cluster.Later.refl [SnapOps E S] (cc : ClusterConfig) (c : Cluster E S) {rel : Links} : c.Later cc c rel := ⟨[], trivial, rfl⟩

/-- Executable check that a run is tidy with all links dependable, for concrete runs (without `rearrange`). -/
def Cluster.linksB [SnapOps E S] (cc : ClusterConfig) (c : Cluster E S) : List (Action E S) → Bool
  | [] => true
  | a :: as =>
    (match a with
      | .lose i j k => match (c.net i j)[k]? with
        | some (.paxos m) => match m.msg with
          | .acceptSync a => (match c.servers j with
              | .up op => !(decide (op.sp.phase = .prepare) && decide (op.sp.ist.cache.promise = a.n))
              | .down _ => true) &&
            ((c.net i j).take k).all fun x => match x with
              | .paxos x => match x.msg with
                | .prepare p => decide (p.n ≠ a.n)
                | _ => true
              | .ble _ => true
          | _ => true
        | _ => true
      | .rearrange _ _ _ => false
      | _ => true) &&
    match c.step cc a with
    | none => true
    | some c' => c'.linksB cc as

theorem Cluster.linksB_sound [SnapOps E S] {cc : ClusterConfig} {c : Cluster E S} {as : List (Action E S)}
    (h : c.linksB cc as = true) : c.TidyRun cc as Links.all := by
  induction as generalizing c with
  | nil => trivial
  | cons a as ih =>
    simp only [Cluster.linksB, Bool.and_eq_true] at h
    refine ⟨?_, fun c' hc => ?_⟩
    · cases a with
      | rearrange i j ks => cases h.1
      | deliver i j => exact nofun
      | crashDeliver i j k => exact nofun
      | lose i j k =>
        intro _ m a hm ha hw
        have h1 := h.1
        simp only [hm, ha, Bool.and_eq_true] at h1
        rcases hw with ⟨op, hop, e1, e2⟩ | ⟨k', x, p, hk, hx, hp, e⟩
        · have := h1.1
          simp [hop, e1, e2] at this
        · have := List.all_eq_true.1 h1.2 (.paxos x) (List.mem_of_getElem? (i := k') (by rw [List.getElem?_take_of_lt hk]; exact hx))
          simp [hp, e] at this
      | _ => trivial
    · have := h.2
      rw [hc] at this
      exact ih this

end Omni
