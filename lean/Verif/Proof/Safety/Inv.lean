import Verif.Proof.Safety.Step
import Verif.Proof.Life
/-
The invariant tying a server, its disk and its messages in flight to the history.
-/
namespace Omni

variable {E S : Type}

namespace Ghost

/-- Everybody has accepted a log covering `c` positions. -/
def TrimOK (cc : ClusterConfig) (G : Ghost E) (c : Nat) : Prop := c = 0 ∨ ∃ b l, G.AllAcc cc b l ∧ l.Covers c

/-- A log covering `d` positions is chosen in a ballot up to `n`. -/
def DecMsg (cc : ClusterConfig) (G : Ghost E) (n : Ballot) (d : Nat) : Prop :=
  d = 0 ∨ ∃ b l, b ≤ n ∧ G.Chosen cc b l ∧ l.Covers d

/-- ... and it is part of `lg`. -/
def DecOK (cc : ClusterConfig) (G : Ghost E) (n : Ballot) (lg : Lg E) (d : Nat) : Prop :=
  d = 0 ∨ ∃ b l, b ≤ n ∧ G.Chosen cc b l ∧ l.Covers d ∧ l ≤ lg

/-- What a promise for `n` by `src` says is true. -/
def PromFact (cc : ClusterConfig) (G : Ghost E) (src : NodeId) (n na : Ballot) (idx dec : Nat) : Prop :=
  (na = n ∧ ∃ a l, G.acc src n = some a ∧ l ≤ a ∧ l.IdxOK idx ∧ G.DecOK cc n l dec) ∨
  (∃ l, G.prec src n = some (na, l) ∧ l.IdxOK idx ∧ G.DecOK cc na l dec)

end Ghost

/-- A log synchronisation that brings a server with log `lgL` to `lg`. -/
def SyncOK (lgL lg : Lg E) (y : LogSync E S) : Prop :=
  y.suffix = lg.es.drop y.sync_idx ∧ y.stopsign = lg.ss ∧ lg.Covers y.sync_idx ∧
  (y.decided_snapshot ≠ none ∨ ∃ l : Lg E, l.Covers y.sync_idx ∧ l ≤ lgL ∧ l ≤ lg)

def SyncFact (naL : Ballot) (lgL : Lg E) (na : Ballot) (lg : Lg E) : Option (LogSync E S) → Prop
  | none => na < naL ∨ (na = naL ∧ lg ≤ lgL)
  | some y => SyncOK lgL lg y

def SeqNum.pred (q : SeqNum) : SeqNum := { q with counter := q.counter - 1 }

theorem SeqNum.pred_le (q : SeqNum) : q.pred ≤ q := .inr ⟨rfl, Nat.sub_le _ _⟩

/-- Ballot and number of an accept message. -/
def PaxosMsg.accOf : PaxosMsg E S → Option (Ballot × SeqNum)
  | .acceptSync a => some (a.n, a.seq_num)
  | .acceptDecide a => some (a.n, a.seq_num)
  | .decide d => some (d.n, d.seq_num)
  | .acceptStopSign a => some (a.n, a.seq_num)
  | _ => none

/-- Ballot and number of an AcceptSync. -/
def PaxosMsg.syncOf : PaxosMsg E S → Option (Ballot × SeqNum)
  | .acceptSync a => some (a.n, a.seq_num)
  | _ => none

theorem PaxosMsg.syncOf_acc {m : PaxosMsg E S} {x : Ballot × SeqNum} (h : m.syncOf = some x) : m.accOf = some x := by
  cases m <;> first | exact h | cases h

/-- Messages the leader may repeat with the same number. -/
def Soft (G : Ghost E) (m : PaxosMessage E S) : Prop :=
  match m.msg with
  | .decide d => (G.endf d.n m.dst d.seq_num).ss ≠ none
  | .acceptStopSign a => (G.endf a.n m.dst a.seq_num).ss ≠ none
  | _ => False

/-- How a message is tied to the history. -/
def MsgBody (cc : ClusterConfig) (G : Ghost E) (src dst : NodeId) : PaxosMsg E S → Prop
  | .prepare p => p.n.pid = src ∧ G.prec src p.n ≠ none ∧
      (G.acc src p.n = none → ∃ l, G.prec src p.n = some (p.n_accepted, l) ∧ l.IdxOK p.accepted_idx ∧
        G.DecOK cc p.n_accepted l p.decided_idx)
  | .promise p => p.n.pid ≠ src ∧ G.PromFact cc src p.n p.n_accepted p.accepted_idx p.decided_idx ∧
      (G.acc p.n.pid p.n = none → ∃ naL lgL lg, G.prec p.n.pid p.n = some (naL, lgL) ∧
        G.prec src p.n = some (p.n_accepted, lg) ∧ SyncFact naL lgL p.n_accepted lg p.log_sync)
  | .acceptSync a =>
      a.seq_num.counter = 1 ∧
      a.log_sync.suffix = (G.endf a.n dst a.seq_num).es.drop a.log_sync.sync_idx ∧
      a.log_sync.stopsign = (G.endf a.n dst a.seq_num).ss ∧
      (G.endf a.n dst a.seq_num).Covers a.log_sync.sync_idx ∧
      (∃ l0, G.init a.n = some l0 ∧ l0 ≤ G.endf a.n dst a.seq_num) ∧
      G.DecOK cc a.n (G.endf a.n dst a.seq_num) a.decided_idx ∧
      (a.log_sync.decided_snapshot ≠ none ∨ ∃ l, l.Covers a.log_sync.sync_idx ∧ l ≤ G.endf a.n dst a.seq_num ∧
        ((∃ na lgF l0, G.prec dst a.n = some (na, lgF) ∧ G.init a.n = some l0 ∧ l ≤ lgF ∧ l ≤ l0) ∨
         (∃ x, G.acc dst a.n = some x ∧ l ≤ x)))
  | .acceptDecide a => (G.endf a.n dst a.seq_num).es = (G.endf a.n dst a.seq_num.pred).es ++ a.entries ∧
      G.DecMsg cc a.n a.decided_idx
  | .decide d => (2 ≤ d.seq_num.counter → (G.endf d.n dst d.seq_num).es = (G.endf d.n dst d.seq_num.pred).es) ∧
      G.DecMsg cc d.n d.decided_idx
  | .acceptStopSign a => (G.endf a.n dst a.seq_num).ss = some a.ss ∧
      (2 ≤ a.seq_num.counter → (G.endf a.n dst a.seq_num).es = (G.endf a.n dst a.seq_num.pred).es)
  | .accepted a => ∃ x, G.acc src a.n = some x ∧ x.Covers a.accepted_idx
  | .compaction (.trim idx) => G.TrimOK cc idx
  | .notAccepted n => n = {} ∨ G.prec src n ≠ none
  | _ => True

/-- Not an accept message of a dead session, nor of a ballot its receiver has left. -/
def PaxosMessage.Live (G : Ghost E) (m : PaxosMessage E S) : Prop :=
  ∀ n q, m.msg.accOf = some (n, q) → ¬ G.dead n m.dst q.session ∧ ¬ G.Gone n m.dst

structure MsgOK (cc : ClusterConfig) (G : Ghost E) (m : PaxosMessage E S) : Prop where
  ne : m.src ≠ m.dst
  node : Node cc m.src
  body : m.Live G → MsgBody cc G m.src m.dst m.msg
  one : ∀ n q, m.msg.syncOf = some (n, q) → q.counter = 1
  lead : ∀ n q, m.msg.accOf = some (n, q) → n.pid = m.src ∧ G.acc m.src n ≠ none
  fresh : ∀ n q, m.msg.syncOf = some (n, q) → G.curg n m.dst < q

/-- Accept messages of one ballot to one follower are numbered in increasing order, apart from repetitions. -/
def Seqd (G : Ghost E) (m m' : PaxosMessage E S) : Prop :=
  ∀ n q q', m.msg.accOf = some (n, q) → m'.msg.accOf = some (n, q') → m.dst = m'.dst → q < q' ∨ (q = q' ∧ Soft G m')

/-- AcceptSyncs of one ballot to one follower are numbered in increasing order. -/
def Ordered (m m' : PaxosMessage E S) : Prop :=
  ∀ n q q', m.msg.syncOf = some (n, q) → m'.msg.syncOf = some (n, q') → m.dst = m'.dst → q < q'

/-- The messages `p` in flight, and `o` not yet handed out. In flight, only AcceptSyncs are in order. -/
structure LinkOK (cc : ClusterConfig) (G : Ghost E) (p o : List (PaxosMessage E S)) : Prop where
  msg : ∀ m ∈ p ++ o, MsgOK cc G m
  ord : p.Pairwise Ordered
  fresh : ∀ m ∈ o, ∀ n q, m.msg.accOf = some (n, q) → G.curg n m.dst < q ∨ Soft G m
  seq : o.Pairwise (Seqd G)
  cross : ∀ m ∈ p, ∀ m' ∈ o, Seqd G m m'

/-- What a disk holds. -/
structure DiskInv (cc : ClusterConfig) (i : NodeId) (G : Ghost E) (d : Mem E S) (lg : Lg E) : Prop where
  acc : G.acc i (d.acc_round.getD {}) = some lg
  log : d.log = lg.es.drop d.compacted_idx
  trim : d.trimmed_idx = d.compacted_idx
  ss : d.stopsign = lg.ss
  cov : lg.Covers d.compacted_idx
  dec : G.DecOK cc (d.acc_round.getD {}) lg d.ld
  snap : d.snapshot = none → G.TrimOK cc d.compacted_idx
  le : d.acc_round.getD {} ≤ d.prom
  good : GoodB cc d.prom
  accMax : ∀ b, G.acc i b ≠ none → b ≤ d.acc_round.getD {}
  precMax : ∀ b, G.prec i b ≠ none → b ≤ d.prom
  precCur : d.prom ≠ d.acc_round.getD {} → G.prec i d.prom = some (d.acc_round.getD {}, lg)

/-- Counted entries that a message forwards. -/
def PaxosMsg.fwd (P : E → Bool) : PaxosMsg E S → Nat
  | .proposalForward es => es.countP P
  | _ => 0

theorem PaxosMsg.fwd_acc {P : E → Bool} {m : PaxosMsg E S} {x : Ballot × SeqNum} (h : m.accOf = some x) : m.fwd P = 0 := by
  cases m <;> first | rfl | cases h

def fwds (P : E → Bool) (ms : List (PaxosMessage E S)) : Nat := (ms.map fun m => m.msg.fwd P).sum

theorem fwds_nil (P : E → Bool) : fwds P ([] : List (PaxosMessage E S)) = 0 := rfl

theorem fwds_append (P : E → Bool) (a b : List (PaxosMessage E S)) : fwds P (a ++ b) = fwds P a + fwds P b := by
  simp [fwds]

theorem fwds_zero {P : E → Bool} {ms : List (PaxosMessage E S)} (h : ∀ m ∈ ms, m.msg.fwd P = 0) : fwds P ms = 0 := by
  induction ms with
  | nil => rfl
  | cons m ms ih =>
    simp only [fwds, List.map_cons, List.sum_cons]
    rw [h m (by simp)]
    have := ih fun x hx => h x (by simp [hx])
    simpa [fwds] using this

theorem fwds_modify {P : E → Bool} {ms : List (PaxosMessage E S)} {k : Nat} {msg : PaxosMsg E S} (h : msg.fwd P = 0) :
    fwds P (ms.modify k fun m => { m with msg }) ≤ fwds P ms := by
  induction ms generalizing k with
  | nil => simp
  | cons m ms ih =>
    cases k with
    | zero => simp [fwds, h]
    | succ k => have := ih (k := k); simp [fwds] at *; omega

/-- Counted entries of a server's own batch. -/
def SP.own (P : E → Bool) (s : SP E S) : Nat := if s.role = .leader then s.ist.cache.batched_entries.countP P else 0

/-- Counted entries that a server still has in hand: buffered, batched as leader, or about to be forwarded. -/
def SP.tok (P : E → Bool) (s : SP E S) : Nat := s.buffered_proposals.countP P + s.own P + fwds P s.outgoing

theorem SP.own_follower {P : E → Bool} {s : SP E S} (h : s.role = .follower) : s.own P = 0 := by simp [SP.own, h]

/-- Becoming a follower, or staying one, leaves no more in hand. -/
theorem SP.tok_follower {P : E → Bool} {s s' : SP E S} (h : s'.role = .follower) (hb : s'.buffered_proposals = s.buffered_proposals)
    (ho : s'.outgoing = s.outgoing) : s'.tok P ≤ s.tok P := by
  simp only [SP.tok, SP.own_follower h, hb, ho]
  omega

/-- Role-independent part. -/
structure Core (cc : ClusterConfig) (i : NodeId) (pre : NodeId → List (PaxosMessage E S)) (G : Ghost E) (s : SP E S) (lg : Lg E) : Prop where
  pid : s.pid = i
  node : Node cc i
  peers : s.peers = SP.peersOf cc.nodes i
  quorum : s.ls.quorum = quorumAt cc i
  maxpid : ∀ j ∈ cc.nodes, j ≤ s.ls.max_pid
  lenA : s.ls.accepted_indexes.length = s.ls.max_pid
  disk : DiskInv cc i G s.ist.storage lg
  mir : Mirror s.ist
  idx : lg.IdxOK s.ist.cache.accepted_idx
  src : ∀ j, ∀ m ∈ pre j ++ s.outgoing, m.src = i
  dst : ∀ j, ∀ m ∈ pre j, m.dst = j
  out : ∀ j, LinkOK cc G (pre j) s.outgoing
  lam : ∀ b k, s.latest_accepted_meta = some (b, k) → ∃ m a, s.outgoing[k]? = some m ∧ m.msg = .accepted a ∧ a.n = b
  tok : s.tok G.mark ≤ G.hold i

structure FolInv (cc : ClusterConfig) (i : NodeId) (G : Ghost E) (s : SP E S) (lg : Lg E) : Prop where
  batch : s.ist.cache.batched_entries = [] ∨
    (s.ist.cache.accepted_round = s.ist.cache.promise ∧ s.ist.cache.promise.pid ≠ i ∧
      lg.es ++ s.ist.cache.batched_entries <+: (G.endf s.ist.cache.promise i (G.curg s.ist.cache.promise i)).es)
  prep : s.phase = .prepare → s.ist.cache.batched_entries = [] ∧
    ∀ p, s.cached_promise = some p → p.n = s.ist.cache.promise ∧ MsgBody cc G i p.n.pid (.promise p : PaxosMsg E S)
  accept : s.phase = .accept → s.ist.cache.accepted_round = s.ist.cache.promise ∧ s.ist.cache.promise.pid ≠ i ∧
    s.current_seq_num = G.curg s.ist.cache.promise i ∧ 1 ≤ s.current_seq_num.counter ∧
    lg.es ++ s.ist.cache.batched_entries = (G.endf s.ist.cache.promise i (G.curg s.ist.cache.promise i)).es
  live : s.phase = .accept → ¬ G.dead s.ist.cache.promise i s.current_seq_num.session

structure LeadPrep (cc : ClusterConfig) (i : NodeId) (G : Ghost E) (s : SP E S) (lg : Lg E) : Prop where
  ldr : s.ls.n_leader = s.ist.cache.promise
  own : s.ls.n_leader.pid = i
  noacc : G.acc i s.ls.n_leader = none
  batch : s.ist.cache.batched_entries = []
  self : ∃ m, slot s.ls.promises_meta i = some (.promised m) ∧ m.decided_idx = s.ist.cache.decided_idx
  seqs : ∀ F q, slot s.ls.follower_seq_nums F = some q → q = {}
  metas : ∀ F r, slot s.ls.latest_accept_meta F = some r → r = none
  accs : ∀ F k, slot s.ls.accepted_indexes F = some k → k = 0
  max : ∃ lgs, (∃ m0, G.prec m0 s.ls.n_leader = some (s.ls.max_promise_meta.n_accepted, lgs)) ∧
    lgs.IdxOK s.ls.max_promise_meta.accepted_idx ∧
    ((s.ls.max_promise_sync = none ∧ s.ls.max_promise_meta.n_accepted = s.ist.cache.accepted_round ∧ lgs = lg) ∨
      (∃ y, s.ls.max_promise_sync = some y ∧ SyncOK lg lgs y)) ∧
    (s.ist.cache.accepted_round < s.ls.max_promise_meta.n_accepted ∨
      (s.ist.cache.accepted_round = s.ls.max_promise_meta.n_accepted ∧ lg ≤ lgs)) ∧
    ∀ F m, slot s.ls.promises_meta F = some (.promised m) → m.pid = F ∧ Node cc F ∧
      ∃ l, G.prec F s.ls.n_leader = some (m.n_accepted, l) ∧ l.IdxOK m.accepted_idx ∧ G.DecOK cc m.n_accepted l m.decided_idx ∧
        (m.n_accepted < s.ls.max_promise_meta.n_accepted ∨ (m.n_accepted = s.ls.max_promise_meta.n_accepted ∧ l ≤ lgs))

/-- What is known of the AcceptDecide `a` of ballot `n` to `F` that waits in the outgoing buffer: it is the last accept message to `F`
outside dead sessions and leads to `l`. -/
def Waits (pre : NodeId → List (PaxosMessage E S)) (out : List (PaxosMessage E S)) (G : Ghost E) (n : Ballot) (F : NodeId) (l : Option (Lg E))
    (a : AcceptDecide E) : Prop :=
  (∀ x, l = some x → x.ss ≠ none) ∨ G.Gone n F ∨
  ((∀ x, l = some x → G.endf n F a.seq_num = x) ∧ ∀ j, ∀ m ∈ pre j ++ out, ∀ q, m.msg.accOf = some (n, q) → m.dst = F →
    q ≤ a.seq_num ∨ G.dead n F q.session)

theorem Waits.of {pre pre' : NodeId → List (PaxosMessage E S)} {out out' : List (PaxosMessage E S)} {G G' : Ghost E} {n : Ballot} {F : NodeId}
    {l : Option (Lg E)} {a a' : AcceptDecide E} (h : Waits pre out G n F l a) (hM : Mono G G')
    (hmem : ∀ k m q, m ∈ pre' k ++ out' → m.msg.accOf = some (n, q) → m.dst = F →
      m ∈ pre k ++ out ∨ q ≤ a.seq_num ∨ G'.dead n F q.session)
    (he : G'.endf n F a.seq_num = G.endf n F a.seq_num) (hs : a'.seq_num = a.seq_num) : Waits pre' out' G' n F l a' := by
  refine h.imp id (Or.imp (·.mono hM) fun h => ⟨fun x hx => ?_, fun j m hm q hq hd => ?_⟩)
  · rw [hs, he]; exact h.1 x hx
  · rw [hs]
    rcases hmem j m q hm hq hd with h1 | h1
    · exact (h.2 j m h1 q hq hd).imp id (hM.dead _ _ _)
    · exact h1

structure LeadAcc (cc : ClusterConfig) (i : NodeId) (pre : NodeId → List (PaxosMessage E S)) (todo : NodeId → Option (Lg E))
    (G : Ghost E) (s : SP E S) (lg : Lg E) : Prop where
  ldr : s.ls.n_leader = s.ist.cache.promise
  own : s.ls.n_leader.pid = i
  acc : s.ist.cache.accepted_round = s.ls.n_leader
  batch : lg.ss ≠ none → s.ist.cache.batched_entries = []
  max : ∃ lgs m0, G.init s.ls.n_leader = some lgs ∧ G.prec m0 s.ls.n_leader = some (s.ls.max_promise_meta.n_accepted, lgs) ∧
    lgs.IdxOK s.ls.max_promise_meta.accepted_idx
  prom : ∀ F m, slot s.ls.promises_meta F = some (.promised m) → m.pid = F ∧ Node cc F ∧
    G.PromFact cc F s.ls.n_leader m.n_accepted m.accepted_idx m.decided_idx
  ends : ∀ F m l q, F ≠ i → slot s.ls.promises_meta F = some (.promised m) → todo F = some l →
    slot s.ls.follower_seq_nums F = some q →
    (∀ q', q ≤ q' → G.endf s.ls.n_leader F q' = l) ∧
    (l.ss ≠ none → 2 ≤ q.counter → (G.endf s.ls.n_leader F q.pred).es = l.es)
  cur : ∀ F q, slot s.ls.follower_seq_nums F = some q → G.curg s.ls.n_leader F ≤ q
  link : ∀ j, ∀ m ∈ pre j ++ s.outgoing, ∀ q, m.msg.accOf = some (s.ls.n_leader, q) →
    ∀ q', slot s.ls.follower_seq_nums m.dst = some q' → q ≤ q'
  mets : ∀ F b k, slot s.ls.latest_accept_meta F = some (some (b, k)) → b = s.ls.n_leader ∧
    (∃ q0, slot s.ls.follower_seq_nums F = some q0) ∧ ((∃ m, slot s.ls.promises_meta F = some (.promised m)) ∨ G.Gone s.ls.n_leader F) ∧
    ∃ a, s.outgoing[k]? = some { src := i, dst := F, msg := .acceptDecide a } ∧ a.n = s.ls.n_leader ∧
      1 ≤ a.seq_num.counter ∧ Waits pre s.outgoing G s.ls.n_leader F (todo F) a
  dead : ∀ F q t, slot s.ls.follower_seq_nums F = some q → G.dead s.ls.n_leader F t → t ≤ q.session
  accs : ∀ F k, slot s.ls.accepted_indexes F = some k → k ≠ 0 → Node cc F ∧
    ∃ a, G.acc F s.ls.n_leader = some a ∧ a.Covers k

def RoleInv (cc : ClusterConfig) (i : NodeId) (pre : NodeId → List (PaxosMessage E S)) (G : Ghost E) (s : SP E S) (lg : Lg E) : Prop :=
  match s.role, s.phase with
  | .leader, .prepare => LeadPrep cc i G s lg
  | .leader, .accept => LeadAcc cc i pre (fun _ => some lg) G s lg
  | .leader, _ => False
  | .follower, _ => FolInv cc i G s lg

def NodeInv (cc : ClusterConfig) (i : NodeId) (pre : NodeId → List (PaxosMessage E S)) (G : Ghost E) (s : SP E S) : Prop :=
  ∃ lg, Core cc i pre G s lg ∧ RoleInv cc i pre G s lg

/-! ### Monotonicity -/

section mono
variable {cc : ClusterConfig} {G G' : Ghost E}

theorem Ghost.Chosen.mono (h : Mono G G') {b : Ballot} {l : Lg E} (hc : G.Chosen cc b l) : G'.Chosen cc b l := by
  obtain ⟨W, hW, ha⟩ := hc
  refine ⟨W, hW, fun j hj => ?_⟩
  obtain ⟨a, h1, h2⟩ := ha j hj
  obtain ⟨a', h3, h4⟩ := h.acc j b a h1
  exact ⟨a', h3, Lg.le_trans h2 h4⟩

theorem Ghost.AllAcc.mono (h : Mono G G') {b : Ballot} {l : Lg E} (hc : G.AllAcc cc b l) : G'.AllAcc cc b l := by
  intro j hj
  obtain ⟨a, h1, h2⟩ := hc j hj
  obtain ⟨a', h3, h4⟩ := h.acc j b a h1
  exact ⟨a', h3, Lg.le_trans h2 h4⟩

theorem Ghost.TrimOK.mono (h : Mono G G') {c : Nat} (hc : G.TrimOK cc c) : G'.TrimOK cc c := by
  rcases hc with h0 | ⟨b, l, h1, h2⟩
  · exact .inl h0
  · exact .inr ⟨b, l, h1.mono h, h2⟩

theorem Ghost.TrimOK.down {c d : Nat} (hc : G.TrimOK cc c) (hd : d ≤ c) : G.TrimOK cc d := by
  rcases hc with h0 | ⟨b, l, h1, h2⟩
  · exact .inl (by omega)
  · exact .inr ⟨b, l, h1, h2.down hd⟩

theorem Ghost.DecMsg.mono (h : Mono G G') {n : Ballot} {d : Nat} (hc : G.DecMsg cc n d) : G'.DecMsg cc n d := by
  rcases hc with h0 | ⟨b, l, h1, h2, h3⟩
  · exact .inl h0
  · exact .inr ⟨b, l, h1, h2.mono h, h3⟩

theorem Ghost.DecOK.mono (h : Mono G G') {n : Ballot} {lg : Lg E} {d : Nat} (hc : G.DecOK cc n lg d) : G'.DecOK cc n lg d := by
  rcases hc with h0 | ⟨b, l, h1, h2, h3, h4⟩
  · exact .inl h0
  · exact .inr ⟨b, l, h1, h2.mono h, h3, h4⟩

theorem Ghost.DecOK.up {n n' : Ballot} {lg lg' : Lg E} {d : Nat} (hc : G.DecOK cc n lg d) (hn : n ≤ n') (hl : lg ≤ lg') :
    G.DecOK cc n' lg' d := by
  rcases hc with h0 | ⟨b, l, h1, h2, h3, h4⟩
  · exact .inl h0
  · exact .inr ⟨b, l, Ballot.le_trans h1 hn, h2, h3, Lg.le_trans h4 hl⟩

theorem Ghost.DecOK.covers {n : Ballot} {lg : Lg E} {d : Nat} (hc : G.DecOK cc n lg d) : lg.Covers d := by
  rcases hc with rfl | ⟨b, l, h1, h2, h3, h4⟩
  · exact Lg.covers_zero _
  · exact h3.mono h4

theorem Ghost.DecOK.msg {n : Ballot} {lg : Lg E} {d : Nat} (hc : G.DecOK cc n lg d) : G.DecMsg cc n d := by
  rcases hc with rfl | ⟨b, l, h1, h2, h3, h4⟩
  · exact .inl rfl
  · exact .inr ⟨b, l, h1, h2, h3⟩

theorem Ghost.PromFact.mono (h : Mono G G') {src : NodeId} {n na : Ballot} {idx dec : Nat}
    (hc : G.PromFact cc src n na idx dec) : G'.PromFact cc src n na idx dec := by
  rcases hc with ⟨h1, a, l, h2, h3, h4, h5⟩ | ⟨l, h1, h2, h3⟩
  · obtain ⟨a', h6, h7⟩ := h.acc src n a h2
    exact .inl ⟨h1, a', l, h6, Lg.le_trans h3 h7, h4, h5.mono h⟩
  · exact .inr ⟨l, h.prec _ _ _ h1, h2, h3.mono h⟩

theorem Mono.acc_none (h : Mono G G') {j : NodeId} {b : Ballot} (hn : G'.acc j b = none) : G.acc j b = none := by
  cases hx : G.acc j b with
  | none => rfl
  | some l => obtain ⟨l', h1, -⟩ := h.acc j b l hx; rw [h1] at hn; simp at hn

theorem MsgBody.mono (h : Mono G G') {src dst : NodeId} {m : PaxosMsg E S}
    (he : ∀ n q, m.accOf = some (n, q) → ∀ q', q' ≤ q → G'.endf n dst q' = G.endf n dst q')
    (hb : MsgBody cc G src dst m) : MsgBody cc G' src dst m := by
  cases m with
  | prepare p =>
    obtain ⟨h1, h2, h3⟩ := hb
    refine ⟨h1, h.prec_ne h2, fun hn => ?_⟩
    obtain ⟨l, h4, h5, h6⟩ := h3 (h.acc_none hn)
    exact ⟨l, h.prec _ _ _ h4, h5, h6.mono h⟩
  | promise p =>
    obtain ⟨h1, h2, h3⟩ := hb
    refine ⟨h1, h2.mono h, fun hn => ?_⟩
    obtain ⟨naL, lgL, lg, h4, h5, h6⟩ := h3 (h.acc_none hn)
    exact ⟨naL, lgL, lg, h.prec _ _ _ h4, h.prec _ _ _ h5, h6⟩
  | acceptSync a =>
    have e := he a.n a.seq_num rfl a.seq_num (SeqNum.le_refl _)
    simp only [MsgBody] at hb ⊢
    rw [e]
    obtain ⟨h1, h2, h3, h4, ⟨l0, h5, h6⟩, h7, h8⟩ := hb
    refine ⟨h1, h2, h3, h4, ⟨l0, h.init _ _ h5, h6⟩, h7.mono h, ?_⟩
    rcases h8 with h8 | ⟨l, h9, h10, h11⟩
    · exact .inl h8
    · refine .inr ⟨l, h9, h10, ?_⟩
      rcases h11 with ⟨na, lgF, l0, h11, h12, h13, h14⟩ | ⟨x, h11, h12⟩
      · exact .inl ⟨na, lgF, l0, h.prec _ _ _ h11, h.init _ _ h12, h13, h14⟩
      · obtain ⟨x', h13, h14⟩ := h.acc _ _ _ h11
        exact .inr ⟨x', h13, Lg.le_trans h12 h14⟩
  | acceptDecide a =>
    simp only [MsgBody] at hb ⊢
    rw [he a.n a.seq_num rfl a.seq_num (SeqNum.le_refl _), he a.n a.seq_num rfl _ (SeqNum.pred_le _)]
    exact ⟨hb.1, hb.2.mono h⟩
  | decide a =>
    simp only [MsgBody] at hb ⊢
    rw [he a.n a.seq_num rfl a.seq_num (SeqNum.le_refl _), he a.n a.seq_num rfl _ (SeqNum.pred_le _)]
    exact ⟨hb.1, hb.2.mono h⟩
  | acceptStopSign a =>
    simp only [MsgBody] at hb ⊢
    rw [he a.n a.seq_num rfl a.seq_num (SeqNum.le_refl _), he a.n a.seq_num rfl _ (SeqNum.pred_le _)]
    exact hb
  | accepted a =>
    obtain ⟨x, h1, h2⟩ := hb
    obtain ⟨x', h3, h4⟩ := h.acc _ _ _ h1
    exact ⟨x', h3, h2.mono h4⟩
  | compaction c =>
    cases c with
    | trim idx => exact Ghost.TrimOK.mono h hb
    | snapshot idx => trivial
  | prepareReq n => trivial
  | notAccepted n => exact hb.imp id (h.prec_ne)
  | proposalForward es => trivial
  | forwardStopSign ss => trivial

theorem Soft.congr {m : PaxosMessage E S}
    (he : ∀ n q, m.msg.accOf = some (n, q) → G'.endf n m.dst q = G.endf n m.dst q) (hs : Soft G m) : Soft G' m := by
  revert hs he
  unfold Soft
  cases m.msg <;> simp [PaxosMsg.accOf]
  · intro h1 h2; rw [h1]; exact h2
  · intro h1 h2; rw [h1]; exact h2

/-- A message stays fine if the history changes only behind it. -/
theorem MsgOK.mono (h : Mono G G') {m : PaxosMessage E S}
    (he : ∀ n q, m.msg.accOf = some (n, q) → ∀ q', q' ≤ q → G'.endf n m.dst q' = G.endf n m.dst q')
    (hc : ∀ n q, m.msg.syncOf = some (n, q) → G'.curg n m.dst = G.curg n m.dst ∨ G'.curg n m.dst < q)
    (hm : MsgOK cc G m) : MsgOK cc G' m where
  ne := hm.ne
  node := hm.node
  body hl := (hm.body fun n q hq => ⟨fun hd => (hl n q hq).1 (h.dead _ _ _ hd), fun hd => (hl n q hq).2 (hd.mono h)⟩).mono h he
  one := hm.one
  lead n q hq := ⟨(hm.lead n q hq).1, h.acc_ne (hm.lead n q hq).2⟩
  fresh n q hq := by
    rcases hc n q hq with h1 | h1
    · rw [h1]; exact hm.fresh n q hq
    · exact h1

theorem Seqd.mono {m m' : PaxosMessage E S}
    (he : ∀ n q, m'.msg.accOf = some (n, q) → G'.endf n m'.dst q = G.endf n m'.dst q) (h : Seqd G m m') : Seqd G' m m' :=
  fun n q q' h1 h2 h3 => (h n q q' h1 h2 h3).imp id fun ⟨h4, h5⟩ => ⟨h4, h5.congr he⟩

theorem Soft.sync {m : PaxosMessage E S} {x : Ballot × SeqNum} (h : m.msg.syncOf = some x) : ¬ Soft G m := by
  unfold Soft
  cases hm : m.msg <;> rw [hm] at h <;> first | exact id | cases h

theorem Seqd.ordered {m m' : PaxosMessage E S} (h : Seqd G m m') : Ordered m m' := fun n q q' h1 h2 h3 =>
  (h n q q' (PaxosMsg.syncOf_acc h1) (PaxosMsg.syncOf_acc h2) h3).resolve_right fun h4 => Soft.sync h2 h4.2

theorem LinkOK.mono (h : Mono G G') {p o : List (PaxosMessage E S)}
    (he : ∀ m ∈ p ++ o, ∀ n q, m.msg.accOf = some (n, q) → ∀ q', q' ≤ q → G'.endf n m.dst q' = G.endf n m.dst q')
    (hc : ∀ m ∈ p ++ o, ∀ n q, m.msg.accOf = some (n, q) → G'.curg n m.dst = G.curg n m.dst)
    (hl : LinkOK cc G p o) : LinkOK cc G' p o where
  msg m hm := (hl.msg m hm).mono h (he m hm) fun n q hq => .inl (hc m hm n q (PaxosMsg.syncOf_acc hq))
  ord := hl.ord
  fresh m hm n q hq := by
    have hm' := List.mem_append_right p hm
    rw [hc m hm' n q hq]
    exact (hl.fresh m hm n q hq).imp id (Soft.congr fun n q hq => he m hm' n q hq q (SeqNum.le_refl _))
  seq := hl.seq.imp_of_mem fun _ hb hs => hs.mono fun n q hq => he _ (List.mem_append_right p hb) n q hq q (SeqNum.le_refl _)
  cross m hm m' hm' := (hl.cross m hm m' hm').mono fun n q hq => he _ (List.mem_append_right p hm') n q hq q (SeqNum.le_refl _)

theorem LinkOK.sublist {p p' o o' : List (PaxosMessage E S)} (h : LinkOK cc G p o) (hp : p'.Sublist p) (ho : o'.Sublist o) :
    LinkOK cc G p' o' where
  msg m hm := h.msg m ((hp.append ho).subset hm)
  ord := h.ord.sublist hp
  fresh m hm := h.fresh m (ho.subset hm)
  seq := h.seq.sublist ho
  cross m hm m' hm' := h.cross m (hp.subset hm) m' (ho.subset hm')

theorem LinkOK.nil {p o : List (PaxosMessage E S)} (h : LinkOK cc G p o) : LinkOK cc G p [] :=
  h.sublist (List.Sublist.refl _) (List.nil_sublist _)

theorem LinkOK.snoc {p o : List (PaxosMessage E S)} {m : PaxosMessage E S} (h : LinkOK cc G p o) (hm : MsgOK cc G m)
    (hf : ∀ n q, m.msg.accOf = some (n, q) → G.curg n m.dst < q ∨ Soft G m) (hs : ∀ x ∈ p ++ o, Seqd G x m) :
    LinkOK cc G p (o ++ [m]) where
  msg x hx := by
    rw [← List.append_assoc] at hx
    rcases List.mem_append.1 hx with hx | hx
    · exact h.msg x hx
    · simp at hx; subst hx; exact hm
  ord := h.ord
  fresh x hx := by
    rcases List.mem_append.1 hx with hx | hx
    · exact h.fresh x hx
    · simp at hx; subst hx; exact hf
  seq := by
    rw [List.pairwise_append]
    exact ⟨h.seq, List.pairwise_singleton _ _, fun a ha b hb => by
      simp at hb; subst hb; exact hs a (List.mem_append_right _ ha)⟩
  cross a ha b hb := by
    rcases List.mem_append.1 hb with hb | hb
    · exact h.cross a ha b hb
    · simp at hb; subst hb; exact hs a (List.mem_append_left _ ha)

/-- Handing out messages. -/
theorem LinkOK.take {p o : List (PaxosMessage E S)} (f : PaxosMessage E S → Bool) (h : LinkOK cc G p o) :
    LinkOK cc G (p ++ o.filter f) [] where
  msg m hm := h.msg m (by
    rw [List.append_nil] at hm
    rcases List.mem_append.1 hm with hm | hm
    · exact List.mem_append_left _ hm
    · exact List.mem_append_right _ (List.mem_of_mem_filter hm))
  ord := by
    rw [List.pairwise_append]
    exact ⟨h.ord, (h.seq.sublist List.filter_sublist).imp Seqd.ordered,
      fun a ha b hb => (h.cross a ha b (List.mem_of_mem_filter hb)).ordered⟩
  fresh := nofun
  seq := List.Pairwise.nil
  cross := nofun

theorem seqd_of_none {m m' : PaxosMessage E S} (h : m'.msg.accOf = none) : Seqd G m m' := by
  intro n q q' _ h2; rw [h] at h2; simp at h2

theorem msgOK_of_none {m : PaxosMessage E S} (h : m.msg.accOf = none) (hne : m.src ≠ m.dst) (hn : Node cc m.src)
    (hb : MsgBody cc G m.src m.dst m.msg) : MsgOK cc G m :=
  ⟨hne, hn, fun _ => hb, fun n q hq => by rw [PaxosMsg.syncOf_acc hq] at h; simp at h, fun n q hq => by rw [h] at hq; simp at hq, fun n q hq => by rw [PaxosMsg.syncOf_acc hq] at h; simp at h⟩

/-- What a server steps to when a message is delivered: an AcceptSync, or the accept message after the last one. -/
def PaxosMsg.Moves (m : PaxosMsg E S) (n : Ballot) (cur q : SeqNum) : Prop :=
  m.accOf = some (n, q) ∧ (m.syncOf = some (n, q) ∨ (q.session = cur.session ∧ 1 ≤ cur.counter))

/-- Removing the head of a link after (or without) delivering it. -/
theorem LinkOK.tail {m : PaxosMessage E S} {p o : List (PaxosMessage E S)} (h : Mono G G')
    (he : ∀ x ∈ p ++ o, ∀ n q, x.msg.accOf = some (n, q) → ∀ q', q' ≤ q → G'.endf n x.dst q' = G.endf n x.dst q')
    (hc : ∀ x ∈ p ++ o, ∀ n q, x.msg.accOf = some (n, q) →
      G'.curg n x.dst = G.curg n x.dst ∨ (x.dst = m.dst ∧ m.msg.Moves n (G.curg n x.dst) (G'.curg n x.dst)))
    (hl : LinkOK cc G (m :: p) o) : LinkOK cc G' p o where
  msg x hx := by
    refine (hl.msg x (List.mem_cons_of_mem _ hx)).mono h (he x hx) fun n q hq => ?_
    have hq' := PaxosMsg.syncOf_acc hq
    rcases hc x hx n q hq' with h1 | ⟨h1, h2, h3⟩
    · exact .inl h1
    · right
      rcases List.mem_append.1 hx with hp | ho
      · rcases h3 with h3 | ⟨h3, h4⟩
        · exact (List.pairwise_cons.1 hl.ord).1 x hp n _ q h3 hq h1.symm
        · have h5 := (hl.msg x (List.mem_cons_of_mem _ hx)).fresh n q hq
          have h7 := (hl.msg x (List.mem_cons_of_mem _ hx)).one n q hq
          simp only [SeqNum.lt_def] at h5 ⊢
          omega
      · exact (hl.cross m List.mem_cons_self x ho n _ q h2 hq' h1.symm).resolve_right fun h => Soft.sync hq h.2
  ord := (List.pairwise_cons.1 hl.ord).2
  fresh x hx n q hq := by
    have hx' := List.mem_append_right p hx
    have soft : Soft G x → Soft G' x := Soft.congr fun n q hq => he x hx' n q hq q (SeqNum.le_refl _)
    rcases hc x hx' n q hq with h1 | ⟨h1, h2, -⟩
    · rw [h1]; exact (hl.fresh x hx n q hq).imp id soft
    · exact (hl.cross m List.mem_cons_self x hx n _ q h2 hq h1.symm).imp id fun h => soft h.2
  seq := hl.seq.imp_of_mem fun _ hb hs => hs.mono fun n q hq => he _ (List.mem_append_right p hb) n q hq q (SeqNum.le_refl _)
  cross a ha b hb := (hl.cross a (List.mem_cons_of_mem _ ha) b hb).mono fun n q hq =>
    he _ (List.mem_append_right p hb) n q hq q (SeqNum.le_refl _)

end mono
end Omni
