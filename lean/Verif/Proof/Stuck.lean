import Verif.Proof.Example
import Verif.Spec.Sample
/-
Two tasks of the example application that wait for each other.
-/
namespace Omni

/-- Servers 1 and 2 are in the loop of `send_outgoing_msgs`, each before a message for the other one, whose channel is full. -/
structure Deploy.Stuck {E S : Type} (cap : Nat) (d : Deploy E S) : Prop where
  run1 : d.task 1 = .running
  run2 : d.task 2 = .running
  head1 : ∃ m l, d.buffer 1 = m :: l ∧ m.dst = 2
  head2 : ∃ m l, d.buffer 2 = m :: l ∧ m.dst = 1
  full1 : cap ≤ (d.channel 1).length
  full2 : cap ≤ (d.channel 2).length

/-- Buffers and channels of both servers are the same. -/
structure Deploy.Frozen {E S : Type} (d d' : Deploy E S) : Prop where
  buffer1 : d'.buffer 1 = d.buffer 1
  buffer2 : d'.buffer 2 = d.buffer 2
  channel1 : d'.channel 1 = d.channel 1
  channel2 : d'.channel 2 = d.channel 2

section
variable {E S : Type} {cap : Nat}

theorem Deploy.Stuck.frozen {d d' : Deploy E S} (h : d.Stuck cap) (h1 : d'.task 1 = d.task 1) (h2 : d'.task 2 = d.task 2) (hf : d.Frozen d') : d'.Stuck cap :=
  ⟨h1 ▸ h.run1, h2 ▸ h.run2, hf.buffer1 ▸ h.head1, hf.buffer2 ▸ h.head2, hf.channel1 ▸ h.full1, hf.channel2 ▸ h.full2⟩

theorem Deploy.Stuck.stop {d : Deploy E S} (h : d.Stuck cap) {i : NodeId} (h1 : i ≠ 1) (h2 : i ≠ 2) : (d.stop i).Stuck cap ∧ d.Frozen (d.stop i) := by
  have hf : d.Frozen (d.stop i) := by
    constructor <;> simp [Deploy.stop, Deploy.setTask, Deploy.setBuffer, Deploy.setChannel, h1.symm, h2.symm]
  refine ⟨h.frozen ?_ ?_ hf, hf⟩ <;> simp [Deploy.stop, Deploy.setTask, Deploy.setBuffer, Deploy.setChannel, h1.symm, h2.symm]

theorem Deploy.Frozen.refl (d : Deploy E S) : d.Frozen d := ⟨rfl, rfl, rfl, rfl⟩

theorem Deploy.Stuck.taskCall [SnapOps E S] {d : Deploy E S} (h : d.Stuck cap) {i : NodeId} (h1 : i ≠ 1) (h2 : i ≠ 2) (c : Call E S) :
    (d.taskCall i c).Stuck cap ∧ d.Frozen (d.taskCall i c) := by
  have hset : ∀ s, (d.setServer i s).Stuck cap := fun s => ⟨h.run1, h.run2, h.head1, h.head2, h.full1, h.full2⟩
  unfold Deploy.taskCall
  split
  · exact h.stop h1 h2
  · split
    · exact ⟨hset _, ⟨rfl, rfl, rfl, rfl⟩⟩
    · obtain ⟨h3, h4⟩ := (hset _).stop h1 h2
      exact ⟨h3, h4.1, h4.2, h4.3, h4.4⟩

theorem Deploy.Stuck.step [SnapOps E S] {cc : ClusterConfig} (hn1 : 1 ∈ cc.nodes) (hn2 : 2 ∈ cc.nodes) {d d' : Deploy E S} (h : d.Stuck cap)
    {a : DAction E S} (ha : a ≠ .abort 1 ∧ a ≠ .abort 2) (hs : d.step cc cap a = some d') : d'.Stuck cap ∧ d.Frozen d' := by
  obtain ⟨m1, l1, hb1, hm1⟩ := h.head1
  obtain ⟨m2, l2, hb2, hm2⟩ := h.head2
  have idle : ∀ {i}, d.task i = .running ∧ d.buffer i = [] → i ≠ 1 ∧ i ≠ 2 := fun {i} hi =>
    ⟨fun e => (by rw [e, hb1] at hi; cases hi.2), fun e => (by rw [e, hb2] at hi; cases hi.2)⟩
  cases a with
  | spawn i cfg =>
    simp only [Deploy.step] at hs
    split at hs
    · rename_i hc
      split at hs
      · cases hs
        have e1 : 1 ≠ i := fun e => by have := hc.1; rw [← e, h.run1] at this; cases this
        have e2 : 2 ≠ i := fun e => by have := hc.1; rw [← e, h.run2] at this; cases this
        refine ⟨h.frozen (by simp [Deploy.setTask, Deploy.setServer, e1]) (by simp [Deploy.setTask, Deploy.setServer, e2]) ?_, ?_⟩ <;>
          exact ⟨rfl, rfl, rfl, rfl⟩
      · cases hs
    · cases hs
  | call i c =>
    simp only [Deploy.step] at hs
    split at hs
    · split at hs
      · cases hs
      · cases hs
        exact ⟨⟨h.run1, h.run2, h.head1, h.head2, h.full1, h.full2⟩, ⟨rfl, rfl, rfl, rfl⟩⟩
    · cases hs
  | tick i =>
    simp only [Deploy.step] at hs
    split at hs
    · rename_i hc
      cases hs
      exact h.taskCall (idle hc).1 (idle hc).2 _
    · cases hs
  | take i =>
    simp only [Deploy.step] at hs
    split at hs
    · rename_i hc
      obtain ⟨e1, e2⟩ := idle hc
      split at hs
      · cases hs; exact h.stop e1 e2
      · cases hs
        rename_i op hop
        have hf : d.Frozen ((d.setServer i (.up (op.take_outgoing_messages []).2)).setBuffer i (op.take_outgoing_messages []).1) := by
          constructor <;> simp [Deploy.setServer, Deploy.setBuffer, e1.symm, e2.symm]
        exact ⟨h.frozen rfl rfl hf, hf⟩
    · cases hs
  | send i =>
    have blocked : ∀ {i j m l}, d.buffer i = m :: l → m.dst = j → j ∈ cc.nodes → d.task j = .running → cap ≤ (d.channel j).length →
        d.step cc cap (.send i) = none := by
      intro i j m l h1 h2 h3 h4 h5
      subst h2
      simp only [Deploy.step, h1, if_pos h3, h4, if_neg (Nat.not_lt.2 h5)]
      simp
    by_cases e1 : i = 1
    · subst e1; rw [blocked hb1 hm1 hn2 h.run2 h.full2] at hs; cases hs
    · by_cases e2 : i = 2
      · subst e2; rw [blocked hb2 hm2 hn1 h.run1 h.full1] at hs; cases hs
      · have e1' : 1 ≠ i := fun e => e1 e.symm
        have e2' : 2 ≠ i := fun e => e2 e.symm
        simp only [Deploy.step] at hs
        split at hs
        · cases hs
        · rename_i m rest hm
          split at hs
          · split at hs
            · cases hs
              have hf : d.Frozen (d.setBuffer i rest) := by constructor <;> simp [Deploy.setBuffer, e1', e2']
              exact ⟨h.frozen rfl rfl hf, hf⟩
            · split at hs
              · rename_i hlt
                cases hs
                have f1 : 1 ≠ m.dst := fun e => by rw [← e] at hlt; exact Nat.not_lt.2 h.full1 hlt
                have f2 : 2 ≠ m.dst := fun e => by rw [← e] at hlt; exact Nat.not_lt.2 h.full2 hlt
                have hf : d.Frozen ((d.setBuffer i rest).setChannel m.dst (d.channel m.dst ++ [(i, m)])) := by
                  constructor <;> simp [Deploy.setBuffer, Deploy.setChannel, e1', e2', f1, f2]
                exact ⟨h.frozen rfl rfl hf, hf⟩
              · cases hs
          · cases hs; exact h.stop e1 e2
  | recv i =>
    simp only [Deploy.step] at hs
    split at hs
    · rename_i hc
      obtain ⟨e1, e2⟩ := idle hc
      split at hs
      · cases hs
      · rename_i k m rest hm
        cases hs
        have hf : d.Frozen (d.setChannel i rest) := by constructor <;> simp [Deploy.setChannel, e1.symm, e2.symm]
        obtain ⟨h3, h4⟩ := (h.frozen (d' := d.setChannel i rest) rfl rfl hf).taskCall e1 e2 (.handleIncoming m)
        exact ⟨h3, h4.1.trans hf.1, h4.2.trans hf.2, h4.3.trans hf.3, h4.4.trans hf.4⟩
    · cases hs
  | abort i =>
    simp only [Deploy.step] at hs
    split at hs
    · cases hs
      exact h.stop (fun e => ha.1 (e ▸ rfl)) (fun e => ha.2 (e ▸ rfl))
    · cases hs
  | poison i =>
    simp only [Deploy.step] at hs
    split at hs
    · cases hs
      exact ⟨⟨h.run1, h.run2, h.head1, h.head2, h.full1, h.full2⟩, ⟨rfl, rfl, rfl, rfl⟩⟩
    · cases hs

theorem Deploy.Stuck.run [SnapOps E S] {cc : ClusterConfig} (hn1 : 1 ∈ cc.nodes) (hn2 : 2 ∈ cc.nodes) {d d' : Deploy E S} (h : d.Stuck cap)
    {as : List (DAction E S)} (ha : ∀ a ∈ as, a ≠ .abort 1 ∧ a ≠ .abort 2) (hs : d.run cc cap as = some d') : d'.Stuck cap ∧ d.Frozen d' := by
  induction as generalizing d with
  | nil => cases hs; exact ⟨h, .refl _⟩
  | cons a as ih =>
    simp only [Deploy.run] at hs
    split at hs
    · cases hs
    · obtain ⟨h1, hf⟩ := h.step hn1 hn2 (ha a (.head _)) (by assumption)
      obtain ⟨h2, hf'⟩ := ih h1 (fun x hx => ha x (.tail _ hx)) hs
      exact ⟨h2, hf'.1.trans hf.1, hf'.2.trans hf.2, hf'.3.trans hf.3, hf'.4.trans hf.4⟩

end

/-- Apart from the server and the buffer of `i` and the channel of `j`, nothing differs. -/
structure Deploy.Same {E S : Type} (i j : NodeId) (d d' : Deploy E S) : Prop where
  servers : ∀ k, k ≠ i → d'.servers k = d.servers k
  task : d'.task = d.task
  buffer : ∀ k, k ≠ i → d'.buffer k = d.buffer k
  channel : ∀ k, k ≠ j → d'.channel k = d.channel k

/-- `i` waits before a message for `j`, whose channel is full. -/
def Deploy.Blocked {E S : Type} (cap : Nat) (i j : NodeId) (d : Deploy E S) : Prop :=
  (∃ m l, d.buffer i = m :: l ∧ m.dst = j) ∧ cap ≤ (d.channel j).length

section
variable {E S : Type} {cap : Nat} {i j : NodeId}

theorem Deploy.Same.refl (d : Deploy E S) : d.Same i j d := ⟨fun _ _ => rfl, rfl, fun _ _ => rfl, fun _ _ => rfl⟩

theorem Deploy.Same.trans {d d' d'' : Deploy E S} (h : d.Same i j d') (h' : d'.Same i j d'') : d.Same i j d'' :=
  ⟨fun k hk => (h'.servers k hk).trans (h.servers k hk), h'.task.trans h.task, fun k hk => (h'.buffer k hk).trans (h.buffer k hk),
    fun k hk => (h'.channel k hk).trans (h.channel k hk)⟩

variable [SnapOps E S] {cc : ClusterConfig}

/-- A task that sends until it is done or blocked. -/
theorem Deploy.sends (hj : j ∈ cc.nodes) (h3 : 3 ∈ cc.nodes) (L : List (Message E S)) :
    ∀ d : Deploy E S, d.buffer i = L → (∀ m ∈ L, m.dst = j ∨ m.dst = 3) → d.task j = .running → d.task 3 = .ended →
      ∃ n d', d.run cc cap (.replicate n (.send i)) = some d' ∧ d.Same i j d' ∧ d'.servers = d.servers ∧
        (d'.Blocked cap i j ∨ d'.buffer i = [] ∧ (d.channel j).length ≤ (d'.channel j).length ∧ (d'.channel j).length ≤ max cap (d.channel j).length ∧
          ((∃ m ∈ L, m.dst = j) → (d.channel j).length < (d'.channel j).length)) := by
  induction L with
  | nil => exact fun d hb _ _ _ => ⟨0, d, rfl, .refl _, rfl, .inr ⟨hb, Nat.le_refl _, Nat.le_max_right .., fun ⟨_, h, _⟩ => (nomatch h)⟩⟩
  | cons m L ih =>
    intro d hb hL tj t3
    have go : ∀ d1, d.step cc cap (.send i) = some d1 → d.Same i j d1 → d1.servers = d.servers → d1.buffer i = L →
        (d.channel j).length ≤ (d1.channel j).length → (d1.channel j).length ≤ max cap (d.channel j).length → (m.dst = j → (d.channel j).length < (d1.channel j).length) →
        ∃ n d', d.run cc cap (.replicate n (.send i)) = some d' ∧ d.Same i j d' ∧ d'.servers = d.servers ∧
        (d'.Blocked cap i j ∨ d'.buffer i = [] ∧ (d.channel j).length ≤ (d'.channel j).length ∧ (d'.channel j).length ≤ max cap (d.channel j).length ∧
          ((∃ x ∈ m :: L, x.dst = j) → (d.channel j).length < (d'.channel j).length)) := by
      intro d1 hs h1 h1s h1b hle hmx hlt
      obtain ⟨n, d', hr, h2, h2s, h2b⟩ := ih d1 h1b (fun x hx => hL x (.tail _ hx)) (by rw [h1.task]; exact tj) (by rw [h1.task]; exact t3)
      refine ⟨n + 1, d', by simp only [List.replicate_succ, Deploy.run, hs]; exact hr, h1.trans h2, h2s.trans h1s, ?_⟩
      rcases h2b with h2b | ⟨h2b, h2c, h2m, h2d⟩
      · exact .inl h2b
      · refine .inr ⟨h2b, Nat.le_trans hle h2c, by omega, ?_⟩
        rintro ⟨x, hx, hxj⟩
        rcases List.mem_cons.1 hx with rfl | hx
        · exact Nat.lt_of_lt_of_le (hlt hxj) h2c
        · exact Nat.lt_of_le_of_lt hle (h2d ⟨x, hx, hxj⟩)
    by_cases ej : m.dst = j
    · by_cases hc : (d.channel j).length < cap
      · refine go ((d.setBuffer i L).setChannel j (d.channel j ++ [(i, m)])) ?_ ⟨fun _ _ => rfl, rfl, fun k hk => ?_, fun k hk => ?_⟩ rfl ?_ ?_ ?_ ?_
        · subst ej
          simp [Deploy.step, hb, hj, tj, hc]
        · simp [Deploy.setBuffer, Deploy.setChannel, hk]
        · simp [Deploy.setBuffer, Deploy.setChannel, hk]
        · simp [Deploy.setBuffer, Deploy.setChannel]
        · simp [Deploy.setBuffer, Deploy.setChannel]
        · simp [Deploy.setBuffer, Deploy.setChannel]; omega
        · simp [Deploy.setBuffer, Deploy.setChannel]
      · exact ⟨0, d, rfl, .refl _, rfl, .inl ⟨⟨m, L, hb, ej⟩, Nat.le_of_not_lt hc⟩⟩
    · have e3 : m.dst = 3 := (hL m (.head _)).resolve_left ej
      refine go (d.setBuffer i L) ?_ ⟨fun _ _ => rfl, rfl, fun k hk => ?_, fun k hk => rfl⟩ rfl ?_ (Nat.le_refl _) (Nat.le_max_right ..) (fun h => absurd h ej)
      · simp [Deploy.step, hb, e3, h3, t3]
      · simp [Deploy.setBuffer, hk]
      · simp [Deploy.setBuffer]

/-- A task that ticks, takes and sends until it is blocked, if a tick leads to a message for `j` each time. -/
theorem Deploy.fills (hj : j ∈ cc.nodes) (h3 : 3 ∈ cc.nodes) {op w : Nat → OP E S} {msgs : Nat → List (Message E S)}
    (ht : ∀ r, (op r).callResult .tick = .up (w r)) (hk : ∀ r, (w r).take_outgoing_messages [] = (msgs r, op (r + 1)))
    (hm : ∀ r, ∀ m ∈ msgs r, m.dst = j ∨ m.dst = 3) (hc : ∀ r, ∃ m ∈ msgs r, m.dst = j) (n : Nat) :
    ∀ (r : Nat) (d : Deploy E S), cap ≤ (d.channel j).length + n → d.servers i = .up (op r) → d.task i = .running → d.task j = .running → d.task 3 = .ended →
      (∀ m ∈ d.buffer i, m.dst = j ∨ m.dst = 3) → (∃ m ∈ d.buffer i, m.dst = j) →
      ∃ as d', d.run cc cap as = some d' ∧ d.Same i j d' ∧ d'.Blocked cap i j ∧ ∀ a ∈ as, a = .tick i ∨ a = .take i ∨ a = .send i := by
  have hrep : ∀ n, ∀ a ∈ List.replicate n (DAction.send (E := E) (S := S) i), a = .tick i ∨ a = .take i ∨ a = .send i := fun n a ha =>
    .inr (.inr (List.eq_of_mem_replicate ha))
  induction n with
  | zero =>
    intro r d hl hs ti tj t3 hb hb'
    obtain ⟨n, d1, h1, h1', h1s, h1b⟩ := Deploy.sends (cap := cap) hj h3 _ d rfl hb tj t3
    rcases h1b with h1b | ⟨-, -, hmx, hlt⟩
    · exact ⟨_, d1, h1, h1', h1b, hrep n⟩
    · have := hlt hb'
      omega
  | succ n ih =>
    intro r d hl hs ti tj t3 hb hb'
    obtain ⟨k, d1, h1, h1', h1s, h1b⟩ := Deploy.sends (cap := cap) hj h3 _ d rfl hb tj t3
    rcases h1b with h1b | ⟨h1b, -, -, hlt⟩
    · exact ⟨_, d1, h1, h1', h1b, hrep k⟩
    · have hlt := hlt hb'
      have hs1 : d1.servers i = .up (op r) := by rw [h1s]; exact hs
      obtain ⟨d2, h2, h2', h2s, h2b, h2c⟩ : ∃ d2, d1.run cc cap [.tick i, .take i] = some d2 ∧ d1.Same i j d2 ∧ d2.servers i = .up (op (r + 1)) ∧
          d2.buffer i = msgs r ∧ d2.channel = d1.channel := by
        refine ⟨((d1.setServer i (.up (w r))).setServer i (.up (op (r + 1)))).setBuffer i (msgs r), ?_,
          ⟨fun k hk => by simp [Deploy.setBuffer, Deploy.setServer, hk], rfl, fun k hk => by simp [Deploy.setBuffer, Deploy.setServer, hk], fun k hk => rfl⟩, ?_, ?_, rfl⟩
        · simp [Deploy.run, Deploy.step, h1'.task, ti, h1b, Deploy.taskCall, hs1, ht, Deploy.setServer, hk]
        · simp [Deploy.setBuffer, Deploy.setServer]
        · simp [Deploy.setBuffer]
      have hcn := h1'.trans h2'
      obtain ⟨as, d', h3', h4, h5, h6⟩ := ih (r + 1) d2 (by rw [h2c]; omega) h2s (by rw [hcn.task]; exact ti) (by rw [hcn.task]; exact tj)
        (by rw [hcn.task]; exact t3) (by rw [h2b]; exact hm r) (by rw [h2b]; exact hc r)
      refine ⟨List.replicate k (.send i) ++ ([.tick i, .take i] ++ as), d', ?_, hcn.trans h4, h5, fun a ha => ?_⟩
      · rw [Deploy.run_append, h1, Option.bind, Deploy.run_append, h2]; exact h3'
      · rcases List.mem_append.1 ha with ha | ha
        · exact hrep k a ha
        · rcases List.mem_append.1 ha with ha | ha
          · simp only [List.mem_cons, List.not_mem_nil, or_false] at ha
            rcases ha with rfl | rfl
            · exact .inl rfl
            · exact .inr (.inl rfl)
          · exact h6 a ha

end

namespace Sample
attribute [local instance] Sample.noSync

abbrev ND := Deploy Nat (List Nat)

/-- Every tick is a timeout. -/
def fast (pid : NodeId) : ServerConfig := { pid, resend_message_tick_timeout := 1, flush_batch_tick_timeout := 1 }

/-- A server that has been built with `fast` and ticked twice or more without hearing from the others, in round `r` of the heartbeats; `pm` holds
its promise to itself. -/
def lone (i : NodeId) (peers : List NodeId) (pm : List PromiseState) (r : Nat) : OP Nat (List Nat) :=
  { sp :=
      { ist := { storage := { n_prom := some ⟨1, 1, 0, i⟩ }, cache := { batch_size := 1, promise := ⟨1, 1, 0, i⟩ } }
        pid := i
        peers
        role := .leader
        phase := .prepare
        buffered_proposals := [], buffered_stopsign := none, outgoing := [], latest_accepted_meta := none, current_seq_num := {}, cached_promise := none
        ls :=
          { n_leader := ⟨1, 1, 0, i⟩, promises_meta := pm
            follower_seq_nums := [{}, {}, {}], accepted_indexes := [0, 0, 0], max_promise_meta := {}, latest_accept_meta := [none, none, none]
            max_promise_sync := none
            max_pid := 3, quorum := .majority 2 } }
    ble :=
      { configuration_id := 1, pid := i, peers, hb_round := r, heartbeat_replies := [], prev_replies := [], current_ballot := ⟨1, 1, 0, i⟩, leader := ⟨1, 1, 0, i⟩, happy := false
        quorum := .majority 2, outgoing := [] }
    election_clock := { time := 0, timeout := 1 }, resend_message_clock := { time := 0, timeout := 1 }, flush_batch_clock := { time := 0, timeout := 1 } }

def prep (i d : NodeId) : PaxosMessage Nat (List Nat) := ⟨i, d, .prepare { n := ⟨1, 1, 0, i⟩, decided_idx := 0, n_accepted := {}, accepted_idx := 0 }⟩

/-- What a tick puts into the outgoing messages. -/
def told (i : NodeId) (peers : List NodeId) (op : OP Nat (List Nat)) : OP Nat (List Nat) :=
  { op with
    sp := { op.sp with outgoing := peers.map (prep i) }
    ble := { op.ble with outgoing := peers.map fun d => ⟨i, d, .request op.ble.hb_round⟩ } }

abbrev own (i : NodeId) : PromiseState := .promised { n_accepted := {}, accepted_idx := 0, decided_idx := 0, pid := i }
abbrev lone1 (r : Nat) : OP Nat (List Nat) := lone 1 [2, 3] [own 1, .notPromised, .notPromised] r
abbrev lone2 (r : Nat) : OP Nat (List Nat) := lone 2 [1, 3] [.notPromised, own 2, .notPromised] r

theorem lone1_tick (r : Nat) : (lone1 r).callResult .tick = .up (told 1 [2, 3] (lone1 (r + 1))) := rfl
theorem lone1_take (r : Nat) : (told 1 [2, 3] (lone1 r)).take_outgoing_messages [] =
    ([.paxos (prep 1 2), .paxos (prep 1 3), .ble ⟨1, 2, .request r⟩, .ble ⟨1, 3, .request r⟩], lone1 r) := rfl
theorem lone2_tick (r : Nat) : (lone2 r).callResult .tick = .up (told 2 [1, 3] (lone2 (r + 1))) := rfl
theorem lone2_take (r : Nat) : (told 2 [1, 3] (lone2 r)).take_outgoing_messages [] =
    ([.paxos (prep 2 1), .paxos (prep 2 3), .ble ⟨2, 1, .request r⟩, .ble ⟨2, 3, .request r⟩], lone2 r) := rfl

/-- The beginning: three servers are started, the third one is aborted, the others tick twice and take the messages. -/
def begin : List (DAction Nat (List Nat)) :=
  [.spawn 1 (fast 1), .spawn 2 (fast 2), .spawn 3 (fast 3), .abort 3, .tick 1, .tick 1, .take 1, .tick 2, .tick 2, .take 2]

theorem begin_run (cap : Nat) : ∃ d : ND, Deploy.init.run cc cap begin = some d ∧ d.task 1 = .running ∧ d.task 2 = .running ∧ d.task 3 = .ended ∧
    d.servers 1 = .up (lone1 3) ∧ d.servers 2 = .up (lone2 3) ∧ (∀ m ∈ d.buffer 1, m.dst = 2 ∨ m.dst = 3) ∧ (∃ m ∈ d.buffer 1, m.dst = 2) ∧
    (∀ m ∈ d.buffer 2, m.dst = 1 ∨ m.dst = 3) ∧ (∃ m ∈ d.buffer 2, m.dst = 1) := by
  have h : (Deploy.init : ND).run cc cap begin = (Deploy.init : ND).run cc 0 begin := by
    unfold begin; simp only [Deploy.run, Deploy.step]
  rw [h]
  have key : (match (Deploy.init : ND).run cc 0 begin with
      | none => false
      | some d => decide (d.task 1 = .running ∧ d.task 2 = .running ∧ d.task 3 = .ended) && (match d.servers 1, d.servers 2 with
        | .up a, .up b => decide (a = lone1 3 ∧ b = lone2 3)
        | _, _ => false) && decide ((∀ m ∈ d.buffer 1, m.dst = 2 ∨ m.dst = 3) ∧ (∃ m ∈ d.buffer 1, m.dst = 2) ∧
          (∀ m ∈ d.buffer 2, m.dst = 1 ∨ m.dst = 3) ∧ (∃ m ∈ d.buffer 2, m.dst = 1))) = true := by decide +kernel
  split at key
  · cases key
  · rename_i d hd
    refine ⟨d, hd, ?_⟩
    simp only [Bool.and_eq_true, decide_eq_true_eq] at key
    obtain ⟨⟨⟨h1, h2, h3⟩, hs⟩, h4, h5, h6, h7⟩ := key
    split at hs
    · rename_i a b ea eb
      rw [decide_eq_true_eq] at hs
      exact ⟨h1, h2, h3, by rw [ea, hs.1], by rw [eb, hs.2], h4, h5, h6, h7⟩
    · cases hs

/-- For every capacity of the channels, the tasks of servers 1 and 2 can come to wait for each other. -/
theorem stuck (cap : Nat) : ∃ (as : List (DAction Nat (List Nat))) (d : ND), (∀ a ∈ as, a.Only fun _ => False) ∧ Deploy.init.run cc cap as = some d ∧ d.Stuck cap := by
  obtain ⟨d, hd, t1, t2, t3, s1, s2, b1, b1', b2, b2'⟩ := begin_run cap
  have hm : ∀ (a b : NodeId) (r : Nat) (m : Message Nat (List Nat)),
      m ∈ ([.paxos (prep a b), .paxos (prep a 3), .ble ⟨a, b, .request r⟩, .ble ⟨a, 3, .request r⟩] : List (Message Nat (List Nat))) → m.dst = b ∨ m.dst = 3 := by
    intro a b r m hm
    simp only [List.mem_cons, List.not_mem_nil, or_false] at hm
    rcases hm with rfl | rfl | rfl | rfl
    · exact .inl rfl
    · exact .inr rfl
    · exact .inl rfl
    · exact .inr rfl
  obtain ⟨as, da, ha, ea, ba, ka⟩ := Deploy.fills (cc := cc) (cap := cap) (i := 1) (j := 2) (op := lone1) (by decide) (by decide) lone1_tick (fun r => lone1_take (r + 1))
    (fun r => hm 1 2 (r + 1)) (fun r => ⟨_, .head _, rfl⟩) cap 3 d (Nat.le_add_left ..) s1 t1 t2 t3 b1 b1'
  obtain ⟨bs, db, hb, eb, bb, kb⟩ := Deploy.fills (cc := cc) (cap := cap) (i := 2) (j := 1) (op := lone2) (by decide) (by decide) lone2_tick (fun r => lone2_take (r + 1))
    (fun r => hm 2 1 (r + 1)) (fun r => ⟨_, .head _, rfl⟩) cap 3 da (Nat.le_add_left ..) (by rw [ea.servers 2 (by decide)]; exact s2)
    (by rw [ea.task]; exact t2) (by rw [ea.task]; exact t1) (by rw [ea.task]; exact t3) (by rw [ea.buffer 2 (by decide)]; exact b2)
    (by rw [ea.buffer 2 (by decide)]; exact b2')
  refine ⟨begin ++ (as ++ bs), db, fun a h => ?_, by rw [Deploy.run_append, hd, Option.bind, Deploy.run_append, ha]; exact hb, ?_⟩
  · rcases List.mem_append.1 h with h | h
    · unfold begin at h
      simp only [List.mem_cons, List.not_mem_nil, or_false] at h
      rcases h with rfl | rfl | rfl | rfl | rfl | rfl | rfl | rfl | rfl | rfl <;> trivial
    · rcases List.mem_append.1 h with h | h
      · rcases ka a h with rfl | rfl | rfl <;> trivial
      · rcases kb a h with rfl | rfl | rfl <;> trivial
  · have ht : db.task = d.task := eb.task.trans ea.task
    exact ⟨by rw [ht]; exact t1, by rw [ht]; exact t2, by rw [eb.buffer 1 (by decide)]; exact ba.1, bb.1, bb.2,
      by rw [eb.channel 2 (by decide)]; exact ba.2⟩

end Sample

end Omni
