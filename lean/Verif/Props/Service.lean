import Verif.Proof.Service
import Verif.Proof.Embed
import Verif.Proof.Heartbeat
/-
C58: a service that is reconfigured again and again (Model/Service.lean). C59: messages of another configuration.
"Partial" refers to the restriction to tidy runs, as in Props/Agreement.lean.
-/
namespace Omni

variable {E S : Type} [SnapOps E S]

/-! ### Sample runs -/

section sample
open Sample

/-- Executable check that an action is drained in its generation. -/
def Service.drainedB [SnapOps Nat (List Nat)] (s : Service Nat (List Nat)) : SAction Nat (List Nat) → Bool
  | .act g _ a => (s.gen g).drainedB {} [a]
  | _ => true

/-- Run actions that are drained in their generation and satisfy `ok`; `none` if one is not. -/
def Service.drainedRun [SnapOps Nat (List Nat)] (ok : SAction Nat (List Nat) → Prop) [DecidablePred ok] (s : Service Nat (List Nat)) :
    List (SAction Nat (List Nat)) → Option (Service Nat (List Nat))
  | [] => some s
  | a :: as =>
    if ok a ∧ s.drainedB a = true then
      match s.step a with
      | none => none
      | some s' => s'.drainedRun ok as
    else none

theorem Service.drainedRun_sound [SnapOps Nat (List Nat)] {ok : SAction Nat (List Nat) → Prop} [DecidablePred ok]
    {s s' : Service Nat (List Nat)} {as : List (SAction Nat (List Nat))} (h : s.drainedRun ok as = some s') : s.Later ok s' := by
  suffices s.TidyRun ok as ∧ s.run as = some s' from ⟨as, this⟩
  induction as generalizing s with
  | nil => cases h; exact ⟨trivial, rfl⟩
  | cons a as ih =>
    simp only [Service.drainedRun] at h
    by_cases hc : ok a ∧ s.drainedB a = true
    · rw [if_pos hc] at h
      split at h
      · cases h
      · rename_i t ht
        obtain ⟨h1, h2⟩ := ih h
        refine ⟨⟨⟨?_, hc.1⟩, fun t' ht' => ?_⟩, ?_⟩
        · cases a with
          | act g k a => exact (Cluster.drainedB_sound (cc := {}) hc.2).1.tidy
          | _ => trivial
        · rw [ht] at ht'; cases ht'; exact h1
        · unfold Service.run; rw [ht]; exact h2
    · rw [if_neg hc] at h
      cases h

instance : DecidablePred (SAction.Separate (E := Nat) (S := List Nat)) := fun a => by
  cases a <;> unfold SAction.Separate <;> infer_instance

/-- The next configuration: the same servers. -/
def cc2 : ClusterConfig := { configuration_id := 2, nodes := [1, 2, 3] }

/-- Servers 1 and 2 of the first configuration decide [7, 8] and the StopSign with the next configuration; server 3 receives
nothing. -/
def service0 : List (SAction Nat (List Nat)) :=
  (decide12 ++ ([.call 1 (.reconfigure cc2 none), .take 1, .deliver 1 2, .take 2, .deliver 2 1, .take 1, .deliver 1 2,
    .take 2] : List A)).map
    (.act 0 0) ++ [.learn 0 1]

/-- Servers 1 and 3 of the next configuration decide 10. -/
def service1 : List (SAction Nat (List Nat)) := ([.start 1 (sc 1), .start 3 (sc 3), .call 1 .tryBecomeLeader, .take 1, .lose 1 2 0,
  .lose 1 2 0, .lose 1 3 1, .deliver 1 3, .take 3, .lose 3 1 1, .lose 3 2 0, .deliver 3 1, .take 1, .deliver 1 3, .take 3,
  .deliver 3 1, .take 1, .call 1 (.append 10), .take 1, .deliver 1 3, .take 3, .deliver 3 1, .take 1,
  .deliver 1 3, .take 3] : List A).map (.act 1 0)

/-- In the first configuration server 2 makes itself leader with the promise of server 3. A copy of its Prepare and its AcceptSync to
server 3 reach the new instance of server 3. -/
def strayRun : List (SAction Nat (List Nat)) := ([.call 2 .tryBecomeLeader, .take 2, .rearrange 2 3 [0, 0],
  .deliver 2 3, .take 3, .rearrange 3 2 [0], .deliver 3 2, .take 2] : List A).map (.act 0 0) ++ [.stray 0 1 2 3, .stray 0 1 2 3]

end sample

/-! ## C58 -/

/-- C58, configurations: whatever configurations users learn for a generation, from whichever server and at whichever moment, are
equal. -/
theorem C58_one_configuration_partial {rel : Links} (cc : ClusterConfig) (s s' : Service E S) (h : Service.SameRun SAction.Separate cc s s' rel)
    (g : Nat) (x y : ClusterConfig) (hx : x ∈ s.learnt g) (hy : y ∈ s'.learnt g) : x = y := by
  obtain ⟨h1, h2, h3 | h3⟩ := h.pair
  · exact h2.one g x (h3.learnt g x hx) y hy
  · exact h1.one g x hx y (h3.learnt g y hy)

/-- C58: a server that runs in a generation has the id of, and is a member of, a valid configuration that was learnt for it. -/
theorem C58_members_partial {rel : Links} (cc : ClusterConfig) (s : Service E S) (h : (Service.init cc).Later SAction.Separate s rel) (g : Nat)
    (i : NodeId) (op : OP E S) (hop : (s.gen g).servers i = .up op) :
    ∃ x ∈ s.learnt g, x.validate = .ok () ∧ i ∈ x.nodes ∧ op.ble.pid = i ∧ op.ble.configuration_id = x.configuration_id := by
  have hi := ((Service.Inv.init cc).later h).1
  obtain ⟨x, hx⟩ := hi.running hop
  obtain ⟨G, hG⟩ := reach_one (hi.reach g x hx)
  have hs := hG.srv i
  rw [hop] at hs
  obtain ⟨h1, ⟨lg, hC, -⟩, h3⟩ := hs
  exact ⟨x, hx, h1, hC.node.1, h3.pid, h3.cfg⟩

/-- C58, agreement: a position of the log of the service is a generation and a position in its log. Two servers that show a decided
entry at the same position, at whichever moments, show the same. -/
theorem C58_agreement_partial {rel : Links} (cc : ClusterConfig) (s s' : Service E S) (h : Service.SameRun SAction.Separate cc s s' rel)
    (g : Nat) (i j : NodeId) (p : Nat) (e f : E) (he : (s.gen g).Shows i p (.decided e)) (hf : (s'.gen g).Shows j p (.decided f)) :
    e = f := by
  obtain ⟨op, hop, -⟩ := id he
  obtain ⟨op', hop', -⟩ := id hf
  obtain ⟨x, -, hx⟩ := h.gen hop hop'
  exact C01_agreement_partial x _ _ hx i j p e f he hf

/-- C58, order: as soon as a configuration for the next generation has been learnt (in particular, when a server of it has been started),
the log of this generation is complete: there is a position behind which nothing is ever shown as decided. -/
theorem C58_sealed_partial {rel : Links} (cc : ClusterConfig) (s : Service E S) (h : (Service.init cc).Later SAction.Separate s rel) (g : Nat)
    (hl : s.learnt (g + 1) ≠ []) :
    ∃ q, ∀ s', s.Later SAction.Separate s' rel → ∀ j p e, (s'.gen g).Shows j p (.decided e) → p < q := by
  have hi := ((Service.Inv.init cc).later h).1
  obtain ⟨x, hx⟩ := List.exists_mem_of_ne_nil _ hl
  obtain ⟨z, hz, c, j, ss, h1, h2, ⟨op, hop, hss⟩, -⟩ := hi.src g x hx
  refine ⟨op.sp.ist.storage.compacted_idx + op.sp.ist.storage.log.length, fun s' hs' i p e he => ?_⟩
  exact C09_nothing_after_reconfigured_partial z c (s'.gen g) (.inl ⟨h1, h2.trans ((hi.later hs').2.later g z hz)⟩) j i op hop ss hss p e he

/-- C58, order, with the position: it is that of the StopSign. Whatever any server ever shows as decided in the generation lies before the
position at which any server ever shows its StopSign as decided. -/
theorem C58_sealed_at_stopsign_partial {rel : Links} (cc : ClusterConfig) (s s' : Service E S) (h : Service.SameRun SAction.Separate cc s s' rel)
    (g : Nat) (i j : NodeId) (op : OP E S) (hop : (s.gen g).servers i = .up op) (p q : Nat) (ss : StopSign) (e : E)
    (hs : op.read q = some (some (.stopSign ss true))) (he : (s'.gen g).Shows j p (.decided e)) : p < q := by
  obtain ⟨op', hop', -⟩ := id he
  obtain ⟨x, -, hx⟩ := h.gen hop hop'
  exact C09_nothing_after_stopsign_partial x _ _ hx i j op hop p q ss e hs he

/-- C58: a generation other than the first has running servers only if a server of the generation before showed a decided StopSign,
earlier in the run, with the configuration that they run. -/
theorem C58_started_by_stopsign_partial {rel : Links} (cc : ClusterConfig) (s : Service E S) (h : (Service.init cc).Later SAction.Separate s rel) (g : Nat)
    (i : NodeId) (op : OP E S) (hop : (s.gen (g + 1)).servers i = .up op) :
    ∃ (z : ClusterConfig) (c : Cluster E S) (j : NodeId) (ss : StopSign), c.Reachable z rel ∧ c.Later z (s.gen g) rel ∧ c.Reconfigured j ss ∧
      (s.gen (g + 1)).Reachable ss.next_config rel := by
  have hi := ((Service.Inv.init cc).later h).1
  obtain ⟨x, hx⟩ := hi.running hop
  obtain ⟨z, -, c, j, ss, h1, h2, h3, h4⟩ := hi.src g x hx
  exact ⟨z, c, j, ss, h1, h2, h3, h4 ▸ hi.reach (g + 1) x hx⟩

/-- C59, the heartbeats: when a heartbeat message sent in one generation reaches an instance of another one with a different configuration
id, the instance answers it if it is a request, with its own ballot, and ignores it otherwise. Nothing else happens. (Full claim: no
message of another configuration changes more than that.) -/
theorem C59_stray_heartbeats_partial {rel : Links} (cc : ClusterConfig) (s : Service E S) (h : (Service.init cc).Later SAction.Separate s rel)
    (g k : Nat) (x y : ClusterConfig) (hx : x ∈ s.learnt g) (hy : y ∈ s.learnt k) (hne : x.configuration_id ≠ y.configuration_id)
    (i j : NodeId) (m : BLEMessage) (hm : .ble m ∈ (s.gen g).net i j) (op : OP E S) (hop : (s.gen k).servers j = .up op) :
    ∃ out, op.callResult (.handleIncoming (.ble m)) =
        .up { op.clearTrail with ble := { op.ble with outgoing := op.ble.outgoing ++ out } } ∧
      ∀ a ∈ out, a.src = j ∧ a.dst = m.src ∧ ∃ n r, m.msg = .request n ∧ a.msg = .reply r ∧ r.ballot = op.ble.current_ballot ∧
        r.ballot.config_id = y.configuration_id := by
  have hi := ((Service.Inv.init cc).later h).1
  have hb : ∀ {g x}, x ∈ s.learnt g → ∃ l, HBRun x.configuration_id l ∧ Embeds (s.gen g) l := by
    intro g x hx
    obtain ⟨as, -, hr⟩ := hi.reach g x hx
    obtain ⟨bs, l, -, h1, h2⟩ := Embeds.init.run (ok := fun _ => True) (fun a _ => by cases a <;> trivial) hr
    exact ⟨l, HBRun.runs h1, h2⟩
  obtain ⟨l, hl, hel⟩ := hb hx
  obtain ⟨l', hl', hel'⟩ := hb hy
  have ho := hl'.srv j op (by rw [hel'.servers]; exact hop)
  have hsent := hl.sent m (hel.net i j _ hm).1
  have hres : op.callResult (.handleIncoming (.ble m)) = .up { op.clearTrail with ble := op.ble.handle m } := rfl
  rw [hres]
  cases hmsg : m.msg with
  | request n =>
    refine ⟨[⟨op.ble.pid, m.src, .reply ⟨n, op.ble.current_ballot, op.ble.leader, op.ble.happy⟩⟩], ?_, fun a ha => ?_⟩
    · simp only [BLE.handle, hmsg, BLE.handle_request]
    · rw [List.mem_singleton.1 ha]
      exact ⟨ho.self, rfl, n, _, rfl, rfl, rfl, ho.own.2⟩
  | reply r =>
    refine ⟨[], ?_, nofun⟩
    have h1 := (hsent r hmsg).1.2
    have h2 := ho.cfg
    simp only [BLE.handle, hmsg, BLE.handle_reply]
    rw [if_neg (by omega), List.append_nil]

section noSync
attribute [local instance] Sample.noSync
open Sample

/-- Concrete case: a run through two generations, in which 8 is decided at position 1 of the first and 10 at position 0 of the second,
on two servers each. -/
example : ∃ s s' : Service Nat (List Nat), Service.SameRun SAction.Separate cc s s' ∧ s.learnt 1 = [cc2] ∧
    (s.gen 0).Shows 2 1 (.decided 8) ∧ (s'.gen 0).Shows 1 1 (.decided 8) ∧ (s'.gen 1).Shows 1 0 (.decided 10) ∧
    (s'.gen 1).Shows 3 0 (.decided 10) := by
  have key : (match (Service.init cc).drainedRun SAction.Separate service0 with
    | none => false
    | some s => decide (s.learnt 1 = [cc2]) && onUp (s.gen 0) 2 (fun op => op.read 1 = some (some (.decided 8))) &&
      match s.drainedRun SAction.Separate service1 with
      | none => false
      | some s' => onUp (s'.gen 0) 1 (fun op => op.read 1 = some (some (.decided 8))) &&
          onUp (s'.gen 1) 1 (fun op => op.read 0 = some (some (.decided 10))) &&
          onUp (s'.gen 1) 3 (fun op => op.read 0 = some (some (.decided 10)))) = true := by decide +kernel
  split at key
  · cases key
  · rename_i s hs
    simp only [Bool.and_eq_true, decide_eq_true_eq] at key
    obtain ⟨⟨h1, h2⟩, key⟩ := key
    split at key
    · cases key
    · rename_i s' hs'
      simp only [Bool.and_eq_true] at key
      obtain ⟨⟨h3, h4⟩, h5⟩ := key
      obtain ⟨o2, g2, k2⟩ := onUp_elim h2
      obtain ⟨o3, g3, k3⟩ := onUp_elim h3
      obtain ⟨o4, g4, k4⟩ := onUp_elim h4
      obtain ⟨o5, g5, k5⟩ := onUp_elim h5
      exact ⟨s, s', .inl ⟨Service.drainedRun_sound hs, Service.drainedRun_sound hs'⟩, h1, ⟨_, g2, .read (of_decide_eq_true k2)⟩,
        ⟨_, g3, .read (of_decide_eq_true k3)⟩, ⟨_, g4, .read (of_decide_eq_true k4)⟩, ⟨_, g5, .read (of_decide_eq_true k5)⟩⟩

/-- Concrete case for `C58_sealed_at_stopsign_partial`: the StopSign of the first generation is decided at position 2, behind 8. -/
example : ∃ s : Service Nat (List Nat), Service.SameRun SAction.Separate cc s s ∧ (∃ op, (s.gen 0).servers 1 = .up op ∧
    op.read 2 = some (some (.stopSign ⟨cc2, none⟩ true))) ∧ (s.gen 0).Shows 2 1 (.decided 8) := by
  have key : (match (Service.init cc).drainedRun SAction.Separate (service0 ++ service1) with
    | none => false
    | some s => onUp (s.gen 0) 1 (fun op => op.read 2 = some (some (.stopSign ⟨cc2, none⟩ true))) &&
        onUp (s.gen 0) 2 (fun op => op.read 1 = some (some (.decided 8)))) = true := by decide +kernel
  split at key
  · cases key
  · rename_i s hs
    simp only [Bool.and_eq_true] at key
    obtain ⟨o1, g1, k1⟩ := onUp_elim key.1
    obtain ⟨o2, g2, k2⟩ := onUp_elim key.2
    exact ⟨s, .inl ⟨Service.drainedRun_sound hs, [], trivial, rfl⟩, ⟨o1, g1, of_decide_eq_true k1⟩, ⟨_, g2, .read (of_decide_eq_true k2)⟩⟩

/-! ## C59 -/

/-- C59 is false of the code: the handlers of log replication do not look at the configuration of a message (ballots are compared
without `config_id`). When messages of the previous configuration reach an instance of the present one, it loses what it has decided,
and shows an entry of the previous configuration in its place. -/
theorem C59_false_stray_messages : ¬ ∀ (cc : ClusterConfig) (s : Service Nat (List Nat)),
    (Service.init cc).Later (fun _ => True) s → ∀ (g : Nat) (i j : NodeId) (p : Nat) (e f : Nat),
    (s.gen g).Shows i p (.decided e) → (s.gen g).Shows j p (.decided f) → e = f := by
  intro hall
  have key : (match (Service.init cc).drainedRun (fun _ => True) (service0 ++ service1 ++ strayRun) with
    | none => false
    | some s => onUp (s.gen 1) 1 (fun op => op.read 0 = some (some (.decided 10))) &&
        onUp (s.gen 1) 3 (fun op => op.read 0 = some (some (.decided 7)))) = true := by decide +kernel
  split at key
  · cases key
  · rename_i s hs
    simp only [Bool.and_eq_true] at key
    obtain ⟨o1, g1, k1⟩ := onUp_elim key.1
    obtain ⟨o2, g2, k2⟩ := onUp_elim key.2
    have := hall cc s (Service.drainedRun_sound hs) 1 1 3 0 10 7 ⟨_, g1, .read (of_decide_eq_true k1)⟩
      ⟨_, g2, .read (of_decide_eq_true k2)⟩
    omega

/-- Concrete case for `C59_stray_heartbeats_partial`: at the end of the sample run a heartbeat request of server 2 of the first
generation is on its way to server 3, and server 3 runs in the second generation, which has another id. -/
example : ∃ s : Service Nat (List Nat), (Service.init cc).Later SAction.Separate s ∧ cc ∈ s.learnt 0 ∧ cc2 ∈ s.learnt 1 ∧
    cc.configuration_id ≠ cc2.configuration_id ∧ .ble ⟨2, 3, .request 1⟩ ∈ (s.gen 0).net 2 3 ∧ ∃ op, (s.gen 1).servers 3 = .up op := by
  have key : (match (Service.init cc).drainedRun SAction.Separate (service0 ++ service1 ++ [.act 0 0 (.crash 2),
      .act 0 0 (.start 2 (sc 2)), .act 0 0 (.take 2)]) with
    | none => false
    | some s => decide (cc ∈ s.learnt 0 ∧ cc2 ∈ s.learnt 1 ∧ .ble ⟨2, 3, .request 1⟩ ∈ (s.gen 0).net 2 3) &&
        onUp (s.gen 1) 3 (fun _ => true)) = true := by decide +kernel
  split at key
  · cases key
  · rename_i s hs
    simp only [Bool.and_eq_true, decide_eq_true_eq] at key
    obtain ⟨o, g, -⟩ := onUp_elim key.2
    exact ⟨s, Service.drainedRun_sound hs, key.1.1, key.1.2.1, by decide, key.1.2.2, o, g⟩

end noSync

end Omni
