import Verif.Proof.StorageRun
import Verif.Props.Witness
/-
Property C51 (properties.jsonl): servers on PersistentStorage read what servers on MemoryStorage read. C18 says so for calls that
respect the log bounds; here it is shown that the calls the servers make in a run do.
-/
namespace Omni

variable {E S : Type} [SnapOps E S]

/-- C51 (full claim: in every run): in every tidy run in which `reconfigure` is not called. Every server has, beside its
MemoryStorage, a PersistentStorage that gets the same write calls and is opened again from its database at every start. Then
after the run no getter tells the two apart. As a run may end with a crash in the middle of a call, after any of its writes, this
covers the storages that the code finds inside a call. Missing: runs with a StopSign (false, `C51_false_stopsign`). -/
theorem C51_persistent_run_partial {rel : Links} {cc : ClusterConfig} {as : List (Action E S)} {c : Cluster E S}
    (ht : Cluster.init.TidyRun cc as rel) (ha : ∀ a ∈ as, a.Only Call.SameConfig) (hr : Cluster.init.run cc as = some c) (n : NodeId) :
    SameGetters (c.servers n).disk (Cluster.init.prun cc (fun _ => {}) as n) := by
  obtain ⟨hP, G, hR⟩ := Cluster.PInv.run (RInv.init cc) (P := fun _ => {}) (fun _ => Sim.init) (as := []) nofun rfl ha ht hr
  obtain ⟨lg, hd⟩ := hR.disk n
  exact (hP n).getters (Mem.settled hd.trim)

/-- C51, opening: opening the database at any moment of such a run would give the very same storage. -/
theorem C51_reopen_run_partial {rel : Links} {cc : ClusterConfig} {as : List (Action E S)} {c : Cluster E S}
    (ht : Cluster.init.TidyRun cc as rel) (ha : ∀ a ∈ as, a.Only Call.SameConfig) (hr : Cluster.init.run cc as = some c) (n : NodeId) :
    PStore.open (Cluster.init.prun cc (fun _ => {}) as n).db = Cluster.init.prun cc (fun _ => {}) as n := by
  obtain ⟨hP, G, hR⟩ := Cluster.PInv.run (RInv.init cc) (P := fun _ => {}) (fun _ => Sim.init) (as := []) nofun rfl ha ht hr
  obtain ⟨lg, hd⟩ := hR.disk n
  exact (hP n).reopen (Mem.settled hd.trim)

/-- C51, granularity: in every tidy run, also with `reconfigure`, every write call a server makes is one atomic write to the
database. -/
theorem C51_one_write {rel : Links} {cc : ClusterConfig} {c c' : Cluster E S} (hc : c.Reachable cc rel) {a : Action E S} (ht : c.Tidy a rel)
    (hs : c.step cc a = some c') (n : NodeId) : ∀ w ∈ c.writes cc a n, w.OneWrite := by
  obtain ⟨as, htr, hr⟩ := hc
  obtain ⟨G, -, h⟩ := (RInv.init cc).run htr hr
  intro w hw
  unfold Cluster.writes at hw
  split at hw
  · split at hw
    · split at hw
      · rename_i op hop
        rw [List.mem_reverse, (OP.build_calls hop).1] at hw
        rw [List.mem_singleton.1 hw]; trivial
      · cases hw
    · cases hw
  · rename_i op i cl hop
    split at hw
    · rename_i e; subst e
      simp only [Cluster.step, hop] at hs
      split at hs
      · cases hs
      · rename_i hc
        exact (h.call hop (by simpa using hc)).2.2.oneWrite w (List.mem_reverse.1 hw)
    · cases hw
  · rename_i op i cl k hop
    split at hw
    · rename_i e; subst e
      simp only [Cluster.step, hop] at hs
      split at hs
      · cases hs
      · rename_i hc
        exact (h.call hop (by simpa using hc)).2.2.oneWrite w (List.mem_of_mem_drop (List.mem_reverse.1 hw))
    · cases hw
  · rename_i op i j hop
    split at hw
    · rename_i e; subst e
      split at hw
      · cases hw
      · rename_i m rest hn
        exact (h.deliver hn hop fun hr p pr hp hpr => by subst hp; exact ht hr p rest pr op hn hpr hop).2.2.oneWrite w (List.mem_reverse.1 hw)
    · cases hw
  · rename_i op i j k hop
    split at hw
    · rename_i e; subst e
      split at hw
      · cases hw
      · rename_i m rest hn
        exact (h.deliver hn hop fun hr p pr hp hpr => by subst hp; exact ht hr p rest pr op hn hpr hop).2.2.oneWrite w
          (List.mem_of_mem_drop (List.mem_reverse.1 hw))
    · cases hw
  · cases hw

attribute [local instance] Sample.noSync
open Sample

/-- Concrete case: servers 1 and 2 decide [7, 8]; server 1 makes a snapshot of the first entry; server 2 crashes and starts
again. -/
example : ∃ (as : List A) (c : C), Cluster.init.TidyRun cc as ∧ (∀ a ∈ as, a.Only Call.SameConfig) ∧ Cluster.init.run cc as = some c ∧
    (c.servers 1).disk.log = [8] ∧ (Cluster.init.prun cc (fun _ => {}) as 1).db.log = [(1, 8)] ∧
    (c.servers 2).disk.log = [7, 8] ∧ (Cluster.init.prun cc (fun _ => {}) as 2).db.log = [(0, 7), (1, 8)] := by
  let as : List A := decide12 ++ [.call 1 (.snapshot (some 1) true), .crash 2, .start 2 (sc 2)]
  have hr : Cluster.init.drainedB cc as = true := by decide +kernel
  have hc : ((Cluster.init.run cc as).map fun c =>
      decide ((c.servers 1).disk.log = [8] ∧ (Cluster.init.prun cc (fun _ => {}) as 1).db.log = [(1, 8)] ∧
    (c.servers 2).disk.log = [7, 8] ∧ (Cluster.init.prun cc (fun _ => {}) as 2).db.log = [(0, 7), (1, 8)])) = some true := by decide +kernel
  cases hs : (Cluster.init : C).run cc as with
  | none => rw [hs] at hc; simp at hc
  | some c =>
    rw [hs] at hc
    simp only [Option.map_some, Option.some.injEq, decide_eq_true_eq] at hc
    exact ⟨as, c, (Cluster.drainedB_sound hr).tidy, by simp [as, decide12, Action.Only, Call.SameConfig], hs, hc⟩

/-! ## F17: a server that holds the StopSign is synchronised again

As in F5 the leader sends `sync_idx` = the follower's accepted index, which counts the StopSign. `append_on_prefix` is called with
an index one behind the last entry. MemoryStorage ignores this; PersistentStorage believes to have an entry there. -/

/-- C51 is false of the code with `reconfigure`: server 2 reconnects after the StopSign was decided. Afterwards `get_log_len`
of PersistentStorage is 2 and not 1, and `get_suffix(0)` is an error. -/
theorem C51_false_stopsign : ¬ ∀ (cc : ClusterConfig) (as : List A) (c : C), Cluster.init.TidyRun cc as →
    Cluster.init.run cc as = some c → ∀ n, SameGetters (c.servers n).disk (Cluster.init.prun cc (fun _ => {}) as n) := by
  intro hall
  have hr : Cluster.init.drainedB cc (reconfRun ++ resync2) = true := by decide +kernel
  have hc : ((Cluster.init.run cc (reconfRun ++ resync2)).map fun c =>
      decide ((c.servers 2).disk.get_log_len = 1 ∧ (c.servers 2).disk.get_suffix 0 = some [7] ∧
        (Cluster.init.prun cc (fun _ => {}) (reconfRun ++ resync2) 2).get_log_len = some 2 ∧
        (Cluster.init.prun cc (fun _ => {}) (reconfRun ++ resync2) 2).get_suffix 0 = none)) = some true := by decide +kernel
  cases hs : (Cluster.init : C).run cc (reconfRun ++ resync2) with
  | none => rw [hs] at hc; simp at hc
  | some c =>
    rw [hs] at hc
    simp only [Option.map_some, Option.some.injEq, decide_eq_true_eq] at hc
    have := (hall cc _ c (Cluster.drainedB_sound hr).tidy hs 2).log_len
    rw [hc.1, hc.2.2.1] at this
    cases this

end Omni
