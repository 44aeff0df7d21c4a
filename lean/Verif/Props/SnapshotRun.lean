import Verif.Proof.SnapRun
import Verif.Spec.Runs
/-
Property C41 (properties.jsonl): what a snapshot that the read functions return contains. The full claim is false
(`C41_false_trim_after_snapshot` in Props/Witness.lean); here what holds.
-/
namespace Omni

variable {E S : Type} [SnapOps E S]

/-- C41 (full claim: whatever calls were made, a snapshot returned as that of the first `k` positions is the snapshot of the
first `k` decided entries): in tidy runs in which `trim` and `reconfigure` are not called, of a snapshot type that obeys the
merge law and is not used in log synchronisation. If a read function of some server returns snapshot `s` of `k` positions, then
`s` is the snapshot of a list of exactly `k` entries, and whatever any server, at any earlier moment of the run or at any moment
of any tidy continuation of it, shows as decided at one of these positions is the entry of this list. Snapshots are made by any
servers, for themselves or for all, at any decided index, in any number, with crashes, restarts and changes of leader between
them. Missing: `trim` (false with it), the StopSign (finding F5) and delta snapshots in synchronisation (finding F4). -/
theorem C41_snapshot_partial {rel : Links} (law : SnapLaw E S) (hu : SnapOps.use_snapshots E S = false) {cc : ClusterConfig}
    {as : List (Action E S)} {c : Cluster E S} (ht : Cluster.init.TidyRun cc as rel) (ha : ∀ a ∈ as, a.Only Call.Quiet)
    (hr : Cluster.init.run cc as = some c) {i : NodeId} {p k : Nat} {s : S} (hs : c.Shows i p (.snapshotted k s)) :
    ∃ D : List E, D.length = k ∧ SnapOps.create D = some s ∧
      ∀ c', (∃ bs, bs <+: as ∧ Cluster.init.run cc bs = some c') ∨ c.Later cc c' rel →
        ∀ j q e, q < k → c'.Shows j q (.decided e) → D[q]? = some e := by
  obtain ⟨G, -, h⟩ := (QInv.init (E := E) cc hu).run law ht ha hr rfl
  obtain ⟨op, hop, hsh⟩ := hs
  have h1 := h.srv i
  rw [hop] at h1
  have h1 : (Prov.quiet hu (SnapPair cc G)).srv op := h1
  have h2 := h.rinv.srv i
  rw [hop] at h2
  obtain ⟨hv, ⟨lg, hC, -⟩, -⟩ := h2
  have h3 := (hsh.prov h1.sp.ist fun y hy => by rw [hC.mir.comp, ← hy]; exact h1.sp.ist.sto.pair).2
  rcases h3 with ⟨-, h3⟩ | ⟨b, l, s', hch, hk, e, hcr⟩
  · cases h3
  cases e
  refine ⟨l.es.take k, by simp; omega, hcr, fun c' hc' j q e hq he => ?_⟩
  have cmp : ∀ {G' : Ghost E}, Mono G G' → Abs cc G' → (∃ b l, G'.Chosen cc b l ∧ l.es[q]? = some e) → (l.es.take k)[q]? = some e := by
    rintro G' hm hA ⟨b', l', hch', hl'⟩
    rw [List.getElem?_take_of_lt hq]
    have hlt : q < l'.es.length := by
      rcases Nat.lt_or_ge q l'.es.length with hh | hh
      · exact hh
      · rw [List.getElem?_eq_none hh] at hl'; cases hl'
    rcases hA.chosen_comparable hv (hch.mono hm) hch' with hx | hx
    · obtain ⟨t, ht⟩ := Lg.pre hx
      rw [← ht, List.getElem?_append_left (by omega)] at hl'
      exact hl'
    · obtain ⟨t, ht⟩ := Lg.pre hx
      rw [← ht, List.getElem?_append_left hlt]
      exact hl'
  rcases hc' with hc' | ⟨bs, hb, hrun⟩
  · exact cmp (Mono.refl G) h.rinv.abs (h.hist c' (.inr hc') j q e he)
  · obtain ⟨G', hm, hR⟩ := h.rinv.run hb hrun
    exact cmp hm hR.abs (hR.shown he).2

attribute [local instance] Sample.noSync
open Sample

/-- Concrete case: servers 1 and 2 decide [7, 8]; server 1 makes a snapshot of the first entry and then one of both for all
servers. Both show the snapshot of two positions. -/
example : ∃ (as : List A) (c : C), Cluster.init.TidyRun cc as ∧ (∀ a ∈ as, a.Only Call.Quiet) ∧ Cluster.init.run cc as = some c ∧
    c.Shows 1 0 (.snapshotted 2 [7, 8]) ∧ c.Shows 2 1 (.snapshotted 2 [7, 8]) ∧ SnapLaw Nat (List Nat) ∧
    SnapOps.use_snapshots Nat (List Nat) = false := by
  let as : List A := decide12 ++ [.call 1 (.snapshot (some 1) true), .call 1 (.snapshot none false), .take 1, .deliver 1 2]
  have hr : Cluster.init.drainedB cc as = true := by decide +kernel
  have hc : ((Cluster.init.run cc as).map fun c =>
      onUp c 1 (fun op => op.read 0 = some (some (.snapshotted 2 [7, 8]))) &&
      onUp c 2 (fun op => op.read 1 = some (some (.snapshotted 2 [7, 8])))) = some true := by decide +kernel
  cases hs : (Cluster.init : C).run cc as with
  | none => rw [hs] at hc; simp at hc
  | some c =>
    rw [hs] at hc
    simp only [Option.map_some, Option.some.injEq, Bool.and_eq_true] at hc
    obtain ⟨op, h1, h1'⟩ := onUp_elim hc.1
    obtain ⟨op', h2, h2'⟩ := onUp_elim hc.2
    exact ⟨as, c, (Cluster.drainedB_sound hr).tidy, by simp [as, decide12, Action.Only, Call.Quiet], hs,
      ⟨op, h1, .read (of_decide_eq_true h1')⟩, ⟨op', h2, .read (of_decide_eq_true h2')⟩,
      fun a b x y h h' => by cases h; cases h'; rfl, rfl⟩

end Omni
