import Verif.Proof.Example
import Verif.Proof.Stuck
import Verif.Props.Agreement
import Verif.Props.Once
import Verif.Props.RealTime
import Verif.Props.Panic
import Verif.Props.Routing
import Verif.Props.KV
/-
C66, C67, C68: the example applications (Model/Example.lean). Their channels keep messages in order and lose nothing except when a
task ends, so that agreement needs no assumption on the order in which things happen.
-/
namespace Omni

variable {E S : Type} [SnapOps E S]

/-! ## C66 -/

/-- C66, agreement: what any two servers show as decided at one position, at any two moments of any run of the application, is the same.
The servers may be those of any configuration, the channels of any capacity, and `main` may make any calls. -/
theorem C66_agreement (cc : ClusterConfig) (cap : Nat) (d d' : Deploy E S) (h : d.SameRun cc cap d') (i j : NodeId) (p : Nat) (e f : E)
    (he : d.Shows i p (.decided e)) (hf : d'.Shows j p (.decided f)) : e = f := by
  obtain ⟨c, c', hc, h1, h2⟩ := h.cluster
  unfold Deploy.Shows at he hf
  rw [h1] at he
  rw [h2] at hf
  exact C01_agreement_partial cc c c' hc i j p e f he hf

/-- C66, counting: distinct positions that were shown as decided with entries that satisfy `P`, each on some server at some moment of the run,
are at most as many as the `append` calls with such entries. -/
theorem C66_decided_count (cc : ClusterConfig) (cap : Nat) (as : List (DAction E S)) (d : Deploy E S) (hr : Deploy.init.run cc cap as = some d)
    (P : E → Bool) (ps : List Nat) (hn : ps.Nodup)
    (hp : ∀ p ∈ ps, ∃ bs cs d1 i e, as = bs ++ cs ∧ Deploy.init.run cc cap bs = some d1 ∧ d1.Shows i p (.decided e) ∧ P e = true) :
    ps.length ≤ (appended as).countP P := by
  obtain ⟨c, hc, hs⟩ := Deploy.Sim.init.run hr
  rw [← Deploy.trace_appends P hr]
  refine C63_decided_count_partial cc _ c (.of_kept (Deploy.trace_kept ..) _) (.of_inOrder (Action.kept_inOrder (Deploy.trace_kept ..))) hc P ps hn
    fun p h => ?_
  obtain ⟨bs, cs, d1, i, e, rfl, h1, ⟨op, hop, h2⟩, h3⟩ := hp p h
  obtain ⟨c1, hc1, hs1⟩ := Deploy.Sim.init.run h1
  exact ⟨_, _, c1, i, e, Deploy.trace_append h1 cs, hc1, ⟨op, by rw [← hs1.servers]; exact hop, h2⟩, h3⟩

/-- C66, real time: if `append` is called with `e` only after a server had decided some positions, `e` is not decided at any of them, on any server. -/
theorem C66_real_time (cc : ClusterConfig) (cap : Nat) (as bs : List (DAction E S)) (d d' : Deploy E S) (h1 : Deploy.init.run cc cap as = some d)
    (h2 : d.run cc cap bs = some d') (e : E) (hno : e ∉ appended as) (i : NodeId) (op : OP E S) (hi : d.servers i = .up op) (j : NodeId) (q : Nat)
    (hq : d'.Shows j q (.decided e)) : op.get_decided_idx ≤ q := by
  classical
  obtain ⟨c, hc, hs⟩ := Deploy.Sim.init.run h1
  obtain ⟨c', hc', hs'⟩ := hs.run h2
  obtain ⟨op', hj, hq⟩ := hq
  refine C84_real_time_partial cc (Deploy.init.trace cc cap as) (d.trace cc cap bs) c c' (rel := Links.all) (.of_kept ?_ _) hc hc' e ?_ i op
    (by rw [← hs.servers]; exact hi) j q ⟨op', by rw [← hs'.servers]; exact hj, hq⟩
  · rw [← Deploy.trace_append h1]
    exact Deploy.trace_kept ..
  · rw [Deploy.trace_appends _ h1, List.countP_eq_zero]
    intro x hx he
    exact hno (of_decide_eq_true he ▸ hx)

/-- C66, channels: if `main` calls `reconnected` with pids of the configuration only (it does not call it at all), every message that a task has
to send is for a server of the configuration, for which there is a channel. -/
theorem C66_channels (cc : ClusterConfig) (cap : Nat) (as : List (DAction E S)) (ha : ∀ a ∈ as, a.Only (Call.KnownPeers cc)) (d : Deploy E S)
    (hr : Deploy.init.run cc cap as = some d) (i : NodeId) (m : Message E S) (hm : m ∈ d.buffer i) : m.dst ∈ cc.nodes := by
  obtain ⟨bs, l, hb, hl, -, -, h1, -, -⟩ := Deploy.loose (ok := Call.KnownPeers cc) trivial ha hr
  rcases h1 i m hm with h | h
  · cases m with
    | ble m => exact (C60_heartbeats cc bs l hl m h).2.1
    | paxos m =>
      rcases (C60_routing cc bs l hl m h).2.2.1 with h | ⟨-, k, hk⟩
      · exact h
      · exact hb _ hk
  · exact h

/-- C66, no panics: with an entry type without snapshots (that of the dashboard), if no server has pid 0 and `main` calls neither `trim` nor
`snapshot`, nor `reconnected` with foreign pids, then a task, once spawned, runs until it is aborted or the drawing of the dashboard panics, and its
server keeps running. -/
theorem C66_stays_up (hu : SnapOps.use_snapshots E S = false) (cc : ClusterConfig) (h0 : 0 ∉ cc.nodes) (cap : Nat) (as : List (DAction E S))
    (ha : ∀ a ∈ as, a.Only fun c => c.NoCompaction ∧ c.KnownPeers cc) (d : Deploy E S) (hr : Deploy.init.run cc cap as = some d)
    (i : NodeId) (hk : ∀ a ∈ as, ¬ a.Kills i) (cfg : ServerConfig) (hi : .spawn i cfg ∈ as) : d.task i = .running ∧ ∃ op, d.servers i = .up op := by
  have key : ∀ (post pre : List (DAction E S)) (d : Deploy E S), Deploy.init.run cc cap pre = some d →
      (∀ a ∈ pre, a.Only fun c => c.NoCompaction ∧ c.KnownPeers cc) → (∀ a ∈ post, a.Only fun c => c.NoCompaction ∧ c.KnownPeers cc) →
      (∀ a ∈ post, ¬ a.Kills i) → (d.task i = .waiting ∧ .spawn i cfg ∈ post) ∨ (d.task i = .running ∧ ∃ op, d.servers i = .up op) →
      ∀ d', d.run cc cap post = some d' → d'.task i = .running ∧ ∃ op, d'.servers i = .up op := by
    intro post
    induction post with
    | nil =>
      intro pre d _ _ _ _ h d' hd
      cases hd
      rcases h with ⟨-, h⟩ | h
      · cases h
      · exact h
    | cons a post ih =>
      intro pre d hpre hpa hpo hk h d' hd
      simp only [Deploy.run] at hd
      split at hd
      · cases hd
      · rename_i d1 h1
        have hall : ∀ x ∈ pre ++ [a], x.Only fun c => c.NoCompaction ∧ c.KnownPeers cc := fun x hx => by
          rcases List.mem_append.1 hx with hx | hx
          · exact hpa x hx
          · rw [List.mem_singleton.1 hx]; exact hpo a (.head _)
        refine ih (pre ++ [a]) d1 (by rw [Deploy.run_append, hpre]; simp only [Option.bind, Deploy.run, h1]) hall
          (fun x hx => hpo x (.tail _ hx)) (fun x hx => hk x (.tail _ hx)) ?_ d' hd
        have hch := C66_channels cc cap pre (fun x hx => by
            have := hpa x hx
            cases x <;> first | trivial | exact this.2) d hpre
        obtain ⟨bs, l, hb, hl, hsv, hcn, -, hkn, hid⟩ := Deploy.loose (ok := fun c => c.NoCompaction ∧ c.KnownPeers cc) ⟨trivial, trivial⟩ hpa hpre
        obtain ⟨s1, s2, s3⟩ := Deploy.step_up h1 (hk a (.head _)) (hch i) (hid i) (fun op c hop hc => by
          refine Loose.no_panic hu h0 (fun b hx => by have := hb b hx; cases b <;> first | trivial | exact this.1) hl (hsv ▸ hop) (call := c) ?_ ?_
          · rcases hc with rfl | rfl | ⟨m, rfl, -⟩
            · trivial
            · exact (hpo _ (.head _)).1
            · trivial
          · intro m e
            rcases hc with rfl | rfl | ⟨m', e', hr, x, hx, rfl⟩
            · cases e
            · subst e
              simp only [Deploy.step, hop, Call.isIncoming] at h1
              cases h1
            · rw [e] at e'; cases e'
              exact hcn i (by rw [hr]; nofun) x hx)
        rcases h with ⟨h, h'⟩ | ⟨h, h'⟩
        · rcases List.mem_cons.1 h' with e | h'
          · exact .inr (s3 cfg e.symm)
          · by_cases e : ∃ cfg, a = .spawn i cfg
            · obtain ⟨cfg, e⟩ := e
              exact .inr (s3 cfg e)
            · exact .inl ⟨s2 h fun cfg e' => e ⟨cfg, e'⟩, h'⟩
        · exact .inr (s1 h h')
  exact key as [] Deploy.init rfl nofun ha hk (.inl ⟨rfl, hi⟩) d hr

/-! ## C67 -/

namespace Deploy

/-- A read of the decided suffix that shows decided entries only: they are at the positions from `n` on. -/
theorem suffix_shows {cc : ClusterConfig} {cap : Nat} {as : List (DAction E S)} {d : Deploy E S} (hr : Deploy.init.run cc cap as = some d)
    {i : NodeId} {op : OP E S} (hop : d.servers i = .up op) {n : Nat} {es : List E}
    (hl : op.read_decided_suffix n = some (some (es.map .decided))) {k : Nat} {e : E} (hk : es[k]? = some e) :
    d.Shows i (n + k) (.decided e) := by
  obtain ⟨c, -, hc, -, hs, -⟩ := Deploy.later hr (bs := []) rfl
  obtain ⟨G, hG⟩ := reach_one hc
  obtain ⟨hv, lg, hC, -⟩ := hG.up (hs.servers ▸ hop)
  have sh : ∀ k e, es[k]? = some e → op.Shows (op.posOf (.included n) k) (.decided e) := fun k e hk =>
    .read_decided_suffix n _ k hl (by rw [List.getElem?_map, hk]; rfl) rfl
  have hcz : ¬ n < op.get_compacted_idx := by
    intro hlt
    obtain ⟨e0, h0⟩ : ∃ e, es[0]? = some e := by
      cases es with
      | nil => simp at hk
      | cons x xs => exact ⟨x, rfl⟩
    have h1 := ((sh 0 e0 h0).decided hC.mir).2
    have hcp : op.get_compacted_idx = op.sp.ist.storage.compacted_idx := hC.mir.comp
    simp only [OP.posOf, if_pos hlt] at h1
    unfold Mem.entryAt at h1
    rw [if_pos (by omega)] at h1
    cases h1
  have := sh k e hk
  simp only [OP.posOf, if_neg hcz] at this
  exact ⟨op, hop, this⟩

end Deploy

theorem applyDecided_map (m : KVSnapshot) (es : List KeyValue) :
    applyDecided m (es.map .decided) = es.foldl (fun m e => m.insert e.key e.value) m := by
  induction es generalizing m with
  | nil => rfl
  | cons e es ih => exact ih _

/-- C67, the store of the key-value application (kv_store main.rs 119-169). A server is read from position 0 on, later any server is read from
the position behind: if both reads show decided entries only, the store is the one that results from a list of commands, and that list
is what every server shows as decided, at any moment. -/
theorem C67_store (cc : ClusterConfig) (cap : Nat) (as bs : List (DAction KeyValue KVSnapshot)) (d d' : Deploy KeyValue KVSnapshot)
    (h1 : Deploy.init.run cc cap as = some d) (h2 : d.run cc cap bs = some d') (i j : NodeId) (op op' : OP KeyValue KVSnapshot)
    (hi : d.servers i = .up op) (hj : d'.servers j = .up op') (es fs : List KeyValue)
    (he : op.read_decided_suffix 0 = some (some (es.map .decided)))
    (hf : op'.read_decided_suffix es.length = some (some (fs.map .decided))) :
    ∃ D : List KeyValue, (∀ k, (applyDecided (applyDecided .new (es.map .decided)) (fs.map .decided)).get k = lastWrite D k) ∧
      D.length = es.length + fs.length ∧
      ∀ d0 : Deploy KeyValue KVSnapshot, (∃ xs, xs <+: as ++ bs ∧ Deploy.init.run cc cap xs = some d0) ∨ (∃ cs, d'.run cc cap cs = some d0) →
        ∀ x p e f, D[p]? = some e → d0.Shows x p (.decided f) → e = f := by
  have h12 : Deploy.init.run cc cap (as ++ bs) = some d' := by rw [Deploy.run_append, h1]; exact h2
  refine ⟨es ++ fs, fun k => ?_, List.length_append, fun d0 h0 x p e f hp hs => ?_⟩
  · rw [applyDecided_map, applyDecided_map, ← List.foldl_append, ← KVSnapshot.get_create]; rfl
  · have same : ∀ {as bs : List (DAction KeyValue KVSnapshot)} {d d0 : Deploy KeyValue KVSnapshot}, Deploy.init.run cc cap as = some d →
        as <+: bs → Deploy.init.run cc cap bs = some d0 → d.SameRun cc cap d0 ∧ d0.SameRun cc cap d := by
      rintro as _ d d0 h1 ⟨ys, rfl⟩ h2
      rw [Deploy.run_append, h1] at h2
      exact ⟨⟨as, ys, .inl ⟨h1, h2⟩⟩, ⟨as, ys, .inr ⟨h1, h2⟩⟩⟩
    have hd : d.SameRun cc cap d0 ∧ d'.SameRun cc cap d0 := by
      rcases h0 with ⟨xs, hx, h0⟩ | ⟨cs, h0⟩
      · refine ⟨?_, (same h0 hx h12).2⟩
        rcases List.prefix_or_prefix_of_prefix hx (List.prefix_append as bs) with h | h
        · exact (same h0 h h1).2
        · exact (same h1 h h0).1
      · have h3 : Deploy.init.run cc cap (as ++ bs ++ cs) = some d0 := by rw [Deploy.run_append, h12]; exact h0
        exact ⟨(same h1 ⟨bs ++ cs, by simp⟩ h3).1, (same h12 ⟨cs, rfl⟩ h3).1⟩
    by_cases hlt : p < es.length
    · rw [List.getElem?_append_left hlt] at hp
      have := Deploy.suffix_shows h1 hi he hp
      rw [Nat.zero_add] at this
      exact C66_agreement cc cap d d0 hd.1 i x p e f this hs
    · rw [List.getElem?_append_right (Nat.le_of_not_lt hlt)] at hp
      have := Deploy.suffix_shows h12 hj hf hp
      rw [Nat.add_sub_cancel' (Nat.le_of_not_lt hlt)] at this
      exact C66_agreement cc cap d' d0 hd.2 j x p e f this hs

/-- C67, the run of `main` (kv_store main.rs 83-169): a := 1 and b := 2 are appended somewhere, some server is read from position 0 on, then b := 3
is appended somewhere, and some server is read from position 2 on. If the first read shows two decided entries and nothing else, and the second one
decided entries and nothing else, the store that is printed at the end holds a = 1 and b = 3, in all runs: whoever leads and is aborted, and however the
tasks are scheduled. -/
theorem C67_main (cc : ClusterConfig) (cap : Nat) (as bs : List (DAction KeyValue KVSnapshot)) (d d' : Deploy KeyValue KVSnapshot)
    (h1 : Deploy.init.run cc cap as = some d) (h2 : d.run cc cap bs = some d')
    (ha : appended as = [⟨"a", 1⟩, ⟨"b", 2⟩]) (hb : appended bs = [⟨"b", 3⟩]) (i j : NodeId) (op op' : OP KeyValue KVSnapshot)
    (hi : d.servers i = .up op) (hj : d'.servers j = .up op') (es fs : List KeyValue)
    (he : op.read_decided_suffix 0 = some (some (es.map .decided))) (hes : es.length = 2)
    (hf : op'.read_decided_suffix 2 = some (some (fs.map .decided))) (hfs : fs ≠ []) (k : String) :
    (applyDecided (applyDecided .new (es.map .decided)) (fs.map .decided)).get k =
      if k = "a" then some 1 else if k = "b" then some 3 else none := by
  have h12 : Deploy.init.run cc cap (as ++ bs) = some d' := by rw [Deploy.run_append, h1]; exact h2
  have hab : appended (as ++ bs) = [⟨"a", 1⟩, ⟨"b", 2⟩, ⟨"b", 3⟩] := by
    unfold appended at *
    rw [List.filterMap_append, ha, hb]; rfl
  have s1 : ∀ {p e}, es[p]? = some e → d.Shows i p (.decided e) := fun {p e} h => by
    have := Deploy.suffix_shows h1 hi he h
    rwa [Nat.zero_add] at this
  have s2 : ∀ {p e}, fs[p]? = some e → d'.Shows j (2 + p) (.decided e) := fun h => Deploy.suffix_shows h12 hj hf h
  obtain ⟨x, y, rfl⟩ : ∃ x y, es = [x, y] := by
    match es, hes with
    | [x, y], _ => exact ⟨x, y, rfl⟩
  obtain ⟨z, zs, rfl⟩ : ∃ z zs, fs = z :: zs := by
    match fs, hfs with
    | z :: zs, _ => exact ⟨z, zs, rfl⟩
  have c1 := C66_decided_count cc cap as d h1
  have c2 := C66_decided_count cc cap (as ++ bs) d' h12
  rw [ha] at c1
  rw [hab] at c2
  have m0 : ∀ P : KeyValue → Bool, P x = true → ∃ cs ds d1 i e, as = cs ++ ds ∧ Deploy.init.run cc cap cs = some d1 ∧ d1.Shows i 0 (.decided e) ∧ P e = true :=
    fun P h => ⟨as, [], d, i, x, by simp, h1, s1 rfl, h⟩
  have m1 : ∀ P : KeyValue → Bool, P y = true → ∃ cs ds d1 i e, as = cs ++ ds ∧ Deploy.init.run cc cap cs = some d1 ∧ d1.Shows i 1 (.decided e) ∧ P e = true :=
    fun P h => ⟨as, [], d, i, y, by simp, h1, s1 rfl, h⟩
  have n0 : ∀ P : KeyValue → Bool, P x = true → ∃ cs ds d1 i e, as ++ bs = cs ++ ds ∧ Deploy.init.run cc cap cs = some d1 ∧ d1.Shows i 0 (.decided e) ∧ P e = true :=
    fun P h => ⟨as, bs, d, i, x, rfl, h1, s1 rfl, h⟩
  have n1 : ∀ P : KeyValue → Bool, P y = true → ∃ cs ds d1 i e, as ++ bs = cs ++ ds ∧ Deploy.init.run cc cap cs = some d1 ∧ d1.Shows i 1 (.decided e) ∧ P e = true :=
    fun P h => ⟨as, bs, d, i, y, rfl, h1, s1 rfl, h⟩
  have n2 : ∀ P : KeyValue → Bool, ∀ q w, (z :: zs)[q]? = some w → P w = true →
      ∃ cs ds d1 i e, as ++ bs = cs ++ ds ∧ Deploy.init.run cc cap cs = some d1 ∧ d1.Shows i (2 + q) (.decided e) ∧ P e = true :=
    fun P q w hq h => ⟨as ++ bs, [], d', j, w, by simp, h12, s2 hq, h⟩
  have hzs : zs = [] := by
    match zs with
    | [] => rfl
    | w :: ws =>
      have := c2 (fun _ => true) [0, 1, 2, 3] (by decide) (by
        intro p hp
        simp only [List.mem_cons, List.not_mem_nil, or_false] at hp
        rcases hp with rfl | rfl | rfl | rfl
        · exact n0 _ rfl
        · exact n1 _ rfl
        · exact n2 _ 0 _ rfl rfl
        · exact n2 _ 1 _ rfl rfl)
      simp at this
  subst hzs
  have hx := c1 (fun e => decide (e = x)) [0] (by decide) (by
    intro p hp; rw [List.mem_singleton.1 hp]; exact m0 _ (by simp))
  have hy := c1 (fun e => decide (e = y)) [1] (by decide) (by
    intro p hp; rw [List.mem_singleton.1 hp]; exact m1 _ (by simp))
  have hz := c2 (fun e => decide (e = z)) [2] (by decide) (by
    intro p hp; rw [List.mem_singleton.1 hp]; exact n2 _ 0 z rfl (by simp))
  have once : ∀ w : KeyValue, List.countP (fun e => decide (e = w)) [⟨"a", 1⟩, ⟨"b", 2⟩, ⟨"b", 3⟩] ≤ 1 := by
    intro w
    by_cases e1 : (⟨"a", 1⟩ : KeyValue) = w
    · subst e1; decide
    · by_cases e2 : (⟨"b", 2⟩ : KeyValue) = w
      · subst e2; decide
      · simp only [List.countP_cons, List.countP_nil, e1, e2]; split <;> simp
  have hxy : x ≠ y := by
    rintro rfl
    have := c2 (fun e => decide (e = x)) [0, 1] (by decide) (by
      intro p hp
      simp only [List.mem_cons, List.not_mem_nil, or_false] at hp
      rcases hp with rfl | rfl
      · exact n0 _ (by simp)
      · exact n1 _ (by simp))
    exact absurd (Nat.le_trans this (once x)) (by decide)
  have hxz : x ≠ z := by
    rintro rfl
    have := c2 (fun e => decide (e = x)) [0, 2] (by decide) (by
      intro p hp
      simp only [List.mem_cons, List.not_mem_nil, or_false] at hp
      rcases hp with rfl | rfl
      · exact n0 _ (by simp)
      · exact n2 _ 0 x rfl (by simp))
    exact absurd (Nat.le_trans this (once x)) (by decide)
  have hyz : y ≠ z := by
    rintro rfl
    have := c2 (fun e => decide (e = y)) [1, 2] (by decide) (by
      intro p hp
      simp only [List.mem_cons, List.not_mem_nil, or_false] at hp
      rcases hp with rfl | rfl
      · exact n1 _ (by simp)
      · exact n2 _ 0 y rfl (by simp))
    exact absurd (Nat.le_trans this (once y)) (by decide)
  have mem : ∀ {w : KeyValue} {l : List KeyValue}, 1 ≤ l.countP (fun e => decide (e = w)) → w ∈ l := fun h => by
    obtain ⟨e, h1, h2⟩ := List.countP_pos_iff.1 h
    rw [decide_eq_true_eq] at h2
    exact h2 ▸ h1
  have hx := mem hx
  have hy := mem hy
  have hz := mem hz
  simp only [List.mem_cons, List.not_mem_nil, or_false] at hx hy hz
  have hz : z = ⟨"b", 3⟩ := by
    rcases hz with rfl | rfl | rfl
    · rcases hx with rfl | rfl
      · exact absurd rfl hxz
      · rcases hy with rfl | rfl
        · exact absurd rfl hyz
        · exact absurd rfl hxy
    · rcases hx with rfl | rfl
      · rcases hy with rfl | rfl
        · exact absurd rfl hxy
        · exact absurd rfl hyz
      · exact absurd rfl hxz
    · rfl
  subst hz
  rw [applyDecided_map, applyDecided_map]
  rcases hx with rfl | rfl <;> rcases hy with rfl | rfl
  · exact absurd rfl hxy
  · simp only [List.foldl_cons, List.foldl_nil, KVSnapshot.get, KVSnapshot.insert, KVSnapshot.new]
    by_cases e : k = "a"
    · subst e; rfl
    · by_cases e' : k = "b" <;> simp [e, e']
  · simp only [List.foldl_cons, List.foldl_nil, KVSnapshot.get, KVSnapshot.insert, KVSnapshot.new]
    by_cases e : k = "a"
    · subst e; rfl
    · by_cases e' : k = "b" <;> simp [e, e']
  · exact absurd rfl hxy

/-! ### Concrete cases -/

namespace Sample

abbrev KD := Deploy KeyValue KVSnapshot
abbrev KDA := DAction KeyValue KVSnapshot

/-- The configuration of kv_store main.rs 50-54. -/
def kc (pid : NodeId) : ServerConfig := { pid, election_tick_timeout := 5 }

/-- The key-value application with servers 1, 2, 3: server 3 is elected, a := 1 is appended at server 1, b := 2 at server 3, and both are decided (b := 2 first). -/
def kvMain1 : List KDA :=
  [.spawn 1 (kc 1), .spawn 2 (kc 2), .spawn 3 (kc 3), .take 1, .send 1, .send 1, .recv 2, .recv 3, .take 2, .send 2, .send 2,
   .send 2, .recv 1, .recv 1, .recv 3, .take 1, .send 1, .recv 2, .take 3, .send 3, .send 3, .send 3, .send 3, .recv 1, .recv 1,
   .recv 2, .recv 2, .take 1, .send 1, .recv 3, .take 2, .send 2, .recv 3, .tick 1, .tick 2, .tick 3, .tick 1, .tick 2, .tick 3,
   .tick 1, .tick 2, .tick 3, .tick 1, .tick 2, .tick 3, .tick 1, .tick 2, .tick 3, .take 1, .send 1, .send 1, .recv 2, .recv 3,
   .take 2, .send 2, .send 2, .send 2, .recv 1, .recv 1, .recv 3, .take 1, .send 1, .recv 2, .take 3, .send 3, .send 3, .send 3,
   .send 3, .send 3, .send 3, .recv 1, .recv 1, .recv 1, .recv 2, .recv 2, .recv 2, .take 1, .send 1, .send 1, .recv 3, .recv 3,
   .take 2, .send 2, .send 2, .recv 3, .recv 3, .take 3, .send 3, .send 3, .recv 1, .recv 2, .take 1, .send 1, .recv 3, .take 2,
   .send 2, .recv 3, .call 1 (.append ⟨"a", 1⟩), .call 3 (.append ⟨"b", 2⟩), .take 1, .send 1, .recv 3, .take 3, .send 3,
   .send 3, .recv 1, .recv 2, .take 1, .send 1, .recv 3, .take 2, .send 2, .recv 3, .take 3, .send 3, .send 3, .recv 1, .recv 2]

/-- Then server 3 is aborted, server 2 is elected, b := 3 is appended there and decided. -/
def kvMain2 : List KDA :=
  [.abort 3, .tick 1, .tick 2, .tick 1, .tick 2, .tick 1, .tick 2, .tick 1, .tick 2, .tick 1, .tick 2, .take 1, .send 1, .send 1,
   .recv 2, .take 2, .send 2, .send 2, .send 2, .recv 1, .recv 1, .take 1, .send 1, .recv 2, .tick 1, .tick 2, .tick 1, .tick 2,
   .tick 1, .tick 2, .tick 1, .tick 2, .tick 1, .tick 2, .take 1, .send 1, .send 1, .recv 2, .take 2, .send 2, .send 2, .send 2,
   .recv 1, .recv 1, .take 1, .send 1, .recv 2, .tick 1, .tick 2, .tick 1, .tick 2, .tick 1, .tick 2, .tick 1, .tick 2, .tick 1,
   .tick 2, .take 1, .send 1, .send 1, .send 1, .send 1, .recv 2, .recv 2, .take 2, .send 2, .send 2, .send 2, .send 2, .send 2,
   .recv 1, .recv 1, .recv 1, .take 1, .send 1, .send 1, .recv 2, .recv 2, .take 2, .send 2, .recv 1, .take 1, .send 1, .recv 2,
   .call 2 (.append ⟨"b", 3⟩), .take 2, .send 2, .recv 1, .take 1, .send 1, .recv 2, .take 2, .send 2, .recv 1]

/-- What a server shows as decided from position `n` on; `none` if it shows something else. -/
def reads (d : KD) (i : NodeId) (n : Nat) : Option (List KeyValue) :=
  match d.servers i with
  | .up op => match op.read_decided_suffix n with
    | some (some l) => l.mapM fun x => match x with
      | .decided e => some e
      | _ => none
    | _ => none
  | .down _ => none

/-- As in `kvMain1`, up to the moment at which b := 2 is decided: a := 1 has not reached the leader yet. -/
def kvEarly1 : List KDA := kvMain1.take 99 ++ [.take 3, .send 3, .send 3, .recv 1, .recv 2, .take 2, .send 2, .recv 3]

/-- Then a := 1 is decided; the rest is `kvMain2`. -/
def kvEarly2 : List KDA :=
  [.take 1, .send 1, .send 1, .recv 3, .recv 3, .take 3, .send 3, .send 3, .send 3, .send 3, .recv 1, .recv 1, .recv 2, .recv 2, .take 1, .send 1, .recv 3,
   .take 2, .send 2, .recv 3, .take 3, .send 3, .send 3, .recv 1, .recv 2] ++ kvMain2

theorem reads_eq {d : KD} {i : NodeId} {n : Nat} {es : List KeyValue} (h : reads d i n = some es) :
    ∃ op, d.servers i = .up op ∧ op.read_decided_suffix n = some (some (es.map .decided)) := by
  unfold reads at h
  split at h
  · rename_i op hop
    split at h
    · rename_i l hl
      refine ⟨op, hop, hl.trans (congrArg (fun x => some (some x)) ?_)⟩
      clear hl
      induction l generalizing es with
      | nil => simp at h; subst h; rfl
      | cons x l ih =>
        rw [List.mapM_cons] at h
        cases x with
        | decided e =>
          cases hl : l.mapM (m := Option) (fun x : LogEntry KeyValue KVSnapshot => match x with
            | .decided e => some e
            | _ => none) with
          | none => rw [hl] at h; cases h
          | some fs =>
            rw [hl] at h
            cases h
            rw [ih hl]; rfl
        | _ => cases h
    · cases h
  · cases h

/-- A run in which server 3 and later server 1 are read. -/
theorem two_reads {as bs : List KDA} {es fs : List KeyValue} (h : (match (Deploy.init : KD).run cc 10000 as with
    | none => false
    | some d => decide (reads d 3 0 = some es) && (match d.run cc 10000 bs with
      | none => false
      | some d' => decide (reads d' 1 2 = some fs))) = true) :
    ∃ d d' op op', (Deploy.init : KD).run cc 10000 as = some d ∧ d.run cc 10000 bs = some d' ∧ d.servers 3 = .up op ∧ d'.servers 1 = .up op' ∧
      op.read_decided_suffix 0 = some (some (es.map .decided)) ∧ op'.read_decided_suffix 2 = some (some (fs.map .decided)) := by
  split at h
  · cases h
  · rename_i d hd
    rw [Bool.and_eq_true, decide_eq_true_eq] at h
    obtain ⟨h1, h2⟩ := h
    split at h2
    · cases h2
    · rename_i d' hd'
      rw [decide_eq_true_eq] at h2
      obtain ⟨op, a1, a2⟩ := reads_eq h1
      obtain ⟨op', b1, b2⟩ := reads_eq h2
      exact ⟨d, d', op, op', hd, hd', a1, b1, a2, b2⟩

theorem kv_main : ∃ d d' op op', (Deploy.init : KD).run cc 10000 kvMain1 = some d ∧ d.run cc 10000 kvMain2 = some d' ∧ d.servers 3 = .up op ∧
    d'.servers 1 = .up op' ∧ op.read_decided_suffix 0 = some (some ([⟨"b", 2⟩, ⟨"a", 1⟩].map .decided)) ∧
    op'.read_decided_suffix 2 = some (some ([⟨"b", 3⟩].map .decided)) := two_reads (by decide +kernel)

theorem kv_early : ∃ d d' op op', (Deploy.init : KD).run cc 10000 kvEarly1 = some d ∧ d.run cc 10000 kvEarly2 = some d' ∧ d.servers 3 = .up op ∧
    d'.servers 1 = .up op' ∧ op.read_decided_suffix 0 = some (some ([⟨"b", 2⟩].map .decided)) ∧
    op'.read_decided_suffix 2 = some (some ([⟨"b", 3⟩].map .decided)) := two_reads (by decide +kernel)

/-- Five servers of the key-value application, `main` calls `try_become_leader` three times and `append` once. Servers 1, 2, 5 accept a := 1 in
a ballot of 5, which decides it. 2 asks 1 and 3 for a higher ballot before the Decide reaches 1 and 2, so that they ignore it. Meanwhile 5
synchronises 4 with a snapshot. 2, elected by 1 and 3, knows of nothing decided, and synchronises 4, whose decided index becomes 0 (F3)
while its log begins at 1. 1, which has not received anything from 2 yet, asks 4 for a still higher ballot. -/
def kvPrepare : List KDA :=
  [.spawn 5 (kc 5), .spawn 2 (kc 2), .spawn 1 (kc 1), .spawn 3 (kc 3), .spawn 4 (kc 4), .call 5 .tryBecomeLeader, .take 5, .send 5, .send 5, .send 5,
   .send 5, .send 5, .send 5, .send 5, .send 5, .recv 1, .recv 1, .recv 2, .recv 2, .take 1, .send 1, .send 1, .send 1, .send 1, .send 1, .send 1,
   .take 2, .send 2, .send 2, .send 2, .send 2, .send 2, .send 2, .recv 5, .recv 5, .recv 5, .recv 5, .recv 5, .recv 5, .take 5, .send 5, .send 5,
   .send 5, .send 5, .recv 1, .recv 1, .recv 1, .recv 2, .recv 2, .recv 2, .take 1, .send 1, .send 1, .take 2, .send 2, .send 2, .recv 5, .recv 5,
   .call 5 (.append ⟨"a", 1⟩), .take 5, .send 5, .send 5, .recv 1, .recv 1, .recv 2, .recv 2, .take 1, .send 1, .take 2, .send 2,
   .call 2 .tryBecomeLeader, .take 2, .send 2, .send 2, .recv 5, .recv 5, .recv 1, .recv 3, .recv 3, .recv 3, .recv 3, .recv 3, .recv 4, .recv 4,
   .recv 4, .recv 4, .take 4, .send 4, .send 4, .send 4, .send 4, .send 4, .send 4, .send 4, .send 4, .recv 5, .recv 5, .recv 5, .take 5, .send 5,
   .send 5, .send 5, .send 5, .recv 4, .recv 4, .take 1, .send 1, .take 3, .send 3, .send 3, .send 3, .send 3, .send 3, .send 3, .send 3, .send 3,
   .send 3, .send 2, .send 2, .recv 2, .recv 2, .recv 2, .recv 2, .recv 2, .recv 2, .recv 2, .take 2, .send 2, .send 2, .send 2, .send 2, .send 2,
   .recv 4, .recv 4, .recv 4, .take 4, .send 4, .send 4, .send 4, .recv 2, .call 1 .tryBecomeLeader, .take 2, .send 2, .recv 4, .take 1, .send 1,
   .send 1, .send 1]

end Sample

open Sample in
/-- C66_stays_up needs its condition on the entry type: with that of the key-value application, though nobody calls `trim` or `snapshot` and no message is lost or
delivered out of order, a Prepare brings a server down (F28). -/
theorem C66_false_stays_up : ¬ ∀ (cc : ClusterConfig) (_ : 0 ∉ cc.nodes) (cap : Nat) (as : List KDA) (_ : ∀ a ∈ as, a.Only fun c => c.NoCompaction ∧ c.KnownPeers cc)
    (d : KD) (_ : Deploy.init.run cc cap as = some d) (i : NodeId) (_ : ∀ a ∈ as, ¬ a.Kills i) (cfg : ServerConfig) (_ : .spawn i cfg ∈ as),
    d.task i = .running ∧ ∃ op, d.servers i = .up op := by
  intro hall
  have key : (match (Deploy.init : KD).run five 10000 (kvPrepare ++ [.recv 4]) with
    | none => false
    | some d => decide (d.task 4 = .ended)) = true := by decide +kernel
  split at key
  · cases key
  · rename_i d hd
    have := hall five (by decide) 10000 _ (by simp [kvPrepare, DAction.Only, Call.NoCompaction, Call.KnownPeers]) d hd 4
      (by simp [kvPrepare, DAction.Kills]) (kc 4) (by simp [kvPrepare])
    rw [of_decide_eq_true key] at this
    exact absurd this.1 nofun

open Sample in
/-- C39 is false of the code without any compaction by the user, too: in a run of the key-value type in which nothing is lost, duplicated or
reordered, and neither `trim` nor `snapshot` is called, delivering a message brings a running server down. -/
theorem C39_false_without_compaction : ∃ (as : List (Action KeyValue KVSnapshot)) (c c' : Cluster KeyValue KVSnapshot),
    as.all Action.InOrder = true ∧ (∀ i j k, .lose i j k ∉ as) ∧ (∀ a ∈ as, a.Only Call.NoCompaction) ∧ Cluster.init.run five as = some c ∧
    c.step five (.deliver 1 4) = some c' ∧ (∃ op, c.servers 4 = .up op) ∧ ¬ ∃ op, c'.servers 4 = .up op := by
  have key : (match Cluster.init.run five (Deploy.init.trace five 10000 kvPrepare) with
    | none => false
    | some c => (match c.servers 4 with | .up _ => true | .down _ => false) && match c.step five (.deliver 1 4) with
      | none => false
      | some c' => match c'.servers 4 with | .up _ => false | .down _ => true) = true := by decide +kernel
  split at key
  · cases key
  · rename_i c hc
    rw [Bool.and_eq_true] at key
    obtain ⟨k1, k2⟩ := key
    split at k2
    · cases k2
    · rename_i c' hc'
      have hk := Deploy.trace_kept (cc := five) (cap := 10000) Deploy.init kvPrepare
      refine ⟨_, c, c', Action.kept_inOrder hk, fun i j k h => ?_, ?_, hc, hc', ?_, ?_⟩
      · exact absurd (List.all_eq_true.1 hk _ h) nofun
      · exact Deploy.trace_only (ok := Call.NoCompaction) trivial (by simp [kvPrepare, DAction.Only, Call.NoCompaction]) _
      · split at k1
        · rename_i op h; exact ⟨op, h⟩
        · cases k1
      · rintro ⟨op, h⟩
        rw [h] at k2
        cases k2

open Sample in
/-- The hypotheses of C66_agreement, C66_decided_count and C66_real_time: server 3 shows b := 2 at position 0, and server 1, later, b := 3 at position 2. -/
example : ∃ d d' : KD, d.SameRun cc 10000 d' ∧ Deploy.init.run cc 10000 (kvMain1 ++ kvMain2) = some d' ∧ d.Shows 3 0 (.decided ⟨"b", 2⟩) ∧
    d'.Shows 1 2 (.decided ⟨"b", 3⟩) ∧ (appended (kvMain1 ++ kvMain2)).countP (fun e => decide (e.key = "b")) = 2 ∧
    Deploy.init.run cc 10000 kvMain1 = some d ∧ d.run cc 10000 kvMain2 = some d' ∧ ⟨"b", 3⟩ ∉ appended kvMain1 := by
  obtain ⟨d, d', op, op', h1, h2, hs, hs', hr, hr'⟩ := kv_main
  have h12 : (Deploy.init : KD).run cc 10000 (kvMain1 ++ kvMain2) = some d' := by rw [Deploy.run_append, h1]; exact h2
  exact ⟨d, d', ⟨_, _, .inl ⟨h1, h2⟩⟩, h12, Deploy.suffix_shows h1 hs hr (k := 0) rfl, Deploy.suffix_shows h12 hs' hr' (k := 0) rfl, by decide, h1, h2, by decide⟩

open Sample in
/-- The hypotheses of C67_store and C67_main. -/
example : ∃ d d' op op', (Deploy.init : KD).run cc 10000 kvMain1 = some d ∧ d.run cc 10000 kvMain2 = some d' ∧
    appended kvMain1 = [⟨"a", 1⟩, ⟨"b", 2⟩] ∧ appended kvMain2 = [⟨"b", 3⟩] ∧ d.servers 3 = .up op ∧ d'.servers 1 = .up op' ∧
    op.read_decided_suffix 0 = some (some ([⟨"b", 2⟩, ⟨"a", 1⟩].map .decided)) ∧ op'.read_decided_suffix 2 = some (some ([⟨"b", 3⟩].map .decided)) := by
  obtain ⟨d, d', op, op', h1, h2, hs, hs', hr, hr'⟩ := kv_main
  exact ⟨d, d', op, op', h1, h2, by decide, by decide, hs, hs', hr, hr'⟩

open Sample in
/-- C67_main does not hold without its condition on the first read: `main` reads after a fixed time, and takes for granted that both entries are decided
by then. Here only b := 2 is. a := 1 is decided at position 1 after that, the second read begins at position 2, and the store that is printed
lacks a, though every server shows a := 1 as decided. -/
theorem C67_false_early : ∃ (as bs : List KDA) (d d' : KD) (i j : NodeId) (op op' : OP KeyValue KVSnapshot) (es fs : List KeyValue),
    Deploy.init.run cc 10000 as = some d ∧ d.run cc 10000 bs = some d' ∧ appended as = [⟨"a", 1⟩, ⟨"b", 2⟩] ∧ appended bs = [⟨"b", 3⟩] ∧
    d.servers i = .up op ∧ d'.servers j = .up op' ∧ op.read_decided_suffix 0 = some (some (es.map .decided)) ∧ es ≠ [] ∧
    op'.read_decided_suffix 2 = some (some (fs.map .decided)) ∧ fs ≠ [] ∧ op'.Shows 1 (.decided ⟨"a", 1⟩) ∧
    (applyDecided (applyDecided .new (es.map .decided)) (fs.map .decided)).get "a" = none := by
  obtain ⟨d, d', op, op', h1, h2, hs, hs', hr, hr'⟩ := kv_early
  refine ⟨kvEarly1, kvEarly2, d, d', 3, 1, op, op', _, _, h1, h2, by decide, by decide, hs, hs', hr, nofun, hr', nofun, ?_, by decide⟩
  have h12 : (Deploy.init : KD).run cc 10000 (kvEarly1 ++ kvEarly2) = some d' := by rw [Deploy.run_append, h1]; exact h2
  have key : (match (Deploy.init : KD).run cc 10000 (kvEarly1 ++ kvEarly2) with
    | none => false
    | some d => decide (reads d 1 0 = some [⟨"b", 2⟩, ⟨"a", 1⟩, ⟨"b", 3⟩])) = true := by decide +kernel
  rw [h12, decide_eq_true_eq] at key
  obtain ⟨op2, e2, hr2⟩ := reads_eq key
  obtain ⟨op3, e3, h3⟩ := Deploy.suffix_shows h12 e2 hr2 (k := 1) rfl
  rw [hs'] at e3; cases e3
  exact h3

section
attribute [local instance] Sample.noSync

open Sample in
/-- The hypotheses of C66_channels and C66_stays_up: entries without snapshots; an entry is appended, `reconnected` is called, and server 3 is aborted. -/
example : ∃ (as : List (DAction Nat (List Nat))) (d : ND), (∀ a ∈ as, a.Only fun c => c.NoCompaction ∧ c.KnownPeers cc) ∧
    Deploy.init.run cc 10000 as = some d ∧ SnapOps.use_snapshots Nat (List Nat) = false ∧ 0 ∉ cc.nodes ∧ (∀ a ∈ as, ¬ a.Kills 1) ∧
    .spawn 1 (fast 1) ∈ as ∧ d.buffer 1 ≠ [] := by
  refine ⟨[.spawn 1 (fast 1), .spawn 3 (fast 3), .call 1 (.append 7), .call 1 (.reconnected 2), .abort 3, .tick 1, .take 1], ?_⟩
  have key : (match (Deploy.init : ND).run cc 10000 [.spawn 1 (fast 1), .spawn 3 (fast 3), .call 1 (.append 7), .call 1 (.reconnected 2), .abort 3, .tick 1, .take 1] with
    | none => false
    | some d => (d.buffer 1).length != 0) = true := by decide +kernel
  split at key
  · cases key
  · rename_i d hd
    refine ⟨d, ?_, hd, rfl, by decide, ?_, .head _, fun h => by rw [h] at key; cases key⟩
    · intro a ha
      simp only [List.mem_cons, List.not_mem_nil, or_false] at ha
      rcases ha with rfl | rfl | rfl | rfl | rfl | rfl | rfl
      · trivial
      · trivial
      · exact ⟨trivial, trivial⟩
      · exact ⟨trivial, by show 2 ∈ cc.nodes; decide⟩
      · trivial
      · trivial
      · trivial
    · intro a ha
      simp only [List.mem_cons, List.not_mem_nil, or_false] at ha
      rcases ha with rfl | rfl | rfl | rfl | rfl | rfl | rfl <;> first | exact nofun | (intro h; exact absurd h (by decide))

end

/-! ## C68 -/

theorem Deploy.channel_length {cc : ClusterConfig} {cap : Nat} {as : List (DAction E S)} {d d' : Deploy E S} (hr : d.run cc cap as = some d') (i : NodeId) :
    (d'.channel i).length ≤ (d.channel i).length + as.countP DAction.isSend := by
  induction as generalizing d with
  | nil => cases hr; exact Nat.le_add_right ..
  | cons a as ih =>
    simp only [Deploy.run] at hr
    split at hr
    · cases hr
    · rename_i d1 h1
      refine Nat.le_trans (ih hr) ?_
      have hstop : ∀ (d : Deploy E S) k, ((d.stop k).channel i).length ≤ (d.channel i).length := fun d k => by
        simp only [Deploy.stop, Deploy.setChannel, Deploy.setBuffer, Deploy.setTask]
        split
        · exact Nat.zero_le _
        · exact Nat.le_refl _
      have htask : ∀ (d : Deploy E S) k c, ((d.taskCall k c).channel i).length ≤ (d.channel i).length := fun d k c => by
        unfold Deploy.taskCall
        split
        · exact hstop d k
        · split
          · exact Nat.le_refl _
          · exact hstop (d.setServer k _) k
      have step : (d1.channel i).length ≤ (d.channel i).length + if DAction.isSend a then 1 else 0 := by
        cases a with
        | spawn k cfg =>
          simp only [Deploy.step] at h1
          split at h1
          · split at h1
            · cases h1; exact Nat.le_refl _
            · cases h1
          · cases h1
        | call k c =>
          simp only [Deploy.step] at h1
          split at h1
          · split at h1
            · cases h1
            · cases h1; exact Nat.le_refl _
          · cases h1
        | tick k =>
          simp only [Deploy.step] at h1
          split at h1
          · cases h1; exact htask ..
          · cases h1
        | take k =>
          simp only [Deploy.step] at h1
          split at h1
          · split at h1
            · cases h1; exact hstop ..
            · cases h1; exact Nat.le_refl _
          · cases h1
        | send k =>
          simp only [Deploy.step] at h1
          split at h1
          · cases h1
          · rename_i m rest hm
            split at h1
            · split at h1
              · cases h1; exact Nat.le_add_right ..
              · split at h1
                · cases h1
                  simp only [Deploy.setChannel, Deploy.setBuffer, DAction.isSend, if_true]
                  split
                  · rename_i e; rw [e, List.length_append]; exact Nat.le_refl _
                  · exact Nat.le_add_right ..
                · cases h1
            · cases h1
              exact Nat.le_trans (hstop ..) (Nat.le_add_right ..)
        | recv k =>
          simp only [Deploy.step] at h1
          split at h1
          · split at h1
            · cases h1
            · rename_i x m rest hm
              cases h1
              refine Nat.le_trans (htask ..) ?_
              simp only [Deploy.setChannel]
              split
              · rename_i e; rw [e, hm]; simp only [List.length_cons]; omega
              · exact Nat.le_refl _
          · cases h1
        | abort k =>
          simp only [Deploy.step] at h1
          split at h1
          · cases h1; exact hstop ..
          · cases h1
        | poison k =>
          simp only [Deploy.step] at h1
          split at h1
          · cases h1; exact Nat.le_refl _
          · cases h1
      rw [List.countP_cons]
      omega

/-- C68, in part: as long as fewer messages have been sent than a channel holds, no task waits for another one: at the `select!` it can do whatever is
due, and in the loop of `send_outgoing_msgs` it can send. What is missing is any guarantee after that: see C68_false_deadlock. -/
theorem C68_progress_partial (cc : ClusterConfig) (cap : Nat) (as : List (DAction E S)) (d : Deploy E S) (hr : Deploy.init.run cc cap as = some d)
    (hs : as.countP DAction.isSend < cap) (i : NodeId) (hi : d.task i = .running) :
    (d.buffer i = [] ∧ (d.step cc cap (.tick i)).isSome ∧ (d.step cc cap (.take i)).isSome ∧ (d.channel i ≠ [] → (d.step cc cap (.recv i)).isSome)) ∨
    (d.buffer i ≠ [] ∧ (d.step cc cap (.send i)).isSome) := by
  cases hb : d.buffer i with
  | nil =>
    refine .inl ⟨rfl, by simp [Deploy.step, hi, hb], ?_, fun hc => ?_⟩
    · simp only [Deploy.step, hi, hb, and_self, if_true]
      split <;> rfl
    · cases hch : d.channel i with
      | nil => exact absurd hch hc
      | cons x l => simp [Deploy.step, hi, hb, hch]
  | cons m l =>
    refine .inr ⟨nofun, ?_⟩
    have := Deploy.channel_length hr m.dst
    have h0 : ((Deploy.init : Deploy E S).channel m.dst).length = 0 := rfl
    simp only [Deploy.step, hb]
    split
    · split
      · rfl
      · rw [if_pos (by omega)]; rfl
    · rfl

section
attribute [local instance] Sample.noSync

open Sample in
/-- The hypotheses of C68_progress_partial: a task that has a message to send. -/
example : ∃ (d : ND), Deploy.init.run cc 1 begin = some d ∧ begin.countP DAction.isSend < 1 ∧ d.task 1 = .running ∧ d.buffer 1 ≠ [] := by
  obtain ⟨d, hd, t1, -, -, -, -, -, ⟨m, hm, -⟩, -, -⟩ := begin_run 1
  exact ⟨d, hd, by decide, t1, fun h => by rw [h] at hm; cases hm⟩

open Sample in
/-- The tasks do not always make progress: for every capacity of the channels there is a run, without any calls of `main`, after which the tasks of two servers
wait in `channel.send(msg).await` for each other. No further action of these tasks is ever possible, whatever else happens, unless one of them is aborted:
a task that waits to send does not receive, and both channels are full. -/
theorem C68_false_deadlock (cap : Nat) : ∃ (as : List (DAction Nat (List Nat))) (d : ND), (∀ a ∈ as, a.Only fun _ => False) ∧
    Deploy.init.run cc cap as = some d ∧ d.task 1 = .running ∧ d.task 2 = .running ∧ d.buffer 1 ≠ [] ∧ d.buffer 2 ≠ [] ∧
    ∀ bs d', (∀ a ∈ bs, a ≠ .abort 1 ∧ a ≠ .abort 2) → d.run cc cap bs = some d' → ∀ i, i = 1 ∨ i = 2 →
      d'.task i = .running ∧ d'.buffer i = d.buffer i ∧
      d'.step cc cap (.tick i) = none ∧ d'.step cc cap (.take i) = none ∧ d'.step cc cap (.send i) = none ∧ d'.step cc cap (.recv i) = none := by
  obtain ⟨as, d, ha, hr, hs⟩ := stuck cap
  obtain ⟨m1, l1, e1, -⟩ := hs.head1
  obtain ⟨m2, l2, e2, -⟩ := hs.head2
  refine ⟨as, d, ha, hr, hs.run1, hs.run2, by rw [e1]; nofun, by rw [e2]; nofun, fun bs d' hb hd i hi => ?_⟩
  obtain ⟨hs', hf⟩ := hs.run (cc := cc) (by decide) (by decide) hb hd
  obtain ⟨m1, l1, e1, f1⟩ := hs'.head1
  obtain ⟨m2, l2, e2, f2⟩ := hs'.head2
  rcases hi with rfl | rfl
  · refine ⟨hs'.run1, hf.buffer1, by simp [Deploy.step, e1], by simp [Deploy.step, e1], ?_, by simp [Deploy.step, e1]⟩
    simp [Deploy.step, e1, f1, hs'.run2, Nat.not_lt.2 hs'.full2]
    decide
  · refine ⟨hs'.run2, hf.buffer2, by simp [Deploy.step, e2], by simp [Deploy.step, e2], ?_, by simp [Deploy.step, e2]⟩
    simp [Deploy.step, e2, f2, hs'.run1, Nat.not_lt.2 hs'.full1]
    decide

end

end Omni
