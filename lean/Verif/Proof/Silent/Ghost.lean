import Verif.Proof.Silent.Stage
/-
Silent servers: what they do makes no difference to the others. A run with silent servers looks to the others like one in which these do nothing.
-/
namespace Omni

variable {E S : Type} [SnapOps E S] {cc : ClusterConfig} {L : List NodeId}

/-- The same for the servers `L`. -/
structure Alike (L : List NodeId) (c g : Cluster E S) : Prop where
  servers : ∀ i ∈ L, g.servers i = c.servers i
  net : ∀ i, ∀ j ∈ L, g.net i j = c.net i j

theorem Alike.refl (c : Cluster E S) : Alike L c c := ⟨fun _ _ => rfl, fun _ _ _ => rfl⟩

/-- An action of one of the servers `L`. -/
def Action.ofB (L : List NodeId) : Action E S → Bool
  | .call i _ | .take i => L.contains i
  | .deliver _ j => L.contains j
  | _ => false

theorem Action.Of.ofB {a : Action E S} (h : a.Of cc L) : a.ofB L = true := by
  cases a with
  | call i cl => cases cl <;> first | exact List.contains_iff_mem.2 h | exact h.elim
  | take i => exact List.contains_iff_mem.2 h
  | deliver i j => exact List.contains_iff_mem.2 h.2
  | _ => exact h.elim

theorem Action.Mute.ofB {a : Action E S} (h : a.Mute L) : a.ofB L = false := by
  cases a with
  | call i cl | deliver i cl =>
    simp only [Action.Mute] at h
    simpa [Action.ofB] using h
  | take i => exact h.elim
  | _ => rfl

theorem Alike.setServer {c g : Cluster E S} (h : Alike L c g) (i : NodeId) (s : Server E S) : Alike L (c.setServer i s) (g.setServer i s) := by
  refine ⟨fun j hj => ?_, h.net⟩
  simp only [Cluster.setServer]
  split
  · rfl
  · exact h.servers j hj

theorem Alike.setNet {c g : Cluster E S} (h : Alike L c g) (i j : NodeId) (l : List (Message E S)) : Alike L (c.setNet i j l) (g.setNet i j l) := by
  refine ⟨h.servers, fun a b hb => ?_⟩
  simp only [Cluster.setNet]
  split
  · rfl
  · exact h.net a b hb

theorem Alike.outServer {c g : Cluster E S} (h : Alike L c g) {i : NodeId} (hi : i ∉ L) (s : Server E S) : Alike L (c.setServer i s) g := by
  refine ⟨fun j hj => ?_, h.net⟩
  have e : j ≠ i := by rintro rfl; exact hi hj
  rw [Cluster.setServer_other e]
  exact h.servers j hj

theorem Alike.outNet {c g : Cluster E S} (h : Alike L c g) (i : NodeId) {j : NodeId} (hj : j ∉ L) (l : List (Message E S)) : Alike L (c.setNet i j l) g := by
  refine ⟨h.servers, fun a b hb => ?_⟩
  simp only [Cluster.setNet]
  have e : ¬ (a = i ∧ b = j) := by rintro ⟨_, rfl⟩; exact hj hb
  rw [if_neg e]
  exact h.net a b hb

/-- The others do not notice. -/
theorem Alike.mute {c c' g : Cluster E S} (h : Alike L c g) {a : Action E S} (ha : a.Mute L) (hs : c.step cc a = some c') : Alike L c' g := by
  cases a with
  | start i cfg =>
    simp only [Cluster.step] at hs
    repeat' split at hs
    all_goals first | cases hs; exact h.outServer ha _ | cases hs
  | crash i =>
    simp only [Cluster.step] at hs
    repeat' split at hs
    all_goals first | cases hs; exact h.outServer ha _ | cases hs
  | call i cl =>
    simp only [Cluster.step] at hs
    repeat' split at hs
    all_goals first | cases hs; exact h.outServer ha _ | cases hs
  | crashCall i cl k =>
    simp only [Cluster.step] at hs
    repeat' split at hs
    all_goals first | cases hs; exact h.outServer ha _ | cases hs
  | take i => exact ha.elim
  | deliver i j =>
    simp only [Cluster.step] at hs
    repeat' split at hs
    all_goals first | cases hs; exact (h.outNet i ha _).outServer ha _ | cases hs; exact h.outNet i ha _ | cases hs
  | crashDeliver i j k =>
    simp only [Cluster.step] at hs
    repeat' split at hs
    all_goals first | cases hs; exact (h.outNet i ha _).outServer ha _ | cases hs
  | lose i j k =>
    simp only [Cluster.step] at hs
    repeat' split at hs
    all_goals first | cases hs; exact h.outNet i ha _ | cases hs
  | rearrange i j ks =>
    simp only [Cluster.step] at hs
    cases hs
    exact h.outNet i ha _

/-- The others do the same. -/
theorem Alike.of {c c' g : Cluster E S} (h : Alike L c g) {a : Action E S} (ha : a.Of cc L) (hs : c.step cc a = some c') :
    ∃ g', g.step cc a = some g' ∧ Alike L c' g' := by
  cases a with
  | call i cl =>
    have hi : i ∈ L := by cases cl <;> first | exact ha | exact ha.elim
    simp only [Cluster.step, h.servers i hi] at hs ⊢
    cases e : c.servers i with
    | down d => rw [e] at hs; cases hs
    | up op =>
      rw [e] at hs
      simp only at hs ⊢
      split at hs
      · cases hs
      · rename_i hb
        rw [if_neg hb]
        cases hs
        exact ⟨_, rfl, h.setServer _ _⟩
  | take i =>
    have hi : i ∈ L := ha
    simp only [Cluster.step, h.servers i hi] at hs ⊢
    cases e : c.servers i with
    | down d => rw [e] at hs; cases hs
    | up op =>
      rw [e] at hs
      cases hs
      refine ⟨_, rfl, fun j hj => ?_, fun a b hb => ?_⟩
      · simp only
        split
        · rfl
        · exact h.servers j hj
      · simp only [h.net a b hb]
  | deliver i j =>
    have hj : j ∈ L := ha.2
    simp only [Cluster.step, h.servers j hj, h.net i j hj] at hs ⊢
    cases e : c.net i j with
    | nil => rw [e] at hs; cases hs
    | cons m rest =>
      rw [e] at hs
      simp only at hs ⊢
      cases e2 : c.servers j with
      | down d =>
        rw [e2] at hs
        cases hs
        exact ⟨_, rfl, h.setNet _ _ _⟩
      | up op =>
        rw [e2] at hs
        cases hs
        exact ⟨_, rfl, (h.setNet _ _ _).setServer _ _⟩
  | _ => exact ha.elim

/-- A run. -/
theorem Alike.run {c c' g : Cluster E S} (h : Alike L c g) {as : List (Action E S)} (ha : ∀ a ∈ as, a.Of cc L ∨ a.Mute L) (hr : c.run cc as = some c') :
    (∀ a ∈ as.filter (Action.ofB L), a.Of cc L) ∧ ∃ g', g.run cc (as.filter (Action.ofB L)) = some g' ∧ Alike L c' g' := by
  refine ⟨fun a hm => ?_, ?_⟩
  · obtain ⟨h1, h2⟩ := List.mem_filter.1 hm
    rcases ha a h1 with h3 | h3
    · exact h3
    · rw [h3.ofB] at h2; cases h2
  · induction as generalizing c g with
    | nil => cases hr; exact ⟨g, rfl, h⟩
    | cons a as ih =>
      simp only [Cluster.run] at hr
      cases hs : c.step cc a with
      | none => rw [hs] at hr; cases hr
      | some c1 =>
        rw [hs] at hr
        have ha' : ∀ b ∈ as, b.Of cc L ∨ b.Mute L := fun b hb => ha b (List.mem_cons_of_mem _ hb)
        rcases ha a List.mem_cons_self with h1 | h1
        · obtain ⟨g1, e1, e2⟩ := h.of h1 hs
          obtain ⟨g', e3, e4⟩ := ih e2 ha' hr
          exact ⟨g', by rw [List.filter_cons, h1.ofB, if_pos rfl, Cluster.run, e1]; exact e3, e4⟩
        · obtain ⟨g', e3, e4⟩ := ih (h.mute h1 hs) ha' hr
          exact ⟨g', by rw [List.filter_cons, h1.ofB, if_neg (by simp)]; exact e3, e4⟩

theorem Action.Of.noPriority {i : NodeId} {p : Nat} : ¬ (Action.call i (.setPriority p) : Action E S).Of cc L := id

theorem countP_ofB {as : List (Action E S)} {p : Action E S → Bool} (h : ∀ a, p a = true → a.ofB L = true) :
    (as.filter (Action.ofB L)).countP p = as.countP p := by
  rw [List.countP_filter]
  refine List.countP_congr fun a _ => ?_
  simp only [Bool.and_eq_true]
  exact ⟨fun h => h.1, fun hp => ⟨hp, h a hp⟩⟩

/-- Beats. -/
theorem Alike.beats {c c' g : Cluster E S} {bss : List (List (Action E S))} (hb : Cluster.LiveBeats cc L c bss c') (h : Alike L c g)
    (hL : ∀ x ∈ L, x ∈ cc.nodes) :
    ∃ g', Cluster.LBeats cc L g (bss.map (·.filter (Action.ofB L))) g' ∧ Alike L c' g' ∧ ∀ a ∈ (bss.map (·.filter (Action.ofB L))).flatten, a.Of cc L := by
  induction hb generalizing g with
  | nil c => exact ⟨g, .nil g, h, nofun⟩
  | cons h1 h2 _ ih =>
    obtain ⟨ho, g1, e1, e2⟩ := h.run h1.acts h2
    obtain ⟨g', e3, e4, e5⟩ := ih e2
    refine ⟨g', .cons ⟨fun a ha => (ho a ha).calm hL, fun i p hm => (ho _ hm).noPriority, fun i hi => ?_, fun i hi => ?_, fun i hi j hj => ?_⟩ e1 e3, e4, fun a ha => ?_⟩
    · rw [countP_ofB, h1.ticks i hi]
      intro a hp
      cases a with
      | call j cl =>
        cases cl <;> first | (simp only [Action.isTick, beq_iff_eq] at hp; subst hp; exact List.contains_iff_mem.2 hi) | cases hp
      | _ => cases hp
    · exact List.mem_filter.2 ⟨h1.taken i hi, List.contains_iff_mem.2 hi⟩
    · rw [countP_ofB, h.net i j hj]
      · exact h1.delivered i hi j hj
      · intro a hp
        cases a with
        | deliver x y =>
          simp only [Action.isDelivery, Bool.and_eq_true, beq_iff_eq] at hp
          obtain ⟨-, rfl⟩ := hp
          exact List.contains_iff_mem.2 hj
        | _ => cases hp
    · rw [List.map_cons, List.flatten_cons] at ha
      rcases List.mem_append.1 ha with ha | ha
      · exact ho a ha
      · exact e5 a ha

/-- The entries. -/
theorem entries_of {as : List (Action E S)} (h : ∀ a ∈ as, a.Of cc L) : as.filterMap Action.entry? = as.filterMap (Action.entryAt? L) := by
  refine List.filterMap_congr fun a ha => ?_
  have := h a ha
  cases a with
  | call i cl =>
    cases cl with
    | append e => exact (if_pos this).symm
    | _ => rfl
  | _ => rfl

theorem entries_filter {K : List NodeId} (hK : ∀ i ∈ K, i ∈ L) (as : List (Action E S)) :
    (as.filter (Action.ofB L)).filterMap (Action.entryAt? K) = as.filterMap (Action.entryAt? K) := by
  rw [List.filterMap_filter]
  refine List.filterMap_congr fun a _ => ?_
  cases a with
  | call i cl =>
    cases cl with
    | append e =>
      simp only [Action.ofB, Action.entryAt?, List.contains_iff_mem]
      by_cases h : i ∈ K
      · rw [if_pos (hK i h)]
      · rw [if_neg h, ite_self]
    | _ => simp [Action.entryAt?]
  | _ => simp [Action.entryAt?]

theorem entries_ghost {K : List NodeId} (hK : ∀ i ∈ K, i ∈ L) (bss : List (List (Action E S))) :
    (bss.map (·.filter (Action.ofB L))).flatten.filterMap (Action.entryAt? K) = bss.flatten.filterMap (Action.entryAt? K) := by
  induction bss with
  | nil => rfl
  | cons as bss ih => rw [List.map_cons, List.flatten_cons, List.flatten_cons, List.filterMap_append, List.filterMap_append, ih, entries_filter hK]

end Omni
