import Verif.Spec.Example
import Verif.Spec.Once
import Verif.Proof.Runs
import Verif.Proof.Embed
/-
Runs of the example applications are runs of the cluster, in which all links are dependable.
-/
namespace Omni

variable {E S : Type} {cc : ClusterConfig} {cap : Nat}

/-- What of a channel comes from `i`. -/
def chanFrom (i : NodeId) (l : List (NodeId × Message E S)) : List (Message E S) := (l.filter fun x => decide (x.1 = i)).map (·.2)

/-- The actions of the cluster that an action of the application amounts to. -/
def Deploy.acts (d : Deploy E S) : DAction E S → List (Action E S)
  | .spawn i cfg => [.start i cfg]
  | .call i c => [.call i c]
  | .tick i => match d.servers i with
    | .up _ => [.call i .tick]
    | .down _ => []
  | .take i => match d.servers i with
    | .up _ => [.take i]
    | .down _ => []
  | .send _ => []
  | .recv i => match d.servers i, d.channel i with
    | .up _, (j, _) :: _ => [.deliver j i]
    | _, _ => []
  | .abort _ => []
  | .poison i => [.crash i]

def Deploy.trace [SnapOps E S] (cc : ClusterConfig) (cap : Nat) (d : Deploy E S) : List (DAction E S) → List (Action E S)
  | [] => []
  | a :: as => match d.step cc cap a with
    | none => []
    | some d' => d.acts a ++ d'.trace cc cap as

/-- The servers are the same. On the links to a server whose task has not ended is what of its channel comes from the sender, and then
what the sender has yet to send. -/
structure Deploy.Sim (cc : ClusterConfig) (d : Deploy E S) (c : Cluster E S) : Prop where
  servers : d.servers = c.servers
  fresh : ∀ i, d.task i = .waiting → d.servers i = .down {}
  known : ∀ i, d.task i ≠ .waiting → i ∈ cc.nodes
  idle : ∀ i, d.task i ≠ .running → d.buffer i = []
  link : ∀ i j, d.task j ≠ .ended → ∃ x, c.net i j = chanFrom i (d.channel j) ++ x ∧
    (d.task i ≠ .ended → x = (d.buffer i).filter fun m => decide (m.dst = j))

theorem Deploy.Sim.init : Deploy.Sim cc (Deploy.init : Deploy E S) Cluster.init :=
  ⟨rfl, fun _ _ => rfl, fun _ h => absurd rfl h, fun _ _ => rfl, fun _ _ _ => ⟨[], rfl, fun _ => rfl⟩⟩

theorem Deploy.Sim.set {d : Deploy E S} {c : Cluster E S} (h : d.Sim cc c) {i : NodeId} (hi : d.task i ≠ .waiting) (s : Server E S) :
    (d.setServer i s).Sim cc (c.setServer i s) := by
  refine ⟨by simp only [Deploy.setServer, Cluster.setServer, h.servers], fun j hj => ?_, h.known, h.idle, h.link⟩
  have hne : j ≠ i := fun e => hi (e ▸ hj)
  simp only [Deploy.setServer, if_neg hne]
  exact h.fresh j hj

theorem Deploy.Sim.stop {d : Deploy E S} {c : Cluster E S} (h : d.Sim cc c) {i : NodeId} (hi : d.task i ≠ .waiting) :
    (d.stop i).Sim cc c := by
  have ht : ∀ j, (d.stop i).task j = if j = i then .ended else d.task j := fun _ => rfl
  have hb : ∀ j, (d.stop i).buffer j = if j = i then [] else d.buffer j := fun _ => rfl
  have hc : ∀ j, (d.stop i).channel j = if j = i then [] else d.channel j := fun _ => rfl
  refine ⟨h.servers, fun j hj => ?_, fun j hj => ?_, fun j hj => ?_, fun a j hj => ?_⟩
  · rw [ht] at hj
    split at hj
    · cases hj
    · exact h.fresh j hj
  · rw [ht] at hj
    split at hj
    · rename_i e; rw [e]; exact h.known i hi
    · exact h.known j hj
  · rw [hb]
    split
    · rfl
    · rename_i e
      rw [ht, if_neg e] at hj
      exact h.idle j hj
  · rw [ht] at hj
    split at hj
    · exact absurd rfl hj
    · rename_i e
      obtain ⟨x, hx, hx'⟩ := h.link a j hj
      refine ⟨x, by rw [hc, if_neg e]; exact hx, fun ha => ?_⟩
      rw [ht] at ha
      split at ha
      · exact absurd rfl ha
      · rename_i e'
        rw [hb, if_neg e']
        exact hx' ha

theorem Cluster.run_one [SnapOps E S] {c c' : Cluster E S} {a : Action E S} (h : c.step cc a = some c') : c.run cc [a] = some c' := by
  simp only [Cluster.run, h]

theorem Deploy.Sim.step [SnapOps E S] {d d' : Deploy E S} {c : Cluster E S} (h : d.Sim cc c) {a : DAction E S}
    (hs : d.step cc cap a = some d') : ∃ c', c.run cc (d.acts a) = some c' ∧ d'.Sim cc c' := by
  cases a with
  | spawn i cfg =>
    simp only [Deploy.step] at hs
    split at hs
    · rename_i hc
      split at hs
      · rename_i op hb
        cases hs
        refine ⟨c.setServer i (.up op), Cluster.run_one ?_, ?_⟩
        · simp only [Cluster.step, ← h.servers, h.fresh i hc.1, if_pos hc.2.2, hb]
        · refine ⟨by simp only [Deploy.setServer, Deploy.setTask, Cluster.setServer, h.servers], fun j hj => ?_, fun j hj => ?_, fun j hj => ?_, fun a j hj => ?_⟩
          all_goals simp only [Deploy.setTask, Deploy.setServer] at hj ⊢
          · split at hj
            · cases hj
            · rename_i e; simp only [if_neg e]; exact h.fresh j hj
          · split at hj
            · rename_i e; rw [e]; exact hc.2.1
            · exact h.known j hj
          · split at hj
            · exact absurd rfl hj
            · exact h.idle j hj
          · have hj' : d.task j ≠ .ended := by
              split at hj
              · rename_i e; rw [e, hc.1]; nofun
              · exact hj
            obtain ⟨x, hx, hx'⟩ := h.link a j hj'
            refine ⟨x, hx, fun ha => hx' ?_⟩
            split at ha
            · rename_i e; rw [e, hc.1]; nofun
            · exact ha
      · cases hs
    · cases hs
  | call i x =>
    simp only [Deploy.step] at hs
    split at hs
    · rename_i op hop
      split at hs
      · cases hs
      · rename_i hi
        cases hs
        refine ⟨_, Cluster.run_one (c' := c.setServer i (op.callResult x)) ?_, h.set (fun e => ?_) _⟩
        · simp only [Cluster.step, ← h.servers, hop, if_neg hi]
        · rw [h.fresh i e] at hop; cases hop
    · cases hs
  | tick i =>
    simp only [Deploy.step] at hs
    split at hs
    · rename_i hc
      cases hs
      have hw : d.task i ≠ .waiting := by rw [hc.1]; nofun
      simp only [Deploy.acts]
      unfold Deploy.taskCall
      cases e : d.servers i with
      | down _ => exact ⟨c, rfl, h.stop hw⟩
      | up op =>
        simp only
        refine ⟨c.setServer i (op.callResult .tick), Cluster.run_one ?_, ?_⟩
        · simp only [Cluster.step, ← h.servers, e]; rfl
        · split
          · rename_i e'; rw [e']; exact h.set hw _
          · rename_i e'; rw [e']; exact (h.set hw _).stop hw
    · cases hs
  | take i =>
    simp only [Deploy.step] at hs
    split at hs
    · rename_i hc
      have hw : d.task i ≠ .waiting := by rw [hc.1]; nofun
      split at hs
      · rename_i e
        cases hs
        simp only [Deploy.acts, e]
        exact ⟨c, rfl, h.stop hw⟩
      · rename_i op e
        cases hs
        simp only [Deploy.acts, e]
        refine ⟨_, Cluster.run_one (by simp only [Cluster.step, ← h.servers, e]; rfl), ?_⟩
        refine ⟨by simp only [Deploy.setServer, Deploy.setBuffer], fun j hj => ?_, h.known, fun j hj => ?_, fun a j hj => ?_⟩
        all_goals simp only [Deploy.setServer, Deploy.setBuffer] at hj ⊢
        · have hne : j ≠ i := fun e' => hw (e' ▸ hj)
          rw [if_neg hne]; exact h.fresh j hj
        · have hne : j ≠ i := fun e' => hj (e' ▸ hc.1)
          rw [if_neg hne]; exact h.idle j hj
        · obtain ⟨x, hx, hx'⟩ := h.link a j hj
          split
          · rename_i e'
            subst e'
            have hx'' := hx' (by rw [hc.1]; nofun)
            rw [hc.2] at hx''
            subst hx''
            exact ⟨_, by rw [hx, List.filter_nil, List.append_nil], fun _ => rfl⟩
          · exact ⟨x, hx, hx'⟩
    · cases hs
  | send i =>
    simp only [Deploy.step] at hs
    split at hs
    · cases hs
    · rename_i m rest hm
      have hr : d.task i = .running := by
        by_cases e : d.task i = .running
        · exact e
        · rw [h.idle i e] at hm; cases hm
      have hidle : ∀ j, d.task j ≠ .running → (if j = i then rest else d.buffer j) = [] := fun j hj => by
        rw [if_neg fun (e' : j = i) => hj (e' ▸ hr)]; exact h.idle j hj
      refine ⟨c, rfl, ?_⟩
      split at hs
      · split at hs
        · rename_i he
          cases hs
          refine ⟨h.servers, h.fresh, h.known, hidle, fun a j hj => ?_⟩
          obtain ⟨x, hx, hx'⟩ := h.link a j hj
          refine ⟨x, hx, fun ha => ?_⟩
          rw [hx' ha]
          simp only [Deploy.setBuffer]
          split
          · rename_i e'
            subst e'
            have hne : m.dst ≠ j := fun e' => hj (e' ▸ he)
            rw [hm, List.filter_cons_of_neg (by simpa using hne)]
          · rfl
        · split at hs
          · cases hs
            refine ⟨h.servers, h.fresh, h.known, hidle, fun a j hj => ?_⟩
            obtain ⟨x, hx, hx'⟩ := h.link a j hj
            simp only [Deploy.setBuffer, Deploy.setChannel]
            by_cases e : j = m.dst
            · subst e
              simp only [if_true]
              by_cases e' : a = i
              · subst e'
                have hx'' := hx' (by rw [hr]; nofun)
                rw [hm, List.filter_cons_of_pos (by simp)] at hx''
                refine ⟨_, ?_, fun _ => by rw [if_pos rfl]⟩
                rw [hx, hx'']
                simp [chanFrom]
              · refine ⟨x, ?_, fun ha => by rw [if_neg e']; exact hx' ha⟩
                rw [hx]
                have : i ≠ a := fun e => e' e.symm
                simp [chanFrom, this]
            · simp only [if_neg e]
              refine ⟨x, hx, fun ha => ?_⟩
              rw [hx' ha]
              split
              · rename_i e'
                subst e'
                rw [hm, List.filter_cons_of_neg (by simpa using fun e' => e e'.symm)]
              · rfl
          · cases hs
      · cases hs
        exact h.stop (by rw [hr]; nofun)
  | recv j =>
    simp only [Deploy.step] at hs
    split at hs
    · rename_i hc
      have hw : d.task j ≠ .waiting := by rw [hc.1]; nofun
      split at hs
      · cases hs
      · rename_i i m rest hm
        cases hs
        have hchan : ∀ k, (d.setChannel j rest).channel k = if k = j then rest else d.channel k := fun _ => rfl
        have hsv : (d.setChannel j rest).servers j = d.servers j := rfl
        simp only [Deploy.acts]
        unfold Deploy.taskCall
        rw [hsv]
        cases e : d.servers j with
        | down _ =>
          refine ⟨c, rfl, ?_⟩
          have h' := h.stop hw
          refine ⟨h'.servers, h'.fresh, h'.known, h'.idle, fun a k hk => ?_⟩
          have : ((d.setChannel j rest).stop j).channel k = (d.stop j).channel k := by
            simp only [Deploy.stop, Deploy.setChannel, Deploy.setBuffer, Deploy.setTask]
            split <;> rfl
          rw [this]
          exact h'.link a k hk
        | up op =>
          simp only [hm]
          obtain ⟨x, hx, hx'⟩ := h.link i j (by rw [hc.1]; nofun)
          have hh : chanFrom i (d.channel j) = m :: chanFrom i rest := by rw [hm]; simp [chanFrom]
          rw [hh, List.cons_append] at hx
          have hd : (d.setChannel j rest).Sim cc (c.setNet i j (chanFrom i rest ++ x)) := by
            refine ⟨h.servers, h.fresh, h.known, h.idle, fun a k hk => ?_⟩
            obtain ⟨y, hy, hy'⟩ := h.link a k hk
            rw [hchan]
            simp only [Cluster.setNet]
            split
            · rename_i e'
              obtain ⟨rfl, rfl⟩ := e'
              rw [if_pos rfl]
              exact ⟨x, rfl, hx'⟩
            · rename_i e'
              refine ⟨y, ?_, hy'⟩
              rw [hy]
              split
              · rename_i e''
                subst e''
                have : i ≠ a := fun e => e' ⟨e.symm, rfl⟩
                rw [hm]
                simp [chanFrom, this]
              · rfl
          refine ⟨(c.setNet i j (chanFrom i rest ++ x)).setServer j (op.callResult (.handleIncoming m)), Cluster.run_one ?_, ?_⟩
          · simp only [Cluster.step, hx, ← h.servers, e]
          · split
            · rename_i e'; rw [e']; exact hd.set hw _
            · rename_i e'; rw [e']; exact (hd.set hw _).stop hw
    · cases hs
  | abort i =>
    simp only [Deploy.step] at hs
    split at hs
    · rename_i hc
      cases hs
      exact ⟨c, rfl, h.stop (by rw [hc]; nofun)⟩
    · cases hs
  | poison i =>
    simp only [Deploy.step] at hs
    split at hs
    · rename_i op hop
      cases hs
      refine ⟨_, Cluster.run_one (c' := c.setServer i (.down op.sp.ist.storage)) ?_, h.set (fun e => ?_) _⟩
      · simp only [Cluster.step, ← h.servers, hop]
      · rw [h.fresh i e] at hop; cases hop
    · cases hs

theorem Deploy.run_append [SnapOps E S] (d : Deploy E S) (as bs : List (DAction E S)) :
    d.run cc cap (as ++ bs) = (d.run cc cap as).bind fun d' => d'.run cc cap bs := by
  induction as generalizing d with
  | nil => rfl
  | cons a as ih =>
    simp only [List.cons_append, Deploy.run]
    split
    · rfl
    · exact ih _

theorem Deploy.trace_append [SnapOps E S] {d d' : Deploy E S} {as : List (DAction E S)} (h : d.run cc cap as = some d') (bs : List (DAction E S)) :
    d.trace cc cap (as ++ bs) = d.trace cc cap as ++ d'.trace cc cap bs := by
  induction as generalizing d with
  | nil => cases h; rfl
  | cons a as ih =>
    simp only [Deploy.run] at h
    simp only [List.cons_append, Deploy.trace]
    split at h
    · cases h
    · rename_i d1 h1
      simp only [h1]
      rw [ih h, List.append_assoc]

theorem Deploy.Sim.run [SnapOps E S] {d d' : Deploy E S} {c : Cluster E S} (h : d.Sim cc c) {as : List (DAction E S)}
    (hr : d.run cc cap as = some d') : ∃ c', c.run cc (d.trace cc cap as) = some c' ∧ d'.Sim cc c' := by
  induction as generalizing d c with
  | nil => cases hr; exact ⟨c, rfl, h⟩
  | cons a as ih =>
    simp only [Deploy.run] at hr
    simp only [Deploy.trace]
    split at hr
    · cases hr
    · rename_i d1 h0
      obtain ⟨c1, h1, hs⟩ := h.step h0
      simp only [h0]
      obtain ⟨c2, h2, hs'⟩ := ih hs hr
      exact ⟨c2, by rw [Cluster.run_append, h1]; exact h2, hs'⟩

/-- Actions of a network that does nothing to messages. -/
def Action.Kept : Action E S → Bool
  | .lose _ _ _ | .rearrange _ _ _ => false
  | _ => true

theorem Deploy.acts_kept (d : Deploy E S) (a : DAction E S) : (d.acts a).all Action.Kept = true := by
  cases a with
  | tick i => simp only [Deploy.acts]; split <;> rfl
  | take i => simp only [Deploy.acts]; split <;> rfl
  | recv i => simp only [Deploy.acts]; split <;> rfl
  | _ => rfl

theorem Deploy.trace_kept [SnapOps E S] (d : Deploy E S) (as : List (DAction E S)) : (d.trace cc cap as).all Action.Kept = true := by
  induction as generalizing d with
  | nil => rfl
  | cons a as ih =>
    simp only [Deploy.trace]
    split
    · rfl
    · rw [List.all_append, d.acts_kept, ih]; rfl

theorem Cluster.TidyRun.of_kept [SnapOps E S] {as : List (Action E S)} (h : as.all Action.Kept = true) (c : Cluster E S) :
    c.TidyRun cc as Links.all := by
  induction as generalizing c with
  | nil => trivial
  | cons a as ih =>
    simp only [List.all_cons, Bool.and_eq_true] at h
    refine ⟨?_, fun c' _ => ih h.2 c'⟩
    cases a with
    | lose i j k => cases h.1
    | rearrange i j ks => cases h.1
    | deliver i j => exact nofun
    | crashDeliver i j k => exact nofun
    | _ => trivial

theorem Action.kept_inOrder {as : List (Action E S)} (h : as.all Action.Kept = true) : as.all Action.InOrder = true := by
  rw [List.all_eq_true] at h ⊢
  intro a ha
  have := h a ha
  cases a <;> first | rfl | cases this

theorem Deploy.acts_only {ok : Call E S → Prop} (ht : ok .tick) {d : Deploy E S} {a : DAction E S} (h : a.Only ok) :
    ∀ b ∈ d.acts a, b.Only ok := by
  intro b hb
  cases a with
  | call i c => cases List.mem_singleton.1 hb; exact h
  | tick i =>
    simp only [Deploy.acts] at hb
    split at hb
    · cases List.mem_singleton.1 hb; exact ht
    · cases hb
  | take i =>
    simp only [Deploy.acts] at hb
    split at hb
    · cases List.mem_singleton.1 hb; trivial
    · cases hb
  | recv i =>
    simp only [Deploy.acts] at hb
    split at hb
    · cases List.mem_singleton.1 hb; trivial
    · cases hb
  | spawn i cfg => cases List.mem_singleton.1 hb; trivial
  | poison i => cases List.mem_singleton.1 hb; trivial
  | send i => cases hb
  | abort i => cases hb

theorem Deploy.trace_only [SnapOps E S] {ok : Call E S → Prop} (ht : ok .tick) {as : List (DAction E S)} (h : ∀ a ∈ as, a.Only ok) (d : Deploy E S) :
    ∀ b ∈ d.trace cc cap as, b.Only ok := by
  induction as generalizing d with
  | nil => nofun
  | cons a as ih =>
    intro b hb
    simp only [Deploy.trace] at hb
    split at hb
    · cases hb
    · rcases List.mem_append.1 hb with hb | hb
      · exact Deploy.acts_only ht (h a (.head _)) b hb
      · exact ih (fun x hx => h x (.tail _ hx)) _ b hb

theorem Deploy.acts_appends (P : E → Bool) (d : Deploy E S) (a : DAction E S) : appendsOf P (d.acts a) = a.entry.toList.countP P := by
  cases a with
  | call i c => cases c <;> simp [Deploy.acts, DAction.entry, appendsOf, Action.appends, List.countP_cons]
  | tick i => simp only [Deploy.acts]; split <;> rfl
  | take i => simp only [Deploy.acts]; split <;> rfl
  | recv i => simp only [Deploy.acts]; split <;> rfl
  | _ => rfl

theorem Deploy.trace_appends [SnapOps E S] (P : E → Bool) {as : List (DAction E S)} {d d' : Deploy E S} (h : d.run cc cap as = some d') :
    appendsOf P (d.trace cc cap as) = (appended as).countP P := by
  induction as generalizing d with
  | nil => rfl
  | cons a as ih =>
    simp only [Deploy.run] at h
    simp only [Deploy.trace]
    split at h
    · cases h
    · rename_i d1 h1
      have e1 : appendsOf P (d.acts a ++ d1.trace cc cap as) = appendsOf P (d.acts a) + appendsOf P (d1.trace cc cap as) := by
        simp [appendsOf, List.sum_append]
      simp only [h1]
      rw [e1, ih h, d.acts_appends]
      unfold appended
      rw [List.filterMap_cons]
      cases a.entry with
      | none => simp
      | some e => simp [List.countP_cons, Nat.add_comm]

/-- Two moments of a run of the application are two moments of a run of a cluster. -/
theorem Deploy.later [SnapOps E S] {d d' : Deploy E S} {as bs : List (DAction E S)} (h1 : Deploy.init.run cc cap as = some d)
    (h2 : d.run cc cap bs = some d') : ∃ c c' : Cluster E S, c.Reachable cc Links.all ∧ c.Later cc c' Links.all ∧ d.Sim cc c ∧ d'.Sim cc c' := by
  obtain ⟨c, h3, hs⟩ := Deploy.Sim.init.run h1
  obtain ⟨c', h4, hs'⟩ := hs.run h2
  exact ⟨c, c', ⟨_, .of_kept (Deploy.trace_kept ..) _, h3⟩, ⟨_, .of_kept (Deploy.trace_kept ..) _, h4⟩, hs, hs'⟩

theorem Deploy.SameRun.cluster [SnapOps E S] {d d' : Deploy E S} (h : d.SameRun cc cap d') :
    ∃ c c' : Cluster E S, c.SameRun cc c' Links.all ∧ d.servers = c.servers ∧ d'.servers = c'.servers := by
  obtain ⟨as, bs, ⟨h1, h2⟩ | ⟨h1, h2⟩⟩ := h
  · obtain ⟨c, c', h3, h4, h5, h6⟩ := Deploy.later h1 h2
    exact ⟨c, c', .inl ⟨h3, h4⟩, h5.servers, h6.servers⟩
  · obtain ⟨c, c', h3, h4, h5, h6⟩ := Deploy.later h1 h2
    exact ⟨c', c, .inr ⟨h3, h4⟩, h6.servers, h5.servers⟩

/-- The run on the arbitrary network; what is in a channel or a buffer was sent. -/
theorem Deploy.loose [SnapOps E S] {ok : Call E S → Prop} (ht : ok .tick) {d : Deploy E S} {as : List (DAction E S)} (ha : ∀ a ∈ as, a.Only ok)
    (h : Deploy.init.run cc cap as = some d) : ∃ (bs : List (LAction E S)) (l : Loose E S), (∀ b ∈ bs, b.Only ok) ∧
      Loose.init.run cc bs = some l ∧ l.servers = d.servers ∧
      (∀ i, d.task i ≠ .ended → ∀ x ∈ d.channel i, x.2 ∈ l.sent) ∧
      (∀ i, ∀ m ∈ d.buffer i, m ∈ l.sent ∨ m.dst ∈ cc.nodes) ∧ (∀ i, d.task i ≠ .waiting → i ∈ cc.nodes) ∧
      (∀ i, d.task i ≠ .running → d.buffer i = []) := by
  obtain ⟨c, h1, hs⟩ := Deploy.Sim.init.run h
  obtain ⟨bs, l, hb, hl, he⟩ := Embeds.init.run (ok := ok) (Deploy.trace_only ht ha _) h1
  refine ⟨bs, l, hb, hl, he.servers.trans hs.servers.symm, fun i hi x hx => ?_, fun i m hm => ?_, hs.known, hs.idle⟩
  · obtain ⟨y, hy, -⟩ := hs.link x.1 i hi
    refine (he.net x.1 i x.2 ?_).1
    rw [hy]
    refine List.mem_append_left _ (List.mem_map.2 ⟨x, List.mem_filter.2 ⟨hx, by simp⟩, rfl⟩)
  · by_cases hd : d.task m.dst = .ended
    · exact .inr (hs.known _ (by rw [hd]; nofun))
    · obtain ⟨y, hy, hy'⟩ := hs.link i m.dst hd
      refine .inl (he.net i m.dst m ?_).1
      have hi : d.task i ≠ .ended := fun e => by
        have := hs.idle i (by rw [e]; nofun)
        rw [this] at hm; cases hm
      rw [hy, hy' hi]
      exact List.mem_append_right _ (List.mem_filter.2 ⟨hm, by simp⟩)

/-- What an action does to server `i`, if no call can panic. -/
theorem Deploy.step_up [SnapOps E S] {cc : ClusterConfig} {cap : Nat} {d d' : Deploy E S} {a : DAction E S} {i : NodeId} (hs : d.step cc cap a = some d')
    (hk : ¬ a.Kills i) (hd : ∀ m ∈ d.buffer i, m.dst ∈ cc.nodes) (hb : d.task i ≠ .running → d.buffer i = [])
    (hc : ∀ op (c : Call E S), d.servers i = .up op → (c = .tick ∨ a = .call i c ∨ ∃ m, c = .handleIncoming m ∧ d.task i = .running ∧ ∃ x ∈ d.channel i, x.2 = m) →
      ∃ op', op.callResult c = .up op') :
    (d.task i = .running → (∃ op, d.servers i = .up op) → d'.task i = .running ∧ ∃ op, d'.servers i = .up op) ∧
    (d.task i = .waiting → (∀ cfg, a ≠ .spawn i cfg) → d'.task i = .waiting) ∧
    (∀ cfg, a = .spawn i cfg → d'.task i = .running ∧ ∃ op, d'.servers i = .up op) := by
  cases a with
  | spawn j cfg =>
    simp only [Deploy.step] at hs
    split at hs
    · rename_i h
      split at hs
      · rename_i op hb
        cases hs
        by_cases e : i = j
        · subst e
          refine ⟨fun h' => ?_, fun _ h' => absurd rfl (h' cfg), fun _ _ => ⟨?_, op, ?_⟩⟩
          · rw [h.1] at h'; cases h'
          · simp [Deploy.setTask]
          · simp [Deploy.setTask, Deploy.setServer]
        · simp only [Deploy.setTask, Deploy.setServer, if_neg e]
          exact ⟨fun h1 h2 => ⟨h1, h2⟩, fun h _ => h, fun _ h => absurd (by cases h; rfl) e⟩
      · cases hs
    · cases hs
  | call j c =>
    simp only [Deploy.step] at hs
    split at hs
    · rename_i op hop
      split at hs
      · cases hs
      · cases hs
        refine ⟨fun h1 h2 => ⟨h1, ?_⟩, fun h _ => h, fun _ h => (by cases h)⟩
        simp only [Deploy.setServer]
        split
        · rename_i e; subst e; exact hc op c hop (.inr (.inl rfl))
        · exact h2
    · cases hs
  | tick j =>
    simp only [Deploy.step] at hs
    split at hs
    · rename_i h
      cases hs
      by_cases e : i = j
      · subst e
        refine ⟨fun h1 ⟨op, hop⟩ => ?_, fun h' => ?_, fun _ h => (by cases h)⟩
        · obtain ⟨op', h2⟩ := hc op .tick hop (.inl rfl)
          unfold Deploy.taskCall
          rw [hop]
          simp only [h2]
          exact ⟨h1, op', by simp [Deploy.setServer]⟩
        · rw [h.1] at h'; cases h'
      · have h1 : (d.taskCall j .tick).task i = d.task i ∧ (d.taskCall j .tick).servers i = d.servers i := by
          unfold Deploy.taskCall
          split
          · simp [Deploy.stop, Deploy.setTask, Deploy.setBuffer, Deploy.setChannel, e]
          · split <;> simp [Deploy.stop, Deploy.setTask, Deploy.setBuffer, Deploy.setChannel, Deploy.setServer, e]
        rw [h1.1, h1.2]
        exact ⟨fun h1 h2 => ⟨h1, h2⟩, fun h _ => h, fun _ h => (by cases h)⟩
    · cases hs
  | take j =>
    simp only [Deploy.step] at hs
    split at hs
    · rename_i h
      split at hs
      · rename_i hop
        cases hs
        refine ⟨fun h1 h2 => ?_, fun h' _ => ?_, fun _ h => (by cases h)⟩
        · have e : i ≠ j := fun e => by obtain ⟨op, h2⟩ := h2; rw [e, hop] at h2; cases h2
          simp only [Deploy.stop, Deploy.setTask, Deploy.setBuffer, Deploy.setChannel, if_neg e]
          exact ⟨h1, h2⟩
        · have e : i ≠ j := fun e => by rw [e, h.1] at h'; cases h'
          simp only [Deploy.stop, Deploy.setTask, Deploy.setBuffer, Deploy.setChannel, if_neg e]
          exact h'
      · rename_i op hop
        cases hs
        refine ⟨fun h1 h2 => ⟨h1, ?_⟩, fun h _ => h, fun _ h => (by cases h)⟩
        simp only [Deploy.setServer, Deploy.setBuffer]
        split
        · exact ⟨_, rfl⟩
        · exact h2
    · cases hs
  | send j =>
    simp only [Deploy.step] at hs
    split at hs
    · cases hs
    · rename_i m rest hm
      split at hs
      · split at hs
        · cases hs
          exact ⟨fun h1 h2 => ⟨h1, h2⟩, fun h _ => h, fun _ h => (by cases h)⟩
        · split at hs
          · cases hs
            exact ⟨fun h1 h2 => ⟨h1, h2⟩, fun h _ => h, fun _ h => (by cases h)⟩
          · cases hs
      · rename_i hn
        cases hs
        have e : i ≠ j := fun e => by subst e; exact hn (hd m (by rw [hm]; exact .head _))
        simp only [Deploy.stop, Deploy.setTask, Deploy.setBuffer, Deploy.setChannel, if_neg e]
        exact ⟨fun h1 h2 => ⟨h1, h2⟩, fun h _ => h, fun _ h => (by cases h)⟩
  | recv j =>
    simp only [Deploy.step] at hs
    split at hs
    · rename_i h
      split at hs
      · cases hs
      · rename_i k m rest hm
        cases hs
        by_cases e : i = j
        · subst e
          refine ⟨fun h1 ⟨op, hop⟩ => ?_, fun h' => ?_, fun _ h => (by cases h)⟩
          · obtain ⟨op', h2⟩ := hc op (.handleIncoming m) hop (.inr (.inr ⟨m, rfl, h1, (k, m), by rw [hm]; exact .head _, rfl⟩))
            unfold Deploy.taskCall
            rw [show (d.setChannel i rest).servers i = d.servers i from rfl, hop]
            simp only [h2]
            exact ⟨h1, op', by simp [Deploy.setServer]⟩
          · rw [h.1] at h'; cases h'
        · have h1 : ((d.setChannel j rest).taskCall j (.handleIncoming m)).task i = d.task i ∧
              ((d.setChannel j rest).taskCall j (.handleIncoming m)).servers i = d.servers i := by
            unfold Deploy.taskCall
            split
            · simp [Deploy.stop, Deploy.setTask, Deploy.setBuffer, Deploy.setChannel, e]
            · split <;> simp [Deploy.stop, Deploy.setTask, Deploy.setBuffer, Deploy.setChannel, Deploy.setServer, e]
          rw [h1.1, h1.2]
          exact ⟨fun h1 h2 => ⟨h1, h2⟩, fun h _ => h, fun _ h => (by cases h)⟩
    · cases hs
  | abort j =>
    simp only [Deploy.step] at hs
    split at hs
    · cases hs
      have e : i ≠ j := fun e => hk e.symm
      simp only [Deploy.stop, Deploy.setTask, Deploy.setBuffer, Deploy.setChannel, if_neg e]
      exact ⟨fun h1 h2 => ⟨h1, h2⟩, fun h _ => h, fun _ h => (by cases h)⟩
    · cases hs
  | poison j =>
    simp only [Deploy.step] at hs
    split at hs
    · cases hs
      have e : i ≠ j := fun e => hk e.symm
      simp only [Deploy.setServer, if_neg e]
      exact ⟨fun h1 h2 => ⟨h1, h2⟩, fun h _ => h, fun _ h => (by cases h)⟩
    · cases hs

end Omni
