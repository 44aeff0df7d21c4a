import Verif.Spec.UI
import Verif.Props.Network
import Verif.Proof.LeaderKeep
/-
The dashboard keeps its shape.
-/
namespace Omni

variable {E S : Type}

theorem writeFrom_spec {α : Type} (l : List α) : ∀ (v : List α) (k : Nat),
    (k + l.length ≤ v.length → ∃ w, writeFrom v k l = some w ∧ w.length = v.length ∧
      (∀ i, i < k → w[i]? = v[i]?) ∧ (∀ i, i < l.length → w[k + i]? = l[i]?) ∧ ∀ i, k + l.length ≤ i → w[i]? = v[i]?) ∧
    (v.length < k + l.length → l ≠ [] → writeFrom v k l = none) := by
  induction l with
  | nil => exact fun v k => ⟨fun _ => ⟨v, rfl, rfl, fun _ _ => rfl, fun i h => by simp at h, fun _ _ => rfl⟩, fun _ h => absurd rfl h⟩
  | cons a l ih =>
    intro v k
    constructor
    · intro h
      simp only [List.length_cons] at h
      obtain ⟨w, h1, h2, h3, h4, h5⟩ := (ih (v.set k a) (k + 1)).1 (by simp; omega)
      refine ⟨w, ?_, by simpa using h2, fun i hi => ?_, fun i hi => ?_, fun i hi => ?_⟩
      · unfold writeFrom; rw [if_pos (by omega)]; exact h1
      · rw [h3 i (by omega), List.getElem?_set_ne (by omega)]
      · cases i with
        | zero =>
          rw [Nat.add_zero, h3 k (by omega), List.getElem?_set_self (by omega)]; rfl
        | succ i =>
          simp only [List.length_cons] at hi
          have := h4 i (by omega)
          rw [show k + (i + 1) = k + 1 + i by omega, this]; rfl
      · simp only [List.length_cons] at hi
        rw [h5 i (by omega), List.getElem?_set_ne (by omega)]
    · intro h _
      unfold writeFrom
      split
      · rename_i hk
        simp only [List.length_cons] at h
        refine (ih (v.set k a) (k + 1)).2 (by simp; omega) ?_
        rintro rfl
        simp at h; omega
      · rfl

/-- What all functions of the dashboard keep. -/
structure App.Shape (pid : NodeId) (nodes : List NodeId) (a : App) : Prop where
  self : a.current_node.pid = pid
  all : (a.nodes.map (·.pid)).Perm ((nodes.filter fun x => decide (x ≠ pid)) ++ [pid])
  peers : (a.active_peers.map (·.pid)).Perm (nodes.filter fun x => decide (x ≠ pid))
  prog : a.followers_progress.length = maxNode nodes + 1
  acc : a.followers_accepted_idx.length = maxNode nodes + 1
  ratio : a.current_role = .leader → ∃ own : Nat,
    (∀ i : Nat, a.followers_progress[i]? = a.followers_accepted_idx[i]?.map fun x => if own = 0 then (0, 1) else (x, own)) ∧
    a.followers_accepted_idx[pid]? = some own

theorem sortPids.insert_perm (x : NodeId) (l : List NodeId) : (sortPids.insert x l).Perm (x :: l) := by
  induction l with
  | nil => exact List.Perm.refl _
  | cons y ys ih =>
    unfold sortPids.insert
    split
    · exact List.Perm.refl _
    · exact (ih.cons y).trans (List.Perm.swap x y ys)

theorem sortPids_perm (l : List NodeId) : (sortPids l).Perm l := by
  induction l with
  | nil => exact List.Perm.refl _
  | cons x xs ih => exact (sortPids.insert_perm x _).trans (ih.cons x)

theorem coloured_pids (l : List NodeId) : (coloured l).map (·.pid) = l := by
  unfold coloured
  rw [List.map_map]
  have : ∀ (l : List NodeId) (k : Nat), (l.zipIdx k).map ((fun x : UINode => x.pid) ∘ fun p => { pid := p.1, color := some (p.2 % 8) }) = l := by
    intro l
    induction l with
    | nil => intro k; rfl
    | cons x l ih => intro k; simp only [List.zipIdx_cons, List.map_cons, ih]; rfl
  exact this l 0

theorem foldl_max_le (l : List Nat) (m : Nat) : m ≤ l.foldl max m ∧ ∀ x ∈ l, x ≤ l.foldl max m := by
  induction l generalizing m with
  | nil => exact ⟨Nat.le_refl _, nofun⟩
  | cons a l ih =>
    obtain ⟨h1, h2⟩ := ih (max m a)
    refine ⟨by rw [List.foldl_cons]; omega, fun x hx => ?_⟩
    rw [List.foldl_cons]
    rcases List.mem_cons.1 hx with rfl | hx
    · omega
    · exact h2 x hx

theorem foldl_max_mem (l : List Nat) (m : Nat) : l.foldl max m = m ∨ l.foldl max m ∈ l := by
  induction l generalizing m with
  | nil => exact .inl rfl
  | cons a l ih =>
    rw [List.foldl_cons]
    rcases ih (max m a) with h | h
    · rw [h]
      rcases Nat.le_total m a with hm | hm
      · right; rw [Nat.max_eq_right hm]; exact List.mem_cons_self
      · left; exact Nat.max_eq_left hm
    · exact .inr (List.mem_cons_of_mem _ h)

theorem le_maxNode {nodes : List NodeId} {p : NodeId} (h : p ∈ nodes) : p ≤ maxNode nodes := (foldl_max_le nodes 0).2 p h

/-- The number of slots of the dashboard. -/
theorem maxNode_eq {nodes : List NodeId} {pid m : NodeId} (hp : pid ∈ nodes) (hm : (nodes.filter fun x => decide (x ≠ pid)).max? = some m) :
    max m pid = maxNode nodes := by
  have h1 : m ∈ nodes := (List.mem_filter.1 (List.max?_mem hm)).1
  have h2 : ∀ x ∈ nodes, x ≤ max m pid := by
    intro x hx
    by_cases e : x = pid
    · omega
    · have : x ≤ m := (List.max?_le_iff hm).1 (Nat.le_refl _) x (List.mem_filter.2 ⟨hx, by simpa using e⟩)
      omega
  rcases foldl_max_mem nodes 0 with h | h
  · have := le_maxNode h1
    have := le_maxNode hp
    unfold maxNode at *
    omega
  · have h3 := h2 _ h
    have := le_maxNode h1
    have := le_maxNode hp
    unfold maxNode at *
    omega

variable {cfg : OmniPaxosConfig} {ok : UIStates → Prop} {u u' : UI}

theorem UI.shape_with (hp : cfg.server_config.pid ∈ cfg.cluster_config.nodes) (h : UI.with cfg = some u) :
    u.app.Shape cfg.server_config.pid cfg.cluster_config.nodes := by
  unfold UI.with App.with at h
  split at h
  · cases h
  · rename_i a ha
    split at ha
    · cases ha
    · rename_i m hm
      cases ha; cases h
      have hn : (coloured (sortPids ((uiPeers cfg) ++ [cfg.server_config.pid]))).map (·.pid)
          = sortPids ((uiPeers cfg) ++ [cfg.server_config.pid]) := coloured_pids _
      have hmx := maxNode_eq hp hm
      refine ⟨rfl, ?_, ?_, ?_, ?_, nofun⟩
      · show List.Perm (List.map _ (coloured _)) _
        rw [hn]
        exact sortPids_perm _
      · show List.Perm (List.map _ (List.filter _ (coloured _))) _
        have : ∀ l : List UINode, (l.filter fun n => decide (n.pid ≠ cfg.server_config.pid)).map (·.pid)
            = (l.map (·.pid)).filter fun x => decide (x ≠ cfg.server_config.pid) := by
          intro l
          rw [List.filter_map]; rfl
        rw [this, hn]
        refine (List.Perm.filter _ (sortPids_perm _)).trans ?_
        rw [List.filter_append]
        unfold uiPeers
        simp
      · show (List.replicate _ _).length = _
        rw [List.length_replicate, hmx]
      · show (List.replicate _ _).length = _
        rw [List.length_replicate, hmx]

variable {pid : NodeId} {nodes : List NodeId} {a a' : App} {st : UIStates}

theorem App.shape_decided (h : a.Shape pid nodes) {d : Nat} (e : a.set_decided_idx d = some a') : a'.Shape pid nodes := by
  unfold App.set_decided_idx at e
  split at e
  · cases e
  · cases e; exact ⟨h.self, h.all, h.peers, h.prog, h.acc, h.ratio⟩

theorem App.shape_peers (h : a.Shape pid nodes) (st : UIStates) : (a.update_active_peers st).Shape pid nodes := by
  refine ⟨h.self, h.all, ?_, h.prog, h.acc, h.ratio⟩
  have : (a.update_active_peers st).active_peers.map (·.pid) = a.active_peers.map (·.pid) := by
    unfold App.update_active_peers
    simp only [List.map_map]
    refine List.map_congr_left fun n _ => ?_
    simp only [Function.comp]
    split <;> rfl
  rw [this]; exact h.peers

theorem App.shape_leader (h : a.Shape pid nodes) (e : a.update_leader st = some a') : a'.Shape pid nodes := by
  unfold App.update_leader at e
  split at e
  · cases e; exact ⟨h.self, h.all, h.peers, h.prog, h.acc, h.ratio⟩
  · split at e
    · cases e; exact ⟨h.self, h.all, h.peers, h.prog, h.acc, h.ratio⟩
    · split at e <;> cases e
      exact ⟨h.self, h.all, h.peers, h.prog, h.acc, h.ratio⟩

/-- `update_progress` does not panic on states of the right length. -/
theorem App.progress_ok (h : a.Shape pid nodes) (hp : pid ∈ nodes) (hf : st.accepted_indexes.length = maxNode nodes + 1) :
    ∃ b, a.update_progress st = some b ∧ b.Shape pid nodes ∧
      b.current_leader = a.current_leader ∧ b.decided_idx = a.decided_idx ∧ b.current_node = a.current_node ∧
      b.nodes = a.nodes ∧ b.active_peers = a.active_peers ∧ b.throughput_data = a.throughput_data ∧
      (a.current_leader = none → b = a) ∧
      (∀ l, a.current_leader = some l → (b.current_role = .leader ↔ l = pid)) ∧
      (b.current_role = .leader → a.current_leader = some pid → ∀ i : Nat, b.followers_accepted_idx[i]? = st.accepted_indexes[i]?) := by
  have hpm := le_maxNode hp
  unfold App.update_progress
  cases hl : a.current_leader with
  | none => exact ⟨a, rfl, h, hl, rfl, rfl, rfl, rfl, rfl, fun _ => rfl, nofun, fun _ e => by cases e⟩
  | some l =>
    simp only
    by_cases e : l = a.current_node.pid
    · rw [if_pos e]
      have e' : l = pid := e.trans h.self
      obtain ⟨own, ho⟩ : ∃ own, st.accepted_indexes[l]? = some own := ⟨_, List.getElem?_eq_getElem (by omega)⟩
      rw [ho]
      simp only
      obtain ⟨w, w1, w2, -, w4, -⟩ := (writeFrom_spec (st.accepted_indexes.map fun x =>
            if own = 0 then ((0, 1) : Nat × Nat) else (x, own)) a.followers_progress 0).1 (by rw [List.length_map, h.prog]; omega)
      obtain ⟨v, v1, v2, -, v4, -⟩ := (writeFrom_spec st.accepted_indexes a.followers_accepted_idx 0).1 (by rw [h.acc]; omega)
      rw [w1, v1]
      have hv : ∀ i : Nat, v[i]? = st.accepted_indexes[i]? := by
        intro i
        by_cases hi : i < st.accepted_indexes.length
        · have := v4 i hi; rw [Nat.zero_add] at this; exact this
        · rw [List.getElem?_eq_none (by rw [v2, h.acc]; omega), List.getElem?_eq_none (by omega)]
      have hw : ∀ i : Nat, w[i]? = st.accepted_indexes[i]?.map fun x => if own = 0 then ((0, 1) : Nat × Nat) else (x, own) := by
        intro i
        by_cases hi : i < st.accepted_indexes.length
        · have := w4 i (by rw [List.length_map]; exact hi)
          rw [Nat.zero_add, List.getElem?_map] at this; exact this
        · rw [List.getElem?_eq_none (by rw [w2, h.prog]; omega), List.getElem?_eq_none (by omega)]; rfl
      refine ⟨_, rfl, ⟨h.self, h.all, h.peers, w2.trans h.prog, v2.trans h.acc, fun _ => ⟨own, fun i => ?_, ?_⟩⟩, rfl, rfl, rfl, rfl,
        rfl, rfl, nofun, fun l' e1 => ?_, fun _ _ i => hv i⟩
      · show w[i]? = v[i]?.map _
        rw [hw, hv]
      · show v[pid]? = _
        rw [hv, ← e', ho]
      · cases e1; exact ⟨fun _ => e', fun _ => rfl⟩
    · rw [if_neg e]
      have e' : l ≠ pid := fun x => e (x.trans h.self.symm)
      refine ⟨_, rfl, ⟨h.self, h.all, h.peers, h.prog, h.acc, nofun⟩, rfl, rfl, rfl, rfl, rfl, rfl, nofun, fun l' e1 => ?_, fun e1 => ?_⟩
      · cases e1; exact ⟨nofun, fun x => absurd x e'⟩
      · cases e1

theorem UI.shape_update {q : Bool} {a : App} {b : Bool} (h : ({ app := a, started := b } : UI).update_ui q = some u') : u'.app = a := by
  unfold UI.update_ui at h
  split at h
  · split at h <;> cases h; rfl
  · cases h; rfl

theorem UI.shape (hp : cfg.server_config.pid ∈ cfg.cluster_config.nodes) (hok : ∀ st, ok st → st.Fits cfg.cluster_config.nodes)
    (h : UI.Reached cfg ok u) : u.app.Shape cfg.server_config.pid cfg.cluster_config.nodes := by
  induction h with
  | «with» h => exact UI.shape_with hp h
  | start h hs ih =>
    unfold UI.start at hs
    split at hs
    · cases hs; exact ih
    · split at hs
      · cases hs
      · rename_i hu; cases hs
        show App.Shape _ _ _
        rw [UI.shape_update hu]; exact ih
  | stop h ih => exact ih
  | @tick u u' st q h hst ht ih =>
    unfold UI.tick at ht
    split at ht
    · split at ht
      · cases ht
      · rename_i a1 e1
        have s1 := App.shape_decided
          (a := { u.app with current_node := { u.app.current_node with ballot_number := st.current_ballot.n } }) ⟨ih.self, ih.all, ih.peers, ih.prog, ih.acc, ih.ratio⟩ e1
        obtain ⟨b, hb, s2, -⟩ := App.progress_ok s1 hp (hok _ hst).length
        rw [hb] at ht
        simp only at ht
        split at ht
        · cases ht
        · rename_i a3 e3
          have s3 := App.shape_leader (App.shape_peers s2 _) e3
          rw [UI.shape_update ht]; exact s3
    · cases ht; exact ih

/-- What a dashboard shows of a peer. -/
def App.peerShown (st : UIStates) (node : UINode) : UINode :=
  match st.heartbeats.find? fun x => x.ballot.pid = node.pid with
  | some hb => { node with ballot_number := hb.ballot.n, leader := hb.leader.pid, connected := true }
  | none => { node with connected := false }

theorem App.leader_ok (h : a.Shape pid nodes) (hl : ∀ l, st.current_leader = some l → l ∈ nodes) (hp : pid ∈ nodes) :
    ∃ b, a.update_leader st = some b ∧ b = { a with current_leader := st.current_leader, leader_color := b.leader_color } := by
  unfold App.update_leader
  cases e : st.current_leader with
  | none => exact ⟨_, rfl, rfl⟩
  | some l =>
    simp only
    split
    · exact ⟨_, rfl, rfl⟩
    · rename_i hne
      have hx : (a.nodes.find? fun x => decide (x.pid = l)) ≠ none := by
        intro hx
        rw [List.find?_eq_none] at hx
        have hne' : l ≠ pid := fun x => hne (x.trans h.self.symm)
        have : l ∈ a.nodes.map (·.pid) := h.all.symm.subset (by
          refine List.mem_append.2 (.inl (List.mem_filter.2 ⟨hl l e, by simpa using hne'⟩)))
        obtain ⟨n, hn, rfl⟩ := List.mem_map.1 this
        exact hx n hn (by simp)
      split
      · exact ⟨_, rfl, rfl⟩
      · rename_i hy; exact absurd hy hx

/-- One tick of a started dashboard. -/
theorem UI.tick_ok (hs : u.app.Shape pid nodes) (hp : pid ∈ nodes) (hf : st.Fits nodes) (hst : u.started = true) (q : Bool) :
    (st.decided_idx < u.app.decided_idx → u.tick st q = none) ∧
    (¬ st.decided_idx < u.app.decided_idx → ∃ a : App, u.tick st q = ({ u with app := a } : UI).update_ui q ∧ a.Shape pid nodes ∧
      a.decided_idx = st.decided_idx ∧ a.current_leader = st.current_leader ∧
      a.current_node = { u.app.current_node with ballot_number := st.current_ballot.n } ∧
      a.throughput_data = (st.decided_idx - u.app.decided_idx) :: u.app.throughput_data ∧
      a.active_peers = u.app.active_peers.map (App.peerShown st) ∧
      (if a.current_role = .leader then some a.followers_accepted_idx else none) = u.app.drawn st) := by
  unfold UI.tick App.set_decided_idx
  rw [if_pos hst]
  refine ⟨fun h => ?_, fun h => ?_⟩
  · simp only [if_pos h]
  · simp only [if_neg h]
    have s1 : App.Shape pid nodes { u.app with
        current_node := { u.app.current_node with ballot_number := st.current_ballot.n }
        throughput_data := (st.decided_idx - u.app.decided_idx) :: u.app.throughput_data, decided_idx := st.decided_idx } :=
      ⟨hs.self, hs.all, hs.peers, hs.prog, hs.acc, hs.ratio⟩
    obtain ⟨b, hb, s2, b1, b2, b3, b4, b5, b6, b7, b8, b9⟩ := App.progress_ok s1 hp hf.length
    rw [hb]
    simp only
    obtain ⟨d, hd, ed⟩ := App.leader_ok (App.shape_peers s2 st) hf.leader hp
    rw [hd]
    simp only
    have hdr : (if b.current_role = .leader then some b.followers_accepted_idx else none) = u.app.drawn st := by
      unfold App.drawn
      cases hl : u.app.current_leader with
      | none => rw [b7 hl]
      | some l =>
        have h8 := b8 l hl
        have hself := hs.self
        by_cases e : l = pid
        · have hr := h8.2 e
          rw [if_pos hr]
          simp only [hself, e, if_true]
          rw [List.ext_getElem? (b9 hr (hl.trans (by rw [e])))]
        · rw [if_neg fun x => e (h8.1 x)]
          simp only [hself, e, if_false]
    refine ⟨d, rfl, App.shape_leader (App.shape_peers s2 st) hd, ?_, ?_, ?_, ?_, ?_, ?_⟩
    · rw [ed]; exact b2
    · rw [ed]
    · rw [ed]; exact b3
    · rw [ed]; exact b6
    · rw [ed]
      show b.active_peers.map _ = _
      rw [b5]; rfl
    · rw [ed]; exact hdr

/-- When the screen cannot be drawn. -/
theorem App.render_none (h : a.Shape pid nodes) (hp : pid ∈ nodes) :
    a.render = none ↔ a.current_role = .leader ∧ Ahead pid nodes a.followers_accepted_idx := by
  unfold App.render
  cases hr : a.current_role with
  | follower => simp
  | leader =>
    simp only [true_and]
    obtain ⟨own, h1, h2⟩ := h.ratio hr
    have hlt : a.current_node.pid < a.followers_accepted_idx.length := by
      rw [h.acc, h.self]; have := le_maxNode hp; omega
    have hmem : ∀ p, (∃ n ∈ a.active_peers, n.pid = p) ↔ p ∈ nodes ∧ p ≠ pid := by
      intro p
      have := h.peers.mem_iff (a := p)
      rw [List.mem_map, List.mem_filter] at this
      rw [this]; simp
    have key : (a.active_peers.all fun n => decide (n.pid < a.followers_accepted_idx.length) &&
          match a.followers_progress[n.pid]? with
          | some r => decide (r.1 ≤ r.2)
          | none => false) = true ↔ ¬ Ahead pid nodes a.followers_accepted_idx := by
      rw [List.all_eq_true]
      constructor
      · rintro hall ⟨p, hpn, hne, x, own', e1, e2, e3, e4⟩
        obtain ⟨n, hn, rfl⟩ := (hmem p).2 ⟨hpn, hne⟩
        have := hall n hn
        rw [h2] at e2; cases e2
        rw [h1, e1] at this
        simp only [Option.map_some, if_neg e3, Bool.and_eq_true, decide_eq_true_eq] at this
        omega
      · intro hna n hn
        obtain ⟨hpn, hne⟩ := (hmem n.pid).1 ⟨n, hn, rfl⟩
        have hl : n.pid < a.followers_accepted_idx.length := by
          rw [h.acc]; have := le_maxNode hpn; omega
        rw [h1, List.getElem?_eq_getElem hl]
        simp only [hl, decide_true, Bool.true_and, Option.map_some]
        by_cases e : own = 0
        · simp [e]
        · simp only [if_neg e, decide_eq_true_eq]
          refine Nat.le_of_not_lt fun hx => hna ⟨n.pid, hpn, hne, _, own, List.getElem?_eq_getElem hl, h2, e, hx⟩
    by_cases hA : Ahead pid nodes a.followers_accepted_idx
    · simp only [hA, iff_true]
      rw [if_neg fun hx => (key.1 hx.2) hA]
    · simp only [hA, iff_false]
      rw [if_pos ⟨hlt, key.2 hA⟩]; simp

/-! ### Colours -/

theorem sortPids.insert_sorted (x : NodeId) (l : List NodeId) (h : l.Pairwise (· ≤ ·)) : (sortPids.insert x l).Pairwise (· ≤ ·) := by
  induction l with
  | nil => exact List.pairwise_singleton ..
  | cons y ys ih =>
    obtain ⟨h1, h2⟩ := List.pairwise_cons.1 h
    unfold sortPids.insert
    split
    · rename_i hxy
      refine List.pairwise_cons.2 ⟨fun z hz => ?_, h⟩
      rcases List.mem_cons.1 hz with rfl | hz
      · exact hxy
      · exact Nat.le_trans hxy (h1 z hz)
    · rename_i hxy
      refine List.pairwise_cons.2 ⟨fun z hz => ?_, ih h2⟩
      rcases List.mem_cons.1 ((sortPids.insert_perm x ys).subset hz) with rfl | hz
      · exact Nat.le_of_not_le hxy
      · exact h1 z hz

theorem sortPids_sorted (l : List NodeId) : (sortPids l).Pairwise (· ≤ ·) := by
  induction l with
  | nil => exact List.Pairwise.nil
  | cons x xs ih => exact sortPids.insert_sorted x _ ih

/-- In a list in strict order, the position is the number of smaller elements. -/
theorem position_smaller (l : List NodeId) (h : l.Pairwise (· < ·)) : ∀ (k x i : Nat), (x, i) ∈ l.zipIdx k →
    i = k + (l.filter fun y => decide (y < x)).length := by
  induction l with
  | nil => intro k x i hx; cases hx
  | cons y ys ih =>
    obtain ⟨h1, h2⟩ := List.pairwise_cons.1 h
    intro k x i hx
    rw [List.zipIdx_cons, List.mem_cons] at hx
    rcases hx with hx | hx
    · cases hx
      rw [List.filter_eq_nil_iff.2]
      · rfl
      · intro z hz
        simp only [decide_eq_true_eq]
        rcases List.mem_cons.1 hz with rfl | hz
        · omega
        · have := h1 z hz; omega
    · have hx' : x ∈ ys := by
        obtain ⟨-, -, e⟩ := List.mem_zipIdx hx
        rw [e]; exact List.getElem_mem _
      rw [List.filter_cons_of_pos (by simpa using h1 x hx'), ih h2 (k + 1) x i hx, List.length_cons]
      omega

theorem coloured_colour {nodes : List NodeId} (hn : nodes.Nodup) {l : List NodeId} (hl : l.Perm nodes) {n : UINode}
    (h : n ∈ coloured (sortPids l)) : n.color = some (colourOf nodes n.pid) := by
  unfold coloured at h
  obtain ⟨⟨x, i⟩, h1, rfl⟩ := List.mem_map.1 h
  have hp := (sortPids_perm l).trans hl
  have hs : (sortPids l).Pairwise (· < ·) := by
    refine (List.pairwise_and_iff.2 ⟨sortPids_sorted l, hp.nodup_iff.2 hn⟩).imp fun {a b} h => ?_
    exact Nat.lt_of_le_of_ne h.1 h.2
  have := position_smaller _ hs 0 x i h1
  simp only [colourOf, Option.some.injEq]
  rw [this, Nat.zero_add, (hp.filter _).length_eq]

/-- Every node has its colour. -/
structure App.Colours (nodes : List NodeId) (a : App) : Prop where
  self : a.current_node.color = some (colourOf nodes a.current_node.pid)
  all : ∀ n ∈ a.nodes, n.color = some (colourOf nodes n.pid)
  peers : ∀ n ∈ a.active_peers, n.color = some (colourOf nodes n.pid)
  leader : a.leader_color = a.current_leader.map (colourOf nodes)

theorem UI.colours_with (hn : cfg.cluster_config.nodes.Nodup) (hp : cfg.server_config.pid ∈ cfg.cluster_config.nodes)
    (h : UI.with cfg = some u) : u.app.Colours cfg.cluster_config.nodes := by
  unfold UI.with App.with at h
  split at h
  · cases h
  · rename_i a ha
    split at ha
    · cases ha
    · cases ha; cases h
      have hperm : (uiPeers cfg ++ [cfg.server_config.pid]).Perm cfg.cluster_config.nodes := by
        have h1 := (List.filter_append_perm (fun x => decide (x ≠ cfg.server_config.pid)) cfg.cluster_config.nodes)
        refine List.Perm.trans (List.Perm.append_left _ ?_) h1
        have : (cfg.cluster_config.nodes.filter fun x => !decide (x ≠ cfg.server_config.pid)) = [cfg.server_config.pid] := by
          clear h1
          revert hp hn
          induction cfg.cluster_config.nodes with
          | nil => intro _ h; cases h
          | cons y ys ih =>
            intro hn hp
            obtain ⟨n1, n2⟩ := List.nodup_cons.1 hn
            by_cases e : y = cfg.server_config.pid
            · rw [List.filter_cons_of_pos (by simpa using e), List.filter_eq_nil_iff.2, e]
              intro z hz
              simp only [ne_eq, decide_not, Bool.not_not, decide_eq_true_eq]
              rintro rfl
              exact n1 (e ▸ hz)
            · rw [List.filter_cons_of_neg (by simpa using e)]
              exact ih n2 ((List.mem_cons.1 hp).resolve_left fun x => e x.symm)
        rw [this]
      have hc := fun n => coloured_colour hn hperm (n := n)
      refine ⟨?_, hc, fun n h => hc n (List.mem_filter.1 h).1, rfl⟩
      simp only
      have hmem : cfg.server_config.pid ∈ (coloured (sortPids (uiPeers cfg ++ [cfg.server_config.pid]))).map (·.pid) := by
        rw [coloured_pids]
        exact (sortPids_perm _).symm.subset (List.mem_append.2 (.inr (List.mem_singleton.2 rfl)))
      obtain ⟨n, n1, n2⟩ := List.mem_map.1 hmem
      cases hf : (coloured (sortPids (uiPeers cfg ++ [cfg.server_config.pid]))).reverse.find?
          fun n => decide (n.pid = cfg.server_config.pid) with
      | none =>
        rw [List.find?_eq_none] at hf
        exact absurd (by simpa using n2) (hf n (List.mem_reverse.2 n1))
      | some m =>
        have h1 := hc m (List.mem_reverse.1 (List.mem_of_find?_eq_some hf))
        have h2 : m.pid = cfg.server_config.pid := by simpa using List.find?_some hf
        rw [Option.bind_some, h1, h2]

theorem App.colours_progress {nodes : List NodeId} (h : a.Colours nodes) (e : a.update_progress st = some a') : a'.Colours nodes := by
  unfold App.update_progress at e
  split at e
  · cases e; exact h
  · rename_i l hl
    split at e
    · split at e
      · cases e
      · split at e <;> cases e
        exact ⟨h.self, h.all, h.peers, h.leader⟩
    · cases e; exact ⟨h.self, h.all, h.peers, h.leader⟩

theorem App.colours_peers {nodes : List NodeId} (h : a.Colours nodes) : (a.update_active_peers st).Colours nodes := by
  refine ⟨h.self, h.all, fun n hn => ?_, h.leader⟩
  obtain ⟨m, hm, rfl⟩ := List.mem_map.1 hn
  have := h.peers m hm
  split <;> exact this

theorem App.colours_leader {nodes : List NodeId} (h : a.Colours nodes) (e : a.update_leader st = some a') : a'.Colours nodes := by
  unfold App.update_leader at e
  split at e
  · cases e; exact ⟨h.self, h.all, h.peers, rfl⟩
  · rename_i l hl
    split at e
    · rename_i hs
      cases e
      exact ⟨h.self, h.all, h.peers, by simp only [Option.map_some]; rw [h.self, hs]⟩
    · split at e
      · rename_i ld hf
        cases e
        have : ld.pid = l := by simpa using List.find?_some hf
        exact ⟨h.self, h.all, h.peers, by simp only [Option.map_some]; rw [h.all ld (List.mem_of_find?_eq_some hf), this]⟩
      · cases e

theorem UI.colours (hn : cfg.cluster_config.nodes.Nodup) (hp : cfg.server_config.pid ∈ cfg.cluster_config.nodes)
    (h : UI.Reached cfg ok u) : u.app.Colours cfg.cluster_config.nodes := by
  induction h with
  | «with» h => exact UI.colours_with hn hp h
  | start h hs ih =>
    unfold UI.start at hs
    split at hs
    · cases hs; exact ih
    · split at hs
      · cases hs
      · rename_i hu; cases hs
        show App.Colours _ _
        rw [UI.shape_update hu]; exact ih
  | stop h ih => exact ih
  | @tick u u' st q h hst ht ih =>
    unfold UI.tick App.set_decided_idx at ht
    split at ht
    · split at ht
      · cases ht
      · rename_i a1 e1
        split at e1
        · cases e1
        · cases e1
          split at ht
          · cases ht
          · rename_i a2 e2
            split at ht
            · cases ht
            · rename_i a3 e3
              rw [UI.shape_update ht]
              refine App.colours_leader (App.colours_peers (App.colours_progress ?_ e2)) e3
              exact ⟨ih.self, ih.all, ih.peers, ih.leader⟩
    · cases ht; exact ih

end Omni
