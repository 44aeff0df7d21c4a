import Verif.Proof.Project
/-
Lifting a property of single servers, their disks and the messages to the runs on the arbitrary network.
-/
namespace Omni

variable {E S : Type} [SnapOps E S]

/-- `Up` of the running servers, `D` of the disks and `Ms` of the messages are kept by calls that satisfy `ok`. -/
structure LClosed (cc : ClusterConfig) (ok : Call E S → Prop) (Up : NodeId → OP E S → Prop) (D : NodeId → Mem E S → Prop)
    (Ms : Message E S → Prop) : Prop where
  init : ∀ i, D i {}
  start : ∀ cfg d op, D cfg.pid d → OP.build { cluster_config := cc, server_config := cfg } d = some (.ok op) → Up cfg.pid op
  disk : ∀ i op, Up i op → D i op.sp.ist.storage
  call : ∀ i op (call : Call E S), Up i op → (call.isIncoming = false → ok call) →
    (∀ m, call = .handleIncoming m → Ms m ∧ m.dst = i) →
    (∀ op', op.callResult call = .up op' → Up i op') ∧ (∀ d, op.callResult call = .down d → D i d) ∧
      ∀ d ∈ op.callTrail call, D i d
  take : ∀ i op, Up i op → Up i (op.take_outgoing_messages []).2 ∧ ∀ m ∈ (op.take_outgoing_messages []).1, Ms m

structure LInv (Up : NodeId → OP E S → Prop) (D : NodeId → Mem E S → Prop) (Ms : Message E S → Prop) (c : Loose E S) : Prop where
  up : ∀ i op, c.servers i = .up op → Up i op
  down : ∀ i d, c.servers i = .down d → D i d
  sent : ∀ m ∈ c.sent, Ms m

variable {cc : ClusterConfig} {ok : Call E S → Prop} {Up : NodeId → OP E S → Prop} {D : NodeId → Mem E S → Prop}
  {Ms : Message E S → Prop}

/-- From `Up`, `D`, `Ms` to `Up'`, `D'`, `Ms'` by the step `a`. -/
structure LMoves (cc : ClusterConfig) (ok : Call E S → Prop) (Up Up' : NodeId → OP E S → Prop) (D D' : NodeId → Mem E S → Prop)
    (Ms Ms' : Message E S → Prop) : Prop where
  upUp : ∀ i op, Up i op → Up' i op
  downDown : ∀ i d, D i d → D' i d
  msgs : ∀ m, Ms m → Ms' m
  start : ∀ cfg d op, D cfg.pid d → OP.build { cluster_config := cc, server_config := cfg } d = some (.ok op) → Up' cfg.pid op
  disk : ∀ i op, Up i op → D' i op.sp.ist.storage
  call : ∀ i op (call : Call E S), Up i op → (call.isIncoming = false → ok call) →
    (∀ m, call = .handleIncoming m → Ms m ∧ m.dst = i) →
    (∀ op', op.callResult call = .up op' → Up' i op') ∧ (∀ d, op.callResult call = .down d → D' i d) ∧
      ∀ d ∈ op.callTrail call, D' i d
  take : ∀ i op, Up i op → Up' i (op.take_outgoing_messages []).2 ∧ ∀ m ∈ (op.take_outgoing_messages []).1, Ms' m

theorem LInv.move {Up' : NodeId → OP E S → Prop} {D' : NodeId → Mem E S → Prop} {Ms' : Message E S → Prop}
    (hc : LMoves cc ok Up Up' D D' Ms Ms') {c c' : Loose E S} (h : LInv Up D Ms c) {a : LAction E S} (ha : a.Only ok)
    (hs : c.step cc a = some c') : LInv Up' D' Ms' c' := by
  have one : ∀ (i : NodeId) (s : Server E S), c' = c.setServer i s →
      (∀ op, s = .up op → Up' i op) → (∀ d, s = .down d → D' i d) → LInv Up' D' Ms' c' := by
    intro i s e hu hd
    subst e
    refine ⟨fun j op hj => ?_, fun j d hj => ?_, fun m hm => hc.msgs m (h.sent m hm)⟩
    · by_cases hji : j = i
      · subst hji; rw [Loose.setServer_same] at hj; exact hu op hj
      · rw [Loose.setServer_ne c hji] at hj; exact hc.upUp j op (h.up j op hj)
    · by_cases hji : j = i
      · subst hji; rw [Loose.setServer_same] at hj; exact hd d hj
      · rw [Loose.setServer_ne c hji] at hj; exact hc.downDown j d (h.down j d hj)
  cases a with
  | start i cfg =>
    simp only [Loose.step] at hs
    split at hs
    · cases hs
    · rename_i d hd
      split at hs
      · rename_i hp
        split at hs
        · rename_i op hb
          cases hs
          subst hp
          exact one _ _ rfl (fun op' e => by cases e; exact hc.start cfg d _ (h.down _ d hd) hb) (fun d e => by cases e)
        · cases hs
      · cases hs
  | crash i =>
    simp only [Loose.step] at hs
    split at hs
    · rename_i op hu
      cases hs
      exact one i _ rfl (fun op e => by cases e) (fun d e => by cases e; exact hc.disk i op (h.up i op hu))
    · cases hs
  | call i call =>
    simp only [Loose.step] at hs
    split at hs
    · rename_i op hu
      split at hs
      · cases hs
      · rename_i hi
        cases hs
        obtain ⟨h1, h2, -⟩ := hc.call i op call (h.up i op hu) (fun _ => ha) (fun m e => by subst e; simp [Call.isIncoming] at hi)
        exact one i _ rfl h1 h2
    · cases hs
  | crashCall i call k =>
    simp only [Loose.step] at hs
    split at hs
    · rename_i op hu
      split at hs
      · cases hs
      · rename_i hi
        split at hs
        · rename_i d hd
          cases hs
          obtain ⟨-, -, h3⟩ := hc.call i op call (h.up i op hu) (fun _ => ha) (fun m e => by subst e; simp [Call.isIncoming] at hi)
          exact one i _ rfl (fun op e => by cases e) (fun d' e => by cases e; exact h3 d (List.mem_of_getElem? hd))
        · cases hs
    · cases hs
  | take i =>
    simp only [Loose.step] at hs
    split at hs
    · rename_i op hu
      cases hs
      obtain ⟨h1, h2⟩ := hc.take i op (h.up i op hu)
      refine ⟨fun j op' hj => ?_, fun j d hj => ?_, fun m hm => ?_⟩
      · simp only at hj
        split at hj
        · rename_i e; subst e; cases hj; exact h1
        · exact hc.upUp j op' (h.up j op' hj)
      · simp only at hj
        split at hj
        · cases hj
        · exact hc.downDown j d (h.down j d hj)
      · rcases List.mem_append.1 hm with hm | hm
        · exact hc.msgs m (h.sent m hm)
        · exact h2 m hm
    · cases hs
  | deliver n =>
    simp only [Loose.step] at hs
    split at hs
    · cases hs
    · rename_i m hm
      split at hs
      · cases hs
      · rename_i op hu
        cases hs
        obtain ⟨h1, h2, -⟩ := hc.call m.dst op (.handleIncoming m) (h.up _ op hu) (fun e => by simp [Call.isIncoming] at e)
          (fun m' e => by cases e; exact ⟨h.sent m (List.mem_of_getElem? hm), rfl⟩)
        exact one _ _ rfl h1 h2
  | crashDeliver n k =>
    simp only [Loose.step] at hs
    split at hs
    · cases hs
    · rename_i m hm
      split at hs
      · cases hs
      · rename_i op hu
        split at hs
        · rename_i d hd
          cases hs
          obtain ⟨-, -, h3⟩ := hc.call m.dst op (.handleIncoming m) (h.up _ op hu) (fun e => by simp [Call.isIncoming] at e)
            (fun m' e => by cases e; exact ⟨h.sent m (List.mem_of_getElem? hm), rfl⟩)
          exact one _ _ rfl (fun op e => by cases e) (fun d' e => by cases e; exact h3 d (List.mem_of_getElem? hd))
        · cases hs

theorem LClosed.moves (hc : LClosed cc ok Up D Ms) : LMoves cc ok Up Up D D Ms Ms :=
  ⟨fun _ _ h => h, fun _ _ h => h, fun _ h => h, hc.start, hc.disk, hc.call, hc.take⟩

theorem LInv.step (hc : LClosed cc ok Up D Ms) {c c' : Loose E S} (h : LInv Up D Ms c) {a : LAction E S} (ha : a.Only ok)
    (hs : c.step cc a = some c') : LInv Up D Ms c' := LInv.move hc.moves h ha hs

theorem LInv.run (hc : LClosed cc ok Up D Ms) {c c' : Loose E S} (h : LInv Up D Ms c) {as : List (LAction E S)}
    (ha : ∀ a ∈ as, a.Only ok) (hs : c.run cc as = some c') : LInv Up D Ms c' := by
  induction as generalizing c with
  | nil => cases hs; exact h
  | cons a as ih =>
    simp only [Loose.run] at hs
    split at hs
    · cases hs
    · rename_i d hd
      exact ih (LInv.step hc h (ha a List.mem_cons_self) hd) (fun b hb => ha b (List.mem_cons_of_mem _ hb)) hs

theorem LInv.runs (hc : LClosed cc ok Up D Ms) {c : Loose E S} {as : List (LAction E S)}
    (ha : ∀ a ∈ as, a.Only ok) (hs : Loose.init.run cc as = some c) : LInv Up D Ms c := by
  refine LInv.run hc ⟨fun i op e => by simp [Loose.init] at e, fun i d e => ?_, fun m hm => by cases hm⟩ ha hs
  simp only [Loose.init, Server.down.injEq] at e
  subst e; exact hc.init i

end Omni
