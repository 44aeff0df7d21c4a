import Verif.Model.Cluster
/-
Partial-correctness reasoning about model code: `M.Sat m s Q P` says that running `m` from `s` ends in a state satisfying
`Q` (normal return) or `P` (panic).
-/
namespace Omni

variable {σ α β : Type}

def M.Sat (m : M σ α) (s : σ) (Q : α → σ → Prop) (P : σ → Prop) : Prop :=
  match m s with
  | .ok a s' => Q a s'
  | .panic s' => P s'

namespace M

@[simp] theorem sat_pure (a : α) (s : σ) (Q P) : M.Sat (Pure.pure a : M σ α) s Q P ↔ Q a s := Iff.rfl
@[simp] theorem sat_Mpure (a : α) (s : σ) (Q P) : M.Sat (M.pure a : M σ α) s Q P ↔ Q a s := Iff.rfl

@[simp] theorem sat_bind (m : M σ α) (f : α → M σ β) (s : σ) (Q P) :
    M.Sat (m >>= f) s Q P ↔ M.Sat m s (fun a s' => M.Sat (f a) s' Q P) P := by
  show M.Sat (M.bind m f) s Q P ↔ _
  unfold M.Sat M.bind
  cases m s <;> rfl

@[simp] theorem sat_Mbind (m : M σ α) (f : α → M σ β) (s : σ) (Q P) :
    M.Sat (M.bind m f) s Q P ↔ M.Sat m s (fun a s' => M.Sat (f a) s' Q P) P := sat_bind m f s Q P

@[simp] theorem sat_get (s : σ) (Q P) : M.Sat (M.get : M σ σ) s Q P ↔ Q s s := Iff.rfl
@[simp] theorem sat_upd (f : σ → σ) (s : σ) (Q P) : M.Sat (M.upd f) s Q P ↔ Q () (f s) := Iff.rfl

@[simp] theorem sat_ofPan (x : Pan α) (s : σ) (Q P) :
    M.Sat (M.ofPan x) s Q P ↔ (∀ a, x = some a → Q a s) ∧ (x = none → P s) := by
  unfold M.Sat M.ofPan
  cases x <;> simp

@[simp] theorem sat_forEach_nil (body : α → M σ Unit) (s : σ) (Q P) :
    M.Sat (M.forEach [] body) s Q P ↔ Q () s := Iff.rfl

@[simp] theorem sat_forEach_cons (x : α) (xs) (body : α → M σ Unit) (s : σ) (Q P) :
    M.Sat (M.forEach (x :: xs) body) s Q P ↔
      M.Sat (body x) s (fun _ s' => M.Sat (M.forEach xs body) s' Q P) P := by
  rw [M.forEach]; exact sat_bind _ _ s Q P

theorem sat_mono {m : M σ α} {s : σ} {Q Q' : α → σ → Prop} {P P' : σ → Prop}
    (h : M.Sat m s Q P) (hQ : ∀ a s', Q a s' → Q' a s') (hP : ∀ s', P s' → P' s') : M.Sat m s Q' P' := by
  unfold M.Sat at *
  cases hm : m s <;> rw [hm] at h <;> simp_all

theorem sat_and {m : M σ α} {s : σ} {Q Q' : α → σ → Prop} {P P' : σ → Prop}
    (h : M.Sat m s Q P) (h' : M.Sat m s Q' P') :
    M.Sat m s (fun a s => Q a s ∧ Q' a s) (fun s => P s ∧ P' s) := by
  unfold M.Sat at *
  cases hm : m s <;> rw [hm] at h h' <;> simp_all

theorem sat_true (m : M σ α) (s : σ) : M.Sat m s (fun _ _ => True) (fun _ => True) := by
  unfold M.Sat; cases m s <;> trivial

/-- Loop rule: an invariant indexed by the elements still to be visited. -/
theorem sat_forEach_rem {xs : List α} {body : α → M σ Unit} {s : σ} {P : σ → Prop}
    (I : List α → σ → Prop) (h0 : I xs s)
    (hb : ∀ x r s, (x :: r) <:+ xs → I (x :: r) s → M.Sat (body x) s (fun _ s' => I r s') P) :
    M.Sat (M.forEach xs body) s (fun _ s' => I [] s') P := by
  induction xs generalizing s with
  | nil => simpa using h0
  | cons x xs ih =>
    rw [sat_forEach_cons]
    refine sat_mono (hb x xs s List.suffix_rfl h0) (fun _ s' h => ?_) (fun _ h => h)
    exact ih h fun y r t hs hI => hb y r t (hs.trans (List.suffix_cons x xs)) hI

/-- Loop rule with a fixed invariant. -/
theorem sat_forEach {xs : List α} {body : α → M σ Unit} {s : σ} {P : σ → Prop}
    (I : σ → Prop) (h0 : I s)
    (hb : ∀ x ∈ xs, ∀ s, I s → M.Sat (body x) s (fun _ s' => I s') P) :
    M.Sat (M.forEach xs body) s (fun _ s' => I s') P :=
  sat_forEach_rem (fun _ => I) h0 fun x _ s hs hI => hb x (hs.subset (List.mem_cons_self)) s hI

@[simp] theorem sat_ite {c : Prop} [Decidable c] {m n : M σ α} {s : σ} {Q P} :
    M.Sat (if c then m else n) s Q P ↔ (c → M.Sat m s Q P) ∧ (¬c → M.Sat n s Q P) := by
  split <;> simp_all

@[simp] theorem sat_whenDo {c : Prop} [Decidable c] {m : M σ Unit} {s : σ} {Q P} :
    M.Sat (M.whenDo c m) s Q P ↔ (c → M.Sat m s Q P) ∧ (¬c → Q () s) := by
  unfold M.whenDo; split <;> simp_all

theorem sat_ok {m : M σ α} {s s' : σ} {a : α} {Q P} (h : M.Sat m s Q P) (hm : m s = .ok a s') : Q a s' := by
  unfold M.Sat at h; rw [hm] at h; exact h

theorem sat_panic {m : M σ α} {s s' : σ} {Q P} (h : M.Sat m s Q P) (hm : m s = .panic s') : P s' := by
  unfold M.Sat at h; rw [hm] at h; exact h

theorem eq_ok_of_sat {m : M σ α} {s t : σ} {b : α} (h : M.Sat m s (fun a s' => a = b ∧ s' = t) (fun _ => False)) :
    m s = .ok b t := by
  unfold M.Sat at h; cases hm : m s <;> rw [hm] at h <;> simp_all

theorem sat_of_eq {m : M σ α} {s s' : σ} {a : α} {Q P} (h : m s = .ok a s') : M.Sat m s Q P ↔ Q a s' := by
  unfold M.Sat; rw [h]

end M

variable {E S : Type}

@[simp] theorem SP.sat_onStore (m : M (IStore E S) α) (s : SP E S) (Q P) :
    M.Sat (SP.onStore m) s Q P ↔
      M.Sat m s.ist (fun a i => Q a { s with ist := i }) (fun i => P { s with ist := i }) := by
  unfold M.Sat SP.onStore; cases m s.ist <;> rfl

@[simp] theorem OP.sat_onSP (m : M (SP E S) α) (s : OP E S) (Q P) :
    M.Sat (OP.onSP m) s Q P ↔
      M.Sat m s.sp (fun a p => Q a { s with sp := p }) (fun p => P { s with sp := p }) := by
  unfold M.Sat OP.onSP; cases m s.sp <;> rfl

@[simp] theorem SP.sat_onLS (f : LeaderState E S → Pan (LeaderState E S)) (s : SP E S) (Q P) :
    M.Sat (SP.onLS f) s Q P ↔ (∀ ls, f s.ls = some ls → Q () { s with ls := ls }) ∧ (f s.ls = none → P s) := by
  unfold SP.onLS; simp

@[simp] theorem SP.sat_onLS' (f : LeaderState E S → Pan (LeaderState E S × α)) (s : SP E S) (Q P) :
    M.Sat (SP.onLS' f) s Q P ↔
      (∀ r, f s.ls = some r → Q r.2 { s with ls := r.1 }) ∧ (f s.ls = none → P s) := by
  unfold SP.onLS'; simp

@[simp] theorem SP.sat_send (to : NodeId) (msg : PaxosMsg E S) (s : SP E S) (Q P) :
    M.Sat (SP.send to msg) s Q P ↔ Q () { s with outgoing := s.outgoing ++ [{ src := s.pid, dst := to, msg }] } := Iff.rfl

@[simp] theorem SP.sat_setState (r : Role) (p : Phase) (s : SP E S) (Q P) :
    M.Sat (SP.setState r p) s Q P ↔ Q () { s with role := r, phase := p } := Iff.rfl

@[simp] theorem SP.sat_setMsg (idx : Nat) (msg : PaxosMsg E S) (s : SP E S) (Q P) :
    M.Sat (SP.setMsg idx msg) s Q P ↔
      Q () { s with outgoing := s.outgoing.modify idx fun m => { m with msg } } := Iff.rfl

@[simp] theorem IStore.sat_write_append (es : List E) (s : IStore E S) (Q P) :
    M.Sat (IStore.write (.appendEntries es)) s Q P ↔ Q () { s with storage := (s.storage.append_entries es), trail := (s.storage.append_entries es) :: s.trail, calls := (.one (.appendEntries es)) :: s.calls } := Iff.rfl

@[simp] theorem IStore.sat_write_stopsign (ss : Option StopSign) (s : IStore E S) (Q P) :
    M.Sat (IStore.write (.setStopsign ss)) s Q P ↔ Q () { s with storage := (s.storage.set_stopsign ss), trail := (s.storage.set_stopsign ss) :: s.trail, calls := (.one (.setStopsign ss)) :: s.calls } := Iff.rfl

@[simp] theorem IStore.sat_write_promise (b : Ballot) (s : IStore E S) (Q P) :
    M.Sat (IStore.write (.setPromise b)) s Q P ↔ Q () { s with storage := (s.storage.set_promise b), trail := (s.storage.set_promise b) :: s.trail, calls := (.one (.setPromise b)) :: s.calls } := Iff.rfl

@[simp] theorem IStore.sat_write_decided (i : Nat) (s : IStore E S) (Q P) :
    M.Sat (IStore.write (.setDecidedIndex i)) s Q P ↔ Q () { s with storage := (s.storage.set_decided_idx i), trail := (s.storage.set_decided_idx i) :: s.trail, calls := (.one (.setDecidedIndex i)) :: s.calls } := Iff.rfl

@[simp] theorem IStore.sat_setCache (f : StateCache E → StateCache E) (s : IStore E S) (Q P) :
    M.Sat (IStore.setCache f) s Q P ↔ Q () { s with cache := f s.cache } := Iff.rfl

@[simp] theorem IStore.sat_writeOps (ops : List (StorageOp E S)) (s : IStore E S) (Q P) :
    M.Sat (IStore.writeOps ops) s Q P ↔
      (∀ m, s.storage.write_atomically ops = some m → Q () { s with storage := m, trail := m :: s.trail, calls := .atomically ops :: s.calls }) ∧
      (s.storage.write_atomically ops = none → P s) := by
  unfold IStore.writeOps IStore.callStorage; simp [Mem.call]

/-- Sending one message to each peer in order. -/
theorem SP.forEach_send (ps : List NodeId) (g : NodeId → PaxosMsg E S) (s : SP E S) :
    M.forEach ps (fun p => SP.send p (g p)) s =
      .ok () { s with outgoing := s.outgoing ++ ps.map fun p => { src := s.pid, dst := p, msg := g p } } := by
  induction ps generalizing s with
  | nil => simp [M.forEach, M.pure]
  | cons p ps ih =>
    simp only [M.forEach, M.bind, SP.send, M.upd]
    simp only [SP.send] at ih
    rw [ih]
    simp

end Omni
