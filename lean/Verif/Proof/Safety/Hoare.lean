import Verif.Proof.Safety.Stable
import Verif.Proof.SendOnly
import Verif.Proof.Chain
/-
Program logic for one call: the invariant holds between the operations of a call, and every disk state written during the
call is one a crash may leave behind, reached by a chain of write calls.
-/
namespace Omni

variable {E S : Type}

/-- What is fixed during a call: the server, the messages in flight from it, the history at the beginning, the accept
messages it may step to, the disk. -/
structure Ctx (E S : Type) where
  cc : ClusterConfig
  hv : cc.validate = .ok ()
  i : NodeId
  pre : NodeId → List (PaxosMessage E S)
  allow : Allow
  G0 : Ghost E
  d0 : Mem E S

namespace Ctx

variable (C : Ctx E S)

structure Reach (G : Ghost E) : Prop where
  step : Step C.i C.allow C.G0 G
  abs : Abs C.cc G
  pre : ∀ j, LinkOK C.cc G (C.pre j) []

/-- A disk state a crash may leave behind. -/
def Crash (d : Mem E S) : Prop := ∃ G lg, C.Reach G ∧ DiskInv C.cc C.i G d lg

def Trail (s : SP E S) : Prop := (∀ d ∈ s.ist.trail, C.Crash d) ∧ Chain C.d0 s.ist.calls s.ist.trail s.ist.storage

def Inv (s : SP E S) : Prop := ∃ G, C.Reach G ∧ NodeInv C.cc C.i C.pre G s ∧ C.Trail s

def Bad (s : SP E S) : Prop := C.Crash s.ist.storage ∧ C.Trail s

abbrev CoreC (G : Ghost E) (s : SP E S) (lg : Lg E) : Prop := Core C.cc C.i C.pre G s lg

variable {C} {G G' : Ghost E} {s s' : SP E S} {lg lg' : Lg E}

theorem bad_of (hR : C.Reach G) (hC : C.CoreC G s lg) (hT : C.Trail s) : C.Bad s := ⟨⟨G, lg, hR, hC.disk⟩, hT⟩

theorem Inv.bad (h : C.Inv s) : C.Bad s := by
  obtain ⟨G, hR, ⟨lg, hC, -⟩, hT⟩ := h
  exact bad_of hR hC hT

theorem Bad.of_ist (h : C.Bad s) (hi : s'.ist = s.ist) : C.Bad s' := by
  unfold Bad Trail at *; rw [hi]; exact h

/-- Messages of this server are unaffected by its own history changes other than new accept messages. -/
theorem out_mono {out : List (PaxosMessage E S)} (hS : Step C.i C.allow G G') (he : ∀ n F q, G'.endf n F q = G.endf n F q)
    (hsrc : ∀ j, ∀ m ∈ C.pre j ++ out, m.src = C.i) (h : ∀ j, LinkOK C.cc G (C.pre j) out) :
    ∀ j, LinkOK C.cc G' (C.pre j) out := by
  intro j
  refine (h j).mono hS.toMono (fun m _ n q _ q' _ => he n m.dst q') fun m hm n q _ => ?_
  refine hS.cur_o n _ ?_
  have h1 := ((h j).msg m hm).ne
  rw [hsrc j m hm] at h1
  exact h1.symm

theorem _root_.Omni.Core.pre {cc : ClusterConfig} {i : NodeId} {pre : NodeId → List (PaxosMessage E S)}
    (h : Core cc i pre G s lg) : ∀ j, LinkOK cc G (pre j) [] :=
  fun j => (h.out j).nil

theorem Reach.trans (hR : C.Reach G) (hS : Step C.i C.allow G G') (hA : Abs C.cc G')
    (ho : ∀ j, LinkOK C.cc G' (C.pre j) s.outgoing) : C.Reach G' :=
  ⟨hR.step.trans hS, hA, fun j => (ho j).nil⟩

/-- Replace the internal storage. -/
theorem setIst {cc : ClusterConfig} {i : NodeId} {pre : NodeId → List (PaxosMessage E S)} {ist : IStore E S}
    (h : Core cc i pre G s lg) (hd : DiskInv cc i G' ist.storage lg') (hm : Mirror ist) (hi : lg'.IdxOK ist.cache.accepted_idx)
    (ho : ∀ j, LinkOK cc G' (pre j) s.outgoing) (ht : ({ s with ist := ist } : SP E S).tok G'.mark ≤ G'.hold i) :
    Core cc i pre G' { s with ist := ist } lg' :=
  { pid := h.pid, node := h.node, peers := h.peers, quorum := h.quorum, maxpid := h.maxpid, lenA := h.lenA, disk := hd,
    mir := hm, idx := hi, src := h.src, dst := h.dst, out := ho, lam := h.lam, tok := ht }

theorem Trail.same {ist : IStore E S} (hT : C.Trail s)
    (h : ist.storage = s.ist.storage ∧ ist.trail = s.ist.trail ∧ ist.calls = s.ist.calls) : C.Trail { s with ist := ist } := by
  obtain ⟨h1, h2, h3⟩ := h
  unfold Trail
  rw [h1, h2, h3]
  exact hT

theorem Trail.cons {ist : IStore E S} (hT : C.Trail s) (hd : C.Crash ist.storage) (h : s.ist.Wrote ist) :
    C.Trail { s with ist := ist } := by
  refine ⟨fun x hx => ?_, hT.2.cons h⟩
  rw [show ({ s with ist := ist } : SP E S).ist.trail = ist.storage :: s.ist.trail from h.1] at hx
  rcases List.mem_cons.1 hx with rfl | hx
  · exact hd
  · exact hT.1 x hx

end Ctx

/-! ### Sending messages that are not accept messages -/

section sends
variable {cc : ClusterConfig} {i : NodeId} {pre : NodeId → List (PaxosMessage E S)} {G : Ghost E} {s : SP E S} {lg : Lg E}

/-- May be sent in any state. -/
structure Plain (cc : ClusterConfig) (i : NodeId) (G : Ghost E) (m : PaxosMessage E S) : Prop where
  src : m.src = i
  ne : m.dst ≠ i
  none : m.msg.accOf = none
  body : MsgBody cc G i m.dst m.msg
  fwd : ∀ P, m.msg.fwd P = 0

theorem Core.sends_any (h : Core cc i pre G s lg) {ms : List (PaxosMessage E S)} {bp : List E}
    (hm : ∀ m ∈ ms, m.src = i ∧ m.dst ≠ i ∧ m.msg.accOf = none ∧ MsgBody cc G i m.dst m.msg)
    (ht : bp.countP G.mark + s.own G.mark + (fwds G.mark s.outgoing + fwds G.mark ms) ≤ G.hold i) :
    Core cc i pre G { s with buffered_proposals := bp, outgoing := s.outgoing ++ ms } lg where
  pid := h.pid
  node := h.node
  peers := h.peers
  quorum := h.quorum
  maxpid := h.maxpid
  lenA := h.lenA
  disk := h.disk
  mir := h.mir
  idx := h.idx
  src j m hx := by
    simp only [← List.append_assoc] at hx
    rcases List.mem_append.1 hx with hx | hx
    · exact h.src j m hx
    · exact (hm m hx).1
  dst := h.dst
  out j := by
    have hok : ∀ m ∈ ms, MsgOK cc G m := fun m hx =>
      let ⟨h1, h2, h3, h4⟩ := hm m hx
      msgOK_of_none h3 (by rw [h1]; exact h2.symm) (by rw [h1]; exact h.node) (by rw [h1]; exact h4)
    refine ⟨fun m hx => ?_, (h.out j).ord, fun m hx n q hq => ?_, ?_, fun a ha b hb => ?_⟩
    · simp only [← List.append_assoc] at hx
      rcases List.mem_append.1 hx with hx | hx
      · exact (h.out j).msg m hx
      · exact hok m hx
    · rcases List.mem_append.1 hx with hx | hx
      · exact (h.out j).fresh m hx n q hq
      · rw [(hm m hx).2.2.1] at hq; cases hq
    · rw [List.pairwise_append]
      refine ⟨(h.out j).seq, ?_, fun a _ b hb => seqd_of_none (hm b hb).2.2.1⟩
      exact List.pairwise_of_forall_mem_list fun a _ b hb => seqd_of_none (hm b hb).2.2.1
    · rcases List.mem_append.1 hb with hb | hb
      · exact (h.out j).cross a ha b hb
      · exact seqd_of_none (hm b hb).2.2.1
  lam b k hk := by
    obtain ⟨m, a, h1, h2⟩ := h.lam b k hk
    refine ⟨m, a, ?_, h2⟩
    rw [List.getElem?_append_left]
    · exact h1
    · exact (List.getElem?_eq_some_iff.1 h1).1
  tok := by
    simp only [SP.tok, SP.own, fwds_append] at *
    exact ht

theorem Core.sends (h : Core cc i pre G s lg) {ms : List (PaxosMessage E S)} (hm : ∀ m ∈ ms, Plain cc i G m) :
    Core cc i pre G { s with outgoing := s.outgoing ++ ms } lg :=
  h.sends_any (bp := s.buffered_proposals) (fun m hx => ⟨(hm m hx).src, (hm m hx).ne, (hm m hx).none, (hm m hx).body⟩)
    (by rw [fwds_zero fun m hx => (hm m hx).fwd G.mark]; exact h.tok)

theorem LeadAcc.sends {todo : NodeId → Option (Lg E)} (h : LeadAcc cc i pre todo G s lg) {ms : List (PaxosMessage E S)}
    (hm : ∀ m ∈ ms, m.msg.accOf = none) : LeadAcc cc i pre todo G { s with outgoing := s.outgoing ++ ms } lg where
  ldr := h.ldr
  own := h.own
  acc := h.acc
  batch := h.batch
  max := h.max
  prom := h.prom
  ends := h.ends
  cur := h.cur
  link j m hx q hq := by
    simp only [← List.append_assoc] at hx
    rcases List.mem_append.1 hx with hx | hx
    · exact h.link j m hx q hq
    · rw [hm m hx] at hq; simp at hq
  mets F b k hk := by
    obtain ⟨h1, h0, h6, a, h2, h3, h4, h5⟩ := h.mets F b k hk
    refine ⟨h1, h0, h6, a, ?_, h3, h4, h5.of (Mono.refl _) (fun j m q hx hq hd => .inl ?_) rfl rfl⟩
    · rw [List.getElem?_append_left]
      · exact h2
      · exact (List.getElem?_eq_some_iff.1 h2).1
    · simp only [← List.append_assoc] at hx
      rcases List.mem_append.1 hx with hx | hx
      · exact hx
      · rw [hm m hx] at hq; simp at hq
  dead := h.dead
  accs := h.accs

theorem RoleInv.map {G' : Ghost E} {s' : SP E S} {lg' : Lg E} (h : RoleInv cc i pre G s lg) (hr : s'.role = s.role)
    (hp : s'.phase = s.phase) (h1 : LeadPrep cc i G s lg → LeadPrep cc i G' s' lg')
    (h2 : LeadAcc cc i pre (fun _ => some lg) G s lg → LeadAcc cc i pre (fun _ => some lg') G' s' lg')
    (h3 : FolInv cc i G s lg → FolInv cc i G' s' lg') : RoleInv cc i pre G' s' lg' := by
  unfold RoleInv at *
  rw [hr, hp]
  cases hr' : s.role <;> cases hp' : s.phase <;> rw [hr', hp'] at h <;> simp only at h ⊢
  all_goals first
    | exact h.elim
    | exact h1 h
    | exact h2 h
    | exact h3 h

theorem RoleInv.sends (h : RoleInv cc i pre G s lg) {ms : List (PaxosMessage E S)}
    (hm : ∀ m ∈ ms, m.msg.accOf = none) : RoleInv cc i pre G { s with outgoing := s.outgoing ++ ms } lg :=
  h.map rfl rfl
    (fun h => { ldr := h.ldr, own := h.own, noacc := h.noacc, batch := h.batch, self := h.self, seqs := h.seqs, metas := h.metas, accs := h.accs, max := h.max })
    (fun h => h.sends hm) (fun h => ⟨h.batch, h.prep, h.accept, h.live⟩)

end sends

namespace Ctx
variable {C : Ctx E S} {G : Ghost E} {s : SP E S} {lg : Lg E}

theorem Inv.sends (hR : C.Reach G) (hC : C.CoreC G s lg) (hr : RoleInv C.cc C.i C.pre G s lg) (hT : C.Trail s)
    {ms : List (PaxosMessage E S)} (hm : ∀ m ∈ ms, Plain C.cc C.i G m) : C.Inv { s with outgoing := s.outgoing ++ ms } :=
  ⟨G, hR, ⟨lg, hC.sends hm, hr.sends fun m h => (hm m h).none⟩, hT⟩

theorem Inv.send (hR : C.Reach G) (hC : C.CoreC G s lg) (hr : RoleInv C.cc C.i C.pre G s lg) (hT : C.Trail s)
    {dst : NodeId} {msg : PaxosMsg E S} (hd : dst ≠ C.i) (hn : msg.accOf = none) (hb : MsgBody C.cc G C.i dst msg)
    (hf : ∀ P, msg.fwd P = 0) : C.Inv { s with outgoing := s.outgoing ++ [{ src := s.pid, dst, msg }] } := by
  refine Inv.sends hR hC hr hT fun m hm => ?_
  simp at hm
  subst hm
  exact ⟨hC.pid, hd, hn, hb, hf⟩

/-- Buffered proposals and the like are irrelevant. -/
theorem Inv.frame (h : C.Inv s) (bp : List E) (bs : Option StopSign) (hb : ∀ P, bp.countP P ≤ s.buffered_proposals.countP P) :
    C.Inv { s with buffered_proposals := bp, buffered_stopsign := bs } := by
  obtain ⟨G, hR, ⟨lg, hC, hr⟩, hT⟩ := h
  refine ⟨G, hR, ⟨lg, ⟨hC.pid, hC.node, hC.peers, hC.quorum, hC.maxpid, hC.lenA, hC.disk, hC.mir, hC.idx, hC.src, hC.dst, hC.out, hC.lam, ?_⟩, ?_⟩, hT⟩
  · have := hC.tok
    have := hb G.mark
    simp only [SP.tok, SP.own] at *
    omega
  exact hr.map rfl rfl
    (fun hr => { ldr := hr.ldr, own := hr.own, noacc := hr.noacc, batch := hr.batch, self := hr.self, seqs := hr.seqs, metas := hr.metas, accs := hr.accs, max := hr.max })
    (fun hr => { ldr := hr.ldr, own := hr.own, acc := hr.acc, batch := hr.batch, max := hr.max, prom := hr.prom, ends := hr.ends, cur := hr.cur, link := hr.link, mets := hr.mets, dead := hr.dead, accs := hr.accs })
    (fun hr => ⟨hr.batch, hr.prep, hr.accept, hr.live⟩)

/-- The invariant, with room for some more entries in hand. -/
def Slack (C : Ctx E S) (es : List E) (s : SP E S) : Prop :=
  ∃ G lg, C.Reach G ∧ C.CoreC G s lg ∧ RoleInv C.cc C.i C.pre G s lg ∧ C.Trail s ∧ s.tok G.mark + G.count es ≤ G.hold C.i

theorem Slack.inv {es : List E} (h : C.Slack es s) : C.Inv s :=
  let ⟨G, lg, hR, hC, hr, hT, _⟩ := h
  ⟨G, hR, ⟨lg, hC, hr⟩, hT⟩

/-- The entries are buffered. -/
theorem Slack.buffer {es : List E} (h : C.Slack es s) : C.Inv { s with buffered_proposals := s.buffered_proposals ++ es } := by
  obtain ⟨G, lg, hR, hC, hr, hT, ht⟩ := h
  refine ⟨G, hR, ⟨lg, ⟨hC.pid, hC.node, hC.peers, hC.quorum, hC.maxpid, hC.lenA, hC.disk, hC.mir, hC.idx, hC.src, hC.dst, hC.out, hC.lam, ?_⟩, ?_⟩, hT⟩
  · simp only [SP.tok, SP.own, List.countP_append, Ghost.count] at *
    omega
  exact hr.map rfl rfl
    (fun hr => { ldr := hr.ldr, own := hr.own, noacc := hr.noacc, batch := hr.batch, self := hr.self, seqs := hr.seqs, metas := hr.metas, accs := hr.accs, max := hr.max })
    (fun hr => { ldr := hr.ldr, own := hr.own, acc := hr.acc, batch := hr.batch, max := hr.max, prom := hr.prom, ends := hr.ends, cur := hr.cur, link := hr.link, mets := hr.mets, dead := hr.dead, accs := hr.accs })
    (fun hr => ⟨hr.batch, hr.prep, hr.accept, hr.live⟩)

/-- The entries are forwarded. -/
theorem Slack.forward {es : List E} (h : C.Slack es s) {dst : NodeId} (hd : dst ≠ s.pid) :
    C.Inv { s with outgoing := s.outgoing ++ [{ src := s.pid, dst, msg := .proposalForward es }] } := by
  obtain ⟨G, lg, hR, hC, hr, hT, ht⟩ := h
  refine ⟨G, hR, ⟨lg, hC.sends_any (bp := s.buffered_proposals) ?_ ?_, hr.sends ?_⟩, hT⟩
  · intro m hm
    simp at hm
    subst hm
    exact ⟨hC.pid, by rw [← hC.pid]; exact hd, rfl, trivial⟩
  · simp only [SP.tok, fwds, PaxosMsg.fwd, List.map_cons, List.map_nil, List.sum_cons, List.sum_nil, Ghost.count] at *
    omega
  · intro m hm
    simp at hm
    subst hm
    rfl

theorem peers_ne (hC : C.CoreC G s lg) {p : NodeId} (hp : p ∈ s.peers) : p ≠ C.i := by
  rw [hC.peers] at hp
  simp [SP.peersOf] at hp
  exact hp.2

end Ctx
end Omni
