import Verif.Proof.Safety.Inv
/-
What one server knows stays true when another server moves.
-/
namespace Omni

variable {E S : Type} {cc : ClusterConfig} {i j : NodeId} {allow : Allow} {G G' : Ghost E}

theorem DiskInv.stable (hS : Quiet i allow G G') (hj : j ≠ i) {d : Mem E S} {lg : Lg E} (h : DiskInv cc j G d lg) :
    DiskInv cc j G' d lg where
  acc := by rw [hS.acc_o j _ hj]; exact h.acc
  log := h.log
  trim := h.trim
  ss := h.ss
  cov := h.cov
  dec := h.dec.mono hS.toMono
  snap hs := (h.snap hs).mono hS.toMono
  le := h.le
  good := h.good
  accMax b hb := h.accMax b (by rwa [hS.acc_o j b hj] at hb)
  precMax b hb := h.precMax b (by rwa [hS.prec_o j b hj] at hb)
  precCur hn := by rw [hS.prec_o j _ hj]; exact h.precCur hn

/-- How the messages from `j` in flight change when server `i` moves: nothing, or the oldest one to `i` is delivered. -/
structure Flow (j i : NodeId) (G G' : Ghost E) (pre pre' : NodeId → List (PaxosMessage E S)) : Prop where
  o : ∀ k, k ≠ i → pre' k = pre k
  i : (pre' i = pre i ∧ ∀ n, n.pid = j → G'.curg n i = G.curg n i) ∨
    ∃ m, pre i = m :: pre' i ∧ ∀ n, n.pid = j → (G'.curg n i = G.curg n i ∨ m.msg.Moves n (G.curg n i) (G'.curg n i))

variable {pre pre' : NodeId → List (PaxosMessage E S)}

theorem Flow.sub (h : Flow j i G G' pre pre') (k : NodeId) : (pre' k).Sublist (pre k) := by
  by_cases hk : k = i
  · subst hk
    rcases h.i with ⟨h1, -⟩ | ⟨m, h1, -⟩
    · rw [h1]
    · rw [h1]; exact List.sublist_cons_self _ _
  · rw [h.o k hk]

/-- Links stay fine. -/
theorem LinkOK.stable (hS : Quiet i allow G G') (hj : j ≠ i) (hF : Flow j i G G' pre pre') {out : List (PaxosMessage E S)}
    (hsrc : ∀ k, ∀ m ∈ pre k ++ out, m.src = j) (hdst : ∀ k, ∀ m ∈ pre k, m.dst = k)
    (h : ∀ k, LinkOK cc G (pre k) out) : ∀ k, LinkOK cc G' (pre' k) out := by
  have hend : ∀ k, ∀ m ∈ pre k ++ out, ∀ n q, m.msg.accOf = some (n, q) → ∀ q', G'.endf n m.dst q' = G.endf n m.dst q' := by
    intro k m hm n q hq q'
    refine hS.endf_o n m.dst q' ?_
    rw [((h k).msg m hm).lead n q hq |>.1, hsrc k m hm]; exact hj
  have hpid : ∀ k, ∀ m ∈ pre k ++ out, ∀ n q, m.msg.accOf = some (n, q) → n.pid = j := by
    intro k m hm n q hq
    rw [((h k).msg m hm).lead n q hq |>.1, hsrc k m hm]
  have hi : LinkOK cc G' (pre' i) out := by
    rcases hF.i with ⟨h1, h2⟩ | ⟨m, h1, h2⟩
    · rw [h1]
      refine (h i).mono hS.toMono (fun m hm n q hq q' _ => hend i m hm n q hq q') fun m hm n q hq => ?_
      by_cases hd : m.dst = i
      · rw [hd]; exact h2 n (hpid i m hm n q hq)
      · exact hS.cur_o n _ hd
    · have hl := h i
      have hmd : m.dst = i := hdst i m (by rw [h1]; simp)
      rw [h1] at hl
      have hmem : ∀ x ∈ pre' i ++ out, x ∈ pre i ++ out := by
        intro x hx; rw [h1, List.cons_append]; exact List.mem_cons_of_mem _ hx
      refine hl.tail hS.toMono (fun x hx n q hq q' _ => hend i x (hmem x hx) n q hq q') fun x hx n q hq => ?_
      by_cases hd : x.dst = i
      · rw [hd, hmd]
        rcases h2 n (hpid i x (hmem x hx) n q hq) with h3 | h3
        · exact .inl h3
        · exact .inr ⟨rfl, h3⟩
      · exact .inl (hS.cur_o n _ hd)
  intro k
  by_cases hk : k = i
  · rw [hk]; exact hi
  · rw [hF.o k hk]
    refine ⟨fun m hm => ?_, (h k).ord, hi.fresh, hi.seq, fun m hm m' hm' => ?_⟩
    · rcases List.mem_append.1 hm with hm' | hm'
      · refine ((h k).msg m hm).mono hS.toMono (fun n q hq q' _ => hend k m hm n q hq q') fun n q hq => .inl ?_
        rw [hdst k m hm']; exact hS.cur_o n k hk
      · exact hi.msg m (List.mem_append_right _ hm')
    · exact ((h k).cross m hm m' hm').mono fun n q hq => hend k _ (List.mem_append_right _ hm') n q hq q

variable {s : SP E S} {lg : Lg E}

theorem Core.stable (hS : Quiet i allow G G') (hj : j ≠ i) (hF : Flow j i G G' pre pre')
    (ht : G.hold j ≤ G'.hold j ∨ s.tok G.mark ≤ G'.hold j) (h : Core cc j pre G s lg) :
    Core cc j pre' G' s lg where
  pid := h.pid
  node := h.node
  peers := h.peers
  quorum := h.quorum
  maxpid := h.maxpid
  lenA := h.lenA
  disk := h.disk.stable hS hj
  mir := h.mir
  idx := h.idx
  src k m hm := h.src k m (by
    rcases List.mem_append.1 hm with hm | hm
    · exact List.mem_append_left _ ((hF.sub k).subset hm)
    · exact List.mem_append_right _ hm)
  dst k m hm := h.dst k m ((hF.sub k).subset hm)
  out := LinkOK.stable hS hj hF h.src h.dst h.out
  lam := h.lam
  tok := by rw [hS.mark]; exact ht.elim (Nat.le_trans h.tok) id

theorem FolInv.stable (hS : Quiet i allow G G') (hj : j ≠ i) (h : FolInv cc j G s lg) : FolInv cc j G' s lg := by
  have hc : ∀ n, G'.curg n j = G.curg n j := fun n => hS.cur_o n j hj
  have he : ∀ n, G'.endf n j (G'.curg n j) = G.endf n j (G.curg n j) := fun n => by
    rw [hc]; exact hS.endf_cur n j _ (SeqNum.le_refl _)
  refine ⟨?_, ?_, ?_, fun hp hd => ?_⟩
  · rw [he]; exact h.batch
  · intro hp
    obtain ⟨h1, h2⟩ := h.prep hp
    refine ⟨h1, fun p hp => ⟨(h2 p hp).1, (h2 p hp).2.mono hS.toMono fun n q hq => ?_⟩⟩
    simp [PaxosMsg.accOf] at hq
  · rw [he, hc]; exact h.accept
  · rcases hS.dead_n _ _ _ hd with h1 | ⟨-, h1, -⟩
    · exact h.live hp h1
    · rw [← (h.accept hp).2.2.1] at h1
      exact absurd h1 (Nat.lt_irrefl _)

theorem LeadPrep.stable (hS : Quiet i allow G G') (hj : j ≠ i) (h : LeadPrep cc j G s lg) : LeadPrep cc j G' s lg where
  ldr := h.ldr
  own := h.own
  noacc := by rw [hS.acc_o j _ hj]; exact h.noacc
  batch := h.batch
  self := h.self
  seqs := h.seqs
  metas := h.metas
  accs := h.accs
  max := by
    obtain ⟨lgs, ⟨m0, h1⟩, h2, h3, h4, h5⟩ := h.max
    refine ⟨lgs, ⟨m0, hS.prec _ _ _ h1⟩, h2, h3, h4, fun F m hF => ?_⟩
    obtain ⟨h6, h7, l, h8, h9, h10, h11⟩ := h5 F m hF
    exact ⟨h6, h7, l, hS.prec _ _ _ h8, h9, h10.mono hS.toMono, h11⟩

theorem LeadAcc.stable {todo : NodeId → Option (Lg E)} (hS : Quiet i allow G G') (hj : j ≠ i)
    (hF : Flow j i G G' pre pre') (hdst : ∀ k, ∀ m ∈ pre k, m.dst = k) (h : LeadAcc cc j pre todo G s lg) :
    LeadAcc cc j pre' todo G' s lg where
  ldr := h.ldr
  own := h.own
  acc := h.acc
  batch := h.batch
  max := by
    obtain ⟨lgs, m0, h1, h2, h3⟩ := h.max
    exact ⟨lgs, m0, hS.init _ _ h1, hS.prec _ _ _ h2, h3⟩
  prom F m hm := by
    obtain ⟨h1, h2, h3⟩ := h.prom F m hm
    exact ⟨h1, h2, h3.mono hS.toMono⟩
  ends F m l q hF' hm ht hq := by
    have he : ∀ q, G'.endf s.ls.n_leader F q = G.endf s.ls.n_leader F q :=
      fun q => hS.endf_o _ _ _ (by rw [h.own]; exact hj)
    simp only [he]
    exact h.ends F m l q hF' hm ht hq
  cur F q hq := by
    by_cases hF' : F = i
    · subst hF'
      rcases hF.i with ⟨-, h2⟩ | ⟨m, h1, h2⟩
      · rw [h2 _ h.own]; exact h.cur F q hq
      · rcases h2 _ h.own with h3 | h3
        · rw [h3]; exact h.cur F q hq
        · have hm : m ∈ pre F := by rw [h1]; simp
          refine h.link F m (List.mem_append_left _ hm) _ h3.1 q ?_
          rw [hdst F m hm]; exact hq
    · rw [hS.cur_o _ _ hF']; exact h.cur F q hq
  link k m hm := h.link k m (by
    rcases List.mem_append.1 hm with hm | hm
    · exact List.mem_append_left _ ((hF.sub k).subset hm)
    · exact List.mem_append_right _ hm)
  mets F b k hk := by
    obtain ⟨h1, h0, h6, a, h2, h3, h4, h5⟩ := h.mets F b k hk
    refine ⟨h1, h0, h6.imp id (·.mono hS.toMono), a, h2, h3, h4, h5.imp id (Or.imp (·.mono hS.toMono) fun h5 => ?_)⟩
    refine ⟨fun x hx => (hS.endf_o _ _ _ (by rw [h.own]; exact hj)).trans (h5.1 x hx), fun k m hm q hq hd => ?_⟩
    refine (h5.2 k m ?_ q hq hd).imp id (hS.dead _ _ _)
    rcases List.mem_append.1 hm with hm | hm
    · exact List.mem_append_left _ ((hF.sub k).subset hm)
    · exact List.mem_append_right _ hm
  dead F q t hq hd := by
    rcases hS.dead_n _ _ _ hd with h1 | ⟨h1, -⟩
    · exact h.dead F q t hq h1
    · rw [h.own] at h1; exact absurd h1 hj
  accs F k hk h0 := by
    obtain ⟨h1, a, h2, h3⟩ := h.accs F k hk h0
    obtain ⟨a', h4, h5⟩ := hS.acc _ _ _ h2
    exact ⟨h1, a', h4, h3.mono h5⟩

theorem NodeInv.stable (hS : Quiet i allow G G') (hj : j ≠ i) (hF : Flow j i G G' pre pre')
    (ht : G.hold j ≤ G'.hold j ∨ s.tok G.mark ≤ G'.hold j) (h : NodeInv cc j pre G s) :
    NodeInv cc j pre' G' s := by
  obtain ⟨lg, hC, hR⟩ := h
  refine ⟨lg, hC.stable hS hj hF ht, ?_⟩
  unfold RoleInv at *
  cases hr : s.role <;> cases hp : s.phase <;> rw [hr, hp] at hR <;> simp only at hR ⊢
  all_goals first
    | exact hR.stable hS hj
    | exact hR.stable hS hj hF hC.dst
    | exact hR.elim

/-- Losing, duplicating and reordering messages in flight, other than AcceptSyncs. -/
theorem LinkOK.rearrange {p p' o : List (PaxosMessage E S)} (h : LinkOK cc G p o) (hsub : p' ⊆ p) (hord : p'.Pairwise Ordered) :
    LinkOK cc G p' o where
  msg m hm := h.msg m (by
    rcases List.mem_append.1 hm with hm | hm
    · exact List.mem_append_left _ (hsub hm)
    · exact List.mem_append_right _ hm)
  ord := hord
  fresh := h.fresh
  seq := h.seq
  cross m hm := h.cross m (hsub hm)

theorem NodeInv.lose (hsub : ∀ k, pre' k ⊆ pre k) (hord : ∀ k, (pre' k).Pairwise Ordered) (h : NodeInv cc j pre G s) : NodeInv cc j pre' G s := by
  obtain ⟨lg, hC, hR⟩ := h
  have hmem : ∀ k m, m ∈ pre' k ++ s.outgoing → m ∈ pre k ++ s.outgoing := fun k m hm => by
    rcases List.mem_append.1 hm with hm | hm
    · exact List.mem_append_left _ (hsub k hm)
    · exact List.mem_append_right _ hm
  have hC' : Core cc j pre' G s lg :=
    { hC with
      src := fun k m hm => hC.src k m (hmem k m hm)
      dst := fun k m hm => hC.dst k m (hsub k hm)
      out := fun k => (hC.out k).rearrange (hsub k) (hord k) }
  refine ⟨lg, hC', ?_⟩
  unfold RoleInv at *
  cases hr : s.role <;> cases hp : s.phase <;> rw [hr, hp] at hR <;> simp only at hR ⊢
  all_goals first
    | exact hR.elim
    | exact { hR with
        link := fun k m hm => hR.link k m (hmem k m hm)
        mets := fun F b k hk => by
          obtain ⟨h1, h0, h6, a, h2, h3, h4, h5⟩ := hR.mets F b k hk
          exact ⟨h1, h0, h6, a, h2, h3, h4, h5.of (Mono.refl _) (fun k m _ hm _ _ => .inl (hmem k m hm)) rfl rfl⟩ }
    | exact hR

end Omni
