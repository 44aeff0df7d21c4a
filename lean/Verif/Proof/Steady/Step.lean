import Verif.Proof.Steady.Inv
/-
Steady operation: the invariant is preserved.
-/
namespace Omni

variable {E S : Type} {n : Ballot} {k : Nat} {cc : ClusterConfig} {lg : NodeId → List E} {ci : NodeId → Nat} {X B : List E} {d : Nat}
  {sv : NodeId → SP E S} {lk : NodeId → NodeId → List (PaxosMessage E S)}

namespace SteadyInv

theorem keeps (h : SteadyInv cc n k lg ci X B d sv lk) : ∀ f ∈ cc.nodes, f ≠ n.pid → ∃ q a ms, Keeps n f q a ms (sv n.pid) := by
  intro f hf hfn
  obtain ⟨_, _, _, _, _, q, al, ms, hl⟩ := h.fol f hf hfn
  exact ⟨q, al, ms, hl.keeps⟩

/-- The leader adds entries. -/
theorem put (h : SteadyInv cc n k lg ci X B d sv lk) {es : List E} {s' : SP E S}
    {R : Prop} (hp : Lead.Put R cc n k (lg n.pid) (ci n.pid) X B d es (sv n.pid) s') :
    ∃ X' B', SteadyInv cc n k lg ci X' B' d (upd sv n.pid s') lk ∧ X' ++ B' = X ++ B ++ es := by
  rcases hp with ⟨hL, hk, _⟩ | ⟨hL, hk, _⟩
  · refine ⟨X, B ++ es, ⟨by rw [upd_self]; exact hL, fun f hf hfn => ?_, fun L hq hnL h2 v hv => ?_, h.unused⟩, by simp⟩
    · rw [upd_self, upd_other hfn]
      obtain ⟨_, _, _, _, _, q, al, ms, hl⟩ := h.fol f hf hfn
      exact hl.same (hk f q al ms hl.keeps)
    · rw [upd_self] at hv
      refine h.chosen L hq hnL h2 v fun x hx => ?_
      by_cases hxn : x = n.pid
      · subst hxn
        have h1 := hv _ hx
        rw [hL.own] at h1
        rw [h.lead.own, h1]
      · obtain ⟨q, a, ms, hk0⟩ := h.keeps x (hq.members x hx) hxn
        have h1 := hv x hx
        rw [(hk x q a ms hk0).acc] at h1
        rw [hk0.acc, h1]
  · refine ⟨X ++ (B ++ es), [], ⟨by rw [upd_self]; exact hL, fun f hf hfn => ?_, fun L hq hnL h2 v hv => ?_, h.unused⟩, by simp⟩
    · rw [upd_self, upd_other hfn]
      obtain ⟨_, _, _, _, _, q, al, ms, hl⟩ := h.fol f hf hfn
      obtain ⟨q', ms', h3, h4⟩ := hk f hf hfn q al ms hl.keeps
      exact hl.sent h3 h4 (Nat.le_refl _) hL.dec
    · rw [upd_self] at hv
      -- a follower's accepted index is not beyond the old log
      have hfa : ∀ x ∈ L, x ≠ n.pid → slot (sv n.pid).ls.accepted_indexes x = some v ∧ v ≤ k + X.length := by
        intro x hx hxn
        obtain ⟨_, _, _, _, _, q, al, ms, hl⟩ := h.fol x (hq.members x hx) hxn
        obtain ⟨q', ms', _, h4⟩ := hk x (hq.members x hx) hxn q al ms hl.keeps
        have h1 := hv x hx
        rw [h4.acc] at h1
        have : al = v := Option.some.inj h1
        subst this
        exact ⟨hl.keeps.acc, Nat.le_trans hl.low hl.le⟩
      obtain ⟨f, hf, hfn⟩ := h2
      have hle := (hfa f hf hfn).2
      refine h.chosen L hq hnL ⟨f, hf, hfn⟩ v fun x hx => ?_
      by_cases hxn : x = n.pid
      · subst hxn
        have h1 := hv _ hx
        rw [hL.own] at h1
        have h1 := Option.some.inj h1
        rw [h.lead.own]
        simp only [List.length_append] at h1
        congr 1
        omega
      · exact (hfa x hx hxn).1

/-- The leader receives an Accepted. -/
theorem accepted (h : SteadyInv cc n k lg ci X B d sv lk) (hv : cc.validate = .ok ()) (hnd : cc.nodes.Nodup) {f : NodeId}
    (hf : f ∈ cc.nodes) (hfn : f ≠ n.pid) {m : PaxosMessage E S} {rest : List (PaxosMessage E S)} (hlk : lk f n.pid = m :: rest)
    {x : Accepted} (hm : m.msg = .accepted x) :
    M.Sat (SP.handle_accepted x m.src) (sv n.pid) (fun _ s' => ∃ d', SteadyInv cc n k lg ci X B d' (upd sv n.pid s') (updL lk f n.pid rest)) (fun _ => False) := by
  obtain ⟨Xf, Bf, σ, a, out, q, al, ms, hl⟩ := h.fol f hf hfn
  rw [hlk] at hl
  obtain ⟨h1, h2, h3, h4⟩ := hl.popAccepted hm
  rw [h4]
  refine M.sat_mono (h.lead.accepted hv hnd h.keeps hf hfn h3 (Nat.le_trans h2 hl.le)) (fun _ t ht => ?_) fun _ h => h
  obtain ⟨d', ⟨e1, _⟩, e2, e3, e4⟩ := ht
  refine ⟨d', by rw [upd_self]; exact e2, fun g hg hgn => ?_, by rw [upd_self]; exact e3 h.chosen, fun i hi j hj hij => ?_⟩
  · rw [upd_self, upd_other hgn, updL_other (.inr hgn)]
    obtain ⟨Xg, Bg, τ, b, og, qg, bl, mg, hlg⟩ := h.fol g hg hgn
    obtain ⟨q', ms', i1, i2⟩ := e4 g hg hgn _ _ _ hlg.keeps
    have hdown : τ.all n k ((lk n.pid g).map (·.msg) ++ ms') = some ⟨q', X, d'⟩ := by
      rcases i1 with ⟨i1, _⟩ | ⟨rfl, rfl, rfl⟩
      · have := i1.feed hlg.down e1 (by have := e2.dec; simpa using this)
        simpa using this
      · exact hlg.down
    by_cases hgf : g = f
    · subst hgf
      rw [updL_self]
      rw [if_pos rfl] at i2
      rw [hlk] at hlg
      obtain ⟨j1, j2, _, _⟩ := hlg.popAccepted hm
      exact ⟨Xg, Bg, τ, b, og, q', _, ms', hlg.fol, i2, hdown, j1, j2, fun m hm => hlg.src m (List.mem_cons_of_mem _ hm)⟩
    · rw [updL_other (.inl hgf)]
      rw [if_neg hgf] at i2
      exact ⟨Xg, Bg, τ, b, og, q', _, ms', hlg.fol, i2, hdown, hlg.up, hlg.low, hlg.src⟩
  · rw [updL_other]
    · exact h.unused i hi j hj hij
    · by_cases e : i = f
      · subst e; exact .inr fun hj' => hfn (hij.2 hj')
      · exact .inl e

/-- Forwarded proposals of `f` leave the link. -/
theorem popForward (h : SteadyInv cc n k lg ci X B d sv lk) {f : NodeId} (hf : f ∈ cc.nodes) (hfn : f ≠ n.pid) {m : PaxosMessage E S}
    {rest : List (PaxosMessage E S)} (hlk : lk f n.pid = m :: rest) {es : List E} (hm : m.msg = .proposalForward es) :
    SteadyInv cc n k lg ci X B d sv (updL lk f n.pid rest) := by
  refine ⟨h.lead, fun g hg hgn => ?_, h.chosen, fun i hi j hj hij => ?_⟩
  · rw [updL_other (.inr hgn)]
    obtain ⟨Xg, Bg, τ, b, og, qg, bl, mg, hlg⟩ := h.fol g hg hgn
    by_cases hgf : g = f
    · subst hgf
      rw [updL_self]
      rw [hlk] at hlg
      exact ⟨_, _, _, _, _, _, _, _, hlg.popForward hm⟩
    · rw [updL_other (.inl hgf)]
      exact ⟨_, _, _, _, _, _, _, _, hlg⟩
  · rw [updL_other]
    · exact h.unused i hi j hj hij
    · by_cases e : i = f
      · subst e; exact .inr fun hj' => hfn (hij.2 hj')
      · exact .inl e

/-- A follower changes. -/
theorem follower (h : SteadyInv cc n k lg ci X B d sv lk) {f : NodeId} (hf : f ∈ cc.nodes) (hfn : f ≠ n.pid) {s' : SP E S}
    {toF : List (PaxosMessage E S)} (hl : Linked n k (lg f) (ci f) f X d s' (sv n.pid) toF (lk f n.pid)) :
    SteadyInv cc n k lg ci X B d (upd sv f s') (updL lk n.pid f toF) := by
  have hL : upd sv f s' n.pid = sv n.pid := upd_other (Ne.symm hfn)
  refine ⟨by rw [hL]; exact h.lead, fun g hg hgn => ?_, by rw [hL]; exact h.chosen, fun i hi j hj hij => ?_⟩
  · rw [hL]
    by_cases hgf : g = f
    · subst hgf
      rw [upd_self, updL_self, updL_other (.inl hgn)]
      exact hl
    · rw [upd_other hgf, updL_other (.inr hgf), updL_other (.inl hgn)]
      exact h.fol g hg hgn
  · rw [updL_other]
    · exact h.unused i hi j hj hij
    · by_cases e : j = f
      · subst e; exact .inl fun hi' => hfn (hij.1 hi')
      · exact .inr e

theorem congrL (h : SteadyInv cc n k lg ci X B d sv lk) {lk' : NodeId → NodeId → List (PaxosMessage E S)}
    (he : ∀ i ∈ cc.nodes, ∀ j ∈ cc.nodes, lk' i j = lk i j) (hn : n.pid ∈ cc.nodes) : SteadyInv cc n k lg ci X B d sv lk' :=
  ⟨h.lead, fun f hf hfn => by rw [he _ hn f hf, he f hf _ hn]; exact h.fol f hf hfn, h.chosen,
    fun i hi j hj hij => by rw [he i hi j hj]; exact h.unused i hi j hj hij⟩

/-- The links after server `i` handed over its messages. -/
def handed (sv : NodeId → SP E S) (lk : NodeId → NodeId → List (PaxosMessage E S)) (i : NodeId) : NodeId → NodeId → List (PaxosMessage E S) :=
  fun a b => if a = i then lk a b ++ (sv i).outgoing.filter (fun m => decide (m.dst = b)) else lk a b

/-- A server hands over its messages. -/
theorem take (h : SteadyInv cc n k lg ci X B d sv lk) {i : NodeId} (hi : i ∈ cc.nodes) (buf : List (Message E S)) :
    SteadyInv cc n k lg ci X B d (upd sv i ((sv i).take_outgoing_msgs buf).2) (handed sv lk i) := by
  by_cases hin : i = n.pid
  · subst hin
    refine ⟨by rw [upd_self]; exact h.lead.take buf, fun f hf hfn => ?_, ?_, fun a ha b hb hab => ?_⟩
    · rw [upd_self, upd_other hfn]
      simp only [handed, if_true, if_neg hfn]
      obtain ⟨_, _, _, _, _, _, _, _, hl⟩ := h.fol f hf hfn
      exact hl.takeL buf
    · rw [upd_self]
      exact h.chosen
    · simp only [handed]
      split
      · rename_i e
        rw [h.unused a ha b hb hab, hab.1 e]
        simp only [List.nil_append, List.filter_eq_nil_iff, decide_eq_true_eq]
        exact fun m hm => (h.lead.ends m hm).1.2
      · exact h.unused a ha b hb hab
  · have hL : upd sv i ((sv i).take_outgoing_msgs buf).2 n.pid = sv n.pid := upd_other (Ne.symm hin)
    obtain ⟨_, _, _, _, _, _, _, _, hl⟩ := h.fol i hi hin
    refine ⟨by rw [hL]; exact h.lead, fun f hf hfn => ?_, by rw [hL]; exact h.chosen, fun a ha b hb hab => ?_⟩
    · rw [hL]
      simp only [handed, if_neg (Ne.symm hin)]
      by_cases hfi : f = i
      · subst hfi
        rw [upd_self, if_pos rfl]
        exact hl.takeF buf
      · rw [upd_other hfi, if_neg hfi]
        exact h.fol f hf hfn
    · simp only [handed]
      split
      · rename_i e
        rw [h.unused a ha b hb hab]
        simp only [List.nil_append, List.filter_eq_nil_iff, decide_eq_true_eq]
        intro m hm hmb
        have := (hl.fol.ends m hm).2
        rw [hmb] at this
        exact hin (e ▸ hab.2 this)
      · exact h.unused a ha b hb hab

end SteadyInv

end Omni
