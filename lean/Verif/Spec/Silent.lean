import Verif.Spec.Beats
import Verif.Spec.Order
/-
Some servers fall silent: they crash, hang, or restart, or whatever, but nothing they send reaches anybody any more.
-/
namespace Omni

variable {E S : Type}

/-- A calm action of the servers `L`: they append, tick, send, and receive, from anybody, in the order of sending. -/
def Action.Of (cc : ClusterConfig) (L : List NodeId) : Action E S → Prop
  | .call i (.append _) | .call i .tick | .take i => i ∈ L
  | .deliver i j => i ∈ cc.nodes ∧ j ∈ L
  | _ => False

/-- Anything at a server that is not in `L`, except that it sends; and anything to the messages sent to such a server. -/
def Action.Mute (L : List NodeId) : Action E S → Prop
  | .start i _ | .crash i | .call i _ | .crashCall i _ _ => i ∉ L
  | .deliver _ j | .crashDeliver _ j _ | .lose _ j _ | .rearrange _ j _ => j ∉ L
  | .take _ => False

/-- One beat of the servers `L` from `c`, in which all others are silent: every server of `L` ticks once and hands over its messages at least once, and every link to
a server of `L` delivers as many messages as there are on it at the beginning; in any order. -/
structure Cluster.LiveBeat (cc : ClusterConfig) (L : List NodeId) (c : Cluster E S) (as : List (Action E S)) : Prop where
  acts : ∀ a ∈ as, a.Of cc L ∨ a.Mute L
  ticks : ∀ i ∈ L, as.countP (Action.isTick i) = 1
  taken : ∀ i ∈ L, .take i ∈ as
  delivered : ∀ i ∈ cc.nodes, ∀ j ∈ L, (c.net i j).length ≤ as.countP (Action.isDelivery i j)

/-- A run in such beats. -/
inductive Cluster.LiveBeats [SnapOps E S] (cc : ClusterConfig) (L : List NodeId) : Cluster E S → List (List (Action E S)) → Cluster E S → Prop
  | nil (c : Cluster E S) : Cluster.LiveBeats cc L c [] c
  | cons {c c1 c2 : Cluster E S} {as : List (Action E S)} {bss : List (List (Action E S))} : c.LiveBeat cc L as → c.run cc as = some c1 →
      Cluster.LiveBeats cc L c1 bss c2 → Cluster.LiveBeats cc L c (as :: bss) c2

end Omni
