import Verif.Model.Cluster
/-
A service that is reconfigured again and again, as docs/omnipaxos/reconfiguration.md describes it: when a server shows a decided
StopSign, the user starts new OmniPaxos instances, with new storages, from its `next_config`. The instances of one configuration
form a `Cluster`; the configurations are numbered by generation (the code knows only `configuration_id`, which is whatever the
caller of `reconfigure` chose).
-/
namespace Omni

variable {E S : Type}

structure Service (E S : Type) where
  /-- the instances of each generation, and what is in flight between them -/
  gen : Nat → Cluster E S
  /-- the configurations that users have learnt for each generation, latest first -/
  learnt : Nat → List ClusterConfig

inductive SAction (E S : Type) where
  /-- generation `g` takes a step; servers are started with the `k`-th configuration that was learnt for it
  (omni_paxos.rs 135-149: `build_for_server` is `build`) -/
  | act (g k : Nat) (a : Action E S)
  /-- the user of server `j` of generation `g` asks `is_reconfigured` (or reads the StopSign, which gives the same,
  `C10_stopsign_agreement_partial`) and spreads the configuration in it -/
  | learn (g : Nat) (j : NodeId)
  /-- the oldest message on the link from `i` to `j` in generation `g` is handed to the instance of `j` in generation `h` -/
  | stray (g h : Nat) (i j : NodeId)

def Service.setGen (s : Service E S) (g : Nat) (c : Cluster E S) : Service E S :=
  { s with gen := fun h => if h = g then c else s.gen h }

/-- The transition function; `none` means the action is not possible in this state. -/
def Service.step [SnapOps E S] (s : Service E S) : SAction E S → Option (Service E S)
  | .act g k a =>
    match (s.learnt g)[k]? with
    | none => none
    | some cc => ((s.gen g).step cc a).map (s.setGen g)
  | .learn g j =>
    match (s.gen g).servers j with
    | .down _ => none
    | .up op => match op.is_reconfigured with
      | none => none
      | some ss => some { s with learnt := fun h => if h = g + 1 then ss.next_config :: s.learnt h else s.learnt h }
  | .stray g h i j =>
    match (s.gen g).net i j with
    | [] => none
    | m :: rest =>
      let s' := s.setGen g ((s.gen g).setNet i j rest)
      match (s'.gen h).servers j with
      | .down _ => some s'
      | .up op => some (s'.setGen h ((s'.gen h).setServer j (op.callResult (.handleIncoming m))))

/-- No instance yet; the first configuration is known. -/
def Service.init (cc : ClusterConfig) : Service E S := { gen := fun _ => Cluster.init, learnt := fun g => if g = 0 then [cc] else [] }

def Service.run [SnapOps E S] (s : Service E S) : List (SAction E S) → Option (Service E S)
  | [] => some s
  | a :: as => match s.step a with
    | none => none
    | some s' => s'.run as

end Omni
