import Verif.Model.Cluster
/-
Small definitions used by the statements of the properties (not part of the modelled code).
-/
namespace Omni

variable {E S : Type}

/-- Which of the first `k` ticks of a clock fire, and the clock after them. -/
def LogicalClock.fires (c : LogicalClock) : Nat → List Bool × LogicalClock
  | 0 => ([], c)
  | k + 1 =>
    let r := c.fires k
    (r.1 ++ [r.2.tick_and_check_timeout.1], r.2.tick_and_check_timeout.2)

/-- The number of `tick` calls in a sequence of calls. -/
def tickCount : List (Call E S) → Nat
  | [] => 0
  | .tick :: cs => tickCount cs + 1
  | _ :: cs => tickCount cs

/-- Run a sequence of API calls on one server; `none` if one of them panics. -/
def OP.runCalls [SnapOps E S] (op : OP E S) : List (Call E S) → Option (OP E S)
  | [] => some op
  | c :: cs => match c.run op with
    | .ok _ op' => op'.runCalls cs
    | .panic _ => none

/-- What can happen to the election component: a message arrives, a heartbeat timeout with the given state of the replication
component, a change of priority. -/
inductive BLEEvent where
  | msg (m : BLEMessage)
  | timeout (role : Role) (phase : Phase) (promise : Ballot)
  | priority (p : Nat)

/-- The election component after an event. -/
def BLE.event (b : BLE) : BLEEvent → BLE
  | .msg m => b.handle m
  | .timeout r p n => (b.hb_timeout r p n).2
  | .priority p => b.set_priority p

end Omni
