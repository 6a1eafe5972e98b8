import Verif.Threads.Model

/-!
# Vocabulary for the thread properties
-/

namespace Simox.Threads.Spec

variable {R : Type}

/-- A worker that has not ended. -/
def WPc.active : WPc R → Prop
  | .done _ => False
  | _ => True

/-- Worker `w` exists and has not ended. -/
def Active (s : St R) (w : Nat) : Prop := ∃ p, s.workers[w]? = some p ∧ WPc.active p

/-- The value returned by the worker created last, if it has ended. -/
def lastResult (s : St R) : Option R :=
  match s.workers.getLast? with
  | some (.done r) => some r
  | _ => none

/-- A step of a worker. -/
def Label.isWorker : Label R → Bool
  | .wBegin _ | .wCycle _ | .wReturn _ _ | .wEnd _ => true
  | _ => false

/-- A successful `start()`. -/
def Label.isStart : Label R → Bool
  | .start _ => true
  | _ => false

/-- The client that makes the step, if it is a client's. -/
def Label.client? : Label R → Option Nat
  | .start c | .startIgnored c | .isRunning c _ | .intCheck c _ _ | .intSet c _ | .joined c
  | .getCheck c _ | .getRead c _ => some c
  | _ => none

/-- Only one client thread uses the object. -/
def SingleClient (tr : List (Label R)) : Prop :=
  ∀ l ∈ tr, ∀ c, Label.client? l = some c → c = 0

end Simox.Threads.Spec
