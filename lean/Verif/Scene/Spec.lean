/-
Specification vocabulary for the scene registry.
-/
import Verif.Scene.Model

namespace Simox.Scn

/-- `e` is the first entity of `l` with name `n`. -/
def FirstNamed (nm : Nat → String) (l : List Nat) (n : String) (e : Nat) : Prop :=
  ∃ a b, l = a ++ e :: b ∧ nm e = n ∧ ∀ x ∈ a, nm x ≠ n

/-- The call takes entity `e` of kind `k` out of the scene: it names it by pointer, or by a name whose
first bearer it is. -/
def TakesOut (w : World) (op : Op) (k : Kind) (e : Nat) : Prop :=
  op = .deRegister k (some e) ∨
    ∃ n, op = .deRegisterNamed k n ∧ FirstNamed (w.name k) (w.scene.list k) n e

/-- The configurations stored for a robot. -/
def configsOf (w : World) (r : Nat) : List Nat := (w.scene.configs.lookup r).getD []

/-- The call puts configuration `c` of robot `r` into the scene.  (A list with a null entry throws
there; what comes before has been put in.) -/
def PutsIn (op : Op) (r c : Nat) : Prop :=
  op = .registerConfig (some r) (some c) ∨
    ∃ (cs : List Nat) (rest : List (Option Nat)),
      op = .registerConfigs (some r) (cs.map some ++ rest) ∧ c ∈ cs

/-- The call takes configuration `c` of robot `r` out of the scene. -/
def TakesOutConfig (w : World) (op : Op) (r c : Nat) : Prop :=
  op = .deRegisterConfig (some r) (some c) ∨
    ∃ n, op = .deRegisterConfigNamed (some r) n ∧ FirstNamed w.configName (configsOf w r) n c

end Simox.Scn
