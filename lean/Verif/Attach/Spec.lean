/-
Specification vocabulary for object hierarchies.
-/
import Mathlib.Logic.Relation
import Verif.Attach.Model

namespace Simox.Attach

variable {P : Type}

/-- `c` is a child of `p`. -/
def Child (w : World P) (p c : Nat) : Prop := c ∈ w.children p

/-- `y` is somewhere below `x`. -/
def Below (w : World P) (x y : Nat) : Prop := Relation.TransGen (Child w) x y

/-- No object is its own ancestor. -/
def Forest (w : World P) : Prop := ∀ x, ¬ Below w x x

/-- Parent links and child links agree, and nobody is listed twice. -/
def LinksAgree (w : World P) : Prop :=
  (∀ p c, c ∈ w.children p ↔ getParent w c = some p) ∧ ∀ p, (w.children p).Nodup

/-- Siblings have different names. -/
def SiblingsDistinct (w : World P) : Prop :=
  ∀ p c d, c ∈ w.children p → d ∈ w.children p → w.name c = w.name d → c = d

/-- The call does not hang an object below itself: an attached object is not the new parent nor
above it. -/
def NotAbove (w : World P) : Op → Prop
  | .attach p c => ¬ Relation.ReflTransGen (Child w) c p
  | _ => True

/-- Histories in which nothing is hung below itself. -/
inductive GoodReach (one : P) : List Op → World P → Prop where
  | start : GoodReach one [] (World.init one)
  | next {h : List Op} {w : World P} {op : Op} :
      GoodReach one h w → Legal w op → NotAbove w op → GoodReach one (h ++ [op]) (step one w op)

end Simox.Attach
