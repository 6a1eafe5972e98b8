/-
Model of the sparse N-dimensional voxel tree.

Modelled: `/repo/VirtualRobot/Workspace/VoxelTreeND.hpp` and
`/repo/VirtualRobot/Workspace/VoxelTreeNDElement.hpp` (all functions except memory statistics,
printing and deletion).

Positions are exact rationals, so rounding of the halved extends is not modelled.  Files are modelled
as the sequence of stored records; bzip2 compression and the byte layout are not modelled.
-/
import Mathlib.Data.Rat.Floor
import Mathlib.Data.Nat.Log

namespace Simox.Vox

variable {N : Nat} {T : Type}

/-- A tree's parameters (`VoxelTreeND.hpp` 833-841): `minExtend`, `size`, `maxLevels`. -/
structure Params (N : Nat) where
  min : Fin N → ℚ
  size : Fin N → ℚ
  maxLevels : Nat

/-- The members `id`, `pos` and `level` of an element (`VoxelTreeNDElement.hpp` 684-693). -/
structure Info (N : Nat) where
  id : Nat
  pos : Fin N → ℚ
  level : Nat

/-- An element, or the null pointer.  A leaf has an optional entry, an inner element an array of
`2^N` pointers to children. -/
inductive Elem (N : Nat) (T : Type) where
  | null
  | leaf (i : Info N) (entry : Option T)
  | node (i : Info N) (children : Nat → Elem N T)

/-- The table `elementExtends` (`VoxelTreeND.hpp` 104-116): halved from level to level. -/
def ext (P : Params N) : Nat → Fin N → ℚ
  | 0, i => P.size i
  | l + 1, i => ext P l i * (1 / 2)

/-- `VoxelTreeNDElement::covers` (545-556). -/
def covers (P : Params N) (e : Info N) (p : Fin N → ℚ) : Bool :=
  decide (∀ i, ¬ (p i < e.pos i ∨ p i > e.pos i + ext P e.level i))

/-- The test for the right half in dimension `i` (329, 493, 534). -/
def right (P : Params N) (e : Info N) (p : Fin N → ℚ) (i : Fin N) : Bool :=
  decide (p i > e.pos i + ext P e.level i * (1 / 2))

/-- The loop of `getChildIndx` (530-539): bit `i` for the right half in dimension `i`. -/
def childIndex : (n : Nat) → (Fin n → Bool) → Nat
  | 0, _ => 0
  | n + 1, b => childIndex n (fun i => b i.castSucc) + (if b (Fin.last n) then 2 ^ n else 0)

/-- The position of a new child (487-503). -/
def childPos (P : Params N) (e : Info N) (b : Fin N → Bool) : Fin N → ℚ := fun i =>
  if b i then e.pos i + ext P e.level i * (1 / 2) else e.pos i

/-- Constructor (48-79). -/
def newElem (P : Params N) (id : Nat) (pos : Fin N → ℚ) (level : Nat) : Elem N T :=
  if level + 1 ≥ P.maxLevels then .leaf ⟨id, pos, level⟩ none
  else .node ⟨id, pos, level⟩ (fun _ => .null)

/-- `createChild` (459-507): the child to descend to and the last id given out. -/
def createChild (P : Params N) (e : Info N) (c : Nat → Elem N T) (next : Nat) (p : Fin N → ℚ) :
    Elem N T × Nat :=
  match c (childIndex N (right P e p)) with
  | .null => (newElem P (next + 1) (childPos P e (right P e p)) (e.level + 1), next + 1)
  | x => (x, next)

/-- Writing a child pointer. -/
def upd (c : Nat → Elem N T) (k : Nat) (e : Elem N T) : Nat → Elem N T :=
  fun i => if i = k then e else c i

/-- `setEntry` (90-120): the changed element, the last id given out, the result.  The first argument
bounds the depth of the recursion; `none`: the bound was hit or a null pointer dereferenced. -/
def setEntry (P : Params N) : Nat → Elem N T → Nat → (Fin N → ℚ) → T → Option (Elem N T × Nat × Bool)
  | 0, _, _, _, _ => none
  | _ + 1, .null, _, _, _ => none
  | _ + 1, .leaf e en, next, p, x =>
    if !covers P e p then some (.leaf e en, next, false) else some (.leaf e (some x), next, true)
  | f + 1, .node e c, next, p, x =>
    if !covers P e p then some (.node e c, next, false)
    else if e.level + 1 ≥ P.maxLevels then some (.leaf e (some x), next, true)
    else
      match setEntry P f (createChild P e c next p).1 (createChild P e c next p).2 p x with
      | none => none
      | some r => some (.node e (upd c (childIndex N (right P e p)) r.1), r.2.1, r.2.2)

/-- `getEntry` (158-173): a leaf returns its entry without looking at the position. -/
def getEntry (P : Params N) : Elem N T → (Fin N → ℚ) → Option T
  | .null, _ => none
  | .leaf _ en, _ => en
  | .node e c, p => if covers P e p then getEntry P (c (childIndex N (right P e p))) p else none

/-- `hasEntry` (126-153). -/
def hasEntry (P : Params N) : Elem N T → (Fin N → ℚ) → Bool
  | .null, _ => false
  | .leaf e en, p => if !covers P e p then false else en.isSome
  | .node e c, p => if covers P e p then hasEntry P (c (childIndex N (right P e p))) p else false

/-- `getLeaf` (176-191): the leaf's members and entry. -/
def getLeaf (P : Params N) : Elem N T → (Fin N → ℚ) → Option (Info N × Option T)
  | .null, _ => none
  | .leaf e en, _ => some (e, en)
  | .node e c, p => if covers P e p then getLeaf P (c (childIndex N (right P e p))) p else none

/-- `getVoxelCenter` (289-299). -/
def voxelCenter (P : Params N) (e : Info N) : Fin N → ℚ := fun i => e.pos i + ext P e.level i * (1 / 2)

/-- First loop of `getAllChildrenIndx` (325-334): only the first `d` dimensions are looked at. -/
def prefixBits (d : Nat) (b : Fin N → Bool) : Fin N → Bool := fun i => decide (i.val < d) && b i

/-- Second loop of `getAllChildrenIndx` (339-352), `n` dimensions from `i` on. -/
def spread (c : List Nat) : Nat → Nat → List Nat
  | _, 0 => c
  | i, n + 1 => spread (c ++ c.map (fun r => r + 2 ^ i)) (i + 1) n

/-- `getAllChildrenIndx` (321-355) for a position of which the first `d` coordinates are given. -/
def allChildren (P : Params N) (e : Info N) (d : Nat) (p : Fin N → ℚ) : List Nat :=
  spread [childIndex N (prefixBits d (right P e p))] d (N - d)

/-- `getAllLeafs` (232-266). -/
def allLeafs (P : Params N) (d : Nat) (p : Fin N → ℚ) : Elem N T → List (Info N × Option T)
  | .null => []
  | .leaf e en => [(e, en)]
  | .node e c => (allChildren P e d p).flatMap (fun k => allLeafs P d p (c k))

/-- The loop of `maxLeaf` (208-227) over what the children return.  `none`: a null entry is
dereferenced (218). -/
def maxLoop [LT T] [DecidableLT T] (best : Option (Info N × T)) :
    List (Option (Info N × Option T)) → Option (Option (Info N × T))
  | [] => some best
  | none :: rs => maxLoop best rs
  | some (_, none) :: rs =>
    match best with
    | none => maxLoop none rs
    | some _ => none
  | some (i, some x) :: rs =>
    match best with
    | none => maxLoop (some (i, x)) rs
    | some (j, y) => if x > y then maxLoop (some (i, x)) rs else maxLoop (some (j, y)) rs

/-- `maxLeaf` (194-230) on elements whose leaves all have entries: the leaf and its entry. -/
def maxLeaf [LT T] [DecidableLT T] (P : Params N) (d : Nat) (p : Fin N → ℚ) :
    Elem N T → Option (Info N × Option T)
  | .null => none
  | .leaf e en => some (e, en)
  | .node e c =>
    match maxLoop none ((allChildren P e d p).map (fun k => maxLeaf P d p (c k))) with
    | some (some (i, x)) => some (i, some x)
    | _ => none

/-- `countNodesRecursive` (301-318) with `getNextChild` (668-682): all children in turn. -/
def countNodes : Elem N T → Nat
  | .null => 0
  | .leaf _ _ => 1
  | .node _ c => ((List.range (2 ^ N)).map (fun k => countNodes (c k))).sum + 1

/-! ### Constructing a tree -/

/-- The number of steps in a dimension (`VoxelTreeND.hpp` 89). -/
def steps (size discr : ℚ) : Nat := (⌊size / discr + 1 / 2⌋).toNat

/-- The maximum over all dimensions (85-95). -/
def maxSteps (size discr : Fin N → ℚ) : Nat :=
  (List.ofFn (fun i => steps (size i) (discr i))).foldl (fun m s => if s > m then s else m) 0

/-- Constructor (72-136): `none` if it throws, or if the logarithm of zero would be converted to an
integer (102, undefined). -/
def mkParams (min max discr : Fin N → ℚ) : Option (Params N) :=
  if ∃ i, max i - min i ≤ 0 ∨ discr i ≤ 0 then none
  else if maxSteps (fun i => max i - min i) discr = 0 then none
  else some ⟨min, fun i => max i - min i, Nat.clog 2 (maxSteps (fun i => max i - min i) discr) + 1⟩

/-- A tree: root and last id given out (833-845). -/
structure Tree (N : Nat) (T : Type) where
  root : Elem N T
  currentID : Nat

/-- The tree after construction (135). -/
def newTree (P : Params N) : Tree N T := ⟨newElem P 1 P.min 0, 1⟩

/-- `VoxelTreeND::setEntry` (147-150). -/
def Tree.set (P : Params N) (t : Tree N T) (p : Fin N → ℚ) (x : T) : Option (Tree N T × Bool) :=
  match setEntry P P.maxLevels t.root t.currentID p x with
  | none => none
  | some r => some (⟨r.1, r.2.1⟩, r.2.2)

/-- A sequence of `setEntry` calls on a new tree; results ignored. -/
def runSets (P : Params N) : List ((Fin N → ℚ) × T) → Tree N T → Option (Tree N T)
  | [], t => some t
  | w :: ws, t =>
    match t.set P w.1 w.2 with
    | none => none
    | some r => runSets P ws r.1

/-! ### Saving and loading -/

/-- A stored record (`VoxelTreeNDElement.hpp` 357-366). -/
structure Rec (T : Type) where
  id : Nat
  body : T ⊕ List Nat

/-- Id of a child pointer, 0 for null (376-383). -/
def Elem.idOr0 : Elem N T → Nat
  | .null => 0
  | .leaf e _ => e.id
  | .node e _ => e.id

/-- `collectElements` (584-598) and `write` (368-405) for all of them; `none`: a leaf without entry
(394, saving fails). -/
def records : Elem N T → Option (List (Rec T))
  | .null => some []
  | .leaf _ none => none
  | .leaf e (some x) => some [⟨e.id, .inl x⟩]
  | .node e c =>
    match (List.range (2 ^ N)).mapM (fun k => records (c k)) with
    | none => none
    | some ls => some (⟨e.id, .inr ((List.range (2 ^ N)).map (fun k => (c k).idOr0))⟩ :: ls.flatten)

/-- Elements under construction while loading: each id has been filled by the record read for it
(`VoxelTreeND.hpp` 301-309, 412; `VoxelTreeNDElement.hpp` 407-457).  `none`: no such element. -/
def lookupRec (rs : List (Rec T)) (id : Nat) : Option (Rec T) := rs.find? (fun r => r.id == id)

/-- The decoding loop of `propagateData` (626-643). -/
def decode : (n : Nat) → Nat → Fin n → Bool
  | 0, _, _ => false
  | n + 1, r, i =>
    if h : i.val < n then decode n (if r ≥ 2 ^ n then r - 2 ^ n else r) ⟨i.val, h⟩
    else decide (r ≥ 2 ^ n)

/-- Following the pointers of the loaded elements while `propagateData` (600-649) sets positions and
levels.  The first argument bounds the depth; `none`: bound hit (a cyclic file). -/
def rebuild (P : Params N) (rs : List (Rec T)) : Nat → Nat → (Fin N → ℚ) → Nat → Option (Elem N T)
  | 0, _, _, _ => none
  | f + 1, id, pos, level =>
    match lookupRec rs id with
    | none => none
    | some r =>
      match r.body with
      | .inl x => some (.leaf ⟨r.id, pos, level⟩ (some x))
      | .inr ids =>
        match (List.range (2 ^ N)).mapM (fun k =>
            if (ids.getD k 0) = 0 then some .null
            else rebuild P rs f (ids.getD k 0) (childPos P ⟨r.id, pos, level⟩ (decode N k)) (level + 1))
          with
        | none => none
        | some cs => some (.node ⟨r.id, pos, level⟩ (fun k => cs.getD k .null))

/-- `save` (463-573), the parts that vary: number of elements, last id, records. -/
def save (t : Tree N T) : Option (Nat × Nat × List (Rec T)) :=
  match records t.root with
  | none => none
  | some rs => some (rs.length, t.currentID, rs)

/-- `load` (234-450): the new elements get the ids up to the number of elements, the root has id 1. -/
def load (P : Params N) (file : Nat × Nat × List (Rec T)) : Option (Tree N T) :=
  match rebuild P file.2.2 P.maxLevels 1 P.min 0 with
  | none => none
  | some e => some ⟨e, file.1⟩

/-! ### Iterating over the leaves -/

/-- `ElementIterator` (643-760): stacks of elements and child numbers (top first), current element. -/
structure Iter (N : Nat) (T : Type) where
  elems : List (Elem N T)
  ids : List Nat
  cur : Elem N T

/-- `getNextChild` (`VoxelTreeNDElement.hpp` 668-682), `n` numbers left to try. -/
def nextChild (c : Nat → Elem N T) : Nat → Nat → Option (Nat × Elem N T)
  | _, 0 => none
  | i, n + 1 =>
    match c i with
    | .null => nextChild c (i + 1) n
    | e => some (i, e)

/-- Going down to the first leaf (661-680, 728-744): `cur` is the child found under number `nr`. -/
def goDown : Elem N T → Nat → List (Elem N T) → List Nat → Iter N T
  | .null, _, es, is => ⟨es, is, .null⟩
  | .leaf e en, nr, es, is => ⟨.leaf e en :: es, nr :: is, .leaf e en⟩
  | .node e c, nr, es, is =>
    -- the first child that is there
    (List.range (2 ^ N)).foldr
      (fun k other =>
        match c k with
        | .null => other
        | _ => goDown (c k) k (.node e c :: es) (nr :: is))
      ⟨.node e c :: es, nr :: is, .null⟩

/-- `init` (648-684).  `none`: the root is a leaf, its missing array of children is accessed. -/
def iterInit (root : Elem N T) : Option (Iter N T) :=
  match root with
  | .node e c =>
    match nextChild c 0 (2 ^ N) with
    | none => some ⟨[root], [], .null⟩
    | some (k, x) => some (goDown x k [.node e c] [])
  | _ => none

/-- The loop going up (705-719): `none` if there are no more elements. -/
def goUp : List (Elem N T) → List Nat → Option (Nat × Elem N T × List (Elem N T) × List Nat)
  | .node e c :: es, nr :: is =>
    match nextChild c (nr + 1) (2 ^ N - (nr + 1)) with
    | some (k, x) => some (k, x, .node e c :: es, is)
    | none => goUp es is
  | _, _ => none

/-- `getNextElement` (689-756). -/
def iterNext (s : Iter N T) : Iter N T :=
  match s.cur with
  | .leaf _ _ =>
    match goUp s.elems.tail s.ids with
    | none => ⟨[], [], .null⟩
    | some (k, x, es, is) => goDown x k es is
  | _ => s

end Simox.Vox
