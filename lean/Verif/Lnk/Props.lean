import Verif.Lnk.Spec
import Mathlib.Analysis.Convex.Combination
import Mathlib.Tactic.Linarith
import Mathlib.Tactic.FinCases
import Mathlib.Tactic.NormNum

/-!
# C179, C180, C181: linked coordinates, chains of nodes, centres of mass
-/

namespace Simox.Lnk

open Spec

/-! ## Linked coordinates -/

theorem hasNode_iff {N : Type} [DecidableEq N] (r : Robot N) (n : N) : r.hasNode (some n) = true ↔ Member r n := by
  show (if r.hasName (r.name n) then r.registered (r.name n) == some n else false) = true ↔ _
  unfold Member Robot.hasName
  by_cases h : (r.registered (r.name n)).isSome
  · rw [if_pos h]
    exact beq_iff_eq
  · rw [if_neg h]
    constructor
    · intro h'; exact absurd h' (by simp)
    · intro h'; rw [h'] at h; exact absurd rfl h

theorem cancel {A B : Mat} (h : IsUnit A.det) : A * (A⁻¹ * B) = B := by
  rw [← Matrix.mul_assoc, Matrix.mul_nonsing_inv A h, Matrix.one_mul]

theorem cancel' {A B : Mat} (h : IsUnit A.det) : A⁻¹ * (A * B) = B := by
  rw [← Matrix.mul_assoc, Matrix.nonsing_inv_mul A h, Matrix.one_mul]

/-- The coordinate is the one that should be. -/
def Agrees {N : Type} (r : Robot N) (c : Coord N) : Option (Fixed N) → Prop
  | none => c.frame = none
  | some x => c.frame = some x.frame ∧ Member r x.frame ∧ r.pose x.frame * c.pose = x.world

theorem set_agrees {N : Type} [DecidableEq N] (r : Robot N) (c : Coord N)
    (f : N) (p : Mat) : (¬ Member r f → c.set r (some f) p = (false, c)) ∧
      (Member r f → c.set r (some f) p = (true, ⟨some f, p⟩)) := by
  constructor
  · intro hm
    show (if r.hasNode (some f) = true then (true, (⟨some f, p⟩ : Coord N)) else (false, c)) = _
    rw [if_neg (by rw [hasNode_iff]; exact hm)]
  · intro hm
    show (if r.hasNode (some f) = true then (true, (⟨some f, p⟩ : Coord N)) else (false, c)) = _
    rw [if_pos ((hasNode_iff r f).mpr hm)]

theorem transformation_member {N : Type} [DecidableEq N] (r : Robot N) {o d : N} (ho : Member r o) (hd : Member r d) :
    transformation r (some o) (some d) = some ((r.pose d)⁻¹ * r.pose o) := by
  show (if r.hasNode (some o) = true then
      if r.hasNode (some d) = true then some ((r.pose d)⁻¹ * r.pose o) else none else none) = _
  rw [if_pos ((hasNode_iff r o).mpr ho), if_pos ((hasNode_iff r d).mpr hd)]

theorem change_not {N : Type} [DecidableEq N] (r : Robot N) (c : Coord N) (d : N) (hm : ¬ Member r d) :
    c.changeFrame r (some d) = (false, c) := by
  unfold Coord.changeFrame
  dsimp only
  rw [if_neg (by rw [hasNode_iff]; exact hm)]

theorem change_member {N : Type} [DecidableEq N] (r : Robot N) (hp : Proper r.pose) (c : Coord N) (s : Option (Fixed N))
    (h : Agrees r c s) (d : N) (hm : Member r d) :
    (c.changeFrame r (some d)).1 = true ∧
    Agrees r (c.changeFrame r (some d)).2 (some ⟨d, worldOr r d s⟩) := by
  unfold Coord.changeFrame
  dsimp only
  rw [if_pos ((hasNode_iff r d).mpr hm)]
  cases s with
  | none =>
    have hf : c.frame = none := h
    rw [hf]
    exact ⟨rfl, rfl, hm, Matrix.mul_one _⟩
  | some x =>
    obtain ⟨hf, hx, hw⟩ := h
    rw [hf]
    dsimp only
    rw [transformation_member r hx hm]
    refine ⟨rfl, rfl, hm, ?_⟩
    show r.pose d * ((r.pose d)⁻¹ * r.pose x.frame * c.pose) = x.world
    rw [Matrix.mul_assoc, cancel (hp d), hw]

theorem step_agrees {N : Type} [DecidableEq N] (r : Robot N) (hp : Proper r.pose) (c : Coord N) (s : Option (Fixed N))
    (h : Agrees r c s) (e : Event N) :
    Agrees (step (r, c) e).1 (step (r, c) e).2 (apply r s e) := by
  have hset : ∀ f p, Agrees r (c.set r (some f) p).2 (fixTo r s f p) := by
    intro f p
    obtain ⟨a, b⟩ := set_agrees r c f p
    unfold fixTo
    by_cases hm : Member r f
    · rw [b hm, if_pos hm]; exact ⟨rfl, hm, rfl⟩
    · rw [a hm, if_neg hm]; exact h
  have hchange : ∀ d, Agrees r (c.changeFrame r (some d)).2 (moveTo r s d) := by
    intro d
    unfold moveTo
    by_cases hm : Member r d
    · rw [if_pos hm]; exact (change_member r hp c s h d hm).2
    · rw [change_not r c d hm, if_neg hm]; exact h
  cases e with
  | set f p =>
    cases f with
    | none => exact h
    | some f => exact hset f p
  | setName n p =>
    show Agrees r (if (r.registered n).isSome = true then c.set r (r.registered n) p else (false, c)).2
      ((r.registered n).elim s fun f => fixTo r s f p)
    cases hn : r.registered n with
    | none => exact h
    | some f => exact hset f p
  | change f =>
    cases f with
    | none => exact h
    | some f => exact hchange f
  | changeName n =>
    show Agrees r (if (r.registered n).isSome = true then c.changeFrame r (r.registered n) else (false, c)).2
      ((r.registered n).elim s fun f => moveTo r s f)
    cases hn : r.registered n with
    | none => exact h
    | some f => exact hchange f
  | move g =>
    cases s with
    | none => exact h
    | some x =>
      obtain ⟨hf, hx, hw⟩ := h
      refine ⟨hf, hx, ?_⟩
      show g x.frame * c.pose = g x.frame * ((r.pose x.frame)⁻¹ * x.world)
      rw [← hw, cancel' (hp x.frame)]

theorem history {N : Type} [DecidableEq N] (es : List (Event N)) (r : Robot N) (hp : Proper r.pose) (hm : ProperMoves es)
    (c : Coord N) (s : Option (Fixed N)) (h : Agrees r c s) :
    (es.foldl step (r, c)).1 = (track r s es).1 ∧
    Agrees (es.foldl step (r, c)).1 (es.foldl step (r, c)).2 (track r s es).2 ∧ Proper (es.foldl step (r, c)).1.pose := by
  induction es generalizing r c s with
  | nil => exact ⟨rfl, h, hp⟩
  | cons e r' ih =>
    have hs := step_agrees r hp c s h e
    have hm' : ProperMoves r' := fun g hg => hm g (List.mem_cons_of_mem _ hg)
    rw [List.foldl_cons]
    cases e with
    | move g => exact ih _ (hm g List.mem_cons_self) hm' _ _ hs
    | set f p => exact ih _ hp hm' _ _ hs
    | setName f p => exact ih _ hp hm' _ _ hs
    | change f => exact ih _ hp hm' _ _ hs
    | changeName f => exact ih _ hp hm' _ _ hs

/-- **C179.** After any history of calls and motions of the robot a coordinate is a pose that is fixed to the
node it was given or moved to last: it moves with this node, changing the frame does not move it, calls
that fail do not change it, and its pose in another frame is that pose seen from there. -/
theorem C179_history {N : Type} [DecidableEq N] (r : Robot N) (hp : Proper r.pose) (es : List (Event N))
    (hm : ProperMoves es) :
    let s := es.foldl step (r, Coord.new N)
    let t := track r none es
    s.1 = t.1 ∧ s.2.frame = t.2.map Fixed.frame ∧
    ∀ x, t.2 = some x →
      s.1.pose x.frame * s.2.pose = x.world ∧
      ∀ d, Member s.1 d → s.2.getInFrame s.1 (some d) = some ((s.1.pose d)⁻¹ * x.world) ∧
        (s.1.registered (s.1.name d) = some d → s.2.getInFrameName s.1 (s.1.name d) = s.2.getInFrame s.1 (some d)) := by
  intro s t
  obtain ⟨h1, h2, h3⟩ := history es r hp hm (Coord.new N) none rfl
  refine ⟨h1, ?_, fun x hx => ?_⟩
  · change Agrees s.1 s.2 t.2 at h2
    cases ht : t.2 with
    | none => rw [ht] at h2; exact h2
    | some x => rw [ht] at h2; exact h2.1
  · change Agrees s.1 s.2 t.2 at h2
    rw [hx] at h2
    obtain ⟨hf, hmem, hw⟩ := h2
    refine ⟨hw, fun d hd => ?_⟩
    have e1 : s.2.getInFrame s.1 (some d) = some ((s.1.pose d)⁻¹ * x.world) := by
      show (if s.1.hasNode (some d) = true then (transformation s.1 s.2.frame (some d)).map (· * s.2.pose) else none) = _
      rw [if_pos ((hasNode_iff s.1 d).mpr hd), hf, transformation_member s.1 hmem hd]
      show some ((s.1.pose d)⁻¹ * s.1.pose x.frame * s.2.pose) = _
      rw [Matrix.mul_assoc, hw]
    refine ⟨e1, fun hr => ?_⟩
    rw [e1]
    unfold Coord.getInFrameName Robot.hasName
    rw [hr, if_pos (Option.isSome_some ..), hf, transformation_member s.1 hmem hd]
    show some ((s.1.pose d)⁻¹ * s.1.pose x.frame * s.2.pose) = _
    rw [Matrix.mul_assoc, hw]

/-- **C179.** A call fails exactly if the node is null or does not belong to the robot, and then nothing
changes. -/
theorem C179_failures {N : Type} [DecidableEq N] (r : Robot N) (hp : Proper r.pose) (c : Coord N)
    (hc : ∀ f, c.frame = some f → Member r f) :
    (∀ f p, (c.set r f p).1 = true ↔ ∃ n, f = some n ∧ Member r n) ∧
    (∀ d, (c.changeFrame r d).1 = true ↔ ∃ n, d = some n ∧ Member r n) ∧
    (∀ f p, (c.set r f p).1 = false → (c.set r f p).2 = c) ∧
    ∀ d, (c.changeFrame r d).1 = false → (c.changeFrame r d).2 = c := by
  obtain ⟨s, hs⟩ : ∃ s, Agrees r c s := by
    cases hf : c.frame with
    | none => exact ⟨none, hf⟩
    | some f => exact ⟨some ⟨f, r.pose f * c.pose⟩, hf, hc f hf, rfl⟩
  have hset : ∀ f p, ((c.set r f p).1 = true ↔ ∃ n, f = some n ∧ Member r n) ∧
      ((c.set r f p).1 = false → (c.set r f p).2 = c) := by
    intro f p
    cases f with
    | none => exact ⟨⟨fun h => absurd h Bool.false_ne_true, fun ⟨n, h, _⟩ => absurd h (by simp)⟩, fun _ => rfl⟩
    | some f =>
      obtain ⟨a, b⟩ := set_agrees r c f p
      by_cases hm : Member r f
      · rw [b hm]
        exact ⟨⟨fun _ => ⟨f, rfl, hm⟩, fun _ => rfl⟩, fun h => absurd h (by simp)⟩
      · rw [a hm]
        refine ⟨⟨fun h => absurd h (by simp), ?_⟩, fun _ => rfl⟩
        rintro ⟨n, e, h⟩
        cases e
        exact absurd h hm
  have hch : ∀ d, ((c.changeFrame r d).1 = true ↔ ∃ n, d = some n ∧ Member r n) ∧
      ((c.changeFrame r d).1 = false → (c.changeFrame r d).2 = c) := by
    intro d
    cases d with
    | none => exact ⟨⟨fun h => absurd h Bool.false_ne_true, fun ⟨n, h, _⟩ => absurd h (by simp)⟩, fun _ => rfl⟩
    | some d =>
      by_cases hm : Member r d
      · have := (change_member r hp c s hs d hm).1
        exact ⟨⟨fun _ => ⟨d, rfl, hm⟩, fun _ => this⟩, fun h => absurd (h.symm.trans this) (by simp)⟩
      · rw [change_not r c d hm]
        refine ⟨⟨fun h => absurd h (by simp), ?_⟩, fun _ => rfl⟩
        rintro ⟨n, e, h⟩
        cases e
        exact absurd h hm
  exact ⟨fun f p => (hset f p).1, fun d => (hch d).1, fun f p => (hset f p).2, fun d => (hch d).2⟩

/-- **C179.** A position is a pose without rotation, and it is read back; seen from its frame it is this point. -/
theorem C179_position {N : Type} [DecidableEq N] (r : Robot N) (c : Coord N) (f : N) (hf : Member r f) (p : Fin 3 → ℝ) :
    (c.set r (some f) (atPosition p)).2.position = p ∧
    Matrix.mulVec (atPosition p) ![0, 0, 0, 1] = ![p 0, p 1, p 2, 1] ∧
    ∀ v w : Fin 3 → ℝ, Matrix.mulVec (atPosition p) ![v 0, v 1, v 2, 1] - Matrix.mulVec (atPosition p) ![w 0, w 1, w 2, 1] =
      ![v 0 - w 0, v 1 - w 1, v 2 - w 2, 0] := by
  have key : ∀ v : Fin 3 → ℝ, Matrix.mulVec (atPosition p) ![v 0, v 1, v 2, 1] =
      ![v 0 + p 0, v 1 + p 1, v 2 + p 2, 1] := by
    intro v
    funext i
    fin_cases i <;> simp [Matrix.mulVec, dotProduct, Fin.sum_univ_four, atPosition]
  refine ⟨?_, ?_, fun v w => ?_⟩
  · have : c.set r (some f) (atPosition p) = (true, ⟨some f, atPosition p⟩) := by
      show (if r.hasNode (some f) = true then (true, (⟨some f, atPosition p⟩ : Coord N)) else (false, c)) = _
      rw [if_pos ((hasNode_iff r f).mpr hf)]
    rw [this]
    funext i
    show atPosition p i.castSucc 3 = p i
    unfold atPosition
    rw [dif_pos ⟨rfl, i.isLt⟩]
    rfl
  · have := key 0
    simpa using this
  · rw [key, key]
    funext i
    fin_cases i <;> simp

/-- **C179**, refuted for coordinates that were not set: the documentation of `getInFrame` promises the unit
matrix, but the call fails. `changeFrame` does what it promises. -/
theorem C179_unset_false {N : Type} [DecidableEq N] (r : Robot N) (d : N) (hd : Member r d) :
    (Coord.new N).getInFrame r (some d) = none ∧ ((Coord.new N).changeFrame r (some d)).2 = ⟨some d, 1⟩ := by
  constructor
  · unfold Coord.getInFrame
    dsimp only
    rw [if_pos ((hasNode_iff r d).mpr hd)]
    rfl
  · unfold Coord.changeFrame
    dsimp only
    rw [if_pos ((hasNode_iff r d).mpr hd)]
    rfl

/-- A robot with two nodes for C179. -/
example : ∃ r : Robot Bool, Proper r.pose ∧ Member r true ∧ Member r false :=
  ⟨⟨fun s => if s = "a" then some true else if s = "b" then some false else none, fun b => if b then "a" else "b",
    fun _ => 1⟩, fun _ => by simp, by simp [Member], by simp [Member]⟩

/-! ## Chains of nodes -/

mutual
theorem hasChild_iff {N : Type} [DecidableEq N] (c : N) : ∀ t : Tree N, t.hasChild c = true ↔ Below c t
  | .node n ts => by
    have h := anyChild_iff c ts
    rw [show Tree.hasChild c (.node n ts) = Tree.anyChild c ts by rw [Tree.hasChild], h]
    constructor
    · rintro ⟨t, ht, e | hb⟩
      · exact .child ht e
      · exact .deeper ht hb
    · intro hb
      cases hb with
      | child ht e => exact ⟨_, ht, Or.inl e⟩
      | deeper ht hb => exact ⟨_, ht, Or.inr hb⟩
theorem anyChild_iff {N : Type} [DecidableEq N] (c : N) : ∀ ts : List (Tree N),
    Tree.anyChild c ts = true ↔ ∃ t ∈ ts, t.top = c ∨ Below c t
  | [] => by simp [Tree.anyChild]
  | t :: ts => by
    have h1 := hasChild_iff c t
    have h2 := anyChild_iff c ts
    rw [Tree.anyChild, Bool.or_eq_true, Bool.or_eq_true, h1, h2, beq_iff_eq]
    simp only [List.mem_cons, exists_eq_or_imp]
end

theorem below_part {N : Type} {c : N} {t : Tree N} (h : Below c t) : ∃ u, Part u t ∧ u.top = c := by
  induction h with
  | child ht e => exact ⟨_, .child ht, e⟩
  | deeper ht _ ih =>
    obtain ⟨u, hu, e⟩ := ih
    exact ⟨u, .deeper ht hu, e⟩

theorem part_below {N : Type} {u t : Tree N} (h : Part u t) : Below u.top t := by
  induction h with
  | child ht => exact .child ht rfl
  | deeper ht _ ih => exact .deeper ht ih

theorem part_trans {N : Type} {a b c : Tree N} (h : Part a b) (h' : Part b c) : Part a c := by
  induction h' with
  | child ht => exact .deeper ht h
  | deeper ht _ ih => exact .deeper ht ih

theorem chainLoop_iff {N : Type} [DecidableEq N] (t : Tree N) (r : List (Tree N)) :
    chainLoop t r = true ↔ (t :: r).IsChain (fun a b => Below b.top a) := by
  induction r generalizing t with
  | nil => simp [chainLoop]
  | cons u r ih =>
    rw [chainLoop, List.isChain_cons_cons, ← ih u]
    by_cases h : t.hasChild u.top
    · have hb := (hasChild_iff u.top t).mp h
      simp [h, hb]
    · have hb : ¬ Below u.top t := fun hb => h ((hasChild_iff u.top t).mpr hb)
      simp [h, hb]

/-- **C180.** A set of nodes is reported as a kinematic chain exactly if each node is below the one before it;
then each node is below all nodes before it. -/
theorem C180_chain {N : Type} [DecidableEq N] (t : Tree N) (r : List (Tree N))
    (hone : ∀ a ∈ t :: r, ∀ b ∈ t :: r, ∀ u, Part u a → u.top = b.top → u = b) :
    (isKinematicChain (t :: r) = .ok true ↔ (t :: r).Pairwise fun a b => Below b.top a) ∧
    ((∃ b, isKinematicChain (t :: r) = .ok b)) := by
  refine ⟨?_, ⟨_, rfl⟩⟩
  have e : isKinematicChain (t :: r) = .ok true ↔ (t :: r).IsChain (fun a b => Below b.top a) := by
    rw [← chainLoop_iff]
    show Result.ok (chainLoop t r) = .ok true ↔ _
    constructor
    · intro h; injection h
    · intro h; rw [h]
  rw [e]
  constructor
  · intro h
    obtain ⟨l, hl⟩ : ∃ l, t :: r = l := ⟨_, rfl⟩
    rw [hl] at h hone ⊢
    have hsub : ∀ a ∈ l, ∀ b ∈ l, Below b.top a → Part b a := by
      intro a ha b hb h
      obtain ⟨u, hu, e⟩ := below_part h
      rw [← hone a ha b hb u hu e]
      exact hu
    have hpart : l.Pairwise fun a b => Part b a := by
      clear e hl
      revert h hone hsub
      induction l with
      | nil => intro _ _ _; exact List.Pairwise.nil
      | cons a l ih =>
        intro hone h hsub
        have ih' := ih (fun x hx y hy => hone x (List.mem_cons_of_mem _ hx) y (List.mem_cons_of_mem _ hy)) h.tail
          (fun x hx y hy => hsub x (List.mem_cons_of_mem _ hx) y (List.mem_cons_of_mem _ hy))
        refine List.Pairwise.cons ?_ ih'
        cases l with
        | nil => intro b hb; simp at hb
        | cons b l =>
          have hab : Part b a := hsub a List.mem_cons_self b (by simp) (List.isChain_cons_cons.mp h).1
          intro x hx
          rcases List.mem_cons.mp hx with rfl | hx
          · exact hab
          · exact part_trans (List.rel_of_pairwise_cons ih' hx) hab
    exact hpart.imp fun h => part_below h
  · exact fun h => h.isChain

/-- **C180**, refuted for sets without nodes: there the vector is read outside of its bounds. -/
theorem C180_empty_false {N : Type} [DecidableEq N] :
    isKinematicChain ([] : List (Tree N)) = .outside ∧
    ∀ root tcp, getMaximumExtension root [] tcp = .outside :=
  ⟨rfl, fun _ _ => rfl⟩

/-- **C180.** A kinematic root is a node such that all nodes of the set are it or below it. -/
theorem C180_root {N : Type} [DecidableEq N] (root : Tree N) (nodes : List (Tree N)) :
    isKinematicRoot root nodes = true ↔ ∀ n ∈ nodes, n.top = root.top ∨ Below n.top root := by
  unfold isKinematicRoot
  rw [List.all_eq_true]
  refine forall₂_congr fun n _ => ?_
  rw [← hasChild_iff]
  by_cases h : n.top = root.top
  · simp [h]
  · cases hb : root.hasChild n.top <;> simp [h]

/-- A chain of three nodes for C180. -/
example : isKinematicChain [Tree.node 0 [.node 1 [.node 2 []]], .node 1 [.node 2 []], .node 2 []] = .ok true := by
  decide

/-! ## The extension of a chain -/

theorem length_eq (x y : Pose) : length x y = dist (x 0) (y 0) := by
  unfold length
  have h : dist ((x⁻¹ * y) 0) 0 = dist (y 0) (x 0) := by
    have e : x ((x⁻¹ * y) 0) = y 0 := by
      show x (x.symm (y 0)) = _
      exact x.apply_symm_apply _
    rw [← e]
    exact (x.dist_map _ _).symm
  rw [← dist_zero_right, h, dist_comm]

theorem lengths_add (x : Pose) (ys : List Pose) (acc : ℝ) : lengths x ys acc = acc + lengths x ys 0 := by
  induction ys generalizing x acc with
  | nil => simp [lengths]
  | cons y r ih =>
    rw [lengths, lengths, ih y (acc + length x y), ih y (0 + length x y)]
    ring

theorem lengths_bound (x : Pose) (ys : List Pose) :
    dist (x 0) ((x :: ys).getLast (List.cons_ne_nil _ _) 0) ≤ lengths x ys 0 := by
  induction ys generalizing x with
  | nil => simp [lengths]
  | cons y r ih =>
    rw [lengths, lengths_add, length_eq, List.getLast_cons (List.cons_ne_nil _ _), zero_add]
    exact (dist_triangle _ (y 0) _).trans (add_le_add le_rfl (ih y))

/-- **C180.** In the current configuration the extension bounds the distance between the kinematic root and the TCP,
and between the root and every node. -/
theorem C180_current (root tcp : Pose) (x : Pose) (r : List Pose) :
    ∃ e, getMaximumExtension (some root) (x :: r) (some tcp) = .ok e ∧ dist (root 0) (tcp 0) ≤ e ∧
      ∀ y ∈ x :: r, dist (root 0) (y 0) ≤ e := by
  refine ⟨_, rfl, ?_, ?_⟩
  · show _ ≤ lengths x r (0 + length root x) + length tcp _
    rw [lengths_add, length_eq, length_eq, zero_add, dist_comm (tcp 0)]
    refine (dist_triangle _ ((x :: r).getLast (List.cons_ne_nil _ _) 0) _).trans (add_le_add ?_ le_rfl)
    exact (dist_triangle _ (x 0) _).trans (add_le_add le_rfl (lengths_bound x r))
  · intro y hy
    show _ ≤ lengths x r (0 + length root x) + length tcp _
    rw [lengths_add, length_eq, zero_add]
    have key : ∀ (l : List Pose) (x : Pose), ∀ y ∈ x :: l, dist (x 0) (y 0) ≤ lengths x l 0 := by
      intro l
      induction l with
      | nil =>
        intro x y hy
        rw [List.mem_singleton] at hy
        subst hy
        simp [lengths]
      | cons z l ih =>
        intro x y hy
        rw [lengths, lengths_add, length_eq, zero_add]
        rcases List.mem_cons.mp hy with rfl | hy
        · rw [dist_self]
          exact add_nonneg dist_nonneg (dist_nonneg.trans (ih z z List.mem_cons_self))
        · exact (dist_triangle _ (z 0) _).trans (add_le_add le_rfl (ih z y hy))
    have h1 := key r x y hy
    have h2 : 0 ≤ length tcp ((x :: r).getLast (List.cons_ne_nil _ _)) := norm_nonneg _
    have := dist_triangle (root 0) (x 0) (y 0)
    linarith

theorem fixed_length (x : Pose) (l : Link) (q : ℝ) (h : l.motion q 0 = 0) :
    length x (x * l.fixed * l.motion q) = ‖l.fixed 0‖ := by
  have e : (x * l.fixed * l.motion q) 0 = x (l.fixed 0) := by
    show x (l.fixed (l.motion q 0)) = _
    rw [h]
  rw [length_eq, e, x.dist_map, dist_comm, dist_zero_right]

theorem chain_lengths (ls : List Link) (h : ∀ l ∈ ls, ∀ q, l.motion q 0 = 0) (x : Pose) (qs : List ℝ)
    (hq : qs.length = ls.length) :
    lengths x (poses x (ls.zip qs)) 0 = (ls.map fun l => ‖l.fixed 0‖).sum := by
  induction ls generalizing x qs with
  | nil => simp [poses, lengths]
  | cons l ls ih =>
    cases qs with
    | nil => simp at hq
    | cons q qs =>
      rw [List.zip_cons_cons, poses, lengths, lengths_add, fixed_length x l q (h l List.mem_cons_self q),
        ih (fun l hl => h l (List.mem_cons_of_mem _ hl)) _ qs (by simpa using hq)]
      simp

/-- The poses of the nodes, of a chain with at least one joint that starts at the kinematic root. -/
theorem poses_ne {x : Pose} {l : Link} {q : ℝ} {r : List (Link × ℝ)} : poses x ((l, q) :: r) ≠ [] := by
  rw [poses]
  exact List.cons_ne_nil _ _

/-- **C180.** For chains of rotational joints the extension, computed in any configuration, bounds the distance
between the kinematic root and the TCP in every configuration. (`motion q 0 = 0`: the joint does not move the
origin of its node. The root may itself move.) -/
theorem C180_reach (l : Link) (ls : List Link) (h : ∀ k ∈ l :: ls, ∀ q, k.motion q 0 = 0) (toTcp : Pose)
    (root root' : Pose) (q q' : ℝ) (qs qs' : List ℝ) (hq : qs.length = ls.length) (hq' : qs'.length = ls.length) :
    let ns := poses root ((l, q) :: ls.zip qs)
    let ns' := poses root' ((l, q') :: ls.zip qs')
    let tcp := ns.getLast poses_ne * toTcp
    let tcp' := ns'.getLast poses_ne * toTcp
    ∃ e, getMaximumExtension (some root) ns (some tcp) = .ok e ∧
      getMaximumExtension (some root') ns' (some tcp') = .ok e ∧ dist (root' 0) (tcp' 0) ≤ e := by
  have value : ∀ (root : Pose) (q : ℝ) (qs : List ℝ), qs.length = ls.length →
      getMaximumExtension (some root) (poses root ((l, q) :: ls.zip qs))
        (some ((poses root ((l, q) :: ls.zip qs)).getLast poses_ne * toTcp)) =
        .ok (((l :: ls).map fun l => ‖l.fixed 0‖).sum + ‖toTcp 0‖) := by
    intro root q qs hq
    have hc := chain_lengths (l :: ls) h root (q :: qs) (by simpa using hq)
    rw [List.zip_cons_cons] at hc
    rw [← hc]
    have ht : ∀ x : Pose, length (x * toTcp) x = ‖toTcp 0‖ := by
      intro x
      rw [length_eq]
      have e : (x * toTcp) 0 = x (toTcp 0) := rfl
      rw [e, x.dist_map, dist_zero_right]
    obtain ⟨y, hy⟩ : ∃ y, (poses root ((l, q) :: ls.zip qs)).getLast poses_ne = y := ⟨_, rfl⟩
    have hl : (root * l.fixed * l.motion q :: poses (root * l.fixed * l.motion q) (ls.zip qs)).getLast
        (List.cons_ne_nil _ _) = y := hy
    rw [hy]
    show Result.ok (lengths (root * l.fixed * l.motion q) (poses (root * l.fixed * l.motion q) (ls.zip qs))
      (0 + length root (root * l.fixed * l.motion q)) + length (y * toTcp)
        ((root * l.fixed * l.motion q :: poses (root * l.fixed * l.motion q) (ls.zip qs)).getLast
          (List.cons_ne_nil _ _))) = _
    rw [hl, ht]
    rfl
  intro ns ns' tcp tcp'
  refine ⟨_, value root q qs hq, value root' q' qs' hq', ?_⟩
  obtain ⟨e, he, hd, -⟩ := C180_current root' tcp' (root' * l.fixed * l.motion q')
    (poses (root' * l.fixed * l.motion q') (ls.zip qs'))
  have hv : getMaximumExtension (some root') ns' (some tcp') = .ok e := he
  rw [value root' q' qs' hq'] at hv
  injection hv with hv
  rw [hv]
  exact hd

/-- The translation along the first axis. -/
noncomputable def slide (q : ℝ) : Pose := AffineIsometryEquiv.vaddConst ℝ (EuclideanSpace.single (0 : Fin 3) q)

theorem slide_zero (q : ℝ) : slide q 0 = EuclideanSpace.single (0 : Fin 3) q := by
  show (0 : E) + _ = _
  exact zero_add _

/-- **C180**, refuted for chains with a translational joint: in one configuration the extension is 0, in another
one the TCP is one unit away. -/
theorem C180_prismatic_false :
    ∃ (l : Link) (q q' : ℝ), getMaximumExtension (some 1) (poses 1 [(l, q)]) (some ((poses 1 [(l, q)]).getLast poses_ne)) =
      .ok 0 ∧ dist ((1 : Pose) 0) ((poses 1 [(l, q')]).getLast poses_ne 0) = 1 := by
  refine ⟨⟨1, slide⟩, 0, 1, ?_, ?_⟩
  · have e : (1 * 1 * slide 0 : Pose) 0 = 0 := by
      show slide 0 0 = 0
      rw [slide_zero]
      simp
    show Result.ok (lengths _ [] (0 + length 1 (1 * 1 * slide 0)) + length (1 * 1 * slide 0) (1 * 1 * slide 0)) = _
    rw [lengths, length_eq, length_eq, dist_self, e]
    congr 1
    show 0 + dist (0 : E) 0 + 0 = 0
    simp
  · show dist (0 : E) (slide 1 0) = 1
    rw [slide_zero, dist_comm, dist_zero_right]
    simp

/-! ## Centres of mass -/

theorem mass_eq (bs : List Body) (a : ℝ) : bs.foldl (fun acc b => acc + b.mass) a = a + (bs.map Body.mass).sum := by
  induction bs generalizing a with
  | nil => simp
  | cons b r ih => rw [List.foldl_cons, ih, List.map_cons, List.sum_cons, add_assoc]

theorem com_eq (m : ℝ) (bs : List Body) (a : E) :
    bs.foldl (fun acc b => acc + (1 / m) • b.mass • b.com) a = a + (1 / m) • (bs.map fun b => b.mass • b.com).sum := by
  induction bs generalizing a with
  | nil => simp
  | cons b r ih => rw [List.foldl_cons, ih, List.map_cons, List.sum_cons, smul_add, add_assoc]

theorem getMass_eq (bs : List Body) : getMass bs = (bs.map Body.mass).sum := by
  unfold getMass
  rw [mass_eq, zero_add]

theorem getCoM_pos (bs : List Body) (h : 0 < getMass bs) :
    getCoM bs = (1 / getMass bs) • (bs.map fun b => b.mass • b.com).sum := by
  unfold getCoM
  rw [if_neg (not_le.mpr h), com_eq, zero_add]

/-- **C181.** The masses add up, and mass times centre of mass is the sum over the bodies. The centre does not
depend on the order of the bodies, and the centre of two groups is that of their centres. -/
theorem C181_mean (bs cs : List Body) (hb : 0 < getMass bs) :
    getMass (bs ++ cs) = getMass bs + getMass cs ∧
    getMass bs • getCoM bs = (bs.map fun b => b.mass • b.com).sum ∧
    (∀ ds, bs.Perm ds → getMass ds = getMass bs ∧ getCoM ds = getCoM bs) ∧
    (0 < getMass cs → getCoM (bs ++ cs) = getCoM [⟨getMass bs, getCoM bs⟩, ⟨getMass cs, getCoM cs⟩]) := by
  have hmul : ∀ bs : List Body, 0 < getMass bs → getMass bs • getCoM bs = (bs.map fun b => b.mass • b.com).sum := by
    intro bs hb
    rw [getCoM_pos bs hb, smul_smul, mul_one_div_cancel hb.ne', one_smul]
  have hadd : getMass (bs ++ cs) = getMass bs + getMass cs := by
    rw [getMass_eq, getMass_eq, getMass_eq, List.map_append, List.sum_append]
  refine ⟨hadd, hmul bs hb, fun ds h => ?_, fun hc => ?_⟩
  · have hm : getMass ds = getMass bs := by
      rw [getMass_eq, getMass_eq]
      exact (h.map _).sum_eq.symm
    refine ⟨hm, ?_⟩
    rw [getCoM_pos bs hb, getCoM_pos ds (hm ▸ hb), hm]
    congr 1
    exact (h.map _).sum_eq.symm
  · have h2 : getMass [⟨getMass bs, getCoM bs⟩, ⟨getMass cs, getCoM cs⟩] = getMass bs + getMass cs := by
      rw [getMass_eq]
      simp
    rw [getCoM_pos _ (by rw [hadd]; linarith), getCoM_pos _ (by rw [h2]; linarith), hadd, h2, List.map_append,
      List.sum_append, ← hmul bs hb, ← hmul cs hc]
    simp

/-- **C181.** The centre of mass lies in the convex hull of the centres of the bodies. -/
theorem C181_hull (bs : List Body) (h0 : ∀ b ∈ bs, 0 ≤ b.mass) (hb : 0 < getMass bs) :
    getCoM bs ∈ convexHull ℝ {p | ∃ b ∈ bs, p = b.com} := by
  obtain ⟨S, hS⟩ : ∃ S, S = convexHull ℝ {p | ∃ b ∈ bs, p = b.com} := ⟨_, rfl⟩
  rw [← hS]
  have hc : Convex ℝ S := hS ▸ convex_convexHull ℝ _
  have hin : ∀ b ∈ bs, b.com ∈ S := fun b hb => hS ▸ subset_convexHull ℝ _ ⟨b, hb, rfl⟩
  have key : ∀ bs : List Body, (∀ b ∈ bs, 0 ≤ b.mass) → (∀ b ∈ bs, b.com ∈ S) → 0 < getMass bs → getCoM bs ∈ S := by
    intro bs
    induction bs with
    | nil => intro _ _ h; exact absurd h (by simp [getMass])
    | cons b r ih =>
      intro h0 hin h
      have hm0 : 0 ≤ b.mass := h0 b List.mem_cons_self
      have hr0 : 0 ≤ getMass r := by
        rw [getMass_eq]
        exact List.sum_nonneg fun x hx => by
          obtain ⟨c, hc, rfl⟩ := List.mem_map.mp hx
          exact h0 c (List.mem_cons_of_mem _ hc)
      have hm : getMass (b :: r) = b.mass + getMass r := by
        rw [getMass_eq, getMass_eq, List.map_cons, List.sum_cons]
      rw [getCoM_pos _ h, List.map_cons, List.sum_cons]
      rcases hr0.lt_or_eq with hr | hr
      · have hrc := ih (fun c hc => h0 c (List.mem_cons_of_mem _ hc)) (fun c hc => hin c (List.mem_cons_of_mem _ hc)) hr
        rw [← (C181_mean r [] hr).2.1, smul_add, smul_smul, smul_smul]
        refine hc (hin b List.mem_cons_self) hrc (by positivity) (by positivity) ?_
        rw [← mul_add, ← hm, one_div_mul_cancel h.ne']
      · have hz : ∀ c ∈ r, c.mass = 0 := by
          intro c hc
          have : c.mass ≤ (r.map Body.mass).sum :=
            List.single_le_sum (fun x hx => by
              obtain ⟨d, hd, rfl⟩ := List.mem_map.mp hx
              exact h0 d (List.mem_cons_of_mem _ hd)) _ (List.mem_map.mpr ⟨c, hc, rfl⟩)
          rw [← getMass_eq, ← hr] at this
          exact le_antisymm this (h0 c (List.mem_cons_of_mem _ hc))
        have hs : (r.map fun b => b.mass • b.com).sum = 0 := by
          have : (r.map fun b => b.mass • b.com) = r.map fun _ => (0 : E) :=
            List.map_congr_left fun c hc => by rw [hz c hc, zero_smul]
          rw [this]
          simp
        rw [hs, add_zero, smul_smul, hm, ← hr, add_zero]
        rw [hm, ← hr, add_zero] at h
        rw [one_div_mul_cancel h.ne', one_smul]
        exact hin b List.mem_cons_self
  exact key bs h0 hin hb

/-- The bodies after a rigid motion. -/
noncomputable def moved (g : Pose) (bs : List Body) : List Body := bs.map fun b => ⟨b.mass, g b.com⟩

/-- **C181.** With a positive mass the centre of mass moves with the robot; so the local one does not change
when the robot is placed elsewhere. -/
theorem C181_moves (g : Pose) (bs : List Body) (hb : 0 < getMass bs) (robot : Pose) :
    getMass (moved g bs) = getMass bs ∧ getCoM (moved g bs) = g (getCoM bs) ∧
    getCoMLocal (g * robot) (moved g bs) = getCoMLocal robot bs := by
  have hm : getMass (moved g bs) = getMass bs := by
    rw [getMass_eq, getMass_eq]
    unfold moved
    rw [List.map_map]
    rfl
  have hlin : ∀ x : E, g x = g.linearIsometryEquiv x + g 0 := by
    intro x
    have := g.map_vadd 0 x
    simpa using this
  have hsum : ((moved g bs).map fun b => b.mass • b.com).sum =
      g.linearIsometryEquiv (bs.map fun b => b.mass • b.com).sum + getMass bs • g 0 := by
    rw [getMass_eq]
    unfold moved
    rw [List.map_map]
    clear hm hb
    induction bs with
    | nil => simp
    | cons b r ih =>
      rw [List.map_cons, List.sum_cons, ih, List.map_cons, List.sum_cons, List.map_cons, List.sum_cons, map_add, add_smul,
        map_smul]
      show b.mass • g b.com + _ = _
      rw [hlin b.com, smul_add]
      abel
  have hcom : getCoM (moved g bs) = g (getCoM bs) := by
    rw [getCoM_pos _ (hm ▸ hb), hm, hsum, getCoM_pos bs hb, hlin ((1 / getMass bs) • _), smul_add, smul_smul,
      one_div_mul_cancel hb.ne', one_smul, map_smul]
  refine ⟨hm, hcom, ?_⟩
  unfold getCoMLocal
  rw [hcom, mul_inv_rev]
  show robot⁻¹ (g⁻¹ (g (getCoM bs))) = _
  congr 1
  exact g.symm_apply_apply _

/-- **C181**, refuted without mass: the centre is then the origin of the world, wherever the robot is. -/
theorem C181_massless_false (g : Pose) (bs : List Body) (h : ∀ b ∈ bs, b.mass = 0) :
    getCoM (moved g bs) = 0 ∧ getCoM bs = 0 := by
  have key : ∀ bs : List Body, (∀ b ∈ bs, b.mass = 0) → getCoM bs = 0 := by
    intro bs h
    unfold getCoM
    rw [if_pos]
    rw [getMass_eq]
    have : bs.map Body.mass = bs.map fun _ => (0 : ℝ) := List.map_congr_left h
    rw [this]
    simp
  refine ⟨key _ ?_, key bs h⟩
  intro b hb
  obtain ⟨c, hc, rfl⟩ := List.mem_map.mp hb
  exact h c hc

/-- Two bodies for C181. -/
example : 0 < getMass [⟨1, 0⟩, ⟨2, EuclideanSpace.single 0 1⟩] ∧
    ∀ b ∈ [(⟨1, 0⟩ : Body), ⟨2, EuclideanSpace.single 0 1⟩], 0 ≤ b.mass := by
  constructor
  · rw [getMass_eq]; norm_num
  · intro b hb
    simp at hb
    rcases hb with rfl | rfl <;> norm_num

end Simox.Lnk
