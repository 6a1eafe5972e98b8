import Verif.Rfc.CopyLemmas
import Verif.Rfc.RerootProps
import Verif.Kin.Model
import Mathlib.Analysis.Complex.Basic
import Mathlib.Data.Complex.Basic

/-!
# C141: the copy of a chain of joints

`cloneSubSet` gives a robot with the nodes of a chain; everything else is united with them. It should move as the chain of the robot does.
-/

namespace Simox.Rfc

section
variable {G V P B : Type} [Group G] [Neg V]

/-- `g'` are the poses of the nodes of a chain with the fixed transformations `l`, for the base pose `base` and the joint values `q`. -/
def ChainPoses (m : Motion G V) (r : Robot G V P B) (q : ℕ → ℝ) (g' : ℕ → G) : G → List (ℕ × G) → Prop
  | _, [] => True
  | f, (n, t) :: l => g' n = f * t * m.at r q n ∧ ChainPoses m r q g' (g' n) l

omit [Group G] [Neg V] in
theorem cloneNode_loc {z : V} {n : Node G V P B} (h : DhOk z n) : (cloneNode (Scale.one G P B) z n).loc = n.loc := by
  rcases hd : n.dh with _ | d
  · simp [cloneNode, Scale.one, hd]
  · simp [cloneNode, Scale.one, hd, (h d hd).1]

/-- For a robot at the origin, the copy moves as the chain does for all values of its joints: `g0` are the poses when the copy is made, `g` the poses with the
joint values `q`, where the part in front of the chain is where it was, and every node between two nodes of the chain is fixed to the first of them. The full
statement has any base pose and any frames between the nodes of the chain; here the frame in front of a node commutes with the frame of the node of the chain
before it, which is so if it is that node. -/
theorem C141_partial {r : Robot G V P B} (ht : IsTree r) {z : V} (m : Motion G V) (n0 : ℕ) (nodes : List ℕ) (hdh : ∀ n ∈ n0 :: nodes, DhOk z (r.node n)) (hn0 : n0 ∈ r.ids)
    (hdesc : (n0 :: nodes).IsChain fun a b => a ≠ b ∧ Below r b a)
    {q : ℕ → ℝ} {g0 g g' : ℕ → G} (hg : Poses m r 1 q g)
    (hfront : ∀ p, r.parent n0 = some p → g p = g0 p)
    (hfix : (n0 :: nodes).IsChain fun a b => ∀ p, r.parent b = some p → (g a)⁻¹ * g p = (g0 a)⁻¹ * g0 p)
    (hcomm : (n0 :: nodes).IsChain fun a b => ∀ p, r.parent b = some p → Commute (g0 a) (g0 p))
    (hg' : ChainPoses m r q g' 1 (cloneSubSet z r g0 (n0 :: nodes))) : ∀ n ∈ n0 :: nodes, g' n = g n := by
  have key : ∀ (l : List ℕ) (n : ℕ) (f t : G), (∀ x ∈ n :: l, DhOk z (r.node x)) → ((n :: l).IsChain fun a b => a ≠ b ∧ Below r b a) →
      ((n :: l).IsChain fun a b => ∀ p, r.parent b = some p → (g a)⁻¹ * g p = (g0 a)⁻¹ * g0 p) →
      ((n :: l).IsChain fun a b => ∀ p, r.parent b = some p → Commute (g0 a) (g0 p)) → f * t * (r.node n).loc * m.at r q n = g n →
      ChainPoses m r q g' f (chainLocs z r g0 t (n :: l)) → ∀ x ∈ n :: l, g' x = g x := by
    intro l
    induction l with
    | nil =>
      intro n f t h1 _ _ _ h2 h3 x hx
      rw [List.mem_singleton.1 hx]
      rw [chainLocs, cloneNode_loc (h1 n (by simp))] at h3
      rw [h3.1, ← h2]
      simp only [mul_assoc]
    | cons b l ih =>
      intro n f t h1 hd hf hc h2 h3
      rw [chainLocs, cloneNode_loc (h1 n (by simp))] at h3
      rw [List.isChain_cons_cons] at hd hf hc
      have hgn : g' n = g n := by
        rw [h3.1, ← h2]
        simp only [mul_assoc]
      obtain ⟨p, hp, hbp⟩ : ∃ p, r.parent b = some p ∧ Below r p n := by
        rcases below_cases hd.1.2 with h | h
        · exact absurd h.symm hd.1.1
        · exact h
      have hbet : g n * between r g0 n b = g p := by
        unfold between
        split_ifs with hu
        · rw [hp]
          simp only
          rw [← (hc.1 p hp).symm.inv_right.symm.eq, ← hf.1 p hp]
          group
        · have hpn : p = n := by
            by_contra hne
            obtain ⟨c, hc1, hc2⟩ := below_last hbp hne
            apply hu
            unfold unites
            rw [List.any_eq_true]
            refine ⟨c, (ht.children_iff n c).2 hc1, ?_⟩
            rw [decide_eq_true_eq]
            intro h
            cases h
            exact not_below_parent ht hp hc2
          rw [hpn, mul_one]
      have h4 := ih b (g' n) (between r g0 n b) (fun x hx => h1 x (List.mem_cons_of_mem _ hx)) hd.2 hf.2 hc.2 (by rw [hgn, hbet, hg.2 b p hp]) h3.2
      intro x hx
      rcases List.mem_cons.1 hx with rfl | hx
      · exact hgn
      · exact h4 x hx
  refine key nodes n0 1 _ hdh hdesc hfix hcomm ?_ hg'
  rw [one_mul]
  rcases hp : r.parent n0 with _ | p
  · simp only
    rw [ht.only_root n0 hn0 hp, hg.1]
  · simp only
    rw [← hfront p hp, hg.2 n0 p hp]

end

/-- The hypotheses of `C141_partial` hold for the slide and its tool. -/
example : ((1 : ℕ) :: [2]).IsChain (fun a b => a ≠ b ∧ Below slideRobot b a) ∧ Poses lineMotion slideRobot 1 (fun _ => 1) (fun n => Multiplicative.ofAdd (if n = 0 then 5 else if n = 1 then 11 else 16)) := by
  refine ⟨?_, ?_, ?_⟩
  · rw [List.isChain_cons_cons]
    exact ⟨⟨by decide, (slide_below 1).2 (by simp)⟩, by simp⟩
  · apply Multiplicative.toAdd.injective
    simp [slideRobot, Motion.at, lineMotion]
  · intro c p h
    apply Multiplicative.toAdd.injective
    simp only [slideRobot] at h ⊢
    split_ifs at h <;> cases h <;> subst_vars <;> simp [Motion.at, lineMotion] <;> norm_num

/-- The pose of the robot is applied twice: the slide of a robot at 7 is at 17, the copied slide of the copied robot, which is put to 7 as well, at 24. -/
theorem C141_base_false : ∃ (r : Robot (Multiplicative ℝ) ℝ ℝ String) (g g' : ℕ → Multiplicative ℝ), IsTree r ∧ Poses lineMotion r (Multiplicative.ofAdd 7) (fun _ => 0) g ∧
    ChainPoses lineMotion r (fun _ => 0) g' (Multiplicative.ofAdd 7) (cloneSubSet 1 r g [1]) ∧ g 1 = Multiplicative.ofAdd 17 ∧ g' 1 = Multiplicative.ofAdd 24 := by
  refine ⟨slideRobot, fun n => Multiplicative.ofAdd (if n = 0 then 12 else if n = 1 then 17 else 22), fun _ => Multiplicative.ofAdd 24, slide_tree, ⟨?_, ?_⟩, ⟨?_, trivial⟩, ?_, rfl⟩
  · apply Multiplicative.toAdd.injective
    simp [slideRobot, Motion.at, lineMotion]
    norm_num
  · intro c p h
    apply Multiplicative.toAdd.injective
    simp only [slideRobot] at h ⊢
    split_ifs at h <;> cases h <;> subst_vars <;> simp [Motion.at, lineMotion] <;> norm_num
  · apply Multiplicative.toAdd.injective
    simp [slideRobot, Motion.at, lineMotion, cloneNode, Scale.one]
    norm_num
  · simp

/-- Rigid motions of the plane. -/
abbrev Plane := Kin.Pose ℂˣ ℂ

/-- No joint moves. -/
def still : Motion Plane ℝ := ⟨fun _ _ _ => 1, fun _ _ => rfl, fun _ _ _ => by simp⟩

/-- A root that is turned by a right angle, a link of length 1 and a tool. -/
noncomputable def turnedRobot : Robot Plane ℝ Unit String where
  ids := [0, 1, 2]
  root := 0
  parent n := if n = 1 then some 0 else if n = 2 then some 1 else none
  children n := if n = 0 then [1] else if n = 1 then [2] else []
  node n := ⟨.fixed, if n = 0 then ⟨Units.mk0 Complex.I Complex.I_ne_zero, 0⟩ else if n = 1 then ⟨1, 1⟩ else 1, none, 1, 0, none, ⟨1, ()⟩⟩

theorem turned_tree : IsTree turnedRobot where
  nodup := by simp [turnedRobot]
  root_mem := by simp [turnedRobot]
  root_parent := by simp [turnedRobot]
  only_root := by simp [turnedRobot]
  parent_mem := by
    intro c p h
    simp only [turnedRobot] at h ⊢
    split_ifs at h <;> simp_all
  children_iff := by
    intro p c
    simp only [turnedRobot]
    split_ifs <;> simp_all <;> omega
  children_nodup := by
    intro p
    simp only [turnedRobot]
    split_ifs <;> decide
  acyclic := by
    refine ⟨fun n => n, ?_⟩
    intro c p h
    simp only [turnedRobot] at h
    split_ifs at h <;> cases h <;> simp_all

/-- The transformation of the nodes between two nodes of a chain is in the wrong order: for a robot at the origin with a chain of the root and the tool, where no
joint moves, the tool of the copy is not where the tool is. -/
theorem C141_between_false : ∃ (r : Robot Plane ℝ Unit String) (g g' : ℕ → Plane), IsTree r ∧ Poses still r 1 (fun _ => 0) g ∧ ChainPoses still r (fun _ => 0) g' 1 (cloneSubSet 1 r g [0, 2]) ∧
    g' 0 = g 0 ∧ (g 2).pos = Complex.I ∧ (g' 2).pos = -1 := by
  let i : ℂˣ := Units.mk0 Complex.I Complex.I_ne_zero
  refine ⟨turnedRobot, fun n => if n = 0 then ⟨i, 0⟩ else ⟨i, Complex.I⟩, fun n => if n = 0 then ⟨i, 0⟩ else ⟨i, -1⟩, turned_tree, ⟨?_, ?_⟩, ⟨?_, ?_, trivial⟩, ?_, ?_, ?_⟩
  · simp [turnedRobot, still, Motion.at, i]
  · intro c p h
    simp only [turnedRobot] at h ⊢
    split_ifs at h <;> cases h <;> subst_vars <;> simp [Motion.at, still, Kin.mul_def, i, Units.smul_def]
  · simp [turnedRobot, still, Motion.at, i, cloneNode, Scale.one]
  · simp [turnedRobot, still, Motion.at, i, cloneNode, Scale.one, between, unites, Kin.mul_def, Kin.inv_def, Units.smul_def]
  · rfl
  · rfl
  · rfl

end Simox.Rfc
