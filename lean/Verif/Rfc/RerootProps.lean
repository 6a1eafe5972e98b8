import Verif.Rfc.InvLemmas
import Mathlib.Algebra.BigOperators.Group.List.Basic
import Mathlib.Algebra.Group.Action.TypeTags
import Mathlib.Algebra.BigOperators.Group.Finset.Basic
import Mathlib.Tactic.Group
import Mathlib.Tactic.NormNum
import Mathlib.Tactic.Linarith

/-!
# C139: a robot with another root

`cloneInversed` gives the same robot, seen from another node: the same nodes and edges, with the new node as the root. Where the frames and the bodies are for
given joint values, up to a motion of the whole robot: as before, if joints on the way from the old to the new root at which other parts branch off are at rest.
Otherwise the parts that branch off move with the wrong body (`C139_branch_false`). The shape of the new root is lost (`C139_shape_false`) and so is its mass
(`C139_mass_false`).
-/

namespace Simox.Rfc

variable {G V P B : Type} [Group G] [MulAction G P] [Zero P] [Neg V]

/-- The new robot exists, is a tree with the new root and the same nodes, and has the same edges: they point towards the new root. -/
theorem C139_structure {r : Robot G V P B} (ht : IsTree r) {z : V} (hdh : ∀ n ∈ r.ids, DhOk z (r.node n)) {x fuel : ℕ} (hx : x ∈ r.ids) (hf : r.ids.length ≤ fuel) :
    ∃ r', cloneInversed z r fuel x = some r' ∧ IsTree r' ∧ r'.root = x ∧ (∀ n, n ∈ r'.ids ↔ n ∈ r.ids) ∧
      (∀ n p, r.parent n = some p → Below r x n → r'.parent p = some n) ∧ (∀ n p, r.parent n = some p → ¬ Below r x n → r'.parent n = some p) ∧
      ∀ n p, r'.parent n = some p → r.parent n = some p ∨ r.parent p = some n := by
  obtain ⟨r', h, hr⟩ := rerooted ht hdh hx hf
  refine ⟨r', h, ?_, hr.root, hr.mem, ?_, ?_, ?_⟩
  · refine ⟨hr.nodup, ?_, ?_, ?_, ?_, ?_, hr.chn, ?_⟩
    · rw [hr.root, hr.mem]
      exact hx
    · rw [hr.root]
      rcases hp : r'.parent x with _ | p
      · rfl
      · exact absurd ((hr.par _ _).1 hp) (tow_self ht)
    · intro n hn hp
      rw [hr.root]
      by_contra hne
      obtain ⟨p, _, h'⟩ := tow_exists ht ((hr.mem n).1 hn) hx hne
      rw [(hr.par _ _).2 h'] at hp
      exact absurd hp (by simp)
    · intro c p hp
      rw [hr.mem, hr.mem]
      rcases (hr.par _ _).1 hp with h' | h'
      · exact (ht.parent_mem _ _ h'.1).symm
      · exact ht.parent_mem _ _ h'.1
    · intro p c
      rw [hr.chi, hr.par]
    · obtain ⟨rank, hrk⟩ := rerooted_rank ht (x := x)
      exact ⟨rank, fun c p hp => hrk c p ((hr.par _ _).1 hp)⟩
  · intro n p hp hb
    exact (hr.par _ _).2 (.inl ⟨hp, hb⟩)
  · intro n p hp hb
    exact (hr.par _ _).2 (.inr ⟨hp, hb⟩)
  · intro n p hp
    rcases (hr.par _ _).1 hp with h' | h'
    · exact .inr h'.1
    · exact .inl h'.1

/-- There is no answer for a node that is not part of the robot. -/
theorem C139_unknown (r : Robot G V P B) (z : V) {x : ℕ} (fuel : ℕ) (hx : x ∉ r.ids) : cloneInversed z r fuel x = none := if_neg hx

/-- For the same joint values, if the joints on the way to the new root at which other parts branch off are at rest: up to one motion `X` of the whole robot, all
other nodes are where they were, the nodes on the way are where they were before the motion of their joint, and the shapes and centres of mass of all nodes but the
new root are where they were. -/
theorem C139_links_partial {r : Robot G V P B} (ht : IsTree r) {z : V} (hdh : ∀ n ∈ r.ids, DhOk z (r.node n)) {x fuel : ℕ} (hf : r.ids.length ≤ fuel) {r' : Robot G V P B}
    (hr' : cloneInversed z r fuel x = some r') (m : Motion G V) (q : ℕ → ℝ) {base base' : G} {g g' : ℕ → G} (hg : Poses m r base q g) (hg' : Poses m r' base' q g')
    (hrest : ∀ c p, r.parent c = some p → Below r x p → ¬ Below r x c → m.at r q p = 1) :
    ∃ X : G, (∀ n ∈ r.ids, ¬ Below r x n → g' n = X * g n) ∧ (∀ n ∈ r.ids, Below r x n → g' n * m.at r q n = X * g n) ∧
      (∀ b y, Shown r' g' b (X * y) ↔ ∃ n ∈ r.ids, n ≠ x ∧ ∃ d, (r.node n).model = some (b, d) ∧ y = g n * d) ∧
      ∀ n ∈ r.ids, n ≠ x → ∃ n' ∈ r'.ids, (r'.node n').phys.mass = (r.node n).phys.mass ∧ g' n' • (r'.node n').phys.com = X • g n • (r.node n).phys.com := by
  have hx : x ∈ r.ids := by
    by_contra h
    rw [C139_unknown r z fuel h] at hr'
    exact absurd hr' (by simp)
  obtain ⟨r'', h, hr⟩ := rerooted ht hdh hx hf
  rw [hr'] at h
  cases h
  have hat : ∀ n ∈ r.ids, (r'.node n).axis = (r.node n).axis → m.at r' q n = m.at r q n := by
    intro n hn ha
    obtain ⟨h1, h2, _⟩ := hr.same n hn
    unfold Motion.at
    rw [h1, h2, ha]
  have hatneg : ∀ n ∈ r.ids, (r'.node n).axis = -(r.node n).axis → m.at r' q n = (m.at r q n)⁻¹ := by
    intro n hn ha
    obtain ⟨h1, h2, _⟩ := hr.same n hn
    unfold Motion.at
    rw [h1, h2, ha, m.neg]
  obtain ⟨X, hX⟩ : ∃ X : G, X = g' x * m.at r q x * (g x)⁻¹ := ⟨_, rfl⟩
  have hup : ∀ n, Below r x n → g' n * m.at r q n = X * g n := by
    intro n hb
    induction hb with
    | refl =>
      rw [hX]
      group
    | @tail n p hb hp ih =>
      obtain ⟨hn, hpm⟩ := ht.parent_mem _ _ hp
      have h1 := hg'.2 p n ((hr.par _ _).2 (.inl ⟨hp, hb⟩))
      obtain ⟨h2, h3⟩ := hr.up n p hp hb
      rw [h2, hatneg p hpm h3] at h1
      have h4 := hg.2 n p hp
      rw [h4, ← mul_assoc, mul_left_inj, ← mul_assoc] at ih
      rw [h1, inv_mul_cancel_right, mul_inv_eq_iff_eq_mul]
      exact ih
  obtain ⟨rank, hrk⟩ := ht.acyclic
  have hdown : ∀ k n, n ∈ r.ids → rank n ≤ k → ¬ Below r x n → g' n = X * g n := by
    intro k
    induction k with
    | zero =>
      intro n hn hk hb
      rcases hp : r.parent n with _ | p
      · rw [ht.only_root n hn hp] at hb
        exact absurd (below_root ht hx) hb
      · have := hrk _ _ hp
        omega
    | succ k ih =>
      intro n hn hk hb
      rcases hp : r.parent n with _ | p
      · rw [ht.only_root n hn hp] at hb
        exact absurd (below_root ht hx) hb
      · have h0 := hrk _ _ hp
        have hpm := (ht.parent_mem _ _ hp).2
        have h1 := hg'.2 n p ((hr.par _ _).2 (.inr ⟨hp, hb⟩))
        rw [hr.off n hn hb, hat n hn (by rw [hr.off n hn hb])] at h1
        rw [h1, hg.2 n p hp]
        by_cases hbp : Below r x p
        · have h2 := hup p hbp
          rw [hrest n p hp hbp hb, mul_one] at h2
          rw [h2]
          simp only [mul_assoc]
        · rw [ih p hpm (by omega) hbp]
          simp only [mul_assoc]
  have hdown : ∀ n ∈ r.ids, ¬ Below r x n → g' n = X * g n := fun n hn hb => hdown _ n hn le_rfl hb
  /- the node that carries the body of the parent of `n` -/
  have hcarry : ∀ n p, r.parent n = some p → Below r x n → g' n * (r.node n).loc⁻¹ = X * g p := by
    intro n p hp hb
    have h1 := hup n hb
    rw [hg.2 n p hp, ← mul_assoc, mul_left_inj, ← mul_assoc] at h1
    rw [h1]
    group
  refine ⟨X, hdown, fun n _ hb => hup n hb, ?_, ?_⟩
  · intro b y
    constructor
    · rintro ⟨n, hn, d, hd, hy⟩
      rw [hr.mem] at hn
      by_cases hb : Below r x n
      · rcases hp : r.parent n with _ | p
        · rw [ht.only_root n hn hp, hr.last.1] at hd
          exact absurd hd (by simp)
        · rw [(hr.body n p hp hb).1] at hd
          obtain ⟨⟨b', d'⟩, h1, h2⟩ := Option.map_eq_some_iff.1 hd
          cases h2
          refine ⟨p, (ht.parent_mem _ _ hp).2, ?_, d', h1, ?_⟩
          · rintro rfl
            exact not_below_parent ht hp hb
          · rw [← mul_assoc, hcarry n p hp hb, mul_assoc X] at hy
            exact mul_left_cancel hy
      · rw [hr.off n hn hb] at hd
        refine ⟨n, hn, ?_, d, hd, ?_⟩
        · rintro rfl
          exact hb (below_refl r n)
        · rw [hdown n hn hb, mul_assoc X] at hy
          exact mul_left_cancel hy
    · rintro ⟨n, hn, hnx, d, hd, rfl⟩
      by_cases hb : Below r x n
      · obtain ⟨c, hc, hcn⟩ := tow_exists ht hn hx hnx
        have hcn : r.parent c = some n ∧ Below r x c := by
          rcases hcn with h | h
          · exact h
          · exact absurd hb h.2
        refine ⟨c, (hr.mem c).2 hc, (r.node c).loc⁻¹ * d, ?_, ?_⟩
        · rw [(hr.body c n hcn.1 hcn.2).1, hd]
          rfl
        · rw [← mul_assoc, ← mul_assoc, hcarry c n hcn.1 hcn.2]
      · refine ⟨n, (hr.mem n).2 hn, d, ?_, ?_⟩
        · rw [hr.off n hn hb, hd]
        · rw [hdown n hn hb, mul_assoc X]
  · intro n hn hnx
    by_cases hb : Below r x n
    · obtain ⟨c, hc, hcn⟩ := tow_exists ht hn hx hnx
      have hcn : r.parent c = some n ∧ Below r x c := by
        rcases hcn with h | h
        · exact h
        · exact absurd hb h.2
      refine ⟨c, (hr.mem c).2 hc, ?_, ?_⟩
      · rw [(hr.body c n hcn.1 hcn.2).2]
        rfl
      · rw [(hr.body c n hcn.1 hcn.2).2]
        simp only [Phys.move]
        rw [smul_smul, hcarry c n hcn.1 hcn.2, mul_smul]
    · refine ⟨n, (hr.mem n).2 hn, ?_, ?_⟩
      · rw [hr.off n hn hb]
      · rw [hr.off n hn hb, hdown n hn hb, mul_smul]

/-- In a robot without branches on the way to the new root, whatever the joint values: all nodes are where they were before the motion of their joint, up to one
motion of the whole robot. -/
theorem C139_serial {r : Robot G V P B} (ht : IsTree r) {z : V} (hdh : ∀ n ∈ r.ids, DhOk z (r.node n)) {x fuel : ℕ} (hf : r.ids.length ≤ fuel) {r' : Robot G V P B}
    (hr' : cloneInversed z r fuel x = some r') (m : Motion G V) (q : ℕ → ℝ) {base base' : G} {g g' : ℕ → G} (hg : Poses m r base q g) (hg' : Poses m r' base' q g')
    (hserial : ∀ n ∈ r.ids, Below r x n) :
    ∃ X : G, (∀ n ∈ r.ids, g' n * m.at r q n = X * g n) ∧
      ∀ b y, Shown r' g' b (X * y) ↔ ∃ n ∈ r.ids, n ≠ x ∧ ∃ d, (r.node n).model = some (b, d) ∧ y = g n * d := by
  obtain ⟨X, _, h2, h3, _⟩ := C139_links_partial ht hdh hf hr' m q hg hg' (fun c p hp _ hb => absurd (hserial c (ht.parent_mem _ _ hp).1) hb)
  exact ⟨X, fun n hn => h2 n hn (hserial n hn), h3⟩

/-- The mass of the new root is missing: the mass of the new robot is the mass of all other nodes, except if the root stays the same. -/
theorem C139_mass {r : Robot G V P B} (ht : IsTree r) {z : V} (hdh : ∀ n ∈ r.ids, DhOk z (r.node n)) {x fuel : ℕ} (hf : r.ids.length ≤ fuel) {r' : Robot G V P B}
    (hr' : cloneInversed z r fuel x = some r') :
    (r'.ids.map fun n => (r'.node n).phys.mass).sum = (r.ids.map fun n => (r.node n).phys.mass).sum - if x = r.root then 0 else (r.node x).phys.mass := by
  classical
  have hx : x ∈ r.ids := by
    by_contra h
    rw [C139_unknown r z fuel h] at hr'
    exact absurd hr' (by simp)
  obtain ⟨r'', h, hr⟩ := rerooted ht hdh hx hf
  rw [hr'] at h
  cases h
  have hids : r'.ids.toFinset = r.ids.toFinset := by
    ext n
    rw [List.mem_toFinset, List.mem_toFinset, hr.mem]
  rw [← List.sum_toFinset _ hr.nodup, ← List.sum_toFinset _ ht.nodup, hids]
  rw [← Finset.sum_filter_add_sum_filter_not r.ids.toFinset (fun n => Below r x n), ← Finset.sum_filter_add_sum_filter_not r.ids.toFinset (fun n => Below r x n) (fun n => (r.node n).phys.mass)]
  have hoff : ∑ n ∈ r.ids.toFinset with ¬ Below r x n, (r'.node n).phys.mass = ∑ n ∈ r.ids.toFinset with ¬ Below r x n, (r.node n).phys.mass := by
    refine Finset.sum_congr rfl ?_
    intro n hn
    rw [Finset.mem_filter, List.mem_toFinset] at hn
    rw [hr.off n hn.1 hn.2]
  set S := r.ids.toFinset.filter fun n => Below r x n with hS
  have hrootS : r.root ∈ S := by
    rw [hS, Finset.mem_filter, List.mem_toFinset]
    exact ⟨ht.root_mem, below_root ht hx⟩
  have hxS : x ∈ S := by
    rw [hS, Finset.mem_filter, List.mem_toFinset]
    exact ⟨hx, below_refl r x⟩
  have hpath : ∑ n ∈ S.erase r.root, (r'.node n).phys.mass = ∑ n ∈ S.erase x, (r.node n).phys.mass := by
    refine Finset.sum_bij (fun n _ => (r.parent n).getD 0) ?_ ?_ ?_ ?_
    · intro n hn
      rw [Finset.mem_erase, hS, Finset.mem_filter, List.mem_toFinset] at hn
      rcases hp : r.parent n with _ | p
      · exact absurd (ht.only_root n hn.2.1 hp) hn.1
      · rw [Option.getD_some, Finset.mem_erase, hS, Finset.mem_filter, List.mem_toFinset]
        refine ⟨?_, (ht.parent_mem _ _ hp).2, below_step hn.2.2 hp⟩
        rintro rfl
        exact not_below_parent ht hp hn.2.2
    · intro a ha b hb hab
      rw [Finset.mem_erase, hS, Finset.mem_filter, List.mem_toFinset] at ha hb
      rcases hpa : r.parent a with _ | p
      · exact absurd (ht.only_root a ha.2.1 hpa) ha.1
      · rcases hpb : r.parent b with _ | p'
        · exact absurd (ht.only_root b hb.2.1 hpb) hb.1
        · rw [hpa, hpb, Option.getD_some, Option.getD_some] at hab
          subst hab
          exact below_unique ht hpa hpb ha.2.2 hb.2.2
    · intro p hp
      rw [Finset.mem_erase, hS, Finset.mem_filter, List.mem_toFinset] at hp
      obtain ⟨n, hn, htow⟩ := tow_exists ht hp.2.1 hx hp.1
      have htow : r.parent n = some p ∧ Below r x n := by
        rcases htow with h | h
        · exact h
        · exact absurd hp.2.2 h.2
      refine ⟨n, ?_, by simp [htow.1]⟩
      rw [Finset.mem_erase, hS, Finset.mem_filter, List.mem_toFinset]
      refine ⟨?_, hn, htow.2⟩
      rintro rfl
      rw [ht.root_parent] at htow
      exact absurd htow.1 (by simp)
    · intro n hn
      rw [Finset.mem_erase, hS, Finset.mem_filter, List.mem_toFinset] at hn
      rcases hp : r.parent n with _ | p
      · exact absurd (ht.only_root n hn.2.1 hp) hn.1
      · rw [(hr.body n p hp hn.2.2).2]
        rfl
  have h1 := Finset.add_sum_erase S (fun n => (r'.node n).phys.mass) hrootS
  have h2 := Finset.add_sum_erase S (fun n => (r.node n).phys.mass) hxS
  have h3 := hr.last.2
  by_cases hrx : r.root = x
  · rw [if_pos hrx] at h3
    rw [if_pos hrx.symm]
    rw [h3] at h1
    linarith
  · rw [if_neg hrx] at h3
    rw [if_neg (fun h => hrx h.symm)]
    rw [h3] at h1
    simp only [Phys.empty] at h1
    linarith

/-! ## Examples -/

/-- Motions along a line. -/
def lineMotion : Motion (Multiplicative ℝ) ℝ where
  run k v q := match k with
    | .fixed => 1
    | .revolute => 1
    | .prismatic => Multiplicative.ofAdd (v * q)
  fixed _ _ := rfl
  neg k v q := by
    cases k
    · simp
    · simp
    · simp only [neg_mul, ofAdd_neg]

/-- A slide on a base, with a tool and a camera on the slide. -/
def slideRobot : Robot (Multiplicative ℝ) ℝ ℝ String where
  ids := [0, 1, 2, 3]
  root := 0
  parent n := if n = 1 then some 0 else if n = 2 then some 1 else if n = 3 then some 1 else none
  children n := if n = 0 then [1] else if n = 1 then [2, 3] else []
  node n := ⟨if n = 1 then .prismatic else .fixed, Multiplicative.ofAdd 5, none, 1, 0, some (if n = 0 then "base" else if n = 1 then "slide" else if n = 2 then "tool" else "camera", 1), ⟨n + 1, 0⟩⟩

theorem slide_tree : IsTree slideRobot where
  nodup := by decide
  root_mem := by decide
  root_parent := by decide
  only_root := by decide
  parent_mem := by
    intro c p h
    simp only [slideRobot] at h ⊢
    split_ifs at h <;> simp_all
  children_iff := by
    intro p c
    simp only [slideRobot]
    split_ifs <;> simp_all <;> omega
  children_nodup := by
    intro p
    simp only [slideRobot]
    split_ifs <;> decide
  acyclic := by
    refine ⟨fun n => if n = 3 then 2 else n, ?_⟩
    intro c p h
    simp only [slideRobot] at h
    split_ifs at h <;> cases h <;> simp_all

theorem slide_dh : ∀ n ∈ slideRobot.ids, DhOk 1 (slideRobot.node n) := by
  intro n _ h hh
  exact absurd hh (by simp [slideRobot])

theorem slide_below (n : ℕ) : Below slideRobot 2 n ↔ n = 2 ∨ n = 1 ∨ n = 0 := by
  constructor
  · intro h
    induction h with
    | refl => simp
    | tail _ hp ih =>
      simp only [slideRobot] at hp
      rcases ih with rfl | rfl | rfl <;> simp at hp <;> simp [← hp]
  · have h1 : slideRobot.parent 2 = some 1 := rfl
    have h2 : slideRobot.parent 1 = some 0 := rfl
    rintro (rfl | rfl | rfl)
    · exact below_refl _ _
    · exact below_step (below_refl _ _) h1
    · exact below_step (below_step (below_refl _ _) h1) h2

/-- The hypotheses of `C139_links_partial` hold for a robot with a branch, if the slide is at rest. -/
example : (∃ r', cloneInversed 1 slideRobot 4 2 = some r') ∧
    ∀ c p, slideRobot.parent c = some p → Below slideRobot 2 p → ¬ Below slideRobot 2 c → lineMotion.at slideRobot (fun _ => 0) p = 1 := by
  refine ⟨?_, ?_⟩
  · obtain ⟨r', h, _⟩ := rerooted slide_tree slide_dh (x := 2) (fuel := 4) (by decide) (by decide)
    exact ⟨r', h⟩
  · intro c p _ _ _
    simp only [Motion.at, slideRobot, lineMotion]
    split_ifs <;> simp

/-- If the slide moves, the distance of the camera to the tool, which are both on the slide, is another one in the robot that starts at the tool: the camera moves
with the base. -/
theorem C139_branch_false : ∃ (r r' : Robot (Multiplicative ℝ) ℝ ℝ String) (q : ℕ → ℝ) (base : Multiplicative ℝ) (g g' : ℕ → Multiplicative ℝ), IsTree r ∧ cloneInversed 1 r 4 2 = some r' ∧
    Poses lineMotion r base q g ∧ Poses lineMotion r' base q g' ∧ (g 2)⁻¹ * g 3 = 1 ∧ (g' 2)⁻¹ * g' 3 ≠ 1 := by
  obtain ⟨r', h, hr⟩ := rerooted slide_tree slide_dh (x := 2) (fuel := 4) (by decide) (by decide)
  have hp1 : slideRobot.parent 1 = some 0 := rfl
  have hp2 : slideRobot.parent 2 = some 1 := rfl
  have hp3 : slideRobot.parent 3 = some 1 := rfl
  have hb : ∀ n, Below slideRobot 2 n ↔ n = 2 ∨ n = 1 ∨ n = 0 := slide_below
  have hat : ∀ n, lineMotion.at slideRobot (fun _ => 1) n = if n = 1 then Multiplicative.ofAdd 1 else 1 := by
    intro n
    by_cases hn : n = 1
    · simp [Motion.at, slideRobot, lineMotion, hn]
    · simp [Motion.at, slideRobot, lineMotion, hn]
  have hkind : ∀ n ∈ slideRobot.ids, (r'.node n).axis = 1 → lineMotion.at r' (fun _ => 1) n = if n = 1 then Multiplicative.ofAdd 1 else 1 := by
    intro n hn ha
    obtain ⟨h1, h2, _⟩ := hr.same n hn
    rw [← hat n]
    simp only [Motion.at, h1, h2, ha]
    rfl
  refine ⟨slideRobot, r', fun _ => 1, 1, fun n => Multiplicative.ofAdd (if n = 0 then 5 else if n = 1 then 11 else 16),
    fun n => Multiplicative.ofAdd (if n = 2 then 0 else if n = 1 then -6 else if n = 0 then -11 else -1), slide_tree, h, ?_, ?_, ?_, ?_⟩
  · constructor
    · rw [hat]
      apply Multiplicative.toAdd.injective
      simp [slideRobot]
    · intro c p hp
      rw [hat]
      apply Multiplicative.toAdd.injective
      simp only [slideRobot] at hp ⊢
      split_ifs at hp
      · cases hp
        subst_vars
        norm_num
      · cases hp
        subst_vars
        norm_num
      · cases hp
        subst_vars
        norm_num
  · constructor
    · rw [hr.root, hr.start.1, hkind 2 (by decide) (by rw [hr.start.2]; rfl)]
      apply Multiplicative.toAdd.injective
      simp
    · intro c p hp
      rcases (hr.par _ _).1 hp with ⟨h1, h2⟩ | ⟨h1, h2⟩
      · obtain ⟨h3, h4⟩ := hr.up _ _ h1 h2
        have hneg : lineMotion.at r' (fun _ => 1) c = (lineMotion.at slideRobot (fun _ => 1) c)⁻¹ := by
          obtain ⟨h5, h6, _⟩ := hr.same c (slide_tree.parent_mem _ _ h1).2
          simp only [Motion.at, h5, h6, h4, lineMotion.neg]
        rw [h3, hneg, hat]
        apply Multiplicative.toAdd.injective
        rcases (hb p).1 h2 with rfl | rfl | rfl
        · rw [hp2] at h1
          cases h1
          simp [slideRobot]
          norm_num
        · rw [hp1] at h1
          cases h1
          simp [slideRobot]
          norm_num
        · exact absurd h1 (by simp [slideRobot])
      · have hc := (slide_tree.parent_mem _ _ h1).1
        have hc3 : c = 3 := by
          rw [hb] at h2
          simp [slideRobot] at hc
          omega
        subst hc3
        rw [hp3] at h1
        cases h1
        rw [hkind 3 (by decide) (by rw [hr.off 3 (by decide) h2]; rfl), hr.off 3 (by decide) h2]
        apply Multiplicative.toAdd.injective
        simp [slideRobot]
        norm_num
  · simp
  · intro h'
    have := congrArg Multiplicative.toAdd h'
    simp at this

/-- The shape of the new root is not shown by the new robot, not even if the root stays the same. -/
theorem C139_shape_false : ∃ (r r' : Robot (Multiplicative ℝ) ℝ ℝ String), IsTree r ∧ (∃ g y, Shown r g "base" y) ∧ cloneInversed 1 r 4 r.root = some r' ∧ ¬ ∃ g y, Shown r' g "base" y := by
  obtain ⟨r', h, hr⟩ := rerooted slide_tree slide_dh (x := 0) (fuel := 4) (by decide) (by decide)
  refine ⟨slideRobot, r', slide_tree, ⟨fun _ => 1, 1, 0, by decide, 1, rfl, by simp⟩, h, ?_⟩
  rintro ⟨g, y, n, hn, d, hd, _⟩
  rw [hr.mem] at hn
  by_cases h0 : n = 0
  · subst h0
    have := hr.last.1
    rw [show slideRobot.root = 0 from rfl] at this
    rw [this] at hd
    exact absurd hd (by simp)
  · have hnb : ¬ Below slideRobot 0 n := by
      intro hb
      rcases below_cases hb with h' | ⟨p, hp, _⟩
      · exact h0 h'.symm
      · exact absurd hp (by simp [slideRobot])
    rw [hr.off n hn hnb] at hd
    simp [slideRobot] at hn
    rcases hn with rfl | rfl | rfl | rfl <;> simp [slideRobot] at hd h0

/-- The robot that starts at the tool has lost the mass of the tool. -/
theorem C139_mass_false : ∃ (r r' : Robot (Multiplicative ℝ) ℝ ℝ String), IsTree r ∧ cloneInversed 1 r 4 2 = some r' ∧
    (r'.ids.map fun n => (r'.node n).phys.mass).sum = 7 ∧ (r.ids.map fun n => (r.node n).phys.mass).sum = 10 := by
  obtain ⟨r', h, _⟩ := rerooted slide_tree slide_dh (x := 2) (fuel := 4) (by decide) (by decide)
  have h10 : (slideRobot.ids.map fun n => (slideRobot.node n).phys.mass).sum = 10 := by
    simp [slideRobot]
    norm_num
  refine ⟨slideRobot, r', slide_tree, h, ?_, h10⟩
  rw [C139_mass slide_tree slide_dh (by decide) h, h10, if_neg (by decide)]
  simp [slideRobot]
  norm_num

end Simox.Rfc
