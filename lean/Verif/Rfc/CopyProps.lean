import Verif.Rfc.CopyLemmas
import Verif.Rfc.RerootProps

/-!
# C140: copies of a robot and of its parts

A copy has the same nodes, and for the same joint values its nodes, its shapes and its centres of mass are where those of the robot are, up to the base. A scaled
copy has them at the scaled places, as long as no joint translates.
-/

namespace Simox.Rfc

section
variable {G V P B : Type}

/-- A part starts at the given node and has all nodes below it, with the parents and children of the robot. -/
theorem C140_structure {r : Robot G V P B} (ht : IsTree r) (s : Scale G P B) (z : V) {start : ℕ} (hs : start ∈ r.ids) :
    ∃ fuel, ∀ k, fuel ≤ k → ∃ r', extractSubPart s z r k start = some r' ∧ IsTree r' ∧ r'.root = start ∧ (∀ n, n ∈ r'.ids ↔ Below r n start) ∧
      ∀ n ∈ r'.ids, (n ≠ start → r'.parent n = r.parent n) ∧ r'.children n = r.children n ∧ (r'.node n).kind = (r.node n).kind ∧ (r'.node n).offset = (r.node n).offset ∧
        (r'.node n).phys.mass = (r.node n).phys.mass := by
  obtain ⟨fuel, hf⟩ := part_exists ht s z hs
  refine ⟨fuel, ?_⟩
  intro k hk
  obtain ⟨r', h1, h2⟩ := hf k hk
  have hpar : ∀ n ∈ r'.ids, n ≠ start → ∃ p, r.parent n = some p ∧ Below r p start ∧ r'.parent n = some p := by
    intro n hn hne
    rcases below_cases ((h2.mem n).1 hn) with h | ⟨p, hp, hb⟩
    · exact absurd h hne
    · exact ⟨p, hp, hb, (h2.par n p).2 ⟨hp, hb⟩⟩
  refine ⟨r', h1, ?_, h2.root, h2.mem, ?_⟩
  · constructor
    · exact h2.nodup
    · rw [h2.root, h2.mem]
      exact below_refl r start
    · rw [h2.root]
      rcases h : r'.parent start with _ | p
      · rfl
      · obtain ⟨h3, h4⟩ := (h2.par start p).1 h
        exact absurd h4 (not_below_parent ht h3)
    · intro n hn h
      rw [h2.root]
      by_contra hne
      obtain ⟨p, _, _, h3⟩ := hpar n hn hne
      rw [h] at h3
      cases h3
    · intro c p h
      obtain ⟨h3, h4⟩ := (h2.par c p).1 h
      rw [h2.mem, h2.mem]
      exact ⟨below_head h3 h4, h4⟩
    · intro p c
      rw [h2.par]
      by_cases hp : p ∈ r'.ids
      · rw [h2.chi p hp, ht.children_iff]
        exact ⟨fun h => ⟨h, (h2.mem p).1 hp⟩, And.left⟩
      · rw [h2.chiO p hp]
        rw [h2.mem] at hp
        constructor
        · intro h
          exact absurd h (by simp)
        · rintro ⟨_, h⟩
          exact absurd h hp
    · intro p
      by_cases hp : p ∈ r'.ids
      · rw [h2.chi p hp]
        exact ht.children_nodup p
      · rw [h2.chiO p hp]
        simp
    · obtain ⟨rank, hr⟩ := ht.acyclic
      exact ⟨rank, fun c p h => hr c p ((h2.par c p).1 h).1⟩
  · intro n hn
    refine ⟨?_, h2.chi n hn, ?_⟩
    · intro hne
      obtain ⟨p, h3, _, h4⟩ := hpar n hn hne
      rw [h3, h4]
    · rw [h2.node]
      exact ⟨rfl, rfl, rfl⟩

/-- A node that is not part of the robot is refused. -/
theorem C140_unknown (r : Robot G V P B) (s : Scale G P B) (z : V) {start : ℕ} (fuel : ℕ) (hs : start ∉ r.ids) : extractSubPart s z r fuel start = none := if_neg hs

/-- Exactly those sets of nodes are copied all of whose nodes, with the kinematic root and the tool centre point, are in the part. -/
theorem C140_sets {r : Robot G V P B} (ht : IsTree r) {s : Scale G P B} {z : V} {start fuel : ℕ} {r' : Robot G V P B} (h : extractSubPart s z r fuel start = some r') (sets : List NodeSet) (t : NodeSet) :
    t ∈ partSets r' sets ↔ t ∈ sets ∧ ∀ n, (n ∈ t.nodes ∨ t.kinematicRoot = some n ∨ t.tcp = some n) → Below r n start := by
  obtain ⟨_, hp⟩ := part_of ht h
  unfold partSets
  rw [List.mem_filter]
  apply and_congr_right
  intro _
  simp only [NodeSet.sufficient, Bool.and_eq_true, List.all_eq_true, List.contains_eq_mem, decide_eq_true_eq, ← hp.mem]
  constructor
  · rintro ⟨⟨h1, h2⟩, h3⟩ n (hn | hn | hn)
    · exact h3 n hn
    · rw [hn] at h1
      simpa using h1
    · rw [hn] at h2
      simpa using h2
  · intro hall
    refine ⟨⟨?_, ?_⟩, fun n hn => hall n (.inl hn)⟩
    · rcases hk : t.kinematicRoot with _ | n
      · rfl
      · simpa using hall n (.inr (.inl hk))
    · rcases hk : t.tcp with _ | n
      · rfl
      · simpa using hall n (.inr (.inr hk))

variable [Group G] [Neg V]

/-- The frame in which the part starts: the base for the root, the pose of the parent for other nodes. -/
def FrameOf (r : Robot G V P B) (base : G) (g : ℕ → G) (start : ℕ) (F : G) : Prop := (r.parent start = none ∧ F = base) ∨ ∃ p, r.parent start = some p ∧ F = g p

/-- A scaled part with the same joint values: nodes, shapes and centres of mass are at the scaled places, seen from the frame where the part starts, if the
motions of the joints are not changed by the scaling. Prismatic joints are missing: `C140_prismatic_false`. -/
theorem C140_scaled_partial [MulAction G P] {r : Robot G V P B} (ht : IsTree r) {s : Scale G P B} {z : V} {start fuel : ℕ} {r' : Robot G V P B} (h : extractSubPart s z r fuel start = some r')
    {σ : G →* G} (hσ : ∀ x, s.pose x = σ x) (hact : ∀ x p, σ x • s.point p = s.point (x • p)) (m : Motion G V) (hdh : ∀ n, Below r n start → DhOk z (r.node n))
    (hrot : ∀ n, Below r n start → (r.node n).kind ≠ .prismatic) (hm : ∀ v q, σ (m.run .revolute v q) = m.run .revolute v q)
    {q : ℕ → ℝ} {base base' : G} {g g' : ℕ → G} (hg : Poses m r base q g) (hg' : Poses m r' base' q g') {F : G} (hF : FrameOf r base g start F) :
    ∀ n, Below r n start → g' n = base' * σ (F⁻¹ * g n) ∧
      (∀ b d, (r.node n).model = some (b, d) → Shown r' g' (s.shape b) (base' * σ (F⁻¹ * (g n * d)))) ∧
      g' n • (r'.node n).phys.com = base' • s.point ((F⁻¹ * g n) • (r.node n).phys.com) := by
  obtain ⟨hs, hp⟩ := part_of ht h
  have hnode : ∀ n, Below r n start → (r'.node n).loc = σ (r.node n).loc ∧ (r'.node n).axis = (r.node n).axis := by
    intro n hn
    have hd := hdh n hn
    rw [hp.node]
    simp only [cloneNode]
    rcases hdd : (r.node n).dh with _ | d
    · simp [hσ]
    · obtain ⟨h1, h2⟩ := hd d hdd
      simp [hσ, h1, h2]
  have hat : ∀ n, Below r n start → m.at r' q n = σ (m.at r q n) := by
    intro n hn
    have hk : (r'.node n).kind = (r.node n).kind := by rw [hp.node]; rfl
    have ho : (r'.node n).offset = (r.node n).offset := by rw [hp.node]; rfl
    unfold Motion.at
    rw [hk, ho, (hnode n hn).2]
    rcases hkk : (r.node n).kind
    · rw [m.fixed, map_one]
    · rw [hm]
    · exact absurd hkk (hrot n hn)
  have hstart : g start = F * (r.node start).loc * m.at r q start := by
    rcases hF with ⟨h1, rfl⟩ | ⟨p, h1, rfl⟩
    · rw [ht.only_root start hs h1]
      exact hg.1
    · exact hg.2 start p h1
  have main : ∀ n, Below r n start → g' n = base' * σ (F⁻¹ * g n) := by
    intro n hn
    induction hn using Relation.ReflTransGen.head_induction_on with
    | refl =>
      have h1 := hg'.1
      rw [hp.root, (hnode start (below_refl r start)).1, hat start (below_refl r start)] at h1
      rw [h1, hstart, mul_assoc, mul_assoc, inv_mul_cancel_left, map_mul]
    | @head n p hpp hb ih =>
      have hn : Below r n start := below_head hpp hb
      have h1 := hg'.2 n p ((hp.par n p).2 ⟨hpp, hb⟩)
      rw [(hnode n hn).1, hat n hn, ih] at h1
      rw [h1, hg.2 n p hpp]
      simp only [map_mul, mul_assoc]
  intro n hn
  refine ⟨main n hn, ?_, ?_⟩
  · intro b d hbd
    refine ⟨n, (hp.mem n).2 hn, σ d, ?_, ?_⟩
    · rw [hp.node]
      simp [cloneNode, hbd, hσ]
    · rw [main n hn]
      simp only [map_mul, mul_assoc]
  · rw [main n hn, hp.node]
    simp only [cloneNode]
    rw [mul_smul, hact]

/-- A part with the scaling 1 and the same joint values: nodes, shapes and centres of mass are where they were, seen from the frame where the part starts; all
kinds of joints. -/
theorem C140_poses [MulAction G P] {r : Robot G V P B} (ht : IsTree r) {z : V} {start fuel : ℕ} {r' : Robot G V P B} (h : extractSubPart (Scale.one G P B) z r fuel start = some r')
    (m : Motion G V) (hdh : ∀ n, Below r n start → DhOk z (r.node n)) {q : ℕ → ℝ} {base base' : G} {g g' : ℕ → G} (hg : Poses m r base q g) (hg' : Poses m r' base' q g') {F : G} (hF : FrameOf r base g start F) :
    ∀ n, Below r n start → g' n = base' * (F⁻¹ * g n) ∧
      (∀ b d, (r.node n).model = some (b, d) → Shown r' g' b (base' * (F⁻¹ * (g n * d)))) ∧
      g' n • (r'.node n).phys.com = base' • ((F⁻¹ * g n) • (r.node n).phys.com) := by
  obtain ⟨hs, hp⟩ := part_of ht h
  have hnode : ∀ n, Below r n start → r'.node n = r.node n := by
    intro n hn
    have hd := hdh n hn
    rw [hp.node]
    ext1
    · rfl
    · rcases hdd : (r.node n).dh with _ | d
      · simp [cloneNode, Scale.one, hdd]
      · simp [cloneNode, Scale.one, hdd, (hd d hdd).1]
    · simp [cloneNode, Scale.one]
    · rcases hdd : (r.node n).dh with _ | d
      · simp [cloneNode, hdd]
      · simp [cloneNode, hdd, (hd d hdd).2]
    · rfl
    · simp [cloneNode, Scale.one]
    · rfl
  have hat : ∀ n, Below r n start → m.at r' q n = m.at r q n := by
    intro n hn
    unfold Motion.at
    rw [hnode n hn]
  have hstart : g start = F * (r.node start).loc * m.at r q start := by
    rcases hF with ⟨h1, rfl⟩ | ⟨p, h1, rfl⟩
    · rw [ht.only_root start hs h1]
      exact hg.1
    · exact hg.2 start p h1
  have main : ∀ n, Below r n start → g' n = base' * (F⁻¹ * g n) := by
    intro n hn
    induction hn using Relation.ReflTransGen.head_induction_on with
    | refl =>
      have h1 := hg'.1
      rw [hp.root, hnode start (below_refl r start), hat start (below_refl r start)] at h1
      rw [h1, hstart, mul_assoc, mul_assoc, inv_mul_cancel_left]
    | @head n p hpp hb ih =>
      have hn : Below r n start := below_head hpp hb
      have h1 := hg'.2 n p ((hp.par n p).2 ⟨hpp, hb⟩)
      rw [hnode n hn, hat n hn, ih] at h1
      rw [h1, hg.2 n p hpp]
      simp only [mul_assoc]
  intro n hn
  refine ⟨main n hn, ?_, ?_⟩
  · intro b d hbd
    refine ⟨n, (hp.mem n).2 hn, d, ?_, ?_⟩
    · rw [hnode n hn, hbd]
    · rw [main n hn]
      simp only [mul_assoc]
  · rw [main n hn, hnode n hn, mul_smul]

/-- A copy of a robot at the same base is the robot: same nodes, and the same poses for all joint values. -/
theorem C140_clone {r : Robot G V P B} (ht : IsTree r) {z : V} {fuel : ℕ} {r' : Robot G V P B} (h : clone (Scale.one G P B) z r fuel = some r') (hdh : ∀ n ∈ r.ids, DhOk z (r.node n)) :
    (∀ n, n ∈ r'.ids ↔ n ∈ r.ids) ∧ (∀ (m : Motion G V) (q : ℕ → ℝ) (base : G) (g g' : ℕ → G), Poses m r base q g → Poses m r' base q g' → ∀ n ∈ r.ids, g' n = g n) := by
  obtain ⟨hs, hp⟩ := part_of ht h
  have hbel : ∀ n, Below r n r.root ↔ n ∈ r.ids := by
    intro n
    constructor
    · intro hb
      rcases below_cases hb with h | ⟨p, h, _⟩
      · rw [h]
        exact ht.root_mem
      · exact (ht.parent_mem _ _ h).1
    · exact below_root ht
  refine ⟨fun n => by rw [hp.mem, hbel], ?_⟩
  intro m q base g g' hg hg' n hn
  have hnode : ∀ n ∈ r.ids, r'.node n = r.node n := by
    intro n hn
    have hd := hdh n hn
    rw [hp.node]
    ext1
    · rfl
    · rcases hdd : (r.node n).dh with _ | d
      · simp [cloneNode, Scale.one, hdd]
      · simp [cloneNode, Scale.one, hdd, (hd d hdd).1]
    · simp [cloneNode, Scale.one]
    · rcases hdd : (r.node n).dh with _ | d
      · simp [cloneNode, hdd]
      · simp [cloneNode, hdd, (hd d hdd).2]
    · rfl
    · simp [cloneNode, Scale.one]
    · rfl
  have hb := (hbel n).2 hn
  induction hb using Relation.ReflTransGen.head_induction_on with
  | refl =>
    have h1 := hg'.1
    rw [hp.root] at h1
    rw [h1, hg.1]
    simp only [Motion.at, hnode _ ht.root_mem]
  | @head n p hpp hb ih =>
    have h1 := hg'.2 n p ((hp.par n p).2 ⟨hpp, hb⟩)
    rw [h1, hg.2 n p hpp, ih ((ht.parent_mem _ _ hpp).2)]
    simp only [Motion.at, hnode n hn]

end

/-- Everything twice as large, on a line. -/
def lineScale : Scale (Multiplicative ℝ) ℝ String := ⟨fun x => x * x, fun p => p + p, id⟩

/-- `C140_scaled_partial` and `C140_poses` are about cases there are: the tool of the slide. -/
example : ∃ r', extractSubPart lineScale 1 slideRobot 9 2 = some r' ∧ (∀ n, Below slideRobot n 2 → (slideRobot.node n).kind ≠ .prismatic) ∧ FrameOf slideRobot 1 (fun _ => 1) 2 1 ∧
    (∀ x p, (lineScale.pose x) • lineScale.point p = lineScale.point (x • p)) := by
  refine ⟨⟨[2], 2, fun _ => none, fun _ => [], fun n => cloneNode lineScale 1 (slideRobot.node n)⟩, ?_, ?_, .inr ⟨1, rfl, rfl⟩, ?_⟩
  · rw [extractSubPart, if_pos (by decide)]
    rfl
  · intro n hn
    have : n = 2 := by
      by_contra hne
      obtain ⟨c, h1, _⟩ := below_last hn hne
      simp only [slideRobot] at h1
      split_ifs at h1 <;> simp_all
    subst this
    simp [slideRobot]
  · intro x p
    show Multiplicative.toAdd (x * x) + (p + p) = (Multiplicative.toAdd x + p) + (Multiplicative.toAdd x + p)
    rw [toAdd_mul]
    ring

/-- The motion of a slide is not scaled: in a copy twice as large the tool is not twice as far away from the base. -/
theorem C140_prismatic_false : ∃ (r r' : Robot (Multiplicative ℝ) ℝ ℝ String) (q : ℕ → ℝ) (g g' : ℕ → Multiplicative ℝ), IsTree r ∧ clone lineScale 1 r 9 = some r' ∧
    Poses lineMotion r 1 q g ∧ Poses lineMotion r' 1 q g' ∧ g' 0 = lineScale.pose (g 0) ∧ g' 1 ≠ lineScale.pose (g 1) := by
  obtain ⟨f, hf⟩ := part_exists slide_tree lineScale 1 (start := 0) (by decide)
  obtain ⟨r', h1, hp⟩ := hf (max f 9) (le_max_left _ _)
  have h9 : ∃ r'', extractSubPart lineScale 1 slideRobot 9 0 = some r'' := ⟨_, by rw [extractSubPart, if_pos (by decide)]; rfl⟩
  obtain ⟨r'', h9⟩ := h9
  obtain ⟨_, hp⟩ := part_of slide_tree h9
  refine ⟨slideRobot, r'', fun _ => 1, fun n => Multiplicative.ofAdd (if n = 0 then 5 else if n = 1 then 11 else 16),
    fun n => Multiplicative.ofAdd (if n = 0 then 10 else if n = 1 then 21 else 31), slide_tree, h9, ?_, ?_, ?_, ?_⟩
  · constructor
    · apply Multiplicative.toAdd.injective
      simp [slideRobot, Motion.at, lineMotion]
    · intro c p h
      apply Multiplicative.toAdd.injective
      simp only [slideRobot] at h ⊢
      split_ifs at h <;> cases h <;> subst_vars <;> simp [Motion.at, lineMotion] <;> norm_num
  · constructor
    · rw [hp.root, Motion.at, hp.node]
      apply Multiplicative.toAdd.injective
      simp [slideRobot, lineMotion, cloneNode, lineScale]
      norm_num
    · intro c p h
      have h := ((hp.par c p).1 h).1
      rw [Motion.at, hp.node]
      apply Multiplicative.toAdd.injective
      simp only [slideRobot] at h ⊢
      split_ifs at h <;> cases h <;> subst_vars <;> simp [lineMotion, cloneNode, lineScale] <;> norm_num
  · apply Multiplicative.toAdd.injective
    simp [lineScale]
    norm_num
  · intro h
    have := congrArg Multiplicative.toAdd h
    simp [lineScale] at this
    norm_num at this

/-- A base with Denavit-Hartenberg parameters and a tool. -/
def dhRobot : Robot (Multiplicative ℝ) ℝ ℝ String where
  ids := [0, 1]
  root := 0
  parent n := if n = 1 then some 0 else none
  children n := if n = 0 then [1] else []
  node n := ⟨.fixed, Multiplicative.ofAdd 5, if n = 0 then some (Multiplicative.ofAdd 5) else none, 1, 0, none, ⟨1, 0⟩⟩

theorem dh_tree : IsTree dhRobot where
  nodup := by decide
  root_mem := by decide
  root_parent := by decide
  only_root := by decide
  parent_mem := by
    intro c p h
    simp only [dhRobot] at h ⊢
    split_ifs at h <;> simp_all
  children_iff := by
    intro p c
    simp only [dhRobot]
    split_ifs <;> simp_all <;> omega
  children_nodup := by
    intro p
    simp only [dhRobot]
    split_ifs <;> decide
  acyclic := by
    refine ⟨fun n => n, ?_⟩
    intro c p h
    simp only [dhRobot] at h
    split_ifs at h <;> cases h <;> simp_all

/-- A robot that was turned around by `cloneInversed` still holds the old Denavit-Hartenberg parameters, and its copy has other distances between its nodes. -/
theorem C140_dh_false : ∃ (r0 r r' : Robot (Multiplicative ℝ) ℝ ℝ String) (g g' : ℕ → Multiplicative ℝ), IsTree r0 ∧ (∀ n ∈ r0.ids, DhOk 1 (r0.node n)) ∧ cloneInversed 1 r0 4 1 = some r ∧
    IsTree r ∧ (∃ fuel, clone (Scale.one _ _ _) 1 r fuel = some r') ∧ Poses lineMotion r 1 (fun _ => 0) g ∧ Poses lineMotion r' 1 (fun _ => 0) g' ∧ (g' 1)⁻¹ * g' 0 ≠ (g 1)⁻¹ * g 0 := by
  have hdh : ∀ n ∈ dhRobot.ids, DhOk 1 (dhRobot.node n) := by
    intro n _ h hh
    simp only [dhRobot] at hh ⊢
    split_ifs at hh
    · cases hh
      simp
  obtain ⟨r, h, hr⟩ := rerooted dh_tree hdh (x := 1) (fuel := 4) (by decide) (by decide)
  obtain ⟨r1, h1, hrt, _⟩ := C139_structure dh_tree hdh (x := 1) (fuel := 4) (by decide) (by decide)
  rw [h] at h1
  cases h1
  obtain ⟨f, hf⟩ := part_exists hrt (Scale.one (Multiplicative ℝ) ℝ String) (1 : ℝ) hrt.root_mem
  obtain ⟨r', h2, hp⟩ := hf f le_rfl
  have hp10 : dhRobot.parent 1 = some 0 := rfl
  have hb1 : Below dhRobot 1 1 := below_refl _ _
  have hmot : ∀ n ∈ dhRobot.ids, (r.node n).kind = .fixed := fun n hn => (hr.same n hn).1
  have hl0 : (r.node 0).loc = Multiplicative.ofAdd (-5) := (hr.up 1 0 hp10 hb1).1
  have hd0 : (r.node 0).dh = some (Multiplicative.ofAdd 5) := (hr.same 0 (by decide)).2.2
  have hd1 : (r.node 1).dh = none := (hr.same 1 (by decide)).2.2
  have hpar : ∀ c p, r.parent c = some p → c = 0 ∧ p = 1 := by
    intro c p hcp
    rcases (hr.par p c).1 hcp with ⟨h3, _⟩ | ⟨h3, h4⟩
    · simp only [dhRobot] at h3
      split_ifs at h3 with h5
      cases h3
      exact ⟨rfl, h5⟩
    · simp only [dhRobot] at h3
      split_ifs at h3 with h5
      subst h5
      exact absurd hb1 h4
  refine ⟨dhRobot, r, r', fun n => Multiplicative.ofAdd (if n = 0 then -5 else 0), fun n => Multiplicative.ofAdd (if n = 0 then 5 else 0), dh_tree, hdh, h, hrt, ⟨f, h2⟩, ?_, ?_, ?_⟩
  · constructor
    · rw [hr.root, hr.start.1, Motion.at, hmot 1 (by decide), lineMotion.fixed]
      simp
    · intro c p hcp
      obtain ⟨rfl, rfl⟩ := hpar c p hcp
      rw [hl0, Motion.at, hmot 0 (by decide), lineMotion.fixed]
      apply Multiplicative.toAdd.injective
      simp
  · constructor
    · rw [hp.root, hr.root, Motion.at, hp.node]
      simp only [cloneNode, hmot 1 (by decide), lineMotion.fixed, hd1, Option.getD_none, hr.start.1]
      simp [Scale.one]
    · intro c p hcp
      obtain ⟨rfl, rfl⟩ := hpar c p ((hp.par c p).1 hcp).1
      rw [Motion.at, hp.node]
      simp only [cloneNode, hmot 0 (by decide), lineMotion.fixed, hd0, Option.getD_some]
      apply Multiplicative.toAdd.injective
      simp [Scale.one]
  · intro h'
    have := congrArg Multiplicative.toAdd h'
    simp at this
    norm_num at this

end Simox.Rfc
