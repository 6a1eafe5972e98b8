import Verif.Cst.SolveLemmas
import Verif.Cst.WrongProps
import Verif.Cst.GradProps

/-!
# The optimisation solver
-/

namespace Simox.Cst

open Kin Kin.Spec Jac Jac.Spec Ik Ik.Spec Cst.Spec

/-- The assumptions about the robot and the optimiser: the joints can be set one by one and do not drive others, all vectors have one entry per joint. -/
structure Setting (r : Robot Pose3) (fuel : Nat) (o : Opt) (t : Nat → Nat → ℝ) (opt : Optimiser) (k : OSt) : Prop where
  usable : Usable r o.ns
  quiet : ∀ n ∈ o.ns.nodes, r.prop n = []
  fuel : 0 < fuel
  fk : FK r k.rob
  init : k.init.length = o.ns.nodes.length
  limits : ∀ n ∈ o.ns.nodes, (r.lim n).lo ≤ (r.lim n).hi
  seeds : ∀ s, Seed.other s ∈ o.seeds → s.length = o.ns.nodes.length
  evals : ∀ a x0, ∀ x ∈ (opt a x0).1, x.length = o.ns.nodes.length
  result : ∀ a x0, (opt a x0).2.length = o.ns.nodes.length
  checks : ∀ f ∈ o.fns, f.soft = false → ∀ s, f.check s ≠ none

theorem intoLimits_within {l : Lim} (h : l.lo ≤ l.hi) (x : ℝ) : l.lo ≤ intoLimits l x ∧ intoLimits l x ≤ l.hi :=
  ⟨le_max_left _ _, max_le h (min_le_left _ _)⟩

theorem startOk_iff {r : Robot Pose3} {o : Opt} {a : Nat} {x : List ℝ} (hl : x.length = o.ns.nodes.length) :
    o.startOk r a x = true ↔ o.seeds.length ≤ a ∨ Within r o.ns.nodes x := by
  unfold Opt.startOk Within
  rw [Bool.or_eq_true, decide_eq_true_iff, List.all_eq_true]
  refine or_congr Iff.rfl ⟨fun h => ⟨hl, fun i n y h1 h2 => ?_⟩, fun h e he => ?_⟩
  · have hm : (n, y) ∈ o.ns.nodes.zip x := List.mem_of_getElem? (i := i) (List.getElem?_zip_eq_some.2 ⟨h1, h2⟩)
    have := h _ hm
    simpa using this
  · obtain ⟨i, hi⟩ := List.getElem?_of_mem he
    have := h.2 i e.1 e.2 (List.getElem?_zip_eq_some.1 hi).1 (List.getElem?_zip_eq_some.1 hi).2
    simpa using this

theorem within_map {r : Robot Pose3} {nodes : List Nat} (hlim : ∀ n ∈ nodes, (r.lim n).lo ≤ (r.lim n).hi) (x : List ℝ)
    (hl : x.length = nodes.length) : Within r nodes (List.zipWith (fun m x => intoLimits (r.lim m) x) nodes x) := by
  refine ⟨by simp [hl], fun i n y h1 h2 => ?_⟩
  rw [List.getElem?_zipWith, h1] at h2
  rcases hx : x[i]? with _ | z
  · simp [hx] at h2
  · simp only [hx, Option.some.injEq] at h2
    subst h2
    exact intoLimits_within (hlim n (List.mem_of_getElem? h1)) z

theorem start_seed {r : Robot Pose3} {o : Opt} {t : Nat → Nat → ℝ} {init : List ℝ} (hi : init.length = o.ns.nodes.length)
    (hlim : ∀ n ∈ o.ns.nodes, (r.lim n).lo ≤ (r.lim n).hi) (hs : ∀ s, Seed.other s ∈ o.seeds → s.length = o.ns.nodes.length) {a : Nat}
    (ha : a < o.seeds.length) : ∃ x, o.start r t init a = some x ∧ Within r o.ns.nodes x := by
  unfold Opt.start
  rw [List.getElem?_eq_getElem ha]
  rcases hsa : o.seeds[a] with _ | _ | s
  · simp only
    rw [if_neg (by omega)]
    exact ⟨_, rfl, within_map hlim init hi⟩
  · refine ⟨_, rfl, by simp, fun i n y h1 h2 => ?_⟩
    rw [List.getElem?_map, h1] at h2
    simp only [Option.map_some, Option.some.injEq] at h2
    subst h2
    exact intoLimits_within (hlim n (List.mem_of_getElem? h1)) 0
  · have hl := hs s (by rw [← hsa]; exact List.getElem_mem ha)
    simp only
    rw [if_neg (by omega)]
    exact ⟨_, rfl, within_map hlim s hl⟩

theorem start_random {r : Robot Pose3} {o : Opt} {t : Nat → Nat → ℝ} {init : List ℝ} (hi : init.length = o.ns.nodes.length) {a : Nat}
    (ha : o.seeds.length ≤ a) : ∃ x, o.start r t init a = some x ∧ x.length = o.ns.nodes.length ∧
      ∀ (i n : Nat) (y z : ℝ), o.ns.nodes[i]? = some n → x[i]? = some y → init[i]? = some z →
        y = z + o.displacement * ((r.lim n).lo + t a i * ((r.lim n).hi - (r.lim n).lo) - z) := by
  unfold Opt.start
  rw [List.getElem?_eq_none (by omega)]
  simp only
  rw [if_neg (by omega)]
  refine ⟨_, rfl, by simp [hi], fun i n y z h1 h2 h3 => ?_⟩
  rw [List.getElem?_map] at h2
  have hz : (o.ns.nodes.zip (init.zip (List.range o.ns.nodes.length)))[i]? = some (n, z, i) := by
    rw [List.getElem?_zip_eq_some]
    refine ⟨h1, ?_⟩
    rw [List.getElem?_zip_eq_some]
    refine ⟨h3, ?_⟩
    have : i < o.ns.nodes.length := by
      by_contra hc
      rw [List.getElem?_eq_none (by omega)] at h1
      simp at h1
    simp [this]
  rw [hz] at h2
  simpa using h2.symm

theorem start_ok {r : Robot Pose3} {fuel : Nat} {o : Opt} {t : Nat → Nat → ℝ} {opt : Optimiser} {k : OSt} (h : Setting r fuel o t opt k) (a : Nat) :
    ∃ x, o.start r t k.init a = some x ∧ o.startOk r a x = true := by
  by_cases ha : a < o.seeds.length
  · obtain ⟨x, h1, h2⟩ := start_seed (t := t) h.init h.limits h.seeds ha
    exact ⟨x, h1, (startOk_iff h2.1).2 (.inr h2)⟩
  · obtain ⟨x, h1, h2, -⟩ := start_random (r := r) (t := t) h.init (by omega : o.seeds.length ≤ a)
    exact ⟨x, h1, (startOk_iff h2).2 (.inl (by omega))⟩

/-- The configuration that the optimiser returns for attempt `a`. -/
noncomputable def found (r : Robot Pose3) (o : Opt) (t : Nat → Nat → ℝ) (opt : Optimiser) (init : List ℝ) (a : Nat) : List ℝ :=
  (opt a ((o.start r t init a).getD [])).2

theorem attempt_ok {r : Robot Pose3} {fuel : Nat} {o : Opt} {t : Nat → Nat → ℝ} {opt : Optimiser} {k : OSt} (h : Setting r fuel o t opt k) (a : Nat) :
    ∃ s c, o.attempt r fuel t opt a k = .ret (found r o t opt k.init a) { k with rob := s, cur := c } ∧
      AtConfig r o.ns.nodes (found r o t opt k.init a) k.rob s := by
  obtain ⟨x0, h1, h2⟩ := start_ok h a
  have hfd : found r o t opt k.init a = (opt a x0).2 := by rw [found, h1]; rfl
  obtain ⟨s1, c, h3, h4⟩ := evaluations_same h.usable h.fuel (opt a x0).1 k (h.evals a x0) h.fk
  obtain ⟨s2, h5, h6⟩ := setEach_at h.usable h.quiet h.fuel (h.result a x0) h4.2.1
  refine ⟨s2, c, ?_, ?_⟩
  · unfold Opt.attempt
    rw [h1]
    simp only
    rw [if_pos h2, h3]
    simp only
    rw [h5, hfd]
  · rw [hfd]
    exact (same_atConfig h4).1 h6

theorem hard_ok {r : Robot Pose3} {fuel : Nat} {o : Opt} (hu : Usable r o.ns) (hf : 0 < fuel)
    (hc : ∀ f ∈ o.fns, f.soft = false → ∀ s, f.check s ≠ none) {x : List ℝ} {s0 : St Pose3} {k : OSt} (h : AtConfig r o.ns.nodes x s0 k.rob) :
    ∃ b, o.hard r fuel x k = .ret (b, hardError o.fns k.rob) { k with cur := x } ∧ (b = true ↔ HardMet o.fns k.rob) := by
  obtain ⟨s', h1, h2⟩ := goTo_honest (k := k) hu hf h.1 (atConfig_same h).2.1 (fun _ => atConfig_self h)
  have : s' = k.rob := atConfig_unique hu.distinct ((same_atConfig (atConfig_same h)).1 h2) h
  subst this
  obtain ⟨b, h3, h4⟩ := hardSum_spec k.rob o.fns hc
  refine ⟨b, ?_, h4⟩
  unfold Opt.hard
  rw [h1]
  simp only
  rw [h3]

theorem set_again {r : Robot Pose3} {ns : NodeSet} (hu : Usable r ns) {fuel : Nat} (hf : 0 < fuel) {x : List ℝ} {s0 s : St Pose3}
    (h : AtConfig r ns.nodes x s0 s) : ns.setJointValues r fuel x s = .ok s := by
  obtain ⟨s', h1, h2⟩ := set_at hu hf h.1 (atConfig_same h).2.1
  rw [h1, atConfig_unique hu.distinct ((same_atConfig (atConfig_same h)).1 h2) h]

/-- The best attempt so far. -/
def BestOf (r : Robot Pose3) (o : Opt) (X : Nat → List ℝ) (s0 : St Pose3) (a : Nat) : Option (ℝ × List ℝ) → Prop
  | none => a = 0
  | some (e, x) => ∃ b < a, x = X b ∧ (∃ u, AtConfig r o.ns.nodes (X b) s0 u ∧ hardError o.fns u = e) ∧
      ∀ c < a, ∀ u, AtConfig r o.ns.nodes (X c) s0 u → e ≤ hardError o.fns u

theorem loop_spec {r : Robot Pose3} {fuel : Nat} {o : Opt} {t : Nat → Nat → ℝ} {opt : Optimiser} (fl : Bool × Bool) {s0 : St Pose3} {init : List ℝ} :
    ∀ (n a : Nat) (best : Option (ℝ × List ℝ)) (k : OSt), Setting r fuel o t opt k → k.init = init → Same r o.ns.nodes s0 k.rob →
      BestOf r o (found r o t opt init) s0 a best →
      (∀ c < a, ∀ u, AtConfig r o.ns.nodes (found r o t opt init c) s0 u → ¬ HardMet o.fns u) →
      (a = 0 → k.rob = s0) →
      ∃ b k', o.loop r fuel t opt fl n a best k = .ret b k' ∧ k'.vis = fl.1 ∧ k'.col = fl.2 ∧ k'.init = k.init ∧ k'.ready = k.ready ∧
        (b = true → ∃ c, a ≤ c ∧ c < a + n ∧ AtConfig r o.ns.nodes (found r o t opt init c) s0 k'.rob ∧ HardMet o.fns k'.rob ∧
          ∀ d < c, ∀ u, AtConfig r o.ns.nodes (found r o t opt init d) s0 u → ¬ HardMet o.fns u) ∧
        (b = false → (∀ c < a + n, ∀ u, AtConfig r o.ns.nodes (found r o t opt init c) s0 u → ¬ HardMet o.fns u) ∧
          ((a + n = 0 ∧ k'.rob = s0) ∨ ∃ c < a + n, AtConfig r o.ns.nodes (found r o t opt init c) s0 k'.rob ∧
            ∀ d < a + n, ∀ u, AtConfig r o.ns.nodes (found r o t opt init d) s0 u → hardError o.fns k'.rob ≤ hardError o.fns u))
  | 0, a, best, k, h, hi, hsame, hbest, hno, hz => by
    rcases best with _ | ⟨e, x⟩
    · exact ⟨false, _, rfl, rfl, rfl, rfl, rfl, by simp, fun _ => ⟨by simpa using hno, .inl ⟨by simpa [BestOf] using hbest, hz hbest⟩⟩⟩
    · obtain ⟨b, hb, rfl, ⟨u, hu1, hu2⟩, hmin⟩ := hbest
      have hlen : (found r o t opt init b).length = o.ns.nodes.length := hu1.1
      obtain ⟨s', h1, h2⟩ := set_at h.usable h.fuel hlen h.fk
      have hu' : s' = u := atConfig_unique h.usable.distinct ((same_atConfig hsame).1 h2) hu1
      subst hu'
      have goal : ∀ (k' : OSt), k'.rob = s' → (∀ c < a + 0, ∀ u, AtConfig r o.ns.nodes (found r o t opt init c) s0 u → ¬ HardMet o.fns u) ∧
          ((a + 0 = 0 ∧ k'.rob = s0) ∨ ∃ c < a + 0, AtConfig r o.ns.nodes (found r o t opt init c) s0 k'.rob ∧
            ∀ d < a + 0, ∀ u, AtConfig r o.ns.nodes (found r o t opt init d) s0 u → hardError o.fns k'.rob ≤ hardError o.fns u) := by
        rintro k' rfl
        exact ⟨by simpa using hno, .inr ⟨b, by omega, hu1, fun d hd u hu => hu2.le.trans (hmin d (by omega) u hu)⟩⟩
      rw [Opt.loop]
      by_cases hx : (found r o t opt init b).length = 0
      · rw [if_pos hx]
        have hnil : o.ns.nodes = [] := List.eq_nil_of_length_eq_zero (hlen ▸ hx)
        have : k.rob = s' := by
          obtain ⟨-, v, -, hv⟩ := h2
          rw [hnil] at hv
          refine st_ext hv.1.symm ?_ ?_
          · funext n
            exact (hv.2.2.2.2 n (by simp)).symm
          · funext j
            by_cases hj : j ∈ r.tree.ids
            · exact fk_pose h.fk hv.2.1 hv.1.symm (by funext n; exact (hv.2.2.2.2 n (by simp)).symm) hj
            · exact (hv.2.2.1 j hj).symm
        exact ⟨false, _, rfl, rfl, rfl, rfl, rfl, by simp, fun _ => goal _ this⟩
      · rw [if_neg hx, h1]
        exact ⟨false, _, rfl, rfl, rfl, rfl, rfl, by simp, fun _ => goal _ rfl⟩
  | n + 1, a, best, k, h, hi, hsame, hbest, hno, hz => by
    subst hi
    obtain ⟨s1, c1, h1, h2⟩ := attempt_ok h a
    have h2' : AtConfig r o.ns.nodes (found r o t opt k.init a) s0 s1 := (same_atConfig hsame).1 h2
    obtain ⟨b, h3, h4⟩ := hard_ok (k := { k with rob := s1, cur := c1 }) h.usable h.fuel h.checks h2'
    rw [Opt.loop, h1]
    simp only
    rw [h3]
    simp only
    cases b with
    | true =>
      rw [if_pos rfl, set_again h.usable h.fuel h2']
      refine ⟨true, _, rfl, rfl, rfl, rfl, rfl, fun _ => ⟨a, le_refl _, by omega, h2', h4.1 rfl, fun d hd => hno d hd⟩, by simp⟩
    | false =>
      rw [if_neg (by simp)]
      have hnm : ¬ HardMet o.fns s1 := fun hm => by have := h4.2 hm; simp at this
      obtain ⟨b', k', h5, h6, h7, h8, h9, h10, h11⟩ := loop_spec fl n (a + 1)
        (better (hardError o.fns s1) (found r o t opt k.init a) best)
        { k with rob := s1, cur := found r o t opt k.init a }
        ⟨h.usable, h.quiet, h.fuel, (atConfig_same h2').2.1, h.init, h.limits, h.seeds, h.evals, h.result, h.checks⟩ rfl (atConfig_same h2')
        (by
          have huniq : ∀ u, AtConfig r o.ns.nodes (found r o t opt k.init a) s0 u → u = s1 := fun u hu => atConfig_unique h.usable.distinct hu h2'
          rcases best with _ | ⟨m, y⟩
          · have ha : a = 0 := hbest
            refine ⟨a, by omega, rfl, ⟨s1, h2', rfl⟩, fun c hc u hu => ?_⟩
            have : c = a := by omega
            subst this
            rw [huniq u hu]
          · obtain ⟨b, hb, rfl, ⟨u, hu1, hu2⟩, hmin⟩ := hbest
            by_cases hlt : hardError o.fns s1 < m
            · rw [better, if_pos hlt]
              refine ⟨a, by omega, rfl, ⟨s1, h2', rfl⟩, fun c hc w hw => ?_⟩
              rcases Nat.lt_succ_iff_lt_or_eq.1 hc with hca | rfl
              · exact hlt.le.trans (hmin c hca w hw)
              · rw [huniq w hw]
            · rw [better, if_neg hlt]
              refine ⟨b, by omega, rfl, ⟨u, hu1, hu2⟩, fun c hc w hw => ?_⟩
              rcases Nat.lt_succ_iff_lt_or_eq.1 hc with hca | rfl
              · exact hmin c hca w hw
              · rw [huniq w hw]
                exact not_lt.1 hlt)
        (fun c hc u hu => by
          rcases Nat.lt_succ_iff_lt_or_eq.1 hc with hca | rfl
          · exact hno c hca u hu
          · rw [atConfig_unique h.usable.distinct hu h2']
            exact hnm)
        (by omega)
      refine ⟨b', k', h5, h6, h7, h8, h9, fun hb => ?_, fun hb => ?_⟩
      · obtain ⟨c, hc1, hc2, hc3⟩ := h10 hb
        exact ⟨c, by omega, by omega, hc3⟩
      · have he : a + (n + 1) = a + 1 + n := by omega
        rw [he]
        exact h11 hb

/-- **Solving by optimisation.** Whatever the optimiser does, `solve` ends in one of two ways. It returns true exactly if the configuration found in one of the
attempts meets all constraints that are not soft; then the robot is in the first such configuration, where they are met. It returns false if none does;
then the robot is in the configuration found with the least sum of errors of these constraints, or where it was if no attempt is allowed. Joints outside the
node set are not moved, and the update flags of the robot are as before. -/
theorem C106_solve (r : Robot Pose3) (fuel : Nat) (o : Opt) (t : Nat → Nat → ℝ) (opt : Optimiser) (k : OSt) (h : Setting r fuel o t opt k)
    (hr : k.ready = true) :
    ∃ b k', o.solve r fuel t opt false k = .ret b k' ∧ k'.vis = k.vis ∧ k'.col = k.col ∧
      (b = true → ∃ a < o.maxIterations, AtConfig r o.ns.nodes (found r o t opt k.init a) k.rob k'.rob ∧ HardMet o.fns k'.rob ∧
        ∀ a' < a, ∀ u, AtConfig r o.ns.nodes (found r o t opt k.init a') k.rob u → ¬ HardMet o.fns u) ∧
      (b = false → (∀ a < o.maxIterations, ∀ u, AtConfig r o.ns.nodes (found r o t opt k.init a) k.rob u → ¬ HardMet o.fns u) ∧
        ((o.maxIterations = 0 ∧ k'.rob = k.rob) ∨ ∃ a < o.maxIterations, AtConfig r o.ns.nodes (found r o t opt k.init a) k.rob k'.rob ∧
          ∀ a' < o.maxIterations, ∀ u, AtConfig r o.ns.nodes (found r o t opt k.init a') k.rob u →
            hardError o.fns k'.rob ≤ hardError o.fns u)) := by
  unfold Opt.solve
  rw [if_neg (by simp), if_neg (by simp [hr])]
  obtain ⟨b, k', h1, h2, h3, h4, h5, h6, h7⟩ := loop_spec (k.vis, k.col) (s0 := k.rob) (init := k.init) o.maxIterations 0 none
    { k with vis := false, col := o.collision }
    ⟨h.usable, h.quiet, h.fuel, h.fk, h.init, h.limits, h.seeds, h.evals, h.result, h.checks⟩ rfl (same_refl h.fk) rfl
    (by simp) (fun _ => rfl)
  refine ⟨b, k', h1, h2, h3, fun hb => ?_, fun hb => ?_⟩
  · obtain ⟨c, -, hc, h8⟩ := h6 hb
    exact ⟨c, by omega, h8⟩
  · simpa using h7 hb

/-- `solve` step by step, or without `initialize`, throws and changes nothing. -/
theorem C106_refused (r : Robot Pose3) (fuel : Nat) (o : Opt) (t : Nat → Nat → ℝ) (opt : Optimiser) (stepwise : Bool) (k : OSt)
    (h : stepwise = true ∨ k.ready = false) : o.solve r fuel t opt stepwise k = .throw k := by
  unfold Opt.solve
  rcases h with h | h
  · rw [if_pos h]
  · by_cases hs : stepwise = true
    · rw [if_pos hs]
    · rw [if_neg hs, if_pos (by simp [h])]

/-- **Where attempts start**: from the seeds, in the configuration of the seed brought into the joint limits; then at random points, within the limits if the
configuration at the time of `initialize` was, for a displacement factor between 0 and 1. -/
theorem C106_start (r : Robot Pose3) (o : Opt) (t : Nat → Nat → ℝ) (k : OSt) (a : Nat) (hi : k.init.length = o.ns.nodes.length)
    (hlim : ∀ n ∈ o.ns.nodes, (r.lim n).lo ≤ (r.lim n).hi) (hs : ∀ s, Seed.other s ∈ o.seeds → s.length = o.ns.nodes.length)
    (ht : ∀ i, 0 ≤ t a i ∧ t a i ≤ 1) (hd : 0 ≤ o.displacement ∧ o.displacement ≤ 1)
    (hin : o.seeds.length ≤ a → Within r o.ns.nodes k.init) :
    ∃ x, o.start r t k.init a = some x ∧ o.startOk r a x = true ∧ Within r o.ns.nodes x := by
  by_cases ha : a < o.seeds.length
  · obtain ⟨x, h1, h2⟩ := start_seed (t := t) hi hlim hs ha
    exact ⟨x, h1, (startOk_iff h2.1).2 (.inr h2), h2⟩
  · obtain ⟨x, h1, h2, h3⟩ := start_random (r := r) (t := t) hi (by omega : o.seeds.length ≤ a)
    refine ⟨x, h1, (startOk_iff h2).2 (.inl (by omega)), h2, fun i n y hn hy => ?_⟩
    have hlt : i < k.init.length := by
      by_contra hc
      rw [List.getElem?_eq_none (by omega)] at hn
      simp at hn
    have hz := List.getElem?_eq_getElem hlt
    have e := h3 i n y _ hn hy hz
    obtain ⟨l1, l2⟩ := (hin (by omega)).2 i n _ hn hz
    have hl := hlim n (List.mem_of_getElem? hn)
    obtain ⟨t1, t2⟩ := ht i
    obtain ⟨d1, d2⟩ := hd
    generalize k.init[i] = z at *
    subst e
    have m1 : (r.lim n).lo ≤ (r.lim n).lo + t a i * ((r.lim n).hi - (r.lim n).lo) := by
      have := mul_nonneg t1 (sub_nonneg.2 hl); linarith
    have m2 : (r.lim n).lo + t a i * ((r.lim n).hi - (r.lim n).lo) ≤ (r.lim n).hi := by
      have := mul_le_of_le_one_left (sub_nonneg.2 hl) t2; linarith
    generalize (r.lim n).lo + t a i * ((r.lim n).hi - (r.lim n).lo) = w at *
    constructor <;> nlinarith [mul_nonneg d1 (sub_nonneg.2 m1), mul_nonneg d1 (sub_nonneg.2 m2), mul_nonneg (sub_nonneg.2 d2) (sub_nonneg.2 l1),
      mul_nonneg (sub_nonneg.2 d2) (sub_nonneg.2 l2)]

/-- The first seed is the configuration at the time of `initialize`, if that is within the limits. -/
theorem C106_start_initial (r : Robot Pose3) (o : Opt) (t : Nat → Nat → ℝ) (k : OSt) (a : Nat) (ha : o.seeds[a]? = some .initial)
    (hin : Within r o.ns.nodes k.init) : o.start r t k.init a = some k.init := by
  unfold Opt.start
  rw [ha]
  simp only
  rw [if_neg (by have := hin.1; omega)]
  congr 1
  refine List.ext_getElem? fun i => ?_
  rw [List.getElem?_zipWith]
  rcases hn : o.ns.nodes[i]? with _ | n
  · simp only
    rw [List.getElem?_eq_none_iff] at hn
    exact (List.getElem?_eq_none (by have := hin.1; omega)).symm
  · rcases hz : k.init[i]? with _ | z
    · rfl
    · simp only [Option.some.injEq]
      obtain ⟨h1, h2⟩ := hin.2 i n z hn hz
      rw [intoLimits, min_eq_right h2, max_eq_right h1]

/-- **The objective is evaluated where it should be**: if the solver's record of the configuration is right, after each evaluation the robot is in the
configuration asked for, and the record is right again. -/
theorem C106_evaluate_partial (r : Robot Pose3) (fuel : Nat) (o : Opt) (hu : Usable r o.ns) (hf : 0 < fuel) (k : OSt) (hs : FK r k.rob)
    (hh : k.cur.length = o.ns.nodes.length → AtConfig r o.ns.nodes k.cur k.rob k.rob) (x : List ℝ) (hl : x.length = o.ns.nodes.length) :
    ∃ s, o.goTo r fuel x k = .ret () { k with rob := s, cur := x } ∧ AtConfig r o.ns.nodes x k.rob s ∧ AtConfig r o.ns.nodes x s s := by
  obtain ⟨s, h1, h2⟩ := goTo_honest (k := k) hu hf hl hs (fun e => by subst e; exact hh hl)
  exact ⟨s, h1, h2, atConfig_self h2⟩

/-- A constraint as a function for the optimiser: PositionConstraint.cpp 30-45 adds function 0, not soft by default. -/
noncomputable def Position.fn (r : JRobot) (c : Position) : Fn := ⟨c.value, c.gradient r, c.check, false⟩

theorem slide_usable : Usable slide.toRobot ⟨[0], some 0⟩ where
  names := slide_names
  root := by
    intro k hk
    simp only [Option.some.injEq] at hk
    subst hk
    simp [slide, JRobot.toRobot, Kin.sub, Kin.Tree.ids]
  known := by simp [slide, JRobot.toRobot, Kin.Tree.ids]
  distinct := by simp
  quiet _ _ := rfl

/-- **The record can be wrong**: `solve` does not notice that the robot has been moved by somebody else. After the objective has been evaluated in the
configuration 1, the joint is set to 2; when the objective is evaluated again in the configuration 1, the robot stays at 2. -/
theorem C106_evaluate_false : ∃ (r : JRobot) (o : Opt) (k k1 k2 : OSt) (s : St Pose3), Usable r.toRobot o.ns ∧ FK r.toRobot k.rob ∧ k.cur = [] ∧
    o.goTo r.toRobot 1 [1] k = .ret () k1 ∧ setJointValue r.toRobot 1 0 2 k1.rob = some s ∧ o.goTo r.toRobot 1 [1] { k1 with rob := s } = .ret () k2 ∧
    k2.rob.value 0 = 2 := by
  have hs := slide_usable
  obtain ⟨s1, h1, h2, -⟩ := C106_evaluate_partial slide.toRobot 1 ⟨⟨[0], some 0⟩, [], false, [], 1, 1⟩ hs one_pos ⟨slideState, [], [], true, true, true⟩
    slide_fk (by simp) [1] rfl
  obtain ⟨s2, h3, h4⟩ := single_ok (nodes := [0]) slide_names (show 0 ∈ slide.toRobot.tree.ids by simp [slide, JRobot.toRobot, Kin.Tree.ids]) (by simp) rfl one_pos 2
    ((atConfig_iff (by simp)).1 h2).2
  refine ⟨slide, ⟨⟨[0], some 0⟩, [], false, [], 1, 1⟩, ⟨slideState, [], [], true, true, true⟩, _, { rob := s2, cur := [1], init := [], vis := true, col := true, ready := true }, s2, hs, slide_fk, rfl, h1, h3, ?_, ?_⟩
  · simp [Opt.goTo]
  · have := h4.2.2.2.1 0 (by simp)
    rw [this]
    simp [slide, JRobot.toRobot, upd, stored, Kin.clamp]
    norm_num

/-! ## The gradient -/

/-- The sum of the gradients of the functions, entry by entry. -/
noncomputable def gradSum (fns : List Fn) (s : St Pose3) (i : Nat) : ℝ := (fns.map fun f => (f.grad s).getD i 0).sum

theorem fold_grads {r : JRobot} {nodes : List Nat} {s : St Pose3} : ∀ (fns : List Fn) (g : List ℝ), (∀ f ∈ fns, (f.grad s).length = nodes.length) →
    g.length = nodes.length → ∀ (i n : Nat), nodes[i]? = some n →
    (fns.foldl (fun g f => List.zipWith (· + ·) g (List.zipWith (fun x n => x * scaling r n) (f.grad s) nodes)) g)[i]? =
      some (g.getD i 0 + scaling r n * gradSum fns s i)
  | [], g, _, hg, i, n, hn => by
    have : i < g.length := by
      by_contra hc
      rw [List.getElem?_eq_none (by omega)] at hn
      simp at hn
    simp [gradSum, List.getElem?_eq_getElem this]
  | f :: fns, g, hf, hg, i, n, hn => by
    have hi : i < nodes.length := by
      by_contra hc
      rw [List.getElem?_eq_none (by omega)] at hn
      simp at hn
    have hfl := hf f (by simp)
    rw [List.foldl_cons, fold_grads fns _ (fun f' hf' => hf f' (List.mem_cons_of_mem _ hf')) (by simp [hg, hfl]) i n hn]
    have h1 : g[i]? = some g[i] := List.getElem?_eq_getElem (by omega)
    have h2 : (f.grad s)[i]? = some (f.grad s)[i] := List.getElem?_eq_getElem (by omega)
    simp only [gradSum, List.map_cons, List.sum_cons, List.getD_eq_getElem?_getD, List.getElem?_zipWith, h1, h2, hn, Option.getD_some]
    congr 1
    ring

theorem fold_grads_length {r : JRobot} {nodes : List Nat} {s : St Pose3} : ∀ (fns : List Fn) (g : List ℝ), (∀ f ∈ fns, (f.grad s).length = nodes.length) →
    g.length = nodes.length →
    (fns.foldl (fun g f => List.zipWith (· + ·) g (List.zipWith (fun x n => x * scaling r n) (f.grad s) nodes)) g).length = nodes.length
  | [], g, _, hg => hg
  | f :: fns, g, hf, hg => by
    rw [List.foldl_cons]
    exact fold_grads_length fns _ (fun f' hf' => hf f' (List.mem_cons_of_mem _ hf')) (by simp [hg, hf f (by simp)])

/-- **What the optimiser is told**: the value is the sum of the values of all functions, soft or not. The gradient is not that of the value, but, up to a
positive factor, the sum of the gradients with the entries of joints that are not revolute divided by 57; it has length 1, or 0 if that sum is 0. -/
theorem C106_objective_partial (r : JRobot) (o : Opt) (s : St Pose3) (h : ∀ f ∈ o.fns, (f.grad s).length = o.ns.nodes.length) :
    (o.objective r s).1 = (o.fns.map fun f => f.value s).sum ∧ (o.objective r s).2.length = o.ns.nodes.length ∧
    ∃ c, 0 < c ∧ ∀ (i n : Nat), o.ns.nodes[i]? = some n → (o.objective r s).2[i]? = some (c * (scaling r n * gradSum o.fns s i)) := by
  have hz : (zeros o.ns.nodes.length).length = o.ns.nodes.length := by simp [zeros]
  have hl := fold_grads_length (r := r) o.fns _ h hz
  have hg := fold_grads (r := r) o.fns _ h hz
  refine ⟨rfl, ?_, ?_⟩
  · unfold Opt.objective normalize
    dsimp only
    split
    · rw [List.length_map]; exact hl
    · exact hl
  · unfold Opt.objective normalize
    dsimp only
    generalize (o.fns.foldl (fun g f => List.zipWith (· + ·) g (List.zipWith (fun x n => x * scaling r n) (f.grad s) o.ns.nodes))
      (zeros o.ns.nodes.length)) = G at hl hg
    have h0 : ∀ i, (zeros o.ns.nodes.length).getD i 0 = 0 := fun i => by
      simp only [zeros, List.getD_eq_getElem?_getD, List.getElem?_replicate]
      split <;> rfl
    by_cases hpos : 0 < (G.map fun x => x * x).sum
    · rw [if_pos hpos]
      refine ⟨1 / Real.sqrt (G.map fun x => x * x).sum, by positivity, fun i n hn => ?_⟩
      rw [List.getElem?_map, hg i n hn, h0]
      simp only [zero_add, Option.map_some, Option.some.injEq]
      ring
    · rw [if_neg hpos]
      refine ⟨1, one_pos, fun i n hn => ?_⟩
      rw [hg i n hn, h0, zero_add, one_mul]

/-- **The gradient the optimiser is told is not the gradient of the objective**: a slide 10 away from its target. -/
theorem C106_objective_false : ∃ (r : JRobot) (s : St Pose3) (o : Opt) (c : Position), Names r.toRobot ∧ FK r.toRobot s ∧ o.fns = [c.fn r] ∧
    c.nodes = o.ns.nodes ∧ IsTcp r c.obj c.tcp ∧ IsGradient r o.ns.nodes c.value s (c.gradient r s) ∧
    ¬ IsGradient r o.ns.nodes (fun s => (o.objective r s).1) s (o.objective r s).2 := by
  let c : Position := ⟨1, [0], .node 0, 0, ![-10, 0, 0], flagPosition, 1⟩
  have ht : IsTcp slide c.obj c.tcp := ⟨rfl, by simp [c, slide, Kin.Tree.ids]⟩
  have hg := C103_position slide slide_names slideState slide_fk c (by simp [c, slide, Kin.Tree.ids]) ht
  refine ⟨slide, slideState, ⟨⟨[0], some 0⟩, [c.fn slide], false, [], 1, 1⟩, c, slide_names, slide_fk, rfl, rfl, ht, hg, fun h => ?_⟩
  have hv : (fun s => (Opt.objective slide ⟨⟨[0], some 0⟩, [c.fn slide], false, [], 1, 1⟩ s).1) = c.value := by
    funext s
    simp [Opt.objective, Position.fn]
  rw [hv] at h
  have e := gradient_unique h hg (i := 0) (d := 0) rfl rfl (by norm_num [slide, slideState, applyJointValues])
    (by norm_num [slide, slideState, applyJointValues])
  have hp : (slideState.pose 0).pos = 0 := by rw [slide_pose]; rfl
  have hgr : c.gradient slide slideState = [20] := by
    simp only [c, Position.gradient, Position.diff, slide_jacobian]
    simp [scale, rowTimes, entry, flagPosition, flagAll, flagX, flagY, flagZ, hp]
    norm_num
  have hk : scaling slide 0 = 1 / 57 := rfl
  simp only [Opt.objective, List.foldl_cons, List.foldl_nil, Position.fn, hgr, zeros] at e
  norm_num [normalize, hk, List.replicate] at e
  have h1 : Real.sqrt 400 = 20 := by
    rw [show (400 : ℝ) = 20 ^ 2 by norm_num]
    exact Real.sqrt_sq (by norm_num)
  have h2 : Real.sqrt 3249 = 57 := by
    rw [show (3249 : ℝ) = 57 ^ 2 by norm_num]
    exact Real.sqrt_sq (by norm_num)
  norm_num [h1, h2] at e

/-! ## Exceptions and random starts -/

theorem attempt_setting {k : OSt} (hk : FK slide.toRobot k.rob) (hi : k.init.length = 1) (fns : List Fn) (seeds : List Seed)
    (hs : ∀ s, Seed.other s ∈ seeds → s.length = 1) (hc : ∀ f ∈ fns, f.soft = false → ∀ s, f.check s ≠ none) (d : ℝ) (m : Nat) :
    Setting slide.toRobot 1 ⟨⟨[0], some 0⟩, fns, false, seeds, d, m⟩ (fun _ _ => 0) (fun _ _ => ([[2], [1]], [1])) k where
  usable := slide_usable
  quiet _ _ := rfl
  fuel := one_pos
  fk := hk
  init := hi
  limits _ _ := by norm_num [slide, JRobot.toRobot]
  seeds := hs
  evals _ _ x hx := by
    simp only [List.mem_cons, List.not_mem_nil, or_false] at hx
    rcases hx with rfl | rfl <;> rfl
  result _ _ := rfl
  checks := hc

/-- The hypotheses of `C106_solve` are met by a slide with a position constraint. -/
example := C106_solve slide.toRobot 1 ⟨⟨[0], some 0⟩, [(⟨1, [0], .node 0, 0, ![1, 0, 0], flagPosition, 1⟩ : Position).fn slide], false,
  [.initial, .zero, .other [2]], 1, 30⟩ (fun _ _ => 0) (fun _ _ => ([[2], [1]], [1])) ⟨slideState, [], [0], true, true, true⟩
  (attempt_setting slide_fk rfl _ _ (by simp) (by
    intro f hf _ s
    simp only [List.mem_singleton] at hf
    subst hf
    simp [Position.fn, Position.check, flagPosition, flagX, flagY, flagZ]) _ _) rfl

theorem goTo_keeps {r : Robot Pose3} {fuel : Nat} {o : Opt} {x : List ℝ} {k k' : OSt} (h : o.goTo r fuel x k = .ret () k' ∨ o.goTo r fuel x k = .throw k') :
    k'.vis = k.vis ∧ k'.col = k.col := by
  unfold Opt.goTo at h
  by_cases hx : x = k.cur
  · rw [if_pos hx] at h
    rcases h with h | h
    · injection h with _ h; subst h; exact ⟨rfl, rfl⟩
    · cases h
  · rw [if_neg hx] at h
    rcases hs : o.ns.setJointValues r fuel x k.rob with s | _ | _ <;> rw [hs] at h
    · rcases h with h | h
      · injection h with _ h; subst h; exact ⟨rfl, rfl⟩
      · cases h
    · rcases h with h | h
      · cases h
      · injection h with h; subst h; exact ⟨rfl, rfl⟩
    · rcases h with h | h <;> cases h

/-- **An exception leaves the robot with its updates switched off**: a constraint for the selection X|Y, for which `checkTolerances` throws. -/
theorem C106_flags_false : ∃ (r : JRobot) (o : Opt) (t : Nat → Nat → ℝ) (opt : Optimiser) (c : Position) (k k' : OSt), Usable r.toRobot o.ns ∧
    FK r.toRobot k.rob ∧ o.fns = [c.fn r] ∧ k.vis = true ∧ k.col = true ∧ o.solve r.toRobot 1 t opt false k = .throw k' ∧ k'.vis = false ∧
    k'.col = false := by
  let c : Position := ⟨1, [0], .node 0, 0, ![1, 0, 0], 3, 1⟩
  have hset := attempt_setting (k := ⟨slideState, [], [0], false, false, true⟩) slide_fk rfl [] [.initial] (by simp) (by simp) 1 1
  obtain ⟨s1, c1, h1, h2⟩ := attempt_ok hset 0
  have h1' : Opt.attempt slide.toRobot 1 ⟨⟨[0], some 0⟩, [c.fn slide], false, [.initial], 1, 1⟩ (fun _ _ => 0) (fun _ _ => ([[2], [1]], [1])) 0
      ⟨slideState, [], [0], false, false, true⟩ = .ret [1] ⟨s1, c1, [0], false, false, true⟩ := h1
  obtain ⟨s2, h3, -⟩ := goTo_honest (o := ⟨⟨[0], some 0⟩, [c.fn slide], false, [.initial], 1, 1⟩) (k := ⟨s1, c1, [0], false, false, true⟩) slide_usable
    one_pos (x := [1]) rfl (atConfig_same h2).2.1 (fun _ => atConfig_self h2)
  have hc : hardSum s2 [c.fn slide] = none := by
    have : c.check s2 = none := by simp [c, Position.check, flagPosition, flagAll, flagOrientation, flagX, flagY, flagZ]
    simp [hardSum, Position.fn, this]
  refine ⟨slide, ⟨⟨[0], some 0⟩, [c.fn slide], false, [.initial], 1, 1⟩, fun _ _ => 0, fun _ _ => ([[2], [1]], [1]), c, ⟨slideState, [], [0], true, true, true⟩,
    ⟨s2, [1], [0], false, false, true⟩, slide_usable, slide_fk, rfl, rfl, rfl, ?_, rfl, rfl⟩
  unfold Opt.solve
  rw [if_neg (by simp), if_neg (by simp)]
  show Opt.loop _ _ _ _ _ _ (0 + 1) _ _ _ = _
  rw [Opt.loop, h1']
  simp only
  unfold Opt.hard
  rw [h3]
  simp only
  rw [hc]

/-- **Random starting points can lie outside the limits** if the robot was outside when `initialize` was called: limits from -3 to 3, not enforced, the
joint at 9, and a displacement factor of 1/2. -/
theorem C106_start_false : ∃ (r : Robot Pose3) (o : Opt) (t : Nat → Nat → ℝ) (k : OSt), (∀ a i, 0 ≤ t a i ∧ t a i ≤ 1) ∧ 0 ≤ o.displacement ∧
    o.displacement ≤ 1 ∧ (∀ n ∈ o.ns.nodes, (r.lim n).lo ≤ (r.lim n).hi) ∧
    ∃ x, o.start r t (o.initialize k).init 0 = some x ∧ o.startOk r 0 x = true ∧ ¬ Within r o.ns.nodes x := by
  refine ⟨{ slide.toRobot with lim := fun _ => ⟨-3, 3, false, false⟩ }, ⟨⟨[0], some 0⟩, [], false, [], 1 / 2, 30⟩, fun _ _ => 1,
    ⟨⟨1, fun _ => 9, fun _ => 1⟩, [], [], true, true, true⟩, by simp, by norm_num, by norm_num, by norm_num, [6], ?_, ?_, ?_⟩
  · simp [Opt.start, Opt.initialize]
    norm_num
  · simp [Opt.startOk]
  · intro h
    have := h.2 0 0 6 rfl rfl
    norm_num at this

end Simox.Cst
