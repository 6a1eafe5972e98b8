import Verif.Gpn.ApproachLemmas

namespace Simox.Gpn

open Matrix Jac Rot Kin

variable {H C : Type}

/-- The demands of a planner are only changed by `setParameters`. -/
def Same (p p' : Planner H C) : Prop :=
  p'.minQuality = p.minQuality ∧ p'.forceClosure = p.forceClosure ∧ p'.retreatOnLowContacts = p.retreatOnLowContacts

theorem Same.trans {p q r : Planner H C} (a : Same p q) (b : Same q r) : Same p r :=
  ⟨b.1.trans a.1, b.2.1.trans a.2.1, b.2.2.trans a.2.2⟩

theorem hitsObstacles_false {w : World H C} {h : Hand H} (hh : w.hitsObstacles h = false) :
    ∀ f, w.obstacles = some f → f h.root h.cfg = false := by
  intro f hf
  unfold World.hitsObstacles at hh
  rw [hf] at hh
  exact hh

/-- If there are two contacts they come from closing the fingers where the hand is. -/
theorem grab_spec (w : World H C) (b : Bool) (dir : V3) (h : Hand H) (h2 : 2 ≤ (w.grab b dir h).2.length) :
    ∃ c, (w.grab b dir h).1.cfg = (w.close (w.grab b dir h).1.root c).1 ∧
      (w.grab b dir h).2 = (w.close (w.grab b dir h).1.root c).2 ++
        w.statics (w.grab b dir h).1.root (w.grab b dir h).1.cfg dir := by
  unfold World.grab at h2 ⊢
  dsimp only at h2 ⊢
  by_cases hc : (b && decide ((((w.closeActors h).2 ++ w.statics (w.closeActors h).1.root (w.closeActors h).1.cfg dir).length) < 2)) = true
  · rw [if_pos hc] at h2 ⊢
    by_cases hm : (w.retreat ((5 : ℝ) • dir) 10 (w.closeActors h).1).2 = true
    · rw [if_pos hm]
      exact ⟨_, rfl, rfl⟩
    · rw [if_neg hm] at h2
      exfalso
      simp only [Bool.and_eq_true, decide_eq_true_eq] at hc
      dsimp only at h2
      omega
  · rw [if_neg hc]
    exact ⟨_, rfl, rfl⟩

/-- The four ways planning a grasp ends. -/
theorem planGrasp_cases (w : World H C) (h : Hand H) (dir : V3) (bRes : Bool) (ms : ℝ) (p : Planner H C) :
    ∃ (h' : Hand H) (cs : List C) (r : Hand H × Planner H C × Option (Grasp H)),
      w.planGrasp h dir bRes ms p = r ∧
      ((r = (h', { p with contacts := cs, eval := { p.eval.record ms 0 false with
            nrGraspsInvalidCollision := p.eval.nrGraspsInvalidCollision + 1 } }, none) ∧
          (bRes = false ∨ w.hitsObstacles h = true ∨ w.hitsObstacles h' = true)) ∨
       (r = (h', { p with contacts := cs, eval := { p.eval.record ms 0 false with
            nrGraspsInvalidContacts := p.eval.nrGraspsInvalidContacts + 1 } }, none) ∧
          cs.length < 2 ∧ bRes = true ∧ w.hitsObstacles h = false ∧ w.hitsObstacles h' = false) ∨
       (∃ s, r = (h', { p with contacts := cs, eval := { p.eval.record ms s false with
            nrGraspsInvalidFC := p.eval.nrGraspsInvalidFC + 1 } }, none) ∧ 2 ≤ cs.length ∧
          ((p.forceClosure = true ∧ w.closed cs = false) ∨ w.quality cs < p.minQuality) ∧
          bRes = true ∧ w.hitsObstacles h = false ∧ w.hitsObstacles h' = false) ∨
       (∃ g, r = (h', { p with contacts := cs, eval := { p.eval.record ms (w.quality cs) true with
            nrGraspsValid := p.eval.nrGraspsValid + 1
            nrGraspsValidPower := p.eval.nrGraspsValidPower + 1 } }, some g) ∧
          Good w p.minQuality p.forceClosure h' cs g ∧ g.name = p.graspSet.length + 1 ∧
          bRes = true ∧ w.hitsObstacles h = false ∧ w.hitsObstacles h' = false)) := by
  by_cases hb : (bRes && !w.hitsObstacles h) = true
  · have hb' : bRes = true ∧ w.hitsObstacles h = false := by simpa using hb
    refine ⟨(w.grab p.retreatOnLowContacts dir h).1, (w.grab p.retreatOnLowContacts dir h).2, _, rfl, ?_⟩
    unfold World.planGrasp
    dsimp only
    rw [if_pos hb]
    have hg := grab_spec w p.retreatOnLowContacts dir h
    generalize w.grab p.retreatOnLowContacts dir h = r at hg ⊢
    obtain ⟨h', cs⟩ := r
    dsimp only at hg ⊢
    cases ho : w.hitsObstacles h' with
    | true =>
        left
        rw [if_pos (by simp)]
        exact ⟨rfl, .inr (.inr rfl)⟩
    | false =>
        right
        rw [if_neg (by simp [hb'])]
        by_cases h2 : cs.length < 2
        · left
          rw [if_pos h2]
          exact ⟨rfl, h2, hb'.1, hb'.2, rfl⟩
        · right
          rw [if_neg h2]
          have h2' : 2 ≤ cs.length := not_lt.1 h2
          by_cases hf : (p.forceClosure && !w.closed cs) = true
          · left
            rw [if_pos hf]
            have hf' : p.forceClosure = true ∧ w.closed cs = false := by simpa using hf
            exact ⟨0, rfl, h2', .inl hf', hb'.1, hb'.2, rfl⟩
          · rw [if_neg hf]
            by_cases hq : w.quality cs < p.minQuality
            · left
              rw [if_pos hq]
              exact ⟨w.quality cs, rfl, h2', .inr hq, hb'.1, hb'.2, rfl⟩
            · right
              rw [if_neg hq]
              obtain ⟨c, hc1, hc2⟩ := hg h2'
              refine ⟨_, rfl, ⟨hitsObstacles_false ho, ⟨c, dir, hc1, hc2⟩, h2', ?_, not_lt.1 hq, rfl, rfl, ?_⟩, rfl,
                hb'.1, hb'.2, rfl⟩
              · intro h1
                simpa [h1] using hf
              · simp only [Grasp.tcpPoseGlobal, World.graspOf]
                group
  · refine ⟨h, [], _, rfl, .inl ?_⟩
    have hb' : (bRes && !w.hitsObstacles h) = false := by simpa using hb
    unfold World.planGrasp
    dsimp only
    rw [if_neg hb, hb', if_pos (by simp)]
    refine ⟨rfl, ?_⟩
    rcases Bool.eq_false_or_eq_true bRes with h1 | h1
    · right; left; simpa [h1] using hb'
    · exact .inl h1

theorem record_ok {ev : Eval} (h : Consistent ev) (ms s : ℝ) :
    Consistent { ev.record ms s false with nrGraspsInvalidCollision := ev.nrGraspsInvalidCollision + 1 } ∧
    Consistent { ev.record ms s false with nrGraspsInvalidContacts := ev.nrGraspsInvalidContacts + 1 } ∧
    Consistent { ev.record ms s false with nrGraspsInvalidFC := ev.nrGraspsInvalidFC + 1 } ∧
    Consistent { ev.record ms s true with
      nrGraspsValid := ev.nrGraspsValid + 1, nrGraspsValidPower := ev.nrGraspsValidPower + 1 } := by
  obtain ⟨h1, h2, h3, h4, h5, h6, h7, h8⟩ := h
  refine ⟨?_, ?_, ?_, ?_⟩ <;>
    exact ⟨by simp only [Eval.record]; omega, by simp [Eval.record, h2], by simp [Eval.record, h3],
      by simp [Eval.record, h4], by simp [Eval.record, h5, List.replicate_succ'], by simp [Eval.record, h6],
      by simp [Eval.record, h7, h8]⟩

theorem planGrasp_consistent (w : World H C) (h : Hand H) (dir : V3) (bRes : Bool) (ms : ℝ) (p : Planner H C)
    (hp : Consistent p.eval) : Consistent (w.planGrasp h dir bRes ms p).2.1.eval := by
  obtain ⟨h', cs, r, hr, hc⟩ := planGrasp_cases w h dir bRes ms p
  rw [hr]
  rcases hc with ⟨rfl, -⟩ | ⟨rfl, -⟩ | ⟨s, rfl, -⟩ | ⟨g, rfl, -⟩
  · exact (record_ok hp ms 0).1
  · exact (record_ok hp ms 0).2.1
  · exact (record_ok hp ms s).2.2.1
  · exact (record_ok hp ms _).2.2.2

theorem planGrasp_frame (w : World H C) (h : Hand H) (dir : V3) (bRes : Bool) (ms : ℝ) (p : Planner H C) :
    Same p (w.planGrasp h dir bRes ms p).2.1 ∧ (w.planGrasp h dir bRes ms p).2.1.graspSet = p.graspSet ∧
      (w.planGrasp h dir bRes ms p).2.1.plannedGrasps = p.plannedGrasps := by
  obtain ⟨h', cs, r, hr, hc⟩ := planGrasp_cases w h dir bRes ms p
  rw [hr]
  rcases hc with ⟨rfl, -⟩ | ⟨rfl, -⟩ | ⟨s, rfl, -⟩ | ⟨g, rfl, -⟩ <;> exact ⟨⟨rfl, rfl, rfl⟩, rfl, rfl⟩

theorem planGrasp_good (w : World H C) (h : Hand H) (dir : V3) (bRes : Bool) (ms : ℝ) (p : Planner H C) (g : Grasp H)
    (hg : (w.planGrasp h dir bRes ms p).2.2 = some g) :
    Good w p.minQuality p.forceClosure (w.planGrasp h dir bRes ms p).1 (w.planGrasp h dir bRes ms p).2.1.contacts g ∧
      g.name = p.graspSet.length + 1 := by
  obtain ⟨h', cs, r, hr, hc⟩ := planGrasp_cases w h dir bRes ms p
  rw [hr] at hg ⊢
  rcases hc with ⟨rfl, -⟩ | ⟨rfl, -⟩ | ⟨s, rfl, -⟩ | ⟨g', rfl, hgood, hname, -⟩
  · cases hg
  · cases hg
  · cases hg
  · simp only [Option.some.injEq] at hg
    subst hg
    exact ⟨hgood, hname⟩

/-- The loop of `plan`. -/
theorem planLoop_spec (w : World H C) (nr tm : ℤ) :
    ∀ (ts : List (Turn H)) (k : ℕ) (h : Hand H) (p : Planner H C) (r : ℕ × Hand H × Planner H C),
      w.planLoop nr tm ts k h p = some r →
      ∃ gs : List (Grasp H), r.1 = k + gs.length ∧ r.2.2.graspSet = p.graspSet ++ gs ∧
        r.2.2.plannedGrasps = p.plannedGrasps ++ gs ∧ ((k : ℤ) ≤ max nr 0 → (r.1 : ℤ) ≤ max nr 0) ∧
        (nr ≤ r.1 ∨ ∃ t ∈ ts, timeout tm t.now = true) ∧ Same p r.2.2 ∧
        (Consistent p.eval → Consistent r.2.2.eval) ∧
        (∀ g ∈ gs, ∃ h cs, Good w p.minQuality p.forceClosure h cs g) ∧
        (gs.map Grasp.name = (List.range gs.length).map (fun i => p.graspSet.length + 1 + i))
  | [], k, h, p, r, hr => by cases hr
  | t :: ts, k, h, p, r, hr => by
      unfold World.planLoop at hr
      by_cases hc : (!timeout tm t.now && decide ((k : ℤ) < nr)) = true
      · rw [if_pos hc] at hr
        dsimp only at hr
        have hk : (k : ℤ) < nr := by simp at hc; exact hc.2
        have hfr := planGrasp_frame w (t.approach h).1 (t.approach h).2.1 (t.approach h).2.2 t.ms p
        have hcons := planGrasp_consistent w (t.approach h).1 (t.approach h).2.1 (t.approach h).2.2 t.ms p
        have hgood := planGrasp_good w (t.approach h).1 (t.approach h).2.1 (t.approach h).2.2 t.ms p
        generalize w.planGrasp (t.approach h).1 (t.approach h).2.1 (t.approach h).2.2 t.ms p = q at hr hfr hcons hgood
        obtain ⟨h', p', og⟩ := q
        dsimp only at hr hfr hcons hgood
        obtain ⟨hsame, hset, hpl⟩ := hfr
        cases og with
        | none =>
            dsimp only at hr
            obtain ⟨gs, h1, h2, h3, h4, h5, h6, h7, h8, h9⟩ := planLoop_spec w nr tm ts k h' p' r hr
            refine ⟨gs, h1, by rw [h2, hset], by rw [h3, hpl], h4, ?_, hsame.trans h6, fun hp => h7 (hcons hp), ?_, by rw [h9, hset]⟩
            · rcases h5 with h5 | ⟨t', ht', h5⟩
              · exact .inl h5
              · exact .inr ⟨t', List.mem_cons_of_mem _ ht', h5⟩
            · rw [hsame.1, hsame.2.1] at h8; exact h8
        | some g =>
            dsimp only at hr
            obtain ⟨gs, h1, h2, h3, h4, h5, h6, h7, h8, h9⟩ := planLoop_spec w nr tm ts (k + 1) h'
              { p' with graspSet := p'.graspSet ++ [g], plannedGrasps := p'.plannedGrasps ++ [g] } r hr
            obtain ⟨hg1, hg2⟩ := hgood g rfl
            dsimp only at h2 h3 h6 h7 h8 h9
            refine ⟨g :: gs, by rw [h1]; simp; omega, by rw [h2, hset]; simp, by rw [h3, hpl]; simp, ?_, ?_, ?_,
              fun hp => h7 (hcons hp), ?_, ?_⟩
            · intro _
              apply h4
              push_cast
              omega
            · rcases h5 with h5 | ⟨t', ht', h5⟩
              · exact .inl h5
              · exact .inr ⟨t', List.mem_cons_of_mem _ ht', h5⟩
            · exact hsame.trans h6
            · intro g' hg'
              rcases List.mem_cons.1 hg' with rfl | hg'
              · exact ⟨_, _, hg1⟩
              · rw [← hsame.1, ← hsame.2.1]; exact h8 g' hg'
            · rw [List.map_cons, h9, hg2, List.length_cons, List.range_succ_eq_map, hset]
              simp only [List.map_cons, List.map_map, List.length_append, List.length_cons, List.length_nil]
              congr 1
              apply List.map_congr_left
              intro i _
              simp only [Function.comp]
              omega
      · rw [if_neg hc] at hr
        simp only [Option.some.injEq] at hr
        subst hr
        refine ⟨[], by simp, by simp, by simp, fun h => h, ?_, ⟨rfl, rfl, rfl⟩, fun h => h, by simp, by simp⟩
        by_cases ht : timeout tm t.now = true
        · exact .inr ⟨t, by simp, ht⟩
        · left
          simp only [Bool.not_eq_true] at ht
          simpa [ht] using hc

/-- `plan` ends as soon as the time is up. -/
theorem planLoop_ends (w : World H C) (nr tm : ℤ) :
    ∀ (ts : List (Turn H)) (k : ℕ) (h : Hand H) (p : Planner H C), (∃ t ∈ ts, timeout tm t.now = true) →
      (w.planLoop nr tm ts k h p).isSome
  | [], _, _, _, ⟨t, ht, _⟩ => by cases ht
  | t :: ts, k, h, p, hx => by
      unfold World.planLoop
      by_cases hc : (!timeout tm t.now && decide ((k : ℤ) < nr)) = true
      · rw [if_pos hc]
        dsimp only
        have hts : ∃ t ∈ ts, timeout tm t.now = true := by
          obtain ⟨t', ht', h'⟩ := hx
          rcases List.mem_cons.1 ht' with rfl | ht'
          · simp [h'] at hc
          · exact ⟨t', ht', h'⟩
        generalize w.planGrasp (t.approach h).1 (t.approach h).2.1 (t.approach h).2.2 t.ms p = q
        obtain ⟨h', p', og⟩ := q
        cases og with
        | none => exact planLoop_ends w nr tm ts k h' p' hts
        | some g => exact planLoop_ends w nr tm ts (k + 1) h' _ hts
      · rw [if_neg hc]
        rfl

/-- The retreat of the planner. -/
theorem retreat_spec (w : World H C) (d : V3) (hm : w.eef.preshapeTcp = none)
    (ho : ∀ c c', w.eef.opened c = w.eef.opened c') (c₀ : H) :
    ∀ (n : ℕ) (h : Hand H), (h.root.rot = 1 ∨ (h.root * w.eef.gcp (w.eef.opened c₀)).rot ≠ 1) →
      ∀ h', w.retreat d n h = (h', true) →
        ∃ k, 1 ≤ k ∧ k ≤ n ∧ h' = (⟨h.root, w.eef.opened c₀⟩ : Hand H).shift ((k : ℝ) • d) ∧ Free w.eef h' ∧
          2 ≤ (w.close h'.root h'.cfg).2.length
  | 0, h, _, h', hr => by simp [World.retreat] at hr
  | n + 1, h, hs, h', hr => by
      unfold World.retreat at hr
      dsimp only at hr
      have ho' : w.eef.openHand h = ⟨h.root, w.eef.opened c₀⟩ := by
        unfold Eef.openHand; rw [ho h.cfg c₀]
      have hu : w.eef.update d (w.eef.openHand h) = (⟨h.root, w.eef.opened c₀⟩ : Hand H).shift d := by
        rw [ho']
        exact update_shift _ _ _ hm (by rcases hs with hs | hs; exacts [.inr hs, .inl hs])
      rw [hu] at hr
      by_cases hh : w.eef.hits ((⟨h.root, w.eef.opened c₀⟩ : Hand H).shift d).root ((⟨h.root, w.eef.opened c₀⟩ : Hand H).shift d).cfg = true
      · rw [if_pos hh] at hr; simp at hr
      · rw [if_neg hh] at hr
        by_cases hc : (w.closeActors ((⟨h.root, w.eef.opened c₀⟩ : Hand H).shift d)).2.length ≥ 2
        · rw [if_pos hc] at hr
          simp only [Prod.mk.injEq, and_true] at hr
          have he : h' = (⟨h.root, w.eef.opened c₀⟩ : Hand H).shift d := by
            rw [← hr]
            unfold Eef.openHand World.closeActors
            simp only [Hand.shift]
            congr 1
            exact ho _ _
          refine ⟨1, le_refl _, by omega, by simpa using he, ?_, ?_⟩
          · rw [he]; simpa [Free] using hh
          · rw [he]; exact hc
        · rw [if_neg hc] at hr
          obtain ⟨k, hk1, hk2, hk3, hk4, hk5⟩ := retreat_spec w d hm ho c₀ n
            (w.closeActors ((⟨h.root, w.eef.opened c₀⟩ : Hand H).shift d)).1 hs h' hr
          refine ⟨k + 1, by omega, by omega, ?_, hk4, hk5⟩
          rw [hk3]
          simp only [Hand.shift, World.closeActors]
          congr 2
          push_cast
          rw [add_smul, one_smul]
          abel

end Simox.Gpn
