import Verif.Gpl.QualityProps

/-!
# C112: a measure in use; C113: the samples of the object
-/

namespace Simox.Gpl

open Matrix Jac Rot Spec

/-- What a user can do with a measure of the wrench space. -/
inductive Op where
  | setInfos (infos : List ContactInfo)
  | setPoints (points : List ContactPoint)
  | preCalculatedOWS (minDist volume : ℝ)
  | calculateOWS (rnd : List ℕ) (faces : List MeshFace) (samples : ℕ)
  | calculateGWS
  | getGraspQuality (rnd : List ℕ) (faces : List MeshFace)
  | isGraspForceClosure
  | getVolumeGraspMeasure

/-- One step. -/
noncomputable def Op.run (cfg : Cfg) (s : St) : Op → St
  | .setInfos l => s.setInfos cfg l
  | .setPoints l => s.setPoints cfg l
  | .preCalculatedOWS m v => s.preCalculatedOWS m v
  | .calculateOWS rnd faces n => s.calculateOWS cfg rnd faces n
  | .calculateGWS => s.calculateGWS cfg
  | .getGraspQuality rnd faces => (s.getGraspQuality cfg rnd faces).1
  | .isGraspForceClosure => (s.isGraspForceClosure cfg).1
  | .getVolumeGraspMeasure => (s.getVolumeGraspMeasure cfg).1

/-- A history, from the constructor on. -/
noncomputable def runAll (cfg : Cfg) (ops : List Op) : St := ops.foldl (Op.run cfg) St.new

/-- The contacts set last (the overload for contact points sets none, `C108_points_false`). -/
def current : List Op → List ContactInfo :=
  List.foldl (fun cur op => match op with
    | .setInfos l => l
    | .setPoints _ => []
    | _ => cur) []

/-- The invariant of the histories. -/
structure Inv (cfg : Cfg) (s : St) (cur : List ContactInfo) : Prop where
  contacts : s.contacts = setInfos cfg.centerOfModel cur
  hull : s.GWSCalculated = true → cur ≠ [] ∧
    s.convexHullGWS = some (createConvexHull cfg.qhull (pointsOf cfg cur))

theorem isEmpty_iff (cfg : Cfg) (cur : List ContactInfo) :
    (setInfos cfg.centerOfModel cur).contactPointsM.isEmpty = true ↔ cur = [] := by
  cases cur <;> simp [setInfos, convertMM2M]

theorem Inv.gws {cfg : Cfg} {s : St} {cur : List ContactInfo} (h : Inv cfg s cur) : Inv cfg (s.calculateGWS cfg) cur := by
  rw [St.calculateGWS]
  split_ifs with he
  · exact h
  · rw [h.contacts, isEmpty_iff] at he
    refine ⟨h.contacts, fun _ => ⟨he, ?_⟩⟩
    simp only [calculateConvexHull, h.contacts, pointsOf]

theorem Inv.need {cfg : Cfg} {s : St} {cur : List ContactInfo} (h : Inv cfg s cur) : Inv cfg (s.needGWS cfg) cur := by
  rw [St.needGWS]
  split_ifs
  · exact h
  · exact h.gws

theorem Inv.ows {cfg : Cfg} {s : St} {cur : List ContactInfo} (h : Inv cfg s cur) (rnd : List ℕ) (faces : List MeshFace)
    (n : ℕ) : Inv cfg (s.calculateOWS cfg rnd faces n) cur := by
  simp only [St.calculateOWS]
  split_ifs
  · exact h
  · exact ⟨h.contacts, h.hull⟩

theorem Inv.obj {cfg : Cfg} {s : St} {cur : List ContactInfo} (h : Inv cfg s cur) (rnd : List ℕ) (faces : List MeshFace) :
    Inv cfg (s.calculateObjectProperties cfg rnd faces) cur := by
  rw [St.calculateObjectProperties]
  split_ifs
  · exact h
  · exact h.ows _ _ _

theorem inv_runAll (cfg : Cfg) (ops : List Op) : Inv cfg (runAll cfg ops) (current ops) := by
  have key : ∀ (ops : List Op) (s : St) (cur : List ContactInfo), Inv cfg s cur →
      Inv cfg (ops.foldl (Op.run cfg) s) (ops.foldl (fun cur op => match op with
        | .setInfos l => l
        | .setPoints _ => []
        | _ => cur) cur) := by
    intro ops
    induction ops with
    | nil => intro s cur h; exact h
    | cons op ops ih =>
        intro s cur h
        rw [List.foldl_cons, List.foldl_cons]
        apply ih
        cases op with
        | setInfos l => exact ⟨rfl, fun h => by simp [Op.run, St.setInfos] at h⟩
        | setPoints l => exact ⟨rfl, fun h => by simp [Op.run, St.setPoints] at h⟩
        | preCalculatedOWS m v => exact ⟨h.contacts, h.hull⟩
        | calculateOWS rnd faces n => exact h.ows _ _ _
        | calculateGWS => exact h.gws
        | getGraspQuality rnd faces =>
            have := (h.obj rnd faces).need
            exact ⟨this.contacts, this.hull⟩
        | isGraspForceClosure => exact h.need
        | getVolumeGraspMeasure => exact h.need
  exact key ops St.new [] ⟨rfl, fun h => by simp [St.new] at h⟩

theorem need_hull {cfg : Cfg} {s : St} {cur : List ContactInfo} (h : Inv cfg s cur) (hne : cur ≠ []) :
    (s.needGWS cfg).GWSCalculated = true ∧
      (s.needGWS cfg).convexHullGWS = some (createConvexHull cfg.qhull (pointsOf cfg cur)) := by
  have hg : (s.needGWS cfg).GWSCalculated = true := by
    rw [St.needGWS]
    split_ifs with h1
    · exact h1
    · rw [St.calculateGWS, h.contacts, if_neg (by rwa [isEmpty_iff])]
  exact ⟨hg, (h.need.hull hg).2⟩

theorem need_empty {cfg : Cfg} {s : St} (h : Inv cfg s []) : (s.needGWS cfg).GWSCalculated = false := by
  by_contra h1
  rw [Bool.not_eq_false] at h1
  exact (h.need.hull h1).1 rfl

theorem need_new {cfg : Cfg} {t : St} (hg : t.GWSCalculated = false) (he : t.contacts.contactPointsM.isEmpty = false) :
    t.needGWS cfg = { t with
      convexHullGWS := some (calculateConvexHull cfg (conesOf cfg.cone t.contacts.contactPointsM))
      GWSCalculated := true } := by
  rw [St.needGWS, if_neg (by simp [hg]), St.calculateGWS, if_neg (by simp [he])]

theorem need_none {cfg : Cfg} {t : St} (hg : t.GWSCalculated = false) (he : t.contacts.contactPointsM.isEmpty = true) :
    t.needGWS cfg = t := by
  rw [St.needGWS, if_neg (by simp [hg]), St.calculateGWS, if_pos he]

theorem obj_done {cfg : Cfg} {t : St} {rnd : List ℕ} {faces : List MeshFace} (h : t.OWSCalculated = true) :
    t.calculateObjectProperties cfg rnd faces = t := if_pos h

theorem need_need (cfg : Cfg) (t : St) : (t.needGWS cfg).needGWS cfg = t.needGWS cfg := by
  by_cases hg : t.GWSCalculated = true
  · have : t.needGWS cfg = t := if_pos hg
    rw [this, this]
  · rw [Bool.not_eq_true] at hg
    by_cases he : t.contacts.contactPointsM.isEmpty = true
    · rw [need_none hg he, need_none hg he]
    · rw [Bool.not_eq_true] at he
      rw [need_new hg he]
      exact if_pos rfl

theorem need_quality (cfg : Cfg) (t : St) (q : ℝ) : ({ t with graspQuality := q } : St).needGWS cfg =
    { t.needGWS cfg with graspQuality := q } := by
  simp only [St.needGWS, St.calculateGWS]
  split_ifs <;> rfl

/-- **C112 (force closure in use).** After every history of calls, the answer of `isGraspForceClosure` is that
of a new measure given the contacts that were set last; with no contacts it is "no". -/
theorem C112_closure (cfg : Cfg) (ops : List Op) :
    ((runAll cfg ops).isGraspForceClosure cfg).2 =
      ((St.new.setInfos cfg (current ops)).isGraspForceClosure cfg).2 ∧
    (current ops = [] → ((runAll cfg ops).isGraspForceClosure cfg).2 = false) := by
  have h := inv_runAll cfg ops
  have h0 : Inv cfg (St.new.setInfos cfg (current ops)) (current ops) :=
    ⟨rfl, fun h => by simp [St.setInfos] at h⟩
  have hempty : ∀ s, Inv cfg s [] → (s.isGraspForceClosure cfg).2 = false := by
    intro s hs
    simp only [St.isGraspForceClosure, need_empty hs]
  by_cases hne : current ops = []
  · rw [hne] at h h0 ⊢
    exact ⟨by rw [hempty _ h, hempty _ h0], fun _ => hempty _ h⟩
  · refine ⟨?_, fun h => absurd h hne⟩
    simp only [St.isGraspForceClosure]
    rw [(need_hull h hne).1, (need_hull h hne).2, (need_hull h0 hne).1, (need_hull h0 hne).2]

/-- **C112 (quality in use, partial).** After every history of calls that leaves the measure with contacts,
the quality and the volume measure for given values of the object wrench space are those of a new measure
given the contacts that were set last. Missing: histories that end without contacts, for which it is false
(`C112_stale_false`), and values of the object wrench space from samples, which depend on the draws. -/
theorem C112_quality_partial (cfg : Cfg) (ops : List Op) (hne : current ops ≠ []) (m v : ℝ)
    (rnd : List ℕ) (faces : List MeshFace) :
    (((runAll cfg ops).preCalculatedOWS m v).getGraspQuality cfg rnd faces).2 =
      (((St.new.setInfos cfg (current ops)).preCalculatedOWS m v).getGraspQuality cfg rnd faces).2 ∧
    (((runAll cfg ops).preCalculatedOWS m v).getVolumeGraspMeasure cfg).2 =
      (((St.new.setInfos cfg (current ops)).preCalculatedOWS m v).getVolumeGraspMeasure cfg).2 := by
  have hkeep : ∀ s : St, (s.needGWS cfg).minOffsetOWS = s.minOffsetOWS ∧ (s.needGWS cfg).volumeOWS = s.volumeOWS := by
    intro s
    rw [St.needGWS]
    split_ifs
    · exact ⟨rfl, rfl⟩
    · rw [St.calculateGWS]
      split_ifs <;> exact ⟨rfl, rfl⟩
  have key : ∀ s, Inv cfg s (current ops) →
      ((s.preCalculatedOWS m v).getGraspQuality cfg rnd faces).2 =
        qualityOf (some (createConvexHull cfg.qhull (pointsOf cfg (current ops)))) m ∧
      ((s.preCalculatedOWS m v).getVolumeGraspMeasure cfg).2 =
        volumeOf (some (createConvexHull cfg.qhull (pointsOf cfg (current ops)))) (some v) := by
    intro s hs
    have hp : Inv cfg (s.preCalculatedOWS m v) (current ops) := ⟨hs.contacts, hs.hull⟩
    constructor
    · have ho : (s.preCalculatedOWS m v).calculateObjectProperties cfg rnd faces = s.preCalculatedOWS m v := if_pos rfl
      simp only [St.getGraspQuality, ho, St.calculateGraspQuality]
      rw [(need_hull hp hne).2, (hkeep _).1]
      rfl
    · simp only [St.getVolumeGraspMeasure]
      rw [(need_hull hp hne).2, (hkeep _).2]
      rfl
  have h := key _ (inv_runAll cfg ops)
  have h0 := key (St.new.setInfos cfg (current ops)) ⟨rfl, fun h => by simp [St.setInfos] at h⟩
  exact ⟨h.1.trans h0.1.symm, h.2.trans h0.2.symm⟩

/-- Not vacuous: contacts are set, a quality asked for, other contacts set. -/
example (x y : ContactInfo) : current [.setInfos [x], .getGraspQuality [] [], .setInfos [y, x], .isGraspForceClosure] ≠ [] := by
  simp [current]

/-- A contact on the top of an object. -/
noncomputable def topContact : ContactInfo := ⟨![0, 0, 5], ![0, 0, 7], ![0, 0, 5], ![0, 0, 7], ![0, 0, -1]⟩

/-- A measure whose qhull always answers with the simplex, and with four samples. -/
noncomputable def demoCfg : Cfg :=
  { centerOfModel := 0, objectLength := 1, cone := ConeGen.new 4 1 1, qhull := fun _ => some (simplex 0) }

theorem demo_hull (x : ContactPoint) : calculateConvexHull demoCfg (conesOf demoCfg.cone [x]) = hullOf (simplex 0) := by
  rw [calculateConvexHull]
  apply createConvexHull_some
  · simp [createWrenchPoints, conesOf_eq, computeConePoints, demoCfg, ConeGen.new]
  · rfl

theorem demo_quality : 0 < qualityOf (some (hullOf (simplex 0))) 1 := by
  have ho := simplex_offset 0
  simp only [qualityOf]
  rw [if_neg (by simp [hullOf, addFacets_vertices, simplex]), if_neg, if_pos one_ne_zero]
  · rw [div_one]; linarith
  · simp only [hullOf, volumeNotPos, simplex]
    norm_num

/-- **C112 (no contacts, does not hold).** A measure that has lost its contacts should have quality 0, as a new
one has. But the quality of the earlier contacts stays: after the contacts are replaced by an empty list, or
by any contact points with the other overload, the answer is the same as before, and it can be positive. -/
theorem C112_stale_false :
    (∀ (cfg : Cfg) (s : St) (infos : List ContactInfo) (points : List ContactPoint) (m v : ℝ) (rnd : List ℕ)
        (faces : List MeshFace), infos ≠ [] →
      let first := ((s.setInfos cfg infos).preCalculatedOWS m v).getGraspQuality cfg rnd faces
      ((first.1.setInfos cfg []).getGraspQuality cfg rnd faces).2 = first.2 ∧
      ((first.1.setPoints cfg points).getGraspQuality cfg rnd faces).2 = first.2) ∧
    ¬ ∀ (cfg : Cfg) (ops : List Op), current ops = [] → ∀ rnd faces,
      ((runAll cfg ops).getGraspQuality cfg rnd faces).2 = 0 := by
  constructor
  · intro cfg s infos points m v rnd faces hne
    have he : (setInfos cfg.centerOfModel infos).contactPointsM.isEmpty = false := by
      rw [Bool.eq_false_iff, Ne, isEmpty_iff]; exact hne
    have he0 : (setInfos cfg.centerOfModel []).contactPointsM.isEmpty = true := rfl
    have he1 : (setPoints cfg.centerOfModel points).contactPointsM.isEmpty = true := rfl
    have hn : ((s.setInfos cfg infos).preCalculatedOWS m v).needGWS cfg = _ := need_new rfl he
    have ho : ((s.setInfos cfg infos).preCalculatedOWS m v).calculateObjectProperties cfg rnd faces =
      (s.setInfos cfg infos).preCalculatedOWS m v := if_pos rfl
    constructor
    · simp only [St.getGraspQuality, St.calculateGraspQuality, ho, hn]
      rw [obj_done, need_none]
      · rfl
      · rfl
      · exact he0
      · rfl
    · simp only [St.getGraspQuality, St.calculateGraspQuality, ho, hn]
      rw [obj_done, need_none]
      · rfl
      · rfl
      · exact he1
      · rfl
  · intro hall
    have h := hall demoCfg [.setInfos [topContact], .preCalculatedOWS 1 1, .getGraspQuality [] [], .setInfos []] rfl [] []
    have he : ((St.new.setInfos demoCfg [topContact]).preCalculatedOWS 1 1).contacts.contactPointsM.isEmpty = false := rfl
    have hM : ∃ x, ((St.new.setInfos demoCfg [topContact]).preCalculatedOWS 1 1).contacts.contactPointsM = [x] := ⟨_, rfl⟩
    obtain ⟨x, hx⟩ := hM
    have hn : ((St.new.setInfos demoCfg [topContact]).preCalculatedOWS 1 1).needGWS demoCfg = _ := need_new rfl he
    rw [hx, demo_hull] at hn
    have ho : ((St.new.setInfos demoCfg [topContact]).preCalculatedOWS 1 1).calculateObjectProperties demoCfg [] [] =
      (St.new.setInfos demoCfg [topContact]).preCalculatedOWS 1 1 := if_pos rfl
    simp only [runAll, List.foldl_cons, List.foldl_nil, Op.run, St.getGraspQuality, St.calculateGraspQuality, ho, hn] at h
    rw [obj_done, need_none] at h
    · exact absurd h demo_quality.ne'
    · rfl
    · rfl
    · rfl

/-- **C112 (asked twice).** Once the object wrench space is known, asking for the quality again gives the same
answer, whatever the draws, and so does asking after the other questions. -/
theorem C112_twice (cfg : Cfg) (s : St) (rnd rnd' : List ℕ) (faces faces' : List MeshFace)
    (hk : (s.getGraspQuality cfg rnd faces).1.OWSCalculated = true) :
    let first := s.getGraspQuality cfg rnd faces
    (first.1.getGraspQuality cfg rnd' faces').2 = first.2 ∧
    (((first.1.isGraspForceClosure cfg).1.getVolumeGraspMeasure cfg).1.getGraspQuality cfg rnd' faces').2 = first.2 := by
  generalize hu : (s.calculateObjectProperties cfg rnd faces).needGWS cfg = u at *
  have h1 : (s.getGraspQuality cfg rnd faces).1 = { u with graspQuality := qualityOf u.convexHullGWS u.minOffsetOWS } := by
    simp only [St.getGraspQuality, St.calculateGraspQuality, hu]
  have h2 : (s.getGraspQuality cfg rnd faces).2 = qualityOf u.convexHullGWS u.minOffsetOWS := by
    simp only [St.getGraspQuality, St.calculateGraspQuality, hu]
  have hun : u.needGWS cfg = u := by rw [← hu, need_need]
  intro first
  have hk' : u.OWSCalculated = true := by rw [h1] at hk; exact hk
  have again : ∀ q : ℝ, (({ u with graspQuality := q } : St).getGraspQuality cfg rnd' faces').2 =
      qualityOf u.convexHullGWS u.minOffsetOWS := by
    intro q
    have ho : ({ u with graspQuality := q } : St).calculateObjectProperties cfg rnd' faces' =
        { u with graspQuality := q } := if_pos hk'
    simp only [St.getGraspQuality, St.calculateGraspQuality, ho, need_quality, hun]
  refine ⟨?_, ?_⟩
  · change ((s.getGraspQuality cfg rnd faces).1.getGraspQuality cfg rnd' faces').2 = (s.getGraspQuality cfg rnd faces).2
    rw [h1, h2, again]
  · change ((((s.getGraspQuality cfg rnd faces).1.isGraspForceClosure cfg).1.getVolumeGraspMeasure cfg).1.getGraspQuality
      cfg rnd' faces').2 = (s.getGraspQuality cfg rnd faces).2
    rw [h1, h2]
    simp only [St.isGraspForceClosure, St.getVolumeGraspMeasure, need_quality, hun]
    exact again _

/-- **C112 (volume, does not hold).** The volume measure should depend on the contacts and the object only. But
it does not compute the object wrench space: a new measure answers 0 for every grasp, until the quality has
been asked for; then the answer can be positive. -/
theorem C112_volume_false :
    (∀ (cfg : Cfg) (infos : List ContactInfo), ((St.new.setInfos cfg infos).getVolumeGraspMeasure cfg).2 = 0) ∧
    ¬ ∀ (cfg : Cfg) (infos : List ContactInfo) (rnd : List ℕ) (faces : List MeshFace),
      ((((St.new.setInfos cfg infos).getGraspQuality cfg rnd faces).1).getVolumeGraspMeasure cfg).2 =
        ((St.new.setInfos cfg infos).getVolumeGraspMeasure cfg).2 := by
  have h0 : ∀ (cfg : Cfg) (infos : List ContactInfo), ((St.new.setInfos cfg infos).getVolumeGraspMeasure cfg).2 = 0 := by
    intro cfg infos
    have hv : ((St.new.setInfos cfg infos).needGWS cfg).volumeOWS = some 0 := by
      cases he : (St.new.setInfos cfg infos).contacts.contactPointsM.isEmpty with
      | true => rw [need_none rfl he]; rfl
      | false => rw [need_new rfl he]; rfl
    simp only [St.getVolumeGraspMeasure, hv]
    generalize ((St.new.setInfos cfg infos).needGWS cfg).convexHullGWS = h
    cases h with
    | none => rfl
    | some h =>
        simp only [volumeOf]
        split_ifs
        · rfl
        · cases h.volume with
          | none => rfl
          | some w => exact if_pos (Or.inl le_rfl)
  refine ⟨h0, ?_⟩
  intro hall
  have h := hall demoCfg [topContact] [0] [⟨0, 0, 0, 0⟩]
  rw [h0] at h
  have hs : sampleObjectPoints demoCfg [0] [⟨0, 0, 0, 0⟩] 300 = [sampleOf demoCfg ⟨0, 0, 0, 0⟩] := rfl
  have hS : ∃ x, convertMM2M [sampleOf demoCfg ⟨0, 0, 0, 0⟩] = [x] := ⟨_, rfl⟩
  obtain ⟨y, hy⟩ := hS
  have ho : (St.new.setInfos demoCfg [topContact]).calculateObjectProperties demoCfg [0] [⟨0, 0, 0, 0⟩] =
      { St.new.setInfos demoCfg [topContact] with
        minOffsetOWS := minOffset (some (hullOf (simplex 0)))
        volumeOWS := (hullOf (simplex 0)).volume
        OWSCalculated := true } := by
    rw [St.calculateObjectProperties, if_neg (by simp [St.new, St.setInfos])]
    simp only [St.calculateOWS, hs, hy, demo_hull]
    rw [if_neg (by simp)]
  have hM : ∃ x, (St.new.setInfos demoCfg [topContact]).contacts.contactPointsM = [x] := ⟨_, rfl⟩
  obtain ⟨x, hx⟩ := hM
  simp only [St.getVolumeGraspMeasure, St.getGraspQuality, ho, St.calculateGraspQuality, need_quality, need_need] at h
  rw [need_new (t := { St.new.setInfos demoCfg [topContact] with
        minOffsetOWS := minOffset (some (hullOf (simplex 0)))
        volumeOWS := (hullOf (simplex 0)).volume
        OWSCalculated := true }) rfl (by simp only [hx]; rfl)] at h
  simp only [hx, demo_hull, volumeOf] at h
  rw [if_neg (by simp [hullOf, addFacets_vertices, simplex])] at h
  simp only [hullOf, simplex] at h
  norm_num at h

/-! ## Samples of the object -/

theorem sampleLoop_spec (cfg : Cfg) : ∀ (n : ℕ) (rnd : List ℕ) (faces : List MeshFace), n ≤ faces.length → n ≤ rnd.length →
    ∃ l rest : List MeshFace, (l ++ rest).Perm faces ∧ l.length = n ∧ sampleLoop cfg n rnd faces = l.map (sampleOf cfg) := by
  intro n
  induction n with
  | zero => intro rnd faces _ _; exact ⟨[], faces, by simp, rfl, by simp [sampleLoop]⟩
  | succ n ih =>
      intro rnd faces hf hr
      cases faces with
      | nil => simp at hf
      | cons f faces =>
          cases rnd with
          | nil => simp at hr
          | cons r rnd =>
              have hlt : r % (f :: faces).length < (f :: faces).length := Nat.mod_lt _ (by simp)
              have hg : (f :: faces)[r % (f :: faces).length]? = some (f :: faces)[r % (f :: faces).length] :=
                List.getElem?_eq_getElem hlt
              have hlen : ((f :: faces).eraseIdx (r % (f :: faces).length)).length = faces.length := by
                rw [List.length_eraseIdx_of_lt hlt]; simp
              obtain ⟨l, rest, hp, hl, hs⟩ := ih rnd ((f :: faces).eraseIdx (r % (f :: faces).length))
                (by rw [hlen]; simpa using hf) (by simpa using hr)
              refine ⟨(f :: faces)[r % (f :: faces).length] :: l, rest, ?_, by simp [hl], ?_⟩
              · rw [List.cons_append]
                exact (hp.cons _).trans (List.getElem_cons_eraseIdx_perm hlt)
              · rw [sampleLoop]
                simp only [hg, hs, List.map_cons]

/-- **C113 (samples).** `sampleObjectPoints` draws the smaller of the requested number and the number of faces,
no face twice, and all faces if there are not more than requested; whatever the random numbers. Each sample
is the centre of its face relative to the centre of mass, with force 1 and, if the face has a normal, the
normal scaled to the unit force. -/
theorem C113_samples (cfg : Cfg) (rnd : List ℕ) (faces : List MeshFace) (n : ℕ) (hr : min n faces.length ≤ rnd.length) :
    ∃ drawn rest : List MeshFace, (drawn ++ rest).Perm faces ∧ drawn.length = min n faces.length ∧
      (faces.length ≤ n → drawn.Perm faces) ∧
      (sampleObjectPoints cfg rnd faces n).length = drawn.length ∧
      ∀ (i : ℕ) (f : MeshFace), drawn[i]? = some f → ∃ c, (sampleObjectPoints cfg rnd faces n)[i]? = some c ∧
        (3 : ℝ) • (c.p + cfg.centerOfModel) = f.v1 + f.v2 + f.v3 ∧ c.force = 1 ∧
        (f.normal ≠ 0 → c.n ⬝ᵥ c.n = cfg.cone.unitForce ^ 2 ∧
          Real.sqrt (f.normal ⬝ᵥ f.normal) • c.n = cfg.cone.unitForce • f.normal) := by
  have hm : (if faces.length > n then n else faces.length) = min n faces.length := by
    split_ifs with h
    · rw [min_eq_left h.le]
    · rw [min_eq_right (not_lt.1 h)]
  obtain ⟨l, rest, hp, hl, hs⟩ := sampleLoop_spec cfg (min n faces.length) rnd faces (min_le_right _ _) hr
  have hso : sampleObjectPoints cfg rnd faces n = l.map (sampleOf cfg) := by rw [sampleObjectPoints, hm, hs]
  refine ⟨l, rest, hp, hl, ?_, by rw [hso, List.length_map], ?_⟩
  · intro hn
    have h1 := hp.length_eq
    rw [List.length_append, hl, min_eq_right hn] at h1
    have : rest = [] := by rw [← List.length_eq_zero_iff]; omega
    rw [this, List.append_nil] at hp
    exact hp
  · intro i f hf
    refine ⟨sampleOf cfg f, by rw [hso, List.getElem?_map, hf]; rfl, ?_, rfl, ?_⟩
    · simp only [sampleOf, sub_add_cancel, smul_smul]
      norm_num
    · intro hn
      simp only [sampleOf]
      constructor
      · rw [smul_dotProduct, dotProduct_smul, normalize_unit hn]; simp [sq]
      · rw [smul_comm]
        change _ • (nrm f.normal • Rot.normalize f.normal) = _
        rw [smul_normalize hn]

/-- Not vacuous: two faces, one sample. -/
example : min 1 ([⟨0, 0, 0, 0⟩, ⟨1, 0, 0, 1⟩] : List MeshFace).length ≤ [5].length := by simp

/-- **C113 (reference).** The first question for the quality computes the values of the object: it is as if
they had been given with `preCalculatedOWS`, with the radius of the largest ball (around its centre) in the
hull of the wrenches at 300 samples, and the volume of this hull. Without samples nothing changes, and
values that are known stay. -/
theorem C113_reference (cfg : Cfg) (hq : Exact cfg.qhull) (s : St) (rnd : List ℕ) (faces : List MeshFace) :
    let pts := createWrenchPoints (conesOf cfg.cone (convertMM2M (sampleObjectPoints cfg rnd faces 300))) 0 cfg.objectLength
    (∀ r, s.OWSCalculated = false → sampleObjectPoints cfg rnd faces 300 ≠ [] → 4 ≤ pts.length →
      cfg.qhull pts = some r → ∃ m c,
        (s.getGraspQuality cfg rnd faces) = ((s.preCalculatedOWS m r.totvol).getGraspQuality cfg rnd faces) ∧
        (createConvexHull cfg.qhull pts).center = some c ∧
        ∀ ρ, 0 ≤ ρ → (ρ ≤ m ↔ ρ ≤ fltMax ∧ BallIn c ρ (convexHull ℝ { w | w ∈ pts }))) ∧
    ((s.OWSCalculated = true ∨ sampleObjectPoints cfg rnd faces 300 = []) →
      (s.getGraspQuality cfg rnd faces) = (s.calculateGraspQuality cfg, (s.calculateGraspQuality cfg).graspQuality)) := by
  intro pts
  constructor
  · intro r h0 hs h4 hr
    obtain ⟨c, hc, -, -, hball⟩ := C111_offset cfg.qhull hq _ h4 r hr
    refine ⟨minOffset (some (createConvexHull cfg.qhull pts)), c, ?_, hc, hball⟩
    have hl : (sampleObjectPoints cfg rnd faces 300).length ≠ 0 := by rwa [Ne, List.length_eq_zero_iff]
    have ho : s.calculateObjectProperties cfg rnd faces =
        s.preCalculatedOWS (minOffset (some (createConvexHull cfg.qhull pts))) r.totvol := by
      rw [St.calculateObjectProperties, if_neg (by simp [h0])]
      simp only [St.calculateOWS]
      rw [if_neg hl]
      have hv : (createConvexHull cfg.qhull pts).volume = some r.totvol := by
        rw [createConvexHull_some h4 hr]; rfl
      simp only [calculateConvexHull]
      change ({ s with
        minOffsetOWS := minOffset (some (createConvexHull cfg.qhull pts))
        volumeOWS := (createConvexHull cfg.qhull pts).volume
        OWSCalculated := true } : St) = _
      rw [hv]
      rfl
    have hp : (s.preCalculatedOWS (minOffset (some (createConvexHull cfg.qhull pts))) r.totvol).calculateObjectProperties
        cfg rnd faces = s.preCalculatedOWS (minOffset (some (createConvexHull cfg.qhull pts))) r.totvol := obj_done rfl
    simp only [St.getGraspQuality, ho, hp]
  · intro h
    have ho : s.calculateObjectProperties cfg rnd faces = s := by
      by_cases h1 : s.OWSCalculated = true
      · exact obj_done h1
      · rw [St.calculateObjectProperties, if_neg h1]
        simp only [St.calculateOWS]
        rw [if_pos (by rw [h.resolve_left h1]; rfl)]
    simp only [St.getGraspQuality, ho]

/-- Not vacuous: a mesh of two faces gives samples. -/
example (cfg : Cfg) (f g : MeshFace) : sampleObjectPoints cfg [3, 8] [f, g] 300 ≠ [] := by
  obtain ⟨l, -, -, hl, -, hn, -⟩ := C113_samples cfg [3, 8] [f, g] 300 (by simp)
  intro h
  rw [h, hl] at hn
  simp at hn

end Simox.Gpl
