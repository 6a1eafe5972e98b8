import Verif.Tot.GenProps
import Verif.Tot.QueryProps

/-!
# C130, C131: corners without rounding, and times after the end
-/

namespace Simox.Tot

variable {n : ℕ}

theorem build_lines {m : ℝ} (hm : m ≤ 0) : ∀ (l : List (Cfg n)) (start c1 : Cfg n), ∀ g ∈ buildSegments m start c1 l, ∃ a b, g = .line a b
  | [], _, _, g, hg => by simp [buildSegments] at hg
  | [c2], start, _, g, hg => by
      simp only [buildSegments, List.mem_singleton] at hg
      exact ⟨start, c2, hg⟩
  | c2 :: c3 :: rest, start, c1, g, hg => by
      rw [buildSegments, if_neg (not_lt.2 hm)] at hg
      rcases List.mem_cons.1 hg with rfl | hg
      · exact ⟨start, c2, rfl⟩
      · exact build_lines hm (c3 :: rest) c2 c2 g hg

/-- **C130** (corners, not as claimed): on a path without rounding, which is the default, no position limits the speed for the sake of
the maximal accelerations, whatever they are: the trajectory passes the corners with any speed below the maximal speeds, and
the speeds of the joints jump there. -/
theorem C130_corner_false {w : List (Cfg n)} (hw : 2 ≤ w.length) {m : ℝ} (hm : m ≤ 0) (amax : Fin n → ℝ) {x : ℝ} (hx : 0 ≤ x) :
    ∃ t, (Path.new w m).getTangent x = some t ∧ (Path.new w m).getCurvature x = some 0 ∧ accelerationMaxPathVelocity amax t 0 = none := by
  obtain ⟨pre, a, post, e1, e2, -, -⟩ := getPathSegment_spec hw m hx
  obtain ⟨p, q, rfl⟩ : ∃ p q, a = .line p q := by
    match w, hw with
    | c1 :: rest, _ =>
        refine build_lines hm rest c1 c1 a ?_
        change a ∈ segmentsOf m (c1 :: rest)
        rw [e1]; simp
  refine ⟨(Seg.line p q).tangent (x - total pre), by rw [Path.getTangent, e2]; rfl, by rw [Path.getCurvature, e2]; rfl, ?_⟩
  generalize (Seg.line p q).tangent (x - total pre) = t
  have hnil : velCandidates amax t (0 : Cfg n) = [] := by
    unfold velCandidates
    rw [List.flatMap_eq_nil_iff]
    intro i _
    by_cases hi : t i ≠ 0
    · rw [if_pos hi, List.filterMap_eq_nil_iff]
      intro j _
      rw [if_neg (by simp)]
    · rw [if_neg hi, if_neg (by simp)]
  unfold accelerationMaxPathVelocity
  rw [hnil]

/-- **C131** (after the end, not as one might expect): a trajectory that ends at rest is continued after its duration with the last
deceleration: the robot moves back. -/
theorem C131_after_end_false (path : Path n) {l : List (ℝ × ℝ)} (hf : l.IsChain Forward) {l' : List (ℝ × ℝ)} {a b : ℝ × ℝ} (hl : l = l' ++ [a, b]) (hb : b.2 = 0)
    {c : Cache} (hc : Reached (timing l) c) {D t : ℝ} (hD : getDuration (timing l) = some D) (ht : D < t) (hm : t < dblMax) :
    ∃ x v : ℝ, v < 0 ∧ x < b.1 ∧ (getPosition path (timing l) c t).map Prod.snd = path.getConfig x ∧
      (getVelocity path (timing l) c t).map Prod.snd = (path.getTangent x).map fun q => v • q := by
  obtain ⟨hmap, hch, -⟩ := timing_spec hf
  generalize timing l = steps at *
  have hlen : steps.length = l'.length + 2 := by rw [← List.length_map (f := fun s : Step => (s.pathPos, s.pathVel)), hmap, hl]; simp
  obtain ⟨p, hp⟩ : ∃ p, steps[l'.length]? = some p := ⟨_, List.getElem?_eq_getElem (by omega)⟩
  obtain ⟨q, hq⟩ : ∃ q, steps[l'.length + 1]? = some q := ⟨_, List.getElem?_eq_getElem (by omega)⟩
  have hpa : (p.pathPos, p.pathVel) = a := by
    have : (steps.map fun s => (s.pathPos, s.pathVel))[l'.length]? = some (p.pathPos, p.pathVel) := by rw [List.getElem?_map, hp]; rfl
    rw [hmap, hl] at this
    simpa using this.symm
  have hqb : (q.pathPos, q.pathVel) = b := by
    have : (steps.map fun s => (s.pathPos, s.pathVel))[l'.length + 1]? = some (q.pathPos, q.pathVel) := by rw [List.getElem?_map, hq]; rfl
    rw [hmap, hl] at this
    simpa using this.symm
  have hT : Timed p q := by
    obtain ⟨h1, rfl⟩ := List.getElem?_eq_some_iff.1 hp
    obtain ⟨h2, rfl⟩ := List.getElem?_eq_some_iff.1 hq
    exact List.isChain_iff_getElem.1 hch _ h2
  have hlast : steps.getLast? = some q := by rw [List.getLast?_eq_getElem?, show steps.length - 1 = l'.length + 1 by omega, hq]
  have hDq : D = q.time := by
    rw [getDuration, hlast] at hD
    exact (Option.some.inj hD).symm
  subst hDq
  obtain ⟨c', j, h1, h2⟩ := C131_cache (by rintro rfl; simp at hq) hc hm
  have hj : j = l'.length + 1 := by
    obtain ⟨last, e, h2⟩ := h2
    rw [hlast] at e
    have e := Option.some.inj e
    subst e
    rcases h2 with ⟨-, h⟩ | ⟨h, -⟩
    · omega
    · linarith
  subst hj
  have hq0 : q.pathVel = 0 := by rw [← hb, ← hqb]
  have hqx : q.pathPos = b.1 := by rw [← hqb]
  have hlt := hT.lt
  obtain ⟨hT1, hT2, hT3, hT4, hT5⟩ := id hT
  rw [hq0] at hT4 hT5
  obtain ⟨-, hv, -, -⟩ := interpolate_spec hT
  have hpv : 0 < p.pathVel := by linarith
  have hdt : 0 < q.time - p.time := by linarith
  have hv' : (interpolate p q t).2 = -(t - q.time) * (p.pathVel / (q.time - p.time)) := by
    rw [hv, hq0]; field_simp; ring
  have hx : (interpolate p q t).1 = q.pathPos - 0.5 * (t - q.time) ^ 2 * (p.pathVel / (q.time - p.time)) := by
    have hway : q.pathPos - p.pathPos = (q.time - p.time) * p.pathVel / 2 := by
      rw [show q.time - p.time = (q.pathPos - p.pathPos) / ((0 + p.pathVel) / 2) by linarith]; field_simp; ring
    have hqp : q.pathPos = p.pathPos + (q.time - p.time) * p.pathVel / 2 := by linarith
    have hacc : 2 * (q.pathPos - p.pathPos - (q.time - p.time) * p.pathVel) / ((q.time - p.time) * (q.time - p.time)) = -(p.pathVel / (q.time - p.time)) := by
      rw [hway]; field_simp; ring
    unfold interpolate
    simp only [hacc]
    rw [hqp]
    field_simp
    ring
  have hk : 0 < p.pathVel / (q.time - p.time) := div_pos hpv hdt
  refine ⟨(interpolate p q t).1, (interpolate p q t).2, ?_, ?_, ?_, ?_⟩
  · rw [hv']; nlinarith
  · rw [hx, ← hqx]
    have : 0 < (t - q.time) ^ 2 := by have : 0 < t - q.time := by linarith
                                      positivity
    nlinarith
  · simp only [getPosition, h1, around, hp, hq]
    cases path.getConfig (interpolate p q t).1 <;> rfl
  · simp only [getVelocity, h1, around, hp, hq]
    cases path.getTangent (interpolate p q t).1 <;> rfl

end Simox.Tot
