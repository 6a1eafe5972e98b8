import Verif.Tot.PathLemmas

/-!
# C128: paths through waypoints
-/

namespace Simox.Tot

variable {n : ℕ}

/-- **C128** (what is used where): a position on the path is looked up in the one segment it belongs to, behind all others
before it. The length of the path is the one of its segments. -/
theorem C128_lookup {w : List (Cfg n)} (hw : 2 ≤ w.length) (m : ℝ) :
    ∃ segs, segs ≠ [] ∧ (Path.new w m).length = total segs ∧ ((Path.new w m).segments.map Prod.fst = segs) ∧
      ∀ s, 0 ≤ s → ∃ pre g post, segs = pre ++ g :: post ∧ total pre ≤ s ∧ (post = [] ∨ s < total pre + g.length) ∧
        (Path.new w m).getConfig s = some (g.config (s - total pre)) ∧
        (Path.new w m).getTangent s = some (g.tangent (s - total pre)) ∧
        (Path.new w m).getCurvature s = some (g.curvature (s - total pre)) := by
  refine ⟨segmentsOf m w, segmentsOf_ne_nil hw m, new_length hw m, ?_, ?_⟩
  · rw [new_segments hw]
    generalize segmentsOf m w = l
    generalize (0 : ℝ) = p
    induction l generalizing p with
    | nil => rfl
    | cons g l ih => simp [withPos, ih]
  · intro s h0
    obtain ⟨pre, a, post, e1, e2, e3, e4⟩ := getPathSegment_spec hw m h0
    exact ⟨pre, a, post, e1, e3, e4, by rw [Path.getConfig, e2]; rfl, by rw [Path.getTangent, e2]; rfl, by rw [Path.getCurvature, e2]; rfl⟩

/-- **C128** (near the waypoints): with rounded corners, every configuration of the path is within `maxDeviation` of the
polyline through the waypoints. -/
theorem C128_near {w : List (Cfg n)} (hw : 2 ≤ w.length) {m : ℝ} (hm : 0 < m) (hr : NoReversal w) {s : ℝ} (h0 : 0 ≤ s)
    (h1 : s ≤ (Path.new w m).length) :
    ∃ c, (Path.new w m).getConfig s = some c ∧ ∃ q, OnPolyline w q ∧ ‖c - q‖ ≤ m := by
  match w, hw with
  | c1 :: c2 :: rest, hw =>
      obtain ⟨pre, a, post, e1, e2, e3, e4⟩ := getPathSegment_spec hw m h0
      have hb := build_near hm c2 rest c1 c1 (starts_self c1 c2) hr
      have ha : a ∈ buildSegments m c1 c1 (c2 :: rest) := by
        show a ∈ segmentsOf m (c1 :: c2 :: rest)
        rw [e1]; simp
      obtain ⟨p1, p2⟩ := hb a ha
      refine ⟨_, by rw [Path.getConfig, e2]; rfl, p2 _ (by linarith) ?_⟩
      rcases e4 with rfl | e4
      · rw [new_length hw, e1, total_append, total_cons] at h1
        simp only [total, List.map_nil, List.sum_nil] at h1 ⊢
        linarith
      · linarith

/-- **C128** (end): at its length the path is at the last waypoint. -/
theorem C128_end {w : List (Cfg n)} (hw : 2 ≤ w.length) (m : ℝ) (hr : NoReversal w) (he : EndsMoving w) :
    (Path.new w m).getConfig (Path.new w m).length = w.getLast? := by
  match w, hw with
  | c1 :: c2 :: rest, hw =>
      obtain ⟨pre, g, e, h1, h2⟩ := build_last (m := m) c2 rest c1 c1 (starts_self c1 c2) hr he
      have hpos : ∀ g ∈ segmentsOf m (c1 :: c2 :: rest), 0 ≤ g.length := by
        by_cases hm : 0 < m
        · exact fun g hg => (build_near hm c2 rest c1 c1 (starts_self c1 c2) hr g hg).1
        · have : ∀ (l : List (Cfg n)) (s c : Cfg n), ∀ g ∈ buildSegments m s c l, 0 ≤ g.length := by
            intro l
            induction l with
            | nil => intro s c g hg; cases hg
            | cons c2 l ih =>
                match l with
                | [] =>
                    intro s c g hg
                    simp only [buildSegments, List.mem_singleton] at hg
                    subst hg; exact norm_nonneg _
                | c3 :: l =>
                    intro s c g hg
                    simp only [buildSegments] at hg
                    rw [if_neg hm] at hg
                    rcases List.mem_cons.1 hg with rfl | hg
                    · exact norm_nonneg _
                    · exact ih _ _ g hg
          exact this _ _ _
      have hlen : (Path.new (c1 :: c2 :: rest) m).length = total pre + g.length := by
        rw [new_length hw]
        show total (buildSegments m c1 c1 (c2 :: rest)) = _
        rw [e, total_append]; simp [total]
      have htot : ∀ l : List (Seg n), (∀ g ∈ l, 0 ≤ g.length) → 0 ≤ total l := by
        intro l hl
        exact List.sum_nonneg (by intro x hx; obtain ⟨y, hy, rfl⟩ := List.mem_map.1 hx; exact hl y hy)
      have h0 : 0 ≤ (Path.new (c1 :: c2 :: rest) m).length := by
        rw [new_length hw]; exact htot _ hpos
      obtain ⟨pre', a, post, e1, e2, e3, e4⟩ := getPathSegment_spec hw m h0
      have hpost : post = [] := by
        rcases e4 with h | h
        · exact h
        · exfalso
          rw [new_length hw, e1, total_append, total_cons] at h
          have : 0 ≤ total post := htot post (fun g hg => hpos g (by rw [e1]; simp [hg]))
          linarith
      subst hpost
      have e5 : pre' ++ [a] = pre ++ [g] := by rw [← e1, ← e]; rfl
      obtain ⟨rfl, e6⟩ := List.append_inj' e5 rfl
      simp only [List.cons.injEq, and_true] at e6
      subst e6
      rw [Path.getConfig, e2, hlen]
      simp only [Option.map_some, add_sub_cancel_left]
      have hx : (c1 :: c2 :: rest).getLast? = some ((c1 :: c2 :: rest).getLast (by simp)) := List.getLast?_eq_some_getLast (by simp)
      rw [hx, h2 _ hx]

/-- **C128** (polyline): without rounded corners the path is the polyline, at unit speed: between neighbouring waypoints it
is the line between them, and its length is the one of the polyline. -/
theorem C128_polyline {w : List (Cfg n)} (hw : 2 ≤ w.length) {m : ℝ} (hm : m ≤ 0) :
    (Path.new w m).length = polyLength w ∧
      ∀ pre a b post, w = pre ++ a :: b :: post → ∀ t, 0 ≤ t → t < dist a b →
        (Path.new w m).getConfig (polyLength (pre ++ [a]) + t) = some (a + (t / dist a b) • (b - a)) ∧
        (Path.new w m).getTangent (polyLength (pre ++ [a]) + t) = some ((1 / dist a b) • (b - a)) := by
  -- the segments are the lines between neighbouring waypoints
  have hseg : ∀ (l : List (Cfg n)) (c : Cfg n), total (buildSegments m c c l) = polyLength (c :: l) ∧
      ∀ pre a b post, c :: l = pre ++ a :: b :: post →
        ∃ before after, buildSegments m c c l = before ++ Seg.line a b :: after ∧ total before = polyLength (pre ++ [a]) := by
    intro l
    induction l with
    | nil =>
        intro c
        refine ⟨rfl, ?_⟩
        intro pre a b post e
        have := congrArg List.length e
        simp at this
        omega
    | cons c2 l ih =>
        intro c
        have hb : buildSegments m c c (c2 :: l) = Seg.line c c2 :: buildSegments m c2 c2 l := by
          match l with
          | [] => rfl
          | c3 :: l =>
              simp only [buildSegments]
              rw [if_neg (not_lt.2 hm)]
        obtain ⟨i1, i2⟩ := ih c2
        refine ⟨?_, ?_⟩
        · rw [hb, total_cons, i1, polyLength, dist_comm, dist_eq_norm]; rfl
        · intro pre a b post e
          rw [hb]
          match pre, e with
          | [], e =>
              simp only [List.nil_append, List.cons.injEq] at e
              obtain ⟨rfl, rfl, -⟩ := e
              exact ⟨[], _, rfl, rfl⟩
          | p :: pre, e =>
              simp only [List.cons_append, List.cons.injEq] at e
              obtain ⟨rfl, e⟩ := e
              obtain ⟨before, after, f1, f2⟩ := i2 pre a b post e
              refine ⟨Seg.line c c2 :: before, after, by rw [f1]; rfl, ?_⟩
              rw [total_cons, f2]
              match pre, e with
              | [], e =>
                  simp only [List.nil_append, List.cons.injEq] at e
                  obtain ⟨rfl, -⟩ := e
                  show _ + _ = dist c c2 + polyLength [c2]
                  rw [dist_comm, dist_eq_norm]; rfl
              | p' :: pre, e =>
                  simp only [List.cons_append, List.cons.injEq] at e
                  obtain ⟨rfl, -⟩ := e
                  show _ + _ = dist c c2 + polyLength (c2 :: (pre ++ [a]))
                  rw [dist_comm, dist_eq_norm]; rfl
  match w, hw with
  | c1 :: c2 :: rest, hw =>
      obtain ⟨i1, i2⟩ := hseg (c2 :: rest) c1
      refine ⟨by rw [new_length hw]; exact i1, ?_⟩
      intro pre a b post e t t0 t1
      obtain ⟨before, after, f1, f2⟩ := i2 pre a b post e
      have hlen : ∀ g ∈ segmentsOf m (c1 :: c2 :: rest), 0 ≤ g.length := by
        have : ∀ (l : List (Cfg n)) (c : Cfg n), ∀ g ∈ buildSegments m c c l, 0 ≤ g.length := by
          intro l
          induction l with
          | nil => intro c g hg; cases hg
          | cons c2 l ih =>
              intro c g hg
              have hb : buildSegments m c c (c2 :: l) = Seg.line c c2 :: buildSegments m c2 c2 l := by
                match l with
                | [] => rfl
                | c3 :: l =>
                    simp only [buildSegments]
                    rw [if_neg (not_lt.2 hm)]
              rw [hb] at hg
              rcases List.mem_cons.1 hg with rfl | hg
              · exact norm_nonneg _
              · exact ih _ g hg
        exact this _ _
      have htot : ∀ l : List (Seg n), (∀ g ∈ l, 0 ≤ g.length) → 0 ≤ total l := by
        intro l hl
        exact List.sum_nonneg (by intro x hx; obtain ⟨y, hy, rfl⟩ := List.mem_map.1 hx; exact hl y hy)
      have hsg : segmentsOf m (c1 :: c2 :: rest) = before ++ Seg.line a b :: after := f1
      have hb0 : 0 ≤ total before := htot _ fun g hg => hlen g (by rw [hsg]; simp [hg])
      obtain ⟨pre', g, post', e1, e2, e3, e4⟩ := getPathSegment_spec hw m (s := polyLength (pre ++ [a]) + t) (by rw [← f2]; linarith)
      have hL : (Seg.line a b).length = dist a b := by rw [dist_comm, dist_eq_norm]; rfl
      have hd : 0 < dist a b := lt_of_le_of_lt t0 t1
      have hkey : pre' = before ∧ g = Seg.line a b := by
        rw [← f2] at e3 e4
        rw [hsg] at e1
        have hlen' : ∀ g ∈ before ++ Seg.line a b :: after, 0 ≤ g.length := by rw [← hsg]; exact hlen
        rcases List.append_eq_append_iff.1 e1 with ⟨x, h1, h2⟩ | ⟨x, h1, h2⟩
        · -- pre' = before ++ x
          match x, h2 with
          | [], h2 =>
              simp only [List.nil_append, List.cons.injEq] at h2
              exact ⟨by simpa using h1, h2.1.symm⟩
          | y :: x, h2 =>
              exfalso
              simp only [List.cons_append, List.cons.injEq] at h2
              have : 0 ≤ total x := htot x fun g hg => hlen' g (by rw [h2.2]; simp [hg])
              rw [h1, total_append, total_cons, ← h2.1, hL] at e3
              linarith
        · -- before = pre' ++ x
          match x, h2 with
          | [], h2 =>
              simp only [List.nil_append, List.cons.injEq] at h2
              exact ⟨by simpa using h1.symm, h2.1⟩
          | y :: x, h2 =>
              exfalso
              simp only [List.cons_append, List.cons.injEq] at h2
              have hx0 : 0 ≤ total x := htot x fun g hg => hlen' g (by rw [h1]; simp [hg])
              rw [h1, total_append, total_cons, ← h2.1] at e4
              rcases e4 with e4 | e4
              · rw [h2.2] at e4; simp at e4
              · linarith
      obtain ⟨rfl, rfl⟩ := hkey
      rw [Path.getConfig, Path.getTangent, e2, ← f2, add_sub_cancel_left]
      simp only [Option.map_some, Option.some.injEq]
      have hn : ‖b - a‖ = dist a b := by rw [dist_comm, dist_eq_norm]
      refine ⟨?_, ?_⟩
      · simp only [Seg.config]
        rw [hn, min_eq_right ((div_le_one hd).2 t1.le), max_eq_right (div_nonneg t0 hd.le)]
        module
      · simp only [Seg.tangent]
        rw [hn, one_div]

end Simox.Tot
