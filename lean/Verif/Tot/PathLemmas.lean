import Verif.Tot.Spec
import Verif.Tot.SegProps

/-!
# Lemmas about paths
-/

namespace Simox.Tot

variable {n : ℕ}

/-- Segments with their positions. -/
noncomputable def withPos (pos : ℝ) : List (Seg n) → List (Seg n × ℝ)
  | [] => []
  | g :: gs => (g, pos) :: withPos (pos + g.length) gs

theorem withPos_append (pos : ℝ) (l : List (Seg n)) (g : Seg n) :
    withPos pos (l ++ [g]) = withPos pos l ++ [(g, pos + total l)] := by
  induction l generalizing pos with
  | nil => simp [withPos, total]
  | cons a l ih => simp [withPos, ih, total, add_assoc]

theorem foldl_push (p : Path n) (gs : List (Seg n)) :
    (gs.foldl Path.push p).length = p.length + total gs ∧
      (gs.foldl Path.push p).segments = p.segments ++ withPos p.length gs := by
  induction gs generalizing p with
  | nil => simp [total, withPos]
  | cons g gs ih =>
      obtain ⟨h1, h2⟩ := ih (p.push g)
      refine ⟨?_, ?_⟩
      · rw [List.foldl_cons, h1]; simp [Path.push, total, add_assoc]
      · rw [List.foldl_cons, h2]; simp [Path.push, withPos]

theorem new_length {w : List (Cfg n)} (hw : 2 ≤ w.length) (m : ℝ) : (Path.new w m).length = total (segmentsOf m w) := by
  unfold Path.new
  rw [if_neg (by omega)]
  simp only
  rw [(foldl_push _ _).1, zero_add]

theorem new_segments {w : List (Cfg n)} (hw : 2 ≤ w.length) (m : ℝ) :
    (Path.new w m).segments = withPos 0 (segmentsOf m w) := by
  unfold Path.new
  rw [if_neg (by omega)]
  simp only
  rw [(foldl_push _ _).2, List.nil_append]

theorem total_cons (g : Seg n) (l : List (Seg n)) : total (g :: l) = g.length + total l := by simp [total]

theorem total_append (l r : List (Seg n)) : total (l ++ r) = total l + total r := by simp [total]

theorem findSegment_spec (s pos : ℝ) (g : Seg n) (gs : List (Seg n)) (h : pos ≤ s) :
    ∃ pre a post, g :: gs = pre ++ a :: post ∧ findSegment s (g, pos) (withPos (pos + g.length) gs) = (a, pos + total pre) ∧
      pos + total pre ≤ s ∧ (post = [] ∨ s < pos + total pre + a.length) := by
  induction gs generalizing g pos with
  | nil => exact ⟨[], g, [], rfl, by simp [withPos, findSegment, total], by simpa [total] using h, Or.inl rfl⟩
  | cons g' gs ih =>
      simp only [withPos, findSegment]
      by_cases h1 : pos + g.length ≤ s
      · rw [if_pos h1]
        obtain ⟨pre, a, post, e1, e2, e3, e4⟩ := ih (pos + g.length) g' h1
        refine ⟨g :: pre, a, post, by rw [e1]; rfl, ?_, ?_, ?_⟩
        · rw [e2, total_cons]; simp [add_assoc]
        · rw [total_cons]; linarith
        · rw [total_cons]; rcases e4 with e4 | e4
          · exact Or.inl e4
          · right; linarith
      · rw [if_neg h1]
        exact ⟨[], g, g' :: gs, rfl, by simp [total], by simpa [total] using h, Or.inr (by simp [total]; linarith)⟩

theorem segmentsOf_ne_nil {w : List (Cfg n)} (hw : 2 ≤ w.length) (m : ℝ) : segmentsOf m w ≠ [] := by
  match w, hw with
  | [a, b], _ => simp [segmentsOf, buildSegments]
  | a :: b :: c :: l, _ =>
      simp only [segmentsOf, buildSegments]
      by_cases h : 0 < m
      · rw [if_pos h]; simp
      · rw [if_neg h]; simp

theorem getPathSegment_spec {w : List (Cfg n)} (hw : 2 ≤ w.length) (m : ℝ) {s : ℝ} (h0 : 0 ≤ s) :
    ∃ pre a post, segmentsOf m w = pre ++ a :: post ∧ (Path.new w m).getPathSegment s = some (a, s - total pre) ∧
      total pre ≤ s ∧ (post = [] ∨ s < total pre + a.length) := by
  match hg : segmentsOf m w with
  | [] => exact absurd hg (segmentsOf_ne_nil hw m)
  | g :: gs =>
      obtain ⟨pre, a, post, e1, e2, e3, e4⟩ := findSegment_spec s 0 g gs h0
      refine ⟨pre, a, post, e1, ?_, by simpa using e3, by simpa using e4⟩
      unfold Path.getPathSegment
      rw [new_segments hw, hg, withPos]
      simp only
      rw [e2]; simp

/-! ## Corners of waypoints -/

theorem normalized_smul {k : ℝ} (hk : 0 < k) (v : Cfg n) : normalized (k • v) = normalized v := by
  rw [normalized, norm_smul, Real.norm_of_nonneg hk.le, smul_smul, normalized, mul_inv, mul_comm k⁻¹, mul_assoc, inv_mul_cancel₀ hk.ne', mul_one]

theorem sub_mid_right (a b : Cfg n) : b - mid a b = (0.5 : ℝ) • (b - a) := by
  rw [mid]; module

theorem mid_sub_left (a b : Cfg n) : mid a b - a = (0.5 : ℝ) • (b - a) := by
  rw [mid]; module

theorem norm_half (v : Cfg n) : ‖(0.5 : ℝ) • v‖ = ‖v‖ / 2 := by
  rw [norm_smul, Real.norm_of_nonneg (by norm_num)]; ring

theorem smul_normalized {v : Cfg n} (h : v ≠ 0) : ‖v‖ • normalized v = v := by
  rw [normalized, smul_smul, mul_inv_cancel₀ (norm_ne_zero_iff.2 h), one_smul]

/-- The direction is not reversed exactly. -/
def NoRev (a b c : Cfg n) : Prop := ¬ SameRay ℝ (b - a) (-(c - b)) ∨ a = b ∨ b = c

theorem NoRev.ne {a b c : Cfg n} (h : NoRev a b c) (h1 : a ≠ b) (h2 : b ≠ c) : normalized (b - a) ≠ -normalized (c - b) := by
  intro e
  rcases h with h | h | h
  · apply h
    have e1 : -(c - b) = (‖c - b‖ * ‖b - a‖⁻¹) • (b - a) := by
      have : -(c - b) = ‖c - b‖ • (-normalized (c - b)) := by rw [smul_neg, smul_normalized (sub_ne_zero.2 h2.symm)]
      rw [this, ← e, normalized, smul_smul]
    rw [e1]
    exact SameRay.sameRay_nonneg_smul_right _ (by positivity)
  · exact h1 h
  · exact h2 h

theorem rounded_of {a b c : Cfg n} (hr : NoRev a b c) (h1 : 0.000001 ≤ ‖b - mid a b‖) (h2 : 0.000001 ≤ ‖mid b c - b‖)
    (h3 : 0.000001 ≤ ‖normalized (b - mid a b) - normalized (mid b c - b)‖) : Rounded (mid a b) b (mid b c) := by
  refine ⟨h1, h2, h3, ?_⟩
  rw [sub_mid_right, mid_sub_left, normalized_smul (by norm_num), normalized_smul (by norm_num)]
  refine hr.ne ?_ ?_
  · rintro rfl; rw [sub_mid_right, sub_self, smul_zero, norm_zero] at h1; norm_num at h1
  · rintro rfl; rw [mid_sub_left, sub_self, smul_zero, norm_zero] at h2; norm_num at h2

/-- The blend at waypoint `b`: where it begins and ends, and how near it is. -/
theorem blend_facts {a b c : Cfg n} {m : ℝ} (hm : 0 < m) (hr : NoRev a b c) :
    let seg := circular (mid a b) b (mid b c) m
    0 ≤ seg.length ∧ (∃ d : ℝ, 0 ≤ d ∧ d ≤ 1 / 2 ∧ seg.config 0 = b - d • (b - a)) ∧
      (∃ d : ℝ, 0 ≤ d ∧ d ≤ 1 / 2 ∧ seg.config seg.length = b + d • (c - b)) ∧
      ∀ t, 0 ≤ t → t ≤ seg.length → ∃ q, (q ∈ segment ℝ a b ∨ q ∈ segment ℝ b c) ∧ ‖seg.config t - q‖ ≤ m := by
  by_cases h : ‖b - mid a b‖ < 0.000001 ∨ ‖mid b c - b‖ < 0.000001 ∨ ‖normalized (b - mid a b) - normalized (mid b c - b)‖ < 0.000001
  · obtain ⟨e1, e2⟩ := C127_no_corner (m := m) h
    intro seg
    refine ⟨e1.ge, ⟨0, le_rfl, by norm_num, by rw [zero_smul, sub_zero]; exact e2 _⟩, ⟨0, le_rfl, by norm_num, by rw [zero_smul, add_zero]; exact e2 _⟩, ?_⟩
    intro t _ _
    refine ⟨b, Or.inl (right_mem_segment ℝ a b), ?_⟩
    rw [show seg.config t = b from e2 t, sub_self, norm_zero]; exact hm.le
  · push Not at h
    have hR := rounded_of hr h.1 h.2.1 h.2.2
    obtain ⟨l1, ⟨d, d0, d1, d2, f1, f2, -, -⟩, -⟩ := C127_blend hR hm
    have hdev := fun s h0 h1 => C127_deviation hR hm (s := s) h0 h1
    rw [sub_mid_right, mid_sub_left] at *
    rw [norm_half] at h d1 d2
    rw [normalized_smul (by norm_num)] at f1 f2
    intro seg
    have n1 : 0 < ‖b - a‖ := by linarith [h.1]
    have n2 : 0 < ‖c - b‖ := by rw [norm_half] at h; linarith [h.2.1]
    refine ⟨l1.le, ⟨d / ‖b - a‖, by positivity, by rw [div_le_iff₀ n1]; linarith, ?_⟩, ⟨d / ‖c - b‖, by positivity, by rw [div_le_iff₀ n2]; linarith, ?_⟩, ?_⟩
    · rw [show seg.config 0 = b - d • normalized (b - a) from f1, normalized, smul_smul, ← div_eq_mul_inv]
    · rw [show seg.config seg.length = b + d • normalized (c - b) from f2, normalized, smul_smul, ← div_eq_mul_inv]
    · intro t t0 t1
      obtain ⟨q, hq, hq2⟩ := hdev t t0 t1
      refine ⟨q, ?_, hq2⟩
      rcases hq with hq | hq
      · left
        have : mid a b ∈ segment ℝ a b := ⟨0.5, 0.5, by norm_num, by norm_num, by norm_num, by rw [mid]; module⟩
        exact (convex_segment a b).segment_subset this (right_mem_segment ℝ a b) hq
      · right
        have : mid b c ∈ segment ℝ b c := ⟨0.5, 0.5, by norm_num, by norm_num, by norm_num, by rw [mid]; module⟩
        exact (convex_segment b c).segment_subset (left_mem_segment ℝ b c) this hq

/-! ## The segments between waypoints -/

theorem line_mem (a b : Cfg n) (t : ℝ) : (Seg.line a b).config t ∈ segment ℝ a b := by
  simp only [Seg.config]
  generalize t / ‖b - a‖ = s
  exact ⟨1 - max 0 (min 1 s), max 0 (min 1 s), sub_nonneg.2 (max_le zero_le_one (min_le_left _ _)), le_max_left _ _, by ring, rfl⟩

theorem NoReversal.tail {a : Cfg n} {l : List (Cfg n)} (h : NoReversal (a :: l)) : NoReversal l := by
  intro pre b c d post e
  exact h (a :: pre) b c d post (by rw [e]; rfl)

theorem NoReversal.head {a b c : Cfg n} {l : List (Cfg n)} (h : NoReversal (a :: b :: c :: l)) : NoRev a b c := h [] a b c l rfl

theorem Next.cons {a b c : Cfg n} {l : List (Cfg n)} (h : Next l b c) : Next (a :: l) b c := by
  obtain ⟨pre, post, e⟩ := h
  exact ⟨a :: pre, post, by rw [e]; rfl⟩

theorem OnPolyline.cons {a q : Cfg n} {l : List (Cfg n)} (h : OnPolyline l q) : OnPolyline (a :: l) q := by
  obtain ⟨b, c, h1, h2⟩ := h
  exact ⟨b, c, h1.cons, h2⟩

/-- The segments begin on the first half of the way to the next waypoint. -/
def Starts (start c1 c2 : Cfg n) : Prop := ∃ e : ℝ, 0 ≤ e ∧ e ≤ 1 / 2 ∧ start = c1 + e • (c2 - c1)

theorem Starts.mem {start c1 c2 : Cfg n} (h : Starts start c1 c2) : start ∈ segment ℝ c1 c2 := by
  obtain ⟨e, h0, h1, rfl⟩ := h
  exact ⟨1 - e, e, by linarith, h0, by ring, by module⟩

theorem starts_self (c1 c2 : Cfg n) : Starts c1 c1 c2 := ⟨0, le_rfl, by norm_num, by rw [zero_smul, add_zero]⟩

theorem build_near {m : ℝ} (hm : 0 < m) (c2 : Cfg n) (rest : List (Cfg n)) : ∀ (start c1 : Cfg n), Starts start c1 c2 → NoReversal (c1 :: c2 :: rest) →
    ∀ g ∈ buildSegments m start c1 (c2 :: rest), 0 ≤ g.length ∧
      ∀ t, 0 ≤ t → t ≤ g.length → ∃ q, OnPolyline (c1 :: c2 :: rest) q ∧ ‖g.config t - q‖ ≤ m := by
  induction rest generalizing c2 with
  | nil =>
      intro start c1 hs _ g hg
      simp only [buildSegments, List.mem_singleton] at hg
      subst hg
      refine ⟨norm_nonneg _, fun t _ _ => ⟨(Seg.line start c2).config t, ⟨c1, c2, ⟨[], [], rfl⟩, ?_⟩, by rw [sub_self, norm_zero]; exact hm.le⟩⟩
      exact (convex_segment c1 c2).segment_subset hs.mem (right_mem_segment ℝ c1 c2) (line_mem _ _ _)
  | cons c3 rest ih =>
      intro start c1 hs hr g hg
      obtain ⟨b1, b2, b3, b4⟩ := blend_facts hm hr.head
      simp only [buildSegments] at hg
      rw [if_pos hm] at hg
      rcases List.mem_append.1 hg with hg | hg
      · by_cases h : 0.000001 < ‖(circular (mid c1 c2) c2 (mid c2 c3) m).config 0 - start‖
        · rw [if_pos h, List.mem_singleton] at hg
          subst hg
          refine ⟨norm_nonneg _, fun t _ _ => ⟨_, ⟨c1, c2, ⟨[], c3 :: rest, rfl⟩, ?_⟩, by rw [sub_self, norm_zero]; exact hm.le⟩⟩
          refine (convex_segment c1 c2).segment_subset hs.mem ?_ (line_mem _ _ _)
          obtain ⟨d, d0, d1, e⟩ := b2
          rw [e]
          exact ⟨d, 1 - d, d0, by linarith, by ring, by module⟩
        · rw [if_neg h] at hg; cases hg
      · rcases List.mem_cons.1 hg with rfl | hg
        · refine ⟨b1, fun t t0 t1 => ?_⟩
          obtain ⟨q, hq, hq2⟩ := b4 t t0 t1
          refine ⟨q, ?_, hq2⟩
          rcases hq with hq | hq
          · exact ⟨c1, c2, ⟨[], c3 :: rest, rfl⟩, hq⟩
          · exact ⟨c2, c3, ⟨[c1], rest, rfl⟩, hq⟩
        · obtain ⟨h1, h2⟩ := ih c3 _ c2 b3 hr.tail g hg
          refine ⟨h1, fun t t0 t1 => ?_⟩
          obtain ⟨q, hq, hq2⟩ := h2 t t0 t1
          exact ⟨q, hq.cons, hq2⟩

theorem EndsMoving.tail {a b c : Cfg n} {l : List (Cfg n)} (h : EndsMoving (a :: b :: c :: l)) : EndsMoving (b :: c :: l) := by
  obtain ⟨pre, x, y, e, hne⟩ := h
  match pre with
  | [] => simp at e
  | p :: pre => exact ⟨pre, x, y, by simp only [List.cons_append, List.cons.injEq] at e; exact e.2, hne⟩

theorem build_last {m : ℝ} (c2 : Cfg n) (rest : List (Cfg n)) : ∀ (start c1 : Cfg n), Starts start c1 c2 → NoReversal (c1 :: c2 :: rest) →
    EndsMoving (c1 :: c2 :: rest) → ∃ pre g, buildSegments m start c1 (c2 :: rest) = pre ++ [g] ∧ 0 < g.length ∧
      ∀ x ∈ (c1 :: c2 :: rest).getLast?, g.config g.length = x := by
  induction rest generalizing c2 with
  | nil =>
      intro start c1 hs _ he
      have hne : start ≠ c2 := by
        obtain ⟨pre, x, y, e, hne⟩ := he
        match pre with
        | [] =>
            simp only [List.nil_append, List.cons.injEq, and_true] at e
            obtain ⟨rfl, rfl⟩ := e
            obtain ⟨e, h0, h1, rfl⟩ := hs
            intro h
            have : (1 - e) • (c2 - c1) = 0 := by
              have : c2 - (c1 + e • (c2 - c1)) = (1 - e) • (c2 - c1) := by module
              rw [← this, h, sub_self]
            rcases smul_eq_zero.1 this with h2 | h2
            · linarith
            · exact hne (sub_eq_zero.1 h2).symm
        | [p] => simp at e
        | p :: p' :: pre => simp at e
      obtain ⟨-, -, h3, -⟩ := C127_line hne
      refine ⟨[], Seg.line start c2, rfl, norm_pos_iff.2 (sub_ne_zero.2 hne.symm), ?_⟩
      intro x hx
      simp at hx
      rw [← hx]; exact h3
  | cons c3 rest ih =>
      intro start c1 hs hr he
      simp only [buildSegments]
      by_cases hm : 0 < m
      · obtain ⟨-, -, b3, -⟩ := blend_facts hm hr.head
        obtain ⟨pre, g, e, h1, h2⟩ := ih c3 _ c2 b3 hr.tail he.tail
        rw [if_pos hm, e]
        exact ⟨_, g, by rw [← List.cons_append, ← List.append_assoc], h1, fun x hx => h2 x (by simpa using hx)⟩
      · obtain ⟨pre, g, e, h1, h2⟩ := ih c3 c2 c2 (starts_self c2 c3) hr.tail he.tail
        rw [if_neg hm, e]
        exact ⟨_, g, by rw [← List.cons_append], h1, fun x hx => h2 x (by simpa using hx)⟩

end Simox.Tot
